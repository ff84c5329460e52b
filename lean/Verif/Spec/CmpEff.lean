import Verif.Spec.CallOrder
import Verif.Spec.Map
import Verif.Spec.MultiMap

/-!
# What sorted containers may do with comparisons that do something

A search asks for few comparisons between elements and the key; what it answers is what the last comparison said.  The
containers are the lists of what they contain.
-/
set_option autoImplicit false
namespace Vlpp.Spec
open QSortE (Answer)
variable {W α κ ν : Type}

/-- the answer "smaller" or "greater" -/
def Apart (a : Answer) : Prop := a = .ord .lt ∨ a = .ord .gt

/-- the answer that ends everything -/
def Bad (a : Answer) : Prop := a = .threw ∨ a = .unordered

inductive Found where
  /-- the element at this position was found to be equal -/
  | found (i : Nat)
  | absent
  /-- a comparison threw or answered "unordered" -/
  | failed

/-- the calls said that the first `s` elements are smaller (or come before one that is) and that the others are greater (or
come after one that is) -/
def Cut (xs : List α) (calls : List (α × κ × Answer)) (s : Nat) : Prop :=
  s ≤ xs.length ∧
    (∀ j, j < s → ∃ i c, j ≤ i ∧ i < s ∧ xs[i]? = some c.1 ∧ c ∈ calls ∧ c.2.2 = .ord .lt) ∧
    (∀ j, s ≤ j → j < xs.length → ∃ i c, s ≤ i ∧ i ≤ j ∧ xs[i]? = some c.1 ∧ c ∈ calls ∧ c.2.2 = .ord .gt)

/-- Searching `k` in `xs` makes these calls: at most log2(n) + 1 comparisons of elements with `k`, until one of them says
that the element is equal, or fails, or all elements are known to be smaller or greater. -/
structure Search (f : W → α → κ → Answer × W) (xs : List α) (k : κ) (w : W) (calls : List (α × κ × Answer)) (w' : W) (r : Found) : Prop where
  happened : Compares f w calls w'
  few : calls.length ≤ Nat.log2 xs.length + 1
  none : xs = [] → calls = []
  args : ∀ c ∈ calls, c.1 ∈ xs ∧ c.2.1 = k
  others : ∀ c ∈ calls.dropLast, Apart c.2.2
  last : match r with
    | .found i => ∃ x, xs[i]? = some x ∧ calls.getLast? = some (x, k, .ord .eq)
    | .absent => (∀ c ∈ calls, Apart c.2.2) ∧ ∃ s, Cut xs calls s
    | .failed => ∃ c, calls.getLast? = some c ∧ Bad c.2.2

/-- The search compared the element at `o` last: it is equal, or the last smaller one, or the first greater one. -/
def Near (xs : List α) (k : κ) (calls : List (α × κ × Answer)) (o : Nat) : Prop :=
  ∃ x, xs[o]? = some x ∧ (calls.getLast? = some (x, k, .ord .eq) ∨
    (calls.getLast? = some (x, k, .ord .lt) ∧ Cut xs calls (o + 1)) ∨ (calls.getLast? = some (x, k, .ord .gt) ∧ Cut xs calls o))

/-- Looking for the place of `k` in `xs`: a search, then the last element is compared once more; at most log2(n) + 2
comparisons; the place is after this element if it is smaller, before it otherwise, or a comparison failed (`none`). -/
structure Place (f : W → α → κ → Answer × W) (xs : List α) (k : κ) (w : W) (calls : List (α × κ × Answer)) (w' : W) (r : Option Nat) : Prop where
  happened : Compares f w calls w'
  few : calls.length ≤ Nat.log2 xs.length + 2
  none : xs = [] → calls = []
  args : ∀ c ∈ calls, c.1 ∈ xs ∧ c.2.1 = k
  others : ∀ c ∈ calls.dropLast, ¬ Bad c.2.2
  last : match r with
    | some i => i ≤ xs.length ∧ (xs ≠ [] → ∃ o x a search, calls = search ++ [(x, k, a)] ∧ xs[o]? = some x ∧ a ≠ .threw ∧
        i = (if a = .ord .lt then o + 1 else o) ∧ Near xs k search o)
    | .none => ∃ c, calls.getLast? = some c ∧ Bad c.2.2

/-- Values are compared one after the other, until one of them is equal or a comparison throws. -/
def Scan (g : W → α → κ → Option Bool × W) (k : κ) : W → List α → Nat → W → Found → Prop
  | w, [], _, w', r => w' = w ∧ r = .absent
  | w, x :: xs, i, w', r =>
    ∃ b w1, g w x k = (b, w1) ∧
      match b with
      | none => w' = w1 ∧ r = .failed
      | some true => w' = w1 ∧ r = .found i
      | some false => Scan g k w1 xs (i + 1) w' r

/-- what a dictionary does; `ps` are its pairs -/
def DictDoes (f : W → κ → κ → Answer × W) (w : W) (ps : List (κ × ν)) : MapOp κ ν → MapRet ν → W → List (κ × ν) → Prop
  | .contains k, ret, w', ps' => ∃ calls r, Search f (ps.map (·.1)) k w calls w' r ∧ ps' = ps ∧
      ret = match r with
        | .found _ => .flag true
        | .absent => .flag false
        | .failed => .error
  | .get k, ret, w', ps' => ∃ calls r, Search f (ps.map (·.1)) k w calls w' r ∧ ps' = ps ∧
      match r with
      | .found i => ∃ p, ps[i]? = some p ∧ ret = .value p.2
      | .absent => ret = .error
      | .failed => ret = .error
  | .remove k, ret, w', ps' => ∃ calls r, Search f (ps.map (·.1)) k w calls w' r ∧
      match r with
      | .found i => ret = .flag true ∧ ps' = ps.eraseIdx i
      | .absent => ret = .flag false ∧ ps' = ps
      | .failed => ret = .error ∧ ps' = ps
  | .set k v, ret, w', ps' => ∃ calls w1 r, Search f (ps.map (·.1)) k w calls w1 r ∧
      match r with
      | .found i => w' = w1 ∧ ∃ p, ps[i]? = some p ∧ ret = .flag true ∧ ps' = ps.set i (p.1, v)
      | .absent => ∃ calls2 q, Place f (ps.map (·.1)) k w1 calls2 w' q ∧
          match q with
          | some i => ret = .flag true ∧ ps' = ps.take i ++ (k, v) :: ps.drop i
          | none => ret = .error ∧ ps' = ps
      | .failed => w' = w1 ∧ ret = .error ∧ ps' = ps
  | .add k v, ret, w', ps' => ∃ calls w1 r, Search f (ps.map (·.1)) k w calls w1 r ∧
      match r with
      | .absent => ∃ calls2 q, Place f (ps.map (·.1)) k w1 calls2 w' q ∧
          match q with
          | some i => ret = .flag true ∧ ps' = ps.take i ++ (k, v) :: ps.drop i
          | none => ret = .error ∧ ps' = ps
      | _ => w' = w1 ∧ ret = .error ∧ ps' = ps
  | .clear, ret, w', ps' => w' = w ∧ ret = .flag true ∧ ps' = []

/-- What a group does; `ps` are its keys with their values.  `lost` is the number of lists of values that are lost: one if
the key was not found, and then a comparison failed while it was added. -/
def GroupDoes (f : W → κ → κ → Answer × W) (g : W → ν → ν → Option Bool × W) (w : W) (ps : List (κ × List ν)) :
    GroupOp κ ν → GroupRet ν → W → List (κ × List ν) → Nat → Prop
  | .containsKey k, ret, w', ps', lost => lost = 0 ∧ ∃ calls r, Search f (ps.map (·.1)) k w calls w' r ∧ ps' = ps ∧
      ret = match r with
        | .found _ => .flag true
        | .absent => .flag false
        | .failed => .error
  | .get k, ret, w', ps', lost => lost = 0 ∧ ∃ calls r, Search f (ps.map (·.1)) k w calls w' r ∧ ps' = ps ∧
      match r with
      | .found i => ∃ p, ps[i]? = some p ∧ ret = .values p.2
      | .absent => ret = .error
      | .failed => ret = .error
  | .removeKey k, ret, w', ps', lost => lost = 0 ∧ ∃ calls r, Search f (ps.map (·.1)) k w calls w' r ∧
      match r with
      | .found i => ret = .flag true ∧ ps' = ps.eraseIdx i
      | .absent => ret = .flag false ∧ ps' = ps
      | .failed => ret = .error ∧ ps' = ps
  | .contains k v, ret, w', ps', lost => lost = 0 ∧ ps' = ps ∧ ∃ calls w1 r, Search f (ps.map (·.1)) k w calls w1 r ∧
      match r with
      | .found i => ∃ p q, ps[i]? = some p ∧ Scan g v w1 p.2 0 w' q ∧
          ret = match q with
            | .found _ => .flag true
            | .absent => .flag false
            | .failed => .error
      | .absent => w' = w1 ∧ ret = .flag false
      | .failed => w' = w1 ∧ ret = .error
  | .remove k v, ret, w', ps', lost => lost = 0 ∧ ∃ calls w1 r, Search f (ps.map (·.1)) k w calls w1 r ∧
      match r with
      | .found i => ∃ p q, ps[i]? = some p ∧ Scan g v w1 p.2 0 w' q ∧
          match q with
          | .found j => ret = .done ∧ ps' = if p.2.length = 1 then ps.eraseIdx i else ps.set i (p.1, p.2.eraseIdx j)
          | .absent => ret = .done ∧ ps' = ps
          | .failed => ret = .error ∧ ps' = ps
      | .absent => w' = w1 ∧ ret = .done ∧ ps' = ps
      | .failed => w' = w1 ∧ ret = .error ∧ ps' = ps
  | .add k v, ret, w', ps', lost => ∃ calls w1 r, Search f (ps.map (·.1)) k w calls w1 r ∧
      match r with
      | .found i => w' = w1 ∧ ∃ p, ps[i]? = some p ∧ ret = .flag true ∧ ps' = ps.set i (p.1, p.2 ++ [v]) ∧ lost = 0
      | .absent => ∃ calls2 q, Place f (ps.map (·.1)) k w1 calls2 w' q ∧
          match q with
          | some i => ret = .flag true ∧ ps' = ps.take i ++ (k, [v]) :: ps.drop i ∧ lost = 0
          | none => ret = .error ∧ ps' = ps ∧ lost = 1
      | .failed => w' = w1 ∧ ret = .error ∧ ps' = ps ∧ lost = 0
  | .clear, ret, w', ps', lost => lost = 0 ∧ w' = w ∧ ret = .flag true ∧ ps' = []

/-- the answers do not depend on the state of the program (the comparisons may still change it) -/
def Answers (f : W → α → κ → Answer × W) (cmp : α → κ → Option Ordering) : Prop :=
  ∀ w a b, (f w a b).1 = match cmp a b with
    | some o => .ord o
    | none => .unordered

/-- calls one after the other -/
def DictRuns (f : W → κ → κ → Answer × W) (w : W) (ps : List (κ × ν)) :
    List (MapOp κ ν) → List (MapRet ν) → W → List (κ × ν) → Prop
  | [], rs, w', ps' => rs = [] ∧ w' = w ∧ ps' = ps
  | op :: ops, rs, w', ps' => ∃ r rs' w1 ps1, rs = r :: rs' ∧ DictDoes f w ps op r w1 ps1 ∧ DictRuns f w1 ps1 ops rs' w' ps'

/-- calls one after the other; `lost` is the number of all lists that are lost -/
def GroupRuns (f : W → κ → κ → Answer × W) (g : W → ν → ν → Option Bool × W) (w : W) (ps : List (κ × List ν)) :
    List (GroupOp κ ν) → List (GroupRet ν) → W → List (κ × List ν) → Nat → Prop
  | [], rs, w', ps', lost => rs = [] ∧ w' = w ∧ ps' = ps ∧ lost = 0
  | op :: ops, rs, w', ps', lost => ∃ r rs' w1 ps1 lost1 lost2, rs = r :: rs' ∧ GroupDoes f g w ps op r w1 ps1 lost1 ∧
      GroupRuns f g w1 ps1 ops rs' w' ps' lost2 ∧ lost = lost1 + lost2

end Vlpp.Spec
