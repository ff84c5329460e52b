import Verif.Model.Outcome

/-!
# Specification: sequences that are computed by calling functions

A `Gen` describes what has to be done to get the elements of a sequence one after the other: which functions have to be called, in which
order, and when.  The functions may do anything to the world `W`: change it, depend on it, or throw.
-/
set_option autoImplicit false
namespace Vlpp.Spec

/-- What is still to be done to get the remaining elements. -/
inductive Gen (W α : Type) : Type 1 where
  /-- there are no more elements -/
  | done
  /-- here is an element -/
  | yield (x : α) (rest : Gen W α)
  /-- first call a function; the rest depends on its result -/
  | call {β : Type} (f : Cpp W β) (k : β → Gen W α)

namespace Gen
variable {W α β γ : Type}

/-- Get one element: make the calls that come before it, and no others. -/
def pull : Gen W α → W → Outcome W (Option (α × Gen W α))
  | done, w => .ok none w
  | yield x r, w => .ok (some (x, r)) w
  | call f k, w =>
    match f w with
    | .ok b w' => pull (k b) w'
    | .err w' => .err w'
    | .fault => .fault

/-- the elements of a list, without any call -/
def ofList : List α → Gen W α
  | [] => done
  | x :: xs => yield x (ofList xs)

/-- `f` is called when an element is wanted, not earlier -/
def map (f : α → Cpp W β) : Gen W α → Gen W β
  | done => done
  | yield x r => call (f x) (fun y => yield y (map f r))
  | call c k => call c (fun b => map f (k b))

/-- `f` is called for each element until one passes -/
def filter (f : α → Cpp W Bool) : Gen W α → Gen W α
  | done => done
  | yield x r => call (f x) (fun b => bif b then yield x (filter f r) else filter f r)
  | call c k => call c (fun b => filter f (k b))

/-- a test that does nothing but return a result -/
def pureTest (t : α → Bool) : α → Cpp W Bool := fun x w => .ok (t x) w

/-- one sequence after the other -/
def append : Gen W α → Gen W α → Gen W α
  | done, h => h
  | yield x r, h => yield x (append r h)
  | call c k, h => call c (fun b => append (k b) h)

/-- wait for the first element -/
def head (k : α → Gen W α → Gen W β) : Gen W α → Gen W β
  | done => done
  | yield x r => k x r
  | call c g => call c (fun b => head k (g b))

/-- pairs: an element of the first sequence is computed before one of the second -/
def zip : Gen W α → Gen W β → Gen W (α × β)
  | done, _ => done
  | yield x r, h => head (fun y s => yield (x, y) (zip r s)) h
  | call c k, h => call c (fun b => zip (k b) h)

/-- nothing is called after the last of the `n` elements -/
def take : Nat → Gen W α → Gen W α
  | 0, _ => done
  | _ + 1, done => done
  | n + 1, yield x r => yield x (take n r)
  | n + 1, call c k => call c (fun b => take (n + 1) (k b))

/-- the skipped elements are computed, together with the first one that is not skipped -/
def drop : Nat → Gen W α → Gen W α
  | 0, g => g
  | _ + 1, done => done
  | n + 1, yield _ r => drop n r
  | n + 1, call c k => call c (fun b => drop (n + 1) (k b))

/-- the whole sequence is computed again in each round -/
def replicate : Nat → Gen W α → Gen W α
  | 0, _ => done
  | n + 1, g => append g (replicate n g)

/-- many sequences one after the other -/
def concat : List (Gen W α) → Gen W α
  | [] => done
  | g :: gs => append g (concat gs)

/-- elements that are not equal to an earlier one -/
def firsts (eqv : α → α → Bool) : List α → Gen W α → Gen W α
  | _, done => done
  | seen, yield x r => bif seen.any (fun y => eqv y x) then firsts eqv seen r else yield x (firsts eqv (seen ++ [x]) r)
  | seen, call c k => call c (fun b => firsts eqv seen (k b))

/-- `for (auto x : sequence) acc = body(acc, x);` -/
def foldM.{u} {β : Type u} (body : β → α → Cpp W β) : β → Gen W α → Cpp W β
  | acc, done => fun w => .ok acc w
  | acc, yield x r => fun w =>
    match body acc x w with
    | .ok acc' w' => foldM body acc' r w'
    | .err w' => .err w'
    | .fault => .fault
  | acc, call f k => fun w =>
    match f w with
    | .ok b w' => foldM body acc (k b) w'
    | .err w' => .err w'
    | .fault => .fault

/-- compute all elements now -/
def collect (g : Gen W α) : Cpp W (List α) := foldM (fun l x => Cpp.pure' (l ++ [x])) [] g

/-! What functions do that use a sequence: `throw` stands for the Error about an empty sequence. -/

def throw : Cpp W β := fun w => .err w

/-- compute the first element only -/
def first (g : Gen W α) : Cpp W α := Cpp.bind' g.pull fun
  | none => throw
  | some (x, _) => Cpp.pure' x

def firstOr (d : α) (g : Gen W α) : Cpp W α := Cpp.bind' g.pull fun
  | none => Cpp.pure' d
  | some (x, _) => Cpp.pure' x

def isEmpty (g : Gen W α) : Cpp W Bool := Cpp.bind' g.pull fun o => Cpp.pure' o.isNone

/-- start with the first element, combine it with the others -/
def reduce (f : α → α → Cpp W α) (g : Gen W α) : Cpp W α := Cpp.bind' g.pull fun
  | none => throw
  | some (x, r) => foldM f x r

/-- compute all elements once, return the last one -/
def last (g : Gen W α) : Cpp W α := Cpp.bind' g.collect fun xs =>
  match xs.getLast? with
  | none => throw
  | some x => Cpp.pure' x

def lastOr (d : α) (g : Gen W α) : Cpp W α := Cpp.bind' g.collect fun xs => Cpp.pure' (xs.getLast?.getD d)

/-- compute all elements once -/
def count (g : Gen W α) : Cpp W Int := Cpp.bind' g.collect fun xs => Cpp.pure' xs.length

/-- Compute all elements TWICE.  The first time only their number is used.  If there are more elements the second time, the first
superfluous one causes an Error; if there are less, the rest of the array is what `Array::Resize` left there: old elements, then new ones. -/
def twice (old : List α) (fresh : α) (g : Gen W α) : Cpp W (List α) := Cpp.bind' g.collect fun xs =>
  Cpp.bind' (g.take (xs.length + 1)).collect fun ys =>
    if ys.length ≤ xs.length then Cpp.pure' (ys ++ (old.take xs.length ++ List.replicate (xs.length - old.length) fresh).drop ys.length)
    else throw

end Gen

/-! ## Programs that use enumerators -/

/-- A program works with enumerators on one sequence, which are numbered in the order of their creation. -/
inductive ReadOp where
  /-- `CreateEnumerator()` -/
  | create
  /-- `enumerators[i]->Clone()` -/
  | clone (i : Nat)
  | next (i : Nat)
  | current (i : Nat)
  | index (i : Nat)
  | reset (i : Nat)

/-- What a call returns. -/
inductive ReadRet (α : Type) where
  | done
  | flag (b : Bool)
  | item (x : α)
  | index (n : Int)
  /-- it throws; the program catches the exception and goes on -/
  | threw
  deriving DecidableEq, Repr

/-- An enumerator: the elements it has delivered, and what is left.  `none`: it has reached the end or an exception came out of it; it must
be reset before it is used again. -/
structure Reader (W α : Type) where
  seen : List α
  left : Option (Gen W α)

namespace Reader
variable {W α : Type}

/-- One call.  Only `Next` calls functions.  `none`: the program must not make this call. -/
def step (g0 : Gen W α) (rs : List (Reader W α)) (w : W) : ReadOp → Option (Outcome (List (Reader W α) × W) (ReadRet α))
  | .create => some (.ok .done (rs ++ [⟨[], some g0⟩], w))
  | .clone i => rs[i]?.map fun r => .ok .done (rs ++ [r], w)
  | .next i =>
    match rs[i]? with
    | some ⟨ys, some g⟩ =>
      match g.pull w with
      | .ok none w' => some (.ok (.flag false) (rs.set i ⟨ys, none⟩, w'))
      | .ok (some (x, r)) w' => some (.ok (.flag true) (rs.set i ⟨ys ++ [x], some r⟩, w'))
      | .err w' => some (.ok .threw (rs.set i ⟨ys, none⟩, w'))
      | .fault => some .fault
    | _ => none
  | .current i =>
    match rs[i]? with
    | some ⟨ys, some _⟩ => ys.getLast?.map fun x => .ok (.item x) (rs, w)
    | _ => none
  | .index i =>
    match rs[i]? with
    | some ⟨_ :: ys, some _⟩ => some (.ok (.index ys.length) (rs, w))
    | _ => none
  | .reset i => rs[i]?.map fun _ => .ok .done (rs.set i ⟨[], some g0⟩, w)

/-- All calls of a program: what they return, and what the world is after each of them. -/
def run (g0 : Gen W α) : List (Reader W α) → W → List ReadOp → Option (Outcome W (List (ReadRet α × W)))
  | _, w, [] => some (.ok [] w)
  | rs, w, op :: ops =>
    match step g0 rs w op with
    | none => none
    | some .fault => some .fault
    | some (.err (_, w')) => some (.err w')
    | some (.ok r (rs', w')) =>
      match run g0 rs' w' ops with
      | some (.ok l w'') => some (.ok ((r, w') :: l) w'')
      | o => o

end Reader
end Vlpp.Spec
