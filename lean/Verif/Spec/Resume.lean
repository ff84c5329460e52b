import Verif.Model.Outcome

/-!
# Specification: sequences that are computed by calling functions, when one goes on after an exception

A `Plan` is what is still to be done to get the remaining elements, like `Gen` of Spec/Calls.lean, but it also says what is left
if a function throws: the element that was being computed is lost, and the sequence goes on behind it.
-/
set_option autoImplicit false
namespace Vlpp.Spec

inductive Plan (W α : Type) : Type 1 where
  /-- there are no more elements -/
  | done
  /-- here is an element -/
  | yield (x : α) (rest : Plan W α)
  /-- first call a function; the rest depends on its result, and is `lost` if it throws -/
  | call {β : Type} (f : Cpp W β) (k : β → Plan W α) (lost : Plan W α)

/-- What comes of asking for the next element. -/
inductive Drawn (W α : Type) : Type 1 where
  | item (x : α) (rest : Plan W α) (w : W)
  | stop (w : W)
  | threw (rest : Plan W α) (w : W)
  | fault

namespace Plan
variable {W α β : Type}

/-- Ask for the next element. -/
def draw : Plan W α → W → Drawn W α
  | done, w => .stop w
  | yield x r, w => .item x r w
  | call f k lost, w =>
    match f w with
    | .ok b w' => draw (k b) w'
    | .err w' => .threw lost w'
    | .fault => .fault

/-- the elements of a list -/
def ofList : List α → Plan W α
  | [] => done
  | x :: xs => yield x (ofList xs)

/-- if `f` throws, the element is lost -/
def map (f : α → Cpp W β) : Plan W α → Plan W β
  | done => done
  | yield x r => call (f x) (fun y => yield y (map f r)) (map f r)
  | call c k lost => call c (fun b => map f (k b)) (map f lost)

/-- if `f` throws, the element is lost -/
def filter (f : α → Cpp W Bool) : Plan W α → Plan W α
  | done => done
  | yield x r => call (f x) (fun b => bif b then yield x (filter f r) else filter f r) (filter f r)
  | call c k lost => call c (fun b => filter f (k b)) (filter f lost)

/-- one sequence after the other -/
def append : Plan W α → Plan W α → Plan W α
  | done, h => h
  | yield x r, h => yield x (append r h)
  | call c k lost, h => call c (fun b => append (k b) h) (append lost h)

/-- `n` times the same -/
def replicate : Nat → Plan W α → Plan W α
  | 0, _ => done
  | n + 1, g => append g (replicate n g)

/-- each element once; `seen` were delivered before -/
def firsts (eqv : α → α → Bool) : List α → Plan W α → Plan W α
  | _, done => done
  | seen, yield x r => bif seen.any (fun y => eqv y x) then firsts eqv seen r else yield x (firsts eqv (seen ++ [x]) r)
  | seen, call c k lost => call c (fun b => firsts eqv seen (k b)) (firsts eqv seen lost)

/-- `n` elements; an exception is not an element -/
def take : Nat → Plan W α → Plan W α
  | 0, _ => done
  | _ + 1, done => done
  | n + 1, yield x r => yield x (take n r)
  | n + 1, call c k lost => call c (fun b => take (n + 1) (k b)) (take (n + 1) lost)

/-- all but the first `n` elements; an exception is not an element -/
def drop : Nat → Plan W α → Plan W α
  | 0, g => g
  | _ + 1, done => done
  | n + 1, yield _ r => drop n r
  | n + 1, call c k lost => call c (fun b => drop (n + 1) (k b)) (drop (n + 1) lost)

/-- The next element `y` and the rest go to `item`, what is left without an element that was lost goes to `other`. -/
def head (item : α → Plan W α → Plan W β) (other : Plan W α → Plan W β) : Plan W α → Plan W β
  | done => done
  | yield y r => item y r
  | call c k lost => call c (fun b => head item other (k b)) (other lost)

/-- Pairs: the partner of an element that is lost is lost too. -/
def zip : Plan W α → Plan W β → Plan W (α × β)
  | done, _ => done
  | yield x r, h => head (fun y h' => yield (x, y) (zip r h')) (fun h' => zip r h') h
  | call c k lost, h => call c (fun b => zip (k b) h) (zip lost (drop 1 h))

/-- no function that is called throws -/
def Sure : Plan W α → Prop
  | done => True
  | yield _ r => Sure r
  | call f k _ => (∀ w w', f w ≠ .err w') ∧ ∀ b, Sure (k b)

/-- no function is called -/
def Quiet : Plan W α → Prop
  | done => True
  | yield _ r => Quiet r
  | call _ _ _ => False

end Plan

/-- What a program does with its enumerators of a lazy list. -/
inductive GoOp where
  /-- `CreateEnumerator()` -/
  | create
  /-- `Clone()` of enumerator `i` -/
  | clone (i : Nat)
  /-- `Next()` of enumerator `i`, and `Current()` if there is an element; an exception is caught -/
  | next (i : Nat)
  /-- `Reset()` of enumerator `i` -/
  | reset (i : Nat)

/-- What comes back. -/
inductive GoRet (α : Type) where
  | done
  | got (x : α)
  | ended
  | threw
  /-- there is no such enumerator -/
  | missing
  deriving DecidableEq, Repr

/-- All results of a program; `gs` is what is left for each enumerator, `g0` is the whole sequence. -/
def goRun {W α : Type} (g0 : Plan W α) : List (Plan W α) → W → List GoOp → Outcome W (List (GoRet α × W))
  | _, w, [] => .ok [] w
  | gs, w, .create :: ops => more .done w (goRun g0 (gs ++ [g0]) w ops)
  | gs, w, .clone i :: ops =>
    match gs[i]? with
    | none => more .missing w (goRun g0 gs w ops)
    | some g => more .done w (goRun g0 (gs ++ [g]) w ops)
  | gs, w, .next i :: ops =>
    match gs[i]? with
    | none => more .missing w (goRun g0 gs w ops)
    | some g =>
      match g.draw w with
      | .item x r w' => more (.got x) w' (goRun g0 (gs.set i r) w' ops)
      | .stop w' => more .ended w' (goRun g0 (gs.set i .done) w' ops)
      | .threw r w' => more .threw w' (goRun g0 (gs.set i r) w' ops)
      | .fault => .fault
  | gs, w, .reset i :: ops =>
    match gs[i]? with
    | none => more .missing w (goRun g0 gs w ops)
    | some _ => more .done w (goRun g0 (gs.set i g0) w ops)
where
  /-- one result before the others -/
  more (r : GoRet α) (w : W) : Outcome W (List (GoRet α × W)) → Outcome W (List (GoRet α × W))
    | .ok l w' => .ok ((r, w) :: l) w'
    | .err w' => .err w'
    | .fault => .fault

end Vlpp.Spec
