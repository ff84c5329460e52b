import Verif.Model.LazyList

/-!
# Programs made of lazy list functions

A `Pipe` is an expression built from containers by member functions of `LazyList<T>`, nested in any way; `build` makes
the calls of Model/LazyList.lean from the inside to the outside.
The comparison functions given to `Distinct` etc. never answer "unordered" here.
-/
set_option autoImplicit false
namespace Vlpp

inductive Pipe : Type → Type 1 where
  | list {α : Type} (xs : List α) : Pipe α
  | iter {α : Type} (xs : List α) : Pipe α
  | range (start count : Int) : Pipe Int
  | empty {α : Type} : Pipe α
  | dict {κ ν : Type} (d : DictC κ ν) : Pipe (κ × ν)
  | group {κ ν : Type} (g : GroupC κ ν) (m : κ → List ν) : Pipe (κ × ν)
  | select {α β : Type} (p : Pipe α) (f : α → β) : Pipe β
  | where' {α : Type} (p : Pipe α) (f : α → Bool) : Pipe α
  | concat {α : Type} (p q : Pipe α) : Pipe α
  | pairwise {α β : Type} (p : Pipe α) (q : Pipe β) : Pipe (α × β)
  | take {α : Type} (p : Pipe α) (n : Int) : Pipe α
  | skip {α : Type} (p : Pipe α) (n : Int) : Pipe α
  | repeat' {α : Type} (p : Pipe α) (n : Int) : Pipe α
  | distinct {α : Type} (p : Pipe α) (ord : α → α → Ordering) : Pipe α
  | reverse {α : Type} (p : Pipe α) : Pipe α
  | intersect {α : Type} (p q : Pipe α) (ord : α → α → Ordering) : Pipe α
  | except {α : Type} (p q : Pipe α) (ord : α → α → Ordering) : Pipe α
  | union {α : Type} (p q : Pipe α) (ord : α → α → Ordering) : Pipe α
  | selectMany {α β : Type} (p : Pipe α) (f : α → Pipe β) : Pipe β
  | evaluate {α : Type} (p : Pipe α) (forceCopy : Bool) : Pipe α
  | orderBy {α : Type} (p : Pipe α) (ord : α → α → Ordering) : Pipe α

namespace Pipe

/-- the result of a function that may raise an Error -/
def ofOption {α : Type 1} : Option α → Option (Outcome Unit α)
  | some x => some (.ok x ())
  | none => some (.err ())

/-- call `k` with the result of `r` -/
def andThen {α β : Type 1} (r : Option (Outcome Unit α)) (k : α → Option (Outcome Unit β)) : Option (Outcome Unit β) :=
  match r with
  | some (.ok x _) => k x
  | some (.err _) => some (.err ())
  | some .fault => some .fault
  | none => none

/-- the value, if there is no Error, undefined behaviour or endless loop -/
def value {α : Type 1} : Option (Outcome Unit α) → Option α
  | some (.ok x _) => some x
  | _ => none

/-- make the calls -/
def build : {α : Type} → Pipe α → Option (Outcome Unit (LazyList.{0, 0} α))
  | _, .list xs => some (.ok (.ofList xs) ())
  | _, .iter xs => some (.ok (.ofIter xs) ())
  | _, .range start count => some (.ok (.range start count) ())
  | _, .empty => some (.ok .empty ())
  | _, .dict d => some (.ok (.ofDict d) ())
  | _, .group g _ => some (.ok (.ofGroup g) ())
  | _, .select p f => andThen p.build fun L => ofOption (L.select f)
  | _, .where' p f => andThen p.build fun L => ofOption (L.where' f)
  | _, .concat p q => andThen p.build fun L => andThen q.build fun M => ofOption (L.concat M)
  | _, .pairwise p q => andThen p.build fun L => andThen q.build fun M => ofOption (L.pairwise M)
  | _, .take p n => andThen p.build fun L => ofOption (L.take n)
  | _, .skip p n => andThen p.build fun L => ofOption (L.skip n)
  | _, .repeat' p n => andThen p.build fun L => ofOption (L.repeat' n)
  | _, .distinct p ord => andThen p.build fun L => ofOption (L.distinct (fun a b => some (ord a b)))
  | _, .reverse p => andThen p.build fun L => L.reverse
  | _, .intersect p q ord => andThen p.build fun L => andThen q.build fun M => L.intersect M (fun a b => some (ord a b))
  | _, .except p q ord => andThen p.build fun L => andThen q.build fun M => L.except M (fun a b => some (ord a b))
  | _, .union p q ord =>
    andThen p.build fun L => andThen q.build fun M => ofOption (L.union M (fun a b => some (ord a b)))
  | _, .selectMany p f => andThen p.build fun L => L.selectMany? (fun x => value (f x).build)
  | _, .evaluate p forceCopy => andThen p.build fun L => L.evaluate forceCopy
  | _, .orderBy p ord => andThen p.build fun L => L.orderBy (fun a b => some (ord a b))

end Pipe
end Vlpp
