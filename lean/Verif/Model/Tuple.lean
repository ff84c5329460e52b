/-!
# Model of the comparison of `Pair` and `Tuple`

Source/Collections/Pair.h 95-110, Source/Primitives/Tuple.h 98-194, Source/Basic.h 247-280.  A comparison result is an `Ordering`, or `none`
for `std::partial_ordering::unordered`.  Simplification: both operands have the same element types.
-/
set_option autoImplicit false
namespace Vlpp
namespace Tuple

/-- the result of `<=>` -/
abbrev Cmp := Option Ordering

/-- an element type with its operators -/
structure ElemType where
  T : Type
  cmp : T → T → Cmp
  eq : T → T → Bool

/-- Tuple.h 124-126: one element for each type -/
def Tup : List ElemType → Type
  | [] => Unit
  | E :: Es => E.T × Tup Es

/-- Tuple.h 110-115: `order * comparison` -/
def star (order : Cmp) (comparison : Unit → Cmp) : Cmp :=
  if order ≠ some .eq then order else comparison ()

/-- Tuple.h 188-191: the comparisons that are folded, in the order of the elements -/
def comparisons : (Es : List ElemType) → Tup Es → Tup Es → List (Unit → Cmp)
  | [], _, _ => []
  | E :: Es, (a, x), (b, y) => (fun _ => E.cmp a b) :: comparisons Es x y

/-- Tuple.h 185-194 `TupleBase::Compare`: a left fold -/
def tupleCompare (Es : List ElemType) (x y : Tup Es) : Cmp :=
  (comparisons Es x y).foldl star (some .eq)

/-- Tuple.h 177-183 `TupleBase::AreEqual`: the elements' `==`, in the order of the elements -/
def equalities : (Es : List ElemType) → Tup Es → Tup Es → List Bool
  | [], _, _ => []
  | E :: Es, (a, x), (b, y) => E.eq a b :: equalities Es x y

/-- Tuple.h 177-183 `TupleBase::AreEqual`: a left fold -/
def areEqual (Es : List ElemType) (x y : Tup Es) : Bool :=
  (equalities Es x y).foldl (· && ·) true

/-- Pair.h 95-103 `operator<=>` -/
def pairCompare (K V : ElemType) (p q : K.T × V.T) : Cmp :=
  let result := K.cmp p.1 q.1
  if result ≠ some .eq then result
  else
    let result := V.cmp p.2 q.2
    if result ≠ some .eq then result
    else some .eq

/-- Pair.h 105-110 `operator==` -/
def pairEqual (K V : ElemType) (p q : K.T × V.T) : Bool := K.eq p.1 q.1 && V.eq p.2 q.2

/-- `std::partial_ordering`, `std::weak_ordering`, `std::strong_ordering` -/
inductive Category where
  | partial'
  | weak
  | strong
  deriving DecidableEq, Repr

/-- Basic.h 249-265: the template and its specialisations, by whether there are partial, weak and strong orderings -/
def orderingSelection : Bool → Bool → Bool → Category
  | false, true, _ => .weak
  | true, _, _ => .partial'
  | _, _, _ => .partial'

/-- Basic.h 267-280 `OrderingOf`, the type of the results -/
def orderingOf (cs : List Category) : Category :=
  orderingSelection (cs.count .partial' > 0) (cs.count .weak > 0) (cs.count .strong > 0)

end Tuple
end Vlpp
