import Verif.Model.CallList
import Verif.Model.SortEff

/-!
# Model of `OrderBy`, `OrderByKey`, `OrderBySelf` and `GroupBy` with functions that do something

Source/Collections/Operation.h 396-461, 929-943.  As in Model/CallList.lean the functions work on a world `W`.
Copying elements does not throw and does not touch the world.
-/
set_option autoImplicit false
namespace Vlpp.CallList
variable {W α κ : Type}

/-- the user's code that `SortLambda` calls -/
def sortEnv (f : W → α → α → QSortE.Answer × W) : QSortE.Env α W := ⟨f, fun w _ => (true, w)⟩

/-- Operation.h 396-408 `OrderBy`: copy everything to a new list, sort it (if there is something to sort), return the list.
An exception leaves the function; the new list is gone. -/
def orderBy (L : CallList W α) (f : W → α → α → QSortE.Answer × W) (w : W) : Option (Outcome W (CallList W α)) :=
  andThen (L.toList w) fun sorted w =>
    if sorted.length > 0 then
      match QSortE.sort (sortEnv f) 0 sorted.length 0 ⟨sorted, w, []⟩ with
      | none => none
      | some (.ok _ st) => some (.ok (ofList st.buf) st.s)
      | some (.error st) => some (.err st.s)
      | some (.thrown st) => some (.err st.s)
      | some .fault => some .fault
    else some (.ok (ofList sorted) w)

/-- the answer of a comparison of keys that does not touch the world -/
def answerOf : Option Ordering → QSortE.Answer
  | some o => .ord o
  | none => .unordered

/-- Operation.h 432 `f(a) <=> f(b)`: the order of the two calls of `f` is not specified, `leftFirst` chooses it.
`f` returns a key, or throws (`none`); `cmp` is `<=>` of the keys. -/
def byKey (f : W → α → Option κ × W) (cmp : κ → κ → Option Ordering) (leftFirst : Bool) (w : W) (a b : α) : QSortE.Answer × W :=
  if leftFirst then
    match f w a with
    | (none, w) => (.threw, w)
    | (some x, w) =>
      match f w b with
      | (none, w) => (.threw, w)
      | (some y, w) => (answerOf (cmp x y), w)
  else
    match f w b with
    | (none, w) => (.threw, w)
    | (some y, w) =>
      match f w a with
      | (none, w) => (.threw, w)
      | (some x, w) => (answerOf (cmp x y), w)

/-- Operation.h 424-436 `OrderByKey`. -/
def orderByKey (L : CallList W α) (f : W → α → Option κ × W) (cmp : κ → κ → Option Ordering) (leftFirst : Bool) (w : W) :
    Option (Outcome W (CallList W α)) :=
  L.orderBy (byKey f cmp leftFirst) w

/-- Operation.h 448-460 `OrderBySelf`. -/
def orderBySelf (L : CallList W α) (cmp : α → α → Option Ordering) (w : W) : Option (Outcome W (CallList W α)) :=
  L.orderBy (fun w a b => (answerOf (cmp a b), w)) w

/-- Operation.h 929-943 `GroupBy`: the keys of the pairs, `Select(f).Distinct()`.  Simplification: the last `Select`, which
makes the pairs, only calls `groupOf` for each key. -/
def groupKeys (L : CallList W α) (f : α → Cpp W κ) (cmp : κ → κ → Option Ordering) (w : W) : Option (Outcome W (CallList W κ)) :=
  andThen (L.select f w) fun M w => M.distinct cmp w

/-- Operation.h 938-941: the lazy list in the pair for the key `k`; `eq` is `==` of keys. -/
def groupOf (L : CallList W α) (f : α → Cpp W κ) (eq : κ → κ → Bool) (k : κ) (w : W) : Option (Outcome W (CallList W α)) :=
  L.where' (fun t => Cpp.bind' (f t) fun k' => Cpp.pure' (eq k k')) w

/-- One round of a loop over `GroupBy(f)` (Operation.h 929-943) that copies each group (OperationCopyFrom.h 91-103):
`List<T> items; CopyFrom(items, g); result.Add({ k, items });`.
Simplification: should copying not end, this counts as undefined. -/
def copyGroup (L : CallList W α) (f : α → Cpp W κ) (eq : κ → κ → Bool) (result : List (κ × List α)) (k : κ) : Cpp W (List (κ × List α)) :=
  fun w =>
    match andThen (L.groupOf f eq k w) (fun G w => G.toList w) with
    | some (.ok items w) => .ok (result ++ [(k, items)]) w
    | some (.err w) => .err w
    | some .fault => .fault
    | none => .fault

/-- The loop: Operation.h 929-943, `for (auto [k, g] : xs.GroupBy(f)) { ... }`. -/
def forGroups (L : CallList W α) (f : α → Cpp W κ) (cmp : κ → κ → Option Ordering) (eq : κ → κ → Bool) (w : W) :
    Option (Outcome W (List (κ × List α))) :=
  andThen (L.groupKeys f cmp w) fun K w => K.aggregateInit [] (L.copyGroup f eq) w

end Vlpp.CallList
