import Verif.Lemmas.CmpPure
import Verif.Props.DictProps
import Verif.Props.GroupProps

/-!
# C99: Sorted containers with comparisons that have effects, throw, or are inconsistent

Whatever the comparisons of keys and values do: nothing is undefined, every search ends after at most log2(n) + 1
comparisons, and a comparison that throws or answers "unordered" leaves the container as it was.  One exception: if a
comparison throws while `Group::Add` inserts a new key, the list of values that was made for it is lost.
-/
set_option autoImplicit false
namespace Vlpp
open QSortE (Answer)
open Spec (Answers Compares Search Place Scan Found Apart Bad DictDoes DictRuns GroupDoes GroupRuns)
variable {W α κ ν : Type}

namespace CmpEff

theorem reading_ok {σ β : Type} {m : σ → Cpp W β} {w w' : W} {s : σ} {v : β} (h : m s w = .ok v w') :
    reading m (w, s) = .ok v (w', s) := by simp [reading, h]

theorem reading_err {σ β : Type} {m : σ → Cpp W β} {w w' : W} {s : σ} (h : m s w = .err w') :
    reading m (w, s) = .err (w', s) := by simp [reading, h]

theorem writing_ok {σ β : Type} {m : Cpp σ β} {w : W} {s s' : σ} {v : β} (h : m s = .ok v s') :
    writing m (w, s) = .ok v (w, s') := by simp [writing, h]

theorem writing_err {σ β : Type} {m : Cpp σ β} {w : W} {s s' : σ} (h : m s = .err s') :
    writing m (w, s) = .err (w, s') := by simp [writing, h]

theorem insertRaw_ok {xs : List α} {i : Nat} (h : i ≤ xs.length) (v : α) :
    SortedSeq.insertRaw (i : Int) v xs = .ok (i : Int) (xs.take i ++ v :: xs.drop i) := by
  unfold SortedSeq.insertRaw
  rw [Cpp.bind_ok (Cpp.get_apply xs), if_pos ⟨by omega, by omega⟩]
  simp [Cpp.bind_apply]

theorem sortedRemoveAt_ok {xs : List α} {i : Nat} (h : i < xs.length) :
    SortedSeq.removeAt (i : Int) xs = .ok true (xs.eraseIdx i) := by
  unfold SortedSeq.removeAt
  rw [Cpp.bind_ok (Cpp.get_apply xs), Cpp.bind_ok (Cpp.check_true ⟨by omega, by omega⟩ xs)]
  simp [Cpp.bind_apply, List.eraseIdx_eq_take_drop_succ]

theorem removeAt_ok {xs : List α} {i : Nat} (h : i < xs.length) :
    SeqList.removeAt (i : Int) xs = .ok true (xs.eraseIdx i) := sortedRemoveAt_ok h

theorem insert_ok {xs : List α} {i : Nat} (h : i ≤ xs.length) (v : α) :
    SeqList.insert (i : Int) v xs = .ok (i : Int) (xs.take i ++ v :: xs.drop i) := by
  unfold SeqList.insert
  rw [Cpp.bind_ok (Cpp.get_apply xs), Cpp.bind_ok (Cpp.check_true ⟨by omega, by omega⟩ xs)]
  simp [Cpp.bind_apply]

theorem get_ok {xs : List α} {i : Nat} {x : α} (h : xs[i]? = some x) : SeqList.get (i : Int) xs = .ok x xs := by
  have hi : i < xs.length := (List.getElem?_eq_some_iff.1 h).1
  unfold SeqList.get
  rw [Cpp.bind_ok (Cpp.get_apply xs), Cpp.bind_ok (Cpp.check_true ⟨by omega, by omega⟩ xs)]
  simp [h]

theorem get_neg (xs : List α) : SeqList.get (-1) xs = .err xs := by
  unfold SeqList.get
  rw [Cpp.bind_ok (Cpp.get_apply xs), Cpp.bind_err (Cpp.check_false (by omega) xs)]

theorem setAt_ok {xs : List α} {i : Nat} (h : i < xs.length) (v : α) : SeqList.setAt (i : Int) v xs = .ok true (xs.set i v) := by
  unfold SeqList.setAt
  rw [Cpp.bind_ok (Cpp.get_apply xs), Cpp.bind_ok (Cpp.check_true ⟨by omega, by omega⟩ xs)]
  simp [Cpp.bind_apply]

theorem map_eraseIdx {α β : Type} (f : α → β) (l : List α) (i : Nat) : (l.eraseIdx i).map f = (l.map f).eraseIdx i := by
  simp [List.eraseIdx_eq_take_drop_succ, List.map_take, List.map_drop]

theorem set_self {l : List α} {i : Nat} {x : α} (h : l[i]? = some x) : l.set i x = l := by
  apply List.ext_getElem?
  intro j
  by_cases e : i = j
  · subst e
    have := (List.getElem?_eq_some_iff.1 h).1
    rw [List.getElem?_set_self this, h]
  · rw [List.getElem?_set_ne e]

end CmpEff

open CmpEff

/-- **C99, `SortedList`.** For every content and every comparison function: `IndexOf`, `Contains`, `Remove` make one search,
`Add` looks for a place; what they return and what they change is what the comparisons said; if one fails, nothing is
changed. -/
theorem C99_sortedList (f : W → α → κ → Answer × W) (key : α → κ) (xs : List α) (w : W) :
    (∀ k, ∃ calls w' r, Search f xs k w calls w' r ∧
      Sorted.indexOf f k (w, xs) = (match r with
        | .found i => .ok (i : Int) (w', xs)
        | .absent => .ok (-1) (w', xs)
        | .failed => .err (w', xs)) ∧
      Sorted.contains f k (w, xs) = (match r with
        | .found _ => .ok true (w', xs)
        | .absent => .ok false (w', xs)
        | .failed => .err (w', xs)) ∧
      Sorted.remove f k (w, xs) = (match r with
        | .found i => .ok true (w', xs.eraseIdx i)
        | .absent => .ok false (w', xs)
        | .failed => .err (w', xs))) ∧
    (∀ v, ∃ calls w' r, Place f xs (key v) w calls w' r ∧
      Sorted.add f key v (w, xs) = (match r with
        | some i => .ok (i : Int) (w', xs.take i ++ v :: xs.drop i)
        | none => .err (w', xs))) := by
  constructor
  · intro k
    obtain ⟨calls, w', r, hs, e⟩ := indexOf_search f xs k w
    refine ⟨calls, w', r, hs, ?_⟩
    cases r with
    | found i =>
      have h1 : Sorted.indexOf f k (w, xs) = .ok (i : Int) (w', xs) := reading_ok e
      obtain ⟨x, hx, _⟩ := hs.last
      have hi : i < xs.length := (List.getElem?_eq_some_iff.1 hx).1
      refine ⟨h1, ?_, ?_⟩
      · rw [Sorted.contains, Cpp.bind_ok h1]; simp
      · rw [Sorted.remove, Cpp.bind_ok h1, Cpp.bind_ok (Cpp.get_apply _), if_pos (by simp only; omega), Cpp.bind_ok (writing_ok (sortedRemoveAt_ok hi))]
        rfl
    | absent =>
      have h1 : Sorted.indexOf f k (w, xs) = .ok (-1) (w', xs) := reading_ok e
      refine ⟨h1, ?_, ?_⟩
      · rw [Sorted.contains, Cpp.bind_ok h1]; rfl
      · rw [Sorted.remove, Cpp.bind_ok h1, Cpp.bind_ok (Cpp.get_apply _), if_neg (by simp)]; rfl
    | failed =>
      have h1 : Sorted.indexOf f k (w, xs) = .err (w', xs) := reading_err e
      exact ⟨h1, by rw [Sorted.contains, Cpp.bind_err h1], by rw [Sorted.remove, Cpp.bind_err h1]⟩
  · intro v
    obtain ⟨calls, w', r, hs, e⟩ := placeOf_place f xs (key v) w
    refine ⟨calls, w', r, hs, ?_⟩
    cases r with
    | none => rw [Sorted.add, Cpp.bind_err (reading_err e)]
    | some i => rw [Sorted.add, Cpp.bind_ok (reading_ok e), writing_ok (insertRaw_ok hs.last.1 v)]

/-- **C99, `List`.** `IndexOf`, `Contains` and `Remove` compare the elements one after the other with `==` until one is
equal; if a comparison throws, nothing is changed. -/
theorem C99_list (g : W → α → κ → Option Bool × W) (xs : List α) (w : W) (k : κ) :
    ∃ w' r, Scan g k w xs 0 w' r ∧
      Plain.indexOf g k (w, xs) = (match r with
        | .found i => .ok (i : Int) (w', xs)
        | .absent => .ok (-1) (w', xs)
        | .failed => .err (w', xs)) ∧
      Plain.contains g k (w, xs) = (match r with
        | .found _ => .ok true (w', xs)
        | .absent => .ok false (w', xs)
        | .failed => .err (w', xs)) ∧
      Plain.remove g k (w, xs) = (match r with
        | .found i => .ok true (w', xs.eraseIdx i)
        | .absent => .ok false (w', xs)
        | .failed => .err (w', xs)) := by
  obtain ⟨w', r, hs, e, hr⟩ := findLoop_scan g k xs 0 w
  refine ⟨w', r, hs, ?_⟩
  cases r with
  | found i =>
    have h1 : Plain.indexOf g k (w, xs) = .ok (i : Int) (w', xs) := reading_ok e
    have hi : i < xs.length := by have := (hr i rfl).2; omega
    refine ⟨h1, ?_, ?_⟩
    · rw [Plain.contains, Cpp.bind_ok h1]; simp
    · rw [Plain.remove, Cpp.bind_ok h1, Cpp.bind_ok (Cpp.get_apply _), if_pos (by simp only; omega), Cpp.bind_ok (writing_ok (removeAt_ok hi))]
      rfl
  | absent =>
    have h1 : Plain.indexOf g k (w, xs) = .ok (-1) (w', xs) := reading_ok e
    refine ⟨h1, ?_, ?_⟩
    · rw [Plain.contains, Cpp.bind_ok h1]; rfl
    · rw [Plain.remove, Cpp.bind_ok h1, Cpp.bind_ok (Cpp.get_apply _), if_neg (by simp)]; rfl
  | failed =>
    have h1 : Plain.indexOf g k (w, xs) = .err (w', xs) := reading_err e
    exact ⟨h1, by rw [Plain.contains, Cpp.bind_err h1], by rw [Plain.remove, Cpp.bind_err h1]⟩

/-! ## `Dictionary` -/

/-- the dictionary with these pairs -/
def CmpEff.dictOf (ps : List (κ × ν)) : DictC κ ν := ⟨ps.map (·.1), ps.map (·.2)⟩

theorem CmpEff.dict_insert (w : W) (ps : List (κ × ν)) {i : Nat} (hi : i ≤ ps.length) (k : κ) (v : ν) :
    ((do
      let index ← writing (DictC.onKeys (SortedSeq.insertRaw (i : Int) k))
      let _ ← writing (DictC.onValues (SeqList.insert index v))
      return true : Cpp (W × DictC κ ν) Bool) (w, dictOf ps)) = .ok true (w, dictOf (ps.take i ++ (k, v) :: ps.drop i)) := by
  have h1 : DictC.onKeys (SortedSeq.insertRaw (i : Int) k) (dictOf ps) =
      .ok (i : Int) ⟨(ps.map (·.1)).take i ++ k :: (ps.map (·.1)).drop i, ps.map (·.2)⟩ := by
    rw [DictC.onKeys, dictOf, insertRaw_ok (by simpa using hi)]
  rw [Cpp.bind_ok (writing_ok h1), Cpp.bind_ok (writing_ok (v := (i : Int)) (s' := dictOf (ps.take i ++ (k, v) :: ps.drop i)) ?_)]
  · rfl
  · rw [DictC.onValues, insert_ok (by simpa using hi)]
    simp [dictOf, List.map_take, List.map_drop]

theorem CmpEff.dict_step (f : W → κ → κ → Answer × W) (w : W) (ps : List (κ × ν)) (op : Spec.MapOp κ ν) :
    ∃ r w' ps', Dict.step f (w, dictOf ps) op = some ((w', dictOf ps'), r) ∧ DictDoes f w ps op r w' ps' := by
  have found : ∀ {k : κ} {calls : List (κ × κ × Answer)} {w' : W} {i : Nat}, Search f (ps.map (·.1)) k w calls w' (.found i) →
      ∃ p, ps[i]? = some p := by
    intro k calls w' i h
    obtain ⟨x, hx, _⟩ := h.last
    have hi : i < ps.length := by simpa using (List.getElem?_eq_some_iff.1 hx).1
    exact ⟨ps[i], by simp [hi]⟩
  cases op with
  | clear => exact ⟨_, w, [], rfl, rfl, rfl, rfl⟩
  | contains k =>
    obtain ⟨calls, w', r, hs, e⟩ := indexOf_search f (ps.map (·.1)) k w
    cases r with
    | found i =>
      refine ⟨_, w', ps, ?_, calls, .found i, hs, rfl, rfl⟩
      rw [Dict.step, Dict.contains, Cpp.bind_ok (reading_ok (m := fun d : DictC κ ν => indexOf f k d.keys) (s := dictOf ps) (v := (i : Int)) (w' := w') e)]
      simp [observe]
    | absent =>
      refine ⟨_, w', ps, ?_, calls, .absent, hs, rfl, rfl⟩
      rw [Dict.step, Dict.contains, Cpp.bind_ok (reading_ok (m := fun d : DictC κ ν => indexOf f k d.keys) (s := dictOf ps) (v := (-1 : Int)) (w' := w') e)]
      simp [observe]
    | failed =>
      refine ⟨_, w', ps, ?_, calls, .failed, hs, rfl, rfl⟩
      rw [Dict.step, Dict.contains, Cpp.bind_err (reading_err (m := fun d : DictC κ ν => indexOf f k d.keys) (s := dictOf ps) (w' := w') e)]
      simp [observe]
  | get k =>
    obtain ⟨calls, w', r, hs, e⟩ := indexOf_search f (ps.map (·.1)) k w
    cases r with
    | found i =>
      obtain ⟨p, hp⟩ := found hs
      refine ⟨.value p.2, w', ps, ?_, calls, .found i, hs, rfl, p, hp, rfl⟩
      rw [Dict.step, Dict.get, Cpp.bind_ok (reading_ok (m := fun d : DictC κ ν => indexOf f k d.keys) (s := dictOf ps) (v := (i : Int)) (w' := w') e), writing_ok (v := p.2) (s' := dictOf ps) ?_]
      · rfl
      · rw [DictC.onValues, get_ok (x := p.2) (by simp [dictOf, hp])]
    | absent =>
      refine ⟨_, w', ps, ?_, calls, .absent, hs, rfl, rfl⟩
      rw [Dict.step, Dict.get, Cpp.bind_ok (reading_ok (m := fun d : DictC κ ν => indexOf f k d.keys) (s := dictOf ps) (v := (-1 : Int)) (w' := w') e), writing_err (s' := dictOf ps) ?_]
      · rfl
      · rw [DictC.onValues, get_neg]
    | failed =>
      refine ⟨_, w', ps, ?_, calls, .failed, hs, rfl, rfl⟩
      rw [Dict.step, Dict.get, Cpp.bind_err (reading_err (m := fun d : DictC κ ν => indexOf f k d.keys) (s := dictOf ps) (w' := w') e)]
      simp [observe]
  | remove k =>
    obtain ⟨calls, w', r, hs, e⟩ := indexOf_search f (ps.map (·.1)) k w
    cases r with
    | found i =>
      obtain ⟨p, hp⟩ := found hs
      have hi : i < ps.length := (List.getElem?_eq_some_iff.1 hp).1
      refine ⟨.flag true, w', ps.eraseIdx i, ?_, calls, .found i, hs, rfl, rfl⟩
      have h1 : DictC.onKeys (SortedSeq.removeAt (i : Int)) (dictOf ps) = .ok true ⟨(ps.map (·.1)).eraseIdx i, ps.map (·.2)⟩ := by
        rw [DictC.onKeys, sortedRemoveAt_ok (by simpa [dictOf] using hi)]; rfl
      have h2 : DictC.onValues (SeqList.removeAt (i : Int)) ⟨(ps.map (·.1)).eraseIdx i, ps.map (·.2)⟩ = .ok true (dictOf (ps.eraseIdx i)) := by
        rw [DictC.onValues, removeAt_ok (by simpa using hi)]
        simp only [dictOf, map_eraseIdx]
      rw [Dict.step, Dict.remove, Cpp.bind_ok (reading_ok (m := fun d : DictC κ ν => indexOf f k d.keys) (s := dictOf ps) (v := (i : Int)) (w' := w') e), if_pos (by omega),
        Cpp.bind_ok (writing_ok h1), Cpp.bind_ok (writing_ok h2)]
      rfl
    | absent =>
      refine ⟨_, w', ps, ?_, calls, .absent, hs, rfl, rfl⟩
      rw [Dict.step, Dict.remove, Cpp.bind_ok (reading_ok (m := fun d : DictC κ ν => indexOf f k d.keys) (s := dictOf ps) (v := (-1 : Int)) (w' := w') e), if_neg (by omega)]
      rfl
    | failed =>
      refine ⟨_, w', ps, ?_, calls, .failed, hs, rfl, rfl⟩
      rw [Dict.step, Dict.remove, Cpp.bind_err (reading_err (m := fun d : DictC κ ν => indexOf f k d.keys) (s := dictOf ps) (w' := w') e)]
      simp [observe]
  | set k v =>
    obtain ⟨calls, w', r, hs, e⟩ := indexOf_search f (ps.map (·.1)) k w
    cases r with
    | found i =>
      obtain ⟨p, hp⟩ := found hs
      have hi : i < ps.length := (List.getElem?_eq_some_iff.1 hp).1
      refine ⟨.flag true, w', ps.set i (p.1, v), ?_, calls, w', .found i, hs, rfl, p, hp, rfl, rfl⟩
      rw [Dict.step, Dict.set, Cpp.bind_ok (reading_ok (m := fun d : DictC κ ν => indexOf f k d.keys) (s := dictOf ps) (v := (i : Int)) (w' := w') e), if_neg (by omega),
        Cpp.bind_ok (writing_ok (v := true) (s' := dictOf (ps.set i (p.1, v))) ?_)]
      · rfl
      · rw [DictC.onValues, setAt_ok (by simpa [dictOf] using hi)]
        have h1 : (ps.map (·.1)).set i p.1 = ps.map (·.1) := set_self (by simp [hp])
        simp only [dictOf, List.map_set, h1]
    | absent =>
      obtain ⟨calls2, w2, q, hp, e2⟩ := placeOf_place f (ps.map (·.1)) k w'
      cases q with
      | none =>
        refine ⟨.error, w2, ps, ?_, calls, w', .absent, hs, calls2, none, hp, rfl, rfl⟩
        rw [Dict.step, Dict.set, Cpp.bind_ok (reading_ok (m := fun d : DictC κ ν => indexOf f k d.keys) (s := dictOf ps) (v := (-1 : Int)) (w' := w') e), if_pos rfl, Cpp.bind_err (reading_err (m := fun d : DictC κ ν => placeOf f k d.keys) (s := dictOf ps) (w' := w2) e2)]
        rfl
      | some i =>
        have hi : i ≤ ps.length := by simpa using hp.last.1
        refine ⟨.flag true, w2, _, ?_, calls, w', .absent, hs, calls2, some i, hp, rfl, rfl⟩
        rw [Dict.step, Dict.set, Cpp.bind_ok (reading_ok (m := fun d : DictC κ ν => indexOf f k d.keys) (s := dictOf ps) (v := (-1 : Int)) (w' := w') e), if_pos rfl,
          Cpp.bind_ok (reading_ok (m := fun d : DictC κ ν => placeOf f k d.keys) (s := dictOf ps) (v := (i : Int)) (w' := w2) e2), dict_insert w2 ps hi]
        rfl
    | failed =>
      refine ⟨_, w', ps, ?_, calls, w', .failed, hs, rfl, rfl, rfl⟩
      rw [Dict.step, Dict.set, Cpp.bind_err (reading_err (m := fun d : DictC κ ν => indexOf f k d.keys) (s := dictOf ps) (w' := w') e)]
      simp [observe]
  | add k v =>
    obtain ⟨calls, w', r, hs, e⟩ := indexOf_search f (ps.map (·.1)) k w
    cases r with
    | found i =>
      refine ⟨.error, w', ps, ?_, calls, w', .found i, hs, rfl, rfl, rfl⟩
      rw [Dict.step, Dict.add, Cpp.bind_ok (reading_ok (m := fun d : DictC κ ν => indexOf f k d.keys) (s := dictOf ps) (v := (i : Int)) (w' := w') e), Cpp.bind_err (Cpp.check_false (by omega) _)]
      rfl
    | absent =>
      obtain ⟨calls2, w2, q, hp, e2⟩ := placeOf_place f (ps.map (·.1)) k w'
      cases q with
      | none =>
        refine ⟨.error, w2, ps, ?_, calls, w', .absent, hs, calls2, none, hp, rfl, rfl⟩
        rw [Dict.step, Dict.add, Cpp.bind_ok (reading_ok (m := fun d : DictC κ ν => indexOf f k d.keys) (s := dictOf ps) (v := (-1 : Int)) (w' := w') e), Cpp.bind_ok (Cpp.check_true rfl _),
          Cpp.bind_err (reading_err (m := fun d : DictC κ ν => placeOf f k d.keys) (s := dictOf ps) (w' := w2) e2)]
        rfl
      | some i =>
        have hi : i ≤ ps.length := by simpa using hp.last.1
        refine ⟨.flag true, w2, _, ?_, calls, w', .absent, hs, calls2, some i, hp, rfl, rfl⟩
        rw [Dict.step, Dict.add, Cpp.bind_ok (reading_ok (m := fun d : DictC κ ν => indexOf f k d.keys) (s := dictOf ps) (v := (-1 : Int)) (w' := w') e), Cpp.bind_ok (Cpp.check_true rfl _),
          Cpp.bind_ok (reading_ok (m := fun d : DictC κ ν => placeOf f k d.keys) (s := dictOf ps) (v := (i : Int)) (w' := w2) e2), dict_insert w2 ps hi]
        rfl
    | failed =>
      refine ⟨_, w', ps, ?_, calls, w', .failed, hs, rfl, rfl, rfl⟩
      rw [Dict.step, Dict.add, Cpp.bind_err (reading_err (m := fun d : DictC κ ν => indexOf f k d.keys) (s := dictOf ps) (w' := w') e)]
      simp [observe]

/-- **C99, `Dictionary`.** Every program that uses one dictionary, whatever the comparisons of keys do (the program catches
everything): no call is undefined, keys and values stay together, every call does what the comparisons said, and a call in
which a comparison fails changes nothing. -/
theorem C99_dictionary (f : W → κ → κ → Answer × W) (w : W) (ops : List (Spec.MapOp κ ν)) :
    ∃ rs w' ps', Dict.run f (w, DictC.empty) ops = some ((w', dictOf ps'), rs) ∧ DictRuns f w [] ops rs w' ps' := by
  have : ∀ (ops : List (Spec.MapOp κ ν)) (w : W) (ps : List (κ × ν)),
      ∃ rs w' ps', Dict.run f (w, dictOf ps) ops = some ((w', dictOf ps'), rs) ∧ DictRuns f w ps ops rs w' ps' := by
    intro ops
    induction ops with
    | nil => intro w ps; exact ⟨[], w, ps, rfl, rfl, rfl, rfl⟩
    | cons op ops ih =>
      intro w ps
      obtain ⟨r, w1, ps1, e1, h1⟩ := dict_step f w ps op
      obtain ⟨rs, w2, ps2, e2, h2⟩ := ih w1 ps1
      exact ⟨r :: rs, w2, ps2, by rw [Dict.run, e1]; simp [e2], r, rs, w1, ps1, rfl, h1, h2⟩
  exact this ops w []

/-! ## `Group` -/

/-- The group has these keys with these values, none without values; besides its lists of values there are exactly the
empty lists at the addresses `lost`. -/
structure CmpEff.Holds (lost : List Nat) (s : GroupC κ ν) (ps : List (κ × List ν)) : Prop where
  keys : s.keys = ps.map (·.1)
  heap : HeapRepr (fun a => if a ∈ lost then some [] else none) s.heap s.values (ps.map (·.2))
  nonempty : ∀ p ∈ ps, p.2 ≠ []
  distinct : lost.Nodup

namespace CmpEff

theorem leak {lost : List Nat} {h : List (Option (List ν))} {vs : List Nat} {vss : List (List ν)}
    (hr : HeapRepr (fun a => if a ∈ lost then some [] else none) h vs vss) :
    h.length ∉ lost ∧ HeapRepr (fun a => if a ∈ h.length :: lost then some [] else none) (h ++ [some []]) vs vss := by
  have hn : h.length ∉ vs := fun hm => Nat.lt_irrefl _ (hr.lt hm)
  have hl : h.length ∉ lost := by
    intro hm
    have := hr.frame _ hn
    simp [liveAt, hm] at this
  refine ⟨hl, hr.length, ?_, hr.nodup, ?_, ?_⟩
  · intro i p l a b
    rw [List.getElem?_append_left (hr.lt (List.mem_of_getElem? a))]
    exact hr.live i p l a b
  · intro p hp
    by_cases e : p = h.length
    · subst e; simp [liveAt]
    · rw [liveAt_append e, hr.frame p hp]; simp [e]
  · intro p hp
    have e : p ≠ h.length := fun e => hn (e ▸ hp)
    have := hr.own p hp
    simpa [e] using this

theorem Holds.target {lost : List Nat} {s : GroupC κ ν} {ps : List (κ × List ν)} (h : Holds lost s ps) {i : Nat}
    {p : κ × List ν} (hp : ps[i]? = some p) : ∃ a, s.values[i]? = some a ∧ s.heap[a]? = some (some p.2) := by
  have hi : i < s.values.length := by
    have := h.heap.length
    have := (List.getElem?_eq_some_iff.1 hp).1
    simp at *; omega
  exact ⟨s.values[i], List.getElem?_eq_getElem hi, h.heap.live i _ _ (List.getElem?_eq_getElem hi) (by simp [hp])⟩

theorem group_values_neg (s : GroupC κ ν) : GroupC.onValues (SeqList.get (-1)) s = .err s := by
  rw [GroupC.onValues, get_neg]

/-- erasing an entry and its list of values -/
theorem Holds.erase {lost : List Nat} {s : GroupC κ ν} {ps : List (κ × List ν)} (h : Holds lost s ps) {i a : Nat} {l : List ν}
    (ha : s.values[i]? = some a) :
    Holds lost ⟨s.keys.eraseIdx i, s.values.eraseIdx i, (s.heap.set a (some l)).set a none⟩ (ps.eraseIdx i) := by
  refine ⟨by simp [h.keys, map_eraseIdx], ?_, fun p hp => h.nonempty p (List.mem_of_mem_eraseIdx hp), h.distinct⟩
  have := h.heap.free ha
  simp only [List.set_set]
  rw [← List.eraseIdx_eq_take_drop_succ, ← List.eraseIdx_eq_take_drop_succ] at this
  rw [map_eraseIdx]
  exact this

/-- changing the values of an entry -/
theorem Holds.update {lost : List Nat} {s : GroupC κ ν} {ps : List (κ × List ν)} (h : Holds lost s ps) {i a : Nat}
    {p : κ × List ν} (hp : ps[i]? = some p) (ha : s.values[i]? = some a) {l : List ν} (hl : l ≠ []) :
    Holds lost { s with heap := s.heap.set a (some l) } (ps.set i (p.1, l)) := by
  have h1 : (ps.map (·.1)).set i p.1 = ps.map (·.1) := set_self (by simp [hp])
  refine ⟨by simp only [h.keys, List.map_set, h1], by simpa only [List.map_set] using h.heap.update ha l, ?_, h.distinct⟩
  intro q hq
  rcases List.mem_or_eq_of_mem_set hq with hq | rfl
  · exact h.nonempty q hq
  · exact hl

theorem group_step (f : W → κ → κ → Answer × W) (g : W → ν → ν → Option Bool × W) (w : W) {lost : List Nat} {s : GroupC κ ν}
    {ps : List (κ × List ν)} (h : Holds lost s ps) (op : Spec.GroupOp κ ν) :
    ∃ r w' s' ps' more, Group.step f g (w, s) op = some ((w', s'), r) ∧ Holds (more ++ lost) s' ps' ∧
      GroupDoes f g w ps op r w' ps' more.length := by
  have search : ∀ k, ∃ calls w' r, Search f (ps.map (·.1)) k w calls w' r ∧
      reading (fun d : GroupC κ ν => indexOf f k d.keys) (w, s) = (match r with
        | .found i => .ok (i : Int) (w', s)
        | .absent => .ok (-1) (w', s)
        | .failed => .err (w', s)) ∧ (∀ i, r = .found i → ∃ p, ps[i]? = some p) := by
    intro k
    obtain ⟨calls, w', r, hs, e⟩ := indexOf_search f (ps.map (·.1)) k w
    rw [← h.keys] at e
    refine ⟨calls, w', r, hs, ?_, ?_⟩
    · cases r with
      | found i => exact reading_ok e
      | absent => exact reading_ok e
      | failed => exact reading_err e
    · intro i hr
      subst hr
      obtain ⟨x, hx, _⟩ := hs.last
      have hi : i < ps.length := by simpa using (List.getElem?_eq_some_iff.1 hx).1
      exact ⟨ps[i], by simp [hi]⟩
  cases op with
  | clear =>
    obtain ⟨hp, e, _, hh⟩ := GroupC.deleteAll_ok (κ := κ) s.values (s := s) h.heap.nodup (by
      intro p hp
      obtain ⟨i, hi⟩ := List.mem_iff_getElem?.1 hp
      have := (List.getElem?_eq_some_iff.1 hi).1
      exact ⟨_, h.heap.live i p _ hi (List.getElem?_eq_getElem (h.heap.length ▸ this))⟩)
    have e2 : GroupC.clear s = .ok true (⟨[], [], hp⟩ : GroupC κ ν) := by
      unfold GroupC.clear
      rw [Cpp.bind_ok (Cpp.get_apply s), Cpp.bind_ok e]
      rfl
    refine ⟨.flag true, w, ⟨[], [], hp⟩, [], [], by rw [Group.step, Group.clear, writing_ok e2]; rfl, ?_, rfl, rfl, rfl, rfl⟩
    refine ⟨rfl, ⟨rfl, by simp, .nil, ?_, by simp⟩, by simp, h.distinct⟩
    intro p _
    by_cases hm : p ∈ s.values
    · have := h.heap.own p hm
      simp only [List.nil_append, this]
      unfold liveAt
      rw [hh p, if_pos hm]; rfl
    · simp only [List.nil_append]
      rw [← h.heap.frame p hm]
      exact liveAt_congr (by rw [hh p, if_neg hm])
  | containsKey k =>
    obtain ⟨calls, w', r, hs, e, _⟩ := search k
    refine ⟨_, w', s, ps, [], ?_, h, rfl, calls, r, hs, rfl, rfl⟩
    cases r with
    | found i => rw [Group.step, Group.containsKey, Cpp.bind_ok e]; simp [observe]
    | absent => rw [Group.step, Group.containsKey, Cpp.bind_ok e]; simp [observe]
    | failed => rw [Group.step, Group.containsKey, Cpp.bind_err e]; simp [observe]
  | get k =>
    obtain ⟨calls, w', r, hs, e, hr⟩ := search k
    cases r with
    | found i =>
      obtain ⟨p, hp⟩ := hr i rfl
      obtain ⟨a, ha, hl⟩ := h.target hp
      refine ⟨.values p.2, w', s, ps, [], ?_, h, rfl, calls, _, hs, rfl, p, hp, rfl⟩
      rw [Group.step, Group.get, Cpp.bind_ok e, Cpp.bind_ok (writing_ok (GroupC.values_get ha)), writing_ok (GroupC.onTarget_get hl)]
      rfl
    | absent =>
      refine ⟨.error, w', s, ps, [], ?_, h, rfl, calls, _, hs, rfl, rfl⟩
      rw [Group.step, Group.get, Cpp.bind_ok e, Cpp.bind_err (writing_err (group_values_neg s))]
      rfl
    | failed =>
      refine ⟨.error, w', s, ps, [], ?_, h, rfl, calls, _, hs, rfl, rfl⟩
      rw [Group.step, Group.get, Cpp.bind_err e]
      rfl
  | removeKey k =>
    obtain ⟨calls, w', r, hs, e, hr⟩ := search k
    cases r with
    | found i =>
      obtain ⟨p, hp⟩ := hr i rfl
      obtain ⟨a, ha, hl⟩ := h.target hp
      have hi := (List.getElem?_eq_some_iff.1 ha).1
      have hk : i < s.keys.length := by
        have := (List.getElem?_eq_some_iff.1 hp).1
        simpa [h.keys] using this
      refine ⟨.flag true, w', _, ps.eraseIdx i, [], ?_, h.erase (l := p.2) ha, rfl, calls, _, hs, rfl, rfl⟩
      rw [Group.step, Group.removeKey, Cpp.bind_ok e, if_pos (by omega),
        Cpp.bind_ok (writing_ok (GroupC.onKeys_ok (sortedRemoveAt_ok hk))),
        Cpp.bind_ok (writing_ok (GroupC.values_get (s := { s with keys := s.keys.eraseIdx i }) ha)),
        Cpp.bind_ok (writing_ok (GroupC.onValues_ok (s := { s with keys := s.keys.eraseIdx i }) (removeAt_ok hi))),
        Cpp.bind_ok (writing_ok (GroupC.deleteTarget_ok (s := ⟨s.keys.eraseIdx i, s.values.eraseIdx i, s.heap⟩) (l := p.2) hl))]
      simp [observe, List.set_set]
    | absent =>
      refine ⟨.flag false, w', s, ps, [], ?_, h, rfl, calls, _, hs, rfl, rfl⟩
      rw [Group.step, Group.removeKey, Cpp.bind_ok e, if_neg (by omega)]
      rfl
    | failed =>
      refine ⟨.error, w', s, ps, [], ?_, h, rfl, calls, _, hs, rfl, rfl⟩
      rw [Group.step, Group.removeKey, Cpp.bind_err e]
      rfl
  | contains k v =>
    obtain ⟨calls, w', r, hs, e, hr⟩ := search k
    cases r with
    | found i =>
      obtain ⟨p, hp⟩ := hr i rfl
      obtain ⟨a, ha, hl⟩ := h.target hp
      obtain ⟨w2, q, hq, e2, _⟩ := findLoop_scan g v p.2 0 w'
      refine ⟨_, w2, s, ps, [], ?_, h, rfl, rfl, calls, w', _, hs, p, q, hp, hq, rfl⟩
      rw [Group.step, Group.contains, Cpp.bind_ok e, if_pos (by omega), Cpp.bind_ok (writing_ok (GroupC.values_get ha)),
        Cpp.bind_ok (writing_ok (GroupC.onTarget_get hl))]
      cases q with
      | found j => rw [Cpp.bind_ok (reading_ok (m := fun _ => findLoop g v 0 p.2) (s := s) (v := (j : Int)) (w' := w2) e2)]; simp [observe]
      | absent => rw [Cpp.bind_ok (reading_ok (m := fun _ => findLoop g v 0 p.2) (s := s) (v := -1) (w' := w2) e2)]; simp [observe]
      | failed => rw [Cpp.bind_err (reading_err (m := fun _ => findLoop g v 0 p.2) (s := s) (w' := w2) e2)]; simp [observe]
    | absent =>
      refine ⟨.flag false, w', s, ps, [], ?_, h, rfl, rfl, calls, w', _, hs, rfl, rfl⟩
      rw [Group.step, Group.contains, Cpp.bind_ok e, if_neg (by omega)]
      rfl
    | failed =>
      refine ⟨.error, w', s, ps, [], ?_, h, rfl, rfl, calls, w', _, hs, rfl, rfl⟩
      rw [Group.step, Group.contains, Cpp.bind_err e]
      rfl
  | remove k v =>
    obtain ⟨calls, w', r, hs, e, hr⟩ := search k
    cases r with
    | found i =>
      obtain ⟨p, hp⟩ := hr i rfl
      obtain ⟨a, ha, hl⟩ := h.target hp
      have hi := (List.getElem?_eq_some_iff.1 ha).1
      have hk : i < s.keys.length := by
        have := (List.getElem?_eq_some_iff.1 hp).1
        simpa [h.keys] using this
      have hne : p.2 ≠ [] := h.nonempty p (List.mem_of_getElem? hp)
      have hlen : 0 < p.2.length := List.length_pos_iff.2 hne
      obtain ⟨w2, q, hq, e2, hj⟩ := findLoop_scan g v p.2 0 w'
      cases q with
      | found j =>
        have hj' : j < p.2.length := by have := (hj j rfl).2; omega
        have hh : (s.heap.set a (some (p.2.eraseIdx j)))[a]? = some (some (p.2.eraseIdx j)) :=
          List.getElem?_set_self (List.getElem?_eq_some_iff.1 hl).1
        have hrem : Group.removeFound a (j : Int) p.2.length (w2, s) = .ok true (w2, { s with heap := s.heap.set a (some (p.2.eraseIdx j)) }) := by
          rw [Group.removeFound, if_pos ⟨by omega, by omega⟩]
          exact writing_ok (GroupC.onTarget_ok hl (removeAt_ok hj'))
        refine ⟨.done, w2, ?_, if p.2.length = 1 then ps.eraseIdx i else ps.set i (p.1, p.2.eraseIdx j), [], ?_, ?_, rfl, calls, w', _, hs,
          p, _, hp, hq, rfl, rfl⟩
        · exact if p.2.length = 1 then ⟨s.keys.eraseIdx i, s.values.eraseIdx i, (s.heap.set a (some (p.2.eraseIdx j))).set a none⟩
            else { s with heap := s.heap.set a (some (p.2.eraseIdx j)) }
        · rw [Group.step, Group.remove, Cpp.bind_ok e, if_pos (by omega), Cpp.bind_ok (writing_ok (GroupC.values_get ha)),
            Cpp.bind_ok (writing_ok (GroupC.onTarget_get hl)),
            Cpp.bind_ok (reading_ok (m := fun _ => findLoop g v 0 p.2) (s := s) (v := (j : Int)) (w' := w2) e2),
            Cpp.bind_ok hrem,
            Cpp.bind_ok (writing_ok (GroupC.onTarget_count (s := { s with heap := s.heap.set a (some (p.2.eraseIdx j)) }) hh))]
          by_cases h1 : p.2.length = 1
          · rw [if_pos (by rw [List.length_eraseIdx_of_lt hj']; omega), if_pos h1,
              Cpp.bind_ok (writing_ok (GroupC.onKeys_ok (s := { s with heap := s.heap.set a (some (p.2.eraseIdx j)) }) (sortedRemoveAt_ok hk))),
              Cpp.bind_ok (writing_ok (GroupC.onValues_ok (s := ⟨s.keys.eraseIdx i, s.values, s.heap.set a (some (p.2.eraseIdx j))⟩) (removeAt_ok hi))),
              Cpp.bind_ok (writing_ok (GroupC.deleteTarget_ok (s := ⟨s.keys.eraseIdx i, s.values.eraseIdx i, s.heap.set a (some (p.2.eraseIdx j))⟩) hh))]
            rfl
          · rw [if_neg (by rw [List.length_eraseIdx_of_lt hj']; omega), if_neg h1]
            rfl
        · by_cases h1 : p.2.length = 1
          · rw [if_pos h1, if_pos h1]; exact h.erase ha
          · rw [if_neg h1, if_neg h1]
            refine h.update hp ha ?_
            intro h0
            have := congrArg List.length h0
            rw [List.length_eraseIdx_of_lt hj'] at this
            simp at this; omega
      | absent =>
        refine ⟨.done, w2, s, ps, [], ?_, h, rfl, calls, w', _, hs, p, _, hp, hq, rfl, rfl⟩
        rw [Group.step, Group.remove, Cpp.bind_ok e, if_pos (by omega), Cpp.bind_ok (writing_ok (GroupC.values_get ha)),
          Cpp.bind_ok (writing_ok (GroupC.onTarget_get hl)),
          Cpp.bind_ok (reading_ok (m := fun _ => findLoop g v 0 p.2) (s := s) (v := -1) (w' := w2) e2),
          Cpp.bind_ok (show Group.removeFound a (-1) p.2.length (w2, s) = .ok false (w2, s) from rfl), Cpp.bind_ok (writing_ok (GroupC.onTarget_count hl)), if_neg (by omega)]
        rfl
      | failed =>
        refine ⟨.error, w2, s, ps, [], ?_, h, rfl, calls, w', _, hs, p, _, hp, hq, rfl, rfl⟩
        rw [Group.step, Group.remove, Cpp.bind_ok e, if_pos (by omega), Cpp.bind_ok (writing_ok (GroupC.values_get ha)),
          Cpp.bind_ok (writing_ok (GroupC.onTarget_get hl)),
          Cpp.bind_err (reading_err (m := fun _ => findLoop g v 0 p.2) (s := s) (w' := w2) e2)]
        rfl
    | absent =>
      refine ⟨.done, w', s, ps, [], ?_, h, rfl, calls, w', _, hs, rfl, rfl, rfl⟩
      rw [Group.step, Group.remove, Cpp.bind_ok e, if_neg (by omega)]
      rfl
    | failed =>
      refine ⟨.error, w', s, ps, [], ?_, h, rfl, calls, w', _, hs, rfl, rfl, rfl⟩
      rw [Group.step, Group.remove, Cpp.bind_err e]
      rfl
  | add k v =>
    obtain ⟨calls, w', r, hs, e, hr⟩ := search k
    cases r with
    | found i =>
      obtain ⟨p, hp⟩ := hr i rfl
      obtain ⟨a, ha, hl⟩ := h.target hp
      refine ⟨.flag true, w', _, _, [], ?_, h.update hp ha (l := p.2 ++ [v]) (by simp), calls, w', _, hs, rfl, p, hp, rfl, rfl, rfl⟩
      rw [Group.step, Group.add, Cpp.bind_ok e, if_neg (by omega), Cpp.bind_ok (writing_ok (GroupC.values_get ha)),
        Cpp.bind_ok (writing_ok (GroupC.onTarget_ok hl (SeqList.add_ok p.2 v)))]
      rfl
    | absent =>
      obtain ⟨calls2, w2, q, hp, e2⟩ := placeOf_place f (ps.map (·.1)) k w'
      rw [← h.keys] at e2
      have en : GroupC.newTarget s = .ok s.heap.length { s with heap := s.heap ++ [some []] } := rfl
      cases q with
      | none =>
        obtain ⟨hn, hh⟩ := leak h.heap
        refine ⟨.error, w2, { s with heap := s.heap ++ [some []] }, ps, [s.heap.length], ?_,
          ⟨h.keys, hh, h.nonempty, List.nodup_cons.2 ⟨hn, h.distinct⟩⟩, calls, w', _, hs, calls2, none, hp, rfl, rfl, rfl⟩
        rw [Group.step, Group.add, Cpp.bind_ok e, if_pos rfl, Cpp.bind_ok (writing_ok en),
          Cpp.bind_err (reading_err (m := fun d : GroupC κ ν => placeOf f k d.keys) (s := { s with heap := s.heap ++ [some []] }) e2)]
        rfl
      | some i =>
        have hi : i ≤ ps.length := by simpa using hp.last.1
        have hk : i ≤ s.keys.length := by simpa [h.keys] using hi
        have hv : i ≤ s.values.length := by have := h.heap.length; simp at this; omega
        have hh : ((s.heap ++ [some []]) : List (Option (List ν)))[s.heap.length]? = some (some []) := by simp
        refine ⟨.flag true, w2, ?_, _, [], ?_, ?_, calls, w', _, hs, calls2, some i, hp, rfl, rfl, rfl⟩
        · exact ⟨s.keys.take i ++ k :: s.keys.drop i, s.values.take i ++ s.heap.length :: s.values.drop i, s.heap ++ [some [v]]⟩
        · rw [Group.step, Group.add, Cpp.bind_ok e, if_pos rfl, Cpp.bind_ok (writing_ok en),
            Cpp.bind_ok (reading_ok (m := fun d : GroupC κ ν => placeOf f k d.keys) (s := { s with heap := s.heap ++ [some []] }) e2),
            Cpp.bind_ok (writing_ok (GroupC.onKeys_ok (s := { s with heap := s.heap ++ [some []] }) (insertRaw_ok hk k))),
            Cpp.bind_ok (writing_ok (GroupC.onValues_ok (s := ⟨s.keys.take i ++ k :: s.keys.drop i, s.values, s.heap ++ [some []]⟩) (insert_ok hv s.heap.length))),
            Cpp.bind_ok (writing_ok (GroupC.onTarget_ok (s := ⟨s.keys.take i ++ k :: s.keys.drop i, s.values.take i ++ s.heap.length :: s.values.drop i, s.heap ++ [some []]⟩)
              hh (SeqList.add_ok [] v)))]
          simp [observe]
        · refine ⟨by simp [h.keys, List.map_take, List.map_drop], ?_, ?_, h.distinct⟩
          · simpa [List.map_take, List.map_drop] using h.heap.alloc i hv [v]
          · intro p hp
            rcases List.mem_append.1 hp with hp | hp
            · exact h.nonempty p (List.mem_of_mem_take hp)
            · rcases List.mem_cons.1 hp with rfl | hp
              · simp
              · exact h.nonempty p (List.mem_of_mem_drop hp)
    | failed =>
      refine ⟨.error, w', s, ps, [], ?_, h, calls, w', _, hs, rfl, rfl, rfl, rfl⟩
      rw [Group.step, Group.add, Cpp.bind_err e]
      rfl

end CmpEff

/-- **C99, `Group`.** Every program that uses one group, whatever the comparisons of keys and values do (the program catches
everything): no call is undefined, every call does what the comparisons said, a call in which a comparison fails changes
nothing, no key is without values.  Besides the lists of values of the keys there are the empty lists that were lost: one
for every `Add` that did not find its key and then failed while adding it. -/
theorem C99_group_partial (f : W → κ → κ → Answer × W) (g : W → ν → ν → Option Bool × W) (w : W) (ops : List (Spec.GroupOp κ ν)) :
    ∃ rs w' s' ps' lost, Group.run f g (w, GroupC.empty) ops = some ((w', s'), rs) ∧ Holds lost s' ps' ∧
      GroupRuns f g w [] ops rs w' ps' lost.length := by
  have : ∀ (ops : List (Spec.GroupOp κ ν)) (w : W) (lost : List Nat) (s : GroupC κ ν) (ps : List (κ × List ν)), Holds lost s ps →
      ∃ rs w' s' ps' more, Group.run f g (w, s) ops = some ((w', s'), rs) ∧ Holds (more ++ lost) s' ps' ∧
        GroupRuns f g w ps ops rs w' ps' more.length := by
    intro ops
    induction ops with
    | nil => intro w lost s ps h; exact ⟨[], w, s, ps, [], rfl, h, rfl, rfl, rfl, rfl⟩
    | cons op ops ih =>
      intro w lost s ps h
      obtain ⟨r, w1, s1, ps1, m1, e1, h1, d1⟩ := group_step f g w h op
      obtain ⟨rs, w2, s2, ps2, m2, e2, h2, d2⟩ := ih w1 (m1 ++ lost) s1 ps1 h1
      refine ⟨r :: rs, w2, s2, ps2, m2 ++ m1, by rw [Group.run, e1]; simp [e2], by simpa using h2, r, rs, w1, ps1, _, _, rfl, d1, d2, ?_⟩
      simp; omega
  obtain ⟨rs, w', s', ps', lost, e, h, d⟩ := this ops w [] GroupC.empty [] ⟨rfl, ⟨rfl, by simp [GroupC.empty], .nil, by simp [liveAt, GroupC.empty], by simp [GroupC.empty]⟩, by simp, .nil⟩
  exact ⟨rs, w', s', ps', lost, e, by simpa using h, d⟩

/-! ## Comparisons whose answers do not depend on the state -/

namespace CmpEff

theorem observe_same {σ ρ β : Type} {m : Cpp (W × σ) β} {p : Cpp σ β} (h : Same m p) (ret : β → ρ) (error : ρ) (w : W) (s : σ) :
    (observe ret error (m (w, s))).map (fun r => (r.1.2, r.2)) = (match p s with
      | .ok v s => some (s, ret v)
      | .err s => some (s, error)
      | .fault => none) := by
  rw [← h w s]
  cases m (w, s) <;> rfl

theorem dict_same {f : W → κ → κ → Answer × W} {cmp : κ → κ → Option Ordering} (hf : Answers f cmp) (op : Spec.MapOp κ ν) (w : W)
    (s : DictC κ ν) : (Dict.step f (w, s) op).map (fun r => (r.1.2, r.2)) = DictC.step cmp s op := by
  cases op with
  | contains k =>
    rw [Dict.step, observe_same (dictContains hf k)]
    rw [DictC.step]; cases DictC.contains cmp k s <;> rfl
  | clear =>
    rw [Dict.step, observe_same (Same.writing DictC.clear)]
    rw [DictC.step]; cases DictC.clear s <;> rfl
  | get k =>
    have h : Same (Dict.get f k : Cpp (W × DictC κ ν) ν) (DictC.get cmp k) := (dictIndex hf k).bind fun _ => .writing _
    rw [Dict.step, observe_same h]
    rw [DictC.step]; cases DictC.get cmp k s <;> rfl
  | remove k =>
    have h : Same (Dict.remove f k : Cpp (W × DictC κ ν) Bool) (DictC.remove cmp k) :=
      (dictIndex hf k).bind fun _ => .ite _ ((Same.writing _).bind fun _ => (Same.writing _).bind fun _ => .pure _) (.pure _)
    rw [Dict.step, observe_same h]
    rw [DictC.step]; cases DictC.remove cmp k s <;> rfl
  | set k v =>
    have h : Same (Dict.set f k v : Cpp (W × DictC κ ν) Bool) (DictC.set cmp k v) :=
      (dictIndex hf k).bind fun _ => .ite _ (dictAdd hf k fun _ => (Same.writing _).bind fun _ => .pure _)
        ((Same.writing _).bind fun _ => .pure _)
    rw [Dict.step, observe_same h]
    rw [DictC.step]; cases DictC.set cmp k v s <;> rfl
  | add k v =>
    have h : Same (Dict.add f k v : Cpp (W × DictC κ ν) Bool) (DictC.add cmp k v) := by
      intro w s
      have h1 := (dictContains hf k (ν := ν)).bind (f := fun c => (do
          Cpp.check (c = false)
          let index ← reading (fun d : DictC κ ν => placeOf f k d.keys)
          let index ← writing (DictC.onKeys (SortedSeq.insertRaw index k))
          let _ ← writing (DictC.onValues (SeqList.insert index v))
          return true)) (fun c => (Same.check (c = false)).bind fun _ => dictAdd hf k fun _ => (Same.writing _).bind fun _ => .pure true) w s
      refine Eq.trans (congrArg strip ?_) h1
      rw [Dict.add, Dict.contains]
      rw [Cpp.bind_apply, Cpp.bind_apply, Cpp.bind_apply]
      cases reading (fun d : DictC κ ν => indexOf f k d.keys) (w, s) with
      | err _ => rfl
      | fault => rfl
      | ok i st =>
        simp only [Cpp.pure_apply]
        by_cases hi : i = -1
        · rw [Cpp.bind_ok (Cpp.check_true hi st), Cpp.bind_ok (Cpp.check_true (by simp [hi]) st)]
        · rw [Cpp.bind_err (Cpp.check_false hi st), Cpp.bind_err (Cpp.check_false (by simp [hi]) st)]
    rw [Dict.step, observe_same h]
    rw [DictC.step]; cases DictC.add cmp k v s <;> rfl

theorem group_same {f : W → κ → κ → Answer × W} {cmp : κ → κ → Option Ordering} (hf : Answers f cmp) {g : W → ν → ν → Option Bool × W}
    {eq : ν → ν → Bool} (hg : ∀ w a b, (g w a b).1 = some (eq a b)) (op : Spec.GroupOp κ ν) (w : W)
    (s : GroupC κ ν) : (Group.step f g (w, s) op).map (fun r => (r.1.2, r.2)) = GroupC.step cmp eq s op := by
  cases op with
  | containsKey k =>
    rw [Group.step, observe_same (groupContains hf k)]
    rw [GroupC.step]; cases GroupC.containsKey cmp k s <;> rfl
  | clear =>
    rw [Group.step, Group.clear, observe_same (Same.writing GroupC.clear)]
    rw [GroupC.step]; cases GroupC.clear s <;> rfl
  | get k =>
    have h : Same (Group.get f k : Cpp (W × GroupC κ ν) (List ν)) (GroupC.get cmp k) :=
      (groupIndex hf k).bind fun _ => (Same.writing _).bind fun _ => .writing _
    rw [Group.step, observe_same h]
    rw [GroupC.step]; cases GroupC.get cmp k s <;> rfl
  | removeKey k =>
    have h : Same (Group.removeKey f k : Cpp (W × GroupC κ ν) Bool) (GroupC.removeKey cmp k) :=
      (groupIndex hf k).bind fun _ => .ite _ ((Same.writing _).bind fun _ => (Same.writing _).bind fun _ =>
        (Same.writing _).bind fun _ => (Same.writing _).bind fun _ => .pure _) (.pure _)
    rw [Group.step, observe_same h]
    rw [GroupC.step]; cases GroupC.removeKey cmp k s <;> rfl
  | contains k v =>
    have h : Same (Group.contains f g k v : Cpp (W × GroupC κ ν) Bool) (GroupC.contains cmp eq k v) :=
      (groupIndex hf k).bind fun _ => .ite _ ((Same.writing _).bind fun a => targetContains hg a v) (.pure _)
    rw [Group.step, observe_same h]
    rw [GroupC.step]; cases GroupC.contains cmp eq k v s <;> rfl
  | remove k v =>
    have h : Same (Group.remove f g k v : Cpp (W × GroupC κ ν) Bool) (GroupC.remove cmp eq k v) :=
      (groupIndex hf k).bind fun _ => .ite _ ((Same.writing _).bind fun a => targetRemove hg a v fun _ =>
        (Same.writing _).bind fun _ => .ite _ ((Same.writing _).bind fun _ => (Same.writing _).bind fun _ =>
          (Same.writing _).bind fun _ => .pure _) (.pure _)) (.pure _)
    rw [Group.step, observe_same h]
    rw [GroupC.step]; cases GroupC.remove cmp eq k v s <;> rfl
  | add k v =>
    have h : Same (Group.add f k v : Cpp (W × GroupC κ ν) Bool) (GroupC.add cmp k v) :=
      (groupIndex hf k).bind fun _ => .ite _ ((Same.writing _).bind fun _ => groupAdd hf k fun _ => (Same.writing _).bind fun _ =>
        (Same.writing _).bind fun _ => .pure _)
        ((Same.writing _).bind fun _ => (Same.writing _).bind fun _ => .pure _)
    rw [Group.step, observe_same h]
    rw [GroupC.step]; cases GroupC.add cmp k v s <;> rfl

end CmpEff

/-- **C99, answers that follow an order.** If the comparisons answer as a total preorder, and whatever else they do, a sorted
list finds what is there, and stays sorted. -/
theorem C99_sortedList_ordered (f : W → α → κ → Answer × W) {ord : κ → κ → Ordering} [Std.TransCmp ord] (key : α → κ)
    (hf : ∀ w a b, (f w a b).1 = .ord (ord (key a) b)) (xs : List α) (hasc : Spec.Ascending ord key xs) (w : W) :
    (∀ k, (∃ w' i, ∃ h : i < xs.length, Sorted.indexOf f k (w, xs) = .ok (i : Int) (w', xs) ∧ ord (key xs[i]) k = .eq ∧
        Sorted.contains f k (w, xs) = .ok true (w', xs) ∧ Sorted.remove f k (w, xs) = .ok true (w', xs.eraseIdx i)) ∨
      (∃ w', Sorted.indexOf f k (w, xs) = .ok (-1) (w', xs) ∧ (∀ x ∈ xs, ord (key x) k ≠ .eq) ∧
        Sorted.contains f k (w, xs) = .ok false (w', xs) ∧ Sorted.remove f k (w, xs) = .ok false (w', xs))) ∧
    (∀ v, ∃ w' i, i ≤ xs.length ∧ Sorted.add f key v (w, xs) = .ok (i : Int) (w', xs.take i ++ v :: xs.drop i) ∧
      Spec.Ascending ord key (xs.take i ++ v :: xs.drop i)) := by
  have hf' : Answers f (fun a b => some (ord (key a) b)) := hf
  have hc : SortedSeq.Compares (fun a b => some (ord (key a) b)) ord key := fun _ _ => rfl
  obtain ⟨h1, h2⟩ := C99_sortedList f key xs w
  constructor
  · intro k
    obtain ⟨calls, w', r, _, e1, e2, e3⟩ := h1 k
    have hs := (Same.reading (m := CmpEff.indexOf f k) (p := SortedSeq.indexOf (fun a b => some (ord (key a) b)) k)
      fun w s => indexOf_same hf' s k w) w xs
    change strip (Sorted.indexOf f k (w, xs)) = _ at hs
    rw [e1] at hs
    rcases SortedSeq.indexOf_spec hc hasc k with ⟨i, hi, e, he⟩ | ⟨e, he⟩
    · rw [e] at hs
      cases r with
      | found j =>
        simp only [strip, Outcome.ok.injEq, and_true] at hs
        obtain rfl : j = i := by omega
        exact .inl ⟨w', j, hi, e1, he, e2, e3⟩
      | absent => simp only [strip, Outcome.ok.injEq, and_true] at hs; omega
      | failed => simp [strip] at hs
    · rw [e] at hs
      cases r with
      | found j => simp only [strip, Outcome.ok.injEq, and_true] at hs; omega
      | absent => exact .inr ⟨w', e1, he, e2, e3⟩
      | failed => simp [strip] at hs
  · intro v
    obtain ⟨calls, w', r, hp, e⟩ := h2 v
    obtain ⟨p, hp1, e2, hb, ha⟩ := SortedSeq.add_spec hc hasc v
    have hs := add_same hf' key v xs w
    rw [e2] at hs
    rw [Sorted.add, Cpp.bind_apply, reading] at e
    simp only at e
    cases hpl : placeOf f (key v) xs w with
    | err w1 => rw [hpl] at hs; simp at hs
    | fault => rw [hpl] at hs; simp at hs
    | ok i w1 =>
      rw [hpl] at hs e
      simp only at hs e
      rw [writing] at e
      simp only [hs] at e
      cases r with
      | none => simp at e
      | some j =>
        simp only [Outcome.ok.injEq, Prod.mk.injEq] at e
        obtain ⟨ej, ew, _⟩ := e
        obtain rfl : p = j := by omega
        subst ew
        refine ⟨w1, p, hp1, ?_, SortedSeq.ascending_insert hasc hp1 hb ha⟩
        rw [Sorted.add, Cpp.bind_apply, reading]
        simp only [hpl]
        rw [writing]
        simp only [hs]

/-- **C99, answers that follow an order.** If the comparisons of keys answer as a total preorder, and whatever else they do,
a dictionary is a map (C09). -/
theorem C99_dictionary_ordered (f : W → κ → κ → Answer × W) {ord : κ → κ → Ordering} [Std.TransCmp ord]
    (hf : ∀ w a b, (f w a b).1 = .ord (ord a b)) (w : W) (ops : List (Spec.MapOp κ ν)) :
    ∃ w' s, Dict.run f (w, DictC.empty) ops = some ((w', s), (Spec.mapRun ord (fun _ => none) ops).2) ∧
      Spec.Lists ord (Spec.mapRun ord (fun _ => none) ops).1 s.keys s.values := by
  have hf' : Answers f (fun a b => some (ord a b)) := hf
  have : ∀ (ops : List (Spec.MapOp κ ν)) (w : W) (s : DictC κ ν),
      (Dict.run f (w, s) ops).map (fun r => (r.1.2, r.2)) = DictC.run (fun a b => some (ord a b)) s ops := by
    intro ops
    induction ops with
    | nil => intro w s; rfl
    | cons op ops ih =>
      intro w s
      rw [Dict.run, DictC.run, ← dict_same hf' op w s]
      rcases Dict.step f (w, s) op with _ | ⟨⟨w1, s1⟩, r⟩
      · rfl
      · have := ih w1 s1
        simp only [Option.map_some, Option.bind_eq_bind, Option.bind_some, ← this]
        cases Dict.run f (w1, s1) ops <;> rfl
  obtain ⟨s, e, h, _⟩ := C09_dictionary (cmp := fun a b => some (ord a b)) (fun _ _ => rfl) ops
  have h2 := this ops w DictC.empty
  rw [e] at h2
  obtain ⟨⟨⟨w', s'⟩, rs⟩, e2, e3⟩ := Option.map_eq_some_iff.1 h2
  cases e3
  exact ⟨w', _, e2, h⟩

/-- **C99, answers that follow an order.** If the comparisons of keys answer as a total preorder, those of values never
throw and do not depend on the state, and whatever else they do, a group is a multimap that loses nothing (C11). -/
theorem C99_group_ordered (f : W → κ → κ → Answer × W) {ord : κ → κ → Ordering} [Std.TransCmp ord]
    (hf : ∀ w a b, (f w a b).1 = .ord (ord a b)) (g : W → ν → ν → Option Bool × W) (eq : ν → ν → Bool)
    (hg : ∀ w a b, (g w a b).1 = some (eq a b)) (w : W) (ops : List (Spec.GroupOp κ ν)) :
    let m := (Spec.groupRun ord eq (fun _ => []) ops).1
    ∃ w' s, Group.run f g (w, GroupC.empty) ops = some ((w', s), (Spec.groupRun ord eq (fun _ => []) ops).2) ∧
      s.keys.Pairwise (fun a b => ord a b = .lt) ∧ (∀ k, m k ≠ [] ↔ ∃ x ∈ s.keys, ord x k = .eq) ∧
      (∀ (i : Nat) (hi : i < s.keys.length), GroupC.getByIndex (i : Int) s = .ok (m s.keys[i]) s) ∧
      (∀ p : Nat, (∃ l, s.heap[p]? = some (some l)) ↔ p ∈ s.values) := by
  intro m
  have hf' : Answers f (fun a b => some (ord a b)) := hf
  have : ∀ (ops : List (Spec.GroupOp κ ν)) (w : W) (s : GroupC κ ν),
      (Group.run f g (w, s) ops).map (fun r => (r.1.2, r.2)) = GroupC.run (fun a b => some (ord a b)) eq s ops := by
    intro ops
    induction ops with
    | nil => intro w s; rfl
    | cons op ops ih =>
      intro w s
      rw [Group.run, GroupC.run, ← group_same hf' hg op w s]
      rcases Group.step f g (w, s) op with _ | ⟨⟨w1, s1⟩, r⟩
      · rfl
      · have := ih w1 s1
        simp only [Option.map_some, Option.bind_eq_bind, Option.bind_some, ← this]
        cases Group.run f g (w1, s1) ops <;> rfl
  obtain ⟨s, e, h1, h2, _, h3, _, h4, _⟩ := C11_group (cmp := fun a b => some (ord a b)) (fun _ _ => rfl) eq ops
  have h5 := this ops w GroupC.empty
  rw [e] at h5
  obtain ⟨⟨⟨w', s'⟩, rs⟩, e2, e3⟩ := Option.map_eq_some_iff.1 h5
  cases e3
  exact ⟨w', _, e2, h1, h2, h3, h4⟩

deriving instance DecidableEq for GroupC, DictC

/-- **C99, negation for `Group`.** A list of values is lost for ever: the comparisons are those of integers, but the third one
throws.  The program adds a value for a key, then one for another key, which fails, then destroys the group: a list of
values is still there. -/
theorem C99_violated_group :
    ∃ (f : Nat → Int → Int → Answer × Nat) (g : Nat → Int → Int → Option Bool × Nat) (s : GroupC Int Int),
      (∀ w a b, w ≠ 1 → (f w a b).1 = .ord (compare a b)) ∧
      Group.run f g (0, GroupC.empty) [.add 1 10, .add 2 20, .clear] = some ((2, s), [.flag true, .error, .flag true]) ∧
      s.values = [] ∧ s.heap[1]? = some (some []) :=
  ⟨fun w a b => (if w = 1 then .threw else .ord (compare a b), w + 1), fun w a b => (some (a == b), w), ⟨[], [], [none, some []]⟩,
    fun w a b h => by simp [h], by decide +kernel, rfl, rfl⟩

/-! ## Concrete cases -/

/-- a comparer that answers less, greater, equal in turn, throws on the sixth call, and counts its calls -/
def CmpEff.wild (w : Nat) (_ _ : Int) : Answer × Nat :=
  (if w = 5 then .threw else if w % 3 = 0 then .ord .lt else if w % 3 = 1 then .ord .gt else .ord .eq, w + 1)

/-- a key is there twice; the call in which the comparer throws changes nothing -/
example : Dict.run wild (0, DictC.empty) [.add 5 'a', .add 5 'b', .get 7, .add 9 'c', .remove 3] =
    some ((8, ⟨[5, 5], ['b', 'a']⟩), [.flag true, .flag true, .error, .error, .flag false]) := by decide +kernel

example : ∃ rs w' ps', Dict.run wild (0, DictC.empty) [.add 5 'a', .add 5 'b', .get 7, .add 9 'c', .remove 3] =
    some ((w', dictOf ps'), rs) ∧ DictRuns wild 0 [] [.add 5 'a', .add 5 'b', .get 7, .add 9 'c', .remove 3] rs w' ps' :=
  C99_dictionary wild 0 _

/-- a sorted list: the comparer throws while the place is sought -/
example : Sorted.add wild id 7 (5, [1, 2, 3]) = .err (6, [1, 2, 3]) := by decide +kernel
example : Sorted.add wild id 7 (0, [1, 2, 3]) = .ok 2 (3, [1, 2, 7, 3]) := by decide +kernel

/-- a comparer that counts its calls -/
example : ∃ (w' i : Nat), i ≤ 3 ∧ Sorted.add (fun (w : Nat) (a b : Int) => (Answer.ord (compare a b), w + 1)) id 2 (0, [1, 2, 3]) =
    .ok (i : Int) (w', [1, 2, 3].take i ++ 2 :: [1, 2, 3].drop i) := by
  obtain ⟨w', i, h1, h2, _⟩ := (C99_sortedList_ordered (fun (w : Nat) (a b : Int) => (Answer.ord (compare a b), w + 1)) (ord := compare) id
    (fun _ _ _ => rfl) [1, 2, 3] (by unfold Spec.Ascending; decide) 0).2 2
  exact ⟨w', i, h1, h2⟩

/-- a list: comparing with the second element throws -/
example : Plain.remove (fun w (a b : Int) => (if w = 1 then none else some (a == b), w + 1)) 3 (0, [1, 2, 3]) = .err (2, [1, 2, 3]) := by
  decide +kernel

/-- a comparer that counts its calls -/
example (ops : List (Spec.MapOp Int Char)) :
    ∃ w' s, Dict.run (fun w a b => (Answer.ord (compare a b), w + 1)) (0, DictC.empty) ops =
        some ((w', s), (Spec.mapRun compare (fun _ => none) ops).2) ∧
      Spec.Lists compare (Spec.mapRun compare (fun _ => none) ops).1 s.keys s.values :=
  C99_dictionary_ordered (fun (w : Nat) (a b : Int) => (Answer.ord (compare a b), w + 1)) (fun _ _ _ => rfl) 0 ops

example : ∃ rs w' s' ps' lost, Group.run wild (fun w a b => (some (a == b), w)) (0, GroupC.empty) [.add 1 'a', .add 2 'b', .remove 1 'a'] =
      some ((w', s'), rs) ∧ Holds lost s' ps' ∧
    GroupRuns wild (fun w a b => (some (a == b), w)) 0 [] [.add 1 'a', .add 2 'b', .remove 1 'a'] rs w' ps' lost.length :=
  C99_group_partial wild _ 0 _

example (ops : List (Spec.GroupOp Int Char)) :
    ∃ w' s, Group.run (fun w a b => (Answer.ord (compare a b), w + 1)) (fun w a b => (some (a == b), w + 1)) (0, GroupC.empty) ops =
      some ((w', s), (Spec.groupRun compare (fun a b => a == b) (fun _ => []) ops).2) := by
  obtain ⟨w', s, e, _⟩ := C99_group_ordered (fun (w : Nat) (a b : Int) => (Answer.ord (compare a b), w + 1)) (fun _ _ _ => rfl)
    (fun w (a b : Char) => (some (a == b), w + 1)) (fun a b => a == b) (fun _ _ _ => rfl) 0 ops
  exact ⟨w', s, e⟩

end Vlpp
