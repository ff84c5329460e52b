import Verif.Model.SortedListC
import Verif.Lemmas.ListC
import Verif.Spec.Sorted

set_option autoImplicit false
namespace Vlpp
variable {α κ : Type}

/-- For any comparator whatsoever the search terminates (it is a total function) and only probes inside `[0, n)`. -/
theorem searchLoop_no_fault (read : Int → Option α) (cmp : α → κ → Option Ordering) (item : κ) (n : Int)
    (hread : ∀ i, 0 ≤ i → i < n → (read i).isSome) (s e idx : Int) (hs : 0 ≤ s) (he : e < n) :
    searchLoop read cmp item s e idx = .err () ∨ ∃ r i, searchLoop read cmp item s e idx = .ok (r, i) () ∧
      (s ≤ e → 0 ≤ i ∧ i < n) := by
  fun_induction searchLoop read cmp item s e idx with
  | case1 s e idx h i hr =>
    have := hread i (by omega) (by omega)
    rw [hr] at this; cases this
  | case2 => left; rfl
  | case3 s e idx h i x hx hc ih =>
    rcases ih (by omega) he with h1 | ⟨r, j, h1, h2⟩
    · left; exact h1
    · right
      refine ⟨r, j, h1, fun _ => ?_⟩
      by_cases hle : i + 1 ≤ e
      · exact h2 hle
      · unfold searchLoop at h1
        rw [if_neg hle] at h1
        cases h1
        omega
  | case4 s e idx h i x hx hc ih =>
    rcases ih hs (by omega) with h1 | ⟨r, j, h1, h2⟩
    · left; exact h1
    · right
      refine ⟨r, j, h1, fun _ => ?_⟩
      by_cases hle : s ≤ i - 1
      · exact h2 hle
      · unfold searchLoop at h1
        rw [if_neg hle] at h1
        cases h1
        omega
  | case5 s e idx h i x hx hc => right; exact ⟨_, _, rfl, fun _ => by omega⟩
  | case6 s e idx h => right; exact ⟨_, _, rfl, fun h' => absurd h' h⟩

/-- Search in a monotone sequence. `c i` is the comparison of element `i` with the key. -/
theorem searchLoop_spec (read : Int → Option α) (cmp : α → κ → Option Ordering) (item : κ) (n : Int)
    (c : Int → Ordering)
    (hread : ∀ i, 0 ≤ i → i < n → ∃ x, read i = some x ∧ cmp x item = some (c i))
    (hlt : ∀ i j, 0 ≤ i → i ≤ j → j < n → c j = .lt → c i = .lt)
    (hgt : ∀ i j, 0 ≤ i → i ≤ j → j < n → c i = .gt → c j = .gt)
    (s e idx : Int) (hs : 0 ≤ s) (he : e < n) (hse : s ≤ e + 1)
    (hbelow : ∀ i, 0 ≤ i → i < s → c i = .lt) (habove : ∀ i, e < i → i < n → c i = .gt)
    (hidx : s ≤ e ∨ n = 0 ∨ (0 ≤ idx ∧ idx < n ∧ (idx + 1 = s ∨ idx = s))) :
    (∃ i, searchLoop read cmp item s e idx = .ok (i, i) () ∧ 0 ≤ i ∧ i < n ∧ c i = .eq) ∨
    (∃ i p, searchLoop read cmp item s e idx = .ok (-1, i) () ∧ 0 ≤ p ∧ p ≤ n ∧
      (∀ j, 0 ≤ j → j < p → c j = .lt) ∧ (∀ j, p ≤ j → j < n → c j = .gt) ∧
      (n = 0 ∨ (0 ≤ i ∧ i < n ∧ (i + 1 = p ∨ i = p)))) := by
  fun_induction searchLoop read cmp item s e idx with
  | case1 s e idx h i hr =>
    obtain ⟨x, hx, _⟩ := hread i (by omega) (by omega)
    rw [hr] at hx; cases hx
  | case2 s e idx h i x hx hc =>
    obtain ⟨y, hy, hc'⟩ := hread i (by omega) (by omega)
    rw [hx] at hy; cases hy
    rw [hc] at hc'; cases hc'
  | case3 s e idx h i x hx hc ih =>
    obtain ⟨y, hy, hc'⟩ := hread i (by omega) (by omega)
    rw [hx] at hy; cases hy
    rw [hc] at hc'; cases hc'' : c i <;> rw [hc''] at hc' <;> simp at hc'
    exact ih (by omega) he (by omega)
      (fun j h0 h1 => hlt j i h0 (by omega) (by omega) hc'') habove (by omega)
  | case4 s e idx h i x hx hc ih =>
    obtain ⟨y, hy, hc'⟩ := hread i (by omega) (by omega)
    rw [hx] at hy; cases hy
    rw [hc] at hc'; cases hc'' : c i <;> rw [hc''] at hc' <;> simp at hc'
    exact ih hs (by omega) (by omega) hbelow
      (fun j h0 h1 => hgt i j (by omega) (by omega) h1 hc'') (by omega)
  | case5 s e idx h i x hx hc =>
    obtain ⟨y, hy, hc'⟩ := hread i (by omega) (by omega)
    rw [hx] at hy; cases hy
    rw [hc] at hc'; cases hc'' : c i <;> rw [hc''] at hc' <;> simp at hc'
    left; exact ⟨i, rfl, by omega, by omega, hc''⟩
  | case6 s e idx h =>
    right
    refine ⟨idx, s, rfl, hs, by omega, hbelow, fun j h0 h1 => habove j (by omega) h1, ?_⟩
    rcases hidx with h1 | h1 | h1
    · exact absurd h1 h
    · left; exact h1
    · right; exact h1

/-- Two reads that agree inside `[0, n)` give the same search. -/
theorem searchLoop_congr (r1 r2 : Int → Option α) (cmp : α → κ → Option Ordering) (item : κ) (n : Int)
    (h : ∀ i, 0 ≤ i → i < n → r1 i = r2 i) (s e idx : Int) (hs : 0 ≤ s) (he : e < n) :
    searchLoop r1 cmp item s e idx = searchLoop r2 cmp item s e idx := by
  fun_induction searchLoop r1 cmp item s e idx with
  | case1 s e idx hle i hr =>
    rw [searchLoop.eq_def r2, if_pos hle]
    rw [h i (by omega) (by omega)] at hr
    simp only [show s + (e - s) / 2 = i from rfl]
    rw [hr]
  | case2 s e idx hle i x hr hc =>
    rw [searchLoop.eq_def r2, if_pos hle]
    rw [h i (by omega) (by omega)] at hr
    simp only [show s + (e - s) / 2 = i from rfl]
    rw [hr]; simp [hc]
  | case3 s e idx hle i x hr hc ih =>
    rw [searchLoop.eq_def r2, if_pos hle]
    rw [h i (by omega) (by omega)] at hr
    simp only [show s + (e - s) / 2 = i from rfl]
    rw [hr]; simp only [hc]; exact ih (by omega) he
  | case4 s e idx hle i x hr hc ih =>
    rw [searchLoop.eq_def r2, if_pos hle]
    rw [h i (by omega) (by omega)] at hr
    simp only [show s + (e - s) / 2 = i from rfl]
    rw [hr]; simp only [hc]; exact ih hs (by omega)
  | case5 s e idx hle i x hr hc =>
    rw [searchLoop.eq_def r2, if_pos hle]
    rw [h i (by omega) (by omega)] at hr
    simp only [show s + (e - s) / 2 = i from rfl]
    rw [hr]; simp [hc]
  | case6 s e idx hle => rw [searchLoop.eq_def r2, if_neg hle]

namespace SortedListC
open ListC SortedSeq

/-- The buffer-level outcome and the sequence-level outcome are the same. -/
inductive Sim {β : Type} : Outcome (ListC α) β → Outcome (List α) β → Prop where
  | ok {v l xs} : ListC.Repr l xs → Sim (.ok v l) (.ok v xs)
  | err {l xs} : ListC.Repr l xs → Sim (.err l) (.err xs)
  | fault : Sim .fault .fault

theorem read_eq {l : ListC α} {xs : List α} (h : ListC.Repr l xs) (i : Int) (h0 : 0 ≤ i) (h1 : i < xs.length) :
    readVal l.buffer i = SortedSeq.read xs i := by
  have := readVal_ok h i.toNat (by omega)
  rw [Int.toNat_of_nonneg h0] at this
  rw [this, SortedSeq.read, if_pos h0, List.getElem?_eq_getElem (by omega)]

theorem indexOfInternal_sim {l : ListC α} {xs : List α} (h : ListC.Repr l xs) (cmp : α → κ → Option Ordering)
    (k : κ) : Sim (indexOfInternal cmp k l) (SortedSeq.indexOfInternal cmp k xs) := by
  have hc := h.count
  unfold indexOfInternal SortedSeq.indexOfInternal
  rw [Cpp.bind_ok (Cpp.get_apply l), Cpp.bind_ok (Cpp.get_apply xs), hc,
    searchLoop_congr (readVal l.buffer) (SortedSeq.read xs) cmp k xs.length
      (fun i h0 h1 => read_eq h i h0 h1) 0 (xs.length - 1) (-1) (by omega) (by omega)]
  cases searchLoop (SortedSeq.read xs) cmp k 0 (xs.length - 1) (-1) with
  | ok v u => exact .ok h
  | err u => exact .err h
  | fault => exact .fault

theorem Sim.bind {β γ : Type} {m : Cpp (ListC α) β} {m' : Cpp (List α) β} {f : β → Cpp (ListC α) γ}
    {f' : β → Cpp (List α) γ} {l : ListC α} {xs : List α} (h : Sim (m l) (m' xs))
    (hf : ∀ v l' xs', m l = .ok v l' → m' xs = .ok v xs' → ListC.Repr l' xs' → Sim (f v l') (f' v xs')) :
    Sim ((m >>= f) l) ((m' >>= f') xs) := by
  rw [Cpp.bind_apply, Cpp.bind_apply]
  generalize h1 : m l = o at h
  generalize h2 : m' xs = o' at h
  cases h with
  | ok hr => exact hf _ _ _ h1 h2 hr
  | err hr => exact .err hr
  | fault => exact .fault

theorem indexOf_sim {l : ListC α} {xs : List α} (h : ListC.Repr l xs) (cmp : α → κ → Option Ordering) (k : κ) :
    Sim (indexOf cmp k l) (SortedSeq.indexOf cmp k xs) :=
  Sim.bind (indexOfInternal_sim h cmp k) (fun _ _ _ _ _ hr => .ok hr)

theorem contains_sim {l : ListC α} {xs : List α} (h : ListC.Repr l xs) (cmp : α → κ → Option Ordering) (k : κ) :
    Sim (contains cmp k l) (SortedSeq.contains cmp k xs) :=
  Sim.bind (indexOf_sim h cmp k) (fun _ _ _ _ _ hr => .ok hr)

theorem insertRaw_sim (mv : Option α → Option α) {l : ListC α} {xs : List α} (h : ListC.Repr l xs) (i : Int) (v : α)
    (h0 : 0 ≤ i) (h1 : i ≤ xs.length) : Sim (insertRaw mv i v l) (SortedSeq.insertRaw i v xs) := by
  have hc := h.count
  obtain ⟨l', e, h'⟩ := insert_ok mv h i v h0 h1
  unfold insertRaw SortedSeq.insertRaw
  rw [Cpp.bind_ok (Cpp.get_apply l), Cpp.bind_ok (Cpp.get_apply xs)]
  unfold ListC.insert at e
  rw [Cpp.bind_ok (Cpp.get_apply l), Cpp.bind_ok (Cpp.check_true (by omega) l)] at e
  rw [e, if_pos ⟨h0, h1⟩]
  exact .ok h'

theorem indexOfInternal_state {xs : List α} (cmp : α → κ → Option Ordering) (k : κ) {v xs'}
    (h : SortedSeq.indexOfInternal cmp k xs = .ok v xs') : xs' = xs := by
  unfold SortedSeq.indexOfInternal at h
  rw [Cpp.bind_ok (Cpp.get_apply xs)] at h
  unfold liftSearch at h
  split at h <;> cases h
  rfl

theorem indexOfInternal_stateC {l : ListC α} (cmp : α → κ → Option Ordering) (k : κ) {v l'}
    (h : indexOfInternal cmp k l = .ok v l') : l' = l := by
  unfold indexOfInternal at h
  rw [Cpp.bind_ok (Cpp.get_apply l)] at h
  unfold liftSearch at h
  split at h <;> cases h
  rfl

theorem add_sim (mv : Option α → Option α) {l : ListC α} {xs : List α} (h : ListC.Repr l xs)
    (cmp : α → κ → Option Ordering) (key : α → κ) (v : α) :
    Sim (add mv cmp key v l) (SortedSeq.add cmp key v xs) := by
  have hc := h.count
  unfold add SortedSeq.add
  rw [Cpp.bind_ok (Cpp.get_apply l), Cpp.bind_ok (Cpp.get_apply xs)]
  by_cases h0 : xs.length = 0
  · rw [if_pos (by omega), if_pos h0]
    exact insertRaw_sim mv h 0 v (by omega) (by omega)
  · rw [if_neg (by omega), if_neg h0]
    refine Sim.bind (indexOfInternal_sim h cmp (key v)) ?_
    intro r l' xs' e1 e2 hr
    have hl := indexOfInternal_stateC cmp (key v) e1
    have hx := indexOfInternal_state cmp (key v) e2
    subst hl; subst hx
    by_cases hrange : r.2 ≥ 0 ∧ r.2 < xs'.length
    · rw [Cpp.bind_ok (Cpp.check_true (by omega) l'), Cpp.bind_ok (Cpp.check_true hrange xs')]
      have hread := read_eq h r.2 hrange.1 hrange.2
      have hsome : SortedSeq.read xs' r.2 = some xs'[r.2.toNat] := by
        rw [SortedSeq.read, if_pos hrange.1, List.getElem?_eq_getElem (by omega)]
      rw [hsome] at hread
      rw [Cpp.bind_ok (mem_some hread l'), hsome]
      simp only
      split
      · exact insertRaw_sim mv h _ v (by omega) (by omega)
      · exact insertRaw_sim mv h _ v (by omega) (by omega)
    · rw [Cpp.bind_err (Cpp.check_false (by omega) l'), Cpp.bind_err (Cpp.check_false hrange xs')]
      exact .err h

theorem removeAt_sim (mv : Option α → Option α) {l : ListC α} {xs : List α} (h : ListC.Repr l xs) (i : Int) :
    Sim (ListC.removeAt mv i l) (SortedSeq.removeAt i xs) := by
  unfold SortedSeq.removeAt
  rw [Cpp.bind_ok (Cpp.get_apply xs)]
  by_cases hi : i ≥ 0 ∧ i < xs.length
  · rw [Cpp.bind_ok (Cpp.check_true hi xs)]
    obtain ⟨l', e, h'⟩ := removeAt_ok mv h i hi.1 hi.2
    rw [e]; exact .ok h'
  · rw [Cpp.bind_err (Cpp.check_false hi xs), removeAt_err mv h i hi]
    exact .err h

theorem remove_sim (mv : Option α → Option α) {l : ListC α} {xs : List α} (h : ListC.Repr l xs)
    (cmp : α → κ → Option Ordering) (k : κ) : Sim (remove mv cmp k l) (SortedSeq.remove cmp k xs) := by
  refine Sim.bind (indexOf_sim h cmp k) ?_
  intro i l' xs' _ _ hr
  have hc := hr.count
  rw [Cpp.bind_ok (Cpp.get_apply l'), Cpp.bind_ok (Cpp.get_apply xs')]
  by_cases hi : i ≥ 0 ∧ i < xs'.length
  · rw [if_pos (by omega), if_pos hi]
    exact Sim.bind (removeAt_sim mv hr i) (fun _ _ _ _ _ hr => .ok hr)
  · rw [if_neg (by omega), if_neg hi]; exact .ok hr

end SortedListC

namespace SortedSeq
open SortedListC

/-- `cmp` compares the key of an element with a key by the total comparison `ord`. -/
def Compares (cmp : α → κ → Option Ordering) (ord : κ → κ → Ordering) (key : α → κ) : Prop :=
  ∀ x k, cmp x k = some (ord (key x) k)

theorem ascending_getElem {ord : κ → κ → Ordering} {key : α → κ} {xs : List α} [Std.TransCmp ord]
    (h : Spec.Ascending ord key xs) (i j : Nat) (hij : i ≤ j) (hj : j < xs.length) :
    (ord (key xs[i]) (key xs[j])).isLE := by
  rcases Nat.lt_or_eq_of_le hij with hlt | heq
  · have := (List.pairwise_iff_getElem.1 h) i j (by omega) hj hlt
    revert this
    cases ord (key xs[i]) (key xs[j]) <;> simp [Ordering.isLE]
  · subst heq
    rw [Std.ReflCmp.compare_self (cmp := ord)]; rfl

/-- what the search does on an ascending sequence -/
theorem search_spec {cmp : α → κ → Option Ordering} {ord : κ → κ → Ordering} {key : α → κ} [Std.TransCmp ord]
    (hcmp : Compares cmp ord key) {xs : List α} (hasc : Spec.Ascending ord key xs) (k : κ) :
    (∃ i : Nat, ∃ h : i < xs.length,
      searchLoop (read xs) cmp k 0 ((xs.length : Int) - 1) (-1) = .ok ((i : Int), (i : Int)) () ∧
      ord (key xs[i]) k = .eq) ∨
    (∃ (i : Int) (p : Nat), searchLoop (read xs) cmp k 0 ((xs.length : Int) - 1) (-1) = .ok (-1, i) () ∧
      p ≤ xs.length ∧
      (∀ (j : Nat) (_ : j < p) (hj : j < xs.length), ord (key xs[j]) k = .lt) ∧
      (∀ (j : Nat) (_ : p ≤ j) (hj : j < xs.length), ord (key xs[j]) k = .gt) ∧
      (xs.length = 0 ∨ (0 ≤ i ∧ i < xs.length ∧ (i + 1 = p ∨ i = p)))) := by
  let c : Int → Ordering := fun i => if h : i.toNat < xs.length then ord (key (xs[i.toNat])) k else .eq
  have hc : ∀ (j : Nat) (hj : j < xs.length), c j = ord (key xs[j]) k := by
    intro j hj; simp only [c, Int.toNat_natCast]; rw [dif_pos hj]
  have hread : ∀ i : Int, 0 ≤ i → i < xs.length → ∃ x, read xs i = some x ∧ cmp x k = some (c i) := by
    intro i h0 h1
    refine ⟨xs[i.toNat], ?_, ?_⟩
    · rw [read, if_pos h0, List.getElem?_eq_getElem (by omega)]
    · rw [hcmp]; simp only [c]; rw [dif_pos (by omega)]
  have hlt : ∀ i j : Int, 0 ≤ i → i ≤ j → j < xs.length → c j = .lt → c i = .lt := by
    intro i j h0 hij hj h
    have h1 := ascending_getElem hasc i.toNat j.toNat (by omega) (by omega)
    simp only [c] at h ⊢
    rw [dif_pos (by omega)] at h ⊢
    exact Std.TransCmp.lt_of_isLE_of_lt h1 h
  have hgt : ∀ i j : Int, 0 ≤ i → i ≤ j → j < xs.length → c i = .gt → c j = .gt := by
    intro i j h0 hij hj h
    have h1 := ascending_getElem hasc i.toNat j.toNat (by omega) (by omega)
    simp only [c] at h ⊢
    rw [dif_pos (by omega)] at h ⊢
    rw [Std.OrientedCmp.gt_iff_lt] at h ⊢
    exact Std.TransCmp.lt_of_lt_of_isLE h h1
  have := searchLoop_spec (read xs) cmp k xs.length c hread hlt hgt 0 (xs.length - 1) (-1) (by omega) (by omega)
    (by omega) (fun i h0 h1 => by omega) (fun i h0 h1 => by omega) (by omega)
  rcases this with ⟨i, e, h0, h1, h2⟩ | ⟨i, p, e, h0, h1, h2, h3, h4⟩
  · left
    refine ⟨i.toNat, by omega, by rw [Int.toNat_of_nonneg h0]; exact e, ?_⟩
    rw [← hc, Int.toNat_of_nonneg h0]; exact h2
  · right
    refine ⟨i, p.toNat, e, by omega, ?_, ?_, ?_⟩
    · intro j hj1 hj2; rw [← hc]; exact h2 j (by omega) (by omega)
    · intro j hj1 hj2; rw [← hc]; exact h3 j (by omega) (by omega)
    · omega

theorem indexOfInternal_of {cmp : α → κ → Option Ordering} {k : κ} {xs : List α} {v : Int × Int}
    (h : searchLoop (read xs) cmp k 0 ((xs.length : Int) - 1) (-1) = .ok v ()) :
    indexOfInternal cmp k xs = .ok v xs := by
  unfold indexOfInternal
  rw [Cpp.bind_ok (Cpp.get_apply xs), h]
  rfl

theorem indexOf_spec {cmp : α → κ → Option Ordering} {ord : κ → κ → Ordering} {key : α → κ} [Std.TransCmp ord]
    (hcmp : Compares cmp ord key) {xs : List α} (hasc : Spec.Ascending ord key xs) (k : κ) :
    (∃ i : Nat, ∃ h : i < xs.length, indexOf cmp k xs = .ok (i : Int) xs ∧ ord (key xs[i]) k = .eq) ∨
    (indexOf cmp k xs = .ok (-1) xs ∧ ∀ x ∈ xs, ord (key x) k ≠ .eq) := by
  rcases search_spec hcmp hasc k with ⟨i, hi, e, h⟩ | ⟨i, p, e, h0, h1, h2, h3⟩
  · left
    refine ⟨i, hi, ?_, h⟩
    unfold indexOf
    rw [Cpp.bind_ok (indexOfInternal_of e)]; rfl
  · right
    constructor
    · unfold indexOf
      rw [Cpp.bind_ok (indexOfInternal_of e)]; rfl
    · intro x hx
      obtain ⟨j, hj, rfl⟩ := List.mem_iff_getElem.1 hx
      by_cases hp : j < p
      · rw [h1 j hp hj]; simp
      · rw [h2 j (by omega) hj]; simp

theorem ascending_insert {ord : κ → κ → Ordering} {key : α → κ} [Std.TransCmp ord] {xs : List α} {v : α} {p : Nat}
    (hasc : Spec.Ascending ord key xs) (hp : p ≤ xs.length)
    (hb : ∀ (j : Nat) (_ : j < p) (hj : j < xs.length), ord (key xs[j]) (key v) ≠ .gt)
    (ha : ∀ (j : Nat) (_ : p ≤ j) (hj : j < xs.length), ord (key xs[j]) (key v) ≠ .lt) :
    Spec.Ascending ord key (xs.take p ++ v :: xs.drop p) := by
  unfold Spec.Ascending at *
  rw [List.pairwise_append, List.pairwise_cons]
  refine ⟨hasc.sublist (List.take_sublist _ _), ⟨?_, hasc.sublist (List.drop_sublist _ _)⟩, ?_⟩
  · intro x hx
    obtain ⟨j, hj, rfl⟩ := List.mem_iff_getElem.1 hx
    simp at hj
    rw [List.getElem_drop]
    have := ha (p + j) (by omega) (by omega)
    intro h
    rw [Std.OrientedCmp.gt_iff_lt] at h
    exact this h
  · intro a ha' b hb'
    obtain ⟨j, hj, rfl⟩ := List.mem_iff_getElem.1 ha'
    simp at hj
    rw [List.getElem_take]
    rcases List.mem_cons.1 hb' with rfl | hb'
    · exact hb j (by omega) (by omega)
    · obtain ⟨m, hm, rfl⟩ := List.mem_iff_getElem.1 hb'
      simp at hm
      rw [List.getElem_drop]
      exact (List.pairwise_iff_getElem.1 hasc) j (p + m) (by omega) (by omega) (by omega)

theorem insertRaw_eq {xs : List α} (p : Nat) (v : α) (hp : p ≤ xs.length) :
    insertRaw (p : Int) v xs = .ok (p : Int) (xs.take p ++ v :: xs.drop p) := by
  unfold insertRaw
  rw [Cpp.bind_ok (Cpp.get_apply xs), if_pos (by omega)]
  rfl

/-- `Add` on an ascending sequence: the position it chooses, with everything before it not greater and everything
after it not smaller.  If no equal element exists the position is the unique one. -/
theorem add_spec {cmp : α → κ → Option Ordering} {ord : κ → κ → Ordering} {key : α → κ} [Std.TransCmp ord]
    (hcmp : Compares cmp ord key) {xs : List α} (hasc : Spec.Ascending ord key xs) (v : α) :
    ∃ p : Nat, p ≤ xs.length ∧ add cmp key v xs = .ok (p : Int) (xs.take p ++ v :: xs.drop p) ∧
      (∀ (j : Nat) (_ : j < p) (hj : j < xs.length), ord (key xs[j]) (key v) ≠ .gt) ∧
      (∀ (j : Nat) (_ : p ≤ j) (hj : j < xs.length), ord (key xs[j]) (key v) ≠ .lt) := by
  unfold add
  rw [Cpp.bind_ok (Cpp.get_apply xs)]
  by_cases h0 : xs.length = 0
  · rw [if_pos h0]
    exact ⟨0, by omega, insertRaw_eq 0 v (by omega), fun j hj hj' => by omega, fun j hj hj' => by omega⟩
  · rw [if_neg h0]
    rcases search_spec hcmp hasc (key v) with ⟨i, hi, e, h⟩ | ⟨i, p, e, hp, h1, h2, h3⟩
    · rw [Cpp.bind_ok (indexOfInternal_of e)]
      simp only
      rw [Cpp.bind_ok (Cpp.check_true (by omega) xs)]
      have hr : read xs (i : Int) = some xs[i] := by
        rw [read, if_pos (by omega)]; simp [hi]
      rw [hr]
      simp only [hcmp xs[i] (key v), h]
      rw [if_neg (by simp)]
      refine ⟨i, by omega, insertRaw_eq i v (by omega), ?_, ?_⟩
      · intro j hj1 hj2 hgt
        have := ascending_getElem hasc j i (by omega) hi
        have h' := Std.TransCmp.isLE_trans this (by rw [h]; rfl : (ord (key xs[i]) (key v)).isLE)
        rw [hgt] at h'; cases h'
      · intro j hj1 hj2 hlt
        have := ascending_getElem hasc i j hj1 hj2
        have h' := Std.TransCmp.lt_of_isLE_of_lt this hlt
        rw [h] at h'; cases h'
    · rw [Cpp.bind_ok (indexOfInternal_of e)]
      simp only
      have h3' := h3.resolve_left h0
      rw [Cpp.bind_ok (Cpp.check_true (by omega) xs)]
      have hr : read xs i = some (xs[i.toNat]'(by omega)) := by
        rw [read, if_pos (by omega)]; simp
      rw [hr]
      simp only [hcmp _ (key v)]
      refine ⟨p, hp, ?_, fun j a b => by rw [h1 j a b]; simp, fun j a b => by rw [h2 j a b]; simp⟩
      rcases h3'.2.2 with h4 | h4
      · rw [if_pos (by rw [h1 i.toNat (by omega) (by omega)])]
        rw [h4]; exact insertRaw_eq p v hp
      · rw [if_neg (by rw [h2 i.toNat (by omega) (by omega)]; simp), h4]
        exact insertRaw_eq p v hp

end SortedSeq
end Vlpp
