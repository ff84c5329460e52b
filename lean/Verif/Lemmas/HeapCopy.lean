import Verif.Model.HeapCopy
import Verif.Lemmas.HeapRef
import Verif.Lemmas.HeapArray
import Verif.Lemmas.HeapGroupEnum

/-! # `CopyFrom` with source and target in one memory -/
set_option autoImplicit false
namespace Vlpp
open Heap

namespace ListH
variable {α : Type} {F : Nat → Option (Block α)}

/-- appending without reallocation keeps the buffer -/
theorem add_members (mv : Option α → Option α) {h : Heap α} {l : ListH} {v : α} {r : Int} {s' : Heap α × ListH}
    (hs : l.count < l.capacity) (e : add mv v (h, l) = .ok r s') : s'.2 = ⟨l.buffer, l.count + 1, l.capacity⟩ := by
  unfold add insert insertRaw at e
  rw [members_bind, members_bind] at e
  obtain ⟨_, s1, e1, e⟩ := Cpp.bind_eq_ok e
  have : s1 = (h, l) := by
    rw [Cpp.check_apply] at e1
    split at e1
    · cases e1; rfl
    · cases e1
  subst this
  have g : insertUninitializedItems mv l.buffer l.capacity l.count l.count 1 h = .ok (l.buffer, l.capacity, l.count + 1) h := by
    unfold insertUninitializedItems
    simp only
    rw [if_neg (by omega), if_neg (by omega)]
    rfl
  rw [members_bind, Cpp.bind_ok (onHeap_ok g)] at e
  simp only at e
  obtain ⟨_, ⟨h2, l2⟩, _, e⟩ := Cpp.bind_eq_ok e
  cases e
  rfl

/-- An element of the list inserted before itself: the reference is followed when the element is not there any more. -/
theorem insertRawRef_self (mv : Option α → Option α) {h : Heap α} {l : ListH} {c : ListC α} {xs : List α}
    (hr : Rel F (h, l) c) (hx : ListC.Repr c xs) {i : Int} (h0 : 0 ≤ i) (h1 : i < l.count) :
    insertRawRef mv i (.elem l.buffer i) (h, l) = .fault := by
  have hc : l.count = c.count := hr.count
  have hcap : l.capacity = c.capacity := hr.capacity
  obtain ⟨b, cap, e, e2, e3, _, _, e5, _⟩ := ListC.insertUninitializedItems_ok mv hx i 1 (by omega) h0 (by omega)
  obtain ⟨p', h', g, o⟩ := insertUninitializedItems_sim hr.own e
  simp only [Int.natCast_one] at g
  rw [← hc, ← hcap] at g
  unfold insertRawRef
  rw [members_bind, Cpp.bind_ok (onHeap_ok g)]
  simp only
  have hread : (ElemRef.elem l.buffer i).read h' = .fault := by
    unfold ElemRef.read Heap.access
    cases hb : l.buffer with
    | none => rfl
    | some a =>
      by_cases hp : p' = some a
      · have h2 := o.at'
        rw [hp] at h2
        have h3 : h'.block a = some b := h2
        have hrv : ListC.readVal b i = none := by
          unfold ListC.readVal Mem.read
          rw [if_pos ⟨h0, by omega⟩, e5 i (by omega) (by omega)]
        simp only [h3, hrv, Option.map_none]
      · have hF : F a = none := hr.own.own a hb
        simp only [o.frame a hp, hF]
  rw [Cpp.bind_fault (by simp [onHeap, hread])]

end ListH

namespace ListWorld
variable {α : Type}

theorem Reps.count {w : ListWorld α} {xs : Nat → List α} (h : Reps w xs) (i : Nat) : (w.lists i).count = (xs i).length := by
  obtain ⟨cs, hw, hp⟩ := h
  rw [show (w.lists i).count = (cs i).count from (hw.rel i).count, (hp i).count]

theorem Reps.le {w : ListWorld α} {xs : Nat → List α} (h : Reps w xs) (i : Nat) : ((xs i).length : Int) ≤ (w.lists i).capacity := by
  obtain ⟨cs, hw, hp⟩ := h
  rw [show (w.lists i).capacity = (cs i).capacity from (hw.rel i).capacity, ← (hp i).count]
  exact (hp i).le

theorem countOf_ok (w : ListWorld α) (i : Nat) : countOf i w = .ok (w.lists i).count w := on_ok rfl

theorem refAt_ok {w : ListWorld α} {xs : Nat → List α} (h : Reps w xs) {i m : Nat} (hm : m < (xs i).length) :
    on i (ListH.refAt m) w = .ok (.elem (w.lists i).buffer m) w := by
  refine on_ok (ListH.refAt_ok ?_)
  rw [h.count i]
  omega

theorem add_ok (mv : Option α → Option α) {w : ListWorld α} {xs : Nat → List α} (h : Reps w xs) (d : Nat) (v : α) :
    ∃ r w', on d (ListH.add mv v) w = .ok r w' ∧ Reps w' (upd xs d (xs d ++ [v])) ∧ ∀ n, n ≠ d → w'.lists n = w.lists n := by
  have := on_refines (listRel_refines (fun _ => ListH.add_refines mv v) (ListC.add_refines mv v)) w d xs w (xs d)
    (AtBy.start h d)
  rw [SeqList.add_ok] at this
  generalize on d (ListH.add mv v) w = o at this
  cases this with
  | ok h => exact ⟨_, _, rfl, h.1, h.2⟩

/-- appending a reference to an element of another list -/
theorem addRef_other (mv : Option α → Option α) {w : ListWorld α} {xs : Nat → List α} (h : Reps w xs) {d s m : Nat} (hds : d ≠ s)
    (hm : m < (xs s).length) :
    ∃ r w', on d (ListH.addRef mv (.elem (w.lists s).buffer m)) w = .ok r w' ∧ Reps w' (upd xs d (xs d ++ [(xs s)[m]])) ∧
      ∀ n, n ≠ d → w'.lists n = w.lists n := by
  obtain ⟨r, w', e, h', hl⟩ := add_ok mv h d (xs s)[m]
  refine ⟨r, w', ?_, h', hl⟩
  obtain ⟨cs, hw, hp⟩ := h
  rw [on_congr (ListH.addRef_eq mv (hw.rel d) (hp d) (hw.denotes hp hds hm))]
  exact e

/-- appending a reference to an own element while there is room -/
theorem addRef_own (mv : Option α → Option α) {w : ListWorld α} {xs : Nat → List α} (h : Reps w xs) {d m : Nat}
    (hm : m < (xs d).length) (hs : (w.lists d).count < (w.lists d).capacity) :
    ∃ r w', on d (ListH.addRef mv (.elem (w.lists d).buffer m)) w = .ok r w' ∧ Reps w' (upd xs d (xs d ++ [(xs d)[m]])) ∧
      w'.lists d = ⟨(w.lists d).buffer, (w.lists d).count + 1, (w.lists d).capacity⟩ ∧ ∀ n, n ≠ d → w'.lists n = w.lists n := by
  obtain ⟨r, w', e, h', hl⟩ := add_ok mv h d (xs d)[m]
  have hd : w'.lists d = ⟨(w.lists d).buffer, (w.lists d).count + 1, (w.lists d).capacity⟩ := by
    unfold on at e
    cases e1 : ListH.add mv (xs d)[m] (w.heap, w.lists d) with
    | fault => rw [e1] at e; cases e
    | err _ => rw [e1] at e; cases e
    | ok v s =>
      rw [e1] at e
      have := ListH.add_members mv hs e1
      cases e
      simp only [put, if_pos]
      exact this
  refine ⟨r, w', ?_, h', hd, hl⟩
  obtain ⟨cs, hw, hp⟩ := h
  rw [on_congr (ListH.addRef_own mv (hw.rel d) (hp d) hm (by omega))]
  exact e

/-- appending a reference to an own element without room -/
theorem addRef_full (mv : Option α → Option α) {w : ListWorld α} {xs : Nat → List α} (h : Reps w xs) {d : Nat} (m : Int)
    (hs : (w.lists d).count = (w.lists d).capacity) :
    on d (ListH.addRef mv (.elem (w.lists d).buffer m)) w = .fault := by
  obtain ⟨cs, hw, hp⟩ := h
  unfold on
  rw [ListH.addRef_full mv (hw.rel d) (hp d) hs]

theorem clear_ok {w : ListWorld α} {xs : Nat → List α} (h : Reps w xs) (d : Nat) :
    ∃ w', clearUnless false d w = .ok () w' ∧ Reps w' (upd xs d []) ∧ ∀ n, n ≠ d → w'.lists n = w.lists n := by
  have := on_refines (listRel_refines (fun _ => ListH.clear_refines) ListC.clear_refines) w d xs w (xs d) (AtBy.start h d)
  have e : SeqList.clear (xs d) = .ok true [] := rfl
  rw [e] at this
  generalize hg : on d ListH.clear w = o at this
  cases this with
  | ok h =>
    refine ⟨_, ?_, h.1, h.2⟩
    unfold clearUnless
    rw [if_neg (by simp), Cpp.bind_ok hg]
    rfl

theorem clearUnless_ok {w : ListWorld α} {xs : Nat → List α} (h : Reps w xs) (append : Bool) (d : Nat) :
    ∃ w', clearUnless append d w = .ok () w' ∧ Reps w' (upd xs d (if append then xs d else [])) ∧
      ∀ n, n ≠ d → w'.lists n = w.lists n := by
  cases append with
  | true => exact ⟨w, rfl, by rw [if_pos rfl, upd_eq]; exact h, fun _ _ => rfl⟩
  | false => exact clear_ok h d

/-- from another list -/
theorem appendLoop_other (mv : Option α → Option α) {d s : Nat} (hds : d ≠ s) : ∀ (n i : Nat) (w : ListWorld α) (xs : Nat → List α),
    Reps w xs → i + n = (xs s).length →
    ∃ w', appendLoop (ListH.addRef mv) d s n i w = .ok () w' ∧ Reps w' (upd xs d (xs d ++ (xs s).drop i)) ∧
      ∀ n, n ≠ d → w'.lists n = w.lists n
  | 0, i, w, xs, h, hn => by
    refine ⟨w, rfl, ?_, fun _ _ => rfl⟩
    rw [List.drop_eq_nil_of_le (by omega), List.append_nil, upd_eq]
    exact h
  | n + 1, i, w, xs, h, hn => by
    have hi : i < (xs s).length := by omega
    obtain ⟨r, w1, e1, h1, l1⟩ := addRef_other mv h hds hi
    have hs : upd xs d (xs d ++ [(xs s)[i]]) s = xs s := upd_ne (Ne.symm hds)
    obtain ⟨w2, e2, h2, l2⟩ := appendLoop_other mv hds n (i + 1) w1 _ h1 (by rw [hs]; omega)
    refine ⟨w2, ?_, ?_, fun n hn => (l2 n hn).trans (l1 n hn)⟩
    · unfold appendLoop
      rw [Cpp.bind_ok (refAt_ok h hi), Cpp.bind_ok e1]
      exact e2
    · rw [hs, upd_self, upd_upd, List.append_assoc, List.singleton_append, List.getElem_cons_drop] at h2
      exact h2

/-- from the list itself, with room for the copies -/
theorem appendLoop_own (mv : Option α → Option α) {d : Nat} : ∀ (n i : Nat) (w : ListWorld α) (xs : Nat → List α),
    Reps w xs → i + n ≤ (xs d).length → ((xs d).length + n : Int) ≤ (w.lists d).capacity →
    ∃ w', appendLoop (ListH.addRef mv) d d n i w = .ok () w' ∧ Reps w' (upd xs d (xs d ++ ((xs d).drop i).take n)) ∧
      ∀ n, n ≠ d → w'.lists n = w.lists n
  | 0, i, w, xs, h, _, _ => by
    refine ⟨w, rfl, ?_, fun _ _ => rfl⟩
    rw [List.take_zero, List.append_nil, upd_eq]
    exact h
  | n + 1, i, w, xs, h, hn, hc => by
    have hi : i < (xs d).length := by omega
    have hcount := h.count d
    obtain ⟨r, w1, e1, h1, m1, l1⟩ := addRef_own mv h hi (by omega)
    obtain ⟨w2, e2, h2, l2⟩ := appendLoop_own mv n (i + 1) w1 _ h1 (by rw [upd_self, List.length_append]; simp; omega)
      (by rw [upd_self, m1]; simp; omega)
    refine ⟨w2, ?_, ?_, fun n hn => (l2 n hn).trans (l1 n hn)⟩
    · unfold appendLoop
      rw [Cpp.bind_ok (refAt_ok h hi), Cpp.bind_ok e1]
      exact e2
    · rw [upd_self, upd_upd, List.append_assoc, List.singleton_append, List.drop_append_of_le_length (by omega),
        List.take_append_of_le_length (by simp; omega), ← List.take_succ_cons, List.getElem_cons_drop] at h2
      exact h2

/-- from the list itself, without room for the copies -/
theorem appendLoop_full (mv : Option α → Option α) {d : Nat} : ∀ (n i : Nat) (w : ListWorld α) (xs : Nat → List α),
    Reps w xs → i + n ≤ (xs d).length → (w.lists d).capacity < ((xs d).length + n : Int) →
    appendLoop (ListH.addRef mv) d d n i w = .fault
  | 0, i, w, xs, h, _, hc => by
    have := h.le d
    omega
  | n + 1, i, w, xs, h, hn, hc => by
    have hi : i < (xs d).length := by omega
    have hcount := h.count d
    have hle := h.le d
    unfold appendLoop
    rw [Cpp.bind_ok (refAt_ok h hi)]
    by_cases hf : (w.lists d).count = (w.lists d).capacity
    · rw [Cpp.bind_fault (addRef_full mv h i hf)]
    · obtain ⟨r, w1, e1, h1, m1, l1⟩ := addRef_own mv h hi (by omega)
      rw [Cpp.bind_ok e1]
      exact appendLoop_full mv n (i + 1) w1 _ h1 (by rw [upd_self, List.length_append]; simp; omega)
        (by rw [upd_self, m1]; simp; omega)

theorem currentRef_ok {w : ListWorld α} {xs : Nat → List α} (h : Reps w xs) {i m : Nat} (hm : m < (xs i).length) :
    currentRef ⟨i, m⟩ w = .ok (.elem (w.lists i).buffer m) w := refAt_ok h hm

/-- from an enumerator of another list -/
theorem enumLoop_other (mv : Option α → Option α) {d s : Nat} (hds : d ≠ s) : ∀ (n i : Nat) (w : ListWorld α) (xs : Nat → List α),
    Reps w xs → i + n = (xs s).length →
    ∃ w', enumLoop (ListH.addRef mv) d ⟨s, (i : Int) - 1⟩ w = some (.ok () w') ∧ Reps w' (upd xs d (xs d ++ (xs s).drop i)) ∧
      ∀ n, n ≠ d → w'.lists n = w.lists n
  | 0, i, w, xs, h, hn => by
    have hcount := h.count s
    refine ⟨w, ?_, ?_, fun _ _ => rfl⟩
    · unfold enumLoop
      rw [ListEnum.next_ok, decide_eq_false (by omega)]
    · rw [List.drop_eq_nil_of_le (by omega), List.append_nil, upd_eq]
      exact h
  | n + 1, i, w, xs, h, hn => by
    have hi : i < (xs s).length := by omega
    have hcount := h.count s
    obtain ⟨r, w1, e1, h1, l1⟩ := addRef_other mv h hds hi
    have hs : upd xs d (xs d ++ [(xs s)[i]]) s = xs s := upd_ne (Ne.symm hds)
    obtain ⟨w2, e2, h2, l2⟩ := enumLoop_other mv hds n (i + 1) w1 _ h1 (by rw [hs]; omega)
    refine ⟨w2, ?_, ?_, fun n hn => (l2 n hn).trans (l1 n hn)⟩
    · unfold enumLoop
      rw [ListEnum.next_ok, decide_eq_true (by omega), show (i : Int) - 1 + 1 = i by omega]
      simp only [currentRef_ok h hi, e1]
      rw [show (i : Int) = ((i + 1 : Nat) : Int) - 1 by omega]
      exact e2
    · rw [hs, upd_self, upd_upd, List.append_assoc, List.singleton_append, List.getElem_cons_drop] at h2
      exact h2

/-- from an enumerator of the list itself: the list grows until its buffer is replaced -/
theorem enumLoop_own (mv : Option α → Option α) {d : Nat} : ∀ (k i : Nat) (w : ListWorld α) (xs : Nat → List α),
    Reps w xs → i < (xs d).length → (w.lists d).capacity = ((xs d).length + k : Int) →
    enumLoop (ListH.addRef mv) d ⟨d, (i : Int) - 1⟩ w = some .fault
  | 0, i, w, xs, h, hi, hc => by
    have hcount := h.count d
    unfold enumLoop
    rw [ListEnum.next_ok, decide_eq_true (by omega), show (i : Int) - 1 + 1 = i by omega]
    simp only [currentRef_ok h hi, addRef_full mv h (d := d) i (by omega)]
  | k + 1, i, w, xs, h, hi, hc => by
    have hcount := h.count d
    obtain ⟨r, w1, e1, h1, m1, l1⟩ := addRef_own mv h hi (by omega)
    unfold enumLoop
    rw [ListEnum.next_ok, decide_eq_true (by omega), show (i : Int) - 1 + 1 = i by omega]
    simp only [currentRef_ok h hi, e1]
    rw [show (i : Int) = ((i + 1 : Nat) : Int) - 1 by omega]
    exact enumLoop_own mv k (i + 1) w1 _ h1 (by rw [upd_self, List.length_append]; simp; omega)
      (by rw [upd_self, m1]; simp; omega)

section
variable {κ : Type} {cmp : α → κ → Option Ordering} {ord : κ → κ → Ordering} {key : α → κ} [Std.TransCmp ord]

/-- adding a reference to an element of another container to a sorted list -/
theorem sortedAddRef_other (mv : Option α → Option α) (hcmp : ∀ x k, cmp x k = some (ord (key x) k)) {w : ListWorld α}
    {xs : Nat → List α} (h : Reps w xs) {d s m : Nat} (hds : d ≠ s) (hm : m < (xs s).length)
    (hasc : Spec.Ascending ord key (xs d)) :
    ∃ r w' ys, on d (ListH.sortedAddRef mv cmp key (.elem (w.lists s).buffer m)) w = .ok r w' ∧ Reps w' (upd xs d ys) ∧
      Spec.Ascending ord key ys ∧ ys.Perm ((xs s)[m] :: xs d) ∧ ∀ n, n ≠ d → w'.lists n = w.lists n := by
  have := on_refines (listRel_refines (fun _ => ListH.sortedAdd_refines mv cmp key (xs s)[m])
    (ListC.sortedAdd_refines mv cmp key (xs s)[m])) w d xs w (xs d) (AtBy.start h d)
  obtain ⟨p, hp, e, hb, ha⟩ := SortedSeq.add_spec (key := key) hcmp hasc (xs s)[m]
  rw [e] at this
  generalize hg : on d (ListH.sortedAdd mv cmp key (xs s)[m]) w = o at this
  cases this with
  | ok h' =>
    refine ⟨(p : Int), _, _, ?_, h'.1, SortedSeq.ascending_insert hasc hp hb ha, ?_, h'.2⟩
    · obtain ⟨cs, hw, hr⟩ := h
      rw [on_congr (ListH.sortedAddRef_eq mv cmp key (hw.rel d) (hr d) (hw.denotes hr hds hm))]
      exact hg
    · refine List.perm_middle.trans (List.Perm.cons _ ?_)
      rw [List.take_append_drop]

theorem sortedLoop_other (mv : Option α → Option α) (hcmp : ∀ x k, cmp x k = some (ord (key x) k)) {d s : Nat} (hds : d ≠ s) :
    ∀ (n i : Nat) (w : ListWorld α) (xs : Nat → List α), Reps w xs → i + n = (xs s).length → Spec.Ascending ord key (xs d) →
    ∃ w' ys, appendLoop (ListH.sortedAddRef mv cmp key) d s n i w = .ok () w' ∧ Reps w' (upd xs d ys) ∧
      Spec.Ascending ord key ys ∧ ys.Perm (xs d ++ (xs s).drop i)
  | 0, i, w, xs, h, hn, ha => by
    refine ⟨w, xs d, rfl, ?_, ha, ?_⟩
    · rw [upd_eq]; exact h
    · rw [List.drop_eq_nil_of_le (by omega), List.append_nil]
  | n + 1, i, w, xs, h, hn, ha => by
    have hi : i < (xs s).length := by omega
    obtain ⟨r, w1, ys, e1, h1, a1, p1, _⟩ := sortedAddRef_other mv hcmp h hds hi ha
    have hs : upd xs d ys s = xs s := upd_ne (Ne.symm hds)
    obtain ⟨w2, zs, e2, h2, a2, p2⟩ := sortedLoop_other mv hcmp hds n (i + 1) w1 _ h1 (by rw [hs]; omega) (by rw [upd_self]; exact a1)
    rw [upd_upd] at h2
    refine ⟨w2, zs, ?_, h2, a2, ?_⟩
    · unfold appendLoop
      rw [Cpp.bind_ok (refAt_ok h hi), Cpp.bind_ok e1]
      exact e2
    · rw [upd_self, hs] at p2
      refine p2.trans ?_
      refine (List.Perm.append_right _ p1).trans ?_
      rw [← List.getElem_cons_drop hi, List.cons_append]
      exact List.perm_middle.symm

/-- the smallest element of a sorted list, added to the list itself -/
theorem sortedAddRef_own (mv : Option α → Option α) (hcmp : ∀ x k, cmp x k = some (ord (key x) k)) {w : ListWorld α}
    {xs : Nat → List α} (h : Reps w xs) {d : Nat} (h0 : 0 < (xs d).length) (hasc : Spec.Ascending ord key (xs d))
    (hone : ∀ (j : Nat) (hj : j < (xs d).length), ord (key (xs d)[j]) (key (xs d)[0]) = .eq → j = 0) :
    on d (ListH.sortedAddRef mv cmp key (.elem (w.lists d).buffer 0)) w = .fault := by
  have hcount := h.count d
  obtain ⟨cs, hw, hr⟩ := h
  have hrd := hw.read hr h0
  have hread : ListH.onHeap (ElemRef.elem (w.lists d).buffer (0 : Nat)).read (w.heap, w.lists d) =
      .ok (xs d)[0] (w.heap, w.lists d) := ListH.onHeap_ok hrd
  have hsr : SortedSeq.indexOfInternal cmp (key (xs d)[0]) (xs d) = .ok (0, 0) (xs d) := by
    rcases SortedSeq.search_spec (key := key) hcmp hasc (key (xs d)[0]) with ⟨i, hi, e, he⟩ | ⟨i, p, e, h0', h1, h2, h3⟩
    · cases hone i hi he
      exact SortedSeq.indexOfInternal_of e
    · have hr := Std.ReflCmp.compare_self (cmp := ord) (a := key (xs d)[0])
      rcases Nat.eq_zero_or_pos p with hp | hp
      · rw [h2 0 (by omega) h0] at hr
        cases hr
      · rw [h1 0 hp h0] at hr
        cases hr
  have hsearch : ListH.reading (SortedListC.indexOfInternal cmp (key (xs d)[0])) (w.heap, w.lists d) =
      .ok (0, 0) (w.heap, w.lists d) := by
    have := ListH.reading_refines (ListH.readOnly_indexOfInternal cmp (key (xs d)[0])) _ _ (hw.rel d)
    have h2 := (SortedListC.indexOfInternal_sim (hr d) cmp (key (xs d)[0])).refines
    rw [hsr] at h2
    generalize hg : SortedListC.indexOfInternal cmp (key (xs d)[0]) (cs d) = o at h2 this
    cases h2 with
    | ok _ =>
      generalize hg2 : ListH.reading (SortedListC.indexOfInternal cmp (key (xs d)[0])) (w.heap, w.lists d) = o at this
      cases this with
      | ok _ =>
        cases ListH.reading_state hg2
        rfl
  have hget : ListH.reading (ListC.get (0 : Nat)) (w.heap, w.lists d) = .ok (xs d)[0] (w.heap, w.lists d) := by
    have := ListH.reading_refines (ListH.readOnly_get ((0 : Nat) : Int)) _ _ (hw.rel d)
    rw [ListC.get_ok (hr d) 0 h0] at this
    generalize hg2 : ListH.reading (ListC.get ((0 : Nat) : Int)) (w.heap, w.lists d) = o at this
    cases this with
    | ok _ =>
      cases ListH.reading_state hg2
      rfl
  unfold on
  unfold ListH.sortedAddRef
  rw [ListH.members_bind, if_neg (by omega)]
  have hread' : ListH.onHeap (ElemRef.elem (w.lists d).buffer 0).read (w.heap, w.lists d) =
      .ok (xs d)[0] (w.heap, w.lists d) := hread
  rw [Cpp.bind_ok hread', Cpp.bind_ok hsearch]
  have hget' : ListH.reading (ListC.get 0) (w.heap, w.lists d) = .ok (xs d)[0] (w.heap, w.lists d) := hget
  rw [Cpp.bind_ok (Cpp.check_true ⟨by simp, by simp; omega⟩ _), Cpp.bind_ok hget', Cpp.bind_ok hread',
    if_neg (by rw [hcmp, Std.ReflCmp.compare_self (cmp := ord)]; simp)]
  rw [ListH.insertRawRef_self mv (hw.rel d) (hr d) (by simp) (by simp; omega)]

end
end ListWorld
end Vlpp
