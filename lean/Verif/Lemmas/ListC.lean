import Verif.Model.ListC
import Verif.Lemmas.Memory
import Verif.Spec.Seq

set_option autoImplicit false
namespace Vlpp
namespace ListC
variable {α κ : Type}
open Mem

/-- `l` stores exactly the sequence `xs`: live objects in `[0, count)`, raw memory in the rest of the buffer. -/
structure Repr (l : ListC α) (xs : List α) : Prop where
  size : l.buffer.size = l.capacity
  count : l.count = xs.length
  le : l.count ≤ l.capacity
  live : ∀ i, 0 ≤ i → i < l.count → l.buffer.cell i = .obj xs[i.toNat]?
  raw : ∀ i, l.count ≤ i → i < l.capacity → l.buffer.cell i = .raw

theorem Repr.empty : Repr (ListC.empty : ListC α) [] :=
  ⟨rfl, rfl, by simp [ListC.empty], fun i h1 h2 => by simp [ListC.empty] at h2; omega,
    fun i h1 h2 => by simp [ListC.empty] at h1 h2; omega⟩

theorem insertUninitializedItems_ok (mv : Option α → Option α) {l : ListC α} {xs : List α} (h : Repr l xs)
    (index : Int) (k : Nat) (hk : 1 ≤ k) (h0 : 0 ≤ index) (h1 : index ≤ l.count) :
    ∃ b cap, insertUninitializedItems mv l.buffer l.capacity l.count index k = some (b, cap, l.count + k) ∧
      b.size = cap ∧ l.count + k ≤ cap ∧
      (l.count + k ≤ l.capacity → cap = l.capacity) ∧
      (∀ i, 0 ≤ i → i < index → b.cell i = .obj xs[i.toNat]?) ∧
      (∀ i, index ≤ i → i < index + k → b.cell i = .raw) ∧
      (∀ i, index + k ≤ i → i < l.count + k → b.cell i = .obj xs[(i - k).toNat]?) ∧
      (∀ i, l.count + k ≤ i → i < cap → b.cell i = .raw) := by
  obtain ⟨hsz, hc, hle, hlive, hraw⟩ := h
  have hliveR : ∀ i, 0 ≤ i → i < l.count → (l.buffer.cell i).isRaw = false := by
    intro i hi1 hi2; rw [hlive i hi1 hi2]; rfl
  unfold insertUninitializedItems
  simp only
  split
  · next hgt =>
    rw [if_neg (by omega)]
    obtain ⟨d1, s1, e1, e2, e3, e4, e5⟩ := callMoveCtorsTo_ok mv
      (allocateBuffer ((l.count + k) * 5 / 4 + 1)) l.buffer 0 0 index.toNat
      (fun j hj1 hj2 => ⟨⟨by omega, by rw [allocateBuffer_size]; omega⟩, by simp [Cell.isRaw]⟩)
      (fun j hj1 hj2 => ⟨⟨by omega, by omega⟩, hliveR j (by omega) (by omega)⟩)
    obtain ⟨d2, s2, f1, f2, f3, f4, f5⟩ := callMoveCtorsTo_ok mv
      d1 s1 (index + k) index (l.count - index).toNat
      (fun j hj1 hj2 => ⟨⟨by omega, by rw [e2, allocateBuffer_size]; omega⟩, by
        rw [e4, if_neg (by omega)]; simp [Cell.isRaw]⟩)
      (fun j hj1 hj2 => ⟨⟨by omega, by omega⟩, by
        rw [e5, if_neg (by omega)]; exact hliveR j (by omega) (by omega)⟩)
    obtain ⟨s3, g1, g2, g3⟩ := callDtors_ok s2 0 l.count.toNat
      (fun j hj1 hj2 => ⟨⟨by omega, by omega⟩, by
        rw [f5, e5]
        have := hliveR j (by omega) (by omega)
        repeat' split
        all_goals simp [this]⟩)
    have hd : deallocateBuffer s3 = some () := by
      apply deallocateBuffer_ok
      intro i hi
      have hi' := hi.2
      have hi'' := hi.1
      rw [g3]
      split
      · rfl
      · rw [f5, if_neg (by omega), e5, if_neg (by omega), hraw i (by omega) (by omega)]; rfl
    refine ⟨d2, (l.count + k) * 5 / 4 + 1, ?_, ?_, by omega, by omega, ?_, ?_, ?_, ?_⟩
    · simp [e1, f1, g1, hd]
    · rw [f2, e2, allocateBuffer_size]; omega
    · intro i hi1 hi2
      rw [f4, if_neg (by omega), e4, if_pos (by omega)]
      rw [← hlive i hi1 (by omega)]; congr 1; omega
    · intro i hi1 hi2
      rw [f4, if_neg (by omega), e4, if_neg (by omega), allocateBuffer_cell]
    · intro i hi1 hi2
      rw [f4, if_pos (by omega), e5, if_neg (by omega), hlive _ (by omega) (by omega)]
      congr 2; omega
    · intro i hi1 hi2
      rw [f4, if_neg (by omega), e4, if_neg (by omega), allocateBuffer_cell]
  · split
    · split
      · next hgt hlt hge =>
        obtain ⟨b1, e1, e2, e3⟩ := callMoveCtorsIn_ok mv l.buffer (index + k) index (l.count - index).toNat
          (by omega)
          (fun j hj1 hj2 => ⟨⟨by omega, by omega⟩, by rw [hraw j (by omega) (by omega)]; rfl⟩)
          (fun j hj1 hj2 => ⟨⟨by omega, by omega⟩, hliveR j (by omega) (by omega)⟩)
        obtain ⟨b2, f1, f2, f3⟩ := callDtors_ok b1 index (l.count - index).toNat
          (fun j hj1 hj2 => ⟨⟨by omega, by omega⟩, by
            rw [e3, if_neg (by omega), if_pos (by omega)]
            simp [hliveR j (by omega) (by omega)]⟩)
        refine ⟨b2, l.capacity, ?_, by omega, by omega, fun _ => rfl, ?_, ?_, ?_, ?_⟩
        · simp [e1, f1]
        · intro i hi1 hi2
          rw [f3, if_neg (by omega), e3, if_neg (by omega), if_neg (by omega), hlive i hi1 (by omega)]
        · intro i hi1 hi2
          rw [f3]
          split
          · rfl
          · rw [e3, if_neg (by omega), if_neg (by omega), hraw i (by omega) (by omega)]
        · intro i hi1 hi2
          rw [f3, if_neg (by omega), e3, if_pos (by omega), hlive _ (by omega) (by omega)]
          congr 2; omega
        · intro i hi1 hi2
          rw [f3, if_neg (by omega), e3, if_neg (by omega), if_neg (by omega), hraw i (by omega) (by omega)]
      · next hgt hlt hge =>
        obtain ⟨b1, e1, e2, e3⟩ := callMoveCtorsIn_ok mv l.buffer l.count (l.count - k) k
          (by omega)
          (fun j hj1 hj2 => ⟨⟨by omega, by omega⟩, by rw [hraw j (by omega) (by omega)]; rfl⟩)
          (fun j hj1 hj2 => ⟨⟨by omega, by omega⟩, hliveR j (by omega) (by omega)⟩)
        have hb1R : ∀ j, 0 ≤ j → j < l.count + k → (b1.cell j).isRaw = false := by
          intro j hj1 hj2
          rw [e3]
          split
          · exact hliveR _ (by omega) (by omega)
          · split
            · simp [hliveR j (by omega) (by omega)]
            · exact hliveR j (by omega) (by omega)
        obtain ⟨b2, f1, f2, f3⟩ := callMoveAssignmentsOverlapped_ok mv b1 (index + k) index
          (l.count - index - k).toNat (by omega)
          (fun j hj1 hj2 => ⟨⟨by omega, by omega⟩, hb1R j (by omega) (by omega)⟩)
          (fun j hj1 hj2 => ⟨⟨by omega, by omega⟩, hb1R j (by omega) (by omega)⟩)
        rw [Int.toNat_of_nonneg (by omega)] at f1
        obtain ⟨b3, g1, g2, g3⟩ := callDtors_ok b2 index k
          (fun j hj1 hj2 => ⟨⟨by omega, by omega⟩, by
            rw [f3]
            split
            · exact hb1R _ (by omega) (by omega)
            · split
              · simp [hb1R j (by omega) (by omega)]
              · exact hb1R j (by omega) (by omega)⟩)
        refine ⟨b3, l.capacity, ?_, by omega, by omega, fun _ => rfl, ?_, ?_, ?_, ?_⟩
        · simp [e1, f1, g1]
        · intro i hi1 hi2
          rw [g3, if_neg (by omega), f3, if_neg (by omega), if_neg (by omega), e3, if_neg (by omega),
            if_neg (by omega), hlive i hi1 (by omega)]
        · intro i hi1 hi2
          rw [g3, if_pos (by omega)]
        · intro i hi1 hi2
          rw [g3, if_neg (by omega), f3]
          split
          · rw [e3, if_neg (by omega), if_neg (by omega), hlive _ (by omega) (by omega)]
            congr 2; omega
          · rw [if_neg (by omega), e3, if_pos (by omega), hlive _ (by omega) (by omega)]
            congr 2; omega
        · intro i hi1 hi2
          rw [g3, if_neg (by omega), f3, if_neg (by omega), if_neg (by omega), e3, if_neg (by omega),
            if_neg (by omega), hraw i (by omega) (by omega)]
    · refine ⟨l.buffer, l.capacity, rfl, hsz, by omega, fun _ => rfl, ?_, ?_, ?_, ?_⟩
      · intro i hi1 hi2; exact hlive i hi1 (by omega)
      · intro i hi1 hi2; exact hraw i (by omega) (by omega)
      · intro i hi1 hi2; omega
      · intro i hi1 hi2; exact hraw i (by omega) (by omega)

/-- After the elements have been moved into `[0, newCount)` (leaving live objects up to `oldCount`),
`ReleaseUnnecessaryBuffer` restores the representation invariant. -/
theorem releaseUnnecessaryBuffer_ok (mv : Option α → Option α) (b : Block α) (cap old new : Int) (xs : List α)
    (hsz : b.size = cap) (hn0 : new = xs.length) (hno : new ≤ old) (hoc : old ≤ cap)
    (hlive : ∀ i, 0 ≤ i → i < new → b.cell i = .obj xs[i.toNat]?)
    (hmid : ∀ i, new ≤ i → i < old → (b.cell i).isRaw = false)
    (hraw : ∀ i, old ≤ i → i < cap → b.cell i = .raw) :
    ∃ b' cap', releaseUnnecessaryBuffer mv b cap old new = some (b', cap') ∧ Repr ⟨b', new, cap'⟩ xs := by
  unfold releaseUnnecessaryBuffer
  split
  · next h0 =>
    refine ⟨b, cap, rfl, ⟨hsz, hn0, by simp; omega, hlive, ?_⟩⟩
    intro i hi1 hi2
    simp at hi1 hi2
    omega
  · -- destroy the tail
    have hstep : ∃ b1, (if new < old then callDtors b new (old - new).toNat else some b) = some b1 ∧
        Repr ⟨b1, new, cap⟩ xs := by
      split
      · obtain ⟨b1, e1, e2, e3⟩ := callDtors_ok b new (old - new).toNat
          (fun j hj1 hj2 => ⟨⟨by omega, by omega⟩, hmid j (by omega) (by omega)⟩)
        refine ⟨b1, e1, ⟨by simp [e2, hsz], hn0, by simp; omega, ?_, ?_⟩⟩
        · intro i hi1 hi2
          simp at hi2
          simp only
          rw [e3, if_neg (by omega), hlive i hi1 hi2]
        · intro i hi1 hi2
          simp at hi1 hi2
          simp only
          rw [e3]
          split
          · rfl
          · exact hraw i (by omega) hi2
      · refine ⟨b, rfl, ⟨hsz, hn0, by simp; omega, hlive, ?_⟩⟩
        intro i hi1 hi2
        simp at hi1 hi2
        exact hraw i (by omega) hi2
    obtain ⟨b1, hb1, hR⟩ := hstep
    simp only [hb1, Option.bind_eq_bind, Option.bind_some]
    split
    · split
      · next hcap hlt =>
        obtain ⟨q1, q2, q3, q4, q5⟩ := hR
        simp only at q1 q2 q3 q4 q5
        obtain ⟨d1, s1, e1, e2, e3, e4, e5⟩ := callMoveCtorsTo_ok mv
          (allocateBuffer (cap * 5 / 8)) b1 0 0 new.toNat
          (fun j hj1 hj2 => ⟨⟨by omega, by rw [allocateBuffer_size]; omega⟩, by simp [Cell.isRaw]⟩)
          (fun j hj1 hj2 => ⟨⟨by omega, by omega⟩, by rw [q4 j (by omega) (by omega)]; rfl⟩)
        obtain ⟨s2, f1, f2, f3⟩ := callDtors_ok s1 0 new.toNat
          (fun j hj1 hj2 => ⟨⟨by omega, by omega⟩, by
            rw [e5, if_pos (by omega), q4 j (by omega) (by omega)]; rfl⟩)
        have hd : deallocateBuffer s2 = some () := by
          apply deallocateBuffer_ok
          intro i hi
          have hi' := hi.2
          have hi'' := hi.1
          rw [f3]
          split
          · rfl
          · rw [e5, if_neg (by omega), q5 i (by omega) (by omega)]; rfl
        refine ⟨d1, cap * 5 / 8, by simp [e1, f1, hd], ⟨?_, q2, by simp; omega, ?_, ?_⟩⟩
        · simp only; rw [e2, allocateBuffer_size]; omega
        · intro i hi1 hi2
          simp at hi2
          simp only
          rw [e4, if_pos (by omega), ← q4 i hi1 hi2]; congr 1; omega
        · intro i hi1 hi2
          simp at hi1 hi2
          simp only
          rw [e4, if_neg (by omega), allocateBuffer_cell]
      · exact ⟨b1, cap, rfl, hR⟩
    · exact ⟨b1, cap, rfl, hR⟩

theorem readVal_ok {l : ListC α} {xs : List α} (h : Repr l xs) (i : Nat) (hi : i < xs.length) :
    readVal l.buffer i = some xs[i] := by
  have hc := h.count
  have hl := h.le
  have hs := h.size
  have := h.live i (by omega) (by omega)
  unfold readVal Mem.read
  rw [if_pos ⟨by omega, by omega⟩, this]
  simp [hi]

theorem get_ok {l : ListC α} {xs : List α} (h : Repr l xs) (i : Nat) (hi : i < xs.length) :
    get (i : Int) l = .ok xs[i] l := by
  have hc := h.count
  unfold ListC.get
  rw [Cpp.bind_ok (Cpp.get_apply l), Cpp.bind_ok (Cpp.check_true (by omega) l)]
  simp [mem, readVal_ok h i hi]

theorem get_err {l : ListC α} {xs : List α} (h : Repr l xs) (i : Int) (hi : ¬ (0 ≤ i ∧ i < xs.length)) :
    get i l = .err l := by
  have hc := h.count
  unfold ListC.get
  rw [Cpp.bind_ok (Cpp.get_apply l), Cpp.bind_err (Cpp.check_false (by omega) l)]

theorem mem_some {β : Type} {r : MemRes β} {v : β} (h : r = some v) (s : ListC α) : mem r s = .ok v s := by
  simp [mem, h]

theorem indexOfLoop_ok {l : ListC α} {xs : List α} (h : Repr l xs) (eq : α → κ → Bool) (k : κ) (n i : Nat)
    (hin : i + n = xs.length) :
    indexOfLoop eq l.buffer k i n = some (match (xs.drop i).findIdx? (fun x => eq x k) with
      | some j => ((i + j : Nat) : Int)
      | none => -1) := by
  induction n generalizing i with
  | zero =>
    have : xs.drop i = [] := by rw [List.drop_eq_nil_iff]; omega
    simp [indexOfLoop, this]
  | succ n ih =>
    have hi : i < xs.length := by omega
    rw [List.drop_eq_getElem_cons hi]
    simp only [indexOfLoop, readVal_ok h i hi, Option.bind_eq_bind, Option.bind_some]
    rw [List.findIdx?_cons]
    by_cases he : eq xs[i] k = true
    · simp [he]
    · rw [if_neg he, if_neg he]
      have := ih (i + 1) (by omega)
      rw [show ((i : Int) + 1) = ((i + 1 : Nat) : Int) by omega, this]
      cases (List.drop (i + 1) xs).findIdx? (fun x => eq x k) with
      | none => rfl
      | some j =>
        simp only [Option.map_some]
        congr 2
        omega

theorem indexOf_ok {l : ListC α} {xs : List α} (h : Repr l xs) (eq : α → κ → Bool) (k : κ) :
    indexOf eq k l = .ok (Spec.firstIndex eq xs k) l := by
  have hc := h.count
  unfold indexOf
  rw [Cpp.bind_ok (Cpp.get_apply l)]
  have := indexOfLoop_ok h eq k xs.length 0 (by omega)
  rw [show l.count.toNat = xs.length by omega]
  rw [show ((0 : Nat) : Int) = 0 from rfl] at this
  rw [mem_some this]
  simp only [Spec.firstIndex, List.drop_zero, Nat.zero_add]
  cases xs.findIdx? (fun x => eq x k) <;> rfl

theorem firstIndex_eq_neg_one_iff (eq : α → κ → Bool) (xs : List α) (k : κ) :
    Spec.firstIndex eq xs k = -1 ↔ xs.any (fun x => eq x k) = false := by
  unfold Spec.firstIndex
  cases h : xs.findIdx? (fun x => eq x k) with
  | none => simp [List.findIdx?_eq_none_iff] at h; simpa using h
  | some i =>
    constructor
    · intro h'; exfalso; simp only at h'; omega
    · intro h'
      rw [List.findIdx?_eq_some_iff_getElem] at h
      obtain ⟨hi, hp, _⟩ := h
      simp at h'
      have := h' xs[i] (List.getElem_mem hi)
      simp_all

theorem contains_ok {l : ListC α} {xs : List α} (h : Repr l xs) (eq : α → κ → Bool) (k : κ) :
    contains eq k l = .ok (xs.any (fun x => eq x k)) l := by
  unfold contains
  rw [Cpp.bind_ok (indexOf_ok h eq k)]
  have := firstIndex_eq_neg_one_iff eq xs k
  rw [Cpp.pure_apply]
  congr 1
  cases h : xs.any (fun x => eq x k) <;> simp_all

theorem take_cons_drop_getElem? (xs : List α) (n : Nat) (v : α) (hn : n ≤ xs.length) (i : Nat) :
    (xs.take n ++ v :: xs.drop n)[i]? = if i < n then xs[i]? else if i = n then some v else xs[i - 1]? := by
  rw [List.getElem?_append]
  have hl : (xs.take n).length = n := by simp; omega
  rw [hl]
  split
  · rw [List.getElem?_take_of_lt (by assumption)]
  · split
    · next h => subst h; simp
    · rw [show i - n = (i - n - 1) + 1 by omega, List.getElem?_cons_succ, List.getElem?_drop]
      congr 1; omega

theorem insert_ok (mv : Option α → Option α) {l : ListC α} {xs : List α} (h : Repr l xs) (i : Int) (v : α)
    (h0 : 0 ≤ i) (h1 : i ≤ xs.length) :
    ∃ l', insert mv i v l = .ok i l' ∧ Repr l' (xs.take i.toNat ++ v :: xs.drop i.toNat) := by
  have hc := h.count
  obtain ⟨b, cap, e1, e2, e3, _, e4, e5, e6, e7⟩ :=
    insertUninitializedItems_ok mv h i 1 (by omega) h0 (by omega)
  have hcons : construct b i (some v) = some (b.upd i (.obj (some v))) :=
    construct_ok ⟨h0, by omega⟩ (by rw [e5 i (by omega) (by omega)]; rfl)
  refine ⟨⟨b.upd i (.obj (some v)), l.count + 1, cap⟩, ?_, ?_⟩
  · unfold insert
    rw [Cpp.bind_ok (Cpp.get_apply l), Cpp.bind_ok (Cpp.check_true (by omega) l)]
    have e1' : insertUninitializedItems mv l.buffer l.capacity l.count i 1 = some (b, cap, l.count + 1) := e1
    rw [Cpp.bind_ok (mem_some e1' l)]
    simp only
    rw [Cpp.bind_ok (mem_some hcons l)]
    rfl
  · refine ⟨by simp [e2], ?_, by simp; omega, ?_, ?_⟩
    · simp [hc]; omega
    · intro j hj1 hj2
      simp only at hj2 ⊢
      rw [upd_cell, take_cons_drop_getElem? xs i.toNat v (by omega)]
      by_cases hji : j = i
      · subst hji; simp
      · rw [if_neg hji]
        by_cases hlt : j < i
        · rw [e4 j hj1 hlt, if_pos (by omega)]
        · rw [e6 j (by omega) (by omega), if_neg (by omega), if_neg (by omega)]
          congr 2; omega
    · intro j hj1 hj2
      simp only at hj1 hj2 ⊢
      rw [upd_cell, if_neg (by omega), e7 j (by omega) hj2]

theorem insert_err (mv : Option α → Option α) {l : ListC α} {xs : List α} (h : Repr l xs) (i : Int) (v : α)
    (hi : ¬ (0 ≤ i ∧ i ≤ xs.length)) : insert mv i v l = .err l := by
  have hc := h.count
  unfold insert
  rw [Cpp.bind_ok (Cpp.get_apply l), Cpp.bind_err (Cpp.check_false (by omega) l)]

theorem add_ok (mv : Option α → Option α) {l : ListC α} {xs : List α} (h : Repr l xs) (v : α) :
    ∃ l', add mv v l = .ok xs.length l' ∧ Repr l' (xs ++ [v]) := by
  have hc := h.count
  obtain ⟨l', e1, e2⟩ := insert_ok mv h l.count v (by omega) (by omega)
  refine ⟨l', ?_, ?_⟩
  · unfold add
    rw [Cpp.bind_ok (Cpp.get_apply l), e1, hc]
  · simpa [hc] using e2

theorem setAt_ok {l : ListC α} {xs : List α} (h : Repr l xs) (i : Int) (v : α) (h0 : 0 ≤ i)
    (h1 : i < xs.length) : ∃ l', setAt i v l = .ok true l' ∧ Repr l' (xs.set i.toNat v) := by
  have hc := h.count
  have hl := h.le
  have hs := h.size
  have ha : assign l.buffer i (some v) = some (l.buffer.upd i (.obj (some v))) :=
    assign_ok ⟨h0, by omega⟩ (by rw [h.live i h0 (by omega)]; rfl)
  refine ⟨⟨l.buffer.upd i (.obj (some v)), l.count, l.capacity⟩, ?_, ?_⟩
  · unfold setAt
    rw [Cpp.bind_ok (Cpp.get_apply l), Cpp.bind_ok (Cpp.check_true (by omega) l), Cpp.bind_ok (mem_some ha l)]
    rfl
  · refine ⟨by simp [hs], by simp [hc], hl, ?_, ?_⟩
    · intro j hj1 hj2
      simp only at hj2 ⊢
      rw [upd_cell]
      split
      · next e => subst e; rw [List.getElem?_set_self (by omega)]
      · rw [List.getElem?_set_ne (by omega), h.live j hj1 hj2]
    · intro j hj1 hj2
      simp only at hj1 hj2 ⊢
      rw [upd_cell, if_neg (by omega), h.raw j hj1 hj2]

theorem setAt_err {l : ListC α} {xs : List α} (h : Repr l xs) (i : Int) (v : α)
    (hi : ¬ (0 ≤ i ∧ i < xs.length)) : setAt i v l = .err l := by
  have hc := h.count
  unfold setAt
  rw [Cpp.bind_ok (Cpp.get_apply l), Cpp.bind_err (Cpp.check_false (by omega) l)]

/-- shared core of RemoveAt and RemoveRange -/
theorem removeCore_ok (mv : Option α → Option α) {l : ListC α} {xs : List α} (h : Repr l xs) (i n : Int)
    (h0 : 0 ≤ i) (hn : 0 ≤ n) (h1 : i + n ≤ xs.length) :
    ∃ b b' cap', callMoveAssignmentsOverlapped mv l.buffer i (i + n) (l.count - i - n) = some b ∧
      releaseUnnecessaryBuffer mv b l.capacity l.count (l.count - n) = some (b', cap') ∧
      Repr ⟨b', l.count - n, cap'⟩ (xs.take i.toNat ++ xs.drop (i + n).toNat) := by
  have hc := h.count
  have hl := h.le
  have hs := h.size
  have hlen : (xs.take i.toNat).length = i.toNat := by simp; omega
  have hget : ∀ j : Nat, (xs.take i.toNat ++ xs.drop (i + n).toNat)[j]? =
      if j < i.toNat then xs[j]? else xs[j + n.toNat]? := by
    intro j
    rw [List.getElem?_append, hlen]
    split
    · rw [List.getElem?_take_of_lt (by assumption)]
    · rw [List.getElem?_drop]; congr 1; omega
  have hcore : ∃ b, callMoveAssignmentsOverlapped mv l.buffer i (i + n) (l.count - i - n) = some b ∧
      b.size = l.capacity ∧
      (∀ j, 0 ≤ j → j < l.count - n → b.cell j = .obj (xs.take i.toNat ++ xs.drop (i + n).toNat)[j.toNat]?) ∧
      (∀ j, l.count - n ≤ j → j < l.count → (b.cell j).isRaw = false) ∧
      (∀ j, l.count ≤ j → j < l.capacity → b.cell j = .raw) := by
    by_cases hn0 : n = 0
    · subst hn0
      refine ⟨l.buffer, ?_, hs, ?_, ?_, h.raw⟩
      · unfold callMoveAssignmentsOverlapped; rw [if_neg (by omega), if_neg (by omega)]
      · intro j hj1 hj2
        rw [h.live j hj1 (by omega), hget]
        split
        · rfl
        · simp
      · intro j hj1 hj2; omega
    · obtain ⟨b, e1, e2, e3⟩ := callMoveAssignmentsOverlapped_ok mv l.buffer i (i + n) (l.count - i - n).toNat
        (by omega)
        (fun j hj1 hj2 => ⟨⟨by omega, by omega⟩, by rw [h.live j (by omega) (by omega)]; rfl⟩)
        (fun j hj1 hj2 => ⟨⟨by omega, by omega⟩, by rw [h.live j (by omega) (by omega)]; rfl⟩)
      rw [Int.toNat_of_nonneg (by omega)] at e1
      refine ⟨b, e1, by omega, ?_, ?_, ?_⟩
      · intro j hj1 hj2
        rw [e3, hget]
        by_cases hji : j < i
        · rw [if_neg (by omega), if_neg (by omega), if_pos (by omega), h.live j hj1 (by omega)]
        · rw [if_pos (by omega), if_neg (by omega), h.live _ (by omega) (by omega)]
          congr 2; omega
      · intro j hj1 hj2
        rw [e3]
        split
        · rw [h.live _ (by omega) (by omega)]; rfl
        · split
          · rw [mvCell_isRaw, h.live _ (by omega) (by omega)]; rfl
          · rw [h.live _ (by omega) (by omega)]; rfl
      · intro j hj1 hj2
        rw [e3, if_neg (by omega), if_neg (by omega), h.raw j hj1 hj2]
  obtain ⟨b, e1, e2, e3, e4, e5⟩ := hcore
  obtain ⟨b', cap', f1, f2⟩ := releaseUnnecessaryBuffer_ok mv b l.capacity l.count (l.count - n)
    (xs.take i.toNat ++ xs.drop (i + n).toNat) e2 (by simp; omega) (by omega) hl e3 e4 e5
  exact ⟨b, b', cap', e1, f1, f2⟩

theorem removeAt_ok (mv : Option α → Option α) {l : ListC α} {xs : List α} (h : Repr l xs) (i : Int)
    (h0 : 0 ≤ i) (h1 : i < xs.length) :
    ∃ l', removeAt mv i l = .ok true l' ∧ Repr l' (xs.take i.toNat ++ xs.drop (i.toNat + 1)) := by
  have hc := h.count
  obtain ⟨b, b', cap', e1, e2, e3⟩ := removeCore_ok mv h i 1 h0 (by omega) (by omega)
  refine ⟨⟨b', l.count - 1, cap'⟩, ?_, ?_⟩
  · unfold removeAt
    rw [Cpp.bind_ok (Cpp.get_apply l), Cpp.bind_ok (Cpp.check_true (by omega) l), Cpp.bind_ok (mem_some e1 l),
      Cpp.bind_ok (mem_some e2 l)]
    rfl
  · rwa [show i.toNat + 1 = (i + 1).toNat by omega]

theorem removeAt_err (mv : Option α → Option α) {l : ListC α} {xs : List α} (h : Repr l xs) (i : Int)
    (hi : ¬ (0 ≤ i ∧ i < xs.length)) : removeAt mv i l = .err l := by
  have hc := h.count
  unfold removeAt
  rw [Cpp.bind_ok (Cpp.get_apply l), Cpp.bind_err (Cpp.check_false (by omega) l)]

theorem removeRange_ok (mv : Option α → Option α) {l : ListC α} {xs : List α} (h : Repr l xs) (i n : Int)
    (h0 : 0 ≤ i) (hn : 0 ≤ n) (h1 : i + n ≤ xs.length) :
    ∃ l', removeRange mv i n l = .ok true l' ∧ Repr l' (xs.take i.toNat ++ xs.drop (i + n).toNat) := by
  have hc := h.count
  obtain ⟨b, b', cap', e1, e2, e3⟩ := removeCore_ok mv h i n h0 hn h1
  refine ⟨⟨b', l.count - n, cap'⟩, ?_, e3⟩
  unfold removeRange
  rw [Cpp.bind_ok (Cpp.get_apply l), Cpp.bind_ok (Cpp.check_true (by omega) l),
    Cpp.bind_ok (Cpp.check_true (by omega) l), Cpp.bind_ok (mem_some e1 l), Cpp.bind_ok (mem_some e2 l)]
  rfl

theorem removeRange_err (mv : Option α → Option α) {l : ListC α} {xs : List α} (h : Repr l xs) (i n : Int)
    (hi : ¬ (0 ≤ i ∧ i + n ≤ xs.length)) : removeRange mv i n l = .err l := by
  have hc := h.count
  unfold removeRange
  rw [Cpp.bind_ok (Cpp.get_apply l)]
  by_cases h1 : i ≥ 0 ∧ i ≤ l.count
  · rw [Cpp.bind_ok (Cpp.check_true h1 l), Cpp.bind_err (Cpp.check_false (by omega) l)]
  · rw [Cpp.bind_err (Cpp.check_false h1 l)]

theorem remove_ok (mv : Option α → Option α) {l : ListC α} {xs : List α} (h : Repr l xs) (eq : α → κ → Bool)
    (k : κ) : ∃ l', remove mv eq k l = .ok (xs.findIdx? (fun x => eq x k)).isSome l' ∧
      Repr l' (match xs.findIdx? (fun x => eq x k) with
        | some i => xs.take i ++ xs.drop (i + 1)
        | none => xs) := by
  have hc := h.count
  unfold remove
  rw [Cpp.bind_ok (indexOf_ok h eq k), Cpp.bind_ok (Cpp.get_apply l)]
  unfold Spec.firstIndex
  cases hf : xs.findIdx? (fun x => eq x k) with
  | none => exact ⟨l, by simp, h⟩
  | some i =>
    rw [List.findIdx?_eq_some_iff_getElem] at hf
    obtain ⟨hi, _⟩ := hf
    obtain ⟨l', e1, e2⟩ := removeAt_ok mv h i (by omega) (by omega)
    refine ⟨l', ?_, by simpa using e2⟩
    simp only
    rw [if_pos (by omega), Cpp.bind_ok e1]
    rfl

theorem destroyAll_ok {l : ListC α} {xs : List α} (h : Repr l xs) :
    ∃ b, callDtors l.buffer 0 l.count.toNat = some b ∧ deallocateBuffer b = some () := by
  have hc := h.count
  have hl := h.le
  have hs := h.size
  obtain ⟨b, e1, e2, e3⟩ := callDtors_ok l.buffer 0 l.count.toNat
    (fun j hj1 hj2 => ⟨⟨by omega, by omega⟩, by rw [h.live j (by omega) (by omega)]; rfl⟩)
  refine ⟨b, e1, deallocateBuffer_ok b ?_⟩
  intro i hi
  have hi1 := hi.1
  have hi2 := hi.2
  rw [e3]
  split
  · rfl
  · rw [h.raw i (by omega) (by omega)]; rfl

theorem clear_ok {l : ListC α} {xs : List α} (h : Repr l xs) : clear l = .ok true ListC.empty := by
  obtain ⟨b, e1, e2⟩ := destroyAll_ok h
  unfold clear
  rw [Cpp.bind_ok (Cpp.get_apply l), Cpp.bind_ok (mem_some e1 l), Cpp.bind_ok (mem_some e2 l)]
  rfl

theorem destructor_ok {l : ListC α} {xs : List α} (h : Repr l xs) : destructor l = .ok () l := by
  obtain ⟨b, e1, e2⟩ := destroyAll_ok h
  unfold destructor
  rw [Cpp.bind_ok (Cpp.get_apply l)]
  split
  · rw [Cpp.bind_ok (mem_some e1 l), mem_some e2 l]
  · rfl

end ListC
end Vlpp
