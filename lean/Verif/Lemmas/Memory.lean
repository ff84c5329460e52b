import Verif.Model.Memory

/-! Pointwise descriptions of the memory helpers. -/
set_option autoImplicit false
namespace Vlpp

/-- split all `if`s, closing branches by `rfl` or contradictory arithmetic -/
macro "ifsolve" : tactic => `(tactic| (repeat' (first | rfl | (exfalso; omega) | split)))

namespace Mem
variable {α : Type}

/-- a moved-from cell -/
def mvCell (mv : Option α → Option α) : Cell α → Cell α
  | .raw => .raw
  | .obj v => .obj (mv v)

@[simp] theorem mvCell_isRaw (mv : Option α → Option α) (c : Cell α) : (mvCell mv c).isRaw = c.isRaw := by
  cases c <;> rfl

theorem cell_of_not_raw {c : Cell α} (h : c.isRaw = false) : ∃ v, c = .obj v := by
  cases c with
  | raw => simp [Cell.isRaw] at h
  | obj v => exact ⟨v, rfl⟩

theorem cell_of_raw {c : Cell α} (h : c.isRaw = true) : c = .raw := by
  cases c with
  | raw => rfl
  | obj v => simp [Cell.isRaw] at h

theorem construct_ok {b : Block α} {i : Int} {v : Option α} (hi : b.In i) (hr : (b.cell i).isRaw = true) :
    construct b i v = some (b.upd i (.obj v)) := by simp [construct, hi, hr]

theorem destroy_ok {b : Block α} {i : Int} (hi : b.In i) (hr : (b.cell i).isRaw = false) :
    destroy b i = some (b.upd i .raw) := by simp [destroy, hi, hr]

theorem assign_ok {b : Block α} {i : Int} {v : Option α} (hi : b.In i) (hr : (b.cell i).isRaw = false) :
    assign b i v = some (b.upd i (.obj v)) := by simp [assign, hi, hr]

theorem takeOut_ok {mv : Option α → Option α} {b : Block α} {i : Int} (hi : b.In i)
    (hr : (b.cell i).isRaw = false) :
    ∃ v, b.cell i = .obj v ∧ takeOut mv b i = some (v, b.upd i (mvCell mv (b.cell i))) := by
  obtain ⟨v, hv⟩ := cell_of_not_raw hr
  exact ⟨v, hv, by simp [takeOut, hi, hv, mvCell]⟩

@[simp] theorem upd_size (b : Block α) (i : Int) (c : Cell α) : (b.upd i c).size = b.size := rfl
theorem upd_cell (b : Block α) (i j : Int) (c : Cell α) :
    (b.upd i c).cell j = if j = i then c else b.cell j := rfl
theorem in_iff (b : Block α) (i : Int) : b.In i ↔ 0 ≤ i ∧ i < b.size := Iff.rfl

theorem callDefaultCtors_ok (dflt : Option α) (b : Block α) (d : Int) (n : Nat)
    (hin : ∀ j, d ≤ j → j < d + n → b.In j ∧ (b.cell j).isRaw = true) :
    ∃ b', callDefaultCtors dflt b d n = some b' ∧ b'.size = b.size ∧
      ∀ j, b'.cell j = if d ≤ j ∧ j < d + n then .obj dflt else b.cell j := by
  induction n with
  | zero => exact ⟨b, rfl, rfl, fun j => by simp; intro h1 h2; omega⟩
  | succ n ih =>
    obtain ⟨b', h1, h2, h3⟩ := ih (fun j hj1 hj2 => hin j hj1 (by omega))
    have hi := hin (d + n) (by omega) (by omega)
    have hin' : b'.In (d + n) := by rw [in_iff, h2]; exact hi.1
    have hc : b'.cell (d + n) = b.cell (d + n) := by rw [h3]; simp
    refine ⟨b'.upd (d + n) (.obj dflt), ?_, by simp [h2], ?_⟩
    · simp only [callDefaultCtors, h1]
      simp [construct_ok hin' (by rw [hc]; exact hi.2)]
    · intro j
      rw [upd_cell, h3]
      ifsolve

theorem callDtors_ok (b : Block α) (d : Int) (n : Nat)
    (hin : ∀ j, d ≤ j → j < d + n → b.In j ∧ (b.cell j).isRaw = false) :
    ∃ b', callDtors b d n = some b' ∧ b'.size = b.size ∧
      ∀ j, b'.cell j = if d ≤ j ∧ j < d + n then .raw else b.cell j := by
  induction n with
  | zero => exact ⟨b, rfl, rfl, fun j => by simp; intro h1 h2; omega⟩
  | succ n ih =>
    obtain ⟨b', h1, h2, h3⟩ := ih (fun j hj1 hj2 => hin j hj1 (by omega))
    have hi := hin (d + n) (by omega) (by omega)
    have hin' : b'.In (d + n) := by rw [in_iff, h2]; exact hi.1
    have hc : b'.cell (d + n) = b.cell (d + n) := by rw [h3]; simp
    refine ⟨b'.upd (d + n) .raw, ?_, by simp [h2], ?_⟩
    · simp only [callDtors, h1]
      simp [destroy_ok hin' (by rw [hc]; exact hi.2)]
    · intro j
      rw [upd_cell, h3]
      ifsolve

theorem callMoveCtorsTo_ok (mv : Option α → Option α) (dst src : Block α) (d s : Int) (n : Nat)
    (hd : ∀ j, d ≤ j → j < d + n → dst.In j ∧ (dst.cell j).isRaw = true)
    (hs : ∀ j, s ≤ j → j < s + n → src.In j ∧ (src.cell j).isRaw = false) :
    ∃ dst' src', callMoveCtorsTo mv dst src d s n = some (dst', src') ∧
      dst'.size = dst.size ∧ src'.size = src.size ∧
      (∀ j, dst'.cell j = if d ≤ j ∧ j < d + n then src.cell (j - d + s) else dst.cell j) ∧
      (∀ j, src'.cell j = if s ≤ j ∧ j < s + n then mvCell mv (src.cell j) else src.cell j) := by
  induction n with
  | zero =>
    exact ⟨dst, src, rfl, rfl, rfl, fun j => by simp; intro h1 h2; omega, fun j => by simp; intro h1 h2; omega⟩
  | succ n ih =>
    obtain ⟨dst', src', h1, h2, h3, h4, h5⟩ :=
      ih (fun j hj1 hj2 => hd j hj1 (by omega)) (fun j hj1 hj2 => hs j hj1 (by omega))
    have hdi := hd (d + n) (by omega) (by omega)
    have hsi := hs (s + n) (by omega) (by omega)
    have hind : dst'.In (d + n) := by rw [in_iff, h2]; exact hdi.1
    have hins : src'.In (s + n) := by rw [in_iff, h3]; exact hsi.1
    have hcd : dst'.cell (d + n) = dst.cell (d + n) := by rw [h4]; simp
    have hcs : src'.cell (s + n) = src.cell (s + n) := by rw [h5]; simp
    obtain ⟨v, hv1, hv2⟩ := takeOut_ok (mv := mv) hins (by rw [hcs]; exact hsi.2)
    refine ⟨dst'.upd (d + n) (.obj v), src'.upd (s + n) (mvCell mv (src'.cell (s + n))), ?_, by simp [h2],
      by simp [h3], ?_, ?_⟩
    · simp only [callMoveCtorsTo, h1]
      simp [hv2, construct_ok hind (by rw [hcd]; exact hdi.2)]
    · intro j
      rw [upd_cell, h4]
      split
      · next h =>
        subst h
        rw [if_pos (by omega), ← hv1, hcs]
        congr 1; omega
      · ifsolve
    · intro j
      rw [upd_cell]
      split
      · next h => subst h; rw [if_pos (by omega), hcs]
      · rw [h5]; ifsolve

theorem callMoveCtorsIn_go_ok (mv : Option α → Option α) (b : Block α) (d s : Int) (n : Nat)
    (hdis : d + n ≤ s ∨ s + n ≤ d)
    (hd : ∀ j, d ≤ j → j < d + n → b.In j ∧ (b.cell j).isRaw = true)
    (hs : ∀ j, s ≤ j → j < s + n → b.In j ∧ (b.cell j).isRaw = false) :
    ∃ b', callMoveCtorsIn.go mv b d s n = some b' ∧ b'.size = b.size ∧
      (∀ j, b'.cell j = if d ≤ j ∧ j < d + n then b.cell (j - d + s)
        else if s ≤ j ∧ j < s + n then mvCell mv (b.cell j) else b.cell j) := by
  induction n with
  | zero =>
    refine ⟨b, rfl, rfl, fun j => ?_⟩
    rw [if_neg (by omega), if_neg (by omega)]
  | succ n ih =>
    obtain ⟨b', h1, h2, h4⟩ :=
      ih (by omega) (fun j hj1 hj2 => hd j hj1 (by omega)) (fun j hj1 hj2 => hs j hj1 (by omega))
    have hdi := hd (d + n) (by omega) (by omega)
    have hsi := hs (s + n) (by omega) (by omega)
    have hins : b'.In (s + n) := by rw [in_iff, h2]; exact hsi.1
    have hcs : b'.cell (s + n) = b.cell (s + n) := by
      rw [h4, if_neg (by omega), if_neg (by omega)]
    obtain ⟨v, hv1, hv2⟩ := takeOut_ok (mv := mv) hins (by rw [hcs]; exact hsi.2)
    have hind : (b'.upd (s + n) (mvCell mv (b'.cell (s + n)))).In (d + n) := by
      rw [in_iff, upd_size, h2]; exact hdi.1
    have hcd : (b'.upd (s + n) (mvCell mv (b'.cell (s + n)))).cell (d + n) = b.cell (d + n) := by
      rw [upd_cell, if_neg (by omega), h4, if_neg (by omega), if_neg (by omega)]
    refine ⟨(b'.upd (s + n) (mvCell mv (b'.cell (s + n)))).upd (d + n) (.obj v), ?_, by simp [h2], ?_⟩
    · simp only [callMoveCtorsIn.go, h1]
      simp [hv2, construct_ok hind (by rw [hcd]; exact hdi.2)]
    · intro j
      rw [upd_cell]
      split
      · next h =>
        subst h
        rw [if_pos (by omega), ← hv1, hcs]; congr 1; omega
      · rw [upd_cell]
        split
        · next h => subst h; rw [if_neg (by omega), if_pos (by omega), hcs]
        · rw [h4]; ifsolve

theorem callMoveCtorsIn_ok (mv : Option α → Option α) (b : Block α) (d s : Int) (n : Nat)
    (hdis : d + n ≤ s ∨ s + n ≤ d)
    (hd : ∀ j, d ≤ j → j < d + n → b.In j ∧ (b.cell j).isRaw = true)
    (hs : ∀ j, s ≤ j → j < s + n → b.In j ∧ (b.cell j).isRaw = false) :
    ∃ b', callMoveCtorsIn mv b d s n = some b' ∧ b'.size = b.size ∧
      (∀ j, b'.cell j = if d ≤ j ∧ j < d + n then b.cell (j - d + s)
        else if s ≤ j ∧ j < s + n then mvCell mv (b.cell j) else b.cell j) := by
  obtain ⟨b', h1, h2⟩ := callMoveCtorsIn_go_ok mv b d s n hdis hd hs
  exact ⟨b', by rw [callMoveCtorsIn, if_pos (by omega), h1], h2⟩

theorem moveAssignFwd_ok (mv : Option α → Option α) (b : Block α) (d s : Int) (n : Nat) (hlt : d < s)
    (hd : ∀ j, d ≤ j → j < d + n → b.In j ∧ (b.cell j).isRaw = false)
    (hs : ∀ j, s ≤ j → j < s + n → b.In j ∧ (b.cell j).isRaw = false) :
    ∃ b', moveAssignFwd mv b d s n = some b' ∧ b'.size = b.size ∧
      (∀ j, b'.cell j = if d ≤ j ∧ j < d + n then b.cell (j - d + s)
        else if s ≤ j ∧ j < s + n then mvCell mv (b.cell j) else b.cell j) := by
  induction n with
  | zero =>
    refine ⟨b, rfl, rfl, fun j => ?_⟩
    rw [if_neg (by omega), if_neg (by omega)]
  | succ n ih =>
    obtain ⟨b', h1, h2, h4⟩ :=
      ih (fun j hj1 hj2 => hd j hj1 (by omega)) (fun j hj1 hj2 => hs j hj1 (by omega))
    have hdi := hd (d + n) (by omega) (by omega)
    have hsi := hs (s + n) (by omega) (by omega)
    have hins : b'.In (s + n) := by rw [in_iff, h2]; exact hsi.1
    have hcs : b'.cell (s + n) = b.cell (s + n) := by
      rw [h4, if_neg (by omega), if_neg (by omega)]
    obtain ⟨v, hv1, hv2⟩ := takeOut_ok (mv := mv) hins (by rw [hcs]; exact hsi.2)
    have hind : (b'.upd (s + n) (mvCell mv (b'.cell (s + n)))).In (d + n) := by
      rw [in_iff, upd_size, h2]; exact hdi.1
    have hcd : ((b'.upd (s + n) (mvCell mv (b'.cell (s + n)))).cell (d + n)).isRaw = false := by
      rw [upd_cell, if_neg (by omega), h4, if_neg (by omega)]
      split <;> simp [hdi.2]
    refine ⟨(b'.upd (s + n) (mvCell mv (b'.cell (s + n)))).upd (d + n) (.obj v), ?_, by simp [h2], ?_⟩
    · simp only [moveAssignFwd, h1]
      simp [hv2, assign_ok hind hcd]
    · intro j
      rw [upd_cell]
      split
      · next h =>
        subst h
        rw [if_pos (by omega), ← hv1, hcs]; congr 1; omega
      · rw [upd_cell]
        split
        · next h => subst h; rw [if_neg (by omega), if_pos (by omega), hcs]
        · rw [h4]; ifsolve

theorem moveAssignBwd_ok (mv : Option α → Option α) (b : Block α) (d s : Int) (n : Nat) (hlt : s < d)
    (hd : ∀ j, d ≤ j → j < d + n → b.In j ∧ (b.cell j).isRaw = false)
    (hs : ∀ j, s ≤ j → j < s + n → b.In j ∧ (b.cell j).isRaw = false) :
    ∃ b', moveAssignBwd mv b d s n = some b' ∧ b'.size = b.size ∧
      (∀ j, b'.cell j = if d ≤ j ∧ j < d + n then b.cell (j - d + s)
        else if s ≤ j ∧ j < s + n then mvCell mv (b.cell j) else b.cell j) := by
  induction n generalizing b with
  | zero =>
    refine ⟨b, rfl, rfl, fun j => ?_⟩
    rw [if_neg (by omega), if_neg (by omega)]
  | succ n ih =>
    have hdi := hd (d + n) (by omega) (by omega)
    have hsi := hs (s + n) (by omega) (by omega)
    obtain ⟨v, hv1, hv2⟩ := takeOut_ok (mv := mv) hsi.1 hsi.2
    have hind : (b.upd (s + n) (mvCell mv (b.cell (s + n)))).In (d + n) := hdi.1
    have hcd : ((b.upd (s + n) (mvCell mv (b.cell (s + n)))).cell (d + n)).isRaw = false := by
      rw [upd_cell, if_neg (by omega)]; exact hdi.2
    let b1 := (b.upd (s + n) (mvCell mv (b.cell (s + n)))).upd (d + n) (.obj v)
    have hb1 : ∀ j, b1.cell j = if j = d + n then .obj v else if j = s + n then mvCell mv (b.cell (s + n))
        else b.cell j := fun j => rfl
    have hraw : ∀ j, (b.cell j).isRaw = false → (b1.cell j).isRaw = false := by
      intro j hj
      rw [hb1]
      split
      · rfl
      · split
        · simp [hsi.2]
        · exact hj
    obtain ⟨b', h1, h2, h4⟩ := ih b1
      (fun j hj1 hj2 => ⟨(hd j hj1 (by omega)).1, hraw j (hd j hj1 (by omega)).2⟩)
      (fun j hj1 hj2 => ⟨(hs j hj1 (by omega)).1, hraw j (hs j hj1 (by omega)).2⟩)
    refine ⟨b', ?_, h2, ?_⟩
    · simp only [moveAssignBwd, hv2]
      simp [assign_ok hind hcd, h1, b1]
    · intro j
      rw [h4]
      by_cases c1 : d ≤ j ∧ j < d + n
      · rw [if_pos c1, if_pos (by omega), hb1, if_neg (by omega), if_neg (by omega)]
      · rw [if_neg c1]
        by_cases c2 : j = d + n
        · subst c2
          rw [if_neg (by omega), if_pos (by omega), hb1, if_pos rfl, ← hv1]; congr 1; omega
        · rw [if_neg (show ¬ (d ≤ j ∧ j < d + ((n + 1 : Nat) : Int)) by omega), hb1, if_neg c2]
          by_cases c3 : j = s + n
          · subst c3
            rw [if_neg (by omega), if_pos rfl, if_pos (by omega)]
          · rw [if_neg c3]
            ifsolve

theorem callMoveAssignmentsOverlapped_ok (mv : Option α → Option α) (b : Block α) (d s : Int) (n : Nat)
    (hne : d ≠ s)
    (hd : ∀ j, d ≤ j → j < d + n → b.In j ∧ (b.cell j).isRaw = false)
    (hs : ∀ j, s ≤ j → j < s + n → b.In j ∧ (b.cell j).isRaw = false) :
    ∃ b', callMoveAssignmentsOverlapped mv b d s n = some b' ∧ b'.size = b.size ∧
      (∀ j, b'.cell j = if d ≤ j ∧ j < d + n then b.cell (j - d + s)
        else if s ≤ j ∧ j < s + n then mvCell mv (b.cell j) else b.cell j) := by
  unfold callMoveAssignmentsOverlapped
  simp only [Int.toNat_natCast]
  split
  · next h => exact moveAssignFwd_ok mv b d s n h hd hs
  · rw [if_pos (by omega)]
    exact moveAssignBwd_ok mv b d s n (by omega) hd hs

theorem deallocateBuffer_ok (b : Block α) (h : ∀ i, b.In i → (b.cell i).isRaw = true) :
    deallocateBuffer b = some () := by
  unfold deallocateBuffer
  rw [if_pos]
  rw [List.all_eq_true]
  intro i hi
  simp only [List.mem_range] at hi
  exact h i ⟨by omega, by omega⟩

@[simp] theorem allocateBuffer_size (n : Int) : (allocateBuffer n : Block α).size = max n 0 := by
  unfold allocateBuffer; split
  · simp [Block.null]; omega
  · simp; omega

@[simp] theorem allocateBuffer_cell (n i : Int) : (allocateBuffer n : Block α).cell i = .raw := by
  unfold allocateBuffer; split <;> rfl

end Mem
end Vlpp
