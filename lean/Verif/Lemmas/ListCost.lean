import Verif.Model.ListCost
import Verif.Spec.ListCost
import Verif.Props.ListProps

set_option autoImplicit false
namespace Vlpp
namespace ListCost
variable {α κ β : Type}
open ListC (Repr)

/-- `n` more elements moved, `k` more buffers allocated. -/
def plus (t : Tally) (n k : Nat) : Tally := ⟨t.moves + n, t.allocs + k⟩

theorem plus_plus (t : Tally) (a b c d : Nat) : plus (plus t a b) c d = plus t (a + c) (b + d) := by
  simp [plus, Nat.add_assoc]

theorem plus_zero (t : Tally) : plus t 0 0 = t := rfl

theorem callMoveCtorsTo_cost (mv : Option α → Option α) (dst src : Block α) (d s : Int) (t : Tally) (n : Nat) :
    callMoveCtorsTo mv dst src d s t n = (Mem.callMoveCtorsTo mv dst src d s n).map (·, plus t n 0) := by
  induction n with
  | zero => rfl
  | succ n ih =>
    simp only [callMoveCtorsTo, Mem.callMoveCtorsTo, ih]
    cases Mem.callMoveCtorsTo mv dst src d s n with
    | none => rfl
    | some p =>
      obtain ⟨dst', src'⟩ := p
      simp only [takeOut, Option.map_some, Option.bind_eq_bind, Option.bind_some]
      cases Mem.takeOut mv src' (s + n) with
      | none => rfl
      | some q =>
        simp only [Option.bind_some, pure]
        cases Mem.construct dst' (d + n) q.1 with
        | none => rfl
        | some _ => rfl

theorem callMoveCtorsIn_go_cost (mv : Option α → Option α) (b : Block α) (d s : Int) (t : Tally) (n : Nat) :
    callMoveCtorsIn.go mv b d s t n = (Mem.callMoveCtorsIn.go mv b d s n).map (·, plus t n 0) := by
  induction n with
  | zero => rfl
  | succ n ih =>
    simp only [callMoveCtorsIn.go, Mem.callMoveCtorsIn.go, ih]
    cases Mem.callMoveCtorsIn.go mv b d s n with
    | none => rfl
    | some b' =>
      simp only [takeOut, Option.map_some, Option.bind_eq_bind, Option.bind_some]
      cases Mem.takeOut mv b' (s + n) with
      | none => rfl
      | some q =>
        simp only [Option.bind_some, pure]
        cases Mem.construct q.2 (d + n) q.1 with
        | none => rfl
        | some _ => rfl

theorem callMoveCtorsIn_cost (mv : Option α → Option α) (b : Block α) (d s : Int) (t : Tally) (n : Nat) :
    callMoveCtorsIn mv b d s n t = (Mem.callMoveCtorsIn mv b d s n).map (·, plus t n 0) := by
  unfold callMoveCtorsIn Mem.callMoveCtorsIn
  split
  · exact callMoveCtorsIn_go_cost mv b d s t n
  · rfl

theorem moveAssignFwd_cost (mv : Option α → Option α) (b : Block α) (d s : Int) (t : Tally) (n : Nat) :
    moveAssignFwd mv b d s t n = (Mem.moveAssignFwd mv b d s n).map (·, plus t n 0) := by
  induction n with
  | zero => rfl
  | succ n ih =>
    simp only [moveAssignFwd, Mem.moveAssignFwd, ih]
    cases Mem.moveAssignFwd mv b d s n with
    | none => rfl
    | some b' =>
      simp only [takeOut, Option.map_some, Option.bind_eq_bind, Option.bind_some]
      cases Mem.takeOut mv b' (s + n) with
      | none => rfl
      | some q =>
        simp only [Option.bind_some, pure]
        cases Mem.assign q.2 (d + n) q.1 with
        | none => rfl
        | some _ => rfl

theorem moveAssignBwd_cost (mv : Option α → Option α) (b : Block α) (d s : Int) (t : Tally) (n : Nat) :
    moveAssignBwd mv b d s t n = (Mem.moveAssignBwd mv b d s n).map (·, plus t n 0) := by
  induction n generalizing b t with
  | zero => rfl
  | succ n ih =>
    simp only [moveAssignBwd, Mem.moveAssignBwd, takeOut, Option.bind_eq_bind]
    cases Mem.takeOut mv b (s + n) with
    | none => rfl
    | some q =>
      simp only [Option.bind_some, pure]
      cases Mem.assign q.2 (d + n) q.1 with
      | none => rfl
      | some b' =>
        simp only [Option.bind_some, ih]
        cases Mem.moveAssignBwd mv b' d s n with
        | none => rfl
        | some b'' => simp [plus]; omega

/-- How many elements `CallMoveAssignmentsOverlapped` moves. -/
def overlapped (d s count : Int) : Nat := if d = s then 0 else count.toNat

theorem callMoveAssignmentsOverlapped_cost (mv : Option α → Option α) (b : Block α) (d s count : Int) (t : Tally) :
    callMoveAssignmentsOverlapped mv b d s count t =
      (Mem.callMoveAssignmentsOverlapped mv b d s count).map (·, plus t (overlapped d s count) 0) := by
  unfold callMoveAssignmentsOverlapped Mem.callMoveAssignmentsOverlapped overlapped
  split
  · rw [if_neg (by omega), moveAssignFwd_cost]
  · split
    · rw [if_neg (by omega), moveAssignBwd_cost]
    · rw [if_pos (by omega)]; rfl

theorem takeOut_size {mv : Option α → Option α} {b b' : Block α} {i : Int} {v : Option α}
    (h : Mem.takeOut mv b i = some (v, b')) : b'.size = b.size := by
  revert h
  unfold Mem.takeOut
  split
  · split
    · intro e; cases e
    · intro e; cases e; rfl
  · intro e; cases e

theorem assign_size {b b' : Block α} {i : Int} {v : Option α} (h : Mem.assign b i v = some b') :
    b'.size = b.size := by
  revert h
  unfold Mem.assign
  split
  · intro e; cases e; rfl
  · intro e; cases e

theorem moveAssignFwd_size {mv : Option α → Option α} {b b' : Block α} {d s : Int} {n : Nat}
    (h : Mem.moveAssignFwd mv b d s n = some b') : b'.size = b.size := by
  induction n generalizing b' with
  | zero => cases h; rfl
  | succ n ih =>
    revert h
    simp only [Mem.moveAssignFwd, Option.bind_eq_bind, Option.bind_eq_some_iff]
    rintro ⟨b1, e1, ⟨v, b2⟩, e2, e3⟩
    rw [assign_size e3, takeOut_size e2, ih e1]

theorem moveAssignBwd_size {mv : Option α → Option α} {b b' : Block α} {d s : Int} {n : Nat}
    (h : Mem.moveAssignBwd mv b d s n = some b') : b'.size = b.size := by
  induction n generalizing b with
  | zero => cases h; rfl
  | succ n ih =>
    revert h
    simp only [Mem.moveAssignBwd, Option.bind_eq_bind, Option.bind_eq_some_iff]
    rintro ⟨⟨v, b2⟩, e2, b1, e3, e1⟩
    rw [ih e1, assign_size e3, takeOut_size e2]

theorem callMoveAssignmentsOverlapped_size {mv : Option α → Option α} {b b' : Block α} {d s count : Int}
    (h : Mem.callMoveAssignmentsOverlapped mv b d s count = some b') : b'.size = b.size := by
  revert h
  unfold Mem.callMoveAssignmentsOverlapped
  split
  · exact moveAssignFwd_size
  · split
    · exact moveAssignBwd_size
    · intro e; cases e; rfl

theorem setAt_capacity {l l' : ListC α} {i : Int} {v : α} {r : Bool} (h : ListC.setAt i v l = .ok r l') :
    l'.capacity = l.capacity := by
  revert h
  unfold ListC.setAt
  rw [Cpp.bind_ok (Cpp.get_apply l)]
  by_cases hi : i ≥ 0 ∧ i < l.count
  · rw [Cpp.bind_ok (Cpp.check_true hi l)]
    cases he : Mem.assign l.buffer i (some v) with
    | none => intro e; cases e
    | some b =>
      rw [Cpp.bind_ok (show ListC.mem (some b) l = .ok b l from rfl)]
      intro e; cases e; rfl
  · rw [Cpp.bind_err (Cpp.check_false hi l)]
    intro e; cases e

/-- Does `ReleaseUnnecessaryBuffer` replace the buffer? -/
def Shrinks (size cap new : Int) : Prop := size ≠ 0 ∧ new ≤ cap / 2 ∧ new ≤ 8 ∧ new < cap * 5 / 8
instance (size cap new : Int) : Decidable (Shrinks size cap new) := by unfold Shrinks; infer_instance

theorem releaseUnnecessaryBuffer_cost (mv : Option α → Option α) (b : Block α) (cap old new : Int) (t : Tally)
    (hn : 0 ≤ new) :
    releaseUnnecessaryBuffer mv b cap old new t =
      (Mem.releaseUnnecessaryBuffer mv b cap old new).map
        (·, if Shrinks b.size cap new then plus t new.toNat 1 else t) := by
  unfold releaseUnnecessaryBuffer Mem.releaseUnnecessaryBuffer Shrinks
  by_cases h0 : b.size = 0
  · simp [h0]
  · simp only [h0, if_false, ne_eq, not_false_eq_true, true_and]
    generalize (if new < old then Mem.callDtors b new (old - new).toNat else some b) = r
    cases r with
    | none => rfl
    | some b1 =>
      simp only [Option.bind_eq_bind, Option.bind_some]
      by_cases h1 : new ≤ cap / 2 ∧ new ≤ 8
      · by_cases h2 : new < cap * 5 / 8
        · simp only [h1, h2, and_self, if_true, allocateBuffer, callMoveCtorsTo_cost]
          cases Mem.callMoveCtorsTo mv (Mem.allocateBuffer (cap * 5 / 8)) b1 0 0 new.toNat with
          | none => rfl
          | some p =>
            simp only [Option.map_some, Option.bind_some]
            cases Mem.callDtors p.2 0 new.toNat with
            | none => rfl
            | some b2 =>
              simp only [Option.bind_some]
              cases Mem.deallocateBuffer b2 with
              | none => rfl
              | some _ =>
                simp only [Option.bind_some, pure, Option.map_some]
                rw [if_neg (by omega)]
                simp [plus]
        · simp [h1, h2]
      · have : ¬ (new ≤ cap / 2 ∧ new ≤ 8 ∧ new < cap * 5 / 8) := by omega
        simp only [h1, this, if_false]
        rfl

/-- What `ReleaseUnnecessaryBuffer` does to the capacity. -/
theorem releaseUnnecessaryBuffer_cap {mv : Option α → Option α} {b b' : Block α} {cap old new cap' : Int}
    (h : Mem.releaseUnnecessaryBuffer mv b cap old new = some (b', cap')) :
    cap' = if Shrinks b.size cap new then cap * 5 / 8 else cap := by
  revert h
  unfold Mem.releaseUnnecessaryBuffer Shrinks
  by_cases h0 : b.size = 0
  · simp [h0]; intro _ e; exact e.symm
  · simp only [h0, if_false, ne_eq, not_false_eq_true, true_and]
    generalize (if new < old then Mem.callDtors b new (old - new).toNat else some b) = r
    cases r with
    | none => intro e; cases e
    | some b1 =>
      simp only [Option.bind_eq_bind, Option.bind_some]
      by_cases h1 : new ≤ cap / 2 ∧ new ≤ 8
      · by_cases h2 : new < cap * 5 / 8
        · simp only [h1, h2, and_self, if_true]
          cases Mem.callMoveCtorsTo mv (Mem.allocateBuffer (cap * 5 / 8)) b1 0 0 new.toNat with
          | none => intro e; cases e
          | some p =>
            simp only [Option.bind_some]
            cases Mem.callDtors p.2 0 new.toNat with
            | none => intro e; cases e
            | some b2 =>
              simp only [Option.bind_some]
              cases Mem.deallocateBuffer b2 with
              | none => intro e; cases e
              | some _ => intro e; cases e; rfl
        · simp only [h1, h2, and_self, and_false, if_true, if_false]
          intro e; cases e; rfl
      · have : ¬ (new ≤ cap / 2 ∧ new ≤ 8 ∧ new < cap * 5 / 8) := by omega
        simp only [h1, this, if_false]
        intro e; cases e; rfl

/-- The counters after `InsertUninitializedItems` of one item. -/
def inserted (t : Tally) (cap count index : Int) : Tally :=
  if count + 1 > cap then plus t count.toNat 1 else plus t (count - index).toNat 0

theorem insertUninitializedItems_cost (mv : Option α → Option α) (b : Block α) (cap count index : Int) (t : Tally)
    (h0 : 0 ≤ index) (h1 : index ≤ count) :
    insertUninitializedItems mv b cap count index 1 t =
      (Mem.insertUninitializedItems mv b cap count index 1).map (·, inserted t cap count index) := by
  unfold insertUninitializedItems Mem.insertUninitializedItems inserted
  by_cases hg : count + 1 > cap
  · simp only [hg, if_true, allocateBuffer, callMoveCtorsTo_cost]
    rw [if_neg (by omega), if_neg (by omega)]
    cases Mem.callMoveCtorsTo mv (Mem.allocateBuffer ((count + 1) * 5 / 4 + 1)) b 0 0 index.toNat with
    | none => rfl
    | some p =>
      simp only [Option.map_some, Option.bind_eq_bind, Option.bind_some]
      cases Mem.callMoveCtorsTo mv p.1 p.2 (index + 1) index (count - index).toNat with
      | none => rfl
      | some q =>
        simp only [Option.map_some, Option.bind_some]
        cases Mem.callDtors q.2 0 count.toNat with
        | none => rfl
        | some b2 =>
          simp only [Option.bind_some]
          cases Mem.deallocateBuffer b2 with
          | none => rfl
          | some _ =>
            simp only [Option.bind_some, pure, Option.map_some, plus]
            congr 3
            omega
  · simp only [hg, if_false]
    by_cases hi : index < count
    · simp only [hi, if_true]
      by_cases hb : (1 : Int) ≥ count - index
      · simp only [hb, if_true, callMoveCtorsIn_cost]
        cases Mem.callMoveCtorsIn mv b (index + 1) index (count - index).toNat with
        | none => rfl
        | some b1 =>
          simp only [Option.map_some, Option.bind_eq_bind, Option.bind_some]
          cases Mem.callDtors b1 index (count - index).toNat with
          | none => rfl
          | some b2 => rfl
      · simp only [hb, if_false, callMoveCtorsIn_cost]
        cases Mem.callMoveCtorsIn mv b count (count - 1) (1 : Int).toNat with
        | none => rfl
        | some b1 =>
          simp only [Option.map_some, Option.bind_eq_bind, Option.bind_some, callMoveAssignmentsOverlapped_cost]
          cases Mem.callMoveAssignmentsOverlapped mv b1 (index + 1) index (count - index - 1) with
          | none => rfl
          | some b2 =>
            simp only [Option.map_some, Option.bind_some]
            cases Mem.callDtors b2 index (1 : Int).toNat with
            | none => rfl
            | some b3 =>
              simp only [Option.bind_some, pure, Option.map_some, plus, overlapped]
              rw [if_neg (by omega)]
              congr 3
              omega
    · simp only [hi, if_false, Option.map_some]
      rw [show (count - index).toNat = 0 by omega, plus_zero]

/-- What `InsertUninitializedItems` of one item does to the capacity. -/
theorem insertUninitializedItems_cap {mv : Option α → Option α} {b b' : Block α} {cap count index cap' cnt : Int}
    (h : Mem.insertUninitializedItems mv b cap count index 1 = some (b', cap', cnt)) :
    cap' = if count + 1 > cap then (count + 1) * 5 / 4 + 1 else cap := by
  revert h
  unfold Mem.insertUninitializedItems
  by_cases hg : count + 1 > cap
  · simp only [hg, if_true]
    rw [if_neg (by omega)]
    cases Mem.callMoveCtorsTo mv (Mem.allocateBuffer ((count + 1) * 5 / 4 + 1)) b 0 0 index.toNat with
    | none => intro e; cases e
    | some p =>
      simp only [Option.bind_eq_bind, Option.bind_some]
      cases Mem.callMoveCtorsTo mv p.1 p.2 (index + 1) index (count - index).toNat with
      | none => intro e; cases e
      | some q =>
        simp only [Option.bind_some]
        cases Mem.callDtors q.2 0 count.toNat with
        | none => intro e; cases e
        | some b2 =>
          simp only [Option.bind_some]
          cases Mem.deallocateBuffer b2 with
          | none => intro e; cases e
          | some _ => intro e; cases e; rfl
  · simp only [hg, if_false]
    by_cases hi : index < count
    · simp only [hi, if_true]
      by_cases hb : (1 : Int) ≥ count - index
      · simp only [hb, if_true]
        cases Mem.callMoveCtorsIn mv b (index + 1) index (count - index).toNat with
        | none => intro e; cases e
        | some b1 =>
          simp only [Option.bind_eq_bind, Option.bind_some]
          cases Mem.callDtors b1 index (count - index).toNat with
          | none => intro e; cases e
          | some b2 => intro e; cases e; rfl
      · simp only [hb, if_false]
        cases Mem.callMoveCtorsIn mv b count (count - 1) (1 : Int).toNat with
        | none => intro e; cases e
        | some b1 =>
          simp only [Option.bind_eq_bind, Option.bind_some]
          cases Mem.callMoveAssignmentsOverlapped mv b1 (index + 1) index (count - index - 1) with
          | none => intro e; cases e
          | some b2 =>
            simp only [Option.bind_some]
            cases Mem.callDtors b2 index (1 : Int).toNat with
            | none => intro e; cases e
            | some b3 => intro e; cases e; rfl
    · simp only [hi, if_false]
      intro e; cases e; rfl

/-! ## the member functions -/

/-- The buffer size and the counters, as the specification sees them. -/
def meterOf (l : ListC α) (t : Tally) : Spec.Cost.Meter := ⟨l.capacity.toNat, t.moves, t.allocs⟩

theorem grow_room {m : Spec.Cost.Meter} {len back : Nat} (h : len < m.cap) :
    Spec.Cost.grow m len back = ⟨m.cap, m.moves + back, m.allocs⟩ := if_pos h

theorem grow_full {m : Spec.Cost.Meter} {len back : Nat} (h : ¬ len < m.cap) :
    Spec.Cost.grow m len back = ⟨(len + 1) * 5 / 4 + 1, m.moves + len, m.allocs + 1⟩ := if_neg h

theorem shrink_yes {m : Spec.Cost.Meter} {left back : Nat}
    (h : left ≤ m.cap / 2 ∧ left ≤ 8 ∧ left < m.cap * 5 / 8) :
    Spec.Cost.shrink m left back = ⟨m.cap * 5 / 8, m.moves + back + left, m.allocs + 1⟩ := if_pos h

theorem shrink_no {m : Spec.Cost.Meter} {left back : Nat}
    (h : ¬ (left ≤ m.cap / 2 ∧ left ≤ 8 ∧ left < m.cap * 5 / 8)) :
    Spec.Cost.shrink m left back = ⟨m.cap, m.moves + back, m.allocs⟩ := if_neg h

theorem plain_ok {m : Cpp (ListC α) β} {l l' : ListC α} {v : β} (h : m l = .ok v l') (t : Tally) :
    plain m (l, t) = .ok v (l', t) := by simp [plain, h]

theorem plain_err {m : Cpp (ListC α) β} {l l' : ListC α} (h : m l = .err l') (t : Tally) :
    plain m (l, t) = .err (l', t) := by simp [plain, h]

theorem mem_some {r : Tally → MemRes (β × Tally)} {v : β} {t t' : Tally} (h : r t = some (v, t')) (l : ListC α) :
    mem r (l, t) = .ok v (l, t') := by simp [mem, h]

theorem insert_ok (mv : Option α → Option α) {l : ListC α} {xs : List α} (h : Repr l xs) (i : Int) (v : α)
    (h0 : 0 ≤ i) (h1 : i ≤ xs.length) (t : Tally) :
    ∃ l' t', insert mv i v (l, t) = .ok i (l', t') ∧ ListC.insert mv i v l = .ok i l' ∧ Repr l' (xs.take i.toNat ++ v :: xs.drop i.toNat) ∧
      meterOf l' t' = Spec.Cost.grow (meterOf l t) xs.length (xs.length - i.toNat) := by
  have hc := h.count
  have hle := h.le
  obtain ⟨l', el, hr⟩ := ListC.insert_ok mv h i v h0 h1
  obtain ⟨b, cap, e1, _⟩ := ListC.insertUninitializedItems_ok mv h i 1 (by omega) h0 (by omega)
  have e1' : Mem.insertUninitializedItems mv l.buffer l.capacity l.count i 1 = some (b, cap, l.count + 1) := e1
  have hcap := insertUninitializedItems_cap e1'
  have e2 : insertUninitializedItems mv l.buffer l.capacity l.count i 1 t =
      some ((b, cap, l.count + 1), inserted t l.capacity l.count i) := by
    rw [insertUninitializedItems_cost mv _ _ _ _ t h0 (by omega), e1']; rfl
  cases hcon : Mem.construct b i (some v) with
  | none =>
    exfalso
    revert el
    unfold ListC.insert
    rw [Cpp.bind_ok (Cpp.get_apply l), Cpp.bind_ok (Cpp.check_true (by omega) l),
      Cpp.bind_ok (ListC.mem_some e1' l)]
    simp only
    rw [hcon]
    intro e; cases e
  | some b' =>
    have el' : l' = ⟨b', l.count + 1, cap⟩ := by
      revert el
      unfold ListC.insert
      rw [Cpp.bind_ok (Cpp.get_apply l), Cpp.bind_ok (Cpp.check_true (by omega) l),
        Cpp.bind_ok (ListC.mem_some e1' l)]
      simp only
      rw [Cpp.bind_ok (ListC.mem_some hcon l)]
      intro e; cases e; rfl
    refine ⟨l', inserted t l.capacity l.count i, ?_, el, hr, ?_⟩
    · unfold insert
      rw [Cpp.bind_ok (plain_ok (Cpp.get_apply l) t), Cpp.bind_ok (Cpp.check_true (by omega) _),
        Cpp.bind_ok (mem_some e2 l)]
      simp only
      rw [Cpp.bind_ok (plain_ok (ListC.mem_some hcon l) _), el']
      rfl
    · subst el'
      by_cases hg : l.count + 1 > l.capacity
      · rw [grow_full (show ¬ xs.length < l.capacity.toNat by omega)]
        simp only [meterOf, inserted, hcap, if_pos hg, plus]
        congr 1 <;> omega
      · rw [grow_room (show xs.length < l.capacity.toNat by omega)]
        simp only [meterOf, inserted, hcap, if_neg hg, plus]
        congr 1
        omega

theorem insert_err (mv : Option α → Option α) {l : ListC α} {xs : List α} (h : Repr l xs) (i : Int) (v : α)
    (hi : ¬ (0 ≤ i ∧ i ≤ xs.length)) (t : Tally) : insert mv i v (l, t) = .err (l, t) := by
  have hc := h.count
  unfold insert
  rw [Cpp.bind_ok (plain_ok (Cpp.get_apply l) t), Cpp.bind_err (Cpp.check_false (by omega) _)]

theorem add_ok (mv : Option α → Option α) {l : ListC α} {xs : List α} (h : Repr l xs) (v : α) (t : Tally) :
    ∃ l' t', add mv v (l, t) = .ok xs.length (l', t') ∧ ListC.add mv v l = .ok xs.length l' ∧ Repr l' (xs ++ [v]) ∧
      meterOf l' t' = Spec.Cost.grow (meterOf l t) xs.length 0 := by
  have hc := h.count
  obtain ⟨l', t', e1, e0, e2, e3⟩ := insert_ok mv h l.count v (by omega) (by omega) t
  refine ⟨l', t', ?_, ?_, ?_, ?_⟩
  · unfold add
    rw [Cpp.bind_ok (plain_ok (Cpp.get_apply l) t), e1, hc]
  · unfold ListC.add
    rw [Cpp.bind_ok (Cpp.get_apply l), e0, hc]
  · simpa [hc] using e2
  · rw [e3, show xs.length - l.count.toNat = 0 by omega]

/-- The common part of `RemoveAt` and `RemoveRange`. -/
theorem removeCore_ok (mv : Option α → Option α) {l : ListC α} {xs : List α} (h : Repr l xs) (i n : Int)
    (h0 : 0 ≤ i) (hn : 0 ≤ n) (h1 : i + n ≤ xs.length) (t : Tally) :
    ∃ b b' cap' t', callMoveAssignmentsOverlapped mv l.buffer i (i + n) (l.count - i - n) t =
        some (b, plus t (if n = 0 then 0 else xs.length - (i + n).toNat) 0) ∧
      releaseUnnecessaryBuffer mv b l.capacity l.count (l.count - n)
        (plus t (if n = 0 then 0 else xs.length - (i + n).toNat) 0) = some ((b', cap'), t') ∧
      Mem.callMoveAssignmentsOverlapped mv l.buffer i (i + n) (l.count - i - n) = some b ∧
      Mem.releaseUnnecessaryBuffer mv b l.capacity l.count (l.count - n) = some (b', cap') ∧
      Repr ⟨b', l.count - n, cap'⟩ (xs.take i.toNat ++ xs.drop (i + n).toNat) ∧
      meterOf ⟨b', l.count - n, cap'⟩ t' = Spec.Cost.shrink (meterOf l t) (xs.length - n.toNat)
        (if n = 0 then 0 else xs.length - (i + n).toNat) := by
  have hc := h.count
  have hle := h.le
  have hsz := h.size
  obtain ⟨b, b', cap', e1, e2, e3⟩ := ListC.removeCore_ok mv h i n h0 hn h1
  have ec := callMoveAssignmentsOverlapped_cost mv l.buffer i (i + n) (l.count - i - n) t
  have eo : overlapped i (i + n) (l.count - i - n) = if n = 0 then 0 else xs.length - (i + n).toNat := by
    unfold overlapped
    by_cases hn0 : n = 0
    · rw [if_pos (by omega), if_pos hn0]
    · rw [if_neg (by omega), if_neg hn0]; omega
  rw [e1, eo] at ec
  have hcap := releaseUnnecessaryBuffer_cap e2
  have hbsz : b.size = l.capacity := by
    rw [← hsz]
    exact callMoveAssignmentsOverlapped_size e1
  refine ⟨b, b', cap', ?_, ec, ?_, e1, e2, e3, ?_⟩
  · exact if Shrinks b.size l.capacity (l.count - n)
      then plus (plus t (if n = 0 then 0 else xs.length - (i + n).toNat) 0) (l.count - n).toNat 1
      else plus t (if n = 0 then 0 else xs.length - (i + n).toNat) 0
  · rw [releaseUnnecessaryBuffer_cost mv b _ _ _ _ (by omega), e2]; rfl
  · by_cases hs : Shrinks b.size l.capacity (l.count - n)
    · have hs' := hs
      unfold Shrinks at hs'
      rw [shrink_yes (show xs.length - n.toNat ≤ l.capacity.toNat / 2 ∧ xs.length - n.toNat ≤ 8 ∧
        xs.length - n.toNat < l.capacity.toNat * 5 / 8 by omega)]
      simp only [meterOf, hcap, if_pos hs, plus]
      congr 1 <;> omega
    · have hs' := hs
      unfold Shrinks at hs'
      rw [shrink_no (show ¬ (xs.length - n.toNat ≤ l.capacity.toNat / 2 ∧ xs.length - n.toNat ≤ 8 ∧
        xs.length - n.toNat < l.capacity.toNat * 5 / 8) by omega)]
      simp only [meterOf, hcap, if_neg hs, plus, Nat.add_zero]

theorem removeAt_ok (mv : Option α → Option α) {l : ListC α} {xs : List α} (h : Repr l xs) (i : Int)
    (h0 : 0 ≤ i) (h1 : i < xs.length) (t : Tally) :
    ∃ l' t', removeAt mv i (l, t) = .ok true (l', t') ∧ ListC.removeAt mv i l = .ok true l' ∧
      Repr l' (xs.take i.toNat ++ xs.drop (i.toNat + 1)) ∧
      meterOf l' t' = Spec.Cost.shrink (meterOf l t) (xs.length - 1) (xs.length - (i.toNat + 1)) := by
  have hc := h.count
  obtain ⟨b, b', cap', t', e1, e2, f1, f2, e3, e4⟩ := removeCore_ok mv h i 1 h0 (by omega) (by omega) t
  refine ⟨⟨b', l.count - 1, cap'⟩, t', ?_, ?_, ?_, ?_⟩
  · unfold removeAt
    rw [Cpp.bind_ok (plain_ok (Cpp.get_apply l) t), Cpp.bind_ok (Cpp.check_true (by omega) _),
      Cpp.bind_ok (mem_some e1 l), Cpp.bind_ok (mem_some e2 l)]
    rfl
  · unfold ListC.removeAt
    rw [Cpp.bind_ok (Cpp.get_apply l), Cpp.bind_ok (Cpp.check_true (by omega) l),
      Cpp.bind_ok (ListC.mem_some f1 l), Cpp.bind_ok (ListC.mem_some f2 l)]
    rfl
  · rwa [show i.toNat + 1 = (i + 1).toNat by omega]
  · rw [e4, if_neg (by omega), show i.toNat + 1 = (i + 1).toNat by omega]
    rfl

theorem removeAt_err (mv : Option α → Option α) {l : ListC α} {xs : List α} (h : Repr l xs) (i : Int)
    (hi : ¬ (0 ≤ i ∧ i < xs.length)) (t : Tally) : removeAt mv i (l, t) = .err (l, t) := by
  have hc := h.count
  unfold removeAt
  rw [Cpp.bind_ok (plain_ok (Cpp.get_apply l) t), Cpp.bind_err (Cpp.check_false (by omega) _)]

theorem removeRange_ok (mv : Option α → Option α) {l : ListC α} {xs : List α} (h : Repr l xs) (i n : Int)
    (h0 : 0 ≤ i) (hn : 0 ≤ n) (h1 : i + n ≤ xs.length) (t : Tally) :
    ∃ l' t', removeRange mv i n (l, t) = .ok true (l', t') ∧ ListC.removeRange mv i n l = .ok true l' ∧
      Repr l' (xs.take i.toNat ++ xs.drop (i + n).toNat) ∧
      meterOf l' t' = Spec.Cost.shrink (meterOf l t) (xs.length - n.toNat)
        (if n = 0 then 0 else xs.length - (i + n).toNat) := by
  have hc := h.count
  obtain ⟨b, b', cap', t', e1, e2, f1, f2, e3, e4⟩ := removeCore_ok mv h i n h0 hn h1 t
  refine ⟨⟨b', l.count - n, cap'⟩, t', ?_, ?_, e3, e4⟩
  · unfold removeRange
    rw [Cpp.bind_ok (plain_ok (Cpp.get_apply l) t), Cpp.bind_ok (Cpp.check_true (by omega) _),
      Cpp.bind_ok (Cpp.check_true (by omega) _), Cpp.bind_ok (mem_some e1 l), Cpp.bind_ok (mem_some e2 l)]
    rfl
  · unfold ListC.removeRange
    rw [Cpp.bind_ok (Cpp.get_apply l), Cpp.bind_ok (Cpp.check_true (by omega) l),
      Cpp.bind_ok (Cpp.check_true (by omega) l), Cpp.bind_ok (ListC.mem_some f1 l),
      Cpp.bind_ok (ListC.mem_some f2 l)]
    rfl

theorem removeRange_err (mv : Option α → Option α) {l : ListC α} {xs : List α} (h : Repr l xs) (i n : Int)
    (hi : ¬ (0 ≤ i ∧ i + n ≤ xs.length)) (t : Tally) : removeRange mv i n (l, t) = .err (l, t) := by
  have hc := h.count
  unfold removeRange
  rw [Cpp.bind_ok (plain_ok (Cpp.get_apply l) t)]
  by_cases h1 : i ≥ 0 ∧ i ≤ l.count
  · rw [Cpp.bind_ok (Cpp.check_true h1 _), Cpp.bind_err (Cpp.check_false (by omega) _)]
  · rw [Cpp.bind_err (Cpp.check_false h1 _)]

/-- One call: the same effect as without counters, and the cost given by the specification. -/
theorem step_ok (mv : Option α → Option α) (eq : α → κ → Bool) {l : ListC α} {xs : List α} (h : Repr l xs)
    (t : Tally) (op : Spec.SeqOp α κ) (hv : op.Valid) :
    ∃ l' t', step mv eq (l, t) op = some ((l', t'), (Spec.seqStep eq xs op).2) ∧
      ListC.step mv eq l op = some (l', (Spec.seqStep eq xs op).2) ∧ Repr l' (Spec.seqStep eq xs op).1 ∧ meterOf l' t' = Spec.Cost.meterStep eq xs (meterOf l t) op := by
  cases op with
  | add v =>
    obtain ⟨l', t', e, f, h', hm⟩ := add_ok mv h v t
    exact ⟨l', t', by simp [step, e, observe, Spec.seqStep],
      by simp [ListC.step, f, ListC.observe, Spec.seqStep], h', hm⟩
  | insert i v =>
    simp only [step, ListC.step, Spec.seqStep, Spec.Cost.meterStep, Spec.Cost.behind]
    by_cases hi : 0 ≤ i ∧ i ≤ (xs.length : Int)
    · simp only [hi, and_self, if_true]
      obtain ⟨l', t', e, f, h', hm⟩ := insert_ok mv h i v hi.1 hi.2 t
      exact ⟨l', t', by simp [e, observe], by simp [f, ListC.observe], h', hm⟩
    · simp only [hi, if_false]
      exact ⟨l, t, by simp [insert_err mv h i v hi, observe], by simp [ListC.insert_err mv h i v hi, ListC.observe], h, rfl⟩
  | set i v =>
    simp only [step, ListC.step, Spec.seqStep, Spec.Cost.meterStep]
    by_cases hi : 0 ≤ i ∧ i < (xs.length : Int)
    · simp only [hi, and_self, if_true]
      obtain ⟨l', e, h'⟩ := ListC.setAt_ok h i v hi.1 hi.2
      refine ⟨l', t, by simp [plain_ok e, observe], by simp [e, ListC.observe], h', ?_⟩
      have hcap : l'.capacity = l.capacity := setAt_capacity e
      simp [meterOf, hcap]
    · simp only [hi, if_false]
      exact ⟨l, t, by simp [plain_err (ListC.setAt_err h i v hi), observe],
        by simp [ListC.setAt_err h i v hi, ListC.observe], h, rfl⟩
  | remove k =>
    have hc := h.count
    simp only [step, ListC.step, Spec.seqStep, Spec.Cost.meterStep, Spec.Cost.behind]
    unfold remove ListC.remove
    rw [Cpp.bind_ok (plain_ok (ListC.indexOf_ok h eq k) t), Cpp.bind_ok (plain_ok (Cpp.get_apply l) t),
      Cpp.bind_ok (ListC.indexOf_ok h eq k), Cpp.bind_ok (Cpp.get_apply l)]
    unfold Spec.firstIndex
    cases hf : xs.findIdx? (fun x => eq x k) with
    | none => exact ⟨l, t, by simp [observe], by simp [ListC.observe], h, rfl⟩
    | some i =>
      have hi' : i < xs.length := by
        rw [List.findIdx?_eq_some_iff_getElem] at hf
        exact hf.1
      obtain ⟨l', t', e1, e0, e2, e3⟩ := removeAt_ok mv h i (by omega) (by omega) t
      refine ⟨l', t', ?_, ?_, by simpa using e2, by simpa using e3⟩
      · simp only
        rw [if_pos (by omega), Cpp.bind_ok e1]
        rfl
      · simp only
        rw [if_pos (by omega), Cpp.bind_ok e0]
        rfl
  | removeAt i =>
    simp only [step, ListC.step, Spec.seqStep, Spec.Cost.meterStep, Spec.Cost.behind]
    by_cases hi : 0 ≤ i ∧ i < (xs.length : Int)
    · simp only [hi, and_self, if_true]
      obtain ⟨l', t', e, f, h', hm⟩ := removeAt_ok mv h i hi.1 hi.2 t
      exact ⟨l', t', by simp [e, observe], by simp [f, ListC.observe], h', hm⟩
    · simp only [hi, if_false]
      exact ⟨l, t, by simp [removeAt_err mv h i hi, observe], by simp [ListC.removeAt_err mv h i hi, ListC.observe], h, rfl⟩
  | removeRange i n =>
    have hn : 0 ≤ n := hv
    simp only [step, ListC.step, Spec.seqStep, Spec.Cost.meterStep, Spec.Cost.behind]
    by_cases hi : 0 ≤ i ∧ 0 ≤ n ∧ i + n ≤ (xs.length : Int)
    · simp only [hi, and_self, if_true]
      obtain ⟨l', t', e, f, h', hm⟩ := removeRange_ok mv h i n hi.1 hn hi.2.2 t
      refine ⟨l', t', by simp [e, observe], by simp [f, ListC.observe], h', ?_⟩
      rw [hm]
      congr 1
      by_cases hn0 : n = 0
      · simp [hn0]
      · have hp : 0 < n := by omega
        simp [hn0, hp]
    · simp only [hi, if_false]
      exact ⟨l, t, by simp [removeRange_err mv h i n (by omega), observe], by simp [ListC.removeRange_err mv h i n (by omega), ListC.observe], h, rfl⟩
  | clear =>
    exact ⟨_, t, by simp [step, plain_ok (ListC.clear_ok h), observe, Spec.seqStep],
      by simp [ListC.step, ListC.clear_ok h, ListC.observe, Spec.seqStep], Repr.empty, rfl⟩
  | get i =>
    simp only [step, ListC.step, Spec.seqStep, Spec.Cost.meterStep]
    split
    · next hi =>
      by_cases hl : i.toNat < xs.length
      · have := ListC.get_ok h i.toNat hl
        rw [Int.toNat_of_nonneg hi] at this
        exact ⟨l, t, by simp [plain_ok this, observe, hl], by simp [this, ListC.observe, hl], by simpa [hl] using h, rfl⟩
      · rw [plain_err (ListC.get_err h i (by omega)), ListC.get_err h i (by omega), List.getElem?_eq_none (by omega)]
        exact ⟨l, t, rfl, rfl, h, rfl⟩
    · rw [plain_err (ListC.get_err h i (by omega)), ListC.get_err h i (by omega)]
      exact ⟨l, t, rfl, rfl, h, rfl⟩
  | count => exact ⟨l, t, by simp [step, Spec.seqStep, h.count], by simp [ListC.step, Spec.seqStep, h.count], h, rfl⟩
  | indexOf k =>
    exact ⟨l, t, by simp [step, plain_ok (ListC.indexOf_ok h eq k), observe, Spec.seqStep],
      by simp [ListC.step, ListC.indexOf_ok h eq k, ListC.observe, Spec.seqStep], h, rfl⟩
  | contains k =>
    exact ⟨l, t, by simp [step, plain_ok (ListC.contains_ok h eq k), observe, Spec.seqStep],
      by simp [ListC.step, ListC.contains_ok h eq k, ListC.observe, Spec.seqStep], h, rfl⟩

/-- A history: the same effect as without counters, and the cost given by the specification. -/
theorem run_ok (mv : Option α → Option α) (eq : α → κ → Bool) (ops : List (Spec.SeqOp α κ))
    (hv : ∀ op ∈ ops, op.Valid) {l : ListC α} {xs : List α} (h : Repr l xs) (t : Tally) :
    ∃ l' t', run mv eq (l, t) ops = some ((l', t'), (Spec.seqRun eq xs ops).2) ∧
      ListC.run mv eq l ops = some (l', (Spec.seqRun eq xs ops).2) ∧ Repr l' (Spec.seqRun eq xs ops).1 ∧ meterOf l' t' = Spec.Cost.meterRun eq xs (meterOf l t) ops := by
  induction ops generalizing l xs t with
  | nil => exact ⟨l, t, rfl, rfl, h, rfl⟩
  | cons op ops ih =>
    obtain ⟨l1, t1, e1, f1, h1, m1⟩ := step_ok mv eq h t op (hv op (by simp))
    obtain ⟨l2, t2, e2, f2, h2, m2⟩ := ih (fun o ho => hv o (by simp [ho])) h1 t1
    refine ⟨l2, t2, by simp [run, e1, e2, Spec.seqRun], by simp [ListC.run, f1, f2, Spec.seqRun], h2, ?_⟩
    rw [m2, m1]; rfl

end ListCost
end Vlpp
