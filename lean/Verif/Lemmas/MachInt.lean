import Verif.Model.MachInt
import Verif.Spec.Overflow
import Verif.Lemmas.ListC

/-!
# Lemmas: functions that compute with 64-bit numbers
-/
set_option autoImplicit false
namespace Vlpp.Mach
variable {α κ : Type}

theorem fit_ok {x : Int} (h : -9223372036854775808 ≤ x) (h' : x ≤ 9223372036854775807) : fit x = some x := by
  simp [fit, h, h']

theorem fit_none {x : Int} (h : x < -9223372036854775808 ∨ 9223372036854775807 < x) : fit x = none := by
  unfold fit
  rw [if_neg (by omega)]

theorem fit_some {x y : Int} (h : fit x = some y) : y = x ∧ -9223372036854775808 ≤ x ∧ x ≤ 9223372036854775807 := by
  unfold fit at h
  split at h
  · next g => exact ⟨by injection h with h; exact h.symm, g⟩
  · cases h

theorem grow_eq {n cap room : Int} (h0 : 0 ≤ n) (h1 : n ≤ room + 1) (hr : 5 * (room + 1) ≤ 9223372036854775807) (h : cap < n) :
    grow n cap = some (n * 5 / 4 + 1) := by
  unfold grow
  rw [if_neg (by omega), fit_ok (by omega) (by omega)]
  simp only [Option.bind_eq_bind, Option.bind_some]
  exact fit_ok (by omega) (by omega)

theorem insert_eq (room : Int) (mv : Option α → Option α) (items : Block α) (cap count index : Int)
    (hr : 5 * (room + 1) ≤ 9223372036854775807) (h0 : 0 ≤ index) (h1 : index ≤ count) (h2 : count ≤ cap) (h3 : cap ≤ room) :
    insertUninitializedItems room mv items cap count index 1 =
      if cap < count + 1 ∧ room < (count + 1) * 5 / 4 + 1 then none
      else Mem.insertUninitializedItems mv items cap count index 1 := by
  unfold insertUninitializedItems Mem.insertUninitializedItems
  rw [fit_ok (x := count + 1) (by omega) (by omega)]
  simp only [Option.bind_eq_bind, Option.bind_some]
  by_cases hc : cap < count + 1
  · have hn : ¬ count + 1 < cap := by omega
    simp only [gt_iff_lt, hc, if_true, true_and, grow_eq (room := room) (by omega) (by omega) hr hc, hn, if_false, Option.bind_some]
    unfold malloc
    by_cases hg : room < (count + 1) * 5 / 4 + 1
    · have hg' : ¬ (count + 1) * 5 / 4 + 1 ≤ room := by omega
      simp only [hg, hg', if_true, if_false, Option.bind_none]
    · have hg' : (count + 1) * 5 / 4 + 1 ≤ room := by omega
      simp only [hg, hg', if_true, if_false, Option.bind_some, fit_ok (x := index + 1) (by omega) (by omega),
        fit_ok (x := count - index) (by omega) (by omega)]
  · simp only [gt_iff_lt, hc, if_false, false_and]
    by_cases hi : index < count
    · simp only [hi, if_true, fit_ok (x := count - index) (by omega) (by omega), Option.bind_some,
        fit_ok (x := index + 1) (by omega) (by omega), fit_ok (x := count - 1) (by omega) (by omega),
        fit_ok (x := count - index - 1) (by omega) (by omega)]
    · simp only [hi, if_false]

theorem release_eq (room : Int) (mv : Option α → Option α) (items : Block α) (cap old new : Int)
    (hr : 5 * (room + 1) ≤ 9223372036854775807) (h0 : 0 ≤ new) (h1 : new ≤ cap) (h2 : 0 ≤ old) (h3 : old ≤ cap) (h4 : cap ≤ room) :
    releaseUnnecessaryBuffer room mv items cap old new = Mem.releaseUnnecessaryBuffer mv items cap old new := by
  unfold releaseUnnecessaryBuffer Mem.releaseUnnecessaryBuffer malloc
  rw [fit_ok (x := old - new) (by omega) (by omega), fit_ok (x := cap * 5) (by omega) (by omega)]
  simp only [Option.bind_eq_bind, Option.bind_some]
  rw [if_pos (show cap * 5 / 8 ≤ room by omega)]
  rfl

/-- The capacity after a call on a list in which `malloc` did not fail. -/
theorem release_cap {mv : Option α → Option α} {items b : Block α} {cap cap' old new : Int} (h0 : 0 ≤ cap)
    (h : Mem.releaseUnnecessaryBuffer mv items cap old new = some (b, cap')) : cap' ≤ cap := by
  unfold Mem.releaseUnnecessaryBuffer at h
  simp only [Option.bind_eq_bind] at h
  split at h
  · injection h with h; injection h with _ h; omega
  · obtain ⟨i1, _, h⟩ := Option.bind_eq_some_iff.1 h
    split at h
    · split at h
      · obtain ⟨⟨_, _⟩, _, h⟩ := Option.bind_eq_some_iff.1 h
        obtain ⟨_, _, h⟩ := Option.bind_eq_some_iff.1 h
        obtain ⟨_, _, h⟩ := Option.bind_eq_some_iff.1 h
        injection h with h; injection h with _ h; omega
      · injection h with h; injection h with _ h; omega
    · injection h with h; injection h with _ h; omega

theorem insert_cap {room : Int} {mv : Option α → Option α} {items b : Block α} {cap count index cap' cnt : Int}
    (h0 : ¬ (cap < count + 1 ∧ room < (count + 1) * 5 / 4 + 1)) (h1 : cap ≤ room)
    (h : Mem.insertUninitializedItems mv items cap count index 1 = some (b, cap', cnt)) : cap' ≤ room := by
  unfold Mem.insertUninitializedItems at h
  simp only [Option.bind_eq_bind] at h
  split at h
  · next hc =>
    obtain ⟨⟨_, _⟩, _, h⟩ := Option.bind_eq_some_iff.1 h
    obtain ⟨⟨_, _⟩, _, h⟩ := Option.bind_eq_some_iff.1 h
    obtain ⟨_, _, h⟩ := Option.bind_eq_some_iff.1 h
    obtain ⟨_, _, h⟩ := Option.bind_eq_some_iff.1 h
    injection h with h; injection h with _ h; injection h with h _
    rw [if_neg (by omega)] at h
    omega
  · split at h
    · split at h
      · obtain ⟨_, _, h⟩ := Option.bind_eq_some_iff.1 h
        obtain ⟨_, _, h⟩ := Option.bind_eq_some_iff.1 h
        injection h with h; injection h with _ h; injection h with h _; omega
      · obtain ⟨_, _, h⟩ := Option.bind_eq_some_iff.1 h
        obtain ⟨_, _, h⟩ := Option.bind_eq_some_iff.1 h
        obtain ⟨_, _, h⟩ := Option.bind_eq_some_iff.1 h
        injection h with h; injection h with _ h; injection h with h _; omega
    · injection h with h; injection h with _ h; injection h with h _; omega

theorem mem_none {β : Type} {r : MemRes β} (h : r = none) (s : ListC α) : ListC.mem r s = .fault := by
  simp [ListC.mem, h]

/-- the next insertion needs a buffer that `malloc` does not return -/
abbrev Full (room cap len : Int) : Prop := cap < len + 1 ∧ room < (len + 1) * 5 / 4 + 1

theorem insertM {room : Int} (mv : Option α → Option α) {l : ListC α} {xs : List α} (h : ListC.Repr l xs)
    (hr : 5 * (room + 1) ≤ 9223372036854775807) (hc : l.capacity ≤ room) (i : Int) (v : α) :
    insert room mv i v l = if (0 ≤ i ∧ i ≤ l.count) ∧ Full room l.capacity l.count then .fault else ListC.insert mv i v l := by
  have h0 := h.le
  unfold insert ListC.insert
  rw [Cpp.bind_ok (Cpp.get_apply l), Cpp.bind_ok (Cpp.get_apply l)]
  by_cases hi : i ≥ 0 ∧ i ≤ l.count
  · rw [Cpp.bind_ok (Cpp.check_true hi l), Cpp.bind_ok (Cpp.check_true hi l), insert_eq room mv l.buffer l.capacity l.count i hr hi.1 hi.2 h0 hc]
    by_cases hf : Full room l.capacity l.count
    · rw [if_pos (show l.capacity < l.count + 1 ∧ _ from hf), if_pos ⟨hi, hf⟩]
      exact Cpp.bind_fault (mem_none rfl l)
    · rw [if_neg (show ¬ (l.capacity < l.count + 1 ∧ _) from hf), if_neg (fun h => hf h.2)]
  · rw [Cpp.bind_err (Cpp.check_false hi l), Cpp.bind_err (Cpp.check_false hi l), if_neg (fun h => hi h.1)]

theorem removeAtM {room : Int} (mv : Option α → Option α) {l : ListC α} {xs : List α} (h : ListC.Repr l xs)
    (hr : 5 * (room + 1) ≤ 9223372036854775807) (hc : l.capacity ≤ room) (i : Int) :
    removeAt room mv i l = ListC.removeAt mv i l := by
  have h0 := h.le
  have h1 := h.count
  unfold removeAt ListC.removeAt
  rw [Cpp.bind_ok (Cpp.get_apply l), Cpp.bind_ok (Cpp.get_apply l)]
  by_cases hi : i ≥ 0 ∧ i < l.count
  · rw [Cpp.bind_ok (Cpp.check_true hi l), Cpp.bind_ok (Cpp.check_true hi l),
      Cpp.bind_ok (ListC.mem_some (fit_ok (x := i + 1) (by omega) (by omega)) l),
      Cpp.bind_ok (ListC.mem_some (fit_ok (x := l.count - i) (by omega) (by omega)) l),
      Cpp.bind_ok (ListC.mem_some (fit_ok (x := l.count - i - 1) (by omega) (by omega)) l)]
    cases e : Mem.callMoveAssignmentsOverlapped mv l.buffer i (i + 1) (l.count - i - 1) with
    | none => rw [Cpp.bind_fault (mem_none rfl l), Cpp.bind_fault (mem_none rfl l)]
    | some b =>
      rw [Cpp.bind_ok (ListC.mem_some rfl l), Cpp.bind_ok (ListC.mem_some rfl l),
        Cpp.bind_ok (ListC.mem_some (fit_ok (x := l.count - 1) (by omega) (by omega)) l),
        release_eq room mv b l.capacity l.count (l.count - 1) hr (by omega) (by omega) (by omega) (by omega) hc]
  · rw [Cpp.bind_err (Cpp.check_false hi l), Cpp.bind_err (Cpp.check_false hi l)]

theorem removeRangeM {room : Int} (mv : Option α → Option α) {l : ListC α} {xs : List α} (h : ListC.Repr l xs)
    (hr : 5 * (room + 1) ≤ 9223372036854775807) (hc : l.capacity ≤ room) (i n : Int) (hn : 0 ≤ n) :
    removeRange room mv i n l = if 0 ≤ i ∧ i ≤ l.count ∧ 9223372036854775807 < i + n then .fault else ListC.removeRange mv i n l := by
  have h0 := h.le
  have h1 := h.count
  unfold removeRange ListC.removeRange
  rw [Cpp.bind_ok (Cpp.get_apply l), Cpp.bind_ok (Cpp.get_apply l)]
  by_cases hi : i ≥ 0 ∧ i ≤ l.count
  · rw [Cpp.bind_ok (Cpp.check_true hi l), Cpp.bind_ok (Cpp.check_true hi l)]
    by_cases ho : 9223372036854775807 < i + n
    · rw [if_pos ⟨hi.1, hi.2, ho⟩]
      exact Cpp.bind_fault (mem_none (fit_none (.inr ho)) l)
    · rw [if_neg (fun h => ho h.2.2), Cpp.bind_ok (ListC.mem_some (fit_ok (x := i + n) (by omega) (by omega)) l)]
      by_cases hj : i + n ≥ 0 ∧ i + n ≤ l.count
      · rw [Cpp.bind_ok (Cpp.check_true hj l), Cpp.bind_ok (Cpp.check_true hj l),
          Cpp.bind_ok (ListC.mem_some (fit_ok (x := l.count - i) (by omega) (by omega)) l),
          Cpp.bind_ok (ListC.mem_some (fit_ok (x := l.count - i - n) (by omega) (by omega)) l)]
        cases e : Mem.callMoveAssignmentsOverlapped mv l.buffer i (i + n) (l.count - i - n) with
        | none => rw [Cpp.bind_fault (mem_none rfl l), Cpp.bind_fault (mem_none rfl l)]
        | some b =>
          rw [Cpp.bind_ok (ListC.mem_some rfl l), Cpp.bind_ok (ListC.mem_some rfl l),
            Cpp.bind_ok (ListC.mem_some (fit_ok (x := l.count - n) (by omega) (by omega)) l),
            release_eq room mv b l.capacity l.count (l.count - n) hr (by omega) (by omega) (by omega) (by omega) hc]
      · rw [Cpp.bind_err (Cpp.check_false hj l), Cpp.bind_err (Cpp.check_false hj l)]
  · rw [Cpp.bind_err (Cpp.check_false hi l), Cpp.bind_err (Cpp.check_false hi l), if_neg (fun h => hi ⟨h.1, h.2.1⟩)]

/-- an outcome whose list, if there is one, has a capacity of at most `room` -/
def Within {β : Type} (room : Int) : Outcome (ListC α) β → Prop
  | .ok _ l => l.capacity ≤ room
  | .err l => l.capacity ≤ room
  | .fault => True

theorem Within.mem_bind {β γ : Type} {room : Int} {r : MemRes γ} {f : γ → Cpp (ListC α) β} {l : ListC α}
    (h : ∀ v, r = some v → Within room (f v l)) : Within room ((ListC.mem r >>= f) l) := by
  cases e : r with
  | none => rw [Cpp.bind_fault (mem_none rfl l)]; trivial
  | some v => rw [Cpp.bind_ok (ListC.mem_some rfl l)]; exact h v e

theorem Within.check_bind {β : Type} {room : Int} {c : Prop} [Decidable c] {f : Unit → Cpp (ListC α) β} {l : ListC α}
    (hl : l.capacity ≤ room) (h : c → Within room (f () l)) : Within room ((Cpp.check c >>= f) l) := by
  by_cases hc : c
  · rw [Cpp.bind_ok (Cpp.check_true hc l)]; exact h hc
  · rw [Cpp.bind_err (Cpp.check_false hc l)]; exact hl

theorem Within.get_bind {β : Type} {room : Int} {f : ListC α → Cpp (ListC α) β} {l : ListC α}
    (h : Within room (f l l)) : Within room ((Cpp.get >>= f) l) := by
  rw [Cpp.bind_ok (Cpp.get_apply l)]; exact h

theorem insert_within {room : Int} (mv : Option α → Option α) {l : ListC α} (hc : l.capacity ≤ room) (i : Int) (v : α)
    (hf : ¬ ((0 ≤ i ∧ i ≤ l.count) ∧ Full room l.capacity l.count)) : Within room (ListC.insert mv i v l) := by
  refine .get_bind (.check_bind hc fun hi => .mem_bind fun r er => .mem_bind fun b _ => ?_)
  obtain ⟨b', cap, cnt⟩ := r
  exact insert_cap (fun h => hf ⟨hi, h⟩) hc er

theorem removeAt_within {room : Int} (mv : Option α → Option α) {l : ListC α} (h0 : 0 ≤ l.capacity) (hc : l.capacity ≤ room) (i : Int) :
    Within room (ListC.removeAt mv i l) := by
  refine .get_bind (.check_bind hc fun _ => .mem_bind fun b _ => .mem_bind fun r er => ?_)
  obtain ⟨b', cap⟩ := r
  exact Int.le_trans (release_cap h0 er) hc

theorem removeRange_within {room : Int} (mv : Option α → Option α) {l : ListC α} (h0 : 0 ≤ l.capacity) (hc : l.capacity ≤ room) (i n : Int) :
    Within room (ListC.removeRange mv i n l) := by
  refine .get_bind (.check_bind hc fun _ => .check_bind hc fun _ => .mem_bind fun b _ => .mem_bind fun r er => ?_)
  obtain ⟨b', cap⟩ := r
  exact Int.le_trans (release_cap h0 er) hc

theorem remove_within {room : Int} (mv : Option α → Option α) (eq : α → κ → Bool) {l : ListC α} (h0 : 0 ≤ l.capacity)
    (hc : l.capacity ≤ room) (k : κ) : Within room (ListC.remove mv eq k l) := by
  unfold ListC.remove ListC.indexOf
  have h := removeAt_within mv h0 hc
  cases e : ListC.indexOfLoop eq l.buffer k 0 l.count.toNat with
  | none =>
    rw [Cpp.bind_fault]
    · trivial
    · rw [Cpp.bind_ok (Cpp.get_apply l)]; exact mem_none e l
  | some j =>
    rw [Cpp.bind_ok (a := j) (s' := l) (by rw [Cpp.bind_ok (Cpp.get_apply l)]; exact ListC.mem_some e l), Cpp.bind_ok (Cpp.get_apply l)]
    split
    · have := h j
      rw [Cpp.bind_apply]
      revert this
      cases ListC.removeAt mv j l <;> exact id
    · exact hc

theorem removeM {room : Int} (mv : Option α → Option α) (eq : α → κ → Bool) {l : ListC α} {xs : List α} (h : ListC.Repr l xs)
    (hr : 5 * (room + 1) ≤ 9223372036854775807) (hc : l.capacity ≤ room) (k : κ) :
    remove room mv eq k l = ListC.remove mv eq k l := by
  unfold remove ListC.remove ListC.indexOf
  cases e : ListC.indexOfLoop eq l.buffer k 0 l.count.toNat with
  | none =>
    rw [Cpp.bind_fault, Cpp.bind_fault]
    · rw [Cpp.bind_ok (Cpp.get_apply l)]; exact mem_none e l
    · rw [Cpp.bind_ok (Cpp.get_apply l)]; exact mem_none e l
  | some j =>
    have e' : ((Cpp.get >>= fun s => ListC.mem (ListC.indexOfLoop eq s.buffer k 0 s.count.toNat)) : Cpp (ListC α) Int) l = .ok j l := by
      rw [Cpp.bind_ok (Cpp.get_apply l)]; exact ListC.mem_some e l
    rw [Cpp.bind_ok e', Cpp.bind_ok (Cpp.get_apply l), Cpp.bind_ok e', Cpp.bind_ok (Cpp.get_apply l)]
    split
    · rw [Cpp.bind_apply, Cpp.bind_apply, removeAtM mv h hr hc j]
    · rfl

/-- `observe` keeps the list. -/
theorem Within.observe {β : Type} {room : Int} {ret : β → Spec.SeqRet α} {o : Outcome (ListC α) β} {l : ListC α} {r : Spec.SeqRet α}
    (h : Within room o) (e : ListC.observe ret o = some (l, r)) : l.capacity ≤ room := by
  cases o with
  | ok a s => injection e with e; injection e with e _; subst e; exact h
  | err s => injection e with e; injection e with e _; subst e; exact h
  | fault => cases e

/-- **One call**: undefined exactly if the end of the range does not fit or the buffer is not available, otherwise as computed with
unbounded numbers. -/
theorem step_eq {room : Int} (mv : Option α → Option α) (eq : α → κ → Bool) {l : ListC α} {xs : List α} (h : ListC.Repr l xs)
    (hr : 5 * (room + 1) ≤ 9223372036854775807) (hc : l.capacity ≤ room) (op : Spec.SeqOp α κ)
    (hn : ∀ i n, op = .removeRange i n → 0 ≤ n) :
    ((op.EndOverflows xs.length ∨ (op.Adds xs.length ∧ Full room l.capacity xs.length)) → step room mv eq l op = none) ∧
    (¬ (op.EndOverflows xs.length ∨ (op.Adds xs.length ∧ Full room l.capacity xs.length)) →
      step room mv eq l op = ListC.step mv eq l op ∧
      ∀ l' r, ListC.step mv eq l op = some (l', r) → l'.capacity ≤ room) := by
  have h0 := h.le
  have h1 := h.count
  have h00 : 0 ≤ l.capacity := by omega
  rw [← h1]
  cases op with
  | add v =>
    have e := insertM mv h hr hc l.count v
    have ea : add room mv v l = insert room mv l.count v l := rfl
    have ea' : ListC.add mv v l = ListC.insert mv l.count v l := rfl
    simp only [Spec.SeqOp.EndOverflows, Spec.SeqOp.Adds, false_or, true_and, step, ListC.step, ea, ea', e]
    refine ⟨fun hf => ?_, fun hf => ⟨?_, fun l' r e => ?_⟩⟩
    · rw [if_pos ⟨⟨by omega, by omega⟩, hf⟩]; rfl
    · rw [if_neg (fun h => hf h.2)]
    · exact (insert_within mv hc l.count v (fun h => hf h.2)).observe e
  | insert i v =>
    have e := insertM mv h hr hc i v
    simp only [Spec.SeqOp.EndOverflows, Spec.SeqOp.Adds, false_or, step, ListC.step, e]
    refine ⟨fun hf => ?_, fun hf => ⟨?_, fun l' r e => ?_⟩⟩
    · rw [if_pos hf]; rfl
    · rw [if_neg hf]
    · exact (insert_within mv hc i v hf).observe e
  | remove k =>
    simp only [Spec.SeqOp.EndOverflows, Spec.SeqOp.Adds, false_and, or_self, false_imp_iff, not_false_iff, true_imp_iff, true_and,
      step, ListC.step, removeM mv eq h hr hc k]
    exact fun l' r e => (remove_within mv eq h00 hc k).observe e
  | removeAt i =>
    simp only [Spec.SeqOp.EndOverflows, Spec.SeqOp.Adds, false_and, or_self, false_imp_iff, not_false_iff, true_imp_iff, true_and,
      step, ListC.step, removeAtM mv h hr hc i]
    exact fun l' r e => (removeAt_within mv h00 hc i).observe e
  | removeRange i n =>
    simp only [Spec.SeqOp.EndOverflows, Spec.SeqOp.Adds, false_and, or_false, step, ListC.step, removeRangeM mv h hr hc i n (hn i n rfl)]
    refine ⟨fun hf => ?_, fun hf => ⟨?_, fun l' r e => ?_⟩⟩
    · rw [if_pos ⟨hf.1, hf.2.1, by omega⟩]; rfl
    · rw [if_neg (fun g => hf ⟨g.1, g.2.1, by omega⟩)]
    · exact (removeRange_within mv h00 hc i n).observe e
  | set i v =>
    refine ⟨fun hf => (hf.elim id (·.1)).elim, fun _ => ⟨rfl, fun l' r e => ?_⟩⟩
    exact Within.observe (show Within room (ListC.setAt i v l) from .get_bind (.check_bind hc fun _ => .mem_bind fun b _ => hc)) e
  | clear =>
    refine ⟨fun hf => (hf.elim id (·.1)).elim, fun _ => ⟨rfl, fun l' r e => ?_⟩⟩
    exact Within.observe (show Within room (ListC.clear l) from
      .get_bind (.mem_bind fun b _ => .mem_bind fun _ _ => Int.le_trans h00 hc)) e
  | get i =>
    refine ⟨fun hf => (hf.elim id (·.1)).elim, fun _ => ⟨rfl, fun l' r e => ?_⟩⟩
    refine Within.observe (show Within room (ListC.get i l) from .get_bind (.check_bind hc fun _ => ?_)) e
    cases e : ListC.readVal l.buffer i with
    | none => rw [mem_none rfl]; trivial
    | some v => rw [ListC.mem_some rfl]; exact hc
  | count =>
    refine ⟨fun hf => (hf.elim id (·.1)).elim, fun _ => ⟨rfl, fun l' r e => ?_⟩⟩
    injection e with e; injection e with e _; subst e; exact hc
  | indexOf k =>
    refine ⟨fun hf => (hf.elim id (·.1)).elim, fun _ => ⟨rfl, fun l' r e => ?_⟩⟩
    rw [ListC.step, ListC.indexOf_ok h eq k] at e
    injection e with e; injection e with e _; subst e; exact hc
  | contains k =>
    refine ⟨fun hf => (hf.elim id (·.1)).elim, fun _ => ⟨rfl, fun l' r e => ?_⟩⟩
    rw [ListC.step, ListC.contains_ok h eq k] at e
    injection e with e; injection e with e _; subst e; exact hc

theorem searchLoop_eq (read : Int → Option α) (cmp : α → κ → Option Ordering) (k : κ) (fuel : Nat) :
    ∀ (start stop index : Int), 0 ≤ start → start ≤ stop + 1 → stop < 9223372036854775807 → stop + 1 - start < fuel →
      searchLoop read cmp k fuel start stop index = Vlpp.searchLoop read cmp k start stop index := by
  induction fuel with
  | zero => intro start stop index h0 h1 h2 h3; omega
  | succ fuel ih =>
    intro start stop index h0 h1 h2 h3
    rw [searchLoop, Vlpp.searchLoop]
    by_cases h : start ≤ stop
    · rw [if_pos h, if_pos h, fit_ok (x := stop - start) (by omega) (by omega)]
      simp only [Option.bind_eq_bind, Option.bind_some]
      rw [fit_ok (x := start + (stop - start) / 2) (by omega) (by omega)]
      simp only
      cases read (start + (stop - start) / 2) with
      | none => rfl
      | some x =>
        simp only
        cases cmp x k with
        | none => rfl
        | some o =>
          cases o with
          | lt =>
            simp only [fit_ok (x := start + (stop - start) / 2 + 1) (by omega) (by omega)]
            exact ih _ _ _ (by omega) (by omega) (by omega) (by omega)
          | gt =>
            simp only [fit_ok (x := start + (stop - start) / 2 - 1) (by omega) (by omega)]
            exact ih _ _ _ (by omega) (by omega) (by omega) (by omega)
          | eq => rfl
    · rw [if_neg h, if_neg h]

theorem upFrom_succ (start : Int) (n : Nat) : Spec.upFrom start (n + 1) = start :: Spec.upFrom (start + 1) n := by
  unfold Spec.upFrom
  rw [List.range_succ_eq_map]
  simp only [List.map_cons, List.map_map, Int.natCast_zero, Int.add_zero, List.cons.injEq, true_and]
  apply List.map_congr_left
  intro i _
  simp only [Function.comp_apply]
  omega

theorem rangeLoop_ok (start count : Int) (h0 : -9223372036854775808 < start) (h1 : start + count ≤ 9223372036854775807)
    (hs : start ≤ 9223372036854775807) (h2 : -9223372036854775808 < start + count) (n : Nat) : ∀ (c : Int) (fuel : Nat),
    start - 1 ≤ c → (c - start + 1) + n = max count 0 → n < fuel →
      rangeLoop start count fuel c = some (Spec.upFrom (c + 1) n) := by
  induction n with
  | zero =>
    intro c fuel hc he hf
    obtain ⟨fuel, rfl⟩ : ∃ k, fuel = k + 1 := ⟨fuel - 1, by omega⟩
    have hlt : ¬ c < start + count - 1 := by omega
    simp only [rangeLoop, rangeNext, fit_ok (x := start - 1) (by omega) (by omega), Option.bind_eq_bind, Option.bind_some, if_pos hc,
      fit_ok (x := start + count) (by omega) (by omega), fit_ok (x := start + count - 1) (by omega) (by omega), if_neg hlt]
    rfl
  | succ n ih =>
    intro c fuel hc he hf
    obtain ⟨fuel, rfl⟩ : ∃ k, fuel = k + 1 := ⟨fuel - 1, by omega⟩
    have hlt : c < start + count - 1 := by omega
    have := ih (c + 1) fuel (by omega) (by omega) (by omega)
    simp only [rangeLoop, rangeNext, fit_ok (x := start - 1) (by omega) (by omega), Option.bind_eq_bind, Option.bind_some, if_pos hc,
      fit_ok (x := start + count) (by omega) (by omega), fit_ok (x := start + count - 1) (by omega) (by omega), if_pos hlt,
      fit_ok (x := c + 1) (by omega) (by omega), pure, this, upFrom_succ]
    rfl

end Vlpp.Mach
