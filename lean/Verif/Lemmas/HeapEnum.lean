import Verif.Model.HeapEnum
import Verif.Lemmas.HeapRef
import Verif.Lemmas.HeapDict
import Verif.Lemmas.HeapArray
import Verif.Lemmas.MoveWorld

/-! # Enumerators of containers that change -/
set_option autoImplicit false
namespace Vlpp
open EnumClass

namespace EnumClass
variable {σ E β : Type}

theorem onObjects_ok {m : Cpp σ β} {w w' : σ} {e : E} {v : β} (h : m w = .ok v w') : onObjects m (w, e) = .ok v (w', e) := by
  unfold onObjects; rw [h]
theorem onObjects_err {m : Cpp σ β} {w w' : σ} {e : E} (h : m w = .err w') : (onObjects m : Cpp (σ × E) β) (w, e) = .err (w', e) := by
  unfold onObjects; rw [h]
theorem onObjects_fault {m : Cpp σ β} {w : σ} {e : E} (h : m w = .fault) : (onObjects m : Cpp (σ × E) β) (w, e) = .fault := by
  unfold onObjects; rw [h]
theorem members_bind (f : E → Cpp (σ × E) β) (w : σ) (e : E) : (members >>= f) (w, e) = f e (w, e) := rfl
theorem setMembers_bind (f : Unit → Cpp (σ × E) β) (w : σ) (e e' : E) : (setMembers e' >>= f) (w, e) = f () (w, e') := rfl

end EnumClass

section
variable {σ E α A C Op Ret : Type}

/-- The enumerators with members `e` do what the specification says of `c`. -/
structure CursorSim (M : Movable σ Op Ret) (K : EnumClass σ E α) (S : Spec.Cursors A C Op α) (R : σ → (Nat → A) → Prop)
    (Q : σ → E → C → Prop) (moved error : Ret) : Prop where
  create : ∀ w i, Q w (K.create i) (S.create i)
  clone : ∀ w e c, Q w e c → Q w (K.clone e) (S.clone c)
  next : ∀ w xs e c, R w xs → Q w e c → ∃ b e' c', K.next (w, e) = .ok b (w, e') ∧ S.Next xs c c' b ∧ Q w e' c'
  current : ∀ w xs e c, R w xs → Q w e c → S.Readable xs c →
    (∃ v, K.current (w, e) = .ok v (w, e) ∧ S.Current xs c (some v)) ∨ (K.current (w, e) = .err (w, e) ∧ S.Current xs c none)
  index : ∀ w xs e c, R w xs → Q w e c → ∃ n, K.index (w, e) = .ok n (w, e) ∧ S.Index xs c n
  reset : ∀ w xs e c, R w xs → Q w e c → ∃ e' c', Q w e' c' ∧
    ((K.reset (w, e) = .ok () (w, e') ∧ S.Reset xs c c' true) ∨ (K.reset (w, e) = .err (w, e') ∧ S.Reset xs c c' false))
  changed : ∀ w w' op r xs e c, R w xs → M.step moved error w op = some (w', r) → Q w e c → Q w' e (S.changed op c)

theorem EnumWorld.put_same (w : EnumWorld σ E) (e : Nat) :
    (⟨w.objects, fun n => if n = e then w.enums e else w.enums n⟩ : EnumWorld σ E) = w := by
  have : (fun n => if n = e then w.enums e else w.enums n) = w.enums := by
    funext n
    split
    · next h => rw [h]
    · rfl
  rw [this]

theorem CursorSim.run {M : Movable σ Op Ret} {K : EnumClass σ E α} {S : Spec.Cursors A C Op α} {R : σ → (Nat → A) → Prop}
    {Q : σ → E → C → Prop} {moved error : Ret} {Fresh : σ → Nat → Prop} {Step : A → Op → A → Ret → Prop}
    {Valid : A → Op → Prop} {empty : A} (hM : MoveSim M R Fresh Step Valid empty error) (hS : CursorSim M K S R Q moved error)
    (ops : List (Spec.CursorOp Op)) {w : EnumWorld σ E} {xs : Nat → A} {cs : Nat → C} (hR : R w.objects xs)
    (hQ : ∀ n, Q w.objects (w.enums n) (cs n)) (hv : Spec.Careful S Step Valid empty moved error xs cs ops) :
    ∃ w' xs' cs' rs, EnumWorld.run M K moved error w ops = some (w', rs) ∧ R w'.objects xs' ∧
      (∀ n, Q w'.objects (w'.enums n) (cs' n)) ∧ Spec.CursorRun S Step empty moved error xs cs ops xs' cs' rs := by
  induction ops generalizing w xs cs with
  | nil => exact ⟨w, xs, cs, [], rfl, hR, hQ, .nil _ _⟩
  | cons op ops ih =>
    have key : ∃ w1 xs1 cs1 r, EnumWorld.step M K moved error w op = some (w1, r) ∧ R w1.objects xs1 ∧
        (∀ n, Q w1.objects (w1.enums n) (cs1 n)) ∧ Spec.CursorStep S Step empty moved error xs cs op xs1 cs1 r := by
      have put : ∀ e (e' : E) (c' : C), Q w.objects e' c' →
          ∀ n, Q w.objects (if n = e then e' else w.enums n) (Spec.replace cs e c' n) := by
        intro e e' c' h n
        unfold Spec.replace
        split
        · exact h
        · exact hQ n
      cases op with
      | object op =>
        obtain ⟨w', xs', r, h1, h2, h3, _⟩ := hM.step (moved := moved) hR op (fun i o h => hv.2.1 i o (by rw [h]))
        refine ⟨⟨w', w.enums⟩, xs', _, .object r, by simp only [EnumWorld.step, h1, Option.map_some], h2, ?_, .object op xs' r h3⟩
        exact fun n => hS.changed _ _ _ _ _ _ _ hR h1 (hQ n)
      | create e i => exact ⟨_, xs, _, .done, rfl, hR, put e _ _ (hS.create _ i), .create e i⟩
      | clone e f => exact ⟨_, xs, _, .done, rfl, hR, put e _ _ (hS.clone _ _ _ (hQ f)), .clone e f⟩
      | next e =>
        obtain ⟨b, e', c', h1, h2, h3⟩ := hS.next _ _ _ _ hR (hQ e)
        refine ⟨⟨w.objects, fun n => if n = e then e' else w.enums n⟩, xs, _, .flag b, ?_, hR, put e _ _ h3, .next e c' b h2⟩
        simp only [EnumWorld.step]
        rw [Cpp.bind_ok (show EnumWorld.on e K.next w = .ok b ⟨w.objects, fun n => if n = e then e' else w.enums n⟩ by simp only [EnumWorld.on, h1])]
        rfl
      | current e =>
        rcases hS.current _ _ _ _ hR (hQ e) (hv.1 e rfl) with ⟨v, h1, h2⟩ | ⟨h1, h2⟩
        · refine ⟨w, xs, cs, .item v, ?_, hR, hQ, .current e v h2⟩
          simp only [EnumWorld.step]
          rw [Cpp.bind_ok (show EnumWorld.on e K.current w = .ok v w by simp only [EnumWorld.on, h1, EnumWorld.put_same])]
          rfl
        · refine ⟨w, xs, cs, .error, ?_, hR, hQ, .noCurrent e h2⟩
          simp only [EnumWorld.step]
          rw [Cpp.bind_err (show EnumWorld.on e K.current w = .err w by simp only [EnumWorld.on, h1, EnumWorld.put_same])]
          rfl
      | index e =>
        obtain ⟨n, h1, h2⟩ := hS.index _ _ _ _ hR (hQ e)
        refine ⟨w, xs, cs, .index n, ?_, hR, hQ, .index e n h2⟩
        simp only [EnumWorld.step]
        rw [Cpp.bind_ok (show EnumWorld.on e K.index w = .ok n w by simp only [EnumWorld.on, h1, EnumWorld.put_same])]
        rfl
      | reset e =>
        obtain ⟨e', c', h3, ⟨h1, h2⟩ | ⟨h1, h2⟩⟩ := hS.reset _ _ _ _ hR (hQ e)
        · refine ⟨⟨w.objects, fun n => if n = e then e' else w.enums n⟩, xs, _, .done, ?_, hR, put e _ _ h3, .reset e c' h2⟩
          simp only [EnumWorld.step]
          rw [Cpp.bind_ok (show EnumWorld.on e K.reset w = .ok () ⟨w.objects, fun n => if n = e then e' else w.enums n⟩ by simp only [EnumWorld.on, h1])]
          rfl
        · refine ⟨⟨w.objects, fun n => if n = e then e' else w.enums n⟩, xs, _, .error, ?_, hR, put e _ _ h3, .resetFails e c' h2⟩
          simp only [EnumWorld.step]
          rw [Cpp.bind_err (show EnumWorld.on e K.reset w = .err ⟨w.objects, fun n => if n = e then e' else w.enums n⟩ by simp only [EnumWorld.on, h1])]
          rfl
    obtain ⟨w1, xs1, cs1, r, h1, h2, h3, h4⟩ := key
    obtain ⟨w2, xs2, cs2, rs, g1, g2, g3, g4⟩ := ih h2 h3 (hv.2.2 _ _ _ h4)
    exact ⟨w2, xs2, cs2, r :: rs, by simp [EnumWorld.run, h1, g1], g2, g3, .cons h4 g4⟩

end

namespace ListWorld
variable {α β : Type}

/-- an element of a list -/
theorem Rel.readElem {w : ListWorld α} {cs : Nat → ListC α} {xs : Nat → List α} (hw : Rel w cs)
    (hp : ∀ n, ListC.Repr (cs n) (xs n)) {i n : Nat} (hn : n < (xs i).length) (j : Nat) :
    on j (ListH.onHeap (ElemRef.elem (w.lists i).buffer n).read) w = .ok (xs i)[n] w := by
  refine on_ok (ListH.onHeap_ok ?_)
  have hrd := ListC.readVal_ok (hp i) n hn
  have o := (hw.rel i).own.at'
  cases hb : (w.lists i).buffer with
  | none =>
    simp only [hb] at o
    rw [show (cs i).buffer = Block.null from o] at hrd
    have h1 := (hp i).size
    have h2 := (hp i).count
    have h3 := (hp i).le
    rw [show (cs i).buffer = Block.null from o] at h1
    have : (0 : Int) = (cs i).capacity := h1
    omega
  | some a =>
    simp only [hb] at o
    exact ElemRef.read_elem o hrd

theorem count_ok (w : ListWorld α) (i : Nat) : on i (do return (← ListH.members).count) w = .ok (w.lists i).count w :=
  on_ok rfl

end ListWorld

namespace ListEnum
variable {α Op Ret : Type}

theorem sim {step : Op → Cpp (Heap α × ListH) Ret} {P : List α → Prop} {moved error : Ret} :
    CursorSim (ListWorld.movable step) cls Spec.listCursors (fun w xs => ListWorld.Reps w xs ∧ ∀ n, P (xs n))
      (fun _ (e : ListEnum) (c : Spec.Cursor) => e.container = c.container ∧ e.index = c.index) moved error := by
  refine ⟨fun _ _ => ⟨rfl, rfl⟩, fun _ _ _ h => h, ?_, ?_, ?_, ?_, fun _ _ _ _ _ _ _ _ _ h => h⟩
  · rintro w xs ⟨i, n⟩ ⟨i', n'⟩ ⟨⟨cs, hw, hp⟩, _⟩ ⟨h1, h2⟩
    simp only at h1 h2
    subst h1 h2
    have hc : (w.lists i).count = (xs i).length := ((hw.rel i).count).trans (hp i).count
    by_cases h0 : n + 1 ≥ 0
    · refine ⟨decide (n + 1 < (w.lists i).count), ⟨i, n + 1⟩, ⟨i, n + 1⟩, ?_, ⟨rfl, ?_⟩, rfl, rfl⟩
      · show next (w, _) = _
        unfold next
        rw [members_bind, setMembers_bind, members_bind]
        simp only [if_pos h0]
        rw [Cpp.bind_ok (m := count i) (onObjects_ok (ListWorld.count_ok w i))]
        rfl
      · simp only [decide_eq_true_iff, hc]
        exact ⟨fun h => ⟨h0, h⟩, fun h => h.2⟩
    · refine ⟨false, ⟨i, n + 1⟩, ⟨i, n + 1⟩, ?_, ⟨rfl, ?_⟩, rfl, rfl⟩
      · show next (w, _) = _
        unfold next
        rw [members_bind, setMembers_bind, members_bind]
        simp only [if_neg h0]
        rfl
      · exact ⟨fun h => Bool.noConfusion h, fun h => absurd h.1 h0⟩
  · rintro w xs ⟨i, n⟩ ⟨i', n'⟩ ⟨⟨cs, hw, hp⟩, _⟩ ⟨h1, h2⟩ -
    simp only at h1 h2
    subst h1 h2
    have hc : (w.lists i).count = (xs i).length := ((hw.rel i).count).trans (hp i).count
    by_cases h : n ≥ 0 ∧ n < (w.lists i).count
    · obtain ⟨m, rfl⟩ := Int.eq_ofNat_of_zero_le h.1
      have hm : m < (xs i).length := by have := h.2; rw [hc] at this; omega
      refine .inl ⟨(xs i)[m], ?_, ?_⟩
      · show current (w, _) = _
        unfold current
        rw [members_bind]
        rw [Cpp.bind_ok (onObjects_ok (ListWorld.on_ok (ListH.refAt_ok h)))]
        exact onObjects_ok (hw.readElem hp hm i)
      · refine ⟨fun _ => ?_, fun h => by simp only at h; omega⟩
        simp [List.getElem?_eq_getElem hm]
    · refine .inr ⟨?_, ?_⟩
      · show current (w, _) = _
        unfold current
        rw [members_bind]
        rw [Cpp.bind_err (onObjects_err (ListWorld.on_err (ListH.refAt_err h)))]
      · refine ⟨fun h0 => ?_, fun _ => rfl⟩
        simp only at h0
        simp only
        rw [List.getElem?_eq_none]
        omega
  · rintro w xs ⟨i, n⟩ ⟨i', n'⟩ _ ⟨h1, h2⟩
    exact ⟨n, rfl, h2⟩
  · rintro w xs ⟨i, n⟩ ⟨i', n'⟩ _ ⟨h1, h2⟩
    exact ⟨⟨i, -1⟩, ⟨i', -1⟩, ⟨h1, rfl⟩, .inl ⟨rfl, rfl, rfl⟩⟩

/-- `next`, `current` for any elements -/
theorem next_ok (w : ListWorld α) (i : Nat) (n : Int) : next (w, ⟨i, n⟩) =
    .ok (decide (0 ≤ n + 1 ∧ n + 1 < (w.lists i).count)) (w, ⟨i, n + 1⟩) := by
  unfold next
  rw [members_bind, setMembers_bind, members_bind]
  by_cases h0 : n + 1 ≥ 0
  · simp only [if_pos h0]
    rw [Cpp.bind_ok (m := count i) (onObjects_ok (ListWorld.count_ok w i))]
    have : decide (0 ≤ n + 1 ∧ n + 1 < (w.lists i).count) = decide (n + 1 < (w.lists i).count) :=
      decide_eq_decide.2 ⟨fun h => h.2, fun h => ⟨h0, h⟩⟩
    rw [this]
    rfl
  · simp only [if_neg h0]
    rw [decide_eq_false fun h => h0 h.1]
    rfl

theorem array_sim {step : Op → Cpp (Heap α × ListH) Ret} {moved error : Ret} :
    CursorSim (ListWorld.movable step) cls Spec.arrayCursors
      (fun w ys => ListWorld.RepsBy ArrayH.Repr w ys ∧ ∀ n, (fun _ => True) (ys n))
      (fun _ (e : ListEnum) (c : Spec.Cursor) => e.container = c.container ∧ e.index = c.index) moved error := by
  refine ⟨fun _ _ => ⟨rfl, rfl⟩, fun _ _ _ h => h, ?_, ?_, ?_, ?_, fun _ _ _ _ _ _ _ _ _ h => h⟩
  · rintro w ys ⟨i, n⟩ ⟨i', n'⟩ ⟨⟨cs, hw, hp⟩, _⟩ ⟨h1, h2⟩
    simp only at h1 h2
    subst h1 h2
    have hc : (w.lists i).count = (ys i).length := ((hw.rel i).count).trans (hp i).2.count
    exact ⟨_, ⟨i, n + 1⟩, ⟨i, n + 1⟩, next_ok w i n, ⟨rfl, by rw [decide_eq_true_iff, hc]⟩, rfl, rfl⟩
  · rintro w ys ⟨i, n⟩ ⟨i', n'⟩ ⟨⟨cs, hw, hp⟩, _⟩ ⟨h1, h2⟩ hread
    simp only at h1 h2
    subst h1 h2
    have hc : (w.lists i).count = (ys i).length := ((hw.rel i).count).trans (hp i).2.count
    by_cases h : n ≥ 0 ∧ n < (w.lists i).count
    · obtain ⟨m, rfl⟩ := Int.eq_ofNat_of_zero_le h.1
      have hm : m < (ys i).length := by have := h.2; rw [hc] at this; omega
      have hne := hread h.1
      simp only [Int.toNat_natCast, List.getElem?_eq_getElem hm] at hne
      cases hy : (ys i)[m] with
      | none => rw [hy] at hne; exact absurd rfl hne
      | some v =>
        refine .inl ⟨v, ?_, ?_⟩
        · show current (w, _) = _
          unfold current
          rw [members_bind]
          rw [Cpp.bind_ok (onObjects_ok (ListWorld.on_ok (ListH.refAt_ok h)))]
          refine onObjects_ok (ListWorld.on_ok (ListH.onHeap_ok ?_))
          have hsz := (hp i).2.size
          have hcn := (hp i).2.count
          have hlive := (hp i).2.live m (by omega) (by simp only at hcn ⊢; omega)
          simp only [Int.toNat_natCast, List.getElem?_eq_getElem hm, Option.getD_some, hy] at hlive hsz hcn
          have o := (hw.rel i).own.at'
          cases hb : (w.lists i).buffer with
          | none =>
            simp only [hb] at o
            rw [show (cs i).buffer = Block.null from o] at hsz
            have : (0 : Int) = (cs i).count := hsz
            omega
          | some a =>
            simp only [hb] at o
            refine ElemRef.read_elem o ?_
            unfold ListC.readVal Mem.read
            rw [if_pos (show (cs i).buffer.In m from ⟨by omega, by omega⟩), hlive]
        · refine ⟨fun _ => ?_, fun h => by simp only at h; omega⟩
          simp [List.getElem?_eq_getElem hm, hy]
    · refine .inr ⟨?_, ?_⟩
      · show current (w, _) = _
        unfold current
        rw [members_bind]
        rw [Cpp.bind_err (onObjects_err (ListWorld.on_err (ListH.refAt_err h)))]
      · refine ⟨fun h0 => ?_, fun _ => rfl⟩
        simp only at h0
        simp only
        rw [List.getElem?_eq_none]
        · rfl
        · omega
  · rintro w xs ⟨i, n⟩ ⟨i', n'⟩ _ ⟨h1, h2⟩
    exact ⟨n, rfl, h2⟩
  · rintro w xs ⟨i, n⟩ ⟨i', n'⟩ _ ⟨h1, h2⟩
    exact ⟨⟨i, -1⟩, ⟨i', -1⟩, ⟨h1, rfl⟩, .inl ⟨rfl, rfl, rfl⟩⟩

end ListEnum

namespace DictWorld
variable {κ ν β γ : Type}

/-- the members of dictionary `n` are the same -/
def Same (n : Nat) (w w' : DictWorld κ ν) : Prop := w'.keys.lists n = w.keys.lists n ∧ w'.values.lists n = w.values.lists n

/-- the computation does not change the members of dictionary `n` -/
def Keeps (n : Nat) (m : Cpp (DictWorld κ ν) β) : Prop :=
  ∀ w, match m w with
    | .ok _ w' => Same n w w'
    | .err w' => Same n w w'
    | .fault => True

theorem Keeps.pure (n : Nat) (v : β) : Keeps n (Pure.pure v : Cpp (DictWorld κ ν) β) := fun _ => ⟨rfl, rfl⟩

theorem Keeps.check (n : Nat) (c : Prop) [Decidable c] : Keeps n (Cpp.check c : Cpp (DictWorld κ ν) Unit) := by
  intro w
  by_cases hc : c
  · rw [Cpp.check_true hc]; exact ⟨rfl, rfl⟩
  · rw [Cpp.check_false hc]; exact ⟨rfl, rfl⟩

theorem Keeps.bind {n : Nat} {m : Cpp (DictWorld κ ν) β} {f : β → Cpp (DictWorld κ ν) γ} (h1 : Keeps n m) (h2 : ∀ x, Keeps n (f x)) :
    Keeps n (m >>= f) := by
  intro w
  have a := h1 w
  rw [Cpp.bind_apply]
  cases e : m w with
  | ok x w1 =>
    rw [e] at a
    have b := h2 x w1
    simp only at a ⊢
    cases e' : f x w1 with
    | ok y w2 => rw [e'] at b; exact ⟨b.1.trans a.1, b.2.trans a.2⟩
    | err w2 => rw [e'] at b; exact ⟨b.1.trans a.1, b.2.trans a.2⟩
    | fault => trivial
  | err w1 => rw [e] at a; exact a
  | fault => trivial

/-- the computation of a world of lists does not change the members of list `n` -/
def ListKeeps {α : Type} (n : Nat) (m : Cpp (ListWorld α) β) (w : ListWorld α) : Prop :=
  match m w with
  | .ok _ w' => w'.lists n = w.lists n
  | .err w' => w'.lists n = w.lists n
  | .fault => True

theorem keeps_keys {n : Nat} {m : Cpp (ListWorld κ) β}
    (h : ∀ w, ListKeeps n m w) :
    Keeps n (onKeys m : Cpp (DictWorld κ ν) β) := by
  intro w
  have := h w.keys
  unfold ListKeeps at this
  unfold onKeys
  cases e : m w.keys with
  | ok v ks => rw [e] at this; exact ⟨this, rfl⟩
  | err ks => rw [e] at this; exact ⟨this, rfl⟩
  | fault => trivial

theorem keeps_values {n : Nat} {m : Cpp (ListWorld ν) β}
    (h : ∀ w, ListKeeps n m w) :
    Keeps n (onValues m : Cpp (DictWorld κ ν) β) := by
  intro w
  have := h w.values
  unfold ListKeeps at this
  unfold onValues
  cases e : m w.values with
  | ok v ks => rw [e] at this; exact ⟨rfl, this⟩
  | err ks => rw [e] at this; exact ⟨rfl, this⟩
  | fault => trivial

theorem on_keeps {α : Type} {n j : Nat} (h : n ≠ j) (m : Cpp (Heap α × ListH) β) (w : ListWorld α) :
    ListKeeps n (ListWorld.on j m) w := by
  unfold ListKeeps
  unfold ListWorld.on
  cases m (w.heap, w.lists j) with
  | ok v s => simp [ListWorld.put, h]
  | err s => simp [ListWorld.put, h]
  | fault => trivial

theorem reading_keeps {α : Type} (n j : Nat) (m : Cpp (ListC α) β) (w : ListWorld α) :
    ListKeeps n (ListWorld.on j (ListH.reading m)) w := by
  unfold ListKeeps
  have key : ∀ (l : ListH), l = w.lists j → ((({ w with heap := w.heap } : ListWorld α).put j l).lists n = w.lists n) := by
    rintro l rfl
    rw [show ({ w with heap := w.heap } : ListWorld α) = w from rfl, ListWorld.put_self]
  unfold ListWorld.on ListH.reading
  cases ListH.view (w.heap, w.lists j) with
  | none => trivial
  | some l =>
    simp only
    cases m l with
    | ok v s => exact key _ rfl
    | err s => exact key _ rfl
    | fault => trivial

theorem keysOn_keeps {n j : Nat} (h : n ≠ j) (m : Cpp (Heap κ × ListH) β) : Keeps n (onKeys (ListWorld.on j m) : Cpp (DictWorld κ ν) β) :=
  keeps_keys (on_keeps h m)
theorem valuesOn_keeps {n j : Nat} (h : n ≠ j) (m : Cpp (Heap ν × ListH) β) : Keeps n (onValues (ListWorld.on j m) : Cpp (DictWorld κ ν) β) :=
  keeps_values (on_keeps h m)
theorem keysReading_keeps (n j : Nat) (m : Cpp (ListC κ) β) : Keeps n (onKeys (ListWorld.on j (ListH.reading m)) : Cpp (DictWorld κ ν) β) :=
  keeps_keys (reading_keeps n j m)
theorem valuesReading_keeps (n j : Nat) (m : Cpp (ListC ν) β) :
    Keeps n (onValues (ListWorld.on j (ListH.reading m)) : Cpp (DictWorld κ ν) β) := keeps_values (reading_keeps n j m)

theorem destroy_keeps {α : Type} {n j : Nat} (h : n ≠ j) (w : ListWorld α) :
    ListKeeps n (ListWorld.destroy j) w := by
  unfold ListKeeps
  have a := on_keeps h ListH.destructor w
  unfold ListKeeps at a
  unfold ListWorld.destroy
  rw [Cpp.bind_apply]
  cases e : ListWorld.on j ListH.destructor w with
  | ok v w1 =>
    rw [e] at a
    have b := on_keeps h (ListH.setMembers ListH.empty) w1
    unfold ListKeeps at b
    simp only at a ⊢
    cases e' : ListWorld.on j (ListH.setMembers ListH.empty) w1 with
    | ok v w2 => rw [e'] at b; exact b.trans a
    | err w2 => rw [e'] at b; exact b.trans a
    | fault => trivial
  | err w1 => rw [e] at a; exact a
  | fault => trivial

theorem moveConstruct_keeps {α : Type} {n i j : Nat} (h1 : n ≠ i) (h2 : n ≠ j) (w : ListWorld α) :
    ListKeeps n (ListWorld.moveConstruct i j) w := by
  unfold ListKeeps
  rw [ListWorld.moveConstruct_eq]
  simp [ListWorld.moved, h1, h2]

theorem moveAssign_keeps {α : Type} {n i j : Nat} (h1 : n ≠ i) (h2 : n ≠ j) (w : ListWorld α) :
    ListKeeps n (ListWorld.moveAssign i j) w := by
  unfold ListKeeps
  have a := on_keeps h1 ListH.destructor w
  unfold ListKeeps at a
  unfold ListWorld.moveAssign
  rw [Cpp.bind_apply]
  cases e : ListWorld.on i ListH.destructor w with
  | ok v w1 =>
    rw [e] at a
    have b := moveConstruct_keeps h1 h2 w1
    unfold ListKeeps at b
    simp only at a ⊢
    cases e' : ListWorld.moveConstruct i j w1 with
    | ok v w2 => rw [e'] at b; exact b.trans a
    | err w2 => rw [e'] at b; exact b.trans a
    | fault => trivial
  | err w1 => rw [e] at a; exact a
  | fault => trivial

section
variable (mk : Option κ → Option κ) (mv : Option ν → Option ν) (cmp : κ → κ → Option Ordering)

theorem call_keeps {n j : Nat} (op : Spec.MapOp κ ν) (h : n ≠ j ∨ op.Modifies = false) : Keeps n (call mk mv cmp j op) := by
  rcases h with h | h
  · cases op with
    | add k v =>
      exact .bind (.bind (keysReading_keeps n j _) fun _ => .bind (.check _ _) fun _ => .bind (keysOn_keeps h _) fun _ =>
        .bind (valuesOn_keeps h _) fun _ => .pure _ _) fun _ => .pure _ _
    | set k v =>
      refine .bind (.bind (keysReading_keeps n j _) fun p => ?_) fun _ => .pure _ _
      split
      · exact .bind (keysOn_keeps h _) fun _ => .bind (valuesOn_keeps h _) fun _ => .pure _ _
      · exact .bind (valuesOn_keeps h _) fun _ => .pure _ _
    | get k => exact .bind (.bind (keysReading_keeps n j _) fun _ => valuesReading_keeps n j _) fun _ => .pure _ _
    | remove k =>
      refine .bind (.bind (keysReading_keeps n j _) fun p => ?_) fun _ => .pure _ _
      split
      · exact .bind (keysOn_keeps h _) fun _ => .bind (valuesOn_keeps h _) fun _ => .pure _ _
      · exact .pure _ _
    | clear => exact .bind (.bind (keysOn_keeps h _) fun _ => .bind (valuesOn_keeps h _) fun _ => .pure _ _) fun _ => .pure _ _
    | contains k => exact .bind (keysReading_keeps n j _) fun _ => .pure _ _
  · cases op with
    | get k => exact .bind (.bind (keysReading_keeps n j _) fun _ => valuesReading_keeps n j _) fun _ => .pure _ _
    | contains k => exact .bind (keysReading_keeps n j _) fun _ => .pure _ _
    | add | set | remove | clear => cases h

theorem observe_same {n : Nat} {m : Cpp (DictWorld κ ν) β} (h : Keeps n m) {w w' : DictWorld κ ν} {error r : β}
    (e : Movable.observe error (m w) = some (w', r)) : Same n w w' := by
  have := h w
  cases e' : m w with
  | ok v w1 => rw [e'] at e this; cases e; exact this
  | err w1 => rw [e'] at e this; cases e; exact this
  | fault => rw [e'] at e; cases e

theorem step_same {n : Nat} {op : Spec.MoveOp (Spec.MapOp κ ν)} (h : op.Changes n = false) {w w' : DictWorld κ ν}
    {moved err r : Spec.MapRet ν} (e : (movable mk mv cmp).step moved err w op = some (w', r)) : Same n w w' := by
  cases op with
  | call i op =>
    refine observe_same (call_keeps mk mv cmp op ?_) e
    simp only [Spec.MoveOp.Changes, Bool.and_eq_false_iff, decide_eq_false_iff_not] at h
    exact h
  | moveAssign i j =>
    simp only [Spec.MoveOp.Changes, Bool.or_eq_false_iff, decide_eq_false_iff_not] at h
    exact observe_same (Keeps.bind (Keeps.bind (keeps_keys (moveAssign_keeps h.1 h.2)) fun _ => keeps_values (moveAssign_keeps h.1 h.2))
      fun _ => .pure _ _) e
  | moveConstruct i j =>
    simp only [Spec.MoveOp.Changes, Bool.or_eq_false_iff, decide_eq_false_iff_not] at h
    by_cases hij : i = j
    · simp only [Movable.step, if_pos hij] at e
      cases e
      exact ⟨rfl, rfl⟩
    · simp only [Movable.step, if_neg hij] at e
      exact observe_same (Keeps.bind (Keeps.bind (keeps_values (destroy_keeps h.1)) fun _ => keeps_keys (destroy_keeps h.1)) fun _ =>
        Keeps.bind (Keeps.bind (keeps_keys (moveConstruct_keeps h.1 h.2)) fun _ => keeps_values (moveConstruct_keeps h.1 h.2))
          fun _ => .pure _ _) e
  | renew i =>
    simp only [Spec.MoveOp.Changes, decide_eq_false_iff_not] at h
    exact observe_same (Keeps.bind (Keeps.bind (keeps_values (destroy_keeps h)) fun _ => keeps_keys (destroy_keeps h)) fun _ => .pure _ _) e

end
end DictWorld

namespace DictEnum
variable {κ ν β : Type}
open DictWorld

/-- the pair of an enumerator is the entry at its position -/
def Shows (w : DictWorld κ ν) (e : DictEnum κ ν) : Prop :=
  0 ≤ e.index ∧ e.index < (w.keys.lists e.container).count ∧
  e.current = some (.elem (w.keys.lists e.container).buffer e.index, .elem (w.values.lists e.container).buffer e.index)

structure Is (w : DictWorld κ ν) (e : DictEnum κ ν) (c : Spec.PairCursor) : Prop where
  container : e.container = c.container
  index : e.index = c.index
  nothing : c.shown = .nothing → e.current = none
  entry : c.shown = .entry → Shows w e

theorem count_ok (w : DictWorld κ ν) (e : DictEnum κ ν) (i : Nat) : count i (w, e) = .ok (w.keys.lists i).count (w, e) := by
  refine onObjects_ok ?_
  unfold onKeys
  rw [ListWorld.count_ok]

theorem key_ok {w : DictWorld κ ν} {e : DictEnum κ ν} {i : Nat} {n : Int} (h : n ≥ 0 ∧ n < (w.keys.lists i).count) :
    onObjects (onKeys (ListWorld.on i (ListH.refAt n))) (w, e) = .ok (.elem (w.keys.lists i).buffer n) (w, e) := by
  refine onObjects_ok ?_
  unfold onKeys
  rw [ListWorld.on_ok (ListH.refAt_ok h)]

theorem key_err {w : DictWorld κ ν} {e : DictEnum κ ν} {i : Nat} {n : Int} (h : ¬ (n ≥ 0 ∧ n < (w.keys.lists i).count)) :
    onObjects (onKeys (ListWorld.on i (ListH.refAt n))) (w, e) = .err (w, e) := by
  refine onObjects_err ?_
  unfold onKeys
  rw [ListWorld.on_err (ListH.refAt_err h)]

theorem value_ok {w : DictWorld κ ν} {e : DictEnum κ ν} {i : Nat} {n : Int} (h : n ≥ 0 ∧ n < (w.values.lists i).count) :
    onObjects (onValues (ListWorld.on i (ListH.refAt n))) (w, e) = .ok (.elem (w.values.lists i).buffer n) (w, e) := by
  refine onObjects_ok ?_
  unfold onValues
  rw [ListWorld.on_ok (ListH.refAt_ok h)]

theorem updateCurrent_entry {w : DictWorld κ ν} {e : DictEnum κ ν} (h0 : 0 ≤ e.index) (h1 : e.index < (w.keys.lists e.container).count)
    (h2 : e.index < (w.values.lists e.container).count) :
    updateCurrent (w, e) = .ok () (w, ⟨e.container, e.index,
      some (.elem (w.keys.lists e.container).buffer e.index, .elem (w.values.lists e.container).buffer e.index)⟩) := by
  unfold updateCurrent
  rw [members_bind, Cpp.bind_ok (count_ok w e _)]
  simp only [if_pos h1]
  rw [Cpp.bind_ok (key_ok ⟨h0, h1⟩), Cpp.bind_ok (value_ok ⟨h0, h2⟩)]
  rfl

theorem updateCurrent_end {w : DictWorld κ ν} {e : DictEnum κ ν} (h1 : ¬ e.index < (w.keys.lists e.container).count) :
    updateCurrent (w, e) = .ok () (w, e) := by
  unfold updateCurrent
  rw [members_bind, Cpp.bind_ok (count_ok w e _)]
  simp only [if_neg h1]
  rfl

theorem updateCurrent_before {w : DictWorld κ ν} {e : DictEnum κ ν} (h0 : ¬ 0 ≤ e.index) (h1 : e.index < (w.keys.lists e.container).count) :
    updateCurrent (w, e) = .err (w, e) := by
  unfold updateCurrent
  rw [members_bind, Cpp.bind_ok (count_ok w e _)]
  simp only [if_pos h1]
  rw [Cpp.bind_err (key_err fun h => h0 h.1)]

theorem next_eq {w : DictWorld κ ν} {e e' : DictEnum κ ν} (h : updateCurrent (w, { e with index := e.index + 1 }) = .ok () (w, e'))
    (h0 : e'.index ≥ 0) : next (w, e) = .ok (decide (e'.index < (w.keys.lists e'.container).count)) (w, e') := by
  unfold next
  rw [members_bind, setMembers_bind, Cpp.bind_ok h, members_bind]
  simp only [if_pos h0]
  rw [Cpp.bind_ok (count_ok w e' _)]
  rfl

variable (mk : Option κ → Option κ) (mv : Option ν → Option ν) {cmp : κ → κ → Option Ordering} {ord : κ → κ → Ordering}

theorem sim (moved err : Spec.MapRet ν) :
    CursorSim (movable mk mv cmp) cls (Spec.mapCursors ord) (Stores ord) (fun w e c => Is w e c ∧ -1 ≤ c.index) moved err := by
  refine ⟨fun _ _ => ⟨⟨rfl, rfl, fun _ => rfl, fun h => by cases h⟩, Int.le_refl _⟩, ?_, ?_, ?_, ?_, ?_, ?_⟩
  · rintro w e c ⟨h, h0⟩
    exact ⟨⟨h.container, h.index, fun _ => rfl, fun h => by cases h⟩, h0⟩
  · rintro w ms e c ⟨ds, ⟨⟨cs, hk, hkp⟩, ⟨cs', hv, hvp⟩⟩, hl⟩ ⟨h, h0⟩
    have hi := h.index
    have hc := h.container
    have hkc : (w.keys.lists e.container).count = (ds e.container).keys.length := ((hk.rel _).count).trans (hkp _).count
    have hvc : (w.values.lists e.container).count = (ds e.container).values.length := ((hv.rel _).count).trans (hvp _).count
    have hlen := (hl e.container).length
    by_cases h1 : e.index + 1 < (w.keys.lists e.container).count
    · have hu := updateCurrent_entry (w := w) (e := { e with index := e.index + 1 }) (by simp only; omega) h1 (by simp only; omega)
      have hn := next_eq hu (by simp only; omega)
      simp only [decide_eq_true h1] at hn
      refine ⟨true, ⟨e.container, e.index + 1, some (.elem (w.keys.lists e.container).buffer (e.index + 1),
        .elem (w.values.lists e.container).buffer (e.index + 1))⟩, ⟨c.container, c.index + 1, .entry⟩, hn, ?_, ?_⟩
      · refine ⟨_, _, hc ▸ hl e.container, ?_, rfl⟩
        simp only [true_iff]
        rw [← hc]
        omega
      · exact ⟨⟨hc, by simp only; omega, fun h => (nomatch h), fun _ => ⟨by simp only; omega, h1, rfl⟩⟩, by simp only; omega⟩
    · have hu := updateCurrent_end (w := w) (e := { e with index := e.index + 1 }) h1
      have hn := next_eq hu (by simp only; omega)
      simp only [decide_eq_false h1] at hn
      refine ⟨false, ⟨e.container, e.index + 1, e.current⟩, ⟨c.container, c.index + 1, c.shown.outdated⟩, hn, ?_, ?_⟩
      · refine ⟨_, _, hc ▸ hl e.container, ?_, rfl⟩
        simp only [Bool.false_eq_true, false_iff]
        rw [← hc]
        omega
      · refine ⟨⟨hc, by simp only; omega, ?_, ?_⟩, by simp only; omega⟩
        · intro hn
          refine h.nothing ?_
          cases hs : c.shown <;> simp_all [Spec.Shown.outdated]
        · intro hn
          cases hs : c.shown <;> simp_all [Spec.Shown.outdated]
  · rintro w ms e c ⟨ds, ⟨⟨cs, hk, hkp⟩, ⟨cs', hv, hvp⟩⟩, hl⟩ ⟨h, h0⟩ hread
    have hc := h.container
    have hlen := (hl e.container).length
    have hkc : (w.keys.lists e.container).count = (ds e.container).keys.length := ((hk.rel _).count).trans (hkp _).count
    cases hs : c.shown with
    | unknown => exact absurd hs hread
    | nothing =>
      refine .inr ⟨?_, ?_⟩
      · show readCurrent (w, e) = _
        unfold readCurrent
        rw [members_bind]
        simp only [h.nothing hs]
      · simp only [Spec.mapCursors, hs]
    | entry =>
      obtain ⟨g0, g1, g2⟩ := h.entry hs
      obtain ⟨m, hm⟩ := Int.eq_ofNat_of_zero_le g0
      have hmk : m < (ds e.container).keys.length := by omega
      have hmv : m < (ds e.container).values.length := by omega
      have rk := hk.readElem hkp hmk e.container
      have rv := hv.readElem hvp hmv e.container
      refine .inl ⟨((ds e.container).keys[m], (ds e.container).values[m]), ?_, ?_⟩
      · show readCurrent (w, e) = _
        unfold readCurrent
        rw [members_bind]
        simp only [g2, hm]
        rw [Cpp.bind_ok (onObjects_ok (show onKeys _ w = .ok _ w by unfold onKeys; rw [rk])),
          Cpp.bind_ok (onObjects_ok (show onValues _ w = .ok _ w by unfold onValues; rw [rv]))]
        rfl
      · simp only [Spec.mapCursors, hs]
        have hi : c.index = m := by rw [← h.index]; exact hm
        refine ⟨by omega, _, _, _, _, hc ▸ hl e.container, ?_, ?_, rfl⟩
        · rw [hi, ← hc]; exact List.getElem?_eq_getElem hmk
        · rw [hi, ← hc]; exact List.getElem?_eq_getElem hmv
  · rintro w ms e c _ ⟨h, h0⟩
    exact ⟨e.index, rfl, h.index⟩
  · rintro w ms e c ⟨ds, ⟨⟨cs, hk, hkp⟩, _⟩, hl⟩ ⟨h, h0⟩
    have hkc : (w.keys.lists e.container).count = (ds e.container).keys.length := ((hk.rel _).count).trans (hkp _).count
    refine ⟨{ e with index := -1 }, ⟨c.container, -1, c.shown.outdated⟩, ⟨⟨h.container, rfl, ?_, ?_⟩, Int.le_refl _⟩, .inr ⟨?_, rfl, rfl⟩⟩
    · intro hn
      refine h.nothing ?_
      cases hs : c.shown <;> simp_all [Spec.Shown.outdated]
    · intro hn
      cases hs : c.shown <;> simp_all [Spec.Shown.outdated]
    · show reset (w, e) = _
      unfold reset
      rw [members_bind, setMembers_bind]
      exact updateCurrent_before (by simp) (by simp only; omega)
  · rintro w w' op r ms e c hR hstep ⟨h, h0⟩
    have hc := h.container
    cases hch : op.Changes c.container with
    | true =>
      simp only [Spec.mapCursors, hch, if_true]
      refine ⟨⟨hc, h.index, ?_, ?_⟩, h0⟩
      · intro hn
        refine h.nothing ?_
        cases hs : c.shown <;> simp_all [Spec.Shown.outdated]
      · intro hn
        cases hs : c.shown <;> simp_all [Spec.Shown.outdated]
    | false =>
      simp only [Spec.mapCursors, hch]
      obtain ⟨s1, s2⟩ := step_same mk mv cmp hch hstep
      rw [← hc] at s1 s2
      refine ⟨⟨hc, h.index, h.nothing, fun hs => ?_⟩, h0⟩
      obtain ⟨g0, g1, g2⟩ := h.entry hs
      refine ⟨g0, ?_, ?_⟩
      · rw [s1]; exact g1
      · rw [s1, s2]; exact g2

end DictEnum
end Vlpp
