import Verif.Model.HeapThrow
import Verif.Lemmas.HeapArray
import Verif.Props.HeapListProps
import Verif.Lemmas.HeapRef

/-! # Lists and arrays whose elements throw -/
set_option autoImplicit false
namespace Vlpp
open Spec (CopyFate)
variable {α β κ : Type}

/-- the outcome when an exception follows -/
def Outcome.thrown {σ β γ : Type} : Outcome σ β → Outcome σ γ
  | .ok _ s => .err s
  | .err s => .err s
  | .fault => .fault

namespace Heap

/-- An object is destroyed where there is none. -/
theorem callDtors_fault {p : Ptr} {h : Heap α} {b : Block α} (hb : At h p b) {i n : Nat} (hi : i < n)
    (hlive : ∀ j : Int, 0 ≤ j → j < i → b.In j ∧ (b.cell j).isRaw = false) (hraw : b.cell i = .raw) :
    callDtors p 0 n h = .fault := by
  induction n with
  | zero => omega
  | succ n ih =>
    unfold callDtors
    by_cases hn : i < n
    · exact Cpp.bind_fault (ih hn)
    · have : i = n := by omega
      subst this
      obtain ⟨b', e, hs, hc⟩ := Mem.callDtors_ok b 0 i (fun j h1 h2 => hlive j h1 (by omega))
      obtain ⟨g, s⟩ := callDtors_sim i hb e
      rw [Cpp.bind_ok g]
      have hc' : b'.cell (0 + i) = .raw := by
        rw [hc, if_neg (by omega), Int.zero_add]; exact hraw
      have hd : Mem.destroy b' (0 + i) = none := by
        unfold Mem.destroy
        rw [hc']
        split
        · next hh => simp [Cell.isRaw] at hh
        · rfl
      have hb' := hb.wr s
      unfold destroy access
      cases p with
      | none => rfl
      | some a =>
        have ha : (h.wr (some a) b').block a = some b' := hb'
        simp only [ha, hd, Option.map_none]

end Heap

namespace ListH
open Heap ListWorld
variable {F : Nat → Option (Block α)}

/-- `count` includes cell `i`, which has no element. -/
structure Broken (c : ListC α) (i : Nat) : Prop where
  lt : (i : Int) < c.count
  inside : c.buffer.In i
  live : ∀ j : Int, 0 ≤ j → j < i → c.buffer.In j ∧ (c.buffer.cell j).isRaw = false
  raw : c.buffer.cell i = .raw

theorem Broken.dtors {s : Heap α × ListH} {c : ListC α} {i : Nat} (hb : Broken c i) (hr : Rel F s c) :
    Heap.callDtors s.2.buffer 0 s.2.count.toNat s.1 = .fault := by
  have := hr.count
  exact callDtors_fault hr.own.at' (by have := hb.lt; omega) hb.live hb.raw

theorem Broken.buffer {s : Heap α × ListH} {c : ListC α} {i : Nat} (hb : Broken c i) (hr : Rel F s c) : s.2.buffer ≠ none := by
  intro hn
  have h := hr.own.at'
  rw [hn] at h
  have hin := hb.inside
  rw [show c.buffer = Block.null from h] at hin
  exact not_in_null _ hin

theorem onHeap_fault {m : Cpp (Heap α) β} {s : Heap α × ListH} (e : m s.1 = .fault) : onHeap m s = .fault := by
  simp [onHeap, e]

theorem Broken.destructor {s : Heap α × ListH} {c : ListC α} {i : Nat} (hb : Broken c i) (hr : Rel F s c) :
    ListH.destructor s = .fault := by
  obtain ⟨h, l⟩ := s
  unfold ListH.destructor
  rw [members_bind, if_pos (hb.buffer hr)]
  exact Cpp.bind_fault (onHeap_fault (hb.dtors hr))

theorem Broken.clear {s : Heap α × ListH} {c : ListC α} {i : Nat} (hb : Broken c i) (hr : Rel F s c) :
    ListH.clear s = .fault := by
  obtain ⟨h, l⟩ := s
  unfold ListH.clear
  rw [members_bind]
  exact Cpp.bind_fault (onHeap_fault (hb.dtors hr))

theorem Broken.get {s : Heap α × ListH} {c : ListC α} {i : Nat} (hb : Broken c i) (hr : Rel F s c) :
    reading (ListC.get i) s = .fault := by
  obtain ⟨h, l⟩ := s
  have hn := hb.buffer hr
  have ha := hr.own.at'
  cases hp : l.buffer with
  | none => exact absurd hp hn
  | some a =>
    simp only [hp] at ha
    have hv : view (h, l) = some ⟨c.buffer, l.count, l.capacity⟩ := by
      have : h.block a = some c.buffer := ha
      simp [view, hp, this]
    have hi : (i : Int) ≥ 0 ∧ (i : Int) < l.count := ⟨by omega, by have := hr.count; have := hb.lt; simp only at *; omega⟩
    unfold reading
    rw [hv]
    simp only
    unfold ListC.get
    rw [Cpp.bind_ok (Cpp.get_apply _)]
    simp only
    rw [Cpp.bind_ok (Cpp.check_true hi _)]
    have : ListC.readVal c.buffer i = none := by
      simp [ListC.readVal, Mem.read, hb.raw]
    rw [this]
    rfl

/-- no exception: the other model -/
theorem insertRawT_eq (mv : Option α → Option α) (i : Int) (v : α) {f : CopyFate α} (hf : ∀ t, f ≠ .throws 0 t) :
    insertRawT mv i v f = insertRaw mv i v := by
  funext ⟨h, l⟩
  unfold insertRawT insertRaw
  rw [members_bind, members_bind]
  cases e : onHeap (Heap.insertUninitializedItems mv l.buffer l.capacity l.count i 1) (h, l) with
  | fault => rw [Cpp.bind_fault e, Cpp.bind_fault e]
  | err _ => rw [Cpp.bind_err e, Cpp.bind_err e]
  | ok r s1 =>
    obtain ⟨h1, l1⟩ := s1
    rw [Cpp.bind_ok e, Cpp.bind_ok e]
    simp only
    rw [Cpp.bind_ok (m := setMembers _) (a := ()) (s' := (h1, ⟨r.1, r.2.2, r.2.1⟩)) rfl]
    have hne : ∀ h2, Heap.construct r.1 i (some v) h1 ≠ .err h2 := by
      intro h2
      unfold Heap.construct Heap.access
      repeat' split
      all_goals simp
    have hcont : (do onHeap (Heap.construct r.1 i (some v)); return i : Cpp (Heap α × ListH) Int) (h1, ⟨r.1, r.2.2, r.2.1⟩) =
        (do onHeap (Heap.construct r.1 i (some v)); setMembers ⟨r.1, r.2.2, r.2.1⟩; return i : Cpp (Heap α × ListH) Int) (h1, l1) := by
      cases e2 : Heap.construct r.1 i (some v) h1 with
      | ok u h2 => rw [Cpp.bind_ok (onHeap_ok e2), Cpp.bind_ok (onHeap_ok e2)]; rfl
      | err h2 => exact absurd e2 (hne h2)
      | fault => rw [Cpp.bind_fault (onHeap_fault e2), Cpp.bind_fault (onHeap_fault e2)]
    cases f with
    | completes => exact hcont
    | throws k t =>
      cases k with
      | zero => exact absurd rfl (hf t)
      | succ k => exact hcont

theorem insertT_eq (mv : Option α → Option α) (i : Int) (v : α) {f : CopyFate α} (hf : ∀ t, f ≠ .throws 0 t) :
    insertT mv i v f = insert mv i v := by
  unfold insertT insert
  rw [insertRawT_eq mv i v hf]

theorem addT_eq (mv : Option α → Option α) (v : α) {f : CopyFate α} (hf : ∀ t, f ≠ .throws 0 t) :
    addT mv v f = add mv v := by
  unfold addT add
  funext ⟨h, l⟩
  rw [members_bind, members_bind, insertT_eq mv _ v hf]

theorem sortedAddT_eq (mv : Option α → Option α) (cmp : α → κ → Option Ordering) (key : α → κ) (v : α) {f : CopyFate α}
    (hf : ∀ t, f ≠ .throws 0 t) : sortedAddT mv cmp key v f = sortedAdd mv cmp key v := by
  unfold sortedAddT sortedAdd
  simp only [insertRawT_eq mv _ v hf]

theorem setAtT_eq (i : Int) (v : α) {f : CopyFate α} (hf : ∀ t, f ≠ .throws 0 t) : setAtT i v f = setAt i v := by
  unfold setAtT setAt
  cases f with
  | completes => rfl
  | throws k t =>
    cases k with
    | zero => exact absurd rfl (hf t)
    | succ k => rfl

/-- an assignment that throws -/
theorem setAtT_throws (i : Int) (v t : α) (s : Heap α × ListH) :
    setAtT i v (.throws 0 t) s = (setAt i t s).thrown := by
  obtain ⟨h, l⟩ := s
  unfold setAtT setAt
  rw [members_bind, members_bind]
  by_cases hi : i ≥ 0 ∧ i < l.count
  · rw [Cpp.bind_ok (Cpp.check_true hi _), Cpp.bind_ok (Cpp.check_true hi _)]
    simp only
    cases e : onHeap (Heap.assign l.buffer i (some t)) (h, l) with
    | fault => rw [Cpp.bind_fault e, Cpp.bind_fault e]; rfl
    | err _ => rw [Cpp.bind_err e, Cpp.bind_err e]; rfl
    | ok r s1 => rw [Cpp.bind_ok e, Cpp.bind_ok e]; rfl
  · rw [Cpp.bind_err (Cpp.check_false hi _), Cpp.bind_err (Cpp.check_false hi _)]; rfl

/-- an insertion that throws -/
theorem insertRawT_throws (mv : Option α → Option α) {h : Heap α} {l : ListH} {c : ListC α} {xs : List α} (hr : Rel F (h, l) c)
    (hx : ListC.Repr c xs) {i : Nat} (hi : i ≤ xs.length) (v t : α) :
    ∃ s' c', insertRawT mv i v (.throws 0 t) (h, l) = .err s' ∧ Rel F s' c' ∧ Broken c' i := by
  have hc : l.count = c.count := hr.count
  have hcap : l.capacity = c.capacity := hr.capacity
  have hcx := hx.count
  obtain ⟨b, cap, e, hs, hle, _, hlo, hraw, _, _⟩ := ListC.insertUninitializedItems_ok mv hx i 1 (by omega) (by omega) (by omega)
  obtain ⟨p', h', g, o⟩ := insertUninitializedItems_sim hr.own e
  simp only [Int.natCast_one] at g hle
  rw [← hc, ← hcap] at g
  refine ⟨(h', ⟨p', l.count + 1, cap⟩), ⟨b, c.count + 1, cap⟩, ?_, ⟨o, by simp only; omega, rfl⟩, ?_, ?_, ?_, ?_⟩
  · unfold insertRawT
    rw [members_bind, Cpp.bind_ok (onHeap_ok g)]
    rfl
  · show (i : Int) < c.count + 1
    omega
  · exact ⟨by omega, by show (i : Int) < b.size; omega⟩
  · intro j h0 h1
    refine ⟨⟨h0, by show j < b.size; omega⟩, ?_⟩
    show (b.cell j).isRaw = false
    rw [hlo j h0 h1]; rfl
  · exact hraw i (by omega) (by omega)

theorem insertT_throws (mv : Option α → Option α) {h : Heap α} {l : ListH} {c : ListC α} {xs : List α} (hr : Rel F (h, l) c)
    (hx : ListC.Repr c xs) {i : Nat} (hi : i ≤ xs.length) (v t : α) :
    ∃ s' c', insertT mv i v (.throws 0 t) (h, l) = .err s' ∧ Rel F s' c' ∧ Broken c' i := by
  have hc : l.count = c.count := hr.count
  have hcx := hx.count
  unfold insertT
  rw [members_bind, Cpp.bind_ok (Cpp.check_true ⟨by omega, by omega⟩ _)]
  exact insertRawT_throws mv hr hx hi v t

theorem insertT_refused (mv : Option α → Option α) {h : Heap α} {l : ListH} {c : ListC α} {xs : List α} (hr : Rel F (h, l) c)
    (hx : ListC.Repr c xs) {i : Int} (hi : ¬ (0 ≤ i ∧ i ≤ xs.length)) (v : α) (f : CopyFate α) :
    insertT mv i v f (h, l) = .err (h, l) := by
  have hc : l.count = c.count := hr.count
  have hcx := hx.count
  unfold insertT
  rw [members_bind, Cpp.bind_err (Cpp.check_false (by omega) _)]

/-- the position at which a sorted list inserts -/
theorem sortedAdd_position (mv : Option α → Option α) (cmp : α → κ → Option Ordering) (key : α → κ) {h : Heap α} {l : ListH}
    {c : ListC α} {xs : List α} (hr : Rel F (h, l) c) (hx : ListC.Repr c xs) (v : α) {n : Int} {s' : Heap α × ListH}
    (e : sortedAdd mv cmp key v (h, l) = .ok n s') (f : CopyFate α) :
    ∃ i : Nat, i ≤ xs.length ∧ sortedAddT mv cmp key v f (h, l) = insertRawT mv i v f (h, l) := by
  have hc : l.count = c.count := hr.count
  have hcx := hx.count
  unfold sortedAdd at e
  rw [members_bind] at e
  unfold sortedAddT
  rw [members_bind]
  by_cases h0 : l.count = 0
  · rw [if_pos h0]
    exact ⟨0, by omega, rfl⟩
  · rw [if_neg h0] at e ⊢
    obtain ⟨q, s1, e1, e⟩ := Cpp.bind_eq_ok e
    cases reading_state e1
    obtain ⟨u, s2, e2, e⟩ := Cpp.bind_eq_ok e
    have hi : q.2 ≥ 0 ∧ q.2 < l.count := Classical.byContradiction fun hn => by
      rw [Cpp.check_false hn] at e2; cases e2
    rw [Cpp.check_true hi] at e2
    cases e2
    obtain ⟨x, s3, e3, e⟩ := Cpp.bind_eq_ok e
    cases reading_state e3
    rw [Cpp.bind_ok e1, Cpp.bind_ok (Cpp.check_true hi _), Cpp.bind_ok e3]
    split
    · exact ⟨(q.2 + 1).toNat, by omega, by rw [Int.toNat_of_nonneg (by omega)]⟩
    · exact ⟨q.2.toNat, by omega, by rw [Int.toNat_of_nonneg (by omega)]⟩

end ListH
end Vlpp
