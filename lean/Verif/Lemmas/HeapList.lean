import Verif.Lemmas.HeapMem

/-! # Lists on the heap do what lists that contain their buffer do -/
set_option autoImplicit false
namespace Vlpp
variable {α β γ κ σ τ υ : Type}

theorem Refines.trans {R : σ → τ → Prop} {S : τ → υ → Prop} {o1 : Outcome σ β} {o2 : Outcome τ β} {o3 : Outcome υ β}
    (h1 : Refines R o1 o2) (h2 : Refines S o2 o3) : Refines (fun s u => ∃ t, R s t ∧ S t u) o1 o3 := by
  cases h2 with
  | ok h2 => cases h1 with | ok h1 => exact .ok ⟨_, h1, h2⟩
  | err h2 => cases h1 with | err h1 => exact .err ⟨_, h1, h2⟩
  | fault => exact .fault

theorem Cpp.Refines.trans {R : σ → τ → Prop} {S : τ → υ → Prop} {m1 : Cpp σ β} {m2 : Cpp τ β} {m3 : Cpp υ β}
    (h1 : Cpp.Refines R m1 m2) (h2 : Cpp.Refines S m2 m3) : Cpp.Refines (fun s u => ∃ t, R s t ∧ S t u) m1 m3 := by
  rintro s u ⟨t, hr, hs⟩
  exact (h1 s t hr).trans (h2 t u hs)

namespace ListH
open Heap

/-- the list `s.2` on the heap `s.1` is the list `c`; `F` are the blocks of others -/
structure Rel (F : Nat → Option (Block α)) (s : Heap α × ListH) (c : ListC α) : Prop where
  own : Own F s.1 s.2.buffer c.buffer
  count : s.2.count = c.count
  capacity : s.2.capacity = c.capacity

variable {F : Nat → Option (Block α)}

theorem onHeap_ok {m : Cpp (Heap α) β} {h h' : Heap α} {l : ListH} {v : β} (e : m h = .ok v h') :
    onHeap m (h, l) = .ok v (h', l) := by simp [onHeap, e]

theorem Rel.view {s : Heap α × ListH} {c : ListC α} (h : Rel F s c) : view s = some c := by
  obtain ⟨hp, l⟩ := s
  obtain ⟨p, cnt, cap⟩ := l
  cases c with
  | mk b cnt' cap' =>
    have h1 := h.own.at'
    have h2 := h.count
    have h3 := h.capacity
    simp only at h1 h2 h3
    subst h2 h3
    cases p with
    | none => rw [show b = Block.null from h1]; rfl
    | some a =>
      have : hp.block a = some b := h1
      simp [ListH.view, this]

/-- the function changes nothing -/
def ReadOnly (m : Cpp (ListC α) β) : Prop := ∀ c, (∃ v, m c = .ok v c) ∨ m c = .err c ∨ m c = .fault

theorem reading_refines {m : Cpp (ListC α) β} (hm : ReadOnly m) : Cpp.Refines (Rel F) (reading m) m := by
  intro s c h
  unfold reading
  rw [h.view]
  rcases hm c with ⟨v, e⟩ | e | e <;> simp only [e]
  · exact .ok h
  · exact .err h
  · exact .fault

theorem readOnly_mem (f : ListC α → MemRes β) : ReadOnly (do let s ← Cpp.get; ListC.mem (f s)) := by
  intro c
  rw [Cpp.bind_ok (Cpp.get_apply c)]
  unfold ListC.mem
  cases f c with
  | none => exact .inr (.inr rfl)
  | some v => exact .inl ⟨v, rfl⟩

theorem ReadOnly.bind {m : Cpp (ListC α) β} {f : β → Cpp (ListC α) γ} (hm : ReadOnly m) (hf : ∀ v, ReadOnly (f v)) :
    ReadOnly (m >>= f) := by
  intro c
  rcases hm c with ⟨v, e⟩ | e | e
  · rw [Cpp.bind_ok e]; exact hf v c
  · rw [Cpp.bind_err e]; exact .inr (.inl rfl)
  · rw [Cpp.bind_fault e]; exact .inr (.inr rfl)

theorem ReadOnly.pure (v : β) : ReadOnly (Pure.pure v : Cpp (ListC α) β) := fun _ => .inl ⟨v, rfl⟩
theorem ReadOnly.check (c : Prop) [Decidable c] : ReadOnly (Cpp.check c : Cpp (ListC α) Unit) := by
  intro s
  rw [Cpp.check_apply]
  split
  · exact .inl ⟨_, rfl⟩
  · exact .inr (.inl rfl)
theorem ReadOnly.get : ReadOnly (Cpp.get : Cpp (ListC α) (ListC α)) := fun c => .inl ⟨c, rfl⟩
theorem ReadOnly.mem (r : MemRes β) : ReadOnly (ListC.mem r : Cpp (ListC α) β) := by
  intro c
  unfold ListC.mem
  cases r with
  | none => exact .inr (.inr rfl)
  | some v => exact .inl ⟨v, rfl⟩

theorem readOnly_get (i : Int) : ReadOnly (ListC.get (α := α) i) :=
  ReadOnly.get.bind fun _ => (ReadOnly.check _).bind fun _ => .mem _
theorem readOnly_indexOf (eq : α → κ → Bool) (k : κ) : ReadOnly (ListC.indexOf eq k) :=
  ReadOnly.get.bind fun _ => .mem _
theorem readOnly_contains (eq : α → κ → Bool) (k : κ) : ReadOnly (ListC.contains eq k) :=
  (readOnly_indexOf eq k).bind fun _ => .pure _
theorem readOnly_indexOfInternal (cmp : α → κ → Option Ordering) (k : κ) :
    ReadOnly (SortedListC.indexOfInternal cmp k) := by
  refine ReadOnly.get.bind fun s c => ?_
  unfold SortedListC.liftSearch
  cases searchLoop (ListC.readVal s.buffer) cmp k 0 (s.count - 1) (-1) with
  | ok v u => exact .inl ⟨v, rfl⟩
  | err u => exact .inr (.inl rfl)
  | fault => exact .inr (.inr rfl)
theorem readOnly_sortedIndexOf (cmp : α → κ → Option Ordering) (k : κ) : ReadOnly (SortedListC.indexOf cmp k) :=
  (readOnly_indexOfInternal cmp k).bind fun _ => .pure _
theorem readOnly_sortedContains (cmp : α → κ → Option Ordering) (k : κ) : ReadOnly (SortedListC.contains cmp k) :=
  (readOnly_sortedIndexOf cmp k).bind fun _ => .pure _

theorem insertRaw_refines (mv : Option α → Option α) (i : Int) (v : α) :
    Cpp.Refines (Rel F) (insertRaw mv i v) (SortedListC.insertRaw mv i v) := by
  rintro ⟨h, l⟩ c hr
  unfold insertRaw SortedListC.insertRaw
  rw [Cpp.bind_ok (Cpp.get_apply c), Cpp.bind_ok (m := members) (a := l) (s' := (h, l)) rfl]
  cases e1 : Mem.insertUninitializedItems mv c.buffer c.capacity c.count i 1 with
  | none => rw [Cpp.bind_fault (m := ListC.mem none) (s := c) rfl]; exact .fault
  | some r =>
    obtain ⟨b, cap, cnt⟩ := r
    rw [Cpp.bind_ok (m := ListC.mem _) (a := (b, cap, cnt)) (s' := c) rfl]
    simp only
    obtain ⟨p', h', g, o⟩ := insertUninitializedItems_sim hr.own e1
    rw [← hr.count, ← hr.capacity] at g
    rw [Cpp.bind_ok (onHeap_ok g)]
    simp only
    cases e2 : Mem.construct b i (some v) with
    | none => rw [Cpp.bind_fault (m := ListC.mem none) (s := c) rfl]; exact .fault
    | some b2 =>
      rw [Cpp.bind_ok (m := ListC.mem _) (a := b2) (s' := c) rfl]
      obtain ⟨g2, s2⟩ := construct_sim o.at' e2
      rw [Cpp.bind_ok (onHeap_ok g2)]
      exact .ok ⟨o.wr s2, rfl, rfl⟩

theorem members_refines {f : ListH → Cpp (Heap α × ListH) β} {g : ListC α → Cpp (ListC α) β}
    (hf : ∀ h l c, Rel F (h, l) c → Refines (Rel F) (f l (h, l)) (g c c)) :
    Cpp.Refines (Rel F) (members >>= f) (Cpp.get >>= g) := by
  rintro ⟨h, l⟩ c hr
  exact hf h l c hr

theorem check_step {c : Prop} [Decidable c] {h : Heap α} {l : ListH} {d : ListC α} (hr : Rel F (h, l) d)
    {f : Unit → Cpp (Heap α × ListH) β} {g : Unit → Cpp (ListC α) β}
    (hf : c → Refines (Rel F) (f () (h, l)) (g () d)) :
    Refines (Rel F) ((Cpp.check c >>= f) (h, l)) ((Cpp.check c >>= g) d) := by
  by_cases hc : c
  · rw [Cpp.bind_ok (Cpp.check_true hc _), Cpp.bind_ok (Cpp.check_true hc _)]; exact hf hc
  · rw [Cpp.bind_err (Cpp.check_false hc _), Cpp.bind_err (Cpp.check_false hc _)]; exact .err hr

theorem insert_refines (mv : Option α → Option α) (i : Int) (v : α) :
    Cpp.Refines (Rel F) (insert mv i v) (ListC.insert mv i v) := by
  refine members_refines fun h l c hr => ?_
  rw [show l.count = c.count from hr.count]
  exact check_step hr fun _ => insertRaw_refines mv i v (h, l) c hr

theorem add_refines (mv : Option α → Option α) (v : α) :
    Cpp.Refines (Rel F) (add mv v) (ListC.add mv v) := by
  refine members_refines fun h l c hr => ?_
  rw [show l.count = c.count from hr.count]
  exact insert_refines mv c.count v (h, l) c hr

theorem setAt_refines (i : Int) (v : α) : Cpp.Refines (Rel F) (setAt i v) (ListC.setAt i v) := by
  refine members_refines fun h l c hr => ?_
  rw [show l.count = c.count from hr.count]
  refine check_step hr fun _ => ?_
  cases e : Mem.assign c.buffer i (some v) with
  | none => rw [Cpp.bind_fault (m := ListC.mem none) (s := c) rfl]; exact .fault
  | some b =>
    rw [Cpp.bind_ok (m := ListC.mem _) (a := b) (s' := c) rfl]
    obtain ⟨g, s⟩ := assign_sim hr.own.at' e
    rw [Cpp.bind_ok (onHeap_ok g)]
    exact .ok ⟨hr.own.wr s, hr.count, hr.capacity⟩

/-- the common part of `RemoveAt` and `RemoveRange` -/
theorem removeCore_refines (mv : Option α → Option α) {d s n new : Int} {h : Heap α} {l : ListH} {c : ListC α}
    (hr : Rel F (h, l) c) :
    Refines (Rel F)
      ((do
        onHeap (Heap.callMoveAssignmentsOverlapped mv l.buffer d s n)
        let (p, cap) ← onHeap (Heap.releaseUnnecessaryBuffer mv l.buffer l.capacity l.count new)
        setMembers ⟨p, new, cap⟩
        return true : Cpp (Heap α × ListH) Bool) (h, l))
      ((do
        let b ← ListC.mem (Mem.callMoveAssignmentsOverlapped mv c.buffer d s n)
        let (b, cap) ← ListC.mem (Mem.releaseUnnecessaryBuffer mv b c.capacity c.count new)
        Cpp.set ⟨b, new, cap⟩
        return true : Cpp (ListC α) Bool) c) := by
  cases e : Mem.callMoveAssignmentsOverlapped mv c.buffer d s n with
  | none => rw [Cpp.bind_fault (m := ListC.mem none) (s := c) rfl]; exact .fault
  | some b =>
    rw [Cpp.bind_ok (m := ListC.mem _) (a := b) (s' := c) rfl]
    obtain ⟨g, s1⟩ := callMoveAssignmentsOverlapped_sim hr.own.at' e
    rw [Cpp.bind_ok (onHeap_ok g)]
    cases e2 : Mem.releaseUnnecessaryBuffer mv b c.capacity c.count new with
    | none => rw [Cpp.bind_fault (m := ListC.mem none) (s := c) rfl]; exact .fault
    | some r =>
      obtain ⟨b2, cap⟩ := r
      rw [Cpp.bind_ok (m := ListC.mem _) (a := (b2, cap)) (s' := c) rfl]
      obtain ⟨p', h', g2, o⟩ := releaseUnnecessaryBuffer_sim (hr.own.wr s1) e2
      rw [← hr.count, ← hr.capacity] at g2
      rw [Cpp.bind_ok (onHeap_ok g2)]
      exact .ok ⟨o, rfl, rfl⟩

theorem removeAt_refines (mv : Option α → Option α) (i : Int) :
    Cpp.Refines (Rel F) (removeAt mv i) (ListC.removeAt mv i) := by
  refine members_refines fun h l c hr => ?_
  have hc : l.count = c.count := hr.count
  have := removeCore_refines mv (d := i) (s := i + 1) (n := c.count - i - 1) (new := c.count - 1) hr
  rw [hc] at this ⊢
  refine check_step (c := i ≥ 0 ∧ i < c.count) hr fun _ => ?_
  exact this

theorem removeRange_refines (mv : Option α → Option α) (i n : Int) :
    Cpp.Refines (Rel F) (removeRange mv i n) (ListC.removeRange mv i n) := by
  refine members_refines fun h l c hr => ?_
  have hc : l.count = c.count := hr.count
  have := removeCore_refines mv (d := i) (s := i + n) (n := c.count - i - n) (new := c.count - n) hr
  rw [hc] at this ⊢
  refine check_step (c := i ≥ 0 ∧ i ≤ c.count) hr fun _ => ?_
  refine check_step (c := i + n ≥ 0 ∧ i + n ≤ c.count) hr fun _ => ?_
  exact this

theorem remove_refines (mv : Option α → Option α) (eq : α → κ → Bool) (k : κ) :
    Cpp.Refines (Rel F) (remove mv eq k) (ListC.remove mv eq k) := by
  refine Cpp.Refines.bind (reading_refines (readOnly_indexOf eq k)) fun i => members_refines fun h l c hr => ?_
  rw [show l.count = c.count from hr.count]
  split
  · exact Cpp.Refines.bind (removeAt_refines mv i) (fun _ => .pure _) (h, l) c hr
  · exact .ok hr

theorem sortedRemove_refines (mv : Option α → Option α) (cmp : α → κ → Option Ordering) (k : κ) :
    Cpp.Refines (Rel F) (sortedRemove mv cmp k) (SortedListC.remove mv cmp k) := by
  refine Cpp.Refines.bind (reading_refines (readOnly_sortedIndexOf cmp k)) fun i => members_refines fun h l c hr => ?_
  rw [show l.count = c.count from hr.count]
  split
  · exact Cpp.Refines.bind (removeAt_refines mv i) (fun _ => .pure _) (h, l) c hr
  · exact .ok hr

theorem sortedAdd_refines (mv : Option α → Option α) (cmp : α → κ → Option Ordering) (key : α → κ) (v : α) :
    Cpp.Refines (Rel F) (sortedAdd mv cmp key v) (SortedListC.add mv cmp key v) := by
  refine members_refines fun h l c hr => ?_
  rw [show l.count = c.count from hr.count]
  split
  · exact insertRaw_refines mv 0 v (h, l) c hr
  · have h1 := reading_refines (F := F) (readOnly_indexOfInternal cmp (key v)) (h, l) c hr
    rcases readOnly_indexOfInternal cmp (key v) c with ⟨r, e⟩ | e | e
    · have e' : reading (SortedListC.indexOfInternal cmp (key v)) (h, l) = .ok r (h, l) := by
        simp [reading, hr.view, e]
      rw [Cpp.bind_ok e', Cpp.bind_ok e]
      refine check_step hr fun hc => ?_
      cases e2 : ListC.readVal c.buffer r.2 with
      | none => rw [Cpp.bind_fault (m := ListC.mem none) (s := c) rfl]; exact .fault
      | some x =>
        rw [Cpp.bind_ok (m := ListC.mem _) (a := x) (s' := c) rfl]
        have e3 : ListC.get r.2 c = .ok x c := by
          unfold ListC.get
          rw [Cpp.bind_ok (Cpp.get_apply c), Cpp.bind_ok (Cpp.check_true hc _), e2]; rfl
        rw [Cpp.bind_ok (m := reading (ListC.get r.2)) (a := x) (s' := (h, l)) (by simp [reading, hr.view, e3])]
        split
        · exact insertRaw_refines mv _ v (h, l) c hr
        · exact insertRaw_refines mv _ v (h, l) c hr
    · rw [Cpp.bind_err e, Cpp.bind_err (s' := (h, l)) (by simp [reading, hr.view, e])]
      exact .err hr
    · rw [Cpp.bind_fault e]; exact .fault

theorem clear_refines : Cpp.Refines (Rel F) clear (ListC.clear (α := α)) := by
  refine members_refines fun h l c hr => ?_
  rw [show l.count = c.count from hr.count]
  cases e : Mem.callDtors c.buffer 0 c.count.toNat with
  | none => rw [Cpp.bind_fault (m := ListC.mem none) (s := c) rfl]; exact .fault
  | some b =>
    rw [Cpp.bind_ok (m := ListC.mem _) (a := b) (s' := c) rfl]
    obtain ⟨g, s⟩ := callDtors_sim _ hr.own.at' e
    rw [Cpp.bind_ok (onHeap_ok g)]
    cases e2 : Mem.deallocateBuffer b with
    | none => rw [Cpp.bind_fault (m := ListC.mem none) (s := c) rfl]; exact .fault
    | some u =>
      rw [Cpp.bind_ok (m := ListC.mem _) (a := u) (s' := c) rfl]
      obtain ⟨h', g2, o, -⟩ := deallocateBuffer_sim (hr.own.wr s) e2
      rw [Cpp.bind_ok (onHeap_ok g2)]
      exact .ok ⟨o, rfl, rfl⟩

/-- The destructor releases the block; the members keep their values. -/
theorem destructor_ok {h : Heap α} {l : ListH} {c c' : ListC α} (hr : Rel F (h, l) c)
    (hd : ListC.destructor c = .ok () c') :
    ∃ h', destructor (h, l) = .ok () (h', l) ∧ Own F h' none Block.null := by
  unfold ListC.destructor at hd
  rw [Cpp.bind_ok (Cpp.get_apply c)] at hd
  unfold destructor
  rw [Cpp.bind_ok (m := members) (a := l) (s' := (h, l)) rfl, show l.count = c.count from hr.count]
  by_cases hz : c.buffer.size = 0
  · have hn : l.buffer = none := hr.own.null_iff.2 hz
    refine ⟨h, by rw [if_neg (by simp [hn])]; rfl, ?_⟩
    have o := hr.own
    simp only [hn] at o
    rw [show c.buffer = Block.null from o.at'] at o
    exact o
  · rw [if_pos hz] at hd
    rw [if_pos (fun hc => hz (hr.own.null_iff.1 hc))]
    cases e : Mem.callDtors c.buffer 0 c.count.toNat with
    | none => rw [e, Cpp.bind_fault (m := ListC.mem none) (s := c) rfl] at hd; cases hd
    | some b =>
      rw [e, Cpp.bind_ok (m := ListC.mem _) (a := b) (s' := c) rfl] at hd
      obtain ⟨g, s⟩ := callDtors_sim _ hr.own.at' e
      rw [Cpp.bind_ok (onHeap_ok g)]
      cases e2 : Mem.deallocateBuffer b with
      | none => rw [e2] at hd; cases hd
      | some u =>
        obtain ⟨h', g2, o, -⟩ := deallocateBuffer_sim (hr.own.wr s) e2
        exact ⟨h', onHeap_ok g2, o⟩

end ListH
end Vlpp
