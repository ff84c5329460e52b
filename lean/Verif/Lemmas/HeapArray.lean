import Verif.Model.HeapArray
import Verif.Lemmas.ListWorld
import Verif.Props.ArrayProps

/-! # Arrays on a heap do what arrays that contain their buffer do -/
set_option autoImplicit false
namespace Vlpp
variable {α β κ : Type}

namespace Heap

theorem callDefaultCtors_sim {dflt : Option α} {p : Ptr} {d : Int} (n : Nat) {h : Heap α} {b b' : Block α} (hb : At h p b)
    (hf : Mem.callDefaultCtors dflt b d n = some b') :
    callDefaultCtors dflt p d n h = .ok () (h.wr p b') ∧ Same p b b' := by
  induction n generalizing b' with
  | zero =>
    cases hf
    exact ⟨by rw [wr_self hb]; rfl, .refl p b⟩
  | succ n ih =>
    simp only [Mem.callDefaultCtors, Option.bind_eq_bind, Option.bind_eq_some_iff] at hf
    obtain ⟨b1, e1, e2⟩ := hf
    obtain ⟨g1, s1⟩ := ih e1
    obtain ⟨g2, s2⟩ := construct_sim (hb.wr s1) e2
    refine ⟨?_, s1.trans s2⟩
    unfold callDefaultCtors
    rw [Cpp.bind_ok g1, g2, wr_wr]

theorem callCopyCtors_sim {src : Int → Option α} {p : Ptr} (n : Nat) {h : Heap α} {b b' : Block α} (hb : At h p b)
    (hf : ArrayC.copyFrom b src n = some b') :
    callCopyCtors p src n h = .ok () (h.wr p b') ∧ Same p b b' := by
  induction n generalizing b' with
  | zero =>
    cases hf
    exact ⟨by rw [wr_self hb]; rfl, .refl p b⟩
  | succ n ih =>
    simp only [ArrayC.copyFrom, Option.bind_eq_bind, Option.bind_eq_some_iff] at hf
    obtain ⟨b1, e1, e2⟩ := hf
    obtain ⟨g1, s1⟩ := ih e1
    obtain ⟨g2, s2⟩ := construct_sim (hb.wr s1) e2
    refine ⟨?_, s1.trans s2⟩
    unfold callCopyCtors
    rw [Cpp.bind_ok g1, g2, wr_wr]

/-- allocating a block where there is none -/
theorem Own.alloc {F : Nat → Option (Block α)} {h : Heap α} (ho : Own F h none Block.null) (size : Int) :
    ∃ q h', allocateBuffer size h = .ok q h' ∧ Own F h' q (Mem.allocateBuffer size) := by
  obtain ⟨q, h', e, _, _, o⟩ := allocateBuffer_sim ho size
  have : (fun a => h.block a) = F := by funext a; exact ho.frame a (by simp)
  rw [this] at o
  exact ⟨q, h', e, o⟩

end Heap

namespace ArrayH
open Heap ListWorld
open ListH (onHeap members setMembers reading onHeap_ok)

/-- the members of an array that contains its buffer -/
def Repr (c : ListC α) (ys : List (Option α)) : Prop := c.capacity = 0 ∧ ArrayC.Repr ⟨c.buffer, c.count⟩ ys

theorem holding : Holding (Repr (α := α)) [] := by
  refine ⟨⟨rfl, ArrayC.Repr.null⟩, ?_⟩
  rintro c ys ⟨_, h⟩
  have hd := ArrayC.destructor_ok h
  unfold ArrayC.destructor at hd
  rw [Cpp.bind_ok (Cpp.get_apply _)] at hd
  unfold ListC.destructor
  rw [Cpp.bind_ok (Cpp.get_apply _)]
  split
  · next hz =>
    rw [if_pos hz] at hd
    simp only at hd
    cases e1 : Mem.callDtors c.buffer 0 c.count.toNat with
    | none => rw [e1, Cpp.bind_fault (m := ArrayC.mem none) rfl] at hd; cases hd
    | some b =>
      rw [e1, Cpp.bind_ok (m := ArrayC.mem _) (a := b) (s' := ⟨c.buffer, c.count⟩) rfl] at hd
      cases e2 : Mem.deallocateBuffer b with
      | none => rw [e2] at hd; cases hd
      | some u =>
        rw [Cpp.bind_ok (m := ListC.mem _) (a := b) (s' := c) rfl, e2]
        exact ⟨c, rfl⟩
  · exact ⟨c, rfl⟩

variable {F : Nat → Option (Block α)}

theorem destroy_ok {s : Heap α × ListH} {ys : List (Option α)} (hr : RelBy Repr F s ys) :
    ∃ h, destroy s = .ok () (h, ListH.empty) ∧ Own F h none Block.null := by
  obtain ⟨c, hr, hc⟩ := hr
  obtain ⟨c', hd⟩ := holding.destroy _ _ hc
  obtain ⟨h, e, o⟩ := ListH.destructor_ok (h := s.1) (l := s.2) hr hd
  refine ⟨h, ?_, o⟩
  unfold destroy
  rw [Cpp.bind_ok e]
  rfl

theorem relBy_empty {h : Heap α} (o : Own F h none Block.null) : RelBy Repr F (h, ListH.empty) [] :=
  ⟨ListC.empty, ⟨o, rfl, rfl⟩, holding.empty⟩

theorem new_ok (d : Option α) {h : Heap α} {l : ListH} (o : Own F h none Block.null) {n : Int} (hn : 0 ≤ n) :
    ∃ s', new d n (h, l) = .ok () s' ∧ RelBy Repr F s' (List.replicate n.toNat d) := by
  obtain ⟨a, ea, hr⟩ := ArrayC.new_ok d n.toNat
  rw [Int.toNat_of_nonneg hn] at ea
  unfold ArrayC.new at ea
  rw [if_pos hn] at ea
  cases e1 : Mem.callDefaultCtors d (Mem.allocateBuffer n) 0 n.toNat with
  | none => rw [e1] at ea; cases ea
  | some b =>
    rw [e1] at ea
    cases ea
    obtain ⟨q, h', e2, o2⟩ := o.alloc n
    obtain ⟨g, s1⟩ := callDefaultCtors_sim _ o2.at' e1
    refine ⟨(h'.wr q b, ⟨q, n, 0⟩), ?_, ⟨⟨b, n, 0⟩, ⟨o2.wr s1, rfl, rfl⟩, rfl, hr⟩⟩
    unfold new
    rw [Cpp.bind_ok (Cpp.check_true hn _), Cpp.bind_ok (onHeap_ok e2), Cpp.bind_ok (onHeap_ok g)]
    rfl

theorem newFrom_ok (src : List α) {h : Heap α} {l : ListH} (o : Own F h none Block.null) {n : Int} (hn : 0 ≤ n)
    (hl : n ≤ src.length) :
    ∃ s', newFrom (fun i => src[i.toNat]?) n (h, l) = .ok () s' ∧ RelBy Repr F s' ((src.take n.toNat).map some) := by
  obtain ⟨a, ea, hr⟩ := ArrayC.newFrom_ok (fun i => src[i.toNat]?) n.toNat
  rw [Int.toNat_of_nonneg hn] at ea
  unfold ArrayC.newFrom at ea
  rw [if_pos hn] at ea
  cases e1 : ArrayC.copyFrom (Mem.allocateBuffer n) (fun i => src[i.toNat]?) n.toNat with
  | none => rw [e1] at ea; cases ea
  | some b =>
    rw [e1] at ea
    cases ea
    obtain ⟨q, h', e2, o2⟩ := o.alloc n
    obtain ⟨g, s1⟩ := callCopyCtors_sim _ o2.at' e1
    have hy : (List.range n.toNat).map (fun i : Nat => src[(i : Int).toNat]?) = (src.take n.toNat).map some := by
      apply List.ext_getElem?
      intro i
      by_cases hi : i < n.toNat
      · have : i < src.length := by omega
        simp [List.getElem?_range hi, List.getElem?_take_of_lt hi, this]
      · rw [List.getElem?_eq_none (by simp; omega), List.getElem?_eq_none (by simp; omega)]
    rw [hy] at hr
    refine ⟨(h'.wr q b, ⟨q, n, 0⟩), ?_, ⟨⟨b, n, 0⟩, ⟨o2.wr s1, rfl, rfl⟩, rfl, hr⟩⟩
    unfold newFrom
    rw [Cpp.bind_ok (Cpp.check_true hn _), Cpp.bind_ok (onHeap_ok e2), Cpp.bind_ok (onHeap_ok g)]
    rfl

/-- an array on the heap and one that contains its buffer -/
def Rel (F : Nat → Option (Block α)) (s : Heap α × ListH) (a : ArrayC α) : Prop := ListH.Rel F s ⟨a.buffer, a.count, 0⟩

theorem setAt_refines (i : Int) (v : α) : Cpp.Refines (Rel F) (setAt i v) (ArrayC.setAt i v) := by
  rintro ⟨h, l⟩ a hr
  unfold setAt ArrayC.setAt
  rw [Cpp.bind_ok (Cpp.get_apply a), Cpp.bind_ok (m := members) (a := l) (s' := (h, l)) rfl]
  rw [show l.count = a.count from hr.count]
  by_cases hc : i ≥ 0 ∧ i < a.count
  · rw [Cpp.bind_ok (Cpp.check_true hc _), Cpp.bind_ok (Cpp.check_true hc _)]
    cases e : Mem.assign a.buffer i (some v) with
    | none => rw [Cpp.bind_fault (m := ArrayC.mem none) (s := a) rfl]; exact .fault
    | some b =>
      rw [Cpp.bind_ok (m := ArrayC.mem _) (a := b) (s' := a) rfl]
      obtain ⟨g, s⟩ := assign_sim hr.own.at' e
      rw [Cpp.bind_ok (onHeap_ok g)]
      exact .ok ⟨hr.own.wr s, hr.count, hr.capacity⟩
  · rw [Cpp.bind_err (Cpp.check_false hc _), Cpp.bind_err (Cpp.check_false hc _)]
    exact .err hr

theorem get_refines (i : Int) : Cpp.Refines (Rel F) (reading (ListC.get i)) (ArrayC.get i) := by
  intro s a hr
  have := ListH.reading_refines (F := F) (ListH.readOnly_get i) s _ hr
  unfold ListC.get at this
  unfold ArrayC.get
  rw [Cpp.bind_ok (Cpp.get_apply _)] at this ⊢
  simp only at this
  by_cases hc : i ≥ 0 ∧ i < a.count
  · rw [Cpp.bind_ok (Cpp.check_true hc _)] at this ⊢
    cases e : ListC.readVal a.buffer i with
    | none => exact .fault
    | some x =>
      rw [e] at this
      generalize hg : reading _ s = o at this
      show Refines _ (reading _ s) _
      unfold ListC.get
      rw [hg]
      cases this with
      | ok h => exact .ok h
  · rw [Cpp.bind_err (Cpp.check_false hc _)] at this ⊢
    generalize hg : reading _ s = o at this
    unfold ListC.get
    rw [hg]
    cases this with
    | err h => exact .err h

theorem indexOf_refines (eq : α → κ → Bool) (k : κ) :
    Cpp.Refines (Rel F) (reading (ListC.indexOf eq k)) (ArrayC.indexOf eq k) := by
  intro s a hr
  have := ListH.reading_refines (F := F) (ListH.readOnly_indexOf eq k) s _ hr
  unfold ListC.indexOf at this ⊢
  unfold ArrayC.indexOf
  rw [Cpp.bind_ok (Cpp.get_apply _)] at this ⊢
  simp only at this
  cases e : ListC.indexOfLoop eq a.buffer k 0 a.count.toNat with
  | none => exact .fault
  | some x =>
    rw [e] at this
    generalize reading _ s = o at this ⊢
    cases this with
    | ok h => exact .ok h

theorem resize_refines (mv : Option α → Option α) (d : Option α) (n : Int) :
    Cpp.Refines (Rel F) (resize mv d n) (ArrayC.resize mv d n) := by
  rintro ⟨h, l⟩ a hr
  unfold resize ArrayC.resize
  rw [Cpp.bind_ok (Cpp.get_apply a), Cpp.bind_ok (m := members) (a := l) (s' := (h, l)) rfl]
  rw [show l.count = a.count from hr.count, show l.capacity = 0 from hr.capacity]
  by_cases hc : n ≥ 0
  · rw [Cpp.bind_ok (Cpp.check_true hc _), Cpp.bind_ok (Cpp.check_true hc _)]
    simp only
    have ho := hr.own
    simp only at ho
    obtain ⟨q, h1, g1, hq, hb, hx⟩ := allocateBuffer_sim ho n
    have hqp : ∀ c, l.buffer = some c → q ≠ some c := fun c a1 a2 => hq c a2 a1
    rw [Cpp.bind_ok (onHeap_ok g1)]
    generalize em : (if n < a.count then _ else _ : MemRes (Block α × Block α)) = r
    cases r with
    | none => rw [Cpp.bind_fault (m := ArrayC.mem none) (s := a) rfl]; exact .fault
    | some r =>
      obtain ⟨x1, b1⟩ := r
      rw [Cpp.bind_ok (m := ArrayC.mem _) (a := (x1, b1)) (s' := a) rfl]
      simp only
      have hstep : (show Cpp (Heap α × ListH) Unit from
          if n < a.count then onHeap (Heap.callMoveCtors mv q 0 l.buffer 0 n.toNat)
          else do
            onHeap (Heap.callMoveCtors mv q 0 l.buffer 0 a.count.toNat)
            onHeap (Heap.callDefaultCtors d q a.count (n - a.count).toNat)) (h1, l) =
            .ok () ((h1.wr q x1).wr l.buffer b1, l) ∧ Same q (Mem.allocateBuffer n) x1 ∧ Same l.buffer a.buffer b1 := by
        simp only at em ⊢
        split at em
        · next hlt =>
          rw [if_pos hlt]
          obtain ⟨g2, s2, t2⟩ := callMoveCtorsTo_sim hx.at' hb hq em
          exact ⟨onHeap_ok g2, s2, t2⟩
        · next hlt =>
          rw [if_neg hlt]
          simp only [Option.bind_eq_bind, Option.bind_eq_some_iff] at em
          obtain ⟨⟨x0, b0⟩, em1, x2, em2, em3⟩ := em
          simp only [Option.pure_def, Option.some.injEq, Prod.mk.injEq] at em3
          obtain ⟨rfl, rfl⟩ := em3
          simp only at em2
          obtain ⟨g2, s2, t2⟩ := callMoveCtorsTo_sim hx.at' hb hq em1
          have hx1 := (hx.at'.wr s2).wr_other (c := b0) hq
          obtain ⟨g3, s3⟩ := callDefaultCtors_sim _ hx1 em2
          refine ⟨?_, s2.trans s3, t2⟩
          rw [Cpp.bind_ok (onHeap_ok g2), onHeap_ok g3, wr_comm (p := l.buffer) (q := q) hqp, wr_wr]
      obtain ⟨g2, s2, t2⟩ := hstep
      rw [Cpp.bind_ok g2]
      cases e3 : Mem.callDtors b1 0 a.count.toNat with
      | none => rw [Cpp.bind_fault (m := ArrayC.mem none) (s := a) rfl]; exact .fault
      | some b2 =>
        rw [Cpp.bind_ok (m := ArrayC.mem _) (a := b2) (s' := a) rfl]
        have hy1 := (hb.wr_other (c := x1) hqp).wr t2
        obtain ⟨g3, t3⟩ := callDtors_sim _ hy1 e3
        rw [wr_wr] at g3
        rw [Cpp.bind_ok (onHeap_ok g3)]
        cases e4 : Mem.deallocateBuffer b2 with
        | none => rw [Cpp.bind_fault (m := ArrayC.mem none) (s := a) rfl]; exact .fault
        | some u =>
          rw [Cpp.bind_ok (m := ArrayC.mem _) (a := u) (s' := a) rfl]
          obtain ⟨h3, g4, o⟩ := replace_sim ho hq hx (h2 := (h1.wr q x1).wr l.buffer b2) rfl s2 e4
          rw [Cpp.bind_ok (onHeap_ok g4)]
          exact .ok ⟨o, rfl, rfl⟩
  · rw [Cpp.bind_err (Cpp.check_false hc _), Cpp.bind_err (Cpp.check_false hc _)]
    exact .err hr

theorem call_step {s : Heap α × ListH} {a a' : ArrayC α} {m : Cpp (Heap α × ListH) β}
    {m' : Cpp (ArrayC α) β} {f : β → Spec.SeqRet α} {r : Spec.SeqRet α} (h : Cpp.Refines (Rel F) m m')
    (hr : Rel F s a) (e : ArrayC.observe f (m' a) = some (a', r)) :
    (∃ s', (do return f (← m) : Cpp (Heap α × ListH) (Spec.SeqRet α)) s = .ok r s' ∧ Rel F s' a') ∨
    (∃ s', (do return f (← m) : Cpp (Heap α × ListH) (Spec.SeqRet α)) s = .err s' ∧ Rel F s' a' ∧ r = .error) := by
  have := h s a hr
  rw [Cpp.bind_apply]
  generalize m s = o at this
  generalize m' a = o' at this e
  cases this with
  | ok h =>
    simp only [ArrayC.observe, Option.some.injEq, Prod.mk.injEq] at e
    obtain ⟨rfl, rfl⟩ := e
    exact .inl ⟨_, rfl, h⟩
  | err h =>
    simp only [ArrayC.observe, Option.some.injEq, Prod.mk.injEq] at e
    obtain ⟨rfl, rfl⟩ := e
    exact .inr ⟨_, rfl, h, rfl⟩
  | fault => simp [ArrayC.observe] at e

theorem call_refines (mv : Option α → Option α) (eq : α → κ → Bool) (d : Option α) {s : Heap α × ListH} {a a' : ArrayC α}
    (op : Spec.ArrOp α κ) {r : Spec.SeqRet α} (hr : Rel F s a) (e : ArrayC.step mv eq d a op = some (a', r)) :
    (∃ s', step mv eq d (.call op) s = .ok r s' ∧ Rel F s' a') ∨
    (∃ s', step mv eq d (.call op) s = .err s' ∧ Rel F s' a' ∧ r = .error) := by
  cases op with
  | set i v => exact call_step (setAt_refines i v) hr e
  | get i => exact call_step (get_refines i) hr e
  | count =>
    simp only [ArrayC.step, Option.some.injEq, Prod.mk.injEq] at e
    obtain ⟨rfl, rfl⟩ := e
    refine .inl ⟨s, ?_, hr⟩
    rw [← show s.2.count = a.count from hr.count]
    rfl
  | resize n => exact call_step (resize_refines mv d n) hr e
  | indexOf k => exact call_step (indexOf_refines eq k) hr e

theorem step_refines (mv : Option α → Option α) (eq : α → κ → Bool) (d : Option α) (F : Nat → Option (Block α))
    (s : Heap α × ListH) (ys : List (Option α)) (op : Spec.ArrCall α κ) (hr : RelBy Repr F s ys)
    (hv : Spec.arrCall eq d ys op ≠ none) :
    (∃ s' ys' r, step mv eq d op s = .ok r s' ∧ RelBy Repr F s' ys' ∧ True ∧ Spec.arrCall eq d ys op = some (ys', r)) ∨
    (∃ s' ys', step mv eq d op s = .err s' ∧ RelBy Repr F s' ys' ∧ True ∧ Spec.arrCall eq d ys op = some (ys', .error)) := by
  cases op with
  | call op =>
    obtain ⟨c, hr, h0, hc⟩ := hr
    have hstep := ArrayC.step_refines mv eq d hc op
    cases e : Spec.arrStep eq d ys op with
    | none => exact absurd e hv
    | some p =>
      obtain ⟨ys', r⟩ := p
      rw [e] at hstep
      obtain ⟨a', ea, ha⟩ := hstep
      have hrel : Rel F s ⟨c.buffer, c.count⟩ := ⟨hr.own, hr.count, hr.capacity.trans h0⟩
      rcases call_refines mv eq d op hrel ea with ⟨s', es, hs⟩ | ⟨s', es, hs, rfl⟩
      · exact .inl ⟨s', ys', r, es, ⟨_, hs, rfl, ha⟩, trivial, e⟩
      · exact .inr ⟨s', ys', es, ⟨_, hs, rfl, ha⟩, trivial, e⟩
  | create n =>
    obtain ⟨h, e, o⟩ := destroy_ok hr
    show (∃ s' ys' r, (destroy >>= fun _ => _) s = .ok r s' ∧ _) ∨ (∃ s' ys', (destroy >>= fun _ => _) s = .err s' ∧ _)
    rw [Cpp.bind_ok e]
    by_cases hn : 0 ≤ n
    · obtain ⟨s', e', hr'⟩ := new_ok d (l := ListH.empty) o hn
      rw [Cpp.bind_ok e']
      exact .inl ⟨s', _, _, rfl, hr', trivial, by simp [Spec.arrCall, hn]⟩
    · have : new d n (h, ListH.empty) = .err (h, ListH.empty) := by
        unfold new; rw [Cpp.bind_err (Cpp.check_false hn _)]
      rw [Cpp.bind_err this]
      exact .inr ⟨_, _, rfl, relBy_empty o, trivial, by simp [Spec.arrCall, hn]⟩
  | createFrom src n =>
    obtain ⟨h, e, o⟩ := destroy_ok hr
    show (∃ s' ys' r, (destroy >>= fun _ => _) s = .ok r s' ∧ _) ∨ (∃ s' ys', (destroy >>= fun _ => _) s = .err s' ∧ _)
    rw [Cpp.bind_ok e]
    by_cases hn : 0 ≤ n
    · by_cases hl : n ≤ src.length
      · obtain ⟨s', e', hr'⟩ := newFrom_ok src (l := ListH.empty) o hn hl
        rw [Cpp.bind_ok e']
        exact .inl ⟨s', _, _, rfl, hr', trivial, by simp [Spec.arrCall, hn, hl]⟩
      · simp [Spec.arrCall, hn, hl] at hv
    · have : newFrom (fun i => src[i.toNat]?) n (h, ListH.empty) = .err (h, ListH.empty) := by
        unfold newFrom; rw [Cpp.bind_err (Cpp.check_false hn _)]
      rw [Cpp.bind_err this]
      exact .inr ⟨_, _, rfl, relBy_empty o, trivial, by simp [Spec.arrCall, hn]⟩

end ArrayH
end Vlpp
