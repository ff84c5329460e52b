import Verif.Lemmas.HeapThrow
import Verif.Props.HeapArrayProps

/-! # Arrays whose elements throw; memory that is lost stays lost -/
set_option autoImplicit false
namespace Vlpp
open Spec (CopyFate)
variable {α β κ A Op Ret : Type}

theorem Spec.MoveStep.eq_some {step : A → Op → Option (A × Ret)} {empty : A} {moved error : Ret} {xs ys : Nat → A}
    {op : Spec.MoveOp Op} {r : Ret}
    (hm : Spec.MoveStep (fun x op x' r => step x op = some (x', r)) empty moved error xs op ys r) :
    Spec.moveStep? step empty moved error xs op = some (ys, r) := by
  cases hm with
  | call i op x r hs => simp only [Spec.moveStep?, hs, Option.map_some]
  | moveAssign i j => rfl
  | refused i => simp [Spec.moveStep?]
  | moveConstruct i j hij => simp [Spec.moveStep?, hij]
  | renew i => rfl

theorem Spec.MoveStep.eq_moveStep {step : A → Op → A × Ret} {empty : A} {moved error : Ret} {xs ys : Nat → A}
    {op : Spec.MoveOp Op} {r : Ret}
    (hm : Spec.MoveStep (fun x op x' r => step x op = (x', r)) empty moved error xs op ys r) :
    Spec.moveStep step empty moved error xs op = (ys, r) := by
  cases hm with
  | call i op x r h => simp only [Spec.moveStep, h]
  | moveAssign i j => rfl
  | refused i => simp [Spec.moveStep]
  | moveConstruct i j hij => simp [Spec.moveStep, hij]
  | renew i => rfl

theorem Safe.and {Step : A → Op → A → Ret → Prop} {V1 V2 : A → Op → Prop} {empty : A} {moved error : Ret}
    (ops : List (Spec.MoveOp Op)) {xs : Nat → A} (h1 : Safe Step V1 empty moved error xs ops)
    (h2 : Safe Step V2 empty moved error xs ops) : Safe Step (fun x o => V1 x o ∧ V2 x o) empty moved error xs ops := by
  induction ops generalizing xs with
  | nil => trivial
  | cons op ops ih =>
    exact ⟨fun i o e => ⟨h1.1 i o e, h2.1 i o e⟩, fun ys r hm => ih (h1.2 ys r hm) (h2.2 ys r hm)⟩

theorem Spec.Uninterrupted.safe {eq : α → κ → Bool} (ops : List (Spec.MoveOp (Spec.SeqOp α κ × CopyFate α)))
    {xs : Nat → List α} (h : Spec.Uninterrupted eq xs ops) :
    Safe (fun x op x' r => Spec.throwStep eq x op = (x', r)) (fun x o => ¬ Spec.SeqInterrupted x o) [] (.flag true) .error xs ops := by
  induction ops generalizing xs with
  | nil => trivial
  | cons op ops ih =>
    refine ⟨h.1, fun ys r hm => ih ?_⟩
    have := h.2
    rw [hm.eq_moveStep] at this
    exact this

theorem Spec.ArrUninterrupted.safe {eq : α → κ → Bool} {d : Option α}
    (ops : List (Spec.MoveOp (Spec.ArrCall α κ × CopyFate α))) {xs : Nat → List (Option α)}
    (h : Spec.ArrUninterrupted eq d xs ops) :
    Safe (fun x op x' r => Spec.arrThrowStep eq d x op = some (x', r)) (fun x o => ¬ Spec.ArrInterrupted x o) [] (.flag true)
      .error xs ops := by
  induction ops generalizing xs with
  | nil => trivial
  | cons op ops ih => exact ⟨h.1, fun ys r hm => ih (h.2 (ys, r) hm.eq_some)⟩

namespace Heap

theorem access_keeps {p : Ptr} {f : Block α → MemRes (β × Block α)} {h h' : Heap α} {v : β} (e : access p f h = .ok v h')
    {a : Nat} (ha : p ≠ some a) : h'.block a = h.block a := by
  unfold access at e
  split at e
  · cases e
  · split at e
    · cases e
    · split at e
      · cases e
      · cases e
        show (if a = _ then _ else _) = _
        rw [if_neg (fun hc => ha (by rw [hc]))]

theorem callDtors_keeps {p : Ptr} {d : Int} (n : Nat) {h h' : Heap α} (e : callDtors p d n h = .ok () h') {a : Nat}
    (ha : p ≠ some a) : h'.block a = h.block a := by
  induction n generalizing h' with
  | zero => cases e; rfl
  | succ n ih =>
    unfold callDtors at e
    obtain ⟨_, h1, e1, e2⟩ := Cpp.bind_eq_ok e
    exact (access_keeps e2 ha).trans (ih e1)

theorem deallocateBuffer_keeps {p : Ptr} {h h' : Heap α} (e : deallocateBuffer p h = .ok () h') {a : Nat}
    (ha : p ≠ some a) : h'.block a = h.block a := by
  unfold deallocateBuffer at e
  split at e
  · cases e; rfl
  · split at e
    · cases e
    · split at e
      · cases e
      · cases e
        show (if a = _ then _ else _) = _
        rw [if_neg (fun hc => ha (by rw [hc]))]

end Heap

namespace ListWorld

/-- A block that belongs to no list. -/
def Lost (w : ListWorld α) (a : Nat) : Prop := w.heap.block a ≠ none ∧ ∀ j, (w.lists j).buffer ≠ some a

theorem onHeap_eq_ok {m : Cpp (Heap α) β} {s s' : Heap α × ListH} {v : β} (e : ListH.onHeap m s = .ok v s') :
    m s.1 = .ok v s'.1 ∧ s'.2 = s.2 := by
  unfold ListH.onHeap at e
  split at e
  · next h1 => cases e; exact ⟨h1, rfl⟩
  · cases e
  · cases e

theorem destroy_lost {w w' : ListWorld α} {i a : Nat} (e : destroy i w = .ok () w') (h : w.Lost a) : w'.Lost a := by
  unfold destroy at e
  obtain ⟨_, w1, e1, e2⟩ := Cpp.bind_eq_ok e
  have hd : ∀ s' : Heap α × ListH, ListH.destructor (w.heap, w.lists i) = .ok () s' →
      s'.1.block a = w.heap.block a ∧ s'.2 = w.lists i := by
    intro s' hs
    unfold ListH.destructor at hs
    rw [ListH.members_bind] at hs
    split at hs
    · obtain ⟨_, s1, g1, g2⟩ := Cpp.bind_eq_ok hs
      obtain ⟨g1, l1⟩ := onHeap_eq_ok g1
      obtain ⟨g2, l2⟩ := onHeap_eq_ok g2
      exact ⟨(Heap.deallocateBuffer_keeps g2 (h.2 i)).trans (Heap.callDtors_keeps _ g1 (h.2 i)), l2.trans l1⟩
    · cases hs; exact ⟨rfl, rfl⟩
  unfold on at e1
  split at e1
  · next s1 =>
    cases e1
    obtain ⟨hb, hl⟩ := hd _ s1
    simp only at hb hl
    cases e2
    refine ⟨?_, fun j => ?_⟩
    · show (_ : Heap α).block a ≠ none
      exact fun hc => h.1 (hb.symm.trans hc)
    · show (if j = i then ListH.empty else if j = i then _ else w.lists j).buffer ≠ some a
      by_cases hj : j = i
      · rw [if_pos hj]; simp [ListH.empty]
      · rw [if_neg hj, if_neg hj]; exact h.2 j
  · cases e1
  · cases e1

/-- what is lost is not found by destroying lists -/
theorem renew_lost {step : Op → Cpp (Heap α × ListH) Ret} {moved error : Ret} (ns : List Nat) {w w' : ListWorld α}
    {rs : List Ret} {a : Nat} (h : w.Lost a)
    (e : (movable step).run moved error w (ns.map .renew) = some (w', rs)) : w'.Lost a := by
  induction ns generalizing w rs with
  | nil => cases e; exact h
  | cons n ns ih =>
    simp only [List.map_cons, Movable.run, Option.bind_eq_bind, Option.bind_eq_some_iff] at e
    obtain ⟨⟨w1, r1⟩, e1, ⟨w2, rs2⟩, e2, e3⟩ := e
    simp only [Option.pure_def, Option.some.injEq, Prod.mk.injEq] at e3
    obtain ⟨rfl, rfl⟩ := e3
    refine ih ?_ e2
    simp only [Movable.step, movable] at e1
    cases e4 : destroy n w with
    | ok u w3 =>
      rw [Cpp.bind_ok e4] at e1
      cases e1
      exact destroy_lost e4 h
    | err w3 =>
      exfalso
      unfold destroy at e4
      have : ∀ s : Heap α × ListH, ∀ s', ListH.destructor s ≠ .err s' := by
        rintro ⟨h0, l0⟩ s' hc
        have noerr : ∀ {m : Cpp (Heap α) Unit} {s s'}, (∀ h h', m h ≠ .err h') → ListH.onHeap m s ≠ .err s' := by
          intro m s s' hm hc
          unfold ListH.onHeap at hc
          split at hc
          · cases hc
          · next h1 => exact hm _ _ h1
          · cases hc
        have hdt : ∀ p d n (h h' : Heap α), Heap.callDtors p d n h ≠ .err h' := by
          intro p d n
          induction n with
          | zero => intro h h' hc; cases hc
          | succ n ih =>
            intro h h' hc
            unfold Heap.callDtors at hc
            rw [Cpp.bind_apply] at hc
            split at hc
            · unfold Heap.destroy Heap.access at hc
              revert hc
              repeat' split
              all_goals simp
            · next h1 => exact ih _ _ h1
            · cases hc
        have hde : ∀ p (h h' : Heap α), Heap.deallocateBuffer p h ≠ .err h' := by
          intro p h h' hc
          unfold Heap.deallocateBuffer at hc
          revert hc
          repeat' split
          all_goals simp
        unfold ListH.destructor at hc
        rw [ListH.members_bind] at hc
        split at hc
        · rw [Cpp.bind_apply] at hc
          split at hc
          · exact noerr (hde _) hc
          · next h1 => exact noerr (hdt _ _ _) h1
          · cases hc
        · cases hc
      rw [Cpp.bind_apply] at e4
      split at e4
      · cases e4
      · next h1 =>
        unfold on at h1
        split at h1
        · cases h1
        · next h2 => exact this _ _ h2
        · cases h1
      · cases e4
    | fault =>
      rw [Cpp.bind_fault e4] at e1
      cases e1

/-- A call that leaves behind a block. -/
theorem Rel.lost {w : ListWorld α} {cs : Nat → ListC α} (hw : Rel w cs) {i a : Nat} {h : Heap α} {l : ListH}
    (ha : h.block a ≠ none) (hl : l.buffer ≠ some a) (hF : others w i a = none) :
    (({ w with heap := h } : ListWorld α).put i l).Lost a := by
  refine ⟨ha, fun j => ?_⟩
  show (if j = i then l else w.lists j).buffer ≠ some a
  by_cases hj : j = i
  · rw [if_pos hj]; exact hl
  · rw [if_neg hj]
    intro hc
    have h1 := (hw.rel j).own.at'
    simp only [hc] at h1
    have h2 := hw.disjoint j i a hj hc
    unfold others at hF
    rw [if_neg h2, show w.heap.block a = some _ from h1] at hF
    cases hF

end ListWorld

namespace ArrayH
open Heap ListWorld
open ListH (onHeap members setMembers reading onHeap_ok)
variable {F : Nat → Option (Block α)}

theorem constructing_eq {n : Nat} {ctors : Nat → Cpp (Heap α × ListH) Unit} {f : CopyFate α}
    (hf : ∀ k t, f = .throws k t → ¬ k < n) : constructing n ctors f = ctors n := by
  cases f with
  | completes => rfl
  | throws k t => exact if_neg (hf k t rfl)

theorem constructing_throws {n k : Nat} {ctors : Nat → Cpp (Heap α × ListH) Unit} {t : α} {s s' : Heap α × ListH} (hk : k < n)
    (e : ctors k s = .ok () s') : constructing n ctors (.throws k t) s = .err s' := by
  show (if k < n then do ctors k; Cpp.raise else ctors n : Cpp (Heap α × ListH) Unit) s = _
  rw [if_pos hk, Cpp.bind_ok e]
  rfl

theorem newT_eq (d : Option α) (n : Int) {f : CopyFate α} (hf : ∀ k t, f = .throws k t → ¬ (k : Int) < n) :
    newT d n f = new d n := by
  unfold newT new
  congr 1; funext _
  congr 1; funext _
  rw [constructing_eq (fun k t h1 h2 => hf k t h1 (by omega))]

theorem newFromT_eq (src : Int → Option α) (n : Int) {f : CopyFate α} (hf : ∀ k t, f = .throws k t → ¬ (k : Int) < n) :
    newFromT src n f = newFrom src n := by
  unfold newFromT newFrom
  congr 1; funext _
  congr 1; funext _
  rw [constructing_eq (fun k t h1 h2 => hf k t h1 (by omega))]

theorem resizeT_eq (mv : Option α → Option α) (d : Option α) (n : Int) {f : CopyFate α} {s : Heap α × ListH}
    (hf : ∀ k t, f = .throws k t → ¬ s.2.count + (k : Int) < n) : resizeT mv d n f s = resize mv d n s := by
  obtain ⟨h, l⟩ := s
  unfold resizeT resize
  rw [ListH.members_bind, ListH.members_bind]
  simp only [constructing_eq (f := f) (n := (n - l.count).toNat) (fun k t h1 h2 => hf k t h1 (by simp only; omega))]

/-- A constructor that throws leaves its buffer behind. -/
theorem newT_throws (d : Option α) {h : Heap α} {l : ListH} (o : Own F h none Block.null) {n : Int} {k : Nat} (hk : (k : Int) < n)
    (t : α) : ∃ h' a, newT d n (.throws k t) (h, l) = .err (h', l) ∧ h'.block a ≠ none ∧ F a = none := by
  obtain ⟨q, h', e2, o2⟩ := o.alloc n
  have hq : q ≠ none := by
    intro hc
    have := o2.null_iff.1 hc
    rw [Mem.allocateBuffer_size] at this
    omega
  obtain ⟨a, rfl⟩ := Option.ne_none_iff_exists'.1 hq
  obtain ⟨b, e1, _⟩ := Mem.callDefaultCtors_ok d (Mem.allocateBuffer (α := α) n) 0 k
    (fun j h1 h2 => ⟨⟨by omega, by rw [Mem.allocateBuffer_size]; omega⟩, by simp [Cell.isRaw]⟩)
  obtain ⟨g, s1⟩ := callDefaultCtors_sim _ o2.at' e1
  refine ⟨h'.wr (some a) b, a, ?_, ?_, o2.own a rfl⟩
  · unfold newT
    rw [Cpp.bind_ok (Cpp.check_true (by omega) _), Cpp.bind_ok (onHeap_ok e2)]
    exact Cpp.bind_err (constructing_throws (by omega) (onHeap_ok g))
  · rw [show (h'.wr (some a) b).block a = some b from o2.at'.wr s1]; simp

theorem newFromT_throws (src : Int → Option α) {h : Heap α} {l : ListH} (o : Own F h none Block.null) {n : Int} {k : Nat}
    (hk : (k : Int) < n) (t : α) :
    ∃ h' a, newFromT src n (.throws k t) (h, l) = .err (h', l) ∧ h'.block a ≠ none ∧ F a = none := by
  obtain ⟨q, h', e2, o2⟩ := o.alloc n
  have hq : q ≠ none := by
    intro hc
    have := o2.null_iff.1 hc
    rw [Mem.allocateBuffer_size] at this
    omega
  obtain ⟨a, rfl⟩ := Option.ne_none_iff_exists'.1 hq
  obtain ⟨b, e1⟩ : ∃ b, ArrayC.copyFrom (Mem.allocateBuffer (α := α) n) src k = some b := by
    have key : ∀ m : Nat, (m : Int) ≤ n → ∃ b, ArrayC.copyFrom (Mem.allocateBuffer (α := α) n) src m = some b ∧
        b.size = n ∧ ∀ j : Int, (m : Int) ≤ j → b.cell j = .raw := by
      intro m
      induction m with
      | zero =>
        intro _
        exact ⟨_, rfl, by rw [Mem.allocateBuffer_size]; omega, fun j _ => Mem.allocateBuffer_cell _ _⟩
      | succ m ih =>
        intro hm
        obtain ⟨b, e, hs, hc⟩ := ih (by omega)
        have hin : b.In m := ⟨by omega, by omega⟩
        refine ⟨b.upd m (.obj (src m)), ?_, by simp [hs], fun j hj => ?_⟩
        · simp only [ArrayC.copyFrom, e]
          exact Mem.construct_ok hin (by rw [hc m (by omega)]; rfl)
        · rw [Mem.upd_cell, if_neg (by omega)]; exact hc j (by omega)
    obtain ⟨b, e, _⟩ := key k (by omega)
    exact ⟨b, e⟩
  obtain ⟨g, s1⟩ := callCopyCtors_sim _ o2.at' e1
  refine ⟨h'.wr (some a) b, a, ?_, ?_, o2.own a rfl⟩
  · unfold newFromT
    rw [Cpp.bind_ok (Cpp.check_true (by omega) _), Cpp.bind_ok (onHeap_ok e2)]
    exact Cpp.bind_err (constructing_throws (by omega) (onHeap_ok g))
  · rw [show (h'.wr (some a) b).block a = some b from o2.at'.wr s1]; simp

/-- `Resize` that throws leaves the new buffer behind, with the values of the elements. -/
theorem resizeT_throws (mv : Option α → Option α) (d : Option α) {h : Heap α} {l : ListH} {c : ListC α} {ys : List (Option α)}
    (hr : ListH.Rel F (h, l) c) (hc : ArrayC.Repr ⟨c.buffer, c.count⟩ ys) {n : Int} {k : Nat} (hk : (ys.length : Int) + k < n)
    (t : α) :
    ∃ h' a, resizeT mv d n (.throws k t) (h, l) = .err (h', l) ∧ h'.block a ≠ none ∧ l.buffer ≠ some a ∧ F a = none ∧
      ∀ e, l.buffer = some e → ∃ b, h'.block e = some b ∧ ∀ (m : Nat) (hm : m < ys.length), b.cell m = .obj (mv ys[m]) := by
  have ho := hr.own
  simp only at ho
  have hcount : l.count = ys.length := hr.count.trans hc.count
  have hsize : c.buffer.size = ys.length := hc.size.trans hc.count
  have hc0 : c.count = ys.length := hc.count
  obtain ⟨q, h1, g1, hq, hb, hx⟩ := allocateBuffer_sim ho n
  have hq0 : q ≠ none := by
    intro hc
    have := hx.null_iff.1 hc
    rw [Mem.allocateBuffer_size] at this
    omega
  obtain ⟨a, rfl⟩ := Option.ne_none_iff_exists'.1 hq0
  have hla : l.buffer ≠ some a := hq a rfl
  have hcell : ∀ j : Int, 0 ≤ j → j < ys.length → c.buffer.cell j = .obj (ys[j.toNat]?.getD none) := fun j h0 h2 =>
    hc.live j h0 (by simp only; omega)
  obtain ⟨x1, b1, e1, hs1, _, hx1, hb1⟩ := Mem.callMoveCtorsTo_ok mv (Mem.allocateBuffer n) c.buffer 0 0 ys.length
    (fun j h1 h2 => ⟨⟨by omega, by rw [Mem.allocateBuffer_size]; omega⟩, by simp [Cell.isRaw]⟩)
    (fun j h1 h2 => ⟨⟨by omega, by omega⟩, by rw [hcell j (by omega) (by omega)]; rfl⟩)
  obtain ⟨g2, s2, t2⟩ := callMoveCtorsTo_sim hx.at' hb hq e1
  obtain ⟨x2, e2, _⟩ := Mem.callDefaultCtors_ok d x1 ys.length k
    (fun j h1 h2 => ⟨⟨by omega, by rw [hs1, Mem.allocateBuffer_size]; omega⟩, by rw [hx1, if_neg (by omega)]; simp [Cell.isRaw]⟩)
  have hx1 := (hx.at'.wr s2).wr_other (c := b1) hq
  obtain ⟨g3, s3⟩ := callDefaultCtors_sim _ hx1 e2
  refine ⟨((h1.wr (some a) x1).wr l.buffer b1).wr (some a) x2, a, ?_, ?_, hla, ?_, ?_⟩
  · unfold resizeT
    rw [ListH.members_bind, Cpp.bind_ok (Cpp.check_true (by omega) _), Cpp.bind_ok (onHeap_ok g1), hcount]
    rw [Cpp.bind_err]
    show (if n < (ys.length : Int) then _ else _ : Cpp (Heap α × ListH) Unit) (h1, l) = _
    rw [if_neg (by omega)]
    rw [show ((ys.length : Int)).toNat = ys.length from Int.toNat_natCast _, Cpp.bind_ok (onHeap_ok g2)]
    exact constructing_throws (by omega) (onHeap_ok g3)
  · rw [show (Heap.wr _ (some a) x2).block a = some x2 from hx1.wr s3]; simp
  · have h3 := hx.own a rfl
    rw [← ho.frame a hla]; exact h3
  · intro e he
    refine ⟨b1, ?_, ?_⟩
    · have hne : (some a : Ptr) ≠ some e := fun hc => hla (by rw [he, hc])
      rw [wr_block hne]
      have := (hb.wr_other (q := some a) (c := x1) (fun c h3 h4 => hq c h4 h3)).wr t2
      rw [he] at this
      rw [he]
      exact this
    · intro m hm
      rw [hb1, if_pos (by omega), hcell m (by omega) (by omega)]
      simp [List.getElem?_eq_getElem hm, Mem.mvCell]

end ArrayH
end Vlpp
