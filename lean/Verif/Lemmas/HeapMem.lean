import Verif.Model.HeapList
import Verif.Lemmas.Refines

/-! # The memory functions on the heap do what `Mem` does on single blocks -/
set_option autoImplicit false
namespace Vlpp
namespace Heap
variable {α β : Type}

/-- `p` points to the block `b` -/
def At (h : Heap α) (p : Ptr) (b : Block α) : Prop :=
  match p with
  | none => b = Block.null
  | some a => h.block a = some b

/-- the heap after the block at `p` became `b` -/
def wr (h : Heap α) (p : Ptr) (b : Block α) : Heap α :=
  match p with
  | none => h
  | some a => h.put a (some b)

/-- what every access to a block at `p` preserves -/
structure Same (p : Ptr) (b b' : Block α) : Prop where
  size : b'.size = b.size
  null : p = none → b' = b

theorem Same.refl (p : Ptr) (b : Block α) : Same p b b := ⟨rfl, fun _ => rfl⟩
theorem Same.trans {p : Ptr} {a b c : Block α} (h1 : Same p a b) (h2 : Same p b c) : Same p a c :=
  ⟨h2.size.trans h1.size, fun h => (h2.null h).trans (h1.null h)⟩

theorem put_put (h : Heap α) (a : Nat) (b c : Option (Block α)) : (h.put a b).put a c = h.put a c := by
  unfold put
  congr 1
  funext n
  by_cases hn : n = a <;> simp [hn]

theorem put_self {h : Heap α} {a : Nat} {b : Option (Block α)} (hb : h.block a = b) : h.put a b = h := by
  unfold put
  cases h with
  | mk next block =>
    congr 1
    funext n
    by_cases hn : n = a
    · subst hn; simp [← hb]
    · simp [hn]

theorem wr_wr (h : Heap α) (p : Ptr) (b c : Block α) : (h.wr p b).wr p c = h.wr p c := by
  cases p with
  | none => rfl
  | some a => exact put_put h a _ _

theorem wr_self {h : Heap α} {p : Ptr} {b : Block α} (hb : At h p b) : h.wr p b = h := by
  cases p with
  | none => rfl
  | some a => exact put_self hb

theorem wr_block {h : Heap α} {p : Ptr} {b : Block α} {a : Nat} (ha : p ≠ some a) : (h.wr p b).block a = h.block a := by
  cases p with
  | none => rfl
  | some c =>
    show (if a = c then _ else _) = _
    rw [if_neg (fun hc => ha (by rw [hc]))]

theorem wr_next (h : Heap α) (p : Ptr) (b : Block α) : (h.wr p b).next = h.next := by
  cases p <;> rfl

theorem At.wr {h : Heap α} {p : Ptr} {b b' : Block α} (hb : At h p b) (hs : Same p b b') : At (h.wr p b') p b' := by
  cases p with
  | none => exact (hs.null rfl).trans hb
  | some a => simp [At, Heap.wr, put]

theorem At.wr_other {h : Heap α} {p q : Ptr} {b c : Block α} (hb : At h p b) (hq : ∀ a, p = some a → q ≠ some a) :
    At (h.wr q c) p b := by
  cases p with
  | none => exact hb
  | some a => exact (wr_block (hq a rfl)).trans hb

/-- one access -/
theorem access_sim {p : Ptr} {f : Block α → MemRes (β × Block α)} {h : Heap α} {b b' : Block α} {v : β}
    (hb : At h p b) (hf : f b = some (v, b')) (hnull : f Block.null = none) :
    access p f h = .ok v (h.wr p b') := by
  cases p with
  | none => rw [show b = Block.null from hb, hnull] at hf; cases hf
  | some a =>
    have : h.block a = some b := hb
    simp [access, this, hf, wr]

theorem not_in_null (i : Int) : ¬ (Block.null : Block α).In i := by
  intro h; have := h.1; have := h.2; simp [Block.null] at *; omega

theorem construct_null (i : Int) (v : Option α) : Mem.construct Block.null i v = none := by
  simp [Mem.construct, not_in_null]
theorem destroy_null (i : Int) : Mem.destroy (Block.null : Block α) i = none := by
  simp [Mem.destroy, not_in_null]
theorem assign_null (i : Int) (v : Option α) : Mem.assign Block.null i v = none := by
  simp [Mem.assign, not_in_null]
theorem takeOut_null (mv : Option α → Option α) (i : Int) : Mem.takeOut mv Block.null i = none := by
  simp [Mem.takeOut, not_in_null]

theorem same_of_ok {p : Ptr} {b b' : Block α} {h : Heap α} (hb : At h p b) (hs : b'.size = b.size)
    (hne : b ≠ Block.null) : Same p b b' :=
  ⟨hs, fun hp => by subst hp; exact absurd hb hne⟩

theorem construct_sim {p : Ptr} {i : Int} {v : Option α} {h : Heap α} {b b' : Block α} (hb : At h p b)
    (hf : Mem.construct b i v = some b') : construct p i v h = .ok () (h.wr p b') ∧ Same p b b' := by
  refine ⟨access_sim hb (by simp [hf]) (by simp [construct_null]), same_of_ok hb ?_ ?_⟩
  · unfold Mem.construct at hf; split at hf <;> simp at hf; subst hf; rfl
  · rintro rfl; rw [construct_null] at hf; cases hf

theorem destroy_sim {p : Ptr} {i : Int} {h : Heap α} {b b' : Block α} (hb : At h p b)
    (hf : Mem.destroy b i = some b') : destroy p i h = .ok () (h.wr p b') ∧ Same p b b' := by
  refine ⟨access_sim hb (by simp [hf]) (by simp [destroy_null]), same_of_ok hb ?_ ?_⟩
  · unfold Mem.destroy at hf; split at hf <;> simp at hf; subst hf; rfl
  · rintro rfl; rw [destroy_null] at hf; cases hf

theorem assign_sim {p : Ptr} {i : Int} {v : Option α} {h : Heap α} {b b' : Block α} (hb : At h p b)
    (hf : Mem.assign b i v = some b') : assign p i v h = .ok () (h.wr p b') ∧ Same p b b' := by
  refine ⟨access_sim hb (by simp [hf]) (by simp [assign_null]), same_of_ok hb ?_ ?_⟩
  · unfold Mem.assign at hf; split at hf <;> simp at hf; subst hf; rfl
  · rintro rfl; rw [assign_null] at hf; cases hf

theorem takeOut_sim {mv : Option α → Option α} {p : Ptr} {i : Int} {v : Option α} {h : Heap α} {b b' : Block α}
    (hb : At h p b) (hf : Mem.takeOut mv b i = some (v, b')) :
    takeOut mv p i h = .ok v (h.wr p b') ∧ Same p b b' := by
  refine ⟨access_sim hb hf (takeOut_null mv i), same_of_ok hb ?_ ?_⟩
  · unfold Mem.takeOut at hf
    split at hf
    · split at hf <;> simp at hf
      rw [← hf.2]; rfl
    · cases hf
  · rintro rfl; rw [takeOut_null] at hf; cases hf

theorem callDtors_sim {p : Ptr} {d : Int} (n : Nat) {h : Heap α} {b b' : Block α} (hb : At h p b)
    (hf : Mem.callDtors b d n = some b') : callDtors p d n h = .ok () (h.wr p b') ∧ Same p b b' := by
  induction n generalizing b' with
  | zero =>
    cases hf
    exact ⟨by rw [wr_self hb]; rfl, .refl p b⟩
  | succ n ih =>
    simp only [Mem.callDtors, Option.bind_eq_bind, Option.bind_eq_some_iff] at hf
    obtain ⟨b1, e1, e2⟩ := hf
    obtain ⟨g1, s1⟩ := ih e1
    obtain ⟨g2, s2⟩ := destroy_sim (hb.wr s1) e2
    refine ⟨?_, s1.trans s2⟩
    unfold callDtors
    rw [Cpp.bind_ok g1, g2, wr_wr]

theorem moveAssignFwd_sim {mv : Option α → Option α} {p : Ptr} {d s : Int} (n : Nat) {h : Heap α} {b b' : Block α}
    (hb : At h p b) (hf : Mem.moveAssignFwd mv b d s n = some b') :
    moveAssignFwd mv p d s n h = .ok () (h.wr p b') ∧ Same p b b' := by
  induction n generalizing b' with
  | zero =>
    cases hf
    exact ⟨by rw [wr_self hb]; rfl, .refl p b⟩
  | succ n ih =>
    simp only [Mem.moveAssignFwd, Option.bind_eq_bind, Option.bind_eq_some_iff] at hf
    obtain ⟨b1, e1, ⟨v, b2⟩, e2, e3⟩ := hf
    obtain ⟨g1, s1⟩ := ih e1
    obtain ⟨g2, s2⟩ := takeOut_sim (hb.wr s1) e2
    rw [wr_wr] at g2
    obtain ⟨g3, s3⟩ := assign_sim (hb.wr (s1.trans s2)) e3
    refine ⟨?_, (s1.trans s2).trans s3⟩
    unfold moveAssignFwd
    rw [Cpp.bind_ok g1, Cpp.bind_ok g2, g3, wr_wr]

theorem moveAssignBwd_sim {mv : Option α → Option α} {p : Ptr} {d s : Int} (n : Nat) {h : Heap α} {b b' : Block α}
    (hb : At h p b) (hf : Mem.moveAssignBwd mv b d s n = some b') :
    moveAssignBwd mv p d s n h = .ok () (h.wr p b') ∧ Same p b b' := by
  induction n generalizing b h with
  | zero =>
    cases hf
    exact ⟨by rw [wr_self hb]; rfl, .refl p _⟩
  | succ n ih =>
    simp only [Mem.moveAssignBwd, Option.bind_eq_bind, Option.bind_eq_some_iff] at hf
    obtain ⟨⟨v, b1⟩, e1, b2, e2, e3⟩ := hf
    obtain ⟨g1, s1⟩ := takeOut_sim hb e1
    obtain ⟨g2, s2⟩ := assign_sim (hb.wr s1) e2
    rw [wr_wr] at g2
    obtain ⟨g3, s3⟩ := ih (hb.wr (s1.trans s2)) e3
    refine ⟨?_, (s1.trans s2).trans s3⟩
    unfold moveAssignBwd
    rw [Cpp.bind_ok g1, Cpp.bind_ok g2, g3, wr_wr]

theorem callMoveAssignmentsOverlapped_sim {mv : Option α → Option α} {p : Ptr} {d s c : Int} {h : Heap α}
    {b b' : Block α} (hb : At h p b) (hf : Mem.callMoveAssignmentsOverlapped mv b d s c = some b') :
    callMoveAssignmentsOverlapped mv p d s c h = .ok () (h.wr p b') ∧ Same p b b' := by
  unfold Mem.callMoveAssignmentsOverlapped at hf
  unfold callMoveAssignmentsOverlapped
  split at hf
  · next hd => rw [if_pos hd]; exact moveAssignFwd_sim _ hb hf
  · next hd =>
    rw [if_neg hd]
    split at hf
    · next hs => rw [if_pos hs]; exact moveAssignBwd_sim _ hb hf
    · next hs =>
      rw [if_neg hs]
      cases hf
      exact ⟨by rw [wr_self hb]; rfl, .refl p b⟩

theorem callMoveCtorsIn_sim {mv : Option α → Option α} {p : Ptr} {d s : Int} {n : Nat} {h : Heap α} {b b' : Block α}
    (hb : At h p b) (hf : Mem.callMoveCtorsIn mv b d s n = some b') :
    callMoveCtors mv p d p s n h = .ok () (h.wr p b') ∧ Same p b b' := by
  unfold Mem.callMoveCtorsIn at hf
  split at hf
  · next hc =>
    have key : ∀ (n : Nat) (b' : Block α), Mem.callMoveCtorsIn.go mv b d s n = some b' →
        callMoveCtors.loop mv p d p s n h = .ok () (h.wr p b') ∧ Same p b b' := by
      intro n
      induction n with
      | zero =>
        intro b' hf
        cases hf
        exact ⟨by rw [wr_self hb]; rfl, .refl p b⟩
      | succ n ih =>
        intro b' hf
        simp only [Mem.callMoveCtorsIn.go, Option.bind_eq_bind, Option.bind_eq_some_iff] at hf
        obtain ⟨b1, e1, ⟨v, b2⟩, e2, e3⟩ := hf
        obtain ⟨g1, s1⟩ := ih b1 e1
        obtain ⟨g2, s2⟩ := takeOut_sim (hb.wr s1) e2
        rw [wr_wr] at g2
        obtain ⟨g3, s3⟩ := construct_sim (hb.wr (s1.trans s2)) e3
        refine ⟨?_, (s1.trans s2).trans s3⟩
        unfold callMoveCtors.loop
        rw [Cpp.bind_ok g1, Cpp.bind_ok g2, g3, wr_wr]
    unfold callMoveCtors
    rw [if_pos (by rcases hc with h | h | h <;> simp [h])]
    exact key n b' hf
  · cases hf

theorem wr_comm {h : Heap α} {p q : Ptr} {b c : Block α} (hpq : ∀ a, p = some a → q ≠ some a) :
    (h.wr p b).wr q c = (h.wr q c).wr p b := by
  cases p with
  | none => rfl
  | some a =>
    cases q with
    | none => rfl
    | some e =>
      have : a ≠ e := fun hc => hpq a rfl (by rw [hc])
      simp only [wr, put]
      congr 1
      funext n
      by_cases h1 : n = a
      · subst h1; simp [this]
      · simp [h1]

theorem callMoveCtorsTo_sim {mv : Option α → Option α} {p q : Ptr} {d s : Int} {n : Nat} {h : Heap α}
    {x y x' y' : Block α} (hx : At h p x) (hy : At h q y) (hpq : ∀ a, p = some a → q ≠ some a)
    (hf : Mem.callMoveCtorsTo mv x y d s n = some (x', y')) :
    callMoveCtors mv p d q s n h = .ok () ((h.wr p x').wr q y') ∧ Same p x x' ∧ Same q y y' := by
  have hqp : ∀ a, q = some a → p ≠ some a := fun a h1 h2 => hpq a h2 h1
  have key : ∀ (n : Nat) (x' y' : Block α), Mem.callMoveCtorsTo mv x y d s n = some (x', y') →
      callMoveCtors.loop mv p d q s n h = .ok () ((h.wr p x').wr q y') ∧ Same p x x' ∧ Same q y y' := by
    intro n
    induction n with
    | zero =>
      intro x' y' hf
      cases hf
      exact ⟨by rw [wr_self hx, wr_self hy]; rfl, .refl p x, .refl q y⟩
    | succ n ih =>
      intro x' y' hf
      simp only [Mem.callMoveCtorsTo, Option.bind_eq_bind, Option.bind_eq_some_iff] at hf
      obtain ⟨⟨x1, y1⟩, e1, ⟨v, y2⟩, e2, x2, e3, e4⟩ := hf
      simp only [Option.pure_def, Option.some.injEq, Prod.mk.injEq] at e4
      obtain ⟨rfl, rfl⟩ := e4
      simp only at e2 e3
      obtain ⟨g1, s1, t1⟩ := ih x1 y1 e1
      have hy1 : At ((h.wr p x1).wr q y1) q y1 := (hy.wr_other hqp).wr t1
      obtain ⟨g2, t2⟩ := takeOut_sim hy1 e2
      rw [wr_wr] at g2
      have hx1 : At ((h.wr p x1).wr q y2) p x1 := (hx.wr s1).wr_other hpq
      obtain ⟨g3, s3⟩ := construct_sim hx1 e3
      refine ⟨?_, s1.trans s3, t1.trans t2⟩
      unfold callMoveCtors.loop
      rw [Cpp.bind_ok g1, Cpp.bind_ok g2, g3, wr_comm hqp, wr_wr]
  unfold callMoveCtors
  by_cases hn : n = 0
  · rw [if_pos (.inl hn)]; exact key n x' y' hf
  · by_cases hne : p = q
    · exfalso
      subst hne
      cases p with
      | some a => exact hpq a rfl rfl
      | none =>
        obtain ⟨n, rfl⟩ := Nat.exists_eq_succ_of_ne_zero hn
        simp only [Mem.callMoveCtorsTo, Option.bind_eq_bind, Option.bind_eq_some_iff] at hf
        obtain ⟨⟨x1, y1⟩, e1, ⟨v, y2⟩, e2, -⟩ := hf
        have := (key n x1 y1 e1).2.2.null rfl
        rw [this, show y = Block.null from hy, takeOut_null] at e2
        cases e2
    · rw [if_pos (.inr (.inl hne))]; exact key n x' y' hf

/-- `p` points to the block `b`, which is not one of the blocks `F`; all other live blocks are those of `F`. -/
structure Own (F : Nat → Option (Block α)) (h : Heap α) (p : Ptr) (b : Block α) : Prop where
  at' : At h p b
  pos : ∀ a, p = some a → 0 < b.size
  frame : ∀ a, p ≠ some a → h.block a = F a
  own : ∀ a, p = some a → F a = none
  fresh : ∀ a, h.next ≤ a → h.block a = none

theorem Own.wr {F : Nat → Option (Block α)} {h : Heap α} {p : Ptr} {b b' : Block α} (ho : Own F h p b)
    (hs : Same p b b') : Own F (h.wr p b') p b' where
  at' := ho.at'.wr hs
  pos := fun a ha => by rw [hs.size]; exact ho.pos a ha
  frame := fun a ha => by rw [wr_block ha]; exact ho.frame a ha
  own := ho.own
  fresh := fun a ha => by
    rw [wr_next] at ha
    by_cases hp : p = some a
    · subst hp
      have h1 : h.block a = some b := ho.at'
      rw [ho.fresh a ha] at h1
      cases h1
    · rw [wr_block hp]; exact ho.fresh a ha

theorem Own.null_iff {F : Nat → Option (Block α)} {h : Heap α} {p : Ptr} {b : Block α} (ho : Own F h p b) :
    p = none ↔ b.size = 0 := by
  constructor
  · rintro rfl
    rw [show b = Block.null from ho.at']; rfl
  · intro hs
    cases p with
    | none => rfl
    | some a => have := ho.pos a rfl; omega

/-- releasing the block -/
theorem deallocateBuffer_sim {F : Nat → Option (Block α)} {h : Heap α} {p : Ptr} {b : Block α} (ho : Own F h p b)
    (hf : Mem.deallocateBuffer b = some ()) :
    ∃ h', deallocateBuffer p h = .ok () h' ∧ Own F h' none Block.null ∧ h'.next = h.next := by
  cases p with
  | none => exact ⟨h, rfl, ⟨rfl, fun a ha => (by cases ha), ho.frame, fun a ha => (by cases ha), ho.fresh⟩, rfl⟩
  | some c =>
    have hc : h.block c = some b := ho.at'
    refine ⟨h.put c none, by simp [deallocateBuffer, hc, hf], ?_, rfl⟩
    refine ⟨rfl, fun a ha => (by cases ha), ?_, fun a ha => (by cases ha), ?_⟩
    · intro a _
      show (if a = c then none else h.block a) = F a
      split
      · next e => rw [e]; exact (ho.own c rfl).symm
      · next e => exact ho.frame a (fun hc => e (Option.some.inj hc).symm)
    · intro a ha
      show (if a = c then none else h.block a) = none
      split
      · rfl
      · exact ho.fresh a ha

/-- allocating a block while another one is there -/
theorem allocateBuffer_sim {F : Nat → Option (Block α)} {h : Heap α} {p : Ptr} {b : Block α} (ho : Own F h p b)
    (size : Int) :
    ∃ q h', allocateBuffer size h = .ok q h' ∧ (∀ a, q = some a → p ≠ some a) ∧ At h' p b ∧
      Own (fun a => h.block a) h' q (Mem.allocateBuffer size) := by
  unfold allocateBuffer Mem.allocateBuffer
  by_cases hs : size ≤ 0
  · rw [if_pos hs, if_pos hs]
    exact ⟨none, h, rfl, fun a ha => (by cases ha), ho.at', rfl, fun a ha => (by cases ha), fun _ _ => rfl,
      fun a ha => (by cases ha), ho.fresh⟩
  · rw [if_neg hs, if_neg hs]
    have hp : ∀ a, p = some a → a ≠ h.next := by
      rintro a rfl rfl
      have h1 : h.block h.next = some b := ho.at'
      rw [ho.fresh _ (Nat.le_refl _)] at h1
      cases h1
    refine ⟨some h.next, _, rfl, ?_, ?_, ?_, ?_, ?_, ?_, ?_⟩
    · intro a ha hpa
      cases ha
      exact hp _ hpa rfl
    · cases p with
      | none => exact ho.at'
      | some a =>
        show (if a = h.next then _ else _) = _
        rw [if_neg (hp a rfl)]; exact ho.at'
    · simp [At]
    · intro a _; show 0 < size; omega
    · intro a ha
      show (if a = h.next then _ else _) = _
      rw [if_neg (fun hc => ha (by rw [hc]))]
    · intro a ha; cases ha; exact ho.fresh _ (Nat.le_refl _)
    · intro a ha
      simp only at ha
      show (if a = h.next then _ else _) = _
      rw [if_neg (by omega)]; exact ho.fresh a (by omega)

/-- After a new block `q` was filled from the old block `p` and `p` was released, `q` has taken the place of `p`. -/
theorem replace_sim {F : Nat → Option (Block α)} {h h1 : Heap α} {p q : Ptr} {b x : Block α}
    (ho : Own F h p b) (hq : ∀ a, q = some a → p ≠ some a)
    (hx : Own (fun a => h.block a) h1 q x) {h2 : Heap α} {x' b' : Block α}
    (e2 : h2 = (h1.wr q x').wr p b') (sx : Same q x x') (hf : Mem.deallocateBuffer b' = some ()) :
    ∃ h3, deallocateBuffer p h2 = .ok () h3 ∧ Own F h3 q x' := by
  have hx' : Own (fun a => h.block a) (h1.wr q x') q x' := hx.wr sx
  subst e2
  cases p with
  | none =>
    refine ⟨_, rfl, ?_⟩
    exact ⟨hx'.at', hx'.pos, fun a ha => (hx'.frame a ha).trans (ho.frame a (by simp)), fun a ha => by
      have := hx'.own a ha
      rw [← this]; exact (ho.frame a (by simp)).symm, hx'.fresh⟩
  | some c =>
    have hc : ((h1.wr q x').put c (some b')).block c = some b' := by simp [put]
    refine ⟨((h1.wr q x').put c (some b')).put c none, by
      show (match ((h1.wr q x').put c (some b')).block c with | none => _ | some b => _) = _
      rw [hc]; simp only [hf]; rfl, ?_⟩
    rw [put_put]
    have hne : ∀ a, q = some a → a ≠ c := fun a ha hac => hq a ha (by rw [hac])
    refine ⟨?_, hx'.pos, ?_, ?_, ?_⟩
    · cases q with
      | none => exact hx'.at'
      | some a =>
        show (if a = c then none else _) = _
        rw [if_neg (hne a rfl)]; exact hx'.at'
    · intro a ha
      show (if a = c then none else (h1.wr q x').block a) = _
      split
      · next e => rw [e]; exact (ho.own c rfl).symm
      · next e =>
        rw [hx'.frame a ha]
        exact ho.frame a (fun hh => e (Option.some.inj hh).symm)
    · intro a ha
      have := hx'.own a ha
      rw [← this]
      exact (ho.frame a (fun hh => hne a ha (Option.some.inj hh).symm)).symm
    · intro a ha
      show (if a = c then none else (h1.wr q x').block a) = _
      split
      · rfl
      · exact hx'.fresh a ha

theorem insertUninitializedItems_sim {F : Nat → Option (Block α)} {mv : Option α → Option α} {h : Heap α} {p : Ptr}
    {b b' : Block α} {cap cnt i n cap' cnt' : Int} (ho : Own F h p b)
    (hf : Mem.insertUninitializedItems mv b cap cnt i n = some (b', cap', cnt')) :
    ∃ p' h', insertUninitializedItems mv p cap cnt i n h = .ok (p', cap', cnt') h' ∧ Own F h' p' b' := by
  unfold Mem.insertUninitializedItems at hf
  unfold insertUninitializedItems
  simp only at hf ⊢
  split at hf
  · next hc =>
    rw [if_pos hc]
    simp only [Option.bind_eq_bind, Option.bind_eq_some_iff] at hf
    obtain ⟨⟨x1, b1⟩, e1, ⟨x2, b2⟩, e2, b3, e3, u, e4, e5⟩ := hf
    simp only [Option.pure_def, Option.some.injEq, Prod.mk.injEq] at e5
    obtain ⟨rfl, rfl, rfl⟩ := e5
    simp only at e2 e3 e4
    obtain ⟨q, h1, a1, hq, hb1, hx⟩ := allocateBuffer_sim ho
      (if cnt + n < cap then cap else (cnt + n) * 5 / 4 + 1)
    have hqp : ∀ a, p = some a → q ≠ some a := fun a a1 a2 => hq a a2 a1
    obtain ⟨g1, s1, t1⟩ := callMoveCtorsTo_sim hx.at' hb1 hq e1
    have hx1 := (hx.at'.wr s1).wr_other (c := b1) hq
    have hy1 := (hb1.wr_other (c := x1) hqp).wr t1
    obtain ⟨g2, s2, t2⟩ := callMoveCtorsTo_sim hx1 hy1 hq e2
    have hy2 := (hy1.wr_other (c := x2) hqp).wr t2
    obtain ⟨g3, t3⟩ := callDtors_sim _ hy2 e3
    obtain ⟨h3, g4, o⟩ := replace_sim ho hq hx (h2 := (h1.wr q x2).wr p b3) rfl (s1.trans s2) e4
    have eh : ((((h1.wr q x1).wr p b1).wr q x2).wr p b2).wr p b3 = (h1.wr q x2).wr p b3 := by
      rw [wr_wr, wr_comm (p := p) (q := q) hqp, wr_wr, wr_wr]
    rw [eh] at g3
    exact ⟨q, h3, by rw [Cpp.bind_ok a1, Cpp.bind_ok g1, Cpp.bind_ok g2, Cpp.bind_ok g3, Cpp.bind_ok g4]; rfl, o⟩
  · next hc =>
    rw [if_neg hc]
    split at hf
    · next hi =>
      rw [if_pos hi]
      split at hf
      · next hn =>
        rw [if_pos hn]
        simp only [Option.bind_eq_bind, Option.bind_eq_some_iff] at hf
        obtain ⟨b1, e1, b2, e2, e3⟩ := hf
        simp only [Option.pure_def, Option.some.injEq, Prod.mk.injEq] at e3
        obtain ⟨rfl, rfl, rfl⟩ := e3
        obtain ⟨g1, s1⟩ := callMoveCtorsIn_sim ho.at' e1
        obtain ⟨g2, s2⟩ := callDtors_sim _ (ho.at'.wr s1) e2
        exact ⟨p, _, by rw [Cpp.bind_ok g1, Cpp.bind_ok g2]; rfl, (ho.wr s1).wr s2⟩
      · next hn =>
        rw [if_neg hn]
        simp only [Option.bind_eq_bind, Option.bind_eq_some_iff] at hf
        obtain ⟨b1, e1, b2, e2, b3, e3, e4⟩ := hf
        simp only [Option.pure_def, Option.some.injEq, Prod.mk.injEq] at e4
        obtain ⟨rfl, rfl, rfl⟩ := e4
        obtain ⟨g1, s1⟩ := callMoveCtorsIn_sim ho.at' e1
        obtain ⟨g2, s2⟩ := callMoveAssignmentsOverlapped_sim (ho.at'.wr s1) e2
        obtain ⟨g3, s3⟩ := callDtors_sim _ ((ho.at'.wr s1).wr s2) e3
        exact ⟨p, _, by rw [Cpp.bind_ok g1, Cpp.bind_ok g2, Cpp.bind_ok g3]; rfl, ((ho.wr s1).wr s2).wr s3⟩
    · next hi =>
      rw [if_neg hi]
      simp only [Option.some.injEq, Prod.mk.injEq] at hf
      obtain ⟨rfl, rfl, rfl⟩ := hf
      exact ⟨p, h, rfl, ho⟩

theorem releaseUnnecessaryBuffer_sim {F : Nat → Option (Block α)} {mv : Option α → Option α} {h : Heap α} {p : Ptr}
    {b b' : Block α} {cap old new cap' : Int} (ho : Own F h p b)
    (hf : Mem.releaseUnnecessaryBuffer mv b cap old new = some (b', cap')) :
    ∃ p' h', releaseUnnecessaryBuffer mv p cap old new h = .ok (p', cap') h' ∧ Own F h' p' b' := by
  unfold Mem.releaseUnnecessaryBuffer at hf
  unfold releaseUnnecessaryBuffer
  by_cases hz : b.size = 0
  · rw [if_pos hz] at hf
    rw [if_pos (ho.null_iff.2 hz)]
    simp only [Option.some.injEq, Prod.mk.injEq] at hf
    obtain ⟨rfl, rfl⟩ := hf
    exact ⟨p, h, rfl, ho⟩
  · rw [if_neg hz] at hf
    rw [if_neg (fun hc => hz (ho.null_iff.1 hc))]
    simp only [Option.bind_eq_bind, Option.bind_eq_some_iff] at hf
    obtain ⟨b0, e0, hf⟩ := hf
    have hstep : ∃ h0, (if new < old then callDtors p new (old - new).toNat else pure ()) h = .ok () h0 ∧
        Own F h0 p b0 := by
      split at e0
      · next hc =>
        rw [if_pos hc]
        obtain ⟨g, s⟩ := callDtors_sim _ ho.at' e0
        exact ⟨_, g, ho.wr s⟩
      · next hc =>
        rw [if_neg hc]
        cases e0
        exact ⟨h, rfl, ho⟩
    obtain ⟨h0, g0, ho⟩ := hstep
    rw [Cpp.bind_ok g0]
    split at hf
    · next hc =>
      rw [if_pos hc]
      split at hf
      · next hn =>
        rw [if_pos hn]
        simp only [Option.bind_eq_some_iff] at hf
        obtain ⟨⟨x1, b1⟩, e1, b2, e2, u, e3, e4⟩ := hf
        simp only [Option.pure_def, Option.some.injEq, Prod.mk.injEq] at e4
        obtain ⟨rfl, rfl⟩ := e4
        simp only at e2 e3
        obtain ⟨q, h1, a1, hq, hb1, hx⟩ := allocateBuffer_sim ho (cap * 5 / 8)
        have hqp : ∀ a, p = some a → q ≠ some a := fun a a1 a2 => hq a a2 a1
        obtain ⟨g1, s1, t1⟩ := callMoveCtorsTo_sim hx.at' hb1 hq e1
        have hy1 := (hb1.wr_other (c := x1) hqp).wr t1
        obtain ⟨g2, t2⟩ := callDtors_sim _ hy1 e2
        rw [wr_wr] at g2
        obtain ⟨h3, g3, o⟩ := replace_sim ho hq hx (h2 := (h1.wr q x1).wr p b2) rfl s1 e3
        exact ⟨q, h3, by rw [Cpp.bind_ok a1, Cpp.bind_ok g1, Cpp.bind_ok g2, Cpp.bind_ok g3]; rfl, o⟩
      · next hn =>
        rw [if_neg hn]
        simp only [Option.pure_def, Option.some.injEq, Prod.mk.injEq] at hf
        obtain ⟨rfl, rfl⟩ := hf
        exact ⟨p, h0, rfl, ho⟩
    · next hc =>
      rw [if_neg hc]
      simp only [Option.pure_def, Option.some.injEq, Prod.mk.injEq] at hf
      obtain ⟨rfl, rfl⟩ := hf
      exact ⟨p, h0, rfl, ho⟩

end Heap
end Vlpp
