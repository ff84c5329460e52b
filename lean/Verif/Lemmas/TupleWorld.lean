import Verif.Lemmas.TupleObj

/-! Programs with tuples: the model does what the specification says. -/
set_option autoImplicit false
namespace Vlpp
open Spec.Tup

namespace TupleWorld
open TupleMem TupleElem
variable {α : Type}

/-- An element of the specification and its representation. -/
def SlotRel (addr : Loc → Nat) (t i : Nat) : Slot → TupleElem → Prop
  | .value, .own a => a = addr (.elem t i)
  | .ref c (some l), .ref c' a => c' = c ∧ a = addr l
  | .ref c none, .ref c' _ => c' = c
  | _, _ => False

/-- The elements of a tuple from number `i` on. -/
def SlotsRel (addr : Loc → Nat) (t : Nat) : Nat → List Slot → List TupleElem → Prop
  | _, [], [] => True
  | i, s :: sl, e :: es => SlotRel addr t i s e ∧ SlotsRel addr t (i + 1) sl es
  | _, _, _ => False

def TupleRel (addr : Loc → Nat) (t : Nat) : Option (List Slot) → Option (List TupleElem) → Prop
  | none, none => True
  | some sl, some es => SlotsRel addr t 0 sl es
  | _, _ => False

/-- The objects a tuple refers to. -/
def Refers (sl : List Slot) (l : Loc) : Prop := ∃ (i : Nat) (c : Bool), sl[i]? = some (.ref c (some l))

/-- The states correspond (there may be temporary objects). -/
structure Core (addr : Loc → Nat) (st : State α) (w : TupleWorld α) : Prop where
  mem : Rel addr st.val w.mem
  vars : ∀ x, w.vars x = (st.val (.var x)).map fun _ => addr (.var x)
  tuples : ∀ t, TupleRel addr t (st.slots t) (w.tuples t)
  elems : ∀ t i, (st.val (.elem t i)).isSome = true ↔ ∃ sl, st.slots t = some sl ∧ sl[i]? = some .value
  refs : ∀ t sl l, st.slots t = some sl → Refers sl l → (st.val l).isSome = true

/-- The states correspond between statements. -/
def Matches (st : State α) (w : TupleWorld α) : Prop :=
  ∃ addr, Core addr st w ∧ ∀ k, st.val (.temp k) = none

theorem SlotsRel.get {addr : Loc → Nat} {t : Nat} : ∀ {sl : List Slot} {es : List TupleElem} {i : Nat}, SlotsRel addr t i sl es →
    ∀ {j : Nat} {s : Slot}, sl[j]? = some s → ∃ e, es[j]? = some e ∧ SlotRel addr t (i + j) s e
  | [], [], _, _, j, s, h => by simp at h
  | [], _ :: _, _, h, _, _, _ => h.elim
  | _ :: _, [], _, h, _, _, _ => h.elim
  | s0 :: sl, e0 :: es, i, h, j, s, hj => by
    cases j with
    | zero =>
      rw [List.getElem?_cons_zero, Option.some.injEq] at hj
      subst hj
      exact ⟨e0, rfl, h.1⟩
    | succ j =>
      rw [List.getElem?_cons_succ] at hj
      obtain ⟨e, he, r⟩ := SlotsRel.get h.2 hj
      refine ⟨e, by rw [List.getElem?_cons_succ]; exact he, ?_⟩
      rw [show i + (j + 1) = i + 1 + j by omega]; exact r

theorem SlotsRel.length {addr : Loc → Nat} {t : Nat} : ∀ {sl : List Slot} {es : List TupleElem} {i : Nat},
    SlotsRel addr t i sl es → sl.length = es.length
  | [], [], _, _ => rfl
  | [], _ :: _, _, h => h.elim
  | _ :: _, [], _, h => h.elim
  | _ :: _, _ :: _, _, h => by simp only [List.length_cons]; rw [SlotsRel.length h.2]

theorem SlotRel.mono {addr addr' : Loc → Nat} {t i : Nat} {s : Slot} {e : TupleElem} (h : SlotRel addr t i s e)
    (hv : s = .value → addr' (.elem t i) = addr (.elem t i))
    (hr : ∀ c l, s = .ref c (some l) → addr' l = addr l) : SlotRel addr' t i s e := by
  cases s with
  | value =>
    cases e with
    | own a => exact (show a = addr (.elem t i) from h).trans (hv rfl).symm
    | ref c a => exact h.elim
  | ref c l =>
    cases e with
    | own a => cases l <;> exact h.elim
    | ref c' a =>
      cases l with
      | none => exact h
      | some l => exact ⟨h.1, h.2.trans (hr c l rfl).symm⟩

theorem SlotsRel.mono {addr addr' : Loc → Nat} {t : Nat} : ∀ {sl : List Slot} {es : List TupleElem} {i : Nat}, SlotsRel addr t i sl es →
    (∀ j : Nat, sl[j]? = some .value → addr' (.elem t (i + j)) = addr (.elem t (i + j))) →
    (∀ l, Refers sl l → addr' l = addr l) → SlotsRel addr' t i sl es
  | [], [], _, _, _, _ => trivial
  | [], _ :: _, _, h, _, _ => h.elim
  | _ :: _, [], _, h, _, _ => h.elim
  | s :: sl, e :: es, i, h, hv, hr => by
    refine ⟨h.1.mono (fun q => hv 0 (by rw [List.getElem?_cons_zero, q])) (fun c l q => hr l ⟨0, c, by rw [List.getElem?_cons_zero, q]⟩),
      h.2.mono (fun j hj => ?_) (fun l hl => ?_)⟩
    · have := hv (j + 1) (by rw [List.getElem?_cons_succ]; exact hj)
      rw [show i + 1 + j = i + (j + 1) by omega]; exact this
    · obtain ⟨j, c, hj⟩ := hl
      exact hr l ⟨j + 1, c, by rw [List.getElem?_cons_succ]; exact hj⟩

theorem isSome_of {β : Type} {o : Option β} (h : o.isSome = true) : ∃ v, o = some v := Option.isSome_iff_exists.mp h

/-- tuples stay related if addresses of live objects stay the same -/
theorem Core.tuples_mono {addr addr' : Loc → Nat} {st : State α} {w : TupleWorld α} (h : Core addr st w)
    (H : ∀ l v, st.val l = some v → addr' l = addr l) (t : Nat) : TupleRel addr' t (st.slots t) (w.tuples t) := by
  have h0 := h.tuples t
  cases hs : st.slots t with
  | none => rw [hs] at h0; cases hw : w.tuples t with
    | none => trivial
    | some es => rw [hw] at h0; exact h0.elim
  | some sl =>
    rw [hs] at h0
    cases hw : w.tuples t with
    | none => rw [hw] at h0; exact h0.elim
    | some es =>
      rw [hw] at h0
      refine SlotsRel.mono (show SlotsRel addr t 0 sl es from h0) (fun j hj => ?_) (fun l hl => ?_)
      · rw [Nat.zero_add]
        obtain ⟨v, hv⟩ := isSome_of ((h.elems t j).mpr ⟨sl, hs, hj⟩)
        exact H _ v hv
      · obtain ⟨v, hv⟩ := isSome_of (h.refs t sl l hs hl)
        exact H _ v hv

theorem Core.locate {addr : Loc → Nat} {st : State α} {w : TupleWorld α} (h : Core addr st w) {e : Expr} {l : Loc}
    (hl : Spec.Tup.locate st e = some l) : addressOf w e = some (addr l) ∧ ∃ v, st.val l = some v := by
  cases e with
  | var x =>
    simp only [Spec.Tup.locate] at hl
    by_cases q : (st.val (.var x)).isSome = true
    · rw [if_pos q, Option.some.injEq] at hl
      subst hl
      obtain ⟨v, hv⟩ := isSome_of q
      refine ⟨?_, v, hv⟩
      show w.vars x = _
      rw [h.vars, hv]; rfl
    · rw [if_neg q] at hl; cases hl
  | get t i =>
    simp only [Spec.Tup.locate] at hl
    have h0 := h.tuples t
    cases hs : st.slots t with
    | none => rw [hs] at hl; cases hl
    | some sl =>
      rw [hs] at hl h0
      cases hw : w.tuples t with
      | none => rw [hw] at h0; exact h0.elim
      | some es =>
        rw [hw] at h0
        simp only [Option.bind_some, elemLoc] at hl
        cases hi : sl[i]? with
        | none => rw [hi] at hl; cases hl
        | some s =>
          rw [hi, Option.bind_some] at hl
          obtain ⟨e, he, r⟩ := SlotsRel.get (show SlotsRel addr t 0 sl es from h0) hi
          rw [Nat.zero_add] at r
          have A : addressOf w (.get t i) = some e.address := by
            show (w.tuples t).bind _ = _
            rw [hw]
            simp [he]
          rw [A]
          cases s with
          | value =>
            simp only [slotLoc, Option.some.injEq] at hl
            subst hl
            cases e with
            | ref c a => exact r.elim
            | own a => exact ⟨by rw [show a = addr (.elem t i) from r]; rfl, isSome_of ((h.elems t i).mpr ⟨sl, hs, hi⟩)⟩
          | ref c l' =>
            simp only [slotLoc] at hl
            subst hl
            cases e with
            | own a => exact r.elim
            | ref c' a => exact ⟨by rw [show a = addr l from r.2]; rfl, isSome_of (h.refs t sl l hs ⟨i, c, hi⟩)⟩

theorem named_ok {β : Type} {f : TupleWorld α → Option β} {w : TupleWorld α} {v : β} (h : f w = some v) :
    (named f : Cpp (TupleWorld α) β) w = .ok v w := by
  unfold named; rw [h]

theorem onMem_ok {β : Type} {f : Cpp (TupleMem α) β} {w : TupleWorld α} {v : β} {m : TupleMem α} (h : f w.mem = .ok v m) :
    (onMem f : Cpp (TupleWorld α) β) w = .ok v { w with mem := m } := by
  unfold onMem; rw [h]

/-- The states still correspond after objects got other values. -/
theorem Core.update {addr addr' : Loc → Nat} {st : State α} {w : TupleWorld α} (h : Core addr st w) {val' : Values α}
    {mem' : TupleMem α} (hm : Rel addr' val' mem')
    (H1 : ∀ l v, st.val l = some v → addr' l = addr l ∧ ∃ v', val' l = some v')
    (H2 : ∀ l v, val' l = some v → (∃ k, l = .temp k) ∨ ∃ v', st.val l = some v') :
    Core addr' ⟨val', st.slots⟩ { w with mem := mem' } := by
  have L : ∀ l, (∀ k, l ≠ .temp k) → ((val' l).isSome = true ↔ (st.val l).isSome = true) := by
    intro l hl
    constructor
    · intro q
      obtain ⟨v, hv⟩ := isSome_of q
      rcases H2 l v hv with ⟨k, hk⟩ | ⟨v', hv'⟩
      · exact (hl k hk).elim
      · rw [hv']; rfl
    · intro q
      obtain ⟨v, hv⟩ := isSome_of q
      obtain ⟨_, v', hv'⟩ := H1 l v hv
      rw [hv']; rfl
  refine ⟨hm, fun x => ?_, h.tuples_mono fun l v hv => (H1 l v hv).1, fun t i => ?_, fun t sl l hs hl => ?_⟩
  · show w.vars x = _
    rw [h.vars]
    have lx := L (.var x) (fun k => nofun)
    cases hv : st.val (.var x) with
    | none =>
      cases hv' : val' (.var x) with
      | none => show none = (val' (.var x)).map _; rw [hv']; rfl
      | some v => rw [hv, hv'] at lx; exact absurd (lx.mp rfl) (by simp)
    | some v =>
      obtain ⟨q, v', hv'⟩ := H1 _ v hv
      show some (addr (.var x)) = (val' (.var x)).map _
      rw [hv', ← q]; rfl
  · show (val' (.elem t i)).isSome = true ↔ _
    rw [L (.elem t i) (fun k => nofun)]
    exact h.elems t i
  · obtain ⟨v, hv⟩ := isSome_of (h.refs t sl l hs hl)
    obtain ⟨_, v', hv'⟩ := H1 l v hv
    show (val' l).isSome = true
    rw [hv']; rfl

theorem evalArgs_ok : ∀ (args : List (Arg α)) (k : Nat) (addr : Loc → Nat) (st st' : State α) (ls : List (Loc × Bool))
    (w : TupleWorld α), Core addr st w → (∀ j, k ≤ j → st.val (.temp j) = none) →
    Spec.Tup.evalArgs st k args = some (ls, st') →
    ∃ (addr' : Loc → Nat) (w' : TupleWorld α) (js : List Nat), evalArgs args w = .ok (ls.map (fun p => (addr' p.1, p.2)), js.map fun j => addr' (.temp j)) w' ∧
      Core addr' st' w' ∧ st'.slots = st.slots ∧ w'.tuples = w.tuples ∧ w'.vars = w.vars ∧
      (∀ l v, st.val l = some v → addr' l = addr l ∧ st'.val l = some v) ∧
      (∀ l v, st'.val l = some v → st.val l = some v ∨ ∃ j ∈ js, l = .temp j) ∧
      (∀ p ∈ ls, ∃ v, st'.val p.1 = some v) ∧
      (∀ j ∈ js, k ≤ j ∧ ∃ v, st'.val (.temp j) = some v) ∧ js.Nodup := by
  intro args
  induction args with
  | nil =>
    intro k addr st st' ls w hc _ h
    simp only [Spec.Tup.evalArgs, Option.some.injEq, Prod.mk.injEq] at h
    obtain ⟨rfl, rfl⟩ := h
    exact ⟨addr, w, [], rfl, hc, rfl, rfl, rfl, fun _ _ h => ⟨rfl, h⟩, fun _ _ h => .inl h, by simp, by simp, .nil⟩
  | cons a args ih =>
    intro k addr st st' ls w hc hk h
    have named : ∀ (e : Expr) (b : Bool), (do
        let l ← Spec.Tup.locate st e
        let (ls, st') ← Spec.Tup.evalArgs st (k + 1) args
        some ((l, b) :: ls, st')) = some (ls, st') →
        ∃ l0 ls0, ls = (l0, b) :: ls0 ∧ Spec.Tup.locate st e = some l0 ∧ Spec.Tup.evalArgs st (k + 1) args = some (ls0, st') := by
      intro e b h
      cases hl : Spec.Tup.locate st e with
      | none => rw [hl] at h; cases h
      | some l0 =>
        rw [hl] at h
        simp only [Option.bind_eq_bind, Option.bind_some] at h
        cases hr : Spec.Tup.evalArgs st (k + 1) args with
        | none => rw [hr] at h; cases h
        | some q =>
          rw [hr] at h
          simp only [Option.bind_some, Option.some.injEq, Prod.mk.injEq] at h
          obtain ⟨rfl, rfl⟩ := h
          exact ⟨l0, q.1, rfl, rfl, rfl⟩
    have lval : ∀ (e : Expr) (b : Bool) (l0 : Loc) (ls0 : List (Loc × Bool)), Spec.Tup.locate st e = some l0 →
        Spec.Tup.evalArgs st (k + 1) args = some (ls0, st') →
        ∃ (addr' : Loc → Nat) (w' : TupleWorld α) (js : List Nat), (TupleWorld.named (addressOf · e) >>= fun p => evalArgs args >>= fun r => pure ((p, b) :: r.1, r.2) :
            Cpp (TupleWorld α) _) w = .ok (((l0, b) :: ls0).map (fun p => (addr' p.1, p.2)), js.map fun j => addr' (.temp j)) w' ∧
          Core addr' st' w' ∧ st'.slots = st.slots ∧ w'.tuples = w.tuples ∧ w'.vars = w.vars ∧
          (∀ l v, st.val l = some v → addr' l = addr l ∧ st'.val l = some v) ∧
          (∀ l v, st'.val l = some v → st.val l = some v ∨ ∃ j ∈ js, l = .temp j) ∧
          (∀ p ∈ (l0, b) :: ls0, ∃ v, st'.val p.1 = some v) ∧
          (∀ j ∈ js, k ≤ j ∧ ∃ v, st'.val (.temp j) = some v) ∧ js.Nodup := by
      intro e b l0 ls0 hl hr
      obtain ⟨ha, v, hv⟩ := hc.locate hl
      obtain ⟨addr', w', js, e1, c, s1, s2, s3, A, B, C, D, E⟩ := ih (k + 1) addr st st' ls0 w hc (fun j hj => hk j (by omega)) hr
      refine ⟨addr', w', js, ?_, c, s1, s2, s3, A, B, ?_, fun j hj => ⟨by have := (D j hj).1; omega, (D j hj).2⟩, E⟩
      · have n : (TupleWorld.named (addressOf · e) : Cpp (TupleWorld α) Nat) w = .ok (addr l0) w := by
          exact named_ok ha
        rw [Cpp.bind_ok n, Cpp.bind_ok e1]
        simp only [List.map_cons, (A l0 v hv).1]
        rfl
      · intro p hp
        rcases List.mem_cons.mp hp with rfl | hp
        · exact ⟨v, (A l0 v hv).2⟩
        · exact C p hp
    cases a with
    | lvalue e =>
      simp only [Spec.Tup.evalArgs] at h
      obtain ⟨l0, ls0, rfl, hl, hr⟩ := named e false h
      exact lval e false l0 ls0 hl hr
    | moved e =>
      simp only [Spec.Tup.evalArgs] at h
      obtain ⟨l0, ls0, rfl, hl, hr⟩ := named e true h
      exact lval e true l0 ls0 hl hr
    | temp v =>
      simp only [Spec.Tup.evalArgs] at h
      cases hr : Spec.Tup.evalArgs ⟨put st.val (.temp k) (some (some v)), st.slots⟩ (k + 1) args with
      | none => rw [hr] at h; cases h
      | some q =>
        rw [hr] at h
        simp only [Option.bind_eq_bind, Option.bind_some, Option.some.injEq, Prod.mk.injEq] at h
        obtain ⟨rfl, rfl⟩ := h
        obtain ⟨m1, e1, r1⟩ := hc.mem.alloc (hk k (Nat.le_refl k)) (some v)
        have ne : ∀ l v', st.val l = some v' → l ≠ .temp k := fun l v' hv q => by
          rw [q, hk k (Nat.le_refl k)] at hv; cases hv
        have c1 := hc.update r1 (fun l v' hv => ⟨by unfold TupleMem.move; rw [if_neg (ne l v' hv)], v', by
          unfold put; rw [if_neg (ne l v' hv)]; exact hv⟩) (fun l v' hv => by
          unfold put at hv
          by_cases e : l = .temp k
          · exact .inl ⟨k, e⟩
          · rw [if_neg e] at hv; exact .inr ⟨v', hv⟩)
        obtain ⟨addr', w', js, e2, c, s1, s2, s3, A, B, C, D, E⟩ := ih (k + 1) _ _ q.2 q.1 _ c1 (fun j hj => by
          show put st.val (.temp k) (some (some v)) (.temp j) = none
          unfold put
          rw [if_neg (fun q => by injection q; omega)]
          exact hk j (by omega)) hr
        have At := A (.temp k) (some v) (by show put _ _ _ _ = _; unfold put; rw [if_pos rfl])
        refine ⟨addr', w', k :: js, ?_, c, s1, s2, s3, ?_, ?_, ?_, ?_, ?_⟩
        · have n : (onMem (TupleMem.alloc (some v)) : Cpp (TupleWorld α) Nat) w =
              .ok (TupleMem.move addr (.temp k) w.mem.next (.temp k)) { w with mem := m1 } := by
            unfold onMem; rw [e1]
          show ((onMem (TupleMem.alloc (some v)) : Cpp (TupleWorld α) Nat) >>= _) w = _
          rw [Cpp.bind_ok n]
          show ((evalArgs args : Cpp (TupleWorld α) _) >>= _) _ = _
          rw [Cpp.bind_ok e2]
          simp only [List.map_cons, At.1]
          rfl
        · intro l v' hv
          have := A l v' (by show put _ _ _ _ = _; unfold put; rw [if_neg (ne l v' hv)]; exact hv)
          refine ⟨this.1.trans ?_, this.2⟩
          unfold TupleMem.move; rw [if_neg (ne l v' hv)]
        · intro l v' hv
          rcases B l v' hv with h1 | ⟨j, hj, rfl⟩
          · change put st.val (.temp k) (some (some v)) l = some v' at h1
            unfold put at h1
            by_cases e : l = .temp k
            · exact .inr ⟨k, List.mem_cons_self, e⟩
            · rw [if_neg e] at h1; exact .inl h1
          · exact .inr ⟨j, List.mem_cons_of_mem _ hj, rfl⟩
        · intro p hp
          rcases List.mem_cons.mp hp with rfl | hp
          · exact ⟨_, At.2⟩
          · exact C p hp
        · intro j hj
          rcases List.mem_cons.mp hj with rfl | hj
          · exact ⟨Nat.le_refl _, _, At.2⟩
          · exact ⟨by have := (D j hj).1; omega, (D j hj).2⟩
        · refine List.nodup_cons.mpr ⟨fun hm => ?_, E⟩
          have := (D k hm).1; omega

/-- Destruction of objects at the end of a statement. -/
theorem freeAll_ok {addr : Loc → Nat} : ∀ (ls : List Loc) (val : Values α) (m : TupleMem α), Rel addr val m →
    (∀ l ∈ ls, ∃ v, val l = some v) → ls.Nodup →
    ∃ m' val', freeAll (ls.map addr) m = .ok () m' ∧ Rel addr val' m' ∧ (∀ l ∈ ls, val' l = none) ∧
      ∀ l, l ∉ ls → val' l = val l
  | [], val, m, hr, _, _ => ⟨m, val, rfl, hr, by simp, fun _ _ => rfl⟩
  | l :: ls, val, m, hr, hl, hn => by
    rw [List.nodup_cons] at hn
    obtain ⟨m1, val1, e1, r1, A, B⟩ := freeAll_ok ls val m hr (fun l' h => hl l' (List.mem_cons_of_mem _ h)) hn.2
    obtain ⟨v, hv⟩ := hl l List.mem_cons_self
    obtain ⟨m2, e2, r2⟩ := r1.free (l := l) (v := v) (by rw [B l hn.1]; exact hv)
    refine ⟨m2, _, ?_, r2, ?_, ?_⟩
    · show ((freeAll (ls.map addr) : Cpp (TupleMem α) Unit) >>= fun _ => TupleMem.free (addr l)) m = _
      rw [Cpp.bind_ok e1]; exact e2
    · intro l' h
      unfold put
      by_cases q : l' = l
      · rw [if_pos q]
      · rw [if_neg q]
        exact A l' ((List.mem_cons.mp h).resolve_left q)
    · intro l' h
      rw [List.mem_cons, not_or] at h
      unfold put; rw [if_neg h.1]; exact B l' h.2

/-- Destruction of the elements of a tuple. -/
theorem destroyAll_ok {addr : Loc → Nat} {t : Nat} : ∀ (sl : List Slot) (es : List TupleElem) (i : Nat) (val : Values α) (m : TupleMem α),
    SlotsRel addr t i sl es → Rel addr val m → (∀ j : Nat, sl[j]? = some .value → ∃ v, val (.elem t (i + j)) = some v) →
    ∃ m' val', destroyAll es m = .ok () m' ∧ Rel addr val' m' ∧ (∀ j : Nat, sl[j]? = some .value → val' (.elem t (i + j)) = none) ∧
      ∀ l, (∀ j : Nat, sl[j]? = some .value → l ≠ .elem t (i + j)) → val' l = val l
  | [], [], i, val, m, _, hr, _ => ⟨m, val, rfl, hr, by simp, fun _ _ => rfl⟩
  | [], _ :: _, _, _, _, h, _, _ => h.elim
  | _ :: _, [], _, _, _, h, _, _ => h.elim
  | s :: sl, e :: es, i, val, m, h, hr, hl => by
    obtain ⟨m1, val1, e1, r1, A, B⟩ := destroyAll_ok sl es (i + 1) val m h.2 hr (fun j hj => by
      have := hl (j + 1) (by rw [List.getElem?_cons_succ]; exact hj)
      rw [show i + (j + 1) = i + 1 + j by omega] at this; exact this)
    have sh : ∀ j, Loc.elem t (i + (j + 1)) = .elem t (i + 1 + j) := fun j => by
      rw [show i + (j + 1) = i + 1 + j by omega]
    cases s with
    | ref c lo =>
      have he : ∃ c' a, e = .ref c' a := by
        cases e with
        | own a => cases lo <;> exact h.1.elim
        | ref c' a => exact ⟨c', a, rfl⟩
      obtain ⟨c', a, rfl⟩ := he
      refine ⟨m1, val1, ?_, r1, ?_, ?_⟩
      · show ((destroyAll es : Cpp (TupleMem α) Unit) >>= fun _ => pure ()) m = _
        rw [Cpp.bind_ok e1]; rfl
      · intro j hj
        cases j with
        | zero => rw [List.getElem?_cons_zero] at hj; cases hj
        | succ j => rw [List.getElem?_cons_succ] at hj; rw [sh]; exact A j hj
      · intro l hj
        refine B l fun j q => ?_
        have := hj (j + 1) (by rw [List.getElem?_cons_succ]; exact q)
        rw [sh] at this; exact this
    | value =>
      have he : e = .own (addr (.elem t i)) := by
        cases e with
        | ref c a => exact h.1.elim
        | own a => rw [show a = addr (.elem t i) from h.1]
      subst he
      obtain ⟨v, hv⟩ := hl 0 rfl
      rw [Nat.add_zero] at hv
      obtain ⟨m2, e2, r2⟩ := r1.free (l := .elem t i) (v := v) (by
        rw [B _ fun j _ q => by injection q; omega]; exact hv)
      refine ⟨m2, _, ?_, r2, ?_, ?_⟩
      · show ((destroyAll es : Cpp (TupleMem α) Unit) >>= fun _ => TupleMem.free (addr (.elem t i))) m = _
        rw [Cpp.bind_ok e1]; exact e2
      · intro j hj
        unfold put
        cases j with
        | zero => rw [if_pos (by rw [Nat.add_zero])]
        | succ j =>
          rw [List.getElem?_cons_succ] at hj
          rw [if_neg (fun q => by injection q; omega), sh]; exact A j hj
      · intro l hj
        have h0 := hj 0 rfl
        rw [Nat.add_zero] at h0
        unfold put
        rw [if_neg h0]
        refine B l fun j q => ?_
        have := hj (j + 1) (by rw [List.getElem?_cons_succ]; exact q)
        rw [sh] at this; exact this

theorem SlotsRel.without {addr : Loc → Nat} {t : Nat} (gone : Loc → Bool) : ∀ {sl : List Slot} {es : List TupleElem} {i : Nat},
    SlotsRel addr t i sl es → SlotsRel addr t i (sl.map (Slot.without gone)) es
  | [], [], _, _ => trivial
  | [], _ :: _, _, h => h.elim
  | _ :: _, [], _, h => h.elim
  | s :: sl, e :: es, i, h => by
    refine ⟨?_, SlotsRel.without gone h.2⟩
    have h1 := h.1
    cases s with
    | value => exact h1
    | ref c lo =>
      cases e with
      | own a => cases lo <;> exact h1.elim
      | ref c' a =>
        cases lo with
        | none => exact h1
        | some l =>
          show SlotRel addr t i (.ref c ((some l).filter fun l => !gone l)) (.ref c' a)
          cases hg : gone l with
          | true => simp only [Option.filter, hg]; exact h1.1
          | false => simp only [Option.filter, hg]; exact h1

theorem without_value {gone : Loc → Bool} {sl : List Slot} {i : Nat} :
    (sl.map (Slot.without gone))[i]? = some .value ↔ sl[i]? = some .value := by
  rw [List.getElem?_map]
  cases h : sl[i]? with
  | none => simp
  | some s => cases s with
    | value => simp [Slot.without]
    | ref c l => simp [Slot.without]

theorem without_refers {gone : Loc → Bool} {sl : List Slot} {l : Loc} (h : Refers (sl.map (Slot.without gone)) l) :
    Refers sl l ∧ gone l = false := by
  obtain ⟨i, c, hi⟩ := h
  rw [List.getElem?_map] at hi
  cases hs : sl[i]? with
  | none => rw [hs] at hi; cases hi
  | some s =>
    rw [hs] at hi
    cases s with
    | value => simp [Slot.without] at hi
    | ref c' lo =>
      cases lo with
      | none => simp [Slot.without] at hi
      | some l' =>
        cases hg : gone l' with
        | true => simp [Slot.without, Option.filter, hg] at hi
        | false =>
          simp [Slot.without, Option.filter, hg] at hi
          obtain ⟨rfl, rfl⟩ := hi
          exact ⟨⟨i, c', hs⟩, hg⟩

/-! ### From one element after the other to all at the same time -/

/-- can one move from this element? -/
def slotMovable : Slot → Bool
  | .value => true
  | .ref c _ => !c

/-- The objects from which the elements of another tuple get their values. -/
def locsFrom (s : Nat) (move : Bool) : Nat → List Slot → List (Option Loc × Bool)
  | _, [] => []
  | i, sl :: rest => (slotLoc s i sl, move && slotMovable sl) :: locsFrom s move (i + 1) rest

theorem locsFrom_get (s : Nat) (move : Bool) : ∀ (srcs : List Slot) (i j : Nat),
    (locsFrom s move i srcs)[j]? = srcs[j]?.map fun sl => (slotLoc s (i + j) sl, move && slotMovable sl)
  | [], i, j => by simp [locsFrom]
  | sl :: rest, i, j => by
    cases j with
    | zero => rfl
    | succ j =>
      show (locsFrom s move (i + 1) rest)[j]? = _
      rw [locsFrom_get s move rest (i + 1) j, List.getElem?_cons_succ, show i + (j + 1) = i + 1 + j by omega]

theorem locsFrom_length (s : Nat) (move : Bool) : ∀ (srcs : List Slot) (i : Nat), (locsFrom s move i srcs).length = srcs.length
  | [], _ => rfl
  | _ :: rest, i => by simp only [locsFrom, List.length_cons, locsFrom_length s move rest]

theorem transfer_elem (mv : Option α → Option α) (t : Nat) (ks : List Kind) (s : Nat) (srcs : List Slot) (move : Bool)
    (val : Values α) (t' i : Nat) : transfer mv t ks s srcs move val (.elem t' i) =
      if t' = t ∧ ks[i]? = some .value then (elemLoc s srcs i).bind val
      else if move = true ∧ t' = s ∧ ks[i]? = some .value ∧ srcs[i]? = some .value then (val (.elem s i)).map mv
      else val (.elem t' i) := rfl

theorem take_get {β : Type} (l : List β) (n i : Nat) : (l.take n)[i]? = if i < n then l[i]? else none := by
  rw [List.getElem?_take]

/-- Elements before number `n` have their values already. -/
theorem transfer_from (mv : Option α → Option α) (t : Nat) (ks : List Kind) (s : Nat) (srcs : List Slot) (move : Bool)
    (val : Values α) (hlen : ks.length = srcs.length) (hr : Readable ks s srcs val)
    (h1 : ¬ Overtaken ks s srcs (fun i => some (.elem t i)))
    (h2 : move = true → ¬ MovesReferenced ks srcs ∧ ¬ Overtaken ks s srcs (ownLoc s srcs)) :
    ∀ (d n : Nat), n + d = ks.length →
      initOneByOne mv t n ((ks.zip (locsFrom s move 0 srcs)).drop n) (transfer mv t (ks.take n) s srcs move val) =
        some (transfer mv t ks s srcs move val) := by
  intro d
  induction d with
  | zero =>
    intro n hn
    rw [List.drop_eq_nil_of_le (by rw [List.length_zip, locsFrom_length]; omega), List.take_of_length_le (by omega)]
    rfl
  | succ d ih =>
    intro n hn
    have hn' : n < ks.length := by omega
    have hn'' : n < srcs.length := by omega
    obtain ⟨k, hk⟩ : ∃ k, ks[n]? = some k := ⟨_, List.getElem?_eq_getElem hn'⟩
    obtain ⟨sl, hsl⟩ : ∃ sl, srcs[n]? = some sl := ⟨_, List.getElem?_eq_getElem hn''⟩
    have hx : (ks.zip (locsFrom s move 0 srcs))[n]? = some (k, slotLoc s n sl, move && slotMovable sl) := by
      rw [List.getElem?_zip_eq_some]
      refine ⟨hk, ?_⟩
      rw [locsFrom_get, hsl, Nat.zero_add]; rfl
    have hlt : n < (ks.zip (locsFrom s move 0 srcs)).length := by rw [List.length_zip, locsFrom_length]; omega
    have hd : (ks.zip (locsFrom s move 0 srcs)).drop n =
        (k, slotLoc s n sl, move && slotMovable sl) :: (ks.zip (locsFrom s move 0 srcs)).drop (n + 1) := by
      rw [List.drop_eq_getElem_cons hlt]
      rw [List.getElem?_eq_getElem hlt, Option.some.injEq] at hx
      rw [hx]
    rw [hd]
    have el : elemLoc s srcs n = slotLoc s n sl := by unfold elemLoc; rw [hsl]; rfl
    cases k with
    | ref c =>
      simp only [initOneByOne]
      rw [← ih (n + 1) (by omega)]
      congr 1
      funext l
      cases l with
      | var x => rfl
      | temp x => rfl
      | elem t' i =>
        have tk : ((ks.take n)[i]? = some .value) = ((ks.take (n + 1))[i]? = some Kind.value) := by
          rw [take_get, take_get]
          by_cases q : i < n
          · rw [if_pos q, if_pos (by omega)]
          · by_cases q' : i = n
            · subst q'; rw [if_neg q, if_pos (by omega), hk]; simp
            · rw [if_neg q, if_neg (by omega)]
        rw [transfer_elem, transfer_elem]
        simp only [tk]
    | value =>
      simp only [initOneByOne]
      have hrn := hr n hn' hk
      rw [el] at hrn
      cases hl : slotLoc s n sl with
      | none => rw [hl] at hrn; simp at hrn
      | some l0 =>
        rw [hl, Option.bind_some] at hrn
        obtain ⟨v, hv⟩ := isSome_of hrn
        simp only [Option.bind_eq_bind, Option.bind_some]
        -- the object has not been changed yet
        have hread : transfer mv t (ks.take n) s srcs move val l0 = some v := by
          cases l0 with
          | var x => exact hv
          | temp x => exact hv
          | elem t' i =>
            rw [transfer_elem]
            have hel : elemLoc s srcs n = some (.elem t' i) := by rw [el, hl]
            by_cases q : i < n
            · rw [take_get, if_pos q]
              have c1 : ¬ (t' = t ∧ ks[i]? = some .value) := by
                rintro ⟨rfl, hi⟩
                exact h1 ⟨i, n, q, hi, hk, hel, rfl⟩
              rw [if_neg c1]
              have c2 : ¬ (move = true ∧ t' = s ∧ ks[i]? = some .value ∧ srcs[i]? = some .value) := by
                rintro ⟨hm, rfl, hi, hsi⟩
                have ho : ownLoc t' srcs i = some (.elem t' i) := by unfold ownLoc; rw [if_pos hsi]
                exact (h2 hm).2 ⟨i, n, q, hi, hk, by rw [ho]; exact hel, by rw [ho]; rfl⟩
              rw [if_neg c2]
              exact hv
            · rw [take_get, if_neg q, if_neg (fun h => by cases h.2), if_neg (fun h => by cases h.2.2.1)]
              exact hv
        rw [hread]
        simp only [Option.bind_some]
        rw [← ih (n + 1) (by omega)]
        congr 1
        -- the flag tells whether an own element of `s` is moved from
        have hflag : ((move && slotMovable sl) = true → move = true ∧ sl = .value ∧ l0 = .elem s n) ∧
            (move = true → sl = .value → (move && slotMovable sl) = true) := by
          refine ⟨fun h => ?_, fun hm hs => by rw [hm, hs]; rfl⟩
          cases sl with
          | value =>
            simp only [slotLoc, Option.some.injEq] at hl
            exact ⟨by simpa [slotMovable] using h, rfl, hl.symm⟩
          | ref c lo =>
            cases c with
            | true => simp [slotMovable] at h
            | false =>
              have hm : move = true := by simpa [slotMovable] using h
              exact ((h2 hm).1 ⟨n, lo, hk, hsl⟩).elim
        have hput : ∀ l, (if (move && slotMovable sl) = true then
            put (transfer mv t (ks.take n) s srcs move val) l0 (some (mv v))
            else transfer mv t (ks.take n) s srcs move val) l =
            if move = true ∧ sl = .value ∧ l = .elem s n then some (mv v) else transfer mv t (ks.take n) s srcs move val l := by
          intro l
          by_cases f : (move && slotMovable sl) = true
          · obtain ⟨hm, hs, h0⟩ := hflag.1 f
            rw [if_pos f]
            unfold put
            by_cases q : l = l0
            · rw [if_pos q, if_pos ⟨hm, hs, by rw [q, h0]⟩]
            · rw [if_neg q, if_neg (fun h => q (by rw [h.2.2, h0]))]
          · rw [if_neg f, if_neg (fun h => f (hflag.2 h.1 h.2.1))]
        funext l
        show put _ (.elem t n) (some v) l = _
        unfold put at hput ⊢
        rw [hput]
        cases l with
        | var x => rw [if_neg nofun, if_neg (fun h => nomatch h.2.2)]; rfl
        | temp x => rw [if_neg nofun, if_neg (fun h => nomatch h.2.2)]; rfl
        | elem t' i =>
          rw [transfer_elem, transfer_elem]
          by_cases q : i = n
          · subst q
            have tn : (ks.take i)[i]? = none := by rw [take_get, if_neg (by omega)]
            have tn1 : (ks.take (i + 1))[i]? = some .value := by rw [take_get, if_pos (by omega), hk]
            rw [tn, tn1]
            by_cases q1 : t' = t
            · subst q1
              rw [if_pos rfl, if_pos ⟨rfl, rfl⟩, el, hl]; exact hv.symm
            · have c0 : ∀ P : Prop, ¬ (t' = t ∧ P) := fun P h => q1 h.1
              rw [if_neg (fun h => by injection h; contradiction), if_neg (c0 _), if_neg (c0 _)]
              by_cases q2 : move = true ∧ sl = .value ∧ t' = s
              · obtain ⟨hm, hs, ht⟩ := q2
                subst ht
                have h0 : l0 = .elem t' i := by rw [hs] at hl; simpa [slotLoc] using hl.symm
                rw [if_pos ⟨hm, hs, rfl⟩, if_pos ⟨hm, rfl, rfl, by rw [hsl, hs]⟩, ← h0, hv]; rfl
              · rw [if_neg (fun h => q2 ⟨h.1, h.2.1, by injection h.2.2⟩),
                  if_neg (fun h => by cases h.2.2.1), if_neg (fun h => q2 ⟨h.1, by
                    have h4 := h.2.2.2; rw [hsl, Option.some.injEq] at h4; exact h4, h.2.1⟩)]
          · have tk : (ks.take (n + 1))[i]? = (ks.take n)[i]? := by
              rw [take_get, take_get]
              by_cases q' : i < n
              · rw [if_pos (by omega), if_pos q']
              · rw [if_neg (by omega), if_neg q']
            rw [tk, if_neg (fun h => q (by injection h)), if_neg (fun h => q (by injection h.2.2))]

theorem transfer_init (mv : Option α → Option α) (t : Nat) (ks : List Kind) (s : Nat) (srcs : List Slot) (move : Bool)
    (val : Values α) (hlen : ks.length = srcs.length) (hr : Readable ks s srcs val)
    (h1 : ¬ Overtaken ks s srcs (fun i => some (.elem t i)))
    (h2 : move = true → ¬ MovesReferenced ks srcs ∧ ¬ Overtaken ks s srcs (ownLoc s srcs)) :
    initOneByOne mv t 0 (ks.zip (locsFrom s move 0 srcs)) val = some (transfer mv t ks s srcs move val) := by
  have h := transfer_from mv t ks s srcs move val hlen hr h1 h2 ks.length 0 (by omega)
  have e : transfer mv t (ks.take 0) s srcs move val = val := by
    funext l
    cases l with
    | var x => rfl
    | temp x => rfl
    | elem t' i => rw [transfer_elem]; simp
  rw [e, List.drop_zero] at h
  exact h

/-! ### The elements after construction and assignment -/

def slotOf (x : Kind × Option Loc × Bool) : Slot :=
  match x.1 with
  | .value => .value
  | .ref c => .ref c x.2.1

theorem made_slots {addr : Loc → Nat} {val : Values α} {t : Nat} {xs : List (Kind × Option Loc × Bool)}
    {ys : List (Kind × Nat × Bool)} (h : Items addr val xs ys) : ∀ {i : Nat} {es : List TupleElem}, Made addr t i ys es →
      SlotsRel addr t i (xs.map slotOf) es := by
  induction h with
  | nil => intro i es hm; cases (show es = [] from hm); trivial
  | cons k l a move xs ys hl _ ih =>
    intro i es hm
    obtain ⟨e, es', rfl, hm, he⟩ := hm
    refine ⟨?_, ih hm⟩
    subst he
    cases k with
    | value => exact rfl
    | ref c =>
      show SlotRel addr t i (.ref c l) (.ref c a)
      cases l with
      | none => exact rfl
      | some l => exact ⟨rfl, (hl l rfl).1⟩

theorem slotOf_value {xs : List (Kind × Option Loc × Bool)} {i : Nat} :
    (xs.map slotOf)[i]? = some .value ↔ ∃ p, xs[i]? = some (.value, p) := by
  rw [List.getElem?_map]
  cases h : xs[i]? with
  | none => simp
  | some x =>
    obtain ⟨k, p⟩ := x
    cases k with
    | value => simp [slotOf]
    | ref c => simp [slotOf]

theorem slotOf_refers {addr : Loc → Nat} {val : Values α} {xs : List (Kind × Option Loc × Bool)} {ys : List (Kind × Nat × Bool)}
    (h : Items addr val xs ys) {l : Loc} (hr : Refers (xs.map slotOf) l) : ∃ v, val l = some v := by
  obtain ⟨i, c, hi⟩ := hr
  induction h generalizing i with
  | nil => simp at hi
  | cons k lo a move xs ys hl _ ih =>
    cases i with
    | zero =>
      rw [List.map_cons, List.getElem?_cons_zero, Option.some.injEq] at hi
      cases k with
      | value => simp [slotOf] at hi
      | ref c' =>
        simp only [slotOf, Slot.ref.injEq] at hi
        exact (hl l hi.2).2
    | succ i =>
      rw [List.map_cons, List.getElem?_cons_succ] at hi
      exact ih i hi

theorem slotsOf_eq : ∀ (ks : List Kind) (ls : List (Loc × Bool)),
    slotsOf (ks.zip (ls.map (·.1))) = (ks.zip (ls.map fun p => (some p.1, p.2))).map slotOf
  | [], _ => rfl
  | _ :: _, [] => rfl
  | .value :: ks, p :: ls => by
    show Slot.value :: slotsOf _ = Slot.value :: _
    rw [show slotsOf (List.zipWith Prod.mk ks (ls.map (·.1))) = _ from slotsOf_eq ks ls]; rfl
  | .ref c :: ks, p :: ls => by
    show Slot.ref c (some p.1) :: slotsOf _ = Slot.ref c (some p.1) :: _
    rw [show slotsOf (List.zipWith Prod.mk ks (ls.map (·.1))) = _ from slotsOf_eq ks ls]; rfl

theorem slotsFrom_eq (ks : List Kind) (s : Nat) (srcs : List Slot) (move : Bool) (h : ks.length = srcs.length) :
    slotsFrom ks s srcs = (ks.zip (locsFrom s move 0 srcs)).map slotOf := by
  apply List.ext_getElem?
  intro i
  unfold slotsFrom
  rw [List.getElem?_mapIdx, List.getElem?_map]
  by_cases q : i < ks.length
  · obtain ⟨k, hk⟩ : ∃ k, ks[i]? = some k := ⟨_, List.getElem?_eq_getElem q⟩
    obtain ⟨sl, hsl⟩ : ∃ sl, srcs[i]? = some sl := ⟨_, List.getElem?_eq_getElem (by omega)⟩
    have hx : (ks.zip (locsFrom s move 0 srcs))[i]? = some (k, slotLoc s i sl, move && slotMovable sl) := by
      rw [List.getElem?_zip_eq_some]
      refine ⟨hk, ?_⟩
      rw [locsFrom_get, hsl, Nat.zero_add]; rfl
    rw [hk, hx]
    simp only [Option.map_some, slotOf, elemLoc, hsl, Option.bind_some]
    cases k <;> rfl
  · rw [List.getElem?_eq_none (by omega), List.getElem?_eq_none (by rw [List.length_zip]; omega)]; rfl

theorem items_args {addr : Loc → Nat} {val : Values α} : ∀ (ks : List Kind) (ls : List (Loc × Bool)),
    (∀ p ∈ ls, ∃ v, val p.1 = some v) →
    Items addr val (ks.zip (ls.map fun p => (some p.1, p.2))) (ks.zip (ls.map fun p => (addr p.1, p.2)))
  | [], _, _ => .nil
  | _ :: _, [], _ => .nil
  | k :: ks, p :: ls, h =>
    .cons k (some p.1) (addr p.1) p.2 _ _ (fun l' e => by
      cases e; exact ⟨rfl, h p List.mem_cons_self⟩) (items_args ks ls fun q hq => h q (List.mem_cons_of_mem _ hq))

theorem items_from {addr : Loc → Nat} {val : Values α} {s : Nat} (move : Bool) : ∀ (ks : List Kind) (srcs : List Slot)
    (es : List TupleElem) (i : Nat), SlotsRel addr s i srcs es →
    (∀ j : Nat, srcs[j]? = some .value → ∃ v, val (.elem s (i + j)) = some v) → (∀ l, Refers srcs l → ∃ v, val l = some v) →
    Items addr val (ks.zip (locsFrom s move i srcs)) (ks.zip (es.map fun e => (e.address, move && e.movable)))
  | [], _, _, _, _, _, _ => by simp only [List.zip_nil_left]; exact .nil
  | k :: ks, [], [], _, _, _, _ => .nil
  | _, [], _ :: _, _, h, _, _ => h.elim
  | _, _ :: _, [], _, h, _, _ => h.elim
  | k :: ks, sl :: srcs, e :: es, i, h, hv, hr => by
    have rest := items_from (val := val) move ks srcs es (i + 1) h.2 (fun j hj => by
      have := hv (j + 1) (by rw [List.getElem?_cons_succ]; exact hj)
      rw [show i + 1 + j = i + (j + 1) by omega]; exact this) (fun l ⟨j, c, hj⟩ => hr l ⟨j + 1, c, by
        rw [List.getElem?_cons_succ]; exact hj⟩)
    have h1 := h.1
    have hm : e.movable = slotMovable sl := by
      cases sl with
      | value => cases e with
        | own a => rfl
        | ref c a => exact h1.elim
      | ref c lo => cases e with
        | own a => cases lo <;> exact h1.elim
        | ref c' a =>
          have : c' = c := by cases lo with
            | none => exact h1
            | some l => exact h1.1
          rw [this]; rfl
    show Items addr val ((k, slotLoc s i sl, move && slotMovable sl) :: ks.zip (locsFrom s move (i + 1) srcs))
      ((k, e.address, move && e.movable) :: ks.zip (es.map fun e => (e.address, move && e.movable)))
    rw [hm]
    refine .cons k _ _ _ _ _ (fun l' q => ?_) rest
    cases sl with
    | value =>
      cases e with
      | ref c a => exact h1.elim
      | own a =>
        simp only [slotLoc, Option.some.injEq] at q
        subst q
        exact ⟨h1, by have := hv 0 rfl; rw [Nat.add_zero] at this; exact this⟩
    | ref c lo =>
      simp only [slotLoc] at q
      subst q
      cases e with
      | own a => exact h1.elim
      | ref c' a => exact ⟨h1.2, hr l' ⟨0, c, rfl⟩⟩

/-- A tuple was made, or another tuple was assigned to it. -/
theorem Core.setTuple {addr addr' : Loc → Nat} {st : State α} {w : TupleWorld α} (h : Core addr st w) {t : Nat} {val' : Values α}
    {mem' : TupleMem α} {sl' : List Slot} {es' : List TupleElem} (hm : Rel addr' val' mem')
    (H1 : ∀ l v, st.val l = some v → addr' l = addr l ∧ ∃ v', val' l = some v')
    (H2 : ∀ l v, val' l = some v → (∃ v', st.val l = some v') ∨ ∃ j : Nat, sl'[j]? = some .value ∧ l = .elem t j)
    (H3 : ∀ i v, val' (.elem t i) = some v → sl'[i]? = some .value)
    (H4 : ∀ i : Nat, sl'[i]? = some .value → ∃ v, val' (.elem t i) = some v)
    (hs : SlotsRel addr' t 0 sl' es') (hr : ∀ l, Refers sl' l → ∃ v, val' l = some v) :
    Core addr' ⟨val', setSlots st.slots t (some sl')⟩
      ⟨mem', w.vars, fun u => if u = t then some es' else w.tuples u⟩ := by
  have L : ∀ l, (∀ i, l ≠ .elem t i) → ((val' l).isSome = true ↔ (st.val l).isSome = true) := by
    intro l hl
    constructor
    · intro q
      obtain ⟨v, hv⟩ := isSome_of q
      rcases H2 l v hv with ⟨v', hv'⟩ | ⟨j, _, hj⟩
      · rw [hv']; rfl
      · exact (hl j hj).elim
    · intro q
      obtain ⟨v, hv⟩ := isSome_of q
      obtain ⟨_, v', hv'⟩ := H1 l v hv
      rw [hv']; rfl
  refine ⟨hm, fun x => ?_, fun u => ?_, fun u i => ?_, fun u sl l hu hl => ?_⟩
  · show w.vars x = _
    rw [h.vars]
    have lx := L (.var x) (fun k => nofun)
    cases hv : st.val (.var x) with
    | none =>
      cases hv' : val' (.var x) with
      | none => show none = (val' (.var x)).map _; rw [hv']; rfl
      | some v => rw [hv, hv'] at lx; exact absurd (lx.mp rfl) (by simp)
    | some v =>
      obtain ⟨q, v', hv'⟩ := H1 _ v hv
      show some (addr (.var x)) = (val' (.var x)).map _
      rw [hv', ← q]; rfl
  · show TupleRel addr' u (setSlots st.slots t (some sl') u) (if u = t then some es' else w.tuples u)
    unfold setSlots
    by_cases q : u = t
    · rw [if_pos q, if_pos q, q]; exact hs
    · rw [if_neg q, if_neg q]; exact h.tuples_mono (fun l v hv => (H1 l v hv).1) u
  · show (val' (.elem u i)).isSome = true ↔ ∃ sl, setSlots st.slots t (some sl') u = some sl ∧ _
    unfold setSlots
    by_cases q : u = t
    · subst q
      rw [if_pos rfl]
      constructor
      · intro r
        obtain ⟨v, hv⟩ := isSome_of r
        exact ⟨sl', rfl, H3 i v hv⟩
      · rintro ⟨sl, e, hi⟩
        cases e
        obtain ⟨v, hv⟩ := H4 i hi
        rw [hv]; rfl
    · rw [if_neg q, L (.elem u i) (fun k e => q (by injection e))]
      exact h.elems u i
  · change setSlots st.slots t (some sl') u = some sl at hu
    unfold setSlots at hu
    show (val' l).isSome = true
    by_cases q : u = t
    · rw [if_pos q] at hu
      cases hu
      obtain ⟨v, hv⟩ := hr l hl
      rw [hv]; rfl
    · rw [if_neg q] at hu
      obtain ⟨v, hv⟩ := isSome_of (h.refs u sl l hu hl)
      obtain ⟨_, v', hv'⟩ := H1 l v hv
      rw [hv']; rfl

/-- Objects were destroyed. -/
theorem Core.forget {addr : Loc → Nat} {st : State α} {w : TupleWorld α} (h : Core addr st w) (gone : Loc → Bool)
    {mem' : TupleMem α} {vars' : Nat → Option Nat} {tuples' : Nat → Option (List TupleElem)} {slots' : Nat → Option (List Slot)}
    (hm : Rel addr (fun l => if gone l then none else st.val l) mem')
    (hvars : ∀ x, vars' x = if gone (.var x) then none else w.vars x)
    (ht : ∀ t, (tuples' t = none ∧ slots' t = none ∧ ∀ i, gone (.elem t i) = true) ∨
      (tuples' t = w.tuples t ∧ slots' t = (st.slots t).map (·.map (Slot.without gone)) ∧ ∀ i, gone (.elem t i) = false)) :
    Core addr ⟨fun l => if gone l then none else st.val l, slots'⟩ ⟨mem', vars', tuples'⟩ := by
  refine ⟨hm, fun x => ?_, fun t => ?_, fun t i => ?_, fun t sl l hs hl => ?_⟩
  · show vars' x = (if gone (.var x) then none else st.val (.var x)).map _
    rw [hvars, h.vars]
    cases gone (.var x) <;> rfl
  · show TupleRel addr t (slots' t) (tuples' t)
    rcases ht t with ⟨e1, e2, _⟩ | ⟨e1, e2, _⟩
    · rw [e1, e2]; trivial
    · rw [e1, e2]
      have h0 := h.tuples t
      cases q1 : st.slots t with
      | none =>
        rw [q1] at h0
        cases q2 : w.tuples t with
        | none => trivial
        | some es => rw [q2] at h0; exact h0.elim
      | some sl =>
        rw [q1] at h0
        cases q2 : w.tuples t with
        | none => rw [q2] at h0; exact h0.elim
        | some es => rw [q2] at h0; exact SlotsRel.without gone (show SlotsRel addr t 0 sl es from h0)
  · show (if gone (.elem t i) then none else st.val (.elem t i)).isSome = true ↔ ∃ sl, slots' t = some sl ∧ _
    rcases ht t with ⟨_, e2, g⟩ | ⟨_, e2, g⟩
    · rw [e2, g i]; simp
    · rw [e2, g i]
      simp only [Bool.false_eq_true, if_false]
      rw [h.elems]
      constructor
      · rintro ⟨sl, hs, hi⟩
        exact ⟨sl.map (Slot.without gone), by rw [hs]; rfl, without_value.mpr hi⟩
      · rintro ⟨sl', hs', hi⟩
        cases q1 : st.slots t with
        | none => rw [q1] at hs'; cases hs'
        | some sl =>
          rw [q1] at hs'
          simp only [Option.map_some, Option.some.injEq] at hs'
          subst hs'
          exact ⟨sl, rfl, without_value.mp hi⟩
  · show (if gone l then none else st.val l).isSome = true
    change slots' t = some sl at hs
    rcases ht t with ⟨_, e2, _⟩ | ⟨_, e2, _⟩
    · rw [e2] at hs; cases hs
    · rw [e2] at hs
      cases q1 : st.slots t with
      | none => rw [q1] at hs; cases hs
      | some sl0 =>
        rw [q1] at hs
        simp only [Option.map_some, Option.some.injEq] at hs
        subst hs
        obtain ⟨hl0, g⟩ := without_refers hl
        rw [g]
        exact h.refs t sl0 l q1 hl0

/-! ### Statements -/

theorem Core.tuple {addr : Loc → Nat} {st : State α} {w : TupleWorld α} (h : Core addr st w) {t : Nat} {sl : List Slot}
    (hs : st.slots t = some sl) : ∃ es, w.tuples t = some es ∧ SlotsRel addr t 0 sl es := by
  have h0 := h.tuples t
  rw [hs] at h0
  cases hw : w.tuples t with
  | none => rw [hw] at h0; exact h0.elim
  | some es => rw [hw] at h0; exact ⟨es, rfl, h0⟩

theorem Core.noTuple {addr : Loc → Nat} {st : State α} {w : TupleWorld α} (h : Core addr st w) {t : Nat}
    (hs : st.slots t = none) : w.tuples t = none := by
  have h0 := h.tuples t
  rw [hs] at h0
  cases hw : w.tuples t with
  | none => rfl
  | some es => rw [hw] at h0; exact h0.elim

theorem Core.fresh {addr : Loc → Nat} {st : State α} {w : TupleWorld α} (h : Core addr st w) {t : Nat}
    (hs : st.slots t = none) (i : Nat) : st.val (.elem t i) = none := by
  cases hv : st.val (.elem t i) with
  | none => rfl
  | some v =>
    obtain ⟨sl, q, _⟩ := (h.elems t i).mp (by rw [hv]; rfl)
    rw [hs] at q; cases q

/-- the value of a variable or element changes -/
theorem Core.store {addr : Loc → Nat} {st : State α} {w : TupleWorld α} (h : Core addr st w) {l : Loc} {v : Option α}
    (hl : st.val l = some v) (v' : Option α) : ∃ mem', (onMem (TupleMem.store (addr l) v') : Cpp (TupleWorld α) Unit) w =
      .ok () { w with mem := mem' } ∧ Core addr ⟨put st.val l (some v'), st.slots⟩ { w with mem := mem' } := by
  obtain ⟨m1, e1, r1⟩ := h.mem.store hl v'
  refine ⟨m1, onMem_ok e1, h.update r1 (fun k u hk => ⟨rfl, ?_⟩) (fun k u hk => .inr ?_)⟩
  · unfold put
    by_cases q : k = l
    · exact ⟨v', by rw [if_pos q]⟩
    · exact ⟨u, by rw [if_neg q]; exact hk⟩
  · unfold put at hk
    by_cases q : k = l
    · exact ⟨v, by rw [q]; exact hl⟩
    · rw [if_neg q] at hk; exact ⟨u, hk⟩

theorem step_var (mv : Option α → Option α) {st st' : State α} {w : TupleWorld α} {r : Ret α} (x : Nat) (v : α) (hM : Matches st w)
    (h : Spec.Tup.step mv st (.var x v) = some (st', r)) : ∃ w', step mv (.var x v) w = .ok r w' ∧ Matches st' w' := by
  obtain ⟨addr, hc, hT⟩ := hM
  simp only [Spec.Tup.step] at h
  by_cases q : (st.val (.var x)).isSome = true
  · rw [if_pos q] at h; cases h
  · rw [if_neg q, Option.some.injEq, Prod.mk.injEq] at h
    obtain ⟨rfl, rfl⟩ := h
    have hn : st.val (.var x) = none := by simpa using q
    obtain ⟨m1, e1, r1⟩ := hc.mem.alloc hn (some v)
    have ne : ∀ l u, st.val l = some u → l ≠ .var x := fun l u hu q => by rw [q, hn] at hu; cases hu
    have ag : ∀ l u, st.val l = some u → TupleMem.move addr (.var x) w.mem.next l = addr l := fun l u hu => by
      unfold TupleMem.move; rw [if_neg (ne l u hu)]
    have wx : w.vars x = none := by rw [hc.vars, hn]; rfl
    refine ⟨⟨m1, fun y => if y = x then some (TupleMem.move addr (.var x) w.mem.next (.var x)) else w.vars y, w.tuples⟩, ?_,
      TupleMem.move addr (.var x) w.mem.next, ⟨r1, fun y => ?_, hc.tuples_mono ag, fun t i => ?_, fun t sl l hs hl => ?_⟩, fun k => ?_⟩
    · show (named _ >>= fun _ => _ : Cpp (TupleWorld α) (Ret α)) w = _
      rw [Cpp.bind_ok (named_ok (v := ()) (by rw [wx]; rfl)), Cpp.bind_ok (onMem_ok e1)]
      rfl
    · show (if y = x then _ else w.vars y) = (put st.val (.var x) (some (some v)) (.var y)).map _
      unfold put
      by_cases q : y = x
      · subst q; rw [if_pos rfl, if_pos rfl]; rfl
      · rw [if_neg q, if_neg (fun h => q (by injection h)), hc.vars]
        unfold TupleMem.move
        rw [if_neg (fun h : Loc.var y = .var x => q (by injection h))]
    · show (put st.val (.var x) (some (some v)) (.elem t i)).isSome = true ↔ _
      unfold put; rw [if_neg nofun]; exact hc.elems t i
    · show (put st.val (.var x) (some (some v)) l).isSome = true
      obtain ⟨u, hu⟩ := isSome_of (hc.refs t sl l hs hl)
      unfold put; rw [if_neg (ne l u hu), hu]; rfl
    · show put st.val (.var x) (some (some v)) (.temp k) = none
      unfold put; rw [if_neg nofun]; exact hT k

theorem step_endVar (mv : Option α → Option α) {st st' : State α} {w : TupleWorld α} {r : Ret α} (x : Nat) (hM : Matches st w)
    (h : Spec.Tup.step mv st (.endVar x) = some (st', r)) : ∃ w', step mv (.endVar x) w = .ok r w' ∧ Matches st' w' := by
  obtain ⟨addr, hc, hT⟩ := hM
  simp only [Spec.Tup.step] at h
  by_cases q : (st.val (.var x)).isSome = true
  · rw [if_pos q, Option.some.injEq, Prod.mk.injEq] at h
    obtain ⟨rfl, rfl⟩ := h
    obtain ⟨v, hv⟩ := isSome_of q
    obtain ⟨m1, e1, r1⟩ := hc.mem.free hv
    have wx : w.vars x = some (addr (.var x)) := by rw [hc.vars, hv]; rfl
    have ev : put st.val (.var x) none = fun l => if (l == .var x) = true then none else st.val l := by
      funext l; unfold put; by_cases q : l = .var x <;> simp [q]
    rw [ev] at r1
    refine ⟨⟨m1, fun y => if y = x then none else w.vars y, w.tuples⟩, ?_, addr,
      hc.forget (· == .var x) r1 (fun y => ?_) (fun t => .inr ⟨rfl, rfl, fun i => by simp⟩), fun k => ?_⟩
    · show (named _ >>= fun _ => _ : Cpp (TupleWorld α) (Ret α)) w = _
      rw [Cpp.bind_ok (named_ok wx), Cpp.bind_ok (onMem_ok e1)]
      rfl
    · by_cases q : y = x <;> simp [q]
    · simp [Spec.Tup.forget, hT k]
  · rw [if_neg q] at h; cases h

theorem step_make (mv : Option α → Option α) {st st' : State α} {w : TupleWorld α} {r : Ret α} (t : Nat) (ks : List Kind)
    (args : List (Arg α)) (hM : Matches st w) (h : Spec.Tup.step mv st (.make t ks args) = some (st', r)) :
    ∃ w', step mv (.make t ks args) w = .ok r w' ∧ Matches st' w' := by
  obtain ⟨addr, hc, hT⟩ := hM
  simp only [Spec.Tup.step] at h
  by_cases q : ¬ (st.slots t = none ∧ ks.length = args.length)
  · rw [if_neg q] at h; cases h
  replace q := Classical.not_not.mp q
  obtain ⟨hs, hlen⟩ := q
  rw [if_pos ⟨hs, hlen⟩] at h
  cases he : Spec.Tup.evalArgs st 0 args with
  | none => rw [he] at h; cases h
  | some q =>
  obtain ⟨ls, st1⟩ := q
  rw [he] at h
  simp only [Option.bind_eq_bind, Option.bind_some] at h
  cases hi : initOneByOne mv t 0 (ks.zip (ls.map fun p => (some p.1, p.2))) st1.val with
  | none => rw [hi] at h; cases h
  | some val =>
  rw [hi] at h
  simp only [Option.bind_some, Option.some.injEq, Prod.mk.injEq] at h
  obtain ⟨rfl, rfl⟩ := h
  obtain ⟨addr1, w1, js, e1, c1, s1, s2, s3, A, B, C, D, E⟩ := evalArgs_ok args 0 addr st st1 ls w hc (fun j _ => hT j) he
  have hs1 : st1.slots t = none := by rw [s1]; exact hs
  obtain ⟨addr2, m2, es, e2, r2, A2, M2⟩ := constructAll_ok mv t _ _ 0 addr1 st1.val val w1.mem (items_args ks ls C) c1.mem
    (fun j _ => c1.fresh hs1 j) hi
  have live := init_live mv t _ 0 _ _ hi
  have keep : ∀ l v, st1.val l = some v → addr2 l = addr1 l ∧ ∃ v', val l = some v' := fun l v hv =>
    ⟨A2 l v hv, isSome_of ((live l).mpr (.inl (by rw [hv]; rfl)))⟩
  have I2 := (items_args (addr := addr1) (val := st1.val) ks ls C).mono keep
  have sv : ∀ j : Nat, ((ks.zip (ls.map fun p => (some p.1, p.2))).map slotOf)[j]? = some .value →
      ∃ v, val (.elem t j) = some v := fun j hj => by
    obtain ⟨p, hp⟩ := slotOf_value.mp hj
    exact isSome_of ((live _).mpr (.inr ⟨j, p, hp, by rw [Nat.zero_add]⟩))
  have c2 := c1.setTuple (t := t) (sl' := (ks.zip (ls.map fun p => (some p.1, p.2))).map slotOf) (es' := es) r2 keep
    (fun l v hv => by
      rcases (live l).mp (by rw [hv]; rfl) with h1 | ⟨j, p, hp, e⟩
      · exact .inl (isSome_of h1)
      · exact .inr ⟨j, slotOf_value.mpr ⟨p, hp⟩, by rw [e, Nat.zero_add]⟩)
    (fun i v hv => by
      rcases (live (.elem t i)).mp (by rw [hv]; rfl) with h1 | ⟨j, p, hp, e⟩
      · rw [c1.fresh hs1 i] at h1; cases h1
      · injection e with _ e
        rw [Nat.zero_add] at e
        rw [e]; exact slotOf_value.mpr ⟨p, hp⟩)
    sv (made_slots I2 M2) (fun l hl => slotOf_refers I2 hl)
  rw [← slotsOf_eq] at c2
  -- the temporary objects are destroyed
  have tl : ∀ l ∈ js.map Loc.temp, ∃ v, val l = some v := by
    intro l hl
    obtain ⟨j, hj, rfl⟩ := List.mem_map.mp hl
    obtain ⟨_, v, hv⟩ := D j hj
    exact (keep _ v hv).2
  have tn : (js.map Loc.temp).Nodup := List.Pairwise.map _ (fun a b hab e => hab (by injection e)) E
  obtain ⟨m3, val3, e3, r3, F1, F2⟩ := freeAll_ok (js.map Loc.temp) val m2 r2 tl tn
  have ev : val3 = fun l => if isTemp l then none else val l := by
    funext l
    by_cases q : l ∈ js.map Loc.temp
    · rw [F1 l q]
      obtain ⟨j, _, rfl⟩ := List.mem_map.mp q
      rfl
    · rw [F2 l q]
      cases l with
      | var x => rfl
      | elem u i => rfl
      | temp k =>
        show val (.temp k) = none
        cases hv : val (.temp k) with
        | none => rfl
        | some v =>
          rcases (live (.temp k)).mp (by rw [hv]; rfl) with h1 | ⟨j, p, hp, e⟩
          · obtain ⟨v', hv'⟩ := isSome_of h1
            rcases B _ v' hv' with h2 | ⟨j, hj, e⟩
            · rw [hT] at h2; cases h2
            · exact (q (List.mem_map.mpr ⟨j, hj, e.symm⟩)).elim
          · cases e
  rw [ev] at r3
  have c3 := c2.forget isTemp (mem' := m3) (vars' := w1.vars) (tuples' := fun u => if u = t then some es else w1.tuples u)
    (slots' := fun u => ((setSlots st1.slots t (some (slotsOf (ks.zip (ls.map (·.1)))))) u).map (·.map (Slot.without isTemp))) r3
    (fun x => rfl) (fun u => .inr ⟨rfl, rfl, fun i => rfl⟩)
  refine ⟨_, ?_, addr2, c3, fun k => rfl⟩
  show (named _ >>= fun _ => _ : Cpp (TupleWorld α) (Ret α)) w = _
  rw [Cpp.bind_ok (named_ok (v := ()) (by rw [hc.noTuple hs]; simp [hlen])), Cpp.bind_ok e1]
  show (onMem (constructAll mv (ks.zip (ls.map fun p => (addr1 p.1, p.2)))) >>= fun _ => _ : Cpp (TupleWorld α) (Ret α)) w1 = _
  rw [Cpp.bind_ok (onMem_ok e2)]
  show (onMem (freeAll (js.map fun j => addr1 (.temp j))) >>= fun _ => _ : Cpp (TupleWorld α) (Ret α))
    ⟨m2, w1.vars, fun u => if u = t then some es else w1.tuples u⟩ = _
  have ea : (js.map fun j => addr1 (.temp j)) = (js.map Loc.temp).map addr2 := by
    rw [List.map_map]
    refine List.map_congr_left fun j hj => ?_
    obtain ⟨_, v, hv⟩ := D j hj
    exact ((keep _ v hv).1).symm
  rw [ea, Cpp.bind_ok (onMem_ok e3)]
  rfl

theorem source_live {addr : Loc → Nat} {st : State α} {w : TupleWorld α} (h : Core addr st w) {s : Nat} {srcs : List Slot}
    (hs : st.slots s = some srcs) : (∀ j : Nat, srcs[j]? = some .value → ∃ v, st.val (.elem s (0 + j)) = some v) ∧
      ∀ l, Refers srcs l → ∃ v, st.val l = some v :=
  ⟨fun j hj => by rw [Nat.zero_add]; exact isSome_of ((h.elems s j).mpr ⟨srcs, hs, hj⟩),
   fun l hl => isSome_of (h.refs s srcs l hs hl)⟩

theorem step_makeFrom (mv : Option α → Option α) {st st' : State α} {w : TupleWorld α} {r : Ret α} (t : Nat) (ks : List Kind)
    (s : Nat) (move : Bool) (hM : Matches st w) (hP : Plain st (.makeFrom t ks s move))
    (h : Spec.Tup.step mv st (.makeFrom t ks s move) = some (st', r)) :
    ∃ w', step mv (.makeFrom t ks s move) w = .ok r w' ∧ Matches st' w' := by
  obtain ⟨addr, hc, hT⟩ := hM
  simp only [Spec.Tup.step] at h
  cases hsrc : st.slots s with
  | none => rw [hsrc] at h; cases h
  | some srcs =>
  rw [hsrc] at h
  simp only [Option.bind_eq_bind, Option.bind_some] at h
  by_cases q : ¬ (st.slots t = none ∧ ks.length = srcs.length ∧ Readable ks s srcs st.val)
  · rw [if_neg q] at h; cases h
  replace q := Classical.not_not.mp q
  rw [if_pos q, Option.some.injEq, Prod.mk.injEq] at h
  obtain ⟨ht, hlen, hr⟩ := q
  obtain ⟨rfl, rfl⟩ := h
  obtain ⟨ess, hws, hsr⟩ := hc.tuple hsrc
  obtain ⟨lv, lr⟩ := source_live hc hsrc
  have hnot : ¬ Overtaken ks s srcs (fun i => some (.elem t i)) := by
    rintro ⟨i, j, _, _, hj, he, _⟩
    have hjl : j < ks.length := by
      rcases Nat.lt_or_ge j ks.length with q | q
      · exact q
      · rw [List.getElem?_eq_none q] at hj; cases hj
    have := hr j hjl hj
    rw [he, Option.bind_some, hc.fresh ht] at this
    cases this
  have hi := transfer_init mv t ks s srcs move st.val hlen hr hnot (hP srcs hsrc)
  have I := items_from (val := st.val) move ks srcs ess 0 hsr lv lr
  obtain ⟨addr2, m2, es, e2, r2, A2, M2⟩ := constructAll_ok mv t _ _ 0 addr st.val _ w.mem I hc.mem (fun j _ => hc.fresh ht j) hi
  have live := init_live mv t _ 0 _ _ hi
  have keep : ∀ l v, st.val l = some v → addr2 l = addr l ∧ ∃ v', transfer mv t ks s srcs move st.val l = some v' := fun l v hv =>
    ⟨A2 l v hv, isSome_of ((live l).mpr (.inl (by rw [hv]; rfl)))⟩
  have I2 := I.mono keep
  have c2 := hc.setTuple (t := t) (sl' := (ks.zip (locsFrom s move 0 srcs)).map slotOf) (es' := es) r2 keep
    (fun l v hv => by
      rcases (live l).mp (by rw [hv]; rfl) with h1 | ⟨j, p, hp, e⟩
      · exact .inl (isSome_of h1)
      · exact .inr ⟨j, slotOf_value.mpr ⟨p, hp⟩, by rw [e, Nat.zero_add]⟩)
    (fun i v hv => by
      rcases (live (.elem t i)).mp (by rw [hv]; rfl) with h1 | ⟨j, p, hp, e⟩
      · rw [hc.fresh ht i] at h1; cases h1
      · injection e with _ e
        rw [Nat.zero_add] at e
        rw [e]; exact slotOf_value.mpr ⟨p, hp⟩)
    (fun j hj => by
      obtain ⟨p, hp⟩ := slotOf_value.mp hj
      exact isSome_of ((live _).mpr (.inr ⟨j, p, hp, by rw [Nat.zero_add]⟩)))
    (made_slots I2 M2) (fun l hl => slotOf_refers I2 hl)
  rw [← slotsFrom_eq ks s srcs move hlen] at c2
  refine ⟨_, ?_, addr2, c2, fun k => hT k⟩
  show (named _ >>= fun _ => _ : Cpp (TupleWorld α) (Ret α)) w = _
  rw [Cpp.bind_ok (named_ok (v := ess) (by
    rw [hc.noTuple ht, hws]; simp [Option.filter, hlen, hsr.length])), Cpp.bind_ok (onMem_ok e2)]
  rfl

theorem targets_of {addr : Loc → Nat} {val : Values α} {t : Nat} : ∀ (sl : List Slot) (es : List TupleElem)
    (ps : List (Option Loc × Bool)) (i : Nat), SlotsRel addr t i sl es → sl.length = ps.length →
    (∀ j : Nat, sl[j]? = some .value → ∃ v, val (.elem t (i + j)) = some v) →
    Targets addr val t i ((sl.map Slot.kind).zip ps) es
  | [], [], _, _, _, _, _ => rfl
  | [], _ :: _, _, _, h, _, _ => h.elim
  | _ :: _, [], _, _, h, _, _ => h.elim
  | _ :: _, _ :: _, [], _, _, hl, _ => by simp at hl
  | s :: sl, e :: es, p :: ps, i, h, hl, hv => by
    refine ⟨e, es, rfl, targets_of sl es ps (i + 1) h.2 (by simpa using hl) (fun j hj => ?_), ?_⟩
    · have := hv (j + 1) (by rw [List.getElem?_cons_succ]; exact hj)
      rw [show i + 1 + j = i + (j + 1) by omega]; exact this
    · have h1 := h.1
      cases s with
      | value =>
        cases e with
        | ref c a => exact h1.elim
        | own a =>
          have := hv 0 rfl
          rw [Nat.add_zero] at this
          exact ⟨by rw [show a = addr (.elem t i) from h1], this⟩
      | ref c lo =>
        cases e with
        | own a => cases lo <;> exact h1.elim
        | ref c' a =>
          have : c' = c := by cases lo with
            | none => exact h1
            | some l => exact h1.1
          exact ⟨a, by rw [this]⟩

theorem step_assignFrom (mv : Option α → Option α) {st st' : State α} {w : TupleWorld α} {r : Ret α} (t s : Nat) (move : Bool)
    (hM : Matches st w) (hP : Plain st (.assignFrom t s move))
    (h : Spec.Tup.step mv st (.assignFrom t s move) = some (st', r)) :
    ∃ w', step mv (.assignFrom t s move) w = .ok r w' ∧ Matches st' w' := by
  obtain ⟨addr, hc, hT⟩ := hM
  simp only [Spec.Tup.step] at h
  cases hsrc : st.slots s with
  | none => rw [hsrc] at h; cases h
  | some srcs =>
  cases htgt : st.slots t with
  | none => rw [hsrc, htgt] at h; cases h
  | some sl =>
  rw [hsrc, htgt] at h
  simp only [Option.bind_eq_bind, Option.bind_some] at h
  by_cases q : ¬ (sl.length = srcs.length ∧ Readable (sl.map Slot.kind) s srcs st.val)
  · rw [if_neg q] at h; cases h
  replace q := Classical.not_not.mp q
  rw [if_pos q, Option.some.injEq, Prod.mk.injEq] at h
  obtain ⟨hlen, hr⟩ := q
  obtain ⟨rfl, rfl⟩ := h
  obtain ⟨ess, hws, hsr⟩ := hc.tuple hsrc
  obtain ⟨est, hwt, htr⟩ := hc.tuple htgt
  obtain ⟨lv, lr⟩ := source_live hc hsrc
  have hlen' : (sl.map Slot.kind).length = srcs.length := by rw [List.length_map]; exact hlen
  obtain ⟨hP1, hP2⟩ := hP srcs sl hsrc htgt
  have hi := transfer_init mv t (sl.map Slot.kind) s srcs move st.val hlen' hr hP1 hP2
  have I := items_from (val := st.val) move (sl.map Slot.kind) srcs ess 0 hsr lv lr
  have T := targets_of (val := st.val) sl est (locsFrom s move 0 srcs) 0 htr (by rw [locsFrom_length]; exact hlen)
    (source_live hc htgt).1
  obtain ⟨m2, es, e2, r2, M2⟩ := assignAll_ok mv t move _ _ est ess 0 addr st.val _ w.mem I (by
    have : ((sl.map Slot.kind).zip (ess.map fun e => (e.address, move && e.movable))).map (·.2) =
      ess.map fun e => (e.address, move && e.movable) := List.map_snd_zip (by
        rw [List.length_map, List.length_map, ← hsr.length, hlen]; exact Nat.le_refl _)
    exact this) T hc.mem hi
  have live := init_live mv t _ 0 _ _ hi
  have keep : ∀ l v, st.val l = some v → addr l = addr l ∧
      ∃ v', transfer mv t (sl.map Slot.kind) s srcs move st.val l = some v' := fun l v hv =>
    ⟨rfl, isSome_of ((live l).mpr (.inl (by rw [hv]; rfl)))⟩
  have I2 := I.mono keep
  have c2 := hc.setTuple (t := t) (sl' := ((sl.map Slot.kind).zip (locsFrom s move 0 srcs)).map slotOf) (es' := es) r2 keep
    (fun l v hv => by
      rcases (live l).mp (by rw [hv]; rfl) with h1 | ⟨j, p, hp, e⟩
      · exact .inl (isSome_of h1)
      · exact .inr ⟨j, slotOf_value.mpr ⟨p, hp⟩, by rw [e, Nat.zero_add]⟩)
    (fun i v hv => by
      rcases (live (.elem t i)).mp (by rw [hv]; rfl) with h1 | ⟨j, p, hp, e⟩
      · obtain ⟨sl0, hs0, hi0⟩ := (hc.elems t i).mp h1
        rw [htgt, Option.some.injEq] at hs0
        subst hs0
        have hil : i < sl.length := by
          rcases Nat.lt_or_ge i sl.length with q | q
          · exact q
          · rw [List.getElem?_eq_none q] at hi0; cases hi0
        obtain ⟨p, hp⟩ : ∃ p, (locsFrom s move 0 srcs)[i]? = some p :=
          ⟨_, List.getElem?_eq_getElem (by rw [locsFrom_length]; omega)⟩
        refine slotOf_value.mpr ⟨p, ?_⟩
        rw [List.getElem?_zip_eq_some]
        exact ⟨by rw [List.getElem?_map, hi0]; rfl, hp⟩
      · injection e with _ e
        rw [Nat.zero_add] at e
        rw [e]; exact slotOf_value.mpr ⟨p, hp⟩)
    (fun j hj => by
      obtain ⟨p, hp⟩ := slotOf_value.mp hj
      exact isSome_of ((live _).mpr (.inr ⟨j, p, hp, by rw [Nat.zero_add]⟩)))
    (made_slots I2 M2) (fun l hl => slotOf_refers I2 hl)
  rw [← slotsFrom_eq _ s srcs move hlen'] at c2
  refine ⟨_, ?_, addr, c2, fun k => hT k⟩
  show (named _ >>= fun _ => _ : Cpp (TupleWorld α) (Ret α)) w = _
  rw [Cpp.bind_ok (named_ok hws)]
  show (named _ >>= fun _ => _ : Cpp (TupleWorld α) (Ret α)) w = _
  rw [Cpp.bind_ok (named_ok (v := est) (by
    rw [hwt]; simp [Option.filter, ← hsr.length, ← htr.length, hlen])), Cpp.bind_ok (onMem_ok e2)]
  rfl

theorem step_drop (mv : Option α → Option α) {st st' : State α} {w : TupleWorld α} {r : Ret α} (t : Nat) (hM : Matches st w)
    (h : Spec.Tup.step mv st (.drop t) = some (st', r)) : ∃ w', step mv (.drop t) w = .ok r w' ∧ Matches st' w' := by
  obtain ⟨addr, hc, hT⟩ := hM
  simp only [Spec.Tup.step] at h
  cases htgt : st.slots t with
  | none => rw [htgt] at h; cases h
  | some sl =>
  rw [htgt] at h
  simp only [Option.bind_eq_bind, Option.bind_some, Option.some.injEq, Prod.mk.injEq] at h
  obtain ⟨rfl, rfl⟩ := h
  obtain ⟨es, hw, hr⟩ := hc.tuple htgt
  obtain ⟨m1, val1, e1, r1, A, B⟩ := destroyAll_ok sl es 0 st.val w.mem hr hc.mem (source_live hc htgt).1
  have ev : val1 = fun l => if isElemOf t l then none else st.val l := by
    funext l
    by_cases q : ∃ j : Nat, sl[j]? = some .value ∧ l = .elem t j
    · obtain ⟨j, hj, rfl⟩ := q
      have := A j hj
      rw [Nat.zero_add] at this
      rw [this]; simp [isElemOf]
    · rw [B l fun j hj e => q ⟨j, hj, by rw [e, Nat.zero_add]⟩]
      cases l with
      | var x => rfl
      | temp x => rfl
      | elem u i =>
        by_cases hu : u = t
        · subst hu
          simp only [isElemOf, beq_self_eq_true, if_true]
          cases hv : st.val (.elem u i) with
          | none => rfl
          | some v =>
            obtain ⟨sl0, hs0, hi0⟩ := (hc.elems u i).mp (by rw [hv]; rfl)
            rw [htgt, Option.some.injEq] at hs0
            subst hs0
            exact (q ⟨i, hi0, rfl⟩).elim
        · simp [isElemOf, hu]
  rw [ev] at r1
  have c := hc.forget (isElemOf t) (mem' := m1) (vars' := w.vars) (tuples' := fun u => if u = t then none else w.tuples u)
    (slots' := setSlots (Spec.Tup.forget (isElemOf t) st).slots t none) r1 (fun x => rfl) (fun u => by
      unfold setSlots
      by_cases hu : u = t
      · subst hu; left; simp [isElemOf]
      · right; simp [isElemOf, hu, Spec.Tup.forget])
  refine ⟨_, ?_, addr, c, fun k => hT k⟩
  show (named _ >>= fun _ => _ : Cpp (TupleWorld α) (Ret α)) w = _
  rw [Cpp.bind_ok (named_ok hw), Cpp.bind_ok (onMem_ok e1)]
  rfl

theorem step_ok (mv : Option α → Option α) {st st' : State α} {w : TupleWorld α} {r : Ret α} (op : Op α) (hM : Matches st w)
    (hP : Plain st op) (h : Spec.Tup.step mv st op = some (st', r)) : ∃ w', step mv op w = .ok r w' ∧ Matches st' w' := by
  cases op with
  | var x v => exact step_var mv x v hM h
  | endVar x => exact step_endVar mv x hM h
  | make t ks args => exact step_make mv t ks args hM h
  | makeFrom t ks s move => exact step_makeFrom mv t ks s move hM hP h
  | assignFrom t s move => exact step_assignFrom mv t s move hM hP h
  | drop t => exact step_drop mv t hM h
  | assign e v =>
    obtain ⟨addr, hc, hT⟩ := hM
    simp only [Spec.Tup.step] at h
    cases hl : locate st e with
    | none => rw [hl] at h; cases h
    | some l =>
      rw [hl] at h
      simp only [Option.bind_eq_bind, Option.bind_some, Option.some.injEq, Prod.mk.injEq] at h
      obtain ⟨rfl, rfl⟩ := h
      obtain ⟨ha, v0, hv⟩ := hc.locate hl
      obtain ⟨m1, e1, c1⟩ := hc.store hv (some v)
      refine ⟨_, ?_, addr, c1, fun k => ?_⟩
      · show (named _ >>= fun _ => _ : Cpp (TupleWorld α) (Ret α)) w = _
        rw [Cpp.bind_ok (named_ok ha), Cpp.bind_ok e1]; rfl
      · show put st.val l (some (some v)) (.temp k) = none
        unfold put
        rw [if_neg (fun q => by rw [← q, hT] at hv; cases hv)]; exact hT k
  | read e =>
    obtain ⟨addr, hc, hT⟩ := hM
    simp only [Spec.Tup.step] at h
    cases hl : locate st e with
    | none => rw [hl] at h; cases h
    | some l =>
      obtain ⟨ha, v0, hv⟩ := hc.locate hl
      rw [hl] at h
      simp only [Option.bind_eq_bind, Option.bind_some, hv, Option.some.injEq, Prod.mk.injEq] at h
      obtain ⟨rfl, rfl⟩ := h
      refine ⟨w, ?_, addr, hc, hT⟩
      show (named _ >>= fun _ => _ : Cpp (TupleWorld α) (Ret α)) w = _
      rw [Cpp.bind_ok (named_ok ha), Cpp.bind_ok (onMem_ok (hc.mem.load hv))]; rfl
  | same e1 e2 =>
    obtain ⟨addr, hc, hT⟩ := hM
    simp only [Spec.Tup.step] at h
    cases hl1 : locate st e1 with
    | none => rw [hl1] at h; cases h
    | some l1 =>
      cases hl2 : locate st e2 with
      | none => rw [hl1, hl2] at h; cases h
      | some l2 =>
        obtain ⟨ha1, v1, hv1⟩ := hc.locate hl1
        obtain ⟨ha2, v2, hv2⟩ := hc.locate hl2
        rw [hl1, hl2] at h
        simp only [Option.bind_eq_bind, Option.bind_some, Option.some.injEq, Prod.mk.injEq] at h
        obtain ⟨rfl, rfl⟩ := h
        refine ⟨w, ?_, addr, hc, hT⟩
        show (named _ >>= fun _ => _ : Cpp (TupleWorld α) (Ret α)) w = _
        rw [Cpp.bind_ok (named_ok ha1)]
        show (named _ >>= fun _ => _ : Cpp (TupleWorld α) (Ret α)) w = _
        rw [Cpp.bind_ok (named_ok ha2)]
        show Outcome.ok (Ret.flag (decide (addr l1 = addr l2))) w = _
        have : (addr l1 = addr l2) = (l1 = l2) :=
          propext ⟨fun q => hc.mem.inj l1 l2 v1 v2 hv1 hv2 q, fun q => by rw [q]⟩
        simp only [this]

theorem run_ok (mv : Option α → Option α) : ∀ (ops : List (Op α)) {st st' : State α} {w : TupleWorld α} {rs : List (Ret α)},
    Matches st w → AllPlain mv st ops → Spec.Tup.run mv st ops = some (st', rs) →
    ∃ w', run mv ops w = .ok rs w' ∧ Matches st' w'
  | [], st, st', w, rs, hM, _, h => by
    simp only [Spec.Tup.run, Option.some.injEq, Prod.mk.injEq] at h
    obtain ⟨rfl, rfl⟩ := h
    exact ⟨w, rfl, hM⟩
  | op :: ops, st, st', w, rs, hM, hP, h => by
    simp only [Spec.Tup.run] at h
    cases h1 : Spec.Tup.step mv st op with
    | none => rw [h1] at h; cases h
    | some p =>
      obtain ⟨st1, r⟩ := p
      rw [h1] at h
      simp only [Option.bind_eq_bind, Option.bind_some] at h
      cases h2 : Spec.Tup.run mv st1 ops with
      | none => rw [h2] at h; cases h
      | some p2 =>
        obtain ⟨st2, rs2⟩ := p2
        rw [h2] at h
        simp only [Option.bind_some, Option.some.injEq, Prod.mk.injEq] at h
        obtain ⟨rfl, rfl⟩ := h
        obtain ⟨w1, e1, M1⟩ := step_ok mv op hM hP.1 h1
        obtain ⟨w2, e2, M2⟩ := run_ok mv ops M1 (hP.2 st1 r h1) h2
        refine ⟨w2, ?_, M2⟩
        show (step mv op >>= fun r => run mv ops >>= fun rs => pure (r :: rs) : Cpp (TupleWorld α) _) w = _
        rw [Cpp.bind_ok e1, Cpp.bind_ok e2]
        rfl

theorem start_matches : Matches (Spec.Tup.start : State α) TupleWorld.start := by
  refine ⟨fun _ => 0, ⟨⟨?_, ?_, ?_, ?_⟩, fun _ => rfl, fun _ => trivial, ?_, ?_⟩, fun _ => rfl⟩
  · intro _ _ h; cases h
  · intro _ _ h; cases h
  · intro _ _ _ _ h; cases h
  · intro _ _ h; cases h
  · intro t i
    constructor
    · intro h; cases h
    · rintro ⟨sl, h, _⟩; cases h
  · intro t sl l h; cases h

end TupleWorld
end Vlpp
