import Verif.Model.TupleObj

/-! Lemmas about tuples as objects. -/
set_option autoImplicit false
namespace Vlpp
open Spec.Tup

namespace TupleMem
variable {α : Type}

/-- Every object of the specification is at its address, and there are no others. -/
structure Rel (addr : Loc → Nat) (val : Values α) (m : TupleMem α) : Prop where
  cell : ∀ l v, val l = some v → m.cell (addr l) = some v
  bound : ∀ l v, val l = some v → addr l < m.next
  inj : ∀ l l' v v', val l = some v → val l' = some v' → addr l = addr l' → l = l'
  live : ∀ a v, m.cell a = some v → ∃ l v', val l = some v' ∧ addr l = a

theorem Rel.load {addr : Loc → Nat} {val : Values α} {m : TupleMem α} (h : Rel addr val m) {l : Loc} {v : Option α}
    (hl : val l = some v) : TupleMem.load (addr l) m = .ok v m := by
  unfold TupleMem.load; rw [h.cell l v hl]

theorem Rel.store {addr : Loc → Nat} {val : Values α} {m : TupleMem α} (h : Rel addr val m) {l : Loc} {v : Option α}
    (hl : val l = some v) (v' : Option α) :
    ∃ m', TupleMem.store (addr l) v' m = .ok () m' ∧ Rel addr (put val l (some v')) m' := by
  refine ⟨m.write (addr l) (some v'), ?_, ?_⟩
  · unfold TupleMem.store; rw [h.cell l v hl]
  · constructor
    · intro k w hk
      show (if addr k = addr l then some v' else m.cell (addr k)) = some w
      unfold put at hk
      by_cases e : k = l
      · rw [if_pos e] at hk; subst e; rw [if_pos rfl]; exact hk
      · rw [if_neg e] at hk
        rw [if_neg (fun q => e (h.inj k l w v hk hl q))]
        exact h.cell k w hk
    · intro k w hk
      unfold put at hk
      by_cases e : k = l
      · subst e; exact h.bound k v hl
      · rw [if_neg e] at hk; exact h.bound k w hk
    · intro k k' w w' hk hk' q
      have A : ∀ k w, put val l (some v') k = some w → ∃ u, val k = some u := by
        intro k w hk
        unfold put at hk
        by_cases e : k = l
        · subst e; exact ⟨v, hl⟩
        · rw [if_neg e] at hk; exact ⟨w, hk⟩
      obtain ⟨u, hu⟩ := A k w hk
      obtain ⟨u', hu'⟩ := A k' w' hk'
      exact h.inj k k' u u' hu hu' q
    · intro a w ha
      change (if a = addr l then some v' else m.cell a) = some w at ha
      by_cases e : a = addr l
      · exact ⟨l, v', by unfold put; rw [if_pos rfl], e.symm⟩
      · rw [if_neg e] at ha
        obtain ⟨k, u, hk, q⟩ := h.live a w ha
        refine ⟨k, u, ?_, q⟩
        unfold put
        rw [if_neg (fun r => e (by rw [← q, r]))]
        exact hk

theorem Rel.free {addr : Loc → Nat} {val : Values α} {m : TupleMem α} (h : Rel addr val m) {l : Loc} {v : Option α}
    (hl : val l = some v) :
    ∃ m', TupleMem.free (addr l) m = .ok () m' ∧ Rel addr (put val l none) m' := by
  refine ⟨m.write (addr l) none, ?_, ?_⟩
  · unfold TupleMem.free; rw [h.cell l v hl]
  · have A : ∀ k w, put val l none k = some w → k ≠ l ∧ val k = some w := by
      intro k w hk
      unfold put at hk
      by_cases e : k = l
      · rw [if_pos e] at hk; cases hk
      · rw [if_neg e] at hk; exact ⟨e, hk⟩
    constructor
    · intro k w hk
      obtain ⟨e, hk⟩ := A k w hk
      show (if addr k = addr l then none else m.cell (addr k)) = some w
      rw [if_neg (fun q => e (h.inj k l w v hk hl q))]
      exact h.cell k w hk
    · intro k w hk; exact h.bound k w (A k w hk).2
    · intro k k' w w' hk hk' q
      exact h.inj k k' w w' (A k w hk).2 (A k' w' hk').2 q
    · intro a w ha
      change (if a = addr l then none else m.cell a) = some w at ha
      by_cases e : a = addr l
      · rw [if_pos e] at ha; cases ha
      · rw [if_neg e] at ha
        obtain ⟨k, u, hk, q⟩ := h.live a w ha
        refine ⟨k, u, ?_, q⟩
        unfold put
        rw [if_neg (fun r => e (by rw [← q, r]))]
        exact hk

/-- `addr` with another address for one object -/
def move (addr : Loc → Nat) (l : Loc) (a : Nat) : Loc → Nat := fun k => if k = l then a else addr k

theorem Rel.alloc {addr : Loc → Nat} {val : Values α} {m : TupleMem α} (h : Rel addr val m) {l : Loc}
    (hl : val l = none) (v : Option α) :
    ∃ m', TupleMem.alloc v m = .ok (move addr l m.next l) m' ∧ Rel (move addr l m.next) (put val l (some v)) m' := by
  refine ⟨⟨m.next + 1, fun b => if b = m.next then some v else m.cell b⟩, ?_, ?_⟩
  · unfold TupleMem.alloc move; rw [if_pos rfl]
  · have A : ∀ k w, put val l (some v) k = some w → k = l ∧ w = v ∨ k ≠ l ∧ val k = some w := by
      intro k w hk
      unfold put at hk
      by_cases e : k = l
      · rw [if_pos e] at hk; cases hk; exact .inl ⟨e, rfl⟩
      · rw [if_neg e] at hk; exact .inr ⟨e, hk⟩
    constructor
    · intro k w hk
      show (if move addr l m.next k = m.next then some v else m.cell (move addr l m.next k)) = some w
      rcases A k w hk with ⟨e, q⟩ | ⟨e, hk⟩
      · subst e; subst q; unfold move; rw [if_pos rfl, if_pos rfl]
      · unfold move
        rw [if_neg e, if_neg (Nat.ne_of_lt (h.bound k w hk))]
        exact h.cell k w hk
    · intro k w hk
      show move addr l m.next k < m.next + 1
      rcases A k w hk with ⟨e, _⟩ | ⟨e, hk⟩
      · unfold move; rw [if_pos e]; omega
      · unfold move; rw [if_neg e]; have := h.bound k w hk; omega
    · intro k k' w w' hk hk' q
      unfold move at q
      rcases A k w hk with ⟨e, _⟩ | ⟨e, hk⟩ <;> rcases A k' w' hk' with ⟨e', _⟩ | ⟨e', hk'⟩
      · rw [e, e']
      · rw [if_pos e, if_neg e'] at q
        have := h.bound k' w' hk'; omega
      · rw [if_neg e, if_pos e'] at q
        have := h.bound k w hk; omega
      · rw [if_neg e, if_neg e'] at q
        exact h.inj k k' w w' hk hk' q
    · intro a w ha
      change (if a = m.next then some v else m.cell a) = some w at ha
      by_cases e : a = m.next
      · exact ⟨l, v, by unfold put; rw [if_pos rfl], by unfold move; rw [if_pos rfl, e]⟩
      · rw [if_neg e] at ha
        obtain ⟨k, u, hk, q⟩ := h.live a w ha
        have ne : k ≠ l := fun r => by rw [r, hl] at hk; cases hk
        exact ⟨k, u, by unfold put; rw [if_neg ne]; exact hk, by unfold move; rw [if_neg ne]; exact q⟩

end TupleMem

namespace TupleElem
open TupleMem
variable {α : Type}

/-- Items of the specification and of the model with the same objects. -/
inductive Items (addr : Loc → Nat) (val : Values α) :
    List (Kind × Option Loc × Bool) → List (Kind × Nat × Bool) → Prop
  | nil : Items addr val [] []
  | cons (k : Kind) (l : Option Loc) (a : Nat) (move : Bool) (xs : List (Kind × Option Loc × Bool))
      (ys : List (Kind × Nat × Bool)) (h : ∀ l', l = some l' → a = addr l' ∧ ∃ v, val l' = some v)
      (rest : Items addr val xs ys) : Items addr val ((k, l, move) :: xs) ((k, a, move) :: ys)

theorem Items.mono {addr addr' : Loc → Nat} {val val' : Values α} {xs : List (Kind × Option Loc × Bool)}
    {ys : List (Kind × Nat × Bool)} (h : Items addr val xs ys)
    (H : ∀ l v, val l = some v → addr' l = addr l ∧ ∃ v', val' l = some v') : Items addr' val' xs ys := by
  induction h with
  | nil => exact .nil
  | cons k l a move xs ys h rest ih =>
    refine .cons k l a move xs ys (fun l' e => ?_) ih
    obtain ⟨q, v, hv⟩ := h l' e
    obtain ⟨r, v', hv'⟩ := H l' v hv
    exact ⟨by rw [q, r], v', hv'⟩

/-- The elements of a tuple that was made from items, from number `i` on. -/
def Made (addr : Loc → Nat) (t : Nat) : Nat → List (Kind × Nat × Bool) → List TupleElem → Prop
  | _, [], es => es = []
  | i, (k, a, _) :: ys, es => ∃ e es', es = e :: es' ∧ Made addr t (i + 1) ys es' ∧
    e = match k with
      | .value => own (addr (.elem t i))
      | .ref c => ref c a

theorem live_cons (t i : Nat) (x : Kind × Option Loc × Bool) (xs : List (Kind × Option Loc × Bool)) (l : Loc) :
    (∃ (j : Nat) (p : Option Loc × Bool), (x :: xs)[j]? = some (.value, p) ∧ l = .elem t (i + j)) ↔
      ((x.1 = .value ∧ l = .elem t i) ∨
        ∃ (j : Nat) (p : Option Loc × Bool), xs[j]? = some (.value, p) ∧ l = .elem t (i + 1 + j)) := by
  constructor
  · rintro ⟨j, p, h, e⟩
    cases j with
    | zero =>
      rw [List.getElem?_cons_zero, Option.some.injEq] at h
      exact .inl ⟨by rw [h], e⟩
    | succ j =>
      rw [List.getElem?_cons_succ] at h
      exact .inr ⟨j, p, h, by rw [e]; congr 1; omega⟩
  · rintro (⟨h, e⟩ | ⟨j, p, h, e⟩)
    · exact ⟨0, x.2, by rw [List.getElem?_cons_zero, ← h], e⟩
    · exact ⟨j + 1, p, by rw [List.getElem?_cons_succ]; exact h, by rw [e]; congr 1; omega⟩

/-- What is live after the elements from number `i` on were initialised. -/
theorem init_live (mv : Option α → Option α) (t : Nat) (xs : List (Kind × Option Loc × Bool)) :
    ∀ (i : Nat) (val val' : Values α), initOneByOne mv t i xs val = some val' → ∀ l,
      (val' l).isSome = true ↔ ((val l).isSome = true ∨ ∃ (j : Nat) (p : Option Loc × Bool), xs[j]? = some (.value, p) ∧ l = .elem t (i + j)) := by
  induction xs with
  | nil =>
    intro i val val' h l
    simp only [initOneByOne, Option.some.injEq] at h
    subst h
    simp
  | cons x xs ih =>
    intro i val val' h l
    obtain ⟨k, lo, move⟩ := x
    cases k with
    | ref c =>
      simp only [initOneByOne] at h
      rw [ih (i + 1) val val' h l, live_cons]
      simp
    | value =>
      simp only [initOneByOne] at h
      cases lo with
      | none => cases h
      | some l0 =>
        simp only [Option.bind_eq_bind, Option.bind_some] at h
        cases hv : val l0 with
        | none => rw [hv] at h; cases h
        | some v =>
          rw [hv] at h
          simp only [Option.bind_some] at h
          rw [ih (i + 1) _ val' h l, live_cons]
          have e : (put (if move = true then put val l0 (some (mv v)) else val) (.elem t i) (some v) l).isSome = true ↔
              ((val l).isSome = true ∨ l = .elem t i) := by
            unfold put
            by_cases q : l = .elem t i
            · simp [q]
            · rw [if_neg q]
              cases move with
              | false => simp [q]
              | true =>
                by_cases r : l = l0
                · subst r; simp [hv]
                · simp [q, r]
          rw [e]
          simp [or_assoc]

theorem constructAll_cons {mv : Option α → Option α} {k : Kind} {a : Nat} {move : Bool} {ys : List (Kind × Nat × Bool)}
    {m m1 m2 : TupleMem α} {e : TupleElem} {es : List TupleElem} (h1 : construct mv a move k m = .ok e m1)
    (h2 : constructAll mv ys m1 = .ok es m2) : constructAll mv ((k, a, move) :: ys) m = .ok (e :: es) m2 := by
  unfold constructAll
  rw [Cpp.bind_ok h1, Cpp.bind_ok h2]
  rfl

theorem assignAll_cons {mv : Option α → Option α} {e src : TupleElem} {move : Bool} {ys : List (TupleElem × TupleElem)}
    {m m1 m2 : TupleMem α} {e' : TupleElem} {es : List TupleElem} (h1 : assign mv src move e m = .ok e' m1)
    (h2 : assignAll mv move ys m1 = .ok es m2) : assignAll mv move ((e, src) :: ys) m = .ok (e' :: es) m2 := by
  unfold assignAll
  rw [Cpp.bind_ok h1, Cpp.bind_ok h2]
  rfl

theorem constructAll_ok (mv : Option α → Option α) (t : Nat) :
    ∀ (xs : List (Kind × Option Loc × Bool)) (ys : List (Kind × Nat × Bool)) (i : Nat) (addr : Loc → Nat) (val val' : Values α) (m : TupleMem α),
      Items addr val xs ys → Rel addr val m → (∀ j, i ≤ j → val (.elem t j) = none) →
      initOneByOne mv t i xs val = some val' →
      ∃ addr' m' es, constructAll mv ys m = .ok es m' ∧ Rel addr' val' m' ∧
        (∀ l v, val l = some v → addr' l = addr l) ∧ Made addr' t i ys es := by
  intro xs
  induction xs with
  | nil =>
    intro ys i addr val val' m hi hr _ h
    cases hi
    simp only [initOneByOne, Option.some.injEq] at h
    subst h
    exact ⟨addr, m, [], rfl, hr, fun _ _ _ => rfl, rfl⟩
  | cons x xs ih =>
    intro ys i addr val val' m hi hr hf h
    cases hi with
    | cons k lo a move _ ys hl hi =>
    cases k with
    | ref c =>
      simp only [initOneByOne] at h
      obtain ⟨addr', m', es, e, r, A, M⟩ := ih ys (i + 1) addr val val' m hi hr (fun j hj => hf j (by omega)) h
      exact ⟨addr', m', ref c a :: es, constructAll_cons rfl e, r, A, ref c a, es, rfl, M, rfl⟩
    | value =>
      simp only [initOneByOne] at h
      cases lo with
      | none => cases h
      | some l0 =>
        obtain ⟨ea, v, hv⟩ := hl l0 rfl
        subst ea
        simp only [Option.bind_eq_bind, Option.bind_some, hv] at h
        have hn : l0 ≠ .elem t i := fun q => by
          have := hf i (Nat.le_refl i); rw [← q, hv] at this; cases this
        -- after the value was taken
        have S1 : ∃ m1, (show Cpp (TupleMem α) Unit from if move then store (addr l0) (mv v) else pure ()) m = .ok () m1 ∧
            Rel addr (if move = true then put val l0 (some (mv v)) else val) m1 := by
          cases move with
          | false => exact ⟨m, rfl, hr⟩
          | true => exact hr.store hv (mv v)
        obtain ⟨m1, e1, r1⟩ := S1
        have hfree : (if move = true then put val l0 (some (mv v)) else val) (.elem t i) = none := by
          cases move with
          | false => exact hf i (Nat.le_refl i)
          | true =>
            rw [if_pos rfl]; unfold put; rw [if_neg (Ne.symm hn)]; exact hf i (Nat.le_refl i)
        obtain ⟨m2, e2, r2⟩ := r1.alloc hfree v
        have K : ∀ l w, val l = some w → TupleMem.move addr (.elem t i) m1.next l = addr l ∧
            ∃ w', put (if move = true then put val l0 (some (mv v)) else val) (.elem t i) (some v) l = some w' := by
          intro l w hw
          have ne : l ≠ .elem t i := fun q => by have := hf i (Nat.le_refl i); rw [← q, hw] at this; cases this
          refine ⟨by unfold TupleMem.move; rw [if_neg ne], ?_⟩
          unfold put; rw [if_neg ne]
          cases move with
          | false => exact ⟨w, hw⟩
          | true =>
            by_cases q : l = l0
            · exact ⟨mv v, by simp [q]⟩
            · exact ⟨w, by simp [q, hw]⟩
        obtain ⟨addr', m', es, e, r, A, M⟩ := ih ys (i + 1) _ _ val' m2 (hi.mono K) r2 (fun j hj => by
            have ne : Loc.elem t j ≠ .elem t i := fun q => by injection q; omega
            unfold put; rw [if_neg ne]
            have hj' := hf j (by omega)
            cases move with
            | false => exact hj'
            | true =>
              rw [if_pos rfl, if_neg (fun q => by rw [q, hv] at hj'; cases hj')]; exact hj') h
        have own_addr : addr' (.elem t i) = TupleMem.move addr (.elem t i) m1.next (.elem t i) :=
          A (.elem t i) v (by unfold put; rw [if_pos rfl])
        refine ⟨addr', m', own (addr' (.elem t i)) :: es, ?_, r, ?_, _, es, rfl, M, rfl⟩
        · have c : (construct mv (addr l0) move .value : Cpp (TupleMem α) TupleElem) m = .ok (own (addr' (.elem t i))) m2 := by
            show ((TupleMem.load (addr l0) : Cpp (TupleMem α) _) >>= _) m = _
            rw [Cpp.bind_ok (hr.load hv)]
            show ((show Cpp (TupleMem α) Unit from if move then store (addr l0) (mv v) else pure ()) >>= _) m = _
            rw [Cpp.bind_ok e1, Cpp.bind_ok e2, own_addr]
            rfl
          exact constructAll_cons c e
        · intro l w hw
          obtain ⟨q, w', hw'⟩ := K l w hw
          rw [A l w' hw', q]

/-- Elements of `t` from number `i` on, with the kinds of the items. -/
def Targets (addr : Loc → Nat) (val : Values α) (t : Nat) : Nat → List (Kind × Option Loc × Bool) → List TupleElem → Prop
  | _, [], es => es = []
  | i, (k, _) :: xs, es => ∃ e es', es = e :: es' ∧ Targets addr val t (i + 1) xs es' ∧
    match k with
    | .value => e = own (addr (.elem t i)) ∧ ∃ v, val (.elem t i) = some v
    | .ref c => ∃ a, e = ref c a

theorem Targets.mono {addr : Loc → Nat} {val val' : Values α} {t : Nat} (H : ∀ l v, val l = some v → ∃ v', val' l = some v') :
    ∀ (xs : List (Kind × Option Loc × Bool)) (i : Nat) (es : List TupleElem), Targets addr val t i xs es → Targets addr val' t i xs es := by
  intro xs
  induction xs with
  | nil => intro i es h; exact h
  | cons x xs ih =>
    intro i es h
    obtain ⟨k, p⟩ := x
    obtain ⟨e, es', q, h', hk⟩ := h
    refine ⟨e, es', q, ih _ _ h', ?_⟩
    cases k with
    | ref c => exact hk
    | value =>
      obtain ⟨a, v, hv⟩ := hk
      exact ⟨a, H _ v hv⟩

theorem assignAll_ok (mv : Option α → Option α) (t : Nat) (move : Bool) :
    ∀ (xs : List (Kind × Option Loc × Bool)) (ys : List (Kind × Nat × Bool)) (es srcs : List TupleElem) (i : Nat) (addr : Loc → Nat)
      (val val' : Values α) (m : TupleMem α), Items addr val xs ys →
      ys.map (·.2) = srcs.map (fun e => (e.address, move && e.movable)) →
      Targets addr val t i xs es → Rel addr val m → initOneByOne mv t i xs val = some val' →
      ∃ m' es', assignAll mv move (es.zip srcs) m = .ok es' m' ∧ Rel addr val' m' ∧ Made addr t i ys es' := by
  intro xs
  induction xs with
  | nil =>
    intro ys es srcs i addr val val' m hi _ ht hr h
    cases hi
    simp only [initOneByOne, Option.some.injEq] at h
    subst h
    cases ht
    exact ⟨m, [], rfl, hr, rfl⟩
  | cons x xs ih =>
    intro ys es srcs i addr val val' m hi hs ht hr h
    cases hi with
    | cons k lo a mv1 _ ys hl hi =>
    obtain ⟨e, es, q, ht, hk⟩ := ht
    subst q
    cases srcs with
    | nil => simp at hs
    | cons src srcs =>
    simp only [List.map_cons, List.cons.injEq, Prod.mk.injEq] at hs
    obtain ⟨⟨ea, em⟩, hs⟩ := hs
    cases k with
    | ref c =>
      obtain ⟨b, rfl⟩ := hk
      simp only [initOneByOne] at h
      obtain ⟨m', es', e, r, M⟩ := ih ys es srcs (i + 1) addr val val' m hi hs ht hr h
      exact ⟨m', ref c a :: es', assignAll_cons (by rw [ea]; rfl) e, r, ref c a, es', rfl, M, rfl⟩
    | value =>
      obtain ⟨rfl, v0, hv0⟩ := hk
      simp only [initOneByOne] at h
      cases lo with
      | none => cases h
      | some l0 =>
        obtain ⟨ea', v, hv⟩ := hl l0 rfl
        rw [ea'] at ea
        simp only [Option.bind_eq_bind, Option.bind_some, hv] at h
        have S1 : ∃ m1, (show Cpp (TupleMem α) Unit from if mv1 then store (addr l0) (mv v) else pure ()) m = .ok () m1 ∧
            Rel addr (if mv1 = true then put val l0 (some (mv v)) else val) m1 := by
          cases mv1 with
          | false => exact ⟨m, rfl, hr⟩
          | true => exact hr.store hv (mv v)
        obtain ⟨m1, e1, r1⟩ := S1
        have L1 : ∀ l w, val l = some w → ∃ w', (if mv1 = true then put val l0 (some (mv v)) else val) l = some w' := by
          intro l w hw
          cases mv1 with
          | false => exact ⟨w, hw⟩
          | true =>
            rw [if_pos rfl]; unfold put
            by_cases q : l = l0
            · exact ⟨mv v, by rw [if_pos q]⟩
            · exact ⟨w, by rw [if_neg q]; exact hw⟩
        obtain ⟨w0, hw0⟩ := L1 _ v0 hv0
        obtain ⟨m2, e2, r2⟩ := r1.store hw0 v
        have L2 : ∀ l w, val l = some w →
            ∃ w', put (if mv1 = true then put val l0 (some (mv v)) else val) (.elem t i) (some v) l = some w' := by
          intro l w hw
          unfold put
          by_cases q : l = .elem t i
          · exact ⟨v, by rw [if_pos q]⟩
          · rw [if_neg q]; exact L1 l w hw
        obtain ⟨m', es', e, r, M⟩ := ih ys es srcs (i + 1) addr _ val' m2 (hi.mono fun l w hw => ⟨rfl, L2 l w hw⟩) hs
          (ht.mono L2) r2 h
        refine ⟨m', own (addr (.elem t i)) :: es', ?_, r, _, es', rfl, M, rfl⟩
        have c : (assign mv src move (own (addr (.elem t i))) : Cpp (TupleMem α) TupleElem) m = .ok (own (addr (.elem t i))) m2 := by
          show ((TupleMem.load src.address : Cpp (TupleMem α) _) >>= _) m = _
          rw [← ea, Cpp.bind_ok (hr.load hv)]
          show ((show Cpp (TupleMem α) Unit from if move && src.movable then store (addr l0) (mv v) else pure ()) >>= _) m = _
          rw [← em, Cpp.bind_ok e1, Cpp.bind_ok e2]
          rfl
        exact assignAll_cons c e

end TupleElem
end Vlpp
