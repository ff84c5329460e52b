import Verif.Lemmas.CollRef

/-!
# Collection references (C100)
-/
set_option autoImplicit false
namespace Vlpp
open CollRef
variable {T U : Type}

theorem CollRef.held_zero {w : World T} {r : Nat} : held w r = 0 ↔ ¬ Spec.CollRef.Referred (abs w) r := by
  have hp : ∀ (ph : Phase), ph.has r = true ↔ ph = .alive (some r) ∨ ph = .dying (some r) := by
    intro ph
    cases ph <;> simp [Phase.has]
  have hc : w.colls.countP (Phase.has r) = 0 ↔ ¬ ∃ c, Spec.CollRef.ref (abs w) c = some (some r) := by
    rw [List.countP_eq_zero]
    constructor
    · rintro h ⟨c, e⟩
      unfold Spec.CollRef.ref at e
      split at e
      · rename_i q eq
        cases e
        exact h _ (List.mem_of_getElem? eq) ((hp _).2 (.inl rfl))
      · rename_i q eq
        cases e
        exact h _ (List.mem_of_getElem? eq) ((hp _).2 (.inr rfl))
      · cases e
    · intro h ph m hh
      obtain ⟨c, lt, ec⟩ := List.getElem_of_mem m
      refine h ⟨c, ?_⟩
      have e : (abs w).colls[c]? = some ph := by
        show w.colls[c]? = some ph
        rw [List.getElem?_eq_getElem lt, ec]
      unfold Spec.CollRef.ref
      rcases (hp ph).1 hh with rfl | rfl <;> rw [e]
  have hv : w.vars.count (some r) = 0 ↔ some r ∉ (abs w).vars := List.count_eq_zero
  unfold held Spec.CollRef.Referred
  rw [Nat.add_eq_zero_iff, hc, hv, not_or]

/-- Programs that use collection references behave as the specification says: nothing but an error of the program is
undefined, and the program sees the same answers, references and calls of `OnDisposed`. -/
theorem C100_refines (casts : T → U → Bool) (ops : List (Op T U)) :
    (run casts empty ops).map (fun x => (abs x.1, x.2)) = Spec.CollRef.run casts Spec.CollRef.empty ops := by
  rcases run_ok casts ops (empty_ok (T := T)).1 empty_ok.2 with ⟨e, es⟩ | ⟨w, as, e, es, _, _⟩
  · rw [e]; exact es.symm
  · rw [e]; exact es.symm

/-- Objects are deleted once, exactly when no variable and no collection refers to them, and until then the counter is the
number of variables and collections that refer to them. -/
theorem C100_lifetime (casts : T → U → Bool) {ops : List (Op T U)} {w : World T} {as : List Answer}
    (e : run casts empty ops = some (w, as)) :
    w.deletions.Nodup
    ∧ (∀ r, r ∈ w.deletions ↔ r < w.refs.length ∧ ¬ Spec.CollRef.Referred (abs w) r)
    ∧ (∀ r, Spec.CollRef.Referred (abs w) r → ∃ t, w.refs[r]? = some (t, some (held w r)))
    ∧ ∀ r t, w.refs[r]? = some (t, none) → r ∈ w.deletions := by
  rcases run_ok casts ops (empty_ok (T := T)).1 empty_ok.2 with ⟨e', _⟩ | ⟨w', as', e', _, h, _⟩
  · rw [e'] at e; cases e
  · rw [e'] at e
    cases e
    refine ⟨h.nodup, ?_, ?_, ?_⟩
    · intro r
      rw [h.deleted r, ← held_zero]
      simp
    · intro r hr
      have pos : 0 < held w r := by
        rcases Nat.eq_zero_or_pos (held w r) with z | z
        · exact absurd hr (held_zero.1 z)
        · exact z
      obtain ⟨t, et⟩ := Cnt.live h (r := r) (by omega)
      exact ⟨t, by simpa using et⟩
    · intro r t er
      rcases h.value r t none er with ⟨z, _⟩ | ⟨_, x⟩
      · exact (h.deleted r).2 ⟨(List.getElem?_eq_some_iff.1 er).1, z⟩
      · cases x

/-- `OnDisposed` is called for a collection once, if and only if a reference was associated to it and it is destroyed (or is
being destroyed); at most one reference is ever associated to a collection, and it stays until the end. -/
theorem C100_disposed (casts : T → U → Bool) {ops : List (Op T U)} {w : World T} {as : List Answer}
    (e : run casts empty ops = some (w, as)) :
    (w.disposals.map Prod.snd).Nodup
    ∧ (w.links.map Prod.snd).Nodup
    ∧ (∀ r c, (r, c) ∈ w.disposals ↔ (r, c) ∈ w.links ∧ ∀ q, w.colls[c]? ≠ some (.alive q))
    ∧ (∀ r c, (r, c) ∈ w.links ∧ w.colls[c]? ≠ some .gone ↔ colref w c = some (some r))
    ∧ ∀ c, c ∈ w.stack ↔ ∃ q, w.colls[c]? = some (.dying q) := by
  rcases run_ok casts ops (empty_ok (T := T)).1 empty_ok.2 with ⟨e', _⟩ | ⟨w', as', e', _, _, h⟩
  · rw [e'] at e; cases e
  · rw [e'] at e
    cases e
    refine ⟨h.once, h.single, ?_, ?_, h.stack⟩
    · intro r c
      constructor
      · intro m
        obtain ⟨x, y⟩ := h.disposed r c m
        refine ⟨y, ?_⟩
        intro q eq
        have eq' : (abs w).colls[c]? = some (.alive q) := eq
        rcases x with x | x <;> (rw [eq'] at x; cases x)
      · rintro ⟨m, n⟩
        rcases h.linked r c m with x | x
        · exact absurd x (n _)
        · exact x
    · intro r c
      constructor
      · rintro ⟨m, n⟩
        unfold colref
        rcases h.linked r c m with x | x
        · have x' : w.colls[c]? = some (.alive (some r)) := x
          rw [x']
        · rcases (h.disposed r c x).1 with y | y
          · exact absurd y n
          · have y' : w.colls[c]? = some (.dying (some r)) := y
            rw [y']
      · intro ec
        unfold colref at ec
        split at ec
        · rename_i q eq
          cases ec
          exact ⟨h.alive c r eq, by rw [eq]; simp⟩
        · rename_i q eq
          cases ec
          obtain ⟨r', er, m⟩ := h.dying c (some r) eq
          cases er
          exact ⟨(h.disposed r c m).2, by rw [eq]; simp⟩
        · cases ec

/-- What is associated to a collection does not change while it lives, whatever the program does (also when other collections
are assigned to it): associating something else is an error that leaves everything as it is. -/
theorem C100_stable (casts : T → U → Bool) {ops : List (Op T U)} {w : World T} {as : List Answer}
    (e : run casts empty ops = some (w, as)) {c r : Nat} (ec : colref w c = some (some r)) :
    (∀ op w' a, step casts w op = some (w', a) → colref w' c = some (some r) ∨ w'.colls[c]? = some .gone)
    ∧ ∀ v, v < w.vars.length → ∃ w', step casts w (.set c v) = some (w', .error) ∧ abs w' = abs w := by
  rcases run_ok casts ops (empty_ok (T := T)).1 empty_ok.2 with ⟨e', _⟩ | ⟨w', as', e', _, hc, h⟩
  · rw [e'] at e; cases e
  · rw [e'] at e
    cases e
    constructor
    · intro op w' a es
      rcases step_ok casts hc h op with ⟨x, _⟩ | ⟨w1, a1, x, y, hc1⟩
      · rw [x] at es; cases es
      · rw [x] at es
        cases es
        have h1 := step_ordered casts h y
        have hl : (r, c) ∈ (abs w).links := by
          unfold colref at ec
          split at ec
          · rename_i q eq
            cases ec
            exact h.alive c r eq
          · rename_i q eq
            cases ec
            obtain ⟨r', er, m⟩ := h.dying c (some r) eq
            cases er
            exact (h.disposed r c m).2
          · cases ec
        have hl' : (r, c) ∈ (abs w').links := by
          cases op <;> simp only [Spec.CollRef.step] at y
          case newVar => simp only [Option.some.injEq, Prod.mk.injEq] at y; rw [← y.1]; exact hl
          case newRef => split at y <;> [(simp only [Option.some.injEq, Prod.mk.injEq] at y; rw [← y.1]; exact hl); cases y]
          case drop => split at y <;> [(simp only [Option.some.injEq, Prod.mk.injEq] at y; rw [← y.1]; exact hl); cases y]
          case copyVar =>
            split at y
            · simp only [Option.map_eq_some_iff, Prod.mk.injEq] at y
              obtain ⟨_, _, y, _⟩ := y
              rw [← y]; exact hl
            · cases y
          case newColl => simp only [Option.some.injEq, Prod.mk.injEq] at y; rw [← y.1]; exact hl
          case copyColl => split at y <;> [(simp only [Option.some.injEq, Prod.mk.injEq] at y; rw [← y.1]; exact hl); cases y]
          case assignColl => split at y <;> [(simp only [Option.some.injEq, Prod.mk.injEq] at y; rw [← y.1]; exact hl); cases y]
          case get =>
            split at y
            · simp only [Option.map_eq_some_iff, Prod.mk.injEq] at y
              obtain ⟨_, _, y, _⟩ := y
              rw [← y]; exact hl
            · cases y
          case tryGet =>
            split at y
            · split at y
              · cases y
              · simp only [Option.some.injEq, Prod.mk.injEq] at y; rw [← y.1]; exact hl
              · simp only [Option.map_eq_some_iff] at y
                obtain ⟨t, _, y⟩ := y
                split at y <;> (simp only [Prod.mk.injEq] at y; rw [← y.1]; exact hl)
            · cases y
          case set =>
            split at y
            · simp only [Option.some.injEq, Prod.mk.injEq] at y; rw [← y.1]; exact List.mem_append_left _ hl
            · simp only [Option.some.injEq, Prod.mk.injEq] at y; rw [← y.1]; exact hl
            · simp only [Option.some.injEq, Prod.mk.injEq] at y; rw [← y.1]; exact hl
            · cases y
          case destroy =>
            split at y
            · simp only [Option.some.injEq, Prod.mk.injEq] at y; rw [← y.1]; exact hl
            · simp only [Option.some.injEq, Prod.mk.injEq] at y; rw [← y.1]; exact hl
            · cases y
          case ret =>
            split at y
            · cases y
            · simp only [Option.some.injEq, Prod.mk.injEq] at y; rw [← y.1]; exact hl
        rcases h1.linked r c hl' with z | z
        · have z' : w'.colls[c]? = some (.alive (some r)) := z
          exact .inl (by unfold colref; rw [z'])
        · rcases (h1.disposed r c z).1 with t | t
          · exact .inr t
          · have t' : w'.colls[c]? = some (.dying (some r)) := t
            exact .inl (by unfold colref; rw [t'])
    · intro v lt
      rcases step_ok casts hc h (.set c v) with ⟨_, y⟩ | ⟨w1, a1, x, y, _⟩
      · exfalso
        have ev : (abs w).vars[v]? = some w.vars[v] := List.getElem?_eq_getElem lt
        unfold colref at ec
        split at ec
        · rename_i q eq
          cases ec
          have eq' : (abs w).colls[c]? = some (.alive (some r)) := eq
          simp only [Spec.CollRef.step, ev, eq'] at y
          cases y
        · rename_i q eq
          cases ec
          have eq' : (abs w).colls[c]? = some (.dying (some r)) := eq
          simp only [Spec.CollRef.step, ev, eq'] at y
          cases y
        · cases ec
      · have ev : (abs w).vars[v]? = some w.vars[v] := List.getElem?_eq_getElem lt
        unfold colref at ec
        split at ec
        · rename_i q eq
          cases ec
          have eq' : (abs w).colls[c]? = some (.alive (some r)) := eq
          simp only [Spec.CollRef.step, ev, eq', Option.some.injEq, Prod.mk.injEq] at y
          exact ⟨w1, by rw [x, ← y.2], y.1.symm⟩
        · rename_i q eq
          cases ec
          have eq' : (abs w).colls[c]? = some (.dying (some r)) := eq
          simp only [Spec.CollRef.step, ev, eq', Option.some.injEq, Prod.mk.injEq] at y
          exact ⟨w1, by rw [x, ← y.2], y.1.symm⟩
        · cases ec

/-- A program that has dropped its variables and destroyed its collections has deleted every reference once. -/
theorem C100_no_leak (casts : T → U → Bool) {ops : List (Op T U)} {w : World T} {as : List Answer}
    (e : run casts empty ops = some (w, as)) (hv : ∀ p ∈ w.vars, p = none) (hc : ∀ q ∈ w.colls, q = .gone) :
    w.deletions.Nodup ∧ ∀ r, r ∈ w.deletions ↔ r < w.refs.length := by
  obtain ⟨a, b, _, _⟩ := C100_lifetime casts e
  refine ⟨a, ?_⟩
  intro r
  rw [b r, and_iff_left]
  rintro (m | ⟨c, m⟩)
  · cases hv _ m
  · unfold Spec.CollRef.ref at m
    split at m
    · rename_i q eq
      cases hc _ (List.mem_of_getElem? eq)
    · rename_i q eq
      cases hc _ (List.mem_of_getElem? eq)
    · cases m

namespace CollRef
deriving instance DecidableEq for World
deriving instance DecidableEq for Spec.CollRef.World
end CollRef

/-- One object is associated to two collections; a copy of the first has none; another association is an error, and so is
asking for another class; `OnDisposed` of the first collection destroys the second collection and drops the variable, so the
object is deleted when the first collection is gone. -/
def CollRef.sample : List (Op Nat Nat) :=
  [.newVar, .newVar, .newColl, .newColl, .newRef 0 7, .set 0 0, .set 1 0, .copyColl 0, .assignColl 2 0, .newRef 1 8, .set 0 1,
   .tryGet 1 2 7, .tryGet 1 1 8, .tryGet 1 1 7, .get 0 2, .destroy 0, .destroy 1, .set 1 1, .ret, .drop 1, .ret, .destroy 2]

example : run (fun t u => t == u) (empty : World Nat) CollRef.sample
    = some (⟨[none, none], [.gone, .gone, .gone], [(7, none), (8, none)], [], [(0, 0), (0, 1)], [(0, 0), (0, 1)], [1, 0]⟩,
      [.done, .done, .done, .done, .done, .done, .done, .done, .done, .done, .error,
       .done, .error, .done, .done, .done, .done, .error, .done, .done, .done, .done]) := by decide +kernel

/-- while the second collection is being destroyed inside `OnDisposed` of the first, two collections and one variable refer
to the object -/
example : (run (fun t u => t == u) (empty : World Nat) (CollRef.sample.take 17)).map (fun x => (x.1.refs, x.1.stack, held x.1 0, colref x.1 1))
    = some ([(7, some 3), (8, none)], [1, 0], 3, some (some 0)) := by decide +kernel

/-- destroying a collection twice is an error of the program -/
example : run (fun t u => t == u) (empty : World Nat) ([.newColl, .destroy 0, .destroy 0] : List (Op Nat Nat)) = none := by decide +kernel

end Vlpp
