import Verif.Lemmas.Func

/-! # Functors: C66, C67, C68 -/
set_option autoImplicit false
namespace Vlpp
namespace Functors
open Pointer Spec

variable {V S G : Type}

/-- either both fail, or both succeed with the same answer -/
def Sim (x : Option (Answer V × World S G)) (y : Option (Answer V × Fn.State S G)) : Prop :=
  (x = none ∧ y = none) ∨ ∃ a w s, x = some (a, w) ∧ y = some (a, s) ∧ R w s

theorem sim_done {x : Option (World S G)} {w : World S G} {s : Fn.State S G} (hx : x = some w) (h : R w s) :
    Sim (V := V) (quiet x) (some (.done, s)) := .inr ⟨.done, w, s, by rw [hx]; rfl, rfl, h⟩

theorem R.null {w : World S G} {s : Fn.State S G} (h : R w s) : ∃ w', pointerOp w .newEmpty = some w' ∧ R w' (s.push none) := by
  obtain ⟨p, e, hg⟩ := (C43_step w.ptrs h.good .newEmpty).1 trivial
  have hp : p = ⟨w.ptrs.counters, w.ptrs.objs, w.ptrs.roots ++ [some ({} : Slot)]⟩ := by simpa [Pointer.step] using e.symm
  refine ⟨{ w with ptrs := p }, by simp [pointerOp, e], h.next hg (by rw [hp]) (fun o j _ => by rw [hp]; rfl) ⟨rfl, rfl, rfl⟩ ?_ ?_ ?_⟩
  · rw [hp]; simp [Fn.State.push, h.vars]
  · intro i
    rw [hp, read_root_append, get_push, h.vars]
    split
    · rfl
    · exact h.read i
  · intro i k v e
    rw [get_push] at e
    split at e
    · cases e
    · exact h.value i k v e

theorem R.copy {w : World S G} {s : Fn.State S G} (h : R w s) {i : Nat} {v : Option (Nat × Fn.Value)} (hi : s.get i = some v) :
    ∃ w', pointerOp w (.copyCtor (.root i)) = some w' ∧ R w' (s.push v) := by
  have hr : w.ptrs.read (.root i) = some (slotOf v) := by rw [h.read, hi]; rfl
  obtain ⟨p, e, hg, ha, h1, h2⟩ := C43_copyCtor w.ptrs h.good _ _ hr
  have hl := copyCtor_len e
  refine ⟨{ w with ptrs := p }, by simp [pointerOp, e], h.next hg hl.2 (fun o j _ => h2 _ (by simp)) ⟨rfl, rfl, rfl⟩ ?_ ?_ ?_⟩
  · rw [hl.1]; simp [Fn.State.push, h.vars]
  · intro j
    rw [get_push, h.vars]
    split
    · rename_i e; subst e; exact h1
    · rename_i e; rw [h2 _ (by simpa using e)]; exact h.read j
  · intro j k u e
    rw [get_push] at e
    split at e
    · cases e; exact h.value i k u hi
    · exact h.value j k u e

theorem R.move {w : World S G} {s : Fn.State S G} (h : R w s) {i : Nat} {v : Option (Nat × Fn.Value)} (hi : s.get i = some v) :
    ∃ w', pointerOp w (.moveCtor (.root i)) = some w' ∧ R w' ((s.put i (some none)).push v) := by
  have hr : w.ptrs.read (.root i) = some (slotOf v) := by rw [h.read, hi]; rfl
  have hlt := get_lt hi
  obtain ⟨p, e, hg, ha, h1, h2, h3⟩ := C43_moveCtor w.ptrs h.good _ _ hr
  have hl := moveCtor_len e
  have hlen : (s.put i (some none)).vars.length = s.vars.length := by simp [Fn.State.put]
  refine ⟨{ w with ptrs := p }, by simp [pointerOp, e], h.next hg hl.2 (fun o j _ => h3 _ (by simp) (by simp)) ⟨rfl, rfl, rfl⟩ ?_ ?_ ?_⟩
  · rw [hl.1]; simp [Fn.State.push, Fn.State.put, h.vars]
  · intro j
    rw [get_push, hlen, h.vars, get_put _ _ _ _ _ hi]
    split
    · rename_i e; subst e; exact h1
    · rename_i e
      split
      · rename_i e'; subst e'; exact h2
      · rename_i e'; rw [h3 _ (by simpa using e) (by simpa using e')]; exact h.read j
  · intro j k u e
    rw [get_push, get_put _ _ _ _ _ hi] at e
    split at e
    · cases e; exact h.value i k u hi
    · split at e
      · cases e
      · exact h.value j k u e

theorem R.destroy {w : World S G} {s : Fn.State S G} (h : R w s) {i : Nat} {v : Option (Nat × Fn.Value)} (hi : s.get i = some v) :
    ∃ w', pointerOp w (.destroy i) = some w' ∧ R w' (s.put i none) := by
  have hr : w.ptrs.read (.root i) = some (slotOf v) := by rw [h.read, hi]; rfl
  obtain ⟨p, e, hg, ha, h1, h2⟩ := C43_destroy w.ptrs h.good _ _ hr
  have hl := destroy_len e
  refine ⟨{ w with ptrs := p }, by simp [pointerOp, e],
    h.next hg hl.2 (fun o j hal => h2 _ (by simp) ((ha o).mp hal)) ⟨rfl, rfl, rfl⟩ ?_ ?_ ?_⟩
  · rw [hl.1]; simp [Fn.State.put, h.vars]
  · intro j
    rw [get_put _ _ _ _ _ hi]
    split
    · rename_i e'; subst e'; exact h1
    · rename_i e'; rw [h2 (.root j) (by simpa using e') trivial]; exact h.read j
  · intro j k u e
    rw [get_put _ _ _ _ _ hi] at e
    split at e
    · cases e
    · exact h.value j k u e

theorem R.assign {w : World S G} {s : Fn.State S G} (h : R w s) {i j : Nat} {v u : Option (Nat × Fn.Value)}
    (hi : s.get i = some v) (hj : s.get j = some u) :
    ∃ w', pointerOp w (.assignCopy (.root i) (.root j)) = some w' ∧ R w' (s.put i (some u)) := by
  have hri : w.ptrs.read (.root i) = some (slotOf v) := by rw [h.read, hi]; rfl
  have hrj : w.ptrs.read (.root j) = some (slotOf u) := by rw [h.read, hj]; rfl
  have hval : ∀ l k x, (s.put i (some u)).get l = some (some (k, x)) → Denotes w.ptrs w.invokers k x := by
    intro l k x e
    rw [get_put _ _ _ _ _ hi] at e
    split at e
    · cases e; exact h.value j k x hj
    · exact h.value l k x e
  by_cases e : i = j
  · subst e
    have huv : u = v := by rw [hi] at hj; exact (Option.some.inj hj).symm
    refine ⟨w, by simp [pointerOp, Pointer.step, hri], ?_⟩
    refine h.next h.good rfl (fun _ _ _ => rfl) ⟨rfl, rfl, rfl⟩ (by simp [Fn.State.put, h.vars]) ?_ hval
    intro l
    rw [get_put _ _ _ _ _ hi]
    split
    · rename_i e; subst e; exact hrj
    · exact h.read l
  · obtain ⟨p, e1, hg, ha, h1, h2⟩ := C43_assignCopy w.ptrs h.good (.root i) (.root j) (by simpa using e) _ _ hri hrj trivial trivial
    have hl := assignCopy_len e1
    refine ⟨{ w with ptrs := p }, by simp [pointerOp, e1],
      h.next hg hl.2 (fun o j hal => h2 _ (by simp) ((ha o).mp hal)) ⟨rfl, rfl, rfl⟩ ?_ ?_ hval⟩
    · rw [hl.1]; simp [Fn.State.put, h.vars]
    · intro l
      rw [get_put _ _ _ _ _ hi]
      split
      · rename_i e'; subst e'; exact h1
      · rename_i e'; rw [h2 (.root l) (by simpa using e') trivial]; exact h.read l

theorem R.wrapCopy {w : World S G} {s : Fn.State S G} (h : R w s) (c : Nat) {i k : Nat} {u : Fn.Value}
    (hi : s.get i = some (some (k, u))) :
    ∃ w', ((construct w 1 (.wrap c)).bind fun w' => pointerOp w' (.assignCopy (.field w.ptrs.objs.length 0) (.root i))) = some w' ∧
      R w' (s.make (.converted c k u) none) := by
  obtain ⟨p, e1, hg, hal, hol, hrl, hf, hri, hroot, hfield, hk⟩ := wrap_start h i k u hi
  obtain ⟨q, e2, hg2, ha2, h1, h2⟩ := C43_assignCopy p hg (.field w.ptrs.objs.length 0) (.root i) (by simp) _ _ hf hri
    (hk _ ((hal _).mpr (.inr rfl))) trivial
  have hl := assignCopy_len e2
  have hal2 : ∀ x, Alive q x ↔ Alive p x := by
    intro x
    rw [ha2]
    exact ⟨fun ⟨T, hx, hT⟩ => by
      obtain ⟨l, t, -, ht, hc, -⟩ := hT x hx
      exact alive_of_counter ((good_iff p).mp hg) ht hc, fun hx => survives_of_empty hg hf hx⟩
  have hq : ∀ l, l ≠ .field w.ptrs.objs.length 0 → q.read l = p.read l := by
    intro l hne
    by_cases hh : HomeIn (Alive p) l
    · exact h2 l hne (hk l hh)
    · have e : ∀ w : Pointer.World, ¬ HomeIn (Alive w) l → w.read l = none := by
        intro w hw
        cases er : w.read l with
        | none => rfl
        | some t => exact absurd (homeIn_alive er) hw
      rw [e p hh, e q]
      intro hh2
      cases l with
      | root _ => exact hh trivial
      | field o j => exact hh ((hal2 o).mp hh2)
  refine ⟨{ w with ptrs := q, invokers := w.invokers ++ [.wrap c] }, by simp [construct, e1, pointerOp, e2], ?_⟩
  refine h.wrapped (s' := s) c i k u hi hg2 (by rw [hl.2, hol]) (by rw [hl.1, hrl]) (fun x => (hal2 x).trans (hal x)) ?_ h1 ?_ rfl
    ⟨rfl, rfl, rfl⟩ (fun _ _ _ e => e)
  · intro l
    rw [hq _ (by simp), hroot, h.read]
  · intro o j hne
    rw [hq _ (by simpa using hne), hfield o j hne]

theorem R.wrapMove {w : World S G} {s : Fn.State S G} (h : R w s) (c : Nat) {i k : Nat} {u : Fn.Value}
    (hi : s.get i = some (some (k, u))) :
    ∃ w', ((construct w 1 (.wrap c)).bind fun w' => pointerOp w' (.assignMove (.field w.ptrs.objs.length 0) (.root i))) = some w' ∧
      R w' ((s.put i (some none)).make (.converted c k u) none) := by
  obtain ⟨p, e1, hg, hal, hol, hrl, hf, hri, hroot, hfield, hk⟩ := wrap_start h i k u hi
  obtain ⟨q, e2, hg2, ha2, h1, h3, h2⟩ := C43_assignMove p hg (.field w.ptrs.objs.length 0) (.root i) (by simp) _ _ hf hri
    (hk _ ((hal _).mpr (.inr rfl))) trivial
  have hl := assignMove_len e2
  have hal2 : ∀ x, Alive q x ↔ Alive p x := by
    intro x
    rw [ha2]
    exact ⟨fun ⟨T, hx, hT⟩ => by
      obtain ⟨l, t, -, ht, hc, -⟩ := hT x hx
      exact alive_of_counter ((good_iff p).mp hg) ht hc, fun hx => survives_of_empty hg hf hx⟩
  have hq : ∀ l, l ≠ .field w.ptrs.objs.length 0 → l ≠ .root i → q.read l = p.read l := by
    intro l hne hne2
    by_cases hh : HomeIn (Alive p) l
    · exact h2 l hne hne2 (hk l hh)
    · have e : ∀ w : Pointer.World, ¬ HomeIn (Alive w) l → w.read l = none := by
        intro w hw
        cases er : w.read l with
        | none => rfl
        | some t => exact absurd (homeIn_alive er) hw
      rw [e p hh, e q]
      intro hh2
      cases l with
      | root _ => exact hh trivial
      | field o j => exact hh ((hal2 o).mp hh2)
  have hlt := get_lt hi
  rw [h.vars] at hlt
  refine ⟨{ w with ptrs := q, invokers := w.invokers ++ [.wrap c] }, by simp [construct, e1, pointerOp, e2], ?_⟩
  refine h.wrapped (s' := s.put i (some none)) c i k u hi hg2 (by rw [hl.2, hol]) (by rw [hl.1, hrl])
    (fun x => (hal2 x).trans (hal x)) ?_ h1 ?_ (by simp [Fn.State.put]) ⟨rfl, rfl, rfl⟩ ?_
  · intro l
    rw [get_put _ _ _ _ _ hi]
    by_cases e : l = i
    · subst e
      rw [h3, if_neg (by omega), if_pos rfl]; rfl
    · rw [hq _ (by simp) (by simpa using e), hroot, h.read, if_neg e]
  · intro o j hne
    rw [hq _ (by simpa using hne) (by simp), hfield o j hne]
  · intro l k' v e
    rw [get_put _ _ _ _ _ hi] at e
    split at e
    · cases e
    · exact e

theorem slotOf_ref (v : Option (Nat × Fn.Value)) : (slotOf v).ref = v.map fun x => (x.1, 0) := by
  cases v with
  | none => rfl
  | some x => rfl

theorem step_sim (code : Code V S G) {w : World S G} {s : Fn.State S G} (h : R w s) (op : Op V S) :
    Sim (step code w op) (Fn.step code s op) := by
  have hgone : ∀ i, s.get i = none → w.ptrs.read (.root i) = none := fun i e => by rw [h.read, e]; rfl
  have illegal : ∀ op, ¬ Legal w.ptrs op → quiet (V := V) (pointerOp w op) = none := fun op hl => by
    simp [pointerOp, (C43_step w.ptrs h.good op).2 hl, quiet]
  cases op with
  | null =>
    obtain ⟨w', e, hr⟩ := h.null
    exact sim_done e hr
  | ofFunction f =>
    obtain ⟨w', e, hr⟩ := h.makes (.static f) (.function f) none rfl (fun p l o a b => ⟨a, b⟩)
    exact sim_done e hr
  | ofMethod x m =>
    obtain ⟨w', e, hr⟩ := h.makes (.member x m) (.method x m) none rfl (fun p l o a b => ⟨a, b⟩)
    exact sim_done e hr
  | ofPointer c f =>
    obtain ⟨w', e, hr⟩ := h.makes (.pointer c f) (.pointer c f) none rfl (fun p l o a b => ⟨a, b⟩)
    exact sim_done e hr
  | ofFunctor f st =>
    obtain ⟨w', e, hr⟩ := h.makes (.object f st) (.functor f) (some st) rfl (fun p l o a b => ⟨a, st, b⟩)
    exact sim_done e hr
  | ofFunc c i =>
    cases hi : s.get i with
    | none => left; simp [step, Fn.step, hi, hgone i hi]
    | some v =>
      have hr : w.ptrs.read (.root i) = some (slotOf v) := by rw [h.read, hi]; rfl
      cases v with
      | none =>
        obtain ⟨w', e, hr'⟩ := h.null
        simp only [step, Fn.step, hi, hr, slotOf_ref]
        exact sim_done e hr'
      | some v =>
        obtain ⟨w', e, hr'⟩ := h.wrapCopy c hi
        simp only [step, Fn.step, hi, hr, slotOf_ref]
        exact sim_done e hr'
  | ofFuncMove c i =>
    cases hi : s.get i with
    | none => left; simp [step, Fn.step, hi, hgone i hi]
    | some v =>
      have hr : w.ptrs.read (.root i) = some (slotOf v) := by rw [h.read, hi]; rfl
      cases v with
      | none =>
        obtain ⟨w', e, hr'⟩ := h.null
        simp only [step, Fn.step, hi, hr, slotOf_ref]
        exact sim_done e hr'
      | some v =>
        obtain ⟨w', e, hr'⟩ := h.wrapMove c hi
        simp only [step, Fn.step, hi, hr, slotOf_ref]
        exact sim_done e hr'
  | copy i =>
    cases hi : s.get i with
    | none =>
      left
      refine ⟨illegal _ ?_, by simp [Fn.step, hi]⟩
      rintro ⟨t, ht⟩; rw [hgone i hi] at ht; cases ht
    | some v =>
      obtain ⟨w', e, hr⟩ := h.copy hi
      simp only [step, Fn.step, hi]
      exact sim_done e hr
  | move i =>
    cases hi : s.get i with
    | none =>
      left
      refine ⟨illegal _ ?_, by simp [Fn.step, hi]⟩
      rintro ⟨t, ht⟩; rw [hgone i hi] at ht; cases ht
    | some v =>
      obtain ⟨w', e, hr⟩ := h.move hi
      simp only [step, Fn.step, hi]
      exact sim_done e hr
  | destroy i =>
    cases hi : s.get i with
    | none =>
      left
      refine ⟨illegal _ ?_, by simp [Fn.step, hi]⟩
      rintro ⟨t, ht⟩; rw [hgone i hi] at ht; cases ht
    | some v =>
      obtain ⟨w', e, hr⟩ := h.destroy hi
      simp only [step, Fn.step, hi]
      exact sim_done e hr
  | assign i j =>
    cases hi : s.get i with
    | none =>
      left
      refine ⟨illegal _ ?_, by simp [Fn.step, hi]⟩
      rintro ⟨⟨t, ht⟩, -⟩; rw [hgone i hi] at ht; cases ht
    | some v =>
      cases hj : s.get j with
      | none =>
        left
        refine ⟨illegal _ ?_, by simp [Fn.step, hi, hj]⟩
        rintro ⟨-, ⟨t, ht⟩, -⟩; rw [hgone j hj] at ht; cases ht
      | some u =>
        obtain ⟨w', e, hr⟩ := h.assign hi hj
        simp only [step, Fn.step, hi, hj]
        exact sim_done e hr
  | assignRvalue i j =>
    cases hi : s.get i with
    | none =>
      left
      refine ⟨illegal _ ?_, by simp [Fn.step, hi]⟩
      rintro ⟨⟨t, ht⟩, -⟩; rw [hgone i hi] at ht; cases ht
    | some v =>
      cases hj : s.get j with
      | none =>
        left
        refine ⟨illegal _ ?_, by simp [Fn.step, hi, hj]⟩
        rintro ⟨-, ⟨t, ht⟩, -⟩; rw [hgone j hj] at ht; cases ht
      | some u =>
        obtain ⟨w', e, hr⟩ := h.assign hi hj
        simp only [step, Fn.step, hi, hj]
        exact sim_done e hr
  | test i =>
    cases hi : s.get i with
    | none => left; simp [step, Fn.step, hi, hgone i hi]
    | some v =>
      have hr : w.ptrs.read (.root i) = some (slotOf v) := by rw [h.read, hi]; rfl
      right
      exact ⟨.bool v.isSome, w, s, by simp [step, hr, slotOf_ref], by simp [Fn.step, hi], h⟩
  | equal i j =>
    cases hi : s.get i with
    | none => left; simp [step, Fn.step, hi, hgone i hi]
    | some v =>
      cases hj : s.get j with
      | none => left; simp [step, Fn.step, hi, hj, hgone j hj]
      | some u =>
        have hr : w.ptrs.read (.root i) = some (slotOf v) := by rw [h.read, hi]; rfl
        have hr' : w.ptrs.read (.root j) = some (slotOf u) := by rw [h.read, hj]; rfl
        right
        refine ⟨.bool (decide (v.map (·.1) = u.map (·.1))), w, s, ?_, by simp [Fn.step, hi, hj], h⟩
        simp only [step, hr, hr', slotOf_ref, Option.bind_some, Option.map_some]
        cases v <;> cases u <;> simp
  | call i a =>
    cases hi : s.get i with
    | none => left; simp [step, Fn.step, hi, hgone i hi]
    | some v =>
      have hr : w.ptrs.read (.root i) = some (slotOf v) := by rw [h.read, hi]; rfl
      cases v with
      | none =>
        left
        refine ⟨?_, by simp [Fn.step, hi]⟩
        simp only [step, hr, slotOf, Option.bind_some]
        cases w.invokers.length <;> simp [invoke]
      | some v =>
        have hd := h.value i v.1 v.2 hi
        simp only [step, hr, slotOf, Option.bind_some, Fn.step, hi]
        rcases invoke_sim code h v.2 v.1 hd _ hd.lt a with ⟨x, y⟩ | ⟨r, w', st, g, x, y, z⟩
        · left; simp [x, y]
        · right; exact ⟨.value r, w', _, by simp [x], by simp [y], z⟩

theorem R.init (g : G) : R (S := S) { globals := g } { globals := g } := by
  refine ⟨good_empty, rfl, rfl, rfl, fun k => by simp, rfl, ?_, ?_, ?_⟩
  · intro i; simp [World.read, Fn.State.get]
  · intro i k v e; simp [Fn.State.get] at e
  · intro o j t e; simp [World.read] at e

theorem run_sim (code : Code V S G) {w : World S G} {s : Fn.State S G} (h : R w s) (ops : List (Op V S)) :
    (run code w ops = none ∧ Fn.run code s ops = none) ∨
    ∃ as w' s', run code w ops = some (as, w') ∧ Fn.run code s ops = some (as, s') ∧ R w' s' := by
  induction ops generalizing w s with
  | nil => exact .inr ⟨[], w, s, rfl, rfl, h⟩
  | cons op ops ih =>
    rcases step_sim code h op with ⟨x, y⟩ | ⟨a, w1, s1, x, y, h1⟩
    · left; simp [run, Fn.run, x, y]
    · rcases ih h1 with ⟨x', y'⟩ | ⟨as, w2, s2, x', y', h2⟩
      · left; simp [run, Fn.run, x, y, x', y']
      · right; exact ⟨a :: as, w2, s2, by simp [run, x, x'], by simp [Fn.run, y, y'], h2⟩

end Functors

open Pointer Spec Functors

variable {V S G : Type}

/-! ## C66 -/

/-- **C66.** Every history of functors: construction from functions, methods, functor objects and other functors, copying,
moving, assignment, comparison, tests and calls have the results that the specification says, with undefined behaviour
exactly where the specification has none (a variable that is gone, calling a null functor, a null function or a method of
a null object). -/
theorem C66_history (code : Code V S G) (g : G) (ops : List (Op V S)) :
    (Functors.run code { globals := g } ops).map (·.1) = (Fn.run code { globals := g } ops).map (·.1) := by
  rcases run_sim code (R.init g) ops with ⟨x, y⟩ | ⟨as, w, s, x, y, -⟩
  · rw [x, y]; rfl
  · rw [x, y]; rfl

theorem Functors.held_alive {w : World S G} {s : Fn.State S G} (h : R w s) (o : Nat) : Alive w.ptrs o ↔ Fn.Held s o := by
  have hdown : ∀ v k o, Denotes w.ptrs w.invokers k v → Fn.Holds k v o → Alive w.ptrs o := by
    intro v
    induction v with
    | converted c k' v ih =>
      intro k o hd hh
      rcases hh with rfl | hh
      · exact hd.1
      · exact ih k' o hd.2.2.2.2 hh
    | _ => intro k o hd hh; simp only [Fn.Holds] at hh; subst hh; exact hd.alive
  have hself : ∀ v k, Fn.Holds k v k := by
    intro v k
    cases v <;> simp [Fn.Holds]
  -- what holds an invoker holds what is inside
  have hup : ∀ (v : Fn.Value) (k o o' : Nat), Denotes w.ptrs w.invokers k v → Fn.Holds k v o →
      w.ptrs.read (.field o 0) = some (ptr o') → Fn.Holds k v o' := by
    intro v
    induction v with
    | converted c k' v ih =>
      intro k o o' hd hh hr
      rcases hh with rfl | hh
      · obtain ⟨-, -, -, h4, -⟩ := hd
        rw [h4] at hr
        have e : k' = o' := by simpa [ptr] using hr
        subst e
        exact .inr (hself v k')
      · exact .inr (ih k' o o' hd.2.2.2.2 hh hr)
    | functor f =>
      intro k o o' hd hh hr
      have e : o = k := hh
      subst e
      obtain ⟨-, c, -, h2, -⟩ := h.field _ _ _ hr
      obtain ⟨-, st, e⟩ := hd
      rw [e] at h2; cases h2
    | _ =>
      intro k o o' hd hh hr
      have e : o = k := hh
      subst e
      obtain ⟨-, c, -, h2, -⟩ := h.field _ _ _ hr
      have e := hd.2
      rw [e] at h2; cases h2
  constructor
  · intro ha
    -- owners have larger numbers
    have main : ∀ n o, w.ptrs.objs.length - o ≤ n → Alive w.ptrs o → Fn.Held s o := by
      intro n
      induction n with
      | zero =>
        intro o hn ha
        obtain ⟨fs, hf⟩ := ha
        have := (List.getElem?_eq_some_iff.mp hf).1
        omega
      | succ n ih =>
        intro o hn ha
        obtain ⟨l, t, hl, hc⟩ := owner_of_alive ((good_iff _).mp h.good) ha
        cases l with
        | root i =>
          rw [h.read] at hl
          cases hi : s.get i with
          | none => rw [hi] at hl; cases hl
          | some v =>
            rw [hi] at hl
            cases v with
            | none => cases hl; cases hc
            | some v =>
              cases hl
              have e : v.1 = o := by simpa [slotOf, ptr] using hc
              subst e
              exact ⟨i, v.1, v.2, hi, hself _ _⟩
        | field o' j =>
          obtain ⟨rfl, c, k, h2, h3, rfl⟩ := h.field o' j t hl
          have e : k = o := by simpa [ptr] using hc
          subst e
          have ha' := alive_of_read hl
          obtain ⟨fs, hf⟩ := id ha'
          have := (List.getElem?_eq_some_iff.mp hf).1
          obtain ⟨i, x, v, h4, h5⟩ := ih o' (by omega) ha'
          exact ⟨i, x, v, h4, hup v x o' k (h.value i x v h4) h5 hl⟩
    exact main _ o (Nat.le_refl _) ha
  · rintro ⟨i, k, v, h1, h2⟩
    exact hdown v k o (h.value i k v h1) h2

/-- **C66.** After every history, the functor objects that exist are exactly those that some variable holds, directly or
inside of another functor. -/
theorem C66_lifetime (code : Code V S G) (g : G) (ops : List (Op V S)) (as : List (Answer V)) (w : Functors.World S G)
    (hw : Functors.run code { globals := g } ops = some (as, w)) :
    ∃ s, Fn.run code { globals := g } ops = some (as, s) ∧ ∀ o, Alive w.ptrs o ↔ Fn.Held s o := by
  rcases run_sim code (R.init g) ops with ⟨x, -⟩ | ⟨as', w', s, x, y, h⟩
  · rw [x] at hw; cases hw
  · rw [x] at hw
    cases hw
    exact ⟨s, y, fun o => held_alive h o⟩

/-- **C66.** Nothing is left when all variables are gone. -/
theorem C66_no_leak (code : Code V S G) (g : G) (ops : List (Op V S)) (as : List (Answer V)) (w : Functors.World S G)
    (hw : Functors.run code { globals := g } ops = some (as, w)) (hgone : ∀ i, w.ptrs.read (.root i) = none) (o : Nat) :
    ¬ Alive w.ptrs o := by
  rcases run_sim code (R.init g) ops with ⟨x, -⟩ | ⟨as', w', s, x, y, h⟩
  · rw [x] at hw; cases hw
  · rw [x] at hw
    cases hw
    rw [held_alive h]
    rintro ⟨i, k, v, h1, -⟩
    have := h.read i
    rw [hgone, h1] at this
    cases this

/-! ## C67 -/

/-- Nothing null is given to a constructor. -/
def Spec.Fn.NoNull : Op V S → Prop
  | .ofFunction f => f ≠ none
  | .ofMethod x _ => x ≠ none
  | .ofPointer _ f => f ≠ none
  | _ => True

/-- the value can be called -/
def Spec.Fn.Callable : Fn.Value → Prop
  | .function f => f ≠ none
  | .method x _ => x ≠ none
  | .pointer _ f => f ≠ none
  | .functor _ => True
  | .converted _ _ v => Callable v

theorem Functors.callable_call (code : Code V S G) {w : World S G} {s : Fn.State S G} (h : R w s) (v : Fn.Value) (k : Nat)
    (hd : Denotes w.ptrs w.invokers k v) (hc : Fn.Callable v) (a : V) :
    (Fn.call code k v a s.states s.globals).isSome = true := by
  induction v generalizing k a with
  | function f => cases f with
    | none => exact absurd rfl hc
    | some f => rfl
  | method x m => cases x with
    | none => exact absurd rfl hc
    | some f => rfl
  | pointer c f => cases f with
    | none => exact absurd rfl hc
    | some f => rfl
  | functor f =>
    obtain ⟨-, st, e⟩ := hd
    have : s.states k = some st := by rw [h.states, e]
    simp [Fn.call, this]
  | converted c k' v ih => simpa [Fn.call] using ih k' hd.2.2.2.2 hc (code.argument c a)

/-- all values of the variables can be called -/
def Functors.AllCallable (s : Fn.State S G) : Prop := ∀ i k v, s.get i = some (some (k, v)) → Fn.Callable v

theorem Functors.callable_push {s : Fn.State S G} (h : AllCallable s) (x : Option (Nat × Fn.Value))
    (hx : ∀ k v, x = some (k, v) → Fn.Callable v) : AllCallable (s.push x) := by
  intro i k v e
  rw [get_push] at e
  split at e
  · exact hx k v (Option.some.inj e)
  · exact h i k v e

theorem Functors.callable_put {s : Fn.State S G} (h : AllCallable s) (i : Nat) (u : Option (Nat × Fn.Value)) (hu : s.get i = some u)
    (x : Option (Option (Nat × Fn.Value))) (hx : ∀ k v, x = some (some (k, v)) → Fn.Callable v) : AllCallable (s.put i x) := by
  intro j k v e
  rw [get_put _ _ _ _ _ hu] at e
  split at e
  · exact hx k v e
  · exact h j k v e

theorem Functors.callable_make {s : Fn.State S G} (h : AllCallable s) (v : Fn.Value) (hv : Fn.Callable v) (st : Option S) :
    AllCallable (s.make v st) :=
  fun i k u e => callable_push h (some (s.made, v)) (fun _ _ e => by cases e; exact hv) i k u e

theorem Functors.callable_step (code : Code V S G) {s s' : Fn.State S G} {a : Answer V} (h : AllCallable s) (op : Op V S)
    (hop : Fn.NoNull op) (e : Fn.step code s op = some (a, s')) : AllCallable s' := by
  cases op with
  | null => cases e; exact callable_push h none (fun _ _ e => by cases e)
  | ofFunction f => cases e; exact callable_make h (.function f) hop none
  | ofMethod x m => cases e; exact callable_make h (.method x m) hop none
  | ofPointer c f => cases e; exact callable_make h (.pointer c f) hop none
  | ofFunctor f st => cases e; exact callable_make h (.functor f) trivial (some st)
  | ofFunc c i =>
    cases hi : s.get i with
    | none => simp [Fn.step, hi] at e
    | some v =>
      cases v with
      | none => simp [Fn.step, hi] at e; rw [← e.2]; exact callable_push h none (fun _ _ e => by cases e)
      | some v => simp [Fn.step, hi] at e; rw [← e.2]; exact callable_make h (.converted c v.1 v.2) (h i v.1 v.2 hi) none
  | ofFuncMove c i =>
    cases hi : s.get i with
    | none => simp [Fn.step, hi] at e
    | some v =>
      cases v with
      | none => simp [Fn.step, hi] at e; rw [← e.2]; exact callable_push h none (fun _ _ e => by cases e)
      | some v =>
        simp [Fn.step, hi] at e; rw [← e.2]
        exact callable_make (callable_put h i _ hi (some none) (fun _ _ e => by cases e)) (.converted c v.1 v.2) (h i v.1 v.2 hi) none
  | copy i =>
    cases hi : s.get i with
    | none => simp [Fn.step, hi] at e
    | some v => simp [Fn.step, hi] at e; rw [← e.2]; exact callable_push h v (fun k u e => h i k u (by rw [hi, e]))
  | move i =>
    cases hi : s.get i with
    | none => simp [Fn.step, hi] at e
    | some v =>
      simp [Fn.step, hi] at e; rw [← e.2]
      exact callable_push (callable_put h i _ hi (some none) (fun _ _ e => by cases e)) v (fun k u e => h i k u (by rw [hi, e]))
  | destroy i =>
    cases hi : s.get i with
    | none => simp [Fn.step, hi] at e
    | some v => simp [Fn.step, hi] at e; rw [← e.2]; exact callable_put h i _ hi _ (fun _ _ e => by cases e)
  | assign i j =>
    cases hi : s.get i with
    | none => simp [Fn.step, hi] at e
    | some v =>
      cases hj : s.get j with
      | none => simp [Fn.step, hj] at e
      | some u =>
        simp [Fn.step, hi, hj] at e; rw [← e.2]
        exact callable_put h i _ hi _ (fun k x e => h j k x (by rw [hj]; exact e))
  | assignRvalue i j =>
    cases hi : s.get i with
    | none => simp [Fn.step, hi] at e
    | some v =>
      cases hj : s.get j with
      | none => simp [Fn.step, hj] at e
      | some u =>
        simp [Fn.step, hi, hj] at e; rw [← e.2]
        exact callable_put h i _ hi _ (fun k x e => h j k x (by rw [hj]; exact e))
  | test i =>
    cases hi : s.get i with
    | none => simp [Fn.step, hi] at e
    | some v => simp [Fn.step, hi] at e; rw [← e.2]; exact h
  | equal i j =>
    cases hi : s.get i with
    | none => simp [Fn.step, hi] at e
    | some v =>
      cases hj : s.get j with
      | none => simp [Fn.step, hj] at e
      | some u => simp [Fn.step, hi, hj] at e; rw [← e.2]; exact h
  | call i a =>
    cases hi : s.get i with
    | none => simp [Fn.step, hi] at e
    | some v =>
      cases v with
      | none => simp [Fn.step, hi] at e
      | some v =>
        simp only [Fn.step, hi, Option.bind_some] at e
        cases hc : Fn.call code v.1 v.2 a s.states s.globals with
        | none => rw [hc] at e; cases e
        | some r => rw [hc] at e; cases e; exact fun i k v e => h i k v e

theorem Functors.callable_run (code : Code V S G) {s s' : Fn.State S G} {as : List (Answer V)} (h : AllCallable s) (ops : List (Op V S))
    (hops : ∀ op ∈ ops, Fn.NoNull op) (e : Fn.run code s ops = some (as, s')) : AllCallable s' := by
  induction ops generalizing s as with
  | nil => cases e; exact h
  | cons op ops ih =>
    cases h1 : Fn.step code s op with
    | none => simp [Fn.run, h1] at e
    | some r =>
      cases h2 : Fn.run code r.2 ops with
      | none => simp [Fn.run, h1, h2] at e
      | some rs =>
        simp only [Fn.run, h1, h2, Option.bind_some, Option.map_some, Option.some.injEq, Prod.mk.injEq] at e
        exact ih (callable_step code h op (hops op (by simp)) (show _ = some (r.1, r.2) from h1)) (fun o ho => hops o (by simp [ho]))
          (show _ = some (rs.1, s') by rw [h2, ← e.2])

/-- **C67 (partial).** If no constructor was given a null function or a null object, every functor that tests as non-null
can be called, with any argument.  Full statement: the same without the condition `hops`; see `C67_violated`. -/
theorem C67_callable_partial (code : Code V S G) (g : G) (ops : List (Op V S)) (hops : ∀ op ∈ ops, Fn.NoNull op)
    (as : List (Answer V)) (w : Functors.World S G) (hw : Functors.run code { globals := g } ops = some (as, w))
    (i : Nat) (ht : Functors.step code w (.test i) = some (.bool true, w)) (a : V) :
    (Functors.step code w (.call i a)).isSome = true := by
  rcases run_sim code (R.init g) ops with ⟨x, -⟩ | ⟨as', w', s, x, y, h⟩
  · rw [x] at hw; cases hw
  · rw [x] at hw
    cases hw
    have hall := callable_run code (s := { globals := g }) (by intro i k v e; simp [Fn.State.get] at e) ops hops y
    rcases step_sim code h (.call i a) with ⟨-, e2⟩ | ⟨_, _, _, e1, -, -⟩
    · exfalso
      rcases step_sim code h (.test i) with ⟨e1, -⟩ | ⟨a', _, _, e3, e4, -⟩
      · rw [e1] at ht; cases ht
      · rw [ht] at e3
        cases e3
        cases hi : s.get i with
        | none => simp [Fn.step, hi] at e4
        | some v =>
          cases v with
          | none => simp [Fn.step, hi] at e4
          | some v =>
            have := callable_call code h v.2 v.1 (h.value i v.1 v.2 hi) (hall i v.1 v.2 hi) a
            cases hcall : Fn.call code v.1 v.2 a s.states s.globals with
            | none => rw [hcall] at this; cases this
            | some r => simp [Fn.step, hi, hcall] at e2
    · rw [e1]; rfl

/-- **C67, violated.** After any history: a functor made from a null function pointer (for example `Func<int(int)> f = nullptr;`)
tests as non-null, is not equal to the null functor, and calling it is undefined behaviour. -/
theorem C67_violated (code : Code V S G) (g : G) (ops : List (Op V S)) (as : List (Answer V)) (w : Functors.World S G)
    (hw : Functors.run code { globals := g } ops = some (as, w)) :
    ∃ w', Functors.run code w [.null, .ofFunction none] = some ([.done, .done], w') ∧
      Functors.step code w' (.test (w.ptrs.roots.length + 1)) = some (.bool true, w') ∧
      Functors.step code w' (.equal (w.ptrs.roots.length + 1) w.ptrs.roots.length) = some (.bool false, w') ∧
      ∀ a, Functors.step code w' (.call (w.ptrs.roots.length + 1) a) = none := by
  rcases run_sim code (R.init g) ops with ⟨x, -⟩ | ⟨as', w0, s, x, y, h⟩
  · rw [x] at hw; cases hw
  · rw [x] at hw
    cases hw
    rcases run_sim code h [.null, .ofFunction none] with ⟨-, y'⟩ | ⟨as', w', s', x', y', h'⟩
    · simp [Fn.run, Fn.step] at y'
    · have hs : as' = [.done, .done] ∧ s' = (s.push none).make (.function none) none := by
        simp only [Fn.run, Fn.step, Option.bind_some, Option.map_some, Option.some.injEq, Prod.mk.injEq] at y'
        exact ⟨y'.1.symm, y'.2.symm⟩
      obtain ⟨rfl, rfl⟩ := hs
      have hn : (s.push none).vars.length = w.ptrs.roots.length + 1 := by simp [Fn.State.push, h.vars]
      have g1 : ((s.push none).make (.function none) none).get (w.ptrs.roots.length + 1) = some (some ((s.push none).made, .function none)) := by
        refine (get_push (s.push none) _ _).trans ?_
        rw [if_pos hn.symm]
      have g2 : ((s.push none).make (.function none) none).get w.ptrs.roots.length = some none := by
        refine (get_push (s.push none) _ _).trans ?_
        rw [if_neg (by omega), get_push, if_pos h.vars.symm]
      have r1 := h'.read (w.ptrs.roots.length + 1)
      have r2 := h'.read w.ptrs.roots.length
      rw [g1] at r1
      rw [g2] at r2
      refine ⟨w', x', ?_, ?_, ?_⟩
      · simp [Functors.step, r1, slotOf, ptr]
      · simp [Functors.step, r1, r2, slotOf, ptr]
      · intro a
        rcases step_sim code h' (.call (w.ptrs.roots.length + 1) a) with ⟨e, -⟩ | ⟨_, _, _, -, e, -⟩
        · exact e
        · simp [Fn.step, g1, Fn.call] at e

/-! ## C68 -/

/-- **C68 (partial).** While the functor of variable `i` is running, it changes variables of type `Func` and then uses what it
has captured.  That is defined exactly if afterwards some variable still holds the functor.  Full statement: it is
always defined if what it does is defined; see `C68_violated`. -/
theorem C68_running_partial (code : Code V S G) (g : G) (ops inside : List (Op V S)) (as as' : List (Answer V)) (w w' : Functors.World S G)
    (hw : Functors.run code { globals := g } ops = some (as, w)) (hin : Functors.run code w inside = some (as', w'))
    (i o : Nat) (t : Nat) (sl : Slot) (hi : w.ptrs.read (.root i) = some sl) (ho : sl.ref = some (o, t)) :
    ∃ s, Fn.run code { globals := g } (ops ++ inside) = some (as ++ as', s) ∧
      ((callWhile code w i inside).isSome = true ↔ Fn.Held s o) := by
  have happ : ∀ (s0 : Fn.State S G) (ops : List (Op V S)) (as : List (Answer V)) (s1 : Fn.State S G), Fn.run code s0 ops = some (as, s1) →
      Fn.run code s0 (ops ++ inside) = (Fn.run code s1 inside).map fun r => (as ++ r.1, r.2) := by
    intro s0 ops
    induction ops generalizing s0 with
    | nil => intro as s1 e; cases e; simp
    | cons op ops ih =>
      intro as s1 e
      cases h1 : Fn.step code s0 op with
      | none => simp [Fn.run, h1] at e
      | some r =>
        cases h2 : Fn.run code r.2 ops with
        | none => simp [Fn.run, h1, h2] at e
        | some rs =>
          simp only [Fn.run, h1, h2, Option.bind_some, Option.map_some, Option.some.injEq, Prod.mk.injEq] at e
          obtain ⟨rfl, rfl⟩ := e
          simp only [List.cons_append, Fn.run, h1, Option.bind_some]
          rw [ih r.2 rs.1 rs.2 h2]
          cases Fn.run code rs.2 inside <;> simp
  rcases run_sim code (R.init g) ops with ⟨x, -⟩ | ⟨as1, w1, s, x, y, h⟩
  · rw [x] at hw; cases hw
  · rw [x] at hw
    cases hw
    rcases run_sim code h inside with ⟨x', -⟩ | ⟨as2, w2, s', x', y', h'⟩
    · rw [x'] at hin; cases hin
    · rw [x'] at hin
      cases hin
      refine ⟨s', by rw [happ _ _ _ _ y, y']; rfl, ?_⟩
      rw [← held_alive h']
      simp only [callWhile, hi, ho, x']
      constructor
      · intro hh
        split at hh
        · rename_i hal
          obtain ⟨fs, hf⟩ := Option.isSome_iff_exists.mp hal
          exact ⟨fs, join_eq_some.mp hf⟩
        · cases hh
      · rintro ⟨fs, hf⟩
        simp [hf]

/-- **C68, violated.** After any history: a functor that is held by variable `i` alone sets that variable to null while it is
running, and then uses what it has captured: undefined behaviour. -/
theorem C68_violated (code : Code V S G) (g : G) (ops : List (Op V S)) (as : List (Answer V)) (w : Functors.World S G)
    (s : Fn.State S G) (hw : Functors.run code { globals := g } ops = some (as, w))
    (hs : Fn.run code { globals := g } ops = some (as, s)) (i k : Nat) (v : Fn.Value) (hi : s.get i = some (some (k, v)))
    (honly : ∀ j k' v', j ≠ i → s.get j = some (some (k', v')) → ¬ Fn.Holds k' v' k) :
    (∃ as' w', Functors.run code w [.null, .assign i w.ptrs.roots.length] = some (as', w')) ∧
    callWhile code w i [.null, .assign i w.ptrs.roots.length] = none := by
  rcases run_sim code (R.init g) ops with ⟨x, -⟩ | ⟨as1, w1, s1, x, y, h⟩
  · rw [x] at hw; cases hw
  · rw [x] at hw
    cases hw
    rw [y] at hs
    obtain rfl : s1 = s := by simpa using hs
    have hlt := get_lt hi
    have g1 : (s1.push none).get i = some (some (k, v)) := by rw [get_push, if_neg (by omega)]; exact hi
    have g2 : (s1.push none).get w.ptrs.roots.length = some none := by rw [get_push, if_pos h.vars.symm]
    rcases run_sim code h [.null, .assign i w.ptrs.roots.length] with ⟨-, y'⟩ | ⟨as', w', s', x', y', h'⟩
    · simp [Fn.run, Fn.step, g1, g2] at y'
    · refine ⟨⟨as', w', x'⟩, ?_⟩
      have hs' : s' = (s1.push none).put i (some none) := by
        simp only [Fn.run, Fn.step, g1, g2, Option.bind_some, Option.map_some, Option.some.injEq, Prod.mk.injEq] at y'
        exact y'.2.symm
      subst hs'
      have hr := h.read i
      rw [hi] at hr
      simp only [callWhile, hr, Option.map_some, slotOf, ptr, x']
      split
      · rename_i hal
        obtain ⟨fs, hf⟩ := Option.isSome_iff_exists.mp hal
        obtain ⟨j, k', v', h1, h2⟩ := (held_alive h' k).mp ⟨fs, join_eq_some.mp hf⟩
        rw [get_put _ _ _ _ _ g1] at h1
        split at h1
        · cases h1
        · rename_i hne
          rw [get_push] at h1
          split at h1
          · cases h1
          · exact absurd h2 (honly j k' v' hne h1)
      · rfl

/-! ## Examples -/

/-- Function `f` adds `f` and appends it to the list of calls; functors count their calls; conversion `c` adds `10 ^ c` to
arguments and doubles results. -/
def Functors.exampleCode : Code Nat Nat (List Nat) where
  function f a g := (f + a, f :: g)
  method o m a g := (o * m + a, m :: g)
  functor f s a g := (f + s + a, s + 1, f :: g)
  argument c a := a + 10 ^ c
  result _ r := 2 * r

/-- a counting functor is copied, called through the copy, converted and called through the conversion: 7+0+1, 2*(7+1+(1+10)) -/
example : (Fn.run exampleCode { globals := [] } [.ofFunctor 7 0, .copy 0, .call 1 1, .ofFuncMove 1 0, .test 0, .destroy 1, .call 2 1,
    .equal 0 2]).map (·.1) = some [.done, .done, .value 8, .done, .bool false, .done, .value 38, .bool false] := rfl

/-- the hypotheses of `C67_callable_partial`, `C68_running_partial` and `C68_violated` are met -/
example : ∃ w, Functors.run exampleCode { globals := [] } [.ofFunctor 7 0] = some ([.done], w) ∧
    Functors.step exampleCode w (.test 0) = some (.bool true, w) ∧
    ∃ s, Fn.run exampleCode { globals := [] } [.ofFunctor 7 0] = some ([.done], s) ∧ s.get 0 = some (some (0, .functor 7)) ∧
      ∀ j k' v', j ≠ 0 → s.get j = some (some (k', v')) → ¬ Fn.Holds k' v' 0 := by
  refine ⟨_, rfl, rfl, _, rfl, rfl, ?_⟩
  intro j k' v' hj e
  cases j with
  | zero => exact absurd rfl hj
  | succ j => simp [Fn.State.get, Fn.State.make, Fn.State.push] at e

end Vlpp
