import Verif.Model.PtrThreads
import Verif.Lemmas.Pointer

/-! # C46: the reference counter under every schedule -/
set_option autoImplicit false
namespace Vlpp
namespace PtrThreads
open Pointer (sumBy sumBy_set sumBy_pos sumBy_nil sumBy_cons sumBy_zero_mem)

/-- pointers of all threads -/
def held (s : State) : Nat := sumBy (·.held) s.threads

/-- number of threads in a phase -/
def inPhase (p : Phase) (s : State) : Nat := sumBy (fun th => if th.phase = p then 1 else 0) s.threads

structure Inv (s : State) : Prop where
  busy : 0 < held s → s.counter = some (held s : Int) ∧ s.object = true ∧ inPhase .deleteCounter s = 0 ∧
    inPhase .deleteObject s = 0 ∧ s.log = []
  done : held s = 0 →
    (s.counter = some 0 ∧ s.object = true ∧ inPhase .deleteCounter s = 1 ∧ inPhase .deleteObject s = 0 ∧ s.log = []) ∨
    (s.counter = none ∧ s.object = true ∧ inPhase .deleteCounter s = 0 ∧ inPhase .deleteObject s = 1 ∧ s.log = []) ∨
    (s.counter = none ∧ s.object = false ∧ inPhase .deleteCounter s = 0 ∧ inPhase .deleteObject s = 0 ∧ s.log.length = 1)

theorem held_set {s : State} {t : Nat} {th th' : Thread} (h : s.threads[t]? = some th) :
    held (s.setThread t th') + th.held = held s + th'.held :=
  sumBy_set (·.held) s.threads t th th' h

theorem phase_set {s : State} {t : Nat} {th th' : Thread} (p : Phase) (h : s.threads[t]? = some th) :
    inPhase p (s.setThread t th') + (if th.phase = p then 1 else 0) = inPhase p s + (if th'.phase = p then 1 else 0) :=
  sumBy_set (fun (th : Thread) => if th.phase = p then 1 else 0) s.threads t th th' h

theorem held_ge {s : State} {t : Nat} {th : Thread} (h : s.threads[t]? = some th) : th.held ≤ held s := by
  have := held_set (th' := { th with held := 0 }) h
  simp at this
  omega

/-- A step keeps the invariant and is never undefined. -/
theorem step_inv (s : State) (h : Inv s) (t : Nat) : ∃ s', step s t = some s' ∧ Inv s' := by
  unfold step
  cases ht : s.threads[t]? with
  | none => exact ⟨s, rfl, h⟩
  | some th =>
    have hge := held_ge ht
    simp only []
    cases hp : th.phase with
    | deleteCounter =>
      have h1 := phase_set (th' := { th with phase := .deleteObject }) .deleteCounter ht
      have h2 := phase_set (th' := { th with phase := .deleteObject }) .deleteObject ht
      have h3 := held_set (th' := { th with phase := .deleteObject }) ht
      simp only [hp, if_true, reduceCtorEq, if_false] at h1 h2 h3
      have h0 : held s = 0 := by
        refine Classical.byContradiction fun hc => ?_
        have := (h.busy (by omega)).2.2.1
        omega
      rcases h.done h0 with ⟨c1, c2, c3, c4, c5⟩ | ⟨c1, c2, c3, c4, c5⟩ | ⟨c1, c2, c3, c4, c5⟩
      · rw [c1]
        refine ⟨_, rfl, ⟨fun hb => ?_, fun _ => .inr (.inl ⟨rfl, c2, ?_, ?_, c5⟩)⟩⟩
        · have : 0 < held (s.setThread t { th with phase := .deleteObject }) := hb
          omega
        · show inPhase .deleteCounter (s.setThread t { th with phase := .deleteObject }) = 0
          omega
        · show inPhase .deleteObject (s.setThread t { th with phase := .deleteObject }) = 1
          omega
      · omega
      · omega
    | deleteObject =>
      have h1 := phase_set (th' := { th with phase := .idle }) .deleteCounter ht
      have h2 := phase_set (th' := { th with phase := .idle }) .deleteObject ht
      have h3 := held_set (th' := { th with phase := .idle }) ht
      simp only [hp, if_true, reduceCtorEq, if_false] at h1 h2 h3
      have h0 : held s = 0 := by
        refine Classical.byContradiction fun hc => ?_
        have := (h.busy (by omega)).2.2.2.1
        omega
      rcases h.done h0 with ⟨c1, c2, c3, c4, c5⟩ | ⟨c1, c2, c3, c4, c5⟩ | ⟨c1, c2, c3, c4, c5⟩
      · omega
      · rw [if_pos c2]
        refine ⟨_, rfl, ⟨fun hb => ?_, fun _ => .inr (.inr ⟨c1, rfl, ?_, ?_, by simp [c5]⟩)⟩⟩
        · have : 0 < held (s.setThread t { th with phase := .idle }) := hb
          omega
        · show inPhase .deleteCounter (s.setThread t { th with phase := .idle }) = 0
          omega
        · show inPhase .deleteObject (s.setThread t { th with phase := .idle }) = 0
          omega
      · omega
    | idle =>
      -- a thread without effect on pointers and phases
      have same : ∀ prog, Inv (s.setThread t { th with prog := prog }) := by
        intro prog
        have h1 := phase_set (th' := { th with prog := prog }) .deleteCounter ht
        have h2 := phase_set (th' := { th with prog := prog }) .deleteObject ht
        have h3 := held_set (th' := { th with prog := prog }) ht
        simp only at h1 h2 h3
        have e1 : inPhase .deleteCounter (s.setThread t { th with prog := prog }) = inPhase .deleteCounter s := by omega
        have e2 : inPhase .deleteObject (s.setThread t { th with prog := prog }) = inPhase .deleteObject s := by omega
        have e3 : held (s.setThread t { th with prog := prog }) = held s := by omega
        refine ⟨?_, ?_⟩ <;> rw [e1, e2, e3]
        · exact h.busy
        · exact h.done
      cases hpr : th.prog with
      | nil => exact ⟨s, rfl, h⟩
      | cons a prog =>
        simp only []
        by_cases hh : th.held = 0
        · rw [if_pos hh]
          exact ⟨_, rfl, by simpa only [hp] using same prog⟩
        · rw [if_neg hh]
          obtain ⟨b1, b2, b3, b4, b5⟩ := h.busy (by omega)
          cases a with
          | copy =>
            have h1 := phase_set (th' := { th with held := th.held + 1, prog := prog }) .deleteCounter ht
            have h2 := phase_set (th' := { th with held := th.held + 1, prog := prog }) .deleteObject ht
            have h3 := held_set (th' := { th with held := th.held + 1, prog := prog }) ht
            simp only at h1 h2 h3
            simp only [b1]
            have e3 : held (s.setThread t { th with held := th.held + 1, prog := prog }) = held s + 1 := by omega
            refine ⟨_, rfl, ⟨fun _ => ⟨?_, b2, ?_, ?_, b5⟩, fun hb => ?_⟩⟩
            · show some ((held s : Int) + 1) = some ((held (s.setThread t _) : Nat) : Int)
              simp only [hp] at e3
              rw [e3]
              rfl
            · show inPhase .deleteCounter (s.setThread t _) = 0
              simp only [hp] at h1 ⊢
              omega
            · show inPhase .deleteObject (s.setThread t _) = 0
              simp only [hp] at h2 ⊢
              omega
            · have : held (s.setThread t { th with held := th.held + 1, prog := prog }) = 0 := by
                simp only [hp]
                exact hb
              omega
          | destroy =>
            simp only [b1]
            by_cases hl : (held s : Int) - 1 = 0
            · rw [if_pos hl]
              have h1 := phase_set (th' := { th with held := th.held - 1, prog := prog, phase := .deleteCounter }) .deleteCounter ht
              have h2 := phase_set (th' := { th with held := th.held - 1, prog := prog, phase := .deleteCounter }) .deleteObject ht
              have h3 := held_set (th' := { th with held := th.held - 1, prog := prog, phase := .deleteCounter }) ht
              simp only [hp, if_true, reduceCtorEq, if_false] at h1 h2 h3
              refine ⟨_, rfl, ⟨fun hb => ?_, fun _ => .inl ⟨?_, b2, ?_, ?_, b5⟩⟩⟩
              · have : held (s.setThread t { th with held := th.held - 1, prog := prog, phase := .deleteCounter }) > 0 := hb
                omega
              · show some ((held s : Int) - 1) = some 0
                rw [hl]
              · show inPhase .deleteCounter (s.setThread t _) = 1
                omega
              · show inPhase .deleteObject (s.setThread t _) = 0
                omega
            · rw [if_neg hl]
              have h1 := phase_set (th' := { th with held := th.held - 1, prog := prog, phase := .idle }) .deleteCounter ht
              have h2 := phase_set (th' := { th with held := th.held - 1, prog := prog, phase := .idle }) .deleteObject ht
              have h3 := held_set (th' := { th with held := th.held - 1, prog := prog, phase := .idle }) ht
              simp only [hp, reduceCtorEq, if_false] at h1 h2 h3
              have e3 : held (s.setThread t { th with held := th.held - 1, prog := prog, phase := .idle }) = held s - 1 := by omega
              refine ⟨_, rfl, ⟨fun _ => ⟨?_, b2, ?_, ?_, b5⟩, fun hb => ?_⟩⟩
              · show some ((held s : Int) - 1) = some ((held (s.setThread t _) : Nat) : Int)
                rw [e3]
                congr 1
                omega
              · show inPhase .deleteCounter (s.setThread t _) = 0
                omega
              · show inPhase .deleteObject (s.setThread t _) = 0
                omega
              · have : held (s.setThread t { th with held := th.held - 1, prog := prog, phase := .idle }) = 0 := hb
                omega
          | use =>
            simp only [b2, if_true]
            exact ⟨_, rfl, by simpa only [hp] using same prog⟩
          | give u =>
            simp only []
            by_cases hu : u = t
            · rw [if_pos hu]
              exact ⟨_, rfl, by simpa only [hp] using same prog⟩
            · rw [if_neg hu]
              cases hth : s.threads[u]? with
              | none => exact ⟨_, rfl, by simpa only [hp] using same prog⟩
              | some th' =>
                have ht' : (s.setThread t { th with held := th.held - 1, prog := prog }).threads[u]? = some th' := by
                  simp only [State.setThread]
                  rw [List.getElem?_set_ne (fun e => hu e.symm)]
                  exact hth
                have h1 := phase_set (th' := { th with held := th.held - 1, prog := prog }) .deleteCounter ht
                have h2 := phase_set (th' := { th with held := th.held - 1, prog := prog }) .deleteObject ht
                have h3 := held_set (th' := { th with held := th.held - 1, prog := prog }) ht
                have g1 := phase_set (th' := { th' with held := th'.held + 1 }) .deleteCounter ht'
                have g2 := phase_set (th' := { th' with held := th'.held + 1 }) .deleteObject ht'
                have g3 := held_set (th' := { th' with held := th'.held + 1 }) ht'
                simp only [hp] at h1 h2 h3 g1 g2 g3
                simp only []
                refine ⟨_, rfl, ⟨fun _ => ⟨?_, b2, ?_, ?_, b5⟩, fun hb => ?_⟩⟩
                · show s.counter = _
                  rw [b1]
                  congr 2
                  omega
                · omega
                · omega
                · omega

theorem run_inv (s : State) (h : Inv s) (sched : List Nat) : ∃ s', run s sched = some s' ∧ Inv s' := by
  induction sched generalizing s with
  | nil => exact ⟨s, rfl, h⟩
  | cons t ts ih =>
    obtain ⟨s1, e1, i1⟩ := step_inv s h t
    obtain ⟨s2, e2, i2⟩ := ih s1 i1
    exact ⟨s2, by simp [run, e1, e2], i2⟩

/-- the state in which threads start: the counter is the number of their pointers -/
def start (ths : List (Nat × List Act)) : State :=
  { counter := some ((ths.map (·.1)).sum : Nat), threads := ths.map fun p => { held := p.1, prog := p.2 } }

theorem inv_start (ths : List (Nat × List Act)) (h : 0 < (ths.map (·.1)).sum) : Inv (start ths) := by
  have e : held (start ths) = (ths.map (·.1)).sum := by
    simp only [held, start, sumBy, List.map_map]
    rfl
  have ph : ∀ p, p ≠ .idle → inPhase p (start ths) = 0 := by
    intro p hp
    simp only [inPhase, start]
    clear e h
    induction ths with
    | nil => rfl
    | cons a ths ih => simp only [List.map_cons, sumBy_cons, ih]; simp [Ne.symm hp]
  refine ⟨fun _ => ⟨by rw [e]; rfl, rfl, ph _ (by decide), ph _ (by decide), rfl⟩, fun h0 => ?_⟩
  omega

end PtrThreads

open PtrThreads in
/-- **C46.** Any number of threads with any programs that copy, use, pass on and destroy their pointers to one object, under
every schedule: there is no undefined behaviour; while there is a pointer the object lives and the counter is the number
of pointers; the object is deleted at most once, and only when there is no pointer; and once all pointers are gone and
no thread is in the middle of a destructor, it has been deleted by exactly one thread. -/
theorem C46_schedules (ths : List (Nat × List Act)) (h0 : 0 < (ths.map (·.1)).sum) (sched : List Nat) :
    ∃ s, run (start ths) sched = some s ∧
      (0 < (s.threads.map (·.held)).sum →
        s.object = true ∧ s.log = [] ∧ s.counter = some (((s.threads.map (·.held)).sum : Nat) : Int)) ∧
      s.log.length ≤ 1 ∧
      ((∀ th ∈ s.threads, th.held = 0 ∧ th.phase = .idle) → s.object = false ∧ s.counter = none ∧ s.log.length = 1) := by
  obtain ⟨s, e, i⟩ := run_inv _ (inv_start ths h0) sched
  have hs : (s.threads.map (·.held)).sum = held s := rfl
  refine ⟨s, e, ?_, ?_, ?_⟩
  · intro h
    rw [hs] at h ⊢
    obtain ⟨b1, b2, -, -, b5⟩ := i.busy h
    exact ⟨b2, b5, b1⟩
  · by_cases h : 0 < held s
    · rw [(i.busy h).2.2.2.2]; simp
    · rcases i.done (by omega) with ⟨-, -, -, -, c⟩ | ⟨-, -, -, -, c⟩ | ⟨-, -, -, -, c⟩ <;> simp [c]
  · intro hall
    have z : ∀ (f : Thread → Nat) (L : List Thread), (∀ th ∈ L, f th = 0) → Pointer.sumBy f L = 0 := by
      intro f L hL
      induction L with
      | nil => rfl
      | cons a L ih => rw [Pointer.sumBy_cons, hL a (by simp), ih (fun th h => hL th (by simp [h]))]
    have z0 : held s = 0 := z _ _ (fun th h => (hall th h).1)
    have z1 : inPhase .deleteCounter s = 0 := z _ _ (fun th h => by simp [(hall th h).2])
    have z2 : inPhase .deleteObject s = 0 := z _ _ (fun th h => by simp [(hall th h).2])
    rcases i.done z0 with ⟨c1, c2, c3, c4, c5⟩ | ⟨c1, c2, c3, c4, c5⟩ | ⟨c1, c2, c3, c4, c5⟩
    · omega
    · omega
    · exact ⟨c2, c1, c5⟩

open PtrThreads in
/-- Two threads with one pointer each that destroy it at the same time: the second to decrement deletes. -/
example : (run (start [(1, [.destroy]), (1, [.copy, .destroy, .destroy])]) [1, 0, 1, 1, 1, 1]).map (·.log) = some [1] := by
  decide

end Vlpp
