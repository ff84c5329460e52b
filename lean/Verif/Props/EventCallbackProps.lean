import Verif.Lemmas.EventCallbacks

/-! # C87: callbacks of events may use events -/
set_option autoImplicit false
namespace Vlpp
open Events Spec

namespace Events
variable {C : Type}

/-- who has been given up by the program is in the log -/
def DropsLogged (s : Run C) : Prop :=
  ∀ (h : Nat) (impl : Handler), s.w.handlers[h]? = some impl → impl.held = false → Entry.did (.drop h) .unit ∈ s.log

theorem step_dropsLogged {alloc : World → Nat} (hf : Fresh alloc) {s : Run C} (hd : DropsLogged s) {c : Cmd} {r : Ret} {w : World}
    (h : step s.w (c.op alloc s.w) = some (r, w)) :
    DropsLogged { s with w := w, log := s.log ++ [.did (c.op alloc s.w) r] } := by
  intro h0 impl0 hi0 hh0
  simp only at hi0
  have hold : s.w.handlers[h0]? = some impl0 → Entry.did (.drop h0) .unit ∈ s.log ++ [.did (c.op alloc s.w) r] :=
    fun h => List.mem_append_left _ (hd h0 impl0 h hh0)
  cases c with
  | newEvent t =>
    simp only [Cmd.op, step, Option.some.injEq, Prod.mk.injEq] at h
    obtain ⟨_, rfl⟩ := h
    exact hold hi0
  | add e =>
    obtain ⟨⟨ev, he⟩, _⟩ := legal_of_step hf h
    simp only [Cmd.op, step, Events.add, he, Option.join_some] at h
    split at h
    · simp only [Option.map_some, Option.some.injEq, Prod.mk.injEq] at h
      obtain ⟨_, rfl⟩ := h
      simp only at hi0
      by_cases hlt : h0 < s.w.handlers.length
      · rw [List.getElem?_append_left hlt] at hi0
        exact hold hi0
      · rw [List.getElem?_append_right (by omega)] at hi0
        obtain ⟨_, hx⟩ := List.mem_iff_getElem?.1 (List.mem_of_getElem? hi0)
        have := List.mem_of_getElem? hi0
        simp only [List.mem_singleton] at this
        subst this
        cases hh0
    · cases h
  | remove e x =>
    obtain ⟨⟨ev, he⟩, impl, hi, hh⟩ := legal_of_step hf h
    simp only [Cmd.op, step, Events.remove, he, hi, Option.join_some, hh] at h
    have hset : ∀ ev', w = ⟨s.w.handlers.set x { impl with attached := false, held := true }, s.w.events.set e ev'⟩ →
        Entry.did (.drop h0) .unit ∈ s.log ++ [.did (Cmd.op alloc s.w (.remove e x)) r] := by
      rintro ev' rfl
      simp only at hi0
      by_cases hx : x = h0
      · subst hx
        rw [List.getElem?_set_self (List.getElem?_eq_some_iff.1 hi).1] at hi0
        cases hi0
        cases hh0
      · rw [List.getElem?_set_ne hx] at hi0
        exact hold hi0
    simp only [Bool.true_eq_false, if_false] at h
    split at h
    · simp only [Option.map_some, Option.some.injEq, Prod.mk.injEq] at h
      obtain ⟨_, rfl⟩ := h
      exact hold hi0
    · split at h
      · split at h
        · simp only [Option.map_some, Option.some.injEq, Prod.mk.injEq] at h
          obtain ⟨_, rfl⟩ := h
          exact hold hi0
        · split at h
          · simp only [Option.map_some, Option.some.injEq, Prod.mk.injEq] at h
            exact hset _ h.2.symm
          · cases h
      · cases h
  | isAttached x =>
    obtain ⟨impl, hi, hh⟩ := legal_of_step hf h
    simp only [Cmd.op, step, hi, hh, if_true, Option.some.injEq, Prod.mk.injEq] at h
    obtain ⟨_, rfl⟩ := h
    exact hold hi0
  | drop x =>
    obtain ⟨impl, hi, hh⟩ := legal_of_step hf h
    simp only [Cmd.op, step, hi, hh, if_true, Option.some.injEq, Prod.mk.injEq] at h
    obtain ⟨rfl, rfl⟩ := h
    by_cases hx : x = h0
    · subst hx
      simp [Cmd.op]
    · simp only at hi0
      rw [List.getElem?_set_ne hx] at hi0
      exact hold hi0

theorem DropsLogged.more {s s' : Run C} {log : List Entry} (hd : DropsLogged s) (hw : s'.w = s.w) (hl : s'.log = s.log ++ log) :
    DropsLogged s' := by
  intro h impl hi hh
  rw [hw] at hi
  rw [hl]
  exact List.mem_append_left _ (hd h impl hi hh)

theorem exec_dropsLogged {alloc : World → Nat} (hf : Fresh alloc) {body : Nat → Prog C} : ∀ (n : Nat) (t : Task C) (s : Run C) (x : End C),
    DropsLogged s → exec alloc body n t s = some x → DropsLogged x.state := by
  intro n
  induction n with
  | zero => intro t s x _ h; cases t <;> cases h
  | succ n ih =>
    intro t s x hd h
    match t, h with
    | .prog .done, h => simp only [exec, Option.some.injEq] at h; subst h; exact hd
    | .prog .throw, h => simp only [exec, Option.some.injEq] at h; subst h; exact hd
    | .prog (.vars f k), h => exact ih (.prog (k s.vars)) { s with vars := f s.vars } x hd h
    | .prog (.cmd c k), h =>
      simp only [exec] at h
      cases hs : step s.w (c.op alloc s.w) with
      | none => rw [hs] at h; simp only [Option.some.injEq] at h; subst h; exact hd
      | some rw' =>
        obtain ⟨r, w⟩ := rw'
        rw [hs] at h
        simp only at h
        have hd1 := step_dropsLogged hf hd hs
        cases hfind : s.running.find? (fun h => !w.alive h) with
        | some h0 => rw [hfind] at h; simp only [Option.some.injEq] at h; subst h; exact hd1
        | none => rw [hfind] at h; exact ih _ _ x hd1 h
    | .prog (.raise e k caught), h =>
      simp only [exec] at h
      cases hl : exec alloc body n (.loop s.raises e 0) { s with raises := s.raises + 1, log := s.log ++ [.raise s.raises e] } with
      | none => rw [hl] at h; cases h
      | some y =>
        rw [hl] at h
        have hd1 := ih _ _ y (DropsLogged.more (s := s) hd (by rfl) (by rfl)) hl
        cases y with
        | ok s' =>
          exact ih (.prog k) { s' with log := s'.log ++ [.ended s.raises false] } x (DropsLogged.more (s := s') hd1 (by rfl) (by rfl)) h
        | threw s' =>
          exact ih (.prog caught) { s' with log := s'.log ++ [.ended s.raises true] } x (DropsLogged.more (s := s') hd1 (by rfl) (by rfl)) h
        | _ => simp only [Option.some.injEq] at h; subst h; exact hd1
    | .loop r e i, h =>
      simp only [exec] at h
      cases he : s.w.events[e]?.join with
      | none => rw [he] at h; simp only [Option.some.injEq] at h; subst h; exact hd
      | some ev =>
        rw [he] at h
        simp only at h
        cases hi : ev.handlers[i]? with
        | none => rw [hi] at h; simp only [Option.some.injEq] at h; subst h; exact hd
        | some h0 =>
          rw [hi] at h
          simp only at h
          cases hl : exec alloc body n (.prog (body h0)) { s with running := h0 :: s.running, log := s.log ++ [.call r e h0] } with
          | none => rw [hl] at h; cases h
          | some y =>
            rw [hl] at h
            have hd1 := ih _ _ y (DropsLogged.more (s := s) hd (by rfl) (by rfl)) hl
            cases y with
            | ok s' => exact ih _ { s' with running := s.running } x hd1 h
            | threw s' =>
              simp only [Option.some.injEq] at h
              subst h
              exact DropsLogged.more (s := s') hd1 (by rfl) (by rfl)
            | _ => simp only [Option.some.injEq] at h; subst h; exact hd1

end Events

variable {C : Type}

/-- **C87**.  Whatever callbacks do with events (add, remove, ask, raise the same or other events, throw, catch), and wherever the allocator puts handlers:
every operation answers and acts as it does outside of callbacks; every handler that is called is attached at that time; and every raise that is over,
also those made by callbacks, is fair (`Spec.RaiseFair`): no handler is called twice if nothing is added to the event meanwhile,
no handler is left out if nothing is removed from it and no callback throws; an exception of a callback, and nothing else,
ends the raise at once and reaches the program. -/
theorem C87_callbacks (alloc : World → Nat) (hf : Fresh alloc) (body : Nat → Prog C) (p : Prog C) (vars : C) (n : Nat) (x : End C)
    (h : exec alloc body n (.prog p) { w := {}, vars := vars } = some x) :
    (∃ s, Follows [] x.state.log s) ∧ AllFair [] x.state.log := by
  obtain ⟨_, seg, b, h1⟩ := exec_goes hf body n (.prog p) { w := {}, vars := vars } [] x Inv.empty (by simp) h
  have hlog : x.state.log = seg := by simpa using h1.log
  exact ⟨⟨b, hlog ▸ h1.follows⟩, (exec_fair hf body n (.prog p) { w := {}, vars := vars } [] x x.state.log Inv.empty (by simp) h (by simp)).fair⟩

/-- **C87**.  After an exception has left the callbacks and the program, the events are as consistent as before:
handlers are called, asked and removed as their subscriptions say, in every further program. -/
theorem C87_after (alloc : World → Nat) (hf : Fresh alloc) (body body' : Nat → Prog C) (p q : Prog C) (vars : C) (n m : Nat) (s : Run C) (x : End C)
    (h : exec alloc body n (.prog p) { w := {}, vars := vars } = some (.threw s))
    (h' : exec alloc body' m (.prog q) s = some x) :
    ∃ log, x.state.log = s.log ++ log ∧ ∃ s1, Follows [] s.log s1 ∧ (∃ s2, Follows s1 log s2) ∧ AllFair s1 log := by
  obtain ⟨h0, seg, b, h1⟩ := exec_goes hf body n (.prog p) { w := {}, vars := vars } [] _ Inv.empty (by simp) h
  have hlog : s.log = seg := by simpa [End.state] using h1.log
  obtain ⟨_, seg2, b2, h2⟩ := exec_goes hf body' m (.prog q) s b x h1.inv h0.2 h'
  exact ⟨seg2, h2.log, b, hlog ▸ h1.follows, ⟨b2, h2.follows⟩, (exec_fair hf body' m (.prog q) s b x seg2 h1.inv h0.2 h' h2.log).fair⟩

/-- **C87**.  Which programs are at fault: an operation is impossible only if the program uses an event or a handler that it does not have;
a raise finds no event only if there is none; and a functor is deleted while it is running only if the program gave up its pointer to the handler and
the handler is attached to no event any more. -/
theorem C87_defined (alloc : World → Nat) (hf : Fresh alloc) (body : Nat → Prog C) (p : Prog C) (vars : C) (n : Nat) (x : End C)
    (hx : exec alloc body n (.prog p) { w := {}, vars := vars } = some x) :
    match x with
    | .ok _ | .threw _ => True
    | .illegal op s => ¬ Legal s.w op
    | .noEvent e s => ¬ ∃ ev, s.w.events[e]? = some (some ev)
    | .deleted h s => h ∈ s.running ∧ Entry.did (.drop h) .unit ∈ s.log ∧ ∃ a, Follows [] s.log a ∧ a[h]? = some none := by
  obtain ⟨h0, seg, b, h1⟩ := exec_goes hf body n (.prog p) { w := {}, vars := vars } [] x Inv.empty (by simp) hx
  have hlog : x.state.log = seg := by simpa using h1.log
  have hd := exec_dropsLogged hf n (.prog p) { w := {}, vars := vars } x (by intro h impl hi; simp at hi) hx
  cases x with
  | ok s => trivial
  | threw s => trivial
  | illegal op s => exact h0
  | noEvent e s => exact h0
  | deleted h s =>
    obtain ⟨hrun, hdead, hlt⟩ := h0
    have hI : Inv s.w b := h1.inv
    have hnot : ∀ e, b[h]? ≠ some (some e) := by
      intro e hb
      obtain ⟨ev, he⟩ := hI.event h e hb
      exact hdead (.inr ⟨e, ev, he, (hI.mem e ev he h).2 hb⟩)
    refine ⟨hrun, ?_, b, by rw [← hlog] at h1; exact h1.follows, ?_⟩
    · refine hd h s.w.handlers[h] (List.getElem?_eq_getElem hlt) ?_
      cases hh : s.w.handlers[h].held with
      | false => rfl
      | true => exact absurd (.inl ⟨_, List.getElem?_eq_getElem hlt, hh⟩) hdead
    · have : h < b.length := by rw [← hI.len]; exact hlt
      rw [List.getElem?_eq_getElem this]
      cases hb : b[h] with
      | none => rfl
      | some e => exact absurd (by rw [List.getElem?_eq_getElem this, hb]) (hnot e)

/-- **C87**.  What a program does is determined: the result does not depend on the fuel. -/
theorem C87_result_unique (alloc : World → Nat) (body : Nat → Prog C) (t : Events.Task C) (s : Run C) (n m : Nat) (x y : End C)
    (h1 : exec alloc body n t s = some x) (h2 : exec alloc body m t s = some y) : x = y := by
  have h3 := exec_le (Nat.le_max_left n m) h1
  have h4 := exec_le (Nat.le_max_right n m) h2
  rw [h3] at h4
  exact Option.some.inj h4

/-! Non-vacuity: an allocator, callbacks that raise another event, add to and remove from the event that is being raised, and throw. -/
namespace Events

/-- above all handlers that ever were -/
def exampleAlloc (w : World) : Nat := (w.handlers.map (·.address)).foldl max 0 + 1

theorem exampleAlloc_fresh : Fresh exampleAlloc := by
  have hle : ∀ (l : List Nat) (m : Nat), m ≤ l.foldl max m ∧ ∀ x ∈ l, x ≤ l.foldl max m := by
    intro l
    induction l with
    | nil => intro m; simp
    | cons y l ih =>
      intro m
      have h1 := ih (max m y)
      refine ⟨Nat.le_trans (Nat.le_max_left _ _) h1.1, ?_⟩
      intro x hx
      rcases List.mem_cons.1 hx with rfl | hx
      · exact Nat.le_trans (Nat.le_max_right _ _) h1.1
      · exact h1.2 x hx
  intro w h _ heq
  unfold World.address exampleAlloc at heq
  cases hi : w.handlers[h]? with
  | none => rw [hi] at heq; simp at heq
  | some impl =>
    rw [hi] at heq
    simp only [Option.map_some, Option.getD_some] at heq
    have := (hle (w.handlers.map (·.address)) 0).2 impl.address (List.mem_map_of_mem (List.mem_of_getElem? hi))
    omega

/-- the callbacks: 0 raises the event 1; 1 adds to the event 0, but once; 2 is a handler of the event 1 and asks whether 0 is attached;
3 was added by 1 and throws; there are no others -/
def exampleBody : Nat → Prog Nat
  | 0 => .raise 1 .done .throw
  | 1 => .vars (· + 1) fun c => if c = 0 then .cmd (.add 0) fun _ => .done else .done
  | 2 => .cmd (.isAttached 0) fun _ => .done
  | 3 => .throw
  | _ => .done

/-- two events, three handlers, the event 0 is raised, and again after the handler 3 was removed by who caught -/
def exampleProg : Prog Nat :=
  .cmd (.newEvent 7) fun _ => .cmd (.newEvent 7) fun _ => .cmd (.add 0) fun _ => .cmd (.add 0) fun _ => .cmd (.add 1) fun _ =>
  .raise 0 .done (.cmd (.remove 0 3) fun _ => .raise 0 .done .done)

/-- the log, and whether the program has returned -/
def summary {C : Type} : Option (End C) → Option (Bool × List Entry)
  | some (.ok s) => some (true, s.log)
  | some x => some (false, x.state.log)
  | none => none

example : summary (exec exampleAlloc exampleBody 30 (.prog exampleProg) { w := {}, vars := 0 }) = some (true,
    [.did (.newEvent 7) .unit, .did (.newEvent 7) .unit, .did (.add 0 1) (.handler 0), .did (.add 0 2) (.handler 1), .did (.add 1 3) (.handler 2),
     .raise 0 0, .call 0 0 0, .raise 1 1, .call 1 1 2, .did (.isAttached 0) (.flag true), .ended 1 false,
     .call 0 0 1, .did (.add 0 4) (.handler 3), .call 0 0 3, .failed 0 3, .ended 0 true, .did (.remove 0 3) (.flag true),
     .raise 2 0, .call 2 0 0, .raise 3 1, .call 3 1 2, .did (.isAttached 0) (.flag true), .ended 3 false, .call 2 0 1, .ended 2 false]) := by
  decide +kernel

/-- a callback that removes and gives up its own handler is deleted while it is running -/
def exampleSelf : Nat → Prog Nat := fun h => .cmd (.remove 0 h) fun _ => .cmd (.drop h) fun _ => .done

example : (match exec exampleAlloc exampleSelf 30 (.prog (.cmd (.newEvent 7) fun _ => .cmd (.add 0) fun _ => .raise 0 .done .throw))
      { w := {}, vars := 0 } with
    | some (.deleted 0 s) => s.log.length == 6
    | _ => false) = true := by
  decide +kernel

/-- an exception that leaves the program, and what is possible afterwards -/
example : (match exec exampleAlloc (fun _ => .throw) 30 (.prog (.cmd (.newEvent 7) fun _ => .cmd (.add 0) fun _ => .raise 0 .done .throw))
      { w := {}, vars := 0 } with
    | some (.threw s) => summary (exec exampleAlloc (fun _ => .done) 30 (.prog (.raise 0 (.cmd (.remove 0 0) fun _ => .done) .throw)) s) ==
        some (true, s.log ++ [.raise 1 0, .call 1 0 0, .ended 1 false, .did (.remove 0 0) (.flag true)])
    | _ => false) = true := by
  decide +kernel

/-- programs that are at fault: a handler that was given up, an event that does not exist -/
example : ((match exec exampleAlloc exampleBody 30 (.prog (.cmd (.newEvent 7) fun _ => .cmd (.add 0) fun _ => .cmd (.drop 0) fun _ =>
      .cmd (.isAttached 0) fun _ => .done)) { w := {}, vars := 0 } with
    | some (.illegal op _) => op == .isAttached 0
    | _ => false) = true) ∧
    (match exec exampleAlloc exampleBody 30 (.prog (.raise 0 .done .done)) { w := {}, vars := 0 } with
    | some (.noEvent e _) => e == 0
    | _ => false) = true := by
  decide +kernel

end Events
end Vlpp
