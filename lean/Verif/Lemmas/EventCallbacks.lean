import Verif.Spec.EventCallbacks
import Verif.Props.EventProps

/-! # Lemmas for C87: callbacks that use events -/
set_option autoImplicit false
namespace Vlpp
open Spec
namespace Events

theorem alive_iff {w : World} {h : Nat} : w.alive h = true ↔ w.Alive h := by
  unfold World.alive World.Alive
  rw [Bool.or_eq_true, List.any_eq_true]
  constructor
  · rintro (hx | ⟨x, hx, hm⟩)
    · cases hi : w.handlers[h]? with
      | none => rw [hi] at hx; cases hx
      | some impl => rw [hi] at hx; exact .inl ⟨impl, rfl, hx⟩
    · cases x with
      | none => cases hm
      | some ev =>
        obtain ⟨e, he⟩ := List.mem_iff_getElem?.1 hx
        exact .inr ⟨e, ev, he, by simpa using hm⟩
  · rintro (⟨impl, hi, hh⟩ | ⟨e, ev, he, hm⟩)
    · left; rw [hi]; exact hh
    · exact .inr ⟨some ev, List.mem_of_getElem? he, by simpa using hm⟩

/-- the allocator puts handlers where no other handler is -/
def Fresh (alloc : World → Nat) : Prop := ∀ w h, World.Alive w h → w.address h ≠ alloc w

theorem legal_of_step {alloc : World → Nat} (hf : Fresh alloc) {w w' : World} {c : Cmd} {r : Ret}
    (h : step w (c.op alloc w) = some (r, w')) : Legal w (c.op alloc w) := by
  cases c with
  | newEvent t => trivial
  | add e =>
    refine ⟨?_, hf w⟩
    simp only [Cmd.op, step, add] at h
    cases he : w.events[e]?.join with
    | none => rw [he] at h; cases h
    | some ev => exact ⟨ev, Option.join_eq_some_iff.1 he⟩
  | remove e x =>
    simp only [Cmd.op, step, remove] at h
    cases he : w.events[e]?.join with
    | none => rw [he] at h; cases h
    | some ev =>
      cases hi : w.handlers[x]? with
      | none => rw [he, hi] at h; cases h
      | some impl =>
        refine ⟨⟨ev, Option.join_eq_some_iff.1 he⟩, impl, hi, ?_⟩
        cases hh : impl.held with
        | true => rfl
        | false => rw [he, hi] at h; simp [hh] at h
  | isAttached x =>
    simp only [Cmd.op, step] at h
    cases hi : w.handlers[x]? with
    | none => rw [hi] at h; cases h
    | some impl =>
      cases hh : impl.held with
      | true => exact ⟨impl, hi, hh⟩
      | false => rw [hi] at h; simp [hh] at h
  | drop x =>
    simp only [Cmd.op, step] at h
    cases hi : w.handlers[x]? with
    | none => rw [hi] at h; cases h
    | some impl =>
      cases hh : impl.held with
      | true => exact ⟨impl, hi, hh⟩
      | false => rw [hi] at h; simp [hh] at h

theorem keeps {alloc : World → Nat} {w : World} (c : Cmd) : (c.op alloc w).Keeps := by
  cases c <;> trivial

/-- the handlers of an event, before and after -/
structure Moves (e : Nat) (adds removes : Prop) (xs ys : List Nat) : Prop where
  less : ¬adds → ys.Sublist xs
  more : ¬removes → xs.Sublist ys

theorem Moves.refl {e : Nat} {a r : Prop} {xs : List Nat} : Moves e a r xs xs := ⟨fun _ => .refl _, fun _ => .refl _⟩

theorem sublist_insert {xs : List Nat} {p v : Nat} : xs.Sublist (xs.take p ++ v :: xs.drop p) := by
  conv => lhs; rw [← List.take_append_drop p xs]
  exact (List.Sublist.refl _).append (List.sublist_cons_self _ _)

theorem sublist_removeAt {xs : List Nat} {p : Nat} : (xs.take p ++ xs.drop (p + 1)).Sublist xs := by
  conv => rhs; rw [← List.take_append_drop p xs]
  refine (List.Sublist.refl _).append ?_
  rw [← List.drop_drop]
  exact List.drop_sublist _ _

theorem step_moves {alloc : World → Nat} (hf : Fresh alloc) {w w' : World} {s : Subscriptions} (hI : Inv w s) {c : Cmd} {r : Ret}
    (h : step w (c.op alloc w) = some (r, w')) {e : Nat} {ev : EventObj} (he : w.events[e]? = some (some ev)) :
    ∃ ev', w'.events[e]? = some (some ev') ∧
      Moves e (∃ a, c.op alloc w = .add e a) (∃ x, c.op alloc w = .remove e x ∧ r = .flag true) ev.handlers ev'.handlers := by
  have helt : e < w.events.length := (List.getElem?_eq_some_iff.1 he).1
  cases c with
  | newEvent t =>
    simp only [Cmd.op, step, Option.some.injEq, Prod.mk.injEq] at h
    obtain ⟨_, rfl⟩ := h
    exact ⟨ev, by show (w.events ++ _)[e]? = _; rw [List.getElem?_append_left helt]; exact he, .refl⟩
  | add e0 =>
    obtain ⟨⟨ev0, he0⟩, _⟩ := legal_of_step hf h
    let w1 : World := { w with handlers := w.handlers ++ [⟨alloc w, ev0.type, true, true⟩] }
    have hasc1 : Spec.Ascending compare w1.address ev0.handlers :=
      ascending_congr (fun h hm => (address_append (hI.lt (.inr ⟨e0, ev0, he0, hm⟩))).symm) (hI.asc e0 ev0 he0)
    obtain ⟨p, hp, hadd, -⟩ := SortedSeq.add_spec (cmp_compares w1) hasc1 w.handlers.length
    simp only [Cmd.op, step, Events.add, he0, Option.join_some] at h
    rw [hadd] at h
    simp only [Option.map_some, Option.some.injEq, Prod.mk.injEq] at h
    obtain ⟨_, rfl⟩ := h
    by_cases hee : e0 = e
    · subst hee
      rw [he0] at he
      cases he
      exact ⟨_, List.getElem?_set_self helt, fun hc => absurd ⟨_, rfl⟩ hc, fun _ => sublist_insert⟩
    · exact ⟨ev, by show (w.events.set _ _)[e]? = _; rw [List.getElem?_set_ne hee]; exact he, .refl⟩
  | remove e0 x =>
    obtain ⟨⟨ev0, he0⟩, impl, hi, hh⟩ := legal_of_step hf h
    simp only [Cmd.op, step, Events.remove, he0, hi, Option.join_some, hh] at h
    simp only [Bool.true_eq_false, if_false] at h
    by_cases ht : impl.type ≠ ev0.type
    · rw [if_pos ht] at h
      simp only [Option.map_some, Option.some.injEq, Prod.mk.injEq] at h
      obtain ⟨_, rfl⟩ := h
      exact ⟨ev, he, .refl⟩
    rw [if_neg ht] at h
    rcases SortedSeq.indexOf_spec (cmp_compares w) (hI.asc e0 ev0 he0) impl.address with ⟨i, hilt, hix, heq⟩ | ⟨hix, _⟩
    · rw [hix] at h
      simp only [show ¬ ((i : Int) = -1) by omega, if_false] at h
      have hrem : SortedSeq.removeAt (i : Int) ev0.handlers = .ok true (ev0.handlers.take i ++ ev0.handlers.drop (i + 1)) := by
        unfold SortedSeq.removeAt
        rw [Cpp.bind_ok (Cpp.get_apply _), Cpp.bind_ok (Cpp.check_true (by omega) _)]
        rfl
      rw [hrem] at h
      simp only [Option.map_some, Option.some.injEq, Prod.mk.injEq] at h
      obtain ⟨hr, rfl⟩ := h
      by_cases hee : e0 = e
      · subst hee
        rw [he0] at he
        cases he
        exact ⟨_, List.getElem?_set_self helt, fun _ => sublist_removeAt, fun hc => absurd ⟨x, rfl, hr.symm⟩ hc⟩
      · exact ⟨ev, by show (w.events.set _ _)[e]? = _; rw [List.getElem?_set_ne hee]; exact he, .refl⟩
    · rw [hix] at h
      simp only [if_true, Option.map_some, Option.some.injEq, Prod.mk.injEq] at h
      obtain ⟨_, rfl⟩ := h
      exact ⟨ev, he, .refl⟩
  | isAttached x =>
    obtain ⟨impl, hi, hh⟩ := legal_of_step hf h
    simp only [Cmd.op, step, hi, hh, if_true, Option.some.injEq, Prod.mk.injEq] at h
    obtain ⟨_, rfl⟩ := h
    exact ⟨ev, he, .refl⟩
  | drop x =>
    obtain ⟨impl, hi, hh⟩ := legal_of_step hf h
    simp only [Cmd.op, step, hi, hh, if_true, Option.some.injEq, Prod.mk.injEq] at h
    obtain ⟨_, rfl⟩ := h
    exact ⟨ev, he, .refl⟩

theorem follows_append {a b c : Subscriptions} {x y : List Entry} (h1 : Follows a x b) (h2 : Follows b y c) : Follows a (x ++ y) c := by
  induction h1 with
  | nil => exact h2
  | did hs _ ih => exact .did hs (ih h2)
  | raise _ ih => exact .raise (ih h2)
  | ended _ ih => exact .ended (ih h2)
  | call hs _ ih => exact .call hs (ih h2)
  | failed _ ih => exact .failed (ih h2)

theorem length_le {a b : Subscriptions} {op : Op} {r : Ret} (h : SubscriptionStep a op r b) : a.length ≤ b.length := by
  cases h <;> simp

/-- what the loop belongs to -/
def Task.raise {C : Type} : Task C → Option Nat
  | .prog _ => none
  | .loop r _ _ => some r

variable {C : Type}

/-- what holds at the end -/
def EndFacts (s : Run C) : End C → Prop
  | .ok s' | .threw s' => s'.running = s.running ∧ ∀ h ∈ s'.running, s'.w.Alive h
  | .illegal op s' => ¬ Legal s'.w op
  | .noEvent e s' => ¬ ∃ ev, s'.w.events[e]? = some (some ev)
  | .deleted h s' => h ∈ s'.running ∧ ¬ s'.w.Alive h ∧ h < s'.w.handlers.length

/-- from `s` with subscriptions `a`, by what happened in `seg`, to `x` -/
structure Goes (who : Option Nat) (a : Subscriptions) (s : Run C) (seg : List Entry) (x : End C) (b : Subscriptions) : Prop where
  log : x.state.log = s.log ++ seg
  follows : Follows a seg b
  inv : Inv x.state.w b
  raises : s.raises ≤ x.state.raises
  calls : ∀ r e h, Entry.call r e h ∈ seg → s.raises ≤ r ∨ who = some r
  failures : ∀ r h, Entry.failed r h ∈ seg → s.raises ≤ r ∨ who = some r
  moves : ∀ (e : Nat) (ev : EventObj), s.w.events[e]? = some (some ev) → ∃ ev', x.state.w.events[e]? = some (some ev') ∧
    Moves e (AddsTo e seg) (RemovesFrom e seg) ev.handlers ev'.handlers

theorem Goes.trans {who who' : Option Nat} {a b c : Subscriptions} {s : Run C} {x y : End C} {s1 : Run C} {p q : List Entry}
    (h1 : Goes who a s p x b) (hlog : s1.log = x.state.log) (hw : s1.w = x.state.w) (hr : s1.raises = x.state.raises)
    (h2 : Goes who' b s1 q y c) (hwho : ∀ r, who' = some r → s.raises ≤ r ∨ who = some r) : Goes who a s (p ++ q) y c := by
  refine ⟨?_, follows_append h1.follows h2.follows, h2.inv, ?_, ?_, ?_, ?_⟩
  · rw [h2.log, hlog, h1.log, List.append_assoc]
  · have := h1.raises; have := h2.raises; omega
  · intro r e h hm
    rcases List.mem_append.1 hm with hm | hm
    · exact h1.calls r e h hm
    · rcases h2.calls r e h hm with h3 | h3
      · left; have := h1.raises; omega
      · exact hwho r h3
  · intro r h hm
    rcases List.mem_append.1 hm with hm | hm
    · exact h1.failures r h hm
    · rcases h2.failures r h hm with h3 | h3
      · left; have := h1.raises; omega
      · exact hwho r h3
  · intro e ev he
    obtain ⟨ev1, he1, m1⟩ := h1.moves e ev he
    obtain ⟨ev2, he2, m2⟩ := h2.moves e ev1 (by rw [hw]; exact he1)
    refine ⟨ev2, he2, ?_, ?_⟩
    · intro hc
      refine (m2.less ?_).trans (m1.less ?_) <;> rintro ⟨a, r, hm⟩ <;> exact hc ⟨a, r, by simp [hm]⟩
    · intro hc
      refine (m1.more ?_).trans (m2.more ?_) <;> rintro ⟨a, hm⟩ <;> exact hc ⟨a, by simp [hm]⟩

theorem Goes.refl {who : Option Nat} {a : Subscriptions} {s : Run C} {x : End C} (hI : Inv s.w a) (hlog : x.state.log = s.log)
    (hw : x.state.w = s.w) (hr : x.state.raises = s.raises) : Goes who a s [] x a :=
  ⟨by rw [hlog]; simp, .nil, by rw [hw]; exact hI, by omega, (fun _ _ _ h => (nomatch h)),
    (fun _ _ h => (nomatch h)), fun e ev he => ⟨ev, by rw [hw]; exact he, .refl⟩⟩

theorem exec_goes {alloc : World → Nat} (hf : Fresh alloc) (body : Nat → Prog C) : ∀ (n : Nat) (t : Task C) (s : Run C) (a : Subscriptions)
    (x : End C), Inv s.w a → (∀ h ∈ s.running, s.w.Alive h) → exec alloc body n t s = some x →
    EndFacts s x ∧ ∃ seg b, Goes t.raise a s seg x b := by
  intro n
  induction n with
  | zero => intro t s a x _ _ h; cases t <;> cases h
  | succ n ih =>
    intro t s a x hI hal h
    match t, h with
    | .prog .done, h =>
      simp only [exec, Option.some.injEq] at h
      subst h
      exact ⟨⟨rfl, hal⟩, [], a, .refl hI rfl rfl rfl⟩
    | .prog .throw, h =>
      simp only [exec, Option.some.injEq] at h
      subst h
      exact ⟨⟨rfl, hal⟩, [], a, .refl hI rfl rfl rfl⟩
    | .prog (.vars f k), h =>
      simp only [exec] at h
      obtain ⟨h1, seg, b, h2⟩ := ih (.prog (k s.vars)) { s with vars := f s.vars } a x hI hal h
      refine ⟨?_, seg, b, h2.log, h2.follows, h2.inv, h2.raises, h2.calls, h2.failures, h2.moves⟩
      cases x <;> exact h1
    | .prog (.cmd c k), h =>
      simp only [exec] at h
      cases hs : step s.w (c.op alloc s.w) with
      | none =>
        rw [hs] at h
        simp only [Option.some.injEq] at h
        subst h
        refine ⟨?_, [], a, .refl hI rfl rfl rfl⟩
        intro hl
        obtain ⟨r, w', s', h1, -⟩ := step_inv hI (keeps c) hl
        rw [hs] at h1; cases h1
      | some rw' =>
        obtain ⟨r, w⟩ := rw'
        rw [hs] at h
        simp only at h
        obtain ⟨r', w', b1, h1, hst, hI1⟩ := step_inv hI (keeps c) (legal_of_step hf hs)
        rw [hs] at h1
        simp only [Option.some.injEq, Prod.mk.injEq] at h1
        obtain ⟨rfl, rfl⟩ := h1
        let s1 : Run C := { s with w := w, log := s.log ++ [.did (c.op alloc s.w) r] }
        have hgo : ∀ y : End C, y.state = s1 → Goes none a s [.did (c.op alloc s.w) r] y b1 := by
          intro y hy
          refine ⟨by rw [hy], .did hst .nil, by rw [hy]; exact hI1, by rw [hy]; exact Nat.le_refl _, by simp, by simp, ?_⟩
          intro e ev he
          obtain ⟨ev', he', m⟩ := step_moves hf hI hs he
          refine ⟨ev', by rw [hy]; exact he', ?_, ?_⟩
          · intro hc
            exact m.less fun ⟨a, ha⟩ => hc ⟨a, r, by rw [ha]; simp⟩
          · intro hc
            exact m.more fun ⟨a, ha, hr⟩ => hc ⟨a, by rw [ha, hr]; simp⟩
        cases hfind : s.running.find? (fun h => !w.alive h) with
        | some h0 =>
          rw [hfind] at h
          simp only [Option.some.injEq] at h
          subst h
          have hlt : h0 < w.handlers.length := by
            have := hI.lt (hal h0 (List.mem_of_find?_eq_some hfind))
            have := length_le hst
            have := hI.len
            have := hI1.len
            omega
          refine ⟨⟨List.mem_of_find?_eq_some hfind, ?_, hlt⟩, _, b1, hgo _ rfl⟩
          have := List.find?_some hfind
          intro hc
          rw [← alive_iff] at hc
          simp at hc
          rw [hc] at this; cases this
        | none =>
          rw [hfind] at h
          simp only at h
          have hal1 : ∀ h ∈ s1.running, s1.w.Alive h := by
            intro h0 hm
            have := List.find?_eq_none.1 hfind h0 hm
            rw [← alive_iff]
            simpa using this
          obtain ⟨h2, seg, b, h3⟩ := ih (.prog (k r)) s1 b1 x hI1 hal1 h
          refine ⟨?_, _, b, (hgo (.ok s1) rfl).trans rfl rfl rfl h3 (by simp [Task.raise])⟩
          cases x <;> exact h2
    | .prog (.raise e k caught), h =>
      simp only [exec] at h
      let s1 : Run C := { s with raises := s.raises + 1, log := s.log ++ [.raise s.raises e] }
      have hgo : Goes none a s [.raise s.raises e] (.ok s1) a :=
        ⟨rfl, .raise .nil, hI, Nat.le_succ _, by simp, by simp, fun e ev he => ⟨ev, he, .refl⟩⟩
      cases hl : exec alloc body n (.loop s.raises e 0) s1 with
      | none => rw [hl] at h; cases h
      | some y =>
        rw [hl] at h
        obtain ⟨h1, seg, b, h2⟩ := ih (.loop s.raises e 0) s1 a y hI hal hl
        have h3 : Goes none a s ([.raise s.raises e] ++ seg) y b :=
          hgo.trans rfl rfl rfl h2 (by intro r hr; simp [Task.raise] at hr; exact .inl (by omega))
        have hgoon : ∀ (s' : Run C) (p : Prog C) (t : Bool), y.state = s' → s'.running = s.running → (∀ h ∈ s'.running, s'.w.Alive h) →
            exec alloc body n (.prog p) { s' with log := s'.log ++ [.ended s.raises t] } = some x →
            EndFacts s x ∧ ∃ seg b, Goes none a s seg x b := by
          intro s' p t hy hrun hal' hx
          have hI' : Inv s'.w b := by rw [← hy]; exact h2.inv
          obtain ⟨h4, seg', b', h5⟩ := ih (.prog p) { s' with log := s'.log ++ [.ended s.raises t] } b x hI' hal' hx
          have hend : Goes none b s' [.ended s.raises t] (.ok { s' with log := s'.log ++ [.ended s.raises t] }) b :=
            ⟨rfl, .ended .nil, hI', Nat.le_refl _, by simp, by simp, fun e ev he => ⟨ev, he, .refl⟩⟩
          refine ⟨?_, _, b', (h3.trans (by rw [hy]) (by rw [hy]) (by rw [hy]) hend (by simp)).trans rfl rfl rfl h5 (by simp [Task.raise])⟩
          cases x <;> first | exact h4 | exact ⟨h4.1.trans hrun, h4.2⟩
        cases y with
        | ok s' => exact hgoon s' k false rfl h1.1 h1.2 h
        | threw s' => exact hgoon s' caught true rfl h1.1 h1.2 h
        | _ => simp only [Option.some.injEq] at h; subst h; exact ⟨h1, _, b, h3⟩
    | .loop r e i, h =>
      simp only [exec] at h
      cases he : s.w.events[e]?.join with
      | none =>
        rw [he] at h
        simp only [Option.some.injEq] at h
        subst h
        refine ⟨?_, [], a, .refl hI rfl rfl rfl⟩
        rintro ⟨ev, hev⟩
        rw [Option.join_eq_none_iff] at he
        rcases he with he | he <;> · rw [he] at hev; cases hev
      | some ev =>
        rw [he] at h
        rw [Option.join_eq_some_iff] at he
        simp only at h
        cases hi : ev.handlers[i]? with
        | none =>
          rw [hi] at h
          simp only [Option.some.injEq] at h
          subst h
          exact ⟨⟨rfl, hal⟩, [], a, .refl hI rfl rfl rfl⟩
        | some h0 =>
          rw [hi] at h
          simp only at h
          have hm : h0 ∈ ev.handlers := List.mem_of_getElem? hi
          let s1 : Run C := { s with running := h0 :: s.running, log := s.log ++ [.call r e h0] }
          have hgo : Goes (some r) a s [.call r e h0] (.ok s1) a :=
            ⟨rfl, .call ((hI.mem e ev he h0).1 hm) .nil, hI, Nat.le_refl _,
              by intro r' e' h' hm; simp at hm; exact .inr (by rw [hm.1]), by simp,
              fun e ev he => ⟨ev, he, .refl⟩⟩
          have hal1 : ∀ h ∈ s1.running, s1.w.Alive h := by
            intro h' hm'
            rcases List.mem_cons.1 hm' with rfl | hm'
            · exact .inr ⟨e, ev, he, hm⟩
            · exact hal h' hm'
          cases hl : exec alloc body n (.prog (body h0)) s1 with
          | none => rw [hl] at h; cases h
          | some y =>
            rw [hl] at h
            obtain ⟨h1, seg, b, h2⟩ := ih (.prog (body h0)) s1 a y hI hal1 hl
            have h3 : Goes (some r) a s ([.call r e h0] ++ seg) y b := hgo.trans rfl rfl rfl h2 (by simp [Task.raise])
            cases y with
            | ok s' =>
              obtain ⟨h4, seg', b', h5⟩ := ih (.loop r e (i + 1)) { s' with running := s.running } b x h2.inv
                (fun h hm => h1.2 h (by rw [h1.1]; exact List.mem_cons_of_mem _ hm)) h
              refine ⟨?_, _, b', h3.trans (s1 := { s' with running := s.running }) rfl rfl rfl h5 (by intro r' hr; exact .inr hr)⟩
              cases x <;> exact h4
            | threw s' =>
              simp only [Option.some.injEq] at h
              subst h
              have hfail : Goes (some r) b s' [.failed r h0] (.threw { s' with running := s.running, log := s'.log ++ [.failed r h0] }) b :=
                ⟨rfl, .failed .nil, h2.inv, Nat.le_refl _, by simp, by intro r' h' hm; simp at hm; exact .inr (by rw [hm.1]),
                  fun e ev he => ⟨ev, he, .refl⟩⟩
              exact ⟨⟨rfl, fun h hm => h1.2 h (by rw [h1.1]; exact List.mem_cons_of_mem _ hm)⟩, _, b,
                h3.trans rfl rfl rfl hfail (fun r' hr => .inr hr)⟩
            | _ => simp only [Option.some.injEq] at h; subst h; exact ⟨h1, _, b, h3⟩

theorem callsOf_append {r : Nat} {x y : List Entry} : callsOf r (x ++ y) = callsOf r x ++ callsOf r y := by
  simp [callsOf]

theorem callsOf_eq_nil {r : Nat} {x : List Entry} (h : ∀ r' e h, Entry.call r' e h ∈ x → r' ≠ r) : callsOf r x = [] := by
  unfold callsOf
  rw [List.filterMap_eq_nil_iff]
  intro y hy
  match y, hy with
  | .did _ _, _ => rfl
  | .raise _ _, _ => rfl
  | .ended _ _, _ => rfl
  | .failed _ _, _ => rfl
  | .call r' e' h', hy =>
    simp only
    rw [if_neg (h r' e' h' hy)]

/-- how the handlers that a raise calls depend on what the callbacks do to the event -/
theorem loop_calls {alloc : World → Nat} (hf : Fresh alloc) (body : Nat → Prog C) (r e : Nat) : ∀ (n i : Nat) (s : Run C) (a : Subscriptions)
    (x : End C) (ev : EventObj) (seg : List Entry), Inv s.w a → (∀ h ∈ s.running, s.w.Alive h) → r < s.raises →
    s.w.events[e]? = some (some ev) → exec alloc body n (.loop r e i) s = some x → x.state.log = s.log ++ seg →
    (¬ AddsTo e seg → (callsOf r seg).Sublist (ev.handlers.drop i)) ∧
    (¬ RemovesFrom e seg → ∀ s', x = .ok s' → ∀ h ∈ ev.handlers.drop i, h ∈ callsOf r seg) ∧
    (¬ AddsTo e seg → ¬ RemovesFrom e seg → callsOf r seg <+: ev.handlers.drop i ∧
      ∀ s', x = .ok s' → callsOf r seg = ev.handlers.drop i) ∧
    (∀ h, Entry.failed r h ∈ seg → (∃ s', x = .threw s') ∧ ∃ l, seg = l ++ [.failed r h]) ∧
    (∀ s', x = .threw s' → ∃ h ∈ callsOf r seg, Entry.failed r h ∈ seg) := by
  intro n
  induction n with
  | zero => intro i s a x ev seg _ _ _ _ h; cases h
  | succ n ih =>
    intro i s a x ev seg hI hal hr he h hlog
    simp only [exec] at h
    rw [he] at h
    simp only [Option.join_some] at h
    cases hi : ev.handlers[i]? with
    | none =>
      rw [hi] at h
      simp only [Option.some.injEq] at h
      subst h
      have hseg : seg = [] := by simpa [End.state] using hlog
      subst hseg
      have hd : ev.handlers.drop i = [] := List.drop_eq_nil_of_le (List.getElem?_eq_none_iff.1 hi)
      rw [hd]
      simp [callsOf]
    | some h0 =>
      rw [hi] at h
      simp only at h
      have hm : h0 ∈ ev.handlers := List.mem_of_getElem? hi
      have hd : ev.handlers.drop i = h0 :: ev.handlers.drop (i + 1) := by
        obtain ⟨hlt, hx⟩ := List.getElem?_eq_some_iff.1 hi
        rw [List.drop_eq_getElem_cons hlt, hx]
      let s1 : Run C := { s with running := h0 :: s.running, log := s.log ++ [.call r e h0] }
      have hal1 : ∀ h ∈ s1.running, s1.w.Alive h := by
        intro h' hm'
        rcases List.mem_cons.1 hm' with rfl | hm'
        · exact .inr ⟨e, ev, he, hm⟩
        · exact hal h' hm'
      cases hl : exec alloc body n (.prog (body h0)) s1 with
      | none => rw [hl] at h; cases h
      | some y =>
        rw [hl] at h
        obtain ⟨h1, seg1, b, h2⟩ := exec_goes hf body n (.prog (body h0)) s1 a y hI hal1 hl
        have hnil : callsOf r seg1 = [] := callsOf_eq_nil fun r' e' h' hm => by
          rcases h2.calls r' e' h' hm with h3 | h3
          · have : s.raises ≤ r' := h3
            omega
          · simp [Task.raise] at h3
        obtain ⟨ev1, he1, m1⟩ := h2.moves e ev he
        have hnof : ∀ h, Entry.failed r h ∉ seg1 := fun h hm => by
          rcases h2.failures r h hm with h3 | h3
          · have : s.raises ≤ r := h3
            omega
          · simp [Task.raise] at h3
        have hend : ∀ (z : End C) (tl : List Entry), z.state.log = y.state.log ++ tl → (∀ s', z ≠ .ok s') → z.state.log = s.log ++ seg →
            (tl = [] ∧ (∀ s', z ≠ .threw s')) ∨ (tl = [.failed r h0] ∧ ∃ s', z = .threw s') →
            (¬ AddsTo e seg → (callsOf r seg).Sublist (ev.handlers.drop i)) ∧
            (¬ RemovesFrom e seg → ∀ s', z = .ok s' → ∀ h ∈ ev.handlers.drop i, h ∈ callsOf r seg) ∧
            (¬ AddsTo e seg → ¬ RemovesFrom e seg → callsOf r seg <+: ev.handlers.drop i ∧
              ∀ s', z = .ok s' → callsOf r seg = ev.handlers.drop i) ∧
            (∀ h, Entry.failed r h ∈ seg → (∃ s', z = .threw s') ∧ ∃ l, seg = l ++ [.failed r h]) ∧
            (∀ s', z = .threw s' → ∃ h ∈ callsOf r seg, Entry.failed r h ∈ seg) := by
          intro z tl hz hno hzl htl
          have hseg : seg = .call r e h0 :: (seg1 ++ tl) := by
            rw [hz, h2.log] at hzl
            simpa [s1] using hzl.symm
          have hctl : callsOf r tl = [] := by
            rcases htl with ⟨rfl, _⟩ | ⟨rfl, _⟩ <;> rfl
          have hc : callsOf r seg = [h0] := by
            rw [hseg, ← List.singleton_append, callsOf_append, callsOf_append, hnil, hctl]
            simp [callsOf]
          rw [hc, hd]
          refine ⟨fun _ => by simp, fun _ s' hs => absurd hs (hno s'), fun _ _ => ⟨by simp, fun s' hs => absurd hs (hno s')⟩, ?_, ?_⟩
          · intro h' hm'
            rw [hseg] at hm'
            rcases htl with ⟨rfl, _⟩ | ⟨rfl, ht⟩
            · simp at hm'
              exact absurd hm' (hnof h')
            · simp at hm'
              rcases hm' with hm' | rfl
              · exact absurd hm' (hnof h')
              · exact ⟨ht, .call r e h' :: seg1, by rw [hseg]; simp⟩
          · intro s' hs
            rcases htl with ⟨_, ht⟩ | ⟨rfl, _⟩
            · exact absurd hs (ht s')
            · exact ⟨h0, by simp, by rw [hseg]; simp⟩
        cases y with
        | ok s' =>
          have hrs : r < s'.raises := by
            have : s.raises ≤ s'.raises := h2.raises
            omega
          have hal2 : ∀ h ∈ s.running, s'.w.Alive h := fun h hm => h1.2 h (by rw [h1.1]; exact List.mem_cons_of_mem _ hm)
          obtain ⟨_, seg2, b2, h4⟩ := exec_goes hf body n (.loop r e (i + 1)) { s' with running := s.running } b x h2.inv hal2 h
          have hseg : seg = .call r e h0 :: (seg1 ++ seg2) := by
            have h5 := h4.log
            have h6 := h2.log
            simp only [End.state] at h6
            rw [hlog] at h5
            rw [h6] at h5
            simpa [s1] using h5
          obtain ⟨i1, i2, i3, i4, i5⟩ := ih (i + 1) { s' with running := s.running } b x ev1 seg2 h2.inv hal2 hrs he1 h h4.log
          have hc : callsOf r seg = h0 :: callsOf r seg2 := by
            rw [hseg, ← List.singleton_append, callsOf_append, callsOf_append, hnil]
            simp [callsOf]
          have ha1 : ¬ AddsTo e seg → ¬ AddsTo e seg1 := fun hc ⟨a, r, hm⟩ => hc ⟨a, r, by rw [hseg]; simp [hm]⟩
          have ha2 : ¬ AddsTo e seg → ¬ AddsTo e seg2 := fun hc ⟨a, r, hm⟩ => hc ⟨a, r, by rw [hseg]; simp [hm]⟩
          have hr1 : ¬ RemovesFrom e seg → ¬ RemovesFrom e seg1 := fun hc ⟨a, hm⟩ => hc ⟨a, by rw [hseg]; simp [hm]⟩
          have hr2 : ¬ RemovesFrom e seg → ¬ RemovesFrom e seg2 := fun hc ⟨a, hm⟩ => hc ⟨a, by rw [hseg]; simp [hm]⟩
          rw [hc, hd]
          refine ⟨?_, ?_, ?_, ?_, ?_⟩
          · intro hna
            exact ((i1 (ha2 hna)).trans ((m1.less (ha1 hna)).drop _)).cons_cons _
          · intro hnr s'' hx h' hm'
            rcases List.mem_cons.1 hm' with rfl | hm'
            · simp
            · exact List.mem_cons_of_mem _ (i2 (hr2 hnr) s'' hx h' (((m1.more (hr1 hnr)).drop _).subset hm'))
          · intro hna hnr
            have heq : ev1.handlers = ev.handlers :=
              (m1.less (ha1 hna)).eq_of_length_le (m1.more (hr1 hnr)).length_le
            rw [heq] at i3
            obtain ⟨i4, i5⟩ := i3 (ha2 hna) (hr2 hnr)
            exact ⟨List.prefix_cons_inj h0 |>.2 i4, fun s'' hx => by rw [i5 s'' hx]⟩
          · intro h' hm'
            rw [hseg] at hm'
            simp only [List.mem_cons, List.mem_append, reduceCtorEq, false_or] at hm'
            rcases hm' with hm' | hm'
            · exact absurd hm' (hnof h')
            · obtain ⟨ht, l, hl⟩ := i4 h' hm'
              exact ⟨ht, .call r e h0 :: (seg1 ++ l), by rw [hseg, hl]; simp⟩
          · intro s'' hx
            obtain ⟨h', hm', hf'⟩ := i5 s'' hx
            exact ⟨h', List.mem_cons_of_mem _ hm', by rw [hseg]; simp [hf']⟩
        | threw s' =>
          simp only [Option.some.injEq] at h
          subst h
          exact hend _ [.failed r h0] rfl (by simp) hlog (.inr ⟨rfl, _, rfl⟩)
        | _ =>
          simp only [Option.some.injEq] at h
          subst h
          exact hend _ [] (by simp) (by simp) hlog (.inl ⟨rfl, by simp⟩)

/-- more fuel changes no result -/
theorem exec_mono {alloc : World → Nat} {body : Nat → Prog C} : ∀ (n : Nat) (t : Task C) (s : Run C) (x : End C),
    exec alloc body n t s = some x → exec alloc body (n + 1) t s = some x := by
  intro n
  induction n with
  | zero => intro t s x h; cases t <;> cases h
  | succ n ih =>
    intro t s x h
    match t, h with
    | .prog .done, h => exact h
    | .prog .throw, h => exact h
    | .prog (.vars f k), h =>
      rw [exec] at h ⊢
      exact ih _ _ _ h
    | .prog (.cmd c k), h =>
      rw [exec] at h ⊢
      cases hs : step s.w (c.op alloc s.w) with
      | none => rw [hs] at h; exact h
      | some rw' =>
        obtain ⟨r, w⟩ := rw'
        rw [hs] at h
        simp only at h ⊢
        cases hfind : s.running.find? (fun h => !w.alive h) with
        | some h0 => rw [hfind] at h; exact h
        | none => rw [hfind] at h; exact ih _ _ _ h
    | .prog (.raise e k caught), h =>
      rw [exec] at h ⊢
      cases hl : exec alloc body n (.loop s.raises e 0) { s with raises := s.raises + 1, log := s.log ++ [.raise s.raises e] } with
      | none => rw [hl] at h; cases h
      | some y =>
        rw [hl] at h
        rw [ih _ _ _ hl]
        cases y <;> first | exact ih _ _ _ h | exact h
    | .loop r e i, h =>
      rw [exec] at h ⊢
      cases he : s.w.events[e]?.join with
      | none => rw [he] at h; exact h
      | some ev =>
        rw [he] at h
        simp only at h ⊢
        cases hi : ev.handlers[i]? with
        | none => rw [hi] at h; exact h
        | some h0 =>
          rw [hi] at h
          simp only at h ⊢
          cases hl : exec alloc body n (.prog (body h0)) { s with running := h0 :: s.running, log := s.log ++ [.call r e h0] } with
          | none => rw [hl] at h; cases h
          | some y =>
            rw [hl] at h
            rw [ih _ _ _ hl]
            cases y <;> first | exact ih _ _ _ h | exact h

theorem exec_le {alloc : World → Nat} {body : Nat → Prog C} {t : Task C} {s : Run C} {x : End C} {n m : Nat} (hnm : n ≤ m)
    (h : exec alloc body n t s = some x) : exec alloc body m t s = some x := by
  induction m with
  | zero =>
    have : n = 0 := by omega
    subst this; exact h
  | succ m ih =>
    by_cases hn : n = m + 1
    · subst hn; exact h
    · exact exec_mono m t s x (ih (by omega))

/-! ## All raises are fair -/

/-- raises that begin in `log` have numbers from `lo` to `hi` and are fair -/
structure Fair (lo hi : Nat) (a : Subscriptions) (log : List Entry) : Prop where
  begins : ∀ r e, Entry.raise r e ∈ log → lo ≤ r ∧ r < hi
  ends : ∀ r t, Entry.ended r t ∈ log → lo ≤ r ∧ r < hi
  fair : AllFair a log

theorem Fair.nil {lo hi : Nat} {a : Subscriptions} : Fair lo hi a [] :=
  ⟨(fun _ _ h => (nomatch h)), (fun _ _ h => (nomatch h)), fun before _ _ _ _ _ h => by cases before <;> cases h⟩

theorem Fair.mono {lo hi lo' hi' : Nat} {a : Subscriptions} {p : List Entry} (h : Fair lo hi a p) (h1 : lo' ≤ lo) (h2 : hi ≤ hi') :
    Fair lo' hi' a p :=
  ⟨fun r e hm => by have := h.begins r e hm; omega, fun r e hm => by have := h.ends r e hm; omega, h.fair⟩

theorem Fair.append {lo mid hi : Nat} {a b : Subscriptions} {p q : List Entry} (h1 : Fair lo mid a p) (hf : Follows a p b)
    (h2 : Fair mid hi b q) (hlo : lo ≤ mid) (hhi : mid ≤ hi) : Fair lo hi a (p ++ q) := by
  refine ⟨?_, ?_, ?_⟩
  · intro r e hm
    rcases List.mem_append.1 hm with hm | hm
    · have := h1.begins r e hm; omega
    · have := h2.begins r e hm; omega
  · intro r e hm
    rcases List.mem_append.1 hm with hm | hm
    · have := h1.ends r e hm; omega
    · have := h2.ends r e hm; omega
  · intro before during after r e threw heq
    rcases List.append_eq_append_iff.1 heq with ⟨c, rfl, hq⟩ | ⟨c, rfl, hc⟩
    · obtain ⟨s', h3, h4⟩ := h2.fair c during after r e threw hq
      exact ⟨s', follows_append hf h3, h4⟩
    · cases c with
      | nil =>
        obtain ⟨s', h3, h4⟩ := h2.fair [] during after r e threw (by simpa using hc.symm)
        exact ⟨s', by simpa using follows_append hf h3, h4⟩
      | cons x c =>
        rw [List.cons_append, List.cons.injEq] at hc
        obtain ⟨rfl, hc⟩ := hc
        have hr := (h1.begins r e (by simp)).2
        rcases List.append_eq_append_iff.1 hc with ⟨d, rfl, hd⟩ | ⟨d, rfl, hq⟩
        · cases d with
          | nil =>
            have := (h2.ends r threw (by rw [show q = Entry.ended r threw :: after by simpa using hd.symm]; simp)).1
            omega
          | cons y d =>
            rw [List.cons_append, List.cons.injEq] at hd
            obtain ⟨rfl, rfl⟩ := hd
            exact h1.fair before during d r e threw (by simp)
        · have := (h2.ends r threw (by rw [hq]; simp)).1
          omega

theorem Fair.single {lo hi : Nat} {a : Subscriptions} {x : Entry} (h1 : ∀ r e, x ≠ .raise r e) (h2 : ∀ r t, x ≠ .ended r t) :
    Fair lo hi a [x] := by
  refine ⟨?_, ?_, ?_⟩
  · intro r e hm; simp at hm; exact absurd hm.symm (h1 r e)
  · intro r e hm; simp at hm; exact absurd hm.symm (h2 r e)
  · intro before during after r e threw heq
    have := congrArg List.length heq
    simp at this
    omega

theorem fair_finished {r e hi : Nat} {a : Subscriptions} {p : List Entry} {t : Bool} (h : Fair (r + 1) hi a p) (hr : RaiseFair a r e p t)
    (hhi : r < hi) : Fair r hi a (.raise r e :: (p ++ [.ended r t])) := by
  refine ⟨?_, ?_, ?_⟩
  · intro r' e' hm
    simp at hm
    rcases hm with ⟨rfl, _⟩ | hm
    · omega
    · have := h.begins r' e' hm; omega
  · intro r' e' hm
    simp at hm
    rcases hm with hm | ⟨rfl, _⟩
    · have := h.ends r' e' hm; omega
    · omega
  · intro before during after r' e' threw heq
    have hlast : ∀ {c d : List Entry} {t' : Bool} {r' : Nat}, p ++ [.ended r t] = c ++ .ended r' t' :: d →
        (d = [] ∧ c = p ∧ r' = r ∧ t' = t) ∨ ∃ d', p = c ++ .ended r' t' :: d' := by
      intro c d t' r' hc
      rcases List.eq_nil_or_concat d with rfl | ⟨d', z, rfl⟩
      · have := List.append_inj' hc rfl
        simp only [List.cons.injEq, Entry.ended.injEq, and_true] at this
        exact .inl ⟨rfl, this.1.symm, this.2.1.symm, this.2.2.symm⟩
      · have : p ++ [.ended r t] = (c ++ .ended r' t' :: d') ++ [z] := by rw [hc]; simp
        exact .inr ⟨d', (List.append_inj' this rfl).1⟩
    cases before with
    | nil =>
      simp only [List.nil_append, List.cons.injEq, Entry.raise.injEq] at heq
      obtain ⟨⟨rfl, rfl⟩, heq⟩ := heq
      refine ⟨a, .nil, ?_⟩
      rcases hlast heq with ⟨_, rfl, _, rfl⟩ | ⟨d', rfl⟩
      · exact hr
      · have := (h.ends r threw (by simp)).1
        omega
    | cons x before =>
      simp only [List.cons_append, List.cons.injEq] at heq
      obtain ⟨rfl, heq⟩ := heq
      have heq' : p ++ [.ended r t] = (before ++ .raise r' e' :: during) ++ .ended r' threw :: after := by rw [heq]; simp
      rcases hlast heq' with ⟨_, rfl, rfl, _⟩ | ⟨d', hp⟩
      · have := (h.begins r' e' (by simp)).1
        omega
      · obtain ⟨s', h1, h2⟩ := h.fair before during d' r' e' threw (by rw [hp]; simp)
        exact ⟨s', .raise h1, h2⟩

theorem fair_unfinished {r e hi : Nat} {a : Subscriptions} {p : List Entry} (h : Fair (r + 1) hi a p)
    (hhi : r < hi) : Fair r hi a (.raise r e :: p) := by
  refine ⟨?_, ?_, ?_⟩
  · intro r' e' hm
    simp at hm
    rcases hm with ⟨rfl, _⟩ | hm
    · omega
    · have := h.begins r' e' hm; omega
  · intro r' e' hm
    simp at hm
    have := h.ends r' e' hm; omega
  · intro before during after r' e' threw heq
    cases before with
    | nil =>
      simp only [List.nil_append, List.cons.injEq, Entry.raise.injEq] at heq
      obtain ⟨⟨rfl, rfl⟩, rfl⟩ := heq
      have := (h.ends r threw (by simp)).1
      omega
    | cons x before =>
      simp only [List.cons_append, List.cons.injEq] at heq
      obtain ⟨rfl, heq⟩ := heq
      obtain ⟨s', h1, h2⟩ := h.fair before during after r' e' threw heq
      exact ⟨s', .raise h1, h2⟩

theorem loop_event {alloc : World → Nat} {body : Nat → Prog C} {n r e i : Nat} {s : Run C} {x : End C}
    (h : exec alloc body n (.loop r e i) s = some x) :
    (∃ ev, s.w.events[e]? = some (some ev)) ∨ x = .noEvent e s := by
  cases n with
  | zero => cases h
  | succ n =>
    rw [exec] at h
    cases he : s.w.events[e]?.join with
    | none => rw [he] at h; simp at h; exact .inr h.symm
    | some ev => exact .inl ⟨ev, Option.join_eq_some_iff.1 he⟩

theorem raise_fair {alloc : World → Nat} (hf : Fresh alloc) {body : Nat → Prog C} {n r e : Nat} {s : Run C} {a : Subscriptions} {x : End C}
    {seg : List Entry} (hI : Inv s.w a) (hal : ∀ h ∈ s.running, s.w.Alive h) (hr : r < s.raises)
    (h : exec alloc body n (.loop r e 0) s = some x) (hlog : x.state.log = s.log ++ seg) {s' : Run C} {t : Bool}
    (hx : x = if t then .threw s' else .ok s') : RaiseFair a r e seg t := by
  rcases loop_event h with ⟨ev, he⟩ | hno
  · obtain ⟨h1, h2, _, h4, h5⟩ := loop_calls hf body r e n 0 s a x ev seg hI hal hr he h hlog
    rw [List.drop_zero] at h1 h2
    refine ⟨?_, ?_, ?_, ?_⟩
    · intro hc
      exact ⟨(hI.nodup e ev he).sublist (h1 hc), fun h' hm => (hI.mem e ev he h').1 ((h1 hc).subset hm)⟩
    · intro hc ht h' hm
      subst ht
      exact h2 hc s' (by simpa using hx) h' ((hI.mem e ev he h').2 hm)
    · intro h' hm
      obtain ⟨⟨s'', hs⟩, h6⟩ := h4 h' hm
      refine ⟨?_, h6⟩
      cases t with
      | true => rfl
      | false => rw [hs] at hx; cases hx
    · intro ht
      subst ht
      exact h5 s' (by simpa using hx)
  · rw [hno] at hx
    cases t <;> cases hx

theorem exec_fair {alloc : World → Nat} (hf : Fresh alloc) (body : Nat → Prog C) : ∀ (n : Nat) (t : Task C) (s : Run C) (a : Subscriptions)
    (x : End C) (seg : List Entry), Inv s.w a → (∀ h ∈ s.running, s.w.Alive h) → exec alloc body n t s = some x →
    x.state.log = s.log ++ seg → Fair s.raises x.state.raises a seg := by
  intro n
  induction n with
  | zero => intro t s a x seg _ _ h; cases t <;> cases h
  | succ n ih =>
    intro t s a x seg hI hal h hlog
    have hempty : x.state = s → Fair s.raises x.state.raises a seg := by
      intro hx
      rw [hx] at hlog
      have : seg = [] := by simpa using hlog
      subst this
      exact .nil
    match t, h with
    | .prog .done, h => simp only [exec, Option.some.injEq] at h; subst h; exact hempty rfl
    | .prog .throw, h => simp only [exec, Option.some.injEq] at h; subst h; exact hempty rfl
    | .prog (.vars f k), h =>
      simp only [exec] at h
      exact ih (.prog (k s.vars)) { s with vars := f s.vars } a x seg hI hal h hlog
    | .prog (.cmd c k), h =>
      simp only [exec] at h
      cases hs : step s.w (c.op alloc s.w) with
      | none =>
        rw [hs] at h
        simp only [Option.some.injEq] at h
        subst h
        exact hempty rfl
      | some rw' =>
        obtain ⟨r, w⟩ := rw'
        rw [hs] at h
        simp only at h
        obtain ⟨r', w', b1, h1, hst, hI1⟩ := step_inv hI (keeps c) (legal_of_step hf hs)
        rw [hs] at h1
        simp only [Option.some.injEq, Prod.mk.injEq] at h1
        obtain ⟨rfl, rfl⟩ := h1
        let s1 : Run C := { s with w := w, log := s.log ++ [.did (c.op alloc s.w) r] }
        cases hfind : s.running.find? (fun h => !w.alive h) with
        | some h0 =>
          rw [hfind] at h
          simp only [Option.some.injEq] at h
          subst h
          have : seg = [.did (c.op alloc s.w) r] := by simpa [End.state] using hlog.symm
          subst this
          exact .single (by simp) (by simp)
        | none =>
          rw [hfind] at h
          simp only at h
          have hal1 : ∀ h ∈ s1.running, s1.w.Alive h := by
            intro h0 hm
            have := List.find?_eq_none.1 hfind h0 hm
            rw [← alive_iff]
            simpa using this
          obtain ⟨_, seg', b, h3⟩ := exec_goes hf body n (.prog (k r)) s1 b1 x hI1 hal1 h
          have hseg : seg = [.did (c.op alloc s.w) r] ++ seg' := by
            have := h3.log
            rw [hlog] at this
            simpa [s1] using this
          rw [hseg]
          exact (Fair.single (by simp) (by simp)).append (.did hst .nil) (ih (.prog (k r)) s1 b1 x seg' hI1 hal1 h h3.log)
            (Nat.le_refl _) h3.raises
    | .prog (.raise e k caught), h =>
      simp only [exec] at h
      let s1 : Run C := { s with raises := s.raises + 1, log := s.log ++ [.raise s.raises e] }
      cases hl : exec alloc body n (.loop s.raises e 0) s1 with
      | none => rw [hl] at h; cases h
      | some y =>
        rw [hl] at h
        obtain ⟨h1, seg1, b, h2⟩ := exec_goes hf body n (.loop s.raises e 0) s1 a y hI hal hl
        have hfair : Fair (s.raises + 1) y.state.raises a seg1 := ih (.loop s.raises e 0) s1 a y seg1 hI hal hl h2.log
        have hlt : s.raises < y.state.raises := h2.raises
        have hgoon : ∀ (s' : Run C) (p : Prog C) (t : Bool), (y = if t then .threw s' else .ok s') → s'.running = s.running →
            (∀ h ∈ s'.running, s'.w.Alive h) → y.state = s' →
            exec alloc body n (.prog p) { s' with log := s'.log ++ [.ended s.raises t] } = some x →
            Fair s.raises x.state.raises a seg := by
          intro s' p t hy hrun hal' hys hx
          have hI' : Inv s'.w b := by rw [← hys]; exact h2.inv
          obtain ⟨_, seg2, b', h5⟩ := exec_goes hf body n (.prog p) { s' with log := s'.log ++ [.ended s.raises t] } b x hI' hal' hx
          have h6 := ih (.prog p) { s' with log := s'.log ++ [.ended s.raises t] } b x seg2 hI' hal' hx h5.log
          have hseg : seg = (.raise s.raises e :: (seg1 ++ [.ended s.raises t])) ++ seg2 := by
            have h7 := h5.log
            have h8 := h2.log
            rw [hys] at h8
            rw [hlog] at h7
            simp only [h8, s1] at h7
            simpa using h7
          rw [hseg]
          rw [hys] at hlt hfair
          exact (fair_finished hfair (raise_fair (s := s1) hf hI hal (Nat.lt_succ_self _) hl h2.log hy) hlt).append
            (.raise (follows_append h2.follows (.ended .nil))) h6 (by omega) h5.raises
        have hstop : x = y → Fair s.raises x.state.raises a seg := by
          rintro rfl
          have hseg : seg = .raise s.raises e :: seg1 := by
            have h8 := h2.log
            rw [hlog] at h8
            simpa [s1] using h8
          rw [hseg]
          exact fair_unfinished hfair hlt
        cases y with
        | ok s' => exact hgoon s' k false rfl h1.1 h1.2 rfl h
        | threw s' => exact hgoon s' caught true rfl h1.1 h1.2 rfl h
        | _ => simp only [Option.some.injEq] at h; exact hstop h.symm
    | .loop r e i, h =>
      simp only [exec] at h
      cases he : s.w.events[e]?.join with
      | none =>
        rw [he] at h
        simp only [Option.some.injEq] at h
        subst h
        exact hempty rfl
      | some ev =>
        rw [he] at h
        rw [Option.join_eq_some_iff] at he
        simp only at h
        cases hi : ev.handlers[i]? with
        | none =>
          rw [hi] at h
          simp only [Option.some.injEq] at h
          subst h
          exact hempty rfl
        | some h0 =>
          rw [hi] at h
          simp only at h
          have hm : h0 ∈ ev.handlers := List.mem_of_getElem? hi
          let s1 : Run C := { s with running := h0 :: s.running, log := s.log ++ [.call r e h0] }
          have hal1 : ∀ h ∈ s1.running, s1.w.Alive h := by
            intro h' hm'
            rcases List.mem_cons.1 hm' with rfl | hm'
            · exact .inr ⟨e, ev, he, hm⟩
            · exact hal h' hm'
          cases hl : exec alloc body n (.prog (body h0)) s1 with
          | none => rw [hl] at h; cases h
          | some y =>
            rw [hl] at h
            obtain ⟨h1, seg1, b, h2⟩ := exec_goes hf body n (.prog (body h0)) s1 a y hI hal1 hl
            have h3 : Fair s.raises y.state.raises a ([.call r e h0] ++ seg1) :=
              (Fair.single (lo := s.raises) (hi := s.raises) (by simp) (by simp)).append
                (.call ((hI.mem e ev he h0).1 hm) .nil) (ih (.prog (body h0)) s1 a y seg1 hI hal1 hl h2.log) (Nat.le_refl _) h2.raises
            have hstop : ∀ tl : List Entry, x.state.log = y.state.log ++ tl → x.state.raises = y.state.raises →
                (tl = [] ∨ tl = [.failed r h0]) → Fair s.raises x.state.raises a seg := by
              intro tl hx hx' htl
              have hseg : seg = ([.call r e h0] ++ seg1) ++ tl := by
                rw [hlog, h2.log] at hx
                simpa [s1] using hx
              rw [hseg, hx']
              refine h3.append (follows_append (.call ((hI.mem e ev he h0).1 hm) .nil) h2.follows) ?_ h2.raises (Nat.le_refl _)
              rcases htl with rfl | rfl
              · exact .nil
              · exact .single (by simp) (by simp)
            cases y with
            | ok s' =>
              have hal2 : ∀ h ∈ s.running, s'.w.Alive h := fun h hm => h1.2 h (by rw [h1.1]; exact List.mem_cons_of_mem _ hm)
              obtain ⟨_, seg2, b2, h4⟩ := exec_goes hf body n (.loop r e (i + 1)) { s' with running := s.running } b x h2.inv hal2 h
              have hseg : seg = ([.call r e h0] ++ seg1) ++ seg2 := by
                have h5 := h4.log
                have h6 := h2.log
                simp only [End.state] at h6
                rw [hlog, h6] at h5
                simpa [s1] using h5
              rw [hseg]
              exact h3.append (follows_append (.call ((hI.mem e ev he h0).1 hm) .nil) h2.follows)
                (ih (.loop r e (i + 1)) { s' with running := s.running } b x seg2 h2.inv hal2 h h4.log) h2.raises h4.raises
            | threw s' =>
              simp only [Option.some.injEq] at h
              subst h
              exact hstop [.failed r h0] rfl rfl (.inr rfl)
            | _ => simp only [Option.some.injEq] at h; subst h; exact hstop [] (by simp) rfl (.inl rfl)

end Events
end Vlpp
