import Verif.Lemmas.StrThreadsRun
/-!
# C96: strings used by several threads

Threads copy, move, cut, concatenate, compare, read and destroy strings.  The strings share buffers.  Every thread has its
own variables, and there are constants that all threads read.
-/
set_option autoImplicit false
namespace Vlpp
open StrThreads Spec.StrValues

/-- What thread `t` sees and has in the end if it is alone and strings are values. -/
def StrThreads.goals (own : Owner) (s : State) (t : Nat) : Env × List Obs :=
  match s.threads[t]? with
  | some th => alone own t (values s) th.prog
  | none => (values s, [])

theorem StrThreads.Fits.inv {own : Owner} {s : State} (hf : Fits own s) (hc : ∀ th ∈ s.threads, Calm own s th) :
    Inv own (goals own s) s.slot s where
  range := hf.range
  fok := hf.fok
  blk := by
    intro b k hk
    obtain ⟨h1, h2, h3, h4⟩ := hf.blk b k hk
    have e1 : d1 s b = 0 := by
      unfold d1
      rw [List.countP_eq_zero]
      intro th hth
      rw [(hf.idle th hth).1]
      exact nofun
    have e2 : d2 s b = 0 := by
      unfold d2
      rw [List.countP_eq_zero]
      intro th hth
      rw [(hf.idle th hth).1]
      exact nofun
    rw [e1, e2]
    exact ⟨by simp [h1, h4], by simp [h2, h4], fun _ => h3, by simp, by simp⟩
  del := by
    intro b _
    constructor
    · unfold d1
      rw [List.countP_eq_zero]
      intro th hth
      rw [(hf.idle th hth).1]
      exact nofun
    · unfold d2
      rw [List.countP_eq_zero]
      intro th hth
      rw [(hf.idle th hth).1]
      exact nofun
  shared := fun v _ => hf.valid v
  same := fun _ _ => rfl
  threads := by
    intro t th ht
    have hth := List.mem_of_getElem? ht
    refine ⟨⟨values s, [], ?_, ?_, ?_⟩, hc th hth⟩
    · simp [goals, ht]
    · simp [goals, ht, (hf.idle th hth).2]
    · rw [(hf.idle th hth).1]
      refine ⟨rfl, ?_⟩
      intro w _ _
      unfold MatchAt values
      cases hw : s.slot w with
      | dead => rfl
      | stale => exact hf.valid w hw
      | live f => rfl

/-- **C96**: for every number of threads with arbitrary programs and every interleaving of their steps: nothing that has been
deleted is used and nothing is deleted twice (`run` does not end with `none`).  Constants do not change.  What a thread has
observed is the beginning of what it would observe alone with strings that are values, and if it is at its end, it is all of
that, and its variables have those values.  The buffer and the counter of a string that exists are there.  When all threads
are at their ends, exactly the buffers and counters that no string uses any more are deleted, and the others count their
strings.

Partial: only if no thread calls `Buffer()` on a shared constant that does not end where its buffer ends (see
`C96_violated_buffer`). -/
theorem C96_threads_partial (own : Owner) (s : State) (hf : Fits own s) (hc : ∀ th ∈ s.threads, Calm own s th) (ts : List Nat) :
    ∃ s', run own s ts = some s' ∧
      (∀ v, own v = none → s'.slot v = s.slot v) ∧
      (∀ t th th', s.threads[t]? = some th → s'.threads[t]? = some th' →
        (∃ rest, th'.obs ++ rest = (alone own t (values s) th.prog).2) ∧
        (th'.Finished → th'.obs = (alone own t (values s) th.prog).2 ∧
          ∀ w, Readable own t w → values s' w = (alone own t (values s) th.prog).1 w)) ∧
      (∀ v f b, s'.slot v = .live f → f.mem = .blk b →
        ∃ k, s'.blocks[b]? = some k ∧ k.hasChars = true ∧ k.hasCounter = true ∧ k.counter = (refs s' b : Int)) ∧
      ((∀ th ∈ s'.threads, th.Finished) → ∀ b k, s'.blocks[b]? = some k →
        (k.hasChars = true ↔ 0 < refs s' b) ∧ (k.hasCounter = true ↔ 0 < refs s' b)) := by
  have hi := hf.inv hc
  obtain ⟨s', hr, h⟩ := run_ok ts s hi
  refine ⟨s', hr, h.same, ?_, ?_, ?_⟩
  · intro t th th' ht ht'
    have hg : goals own s t = alone own t (values s) th.prog := by simp [goals, ht]
    obtain ⟨⟨e, pend, g1, g2, hP⟩, _⟩ := h.threads t th' ht'
    rw [hg] at g1 g2
    refine ⟨⟨pend ++ (alone own t e th'.prog).2, by rw [← List.append_assoc]; exact g2⟩, ?_⟩
    rintro ⟨hp, hph⟩
    rw [hph] at hP
    obtain ⟨rfl, hm⟩ := hP
    rw [hp] at g1 g2
    simp only [alone, List.append_nil] at g1 g2
    refine ⟨g2, ?_⟩
    intro w hw
    have := hm w hw id
    rw [← g1]
    unfold MatchAt at this
    unfold values
    cases hs : s'.slot w with
    | dead => rw [hs] at this; exact this.symm
    | stale => rw [hs] at this; exact this.elim
    | live f => rw [hs] at this; exact this.symm
  · intro v f b hv hm
    obtain ⟨k, hk⟩ := mem_block (h.fok v f hv) hm
    have hb := h.blk b k hk
    have hp := refs_pos hv hm
    have hcn := hb.counter.2 (Or.inl hp)
    exact ⟨k, hk, hb.chars.2 (Or.inl hp), hcn, hb.count hcn⟩
  · intro hfin b k hk
    have hb := h.blk b k hk
    have e1 : d1 s' b = 0 := by
      unfold d1
      rw [List.countP_eq_zero]
      intro th hth
      rw [(hfin th hth).2]
      exact nofun
    have e2 : d2 s' b = 0 := by
      unfold d2
      rw [List.countP_eq_zero]
      intro th hth
      rw [(hfin th hth).2]
      exact nofun
    rw [e1, e2] at hb
    exact ⟨by simpa using hb.chars, by simpa using hb.counter⟩

/-- **C96**: whatever the threads have done so far, there is a way for all of them to come to their ends. -/
theorem C96_finish_partial (own : Owner) (s : State) (hf : Fits own s) (hc : ∀ th ∈ s.threads, Calm own s th) (ts : List Nat) :
    ∃ us s', run own s (ts ++ us) = some s' ∧ s'.threads.length = s.threads.length ∧ ∀ th ∈ s'.threads, th.Finished := by
  obtain ⟨s1, hr, h⟩ := run_ok ts s (hf.inv hc)
  obtain ⟨us, s2, h1, _, h3, h4⟩ := finish_all s1.threads.length s1 h (Nat.le_refl _)
  refine ⟨us, s2, by rw [run_append _ _ _ _ hr, h1], ?_, ?_⟩
  · rw [h3]
    exact run_threads_length ts s s1 hr
  · intro th hth
    obtain ⟨t, ht, rfl⟩ := List.mem_iff_getElem.1 hth
    exact h4 t _ (by omega) (List.getElem?_eq_getElem ht)

/-! ## `Buffer()` of a shared constant -/

namespace StrThreads.Race

/-- Variable 0 is a constant for all threads, variable 1 belongs to thread 1. -/
def own : Owner := fun v => if v = 1 then some 1 else none

/-- The constant is `"ab"`, the rest of the buffer of `"abc"` (the other string is gone).  Thread 0 calls `Buffer()`, thread 1
performs `op`. -/
def start (op : Op) : State where
  blocks := [{ chars := [97, 98, 99, 0] }]
  vars := [.live ⟨.blk 0, 0, 2, 3⟩, .dead]
  threads := [{ prog := [.buffer 0] }, { prog := [op] }]

theorem fits (op : Op) : Fits own (start op) where
  range := by
    intro v t h
    unfold own at h
    split at h
    · next hv => subst hv; exact Nat.lt_succ_self 1
    · exact absurd h nofun
  fok := by
    intro v f h
    match v with
    | 0 =>
      simp only [State.slot, start, List.getElem?_cons_zero, Option.getD_some, Slot.live.injEq] at h
      subst h
      exact ⟨rfl, rfl, by decide⟩
    | 1 => exact absurd h nofun
    | v + 2 => exact absurd h (by simp [State.slot, start])
  valid := by
    intro v h
    match v with
    | 0 => exact absurd h nofun
    | 1 => exact absurd h nofun
    | v + 2 => exact absurd h (by simp [State.slot, start])
  blk := by
    intro b k h
    match b with
    | 0 =>
      simp only [start, List.getElem?_cons_zero, Option.some.injEq] at h
      subst h
      exact ⟨rfl, rfl, rfl, Nat.one_pos⟩
    | b + 1 => simp [start] at h
  idle := by
    intro th h
    simp only [start, List.mem_cons, List.not_mem_nil, or_false] at h
    rcases h with rfl | rfl <;> exact ⟨rfl, rfl⟩

end StrThreads.Race

open StrThreads.Race in
/-- `Buffer()` is a `const` function that replaces the buffer.  Two threads that only call `const` functions of one constant
string use deleted memory: one calls `Buffer()`, the other one copies the string, reads a character, takes a part, or calls
`Buffer()` too.  Each of them alone sees what it should see. -/
theorem C96_violated_buffer :
    (∀ op ∈ ([.copy 1 0, .at 0 0, .sub 1 0 0 1, .concat 1 0 0, .buffer 0] : List Op),
      Fits own (start op) ∧ own 0 = none ∧ ∃ ts, run own (start op) ts = none) ∧
    (∀ op ∈ ([.copy 1 0, .at 0 0, .sub 1 0 0 1, .concat 1 0 0, .buffer 0] : List Op),
      (∃ s', run own (start op) (List.replicate 12 0 ++ List.replicate 12 1) = some s' ∧ ∀ th ∈ s'.threads, th.Finished) ∧
      (∃ s', run own (start op) (List.replicate 12 1 ++ List.replicate 12 0) = some s' ∧ ∀ th ∈ s'.threads, th.Finished)) := by
  constructor
  · intro op hop
    refine ⟨fits op, rfl, [1] ++ List.replicate 6 0 ++ [1], ?_⟩
    revert op
    decide +kernel
  · have key : ∀ op ∈ ([.copy 1 0, .at 0 0, .sub 1 0 0 1, .concat 1 0 0, .buffer 0] : List Op),
        (((run own (start op) (List.replicate 12 0 ++ List.replicate 12 1)).map fun s' =>
          s'.threads.all fun th => th.prog = [] && th.phase = .idle) = some true) ∧
        (((run own (start op) (List.replicate 12 1 ++ List.replicate 12 0)).map fun s' =>
          s'.threads.all fun th => th.prog = [] && th.phase = .idle) = some true) := by decide +kernel
    have fin : ∀ o : Option State, (o.map fun s' => s'.threads.all fun th => th.prog = [] && th.phase = .idle) = some true →
        ∃ s', o = some s' ∧ ∀ th ∈ s'.threads, th.Finished := by
      intro o ho
      cases o with
      | none => exact absurd ho nofun
      | some s' =>
        simp only [Option.map_some, Option.some.injEq, List.all_eq_true, Bool.and_eq_true, decide_eq_true_eq] at ho
        exact ⟨s', rfl, fun th hth => ho th hth⟩
    intro op hop
    exact ⟨fin _ (key op hop).1, fin _ (key op hop).2⟩

/-! ## Cases -/

/-- Two threads share the constant `"abc"` and work with copies and parts of it. -/
def StrThreads.shared : State where
  blocks := [{ chars := [97, 98, 99, 0] }]
  vars := [.live ⟨.blk 0, 0, 3, 3⟩, .dead, .dead, .dead]
  threads := [{ prog := [.sub 1 0 0 2, .buffer 1, .at 0 2] }, { prog := [.copy 2 0, .concat 3 2 0, .destroy 2, .compare 3 0] }]

def StrThreads.sharedOwn : Owner := fun v => if v = 1 then some 0 else if v = 2 ∨ v = 3 then some 1 else none

theorem StrThreads.shared_fits : Fits sharedOwn shared where
  range := by
    intro v t h
    unfold sharedOwn at h
    split at h
    · next hv => subst hv; decide
    · split at h
      · next hv => rcases hv with rfl | rfl <;> decide
      · exact absurd h nofun
  fok := by
    intro v f h
    match v with
    | 0 =>
      simp only [State.slot, shared, List.getElem?_cons_zero, Option.getD_some, Slot.live.injEq] at h
      subst h
      exact ⟨rfl, rfl, by decide⟩
    | 1 | 2 | 3 => exact absurd h nofun
    | v + 4 => exact absurd h (by simp [State.slot, shared])
  valid := by
    intro v h
    match v with
    | 0 | 1 | 2 | 3 => exact absurd h nofun
    | v + 4 => exact absurd h (by simp [State.slot, shared])
  blk := by
    intro b k h
    match b with
    | 0 =>
      simp only [shared, List.getElem?_cons_zero, Option.some.injEq] at h
      subst h
      exact ⟨rfl, rfl, rfl, by decide⟩
    | b + 1 => simp [shared] at h
  idle := by
    intro th h
    simp only [shared, List.mem_cons, List.not_mem_nil, or_false] at h
    rcases h with rfl | rfl <;> exact ⟨rfl, rfl⟩

/-- The hypotheses of the theorems hold for it, -/
example : Fits sharedOwn shared ∧ ∀ th ∈ shared.threads, Calm sharedOwn shared th := by
  refine ⟨shared_fits, ?_⟩
  intro th h w hw hn f hf
  simp only [shared, List.mem_cons, List.not_mem_nil, or_false] at h
  rcases h with rfl | rfl
  · simp only [List.mem_cons, Op.buffer.injEq, List.not_mem_nil, or_false, reduceCtorEq, false_or] at hw
    subst hw
    exact absurd hn (by decide)
  · simp at hw

/-- and this is what the threads see if their steps alternate. -/
example : ((run sharedOwn shared (List.flatten (List.replicate 20 [0, 1]))).map fun s =>
      (s.threads.map Thread.obs, s.blocks.map fun b => (b.counter, b.hasChars, b.hasCounter)))
    = some ([[.text [97, 98, 0], .text [99]], [.order .gt]], [(1, true, true), (1, true, true), (1, true, true)]) := by
  decide +kernel

end Vlpp
