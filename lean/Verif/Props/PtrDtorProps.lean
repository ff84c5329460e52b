import Verif.Lemmas.PtrDtorSim

/-! # C106: destructors may use shared pointers -/
set_option autoImplicit false
namespace Vlpp
open Spec.Dtor

/-- The property: programs whose destructors use pointers run as `Spec.Dtor` says, as far as that is defined. -/
def C106_statement : Prop :=
  ∀ (P : Program) (n k : Nat) (i : Spec.Dtor.State), run P k (start n) = some i →
    ∃ s, PtrDtor.run P k (PtrDtor.start n) = some s ∧ s.log = i.log

namespace PtrDtor

theorem Sim.start (n : Nat) : Sim (PtrDtor.start n) (Spec.Dtor.start n) := by
  refine ⟨rfl, rfl, ⟨rfl, rfl, fun _ => rfl, fun _ _ => rfl, ?_, ?_, ?_, rfl, ?_⟩⟩
  · intro q hq; simp [Spec.Dtor.start, busy] at hq
  · intro q hq; simp [Spec.Dtor.start, busy] at hq
  · intro x j hq; simp [Spec.Dtor.start, busy] at hq
  · intro x hx; simp [Spec.Dtor.start] at hx

theorem sim_run (P : Program) (k : Nat) {s : PtrDtor.State} {i i' : Spec.Dtor.State} (hI : Inv i.mem i.todo i.log)
    (R : Sim s i) (ha : Apart i.todo) (hp : PoliteRun P k i) (hr : Spec.Dtor.run P k i = some i') :
    Inv i'.mem i'.todo i'.log ∧ ∃ s', PtrDtor.run P k s = some s' ∧ Sim s' i' := by
  induction k generalizing s i with
  | zero =>
    simp only [Spec.Dtor.run, Option.some.injEq] at hr
    subst hr
    exact ⟨hI, s, rfl, R⟩
  | succ k ih =>
    simp only [Spec.Dtor.run, Option.bind_eq_some_iff] at hr
    obtain ⟨i1, h1, h2⟩ := hr
    obtain ⟨s1, e1, R1, a1⟩ := R.step P hI ha hp.1 h1
    obtain ⟨hI', s', e2, R2⟩ := ih (hI.step P h1) R1 a1 (hp.2 i1 h1) h2
    exact ⟨hI', s', by simp only [PtrDtor.run, e1, Option.bind_some, e2], R2⟩

theorem sim_start (P : Program) (n k : Nat) {i : Spec.Dtor.State} (hp : PoliteRun P k (Spec.Dtor.start n))
    (hr : Spec.Dtor.run P k (Spec.Dtor.start n) = some i) :
    Inv i.mem i.todo i.log ∧ ∃ s, PtrDtor.run P k (PtrDtor.start n) = some s ∧ Sim s i :=
  sim_run P k (Inv.start n) (Sim.start n) (by simp [Spec.Dtor.start, Apart]) hp hr

end PtrDtor

/-- As long as no statement uses a pointer that is just being assigned, there is no undefined behaviour, the same destructors
run in the same order, the code sees the same, and all other pointers are what they should be.  Missing for the full
statement: destructors that use the pointer through whose assignment they were called; see `C106_violated`. -/
theorem C106_run_partial (P : Program) (n k : Nat) (i : Spec.Dtor.State) (hr : run P k (start n) = some i)
    (hp : PoliteRun P k (start n)) :
    ∃ s, PtrDtor.run P k (PtrDtor.start n) = some s ∧ s.todo = i.todo ∧ s.log = i.log ∧
      ∀ q, q ∉ busy i.todo → s.mem.read q = i.mem.read q := by
  obtain ⟨_, s, h, R⟩ := PtrDtor.sim_start P n k hp hr
  exact ⟨s, h, R.todo, R.log, R.rel.same⟩

/-- In such runs: no object is destroyed twice or released twice; an object that is not destroyed is held by a pointer (or by
the temporary pointer of an assignment), and its counter is the number of these; no pointer, except those being assigned,
holds an object whose destructor has begun; when the program has ended, the memory of all destroyed objects is released. -/
theorem C106_lifetime_partial (P : Program) (n k : Nat) (i : Spec.Dtor.State) (hr : run P k (start n) = some i)
    (hp : PoliteRun P k (start n)) :
    ∃ s, PtrDtor.run P k (PtrDtor.start n) = some s ∧
      (∀ x, s.log.count (.dtor x) ≤ 1 ∧ s.log.count (.free x) ≤ 1 ∧ (.free x ∈ s.log → .dtor x ∈ s.log)) ∧
      (∀ x, x < s.mem.objs.length → .dtor x ∉ s.log →
        ((∃ q, s.mem.read q = some (some x)) ∨ ∃ p, .settle p (.obj x) ∈ s.todo) ∧
        s.counters[x]? = some (some (holders i.mem i.todo x : Int))) ∧
      (∀ x, .dtor x ∈ s.log → ∀ q, q ∉ busy s.todo → s.mem.read q ≠ some (some x)) ∧
      (s.todo = [] → ∀ x, .dtor x ∈ s.log → .free x ∈ s.log) := by
  obtain ⟨I, s, h, R⟩ := PtrDtor.sim_start P n k hp hr
  refine ⟨s, h, ?_, ?_, ?_, ?_⟩
  · intro x; rw [R.log]; exact ⟨I.dtorOnce x, I.freeOnce x, I.freed x⟩
  · intro x hx hd
    rw [R.log] at hd
    rw [R.rel.objs] at hx
    have hc := R.rel.count x hx
    rw [if_neg hd] at hc
    refine ⟨?_, hc⟩
    have key : ∀ q, i.mem.read q = some (some x) → s.mem.read q = some (some x) := by
      intro q hq
      rw [R.rel.same q ?_]
      · exact hq
      · intro hb
        have := R.rel.stale q hb _ hq
        cases this
    rcases holder_exists (I.live x hx hd) with ⟨j, hj⟩ | ⟨y, j, hj⟩ | ⟨t, ht, e⟩
    · exact Or.inl ⟨.var j, key _ hj⟩
    · left
      refine ⟨.mem y j, key _ ?_⟩
      rw [read_mem]
      have hs : (i.mem.val y j).isSome := by rw [hj]; rfl
      rw [val_isSome] at hs
      cases e : i.mem.info y with
      | none => simp [e] at hs
      | some c =>
        obtain ⟨c, m, t⟩ := c
        cases t with
        | true => simp only [if_true]; exact hj
        | false =>
          exfalso
          have := I.gone y ((I.there y c m false e).mp rfl) j _ hj
          cases this
    · right
      rw [R.todo]
      cases t with
      | body a b c => cases e
      | members a b => cases e
      | settle p src =>
        cases src with
        | obj o => injection e with e; subst e; exact ⟨p, ht⟩
        | null => cases e
        | copy q => cases e
        | move q => cases e
  · intro x hd q hq he
    rw [R.log] at hd
    rw [R.todo] at hq
    rw [R.rel.same q hq] at he
    have h1 := holders_pos he i.todo
    have h2 := (I.dead x hd).2
    omega
  · intro ht x hd
    rw [R.log] at hd ⊢
    rw [R.todo] at ht
    rcases I.ended x hd with e | ⟨k, e⟩
    · exact e
    · rw [ht] at e; cases e

/-! ## Destructors that use their own members only -/

namespace PtrDtor

/-- the main function is at the bottom -/
def Bottom : List Task → Prop
  | [] => True
  | .body _ c _ :: rest => (c = 0 → rest = []) ∧ Bottom rest
  | _ :: rest => Bottom rest

def NoZero (m : Mem) : Prop := ∀ x c n t, m.info x = some (c, n, t) → c ≠ 0

theorem nozero_write {m : Mem} (h : NoZero m) (p : Place) (v : Option Nat) : NoZero (m.write p v) := by
  intro x c n t hi; rw [info_write] at hi; exact h x c n t hi

theorem nozero_finish {m m' : Mem} {p : Place} {src : Src} (h : NoZero m) (hf : Spec.Dtor.finish m p src = some m') :
    NoZero m' := by
  cases src with
  | null => simp only [Spec.Dtor.finish, Option.some.injEq] at hf; subst hf; exact h
  | obj o => simp only [Spec.Dtor.finish, Option.some.injEq] at hf; subst hf; exact nozero_write h _ _
  | copy q =>
    simp only [Spec.Dtor.finish, Option.map_eq_some_iff] at hf
    obtain ⟨v, _, rfl⟩ := hf
    exact nozero_write h _ _
  | move q =>
    simp only [Spec.Dtor.finish, Option.map_eq_some_iff] at hf
    obtain ⟨v, _, rfl⟩ := hf
    exact nozero_write (nozero_write h _ _) _ _

theorem bottom_assign {i i' : Spec.Dtor.State} {p : Place} {src : Src} {rest : List Task} (h : NoZero i.mem) (hb : Bottom rest)
    (hs : Spec.Dtor.assign i p src rest = some i') : NoZero i'.mem ∧ Bottom i'.todo := by
  simp only [Spec.Dtor.assign] at hs
  split at hs
  · cases hs
  · simp only [Option.map_eq_some_iff] at hs
    obtain ⟨m, hm, rfl⟩ := hs
    exact ⟨nozero_finish h hm, hb⟩
  · rename_i x hp
    split at hs
    · simp only [Spec.Dtor.destroy] at hs
      split at hs
      · cases hs
      · split at hs
        · cases hs
        · rename_i b hb'
          injection hs with hs; subst hs
          refine ⟨nozero_write h _ _, ⟨fun e => ?_, hb⟩⟩
          exfalso
          have hi : (i.mem.write p none).info x = some (b.cls, b.members.length, b.there) := by
            simp only [Mem.info]; rw [hb']; rfl
          exact nozero_write h p none x _ _ _ hi e
    · simp only [Option.map_eq_some_iff] at hs
      obtain ⟨m, hm, rfl⟩ := hs
      exact ⟨nozero_finish (nozero_write h _ _) hm, hb⟩

theorem bottom_step (P : Program) (hM : NoMain P) {i i' : Spec.Dtor.State} (h : NoZero i.mem) (hb : Bottom i.todo)
    (hs : Spec.Dtor.step P i = some i') : NoZero i'.mem ∧ Bottom i'.todo := by
  obtain ⟨m, T, log⟩ := i
  cases T with
  | nil => simp only [Spec.Dtor.step, Option.some.injEq] at hs; subst hs; exact ⟨h, hb⟩
  | cons t rest =>
    cases t with
    | settle p src => exact bottom_assign (rest := rest) h hb hs
    | members x k =>
      cases k with
      | succ k => exact bottom_assign (rest := .members x k :: rest) h hb hs
      | zero =>
        simp only [Spec.Dtor.step] at hs
        split at hs
        · cases hs
        · rename_i b hb'
          split at hs
          · injection hs with hs; subst hs
            refine ⟨?_, hb⟩
            intro y c n t hi
            have hlt : x < m.objs.length := (List.getElem?_eq_some_iff.mp hb').1
            simp only [Mem.info] at hi
            by_cases e : x = y
            · subst e
              rw [List.getElem?_set_self hlt] at hi
              simp only [Option.map_some, Option.some.injEq, Prod.mk.injEq] at hi
              rw [← hi.1]
              exact h x b.cls b.members.length b.there (by simp [Mem.info, hb'])
            · rw [List.getElem?_set_ne e] at hi
              exact h y c n t hi
          · cases hs
    | body this cls obs =>
      simp only [Spec.Dtor.step] at hs
      split at hs
      · injection hs with hs; subst hs; exact ⟨h, hb.2⟩
      · rename_i c hc
        have hb' : ∀ o, Bottom (.body this cls o :: rest) := fun _ => hb
        cases c with
        | make r k =>
          simp only [Spec.Dtor.perform] at hs
          split at hs
          · cases hs
          · refine bottom_assign ?_ (hb' _) hs
            intro y c n t hi
            have hi : (m.add ⟨k, List.replicate (P.size k) none, true⟩).info y = some (c, n, t) := hi
            rw [info_add] at hi
            split at hi
            · simp only [Option.some.injEq, Prod.mk.injEq] at hi
              rw [← hi.1]; exact hM cls obs r k hc
            · exact h y c n t hi
        | copy r q =>
          simp only [Spec.Dtor.perform] at hs
          split at hs
          · split at hs
            · injection hs with hs; subst hs; exact ⟨h, hb' _⟩
            · exact bottom_assign h (hb' _) hs
          · cases hs
        | move r q =>
          simp only [Spec.Dtor.perform] at hs
          split at hs
          · split at hs
            · injection hs with hs; subst hs; exact ⟨h, hb' _⟩
            · exact bottom_assign h (hb' _) hs
          · cases hs
        | null r =>
          simp only [Spec.Dtor.perform] at hs
          split at hs
          · cases hs
          · exact bottom_assign h (hb' _) hs
        | test r =>
          simp only [Spec.Dtor.perform] at hs
          split at hs
          · cases hs
          · split at hs
            · cases hs
            · injection hs with hs; subst hs; exact ⟨h, hb' _⟩

theorem own_polite (P : Program) (hO : OwnOnly P) (hM : NoMain P) (k : Nat) {i : Spec.Dtor.State}
    (hI : Inv i.mem i.todo i.log) (h : NoZero i.mem) (hb : Bottom i.todo) : PoliteRun P k i := by
  induction k generalizing i with
  | zero => trivial
  | succ k ih =>
    refine ⟨?_, fun s' hs => ih (hI.step P hs) (bottom_step P hM h hb hs).1 (bottom_step P hM h hb hs).2⟩
    intro this cls obs rest c ht hc r hr q hq
    have hpos := hI.pos
    rw [ht] at hpos hb
    by_cases e : cls = 0
    · rw [hb.1 e]; simp [busy]
    · obtain ⟨j, rfl⟩ := hO cls obs c e hc r hr
      simp only [Mem.touched, Mem.place] at hq
      cases this with
      | none => simp at hq
      | some o =>
        simp only [Option.map_some, Option.toList_some, List.mem_singleton] at hq
        subst hq
        exact hpos.1 o rfl j

end PtrDtor

/-- Programs whose destructors use only the members of the object that is destroyed run as they should, whatever the main
function does and however these members change. -/
theorem C106_own_partial (P : Program) (hO : OwnOnly P) (hM : NoMain P) (n k : Nat) (i : Spec.Dtor.State)
    (hr : run P k (start n) = some i) :
    ∃ s, PtrDtor.run P k (PtrDtor.start n) = some s ∧ s.todo = i.todo ∧ s.log = i.log ∧
      ∀ q, q ∉ busy i.todo → s.mem.read q = i.mem.read q :=
  C106_run_partial P n k i hr
    (PtrDtor.own_polite P hO hM k (Inv.start n) (by intro x c m t hi; simp [start, Mem.info] at hi)
      (by simp [start, PtrDtor.Bottom]))

/-! ## Pointers that are being assigned -/

/-- After a run as above, a statement that assigns a pointer that is being assigned is undefined behaviour, and so is copying
such a pointer to a null pointer: the counter was deleted before the destructor was called. -/
theorem C106_busy_undefined (P : Program) (n k : Nat) (i : Spec.Dtor.State) (hr : run P k (start n) = some i)
    (hp : PoliteRun P k (start n)) :
    ∃ s, PtrDtor.run P k (PtrDtor.start n) = some s ∧
      ∀ this cls obs rest, s.todo = .body this cls obs :: rest → ∀ r p, s.mem.place this r = some p →
        (p ∈ busy rest → P.code cls obs = some (.null r) ∨ (∃ c, P.code cls obs = some (.make r c)) ∨
          (∃ m q, s.mem.place this m = some q ∧ p ≠ q ∧
            (P.code cls obs = some (.copy r m) ∨ P.code cls obs = some (.move r m))) → PtrDtor.step P s = none) ∧
        (s.mem.read p = some none → ∀ m q, s.mem.place this m = some q → q ∈ busy rest →
          P.code cls obs = some (.copy r m) → PtrDtor.step P s = none) := by
  obtain ⟨I, s, h, R⟩ := PtrDtor.sim_start P n k hp hr
  refine ⟨s, h, ?_⟩
  intro this cls obs rest ht r p hpl
  have hT := R.todo
  rw [ht] at hT
  have hB : busy i.todo = busy rest := by rw [← hT, busy_body]
  have hdang : ∀ q ∈ busy rest, ∀ v, s.mem.read q = some v → ∃ x, v = some x ∧ x < s.counters.length ∧ s.counters[x]? = some none := by
    intro q hq v hv
    obtain ⟨x, e, hd⟩ := R.rel.dangling q (by rw [hB]; exact hq) v hv
    have hx := (I.dead x hd).1
    refine ⟨x, e, by rw [R.rel.counters]; exact hx, ?_⟩
    rw [R.rel.count x hx, if_pos hd]
  have hassign : p ∈ busy rest → ∀ src T, PtrDtor.assign s p src T = none := by
    intro hb src T
    simp only [PtrDtor.assign]
    cases e : s.mem.read p with
    | none => rfl
    | some v =>
      obtain ⟨x, rfl, _, hc⟩ := hdang p hb v e
      simp only [hc]
  constructor
  · rintro hb (hc | ⟨c, hc⟩ | ⟨m, q, hm, hne, hc | hc⟩)
    · simp only [PtrDtor.step, ht, hc, PtrDtor.perform, hpl]
      exact hassign hb _ _
    · simp only [PtrDtor.step, ht, hc, PtrDtor.perform, hpl]
      simp only [PtrDtor.assign]
      have hrd : (s.mem.add ⟨c, List.replicate (P.size c) none, true⟩).read p = s.mem.read p := by
        cases p with
        | var j => rfl
        | mem x j =>
          have hx := R.rel.inside x j (by rw [hB]; exact hb)
          rw [read_mem, info_add, val_add, if_neg (by rw [R.rel.objs]; omega), if_neg (by rw [R.rel.objs]; omega), ← read_mem]
      simp only [Mem.add] at hrd
      rw [hrd]
      cases e : s.mem.read p with
      | none => rfl
      | some v =>
        obtain ⟨x, rfl, hx, hc'⟩ := hdang p hb v e
        simp only [List.getElem?_append_left hx, hc']
    · simp only [PtrDtor.step, ht, hc, PtrDtor.perform, hpl, hm, if_neg hne]
      exact hassign hb _ _
    · simp only [PtrDtor.step, ht, hc, PtrDtor.perform, hpl, hm, if_neg hne]
      exact hassign hb _ _
  · intro hn m q hm hb hc
    have hne : p ≠ q := by
      rintro rfl
      obtain ⟨x, e, _⟩ := hdang p hb _ hn
      cases e
    simp only [PtrDtor.step, ht, hc, PtrDtor.perform, hpl, hm, if_neg hne, PtrDtor.assign, hn, PtrDtor.finish]
    cases e : s.mem.read q with
    | none => rfl
    | some v =>
      obtain ⟨x, rfl, _, hc'⟩ := hdang q hb v e
      simp [PtrDtor.inc, hc']

/-! ## Violations -/

namespace PtrDtor

/-- `a = new C; a = nullptr;` where the destructor of `C` does `c` -/
def resetWith (c : Cmd) : Program where
  size _ := 0
  code
    | 0, [] => some (.make (.var 0) 1)
    | 0, [_] => some (.null (.var 0))
    | 1, [] => some c
    | _, _ => none

end PtrDtor

/-- `b = a;` in the destructor of the object that `a = nullptr` lets go of: the null pointer `a` should be copied, but the deleted
counter is used. -/
theorem C106_violated_copy :
    (run (PtrDtor.resetWith (.copy (.var 1) (.var 0))) 9 (start 2)).isSome ∧
      PtrDtor.run (PtrDtor.resetWith (.copy (.var 1) (.var 0))) 3 (PtrDtor.start 2) = none := by
  decide +kernel

/-- So does `a = nullptr;` in the destructor. -/
theorem C106_violated_null :
    (run (PtrDtor.resetWith (.null (.var 0))) 9 (start 2)).isSome ∧
      PtrDtor.run (PtrDtor.resetWith (.null (.var 0))) 3 (PtrDtor.start 2) = none := by
  decide +kernel

/-- `b = std::move(a);` in the destructor: `b` should be null, but it holds the deleted object when the program has ended, so that
its destruction will be undefined behaviour. -/
theorem C106_violated_move :
    (run (PtrDtor.resetWith (.move (.var 1) (.var 0))) 9 (start 2)).map (fun s => (s.todo, s.mem.read (.var 1))) =
        some ([], some none) ∧
      (PtrDtor.run (PtrDtor.resetWith (.move (.var 1) (.var 0))) 9 (PtrDtor.start 2)).map
        (fun s => (s.todo, s.mem.read (.var 1), s.counters)) = some ([], some (some 0), [none]) := by
  decide +kernel

/-- Looking at `a` in the destructor finds the object that is being deleted. -/
theorem C106_violated_test :
    (run (PtrDtor.resetWith (.test (.var 0))) 9 (start 2)).map (·.log) = some [.dtor 0, .saw none, .free 0] ∧
      (PtrDtor.run (PtrDtor.resetWith (.test (.var 0))) 9 (PtrDtor.start 2)).map (·.log) =
        some [.dtor 0, .saw (some 0), .free 0] := by
  decide +kernel

/-- The full statement is false. -/
theorem C106_violated : ¬ C106_statement := by
  intro h
  obtain ⟨h1, h2⟩ := C106_violated_copy
  have h3 : (run (PtrDtor.resetWith (.copy (.var 1) (.var 0))) 3 (start 2)).isSome := by decide +kernel
  obtain ⟨i, hi⟩ := Option.isSome_iff_exists.mp h3
  obtain ⟨s, hs, _⟩ := h _ 2 3 i hi
  rw [h2] at hs
  cases hs

/-! ## Examples -/

namespace PtrDtor

/-- A program computes whether its next `k` steps are polite. -/
def politeB (P : Program) (s : Spec.Dtor.State) : Bool :=
  match s.todo with
  | .body this cls obs :: rest =>
    match P.code cls obs with
    | some c => c.refs.all fun r => (s.mem.touched this r).all fun q => decide (q ∉ busy rest)
    | none => true
  | _ => true

def politeRunB (P : Program) : Nat → Spec.Dtor.State → Bool
  | 0, _ => true
  | k + 1, s => politeB P s && match Spec.Dtor.step P s with
    | none => true
    | some s' => politeRunB P k s'

theorem politeB_sound {P : Program} {s : Spec.Dtor.State} (h : politeB P s = true) : Polite P s := by
  intro this cls obs rest c ht hc r hr q hq
  simp only [politeB, ht, hc, List.all_eq_true, decide_eq_true_eq] at h
  exact h r hr q hq

theorem politeRunB_sound {P : Program} {k : Nat} {s : Spec.Dtor.State} (h : politeRunB P k s = true) : PoliteRun P k s := by
  induction k generalizing s with
  | zero => trivial
  | succ k ih =>
    simp only [politeRunB, Bool.and_eq_true] at h
    refine ⟨politeB_sound h.1, fun s' hs => ih ?_⟩
    have := h.2
    rw [hs] at this
    exact this

/-- A list of three nodes in variable 0.  The destructor of a node (class 1) looks at its successor and saves it in variable 2. -/
def nodes : Program where
  size _ := 1
  code
    | 0, obs =>
      match obs.length with
      | 0 => some (.make (.var 0) 1)
      | 1 => some (.make (.via (.var 0) 0) 1)
      | 2 => some (.make (.via (.via (.var 0) 0) 0) 1)
      | 3 => some (.null (.var 0))
      | 4 => some (.test (.var 1))
      | 5 => some (.move (.var 1) (.var 2))
      | 6 => some (.null (.var 1))
      | _ => none
    | _, obs =>
      match obs.length with
      | 0 => some (.test (.own 0))
      | 1 => some (.move (.var 2) (.own 0))
      | _ => none

/-- The same where the destructor keeps the successor in another member. -/
def ownNodes : Program where
  size _ := 2
  code
    | 0, obs =>
      match obs.length with
      | 0 => some (.make (.var 0) 1)
      | 1 => some (.make (.via (.var 0) 0) 1)
      | 2 => some (.make (.via (.via (.var 0) 0) 0) 1)
      | 3 => some (.null (.var 0))
      | _ => none
    | _, obs =>
      match obs.length with
      | 0 => some (.move (.own 1) (.own 0))
      | 1 => some (.test (.own 1))
      | _ => none

theorem ownNodes_own : OwnOnly ownNodes := by
  intro cls obs c hc hcode r hr
  cases cls with
  | zero => exact absurd rfl hc
  | succ cls =>
    simp only [ownNodes] at hcode
    split at hcode
    · injection hcode with hcode; subst hcode
      simp only [Cmd.refs, List.mem_cons, List.not_mem_nil, or_false] at hr
      rcases hr with rfl | rfl
      · exact ⟨1, rfl⟩
      · exact ⟨0, rfl⟩
    · injection hcode with hcode; subst hcode
      simp only [Cmd.refs, List.mem_cons, List.not_mem_nil, or_false] at hr
      exact ⟨1, hr⟩
    · cases hcode

theorem ownNodes_noMain : NoMain ownNodes := by
  intro cls obs r k hcode
  cases cls with
  | zero =>
    simp only [ownNodes] at hcode
    split at hcode <;> first | (injection hcode with h; injection h with h1 h2; subst h2; decide) | cases hcode
  | succ cls =>
    simp only [ownNodes] at hcode
    split at hcode <;> first | (injection hcode with h; cases h) | cases hcode

end PtrDtor

/-- a polite run whose destructors use variables of the program -/
example : ∃ s, PtrDtor.run PtrDtor.nodes 40 (PtrDtor.start 3) = some s ∧
    s.log = [.dtor 0, .saw (some 1), .free 0, .saw none, .dtor 1, .saw (some 2), .free 1] := by
  obtain ⟨i, hi⟩ : ∃ i, run PtrDtor.nodes 40 (start 3) = some i :=
    Option.isSome_iff_exists.mp (by decide +kernel)
  obtain ⟨s, h1, _, h2, _⟩ := C106_run_partial _ 3 40 i hi (PtrDtor.politeRunB_sound (by decide +kernel))
  refine ⟨s, h1, ?_⟩
  have : (run PtrDtor.nodes 40 (start 3)).map (·.log) = some [.dtor 0, .saw (some 1), .free 0, .saw none, .dtor 1, .saw (some 2), .free 1] := by decide +kernel
  rw [hi] at this
  rw [h2]
  exact Option.some.inj this

example : ∃ s, PtrDtor.run PtrDtor.ownNodes 40 (PtrDtor.start 1) = some s ∧
    s.log = [.dtor 0, .saw (some 1), .dtor 1, .saw (some 2), .dtor 2, .saw none, .free 2, .free 1, .free 0] := by
  obtain ⟨i, hi⟩ : ∃ i, run PtrDtor.ownNodes 40 (start 1) = some i :=
    Option.isSome_iff_exists.mp (by decide +kernel)
  obtain ⟨s, h1, _, h2, _⟩ := C106_own_partial _ PtrDtor.ownNodes_own PtrDtor.ownNodes_noMain 1 40 i hi
  refine ⟨s, h1, ?_⟩
  have : (run PtrDtor.ownNodes 40 (start 1)).map (·.log) =
    some [.dtor 0, .saw (some 1), .dtor 1, .saw (some 2), .dtor 2, .saw none, .free 2, .free 1, .free 0] := by decide +kernel
  rw [hi] at this
  rw [h2]
  exact Option.some.inj this

/-- the hypotheses of `C106_busy_undefined` are met before the fatal statement of `C106_violated_null` -/
example : PoliteRun (PtrDtor.resetWith (.null (.var 0))) 2 (start 2) ∧
    (run (PtrDtor.resetWith (.null (.var 0))) 2 (start 2)).isSome ∧
    (PtrDtor.run (PtrDtor.resetWith (.null (.var 0))) 2 (PtrDtor.start 2)).map (fun s => (s.todo.head?, busy s.todo)) =
      some (some (.body (some 0) 1 []), [.var 0]) :=
  ⟨PtrDtor.politeRunB_sound (by decide +kernel), by decide +kernel, by decide +kernel⟩

end Vlpp
