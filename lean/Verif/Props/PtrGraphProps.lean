import Verif.Lemmas.PtrGraphSim

/-! # C104: graphs of objects held by `Ptr` and shared by threads -/
set_option autoImplicit false
namespace Vlpp
open Spec.Graph (Op Tree)
open PtrGraph (State Obj Thread run start refs Val measure)

namespace PtrGraph

/-- An object can be reached from the variables of the threads. -/
inductive Reach (s : State) : Nat → Prop
  | var (t : Nat) (th : Thread) (o : Nat) (ht : s.threads[t]? = some th) (ho : some o ∈ th.vars) : Reach s o
  | member (p : Nat) (b : Obj) (o : Nat) (hp : Reach s p) (hb : s.objs[p]? = some b) (ho : some o ∈ b.members) : Reach s o

/-- Pointers to an object in variables and in objects that are not deleted. -/
def pointers (s : State) (o : Nat) : Nat :=
  (s.threads.map fun th => th.vars.count (some o)).sum + (s.objs.map fun b => if b.alive then b.members.count (some o) else 0).sum

theorem Inv.reach {s : State} (h : Inv s) {o : Nat} (hr : Reach s o) : 0 < refs s o := by
  induction hr with
  | var t th o ht ho => exact refs_var ht ho
  | member p b o _ hb ho ih =>
    obtain ⟨b', hb', ha, _⟩ := h.live ih
    rw [hb] at hb'
    cases hb'
    exact refs_member hb ha ho

theorem refs_idle {s : State} (hi : Idle s) (o : Nat) : refs s o = pointers s o := by
  unfold refs pointers Pointer.sumBy
  congr 2
  refine List.map_congr_left fun th hth => ?_
  simp [own, hi th hth]

theorem idle_pending {s : State} (hi : Idle s) (k : Task) : pending k s = 0 := by
  refine Classical.byContradiction fun hc => ?_
  obtain ⟨i, th, h1, h2⟩ := (Pointer.sumBy_pos _ _).mp (Nat.pos_of_ne_zero hc)
  rw [hi th (List.mem_of_getElem? h1)] at h2
  simp at h2

theorem Inv.alive_reach {s : State} (h : Inv s) (hi : Idle s) :
    ∀ (n o : Nat), s.objs.length ≤ o + n → ∀ b : Obj, s.objs[o]? = some b → b.alive = true → Reach s o := by
  intro n
  induction n with
  | zero =>
    intro o hn b hb
    have := (List.getElem?_eq_some_iff.mp hb).1
    omega
  | succ n ih =>
    intro o hn b hb ha
    have ho := h.obj o
    rw [hb, idle_pending hi, idle_pending hi] at ho
    have hpos : 0 < refs s o := by
      rcases ho with ⟨a1, a2, a3, a4, a5⟩ | ⟨a1, a2, a3, a4, a5⟩ | ⟨a1, a2, a3, a4, a5⟩ | ⟨a1, a2, a3, a4, a5⟩
      · exact a3
      · omega
      · omega
      · rw [ha] at a1; cases a1
    unfold refs at hpos
    by_cases h1 : 0 < Pointer.sumBy (own o) s.threads
    · obtain ⟨t, th, ht, hc⟩ := (Pointer.sumBy_pos _ _).mp h1
      refine .var t th o ht (List.count_pos_iff.mp ?_)
      simpa [own, hi th (List.mem_of_getElem? ht)] using hc
    · obtain ⟨p, c, hp, hc⟩ := (Pointer.sumBy_pos _ _).mp (show 0 < Pointer.sumBy (inside o) s.objs by omega)
      unfold inside at hc
      split at hc
      · rename_i hca
        have hm := List.count_pos_iff.mp hc
        have := h.down p c o hp hm
        exact .member p c o (ih p (by omega) c hp hca) hp hm
      · omega

theorem abs_start (val : Nat → Tree) (ths : List (Nat × List Op)) : abs val (start ths) = Spec.Graph.start ths := by
  simp only [abs, start, Spec.Graph.start, List.map_map]
  refine List.map_congr_left fun p _ => ?_
  simp [absT, settle, vals]

end PtrGraph
open PtrGraph (Reach pointers Idle)

/-- **C104**, the full statement: no program of threads that share immutable objects is undefined. -/
def C104_statement : Prop := ∀ (ths : List (Nat × List Op)) (ts : List Nat), ∃ s, run (start ths) ts = some s

/-- Programs without `p = p->member` never use a deleted counter or object, whatever the schedule. -/
theorem C104_defined_partial (ths : List (Nat × List Op)) (hg : ∀ p ∈ ths, ∀ op ∈ p.2, op.Good) (ts : List Nat) :
    ∃ s, run (start ths) ts = some s :=
  let ⟨s, h, _⟩ := PtrGraph.run_inv (PtrGraph.start_inv ths hg) ts
  ⟨s, h⟩

theorem PtrGraph.reached {ths : List (Nat × List Op)} (hg : ∀ p ∈ ths, ∀ op ∈ p.2, op.Good) {ts : List Nat} {s : State}
    (hr : run (start ths) ts = some s) : PtrGraph.Inv s := by
  obtain ⟨s', h1, h2⟩ := PtrGraph.run_inv (PtrGraph.start_inv ths hg) ts
  rw [h1] at hr
  cases hr
  exact h2

/-- At every moment, what can be reached from a variable is there and has a counter. -/
theorem C104_alive_partial (ths : List (Nat × List Op)) (hg : ∀ p ∈ ths, ∀ op ∈ p.2, op.Good) (ts : List Nat) (s : State)
    (hr : run (start ths) ts = some s) (o : Nat) (ho : Reach s o) :
    ∃ b n, s.objs[o]? = some b ∧ b.alive = true ∧ b.counter = some n ∧ (pointers s o : Int) ≤ n ∧ 0 < n := by
  have h := PtrGraph.reached hg hr
  have hpos := h.reach ho
  obtain ⟨b, hb, ha, hc, _⟩ := h.live hpos
  refine ⟨b, _, hb, ha, hc, ?_, by omega⟩
  have : pointers s o ≤ refs s o := by
    unfold pointers refs Pointer.sumBy
    have : (s.threads.map fun th => th.vars.count (some o)).sum ≤ (s.threads.map (PtrGraph.own o)).sum := by
      generalize s.threads = L
      induction L with
      | nil => simp
      | cons a L ih => simp only [List.map_cons, List.sum_cons, PtrGraph.own]; omega
    have e : (fun b : Obj => if b.alive then b.members.count (some o) else 0) = PtrGraph.inside o := rfl
    rw [e]
    omega
  omega

/-- Between operations, an object is there if and only if it can be reached, and its counter is the number of pointers to
it; every other object and its counter are deleted. -/
theorem C104_exact_partial (ths : List (Nat × List Op)) (hg : ∀ p ∈ ths, ∀ op ∈ p.2, op.Good) (ts : List Nat) (s : State)
    (hr : run (start ths) ts = some s) (hi : Idle s) (o : Nat) (b : Obj) (hb : s.objs[o]? = some b) :
    (Reach s o → b.alive = true ∧ b.counter = some (pointers s o : Int)) ∧
    (¬ Reach s o → b.alive = false ∧ b.counter = none) := by
  have h := PtrGraph.reached hg hr
  constructor
  · intro ho
    obtain ⟨b', hb', ha, hc, _⟩ := h.live (h.reach ho)
    rw [hb] at hb'
    cases hb'
    rw [← PtrGraph.refs_idle hi]
    exact ⟨ha, hc⟩
  · intro ho
    have hob := h.obj o
    rw [hb] at hob
    have hd : b.alive = false := by
      cases ha : b.alive with
      | false => rfl
      | true => exact absurd (h.alive_reach hi s.objs.length o (by omega) b hb ha) ho
    rcases hob with ⟨a1, _⟩ | ⟨a1, _⟩ | ⟨a1, _⟩ | ⟨_, a2, _⟩
    · rw [hd] at a1; cases a1
    · rw [hd] at a1; cases a1
    · rw [hd] at a1; cases a1
    · exact ⟨hd, a2⟩

/-- When all variables are null, all objects and counters are deleted. -/
theorem C104_no_leak_partial (ths : List (Nat × List Op)) (hg : ∀ p ∈ ths, ∀ op ∈ p.2, op.Good) (ts : List Nat)
    (s : State) (hr : run (start ths) ts = some s) (hi : Idle s) (hn : ∀ th ∈ s.threads, ∀ v ∈ th.vars, v = none)
    (o : Nat) (b : Obj) (hb : s.objs[o]? = some b) : b.alive = false ∧ b.counter = none := by
  refine (C104_exact_partial ths hg ts s hr hi o b hb).2 fun ho => ?_
  clear hb
  induction ho with
  | var t th o ht ho => cases hn th (List.mem_of_getElem? ht) _ ho
  | member p c o _ hc ho ih => exact ih

/-- A thread that goes on finishes its operation, also if it has to delete a whole graph, in at most `measure s` steps of
its own; nothing happens to the other threads. -/
theorem C104_finishes_partial (ths : List (Nat × List Op)) (hg : ∀ p ∈ ths, ∀ op ∈ p.2, op.Good) (ts : List Nat)
    (s : State) (hr : run (start ths) ts = some s) (t : Nat) (th : Thread) (ht : s.threads[t]? = some th) :
    ∃ (n : Nat) (s' : State) (th' : Thread), n ≤ measure s ∧ run s (List.replicate n t) = some s' ∧
      s'.threads = s.threads.set t th' ∧ th'.todo = [] ∧ th'.prog = th.prog ∧ th'.obs = th.obs := by
  obtain ⟨n, s', vars', h1, h2, _, h4, _⟩ := PtrGraph.finish (PtrGraph.reached hg hr) ht
  exact ⟨n, s', _, h1, h2, h4, rfl, rfl, rfl⟩

/-- Every execution is one of the specification, where variables are whole trees and operations happen at once: the threads
have seen the same, and a thread between two operations has the same values in its variables. -/
theorem C104_refines_partial (ths : List (Nat × List Op)) (hg : ∀ p ∈ ths, ∀ op ∈ p.2, op.Good) (ts : List Nat)
    (s : State) (hr : run (start ths) ts = some s) :
    ∃ (us : List Nat) (val : Nat → Tree), us.Sublist ts ∧ Val s.objs val ∧
      (Spec.Graph.run (Spec.Graph.start ths) us).length = s.threads.length ∧
      ∀ (t : Nat) (th : Thread), s.threads[t]? = some th →
        ∃ sth, (Spec.Graph.run (Spec.Graph.start ths) us)[t]? = some sth ∧ sth.obs = th.obs ∧ sth.prog = th.prog ∧
          (th.todo = [] → sth.vars = th.vars.map (Option.map val)) := by
  obtain ⟨val, us, h1, h2, h3⟩ := PtrGraph.run_sim (PtrGraph.start_inv ths hg) (val := fun _ => .node 0 [])
    (by intro o b hb; simp [start] at hb) hr
  rw [PtrGraph.abs_start] at h3
  refine ⟨us, val, h2, h1, by rw [← h3]; simp [PtrGraph.abs], ?_⟩
  intro t th ht
  refine ⟨_, by rw [← h3]; exact PtrGraph.abs_get val ht, rfl, rfl, ?_⟩
  intro h0
  simp only [PtrGraph.absT, h0]
  rfl

/-- Every execution of the specification is possible. -/
theorem C104_complete_partial (ths : List (Nat × List Op)) (hg : ∀ p ∈ ths, ∀ op ∈ p.2, op.Good) (us : List Nat) :
    ∃ (ts : List Nat) (s : State) (val : Nat → Tree), run (start ths) ts = some s ∧ Idle s ∧ Val s.objs val ∧
      Spec.Graph.run (Spec.Graph.start ths) us = s.threads.map fun th => ⟨th.vars.map (Option.map val), th.prog, th.obs⟩ := by
  obtain ⟨ts, s, val, h1, _, h3, h4, h5⟩ := PtrGraph.complete (PtrGraph.start_inv ths hg)
    (by intro th hth; obtain ⟨p, _, rfl⟩ := List.mem_map.mp hth; rfl) (val := fun _ => .node 0 [])
    (by intro o b hb; simp [start] at hb) us
  rw [PtrGraph.abs_start] at h5
  refine ⟨ts, s, val, h1, h3, h4, ?_⟩
  rw [← h5]
  refine List.map_congr_left fun th hth => ?_
  simp only [PtrGraph.absT, h3 th hth]
  rfl

/-! ## `p = p->member` -/

/-- A list of two nodes and `p = p->next`: thread 0 has the only pointer to the first node. -/
def PtrGraph.walk : List (Nat × List Op) := [(2, [.make 0 7 [], .make 1 8 [0], .member 1 1 0, .read 1])]

/-- The same, but another thread holds the first node for a while. -/
def PtrGraph.walkShared : List (Nat × List Op) :=
  [(3, [.make 0 7 [], .make 1 8 [0], .assign 2 1, .give 2 1 0, .member 1 1 0, .read 1]), (1, [.clear 0])]

/-- `p = p->next` deletes the node before its member is read. -/
theorem C104_violated_own_member : run (start PtrGraph.walk) (List.replicate 10 0) = none ∧
    ∃ th, (Spec.Graph.run (Spec.Graph.start PtrGraph.walk) (List.replicate 4 0))[0]? = some th ∧ th.obs = [some 7] := by
  refine ⟨by decide +kernel, ?_⟩
  exact ⟨_, rfl, by decide +kernel⟩

theorem C104_violated : ¬ C104_statement := by
  intro h
  obtain ⟨s, hs⟩ := h PtrGraph.walk (List.replicate 10 0)
  rw [C104_violated_own_member.1] at hs
  cases hs

/-- Whether `p = p->next` is undefined depends on when another thread releases its pointer. -/
theorem C104_violated_race :
    ((run (start PtrGraph.walkShared) (List.replicate 11 0)).map fun s => s.threads.map (·.obs)) = some [[some 7], []] ∧
    run (start PtrGraph.walkShared) ([0, 0, 0, 0, 0, 0, 1, 1] ++ List.replicate 8 0) = none := by
  refine ⟨by decide +kernel, by decide +kernel⟩

/-! ## Cases -/

/-- Two threads share a node, and each releases it: the second release deletes both nodes. -/
def PtrGraph.sharing : List (Nat × List Op) :=
  [(3, [.make 0 7 [], .make 1 8 [0], .assign 2 1, .give 2 1 0, .member 0 1 0, .clear 1, .read 0, .clear 0]),
   (2, [.member 1 0 0, .read 1, .clear 0, .clear 1])]

theorem PtrGraph.sharing_good : ∀ p ∈ PtrGraph.sharing, ∀ op ∈ p.2, op.Good := by
  simp [PtrGraph.sharing, Op.Good]

/-- Thread 1 walks to the second node while thread 0 releases the first. -/
def PtrGraph.sharingRun : List Nat := [0, 0, 0, 0, 0, 0, 1, 0, 1, 0, 1, 0, 0, 0, 1, 1, 1, 0, 0, 1, 1, 1, 1, 1, 1, 0, 0, 1, 1, 1, 1, 0]

example : run (start PtrGraph.sharing) PtrGraph.sharingRun = some
    ⟨[⟨none, false, 7, []⟩, ⟨none, false, 8, [some 0]⟩],
     [{ vars := [none, none, none], prog := [], obs := [some 7] }, { vars := [none, none], prog := [], obs := [some 7] }]⟩ := by
  decide +kernel

example : ∃ s, run (start PtrGraph.sharing) PtrGraph.sharingRun = some s :=
  C104_defined_partial _ PtrGraph.sharing_good _

/-- between operations, with the first node held by both threads -/
def PtrGraph.sharingMid : State :=
  ⟨[⟨some 1, true, 7, []⟩, ⟨some 2, true, 8, [some 0]⟩],
   [{ vars := [none, some 1, none], prog := [.member 0 1 0, .clear 1, .read 0, .clear 0] },
    { vars := [some 1, none], prog := [.member 1 0 0, .read 1, .clear 0, .clear 1] }]⟩

example : run (start PtrGraph.sharing) [0, 0, 0, 0, 0, 0] = some PtrGraph.sharingMid ∧ Idle PtrGraph.sharingMid ∧
    Reach PtrGraph.sharingMid 1 ∧ Reach PtrGraph.sharingMid 0 ∧ pointers PtrGraph.sharingMid 1 = 2 ∧
    pointers PtrGraph.sharingMid 0 = 1 := by
  have h1 : Reach PtrGraph.sharingMid 1 := .var 1 { vars := [some 1, none], prog := _ } 1 rfl (by simp)
  refine ⟨by decide +kernel, by simp [Idle, PtrGraph.sharingMid], h1, ?_, by decide +kernel, by decide +kernel⟩
  exact .member 1 ⟨some 2, true, 8, [some 0]⟩ 0 h1 rfl (by simp)

/-- at this moment thread 0 has a pointer to the second node to release, and thread 1 has released its own -/
example : ((run (start PtrGraph.sharing) (PtrGraph.sharingRun.take 22)).map fun s => s.threads.map (·.todo)) =
    some [[.dec 0], []] := by decide +kernel

end Vlpp
