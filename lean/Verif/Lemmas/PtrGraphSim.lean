import Verif.Lemmas.PtrGraph

/-! # Object graphs in threads: values, termination -/
set_option autoImplicit false
namespace Vlpp
namespace PtrGraph
open Pointer (sumBy sumBy_set sumBy_pos sumBy_nil sumBy_cons sumBy_append sumBy_zero_mem)
open Spec.Graph (Op takeAll Tree)

/-! ## Values -/

/-- `val` gives the tree of every object. -/
def Val (objs : List Obj) (val : Nat → Tree) : Prop :=
  ∀ (o : Nat) (b : Obj), objs[o]? = some b → val o = .node b.tag (b.members.map (Option.map val))

/-- The variables when everything that is to be done is done. -/
def settle (val : Nat → Tree) : List (Option Tree) → List Task → List (Option Tree)
  | vs, [] => vs
  | vs, .dec _ :: r => settle val vs r
  | vs, .delCounter _ :: r => settle val vs r
  | vs, .delObject _ :: r => settle val vs r
  | vs, .inc o v :: r => settle val (vs.set v (some (val o))) r
  | vs, .fetch w v :: r => settle val (vs.set v (look vs w)) r
  | vs, .fetchMember p j v :: r => settle val (vs.set v (look (val p).members j)) r
  | vs, .take w v :: r => settle val ((vs.set v (look vs w)).set w none) r

/-- the values of variables -/
def vals (val : Nat → Tree) (vars : List (Option Nat)) : List (Option Tree) := vars.map (Option.map val)

/-- the thread of the specification -/
def absT (val : Nat → Tree) (th : Thread) : Spec.Graph.Thread := ⟨settle val (vals val th.vars) th.todo, th.prog, th.obs⟩

def abs (val : Nat → Tree) (s : State) : List Spec.Graph.Thread := s.threads.map (absT val)

theorem look_vals (val : Nat → Tree) (vars : List (Option Nat)) (w : Nat) :
    look (vals val vars) w = (look vars w).map val := by
  simp only [look, vals, List.getElem?_map]
  cases vars[w]? with
  | none => rfl
  | some x => cases x <;> rfl

theorem vals_set (val : Nat → Tree) (vars : List (Option Nat)) (v : Nat) (x : Option Nat) :
    vals val (vars.set v x) = (vals val vars).set v (x.map val) := by
  simp [vals, List.map_set]

theorem set_same {α : Type} (L : List α) (t : Nat) (a : α) (h : L[t]? = some a) : L.set t a = L := by
  obtain ⟨hl, he⟩ := List.getElem?_eq_some_iff.mp h
  rw [← he, List.set_getElem_self]

theorem set_null {α : Type} (vs : List (Option α)) (v : Nat) (h : look vs v = none) : vs.set v none = vs := by
  by_cases hv : v < vs.length
  · exact set_same _ _ _ (by rw [look_lt hv, h])
  · exact List.set_eq_of_length_le (by omega)

theorem settle_decs (val : Nat → Tree) (vs : List (Option Tree)) (ms : List (Option Nat)) (ks : List Task) :
    settle val vs (ms.flatMap decOf ++ ks) = settle val vs ks := by
  induction ms with
  | nil => rfl
  | cons a ms ih => cases a <;> simpa [decOf, settle] using ih

theorem settle_decOf (val : Nat → Tree) (vs : List (Option Tree)) (y : Option Nat) (ks : List Task) :
    settle val vs (decOf y ++ ks) = settle val vs ks := by
  simpa using settle_decs val vs [y] ks

theorem takeAll_vals (val : Nat → Tree) (vars : List (Option Nat)) (ms : List Nat) :
    takeAll (vals val vars) ms = (vals val (takeAll vars ms).1, vals val (takeAll vars ms).2) := by
  induction ms generalizing vars with
  | nil => rfl
  | cons m ms ih =>
    have h1 := vals_set val vars m none
    have h2 : ((vals val vars)[m]?).join = ((vars[m]?).join).map val := look_vals val vars m
    simp only [Option.map_none] at h1
    simp only [takeAll, ← h1, ih, h2]
    rfl

theorem Val.set {objs : List Obj} {val : Nat → Tree} (h : Val objs val) {o : Nat} {b b' : Obj} (hb : objs[o]? = some b)
    (h1 : b'.tag = b.tag) (h2 : b'.members = b.members) : Val (objs.set o b') val := by
  intro p c hc
  by_cases e : o = p
  · subst e
    obtain ⟨hl, _⟩ := List.getElem?_eq_some_iff.mp hb
    simp [hl] at hc
    subst hc
    rw [h1, h2]
    exact h o b hb
  · rw [List.getElem?_set_ne e] at hc
    exact h p c hc

theorem abs_setThread (val : Nat → Tree) (s : State) (t : Nat) (th : Thread) :
    abs val (s.setThread t th) = (abs val s).set t (absT val th) := by
  simp [abs, State.setThread, List.map_set]

theorem abs_get (val : Nat → Tree) {s : State} {t : Nat} {th : Thread} (h : s.threads[t]? = some th) :
    (abs val s)[t]? = some (absT val th) := by
  simp [abs, h]

theorem abs_same (val : Nat → Tree) {s : State} {t : Nat} {th th' : Thread} (h : s.threads[t]? = some th)
    (he : absT val th' = absT val th) : abs val (s.setThread t th') = abs val s := by
  rw [abs_setThread, he]
  exact set_same _ _ _ (abs_get val h)

/-! ## Tasks -/

/-- What a thread has still to do. -/
def weight : Task → Nat
  | .dec _ => 2
  | .delCounter _ => 1
  | .delObject _ => 0
  | .inc _ _ => 1
  | .fetch _ _ => 2
  | .fetchMember _ _ _ => 2
  | .take _ _ => 1

/-- What deleting an object can bring. -/
def mass (b : Obj) : Nat := if b.alive then 1 + 2 * b.members.length else 0

/-- A bound for the steps until the operations that have begun are finished. -/
def measure (s : State) : Nat := sumBy mass s.objs + sumBy (fun th => sumBy weight th.todo) s.threads

theorem weight_decs (ms : List (Option Nat)) : sumBy weight (ms.flatMap decOf) ≤ 2 * ms.length := by
  induction ms with
  | nil => simp
  | cons a ms ih =>
    rw [List.flatMap_cons, sumBy_append]
    cases a <;> simp [decOf, weight] <;> omega

theorem measure_setThread {s : State} {t : Nat} {th th' : Thread} (h : s.threads[t]? = some th) :
    measure (s.setThread t th') + sumBy weight th.todo = measure s + sumBy weight th'.todo := by
  have := sumBy_set (fun (th : Thread) => sumBy weight th.todo) s.threads t th th' h
  simp only [measure, State.setThread]
  omega

theorem measure_setObj {s : State} {o : Nat} {b b' : Obj} (h : s.objs[o]? = some b) :
    measure (s.setObj o b') + mass b = measure s + mass b' := by
  have := sumBy_set mass s.objs o b b' h
  simp only [measure, State.setObj]
  omega

/-- A task: the values stay, there is less to do, and nothing else happens to the thread or to others. -/
theorem perform_sim {s s' : State} (h : Inv s) {t : Nat} {vars : List (Option Nat)} {prog : List Op} {k : Task}
    {ks : List Task} {obs : List (Option Nat)} (ht : s.threads[t]? = some ⟨vars, prog, k :: ks, obs⟩)
    (hp : perform s t ⟨vars, prog, ks, obs⟩ k = some s') :
    (∀ val, Val s.objs val → Val s'.objs val ∧ abs val s' = abs val s) ∧ measure s' < measure s ∧
      ∃ vars' ks', s'.threads = s.threads.set t ⟨vars', prog, ks', obs⟩ := by
  have hk := h.todo _ (List.mem_of_getElem? ht)
  simp only at hk
  cases k with
  | dec o =>
    simp only [perform] at hp
    cases hb : s.objs[o]? with
    | none => simp [hb] at hp
    | some b =>
      cases hc : b.counter with
      | none => simp [hb, hc] at hp
      | some n =>
        simp only [hb, hc, Option.some.injEq] at hp
        subst hp
        have ht' : (s.setObj o { b with counter := some (n - 1) }).threads[t]? = _ := ht
        refine ⟨fun val hv => ⟨hv.set hb rfl rfl, ?_⟩, ?_, _, _, rfl⟩
        · refine (abs_same val ht' ?_)
          split <;> rfl
        · have e1 := measure_setObj (b' := { b with counter := some (n - 1) }) hb
          have e2 := measure_setThread ht' (th' := ⟨vars, prog, if n - 1 = 0 then .delCounter o :: ks else ks, obs⟩)
          have e3 : mass { b with counter := some (n - 1) } = mass b := rfl
          have e4 : sumBy weight (if n - 1 = 0 then .delCounter o :: ks else ks) ≤ 1 + sumBy weight ks := by
            split <;> simp [weight]
          simp only [sumBy_cons, weight] at e2
          omega
  | delCounter o =>
    simp only [perform] at hp
    cases hb : s.objs[o]? with
    | none => simp [hb] at hp
    | some b =>
      cases hc : b.counter with
      | none => simp [hb, hc] at hp
      | some n =>
        simp only [hb, hc, Option.some.injEq] at hp
        subst hp
        have ht' : (s.setObj o { b with counter := none }).threads[t]? = _ := ht
        refine ⟨fun val hv => ⟨hv.set hb rfl rfl, abs_same val ht' rfl⟩, ?_, _, _, rfl⟩
        have e1 := measure_setObj (b' := { b with counter := none }) hb
        have e2 := measure_setThread ht' (th' := ⟨vars, prog, .delObject o :: ks, obs⟩)
        have e3 : mass { b with counter := none } = mass b := rfl
        simp only [sumBy_cons, weight] at e2
        omega
  | delObject o =>
    simp only [perform] at hp
    cases hb : s.objs[o]? with
    | none => simp [hb] at hp
    | some b =>
      cases ha : b.alive with
      | false => simp [hb, ha] at hp
      | true =>
        simp only [hb, ha, if_true, Option.some.injEq] at hp
        subst hp
        have ht' : (s.setObj o { b with alive := false }).threads[t]? = _ := ht
        refine ⟨fun val hv => ⟨hv.set hb rfl rfl, abs_same val ht' ?_⟩, ?_, _, _, rfl⟩
        · simp only [absT, settle_decs]
          rfl
        · have e1 := measure_setObj (b' := { b with alive := false }) hb
          have e2 := measure_setThread ht' (th' := ⟨vars, prog, b.members.reverse.flatMap decOf ++ ks, obs⟩)
          have e3 : mass { b with alive := false } = 0 := rfl
          have e4 : mass b = 1 + 2 * b.members.length := by simp [mass, ha]
          have e5 := weight_decs b.members.reverse
          rw [List.length_reverse] at e5
          simp only [sumBy_cons, sumBy_append, weight] at e2
          omega
  | inc o v =>
    simp only [perform] at hp
    cases hb : s.objs[o]? with
    | none => simp [hb] at hp
    | some b =>
      cases hc : b.counter with
      | none => simp [hb, hc] at hp
      | some n =>
        simp only [hb, hc, Option.some.injEq] at hp
        subst hp
        have ht' : (s.setObj o { b with counter := some (n + 1) }).threads[t]? = _ := ht
        refine ⟨fun val hv => ⟨hv.set hb rfl rfl, abs_same val ht' ?_⟩, ?_, _, _, rfl⟩
        · simp only [absT, vals_set, settle, Option.map_some]
        · have e1 := measure_setObj (b' := { b with counter := some (n + 1) }) hb
          have e2 := measure_setThread ht' (th' := ⟨vars.set v (some o), prog, ks, obs⟩)
          have e3 : mass { b with counter := some (n + 1) } = mass b := rfl
          simp only [sumBy_cons, weight] at e2
          omega
  | fetch w v =>
    obtain ⟨rfl, hv, hn⟩ := hk
    have hl := fun val => look_vals val vars w
    have hnull : ∀ val, (vals val vars).set v none = vals val vars := fun val =>
      set_null _ _ (by rw [look_vals, hn]; rfl)
    cases hw : look vars w with
    | none =>
      simp only [perform, Thread.get, show (vars[w]?).join = none from hw, Option.some.injEq] at hp
      subst hp
      refine ⟨fun val hv => ⟨hv, abs_same val ht ?_⟩, ?_, _, _, rfl⟩
      · simp only [absT, settle, hl, hw, Option.map_none, hnull]
      · have e2 := measure_setThread ht (th' := ⟨vars, prog, [], obs⟩)
        simp only [sumBy_cons, sumBy_nil, weight] at e2
        omega
    | some o =>
      simp only [perform, Thread.get, show (vars[w]?).join = some o from hw, Option.some.injEq] at hp
      subst hp
      refine ⟨fun val hv => ⟨hv, abs_same val ht ?_⟩, ?_, _, _, rfl⟩
      · simp only [absT, settle, hl, hw, Option.map_some]
      · have e2 := measure_setThread ht (th' := ⟨vars, prog, [.inc o v], obs⟩)
        simp only [sumBy_cons, sumBy_nil, weight] at e2
        omega
  | fetchMember p j v =>
    obtain ⟨rfl, hv, hn, _⟩ := hk
    simp only [perform] at hp
    cases hb : s.objs[p]? with
    | none => simp [hb] at hp
    | some b =>
      cases ha : b.alive with
      | false => simp [hb, ha] at hp
      | true =>
        simp only [hb, ha, if_true] at hp
        have hnull : ∀ val, (vals val vars).set v none = vals val vars := fun val =>
          set_null _ _ (by rw [look_vals, hn]; rfl)
        have hl : ∀ val, Val s.objs val → look (val p).members j = (look b.members j).map val := by
          intro val hv
          rw [hv p b hb]
          exact look_vals val b.members j
        cases hw : look b.members j with
        | none =>
          simp only [show (b.members[j]?).join = none from hw, Option.some.injEq] at hp
          subst hp
          refine ⟨fun val hv => ⟨hv, abs_same val ht ?_⟩, ?_, _, _, rfl⟩
          · simp only [absT, settle, hl val hv, hw, Option.map_none, hnull]
          · have e2 := measure_setThread ht (th' := ⟨vars, prog, [], obs⟩)
            simp only [sumBy_cons, sumBy_nil, weight] at e2
            omega
        | some o =>
          simp only [show (b.members[j]?).join = some o from hw, Option.some.injEq] at hp
          subst hp
          refine ⟨fun val hv => ⟨hv, abs_same val ht ?_⟩, ?_, _, _, rfl⟩
          · simp only [absT, settle, hl val hv, hw, Option.map_some]
          · have e2 := measure_setThread ht (th' := ⟨vars, prog, [.inc o v], obs⟩)
            simp only [sumBy_cons, sumBy_nil, weight] at e2
            omega
  | take w v =>
    obtain ⟨rfl, hv, hn, hvw⟩ := hk
    simp only [perform, Option.some.injEq] at hp
    subst hp
    refine ⟨fun val hv => ⟨hv, abs_same val ht ?_⟩, ?_, _, _, rfl⟩
    · simp only [absT, vals_set, settle, look_vals, Option.map_none]
      rfl
    · have e2 := measure_setThread ht
        (th' := ⟨(vars.set v (Thread.get ⟨vars, prog, [], obs⟩ w)).set w none, prog, [], obs⟩)
      simp only [sumBy_cons, sumBy_nil, weight] at e2
      omega

/-! ## Operations -/

theorem vals_congr {val val' : Nat → Tree} {n : Nat} (he : ∀ o < n, val' o = val o) {vars : List (Option Nat)}
    (hv : ∀ o, some o ∈ vars → o < n) : vals val' vars = vals val vars := by
  refine List.map_congr_left fun y hy => ?_
  cases y with
  | none => rfl
  | some o => simp [he o (hv o hy)]

theorem settle_congr {val val' : Nat → Tree} {n : Nat} (he : ∀ o < n, val' o = val o) {objs : List Obj}
    {vars : List (Option Nat)} (hv : ∀ o, some o ∈ vars → o < n)
    (hm : ∀ (p : Nat) (b : Obj) (o : Nat), objs[p]? = some b → some o ∈ b.members → o < n) (vs : List (Option Tree)) :
    ∀ {ks : List Task}, TodoOk objs vars ks → settle val' vs ks = settle val vs ks
  | [], _ => rfl
  | .dec _ :: r, h => settle_congr he hv hm vs (ks := r) h
  | .delCounter _ :: r, h => settle_congr he hv hm vs (ks := r) h
  | .delObject _ :: r, h => settle_congr he hv hm vs (ks := r) h
  | .inc o v :: _, ⟨hr, _, _, ho⟩ => by
    subst hr
    have : o < n := ho.elim (hv o) (fun ⟨p, b, _, hb, hmem⟩ => hm p b o hb hmem)
    simp only [settle, he o this]
  | .fetch _ _ :: _, ⟨hr, _⟩ => by
    subst hr
    rfl
  | .fetchMember p _ _ :: _, ⟨hr, _, _, hp⟩ => by
    subst hr
    simp only [settle, he p (hv p hp)]
  | .take _ _ :: _, ⟨hr, _⟩ => by
    subst hr
    rfl

theorem Inv.var_lt {s : State} (h : Inv s) {t : Nat} {th : Thread} (ht : s.threads[t]? = some th) {o : Nat}
    (ho : some o ∈ th.vars) : o < s.objs.length := by
  obtain ⟨b, hb, _⟩ := h.live (refs_var ht ho)
  exact (List.getElem?_eq_some_iff.mp hb).1

theorem Inv.member_lt {s : State} (h : Inv s) {p : Nat} {b : Obj} {o : Nat} (hb : s.objs[p]? = some b)
    (ho : some o ∈ b.members) : o < s.objs.length := by
  have h1 := h.down p b o hb ho
  have h2 := (List.getElem?_eq_some_iff.mp hb).1
  omega

/-- A new object changes no value. -/
theorem abs_congr {s : State} (h : Inv s) {val val' : Nat → Tree} (he : ∀ o < s.objs.length, val' o = val o) :
    abs val' s = abs val s := by
  refine List.map_congr_left fun th hth => ?_
  obtain ⟨t, ht⟩ := List.mem_iff_getElem?.mp hth
  have hv : ∀ o, some o ∈ th.vars → o < s.objs.length := fun o => h.var_lt ht
  simp only [absT, vals_congr he hv, settle_congr he hv (fun p b o => h.member_lt) _ (h.todo th hth)]

theorem spec_step {ths : List Spec.Graph.Thread} {t : Nat} {vs : List (Option Tree)} {op : Op} {prog : List Op}
    {obs : List (Option Nat)} (h : ths[t]? = some ⟨vs, op :: prog, obs⟩) :
    Spec.Graph.step ths t = Spec.Graph.perform ths t ⟨vs, prog, obs⟩ op := by
  simp only [Spec.Graph.step, h]

/-- An operation: the specification does it at once, unless the thread waits. -/
theorem begin_sim {s s' : State} (h : Inv s) {val : Nat → Tree} (hval : Val s.objs val) {t : Nat}
    {vars : List (Option Nat)} {prog : List Op} {op : Op} {obs : List (Option Nat)}
    (ht : s.threads[t]? = some ⟨vars, op :: prog, [], obs⟩) (hp : begin s t ⟨vars, prog, [], obs⟩ op = some s') :
    ∃ val', Val s'.objs val' ∧ (abs val' s' = Spec.Graph.step (abs val s) t ∨
      abs val' s' = abs val s ∧ ∃ th ∈ s.threads, th.todo ≠ []) := by
  have hstep := spec_step (abs_get val ht)
  simp only [settle] at hstep
  rw [hstep]
  have hget : ∀ w, Spec.Graph.Thread.get ⟨vals val vars, prog, obs⟩ w = (look vars w).map val := look_vals val vars
  have hlen : (vals val vars).length = vars.length := by simp [vals]
  have out : ∀ (v : Nat) (y : Option Tree), ¬ v < vars.length → (vals val vars).set v y = vals val vars := fun v y hv =>
    List.set_eq_of_length_le (by omega)
  cases op with
  | make v tag ms =>
    by_cases hc : v < vars.length ∧ look vars v = none
    · rw [show begin s t ⟨vars, prog, [], obs⟩ (.make v tag ms) = _ from if_pos hc, Option.some.injEq] at hp
      subst hp
      have hmem : ∀ m, some m ∈ (takeAll vars ms).1 → m < s.objs.length := by
        intro m hm
        have h1 := List.count_pos_iff.mpr hm
        have h2 := takeAll_count vars ms m
        exact h.var_lt ht (List.count_pos_iff.mp (by simp only; omega))
      have hmem2 : ∀ m, some m ∈ (takeAll vars ms).2 → m < s.objs.length := by
        intro m hm
        have h1 := List.count_pos_iff.mpr hm
        have h2 := takeAll_count vars ms m
        exact h.var_lt ht (List.count_pos_iff.mp (by simp only; omega))
      let val' : Nat → Tree := fun o => if o < s.objs.length then val o else .node tag (vals val (takeAll vars ms).1)
      have he : ∀ o < s.objs.length, val' o = val o := fun o ho => if_pos ho
      have hnew : val' s.objs.length = .node tag (vals val (takeAll vars ms).1) := if_neg (by omega)
      refine ⟨val', ?_, .inl ?_⟩
      · intro o b hb
        have hb' : (s.objs ++ [(⟨some 1, true, tag, (takeAll vars ms).1⟩ : Obj)])[o]? = some b := hb
        by_cases ho : o < s.objs.length
        · rw [List.getElem?_append_left ho] at hb'
          rw [he o ho, hval o b hb']
          exact congrArg _ (vals_congr he (fun m hm => h.member_lt hb' hm)).symm
        · have hl := (List.getElem?_eq_some_iff.mp hb').1
          simp at hl
          have : o = s.objs.length := by omega
          subst this
          simp at hb'
          subst hb'
          rw [hnew]
          exact congrArg _ (vals_congr he hmem).symm
      · have hspec : Spec.Graph.perform (abs val s) t ⟨vals val vars, prog, obs⟩ (.make v tag ms) = _ :=
          if_pos ⟨by simpa only [hlen] using hc.1, by rw [hget, hc.2]; rfl⟩
        rw [hspec]
        have h1 : abs val' ((s.addObj ⟨some 1, true, tag, (takeAll vars ms).1⟩).setThread t
            ⟨(takeAll vars ms).2.set v (some s.objs.length), prog, [], obs⟩) = _ := abs_setThread _ _ _ _
        have h2 : abs val' (s.addObj ⟨some 1, true, tag, (takeAll vars ms).1⟩) = abs val s := abs_congr h he
        refine h1.trans ?_
        rw [h2]
        simp only [absT, settle, vals_set, vals_congr he hmem2, Option.map_some, hnew, takeAll_vals]
    · rw [show begin s t ⟨vars, prog, [], obs⟩ (.make v tag ms) = _ from if_neg hc, Option.some.injEq] at hp
      subst hp
      refine ⟨val, hval, .inl ?_⟩
      have hspec : Spec.Graph.perform (abs val s) t ⟨vals val vars, prog, obs⟩ (.make v tag ms) = _ :=
        if_neg (fun hc' => hc ⟨by simpa only [hlen] using hc'.1, by simpa [hget] using hc'.2⟩)
      rw [hspec]
      exact abs_setThread _ _ _ _
  | assign v w =>
    by_cases hvw : v ≠ w
    · have hspec : Spec.Graph.perform (abs val s) t ⟨vals val vars, prog, obs⟩ (.assign v w) = _ := if_pos hvw
      rw [hspec, hget]
      by_cases hv : v < vars.length
      · rw [show begin s t ⟨vars, prog, [], obs⟩ (.assign v w) = _ from if_pos ⟨hv, hvw⟩, Option.some.injEq] at hp
        subst hp
        refine ⟨val, hval, .inl ((abs_setThread _ _ _ _).trans ?_)⟩
        simp only [absT, settle_decOf, settle, vals_set, look_set_ne _ _ _ _ hvw, look_vals, List.set_set]
      · rw [show begin s t ⟨vars, prog, [], obs⟩ (.assign v w) = _ from if_neg (fun hc => hv hc.1),
          Option.some.injEq] at hp
        subst hp
        refine ⟨val, hval, .inl ((abs_setThread _ _ _ _).trans ?_)⟩
        rw [out v _ hv]
        rfl
    · rw [show begin s t ⟨vars, prog, [], obs⟩ (.assign v w) = _ from if_neg (fun hc => hvw hc.2),
        Option.some.injEq] at hp
      subst hp
      have hspec : Spec.Graph.perform (abs val s) t ⟨vals val vars, prog, obs⟩ (.assign v w) = _ := if_neg hvw
      rw [hspec]
      exact ⟨val, hval, .inl (abs_setThread _ _ _ _)⟩
  | member v w j =>
    cases hw : look vars w with
    | none =>
      simp only [begin, Thread.get, show (vars[w]?).join = none from hw, Option.some.injEq] at hp
      subst hp
      refine ⟨val, hval, .inl ((abs_setThread _ _ _ _).trans ?_)⟩
      simp only [Spec.Graph.perform, hget, hw, Option.map_none]
      rfl
    | some p =>
      simp only [begin, Thread.get, show (vars[w]?).join = some p from hw] at hp
      by_cases hv : v < vars.length
      · rw [if_pos hv, Option.some.injEq] at hp
        subst hp
        refine ⟨val, hval, .inl ((abs_setThread _ _ _ _).trans ?_)⟩
        simp only [Spec.Graph.perform, hget, hw, Option.map_some]
        simp only [absT, settle_decOf, settle, vals_set, List.set_set]
        rfl
      · rw [if_neg hv, Option.some.injEq] at hp
        subst hp
        refine ⟨val, hval, .inl ((abs_setThread _ _ _ _).trans ?_)⟩
        simp only [Spec.Graph.perform, hget, hw, Option.map_some, out v _ hv]
        rfl
  | move v w =>
    by_cases hc : v < vars.length ∧ v ≠ w
    · rw [show begin s t ⟨vars, prog, [], obs⟩ (.move v w) = _ from if_pos hc, Option.some.injEq] at hp
      subst hp
      have hspec : Spec.Graph.perform (abs val s) t ⟨vals val vars, prog, obs⟩ (.move v w) = _ :=
        if_pos ⟨by simpa only [hlen] using hc.1, hc.2⟩
      rw [hspec, hget]
      refine ⟨val, hval, .inl ((abs_setThread _ _ _ _).trans ?_)⟩
      simp only [absT, settle_decOf, settle, vals_set, look_set_ne _ _ _ _ hc.2, look_vals, List.set_set]
    · rw [show begin s t ⟨vars, prog, [], obs⟩ (.move v w) = _ from if_neg hc, Option.some.injEq] at hp
      subst hp
      have hspec : Spec.Graph.perform (abs val s) t ⟨vals val vars, prog, obs⟩ (.move v w) = _ :=
        if_neg (fun hc' => hc ⟨by simpa only [hlen] using hc'.1, hc'.2⟩)
      rw [hspec]
      exact ⟨val, hval, .inl (abs_setThread _ _ _ _)⟩
  | clear v =>
    simp only [begin, Option.some.injEq] at hp
    subst hp
    refine ⟨val, hval, .inl ((abs_setThread _ _ _ _).trans ?_)⟩
    have := fun vs => settle_decOf val vs (look vars v) []
    simp only [List.append_nil] at this
    simp only [absT, Thread.get, Spec.Graph.perform]
    rw [show (vars[v]?).join = look vars v from rfl, this, vals_set]
    rfl
  | read w =>
    cases hw : look vars w with
    | none =>
      simp only [begin, Thread.get, show (vars[w]?).join = none from hw, Option.some.injEq] at hp
      subst hp
      refine ⟨val, hval, .inl ((abs_setThread _ _ _ _).trans ?_)⟩
      simp only [Spec.Graph.perform, hget, hw, Option.map_none]
      rfl
    | some o =>
      obtain ⟨b, hb, ha, _⟩ := h.live (refs_var ht (look_mem hw))
      simp only [begin, Thread.get, show (vars[w]?).join = some o from hw, hb, ha, if_true, Option.some.injEq] at hp
      subst hp
      refine ⟨val, hval, .inl ((abs_setThread _ _ _ _).trans ?_)⟩
      simp only [Spec.Graph.perform, hget, hw, Option.map_some, hval o b hb, Tree.tag]
      rfl
  | give v u x =>
    simp only [begin] at hp
    simp only [Spec.Graph.perform]
    cases hu : s.threads[u]? with
    | none =>
      simp only [hu, Option.some.injEq] at hp
      subst hp
      have : (abs val s)[u]? = none := by simp [abs, hu]
      simp only [this]
      exact ⟨val, hval, .inl (abs_setThread _ _ _ _)⟩
    | some th' =>
      obtain ⟨vars', prog', todo', obs'⟩ := th'
      simp only [hu] at hp
      by_cases hb : todo' = []
      · subst hb
        have hlen' : (vals val vars').length = vars'.length := by simp [vals]
        have hget' : ∀ w, Spec.Graph.Thread.get ⟨vals val vars', prog', obs'⟩ w = (look vars' w).map val :=
          look_vals val vars'
        simp only [abs_get val hu, absT, settle, hget, hget', hlen', Option.map_eq_none_iff]
        by_cases h1 : u = t ∨ ¬ x < vars'.length ∨ look vars v = none
        · rw [if_pos (show u = t ∨ ¬ x < vars'.length ∨ Thread.get ⟨vars, prog, [], obs⟩ v = none from h1),
            Option.some.injEq] at hp
          subst hp
          rw [if_pos h1]
          exact ⟨val, hval, .inl (abs_setThread _ _ _ _)⟩
        · rw [if_neg (show ¬ (u = t ∨ ¬ x < vars'.length ∨ Thread.get ⟨vars, prog, [], obs⟩ v = none) from h1)] at hp
          rw [if_neg h1]
          by_cases h2 : look vars' x = none
          · rw [if_pos ⟨rfl, h2⟩, Option.some.injEq] at hp
            subst hp
            rw [if_pos h2]
            refine ⟨val, hval, .inl ((abs_setThread _ _ _ _).trans ?_)⟩
            rw [abs_setThread]
            simp only [absT, settle, vals_set]
            rfl
          · rw [if_neg (fun hc => h2 hc.2), Option.some.injEq] at hp
            subst hp
            rw [if_neg h2]
            exact ⟨val, hval, .inl rfl⟩
      · by_cases h1 : u = t ∨ ¬ x < vars'.length ∨ look vars v = none
        · rw [if_pos (show u = t ∨ ¬ x < vars'.length ∨ Thread.get ⟨vars, prog, [], obs⟩ v = none from h1),
            Option.some.injEq] at hp
          subst hp
          have hl : ∀ (vs : List (Option Tree)) (ks : List Task), (settle val vs ks).length = vs.length := by
            intro vs ks
            induction ks generalizing vs with
            | nil => rfl
            | cons k ks ih => cases k <;> simp [settle, ih]
          have hlen' : (settle val (vals val vars') todo').length = vars'.length := by simp [hl, vals]
          simp only [abs_get val hu, absT, hget, hlen', Option.map_eq_none_iff]
          rw [if_pos h1]
          exact ⟨val, hval, .inl (abs_setThread _ _ _ _)⟩
        · rw [if_neg (show ¬ (u = t ∨ ¬ x < vars'.length ∨ Thread.get ⟨vars, prog, [], obs⟩ v = none) from h1),
            if_neg (fun hc => hb hc.1), Option.some.injEq] at hp
          subst hp
          exact ⟨val, hval, .inr ⟨rfl, _, List.mem_of_getElem? hu, hb⟩⟩

/-! ## Schedules -/

/-- Every step is nothing or one operation of the specification. -/
theorem step_sim {s s' : State} (h : Inv s) {val : Nat → Tree} (hval : Val s.objs val) {t : Nat}
    (hs : step s t = some s') :
    ∃ val', Val s'.objs val' ∧ (abs val' s' = Spec.Graph.step (abs val s) t ∨
      abs val' s' = abs val s ∧ ∃ th ∈ s.threads, th.todo ≠ []) := by
  unfold step at hs
  cases ht : s.threads[t]? with
  | none =>
    simp only [ht, Option.some.injEq] at hs
    subst hs
    refine ⟨val, hval, .inl ?_⟩
    have : (abs val s)[t]? = none := by simp [abs, ht]
    simp only [Spec.Graph.step, this]
  | some th =>
    obtain ⟨vars, prog, todo, obs⟩ := th
    simp only [ht] at hs
    cases todo with
    | cons k ks =>
      obtain ⟨h1, h2⟩ := (perform_sim h ht hs).1 val hval
      exact ⟨val, h1, .inr ⟨h2, _, List.mem_of_getElem? ht, by simp⟩⟩
    | nil =>
      cases prog with
      | nil =>
        simp only [Option.some.injEq] at hs
        subst hs
        refine ⟨val, hval, .inl ?_⟩
        simp only [Spec.Graph.step, abs_get val ht, absT]
      | cons op prog => exact begin_sim h hval ht hs

theorem run_sim {s s' : State} (h : Inv s) {val : Nat → Tree} (hval : Val s.objs val) {ts : List Nat}
    (hs : run s ts = some s') :
    ∃ val' us, Val s'.objs val' ∧ us.Sublist ts ∧ abs val' s' = Spec.Graph.run (abs val s) us := by
  induction ts generalizing s val with
  | nil =>
    simp only [run, Option.some.injEq] at hs
    subst hs
    exact ⟨val, [], hval, List.Sublist.refl _, rfl⟩
  | cons t ts ih =>
    obtain ⟨s1, h1, h2⟩ := step_inv h t
    simp only [run, h1] at hs
    obtain ⟨val1, hval1, he⟩ := step_sim h hval h1
    obtain ⟨val', us, g1, g2, g3⟩ := ih h2 hval1 hs
    rcases he with he | ⟨he, _⟩
    · exact ⟨val', t :: us, g1, g2.cons_cons t, by rw [g3, he]; rfl⟩
    · exact ⟨val', us, g1, g2.cons t, by rw [g3, he]⟩

theorem run_append (s : State) (ts us : List Nat) : run s (ts ++ us) = (run s ts).bind (fun s' => run s' us) := by
  induction ts generalizing s with
  | nil => rfl
  | cons t ts ih =>
    simp only [List.cons_append, run]
    cases step s t with
    | none => rfl
    | some s1 => exact ih s1

/-- A thread that goes on finishes the operation it is in the middle of. -/
theorem finish {s : State} (h : Inv s) {t : Nat} {th : Thread} (ht : s.threads[t]? = some th) :
    ∃ (n : Nat) (s' : State) (vars' : List (Option Nat)), n ≤ measure s ∧ run s (List.replicate n t) = some s' ∧ Inv s' ∧
      s'.threads = s.threads.set t ⟨vars', th.prog, [], th.obs⟩ ∧
      ∀ val, Val s.objs val → Val s'.objs val ∧ abs val s' = abs val s := by
  generalize hM : measure s = M
  induction M using Nat.strongRecOn generalizing s th with
  | ind M ih =>
    obtain ⟨vars, prog, todo, obs⟩ := th
    cases todo with
    | nil => exact ⟨0, s, vars, by omega, rfl, h, (set_same _ _ _ ht).symm, fun val hv => ⟨hv, rfl⟩⟩
    | cons k ks =>
      obtain ⟨s1, e1, h1⟩ := perform_inv h ht
      obtain ⟨a, b, vars1, ks1, c⟩ := perform_sim h ht e1
      have hl := (List.getElem?_eq_some_iff.mp ht).1
      have ht1 : s1.threads[t]? = some ⟨vars1, prog, ks1, obs⟩ := by rw [c]; simp [hl]
      obtain ⟨n, s', vars', g1, g2, g3, g4, g5⟩ := ih (measure s1) (by omega) h1 ht1 rfl
      refine ⟨n + 1, s', vars', by omega, ?_, g3, ?_, ?_⟩
      · have : step s t = some s1 := by simp only [step, ht]; exact e1
        simp only [List.replicate_succ, run, this]
        exact g2
      · rw [g4, c, List.set_set]
      · intro val hv
        obtain ⟨v1, v2⟩ := a val hv
        obtain ⟨w1, w2⟩ := g5 val v1
        exact ⟨w1, w2.trans v2⟩

/-- every thread is between two operations -/
def Idle (s : State) : Prop := ∀ th ∈ s.threads, th.todo = []

theorem begin_threads {s s' : State} (hi : Idle s) {t : Nat} {th : Thread} (ht : s.threads[t]? = some th)
    (hs : step s t = some s') : ∀ (u : Nat), u ≠ t → ∀ th', s'.threads[u]? = some th' → th'.todo = [] := by
  intro u hu th' hth'
  have hset : ∀ (a : Thread), (s.setThread t a).threads[u]? = some th' → th'.todo = [] := by
    intro a ha
    simp only [State.setThread] at ha
    rw [List.getElem?_set_ne (fun e => hu e.symm)] at ha
    exact hi _ (List.mem_of_getElem? ha)
  have h0 := hi _ (List.mem_of_getElem? ht)
  obtain ⟨vars, prog, todo, obs⟩ := th
  simp only at h0
  subst h0
  simp only [step, ht] at hs
  cases prog with
  | nil =>
    simp only [Option.some.injEq] at hs
    subst hs
    exact hi _ (List.mem_of_getElem? hth')
  | cons op prog =>
    simp only [begin] at hs
    cases op with
    | make v tag ms =>
      simp only at hs
      split at hs <;> simp only [Option.some.injEq] at hs <;> subst hs <;> exact hset _ hth'
    | assign v w =>
      simp only at hs
      split at hs <;> simp only [Option.some.injEq] at hs <;> subst hs <;> exact hset _ hth'
    | member v w j =>
      simp only at hs
      split at hs
      · simp only [Option.some.injEq] at hs; subst hs; exact hset _ hth'
      · split at hs <;> simp only [Option.some.injEq] at hs <;> subst hs <;> exact hset _ hth'
    | move v w =>
      simp only at hs
      split at hs <;> simp only [Option.some.injEq] at hs <;> subst hs <;> exact hset _ hth'
    | clear v => simp only [Option.some.injEq] at hs; subst hs; exact hset _ hth'
    | read w =>
      simp only at hs
      split at hs
      · simp only [Option.some.injEq] at hs; subst hs; exact hset _ hth'
      · split at hs
        · simp at hs
        · split at hs
          · simp only [Option.some.injEq] at hs; subst hs; exact hset _ hth'
          · simp at hs
    | give v w x =>
      simp only at hs
      split at hs
      · simp only [Option.some.injEq] at hs; subst hs; exact hset _ hth'
      · split at hs
        · simp only [Option.some.injEq] at hs; subst hs; exact hset _ hth'
        · split at hs
          · rename_i th2 _ _ hc
            simp only [Option.some.injEq] at hs
            subst hs
            by_cases e : w = u
            · subst e
              simp only [State.setThread, List.getElem?_set, if_true] at hth'
              split at hth'
              · simp only [Option.some.injEq] at hth'
                subst hth'
                exact hc.1
              · simp at hth'
            · simp only [State.setThread] at hth'
              rw [List.getElem?_set_ne e] at hth'
              exact hset _ hth'
          · simp only [Option.some.injEq] at hs
            subst hs
            exact hi _ (List.mem_of_getElem? hth')

/-- Every execution of the specification is possible. -/
theorem complete {s : State} (h : Inv s) (hi : Idle s) {val : Nat → Tree} (hval : Val s.objs val) (us : List Nat) :
    ∃ ts s' val', run s ts = some s' ∧ Inv s' ∧ Idle s' ∧ Val s'.objs val' ∧
      abs val' s' = Spec.Graph.run (abs val s) us := by
  induction us generalizing s val with
  | nil => exact ⟨[], s, val, rfl, h, hi, hval, rfl⟩
  | cons t us ih =>
    obtain ⟨s1, e1, h1⟩ := step_inv h t
    obtain ⟨val1, hval1, he⟩ := step_sim h hval e1
    have he1 : abs val1 s1 = Spec.Graph.step (abs val s) t := by
      rcases he with he | ⟨_, th, hth, hne⟩
      · exact he
      · exact absurd (hi th hth) hne
    have : ∃ ts s2, run s ts = some s2 ∧ Inv s2 ∧ Idle s2 ∧ Val s2.objs val1 ∧ abs val1 s2 = abs val1 s1 := by
      cases ht : s.threads[t]? with
      | none =>
        have : s1 = s := by simp only [step, ht, Option.some.injEq] at e1; exact e1.symm
        subst this
        exact ⟨[], s1, rfl, h, hi, hval1, rfl⟩
      | some th =>
        cases ht1 : s1.threads[t]? with
        | none =>
          refine ⟨[t], s1, by simp only [run, e1], h1, ?_, hval1, rfl⟩
          intro th' hth'
          obtain ⟨u, hu⟩ := List.mem_iff_getElem?.mp hth'
          refine begin_threads hi ht e1 u ?_ th' hu
          intro e
          subst e
          rw [ht1] at hu
          cases hu
        | some th1 =>
          obtain ⟨n, s2, vars', _, g2, g3, g4, g5⟩ := finish h1 ht1
          obtain ⟨v1, v2⟩ := g5 val1 hval1
          refine ⟨t :: List.replicate n t, s2, by simp only [run, e1]; exact g2, g3, ?_, v1, v2⟩
          intro th' hth'
          rw [g4] at hth'
          obtain ⟨u, hu⟩ := List.mem_iff_getElem?.mp hth'
          by_cases e : u = t
          · subst e
            have hl := (List.getElem?_eq_some_iff.mp ht1).1
            simp [hl] at hu
            rw [← hu]
          · rw [List.getElem?_set_ne (fun x => e x.symm)] at hu
            exact begin_threads hi ht e1 u e th' hu
    obtain ⟨ts, s2, r1, r2, r3, r4, r5⟩ := this
    obtain ⟨ts', s', val', q1, q2, q3, q4, q5⟩ := ih r2 r3 r4
    refine ⟨ts ++ ts', s', val', ?_, q2, q3, q4, ?_⟩
    · rw [run_append, r1]
      exact q1
    · rw [q5, r5, he1]
      rfl

end PtrGraph
end Vlpp
