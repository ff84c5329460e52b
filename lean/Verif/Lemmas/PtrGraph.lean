import Verif.Model.PtrGraph
import Verif.Lemmas.Pointer

/-! # Counters of object graphs under every schedule -/
set_option autoImplicit false
namespace Vlpp
namespace PtrGraph
open Pointer (sumBy sumBy_set sumBy_pos sumBy_nil sumBy_cons sumBy_append sumBy_zero_mem)
open Spec.Graph (Op takeAll)

/-! ## Counting -/

def one (p : Prop) [Decidable p] : Nat := if p then 1 else 0

theorem one_pos {p : Prop} [Decidable p] (h : p) : one p = 1 := by simp [one, h]
theorem one_neg {p : Prop} [Decidable p] (h : ¬ p) : one p = 0 := by simp [one, h]

theorem count_set {α : Type} [BEq α] [LawfulBEq α] [DecidableEq α] (L : List α) (i : Nat) (x y z : α) (h : L[i]? = some x) :
    (L.set i y).count z + one (x = z) = L.count z + one (y = z) := by
  induction L generalizing i with
  | nil => simp at h
  | cons a L ih =>
    cases i with
    | zero =>
      simp at h
      subst h
      simp only [List.set_cons_zero, List.count_cons, one, beq_iff_eq]
      by_cases h1 : a = z <;> by_cases h2 : y = z <;> simp [h1, h2]
    | succ i =>
      have := ih i (by simpa using h)
      simp only [List.set_cons_succ, List.count_cons, beq_iff_eq]
      omega

/-- the value of a variable -/
def look {α : Type} (vars : List (Option α)) (v : Nat) : Option α := (vars[v]?).join

theorem look_lt {α : Type} {vars : List (Option α)} {v : Nat} (h : v < vars.length) : vars[v]? = some (look vars v) := by
  simp [look, List.getElem?_eq_getElem h]

theorem look_some {α : Type} {vars : List (Option α)} {v : Nat} {o : α} (h : look vars v = some o) :
    vars[v]? = some (some o) := by
  unfold look at h
  cases hv : vars[v]? with
  | none => simp [hv] at h
  | some x => simp [hv] at h; simp [h]

theorem look_mem {α : Type} {vars : List (Option α)} {v : Nat} {o : α} (h : look vars v = some o) : some o ∈ vars :=
  List.mem_of_getElem? (look_some h)

theorem look_set_ne {α : Type} (vars : List (Option α)) (v w : Nat) (x : Option α) (h : v ≠ w) :
    look (vars.set v x) w = look vars w := by
  simp [look, List.getElem?_set_ne h]

theorem look_set_none {α : Type} (vars : List (Option α)) (v : Nat) : look (vars.set v none) v = none := by
  simp only [look, List.getElem?_set, if_true]
  split <;> simp

theorem look_set_none' {α : Type} (vars : List (Option α)) (v w : Nat) (h : look vars w = none) :
    look (vars.set v none) w = none := by
  by_cases e : v = w
  · subst e; exact look_set_none _ _
  · rw [look_set_ne _ _ _ _ e]; exact h

/-- setting a variable to null -/
theorem count_clear (vars : List (Option Nat)) (v x : Nat) :
    (vars.set v none).count (some x) + one (look vars v = some x) = vars.count (some x) := by
  by_cases h : v < vars.length
  · have := count_set vars v (look vars v) none (some x) (look_lt h)
    rw [one_neg (p := (none : Option Nat) = some x) (by simp)] at this
    omega
  · rw [List.set_eq_of_length_le (by omega)]
    have : look vars v = none := by simp [look, List.getElem?_eq_none (by omega : vars.length ≤ v)]
    rw [this, one_neg (by simp)]
    rfl

/-- setting a null variable -/
theorem count_fill (vars : List (Option Nat)) (v x : Nat) (y : Option Nat) (h : v < vars.length) (hn : look vars v = none) :
    (vars.set v y).count (some x) = vars.count (some x) + one (y = some x) := by
  have := count_set vars v (look vars v) y (some x) (look_lt h)
  rw [hn, one_neg (p := (none : Option Nat) = some x) (by simp)] at this
  omega

theorem count_decOf (y : Option Nat) (x : Nat) : (decOf y).count (.dec x) = one (y = some x) := by
  cases y with
  | none => simp [decOf, one]
  | some o => by_cases h : o = x <;> simp [decOf, one, h]

theorem count_decs (ms : List (Option Nat)) (x : Nat) : (ms.flatMap decOf).count (.dec x) = ms.count (some x) := by
  induction ms with
  | nil => rfl
  | cons a ms ih =>
    rw [List.flatMap_cons, List.count_append, ih, count_decOf, List.count_cons]
    by_cases h : a = some x <;> simp [one, h]
    omega

theorem mem_decs {ms : List (Option Nat)} {k : Task} (h : k ∈ ms.flatMap decOf) : ∃ o, k = .dec o := by
  obtain ⟨y, _, hy⟩ := List.mem_flatMap.mp h
  cases y with
  | none => simp [decOf] at hy
  | some o => exact ⟨o, by simpa [decOf] using hy⟩

theorem takeAll_length {α : Type} (vars : List (Option α)) (ms : List Nat) : (takeAll vars ms).2.length = vars.length := by
  induction ms generalizing vars with
  | nil => rfl
  | cons m ms ih => simp [takeAll, ih]

theorem takeAll_look {α : Type} (vars : List (Option α)) (ms : List Nat) (v : Nat) (h : look vars v = none) :
    look (takeAll vars ms).2 v = none := by
  induction ms generalizing vars with
  | nil => exact h
  | cons m ms ih => exact ih _ (look_set_none' _ _ _ h)

theorem takeAll_count (vars : List (Option Nat)) (ms : List Nat) (x : Nat) :
    (takeAll vars ms).1.count (some x) + (takeAll vars ms).2.count (some x) = vars.count (some x) := by
  induction ms generalizing vars with
  | nil => simp [takeAll]
  | cons m ms ih =>
    have h1 := ih (vars.set m none)
    have h2 := count_clear vars m x
    simp only [takeAll, List.count_cons, beq_iff_eq]
    by_cases e : look vars m = some x
    · rw [one_pos e] at h2
      rw [if_pos (show (vars[m]?).join = some x from e)]
      omega
    · rw [one_neg e] at h2
      rw [if_neg (show ¬ (vars[m]?).join = some x from e)]
      omega

/-! ## References -/

/-- pointers of a thread to an object: variables, and pointers about to be released -/
def own (x : Nat) (th : Thread) : Nat := th.vars.count (some x) + th.todo.count (.dec x)

/-- pointers in an object that is not deleted -/
def inside (x : Nat) (b : Obj) : Nat := if b.alive then b.members.count (some x) else 0

/-- all pointers to an object -/
def refs (s : State) (x : Nat) : Nat := sumBy (own x) s.threads + sumBy (inside x) s.objs

/-- threads about to do something to an object -/
def pending (k : Task) (s : State) : Nat := sumBy (fun th => th.todo.count k) s.threads

theorem refs_setThread {s : State} {t : Nat} {th th' : Thread} (h : s.threads[t]? = some th) (x : Nat) :
    refs (s.setThread t th') x + own x th = refs s x + own x th' := by
  have := sumBy_set (own x) s.threads t th th' h
  simp only [refs, State.setThread]
  omega

theorem refs_setObj {s : State} {o : Nat} {b b' : Obj} (h : s.objs[o]? = some b) (x : Nat) :
    refs (s.setObj o b') x + inside x b = refs s x + inside x b' := by
  have := sumBy_set (inside x) s.objs o b b' h
  simp only [refs, State.setObj]
  omega

theorem pending_setThread {s : State} {t : Nat} {th th' : Thread} (h : s.threads[t]? = some th) (k : Task) :
    pending k (s.setThread t th') + th.todo.count k = pending k s + th'.todo.count k :=
  sumBy_set (fun (th : Thread) => th.todo.count k) s.threads t th th' h

theorem pending_setObj (s : State) (o : Nat) (b : Obj) (k : Task) : pending k (s.setObj o b) = pending k s := rfl

theorem refs_var {s : State} {t : Nat} {th : Thread} (h : s.threads[t]? = some th) {x : Nat} (hx : some x ∈ th.vars) :
    0 < refs s x := by
  have h1 : 0 < sumBy (own x) s.threads := (sumBy_pos _ _).mpr ⟨t, th, h, by
    have := List.count_pos_iff.mpr hx
    unfold own; omega⟩
  unfold refs; omega

theorem refs_member {s : State} {p : Nat} {b : Obj} (h : s.objs[p]? = some b) (ha : b.alive = true) {x : Nat}
    (hx : some x ∈ b.members) : 0 < refs s x := by
  have h1 : 0 < sumBy (inside x) s.objs := (sumBy_pos _ _).mpr ⟨p, b, h, by
    have := List.count_pos_iff.mpr hx
    unfold inside; rw [if_pos ha]; omega⟩
  unfold refs; omega

/-! ## The invariant -/

/-- An object, the number of pointers to it, and the numbers of threads deleting its counter and deleting it. -/
def ObjOk : Option Obj → Nat → Nat → Nat → Prop
  | none, r, a, c => r = 0 ∧ a = 0 ∧ c = 0
  | some b, r, a, c =>
    (b.alive = true ∧ b.counter = some (r : Int) ∧ 0 < r ∧ a = 0 ∧ c = 0) ∨
    (b.alive = true ∧ b.counter = some 0 ∧ r = 0 ∧ a = 1 ∧ c = 0) ∨
    (b.alive = true ∧ b.counter = none ∧ r = 0 ∧ a = 0 ∧ c = 1) ∨
    (b.alive = false ∧ b.counter = none ∧ r = 0 ∧ a = 0 ∧ c = 0)

/-- What a thread may be in the middle of: releases, and then at most one copy whose source is kept alive by a variable. -/
def TodoOk (objs : List Obj) (vars : List (Option Nat)) : List Task → Prop
  | [] => True
  | .dec _ :: r => TodoOk objs vars r
  | .delCounter _ :: r => TodoOk objs vars r
  | .delObject _ :: r => TodoOk objs vars r
  | .inc o v :: r => r = [] ∧ v < vars.length ∧ look vars v = none ∧
      (some o ∈ vars ∨ ∃ (p : Nat) (b : Obj), some p ∈ vars ∧ objs[p]? = some b ∧ some o ∈ b.members)
  | .fetch _ v :: r => r = [] ∧ v < vars.length ∧ look vars v = none
  | .fetchMember p _ v :: r => r = [] ∧ v < vars.length ∧ look vars v = none ∧ some p ∈ vars
  | .take w v :: r => r = [] ∧ v < vars.length ∧ look vars v = none ∧ v ≠ w

structure Inv (s : State) : Prop where
  obj : ∀ o, ObjOk s.objs[o]? (refs s o) (pending (.delCounter o) s) (pending (.delObject o) s)
  down : ∀ (o : Nat) (b : Obj) (m : Nat), s.objs[o]? = some b → some m ∈ b.members → m < o
  todo : ∀ th ∈ s.threads, TodoOk s.objs th.vars th.todo
  good : ∀ th ∈ s.threads, ∀ op ∈ th.prog, op.Good

/-- objects keep their contents -/
def Ext (L M : List Obj) : Prop := ∀ (p : Nat) (b : Obj), L[p]? = some b → ∃ b', M[p]? = some b' ∧ b'.members = b.members

theorem Ext.refl (L : List Obj) : Ext L L := fun _ b h => ⟨b, h, rfl⟩

theorem Ext.set {L : List Obj} {o : Nat} {b b' : Obj} (h : L[o]? = some b) (hm : b'.members = b.members) :
    Ext L (L.set o b') := by
  intro p c hc
  by_cases e : o = p
  · subst e
    obtain ⟨hl, _⟩ := List.getElem?_eq_some_iff.mp h
    rw [h] at hc
    exact ⟨b', by simp [hl], by rw [hm, Option.some.inj hc]⟩
  · exact ⟨c, by rw [List.getElem?_set_ne e]; exact hc, rfl⟩

theorem Ext.append (L : List Obj) (b : Obj) : Ext L (L ++ [b]) := by
  intro p c hc
  obtain ⟨hl, _⟩ := List.getElem?_eq_some_iff.mp hc
  exact ⟨c, by rw [List.getElem?_append_left hl]; exact hc, rfl⟩

theorem TodoOk.mono {L M : List Obj} {vars : List (Option Nat)} (h : Ext L M) :
    ∀ {ks : List Task}, TodoOk L vars ks → TodoOk M vars ks
  | [], _ => trivial
  | .dec _ :: r, hk => TodoOk.mono (ks := r) h hk
  | .delCounter _ :: r, hk => TodoOk.mono (ks := r) h hk
  | .delObject _ :: r, hk => TodoOk.mono (ks := r) h hk
  | .inc _ _ :: _, ⟨a, b, c, d⟩ => ⟨a, b, c, d.imp id (fun ⟨p, e, hp, he, ho⟩ =>
      let ⟨e', h1, h2⟩ := h p e he
      ⟨p, e', hp, h1, by rw [h2]; exact ho⟩)⟩
  | .fetch _ _ :: _, hk => hk
  | .fetchMember _ _ _ :: _, hk => hk
  | .take _ _ :: _, hk => hk

theorem TodoOk.decs {L : List Obj} {vars : List (Option Nat)} {ks : List Task} (h : TodoOk L vars ks)
    (ms : List (Option Nat)) : TodoOk L vars (ms.flatMap decOf ++ ks) := by
  induction ms with
  | nil => exact h
  | cons a ms ih =>
    cases a with
    | none => simpa [decOf] using ih
    | some o => simpa [decOf, TodoOk] using ih

theorem TodoOk.decOf {L : List Obj} {vars : List (Option Nat)} {ks : List Task} (h : TodoOk L vars ks)
    (y : Option Nat) : TodoOk L vars (decOf y ++ ks) := by
  simpa using TodoOk.decs h [y]

/-- The parts of the invariant that are about single threads, after a step of one thread. -/
theorem threads_set {s : State} (h : Inv s) {objs : List Obj} (he : Ext s.objs objs) {t : Nat} {th' : Thread}
    (h1 : TodoOk objs th'.vars th'.todo) (h2 : ∀ op ∈ th'.prog, op.Good) :
    (∀ th ∈ s.threads.set t th', TodoOk objs th.vars th.todo) ∧ (∀ th ∈ s.threads.set t th', ∀ op ∈ th.prog, op.Good) := by
  constructor
  · intro th hth
    rcases List.mem_or_eq_of_mem_set hth with hm | rfl
    · exact (h.todo th hm).mono he
    · exact h1
  · intro th hth
    rcases List.mem_or_eq_of_mem_set hth with hm | rfl
    · exact h.good th hm
    · exact h2

theorem down_set {s : State} (h : Inv s) {o : Nat} {b b' : Obj} (hb : s.objs[o]? = some b) (hm : b'.members = b.members) :
    ∀ (p : Nat) (c : Obj) (m : Nat), (s.objs.set o b')[p]? = some c → some m ∈ c.members → m < p := by
  intro p c m hc hmem
  by_cases e : o = p
  · subst e
    obtain ⟨hl, _⟩ := List.getElem?_eq_some_iff.mp hb
    simp [hl] at hc
    subst hc
    exact h.down o b m hb (by rw [← hm]; exact hmem)
  · rw [List.getElem?_set_ne e] at hc
    exact h.down p c m hc hmem

/-- An object with pointers to it. -/
theorem Inv.live {s : State} (h : Inv s) {o : Nat} (hr : 0 < refs s o) :
    ∃ b, s.objs[o]? = some b ∧ b.alive = true ∧ b.counter = some (refs s o : Int) ∧
      pending (.delCounter o) s = 0 ∧ pending (.delObject o) s = 0 := by
  have := h.obj o
  cases hb : s.objs[o]? with
  | none => rw [hb] at this; obtain ⟨h0, _⟩ := this; omega
  | some b =>
    rw [hb] at this
    rcases this with ⟨a1, a2, a3, a4, a5⟩ | ⟨a1, a2, a3, a4, a5⟩ | ⟨a1, a2, a3, a4, a5⟩ | ⟨a1, a2, a3, a4, a5⟩
    · exact ⟨b, rfl, a1, a2, a4, a5⟩
    all_goals omega

/-- A step that leaves the objects alone and the pointers and deletions as they are. -/
theorem same_inv {s : State} (h : Inv s) {t : Nat} {th th' : Thread} (ht : s.threads[t]? = some th)
    (hr : ∀ x, own x th' = own x th) (h1 : ∀ o, th'.todo.count (.delCounter o) = th.todo.count (.delCounter o))
    (h2 : ∀ o, th'.todo.count (.delObject o) = th.todo.count (.delObject o))
    (hk : TodoOk s.objs th'.vars th'.todo) (hg : ∀ op ∈ th'.prog, op.Good) : Inv (s.setThread t th') := by
  have hs := threads_set h (Ext.refl s.objs) (t := t) hk hg
  refine ⟨fun o => ?_, h.down, hs.1, hs.2⟩
  have e1 := refs_setThread (th' := th') ht o
  have e2 := pending_setThread (th' := th') ht (.delCounter o)
  have e3 := pending_setThread (th' := th') ht (.delObject o)
  rw [hr] at e1
  rw [h1] at e2
  rw [h2] at e3
  have f1 : refs (s.setThread t th') o = refs s o := by omega
  have f2 : pending (.delCounter o) (s.setThread t th') = pending (.delCounter o) s := by omega
  have f3 : pending (.delObject o) (s.setThread t th') = pending (.delObject o) s := by omega
  rw [f1, f2, f3]
  exact h.obj o

/-- A step that changes object `o` (not its members) and the thread. -/
theorem obj_inv {s : State} (h : Inv s) {t : Nat} {th th' : Thread} (ht : s.threads[t]? = some th) {o : Nat} {b b' : Obj}
    (hb : s.objs[o]? = some b) (hm : b'.members = b.members)
    (hr : ∀ x, x ≠ o → own x th' + inside x b' = own x th + inside x b)
    (h1 : ∀ x, x ≠ o → th'.todo.count (.delCounter x) = th.todo.count (.delCounter x))
    (h2 : ∀ x, x ≠ o → th'.todo.count (.delObject x) = th.todo.count (.delObject x))
    (ho : ∀ r a c : Nat, r + own o th = refs s o + own o th' →
      a + th.todo.count (.delCounter o) = pending (.delCounter o) s + th'.todo.count (.delCounter o) →
      c + th.todo.count (.delObject o) = pending (.delObject o) s + th'.todo.count (.delObject o) →
      ObjOk (some b') r a c)
    (hk : TodoOk s.objs th'.vars th'.todo) (hg : ∀ op ∈ th'.prog, op.Good) : Inv ((s.setObj o b').setThread t th') := by
  have he : Ext s.objs (s.objs.set o b') := Ext.set hb hm
  have hs := threads_set h he (t := t) (hk.mono he) hg
  have self : ∀ c : Obj, c.members = b.members → inside o c = 0 := by
    intro c hc
    unfold inside
    split
    · refine List.count_eq_zero.mpr fun hmem => ?_
      rw [hc] at hmem
      have := h.down o b o hb hmem
      omega
    · rfl
  refine ⟨fun x => ?_, down_set h hb hm, hs.1, hs.2⟩
  have ht' : (s.setObj o b').threads[t]? = some th := ht
  have e0 := refs_setObj (b' := b') hb x
  have e1 := refs_setThread (th' := th') ht' x
  have e2 := pending_setThread (th' := th') ht' (.delCounter x)
  have e3 := pending_setThread (th' := th') ht' (.delObject x)
  rw [pending_setObj] at e2 e3
  by_cases e : x = o
  · subst e
    rw [self b rfl, self b' hm] at e0
    obtain ⟨hl, _⟩ := List.getElem?_eq_some_iff.mp hb
    have : ((s.setObj x b').setThread t th').objs[x]? = some b' := by simp [State.setThread, State.setObj, hl]
    rw [this]
    exact ho _ _ _ (by omega) e2 e3
  · have : ((s.setObj o b').setThread t th').objs[x]? = s.objs[x]? := by
      show (s.objs.set o b')[x]? = _
      rw [List.getElem?_set_ne (fun h => e h.symm)]
    rw [this]
    have := hr x e
    rw [h1 x e] at e2
    rw [h2 x e] at e3
    have f1 : refs ((s.setObj o b').setThread t th') x = refs s x := by omega
    have f2 : pending (.delCounter x) ((s.setObj o b').setThread t th') = pending (.delCounter x) s := by omega
    have f3 : pending (.delObject x) ((s.setObj o b').setThread t th') = pending (.delObject x) s := by omega
    rw [f1, f2, f3]
    exact h.obj x

/-! ## Steps -/

theorem perform_inv {s : State} (h : Inv s) {t : Nat} {vars : List (Option Nat)} {prog : List Op} {k : Task}
    {ks : List Task} {obs : List (Option Nat)} (ht : s.threads[t]? = some ⟨vars, prog, k :: ks, obs⟩) :
    ∃ s', perform s t ⟨vars, prog, ks, obs⟩ k = some s' ∧ Inv s' := by
  have hmem := List.mem_of_getElem? ht
  have hk := h.todo _ hmem
  have hg := h.good _ hmem
  simp only at hk hg
  cases k with
  | dec o =>
    have hpos : 0 < refs s o := by
      have h1 : 0 < sumBy (own o) s.threads := (sumBy_pos _ _).mpr ⟨t, _, ht, by simp [own]; omega⟩
      unfold refs; omega
    obtain ⟨b, hb, ha, hc, hd1, hd2⟩ := h.live hpos
    simp only [perform, hb, hc]
    refine ⟨_, rfl, obj_inv h ht hb rfl ?_ ?_ ?_ ?_ ?_ hg⟩
    · intro x hx
      have hx' : ¬ o = x := fun e => hx e.symm
      split <;> simp [own, inside, hx']
    · intro x hx
      have hx' : ¬ o = x := fun e => hx e.symm
      split <;> simp [hx']
    · intro x hx
      split <;> simp
    · intro r a c e1 e2 e3
      by_cases e : (refs s o : Int) - 1 = 0
      · rw [if_pos e] at e1 e2 e3
        simp [own] at e1 e2 e3
        refine .inr (.inl ⟨ha, by simp [e], by omega, by omega, by omega⟩)
      · rw [if_neg e] at e1 e2 e3
        simp [own] at e1 e2 e3
        refine .inl ⟨ha, ?_, by omega, by omega, by omega⟩
        show some ((refs s o : Int) - 1) = some (r : Int)
        congr 1
        omega
    · split
      · exact hk
      · exact hk
  | delCounter o =>
    have hp : 0 < pending (.delCounter o) s := (sumBy_pos _ _).mpr ⟨t, _, ht, by simp⟩
    have ho := h.obj o
    cases hb : s.objs[o]? with
    | none => rw [hb] at ho; obtain ⟨_, h0, _⟩ := ho; omega
    | some b =>
      rw [hb] at ho
      have : b.alive = true ∧ b.counter = some 0 ∧ refs s o = 0 ∧ pending (.delCounter o) s = 1 ∧
          pending (.delObject o) s = 0 := by
        rcases ho with ⟨a1, a2, a3, a4, a5⟩ | ⟨a1, a2, a3, a4, a5⟩ | ⟨a1, a2, a3, a4, a5⟩ | ⟨a1, a2, a3, a4, a5⟩
        · omega
        · exact ⟨a1, a2, a3, a4, a5⟩
        · omega
        · omega
      obtain ⟨ha, hc, h0, h1, h2⟩ := this
      simp only [perform, hb, hc]
      refine ⟨_, rfl, obj_inv h ht hb rfl ?_ ?_ ?_ ?_ hk hg⟩
      · intro x hx
        simp [own, inside]
      · intro x hx
        have hx' : ¬ o = x := fun e => hx e.symm
        simp [hx']
      · intro x hx
        have hx' : ¬ o = x := fun e => hx e.symm
        simp [hx']
      · intro r a c e1 e2 e3
        simp [own] at e1 e2 e3
        exact .inr (.inr (.inl ⟨ha, rfl, by omega, by omega, by omega⟩))
  | delObject o =>
    have hp : 0 < pending (.delObject o) s := (sumBy_pos _ _).mpr ⟨t, _, ht, by simp⟩
    have ho := h.obj o
    cases hb : s.objs[o]? with
    | none => rw [hb] at ho; obtain ⟨_, _, h0⟩ := ho; omega
    | some b =>
      rw [hb] at ho
      have : b.alive = true ∧ b.counter = none ∧ refs s o = 0 ∧ pending (.delCounter o) s = 0 ∧
          pending (.delObject o) s = 1 := by
        rcases ho with ⟨a1, a2, a3, a4, a5⟩ | ⟨a1, a2, a3, a4, a5⟩ | ⟨a1, a2, a3, a4, a5⟩ | ⟨a1, a2, a3, a4, a5⟩
        · omega
        · omega
        · exact ⟨a1, a2, a3, a4, a5⟩
        · omega
      obtain ⟨ha, hc, h0, h1, h2⟩ := this
      have hno : ∀ k : Task, (∀ y, k ≠ .dec y) → (b.members.reverse.flatMap decOf).count k = 0 := by
        intro k hk
        refine List.count_eq_zero.mpr fun hm => ?_
        obtain ⟨y, hy⟩ := mem_decs hm
        exact hk y hy
      have hself : b.members.count (some o) = 0 := by
        refine List.count_eq_zero.mpr fun hm => ?_
        have := h.down o b o hb hm
        omega
      simp only [perform, hb, ha, if_true]
      refine ⟨_, rfl, obj_inv h ht hb rfl ?_ ?_ ?_ ?_ ?_ hg⟩
      · intro x hx
        simp only [own, inside, ha, if_true, List.count_append, count_decs, List.count_reverse]
        simp
        omega
      · intro x hx
        rw [List.count_append, hno _ (by simp)]
        simp
      · intro x hx
        have hx' : ¬ o = x := fun e => hx e.symm
        rw [List.count_append, hno _ (by simp)]
        simp [hx']
      · intro r a c e1 e2 e3
        simp only [own, List.count_append, count_decs, List.count_reverse, hself] at e1
        rw [List.count_append, hno _ (by simp)] at e2 e3
        simp at e1 e2 e3
        exact .inr (.inr (.inr ⟨rfl, hc, by omega, by omega, by omega⟩))
      · exact TodoOk.decs (ks := ks) hk _
  | inc o v =>
    obtain ⟨rfl, hv, hn, hheld⟩ := hk
    have hpos : 0 < refs s o := by
      rcases hheld with ho | ⟨p, b, hp, hb, hm⟩
      · exact refs_var ht ho
      · obtain ⟨b', hb', ha, _⟩ := h.live (refs_var ht hp)
        rw [hb] at hb'
        cases hb'
        exact refs_member hb ha hm
    obtain ⟨b, hb, ha, hc, hd1, hd2⟩ := h.live hpos
    simp only [perform, hb, hc]
    refine ⟨_, rfl, obj_inv h ht hb rfl ?_ ?_ ?_ ?_ trivial hg⟩
    · intro x hx
      have hx' : ¬ o = x := fun e => hx e.symm
      simp [own, inside, count_fill vars v x _ hv hn, one, hx']
    · intro x hx; simp
    · intro x hx; simp
    · intro r a c e1 e2 e3
      simp [own, count_fill vars v o _ hv hn, one] at e1 e2 e3
      refine .inl ⟨ha, ?_, by omega, by omega, by omega⟩
      show some ((refs s o : Int) + 1) = some (r : Int)
      congr 1
      omega
  | fetch w v =>
    obtain ⟨rfl, hv, hn⟩ := hk
    cases hw : look vars w with
    | none =>
      simp only [perform, Thread.get, show (vars[w]?).join = none from hw]
      exact ⟨_, rfl, same_inv h ht (by simp [own]) (by simp) (by simp) trivial hg⟩
    | some o =>
      simp only [perform, Thread.get, show (vars[w]?).join = some o from hw]
      exact ⟨_, rfl, same_inv h ht (by simp [own]) (by simp) (by simp)
        ⟨rfl, hv, hn, .inl (look_mem hw)⟩ hg⟩
  | fetchMember p j v =>
    obtain ⟨rfl, hv, hn, hp⟩ := hk
    obtain ⟨b, hb, ha, _⟩ := h.live (refs_var ht hp)
    cases hw : look b.members j with
    | none =>
      simp only [perform, hb, ha, if_true, show (b.members[j]?).join = none from hw]
      exact ⟨_, rfl, same_inv h ht (by simp [own]) (by simp) (by simp) trivial hg⟩
    | some o =>
      simp only [perform, hb, ha, if_true, show (b.members[j]?).join = some o from hw]
      exact ⟨_, rfl, same_inv h ht (by simp [own]) (by simp) (by simp)
        ⟨rfl, hv, hn, .inr ⟨p, b, hp, hb, look_mem hw⟩⟩ hg⟩
  | take w v =>
    obtain ⟨rfl, hv, hn, hvw⟩ := hk
    refine ⟨_, rfl, same_inv h ht ?_ (by simp) (by simp) trivial hg⟩
    intro x
    have e1 := count_clear (vars.set v (look vars w)) w x
    rw [look_set_ne _ _ _ _ hvw, count_fill vars v x _ hv hn] at e1
    have e2 : ((vars.set v (look vars w)).set w none).count (some x) = vars.count (some x) := by omega
    simp only [own]
    rw [show Thread.get ⟨vars, prog, [], obs⟩ w = look vars w from rfl, e2]
    simp

/-- The first half of an assignment: the variable is null and the old object is to be released. -/
theorem release_inv {s : State} (h : Inv s) {t : Nat} {vars : List (Option Nat)} {prog : List Op} {op : Op}
    {obs : List (Option Nat)} (ht : s.threads[t]? = some ⟨vars, op :: prog, [], obs⟩) (v : Nat) (ks : List Task)
    (hc : ∀ x, ks.count (.dec x) = 0 ∧ ks.count (.delCounter x) = 0 ∧ ks.count (.delObject x) = 0)
    (hk : TodoOk s.objs (vars.set v none) ks) :
    Inv (s.setThread t ⟨vars.set v none, prog, decOf (look vars v) ++ ks, obs⟩) := by
  have hg := h.good _ (List.mem_of_getElem? ht)
  have hno : ∀ (y : Option Nat) (k : Task), (∀ y, k ≠ .dec y) → (decOf y).count k = 0 := by
    intro y k hk
    cases y with
    | none => rfl
    | some o => simp [decOf, Ne.symm (hk o)]
  refine same_inv h ht ?_ ?_ ?_ (hk.decOf _) (fun o ho => hg o (List.mem_cons_of_mem _ ho))
  · intro x
    have := count_clear vars v x
    simp only [own, List.count_append, count_decOf, (hc x).1]
    simp
    omega
  · intro x
    rw [List.count_append, hno _ _ (by simp), (hc x).2.1]
    simp
  · intro x
    rw [List.count_append, hno _ _ (by simp), (hc x).2.2]
    simp

theorem make_inv {s : State} (h : Inv s) {t : Nat} {vars : List (Option Nat)} {prog : List Op} {op : Op}
    {obs : List (Option Nat)} (ht : s.threads[t]? = some ⟨vars, op :: prog, [], obs⟩) (v tag : Nat) (ms : List Nat)
    (hv : v < vars.length) (hn : look vars v = none) :
    Inv ((s.addObj ⟨some 1, true, tag, (takeAll vars ms).1⟩).setThread t
      ⟨(takeAll vars ms).2.set v (some s.objs.length), prog, [], obs⟩) := by
  have hg := h.good _ (List.mem_of_getElem? ht)
  have hs := threads_set h (Ext.append s.objs ⟨some 1, true, tag, (takeAll vars ms).1⟩) (t := t)
    (th' := ⟨(takeAll vars ms).2.set v (some s.objs.length), prog, [], obs⟩) trivial
    (fun o ho => hg o (List.mem_cons_of_mem _ ho))
  have hfill := fun x => count_fill (takeAll vars ms).2 v x (some s.objs.length)
    (by rw [takeAll_length]; exact hv) (takeAll_look _ _ _ hn)
  have hmem : ∀ m, some m ∈ (takeAll vars ms).1 → m < s.objs.length := by
    intro m hm
    have h1 := List.count_pos_iff.mpr hm
    have h2 := takeAll_count vars ms m
    obtain ⟨b, hb, _⟩ := h.live (refs_var ht (x := m) (List.count_pos_iff.mp (by simp only; omega)))
    exact (List.getElem?_eq_some_iff.mp hb).1
  refine ⟨fun x => ?_, ?_, hs.1, hs.2⟩
  · have e1 := sumBy_set (own x) s.threads t _ ⟨(takeAll vars ms).2.set v (some s.objs.length), prog, [], obs⟩ ht
    have e2 := takeAll_count vars ms x
    have e4 : ∀ k, pending k ((s.addObj ⟨some 1, true, tag, (takeAll vars ms).1⟩).setThread t
        ⟨(takeAll vars ms).2.set v (some s.objs.length), prog, [], obs⟩) = pending k s := by
      intro k
      have := pending_setThread (th' := ⟨(takeAll vars ms).2.set v (some s.objs.length), prog, [], obs⟩) ht k
      exact this
    have e3 : refs ((s.addObj ⟨some 1, true, tag, (takeAll vars ms).1⟩).setThread t
        ⟨(takeAll vars ms).2.set v (some s.objs.length), prog, [], obs⟩) x =
        refs s x + one (some s.objs.length = some x) := by
      simp only [refs, State.setThread, State.addObj, sumBy_append, sumBy_cons, sumBy_nil]
      simp only [own, hfill, List.count_nil] at e1
      simp only [inside, if_true]
      omega
    rw [e3, e4, e4]
    have ho := h.obj x
    show ObjOk (s.objs ++ [_])[x]? _ _ _
    by_cases hx : x < s.objs.length
    · rw [List.getElem?_append_left hx, one_neg (by simp; omega)]
      exact ho
    · rw [List.getElem?_eq_none (by omega)] at ho
      obtain ⟨o1, o2, o3⟩ := ho
      rw [o1, o2, o3]
      by_cases hx' : x = s.objs.length
      · subst hx'
        rw [one_pos rfl]
        simp [ObjOk]
      · rw [one_neg (by simp; omega), List.getElem?_eq_none (by simp; omega)]
        exact ⟨rfl, rfl, rfl⟩
  · intro o b m hb hm
    have hb' : (s.objs ++ [(⟨some 1, true, tag, (takeAll vars ms).1⟩ : Obj)])[o]? = some b := hb
    by_cases ho : o < s.objs.length
    · rw [List.getElem?_append_left ho] at hb'
      exact h.down o b m hb' hm
    · have hl := (List.getElem?_eq_some_iff.mp hb').1
      simp at hl
      have : o = s.objs.length := by omega
      subst this
      simp at hb'
      subst hb'
      exact hmem m hm

theorem give_inv {s : State} (h : Inv s) {t u : Nat} {vars vars' : List (Option Nat)} {prog prog' : List Op} {op : Op}
    {obs obs' : List (Option Nat)} (ht : s.threads[t]? = some ⟨vars, op :: prog, [], obs⟩)
    (hu : s.threads[u]? = some ⟨vars', prog', [], obs'⟩) (htu : u ≠ t) (v x : Nat) (hx : x < vars'.length)
    (hn : look vars' x = none) :
    Inv ((s.setThread t ⟨vars.set v none, prog, [], obs⟩).setThread u ⟨vars'.set x (look vars v), prog', [], obs'⟩) := by
  have hg := h.good _ (List.mem_of_getElem? ht)
  have hg' := h.good _ (List.mem_of_getElem? hu)
  have hu' : (s.setThread t ⟨vars.set v none, prog, [], obs⟩).threads[u]? = some ⟨vars', prog', [], obs'⟩ := by
    simp only [State.setThread]
    rw [List.getElem?_set_ne (fun e => htu e.symm)]
    exact hu
  have hmem : ∀ th ∈ (s.threads.set t ⟨vars.set v none, prog, [], obs⟩).set u ⟨vars'.set x (look vars v), prog', [], obs'⟩,
      th ∈ s.threads ∨ th = ⟨vars.set v none, prog, [], obs⟩ ∨ th = ⟨vars'.set x (look vars v), prog', [], obs'⟩ := by
    intro th hth
    rcases List.mem_or_eq_of_mem_set hth with hm | rfl
    · rcases List.mem_or_eq_of_mem_set hm with hm | rfl
      · exact .inl hm
      · exact .inr (.inl rfl)
    · exact .inr (.inr rfl)
  refine ⟨fun o => ?_, h.down, ?_, ?_⟩
  · have e1 := refs_setThread (th' := ⟨vars.set v none, prog, [], obs⟩) ht o
    have e2 := refs_setThread (th' := ⟨vars'.set x (look vars v), prog', [], obs'⟩) hu' o
    have e3 := count_clear vars v o
    simp only [own, count_fill vars' x o _ hx hn] at e1 e2
    have f1 : refs ((s.setThread t ⟨vars.set v none, prog, [], obs⟩).setThread u
        ⟨vars'.set x (look vars v), prog', [], obs'⟩) o = refs s o := by omega
    have f2 : ∀ k, pending k ((s.setThread t ⟨vars.set v none, prog, [], obs⟩).setThread u
        ⟨vars'.set x (look vars v), prog', [], obs'⟩) = pending k s := by
      intro k
      have g1 := pending_setThread (th' := ⟨vars.set v none, prog, [], obs⟩) ht k
      have g2 := pending_setThread (th' := ⟨vars'.set x (look vars v), prog', [], obs'⟩) hu' k
      simp only at g1 g2
      omega
    rw [f1, f2, f2]
    exact h.obj o
  · intro th hth
    rcases hmem th hth with hm | rfl | rfl
    · exact h.todo th hm
    · trivial
    · trivial
  · intro th hth
    rcases hmem th hth with hm | rfl | rfl
    · exact h.good th hm
    · exact fun o ho => hg o (List.mem_cons_of_mem _ ho)
    · exact hg'

theorem begin_inv {s : State} (h : Inv s) {t : Nat} {vars : List (Option Nat)} {prog : List Op} {op : Op}
    {obs : List (Option Nat)} (ht : s.threads[t]? = some ⟨vars, op :: prog, [], obs⟩) :
    ∃ s', begin s t ⟨vars, prog, [], obs⟩ op = some s' ∧ Inv s' := by
  have hg := h.good _ (List.mem_of_getElem? ht)
  have skip : ∀ obs', Inv (s.setThread t ⟨vars, prog, [], obs'⟩) := fun obs' =>
    same_inv h ht (by simp [own]) (by simp) (by simp) trivial (fun o ho => hg o (List.mem_cons_of_mem _ ho))
  cases op with
  | make v tag ms =>
    by_cases hc : v < vars.length ∧ look vars v = none
    · exact ⟨_, if_pos hc, make_inv h ht v tag ms hc.1 hc.2⟩
    · exact ⟨_, if_neg hc, skip obs⟩
  | assign v w =>
    by_cases hc : v < vars.length ∧ v ≠ w
    · exact ⟨_, if_pos hc, release_inv h ht v _ (by simp) ⟨rfl, by simpa using hc.1, look_set_none _ _⟩⟩
    · exact ⟨_, if_neg hc, skip obs⟩
  | member v w j =>
    have hvw : v ≠ w := hg (.member v w j) List.mem_cons_self
    cases hw : look vars w with
    | none =>
      simp only [begin, Thread.get, show (vars[w]?).join = none from hw]
      exact ⟨_, rfl, skip obs⟩
    | some p =>
      simp only [begin, Thread.get, show (vars[w]?).join = some p from hw]
      by_cases hc : v < vars.length
      · refine ⟨_, if_pos hc, release_inv h ht v _ (by simp) ⟨rfl, by simpa using hc, look_set_none _ _, ?_⟩⟩
        exact look_mem (v := w) (by rw [look_set_ne _ _ _ _ hvw]; exact hw)
      · exact ⟨_, if_neg hc, skip obs⟩
  | move v w =>
    by_cases hc : v < vars.length ∧ v ≠ w
    · exact ⟨_, if_pos hc, release_inv h ht v _ (by simp) ⟨rfl, by simpa using hc.1, look_set_none _ _, hc.2⟩⟩
    · exact ⟨_, if_neg hc, skip obs⟩
  | clear v =>
    refine ⟨_, rfl, ?_⟩
    have := release_inv h ht v [] (by simp) trivial
    rw [List.append_nil] at this
    exact this
  | read w =>
    cases hw : look vars w with
    | none =>
      simp only [begin, Thread.get, show (vars[w]?).join = none from hw]
      exact ⟨_, rfl, skip _⟩
    | some o =>
      obtain ⟨b, hb, ha, _⟩ := h.live (refs_var ht (look_mem hw))
      simp only [begin, Thread.get, show (vars[w]?).join = some o from hw, hb, ha, if_true]
      exact ⟨_, rfl, skip _⟩
  | give v u x =>
    simp only [begin]
    cases hu : s.threads[u]? with
    | none => exact ⟨_, rfl, skip obs⟩
    | some th' =>
      obtain ⟨vars', prog', todo', obs'⟩ := th'
      simp only []
      by_cases h1 : u = t ∨ ¬ x < vars'.length ∨ look vars v = none
      · exact ⟨_, if_pos h1, skip obs⟩
      · by_cases h2 : todo' = [] ∧ look vars' x = none
        · refine ⟨_, (if_neg h1).trans (if_pos h2), ?_⟩
          obtain ⟨rfl, hn⟩ := h2
          exact give_inv h ht hu (fun e => h1 (.inl e)) v x
            (Classical.byContradiction fun e => h1 (.inr (.inl e))) hn
        · exact ⟨_, (if_neg h1).trans (if_neg h2), h⟩

/-- A step keeps the invariant and is never undefined. -/
theorem step_inv {s : State} (h : Inv s) (t : Nat) : ∃ s', step s t = some s' ∧ Inv s' := by
  unfold step
  cases ht : s.threads[t]? with
  | none => exact ⟨s, rfl, h⟩
  | some th =>
    obtain ⟨vars, prog, todo, obs⟩ := th
    cases todo with
    | cons k ks => exact perform_inv h ht
    | nil =>
      cases prog with
      | nil => exact ⟨s, rfl, h⟩
      | cons op prog => exact begin_inv h ht

theorem run_inv {s : State} (h : Inv s) (ts : List Nat) : ∃ s', run s ts = some s' ∧ Inv s' := by
  induction ts generalizing s with
  | nil => exact ⟨s, rfl, h⟩
  | cons t ts ih =>
    obtain ⟨s1, h1, h2⟩ := step_inv h t
    simp only [run, h1]
    exact ih h2

theorem start_inv (ths : List (Nat × List Op)) (hg : ∀ p ∈ ths, ∀ op ∈ p.2, op.Good) : Inv (start ths) := by
  have hz : ∀ f : Thread → Nat, (∀ p : Nat × List Op, f { vars := List.replicate p.1 none, prog := p.2 } = 0) →
      sumBy f (start ths).threads = 0 := by
    intro f hf
    refine Classical.byContradiction fun hc => ?_
    obtain ⟨i, x, h1, h2⟩ := (sumBy_pos f (start ths).threads).mp (by omega)
    obtain ⟨p, _, rfl⟩ := List.mem_map.mp (List.mem_of_getElem? h1)
    rw [hf] at h2
    omega
  refine ⟨fun o => ?_, ?_, ?_, ?_⟩
  · refine ⟨?_, hz _ (by simp), hz _ (by simp)⟩
    have : sumBy (own o) (start ths).threads = 0 := hz _ (by
      intro p
      simp [own, List.count_replicate])
    simp only [refs, this]
    rfl
  · intro o b m hb
    simp [start] at hb
  · intro th hth
    obtain ⟨p, _, rfl⟩ := List.mem_map.mp hth
    trivial
  · intro th hth
    obtain ⟨p, hp, rfl⟩ := List.mem_map.mp hth
    exact hg p hp

end PtrGraph
end Vlpp
