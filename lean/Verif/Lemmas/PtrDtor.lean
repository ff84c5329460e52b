import Verif.Model.PtrDtor

/-! # Lemmas about programs whose destructors use pointers -/
set_option autoImplicit false
namespace Vlpp
namespace Spec.Dtor

/-! ## Memory -/

/-- member `j` of `x`, also if the memory is gone -/
def Mem.val (m : Mem) (x j : Nat) : Option (Option Nat) := (m.objs[x]?).bind (·.members[j]?)
def Mem.info (m : Mem) (x : Nat) : Option (Nat × Nat × Bool) := (m.objs[x]?).map fun b => (b.cls, b.members.length, b.there)

theorem read_var (m : Mem) (i : Nat) : m.read (.var i) = m.vars[i]? := rfl

theorem read_mem (m : Mem) (x j : Nat) :
    m.read (.mem x j) = match m.info x with
      | none => none
      | some (_, _, t) => if t then m.val x j else none := by
  simp only [Mem.read, Mem.info, Mem.val]
  cases m.objs[x]? <;> simp

theorem val_isSome (m : Mem) (x j : Nat) :
    (m.val x j).isSome = match m.info x with
      | none => false
      | some (_, n, _) => decide (j < n) := by
  simp only [Mem.info, Mem.val]
  cases m.objs[x]? with
  | none => simp
  | some b =>
    simp only [Option.bind_some, Option.map_some]
    by_cases h : j < b.members.length
    · simp [h]
    · simp [h]

theorem val_write (m : Mem) (p : Place) (v : Option Nat) (x j : Nat) :
    (m.write p v).val x j = if p = .mem x j then (m.val x j).map (fun _ => v) else m.val x j := by
  cases p with
  | var i => simp [Mem.write, Mem.val]
  | mem o k =>
    simp only [Mem.write, Mem.val]
    cases h : m.objs[o]? with
    | none =>
      by_cases e : o = x
      · subst e; simp [h]
      · simp [e]
    | some b =>
      have hl : o < m.objs.length := (List.getElem?_eq_some_iff.mp h).1
      by_cases e : o = x
      · subst e
        simp only [List.getElem?_set_self hl, h, Option.bind_some, Place.mem.injEq, true_and]
        by_cases ek : k = j
        · subst ek
          by_cases hk : k < b.members.length
          · simp [hk]
          · simp [hk]
        · simp [ek]
      · simp [e, List.getElem?_set_ne]

theorem info_write (m : Mem) (p : Place) (v : Option Nat) (x : Nat) : (m.write p v).info x = m.info x := by
  cases p with
  | var i => simp [Mem.write, Mem.info]
  | mem o k =>
    simp only [Mem.write, Mem.info]
    cases h : m.objs[o]? with
    | none => rfl
    | some b =>
      have hl : o < m.objs.length := (List.getElem?_eq_some_iff.mp h).1
      by_cases e : o = x
      · subst e; simp [List.getElem?_set_self hl, h]
      · simp [e, List.getElem?_set_ne]

theorem vars_write (m : Mem) (p : Place) (v : Option Nat) : (m.write p v).vars.length = m.vars.length := by
  cases p with
  | var i => simp [Mem.write]
  | mem o k => simp only [Mem.write]; cases m.objs[o]? <;> simp

theorem objs_write (m : Mem) (p : Place) (v : Option Nat) : (m.write p v).objs.length = m.objs.length := by
  cases p with
  | var i => simp [Mem.write]
  | mem o k => simp only [Mem.write]; cases m.objs[o]? <;> simp

theorem read_write (m : Mem) (p q : Place) (v : Option Nat) :
    (m.write p v).read q = if p = q then (m.read q).map (fun _ => v) else m.read q := by
  cases q with
  | var i =>
    cases p with
    | var k =>
      simp only [Mem.read, Mem.write, Place.var.injEq]
      by_cases e : k = i
      · subst e
        by_cases hk : k < m.vars.length
        · simp [hk]
        · simp [hk]
      · simp [e]
    | mem o k => simp only [Mem.read, Mem.write]; cases m.objs[o]? <;> simp
  | mem x j =>
    rw [read_mem, read_mem, info_write, val_write]
    cases m.info x with
    | none => simp
    | some c =>
      obtain ⟨c, n, t⟩ := c
      cases t <;> simp

theorem info_lt {m : Mem} {x : Nat} : x < m.objs.length ↔ ∃ c, m.info x = some c := by
  simp only [Mem.info]
  constructor
  · intro h; rw [List.getElem?_eq_getElem h]; exact ⟨_, rfl⟩
  · intro ⟨c, h⟩
    cases e : m.objs[x]? with
    | none => simp [e] at h
    | some b => exact (List.getElem?_eq_some_iff.mp e).1

/-! ## Counting -/

def one (b : Bool) : Nat := if b then 1 else 0

theorem countP_set' {l : List (Option Nat)} {i : Nat} {c : Option Nat} (h : l[i]? = some c) (v : Option Nat) (y : Nat) :
    (l.set i v).countP (isTo y) + one (isTo y c) = l.countP (isTo y) + one (isTo y v) := by
  induction l generalizing i with
  | nil => simp at h
  | cons a l ih =>
    cases i with
    | zero =>
      simp only [List.getElem?_cons_zero, Option.some.injEq] at h
      subst h
      simp only [List.set_cons_zero, List.countP_cons, one]
      omega
    | succ i =>
      simp only [List.getElem?_cons_succ] at h
      have := ih h
      simp only [List.set_cons_succ, List.countP_cons]
      omega

theorem sum_set' (f : Obj → Nat) {l : List Obj} {i : Nat} {b : Obj} (h : l[i]? = some b) (b' : Obj) :
    ((l.set i b').map f).sum + f b = (l.map f).sum + f b' := by
  induction l generalizing i with
  | nil => simp at h
  | cons a l ih =>
    cases i with
    | zero =>
      simp only [List.getElem?_cons_zero, Option.some.injEq] at h
      subst h
      simp only [List.set_cons_zero, List.map_cons, List.sum_cons]
      omega
    | succ i =>
      simp only [List.getElem?_cons_succ] at h
      have := ih h
      simp only [List.set_cons_succ, List.map_cons, List.sum_cons]
      omega

theorem holders_write {m : Mem} {p : Place} {c : Option Nat} (h : m.read p = some c) (v : Option Nat) (T : List Task)
    (y : Nat) : holders (m.write p v) T y + one (isTo y c) = holders m T y + one (isTo y v) := by
  cases p with
  | var i =>
    simp only [Mem.read] at h
    have := countP_set' h v y
    simp only [holders, Mem.write]
    omega
  | mem o j =>
    simp only [Mem.read] at h
    cases e : m.objs[o]? with
    | none => simp [e] at h
    | some b =>
      simp only [e] at h
      split at h
      · have h1 := countP_set' h v y
        have h2 := sum_set' (fun b => b.members.countP (isTo y)) e { b with members := b.members.set j v }
        simp only [holders, Mem.write, e]
        simp only at h2
        omega
      · simp at h

theorem holders_cons (m : Mem) (t : Task) (T : List Task) (y : Nat) :
    holders m (t :: T) y = holders m T y + one (isTo y t.temp) := by
  simp only [holders, List.countP_cons, one]
  omega

theorem isTo_some (y x : Nat) : isTo y (some x) = decide (x = y) := by simp [isTo]
theorem isTo_none (y : Nat) : isTo y none = false := by simp [isTo]
theorem one_some (y x : Nat) : one (isTo y (some x)) = if x = y then 1 else 0 := by simp [one, isTo]
theorem one_none (y : Nat) : one (isTo y none) = 0 := by simp [one, isTo]

theorem holders_pos {m : Mem} {q : Place} {y : Nat} (h : m.read q = some (some y)) (T : List Task) : 0 < holders m T y := by
  have := holders_write h none T y
  rw [one_some, one_none] at this
  simp only [↓reduceIte] at this
  omega

/-- who holds an object: a pointer in memory, or a temporary -/
theorem holder_exists {m : Mem} {T : List Task} {y : Nat} (h : 0 < holders m T y) :
    (∃ i : Nat, m.vars[i]? = some (some y)) ∨ (∃ x j, m.val x j = some (some y)) ∨ ∃ t ∈ T, t.temp = some y := by
  simp only [holders] at h
  by_cases h1 : 0 < m.vars.countP (isTo y)
  · left
    obtain ⟨a, ha, e⟩ := List.countP_pos_iff.mp h1
    simp only [isTo, decide_eq_true_eq] at e
    subst e
    exact List.getElem?_of_mem ha
  · by_cases h2 : 0 < T.countP (fun t => isTo y t.temp)
    · right; right
      obtain ⟨t, ht, e⟩ := List.countP_pos_iff.mp h2
      simp only [isTo, decide_eq_true_eq] at e
      exact ⟨t, ht, e⟩
    · right; left
      have h3 : 0 < (m.objs.map fun b => b.members.countP (isTo y)).sum := by omega
      have : ∃ b ∈ m.objs, 0 < b.members.countP (isTo y) := by
        revert h3
        clear h h1 h2
        induction m.objs with
        | nil => simp
        | cons b l ih =>
          intro h3
          by_cases hb : 0 < b.members.countP (isTo y)
          · exact ⟨b, by simp, hb⟩
          · simp only [List.map_cons, List.sum_cons] at h3
            obtain ⟨b', hb', h'⟩ := ih (by omega)
            exact ⟨b', by simp [hb'], h'⟩
      obtain ⟨b, hb, h4⟩ := this
      obtain ⟨a, ha, e⟩ := List.countP_pos_iff.mp h4
      simp only [isTo, decide_eq_true_eq] at e
      subst e
      obtain ⟨x, hx⟩ := List.getElem?_of_mem hb
      obtain ⟨j, hj⟩ := List.getElem?_of_mem ha
      exact ⟨x, j, by simp [Mem.val, hx, hj]⟩

theorem holders_val {m : Mem} {x j y : Nat} (h : m.val x j = some (some y)) (T : List Task) : 0 < holders m T y := by
  simp only [Mem.val] at h
  cases e : m.objs[x]? with
  | none => simp [e] at h
  | some b =>
    simp only [e, Option.bind_some] at h
    have h1 := countP_set' h none y
    have h2 := sum_set' (fun b => b.members.countP (isTo y)) e { b with members := b.members.set j none }
    rw [one_some, one_none] at h1
    simp only [↓reduceIte] at h1 h2
    simp only [holders]
    omega

theorem holders_temp {m : Mem} {T : List Task} {t : Task} {y : Nat} (ht : t ∈ T) (e : t.temp = some y) :
    0 < holders m T y := by
  have : 0 < T.countP (fun t => isTo y t.temp) := List.countP_pos_iff.mpr ⟨t, ht, by simp [isTo, e]⟩
  simp only [holders]
  omega

/-! ## Busy places -/

theorem busy_settle (p : Place) (src : Src) (T : List Task) : busy (.settle p src :: T) = p :: busy T := rfl
theorem busy_body (o : Option Nat) (c : Nat) (obs : List (Option Nat)) (T : List Task) : busy (.body o c obs :: T) = busy T := rfl
theorem busy_members (x k : Nat) (T : List Task) : busy (.members x k :: T) = busy T := rfl

theorem mem_busy {p : Place} {T : List Task} : p ∈ busy T ↔ ∃ src, .settle p src ∈ T := by
  induction T with
  | nil => simp [busy]
  | cons t T ih =>
    cases t with
    | body o c obs => rw [busy_body]; simp [ih]
    | members x k => rw [busy_members]; simp [ih]
    | settle q src' =>
      rw [busy_settle]
      simp only [List.mem_cons, ih]
      constructor
      · rintro (e | ⟨src, h⟩)
        · exact ⟨src', Or.inl (by rw [e])⟩
        · exact ⟨src, Or.inr h⟩
      · rintro ⟨src, e | h⟩
        · left; injection e
        · exact Or.inr ⟨src, h⟩

theorem any_isIn {x : Nat} {B : List Place} : B.any (Place.isIn x) = false ↔ ∀ j, Place.mem x j ∉ B := by
  rw [List.any_eq_false]
  constructor
  · intro h j hj; have := h _ hj; simp [Place.isIn] at this
  · intro h p hp
    cases p with
    | var i => simp [Place.isIn]
    | mem o j =>
      simp only [Place.isIn, beq_iff_eq]
      rintro rfl
      exact h j hp

/-! ## The invariant of the specification -/

/-- what is below a task in the stack -/
def Pos : List Task → Prop
  | [] => True
  | .body this _ _ :: rest => (∀ o, this = some o → ∀ j, Place.mem o j ∉ busy rest) ∧ Pos rest
  | .settle _ _ :: rest => Pos rest
  | .members x _ :: rest =>
    ((∀ c obs, Task.body (some x) c obs ∉ rest) ∧ (∀ k, Task.members x k ∉ rest) ∧ ∀ j, Place.mem x j ∉ busy rest) ∧ Pos rest

structure Inv (m : Mem) (T : List Task) (log : List Ev) : Prop where
  dead : ∀ x, Ev.dtor x ∈ log → x < m.objs.length ∧ holders m T x = 0
  live : ∀ x, x < m.objs.length → Ev.dtor x ∉ log → 0 < holders m T x
  bound : ∀ x, m.objs.length ≤ x → holders m T x = 0
  pos : Pos T
  body : ∀ x c obs, Task.body (some x) c obs ∈ T → Ev.dtor x ∈ log
  pending : ∀ x k, Task.members x k ∈ T → Ev.dtor x ∈ log ∧ Ev.free x ∉ log
  clean : ∀ x k, Task.members x k ∈ T → ∀ c n t, m.info x = some (c, n, t) →
    k ≤ n ∧ (∀ j, k ≤ j → j < n → m.val x j = some none ∨ Task.settle (.mem x j) .null ∈ T) ∧
    (k < n → (∀ c obs, Task.body (some x) c obs ∉ T) ∧ ∀ j src, Task.settle (.mem x j) src ∈ T → src = .null)
  there : ∀ x c n t, m.info x = some (c, n, t) → (t = false ↔ Ev.free x ∈ log)
  gone : ∀ x, Ev.free x ∈ log → ∀ j v, m.val x j = some v → v = none
  ended : ∀ x, Ev.dtor x ∈ log → Ev.free x ∈ log ∨ ∃ k, Task.members x k ∈ T
  dtorOnce : ∀ x, log.count (Ev.dtor x) ≤ 1
  freeOnce : ∀ x, log.count (Ev.free x) ≤ 1
  freed : ∀ x, Ev.free x ∈ log → Ev.dtor x ∈ log

theorem Inv.lt_of_holders {m : Mem} {T : List Task} {log : List Ev} (h : Inv m T log) {y : Nat} (hy : 0 < holders m T y) :
    y < m.objs.length ∧ Ev.dtor y ∉ log := by
  constructor
  · apply Nat.lt_of_not_le
    intro hn
    have := h.bound y hn
    omega
  · intro hd
    have := (h.dead y hd).2
    omega

/-- a pointer lets go, and it is not the last one -/
theorem Inv.letGo {m : Mem} {T : List Task} {log : List Ev} (h : Inv m T log) {p : Place} {x : Nat}
    (hr : m.read p = some (some x)) (hx : holders (m.write p none) T x ≠ 0) : Inv (m.write p none) T log := by
  have hw := fun y => holders_write hr none T y
  simp only [one_some, one_none] at hw
  constructor
  · intro y hy; obtain ⟨a, b⟩ := h.dead y hy
    exact ⟨by rw [objs_write]; exact a, by have := hw y; omega⟩
  · intro y hy hd
    rw [objs_write] at hy
    have := h.live y hy hd
    by_cases e : x = y
    · subst e; omega
    · have := hw y; simp only [e, if_false] at this; omega
  · intro y hy
    rw [objs_write] at hy
    have := h.bound y hy; have := hw y; omega
  · exact h.pos
  · exact h.body
  · exact h.pending
  · intro y k hk c n t hi
    rw [info_write] at hi
    obtain ⟨a, b, d⟩ := h.clean y k hk c n t hi
    refine ⟨a, fun j h1 h2 => ?_, d⟩
    rw [val_write]
    split
    · rename_i e
      left
      have : (m.val y j).isSome := by rw [val_isSome, hi]; simp [h2]
      obtain ⟨v, hv⟩ := Option.isSome_iff_exists.mp this
      simp [hv]
    · exact b j h1 h2
  · intro y c n t hi; rw [info_write] at hi; exact h.there y c n t hi
  · intro y hf j v hv
    rw [val_write] at hv
    split at hv
    · cases e : m.val y j with
      | none => simp [e] at hv
      | some w => simp [e] at hv; exact hv.symm
    · exact h.gone y hf j v hv
  · exact h.ended
  · exact h.dtorOnce
  · exact h.freeOnce
  · exact h.freed

/-- the last pointer lets go -/
theorem Inv.destroy {m : Mem} {p : Place} {src : Src} {rest : List Task} {log : List Ev}
    (h : Inv m (.settle p src :: rest) log) {x : Nat} (hr : m.read p = some (some x))
    (hx : holders (m.write p none) (.settle p src :: rest) x = 0)
    (hb : ∀ j, Place.mem x j ∉ busy (.settle p src :: rest)) {c n : Nat} {t : Bool} (hi : m.info x = some (c, n, t)) :
    Inv (m.write p none) (.body (some x) c [] :: .members x n :: .settle p src :: rest) (log ++ [.dtor x]) := by
  have hw := fun y => holders_write hr none (.settle p src :: rest) y
  simp only [one_some, one_none] at hw
  have hh : ∀ y, holders (m.write p none) (.body (some x) c [] :: .members x n :: .settle p src :: rest) y =
      holders (m.write p none) (.settle p src :: rest) y := by
    intro y
    rw [holders_cons _ (.body _ _ _), holders_cons _ (.members _ _)]
    simp only [Task.temp, one_none]; omega
  have hpos : 0 < holders m (.settle p src :: rest) x := holders_pos hr _
  obtain ⟨hlt, hnd⟩ := h.lt_of_holders hpos
  have hnf : Ev.free x ∉ log := fun hf => hnd (h.freed x hf)
  have hnb : ∀ c obs, Task.body (some x) c obs ∉ (.settle p src :: rest) := fun c obs hm => hnd (h.body x c obs hm)
  have hnm : ∀ k, Task.members x k ∉ (.settle p src :: rest) := fun k hm => hnd (h.pending x k hm).1
  constructor
  · intro y hy
    rw [objs_write, hh]
    simp only [List.mem_append, List.mem_singleton, Ev.dtor.injEq] at hy
    rcases hy with hy | rfl
    · obtain ⟨a, b⟩ := h.dead y hy
      exact ⟨a, by have := hw y; omega⟩
    · exact ⟨hlt, hx⟩
  · intro y hy hd
    rw [objs_write] at hy
    rw [hh]
    simp only [List.mem_append, List.mem_singleton, Ev.dtor.injEq, not_or] at hd
    have := h.live y hy hd.1
    have h2 := hw y
    rw [if_neg (fun e => hd.2 e.symm)] at h2
    omega
  · intro y hy
    rw [objs_write] at hy
    rw [hh]
    have := h.bound y hy; have := hw y; omega
  · refine ⟨?_, ⟨hnb, hnm, hb⟩, h.pos⟩
    intro o ho j
    injection ho with ho
    subst ho
    rw [busy_members]
    exact hb j
  · intro y c' obs hm
    simp only [List.mem_append, List.mem_singleton]
    rcases List.mem_cons.mp hm with e | hm
    · injection e with e1; injection e1 with e1; subst e1; exact Or.inr rfl
    · rcases List.mem_cons.mp hm with e | hm
      · cases e
      · exact Or.inl (h.body y c' obs hm)
  · intro y k hm
    simp only [List.mem_append, List.mem_singleton, not_or]
    rcases List.mem_cons.mp hm with e | hm
    · cases e
    · rcases List.mem_cons.mp hm with e | hm
      · injection e with e1 e2; subst e1; exact ⟨Or.inr rfl, hnf, by simp⟩
      · obtain ⟨a, b⟩ := h.pending y k hm; exact ⟨Or.inl a, b, by simp⟩
  · intro y k hm c' n' t' hi'
    rw [info_write] at hi'
    rcases List.mem_cons.mp hm with e | hm
    · cases e
    · rcases List.mem_cons.mp hm with e | hm
      · injection e with e1 e2; subst e1; subst e2
        rw [hi] at hi'
        simp only [Option.some.injEq, Prod.mk.injEq] at hi'
        obtain ⟨_, e2, _⟩ := hi'
        subst e2
        refine ⟨Nat.le_refl _, fun j h1 h2 => ?_, fun h1 => ?_⟩
        · omega
        · omega
      · have hyx : y ≠ x := fun e => hnm k (e ▸ hm)
        obtain ⟨a, b, d⟩ := h.clean y k hm c' n' t' hi'
        refine ⟨a, fun j h1 h2 => ?_, fun h1 => ?_⟩
        · rcases b j h1 h2 with e | e
          · left
            rw [val_write, e]
            split <;> rfl
          · exact Or.inr (List.mem_cons_of_mem _ (List.mem_cons_of_mem _ e))
        · obtain ⟨d1, d2⟩ := d h1
          refine ⟨fun c' obs hm' => ?_, fun j src' hm' => ?_⟩
          · rcases List.mem_cons.mp hm' with e | hm'
            · injection e with e1; injection e1 with e1; exact hyx e1
            · rcases List.mem_cons.mp hm' with e | hm'
              · cases e
              · exact d1 c' obs hm'
          · rcases List.mem_cons.mp hm' with e | hm'
            · cases e
            · rcases List.mem_cons.mp hm' with e | hm'
              · cases e
              · exact d2 j src' hm'
  · intro y c' n' t' hi'
    rw [info_write] at hi'
    rw [h.there y c' n' t' hi']
    simp
  · intro y hf j v hv
    simp only [List.mem_append, List.mem_singleton, reduceCtorEq, or_false] at hf
    rw [val_write] at hv
    split at hv
    · cases e : m.val y j with
      | none => simp [e] at hv
      | some w => simp [e] at hv; exact hv.symm
    · exact h.gone y hf j v hv
  · intro y hy
    simp only [List.mem_append, List.mem_singleton, Ev.dtor.injEq, reduceCtorEq, or_false] at hy ⊢
    rcases hy with hy | rfl
    · rcases h.ended y hy with e | ⟨k, e⟩
      · exact Or.inl e
      · exact Or.inr ⟨k, List.mem_cons_of_mem _ (List.mem_cons_of_mem _ e)⟩
    · exact Or.inr ⟨n, by simp⟩
  · intro y
    rw [List.count_append]
    have := h.dtorOnce y
    by_cases e : x = y
    · subst e
      have h0 : log.count (Ev.dtor x) = 0 := List.count_eq_zero.mpr hnd
      simp [h0]
    · simp [e]; exact this
  · intro y
    rw [List.count_append]
    have := h.freeOnce y
    simp; exact this
  · intro y hf
    simp only [List.mem_append, List.mem_singleton, reduceCtorEq, or_false] at hf ⊢
    exact Or.inl (h.freed y hf)

/-- writing `v` to the null pointer `p`, where `v` is held by someone (who may let go at the same time) -/
theorem Inv.put {m : Mem} {p : Place} {src : Src} {rest : List Task} {log : List Ev}
    (h : Inv m (.settle p src :: rest) log) {m' : Mem}
    (hinfo : ∀ x, m'.info x = m.info x) (hlen : m'.objs.length = m.objs.length)
    (hhold : ∀ y, (0 < holders m' rest y ↔ 0 < holders m (.settle p src :: rest) y))
    (hval : ∀ x j, m'.val x j = m.val x j ∨ m'.val x j = some none ∨ (p = .mem x j ∧ src ≠ .null))
    (hnull : src = .null → ∀ x j, p = .mem x j → m'.val x j = some none)
    (hfree : ∀ x j, p = .mem x j → Ev.free x ∉ log ∧ (m.val x j).isSome) : Inv m' rest log := by
  constructor
  · intro y hy; obtain ⟨a, b⟩ := h.dead y hy
    refine ⟨by rw [hlen]; exact a, ?_⟩
    have := hhold y
    omega
  · intro y hy hd
    rw [hlen] at hy
    exact (hhold y).mpr (h.live y hy hd)
  · intro y hy
    rw [hlen] at hy
    have := h.bound y hy
    have := hhold y
    omega
  · exact h.pos
  · intro x c obs hm; exact h.body x c obs (List.mem_cons_of_mem _ hm)
  · intro x k hm; exact h.pending x k (List.mem_cons_of_mem _ hm)
  · intro x k hm c n t hi
    rw [hinfo] at hi
    obtain ⟨a, b, d⟩ := h.clean x k (List.mem_cons_of_mem _ hm) c n t hi
    refine ⟨a, fun j h1 h2 => ?_, fun h1 => ⟨fun c obs hm' => (d h1).1 c obs (List.mem_cons_of_mem _ hm'),
      fun j src' hm' => (d h1).2 j src' (List.mem_cons_of_mem _ hm')⟩⟩
    rcases hval x j with e | e | ⟨e, e'⟩
    · rw [e]
      rcases b j h1 h2 with e | e
      · exact Or.inl e
      · rcases List.mem_cons.mp e with e | e
        · injection e with e1 e2
          left
          rw [← ‹m'.val x j = m.val x j›]
          exact hnull e2.symm x j e1.symm
        · exact Or.inr e
    · exact Or.inl e
    · exfalso
      have hkn : k < n := by omega
      exact e' ((d hkn).2 j src (by rw [e]; simp))
  · intro x c n t hi; rw [hinfo] at hi; exact h.there x c n t hi
  · intro x hf j v hv
    rcases hval x j with e | e | ⟨e, _⟩
    · exact h.gone x hf j v (by rw [← e]; exact hv)
    · rw [e] at hv; injection hv with hv; exact hv.symm
    · exact absurd hf (hfree x j e).1
  · intro x hx
    rcases h.ended x hx with e | ⟨k, e⟩
    · exact Or.inl e
    · rcases List.mem_cons.mp e with e | e
      · cases e
      · exact Or.inr ⟨k, e⟩
  · exact h.dtorOnce
  · exact h.freeOnce
  · exact h.freed

theorem read_there {m : Mem} {T : List Task} {log : List Ev} (h : Inv m T log) {x j : Nat} {v : Option Nat}
    (hr : m.read (.mem x j) = some v) : Ev.free x ∉ log ∧ m.val x j = some v := by
  rw [read_mem] at hr
  cases e : m.info x with
  | none => simp [e] at hr
  | some c =>
    obtain ⟨c, n, t⟩ := c
    simp only [e] at hr
    cases t with
    | false => simp at hr
    | true =>
      simp only [if_true] at hr
      refine ⟨fun hf => ?_, hr⟩
      have := (h.there x c n true e).mpr hf
      simp at this

theorem Inv.finish {m : Mem} {p : Place} {src : Src} {rest : List Task} {log : List Ev}
    (h : Inv m (.settle p src :: rest) log) (hp : m.read p = some none) {m' : Mem} (hf : finish m p src = some m') :
    Inv m' rest log := by
  have hfree : ∀ x j, p = .mem x j → Ev.free x ∉ log ∧ (m.val x j).isSome := by
    rintro x j rfl
    obtain ⟨a, b⟩ := read_there h hp
    exact ⟨a, by rw [b]; rfl⟩
  cases src with
  | null =>
    simp only [Dtor.finish, Option.some.injEq] at hf
    subst hf
    refine h.put (fun _ => rfl) rfl (fun y => ?_) (fun x j => Or.inl rfl) (fun _ x j e => ?_) hfree
    · rw [holders_cons]; simp only [Task.temp, one_none]; omega
    · subst e; exact (read_there h hp).2
  | obj o =>
    simp only [Dtor.finish, Option.some.injEq] at hf
    subst hf
    refine h.put (info_write m p _) (objs_write m p _) (fun y => ?_) (fun x j => ?_) (by simp) hfree
    · have := holders_write hp (some o) rest y
      rw [holders_cons]; simp only [Task.temp]
      rw [one_none] at this; omega
    · rw [val_write]; split
      · right; right; exact ⟨‹_›, by simp⟩
      · exact Or.inl rfl
  | copy q =>
    simp only [Dtor.finish, Option.map_eq_some_iff] at hf
    obtain ⟨v, hv, rfl⟩ := hf
    refine h.put (info_write m p _) (objs_write m p _) (fun y => ?_) (fun x j => ?_) (by simp) hfree
    · have := holders_write hp v rest y
      rw [holders_cons]; simp only [Task.temp]
      rw [one_none] at this
      rw [one_none]
      by_cases e : v = some y
      · subst e
        have h1 := holders_pos hv rest
        omega
      · have : one (isTo y v) = 0 := by simp [one, isTo, e]
        omega
    · rw [val_write]; split
      · right; right; exact ⟨‹_›, by simp⟩
      · exact Or.inl rfl
  | move q =>
    simp only [Dtor.finish, Option.map_eq_some_iff] at hf
    obtain ⟨v, hv, rfl⟩ := hf
    have hp' : (m.write q none).read p = some none := by rw [read_write]; split <;> simp [hp]
    refine h.put (fun x => by rw [info_write, info_write]) (by rw [objs_write, objs_write]) (fun y => ?_) (fun x j => ?_)
      (by simp) hfree
    · have h1 := holders_write hp' v rest y
      have h2 := holders_write hv none rest y
      rw [holders_cons]; simp only [Task.temp]
      rw [one_none] at h1 h2
      rw [one_none]
      omega
    · rw [val_write]; split
      · right; right; exact ⟨‹_›, by simp⟩
      · rw [val_write]; split
        · rename_i e
          subst e
          right; left
          rw [(read_there h hv).2]; rfl
        · exact Or.inl rfl

theorem Inv.assign {s : State} {p : Place} {src : Src} {rest : List Task}
    (h : Inv s.mem (.settle p src :: rest) s.log) {s' : State} (hs : assign s p src rest = some s') :
    Inv s'.mem s'.todo s'.log := by
  simp only [Dtor.assign] at hs
  split at hs
  · cases hs
  · rename_i hp
    simp only [Option.map_eq_some_iff] at hs
    obtain ⟨m, hm, rfl⟩ := hs
    exact h.finish hp hm
  · rename_i x hp
    split at hs
    · rename_i h0
      simp only [Dtor.destroy] at hs
      split at hs
      · cases hs
      · rename_i hb
        split at hs
        · cases hs
        · rename_i b hb'
          injection hs with hs
          subst hs
          have hi : (s.mem.write p none).info x = some (b.cls, b.members.length, b.there) := by
            simp only [Mem.info]; rw [hb']; rfl
          rw [info_write] at hi
          exact h.destroy hp h0 (any_isIn.mp (by simpa using hb)) hi
    · rename_i h0
      simp only [Option.map_eq_some_iff] at hs
      obtain ⟨m, hm, rfl⟩ := hs
      exact (h.letGo hp h0).finish (by rw [read_write]; simp [hp]) hm

/-- the answers of a body do not matter -/
theorem Inv.next {m : Mem} {this : Option Nat} {cls : Nat} {obs obs' : List (Option Nat)} {rest : List Task} {log : List Ev}
    (h : Inv m (.body this cls obs :: rest) log) : Inv m (.body this cls obs' :: rest) log := by
  have hb : ∀ x c o, Task.body (some x) c o ∈ (.body this cls obs' :: rest) → ∃ o', Task.body (some x) c o' ∈ (.body this cls obs :: rest) := by
    intro x c o hm
    rcases List.mem_cons.mp hm with e | hm
    · injection e with e1 e2 e3; subst e1; subst e2; exact ⟨obs, by simp⟩
    · exact ⟨o, List.mem_cons_of_mem _ hm⟩
  have hmem : ∀ t, t ∈ (.body this cls obs' :: rest) → (∀ x c o, t ≠ Task.body x c o) → t ∈ (.body this cls obs :: rest) := by
    intro t ht hne
    rcases List.mem_cons.mp ht with e | ht
    · exact absurd e (hne _ _ _)
    · exact List.mem_cons_of_mem _ ht
  have hh : ∀ y, holders m (.body this cls obs' :: rest) y = holders m (.body this cls obs :: rest) y := by
    intro y; rw [holders_cons, holders_cons]; rfl
  constructor
  · intro x hx; rw [hh]; exact h.dead x hx
  · intro x hx hd; rw [hh]; exact h.live x hx hd
  · intro x hx; rw [hh]; exact h.bound x hx
  · exact h.pos
  · intro x c o hm; obtain ⟨o', h'⟩ := hb x c o hm; exact h.body x c o' h'
  · intro x k hm; exact h.pending x k (hmem _ hm (by simp))
  · intro x k hm c n t hi
    obtain ⟨a, b, d⟩ := h.clean x k (hmem _ hm (by simp)) c n t hi
    refine ⟨a, fun j h1 h2 => ?_, fun h1 => ⟨fun c o hm' => ?_, fun j src hm' => (d h1).2 j src (hmem _ hm' (by simp))⟩⟩
    · rcases b j h1 h2 with e | e
      · exact Or.inl e
      · rcases List.mem_cons.mp e with e | e
        · cases e
        · exact Or.inr (List.mem_cons_of_mem _ e)
    · obtain ⟨o', h'⟩ := hb x c o hm'; exact (d h1).1 c o' h'
  · exact h.there
  · exact h.gone
  · intro x hx
    rcases h.ended x hx with e | ⟨k, e⟩
    · exact Or.inl e
    · rcases List.mem_cons.mp e with e | e
      · cases e
      · exact Or.inr ⟨k, List.mem_cons_of_mem _ e⟩
  · exact h.dtorOnce
  · exact h.freeOnce
  · exact h.freed

/-- a statement begins to assign `p` -/
theorem Inv.push {m : Mem} {T : List Task} {log : List Ev} (h : Inv m T log) {p : Place} {src : Src}
    (htemp : Task.temp (.settle p src) = none)
    (hp : ∀ x j, p = .mem x j → (∃ c obs, Task.body (some x) c obs ∈ T) ∨ Ev.dtor x ∉ log) :
    Inv m (.settle p src :: T) log := by
  have hh : ∀ y, holders m (.settle p src :: T) y = holders m T y := by
    intro y; rw [holders_cons, htemp, one_none]; rfl
  constructor
  · intro x hx; rw [hh]; exact h.dead x hx
  · intro x hx hd; rw [hh]; exact h.live x hx hd
  · intro x hx; rw [hh]; exact h.bound x hx
  · exact h.pos
  · intro x c o hm
    rcases List.mem_cons.mp hm with e | hm
    · cases e
    · exact h.body x c o hm
  · intro x k hm
    rcases List.mem_cons.mp hm with e | hm
    · cases e
    · exact h.pending x k hm
  · intro x k hm c n t hi
    rcases List.mem_cons.mp hm with e | hm
    · cases e
    · obtain ⟨a, b, d⟩ := h.clean x k hm c n t hi
      refine ⟨a, fun j h1 h2 => ?_, fun h1 => ⟨fun c o hm' => ?_, fun j src' hm' => ?_⟩⟩
      · rcases b j h1 h2 with e | e
        · exact Or.inl e
        · exact Or.inr (List.mem_cons_of_mem _ e)
      · rcases List.mem_cons.mp hm' with e | hm'
        · cases e
        · exact (d h1).1 c o hm'
      · rcases List.mem_cons.mp hm' with e | hm'
        · injection e with e1 e2
          rcases hp x j e1.symm with ⟨c', obs, hb⟩ | hb
          · exact absurd hb ((d h1).1 c' obs)
          · exact absurd (h.pending x k hm).1 hb
        · exact (d h1).2 j src' hm'
  · exact h.there
  · exact h.gone
  · intro x hx
    rcases h.ended x hx with e | ⟨k, e⟩
    · exact Or.inl e
    · exact Or.inr ⟨k, List.mem_cons_of_mem _ e⟩
  · exact h.dtorOnce
  · exact h.freeOnce
  · exact h.freed

theorem place_mem {m : Mem} {this : Option Nat} {r : Ref} {x j : Nat} (h : m.place this r = some (.mem x j)) :
    this = some x ∨ ∃ q, m.read q = some (some x) := by
  cases r with
  | var i => simp [Mem.place] at h
  | own k =>
    left
    simp only [Mem.place, Option.map_eq_some_iff, Place.mem.injEq] at h
    obtain ⟨o, ho, rfl, _⟩ := h
    exact ho
  | via r k =>
    right
    simp only [Mem.place] at h
    split at h
    · cases h
    · rename_i q _
      split at h
      · rename_i o ho
        injection h with h
        injection h with h1 h2
        subst h1
        exact ⟨q, ho⟩
      · cases h

def Mem.add (m : Mem) (b : Obj) : Mem := { m with objs := m.objs ++ [b] }

theorem info_add (m : Mem) (b : Obj) (x : Nat) :
    (m.add b).info x = if x = m.objs.length then some (b.cls, b.members.length, b.there) else m.info x := by
  simp only [Mem.add, Mem.info]
  by_cases h : x < m.objs.length
  · rw [List.getElem?_append_left h, if_neg (by omega)]
  · by_cases e : x = m.objs.length
    · subst e; simp
    · rw [if_neg e, List.getElem?_eq_none (by simp; omega), List.getElem?_eq_none (by omega)]

theorem val_add (m : Mem) (b : Obj) (x j : Nat) :
    (m.add b).val x j = if x = m.objs.length then b.members[j]? else m.val x j := by
  simp only [Mem.add, Mem.val]
  by_cases h : x < m.objs.length
  · rw [List.getElem?_append_left h, if_neg (by omega)]
  · by_cases e : x = m.objs.length
    · subst e; simp
    · rw [if_neg e, List.getElem?_eq_none (by simp; omega), List.getElem?_eq_none (by omega)]

theorem read_add (m : Mem) (b : Obj) (q : Place) {v : Option Nat} (h : m.read q = some v) : (m.add b).read q = some v := by
  cases q with
  | var i => exact h
  | mem x j =>
    rw [read_mem, info_add, val_add]
    rw [read_mem] at h
    have : x ≠ m.objs.length := by
      rintro rfl
      simp [Mem.info] at h
    rw [if_neg this, if_neg this]
    exact h

theorem holders_add (m : Mem) (c n : Nat) (t : Bool) (T : List Task) (y : Nat) :
    holders (m.add ⟨c, List.replicate n none, t⟩) T y = holders m T y := by
  simp [holders, Mem.add, List.countP_replicate, isTo]

theorem Inv.make {m : Mem} {T : List Task} {log : List Ev} (h : Inv m T log) {p : Place} (c n : Nat)
    (hp : ∀ x j, p = .mem x j → (∃ c obs, Task.body (some x) c obs ∈ T) ∨ Ev.dtor x ∉ log) :
    Inv (m.add ⟨c, List.replicate n none, true⟩) (.settle p (.obj m.objs.length) :: T) log := by
  have hh : ∀ y, holders (m.add ⟨c, List.replicate n none, true⟩) (.settle p (.obj m.objs.length) :: T) y =
      holders m T y + if m.objs.length = y then 1 else 0 := by
    intro y; rw [holders_cons, holders_add]; simp only [Task.temp, one_some]
  have hl : (m.add ⟨c, List.replicate n none, true⟩).objs.length = m.objs.length + 1 := by simp [Mem.add]
  constructor
  · intro x hx
    obtain ⟨a, b⟩ := h.dead x hx
    rw [hl, hh, if_neg (by omega)]
    exact ⟨by omega, by omega⟩
  · intro x hx hd
    rw [hl] at hx
    rw [hh]
    by_cases e : m.objs.length = x
    · rw [if_pos e]; omega
    · have := h.live x (by omega) hd; omega
  · intro x hx
    rw [hl] at hx
    rw [hh, if_neg (by omega)]
    have := h.bound x (by omega); omega
  · exact h.pos
  · intro x c o hm
    rcases List.mem_cons.mp hm with e | hm
    · cases e
    · exact h.body x c o hm
  · intro x k hm
    rcases List.mem_cons.mp hm with e | hm
    · cases e
    · exact h.pending x k hm
  · intro x k hm c' n' t hi
    rcases List.mem_cons.mp hm with e | hm
    · cases e
    · have hx : x ≠ m.objs.length := by
        have := (h.dead x (h.pending x k hm).1).1; omega
      rw [info_add, if_neg hx] at hi
      obtain ⟨a, b, d⟩ := h.clean x k hm c' n' t hi
      refine ⟨a, fun j h1 h2 => ?_, fun h1 => ⟨fun c o hm' => ?_, fun j src' hm' => ?_⟩⟩
      · rw [val_add, if_neg hx]
        rcases b j h1 h2 with e | e
        · exact Or.inl e
        · exact Or.inr (List.mem_cons_of_mem _ e)
      · rcases List.mem_cons.mp hm' with e | hm'
        · cases e
        · exact (d h1).1 c o hm'
      · rcases List.mem_cons.mp hm' with e | hm'
        · injection e with e1 e2
          rcases hp x j e1.symm with ⟨c', obs, hb⟩ | hb
          · exact absurd hb ((d h1).1 c' obs)
          · exact absurd (h.pending x k hm).1 hb
        · exact (d h1).2 j src' hm'
  · intro x c' n' t hi
    rw [info_add] at hi
    split at hi
    · rename_i e
      simp only [Option.some.injEq, Prod.mk.injEq] at hi
      obtain ⟨_, _, rfl⟩ := hi
      constructor
      · intro e'; cases e'
      · intro hf
        have := (h.dead x (h.freed x hf)).1; omega
    · exact h.there x c' n' t hi
  · intro x hf j v hv
    have hx : x ≠ m.objs.length := by
      have := (h.dead x (h.freed x hf)).1; omega
    rw [val_add, if_neg hx] at hv
    exact h.gone x hf j v hv
  · intro x hx
    rcases h.ended x hx with e | ⟨k, e⟩
    · exact Or.inl e
    · exact Or.inr ⟨k, List.mem_cons_of_mem _ e⟩
  · exact h.dtorOnce
  · exact h.freeOnce
  · exact h.freed

theorem Inv.pop {m : Mem} {this : Option Nat} {cls : Nat} {obs : List (Option Nat)} {rest : List Task} {log : List Ev}
    (h : Inv m (.body this cls obs :: rest) log) : Inv m rest log := by
  have hh : ∀ y, holders m (.body this cls obs :: rest) y = holders m rest y := by
    intro y; rw [holders_cons]; simp only [Task.temp, one_none]; omega
  constructor
  · intro x hx; rw [← hh]; exact h.dead x hx
  · intro x hx hd; rw [← hh]; exact h.live x hx hd
  · intro x hx; rw [← hh]; exact h.bound x hx
  · exact h.pos.2
  · intro x c o hm; exact h.body x c o (List.mem_cons_of_mem _ hm)
  · intro x k hm; exact h.pending x k (List.mem_cons_of_mem _ hm)
  · intro x k hm c n t hi
    obtain ⟨a, b, d⟩ := h.clean x k (List.mem_cons_of_mem _ hm) c n t hi
    refine ⟨a, fun j h1 h2 => ?_, fun h1 => ⟨fun c o hm' => (d h1).1 c o (List.mem_cons_of_mem _ hm'),
      fun j src hm' => (d h1).2 j src (List.mem_cons_of_mem _ hm')⟩⟩
    rcases b j h1 h2 with e | e
    · exact Or.inl e
    · rcases List.mem_cons.mp e with e | e
      · cases e
      · exact Or.inr e
  · exact h.there
  · exact h.gone
  · intro x hx
    rcases h.ended x hx with e | ⟨k, e⟩
    · exact Or.inl e
    · rcases List.mem_cons.mp e with e | e
      · cases e
      · exact Or.inr ⟨k, e⟩
  · exact h.dtorOnce
  · exact h.freeOnce
  · exact h.freed

theorem Inv.saw {m : Mem} {T : List Task} {log : List Ev} (h : Inv m T log) (v : Option Nat) : Inv m T (log ++ [.saw v]) := by
  have hd : ∀ x, Ev.dtor x ∈ log ++ [.saw v] ↔ Ev.dtor x ∈ log := by intro x; simp
  have hf : ∀ x, Ev.free x ∈ log ++ [.saw v] ↔ Ev.free x ∈ log := by intro x; simp
  constructor
  · intro x hx; exact h.dead x ((hd x).mp hx)
  · intro x hx hn; exact h.live x hx (fun e => hn ((hd x).mpr e))
  · exact h.bound
  · exact h.pos
  · intro x c o hm; exact (hd x).mpr (h.body x c o hm)
  · intro x k hm; rw [hd, hf]; exact h.pending x k hm
  · exact h.clean
  · intro x c n t hi; rw [hf]; exact h.there x c n t hi
  · intro x hx; exact h.gone x ((hf x).mp hx)
  · intro x hx; rw [hf]; exact h.ended x ((hd x).mp hx)
  · intro x; rw [List.count_append]; simp; exact h.dtorOnce x
  · intro x; rw [List.count_append]; simp; exact h.freeOnce x
  · intro x hx; exact (hd x).mpr (h.freed x ((hf x).mp hx))

/-- the next member of `x` lets go -/
theorem Inv.member {m : Mem} {x k : Nat} {rest : List Task} {log : List Ev} (h : Inv m (.members x (k + 1) :: rest) log) :
    Inv m (.settle (.mem x k) .null :: .members x k :: rest) log := by
  have hh : ∀ y, holders m (.settle (.mem x k) .null :: .members x k :: rest) y = holders m (.members x (k + 1) :: rest) y := by
    intro y; rw [holders_cons, holders_cons, holders_cons]; simp only [Task.temp, one_none]
  obtain ⟨⟨p1, p2, p3⟩, p4⟩ := h.pos
  have hmem : ∀ y k', Task.members y k' ∈ (.settle (.mem x k) .null :: .members x k :: rest) →
      (y = x ∧ k' = k) ∨ (y ≠ x ∧ Task.members y k' ∈ rest) := by
    intro y k' hm
    rcases List.mem_cons.mp hm with e | hm
    · cases e
    · rcases List.mem_cons.mp hm with e | hm
      · injection e with e1 e2; exact Or.inl ⟨e1, e2⟩
      · exact Or.inr ⟨fun e => p2 k' (e ▸ hm), hm⟩
  have hbody : ∀ y c o, Task.body (some y) c o ∈ (.settle (.mem x k) .null :: .members x k :: rest) →
      Task.body (some y) c o ∈ rest := by
    intro y c o hm
    rcases List.mem_cons.mp hm with e | hm
    · cases e
    · rcases List.mem_cons.mp hm with e | hm
      · cases e
      · exact hm
  constructor
  · intro y hy; rw [hh]; exact h.dead y hy
  · intro y hy hd; rw [hh]; exact h.live y hy hd
  · intro y hy; rw [hh]; exact h.bound y hy
  · exact ⟨⟨p1, p2, p3⟩, p4⟩
  · intro y c o hm; exact h.body y c o (List.mem_cons_of_mem _ (hbody y c o hm))
  · intro y k' hm
    rcases hmem y k' hm with ⟨rfl, rfl⟩ | ⟨_, hm⟩
    · exact h.pending y (k' + 1) (by simp)
    · exact h.pending y k' (List.mem_cons_of_mem _ hm)
  · intro y k' hm c n t hi
    rcases hmem y k' hm with ⟨rfl, rfl⟩ | ⟨hne, hm⟩
    · obtain ⟨a, b, d⟩ := h.clean y (k' + 1) (by simp) c n t hi
      refine ⟨by omega, fun j h1 h2 => ?_, fun h1 => ⟨fun c o hm' => p1 c o (hbody y c o hm'), fun j src hm' => ?_⟩⟩
      · by_cases e : j = k'
        · subst e; exact Or.inr (by simp)
        · rcases b j (by omega) h2 with e | e
          · exact Or.inl e
          · rcases List.mem_cons.mp e with e | e
            · cases e
            · exact absurd (mem_busy.mpr ⟨_, e⟩) (p3 j)
      · rcases List.mem_cons.mp hm' with e | hm'
        · injection e with e1 e2
        · rcases List.mem_cons.mp hm' with e | hm'
          · cases e
          · exact absurd (mem_busy.mpr ⟨_, hm'⟩) (p3 j)
    · obtain ⟨a, b, d⟩ := h.clean y k' (List.mem_cons_of_mem _ hm) c n t hi
      refine ⟨a, fun j h1 h2 => ?_, fun h1 => ⟨fun c o hm' => (d h1).1 c o (List.mem_cons_of_mem _ (hbody y c o hm')),
        fun j src hm' => ?_⟩⟩
      · rcases b j h1 h2 with e | e
        · exact Or.inl e
        · rcases List.mem_cons.mp e with e | e
          · cases e
          · exact Or.inr (List.mem_cons_of_mem _ (List.mem_cons_of_mem _ e))
      · rcases List.mem_cons.mp hm' with e | hm'
        · injection e with e1 e2
        · rcases List.mem_cons.mp hm' with e | hm'
          · cases e
          · exact (d h1).2 j src (List.mem_cons_of_mem _ hm')
  · exact h.there
  · exact h.gone
  · intro y hy
    rcases h.ended y hy with e | ⟨k', e⟩
    · exact Or.inl e
    · rcases List.mem_cons.mp e with e | e
      · injection e with e1 e2; subst e1; exact Or.inr ⟨k, by simp⟩
      · exact Or.inr ⟨k', List.mem_cons_of_mem _ (List.mem_cons_of_mem _ e)⟩
  · exact h.dtorOnce
  · exact h.freeOnce
  · exact h.freed

/-- the memory of `x` is released -/
theorem Inv.release {m : Mem} {x : Nat} {rest : List Task} {log : List Ev} (h : Inv m (.members x 0 :: rest) log)
    {b : Obj} (hb : m.objs[x]? = some b) :
    Inv { m with objs := m.objs.set x { b with there := false } } rest (log ++ [.free x]) := by
  have hlt : x < m.objs.length := (List.getElem?_eq_some_iff.mp hb).1
  obtain ⟨⟨p1, p2, p3⟩, p4⟩ := h.pos
  have hval : ∀ y j, ({ m with objs := m.objs.set x { b with there := false } } : Mem).val y j = m.val y j := by
    intro y j
    simp only [Mem.val]
    by_cases e : x = y
    · subst e; simp [List.getElem?_set_self hlt, hb]
    · rw [List.getElem?_set_ne e]
  have hinfo : ∀ y, ({ m with objs := m.objs.set x { b with there := false } } : Mem).info y =
      if x = y then some (b.cls, b.members.length, false) else m.info y := by
    intro y
    simp only [Mem.info]
    by_cases e : x = y
    · subst e; simp [List.getElem?_set_self hlt]
    · rw [List.getElem?_set_ne e, if_neg e]
  have hh : ∀ y, holders { m with objs := m.objs.set x { b with there := false } } rest y =
      holders m (.members x 0 :: rest) y := by
    intro y
    have := sum_set' (fun b => b.members.countP (isTo y)) hb { b with there := false }
    rw [holders_cons]
    simp only [Task.temp, one_none]
    simp only [holders]
    simp only at this
    omega
  have hnf := (h.pending x 0 (by simp)).2
  have hdt := (h.pending x 0 (by simp)).1
  constructor
  · intro y hy
    simp only [List.mem_append, List.mem_singleton, reduceCtorEq, or_false] at hy
    rw [hh]; simp only [List.length_set]; exact h.dead y hy
  · intro y hy hd
    simp only [List.mem_append, List.mem_singleton, reduceCtorEq, or_false] at hd
    simp only [List.length_set] at hy
    rw [hh]; exact h.live y hy hd
  · intro y hy
    simp only [List.length_set] at hy
    rw [hh]; exact h.bound y hy
  · exact p4
  · intro y c o hm
    simp only [List.mem_append, List.mem_singleton, reduceCtorEq, or_false]
    exact h.body y c o (List.mem_cons_of_mem _ hm)
  · intro y k hm
    simp only [List.mem_append, List.mem_singleton, reduceCtorEq, or_false, Ev.free.injEq, not_or]
    obtain ⟨a, b⟩ := h.pending y k (List.mem_cons_of_mem _ hm)
    exact ⟨a, b, fun e => p2 k (e ▸ hm)⟩
  · intro y k hm c n t hi
    have hne : x ≠ y := fun e => p2 k (e ▸ hm)
    rw [hinfo, if_neg hne] at hi
    obtain ⟨a, b, d⟩ := h.clean y k (List.mem_cons_of_mem _ hm) c n t hi
    refine ⟨a, fun j h1 h2 => ?_, fun h1 => ⟨fun c o hm' => (d h1).1 c o (List.mem_cons_of_mem _ hm'),
      fun j src hm' => (d h1).2 j src (List.mem_cons_of_mem _ hm')⟩⟩
    rw [hval]
    rcases b j h1 h2 with e | e
    · exact Or.inl e
    · rcases List.mem_cons.mp e with e | e
      · cases e
      · exact Or.inr e
  · intro y c n t hi
    rw [hinfo] at hi
    split at hi
    · rename_i e
      subst e
      simp only [Option.some.injEq, Prod.mk.injEq] at hi
      obtain ⟨_, _, rfl⟩ := hi
      simp
    · rename_i e
      rw [h.there y c n t hi]
      simp only [List.mem_append, List.mem_singleton, Ev.free.injEq]
      constructor
      · exact Or.inl
      · rintro (e' | e')
        · exact e'
        · exact absurd e'.symm e
  · intro y hf j v hv
    rw [hval] at hv
    simp only [List.mem_append, List.mem_singleton, Ev.free.injEq] at hf
    rcases hf with hf | rfl
    · exact h.gone y hf j v hv
    · have hi : m.info y = some (b.cls, b.members.length, b.there) := by simp [Mem.info, hb]
      obtain ⟨_, c2, _⟩ := h.clean y 0 (by simp) _ _ _ hi
      have hj : j < b.members.length := by
        have : (m.val y j).isSome := by rw [hv]; rfl
        rw [val_isSome, hi] at this
        simpa using this
      rcases c2 j (Nat.zero_le _) hj with e | e
      · rw [e] at hv; injection hv with hv; exact hv.symm
      · rcases List.mem_cons.mp e with e | e
        · cases e
        · exact absurd (mem_busy.mpr ⟨_, e⟩) (p3 j)
  · intro y hy
    simp only [List.mem_append, List.mem_singleton, reduceCtorEq, or_false, Ev.free.injEq] at hy ⊢
    rcases h.ended y hy with e | ⟨k', e⟩
    · exact Or.inl (Or.inl e)
    · rcases List.mem_cons.mp e with e | e
      · injection e with e1 e2; exact Or.inl (Or.inr e1)
      · exact Or.inr ⟨k', e⟩
  · intro y; rw [List.count_append]; simp; exact h.dtorOnce y
  · intro y
    rw [List.count_append]
    by_cases e : x = y
    · subst e
      have : log.count (Ev.free x) = 0 := List.count_eq_zero.mpr hnf
      simp [this]
    · simp [e]; exact h.freeOnce y
  · intro y hf
    simp only [List.mem_append, List.mem_singleton, Ev.free.injEq, reduceCtorEq, or_false] at hf ⊢
    rcases hf with hf | rfl
    · exact h.freed y hf
    · exact hdt

/-- every place a statement names is in the object whose destructor is running, or in an object that is held -/
theorem Inv.named {m : Mem} {this : Option Nat} {cls : Nat} {obs : List (Option Nat)} {rest : List Task} {log : List Ev}
    (h : Inv m (.body this cls obs :: rest) log) {r : Ref} {p : Place} (hp : m.place this r = some p) :
    ∀ x j, p = .mem x j → (∃ c o', Task.body (some x) c o' ∈ (.body this cls obs :: rest)) ∨ Ev.dtor x ∉ log := by
  rintro x j rfl
  rcases place_mem hp with rfl | ⟨q, hq⟩
  · exact Or.inl ⟨cls, obs, by simp⟩
  · exact Or.inr (h.lt_of_holders (holders_pos hq _)).2

theorem Inv.step (P : Program) {s s' : State} (h : Inv s.mem s.todo s.log) (hs : step P s = some s') :
    Inv s'.mem s'.todo s'.log := by
  obtain ⟨m, todo, log⟩ := s
  simp only at h
  cases todo with
  | nil => simp only [Dtor.step, Option.some.injEq] at hs; subst hs; exact h
  | cons t rest =>
    cases t with
    | settle p src => exact h.assign hs
    | members x k =>
      cases k with
      | succ k => exact h.member.assign hs
      | zero =>
        simp only [Dtor.step] at hs
        split at hs
        · cases hs
        · rename_i b hb
          split at hs
          · injection hs with hs; subst hs; exact h.release hb
          · cases hs
    | body this cls obs =>
      simp only [Dtor.step] at hs
      split at hs
      · injection hs with hs; subst hs; exact h.pop
      · rename_i c hc
        have h' : Inv m (.body this cls (obs ++ [none]) :: rest) log := h.next
        cases c with
        | make r k =>
          simp only [perform] at hs
          split at hs
          · cases hs
          · rename_i p hp
            exact (h'.make k (P.size k) (h'.named hp)).assign hs
        | copy r q =>
          simp only [perform] at hs
          split at hs
          · rename_i p q hp hq
            split at hs
            · injection hs with hs; subst hs; exact h'
            · exact (h'.push rfl (h'.named hp)).assign hs
          · cases hs
        | move r q =>
          simp only [perform] at hs
          split at hs
          · rename_i p q hp hq
            split at hs
            · injection hs with hs; subst hs; exact h'
            · exact (h'.push rfl (h'.named hp)).assign hs
          · cases hs
        | null r =>
          simp only [perform] at hs
          split at hs
          · cases hs
          · rename_i p hp
            exact (h'.push rfl (h'.named hp)).assign hs
        | test r =>
          simp only [perform] at hs
          split at hs
          · cases hs
          · split at hs
            · cases hs
            · injection hs with hs; subst hs; exact h.next.saw _

theorem Inv.start (n : Nat) : Inv (start n).mem (start n).todo (start n).log := by
  have h0 : ∀ y, holders (Dtor.start n).mem (Dtor.start n).todo y = 0 := by
    intro y; simp [holders, Dtor.start, List.countP_replicate, isTo, Task.temp]
  constructor
  · intro x hx; simp [Dtor.start] at hx
  · intro x hx; simp [Dtor.start] at hx
  · intro x _; exact h0 x
  · simp [Dtor.start, Pos]
  · intro x c o hm; simp [Dtor.start] at hm
  · intro x c hm; simp [Dtor.start] at hm
  · intro x c hm; simp [Dtor.start] at hm
  · intro x c hm; simp [Dtor.start, Mem.info]
  · intro x hm; simp [Dtor.start] at hm
  · intro x hm; simp [Dtor.start] at hm
  · intro x; simp [Dtor.start]
  · intro x; simp [Dtor.start]
  · intro x hm; simp [Dtor.start] at hm

end Spec.Dtor
end Vlpp
