import Verif.Lemmas.PtrDtor

/-! # `Ptr` runs polite programs as it should -/
set_option autoImplicit false
namespace Vlpp
namespace PtrDtor
open Spec.Dtor

/-- `sm` and `cs` are the memory and the counters of the model, `im` is the memory of the specification; the places of `B` hold
nothing in the specification, those of `D` hold objects that are being deleted in the model. -/
structure Rel (sm : Mem) (cs : List (Option Int)) (im : Mem) (B D : List Place) (h : Nat → Nat) (log : List Ev) : Prop where
  vars : sm.vars.length = im.vars.length
  objs : sm.objs.length = im.objs.length
  info : ∀ x, sm.info x = im.info x
  same : ∀ q, q ∉ B → sm.read q = im.read q
  stale : ∀ q ∈ B, ∀ v, im.read q = some v → v = none
  dangling : ∀ q ∈ D, ∀ v, sm.read q = some v → ∃ x, v = some x ∧ Ev.dtor x ∈ log
  inside : ∀ x j, Place.mem x j ∈ B → x < im.objs.length
  counters : cs.length = im.objs.length
  count : ∀ x, x < im.objs.length → cs[x]? = some (if Ev.dtor x ∈ log then none else some (h x : Int))

theorem read_lt {m : Mem} {x j : Nat} {v : Option Nat} (h : m.read (.mem x j) = some v) : x < m.objs.length := by
  simp only [Mem.read] at h
  split at h
  · cases h
  · rename_i b hb; exact (List.getElem?_eq_some_iff.mp hb).1

theorem isSome_of_info {sm im : Mem} (hv : sm.vars.length = im.vars.length) (hi : ∀ x, sm.info x = im.info x) (q : Place) :
    (sm.read q).isSome = (im.read q).isSome := by
  cases q with
  | var i =>
    simp only [Mem.read]
    by_cases h : i < sm.vars.length
    · rw [List.getElem?_eq_getElem h, List.getElem?_eq_getElem (by omega)]; rfl
    · rw [List.getElem?_eq_none (by omega), List.getElem?_eq_none (by omega)]
  | mem x j =>
    rw [read_mem, read_mem, hi]
    cases e : im.info x with
    | none => rfl
    | some c =>
      obtain ⟨c, n, t⟩ := c
      cases t with
      | false => rfl
      | true =>
        simp only [if_true]
        rw [val_isSome, val_isSome, hi]

/-- the model's completion of an assignment -/
theorem Rel.finish {sm : Mem} {cs : List (Option Int)} {im : Mem} {p : Place} {src : Src} {rest : List Task} {log : List Ev}
    (hI : Inv im (.settle p src :: rest) log)
    (R : Rel sm cs im (p :: busy rest) (busy rest) (holders im (.settle p src :: rest)) log)
    (hp : im.read p = some none) (hb : p ∉ busy rest)
    (hq : ∀ q, src = .copy q ∨ src = .move q → q ≠ p ∧ q ∉ busy rest) {im' : Mem}
    (hf : Spec.Dtor.finish im p src = some im') :
    ∃ sm' cs', PtrDtor.finish sm cs p src = some (sm', cs') ∧ Rel sm' cs' im' (busy rest) (busy rest) (holders im' rest) log := by
  have hps : (sm.read p).isSome := by rw [isSome_of_info R.vars R.info, hp]; rfl
  obtain ⟨w, hw⟩ := Option.isSome_iff_exists.mp hps
  cases src with
  | null =>
    simp only [Spec.Dtor.finish, Option.some.injEq] at hf
    subst hf
    refine ⟨_, _, rfl, ?_⟩
    constructor
    · rw [vars_write]; exact R.vars
    · rw [objs_write]; exact R.objs
    · intro x; rw [info_write]; exact R.info x
    · intro q hq
      rw [read_write]
      split
      · rename_i e; subst e; rw [hw, hp]; rfl
      · rename_i e; exact R.same q (by simp only [List.mem_cons, not_or]; exact ⟨fun e' => e e'.symm, hq⟩)
    · intro q hq; exact R.stale q (List.mem_cons_of_mem _ hq)
    · intro q hq v hv
      rw [read_write, if_neg (by rintro rfl; exact hb hq)] at hv
      exact R.dangling q hq v hv
    · intro x j hm; exact R.inside x j (List.mem_cons_of_mem _ hm)
    · exact R.counters
    · intro x hx
      rw [R.count x hx, holders_cons]; simp only [Task.temp, one_none, Nat.add_zero]
  | obj o =>
    simp only [Spec.Dtor.finish, Option.some.injEq] at hf
    subst hf
    refine ⟨_, _, rfl, ?_⟩
    constructor
    · rw [vars_write, vars_write]; exact R.vars
    · rw [objs_write, objs_write]; exact R.objs
    · intro x; rw [info_write, info_write]; exact R.info x
    · intro q hq
      rw [read_write, read_write]
      split
      · rename_i e; subst e; rw [hw, hp]; rfl
      · rename_i e; exact R.same q (by simp only [List.mem_cons, not_or]; exact ⟨fun e' => e e'.symm, hq⟩)
    · intro q hq v hv
      rw [read_write, if_neg (by rintro rfl; exact hb hq)] at hv
      exact R.stale q (List.mem_cons_of_mem _ hq) v hv
    · intro q hq v hv
      rw [read_write, if_neg (by rintro rfl; exact hb hq)] at hv
      exact R.dangling q hq v hv
    · intro x j hm; rw [objs_write]; exact R.inside x j (List.mem_cons_of_mem _ hm)
    · rw [objs_write]; exact R.counters
    · intro x hx
      rw [objs_write] at hx
      have h1 := holders_write hp (some o) rest x
      rw [R.count x hx, holders_cons]
      simp only [Task.temp]
      rw [one_none, Nat.add_zero] at h1
      rw [h1]
  | copy q =>
    simp only [Spec.Dtor.finish, Option.map_eq_some_iff] at hf
    obtain ⟨v, hv, rfl⟩ := hf
    obtain ⟨hqp, hqb⟩ := hq q (Or.inl rfl)
    have hsv : sm.read q = some v := by
      rw [R.same q (by simp only [List.mem_cons, not_or]; exact ⟨hqp, hqb⟩)]; exact hv
    have hinc : ∃ cs', inc cs v = some cs' ∧ cs'.length = cs.length ∧ ∀ x, x < im.objs.length → cs'[x]? =
        some (if Ev.dtor x ∈ log then none else some ((holders im rest x + one (isTo x v) : Nat) : Int)) := by
      have hc : ∀ x, x < im.objs.length → cs[x]? =
          some (if Ev.dtor x ∈ log then none else some (holders im rest x : Int)) := by
        intro x hx
        rw [R.count x hx, holders_cons]; simp only [Task.temp, one_none, Nat.add_zero]
      cases v with
      | none =>
        refine ⟨cs, rfl, rfl, fun x hx => ?_⟩
        rw [hc x hx, one_none, Nat.add_zero]
      | some y =>
        obtain ⟨hy, hd⟩ := hI.lt_of_holders (holders_pos hv _)
        have hcy := hc y hy
        rw [if_neg hd] at hcy
        have hyc : y < cs.length := by rw [R.counters]; exact hy
        refine ⟨cs.set y (some ((holders im rest y : Int) + 1)), by simp only [inc, hcy], by simp, fun x hx => ?_⟩
        rw [one_some]
        by_cases e : y = x
        · subst e
          rw [List.getElem?_set_self hyc, if_neg hd, if_pos rfl]
          rfl
        · rw [List.getElem?_set_ne e, hc x hx, if_neg e, Nat.add_zero]
    obtain ⟨cs', hi1, hi2, hi3⟩ := hinc
    refine ⟨sm.write p v, cs', by simp only [PtrDtor.finish, hsv, hi1, Option.map_some], ?_⟩
    constructor
    · rw [vars_write, vars_write]; exact R.vars
    · rw [objs_write, objs_write]; exact R.objs
    · intro x; rw [info_write, info_write]; exact R.info x
    · intro q hq
      rw [read_write, read_write]
      split
      · rename_i e; subst e; rw [hw, hp]; rfl
      · rename_i e; exact R.same q (by simp only [List.mem_cons, not_or]; exact ⟨fun e' => e e'.symm, hq⟩)
    · intro q hq v hv
      rw [read_write, if_neg (by rintro rfl; exact hb hq)] at hv
      exact R.stale q (List.mem_cons_of_mem _ hq) v hv
    · intro q hq v hv
      rw [read_write, if_neg (by rintro rfl; exact hb hq)] at hv
      exact R.dangling q hq v hv
    · intro x j hm; rw [objs_write]; exact R.inside x j (List.mem_cons_of_mem _ hm)
    · rw [objs_write, hi2]; exact R.counters
    · intro x hx
      rw [objs_write] at hx
      have h1 := holders_write hp v rest x
      rw [one_none, Nat.add_zero] at h1
      rw [hi3 x hx, h1]
  | move q =>
    simp only [Spec.Dtor.finish, Option.map_eq_some_iff] at hf
    obtain ⟨v, hv, rfl⟩ := hf
    obtain ⟨hqp, hqb⟩ := hq q (Or.inr rfl)
    have hsv : sm.read q = some v := by
      rw [R.same q (by simp only [List.mem_cons, not_or]; exact ⟨hqp, hqb⟩)]; exact hv
    refine ⟨(sm.write p v).write q none, cs, by simp only [PtrDtor.finish, hsv], ?_⟩
    have hp' : (im.write q none).read p = some none := by rw [read_write, if_neg hqp]; exact hp
    constructor
    · simp only [vars_write]; exact R.vars
    · simp only [objs_write]; exact R.objs
    · intro x; simp only [info_write]; exact R.info x
    · intro z hz
      rw [read_write, read_write, read_write, read_write]
      by_cases e1 : q = z
      · subst e1
        rw [if_pos rfl, if_neg (fun e => hqp e.symm), if_neg (fun e => hqp e.symm), if_pos rfl, hsv, hv]
      · by_cases e2 : p = z
        · subst e2; rw [if_neg e1, if_neg e1, if_pos rfl, if_pos rfl, hw, hp]; rfl
        · rw [if_neg e1, if_neg e1, if_neg e2, if_neg e2]
          exact R.same z (by simp only [List.mem_cons, not_or]; exact ⟨fun e' => e2 e'.symm, hz⟩)
    · intro z hz v' hv'
      rw [read_write, if_neg (by rintro rfl; exact hb hz), read_write, if_neg (by rintro rfl; exact hqb hz)] at hv'
      exact R.stale z (List.mem_cons_of_mem _ hz) v' hv'
    · intro z hz v' hv'
      rw [read_write, if_neg (by rintro rfl; exact hqb hz), read_write, if_neg (by rintro rfl; exact hb hz)] at hv'
      exact R.dangling z hz v' hv'
    · intro x j hm; simp only [objs_write]; exact R.inside x j (List.mem_cons_of_mem _ hm)
    · simp only [objs_write]; exact R.counters
    · intro x hx
      simp only [objs_write] at hx
      have h1 := holders_write hp' v rest x
      have h2 := holders_write hv none rest x
      rw [one_none, Nat.add_zero] at h1 h2
      have h3 : holders ((im.write q none).write p v) rest x = holders im (.settle p (.move q) :: rest) x := by
        rw [holders_cons]; simp only [Task.temp, one_none]; omega
      rw [R.count x hx, h3]

/-- the states of the two machines -/
structure Sim (s : PtrDtor.State) (i : Spec.Dtor.State) : Prop where
  todo : s.todo = i.todo
  log : s.log = i.log
  rel : Rel s.mem s.counters i.mem (busy i.todo) (busy i.todo) (holders i.mem i.todo) i.log

/-- what the assignments that are going on use -/
def Apart : List Task → Prop
  | [] => True
  | .settle p src :: rest =>
    (p ∉ busy rest ∧ ∀ q, src = .copy q ∨ src = .move q → q ≠ p ∧ q ∉ busy rest) ∧ Apart rest
  | _ :: rest => Apart rest

theorem Rel.assign {s : PtrDtor.State} {i : Spec.Dtor.State} {p : Place} {src : Src} {rest : List Task}
    (hI : Inv i.mem (.settle p src :: rest) i.log) (hlog : s.log = i.log)
    (R : Rel s.mem s.counters i.mem (busy rest) (busy rest) (holders i.mem (.settle p src :: rest)) i.log)
    (hb : p ∉ busy rest) (hq : ∀ q, src = .copy q ∨ src = .move q → q ≠ p ∧ q ∉ busy rest) (ha : Apart rest)
    {i' : Spec.Dtor.State} (hs : Spec.Dtor.assign i p src rest = some i') :
    ∃ s', PtrDtor.assign s p src rest = some s' ∧ Sim s' i' ∧ Apart i'.todo := by
  simp only [Spec.Dtor.assign] at hs
  split at hs
  · cases hs
  · rename_i hp
    simp only [Option.map_eq_some_iff] at hs
    obtain ⟨m, hm, rfl⟩ := hs
    have hsp : s.mem.read p = some none := by rw [R.same p hb, hp]
    have R' : Rel s.mem s.counters i.mem (p :: busy rest) (busy rest) (holders i.mem (.settle p src :: rest)) i.log := by
      refine ⟨R.vars, R.objs, R.info, fun q hq => R.same q (fun e => hq (List.mem_cons_of_mem _ e)), ?_, R.dangling,
        ?_, R.counters, R.count⟩
      · intro q hq v hv
        rcases List.mem_cons.mp hq with rfl | hq
        · rw [hp] at hv; injection hv with hv; exact hv.symm
        · exact R.stale q hq v hv
      · intro x j hm
        rcases List.mem_cons.mp hm with rfl | hm
        · exact read_lt hp
        · exact R.inside x j hm
    obtain ⟨sm', cs', h1, h2⟩ := R'.finish hI hp hb hq hm
    refine ⟨{ s with mem := sm', counters := cs', todo := rest }, ?_, ⟨rfl, hlog, h2⟩, ha⟩
    simp only [PtrDtor.assign, hsp, h1, Option.map_some]
  · rename_i x hp
    have hsp : s.mem.read p = some (some x) := by rw [R.same p hb, hp]
    obtain ⟨hx, hd⟩ := hI.lt_of_holders (holders_pos hp (.settle p src :: rest))
    have hcx := R.count x hx
    rw [if_neg hd] at hcx
    have hw := fun y => holders_write hp none (.settle p src :: rest) y
    simp only [one_some, one_none] at hw
    have hwx := hw x
    rw [if_pos rfl] at hwx
    have hxc : x < s.counters.length := by rw [R.counters]; exact hx
    have hstale : ∀ q ∈ p :: busy rest, ∀ v, (i.mem.write p none).read q = some v → v = none := by
      intro q hq v hv
      rw [read_write] at hv
      split at hv
      · rename_i e; subst e; rw [hp] at hv; injection hv with hv; exact hv.symm
      · rename_i e
        rcases List.mem_cons.mp hq with rfl | hq
        · exact absurd rfl e
        · exact R.stale q hq v hv
    have hins : ∀ y j, Place.mem y j ∈ p :: busy rest → y < (i.mem.write p none).objs.length := by
      intro y j hm
      rw [objs_write]
      rcases List.mem_cons.mp hm with rfl | hm
      · exact read_lt hp
      · exact R.inside y j hm
    have hsame : ∀ q, q ∉ p :: busy rest → s.mem.read q = (i.mem.write p none).read q := by
      intro q hq
      simp only [List.mem_cons, not_or] at hq
      rw [read_write, if_neg (fun e => hq.1 e.symm)]
      exact R.same q hq.2
    split at hs
    · rename_i h0
      simp only [Spec.Dtor.destroy] at hs
      split at hs
      · cases hs
      · rename_i hbz
        split at hs
        · cases hs
        · rename_i b hb'
          injection hs with hs
          subst hs
          have hib : (i.mem.write p none).info x = some (b.cls, b.members.length, b.there) := by
            simp only [Mem.info]; rw [hb']; rfl
          rw [info_write, ← R.info] at hib
          have hsb : ∃ b', s.mem.objs[x]? = some b' ∧ b'.cls = b.cls ∧ b'.members.length = b.members.length := by
            simp only [Mem.info, Option.map_eq_some_iff, Prod.mk.injEq] at hib
            obtain ⟨b', e1, e2, e3, _⟩ := hib
            exact ⟨b', e1, e2, e3⟩
          obtain ⟨b', e1, e2, e3⟩ := hsb
          have hn : (holders i.mem (.settle p src :: rest) x : Int) - 1 = 0 := by omega
          refine ⟨⟨s.mem, s.counters.set x none,
            .body (some x) b'.cls [] :: .members x b'.members.length :: .settle p src :: rest, s.log ++ [.dtor x]⟩, ?_,
            ⟨?_, ?_, ?_⟩, ?_⟩
          · simp only [PtrDtor.assign, hsp, hcx, if_pos hn, e1]
          · simp only [e2, e3]
          · simp only [hlog]
          · constructor
            · rw [vars_write]; exact R.vars
            · rw [objs_write]; exact R.objs
            · intro y; rw [info_write]; exact R.info y
            · exact hsame
            · exact hstale
            · intro q hq v hv
              simp only [List.mem_append, List.mem_singleton, Ev.dtor.injEq]
              rcases List.mem_cons.mp hq with rfl | hq
              · rw [hsp] at hv; injection hv with hv; exact ⟨x, hv.symm, Or.inr rfl⟩
              · obtain ⟨y, h1, h2⟩ := R.dangling q hq v hv; exact ⟨y, h1, Or.inl h2⟩
            · exact hins
            · rw [objs_write, List.length_set]; exact R.counters
            · intro y hy
              rw [objs_write] at hy
              have hh : holders (i.mem.write p none) (.body (some x) b.cls [] :: .members x b.members.length :: .settle p src :: rest) y =
                  holders (i.mem.write p none) (.settle p src :: rest) y := by
                rw [holders_cons _ (.body _ _ _), holders_cons _ (.members _ _)]
                simp only [Task.temp, one_none]; omega
              simp only [hh]
              by_cases e : x = y
              · subst e
                rw [List.getElem?_set_self hxc]
                simp
              · rw [List.getElem?_set_ne e, R.count y hy]
                have := hw y
                rw [if_neg e] at this
                have hmem : (Ev.dtor y ∈ i.log ++ [.dtor x]) ↔ Ev.dtor y ∈ i.log := by
                  simp only [List.mem_append, List.mem_singleton, Ev.dtor.injEq]
                  constructor
                  · rintro (h | h)
                    · exact h
                    · exact absurd h.symm e
                  · exact Or.inl
                simp only [hmem]
                have : holders (i.mem.write p none) (.settle p src :: rest) y = holders i.mem (.settle p src :: rest) y := by omega
                rw [this]
          · exact ⟨⟨hb, hq⟩, ha⟩
    · rename_i h0
      simp only [Option.map_eq_some_iff] at hs
      obtain ⟨m, hm, rfl⟩ := hs
      have hn : ¬ ((holders i.mem (.settle p src :: rest) x : Int) - 1 = 0) := by omega
      have R' : Rel s.mem (s.counters.set x (some ((holders i.mem (.settle p src :: rest) x : Int) - 1)))
          (i.mem.write p none) (p :: busy rest) (busy rest) (holders (i.mem.write p none) (.settle p src :: rest)) i.log := by
        constructor
        · rw [vars_write]; exact R.vars
        · rw [objs_write]; exact R.objs
        · intro y; rw [info_write]; exact R.info y
        · exact hsame
        · exact hstale
        · exact R.dangling
        · exact hins
        · rw [objs_write, List.length_set]; exact R.counters
        · intro y hy
          rw [objs_write] at hy
          by_cases e : x = y
          · subst e
            rw [List.getElem?_set_self hxc, if_neg hd]
            congr 2
            omega
          · rw [List.getElem?_set_ne e, R.count y hy]
            have := hw y
            rw [if_neg e] at this
            have : holders (i.mem.write p none) (.settle p src :: rest) y = holders i.mem (.settle p src :: rest) y := by omega
            rw [this]
      obtain ⟨sm', cs', h1, h2⟩ := R'.finish (hI.letGo hp h0) (by rw [read_write]; simp [hp]) hb hq hm
      refine ⟨{ s with mem := sm', counters := cs', todo := rest }, ?_, ⟨rfl, hlog, h2⟩, ha⟩
      simp only [PtrDtor.assign, hsp, hcx, if_neg hn, h1, Option.map_some]

/-- names mean the same if the pointers they use are not being assigned -/
theorem place_same {sm im : Mem} {B : List Place} (hsame : ∀ q, q ∉ B → sm.read q = im.read q) (this : Option Nat) (r : Ref)
    (ht : ∀ q ∈ im.touched this r, q ∉ B) : sm.place this r = im.place this r := by
  induction r with
  | var i => rfl
  | own j => rfl
  | via r j ih =>
    simp only [Mem.touched, List.mem_append] at ht
    have ih := ih (fun q hq => ht q (Or.inl hq))
    simp only [Mem.place, ih]
    cases e : im.place this r with
    | none => rfl
    | some p =>
      have hp : p ∈ im.touched this r := by
        cases r with
        | var i => simp only [Mem.place, Option.some.injEq] at e; subst e; simp [Mem.touched]
        | own k => simp only [Mem.touched, e]; simp
        | via r k => simp only [Mem.touched, e]; simp
      simp only [hsame p (ht p (Or.inl hp))]

theorem place_touched {m : Mem} {this : Option Nat} {r : Ref} {p : Place} (e : m.place this r = some p) :
    p ∈ m.touched this r := by
  cases r with
  | var i => simp only [Mem.place, Option.some.injEq] at e; subst e; simp [Mem.touched]
  | own k => simp only [Mem.touched, e]; simp
  | via r k => simp only [Mem.touched, e]; simp

theorem Rel.congr {sm : Mem} {cs : List (Option Int)} {im : Mem} {B D : List Place} {h h' : Nat → Nat} {log log' : List Ev}
    (R : Rel sm cs im B D h log) (hh : ∀ x, h x = h' x) (hl : ∀ x, Ev.dtor x ∈ log ↔ Ev.dtor x ∈ log') :
    Rel sm cs im B D h' log' := by
  refine ⟨R.vars, R.objs, R.info, R.same, R.stale, ?_, R.inside, R.counters, ?_⟩
  · intro q hq v hv
    obtain ⟨x, a, b⟩ := R.dangling q hq v hv
    exact ⟨x, a, (hl x).mp b⟩
  · intro x hx; rw [R.count x hx, hh]; simp only [hl]

theorem Sim.step (P : Program) {s : PtrDtor.State} {i i' : Spec.Dtor.State} (hI : Inv i.mem i.todo i.log) (R : Sim s i)
    (ha : Apart i.todo) (hpol : Polite P i) (hs : Spec.Dtor.step P i = some i') :
    ∃ s', PtrDtor.step P s = some s' ∧ Sim s' i' ∧ Apart i'.todo := by
  obtain ⟨sm, cs, sT, slog⟩ := s
  obtain ⟨im, T, log⟩ := i
  obtain ⟨e1, e2, R⟩ := R
  simp only at e1 e2 R hI ha
  subst e1; subst e2
  cases sT with
  | nil =>
    simp only [Spec.Dtor.step, Option.some.injEq] at hs; subst hs
    exact ⟨_, rfl, ⟨rfl, rfl, R⟩, ha⟩
  | cons t rest =>
    cases t with
    | settle p src =>
      obtain ⟨⟨hb, hq⟩, ha'⟩ := ha
      simp only [Spec.Dtor.step, Spec.Dtor.assign] at hs
      rw [busy_settle] at R
      split at hs
      · cases hs
      · rename_i hp
        simp only [Option.map_eq_some_iff] at hs
        obtain ⟨m, hm, rfl⟩ := hs
        have R' : Rel sm cs im (p :: busy rest) (busy rest) (holders im (.settle p src :: rest)) slog :=
          ⟨R.vars, R.objs, R.info, R.same, R.stale, fun q hq => R.dangling q (List.mem_cons_of_mem _ hq),
            R.inside, R.counters, R.count⟩
        obtain ⟨sm', cs', h1, h2⟩ := R'.finish hI hp hb hq hm
        have hps : (sm.read p).isSome := by rw [isSome_of_info R.vars R.info, hp]; rfl
        obtain ⟨w, hw⟩ := Option.isSome_iff_exists.mp hps
        refine ⟨⟨sm', cs', rest, slog⟩, ?_, ⟨rfl, rfl, h2⟩, ha'⟩
        simp only [PtrDtor.step, hw, h1, Option.map_some]
      · rename_i x hp
        have := R.stale p (by simp) _ hp
        cases this
    | members x k =>
      rw [busy_members] at R
      cases k with
      | succ k =>
        have hI' := hI.member
        obtain ⟨⟨_, _, p3⟩, _⟩ := hI.pos
        refine Rel.assign (s := ⟨sm, cs, _, slog⟩) (i := ⟨im, _, slog⟩) hI' rfl ?_ ?_ (by simp) ha hs
        · rw [busy_members]
          refine R.congr (fun y => ?_) (fun _ => Iff.rfl)
          rw [holders_cons, holders_cons, holders_cons]; simp only [Task.temp, one_none]
        · rw [busy_members]; exact p3 k
      | zero =>
        simp only [Spec.Dtor.step] at hs
        split at hs
        · cases hs
        · rename_i b hb
          split at hs
          · rename_i ht
            injection hs with hs; subst hs
            have hib : sm.info x = some (b.cls, b.members.length, b.there) := by rw [R.info]; simp [Mem.info, hb]
            have hsb : ∃ b', sm.objs[x]? = some b' ∧ b'.cls = b.cls ∧ b'.members.length = b.members.length ∧ b'.there = b.there := by
              simp only [Mem.info, Option.map_eq_some_iff, Prod.mk.injEq] at hib
              obtain ⟨b', e1, e2, e3, e4⟩ := hib
              exact ⟨b', e1, e2, e3, e4⟩
            obtain ⟨b', e1, e2, e3, e4⟩ := hsb
            refine ⟨⟨{ sm with objs := sm.objs.set x { b' with there := false } }, cs, rest, slog ++ [.free x]⟩, ?_,
              ⟨rfl, rfl, ?_⟩, ha⟩
            · simp only [PtrDtor.step, e1, e4, ht, if_true]
            · have hrd : ∀ (m : Mem) (c : Obj), m.objs[x]? = some c → ∀ q,
                  ({ m with objs := m.objs.set x { c with there := false } } : Mem).read q =
                    if q.isIn x then none else m.read q := by
                intro m c hc q
                have hlt : x < m.objs.length := (List.getElem?_eq_some_iff.mp hc).1
                cases q with
                | var i => rfl
                | mem o j =>
                  simp only [Mem.read, Place.isIn, beq_iff_eq]
                  by_cases e : o = x
                  · subst e; simp [List.getElem?_set_self hlt]
                  · rw [List.getElem?_set_ne (fun e' => e e'.symm), if_neg e]
              have hin : ∀ (m : Mem) (c : Obj), m.objs[x]? = some c → ∀ y,
                  ({ m with objs := m.objs.set x { c with there := false } } : Mem).info y =
                    if x = y then some (c.cls, c.members.length, false) else m.info y := by
                intro m c hc y
                have hlt : x < m.objs.length := (List.getElem?_eq_some_iff.mp hc).1
                simp only [Mem.info]
                by_cases e : x = y
                · subst e; simp [List.getElem?_set_self hlt]
                · rw [List.getElem?_set_ne e, if_neg e]
              constructor
              · exact R.vars
              · simp only [List.length_set]; exact R.objs
              · intro y; rw [hin sm b' e1, hin im b hb, e2, e3, R.info]
              · intro q hq; rw [hrd sm b' e1, hrd im b hb, R.same q hq]
              · intro q hq v hv
                rw [hrd im b hb] at hv
                split at hv
                · cases hv
                · exact R.stale q hq v hv
              · intro q hq v hv
                rw [hrd sm b' e1] at hv
                split at hv
                · cases hv
                · obtain ⟨y, h1, h2⟩ := R.dangling q hq v hv
                  exact ⟨y, h1, by simp [h2]⟩
              · intro y j hm; simp only [List.length_set]; exact R.inside y j hm
              · simp only [List.length_set]; exact R.counters
              · intro y hy
                simp only [List.length_set] at hy
                have hh : holders { im with objs := im.objs.set x { b with there := false } } rest y =
                    holders im (.members x 0 :: rest) y := by
                  have := sum_set' (fun b => b.members.countP (isTo y)) hb { b with there := false }
                  rw [holders_cons]
                  simp only [Task.temp, one_none]
                  simp only [holders]
                  simp only at this
                  omega
                rw [R.count y hy, hh]
                simp
          · cases hs
    | body this cls obs =>
      rw [busy_body] at R
      simp only [Spec.Dtor.step] at hs
      split at hs
      · rename_i hc
        injection hs with hs; subst hs
        refine ⟨⟨sm, cs, rest, slog⟩, by simp only [PtrDtor.step, hc], ⟨rfl, rfl, ?_⟩, ha⟩
        refine R.congr (fun y => ?_) (fun _ => Iff.rfl)
        rw [holders_cons]; simp only [Task.temp, one_none, Nat.add_zero]
      · rename_i c hc
        have hpol := hpol this cls obs rest c rfl hc
        have hpl : ∀ r ∈ c.refs, sm.place this r = im.place this r := fun r hr => place_same R.same this r (hpol r hr)
        have hbz : ∀ r ∈ c.refs, ∀ p, im.place this r = some p → p ∉ busy rest :=
          fun r hr p hp => hpol r hr p (place_touched hp)
        have hI' : ∀ obs', Inv im (.body this cls obs' :: rest) slog := fun _ => hI.next
        have hR' : ∀ obs', Rel sm cs im (busy rest) (busy rest) (holders im (.body this cls obs' :: rest)) slog := by
          intro obs'
          refine R.congr (fun y => ?_) (fun _ => Iff.rfl)
          rw [holders_cons, holders_cons]; rfl
        simp only [PtrDtor.step, hc]
        cases c with
        | make r k =>
          simp only [Spec.Dtor.perform] at hs
          split at hs
          · cases hs
          · rename_i p hp
            simp only [PtrDtor.perform, hpl r (by simp [Cmd.refs]), hp]
            have hb := hbz r (by simp [Cmd.refs]) p hp
            have hlen : sm.objs.length = im.objs.length := R.objs
            rw [hlen]
            have hA : ∀ (m : Mem) (q : Place), (m.add ⟨k, List.replicate (P.size k) none, true⟩).read q =
                if q.isIn m.objs.length then
                  (match q with | .var _ => none | .mem _ j => (List.replicate (P.size k) (none : Option Nat))[j]?)
                else m.read q := by
              intro m q
              cases q with
              | var i => rfl
              | mem x j =>
                rw [read_mem, info_add, val_add, read_mem]
                simp only [Place.isIn, beq_iff_eq]
                by_cases e : x = m.objs.length
                · simp [e]
                · simp [e]
            refine Rel.assign (s := ⟨sm.add _, cs ++ [some 1], _, slog⟩) (i := ⟨im.add _, _, slog⟩)
              ((hI' (obs ++ [none])).make k (P.size k) ((hI' _).named hp)) rfl ?_ hb (by simp) ha hs
            rw [busy_body]
            constructor
            · exact R.vars
            · simp only [Mem.add, List.length_append, List.length_singleton]; rw [hlen]
            · intro x; rw [info_add, info_add, hlen, R.info]
            · intro q hq
              rw [hA, hA, hlen, R.same q hq]
            · intro q hq v hv
              rw [hA] at hv
              split at hv
              · cases q with
                | var i => cases hv
                | mem x j =>
                  simp only [List.getElem?_replicate] at hv
                  split at hv
                  · injection hv with hv; exact hv.symm
                  · cases hv
              · exact R.stale q hq v hv
            · intro q hq v hv
              rw [hA] at hv
              split at hv
              · rename_i hin
                exfalso
                cases q with
                | var i => simp [Place.isIn] at hin
                | mem x j =>
                  simp only [Place.isIn, beq_iff_eq] at hin
                  have := R.inside x j hq
                  omega
              · exact R.dangling q hq v hv
            · intro x j hm
              have := R.inside x j hm
              simp only [Mem.add, List.length_append, List.length_singleton]; omega
            · simp only [Mem.add, List.length_append, List.length_singleton]; rw [R.counters]
            · intro x hx
              simp only [Mem.add, List.length_append, List.length_singleton] at hx
              rw [holders_cons, holders_add]
              simp only [Task.temp, one_some]
              by_cases e : im.objs.length = x
              · subst e
                rw [if_pos rfl, List.getElem?_append_right (by rw [R.counters]; omega), R.counters]
                have hnd : Ev.dtor im.objs.length ∉ slog := by
                  intro hd
                  have := (hI.dead _ hd).1
                  omega
                rw [if_neg hnd]
                have h0 := (hI' (obs ++ [none])).bound im.objs.length (by omega)
                rw [h0]
                simp
              · rw [if_neg e, Nat.add_zero, List.getElem?_append_left (by rw [R.counters]; omega),
                  (hR' (obs ++ [none])).count x (by omega)]
        | copy r q =>
          simp only [Spec.Dtor.perform] at hs
          split at hs
          · rename_i p z hp hz
            simp only [PtrDtor.perform, hpl r (by simp [Cmd.refs]), hpl q (by simp [Cmd.refs]), hp, hz]
            split at hs
            · rename_i e
              injection hs with hs; subst hs
              rw [if_pos e]
              exact ⟨_, rfl, ⟨rfl, rfl, hR' _⟩, ha⟩
            · rename_i e
              rw [if_neg e]
              refine Rel.assign (s := ⟨sm, cs, _, slog⟩) (i := ⟨im, _, slog⟩)
                ((hI' (obs ++ [none])).push rfl ((hI' _).named hp)) rfl ?_ (hbz r (by simp [Cmd.refs]) p hp) ?_ ha hs
              · refine (hR' (obs ++ [none])).congr (fun y => ?_) (fun _ => Iff.rfl)
                rw [holders_cons _ (.settle _ _)]; simp only [Task.temp, one_none, Nat.add_zero]
              · rintro w (h | h)
                · injection h with h; subst h
                  exact ⟨fun e' => e e'.symm, hbz q (by simp [Cmd.refs]) _ hz⟩
                · cases h
          · cases hs
        | move r q =>
          simp only [Spec.Dtor.perform] at hs
          split at hs
          · rename_i p z hp hz
            simp only [PtrDtor.perform, hpl r (by simp [Cmd.refs]), hpl q (by simp [Cmd.refs]), hp, hz]
            split at hs
            · rename_i e
              injection hs with hs; subst hs
              rw [if_pos e]
              exact ⟨_, rfl, ⟨rfl, rfl, hR' _⟩, ha⟩
            · rename_i e
              rw [if_neg e]
              refine Rel.assign (s := ⟨sm, cs, _, slog⟩) (i := ⟨im, _, slog⟩)
                ((hI' (obs ++ [none])).push rfl ((hI' _).named hp)) rfl ?_ (hbz r (by simp [Cmd.refs]) p hp) ?_ ha hs
              · refine (hR' (obs ++ [none])).congr (fun y => ?_) (fun _ => Iff.rfl)
                rw [holders_cons _ (.settle _ _)]; simp only [Task.temp, one_none, Nat.add_zero]
              · rintro w (h | h)
                · cases h
                · injection h with h; subst h
                  exact ⟨fun e' => e e'.symm, hbz q (by simp [Cmd.refs]) _ hz⟩
          · cases hs
        | null r =>
          simp only [Spec.Dtor.perform] at hs
          split at hs
          · cases hs
          · rename_i p hp
            simp only [PtrDtor.perform, hpl r (by simp [Cmd.refs]), hp]
            refine Rel.assign (s := ⟨sm, cs, _, slog⟩) (i := ⟨im, _, slog⟩)
              ((hI' (obs ++ [none])).push rfl ((hI' _).named hp)) rfl ?_ (hbz r (by simp [Cmd.refs]) p hp) (by simp) ha hs
            refine (hR' (obs ++ [none])).congr (fun y => ?_) (fun _ => Iff.rfl)
            rw [holders_cons _ (.settle _ _)]; simp only [Task.temp, one_none, Nat.add_zero]
        | test r =>
          simp only [Spec.Dtor.perform] at hs
          split at hs
          · cases hs
          · rename_i p hp
            split at hs
            · cases hs
            · rename_i v hv
              injection hs with hs; subst hs
              have hsv : sm.read p = some v := by rw [R.same p (hbz r (by simp [Cmd.refs]) p hp), hv]
              refine ⟨⟨sm, cs, .body this cls (obs ++ [v]) :: rest, slog ++ [.saw v]⟩, ?_, ⟨rfl, rfl, ?_⟩, ha⟩
              · simp only [PtrDtor.perform, hpl r (by simp [Cmd.refs]), hp, hsv]
              · exact (hR' (obs ++ [v])).congr (fun _ => rfl) (fun x => by simp)

end PtrDtor
end Vlpp
