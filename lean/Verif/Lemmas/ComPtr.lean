import Verif.Spec.ComPtr
import Verif.Props.PointerProps

/-! # `ComPtr` as a use of shared pointers

A counter is abstracted to an object with one member, a pointer to the COM object. -/
set_option autoImplicit false
namespace Vlpp
namespace Com
open Pointer (Loc join_eq_some Inv)

abbrev PSlot := Pointer.Slot
abbrev PWorld := Pointer.World

def ptr (o : Nat) : PSlot := ⟨some o, some (o, 0), some o⟩

def absSlot (s : Slot) : PSlot :=
  match s.counter with
  | none => {}
  | some c => ptr c

def absOpt : Option Nat → PSlot
  | none => {}
  | some o => ptr o

/-- `what c`: the object of counter `c` -/
def absCell (what : Nat → Option Nat) (a : Nat) : Option Cell → Option (List PSlot)
  | none => none
  | some (.counter _) => some [absOpt (what a)]
  | some (.object _ ms) => some (ms.map absSlot)

def count : Cell → Int
  | .counter n => n
  | .object n _ => n

def absVar : Var → PSlot
  | .com s => absSlot s
  | .raw o => ptr o

def abs (what : Nat → Option Nat) (w : World) : PWorld :=
  ⟨w.heap.map (·.map count), w.heap.mapIdx (absCell what), w.vars.map (·.map absVar)⟩

def SlotOk (what : Nat → Option Nat) (n : Nat) (s : Slot) : Prop :=
  (s.counter = none ∧ s.ref = none) ∨
    ∃ c o, s.counter = some c ∧ s.ref = some o ∧ what c = some o ∧ what o = none ∧ c < n ∧ o < n

def CellOk (what : Nat → Option Nat) (n a : Nat) : Cell → Prop
  | .counter _ => ∃ o, what a = some o ∧ what o = none ∧ o < n
  | .object _ ms => what a = none ∧ ∀ s ∈ ms, SlotOk what n s

def VarOk (what : Nat → Option Nat) (n : Nat) : Var → Prop
  | .com s => SlotOk what n s
  | .raw o => what o = none ∧ o < n

def TaskOk (what : Nat → Option Nat) (n : Nat) : Task → Prop
  | .dec s => SlotOk what n s
  | .release o => what o = none ∧ o < n

def absTask : Task → PSlot
  | .dec s => absSlot s
  | .release o => ptr o

structure WF (what : Nat → Option Nat) (w : World) : Prop where
  cells : ∀ (a : Nat) (x : Cell), w.heap[a]? = some (some x) → CellOk what w.heap.length a x
  vars : ∀ (i : Nat) (v : Var), w.vars[i]? = some (some v) → VarOk what w.heap.length v

theorem slotOk_empty (what : Nat → Option Nat) (n : Nat) : SlotOk what n {} := .inl ⟨rfl, rfl⟩

theorem absSlot_counter (s : Slot) : (absSlot s).counter = s.counter := by
  unfold absSlot
  cases s.counter <;> rfl

theorem absSlot_inj {what : Nat → Option Nat} {n : Nat} {s t : Slot} (hs : SlotOk what n s) (ht : SlotOk what n t)
    (h : absSlot s = absSlot t) : s = t := by
  have e : s.counter = t.counter := by rw [← absSlot_counter, h, absSlot_counter]
  rcases s with ⟨a, b⟩
  rcases t with ⟨c, d⟩
  simp only at e
  subst e
  rcases hs with ⟨h1, h2⟩ | ⟨c, o, h1, h2, h3, -⟩ <;> rcases ht with ⟨g1, g2⟩ | ⟨c', o', g1, g2, g3, -⟩ <;> simp_all

/-! ## Parts of the abstraction -/

section
variable {what : Nat → Option Nat} {w : World}

theorem counters_get (a : Nat) : (abs what w).counters[a]?.join = w.heap[a]?.join.map count := by
  simp only [abs, List.getElem?_map]
  cases w.heap[a]? with
  | none => rfl
  | some x => cases x <;> rfl

theorem objs_get (a : Nat) : (abs what w).objs[a]?.join = absCell what a w.heap[a]?.join := by
  simp only [abs, List.getElem?_mapIdx]
  cases w.heap[a]? with
  | none => rfl
  | some x => cases x <;> rfl

theorem roots_get (i : Nat) : (abs what w).roots[i]?.join = w.vars[i]?.join.map absVar := by
  simp only [abs, List.getElem?_map]
  cases w.vars[i]? with
  | none => rfl
  | some x => cases x <;> rfl

theorem map_none_set (h : List (Option Cell)) (a : Nat) (x : Option Cell) :
    (h.set a x).map (·.map count) = (h.map (·.map count)).set a (x.map count) := by
  simp [List.map_set]

theorem abs_delete (a : Nat) : abs what { w with heap := w.heap.set a none } =
    { abs what w with counters := (abs what w).counters.set a none, objs := (abs what w).objs.set a none } := by
  simp [abs, List.map_set, List.mapIdx_set, absCell]

/-- a change of a count only -/
theorem abs_count {a : Nat} {x y : Cell} (hx : w.heap[a]?.join = some x)
    (he : absCell what a (some y) = absCell what a (some x)) :
    abs what { w with heap := w.heap.set a (some y) } =
      { abs what w with counters := (abs what w).counters.set a (some (count y)) } := by
  simp only [abs, List.map_set, List.mapIdx_set, Option.map_some]
  congr 1
  rw [he]
  have hx' := join_eq_some.mp hx
  obtain ⟨h1, h2⟩ := List.getElem?_eq_some_iff.mp hx'
  apply List.ext_getElem?
  intro i
  by_cases e : i = a
  · subst e; simp [h1, h2]
  · rw [List.getElem?_set_ne (fun x => e x.symm)]

theorem wf_delete (h : WF what w) (a : Nat) : WF what { w with heap := w.heap.set a none } := by
  refine ⟨?_, ?_⟩
  · intro b x hb
    simp only [List.length_set] at hb ⊢
    by_cases e : b = a
    · subst e
      by_cases hl : b < w.heap.length
      · rw [List.getElem?_set_self hl] at hb; cases hb
      · rw [List.getElem?_eq_none (by simp; omega)] at hb; cases hb
    · rw [List.getElem?_set_ne (fun x => e x.symm)] at hb; exact h.cells b x hb
  · intro i v hv; simp only [List.length_set]; exact h.vars i v hv

theorem wf_set (h : WF what w) {a : Nat} {y : Cell} (hy : CellOk what w.heap.length a y) :
    WF what { w with heap := w.heap.set a (some y) } := by
  refine ⟨?_, ?_⟩
  · intro b x hb
    simp only [List.length_set] at hb ⊢
    by_cases e : b = a
    · subst e
      by_cases hl : b < w.heap.length
      · rw [List.getElem?_set_self hl] at hb; cases hb; exact hy
      · rw [List.getElem?_eq_none (by simp; omega)] at hb; cases hb
    · rw [List.getElem?_set_ne (fun x => e x.symm)] at hb; exact h.cells b x hb
  · intro i v hv; simp only [List.length_set]; exact h.vars i v hv

end

/-! ## Release -/

theorem run_abs (what : Nat → Option Nat) (w : World) (k : List Task) (h : WF what w)
    (hk : ∀ t ∈ k, TaskOk what w.heap.length t) :
    Pointer.release (abs what w) (k.map absTask) = (run w k).map (abs what) ∧
      ∀ w', run w k = some w' → WF what w' ∧ w'.vars = w.vars ∧ w'.heap.length = w.heap.length := by
  induction w, k using run.induct with
  | case1 w =>
    rw [run]
    refine ⟨by simp [Pointer.release_nil], ?_⟩
    intro w' e
    cases e
    exact ⟨h, rfl, rfl⟩
  | case2 w s k hs ih =>
    obtain ⟨e1, e2⟩ := ih h (fun t ht => hk t (by simp [ht]))
    have er : run w (.dec s :: k) = run w k := by rw [run]; simp only [hs]
    rw [er]
    refine ⟨?_, e2⟩
    rw [List.map_cons, Pointer.release_empty _ _ _ (by rw [absTask, absSlot_counter, hs])]
    exact e1
  | case3 w s k c hc n hn h1 href =>
    exfalso
    rcases hk _ List.mem_cons_self with ⟨h2, -⟩ | ⟨c', o, h2, h3, -⟩
    · simp [hc] at h2
    · simp [href] at h3
  | case4 w s k c hc n hn h1 o ho ih =>
    have hn1 : n = 1 := by omega
    subst hn1
    have hok := hk _ (List.mem_cons_self (a := Task.dec s))
    have hcell : what c = some o ∧ what o = none ∧ o < w.heap.length := by
      rcases hok with ⟨h2, -⟩ | ⟨c', o', h2, h3, h4, h5, h6, h7⟩
      · simp [hc] at h2
      · rw [hc] at h2; rw [ho] at h3; cases h2; cases h3; exact ⟨h4, h5, h7⟩
    obtain ⟨e1, e2⟩ := ih (wf_delete h c) (by
      intro t ht
      simp only [List.length_set]
      rcases List.mem_cons.mp ht with rfl | ht
      · exact hcell.2
      · exact hk t (by simp [ht]))
    have er : run w (.dec s :: k) = run { w with heap := w.heap.set c none } (.release o :: k) := by
      rw [run]
      simp only [hc]
      split
      · rename_i n' hn'
        rw [hn] at hn'
        cases hn'
        simp [ho]
      · rename_i hx; exact absurd hn (hx 1)
    rw [er]
    refine ⟨?_, fun w' hw' => by have := e2 w' hw'; simpa using this⟩
    rw [← e1, List.map_cons, Pointer.release_last _ _ _ c c [ptr o] (by rw [absTask, absSlot_counter, hc])
      (by rw [counters_get, hn]; rfl) (by simp [absTask, absSlot, hc, ptr])
      (by rw [objs_get, hn, absCell, hcell.1]; rfl), ← abs_delete]
    rfl
  | case5 w s k c hc n hn h1 ih =>
    have hcok := h.cells c _ (join_eq_some.mp hn)
    obtain ⟨e1, e2⟩ := ih (wf_set h (y := .counter (n - 1)) hcok) (by
      intro t ht
      simp only [List.length_set]
      exact hk t (by simp [ht]))
    have er : run w (.dec s :: k) = run { w with heap := w.heap.set c (some (.counter (n - 1))) } k := by
      rw [run]
      simp only [hc]
      split
      · rename_i n' hn'
        rw [hn] at hn'
        cases hn'
        simp [h1]
      · rename_i hx; exact absurd hn (hx n)
    rw [er]
    refine ⟨?_, fun w' hw' => by have := e2 w' hw'; simpa using this⟩
    rw [← e1, List.map_cons, Pointer.release_more _ _ _ c n (by rw [absTask, absSlot_counter, hc])
      (by rw [counters_get, hn]; rfl) h1, abs_count (y := .counter (n - 1)) hn rfl]
    rfl
  | case6 w s k c hc hx =>
    have er : run w (.dec s :: k) = none := by
      rw [run]
      simp only [hc]
    rw [er]
    refine ⟨?_, fun w' e => by cases e⟩
    have hcell : what c ≠ none := by
      rcases hk _ List.mem_cons_self with ⟨h2, -⟩ | ⟨c', o', h2, h3, h4, -⟩
      · simp [hc] at h2
      · rw [hc] at h2; cases h2; simp [h4]
    rw [List.map_cons, Pointer.release_dead _ _ _ c (by rw [absTask, absSlot_counter, hc])]
    · rfl
    · rw [counters_get]
      cases e : w.heap[c]?.join with
      | none => rfl
      | some x =>
        exfalso
        have := h.cells c x (join_eq_some.mp e)
        cases x with
        | counter n => exact hx n e
        | object n ms => exact hcell this.1
  | case7 w o k n ms hn h1 ih =>
    have hn1 : n = 1 := by omega
    subst hn1
    have hcok := h.cells o _ (join_eq_some.mp hn)
    obtain ⟨e1, e2⟩ := ih (wf_delete h o) (by
      intro t ht
      simp only [List.length_set]
      rcases List.mem_append.mp ht with ht | ht
      · obtain ⟨s, hs, rfl⟩ := List.mem_map.mp ht
        exact hcok.2 s (by simpa using hs)
      · exact hk t (by simp [ht]))
    have er : run w (.release o :: k) = run { w with heap := w.heap.set o none } (ms.reverse.map .dec ++ k) := by
      rw [run]
      split
      · rename_i n' ms' hn'
        rw [hn] at hn'
        cases hn'
        simp
      · rename_i hx; exact absurd hn (hx 1 ms)
    rw [er]
    refine ⟨?_, fun w' hw' => by have := e2 w' hw'; simpa using this⟩
    rw [← e1, List.map_cons, Pointer.release_last _ _ _ o o (ms.map absSlot) rfl
      (by rw [counters_get, hn]; rfl) rfl (by rw [objs_get, hn, absCell]), ← abs_delete]
    congr 1
    simp only [List.map_append, List.map_map, List.map_reverse]
    rfl
  | case8 w o k n ms hn h1 ih =>
    have hcok := h.cells o _ (join_eq_some.mp hn)
    obtain ⟨e1, e2⟩ := ih (wf_set h (y := .object (n - 1) ms) hcok) (by
      intro t ht
      simp only [List.length_set]
      exact hk t (by simp [ht]))
    have er : run w (.release o :: k) = run { w with heap := w.heap.set o (some (.object (n - 1) ms)) } k := by
      rw [run]
      split
      · rename_i n' ms' hn'
        rw [hn] at hn'
        cases hn'
        simp [h1]
      · rename_i hx; exact absurd hn (hx n ms)
    rw [er]
    refine ⟨?_, fun w' hw' => by have := e2 w' hw'; simpa using this⟩
    rw [← e1, List.map_cons, Pointer.release_more _ _ _ o n rfl (by rw [counters_get, hn]; rfl) h1, abs_count (y := .object (n - 1) ms) hn rfl]
    rfl
  | case9 w o k hx =>
    have er : run w (.release o :: k) = none := by
      rw [run]
      split
      · rename_i n' ms' hn'; exact absurd hn' (hx n' ms')
      · rfl
    rw [er]
    refine ⟨?_, fun w' e => by cases e⟩
    have ho := hk _ List.mem_cons_self
    rw [List.map_cons, Pointer.release_dead _ _ _ o rfl]
    · rfl
    · rw [counters_get]
      cases e : w.heap[o]?.join with
      | none => rfl
      | some x =>
        exfalso
        have := h.cells o x (join_eq_some.mp e)
        cases x with
        | counter n =>
          obtain ⟨o', h1, -⟩ := this
          rw [ho.1] at h1
          cases h1
        | object n ms => exact hx n ms e

/-! ## Reading and writing -/

/-- a location of a `ComPtr` -/
def ComLoc (what : Nat → Option Nat) (w : World) : Loc → Prop
  | .root i => w.raw i = none
  | .field o _ => what o = none

section
variable {what : Nat → Option Nat} {w : World}

theorem raw_some {i o : Nat} : w.raw i = some o ↔ w.vars[i]? = some (some (.raw o)) := by
  rw [World.raw, ← join_eq_some]
  split
  · rename_i o' h; rw [h]; simp
  · rename_i h
    constructor
    · intro e; cases e
    · intro e; exact absurd e (h o)

theorem read_root {i : Nat} {s : Slot} : w.read (.root i) = some s ↔ w.vars[i]? = some (some (.com s)) := by
  rw [World.read, ← join_eq_some]
  split
  · rename_i o' h; rw [h]; simp
  · rename_i h
    constructor
    · intro e; cases e
    · intro e; exact absurd e (h s)

theorem read_field {o j : Nat} {s : Slot} :
    w.read (.field o j) = some s ↔ ∃ n ms, w.heap[o]? = some (some (.object n ms)) ∧ ms[j]? = some s := by
  rw [World.read]
  simp only [← join_eq_some]
  split
  · rename_i n ms h
    constructor
    · intro e; exact ⟨n, ms, h, e⟩
    · rintro ⟨n', ms', e, e'⟩; rw [h] at e; cases e; exact e'
  · rename_i h
    constructor
    · intro e; cases e
    · rintro ⟨n', ms', e, -⟩; exact absurd e (h n' ms')

theorem comLoc_of_read (h : WF what w) {l : Loc} {s : Slot} (hr : w.read l = some s) : ComLoc what w l := by
  cases l with
  | root i => rw [read_root] at hr; simp [ComLoc, World.raw, hr]
  | field o j =>
    obtain ⟨n, ms, h1, -⟩ := read_field.mp hr
    exact (h.cells o _ h1).1

theorem slotOk_of_read (h : WF what w) {l : Loc} {s : Slot} (hr : w.read l = some s) : SlotOk what w.heap.length s := by
  cases l with
  | root i => exact h.vars i _ (read_root.mp hr)
  | field o j =>
    obtain ⟨n, ms, h1, h2⟩ := read_field.mp hr
    exact (h.cells o _ h1).2 s (List.mem_of_getElem? h2)

theorem read_abs (h : WF what w) {l : Loc} (hl : ComLoc what w l) : (abs what w).read l = (w.read l).map absSlot := by
  cases l with
  | root i =>
    rw [Pointer.World.read, roots_get]
    simp only [ComLoc, World.raw] at hl
    simp only [World.read]
    cases e : w.vars[i]?.join with
    | none => rfl
    | some v =>
      cases v with
      | com s => rfl
      | raw o => simp [e] at hl
  | field o j =>
    rw [Pointer.World.read, objs_get]
    simp only [World.read]
    cases e : w.heap[o]?.join with
    | none => rfl
    | some x =>
      cases x with
      | object n ms => simp [absCell]
      | counter n =>
        obtain ⟨o', h1, -⟩ := h.cells o _ (join_eq_some.mp e)
        simp only [ComLoc] at hl
        rw [hl] at h1
        cases h1

theorem read_abs_some (h : WF what w) {l : Loc} {s : Slot} (hr : w.read l = some s) :
    (abs what w).read l = some (absSlot s) := by
  rw [read_abs h (comLoc_of_read h hr), hr]; rfl

theorem raw_abs {i o : Nat} (hr : w.raw i = some o) : (abs what w).read (.root i) = some (ptr o) := by
  rw [Pointer.World.read, roots_get, join_eq_some.mpr (raw_some.mp hr)]
  rfl

theorem write_abs (h : WF what w) {l : Loc} (hl : ComLoc what w l) (t : Slot) :
    abs what (w.write l t) = (abs what w).write l (absSlot t) := by
  cases l with
  | root i => simp [abs, World.write, Pointer.World.write, List.map_set, absVar]
  | field o j =>
    simp only [World.write, Pointer.World.write]
    rw [objs_get]
    cases e : w.heap[o]?.join with
    | none => rfl
    | some x =>
      cases x with
      | object n ms =>
        simp only [absCell, abs, List.map_set, List.mapIdx_set, Option.map_some]
        congr 1
        have hx' := join_eq_some.mp e
        obtain ⟨h1, h2⟩ := List.getElem?_eq_some_iff.mp hx'
        apply List.ext_getElem?
        intro i
        by_cases e : i = o
        · subst e; simp [h1, h2, count]
        · rw [List.getElem?_set_ne (fun x => e x.symm)]
      | counter n =>
        obtain ⟨o', h1, -⟩ := h.cells o _ (join_eq_some.mp e)
        simp only [ComLoc] at hl
        rw [hl] at h1
        cases h1

theorem length_write (l : Loc) (t : Slot) : (w.write l t).heap.length = w.heap.length := by
  cases l with
  | root i => rfl
  | field o j => simp only [World.write]; split <;> simp

theorem wf_write (h : WF what w) {l : Loc} {t : Slot} (ht : SlotOk what w.heap.length t) : WF what (w.write l t) := by
  cases l with
  | root i =>
    refine ⟨h.cells, ?_⟩
    intro k v hv
    simp only [World.write] at hv ⊢
    by_cases e : k = i
    · subst e
      by_cases hl : k < w.vars.length
      · rw [List.getElem?_set_self hl] at hv; cases hv; exact ht
      · rw [List.getElem?_eq_none (by simp; omega)] at hv; cases hv
    · rw [List.getElem?_set_ne (fun x => e x.symm)] at hv; exact h.vars k v hv
  | field o j =>
    simp only [World.write]
    split
    · rename_i n ms e
      have hc := h.cells o _ (join_eq_some.mp e)
      refine wf_set h ⟨hc.1, ?_⟩
      intro s hs
      rcases List.mem_or_eq_of_mem_set hs with hs | rfl
      · exact hc.2 s hs
      · exact ht
    · exact h

theorem raw_write_ne {l : Loc} {t : Slot} {i : Nat} (h : l ≠ .root i) : (w.write l t).raw i = w.raw i := by
  cases l with
  | root k =>
    simp only [World.raw, World.write]
    rw [List.getElem?_set_ne (by rintro rfl; exact h rfl)]
  | field o j =>
    simp only [World.write]
    split <;> rfl

theorem raw_write_none {l : Loc} {t : Slot} {i : Nat} (h : w.raw i = none) : (w.write l t).raw i = none := by
  by_cases e : l = .root i
  · subst e
    simp only [World.raw, World.write]
    by_cases hl : i < w.vars.length
    · rw [List.getElem?_set_self hl]; rfl
    · rw [List.getElem?_eq_none (by simp; omega)]; rfl
  · rw [raw_write_ne e]; exact h

theorem comLoc_write {l m : Loc} {t : Slot} (h : ComLoc what w m) : ComLoc what (w.write l t) m := by
  cases m with
  | root i => exact raw_write_none h
  | field o j => exact h

theorem store_abs (h : WF what w) {l : Loc} (hl : ComLoc what w l) (t : Slot) :
    (abs what w).store l (absSlot t) = (w.store l t).map (abs what) := by
  simp only [World.store, Pointer.World.store, read_abs h hl, Option.isSome_map]
  split
  · rw [← write_abs h hl]; rfl
  · rfl

theorem store_some {l : Loc} {t : Slot} {w' : World} (h : w.store l t = some w') : w' = w.write l t := by
  simp only [World.store] at h
  split at h
  · cases h; rfl
  · cases h

theorem inc_abs (h : WF what w) {s : Slot} (hs : SlotOk what w.heap.length s) :
    Pointer.inc (abs what w) (absSlot s) = (inc w s).map (abs what) ∧
      ∀ w', inc w s = some w' → WF what w' ∧ w'.vars = w.vars ∧ w'.heap.length = w.heap.length := by
  rcases hs with ⟨h1, h2⟩ | ⟨c, o, h1, h2, h3, -⟩
  · refine ⟨by simp [inc, Pointer.inc, absSlot_counter, h1], ?_⟩
    intro w' e
    simp only [inc, h1, Option.some.injEq] at e
    subst e
    exact ⟨h, rfl, rfl⟩
  · simp only [inc, Pointer.inc, absSlot_counter, h1]
    rw [counters_get]
    cases e : w.heap[c]?.join with
    | none => simp
    | some x =>
      have hc := h.cells c _ (join_eq_some.mp e)
      cases x with
      | counter n =>
        refine ⟨?_, ?_⟩
        · simp only [Option.map_some]
          rw [abs_count (y := .counter (n + 1)) e rfl]
          rfl
        · intro w' e'
          simp only [Option.some.injEq] at e'
          subst e'
          exact ⟨wf_set h hc, rfl, by simp⟩
      | object n ms =>
        have := hc.1
        rw [h3] at this
        cases this

theorem dec_abs (h : WF what w) {l : Loc} (hl : ComLoc what w l) :
    Pointer.dec (abs what w) l = (dec w l).map (abs what) ∧
      ∀ w', dec w l = some w' → WF what w' ∧ w'.heap.length = w.heap.length ∧ (∀ i, w'.raw i = w.raw i) ∧
        w'.vars.length = w.vars.length := by
  unfold Pointer.dec dec
  rw [read_abs h hl]
  cases hr : w.read l with
  | none => simp
  | some s =>
    have hok := slotOk_of_read h hr
    simp only [Option.map_some, absSlot_counter]
    rcases hok with ⟨h1, h2⟩ | ⟨c, o, h1, h2, h3, -⟩
    · simp only [h1]
      refine ⟨rfl, ?_⟩
      intro w' e
      cases e
      exact ⟨h, rfl, fun _ => rfl, rfl⟩
    · simp only [h1]
      rw [counters_get]
      cases e : w.heap[c]?.join with
      | none => simp
      | some x =>
        have hc := h.cells c _ (join_eq_some.mp e)
        cases x with
        | counter n =>
          simp only [Option.map_some, count, if_true]
          split
          · obtain ⟨r1, r2⟩ := run_abs what w [.dec s] h (by
              intro t ht
              simp only [List.mem_singleton] at ht
              subst ht
              exact slotOk_of_read h hr)
            simp only [List.map_cons, List.map_nil, absTask] at r1
            rw [r1]
            cases er : run w [.dec s] with
            | none => simp
            | some w1 =>
              obtain ⟨g1, g2, g3⟩ := r2 w1 er
              have hl1 : ComLoc what w1 l := by
                cases l with
                | root i => simp only [ComLoc, World.raw, g2]; exact hl
                | field o j => exact hl
              simp only [Option.map_some]
              refine ⟨store_abs g1 hl1 {}, ?_⟩
              intro w' e'
              have := store_some e'
              subst this
              refine ⟨wf_write g1 (slotOk_empty _ _), by rw [length_write, g3], ?_, ?_⟩
              · intro i
                by_cases el : l = .root i
                · subst el
                  have : w.raw i = none := hl
                  rw [this]
                  exact raw_write_none hl1
                · rw [raw_write_ne el]
                  simp only [World.raw, g2]
              · rw [← g2]
                cases l with
                | root i => simp [World.write]
                | field o j => simp only [World.write]; split <;> rfl
          · refine ⟨?_, ?_⟩
            · simp only [Option.map_some]
              rw [abs_count (y := .counter (n - 1)) e rfl]
              rfl
            · intro w' e'
              simp only [Option.some.injEq] at e'
              subst e'
              exact ⟨wf_set h hc, by simp, fun _ => rfl, rfl⟩
        | object n ms =>
          have := hc.1
          rw [h3] at this
          cases this

end

/-! ## Counting -/

open Pointer (sumBy cnt rootCnt objCnt tot cnt_eq cnt_ne cnt_pos sumBy_pos)
open Spec.Com (pointers sharing plain groups comOf membersOf)

theorem mem_pointers {w : World} {s : Slot} : s ∈ pointers w ↔ ∃ l, w.read l = some s := by
  simp only [pointers, List.mem_append, List.mem_filterMap, List.mem_flatten]
  constructor
  · rintro (⟨x, hx, e⟩ | ⟨ms, ⟨x, hx, e⟩, h⟩)
    · obtain ⟨i, hi⟩ := List.mem_iff_getElem?.mp hx
      unfold comOf at e
      split at e
      · cases e; exact ⟨.root i, read_root.mpr hi⟩
      · cases e
    · obtain ⟨i, hi⟩ := List.mem_iff_getElem?.mp hx
      obtain ⟨j, hj⟩ := List.mem_iff_getElem?.mp h
      unfold membersOf at e
      split at e
      · cases e; exact ⟨.field i j, read_field.mpr ⟨_, _, hi, hj⟩⟩
      · cases e
  · rintro ⟨⟨i⟩ | ⟨o, j⟩, h⟩
    · exact .inl ⟨_, List.mem_of_getElem? (read_root.mp h), rfl⟩
    · obtain ⟨n, ms, h1, h2⟩ := read_field.mp h
      exact .inr ⟨ms, ⟨_, List.mem_of_getElem? h1, rfl⟩, List.mem_of_getElem? h2⟩

/-- counter cells for object `a` -/
def isC (what : Nat → Option Nat) (a c : Nat) : Option Cell → Nat
  | some (.counter _) => if what c = some a then 1 else 0
  | _ => 0

def cnts (what : Nat → Option Nat) (w : World) (a : Nat) : Nat := sumBy id (w.heap.mapIdx (isC what a))

theorem cnt_absSlot (a : Nat) (s : Slot) : cnt a (absSlot s) = if s.counter = some a then 1 else 0 := by
  simp [cnt, absSlot_counter]

theorem sumBy_absSlot (a : Nat) (ms : List Slot) :
    sumBy (cnt a) (ms.map absSlot) = ms.countP (fun s => decide (s.counter = some a)) := by
  induction ms with
  | nil => rfl
  | cons s ms ih =>
    rw [List.map_cons, Pointer.sumBy_cons, ih, cnt_absSlot, List.countP_cons]
    by_cases h : s.counter = some a <;> simp [h] <;> omega

theorem sum_roots (a : Nat) (vs : List (Option Var)) :
    sumBy (rootCnt a) (vs.map (·.map absVar)) =
      (vs.filterMap comOf).countP (fun s => decide (s.counter = some a)) +
        vs.countP (fun v => decide (v = some (.raw a))) := by
  induction vs with
  | nil => rfl
  | cons v vs ih =>
    rw [List.map_cons, Pointer.sumBy_cons, ih]
    rcases v with _ | s | o
    · simp [rootCnt, List.filterMap_cons, comOf]
    · simp only [Option.map_some, absVar, rootCnt, cnt_absSlot, List.filterMap_cons, comOf, List.countP_cons]
      by_cases h : s.counter = some a <;> simp [h] <;> omega
    · simp only [Option.map_some, absVar, rootCnt, List.filterMap_cons, comOf, List.countP_cons]
      by_cases h : o = a
      · subst h; simp [cnt, ptr]; omega
      · simp [cnt, ptr, h]

theorem sum_objs (what : Nat → Option Nat) (a : Nat) (h : List (Option Cell)) :
    sumBy (objCnt a) (h.mapIdx (absCell what)) =
      ((h.filterMap membersOf).flatten).countP (fun s => decide (s.counter = some a)) +
        sumBy id (h.mapIdx (isC what a)) := by
  induction h generalizing what with
  | nil => rfl
  | cons x h ih =>
    have e1 : (fun i => absCell what (i + 1)) = absCell (fun i => what (i + 1)) := by
      funext i x; rcases x with _ | _ | _ <;> rfl
    have e2 : (fun i => isC what a (i + 1)) = isC (fun i => what (i + 1)) a := by
      funext i x; rcases x with _ | _ | _ <;> rfl
    rw [List.mapIdx_cons, List.mapIdx_cons, Pointer.sumBy_cons, Pointer.sumBy_cons, e1, e2, ih]
    rcases x with _ | n | ⟨n, ms⟩
    · simp [absCell, objCnt, isC, List.filterMap_cons, membersOf]
    · simp only [absCell, objCnt, isC, List.filterMap_cons, membersOf, Pointer.sumBy_cons, Pointer.sumBy_nil, id]
      cases what 0 with
      | none => simp [absOpt, cnt]
      | some o =>
        simp only [absOpt, cnt, ptr]
        by_cases h : o = a
        · subst h; simp; omega
        · simp [h]
    · simp only [absCell, objCnt, isC, List.filterMap_cons, membersOf, sumBy_absSlot, List.flatten_cons, List.countP_append, id]
      omega

theorem tot_abs (what : Nat → Option Nat) (w : World) (a : Nat) :
    tot (abs what w) a = sharing w a + plain w a + cnts what w a := by
  simp only [tot, abs, sum_roots, sum_objs, sharing, plain, cnts, pointers, List.countP_append]
  omega

theorem sum_range (h : List (Option Cell)) (g : Nat → Option Cell → Nat) (P : Nat → Bool)
    (e : ∀ i x, h[i]? = some x → g i x = if P i then 1 else 0) :
    sumBy id (h.mapIdx g) = (List.range h.length).countP P := by
  induction h generalizing g P with
  | nil => rfl
  | cons x h ih =>
    rw [List.mapIdx_cons, Pointer.sumBy_cons, List.length_cons, List.range_succ_eq_map, List.countP_cons, List.countP_map,
      ih _ (P ∘ Nat.succ) (fun i x hx => e (i + 1) x (by simpa using hx)), e 0 x (by simp)]
    simp only [id]
    omega

theorem sharing_pos {w : World} {a : Nat} : 0 < sharing w a ↔ ∃ l s, w.read l = some s ∧ s.counter = some a := by
  rw [sharing, List.countP_pos_iff]
  constructor
  · rintro ⟨s, hs, e⟩
    obtain ⟨l, hl⟩ := mem_pointers.mp hs
    exact ⟨l, s, hl, by simpa using e⟩
  · rintro ⟨l, s, hl, e⟩
    exact ⟨s, mem_pointers.mpr ⟨l, hl⟩, by simpa using e⟩

theorem plain_pos {w : World} {a : Nat} : 0 < plain w a ↔ ∃ i, w.raw i = some a := by
  rw [plain, List.countP_pos_iff]
  constructor
  · rintro ⟨v, hv, e⟩
    obtain ⟨i, hi⟩ := List.mem_iff_getElem?.mp hv
    exact ⟨i, raw_some.mpr (by rw [hi]; simpa using e)⟩
  · rintro ⟨i, e⟩
    exact ⟨_, List.mem_of_getElem? (raw_some.mp e), by simp⟩

theorem cnts_pos {what : Nat → Option Nat} {w : World} {a : Nat} :
    0 < cnts what w a ↔ ∃ c n, w.heap[c]? = some (some (.counter n)) ∧ what c = some a := by
  rw [cnts, sumBy_pos]
  constructor
  · rintro ⟨i, x, hi, hx⟩
    rw [List.getElem?_mapIdx, Option.map_eq_some_iff] at hi
    obtain ⟨y, hy, rfl⟩ := hi
    simp only [id] at hx
    rcases y with _ | n | _
    · simp [isC] at hx
    · refine ⟨i, n, hy, ?_⟩
      simp only [isC] at hx
      split at hx
      · assumption
      · omega
    · simp [isC] at hx
  · rintro ⟨c, n, h1, h2⟩
    exact ⟨c, 1, by rw [List.getElem?_mapIdx, h1]; simp [isC, h2], by simp⟩

/-! ## The invariant -/

open Spec (Alive)

/-- the abstraction is in order -/
def R (w : World) : Prop := ∃ what, WF what w ∧ Inv (abs what w) []

theorem alive_abs {what : Nat → Option Nat} {w : World} {a : Nat} :
    Alive (abs what w) a ↔ ∃ x, w.heap[a]? = some (some x) := by
  simp only [Alive, abs, List.getElem?_mapIdx]
  rcases w.heap[a]? with _ | _ | _ | _ <;> simp [absCell]

section
variable {what : Nat → Option Nat} {w : World}

theorem counter_of_slot (h : WF what w) (hi : Inv (abs what w) []) {l : Loc} {s : Slot} {c : Nat} (hr : w.read l = some s)
    (hc : s.counter = some c) : ∃ o n m ms, s.ref = some o ∧ what c = some o ∧ w.heap[c]? = some (some (.counter n)) ∧
      w.heap[o]? = some (some (.object m ms)) := by
  have ha := Pointer.alive_of_counter hi (read_abs_some h hr) (by rw [absSlot_counter, hc])
  obtain ⟨x, hx⟩ := alive_abs.mp ha
  rcases slotOk_of_read h hr with ⟨h1, -⟩ | ⟨c', o, h1, h2, h3, h4, -⟩
  · simp [hc] at h1
  rw [hc] at h1
  cases h1
  cases x with
  | object n ms =>
    have := (h.cells c _ hx).1
    rw [h3] at this
    cases this
  | counter n =>
    have hro : (abs what w).read (.field c 0) = some (ptr o) := by
      rw [Pointer.World.read, objs_get, hx]
      simp [absCell, h3, absOpt]
    obtain ⟨y, hy⟩ := alive_abs.mp (Pointer.alive_of_counter hi hro rfl)
    cases y with
    | counter m =>
      obtain ⟨o', h5, -⟩ := h.cells o _ hy
      rw [h4] at h5
      cases h5
    | object m ms => exact ⟨o, n, m, ms, h2, h3, hx, hy⟩

theorem object_of_raw (h : WF what w) (hi : Inv (abs what w) []) {i o : Nat} (hr : w.raw i = some o) :
    ∃ m ms, w.heap[o]? = some (some (.object m ms)) := by
  have ho := h.vars i _ (raw_some.mp hr)
  obtain ⟨y, hy⟩ := alive_abs.mp (Pointer.alive_of_counter hi (raw_abs (what := what) hr) rfl)
  cases y with
  | counter m =>
    obtain ⟨o', h5, -⟩ := h.cells o _ hy
    rw [ho.1] at h5
    cases h5
  | object m ms => exact ⟨m, ms, hy⟩

theorem slot_of_counter (h : WF what w) (hi : Inv (abs what w) []) {c o : Nat} {n : Int}
    (hc : w.heap[c]? = some (some (.counter n))) (ho : what c = some o) :
    ∃ l s, w.read l = some s ∧ s.counter = some c ∧ s.ref = some o := by
  have hp := hi.pos c n (by simp [abs, hc, count])
  obtain ⟨o', e1, e2, -⟩ := h.cells c _ hc
  have h1 : plain w c = 0 := by
    refine Classical.byContradiction fun hn => ?_
    obtain ⟨i, hr⟩ := plain_pos.mp (Nat.pos_of_ne_zero ‹_›)
    have := h.vars i _ (raw_some.mp hr)
    rw [this.1] at e1
    cases e1
  have h2 : cnts what w c = 0 := by
    refine Classical.byContradiction fun hn => ?_
    obtain ⟨d, m, hd, hw⟩ := cnts_pos.mp (Nat.pos_of_ne_zero ‹_›)
    obtain ⟨o'', e3, e4, -⟩ := h.cells d _ hd
    rw [hw] at e3
    cases e3
    rw [e1] at e4
    cases e4
  have h3 := tot_abs what w c
  simp only [Pointer.sumBy_nil] at hp
  obtain ⟨l, s, hr, hs⟩ := sharing_pos.mp (show 0 < sharing w c by omega)
  obtain ⟨o'', _, _, _, e3, e4, -⟩ := counter_of_slot h hi hr hs
  rw [ho] at e4
  cases e4
  exact ⟨l, s, hr, hs, e3⟩

theorem good_of_abs (h : WF what w) (hi : Inv (abs what w) []) : Spec.Com.Good w := by
  refine ⟨?_, ?_, ?_, ?_, ?_⟩
  · intro c n hc
    have hp := hi.pos c n (by simp [abs, hc, count])
    obtain ⟨o', e1, e2, -⟩ := h.cells c _ hc
    have h1 : plain w c = 0 := by
      refine Classical.byContradiction fun hn => ?_
      obtain ⟨i, hr⟩ := plain_pos.mp (Nat.pos_of_ne_zero ‹_›)
      have := h.vars i _ (raw_some.mp hr)
      rw [this.1] at e1
      cases e1
    have h2 : cnts what w c = 0 := by
      refine Classical.byContradiction fun hn => ?_
      obtain ⟨d, m, hd, hw⟩ := cnts_pos.mp (Nat.pos_of_ne_zero ‹_›)
      obtain ⟨o'', e3, e4, -⟩ := h.cells d _ hd
      rw [hw] at e3
      cases e3
      rw [e1] at e4
      cases e4
    have h3 := tot_abs what w c
    simp only [Pointer.sumBy_nil] at hp
    omega
  · intro o n ms ho
    have hp := hi.pos o n (by simp [abs, ho, count])
    have hw := (h.cells o _ ho).1
    have h1 : sharing w o = 0 := by
      refine Classical.byContradiction fun hn => ?_
      obtain ⟨l, s, hr, hs⟩ := sharing_pos.mp (show 0 < sharing w o by omega)
      obtain ⟨o'', _, _, _, e3, e4, -⟩ := counter_of_slot h hi hr hs
      rw [hw] at e4
      cases e4
    have h2 : cnts what w o = groups w o := by
      rw [cnts, groups]
      apply sum_range
      intro c x hx
      by_cases hg : ∃ s ∈ pointers w, s.counter = some c ∧ s.ref = some o
      · obtain ⟨s, hs, hsc, hsr⟩ := hg
        obtain ⟨l, hl⟩ := mem_pointers.mp hs
        obtain ⟨o', n, _, _, e3, e4, e5, -⟩ := counter_of_slot h hi hl hsc
        rw [hsr] at e3
        cases e3
        rw [hx] at e5
        cases e5
        rw [if_pos (by rw [List.any_eq_true]; exact ⟨s, hs, by simp [hsc, hsr]⟩)]
        simp [isC, e4]
      · rw [if_neg (by rw [List.any_eq_true]; rintro ⟨s, hs, e⟩; exact hg ⟨s, hs, by simpa using e⟩)]
        rcases x with _ | n | _
        · rfl
        · simp only [isC]
          rw [if_neg]
          intro hw
          obtain ⟨l, s, hr, hs, hsr⟩ := slot_of_counter h hi hx hw
          exact hg ⟨s, mem_pointers.mpr ⟨l, hr⟩, hs, hsr⟩
        · rfl
    have h3 := tot_abs what w o
    simp only [Pointer.sumBy_nil] at hp
    omega
  · intro s hs
    obtain ⟨l, hl⟩ := mem_pointers.mp hs
    cases hc : s.counter with
    | none =>
      rcases slotOk_of_read h hl with h1 | ⟨c', o, h1, -⟩
      · exact .inl ⟨rfl, h1.2⟩
      · rw [hc] at h1; cases h1
    | some c =>
      obtain ⟨o, n, m, ms, e1, -, e2, e3⟩ := counter_of_slot h hi hl hc
      exact .inr ⟨c, o, n, m, ms, rfl, e1, e2, e3⟩
  · intro s hs t ht e
    obtain ⟨l, hl⟩ := mem_pointers.mp hs
    obtain ⟨m, hm⟩ := mem_pointers.mp ht
    rcases slotOk_of_read h hl with h1 | ⟨c, o, h1, h2, h3, -⟩ <;>
      rcases slotOk_of_read h hm with g1 | ⟨c', o', g1, g2, g3, -⟩
    · rw [h1.2, g1.2]
    · rw [h1.1, g1] at e; cases e
    · rw [h1, g1.1] at e; cases e
    · rw [h1, g1] at e; cases e; rw [h3] at g3; cases g3; rw [h2, g2]
  · intro i o hr
    exact object_of_raw h hi hr

end

/-- the object of a counter -/
def whatOf (w : World) (c : Nat) : Option Nat :=
  match w.heap[c]?.join with
  | some (.counter _) => ((pointers w).find? fun s => decide (s.counter = some c)).bind (·.ref)
  | _ => none

theorem whatOf_object {w : World} {o : Nat} {n : Int} {ms : List Slot} (h : w.heap[o]? = some (some (.object n ms))) :
    whatOf w o = none := by simp [whatOf, h]

theorem whatOf_slot {w : World} (h : Spec.Com.Good w) {s : Slot} (hs : s ∈ pointers w) {c o : Nat} {n : Int} (hc : s.counter = some c)
    (ho : s.ref = some o) (hn : w.heap[c]? = some (some (.counter n))) : whatOf w c = some o := by
  simp only [whatOf, hn, Option.join_some]
  cases e : (pointers w).find? fun s => decide (s.counter = some c) with
  | none =>
    have := List.find?_eq_none.mp e s hs
    simp [hc] at this
  | some t =>
    have h1 := List.find?_some e
    have h2 := List.mem_of_find?_eq_some e
    simp only [decide_eq_true_eq] at h1
    rw [Option.bind_some, h.same t h2 s hs (by rw [h1, hc]), ho]

theorem getElem?_lt {α : Type} {L : List α} {i : Nat} {x : α} (h : L[i]? = some x) : i < L.length :=
  (List.getElem?_eq_some_iff.mp h).1

theorem slotOk_whatOf {w : World} (h : Spec.Com.Good w) {s : Slot} (hs : s ∈ pointers w) : SlotOk (whatOf w) w.heap.length s := by
  rcases h.pointer s hs with h1 | ⟨c, o, n, m, ms, h1, h2, h3, h4⟩
  · exact .inl h1
  · exact .inr ⟨c, o, h1, h2, whatOf_slot h hs h1 h2 h3, whatOf_object h4, getElem?_lt h3, getElem?_lt h4⟩

theorem wf_of_good {w : World} (h : Spec.Com.Good w) : WF (whatOf w) w := by
  refine ⟨?_, ?_⟩
  · intro a x hx
    cases x with
    | counter n =>
      have := h.counter a n hx
      obtain ⟨l, s, hl, hs⟩ := sharing_pos.mp (show 0 < sharing w a by omega)
      have hm := mem_pointers.mpr ⟨l, hl⟩
      rcases h.pointer s hm with h1 | ⟨c, o, n, m, ms, h1, h2, h3, h4⟩
      · rw [h1.1] at hs; cases hs
      · rw [hs] at h1
        cases h1
        exact ⟨o, whatOf_slot h hm hs h2 h3, whatOf_object h4, getElem?_lt h4⟩
    | object n ms =>
      refine ⟨whatOf_object hx, ?_⟩
      intro s hs
      obtain ⟨j, hj⟩ := List.mem_iff_getElem?.mp hs
      exact slotOk_whatOf h (mem_pointers.mpr ⟨.field a j, read_field.mpr ⟨n, ms, hx, hj⟩⟩)
  · intro i v hv
    cases v with
    | com s => exact slotOk_whatOf h (mem_pointers.mpr ⟨.root i, read_root.mpr hv⟩)
    | raw o =>
      obtain ⟨m, ms, h1⟩ := h.raw i o (raw_some.mpr hv)
      exact ⟨whatOf_object h1, getElem?_lt h1⟩

theorem ptr_ok (o : Nat) : Pointer.SlotOk (ptr o) :=
  ⟨fun c hc => by simp [ptr] at hc ⊢; exact hc, fun hc => by simp [ptr] at hc⟩

theorem absSlot_ok (s : Slot) : Pointer.SlotOk (absSlot s) := by
  unfold absSlot
  cases s.counter with
  | none => exact Pointer.slotOk_empty
  | some c => exact ptr_ok c

theorem inv_of_good {w : World} (h : Spec.Com.Good w) : Inv (abs (whatOf w) w) [] := by
  have hwf := wf_of_good h
  have hg : ∀ (c : Nat) (n : Int), (abs (whatOf w) w).counters[c]? = some (some n) → ∃ x, w.heap[c]? = some (some x) ∧ count x = n := by
    intro c n hn
    simp only [abs, List.getElem?_map] at hn
    cases e : w.heap[c]? with
    | none => simp [e] at hn
    | some x =>
      cases x with
      | none => simp [e] at hn
      | some x => simp [e] at hn; exact ⟨x, rfl, hn⟩
  have hsl : ∀ (c : Nat) (l : Loc) (s : Slot), w.read l = some s → s.counter = some c → ∃ n, w.heap[c]? = some (some (.counter n)) := by
    intro c l s hl hs
    rcases h.pointer s (mem_pointers.mpr ⟨l, hl⟩) with h1 | ⟨c', o, n, m, ms, h1, h2, h3, h4⟩
    · rw [h1.1] at hs; cases hs
    · rw [hs] at h1; cases h1; exact ⟨n, h3⟩
  have hcn : ∀ (c o : Nat) (n : Int), w.heap[c]? = some (some (.counter n)) → whatOf w c = some o →
      ∃ s ∈ pointers w, s.counter = some c ∧ s.ref = some o ∧ ∃ m ms, w.heap[o]? = some (some (.object m ms)) := by
    intro c o n hc hw
    have := h.counter c n hc
    obtain ⟨l, s, hl, hs⟩ := sharing_pos.mp (show 0 < sharing w c by omega)
    have hm := mem_pointers.mpr ⟨l, hl⟩
    rcases h.pointer s hm with h1 | ⟨c', o', n, m, ms, h1, h2, h3, h4⟩
    · rw [h1.1] at hs; cases hs
    · rw [hs] at h1
      cases h1
      have := whatOf_slot h hm hs h2 h3
      rw [hw] at this
      cases this
      exact ⟨s, hm, hs, h2, m, ms, h4⟩
  refine ⟨by simp [abs], ?_, ?_, ?_, ?_, by simp⟩
  · intro a
    rw [alive_abs]
    constructor
    · rintro ⟨x, hx⟩; exact ⟨count x, by simp [abs, hx]⟩
    · rintro ⟨n, hn⟩
      obtain ⟨x, hx, -⟩ := hg a n hn
      exact ⟨x, hx⟩
  · intro a n hn
    obtain ⟨x, hx, hxn⟩ := hg a n hn
    rw [tot_abs]
    simp only [Pointer.sumBy_nil]
    cases x with
    | counter m =>
      simp only [count] at hxn
      subst hxn
      have hp : plain w a = 0 := by
        refine Classical.byContradiction fun hc => ?_
        obtain ⟨i, hr⟩ := plain_pos.mp (Nat.pos_of_ne_zero ‹_›)
        obtain ⟨m, ms, e⟩ := h.raw i a hr
        rw [hx] at e
        cases e
      have hz : cnts (whatOf w) w a = 0 := by
        refine Classical.byContradiction fun hc => ?_
        obtain ⟨c, n, e1, e2⟩ := cnts_pos.mp (Nat.pos_of_ne_zero ‹_›)
        obtain ⟨s, -, -, -, m, ms, e⟩ := hcn c a n e1 e2
        rw [hx] at e
        cases e
      have := h.counter a m hx
      omega
    | object m ms =>
      simp only [count] at hxn
      subst hxn
      have hp : sharing w a = 0 := by
        refine Classical.byContradiction fun hc => ?_
        obtain ⟨l, s, hl, hs⟩ := sharing_pos.mp (show 0 < sharing w a by omega)
        obtain ⟨n, e⟩ := hsl a l s hl hs
        rw [hx] at e
        cases e
      have hz : cnts (whatOf w) w a = groups w a := by
        rw [cnts, groups]
        apply sum_range
        intro c y hy
        by_cases hq : ∃ s ∈ pointers w, s.counter = some c ∧ s.ref = some a
        · obtain ⟨s, hs, hsc, hsr⟩ := hq
          obtain ⟨l, hl⟩ := mem_pointers.mp hs
          obtain ⟨n, e5⟩ := hsl c l s hl hsc
          rw [if_pos (by rw [List.any_eq_true]; exact ⟨s, hs, by simp [hsc, hsr]⟩)]
          have := whatOf_slot h hs hsc hsr e5
          rw [hy] at e5
          cases e5
          simp [isC, this]
        · rw [if_neg (by rw [List.any_eq_true]; rintro ⟨s, hs, e⟩; exact hq ⟨s, hs, by simpa using e⟩)]
          rcases y with _ | n | _
          · rfl
          · simp only [isC]
            rw [if_neg]
            intro hw
            obtain ⟨s, hs, hsc, hsr, -⟩ := hcn c a n hy hw
            exact hq ⟨s, hs, hsc, hsr⟩
          · rfl
      have := h.object a m ms hx
      omega
  · intro a hn
    have hd : ∀ x, w.heap[a]? ≠ some (some x) := by
      intro x hx
      rw [counters_get, hx] at hn
      cases hn
    rw [tot_abs]
    simp only [Pointer.sumBy_nil]
    have h1 : sharing w a = 0 := by
      refine Classical.byContradiction fun hc => ?_
      obtain ⟨l, s, hl, hs⟩ := sharing_pos.mp (show 0 < sharing w a by omega)
      obtain ⟨n, e⟩ := hsl a l s hl hs
      exact hd _ e
    have h2 : plain w a = 0 := by
      refine Classical.byContradiction fun hc => ?_
      obtain ⟨i, hr⟩ := plain_pos.mp (Nat.pos_of_ne_zero ‹_›)
      obtain ⟨m, ms, e⟩ := h.raw i a hr
      exact hd _ e
    have h3 : cnts (whatOf w) w a = 0 := by
      refine Classical.byContradiction fun hc => ?_
      obtain ⟨c, n, e1, e2⟩ := cnts_pos.mp (Nat.pos_of_ne_zero ‹_›)
      obtain ⟨s, -, -, -, m, ms, e⟩ := hcn c a n e1 e2
      exact hd _ e
    omega
  · intro l s hl
    cases l with
    | root i =>
      rw [Pointer.World.read, roots_get] at hl
      cases e : w.vars[i]?.join with
      | none => rw [e] at hl; cases hl
      | some v =>
        rw [e] at hl
        cases hl
        cases v with
        | com s => exact absSlot_ok s
        | raw o => exact ptr_ok o
    | field o j =>
      rw [Pointer.World.read, objs_get] at hl
      rcases e : w.heap[o]?.join with _ | n | ⟨n, ms⟩
      · rw [e] at hl; cases hl
      · rw [e] at hl
        simp only [absCell, Option.bind_some] at hl
        have := List.mem_of_getElem? hl
        simp only [List.mem_singleton] at this
        subst this
        cases whatOf w o with
        | none => exact Pointer.slotOk_empty
        | some o => exact ptr_ok o
      · rw [e] at hl
        simp only [absCell, Option.bind_some] at hl
        obtain ⟨t, -, rfl⟩ := List.mem_map.mp (List.mem_of_getElem? hl)
        exact absSlot_ok t

theorem good_iff (w : World) : Spec.Com.Good w ↔ R w :=
  ⟨fun h => ⟨whatOf w, wf_of_good h, inv_of_good h⟩, fun ⟨_, h, hi⟩ => good_of_abs h hi⟩

theorem present_abs {what : Nat → Option Nat} {w : World} {x : Nat} : Spec.Com.Present w x ↔ Alive (abs what w) x := alive_abs.symm

theorem survives_abs {what : Nat → Option Nat} {w : World} (h : WF what w) (hi : Inv (abs what w) []) {p : Loc}
    (hp : ∀ c j, p = .field c j → what c = none) (x : Nat) :
    Spec.Survives (abs what w) p x ↔ Spec.Com.Survives w p x := by
  constructor
  · rintro ⟨S, hx, hS⟩
    refine ⟨S, hx, fun y hy => ?_⟩
    obtain ⟨l, t, h1, h2, h3, h4⟩ := hS y hy
    cases l with
    | root i =>
      rw [Pointer.World.read, roots_get] at h2
      cases e : w.vars[i]?.join with
      | none => rw [e] at h2; cases h2
      | some v =>
        rw [e] at h2
        cases h2
        cases v with
        | com s =>
          exact .inl ⟨.root i, s, h1, read_root.mpr (join_eq_some.mp e), by rw [← absSlot_counter]; exact h3, trivial⟩
        | raw o =>
          simp only [absVar, ptr, Option.some.injEq] at h3
          subst h3
          exact .inr (.inl ⟨i, h1, raw_some.mpr (join_eq_some.mp e)⟩)
    | field o j =>
      rw [Pointer.World.read, objs_get] at h2
      rcases e : w.heap[o]?.join with _ | n | ⟨n, ms⟩
      · rw [e] at h2; cases h2
      · rw [e] at h2
        simp only [absCell, Option.bind_some] at h2
        have ht := List.mem_of_getElem? h2
        simp only [List.mem_singleton] at ht
        subst ht
        obtain ⟨o', ho', -⟩ := h.cells o _ (join_eq_some.mp e)
        rw [ho'] at h3
        simp only [absOpt, ptr, Option.some.injEq] at h3
        subst h3
        obtain ⟨l, s, g1, g2, g3⟩ := slot_of_counter h hi (join_eq_some.mp e) ho'
        exact .inr (.inr ⟨o, s, h4, mem_pointers.mpr ⟨l, g1⟩, g2, g3⟩)
      · rw [e] at h2
        simp only [absCell, Option.bind_some, List.getElem?_map, Option.map_eq_some_iff] at h2
        obtain ⟨s, hs, rfl⟩ := h2
        exact .inl ⟨.field o j, s, h1, read_field.mpr ⟨n, ms, join_eq_some.mp e, hs⟩, by rw [← absSlot_counter]; exact h3, h4⟩
  · rintro ⟨S, hx, hS⟩
    refine ⟨S, hx, fun y hy => ?_⟩
    rcases hS y hy with ⟨l, s, h1, h2, h3, h4⟩ | ⟨i, h1, h2⟩ | ⟨c, s, h1, h2, h3, h4⟩
    · exact ⟨l, absSlot s, h1, read_abs_some h h2, by rw [absSlot_counter]; exact h3, h4⟩
    · exact ⟨.root i, ptr y, h1, raw_abs h2, rfl, trivial⟩
    · obtain ⟨l, hl⟩ := mem_pointers.mp h2
      obtain ⟨o, n, m, ms, e1, e2, e3, -⟩ := counter_of_slot h hi hl h3
      rw [h4] at e1
      cases e1
      refine ⟨.field c 0, ptr y, ?_, ?_, rfl, h1⟩
      · intro e
        have := hp c 0 e.symm
        rw [e2] at this
        cases this
      · rw [Pointer.World.read, objs_get, e3]
        simp [absCell, e2, absOpt]

theorem keeps_abs {what : Nat → Option Nat} {w : World} (h : WF what w) (hi : Inv (abs what w) []) {p : Loc}
    (hp : ∀ c j, p = .field c j → what c = none) (l : Loc) :
    Spec.Keeps (abs what w) p l ↔ Spec.Com.Keeps w p l := by
  cases l with
  | root i => exact Iff.rfl
  | field o j => exact survives_abs h hi hp o

theorem loc_ok {what : Nat → Option Nat} {w : World} {p : Loc} (h : ComLoc what w p) : ∀ c j, p = .field c j → what c = none := by
  rintro c j rfl
  exact h

/-! ## Operations -/

/-- what no operation on `ComPtr`s changes -/
structure Sim (what : Nat → Option Nat) (w w' : World) : Prop where
  wf : WF what w'
  len : w'.heap.length = w.heap.length
  raw : ∀ i, w'.raw i = w.raw i

theorem Sim.comLoc {what : Nat → Option Nat} {w w' : World} (h : Sim what w w') {l : Loc} (hl : ComLoc what w l) :
    ComLoc what w' l := by
  cases l with
  | root i => exact (h.raw i).trans hl
  | field o j => exact hl

/-- a pointer that is the same in the abstraction is the same -/
theorem Sim.back {what : Nat → Option Nat} {w w' : World} (h : Sim what w w') {l : Loc} (hl : ComLoc what w l) {s : Slot}
    (hs : SlotOk what w.heap.length s) (hr : (abs what w').read l = some (absSlot s)) : w'.read l = some s := by
  rw [read_abs h.wf (h.comLoc hl), Option.map_eq_some_iff] at hr
  obtain ⟨t, ht, e⟩ := hr
  have := slotOk_of_read h.wf ht
  rw [h.len] at this
  rw [ht, absSlot_inj this hs e]

section
variable {what : Nat → Option Nat} {w : World}

theorem dec_sim (h : WF what w) {l : Loc} (hl : ComLoc what w l) :
    Pointer.dec (abs what w) l = (dec w l).map (abs what) ∧ ∀ w', dec w l = some w' → Sim what w w' :=
  ⟨(dec_abs h hl).1, fun w' e => have ⟨a, b, c, _⟩ := (dec_abs h hl).2 w' e; ⟨a, b, c⟩⟩

theorem Sim.write {w' : World} (h : Sim what w w') {l : Loc} (hl : ComLoc what w l) {t : Slot}
    (ht : SlotOk what w.heap.length t) : Sim what w (w'.write l t) := by
  refine ⟨wf_write h.wf (by rw [h.len]; exact ht), by rw [length_write, h.len], ?_⟩
  intro i
  by_cases e : l = .root i
  · subst e
    have : w.raw i = none := hl
    rw [this]
    exact raw_write_none ((h.raw i).trans this)
  · rw [raw_write_ne e, h.raw]

theorem Sim.inc {w' : World} (h : Sim what w w') {s : Slot} (hs : SlotOk what w.heap.length s) :
    Pointer.inc (abs what w') (absSlot s) = (Com.inc w' s).map (abs what) ∧ ∀ w'', Com.inc w' s = some w'' → Sim what w w'' := by
  have := inc_abs h.wf (s := s) (by rw [h.len]; exact hs)
  refine ⟨this.1, fun w'' e => ?_⟩
  obtain ⟨a, b, c⟩ := this.2 w'' e
  exact ⟨a, c.trans h.len, fun i => by simp only [World.raw, b]; exact h.raw i⟩

theorem Sim.store {w' : World} (h : Sim what w w') {l : Loc} (hl : ComLoc what w l) {t : Slot}
    (ht : SlotOk what w.heap.length t) :
    (abs what w').store l (absSlot t) = (w'.store l t).map (abs what) ∧ ∀ w'', w'.store l t = some w'' → Sim what w w'' := by
  refine ⟨store_abs h.wf (h.comLoc hl) t, fun w'' e => ?_⟩
  rw [store_some e]
  exact h.write hl ht

theorem Sim.slotOk {w' : World} (h : Sim what w w') {l : Loc} {s : Slot} (hr : w'.read l = some s) :
    SlotOk what w.heap.length s := by
  rw [← h.len]; exact slotOk_of_read h.wf hr

theorem absSlot_default : absSlot {} = {} := rfl

/-- the new variable -/
theorem append_sim (h : WF what w) {s : Slot} (hs : SlotOk what w.heap.length s) :
    Sim what w { w with vars := w.vars ++ [some (.com s)] } ∧
      abs what { w with vars := w.vars ++ [some (.com s)] } =
        { abs what w with roots := (abs what w).roots ++ [some (absSlot s)] } := by
  refine ⟨⟨⟨h.cells, ?_⟩, rfl, ?_⟩, by simp [abs, absVar]⟩
  · intro i v hv
    simp only at hv
    rcases Nat.lt_trichotomy i w.vars.length with hi | rfl | hi
    · rw [List.getElem?_append_left hi] at hv; exact h.vars i v hv
    · simp at hv; subst hv; exact hs
    · rw [List.getElem?_eq_none (by simp; omega)] at hv; cases hv
  · intro i
    simp only [World.raw]
    rcases Nat.lt_trichotomy i w.vars.length with hi | rfl | hi
    · rw [List.getElem?_append_left hi]
    · simp
    · rw [List.getElem?_eq_none (by simp; omega), List.getElem?_eq_none (by omega)]

theorem copyCtor_sim (h : WF what w) {m : Loc} (hm : ComLoc what w m) :
    Pointer.step (abs what w) (.copyCtor m) = (step w (.copyCtor m)).map (abs what) ∧
      ∀ w', step w (.copyCtor m) = some w' → Sim what w w' := by
  simp only [Pointer.step, step]
  rw [read_abs h hm]
  cases hr : w.read m with
  | none => simp
  | some s =>
    have hs := slotOk_of_read h hr
    obtain ⟨h1, h2⟩ := append_sim h hs
    simp only [Option.map_some]
    rw [← h2]
    exact h1.inc hs

theorem moveCtor_sim (h : WF what w) {m : Loc} (hm : ComLoc what w m) :
    Pointer.step (abs what w) (.moveCtor m) = (step w (.moveCtor m)).map (abs what) ∧
      ∀ w', step w (.moveCtor m) = some w' → Sim what w w' := by
  simp only [Pointer.step, step]
  rw [read_abs h hm]
  cases hr : w.read m with
  | none => simp
  | some s =>
    have hs := slotOk_of_read h hr
    obtain ⟨h1, h2⟩ := append_sim h hs
    simp only [Option.map_some]
    rw [← h2]
    exact h1.store hm (slotOk_empty _ _)

theorem assignNull_sim (h : WF what w) {l : Loc} (hl : ComLoc what w l) :
    Pointer.step (abs what w) (.assignNull l) = (step w (.assignNull l)).map (abs what) ∧
      ∀ w', step w (.assignNull l) = some w' → Sim what w w' := by
  obtain ⟨d1, d2⟩ := dec_sim h hl
  simp only [Pointer.step, step]
  rw [d1]
  cases hd : dec w l with
  | none => simp
  | some w1 =>
    simp only [Option.map_some]
    exact (d2 w1 hd).store hl (slotOk_empty _ _)

theorem destroy_sim (h : WF what w) {i : Nat} (hl : ComLoc what w (.root i)) :
    Pointer.step (abs what w) (.destroy i) = (step w (.destroy i)).map (abs what) ∧
      ∀ w', step w (.destroy i) = some w' → Sim what w w' := by
  obtain ⟨d1, d2⟩ := dec_sim h hl
  simp only [Pointer.step, step]
  rw [d1]
  cases hd : dec w (.root i) with
  | none => simp
  | some w1 =>
    have h1 := d2 w1 hd
    simp only [Option.map_some]
    rw [read_abs h1.wf (h1.comLoc hl)]
    simp only [Option.isSome_map]
    split
    · refine ⟨by simp [abs, List.map_set], ?_⟩
      intro w' e
      simp only [Option.some.injEq] at e
      subst e
      refine ⟨⟨h1.wf.cells, ?_⟩, h1.len, ?_⟩
      · intro k v hv
        simp only at hv
        by_cases e : k = i
        · subst e
          by_cases hk : k < w1.vars.length
          · rw [List.getElem?_set_self hk] at hv; cases hv
          · rw [List.getElem?_eq_none (by simp; omega)] at hv; cases hv
        · rw [List.getElem?_set_ne (fun x => e x.symm)] at hv; exact h1.wf.vars k v hv
      · intro k
        by_cases e : k = i
        · subst e
          have : w.raw k = none := hl
          rw [this]
          simp only [World.raw]
          by_cases hk : k < w1.vars.length
          · rw [List.getElem?_set_self hk]; rfl
          · rw [List.getElem?_eq_none (by simp; omega)]; rfl
        · rw [← h1.raw]
          simp only [World.raw]
          rw [List.getElem?_set_ne (fun x => e x.symm)]
    · simp

theorem assignCopy_sim (h : WF what w) {l m : Loc} (hl : ComLoc what w l) (hm : ComLoc what w m) :
    Pointer.step (abs what w) (.assignCopy l m) = (step w (.assignCopy l m)).map (abs what) ∧
      ∀ w', step w (.assignCopy l m) = some w' → Sim what w w' := by
  obtain ⟨d1, d2⟩ := dec_sim h hl
  simp only [Pointer.step, step]
  by_cases e : l = m
  · subst e
    simp only [if_true, read_abs h hl, Option.isSome_map]
    split
    · exact ⟨rfl, fun w' e => by cases e; exact ⟨h, rfl, fun _ => rfl⟩⟩
    · simp
  · simp only [if_neg e, d1]
    cases hd : dec w l with
    | none => simp
    | some w1 =>
      have h1 := d2 w1 hd
      simp only [Option.map_some, read_abs h1.wf (h1.comLoc hm)]
      cases hr : w1.read m with
      | none => simp
      | some s =>
        have hs := h1.slotOk hr
        obtain ⟨s1, s2⟩ := h1.store hl hs
        simp only [Option.map_some, s1]
        cases hst : w1.store l s with
        | none => simp
        | some w2 =>
          simp only [Option.map_some]
          exact (s2 w2 hst).inc hs

theorem assignMove_sim (h : WF what w) {l m : Loc} (hl : ComLoc what w l) (hm : ComLoc what w m) :
    Pointer.step (abs what w) (.assignMove l m) = (step w (.assignMove l m)).map (abs what) ∧
      ∀ w', step w (.assignMove l m) = some w' → Sim what w w' := by
  obtain ⟨d1, d2⟩ := dec_sim h hl
  simp only [Pointer.step, step]
  by_cases e : l = m
  · subst e
    simp only [if_true, read_abs h hl, Option.isSome_map]
    split
    · exact ⟨rfl, fun w' e => by cases e; exact ⟨h, rfl, fun _ => rfl⟩⟩
    · simp
  · simp only [if_neg e, d1]
    cases hd : dec w l with
    | none => simp
    | some w1 =>
      have h1 := d2 w1 hd
      simp only [Option.map_some, read_abs h1.wf (h1.comLoc hm)]
      cases hr : w1.read m with
      | none => simp
      | some s =>
        have hs := h1.slotOk hr
        obtain ⟨s1, s2⟩ := h1.store hl hs
        simp only [Option.map_some, s1]
        cases hst : w1.store l s with
        | none => simp
        | some w2 =>
          simp only [Option.map_some]
          exact (s2 w2 hst).store hm (slotOk_empty _ _)

end

/-! ## Plain pointers -/

theorem slotOk_mono {what what' : Nat → Option Nat} {n n' : Nat} (hw : ∀ a, a < n → what' a = what a) (hn : n ≤ n') {s : Slot}
    (h : SlotOk what n s) : SlotOk what' n' s := by
  rcases h with h | ⟨c, o, h1, h2, h3, h4, h5, h6⟩
  · exact .inl h
  · exact .inr ⟨c, o, h1, h2, by rw [hw c h5, h3], by rw [hw o h6, h4], by omega, by omega⟩

/-- a new cell -/
theorem grow_wf {what what' : Nat → Option Nat} {w : World} (h : WF what w) (hw : ∀ a, a < w.heap.length → what' a = what a)
    {x : Cell} (hx : CellOk what' (w.heap.length + 1) w.heap.length x) :
    WF what' { w with heap := w.heap ++ [some x] } := by
  refine ⟨?_, ?_⟩
  · intro a y ha
    simp only [List.length_append, List.length_singleton] at ha ⊢
    rcases Nat.lt_trichotomy a w.heap.length with hi | rfl | hi
    · rw [List.getElem?_append_left hi] at ha
      have := h.cells a y ha
      cases y with
      | counter n =>
        obtain ⟨o, h1, h2, h3⟩ := this
        exact ⟨o, by rw [hw a hi, h1], by rw [hw o h3, h2], by omega⟩
      | object n ms => exact ⟨by rw [hw a hi, this.1], fun s hs => slotOk_mono hw (by omega) (this.2 s hs)⟩
    · simp at ha; subst ha; exact hx
    · rw [List.getElem?_eq_none (by simp; omega)] at ha; cases ha
  · intro i v hv
    simp only [List.length_append, List.length_singleton]
    have := h.vars i v hv
    cases v with
    | com s => exact slotOk_mono hw (by omega) this
    | raw o => exact ⟨by rw [hw o this.2, this.1], by have := this.2; omega⟩

theorem grow_abs {what what' : Nat → Option Nat} {w : World} (hw : ∀ a, a < w.heap.length → what' a = what a) (x : Cell) :
    abs what' { w with heap := w.heap ++ [some x] } =
      ⟨(abs what w).counters ++ [some (count x)], (abs what w).objs ++ [absCell what' w.heap.length (some x)], (abs what w).roots⟩ := by
  simp only [abs, List.map_append, List.map_cons, List.map_nil, Option.map_some, List.mapIdx_concat, Pointer.World.mk.injEq,
    List.append_cancel_right_eq, true_and, and_true]
  apply List.ext_getElem?
  intro i
  rw [List.getElem?_mapIdx, List.getElem?_mapIdx]
  cases e : w.heap[i]? with
  | none => rfl
  | some y =>
    have := getElem?_lt e
    rcases y with _ | n | _
    · rfl
    · simp [absCell, hw i this]
    · rfl

theorem raw_append {w : World} {o : Nat} {what : Nat → Option Nat} (h : WF what w) (ho : VarOk what w.heap.length (.raw o)) :
    WF what { w with vars := w.vars ++ [some (.raw o)] } ∧ abs what { w with vars := w.vars ++ [some (.raw o)] } =
        { abs what w with roots := (abs what w).roots ++ [some (ptr o)] } := by
  refine ⟨⟨h.cells, ?_⟩, by simp [abs, absVar]⟩
  intro i v hv
  simp only at hv
  rcases Nat.lt_trichotomy i w.vars.length with hi | rfl | hi
  · rw [List.getElem?_append_left hi] at hv; exact h.vars i v hv
  · simp at hv; subst hv; exact ho
  · rw [List.getElem?_eq_none (by simp; omega)] at hv; cases hv

theorem kill_wf {w : World} {what : Nat → Option Nat} (h : WF what w) (i : Nat) :
    WF what { w with vars := w.vars.set i none } ∧ abs what { w with vars := w.vars.set i none } =
        { abs what w with roots := (abs what w).roots.set i none } := by
  refine ⟨⟨h.cells, ?_⟩, by simp [abs, List.map_set]⟩
  intro k v hv
  simp only at hv
  by_cases e : k = i
  · subst e
    by_cases hl : k < w.vars.length
    · rw [List.getElem?_set_self hl] at hv; cases hv
    · rw [List.getElem?_eq_none (by simp; omega)] at hv; cases hv
  · rw [List.getElem?_set_ne (fun x => e x.symm)] at hv; exact h.vars k v hv

/-! ### In the abstraction -/

/-- a counter takes over a reference -/
def adopt (g : PWorld) (i : Nat) (t : PSlot) : PWorld :=
  ⟨g.counters ++ [some 1], g.objs ++ [some [t]], g.roots.set i none⟩

theorem newObject_eq (g : PWorld) (hl : g.counters.length = g.objs.length) (k : Nat) :
    Pointer.step g (.newObject k) = some ⟨g.counters ++ [some 1], g.objs ++ [some (List.replicate k ({} : Pointer.Slot))],
      g.roots ++ [some (ptr g.objs.length)]⟩ := by
  simp only [Pointer.step, Pointer.inc, hl]
  rw [List.getElem?_append_right (by omega)]
  simp [hl, ptr]

theorem inv_adopt {g : PWorld} (h : Inv g []) {i : Nat} {t : PSlot} (ht : g.read (.root i) = some t) :
    Inv { adopt g i t with roots := g.roots.set i none ++ [some (ptr g.objs.length)] } [] := by
  obtain ⟨g1, e1, e2, -, e3, e4, e5⟩ := C43_newObject g ((Pointer.good_iff g).mpr h) 1
  rw [newObject_eq g h.len] at e1
  have e2 := (Pointer.good_iff _).mp e2
  have h0 := e4 0 (by omega)
  have hi := e5 _ _ ht
  have hm := Pointer.inv_move e2 (p := .field g.objs.length 0) (m := .root i) h0 rfl hi (by simp)
  have hr : ((g1.write (.field g.objs.length 0) t).write (.root i) {}).read (.root i) = some {} :=
    Pointer.read_write_same (s := t) (by rw [Pointer.read_write_ne (by simp)]; exact hi)
  have hk := Pointer.inv_kill hm hr rfl
  have hlt : i < g.roots.length := getElem?_lt (Pointer.read_root.mp ht)
  simp only [Option.some.injEq] at e1
  subst e1
  simpa [Pointer.World.write, adopt, List.set_append, hlt] using hk

theorem inv_drop {g : PWorld} (h : Inv { g with roots := g.roots ++ [none] } []) : Inv g [] := by
  have hr : ∀ l s, g.read l = some s → ({ g with roots := g.roots ++ [none] } : PWorld).read l = some s := by
    intro l s hl
    cases l with
    | root i =>
      rw [Pointer.read_root] at hl ⊢
      simp only
      rw [List.getElem?_append_left (getElem?_lt hl)]
      exact hl
    | field o j => exact hl
  have ht : ∀ c, tot ({ g with roots := g.roots ++ [none] } : PWorld) c = tot g c := by
    intro c
    simp [tot, rootCnt]
  refine ⟨h.len, h.alive, ?_, ?_, fun l s hl => h.slot l s (hr l s hl), by simp⟩
  · intro c n hn; have := h.pos c n hn; rwa [ht] at this
  · intro c hn; have := h.none c hn; rwa [ht] at this

theorem adopt_write {g : PWorld} {i : Nat} {t : PSlot} {l : Loc} {e s : PSlot} (hl : g.read l = some e) (hne : l ≠ .root i) :
    (adopt g i t).write l s = adopt (g.write l s) i t := by
  cases l with
  | root k =>
    simp only [adopt, Pointer.World.write]
    rw [List.set_comm _ _ (by rintro rfl; exact hne rfl)]
  | field o j =>
    obtain ⟨fs, h1, h2⟩ := Pointer.read_field.mp hl
    have hlt := getElem?_lt h1
    simp only [adopt, Pointer.World.write]
    rw [List.getElem?_append_left hlt, h1]
    simp [hlt]

theorem adopt_read {g : PWorld} {i : Nat} {t : PSlot} {l : Loc} {e : PSlot} (hl : g.read l = some e) (hne : l ≠ .root i) :
    (adopt g i t).read l = some e := by
  cases l with
  | root k =>
    rw [Pointer.read_root] at hl ⊢
    simp only [adopt]
    rw [List.getElem?_set_ne (by rintro rfl; exact hne rfl)]
    exact hl
  | field o j =>
    obtain ⟨fs, h1, h2⟩ := Pointer.read_field.mp hl
    refine Pointer.read_field.mpr ⟨fs, ?_, h2⟩
    simp only [adopt]
    rw [List.getElem?_append_left (getElem?_lt h1)]
    exact h1

theorem append_write (g : PWorld) (r : Option PSlot) {l : Loc} {e s : PSlot} (hl : g.read l = some e) :
    ({ g with roots := g.roots ++ [r] } : PWorld).write l s = { g.write l s with roots := (g.write l s).roots ++ [r] } := by
  cases l with
  | root k =>
    have := getElem?_lt (Pointer.read_root.mp hl)
    simp [Pointer.World.write, this]
  | field o j =>
    simp only [Pointer.World.write]
    split <;> rfl

theorem inv_adopt_write {g : PWorld} (h : Inv g []) {i : Nat} {t e : PSlot} (ht : g.read (.root i) = some t) {l : Loc}
    (hl : g.read l = some e) (he : e.counter = none) (hne : l ≠ .root i) :
    Inv ((adopt g i t).write l (ptr g.objs.length)) [] := by
  have h1 := inv_adopt h ht
  have hal := adopt_read (t := t) hl hne
  have hln : l ≠ .root (adopt g i t).roots.length := Pointer.read_some_ne_new hal
  have hr : ({ adopt g i t with roots := g.roots.set i none ++ [some (ptr g.objs.length)] } : PWorld).read l = some e := by
    rw [← hal]
    exact Pointer.read_append_old (adopt g i t) (ptr g.objs.length) l hln
  have hn : ({ adopt g i t with roots := g.roots.set i none ++ [some (ptr g.objs.length)] } : PWorld).read
      (.root (adopt g i t).roots.length) = some (ptr g.objs.length) :=
    Pointer.read_append_new (adopt g i t) (ptr g.objs.length)
  have h2 := Pointer.inv_move h1 hr he hn (fun e => hln e.symm)
  have hw := append_write (adopt g i t) (some (ptr g.objs.length)) (s := ptr g.objs.length) hal
  have hw' : ({ adopt g i t with roots := g.roots.set i none ++ [some (ptr g.objs.length)] } : PWorld).write l (ptr g.objs.length) =
    { (adopt g i t).write l (ptr g.objs.length) with
      roots := ((adopt g i t).write l (ptr g.objs.length)).roots ++ [some (ptr g.objs.length)] } := hw
  rw [hw'] at h2
  have hlen : ((adopt g i t).write l (ptr g.objs.length)).roots.length = (adopt g i t).roots.length := by
    cases l with
    | root k => simp [Pointer.World.write]
    | field o j => simp only [Pointer.World.write]; split <;> rfl
  rw [← hlen, Pointer.write_append] at h2
  have h3 := Pointer.inv_kill h2 (Pointer.read_append_new _ _) rfl
  exact inv_drop (by simpa using h3)

/-- `Release` by the destructor of a pointer -/
theorem destroy_eq (g : PWorld) (i : Nat) (s : PSlot) (h : g.read (.root i) = some s) :
    Pointer.step g (.destroy i) = (Pointer.release g [s]).map fun g' => { g' with roots := g'.roots.set i none } := by
  simp only [Pointer.step, Pointer.dec, h, if_true]
  cases hc : s.counter with
  | none => simp [Pointer.release_empty _ _ _ hc, Pointer.release_nil, h]
  | some c =>
    simp only
    cases hn : g.counters[c]?.join with
    | none => simp [Pointer.release_dead _ _ _ c hc hn]
    | some n =>
      simp only
      by_cases e : n - 1 = 0
      · rw [if_pos e]
        cases er : Pointer.release g [s] with
        | none => rfl
        | some g' =>
          have hsh := Pointer.release_shrunk _ _ _ er
          have hg : g'.read (.root i) = some s := by rw [Pointer.World.read, hsh.roots]; exact h
          have hw : (g'.write (.root i) {}).read (.root i) = some {} := Pointer.read_write_same hg
          simp only [Pointer.World.store, hg, Option.isSome_some, if_true, hw]
          simp [Pointer.World.write]
      · rw [if_neg e, Pointer.release_more _ _ _ c n hc hn e, Pointer.release_nil]
        have : ({ g with counters := g.counters.set c (some (n - 1)) } : PWorld).read (.root i) = some s := h
        simp only [this]
        rfl

end Com
end Vlpp
