import Verif.Spec.Pointer

/-! # Release of shared pointers -/
set_option autoImplicit false
namespace Vlpp
namespace Pointer
open Spec

/-! ## Sums -/

def sumBy {α : Type} (f : α → Nat) (L : List α) : Nat := (L.map f).sum

@[simp] theorem sumBy_nil {α : Type} (f : α → Nat) : sumBy f [] = 0 := rfl
@[simp] theorem sumBy_cons {α : Type} (f : α → Nat) (a : α) (L : List α) : sumBy f (a :: L) = f a + sumBy f L := by
  simp [sumBy]
@[simp] theorem sumBy_append {α : Type} (f : α → Nat) (L M : List α) : sumBy f (L ++ M) = sumBy f L + sumBy f M := by
  simp [sumBy]
@[simp] theorem sumBy_reverse {α : Type} (f : α → Nat) (L : List α) : sumBy f L.reverse = sumBy f L := by
  simp [sumBy, List.sum_reverse]

theorem sumBy_set {α : Type} (f : α → Nat) (L : List α) (i : Nat) (x y : α) (h : L[i]? = some x) :
    sumBy f (L.set i y) + f x = sumBy f L + f y := by
  induction L generalizing i with
  | nil => simp at h
  | cons a L ih =>
    cases i with
    | zero => simp at h; subst h; simp; omega
    | succ i => simp only [List.getElem?_cons_succ] at h; have := ih i h; simp; omega

theorem sumBy_pos {α : Type} (f : α → Nat) (L : List α) : 0 < sumBy f L ↔ ∃ (i : Nat) (x : α), L[i]? = some x ∧ 0 < f x := by
  induction L with
  | nil => simp
  | cons a L ih =>
    rw [sumBy_cons]
    constructor
    · intro h
      by_cases ha : 0 < f a
      · exact ⟨0, a, by simp, ha⟩
      · obtain ⟨i, x, h1, h2⟩ := ih.mp (by omega)
        exact ⟨i + 1, x, by simpa using h1, h2⟩
    · rintro ⟨i, x, h1, h2⟩
      cases i with
      | zero => simp at h1; subst h1; omega
      | succ i => have := ih.mpr ⟨i, x, by simpa using h1, h2⟩; omega

theorem sumBy_zero_mem {α : Type} {f : α → Nat} {L : List α} (h : sumBy f L = 0) {x : α} (hx : x ∈ L) : f x = 0 := by
  obtain ⟨i, hi⟩ := List.mem_iff_getElem?.mp hx
  refine Classical.byContradiction fun hc => ?_
  have := (sumBy_pos f L).mpr ⟨i, x, hi, by omega⟩
  omega

/-- contribution of a pointer to the counter -/
def cnt (c : Nat) (s : Slot) : Nat := if s.counter = some c then 1 else 0

def rootCnt (c : Nat) : Option Slot → Nat
  | some s => cnt c s
  | none => 0

def objCnt (c : Nat) : Option (List Slot) → Nat
  | some fs => sumBy (cnt c) fs
  | none => 0

def tot (w : World) (c : Nat) : Nat := sumBy (rootCnt c) w.roots + sumBy (objCnt c) w.objs

theorem cnt_pos {c : Nat} {s : Slot} : 0 < cnt c s ↔ s.counter = some c := by
  unfold cnt
  split <;> simp_all

theorem cnt_eq {c : Nat} {s : Slot} (h : s.counter = some c) : cnt c s = 1 := by simp [cnt, h]

theorem cnt_ne {c : Nat} {s : Slot} (h : s.counter ≠ some c) : cnt c s = 0 := by simp [cnt, h]

theorem countP_eq_sumBy (c : Nat) (L : List Slot) :
    L.countP (fun s => decide (s.counter = some c)) = sumBy (cnt c) L := by
  induction L with
  | nil => rfl
  | cons a L ih =>
    rw [List.countP_cons, ih, sumBy_cons, cnt]
    by_cases h : a.counter = some c <;> simp [h] <;> omega

theorem pointersTo_eq (w : World) (c : Nat) : pointersTo w c = tot w c := by
  unfold pointersTo slots tot
  rw [countP_eq_sumBy, sumBy_append]
  congr 1
  · induction w.roots with
    | nil => rfl
    | cons a L ih => cases a <;> simp [rootCnt, ih]
  · induction w.objs with
    | nil => rfl
    | cons a L ih => cases a <;> simp [objCnt, ih]

theorem join_eq_some {α : Type} {x : Option (Option α)} {a : α} : x.join = some a ↔ x = some (some a) := by
  cases x with
  | none => simp
  | some x => cases x <;> simp

/-! ## Reading and writing -/

theorem read_root {w : World} {i : Nat} {s : Slot} : w.read (.root i) = some s ↔ w.roots[i]? = some (some s) := by
  rw [World.read, join_eq_some]

theorem read_field {w : World} {o j : Nat} {s : Slot} :
    w.read (.field o j) = some s ↔ ∃ fs, w.objs[o]? = some (some fs) ∧ fs[j]? = some s := by
  rw [World.read, Option.bind_eq_some_iff]
  constructor
  · rintro ⟨fs, h1, h2⟩; exact ⟨fs, join_eq_some.mp h1, h2⟩
  · rintro ⟨fs, h1, h2⟩; exact ⟨fs, join_eq_some.mpr h1, h2⟩

theorem mem_slots {w : World} {s : Slot} : s ∈ slots w ↔ ∃ l, w.read l = some s := by
  simp only [slots, List.mem_append, List.mem_filterMap, id, List.mem_flatten]
  constructor
  · rintro (⟨x, hx, rfl⟩ | ⟨fs, ⟨x, hx, rfl⟩, h⟩)
    · obtain ⟨i, hi⟩ := List.mem_iff_getElem?.mp hx
      exact ⟨.root i, read_root.mpr hi⟩
    · obtain ⟨i, hi⟩ := List.mem_iff_getElem?.mp hx
      obtain ⟨j, hj⟩ := List.mem_iff_getElem?.mp h
      exact ⟨.field i j, read_field.mpr ⟨fs, hi, hj⟩⟩
  · rintro ⟨⟨i⟩ | ⟨o, j⟩, h⟩
    · exact .inl ⟨_, List.mem_of_getElem? (read_root.mp h), rfl⟩
    · obtain ⟨fs, h1, h2⟩ := read_field.mp h
      exact .inr ⟨fs, ⟨_, List.mem_of_getElem? h1, rfl⟩, List.mem_of_getElem? h2⟩

theorem tot_pos {w : World} {c : Nat} : 0 < tot w c ↔ ∃ l s, w.read l = some s ∧ s.counter = some c := by
  unfold tot
  constructor
  · intro h
    by_cases h1 : 0 < sumBy (rootCnt c) w.roots
    · obtain ⟨i, x, hi, hx⟩ := (sumBy_pos _ _).mp h1
      cases x with
      | none => simp [rootCnt] at hx
      | some s => exact ⟨.root i, s, read_root.mpr hi, cnt_pos.mp hx⟩
    · obtain ⟨i, x, hi, hx⟩ := (sumBy_pos (objCnt c) w.objs).mp (by omega)
      cases x with
      | none => simp [objCnt] at hx
      | some fs =>
        obtain ⟨j, s, hj, hs⟩ := (sumBy_pos _ _).mp hx
        exact ⟨.field i j, s, read_field.mpr ⟨fs, hi, hj⟩, cnt_pos.mp hs⟩
  · rintro ⟨⟨i⟩ | ⟨o, j⟩, s, h, hs⟩
    · have := (sumBy_pos (rootCnt c) w.roots).mpr ⟨i, _, read_root.mp h, cnt_pos.mpr hs⟩
      omega
    · obtain ⟨fs, h1, h2⟩ := read_field.mp h
      have := (sumBy_pos (objCnt c) w.objs).mpr ⟨o, _, h1, (sumBy_pos (cnt c) fs).mpr ⟨j, s, h2, cnt_pos.mpr hs⟩⟩
      omega

theorem counters_write (w : World) (l : Loc) (s : Slot) : (w.write l s).counters = w.counters := by
  cases l with
  | root i => rfl
  | field o j => simp only [World.write]; split <;> rfl

theorem objs_length_write (w : World) (l : Loc) (s : Slot) : (w.write l s).objs.length = w.objs.length := by
  cases l with
  | root i => rfl
  | field o j => simp only [World.write]; split <;> simp

theorem read_write_same {w : World} {l : Loc} {s t : Slot} (h : w.read l = some s) : (w.write l t).read l = some t := by
  cases l with
  | root i =>
    have h := read_root.mp h
    refine read_root.mpr ?_
    simp only [World.write]
    rw [List.getElem?_set_self (List.getElem?_eq_some_iff.mp h).1]
  | field o j =>
    obtain ⟨fs, h1, h2⟩ := read_field.mp h
    refine read_field.mpr ⟨fs.set j t, ?_, ?_⟩
    · simp only [World.write, h1, Option.join_some]
      rw [List.getElem?_set_self (List.getElem?_eq_some_iff.mp h1).1]
    · rw [List.getElem?_set_self (List.getElem?_eq_some_iff.mp h2).1]

theorem read_write_ne {w : World} {l m : Loc} {t : Slot} (h : m ≠ l) : (w.write l t).read m = w.read m := by
  cases l with
  | root i =>
    cases m with
    | root k =>
      simp only [World.write, World.read]
      rw [List.getElem?_set_ne (by rintro rfl; exact h rfl)]
    | field o j => rfl
  | field o j =>
    simp only [World.write]
    split
    · rename_i fs hfs
      have hfs' := join_eq_some.mp hfs
      have hlt := (List.getElem?_eq_some_iff.mp hfs').1
      cases m with
      | root k => rfl
      | field o' j' =>
        simp only [World.read]
        by_cases ho : o' = o
        · subst ho
          rw [List.getElem?_set_self hlt, hfs']
          simp only [Option.join_some, Option.bind_some]
          rw [List.getElem?_set_ne (by rintro rfl; exact h rfl)]
        · rw [List.getElem?_set_ne (fun e => ho e.symm)]
    · rfl

theorem alive_write {w : World} {l : Loc} {t : Slot} {o : Nat} : Alive (w.write l t) o ↔ Alive w o := by
  cases l with
  | root i => rfl
  | field o' j =>
    simp only [World.write]
    split
    · rename_i fs hfs
      have hfs' := join_eq_some.mp hfs
      have hlt := (List.getElem?_eq_some_iff.mp hfs').1
      unfold Alive
      by_cases ho : o = o'
      · subst ho
        simp [List.getElem?_set_self hlt, hfs']
      · simp only
        rw [List.getElem?_set_ne (fun e => ho e.symm)]
    · rfl

theorem tot_write {w : World} {l : Loc} {s t : Slot} (h : w.read l = some s) (c : Nat) :
    tot (w.write l t) c + cnt c s = tot w c + cnt c t := by
  cases l with
  | root i =>
    have := sumBy_set (rootCnt c) w.roots i _ (some t) (read_root.mp h)
    simp only [rootCnt] at this
    simp only [World.write, tot]
    omega
  | field o j =>
    obtain ⟨fs, h1, h2⟩ := read_field.mp h
    have e1 := sumBy_set (cnt c) fs j s t h2
    have e2 := sumBy_set (objCnt c) w.objs o _ (some (fs.set j t)) h1
    simp only [objCnt] at e2
    simp only [World.write, h1, Option.join_some, tot]
    omega

theorem write_write (w : World) (l : Loc) (s t : Slot) : (w.write l s).write l t = w.write l t := by
  cases l with
  | root i => simp [World.write]
  | field o j =>
    simp only [World.write]
    cases h : w.objs[o]?.join with
    | none => simp only [h]
    | some fs =>
      have h' := join_eq_some.mp h
      have hlt := (List.getElem?_eq_some_iff.mp h').1
      simp [List.getElem?_set_self hlt]

theorem write_self {w : World} {l : Loc} {s : Slot} (h : w.read l = some s) : w.write l s = w := by
  cases l with
  | root i =>
    obtain ⟨h1, h2⟩ := List.getElem?_eq_some_iff.mp (read_root.mp h)
    simp only [World.write]
    rw [← h2, List.set_getElem_self]
  | field o j =>
    obtain ⟨fs, h1, h2⟩ := read_field.mp h
    obtain ⟨h3, h4⟩ := List.getElem?_eq_some_iff.mp h1
    obtain ⟨h5, h6⟩ := List.getElem?_eq_some_iff.mp h2
    simp only [World.write, h1, Option.join_some]
    rw [← h6, List.set_getElem_self, ← h4, List.set_getElem_self]

theorem alive_of_read {w : World} {o j : Nat} {s : Slot} (h : w.read (.field o j) = some s) : Alive w o := by
  obtain ⟨fs, h1, -⟩ := read_field.mp h
  exact ⟨fs, h1⟩

/-! ## The invariant during a release -/

def SlotOk (s : Slot) : Prop :=
  (∀ c, s.counter = some c → s.orig = some c ∧ ∃ t, s.ref = some (c, t)) ∧ (s.counter = none → s.ref = none)

theorem slotOk_empty : SlotOk {} := ⟨fun c h => by simp at h, fun _ => rfl⟩

structure Inv (w : World) (k : List Slot) : Prop where
  len : w.counters.length = w.objs.length
  alive : ∀ o, Alive w o ↔ ∃ n, w.counters[o]? = some (some n)
  pos : ∀ c n, w.counters[c]? = some (some n) → n = ((tot w c + sumBy (cnt c) k : Nat) : Int) ∧ 0 < n
  none : ∀ c, w.counters[c]?.join = none → tot w c + sumBy (cnt c) k = 0
  slot : ∀ l s, w.read l = some s → SlotOk s
  pend : ∀ s ∈ k, SlotOk s

theorem good_iff (w : World) : Good w ↔ Inv w [] := by
  constructor
  · intro h
    have ha : ∀ o, Alive w o ↔ ∃ n, w.counters[o]? = some (some n) := by
      intro o
      constructor
      · intro a; exact ⟨_, h.counter o a⟩
      · rintro ⟨n, hn⟩
        refine Classical.byContradiction fun hc => ?_
        have := h.dead o hc
        simp [hn] at this
    refine ⟨h.counters, ha, ?_, ?_, ?_, by simp⟩
    · intro c n hn
      have a := (ha c).mpr ⟨n, hn⟩
      have e := h.counter c a
      rw [hn] at e
      have p := (h.alive c).mp a
      rw [pointersTo_eq] at e p
      simp only [Option.some.injEq] at e
      subst e
      simp
      omega
    · intro c hc
      have a : ¬ Alive w c := by
        intro a
        simp [h.counter c a] at hc
      have := mt (h.alive c).mpr a
      rw [pointersTo_eq] at this
      simp
      omega
    · intro l s hl
      exact h.slot s (mem_slots.mpr ⟨l, hl⟩)
  · intro h
    refine ⟨h.len, ?_, ?_, ?_, ?_⟩
    · intro o
      rw [pointersTo_eq, h.alive]
      constructor
      · rintro ⟨n, hn⟩
        have := h.pos o n hn
        simp at this
        omega
      · intro hp
        cases hj : w.counters[o]?.join with
        | none => have := h.none o hj; omega
        | some n => exact ⟨n, join_eq_some.mp hj⟩
    · intro o a
      obtain ⟨n, hn⟩ := (h.alive o).mp a
      rw [hn, (h.pos o n hn).1, pointersTo_eq]
      simp
    · intro o a
      cases hj : w.counters[o]?.join with
      | none => rfl
      | some n => exact absurd ((h.alive o).mpr ⟨n, join_eq_some.mp hj⟩) a
    · intro s hs
      obtain ⟨l, hl⟩ := mem_slots.mp hs
      exact h.slot l s hl

/-- every object of `S` has an owner that is a variable or in an object of `S` -/
def Closed (w : World) (S : Nat → Prop) : Prop :=
  ∀ y, S y → ∃ l s, w.read l = some s ∧ s.counter = some y ∧ HomeIn S l

/-- `w'` is `w` without some of its objects -/
structure Shrunk (w w' : World) : Prop where
  roots : w'.roots = w.roots
  len : w'.objs.length = w.objs.length
  objs : ∀ (o : Nat) (fs : List Slot), w'.objs[o]? = some (some fs) → w.objs[o]? = some (some fs)

theorem Shrunk.refl (w : World) : Shrunk w w := ⟨rfl, rfl, fun _ _ h => h⟩

theorem Shrunk.trans {a b c : World} (h : Shrunk a b) (g : Shrunk b c) : Shrunk a c :=
  ⟨g.roots.trans h.roots, g.len.trans h.len, fun o fs e => h.objs o fs (g.objs o fs e)⟩

theorem Shrunk.read {w w' : World} (h : Shrunk w w') {l : Loc} {s : Slot} (e : w'.read l = some s) : w.read l = some s := by
  cases l with
  | root i => rw [read_root] at e ⊢; rw [← h.roots]; exact e
  | field o j =>
    obtain ⟨fs, h1, h2⟩ := read_field.mp e
    exact read_field.mpr ⟨fs, h.objs o fs h1, h2⟩

theorem Shrunk.alive {w w' : World} (h : Shrunk w w') {o : Nat} (a : Alive w' o) : Alive w o := by
  obtain ⟨fs, hf⟩ := a
  exact ⟨fs, h.objs o fs hf⟩

/-- what stays has the same contents -/
theorem Shrunk.read_of_alive {w w' : World} (h : Shrunk w w') {l : Loc} (a : HomeIn (Alive w') l) : w'.read l = w.read l := by
  cases l with
  | root i => simp [World.read, h.roots]
  | field o j =>
    obtain ⟨fs, hf⟩ := a
    simp [World.read, hf, h.objs o fs hf]

theorem release_nil (w : World) : release w [] = some w := by simp [release]

theorem release_empty (w : World) (s : Slot) (k : List Slot) (h : s.counter = none) :
    release w (s :: k) = release w k := by
  rw [release]
  split
  · rfl
  · rename_i c hc; simp [h] at hc

theorem release_dead (w : World) (s : Slot) (k : List Slot) (c : Nat) (h : s.counter = some c)
    (hc : w.counters[c]?.join = none) : release w (s :: k) = none := by
  rw [release]
  split
  · rename_i h'; simp [h] at h'
  · rename_i c' h'
    rw [h] at h'
    cases h'
    split
    · rfl
    · rename_i n hn
      rw [hc] at hn
      cases hn

theorem release_more (w : World) (s : Slot) (k : List Slot) (c : Nat) (n : Int) (h : s.counter = some c)
    (hc : w.counters[c]?.join = some n) (hn : n - 1 ≠ 0) :
    release w (s :: k) = release { w with counters := w.counters.set c (some (n - 1)) } k := by
  rw [release]
  split
  · rename_i h'; simp [h] at h'
  · rename_i c' h'
    rw [h] at h'
    cases h'
    split
    · rename_i hn; rw [hc] at hn; cases hn
    · rename_i n' hn'
      rw [hc] at hn'
      cases hn'
      rw [if_neg hn]

theorem release_last (w : World) (s : Slot) (k : List Slot) (c o : Nat) (fs : List Slot) (h : s.counter = some c)
    (hc : w.counters[c]?.join = some 1) (ho : s.orig = some o) (hf : w.objs[o]?.join = some fs) :
    release w (s :: k) =
      release { w with counters := w.counters.set c none, objs := w.objs.set o none } (fs.reverse ++ k) := by
  rw [release]
  split
  · rename_i h'; simp [h] at h'
  · rename_i c' h'
    rw [h] at h'
    cases h'
    split
    · rename_i hn; rw [hc] at hn; cases hn
    · rename_i n' hn'
      rw [hc] at hn'
      cases hn'
      rw [if_pos (by omega)]
      simp only [ho, hf]

theorem getElem?_join_set_self {α : Type} {L : List (Option α)} {i : Nat} {a : α} {x : Option α} (h : L[i]?.join = some a) :
    (L.set i x)[i]? = some x := by
  rw [List.getElem?_set_self (List.getElem?_eq_some_iff.mp (join_eq_some.mp h)).1]

/-- Releasing pointers never goes wrong, deletes only objects without owner, and re-establishes the invariant. -/
theorem release_spec (w : World) (k : List Slot) (h : Inv w k) :
    ∃ w', release w k = some w' ∧ Inv w' [] ∧ Shrunk w w' ∧
      ∀ S, Closed w S → (∀ y, S y → Alive w y) → ∀ y, S y → Alive w' y := by
  induction w, k using release.induct with
  | case1 w => exact ⟨w, release_nil w, h, Shrunk.refl w, fun S _ h y hy => h y hy⟩
  | case2 w s k hs ih =>
    have h' : Inv w k := by
      refine ⟨h.len, h.alive, ?_, ?_, h.slot, fun s hs => h.pend s (by simp [hs])⟩
      · intro c n hn
        have := h.pos c n hn
        rw [sumBy_cons, cnt_ne (by simp [hs])] at this
        simpa using this
      · intro c hn
        have := h.none c hn
        rw [sumBy_cons, cnt_ne (by simp [hs])] at this
        simpa using this
    rw [release_empty w s k hs]
    exact ih h'
  | case3 w s k c hc hn =>
    exfalso
    have := h.none c hn
    rw [sumBy_cons, cnt_eq hc] at this
    omega
  | case4 w s k c hc n hn h1 ho =>
    exfalso
    have := ((h.pend s (by simp)).1 c hc).1
    rw [ho] at this
    cases this
  | case5 w s k c hc n hn h1 o ho hf =>
    exfalso
    have := ((h.pend s (by simp)).1 c hc).1
    rw [ho] at this
    cases this
    obtain ⟨fs, hfs⟩ := (h.alive c).mpr ⟨n, join_eq_some.mp hn⟩
    simp [hfs] at hf
  | case6 w s k c hc n hn h1 o ho fs hf ih =>
    have e := ((h.pend s (by simp)).1 c hc).1
    rw [ho] at e
    cases e
    have hn1 : n = 1 := by omega
    subst hn1
    have hf' := join_eq_some.mp hf
    have hlt := (List.getElem?_eq_some_iff.mp hf').1
    have hlt' := (List.getElem?_eq_some_iff.mp (join_eq_some.mp hn)).1
    have h0 := (h.pos c 1 (join_eq_some.mp hn)).1
    rw [sumBy_cons, cnt_eq hc] at h0
    have ht : ∀ d, tot { w with counters := w.counters.set c none, objs := w.objs.set c none } d + sumBy (cnt d) fs = tot w d := by
      intro d
      have := sumBy_set (objCnt d) w.objs c _ none hf'
      simp only [objCnt] at this
      simp only [tot]
      omega
    have hshr : Shrunk w { w with counters := w.counters.set c none, objs := w.objs.set c none } := by
      refine ⟨rfl, by simp, ?_⟩
      intro o gs hg
      simp only at hg
      by_cases ho : o = c
      · subst ho; rw [List.getElem?_set_self hlt] at hg; cases hg
      · rwa [List.getElem?_set_ne (fun e => ho e.symm)] at hg
    have h' : Inv { w with counters := w.counters.set c none, objs := w.objs.set c none } (fs.reverse ++ k) := by
      refine ⟨by simp [h.len], ?_, ?_, ?_, fun l s hl => h.slot l s (hshr.read hl), ?_⟩
      · intro o
        by_cases ho : o = c
        · subst ho
          simp [Alive, List.getElem?_set_self hlt, List.getElem?_set_self hlt']
        · simp only [Alive]
          rw [List.getElem?_set_ne (fun e => ho e.symm), List.getElem?_set_ne (fun e => ho e.symm)]
          exact h.alive o
      · intro d m hm
        simp only at hm
        have hd : d ≠ c := by
          rintro rfl
          rw [List.getElem?_set_self hlt'] at hm
          cases hm
        rw [List.getElem?_set_ne (fun e => hd e.symm)] at hm
        have := h.pos d m hm
        rw [sumBy_cons, cnt_ne (by rw [hc]; simpa using fun e => hd e.symm)] at this
        have ht := ht d
        rw [sumBy_append, sumBy_reverse]
        constructor
        · rw [this.1]; omega
        · exact this.2
      · intro d hm
        simp only at hm
        have ht := ht d
        rw [sumBy_append, sumBy_reverse]
        by_cases hd : d = c
        · subst hd; omega
        · rw [List.getElem?_set_ne (fun e => hd e.symm)] at hm
          have := h.none d hm
          rw [sumBy_cons] at this
          omega
      · intro t ht
        rcases List.mem_append.mp ht with ht | ht
        · rw [List.mem_reverse] at ht
          obtain ⟨j, hj⟩ := List.mem_iff_getElem?.mp ht
          exact h.slot (.field c j) t (read_field.mpr ⟨fs, hf', hj⟩)
        · exact h.pend t (by simp [ht])
    obtain ⟨w', e1, e2, e3, e4⟩ := ih h'
    refine ⟨w', (release_last w s k c c fs hc hn ho hf).trans e1, e2, hshr.trans e3, ?_⟩
    intro S hS hal y hy
    have hcS : ¬ S c := by
      intro hs
      obtain ⟨l, s', h1, h2, -⟩ := hS c hs
      have := tot_pos.mpr ⟨l, s', h1, h2⟩
      omega
    have halive : ∀ y, S y → Alive { w with counters := w.counters.set c none, objs := w.objs.set c none } y := by
      intro y hy
      obtain ⟨gs, hg⟩ := hal y hy
      refine ⟨gs, ?_⟩
      simp only
      rw [List.getElem?_set_ne (by rintro rfl; exact hcS hy)]
      exact hg
    refine e4 S ?_ halive y hy
    intro y hy
    obtain ⟨l, s', h1, h2, h3⟩ := hS y hy
    refine ⟨l, s', ?_, h2, h3⟩
    rw [hshr.read_of_alive]
    · exact h1
    · cases l with
      | root i => trivial
      | field o j => exact halive o h3
  | case7 w s k c hc n hn h1 ih =>
    have hlt' := (List.getElem?_eq_some_iff.mp (join_eq_some.mp hn)).1
    have h0 := h.pos c n (join_eq_some.mp hn)
    rw [sumBy_cons, cnt_eq hc] at h0
    have h' : Inv { w with counters := w.counters.set c (some (n - 1)) } k := by
      refine ⟨by simp [h.len], ?_, ?_, ?_, h.slot, fun s hs => h.pend s (by simp [hs])⟩
      · intro o
        by_cases ho : o = c
        · subst ho
          simp only [List.getElem?_set_self hlt', Option.some.injEq, exists_eq', iff_true]
          exact (h.alive o).mpr ⟨n, join_eq_some.mp hn⟩
        · simp only
          rw [List.getElem?_set_ne (fun e => ho e.symm)]
          exact h.alive o
      · intro d m hm
        simp only at hm
        by_cases hd : d = c
        · subst hd
          rw [List.getElem?_set_self hlt'] at hm
          simp only [Option.some.injEq] at hm
          subst hm
          have : tot { w with counters := w.counters.set d (some (n - 1)) } d = tot w d := rfl
          omega
        · rw [List.getElem?_set_ne (fun e => hd e.symm)] at hm
          have := h.pos d m hm
          rw [sumBy_cons, cnt_ne (by rw [hc]; simpa using fun e => hd e.symm), Nat.zero_add] at this
          exact this
      · intro d hm
        simp only at hm
        by_cases hd : d = c
        · subst hd; rw [List.getElem?_set_self hlt'] at hm; simp at hm
        · rw [List.getElem?_set_ne (fun e => hd e.symm)] at hm
          have := h.none d hm
          rw [sumBy_cons] at this
          have e : tot { w with counters := w.counters.set c (some (n - 1)) } d = tot w d := rfl
          omega
    obtain ⟨w', e1, e2, e3, e4⟩ := ih h'
    exact ⟨w', (release_more w s k c n hc hn h1).trans e1, e2, ⟨e3.roots, e3.len, e3.objs⟩, e4⟩

/-! ## Dangling pointers -/

theorem release_null (w : World) (s : Slot) (k : List Slot) (c : Nat) (h : s.counter = some c)
    (hc : w.counters[c]?.join = some 1) (ho : s.orig = none) :
    release w (s :: k) = release { w with counters := w.counters.set c none } k := by
  rw [release]
  split
  · rename_i h'; simp [h] at h'
  · rename_i c' h'
    rw [h] at h'
    cases h'
    split
    · rename_i hn; rw [hc] at hn; cases hn
    · rename_i n' hn'
      rw [hc] at hn'
      cases hn'
      rw [if_pos (by omega)]
      simp only [ho]

theorem release_deleted (w : World) (s : Slot) (k : List Slot) (c o : Nat) (h : s.counter = some c)
    (hc : w.counters[c]?.join = some 1) (ho : s.orig = some o) (hf : w.objs[o]?.join = none) :
    release w (s :: k) = none := by
  rw [release]
  split
  · rename_i h'; simp [h] at h'
  · rename_i c' h'
    rw [h] at h'
    cases h'
    split
    · rfl
    · rename_i n' hn'
      rw [hc] at hn'
      cases hn'
      rw [if_pos (by omega)]
      simp only [ho, hf]

/-- Destroying a dangling pointer is undefined behaviour. -/
theorem release_dangling (w : World) (k : List Slot) (s : Slot) (c : Nat) (hs : s ∈ k) (hc : s.counter = some c)
    (hd : w.counters[c]?.join = none) : release w k = none := by
  have hset : ∀ (w : World) (c' : Nat) (x : Option Int), w.counters[c]?.join = none → (c' = c → x = none) →
      (w.counters.set c' x)[c]?.join = none := by
    intro w c' x h1 h2
    by_cases e : c' = c
    · subst e
      rw [h2 rfl]
      by_cases hl : c' < w.counters.length
      · rw [List.getElem?_set_self hl]; rfl
      · rw [List.getElem?_eq_none (by simp; omega)]; rfl
    · rw [List.getElem?_set_ne e]; exact h1
  induction w, k using release.induct with
  | case1 w => simp at hs
  | case2 w t k ht ih =>
    rw [release_empty w t k ht]
    rcases List.mem_cons.mp hs with rfl | hs
    · rw [hc] at ht; cases ht
    · exact ih hs hd
  | case3 w t k c' ht hn => exact release_dead w t k c' ht hn
  | case4 w t k c' ht n hn h1 ho ih =>
    have : n = 1 := by omega
    subst this
    rw [release_null w t k c' ht hn ho]
    rcases List.mem_cons.mp hs with rfl | hs
    · rw [hc] at ht; cases ht; rw [hd] at hn; cases hn
    · exact ih hs (hset w c' none hd (fun _ => rfl))
  | case5 w t k c' ht n hn h1 o ho hf =>
    have : n = 1 := by omega
    subst this
    exact release_deleted w t k c' o ht hn ho hf
  | case6 w t k c' ht n hn h1 o ho fs hf ih =>
    have : n = 1 := by omega
    subst this
    rw [release_last w t k c' o fs ht hn ho hf]
    rcases List.mem_cons.mp hs with rfl | hs
    · rw [hc] at ht; cases ht; rw [hd] at hn; cases hn
    · exact ih (by simp [hs]) (hset w c' none hd (fun _ => rfl))
  | case7 w t k c' ht n hn h1 ih =>
    rw [release_more w t k c' n ht hn h1]
    rcases List.mem_cons.mp hs with rfl | hs
    · rw [hc] at ht; cases ht; rw [hd] at hn; cases hn
    · exact ih hs (hset w c' _ hd (fun e => by subst e; rw [hd] at hn; cases hn))

/-- Nothing comes back. -/
theorem release_shrunk (w : World) (k : List Slot) (w' : World) (h : release w k = some w') : Shrunk w w' := by
  induction w, k using release.induct with
  | case1 w => rw [release_nil] at h; cases h; exact Shrunk.refl _
  | case2 w t k ht ih => rw [release_empty w t k ht] at h; exact ih h
  | case3 w t k c' ht hn => rw [release_dead w t k c' ht hn] at h; cases h
  | case4 w t k c' ht n hn h1 ho ih =>
    have : n = 1 := by omega
    subst this
    rw [release_null w t k c' ht hn ho] at h
    have := ih h
    exact ⟨this.roots, this.len, this.objs⟩
  | case5 w t k c' ht n hn h1 o ho hf =>
    have : n = 1 := by omega
    subst this
    rw [release_deleted w t k c' o ht hn ho hf] at h; cases h
  | case6 w t k c' ht n hn h1 o ho fs hf ih =>
    have : n = 1 := by omega
    subst this
    rw [release_last w t k c' o fs ht hn ho hf] at h
    have := ih h
    refine Shrunk.trans (b := { w with counters := w.counters.set c' none, objs := w.objs.set o none }) ⟨rfl, by simp, ?_⟩ this
    intro o' gs hg
    simp only at hg
    by_cases ho : o' = o
    · subst ho; rw [getElem?_join_set_self hf] at hg; cases hg
    · rwa [List.getElem?_set_ne (fun e => ho e.symm)] at hg
  | case7 w t k c' ht n hn h1 ih =>
    rw [release_more w t k c' n ht hn h1] at h
    have := ih h
    exact ⟨this.roots, this.len, this.objs⟩

theorem write_with_counters (w : World) (cs : List (Option Int)) (l : Loc) (s : Slot) :
    ({ w with counters := cs } : World).write l s = { w.write l s with counters := cs } := by
  cases l with
  | root i => rfl
  | field o j => simp only [World.write]; split <;> rfl

/-- location inside object `o` -/
def InObj (o : Nat) : Loc → Prop
  | .root _ => False
  | .field o' _ => o' = o

theorem objs_write_ne {w : World} {l : Loc} {s : Slot} {o : Nat} (h : ¬ InObj o l) :
    (w.write l s).objs[o]? = w.objs[o]? := by
  cases l with
  | root i => rfl
  | field o' j =>
    simp only [World.write]
    split
    · exact List.getElem?_set_ne h
    · rfl

theorem write_delete (w : World) (cs : List (Option Int)) (l : Loc) (s : Slot) (o : Nat) (h : ¬ InObj o l) :
    ({ w with counters := cs, objs := w.objs.set o none } : World).write l s =
      { w.write l s with counters := cs, objs := (w.write l s).objs.set o none } := by
  cases l with
  | root i => rfl
  | field o' j =>
    have ho : o' ≠ o := h
    simp only [World.write]
    rw [List.getElem?_set_ne (fun e => ho e.symm)]
    split
    · simp only
      rw [List.set_comm _ _ (fun e => ho e.symm)]
    · rfl

theorem read_delete_ne (w : World) (cs : List (Option Int)) (l : Loc) (o : Nat) (h : ¬ InObj o l) :
    ({ w with counters := cs, objs := w.objs.set o none } : World).read l = w.read l := by
  cases l with
  | root i => rfl
  | field o' j =>
    have ho : o' ≠ o := h
    simp only [World.read]
    rw [List.getElem?_set_ne (fun e => ho e.symm)]

/-- A release in the presence of a pointer at `p` that is dangling: as if it were empty, but undefined behaviour if its
object is deleted. -/
theorem release_stale (p : Loc) (s : Slot) (c : Nat) (hsc : s.counter = some c) (w : World) (k : List Slot)
    (hr : w.read p = some s) (hd : w.counters[c]?.join = none) (g' : World) (h : release (w.write p {}) k = some g') :
    ((g'.read p).isSome = true → ∃ w', release w k = some w' ∧ w'.write p {} = g' ∧ w'.read p = some s) ∧
    (g'.read p = none → release w k = none) := by
  have hset : ∀ (w : World) (c' : Nat) (x : Option Int), w.counters[c]?.join = none → (c' = c → x = none) →
      (w.counters.set c' x)[c]?.join = none := by
    intro w c' x h1 h2
    by_cases e : c' = c
    · subst e
      rw [h2 rfl]
      by_cases hl : c' < w.counters.length
      · rw [List.getElem?_set_self hl]; rfl
      · rw [List.getElem?_eq_none (by simp; omega)]; rfl
    · rw [List.getElem?_set_ne e]; exact h1
  induction w, k using release.induct with
  | case1 w =>
    rw [release_nil] at h
    cases h
    rw [release_nil]
    refine ⟨fun _ => ⟨w, rfl, rfl, hr⟩, fun e => ?_⟩
    rw [read_write_same hr] at e
    cases e
  | case2 w t k ht ih =>
    rw [release_empty _ t k ht] at h ⊢
    exact ih hr hd h
  | case3 w t k c' ht hn =>
    rw [release_dead _ t k c' ht (by rw [counters_write]; exact hn)] at h
    cases h
  | case4 w t k c' ht n hn h1 ho ih =>
    have : n = 1 := by omega
    subst this
    rw [release_null _ t k c' ht (by rw [counters_write]; exact hn) ho, counters_write, ← write_with_counters] at h
    rw [release_null _ t k c' ht hn ho]
    exact ih (by cases p <;> exact hr) (hset w c' none hd (fun _ => rfl)) h
  | case5 w t k c' ht n hn h1 o ho hf =>
    have : n = 1 := by omega
    subst this
    have hf' : ¬ Alive w o := by rintro ⟨fs, e⟩; simp [e] at hf
    rw [release_deleted _ t k c' o ht (by rw [counters_write]; exact hn) ho ?_] at h
    · cases h
    · cases e : (w.write p {}).objs[o]?.join with
      | none => rfl
      | some fs => exact absurd (alive_write.mp ⟨fs, join_eq_some.mp e⟩) hf'
  | case6 w t k c' ht n hn h1 o ho fs hf ih =>
    have : n = 1 := by omega
    subst this
    rw [release_last _ t k c' o fs ht hn ho hf]
    by_cases hp : InObj o p
    · -- the object of `p` is deleted
      cases p with
      | root i => exact absurd hp id
      | field o' j =>
        have : o' = o := hp
        subst this
        obtain ⟨fs', h2, h3⟩ := read_field.mp hr
        have efs : fs' = fs := by rw [h2] at hf; simpa using hf
        subst efs
        have hsf : s ∈ fs' := List.mem_of_getElem? h3
        have hnone : release { w with counters := w.counters.set c' none, objs := w.objs.set o' none } (fs'.reverse ++ k) = none :=
          release_dangling _ _ s c (by simp [hsf]) hsc (hset w c' none hd (fun _ => rfl))
        have halive : Alive (w.write (.field o' j) {}) o' := alive_write.mpr ⟨_, h2⟩
        obtain ⟨gs, hg⟩ := halive
        rw [release_last _ t k c' o' gs ht (by rw [counters_write]; exact hn) ho (by rw [hg]; rfl)] at h
        have hsh := release_shrunk _ _ _ h
        have hno : g'.read (.field o' j) = none := by
          cases e : g'.read (.field o' j) with
          | none => rfl
          | some x =>
            obtain ⟨gs', hg', -⟩ := read_field.mp (hsh.read e)
            simp only at hg'
            rw [getElem?_join_set_self (join_eq_some.mpr hg)] at hg'
            cases hg'
        exact ⟨fun e => (by rw [hno] at e; cases e), fun _ => hnone⟩
    · rw [release_last _ t k c' o fs ht (by rw [counters_write]; exact hn) ho (by rw [objs_write_ne hp]; exact hf),
        counters_write, ← write_delete _ _ _ _ _ hp] at h
      refine ih ?_ (hset w c' none hd (fun _ => rfl)) h
      rw [read_delete_ne _ _ _ _ hp]
      exact hr
  | case7 w t k c' ht n hn h1 ih =>
    rw [release_more _ t k c' n ht (by rw [counters_write]; exact hn) h1, counters_write, ← write_with_counters] at h
    rw [release_more _ t k c' n ht hn h1]
    exact ih (by cases p <;> exact hr) (hset w c' _ hd (fun e => by subst e; rw [hd] at hn; cases hn)) h

/-! ## One pointer lets go -/

theorem inv_write_empty {w : World} {p : Loc} {s : Slot} (h : Inv w []) (hr : w.read p = some s) :
    Inv (w.write p {}) [s] := by
  have ht : ∀ c, tot (w.write p {}) c + sumBy (cnt c) [s] = tot w c + sumBy (cnt c) [] := by
    intro c
    have := tot_write (t := {}) hr c
    rw [cnt_ne (s := {}) (by simp)] at this
    simpa using this
  refine ⟨?_, ?_, ?_, ?_, ?_, ?_⟩
  · rw [counters_write, objs_length_write]; exact h.len
  · intro o; rw [alive_write, counters_write]; exact h.alive o
  · intro c n hn
    rw [counters_write] at hn
    rw [ht]
    exact h.pos c n hn
  · intro c hn
    rw [counters_write] at hn
    rw [ht]
    exact h.none c hn
  · intro l t hl
    by_cases e : l = p
    · subst e; rw [read_write_same hr] at hl; cases hl; exact slotOk_empty
    · rw [read_write_ne e] at hl; exact h.slot l t hl
  · intro t ht
    simp at ht
    subst ht
    exact h.slot p t hr

theorem alive_of_counter {w : World} (h : Inv w []) {l : Loc} {s : Slot} {c : Nat} (hl : w.read l = some s)
    (hc : s.counter = some c) : Alive w c := by
  rw [h.alive]
  cases hj : w.counters[c]?.join with
  | some n => exact ⟨n, join_eq_some.mp hj⟩
  | none =>
    have := h.none c hj
    have := tot_pos.mpr ⟨l, s, hl, hc⟩
    omega

theorem owner_of_alive {w : World} (h : Inv w []) {c : Nat} (ha : Alive w c) :
    ∃ l s, w.read l = some s ∧ s.counter = some c := by
  obtain ⟨n, hn⟩ := (h.alive c).mp ha
  have := h.pos c n hn
  exact tot_pos.mp (by simp at this; omega)

theorem homeIn_alive {w : World} {l : Loc} {s : Slot} (h : w.read l = some s) : HomeIn (Alive w) l := by
  cases l with
  | root i => trivial
  | field o j => exact alive_of_read h

/-- `Dec` on the pointer at `p`, and then emptying it: the objects that survive stay as they are, the others are gone. -/
theorem dec_spec {w : World} (h : Inv w []) {p : Loc} {s : Slot} (hr : w.read p = some s) :
    ∃ g', Inv g' [] ∧ Shrunk (w.write p {}) g' ∧ (∀ x, Alive g' x ↔ Survives w p x) ∧
      (Keeps w p p → ∃ w', dec w p = some w' ∧ w'.write p {} = g' ∧ (w'.read p).isSome = true) ∧
      (¬ Keeps w p p → dec w p = none) := by
  have hi := inv_write_empty h hr
  obtain ⟨g', e1, e2, e3, e4⟩ := release_spec _ _ hi
  have hsurv : ∀ x, Alive g' x ↔ Survives w p x := by
    intro x
    constructor
    · intro hx
      refine ⟨Alive g', hx, fun y hy => ?_⟩
      obtain ⟨l, t, h1, h2⟩ := owner_of_alive e2 hy
      have h3 := e3.read h1
      have hne : l ≠ p := by
        rintro rfl
        rw [read_write_same hr] at h3
        cases h3
        cases h2
      exact ⟨l, t, hne, by rwa [read_write_ne hne] at h3, h2, homeIn_alive h1⟩
    · rintro ⟨S, hx, hS⟩
      refine e4 S ?_ ?_ x hx
      · intro y hy
        obtain ⟨l, t, h1, h2, h3, h4⟩ := hS y hy
        exact ⟨l, t, by rwa [read_write_ne h1], h3, h4⟩
      · intro y hy
        obtain ⟨l, t, h1, h2, h3, h4⟩ := hS y hy
        exact alive_write.mpr (alive_of_counter h h2 h3)
  have hkeeps : Keeps w p p ↔ (g'.read p).isSome = true := by
    constructor
    · intro hk
      have : HomeIn (Alive g') p := by
        cases p with
        | root i => trivial
        | field o j => exact (hsurv o).mpr hk
      rw [e3.read_of_alive this, read_write_same hr]
      rfl
    · intro hk
      obtain ⟨t, ht⟩ := Option.isSome_iff_exists.mp hk
      have := homeIn_alive ht
      cases p with
      | root i => trivial
      | field o j => exact (hsurv o).mp this
  refine ⟨g', e2, e3, hsurv, ?_, ?_⟩ <;> rw [hkeeps]
  all_goals
    intro hk
    cases hc : s.counter with
    | none =>
      rw [release_empty _ s [] hc, release_nil] at e1
      cases e1
      have hd : dec w p = some w := by simp [dec, hr, hc]
      first
        | exact ⟨w, hd, rfl, by rw [hr]; rfl⟩
        | (exfalso; apply hk; rw [read_write_same hr]; rfl)
    | some c =>
      have ha := alive_of_counter h hr hc
      obtain ⟨n, hn⟩ := (h.alive c).mp ha
      have hn' : w.counters[c]?.join = some n := join_eq_some.mpr hn
      by_cases hn1 : n - 1 = 0
      · have : n = 1 := by omega
        subst this
        obtain ⟨fs, hf⟩ := ha
        have hf' : w.objs[c]?.join = some fs := join_eq_some.mpr hf
        have ho := ((h.slot p s hr).1 c hc).1
        have hlt := (List.getElem?_eq_some_iff.mp hn).1
        have hd : dec w p = match release w [s] with
            | none => none
            | some w' => w'.store p {} := by
          simp only [dec, hr, hc, hn']
          rfl
        rw [release_last w s [] c c fs hc hn' ho hf', List.append_nil] at hd
        have hdead : (w.counters.set c none)[c]?.join = none := by rw [List.getElem?_set_self hlt]; rfl
        by_cases hp : InObj c p
        · -- the pointer is in the object it owns
          cases p with
          | root i => exact absurd hp id
          | field o' j =>
            have : o' = c := hp
            subst this
            obtain ⟨fs', h2, h3⟩ := read_field.mp hr
            have efs : fs' = fs := by rw [h2] at hf; simpa using hf
            subst efs
            have hnone := release_dangling { w with counters := w.counters.set o' none, objs := w.objs.set o' none } fs'.reverse s o'
              (by simpa using List.mem_of_getElem? h3) hc hdead
            rw [hnone] at hd
            obtain ⟨gs, hg⟩ := alive_write.mpr (show Alive w o' from ⟨_, h2⟩)
            rw [release_last _ s [] o' o' gs hc (by rw [counters_write]; exact hn') ho (by rw [hg]; rfl)] at e1
            have hsh := release_shrunk _ _ _ e1
            have hno : g'.read (.field o' j) = none := by
              cases e : g'.read (.field o' j) with
              | none => rfl
              | some x =>
                obtain ⟨gs', hg', -⟩ := read_field.mp (hsh.read e)
                simp only at hg'
                rw [getElem?_join_set_self (join_eq_some.mpr hg)] at hg'
                cases hg'
            first
              | (exfalso; rw [hno] at hk; cases hk; done)
              | exact hd
        · rw [release_last _ s [] c c fs hc (by rw [counters_write]; exact hn') ho (by rw [objs_write_ne hp]; exact hf'),
            List.append_nil, counters_write, ← write_delete _ _ _ _ _ hp] at e1
          obtain ⟨hs1, hs2⟩ := release_stale p s c hc _ fs.reverse (by rw [read_delete_ne _ _ _ _ hp]; exact hr) hdead g' e1
          first
            | (obtain ⟨w', r1, r2, r3⟩ := hs1 hk
               rw [r1] at hd
               refine ⟨w'.write p {}, ?_, ?_, ?_⟩
               · rw [hd]; simp [World.store, r3]
               · rw [write_write, r2]
               · rw [read_write_same r3]; rfl)
            | (rw [hs2 (by simpa using hk)] at hd
               exact hd)
      · rw [release_more _ s [] c n hc (by rw [counters_write]; exact hn') hn1, release_nil, counters_write,
          ← write_with_counters] at e1
        cases e1
        have hd : dec w p = some { w with counters := w.counters.set c (some (n - 1)) } := by
          simp only [dec, hr, hc, hn']
          rw [if_neg hn1]
        have hr' : ({ w with counters := w.counters.set c (some (n - 1)) } : World).read p = some s := by
          cases p <;> exact hr
        first
          | exact ⟨_, hd, rfl, by rw [hr']; rfl⟩
          | (exfalso; apply hk; rw [read_write_same hr']; rfl)

end Pointer
end Vlpp
