import Verif.Spec.Func
import Verif.Props.PointerProps

/-! # Lemmas about functors -/
set_option autoImplicit false
namespace Vlpp
namespace Functors
open Pointer Spec

/-! ## Numbers of variables and objects after the operations of pointers -/

theorem write_len (w : Pointer.World) (l : Loc) (s : Slot) : (w.write l s).roots.length = w.roots.length := by
  cases l with
  | root i => simp [World.write]
  | field o j => simp only [World.write]; split <;> rfl

theorem store_len {w w' : Pointer.World} {l : Loc} {s : Slot} (h : w.store l s = some w') :
    w'.roots.length = w.roots.length ∧ w'.objs.length = w.objs.length := by
  simp only [World.store] at h
  split at h
  · cases h; exact ⟨write_len w l s, objs_length_write w l s⟩
  · cases h

theorem dec_len {w w' : Pointer.World} {l : Loc} (h : dec w l = some w') :
    w'.roots.length = w.roots.length ∧ w'.objs.length = w.objs.length := by
  simp only [dec] at h
  split at h
  · cases h
  · rename_i s _
    split at h
    · cases h; exact ⟨rfl, rfl⟩
    · split at h
      · cases h
      · split at h
        · simp only [if_true] at h
          split at h
          · cases h
          · rename_i w1 e
            have h1 := release_shrunk _ _ _ e
            obtain ⟨a, b⟩ := store_len h
            exact ⟨by rw [a, h1.roots], by rw [b, h1.len]⟩
        · cases h; exact ⟨rfl, rfl⟩

theorem inc_len {w w' : Pointer.World} {s : Slot} (h : inc w s = some w') : w'.roots = w.roots ∧ w'.objs = w.objs := by
  simp only [inc] at h
  split at h
  · cases h; exact ⟨rfl, rfl⟩
  · split at h
    · cases h
    · cases h; exact ⟨rfl, rfl⟩

theorem assignCopy_len {w w' : Pointer.World} {l m : Loc} (h : Pointer.step w (.assignCopy l m) = some w') :
    w'.roots.length = w.roots.length ∧ w'.objs.length = w.objs.length := by
  simp only [Pointer.step] at h
  split at h
  · split at h
    · cases h; exact ⟨rfl, rfl⟩
    · cases h
  · split at h
    · cases h
    · rename_i w1 e1
      split at h
      · cases h
      · split at h
        · cases h
        · rename_i w2 e2
          have a := dec_len e1
          have b := store_len e2
          have c := inc_len h
          exact ⟨by rw [c.1, b.1, a.1], by rw [c.2, b.2, a.2]⟩

theorem assignMove_len {w w' : Pointer.World} {l m : Loc} (h : Pointer.step w (.assignMove l m) = some w') :
    w'.roots.length = w.roots.length ∧ w'.objs.length = w.objs.length := by
  simp only [Pointer.step] at h
  split at h
  · split at h
    · cases h; exact ⟨rfl, rfl⟩
    · cases h
  · split at h
    · cases h
    · rename_i w1 e1
      split at h
      · cases h
      · split at h
        · cases h
        · rename_i w2 e2
          have a := dec_len e1
          have b := store_len e2
          have c := store_len h
          exact ⟨by rw [c.1, b.1, a.1], by rw [c.2, b.2, a.2]⟩

theorem destroy_len {w w' : Pointer.World} {i : Nat} (h : Pointer.step w (.destroy i) = some w') :
    w'.roots.length = w.roots.length ∧ w'.objs.length = w.objs.length := by
  simp only [Pointer.step] at h
  split at h
  · cases h
  · rename_i w1 e1
    split at h
    · cases h
      have a := dec_len e1
      exact ⟨by simp [a.1], a.2⟩
    · cases h

theorem copyCtor_len {w w' : Pointer.World} {l : Loc} (h : Pointer.step w (.copyCtor l) = some w') :
    w'.roots.length = w.roots.length + 1 ∧ w'.objs.length = w.objs.length := by
  simp only [Pointer.step] at h
  split at h
  · cases h
  · have c := inc_len h
    exact ⟨by rw [c.1]; simp, by rw [c.2]⟩

theorem moveCtor_len {w w' : Pointer.World} {l : Loc} (h : Pointer.step w (.moveCtor l) = some w') :
    w'.roots.length = w.roots.length + 1 ∧ w'.objs.length = w.objs.length := by
  simp only [Pointer.step] at h
  split at h
  · cases h
  · have c := store_len h
    exact ⟨by rw [c.1]; simp, by rw [c.2]⟩

theorem newObject_eq (w : Pointer.World) (h : Good w) (k : Nat) :
    Pointer.step w (.newObject k) = some (⟨w.counters ++ [some 1], w.objs ++ [some (List.replicate k ({} : Slot))],
      w.roots ++ [some ⟨some w.objs.length, some (w.objs.length, 0), some w.objs.length⟩]⟩ : Pointer.World) := by
  have hlen := h.counters
  simp only [Pointer.step, inc, hlen]
  rw [List.getElem?_append_right (by omega)]
  simp [hlen]

/-- letting go of an empty pointer deletes nothing -/
theorem survives_of_empty {w : Pointer.World} (h : Good w) {l : Loc} (hl : w.read l = some {}) {x : Nat} (hx : Alive w x) :
    Survives w l x := by
  refine ⟨Alive w, hx, fun y hy => ?_⟩
  obtain ⟨m, s, h1, h2⟩ := owner_of_alive ((good_iff w).mp h) hy
  refine ⟨m, s, ?_, h1, h2, homeIn_alive h1⟩
  rintro rfl
  rw [h1] at hl
  cases hl
  cases h2

/-! ## The relation to the specification -/

variable {V S G : Type}

/-- the pointer to invoker `o` -/
def ptr (o : Nat) : Slot := ⟨some o, some (o, 0), some o⟩

def slotOf : Option (Nat × Fn.Value) → Slot
  | none => {}
  | some (k, _) => ptr k

/-- the same invoker, up to its state -/
def SameShape : Invoker S → Invoker S → Prop
  | .object f _, y => ∃ s, y = .object f s
  | x, y => y = x

theorem SameShape.refl (x : Invoker S) : SameShape x x := by
  cases x <;> simp [SameShape]

/-- invoker `o` calls what `v` says -/
def Denotes (p : Pointer.World) (inv : List (Invoker S)) : Nat → Fn.Value → Prop
  | o, .function f => Alive p o ∧ inv[o]? = some (.static f)
  | o, .method x m => Alive p o ∧ inv[o]? = some (.member x m)
  | o, .functor f => Alive p o ∧ ∃ st, inv[o]? = some (.object f st)
  | o, .pointer c f => Alive p o ∧ inv[o]? = some (.pointer c f)
  | o, .converted c k v => Alive p o ∧ inv[o]? = some (.wrap c) ∧ k < o ∧ p.read (.field o 0) = some (ptr k) ∧ Denotes p inv k v

theorem Denotes.alive {p : Pointer.World} {inv : List (Invoker S)} {o : Nat} {v : Fn.Value} (h : Denotes p inv o v) : Alive p o := by
  cases v <;> exact h.1

theorem Denotes.lt {p : Pointer.World} {inv : List (Invoker S)} {o : Nat} {v : Fn.Value} (h : Denotes p inv o v) : o < inv.length := by
  cases v with
  | functor f => obtain ⟨-, st, e⟩ := h; exact (List.getElem?_eq_some_iff.mp e).1
  | converted c k v => exact (List.getElem?_eq_some_iff.mp h.2.1).1
  | _ => exact (List.getElem?_eq_some_iff.mp h.2).1

theorem Denotes.mono {p p' : Pointer.World} {inv inv' : List (Invoker S)} {o : Nat} {v : Fn.Value} (h : Denotes p inv o v)
    (hinv : ∀ (o : Nat) (x : Invoker S), inv[o]? = some x → ∃ y, inv'[o]? = some y ∧ SameShape x y) (hg : Good p')
    (hf : ∀ o j s, Alive p' o → p.read (.field o j) = some s → p'.read (.field o j) = some s) (ha : Alive p' o) :
    Denotes p' inv' o v := by
  induction v generalizing o with
  | function f =>
    obtain ⟨y, e, hs⟩ := hinv o _ h.2
    exact ⟨ha, by rw [e, show y = _ from hs]⟩
  | method x m =>
    obtain ⟨y, e, hs⟩ := hinv o _ h.2
    exact ⟨ha, by rw [e, show y = _ from hs]⟩
  | functor f =>
    obtain ⟨-, st, h⟩ := h
    obtain ⟨y, e, s, hs⟩ := hinv o _ h
    exact ⟨ha, s, by rw [e, hs]⟩
  | pointer c f =>
    obtain ⟨y, e, hs⟩ := hinv o _ h.2
    exact ⟨ha, by rw [e, show y = _ from hs]⟩
  | converted c k v ih =>
    obtain ⟨-, h2, h3, h4, h5⟩ := h
    obtain ⟨y, e, hs⟩ := hinv o _ h2
    have h6 := hf o 0 _ ha h4
    exact ⟨ha, by rw [e, show y = _ from hs], h3, h6, ih h5 (alive_of_counter ((good_iff p').mp hg) h6 rfl)⟩

structure R (w : World S G) (s : Fn.State S G) : Prop where
  good : Good w.ptrs
  len : w.invokers.length = w.ptrs.objs.length
  made : s.made = w.ptrs.objs.length
  globals : s.globals = w.globals
  states : ∀ k, s.states k = match w.invokers[k]? with
    | some (.object _ st) => some st
    | _ => none
  vars : s.vars.length = w.ptrs.roots.length
  read : ∀ i, w.ptrs.read (.root i) = (s.get i).map slotOf
  value : ∀ i k v, s.get i = some (some (k, v)) → Denotes w.ptrs w.invokers k v
  field : ∀ o j t, w.ptrs.read (.field o j) = some t → j = 0 ∧ ∃ c k, w.invokers[o]? = some (.wrap c) ∧ k < o ∧ t = ptr k

/-- an operation of pointers that makes no invoker -/
theorem R.next {w : World S G} {s s' : Fn.State S G} (h : R w s) {p : Pointer.World} (hg : Good p)
    (hlen : p.objs.length = w.ptrs.objs.length)
    (hf : ∀ o j, Alive p o → p.read (.field o j) = w.ptrs.read (.field o j))
    (hm : s'.made = s.made ∧ s'.states = s.states ∧ s'.globals = s.globals) (hv : s'.vars.length = p.roots.length)
    (hr : ∀ i, p.read (.root i) = (s'.get i).map slotOf)
    (hold : ∀ i k v, s'.get i = some (some (k, v)) → Denotes w.ptrs w.invokers k v) :
    R { w with ptrs := p } s' := by
  refine ⟨hg, by rw [hlen]; exact h.len, by rw [hm.1, hlen]; exact h.made, by rw [hm.2.2]; exact h.globals,
    by rw [hm.2.1]; exact h.states, hv, hr, ?_, ?_⟩
  · intro i k v e
    have hrd := hr i
    rw [e] at hrd
    exact (hold i k v e).mono (fun o x hx => ⟨x, hx, .refl x⟩) hg (fun o j t ha ht => by rw [hf o j ha]; exact ht)
      (alive_of_counter ((good_iff p).mp hg) hrd rfl)
  · intro o j t e
    rw [hf o j (alive_of_read e)] at e
    exact h.field o j t e

theorem get_push (s : Fn.State S G) (v : Option (Nat × Fn.Value)) (i : Nat) :
    (s.push v).get i = if i = s.vars.length then some v else s.get i := by
  simp only [Fn.State.push, Fn.State.get]
  by_cases h : i < s.vars.length
  · rw [List.getElem?_append_left h, if_neg (by omega)]
  · rw [List.getElem?_append_right (by omega)]
    by_cases e : i = s.vars.length
    · subst e; simp
    · rw [if_neg e, List.getElem?_eq_none (by simp; omega), List.getElem?_eq_none (by omega)]

theorem get_put (s : Fn.State S G) (v : Option (Option (Nat × Fn.Value))) (i j : Nat) (u : Option (Nat × Fn.Value)) (hu : s.get j = some u) :
    (s.put j v).get i = if i = j then v else s.get i := by
  simp only [Fn.State.put, Fn.State.get] at hu ⊢
  have hlt : j < s.vars.length := (List.getElem?_eq_some_iff.mp (join_eq_some.mp hu)).1
  by_cases e : i = j
  · subst e; rw [List.getElem?_set_self hlt]; simp
  · rw [List.getElem?_set_ne (fun x => e x.symm), if_neg e]

theorem read_objs_append (w : Pointer.World) (fs : List Slot) (cs : List (Option Int)) (rs : List (Option Slot)) (o j : Nat) :
    (⟨cs, w.objs ++ [some fs], rs⟩ : Pointer.World).read (.field o j) =
      if o = w.objs.length then fs[j]? else w.read (.field o j) := by
  simp only [World.read]
  by_cases h : o < w.objs.length
  · rw [List.getElem?_append_left h, if_neg (by omega)]
  · rw [List.getElem?_append_right (by omega)]
    by_cases e : o = w.objs.length
    · subst e; simp
    · rw [if_neg e, List.getElem?_eq_none (by simp; omega), List.getElem?_eq_none (by omega)]

theorem read_root_append (w : Pointer.World) (t : Slot) (cs : List (Option Int)) (os : List (Option (List Slot))) (i : Nat) :
    (⟨cs, os, w.roots ++ [some t]⟩ : Pointer.World).read (.root i) = if i = w.roots.length then some t else w.read (.root i) := by
  simp only [World.read]
  by_cases h : i < w.roots.length
  · rw [List.getElem?_append_left h, if_neg (by omega)]
  · rw [List.getElem?_append_right (by omega)]
    by_cases e : i = w.roots.length
    · subst e; simp
    · rw [if_neg e, List.getElem?_eq_none (by simp; omega), List.getElem?_eq_none (by omega)]

theorem get_eq_none {s : Fn.State S G} {i : Nat} (h : s.vars.length ≤ i) : s.get i = none := by
  simp [Fn.State.get, List.getElem?_eq_none h]

theorem get_lt {s : Fn.State S G} {i : Nat} {v : Option (Nat × Fn.Value)} (h : s.get i = some v) : i < s.vars.length := by
  refine Classical.byContradiction fun hc => ?_
  rw [get_eq_none (by omega)] at h
  cases h

/-- appending an invoker -/
theorem append_shape (inv : List (Invoker S)) (x : Invoker S) (o : Nat) (y : Invoker S) (h : inv[o]? = some y) :
    ∃ z, (inv ++ [x])[o]? = some z ∧ SameShape y z :=
  ⟨y, by rw [List.getElem?_append_left (List.getElem?_eq_some_iff.mp h).1]; exact h, .refl y⟩

theorem states_append {w : World S G} {s : Fn.State S G} (h : R w s) (x : Invoker S) (k : Nat) :
    (if k = s.made then (match x with | .object _ st => some st | _ => none) else s.states k) =
      match (w.invokers ++ [x])[k]? with
      | some (.object _ st) => some st
      | _ => none := by
  by_cases e : k = s.made
  · have : k = w.invokers.length := by rw [e, h.made, h.len]
    rw [if_pos e, this]
    simp only [List.getElem?_append_right (Nat.le_refl _), Nat.sub_self, List.getElem?_cons_zero]
    cases x <;> rfl
  · rw [if_neg e, h.states]
    have hm : s.made = w.invokers.length := by rw [h.made, h.len]
    by_cases hl : k < w.invokers.length
    · rw [List.getElem?_append_left hl]
    · rw [List.getElem?_eq_none (l := w.invokers) (by omega), List.getElem?_eq_none (by simp; omega)]

theorem R.makes {w : World S G} {s : Fn.State S G} (h : R w s) (inv : Invoker S) (v : Fn.Value) (st : Option S)
    (hst : st = match inv with | .object _ st => some st | _ => none)
    (hv : ∀ (p : Pointer.World) (l : List (Invoker S)) (o : Nat), Alive p o → l[o]? = some inv → Denotes p l o v) :
    ∃ w', construct w 0 inv = some w' ∧ R w' (s.make v st) := by
  have he := newObject_eq w.ptrs h.good 0
  obtain ⟨p, e1, e2, e3, e4, e5, e6⟩ := C43_newObject w.ptrs h.good 0
  have hp : p = _ := Option.some.inj (e1.symm.trans he)
  refine ⟨{ w with ptrs := p, invokers := w.invokers ++ [inv] }, by simp only [Functors.construct, e1, Option.map_some], ?_⟩
  have hroot : ∀ i, p.read (.root i) = if i = w.ptrs.roots.length then some (ptr w.ptrs.objs.length) else w.ptrs.read (.root i) := by
    intro i; rw [hp]; exact read_root_append _ _ _ _ i
  have hfield : ∀ o j, p.read (.field o j) = w.ptrs.read (.field o j) := by
    intro o j; rw [hp, read_objs_append]
    split
    · rename_i e; subst e; simp [World.read]
    · rfl
  have hpl : p.objs.length = w.ptrs.objs.length + 1 := by rw [hp]; simp
  have hget : ∀ i, (s.make v st).get i = if i = s.vars.length then some (some (s.made, v)) else s.get i := fun i => get_push s _ i
  refine ⟨e2, ?_, ?_, h.globals, ?_, ?_, ?_, ?_, ?_⟩
  · simp [hpl, h.len]
  · simp [Fn.State.make, hpl, h.made]
  · intro k
    simp only [Fn.State.make]
    rw [hst]
    exact states_append h inv k
  · simp [Fn.State.make, Fn.State.push, hp, h.vars]
  · intro i
    rw [hget]
    show p.read _ = _
    rw [hroot, ← h.vars]
    split
    · simp [slotOf, h.made]
    · exact h.read i
  · intro i k u e
    rw [hget] at e
    split at e
    · cases e
      refine hv _ _ _ ((e3 _).mpr (.inr h.made)) ?_
      rw [h.made, ← h.len]; simp
    · have hd := h.value i k u e
      exact hd.mono (append_shape _ inv) e2 (fun o j t _ ht => by rw [hfield]; exact ht) ((e3 _).mpr (.inl hd.alive))
  · intro o j t e
    have e : p.read (.field o j) = some t := e
    rw [hfield] at e
    obtain ⟨h1, c, k, h2, h3⟩ := h.field o j t e
    refine ⟨h1, c, k, ?_, h3⟩
    rw [List.getElem?_append_left (List.getElem?_eq_some_iff.mp h2).1]; exact h2

/-- the new invoker for another functor, before that is put into it -/
theorem wrap_start {w : World S G} {s : Fn.State S G} (h : R w s) (i : Nat) (k : Nat) (u : Fn.Value)
    (hi : s.get i = some (some (k, u))) :
    ∃ p, Pointer.step w.ptrs (.newObject 1) = some p ∧ Good p ∧ (∀ x, Alive p x ↔ Alive w.ptrs x ∨ x = w.ptrs.objs.length) ∧
      p.objs.length = w.ptrs.objs.length + 1 ∧ p.roots.length = w.ptrs.roots.length + 1 ∧
      p.read (.field w.ptrs.objs.length 0) = some {} ∧ p.read (.root i) = some (ptr k) ∧
      (∀ i, p.read (.root i) = if i = w.ptrs.roots.length then some (ptr w.ptrs.objs.length) else w.ptrs.read (.root i)) ∧
      (∀ o j, (o, j) ≠ (w.ptrs.objs.length, 0) → p.read (.field o j) = w.ptrs.read (.field o j)) ∧
      (∀ l, HomeIn (Alive p) l → Keeps p (.field w.ptrs.objs.length 0) l) := by
  have he := newObject_eq w.ptrs h.good 1
  obtain ⟨p, e1, e2, e3, e4, e5, e6⟩ := C43_newObject w.ptrs h.good 1
  have hp : p = _ := Option.some.inj (e1.symm.trans he)
  refine ⟨p, e1, e2, e3, by rw [hp]; simp, by rw [hp]; simp, e5 0 (by omega), ?_, ?_, ?_, ?_⟩
  · refine e6 _ _ ?_
    rw [h.read, hi]; rfl
  · intro i; rw [hp]; exact read_root_append _ _ _ _ i
  · intro o j hne; rw [hp, read_objs_append]
    split
    · rename_i e; subst e
      have : j ≠ 0 := by rintro rfl; exact hne rfl
      simp [World.read]; omega
    · rfl
  · intro l hl
    cases l with
    | root i => trivial
    | field o j => exact survives_of_empty e2 (e5 0 (by omega)) hl

theorem R.wrapped {w : World S G} {s s' : Fn.State S G} (h : R w s) (c i k : Nat) (u : Fn.Value)
    (hi : s.get i = some (some (k, u))) {p : Pointer.World} (hg : Good p) (hol : p.objs.length = w.ptrs.objs.length + 1)
    (hrl : p.roots.length = w.ptrs.roots.length + 1)
    (hal : ∀ x, Alive p x ↔ Alive w.ptrs x ∨ x = w.ptrs.objs.length)
    (hroot : ∀ i, p.read (.root i) = if i = w.ptrs.roots.length then some (ptr w.ptrs.objs.length) else (s'.get i).map slotOf)
    (hnew : p.read (.field w.ptrs.objs.length 0) = some (ptr k))
    (hfield : ∀ o j, (o, j) ≠ (w.ptrs.objs.length, 0) → p.read (.field o j) = w.ptrs.read (.field o j))
    (hv : s'.vars.length = s.vars.length) (hs : s'.made = s.made ∧ s'.states = s.states ∧ s'.globals = s.globals)
    (hold : ∀ i k v, s'.get i = some (some (k, v)) → s.get i = some (some (k, v))) :
    R { w with ptrs := p, invokers := w.invokers ++ [.wrap c] } (s'.make (.converted c k u) none) := by
  have hget : ∀ i, (s'.make (.converted c k u) none).get i =
      if i = s'.vars.length then some (some (s'.made, .converted c k u)) else s'.get i := fun i => get_push s' _ i
  have hdu := h.value i k u hi
  have hklt : k < w.ptrs.objs.length := by rw [← h.len]; exact hdu.lt
  have hmono : ∀ k v, Denotes w.ptrs w.invokers k v → Denotes p (w.invokers ++ [.wrap c]) k v := fun k v hd =>
    hd.mono (append_shape _ _) hg (fun o j t _ ht => by
      rw [hfield o j]
      · exact ht
      · intro e
        obtain ⟨fs, h1, -⟩ := read_field.mp ht
        have := (List.getElem?_eq_some_iff.mp h1).1
        simp only [Prod.mk.injEq] at e
        omega) ((hal _).mpr (.inl hd.alive))
  refine ⟨hg, ?_, ?_, ?_, ?_, ?_, ?_, ?_, ?_⟩
  · simp [hol, h.len]
  · simp [Fn.State.make, hol, h.made, hs.1]
  · exact hs.2.2.trans h.globals
  · intro k
    simp only [Fn.State.make]
    rw [hs.1, hs.2.1]
    exact states_append h (.wrap c) k
  · simp [Fn.State.make, Fn.State.push, hv, hrl, h.vars]
  · intro i
    rw [hget]
    show p.read _ = _
    rw [hroot, hv, h.vars]
    split
    · simp [slotOf, hs.1, h.made]
    · rfl
  · intro i k' v e
    rw [hget] at e
    split at e
    · cases e
      refine ⟨(hal _).mpr (.inr (hs.1.trans h.made)), ?_, ?_, ?_, hmono k u hdu⟩
      · rw [hs.1, h.made, ← h.len]; simp
      · rw [hs.1, h.made]; exact hklt
      · rw [hs.1, h.made]; exact hnew
    · exact hmono _ _ (h.value i k' v (hold i k' v e))
  · intro o j t e
    have e : p.read (.field o j) = some t := e
    by_cases ho : (o, j) = (w.ptrs.objs.length, 0)
    · simp only [Prod.mk.injEq] at ho
      obtain ⟨rfl, rfl⟩ := ho
      rw [hnew] at e
      cases e
      exact ⟨rfl, c, k, by rw [← h.len]; simp, hklt, rfl⟩
    · rw [hfield o j ho] at e
      obtain ⟨h1, c', k', h2, h3⟩ := h.field o j t e
      refine ⟨h1, c', k', ?_, h3⟩
      rw [List.getElem?_append_left (List.getElem?_eq_some_iff.mp h2).1]; exact h2

/-! ## Calls -/

theorem invoke_sim (code : Code V S G) {w : World S G} {s : Fn.State S G} (h : R w s) (v : Fn.Value) (k : Nat)
    (hd : Denotes w.ptrs w.invokers k v) (fuel : Nat) (hf : k < fuel) (a : V) :
    (invoke code fuel w (ptr k) a = none ∧ Fn.call code k v a s.states s.globals = none) ∨
    ∃ r w' st g, invoke code fuel w (ptr k) a = some (r, w') ∧ Fn.call code k v a s.states s.globals = some (r, st, g) ∧
      R w' { s with states := st, globals := g } := by
  induction v generalizing k fuel a with
  | function f =>
    cases fuel with
    | zero => omega
    | succ fuel =>
      obtain ⟨⟨fs, ha⟩, hi⟩ := hd
      cases f with
      | none => left; simp [invoke, ptr, hi, ha, Fn.call]
      | some f =>
        right
        refine ⟨(code.function f a w.globals).1, { w with globals := (code.function f a w.globals).2 }, s.states, (code.function f a w.globals).2, ?_, ?_, ?_⟩
        · simp [invoke, ptr, hi, ha]
        · simp [Fn.call, h.globals]
        · exact { h with globals := rfl }
  | method x m =>
    cases fuel with
    | zero => omega
    | succ fuel =>
      obtain ⟨⟨fs, ha⟩, hi⟩ := hd
      cases x with
      | none => left; simp [invoke, ptr, hi, ha, Fn.call]
      | some x =>
        right
        refine ⟨(code.method x m a w.globals).1, { w with globals := (code.method x m a w.globals).2 }, s.states, (code.method x m a w.globals).2, ?_, ?_, ?_⟩
        · simp [invoke, ptr, hi, ha]
        · simp [Fn.call, h.globals]
        · exact { h with globals := rfl }
  | pointer c f =>
    cases fuel with
    | zero => omega
    | succ fuel =>
      obtain ⟨⟨fs, ha⟩, hi⟩ := hd
      cases f with
      | none => left; simp [invoke, ptr, hi, ha, Fn.call]
      | some f =>
        right
        refine ⟨code.result c (code.function f (code.argument c a) w.globals).1,
          { w with globals := (code.function f (code.argument c a) w.globals).2 }, s.states,
          (code.function f (code.argument c a) w.globals).2, ?_, ?_, ?_⟩
        · simp [invoke, ptr, hi, ha]
        · simp [Fn.call, h.globals]
        · exact { h with globals := rfl }
  | functor f =>
    cases fuel with
    | zero => omega
    | succ fuel =>
      obtain ⟨⟨fs, ha⟩, st, hi⟩ := hd
      right
      have hst : s.states k = some st := by rw [h.states, hi]
      have hlt := (List.getElem?_eq_some_iff.mp hi).1
      refine ⟨(code.functor f st a w.globals).1,
        { w with invokers := w.invokers.set k (.object f (code.functor f st a w.globals).2.1), globals := (code.functor f st a w.globals).2.2 },
        fun i => if i = k then some (code.functor f st a w.globals).2.1 else s.states i, (code.functor f st a w.globals).2.2, ?_, ?_, ?_⟩
      · simp [invoke, ptr, hi, ha]
      · simp [Fn.call, h.globals, hst]
      · have hsh : ∀ (o : Nat) (x : Invoker S), w.invokers[o]? = some x →
            ∃ y, (w.invokers.set k (.object f (code.functor f st a w.globals).2.1))[o]? = some y ∧ SameShape x y := by
          intro o x hx
          by_cases e : o = k
          · subst e
            rw [hi] at hx; cases hx
            exact ⟨_, List.getElem?_set_self hlt, _, rfl⟩
          · exact ⟨x, by rw [List.getElem?_set_ne (fun h => e h.symm)]; exact hx, .refl x⟩
        refine ⟨h.good, by simp [h.len], h.made, rfl, ?_, h.vars, h.read, ?_, ?_⟩
        · intro i
          simp only
          by_cases e : i = k
          · subst e; simp [hlt]
          · rw [List.getElem?_set_ne (fun h => e h.symm), if_neg e]; exact h.states i
        · intro i k' v e
          have := h.value i k' v e
          exact this.mono hsh h.good (fun o j t _ ht => ht) this.alive
        · intro o j t e
          obtain ⟨h1, c, k', h2, h3⟩ := h.field o j t e
          refine ⟨h1, c, k', ?_, h3⟩
          rw [List.getElem?_set_ne]
          · exact h2
          · rintro rfl; rw [hi] at h2; cases h2
  | converted c k' v ih =>
    cases fuel with
    | zero => omega
    | succ fuel =>
      obtain ⟨⟨fs, ha⟩, hi, hk, hr, hd⟩ := hd
      have e1 : invoke code (fuel + 1) w (ptr k) a =
          (invoke code fuel w (ptr k') (code.argument c a)).map fun r => (code.result c r.1, r.2) := by
        simp only [invoke, ptr, hi, ha, Option.join_some, Option.isSome_some, if_true]
        rw [show w.ptrs.read (.field k 0) = _ from hr]
        rfl
      rw [e1]
      simp only [Fn.call]
      rcases ih k' hd fuel (by omega) (code.argument c a) with ⟨x, y⟩ | ⟨r, w', st, g, x, y, z⟩
      · left; simp [x, y]
      · right; exact ⟨code.result c r, w', st, g, by simp [x], by simp [y], z⟩

end Functors
end Vlpp
