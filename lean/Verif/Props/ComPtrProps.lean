import Verif.Lemmas.ComPtr

/-! # C73, C74: `ComPtr` -/
set_option autoImplicit false
namespace Vlpp
open Pointer (Loc join_eq_some Inv)
open Com Spec.Com

namespace Com

theorem inv_of_pointer {g : PWorld} (h : Spec.Good g) : Inv g [] := (Pointer.good_iff g).mp h

theorem map_some_of {what : Nat → Option Nat} {x : Option World} {g : PWorld} (h : x.map (abs what) = some g) :
    ∃ w', x = some w' ∧ g = abs what w' := by
  rw [Option.map_eq_some_iff] at h
  obtain ⟨w', h1, h2⟩ := h
  exact ⟨w', h1, h2.symm⟩

/-- other pointers -/
theorem Sim.others {what : Nat → Option Nat} {w w' : World} (h : WF what w) (hs : Sim what w w') {l : Loc} {s : Slot}
    (hl : w.read l = some s) (he : (abs what w').read l = (abs what w).read l) : w'.read l = some s :=
  hs.back (comLoc_of_read h hl) (slotOk_of_read h hl) (he.trans (read_abs_some h hl))

end Com

/-! ## Operations on `ComPtr`s -/

/-- **C73.** `l = m` (copying) if neither is in an object deleted by it: exactly the counters and objects that are no longer
referred to are deleted, `l` shares the counter of `m`, everything else is unchanged, and all counts are right. -/
theorem C73_assignCopy (w : World) (h : Good w) (l m : Loc) (hne : l ≠ m) (a t : Slot) (hl : w.read l = some a)
    (hm : w.read m = some t) (k1 : Keeps w l l) (k2 : Keeps w l m) :
    ∃ w', step w (.assignCopy l m) = some w' ∧ Good w' ∧ (∀ x, Present w' x ↔ Survives w l x) ∧ w'.read l = some t ∧
      (∀ l' s, l' ≠ l → Keeps w l l' → w.read l' = some s → w'.read l' = some s) ∧ ∀ i, w'.raw i = w.raw i := by
  obtain ⟨what, hw, hi⟩ := (good_iff w).mp h
  have cl := comLoc_of_read hw hl
  have cm := comLoc_of_read hw hm
  have hp := loc_ok cl
  obtain ⟨g, e1, e2, e3, e4, e5⟩ := C43_assignCopy (abs what w) ((Pointer.good_iff _).mpr hi) l m hne _ _
    (read_abs_some hw hl) (read_abs_some hw hm) ((keeps_abs hw hi hp l).mpr k1) ((keeps_abs hw hi hp m).mpr k2)
  obtain ⟨s1, s2⟩ := assignCopy_sim hw cl cm
  rw [s1] at e1
  obtain ⟨w', f1, rfl⟩ := map_some_of e1
  have hs := s2 w' f1
  refine ⟨w', f1, (good_iff _).mpr ⟨what, hs.wf, inv_of_pointer e2⟩, ?_, hs.back cl (slotOk_of_read hw hm) e4, ?_, hs.raw⟩
  · intro x; rw [present_abs (what := what), e3, survives_abs hw hi hp]
  · intro l' s n k hr
    exact hs.others hw hr (e5 l' n ((keeps_abs hw hi hp l').mpr k))

/-- **C73.** `l = std::move(m)` -/
theorem C73_assignMove (w : World) (h : Good w) (l m : Loc) (hne : l ≠ m) (a t : Slot) (hl : w.read l = some a)
    (hm : w.read m = some t) (k1 : Keeps w l l) (k2 : Keeps w l m) :
    ∃ w', step w (.assignMove l m) = some w' ∧ Good w' ∧ (∀ x, Present w' x ↔ Survives w l x) ∧ w'.read l = some t ∧
      w'.read m = some {} ∧
      (∀ l' s, l' ≠ l → l' ≠ m → Keeps w l l' → w.read l' = some s → w'.read l' = some s) ∧ ∀ i, w'.raw i = w.raw i := by
  obtain ⟨what, hw, hi⟩ := (good_iff w).mp h
  have cl := comLoc_of_read hw hl
  have cm := comLoc_of_read hw hm
  have hp := loc_ok cl
  obtain ⟨g, e1, e2, e3, e4, e4', e5⟩ := C43_assignMove (abs what w) ((Pointer.good_iff _).mpr hi) l m hne _ _
    (read_abs_some hw hl) (read_abs_some hw hm) ((keeps_abs hw hi hp l).mpr k1) ((keeps_abs hw hi hp m).mpr k2)
  obtain ⟨s1, s2⟩ := assignMove_sim hw cl cm
  rw [s1] at e1
  obtain ⟨w', f1, rfl⟩ := map_some_of e1
  have hs := s2 w' f1
  refine ⟨w', f1, (good_iff _).mpr ⟨what, hs.wf, inv_of_pointer e2⟩, ?_, hs.back cl (slotOk_of_read hw hm) e4,
    hs.back cm (slotOk_empty _ _) e4', ?_, hs.raw⟩
  · intro x; rw [present_abs (what := what), e3, survives_abs hw hi hp]
  · intro l' s n n' k hr
    exact hs.others hw hr (e5 l' n n' ((keeps_abs hw hi hp l').mpr k))

/-- **C73.** `l = nullptr` -/
theorem C73_assignNull (w : World) (h : Good w) (l : Loc) (a : Slot) (hl : w.read l = some a) (k1 : Keeps w l l) :
    ∃ w', step w (.assignNull l) = some w' ∧ Good w' ∧ (∀ x, Present w' x ↔ Survives w l x) ∧ w'.read l = some {} ∧
      (∀ l' s, l' ≠ l → Keeps w l l' → w.read l' = some s → w'.read l' = some s) ∧ ∀ i, w'.raw i = w.raw i := by
  obtain ⟨what, hw, hi⟩ := (good_iff w).mp h
  have cl := comLoc_of_read hw hl
  have hp := loc_ok cl
  obtain ⟨g, e1, e2, e3, e4, e5⟩ := C43_assignNull (abs what w) ((Pointer.good_iff _).mpr hi) l _
    (read_abs_some hw hl) ((keeps_abs hw hi hp l).mpr k1)
  obtain ⟨s1, s2⟩ := assignNull_sim hw cl
  rw [s1] at e1
  obtain ⟨w', f1, rfl⟩ := map_some_of e1
  have hs := s2 w' f1
  refine ⟨w', f1, (good_iff _).mpr ⟨what, hs.wf, inv_of_pointer e2⟩, ?_, hs.back cl (slotOk_empty _ _) e4, ?_, hs.raw⟩
  · intro x; rw [present_abs (what := what), e3, survives_abs hw hi hp]
  · intro l' s n k hr
    exact hs.others hw hr (e5 l' n ((keeps_abs hw hi hp l').mpr k))

/-- **C73.** Destruction of a variable. -/
theorem C73_destroy (w : World) (h : Good w) (i : Nat) (a : Slot) (hl : w.read (.root i) = some a) :
    ∃ w', step w (.destroy i) = some w' ∧ Good w' ∧ (∀ x, Present w' x ↔ Survives w (.root i) x) ∧ w'.read (.root i) = none ∧
      (∀ l' s, l' ≠ .root i → Keeps w (.root i) l' → w.read l' = some s → w'.read l' = some s) ∧ ∀ i, w'.raw i = w.raw i := by
  obtain ⟨what, hw, hi⟩ := (good_iff w).mp h
  have cl := comLoc_of_read hw hl
  have hp := loc_ok cl
  obtain ⟨g, e1, e2, e3, e4, e5⟩ := C43_destroy (abs what w) ((Pointer.good_iff _).mpr hi) i _ (read_abs_some hw hl)
  obtain ⟨s1, s2⟩ := destroy_sim hw cl
  rw [s1] at e1
  obtain ⟨w', f1, rfl⟩ := map_some_of e1
  have hs := s2 w' f1
  refine ⟨w', f1, (good_iff _).mpr ⟨what, hs.wf, inv_of_pointer e2⟩, ?_, ?_, ?_, hs.raw⟩
  · intro x; rw [present_abs (what := what), e3, survives_abs hw hi hp]
  · rw [read_abs hs.wf (hs.comLoc cl)] at e4
    simpa using e4
  · intro l' s n k hr
    exact hs.others hw hr (e5 l' n ((keeps_abs hw hi hp l').mpr k))

theorem vars_length_abs (what : Nat → Option Nat) (w : World) : (abs what w).roots.length = w.vars.length := by simp [abs]

theorem comLoc_new (what : Nat → Option Nat) (w : World) : ComLoc what w (.root w.vars.length) := by
  simp [ComLoc, World.raw]

/-- **C73.** Copying constructor: shares the counter, calls neither `AddRef` nor `Release`. -/
theorem C73_copyCtor (w : World) (h : Good w) (m : Loc) (t : Slot) (hm : w.read m = some t) :
    ∃ w', step w (.copyCtor m) = some w' ∧ Good w' ∧ (∀ x, Present w' x ↔ Present w x) ∧
      w'.read (.root w.vars.length) = some t ∧ (∀ l s, w.read l = some s → w'.read l = some s) ∧ ∀ i, w'.raw i = w.raw i := by
  obtain ⟨what, hw, hi⟩ := (good_iff w).mp h
  have cm := comLoc_of_read hw hm
  obtain ⟨g, e1, e2, e3, e4, e5⟩ := C43_copyCtor (abs what w) ((Pointer.good_iff _).mpr hi) m _ (read_abs_some hw hm)
  obtain ⟨s1, s2⟩ := copyCtor_sim hw cm
  rw [s1] at e1
  obtain ⟨w', f1, rfl⟩ := map_some_of e1
  have hs := s2 w' f1
  rw [vars_length_abs] at e4 e5
  refine ⟨w', f1, (good_iff _).mpr ⟨what, hs.wf, inv_of_pointer e2⟩, ?_, hs.back (comLoc_new what w) (slotOk_of_read hw hm) e4, ?_, hs.raw⟩
  · intro x; rw [present_abs (what := what), e3, present_abs (what := what)]
  · intro l s hr
    refine hs.others hw hr (e5 l ?_)
    rintro rfl
    rw [read_root] at hr
    simp at hr

/-- **C73.** Moving constructor. -/
theorem C73_moveCtor (w : World) (h : Good w) (m : Loc) (t : Slot) (hm : w.read m = some t) :
    ∃ w', step w (.moveCtor m) = some w' ∧ Good w' ∧ (∀ x, Present w' x ↔ Present w x) ∧
      w'.read (.root w.vars.length) = some t ∧ w'.read m = some {} ∧
      (∀ l s, l ≠ m → w.read l = some s → w'.read l = some s) ∧ ∀ i, w'.raw i = w.raw i := by
  obtain ⟨what, hw, hi⟩ := (good_iff w).mp h
  have cm := comLoc_of_read hw hm
  obtain ⟨g, e1, e2, e3, e4, e4', e5⟩ := C43_moveCtor (abs what w) ((Pointer.good_iff _).mpr hi) m _ (read_abs_some hw hm)
  obtain ⟨s1, s2⟩ := moveCtor_sim hw cm
  rw [s1] at e1
  obtain ⟨w', f1, rfl⟩ := map_some_of e1
  have hs := s2 w' f1
  rw [vars_length_abs] at e4 e5
  refine ⟨w', f1, (good_iff _).mpr ⟨what, hs.wf, inv_of_pointer e2⟩, ?_, hs.back (comLoc_new what w) (slotOk_of_read hw hm) e4,
    hs.back cm (slotOk_empty _ _) e4', ?_, hs.raw⟩
  · intro x; rw [present_abs (what := what), e3, present_abs (what := what)]
  · intro l s hlm hr
    refine hs.others hw hr (e5 l ?_ hlm)
    rintro rfl
    rw [read_root] at hr
    simp at hr

theorem good_newEmpty (w : World) (h : Good w) : ∃ w', step w .newEmpty = some w' ∧ Good w' := by
  obtain ⟨what, hw, hi⟩ := (good_iff w).mp h
  obtain ⟨h1, h2⟩ := append_sim hw (slotOk_empty what _)
  exact ⟨_, rfl, (good_iff _).mpr ⟨what, h1.wf, by rw [h2]; exact Pointer.inv_append hi⟩⟩

/-! ## Plain pointers -/

def updWhat (what : Nat → Option Nat) (g : Nat) (x : Option Nat) (a : Nat) : Option Nat := if a = g then x else what a

theorem updWhat_lt {what : Nat → Option Nat} {n : Nat} {x : Option Nat} : ∀ a, a < n → updWhat what n x a = what a := by
  intro a ha
  rw [updWhat, if_neg (by omega)]

/-- **C73.** A new COM object. -/
theorem C73_create (w : World) (h : Good w) (k : Nat) :
    ∃ w', step w (.create k) = some w' ∧ Good w' ∧ (∀ x, Present w' x ↔ Present w x ∨ x = w.heap.length) ∧
      w'.raw w.vars.length = some w.heap.length ∧ (∀ l s, w.read l = some s → w'.read l = some s) := by
  obtain ⟨what, hw, hi⟩ := (good_iff w).mp h
  let what' := updWhat what w.heap.length none
  have hg := grow_wf (x := .object 1 (List.replicate k {})) hw (what' := what') updWhat_lt
    ⟨by simp [what', updWhat], fun s hs => by rw [List.eq_of_mem_replicate hs]; exact slotOk_empty _ _⟩
  have ha := grow_abs (w := w) (what' := what') (what := what) updWhat_lt (.object 1 (List.replicate k {}))
  obtain ⟨g1, g2⟩ := raw_append hg (o := w.heap.length) ⟨by simp [what', updWhat], by simp⟩
  obtain ⟨g, e1, e2, e3, e4, -, e5⟩ := C43_newObject (abs what w) ((Pointer.good_iff _).mpr hi) k
  rw [newObject_eq _ hi.len] at e1
  have hlen : (abs what w).objs.length = w.heap.length := by simp [abs]
  have hgg : g = abs what' { heap := w.heap ++ [some (.object 1 (List.replicate k {}))], vars := w.vars ++ [some (.raw w.heap.length)] } := by
    rw [g2, ha]
    simp only [Option.some.injEq] at e1
    rw [← e1, hlen]
    simp [absCell, absSlot, count]
  refine ⟨_, rfl, (good_iff _).mpr ⟨what', g1, by rw [← hgg]; exact inv_of_pointer e2⟩, ?_, ?_, ?_⟩
  · intro x
    rw [present_abs (what := what'), ← hgg, e3, present_abs (what := what), hlen]
  · rw [raw_some]; simp
  · intro l s hr
    cases l with
    | root i =>
      rw [read_root] at hr ⊢
      simp only
      rw [List.getElem?_append_left (getElem?_lt hr)]
      exact hr
    | field o j =>
      obtain ⟨n, ms, h1, h2⟩ := read_field.mp hr
      refine read_field.mpr ⟨n, ms, ?_, h2⟩
      simp only
      rw [List.getElem?_append_left (getElem?_lt h1)]
      exact h1

/-- **C73.** `AddRef` -/
theorem C73_addRef (w : World) (h : Good w) (i o : Nat) (hr : w.raw i = some o) :
    ∃ w', step w (.addRef i) = some w' ∧ Good w' ∧ (∀ x, Present w' x ↔ Present w x) ∧ w'.raw w.vars.length = some o := by
  obtain ⟨what, hw, hi⟩ := (good_iff w).mp h
  obtain ⟨n, ms, ho⟩ := object_of_raw hw hi hr
  have hv := hw.vars i _ (raw_some.mp hr)
  obtain ⟨a1, a2⟩ := raw_append hw hv
  have hco := hw.cells o _ ho
  have hw2 := wf_set (a := o) (y := .object (n + 1) ms) a1 ⟨hco.1, hco.2⟩
  have hab := abs_count (what := what) (w := { w with vars := w.vars ++ [some (.raw o)] }) (y := .object (n + 1) ms)
    (join_eq_some.mpr ho) rfl
  obtain ⟨g, e1, e2, e3, -, -⟩ := C43_copyCtor (abs what w) ((Pointer.good_iff _).mpr hi) (.root i) _ (raw_abs (what := what) hr)
  have hgg : g = abs what { heap := w.heap.set o (some (.object (n + 1) ms)), vars := w.vars ++ [some (.raw o)] } := by
    have hc : (abs what w).counters[o]?.join = some n := by rw [counters_get, ho]; rfl
    simp only [Pointer.step, raw_abs (what := what) hr, Pointer.inc, ptr, hc, Option.some.injEq] at e1
    rw [← e1]
    refine Eq.trans ?_ hab.symm
    rw [a2]
    rfl
  refine ⟨_, by simp only [step, hr, ho, Option.join_some], (good_iff _).mpr ⟨what, hw2, by rw [← hgg]; exact inv_of_pointer e2⟩, ?_, ?_⟩
  · intro x
    rw [present_abs (what := what), ← hgg, e3, present_abs (what := what)]
  · rw [raw_some]; simp

/-- **C73.** `Release` of a plain pointer. -/
theorem C73_release (w : World) (h : Good w) (i o : Nat) (hr : w.raw i = some o) :
    ∃ w', step w (.release i) = some w' ∧ Good w' ∧ (∀ x, Present w' x ↔ Survives w (.root i) x) ∧ w'.raw i = none ∧
      (∀ l' s, Keeps w (.root i) l' → w.read l' = some s → w'.read l' = some s) ∧ ∀ k, k ≠ i → w'.raw k = w.raw k := by
  obtain ⟨what, hw, hi⟩ := (good_iff w).mp h
  have hv := hw.vars i _ (raw_some.mp hr)
  have hp : ∀ c j, Loc.root i = .field c j → what c = none := by intro c j e; cases e
  obtain ⟨g, e1, e2, e3, e4, e5⟩ := C43_destroy (abs what w) ((Pointer.good_iff _).mpr hi) i _ (raw_abs (what := what) hr)
  obtain ⟨r1, r2⟩ := run_abs what w [.release o] hw (by
    intro t ht
    simp only [List.mem_singleton] at ht
    subst ht
    exact hv)
  rw [destroy_eq _ i _ (raw_abs hr)] at e1
  simp only [List.map_cons, List.map_nil, absTask] at r1
  rw [r1] at e1
  cases er : run w [.release o] with
  | none => rw [er] at e1; cases e1
  | some w1 =>
    obtain ⟨b1, b2, b3⟩ := r2 w1 er
    rw [er] at e1
    simp only [Option.map_some, Option.some.injEq] at e1
    obtain ⟨k1, k2⟩ := kill_wf b1 i
    rw [← k2] at e1
    subst e1
    have hraw : ∀ k, k ≠ i → ({ w1 with vars := w1.vars.set i none } : World).raw k = w.raw k := by
      intro k hk
      simp only [World.raw]
      rw [List.getElem?_set_ne (fun e => hk e.symm), b2]
    have hlt := getElem?_lt (raw_some.mp hr)
    refine ⟨_, by simp only [step, hr, er, Option.map_some], (good_iff _).mpr ⟨what, k1, inv_of_pointer e2⟩, ?_, ?_, ?_, hraw⟩
    · intro x; rw [present_abs (what := what), e3, survives_abs hw hi hp]
    · simp only [World.raw, b2]
      rw [List.getElem?_set_self hlt]
      rfl
    · intro l' s hk hs
      have hne : l' ≠ .root i := by
        rintro rfl
        rw [read_root] at hs
        have := raw_some.mp hr
        rw [hs] at this
        cases this
      have hrd := e5 l' hne ((keeps_abs hw hi hp l').mpr hk)
      have hcl := comLoc_of_read hw hs
      have hcl' : ComLoc what { w1 with vars := w1.vars.set i none } l' := by
        cases l' with
        | root k => exact (hraw k (by rintro rfl; exact hne rfl)).trans hcl
        | field o j => exact hcl
      rw [read_abs k1 hcl', read_abs_some hw hs, Option.map_eq_some_iff] at hrd
      obtain ⟨t, ht, e⟩ := hrd
      have hto := slotOk_of_read k1 ht
      simp only [b3] at hto
      rw [ht, absSlot_inj hto (slotOk_of_read hw hs) e]

/-- reading when a counter is new and a plain pointer is gone -/
theorem read_grow {w : World} {i : Nat} {x : Cell} {l : Loc} {s : Slot} {o : Nat} (hr : w.raw i = some o) (h : w.read l = some s) :
    ({ heap := w.heap ++ [some x], vars := w.vars.set i none } : World).read l = some s := by
  cases l with
  | root k =>
    rw [read_root] at h ⊢
    simp only
    rw [List.getElem?_set_ne]
    · exact h
    · rintro rfl
      rw [raw_some.mp hr] at h
      cases h
  | field o j =>
    obtain ⟨n, ms, h1, h2⟩ := read_field.mp h
    refine read_field.mpr ⟨n, ms, ?_, h2⟩
    simp only
    rw [List.getElem?_append_left (getElem?_lt h1)]
    exact h1

theorem present_grow {w : World} {v : List (Option Var)} {y : Cell} (x : Nat) :
    Present { heap := w.heap ++ [some y], vars := v } x ↔ Present w x ∨ x = w.heap.length := by
  simp only [Present]
  rcases Nat.lt_trichotomy x w.heap.length with hi | rfl | hi
  · rw [List.getElem?_append_left hi]
    constructor
    · exact .inl
    · rintro (h | h)
      · exact h
      · omega
  · simp
  · rw [List.getElem?_eq_none (by simp; omega), List.getElem?_eq_none (by omega)]
    simp
    omega

theorem present_write {w : World} {l : Loc} {s : Slot} (x : Nat) : Present (w.write l s) x ↔ Present w x := by
  cases l with
  | root i => rfl
  | field o j =>
    simp only [World.write]
    split
    · rename_i n ms e
      simp only [Present]
      by_cases h : x = o
      · subst h
        rw [Pointer.getElem?_join_set_self e, join_eq_some.mp e]
        simp
      · rw [List.getElem?_set_ne (fun e => h e.symm)]
    · rfl

theorem read_write_same {w : World} {l : Loc} {s t : Slot} (h : w.read l = some s) : (w.write l t).read l = some t := by
  cases l with
  | root i =>
    rw [read_root] at h ⊢
    simp only [World.write]
    rw [List.getElem?_set_self (getElem?_lt h)]
  | field o j =>
    obtain ⟨n, ms, h1, h2⟩ := read_field.mp h
    refine read_field.mpr ⟨n, ms.set j t, ?_, ?_⟩
    · simp only [World.write, h1, Option.join_some]
      rw [List.getElem?_set_self (getElem?_lt h1)]
    · rw [List.getElem?_set_self (getElem?_lt h2)]

theorem read_write_ne {w : World} {l m : Loc} {t : Slot} (h : m ≠ l) : (w.write l t).read m = w.read m := by
  cases l with
  | root i =>
    cases m with
    | root k =>
      simp only [World.write, World.read]
      rw [List.getElem?_set_ne (by rintro rfl; exact h rfl)]
    | field o j => rfl
  | field o j =>
    simp only [World.write]
    split
    · rename_i n ms e
      cases m with
      | root k => rfl
      | field o' j' =>
        simp only [World.read]
        by_cases ho : o' = o
        · subst ho
          rw [Pointer.getElem?_join_set_self e, join_eq_some.mp e]
          simp only [Option.join_some]
          rw [List.getElem?_set_ne (by rintro rfl; exact h rfl)]
        · rw [List.getElem?_set_ne (fun e => ho e.symm)]
    · rfl

/-- a counter for object `o` is made, plain pointer `i` is gone -/
theorem adopt_abs {what : Nat → Option Nat} {w : World} (hw : WF what w) {i o : Nat} (hr : w.raw i = some o) :
    let what' := updWhat what w.heap.length (some o)
    let w' : World := { heap := w.heap ++ [some (.counter 1)], vars := w.vars.set i none }
    WF what' w' ∧ abs what' w' = adopt (abs what w) i (ptr o) ∧
      SlotOk what' w'.heap.length ⟨some w.heap.length, some o⟩ := by
  intro what' w'
  have hv := hw.vars i _ (raw_some.mp hr)
  have ho : what' o = none := by
    have := hv.2
    simp only [what', updWhat]
    rw [if_neg (by omega)]
    exact hv.1
  have hn : what' w.heap.length = some o := by simp [what', updWhat]
  have hlt : o < w.heap.length := hv.2
  have hg := grow_wf (x := .counter 1) hw (what' := what') updWhat_lt ⟨o, hn, ho, by omega⟩
  have ha := grow_abs (w := w) (what' := what') (what := what) updWhat_lt (.counter 1)
  obtain ⟨k1, k2⟩ := kill_wf hg i
  refine ⟨k1, ?_, .inr ⟨_, _, rfl, rfl, hn, ho, by simp [w'], by simp [w']; omega⟩⟩
  show abs what' { heap := w.heap ++ [some (.counter 1)], vars := w.vars.set i none } = _
  rw [k2, ha]
  simp [adopt, absCell, hn, absOpt, count]

/-- **C73.** `ComPtr(T*)` takes over the reference of a plain pointer: a new counter, and `AddRef` is not called. -/
theorem C73_ofRaw (w : World) (h : Good w) (i o : Nat) (hr : w.raw i = some o) :
    ∃ w', step w (.ofRaw i) = some w' ∧ Good w' ∧ (∀ x, Present w' x ↔ Present w x ∨ x = w.heap.length) ∧
      w'.read (.root w.vars.length) = some ⟨some w.heap.length, some o⟩ ∧ w'.raw i = none ∧
      (∀ l s, w.read l = some s → w'.read l = some s) := by
  obtain ⟨what, hw, hi⟩ := (good_iff w).mp h
  obtain ⟨a1, a2, a3⟩ := adopt_abs hw hr
  obtain ⟨b1, b2⟩ := append_sim a1 a3
  have hinv := inv_adopt hi (raw_abs (what := what) hr)
  have hlt := getElem?_lt (raw_some.mp hr)
  have hlen : (abs what w).objs.length = w.heap.length := by simp [abs]
  refine ⟨_, by simp only [step, hr], (good_iff _).mpr ⟨_, b1.wf, ?_⟩, present_grow, ?_, ?_, ?_⟩
  · rw [b2, a2]
    rw [hlen] at hinv
    exact hinv
  · rw [read_root]
    simp
  · simp only [World.raw]
    rw [List.getElem?_append_left (by simpa using hlt), List.getElem?_set_self hlt]
    rfl
  · intro l s hl
    have := read_grow (x := .counter 1) hr hl
    cases l with
    | root k =>
      rw [read_root] at this ⊢
      simp only at this ⊢
      rw [List.getElem?_append_left (getElem?_lt this)]
      exact this
    | field o' j => exact this

/-- **C73.** `l = p` for a plain pointer, whose reference `l` takes over: what `l` referred to is released before. -/
theorem C73_assignRaw (w : World) (h : Good w) (l : Loc) (i o : Nat) (a : Slot) (hl : w.read l = some a) (hr : w.raw i = some o)
    (k1 : Keeps w l l) :
    ∃ w', step w (.assignRaw l i) = some w' ∧ Good w' ∧ (∀ x, Present w' x ↔ Survives w l x ∨ x = w.heap.length) ∧
      w'.read l = some ⟨some w.heap.length, some o⟩ ∧ w'.raw i = none ∧
      (∀ l' s, l' ≠ l → Keeps w l l' → w.read l' = some s → w'.read l' = some s) := by
  obtain ⟨what, hw, hi⟩ := (good_iff w).mp h
  have cl := comLoc_of_read hw hl
  have hp := loc_ok cl
  have hne : l ≠ .root i := by
    rintro rfl
    rw [read_root, raw_some.mp hr] at hl
    cases hl
  obtain ⟨d1, d2⟩ := dec_sim hw cl
  obtain ⟨g', e1, e2, e3, e4, -⟩ := Pointer.dec_spec hi (read_abs_some hw hl)
  obtain ⟨g1, f1, f2, f3⟩ := e4 ((keeps_abs hw hi hp l).mpr k1)
  rw [d1] at f1
  obtain ⟨w1, hd, rfl⟩ := map_some_of f1
  have hs := d2 w1 hd
  have hr1 : w1.raw i = some o := by rw [hs.raw]; exact hr
  have cl1 := hs.comLoc cl
  rw [read_abs hs.wf cl1, Option.isSome_map] at f3
  obtain ⟨b, hb⟩ := Option.isSome_iff_exists.mp f3
  obtain ⟨a1, a2, a3⟩ := adopt_abs hs.wf hr1
  have hb2 := read_grow (x := .counter 1) hr1 hb
  have hstep : step w (.assignRaw l i) = some (({ heap := w1.heap ++ [some (.counter 1)], vars := w1.vars.set i none } : World).write l
      ⟨some w1.heap.length, some o⟩) := by
    simp only [step, hr, hd, World.store, hb2, Option.isSome_some, if_true]
  have hinv : Inv ((adopt g' i (ptr o)).write l (ptr g'.objs.length)) [] := by
    refine inv_adopt_write e1 ?_ (e := {}) ?_ rfl hne
    · rw [← f2, Pointer.read_write_ne (fun e => hne e.symm), raw_abs hr1]
    · rw [← f2, Pointer.read_write_same (read_abs_some hs.wf hb)]
  have hlen : g'.objs.length = w1.heap.length := by
    rw [← f2, Pointer.objs_length_write]
    simp [abs]
  have habs : abs (updWhat what w1.heap.length (some o)) (({ heap := w1.heap ++ [some (.counter 1)], vars := w1.vars.set i none } : World).write l
      ⟨some w1.heap.length, some o⟩) = (adopt g' i (ptr o)).write l (ptr g'.objs.length) := by
    rw [write_abs a1 (comLoc_of_read a1 hb2), a2, ← f2, ← adopt_write (read_abs_some hs.wf hb) hne, Pointer.write_write, f2, hlen]
    rfl
  refine ⟨_, hstep, (good_iff _).mpr ⟨_, wf_write a1 a3, by rw [habs]; exact hinv⟩, ?_, ?_, ?_, ?_⟩
  · intro x
    rw [present_write, present_grow, hs.len, ← survives_abs hw hi hp, ← e3 x, ← f2, Pointer.alive_write, present_abs (what := what)]
  · rw [← hs.len]; exact read_write_same hb2
  · rw [raw_write_ne hne]
    simp only [World.raw]
    rw [List.getElem?_set_self (getElem?_lt (raw_some.mp hr1))]
    rfl
  · intro l' s n k hrd
    rw [read_write_ne n]
    refine read_grow hr1 (hs.others hw hrd ?_)
    rw [← Pointer.read_kept e3 e2 ((keeps_abs hw hi hp l').mpr k) n, ← f2, Pointer.read_write_ne n]

/-! ## Every operation, every history -/

theorem com_read_or (w : World) (l : Loc) : (∃ s, w.read l = some s) ∨ w.read l = none := by
  cases w.read l with
  | none => exact .inr rfl
  | some s => exact .inl ⟨s, rfl⟩

theorem com_raw_or (w : World) (i : Nat) : (∃ o, w.raw i = some o) ∨ w.raw i = none := by
  cases w.raw i with
  | none => exact .inr rfl
  | some s => exact .inl ⟨s, rfl⟩

theorem com_dec_unreadable {w : World} {l : Loc} (h : w.read l = none) : dec w l = none := by
  simp [dec, h]

theorem read_abs_isSome {what : Nat → Option Nat} {w : World} (h : WF what w) {l : Loc} (hl : ComLoc what w l)
    (hr : ∃ s, (abs what w).read l = some s) : ∃ s, w.read l = some s := by
  obtain ⟨s, hs⟩ := hr
  rw [read_abs h hl, Option.map_eq_some_iff] at hs
  exact ⟨_, hs.choose_spec.1⟩

theorem map_none_of {what : Nat → Option Nat} {x : Option World} (h : x.map (abs what) = none) : x = none := by
  simpa using h

/-- **C73.** An operation is defined exactly if it is legal, and then everything is in order after it. -/
theorem C73_step (w : World) (h : Good w) (op : Op) :
    (Legal w op → ∃ w', step w op = some w' ∧ Good w') ∧ (¬ Legal w op → step w op = none) := by
  obtain ⟨what, hw, hi⟩ := (good_iff w).mp h
  have hg := (Pointer.good_iff _).mpr hi
  cases op with
  | create k =>
    obtain ⟨w', e, g, -⟩ := C73_create w h k
    exact ⟨fun _ => ⟨w', e, g⟩, fun hn => absurd trivial hn⟩
  | newEmpty => exact ⟨fun _ => good_newEmpty w h, fun hn => absurd trivial hn⟩
  | addRef i =>
    refine ⟨fun ⟨o, ho⟩ => have ⟨w', e, g, _⟩ := C73_addRef w h i o ho; ⟨w', e, g⟩, fun hn => ?_⟩
    rcases com_raw_or w i with hs | hs
    · exact absurd hs hn
    · simp [step, hs]
  | release i =>
    refine ⟨fun ⟨o, ho⟩ => have ⟨w', e, g, _⟩ := C73_release w h i o ho; ⟨w', e, g⟩, fun hn => ?_⟩
    rcases com_raw_or w i with hs | hs
    · exact absurd hs hn
    · simp [step, hs]
  | ofRaw i =>
    refine ⟨fun ⟨o, ho⟩ => have ⟨w', e, g, _⟩ := C73_ofRaw w h i o ho; ⟨w', e, g⟩, fun hn => ?_⟩
    rcases com_raw_or w i with hs | hs
    · exact absurd hs hn
    · simp [step, hs]
  | copyCtor m =>
    refine ⟨fun ⟨o, ho⟩ => have ⟨w', e, g, _⟩ := C73_copyCtor w h m o ho; ⟨w', e, g⟩, fun hn => ?_⟩
    rcases com_read_or w m with hs | hs
    · exact absurd hs hn
    · simp [step, hs]
  | moveCtor m =>
    refine ⟨fun ⟨o, ho⟩ => have ⟨w', e, g, _⟩ := C73_moveCtor w h m o ho; ⟨w', e, g⟩, fun hn => ?_⟩
    rcases com_read_or w m with hs | hs
    · exact absurd hs hn
    · simp [step, hs]
  | destroy i =>
    refine ⟨fun ⟨o, ho⟩ => have ⟨w', e, g, _⟩ := C73_destroy w h i o ho; ⟨w', e, g⟩, fun hn => ?_⟩
    rcases com_read_or w (.root i) with hs | hs
    · exact absurd hs hn
    · simp [step, com_dec_unreadable hs]
  | assignNull l =>
    refine ⟨fun ⟨⟨o, ho⟩, hk⟩ => have ⟨w', e, g, _⟩ := C73_assignNull w h l o ho hk; ⟨w', e, g⟩, fun hn => ?_⟩
    rcases com_read_or w l with ⟨s, hs⟩ | hs
    · have cl := comLoc_of_read hw hs
      obtain ⟨s1, -⟩ := assignNull_sim hw cl
      rw [(C43_step _ hg (.assignNull l)).2 (fun ⟨_, hk⟩ => hn ⟨⟨s, hs⟩, (keeps_abs hw hi (loc_ok cl) l).mp hk⟩)] at s1
      exact map_none_of s1.symm
    · simp [step, com_dec_unreadable hs]
  | assignRaw l i =>
    refine ⟨fun ⟨⟨a, ha⟩, ⟨o, ho⟩, hk⟩ => have ⟨w', e, g, _⟩ := C73_assignRaw w h l i o a ha ho hk; ⟨w', e, g⟩, fun hn => ?_⟩
    rcases com_raw_or w i with ⟨o, ho⟩ | ho
    · rcases com_read_or w l with ⟨s, hs⟩ | hs
      · have cl := comLoc_of_read hw hs
        obtain ⟨d1, -⟩ := dec_sim hw cl
        obtain ⟨g', -, -, -, -, hd⟩ := Pointer.dec_spec hi (read_abs_some hw hs)
        rw [hd (fun hk => hn ⟨⟨s, hs⟩, ⟨o, ho⟩, (keeps_abs hw hi (loc_ok cl) l).mp hk⟩)] at d1
        have := map_none_of d1.symm
        simp [step, ho, this]
      · simp [step, ho, com_dec_unreadable hs]
    · simp [step, ho]
  | assignCopy l m =>
    constructor
    · rintro ⟨⟨s, hs⟩, ⟨t, ht⟩, hk⟩
      by_cases e : l = m
      · exact ⟨w, by simp [step, e, ht], h⟩
      · rcases hk with hk | ⟨k1, k2⟩
        · exact absurd hk e
        · obtain ⟨w', e, g, -⟩ := C73_assignCopy w h l m e s t hs ht k1 k2
          exact ⟨w', e, g⟩
    · intro hn
      by_cases e : l = m
      · subst e
        rcases com_read_or w l with ⟨s, hs⟩ | hs
        · exact absurd ⟨⟨s, hs⟩, ⟨s, hs⟩, .inl rfl⟩ hn
        · simp [step, hs]
      · rcases com_read_or w l with ⟨s, hs⟩ | hs
        · have cl := comLoc_of_read hw hs
          by_cases cm : ComLoc what w m
          · obtain ⟨s1, -⟩ := assignCopy_sim hw cl cm
            rw [(C43_step _ hg _).2] at s1
            · exact map_none_of s1.symm
            · rintro ⟨-, hm, hk⟩
              refine hn ⟨⟨s, hs⟩, read_abs_isSome hw cm hm, hk.imp id fun ⟨k1, k2⟩ => ⟨?_, ?_⟩⟩
              · exact (keeps_abs hw hi (loc_ok cl) l).mp k1
              · exact (keeps_abs hw hi (loc_ok cl) m).mp k2
          · simp only [step, if_neg e]
            cases hd : dec w l with
            | none => rfl
            | some w1 =>
              have hsim := (dec_sim hw cl).2 w1 hd
              rcases com_read_or w1 m with ⟨t, ht⟩ | ht
              · refine absurd ?_ cm
                have := comLoc_of_read hsim.wf ht
                cases m with
                | root k => exact (hsim.raw k).symm.trans this
                | field o j => exact this
              · simp [ht]
        · simp [step, e, com_dec_unreadable hs]
  | assignMove l m =>
    constructor
    · rintro ⟨⟨s, hs⟩, ⟨t, ht⟩, hk⟩
      by_cases e : l = m
      · exact ⟨w, by simp [step, e, ht], h⟩
      · rcases hk with hk | ⟨k1, k2⟩
        · exact absurd hk e
        · obtain ⟨w', e, g, -⟩ := C73_assignMove w h l m e s t hs ht k1 k2
          exact ⟨w', e, g⟩
    · intro hn
      by_cases e : l = m
      · subst e
        rcases com_read_or w l with ⟨s, hs⟩ | hs
        · exact absurd ⟨⟨s, hs⟩, ⟨s, hs⟩, .inl rfl⟩ hn
        · simp [step, hs]
      · rcases com_read_or w l with ⟨s, hs⟩ | hs
        · have cl := comLoc_of_read hw hs
          by_cases cm : ComLoc what w m
          · obtain ⟨s1, -⟩ := assignMove_sim hw cl cm
            rw [(C43_step _ hg _).2] at s1
            · exact map_none_of s1.symm
            · rintro ⟨-, hm, hk⟩
              refine hn ⟨⟨s, hs⟩, read_abs_isSome hw cm hm, hk.imp id fun ⟨k1, k2⟩ => ⟨?_, ?_⟩⟩
              · exact (keeps_abs hw hi (loc_ok cl) l).mp k1
              · exact (keeps_abs hw hi (loc_ok cl) m).mp k2
          · simp only [step, if_neg e]
            cases hd : dec w l with
            | none => rfl
            | some w1 =>
              have hsim := (dec_sim hw cl).2 w1 hd
              rcases com_read_or w1 m with ⟨t, ht⟩ | ht
              · refine absurd ?_ cm
                have := comLoc_of_read hsim.wf ht
                cases m with
                | root k => exact (hsim.raw k).symm.trans this
                | field o j => exact this
              · simp [ht]
        · simp [step, e, com_dec_unreadable hs]

theorem com_good_empty : Good {} := by
  refine ⟨?_, ?_, ?_, ?_, ?_⟩
  · intro c n h; simp at h
  · intro c n ms h; simp at h
  · intro s hs; simp [pointers] at hs
  · intro s hs; simp [pointers] at hs
  · intro i o h; simp [World.raw] at h

theorem com_history_good (w : World) (h : Good w) (ops : List Op) :
    (LegalHistory w ops ↔ (history w ops).isSome = true) ∧ ∀ w', history w ops = some w' → Good w' := by
  induction ops generalizing w with
  | nil =>
    refine ⟨by simp [LegalHistory, history], fun w' e => ?_⟩
    simp only [history, Option.some.injEq] at e
    exact e ▸ h
  | cons op ops ih =>
    by_cases hl : Legal w op
    · obtain ⟨w1, e, g⟩ := (C73_step w h op).1 hl
      obtain ⟨i1, i2⟩ := ih w1 g
      simp only [LegalHistory, history, e, Option.bind_some]
      refine ⟨⟨fun hh => i1.mp (hh.2 w1 rfl), fun hh => ⟨hl, fun w' e' => ?_⟩⟩, i2⟩
      cases e'
      exact i1.mpr hh
    · have e := (C73_step w h op).2 hl
      simp [LegalHistory, history, e, hl]

/-- **C73 (partial).** Every history of plain COM pointers, `ComPtr`s, and objects with `ComPtr`s as members: no undefined
behaviour if and only if no assignment deletes the object that contains one of its sides; then each counter is the number of
`ComPtr`s sharing it, and each object's reference count is the number of plain pointers and counters for it.  Missing: the
assignments that delete the object they are in, which are violations (below). -/
theorem C73_history_partial (ops : List Op) :
    (LegalHistory {} ops ↔ (history {} ops).isSome = true) ∧ ∀ w, history {} ops = some w → Good w :=
  com_history_good {} com_good_empty ops

theorem run_nil (w : World) : run w [] = some w := by rw [run]

theorem run_dec (w : World) (s : Slot) (k : List Task) : run w (.dec s :: k) =
    match s.counter with
    | none => run w k
    | some c =>
      match w.heap[c]?.join with
      | some (.counter n) =>
        if n - 1 = 0 then
          match s.ref with
          | none => none
          | some o => run { w with heap := w.heap.set c none } (.release o :: k)
        else run { w with heap := w.heap.set c (some (.counter (n - 1))) } k
      | _ => none := by
  rw [run]
  cases s.counter with
  | none => rfl
  | some c => simp only; split <;> simp_all <;> rfl

theorem run_release (w : World) (o : Nat) (k : List Task) : run w (.release o :: k) =
    match w.heap[o]?.join with
    | some (.object n ms) =>
      if n - 1 = 0 then run { w with heap := w.heap.set o none } (ms.reverse.map .dec ++ k)
      else run { w with heap := w.heap.set o (some (.object (n - 1) ms)) } k
    | _ => none := by
  rw [run]
  split <;> simp_all

/-- An object with one member, that is taken over by a `ComPtr`, copied, and referred to by its own member. -/
example : history {} [.create 1, .addRef 0, .ofRaw 0, .copyCtor (.root 2), .ofRaw 1, .assignCopy (.field 0 0) (.root 3), .destroy 2] =
    some ⟨[some (.object 2 [⟨some 1, some 0⟩]), some (.counter 2), some (.counter 1)],
      [none, none, none, some (.com ⟨some 1, some 0⟩), some (.com ⟨some 2, some 0⟩)]⟩ := by decide +kernel

/-- Everything is released: two objects, one owned by the other. -/
example : history {} [.create 1, .create 0, .ofRaw 1, .assignMove (.field 0 0) (.root 2), .newEmpty, .assignRaw (.root 3) 0,
    .assignNull (.root 3)] = some ⟨[none, none, none, none], [none, none, some (.com {}), some (.com {})]⟩ := by
  simp [history, step, dec, run_nil, run_dec, run_release, World.read, World.raw, World.write, World.store]

/-! ## C74: violations -/

/-- what survives has something apart from `p`: with one `ComPtr` sharing the counter and one reference, nothing is left -/
theorem not_survives (w : World) (h : Good w) (p : Loc) (c o : Nat) (a : Slot) (hp : w.read p = some a) (hc : a.counter = some c)
    (ho : a.ref = some o) (h1 : sharing w c = 1) (h2 : plain w o + groups w o = 1) : ¬ Survives w p o := by
  obtain ⟨what, hw, hi⟩ := (good_iff w).mp h
  have cl := comLoc_of_read hw hp
  have hpa := read_abs_some hw hp
  obtain ⟨o', n, m, ms, e1, e2, e3, e4⟩ := counter_of_slot hw hi hp hc
  rw [ho] at e1
  cases e1
  have once : ∀ (c : Nat) (n : Int) (l l' : Loc) (s s' : PSlot), (abs what w).counters[c]? = some (some n) → n = 1 →
      (abs what w).read l = some s → s.counter = some c → (abs what w).read l' = some s' → s'.counter = some c → l = l' := by
    intro c n l l' s s' hn h1 hr hs hr' hs'
    refine Classical.byContradiction fun hne => ?_
    have hp := (hi.pos c n hn).1
    have e1 := Pointer.tot_write (t := ({} : Pointer.Slot)) hr c
    rw [Pointer.cnt_eq hs, Pointer.cnt_ne (s := ({} : Pointer.Slot)) (by simp)] at e1
    have e2 : 0 < Pointer.tot ((abs what w).write l {}) c :=
      Pointer.tot_pos.mpr ⟨l', s', by rw [Pointer.read_write_ne (fun e => hne e.symm)]; exact hr', hs'⟩
    simp only [Pointer.sumBy_nil] at hp
    omega
  have hn := h.counter c n e3
  have hm := h.object o m ms e4
  rw [← survives_abs hw hi (loc_ok cl)]
  rintro ⟨S, hx, hS⟩
  have hf : (abs what w).read (.field c 0) = some (ptr o) := by
    rw [Pointer.World.read, objs_get, e3]
    simp [absCell, e2, absOpt]
  obtain ⟨l, s, g1, g2, g3, g4⟩ := hS o hx
  have hl := once o m l (.field c 0) s (ptr o) (by simp [abs, e4, count]) (by omega) g2 g3 hf rfl
  subst hl
  obtain ⟨l, s, f1, f2, f3, f4⟩ := hS c g4
  exact f1 (once c n l p s _ (by simp [abs, e3, count]) (by omega) f2 f3 hpa (by rw [absSlot_counter]; exact hc))

/-- **C74, violated.** `p = q` and `p = std::move(q)` where `q` is a member of the object to which only `p` refers, for example
`head = head->next`: undefined behaviour, in every state. -/
theorem C74_violated (w : World) (h : Good w) (p : Loc) (c o j : Nat) (a t : Slot) (hp : w.read p = some a)
    (hc : a.counter = some c) (ho : a.ref = some o) (_hq : w.read (.field o j) = some t) (hne : p ≠ .field o j)
    (h1 : sharing w c = 1) (h2 : plain w o + groups w o = 1) :
    step w (.assignCopy p (.field o j)) = none ∧ step w (.assignMove p (.field o j)) = none := by
  have hs := not_survives w h p c o a hp hc ho h1 h2
  constructor
  · refine (C73_step w h _).2 ?_
    rintro ⟨-, -, hk | ⟨-, hk⟩⟩
    · exact hne hk
    · exact hs hk
  · refine (C73_step w h _).2 ?_
    rintro ⟨-, -, hk | ⟨-, hk⟩⟩
    · exact hne hk
    · exact hs hk

/-- A list of two nodes: `head = head->next`. -/
theorem C74_violated_list :
    history {} [.create 1, .create 1, .ofRaw 1, .assignMove (.field 0 0) (.root 2), .ofRaw 0, .assignCopy (.root 3) (.field 0 0)] = none ∧
    ∃ w, history {} [.create 1, .create 1, .ofRaw 1, .assignMove (.field 0 0) (.root 2), .ofRaw 0] = some w ∧ Good w ∧
      w.read (.root 3) = some ⟨some 3, some 0⟩ ∧ w.read (.field 0 0) = some ⟨some 2, some 1⟩ ∧ sharing w 3 = 1 ∧
      plain w 0 + groups w 0 = 1 := by
  have e : history {} [.create 1, .create 1, .ofRaw 1, .assignMove (.field 0 0) (.root 2), .ofRaw 0] =
      some ⟨[some (.object 1 [⟨some 2, some 1⟩]), some (.object 1 [{}]), some (.counter 1), some (.counter 1)],
        [none, none, some (.com {}), some (.com ⟨some 3, some 0⟩)]⟩ := by decide +kernel
  refine ⟨?_, _, e, (C73_history_partial _).2 _ e, by decide, by decide, by decide, by decide⟩
  simp [history, step, dec, run_nil, run_dec, run_release, World.read, World.raw, World.write, World.store]

/-- **C74 (partial).** The same assignments if the object survives: `p` is what `q` was. -/
theorem C74_assign_partial (w : World) (h : Good w) (p : Loc) (o j : Nat) (a t : Slot) (hne : p ≠ .field o j)
    (hp : w.read p = some a) (_ho : a.ref = some o) (hq : w.read (.field o j) = some t) (hk : Keeps w p p) (hs : Survives w p o) :
    (∃ w', step w (.assignCopy p (.field o j)) = some w' ∧ Good w' ∧ w'.read p = some t) ∧
      ∃ w', step w (.assignMove p (.field o j)) = some w' ∧ Good w' ∧ w'.read p = some t ∧ w'.read (.field o j) = some {} :=
  ⟨have ⟨w', e1, e2, _, e3, _⟩ := C73_assignCopy w h p (.field o j) hne a t hp hq hk hs; ⟨w', e1, e2, e3⟩,
   have ⟨w', e1, e2, _, e3, e4, _⟩ := C73_assignMove w h p (.field o j) hne a t hp hq hk hs; ⟨w', e1, e2, e3, e4⟩⟩

/-- **C73, violated.** An object whose member refers to it, to which nothing else refers: emptying the member deletes the object
during the assignment. -/
theorem C73_violated_cycle :
    history {} [.create 1, .ofRaw 0, .assignMove (.field 0 0) (.root 1), .assignNull (.field 0 0)] = none ∧
    ∃ w, history {} [.create 1, .ofRaw 0, .assignMove (.field 0 0) (.root 1)] = some w ∧ Good w ∧
      w.read (.field 0 0) = some ⟨some 1, some 0⟩ := by
  have e : history {} [.create 1, .ofRaw 0, .assignMove (.field 0 0) (.root 1)] =
      some ⟨[some (.object 1 [⟨some 1, some 0⟩]), some (.counter 1)], [none, some (.com {})]⟩ := by decide +kernel
  refine ⟨?_, _, e, (C73_history_partial _).2 _ e, by decide⟩
  simp [history, step, dec, run_nil, run_dec, run_release, World.read, World.raw, World.write, World.store]

/-- **C73, leak.** Nothing can refer to the object of such a cycle from outside any more, but it is not deleted. -/
example : ∃ w, history {} [.create 1, .ofRaw 0, .assignMove (.field 0 0) (.root 1), .destroy 1] = some w ∧ w.vars = [none, none] ∧
    Present w 0 := ⟨⟨[some (.object 1 [⟨some 1, some 0⟩]), some (.counter 1)], [none, none]⟩, by decide +kernel, rfl, _, rfl⟩

end Vlpp
