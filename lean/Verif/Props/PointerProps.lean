import Verif.Lemmas.Pointer

/-! # C43, C44, C45: shared pointers -/
set_option autoImplicit false
namespace Vlpp
open Pointer Spec

namespace Pointer

theorem read_with_counters (w : World) (cs : List (Option Int)) (l : Loc) :
    ({ w with counters := cs } : World).read l = w.read l := by cases l <;> rfl

theorem alive_with_counters (w : World) (cs : List (Option Int)) (o : Nat) :
    Alive { w with counters := cs } o ↔ Alive w o := Iff.rfl

theorem tot_with_counters (w : World) (cs : List (Option Int)) (c : Nat) : tot { w with counters := cs } c = tot w c := rfl

/-- writing a pointer over an empty one, and counting it -/
theorem inv_write_inc {g : World} (h : Inv g []) {p : Loc} {e t : Slot} (hr : g.read p = some e) (he : e.counter = none)
    (ht : SlotOk t) (ha : ∀ c, t.counter = some c → Alive g c) :
    ∃ cs, inc (g.write p t) t = some { g.write p t with counters := cs } ∧ Inv { g.write p t with counters := cs } [] := by
  have htot : ∀ c, tot (g.write p t) c = tot g c + cnt c t := by
    intro c
    have := tot_write (t := t) hr c
    rw [cnt_ne (s := e) (by simp [he])] at this
    omega
  have hslot : ∀ l s, (g.write p t).read l = some s → SlotOk s := by
    intro l s hl
    by_cases e : l = p
    · subst e; rw [read_write_same hr] at hl; cases hl; exact ht
    · rw [read_write_ne e] at hl; exact h.slot l s hl
  cases hc : t.counter with
  | none =>
    refine ⟨(g.write p t).counters, by simp [inc, hc], ?_⟩
    show Inv (g.write p t) []
    have e0 : ∀ c, cnt c t = 0 := fun c => cnt_ne (by simp [hc])
    refine ⟨?_, ?_, ?_, ?_, hslot, by simp⟩
    · rw [counters_write, objs_length_write]; exact h.len
    · intro o; rw [alive_write, counters_write]; exact h.alive o
    · intro c n hn
      rw [counters_write] at hn
      rw [htot, e0]
      exact h.pos c n hn
    · intro c hn
      rw [counters_write] at hn
      rw [htot, e0]
      exact h.none c hn
  | some c =>
    obtain ⟨n, hn⟩ := (h.alive c).mp (ha c hc)
    have hlt := (List.getElem?_eq_some_iff.mp hn).1
    refine ⟨g.counters.set c (some (n + 1)), ?_, ?_⟩
    · simp only [inc, hc]
      rw [counters_write, hn]
      rfl
    · refine ⟨?_, ?_, ?_, ?_, ?_, by simp⟩
      · simp only [List.length_set]
        rw [objs_length_write]
        exact h.len
      · intro o
        rw [alive_with_counters, alive_write]
        by_cases ho : o = c
        · subst ho
          rw [List.getElem?_set_self hlt]
          simp [ha o hc]
        · simp only
          rw [List.getElem?_set_ne (fun e => ho e.symm)]
          exact h.alive o
      · intro d m hm
        rw [tot_with_counters, htot]
        simp only at hm
        by_cases hd : d = c
        · subst hd
          rw [List.getElem?_set_self hlt] at hm
          simp only [Option.some.injEq] at hm
          have := h.pos d n hn
          rw [cnt_eq hc]
          omega
        · rw [List.getElem?_set_ne (fun e => hd e.symm)] at hm
          have := h.pos d m hm
          rw [cnt_ne (by rw [hc]; simpa using fun e => hd e.symm)]
          exact this
      · intro d hm
        rw [tot_with_counters, htot]
        simp only at hm
        by_cases hd : d = c
        · subst hd
          rw [List.getElem?_set_self hlt] at hm
          simp at hm
        · rw [List.getElem?_set_ne (fun e => hd e.symm)] at hm
          rw [cnt_ne (by rw [hc]; simpa using fun e => hd e.symm)]
          exact h.none d hm
      · intro l s hl
        rw [read_with_counters] at hl
        exact hslot l s hl

theorem inv_move {g : World} (h : Inv g []) {p m : Loc} {e t : Slot} (hr : g.read p = some e) (he : e.counter = none)
    (hm : g.read m = some t) (hne : m ≠ p) : Inv ((g.write p t).write m {}) [] := by
  have hm' : (g.write p t).read m = some t := by rw [read_write_ne hne]; exact hm
  have htot : ∀ c, tot ((g.write p t).write m {}) c = tot g c := by
    intro c
    have h1 := tot_write (t := t) hr c
    have h2 := tot_write (t := {}) hm' c
    rw [cnt_ne (s := e) (by simp [he])] at h1
    rw [cnt_ne (s := {}) (by simp)] at h2
    omega
  refine ⟨?_, ?_, ?_, ?_, ?_, by simp⟩
  · rw [counters_write, counters_write, objs_length_write, objs_length_write]; exact h.len
  · intro o; rw [alive_write, alive_write, counters_write, counters_write]; exact h.alive o
  · intro c n hn
    rw [counters_write, counters_write] at hn
    rw [htot]
    exact h.pos c n hn
  · intro c hn
    rw [counters_write, counters_write] at hn
    rw [htot]
    exact h.none c hn
  · intro l s hl
    by_cases e1 : l = m
    · subst e1; rw [read_write_same hm'] at hl; cases hl; exact slotOk_empty
    · rw [read_write_ne e1] at hl
      by_cases e2 : l = p
      · subst e2; rw [read_write_same hr] at hl; cases hl; exact h.slot m t hm
      · rw [read_write_ne e2] at hl; exact h.slot l s hl

theorem read_append_new (w : World) (s : Slot) : ({ w with roots := w.roots ++ [some s] } : World).read (.root w.roots.length) = some s := by
  rw [read_root]
  simp

theorem read_append_old (w : World) (s : Slot) (l : Loc) (h : l ≠ .root w.roots.length) :
    ({ w with roots := w.roots ++ [some s] } : World).read l = w.read l := by
  cases l with
  | field o j => rfl
  | root i =>
    simp only [World.read]
    have hi : i ≠ w.roots.length := by rintro rfl; exact h rfl
    by_cases hl : i < w.roots.length
    · rw [List.getElem?_append_left hl]
    · rw [List.getElem?_eq_none (by simp; omega), List.getElem?_eq_none (by omega)]

theorem read_some_ne_new {w : World} {l : Loc} {s : Slot} (h : w.read l = some s) : l ≠ .root w.roots.length := by
  rintro rfl
  rw [read_root] at h
  simp at h

theorem write_append (w : World) (s t : Slot) :
    ({ w with roots := w.roots ++ [some s] } : World).write (.root w.roots.length) t = { w with roots := w.roots ++ [some t] } := by
  simp [World.write]

theorem inv_append {w : World} (h : Inv w []) : Inv { w with roots := w.roots ++ [some {}] } [] := by
  have htot : ∀ c, tot { w with roots := w.roots ++ [some {}] } c = tot w c := by
    intro c
    simp [tot, rootCnt, cnt]
  refine ⟨h.len, h.alive, ?_, ?_, ?_, by simp⟩
  · intro c n hn; rw [htot]; exact h.pos c n hn
  · intro c hn; rw [htot]; exact h.none c hn
  · intro l s hl
    by_cases e : l = .root w.roots.length
    · subst e; rw [read_append_new] at hl; cases hl; exact slotOk_empty
    · rw [read_append_old _ _ _ e] at hl; exact h.slot l s hl

theorem inv_kill {g : World} (h : Inv g []) {i : Nat} {e : Slot} (hr : g.read (.root i) = some e) (he : e.counter = none) :
    Inv { g with roots := g.roots.set i none } [] := by
  have htot : ∀ c, tot { g with roots := g.roots.set i none } c = tot g c := by
    intro c
    have := sumBy_set (rootCnt c) g.roots i _ none (read_root.mp hr)
    simp only [rootCnt] at this
    rw [cnt_ne (by simp [he])] at this
    simp only [tot]
    omega
  refine ⟨h.len, h.alive, ?_, ?_, ?_, by simp⟩
  · intro c n hn; rw [htot]; exact h.pos c n hn
  · intro c hn; rw [htot]; exact h.none c hn
  · intro l s hl
    cases l with
    | field o j => exact h.slot (.field o j) s hl
    | root k =>
      have hl := read_root.mp hl
      simp only at hl
      by_cases e : k = i
      · subst e
        rw [getElem?_join_set_self (join_eq_some.mpr (read_root.mp hr))] at hl
        cases hl
      · rw [List.getElem?_set_ne (fun x => e x.symm)] at hl
        exact h.slot (.root k) s (read_root.mpr hl)

theorem read_kill_ne (g : World) (i : Nat) (l : Loc) (h : l ≠ .root i) :
    ({ g with roots := g.roots.set i none } : World).read l = g.read l := by
  cases l with
  | field o j => rfl
  | root k =>
    simp only [World.read]
    rw [List.getElem?_set_ne (by rintro rfl; exact h rfl)]

theorem keeps_alive {w g' : World} {p l : Loc} (hs : ∀ x, Alive g' x ↔ Survives w p x) :
    HomeIn (Alive g') l ↔ Keeps w p l := by
  cases l with
  | root i => exact Iff.rfl
  | field o j => exact hs o

/-- after the release of the pointer at `p`, what is left is unchanged -/
theorem read_kept {w g' : World} {p l : Loc} (hs : ∀ x, Alive g' x ↔ Survives w p x) (hsh : Shrunk (w.write p {}) g')
    (hk : Keeps w p l) (hne : l ≠ p) : g'.read l = w.read l := by
  rw [hsh.read_of_alive ((keeps_alive hs).mpr hk), read_write_ne hne]

theorem read_not_kept {w g' : World} {p l : Loc} (hs : ∀ x, Alive g' x ↔ Survives w p x) (hk : ¬ Keeps w p l) :
    g'.read l = none := by
  cases e : g'.read l with
  | none => rfl
  | some s => exact absurd ((keeps_alive hs).mp (homeIn_alive e)) hk

end Pointer

/-! ## Assignments and destruction: what survives -/

/-- **C43.** `l = m` (copying), if neither `l` nor `m` is in an object deleted by it: exactly the objects that no longer
have an owner are deleted, `l` is a copy of `m`, all other pointers are unchanged, and the counters are right. -/
theorem C43_assignCopy (w : World) (h : Good w) (l m : Loc) (hne : l ≠ m) (a t : Slot) (hl : w.read l = some a)
    (hm : w.read m = some t) (k1 : Keeps w l l) (k2 : Keeps w l m) :
    ∃ w', step w (.assignCopy l m) = some w' ∧ Good w' ∧ (∀ x, Alive w' x ↔ Survives w l x) ∧ w'.read l = some t ∧
      ∀ l', l' ≠ l → Keeps w l l' → w'.read l' = w.read l' := by
  rw [good_iff] at h
  obtain ⟨g', e1, e2, e3, e4, -⟩ := dec_spec h hl
  obtain ⟨w1, d1, d2, d3⟩ := e4 k1
  have hml : m ≠ l := fun e => hne e.symm
  have gm : g'.read m = some t := by rw [read_kept e3 e2 k2 hml]; exact hm
  have wm : w1.read m = some t := by rw [← gm, ← d2, read_write_ne hml]
  obtain ⟨b, hb⟩ := Option.isSome_iff_exists.mp d3
  have gl : g'.read l = some {} := by rw [← d2, read_write_same hb]
  obtain ⟨cs, i1, i2⟩ := inv_write_inc e1 gl rfl (e1.slot m t gm) (fun c hc => alive_of_counter e1 gm hc)
  have wl : w1.write l t = g'.write l t := by rw [← d2, write_write]
  refine ⟨{ g'.write l t with counters := cs }, ?_, (good_iff _).mpr i2, ?_, ?_, ?_⟩
  · simp only [step, if_neg hne, d1, wm, World.store, d3, if_true]
    rw [wl]
    exact i1
  · intro x; rw [alive_with_counters, alive_write]; exact e3 x
  · rw [read_with_counters, read_write_same gl]
  · intro l' hne' hk
    rw [read_with_counters, read_write_ne hne']
    exact read_kept e3 e2 hk hne'

/-- **C43.** `l = std::move(m)` -/
theorem C43_assignMove (w : World) (h : Good w) (l m : Loc) (hne : l ≠ m) (a t : Slot) (hl : w.read l = some a)
    (hm : w.read m = some t) (k1 : Keeps w l l) (k2 : Keeps w l m) :
    ∃ w', step w (.assignMove l m) = some w' ∧ Good w' ∧ (∀ x, Alive w' x ↔ Survives w l x) ∧ w'.read l = some t ∧
      w'.read m = some {} ∧ ∀ l', l' ≠ l → l' ≠ m → Keeps w l l' → w'.read l' = w.read l' := by
  rw [good_iff] at h
  obtain ⟨g', e1, e2, e3, e4, -⟩ := dec_spec h hl
  obtain ⟨w1, d1, d2, d3⟩ := e4 k1
  have hml : m ≠ l := fun e => hne e.symm
  have gm : g'.read m = some t := by rw [read_kept e3 e2 k2 hml]; exact hm
  have wm : w1.read m = some t := by rw [← gm, ← d2, read_write_ne hml]
  obtain ⟨b, hb⟩ := Option.isSome_iff_exists.mp d3
  have gl : g'.read l = some {} := by rw [← d2, read_write_same hb]
  have wl : w1.write l t = g'.write l t := by rw [← d2, write_write]
  have gm' : (g'.write l t).read m = some t := by rw [read_write_ne hml]; exact gm
  refine ⟨(g'.write l t).write m {}, ?_, (good_iff _).mpr (inv_move e1 gl rfl gm hml), ?_, ?_, ?_, ?_⟩
  · simp only [step, if_neg hne, d1, wm, World.store, d3, if_true]
    rw [wl, gm']
    rfl
  · intro x; rw [alive_write, alive_write]; exact e3 x
  · rw [read_write_ne hne, read_write_same gl]
  · rw [read_write_same gm']
  · intro l' hne' hne2 hk
    rw [read_write_ne hne2, read_write_ne hne']
    exact read_kept e3 e2 hk hne'

/-- **C43.** `l = nullptr` -/
theorem C43_assignNull (w : World) (h : Good w) (l : Loc) (a : Slot) (hl : w.read l = some a) (k1 : Keeps w l l) :
    ∃ w', step w (.assignNull l) = some w' ∧ Good w' ∧ (∀ x, Alive w' x ↔ Survives w l x) ∧ w'.read l = some {} ∧
      ∀ l', l' ≠ l → Keeps w l l' → w'.read l' = w.read l' := by
  rw [good_iff] at h
  obtain ⟨g', e1, e2, e3, e4, -⟩ := dec_spec h hl
  obtain ⟨w1, d1, d2, d3⟩ := e4 k1
  obtain ⟨b, hb⟩ := Option.isSome_iff_exists.mp d3
  refine ⟨g', ?_, (good_iff _).mpr e1, e3, ?_, fun l' hne hk => read_kept e3 e2 hk hne⟩
  · simp only [step, d1, World.store, d3, if_true]
    rw [d2]
  · rw [← d2, read_write_same hb]

/-- **C43.** Destruction of a pointer variable. -/
theorem C43_destroy (w : World) (h : Good w) (i : Nat) (a : Slot) (hl : w.read (.root i) = some a) :
    ∃ w', step w (.destroy i) = some w' ∧ Good w' ∧ (∀ x, Alive w' x ↔ Survives w (.root i) x) ∧
      w'.read (.root i) = none ∧ ∀ l', l' ≠ .root i → Keeps w (.root i) l' → w'.read l' = w.read l' := by
  rw [good_iff] at h
  obtain ⟨g', e1, e2, e3, e4, -⟩ := dec_spec h hl
  obtain ⟨w1, d1, d2, d3⟩ := e4 trivial
  obtain ⟨b, hb⟩ := Option.isSome_iff_exists.mp d3
  have gl : g'.read (.root i) = some {} := by rw [← d2, read_write_same hb]
  refine ⟨{ g' with roots := g'.roots.set i none }, ?_, (good_iff _).mpr (inv_kill e1 gl rfl), e3, ?_, ?_⟩
  · simp only [step, d1, d3, if_true]
    rw [← d2]
    simp [World.write]
  · simp only [World.read]
    rw [getElem?_join_set_self (join_eq_some.mpr (read_root.mp gl))]
    rfl
  · intro l' hne hk
    rw [read_kill_ne _ _ _ hne]
    exact read_kept e3 e2 hk hne

/-! ## Construction -/

/-- **C43.** Construction of a new object and of the pointer that owns it. -/
theorem C43_newObject (w : World) (h : Good w) (k : Nat) :
    ∃ w', step w (.newObject k) = some w' ∧ Good w' ∧ (∀ x, Alive w' x ↔ Alive w x ∨ x = w.objs.length) ∧
      w'.read (.root w.roots.length) = some ⟨some w.objs.length, some (w.objs.length, 0), some w.objs.length⟩ ∧
      (∀ j, j < k → w'.read (.field w.objs.length j) = some {}) ∧
      ∀ l s, w.read l = some s → w'.read l = some s := by
  rw [good_iff] at h
  have hlen := h.len
  let o := w.objs.length
  let s : Slot := ⟨some o, some (o, 0), some o⟩
  let w' : World := { counters := w.counters ++ [some 1], objs := w.objs ++ [some (List.replicate k {})], roots := w.roots ++ [some s] }
  have hrep : ∀ c, sumBy (cnt c) (List.replicate k ({} : Slot)) = 0 := by
    intro c
    induction k with
    | zero => rfl
    | succ k ih => rw [List.replicate_succ, sumBy_cons, ih]; simp [cnt]
  have htot : ∀ c, tot w' c = tot w c + cnt c s := by
    intro c
    simp only [tot, w', sumBy_append, sumBy_cons, sumBy_nil, rootCnt, objCnt, hrep]
    omega
  have hread : ∀ l t, w'.read l = some t → t = s ∨ t = {} ∨ w.read l = some t := by
    intro l t hl
    cases l with
    | root i =>
      have hl := read_root.mp hl
      simp only [w'] at hl
      by_cases hi : i < w.roots.length
      · rw [List.getElem?_append_left hi] at hl
        exact .inr (.inr (read_root.mpr hl))
      · rw [List.getElem?_append_right (by omega)] at hl
        by_cases e : i - w.roots.length = 0
        · rw [e] at hl; simp at hl; exact .inl hl.symm
        · rw [List.getElem?_eq_none (by simp; omega)] at hl; cases hl
    | field o' j =>
      obtain ⟨fs, h1, h2⟩ := read_field.mp hl
      simp only [w'] at h1
      by_cases hi : o' < w.objs.length
      · rw [List.getElem?_append_left hi] at h1
        exact .inr (.inr (read_field.mpr ⟨fs, h1, h2⟩))
      · rw [List.getElem?_append_right (by omega)] at h1
        by_cases e : o' - w.objs.length = 0
        · rw [e] at h1
          simp at h1
          subst h1
          have := List.mem_of_getElem? h2
          exact .inr (.inl (List.eq_of_mem_replicate this))
        · rw [List.getElem?_eq_none (by simp; omega)] at h1; cases h1
  have hal : ∀ x, Alive w' x ↔ Alive w x ∨ x = w.objs.length := by
    intro x
    simp only [Alive, w']
    by_cases hi : x < w.objs.length
    · rw [List.getElem?_append_left hi]
      constructor
      · exact .inl
      · rintro (h | h)
        · exact h
        · omega
    · rw [List.getElem?_append_right (by omega), List.getElem?_eq_none (l := w.objs) (by omega)]
      by_cases e : x = w.objs.length
      · subst e; simp
      · rw [List.getElem?_eq_none (by simp; omega)]
        simp [e]
  have hinv : Inv w' [] := by
    refine ⟨by simp [w', hlen], ?_, ?_, ?_, ?_, by simp⟩
    · intro x
      rw [hal, h.alive]
      simp only [w']
      by_cases hi : x < w.counters.length
      · rw [List.getElem?_append_left hi]
        constructor
        · rintro (h | h)
          · exact h
          · omega
        · exact .inl
      · rw [List.getElem?_append_right (by omega), List.getElem?_eq_none (l := w.counters) (by omega)]
        by_cases e : x = w.objs.length
        · rw [← hlen] at e; subst e; simp [hlen]
        · rw [List.getElem?_eq_none (by simp; omega)]
          simp [e]
    · intro c n hn
      rw [htot]
      simp only [w'] at hn
      by_cases hi : c < w.counters.length
      · rw [List.getElem?_append_left hi] at hn
        have := h.pos c n hn
        rw [cnt_ne (s := s) (by simp [s, o]; omega)]
        exact this
      · rw [List.getElem?_append_right (by omega)] at hn
        by_cases e : c = w.objs.length
        · rw [hlen, e] at hn
          simp at hn
          have h0 := h.none c (by rw [List.getElem?_eq_none (by omega)]; rfl)
          rw [cnt_eq (s := s) (by simp [s, o, e])]
          simp only [sumBy_nil] at h0 ⊢
          omega
        · rw [List.getElem?_eq_none (by simp; omega)] at hn
          cases hn
    · intro c hn
      rw [htot]
      simp only [w'] at hn
      by_cases hi : c < w.counters.length
      · rw [List.getElem?_append_left hi] at hn
        rw [cnt_ne (s := s) (by simp [s, o]; omega)]
        exact h.none c hn
      · have h0 := h.none c (by rw [List.getElem?_eq_none (by omega)]; rfl)
        by_cases e : c = w.objs.length
        · rw [List.getElem?_append_right (by omega), hlen, e] at hn
          simp at hn
        · rw [cnt_ne (s := s) (by simp [s, o]; omega)]
          exact h0
    · intro l t hl
      rcases hread l t hl with rfl | rfl | hl
      · exact ⟨fun c hc => by simp [s] at hc ⊢; exact hc, fun hc => by simp [s] at hc⟩
      · exact slotOk_empty
      · exact h.slot l t hl
  refine ⟨w', ?_, (good_iff _).mpr hinv, hal, ?_, ?_, ?_⟩
  · simp only [step, inc, hlen]
    rw [List.getElem?_append_right (by omega)]
    simp [hlen, w', s, o]
  · exact read_append_new { w' with roots := w.roots } s
  · intro j hj
    refine read_field.mpr ⟨List.replicate k {}, ?_, ?_⟩
    · simp [w']
    · simp [hj]
  · intro l t hl
    cases l with
    | root i =>
      have hl := read_root.mp hl
      refine read_root.mpr ?_
      simp only [w']
      rw [List.getElem?_append_left (List.getElem?_eq_some_iff.mp hl).1]
      exact hl
    | field o' j =>
      obtain ⟨fs, h1, h2⟩ := read_field.mp hl
      refine read_field.mpr ⟨fs, ?_, h2⟩
      simp only [w']
      rw [List.getElem?_append_left (List.getElem?_eq_some_iff.mp h1).1]
      exact h1

/-- **C43.** Copying constructor. -/
theorem C43_copyCtor (w : World) (h : Good w) (m : Loc) (t : Slot) (hm : w.read m = some t) :
    ∃ w', step w (.copyCtor m) = some w' ∧ Good w' ∧ (∀ x, Alive w' x ↔ Alive w x) ∧
      w'.read (.root w.roots.length) = some t ∧ ∀ l, l ≠ .root w.roots.length → w'.read l = w.read l := by
  rw [good_iff] at h
  obtain ⟨cs, i1, i2⟩ := inv_write_inc (inv_append h) (read_append_new w {}) rfl (h.slot m t hm)
    (fun c hc => alive_of_counter (l := m) h hm hc)
  rw [write_append] at i1 i2
  refine ⟨_, ?_, (good_iff _).mpr i2, fun x => Iff.rfl, ?_, ?_⟩
  · simp only [step, hm]
    exact i1
  · exact read_append_new { w with counters := cs } t
  · intro l hl
    exact (read_append_old { w with counters := cs } t l hl).trans (read_with_counters w cs l)

/-- **C43.** `Cast`: shares the object if the cast succeeds, otherwise the new pointer is null. -/
theorem C43_castCtor (w : World) (h : Good w) (m : Loc) (t : Slot) (hm : w.read m = some t) (castTo : Option Nat) :
    ∃ w' s, step w (.castCtor m castTo) = some w' ∧ Good w' ∧ (∀ x, Alive w' x ↔ Alive w x) ∧
      w'.read (.root w.roots.length) = some s ∧
      s.ref = t.ref.bind (fun r => castTo.map fun u => (r.1, u)) ∧ (s.ref ≠ none → s.counter = t.counter) ∧
      ∀ l, l ≠ .root w.roots.length → w'.read l = w.read l := by
  rw [good_iff] at h
  let s : Slot := ⟨if (t.ref.bind (fun r => castTo.map fun u => (r.1, u))).isSome then t.counter else none,
    t.ref.bind (fun r => castTo.map fun u => (r.1, u)), t.orig⟩
  have hok := h.slot m t hm
  have hs : SlotOk s := by
    constructor
    · intro c hc
      simp only [s] at hc ⊢
      split at hc
      · rename_i hi
        obtain ⟨h1, u, h2⟩ := hok.1 c hc
        refine ⟨h1, ?_⟩
        rw [h2] at hi ⊢
        cases castTo with
        | none => simp at hi
        | some v => exact ⟨v, rfl⟩
      · cases hc
    · intro hc
      simp only [s] at hc ⊢
      split at hc
      · rw [hok.2 hc]; rfl
      · rename_i hi
        simpa using hi
  have ha : ∀ c, s.counter = some c → Alive { w with roots := w.roots ++ [some {}] } c := by
    intro c hc
    simp only [s] at hc
    split at hc
    · exact alive_of_counter (l := m) h hm hc
    · cases hc
  obtain ⟨cs, i1, i2⟩ := inv_write_inc (inv_append h) (read_append_new w {}) rfl hs ha
  rw [write_append] at i1 i2
  refine ⟨_, s, ?_, (good_iff _).mpr i2, fun x => Iff.rfl, ?_, rfl, ?_, ?_⟩
  · simp only [step, hm]
    exact i1
  · exact read_append_new { w with counters := cs } s
  · intro hr
    simp only [s] at hr ⊢
    rw [if_pos (by simpa [Option.isSome_iff_ne_none] using hr)]
  · intro l hl
    exact (read_append_old { w with counters := cs } s l hl).trans (read_with_counters w cs l)

/-- **C43.** Moving constructor. -/
theorem C43_moveCtor (w : World) (h : Good w) (m : Loc) (t : Slot) (hm : w.read m = some t) :
    ∃ w', step w (.moveCtor m) = some w' ∧ Good w' ∧ (∀ x, Alive w' x ↔ Alive w x) ∧
      w'.read (.root w.roots.length) = some t ∧ w'.read m = some {} ∧
      ∀ l, l ≠ .root w.roots.length → l ≠ m → w'.read l = w.read l := by
  rw [good_iff] at h
  have hne := read_some_ne_new hm
  have hm' : ({ w with roots := w.roots ++ [some {}] } : World).read m = some t := by
    rw [read_append_old _ _ _ hne]; exact hm
  have hm2 : ({ w with roots := w.roots ++ [some t] } : World).read m = some t := by
    rw [read_append_old _ _ _ hne]; exact hm
  have i2 := inv_move (inv_append h) (read_append_new w {}) rfl hm' hne
  rw [write_append] at i2
  refine ⟨_, ?_, (good_iff _).mpr i2, fun x => ?_, ?_, ?_, ?_⟩
  · simp only [step, hm, World.store]
    rw [hm2]
    rfl
  · rw [alive_write]; rfl
  · rw [read_write_ne (fun e => hne e.symm), read_append_new]
  · rw [read_write_same hm2]
  · intro l h1 h2
    rw [read_write_ne h2, read_append_old _ _ _ h1]

/-! ## Every operation, every history -/

theorem read_isSome_or (w : World) (l : Loc) : (∃ s, w.read l = some s) ∨ w.read l = none := by
  cases w.read l with
  | none => exact .inr rfl
  | some s => exact .inl ⟨s, rfl⟩

theorem dec_unreadable {w : World} {l : Loc} (h : w.read l = none) : dec w l = none := by
  simp [dec, h]

/-- **C43.** An operation is defined exactly if it is legal, and then everything is in order after it. -/
theorem C43_step (w : World) (h : Good w) (op : Op) :
    (Legal w op → ∃ w', step w op = some w' ∧ Good w') ∧ (¬ Legal w op → step w op = none) := by
  have hinv := (good_iff w).mp h
  cases op with
  | newEmpty => exact ⟨fun _ => ⟨_, rfl, (good_iff _).mpr (inv_append hinv)⟩, fun hn => absurd trivial hn⟩
  | newObject k =>
    obtain ⟨w', e, g, -⟩ := C43_newObject w h k
    exact ⟨fun _ => ⟨w', e, g⟩, fun hn => absurd trivial hn⟩
  | copyCtor m =>
    constructor
    · rintro ⟨s, hs⟩
      obtain ⟨w', e, g, -⟩ := C43_copyCtor w h m s hs
      exact ⟨w', e, g⟩
    · intro hn
      rcases read_isSome_or w m with hs | hs
      · exact absurd hs hn
      · simp [step, hs]
  | moveCtor m =>
    constructor
    · rintro ⟨s, hs⟩
      obtain ⟨w', e, g, -⟩ := C43_moveCtor w h m s hs
      exact ⟨w', e, g⟩
    · intro hn
      rcases read_isSome_or w m with hs | hs
      · exact absurd hs hn
      · simp [step, hs]
  | castCtor m castTo =>
    constructor
    · rintro ⟨s, hs⟩
      obtain ⟨w', s', e, g, -⟩ := C43_castCtor w h m s hs castTo
      exact ⟨w', e, g⟩
    · intro hn
      rcases read_isSome_or w m with hs | hs
      · exact absurd hs hn
      · simp [step, hs]
  | destroy i =>
    constructor
    · rintro ⟨s, hs⟩
      obtain ⟨w', e, g, -⟩ := C43_destroy w h i s hs
      exact ⟨w', e, g⟩
    · intro hn
      rcases read_isSome_or w (.root i) with hs | hs
      · exact absurd hs hn
      · simp [step, dec_unreadable hs]
  | assignNull l =>
    constructor
    · rintro ⟨⟨s, hs⟩, hk⟩
      obtain ⟨w', e, g, -⟩ := C43_assignNull w h l s hs hk
      exact ⟨w', e, g⟩
    · intro hn
      rcases read_isSome_or w l with ⟨s, hs⟩ | hs
      · obtain ⟨g', -, -, -, -, hd⟩ := dec_spec hinv hs
        have := hd (fun hk => hn ⟨⟨s, hs⟩, hk⟩)
        simp [step, this]
      · simp [step, dec_unreadable hs]
  | assignCopy l m =>
    constructor
    · rintro ⟨⟨s, hs⟩, ⟨t, ht⟩, hk⟩
      by_cases e : l = m
      · exact ⟨w, by simp [step, e, ht], h⟩
      · rcases hk with hk | ⟨k1, k2⟩
        · exact absurd hk e
        · obtain ⟨w', e, g, -⟩ := C43_assignCopy w h l m e s t hs ht k1 k2
          exact ⟨w', e, g⟩
    · intro hn
      by_cases e : l = m
      · subst e
        rcases read_isSome_or w l with ⟨s, hs⟩ | hs
        · exact absurd ⟨⟨s, hs⟩, ⟨s, hs⟩, .inl rfl⟩ hn
        · simp [step, hs]
      · rcases read_isSome_or w l with ⟨s, hs⟩ | hs
        · obtain ⟨g', e1, e2, e3, hd1, hd⟩ := dec_spec hinv hs
          by_cases k1 : Keeps w l l
          · obtain ⟨w1, d1, d2, d3⟩ := hd1 k1
            have hnm : w1.read m = none := by
              rw [← read_write_ne (w := w1) (l := l) (t := {}) (fun x => e x.symm), d2]
              by_cases k2 : Keeps w l m
              · rw [read_kept e3 e2 k2 (fun x => e x.symm)]
                rcases read_isSome_or w m with ht | ht
                · exact absurd ⟨⟨s, hs⟩, ht, .inr ⟨k1, k2⟩⟩ hn
                · exact ht
              · exact read_not_kept e3 k2
            simp [step, e, d1, hnm]
          · simp [step, e, hd k1]
        · simp [step, e, dec_unreadable hs]
  | assignMove l m =>
    constructor
    · rintro ⟨⟨s, hs⟩, ⟨t, ht⟩, hk⟩
      by_cases e : l = m
      · exact ⟨w, by simp [step, e, ht], h⟩
      · rcases hk with hk | ⟨k1, k2⟩
        · exact absurd hk e
        · obtain ⟨w', e, g, -⟩ := C43_assignMove w h l m e s t hs ht k1 k2
          exact ⟨w', e, g⟩
    · intro hn
      by_cases e : l = m
      · subst e
        rcases read_isSome_or w l with ⟨s, hs⟩ | hs
        · exact absurd ⟨⟨s, hs⟩, ⟨s, hs⟩, .inl rfl⟩ hn
        · simp [step, hs]
      · rcases read_isSome_or w l with ⟨s, hs⟩ | hs
        · obtain ⟨g', e1, e2, e3, hd1, hd⟩ := dec_spec hinv hs
          by_cases k1 : Keeps w l l
          · obtain ⟨w1, d1, d2, d3⟩ := hd1 k1
            have hnm : w1.read m = none := by
              rw [← read_write_ne (w := w1) (l := l) (t := {}) (fun x => e x.symm), d2]
              by_cases k2 : Keeps w l m
              · rw [read_kept e3 e2 k2 (fun x => e x.symm)]
                rcases read_isSome_or w m with ht | ht
                · exact absurd ⟨⟨s, hs⟩, ht, .inr ⟨k1, k2⟩⟩ hn
                · exact ht
              · exact read_not_kept e3 k2
            simp [step, e, d1, hnm]
          · simp [step, e, hd k1]
        · simp [step, e, dec_unreadable hs]

/-- a history -/
def Pointer.run (w : World) : List Op → Option World
  | [] => some w
  | op :: ops => (step w op).bind fun w' => run w' ops

/-- every operation is legal when its turn comes -/
def Spec.LegalHistory (w : World) : List Op → Prop
  | [] => True
  | op :: ops => Legal w op ∧ ∀ w', step w op = some w' → LegalHistory w' ops

theorem good_empty : Good {} := by
  rw [good_iff]
  refine ⟨rfl, ?_, ?_, ?_, ?_, by simp⟩
  · intro o; simp [Alive]
  · intro c n h; simp at h
  · intro c _; simp [tot]
  · intro l s h; cases l <;> simp [World.read] at h

theorem run_good (w : World) (h : Good w) (ops : List Op) :
    (LegalHistory w ops ↔ (run w ops).isSome = true) ∧ ∀ w', run w ops = some w' → Good w' := by
  induction ops generalizing w with
  | nil =>
    refine ⟨by simp [LegalHistory, run], fun w' e => ?_⟩
    simp only [run, Option.some.injEq] at e
    exact e ▸ h
  | cons op ops ih =>
    by_cases hl : Legal w op
    · obtain ⟨w1, e, g⟩ := (C43_step w h op).1 hl
      obtain ⟨i1, i2⟩ := ih w1 g
      simp only [LegalHistory, run, e, Option.bind_some]
      refine ⟨⟨fun hh => i1.mp (hh.2 w1 rfl), fun hh => ⟨hl, fun w' e' => ?_⟩⟩, i2⟩
      cases e'
      exact i1.mpr hh
    · have e := (C43_step w h op).2 hl
      simp [LegalHistory, run, e, hl]

/-- **C43 (partial).** Every history of shared pointers and objects that own shared pointers: no undefined behaviour if and
only if no assignment deletes the object that contains one of its sides; then objects are alive exactly while there
are pointers to them and the counters are right.  (What each operation deletes is in the theorems above.) -/
theorem C43_history_partial (ops : List Op) :
    (LegalHistory {} ops ↔ (run {} ops).isSome = true) ∧ ∀ w, run {} ops = some w → Good w :=
  run_good {} good_empty ops

/-- **C43, violated.** Variable 0 owns object 0, whose member is set to the object itself; variable 0 is released, and
then the member is set to null: the object is deleted while the assignment is running and its member is released a
second time. -/
theorem C43_violated_cycle :
    run {} [.newObject 1, .assignCopy (.field 0 0) (.root 0), .assignNull (.root 0), .assignNull (.field 0 0)] = none ∧
    ∃ w, run {} [.newObject 1, .assignCopy (.field 0 0) (.root 0), .assignNull (.root 0)] = some w ∧ Good w ∧
      w.read (.field 0 0) = some ⟨some 0, some (0, 0), some 0⟩ := by
  have e : run {} [.newObject 1, .assignCopy (.field 0 0) (.root 0), .assignNull (.root 0)] =
      some ⟨[some 1], [some [⟨some 0, some (0, 0), some 0⟩]], [some {}]⟩ := by
    simp [run, step, inc, dec, World.read, World.write, World.store]
  refine ⟨?_, _, e, (C43_history_partial _).2 _ e, rfl⟩
  simp [run, step, inc, dec, World.read, World.write, World.store, release]
  rfl

/-! ## C44 -/

/-- **C44 (partial).** `p = q` where `q` is a member of the object of `p`: fine if the object has another owner. -/
theorem C44_assign_partial (w : World) (h : Good w) (p : Loc) (o j : Nat) (a t : Slot) (hne : p ≠ .field o j)
    (hp : w.read p = some a) (_ha : a.counter = some o) (hq : w.read (.field o j) = some t)
    (hk : Keeps w p p) (ho : Survives w p o) :
    ∃ w', step w (.assignCopy p (.field o j)) = some w' ∧ Good w' ∧ w'.read p = some t :=
  have ⟨w', e1, e2, _, e3, _⟩ := C43_assignCopy w h p (.field o j) hne a t hp hq hk ho
  ⟨w', e1, e2, e3⟩

/-- **C44, violated.** `p = q` and `p = std::move(q)` where `q` is a member of the object that only `p` owns, for example
`head = head->next`: undefined behaviour, in every state. -/
theorem C44_violated (w : World) (h : Good w) (p : Loc) (o j : Nat) (a t : Slot)
    (hp : w.read p = some a) (ha : a.counter = some o) (_hq : w.read (.field o j) = some t) (h1 : pointersTo w o = 1) :
    step w (.assignCopy p (.field o j)) = none ∨ p = .field o j := by
  by_cases hne : p = .field o j
  · exact .inr hne
  refine .inl ((C43_step w h _).2 ?_)
  rintro ⟨-, -, hk | ⟨-, hk⟩⟩
  · exact hne hk
  · obtain ⟨S, hx, hS⟩ := hk
    obtain ⟨l, s, h2, h3, h4, -⟩ := hS o hx
    -- two pointers
    have e1 := tot_write (t := {}) hp o
    rw [cnt_eq ha, cnt_ne (s := {}) (by simp)] at e1
    have e2 : 0 < tot (w.write p {}) o := tot_pos.mpr ⟨l, s, by rw [read_write_ne h2]; exact h3, h4⟩
    rw [pointersTo_eq] at h1
    omega

/-- The same for the moving assignment. -/
theorem C44_violated_move (w : World) (h : Good w) (p : Loc) (o j : Nat) (a t : Slot)
    (hp : w.read p = some a) (ha : a.counter = some o) (_hq : w.read (.field o j) = some t) (h1 : pointersTo w o = 1) :
    step w (.assignMove p (.field o j)) = none ∨ p = .field o j := by
  by_cases hne : p = .field o j
  · exact .inr hne
  refine .inl ((C43_step w h _).2 ?_)
  rintro ⟨-, -, hk | ⟨-, hk⟩⟩
  · exact hne hk
  · obtain ⟨S, hx, hS⟩ := hk
    obtain ⟨l, s, h2, h3, h4, -⟩ := hS o hx
    have e1 := tot_write (t := {}) hp o
    rw [cnt_eq ha, cnt_ne (s := {}) (by simp)] at e1
    have e2 : 0 < tot (w.write p {}) o := tot_pos.mpr ⟨l, s, by rw [read_write_ne h2]; exact h3, h4⟩
    rw [pointersTo_eq] at h1
    omega

/-- A list of two nodes: `head = head->next`. -/
example : run {} [.newObject 1, .newObject 1, .assignMove (.field 0 0) (.root 1), .assignCopy (.root 0) (.field 0 0)] = none := by
  simp [run, step, inc, dec, World.read, World.write, World.store, release]
  rfl

/-- With a second owner of the first node it works. -/
example : (run {} [.newObject 1, .newObject 1, .assignMove (.field 0 0) (.root 1), .copyCtor (.root 0),
    .assignCopy (.root 0) (.field 0 0)]).isSome = true := by
  simp [run, step, inc, dec, World.read, World.write, World.store]

/-! ## C45 -/

/-- **C45 (partial).** `Detach` of the only pointer to an object: the pointer is empty, the object lives with its contents,
and nothing else changes except the counter, which is 0 and never deleted. -/
theorem C45_detach_partial (w : World) (h : Good w) (p : Loc) (a : Slot) (o : Nat) (hp : w.read p = some a)
    (ha : a.counter = some o) (h1 : pointersTo w o = 1) :
    ∃ w', detach w p = some (a.ref, w') ∧ w'.read p = some {} ∧ Alive w' o ∧ (∀ l, l ≠ p → w'.read l = w.read l) ∧
      (∀ x, Alive w' x ↔ Alive w x) ∧ w'.counters[o]? = some (some 0) := by
  have hinv := (good_iff w).mp h
  have hal := alive_of_counter hinv hp ha
  have hc := h.counter o hal
  rw [h1] at hc
  have hlt := (List.getElem?_eq_some_iff.mp hc).1
  have hp' : ({ w with counters := w.counters.set o (some 0) } : World).read p = some a := by
    rw [read_with_counters]; exact hp
  refine ⟨({ w with counters := w.counters.set o (some 0) } : World).write p {}, ?_, read_write_same hp',
    alive_write.mpr hal, ?_, fun x => alive_write, ?_⟩
  · have : dec w p false = some (({ w with counters := w.counters.set o (some 0) } : World).write p {}) := by
      simp only [dec, hp, ha]
      rw [hc]
      simp [World.store, hp']
    simp [detach, hp, this]
  · intro l hl; rw [read_write_ne hl, read_with_counters]
  · rw [counters_write]
    simp only
    rw [List.getElem?_set_self hlt]

/-- **C45, violated.** `Detach` of one of several pointers to an object does not make it empty, but its reference is no
longer counted. -/
theorem C45_violated (w : World) (h : Good w) (p : Loc) (a : Slot) (o : Nat) (hp : w.read p = some a)
    (ha : a.counter = some o) (h1 : 2 ≤ pointersTo w o) :
    ∃ w', detach w p = some (a.ref, w') ∧ w'.read p = some a ∧ a.ref ≠ none ∧
      w'.counters[o]? = some (some ((pointersTo w' o : Int) - 1)) := by
  have hinv := (good_iff w).mp h
  have hal := alive_of_counter hinv hp ha
  have hc := h.counter o hal
  have hlt := (List.getElem?_eq_some_iff.mp hc).1
  obtain ⟨-, t, ht⟩ := (hinv.slot p a hp).1 o ha
  refine ⟨{ w with counters := w.counters.set o (some ((pointersTo w o : Int) - 1)) }, ?_, ?_, by simp [ht], ?_⟩
  · have : dec w p false = some { w with counters := w.counters.set o (some ((pointersTo w o : Int) - 1)) } := by
      simp only [dec, hp, ha]
      rw [hc]
      simp only [Option.join_some]
      rw [if_neg (by omega)]
    simp [detach, hp, this]
  · rw [read_with_counters]; exact hp
  · simp only
    rw [List.getElem?_set_self hlt]
    rfl

/-- **C45, violated.** Consequence: variables 0 and 1 share an object; variable 0 is detached and destroyed; the object is
deleted although variable 1 refers to it, and the destruction of variable 1 is undefined behaviour. -/
theorem C45_violated_dangling :
    ∃ w1 r w2 w3, run {} [.newObject 0, .copyCtor (.root 0)] = some w1 ∧ detach w1 (.root 0) = some (r, w2) ∧
      step w2 (.destroy 0) = some w3 ∧ w3.read (.root 1) = some ⟨some 0, some (0, 0), some 0⟩ ∧ ¬ Alive w3 0 ∧
      step w3 (.destroy 1) = none := by
  refine ⟨⟨[some 2], [some []], [some ⟨some 0, some (0, 0), some 0⟩, some ⟨some 0, some (0, 0), some 0⟩]⟩, some (0, 0),
    ⟨[some 1], [some []], [some ⟨some 0, some (0, 0), some 0⟩, some ⟨some 0, some (0, 0), some 0⟩]⟩,
    ⟨[none], [none], [none, some ⟨some 0, some (0, 0), some 0⟩]⟩, ?_, ?_, ?_, rfl, ?_, ?_⟩
  · simp [run, step, inc, World.read]
  · simp [detach, dec, World.read]
  · simp [step, dec, World.read, World.write, World.store, release]
    rfl
  · simp [Alive]
  · simp [step, dec, World.read]

end Vlpp
