import Verif.Spec.Event
import Verif.Props.SortedListProps

/-! # C49, C50: events -/
set_option autoImplicit false
namespace Vlpp
open Events Spec

namespace Events

theorem cmp_compares (w : World) : SortedSeq.Compares w.cmp (compare : Nat → Nat → Ordering) w.address := fun _ _ => rfl

/-- Handlers of events are in order of their addresses, the flags are right, and handlers that exist have different addresses. -/
structure Inv (w : World) (s : Subscriptions) : Prop where
  len : w.handlers.length = s.length
  flag : ∀ (h : Nat) (impl : Handler), w.handlers[h]? = some impl → (impl.attached = true ↔ ∃ e, s[h]? = some (some e))
  asc : ∀ (e : Nat) (ev : EventObj), w.events[e]? = some (some ev) → Spec.Ascending compare w.address ev.handlers
  nodup : ∀ (e : Nat) (ev : EventObj), w.events[e]? = some (some ev) → ev.handlers.Nodup
  mem : ∀ (e : Nat) (ev : EventObj), w.events[e]? = some (some ev) → ∀ h, h ∈ ev.handlers ↔ s[h]? = some (some e)
  type : ∀ (e : Nat) (ev : EventObj), w.events[e]? = some (some ev) →
    ∀ h ∈ ev.handlers, ∀ impl, w.handlers[h]? = some impl → impl.type = ev.type
  event : ∀ (h e : Nat), s[h]? = some (some e) → ∃ ev, w.events[e]? = some (some ev)
  distinct : ∀ h h', w.Alive h → w.Alive h' → w.address h = w.address h' → h = h'

theorem Inv.empty : Inv {} [] := by
  constructor <;> simp [World.Alive]

/-- how the loop of `operator()` runs when the callbacks leave the handlers of the event alone -/
theorem raiseLoop_spec {act : Nat → World → Option World} {e : Nat} {ev : EventObj}
    (hact : ∀ h ∈ ev.handlers, ∀ w, w.events[e]? = some (some ev) → ∃ w', act h w = some w' ∧ w'.events[e]? = some (some ev)) :
    ∀ (n i : Nat) (w : World), ev.handlers.length - i = n → w.events[e]? = some (some ev) →
    ∃ w', raiseLoop act w e i = some (ev.handlers.drop i, w') ∧ w'.events[e]? = some (some ev) := by
  intro n
  induction n with
  | zero =>
    intro i w hn he
    refine ⟨w, ?_, he⟩
    rw [raiseLoop.eq_def, he]
    simp only [Option.join_some]
    rw [List.getElem?_eq_none (by omega), List.drop_eq_nil_of_le (by omega)]
  | succ n ih =>
    intro i w hn he
    have hi : i < ev.handlers.length := by omega
    obtain ⟨w1, h1, he1⟩ := hact ev.handlers[i] (List.getElem_mem hi) w he
    obtain ⟨w2, h2, he2⟩ := ih (i + 1) w1 (by omega) he1
    refine ⟨w2, ?_, he2⟩
    rw [raiseLoop.eq_def, he]
    simp only [Option.join_some]
    rw [List.getElem?_eq_getElem hi]
    simp only [h1, h2, Option.bind_eq_bind, Option.bind_some]
    rw [List.drop_eq_getElem_cons hi]

theorem raiseLoop_id {w : World} {e : Nat} {ev : EventObj} (he : w.events[e]? = some (some ev)) :
    ∀ (n i : Nat), ev.handlers.length - i = n → raiseLoop (fun _ w => some w) w e i = some (ev.handlers.drop i, w) := by
  intro n
  induction n with
  | zero =>
    intro i hn
    rw [raiseLoop.eq_def, he]
    simp only [Option.join_some]
    rw [List.getElem?_eq_none (by omega), List.drop_eq_nil_of_le (by omega)]
  | succ n ih =>
    intro i hn
    have hi : i < ev.handlers.length := by omega
    rw [raiseLoop.eq_def, he]
    simp only [Option.join_some]
    rw [List.getElem?_eq_getElem hi]
    simp only [ih (i + 1) (by omega), Option.bind_eq_bind, Option.bind_some]
    rw [List.drop_eq_getElem_cons hi]

theorem nodup_insert {xs : List Nat} {p v : Nat} (h : xs.Nodup) (hv : v ∉ xs) : (xs.take p ++ v :: xs.drop p).Nodup := by
  rw [(List.perm_middle).nodup_iff, List.take_append_drop, List.nodup_cons]
  exact ⟨hv, h⟩

theorem mem_insert {xs : List Nat} {p v x : Nat} : x ∈ xs.take p ++ v :: xs.drop p ↔ x = v ∨ x ∈ xs := by
  rw [List.perm_middle.mem_iff, List.take_append_drop, List.mem_cons]

theorem mem_removeAt {xs : List Nat} {i x : Nat} (h : xs.Nodup) (hi : i < xs.length) :
    x ∈ xs.take i ++ xs.drop (i + 1) ↔ x ∈ xs ∧ x ≠ xs[i] := by
  have e : xs = xs.take i ++ xs[i] :: xs.drop (i + 1) := by
    rw [← List.drop_eq_getElem_cons hi, List.take_append_drop]
  have h2 : (xs[i] :: (xs.take i ++ xs.drop (i + 1))).Nodup := by
    have := h; rw [e] at this; exact (List.perm_middle.nodup_iff).1 this
  rw [List.nodup_cons] at h2
  have h3 : x ∈ xs ↔ x = xs[i] ∨ x ∈ xs.take i ++ xs.drop (i + 1) := by
    rw [← List.mem_cons]
    conv => lhs; rw [e]
    exact List.perm_middle.mem_iff
  rw [h3]
  constructor
  · intro hx; exact ⟨.inr hx, fun e => h2.1 (e ▸ hx)⟩
  · rintro ⟨rfl | hx, hne⟩
    · exact absurd rfl hne
    · exact hx

theorem ascending_congr {f g : Nat → Nat} {xs : List Nat} (h : ∀ x ∈ xs, f x = g x)
    (ha : Spec.Ascending compare f xs) : Spec.Ascending compare g xs := by
  unfold Spec.Ascending at *
  refine List.Pairwise.imp_of_mem ?_ ha
  intro a b hma hmb hab
  rw [← h a hma, ← h b hmb]; exact hab

theorem Inv.lt {w : World} {s : Subscriptions} (hI : Inv w s) {h : Nat} (ha : w.Alive h) : h < w.handlers.length := by
  rcases ha with ⟨impl, hi, _⟩ | ⟨e, ev, he, hm⟩
  · exact (List.getElem?_eq_some_iff.1 hi).1
  · have := (hI.mem e ev he h).1 hm
    rw [hI.len]; exact (List.getElem?_eq_some_iff.1 this).1

theorem address_append {hs : List Handler} {x : Handler} {es es' : List (Option EventObj)} {h : Nat} (hlt : h < hs.length) :
    World.address ⟨hs ++ [x], es⟩ h = World.address ⟨hs, es'⟩ h := by
  simp only [World.address]
  rw [List.getElem?_append_left hlt]

theorem address_append_new {hs : List Handler} {x : Handler} {es : List (Option EventObj)} :
    World.address ⟨hs ++ [x], es⟩ hs.length = x.address := by
  simp [World.address]

theorem address_set {hs : List Handler} {x y : Handler} {es es' : List (Option EventObj)} {i : Nat} (hx : hs[i]? = some x)
    (hxy : y.address = x.address) (h : Nat) : World.address ⟨hs.set i y, es⟩ h = World.address ⟨hs, es'⟩ h := by
  simp only [World.address]
  by_cases hi : i = h
  · subst hi
    rw [List.getElem?_set_self (List.getElem?_eq_some_iff.1 hx).1, hx]
    simp [hxy]
  · rw [List.getElem?_set_ne hi]

theorem step_add {w : World} {s : Subscriptions} (hI : Inv w s) {e a : Nat} (hl : Legal w (.add e a)) :
    ∃ r w' s', step w (.add e a) = some (r, w') ∧ SubscriptionStep s (.add e a) r s' ∧ Inv w' s' := by
  obtain ⟨⟨ev, he⟩, hfresh⟩ := hl
  have hlen := hI.len
  have hmlt : ∀ (e : Nat) (ev : EventObj), w.events[e]? = some (some ev) → ∀ h ∈ ev.handlers, h < w.handlers.length :=
    fun e ev he h hm => hI.lt (.inr ⟨e, ev, he, hm⟩)
  let w1 : World := { w with handlers := w.handlers ++ [⟨a, ev.type, true, true⟩] }
  have hasc1 : Spec.Ascending compare w1.address ev.handlers :=
    ascending_congr (fun h hm => (address_append (hmlt e ev he h hm)).symm) (hI.asc e ev he)
  obtain ⟨p, hp, hadd, hb, hafter⟩ := SortedSeq.add_spec (cmp_compares w1) hasc1 w.handlers.length
  have hnot : w.handlers.length ∉ ev.handlers := fun hm => by have := hmlt e ev he _ hm; omega
  have helt : e < w.events.length := (List.getElem?_eq_some_iff.1 he).1
  let hs' := ev.handlers.take p ++ w.handlers.length :: ev.handlers.drop p
  let w2 : World := { w1 with events := w.events.set e (some { ev with handlers := hs' }) }
  have hstep : step w (.add e a) = some (.handler w.handlers.length, w2) := by
    simp only [step, Events.add, he, Option.join_some]
    rw [hadd]
    rfl
  have haddr : ∀ h, h < w.handlers.length → w2.address h = w.address h := fun h hlt => address_append hlt
  have haddrn : w2.address w.handlers.length = a := address_append_new
  have hget : ∀ (e' : Nat) (ev' : EventObj), w2.events[e']? = some (some ev') →
      (e' = e ∧ ev' = { ev with handlers := hs' }) ∨ (e' ≠ e ∧ w.events[e']? = some (some ev')) := by
    intro e' ev' h
    by_cases hee : e = e'
    · subst hee
      simp only [w2] at h
      rw [List.getElem?_set_self helt] at h
      exact .inl ⟨rfl, by simpa using h.symm⟩
    · simp only [w2] at h
      rw [List.getElem?_set_ne hee] at h
      exact .inr ⟨fun h => hee h.symm, h⟩
  have hsold : ∀ (h e' : Nat), h < w.handlers.length → ((s ++ [some e])[h]? = some (some e') ↔ s[h]? = some (some e')) := by
    intro h e' hlt; rw [List.getElem?_append_left (by omega)]
  have hsnew : (s ++ [some e])[w.handlers.length]? = some (some e) := by rw [hlen]; simp
  have hslt : ∀ (h e' : Nat), (s ++ [some e])[h]? = some (some e') →
      h < w.handlers.length ∨ (h = w.handlers.length ∧ e' = e) := by
    intro h e' hh
    have h1 := (List.getElem?_eq_some_iff.1 hh).1
    simp at h1
    by_cases h2 : h < w.handlers.length
    · exact .inl h2
    · have : h = w.handlers.length := by omega
      subst this
      rw [hsnew] at hh
      exact .inr ⟨rfl, by simpa using hh.symm⟩
  have halive : ∀ h, w2.Alive h → h = w.handlers.length ∨ w.Alive h := by
    rintro h (⟨impl, hi, hheld⟩ | ⟨e', ev', he', hm⟩)
    · by_cases h2 : h < w.handlers.length
      · simp only [w2, w1] at hi
        rw [List.getElem?_append_left h2] at hi
        exact .inr (.inl ⟨impl, hi, hheld⟩)
      · have h1 := (List.getElem?_eq_some_iff.1 hi).1
        simp [w2, w1] at h1
        exact .inl (by omega)
    · rcases hget e' ev' he' with ⟨rfl, rfl⟩ | ⟨_, he''⟩
      · rcases mem_insert.1 hm with rfl | hm
        · exact .inl rfl
        · exact .inr (.inr ⟨e', ev, he, hm⟩)
      · exact .inr (.inr ⟨e', ev', he'', hm⟩)
  refine ⟨_, w2, s ++ [some e], hstep, by rw [hlen]; exact SubscriptionStep.add, ?_⟩
  constructor
  · simp [w2, w1, hlen]
  · intro h impl hi
    by_cases h2 : h < w.handlers.length
    · simp only [w2, w1] at hi
      rw [List.getElem?_append_left h2] at hi
      rw [hI.flag h impl hi]
      simp only [hsold h _ h2]
    · have h1 := (List.getElem?_eq_some_iff.1 hi).1
      simp [w2, w1] at h1
      have : h = w.handlers.length := by omega
      subst this
      simp only [w2, w1] at hi
      simp at hi
      subst hi
      simp only [true_iff]
      exact ⟨e, hsnew⟩
  · intro e' ev' he'
    rcases hget e' ev' he' with ⟨rfl, rfl⟩ | ⟨_, he''⟩
    · exact SortedSeq.ascending_insert hasc1 hp hb hafter
    · exact ascending_congr (fun h hm => (haddr h (hmlt _ _ he'' h hm)).symm) (hI.asc e' ev' he'')
  · intro e' ev' he'
    rcases hget e' ev' he' with ⟨rfl, rfl⟩ | ⟨_, he''⟩
    · exact nodup_insert (hI.nodup _ _ he) hnot
    · exact hI.nodup e' ev' he''
  · intro e' ev' he' h
    rcases hget e' ev' he' with ⟨rfl, rfl⟩ | ⟨hne, he''⟩
    · rw [mem_insert]
      constructor
      · rintro (rfl | hm)
        · exact hsnew
        · rw [hsold h _ (hmlt _ _ he h hm)]; exact (hI.mem _ _ he h).1 hm
      · intro hh
        rcases hslt h _ hh with h2 | ⟨h2, _⟩
        · rw [hsold h _ h2] at hh
          exact .inr ((hI.mem _ _ he h).2 hh)
        · exact .inl h2
    · constructor
      · intro hm
        rw [hsold h _ (hmlt _ _ he'' h hm)]; exact (hI.mem _ _ he'' h).1 hm
      · intro hh
        rcases hslt h _ hh with h2 | ⟨_, h2⟩
        · rw [hsold h _ h2] at hh
          exact (hI.mem _ _ he'' h).2 hh
        · exact absurd h2 hne
  · intro e' ev' he' h hm impl hi
    have hold : ∀ (e0 : Nat) (ev0 : EventObj), w.events[e0]? = some (some ev0) → h ∈ ev0.handlers → impl.type = ev0.type := by
      intro e0 ev0 he0 hm0
      simp only [w2, w1] at hi
      rw [List.getElem?_append_left (hmlt _ _ he0 h hm0)] at hi
      exact hI.type e0 ev0 he0 h hm0 impl hi
    rcases hget e' ev' he' with ⟨rfl, rfl⟩ | ⟨_, he''⟩
    · rcases mem_insert.1 hm with rfl | hm
      · simp [w2, w1] at hi
        subst hi; rfl
      · exact hold _ ev he hm
    · exact hold _ _ he'' hm
  · intro h e' hh
    have hex : ∀ e0 : Nat, (∃ ev0, w.events[e0]? = some (some ev0)) → ∃ ev0, w2.events[e0]? = some (some ev0) := by
      rintro e0 ⟨ev0, h0⟩
      by_cases hee : e = e0
      · subst hee
        exact ⟨_, List.getElem?_set_self helt⟩
      · exact ⟨ev0, by simp only [w2]; rw [List.getElem?_set_ne hee]; exact h0⟩
    rcases hslt h _ hh with h2 | ⟨_, rfl⟩
    · rw [hsold h _ h2] at hh
      exact hex _ (hI.event h e' hh)
    · exact hex _ ⟨ev, he⟩
  · intro h h' ha ha' heq
    rcases halive h ha with rfl | ha <;> rcases halive h' ha' with rfl | ha'
    · rfl
    · rw [haddrn, haddr h' (hI.lt ha')] at heq
      exact absurd heq.symm (hfresh h' ha')
    · rw [haddrn, haddr h (hI.lt ha)] at heq
      exact absurd heq (hfresh h ha)
    · rw [haddr h (hI.lt ha), haddr h' (hI.lt ha')] at heq
      exact hI.distinct h h' ha ha' heq

theorem step_remove {w : World} {s : Subscriptions} (hI : Inv w s) {e h0 : Nat} (hl : Legal w (.remove e h0)) :
    ∃ r w' s', step w (.remove e h0) = some (r, w') ∧ SubscriptionStep s (.remove e h0) r s' ∧ Inv w' s' := by
  obtain ⟨⟨ev, he⟩, impl, hi, hheld⟩ := hl
  have haddr0 : w.address h0 = impl.address := by simp [World.address, hi]
  have halive0 : w.Alive h0 := .inl ⟨impl, hi, hheld⟩
  have hlt0 : h0 < w.handlers.length := hI.lt halive0
  have hmiss : s[h0]? ≠ some (some e) → step w (.remove e h0) = some (.flag false, w) := by
    intro hne
    simp only [step, Events.remove, he, hi, Option.join_some, hheld]
    by_cases ht : impl.type ≠ ev.type
    · simp [ht]
    · rcases SortedSeq.indexOf_spec (cmp_compares w) (hI.asc e ev he) impl.address with ⟨i, hilt, hix, heq⟩ | ⟨hix, _⟩
      · exfalso
        have h1 : w.address ev.handlers[i] = w.address h0 := by rw [haddr0]; exact Std.LawfulEqCmp.eq_of_compare heq
        have h2 := hI.distinct _ _ (.inr ⟨e, ev, he, List.getElem_mem hilt⟩) halive0 h1
        exact hne ((hI.mem e ev he h0).1 (h2 ▸ List.getElem_mem hilt))
      · simp [ht, hix]
  by_cases hatt : s[h0]? = some (some e)
  case neg => exact ⟨_, w, s, hmiss hatt, .removeMiss hatt, hI⟩
  have hm0 : h0 ∈ ev.handlers := (hI.mem e ev he h0).2 hatt
  have ht : impl.type = ev.type := hI.type e ev he h0 hm0 impl hi
  rcases SortedSeq.indexOf_spec (cmp_compares w) (hI.asc e ev he) impl.address with ⟨i, hilt, hix, heq⟩ | ⟨hix, hno⟩
  case inr =>
    exact absurd (by rw [haddr0]; exact Std.ReflCmp.compare_self (cmp := (compare : Nat → Nat → Ordering))) (hno h0 hm0)
  have h1 : w.address ev.handlers[i] = w.address h0 := by rw [haddr0]; exact Std.LawfulEqCmp.eq_of_compare heq
  have hi0 : ev.handlers[i] = h0 := hI.distinct _ _ (.inr ⟨e, ev, he, List.getElem_mem hilt⟩) halive0 h1
  have hrem : SortedSeq.removeAt (i : Int) ev.handlers = .ok true (ev.handlers.take i ++ ev.handlers.drop (i + 1)) := by
    unfold SortedSeq.removeAt
    rw [Cpp.bind_ok (Cpp.get_apply _), Cpp.bind_ok (Cpp.check_true (by omega) _)]
    rfl
  have helt : e < w.events.length := (List.getElem?_eq_some_iff.1 he).1
  let hs' := ev.handlers.take i ++ ev.handlers.drop (i + 1)
  let w2 : World := ⟨w.handlers.set h0 { impl with attached := false }, w.events.set e (some { ev with handlers := hs' })⟩
  have hstep : step w (.remove e h0) = some (.flag true, w2) := by
    simp only [step, Events.remove, he, hi, Option.join_some, hheld, ht, hix]
    simp only [hrem]
    have hne : ¬ ((i : Int) = -1) := by omega
    simp [hne, w2, hs', ht, hheld]
  have hmem' : ∀ x, x ∈ hs' ↔ x ∈ ev.handlers ∧ x ≠ h0 := by
    intro x; rw [← hi0]; exact mem_removeAt (hI.nodup e ev he) hilt
  have haddr : ∀ h, w2.address h = w.address h := fun h => address_set (y := { impl with attached := false }) hi rfl h
  have hget : ∀ (e' : Nat) (ev' : EventObj), w2.events[e']? = some (some ev') →
      (e' = e ∧ ev' = { ev with handlers := hs' }) ∨ (e' ≠ e ∧ w.events[e']? = some (some ev')) := by
    intro e' ev' h
    by_cases hee : e = e'
    · subst hee
      simp only [w2] at h
      rw [List.getElem?_set_self helt] at h
      exact .inl ⟨rfl, by simpa using h.symm⟩
    · simp only [w2] at h
      rw [List.getElem?_set_ne hee] at h
      exact .inr ⟨fun h => hee h.symm, h⟩
  have hs : ∀ (h e' : Nat), (s.set h0 none)[h]? = some (some e') ↔ h ≠ h0 ∧ s[h]? = some (some e') := by
    intro h e'
    by_cases hh : h0 = h
    · subst hh
      rw [List.getElem?_set_self (by have := hI.len; omega)]
      simp
    · rw [List.getElem?_set_ne hh]
      exact ⟨fun h => ⟨fun h' => hh h'.symm, h⟩, fun h => h.2⟩
  have himpl : ∀ (h : Nat) (x : Handler), w2.handlers[h]? = some x →
      (h = h0 ∧ x = { impl with attached := false }) ∨ (h ≠ h0 ∧ w.handlers[h]? = some x) := by
    intro h x hx
    by_cases hh : h0 = h
    · subst hh
      simp only [w2] at hx
      rw [List.getElem?_set_self hlt0] at hx
      exact .inl ⟨rfl, by simpa using hx.symm⟩
    · simp only [w2] at hx
      rw [List.getElem?_set_ne hh] at hx
      exact .inr ⟨fun h => hh h.symm, hx⟩
  have halive : ∀ h, w2.Alive h → w.Alive h := by
    rintro h (⟨x, hx, hxh⟩ | ⟨e', ev', he', hm⟩)
    · rcases himpl h x hx with ⟨rfl, rfl⟩ | ⟨_, hx⟩
      · exact halive0
      · exact .inl ⟨x, hx, hxh⟩
    · rcases hget e' ev' he' with ⟨rfl, rfl⟩ | ⟨_, he''⟩
      · exact .inr ⟨_, ev, he, ((hmem' h).1 hm).1⟩
      · exact .inr ⟨e', ev', he'', hm⟩
  refine ⟨_, w2, s.set h0 none, hstep, .remove hatt, ?_⟩
  constructor
  · simp [w2, hI.len]
  · intro h x hx
    simp only [hs]
    rcases himpl h x hx with ⟨rfl, rfl⟩ | ⟨hne, hx⟩
    · simp
    · rw [hI.flag h x hx]; simp [hne]
  · intro e' ev' he'
    rcases hget e' ev' he' with ⟨rfl, rfl⟩ | ⟨_, he''⟩
    · exact ascending_congr (fun h _ => (haddr h).symm) (ascending_remove (hI.asc _ ev he) _ _ (by omega))
    · exact ascending_congr (fun h _ => (haddr h).symm) (hI.asc e' ev' he'')
  · intro e' ev' he'
    rcases hget e' ev' he' with ⟨rfl, rfl⟩ | ⟨_, he''⟩
    · refine (hI.nodup _ ev he).sublist ?_
      conv => rhs; rw [← List.take_append_drop i ev.handlers]
      exact List.Sublist.append (List.Sublist.refl _) (List.drop_sublist_drop_left _ (by omega))
    · exact hI.nodup e' ev' he''
  · intro e' ev' he' h
    rw [hs]
    rcases hget e' ev' he' with ⟨rfl, rfl⟩ | ⟨hne, he''⟩
    · rw [hmem', hI.mem _ ev he h]; exact And.comm
    · rw [hI.mem e' ev' he'' h]
      refine ⟨fun hh => ⟨?_, hh⟩, fun hh => hh.2⟩
      rintro rfl
      rw [hatt] at hh
      exact hne (by simpa using hh.symm)
  · intro e' ev' he' h hm x hx
    have hold : ∀ (e0 : Nat) (ev0 : EventObj), w.events[e0]? = some (some ev0) → h ∈ ev0.handlers → x.type = ev0.type := by
      intro e0 ev0 he0 hmm
      rcases himpl h x hx with ⟨rfl, rfl⟩ | ⟨_, hx⟩
      · exact hI.type e0 ev0 he0 _ hmm impl hi
      · exact hI.type e0 ev0 he0 _ hmm x hx
    rcases hget e' ev' he' with ⟨rfl, rfl⟩ | ⟨_, he''⟩
    · exact hold _ ev he ((hmem' h).1 hm).1
    · exact hold _ _ he'' hm
  · intro h e' hh
    obtain ⟨ev0, hev⟩ := hI.event h e' ((hs h e').1 hh).2
    by_cases hee : e = e'
    · subst hee
      exact ⟨_, List.getElem?_set_self helt⟩
    · exact ⟨ev0, by simp only [w2]; rw [List.getElem?_set_ne hee]; exact hev⟩
  · intro h h' ha ha' heq
    rw [haddr, haddr] at heq
    exact hI.distinct h h' (halive h ha) (halive h' ha') heq

theorem step_drop {w : World} {s : Subscriptions} (hI : Inv w s) {h0 : Nat} (hl : Legal w (.drop h0)) :
    ∃ r w' s', step w (.drop h0) = some (r, w') ∧ SubscriptionStep s (.drop h0) r s' ∧ Inv w' s' := by
  obtain ⟨impl, hi, hheld⟩ := hl
  have hlt0 : h0 < w.handlers.length := (List.getElem?_eq_some_iff.1 hi).1
  let w2 : World := { w with handlers := w.handlers.set h0 { impl with held := false } }
  have haddr : ∀ h, w2.address h = w.address h := fun h => address_set (y := { impl with held := false }) hi rfl h
  have himpl : ∀ (h : Nat) (x : Handler), w2.handlers[h]? = some x →
      (h = h0 ∧ x = { impl with held := false }) ∨ (h ≠ h0 ∧ w.handlers[h]? = some x) := by
    intro h x hx
    by_cases hh : h0 = h
    · subst hh
      simp only [w2] at hx
      rw [List.getElem?_set_self hlt0] at hx
      exact .inl ⟨rfl, by simpa using hx.symm⟩
    · simp only [w2] at hx
      rw [List.getElem?_set_ne hh] at hx
      exact .inr ⟨fun h => hh h.symm, hx⟩
  have halive : ∀ h, w2.Alive h → w.Alive h := by
    rintro h (⟨x, hx, hxh⟩ | ⟨e', ev', he', hm⟩)
    · rcases himpl h x hx with ⟨rfl, rfl⟩ | ⟨_, hx⟩
      · cases hxh
      · exact .inl ⟨x, hx, hxh⟩
    · exact .inr ⟨e', ev', he', hm⟩
  refine ⟨_, w2, s, by simp [step, hi, hheld, w2], .drop, ?_⟩
  constructor
  · simp [w2, hI.len]
  · intro h x hx
    rcases himpl h x hx with ⟨rfl, rfl⟩ | ⟨hne, hx⟩
    · exact hI.flag h impl hi
    · exact hI.flag h x hx
  · exact fun e' ev' he' => ascending_congr (fun h _ => (haddr h).symm) (hI.asc e' ev' he')
  · exact hI.nodup
  · exact hI.mem
  · intro e' ev' he' h hm x hx
    rcases himpl h x hx with ⟨rfl, rfl⟩ | ⟨hne, hx⟩
    · exact hI.type e' ev' he' h hm impl hi
    · exact hI.type e' ev' he' h hm x hx
  · exact hI.event
  · intro h h' ha ha' heq
    rw [haddr, haddr] at heq
    exact hI.distinct h h' (halive h ha) (halive h' ha') heq

theorem step_newEvent {w : World} {s : Subscriptions} (hI : Inv w s) {t : Nat} :
    Inv { w with events := w.events ++ [some ⟨t, []⟩] } s := by
  have hget : ∀ (e' : Nat) (ev' : EventObj), (w.events ++ [some (⟨t, []⟩ : EventObj)])[e']? = some (some ev') →
      (e' = w.events.length ∧ ev' = ⟨t, []⟩) ∨ w.events[e']? = some (some ev') := by
    intro e' ev' h
    by_cases hlt : e' < w.events.length
    · rw [List.getElem?_append_left hlt] at h; exact .inr h
    · have h1 := (List.getElem?_eq_some_iff.1 h).1
      simp at h1
      have : e' = w.events.length := by omega
      subst this
      simp at h
      exact .inl ⟨rfl, h.symm⟩
  have hnone : ∀ h : Nat, s[h]? ≠ some (some w.events.length) := by
    intro h hh
    obtain ⟨ev, hev⟩ := hI.event h _ hh
    have := (List.getElem?_eq_some_iff.1 hev).1
    omega
  constructor
  · exact hI.len
  · exact hI.flag
  · intro e' ev' he'
    rcases hget e' ev' he' with ⟨rfl, rfl⟩ | he'
    · exact List.Pairwise.nil
    · exact hI.asc e' ev' he'
  · intro e' ev' he'
    rcases hget e' ev' he' with ⟨rfl, rfl⟩ | he'
    · exact List.Pairwise.nil
    · exact hI.nodup e' ev' he'
  · intro e' ev' he'
    rcases hget e' ev' he' with ⟨rfl, rfl⟩ | he'
    · intro h; simp [hnone]
    · exact hI.mem e' ev' he'
  · intro e' ev' he'
    rcases hget e' ev' he' with ⟨rfl, rfl⟩ | he'
    · intro h hm; cases hm
    · exact hI.type e' ev' he'
  · intro h e' hh
    obtain ⟨ev, hev⟩ := hI.event h _ hh
    refine ⟨ev, ?_⟩
    show (w.events ++ [some (⟨t, []⟩ : EventObj)])[e']? = _
    rw [List.getElem?_append_left (List.getElem?_eq_some_iff.1 hev).1]
    exact hev
  · have halive : ∀ h, World.Alive { w with events := w.events ++ [some ⟨t, []⟩] } h → w.Alive h := by
      rintro h (hx | ⟨e', ev', he', hm⟩)
      · exact .inl hx
      · rcases hget e' ev' he' with ⟨rfl, rfl⟩ | he'
        · cases hm
        · exact .inr ⟨e', ev', he', hm⟩
    intro h h' ha ha' heq
    exact hI.distinct h h' (halive h ha) (halive h' ha') heq

/-- no event is destroyed while handlers of it are still looked at -/
def Op.Keeps : Op → Prop
  | .destroyEvent _ => False
  | _ => True

theorem step_inv {w : World} {s : Subscriptions} (hI : Inv w s) {op : Op} (hk : op.Keeps) (hl : Legal w op) :
    ∃ r w' s', step w op = some (r, w') ∧ SubscriptionStep s op r s' ∧ Inv w' s' := by
  cases op with
  | newEvent t => exact ⟨_, _, s, rfl, .newEvent, step_newEvent hI⟩
  | destroyEvent e => exact hk.elim
  | add e a => exact step_add hI hl
  | remove e h => exact step_remove hI hl
  | isAttached h =>
    obtain ⟨impl, hi, hheld⟩ := hl
    have hlt := (List.getElem?_eq_some_iff.1 hi).1
    have hs : s[h]? = some (s[h]'(hI.len ▸ hlt)) := List.getElem?_eq_getElem _
    refine ⟨.flag impl.attached, w, s, by simp [step, hi, hheld], ?_, hI⟩
    have hf := hI.flag h impl hi
    cases hx : s[h]'(hI.len ▸ hlt) with
    | none =>
      rw [hx] at hs
      have : impl.attached = false := by
        cases ha : impl.attached with
        | false => rfl
        | true =>
          obtain ⟨e, he⟩ := hf.1 ha
          rw [hs] at he; cases he
      rw [this]; exact .detached hs
    | some e =>
      rw [hx] at hs
      rw [hf.2 ⟨e, hs⟩]; exact .attached hs
  | drop h => exact step_drop hI hl
  | raise e =>
    obtain ⟨ev, he⟩ := hl
    refine ⟨.calls ev.handlers, w, s, ?_, .raise (hI.nodup e ev he) (hI.mem e ev he), hI⟩
    simp only [step]
    rw [raiseLoop_id he _ 0 rfl]
    rfl

theorem run_inv {ops : List Op} : ∀ {w : World} {s : Subscriptions}, Inv w s → (∀ op ∈ ops, op.Keeps) → LegalRun w ops →
    ∃ rs w' s', run w ops = some (rs, w') ∧ SubscriptionRun s ops rs s' ∧ Inv w' s' := by
  induction ops with
  | nil => intro w s hI _ _; exact ⟨[], w, s, rfl, .nil, hI⟩
  | cons op ops ih =>
    intro w s hI hk hl
    obtain ⟨r, w1, s1, h1, hs1, hI1⟩ := step_inv hI (hk op (by simp)) hl.1
    obtain ⟨rs, w2, s2, h2, hs2, hI2⟩ := ih hI1 (fun o ho => hk o (by simp [ho])) (hl.2 r w1 h1)
    exact ⟨r :: rs, w2, s2, by simp [run, h1, h2], .cons hs1 hs2, hI2⟩

end Events

/-- **C49**, partial.  In every history in which no event is destroyed and callbacks do not change the event that is being raised:
raising calls exactly the attached handlers, each once; `IsAttached` is right; `Remove` succeeds exactly for handlers attached to this event
and detaches only them.  This holds for every choice of addresses by the allocator, also when addresses are used again.

Missing: see `C49_violated_remove`, `C49_violated_add`, `C49_violated_destroyed`. -/
theorem C49_history_partial (ops : List Op) (hk : ∀ op ∈ ops, op.Keeps) (hl : LegalRun {} ops) :
    ∃ rs w s, run {} ops = some (rs, w) ∧ SubscriptionRun [] ops rs s := by
  obtain ⟨rs, w, s, h, hs, _⟩ := run_inv Inv.empty hk hl
  exact ⟨rs, w, s, h, hs⟩

/-- **C49**, partial.  Callbacks may do everything (adding, removing, ...) to other events and handlers: if they leave the handlers of the raised event
alone, then after every history each attached handler is called exactly once. -/
theorem C49_raise_partial (ops : List Op) (hk : ∀ op ∈ ops, op.Keeps) (hl : LegalRun {} ops) (e : Nat)
    (act : Nat → World → Option World) :
    ∃ rs w s, run {} ops = some (rs, w) ∧ SubscriptionRun [] ops rs s ∧
      ((∃ ev, w.events[e]? = some (some ev)) →
        (∀ h w1, w1.events[e]? = w.events[e]? → ∃ w2, act h w1 = some w2 ∧ w2.events[e]? = w.events[e]?) →
        ∃ hs w', raiseLoop act w e 0 = some (hs, w') ∧ hs.Nodup ∧ (∀ h, h ∈ hs ↔ s[h]? = some (some e)) ∧
          w'.events[e]? = w.events[e]?) := by
  obtain ⟨rs, w, s, h, hs, hI⟩ := run_inv Inv.empty hk hl
  refine ⟨rs, w, s, h, hs, ?_⟩
  rintro ⟨ev, he⟩ hact
  rw [he] at hact ⊢
  obtain ⟨w', h1, h2⟩ := raiseLoop_spec (fun h _ w1 hw1 => hact h w1 hw1) _ 0 w rfl he
  exact ⟨ev.handlers, w', h1, hI.nodup e ev he, hI.mem e ev he, h2⟩

/-- **C49** is violated: when a callback removes its own handler, the next handler is not called, in every state, for every event with two or more handlers. -/
theorem C49_violated_remove (w : World) (s : Subscriptions) (hI : Inv w s) (e x y t : Nat) (rest : List Nat)
    (he : w.events[e]? = some (some ⟨t, x :: y :: rest⟩)) (hheld : (w.handlers[x]?.map (·.held)) = some true) :
    ∃ w', raiseLoop (fun h w => if h = x then (remove w e x).map (·.2) else some w) w e 0 = some (x :: rest, w') ∧
      y ∉ x :: rest ∧ s[y]? = some (some e) ∧ w'.events[e]? = some (some ⟨t, y :: rest⟩) := by
  have hnd := hI.nodup e _ he
  have hsx : s[x]? = some (some e) := (hI.mem e _ he x).1 (by simp)
  have hsy : s[y]? = some (some e) := (hI.mem e _ he y).1 (by simp)
  obtain ⟨impl, hi, hh⟩ : ∃ impl, w.handlers[x]? = some impl ∧ impl.held = true := by
    cases hx : w.handlers[x]? with
    | none => rw [hx] at hheld; cases hheld
    | some impl => rw [hx] at hheld; exact ⟨impl, rfl, by simpa using hheld⟩
  have haddr0 : w.address x = impl.address := by simp [World.address, hi]
  have ht : impl.type = t := hI.type e _ he x (by simp) impl hi
  have helt : e < w.events.length := (List.getElem?_eq_some_iff.1 he).1
  have hrem : ∃ w1, remove w e x = some (true, w1) ∧ w1.events[e]? = some (some ⟨t, y :: rest⟩) := by
    rcases SortedSeq.indexOf_spec (cmp_compares w) (hI.asc e _ he) impl.address with ⟨i, hilt, hix, heq⟩ | ⟨hix, hno⟩
    · have h1 : w.address ((x :: y :: rest)[i]) = w.address x := by rw [haddr0]; exact Std.LawfulEqCmp.eq_of_compare heq
      have hi0 := hI.distinct _ _ (.inr ⟨e, _, he, List.getElem_mem hilt⟩) (.inl ⟨impl, hi, hh⟩) h1
      have : i = 0 := by
        refine (List.getElem_inj (h₀ := hilt) (h₁ := by simp) hnd).1 ?_
        exact hi0
      subst this
      have hr : SortedSeq.removeAt ((0 : Nat) : Int) (x :: y :: rest) = .ok true (y :: rest) := by
        unfold SortedSeq.removeAt
        rw [Cpp.bind_ok (Cpp.get_apply _), Cpp.bind_ok (Cpp.check_true (by simp; omega) _)]
        rfl
      refine ⟨⟨w.handlers.set x { impl with attached := false }, w.events.set e (some ⟨t, y :: rest⟩)⟩, ?_, List.getElem?_set_self helt⟩
      simp only [remove, he, hi, Option.join_some, hh, ht, hix]
      simp only [hr]
      simp
    · exact absurd (by rw [haddr0]; exact Std.ReflCmp.compare_self (cmp := (compare : Nat → Nat → Ordering))) (hno x (by simp))
  obtain ⟨w1, hr, he1⟩ := hrem
  simp only [List.nodup_cons, List.mem_cons, not_or] at hnd
  obtain ⟨w2, h2, he2⟩ : ∃ w', raiseLoop (fun h w => if h = x then (remove w e x).map (·.2) else some w) w1 e 1 =
      some ((⟨t, y :: rest⟩ : EventObj).handlers.drop 1, w') ∧ w'.events[e]? = some (some ⟨t, y :: rest⟩) := by
    refine raiseLoop_spec ?_ _ 1 w1 rfl he1
    intro h hm w0 hw0
    refine ⟨w0, ?_, hw0⟩
    have : h ≠ x := by
      rintro rfl
      rcases List.mem_cons.1 hm with hm | hm
      · exact hnd.1.1 hm
      · exact hnd.1.2 hm
    simp [this]
  refine ⟨w2, ?_, ?_, hsy, he2⟩
  · rw [raiseLoop.eq_def, he]
    simp only [Option.join_some, List.getElem?_cons_zero]
    simp only [if_true, hr, Option.map_some, Option.bind_eq_bind, Option.bind_some]
    rw [show (0 + 1 : Nat) = 1 from rfl, h2]
    rfl
  · simp only [List.mem_cons, not_or]
    exact ⟨fun h => hnd.1.1 h.symm, hnd.2.1⟩

/-- **C49** is violated: a destroyed event leaves its handlers attached, in every state, for every handler of it that the program still has. -/
theorem C49_violated_destroyed (w : World) (s : Subscriptions) (hI : Inv w s) (e h : Nat) (hs : s[h]? = some (some e))
    (hheld : (w.handlers[h]?.map (·.held)) = some true) :
    ∃ w' s', step w (.destroyEvent e) = some (.unit, w') ∧ SubscriptionStep s (.destroyEvent e) .unit s' ∧
      step w' (.isAttached h) = some (.flag true, w') ∧ SubscriptionStep s' (.isAttached h) (.flag false) s' := by
  obtain ⟨impl, hi, hh⟩ : ∃ impl, w.handlers[h]? = some impl ∧ impl.held = true := by
    cases hx : w.handlers[h]? with
    | none => rw [hx] at hheld; cases hheld
    | some impl => rw [hx] at hheld; exact ⟨impl, rfl, by simpa using hheld⟩
  obtain ⟨ev, he⟩ := hI.event h e hs
  refine ⟨{ w with events := w.events.set e none }, _, by simp only [step, he, Option.join_some, Option.map_some],
    .destroyEvent, ?_, .detached ?_⟩
  · simp only [step, hi, hh]
    rw [(hI.flag h impl hi).2 ⟨e, hs⟩]
    rfl
  · rw [List.getElem?_map, hs]
    simp

/-- **C49** is violated: when the callback of the only handler `x` adds a handler and the allocator puts it at a lower address than `x`,
then `x` is called twice (and the new handler is not called), in every state.  The callback adds a handler only the first time. -/
theorem C49_violated_add (w : World) (s : Subscriptions) (hI : Inv w s) (e x t a : Nat)
    (he : w.events[e]? = some (some ⟨t, [x]⟩)) (ha : a < w.address x) :
    ∃ w', raiseLoop (fun _ w1 => if w1 = w then (add w e a).map (·.2) else some w1) w e 0 = some ([x, x], w') ∧
      w'.events[e]? = some (some ⟨t, [w.handlers.length, x]⟩) := by
  have hx : x < w.handlers.length := hI.lt (.inr ⟨e, _, he, by simp⟩)
  have helt : e < w.events.length := (List.getElem?_eq_some_iff.1 he).1
  let w1 : World := { w with handlers := w.handlers ++ [⟨a, t, true, true⟩] }
  have h1 : w1.address x = w.address x := address_append hx
  have h2 : w1.address w.handlers.length = a := address_append_new
  let w2 : World := { w1 with events := w.events.set e (some ⟨t, [w.handlers.length, x]⟩) }
  have hadd : add w e a = some (w.handlers.length, w2) := by
    simp only [add, he, Option.join_some]
    obtain ⟨p, hp, hadd, hb, hafter⟩ := SortedSeq.add_spec (cmp_compares w1) (xs := [x]) (by simp [Spec.Ascending]) w.handlers.length
    have : p = 0 := by
      refine Classical.byContradiction fun hc => ?_
      refine hb 0 (by omega) (by simp) ?_
      simp only [List.getElem_cons_zero, h1, h2]
      exact Nat.compare_eq_gt.2 ha
    subst this
    rw [hadd]
    rfl
  have he2 : w2.events[e]? = some (some ⟨t, [w.handlers.length, x]⟩) := List.getElem?_set_self helt
  have hne : w2 ≠ w := by
    intro h
    have := congrArg (fun v => v.handlers.length) h
    simp [w2, w1] at this
  refine ⟨w2, ?_, he2⟩
  rw [raiseLoop.eq_def, he]
  simp only [Option.join_some, List.getElem?_cons_zero, if_true, hadd, Option.map_some, Option.bind_eq_bind, Option.bind_some]
  rw [raiseLoop.eq_def, he2]
  simp only [Option.join_some, Nat.zero_add, List.getElem?_cons_succ, List.getElem?_cons_zero, hne, if_false, Option.bind_eq_bind,
    Option.bind_some]
  rw [raiseLoop.eq_def, he2]
  simp

/-! Non-vacuity: two events of one type and one of another; handlers at descending addresses, a removed and dropped handler whose address is used again,
removal from the wrong event and from an event of another type. -/
namespace Events

/-- operations and the answers -/
def exampleHistory : List (Op × Ret) :=
  [(.newEvent 7, .unit), (.newEvent 7, .unit), (.newEvent 8, .unit), (.add 0 30, .handler 0), (.add 0 20, .handler 1),
   (.add 1 10, .handler 2), (.add 0 25, .handler 3), (.remove 1 0, .flag false), (.remove 2 0, .flag false),
   (.raise 0, .calls [1, 3, 0]), (.remove 0 1, .flag true), (.isAttached 1, .flag false), (.isAttached 0, .flag true),
   (.remove 0 1, .flag false), (.drop 1, .unit), (.add 0 20, .handler 4), (.raise 0, .calls [4, 3, 0]), (.raise 1, .calls [2])]

/-- `step` without the loop -/
def quickStep (w : World) : Op → Option (Ret × World)
  | .raise e => w.events[e]?.join.map fun ev => (.calls ev.handlers, w)
  | op => step w op

theorem quickStep_eq (w : World) (op : Op) : step w op = quickStep w op := by
  cases op with
  | raise e =>
    simp only [step, quickStep]
    cases he : w.events[e]?.join with
    | none => rw [raiseLoop.eq_def, he]; rfl
    | some ev => rw [raiseLoop_id (Option.join_eq_some_iff.1 he) _ 0 rfl]; rfl
  | _ => rfl

/-- a check of `Legal` -/
def legalCheck (w : World) : Op → Bool
  | .newEvent _ => true
  | .destroyEvent e => (w.events[e]?.join).isSome
  | .add e a => (w.events[e]?.join).isSome && w.handlers.all (fun x => !x.held || x.address != a) &&
    w.events.all fun ev => match ev with | none => true | some ev => ev.handlers.all fun h => w.address h != a
  | .remove e h => (w.events[e]?.join).isSome && w.handlers[h]?.any (·.held)
  | .isAttached h => w.handlers[h]?.any (·.held)
  | .drop h => w.handlers[h]?.any (·.held)
  | .raise e => (w.events[e]?.join).isSome

theorem legalCheck_sound {w : World} {op : Op} (h : legalCheck w op = true) : Legal w op := by
  have hev : ∀ e : Nat, (w.events[e]?.join).isSome = true → ∃ ev, w.events[e]? = some (some ev) := by
    intro e he
    obtain ⟨ev, h⟩ := Option.isSome_iff_exists.1 he
    exact ⟨ev, Option.join_eq_some_iff.1 h⟩
  have hh : ∀ x : Nat, w.handlers[x]?.any (·.held) = true → ∃ impl, w.handlers[x]? = some impl ∧ impl.held = true := by
    intro x hx
    cases hg : w.handlers[x]? with
    | none => simp [hg] at hx
    | some impl => exact ⟨impl, rfl, by simpa [hg] using hx⟩
  cases op with
  | newEvent t => trivial
  | destroyEvent e => exact hev e h
  | add e a =>
    simp only [legalCheck, Bool.and_eq_true] at h
    refine ⟨hev e h.1.1, ?_⟩
    rintro x (⟨impl, hi, hheld⟩ | ⟨e', ev, he, hm⟩)
    · have := List.all_eq_true.1 h.1.2 impl (List.mem_of_getElem? hi)
      simp [hheld] at this
      simpa [World.address, hi] using this
    · have := List.all_eq_true.1 h.2 _ (List.mem_of_getElem? he)
      simp only [List.all_eq_true] at this
      simpa using this x hm
  | remove e x =>
    simp only [legalCheck, Bool.and_eq_true] at h
    exact ⟨hev e h.1, hh x h.2⟩
  | isAttached x => exact hh x h
  | drop x => exact hh x h
  | raise e => exact hev e h

/-- a check of a history -/
def historyCheck (w : World) : List (Op × Ret) → Bool
  | [] => true
  | (op, r) :: ops => legalCheck w op && match quickStep w op with
    | none => false
    | some (r', w') => r' == r && historyCheck w' ops

theorem historyCheck_sound {ops : List (Op × Ret)} : ∀ {w : World}, historyCheck w ops = true →
    LegalRun w (ops.map (·.1)) ∧ ∃ w', run w (ops.map (·.1)) = some (ops.map (·.2), w') := by
  induction ops with
  | nil => intro w _; exact ⟨trivial, w, rfl⟩
  | cons x ops ih =>
    obtain ⟨op, r⟩ := x
    intro w h
    simp only [historyCheck, Bool.and_eq_true] at h
    cases hq : quickStep w op with
    | none => simp [hq] at h
    | some y =>
      obtain ⟨r', w'⟩ := y
      simp only [hq, Bool.and_eq_true, beq_iff_eq] at h
      obtain ⟨h1, rfl, h2⟩ := h
      obtain ⟨h3, w2, h4⟩ := ih h2
      refine ⟨⟨legalCheck_sound h1, ?_⟩, w2, ?_⟩
      · intro r2 w3 h5
        rw [quickStep_eq, hq] at h5
        cases h5
        exact h3
      · simp [run, quickStep_eq, hq, h4]

end Events

example : LegalRun {} (exampleHistory.map (·.1)) ∧ ∃ w', run {} (exampleHistory.map (·.1)) = some (exampleHistory.map (·.2), w') :=
  historyCheck_sound (by decide +kernel)

example : ∀ op ∈ exampleHistory.map (·.1), op.Keeps := by simp [exampleHistory, Op.Keeps]

/-! The states of the violations are reachable. -/
example : ∃ w s, Inv w s ∧ w.events[0]? = some (some ⟨7, [1, 0]⟩) ∧ (w.handlers[1]?.map (·.held)) = some true := by
  have hc := historyCheck_sound (w := {}) (ops := [(.newEvent 7, .unit), (.add 0 20, .handler 0), (.add 0 10, .handler 1)]) (by decide +kernel)
  obtain ⟨rs, w, s, h, _, hI⟩ := run_inv Inv.empty (by simp [Op.Keeps]) hc.1
  have hw : run {} [.newEvent 7, .add 0 20, .add 0 10] = some ([.unit, .handler 0, .handler 1],
    ⟨[⟨20, 7, true, true⟩, ⟨10, 7, true, true⟩], [some ⟨7, [1, 0]⟩]⟩) := by decide +kernel
  have h' : run {} [.newEvent 7, .add 0 20, .add 0 10] = some (rs, w) := h
  rw [hw] at h'
  cases h'
  exact ⟨_, s, hI, rfl, rfl⟩

/-! ## Arguments -/

section Arguments
variable {V : Type}

/-- the values that the caller passes -/
def passedValues (args : List (Arg V)) : List V := args.map (·.now)

/-- **C50**, partial.  Every handler receives the values that the caller passed, for every number of handlers and every list of arguments,
if each argument is an lvalue or declared as a `const` reference or of a type whose values survive being moved away.

Missing: see `C50_violated`. -/
theorem C50_same_partial (moved : V → V) (args : List (Arg V)) (n : Nat)
    (h : ∀ a ∈ args, a.passed = .lvalue ∨ a.param = .constRef ∨ moved a.now = a.now) :
    raiseArgs moved args n = List.replicate n (passedValues args) := by
  have hkeep : ∀ a ∈ args, a.receive moved = (a.now, a) := by
    intro a ha
    obtain ⟨p, q, v⟩ := a
    rcases h _ ha with h | h | h <;> cases p <;> cases q <;> simp_all [Arg.receive]
  have h1 : (args.map fun a => (a.receive moved).1) = passedValues args :=
    List.map_congr_left fun a ha => by rw [hkeep a ha]
  have h2 : (args.map fun a => (a.receive moved).2) = args := by
    conv => rhs; rw [← List.map_id args]
    exact List.map_congr_left fun a ha => by rw [hkeep a ha]; rfl
  induction n with
  | zero => rfl
  | succ n ih => rw [raiseArgs, h1, h2, ih, List.replicate_succ]; rfl

/-- a value after it was moved away `k` times -/
def movedAway (moved : V → V) : (k : Nat) → V → V
  | 0, v => v
  | k + 1, v => movedAway moved k (moved v)

/-- **C50** is violated: the `k`-th handler (counting from 0) receives a temporary after it was moved away `k` times, for every list of arguments,
every number of handlers and every parameter that is declared by value. -/
theorem C50_violated (moved : V → V) (n : Nat) : ∀ (args : List (Arg V)) (k i : Nat) (v : V), k < n →
    args[i]? = some ⟨.value, .temporary, v⟩ →
    ∃ received, (raiseArgs moved args n)[k]? = some received ∧ received[i]? = some (movedAway moved k v) := by
  induction n with
  | zero => intro args k i v hk; omega
  | succ n ih =>
    intro args k i v hk ha
    cases k with
    | zero =>
      refine ⟨_, rfl, ?_⟩
      simp [invoke, ha, Arg.receive, movedAway]
    | succ k =>
      have := ih (args.map fun a => (a.receive moved).2) k i (moved v) (by omega) (by simp [ha, Arg.receive])
      simpa [raiseArgs, movedAway] using this

/-- **C50** is violated for every value that does not survive being moved away, as soon as there are two handlers. -/
theorem C50_violated_two (moved : V → V) (args : List (Arg V)) (n i : Nat) (v : V) (hn : 2 ≤ n) (hv : moved v ≠ v)
    (ha : args[i]? = some ⟨.value, .temporary, v⟩) :
    ∃ r0 r1, (raiseArgs moved args n)[0]? = some r0 ∧ (raiseArgs moved args n)[1]? = some r1 ∧ r0 ≠ r1 := by
  obtain ⟨r0, h0, h0'⟩ := C50_violated moved n args 0 i v (by omega) ha
  obtain ⟨r1, h1, h1'⟩ := C50_violated moved n args 1 i v (by omega) ha
  refine ⟨r0, r1, h0, h1, ?_⟩
  rintro rfl
  rw [h0'] at h1'
  exact hv (Option.some.inj h1').symm

/-! Strings are empty after being moved away: three handlers, two arguments. -/
example : raiseArgs (fun _ => "") [⟨.value, .lvalue, "a"⟩, ⟨.constRef, .temporary, "b"⟩] 3 = [["a", "b"], ["a", "b"], ["a", "b"]] := by
  decide
example : raiseArgs (fun _ => "") [⟨.value, .lvalue, "a"⟩, ⟨.value, .temporary, "b"⟩] 3 = [["a", "b"], ["a", ""], ["a", ""]] := by
  decide

end Arguments

end Vlpp
