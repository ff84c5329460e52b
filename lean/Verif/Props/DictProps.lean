import Verif.Lemmas.DictC

/-!
# Property C09: `Dictionary` is a finite map
-/
set_option autoImplicit false
namespace Vlpp
variable {κ ν : Type}

/-- **C09.** For every total (pre)order of keys and every history of calls on a new dictionary: no undefined behaviour;
every result and error is that of the finite map; and at the end `Keys()` is strictly ascending, `Values()` are the
corresponding values, so that `Count()` is the number of distinct keys. -/
theorem C09_dictionary {cmp : κ → κ → Option Ordering} {ord : κ → κ → Ordering} [Std.TransCmp ord]
    (hcmp : ∀ a b, cmp a b = some (ord a b)) (ops : List (Spec.MapOp κ ν)) :
    ∃ s, DictC.run cmp DictC.empty ops = some (s, (Spec.mapRun ord (fun _ => none) ops).2) ∧
      Spec.Lists ord (Spec.mapRun ord (fun _ => none) ops).1 s.keys s.values ∧
      s.count = s.keys.length := by
  obtain ⟨s, e, h⟩ := DictC.run_refines hcmp ops (m := fun _ => none) (s := DictC.empty) Spec.Lists.empty
  exact ⟨s, e, h, rfl⟩

example : ∃ s, DictC.run (fun a b : Int => some (compare a b)) DictC.empty
      [.add 3 "c", .add 1 "a", .add 3 "x", .set 1 "A", .get 1, .get 2, .remove 1, .contains 1] =
      some (s, [.flag true, .flag true, .error, .flag true, .value "A", .error, .flag true, .flag false]) := by
  obtain ⟨s, e, _⟩ := C09_dictionary (cmp := fun a b : Int => some (compare a b)) (fun _ _ => rfl)
    [.add 3 "c", .add 1 "a", .add 3 "x", .set 1 "A", .get 1, .get 2, .remove 1, .contains 1]
  exact ⟨s, e⟩

/-- An error leaves the dictionary unchanged, from any state that stores a map. -/
theorem C09_error_unchanged {cmp : κ → κ → Option Ordering} {ord : κ → κ → Ordering} [Std.TransCmp ord]
    (hcmp : ∀ a b, cmp a b = some (ord a b)) {m : κ → Option ν} {s s' : DictC κ ν}
    (h : Spec.Lists ord m s.keys s.values) (op : Spec.MapOp κ ν) (he : DictC.step cmp s op = some (s', .error)) :
    ((∃ k v, op = .add k v ∧ (m k).isSome) ∨ (∃ k, op = .get k ∧ m k = none)) ∧ s' = s := by
  obtain ⟨s1, e1, h1⟩ := DictC.step_refines hcmp h op
  have hl := h.length
  rw [e1] at he
  have hr : (Spec.mapStep ord m op).2 = .error := by simpa using (congrArg (Option.map Prod.snd) he)
  have hs : s1 = s' := by simpa using (congrArg (Option.map Prod.fst) he)
  subst hs
  have hasc := strict_ascending h.ascending
  cases op with
  | add k v =>
    simp only [Spec.mapStep] at hr
    split at hr
    · next hs =>
      refine ⟨.inl ⟨k, v, rfl, hs⟩, ?_⟩
      simp only [DictC.step] at e1
      unfold DictC.add at e1
      rcases DictC.contains_spec hcmp hasc k with ⟨e, hex⟩ | ⟨e, hne⟩
      · rw [Cpp.bind_ok (DictC.onKeys_ok e), Cpp.bind_err (Cpp.check_false (by simp) _)] at e1
        simpa [DictC.observe] using (congrArg (Option.map Prod.fst) e1).symm
      · obtain ⟨x, hx, he⟩ := (Spec.Lists.isSome_iff h k).1 hs
        exact absurd he (hne x hx)
    · cases hr
  | set k v => cases hr
  | get k =>
    simp only [Spec.mapStep] at hr
    cases hm : m k with
    | some v => rw [hm] at hr; cases hr
    | none =>
      simp only [DictC.step] at e1
      unfold DictC.get at e1
      rcases SortedSeq.indexOf_spec (KeyCmp.compares hcmp) hasc k with ⟨i, hi, e, heq⟩ | ⟨e, hne⟩
      · exfalso
        have := (Spec.Lists.isSome_iff h k).2 ⟨_, List.getElem_mem hi, heq⟩
        rw [hm] at this; cases this
      · rw [Cpp.bind_ok (DictC.onKeys_ok e), DictC.onValues_err (SeqList.get_err (by omega))] at e1
        exact ⟨.inr ⟨k, rfl, hm⟩, by simpa [DictC.observe] using (congrArg (Option.map Prod.fst) e1).symm⟩
  | remove k => simp only [Spec.mapStep] at hr; split at hr <;> cases hr
  | clear => cases hr
  | contains k => cases hr

example : ∃ (m : Int → Option String) (s s' : DictC Int String), Spec.Lists compare m s.keys s.values ∧
    DictC.step (fun a b : Int => some (compare a b)) s (.add 1 "b") = some (s', .error) := by
  obtain ⟨s, _, h, _⟩ := C09_dictionary (cmp := fun a b : Int => some (compare a b)) (fun _ _ => rfl) [.add 1 "a"]
  obtain ⟨s', e, _⟩ := DictC.step_refines (cmp := fun a b : Int => some (compare a b)) (fun _ _ => rfl) h (.add 1 "b")
  exact ⟨_, s, s', h, e⟩

end Vlpp
