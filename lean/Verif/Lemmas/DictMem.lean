import Verif.Model.DictMem
import Verif.Lemmas.DictC
import Verif.Lemmas.Refines
import Verif.Props.ListProps

/-! # The dictionary in memory does what the dictionary of sequences does -/
set_option autoImplicit false
namespace Vlpp
namespace DictM
variable {κ ν : Type}

/-- the members store the sequences -/
structure Rep (d : DictM κ ν) (s : DictC κ ν) : Prop where
  keys : ListC.Repr d.keys s.keys
  values : ListC.Repr d.values s.values

theorem onKeys_refines {β : Type} {m : Cpp (ListC κ) β} {m' : Cpp (List κ) β} (h : Cpp.Refines ListC.Repr m m') :
    Cpp.Refines Rep (onKeys (ν := ν) m) (DictC.onKeys m') := by
  intro d s hr
  have := h _ _ hr.keys
  unfold onKeys DictC.onKeys
  generalize m d.keys = o at this
  generalize m' s.keys = o' at this
  cases this with
  | ok h => exact .ok ⟨h, hr.values⟩
  | err h => exact .err ⟨h, hr.values⟩
  | fault => exact .fault

theorem onValues_refines {β : Type} {m : Cpp (ListC ν) β} {m' : Cpp (List ν) β} (h : Cpp.Refines ListC.Repr m m') :
    Cpp.Refines Rep (onValues (κ := κ) m) (DictC.onValues m') := by
  intro d s hr
  have := h _ _ hr.values
  unfold onValues DictC.onValues
  generalize m d.values = o at this
  generalize m' s.values = o' at this
  cases this with
  | ok h => exact .ok ⟨hr.keys, h⟩
  | err h => exact .err ⟨hr.keys, h⟩
  | fault => exact .fault

open Cpp.Refines in
section
variable (mk : Option κ → Option κ) (mv : Option ν → Option ν) (cmp : κ → κ → Option Ordering)

theorem set_refines (k : κ) (v : ν) : Cpp.Refines Rep (set mk mv cmp k (.value v)) (DictC.set cmp k v) := by
  refine bind (onKeys_refines (ListC.indexOf_refines cmp k)) fun i => ?_
  split
  · exact bind (onKeys_refines (ListC.sortedAdd_refines mk cmp id k)) fun j =>
      bind (onValues_refines (ListC.insert_refines mv j v)) fun _ => pure _
  · exact bind (onValues_refines (ListC.setAt_refines i v)) fun _ => pure _

theorem add_refines (k : κ) (v : ν) : Cpp.Refines Rep (add mk mv cmp k (.value v)) (DictC.add cmp k v) :=
  bind (onKeys_refines (ListC.contains_refines cmp k)) fun _ => bind (check _) fun _ =>
    bind (onKeys_refines (ListC.sortedAdd_refines mk cmp id k)) fun j =>
      bind (onValues_refines (ListC.insert_refines mv j v)) fun _ => pure _

theorem get_refines (k : κ) : Cpp.Refines Rep (get (ν := ν) cmp k) (DictC.get cmp k) :=
  bind (onKeys_refines (ListC.indexOf_refines cmp k)) fun i => onValues_refines (ListC.get_refines i)

theorem remove_refines (k : κ) : Cpp.Refines Rep (remove mk mv cmp k) (DictC.remove cmp k) := by
  refine bind (onKeys_refines (ListC.indexOf_refines cmp k)) fun i => ?_
  split
  · exact bind (onKeys_refines (ListC.sortedRemoveAt_refines mk i)) fun _ =>
      bind (onValues_refines (ListC.removeAt_refines mv i)) fun _ => pure _
  · exact pure _

theorem clear_refines : Cpp.Refines Rep (clear (κ := κ) (ν := ν)) DictC.clear :=
  bind (onKeys_refines ListC.clear_refines) fun _ => bind (onValues_refines ListC.clear_refines) fun _ => pure _

theorem contains_refines (k : κ) : Cpp.Refines Rep (contains (ν := ν) cmp k) (DictC.contains cmp k) :=
  onKeys_refines (ListC.contains_refines cmp k)

theorem observe_refines {β : Type} {o : Outcome (DictM κ ν) β} {o' : Outcome (DictC κ ν) β} (h : Refines Rep o o')
    (ret : β → Spec.MapRet ν) {s' : DictC κ ν} {r : Spec.MapRet ν} (e : DictC.observe ret o' = some (s', r)) :
    ∃ d', observe ret o = some (d', r) ∧ Rep d' s' := by
  cases h with
  | ok h => cases e; exact ⟨_, rfl, h⟩
  | err h => cases e; exact ⟨_, rfl, h⟩
  | fault => cases e

theorem step_refines {d : DictM κ ν} {s s' : DictC κ ν} (hr : Rep d s) (op : Spec.MapOp κ ν) {r : Spec.MapRet ν}
    (e : DictC.step cmp s op = some (s', r)) : ∃ d', step mk mv cmp d op = some (d', r) ∧ Rep d' s' := by
  cases op with
  | add k v => exact observe_refines (add_refines mk mv cmp k v d s hr) _ e
  | set k v => exact observe_refines (set_refines mk mv cmp k v d s hr) _ e
  | get k => exact observe_refines (get_refines cmp k d s hr) _ e
  | remove k => exact observe_refines (remove_refines mk mv cmp k d s hr) _ e
  | clear => exact observe_refines (clear_refines d s hr) _ e
  | contains k => exact observe_refines (contains_refines cmp k d s hr) _ e

end

/-- the dictionary in memory stores the map `m` -/
def Stores (ord : κ → κ → Ordering) (d : DictM κ ν) (m : κ → Option ν) : Prop :=
  ∃ s, Rep d s ∧ Spec.Lists ord m s.keys s.values

theorem stores_empty {ord : κ → κ → Ordering} : Stores ord (empty : DictM κ ν) (fun _ => none) :=
  ⟨DictC.empty, ⟨ListC.Repr.empty, ListC.Repr.empty⟩, Spec.Lists.empty⟩

theorem destructor_ok {d : DictM κ ν} {s : DictC κ ν} (h : Rep d s) : destructor d = .ok () d := by
  unfold destructor
  rw [Cpp.bind_ok (a := ()) (s' := d) (by simp [onValues, ListC.destructor_ok h.values])]
  simp [onKeys, ListC.destructor_ok h.keys]

theorem moveAssign_ok {d e : DictM κ ν} {s : DictC κ ν} (h : Rep d s) :
    moveAssign d e = some (e, empty) := by
  simp [moveAssign, ListC.moveAssign, ListC.destructor_ok h.keys, ListC.destructor_ok h.values, empty]

theorem moveAssignSelf_ok {d : DictM κ ν} {s : DictC κ ν} (h : Rep d s) : moveAssignSelf d = .ok () empty := by
  unfold moveAssignSelf
  have e1 : ListC.moveAssignSelf d.keys = .ok () ListC.empty := by
    unfold ListC.moveAssignSelf; rw [Cpp.bind_ok (ListC.destructor_ok h.keys)]; rfl
  have e2 : ListC.moveAssignSelf d.values = .ok () ListC.empty := by
    unfold ListC.moveAssignSelf; rw [Cpp.bind_ok (ListC.destructor_ok h.values)]; rfl
  rw [Cpp.bind_ok (a := ()) (s' := ⟨ListC.empty, d.values⟩) (by simp [onKeys, e1])]
  simp [onValues, e2, empty]

theorem worldStep_refines (mk : Option κ → Option κ) (mv : Option ν → Option ν) {cmp : κ → κ → Option Ordering}
    {ord : κ → κ → Ordering} [Std.TransCmp ord] (hcmp : ∀ a b, cmp a b = some (ord a b)) {w : Nat → DictM κ ν}
    {ms : Nat → κ → Option ν} (h : ∀ n, Stores ord (w n) (ms n)) (op : Spec.MoveOp (Spec.MapOp κ ν)) :
    let r := Spec.moveStep (Spec.mapStep ord) (fun _ => none) (.flag true) .error ms op
    ∃ w', worldStep mk mv cmp w op = some (w', r.2) ∧ ∀ n, Stores ord (w' n) (r.1 n) := by
  intro r
  cases op with
  | call i op =>
    obtain ⟨s, hr, hl⟩ := h i
    obtain ⟨s', e, hl'⟩ := DictC.step_refines hcmp hl op
    obtain ⟨d', e', hr'⟩ := step_refines mk mv cmp hr op e
    refine ⟨fun n => if n = i then d' else w n, by simp [worldStep, e', r, Spec.moveStep], ?_⟩
    intro n
    simp only [r, Spec.moveStep]
    split
    · exact ⟨s', hr', hl'⟩
    · exact h n
  | moveAssign i j =>
    obtain ⟨s, hr, hl⟩ := h i
    by_cases hij : i = j
    · subst hij
      refine ⟨fun n => if n = i then empty else w n, by simp [worldStep, moveAssignSelf_ok hr, r, Spec.moveStep], ?_⟩
      intro n
      simp only [r, Spec.moveStep]
      split
      · exact stores_empty
      · exact h n
    · refine ⟨fun n => if n = i then w j else if n = j then empty else w n,
        by simp [worldStep, hij, moveAssign_ok hr, r, Spec.moveStep], ?_⟩
      intro n
      simp only [r, Spec.moveStep]
      by_cases hi : n = i
      · subst hi; simpa [hij] using h j
      · by_cases hj : n = j
        · simp only [hj, Ne.symm hij, if_false, if_true]; exact stores_empty
        · simp only [hi, hj, if_false]; exact h n
  | moveConstruct i j =>
    obtain ⟨s, hr, hl⟩ := h i
    by_cases hij : i = j
    · exact ⟨w, by simp [worldStep, hij, r, Spec.moveStep], by simpa [r, Spec.moveStep, hij] using h⟩
    · refine ⟨fun n => if n = i then w j else if n = j then empty else w n,
        by simp [worldStep, hij, destructor_ok hr, moveConstruct, ListC.moveConstruct, empty, r, Spec.moveStep], ?_⟩
      intro n
      simp only [r, Spec.moveStep, hij, if_false]
      by_cases hi : n = i
      · subst hi; simpa [hij] using h j
      · by_cases hj : n = j
        · simp only [hj, Ne.symm hij, if_false, if_true]; exact stores_empty
        · simp only [hi, hj, if_false]; exact h n
  | renew i =>
    obtain ⟨s, hr, hl⟩ := h i
    refine ⟨fun n => if n = i then empty else w n, by simp [worldStep, destructor_ok hr, r, Spec.moveStep], ?_⟩
    intro n
    simp only [r, Spec.moveStep]
    split
    · exact stores_empty
    · exact h n

end DictM
end Vlpp
