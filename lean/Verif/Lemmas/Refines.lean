import Verif.Lemmas.SortedListC
import Verif.Lemmas.SeqList

/-! # Simulation between two models of the same code -/
set_option autoImplicit false
namespace Vlpp
variable {σ τ β γ : Type}

/-- Same result or both errors, in related states; nothing is said if the abstract run has undefined behaviour. -/
inductive Refines (R : σ → τ → Prop) : Outcome σ β → Outcome τ β → Prop where
  | ok {v s t} : R s t → Refines R (.ok v s) (.ok v t)
  | err {s t} : R s t → Refines R (.err s) (.err t)
  | fault {o} : Refines R o .fault

/-- `m` does what `m'` does from related states. -/
def Cpp.Refines (R : σ → τ → Prop) (m : Cpp σ β) (m' : Cpp τ β) : Prop := ∀ s t, R s t → Vlpp.Refines R (m s) (m' t)

namespace Cpp.Refines
variable {R : σ → τ → Prop}

theorem bind {m : Cpp σ β} {m' : Cpp τ β} {f : β → Cpp σ γ} {f' : β → Cpp τ γ} (h : Cpp.Refines R m m')
    (hf : ∀ v, Cpp.Refines R (f v) (f' v)) : Cpp.Refines R (m >>= f) (m' >>= f') := by
  intro s t hr
  have := h s t hr
  rw [Cpp.bind_apply, Cpp.bind_apply]
  generalize m s = o at this
  generalize m' t = o' at this
  cases this with
  | ok hr => exact hf _ _ _ hr
  | err hr => exact .err hr
  | fault => exact .fault

theorem pure (v : β) : Cpp.Refines R (Pure.pure v : Cpp σ β) (Pure.pure v : Cpp τ β) := fun _ _ hr => .ok hr

theorem check (c : Prop) [Decidable c] : Cpp.Refines R (Cpp.check c) (Cpp.check c) := by
  intro s t hr
  rw [Cpp.check_apply, Cpp.check_apply]
  split
  · exact .ok hr
  · exact .err hr

end Cpp.Refines

theorem SortedListC.Sim.refines {α : Type} {o : Outcome (ListC α) β} {o' : Outcome (List α) β}
    (h : SortedListC.Sim o o') : Refines ListC.Repr o o' := by
  cases h with
  | ok h => exact .ok h
  | err h => exact .err h
  | fault => exact .fault

namespace ListC
variable {α κ : Type}

theorem indexOf_refines (cmp : α → κ → Option Ordering) (k : κ) :
    Cpp.Refines Repr (SortedListC.indexOf cmp k) (SortedSeq.indexOf cmp k) :=
  fun _ _ h => (SortedListC.indexOf_sim h cmp k).refines

theorem contains_refines (cmp : α → κ → Option Ordering) (k : κ) :
    Cpp.Refines Repr (SortedListC.contains cmp k) (SortedSeq.contains cmp k) :=
  fun _ _ h => (SortedListC.contains_sim h cmp k).refines

theorem sortedAdd_refines (mv : Option α → Option α) (cmp : α → κ → Option Ordering) (key : α → κ) (v : α) :
    Cpp.Refines Repr (SortedListC.add mv cmp key v) (SortedSeq.add cmp key v) :=
  fun _ _ h => (SortedListC.add_sim mv h cmp key v).refines

theorem sortedRemoveAt_refines (mv : Option α → Option α) (i : Int) :
    Cpp.Refines Repr (removeAt mv i) (SortedSeq.removeAt i) :=
  fun _ _ h => (SortedListC.removeAt_sim mv h i).refines

theorem get_refines (i : Int) : Cpp.Refines Repr (get i) (SeqList.get (α := α) i) := by
  intro l xs h
  by_cases hi : 0 ≤ i ∧ i < xs.length
  · have e1 := get_ok h i.toNat (by omega)
    have e2 := SeqList.get_ok (xs := xs) (i := i.toNat) (by omega)
    rw [Int.toNat_of_nonneg hi.1] at e1 e2
    rw [e1, e2]; exact .ok h
  · rw [get_err h i hi, SeqList.get_err hi]; exact .err h

theorem insert_refines (mv : Option α → Option α) (i : Int) (v : α) :
    Cpp.Refines Repr (insert mv i v) (SeqList.insert i v) := by
  intro l xs h
  by_cases hi : 0 ≤ i ∧ i ≤ xs.length
  · obtain ⟨l', e1, h'⟩ := insert_ok mv h i v hi.1 hi.2
    have e2 := SeqList.insert_ok (xs := xs) (i := i.toNat) v (by omega)
    rw [Int.toNat_of_nonneg hi.1] at e2
    rw [e1, e2]; exact .ok h'
  · rw [insert_err mv h i v hi, SeqList.insert_err v hi]; exact .err h

theorem add_refines (mv : Option α → Option α) (v : α) : Cpp.Refines Repr (add mv v) (SeqList.add v) := by
  intro l xs h
  obtain ⟨l', e1, h'⟩ := add_ok mv h v
  rw [e1, SeqList.add_ok]; exact .ok h'

theorem setAt_refines (i : Int) (v : α) : Cpp.Refines Repr (setAt i v) (SeqList.setAt i v) := by
  intro l xs h
  by_cases hi : 0 ≤ i ∧ i < xs.length
  · obtain ⟨l', e1, h'⟩ := setAt_ok h i v hi.1 hi.2
    have e2 := SeqList.setAt_ok (xs := xs) (i := i.toNat) v (by omega)
    rw [Int.toNat_of_nonneg hi.1] at e2
    rw [e1, e2]; exact .ok h'
  · rw [setAt_err h i v hi, SeqList.setAt_err v hi]; exact .err h

theorem removeAt_refines (mv : Option α → Option α) (i : Int) :
    Cpp.Refines Repr (removeAt mv i) (SeqList.removeAt i) := by
  intro l xs h
  by_cases hi : 0 ≤ i ∧ i < xs.length
  · obtain ⟨l', e1, h'⟩ := removeAt_ok mv h i hi.1 hi.2
    have e2 := SeqList.removeAt_ok (xs := xs) (i := i.toNat) (by omega)
    rw [Int.toNat_of_nonneg hi.1] at e2
    rw [e1, e2]; exact .ok h'
  · rw [removeAt_err mv h i hi, SeqList.removeAt_err hi]; exact .err h

theorem clear_refines : Cpp.Refines Repr (clear (α := α)) SeqList.clear := by
  intro l xs h
  rw [clear_ok h]; exact .ok Repr.empty

theorem seqIndexOf_refines (eq : α → κ → Bool) (k : κ) : Cpp.Refines Repr (indexOf eq k) (SeqList.indexOf eq k) := by
  intro l xs h
  rw [indexOf_ok h, SeqList.indexOf_ok]; exact .ok h

theorem seqContains_refines (eq : α → κ → Bool) (k : κ) :
    Cpp.Refines Repr (contains eq k) (SeqList.contains eq k) := by
  intro l xs h
  rw [contains_ok h, SeqList.contains_ok]; exact .ok h

theorem remove_refines (mv : Option α → Option α) (eq : α → κ → Bool) (k : κ) :
    Cpp.Refines Repr (remove mv eq k) (SeqList.remove eq k) := by
  intro l xs h
  obtain ⟨l', e, h'⟩ := remove_ok mv h eq k
  rw [e, SeqList.remove_ok]
  revert h'
  cases xs.findIdx? (fun x => eq x k) <;> exact fun h' => .ok h'

end ListC
end Vlpp
