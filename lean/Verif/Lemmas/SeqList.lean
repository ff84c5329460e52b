import Verif.Model.SeqList
import Verif.Spec.Seq

set_option autoImplicit false
namespace Vlpp
namespace SeqList
variable {α κ : Type}

theorem get_ok {xs : List α} {i : Nat} (h : i < xs.length) : get (i : Int) xs = .ok xs[i] xs := by
  unfold get
  rw [Cpp.bind_ok (Cpp.get_apply xs), Cpp.bind_ok (Cpp.check_true (by omega) xs)]
  simp [h]

theorem get_err {xs : List α} {i : Int} (h : ¬ (0 ≤ i ∧ i < xs.length)) : get i xs = .err xs := by
  unfold get
  rw [Cpp.bind_ok (Cpp.get_apply xs), Cpp.bind_err (Cpp.check_false h xs)]

theorem insert_ok {xs : List α} {i : Nat} (v : α) (h : i ≤ xs.length) :
    insert (i : Int) v xs = .ok (i : Int) (xs.take i ++ v :: xs.drop i) := by
  unfold insert
  rw [Cpp.bind_ok (Cpp.get_apply xs), Cpp.bind_ok (Cpp.check_true (by omega) xs)]
  rfl

theorem insert_err {xs : List α} {i : Int} (v : α) (h : ¬ (0 ≤ i ∧ i ≤ xs.length)) :
    insert i v xs = .err xs := by
  unfold insert
  rw [Cpp.bind_ok (Cpp.get_apply xs), Cpp.bind_err (Cpp.check_false h xs)]

theorem add_ok (xs : List α) (v : α) : add v xs = .ok (xs.length : Int) (xs ++ [v]) := by
  unfold add
  rw [Cpp.bind_ok (Cpp.get_apply xs), insert_ok v (by omega)]
  simp

theorem setAt_ok {xs : List α} {i : Nat} (v : α) (h : i < xs.length) :
    setAt (i : Int) v xs = .ok true (xs.set i v) := by
  unfold setAt
  rw [Cpp.bind_ok (Cpp.get_apply xs), Cpp.bind_ok (Cpp.check_true (by omega) xs)]
  rfl

theorem setAt_err {xs : List α} {i : Int} (v : α) (h : ¬ (0 ≤ i ∧ i < xs.length)) :
    setAt i v xs = .err xs := by
  unfold setAt
  rw [Cpp.bind_ok (Cpp.get_apply xs), Cpp.bind_err (Cpp.check_false h xs)]

theorem removeAt_ok {xs : List α} {i : Nat} (h : i < xs.length) :
    removeAt (i : Int) xs = .ok true (xs.take i ++ xs.drop (i + 1)) := by
  unfold removeAt
  rw [Cpp.bind_ok (Cpp.get_apply xs), Cpp.bind_ok (Cpp.check_true (by omega) xs)]
  rfl

theorem removeAt_err {xs : List α} {i : Int} (h : ¬ (0 ≤ i ∧ i < xs.length)) : removeAt i xs = .err xs := by
  unfold removeAt
  rw [Cpp.bind_ok (Cpp.get_apply xs), Cpp.bind_err (Cpp.check_false h xs)]

theorem indexOf_ok (eq : α → κ → Bool) (k : κ) (xs : List α) :
    indexOf eq k xs = .ok (Spec.firstIndex eq xs k) xs := by
  unfold indexOf Spec.firstIndex
  rw [Cpp.bind_ok (Cpp.get_apply xs)]
  cases xs.findIdx? (fun x => eq x k) <;> rfl

theorem contains_ok (eq : α → κ → Bool) (k : κ) (xs : List α) :
    contains eq k xs = .ok (xs.any (fun x => eq x k)) xs := by
  unfold contains
  rw [Cpp.bind_ok (indexOf_ok eq k xs), Cpp.pure_apply]
  congr 1
  unfold Spec.firstIndex
  cases h : xs.findIdx? (fun x => eq x k) with
  | none => simp [List.findIdx?_eq_none_iff] at h; simpa using h
  | some i =>
    rw [List.findIdx?_eq_some_iff_getElem] at h
    obtain ⟨hi, hp, _⟩ := h
    have h1 : xs.any (fun x => eq x k) = true := List.any_eq_true.2 ⟨_, List.getElem_mem hi, hp⟩
    rw [h1]
    simp only [decide_eq_true_eq]
    omega

theorem remove_ok (eq : α → κ → Bool) (k : κ) (xs : List α) :
    remove eq k xs = match xs.findIdx? (fun x => eq x k) with
      | some i => .ok true (xs.take i ++ xs.drop (i + 1))
      | none => .ok false xs := by
  unfold remove
  rw [Cpp.bind_ok (indexOf_ok eq k xs), Cpp.bind_ok (Cpp.get_apply xs)]
  unfold Spec.firstIndex
  cases h : xs.findIdx? (fun x => eq x k) with
  | none => simp
  | some i =>
    rw [List.findIdx?_eq_some_iff_getElem] at h
    obtain ⟨hi, hp, _⟩ := h
    simp only
    rw [if_pos (by omega), Cpp.bind_ok (removeAt_ok hi)]
    rfl

/-- Outcome of a sequence-level call as seen by the caller. -/
def observe {β : Type} (ret : β → Spec.SeqRet α) : Outcome (List α) β → Option (List α × Spec.SeqRet α)
  | .ok v s => some (s, ret v)
  | .err s => some (s, .error)
  | .fault => none

/-- The sequence-level functions are exactly the specification that `List<T>` was proved to refine (C01). -/
theorem agrees_with_spec (eq : α → κ → Bool) (xs : List α) (i : Int) (v : α) (k : κ) :
    observe .value (get i xs) = some (Spec.seqStep eq xs (.get i)) ∧
    observe .index (insert i v xs) = some (Spec.seqStep eq xs (.insert i v)) ∧
    observe .index (add v xs) = some (Spec.seqStep eq xs (.add v)) ∧
    observe .flag (setAt i v xs) = some (Spec.seqStep eq xs (.set i v)) ∧
    observe .flag (removeAt i xs) = some (Spec.seqStep eq xs (.removeAt i)) ∧
    observe .index (indexOf eq k xs) = some (Spec.seqStep eq xs (.indexOf k)) ∧
    observe .flag (contains eq k xs) = some (Spec.seqStep eq xs (.contains k)) ∧
    observe .flag (remove eq k xs) = some (Spec.seqStep eq xs (.remove k)) ∧
    observe .flag (clear xs) = some (Spec.seqStep eq xs .clear) := by
  refine ⟨?_, ?_, ?_, ?_, ?_, ?_, ?_, ?_, rfl⟩
  · by_cases h : 0 ≤ i ∧ i < xs.length
    · obtain ⟨n, rfl⟩ : ∃ n : Nat, i = n := ⟨i.toNat, by omega⟩
      rw [get_ok (by omega)]
      simp [observe, Spec.seqStep, show n < xs.length by omega]
    · rw [get_err h]
      simp only [observe, Spec.seqStep]
      split
      · rw [List.getElem?_eq_none (by omega)]
      · rfl
  · by_cases h : 0 ≤ i ∧ i ≤ xs.length
    · obtain ⟨n, rfl⟩ : ∃ n : Nat, i = n := ⟨i.toNat, by omega⟩
      rw [insert_ok v (by omega)]
      simp [observe, Spec.seqStep, show n ≤ xs.length by omega]
    · rw [insert_err v h]
      simp only [observe, Spec.seqStep]
      rw [if_neg h]
  · rw [add_ok]; rfl
  · by_cases h : 0 ≤ i ∧ i < xs.length
    · obtain ⟨n, rfl⟩ : ∃ n : Nat, i = n := ⟨i.toNat, by omega⟩
      rw [setAt_ok v (by omega)]
      simp [observe, Spec.seqStep, show n < xs.length by omega]
    · rw [setAt_err v h]
      simp only [observe, Spec.seqStep]
      rw [if_neg h]
  · by_cases h : 0 ≤ i ∧ i < xs.length
    · obtain ⟨n, rfl⟩ : ∃ n : Nat, i = n := ⟨i.toNat, by omega⟩
      rw [removeAt_ok (by omega)]
      simp [observe, Spec.seqStep, show n < xs.length by omega]
    · rw [removeAt_err h]
      simp only [observe, Spec.seqStep]
      rw [if_neg h]
  · rw [indexOf_ok]; rfl
  · rw [contains_ok]; rfl
  · rw [remove_ok]
    simp only [Spec.seqStep]
    cases xs.findIdx? (fun x => eq x k) <;> rfl

end SeqList
end Vlpp
