import Verif.Lemmas.ListC

/-!
# Properties C01-C04: `List<T>`
-/
set_option autoImplicit false
namespace Vlpp
open ListC
variable {α κ : Type}

/-- The only restriction on a history: the element count passed to `RemoveRange` is not negative (C04 shows
what happens otherwise). -/
def Spec.SeqOp.Valid : Spec.SeqOp α κ → Prop
  | .removeRange _ n => 0 ≤ n
  | _ => True

theorem list_step_refines (mv : Option α → Option α) (eq : α → κ → Bool) {l : ListC α} {xs : List α}
    (h : Repr l xs) (op : Spec.SeqOp α κ) (hv : op.Valid) :
    ∃ l', step mv eq l op = some (l', (Spec.seqStep eq xs op).2) ∧ Repr l' (Spec.seqStep eq xs op).1 := by
  cases op with
  | add v =>
    obtain ⟨l', e, h'⟩ := add_ok mv h v
    exact ⟨l', by simp [step, e, observe, Spec.seqStep], h'⟩
  | insert i v =>
    simp only [step, Spec.seqStep]
    split
    · next hi =>
      obtain ⟨l', e, h'⟩ := insert_ok mv h i v hi.1 hi.2
      exact ⟨l', by simp [e, observe], h'⟩
    · next hi => exact ⟨l, by simp [insert_err mv h i v hi, observe], h⟩
  | set i v =>
    simp only [step, Spec.seqStep]
    split
    · next hi =>
      obtain ⟨l', e, h'⟩ := setAt_ok h i v hi.1 hi.2
      exact ⟨l', by simp [e, observe], h'⟩
    · next hi => exact ⟨l, by simp [setAt_err h i v hi, observe], h⟩
  | remove k =>
    obtain ⟨l', e, h'⟩ := remove_ok mv h eq k
    refine ⟨l', ?_, ?_⟩
    · simp only [step, e, observe, Spec.seqStep]
      cases xs.findIdx? (fun x => eq x k) <;> rfl
    · simp only [Spec.seqStep]
      revert h'
      cases xs.findIdx? (fun x => eq x k) <;> exact id
  | removeAt i =>
    simp only [step, Spec.seqStep]
    split
    · next hi =>
      obtain ⟨l', e, h'⟩ := removeAt_ok mv h i hi.1 hi.2
      exact ⟨l', by simp [e, observe], h'⟩
    · next hi => exact ⟨l, by simp [removeAt_err mv h i hi, observe], h⟩
  | removeRange i n =>
    simp only [step, Spec.seqStep]
    have hn : 0 ≤ n := hv
    split
    · next hi =>
      obtain ⟨l', e, h'⟩ := removeRange_ok mv h i n hi.1 hn hi.2.2
      exact ⟨l', by simp [e, observe], h'⟩
    · next hi => exact ⟨l, by simp [removeRange_err mv h i n (by omega), observe], h⟩
  | clear => exact ⟨_, by simp [step, clear_ok h, observe, Spec.seqStep], Repr.empty⟩
  | get i =>
    simp only [step, Spec.seqStep]
    split
    · next hi =>
      by_cases hl : i.toNat < xs.length
      · have := get_ok h i.toNat hl
        rw [Int.toNat_of_nonneg hi] at this
        exact ⟨l, by simp [this, observe, hl], by simpa [hl] using h⟩
      · rw [get_err h i (by omega), List.getElem?_eq_none (by omega)]
        exact ⟨l, rfl, h⟩
    · rw [get_err h i (by omega)]
      exact ⟨l, rfl, h⟩
  | count => exact ⟨l, by simp [step, Spec.seqStep, h.count], h⟩
  | indexOf k => exact ⟨l, by simp [step, indexOf_ok h eq k, observe, Spec.seqStep], h⟩
  | contains k => exact ⟨l, by simp [step, contains_ok h eq k, observe, Spec.seqStep], h⟩

theorem list_run_refines (mv : Option α → Option α) (eq : α → κ → Bool) (ops : List (Spec.SeqOp α κ))
    (hv : ∀ op ∈ ops, op.Valid) {l : ListC α} {xs : List α} (h : Repr l xs) :
    ∃ l', run mv eq l ops = some (l', (Spec.seqRun eq xs ops).2) ∧ Repr l' (Spec.seqRun eq xs ops).1 := by
  induction ops generalizing l xs with
  | nil => exact ⟨l, rfl, h⟩
  | cons op ops ih =>
    obtain ⟨l1, e1, h1⟩ := list_step_refines mv eq h op (hv op (by simp))
    obtain ⟨l2, e2, h2⟩ := ih (fun o ho => hv o (by simp [ho])) h1
    exact ⟨l2, by simp [run, e1, e2, Spec.seqRun], h2⟩

/-- **C01.** Every history of calls on a new `List<T>` (with non-negative `RemoveRange` counts) runs without
undefined behaviour, and each return value, element read and error is exactly what a mathematical sequence gives. -/
theorem C01_list_is_sequence (mv : Option α → Option α) (eq : α → κ → Bool) (ops : List (Spec.SeqOp α κ))
    (hv : ∀ op ∈ ops, op.Valid) :
    ∃ l, run mv eq ListC.empty ops = some (l, (Spec.seqRun eq [] ops).2) := by
  obtain ⟨l, e, _⟩ := list_run_refines mv eq ops hv Repr.empty
  exact ⟨l, e⟩

/-- A history that exercises growth, insertion in the middle, an error and removal meets the hypothesis. -/
example : (∀ op ∈ ([.add 1, .add 2, .insert 1 7, .removeRange 0 2, .get 5] : List (Spec.SeqOp Nat Nat)), op.Valid) ∧
    (Spec.seqRun (· == ·) [] ([.add 1, .add 2, .insert 1 7, .removeRange 0 2, .get 5, .get 0] :
      List (Spec.SeqOp Nat Nat))).2 = [.index 0, .index 1, .index 1, .flag true, .error, .value 2] := by
  constructor
  · intro op h
    simp at h
    rcases h with h | h | h | h | h <;> subst h <;> simp [Spec.SeqOp.Valid]
  · decide

/-- What a program over many lists means when each list is a mathematical sequence. -/
def Spec.worldStep (eq : α → κ → Bool) (w : Nat → List α) :
    ListC.WorldOp α κ → (Nat → List α) × Spec.SeqRet α
  | .call i op => (fun n => if n = i then (Spec.seqStep eq (w i) op).1 else w n, (Spec.seqStep eq (w i) op).2)
  | .moveAssign i j => (fun n => if n = j then [] else if n = i then w j else w n, .flag true)
  | .moveConstruct i j =>
    if i = j then (w, .error) else (fun n => if n = j then [] else if n = i then w j else w n, .flag true)
  | .renew i => (fun n => if n = i then [] else w n, .flag true)

def Spec.worldRun (eq : α → κ → Bool) (w : Nat → List α) :
    List (ListC.WorldOp α κ) → (Nat → List α) × List (Spec.SeqRet α)
  | [] => (w, [])
  | op :: ops =>
    let (w, r) := Spec.worldStep eq w op
    let (w, rs) := Spec.worldRun eq w ops
    (w, r :: rs)

def ListC.WorldOp.Valid : ListC.WorldOp α κ → Prop
  | .call _ op => op.Valid
  | _ => True

theorem Repr.rebuild {l : ListC α} {xs : List α} (h : ListC.Repr l xs) :
    ListC.Repr ⟨l.buffer, l.count, l.capacity⟩ xs := ⟨h.size, h.count, h.le, h.live, h.raw⟩

theorem world_step_refines (mv : Option α → Option α) (eq : α → κ → Bool) {w : Nat → ListC α} {ws : Nat → List α}
    (h : ∀ n, ListC.Repr (w n) (ws n)) (op : ListC.WorldOp α κ) (hv : op.Valid) :
    ∃ w', worldStep mv eq w op = some (w', (Spec.worldStep eq ws op).2) ∧
      ∀ n, ListC.Repr (w' n) ((Spec.worldStep eq ws op).1 n) := by
  cases op with
  | call i op =>
    obtain ⟨l, e, hl⟩ := list_step_refines mv eq (h i) op hv
    refine ⟨_, by simp [worldStep, e, Spec.worldStep]; rfl, ?_⟩
    intro n
    simp only [Spec.worldStep]
    by_cases hn : n = i
    · subst hn; simpa using hl
    · simpa [hn] using h n
  | moveAssign i j =>
    by_cases hij : i = j
    · subst hij
      refine ⟨fun n => if n = i then ListC.empty else w n, ?_, ?_⟩
      · simp [worldStep, moveAssignSelf, Cpp.bind_ok (destructor_ok (h i)), Spec.worldStep]
      · intro n
        simp only [Spec.worldStep]
        by_cases hn : n = i
        · subst hn; simpa using Repr.empty
        · simpa [hn] using h n
    · refine ⟨fun n => if n = i then ⟨(w j).buffer, (w j).count, (w j).capacity⟩
        else if n = j then ListC.empty else w n, ?_, ?_⟩
      · simp only [worldStep, if_neg hij, ListC.moveAssign, destructor_ok (h i), Spec.worldStep]
      · intro n
        simp only [Spec.worldStep]
        by_cases hn : n = i
        · subst hn; simpa [hij] using Repr.rebuild (h j)
        · by_cases hj : n = j
          · subst hj; simpa [hn] using Repr.empty
          · simpa [hn, hj] using h n
  | moveConstruct i j =>
    by_cases hij : i = j
    · exact ⟨w, by simp [worldStep, hij, Spec.worldStep], by simpa [Spec.worldStep, hij] using h⟩
    · refine ⟨fun n => if n = i then ⟨(w j).buffer, (w j).count, (w j).capacity⟩
        else if n = j then ListC.empty else w n, ?_, ?_⟩
      · simp only [worldStep, if_neg hij, ListC.moveConstruct, destructor_ok (h i), Spec.worldStep]
      · intro n
        simp only [Spec.worldStep, if_neg hij]
        by_cases hn : n = i
        · subst hn; simpa [hij] using Repr.rebuild (h j)
        · by_cases hj : n = j
          · subst hj; simpa [hn] using Repr.empty
          · simpa [hn, hj] using h n
  | renew i =>
    refine ⟨fun n => if n = i then ListC.empty else w n, ?_, ?_⟩
    · simp only [worldStep, destructor_ok (h i), Spec.worldStep]
    · intro n
      simp only [Spec.worldStep]
      by_cases hn : n = i
      · subst hn; simpa using Repr.empty
      · simpa [hn] using h n

theorem world_run_refines (mv : Option α → Option α) (eq : α → κ → Bool) (ops : List (ListC.WorldOp α κ))
    (hv : ∀ op ∈ ops, op.Valid) {w : Nat → ListC α} {ws : Nat → List α} (h : ∀ n, ListC.Repr (w n) (ws n)) :
    ∃ w', worldRun mv eq w ops = some (w', (Spec.worldRun eq ws ops).2) ∧
      ∀ n, ListC.Repr (w' n) ((Spec.worldRun eq ws ops).1 n) := by
  induction ops generalizing w ws with
  | nil => exact ⟨w, rfl, h⟩
  | cons op ops ih =>
    obtain ⟨l1, e1, h1⟩ := world_step_refines mv eq h op (hv op (by simp))
    obtain ⟨l2, e2, h2⟩ := ih (fun o ho => hv o (by simp [ho])) h1
    exact ⟨l2, by simp [worldRun, e1, e2, Spec.worldRun], h2⟩

/-- **C02, in the model without a heap.** (`C02_list_memory_safe` in `HeapListProps.lean` is the full property: here a list
contains its buffer, so that a destructor that is skipped would not be noticed.) Any program over any family of lists —
every member call, move construction, move assignment (including self-move) and destruction — never reads, assigns or
destroys memory that holds no element, never constructs over a live element, never reads a moved-from element, and never
releases a buffer with live elements in it; afterwards each of the lists can still be destroyed. -/
theorem C02_list_cells_safe (mv : Option α → Option α) (eq : α → κ → Bool) (ops : List (ListC.WorldOp α κ))
    (hv : ∀ op ∈ ops, op.Valid) :
    ∃ w, worldRun mv eq (fun _ => ListC.empty) ops = some (w, (Spec.worldRun eq (fun _ => []) ops).2) ∧
      ∀ n, ∃ l, destructor (w n) = .ok () l := by
  obtain ⟨w, e, h⟩ := world_run_refines mv eq ops hv (w := fun _ => ListC.empty) (ws := fun _ => [])
    (fun _ => Repr.empty)
  exact ⟨w, e, fun n => ⟨_, destructor_ok (h n)⟩⟩

example : (∀ op ∈ ([.call 0 (.add 1), .moveAssign 1 0, .call 1 (.get 0), .renew 1] :
    List (ListC.WorldOp Nat Nat)), op.Valid) := by
  intro op h
  simp at h
  rcases h with h | h | h | h <;> subst h <;> simp [ListC.WorldOp.Valid, Spec.SeqOp.Valid]

/-! ## C03: inserting an element of the list itself -/

/-- **C03 (positive part).** If the list has spare capacity and the inserted element lies before the insertion
point, then inserting a reference to it behaves like inserting its value. -/
theorem C03_insert_own_element_partial (mv : Option α → Option α) {l : ListC α} {xs : List α} (h : ListC.Repr l xs)
    (index own : Nat) (hown : own < xs.length) (hi : index ≤ xs.length) (hspare : l.count < l.capacity)
    (hbefore : own < index) :
    ∃ l', insertOwn mv index own l = .ok index l' ∧
      ListC.Repr l' (xs.take index ++ xs[own] :: xs.drop index) := by
  have hc := h.count
  obtain ⟨b, cap, e1, e2, e3, _, e4, e5, e6, e7⟩ :=
    insertUninitializedItems_ok mv h index 1 (by omega) (by omega) (by omega)
  have e1' : Mem.insertUninitializedItems mv l.buffer l.capacity l.count index 1 = some (b, cap, l.count + 1) := e1
  have hr : readVal b own = some xs[own] := by
    unfold readVal Mem.read
    rw [if_pos ⟨by omega, by omega⟩, e4 own (by omega) (by omega)]
    simp [hown]
  have hins := insert_ok mv h index xs[own] (by omega) (by omega)
  obtain ⟨l', f1, f2⟩ := hins
  refine ⟨l', ?_, by simpa using f2⟩
  unfold insertOwn
  unfold ListC.insert at f1
  rw [Cpp.bind_ok (Cpp.get_apply l), Cpp.bind_ok (Cpp.check_true (by omega) l),
    Cpp.bind_ok (mem_some e1' l)] at f1
  rw [Cpp.bind_ok (Cpp.get_apply l), Cpp.bind_ok (Cpp.check_true (by omega) l),
    Cpp.bind_ok (Cpp.check_true (by omega) l), Cpp.bind_ok (mem_some e1' l)]
  simp only at f1 ⊢
  rw [if_neg (by simp; omega), Cpp.bind_ok (mem_some hr l)]
  exact f1

/-- **C03 is violated.** Whenever the list is full, adding or inserting a reference to one of its own elements
uses memory that has just been released: undefined behaviour. -/
theorem C03_insert_own_violated (mv : Option α → Option α) {l : ListC α} {xs : List α} (h : ListC.Repr l xs)
    (index own : Nat) (hown : own < xs.length) (hi : index ≤ xs.length) (hfull : l.count = l.capacity) :
    insertOwn mv index own l = .fault := by
  have hc := h.count
  obtain ⟨b, cap, e1, _⟩ :=
    insertUninitializedItems_ok mv h index 1 (by omega) (by omega) (by omega)
  have e1' : Mem.insertUninitializedItems mv l.buffer l.capacity l.count index 1 = some (b, cap, l.count + 1) := e1
  unfold insertOwn
  rw [Cpp.bind_ok (Cpp.get_apply l), Cpp.bind_ok (Cpp.check_true (by omega) l),
    Cpp.bind_ok (Cpp.check_true (by omega) l), Cpp.bind_ok (mem_some e1' l)]
  simp only
  rw [if_pos (by simp; omega)]
  rfl

/-- **C03 is violated also without reallocation.** With spare capacity, inserting the element at the insertion
point itself reads a destroyed object. -/
theorem C03_insert_own_at_self_violated (mv : Option α → Option α) {l : ListC α} {xs : List α}
    (h : ListC.Repr l xs) (own : Nat) (hown : own < xs.length) (hspare : l.count < l.capacity) :
    insertOwn mv own own l = .fault := by
  have hc := h.count
  obtain ⟨b, cap, e1, e2, e3, _, e4, e5, e6, e7⟩ :=
    insertUninitializedItems_ok mv h own 1 (by omega) (by omega) (by omega)
  have e1' : Mem.insertUninitializedItems mv l.buffer l.capacity l.count own 1 = some (b, cap, l.count + 1) := e1
  have hr : readVal b own = none := by
    unfold readVal Mem.read
    rw [if_pos ⟨by omega, by omega⟩, e5 own (by omega) (by omega)]
  unfold insertOwn
  rw [Cpp.bind_ok (Cpp.get_apply l), Cpp.bind_ok (Cpp.check_true (by omega) l),
    Cpp.bind_ok (Cpp.check_true (by omega) l), Cpp.bind_ok (mem_some e1' l)]
  simp only
  rw [if_neg (by simp; omega)]
  exact Cpp.bind_fault (by simp [mem, hr])

/-- **C03 is violated**: inserting an element that lies after the insertion point stores the element *before* it. -/
theorem C03_insert_own_after_violated (mv : Option α → Option α) {l : ListC α} {xs : List α}
    (h : ListC.Repr l xs) (index own : Nat) (hown : own < xs.length) (hspare : l.count < l.capacity)
    (hafter : index < own) :
    ∃ l', insertOwn mv index own l = .ok index l' ∧
      ListC.Repr l' (xs.take index ++ xs[own - 1] :: xs.drop index) := by
  have hc := h.count
  obtain ⟨b, cap, e1, e2, e3, _, e4, e5, e6, e7⟩ :=
    insertUninitializedItems_ok mv h index 1 (by omega) (by omega) (by omega)
  have e1' : Mem.insertUninitializedItems mv l.buffer l.capacity l.count index 1 = some (b, cap, l.count + 1) := e1
  have hr : readVal b own = some xs[own - 1] := by
    unfold readVal Mem.read
    rw [if_pos ⟨by omega, by omega⟩, e6 own (by omega) (by omega)]
    rw [show ((own : Int) - (1 : Nat)).toNat = own - 1 by omega, List.getElem?_eq_getElem (by omega)]
  have hins := insert_ok mv h index xs[own - 1] (by omega) (by omega)
  obtain ⟨l', f1, f2⟩ := hins
  refine ⟨l', ?_, by simpa using f2⟩
  unfold insertOwn
  unfold ListC.insert at f1
  rw [Cpp.bind_ok (Cpp.get_apply l), Cpp.bind_ok (Cpp.check_true (by omega) l),
    Cpp.bind_ok (mem_some e1' l)] at f1
  rw [Cpp.bind_ok (Cpp.get_apply l), Cpp.bind_ok (Cpp.check_true (by omega) l),
    Cpp.bind_ok (Cpp.check_true (by omega) l), Cpp.bind_ok (mem_some e1' l)]
  simp only at f1 ⊢
  rw [if_neg (by simp; omega), Cpp.bind_ok (mem_some hr l)]
  exact f1

/-- A one-element list (capacity 2) meets the hypotheses of the positive part; after another `Add` it is full. -/
example : ∃ l : ListC Nat, ListC.Repr l [5] ∧ l.count < l.capacity := by
  refine ⟨⟨⟨2, fun i => if i = 0 then .obj (some 5) else .raw⟩, 1, 2⟩, ⟨rfl, rfl, by decide, ?_, ?_⟩, by decide⟩
  · intro i h0 h1; simp at h1; have : i = 0 := by omega
    subst this; rfl
  · intro i h0 h1; simp at h0 h1; have : i = 1 := by omega
    subst this; rfl

example : ∃ l : ListC Nat, ListC.Repr l [5, 6] ∧ l.count = l.capacity := by
  refine ⟨⟨⟨2, fun i => if i = 0 then .obj (some 5) else .obj (some 6)⟩, 2, 2⟩, ⟨rfl, rfl, by decide, ?_, ?_⟩, rfl⟩
  · intro i h0 h1; simp at h1
    rcases (by omega : i = 0 ∨ i = 1) with h | h <;> subst h <;> rfl
  · intro i h0 h1; simp at h0 h1; omega

/-! ## C04: invalid ranges -/

/-- **C04 (positive part).** For a non-negative count, `RemoveRange` succeeds exactly on the ranges that lie in the
list, and otherwise reports an error and leaves the list untouched. -/
theorem C04_removeRange_rejects_partial (mv : Option α → Option α) {l : ListC α} {xs : List α}
    (h : ListC.Repr l xs) (i n : Int) (hn : 0 ≤ n) :
    ((0 ≤ i ∧ i + n ≤ xs.length) → ∃ l', removeRange mv i n l = .ok true l' ∧
      ListC.Repr l' (xs.take i.toNat ++ xs.drop (i + n).toNat)) ∧
    (¬ (0 ≤ i ∧ i + n ≤ xs.length) → removeRange mv i n l = .err l) :=
  ⟨fun hi => removeRange_ok mv h i n hi.1 hn hi.2, fun hi => removeRange_err mv h i n hi⟩

/-- **C04 is violated** for negative counts: whenever `0 ≤ index + count` and `index ≤ Count()`, both argument checks
pass and `RemoveRange` assigns to memory holding no element: undefined behaviour instead of an error.  (For trivially assignable types the
assignment is a `memmove`; it is harmless only while the written range stays inside the capacity, and then `Count()`
*grows* over unspecified values.) -/
theorem C04_removeRange_negative_violated (mv : Option α → Option α) {l : ListC α} {xs : List α}
    (h : ListC.Repr l xs) (i n : Int) (hn : n < 0) (hi : 0 ≤ i + n) (hle : i ≤ xs.length) :
    removeRange mv i n l = .fault := by
  have hc := h.count
  have hs := h.size
  have hl := h.le
  unfold removeRange
  rw [Cpp.bind_ok (Cpp.get_apply l), Cpp.bind_ok (Cpp.check_true (by omega) l),
    Cpp.bind_ok (Cpp.check_true (by omega) l)]
  apply Cpp.bind_fault
  have hm : Mem.callMoveAssignmentsOverlapped mv l.buffer i (i + n) (l.count - i - n) = none := by
    simp only [Mem.callMoveAssignmentsOverlapped]
    rw [if_neg (by omega), if_pos (by omega)]
    obtain ⟨m, hm⟩ : ∃ m, (l.count - i - n).toNat = m + 1 := ⟨(l.count - i - n).toNat - 1, by omega⟩
    rw [hm]
    obtain ⟨v, _, hv⟩ := Mem.takeOut_ok (mv := mv) (b := l.buffer) (i := i + n + m) ⟨by omega, by omega⟩
      (by rw [h.live _ (by omega) (by omega)]; rfl)
    simp only [Mem.moveAssignBwd, hv, Option.bind_eq_bind, Option.bind_some]
    unfold Mem.assign
    split
    · next hin =>
      exfalso
      have h1 := hin.1.2
      have h2 := hin.2
      rw [Mem.upd_size] at h1
      rw [Mem.upd_cell, if_neg (by omega), h.raw _ (by omega) (by omega)] at h2
      cases h2
    · rfl
  simp [mem, hm]

example : ∃ l : ListC Nat, ListC.Repr l [5, 6] ∧ ((-1 : Int) < 0 ∧ 0 ≤ (1 : Int) + -1) := by
  refine ⟨⟨⟨2, fun i => if i = 0 then .obj (some 5) else .obj (some 6)⟩, 2, 2⟩,
    ⟨rfl, rfl, by decide, ?_, ?_⟩, by decide⟩
  · intro i h0 h1; simp at h1
    rcases (by omega : i = 0 ∨ i = 1) with h | h <;> subst h <;> rfl
  · intro i h0 h1; simp at h0 h1; omega

end Vlpp
