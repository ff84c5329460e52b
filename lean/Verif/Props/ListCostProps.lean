import Verif.Lemmas.ListCost

/-!
# Property C103: what the operations of `List<T>` cost
-/
set_option autoImplicit false
namespace Vlpp
open ListC (Repr)
open Spec (SeqOp seqStep seqRun)
open Spec.Cost
open ListCost (grow_room grow_full shrink_yes shrink_no meterOf run_ok)
variable {α κ : Type}

/-- What one operation can do to the length of the sequence and to the meter. -/
inductive CostStep (eq : α → κ → Bool) (xs : List α) (m : Meter) (op : SeqOp α κ) : Prop where
  | grows (len : (seqStep eq xs op).1.length = xs.length + 1)
      (meter : meterStep eq xs m op = grow m xs.length (behind eq xs op)) (paid : charge op = 5)
  | shrinks (left : Nat) (len : (seqStep eq xs op).1.length = left) (le : left ≤ xs.length)
      (meter : meterStep eq xs m op = shrink m left (behind eq xs op)) (paid : charge op = 10) (not : ¬ Keeps op)
  | clears (len : (seqStep eq xs op).1.length = 0) (meter : meterStep eq xs m op = { m with cap := 0 })
      (not : ¬ NotClear op) (notKeeps : ¬ Keeps op)
  | stays (len : (seqStep eq xs op).1.length = xs.length) (meter : meterStep eq xs m op = m)

theorem costStep (eq : α → κ → Bool) (xs : List α) (m : Meter) (op : SeqOp α κ) : CostStep eq xs m op := by
  cases op with
  | add v => exact .grows (by simp [seqStep]) rfl rfl
  | insert i v =>
    by_cases hi : 0 ≤ i ∧ i ≤ (xs.length : Int)
    · exact .grows (by simp [seqStep, hi]; omega) (by simp [meterStep, hi]) rfl
    · exact .stays (by simp only [seqStep, hi, if_false]) (by simp only [meterStep, hi, if_false])
  | set i v =>
    refine .stays ?_ rfl
    simp only [seqStep]
    split <;> simp
  | remove k =>
    cases hf : xs.findIdx? (fun x => eq x k) with
    | none => exact .stays (by simp [seqStep, hf]) (by simp [meterStep, hf])
    | some i =>
      have hi : i < xs.length := by
        rw [List.findIdx?_eq_some_iff_getElem] at hf
        exact hf.1
      exact .shrinks (xs.length - 1) (by simp [seqStep, hf]; omega) (by omega) (by simp [meterStep, hf]) rfl id
  | removeAt i =>
    by_cases hi : 0 ≤ i ∧ i < (xs.length : Int)
    · exact .shrinks (xs.length - 1) (by simp [seqStep, hi]; omega) (by omega) (by simp [meterStep, hi]) rfl id
    · exact .stays (by simp only [seqStep, hi, if_false]) (by simp only [meterStep, hi, if_false])
  | removeRange i n =>
    by_cases hi : 0 ≤ i ∧ 0 ≤ n ∧ i + n ≤ (xs.length : Int)
    · exact .shrinks (xs.length - n.toNat) (by simp [seqStep, hi]; omega) (by omega)
        (by simp only [meterStep, hi, and_self, if_true]) rfl id
    · exact .stays (by simp only [seqStep, hi, if_false]) (by simp only [meterStep, hi, if_false])
  | clear => exact .clears rfl rfl id id
  | get i =>
    refine .stays ?_ rfl
    simp only [seqStep]
    split
    · split <;> rfl
    · rfl
  | count => exact .stays rfl rfl
  | indexOf k => exact .stays rfl rfl
  | contains k => exact .stays rfl rfl

/-- One operation: the elements stay within the buffer, and the moves are paid by the charge and by the saved
potential `5 * length - 4 * cap`. -/
theorem potential_step (eq : α → κ → Bool) (xs : List α) (m : Meter) (op : SeqOp α κ) (h : xs.length ≤ m.cap) :
    (seqStep eq xs op).1.length ≤ (meterStep eq xs m op).cap ∧
    (meterStep eq xs m op).moves + (5 * (seqStep eq xs op).1.length - 4 * (meterStep eq xs m op).cap) ≤
      m.moves + (5 * xs.length - 4 * m.cap) + behind eq xs op + charge op := by
  rcases costStep eq xs m op with ⟨hl, hm, hp⟩ | ⟨left, hl, hle, hm, hp, _⟩ | ⟨hl, hm, _⟩ | ⟨hl, hm⟩
  · by_cases hg : xs.length < m.cap
    · rw [hm, hl, hp, grow_room hg]; simp only; omega
    · rw [hm, hl, hp, grow_full hg]; simp only; omega
  · by_cases hs : left ≤ m.cap / 2 ∧ left ≤ 8 ∧ left < m.cap * 5 / 8
    · rw [hm, hl, hp, shrink_yes hs]; simp only; omega
    · rw [hm, hl, hp, shrink_no hs]; simp only; omega
  · rw [hm, hl]; simp only; omega
  · rw [hm, hl]; omega

theorem potential_run (eq : α → κ → Bool) (ops : List (SeqOp α κ)) (xs : List α) (m : Meter) (h : xs.length ≤ m.cap) :
    (meterRun eq xs m ops).moves ≤ m.moves + (5 * xs.length - 4 * m.cap) + work eq xs ops := by
  induction ops generalizing xs m with
  | nil => simp only [meterRun, work]; omega
  | cons op ops ih =>
    obtain ⟨h1, h2⟩ := potential_step eq xs m op h
    have := ih (seqStep eq xs op).1 (meterStep eq xs m op) h1
    simp only [meterRun, work]
    omega

theorem peak_run (eq : α → κ → Bool) (ops : List (SeqOp α κ)) (xs : List α) (m : Meter) :
    4 * (meterRun eq xs m ops).cap ≤ max (4 * m.cap) (5 * peak eq xs ops + 4) := by
  induction ops generalizing xs m with
  | nil => simp only [meterRun]; omega
  | cons op ops ih =>
    have hp : (seqStep eq xs op).1.length ≤ peak eq (seqStep eq xs op).1 ops := by
      cases ops <;> simp only [peak] <;> omega
    have := ih (seqStep eq xs op).1 (meterStep eq xs m op)
    have hc : 4 * (meterStep eq xs m op).cap ≤ max (4 * m.cap) (5 * (seqStep eq xs op).1.length + 4) := by
      rcases costStep eq xs m op with ⟨hl, hm, hp⟩ | ⟨left, hl, hle, hm, hp, _⟩ | ⟨hl, hm, _⟩ | ⟨hl, hm⟩
      · by_cases hg : xs.length < m.cap
        · rw [hm, hl, grow_room hg]; simp only; omega
        · rw [hm, hl, grow_full hg]; simp only; omega
      · by_cases hs : left ≤ m.cap / 2 ∧ left ≤ 8 ∧ left < m.cap * 5 / 8
        · rw [hm, hl, shrink_yes hs]; simp only; omega
        · rw [hm, hl, shrink_no hs]; simp only; omega
      · rw [hm, hl]; simp only; omega
      · rw [hm, hl]; omega
    simp only [meterRun, peak]
    omega

theorem held_run (eq : α → κ → Bool) (ops : List (SeqOp α κ)) (xs : List α) (m : Meter)
    (hn : ∀ op ∈ ops, NotClear op) (ht : 9 ≤ trough eq xs ops) (h : xs.length ≤ m.cap) :
    m.cap ≤ (meterRun eq xs m ops).cap := by
  induction ops generalizing xs m with
  | nil => exact Nat.le_refl _
  | cons op ops ih =>
    have ht' : 9 ≤ min xs.length (trough eq (seqStep eq xs op).1 ops) := ht
    have htr : trough eq (seqStep eq xs op).1 ops ≤ (seqStep eq xs op).1.length := by
      cases ops <;> simp only [trough] <;> omega
    have := ih (seqStep eq xs op).1 (meterStep eq xs m op) (fun o ho => hn o (by simp [ho])) (by omega)
      (potential_step eq xs m op h).1
    refine Nat.le_trans ?_ this
    rcases costStep eq xs m op with ⟨hl, hm, hp⟩ | ⟨left, hl, hle, hm, hp, _⟩ | ⟨hl, hm, hc, _⟩ | ⟨hl, hm⟩
    · by_cases hg : xs.length < m.cap
      · rw [hm, grow_room hg]; exact Nat.le_refl _
      · rw [hm, grow_full hg]; simp only; omega
    · rw [hm, shrink_no (by omega)]; exact Nat.le_refl _
    · exact absurd (hn op (by simp)) hc
    · rw [hm]; exact Nat.le_refl _

/-- Without removals: `k` allocations need `(5/4)^(k-1)` elements. -/
theorem allocs_run (eq : α → κ → Bool) (ops : List (SeqOp α κ)) (xs : List α) (m : Meter)
    (hk : ∀ op ∈ ops, Keeps op) (h : xs.length ≤ m.cap)
    (h1 : 5 ^ m.allocs ≤ 4 ^ m.allocs * (m.cap + 1))
    (h2 : 0 < m.allocs → 5 ^ (m.allocs - 1) ≤ 4 ^ (m.allocs - 1) * xs.length) :
    0 < (meterRun eq xs m ops).allocs →
      5 ^ ((meterRun eq xs m ops).allocs - 1) ≤ 4 ^ ((meterRun eq xs m ops).allocs - 1) * (seqRun eq xs ops).1.length := by
  induction ops generalizing xs m with
  | nil => exact h2
  | cons op ops ih =>
    have hlen := (potential_step eq xs m op h).1
    refine ih (seqStep eq xs op).1 (meterStep eq xs m op) (fun o ho => hk o (by simp [ho])) hlen ?_ ?_
    · rcases costStep eq xs m op with ⟨hl, hm, hp⟩ | ⟨left, hl, hle, hm, hp, hn⟩ | ⟨hl, hm, _, hn⟩ | ⟨hl, hm⟩
      · by_cases hg : xs.length < m.cap
        · rw [hm, grow_room hg]; exact h1
        · rw [hm, grow_full hg]
          simp only [Nat.pow_succ]
          have e : 4 ^ m.allocs * (5 * (m.cap + 1)) ≤ 4 ^ m.allocs * (4 * ((xs.length + 1) * 5 / 4 + 1 + 1)) :=
            Nat.mul_le_mul_left _ (by omega)
          calc 5 ^ m.allocs * 5 ≤ 4 ^ m.allocs * (m.cap + 1) * 5 := Nat.mul_le_mul_right _ h1
            _ = 4 ^ m.allocs * (5 * (m.cap + 1)) := by rw [Nat.mul_assoc, Nat.mul_comm (m.cap + 1)]
            _ ≤ _ := e
            _ = _ := by rw [← Nat.mul_assoc]
      · exact absurd (hk op (by simp)) hn
      · exact absurd (hk op (by simp)) hn
      · rw [hm]; exact h1
    · rcases costStep eq xs m op with ⟨hl, hm, hp⟩ | ⟨left, hl, hle, hm, hp, hn⟩ | ⟨hl, hm, _, hn⟩ | ⟨hl, hm⟩
      · by_cases hg : xs.length < m.cap
        · rw [hm, hl, grow_room hg]
          intro h0
          exact Nat.le_trans (h2 h0) (Nat.mul_le_mul_left _ (by omega))
        · rw [hm, hl, grow_full hg]
          intro _
          simp only [Nat.add_sub_cancel]
          exact Nat.le_trans h1 (Nat.mul_le_mul_left _ (by omega))
      · exact absurd (hk op (by simp)) hn
      · exact absurd (hk op (by simp)) hn
      · rw [hm, hl]; exact h2

/-- **C103 (full statement).** For every history of calls on a new `List<T>`: the number of elements moved is at most
the number of elements behind the changed positions plus a constant per call, and the buffer is never larger than a
constant multiple of the number of elements in the list.  The second half does not hold
(`C103_violated_memory`). -/
def C103_statement : Prop :=
  ∃ c : Nat, ∀ (α κ : Type) (mv : Option α → Option α) (eq : α → κ → Bool) (ops : List (SeqOp α κ)),
    (∀ op ∈ ops, op.Valid) →
    ∃ l t rs, ListCost.run mv eq (ListC.empty, ⟨0, 0⟩) ops = some ((l, t), rs) ∧
      t.moves ≤ work eq [] ops ∧ l.capacity ≤ c * (l.count + 1)

/-- **C103 (proved part).** Every history moves at most the elements behind the changed positions, plus five per
insertion and ten per removal; counting changes nothing a caller can see. -/
theorem C103_work_partial (mv : Option α → Option α) (eq : α → κ → Bool) (ops : List (SeqOp α κ))
    (hv : ∀ op ∈ ops, op.Valid) :
    ∃ l t, ListCost.run mv eq (ListC.empty, ⟨0, 0⟩) ops = some ((l, t), (seqRun eq [] ops).2) ∧
      ListC.run mv eq ListC.empty ops = some (l, (seqRun eq [] ops).2) ∧ t.moves ≤ work eq [] ops := by
  obtain ⟨l, t, e, f, hr, hm⟩ := run_ok mv eq ops hv (Repr.empty) ⟨0, 0⟩
  refine ⟨l, t, e, f, ?_⟩
  have h1 : t.moves = (meterRun eq [] ⟨0, 0, 0⟩ ops).moves := congrArg Meter.moves hm
  have := potential_run eq ops [] ⟨0, 0, 0⟩ (Nat.zero_le _)
  rw [h1]
  simpa using this

/-- Exactly what is moved and allocated, and how large the buffer is: a full buffer grows to a quarter more than
needed and everything moves; a buffer with at most eight and at most half of its places used shrinks to five
eighths; otherwise exactly the elements behind the position move. -/
theorem C103_exact (mv : Option α → Option α) (eq : α → κ → Bool) (ops : List (SeqOp α κ))
    (hv : ∀ op ∈ ops, op.Valid) :
    ∃ l t, ListCost.run mv eq (ListC.empty, ⟨0, 0⟩) ops = some ((l, t), (seqRun eq [] ops).2) ∧
      l.count = (seqRun eq [] ops).1.length ∧
      (⟨l.capacity.toNat, t.moves, t.allocs⟩ : Meter) = meterRun eq [] ⟨0, 0, 0⟩ ops := by
  obtain ⟨l, t, e, f, hr, hm⟩ := run_ok mv eq ops hv (Repr.empty) ⟨0, 0⟩
  exact ⟨l, t, e, hr.count, hm⟩

/-- The buffer is never larger than a quarter more than the largest number of elements the list ever had. -/
theorem C103_memory (mv : Option α → Option α) (eq : α → κ → Bool) (ops : List (SeqOp α κ))
    (hv : ∀ op ∈ ops, op.Valid) :
    ∃ l t, ListCost.run mv eq (ListC.empty, ⟨0, 0⟩) ops = some ((l, t), (seqRun eq [] ops).2) ∧
      l.buffer.size = l.capacity ∧ 4 * l.capacity ≤ 5 * peak eq [] ops + 4 := by
  obtain ⟨l, t, e, f, hr, hm⟩ := run_ok mv eq ops hv (Repr.empty) ⟨0, 0⟩
  refine ⟨l, t, e, hr.size, ?_⟩
  have h1 : l.capacity.toNat = (meterRun eq [] ⟨0, 0, 0⟩ ops).cap := congrArg Meter.cap hm
  have := peak_run eq ops [] ⟨0, 0, 0⟩
  rw [← h1] at this
  simp only at this
  omega

/-- As long as nothing is removed, the number `k` of allocations is logarithmic in the number of elements:
`(5/4)^(k-1)` is at most the number of elements. -/
theorem C103_allocations (mv : Option α → Option α) (eq : α → κ → Bool) (ops : List (SeqOp α κ))
    (hk : ∀ op ∈ ops, Keeps op) :
    ∃ l t, ListCost.run mv eq (ListC.empty, ⟨0, 0⟩) ops = some ((l, t), (seqRun eq [] ops).2) ∧
      (0 < t.allocs → 5 ^ (t.allocs - 1) ≤ 4 ^ (t.allocs - 1) * (seqRun eq [] ops).1.length) := by
  have hv : ∀ op ∈ ops, op.Valid := by
    intro op ho
    have := hk op ho
    cases op <;> first | exact trivial | exact absurd this id
  obtain ⟨l, t, e, f, hr, hm⟩ := run_ok mv eq ops hv (Repr.empty) ⟨0, 0⟩
  refine ⟨l, t, e, ?_⟩
  have h1 : t.allocs = (meterRun eq [] ⟨0, 0, 0⟩ ops).allocs := congrArg Meter.allocs hm
  rw [h1]
  exact allocs_run eq ops [] _ hk (Nat.zero_le _) (by simp) (by simp)

/-- Whatever is removed, a list that keeps nine elements keeps its whole buffer unless `Clear` is called. -/
theorem C103_held (mv : Option α → Option α) (eq : α → κ → Bool) (ops : List (SeqOp α κ))
    (hv : ∀ op ∈ ops, op.Valid) (hn : ∀ op ∈ ops, NotClear op) {l : ListC α} {xs : List α} (h : Repr l xs)
    (t : Tally) (ht : 9 ≤ trough eq xs ops) :
    ∃ l' t', ListCost.run mv eq (l, t) ops = some ((l', t'), (seqRun eq xs ops).2) ∧ l.capacity ≤ l'.capacity := by
  obtain ⟨l', t', e, _, hr, hm⟩ := run_ok mv eq ops hv h t
  refine ⟨l', t', e, ?_⟩
  have h1 : l'.capacity.toNat = (meterRun eq xs (meterOf l t) ops).cap := by rw [← hm]; rfl
  have hc := h.count
  have hle := h.le
  have hle' := hr.le
  have hc' := hr.count
  have := held_run eq ops xs (meterOf l t) hn ht (show xs.length ≤ l.capacity.toNat by omega)
  have h2 : (meterOf l t).cap = l.capacity.toNat := rfl
  omega

theorem meterRun_append (eq : α → κ → Bool) (as bs : List (SeqOp α κ)) (xs : List α) (m : Meter) :
    meterRun eq xs m (as ++ bs) = meterRun eq (seqRun eq xs as).1 (meterRun eq xs m as) bs := by
  induction as generalizing xs m with
  | nil => rfl
  | cons a as ih => exact ih _ _

theorem seqRun_append_fst (eq : α → κ → Bool) (as bs : List (SeqOp α κ)) (xs : List α) :
    (seqRun eq xs (as ++ bs)).1 = (seqRun eq (seqRun eq xs as).1 bs).1 := by
  induction as generalizing xs with
  | nil => rfl
  | cons a as ih => exact ih _

theorem seqRun_adds_length (eq : α → κ → Bool) (v : α) (k : Nat) (xs : List α) :
    (seqRun eq xs (List.replicate k (.add v))).1.length = xs.length + k := by
  induction k generalizing xs with
  | zero => rfl
  | succ k ih =>
    have := ih (xs ++ [v])
    simp only [List.replicate_succ, seqRun, seqStep]
    rw [this]
    simp; omega

theorem cap_run (eq : α → κ → Bool) (ops : List (SeqOp α κ)) (xs : List α) (m : Meter) (h : xs.length ≤ m.cap) :
    (seqRun eq xs ops).1.length ≤ (meterRun eq xs m ops).cap := by
  induction ops generalizing xs m with
  | nil => exact h
  | cons op ops ih => exact ih _ _ (potential_step eq xs m op h).1

/-- The buffer of a list of nine elements can be as large as you like: add `n + 9` elements and remove `n`. -/
theorem C103_violated_nine (mv : Option α → Option α) (eq : α → κ → Bool) (v : α) (n : Nat) :
    ∃ l t rs, ListCost.run mv eq (ListC.empty, ⟨0, 0⟩)
        (List.replicate (n + 9) (.add v) ++ [.removeRange 9 n]) = some ((l, t), rs) ∧
      l.count = 9 ∧ n + 9 ≤ l.capacity := by
  obtain ⟨l, t, e, hc, hm⟩ := C103_exact mv eq (List.replicate (n + 9) (.add v) ++ [.removeRange 9 (n : Int)])
    (by
      intro op ho
      rcases List.mem_append.1 ho with h | h
      · rw [(List.mem_replicate.1 h).2]; exact trivial
      · rw [List.mem_singleton.1 h]; exact Int.natCast_nonneg n)
  have hl : (seqRun eq [] (List.replicate (n + 9) (.add v))).1.length = n + 9 := by
    rw [seqRun_adds_length]; simp
  have hs : (seqStep eq (seqRun eq [] (List.replicate (n + 9) (.add v))).1 (.removeRange 9 (n : Int))).1.length = 9 := by
    simp only [seqStep]
    rw [if_pos (by omega)]
    simp [hl]
    omega
  refine ⟨l, t, _, e, ?_, ?_⟩
  · rw [hc, seqRun_append_fst]
    exact congrArg Int.ofNat hs
  · have h1 : l.capacity.toNat = _ := congrArg Meter.cap hm
    rw [meterRun_append] at h1
    have h2 := cap_run eq (List.replicate (n + 9) (.add v)) [] ⟨0, 0, 0⟩ (Nat.le_refl _)
    have h3 := held_run eq [.removeRange 9 (n : Int)] (seqRun eq [] (List.replicate (n + 9) (.add v))).1
      (meterRun eq [] ⟨0, 0, 0⟩ (List.replicate (n + 9) (.add v)))
      (by intro op ho; rw [List.mem_singleton.1 ho]; exact trivial)
      (by simp only [trough]; rw [hs]; omega) h2
    omega

/-- **C103 is violated**: the memory of a list does not follow its elements. -/
theorem C103_violated_memory : ¬ C103_statement := by
  rintro ⟨c, h⟩
  obtain ⟨l, t, rs, e, hc, hn⟩ := C103_violated_nine (κ := Nat) id (fun x y => x == y) 0 (10 * c)
  obtain ⟨l', t', rs', e', _, hcap⟩ := h Nat Nat id (fun x y => x == y)
    (List.replicate (10 * c + 9) (.add 0) ++ [.removeRange 9 ((10 * c : Nat) : Int)])
    (by
      intro op ho
      rcases List.mem_append.1 ho with h | h
      · rw [(List.mem_replicate.1 h).2]; exact trivial
      · rw [List.mem_singleton.1 h]; exact Int.natCast_nonneg _)
  rw [e] at e'
  cases e'
  rw [hc] at hcap
  omega

/-! ## Concrete cases -/

/-- Four additions and an insertion at the front: the buffer grows from 0 to 2, 4 and 7 elements. -/
example : meterRun (κ := Nat) (fun x y => x == y) [] ⟨0, 0, 0⟩
    [.add 1, .add 2, .add 3, .add 4, .insert 0 5, .insert 0 6] = ⟨7, 11, 3⟩ ∧
    work (κ := Nat) (fun x y => x == y) [] [.add 1, .add 2, .add 3, .add 4, .insert 0 5, .insert 0 6] = 39 := by
  decide

/-- The hypotheses of `C103_held` are met by a list of ten elements from which one is removed. -/
example : 9 ≤ trough (κ := Nat) (fun x y => x == y) (List.range 10) [.removeAt 3, .add 7] := by decide

example : ∀ op ∈ ([.add 1, .insert 0 2, .get 0] : List (SeqOp Nat Nat)), Keeps op := by
  intro op h
  simp only [List.mem_cons, List.not_mem_nil, or_false] at h
  rcases h with rfl | rfl | rfl <;> exact trivial

end Vlpp
