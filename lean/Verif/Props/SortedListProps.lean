import Verif.Lemmas.SortedListC

/-!
# Properties C06-C08: `SortedList<T>`
-/
set_option autoImplicit false
namespace Vlpp
open SortedListC SortedSeq
variable {α κ : Type}

/-- `RemoveRange` counts are non-negative (see C04). -/
def Spec.SortedOp.Valid : Spec.SortedOp α κ → Prop
  | .removeRange _ n => 0 ≤ n
  | _ => True

theorem ascending_remove {ord : κ → κ → Ordering} {key : α → κ} {xs : List α} (h : Spec.Ascending ord key xs)
    (i j : Nat) (hij : i ≤ j) : Spec.Ascending ord key (xs.take i ++ xs.drop j) := by
  refine h.sublist ?_
  conv => rhs; rw [← List.take_append_drop i xs]
  apply List.Sublist.append (List.Sublist.refl _)
  rw [show xs.drop j = (xs.drop i).drop (j - i) by rw [List.drop_drop]; congr 1; omega]
  exact List.drop_sublist _ _

theorem sorted_step_refines (mv : Option α → Option α) {cmp : α → κ → Option Ordering} {ord : κ → κ → Ordering}
    {key : α → κ} [Std.TransCmp ord] (hcmp : Compares cmp ord key) {l : ListC α} {xs : List α}
    (h : ListC.Repr l xs) (hasc : Spec.Ascending ord key xs) (op : Spec.SortedOp α κ) (hv : op.Valid) :
    ∃ l' xs' r, SortedListC.step mv cmp key l op = some (l', r) ∧ ListC.Repr l' xs' ∧
      Spec.SortedStep ord key xs op xs' r ∧ Spec.Ascending ord key xs' := by
  cases op with
  | add v =>
    obtain ⟨p, hp, e, hb, ha⟩ := add_spec hcmp hasc v
    have hsim := add_sim mv h cmp key v
    rw [e] at hsim
    generalize ho : SortedListC.add mv cmp key v l = o at hsim
    cases hsim with
    | ok hr =>
      have := ascending_insert hasc hp hb ha
      exact ⟨_, _, _, by simp [SortedListC.step, ho, ListC.observe], hr, .add p hp this, this⟩
  | remove k =>
    have hsim := remove_sim mv h cmp k
    unfold SortedSeq.remove at hsim
    rcases indexOf_spec hcmp hasc k with ⟨i, hi, e, heq⟩ | ⟨e, hne⟩
    · rw [Cpp.bind_ok e, Cpp.bind_ok (Cpp.get_apply xs), if_pos (by omega)] at hsim
      have e2 : SortedSeq.removeAt (i : Int) xs = .ok true (xs.take i ++ xs.drop (i + 1)) := by
        unfold SortedSeq.removeAt
        rw [Cpp.bind_ok (Cpp.get_apply xs), Cpp.bind_ok (Cpp.check_true (by omega) xs)]
        rfl
      rw [Cpp.bind_ok e2, Cpp.pure_apply] at hsim
      generalize ho : SortedListC.remove mv cmp k l = o at hsim
      cases hsim with
      | ok hr =>
        exact ⟨_, _, _, by simp [SortedListC.step, ho, ListC.observe], hr, .removeHit i hi heq,
          ascending_remove hasc _ _ (by omega)⟩
    · rw [Cpp.bind_ok e, Cpp.bind_ok (Cpp.get_apply xs), if_neg (by omega), Cpp.pure_apply] at hsim
      generalize ho : SortedListC.remove mv cmp k l = o at hsim
      cases hsim with
      | ok hr =>
        exact ⟨_, _, _, by simp [SortedListC.step, ho, ListC.observe], hr, .removeMiss hne, hasc⟩
  | removeAt i =>
    by_cases hi : 0 ≤ i ∧ i < (xs.length : Int)
    · obtain ⟨l', e, h'⟩ := ListC.removeAt_ok mv h i hi.1 hi.2
      exact ⟨l', _, _, by simp [SortedListC.step, e, ListC.observe], h', .removeAt hi,
        ascending_remove hasc _ _ (by omega)⟩
    · exact ⟨l, xs, _, by simp [SortedListC.step, ListC.removeAt_err mv h i hi, ListC.observe], h,
        .removeAtErr hi, hasc⟩
  | removeRange i n =>
    have hn : 0 ≤ n := hv
    by_cases hi : 0 ≤ i ∧ 0 ≤ n ∧ i + n ≤ (xs.length : Int)
    · obtain ⟨l', e, h'⟩ := ListC.removeRange_ok mv h i n hi.1 hn hi.2.2
      exact ⟨l', _, _, by simp [SortedListC.step, e, ListC.observe], h', .removeRange hi,
        ascending_remove hasc _ _ (by omega)⟩
    · exact ⟨l, xs, _, by simp [SortedListC.step, ListC.removeRange_err mv h i n (by omega), ListC.observe], h,
        .removeRangeErr hi, hasc⟩
  | clear =>
    exact ⟨_, [], _, by simp [SortedListC.step, ListC.clear_ok h, ListC.observe], ListC.Repr.empty, .clear,
      List.Pairwise.nil⟩
  | get i =>
    by_cases hi : 0 ≤ i ∧ i < (xs.length : Int)
    · have := ListC.get_ok h i.toNat (by omega)
      obtain ⟨m, rfl⟩ : ∃ m : Nat, i = m := ⟨i.toNat, by omega⟩
      exact ⟨l, xs, _, by simp [SortedListC.step, ListC.get_ok h m (by omega), ListC.observe], h,
        .get m (by omega), hasc⟩
    · exact ⟨l, xs, _, by simp [SortedListC.step, ListC.get_err h i hi, ListC.observe], h, .getErr hi, hasc⟩
  | count => exact ⟨l, xs, _, by simp [SortedListC.step, h.count], h, .count, hasc⟩
  | indexOf k =>
    have hsim := indexOf_sim h cmp k
    rcases indexOf_spec hcmp hasc k with ⟨i, hi, e, heq⟩ | ⟨e, hne⟩
    · rw [e] at hsim
      generalize ho : SortedListC.indexOf cmp k l = o at hsim
      cases hsim with
      | ok hr => exact ⟨_, _, _, by simp [SortedListC.step, ho, ListC.observe], hr, .indexOfHit i hi heq, hasc⟩
    · rw [e] at hsim
      generalize ho : SortedListC.indexOf cmp k l = o at hsim
      cases hsim with
      | ok hr => exact ⟨_, _, _, by simp [SortedListC.step, ho, ListC.observe], hr, .indexOfMiss hne, hasc⟩
  | contains k =>
    have hsim := contains_sim h cmp k
    unfold SortedSeq.contains at hsim
    rcases indexOf_spec hcmp hasc k with ⟨i, hi, e, heq⟩ | ⟨e, hne⟩
    · rw [Cpp.bind_ok e, Cpp.pure_apply] at hsim
      generalize ho : SortedListC.contains cmp k l = o at hsim
      cases hsim with
      | ok hr =>
        refine ⟨_, _, .flag true, ?_, hr, .containsYes ⟨_, List.getElem_mem hi, heq⟩, hasc⟩
        simp [SortedListC.step, ho, ListC.observe]
    · rw [Cpp.bind_ok e, Cpp.pure_apply] at hsim
      generalize ho : SortedListC.contains cmp k l = o at hsim
      cases hsim with
      | ok hr =>
        exact ⟨_, _, .flag false, by simp [SortedListC.step, ho, ListC.observe], hr, .containsNo hne, hasc⟩

theorem sorted_run_refines (mv : Option α → Option α) {cmp : α → κ → Option Ordering} {ord : κ → κ → Ordering}
    {key : α → κ} [Std.TransCmp ord] (hcmp : Compares cmp ord key) (ops : List (Spec.SortedOp α κ))
    (hv : ∀ op ∈ ops, op.Valid) {l : ListC α} {xs : List α}
    (h : ListC.Repr l xs) (hasc : Spec.Ascending ord key xs) :
    ∃ l' xs' rs, SortedListC.run mv cmp key l ops = some (l', rs) ∧ ListC.Repr l' xs' ∧
      Spec.SortedRun ord key xs ops xs' rs ∧ Spec.Ascending ord key xs' := by
  induction ops generalizing l xs with
  | nil => exact ⟨l, xs, [], rfl, h, .nil, hasc⟩
  | cons op ops ih =>
    obtain ⟨l1, xs1, r, e1, h1, s1, a1⟩ := sorted_step_refines mv hcmp h hasc op (hv op (by simp))
    obtain ⟨l2, xs2, rs, e2, h2, s2, a2⟩ := ih (fun o ho => hv o (by simp [ho])) h1 a1
    exact ⟨l2, xs2, r :: rs, by simp [SortedListC.run, e1, e2], h2, .cons s1 s2, a2⟩

/-- **C06 and C07.** For every total (pre)order on keys, every history of calls on a new `SortedList` is free of
undefined behaviour, follows the specification of a sorted multiset step by step (in particular `Add` puts the element
at the returned index, `Remove` removes exactly one equal element, `IndexOf`/`Contains` find an equal element exactly
when there is one), and the stored sequence is ascending. The list can be destroyed afterwards. -/
theorem C06_sortedlist (mv : Option α → Option α) {cmp : α → κ → Option Ordering} {ord : κ → κ → Ordering}
    {key : α → κ} [Std.TransCmp ord] (hcmp : ∀ x k, cmp x k = some (ord (key x) k))
    (ops : List (Spec.SortedOp α κ)) (hv : ∀ op ∈ ops, op.Valid) :
    ∃ l xs rs, SortedListC.run mv cmp key ListC.empty ops = some (l, rs) ∧
      Spec.SortedRun ord key [] ops xs rs ∧ Spec.Ascending ord key xs ∧
      l.count = xs.length ∧ (∀ (i : Nat) (h : i < xs.length), ListC.get (i : Int) l = .ok xs[i] l) ∧
      ListC.destructor l = .ok () l := by
  obtain ⟨l, xs, rs, e, h, hs, ha⟩ := sorted_run_refines mv hcmp ops hv ListC.Repr.empty List.Pairwise.nil
  exact ⟨l, xs, rs, e, hs, ha, h.count, fun i hi => ListC.get_ok h i hi, ListC.destructor_ok h⟩

/-- Each step of the specification changes the multiset of elements exactly as the operation says. -/
theorem C06_multiset {ord : κ → κ → Ordering} {key : α → κ} {xs xs' : List α} {op : Spec.SortedOp α κ}
    {r : Spec.SeqRet α} (h : Spec.SortedStep ord key xs op xs' r) :
    match op with
    | .add v => xs'.Perm (v :: xs)
    | .remove k => (r = .flag true ∧ ∃ x, ord (key x) k = .eq ∧ xs.Perm (x :: xs')) ∨
        (r = .flag false ∧ xs' = xs ∧ ∀ x ∈ xs, ord (key x) k ≠ .eq)
    | .removeAt i => xs' = xs ∨ ∃ x, xs[i.toNat]? = some x ∧ xs.Perm (x :: xs')
    | .clear => xs' = []
    | .removeRange i n => xs' = xs ∨ xs.Perm ((xs.drop i.toNat).take n.toNat ++ xs')
    | _ => xs' = xs := by
  cases h with
  | add i hi _ =>
    show (xs.take i ++ _ :: xs.drop i).Perm (_ :: xs)
    refine List.perm_middle.trans ?_
    rw [List.take_append_drop]
  | removeHit i hi heq =>
    left
    refine ⟨rfl, xs[i], heq, ?_⟩
    conv => lhs; rw [← List.take_append_drop i xs, List.drop_eq_getElem_cons hi]
    exact List.perm_middle
  | removeMiss h => right; exact ⟨rfl, rfl, h⟩
  | @removeAt i hi =>
    right
    have hlt : i.toNat < xs.length := by omega
    refine ⟨xs[i.toNat], List.getElem?_eq_getElem hlt, ?_⟩
    conv => lhs; rw [← List.take_append_drop i.toNat xs, List.drop_eq_getElem_cons hlt]
    exact List.perm_middle
  | removeAtErr _ => left; rfl
  | @removeRange i n hi =>
    right
    conv => lhs; rw [← List.take_append_drop i.toNat xs, ← List.take_append_drop n.toNat (xs.drop i.toNat),
      List.drop_drop]
    rw [show i.toNat + n.toNat = (i + n).toNat by omega, ← List.append_assoc, ← List.append_assoc]
    exact (List.perm_append_comm).append_right _
  | removeRangeErr _ => left; rfl
  | clear => rfl
  | get _ _ => rfl
  | getErr _ => rfl
  | count => rfl
  | indexOfHit _ _ _ => rfl
  | indexOfMiss _ => rfl
  | containsYes _ => rfl
  | containsNo _ => rfl

/-- **C07.** On a list that stores an ascending sequence, `IndexOf` returns an index of an equal element if there is
one and -1 otherwise, and `Contains` tells whether there is one. -/
theorem C07_search {cmp : α → κ → Option Ordering} {ord : κ → κ → Ordering} {key : α → κ} [Std.TransCmp ord]
    (hcmp : ∀ x k, cmp x k = some (ord (key x) k)) {l : ListC α} {xs : List α} (h : ListC.Repr l xs)
    (hasc : Spec.Ascending ord key xs) (k : κ) :
    ∃ i b, SortedListC.indexOf cmp k l = .ok i l ∧ SortedListC.contains cmp k l = .ok b l ∧
      (b = true ↔ ∃ x ∈ xs, ord (key x) k = .eq) ∧
      ((∃ x ∈ xs, ord (key x) k = .eq) → ∃ x, 0 ≤ i ∧ xs[i.toNat]? = some x ∧ ord (key x) k = .eq) ∧
      ((∀ x ∈ xs, ord (key x) k ≠ .eq) → i = -1) := by
  have hint := indexOfInternal_sim h cmp k
  have hstate : ∀ i l', SortedListC.indexOf cmp k l = .ok i l' → l' = l := by
    intro i l' e
    unfold SortedListC.indexOf at e
    rw [Cpp.bind_apply] at e
    cases ho : SortedListC.indexOfInternal cmp k l with
    | ok v l1 =>
      rw [ho] at e
      have := indexOfInternal_stateC cmp k ho
      subst this
      cases e; rfl
    | err _ => rw [ho] at e; cases e
    | fault => rw [ho] at e; cases e
  have hsim := indexOf_sim h cmp k
  have hfin : ∀ i, SortedListC.indexOf cmp k l = .ok i l → SortedListC.contains cmp k l = .ok (decide (i ≠ -1)) l := by
    intro i e
    unfold SortedListC.contains
    rw [Cpp.bind_ok e]; rfl
  rcases indexOf_spec hcmp hasc k with ⟨i, hi, e, heq⟩ | ⟨e, hne⟩
  · rw [e] at hsim
    generalize ho : SortedListC.indexOf cmp k l = o at hsim
    cases hsim with
    | ok hr =>
      have := hstate _ _ ho
      subst this
      refine ⟨_, _, rfl, hfin _ ho, ?_, ?_, ?_⟩
      · simp only [decide_eq_true_eq]
        exact ⟨fun _ => ⟨_, List.getElem_mem hi, heq⟩, fun _ => by omega⟩
      · intro _; exact ⟨xs[i], by omega, by simp [hi], heq⟩
      · intro hn; exact absurd heq (hn _ (List.getElem_mem hi))
  · rw [e] at hsim
    generalize ho : SortedListC.indexOf cmp k l = o at hsim
    cases hsim with
    | ok hr =>
      have := hstate _ _ ho
      subst this
      refine ⟨_, _, rfl, hfin _ ho, ?_, ?_, fun _ => rfl⟩
      · simp only [decide_eq_true_eq]
        exact ⟨fun hf => absurd rfl hf, fun ⟨x, hx, he⟩ => absurd he (hne x hx)⟩
      · intro ⟨x, hx, he⟩; exact absurd he (hne x hx)

/-- **C07, any comparator.** Even for a comparator that is not an order at all (it may also answer "unordered", which
is an Error), searching never reads outside the list. -/
theorem C07_search_any_comparator (cmp : α → κ → Option Ordering) {l : ListC α} {xs : List α}
    (h : ListC.Repr l xs) (k : κ) : SortedListC.indexOf cmp k l = .err l ∨ ∃ i, SortedListC.indexOf cmp k l = .ok i l := by
  have hc := h.count
  have := searchLoop_no_fault (ListC.readVal l.buffer) cmp k xs.length
    (fun i h0 h1 => by
      have := ListC.readVal_ok h i.toNat (by omega)
      rw [Int.toNat_of_nonneg h0] at this
      rw [this]; rfl) 0 (xs.length - 1) (-1) (by omega) (by omega)
  unfold SortedListC.indexOf SortedListC.indexOfInternal
  rw [Cpp.bind_apply, Cpp.bind_ok (Cpp.get_apply l), hc]
  rcases this with h1 | ⟨r, i, h1, _⟩
  · left; rw [h1]; rfl
  · right; rw [h1]; exact ⟨r, rfl⟩

/-- The documentation of `IndexOf` ("position of first element that equals") does not hold: in `[1, 1, 1]` the search
for 1 returns index 1. -/
theorem C07_indexOf_first_violated :
    SortedSeq.indexOf (fun (x k : Nat) => some (compare x k)) 1 [1, 1, 1] = .ok 1 [1, 1, 1] := by
  unfold SortedSeq.indexOf SortedSeq.indexOfInternal
  simp only [Cpp.bind_apply, Cpp.get_apply]
  unfold searchLoop
  simp [SortedSeq.read, liftSearch]

/-- **C08 is violated**: copy-constructing a `SortedList` from a `const` source gives a list with the source's elements,
but the source has lost them (unless it was empty). -/
theorem C08_copy_violated {l : ListC α} {xs : List α} (h : ListC.Repr l xs) (hne : xs ≠ []) :
    ListC.Repr (copyConstruct l).1 xs ∧ (copyConstruct l).2.count = 0 ∧ (copyConstruct l).2.count ≠ l.count := by
  refine ⟨⟨h.size, h.count, h.le, h.live, h.raw⟩, rfl, ?_⟩
  rw [h.count]
  show (0 : Int) ≠ xs.length
  have := List.length_pos_iff.2 hne
  omega

/-- **C08, what does hold**: the new list has exactly the source's elements, both lists remain valid (nothing is shared
or leaked), and an empty source is unchanged. -/
theorem C08_copy_partial {l : ListC α} {xs : List α} (h : ListC.Repr l xs) :
    ListC.Repr (copyConstruct l).1 xs ∧ ListC.Repr (copyConstruct l).2 [] ∧
      ListC.destructor (copyConstruct l).1 = .ok () (copyConstruct l).1 ∧
      ListC.destructor (copyConstruct l).2 = .ok () (copyConstruct l).2 := by
  have h1 : ListC.Repr (copyConstruct l).1 xs := ⟨h.size, h.count, h.le, h.live, h.raw⟩
  exact ⟨h1, ListC.Repr.empty, ListC.destructor_ok h1, ListC.destructor_ok ListC.Repr.empty⟩

/-! Non-vacuity: natural numbers with their usual order; a history with duplicates, a search and a removal. -/
example : (∀ (x k : Nat), (fun (x k : Nat) => some (compare x k)) x k = some (compare (id x) k)) ∧
    Std.TransCmp (compare : Nat → Nat → Ordering) ∧
    (∀ op ∈ ([.add 3, .add 1, .add 3, .indexOf 3, .remove 1, .removeRange 0 1] : List (Spec.SortedOp Nat Nat)),
      op.Valid) := by
  refine ⟨fun _ _ => rfl, inferInstance, ?_⟩
  intro op h
  simp at h
  rcases h with h | h | h | h | h | h <;> subst h <;> simp [Spec.SortedOp.Valid]

example : ∃ l : ListC Nat, ListC.Repr l [5, 6] ∧ ([5, 6] : List Nat) ≠ [] ∧
    Spec.Ascending compare id [5, 6] := by
  refine ⟨⟨⟨2, fun i => if i = 0 then .obj (some 5) else .obj (some 6)⟩, 2, 2⟩, ⟨rfl, rfl, by decide, ?_, ?_⟩,
    by decide, ?_⟩
  · intro i h0 h1; simp at h1
    rcases (by omega : i = 0 ∨ i = 1) with h | h <;> subst h <;> rfl
  · intro i h0 h1; simp at h0 h1; omega
  · simp [Spec.Ascending]; decide

end Vlpp
