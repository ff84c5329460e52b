import Verif.Lemmas.ListWorld
import Verif.Props.ListProps
import Verif.Props.SortedListProps

/-!
# Properties C02 and C06 on a heap: many `List<T>`s and `SortedList<T>`s
-/
set_option autoImplicit false
namespace Vlpp
variable {α κ β : Type}

theorem ListH.call_step {F : Nat → Option (Block α)} {s : Heap α × ListH} {c c' : ListC α} {m : Cpp (Heap α × ListH) β}
    {m' : Cpp (ListC α) β} {f : β → Spec.SeqRet α} {r : Spec.SeqRet α} (h : Cpp.Refines (ListH.Rel F) m m')
    (hr : ListH.Rel F s c) (e : ListC.observe f (m' c) = some (c', r)) :
    (∃ s', (do return f (← m) : Cpp (Heap α × ListH) (Spec.SeqRet α)) s = .ok r s' ∧ ListH.Rel F s' c') ∨
    (∃ s', (do return f (← m) : Cpp (Heap α × ListH) (Spec.SeqRet α)) s = .err s' ∧ ListH.Rel F s' c' ∧ r = .error) := by
  have := h s c hr
  rw [Cpp.bind_apply]
  generalize m s = o at this
  generalize m' c = o' at this e
  cases this with
  | ok h =>
    simp only [ListC.observe, Option.some.injEq, Prod.mk.injEq] at e
    obtain ⟨rfl, rfl⟩ := e
    exact .inl ⟨_, rfl, h⟩
  | err h =>
    simp only [ListC.observe, Option.some.injEq, Prod.mk.injEq] at e
    obtain ⟨rfl, rfl⟩ := e
    exact .inr ⟨_, rfl, h, rfl⟩
  | fault => simp [ListC.observe] at e

theorem ListH.step_refines (mv : Option α → Option α) (eq : α → κ → Bool) {F : Nat → Option (Block α)}
    {s : Heap α × ListH} {c c' : ListC α} (op : Spec.SeqOp α κ) {r : Spec.SeqRet α} (hr : ListH.Rel F s c)
    (e : ListC.step mv eq c op = some (c', r)) :
    (∃ s', ListH.step mv eq op s = .ok r s' ∧ ListH.Rel F s' c') ∨
    (∃ s', ListH.step mv eq op s = .err s' ∧ ListH.Rel F s' c' ∧ r = .error) := by
  cases op with
  | add v => exact call_step (add_refines mv v) hr e
  | insert i v => exact call_step (insert_refines mv i v) hr e
  | set i v => exact call_step (setAt_refines i v) hr e
  | remove k => exact call_step (remove_refines mv eq k) hr e
  | removeAt i => exact call_step (removeAt_refines mv i) hr e
  | removeRange i n => exact call_step (removeRange_refines mv i n) hr e
  | clear => exact call_step clear_refines hr e
  | get i => exact call_step (reading_refines (readOnly_get i)) hr e
  | count =>
    simp only [ListC.step, Option.some.injEq, Prod.mk.injEq] at e
    obtain ⟨rfl, rfl⟩ := e
    refine .inl ⟨s, ?_, hr⟩
    rw [← show s.2.count = c.count from hr.count]
    rfl
  | indexOf k => exact call_step (reading_refines (readOnly_indexOf eq k)) hr e
  | contains k => exact call_step (reading_refines (readOnly_contains eq k)) hr e

theorem ListH.sortedStep_refines (mv : Option α → Option α) (cmp : α → κ → Option Ordering) (key : α → κ)
    {F : Nat → Option (Block α)} {s : Heap α × ListH} {c c' : ListC α} (op : Spec.SortedOp α κ) {r : Spec.SeqRet α}
    (hr : ListH.Rel F s c) (e : SortedListC.step mv cmp key c op = some (c', r)) :
    (∃ s', ListH.sortedStep mv cmp key op s = .ok r s' ∧ ListH.Rel F s' c') ∨
    (∃ s', ListH.sortedStep mv cmp key op s = .err s' ∧ ListH.Rel F s' c' ∧ r = .error) := by
  cases op with
  | add v => exact call_step (sortedAdd_refines mv cmp key v) hr e
  | remove k => exact call_step (sortedRemove_refines mv cmp k) hr e
  | removeAt i => exact call_step (removeAt_refines mv i) hr e
  | removeRange i n => exact call_step (removeRange_refines mv i n) hr e
  | clear => exact call_step clear_refines hr e
  | get i => exact call_step (reading_refines (readOnly_get i)) hr e
  | count =>
    simp only [SortedListC.step, Option.some.injEq, Prod.mk.injEq] at e
    obtain ⟨rfl, rfl⟩ := e
    refine .inl ⟨s, ?_, hr⟩
    rw [← show s.2.count = c.count from hr.count]
    rfl
  | indexOf k => exact call_step (reading_refines (readOnly_sortedIndexOf cmp k)) hr e
  | contains k => exact call_step (reading_refines (readOnly_sortedContains cmp k)) hr e

theorem Spec.MoveRun.eq_moveRun {C Op Ret : Type} {step : C → Op → C × Ret} {empty : C} {moved refused : Ret}
    {w w' : Nat → C} {ops : List (Spec.MoveOp Op)} {rs : List Ret}
    (h : Spec.MoveRun (fun x op x' r => step x op = (x', r)) empty moved refused w ops w' rs) :
    Spec.moveRun step empty moved refused w ops = (w', rs) := by
  induction h with
  | nil w => rfl
  | cons h1 _ ih =>
    unfold Spec.moveRun
    have : ∀ {w w' : Nat → C} {op : Spec.MoveOp Op} {r : Ret},
        Spec.MoveStep (fun x op x' r => step x op = (x', r)) empty moved refused w op w' r →
        Spec.moveStep step empty moved refused w op = (w', r) := by
      intro w w' op r h
      cases h with
      | call i op x r h => simp only [Spec.moveStep, h]
      | moveAssign i j => rfl
      | refused i => simp [Spec.moveStep]
      | moveConstruct i j hij => simp [Spec.moveStep, hij]
      | renew i => rfl
    simp only [this h1, ih]

/-- The heap holds the buffers of the lists and nothing else, and no buffer belongs to two lists. Each buffer holds the
elements of its list. -/
structure ListWorld.Holds (w : ListWorld α) (xs : Nat → List α) : Prop where
  /-- every block is the buffer of a list -/
  noLeak : ∀ a, w.heap.block a ≠ none → ∃ i, (w.lists i).buffer = some a
  /-- of one list only -/
  unshared : ∀ i j a, (w.lists i).buffer = some a → (w.lists j).buffer = some a → i = j
  /-- the first cells of the buffer are the elements, the others hold no object -/
  cells : ∀ i a, (w.lists i).buffer = some a → ∃ b, w.heap.block a = some b ∧ (w.lists i).capacity = b.size ∧
    ∀ k : Nat, k < b.size → b.cell k = (match (xs i)[k]? with | some v => .obj (some v) | none => .raw)
  /-- a list without a buffer is empty -/
  empty : ∀ i, (w.lists i).buffer = none → xs i = []
  count : ∀ i, (w.lists i).count = (xs i).length

theorem ListWorld.Rel.holds {w : ListWorld α} {cs : Nat → ListC α} {xs : Nat → List α} (hw : ListWorld.Rel w cs)
    (hp : ∀ n, ListC.Repr (cs n) (xs n)) : w.Holds xs := by
  refine ⟨hw.owned, ?_, ?_, ?_, ?_⟩
  · intro i j a hi hj
    exact Classical.byContradiction fun hij => hw.disjoint i j a hij hi hj
  · intro i a hi
    have o := (hw.rel i).own.at'
    simp only [hi] at o
    refine ⟨(cs i).buffer, o, ?_, ?_⟩
    · rw [show (w.lists i).capacity = (cs i).capacity from (hw.rel i).capacity, (hp i).size]
    · intro k hk
      have hc := (hp i).count
      by_cases hlt : k < (xs i).length
      · have := (hp i).live k (by omega) (by omega)
        rw [this, Int.toNat_natCast, List.getElem?_eq_getElem hlt]
      · rw [List.getElem?_eq_none (by omega)]
        exact (hp i).raw k (by omega) (by rw [← (hp i).size]; exact hk)
  · intro i hi
    have o := (hw.rel i).own.at'
    simp only [hi] at o
    have hs : (cs i).buffer.size = 0 := by rw [show (cs i).buffer = Block.null from o]; rfl
    have h1 := (hp i).size
    have h2 := (hp i).le
    have h3 := (hp i).count
    exact List.eq_nil_of_length_eq_zero (by omega)
  · intro i
    rw [show (w.lists i).count = (cs i).count from (hw.rel i).count, (hp i).count]

theorem heap_list_step (mv : Option α → Option α) (eq : α → κ → Bool) (F : Nat → Option (Block α)) (s : Heap α × ListH)
    (x : List α) (op : Spec.SeqOp α κ) (hr : ListWorld.ListRel F s x) (_ : True) (hv : op.Valid) :
    (∃ s' x' r, ListH.step mv eq op s = .ok r s' ∧ ListWorld.ListRel F s' x' ∧ True ∧ Spec.seqStep eq x op = (x', r)) ∨
    (∃ s' x', ListH.step mv eq op s = .err s' ∧ ListWorld.ListRel F s' x' ∧ True ∧
      Spec.seqStep eq x op = (x', .error)) := by
  obtain ⟨c, hr, hp⟩ := hr
  obtain ⟨c', e, h'⟩ := list_step_refines mv eq hp op hv
  rcases ListH.step_refines mv eq op hr e with ⟨s', e', hr'⟩ | ⟨s', e', hr', hret⟩
  · exact .inl ⟨s', _, _, e', ⟨c', hr', h'⟩, trivial, rfl⟩
  · exact .inr ⟨s', _, e', ⟨c', hr', h'⟩, trivial, by rw [← hret]⟩

theorem heap_list_sim (mv : Option α → Option α) (eq : α → κ → Bool) :
    MoveSim (ListWorld.movable (ListH.step mv eq)) (fun w xs => ListWorld.Reps w xs ∧ ∀ n, (fun _ => True) (xs n))
      ListWorld.Fresh (fun x op x' r => Spec.seqStep eq x op = (x', r)) (fun _ => Spec.SeqOp.Valid) [] .error :=
  ListWorld.moveSim ListWorld.holding_list trivial (heap_list_step mv eq)

/-- **C02.** Any program over any family of `List<T>`s on one heap — every member call, move construction, move
assignment (including self-move) and destruction — never touches memory outside a live buffer or a cell without an
element, never constructs over a live element, never reads a moved-from element, never releases a buffer twice or one
with live elements in it. The values seen are those of mathematical sequences (a moved-from list is empty), and at every
point the heap consists of the buffers of the lists, each owned by one list and holding exactly its elements. -/
theorem C02_list_memory_safe (mv : Option α → Option α) (eq : α → κ → Bool) (ops : List (Spec.MoveOp (Spec.SeqOp α κ)))
    (hv : ∀ i op, .call i op ∈ ops → op.Valid) :
    ∃ w, (ListWorld.movable (ListH.step mv eq)).run (.flag true) .error ListWorld.empty ops =
        some (w, (Spec.moveRun (Spec.seqStep eq) [] (.flag true) .error (fun _ => []) ops).2) ∧
      w.Holds (Spec.moveRun (Spec.seqStep eq) [] (.flag true) .error (fun _ => []) ops).1 := by
  obtain ⟨w, xs, rs, e, ⟨⟨cs, hw, hp⟩, _⟩, hm, _⟩ := (heap_list_sim mv eq).run (moved := .flag true) ops (.of_forall _ (fun i o h _ => hv i o h) _)
    ⟨ListWorld.Reps.empty, fun _ => trivial⟩
  rw [hm.eq_moveRun]
  exact ⟨w, e, hw.holds hp⟩

/-- **C02.** When the program ends by destroying its variables, no memory is left: every element that was constructed was
destroyed, every buffer was released (and neither twice, which would be undefined behaviour). -/
theorem C02_no_leak (mv : Option α → Option α) (eq : α → κ → Bool) (ops : List (Spec.MoveOp (Spec.SeqOp α κ)))
    (hv : ∀ i op, .call i op ∈ ops → op.Valid) (N : Nat) (hN : ∀ op ∈ ops, ∀ n, op.Mentions n → n < N) :
    ∃ w rs, (ListWorld.movable (ListH.step mv eq)).run (.flag true) .error ListWorld.empty
        (ops ++ (List.range N).map .renew) = some (w, rs) ∧ ∀ a, w.heap.block a = none := by
  obtain ⟨w, rs, xs, e, ⟨hr, _⟩, hf⟩ := (heap_list_sim mv eq).run_renew (moved := .flag true) ops (.of_forall _ (fun i o h _ => hv i o h) _)
    ⟨ListWorld.Reps.empty, fun _ => trivial⟩ (fun _ => rfl) N hN
  exact ⟨w, rs, e, hr.clean hf⟩

theorem heap_sorted_step (mv : Option α → Option α) {cmp : α → κ → Option Ordering} {ord : κ → κ → Ordering}
    {key : α → κ} [Std.TransCmp ord] (hcmp : ∀ x k, cmp x k = some (ord (key x) k)) (F : Nat → Option (Block α))
    (s : Heap α × ListH) (x : List α) (op : Spec.SortedOp α κ) (hr : ListWorld.ListRel F s x)
    (hp : Spec.Ascending ord key x) (hv : op.Valid) :
    (∃ s' x' r, ListH.sortedStep mv cmp key op s = .ok r s' ∧ ListWorld.ListRel F s' x' ∧ Spec.Ascending ord key x' ∧
      Spec.SortedStep ord key x op x' r) ∨
    (∃ s' x', ListH.sortedStep mv cmp key op s = .err s' ∧ ListWorld.ListRel F s' x' ∧ Spec.Ascending ord key x' ∧
      Spec.SortedStep ord key x op x' .error) := by
  obtain ⟨c, hr, hc⟩ := hr
  obtain ⟨c', x', r, e, h', hs, ha⟩ := sorted_step_refines mv hcmp hc hp op hv
  rcases ListH.sortedStep_refines mv cmp key op hr e with ⟨s', e', hr'⟩ | ⟨s', e', hr', hret⟩
  · exact .inl ⟨s', _, _, e', ⟨c', hr', h'⟩, ha, hs⟩
  · exact .inr ⟨s', _, e', ⟨c', hr', h'⟩, ha, by rw [← hret]; exact hs⟩

/-- **C06, on a heap.** The same for programs over any family of `SortedList<T>`s: step by step each list is a sorted
multiset, the heap consists of the buffers of the lists, and when the program ends by destroying its variables nothing
is left of it. -/
theorem C06_sortedlist_memory (mv : Option α → Option α) {cmp : α → κ → Option Ordering} {ord : κ → κ → Ordering}
    {key : α → κ} [Std.TransCmp ord] (hcmp : ∀ x k, cmp x k = some (ord (key x) k))
    (ops : List (Spec.MoveOp (Spec.SortedOp α κ))) (hv : ∀ i op, .call i op ∈ ops → op.Valid)
    (N : Nat) (hN : ∀ op ∈ ops, ∀ n, op.Mentions n → n < N) :
    ∃ w xs rs, (ListWorld.movable (ListH.sortedStep mv cmp key)).run (.flag true) .error ListWorld.empty ops =
        some (w, rs) ∧
      Spec.MoveRun (Spec.SortedStep ord key) [] (.flag true) .error (fun _ => []) ops xs rs ∧
      w.Holds xs ∧ (∀ n, Spec.Ascending ord key (xs n)) ∧
      ∃ w' rs', (ListWorld.movable (ListH.sortedStep mv cmp key)).run (.flag true) .error ListWorld.empty
        (ops ++ (List.range N).map .renew) = some (w', rs') ∧ ∀ a, w'.heap.block a = none := by
  have hs := ListWorld.moveSim (P := Spec.Ascending ord key) (Valid := fun _ => Spec.SortedOp.Valid) ListWorld.holding_list List.Pairwise.nil (heap_sorted_step mv hcmp)
  have h0 : ListWorld.Reps (ListWorld.empty : ListWorld α) (fun _ => []) ∧ ∀ _ : Nat, Spec.Ascending ord key [] :=
    ⟨ListWorld.Reps.empty, fun _ => List.Pairwise.nil⟩
  obtain ⟨w, xs, rs, e, ⟨⟨cs, hw, hp⟩, ha⟩, hm, _⟩ := hs.run (moved := .flag true) ops (.of_forall _ (fun i o h _ => hv i o h) _) h0
  obtain ⟨w', rs', xs', e', ⟨hr', _⟩, hf⟩ := hs.run_renew (moved := .flag true) ops (.of_forall _ (fun i o h _ => hv i o h) _) h0 (fun _ => rfl) N hN
  exact ⟨w, xs, rs, e, hm, hw.holds hp, ha, w', rs', e', hr'.clean hf⟩

/-- A program with growth, both kinds of moves, a self-move and a destruction meets the hypotheses; after it one block is
live, and none after the variables are destroyed. -/
example :
    let ops : List (Spec.MoveOp (Spec.SeqOp Nat Nat)) :=
      [.call 0 (.add 5), .call 0 (.add 6), .moveAssign 1 0, .call 0 (.add 9), .moveConstruct 2 1, .moveAssign 0 0, .renew 1]
    let m : Option Nat → Option Nat := fun _ => none
    (∀ i op, .call i op ∈ ops → op.Valid) ∧ (∀ op ∈ ops, ∀ n, op.Mentions n → n < 3) ∧
    ((ListWorld.movable (ListH.step m (· == ·))).run (.flag true) .error ListWorld.empty ops).map
      (fun p => ((List.range p.1.heap.next).filter (fun a => (p.1.heap.block a).isSome)).length) = some 1 ∧
    ((ListWorld.movable (ListH.step m (· == ·))).run (.flag true) .error ListWorld.empty
      (ops ++ (List.range 3).map .renew)).map
      (fun p => ((List.range p.1.heap.next).filter (fun a => (p.1.heap.block a).isSome)).length) = some 0 := by
  refine ⟨?_, ?_, by decide +kernel, by decide +kernel⟩
  · intro i op h
    simp at h
    rcases h with ⟨_, rfl⟩ | ⟨_, rfl⟩ | ⟨_, rfl⟩ <;> simp [Spec.SeqOp.Valid]
  · intro op h n hn
    simp at h
    rcases h with rfl | rfl | rfl | rfl | rfl | rfl | rfl <;> simp [Spec.MoveOp.Mentions] at hn <;> omega

end Vlpp
