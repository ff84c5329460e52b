import Verif.Lemmas.ArrayThrow

/-!
# Property C81: lists, sorted lists and arrays when an element throws

The full statement is `C81_list_partial` and `C81_array_partial` without the hypotheses `Uninterrupted` and
`ArrUninterrupted`, and the same for sorted lists.  The theorems `..._violated...` refute it for every program that reaches
an interrupted insertion or construction.
-/
set_option autoImplicit false
namespace Vlpp
open Spec (CopyFate)
open ListWorld
variable {α κ : Type}

/-- programs over lists -/
def listsT (mv : Option α → Option α) (eq : α → κ → Bool) :
    Movable (ListWorld α) (Spec.SeqOp α κ × CopyFate α) (Spec.SeqRet α) := ListWorld.movable (ListH.stepT mv eq)

/-- programs over sorted lists -/
def sortedListsT (mv : Option α → Option α) (cmp : α → κ → Option Ordering) (key : α → κ) :
    Movable (ListWorld α) (Spec.SortedOp α κ × CopyFate α) (Spec.SeqRet α) := ListWorld.movable (ListH.sortedStepT mv cmp key)

/-- programs over arrays -/
def arraysT (mv : Option α → Option α) (eq : α → κ → Bool) (d : Option α) :
    Movable (ListWorld α) (Spec.ArrCall α κ × CopyFate α) (Spec.SeqRet α) := ListWorld.movable (ArrayH.stepT mv eq d)

/-! ## Lists -/

theorem ListH.stepT_eq (mv : Option α → Option α) (eq : α → κ → Bool) (op : Spec.SeqOp α κ) {f : CopyFate α}
    (hf : ∀ t, f ≠ .throws 0 t) (x : List α) :
    ListH.stepT mv eq (op, f) = ListH.step mv eq op ∧ Spec.throwStep eq x (op, f) = Spec.seqStep eq x op := by
  have hs : Spec.throwStep eq x (op, f) = Spec.seqStep eq x op := by
    cases f with
    | completes => cases op <;> rfl
    | throws k t =>
      cases k with
      | zero => exact absurd rfl (hf t)
      | succ k => cases op <;> rfl
  refine ⟨?_, hs⟩
  cases op with
  | add v =>
    show (ListH.addT mv v f >>= fun n => pure (Spec.SeqRet.index n)) = _
    rw [ListH.addT_eq mv v hf]; rfl
  | insert i v =>
    show (ListH.insertT mv i v f >>= fun n => pure (Spec.SeqRet.index n)) = _
    rw [ListH.insertT_eq mv i v hf]; rfl
  | set i v =>
    show (ListH.setAtT i v f >>= fun n => pure (Spec.SeqRet.flag n)) = _
    rw [ListH.setAtT_eq i v hf]; rfl
  | _ => rfl

theorem throw_list_step (mv : Option α → Option α) (eq : α → κ → Bool) (F : Nat → Option (Block α)) (s : Heap α × ListH)
    (x : List α) (op : Spec.SeqOp α κ × CopyFate α) (hr : ListRel F s x) (_ : True)
    (hv : op.1.Valid ∧ ¬ Spec.SeqInterrupted x op) :
    (∃ s' x' r, ListH.stepT mv eq op s = .ok r s' ∧ ListRel F s' x' ∧ True ∧ Spec.throwStep eq x op = (x', r)) ∨
    (∃ s' x', ListH.stepT mv eq op s = .err s' ∧ ListRel F s' x' ∧ True ∧ Spec.throwStep eq x op = (x', .error)) := by
  obtain ⟨op, f⟩ := op
  obtain ⟨hv, hn⟩ := hv
  simp only at hv
  by_cases hf : ∀ t, f ≠ .throws 0 t
  · obtain ⟨e1, e2⟩ := ListH.stepT_eq mv eq op hf x
    rw [e1, e2]
    exact heap_list_step mv eq F s x op hr trivial hv
  · obtain ⟨t, rfl⟩ : ∃ t, f = .throws 0 t := Classical.byContradiction fun h => hf fun t ht => h ⟨t, ht⟩
    obtain ⟨h, l⟩ := s
    cases op with
    | add v => exact absurd trivial hn
    | insert i v =>
      obtain ⟨c, hr, hx⟩ := hr
      refine .inr ⟨(h, l), x, ?_, ⟨c, hr, hx⟩, trivial, rfl⟩
      show (ListH.insertT mv i v _ >>= _) (h, l) = _
      rw [Cpp.bind_err (ListH.insertT_refused mv hr hx hn v _)]
    | set i v =>
      have e : ListH.stepT mv eq (.set i v, .throws 0 t) (h, l) =
          (ListH.step mv eq (.set i t) (h, l)).thrown := by
        show (ListH.setAtT i v (.throws 0 t) >>= fun b => pure (Spec.SeqRet.flag b)) (h, l) =
          Outcome.thrown ((ListH.setAt i t >>= fun b => pure (Spec.SeqRet.flag b)) (h, l))
        rw [Cpp.bind_apply, ListH.setAtT_throws, Cpp.bind_apply]
        cases ListH.setAt i t (h, l) <;> rfl
      rw [e]
      have hspec : Spec.throwStep eq x (.set i v, .throws 0 t) = ((Spec.seqStep eq x (.set i t)).1, .error) := by
        show (if _ then _ else _) = (Prod.fst (if _ then _ else _), Spec.SeqRet.error)
        split <;> rfl
      rcases heap_list_step mv eq F (h, l) x (.set i t) hr trivial trivial with ⟨s', x', r, e', hr', _, hs⟩ | ⟨s', x', e', hr', _, hs⟩
      · exact .inr ⟨s', x', by rw [e']; rfl, hr', trivial, by rw [hspec, hs]⟩
      · exact .inr ⟨s', x', by rw [e']; rfl, hr', trivial, by rw [hspec, hs]⟩
    | remove k => exact heap_list_step mv eq F (h, l) x (.remove k) hr trivial hv
    | removeAt i => exact heap_list_step mv eq F (h, l) x (.removeAt i) hr trivial hv
    | removeRange i n => exact heap_list_step mv eq F (h, l) x (.removeRange i n) hr trivial hv
    | clear => exact heap_list_step mv eq F (h, l) x .clear hr trivial hv
    | get i => exact heap_list_step mv eq F (h, l) x (.get i) hr trivial hv
    | count => exact heap_list_step mv eq F (h, l) x .count hr trivial hv
    | indexOf k => exact heap_list_step mv eq F (h, l) x (.indexOf k) hr trivial hv
    | contains k => exact heap_list_step mv eq F (h, l) x (.contains k) hr trivial hv

theorem throw_list_sim (mv : Option α → Option α) (eq : α → κ → Bool) :
    MoveSim (listsT mv eq) (fun w xs => Reps w xs ∧ ∀ n, (fun _ => True) (xs n)) Fresh
      (fun x op x' r => Spec.throwStep eq x op = (x', r)) (fun x op => op.1.Valid ∧ ¬ Spec.SeqInterrupted x op) [] .error :=
  ListWorld.moveSim holding_list trivial (throw_list_step mv eq)

theorem throw_list_safe {eq : α → κ → Bool} {ops : List (Spec.MoveOp (Spec.SeqOp α κ × CopyFate α))}
    (hv : ∀ i op, .call i op ∈ ops → op.1.Valid) (hu : Spec.Uninterrupted eq (fun _ => []) ops) :
    Safe (fun x op x' r => Spec.throwStep eq x op = (x', r)) (fun x op => op.1.Valid ∧ ¬ Spec.SeqInterrupted x op) []
      (.flag true) .error (fun _ => []) ops :=
  (Safe.of_forall ops (fun i o h _ => hv i o h) _).and ops hu.safe

/-- **C81 (lists).** Programs over any number of lists in which copying elements throws, except while an element is
inserted: the results are those of sequences, the lists can be used after the exception, the heap is exactly the buffers of
the lists with their elements, and nothing is left when the lists are destroyed. -/
theorem C81_list_partial (mv : Option α → Option α) (eq : α → κ → Bool)
    (ops : List (Spec.MoveOp (Spec.SeqOp α κ × CopyFate α))) (hv : ∀ i op, .call i op ∈ ops → op.1.Valid)
    (hu : Spec.Uninterrupted eq (fun _ => []) ops) (N : Nat) (hN : ∀ op ∈ ops, ∀ n, op.Mentions n → n < N) :
    (∃ w, (listsT mv eq).run (.flag true) .error ListWorld.empty ops =
        some (w, (Spec.moveRun (Spec.throwStep eq) [] (.flag true) .error (fun _ => []) ops).2) ∧
      w.Holds (Spec.moveRun (Spec.throwStep eq) [] (.flag true) .error (fun _ => []) ops).1) ∧
    ∃ w rs, (listsT mv eq).run (.flag true) .error ListWorld.empty (ops ++ (List.range N).map .renew) = some (w, rs) ∧
      ∀ a, w.heap.block a = none := by
  have hs := throw_list_safe hv hu
  constructor
  · obtain ⟨w, xs, rs, e, ⟨⟨cs, hw, hp⟩, _⟩, hm, _⟩ := (throw_list_sim mv eq).run (moved := .flag true) ops hs
      ⟨Reps.empty, fun _ => trivial⟩
    rw [hm.eq_moveRun]
    exact ⟨w, e, hw.holds hp⟩
  · obtain ⟨w, rs, xs, e, ⟨hr, _⟩, hf⟩ := (throw_list_sim mv eq).run_renew (moved := .flag true) ops hs
      ⟨Reps.empty, fun _ => trivial⟩ (fun _ => rfl) N hN
    exact ⟨w, rs, e, hr.clean hf⟩

/-- The list that an interrupted insertion leaves behind cannot be destroyed, moved to or cleared. -/
theorem ListH.Broken.calls {F : Nat → Option (Block α)} {w : ListWorld α} {i m : Nat} {c : ListC α} {Op : Type}
    {step : Op → Cpp (Heap α × ListH) (Spec.SeqRet α)} (hb : ListH.Broken c m)
    (hr : ListH.Rel F (w.heap, w.lists i) c) (moved refused : Spec.SeqRet α) :
    (ListWorld.movable step).run moved refused w [.renew i] = none ∧
    (∀ j, (ListWorld.movable step).run moved refused w [.moveAssign i j] = none) ∧
    (∀ j, i ≠ j → (ListWorld.movable step).run moved refused w [.moveConstruct i j] = none) ∧
    ∀ op, step op (w.heap, w.lists i) = .fault → (ListWorld.movable step).run moved refused w [.call i op] = none := by
  have hd : on i ListH.destructor w = .fault := by simp [on, hb.destructor hr]
  have hD : destroy i w = .fault := Cpp.bind_fault hd
  refine ⟨?_, fun j => ?_, fun j hij => ?_, fun op ho => ?_⟩
  · simp only [Movable.run, Movable.step, ListWorld.movable]
    rw [Cpp.bind_fault hD]; rfl
  · simp only [Movable.run, Movable.step, ListWorld.movable]
    rw [Cpp.bind_fault (show moveAssign i j w = .fault from Cpp.bind_fault hd)]; rfl
  · simp only [Movable.run, Movable.step, ListWorld.movable, if_neg hij]
    rw [Cpp.bind_fault hD]; rfl
  · simp only [Movable.run, Movable.step, ListWorld.movable, on, ho]; rfl

/-- what is left of a program after a prefix -/
theorem Movable.run_after {σ Op Ret : Type} {M : Movable σ Op Ret} {moved error : Ret} {w w' : σ} {ops : List (Spec.MoveOp Op)}
    {rs : List Ret} (e : M.run moved error w ops = some (w', rs)) (ops' : List (Spec.MoveOp Op)) :
    M.run moved error w (ops ++ ops') = (M.run moved error w' ops').map fun q => (q.1, rs ++ q.2) := by
  rw [MoveSim.run_append, e]; rfl

/-- **C81 is violated by lists.** Whatever the program did before: when constructing the element throws during `Add` or
`Insert` (at a position of the list), the exception reaches the caller, but from then on destroying the list, assigning to
it, clearing it and reading the position of the insertion is undefined behaviour. -/
theorem C81_violated_list (mv : Option α → Option α) (eq : α → κ → Bool)
    (ops : List (Spec.MoveOp (Spec.SeqOp α κ × CopyFate α))) (hv : ∀ i op, .call i op ∈ ops → op.1.Valid)
    (hu : Spec.Uninterrupted eq (fun _ => []) ops) (i : Nat) (op : Spec.SeqOp α κ × CopyFate α)
    (hi : Spec.SeqInterrupted ((Spec.moveRun (Spec.throwStep eq) [] (.flag true) .error (fun _ => []) ops).1 i) op) :
    let run := (listsT mv eq).run (.flag true) .error ListWorld.empty
    (∃ w rs, run (ops ++ [.call i op]) = some (w, rs ++ [.error])) ∧
    run (ops ++ [.call i op, .renew i]) = none ∧
    (∀ j, run (ops ++ [.call i op, .moveAssign i j]) = none) ∧
    (∀ j, i ≠ j → run (ops ++ [.call i op, .moveConstruct i j]) = none) ∧
    run (ops ++ [.call i op, .call i (.clear, .completes)]) = none ∧
    ∃ m : Int, run (ops ++ [.call i op, .call i (.get m, .completes)]) = none := by
  obtain ⟨w, xs, rs, e, ⟨⟨cs, hw, hp⟩, _⟩, hm, _⟩ := (throw_list_sim mv eq).run (moved := .flag true) ops (throw_list_safe hv hu)
    ⟨Reps.empty, fun _ => trivial⟩
  rw [hm.eq_moveRun] at hi
  have key : ∃ s' c' m, ListH.stepT mv eq op (w.heap, w.lists i) = .err s' ∧ ListH.Rel (others w i) s' c' ∧
      ListH.Broken c' m := by
    have hr := hw.rel i
    have hcount : (w.lists i).count = (xs i).length := hr.count.trans (hp i).count
    match op, hi with
    | (.add v, .throws 0 t), _ =>
      obtain ⟨s', c', e1, hr', hb⟩ := ListH.insertT_throws mv hr (hp i) (Nat.le_refl _) v t
      refine ⟨s', c', _, ?_, hr', hb⟩
      show (ListH.addT mv v _ >>= _) (w.heap, w.lists i) = _
      refine Cpp.bind_err ?_
      unfold ListH.addT
      rw [ListH.members_bind, hcount]
      exact e1
    | (.insert n v, .throws 0 t), hi =>
      obtain ⟨h0, h1⟩ : 0 ≤ n ∧ n ≤ (xs i).length := hi
      obtain ⟨s', c', e1, hr', hb⟩ := ListH.insertT_throws mv hr (hp i) (i := n.toNat) (by omega) v t
      rw [Int.toNat_of_nonneg h0] at e1
      exact ⟨s', c', _, Cpp.bind_err e1, hr', hb⟩
  obtain ⟨⟨h', l'⟩, c', m, e1, hr', hb⟩ := key
  have e2 : (listsT mv eq).run (.flag true) .error w [.call i op] =
      some (({ w with heap := h' } : ListWorld α).put i l', [.error]) := by
    simp only [Movable.run, Movable.step, listsT, ListWorld.movable, on, e1]; rfl
  have hr2 : ListH.Rel (others w i) ((({ w with heap := h' } : ListWorld α).put i l').heap,
      (({ w with heap := h' } : ListWorld α).put i l').lists i) c' := by
    simpa [put] using hr'
  have e3 := Movable.run_after e [.call i op]
  rw [e2] at e3
  have key : ∀ last, (listsT mv eq).run (.flag true) .error (({ w with heap := h' } : ListWorld α).put i l') [last] = none →
      (listsT mv eq).run (.flag true) .error ListWorld.empty (ops ++ [.call i op, last]) = none := by
    intro last hl
    have : ops ++ [Spec.MoveOp.call i op, last] = (ops ++ [.call i op]) ++ [last] := by simp
    rw [this, Movable.run_after e3, hl]; rfl
  obtain ⟨b1, b2, b3, b4⟩ := hb.calls (step := ListH.stepT mv eq) hr2 (.flag true) .error
  refine ⟨⟨_, rs, e3⟩, key _ b1, fun j => key _ (b2 j), fun j hij => key _ (b3 j hij), key _ (b4 _ ?_), m, key _ (b4 _ ?_)⟩
  · exact Cpp.bind_fault (hb.clear hr2)
  · exact Cpp.bind_fault (hb.get hr2)

/-! ## Sorted lists -/

theorem ListH.sortedStepT_eq (mv : Option α → Option α) (cmp : α → κ → Option Ordering) (key : α → κ)
    {op : Spec.SortedOp α κ × CopyFate α} (h : ∀ v t, op ≠ (.add v, .throws 0 t)) :
    ListH.sortedStepT mv cmp key op = ListH.sortedStep mv cmp key op.1 := by
  obtain ⟨op, f⟩ := op
  cases op with
  | add v =>
    show (ListH.sortedAddT mv cmp key v f >>= fun n => pure (Spec.SeqRet.index n)) = _
    rw [ListH.sortedAddT_eq mv cmp key v (fun t ht => h v t (by rw [ht]))]; rfl
  | _ => rfl

theorem throw_sorted_sim (mv : Option α → Option α) {cmp : α → κ → Option Ordering} {ord : κ → κ → Ordering}
    {key : α → κ} [Std.TransCmp ord] (hcmp : ∀ x k, cmp x k = some (ord (key x) k)) :
    MoveSim (sortedListsT mv cmp key) (fun w xs => Reps w xs ∧ ∀ n, Spec.Ascending ord key (xs n)) Fresh
      (fun x op => Spec.SortedStep ord key x op.1) (fun _ op => op.1.Valid ∧ ∀ v t, op ≠ (.add v, .throws 0 t)) [] .error :=
  ListWorld.moveSim holding_list List.Pairwise.nil (fun F s x op hr hp hv => by
    rw [ListH.sortedStepT_eq mv cmp key hv.2]
    exact heap_sorted_step mv hcmp F s x op.1 hr hp hv.1)

/-- **C81 is violated by sorted lists.** Whatever the program did before: when copying the element throws during `Add`, the
exception reaches the caller, and from then on destroying the list, assigning to it and clearing it is undefined
behaviour. -/
theorem C81_violated_sorted (mv : Option α → Option α) {cmp : α → κ → Option Ordering} {ord : κ → κ → Ordering}
    {key : α → κ} [Std.TransCmp ord] (hcmp : ∀ x k, cmp x k = some (ord (key x) k))
    (ops : List (Spec.MoveOp (Spec.SortedOp α κ × CopyFate α))) (hv : ∀ i op, .call i op ∈ ops → op.1.Valid)
    (hu : ∀ i v t, .call i (.add v, .throws 0 t) ∉ ops) (i : Nat) (v t : α) :
    let run := (sortedListsT mv cmp key).run (.flag true) .error ListWorld.empty
    let op := Spec.MoveOp.call i (Spec.SortedOp.add v, CopyFate.throws 0 t)
    (∃ w rs, run (ops ++ [op]) = some (w, rs ++ [.error])) ∧
    run (ops ++ [op, .renew i]) = none ∧
    (∀ j, run (ops ++ [op, .moveAssign i j]) = none) ∧
    (∀ j, i ≠ j → run (ops ++ [op, .moveConstruct i j]) = none) ∧
    run (ops ++ [op, .call i (.clear, .completes)]) = none ∧
    ∃ m : Int, run (ops ++ [op, .call i (.get m, .completes)]) = none := by
  obtain ⟨w, xs, rs, e, ⟨⟨cs, hw, hp⟩, ha⟩, _, _⟩ := (throw_sorted_sim mv hcmp).run (moved := .flag true) ops
    (.of_forall ops (fun i o h _ => ⟨hv i o h, fun v t hc => hu i v t (by rw [← hc]; exact h)⟩) _)
    ⟨Reps.empty, fun _ => List.Pairwise.nil⟩
  have hk : ∃ s' c' m, ListH.sortedStepT mv cmp key (.add v, .throws 0 t) (w.heap, w.lists i) = .err s' ∧
      ListH.Rel (others w i) s' c' ∧ ListH.Broken c' m := by
    have hr := hw.rel i
    have hadd : ∃ n s', ListH.sortedAdd mv cmp key v (w.heap, w.lists i) = .ok n s' := by
      rcases heap_sorted_step mv hcmp _ _ _ (.add v) ⟨_, hr, hp i⟩ (ha i) trivial with ⟨s', x', r, es, _, _, _⟩ | ⟨s', x', es, _, _, hs⟩
      · obtain ⟨n, s1, e1, _⟩ := Cpp.bind_eq_ok es
        exact ⟨n, s1, e1⟩
      · cases hs
    obtain ⟨n, s1, e1⟩ := hadd
    obtain ⟨m, hm, e2⟩ := ListH.sortedAdd_position mv cmp key hr (hp i) v e1 (.throws 0 t)
    obtain ⟨s', c', e3, hr', hb⟩ := ListH.insertRawT_throws mv hr (hp i) hm v t
    exact ⟨s', c', m, Cpp.bind_err (e2.trans e3), hr', hb⟩
  obtain ⟨⟨h', l'⟩, c', m, e1, hr', hb⟩ := hk
  have e2 : (sortedListsT mv cmp key).run (.flag true) .error w [.call i (.add v, .throws 0 t)] =
      some (({ w with heap := h' } : ListWorld α).put i l', [.error]) := by
    simp only [Movable.run, Movable.step, sortedListsT, ListWorld.movable, on, e1]; rfl
  have hr2 : ListH.Rel (others w i) ((({ w with heap := h' } : ListWorld α).put i l').heap,
      (({ w with heap := h' } : ListWorld α).put i l').lists i) c' := by
    simpa [put] using hr'
  have e3 := Movable.run_after e [.call i (.add v, .throws 0 t)]
  rw [e2] at e3
  have hk : ∀ last, (sortedListsT mv cmp key).run (.flag true) .error (({ w with heap := h' } : ListWorld α).put i l') [last] =
      none → (sortedListsT mv cmp key).run (.flag true) .error ListWorld.empty
        (ops ++ [.call i (.add v, .throws 0 t), last]) = none := by
    intro last hl
    have : ops ++ [Spec.MoveOp.call i (Spec.SortedOp.add v, CopyFate.throws 0 t), last] =
        (ops ++ [.call i (.add v, .throws 0 t)]) ++ [last] := by simp
    rw [this, Movable.run_after e3, hl]; rfl
  obtain ⟨b1, b2, b3, b4⟩ := hb.calls (step := ListH.sortedStepT mv cmp key) hr2 (.flag true) .error
  refine ⟨⟨_, rs, e3⟩, hk _ b1, fun j => hk _ (b2 j), fun j hij => hk _ (b3 j hij), hk _ (b4 _ ?_), m, hk _ (b4 _ ?_)⟩
  · exact Cpp.bind_fault (hb.clear hr2)
  · exact Cpp.bind_fault (hb.get hr2)

/-! ## Arrays -/

theorem throw_array_step (mv : Option α → Option α) (eq : α → κ → Bool) (d : Option α) (F : Nat → Option (Block α))
    (s : Heap α × ListH) (ys : List (Option α)) (op : Spec.ArrCall α κ × CopyFate α) (hr : RelBy ArrayH.Repr F s ys) (_ : True)
    (hv : Spec.arrThrowStep eq d ys op ≠ none ∧ ¬ Spec.ArrInterrupted ys op) :
    (∃ s' ys' r, ArrayH.stepT mv eq d op s = .ok r s' ∧ RelBy ArrayH.Repr F s' ys' ∧ True ∧
      Spec.arrThrowStep eq d ys op = some (ys', r)) ∨
    (∃ s' ys', ArrayH.stepT mv eq d op s = .err s' ∧ RelBy ArrayH.Repr F s' ys' ∧ True ∧
      Spec.arrThrowStep eq d ys op = some (ys', .error)) := by
  obtain ⟨op, f⟩ := op
  obtain ⟨hv, hn⟩ := hv
  obtain ⟨h, l⟩ := s
  have hcount : l.count = ys.length := by
    obtain ⟨c, hr, _, hc⟩ := hr
    exact hr.count.trans hc.count
  have same : ArrayH.stepT mv eq d (op, f) (h, l) = ArrayH.step mv eq d op (h, l) →
      Spec.arrThrowStep eq d ys (op, f) = Spec.arrCall eq d ys op →
      (∃ s' ys' r, ArrayH.stepT mv eq d (op, f) (h, l) = .ok r s' ∧ RelBy ArrayH.Repr F s' ys' ∧ True ∧
        Spec.arrThrowStep eq d ys (op, f) = some (ys', r)) ∨
      (∃ s' ys', ArrayH.stepT mv eq d (op, f) (h, l) = .err s' ∧ RelBy ArrayH.Repr F s' ys' ∧ True ∧
        Spec.arrThrowStep eq d ys (op, f) = some (ys', .error)) := by
    intro e1 e2
    rw [e1, e2]
    rw [e2] at hv
    exact ArrayH.step_refines mv eq d F (h, l) ys op hr hv
  cases op with
  | create n =>
    refine same ?_ ?_
    · show (ArrayH.destroy >>= fun _ => ArrayH.newT d n f >>= fun _ => _) (h, l) = _
      rw [ArrayH.newT_eq d n (fun k t hf => by subst hf; exact hn)]; rfl
    · cases f with
      | completes => rfl
      | throws k t => exact if_neg hn
  | createFrom src n =>
    refine same ?_ ?_
    · show (ArrayH.destroy >>= fun _ => ArrayH.newFromT _ n f >>= fun _ => _) (h, l) = _
      rw [ArrayH.newFromT_eq _ n (fun k t hf => by subst hf; exact hn)]; rfl
    · cases f with
      | completes => rfl
      | throws k t =>
        show Option.map (fun r => if (k : Int) < n then _ else r) _ = _
        simp only [if_neg (show ¬ (k : Int) < n from hn), Option.map_id']
  | call op =>
    cases op with
    | resize n =>
      refine same ?_ ?_
      · show (ArrayH.resizeT mv d n f >>= _) (h, l) = (ArrayH.resize mv d n >>= _) (h, l)
        rw [Cpp.bind_apply, Cpp.bind_apply, ArrayH.resizeT_eq mv d n (fun k t hf => by
          subst hf; simp only [hcount]; exact hn)]
      · cases f with
        | completes => rfl
        | throws k t => exact if_neg hn
    | get i => exact same rfl rfl
    | count => exact same rfl rfl
    | indexOf k => exact same rfl rfl
    | set i v =>
      by_cases hf : ∀ t, f ≠ .throws 0 t
      · refine same ?_ ?_
        · show (ListH.setAtT i v f >>= _) (h, l) = _
          rw [ListH.setAtT_eq i v hf]; rfl
        · cases f with
          | completes => rfl
          | throws k t =>
            cases k with
            | zero => exact absurd rfl (hf t)
            | succ k => rfl
      · obtain ⟨t, rfl⟩ : ∃ t, f = .throws 0 t := Classical.byContradiction fun h => hf fun t ht => h ⟨t, ht⟩
        have e : ArrayH.stepT mv eq d (.call (.set i v), .throws 0 t) (h, l) =
            (ArrayH.step mv eq d (.call (.set i t)) (h, l)).thrown := by
          show (ListH.setAtT i v (.throws 0 t) >>= fun b => pure (Spec.SeqRet.flag b)) (h, l) =
            Outcome.thrown ((ListH.setAt i t >>= fun b => pure (Spec.SeqRet.flag b)) (h, l))
          rw [Cpp.bind_apply, ListH.setAtT_throws, Cpp.bind_apply]
          cases ListH.setAt i t (h, l) <;> rfl
        rw [e]
        have hspec : ∀ p, Spec.arrCall eq d ys (.call (.set i t)) = some p →
            Spec.arrThrowStep eq d ys (.call (.set i v), .throws 0 t) = some (p.1, .error) := by
          intro p hp
          show Option.map _ (if _ then _ else _) = _
          have hp : (if 0 ≤ i ∧ i < ys.length then some (ys.set i.toNat (some t), .flag true) else some (ys, .error)) =
            some p := hp
          by_cases hi : 0 ≤ i ∧ i < ys.length
          · rw [if_pos hi] at hp ⊢
            cases hp
            simp [hi]
          · rw [if_neg hi] at hp ⊢
            cases hp
            simp [hi]
        have hd : Spec.arrCall eq d ys (.call (.set i t)) ≠ none := by
          show (if _ then _ else _) ≠ none
          split <;> simp
        rcases ArrayH.step_refines mv eq d F (h, l) ys (.call (.set i t)) hr hd with ⟨s', x', r, e', hr', _, hs⟩ | ⟨s', x', e', hr', _, hs⟩
        · exact .inr ⟨s', x', by rw [e']; rfl, hr', trivial, hspec _ hs⟩
        · exact .inr ⟨s', x', by rw [e']; rfl, hr', trivial, hspec _ hs⟩

theorem throw_array_sim (mv : Option α → Option α) (eq : α → κ → Bool) (d : Option α) :
    MoveSim (arraysT mv eq d) (fun w ys => RepsBy ArrayH.Repr w ys ∧ ∀ n, (fun _ => True) (ys n)) Fresh
      (fun x op x' r => Spec.arrThrowStep eq d x op = some (x', r))
      (fun x op => Spec.arrThrowStep eq d x op ≠ none ∧ ¬ Spec.ArrInterrupted x op) [] .error :=
  ListWorld.moveSim ArrayH.holding trivial (throw_array_step mv eq d)

/-- **C81 (arrays).** Programs over any number of arrays in which assigning elements throws, but no constructor of an
element: the results are those of sequences, the arrays can be used after the exception, the heap is exactly the buffers of
the arrays with their elements, and nothing is left when the arrays are destroyed. -/
theorem C81_array_partial (mv : Option α → Option α) (eq : α → κ → Bool) (d : Option α)
    (ops : List (Spec.MoveOp (Spec.ArrCall α κ × CopyFate α))) (ys : Nat → List (Option α)) (rs : List (Spec.SeqRet α))
    (h : Spec.moveRun? (Spec.arrThrowStep eq d) [] (.flag true) .error (fun _ => []) ops = some (ys, rs))
    (hu : Spec.ArrUninterrupted eq d (fun _ => []) ops) (N : Nat) (hN : ∀ op ∈ ops, ∀ n, op.Mentions n → n < N) :
    (∃ w, (arraysT mv eq d).run (.flag true) .error ListWorld.empty ops = some (w, rs) ∧ ArrayH.Holds w ys) ∧
    ∃ w rs, (arraysT mv eq d).run (.flag true) .error ListWorld.empty (ops ++ (List.range N).map .renew) = some (w, rs) ∧
      ∀ a, w.heap.block a = none := by
  obtain ⟨hs, hd⟩ := Safe.of_moveRun? ops _ h
  have hs := hs.and ops hu.safe
  constructor
  · obtain ⟨w, xs, qs, e, ⟨hr, _⟩, hm, _⟩ := (throw_array_sim mv eq d).run (moved := .flag true) ops hs
      ⟨arrays_empty, fun _ => trivial⟩
    obtain ⟨rfl, rfl⟩ := hd _ _ hm
    exact ⟨w, e, ArrayH.holds hr⟩
  · obtain ⟨w, rs, xs, e, ⟨hr, _⟩, hf⟩ := (throw_array_sim mv eq d).run_renew (moved := .flag true) ops hs
      ⟨arrays_empty, fun _ => trivial⟩ (fun _ => rfl) N hN
    exact ⟨w, rs, e, hr.clean hf⟩

/-- **C81 is violated by arrays.** Whatever the program did before: when constructing an element throws during `Resize` or
in a constructor, the exception reaches the caller and a buffer belongs to no array.  No program that ends by destroying its
arrays then releases all memory. -/
theorem C81_violated_array (mv : Option α → Option α) (eq : α → κ → Bool) (d : Option α)
    (ops : List (Spec.MoveOp (Spec.ArrCall α κ × CopyFate α))) (ys : Nat → List (Option α)) (rs : List (Spec.SeqRet α))
    (h : Spec.moveRun? (Spec.arrThrowStep eq d) [] (.flag true) .error (fun _ => []) ops = some (ys, rs))
    (hu : Spec.ArrUninterrupted eq d (fun _ => []) ops) (i : Nat) (op : Spec.ArrCall α κ × CopyFate α)
    (hi : Spec.ArrInterrupted (ys i) op) :
    (∃ w a, (arraysT mv eq d).run (.flag true) .error ListWorld.empty (ops ++ [.call i op]) = some (w, rs ++ [.error]) ∧
      w.heap.block a ≠ none ∧ ∀ j, (w.lists j).buffer ≠ some a) ∧
    ∀ ns : List Nat, ¬ ∃ w qs, (arraysT mv eq d).run (.flag true) .error ListWorld.empty
      (ops ++ .call i op :: ns.map .renew) = some (w, qs) ∧ ∀ a, w.heap.block a = none := by
  obtain ⟨hs, hd⟩ := Safe.of_moveRun? ops _ h
  obtain ⟨w, xs, qs, e, ⟨⟨cs, hw, hp⟩, _⟩, hm, _⟩ := (throw_array_sim mv eq d).run (moved := .flag true) ops
    (hs.and ops hu.safe) ⟨arrays_empty, fun _ => trivial⟩
  obtain ⟨rfl, rfl⟩ := hd _ _ hm
  have hr := hw.rel i
  have key : ∃ h' l' a, ArrayH.stepT mv eq d op (w.heap, w.lists i) = .err (h', l') ∧ h'.block a ≠ none ∧
      l'.buffer ≠ some a ∧ others w i a = none := by
    match op, hi with
    | (.call (.resize n), .throws k t), hi =>
      obtain ⟨h', a, e1, h1, h2, h3, _⟩ := ArrayH.resizeT_throws mv d hr (hp i).2 hi t
      exact ⟨h', _, a, Cpp.bind_err e1, h1, h2, h3⟩
    | (.create n, .throws k t), hi =>
      obtain ⟨h0, e0, o⟩ := ArrayH.destroy_ok ⟨_, hr, hp i⟩
      obtain ⟨h', a, e1, h1, h3⟩ := ArrayH.newT_throws d (l := ListH.empty) o hi t
      refine ⟨h', ListH.empty, a, ?_, h1, by simp [ListH.empty], h3⟩
      show (ArrayH.destroy >>= _) _ = _
      rw [Cpp.bind_ok e0]
      exact Cpp.bind_err e1
    | (.createFrom src n, .throws k t), hi =>
      obtain ⟨h0, e0, o⟩ := ArrayH.destroy_ok ⟨_, hr, hp i⟩
      obtain ⟨h', a, e1, h1, h3⟩ := ArrayH.newFromT_throws (fun i => src[i.toNat]?) (l := ListH.empty) o hi t
      refine ⟨h', ListH.empty, a, ?_, h1, by simp [ListH.empty], h3⟩
      show (ArrayH.destroy >>= _) _ = _
      rw [Cpp.bind_ok e0]
      exact Cpp.bind_err e1
  obtain ⟨h', l', a, e1, h1, h2, h3⟩ := key
  have hl : (({ w with heap := h' } : ListWorld α).put i l').Lost a := hw.lost h1 h2 h3
  have e2 : (arraysT mv eq d).run (.flag true) .error w [.call i op] =
      some (({ w with heap := h' } : ListWorld α).put i l', [.error]) := by
    simp only [Movable.run, Movable.step, arraysT, ListWorld.movable, on, e1]; rfl
  have e3 := Movable.run_after e [.call i op]
  rw [e2] at e3
  refine ⟨⟨_, a, e3, hl.1, hl.2⟩, ?_⟩
  rintro ns ⟨w2, qs2, e4, hclean⟩
  have : ops ++ Spec.MoveOp.call i op :: ns.map .renew = (ops ++ [.call i op]) ++ ns.map .renew := by simp
  rw [this, Movable.run_after e3] at e4
  simp only [Option.map_eq_some_iff] at e4
  obtain ⟨⟨w3, qs3⟩, e5, e6⟩ := e4
  simp only [Prod.mk.injEq] at e6
  obtain ⟨rfl, _⟩ := e6
  exact (renew_lost ns hl e5).1 (hclean a)

/-- **C81 is violated by `Resize`.** When constructing an element throws during `Resize`, the array keeps its size, but its
elements are what moving from them has left. -/
theorem C81_violated_resize (mv : Option α → Option α) (eq : α → κ → Bool) (d : Option α)
    (ops : List (Spec.MoveOp (Spec.ArrCall α κ × CopyFate α))) (ys : Nat → List (Option α)) (rs : List (Spec.SeqRet α))
    (h : Spec.moveRun? (Spec.arrThrowStep eq d) [] (.flag true) .error (fun _ => []) ops = some (ys, rs))
    (hu : Spec.ArrUninterrupted eq d (fun _ => []) ops) (i : Nat) (n : Int) (k : Nat) (t : α) (hn : (ys i).length + k < n) :
    ∃ w, (arraysT mv eq d).run (.flag true) .error ListWorld.empty (ops ++ [.call i (.call (.resize n), .throws k t)]) =
        some (w, rs ++ [.error]) ∧
      (w.lists i).count = (ys i).length ∧
      ∀ a, (w.lists i).buffer = some a → ∃ b, w.heap.block a = some b ∧
        ∀ (m : Nat) (hm : m < (ys i).length), b.cell m = .obj (mv (ys i)[m]) := by
  obtain ⟨hs, hd⟩ := Safe.of_moveRun? ops _ h
  obtain ⟨w, xs, qs, e, ⟨⟨cs, hw, hp⟩, _⟩, hm, _⟩ := (throw_array_sim mv eq d).run (moved := .flag true) ops
    (hs.and ops hu.safe) ⟨arrays_empty, fun _ => trivial⟩
  obtain ⟨rfl, rfl⟩ := hd _ _ hm
  have hr := hw.rel i
  obtain ⟨h', a, e1, _, _, _, h4⟩ := ArrayH.resizeT_throws mv d hr (hp i).2 hn t
  have e0 : ArrayH.stepT mv eq d (.call (.resize n), .throws k t) (w.heap, w.lists i) = .err (h', w.lists i) := Cpp.bind_err e1
  have e2 : (arraysT mv eq d).run (.flag true) .error w [.call i (.call (.resize n), .throws k t)] =
      some (({ w with heap := h' } : ListWorld α).put i (w.lists i), [.error]) := by
    simp only [Movable.run, Movable.step, arraysT, ListWorld.movable, on, e0]; rfl
  have e3 := Movable.run_after e [.call i (.call (.resize n), .throws k t)]
  rw [e2] at e3
  refine ⟨_, e3, ?_, ?_⟩
  · simp only [put, if_pos]
    exact hr.count.trans (hp i).2.count
  · intro a ha
    simp only [put, if_pos] at ha ⊢
    exact h4 a ha

/-! ## Concrete programs -/

private def mv0 : Option Nat → Option Nat := fun _ => none
private def live (w : ListWorld Nat) : Nat := ((List.range w.heap.next).filter fun a => (w.heap.block a).isSome).length

/-- Lists: an assignment throws and leaves 9; an insertion at no position of the list is refused before anything throws; an
assignment of which only the second copy would throw completes.  Then an insertion throws, and the list cannot be destroyed. -/
example :
    let ops : List (Spec.MoveOp (Spec.SeqOp Nat Nat × CopyFate Nat)) :=
      [.call 0 (.add 5, .completes), .call 0 (.add 6, .throws 1 0), .call 0 (.set 1 7, .throws 0 9),
       .call 0 (.insert 3 8, .throws 0 0), .call 0 (.get 1, .throws 0 0), .moveAssign 1 0, .call 1 (.insert 1 4, .completes)]
    let run := (listsT mv0 (· == ·)).run (.flag true) .error ListWorld.empty
    Spec.Uninterrupted (· == ·) (fun _ => []) ops ∧
    (run ops).map (fun p => p.2) = some [.index 0, .index 1, .error, .error, .value 9, .flag true, .index 1] ∧
    (run (ops ++ [.renew 0, .renew 1])).map (fun p => live p.1) = some 0 ∧
    (run (ops ++ [.call 1 (.insert 1 4, .throws 0 0), .call 1 (.count, .completes), .call 1 (.get 2, .completes)])).map
      (fun p => p.2.drop 7) = some [.error, .index 4, .value 4] ∧
    (run (ops ++ [.call 1 (.insert 1 4, .throws 0 0), .renew 1])).isNone := by
  refine ⟨?_, by decide +kernel, by decide +kernel, by decide +kernel, by decide +kernel⟩
  simp [Spec.Uninterrupted, Spec.SeqInterrupted, Spec.moveStep, Spec.throwStep, Spec.seqStep]

/-- Sorted lists. -/
example :
    let cmp : Nat → Nat → Option Ordering := fun a b => some (compare a b)
    let ops : List (Spec.MoveOp (Spec.SortedOp Nat Nat × CopyFate Nat)) :=
      [.call 0 (.add 5, .completes), .call 0 (.add 3, .completes), .call 0 (.remove 5, .throws 0 0)]
    let run := (sortedListsT mv0 cmp id).run (.flag true) .error ListWorld.empty
    (run ops).map (fun p => p.2) = some [.index 0, .index 0, .flag true] ∧
    (run (ops ++ [.renew 0])).map (fun p => live p.1) = some 0 ∧
    (run (ops ++ [.call 0 (.add 4, .throws 0 0)])).map (fun p => p.2.drop 3) = some [.error] ∧
    (run (ops ++ [.call 0 (.add 4, .throws 0 0), .renew 0])).isNone := by
  refine ⟨by decide +kernel, by decide +kernel, by decide +kernel, by decide +kernel⟩

/-- Arrays: an assignment throws; then the second of the three new elements of `Resize`. -/
example :
    let ops : List (Spec.MoveOp (Spec.ArrCall Nat Nat × CopyFate Nat)) :=
      [.call 0 (.createFrom [5, 6] 2, .throws 2 0), .call 0 (.call (.set 1 7), .throws 0 9), .call 0 (.call (.get 1), .completes),
       .call 1 (.create 1, .completes), .call 0 (.call (.resize 3), .throws 1 0)]
    let run := (arraysT mv0 (· == ·) (some 1)).run (.flag true) .error ListWorld.empty
    Spec.ArrUninterrupted (· == ·) (some 1) (fun _ => []) ops ∧
    (Spec.moveRun? (Spec.arrThrowStep (· == ·) (some 1)) [] (.flag true) .error (fun _ => []) ops).map (fun p => p.2) =
      some [.flag true, .error, .value 9, .flag true, .flag true] ∧
    (run (ops ++ [.renew 0, .renew 1])).map (fun p => live p.1) = some 0 ∧
    (run (ops ++ [.call 0 (.call (.resize 6), .throws 1 0), .renew 0, .renew 1])).map (fun p => live p.1) = some 1 ∧
    (run (ops ++ [.call 0 (.call (.resize 6), .throws 1 0), .call 0 (.call (.get 1), .completes)])).isNone ∧
    (run (ops ++ [.call 1 (.create 4, .throws 3 0), .renew 0, .renew 1])).map (fun p => live p.1) = some 1 := by
  refine ⟨?_, by decide +kernel, by decide +kernel, by decide +kernel, by decide +kernel, by decide +kernel⟩
  simp [Spec.ArrUninterrupted, Spec.ArrInterrupted, Spec.moveStep?, Spec.arrThrowStep, Spec.arrCall, Spec.arrStep]

end Vlpp
