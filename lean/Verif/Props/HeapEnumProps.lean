import Verif.Lemmas.HeapEnum
import Verif.Props.HeapListProps
import Verif.Props.HeapDictProps
import Verif.Props.HeapArrayProps

/-!
# Property C85: enumerators stay usable while their containers change
-/
set_option autoImplicit false
namespace Vlpp
open EnumClass
variable {α κ ν : Type}

/-- Programs that only make valid calls are careful where `Current` may be called anywhere. -/
theorem careful_of_valid {A C Op Ret : Type} {K : Spec.Cursors A C Op α} {Step : A → Op → A → Ret → Prop} {Valid : A → Op → Prop}
    {empty : A} {moved refused : Ret} (hK : ∀ xs c, K.Readable xs c) (ops : List (Spec.CursorOp Op))
    (hv : ∀ i op, .object (.call i op) ∈ ops → ∀ x, Valid x op) (xs : Nat → A) (cs : Nat → C) :
    Spec.Careful K Step Valid empty moved refused xs cs ops := by
  induction ops generalizing xs cs with
  | nil => trivial
  | cons op ops ih =>
    exact ⟨fun _ _ => hK _ _, fun i o h => hv i o (by simp [h]) _, fun xs' cs' _ _ => ih (fun i o h => hv i o (by simp [h])) xs' cs'⟩

/-- **C85.** Any program over any number of lists on one heap and any number of enumerators of them, in which the calls on the enumerators
and on the lists — including those that move, destroy or reallocate the lists — follow each other in any order: no undefined behaviour;
an enumerator behaves like a position, whatever happens to the list: `Next` tells whether the list has an element at the next position
now, and `Current` returns the element which is there now, or raises an error; the lists do not notice the enumerators. -/
theorem C85_list (mv : Option α → Option α) (eq : α → κ → Bool) (ops : List (Spec.CursorOp (Spec.SeqOp α κ)))
    (hv : ∀ i op, .object (.call i op) ∈ ops → op.Valid) :
    ∃ w xs cs rs, EnumWorld.run (ListWorld.movable (ListH.step mv eq)) ListEnum.cls (.flag true) .error
        ⟨ListWorld.empty, fun _ => ListEnum.cls.create (α := α) 0⟩ ops = some (w, rs) ∧
      Spec.CursorRun Spec.listCursors (fun x op x' r => Spec.seqStep eq x op = (x', r)) [] (.flag true) .error
        (fun _ => []) (fun _ => ⟨0, -1⟩) ops xs cs rs ∧
      w.objects.Holds xs := by
  obtain ⟨w, xs, cs, rs, e, ⟨⟨ds, hw, hp⟩, _⟩, _, hr⟩ := CursorSim.run (moved := .flag true) (heap_list_sim mv eq)
    (ListEnum.sim (P := fun _ => True)) ops
    (w := ⟨ListWorld.empty, fun _ => ListEnum.cls.create (α := α) 0⟩) (cs := fun _ => ⟨0, -1⟩)
    ⟨ListWorld.Reps.empty, fun _ => trivial⟩ (fun _ => ⟨rfl, rfl⟩) (careful_of_valid (fun _ _ => trivial) ops (fun i o h _ => hv i o h) _ _)
  exact ⟨w, xs, cs, rs, e, hr, hw.holds hp⟩

/-- **C85.** The same for sorted lists, which stay sorted. -/
theorem C85_sorted (mv : Option α → Option α) {cmp : α → κ → Option Ordering} {ord : κ → κ → Ordering}
    {key : α → κ} [Std.TransCmp ord] (hcmp : ∀ x k, cmp x k = some (ord (key x) k))
    (ops : List (Spec.CursorOp (Spec.SortedOp α κ))) (hv : ∀ i op, .object (.call i op) ∈ ops → op.Valid) :
    ∃ w xs cs rs, EnumWorld.run (ListWorld.movable (ListH.sortedStep mv cmp key)) ListEnum.cls (.flag true) .error
        ⟨ListWorld.empty, fun _ => ListEnum.cls.create (α := α) 0⟩ ops = some (w, rs) ∧
      Spec.CursorRun Spec.listCursors (Spec.SortedStep ord key) [] (.flag true) .error (fun _ => []) (fun _ => ⟨0, -1⟩) ops xs cs rs ∧
      w.objects.Holds xs ∧ ∀ n, Spec.Ascending ord key (xs n) := by
  have hs := ListWorld.moveSim (P := Spec.Ascending ord key) (Valid := fun _ => Spec.SortedOp.Valid) ListWorld.holding_list List.Pairwise.nil (heap_sorted_step mv hcmp)
  obtain ⟨w, xs, cs, rs, e, ⟨⟨ds, hw, hp⟩, ha⟩, _, hr⟩ := CursorSim.run (moved := .flag true) hs ListEnum.sim ops
    (w := ⟨ListWorld.empty, fun _ => ListEnum.cls.create (α := α) 0⟩) (cs := fun _ => ⟨0, -1⟩)
    ⟨ListWorld.Reps.empty, fun _ => List.Pairwise.nil⟩ (fun _ => ⟨rfl, rfl⟩)
    (careful_of_valid (fun _ _ => trivial) ops (fun i o h _ => hv i o h) _ _)
  exact ⟨w, xs, cs, rs, e, hr, hw.holds hp, ha⟩

/-- **C85.** The same for arrays, when the program reads no element that was never given a value. -/
theorem C85_array (mv : Option α → Option α) (eq : α → κ → Bool) (d : Option α) (ops : List (Spec.CursorOp (Spec.ArrCall α κ)))
    (hv : Spec.Careful Spec.arrayCursors (fun x op x' r => Spec.arrCall eq d x op = some (x', r)) (fun x op => Spec.arrCall eq d x op ≠ none)
      [] (.flag true) .error (fun _ => []) (fun _ => ⟨0, -1⟩) ops) :
    ∃ w ys cs rs, EnumWorld.run (arrays mv eq d) ListEnum.cls (.flag true) .error
        ⟨ListWorld.empty, fun _ => ListEnum.cls.create (α := α) 0⟩ ops = some (w, rs) ∧
      Spec.CursorRun Spec.arrayCursors (fun x op x' r => Spec.arrCall eq d x op = some (x', r)) [] (.flag true) .error
        (fun _ => []) (fun _ => ⟨0, -1⟩) ops ys cs rs ∧
      ArrayH.Holds w.objects ys := by
  obtain ⟨w, xs, cs, rs, e, ⟨hw, _⟩, _, hr⟩ := CursorSim.run (moved := .flag true) (arrays_sim mv eq d) ListEnum.array_sim ops
    (w := ⟨ListWorld.empty, fun _ => ListEnum.cls.create (α := α) 0⟩) (cs := fun _ => ⟨0, -1⟩)
    ⟨arrays_empty, fun _ => trivial⟩ (fun _ => ⟨rfl, rfl⟩) hv
  exact ⟨w, xs, cs, rs, e, hr, ArrayH.holds hw⟩

/-- the careful programs over dictionaries and enumerators -/
def CarefulPairs (ord : κ → κ → Ordering) (ops : List (Spec.CursorOp (Spec.MapOp κ ν))) : Prop :=
  Spec.Careful (Spec.mapCursors ord) (fun x op x' r => Spec.mapStep ord x op = (x', r)) (fun _ _ => True) (fun _ => none) (.flag true) .error
    (fun _ _ => none) (fun _ => ⟨0, -1, .nothing⟩) ops

/-- dictionaries and enumerators on the model -/
def pairsRun (mk : Option κ → Option κ) (mv : Option ν → Option ν) (cmp : κ → κ → Option Ordering)
    (ops : List (Spec.CursorOp (Spec.MapOp κ ν))) :
    Option (EnumWorld (DictWorld κ ν) (DictEnum κ ν) × List (Spec.CursorRet (Spec.MapRet ν) (κ × ν))) :=
  EnumWorld.run (DictWorld.movable mk mv cmp) DictEnum.cls (.flag true) .error ⟨DictWorld.empty, fun _ => DictEnum.cls.create 0⟩ ops

theorem pairs_run (mk : Option κ → Option κ) (mv : Option ν → Option ν) {cmp : κ → κ → Option Ordering}
    {ord : κ → κ → Ordering} [Std.TransCmp ord] (hcmp : ∀ a b, cmp a b = some (ord a b))
    (ops : List (Spec.CursorOp (Spec.MapOp κ ν))) (hv : CarefulPairs ord ops) :
    ∃ w ms cs rs, pairsRun mk mv cmp ops = some (w, rs) ∧ DictWorld.Stores ord w.objects ms ∧
      (∀ n, DictEnum.Is w.objects (w.enums n) (cs n) ∧ -1 ≤ (cs n).index) ∧
      Spec.CursorRun (Spec.mapCursors ord) (fun x op x' r => Spec.mapStep ord x op = (x', r)) (fun _ => none) (.flag true) .error
        (fun _ _ => none) (fun _ => ⟨0, -1, .nothing⟩) ops ms cs rs :=
  CursorSim.run (moved := .flag true) (DictWorld.moveSim mk mv hcmp) (DictEnum.sim mk mv _ _) ops
    (w := ⟨DictWorld.empty, fun _ => DictEnum.cls.create 0⟩) (cs := fun _ => ⟨0, -1, .nothing⟩)
    DictWorld.stores_empty (fun _ => ⟨⟨rfl, rfl, fun _ => rfl, fun h => nomatch h⟩, Int.le_refl _⟩) hv

/-- **C85, partial.** Any program over any number of dictionaries and any number of enumerators of them that calls `Current` only when the
dictionary was not changed since the last `Next` (which returned true): no undefined behaviour; `Next` goes to the entry that is at the
next position of the dictionary now, in ascending order of keys.  Missing: programs that call `Current` at other times, see
`C85_violated_dictionary`. -/
theorem C85_dictionary_partial (mk : Option κ → Option κ) (mv : Option ν → Option ν) {cmp : κ → κ → Option Ordering}
    {ord : κ → κ → Ordering} [Std.TransCmp ord] (hcmp : ∀ a b, cmp a b = some (ord a b))
    (ops : List (Spec.CursorOp (Spec.MapOp κ ν))) (hv : CarefulPairs ord ops) :
    ∃ w ms cs rs ks vs, pairsRun mk mv cmp ops = some (w, rs) ∧
      Spec.CursorRun (Spec.mapCursors ord) (fun x op x' r => Spec.mapStep ord x op = (x', r)) (fun _ => none) (.flag true) .error
        (fun _ _ => none) (fun _ => ⟨0, -1, .nothing⟩) ops ms cs rs ∧
      w.objects.keys.Holds ks ∧ w.objects.values.Holds vs ∧ ∀ n, Spec.Lists ord (ms n) (ks n) (vs n) := by
  obtain ⟨w, ms, cs, rs, e, ⟨ds, ⟨⟨c1, h1, p1⟩, ⟨c2, h2, p2⟩⟩, hl⟩, _, hr⟩ := pairs_run mk mv hcmp ops hv
  exact ⟨w, ms, cs, rs, _, _, e, hr, h1.holds p1, h2.holds p2, hl⟩

theorem EnumWorld.run_append {σ E Op Ret : Type} (M : Movable σ Op Ret) (K : EnumClass σ E α) (moved error : Ret) (w : EnumWorld σ E)
    (xs ys : List (Spec.CursorOp Op)) : EnumWorld.run M K moved error w (xs ++ ys) =
      (EnumWorld.run M K moved error w xs).bind fun p => (EnumWorld.run M K moved error p.1 ys).map fun q => (q.1, p.2 ++ q.2) := by
  induction xs generalizing w with
  | nil => cases h : EnumWorld.run M K moved error w ys <;> simp [EnumWorld.run, h]
  | cons op xs ih =>
    simp only [List.cons_append, EnumWorld.run]
    cases EnumWorld.step M K moved error w op with
    | none => rfl
    | some p =>
      simp only [Option.bind_eq_bind, Option.bind_some, ih]
      cases EnumWorld.run M K moved error p.1 xs with
      | none => rfl
      | some q =>
        simp only [Option.bind_some, Option.pure_def]
        cases EnumWorld.run M K moved error q.1 ys <;> rfl

theorem clear_buffer {α : Type} {i : Nat} {w w' : ListWorld α} {v : Bool} (h : ListWorld.on i ListH.clear w = .ok v w') :
    (w'.lists i).buffer = none := by
  unfold ListWorld.on at h
  split at h
  · next r s e =>
    unfold ListH.clear at e
    obtain ⟨_, s1, _, e⟩ := Cpp.bind_eq_ok e
    obtain ⟨_, s2, _, e⟩ := Cpp.bind_eq_ok e
    obtain ⟨_, s3, _, e⟩ := Cpp.bind_eq_ok e
    obtain ⟨_, s4, e', e⟩ := Cpp.bind_eq_ok e
    cases e'
    cases e
    cases h
    simp [ListWorld.put]
  · cases h
  · cases h

/-- **C85 is violated by dictionaries**: after any careful program, when `Next` returned true, clearing the dictionary makes `Current`
undefined: it returns a pair of references to memory that was released (an enumerator of a list raises an error there). -/
theorem C85_violated_dictionary (mk : Option κ → Option κ) (mv : Option ν → Option ν) {cmp : κ → κ → Option Ordering}
    {ord : κ → κ → Ordering} [Std.TransCmp ord] (hcmp : ∀ a b, cmp a b = some (ord a b))
    (ops : List (Spec.CursorOp (Spec.MapOp κ ν))) (hv : CarefulPairs ord ops) (e : Nat)
    (w : EnumWorld (DictWorld κ ν) (DictEnum κ ν)) (rs : List (Spec.CursorRet (Spec.MapRet ν) (κ × ν)))
    (h : pairsRun mk mv cmp (ops ++ [.next e]) = some (w, rs ++ [.flag true])) :
    pairsRun mk mv cmp (ops ++ [.next e, .object (.call (w.enums e).container .clear), .current e]) = none := by
  obtain ⟨w0, ms, cs, rs0, e0, hst, hQ, _⟩ := pairs_run mk mv hcmp ops hv
  obtain ⟨b, e', c', hn, hNext, hIs, _⟩ := (DictEnum.sim mk mv (cmp := cmp) (ord := ord) (.flag true) .error).next _ _ _ _ hst (hQ e)
  have hstep : EnumWorld.step (DictWorld.movable mk mv cmp) DictEnum.cls (.flag true) .error w0 (.next e) =
      some (⟨w0.objects, fun n => if n = e then e' else w0.enums n⟩, .flag b) := by
    simp only [EnumWorld.step]
    rw [Cpp.bind_ok (show EnumWorld.on e DictEnum.cls.next w0 = .ok b ⟨w0.objects, fun n => if n = e then e' else w0.enums n⟩ by
      simp only [EnumWorld.on, hn])]
    rfl
  unfold pairsRun at h e0 ⊢
  rw [EnumWorld.run_append, e0] at h ⊢
  simp only [Option.bind_some, EnumWorld.run, hstep, Option.bind_eq_bind, Option.pure_def, Option.map_some, Option.some.injEq,
    Prod.mk.injEq] at h ⊢
  obtain ⟨rfl, hrs⟩ := h
  have hb : b = true := by
    have := (List.append_inj' hrs rfl).2
    simpa using this
  subst hb
  obtain ⟨ks, vs, _, _, rfl⟩ := hNext
  obtain ⟨g0, g1, g2⟩ := hIs.entry rfl
  obtain ⟨wo, x', r, hcall, hst'⟩ : ∃ wo x' r, DictWorld.call mk mv cmp e'.container .clear w0.objects = .ok r wo ∧
      DictWorld.Stores ord wo (upd ms e'.container x') := by
    rcases (DictWorld.moveSim mk mv hcmp).call w0.objects ms e'.container .clear hst trivial with
      ⟨w', x', r, h1, h2, _⟩ | ⟨w', x', _, _, h3, _⟩
    · exact ⟨w', x', r, h1, h2⟩
    · simp [Spec.mapStep] at h3
  have hclear : (DictWorld.movable mk mv cmp).step (.flag true) .error w0.objects (.call e'.container .clear) = some (wo, r) := by
    simp only [Movable.step]
    rw [show (DictWorld.movable mk mv cmp).call e'.container .clear w0.objects = _ from hcall]
    rfl
  have hother : ∀ n, n ≠ e'.container → wo.keys.lists n = w0.objects.keys.lists n := fun n hn =>
    (DictWorld.step_same mk mv cmp (n := n) (by simp [Spec.MoveOp.Changes, hn]) hclear).1
  have hbuf : (wo.keys.lists e'.container).buffer = none := by
    obtain ⟨_, s1, h1, h2⟩ := Cpp.bind_eq_ok (m := DictWorld.clear e'.container) (f := fun b => pure (Spec.MapRet.flag b)) hcall
    cases h2
    obtain ⟨_, s2, h3, h4⟩ := Cpp.bind_eq_ok h1
    obtain ⟨_, s3, h5, h6⟩ := Cpp.bind_eq_ok h4
    cases h6
    unfold DictWorld.onKeys at h3
    unfold DictWorld.onValues at h5
    split at h3
    · next e3 =>
      cases h3
      split at h5
      · cases h5
        exact clear_buffer e3
      · cases h5
      · cases h5
    · cases h3
    · cases h3
  obtain ⟨_, ⟨⟨_, hk0, hp0⟩, _⟩, _⟩ := hst
  obtain ⟨_, ⟨⟨_, hk1, _⟩, _⟩, _⟩ := hst'
  obtain ⟨a, ha⟩ : ∃ a, (w0.objects.keys.lists e'.container).buffer = some a := by
    cases hb : (w0.objects.keys.lists e'.container).buffer with
    | some a => exact ⟨a, rfl⟩
    | none =>
      have := (hk0.holds hp0).empty _ hb
      have hc := (hk0.holds hp0).count e'.container
      rw [this] at hc
      simp only [List.length_nil] at hc
      omega
  have hgone : wo.keys.heap.block a = none := by
    refine Classical.byContradiction fun hne => ?_
    obtain ⟨j, hj⟩ := hk1.owned a hne
    by_cases hje : j = e'.container
    · rw [hje, hbuf] at hj
      cases hj
    · rw [hother j hje] at hj
      exact hk0.disjoint j _ a hje hj ha
  have hread : DictEnum.cls.current (wo, e') = .fault := by
    show DictEnum.readCurrent (wo, e') = _
    unfold DictEnum.readCurrent
    rw [members_bind]
    simp only [g2, ha]
    rw [Cpp.bind_fault (onObjects_fault _)]
    unfold DictWorld.onKeys ListWorld.on ListH.onHeap ElemRef.read Heap.access
    simp only [hgone]
  simp only [if_true, EnumWorld.step, hclear, Option.map_some, Option.bind_some]
  rw [Cpp.bind_fault (show EnumWorld.on e DictEnum.cls.current _ = .fault by simp only [EnumWorld.on, if_true, hread])]
  rfl

theorem current_same {A C Op Ret : Type} {K : Spec.Cursors A C Op α} {Step : A → Op → A → Ret → Prop} {empty : A} {moved refused : Ret}
    {xs xs' : Nat → A} {cs cs' : Nat → C} {e : Nat} {r : Spec.CursorRet Ret α}
    (h : Spec.CursorStep K Step empty moved refused xs cs (.current e) xs' cs' r) : xs' = xs ∧ cs' = cs := by
  cases h <;> exact ⟨rfl, rfl⟩

/-- The list grows and shrinks under an enumerator: each call returns what is at the position at this time. -/
example :
    let ops : List (Spec.CursorOp (Spec.SeqOp Nat Nat)) :=
      [.object (.call 0 (.add 5)), .object (.call 0 (.add 6)), .create 0 0, .next 0, .current 0, .object (.call 0 (.removeAt 0)), .current 0,
       .clone 1 0, .next 1, .current 1, .object (.call 0 (.add 7)), .current 1, .object (.moveAssign 1 0), .current 0, .index 1, .reset 1,
       .current 1, .next 1]
    (∀ i op, .object (.call i op) ∈ ops → op.Valid) ∧
    (EnumWorld.run (ListWorld.movable (ListH.step (fun _ => none) (fun a b : Nat => a == b))) ListEnum.cls (.flag true) .error
      ⟨ListWorld.empty, fun _ => ListEnum.cls.create (α := Nat) 0⟩ ops).map (·.2) =
      some [.object (.index 0), .object (.index 1), .done, .flag true, .item 5, .object (.flag true), .item 6, .done, .flag false, .error,
        .object (.index 1), .item 7, .object (.flag true), .error, .index 1, .done, .error, .flag false] := by
  refine ⟨?_, by decide +kernel⟩
  intro i op h
  simp at h
  rcases h with ⟨_, rfl⟩ | ⟨_, rfl⟩ | ⟨_, rfl⟩ | ⟨_, rfl⟩ <;> simp [Spec.SeqOp.Valid]

/-- Two enumerators over one array, one of them created before the array has elements; elements without a value are not read. -/
example :
    let ops : List (Spec.CursorOp (Spec.ArrCall Nat Nat)) :=
      [.object (.call 0 (.createFrom [7, 8] 2)), .next 0, .object (.call 0 (.call (.set 0 9))), .current 0, .object (.call 0 (.create 1)),
       .next 0, .current 0]
    Spec.Careful Spec.arrayCursors (fun x op x' r => Spec.arrCall (· == ·) none x op = some (x', r))
      (fun x op => Spec.arrCall (· == ·) none x op ≠ none) [] (.flag true) .error (fun _ => []) (fun _ => ⟨0, -1⟩) ops ∧
    (EnumWorld.run (arrays (fun _ => none) (fun a b : Nat => a == b) none) ListEnum.cls (.flag true) .error
      ⟨ListWorld.empty, fun _ => ListEnum.cls.create (α := Nat) 0⟩ ops).map (·.2) =
      some [.object (.flag true), .flag true, .object (.flag true), .item 9, .object (.flag true), .flag false, .error] := by
  refine ⟨?_, by decide +kernel⟩
  have no : ∀ {o : Spec.CursorOp (Spec.ArrCall Nat Nat)} {P : Nat → Prop}, (∀ e, o ≠ .current e) → ∀ e, o = .current e → P e :=
    fun h e he => absurd he (h e)
  refine ⟨no (by simp), ?_, ?_⟩
  · intro i o h
    cases h
    simp [Spec.arrCall]
  intro xs cs r h
  cases h with | object op xs r h => ?_
  cases h with | call i op x r h => ?_
  simp [Spec.arrCall] at h
  obtain ⟨rfl, rfl⟩ := h
  refine ⟨no (by simp), by simp, ?_⟩
  intro xs cs r h
  cases h with | next e c b h => ?_
  obtain ⟨rfl, _⟩ := h
  refine ⟨no (by simp), ?_, ?_⟩
  · intro i o h
    cases h
    simp [Spec.arrCall, Spec.arrStep]
  intro xs cs r h
  cases h with | object op xs r h => ?_
  cases h with | call i op x r h => ?_
  simp [Spec.arrCall, Spec.arrStep] at h
  obtain ⟨rfl, rfl⟩ := h
  refine ⟨?_, by simp, ?_⟩
  · intro e h
    cases h
    simp [Spec.arrayCursors, Spec.replace]
  intro xs cs r h
  obtain ⟨rfl, rfl⟩ := current_same h
  clear h
  refine ⟨no (by simp), ?_, ?_⟩
  · intro i o h
    cases h
    simp [Spec.arrCall]
  intro xs cs r h
  cases h with | object op xs r h => ?_
  cases h with | call i op x r h => ?_
  simp [Spec.arrCall] at h
  obtain ⟨rfl, rfl⟩ := h
  refine ⟨no (by simp), by simp, ?_⟩
  intro xs cs r h
  cases h with | next e c b h => ?_
  obtain ⟨rfl, _⟩ := h
  refine ⟨?_, by simp, fun _ _ _ _ => trivial⟩
  intro e h
  cases h
  simp [Spec.arrayCursors, Spec.replace]

/-- The entries of a dictionary while it changes, and an entry that is gone. -/
example :
    let ops : List (Spec.CursorOp (Spec.MapOp Int Int)) :=
      [.object (.call 0 (.add 3 30)), .next 0, .current 0, .object (.call 0 (.add 1 10)), .next 0]
    let M := pairsRun (ν := Int) (fun _ => none) (fun _ => none) (fun a b : Int => some (compare a b))
    CarefulPairs compare ops ∧
    (M ops).map (fun p => (p.2, (p.1.enums 0).container)) =
      some ([.object (.flag true), .flag true, .item (3, 30), .object (.flag true), .flag true], 0) ∧
    (M (ops ++ [.current 0])).map (·.2) =
      some [.object (.flag true), .flag true, .item (3, 30), .object (.flag true), .flag true, .item (3, 30)] ∧
    (M (ops ++ [.reset 0, .clone 1 0, .current 1])).map (·.2) =
      some [.object (.flag true), .flag true, .item (3, 30), .object (.flag true), .flag true, .error, .done, .error] ∧
    (M (ops ++ [.object (.call 0 .clear), .current 0])).isNone := by
  refine ⟨?_, by decide +kernel, by decide +kernel, by decide +kernel, by decide +kernel⟩
  have no : ∀ {o : Spec.CursorOp (Spec.MapOp Int Int)} {P : Nat → Prop}, (∀ e, o ≠ .current e) → ∀ e, o = .current e → P e :=
    fun h e he => absurd he (h e)
  refine ⟨no (by simp), fun _ _ _ => trivial, ?_⟩
  intro xs cs r h
  cases h with | object op xs r h => ?_
  refine ⟨no (by simp), fun _ _ _ => trivial, ?_⟩
  intro xs cs r h
  cases h with | next e c b h => ?_
  obtain ⟨ks, vs, _, _, rfl⟩ := h
  refine ⟨?_, fun _ _ _ => trivial, fun _ _ _ _ => ⟨no (by simp), fun _ _ _ => trivial, fun _ _ _ _ => ⟨no (by simp), fun _ _ _ => trivial,
    fun _ _ _ _ => trivial⟩⟩⟩
  intro e h
  cases h
  cases b <;> simp [Spec.mapCursors, Spec.replace, Spec.MoveOp.Changes, Spec.MapOp.Modifies, Spec.Shown.outdated]


end Vlpp
