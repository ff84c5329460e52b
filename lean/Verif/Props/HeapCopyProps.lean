import Verif.Lemmas.HeapCopyRun

/-!
# Property C93: `CopyFrom` between containers of one memory
-/
set_option autoImplicit false
namespace Vlpp
variable {α κ ν : Type}

/-- programs over lists; `viaLazy`: copies read the source through a lazy list -/
def listsC (mv : Option α → Option α) (eq : α → κ → Bool) (viaLazy : Bool) :
    List (Spec.CopyOp (Spec.SeqOp α κ)) → Option (ListWorld α × List (Spec.SeqRet α)) :=
  (ListWorld.movable (ListH.step mv eq)).runC (ListWorld.copyOf (ListH.addRef mv) viaLazy) (.flag true) .error ListWorld.empty

theorem listsC_reps (mv : Option α → Option α) (eq : α → κ → Bool) (viaLazy : Bool) (ops : List (Spec.CopyOp (Spec.SeqOp α κ)))
    (hv : ∀ i op, .op (.call i op) ∈ ops → op.Valid) (hds : Spec.NoSelfCopy ops) :
    let r := Spec.copyRun (Spec.seqStep eq) (· ++ ·) [] (.flag true) .error (fun _ => []) ops
    ∃ w, listsC mv eq viaLazy ops = some (w, r.2) ∧ ListWorld.Reps w r.1 := by
  intro r
  obtain ⟨w, xs, rs, e, ⟨hr, _⟩, hm⟩ := (heap_list_sim mv eq).copies (moved := .flag true)
    (copy := ListWorld.copyOf (ListH.addRef mv) viaLazy) (Join := fun x y z => x ++ y = z)
    (fun w xs d s append h hds => by
      obtain ⟨w', e, h'⟩ := ListWorld.copyOf_other mv viaLazy append h.1 hds
      exact ⟨w', _, e, ⟨h', fun _ => trivial⟩, rfl⟩)
    ops (fun i o h _ => hv i o h) hds ⟨ListWorld.Reps.empty, fun _ => trivial⟩
  have : r = (xs, rs) := hm.eq_copyRun
  rw [this]
  exact ⟨w, e, hr⟩

/-- **C93, lists.** Every program over lists of one memory in which lists, or lazy lists over them, are copied to other lists: no
undefined behaviour — although every element is passed by reference into another buffer —, every result is that of the program
over sequences in which a copy is `(append ? target : nothing) ++ source`, and afterwards the memory consists of the buffers of the
lists, which hold their elements.  Missing: copies of a list to itself, see `C93_list_self`. -/
theorem C93_lists_partial (mv : Option α → Option α) (eq : α → κ → Bool) (viaLazy : Bool)
    (ops : List (Spec.CopyOp (Spec.SeqOp α κ))) (hv : ∀ i op, .op (.call i op) ∈ ops → op.Valid) (hds : Spec.NoSelfCopy ops) :
    let r := Spec.copyRun (Spec.seqStep eq) (· ++ ·) [] (.flag true) .error (fun _ => []) ops
    ∃ w, listsC mv eq viaLazy ops = some (w, r.2) ∧ w.Holds r.1 := by
  intro r
  obtain ⟨w, e, hr⟩ := listsC_reps mv eq viaLazy ops hv hds
  exact ⟨w, e, hr.holds⟩

/-- **C93, a list copied to itself.** After every program: with `append` false nothing is left of the list; with `append` true the
elements follow once more if the buffer has room for all of them, and otherwise the element that is inserted was destroyed with
the old buffer; through a lazy list, which never ends because the list grows, this happens to every list that is not empty. -/
theorem C93_list_self (mv : Option α → Option α) (eq : α → κ → Bool) (viaLazy : Bool) (ops : List (Spec.CopyOp (Spec.SeqOp α κ)))
    (hv : ∀ i op, .op (.call i op) ∈ ops → op.Valid) (hds : Spec.NoSelfCopy ops) (d : Nat) :
    let r := Spec.copyRun (Spec.seqStep eq) (· ++ ·) [] (.flag true) .error (fun _ => []) ops
    ∃ w, listsC mv eq viaLazy ops = some (w, r.2) ∧
      (∀ via, ∃ w', ListWorld.copyOf (ListH.addRef mv) via d d false w = some (.ok () w') ∧
        w'.Holds (fun n => if n = d then [] else r.1 n)) ∧
      (2 * (r.1 d).length ≤ (w.lists d).capacity → ∃ w', ListWorld.copyOf (ListH.addRef mv) false d d true w = some (.ok () w') ∧
        w'.Holds (fun n => if n = d then r.1 d ++ r.1 d else r.1 n)) ∧
      ((w.lists d).capacity < 2 * (r.1 d).length → ListWorld.copyOf (ListH.addRef mv) false d d true w = some .fault) ∧
      (r.1 d ≠ [] → ListWorld.copyOf (ListH.addRef mv) true d d true w = some .fault) := by
  intro r
  obtain ⟨w, e, hr⟩ := listsC_reps mv eq viaLazy ops hv hds
  obtain ⟨h1, h2, h3⟩ := ListWorld.copyOf_self_append mv d hr
  refine ⟨w, e, fun via => ?_, fun hc => ?_, h2, h3⟩
  · obtain ⟨w', e', h'⟩ := ListWorld.copyOf_self_clear (ListH.addRef mv) via d hr
    exact ⟨w', e', h'.holds⟩
  · obtain ⟨w', e', h'⟩ := h1 hc
    exact ⟨w', e', h'.holds⟩

/-- programs over sorted lists -/
def sortedC (mv : Option α → Option α) (cmp : α → κ → Option Ordering) (key : α → κ) :
    List (Spec.CopyOp (Spec.SortedOp α κ)) → Option (ListWorld α × List (Spec.SeqRet α)) :=
  (ListWorld.movable (ListH.sortedStep mv cmp key)).runC (ListWorld.copyOf (ListH.sortedAddRef mv cmp key) false) (.flag true) .error
    ListWorld.empty

section
variable {cmp : α → κ → Option Ordering} {ord : κ → κ → Ordering} {key : α → κ} [Std.TransCmp ord]

theorem sortedC_reps (mv : Option α → Option α) (hcmp : ∀ x k, cmp x k = some (ord (key x) k))
    (ops : List (Spec.CopyOp (Spec.SortedOp α κ))) (hv : ∀ i op, .op (.call i op) ∈ ops → op.Valid) (hds : Spec.NoSelfCopy ops) :
    ∃ w xs rs, sortedC mv cmp key ops = some (w, rs) ∧
      Spec.CopyRun (Spec.SortedStep ord key) (Spec.SortedJoin ord key) [] (.flag true) .error (fun _ => []) ops xs rs ∧
      ListWorld.Reps w xs ∧ ∀ n, Spec.Ascending ord key (xs n) := by
  have hs := ListWorld.moveSim (P := Spec.Ascending ord key) (Valid := fun _ => Spec.SortedOp.Valid) ListWorld.holding_list
    List.Pairwise.nil (heap_sorted_step mv hcmp)
  obtain ⟨w, xs, rs, e, ⟨hr, ha⟩, hm⟩ := hs.copies (moved := .flag true)
    (copy := ListWorld.copyOf (ListH.sortedAddRef mv cmp key) false) (Join := Spec.SortedJoin ord key)
    (fun w xs d s append h hds => ListWorld.copyOf_sorted mv hcmp append h hds) ops (fun i o h _ => hv i o h) hds
    ⟨ListWorld.Reps.empty, fun _ => List.Pairwise.nil⟩
  exact ⟨w, xs, rs, e, hm, hr, ha⟩

/-- **C93, sorted lists.** The same for sorted lists: a copy puts the elements of the source into the target, which stays sorted. -/
theorem C93_sorted_partial (mv : Option α → Option α) (hcmp : ∀ x k, cmp x k = some (ord (key x) k))
    (ops : List (Spec.CopyOp (Spec.SortedOp α κ))) (hv : ∀ i op, .op (.call i op) ∈ ops → op.Valid) (hds : Spec.NoSelfCopy ops) :
    ∃ w xs rs, sortedC mv cmp key ops = some (w, rs) ∧
      Spec.CopyRun (Spec.SortedStep ord key) (Spec.SortedJoin ord key) [] (.flag true) .error (fun _ => []) ops xs rs ∧
      w.Holds xs ∧ ∀ n, Spec.Ascending ord key (xs n) := by
  obtain ⟨w, xs, rs, e, hm, hr, ha⟩ := sortedC_reps mv hcmp ops hv hds
  exact ⟨w, xs, rs, e, hm, hr.holds, ha⟩

/-- **C93, a sorted list copied to itself.** With `append` false nothing is left of it; with `append` true, if no other element is
equal to the smallest one, the behaviour is undefined however large the buffer is: the smallest element is inserted at its own
place, which is moved away before it is read. -/
theorem C93_sorted_self (mv : Option α → Option α) (hcmp : ∀ x k, cmp x k = some (ord (key x) k))
    (ops : List (Spec.CopyOp (Spec.SortedOp α κ))) (hv : ∀ i op, .op (.call i op) ∈ ops → op.Valid) (hds : Spec.NoSelfCopy ops)
    (d : Nat) :
    ∃ w xs rs, sortedC mv cmp key ops = some (w, rs) ∧
      Spec.CopyRun (Spec.SortedStep ord key) (Spec.SortedJoin ord key) [] (.flag true) .error (fun _ => []) ops xs rs ∧
      (∃ w', ListWorld.copyOf (ListH.sortedAddRef mv cmp key) false d d false w = some (.ok () w') ∧
        w'.Holds (fun n => if n = d then [] else xs n)) ∧
      ∀ x rest, xs d = x :: rest → (∀ y ∈ rest, ord (key x) (key y) ≠ .eq) →
        ListWorld.copyOf (ListH.sortedAddRef mv cmp key) false d d true w = some .fault := by
  obtain ⟨w, xs, rs, e, hm, hr, ha⟩ := sortedC_reps mv hcmp ops hv hds
  refine ⟨w, xs, rs, e, hm, ?_, ?_⟩
  · obtain ⟨w', e', h'⟩ := ListWorld.copyOf_self_clear (ListH.sortedAddRef mv cmp key) false d hr
    exact ⟨w', e', h'.holds⟩
  · intro x rest hx hone
    exact ListWorld.copyOf_sorted_self mv hcmp hr hx (ha d) hone

end

/-- **C93, arrays.** After every program over arrays (see C78), an array whose elements all have values can be copied to any array,
also to itself: the target is `(append ? target : nothing) ++ source`, both as they were before. -/
theorem C93_arrays (mv : Option α → Option α) (eq : α → κ → Bool) (dflt : Option α)
    (ops : List (Spec.MoveOp (Spec.ArrCall α κ))) (ys : Nat → List (Option α)) (rs : List (Spec.SeqRet α))
    (h : Spec.moveRun? (Spec.arrCall eq dflt) [] (.flag true) .error (fun _ => []) ops = some (ys, rs))
    (d s : Nat) (append : Bool) (hs : ∀ y ∈ ys s, y ≠ none) :
    ∃ w, (arrays mv eq dflt).run (.flag true) .error ListWorld.empty ops = some (w, rs) ∧
      ∃ w', ArrayH.copyFrom mv dflt d s append w = .ok () w' ∧
        ArrayH.Holds w' (fun n => if n = d then (if append then ys d else []) ++ ys s else ys n) := by
  obtain ⟨hsafe, hd⟩ := Safe.of_moveRun? ops _ h
  obtain ⟨w, xs, qs, e, ⟨hr, _⟩, hm, _⟩ := (arrays_sim mv eq dflt).run (moved := .flag true) ops hsafe
    ⟨arrays_empty, fun _ => trivial⟩
  obtain ⟨rfl, rfl⟩ := hd _ _ hm
  have hvs : ∃ vs : List α, xs s = vs.map some := by
    have : ∀ l : List (Option α), (∀ y ∈ l, y ≠ none) → ∃ vs : List α, l = vs.map some := by
      intro l
      induction l with
      | nil => exact fun _ => ⟨[], rfl⟩
      | cons y l ih =>
        intro hl
        obtain ⟨vs, hv⟩ := ih fun z hz => hl z (by simp [hz])
        obtain ⟨v, rfl⟩ := Option.ne_none_iff_exists'.1 (hl y (by simp))
        exact ⟨v :: vs, by rw [hv]; rfl⟩
    exact this _ hs
  obtain ⟨vs, hv⟩ := hvs
  obtain ⟨w', e', h'⟩ := ArrayH.copyFrom_ok mv dflt hr d s append hv
  refine ⟨w, e, w', e', ?_⟩
  rw [← hv] at h'
  exact ArrayH.holds h'

section
variable {cmp : κ → κ → Option Ordering} {ord : κ → κ → Ordering} [Std.TransCmp ord]

/-- programs over dictionaries -/
def dictsC (mk : Option κ → Option κ) (mv : Option ν → Option ν) (cmp : κ → κ → Option Ordering) :
    List (Spec.CopyOp (Spec.MapOp κ ν)) → Option (DictWorld κ ν × List (Spec.MapRet ν)) :=
  (DictWorld.movable mk mv cmp).runC (fun d s append w => some (DictWorld.copyFrom mk mv cmp d s append w)) (.flag true) .error
    DictWorld.empty

theorem dictsC_stores (mk : Option κ → Option κ) (mv : Option ν → Option ν) (hcmp : ∀ a b, cmp a b = some (ord a b))
    (ops : List (Spec.CopyOp (Spec.MapOp κ ν))) (hds : Spec.NoSelfCopy ops) :
    let r := Spec.copyRun (Spec.mapStep ord) Spec.mapJoin (fun _ => none) (.flag true) .error (fun _ => fun _ => none) ops
    ∃ w, dictsC mk mv cmp ops = some (w, r.2) ∧ DictWorld.Stores ord w r.1 := by
  intro r
  obtain ⟨w, ms, rs, e, hs, hm⟩ := (DictWorld.moveSim mk mv hcmp).copies (moved := .flag true)
    (copy := fun d s append w => some (DictWorld.copyFrom mk mv cmp d s append w)) (Join := fun x y z => Spec.mapJoin x y = z)
    (fun w xs d s append h hds => by
      obtain ⟨w', e, h'⟩ := DictWorld.copyFrom_other mk mv hcmp append h hds
      exact ⟨w', _, congrArg some e, h', rfl⟩)
    ops (fun _ _ _ _ => trivial) hds DictWorld.stores_empty
  have : r = (ms, rs) := hm.eq_copyRun
  rw [this]
  exact ⟨w, e, hs⟩

omit [Std.TransCmp ord] in
theorem DictWorld.Stores.holds {w : DictWorld κ ν} {ms : Nat → κ → Option ν} (h : DictWorld.Stores ord w ms) :
    ∃ ks vs, w.keys.Holds ks ∧ w.values.Holds vs ∧ ∀ n, Spec.Lists ord (ms n) (ks n) (vs n) := by
  obtain ⟨ds, hr, hl⟩ := h
  exact ⟨_, _, hr.keys.holds, hr.values.holds, hl⟩

/-- **C93, dictionaries.** Every program over dictionaries of one memory in which dictionaries are copied to other dictionaries: no
undefined behaviour, every result is that of the program over finite maps in which a copy joins two maps, the entries of the
source winning, and afterwards the memory consists of the keys and values of the dictionaries. -/
theorem C93_dictionaries_partial (mk : Option κ → Option κ) (mv : Option ν → Option ν) (hcmp : ∀ a b, cmp a b = some (ord a b))
    (ops : List (Spec.CopyOp (Spec.MapOp κ ν))) (hds : Spec.NoSelfCopy ops) :
    let r := Spec.copyRun (Spec.mapStep ord) Spec.mapJoin (fun _ => none) (.flag true) .error (fun _ => fun _ => none) ops
    ∃ w ks vs, dictsC mk mv cmp ops = some (w, r.2) ∧
      w.keys.Holds ks ∧ w.values.Holds vs ∧ ∀ n, Spec.Lists ord (r.1 n) (ks n) (vs n) := by
  intro r
  obtain ⟨w, e, hs⟩ := dictsC_stores mk mv hcmp ops hds
  obtain ⟨ks, vs, h⟩ := hs.holds
  exact ⟨w, ks, vs, e, h⟩

/-- **C93, a dictionary copied to itself.** With `append` true it does not change; with `append` false nothing is left of it. -/
theorem C93_dictionary_self (mk : Option κ → Option κ) (mv : Option ν → Option ν) (hcmp : ∀ a b, cmp a b = some (ord a b))
    (ops : List (Spec.CopyOp (Spec.MapOp κ ν))) (hds : Spec.NoSelfCopy ops) (d : Nat) (append : Bool) :
    let r := Spec.copyRun (Spec.mapStep ord) Spec.mapJoin (fun _ => none) (.flag true) .error (fun _ => fun _ => none) ops
    ∃ w w' ks vs, dictsC mk mv cmp ops = some (w, r.2) ∧ DictWorld.copyFrom mk mv cmp d d append w = .ok () w' ∧
      w'.keys.Holds ks ∧ w'.values.Holds vs ∧
      ∀ n, Spec.Lists ord (if n = d ∧ append = false then fun _ => none else r.1 n) (ks n) (vs n) := by
  intro r
  obtain ⟨w, e, hs⟩ := dictsC_stores mk mv hcmp ops hds
  obtain ⟨w', e', h'⟩ := DictWorld.copyFrom_self mk mv hcmp d append hs
  obtain ⟨ks, vs, h1, h2, h3⟩ := h'.holds
  refine ⟨w, w', ks, vs, e, e', h1, h2, fun n => ?_⟩
  have := h3 n
  unfold upd at this
  by_cases hn : n = d
  · subst hn
    cases append with
    | true => simpa using this
    | false => simpa using this
  · simpa [hn] using this

/-- programs over groups -/
def groupsC (mk : Option κ → Option κ) (mv : Option ν → Option ν) (cmp : κ → κ → Option Ordering) (eq : ν → ν → Bool) :
    List (Spec.CopyOp (Spec.GroupOp κ ν)) → Option (GroupWorld κ ν × List (Spec.GroupRet ν)) :=
  (GroupWorld.movable mk mv cmp eq).runC (GroupWorld.copyFrom mk mv cmp) (.flag true) .error GroupWorld.empty

theorem groupsC_stores (mk : Option κ → Option κ) (mv : Option ν → Option ν) (eq : ν → ν → Bool)
    (hcmp : ∀ a b, cmp a b = some (ord a b)) (ops : List (Spec.CopyOp (Spec.GroupOp κ ν))) (hds : Spec.NoSelfCopy ops) :
    let r := Spec.copyRun (Spec.groupStep ord eq) Spec.groupJoin (fun _ => []) (.flag true) .error (fun _ => fun _ => []) ops
    ∃ w, groupsC mk mv cmp eq ops = some (w, r.2) ∧ GroupWorld.Stores ord w r.1 := by
  intro r
  obtain ⟨w, ms, rs, e, hs, hm⟩ := (GroupWorld.moveSim mk mv eq hcmp).copies (moved := .flag true)
    (copy := GroupWorld.copyFrom mk mv cmp) (Join := fun x y z => Spec.groupJoin x y = z)
    (fun w xs d s append h hds => by
      obtain ⟨w', e, h'⟩ := GroupWorld.copyFrom_other mk mv hcmp append h hds
      exact ⟨w', _, e, h', rfl⟩)
    ops (fun _ _ _ _ => trivial) hds GroupWorld.stores_empty
  have : r = (ms, rs) := hm.eq_copyRun
  rw [this]
  exact ⟨w, e, hs⟩

/-- **C93, groups.** The same for groups: a copy puts the values of the source behind those the target keeps, for every key. -/
theorem C93_groups_partial (mk : Option κ → Option κ) (mv : Option ν → Option ν) (eq : ν → ν → Bool)
    (hcmp : ∀ a b, cmp a b = some (ord a b)) (ops : List (Spec.CopyOp (Spec.GroupOp κ ν))) (hds : Spec.NoSelfCopy ops) :
    let r := Spec.copyRun (Spec.groupStep ord eq) Spec.groupJoin (fun _ => []) (.flag true) .error (fun _ => fun _ => []) ops
    ∃ w ks ps xs, groupsC mk mv cmp eq ops = some (w, r.2) ∧
      w.Holds ks ps xs ∧ ∀ n, Spec.GroupLists ord (r.1 n) (ks n) ((ps n).map xs) := by
  intro r
  obtain ⟨w, e, hs⟩ := groupsC_stores mk mv eq hcmp ops hds
  obtain ⟨ks, ps, xs, h⟩ := GroupWorld.holds_of hs
  exact ⟨w, ks, ps, xs, e, h⟩

/-- **C93, a group copied to itself.** With `append` false nothing is left of it; with `append` true the call does not return,
unless the group is empty: every pair that is read is added to the values that are being enumerated. -/
theorem C93_group_self (mk : Option κ → Option κ) (mv : Option ν → Option ν) (eq : ν → ν → Bool)
    (hcmp : ∀ a b, cmp a b = some (ord a b)) (ops : List (Spec.CopyOp (Spec.GroupOp κ ν))) (hds : Spec.NoSelfCopy ops) (d : Nat) :
    let r := Spec.copyRun (Spec.groupStep ord eq) Spec.groupJoin (fun _ => []) (.flag true) .error (fun _ => fun _ => []) ops
    ∃ w, groupsC mk mv cmp eq ops = some (w, r.2) ∧
      (∀ append, (append = true → ∀ k, r.1 d k = []) → ∃ w' ks ps xs,
        GroupWorld.copyFrom mk mv cmp d d append w = some (.ok () w') ∧ w'.Holds ks ps xs ∧
        ∀ n, Spec.GroupLists ord (if n = d then fun _ => [] else r.1 n) (ks n) ((ps n).map xs)) ∧
      ((∃ k, r.1 d k ≠ []) → GroupWorld.copyFrom mk mv cmp d d true w = none) := by
  intro r
  obtain ⟨w, e, hs⟩ := groupsC_stores mk mv eq hcmp ops hds
  refine ⟨w, e, fun append h0 => ?_, fun h => GroupWorld.copyFrom_self mk mv hcmp d hs h⟩
  obtain ⟨w', e', h'⟩ := GroupWorld.copyFrom_self_empty mk mv (cmp := cmp) d append hs h0
  obtain ⟨ks, ps, xs, h⟩ := GroupWorld.holds_of h'
  exact ⟨w', ks, ps, xs, e', h⟩

end

/-- Lists copied to each other, with growth, clearing and appending: the hypotheses hold, the results and what the lists hold. -/
example :
    let ops : List (Spec.CopyOp (Spec.SeqOp Nat Nat)) :=
      [.op (.call 0 (.add 5)), .op (.call 0 (.add 6)), .op (.call 1 (.add 7)), .copy 1 0 true, .copy 0 1 true, .copy 2 0 true,
       .copy 2 1 false, .op (.call 2 (.get 2)), .op (.moveAssign 1 2), .copy 2 1 true]
    let r := Spec.copyRun (Spec.seqStep (· == ·)) (· ++ ·) [] (.flag true) .error (fun _ => []) ops
    (∀ i op, .op (.call i op) ∈ ops → op.Valid) ∧ Spec.NoSelfCopy ops ∧
    ((listsC (fun _ => none) (· == ·) false ops).map Prod.snd) = some r.2 ∧ r.2[7]? = some (.value 6) ∧
    (List.range 3).map r.1 = [[5, 6, 7, 5, 6], [7, 5, 6], [7, 5, 6]] := by
  refine ⟨?_, ?_, by decide +kernel, by decide +kernel, by decide +kernel⟩
  · intro i op h
    simp at h
    rcases h with ⟨_, rfl⟩ | ⟨_, rfl⟩ | ⟨_, rfl⟩ | ⟨_, rfl⟩ <;> simp [Spec.SeqOp.Valid]
  · intro d s a h
    simp at h
    omega

/-- what is in list 0 after `n` elements were added and `k` of them removed, and the list was copied to itself -/
def copiedToItself (n k : Nat) (append : Bool) : Option (Int × Option Int) :=
  let ops := ((List.range n).map fun i => .op (.call 0 (.add i))) ++ [.op (.call 0 (.removeRange 0 (k : Int)))]
  (listsC (κ := Nat) (fun _ => none) (· == ·) false ops).map fun p =>
    ((p.1.lists 0).capacity, match ListWorld.copyOf (ListH.addRef fun _ => none) false 0 0 append p.1 with
      | some (.ok _ w) => some (w.lists 0).count
      | _ => none)

/-- The property does not hold: twelve elements in a buffer of 22 cannot be appended to themselves, eleven can; and nothing is left
of a list that replaces itself. -/
theorem C93_violated_list :
    copiedToItself 20 8 true = some (22, none) ∧ copiedToItself 20 9 true = some (22, some 22) ∧
    copiedToItself 20 9 false = some (22, some 0) := by
  decide +kernel

/-- The property does not hold for sorted lists: 1, 2 appended to itself, with room for many more. -/
theorem C93_violated_sorted :
    let ops : List (Spec.CopyOp (Spec.SortedOp Nat Nat)) :=
      ((List.range 20).map fun i => .op (.call 0 (.add i))) ++ [.op (.call 0 (.removeRange 2 17))]
    let m : Option Nat → Option Nat := fun _ => none
    let cmp := fun a b : Nat => some (compare a b)
    (sortedC m cmp id ops).map (fun p => ((p.1.lists 0).count, (p.1.lists 0).capacity,
      match ListWorld.copyOf (ListH.sortedAddRef m cmp id) false 0 0 true p.1 with
      | some .fault => true
      | _ => false)) = some (3, 13, true) := by
  decide +kernel

/-- sorted lists copied to each other -/
example :
    let ops : List (Spec.CopyOp (Spec.SortedOp Nat Nat)) :=
      [.op (.call 0 (.add 5)), .op (.call 0 (.add 3)), .op (.call 1 (.add 4)), .copy 1 0 true, .op (.call 1 (.get 0)),
       .op (.call 1 (.get 1)), .copy 0 1 false, .op (.call 0 (.get 2)), .op (.call 0 .count)]
    (∀ i op, .op (.call i op) ∈ ops → op.Valid) ∧ Spec.NoSelfCopy ops ∧
    (sortedC (fun _ => none) (fun a b : Nat => some (compare a b)) id ops).map (fun p => p.2.drop 4) =
      some [.value 3, .value 4, .flag true, .value 5, .index 3] := by
  refine ⟨?_, ?_, by decide +kernel⟩
  · intro i op h
    simp at h
    rcases h with ⟨_, rfl⟩ | ⟨_, rfl⟩ | ⟨_, rfl⟩ | ⟨_, rfl⟩ | ⟨_, rfl⟩ | ⟨_, rfl⟩ | ⟨_, rfl⟩ <;> simp [Spec.SortedOp.Valid]
  · intro d s a h
    simp at h
    omega

/-- arrays copied to each other and to themselves: the hypotheses, and how many elements there are afterwards -/
example :
    let ops : List (Spec.MoveOp (Spec.ArrCall Nat Nat)) := [.call 0 (.createFrom [1, 2, 3] 3), .call 1 (.createFrom [4, 5] 2)]
    let count := fun (d s : Nat) (append : Bool) =>
      ((arrays (fun _ => none) (fun a b : Nat => a == b) none).run (.flag true) .error ListWorld.empty ops).map fun p =>
        match ArrayH.copyFrom (fun _ => none) none d s append p.1 with
        | .ok _ w => some (w.lists d).count
        | _ => none
    ((Spec.moveRun? (Spec.arrCall (fun a b : Nat => a == b) none) [] (.flag true) .error (fun _ => []) ops).map
      fun p => (p.1 0, p.1 1)) = some ([some 1, some 2, some 3], [some 4, some 5]) ∧
    [count 0 1 true, count 0 1 false, count 0 0 true, count 0 0 false] =
      [some (some 5), some (some 2), some (some 6), some (some 3)] := by
  decide +kernel

/-- dictionaries copied to each other, and to themselves -/
example :
    let ops : List (Spec.CopyOp (Spec.MapOp Int Int)) :=
      [.op (.call 0 (.add 1 10)), .op (.call 0 (.add 2 20)), .op (.call 1 (.add 2 21)), .op (.call 1 (.add 3 31)), .copy 1 0 true,
       .op (.call 1 (.get 2)), .op (.call 1 (.get 3)), .copy 2 1 false, .copy 1 0 false, .op (.call 1 (.get 3)),
       .op (.call 2 (.get 3))]
    let cmp := fun a b : Int => some (compare a b)
    let m : Option Int → Option Int := fun _ => none
    Spec.NoSelfCopy ops ∧
    (dictsC m m cmp ops).map (fun p => p.2.drop 5) =
      some [.value 20, .value 31, .flag true, .flag true, .error, .value 31] ∧
    (dictsC m m cmp ops).map (fun p => [true, false].map fun append =>
      match DictWorld.copyFrom m m cmp 2 2 append p.1 with
      | .ok _ w => some (w.keys.lists 2).count
      | _ => none) = some [some 3, some 0] := by
  refine ⟨?_, by decide +kernel, by decide +kernel⟩
  intro d s a h
  simp at h
  omega

/-- The property does not hold for groups: a group with one pair copied to itself. -/
theorem C93_violated_group :
    ∃ w, groupsC (fun _ => none) (fun _ => none) (fun a b : Int => some (compare a b)) (fun a b : Int => a == b)
        [.op (.call 0 (.add 1 10))] = some (w, [.flag true]) ∧
      GroupWorld.copyFrom (fun _ => none) (fun _ => none) (fun a b : Int => some (compare a b)) 0 0 true w = none := by
  obtain ⟨w, e, _, h⟩ := C93_group_self (fun _ => none) (fun _ => none) (fun a b : Int => a == b) (ord := compare)
    (fun _ _ => rfl) [.op (.call 0 (.add (1 : Int) (10 : Int)))] (by intro d s a h; simp at h) 0
  exact ⟨w, e, h ⟨1, by decide +kernel⟩⟩

/-- Groups copied to each other meet the hypotheses, and the multimaps are as expected. -/
example :
    let ops : List (Spec.CopyOp (Spec.GroupOp Int Int)) :=
      [.op (.call 0 (.add 1 10)), .op (.call 0 (.add 1 11)), .op (.call 1 (.add 1 12)), .op (.call 1 (.add 2 20)), .copy 1 0 true,
       .copy 0 1 true, .copy 2 0 false]
    let r := Spec.copyRun (Spec.groupStep compare (fun a b : Int => a == b)) Spec.groupJoin (fun _ => []) (.flag true) .error
      (fun _ => fun _ => []) ops
    Spec.NoSelfCopy ops ∧ [0, 1, 2].map (r.1 · 1) = [[10, 11, 12, 10, 11], [12, 10, 11], [10, 11, 12, 10, 11]] ∧
    [0, 1, 2].map (r.1 · 2) = [[20], [20], [20]] := by
  refine ⟨?_, by decide +kernel, by decide +kernel⟩
  intro d s a h
  simp at h
  omega

end Vlpp
