import Verif.Lemmas.DictMem

/-!
# Properties C76, C77: dictionaries in memory
-/
set_option autoImplicit false
namespace Vlpp
open DictM
variable {κ ν : Type}

/-- **C76, in the model without a heap.** (`C76_dictionaries` in `HeapDictProps.lean` is the full property: here a destructor
that is skipped or runs twice would not be noticed.) For every total (pre)order of keys and every program over any number of dictionaries, which calls their
member functions, moves them to each other or to themselves, and destroys and creates them again: no undefined behaviour,
no use of dead or foreign memory and no buffer released with live elements in it (`Mem.deallocateBuffer`); every result is that of programs over finite maps
in which a moved-from map is empty; and at the end each dictionary stores its map, in strictly ascending order of keys. -/
theorem C76_dictionaries_cells (mk : Option κ → Option κ) (mv : Option ν → Option ν) {cmp : κ → κ → Option Ordering}
    {ord : κ → κ → Ordering} [Std.TransCmp ord] (hcmp : ∀ a b, cmp a b = some (ord a b))
    (ops : List (Spec.MoveOp (Spec.MapOp κ ν))) :
    let r := Spec.moveRun (Spec.mapStep ord) (fun _ => none) (.flag true) .error (fun _ => fun _ => none) ops
    ∃ w, worldRun mk mv cmp (fun _ => empty) ops = some (w, r.2) ∧
      ∀ n, ∃ ks vs, ListC.Repr (w n).keys ks ∧ ListC.Repr (w n).values vs ∧ Spec.Lists ord (r.1 n) ks vs := by
  have key : ∀ (ops : List (Spec.MoveOp (Spec.MapOp κ ν))) (w : Nat → DictM κ ν) (ms : Nat → κ → Option ν),
      (∀ n, Stores ord (w n) (ms n)) →
      ∃ w', worldRun mk mv cmp w ops =
          some (w', (Spec.moveRun (Spec.mapStep ord) (fun _ => none) (.flag true) .error ms ops).2) ∧
        ∀ n, Stores ord (w' n) ((Spec.moveRun (Spec.mapStep ord) (fun _ => none) (.flag true) .error ms ops).1 n) := by
    intro ops
    induction ops with
    | nil => exact fun w ms h => ⟨w, rfl, h⟩
    | cons op ops ih =>
      intro w ms h
      obtain ⟨w1, e1, h1⟩ := worldStep_refines mk mv hcmp h op
      obtain ⟨w2, e2, h2⟩ := ih w1 _ h1
      exact ⟨w2, by simp [worldRun, e1, e2, Spec.moveRun], h2⟩
  intro r
  obtain ⟨w, e, h⟩ := key ops (fun _ => empty) (fun _ _ => none) (fun _ => stores_empty)
  refine ⟨w, e, fun n => ?_⟩
  obtain ⟨s, hr, hl⟩ := h n
  exact ⟨s.keys, s.values, hr.keys, hr.values, hl⟩

/-- two dictionaries, a move between them, a move of a dictionary to itself -/
example : ∃ w, worldRun id id (fun a b : Int => some (compare a b)) (fun _ => (empty : DictM Int String))
      [.call 0 (.add 3 "c"), .call 0 (.add 1 "a"), .moveAssign 1 0, .call 1 (.get 3), .call 0 (.get 3),
       .call 0 (.set 3 "x"), .moveConstruct 2 1, .moveAssign 2 2, .call 2 (.contains 1), .renew 0] =
      some (w, [.flag true, .flag true, .flag true, .value "c", .error, .flag true, .flag true, .flag true, .flag false,
        .flag true]) := by
  obtain ⟨w, e, _⟩ := C76_dictionaries_cells id id (cmp := fun a b : Int => some (compare a b)) (ord := compare) (fun _ _ => rfl)
    [.call 0 (.add 3 "c"), .call 0 (.add 1 "a"), .moveAssign 1 0, .call 1 (.get 3), .call 0 (.get 3),
     .call 0 (.set 3 "x"), .moveConstruct 2 1, .moveAssign 2 2, .call 2 (.contains 1), .renew 0]
  exact ⟨w, e⟩

/-! ## C77: the own values of a dictionary as arguments -/

namespace DictM

theorem Refines.run {β : Type} {m : Cpp (DictM κ ν) β} {m' : Cpp (DictC κ ν) β} (h : Cpp.Refines Rep m m')
    {d : DictM κ ν} {s s' : DictC κ ν} {v : β} (hr : Rep d s) (e : m' s = .ok v s') :
    ∃ d', m d = .ok v d' ∧ Rep d' s' := by
  have := h d s hr
  rw [e] at this
  generalize m d = o at this
  cases this with
  | ok h => exact ⟨_, rfl, h⟩

theorem onKeys_run {β : Type} {m : Cpp (ListC κ) β} {m' : Cpp (List κ) β} (h : Cpp.Refines ListC.Repr m m')
    {d : DictM κ ν} {ks ks' : List κ} {v : β} (hr : ListC.Repr d.keys ks) (e : m' ks = .ok v ks') :
    ∃ l, onKeys m d = .ok v ⟨l, d.values⟩ ∧ ListC.Repr l ks' := by
  have := h d.keys ks hr
  rw [e] at this
  unfold onKeys
  generalize m d.keys = o at this
  cases this with
  | ok h => exact ⟨_, rfl, h⟩

section
variable (mk : Option κ → Option κ) (mv : Option ν → Option ν) {cmp : κ → κ → Option Ordering}
  {ord : κ → κ → Ordering} [Std.TransCmp ord] (hcmp : ∀ a b, cmp a b = some (ord a b))
include hcmp

/-- the reference `d[k2]` -/
theorem ref_ok {d : DictM κ ν} {ks : List κ} {vs : List ν} {m : κ → Option ν} (hk : ListC.Repr d.keys ks)
    (hv : ListC.Repr d.values vs) (hl : Spec.Lists ord m ks vs) {k2 : κ} {v : ν} (h2 : m k2 = some v) :
    ∃ (i : Nat) (l : ListC κ) (hi : i < ks.length) (hi' : i < vs.length), ListC.Repr l ks ∧ ord ks[i] k2 = .eq ∧ vs[i] = v ∧
      onKeys (SortedListC.indexOf cmp k2) d = .ok (i : Int) ⟨l, d.values⟩ ∧
      onValues (ListC.get (i : Int)) (⟨l, d.values⟩ : DictM κ ν) = .ok v ⟨l, d.values⟩ := by
  have hlen := hl.length
  rcases SortedSeq.indexOf_spec (KeyCmp.compares hcmp) (strict_ascending hl.ascending) k2 with
    ⟨i, hi, e, heq⟩ | ⟨e, hne⟩
  · obtain ⟨l, e', hl'⟩ := onKeys_run (ListC.indexOf_refines cmp k2) (d := d) hk e
    have hm : m k2 = some vs[i] := (hl.entries k2 _).2
      ⟨i, ks[i], List.getElem?_eq_getElem hi, heq, List.getElem?_eq_getElem (by omega)⟩
    rw [h2] at hm
    cases hm
    exact ⟨i, l, hi, by omega, hl', heq, rfl, e', by simp [onValues, ListC.get_ok hv i (by omega)]⟩
  · exfalso
    obtain ⟨x, hx, he⟩ := (hl.isSome_iff k2).1 (by simp [h2])
    exact hne x hx he

/-- a key that is not there is put at its place -/
theorem newKey_ok {d : DictM κ ν} {ks : List κ} {vs : List ν} {m : κ → Option ν} (hk : ListC.Repr d.keys ks)
    (hl : Spec.Lists ord m ks vs) {k : κ} (h0 : m k = none) :
    ∃ (p : Nat) (l l1 l2 : ListC κ), p ≤ ks.length ∧
      ListC.Repr l (ks.take p ++ k :: ks.drop p) ∧
      onKeys (SortedListC.indexOf cmp k) d = .ok (-1) ⟨l1, d.values⟩ ∧
      onKeys (SortedListC.contains cmp k) d = .ok false ⟨l2, d.values⟩ ∧
      onKeys (SortedListC.add mk cmp id k) ⟨l1, d.values⟩ = .ok (p : Int) ⟨l, d.values⟩ ∧
      (∃ l', onKeys (SortedListC.add mk cmp id k) ⟨l2, d.values⟩ = .ok (p : Int) ⟨l', d.values⟩ ∧
        ListC.Repr l' (ks.take p ++ k :: ks.drop p)) ∧
      (∀ (j : Nat) (hj : j < ks.length), j < p ↔ ord ks[j] k = .lt) ∧
      (∀ v, Spec.Lists ord (Spec.mapPut ord m k v) (ks.take p ++ k :: ks.drop p) (vs.take p ++ v :: vs.drop p)) := by
  have hasc := strict_ascending hl.ascending
  have hne : ∀ x ∈ ks, ord x k ≠ .eq := by
    intro x hx he
    have := (hl.isSome_iff k).2 ⟨x, hx, he⟩
    rw [h0] at this; cases this
  have e1 : SortedSeq.indexOf cmp k ks = .ok (-1) ks := by
    rcases SortedSeq.indexOf_spec (KeyCmp.compares hcmp) hasc k with ⟨i, hi, e, heq⟩ | ⟨e, _⟩
    · exact absurd heq (hne _ (List.getElem_mem hi))
    · exact e
  have e2 : SortedSeq.contains cmp k ks = .ok false ks := by
    rcases DictC.contains_spec hcmp hasc k with ⟨e, x, hx, he⟩ | ⟨e, _⟩
    · exact absurd he (hne x hx)
    · exact e
  obtain ⟨p, hp, e, hb, ha⟩ := SortedSeq.add_spec (KeyCmp.compares hcmp) hasc k
  obtain ⟨l1, f1, r1⟩ := onKeys_run (ListC.indexOf_refines cmp k) (d := d) hk e1
  obtain ⟨l2, f2, r2⟩ := onKeys_run (ListC.contains_refines cmp k) (d := d) hk e2
  obtain ⟨l, f, r⟩ := onKeys_run (ListC.sortedAdd_refines mk cmp id k) (d := ⟨l1, d.values⟩) r1 e
  obtain ⟨l', f', r'⟩ := onKeys_run (ListC.sortedAdd_refines mk cmp id k) (d := ⟨l2, d.values⟩) r2 e
  refine ⟨p, l, l1, l2, hp, r, f1, f2, f, ⟨l', f', r'⟩, ?_, fun v => Spec.Lists.put_new hl hp hne hb ha⟩
  intro j hj
  have hn := hne _ (List.getElem_mem hj)
  constructor
  · intro h
    have := hb j h hj
    simp only [id] at this
    cases ho : ord ks[j] k with
    | lt => rfl
    | eq => exact absurd ho hn
    | gt => exact absurd ho this
  · intro h
    refine Classical.byContradiction fun hc => ?_
    exact ha j (by omega) hj h

end
end DictM

section
variable (mk : Option κ → Option κ) (mv : Option ν → Option ν) {cmp : κ → κ → Option Ordering}
  {ord : κ → κ → Ordering} [Std.TransCmp ord] (hcmp : ∀ a b, cmp a b = some (ord a b))
  {d : DictM κ ν} {ks : List κ} {vs : List ν} {m : κ → Option ν} (hk : ListC.Repr d.keys ks)
  (hv : ListC.Repr d.values vs) (hl : Spec.Lists ord m ks vs)
include hcmp hk hv hl

/-- **C77, partial.** `d.Set(k, d[k2])` stores the value of `k2` for `k` if `k` is already there; `d.Set(k, d[k2])` and
`d.Add(k, d[k2])` do so for a new key `k` if the buffer of the values has room and `k2` comes before `k`.
Missing (false, see below): new keys without that. -/
theorem C77_own_value_partial (k k2 : κ) (v : ν) (h2 : m k2 = some v) :
    ((m k).isSome → ∃ d', setFrom mk mv cmp k k2 d = .ok true d' ∧ Stores ord d' (Spec.mapPut ord m k v)) ∧
    (m k = none → d.values.count < d.values.capacity → ord k2 k = .lt →
      (∃ d', setFrom mk mv cmp k k2 d = .ok true d' ∧ Stores ord d' (Spec.mapPut ord m k v)) ∧
      (∃ d', addFrom mk mv cmp k k2 d = .ok true d' ∧ Stores ord d' (Spec.mapPut ord m k v))) := by
  have hlen := hl.length
  obtain ⟨i, l, hi, hi', hr, heq, hvi, e1, e2⟩ := ref_ok hcmp hk hv hl h2
  constructor
  · intro hs
    unfold setFrom
    rw [Cpp.bind_ok e1, Cpp.bind_ok e2]
    unfold DictM.set
    obtain ⟨v', hv'⟩ := Option.isSome_iff_exists.1 hs
    obtain ⟨j, l', hj, hj', hr', heq', _, f1, _⟩ := ref_ok hcmp (d := ⟨l, d.values⟩) hr hv hl hv'
    rw [Cpp.bind_ok f1, if_neg (by omega)]
    obtain ⟨lv, g, hg⟩ := ListC.setAt_ok hv j v (by omega) (by omega)
    have ha : assignArg (j : Int) (.own (i : Int)) d.values = .ok true lv := by
      show (ListC.get (i : Int) >>= fun v => ListC.setAt (j : Int) v) d.values = _
      rw [Cpp.bind_ok (ListC.get_ok hv i hi'), hvi, g]
    rw [Cpp.bind_ok (a := true) (s' := ⟨l', lv⟩) (by simp [onValues, ha])]
    exact ⟨_, rfl, ⟨ks, vs.set j v⟩, ⟨hr', by simpa using hg⟩, Spec.Lists.put_old hl hj heq'⟩
  · intro hn hspare hlt
    obtain ⟨p, lk, l1, l2, hp, hlk, f1, f2, f3, ⟨l3, f4, hl3⟩, hpos, hput⟩ :=
      newKey_ok mk hcmp (d := ⟨l, d.values⟩) hr hl hn
    have hip : i < p := (hpos i hi).2 (by rw [← hlt]; exact Std.TransCmp.congr_left heq)
    obtain ⟨lv, g, hg⟩ := C03_insert_own_element_partial mv hv p i hi' (by omega) hspare hip
    have ho : ∀ l : ListC κ, onValues (insertArg mv (p : Int) (.own (i : Int))) (⟨l, d.values⟩ : DictM κ ν) =
        .ok (p : Int) ⟨l, lv⟩ := by
      intro l; simp [onValues, insertArg, g]
    rw [hvi] at hg
    constructor
    · unfold setFrom
      rw [Cpp.bind_ok e1, Cpp.bind_ok e2]
      unfold DictM.set
      rw [Cpp.bind_ok f1, if_pos rfl, Cpp.bind_ok f3, Cpp.bind_ok (ho _)]
      exact ⟨_, rfl, ⟨_, _⟩, ⟨hlk, hg⟩, hput v⟩
    · unfold addFrom
      rw [Cpp.bind_ok e1, Cpp.bind_ok e2]
      unfold DictM.add
      rw [Cpp.bind_ok f2, Cpp.bind_ok (Cpp.check_true rfl _), Cpp.bind_ok f4, Cpp.bind_ok (ho _)]
      exact ⟨_, rfl, ⟨_, _⟩, ⟨hl3, hg⟩, hput v⟩

/-- **C77 is violated** if the buffer of the values is full: `d.Set(k, d[k2])` and `d.Add(k, d[k2])` with a new key `k`
read the value from the buffer that was just released. -/
theorem C77_violated_full (k k2 : κ) (h2 : (m k2).isSome) (hn : m k = none)
    (hfull : d.values.count = d.values.capacity) :
    setFrom mk mv cmp k k2 d = .fault ∧ addFrom mk mv cmp k k2 d = .fault := by
  have hlen := hl.length
  obtain ⟨v, h2⟩ := Option.isSome_iff_exists.1 h2
  obtain ⟨i, l, hi, hi', hr, heq, hvi, e1, e2⟩ := ref_ok hcmp hk hv hl h2
  obtain ⟨p, lk, l1, l2, hp, hlk, f1, f2, f3, ⟨l3, f4, hl3⟩, hpos, hput⟩ :=
    newKey_ok mk hcmp (d := ⟨l, d.values⟩) hr hl hn
  have g := C03_insert_own_violated mv hv p i hi' (by omega) hfull
  have ho : ∀ l : ListC κ, onValues (insertArg mv (p : Int) (.own (i : Int))) (⟨l, d.values⟩ : DictM κ ν) = .fault := by
    intro l; simp [onValues, insertArg, g]
  constructor
  · unfold setFrom
    rw [Cpp.bind_ok e1, Cpp.bind_ok e2]
    unfold DictM.set
    rw [Cpp.bind_ok f1, if_pos rfl, Cpp.bind_ok f3, Cpp.bind_fault (ho _)]
  · unfold addFrom
    rw [Cpp.bind_ok e1, Cpp.bind_ok e2]
    unfold DictM.add
    rw [Cpp.bind_ok f2, Cpp.bind_ok (Cpp.check_true rfl _), Cpp.bind_ok f4, Cpp.bind_fault (ho _)]

/-- **C77 is violated** also if there is room but `k2` comes after `k`: either the value is read from a cell without an
object, or the value of another key between `k` and `k2` is stored. -/
theorem C77_violated_after (k k2 : κ) (h2 : (m k2).isSome) (hn : m k = none)
    (hspare : d.values.count < d.values.capacity) (hlt : ord k k2 = .lt) :
    (setFrom mk mv cmp k k2 d = .fault ∧ addFrom mk mv cmp k k2 d = .fault) ∨
    ∃ k' v', m k' = some v' ∧ ord k k' = .lt ∧ ord k' k2 = .lt ∧
      (∃ d', setFrom mk mv cmp k k2 d = .ok true d' ∧ Stores ord d' (Spec.mapPut ord m k v')) ∧
      (∃ d', addFrom mk mv cmp k k2 d = .ok true d' ∧ Stores ord d' (Spec.mapPut ord m k v')) := by
  have hlen := hl.length
  obtain ⟨v, h2⟩ := Option.isSome_iff_exists.1 h2
  obtain ⟨i, l, hi, hi', hr, heq, hvi, e1, e2⟩ := ref_ok hcmp hk hv hl h2
  obtain ⟨p, lk, l1, l2, hp, hlk, f1, f2, f3, ⟨l3, f4, hl3⟩, hpos, hput⟩ :=
    newKey_ok mk hcmp (d := ⟨l, d.values⟩) hr hl hn
  have hgt : ord ks[i] k = .gt := by
    rw [Std.TransCmp.congr_left heq]
    exact Std.OrientedCmp.gt_of_lt hlt
  have hpi : p ≤ i := by
    refine Classical.byContradiction fun hc => ?_
    have := (hpos i hi).1 (by omega)
    rw [hgt] at this; cases this
  rcases Nat.lt_or_eq_of_le hpi with hpi | rfl
  · right
    obtain ⟨lv, g, hg⟩ := C03_insert_own_after_violated mv hv p i hi' hspare hpi
    have ho : ∀ l : ListC κ, onValues (insertArg mv (p : Int) (.own (i : Int))) (⟨l, d.values⟩ : DictM κ ν) =
        .ok (p : Int) ⟨l, lv⟩ := by
      intro l; simp [onValues, insertArg, g]
    have hnlt : ord ks[i - 1] k ≠ .lt := fun hc => by have := (hpos (i - 1) (by omega)).2 hc; omega
    have hne : ord ks[i - 1] k ≠ .eq := by
      intro he
      have := (hl.isSome_iff k).2 ⟨_, List.getElem_mem (by omega : i - 1 < ks.length), he⟩
      rw [hn] at this; cases this
    refine ⟨ks[i - 1], vs[i - 1], ?_, ?_, ?_, ?_, ?_⟩
    · exact (hl.entries _ _).2 ⟨i - 1, ks[i - 1], List.getElem?_eq_getElem (by omega), Std.ReflCmp.compare_self,
        List.getElem?_eq_getElem (by omega)⟩
    · cases ho : ord ks[i - 1] k with
      | lt => exact absurd ho hnlt
      | eq => exact absurd ho hne
      | gt => exact Std.OrientedCmp.lt_of_gt ho
    · rw [← Std.TransCmp.congr_right heq]
      exact (List.pairwise_iff_getElem.1 hl.ascending) (i - 1) i (by omega) hi (by omega)
    · unfold setFrom
      rw [Cpp.bind_ok e1, Cpp.bind_ok e2]
      unfold DictM.set
      rw [Cpp.bind_ok f1, if_pos rfl, Cpp.bind_ok f3, Cpp.bind_ok (ho _)]
      exact ⟨_, rfl, ⟨_, _⟩, ⟨hlk, hg⟩, hput _⟩
    · unfold addFrom
      rw [Cpp.bind_ok e1, Cpp.bind_ok e2]
      unfold DictM.add
      rw [Cpp.bind_ok f2, Cpp.bind_ok (Cpp.check_true rfl _), Cpp.bind_ok f4, Cpp.bind_ok (ho _)]
      exact ⟨_, rfl, ⟨_, _⟩, ⟨hl3, hg⟩, hput _⟩
  · left
    have g := C03_insert_own_at_self_violated mv hv p hi' hspare
    have ho : ∀ l : ListC κ, onValues (insertArg mv (p : Int) (.own (p : Int))) (⟨l, d.values⟩ : DictM κ ν) = .fault := by
      intro l; simp [onValues, insertArg, g]
    constructor
    · unfold setFrom
      rw [Cpp.bind_ok e1, Cpp.bind_ok e2]
      unfold DictM.set
      rw [Cpp.bind_ok f1, if_pos rfl, Cpp.bind_ok f3, Cpp.bind_fault (ho _)]
    · unfold addFrom
      rw [Cpp.bind_ok e1, Cpp.bind_ok e2]
      unfold DictM.add
      rw [Cpp.bind_ok f2, Cpp.bind_ok (Cpp.check_true rfl _), Cpp.bind_ok f4, Cpp.bind_fault (ho _)]

end

/-! Reachable cases: `add`s to an empty dictionary, then `d.Add(k, d[k2])`, then `d[k]` (`none`: undefined behaviour). -/

private def afterAdds (entries : List (Int × Int)) (k k2 : Int) : Option (Option Int) :=
  let cmp := fun a b : Int => some (compare a b)
  (worldRun id id cmp (fun _ => (empty : DictM Int Int)) (entries.map fun e => .call 0 (.add e.1 e.2))).bind fun w =>
    match addFrom id id cmp k k2 (w.1 0) with
    | .ok _ d => some (match DictM.get cmp k d with | .ok v _ => some v | _ => none)
    | .err _ => some none
    | .fault => none

/-- room, `1 < 2`: right -/
example : afterAdds [(1, 10)] 2 1 = some (some 10) := by decide +kernel
/-- no room: undefined -/
example : afterAdds [(1, 10), (3, 30)] 2 1 = none := by decide +kernel
/-- room, `5` is the next key after `4`: undefined -/
example : afterAdds [(1, 10), (3, 30), (5, 50)] 4 5 = none := by decide +kernel
/-- room, `3` is between `2` and `5`: the value of `3` -/
example : afterAdds [(1, 10), (3, 30), (5, 50)] 2 5 = some (some 30) := by decide +kernel

end Vlpp
