import Verif.Lemmas.LazyList
import Verif.Lemmas.DictC
import Verif.Lemmas.GroupC

/-!
# Properties C10, C13: enumerating a `Dictionary` and a `Group`

The parts about `Reset` and about `Current()` of a cloned enumerator are false: `Reset` always raises an Error, and
`Clone` does not copy the current element.
-/
set_option autoImplicit false
namespace Vlpp
variable {κ ν : Type}

/-- `n` calls of `Next` that all return true -/
def Ator.advance {α : Type} (A : Ator α) : Nat → A.σ → Option A.σ
  | 0, s => some s
  | n + 1, s =>
    match A.next s with
    | some (.ok true s') => A.advance n s'
    | _ => none

theorem Ator.Contract.advance {α : Type} {A : Ator α} {xs : List α} {i0 : Int} (c : A.Contract xs i0) (n : Nat) {s : A.σ}
    {ys zs : List α} (h : c.R s ys zs) (hn : n ≤ zs.length) :
    ∃ s', A.advance n s = some s' ∧ c.R s' (ys ++ zs.take n) (zs.drop n) := by
  induction n generalizing s ys zs with
  | zero => exact ⟨s, rfl, by simpa using h⟩
  | succ n ih =>
    cases zs with
    | nil => simp at hn
    | cons z zs =>
      obtain ⟨s1, e, h1⟩ := c.step h
      obtain ⟨s2, e2, h2⟩ := ih h1 (by simp at hn; omega)
      exact ⟨s2, by simp [Ator.advance, e, e2], by simpa using h2⟩

/-- **C10, partial.** For every total preorder of keys and every history of a dictionary: a new enumerator yields, with
`Index()` 0, 1, 2, ..., exactly the entries of the map in strictly ascending key order; and an enumerator cloned after
any number of steps yields the rest, with the same indexes.
Missing (false, see `C10_reset_violated`, `C10_clone_violated`): `Reset` goes back to the beginning; the clone has the
same `Current()`. -/
theorem C10_enumerate_partial {cmp : κ → κ → Option Ordering} {ord : κ → κ → Ordering} [Std.TransCmp ord]
    (hcmp : ∀ a b, cmp a b = some (ord a b)) (ops : List (Spec.MapOp κ ν)) :
    let m := (Spec.mapRun ord (fun _ => none) ops).1
    ∃ (d : DictC κ ν) (pairs : List (κ × ν)), DictC.run cmp DictC.empty ops = some (d, (Spec.mapRun ord (fun _ => none) ops).2) ∧
      pairs.Pairwise (fun p q => ord p.1 q.1 = .lt) ∧
      (∀ k v, m k = some v ↔ ∃ k', (k', v) ∈ pairs ∧ ord k' k = .eq) ∧
      (LazyList.ofDict d).Yields pairs ∧
      (∀ n ≤ pairs.length, ∃ s s', (Ator.dict d).advance n Ator.dictStart = some s ∧ (Ator.dict d).clone s = some s' ∧
        (Ator.dict d).index s' = (Ator.dict d).index s ∧
        (Ator.dict d).Delivers s n (pairs.drop n) ∧ (Ator.dict d).Delivers s' n (pairs.drop n)) := by
  intro m
  obtain ⟨d, e, h⟩ := DictC.run_refines hcmp ops (m := fun _ => none) (s := DictC.empty) Spec.Lists.empty
  have hlen := h.length
  refine ⟨d, d.keys.zip d.values, e, ?_, ?_, (LazyList.holds_ofDict d hlen).yields, ?_⟩
  · rw [List.pairwise_iff_getElem]
    intro i j hi hj hij
    have := List.pairwise_iff_getElem.1 h.ascending i j (by simp at hi; omega) (by simp at hj; omega) hij
    simpa using this
  · intro k v
    rw [h.entries k v]
    constructor
    · rintro ⟨i, k', h1, h2, h3⟩
      refine ⟨k', ?_, h2⟩
      rw [List.mem_iff_getElem?]
      exact ⟨i, by rw [List.getElem?_zip_eq_some]; exact ⟨h1, h3⟩⟩
    · rintro ⟨k', h1, h2⟩
      obtain ⟨i, hi⟩ := List.mem_iff_getElem?.1 h1
      rw [List.getElem?_zip_eq_some] at hi
      exact ⟨i, k', hi.1, h2, hi.2⟩
  · intro n hn
    obtain ⟨s, es, hs⟩ := (Ator.dictC d hlen).advance n (Ator.dictC_start d hlen) hn
    obtain ⟨s', ec, hc⟩ := Ator.dict_clone_delivers d hlen hs
    have hd := (Ator.dictC d hlen).delivers hs
    simp only [List.nil_append, List.length_take, Nat.min_eq_left hn] at hc hd
    refine ⟨s, s', es, ec, ?_, hd, hc⟩
    cases ec
    rfl

example : ∃ (d : DictC Int String) (pairs : List (Int × String)),
    DictC.run (fun a b : Int => some (compare a b)) DictC.empty [.add 3 "c", .add 1 "a"]
      = some (d, [.flag true, .flag true]) ∧ (LazyList.ofDict d).Yields pairs ∧ (3, "c") ∈ pairs := by
  obtain ⟨d, pairs, e, _, h, hy, _⟩ := C10_enumerate_partial (cmp := fun a b : Int => some (compare a b)) (fun _ _ => rfl)
    [Spec.MapOp.add 3 "c", .add 1 "a"]
  refine ⟨d, pairs, e, hy, ?_⟩
  obtain ⟨k', h1, h2⟩ := (h 3 "c").1 rfl
  have : k' = 3 := by simpa [compare, compareOfLessAndEq] using Std.LawfulEqCmp.eq_of_compare h2
  rw [← this]; exact h1

/-- **C10 is false of `Reset`**: on every dictionary, in every state of the enumerator, `Reset` raises an Error. -/
theorem C10_reset_violated (d : DictC κ ν) (s : Ator.DictState κ ν) :
    (Ator.dict d).reset s = .err ⟨-1, s.current⟩ := Ator.dict_reset d s

/-- **C10 is false of the position of a clone**: after any step that yields an element, the clone has no current
element. -/
theorem C10_clone_violated (d : DictC κ ν) (s s1 s' : Ator.DictState κ ν)
    (_hn : (Ator.dict d).next s = some (.ok true s1)) (hc : (Ator.dict d).clone s1 = some s') :
    (Ator.dict d).current s' = none := by
  cases hc; rfl

/-- a reachable position -/
example : ∃ s1 s', (Ator.dict (⟨[1, 2], ["a", "b"]⟩ : DictC Int String)).next Ator.dictStart = some (.ok true s1) ∧
    s1.current = some (1, "a") ∧ (Ator.dict (⟨[1, 2], ["a", "b"]⟩ : DictC Int String)).clone s1 = some s' ∧
    s'.current = none := ⟨⟨0, some (1, "a")⟩, ⟨0, none⟩, rfl, rfl, rfl, rfl⟩

/-- **C13, partial.** For every total preorder of keys and every history of a group: a new enumerator yields, with
`Index()` 0, 1, 2, ..., key by key in strictly ascending order, the values of each key in the order in which the
multimap has them, nothing else; and an enumerator cloned after any number of steps yields the rest.
Missing (false, see `C13_reset_violated`): `Reset` restarts the enumeration. -/
theorem C13_enumerate_partial {cmp : κ → κ → Option Ordering} {ord : κ → κ → Ordering} [Std.TransCmp ord]
    (hcmp : ∀ a b, cmp a b = some (ord a b)) (eq : ν → ν → Bool) (ops : List (Spec.GroupOp κ ν)) :
    let m := (Spec.groupRun ord eq (fun _ => []) ops).1
    ∃ (g : GroupC κ ν) (keys : List κ), GroupC.run cmp eq GroupC.empty ops = some (g, (Spec.groupRun ord eq (fun _ => []) ops).2) ∧
      keys.Pairwise (fun a b => ord a b = .lt) ∧ (∀ k, m k ≠ [] ↔ ∃ x ∈ keys, ord x k = .eq) ∧
      (LazyList.ofGroup g).Yields (keys.flatMap fun k => (m k).map fun v => (k, v)) ∧
      (∀ n ≤ (keys.flatMap fun k => (m k).map fun v => (k, v)).length, ∃ s s',
        (Ator.group g).advance n Ator.groupStart = some s ∧ (Ator.group g).clone s = some s' ∧
        (Ator.group g).index s' = (Ator.group g).index s ∧
        (Ator.group g).Delivers s n ((keys.flatMap fun k => (m k).map fun v => (k, v)).drop n) ∧
        (Ator.group g).Delivers s' n ((keys.flatMap fun k => (m k).map fun v => (k, v)).drop n)) := by
  intro m
  obtain ⟨g, e, h⟩ := GroupC.run_refines hcmp eq ops (m := fun _ => []) (s := GroupC.empty)
    GroupC.models_empty
  have hk := multimap_key h
  have hr := Ator.reads_of_models h
  have hy := (LazyList.holds_ofGroup hr).yields
  obtain ⟨vss, h1, h2⟩ := h
  refine ⟨g, g.keys, e, h1.ascending, hk, hy, ?_⟩
  intro n hn
  obtain ⟨s, es, hs⟩ := (Ator.groupC m hr).advance n (Ator.groupC_start hr) hn
  obtain ⟨s', ec, hc⟩ := Ator.group_clone_delivers hr hs
  have hd := (Ator.groupC m hr).delivers hs
  have hn' : n ≤ (Ator.blocks g m).flatten.length := hn
  have hmin : ([] ++ (Ator.blocks g m).flatten.take n).length = n := by
    rw [List.nil_append, List.length_take]; exact Nat.min_eq_left hn'
  rw [hmin] at hc hd
  refine ⟨s, s', es, ec, ?_, hd, hc⟩
  cases ec
  rfl

example : ∃ (g : GroupC Int String) (keys : List Int),
    GroupC.run (fun a b : Int => some (compare a b)) (· == ·) GroupC.empty [.add 3 "c", .add 1 "a", .add 3 "d"]
      = some (g, [.flag true, .flag true, .flag true]) ∧ (∃ x ∈ keys, compare x 3 = .eq) ∧
    ∃ vs : Int → List String, vs 3 = ["c", "d"] ∧
      (LazyList.ofGroup g).Yields (keys.flatMap fun k => (vs k).map fun v => (k, v)) := by
  obtain ⟨g, keys, e, _, h, hy, _⟩ := C13_enumerate_partial (cmp := fun a b : Int => some (compare a b)) (fun _ _ => rfl)
    (fun a b : String => a == b) [Spec.GroupOp.add 3 "c", .add 1 "a", .add 3 "d"]
  exact ⟨g, keys, e, (h 3).1 (by decide), _, rfl, hy⟩

/-- **C13 is false of `Reset`**: on every group, in every state of the enumerator, `Reset` raises an Error. -/
theorem C13_reset_violated {cmp : κ → κ → Option Ordering} {ord : κ → κ → Ordering} [Std.TransCmp ord]
    (hcmp : ∀ a b, cmp a b = some (ord a b)) (eq : ν → ν → Bool) (ops : List (Spec.GroupOp κ ν)) :
    ∃ (g : GroupC κ ν) (r : List (Spec.GroupRet ν)), GroupC.run cmp eq GroupC.empty ops = some (g, r) ∧
      ∀ s : Ator.GroupState κ ν, (Ator.group g).reset s = .err ⟨-1, -1, s.current⟩ := by
  obtain ⟨g, e, vss, h1, h2⟩ := GroupC.run_refines hcmp eq ops (m := fun _ => []) (s := GroupC.empty)
    GroupC.models_empty
  have hl1 := h1.length
  have hl2 := h2.length
  exact ⟨g, _, e, fun s => Ator.group_reset (by omega) s⟩

end Vlpp
