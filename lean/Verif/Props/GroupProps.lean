import Verif.Lemmas.GroupC

/-!
# Properties C11, C12, C14: `Group` and `GroupInnerJoin`
-/
set_option autoImplicit false
namespace Vlpp
variable {κ ν : Type}

/-- **C11.** For every total (pre)order of keys, every equality test of values and every history of calls on a new
group: no undefined behaviour (in particular no value list is used after being deleted or deleted twice); every result
and error is that of the multimap; at the end `Keys()` lists, strictly ascending, exactly the keys that have values;
`GetByIndex(i)` returns the values of the i-th key and raises an error for any other `i`; the value lists that are
alive are exactly those stored in the group; and destroying the group releases all of them. -/
theorem C11_group {cmp : κ → κ → Option Ordering} {ord : κ → κ → Ordering} [Std.TransCmp ord]
    (hcmp : ∀ a b, cmp a b = some (ord a b)) (eq : ν → ν → Bool) (ops : List (Spec.GroupOp κ ν)) :
    let m := (Spec.groupRun ord eq (fun _ => []) ops).1
    ∃ s, GroupC.run cmp eq GroupC.empty ops = some (s, (Spec.groupRun ord eq (fun _ => []) ops).2) ∧
      s.keys.Pairwise (fun a b => ord a b = .lt) ∧
      (∀ k, m k ≠ [] ↔ ∃ x ∈ s.keys, ord x k = .eq) ∧
      s.count = s.keys.length ∧
      (∀ (i : Nat) (hi : i < s.keys.length), GroupC.getByIndex (i : Int) s = .ok (m s.keys[i]) s) ∧
      (∀ i : Int, ¬ (0 ≤ i ∧ i < s.keys.length) → GroupC.getByIndex i s = .err s) ∧
      (∀ p : Nat, (∃ l, s.heap[p]? = some (some l)) ↔ p ∈ s.values) ∧ s.values.Nodup ∧
      (∃ s', GroupC.clear s = .ok true s' ∧ s'.keys = [] ∧ s'.values = [] ∧
        ∀ (p : Nat) (l : List ν), s'.heap[p]? ≠ some (some l)) := by
  intro m
  obtain ⟨s, e, h⟩ := GroupC.run_refines hcmp eq ops (m := fun _ => []) (s := GroupC.empty)
    GroupC.models_empty
  refine ⟨s, e, ?_⟩
  have hk := multimap_key h
  have hcl := GroupC.clear_ok h
  obtain ⟨vss, h1, h2⟩ := h
  have hl1 := h1.length
  have hl2 := h2.length
  refine ⟨h1.ascending, hk, rfl, ?_, ?_, ?_, h2.nodup, ?_⟩
  · intro i hi
    obtain ⟨hi', e1, e2⟩ := GroupC.getByIndex_ok h1 h2 hi
    rw [e1, e2]
  · exact fun i hi => GroupC.getByIndex_err (by omega) hi
  · intro p
    constructor
    · exact fun ⟨l, hl⟩ => h2.noleak p l hl
    · intro hp
      obtain ⟨i, hi⟩ := List.mem_iff_getElem?.1 hp
      have := (List.getElem?_eq_some_iff.1 hi).1
      exact ⟨_, h2.live i p _ hi (List.getElem?_eq_getElem (h2.length ▸ this))⟩
  · obtain ⟨hp, e3, h3⟩ := hcl
    exact ⟨_, e3, rfl, rfl, fun p l hl => by have := h3 p; rw [liveAt_eq_some.2 hl] at this; cases this⟩

example : ∃ s, GroupC.run (fun a b : Int => some (compare a b)) (fun a b : String => a == b) GroupC.empty
      [.add 3 "c", .add 1 "a", .add 3 "x", .remove 3 "c", .get 3, .remove 1 "a", .containsKey 1, .get 1] =
      some (s, [.flag true, .flag true, .flag true, .done, .values ["x"], .done, .flag false, .error]) := by
  obtain ⟨s, e, _⟩ := C11_group (cmp := fun a b : Int => some (compare a b)) (ord := compare) (fun _ _ => rfl)
    (fun a b : String => a == b)
    [.add 3 "c", .add 1 "a", .add 3 "x", .remove 3 "c", .get 3, .remove 1 "a", .containsKey 1, .get 1]
  exact ⟨s, e⟩

/-- The answer of `Remove(key, value)` that a caller expects: the pair was there. -/
def Spec.pairPresent (eq : ν → ν → Bool) (m : κ → List ν) (k : κ) (v : ν) : Bool := (m k).any (fun x => eq x v)

/-- **C12 is violated**: on the group `{1 ↦ [10]}`, `Remove(1, 20)` returns true although the pair is absent. -/
theorem C12_remove_result_violated :
    ∃ (ops : List (Spec.GroupOp Nat Nat)) (s s' : GroupC Nat Nat),
      GroupC.run (fun a b => some (compare a b)) (· == ·) GroupC.empty ops =
        some (s, (Spec.groupRun compare (· == ·) (fun _ => []) ops).2) ∧
      Spec.pairPresent (· == ·) (Spec.groupRun compare (· == ·) (fun _ => []) ops).1 1 20 = false ∧
      GroupC.remove (fun a b => some (compare a b)) (· == ·) 1 20 s = .ok true s' := by
  obtain ⟨s, e, h⟩ := GroupC.run_refines (cmp := fun a b : Nat => some (compare a b)) (ord := compare)
    (fun _ _ => rfl) (fun a b : Nat => a == b) [.add 1 10] (m := fun _ => []) (s := GroupC.empty)
    GroupC.models_empty
  obtain ⟨s', e', _⟩ := GroupC.remove_ok (cmp := fun a b : Nat => some (compare a b)) (ord := compare)
    (fun _ _ => rfl) (fun a b : Nat => a == b) h 1 20
  exact ⟨[.add 1 10], s, s', e, by rfl, e'⟩

/-- **C12, the part that holds** (full statement: the result is `Spec.pairPresent`).  In every reachable group,
`Remove(key, value)` removes exactly the first matching value of that key and nothing else, returns true when the pair
was present, and false when the key was absent; when the key exists with other values only, it still returns true. -/
theorem C12_remove_result_partial {cmp : κ → κ → Option Ordering} {ord : κ → κ → Ordering} [Std.TransCmp ord]
    (hcmp : ∀ a b, cmp a b = some (ord a b)) (eq : ν → ν → Bool) (ops : List (Spec.GroupOp κ ν))
    {s : GroupC κ ν} {rs : List (Spec.GroupRet ν)} (hrun : GroupC.run cmp eq GroupC.empty ops = some (s, rs))
    (k : κ) (v : ν) :
    let m := (Spec.groupRun ord eq (fun _ => []) ops).1
    ∃ r s', GroupC.remove cmp eq k v s = .ok r s' ∧
      (Spec.pairPresent eq m k v = true → r = true) ∧ (m k = [] → r = false) ∧ (m k ≠ [] → r = true) ∧
      GroupC.Models ord (fun k' => if ord k k' = .eq then (m k).eraseP (fun x => eq x v) else m k') s' := by
  intro m
  obtain ⟨s0, e, h⟩ := GroupC.run_refines hcmp eq ops (m := fun _ => []) (s := GroupC.empty)
    GroupC.models_empty
  rw [hrun] at e
  cases e
  obtain ⟨s', e', h'⟩ := GroupC.remove_ok hcmp eq h k v
  refine ⟨_, s', e', ?_, ?_, ?_, h'⟩
  · intro hp
    cases hm : (Spec.groupRun ord eq (fun _ => []) ops).1 k with
    | nil =>
      have : m k = [] := hm
      rw [Spec.pairPresent, this] at hp; cases hp
    | cons => rfl
  · intro hm
    have hm' : (Spec.groupRun ord eq (fun _ => []) ops).1 k = [] := hm
    rw [hm']; rfl
  · intro hm
    have hm' : (Spec.groupRun ord eq (fun _ => []) ops).1 k ≠ [] := hm
    simp [hm']

example : ∃ s rs, GroupC.run (fun a b : Nat => some (compare a b)) (fun a b : Nat => a == b) GroupC.empty
    [.add 1 10, .add 1 20] = some (s, rs) := by
  obtain ⟨s, e, _⟩ := C11_group (cmp := fun a b : Nat => some (compare a b)) (ord := compare) (fun _ _ => rfl)
    (fun a b : Nat => a == b) [.add 1 10, .add 1 20]
  exact ⟨s, _, e⟩

/-- **C14.** For any two groups obtained by any histories, `GroupInnerJoin` succeeds and its callback invocations have
strictly ascending keys (so no key is reported twice) and are exactly the ones that are due: `accept` with both value
lists for keys of both groups, `discardFirst` for keys of the first only, `discardSecond` for keys of the second only. -/
theorem C14_groupInnerJoin {α β : Type} {cmp : κ → κ → Option Ordering} {ord : κ → κ → Ordering} [Std.TransCmp ord]
    (hcmp : ∀ a b, cmp a b = some (ord a b)) (eq1 : α → α → Bool) (eq2 : β → β → Bool)
    (ops1 : List (Spec.GroupOp κ α)) (ops2 : List (Spec.GroupOp κ β))
    {s1 : GroupC κ α} {r1 : List (Spec.GroupRet α)} (hrun1 : GroupC.run cmp eq1 GroupC.empty ops1 = some (s1, r1))
    {s2 : GroupC κ β} {r2 : List (Spec.GroupRet β)} (hrun2 : GroupC.run cmp eq2 GroupC.empty ops2 = some (s2, r2)) :
    ∃ es, groupInnerJoin cmp s1 s2 = some es ∧
      es.Pairwise (fun a b => ord a.key b.key = .lt) ∧
      ∀ e, e ∈ es ↔ Spec.JoinEvent.Due (Spec.groupRun ord eq1 (fun _ => []) ops1).1 s1.keys
        (Spec.groupRun ord eq2 (fun _ => []) ops2).1 s2.keys e := by
  obtain ⟨s0, e, h1⟩ := GroupC.run_refines hcmp eq1 ops1 (m := fun _ => []) (s := GroupC.empty)
    GroupC.models_empty
  rw [hrun1] at e; cases e
  obtain ⟨s0, e, h2⟩ := GroupC.run_refines hcmp eq2 ops2 (m := fun _ => []) (s := GroupC.empty)
    GroupC.models_empty
  rw [hrun2] at e; cases e
  obtain ⟨es, e, hp, hd⟩ := joinLoop_spec hcmp h1 h2 0 0 (by simp) (by simp)
  refine ⟨es, e, hp, ?_⟩
  intro e
  rw [hd e]
  cases e <;> simp [DueFrom, Spec.JoinEvent.Due]

example : ∃ s1 r1 s2 r2 es, GroupC.run (fun a b : Nat => some (compare a b)) (fun a b : Nat => a == b) GroupC.empty
      [.add 1 10, .add 2 20] = some (s1, r1) ∧
    GroupC.run (fun a b : Nat => some (compare a b)) (fun a b : String => a == b) GroupC.empty
      [.add 2 "b", .add 3 "c"] = some (s2, r2) ∧
    groupInnerJoin (fun a b : Nat => some (compare a b)) s1 s2 = some es ∧ es ≠ [] := by
  obtain ⟨s1, e1, _, k1, _⟩ := C11_group (cmp := fun a b : Nat => some (compare a b)) (ord := compare)
    (fun _ _ => rfl) (fun a b : Nat => a == b) [.add 1 10, .add 2 20]
  obtain ⟨s2, e2, _⟩ := C11_group (cmp := fun a b : Nat => some (compare a b)) (ord := compare)
    (fun _ _ => rfl) (fun a b : String => a == b) [.add 2 "b", .add 3 "c"]
  obtain ⟨es, e, _, hd⟩ := C14_groupInnerJoin (fun _ _ => rfl) _ _ _ _ e1 e2
  refine ⟨s1, _, s2, _, es, e1, e2, e, ?_⟩
  obtain ⟨x, hx, he⟩ := (k1 1).1 (by decide)
  have hx1 : x = 1 := by simpa using he
  subst hx1
  have := (hd (.discardFirst 1 [10])).2 ⟨hx, by decide, by decide⟩
  intro hn
  rw [hn] at this
  cases this

end Vlpp
