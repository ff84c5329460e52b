import Verif.Lemmas.HeapGroup
import Verif.Props.HeapListProps

/-!
# Property C79: many groups on a heap
-/
set_option autoImplicit false
namespace Vlpp
open GroupWorld
variable {κ ν : Type}

/-- The memory consists of the keys `ks`, the pointers `ps` to the value lists, and the value lists `xs` at these pointers. -/
structure GroupWorld.Holds (w : GroupWorld κ ν) (ks : Nat → List κ) (ps : Nat → List Nat) (xs : Nat → List ν) : Prop where
  keys : w.keys.Holds ks
  values : w.values.Holds ps
  targets : w.targets.Holds xs
  /-- there is a value list wherever a group points to, and nowhere else -/
  live : ∀ p, w.live p = true ↔ ∃ n, p ∈ ps n
  /-- no list is pointed to twice -/
  unshared : ∀ (n m i j p : Nat), (ps n)[i]? = some p → (ps m)[j]? = some p → n = m ∧ i = j
  /-- where there is no value list, there is no memory of one either -/
  dead : ∀ p, w.live p = false → w.targets.lists p = ListH.empty

theorem GroupWorld.holds_at {ord : κ → κ → Ordering} {w : GroupWorld κ ν} {ms : Nat → κ → List ν} {ks : Nat → List κ}
    {ps : Nat → List Nat} {h : List (Option (List ν))} (h1 : ListWorld.Reps w.keys ks) (h2 : ListWorld.Reps w.values ps)
    (ht : Targets w h) (hg : Groups ord ms ks ps h) :
    ∃ xs, w.Holds ks ps xs ∧ ∀ n, Spec.GroupLists ord (ms n) (ks n) ((ps n).map xs) := by
  obtain ⟨c1, r1, p1⟩ := h1
  obtain ⟨c2, r2, p2⟩ := h2
  obtain ⟨c3, r3, p3⟩ := ht.reps
  refine ⟨_, ⟨r1.holds p1, r2.holds p2, r3.holds p3, ?_, ?_, ?_⟩, ?_⟩
  · intro p
    rw [ht.live]
    constructor
    · intro hp
      exact hg.owned p (by intro h; rw [h] at hp; cases hp)
    · rintro ⟨n, hn⟩
      have := hg.live hn
      cases hl : liveAt h p with
      | none => exact absurd hl this
      | some _ => rfl
  · intro n m i j p hi hj
    have hnm : n = m := Classical.byContradiction fun hne =>
      hg.disjoint n m p hne (List.mem_of_getElem? hi) (List.mem_of_getElem? hj)
    subst hnm
    obtain ⟨vss, _, h2⟩ := hg.models n
    exact ⟨rfl, (List.getElem?_inj (List.getElem?_eq_some_iff.1 hi).1 h2.nodup).1 (hi.trans hj.symm)⟩
  · intro p hp
    refine ht.fresh p ?_
    rw [ht.live] at hp
    cases hl : liveAt h p with
    | none => rfl
    | some _ => rw [hl] at hp; cases hp
  · intro n
    obtain ⟨vss, h1, h2⟩ := hg.models n
    have hlen : (ps n).length = vss.length := h2.length
    have : (ps n).map (fun p => (liveAt h p).getD []) = vss := by
      apply List.ext_getElem?
      intro i
      rw [List.getElem?_map]
      by_cases hi : i < (ps n).length
      · have e1 := List.getElem?_eq_getElem hi
        have e2 := List.getElem?_eq_getElem (show i < vss.length from hlen ▸ hi)
        rw [e1, e2, Option.map_some, liveAt_eq_some.2 (h2.live i _ _ e1 e2)]
        rfl
      · rw [List.getElem?_eq_none (by omega), List.getElem?_eq_none (by omega)]; rfl
    rw [this]
    exact h1

theorem GroupWorld.holds_of {ord : κ → κ → Ordering} {w : GroupWorld κ ν} {ms : Nat → κ → List ν} (h : Stores ord w ms) :
    ∃ ks ps xs, w.Holds ks ps xs ∧ ∀ n, Spec.GroupLists ord (ms n) (ks n) ((ps n).map xs) := by
  obtain ⟨ks, ps, h, h1, h2, ht, hg⟩ := h
  exact ⟨ks, ps, holds_at h1 h2 ht hg⟩

/-- **C79.** For every total (pre)order of keys and every program over any number of groups, which calls their member
functions, moves them to each other or to themselves, and destroys and creates them again: no undefined behaviour — no use of
dead or foreign memory, no deleted value list used or deleted again, nothing constructed or destroyed twice, no buffer
released twice or with live elements in it; every result is that of programs over multimaps in which a moved-from multimap is
empty; and at every point the memory consists of exactly the keys, the pointers and the value lists of the groups, which hold
the entries of the multimaps in strictly ascending order of keys.  (What `Remove(key, value)` returns is left to C12.) -/
theorem C79_groups (mk : Option κ → Option κ) (mv : Option ν → Option ν) (eq : ν → ν → Bool) {cmp : κ → κ → Option Ordering}
    {ord : κ → κ → Ordering} [Std.TransCmp ord] (hcmp : ∀ a b, cmp a b = some (ord a b))
    (ops : List (Spec.MoveOp (Spec.GroupOp κ ν))) :
    let r := Spec.moveRun (Spec.groupStep ord eq) (fun _ => []) (.flag true) .error (fun _ => fun _ => []) ops
    ∃ w ks ps xs, (movable mk mv cmp eq).run (.flag true) .error empty ops = some (w, r.2) ∧
      w.Holds ks ps xs ∧ ∀ n, Spec.GroupLists ord (r.1 n) (ks n) ((ps n).map xs) := by
  intro r
  obtain ⟨w, ms, rs, e, hs, hm, _⟩ := (moveSim mk mv eq hcmp).run (moved := .flag true) ops
    (.of_forall _ (fun _ _ _ _ => trivial) _) stores_empty
  have hr : r = (ms, rs) := hm.eq_moveRun
  rw [hr]
  obtain ⟨ks, ps, xs, h1, h2⟩ := holds_of hs
  exact ⟨w, ks, ps, xs, e, h1, h2⟩

/-- **C79.** When the program ends by destroying its groups, nothing is left: no keys, no pointers, no value list and none of
their elements. -/
theorem C79_no_leak (mk : Option κ → Option κ) (mv : Option ν → Option ν) (eq : ν → ν → Bool)
    {cmp : κ → κ → Option Ordering} {ord : κ → κ → Ordering} [Std.TransCmp ord] (hcmp : ∀ a b, cmp a b = some (ord a b))
    (ops : List (Spec.MoveOp (Spec.GroupOp κ ν))) (N : Nat) (hN : ∀ op ∈ ops, ∀ n, op.Mentions n → n < N) :
    ∃ w rs, (movable mk mv cmp eq).run (.flag true) .error empty (ops ++ (List.range N).map .renew) = some (w, rs) ∧
      ∀ a, w.keys.heap.block a = none ∧ w.values.heap.block a = none ∧ w.targets.heap.block a = none ∧ w.live a = false := by
  obtain ⟨w, rs, ms, e, hs, hf⟩ := (moveSim mk mv eq hcmp).run_renew (moved := .flag true) ops
    (.of_forall _ (fun _ _ _ _ => trivial) _) stores_empty (fun _ => ⟨rfl, rfl⟩) N hN
  refine ⟨w, rs, e, ?_⟩
  obtain ⟨ks, ps, h, h1, h2, ht, hg⟩ := hs
  have hps : ∀ n, ps n = [] := fun n => ListWorld.RepsBy.fresh_nil h2 (hf n).2
  have hdead : ∀ p, liveAt h p = none := fun p => Classical.byContradiction fun hne => by
    obtain ⟨n, hn⟩ := hg.owned p hne
    rw [hps n] at hn; cases hn
  exact fun a => ⟨h1.clean (fun n => (hf n).1) a, h2.clean (fun n => (hf n).2) a,
    ht.reps.clean (fun n => ht.fresh n (hdead n)) a, by rw [ht.live, hdead]; rfl⟩

/-- two groups, a move between them, a move of a group to itself: the results; how many buffers of keys, of pointers and of
value lists are live, and how many value lists; and how many after the variables are destroyed -/
example :
    let ops : List (Spec.MoveOp (Spec.GroupOp Int Int)) :=
      [.call 0 (.add 3 30), .call 0 (.add 1 10), .call 0 (.add 3 31), .moveAssign 1 0, .call 1 (.get 3), .call 0 (.get 3),
       .call 0 (.add 3 7), .moveConstruct 2 1, .call 1 (.add 5 50), .moveAssign 1 1, .call 1 (.containsKey 5),
       .call 2 (.remove 3 30), .call 2 (.get 3), .call 2 (.removeKey 1)]
    let M := movable (fun _ => none) (fun _ => none) (fun a b : Int => some (compare a b)) (fun a b : Int => a == b)
    let live := fun (w : GroupWorld Int Int) =>
      (((List.range w.keys.heap.next).filter fun a => (w.keys.heap.block a).isSome).length,
       ((List.range w.values.heap.next).filter fun a => (w.values.heap.block a).isSome).length,
       ((List.range w.targets.heap.next).filter fun a => (w.targets.heap.block a).isSome).length,
       ((List.range w.next).filter fun a => w.live a).length)
    (∀ op ∈ ops, ∀ n, op.Mentions n → n < 3) ∧
    (M.run (.flag true) .error empty ops).map (fun p => (live p.1, p.2)) =
      some ((2, 2, 2, 2), [.flag true, .flag true, .flag true, .flag true, .values [30, 31], .error, .flag true, .flag true,
        .flag true, .flag true, .flag false, .done, .values [31], .flag true]) ∧
    (M.run (.flag true) .error empty (ops ++ (List.range 3).map .renew)).map (fun p => live p.1) = some (0, 0, 0, 0) := by
  refine ⟨?_, by decide +kernel, by decide +kernel⟩
  intro op h n hn
  simp at h
  rcases h with rfl | rfl | rfl | rfl | rfl | rfl | rfl | rfl | rfl | rfl | rfl | rfl | rfl | rfl <;>
    simp [Spec.MoveOp.Mentions] at hn <;> omega

end Vlpp
