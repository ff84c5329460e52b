import Verif.Lemmas.HeapDict
import Verif.Props.HeapListProps

/-!
# Property C76: many dictionaries on a heap
-/
set_option autoImplicit false
namespace Vlpp
open DictWorld
variable {κ ν : Type}

/-- **C76.** For every total (pre)order of keys and every program over any number of dictionaries, which calls their
member functions, moves them to each other or to themselves, and destroys and creates them again: no undefined behaviour —
no use of dead or foreign memory, nothing constructed or destroyed twice, no buffer released twice or with live elements in
it; every result is that of programs over finite maps in which a moved-from map is empty; and at every point the heaps
consist of exactly the buffers of the keys and the values of the dictionaries, which hold the entries of the maps in strictly
ascending order of keys. -/
theorem C76_dictionaries (mk : Option κ → Option κ) (mv : Option ν → Option ν) {cmp : κ → κ → Option Ordering}
    {ord : κ → κ → Ordering} [Std.TransCmp ord] (hcmp : ∀ a b, cmp a b = some (ord a b))
    (ops : List (Spec.MoveOp (Spec.MapOp κ ν))) :
    let r := Spec.moveRun (Spec.mapStep ord) (fun _ => none) (.flag true) .error (fun _ => fun _ => none) ops
    ∃ w ks vs, (movable mk mv cmp).run (.flag true) .error empty ops = some (w, r.2) ∧
      w.keys.Holds ks ∧ w.values.Holds vs ∧ ∀ n, Spec.Lists ord (r.1 n) (ks n) (vs n) := by
  intro r
  obtain ⟨w, ms, rs, e, ⟨ds, ⟨⟨c1, h1, p1⟩, ⟨c2, h2, p2⟩⟩, hl⟩, hm, _⟩ := (moveSim mk mv hcmp).run (moved := .flag true) ops
    (.of_forall _ (fun _ _ _ _ => trivial) _) stores_empty
  have hr : r = (ms, rs) := hm.eq_moveRun
  rw [hr]
  exact ⟨w, _, _, e, h1.holds p1, h2.holds p2, hl⟩

/-- **C76.** When the program ends by destroying its dictionaries, nothing is left on the heaps. -/
theorem C76_no_leak (mk : Option κ → Option κ) (mv : Option ν → Option ν) {cmp : κ → κ → Option Ordering}
    {ord : κ → κ → Ordering} [Std.TransCmp ord] (hcmp : ∀ a b, cmp a b = some (ord a b))
    (ops : List (Spec.MoveOp (Spec.MapOp κ ν))) (N : Nat) (hN : ∀ op ∈ ops, ∀ n, op.Mentions n → n < N) :
    ∃ w rs, (movable mk mv cmp).run (.flag true) .error empty (ops ++ (List.range N).map .renew) = some (w, rs) ∧
      ∀ a, w.keys.heap.block a = none ∧ w.values.heap.block a = none := by
  obtain ⟨w, rs, ms, e, ⟨ds, hr, _⟩, hf⟩ := (moveSim mk mv hcmp).run_renew (moved := .flag true) ops
    (.of_forall _ (fun _ _ _ _ => trivial) _) stores_empty (fun _ => ⟨rfl, rfl⟩) N hN
  exact ⟨w, rs, e, fun a => ⟨hr.keys.clean (fun n => (hf n).1) a, hr.values.clean (fun n => (hf n).2) a⟩⟩

/-- two dictionaries, a move between them, a move of a dictionary to itself: the results, how many blocks are live, and how
many after the variables are destroyed -/
example :
    let ops : List (Spec.MoveOp (Spec.MapOp Int Int)) :=
      [.call 0 (.add 3 30), .call 0 (.add 1 10), .moveAssign 1 0, .call 1 (.get 3), .call 0 (.get 3), .call 0 (.set 3 7),
       .moveConstruct 2 1, .call 1 (.add 5 50), .moveAssign 1 1, .call 1 (.contains 5), .call 2 (.remove 1)]
    let M := movable (ν := Int) (fun _ => none) (fun _ => none) (fun a b : Int => some (compare a b))
    let live := fun (w : DictWorld Int Int) =>
      (((List.range w.keys.heap.next).filter fun a => (w.keys.heap.block a).isSome).length,
       ((List.range w.values.heap.next).filter fun a => (w.values.heap.block a).isSome).length)
    (∀ op ∈ ops, ∀ n, op.Mentions n → n < 3) ∧
    (M.run (.flag true) .error empty ops).map (fun p => (live p.1, p.2)) =
      some ((2, 2), [.flag true, .flag true, .flag true, .value 30, .error, .flag true, .flag true, .flag true, .flag true,
        .flag false, .flag true]) ∧
    (M.run (.flag true) .error empty (ops ++ (List.range 3).map .renew)).map (fun p => live p.1) = some (0, 0) := by
  refine ⟨?_, by decide +kernel, by decide +kernel⟩
  intro op h n hn
  simp at h
  rcases h with rfl | rfl | rfl | rfl | rfl | rfl | rfl | rfl | rfl | rfl | rfl <;>
    simp [Spec.MoveOp.Mentions] at hn <;> omega

end Vlpp
