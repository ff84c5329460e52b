import Verif.Lemmas.GroupThrow
import Verif.Props.HeapGroupProps
import Verif.Props.DictThrowProps

/-! # Property C91: groups -/
set_option autoImplicit false
namespace Vlpp
open Spec (CopyFate EntryFate)
open GroupWorld
variable {κ ν : Type}

/-- **C91 (groups).** Programs over any number of groups in which copying keys and values throws, except while a value is
added: the results are those of multimaps, the memory is exactly the keys, the pointers and the value lists of the groups
with their entries, and nothing is left when the groups are destroyed. -/
theorem C91_group_partial (mk : Option κ → Option κ) (mv : Option ν → Option ν) (eq : ν → ν → Bool)
    {cmp : κ → κ → Option Ordering} {ord : κ → κ → Ordering} [Std.TransCmp ord] (hcmp : ∀ a b, cmp a b = some (ord a b))
    (ops : List (Spec.MoveOp (Spec.GroupOp κ ν × EntryFate ν))) (hu : Spec.GroupUninterrupted ord eq (fun _ _ => []) ops)
    (N : Nat) (hN : ∀ op ∈ ops, ∀ n, op.Mentions n → n < N) :
    let r := Spec.moveRun (Spec.groupThrowStep ord eq) (fun _ => []) (.flag true) .error (fun _ => fun _ => []) ops
    (∃ w ks ps xs, (movableT mk mv cmp eq).run (.flag true) .error empty ops = some (w, r.2) ∧
      w.Holds ks ps xs ∧ ∀ n, Spec.GroupLists ord (r.1 n) (ks n) ((ps n).map xs)) ∧
    ∃ w rs, (movableT mk mv cmp eq).run (.flag true) .error empty (ops ++ (List.range N).map .renew) = some (w, rs) ∧
      ∀ a, w.keys.heap.block a = none ∧ w.values.heap.block a = none ∧ w.targets.heap.block a = none ∧ w.live a = false := by
  intro r
  constructor
  · obtain ⟨w, ms, rs, e, hs, hm, _⟩ := (moveSimT mk mv eq hcmp).run (moved := .flag true) ops hu.safe stores_empty
    have hr : r = (ms, rs) := hm.eq_moveRun
    rw [hr]
    obtain ⟨ks, ps, xs, h1, h2⟩ := holds_of hs
    exact ⟨w, ks, ps, xs, e, h1, h2⟩
  · obtain ⟨w, rs, ms, e, hs, hf⟩ := (moveSimT mk mv eq hcmp).run_renew (moved := .flag true) ops hu.safe stores_empty
      (fun _ => ⟨rfl, rfl⟩) N hN
    refine ⟨w, rs, e, ?_⟩
    obtain ⟨ks, ps, h, h1, h2, ht, hg⟩ := hs
    have hps : ∀ n, ps n = [] := fun n => ListWorld.RepsBy.fresh_nil h2 (hf n).2
    have hdead : ∀ p, liveAt h p = none := fun p => Classical.byContradiction fun hne => by
      obtain ⟨n, hn⟩ := hg.owned p hne
      rw [hps n] at hn; cases hn
    exact fun a => ⟨h1.clean (fun n => (hf n).1) a, h2.clean (fun n => (hf n).2) a,
      ht.reps.clean (fun n => ht.fresh n (hdead n)) a, by rw [ht.live, hdead]; rfl⟩

/-- **C91 is violated by groups.** Whatever the program did before: when copying the key or the value throws while `Add` adds
a value, the exception reaches the caller, but from then on destroying the group, assigning to it and clearing it is
undefined behaviour.  If it was the value, reading the values of the key is undefined behaviour as well; if it was the key, a
value list has been created which no group points to. -/
theorem C91_violated_group (mk : Option κ → Option κ) (mv : Option ν → Option ν) (eq : ν → ν → Bool)
    {cmp : κ → κ → Option Ordering} {ord : κ → κ → Ordering} [Std.TransCmp ord] (hcmp : ∀ a b, cmp a b = some (ord a b))
    (ops : List (Spec.MoveOp (Spec.GroupOp κ ν × EntryFate ν))) (hu : Spec.GroupUninterrupted ord eq (fun _ _ => []) ops)
    (i : Nat) (op : Spec.GroupOp κ ν) (f : EntryFate ν)
    (hi : Spec.GroupInterrupted
      ((Spec.moveRun (Spec.groupThrowStep ord eq) (fun _ => []) (.flag true) .error (fun _ => fun _ => []) ops).1 i) (op, f)) :
    let run := (movableT mk mv cmp eq).run (.flag true) .error empty
    (∃ w rs, run (ops ++ [.call i (op, f)]) = some (w, rs ++ [.error]) ∧
      (f = .keyThrows → ∃ ps p, w.values.Holds ps ∧ w.live p = true ∧ ∀ n, p ∉ ps n)) ∧
    run (ops ++ [.call i (op, f), .renew i]) = none ∧
    (∀ j, run (ops ++ [.call i (op, f), .moveAssign i j]) = none) ∧
    (∀ j, i ≠ j → run (ops ++ [.call i (op, f), .moveConstruct i j]) = none) ∧
    run (ops ++ [.call i (op, f), .call i (.clear, .completes)]) = none ∧
    ∀ t, f = .valueThrows t → ∃ k v, op = .add k v ∧
      run (ops ++ [.call i (op, f), .call i (.get k, .completes)]) = none := by
  obtain ⟨w, ms, rs, e, hs, hm, _⟩ := (moveSimT mk mv eq hcmp).run (moved := .flag true) ops hu.safe stores_empty
  rw [hm.eq_moveRun] at hi
  obtain ⟨ks, ps, h, h1, h2, h3, h4⟩ := hs
  obtain ⟨w', k, v, hop, e1, hb⟩ := callT_ruins mk mv eq hcmp h1 h2 h3 h4 hi
  have e2 : (movableT mk mv cmp eq).run (.flag true) .error w [.call i (op, f)] = some (w', [.error]) := by
    simp only [Movable.run, Movable.step, movableT, e1]; rfl
  have e3 := Movable.run_after e [.call i (op, f)]
  rw [e2] at e3
  have after : ∀ last, (movableT mk mv cmp eq).run (.flag true) .error empty (ops ++ [.call i (op, f), last]) =
      ((movableT mk mv cmp eq).run (.flag true) .error w' [last]).map fun q => (q.1, (rs ++ [.error]) ++ q.2) := by
    intro last
    have : ops ++ [Spec.MoveOp.call i (op, f), last] = (ops ++ [.call i (op, f)]) ++ [last] := by simp
    rw [this, Movable.run_after e3]
  refine ⟨⟨_, rs, e3, ?_⟩, ?_, fun j => ?_, fun j hij => ?_, ?_, fun t ht => ⟨k, v, hop, ?_⟩⟩
  · rintro rfl
    cases hb with
    | @key m p ps' cs _ hv _ _ _ hl hn =>
      obtain ⟨c2, r2, p2⟩ := hv
      exact ⟨ps', p, r2.holds p2, hl, hn⟩
  · rw [after]
    simp only [Movable.run, Movable.step, movableT]
    rw [Cpp.bind_fault hb.renew]; rfl
  · rw [after]
    simp only [Movable.run, Movable.step, movableT]
    rw [Cpp.bind_fault (hb.moveAssign j)]; rfl
  · rw [after]
    simp only [Movable.run, Movable.step, movableT, if_neg hij]
    rw [Cpp.bind_fault hb.renew]; rfl
  · rw [after]
    have : callT mk mv cmp eq i (.clear, .completes) w' = .fault := Cpp.bind_fault hb.clear
    simp only [Movable.run, Movable.step, movableT, this]; rfl
  · subst ht
    rw [after]
    have : callT mk mv cmp eq i (.get k, .completes) w' = .fault := Cpp.bind_fault hb.get
    simp only [Movable.run, Movable.step, movableT, this]; rfl

/-- dictionaries: an assignment throws and leaves 7; then, in the same program, an insertion is interrupted -/
example :
    let ops : List (Spec.MoveOp (Spec.MapOp Int Int × EntryFate Int)) :=
      [.call 0 (.add 3 30, .completes), .call 0 (.add 1 10, .completes), .call 0 (.set 3 31, .valueThrows 7),
       .call 0 (.get 3, .completes), .call 0 (.set 1 11, .keyThrows), .call 0 (.add 3 5, .valueThrows 0)]
    let run := (DictWorld.movableT (ν := Int) (fun _ => none) (fun _ => none) (fun a b : Int => some (compare a b))).run
      (.flag true) .error DictWorld.empty
    Spec.MapUninterrupted compare (fun _ _ => none) ops ∧
    (run ops).map (fun p => p.2) = some [.flag true, .flag true, .error, .value 7, .flag true, .error] ∧
    (run (ops ++ [.call 0 (.add 2 20, .valueThrows 0), .call 0 (.contains 2, .completes)])).map (fun p => p.2.drop 6) =
      some [.error, .flag true] ∧
    (run (ops ++ [.call 0 (.add 2 20, .valueThrows 0), .renew 0])).isNone ∧
    (run (ops ++ [.call 0 (.set 2 20, .keyThrows), .renew 0])).isNone := by
  refine ⟨?_, by decide +kernel, by decide +kernel, by decide +kernel, by decide +kernel⟩
  simp [Spec.MapUninterrupted, Spec.MapInterrupted, Spec.moveStep, Spec.mapThrowStep, Spec.mapStep, Spec.mapPut]

/-- groups: the key is not copied when it is there already; then an addition is interrupted -/
example :
    let ops : List (Spec.MoveOp (Spec.GroupOp Int Int × EntryFate Int)) :=
      [.call 0 (.add 3 30, .completes), .call 0 (.add 3 31, .keyThrows), .call 0 (.get 3, .completes)]
    let run := (movableT (ν := Int) (fun _ => none) (fun _ => none) (fun a b : Int => some (compare a b)) (· == ·)).run
      (.flag true) .error empty
    Spec.GroupUninterrupted compare (· == ·) (fun _ _ => []) ops ∧
    (run ops).map (fun p => p.2) = some [.flag true, .flag true, .values [30, 31]] ∧
    (run (ops ++ [.call 0 (.add 2 20, .valueThrows 0), .call 0 (.get 3, .completes)])).map (fun p => p.2.drop 3) =
      some [.error, .values [30, 31]] ∧
    (run (ops ++ [.call 0 (.add 2 20, .keyThrows)])).map (fun p => (p.2.drop 3, p.1.live 1, (p.1.values.lists 0).count)) =
      some ([.error], true, 1) ∧
    (run (ops ++ [.call 0 (.add 2 20, .valueThrows 0), .renew 0])).isNone ∧
    (run (ops ++ [.call 0 (.add 3 20, .valueThrows 0), .renew 0])).isNone ∧
    (run (ops ++ [.call 0 (.add 2 20, .keyThrows), .renew 0])).isNone := by
  refine ⟨?_, by decide +kernel, by decide +kernel, by decide +kernel, by decide +kernel, by decide +kernel, by decide +kernel⟩
  simp [Spec.GroupUninterrupted, Spec.GroupInterrupted, Spec.moveStep, Spec.groupThrowStep, Spec.groupStep, Spec.groupPut]

end Vlpp
