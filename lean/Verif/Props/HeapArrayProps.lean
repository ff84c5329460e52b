import Verif.Lemmas.HeapArray

/-!
# Property C78: many `Array<T>`s on a heap
-/
set_option autoImplicit false
namespace Vlpp
open ListWorld
variable {α κ : Type}

/-- The heap holds the buffers of the arrays and nothing else, no buffer belongs to two arrays, and each buffer has
exactly as many cells as its array has elements, which it holds (`none`: no value was given to the element). -/
structure ArrayH.Holds (w : ListWorld α) (ys : Nat → List (Option α)) : Prop where
  noLeak : ∀ a, w.heap.block a ≠ none → ∃ i, (w.lists i).buffer = some a
  unshared : ∀ i j a, (w.lists i).buffer = some a → (w.lists j).buffer = some a → i = j
  cells : ∀ i a, (w.lists i).buffer = some a → ∃ b, w.heap.block a = some b ∧ b.size = (ys i).length ∧
    ∀ (k : Nat) (hk : k < (ys i).length), b.cell k = .obj (ys i)[k]
  empty : ∀ i, (w.lists i).buffer = none → ys i = []
  count : ∀ i, (w.lists i).count = (ys i).length

theorem ArrayH.holds {w : ListWorld α} {ys : Nat → List (Option α)} (h : RepsBy ArrayH.Repr w ys) : ArrayH.Holds w ys := by
  obtain ⟨cs, hw, hp⟩ := h
  refine ⟨hw.owned, ?_, ?_, ?_, ?_⟩
  · intro i j a hi hj
    exact Classical.byContradiction fun hij => hw.disjoint i j a hij hi hj
  · intro i a hi
    have o := (hw.rel i).own.at'
    simp only [hi] at o
    have h1 := (hp i).2.size
    have h2 := (hp i).2.count
    simp only at h1 h2
    refine ⟨(cs i).buffer, o, by omega, ?_⟩
    intro k hk
    have := (hp i).2.live k (by omega) (by simp only; omega)
    simp only [Int.toNat_natCast, List.getElem?_eq_getElem hk, Option.getD_some] at this
    exact this
  · intro i hi
    have o := (hw.rel i).own.at'
    simp only [hi] at o
    have hs : (cs i).buffer.size = 0 := by rw [show (cs i).buffer = Block.null from o]; rfl
    have h1 := (hp i).2.size
    have h2 := (hp i).2.count
    simp only at h1 h2
    exact List.eq_nil_of_length_eq_zero (by omega)
  · intro i
    rw [show (w.lists i).count = (cs i).count from (hw.rel i).count]
    exact (hp i).2.count

/-- the program on the model -/
def arrays (mv : Option α → Option α) (eq : α → κ → Bool) (d : Option α) :
    Movable (ListWorld α) (Spec.ArrCall α κ) (Spec.SeqRet α) := ListWorld.movable (ArrayH.step mv eq d)

theorem arrays_sim (mv : Option α → Option α) (eq : α → κ → Bool) (d : Option α) :
    MoveSim (arrays mv eq d) (fun w ys => RepsBy ArrayH.Repr w ys ∧ ∀ n, (fun _ => True) (ys n)) ListWorld.Fresh
      (fun x op x' r => Spec.arrCall eq d x op = some (x', r)) (fun x op => Spec.arrCall eq d x op ≠ none) [] .error :=
  ListWorld.moveSim ArrayH.holding trivial (fun F s x op hr _ hv => ArrayH.step_refines mv eq d F s x op hr hv)

theorem arrays_empty : RepsBy ArrayH.Repr (ListWorld.empty : ListWorld α) (fun _ => []) :=
  ⟨_, Rel.empty, fun _ => ArrayH.holding.empty⟩

/-- **C78.** Every program over any number of arrays — construction by size or from a source, every member call, moves
between arrays and of an array to itself, destruction — for which the program over sequences is defined, that is, which
reads no element that was never given a value and constructs from no source that is too short: no undefined behaviour, the
results of the program over sequences (a moved-from array is empty), and afterwards the heap consists of exactly the
buffers of the arrays, which hold exactly their elements. -/
theorem C78_arrays (mv : Option α → Option α) (eq : α → κ → Bool) (d : Option α)
    (ops : List (Spec.MoveOp (Spec.ArrCall α κ))) (ys : Nat → List (Option α)) (rs : List (Spec.SeqRet α))
    (h : Spec.moveRun? (Spec.arrCall eq d) [] (.flag true) .error (fun _ => []) ops = some (ys, rs)) :
    ∃ w, (arrays mv eq d).run (.flag true) .error ListWorld.empty ops = some (w, rs) ∧ ArrayH.Holds w ys := by
  obtain ⟨hs, hd⟩ := Safe.of_moveRun? ops _ h
  obtain ⟨w, xs, qs, e, ⟨hr, _⟩, hm, _⟩ := (arrays_sim mv eq d).run (moved := .flag true) ops hs
    ⟨arrays_empty, fun _ => trivial⟩
  obtain ⟨rfl, rfl⟩ := hd _ _ hm
  exact ⟨w, e, ArrayH.holds hr⟩

/-- **C78.** When the program ends by destroying its arrays, nothing is left on the heap. -/
theorem C78_no_leak (mv : Option α → Option α) (eq : α → κ → Bool) (d : Option α)
    (ops : List (Spec.MoveOp (Spec.ArrCall α κ)))
    (h : Spec.moveRun? (Spec.arrCall eq d) [] (.flag true) .error (fun _ => []) ops ≠ none)
    (N : Nat) (hN : ∀ op ∈ ops, ∀ n, op.Mentions n → n < N) :
    ∃ w rs, (arrays mv eq d).run (.flag true) .error ListWorld.empty (ops ++ (List.range N).map .renew) = some (w, rs) ∧
      ∀ a, w.heap.block a = none := by
  obtain ⟨⟨ys, rs⟩, h⟩ := Option.ne_none_iff_exists'.1 h
  obtain ⟨w, rs, xs, e, ⟨hr, _⟩, hf⟩ := (arrays_sim mv eq d).run_renew (moved := .flag true) ops
    (Safe.of_moveRun? ops _ h).1 ⟨arrays_empty, fun _ => trivial⟩ (fun _ => rfl) N hN
  exact ⟨w, rs, e, hr.clean hf⟩

/-- The program over sequences is defined whenever the default constructor of the elements gives a value and every source
is long enough. -/
theorem C78_defined (eq : α → κ → Bool) (v : α) (ops : List (Spec.MoveOp (Spec.ArrCall α κ)))
    (hv : ∀ i src n, .call i (.createFrom src n) ∈ ops → n ≤ src.length) :
    Spec.moveRun? (Spec.arrCall eq (some v)) [] (.flag true) .error (fun _ => []) ops ≠ none := by
  suffices key : ∀ xs : Nat → List (Option α), (∀ n, ∀ y ∈ xs n, y ≠ none) →
      Spec.moveRun? (Spec.arrCall eq (some v)) [] (.flag true) .error xs ops ≠ none from
    key _ (fun _ y hy => by simp at hy)
  induction ops with
  | nil => intro xs _; simp [Spec.moveRun?]
  | cons op ops ih =>
    intro xs hx
    have hstep : ∃ xs' r, Spec.moveStep? (Spec.arrCall eq (some v)) [] (.flag true) .error xs op = some (xs', r) ∧
        ∀ n, ∀ y ∈ xs' n, y ≠ none := by
      have hmv : ∀ i j n, ∀ y ∈ (if n = j then [] else if n = i then xs j else xs n : List (Option α)), y ≠ none := by
        intro i j n y hy
        split at hy
        · simp at hy
        · split at hy
          · exact hx j y hy
          · exact hx n y hy
      cases op with
      | call i c =>
        have hc : ∃ ys r, Spec.arrCall eq (some v) (xs i) c = some (ys, r) ∧ ∀ y ∈ ys, y ≠ none := by
          cases c with
          | call op => exact arrStep_defined eq v (xs i) (hx i) op
          | create n =>
            by_cases hn : 0 ≤ n
            · exact ⟨List.replicate n.toNat (some v), .flag true, by simp [Spec.arrCall, hn],
                fun y hy => by rw [(List.mem_replicate.1 hy).2]; simp⟩
            · exact ⟨[], .error, by simp [Spec.arrCall, hn], fun y hy => by simp at hy⟩
          | createFrom src n =>
            by_cases hn : 0 ≤ n
            · have := hv i src n (by simp)
              exact ⟨(src.take n.toNat).map some, .flag true, by simp [Spec.arrCall, hn, this],
                fun y hy => by obtain ⟨z, _, rfl⟩ := List.mem_map.1 hy; simp⟩
            · exact ⟨[], .error, by simp [Spec.arrCall, hn], fun y hy => by simp at hy⟩
        obtain ⟨ys, r, e, hy⟩ := hc
        refine ⟨fun n => if n = i then ys else xs n, r, by simp only [Spec.moveStep?, e, Option.map_some], ?_⟩
        intro n y hm
        simp only at hm
        split at hm
        · exact hy y hm
        · exact hx n y hm
      | moveAssign i j => exact ⟨_, _, rfl, hmv i j⟩
      | moveConstruct i j =>
        by_cases hij : i = j
        · exact ⟨xs, .error, by simp [Spec.moveStep?, hij], hx⟩
        · exact ⟨_, .flag true, by simp only [Spec.moveStep?, if_neg hij], hmv i j⟩
      | renew i =>
        refine ⟨_, _, rfl, fun n y hm => ?_⟩
        split at hm
        · simp at hm
        · exact hx n y hm
    obtain ⟨xs', r, e, hx'⟩ := hstep
    have := ih (fun i src n h => hv i src n (by simp [h])) xs' hx'
    obtain ⟨⟨ys, rs⟩, h⟩ := Option.ne_none_iff_exists'.1 this
    simp [Spec.moveRun?, e, h]

/-- A program over arrays of a trivial type (new elements have no value): what it returns, how many buffers are live
afterwards, and how many after the variables are destroyed. -/
example :
    let ops : List (Spec.MoveOp (Spec.ArrCall Nat Nat)) :=
      [.call 0 (.create 2), .call 0 (.call (.set 0 5)), .call 0 (.call (.set 1 6)), .call 0 (.call (.resize 3)),
       .moveAssign 1 0, .call 0 (.call .count), .call 1 (.call (.get 1)), .call 2 (.createFrom [7, 8, 9] 2),
       .moveConstruct 0 2, .call 0 (.call (.indexOf 8)), .moveAssign 1 1, .call 1 (.call .count), .call 2 (.create (-1))]
    let M := arrays (κ := Nat) (fun _ => none) (· == ·) (none : Option Nat)
    let live := fun (w : ListWorld Nat) => ((List.range w.heap.next).filter fun a => (w.heap.block a).isSome).length
    (Spec.moveRun? (Spec.arrCall (κ := Nat) (· == ·) (none : Option Nat)) [] (.flag true) .error (fun _ => []) ops).map
      (fun p => p.2) = some [.flag true, .flag true, .flag true, .flag true, .flag true, .index 0, .value 6, .flag true,
        .flag true, .index 1, .flag true, .index 0, .error] ∧
    (M.run (.flag true) .error ListWorld.empty ops).map (fun p => live p.1) = some 1 ∧
    (M.run (.flag true) .error ListWorld.empty (ops ++ (List.range 3).map .renew)).map (fun p => live p.1) = some 0 := by
  refine ⟨by decide +kernel, by decide +kernel, by decide +kernel⟩

end Vlpp
