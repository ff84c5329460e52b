import Verif.Spec.ForEach
import Verif.Props.LazyProps

/-! # Property C75: the range-based `for` loop -/
set_option autoImplicit false
namespace Vlpp
namespace ForEach
open Spec.For
variable {α β γ : Type}

theorem yieldsThen_of_yields {L : LazyList.{0, 0} α} {xs : List α} (h : L.Yields xs) : L.YieldsThen false xs := by
  obtain ⟨s, e, hd⟩ := h
  refine ⟨s, e, ?_⟩
  clear e
  revert hd
  generalize (0 : Int) = i
  intro hd
  induction xs generalizing s i with
  | nil => obtain ⟨s', h', _⟩ := hd 1; exact ⟨s', h'⟩
  | cons x xs ih => obtain ⟨s', h1, h2, _, h3⟩ := hd; exact ⟨s', h1, h2, ih s' _ h3⟩

theorem set_last (l : List Bool) (n : Nat) (b : Bool) :
    (l ++ b :: List.replicate n false).set l.length false = l ++ List.replicate (n + 1) false := by
  rw [List.set_append_right _ _ (Nat.le_refl _)]
  simp [List.replicate_succ]

theorem alive_at (l r : List Bool) : (l ++ true :: r)[l.length]? = some true := by simp

theorem alive_at' (l r r' : List Bool) : (l ++ true :: r ++ r')[l.length]? = some true := by simp

theorem delete_at (l : List Bool) (n k : Nat) (u : β) :
    World.delete ⟨l ++ true :: List.replicate n false ++ List.replicate k false, u⟩ l.length =
      some ⟨l ++ List.replicate (n + k + 1) false, u⟩ := by
  simp only [World.delete, alive_at', if_true]
  rw [List.append_assoc, List.cons_append, List.replicate_append_replicate, set_last]

theorem loop_does {A : Ator.{0, 0} α} {body : α → Int → World β → Option (Outcome (World β) Bool)}
    {f : α → Int → β → Option (Outcome β Bool)} (hb : ∀ x i, Does (body x i) (f x i)) (fails : Bool)
    (xs : List α) (x : α) (s : A.σ) (i : Int) (u : β) (l : List Bool) (n : Nat) (hc : A.current s = some x)
    (hd : A.DeliversThen fails s xs) :
    Ends l (loop A body ⟨some (l.length, s), i⟩ ⟨l ++ true :: List.replicate n false, u⟩)
      (each f fails (x :: xs) i u) := by
  induction xs generalizing x s i u n with
  | nil =>
    have hbw := hb x i ⟨l ++ true :: List.replicate n false, u⟩
    obtain ⟨s', hn⟩ := hd
    rw [loop]
    simp only [notEnd, deref, alive_at, hc, each, Option.isSome_some, if_true, Option.map_some]
    cases hf : f x i u with
    | none => simp only [hf, Ends] at hbw ⊢; rw [hbw]
    | some r =>
      cases r with
      | fault => simp only [hf, Ends] at hbw ⊢; rw [hbw]
      | err u' =>
        simp only [hf, Ends] at hbw ⊢
        obtain ⟨k, e⟩ := hbw
        rw [e]
        refine ⟨n + k + 1, ?_⟩
        simp only [leave, destroy, delete_at]
      | ok b u' =>
        simp only [hf, Ends] at hbw ⊢
        obtain ⟨k, e⟩ := hbw
        rw [e]
        cases b with
        | false =>
          refine ⟨n + k + 1, ?_⟩
          simp only [leave, destroy, delete_at]
        | true =>
          cases fails with
          | true =>
            refine ⟨n + k + 1, ?_⟩
            simp only [increment, hn, alive_at', if_true, Option.map_some, leave, destroy, delete_at]
          | false =>
            refine ⟨n + k + 1, ?_⟩
            simp only [increment, hn, alive_at', if_true, delete_at, Option.map_some, Bool.false_eq_true, if_false]
            rw [loop]
            rfl
  | cons y xs ih =>
    have hbw := hb x i ⟨l ++ true :: List.replicate n false, u⟩
    obtain ⟨s', hn, hc', hd'⟩ := hd
    rw [loop, each]
    simp only [notEnd, deref, alive_at, hc, Option.isSome_some, if_true, Option.map_some]
    cases hf : f x i u with
    | none => simp only [hf, Ends] at hbw ⊢; rw [hbw]
    | some r =>
      cases r with
      | fault => simp only [hf, Ends] at hbw ⊢; rw [hbw]
      | err u' =>
        simp only [hf, Ends] at hbw ⊢
        obtain ⟨k, e⟩ := hbw
        rw [e]
        refine ⟨n + k + 1, ?_⟩
        simp only [leave, destroy, delete_at]
      | ok b u' =>
        simp only [hf, Ends] at hbw ⊢
        obtain ⟨k, e⟩ := hbw
        rw [e]
        cases b with
        | false =>
          refine ⟨n + k + 1, ?_⟩
          simp only [leave, destroy, delete_at]
        | true =>
          simp only [increment, hn, List.append_assoc, List.cons_append, alive_at, if_true,
            Option.map_some, List.replicate_append_replicate]
          exact ih y s' (i + 1) u' (n + k) hc' hd'

end ForEach

open ForEach Spec.For
variable {α β γ : Type}

/-- **C75, partial.** For every enumerable, every body and every way to leave the loop (end of the elements, `break`,
an exception in the body, an Error in `Next`): the body runs once for each element, in order, with its position, until
the loop is left; and every enumerator created by the loop and in it is deleted exactly once.  As the statement is about
any body that cleans up after itself, it applies to nested loops.
Missing (false, see `C75_violated`): an Error in the first call of `Next`. -/
theorem C75_forEach_partial (L : LazyList.{0, 0} α) (fails : Bool) (xs : List α) (h : L.YieldsThen fails xs)
    (hok : fails = true → xs ≠ []) (body : α → Int → World β → Option (Outcome (World β) Bool))
    (f : α → Int → β → Option (Outcome β Bool)) (hb : ∀ x i, Does (body x i) (f x i)) :
    Does (forEach L body) (each f fails xs 0) := by
  obtain ⟨s, e, hd⟩ := h
  intro w
  cases xs with
  | nil =>
    cases fails with
    | true => exact absurd rfl (hok rfl)
    | false =>
      obtain ⟨s', hn⟩ := hd
      refine ⟨1, ?_⟩
      have hset : (w.alive ++ [true]).set w.alive.length false = w.alive ++ [false] := set_last w.alive 0 true
      simp only [forEach, construct, e, increment, hn, World.delete, alive_at, if_true, Option.map_some,
        Bool.false_eq_true, if_false, hset]
      rw [loop]
      rfl
  | cons x xs =>
    obtain ⟨s', hn, hc, hd'⟩ := hd
    have := loop_does hb fails xs x s' 0 w.user w.alive 0 hc hd'
    simp only [forEach, construct, e, increment, hn, alive_at, if_true, Option.map_some,
      show (-1 : Int) + 1 = 0 from rfl]
    exact this

/-- **C75** for everything that can be built from containers by functions of lazy lists. -/
theorem C75_pipe (p : Pipe α) (hp : p.Ok) (body : α → Int → World β → Option (Outcome (World β) Bool))
    (f : α → Int → β → Option (Outcome β Bool)) (hb : ∀ x i, Does (body x i) (f x i)) :
    ∃ L, p.build = some (.ok L ()) ∧ Does (forEach L body) (each f false p.eval 0) := by
  obtain ⟨L, e, hL⟩ := Pipe.shows hp
  exact ⟨L, e, C75_forEach_partial L false p.eval (yieldsThen_of_yields hL) (by simp) body f hb⟩

/-- **C75 is violated** if the first `Next` raises an Error: the iterator is not constructed yet, nobody deletes the
enumerator. -/
theorem C75_violated (L : LazyList.{0, 0} α) (s s' : L.A.σ) (hc : L.create = some s)
    (hn : L.A.next s = some (.err s')) (body : α → Int → World β → Option (Outcome (World β) Bool)) (w : World β) :
    forEach L body w = some (.err ⟨w.alive ++ [true], w.user⟩) := by
  simp [forEach, construct, hc, increment, hn]

/-- `for (auto y : From(xs).Select(f))` where `f` raises an Error for the first element leaks the enumerator. -/
theorem C75_violated_select (x : α) (xs : List α) (f : α → Option γ) (hf : f x = none)
    (body : γ → Int → World β → Option (Outcome (World β) Bool)) (w : World β) :
    ∃ L, (LazyList.ofList (x :: xs)).select? f = some L ∧
      forEach L body w = some (.err ⟨w.alive ++ [true], w.user⟩) := by
  refine ⟨⟨.select (.list (x :: xs)) f, ((-1 : Int), none)⟩, rfl, ?_⟩
  refine C75_violated _ ((-1 : Int), none) ((0 : Int), none) rfl ?_ body w
  have hv : Ator.valueOf (SeqList.get 0 (x :: xs)) = some x := by
    have := SeqList.get_ok (xs := x :: xs) (i := 0) (by simp)
    simp only [Ator.valueOf, Int.natCast_zero] at this ⊢
    rw [this]; rfl
  simp [Ator.select, Ator.list, hv, hf]

/-- A selector that raises an Error at a later element: the enumerator delivers the results before it and then fails,
as in `C75_forEach_partial`. -/
theorem yieldsThen_select (xs ys : List α) (x : α) (f : α → Option γ) (g : α → γ) (hg : ∀ y ∈ xs, f y = some (g y))
    (hf : f x = none) :
    ∃ L, (LazyList.ofList (xs ++ x :: ys)).select? f = some L ∧ L.YieldsThen true (xs.map g) := by
  refine ⟨⟨.select (.list (xs ++ x :: ys)) f, ((-1 : Int), none)⟩, rfl, ((-1 : Int), none), rfl, ?_⟩
  have key : ∀ (post pre : List α) (c : Option γ), xs = pre ++ post →
      (Ator.select (.list (xs ++ x :: ys)) f).DeliversThen true ((pre.length : Int) - 1, c) (post.map g) := by
    intro post
    induction post with
    | nil =>
      intro pre c e
      refine ⟨((pre.length : Int), c), ?_⟩
      have hv : Ator.valueOf (SeqList.get (pre.length : Int) (xs ++ x :: ys)) = some x := by
        rw [SeqList.get_ok (by simp [e])]
        simp [Ator.valueOf, e]
      have h1 : (pre.length : Int) - 1 + 1 = pre.length := by omega
      have hdec : decide ((pre.length : Int) ≥ 0 ∧ (pre.length : Int) < (xs ++ x :: ys).length) = true := by
        rw [decide_eq_true_eq]
        simp only [e, List.length_append, List.length_cons]
        omega
      simp only [Ator.select, Ator.list, h1, hdec, hv, hf, Option.map_some, if_true]
    | cons y post ih =>
      intro pre c e
      have hv : Ator.valueOf (SeqList.get (pre.length : Int) (xs ++ x :: ys)) = some y := by
        rw [SeqList.get_ok (by simp [e])]
        simp [Ator.valueOf, e]
      have h1 : (pre.length : Int) - 1 + 1 = pre.length := by omega
      refine ⟨((pre.length : Int), some (g y)), ?_, rfl, ?_⟩
      · have hdec : decide ((pre.length : Int) ≥ 0 ∧ (pre.length : Int) < (xs ++ x :: ys).length) = true := by
          rw [decide_eq_true_eq]
          simp only [e, List.length_append, List.length_cons]
          omega
        simp only [Ator.select, Ator.list, h1, hdec, hv, hg y (by simp [e]), Option.map_some]
      · have := ih (pre ++ [y]) (some (g y)) (by simp [e])
        have h2 : ((pre ++ [y]).length : Int) - 1 = pre.length := by
          simp only [List.length_append, List.length_cons, List.length_nil]
          omega
        exact Eq.mp (congrArg (fun k : Int =>
          (Ator.select (.list (xs ++ x :: ys)) f).DeliversThen true (k, some (g y)) (post.map g)) h2) this
  exact key xs [] none rfl

/-- the hypotheses of `C75_forEach_partial` with an Error in the third call of `Next` -/
example : ∃ L, (LazyList.ofList [1, 2, 0, 5]).select? (fun x : Int => if x = 0 then none else some (10 / x)) = some L ∧
    ∀ w : World Int, ∃ n,
      forEach L (fun y i w => some (.ok true ⟨w.alive, w.user + y * i⟩)) w =
        some (.err ⟨w.alive ++ List.replicate n false, w.user + 10 * 0 + 5 * 1⟩) := by
  obtain ⟨L, e, h⟩ := yieldsThen_select [1, 2] [5] 0 (fun x : Int => if x = 0 then none else some (10 / x))
    (fun x => 10 / x) (by simp) rfl
  exact ⟨L, e, fun w => C75_forEach_partial L true _ h (by simp) _
    (fun y i (u : Int) => some (.ok true (u + y * i))) (fun y i w => ⟨0, by simp⟩) w⟩

/-- `break` at the second element -/
example (w : World Int) : ∃ n,
    forEach (.ofList [7, 8, 9]) (fun y i w => some (.ok (i == 0) ⟨w.alive, w.user + y⟩)) w =
      some (.ok () ⟨w.alive ++ List.replicate n false, w.user + 7 + 8⟩) :=
  C75_forEach_partial (.ofList [7, 8, 9]) false _ (yieldsThen_of_yields (LazyList.holds_ofList [7, 8, 9]).yields)
    (by simp) _ (fun y i (u : Int) => some (.ok (i == 0) (u + y))) (fun y i w => ⟨0, by simp⟩) w

/-- the sum of the products `x * y` with the indices: `for (auto x : [2, 3]) for (auto [y, i] : indexed([4, 5]))
sum += x * y + i;` -/
def forExample : World Int → Option (Outcome (World Int) Unit) :=
  forEach (.ofList [2, 3]) fun x _ w =>
    (forEach (.ofList [4, 5]) (fun y i w => some (.ok true ⟨w.alive, w.user + (x * y + i)⟩)) w).map fun r =>
      match r with
      | .ok _ w => .ok true w
      | .err w => .err w
      | .fault => .fault

/-- two nested loops, by applying the theorem twice -/
example (w : World Int) : ∃ n, forExample w = some (.ok () ⟨w.alive ++ List.replicate n false, w.user + 47⟩) := by
  have inner (x : Int) := C75_forEach_partial (.ofList [4, 5]) false [4, 5]
    (yieldsThen_of_yields (LazyList.holds_ofList [4, 5]).yields) (by simp)
    (fun (y : Int) i (w : World Int) => some (.ok true ⟨w.alive, w.user + (x * y + i)⟩))
    (fun y i u => some (.ok true (u + (x * y + i)))) (fun y i w => ⟨0, by simp⟩)
  have := C75_forEach_partial (.ofList [2, 3]) false [2, 3]
    (yieldsThen_of_yields (LazyList.holds_ofList [2, 3]).yields) (by simp) (β := Int)
    (fun (x : Int) _ (w : World Int) =>
      (forEach (.ofList [4, 5]) (fun y i w => some (.ok true ⟨w.alive, w.user + (x * y + i)⟩)) w).map fun r =>
        match r with
        | .ok _ w => .ok true w
        | .err w => .err w
        | .fault => .fault)
    (fun x _ u => some (.ok true (u + (x * 4 + 0) + (x * 5 + 1)))) (by
      intro x i w
      obtain ⟨n, h⟩ := inner x w
      refine ⟨n, ?_⟩
      simp [h])
  obtain ⟨n, h⟩ := this w
  refine ⟨n, ?_⟩
  rw [forExample, h]
  simp only [Option.some.injEq, Outcome.ok.injEq, World.mk.injEq, true_and]
  omega

end Vlpp
