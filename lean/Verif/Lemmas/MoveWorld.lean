import Verif.Model.MoveWorld
import Verif.Lemmas.Refines

/-! # Programs over a family of movable objects do what programs over values do -/
set_option autoImplicit false
namespace Vlpp
variable {σ A Op Ret : Type}

/-- one value is replaced -/
def upd {A : Type} (xs : Nat → A) (i : Nat) (x : A) : Nat → A := fun n => if n = i then x else xs n

@[simp] theorem upd_self {xs : Nat → A} {i : Nat} {x : A} : upd xs i x i = x := by simp [upd]
theorem upd_ne {xs : Nat → A} {i n : Nat} {x : A} (h : n ≠ i) : upd xs i x n = xs n := by simp [upd, h]
theorem upd_eq {xs : Nat → A} {i : Nat} : upd xs i (xs i) = xs := by
  funext n; by_cases h : n = i <;> simp [upd, h]
theorem upd_upd {xs : Nat → A} {i : Nat} {x y : A} : upd (upd xs i x) i y = upd xs i y := by
  funext n; by_cases h : n = i <;> simp [upd, h]

/-- the value of `j` is moved to `i` -/
def movedTo {A : Type} (empty : A) (xs : Nat → A) (i j : Nat) : Nat → A :=
  fun n => if n = j then empty else if n = i then xs j else xs n

/-- Every call of the program is valid when it is reached. -/
def Safe (Step : A → Op → A → Ret → Prop) (Valid : A → Op → Prop) (empty : A) (moved error : Ret) :
    (Nat → A) → List (Spec.MoveOp Op) → Prop
  | _, [] => True
  | xs, op :: ops => (∀ i o, op = .call i o → Valid (xs i) o) ∧
    ∀ xs' r, Spec.MoveStep Step empty moved error xs op xs' r → Safe Step Valid empty moved error xs' ops

theorem Safe.of_forall {Step : A → Op → A → Ret → Prop} {Valid : A → Op → Prop} {empty : A} {moved error : Ret}
    (ops : List (Spec.MoveOp Op)) (h : ∀ i o, .call i o ∈ ops → ∀ x, Valid x o) (xs : Nat → A) :
    Safe Step Valid empty moved error xs ops := by
  induction ops generalizing xs with
  | nil => trivial
  | cons op ops ih =>
    exact ⟨fun i o e => h i o (by simp [e]) _, fun xs' _ _ => ih (fun i o hm => h i o (by simp [hm])) xs'⟩

/-- a program over operations that can be undefined, when it is not -/
theorem Safe.of_moveRun? {step : A → Op → Option (A × Ret)} {empty : A} {moved error : Ret}
    (ops : List (Spec.MoveOp Op)) (xs : Nat → A) {xs' : Nat → A} {rs : List Ret}
    (h : Spec.moveRun? step empty moved error xs ops = some (xs', rs)) :
    Safe (fun x op x' r => step x op = some (x', r)) (fun x op => step x op ≠ none) empty moved error xs ops ∧
    ∀ ys qs, Spec.MoveRun (fun x op x' r => step x op = some (x', r)) empty moved error xs ops ys qs → ys = xs' ∧ qs = rs := by
  induction ops generalizing xs rs with
  | nil =>
    cases h
    refine ⟨trivial, fun ys qs hm => ?_⟩
    cases hm
    exact ⟨rfl, rfl⟩
  | cons op ops ih =>
    simp only [Spec.moveRun?, Option.bind_eq_bind, Option.bind_eq_some_iff] at h
    obtain ⟨⟨xs1, r1⟩, e1, ⟨xs2, rs2⟩, e2, e3⟩ := h
    simp only [Option.pure_def, Option.some.injEq, Prod.mk.injEq] at e3
    obtain ⟨rfl, rfl⟩ := e3
    have det : ∀ ys q, Spec.MoveStep (fun x op x' r => step x op = some (x', r)) empty moved error xs op ys q →
        ys = xs1 ∧ q = r1 := by
      intro ys q hm
      cases hm with
      | call i op x r hs =>
        simp only [Spec.moveStep?, hs, Option.map_some, Option.some.injEq, Prod.mk.injEq] at e1
        exact ⟨e1.1, e1.2⟩
      | moveAssign i j => simp only [Spec.moveStep?, Option.some.injEq, Prod.mk.injEq] at e1; exact ⟨e1.1, e1.2⟩
      | refused i => simp [Spec.moveStep?] at e1; exact ⟨e1.1, e1.2⟩
      | moveConstruct i j hij =>
        simp only [Spec.moveStep?, if_neg hij, Option.some.injEq, Prod.mk.injEq] at e1; exact ⟨e1.1, e1.2⟩
      | renew i => simp only [Spec.moveStep?, Option.some.injEq, Prod.mk.injEq] at e1; exact ⟨e1.1, e1.2⟩
    obtain ⟨i1, i2⟩ := ih xs1 e2
    refine ⟨⟨?_, ?_⟩, ?_⟩
    · rintro i o rfl hn
      simp [Spec.moveStep?, hn] at e1
    · intro ys q hm
      rw [(det ys q hm).1]; exact i1
    · intro ys qs hm
      cases hm with
      | cons h1 h2 =>
        obtain ⟨rfl, rfl⟩ := det _ _ h1
        obtain ⟨rfl, rfl⟩ := i2 _ _ h2
        exact ⟨rfl, rfl⟩

/-- The memory `w` contains objects with the values `xs`; `Fresh w n`: variable `n` holds nothing. -/
structure MoveSim (M : Movable σ Op Ret) (R : σ → (Nat → A) → Prop) (Fresh : σ → Nat → Prop)
    (Step : A → Op → A → Ret → Prop) (Valid : A → Op → Prop) (empty : A) (error : Ret) : Prop where
  call : ∀ w xs i op, R w xs → Valid (xs i) op →
    (∃ w' x' r, M.call i op w = .ok r w' ∧ R w' (upd xs i x') ∧ Step (xs i) op x' r ∧ ∀ n, n ≠ i → Fresh w n → Fresh w' n) ∨
    (∃ w' x', M.call i op w = .err w' ∧ R w' (upd xs i x') ∧ Step (xs i) op x' error ∧ ∀ n, n ≠ i → Fresh w n → Fresh w' n)
  moveAssign : ∀ w xs i j, R w xs → ∃ w', M.moveAssign i j w = .ok () w' ∧ R w' (movedTo empty xs i j) ∧
    ∀ n, n ≠ i → n ≠ j → Fresh w n → Fresh w' n
  moveConstruct : ∀ w xs i j, i ≠ j → R w xs → Fresh w i → ∃ w', M.moveConstruct i j w = .ok () w' ∧
    R w' (movedTo empty xs i j) ∧ ∀ n, n ≠ i → n ≠ j → Fresh w n → Fresh w' n
  renew : ∀ w xs i, R w xs → ∃ w', M.renew i w = .ok () w' ∧ R w' (upd xs i empty) ∧ Fresh w' i ∧
    ∀ n, Fresh w n → Fresh w' n

namespace MoveSim
variable {M : Movable σ Op Ret} {R : σ → (Nat → A) → Prop} {Fresh : σ → Nat → Prop} {Step : A → Op → A → Ret → Prop}
  {Valid : A → Op → Prop} {empty : A} {moved error : Ret} (h : MoveSim M R Fresh Step Valid empty error)
include h

theorem step {w : σ} {xs : Nat → A} (hR : R w xs) (op : Spec.MoveOp Op) (hv : ∀ i o, op = .call i o → Valid (xs i) o) :
    ∃ w' xs' r, M.step moved error w op = some (w', r) ∧ R w' xs' ∧ Spec.MoveStep Step empty moved error xs op xs' r ∧
      (∀ n, Fresh w n → ¬ op.Mentions n → Fresh w' n) ∧ (∀ i, op = .renew i → Fresh w' i ∧ ∀ n, Fresh w n → Fresh w' n) := by
  cases op with
  | call i op =>
    rcases h.call w xs i op hR (hv i op rfl) with ⟨w', x', r, e, hR', hs, hf⟩ | ⟨w', x', e, hR', hs, hf⟩
    · exact ⟨w', _, r, by simp [Movable.step, e, Movable.observe], hR', .call i op x' r hs, fun n hn hm => hf n hm hn,
        fun _ h => by cases h⟩
    · exact ⟨w', _, error, by simp [Movable.step, e, Movable.observe], hR', .call i op x' error hs,
        fun n hn hm => hf n hm hn, fun _ h => by cases h⟩
  | moveAssign i j =>
    obtain ⟨w', e, hR', hf⟩ := h.moveAssign w xs i j hR
    refine ⟨w', _, moved, ?_, hR', .moveAssign i j, ?_, fun _ h => by cases h⟩
    · simp only [Movable.step]
      rw [Cpp.bind_ok e]; rfl
    · intro n hn hm
      simp only [Spec.MoveOp.Mentions, not_or] at hm
      exact hf n hm.1 hm.2 hn
  | moveConstruct i j =>
    by_cases hij : i = j
    · subst hij
      exact ⟨w, xs, error, by simp [Movable.step], hR, .refused i, fun n hn _ => hn, fun _ h => by cases h⟩
    · obtain ⟨w1, e1, hR1, hf1, hg1⟩ := h.renew w xs i hR
      obtain ⟨w', e, hR', hf⟩ := h.moveConstruct w1 _ i j hij hR1 hf1
      refine ⟨w', _, moved, ?_, hR', ?_, ?_, fun _ h => by cases h⟩
      · simp only [Movable.step, if_neg hij]
        rw [Cpp.bind_ok e1, Cpp.bind_ok e]; rfl
      · have : movedTo empty (upd xs i empty) i j = movedTo empty xs i j := by
          funext n
          unfold movedTo upd
          by_cases h1 : n = j
          · simp [h1]
          · by_cases h2 : n = i
            · simp [h2, Ne.symm hij]
            · simp [h1, h2]
        rw [this]
        exact .moveConstruct i j hij
      · intro n hn hm
        simp only [Spec.MoveOp.Mentions, not_or] at hm
        exact hf n hm.1 hm.2 (hg1 n hn)
  | renew i =>
    obtain ⟨w', e, hR', hf, hg⟩ := h.renew w xs i hR
    refine ⟨w', _, moved, ?_, hR', .renew i, fun n hn _ => hg n hn, ?_⟩
    · simp only [Movable.step]
      rw [Cpp.bind_ok e]; rfl
    · intro k hk; cases hk; exact ⟨hf, hg⟩

theorem run (ops : List (Spec.MoveOp Op)) {w : σ} {xs : Nat → A} (hv : Safe Step Valid empty moved error xs ops) (hR : R w xs) :
    ∃ w' xs' rs, M.run moved error w ops = some (w', rs) ∧ R w' xs' ∧ Spec.MoveRun Step empty moved error xs ops xs' rs ∧
      (∀ n, Fresh w n → (∀ op ∈ ops, ¬ op.Mentions n) → Fresh w' n) := by
  induction ops generalizing w xs with
  | nil => exact ⟨w, xs, [], rfl, hR, .nil _, fun n hn _ => hn⟩
  | cons op ops ih =>
    obtain ⟨w1, xs1, r, e1, hR1, s1, f1, _⟩ := h.step (moved := moved) hR op hv.1
    obtain ⟨w2, xs2, rs, e2, hR2, s2, f2⟩ := ih (hv.2 _ _ s1) hR1
    refine ⟨w2, xs2, r :: rs, by simp [Movable.run, e1, e2], hR2, .cons s1 s2, ?_⟩
    intro n hn hm
    exact f2 n (f1 n hn (hm op (by simp))) fun o ho => hm o (by simp [ho])

omit h in
theorem run_append (M : Movable σ Op Ret) (ops ops' : List (Spec.MoveOp Op)) (w : σ) :
    M.run moved error w (ops ++ ops') = (M.run moved error w ops).bind fun p =>
      (M.run moved error p.1 ops').map fun q => (q.1, p.2 ++ q.2) := by
  induction ops generalizing w with
  | nil =>
    show M.run moved error w ops' = Option.map _ (M.run moved error w ops')
    cases M.run moved error w ops' <;> rfl
  | cons op ops ih =>
    show (M.step moved error w op).bind _ = ((M.step moved error w op).bind _).bind _
    cases M.step moved error w op with
    | none => rfl
    | some p =>
      show (M.run moved error p.1 (ops ++ ops')).bind _ = ((M.run moved error p.1 ops).bind _).bind _
      rw [ih]
      cases M.run moved error p.1 ops with
      | none => rfl
      | some q =>
        show ((M.run moved error q.1 ops').map _).bind _ = (M.run moved error q.1 ops').map _
        cases M.run moved error q.1 ops' <;> rfl

/-- After the variables are destroyed all of them are fresh. -/
theorem renew_all (N : Nat) {w : σ} {xs : Nat → A} (hR : R w xs) (hN : ∀ n, N ≤ n → Fresh w n) :
    ∃ w' rs xs', M.run moved error w ((List.range N).map .renew) = some (w', rs) ∧ R w' xs' ∧ ∀ n, Fresh w' n := by
  have key : ∀ K, ∃ w' rs xs', M.run moved error w ((List.range K).map .renew) = some (w', rs) ∧ R w' xs' ∧
      ∀ n, n < K ∨ Fresh w n → Fresh w' n := by
    intro K
    induction K with
    | zero => exact ⟨w, [], xs, rfl, hR, fun n h => by rcases h with h | h; cases h; exact h⟩
    | succ K ih =>
      obtain ⟨w1, rs, xs1, e1, hR1, h1⟩ := ih
      obtain ⟨w2, xs2, r, e2, hR2, _, _, hf⟩ := h.step (moved := moved) hR1 (.renew K) (fun _ _ h => by cases h)
      obtain ⟨f1, f2⟩ := hf K rfl
      refine ⟨w2, rs ++ [r], xs2, ?_, hR2, ?_⟩
      · rw [List.range_succ, List.map_append, run_append, e1]
        simp [Movable.run, e2]
      · intro n hn
        by_cases hk : n = K
        · rw [hk]; exact f1
        · exact f2 n (h1 n (by rcases hn with hn | hn; exact .inl (by omega); exact .inr hn))
  obtain ⟨w', rs, xs', e, hR', hf⟩ := key N
  exact ⟨w', rs, xs', e, hR', fun n => hf n (by rcases Nat.lt_or_ge n N with h | h; exact .inl h; exact .inr (hN n h))⟩

/-- a program that ends by destroying its variables -/
theorem run_renew (ops : List (Spec.MoveOp Op)) {w : σ} {xs : Nat → A} (hv : Safe Step Valid empty moved error xs ops) (hR : R w xs)
    (hfresh : ∀ n, Fresh w n) (N : Nat) (hN : ∀ op ∈ ops, ∀ n, op.Mentions n → n < N) :
    ∃ w' rs xs', M.run moved error w (ops ++ (List.range N).map .renew) = some (w', rs) ∧ R w' xs' ∧ ∀ n, Fresh w' n := by
  obtain ⟨w1, xs1, rs, e, hR1, _, hu⟩ := h.run (moved := moved) ops hv hR
  obtain ⟨w', rs', xs', e', hR', h'⟩ := h.renew_all (moved := moved) N hR1
    (fun n hn => hu n (hfresh n) fun op ho hm => by have := hN op ho n hm; omega)
  exact ⟨w', rs ++ rs', xs', by rw [run_append, e]; simp [e'], hR', h'⟩

end MoveSim
end Vlpp
