import Verif.Model.Ator

/-!
# Specification: what it means that an enumerator enumerates a sequence

`Delivers` is the observable statement: calling `Next` again and again.  `Contract` is the same as an invariant on
the states of the enumerator: `R s ys zs` says that in state `s` the elements `ys` have been delivered and `zs` are
still to come; `D s` says that the end has been reported.
-/
set_option autoImplicit false
namespace Vlpp
universe u v
variable {α : Type u}

/-- `Next` returns false the next `n` times it is called. -/
def Ator.SilentFor (A : Ator.{u, v} α) : Nat → A.σ → Prop
  | 0, _ => True
  | n + 1, s => ∃ s', A.next s = some (.ok false s') ∧ A.SilentFor n s'

/-- Starting in state `s`, successive calls of `Next` return true once for each element of the list, `Current()` is
then that element and `Index()` counts up from `i`; afterwards `Next` returns false, forever. -/
def Ator.Delivers (A : Ator.{u, v} α) (s : A.σ) (i : Int) : List α → Prop
  | [] => ∀ n, A.SilentFor n s
  | x :: xs => ∃ s', A.next s = some (.ok true s') ∧ A.current s' = some x ∧ A.index s' = i ∧ A.Delivers s' (i + 1) xs

/-- An enumerator class that enumerates `xs`; `i0` is what `Index()` returns before the first `Next`. -/
structure Ator.Contract (A : Ator.{u, v} α) (xs : List α) (i0 : Int) where
  /-- `ys` has been delivered, `zs` is still to come -/
  R : A.σ → List α → List α → Prop
  /-- the end has been reported -/
  D : A.σ → Prop
  start : i0 ≤ -1
  split : ∀ {s ys zs}, R s ys zs → ys ++ zs = xs
  index : ∀ {s ys zs}, R s ys zs → A.index s = if ys.length = 0 then i0 else (ys.length : Int) - 1
  current : ∀ {s ys zs}, R s ys zs → ∀ y, ys.getLast? = some y → A.current s = some y
  step : ∀ {s ys z zs}, R s ys (z :: zs) → ∃ s', A.next s = some (.ok true s') ∧ R s' (ys ++ [z]) zs
  stop : ∀ {s ys}, R s ys [] → ∃ s', A.next s = some (.ok false s') ∧ D s'
  dead : ∀ {s}, D s → ∃ s', A.next s = some (.ok false s') ∧ D s'
  /-- an enumerator that has not been used can be cloned -/
  fresh : ∀ {s zs}, R s [] zs → ∃ s', A.clone s = some s' ∧ R s' [] zs

namespace Ator.Contract
variable {A : Ator.{u, v} α} {xs : List α} {i0 : Int}

/-- `Reset()` goes back to the beginning, from every state. -/
structure Resets (c : A.Contract xs i0) : Prop where
  live : ∀ {s ys zs}, c.R s ys zs → ∃ s', A.reset s = .ok () s' ∧ c.R s' [] xs
  dead : ∀ {s}, c.D s → ∃ s', A.reset s = .ok () s' ∧ c.R s' [] xs

/-- `Clone()` gives an enumerator in the same position, in every state. -/
structure Clones (c : A.Contract xs i0) : Prop where
  live : ∀ {s ys zs}, c.R s ys zs → ∃ s', A.clone s = some s' ∧ c.R s' ys zs
  dead : ∀ {s}, c.D s → ∃ s', A.clone s = some s' ∧ c.D s'

theorem silent (c : A.Contract xs i0) {s : A.σ} (h : c.D s) (n : Nat) : A.SilentFor n s := by
  induction n generalizing s with
  | zero => trivial
  | succ n ih =>
    obtain ⟨s', e, h'⟩ := c.dead h
    exact ⟨s', e, ih h'⟩

/-- The invariant implies the observable statement. -/
theorem delivers (c : A.Contract xs i0) {s : A.σ} {ys zs : List α} (h : c.R s ys zs) : A.Delivers s ys.length zs := by
  induction zs generalizing s ys with
  | nil =>
    intro n
    cases n with
    | zero => trivial
    | succ n =>
      obtain ⟨s', e, h'⟩ := c.stop h
      exact ⟨s', e, c.silent h' n⟩
  | cons z zs ih =>
    obtain ⟨s', e, h'⟩ := c.step h
    refine ⟨s', e, c.current h' z (by simp), ?_, ?_⟩
    · rw [c.index h']; simp
    · have := ih h'
      simpa using this

end Ator.Contract
end Vlpp

namespace Vlpp
universe u v
variable {α : Type u}

/-- What the owner of an enumerator can do with it; after `clone` the owner goes on with the clone. -/
inductive EnumOp where
  | next
  | reset
  | clone

/-- Run a script on an enumerator.  Every `Next` is recorded: `none` if it returned false, otherwise what `Current()`
and `Index()` return afterwards.  The result is `none` if any call raises an Error, is undefined or does not return. -/
def Ator.runOps (A : Ator.{u, v} α) : List EnumOp → A.σ → Option (List (Option (α × Int)))
  | [], _ => some []
  | .next :: ops, s =>
    match A.next s with
    | some (.ok true s') =>
      match A.current s' with
      | some x => (A.runOps ops s').map (some (x, A.index s') :: ·)
      | none => none
    | some (.ok false s') => (A.runOps ops s').map (none :: ·)
    | _ => none
  | .reset :: ops, s =>
    match A.reset s with
    | .ok _ s' => A.runOps ops s'
    | _ => none
  | .clone :: ops, s =>
    match A.clone s with
    | some s' => A.runOps ops s'
    | none => none

/-- The same script on a cursor in a list; `none` is the cursor behind the end. -/
def Spec.cursorRun (xs : List α) : List EnumOp → Option Nat → List (Option (α × Int))
  | [], _ => []
  | .next :: ops, some k =>
    match xs[k]? with
    | some x => some (x, (k : Int)) :: Spec.cursorRun xs ops (some (k + 1))
    | none => none :: Spec.cursorRun xs ops none
  | .next :: ops, none => none :: Spec.cursorRun xs ops none
  | .reset :: ops, _ => Spec.cursorRun xs ops (some 0)
  | .clone :: ops, k => Spec.cursorRun xs ops k

/-- An enumerator that resets and clones in every state behaves like a cursor under every script. -/
theorem Ator.Contract.runOps {A : Ator.{u, v} α} {xs : List α} {i0 : Int} (c : A.Contract xs i0) (hr : c.Resets)
    (hc : c.Clones) (ops : List EnumOp) (s : A.σ) :
    (∀ ys zs, c.R s ys zs → A.runOps ops s = some (Spec.cursorRun xs ops (some ys.length))) ∧
    (c.D s → A.runOps ops s = some (Spec.cursorRun xs ops none)) := by
  induction ops generalizing s with
  | nil => exact ⟨fun _ _ _ => rfl, fun _ => rfl⟩
  | cons op ops ih =>
    cases op with
    | next =>
      constructor
      · intro ys zs h
        cases zs with
        | nil =>
          obtain ⟨s', e, h'⟩ := c.stop h
          have hx : xs[ys.length]? = none := by rw [← c.split h]; simp
          simp [Ator.runOps, Spec.cursorRun, e, hx, (ih s').2 h']
        | cons z zs =>
          obtain ⟨s', e, h'⟩ := c.step h
          have hx : xs[ys.length]? = some z := by rw [← c.split h]; simp
          have hcur := c.current h' z (by simp)
          have hidx := c.index h'
          have := (ih s').1 _ _ h'
          simp only [List.length_append, List.length_singleton] at this hidx
          simp [Ator.runOps, Spec.cursorRun, e, hx, hcur, hidx, this]
      · intro h
        obtain ⟨s', e, h'⟩ := c.dead h
        simp [Ator.runOps, Spec.cursorRun, e, (ih s').2 h']
    | reset =>
      constructor
      · intro ys zs h
        obtain ⟨s', e, h'⟩ := hr.live h
        have := (ih s').1 _ _ h'
        simpa [Ator.runOps, Spec.cursorRun, e] using this
      · intro h
        obtain ⟨s', e, h'⟩ := hr.dead h
        have := (ih s').1 _ _ h'
        simpa [Ator.runOps, Spec.cursorRun, e] using this
    | clone =>
      constructor
      · intro ys zs h
        obtain ⟨s', e, h'⟩ := hc.live h
        have := (ih s').1 _ _ h'
        simpa [Ator.runOps, Spec.cursorRun, e] using this
      · intro h
        obtain ⟨s', e, h'⟩ := hc.dead h
        have := (ih s').2 h'
        simpa [Ator.runOps, Spec.cursorRun, e] using this
end Vlpp
