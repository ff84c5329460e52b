/-!
# Outcomes of running C++ code

Shared by all models.  A computation works on a state `σ` and either returns normally, raises
`vl::Error` (`CHECK_ERROR` / `CHECK_FAIL`, Source/Basic.h), or runs into undefined behaviour.
-/
set_option autoImplicit false
namespace Vlpp

/-- Result of running code that mutates a state `σ` and returns an `α`.
* `ok a s`  : returned `a`, the state is now `s`;
* `err s`   : `vl::Error` was thrown (CHECK_ERROR, Source/Basic.h); `s` is the state at the throw, so code that
  throws after having changed something is visible as such;
* `fault`   : undefined behaviour or a leak: access to raw, dead or foreign memory, double destruction,
  releasing a buffer that still contains live objects, ... -/
inductive Outcome (σ α : Type _) where
  | ok (a : α) (s : σ)
  | err (s : σ)
  | fault
  deriving Repr, DecidableEq

/-- A C++ statement working on a state `σ`. -/
def Cpp (σ α : Type _) := σ → Outcome σ α

namespace Cpp

variable {σ α β : Type _}

/-- Normal return without touching the state. -/
def pure' (a : α) : Cpp σ α := fun s => .ok a s

/-- Sequencing: errors and faults end the computation. -/
def bind' (m : Cpp σ α) (f : α → Cpp σ β) : Cpp σ β := fun s =>
  match m s with
  | .ok a s' => f a s'
  | .err s' => .err s'
  | .fault => .fault

instance : Monad (Cpp σ) where
  pure := pure'
  bind := bind'

/-- CHECK_ERROR(condition, ...) of Source/Basic.h: throws `vl::Error` when the condition is false. -/
def check (c : Prop) [Decidable c] : Cpp σ Unit := fun s => if c then .ok () s else .err s

/-- Undefined behaviour. -/
def faulting : Cpp σ α := fun _ => .fault

/-- Read the state. -/
def get : Cpp σ σ := fun s => .ok s s

/-- Replace the state. -/
def set (s : σ) : Cpp σ Unit := fun _ => .ok () s

@[simp] theorem pure_apply (a : α) (s : σ) : (pure a : Cpp σ α) s = .ok a s := rfl
@[simp] theorem pure'_apply (a : α) (s : σ) : (pure' a : Cpp σ α) s = .ok a s := rfl
@[simp] theorem get_apply (s : σ) : (get : Cpp σ σ) s = .ok s s := rfl
@[simp] theorem set_apply (s s' : σ) : (set s : Cpp σ Unit) s' = .ok () s := rfl
@[simp] theorem faulting_apply (s : σ) : (faulting : Cpp σ α) s = .fault := rfl
theorem check_apply (c : Prop) [Decidable c] (s : σ) :
    (check c : Cpp σ Unit) s = if c then .ok () s else .err s := rfl
theorem bind_apply (m : Cpp σ α) (f : α → Cpp σ β) (s : σ) :
    (m >>= f) s = match m s with
      | .ok a s' => f a s'
      | .err s' => .err s'
      | .fault => .fault := rfl

@[simp] theorem check_true {c : Prop} [Decidable c] (h : c) (s : σ) :
    (check c : Cpp σ Unit) s = .ok () s := by simp [check_apply, h]
@[simp] theorem check_false {c : Prop} [Decidable c] (h : ¬ c) (s : σ) :
    (check c : Cpp σ Unit) s = .err s := by simp [check_apply, h]

theorem bind_ok {m : Cpp σ α} {f : α → Cpp σ β} {s s' : σ} {a : α} (h : m s = .ok a s') :
    (m >>= f) s = f a s' := by simp [bind_apply, h]
theorem bind_err {m : Cpp σ α} {f : α → Cpp σ β} {s s' : σ} (h : m s = .err s') :
    (m >>= f) s = .err s' := by simp [bind_apply, h]
theorem bind_fault {m : Cpp σ α} {f : α → Cpp σ β} {s : σ} (h : m s = .fault) :
    (m >>= f) s = .fault := by simp [bind_apply, h]

end Cpp
end Vlpp
