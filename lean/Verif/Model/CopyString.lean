import Verif.Model.CopyFrom
import Verif.Model.Str

/-!
# Model of `CopyFrom` between strings and containers

Source/Collections/OperationString.h 17-51, on the models of strings (`Model/Str`), arrays (`Model/ArrayC`) and `CopyFrom` (`Model/CopyFrom`).
`none`: the call does not return (a lazy list without end).
-/
set_option autoImplicit false
namespace Vlpp
namespace Strings
variable {σ α : Type} [Zero α] [DecidableEq α]

/-- OperationString.h 26-27, 40: `Buffer()` and `Length()` of the object `j`, and the characters there.
Simplification: they are read before the container is changed; nothing writes to them meanwhile. -/
def slice (j : Nat) : Cpp (World α) (List α × Int) := do
  let s ← obj j
  let r ← onHeap (buffer s)
  setObj j (some r.1)
  let cs ← onHeap (read r.2.1 r.2.2 s.length)
  pure (cs, s.length)

/-- OperationString.h 24-29 `CopyFrom(Ds& ds, const ObjectString<S>& ss, bool append)`: the string object `j` to a container. -/
def toContainer (T : CopyTarget σ α) (j : Nat) (append : Bool) (w : World α) (ds : σ) : Option (Outcome (World α × σ) Unit) :=
  match slice j w with
  | .fault => some .fault
  | .err w => some (.err (w, ds))
  | .ok (buffer, count) w =>
    match CopyFrom.copyFrom T (CopyFrom.fromSlice buffer count) append ds with
    | none => none
    | some (.ok _ ds) => some (.ok () (w, ds))
    | some (.err ds) => some (.err (w, ds))
    | some .fault => some .fault

/-- the `n` elements of an array from `i` on; reading an indeterminate one is undefined -/
def elements (a : ArrayC α) : (n : Nat) → (i : Int) → Option (List α)
  | 0, _ => some []
  | n + 1, i => do
    let x ← ListC.readVal a.buffer i
    let xs ← elements a n (i + 1)
    some (x :: xs)

/-- `ds = temporary` and the end of the temporary, which is the newest object -/
def assignTemporary (i : Nat) (make : Cpp (World α) Unit) : Cpp (World α) Unit := do
  make
  let w ← Cpp.get
  step (.moveAssign i (w.objs.length - 1))
  step (.destroy (w.objs.length - 1))

/-- OperationString.h 38-50 `CopyFrom(ObjectString<D>& ds, const Ss& ss, bool append)`: a container to the string object `i`.
The temporary string gets a number of its own. -/
def fromContainer (mv : Option α → Option α) (src : CopySource α) (i : Nat) (append : Bool) (w : World α) :
    Option (Outcome (World α) Unit) :=
  match slice i w with
  | .fault => some .fault
  | .err w => some (.err w)
  | .ok (buffer, length) w =>
    match ArrayC.newFrom (fun k => buffer[k.toNat]?) length with
    | .fault => some .fault
    | .err _ => some (.err w)
    | .ok da _ =>
      match CopyFrom.copyFrom (CopyFrom.toArray mv none) src append da with
      | none => none
      | some .fault => some .fault
      | some (.err da) => match ArrayC.destructor da with | .ok _ _ => some (.err w) | _ => some .fault
      | some (.ok _ da) =>
        let r := if da.count = 0 then assignTemporary i (step .empty) w
          else match elements da da.count.toNat 0 with
            | none => .fault
            | some cs => assignTemporary i (step (.copyFrom cs da.count)) w
        match ArrayC.destructor da with | .ok _ _ => some r | _ => some .fault

end Strings
end Vlpp
