/-!
# Specification: a finite map with keys compared by `ord`

A map is a partial function from keys to values that does not distinguish equal keys.
-/
set_option autoImplicit false
namespace Vlpp.Spec
variable {κ ν : Type}

inductive MapOp (κ ν : Type) where
  | add (k : κ) (v : ν)
  | set (k : κ) (v : ν)
  | get (k : κ)
  | remove (k : κ)
  | clear
  | contains (k : κ)

inductive MapRet (ν : Type) where
  | flag (b : Bool)
  | value (v : ν)
  | error
  deriving DecidableEq, Repr

/-- store a value for a key -/
def mapPut (ord : κ → κ → Ordering) (m : κ → Option ν) (k : κ) (v : ν) : κ → Option ν :=
  fun k' => if ord k k' = .eq then some v else m k'

/-- forget a key -/
def mapErase (ord : κ → κ → Ordering) (m : κ → Option ν) (k : κ) : κ → Option ν :=
  fun k' => if ord k k' = .eq then none else m k'

/-- Effect of one operation and what the caller sees. -/
def mapStep (ord : κ → κ → Ordering) (m : κ → Option ν) : MapOp κ ν → (κ → Option ν) × MapRet ν
  | .add k v => if (m k).isSome then (m, .error) else (mapPut ord m k v, .flag true)
  | .set k v => (mapPut ord m k v, .flag true)
  | .get k =>
    match m k with
    | some v => (m, .value v)
    | none => (m, .error)
  | .remove k => if (m k).isSome then (mapErase ord m k, .flag true) else (m, .flag false)
  | .clear => (fun _ => none, .flag true)
  | .contains k => (m, .flag (m k).isSome)

def mapRun (ord : κ → κ → Ordering) (m : κ → Option ν) :
    List (MapOp κ ν) → (κ → Option ν) × List (MapRet ν)
  | [] => (m, [])
  | op :: ops =>
    let (m, r) := mapStep ord m op
    let (m, rs) := mapRun ord m ops
    (m, r :: rs)

/-- `ks` and `vs` list the entries of `m` in strictly ascending key order. -/
structure Lists (ord : κ → κ → Ordering) (m : κ → Option ν) (ks : List κ) (vs : List ν) : Prop where
  length : ks.length = vs.length
  ascending : ks.Pairwise (fun a b => ord a b = .lt)
  entries : ∀ k v, m k = some v ↔ ∃ (i : Nat) (k' : κ), ks[i]? = some k' ∧ ord k' k = .eq ∧ vs[i]? = some v

end Vlpp.Spec
