/-!
# Specification: a multimap, i.e. a list of values for every key (empty: the key is absent)
-/
set_option autoImplicit false
namespace Vlpp.Spec
variable {κ ν : Type}

inductive GroupOp (κ ν : Type) where
  | add (k : κ) (v : ν)
  | removeKey (k : κ)
  | remove (k : κ) (v : ν)
  | clear
  | get (k : κ)
  | containsKey (k : κ)
  | contains (k : κ) (v : ν)

inductive GroupRet (ν : Type) where
  | done
  | flag (b : Bool)
  | values (vs : List ν)
  | error
  deriving DecidableEq, Repr

/-- replace the values of a key -/
def groupPut (ord : κ → κ → Ordering) (m : κ → List ν) (k : κ) (vs : List ν) : κ → List ν :=
  fun k' => if ord k k' = .eq then vs else m k'

/-- Effect of one operation and what the caller sees.  The result of `remove k v` is left out here (property C12). -/
def groupStep (ord : κ → κ → Ordering) (eq : ν → ν → Bool) (m : κ → List ν) :
    GroupOp κ ν → (κ → List ν) × GroupRet ν
  | .add k v => (groupPut ord m k (m k ++ [v]), .flag true)
  | .removeKey k => (groupPut ord m k [], .flag (!(m k).isEmpty))
  | .remove k v => (groupPut ord m k ((m k).eraseP (fun x => eq x v)), .done)
  | .clear => (fun _ => [], .flag true)
  | .get k => (m, if (m k).isEmpty then .error else .values (m k))
  | .containsKey k => (m, .flag (!(m k).isEmpty))
  | .contains k v => (m, .flag ((m k).any (fun x => eq x v)))

def groupRun (ord : κ → κ → Ordering) (eq : ν → ν → Bool) (m : κ → List ν) :
    List (GroupOp κ ν) → (κ → List ν) × List (GroupRet ν)
  | [] => (m, [])
  | op :: ops =>
    let (m, r) := groupStep ord eq m op
    let (m, rs) := groupRun ord eq m ops
    (m, r :: rs)

/-- `ks` and `vss` list the keys that have values, in strictly ascending order, and their values. -/
structure GroupLists (ord : κ → κ → Ordering) (m : κ → List ν) (ks : List κ) (vss : List (List ν)) : Prop where
  length : ks.length = vss.length
  ascending : ks.Pairwise (fun a b => ord a b = .lt)
  nonempty : ∀ vs ∈ vss, vs ≠ []
  entries : ∀ k, (∃ (i : Nat) (k' : κ), ks[i]? = some k' ∧ ord k' k = .eq ∧ vss[i]? = some (m k)) ∨
    ((∀ k' ∈ ks, ord k' k ≠ .eq) ∧ m k = [])

end Vlpp.Spec

namespace Vlpp.Spec
variable {κ α β : Type}

/-- One call of a callback of `GroupInnerJoin`. -/
inductive JoinEvent (κ α β : Type) where
  | discardFirst (k : κ) (as : List α)
  | discardSecond (k : κ) (bs : List β)
  | accept (k : κ) (as : List α) (bs : List β)
  deriving DecidableEq, Repr

def JoinEvent.key : JoinEvent κ α β → κ
  | .discardFirst k _ => k
  | .discardSecond k _ => k
  | .accept k _ _ => k

/-- The call that is due for two multimaps whose keys are listed in `ks1` and `ks2`. -/
def JoinEvent.Due (m1 : κ → List α) (ks1 : List κ) (m2 : κ → List β) (ks2 : List κ) : JoinEvent κ α β → Prop
  | .accept k as bs => k ∈ ks1 ∧ as = m1 k ∧ bs = m2 k ∧ bs ≠ []
  | .discardFirst k as => k ∈ ks1 ∧ as = m1 k ∧ m2 k = []
  | .discardSecond k bs => k ∈ ks2 ∧ bs = m2 k ∧ m1 k = []

end Vlpp.Spec
