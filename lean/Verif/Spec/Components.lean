import Verif.Spec.Graph

/-!
# Sorted strongly connected components
-/
set_option autoImplicit false
namespace Vlpp.Spec

/-- `cs` are the strongly connected components of the graph on `0 .. n - 1` in which `Dep a b` says that `a` depends on
`b`, listed so that what a component depends on comes first. -/
structure SortedComponents (n : Nat) (Dep : Int → Int → Prop) (cs : List (List Int)) : Prop where
  /-- each node is in exactly one component, once -/
  nodup : cs.flatten.Nodup
  nodes : ∀ v : Int, v ∈ cs.flatten ↔ 0 ≤ v ∧ v < n
  nonempty : [] ∉ cs
  /-- two nodes are in the same component exactly if they depend on each other, directly or transitively -/
  scc : ∀ C ∈ cs, ∀ v ∈ C, ∀ w, w ∈ C ↔ Reaches Dep v w ∧ Reaches Dep w v
  /-- a component comes after all components it depends on -/
  first : ∀ (i j : Nat) (Ci Cj : List Int) (a b : Int), cs[i]? = some Ci → cs[j]? = some Cj → a ∈ Ci → b ∈ Cj →
    Dep a b → j ≤ i

end Vlpp.Spec
