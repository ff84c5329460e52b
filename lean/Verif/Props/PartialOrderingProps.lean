import Verif.Lemmas.PartialOrderingInit

/-!
# Properties C27, C28: `PartialOrderingProcessor`
-/
set_option autoImplicit false
namespace Vlpp

/-- `items` are the objects, `R x y` says that the object `x` depends on the object `y`; `DepAt` is the same relation
between positions in `items` (the first position, if `items` contains equal objects). -/
def Spec.DepAt {τ : Type} (eq : τ → τ → Bool) (items : List τ) (R : τ → τ → Prop) (i j : Int) : Prop :=
  ∃ x y, R x y ∧ Spec.firstIndex eq items x = i ∧ Spec.firstIndex eq items y = j

namespace PO
open Spec

/-- What the fields `nodes` and `components` of a processor show: `components[i]` refers to the nodes `cs[i]` -/
structure Shows (n : Nat) (p : Proc) (cs : List (List Int)) : Prop where
  nodeCount : p.nodes.length = n
  members : p.components.map (Component.members p.firstNodesBuffer) = cs.map (·.map some)
  /-- `firstNode` and `nodeCount` describe a part of the buffer -/
  inside : ∀ c ∈ p.components, 0 ≤ c.firstNode ∧ 0 < c.nodeCount ∧ c.firstNode + c.nodeCount ≤ p.firstNodesBuffer.length
  /-- `nodes[v].component` is the index of the component of `v` -/
  component : ∀ (i : Nat) (C : List Int), cs[i]? = some C → ∀ v ∈ C, ∃ nd, at? p.nodes v = some nd ∧ nd.component = i

theorem Reaches.congr {α : Type} {E F : α → α → Prop} (h : ∀ a b, E a b ↔ F a b) {a b : α} :
    Reaches E a b ↔ Reaches F a b :=
  ⟨Reaches.mono fun a b => (h a b).mp, Reaches.mono fun a b => (h a b).mpr⟩

theorem SortedComponents.congr {n : Nat} {E F : Int → Int → Prop} (h : ∀ a b, E a b ↔ F a b) {cs : List (List Int)}
    (hs : SortedComponents n E cs) : SortedComponents n F cs := by
  refine ⟨hs.nodup, hs.nodes, hs.nonempty, ?_, ?_⟩
  · intro C hC v hv w
    rw [hs.scc C hC v hv w, Reaches.congr h, Reaches.congr h]
  · intro i j Ci Cj a b hi hj ha hb hd
    exact hs.first i j Ci Cj a b hi hj ha hb ((h a b).mpr hd)

/-- `Sort` after an initialisation that stored the dependencies `D` -/
theorem sort_shows {n : Nat} {D : List (Int × Int)} {p : Proc} (h : Ready (graphOf n D) p) {Dep : Int → Int → Prop}
    (hr : ∀ e ∈ D, (0 ≤ e.1 ∧ e.1 < n) ∧ 0 ≤ e.2 ∧ e.2 < n) (hD : ∀ a b, (a, b) ∈ D ↔ Dep a b) :
    ∃ p' cs, sort p = some (.ok () p') ∧ Shows n p' cs ∧ SortedComponents n Dep cs := by
  obtain ⟨p', cs, e, h1, h2, h3, h4, h5⟩ := sort_spec h
  refine ⟨p', cs, e, ⟨h1, ?_, ?_, ?_⟩, SortedComponents.congr ?_ h5⟩
  · rw [h2, h3]
    exact layout_members cs []
  · intro c hc
    rw [h3] at hc
    have := layout_range cs h5.nonempty 0 (by omega) c hc
    rw [h2, List.length_map]
    omega
  · intro i C hC v hv
    exact ⟨_, h4 i C hC v hv, rfl⟩
  · intro a b
    rw [← hD a b, ← mem_swap, ← mem_pairsOf]
    exact ⟨fun h => h.2, fun hb => ⟨(hr _ (mem_swap.mp (mem_pairsOf.mp hb))).2, hb⟩⟩

section
variable {τ : Type} {ord : τ → τ → Ordering} [Std.TransCmp ord] {eq : τ → τ → Bool}

theorem firstIndex_ne {items : List τ} {x : τ} : firstIndex eq items x ≠ -1 ↔ ∃ a ∈ items, eq a x = true := by
  unfold firstIndex
  cases h : items.findIdx? (fun y => eq y x) with
  | none =>
    simp only [ne_eq, not_true_eq_false, false_iff]
    rintro ⟨a, ha, he⟩
    have := List.findIdx?_eq_none_iff.mp h a ha
    rw [he] at this; cases this
  | some i =>
    obtain ⟨hi, h1, _⟩ := List.findIdx?_eq_some_iff_getElem.mp h
    exact ⟨fun _ => ⟨_, List.getElem_mem hi, h1⟩, fun _ => by simp⟩

theorem firstIndex_congr (heq : ∀ a b, eq a b = true ↔ ord a b = .eq) {items : List τ} {x y : τ} (h : ord x y = .eq) :
    firstIndex eq items x = firstIndex eq items y := by
  unfold firstIndex
  have : (fun a => eq a x) = (fun a => eq a y) := by
    funext a
    rw [Bool.eq_iff_iff, heq, heq]
    exact ⟨fun h' => ord_eq_trans h' h, fun h' => ord_eq_trans h' (ord_eq_symm h)⟩
  rw [this]

/-- initialisation with a group, then `Sort` -/
theorem group_sorted (heq : ∀ a b, eq a b = true ↔ ord a b = .eq) {m : τ → List τ} {dep : GroupC τ τ}
    (hdep : GroupC.Models ord m dep) (items : List τ)
    (hin : ∀ x y, y ∈ m x → (∃ a ∈ items, eq a x = true) ∧ ∃ b ∈ items, eq b y = true) :
    ∃ p p' cs, initWithGroup eq items dep {} = .ok () p ∧ sort p = some (.ok () p') ∧ Shows items.length p' cs ∧
      SortedComponents items.length (DepAt eq items (fun x y => y ∈ m x)) cs := by
  have hself : ∀ x : τ, ord x x = .eq := fun x => Std.ReflCmp.compare_self (cmp := ord)
  obtain ⟨p, D, e1, hR, hD, hr⟩ := initWithGroup_ok eq items hdep (by
    intro k hk
    have hne := (multimap_key hdep k).mpr ⟨k, hk, hself k⟩
    obtain ⟨y, hy⟩ := List.exists_mem_of_ne_nil _ hne
    exact ⟨firstIndex_ne.mpr (hin k y hy).1, fun y hy => firstIndex_ne.mpr (hin k y hy).2⟩)
  obtain ⟨p', cs, e2, h1, h2⟩ := sort_shows hR (Dep := DepAt eq items (fun x y => y ∈ m x)) hr (by
    intro a b
    subst hD
    constructor
    · intro h
      obtain ⟨k, hk, h⟩ := List.mem_flatMap.mp h
      obtain ⟨y, hy, h⟩ := List.mem_map.mp h
      cases h
      exact ⟨k, y, hy, rfl, rfl⟩
    · rintro ⟨x, y, hy, rfl, rfl⟩
      obtain ⟨k, hk, hkx⟩ := (multimap_key hdep x).mp (List.ne_nil_of_mem hy)
      refine List.mem_flatMap.mpr ⟨k, hk, List.mem_map.mpr ⟨y, ?_, ?_⟩⟩
      · rw [multimap_congr hdep hkx]; exact hy
      · rw [firstIndex_congr heq hkx])
  exact ⟨p, p', cs, e1, e2, h1, h2⟩

/-- **C27** (`InitWithGroup`): where `depGroup` stores the multimap `m` and mentions only objects of `items`,
initialisation and `Sort` return, every item is in exactly one component, and two items are in the same component
exactly if each depends on the other, directly or transitively. -/
theorem C27_components_group (heq : ∀ a b, eq a b = true ↔ ord a b = .eq) {m : τ → List τ} {dep : GroupC τ τ}
    (hdep : GroupC.Models ord m dep) (items : List τ)
    (hin : ∀ x y, y ∈ m x → (∃ a ∈ items, eq a x = true) ∧ ∃ b ∈ items, eq b y = true) :
    ∃ p p' cs, initWithGroup eq items dep {} = .ok () p ∧ sort p = some (.ok () p') ∧ Shows items.length p' cs ∧
      cs.flatten.Nodup ∧ (∀ v : Int, v ∈ cs.flatten ↔ 0 ≤ v ∧ v < items.length) ∧ [] ∉ cs ∧
      ∀ C ∈ cs, ∀ v ∈ C, ∀ w, w ∈ C ↔
        Reaches (DepAt eq items (fun x y => y ∈ m x)) v w ∧ Reaches (DepAt eq items (fun x y => y ∈ m x)) w v := by
  obtain ⟨p, p', cs, e1, e2, h1, h2⟩ := group_sorted heq hdep items hin
  exact ⟨p, p', cs, e1, e2, h1, h2.nodup, h2.nodes, h2.nonempty, h2.scc⟩

/-- **C28** (`InitWithGroup`): if an item depends on an item of a different component, that component comes first. -/
theorem C28_dependencies_first_group (heq : ∀ a b, eq a b = true ↔ ord a b = .eq) {m : τ → List τ} {dep : GroupC τ τ}
    (hdep : GroupC.Models ord m dep) (items : List τ)
    (hin : ∀ x y, y ∈ m x → (∃ a ∈ items, eq a x = true) ∧ ∃ b ∈ items, eq b y = true) :
    ∃ p p' cs, initWithGroup eq items dep {} = .ok () p ∧ sort p = some (.ok () p') ∧ Shows items.length p' cs ∧
      ∀ (i j : Nat) (Ci Cj : List Int) (a b : Int), cs[i]? = some Ci → cs[j]? = some Cj → a ∈ Ci → b ∈ Cj →
        DepAt eq items (fun x y => y ∈ m x) a b → i ≠ j → j < i := by
  obtain ⟨p, p', cs, e1, e2, h1, h2⟩ := group_sorted heq hdep items hin
  refine ⟨p, p', cs, e1, e2, h1, ?_⟩
  intro i j Ci Cj a b hi hj ha hb hd hne
  have := h2.first i j Ci Cj a b hi hj ha hb hd
  omega

/-- initialisation with a function, then `Sort` -/
theorem func_sorted {cmp : τ → τ → Option Ordering} (hcmp : ∀ a b, cmp a b = some (ord a b))
    (heq : ∀ a b, eq a b = true ↔ ord a b = .eq) (items : List τ) (depFunc : τ → τ → Bool) :
    ∃ p p' cs, initWithFunc cmp eq items depFunc {} = .ok () p ∧ sort p = some (.ok () p') ∧ Shows items.length p' cs ∧
      SortedComponents items.length (DepAt eq items (fun x y => x ∈ items ∧ y ∈ items ∧ depFunc x y = true)) cs := by
  have hself : ∀ x : τ, ord x x = .eq := fun x => Std.ReflCmp.compare_self (cmp := ord)
  obtain ⟨dep, e0, hdep⟩ := funcOuter_ok hcmp depFunc items items [] GroupC.empty models_empty
  simp only [List.nil_append] at hdep
  have hmem : ∀ x y, y ∈ pairsOf ord (items.flatMap (fun x => (items.filter (depFunc x)).map (fun y => (x, y)))) x ↔
      ∃ x', ord x' x = .eq ∧ x' ∈ items ∧ y ∈ items ∧ depFunc x' y = true := by
    intro x y
    unfold pairsOf
    constructor
    · intro h
      obtain ⟨e, he, rfl⟩ := List.mem_map.mp h
      obtain ⟨he, ho⟩ := List.mem_filter.mp he
      obtain ⟨x', hx', he⟩ := List.mem_flatMap.mp he
      obtain ⟨y, hy, rfl⟩ := List.mem_map.mp he
      obtain ⟨hy1, hy2⟩ := List.mem_filter.mp hy
      exact ⟨x', by simpa using ho, hx', hy1, hy2⟩
    · rintro ⟨x', ho, hx', hy, hd⟩
      exact List.mem_map.mpr ⟨(x', y), List.mem_filter.mpr ⟨List.mem_flatMap.mpr ⟨x', hx', List.mem_map.mpr
        ⟨y, List.mem_filter.mpr ⟨hy, hd⟩, rfl⟩⟩, by simpa using ho⟩, rfl⟩
  obtain ⟨p, p', cs, e1, e2, h1, h2⟩ := group_sorted heq hdep items (by
    intro x y h
    obtain ⟨x', ho, hx', hy, _⟩ := (hmem x y).mp h
    exact ⟨⟨x', hx', (heq _ _).mpr ho⟩, y, hy, (heq _ _).mpr (hself y)⟩)
  refine ⟨p, p', cs, ?_, e2, h1, SortedComponents.congr ?_ h2⟩
  · unfold initWithFunc
    rw [e0]
    exact e1
  · intro a b
    constructor
    · rintro ⟨x, y, h, rfl, rfl⟩
      obtain ⟨x', ho, hx', hy, hd⟩ := (hmem x y).mp h
      exact ⟨x', y, ⟨hx', hy, hd⟩, firstIndex_congr heq ho, rfl⟩
    · rintro ⟨x, y, ⟨hx, hy, hd⟩, rfl, rfl⟩
      exact ⟨x, y, (hmem x y).mpr ⟨x, hself x, hx, hy, hd⟩, rfl, rfl⟩

/-- **C27** (`InitWithFunc`): the relation is given by a function on the items. -/
theorem C27_components_func {cmp : τ → τ → Option Ordering} (hcmp : ∀ a b, cmp a b = some (ord a b))
    (heq : ∀ a b, eq a b = true ↔ ord a b = .eq) (items : List τ) (depFunc : τ → τ → Bool) :
    ∃ p p' cs, initWithFunc cmp eq items depFunc {} = .ok () p ∧ sort p = some (.ok () p') ∧ Shows items.length p' cs ∧
      cs.flatten.Nodup ∧ (∀ v : Int, v ∈ cs.flatten ↔ 0 ≤ v ∧ v < items.length) ∧ [] ∉ cs ∧
      ∀ C ∈ cs, ∀ v ∈ C, ∀ w, w ∈ C ↔
        Reaches (DepAt eq items (fun x y => x ∈ items ∧ y ∈ items ∧ depFunc x y = true)) v w ∧
        Reaches (DepAt eq items (fun x y => x ∈ items ∧ y ∈ items ∧ depFunc x y = true)) w v := by
  obtain ⟨p, p', cs, e1, e2, h1, h2⟩ := func_sorted hcmp heq items depFunc
  exact ⟨p, p', cs, e1, e2, h1, h2.nodup, h2.nodes, h2.nonempty, h2.scc⟩

/-- **C28** (`InitWithFunc`) -/
theorem C28_dependencies_first_func {cmp : τ → τ → Option Ordering} (hcmp : ∀ a b, cmp a b = some (ord a b))
    (heq : ∀ a b, eq a b = true ↔ ord a b = .eq) (items : List τ) (depFunc : τ → τ → Bool) :
    ∃ p p' cs, initWithFunc cmp eq items depFunc {} = .ok () p ∧ sort p = some (.ok () p') ∧ Shows items.length p' cs ∧
      ∀ (i j : Nat) (Ci Cj : List Int) (a b : Int), cs[i]? = some Ci → cs[j]? = some Cj → a ∈ Ci → b ∈ Cj →
        DepAt eq items (fun x y => x ∈ items ∧ y ∈ items ∧ depFunc x y = true) a b → i ≠ j → j < i := by
  obtain ⟨p, p', cs, e1, e2, h1, h2⟩ := func_sorted hcmp heq items depFunc
  refine ⟨p, p', cs, e1, e2, h1, ?_⟩
  intro i j Ci Cj a b hi hj ha hb hd hne
  have := h2.first i j Ci Cj a b hi hj ha hb hd
  omega

theorem edgeLoop_err (items : List τ) {fromNode : Int} (edges : List τ) (n : Nat) :
    ∀ (j : Nat) (D : List (Int × Int)) (p : Proc), Edges D p → j + n = edges.length →
    (∃ y ∈ edges.drop j, firstIndex eq items y = -1) → ∃ p', edgeLoop eq items fromNode edges n j p = .err p' := by
  induction n with
  | zero =>
    rintro j D p h hj ⟨y, hy, _⟩
    rw [List.drop_eq_nil_of_le (by omega)] at hy
    cases hy
  | succ n ih =>
    intro j D p h hj hex
    have hjl : j < edges.length := by omega
    unfold edgeLoop
    have h1 : reading (SeqList.get (j : Int) edges) p = .ok edges[j] p := by
      rw [SeqList.get_ok (by omega)]; rfl
    have h2 : reading (SeqList.indexOf eq edges[j] items) p = .ok (firstIndex eq items edges[j]) p := by
      rw [SeqList.indexOf_ok]; rfl
    rw [Cpp.bind_ok h1, Cpp.bind_ok h2]
    by_cases hne : firstIndex eq items edges[j] = -1
    · rw [Cpp.bind_err (Cpp.check_false (by simpa using hne) p)]
      exact ⟨p, rfl⟩
    · obtain ⟨b1, g1, a1, m1⟩ := group_add vintKeyCmp h.ins fromNode (firstIndex eq items edges[j])
      obtain ⟨b2, g2, a2, m2⟩ := group_add vintKeyCmp h.outs (firstIndex eq items edges[j]) fromNode
      obtain ⟨p', e⟩ := ih (j + 1) (D ++ [(fromNode, firstIndex eq items edges[j])])
        { p with ins := g1, outs := g2 } ⟨m1, by rw [List.map_append]; exact m2⟩ (by omega) (by
          obtain ⟨y, hy, hy'⟩ := hex
          rw [List.drop_eq_getElem_cons hjl] at hy
          rcases List.mem_cons.mp hy with rfl | hy
          · exact (hne hy').elim
          · exact ⟨y, hy, hy'⟩)
      rw [Cpp.bind_ok (Cpp.check_true hne p), Cpp.bind_ok (onIns_ok a1)]
      refine ⟨p', (Cpp.bind_ok (onOuts_ok (p := { p with ins := g1 }) a2)).trans ?_⟩
      exact e

theorem keyLoop_err (items : List τ) {m : τ → List τ} {dep : GroupC τ τ} (hdep : GroupC.Models ord m dep) (n : Nat) :
    ∀ (i : Nat) (D : List (Int × Int)) (p : Proc), Edges D p → i + n = dep.keys.length →
    (∃ k ∈ dep.keys.drop i, firstIndex eq items k = -1 ∨ ∃ y ∈ m k, firstIndex eq items y = -1) →
    ∃ p', keyLoop eq items dep n i p = .err p' := by
  induction n with
  | zero =>
    rintro i D p h hi ⟨y, hy, _⟩
    rw [List.drop_eq_nil_of_le (by omega)] at hy
    cases hy
  | succ n ih =>
    intro i D p h hi hex
    have hil : i < dep.keys.length := by omega
    unfold keyLoop
    have h1 : reading (SeqList.get (i : Int) dep.keys) p = .ok dep.keys[i] p := by
      rw [SeqList.get_ok (by omega)]; rfl
    have h2 : reading (SeqList.indexOf eq dep.keys[i] items) p = .ok (firstIndex eq items dep.keys[i]) p := by
      rw [SeqList.indexOf_ok]; rfl
    have h3 : reading (GroupC.getByIndex (i : Int) dep) p = .ok (m dep.keys[i]) p := by
      obtain ⟨vss, d1, d2⟩ := hdep
      obtain ⟨_, e, he⟩ := GroupC.getByIndex_ok d1 d2 hil
      rw [e, he]; rfl
    rw [Cpp.bind_ok h1, Cpp.bind_ok h2]
    by_cases hne : firstIndex eq items dep.keys[i] = -1
    · rw [Cpp.bind_err (Cpp.check_false (by simpa using hne) p)]
      exact ⟨p, rfl⟩
    · rw [Cpp.bind_ok (Cpp.check_true hne p), Cpp.bind_ok h3]
      by_cases hv : ∃ y ∈ m dep.keys[i], firstIndex eq items y = -1
      · obtain ⟨p', e⟩ := edgeLoop_err (eq := eq) items (fromNode := firstIndex eq items dep.keys[i]) (m dep.keys[i])
          (m dep.keys[i]).length 0 D p h (by omega) (by simpa using hv)
        exact ⟨p', Cpp.bind_err e⟩
      · obtain ⟨p1, e1, hE1, _⟩ := edgeLoop_ok eq items (fromNode := firstIndex eq items dep.keys[i]) (m dep.keys[i])
          (fun y hy h' => hv ⟨y, hy, h'⟩) (m dep.keys[i]).length 0 D p h (by omega)
        obtain ⟨p', e⟩ := ih (i + 1) _ p1 hE1 (by omega) (by
          obtain ⟨y, hy, hy'⟩ := hex
          rw [List.drop_eq_getElem_cons hil] at hy
          rcases List.mem_cons.mp hy with rfl | hy
          · exact (hy'.elim hne hv).elim
          · exact ⟨y, hy, hy'⟩)
        exact ⟨p', (Cpp.bind_ok e1).trans e⟩

/-- **C27**, the hypothesis that is left: if `depGroup` mentions an object that is not in `items`, `InitWithGroup` raises
an Error. -/
theorem C27_unknown_item (heq : ∀ a b, eq a b = true ↔ ord a b = .eq) {m : τ → List τ} {dep : GroupC τ τ}
    (hdep : GroupC.Models ord m dep) (items : List τ) {x y : τ} (hxy : y ∈ m x)
    (hout : (∀ a ∈ items, eq a x = false) ∨ ∀ b ∈ items, eq b y = false) :
    ∃ p, initWithGroup eq items dep {} = .err p := by
  obtain ⟨k, hk, hkx⟩ := (multimap_key hdep x).mp (List.ne_nil_of_mem hxy)
  have hnone : ∀ z, (∀ a ∈ items, eq a z = false) → firstIndex eq items z = -1 := by
    intro z hz
    apply Classical.byContradiction
    intro h
    obtain ⟨a, ha, he⟩ := firstIndex_ne.mp h
    rw [hz a ha] at he; cases he
  obtain ⟨p, e⟩ := keyLoop_err (eq := eq) items hdep dep.keys.length 0 [] {} ⟨models_empty, models_empty⟩ (by omega)
    ⟨k, by simpa using hk, by
      rcases hout with h | h
      · left; rw [firstIndex_congr heq hkx]; exact hnone x h
      · right; exact ⟨y, by rw [multimap_congr hdep hkx]; exact hxy, hnone y h⟩⟩
  refine ⟨p, ?_⟩
  unfold initWithGroup
  rw [Cpp.bind_ok (Cpp.get_apply _), Cpp.bind_ok (Cpp.check_true (by rfl) _)]
  exact Cpp.bind_err e
end

/-! Concrete cases: 1 and 2 depend on each other, 0 depends on 1. -/

/-- the function form -/
example : ∃ p p' cs, initWithFunc (fun a b : Nat => some (compare a b)) (fun a b => a == b) [0, 1, 2]
      (fun a b => (a, b) ∈ [(0, 1), (1, 2), (2, 1)]) {} = .ok () p ∧ sort p = some (.ok () p') ∧
      Shows 3 p' cs ∧ ∀ C ∈ cs, (1 : Int) ∈ C → (2 : Int) ∈ C := by
  obtain ⟨p, p', cs, e1, e2, h1, h2⟩ := func_sorted (ord := (compare : Nat → Nat → Ordering)) (eq := fun a b => a == b)
    (cmp := fun a b : Nat => some (compare a b)) (fun _ _ => rfl) (by simp) [0, 1, 2]
      (fun a b => (a, b) ∈ [(0, 1), (1, 2), (2, 1)])
  refine ⟨p, p', cs, e1, e2, h1, ?_⟩
  intro C hC h
  rw [h2.scc C hC 1 h 2]
  exact ⟨.single ⟨1, 2, by simp, rfl, rfl⟩, .single ⟨2, 1, by simp, rfl, rfl⟩⟩

/-- a group that meets the hypotheses of the theorems about `InitWithGroup` -/
example : ∃ dep : GroupC Nat Nat, GroupC.Models compare (pairsOf compare [(0, 1), (1, 2), (2, 1)]) dep ∧
    ∀ x y, y ∈ pairsOf compare [(0, 1), (1, 2), (2, 1)] x → (∃ a ∈ [0, 1, 2], (a == x) = true) ∧ ∃ b ∈ [0, 1, 2], (b == y) = true := by
  obtain ⟨_, g1, _, h1⟩ := group_add (cmp := fun a b : Nat => some (compare a b)) (fun _ _ => rfl)
    (models_empty (κ := Nat) (ν := Nat) (ord := compare)) 0 1
  obtain ⟨_, g2, _, h2⟩ := group_add (cmp := fun a b : Nat => some (compare a b)) (fun _ _ => rfl) h1 1 2
  obtain ⟨_, g3, _, h3⟩ := group_add (cmp := fun a b : Nat => some (compare a b)) (fun _ _ => rfl) h2 2 1
  refine ⟨g3, h3, ?_⟩
  intro x y h
  obtain ⟨e, he, rfl⟩ := List.mem_map.mp h
  obtain ⟨he, ho⟩ := List.mem_filter.mp he
  have hx : e.1 = x := by simpa using ho
  subst hx
  revert he
  simp
  rintro (rfl | rfl | rfl) <;> simp

end PO
end Vlpp
