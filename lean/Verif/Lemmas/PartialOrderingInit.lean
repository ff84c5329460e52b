import Verif.Lemmas.PartialOrdering
import Verif.Lemmas.GroupC

set_option autoImplicit false
namespace Vlpp
namespace PO
open Spec

/-- the multimap that consists of these pairs -/
def pairsOf {κ ν : Type} (ord : κ → κ → Ordering) (D : List (κ × ν)) (k : κ) : List ν :=
  (D.filter (fun e => ord e.1 k == .eq)).map (·.2)

theorem group_add {κ ν : Type} {cmp : κ → κ → Option Ordering} {ord : κ → κ → Ordering} [Std.TransCmp ord]
    (hcmp : KeyCmp cmp ord) {D : List (κ × ν)} {g : GroupC κ ν} (hs : GroupC.Models ord (pairsOf ord D) g) (k : κ) (v : ν) :
    ∃ b g', GroupC.add cmp k v g = .ok b g' ∧ GroupC.Models ord (pairsOf ord (D ++ [(k, v)])) g' := by
  obtain ⟨s', e, h'⟩ := GroupC.step_refines hcmp (fun _ _ => true) hs (.add k v)
  have e : GroupC.observe .flag (GroupC.add cmp k v g) = some (s', .flag true) := e
  have hM : pairsOf ord (D ++ [(k, v)]) = (Spec.groupStep ord (fun _ _ => true) (pairsOf ord D) (.add k v)).1 := by
    funext x
    simp only [Spec.groupStep, Spec.groupPut]
    by_cases hk : ord k x = .eq
    · rw [if_pos hk, multimap_congr hs hk]
      simp [pairsOf, List.filter_append, hk]
    · rw [if_neg hk]
      simp [pairsOf, List.filter_append, hk]
  cases hr : GroupC.add cmp k v g with
  | ok b s1 =>
    rw [hr] at e
    simp only [GroupC.observe, Option.some.injEq, Prod.mk.injEq] at e
    refine ⟨b, s1, rfl, ?_⟩
    rw [hM, e.1]; exact h'
  | err s1 => rw [hr] at e; simp [GroupC.observe] at e
  | fault => rw [hr] at e; simp [GroupC.observe] at e

theorem models_empty {κ ν : Type} {ord : κ → κ → Ordering} :
    GroupC.Models ord (pairsOf ord []) (GroupC.empty : GroupC κ ν) :=
  GroupC.models_empty

theorem vintKeyCmp : KeyCmp vintCmp (compare : Int → Int → Ordering) := fun _ _ => rfl

/-- what `InitNodes` looks up in `ins` and `outs` -/
theorem lookup {m : Int → List Int} {g : GroupC Int Int} (h : GroupC.Models (compare : Int → Int → Ordering) m g) (k : Int) :
    ∃ idx, GroupC.onKeys (SortedSeq.indexOf vintCmp k) g = .ok idx g ∧
      ((idx ≠ -1 ∧ GroupC.getByIndex idx g = .ok (m k) g) ∨ (idx = -1 ∧ m k = [])) := by
  obtain ⟨vss, h1, h2⟩ := h
  rcases GroupC.indexOf_cases vintKeyCmp h1 h2 k with ⟨i, p, hi, e, _, _, hv, _⟩ | ⟨e, _, hm⟩
  · refine ⟨i, e, .inl ⟨by omega, ?_⟩⟩
    obtain ⟨hi', e', _⟩ := GroupC.getByIndex_ok h1 h2 hi
    rw [e']
    congr
    rw [List.getElem?_eq_getElem hi'] at hv
    exact Option.some.inj hv
  · exact ⟨-1, e, .inr ⟨rfl, hm⟩⟩

theorem onIns_ok {β : Type} {m : Cpp (GroupC Int Int) β} {p : Proc} {v : β} {g : GroupC Int Int} (h : m p.ins = .ok v g) :
    onIns m p = .ok v { p with ins := g } := by simp [onIns, h]
theorem onOuts_ok {β : Type} {m : Cpp (GroupC Int Int) β} {p : Proc} {v : β} {g : GroupC Int Int} (h : m p.outs = .ok v g) :
    onOuts m p = .ok v { p with outs := g } := by simp [onOuts, h]

/-- `ins` and `outs` store the edges `D`, each from a node to what it depends on -/
structure Edges (D : List (Int × Int)) (p : Proc) : Prop where
  ins : GroupC.Models compare (pairsOf compare D) p.ins
  outs : GroupC.Models compare (pairsOf compare (D.map (fun e => (e.2, e.1)))) p.outs

theorem initNode_ok {D : List (Int × Int)} {p : Proc} (h : Edges D p) {i : Int} {node : Node} (hi : at? p.nodes i = some node) :
    initNode i p = .ok () { p with nodes := p.nodes.set i.toNat { node with
      ins := pairsOf compare D i, outs := pairsOf compare (D.map (fun e => (e.2, e.1))) i } } := by
  obtain ⟨a, ha, ha'⟩ := lookup h.ins i
  obtain ⟨b, hb, hb'⟩ := lookup h.outs i
  unfold initNode
  rw [Cpp.bind_ok (onIns_ok ha), Cpp.bind_ok (onOuts_ok hb)]
  have e1 : (if a ≠ -1 then onIns (GroupC.getByIndex a) else pure []) p = .ok (pairsOf compare D i) p := by
    rcases ha' with ⟨hn, e⟩ | ⟨rfl, e⟩
    · rw [if_pos hn]; exact onIns_ok e
    · rw [if_neg (by simp), e]; rfl
  have e2 : (if b ≠ -1 then onOuts (GroupC.getByIndex b) else pure []) p =
      .ok (pairsOf compare (D.map (fun e => (e.2, e.1))) i) p := by
    rcases hb' with ⟨hn, e⟩ | ⟨rfl, e⟩
    · rw [if_pos hn]; exact onOuts_ok e
    · rw [if_neg (by simp), e]; rfl
  refine (Cpp.bind_ok e1).trans ?_
  refine (Cpp.bind_ok e2).trans ?_
  rw [Cpp.bind_ok (Cpp.get_apply p), hi]
  rfl

/-- the graph with the dependencies `D` -/
def graphOf (n : Nat) (D : List (Int × Int)) : Graph where
  n := n
  ins := pairsOf compare D
  outs := pairsOf compare (D.map (fun e => (e.2, e.1)))

theorem mem_pairsOf {D : List (Int × Int)} {a b : Int} : b ∈ pairsOf compare D a ↔ (a, b) ∈ D := by
  unfold pairsOf
  simp only [List.mem_map, List.mem_filter, beq_iff_eq, Int.compare_eq_eq]
  constructor
  · rintro ⟨⟨x, y⟩, ⟨h1, h2⟩, rfl⟩
    simp only at h2
    exact h2 ▸ h1
  · intro h
    exact ⟨(a, b), ⟨h, rfl⟩, rfl⟩

theorem mem_swap {D : List (Int × Int)} {a b : Int} : (b, a) ∈ D.map (fun e => (e.2, e.1)) ↔ (a, b) ∈ D := by
  simp only [List.mem_map, Prod.mk.injEq]
  constructor
  · rintro ⟨⟨x, y⟩, h, rfl, rfl⟩; exact h
  · intro h; exact ⟨(a, b), h, rfl, rfl⟩

theorem graphOf_ok {n : Nat} {D : List (Int × Int)} (h : ∀ e ∈ D, (0 ≤ e.1 ∧ e.1 < n) ∧ 0 ≤ e.2 ∧ e.2 < n) :
    (graphOf n D).Ok := by
  refine ⟨?_, ?_, ?_⟩
  · intro v w _ hw
    exact (h _ (mem_swap.mp (mem_pairsOf.mp hw))).1
  · intro v w _ hw
    exact (h _ (mem_pairsOf.mp hw)).2
  · intro v w _ _
    show w ∈ pairsOf compare _ v ↔ v ∈ pairsOf compare D w
    rw [mem_pairsOf, mem_pairsOf, mem_swap]

theorem initNodesLoop_ok {D : List (Int × Int)} (n : Nat) : ∀ (i : Nat) (p : Proc), Edges D p → p.nodes.length = i + n →
    (∀ v : Int, 0 ≤ v → v < i → at? p.nodes v = some ⟨false, -1, (graphOf (i + n) D).ins v, (graphOf (i + n) D).outs v⟩) →
    (∀ v : Int, i ≤ v → v < (i + n : Nat) → ∃ a b, at? p.nodes v = some ⟨false, -1, a, b⟩) →
    ∃ p', initNodesLoop n i p = .ok () p' ∧ p'.nodes.length = i + n ∧ p'.components = p.components ∧
      p'.firstNodesBuffer = p.firstNodesBuffer ∧
      ∀ v, (graphOf (i + n) D).In v →
        at? p'.nodes v = some ⟨false, -1, (graphOf (i + n) D).ins v, (graphOf (i + n) D).outs v⟩ := by
  induction n with
  | zero =>
    intro i p _ hl h _
    exact ⟨p, rfl, hl, rfl, rfl, fun v hv => h v hv.1 hv.2⟩
  | succ n ih =>
    intro i p hE hl h1 h2
    obtain ⟨a, b, hn⟩ := h2 i (by omega) (by omega)
    have hstep := initNode_ok hE hn
    have hrest := ih (i + 1) { p with nodes := p.nodes.set (i : Int).toNat ⟨false, -1, pairsOf compare D (i : Int),
        pairsOf compare (D.map (fun e => (e.2, e.1))) (i : Int)⟩ } ⟨hE.ins, hE.outs⟩ (by simp; omega)
      (by
        intro v hv0 hv1
        show at? (p.nodes.set _ _) v = _
        rw [at?_set _ _ _ _ (by omega) (by omega)]
        by_cases e : v = i
        · rw [if_pos e, e]; rfl
        · rw [if_neg e, h1 v hv0 (by omega)]; rfl)
      (by
        intro v hv0 hv1
        obtain ⟨a', b', h'⟩ := h2 v (by omega) (by omega)
        refine ⟨a', b', ?_⟩
        show at? (p.nodes.set _ _) v = _
        rw [at?_set _ _ _ _ (by omega) (by omega), if_neg (by omega), h'])
    obtain ⟨p', e, r1, r2, r3, r4⟩ := hrest
    have hin : i + 1 + n = i + (n + 1) := by omega
    rw [hin] at r1 r4
    refine ⟨p', ?_, r1, r2, r3, r4⟩
    show (initNode (i : Int) >>= fun _ => initNodesLoop n (i + 1)) p = _
    rw [Cpp.bind_ok hstep]
    exact e

theorem initNodes_ok {D : List (Int × Int)} {p : Proc} (h : Edges D p) (n : Nat)
    (hr : ∀ e ∈ D, (0 ≤ e.1 ∧ e.1 < n) ∧ 0 ≤ e.2 ∧ e.2 < n) (h1 : p.nodes = []) (h2 : p.components = [])
    (h3 : p.firstNodesBuffer = []) : ∃ p', initNodes n p = .ok () p' ∧ Ready (graphOf n D) p' := by
  let p1 : Proc := { p with nodes := List.replicate n { ins := [], outs := [] } }
  obtain ⟨p', e, r1, r2, r3, r4⟩ := initNodesLoop_ok (D := D) n 0 p1 ⟨h.ins, h.outs⟩ (by simp [p1]) (by intro v _ _; omega)
    (by
      intro v hv0 hv1
      refine ⟨[], [], ?_⟩
      have hv0' : 0 ≤ v := by omega
      have : v.toNat < n := by omega
      simp [p1, at?, hv0', this])
  simp only [Nat.zero_add] at r1 r4
  refine ⟨p', ?_, graphOf_ok hr, r1, r4, by rw [r2]; exact h2, by rw [r3]; exact h3⟩
  unfold initNodes
  rw [Cpp.bind_ok (Cpp.get_apply p)]
  have e1 : (List.take (n : Int).toNat p.nodes ++ List.replicate ((n : Int).toNat - p.nodes.length) ({ ins := [], outs := [] } : Node)) =
      List.replicate n { ins := [], outs := [] } := by rw [h1]; simp
  simp only [e1]
  exact e

section
variable {τ : Type}

theorem edgeLoop_ok (eq : τ → τ → Bool) (items : List τ) {fromNode : Int} (edges : List τ)
    (hin : ∀ y ∈ edges, firstIndex eq items y ≠ -1) (n : Nat) :
    ∀ (j : Nat) (D : List (Int × Int)) (p : Proc), Edges D p → j + n = edges.length →
    ∃ p', edgeLoop eq items fromNode edges n j p = .ok () p' ∧
      Edges (D ++ (edges.drop j).map (fun y => (fromNode, firstIndex eq items y))) p' ∧
      p'.nodes = p.nodes ∧ p'.components = p.components ∧ p'.firstNodesBuffer = p.firstNodesBuffer := by
  induction n with
  | zero =>
    intro j D p h hj
    refine ⟨p, rfl, ?_, rfl, rfl, rfl⟩
    rw [List.drop_eq_nil_of_le (by omega)]
    simpa using h
  | succ n ih =>
    intro j D p h hj
    have hjl : j < edges.length := by omega
    have hne := hin edges[j] (List.getElem_mem hjl)
    obtain ⟨b1, g1, a1, m1⟩ := group_add vintKeyCmp h.ins fromNode (firstIndex eq items edges[j])
    obtain ⟨b2, g2, a2, m2⟩ := group_add vintKeyCmp h.outs (firstIndex eq items edges[j]) fromNode
    obtain ⟨p', e, hE, r⟩ := ih (j + 1) (D ++ [(fromNode, firstIndex eq items edges[j])])
      { p with ins := g1, outs := g2 } ⟨m1, by rw [List.map_append]; exact m2⟩ (by omega)
    refine ⟨p', ?_, ?_, r⟩
    · unfold edgeLoop
      have h1 : reading (SeqList.get (j : Int) edges) p = .ok edges[j] p := by
        rw [SeqList.get_ok (by omega)]; rfl
      have h2 : reading (SeqList.indexOf eq edges[j] items) p = .ok (firstIndex eq items edges[j]) p := by
        rw [SeqList.indexOf_ok]; rfl
      rw [Cpp.bind_ok h1, Cpp.bind_ok h2, Cpp.bind_ok (Cpp.check_true hne p), Cpp.bind_ok (onIns_ok a1)]
      refine (Cpp.bind_ok (onOuts_ok (p := { p with ins := g1 }) a2)).trans ?_
      exact e
    · rw [List.drop_eq_getElem_cons hjl, List.map_cons]
      rw [List.append_assoc] at hE
      exact hE

theorem keyLoop_ok {ord : τ → τ → Ordering} [Std.TransCmp ord] (eq : τ → τ → Bool) (items : List τ)
    {m : τ → List τ} {dep : GroupC τ τ} (hdep : GroupC.Models ord m dep)
    (hk : ∀ k ∈ dep.keys, firstIndex eq items k ≠ -1 ∧ ∀ y ∈ m k, firstIndex eq items y ≠ -1) (n : Nat) :
    ∀ (i : Nat) (D : List (Int × Int)) (p : Proc), Edges D p → i + n = dep.keys.length →
    ∃ p', keyLoop eq items dep n i p = .ok () p' ∧
      Edges (D ++ (dep.keys.drop i).flatMap (fun k => (m k).map (fun y => (firstIndex eq items k, firstIndex eq items y)))) p' ∧
      p'.nodes = p.nodes ∧ p'.components = p.components ∧ p'.firstNodesBuffer = p.firstNodesBuffer := by
  induction n with
  | zero =>
    intro i D p h hi
    refine ⟨p, rfl, ?_, rfl, rfl, rfl⟩
    rw [List.drop_eq_nil_of_le (by omega)]
    simpa using h
  | succ n ih =>
    intro i D p h hi
    have hil : i < dep.keys.length := by omega
    obtain ⟨hne, hys⟩ := hk _ (List.getElem_mem hil)
    obtain ⟨p1, e1, hE1, q1, q2, q3⟩ := edgeLoop_ok eq items (fromNode := firstIndex eq items dep.keys[i]) (m dep.keys[i]) hys
      (m dep.keys[i]).length 0 D p h (by omega)
    obtain ⟨p', e, hE, r1, r2, r3⟩ := ih (i + 1) _ p1 hE1 (by omega)
    refine ⟨p', ?_, ?_, r1.trans q1, r2.trans q2, r3.trans q3⟩
    · unfold keyLoop
      have h1 : reading (SeqList.get (i : Int) dep.keys) p = .ok dep.keys[i] p := by
        rw [SeqList.get_ok (by omega)]; rfl
      have h2 : reading (SeqList.indexOf eq dep.keys[i] items) p = .ok (firstIndex eq items dep.keys[i]) p := by
        rw [SeqList.indexOf_ok]; rfl
      have h3 : reading (GroupC.getByIndex (i : Int) dep) p = .ok (m dep.keys[i]) p := by
        obtain ⟨vss, d1, d2⟩ := hdep
        obtain ⟨_, e, he⟩ := GroupC.getByIndex_ok d1 d2 hil
        rw [e, he]; rfl
      rw [Cpp.bind_ok h1, Cpp.bind_ok h2, Cpp.bind_ok (Cpp.check_true hne p), Cpp.bind_ok h3]
      refine (Cpp.bind_ok e1).trans ?_
      exact e
    · rw [List.drop_eq_getElem_cons hil, List.flatMap_cons]
      rw [List.append_assoc] at hE
      exact hE

/-- what `InitWithGroup` makes of `items` and `depGroup`: the node at which the first occurrence of a key is depends on
the nodes at which the first occurrences of its values are -/
theorem initWithGroup_ok {ord : τ → τ → Ordering} [Std.TransCmp ord] (eq : τ → τ → Bool) (items : List τ)
    {m : τ → List τ} {dep : GroupC τ τ} (hdep : GroupC.Models ord m dep)
    (hk : ∀ k ∈ dep.keys, firstIndex eq items k ≠ -1 ∧ ∀ y ∈ m k, firstIndex eq items y ≠ -1) :
    ∃ p D, initWithGroup eq items dep {} = .ok () p ∧ Ready (graphOf items.length D) p ∧
      D = dep.keys.flatMap (fun k => (m k).map (fun y => (firstIndex eq items k, firstIndex eq items y))) ∧
      ∀ e ∈ D, (0 ≤ e.1 ∧ e.1 < items.length) ∧ 0 ≤ e.2 ∧ e.2 < items.length := by
  obtain ⟨p1, e1, hE, q1, q2, q3⟩ := keyLoop_ok eq items hdep hk dep.keys.length 0 [] {} ⟨models_empty, models_empty⟩ (by omega)
  simp only [List.nil_append, List.drop_zero] at hE
  have hrange : ∀ x, firstIndex eq items x ≠ -1 → 0 ≤ firstIndex eq items x ∧ firstIndex eq items x < items.length := by
    intro x hx
    unfold firstIndex at hx ⊢
    cases h : items.findIdx? (fun y => eq y x) with
    | none => rw [h] at hx; exact (hx rfl).elim
    | some i =>
      have := List.findIdx?_eq_some_iff_findIdx_eq.mp h
      simp; omega
  have hr : ∀ e ∈ dep.keys.flatMap (fun k => (m k).map (fun y => (firstIndex eq items k, firstIndex eq items y))),
      (0 ≤ e.1 ∧ e.1 < items.length) ∧ 0 ≤ e.2 ∧ e.2 < items.length := by
    intro e he
    obtain ⟨k, hkm, hy⟩ := List.mem_flatMap.mp he
    obtain ⟨y, hym, rfl⟩ := List.mem_map.mp hy
    exact ⟨hrange k (hk k hkm).1, hrange y ((hk k hkm).2 y hym)⟩
  obtain ⟨p, e2, hR⟩ := initNodes_ok hE items.length hr q1 q2 q3
  refine ⟨p, _, ?_, hR, rfl, hr⟩
  unfold initWithGroup
  rw [Cpp.bind_ok (Cpp.get_apply _), Cpp.bind_ok (Cpp.check_true (by rfl) _)]
  exact (Cpp.bind_ok e1).trans e2

theorem funcInner_ok {cmp : τ → τ → Option Ordering} {ord : τ → τ → Ordering} [Std.TransCmp ord] (hcmp : KeyCmp cmp ord)
    (depFunc : τ → τ → Bool) (x : τ) (ys : List τ) : ∀ (D : List (τ × τ)) (g : GroupC τ τ),
    GroupC.Models ord (pairsOf ord D) g →
    ∃ g', funcInner cmp depFunc x ys g = .ok () g' ∧
      GroupC.Models ord (pairsOf ord (D ++ (ys.filter (depFunc x)).map (fun y => (x, y)))) g' := by
  induction ys with
  | nil => intro D g h; exact ⟨g, rfl, by simpa using h⟩
  | cons y ys ih =>
    intro D g h
    unfold funcInner
    by_cases hd : depFunc x y = true
    · rw [if_pos hd]
      obtain ⟨b, g1, e1, h1⟩ := group_add hcmp h x y
      obtain ⟨g', e, h'⟩ := ih _ g1 h1
      refine ⟨g', (Cpp.bind_ok e1).trans e, ?_⟩
      rw [List.filter_cons_of_pos hd]
      simpa using h'
    · rw [if_neg hd]
      obtain ⟨g', e, h'⟩ := ih D g h
      refine ⟨g', e, ?_⟩
      rw [List.filter_cons_of_neg hd]
      exact h'

theorem funcOuter_ok {cmp : τ → τ → Option Ordering} {ord : τ → τ → Ordering} [Std.TransCmp ord] (hcmp : KeyCmp cmp ord)
    (depFunc : τ → τ → Bool) (items xs : List τ) : ∀ (D : List (τ × τ)) (g : GroupC τ τ),
    GroupC.Models ord (pairsOf ord D) g →
    ∃ g', funcOuter cmp depFunc items xs g = .ok () g' ∧
      GroupC.Models ord (pairsOf ord (D ++ xs.flatMap (fun x => (items.filter (depFunc x)).map (fun y => (x, y))))) g' := by
  induction xs with
  | nil => intro D g h; exact ⟨g, rfl, by simpa using h⟩
  | cons x xs ih =>
    intro D g h
    unfold funcOuter
    obtain ⟨g1, e1, h1⟩ := funcInner_ok hcmp depFunc x items D g h
    obtain ⟨g', e, h'⟩ := ih _ g1 h1
    exact ⟨g', (Cpp.bind_ok e1).trans e, by simpa using h'⟩
end

end PO
end Vlpp
