import Verif.Model.PartialOrderingCost
import Verif.Props.PartialOrderingEffProps

set_option autoImplicit false
namespace Vlpp
namespace PO
open Spec

/-- an outcome together with counters -/
def withCost {S : Type} : Outcome S Unit → Cost → Outcome (S × Cost) Unit
  | .ok _ s, c => .ok () (s, c)
  | .err s, c => .err (s, c)
  | .fault, _ => .fault

/-- the sum of `f` over the nodes that satisfy `q` -/
def total (q : Node → Bool) (f : Node → Nat) : List Node → Nat
  | [] => 0
  | nd :: nodes => (if q nd then f nd else 0) + total q f nodes

theorem total_le {q : Node → Bool} {f : Node → Nat} {nodes : List Node} {i : Nat} {nd : Node} (h : nodes[i]? = some nd)
    (hq : q nd = true) : f nd ≤ total q f nodes := by
  induction nodes generalizing i with
  | nil => simp at h
  | cons x nodes ih =>
    cases i with
    | zero => simp only [List.getElem?_cons_zero, Option.some.injEq] at h; subst h; simp [total, hq]
    | succ i => simp only [List.getElem?_cons_succ] at h; have := ih h; simp only [total]; omega

/-- a node stops satisfying `q` -/
theorem total_set {q : Node → Bool} {f : Node → Nat} {nodes : List Node} {i : Nat} {nd nd' : Node} (h : nodes[i]? = some nd)
    (hq : q nd = true) (hq' : q nd' = false) : total q f (nodes.set i nd') + f nd = total q f nodes := by
  induction nodes generalizing i with
  | nil => simp at h
  | cons x nodes ih =>
    cases i with
    | zero => simp only [List.getElem?_cons_zero, Option.some.injEq] at h; subst h; simp [total, hq, hq']; omega
    | succ i => simp only [List.getElem?_cons_succ] at h; have := ih h; simp only [List.set_cons_succ, total]; omega

/-- the nodes that were not visited, and the edges from them -/
def unvisited (nodes : List Node) : Nat := total (fun nd => !nd.visited) (fun _ => 1) nodes
def unvisitedEdges (nodes : List Node) : Nat := total (fun nd => !nd.visited) (fun nd => nd.outs.length) nodes

/-- what the first pass pays for: `k` rounds of its own and everything it visits -/
structure Pays1 (k : Nat) (s s' : VisitState) (d : Nat) (c c' : Cost) : Prop where
  calls : c'.calls + unvisited s'.nodes = c.calls + unvisited s.nodes
  rounds : c'.rounds + unvisitedEdges s'.nodes = c.rounds + unvisitedEdges s.nodes + k
  nested : c'.nested ≤ max c.nested (d + unvisited s.nodes)
  less : unvisited s'.nodes ≤ unvisited s.nodes
  more : c.nested ≤ c'.nested

theorem visit_cost :
    (∀ v s r, visit v s = some r → (∀ nd, at? s.nodes v = some nd → nd.visited = false) →
      ∀ d c, ∃ c', visitC (d + 1) v s c = some (withCost r c') ∧ ∀ s', r = .ok () s' → Pays1 0 s s' d c c') ∧
    (∀ todo s r, visitLoop todo s = some r →
      ∀ d c, ∃ c', visitLoopC d todo s c = some (withCost r c') ∧ ∀ s', r = .ok () s' → Pays1 todo.length s s' d c c') := by
  apply visit.mutual_partial_correctness
    (fun v s r => (∀ nd, at? s.nodes v = some nd → nd.visited = false) →
      ∀ d c, ∃ c', visitC (d + 1) v s c = some (withCost r c') ∧ ∀ s', r = .ok () s' → Pays1 0 s s' d c c')
    (fun todo s r => ∀ d c, ∃ c', visitLoopC d todo s c = some (withCost r c') ∧
      ∀ s', r = .ok () s' → Pays1 todo.length s s' d c c')
  · intro loop ih v s r hr hun d c
    rw [visitC.eq_def]
    cases hn : at? s.nodes v with
    | none =>
      simp only [hn, Option.some.injEq] at hr ⊢
      subst hr
      exact ⟨_, rfl, fun s' h => by cases h⟩
    | some node =>
      simp only [hn] at hr ⊢
      have hvis := hun node hn
      obtain ⟨hv0, hvl, hget⟩ := at?_some hn
      cases hl : loop node.outs.reverse { s with nodes := s.nodes.set v.toNat { node with visited := true } } with
      | none => rw [hl] at hr; cases hr
      | some r1 =>
        obtain ⟨c1, e1, h1⟩ := ih _ _ _ hl (d + 1) (c.enter (d + 1))
        rw [hl] at hr
        rw [e1]
        have m1 : unvisited (s.nodes.set v.toNat { node with visited := true }) + 1 = unvisited s.nodes :=
          total_set hget (by simp [hvis]) rfl
        have m2 : unvisitedEdges (s.nodes.set v.toNat { node with visited := true }) + node.outs.length =
          unvisitedEdges s.nodes := total_set (f := fun nd => nd.outs.length) hget (by simp [hvis]) rfl
        cases r1 with
        | fault => cases hr; exact ⟨c1, rfl, fun s' h => by cases h⟩
        | err s1 => cases hr; exact ⟨c1, rfl, fun s' h => by cases h⟩
        | ok u s1 =>
          have p := h1 s1 rfl
          obtain ⟨p1, p2, p3, p4, p5⟩ := p
          simp only [Cost.enter, List.length_reverse] at p1 p2 p3 p4 p5
          by_cases hu : 0 ≤ s1.used ∧ s1.used < s1.reversedOrder.length
          · have hr' : some (.ok () { s1 with reversedOrder := s1.reversedOrder.set s1.used.toNat (some v), used := s1.used + 1 }) = some r := by
              have := hr
              simpa [hu] using this
            cases hr'
            refine ⟨c1, ?_, ?_⟩
            · simp [withCost, hu]
            · intro s' hs'
              cases hs'
              refine ⟨?_, ?_, ?_, ?_, by omega⟩
              · show c1.calls + unvisited s1.nodes = _
                omega
              · show c1.rounds + unvisitedEdges s1.nodes = _
                omega
              · show c1.nested ≤ _
                omega
              · show unvisited s1.nodes ≤ _
                omega
          · have hr' : some (.err { s1 with used := s1.used + 1 }) = some r := by
              have := hr
              simpa [hu] using this
            cases hr'
            refine ⟨c1, by simp [withCost, hu], fun s' h => by cases h⟩
  · intro vis loop ihv ihl todo s r hr d c
    rw [visitLoopC.eq_def]
    cases todo with
    | nil =>
      cases hr
      exact ⟨c, rfl, fun s' h => by cases h; exact ⟨rfl, by simp, by omega, by omega, by omega⟩⟩
    | cons w rest =>
      simp only at hr ⊢
      cases hn : at? s.nodes w with
      | none =>
        simp only [hn, Option.some.injEq] at hr ⊢
        subst hr
        exact ⟨_, rfl, fun s' h => by cases h⟩
      | some node =>
        simp only [hn] at hr ⊢
        by_cases hvis : node.visited = true
        · rw [if_pos hvis] at hr ⊢
          obtain ⟨c1, e1, h1⟩ := ihl _ _ _ hr d c.round
          refine ⟨c1, e1, fun s' h => ?_⟩
          obtain ⟨p1, p2, p3, p4, p5⟩ := h1 s' h
          simp only [Cost.round] at p1 p2 p3 p5
          exact ⟨p1, by simp only [List.length_cons]; omega, p3, p4, p5⟩
        · rw [if_neg hvis] at hr ⊢
          cases hv : vis w s with
          | none => rw [hv] at hr; cases hr
          | some r1 =>
            obtain ⟨c1, e1, h1⟩ := ihv _ _ _ hv (by
              intro nd h; rw [hn] at h; cases h; simpa using hvis) d c.round
            rw [hv] at hr
            rw [e1]
            cases r1 with
            | fault => cases hr; exact ⟨c1, rfl, fun s' h => by cases h⟩
            | err s1 => cases hr; exact ⟨c1, rfl, fun s' h => by cases h⟩
            | ok u s1 =>
              obtain ⟨c2, e2, h2⟩ := ihl _ _ _ hr d c1
              obtain ⟨p1, p2, p3, p4, p5⟩ := h1 s1 rfl
              simp only [Cost.round] at p1 p2 p3 p5
              refine ⟨c2, e2, fun s' h => ?_⟩
              obtain ⟨q1, q2, q3, q4, q5⟩ := h2 s' h
              exact ⟨by omega, by simp only [List.length_cons]; omega, by omega, by omega, by omega⟩

/-- the nodes that have no component yet, and the edges from them -/
def unassigned (nodes : List Node) : Nat := total (fun nd => nd.component == -1) (fun _ => 1) nodes
def unassignedEdges (nodes : List Node) : Nat := total (fun nd => nd.component == -1) (fun nd => nd.ins.length) nodes

/-- what the second pass pays for -/
structure Pays2 (k : Nat) (s s' : AssignState) (d : Nat) (c c' : Cost) : Prop where
  calls : c'.calls + unassigned s'.nodes = c.calls + unassigned s.nodes
  rounds : c'.rounds + unassignedEdges s'.nodes = c.rounds + unassignedEdges s.nodes + k
  nested : c'.nested ≤ max c.nested (d + unassigned s.nodes)
  less : unassigned s'.nodes ≤ unassigned s.nodes
  more : c.nested ≤ c'.nested

theorem assign_cost {k : Int} (hk : k ≠ -1) :
    (∀ v s r, assign k v s = some r → (∀ nd, at? s.nodes v = some nd → nd.component = -1) →
      ∀ d c, ∃ c', assignC (d + 1) k v s c = some (withCost r c') ∧ ∀ s', r = .ok () s' → Pays2 0 s s' d c c') ∧
    (∀ todo s r, assignLoop k todo s = some r →
      ∀ d c, ∃ c', assignLoopC d k todo s c = some (withCost r c') ∧ ∀ s', r = .ok () s' → Pays2 todo.length s s' d c c') := by
  apply assign.mutual_partial_correctness k
    (fun v s r => (∀ nd, at? s.nodes v = some nd → nd.component = -1) →
      ∀ d c, ∃ c', assignC (d + 1) k v s c = some (withCost r c') ∧ ∀ s', r = .ok () s' → Pays2 0 s s' d c c')
    (fun todo s r => ∀ d c, ∃ c', assignLoopC d k todo s c = some (withCost r c') ∧
      ∀ s', r = .ok () s' → Pays2 todo.length s s' d c c')
  · intro loop ih v s r hr hun d c
    rw [assignC.eq_def]
    cases hn : at? s.nodes v with
    | none =>
      simp only [hn, Option.some.injEq] at hr ⊢
      subst hr
      exact ⟨_, rfl, fun s' h => by cases h⟩
    | some node =>
      simp only [hn] at hr ⊢
      have hvis := hun node hn
      obtain ⟨hv0, hvl, hget⟩ := at?_some hn
      have m1 : unassigned (s.nodes.set v.toNat { node with component := k }) + 1 = unassigned s.nodes :=
        total_set hget (by simp [hvis]) (by simpa using hk)
      have m2 : unassignedEdges (s.nodes.set v.toNat { node with component := k }) + node.ins.length =
        unassignedEdges s.nodes := total_set (f := fun nd => nd.ins.length) hget (by simp [hvis]) (by simpa using hk)
      by_cases hu : 0 ≤ s.used ∧ s.used < s.firstNodesBuffer.length
      · rw [if_pos hu] at hr ⊢
        obtain ⟨c1, e1, h1⟩ := ih _ _ _ hr (d + 1) (c.enter (d + 1))
        refine ⟨c1, e1, fun s' h => ?_⟩
        obtain ⟨p1, p2, p3, p4, p5⟩ := h1 s' h
        simp only [Cost.enter] at p1 p2 p3 p4 p5
        exact ⟨by omega, by omega, by omega, by omega, by omega⟩
      · rw [if_neg hu] at hr ⊢
        cases hr
        exact ⟨_, rfl, fun s' h => by cases h⟩
  · intro asg loop ihv ihl todo s r hr d c
    rw [assignLoopC.eq_def]
    cases todo with
    | nil =>
      cases hr
      exact ⟨c, rfl, fun s' h => by cases h; exact ⟨rfl, by simp, by omega, by omega, by omega⟩⟩
    | cons w rest =>
      simp only at hr ⊢
      cases hn : at? s.nodes w with
      | none =>
        simp only [hn, Option.some.injEq] at hr ⊢
        subst hr
        exact ⟨_, rfl, fun s' h => by cases h⟩
      | some node =>
        simp only [hn] at hr ⊢
        by_cases hvis : node.component = -1
        · rw [if_pos hvis] at hr ⊢
          cases hv : asg w s with
          | none => rw [hv] at hr; cases hr
          | some r1 =>
            obtain ⟨c1, e1, h1⟩ := ihv _ _ _ hv (by
              intro nd h; rw [hn] at h; cases h; exact hvis) d c.round
            rw [hv] at hr
            rw [e1]
            cases r1 with
            | fault => cases hr; exact ⟨c1, rfl, fun s' h => by cases h⟩
            | err s1 => cases hr; exact ⟨c1, rfl, fun s' h => by cases h⟩
            | ok u s1 =>
              obtain ⟨c2, e2, h2⟩ := ihl _ _ _ hr d c1
              obtain ⟨p1, p2, p3, p4, p5⟩ := h1 s1 rfl
              simp only [Cost.round] at p1 p2 p3 p5
              refine ⟨c2, e2, fun s' h => ?_⟩
              obtain ⟨q1, q2, q3, q4, q5⟩ := h2 s' h
              exact ⟨by omega, by simp only [List.length_cons]; omega, by omega, by omega, by omega⟩
        · rw [if_neg hvis] at hr ⊢
          obtain ⟨c1, e1, h1⟩ := ihl _ _ _ hr d c.round
          refine ⟨c1, e1, fun s' h => ?_⟩
          obtain ⟨p1, p2, p3, p4, p5⟩ := h1 s' h
          simp only [Cost.round] at p1 p2 p3 p5
          exact ⟨p1, by simp only [List.length_cons]; omega, p3, p4, p5⟩

theorem componentLoop_cost (order : List (Option Int)) : ∀ (lastUsed : Int) (s : AssignState) (cs : List Component)
    (r : Outcome (AssignState × List Component) Unit), componentLoop order lastUsed s cs = some r →
    ∀ c, ∃ c', componentLoopC order lastUsed s cs c = some (withCost r c') ∧
      ∀ x, r = .ok () x → Pays2 order.length s x.1 0 c c' := by
  induction order with
  | nil =>
    intro lastUsed s cs r hr c
    cases hr
    exact ⟨c, rfl, fun s' h => by cases h; exact ⟨rfl, by simp, by omega, Nat.le_refl _, by omega⟩⟩
  | cons o order ih =>
    intro lastUsed s cs r hr c
    cases o with
    | none => cases hr; exact ⟨c, rfl, fun s' h => by cases h⟩
    | some v =>
      simp only [componentLoop] at hr
      simp only [componentLoopC]
      cases hn : at? s.nodes v with
      | none =>
        simp only [hn, Option.some.injEq] at hr ⊢
        subst hr
        exact ⟨_, rfl, fun s' h => by cases h⟩
      | some node =>
        simp only [hn] at hr ⊢
        by_cases hvis : node.component = -1
        · rw [if_pos hvis] at hr ⊢
          cases hv : assign cs.length v s with
          | none => rw [hv] at hr; cases hr
          | some r1 =>
            obtain ⟨c1, e1, h1⟩ := (assign_cost (k := cs.length) (by omega)).1 _ _ _ hv (by
              intro nd h; rw [hn] at h; cases h; exact hvis) 0 c.round
            rw [hv] at hr
            rw [e1]
            cases r1 with
            | fault => cases hr; exact ⟨c1, rfl, fun s' h => by cases h⟩
            | err s1 => cases hr; exact ⟨c1, rfl, fun s' h => by cases h⟩
            | ok u s1 =>
              obtain ⟨p1, p2, p3, p4, p5⟩ := h1 s1 rfl
              simp only [Cost.round] at p1 p2 p3 p5
              simp only [withCost] at hr ⊢
              by_cases hu : 0 ≤ lastUsed ∧ lastUsed < s1.firstNodesBuffer.length
              · rw [if_pos hu] at hr ⊢
                obtain ⟨c2, e2, h2⟩ := ih _ _ _ _ hr c1
                refine ⟨c2, e2, fun s' h => ?_⟩
                obtain ⟨q1, q2, q3, q4, q5⟩ := h2 s' h
                exact ⟨by omega, by simp only [List.length_cons]; omega, by omega, by omega, by omega⟩
              · rw [if_neg hu] at hr ⊢
                cases hr
                exact ⟨c1, rfl, fun s' h => by cases h⟩
        · rw [if_neg hvis] at hr ⊢
          obtain ⟨c1, e1, h1⟩ := ih _ _ _ _ hr c.round
          refine ⟨c1, e1, fun s' h => ?_⟩
          obtain ⟨p1, p2, p3, p4, p5⟩ := h1 s' h
          simp only [Cost.round] at p1 p2 p3 p5
          exact ⟨p1, by simp only [List.length_cons]; omega, p3, p4, p5⟩

/-- **C110**: the counters do not change what `Sort` does, for any processor. -/
theorem _root_.Vlpp.C110_same (p : Proc) {r : Outcome Proc Unit} (hr : sort p = some r) :
    ∃ c, sortC p = some (withCost r c) := by
  unfold sort at hr
  unfold sortC
  by_cases hc : p.components.length ≠ 0
  · rw [if_pos hc] at hr ⊢
    cases hr
    exact ⟨_, rfl⟩
  · rw [if_neg hc] at hr ⊢
    cases hv : visitLoop (downFrom p.nodes.length) ⟨p.nodes, List.replicate p.nodes.length none, 0⟩ with
    | none => rw [hv] at hr; cases hr
    | some r1 =>
      obtain ⟨c1, e1, _⟩ := visit_cost.2 _ _ _ hv 0 {}
      rw [hv] at hr
      rw [e1]
      cases r1 with
      | fault => cases hr; exact ⟨c1, rfl⟩
      | err s1 => cases hr; exact ⟨c1, rfl⟩
      | ok u s1 =>
        simp only [withCost] at hr ⊢
        cases hl : componentLoop s1.reversedOrder.reverse 0 ⟨s1.nodes, p.firstNodesBuffer.take s1.nodes.length ++
            List.replicate (s1.nodes.length - p.firstNodesBuffer.length) none, 0⟩ [] with
        | none => rw [hl] at hr; cases hr
        | some r2 =>
          obtain ⟨c2, e2, _⟩ := componentLoop_cost _ _ _ _ _ hl c1
          rw [hl] at hr
          rw [e2]
          cases r2 with
          | fault => cases hr; exact ⟨c2, rfl⟩
          | err x => cases hr; exact ⟨c2, rfl⟩
          | ok u x => cases hr; exact ⟨c2, rfl⟩

theorem total_all {q : Node → Bool} {f : Node → Nat} {nodes : List Node} (h : ∀ nd ∈ nodes, q nd = true) :
    total q f nodes = (nodes.map f).sum := by
  induction nodes with
  | nil => rfl
  | cons x nodes ih => simp [total, h x (by simp), ih (fun nd hnd => h nd (by simp [hnd]))]

theorem total_none {q : Node → Bool} {f : Node → Nat} {nodes : List Node} (h : ∀ nd ∈ nodes, q nd = false) :
    total q f nodes = 0 := by
  induction nodes with
  | nil => rfl
  | cons x nodes ih => simp [total, h x (by simp), ih (fun nd hnd => h nd (by simp [hnd]))]

/-- a property of the nodes `0 .. n - 1` is one of all elements -/
theorem all_nodes {nodes : List Node} {n : Nat} (hl : nodes.length = n) {P : Node → Prop}
    (h : ∀ v : Int, 0 ≤ v → v < n → ∃ nd, at? nodes v = some nd ∧ P nd) : ∀ nd ∈ nodes, P nd := by
  intro nd hnd
  obtain ⟨i, hi, rfl⟩ := List.mem_iff_getElem.mp hnd
  obtain ⟨nd', e, hp⟩ := h i (by omega) (by omega)
  obtain ⟨_, _, e'⟩ := at?_some e
  rw [Int.toNat_natCast, List.getElem?_eq_getElem hi] at e'
  cases e'
  exact hp

theorem map_nodes {nodes : List Node} {n : Nat} (hl : nodes.length = n) {f : Node → Nat} {F : Int → Nat}
    (h : ∀ v : Int, 0 ≤ v → v < n → ∃ nd, at? nodes v = some nd ∧ f nd = F v) :
    nodes.map f = (List.range n).map fun i : Nat => F (i : Int) := by
  apply List.ext_getElem (by simp [hl])
  intro i h1 h2
  simp only [List.length_map] at h1
  obtain ⟨nd', e, hp⟩ := h i (by omega) (by omega)
  obtain ⟨_, _, e'⟩ := at?_some e
  rw [Int.toNat_natCast, List.getElem?_eq_getElem h1] at e'
  cases e'
  simp [hp]

theorem sum_map_zero {F : Nat → Nat} {l : List Nat} (h : ∀ i ∈ l, F i = 0) : (l.map F).sum = 0 := by
  induction l with
  | nil => rfl
  | cons x l ih => simp [h x (by simp), ih (fun i hi => h i (by simp [hi]))]

theorem sum_ones (nodes : List Node) : (nodes.map fun _ => 1).sum = nodes.length := by
  induction nodes with
  | nil => rfl
  | cons x nodes ih => rw [List.map_cons, List.sum_cons, ih, List.length_cons]; omega

theorem sum_indicator (n : Nat) (a : Int) (h0 : 0 ≤ a) (h1 : a < n) :
    ((List.range n).map fun i : Nat => if a = (i : Int) then 1 else 0).sum = 1 := by
  induction n with
  | zero => omega
  | succ n ih =>
    rw [List.range_succ, List.map_append, List.sum_append]
    by_cases h : a = n
    · have : ((List.range n).map fun i : Nat => if a = (i : Int) then 1 else 0).sum = 0 := by
        apply sum_map_zero
        intro i hi
        have := List.mem_range.mp hi
        rw [if_neg (by omega)]
      rw [this]; simp [h]
    · rw [ih (by omega)]; simp [h]

theorem sum_pairsOf (n : Nat) (D : List (Int × Int)) (h : ∀ e ∈ D, 0 ≤ e.1 ∧ e.1 < n) :
    ((List.range n).map fun i : Nat => (pairsOf compare D (i : Int)).length).sum = D.length := by
  induction D with
  | nil => exact sum_map_zero (fun i _ => rfl)
  | cons e D ih =>
    have hstep : ∀ i : Nat, (pairsOf compare (e :: D) (i : Int)).length =
        (if e.1 = (i : Int) then 1 else 0) + (pairsOf compare D (i : Int)).length := by
      intro i
      unfold pairsOf
      by_cases hc : e.1 = (i : Int)
      · rw [List.filter_cons_of_pos (by simp [hc]), if_pos hc]; simp; omega
      · rw [List.filter_cons_of_neg (by simpa using hc), if_neg hc]; simp
    have hsum : ∀ (F G : Nat → Nat) (l : List Nat), (l.map fun i => F i + G i).sum = (l.map F).sum + (l.map G).sum := by
      intro F G l
      induction l with
      | nil => rfl
      | cons x l ih => simp only [List.map_cons, List.sum_cons, ih]; omega
    have : ((List.range n).map fun i : Nat => (pairsOf compare (e :: D) (i : Int)).length) =
        (List.range n).map fun i : Nat => (if e.1 = (i : Int) then 1 else 0) + (pairsOf compare D (i : Int)).length := by
      apply List.map_congr_left
      intro i _
      exact hstep i
    rw [this, hsum, ih (fun x hx => h x (by simp [hx])), sum_indicator n e.1 (h e (by simp)).1 (h e (by simp)).2]
    simp; omega

/-- what `Sort` costs after an initialisation that stored the dependencies `D`; `deep` is a lower bound for the first pass -/
theorem sort_cost {n : Nat} {D : List (Int × Int)} {p : Proc} (h : Ready (graphOf n D) p)
    (hr : ∀ e ∈ D, (0 ≤ e.1 ∧ e.1 < n) ∧ 0 ≤ e.2 ∧ e.2 < n) {deep : Nat}
    (hdeep : ∀ s c, visitLoopC 0 (downFrom p.nodes.length) ⟨p.nodes, List.replicate p.nodes.length none, 0⟩ {} =
      some (.ok () (s, c)) → deep ≤ c.nested) :
    ∃ p' c, sort p = some (.ok () p') ∧ sortC p = some (.ok () (p', c)) ∧ c.calls = 2 * n ∧
      c.rounds = 2 * n + 2 * D.length ∧ c.nested ≤ n ∧ deep ≤ c.nested := by
  obtain ⟨p', cs, e0, hlen, _, _, hnodes, hsc⟩ := sort_spec h
  have hn : (graphOf n D).n = n := rfl
  obtain ⟨e, s1, h1, h2, h3⟩ := visitLoop_spec h.ok n (downFrom p.nodes.length)
    ⟨p.nodes, List.replicate p.nodes.length none, 0⟩ [] [] (by simp [hn])
    ⟨h.len, by intro v hv; rw [h.node v hv]; simp, by simp [h.len], rfl, rfl, by simp, by simp,
      by intro a p b q c ho; simp at ho, by intro a p b q ho; simp at ho⟩
    (by intro w hw; rw [mem_downFrom, h.len] at hw; exact hw) (by simp)
  simp only [List.nil_append] at h2 h3
  have hall : ∀ v, (graphOf n D).In v → v ∈ e := by
    intro v hv
    rcases h3 v ((mem_downFrom _ v).mpr (by rw [h.len]; exact hv)) with h | h
    · exact h
    · cases h
  have hs1 : ∀ v : Int, 0 ≤ v → v < n → at? s1.nodes v = some ⟨true, -1, (graphOf n D).ins v, (graphOf n D).outs v⟩ := by
    intro v hv0 hv1
    rw [h2.node v ⟨hv0, hv1⟩]
    simp [hall v ⟨hv0, hv1⟩]
  obtain ⟨c1, f1, g1⟩ := visit_cost.2 _ _ _ h1 0 {}
  have hd := hdeep s1 c1 f1
  obtain ⟨p1, p2, p3, p4, p5⟩ := g1 s1 rfl
  have u0 : unvisited p.nodes = n := by
    unfold unvisited
    rw [total_all (all_nodes h.len fun v hv0 hv1 => ⟨_, h.node v ⟨hv0, hv1⟩, rfl⟩)]
    rw [sum_ones]
    exact h.len
  have u1 : unvisitedEdges p.nodes = D.length := by
    unfold unvisitedEdges
    rw [total_all (all_nodes h.len fun v hv0 hv1 => ⟨_, h.node v ⟨hv0, hv1⟩, rfl⟩),
      map_nodes (F := fun v => (pairsOf compare (D.map fun e => (e.2, e.1)) v).length) h.len
        fun v hv0 hv1 => ⟨_, h.node v ⟨hv0, hv1⟩, rfl⟩]
    have := sum_pairsOf n (D.map fun e => (e.2, e.1)) (by
      intro x hx
      obtain ⟨z, hz, rfl⟩ := List.mem_map.mp hx
      exact (hr z hz).2)
    rw [List.length_map] at this
    exact this
  have v0 : unvisited s1.nodes = 0 := total_none (all_nodes h2.len fun v hv0 hv1 => ⟨_, hs1 v hv0 hv1, rfl⟩)
  have v1 : unvisitedEdges s1.nodes = 0 := total_none (all_nodes h2.len fun v hv0 hv1 => ⟨_, hs1 v hv0 hv1, rfl⟩)
  have hdl : ∀ k, (downFrom k).length = k := by
    intro k
    induction k with
    | zero => rfl
    | succ k ih => simp [downFrom, ih]
  rw [hdl] at p2
  have p1' : c1.calls + unvisited s1.nodes = 0 + unvisited p.nodes := p1
  have p2' : c1.rounds + unvisitedEdges s1.nodes = 0 + unvisitedEdges p.nodes + p.nodes.length := p2
  have p3' : c1.nested ≤ max 0 (0 + unvisited p.nodes) := p3
  have hpl : p.nodes.length = n := h.len
  clear p1 p2 p3
  -- the second pass
  have e1 := e0
  unfold sort at e1
  unfold sortC
  rw [if_neg (by simp [h.components]), h1] at e1
  rw [if_neg (by simp [h.components]), f1]
  simp only [withCost] at e1 ⊢
  cases hl : componentLoop s1.reversedOrder.reverse 0 ⟨s1.nodes, p.firstNodesBuffer.take s1.nodes.length ++
      List.replicate (s1.nodes.length - p.firstNodesBuffer.length) none, 0⟩ [] with
  | none => rw [hl] at e1; cases e1
  | some r2 =>
    obtain ⟨c2, f2, g2⟩ := componentLoop_cost _ _ _ _ _ hl c1
    rw [hl] at e1
    rw [f2]
    cases r2 with
    | fault => cases e1
    | err x => cases e1
    | ok u x =>
      obtain ⟨q1, q2, q3, q4, q5⟩ := g2 x rfl
      cases e1
      have w0 : unassigned s1.nodes = n := by
        unfold unassigned
        rw [total_all (all_nodes h2.len fun v hv0 hv1 => ⟨_, hs1 v hv0 hv1, rfl⟩)]
        rw [sum_ones]
        exact h2.len
      have w1 : unassignedEdges s1.nodes = D.length := by
        unfold unassignedEdges
        rw [total_all (all_nodes h2.len fun v hv0 hv1 => ⟨_, hs1 v hv0 hv1, rfl⟩),
          map_nodes (F := fun v => (pairsOf compare D v).length) h2.len fun v hv0 hv1 => ⟨_, hs1 v hv0 hv1, rfl⟩]
        exact sum_pairsOf n D fun x hx => (hr x hx).1
      have hx : ∀ v : Int, 0 ≤ v → v < n → ∃ nd, at? x.1.nodes v = some nd ∧ (nd.component == -1) = false := by
        intro v hv0 hv1
        obtain ⟨C, hC, hv⟩ := List.mem_flatten.mp ((hsc.nodes v).mpr ⟨hv0, hv1⟩)
        obtain ⟨i, hi, rfl⟩ := List.mem_iff_getElem.mp hC
        refine ⟨_, hnodes i _ (List.getElem?_eq_getElem hi) v hv, ?_⟩
        simp
      have x0 : unassigned x.1.nodes = 0 := total_none (all_nodes hlen hx)
      have x1 : unassignedEdges x.1.nodes = 0 := total_none (all_nodes hlen hx)
      have hol : s1.reversedOrder.reverse.length = n := by rw [List.length_reverse, h2.olen]; rfl
      rw [hol] at q2
      have q1' : c2.calls + unassigned x.1.nodes = c1.calls + unassigned s1.nodes := q1
      have q2' : c2.rounds + unassignedEdges x.1.nodes = c1.rounds + unassignedEdges s1.nodes + n := q2
      have q3' : c2.nested ≤ max c1.nested (0 + unassigned s1.nodes) := q3
      clear q1 q2 q3
      refine ⟨_, c2, e0, rfl, by omega, by omega, by omega, by omega⟩

/-- the largest number of active calls does not become smaller -/
theorem visitC_more :
    (∀ d v s c r, visitC d v s c = some r → ∀ x, r = .ok () x → max c.nested d ≤ x.2.nested) ∧
    (∀ d todo s c r, visitLoopC d todo s c = some r → ∀ x, r = .ok () x → c.nested ≤ x.2.nested) := by
  apply visitC.mutual_partial_correctness
    (fun d v s c r => ∀ x, r = .ok () x → max c.nested d ≤ x.2.nested)
    (fun d todo s c r => ∀ x, r = .ok () x → c.nested ≤ x.2.nested)
  · intro loop ih d v s c r hr x hx
    cases hn : at? s.nodes v with
    | none => simp only [hn] at hr; cases hr; cases hx
    | some node =>
      simp only [hn] at hr
      cases hl : loop d node.outs.reverse { s with nodes := s.nodes.set v.toNat { node with visited := true } } (c.enter d) with
      | none => rw [hl] at hr; cases hr
      | some r1 =>
        have h1 := ih _ _ _ _ _ hl
        rw [hl] at hr
        cases r1 with
        | fault => cases hr; cases hx
        | err s1 => cases hr; cases hx
        | ok u y =>
          obtain ⟨s1, c1⟩ := y
          have h2 : max c.nested d ≤ c1.nested := h1 _ rfl
          by_cases hu : 0 ≤ s1.used ∧ s1.used < s1.reversedOrder.length
          · have hr' : some (.ok () ({ s1 with reversedOrder := s1.reversedOrder.set s1.used.toNat (some v), used := s1.used + 1 }, c1)) = some r := by
              simpa [hu] using hr
            cases hr'
            cases hx
            exact h2
          · have hr' : some (.err ({ s1 with used := s1.used + 1 }, c1)) = some r := by
              simpa [hu] using hr
            cases hr'
            cases hx
  · intro vis loop ihv ihl d todo s c r hr x hx
    cases todo with
    | nil => cases hr; cases hx; exact Nat.le_refl _
    | cons w rest =>
      simp only at hr
      cases hn : at? s.nodes w with
      | none => simp only [hn] at hr; cases hr; cases hx
      | some node =>
        simp only [hn] at hr
        by_cases hvis : node.visited = true
        · rw [if_pos hvis] at hr
          exact ihl _ _ _ _ _ hr x hx
        · rw [if_neg hvis] at hr
          cases hv : vis (d + 1) w s c.round with
          | none => rw [hv] at hr; cases hr
          | some r1 =>
            have h1 := ihv _ _ _ _ _ hv
            rw [hv] at hr
            cases r1 with
            | fault => cases hr; cases hx
            | err s1 => cases hr; cases hx
            | ok u y =>
              have h2 : max c.nested (d + 1) ≤ y.2.nested := h1 _ rfl
              have h3 : y.2.nested ≤ x.2.nested := ihl _ _ _ _ _ hr x hx
              exact Nat.le_trans (Nat.le_trans (Nat.le_max_left _ _) h2) h3

/-- a chain of `k` edges that end at unvisited nodes is followed to its end -/
theorem visitC_deep (k : Nat) : ∀ (s : VisitState) (d : Nat) (c : Cost) (x : VisitState × Cost),
    (∀ j : Nat, j ≤ k → ∃ nd, at? s.nodes j = some nd ∧ nd.visited = false ∧
      (j ≠ 0 → nd.outs ≠ [] ∧ ∀ w ∈ nd.outs, w = (j : Int) - 1)) →
    visitC d k s c = some (.ok () x) → d + k ≤ x.2.nested := by
  induction k with
  | zero =>
    intro s d c x _ hr
    exact Nat.le_trans (Nat.le_max_right c.nested d) (visitC_more.1 _ _ _ _ _ hr x rfl)
  | succ k ih =>
    intro s d c x hs hr
    rw [visitC.eq_def] at hr
    obtain ⟨nd, hn, _, ho⟩ := hs (k + 1) (Nat.le_refl _)
    obtain ⟨hne, hall⟩ := ho (by omega)
    obtain ⟨_, hlt, _⟩ := at?_some hn
    simp only [hn] at hr
    obtain ⟨w, rest, hw⟩ : ∃ w rest, nd.outs.reverse = w :: rest := by
      cases h : nd.outs.reverse with
      | nil => exact (hne (by simpa using h)).elim
      | cons w rest => exact ⟨w, rest, rfl⟩
    have hwk : w = (k : Int) := by
      have := hall w (by rw [← List.mem_reverse, hw]; simp)
      omega
    subst hwk
    have hs' : ∀ j : Nat, j ≤ k → ∃ nd', at? (s.nodes.set ((k + 1 : Nat) : Int).toNat { nd with visited := true }) j = some nd' ∧
        nd'.visited = false ∧ (j ≠ 0 → nd'.outs ≠ [] ∧ ∀ w ∈ nd'.outs, w = (j : Int) - 1) := by
      intro j hj
      obtain ⟨nd', h1, h2⟩ := hs j (by omega)
      exact ⟨nd', by rw [at?_set _ _ _ _ (by omega) hlt, if_neg (by omega)]; exact h1, h2⟩
    rw [hw, visitLoopC.eq_def] at hr
    obtain ⟨nd', hn', hv', _⟩ := hs' k (Nat.le_refl _)
    simp only [hn'] at hr
    rw [if_neg (by simp [hv'])] at hr
    cases hv : visitC (d + 1) k { s with nodes := s.nodes.set ((k + 1 : Nat) : Int).toNat { nd with visited := true } } (c.enter d).round with
    | none => rw [hv] at hr; cases hr
    | some r1 =>
      rw [hv] at hr
      cases r1 with
      | fault => cases hr
      | err s1 => cases hr
      | ok u y =>
        have h1 := ih _ _ _ _ hs' hv
        cases hl : visitLoopC d rest y.1 y.2 with
        | none => simp [hl] at hr
        | some r2 =>
          have h2 := visitC_more.2 _ _ _ _ _ hl
          cases r2 with
          | fault => simp [hl] at hr
          | err z => simp [hl] at hr
          | ok u z =>
            have h3 : y.2.nested ≤ z.2.nested := h2 z rfl
            by_cases hu : 0 ≤ z.1.used ∧ z.1.used < z.1.reversedOrder.length
            · have hr' : some (Outcome.ok () ({ z.1 with reversedOrder := z.1.reversedOrder.set z.1.used.toNat (some ((k + 1 : Nat) : Int)), used := z.1.used + 1 }, z.2)) = some (.ok () x) := by
                simpa [hl, hu] using hr
              cases hr'
              show d + (k + 1) ≤ z.2.nested
              omega
            · simp [hl, hu] at hr

section
variable {τ : Type} {ord : τ → τ → Ordering} [Std.TransCmp ord] {eq : τ → τ → Bool}

/-- **C110**: after `InitWithGroup`, `Sort` makes two calls per item, one in each pass, looks twice at each item and twice
at each dependency, and never has more active calls than there are items. -/
theorem _root_.Vlpp.C110_linear {m : τ → List τ} {dep : GroupC τ τ} (hdep : GroupC.Models ord m dep) (items : List τ)
    (hin : ∀ x y, y ∈ m x → (∃ a ∈ items, eq a x = true) ∧ ∃ b ∈ items, eq b y = true) :
    ∃ p p' c, initWithGroup eq items dep {} = .ok () p ∧ sort p = some (.ok () p') ∧ sortC p = some (.ok () (p', c)) ∧
      c.calls = 2 * items.length ∧ c.rounds = 2 * items.length + 2 * (dep.keys.map fun k => (m k).length).sum ∧
      c.nested ≤ items.length := by
  have hself : ∀ x : τ, ord x x = .eq := fun x => Std.ReflCmp.compare_self (cmp := ord)
  obtain ⟨p, D, e1, hR, hD, hr⟩ := initWithGroup_ok eq items hdep (by
    intro k hk
    have hne := (multimap_key hdep k).mpr ⟨k, hk, hself k⟩
    constructor
    · obtain ⟨y, hy⟩ := List.exists_mem_of_ne_nil _ hne
      exact firstIndex_ne.mpr (hin k y hy).1
    · intro y hy
      exact firstIndex_ne.mpr (hin k y hy).2)
  obtain ⟨p', c, e2, e3, h1, h2, h3, _⟩ := sort_cost (deep := 0) hR hr (fun _ _ _ => Nat.zero_le _)
  refine ⟨p, p', c, e1, e2, e3, h1, ?_, h3⟩
  rw [h2, hD, List.length_flatMap]
  simp
end

theorem firstIndex_self {n k : Nat} (hk : k < n) : firstIndex (· == ·) (List.range n) k = (k : Int) := by
  unfold firstIndex
  have : (List.range n).findIdx? (fun y => y == k) = some k := by
    rw [List.findIdx?_eq_some_iff_getElem]
    refine ⟨by simpa using hk, by simp, ?_⟩
    intro j hj
    simp
    omega
  rw [this]

/-- **C110**: the bound on the active calls is reached.  For every number `n` of items there are dependencies, of each item on
the next one, for which all of `VisitUnvisitedNode` are active at the same time. -/
theorem _root_.Vlpp.C110_deep (n : Nat) : ∃ (m : Nat → List Nat) (dep : GroupC Nat Nat), GroupC.Models compare m dep ∧
    (∀ x y, y ∈ m x ↔ y = x + 1 ∧ y < n) ∧
    ∃ p p' c, initWithGroup (· == ·) (List.range n) dep {} = .ok () p ∧ sort p = some (.ok () p') ∧
      sortC p = some (.ok () (p', c)) ∧ c.nested = n := by
  obtain ⟨dep, hdep⟩ := group_of ((List.range (n - 1)).map fun i => (i, i + 1)) [] GroupC.empty models_empty
  rw [List.nil_append] at hdep
  have hm : ∀ x y, y ∈ pairsOf compare ((List.range (n - 1)).map fun i => (i, i + 1)) x ↔ y = x + 1 ∧ y < n := by
    intro x y
    unfold pairsOf
    simp only [List.mem_map, List.mem_filter, List.mem_range, beq_iff_eq, Nat.compare_eq_eq]
    constructor
    · rintro ⟨e, ⟨⟨i, hi, rfl⟩, rfl⟩, rfl⟩
      exact ⟨rfl, show i + 1 < n by omega⟩
    · rintro ⟨rfl, h⟩
      exact ⟨(x, x + 1), ⟨⟨x, by omega, rfl⟩, rfl⟩, rfl⟩
  refine ⟨_, dep, hdep, hm, ?_⟩
  have hkey : ∀ k, k ∈ dep.keys ↔ k + 1 < n := by
    intro k
    have h := multimap_key hdep k
    constructor
    · intro hk
      obtain ⟨y, hy⟩ := List.exists_mem_of_ne_nil _ (h.mpr ⟨k, hk, by simp⟩)
      have := (hm k y).mp hy
      omega
    · intro hk
      obtain ⟨x, hx, e⟩ := h.mp (List.ne_nil_of_mem ((hm k (k + 1)).mpr ⟨rfl, hk⟩))
      have : x = k := by simpa using e
      exact this ▸ hx
  obtain ⟨p, D, e1, hR, hD, hr⟩ := initWithGroup_ok (· == ·) (List.range n) hdep (by
    intro k hk
    have hk' := (hkey k).mp hk
    refine ⟨by rw [firstIndex_self (by omega)]; omega, fun y hy => ?_⟩
    have := (hm k y).mp hy
    rw [firstIndex_self this.2]; omega)
  have hDm : ∀ a b : Int, (a, b) ∈ D ↔ 0 ≤ a ∧ b = a + 1 ∧ b < n := by
    intro a b
    rw [hD]
    simp only [List.mem_flatMap, List.mem_map, Prod.mk.injEq]
    constructor
    · rintro ⟨k, hk, y, hy, rfl, rfl⟩
      have h1 := (hkey k).mp hk
      have h2 := (hm k y).mp hy
      rw [firstIndex_self (by omega), firstIndex_self h2.2]
      omega
    · rintro ⟨h0, rfl, h1⟩
      refine ⟨a.toNat, (hkey _).mpr (by omega), a.toNat + 1, (hm _ _).mpr ⟨rfl, by omega⟩, ?_, ?_⟩
      · rw [firstIndex_self (by omega)]; omega
      · rw [firstIndex_self (by omega)]; omega
  have hl : (List.range n).length = n := by simp
  rw [hl] at hR hr
  obtain ⟨p', c, e2, e3, _, _, h3, h4⟩ := sort_cost (deep := n) hR hr (by
    intro s c hv
    have hpl : p.nodes.length = n := hR.len
    rw [hpl] at hv
    cases n with
    | zero => omega
    | succ n =>
      have hs : ∀ j : Nat, j ≤ n → ∃ nd, at? p.nodes j = some nd ∧ nd.visited = false ∧
          (j ≠ 0 → nd.outs ≠ [] ∧ ∀ w ∈ nd.outs, w = (j : Int) - 1) := by
        intro j hj
        refine ⟨_, hR.node j ⟨by omega, by show (j : Int) < ((n + 1 : Nat) : Int); omega⟩, rfl, fun hj0 => ?_⟩
        have hout : ∀ w, w ∈ (graphOf (n + 1) D).outs j ↔ (w, (j : Int)) ∈ D := by
          intro w
          unfold graphOf
          simp only
          rw [mem_pairsOf, List.mem_map]
          constructor
          · rintro ⟨⟨a, b⟩, h, e⟩
            cases e
            exact h
          · intro h
            exact ⟨_, h, rfl⟩
        refine ⟨List.ne_nil_of_mem ((hout ((j : Int) - 1)).mpr ((hDm _ _).mpr (by omega))), fun w hw => ?_⟩
        have := (hDm _ _).mp ((hout w).mp hw)
        omega
      simp only [downFrom] at hv
      rw [visitLoopC.eq_def] at hv
      obtain ⟨nd, hn, hvis, _⟩ := hs n (Nat.le_refl _)
      simp only [hn] at hv
      rw [if_neg (by simp [hvis])] at hv
      cases hc : visitC (0 + 1) n ⟨p.nodes, List.replicate (n + 1) none, 0⟩ (Cost.round {}) with
      | none => rw [hc] at hv; cases hv
      | some r1 =>
        rw [hc] at hv
        cases r1 with
        | fault => cases hv
        | err z => cases hv
        | ok u z =>
          have h1 := visitC_deep n _ _ _ _ hs hc
          have h2 : z.2.nested ≤ c.nested := visitC_more.2 _ _ _ _ _ hv _ rfl
          omega)
  exact ⟨p, p', c, e1, e2, e3, by omega⟩

/-- three items that depend on each other in a circle: six calls (the hypotheses of C110 can be met, and not
only by chains) -/
example : ∃ (dep : GroupC Nat Nat) (p p' : Proc) (c : Cost),
    GroupC.Models compare (pairsOf compare [(0, 1), (1, 2), (2, 0)]) dep ∧
    initWithGroup (· == ·) [0, 1, 2] dep {} = .ok () p ∧ sort p = some (.ok () p') ∧ sortC p = some (.ok () (p', c)) ∧
    c.calls = 6 ∧ c.nested ≤ 3 := by
  obtain ⟨dep, hdep⟩ := group_of [(0, 1), (1, 2), (2, 0)] [] GroupC.empty models_empty
  rw [List.nil_append] at hdep
  obtain ⟨p, p', c, e1, e2, e3, h1, _, h3⟩ := C110_linear (eq := (· == ·)) hdep [0, 1, 2] (by
    intro x y hy
    unfold pairsOf at hy
    simp only [List.mem_map, List.mem_filter, beq_iff_eq, Nat.compare_eq_eq] at hy
    obtain ⟨e, ⟨he, rfl⟩, rfl⟩ := hy
    simp only [List.mem_cons, List.not_mem_nil, or_false] at he
    rcases he with rfl | rfl | rfl <;> simp)
  exact ⟨dep, p, p', c, hdep, e1, e2, e3, h1, h3⟩

/-- a processor without nodes is sorted at no cost -/
example : ∃ c, sortC {} = some (withCost (.ok () {}) c) := C110_same {} (by
  unfold sort
  rw [if_neg (by simp)]
  show (match visitLoop [] _ with | none => _ | some .fault => _ | some (.err s) => _ | some (.ok _ s) => _) = _
  rw [visitLoop_nil]
  rfl)

end PO
end Vlpp
