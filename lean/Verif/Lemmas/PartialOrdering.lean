import Verif.Model.PartialOrdering
import Verif.Spec.Components

set_option autoImplicit false
namespace Vlpp
namespace PO
open Spec

/-- a graph on `0 .. n - 1`, with the edges stored in both directions -/
structure Graph where
  n : Nat
  ins : Int → List Int
  outs : Int → List Int

namespace Graph
/-- `v` is a node -/
def In (g : Graph) (v : Int) : Prop := 0 ≤ v ∧ v < g.n
def E (g : Graph) (v w : Int) : Prop := g.In v ∧ w ∈ g.outs v

structure Ok (g : Graph) : Prop where
  outs_in : ∀ v w, g.In v → w ∈ g.outs v → g.In w
  ins_in : ∀ v w, g.In v → w ∈ g.ins v → g.In w
  conv : ∀ v w, g.In v → g.In w → (w ∈ g.outs v ↔ v ∈ g.ins w)
end Graph

theorem at?_some {α : Type} {xs : List α} {i : Int} {x : α} (h : at? xs i = some x) :
    0 ≤ i ∧ i < xs.length ∧ xs[i.toNat]? = some x := by
  unfold at? at h
  split at h
  · rename_i hi
    obtain ⟨hlt, _⟩ := List.getElem?_eq_some_iff.mp h
    exact ⟨hi, by omega, h⟩
  · cases h

theorem at?_set {α : Type} (xs : List α) (i j : Int) (x : α) (hi : 0 ≤ i) (hl : i < xs.length) :
    at? (xs.set i.toNat x) j = if j = i then some x else at? xs j := by
  unfold at?
  by_cases hj : 0 ≤ j
  · rw [if_pos hj, if_pos hj, List.getElem?_set]
    by_cases e : j = i
    · subst e; simp; omega
    · have : i.toNat ≠ j.toNat := by omega
      simp [e, this]
  · rw [if_neg hj, if_neg hj, if_neg (by omega)]

/-- distinct nodes are not more than there are nodes -/
theorem Graph.length_le {g : Graph} {l : List Int} (hnd : l.Nodup) (hin : ∀ v ∈ l, g.In v) : l.length ≤ g.n := by
  have h := List.Nodup.length_le_of_subset (l₂ := (List.range g.n).map (fun i : Nat => (i : Int))) hnd (by
    intro v hv
    obtain ⟨h1, h2⟩ := hin v hv
    exact List.mem_map.mpr ⟨v.toNat, List.mem_range.mpr (by omega), by omega⟩)
  simpa using h

/-- the property of the finishing order that makes Kosaraju's algorithm correct: where an edge leads to a node that
finishes later, that node reaches everything that finished in between -/
def Finishing (g : Graph) (o : List Int) : Prop :=
  ∀ a p b q c, o = a ++ p :: (b ++ q :: c) → g.E p q → ∀ x ∈ p :: b, Reaches g.E q x

/-- state of the first pass: `o` are the nodes that are finished, `G` those that are being visited -/
structure Pass1 (g : Graph) (s : VisitState) (o G : List Int) : Prop where
  len : s.nodes.length = g.n
  node : ∀ v, g.In v → at? s.nodes v = some ⟨decide (v ∈ o ∨ v ∈ G), -1, g.ins v, g.outs v⟩
  olen : s.reversedOrder.length = g.n
  used : s.used = o.length
  order : s.reversedOrder.take o.length = o.map some
  nodup : (o ++ G).Nodup
  range : ∀ v ∈ o ++ G, g.In v
  fin : Finishing g o
  grey : ∀ a p b q, o = a ++ p :: b → g.E p q → q ∈ o ∨ (q ∈ G ∧ ∀ x ∈ p :: b, Reaches g.E q x)

theorem split_last {α : Type} {o a : List α} {p v : α} {b : List α} (h : o ++ [v] = a ++ p :: b) :
    (a = o ∧ p = v ∧ b = []) ∨ ∃ b', b = b' ++ [v] ∧ o = a ++ p :: b' := by
  rcases List.eq_nil_or_concat b with rfl | ⟨b', z, rfl⟩
  · left
    have := List.append_inj' h rfl
    exact ⟨this.1.symm, by simpa using this.2.symm, rfl⟩
  · right
    have : o ++ [v] = (a ++ p :: b') ++ [z] := by simpa using h
    have := List.append_inj' this rfl
    have e : v = z := by simpa using this.2
    exact ⟨b', by rw [e, List.concat_eq_append], this.1⟩

theorem take_set_next {α : Type} {l : List α} {k : Nat} {x : α} (h : k < l.length) :
    (l.set k x).take (k + 1) = l.take k ++ [x] := by
  rw [List.take_succ_eq_append_getElem (by simpa using h)]
  rw [List.getElem_set_self, List.take_set_of_le (Nat.le_refl k)]

theorem visitLoop_nil (s : VisitState) : visitLoop [] s = some (.ok () s) := by rw [visitLoop.eq_def]

theorem visitLoop_seen {w : Int} {rest : List Int} {s : VisitState} {nd : Node} (h : at? s.nodes w = some nd)
    (hv : nd.visited = true) : visitLoop (w :: rest) s = visitLoop rest s := by
  rw [visitLoop.eq_def]
  simp only [h, hv, if_true]

theorem visitLoop_new {w : Int} {rest : List Int} {s s' : VisitState} {nd : Node} (h : at? s.nodes w = some nd)
    (hv : nd.visited = false) (hr : visit w s = some (.ok () s')) : visitLoop (w :: rest) s = visitLoop rest s' := by
  rw [visitLoop.eq_def]
  simp only [h, hv, Bool.false_eq_true, if_false, hr]
  rfl

theorem visit_ok {v : Int} {s s' : VisitState} {nd : Node} (h : at? s.nodes v = some nd)
    (hr : visitLoop nd.outs.reverse { s with nodes := s.nodes.set v.toNat { nd with visited := true } } = some (.ok () s'))
    (hu : 0 ≤ s'.used ∧ s'.used < s'.reversedOrder.length) :
    visit v s = some (.ok () { s' with reversedOrder := s'.reversedOrder.set s'.used.toNat (some v), used := s'.used + 1 }) := by
  rw [visit.eq_def]
  simp only [h, hr]
  simp [hu]

theorem visitLoop_spec {g : Graph} (hg : g.Ok) (m : Nat) : ∀ (todo : List Int) (s : VisitState) (o G : List Int),
    g.n ≤ o.length + G.length + m → Pass1 g s o G → (∀ w ∈ todo, g.In w) →
    (∀ w ∈ todo, ∀ x ∈ G, Reaches g.E x w) →
    ∃ e s', visitLoop todo s = some (.ok () s') ∧ Pass1 g s' (o ++ e) G ∧ ∀ w ∈ todo, w ∈ o ++ e ∨ w ∈ G := by
  induction m with
  | zero =>
    intro todo s o G hm hs hin hgrey
    induction todo with
    | nil => exact ⟨[], s, visitLoop_nil s, by simpa using hs, by simp⟩
    | cons w rest ih =>
      have hw := hin w (by simp)
      have hseen : w ∈ o ∨ w ∈ G := by
        apply Classical.byContradiction
        intro hn
        have := Graph.length_le (g := g) (l := w :: (o ++ G))
          (List.nodup_cons.mpr ⟨by simpa using hn, hs.nodup⟩)
          (by intro v hv; rcases List.mem_cons.mp hv with rfl | hv
              · exact hw
              · exact hs.range v hv)
        simp at this; omega
      obtain ⟨e, s', h1, h2, h3⟩ := ih (fun x hx => hin x (by simp [hx])) (fun x hx => hgrey x (by simp [hx]))
      refine ⟨e, s', (visitLoop_seen (hs.node w hw) (by simpa using hseen)).trans h1, h2, ?_⟩
      intro x hx
      rcases List.mem_cons.mp hx with rfl | hx
      · rcases hseen with h | h
        · exact .inl (by simp [h])
        · exact .inr h
      · exact h3 x hx
  | succ m ihm =>
    intro todo
    induction todo with
    | nil => intro s o G _ hs _ _; exact ⟨[], s, visitLoop_nil s, by simpa using hs, by simp⟩
    | cons w rest ih =>
      intro s o G hm hs hin hgrey
      have hw := hin w (by simp)
      have hin' : ∀ x ∈ rest, g.In x := fun x hx => hin x (by simp [hx])
      have hgrey' : ∀ x ∈ rest, ∀ y ∈ G, Reaches g.E y x := fun x hx => hgrey x (by simp [hx])
      by_cases hseen : w ∈ o ∨ w ∈ G
      · obtain ⟨e, s', h1, h2, h3⟩ := ih s o G hm hs hin' hgrey'
        refine ⟨e, s', (visitLoop_seen (hs.node w hw) (by simpa using hseen)).trans h1, h2, ?_⟩
        intro x hx
        rcases List.mem_cons.mp hx with rfl | hx
        · rcases hseen with h | h
          · exact .inl (by simp [h])
          · exact .inr h
        · exact h3 x hx
      · -- visit `w`
        have hwo : w ∉ o := fun h => hseen (.inl h)
        have hwG : w ∉ G := fun h => hseen (.inr h)
        have hnode := hs.node w hw
        have hnd' : (o ++ w :: G).Nodup := by
          have : (w :: (o ++ G)).Nodup := List.nodup_cons.mpr ⟨by simpa using hseen, hs.nodup⟩
          exact (List.perm_middle.nodup_iff).mpr this
        have hrange' : ∀ v ∈ o ++ w :: G, g.In v := by
          intro v hv
          rcases List.mem_append.mp hv with h | h
          · exact hs.range v (by simp [h])
          · rcases List.mem_cons.mp h with rfl | h
            · exact hw
            · exact hs.range v (by simp [h])
        have hwl : w < s.nodes.length := by rw [hs.len]; exact hw.2
        have hmark : Pass1 g { s with nodes := s.nodes.set w.toNat ⟨true, -1, g.ins w, g.outs w⟩ } o (w :: G) := by
          refine ⟨by simpa using hs.len, ?_, hs.olen, hs.used, hs.order, hnd', hrange', hs.fin, ?_⟩
          · intro v hv
            show at? (s.nodes.set w.toNat _) v = _
            rw [at?_set _ _ _ _ hw.1 hwl]
            by_cases e : v = w
            · subst e; simp
            · rw [if_neg e, hs.node v hv]; simp [e]
          · intro a p b q ho he
            rcases hs.grey a p b q ho he with h | ⟨h, h'⟩
            · exact .inl h
            · exact .inr ⟨by simp [h], h'⟩
        obtain ⟨e, s1, h1, h2, h3⟩ := ihm (g.outs w).reverse _ o (w :: G) (by simp; omega) hmark
          (fun x hx => hg.outs_in w x hw (List.mem_reverse.mp hx))
          (fun x hx y hy => by
            have hedge : g.E w x := ⟨hw, List.mem_reverse.mp hx⟩
            rcases List.mem_cons.mp hy with rfl | hy
            · exact .single hedge
            · exact (hgrey w (by simp) y hy).tail hedge)
        have hlen1 : o.length + e.length < g.n := by
          have := Graph.length_le h2.nodup h2.range
          simp at this; omega
        have hused1 : s1.used = (o.length + e.length : Nat) := by rw [h2.used]; simp
        have hvis := visit_ok (v := w) (s := s) hnode h1 (by rw [hused1, h2.olen]; omega)
        have hfin : Pass1 g { s1 with reversedOrder := s1.reversedOrder.set s1.used.toNat (some w), used := s1.used + 1 }
            (o ++ (e ++ [w])) G := by
          have hso : o ++ (e ++ [w]) = (o ++ e) ++ [w] := by simp
          rw [hso]
          have hnd2 := h2.nodup
          refine ⟨h2.len, ?_, by simpa using h2.olen, by simp [hused1]; omega, ?_, ?_, ?_, ?_, ?_⟩
          · intro v hv
            rw [h2.node v hv]
            congr 2
            simp; grind
          · show List.take _ (List.set s1.reversedOrder _ _) = _
            rw [hused1]
            have hlt : o.length + e.length < s1.reversedOrder.length := by rw [h2.olen]; exact hlen1
            have hlen2 : (o ++ e ++ [w]).length = o.length + e.length + 1 := by simp; omega
            have h4 := h2.order
            rw [List.length_append] at h4
            rw [hlen2, Int.toNat_natCast, take_set_next hlt, h4, List.map_append (l₂ := [w])]
            rfl
          · rw [List.append_assoc]; exact hnd2
          · intro v hv
            refine h2.range v ?_
            simp at hv ⊢; grind
          · intro a p b q c ho he x hx
            rcases split_last (b := b ++ q :: c) ho with ⟨_, _, h⟩ | ⟨b', hb', ho'⟩
            · simp at h
            · rcases split_last hb'.symm with ⟨hb1, hb2, _⟩ | ⟨c', _, hc'⟩
              · -- the later node is `w`
                subst hb1
                rcases h2.grey a p b q ho' he with h | ⟨_, h⟩
                · exfalso
                  subst hb2
                  have := (List.nodup_append.mp hnd2).2.2 q h q (by simp)
                  exact this rfl
                · exact h x hx
              · exact h2.fin a p b q c' (by rw [ho', hc']) he x hx
          · intro a p b q ho he
            rcases split_last ho with ⟨ha, hp, hb⟩ | ⟨b', hb', ho'⟩
            · subst hp hb
              rcases h3 q (List.mem_reverse.mpr he.2) with h | h
              · left; simp at h ⊢; grind
              · rcases List.mem_cons.mp h with rfl | hG
                · left; simp
                · right
                  refine ⟨hG, ?_⟩
                  intro x hx
                  have : x = p := by simpa using hx
                  subst this
                  exact hgrey x (by simp) q hG
            · rcases h2.grey a p b' q ho' he with h | ⟨h, h'⟩
              · left; simp at h ⊢; grind
              · rcases List.mem_cons.mp h with rfl | hG
                · left; simp
                · right
                  refine ⟨hG, ?_⟩
                  intro x hx
                  rw [hb', ← List.cons_append] at hx
                  rcases List.mem_append.mp hx with hx | hx
                  · exact h' x hx
                  · have : x = w := by simpa using hx
                    subst this
                    exact hgrey x (by simp) q hG
        obtain ⟨e2, s2, h5, h6, h7⟩ := ih _ (o ++ (e ++ [w])) G (by simp; omega) hfin hin' hgrey'
        refine ⟨e ++ [w] ++ e2, s2, (visitLoop_new hnode (by simpa using hseen) hvis).trans h5, by simpa using h6, ?_⟩
        intro x hx
        rcases List.mem_cons.mp hx with rfl | hx
        · exact .inl (by simp)
        · simpa using h7 x hx

/-! ## the second pass -/

/-- state of the second pass: `buf` are the nodes that have a component, which is `comp` -/
structure Pass2 (g : Graph) (s : AssignState) (buf : List Int) (comp : Int → Int) : Prop where
  len : s.nodes.length = g.n
  node : ∀ v, g.In v → at? s.nodes v = some ⟨true, comp v, g.ins v, g.outs v⟩
  blen : s.firstNodesBuffer.length = g.n
  used : s.used = buf.length
  buffer : s.firstNodesBuffer.take buf.length = buf.map some
  nodup : buf.Nodup
  range : ∀ v ∈ buf, g.In v
  assigned : ∀ v, comp v = -1 ↔ v ∉ buf

theorem assignLoop_nil (c : Int) (s : AssignState) : assignLoop c [] s = some (.ok () s) := by rw [assignLoop.eq_def]

theorem assignLoop_seen {c w : Int} {rest : List Int} {s : AssignState} {nd : Node} (h : at? s.nodes w = some nd)
    (hv : nd.component ≠ -1) : assignLoop c (w :: rest) s = assignLoop c rest s := by
  rw [assignLoop.eq_def]
  simp only [h, hv, if_false]

theorem assignLoop_new {c w : Int} {rest : List Int} {s s' : AssignState} {nd : Node} (h : at? s.nodes w = some nd)
    (hv : nd.component = -1) (hr : assign c w s = some (.ok () s')) :
    assignLoop c (w :: rest) s = assignLoop c rest s' := by
  rw [assignLoop.eq_def]
  simp only [h, hv, if_true, hr]
  rfl

theorem assign_eq {c v : Int} {s : AssignState} {nd : Node} (h : at? s.nodes v = some nd)
    (hu : 0 ≤ s.used ∧ s.used < s.firstNodesBuffer.length) :
    assign c v s = assignLoop c nd.ins ⟨s.nodes.set v.toNat { nd with component := c },
      s.firstNodesBuffer.set s.used.toNat (some v), s.used + 1⟩ := by
  rw [assign.eq_def]
  simp only [h]
  rw [if_pos hu]

/-- give `v` the component `c` -/
theorem Pass2.mark {g : Graph} {s : AssignState} {buf : List Int} {comp : Int → Int} (hs : Pass2 g s buf comp)
    {c v : Int} (hc : c ≠ -1) (hv : g.In v) (hnew : v ∉ buf) :
    s.used < s.firstNodesBuffer.length ∧
    Pass2 g ⟨s.nodes.set v.toNat ⟨true, c, g.ins v, g.outs v⟩, s.firstNodesBuffer.set s.used.toNat (some v), s.used + 1⟩
      (buf ++ [v]) (fun x => if x = v then c else comp x) := by
  have hnd : (buf ++ [v]).Nodup := by
    rw [List.nodup_append]
    refine ⟨hs.nodup, by simp, ?_⟩
    intro a ha b hb
    have : b = v := by simpa using hb
    subst this
    exact fun h => hnew (h ▸ ha)
  have hrange : ∀ x ∈ buf ++ [v], g.In x := by
    intro x hx
    rcases List.mem_append.mp hx with h | h
    · exact hs.range x h
    · have : x = v := by simpa using h
      exact this ▸ hv
  have hlt : buf.length < g.n := by
    have := Graph.length_le hnd hrange
    simp at this; omega
  have hlb : buf.length < s.firstNodesBuffer.length := by rw [hs.blen]; exact hlt
  refine ⟨by rw [hs.used]; omega, by simpa using hs.len, ?_, by simpa using hs.blen, by simp [hs.used], ?_, hnd, hrange, ?_⟩
  · intro x hx
    show at? (s.nodes.set v.toNat _) x = _
    rw [at?_set _ _ _ _ hv.1 (by rw [hs.len]; exact hv.2)]
    by_cases e : x = v
    · subst e; simp
    · rw [if_neg e, hs.node x hx]; simp [e]
  · show List.take _ (List.set s.firstNodesBuffer _ _) = _
    have hlen2 : (buf ++ [v]).length = buf.length + 1 := by simp
    rw [hs.used, hlen2, Int.toNat_natCast, take_set_next hlb, hs.buffer, List.map_append (l₂ := [v])]
    rfl
  · intro x
    by_cases e : x = v
    · subst e; simp [hc]
    · simp [e, hs.assigned x]

theorem Pass2.congr {g : Graph} {s : AssignState} {buf : List Int} {comp comp' : Int → Int} (hs : Pass2 g s buf comp)
    (h : ∀ x, comp x = comp' x) : Pass2 g s buf comp' := by
  have : comp = comp' := funext h
  exact this ▸ hs

theorem assignLoop_spec {g : Graph} (hg : g.Ok) {c : Int} (hc : c ≠ -1) (m : Nat) :
    ∀ (todo : List Int) (s : AssignState) (buf : List Int) (comp : Int → Int),
    g.n ≤ buf.length + m → Pass2 g s buf comp → (∀ w ∈ todo, g.In w) →
    ∃ seg s', assignLoop c todo s = some (.ok () s') ∧
      Pass2 g s' (buf ++ seg) (fun x => if x ∈ seg then c else comp x) ∧ (∀ w ∈ todo, w ∈ buf ++ seg) ∧
      (∀ x ∈ seg, ∃ w ∈ todo, Reaches g.E x w) ∧ ∀ x ∈ seg, ∀ y ∈ g.ins x, y ∈ buf ++ seg := by
  have seen : ∀ (w : Int) (rest : List Int) (s : AssignState) (buf : List Int) (comp : Int → Int),
      Pass2 g s buf comp → g.In w → w ∈ buf →
      (∃ seg s', assignLoop c rest s = some (.ok () s') ∧
        Pass2 g s' (buf ++ seg) (fun x => if x ∈ seg then c else comp x) ∧ (∀ w ∈ rest, w ∈ buf ++ seg) ∧
        (∀ x ∈ seg, ∃ w ∈ rest, Reaches g.E x w) ∧ ∀ x ∈ seg, ∀ y ∈ g.ins x, y ∈ buf ++ seg) →
      ∃ seg s', assignLoop c (w :: rest) s = some (.ok () s') ∧
        Pass2 g s' (buf ++ seg) (fun x => if x ∈ seg then c else comp x) ∧ (∀ z ∈ w :: rest, z ∈ buf ++ seg) ∧
        (∀ x ∈ seg, ∃ z ∈ w :: rest, Reaches g.E x z) ∧ ∀ x ∈ seg, ∀ y ∈ g.ins x, y ∈ buf ++ seg := by
    intro w rest s buf comp hs hw hwb ⟨seg, s', h1, h2, h3, h4, h5⟩
    refine ⟨seg, s', (assignLoop_seen (hs.node w hw) (fun h => (hs.assigned w).mp h hwb)).trans h1, h2, ?_, ?_, h5⟩
    · intro z hz
      rcases List.mem_cons.mp hz with rfl | hz
      · simp [hwb]
      · exact h3 z hz
    · intro x hx
      obtain ⟨z, hz, hr⟩ := h4 x hx
      exact ⟨z, by simp [hz], hr⟩
  induction m with
  | zero =>
    intro todo s buf comp hm hs hin
    induction todo with
    | nil => exact ⟨[], s, assignLoop_nil c s, by simpa using hs, by simp, by simp, by simp⟩
    | cons w rest ih =>
      have hw := hin w (by simp)
      have hwb : w ∈ buf := by
        apply Classical.byContradiction
        intro hn
        obtain ⟨h1, h2⟩ := hs.mark hc hw hn
        rw [hs.used, hs.blen] at h1
        omega
      exact seen w rest s buf comp hs hw hwb (ih (fun x hx => hin x (by simp [hx])))
  | succ m ihm =>
    intro todo
    induction todo with
    | nil => intro s buf comp _ hs _; exact ⟨[], s, assignLoop_nil c s, by simpa using hs, by simp, by simp, by simp⟩
    | cons w rest ih =>
      intro s buf comp hm hs hin
      have hw := hin w (by simp)
      have hin' : ∀ x ∈ rest, g.In x := fun x hx => hin x (by simp [hx])
      by_cases hwb : w ∈ buf
      · exact seen w rest s buf comp hs hw hwb (ih s buf comp hm hs hin')
      · obtain ⟨hu, hmark⟩ := hs.mark hc hw hwb
        obtain ⟨seg1, s1, h1, h2, h3, h4, h5⟩ := ihm (g.ins w) _ (buf ++ [w]) _ (by simp; omega) hmark
          (fun x hx => hg.ins_in w x hw hx)
        have hb1 : buf ++ [w] ++ seg1 = buf ++ (w :: seg1) := by simp
        rw [hb1] at h2 h3 h5
        have hassign : assign c w s = some (.ok () s1) :=
          (assign_eq (hs.node w hw) ⟨by rw [hs.used]; omega, hu⟩).trans h1
        obtain ⟨seg2, s2, k1, k2, k3, k4, k5⟩ := ih s1 (buf ++ (w :: seg1)) _ (by simp; omega) h2 hin'
        have hb2 : buf ++ (w :: seg1) ++ seg2 = buf ++ (w :: seg1 ++ seg2) := by simp
        rw [hb2] at k2 k3 k5
        refine ⟨w :: seg1 ++ seg2, s2, (assignLoop_new (hs.node w hw) ((hs.assigned w).mpr hwb) hassign).trans k1,
          k2.congr ?_, ?_, ?_, ?_⟩
        · intro x
          simp; grind
        · intro z hz
          rcases List.mem_cons.mp hz with rfl | hz
          · simp
          · exact k3 z hz
        · intro x hx
          rcases List.mem_append.mp hx with hx | hx
          · refine ⟨w, by simp, ?_⟩
            rcases List.mem_cons.mp hx with rfl | hx
            · exact .refl _
            · obtain ⟨z, hz, hr⟩ := h4 x hx
              have hzi := hg.ins_in w z hw hz
              exact hr.tail ⟨hzi, (hg.conv z w hzi hw).mpr hz⟩
          · obtain ⟨z, hz, hr⟩ := k4 x hx
            exact ⟨z, by simp [hz], hr⟩
        · intro x hx y hy
          rcases List.mem_append.mp hx with hx | hx
          · rcases List.mem_cons.mp hx with rfl | hx
            · have := h3 y hy
              simp at this ⊢; grind
            · have := h5 x hx y hy
              simp at this ⊢; grind
          · exact k5 x hx y hy

/-- where the finishing order is `a ++ r :: c`, a node that reaches `r` without passing through `c` is reached by `r` -/
theorem back_path {g : Graph} {a c : List Int} {r : Int} (hfin : Finishing g (a ++ r :: c))
    (hall : ∀ v, g.In v → v ∈ a ++ r :: c) {A : Int → Prop} (hA : ∀ x y, g.E x y → A y → A x) (hc : ∀ v ∈ c, A v)
    {u : Int} (hr : Reaches g.E u r) (hu : ¬ A u) :
    ∃ a1 b, a ++ [r] = a1 ++ b ∧ u ∈ b ∧ ∀ x ∈ b, Reaches g.E r x := by
  induction hr with
  | refl u => exact ⟨a, [u], rfl, by simp, by intro x hx; have : x = u := by simpa using hx
                                              exact this ▸ .refl _⟩
  | @step u w r hedge ht ih =>
    obtain ⟨a1, b, hab, hw, hb⟩ := ih hfin hall (fun h => hu (hA _ _ hedge h))
    have hu' : u ∈ a1 ++ b := by
      rw [← hab]
      have := hall u hedge.1
      rcases List.mem_append.mp this with h | h
      · simp [h]
      · rcases List.mem_cons.mp h with rfl | h
        · simp
        · exact (hu (hc u h)).elim
    rcases List.mem_append.mp hu' with h | h
    · obtain ⟨a2, a3, rfl⟩ := List.append_of_mem h
      obtain ⟨b1, b2, rfl⟩ := List.append_of_mem hw
      have ho : a ++ r :: c = a2 ++ u :: ((a3 ++ b1) ++ w :: (b2 ++ c)) := by
        have : a ++ r :: c = (a ++ [r]) ++ c := by simp
        rw [this, hab]; simp
      refine ⟨a2, u :: a3 ++ (b1 ++ w :: b2), by rw [hab]; simp, by simp, ?_⟩
      intro x hx
      rcases List.mem_append.mp hx with hx | hx
      · refine (hb w hw).trans (hfin a2 u (a3 ++ b1) w (b2 ++ c) ho hedge x ?_)
        simp at hx ⊢; grind
      · exact hb x hx
    · exact ⟨a1, b, hab, h, hb⟩

/-- the nodes of a component -/
def Component.members (buffer : List (Option Int)) (c : Component) : List (Option Int) :=
  (buffer.drop c.firstNode.toNat).take c.nodeCount.toNat

/-- components that are stored one after another, from `off` -/
def layout : Int → List (List Int) → List Component
  | _, [] => []
  | off, C :: cs => ⟨off, C.length⟩ :: layout (off + C.length) cs

theorem layout_append (C : List Int) (cs : List (List Int)) : ∀ off : Int,
    layout off (cs ++ [C]) = layout off cs ++ [⟨off + cs.flatten.length, C.length⟩] := by
  induction cs with
  | nil => intro off; simp [layout]
  | cons D cs ih => intro off; simp [layout, ih]; omega

theorem layout_length (cs : List (List Int)) : ∀ off : Int, (layout off cs).length = cs.length := by
  induction cs with
  | nil => intro off; rfl
  | cons D cs ih => intro off; simp [layout, ih]

theorem layout_members (cs : List (List Int)) : ∀ pre : List (Option Int),
    (layout pre.length cs).map (Component.members (pre ++ cs.flatten.map some)) = cs.map (·.map some) := by
  induction cs with
  | nil => intro pre; rfl
  | cons D cs ih =>
    intro pre
    have := ih (pre ++ D.map some)
    simp only [List.length_append, List.length_map] at this
    simp only [layout, List.map_cons, List.flatten_cons, List.map_append]
    congr 1
    · simp [Component.members]
    · rw [← this]
      simp

theorem layout_range (cs : List (List Int)) (hne : [] ∉ cs) : ∀ off : Int, 0 ≤ off → ∀ c ∈ layout off cs,
    0 ≤ c.firstNode ∧ 0 < c.nodeCount ∧ c.firstNode + c.nodeCount ≤ off + cs.flatten.length := by
  induction cs with
  | nil => intro off _ c hc; cases hc
  | cons D cs ih =>
    intro off hoff c hc
    have hD : 0 < D.length := by
      cases D with
      | nil => simp at hne
      | cons => simp
    rcases List.mem_cons.mp hc with rfl | hc
    · simp; omega
    · have := ih (fun h => hne (by simp [h])) (off + D.length) (by omega) c hc
      simp at this ⊢
      omega

/-- state of the second pass between two components -/
structure Tops (g : Graph) (buf : List Int) (comp : Int → Int) (cs : List (List Int)) : Prop where
  flat : buf = cs.flatten
  closed : ∀ x y, g.E x y → y ∈ buf → x ∈ buf
  scc : ∀ C ∈ cs, ∀ v ∈ C, ∀ w, w ∈ C ↔ Reaches g.E v w ∧ Reaches g.E w v
  nonempty : [] ∉ cs
  number : ∀ (i : Nat) (C : List Int), cs[i]? = some C → ∀ v ∈ C, comp v = i
  topo : ∀ x y, g.E x y → y ∈ buf → comp x ≤ comp y

theorem Tops.lt {g : Graph} {buf : List Int} {comp : Int → Int} {cs : List (List Int)} (h : Tops g buf comp cs)
    {v : Int} (hv : v ∈ buf) : comp v < cs.length := by
  rw [h.flat] at hv
  obtain ⟨C, hC, hvC⟩ := List.mem_flatten.mp hv
  obtain ⟨i, hi, e⟩ := List.mem_iff_getElem.mp hC
  rw [h.number i C (by rw [List.getElem?_eq_getElem hi, e]) v hvC]
  omega

/-- one more component is found -/
theorem Tops.add {g : Graph} (hg : g.Ok) {s s' : AssignState} {buf seg : List Int} {comp : Int → Int} {cs : List (List Int)}
    (h : Tops g buf comp cs) {a c : List Int} {r : Int} (hfin : Finishing g (a ++ r :: c))
    (hall : ∀ v, g.In v → v ∈ a ++ r :: c) (hc : ∀ v ∈ c, v ∈ buf) (hr : r ∉ buf) (hrs : r ∈ seg)
    (hs' : Pass2 g s' (buf ++ seg) (fun x => if x ∈ seg then (cs.length : Int) else comp x))
    (hreach : ∀ x ∈ seg, Reaches g.E x r) (hins : ∀ x ∈ seg, ∀ y ∈ g.ins x, y ∈ buf ++ seg) :
    Tops g (buf ++ seg) (fun x => if x ∈ seg then (cs.length : Int) else comp x) (cs ++ [seg]) := by
  have hdisj : ∀ x ∈ seg, x ∉ buf := fun x hx hxb =>
    (List.nodup_append.mp hs'.nodup).2.2 x hxb x hx rfl
  have hsin : ∀ x ∈ seg, g.In x := fun x hx => hs'.range x (by simp [hx])
  have hpre : ∀ x y, g.E x y → y ∈ buf ++ seg → x ∈ buf ++ seg := by
    intro x y he hy
    rcases List.mem_append.mp hy with hy | hy
    · simp [h.closed x y he hy]
    · exact hins y hy x ((hg.conv x y he.1 (hsin y hy)).mp he.2)
  have hback : ∀ x ∈ seg, Reaches g.E r x := by
    intro x hx
    obtain ⟨a1, b, _, hxb, hb⟩ := back_path hfin hall (A := (· ∈ buf)) h.closed hc (hreach x hx) (hdisj x hx)
    exact hb x hxb
  refine ⟨by rw [h.flat]; simp, hpre, ?_, ?_, ?_, ?_⟩
  · intro C hC v hv w
    rcases List.mem_append.mp hC with hC | hC
    · exact h.scc C hC v hv w
    · have : C = seg := by simpa using hC
      subst this
      constructor
      · intro hw
        exact ⟨(hreach v hv).trans (hback w hw), (hreach w hw).trans (hback v hv)⟩
      · intro ⟨h1, h2⟩
        have hw : w ∈ buf ++ C := Reaches.closed (A := (· ∈ buf ++ C)) hpre h2 (by simp [hv])
        rcases List.mem_append.mp hw with hw | hw
        · exact (hdisj v hv (Reaches.closed (A := (· ∈ buf)) h.closed h1 hw)).elim
        · exact hw
  · intro hmem
    rcases List.mem_append.mp hmem with hm | hm
    · exact h.nonempty hm
    · have : [] = seg := by simpa using hm
      rw [← this] at hrs
      cases hrs
  · intro i C hC v hv
    by_cases hi : i < cs.length
    · rw [List.getElem?_append_left hi] at hC
      have hvb : v ∈ buf := by
        rw [h.flat]
        exact List.mem_flatten.mpr ⟨C, List.mem_of_getElem? hC, hv⟩
      show (if v ∈ seg then _ else _) = _
      rw [if_neg (fun hvs => hdisj v hvs hvb)]
      exact h.number i C hC v hv
    · have hi' : i = cs.length := by
        have := (List.getElem?_eq_some_iff.mp hC).1
        simp at this; omega
      subst hi'
      have : C = seg := by simpa using hC.symm
      subst this
      show (if v ∈ C then _ else _) = _
      rw [if_pos hv]
  · intro x y he hy
    show (if x ∈ seg then _ else _) ≤ (if y ∈ seg then _ else _)
    by_cases hys : y ∈ seg
    · rw [if_pos hys]
      split
      · exact Int.le_refl _
      · rename_i hxs
        have : x ∈ buf := by
          rcases List.mem_append.mp (hpre x y he hy) with h | h
          · exact h
          · exact (hxs h).elim
        have := h.lt this
        omega
    · have hyb : y ∈ buf := by
        rcases List.mem_append.mp hy with h | h
        · exact h
        · exact (hys h).elim
      rw [if_neg hys, if_neg (fun hxs => hdisj x hxs (h.closed x y he hyb))]
      exact h.topo x y he hyb

theorem componentLoop_spec {g : Graph} (hg : g.Ok) (o : List Int) (hfin : Finishing g o) (hall : ∀ v, g.In v ↔ v ∈ o)
    (ra : List Int) : ∀ (c : List Int) (s : AssignState) (buf : List Int) (comp : Int → Int) (cs : List (List Int)),
    o = ra.reverse ++ c → Pass2 g s buf comp → Tops g buf comp cs → (∀ v ∈ c, v ∈ buf) →
    ∃ s' buf' comp' cs', componentLoop (ra.map some) buf.length s (layout 0 cs) = some (.ok () (s', layout 0 cs')) ∧
      Pass2 g s' buf' comp' ∧ Tops g buf' comp' cs' ∧ ∀ v ∈ o, v ∈ buf' := by
  induction ra with
  | nil =>
    intro c s buf comp cs ho hs ht hc
    exact ⟨s, buf, comp, cs, rfl, hs, ht, by simpa [ho] using hc⟩
  | cons r ra ih =>
    intro c s buf comp cs ho hs ht hc
    have ho' : o = ra.reverse ++ r :: c := by rw [ho]; simp
    have hr : g.In r := (hall r).mpr (by rw [ho']; simp)
    have hnode := hs.node r hr
    by_cases hrb : r ∈ buf
    · obtain ⟨s', buf', comp', cs', h1, h2⟩ := ih (r :: c) s buf comp cs ho' hs ht (by
        intro v hv
        rcases List.mem_cons.mp hv with rfl | hv
        · exact hrb
        · exact hc v hv)
      refine ⟨s', buf', comp', cs', ?_, h2⟩
      have hne : comp r ≠ -1 := fun h => (hs.assigned r).mp h hrb
      simp only [List.map_cons, componentLoop, hnode, hne, if_false]
      exact h1
    · have hlc : (cs.length : Int) ≠ -1 := by omega
      obtain ⟨seg, s1, h1, h2, h3, h4, h5⟩ := assignLoop_spec hg hlc (c := cs.length) g.n [r] s buf comp (by omega) hs
        (by intro w hw; have : w = r := by simpa using hw
            exact this ▸ hr)
      have hrs : r ∈ seg := by
        have := h3 r (by simp)
        rcases List.mem_append.mp this with h | h
        · exact (hrb h).elim
        · exact h
      have hassign : assign cs.length r s = some (.ok () s1) := by
        rw [assignLoop.eq_def] at h1
        simp only [hnode, (hs.assigned r).mpr hrb, if_true] at h1
        revert h1
        cases he : assign cs.length r s with
        | none => intro h1; cases h1
        | some res =>
          intro h1
          cases res with
          | ok u s2 => exact (assignLoop_nil _ s2).symm.trans h1
          | err s2 => cases h1
          | fault => cases h1
      have ht' := ht.add hg (s := s) (s' := s1) (ho' ▸ hfin) (fun v hv => ho' ▸ (hall v).mp hv) hc hrb hrs h2
        (by intro x hx
            obtain ⟨w, hw, hxw⟩ := h4 x hx
            have : w = r := by simpa using hw
            exact this ▸ hxw) h5
      obtain ⟨s', buf', comp', cs', k1, k2⟩ := ih (r :: c) s1 (buf ++ seg) _ (cs ++ [seg]) ho' h2 ht' (by
        intro v hv
        rcases List.mem_cons.mp hv with rfl | hv
        · simp [hrs]
        · simp [hc v hv])
      refine ⟨s', buf', comp', cs', ?_, k2⟩
      have hlt : buf.length < s1.firstNodesBuffer.length := by
        have := Graph.length_le h2.nodup h2.range
        rw [h2.blen]
        have h0 : 0 < seg.length := List.length_pos_of_mem hrs
        simp at this
        omega
      have hcond : (0 : Int) ≤ (buf.length : Int) ∧ (buf.length : Int) < s1.firstNodesBuffer.length := by omega
      simp only [List.map_cons, componentLoop, hnode, (hs.assigned r).mpr hrb, if_true, layout_length, hassign]
      rw [if_pos hcond, h2.used]
      rw [layout_append, ← ht.flat] at k1
      have e1 : ((buf ++ seg).length : Int) - buf.length = seg.length := by simp; omega
      rw [e1]
      simpa using k1

theorem mem_downFrom (n : Nat) (v : Int) : v ∈ downFrom n ↔ 0 ≤ v ∧ v < n := by
  induction n with
  | zero => simp [downFrom]
  | succ n ih => simp [downFrom, ih]; omega

/-- a processor after initialisation with the graph `g`, before `Sort` -/
structure Ready (g : Graph) (p : Proc) : Prop where
  ok : g.Ok
  len : p.nodes.length = g.n
  node : ∀ v, g.In v → at? p.nodes v = some ⟨false, -1, g.ins v, g.outs v⟩
  components : p.components = []
  buffer : p.firstNodesBuffer = []

theorem sort_spec {g : Graph} {p : Proc} (h : Ready g p) :
    ∃ p' cs, sort p = some (.ok () p') ∧
      p'.nodes.length = g.n ∧ p'.firstNodesBuffer = cs.flatten.map some ∧ p'.components = layout 0 cs ∧
      (∀ (i : Nat) (C : List Int), cs[i]? = some C → ∀ v ∈ C, at? p'.nodes v = some ⟨true, i, g.ins v, g.outs v⟩) ∧
      SortedComponents g.n (fun a b => g.E b a) cs := by
  obtain ⟨e, s1, h1, h2, h3⟩ := visitLoop_spec h.ok g.n (downFrom p.nodes.length)
    ⟨p.nodes, List.replicate p.nodes.length none, 0⟩ [] [] (by simp)
    ⟨h.len, by intro v hv; rw [h.node v hv]; simp, by simp [h.len], rfl, rfl, by simp, by simp,
      by intro a p b q c ho; simp at ho, by intro a p b q ho; simp at ho⟩
    (by intro w hw; rw [mem_downFrom, h.len] at hw; exact hw) (by simp)
  simp only [List.nil_append] at h2 h3
  have hall : ∀ v, g.In v ↔ v ∈ e := by
    intro v
    constructor
    · intro hv
      rcases h3 v ((mem_downFrom _ v).mpr (by rw [h.len]; exact hv)) with h | h
      · exact h
      · cases h
    · intro hv
      exact h2.range v (by simp [hv])
  have hlen : e.length = g.n := by
    apply Nat.le_antisymm
    · have := Graph.length_le h2.nodup h2.range
      simpa using this
    · have := List.Nodup.length_le_of_subset (l₁ := (List.range g.n).map (fun i : Nat => (i : Int))) (l₂ := e) (by
        refine List.Pairwise.map _ ?_ List.nodup_range
        intro a b hab hf; exact hab (by omega)) (by
        intro v hv
        obtain ⟨i, hi, rfl⟩ := List.mem_map.mp hv
        exact (hall i).mp ⟨by omega, by have := List.mem_range.mp hi; omega⟩)
      simpa using this
  have horder : s1.reversedOrder = e.map some := by
    have := h2.order
    rw [hlen, ← h2.olen, List.take_length] at this
    exact this
  have hstart : Pass2 g ⟨s1.nodes, List.replicate g.n none, 0⟩ [] (fun _ => -1) := by
    refine ⟨h2.len, ?_, by simp, rfl, rfl, by simp, by simp, by simp⟩
    intro v hv
    show at? s1.nodes v = _
    rw [h2.node v hv]
    simp [(hall v).mp hv]
  obtain ⟨s', buf', comp', cs, k1, k2, k3, k4⟩ := componentLoop_spec h.ok e h2.fin hall e.reverse []
    ⟨s1.nodes, List.replicate g.n none, 0⟩ [] (fun _ => -1) [] (by simp) hstart
    ⟨rfl, by simp, by simp, by simp, by simp, by simp⟩ (by simp)
  have hbuf : buf'.length = g.n := by
    apply Nat.le_antisymm (Graph.length_le k2.nodup k2.range)
    rw [← hlen]
    have hnd : e.Nodup := by simpa using h2.nodup
    exact List.Nodup.length_le_of_subset hnd k4
  refine ⟨{ p with nodes := s'.nodes, firstNodesBuffer := s'.firstNodesBuffer, components := layout 0 cs }, cs, ?_,
    k2.len, ?_, rfl, ?_, ?_⟩
  · unfold sort
    rw [if_neg (by simp [h.components])]
    simp only [h1, h.buffer, h2.len, horder]
    have e1 : (List.map some e).reverse = e.reverse.map some := by simp
    have e2 : List.take g.n ([] : List (Option Int)) ++ List.replicate (g.n - ([] : List (Option Int)).length) none = List.replicate g.n none := by
      simp
    rw [e1, e2]
    have k1' : componentLoop (e.reverse.map some) 0 ⟨s1.nodes, List.replicate g.n none, 0⟩ [] =
      some (.ok () (s', layout 0 cs)) := k1
    rw [k1']
  · have := k2.buffer
    rw [hbuf, ← k2.blen, List.take_length] at this
    rw [← k3.flat]
    exact this
  · intro i C hC v hv
    have hvb : v ∈ buf' := by
      rw [k3.flat]; exact List.mem_flatten.mpr ⟨C, List.mem_of_getElem? hC, hv⟩
    show at? s'.nodes v = _
    rw [k2.node v (k2.range v hvb), k3.number i C hC v hv]
  · have hswap : ∀ a b, Reaches g.E a b ↔ Reaches (fun a b => g.E b a) b a := fun a b => ⟨Reaches.swap, Reaches.swap⟩
    refine ⟨k3.flat ▸ k2.nodup, ?_, k3.nonempty, ?_, ?_⟩
    · intro v
      rw [← k3.flat]
      exact ⟨fun hv => k2.range v hv, fun hv => k4 v ((hall v).mp hv)⟩
    · intro C hC v hv w
      rw [k3.scc C hC v hv w, hswap v w, hswap w v]
      exact and_comm
    · intro i j Ci Cj a b hi hj ha hb hdep
      have hab : a ∈ buf' := by
        rw [k3.flat]; exact List.mem_flatten.mpr ⟨Ci, List.mem_of_getElem? hi, ha⟩
      have := k3.topo b a hdep hab
      rw [k3.number i Ci hi a ha, k3.number j Cj hj b hb] at this
      omega

end PO
end Vlpp
