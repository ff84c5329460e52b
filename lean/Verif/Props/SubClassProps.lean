import Verif.Lemmas.SubClass
import Verif.Spec.SubClass

/-!
# Property C65: `PartialOrderingProcessor::InitWithSubClass`
-/
set_option autoImplicit false
namespace Vlpp
namespace PO
open Spec

/-- the indexes that `firstSubClassItem` and `subClassItemCount` of a node refer to -/
def Slot.members (buffer : List (Option Int)) (s : Slot) : List (Option Int) :=
  match s.first with
  | none => []
  | some f => (buffer.drop f.toNat).take s.count.toNat

/-- What the nodes of a processor show after `InitWithSubClass`: `nodes[a]` represents the items `classes[a]` -/
structure ShowsClasses (q : SubProc) (classes : List (List Int)) : Prop where
  nodeCount : q.proc.nodes.length = classes.length
  members : q.slots.map (Slot.members q.buffer) = classes.map (·.map some)
  /-- `firstSubClassItem` and `subClassItemCount` describe a part of the buffer -/
  inside : ∀ s ∈ q.slots, ∃ f, s.first = some f ∧ 0 ≤ f ∧ 0 < s.count ∧ f + s.count ≤ q.buffer.length

theorem slotsOf_members (cs : List (List Int)) : ∀ pre : List (Option Int),
    (slotsOf pre.length cs).map (Slot.members (pre ++ cs.flatten.map some)) = cs.map (·.map some) := by
  induction cs with
  | nil => intro pre; rfl
  | cons D cs ih =>
    intro pre
    have := ih (pre ++ D.map some)
    simp only [List.length_append, List.length_map, Int.natCast_add, List.append_assoc] at this
    simp only [slotsOf, List.map_cons, List.flatten_cons, List.map_append]
    congr 1
    simp [Slot.members]

theorem slotsOf_range (cs : List (List Int)) (hne : [] ∉ cs) : ∀ off : Int, 0 ≤ off → ∀ s ∈ slotsOf off cs,
    ∃ f, s.first = some f ∧ 0 ≤ f ∧ 0 < s.count ∧ f + s.count ≤ off + cs.flatten.length := by
  induction cs with
  | nil => intro off _ c hc; cases hc
  | cons D cs ih =>
    intro off h0 c hc
    have hD : D ≠ [] := fun h => hne (by simp [h])
    have := List.length_pos_iff.mpr hD
    rcases List.mem_cons.mp hc with rfl | hc
    · refine ⟨off, rfl, h0, ?_, ?_⟩ <;> simp <;> omega
    · obtain ⟨f, a, b, c, d⟩ := ih (fun h => hne (by simp [h])) (off + D.length) (by omega) c hc
      refine ⟨f, a, b, c, ?_⟩
      simp only [List.flatten_cons, List.length_append]
      omega

theorem nodup_pairsOf {D : List (Int × Int)} (h : D.Nodup) (a : Int) : (pairsOf compare D a).Nodup := by
  unfold pairsOf
  refine List.pairwise_map.mpr ((h.filter _).imp_of_mem ?_)
  intro e f he hf hne hef
  have he := (List.mem_filter.mp he).2
  have hf := (List.mem_filter.mp hf).2
  simp only [beq_iff_eq, Int.compare_eq_eq] at he hf
  exact hne (Prod.ext (he.trans hf.symm) hef)

section
variable {τ σ : Type} {ord : τ → τ → Ordering} [Std.TransCmp ord] {sord : σ → σ → Ordering} [Std.TransCmp sord]
variable {cmp : τ → τ → Option Ordering} {scmp : σ → σ → Option Ordering} {eq : τ → τ → Bool}

/-- the first two loops -/
theorem split_ok (hc : KeyCmp cmp ord) (hs : KeyCmp scmp sord) {sub : DictC τ σ} {sm : τ → Option σ}
    (hl : Lists ord sm sub.keys sub.values) (items : List τ) (hd : items.Pairwise (fun a b => ord a b ≠ .eq)) :
    ∃ g single, Split ord sord sm sub items g single ∧
      scLoop scmp sub sub.keys.length 0 GroupC.empty = .ok () g ∧ singleLoop cmp sub items [] = .ok () single := by
  obtain ⟨g, e1, hg⟩ := scLoop_ok hs hl.length sub.keys.length 0 [] GroupC.empty models_empty (by omega)
  obtain ⟨single, e2, hasc, hperm⟩ := singleLoop_ok hc hl items [] List.Pairwise.nil
  simp only [List.nil_append, List.drop_zero] at hg hperm
  refine ⟨g, single, ⟨hl, hg, ?_, ?_⟩, e1, e2⟩
  · have h1 : single.Pairwise (fun a b => ord a b ≠ .eq) :=
      (hperm.pairwise_iff (fun h h' => h (ord_eq_symm h'))).mpr (hd.filter _)
    refine (hasc.and h1).imp ?_
    rintro a b ⟨h, h'⟩
    cases ho : ord a b with
    | lt => rfl
    | eq => exact (h' ho).elim
    | gt => exact (h ho).elim
  · intro x
    rw [hperm.mem_iff, List.mem_filter, Option.isNone_iff_eq_none]

theorem sub_sorted (hc : KeyCmp cmp ord) (heq : ∀ a b, eq a b = true ↔ ord a b = .eq) (hs : KeyCmp scmp sord)
    (items : List τ) (hd : items.Pairwise (fun a b => ord a b ≠ .eq))
    {m : τ → List τ} {dep : GroupC τ τ} (hdep : GroupC.Models ord m dep)
    (hin : ∀ x y, y ∈ m x → (∃ a ∈ items, eq a x = true) ∧ ∃ b ∈ items, eq b y = true)
    {sm : τ → Option σ} {sub : DictC τ σ} (hl : Lists ord sm sub.keys sub.values)
    (hsub : ∀ x v, sm x = some v → ∃ a ∈ items, eq a x = true) :
    ∃ q p' classes cs, initWithSubClass cmp eq scmp items dep sub {} = .ok () q ∧ sort q.proc = some (.ok () p') ∧
      ShowsClasses q classes ∧ Divides ord sord sm items classes ∧ Shows classes.length p' cs ∧
      SortedComponents classes.length (ClassDepAt eq items classes (fun x y => y ∈ m x)) cs ∧
      ∀ a : Nat, a < classes.length → ∃ nd, q.proc.nodes[a]? = some nd ∧ nd.ins.Nodup ∧ nd.outs.Nodup ∧
        ∀ b : Int, (b ∈ nd.ins ↔ ClassDepAt eq items classes (fun x y => y ∈ m x) a b) ∧
          (b ∈ nd.outs ↔ ClassDepAt eq items classes (fun x y => y ∈ m x) b a) := by
  have hself : ∀ x : τ, ord x x = .eq := fun x => Std.ReflCmp.compare_self (cmp := ord)
  obtain ⟨g, single, h, e1, e2⟩ := split_ok hc hs hl items hd
  have hg : g.keys.Pairwise (fun a b => sord a b = .lt) := by
    obtain ⟨vss, d1, _⟩ := h.group; exact d1.ascending
  have hin' : ∀ x y, y ∈ m x → (∃ a ∈ items, ord a x = .eq) ∧ ∃ b ∈ items, ord b y = .eq := by
    intro x y hy
    obtain ⟨⟨a, ha, ha'⟩, b, hb, hb'⟩ := hin x y hy
    exact ⟨⟨a, ha, (heq _ _).mp ha'⟩, b, hb, (heq _ _).mp hb'⟩
  -- the edges
  have hkey : ∀ k ∈ dep.keys, ∃ y, y ∈ m k := fun k hk =>
    List.exists_mem_of_ne_nil _ ((multimap_key hdep k).mpr ⟨k, hk, hself k⟩)
  obtain ⟨D, gi, e3, hgi, hDn, hDm⟩ := subKeyLoop_ok
    (cls := getSubClass cmp scmp sub g single) (f := classOf ord sord sm g.keys single) hdep (by
      intro k hk
      obtain ⟨y, hy⟩ := hkey k hk
      exact ⟨fun p => getSubClass_ok hc hs hl hg h.strict (h.class_range (hin' k y hy).1).1 p,
        fun y hy p => getSubClass_ok hc hs hl hg h.strict (h.class_range (hin' k y hy).2).1 p⟩)
    dep.keys.length 0 [] {} models_empty List.nodup_nil (by omega)
  obtain ⟨go, e4, hgo⟩ := outsLoop_ok hgi gi.keys.length 0 [] { ins := gi } rfl models_empty (by omega)
  simp only [List.nil_append, List.drop_zero] at hgo
  let D2 := gi.keys.flatMap (fun k => (pairsOf compare D k).map (fun v => (k, v)))
  have hD2 : ∀ e, e ∈ D2 ↔ e ∈ D := by
    rintro ⟨a, b⟩
    rw [← mem_pairsOf, pairsOf_grouped hgi, mem_pairsOf]
  have hD2sw : D2.map (fun e => (e.2, e.1)) = gi.keys.flatMap (fun k => (pairsOf compare D k).map (fun v => (v, k))) := by
    simp only [D2, List.map_flatMap, List.map_map]
    rfl
  have hE : Edges D2 { ins := gi, outs := go } := by
    refine ⟨?_, ?_⟩
    · rw [pairsOf_grouped hgi]; exact hgi
    · rw [hD2sw]; exact hgo
  have hD2n : D2.Nodup := by
    have hkn : gi.keys.Nodup := by
      obtain ⟨vss, d1, _⟩ := hgi
      exact d1.ascending.imp (fun h e => by subst e; simp at h)
    refine List.pairwise_flatMap.mpr ⟨?_, ?_⟩
    · intro k _
      exact List.pairwise_map.mpr ((nodup_pairsOf hDn k).imp (fun h h' => h (Prod.mk.inj h').2))
    · refine hkn.imp ?_
      intro a b hab x hx y hy hxy
      obtain ⟨u, _, rfl⟩ := List.mem_map.mp hx
      obtain ⟨v, _, rfl⟩ := List.mem_map.mp hy
      exact hab (Prod.mk.inj hxy).1
  have hmem : ∀ a b, (a, b) ∈ D2 ↔ ∃ x y, y ∈ m x ∧ a = classOf ord sord sm g.keys single x ∧
      b = classOf ord sord sm g.keys single y := by
    intro a b
    rw [hD2, hDm]
    simp only [List.not_mem_nil, false_or, List.drop_zero, Prod.mk.injEq]
    constructor
    · rintro ⟨k, _, y, hy, rfl, rfl⟩; exact ⟨k, y, hy, rfl, rfl⟩
    · rintro ⟨x, y, hy, rfl, rfl⟩
      obtain ⟨k, hk, hkx⟩ := (multimap_key hdep x).mp (List.ne_nil_of_mem hy)
      refine ⟨k, hk, y, ?_, ?_, rfl⟩
      · rw [multimap_congr hdep hkx]; exact hy
      · unfold classOf
        rw [map_congr hl hkx]
        cases sm x with
        | some v => rfl
        | none =>
          simp only
          congr 1
          unfold place
          exact firstIndex_congr (ord := ord) (by simp) (ord_eq_symm hkx)
  let ni := nodeItems (pairsOf sord (sub.values.zip sub.keys)) g.keys single
  have hni : ni.length = g.keys.length + single.length := by simp [ni, nodeItems]
  have hr : ∀ e ∈ D2, (0 ≤ e.1 ∧ e.1 < ni.length) ∧ 0 ≤ e.2 ∧ e.2 < ni.length := by
    rintro ⟨a, b⟩ he
    obtain ⟨x, y, hy, ha, hb⟩ := (hmem a b).mp he
    obtain ⟨_, i, hi, ei⟩ := h.class_range (hin' x y hy).1
    obtain ⟨_, j, hj, ej⟩ := h.class_range (hin' x y hy).2
    simp only
    omega
  obtain ⟨p, e5, hR⟩ := initNodes_ok hE ni.length hr rfl rfl rfl
  let classes := ni.map (List.map (firstIndex eq items))
  have hcl : classes.length = ni.length := by simp [classes]
  have hflat : classes.flatten = ni.flatten.map (firstIndex eq items) := by
    simp only [classes]; rw [List.map_flatten]
  have hknown : ∀ x ∈ ni.flatten, firstIndex eq items x ≠ -1 := by
    intro x hx
    rcases (h.member x).mp ⟨x, hx, hself x⟩ with ⟨v, hv⟩ | ⟨y, hy, he⟩
    · exact firstIndex_ne.mpr (hsub x v hv)
    · exact firstIndex_ne.mpr ⟨y, hy, (heq _ _).mpr he⟩
  have hnd : classes.flatten.Nodup := by
    rw [hflat]
    refine List.pairwise_map.mpr (h.distinct.imp_of_mem ?_)
    intro a b ha hb hab he
    exact hab (firstIndex_inj heq (hknown a ha) he)
  have hpos : ∀ v : Int, v ∈ classes.flatten ↔ 0 ≤ v ∧ v < items.length := by
    intro v
    rw [hflat]
    constructor
    · intro hv
      obtain ⟨x, hx, rfl⟩ := List.mem_map.mp hv
      have hx := hknown x hx
      unfold firstIndex at hx ⊢
      cases hi : items.findIdx? (fun y => eq y x) with
      | none => rw [hi] at hx; exact (hx rfl).elim
      | some i =>
        have := List.findIdx?_eq_some_iff_findIdx_eq.mp hi
        simp; omega
    · rintro ⟨h0, h1⟩
      have hlt : v.toNat < items.length := by omega
      obtain ⟨y, hy, he⟩ := (h.member items[v.toNat]).mpr (.inr ⟨_, List.getElem_mem hlt, hself _⟩)
      refine List.mem_map.mpr ⟨y, hy, ?_⟩
      rw [firstIndex_congr heq he, firstIndex_at heq hd hlt]
      omega
  have hlen : classes.flatten.length = items.length := by
    have h1 := List.Nodup.length_le_of_subset (l₂ := (List.range items.length).map (fun i : Nat => (i : Int))) hnd (by
      intro v hv
      have := (hpos v).mp hv
      exact List.mem_map.mpr ⟨v.toNat, by simp; omega, by omega⟩)
    have h2 := List.Nodup.length_le_of_subset (l₁ := (List.range items.length).map (fun i : Nat => (i : Int)))
      (l₂ := classes.flatten) (List.pairwise_map.mpr (List.nodup_range.imp (fun h h' => h (by omega)))) (by
      intro v hv
      obtain ⟨i, hi, rfl⟩ := List.mem_map.mp hv
      have := List.mem_range.mp hi
      exact (hpos _).mpr (by omega))
    simp at h1 h2
    simp
    omega
  have hne : [] ∉ classes := by
    intro hc
    obtain ⟨C, hC, he⟩ := List.mem_map.mp hc
    exact h.nonempty C hC (List.map_eq_nil_iff.mp he)
  -- the class of an item
  have hclass : ∀ x, (∃ a ∈ items, ord a x = .eq) → ∀ (a : Nat) (A : List Int), classes[a]? = some A →
      (firstIndex eq items x ∈ A ↔ classOf ord sord sm g.keys single x = a) := by
    intro x hx a A hA
    rw [List.getElem?_map] at hA
    obtain ⟨C, hC, rfl⟩ := Option.map_eq_some_iff.mp hA
    exact h.class_iff heq hx hC
  have hdepAt : ∀ a b, (a, b) ∈ D2 ↔ ClassDepAt eq items classes (fun x y => y ∈ m x) a b := by
    intro a b
    rw [hmem]
    constructor
    · rintro ⟨x, y, hy, rfl, rfl⟩
      obtain ⟨_, i, hi, ei⟩ := h.class_range (hin' x y hy).1
      obtain ⟨_, j, hj, ej⟩ := h.class_range (hin' x y hy).2
      have hi' : i < classes.length := by omega
      have hj' : j < classes.length := by omega
      exact ⟨x, y, i, j, _, _, hy, ei, ej, List.getElem?_eq_getElem hi', List.getElem?_eq_getElem hj',
        (hclass x (hin' x y hy).1 i _ (List.getElem?_eq_getElem hi')).mpr ei,
        (hclass y (hin' x y hy).2 j _ (List.getElem?_eq_getElem hj')).mpr ej⟩
    · rintro ⟨x, y, i, j, A, B, hy, rfl, rfl, hA, hB, hxA, hyB⟩
      exact ⟨x, y, hy, ((hclass x (hin' x y hy).1 i A hA).mp hxA).symm, ((hclass y (hin' x y hy).2 j B hB).mp hyB).symm⟩
  have hdiv : Divides ord sord sm items classes := by
    refine ⟨hnd, hpos, hne, ?_⟩
    intro i j x y hi hj
    obtain ⟨hi', rfl⟩ := List.getElem?_eq_some_iff.mp hi
    obtain ⟨hj', rfl⟩ := List.getElem?_eq_some_iff.mp hj
    have hxi : ∃ a ∈ items, ord a items[i] = .eq := ⟨_, List.getElem_mem hi', hself _⟩
    have hyi : ∃ a ∈ items, ord a items[j] = .eq := ⟨_, List.getElem_mem hj', hself _⟩
    have hsame : (∃ C ∈ classes, (i : Int) ∈ C ∧ (j : Int) ∈ C) ↔
        classOf ord sord sm g.keys single items[i] = classOf ord sord sm g.keys single items[j] := by
      constructor
      · rintro ⟨C, hC, h1, h2⟩
        obtain ⟨a, ha⟩ := List.mem_iff_getElem?.mp hC
        rw [← firstIndex_at heq hd hi'] at h1
        rw [← firstIndex_at heq hd hj'] at h2
        rw [(hclass _ hxi a C ha).mp h1, (hclass _ hyi a C ha).mp h2]
      · intro he
        obtain ⟨_, a, ha, ea⟩ := h.class_range hxi
        have ha' : a < classes.length := by omega
        have hA := List.getElem?_eq_getElem ha'
        refine ⟨classes[a], List.getElem_mem ha', ?_, ?_⟩
        · rw [← firstIndex_at heq hd hi']
          exact (hclass _ hxi a _ hA).mpr ea
        · rw [← firstIndex_at heq hd hj']
          exact (hclass _ hyi a _ hA).mpr (he ▸ ea)
    rw [hsame]
    have k1 := (h.class_range hxi).1
    have k2 := (h.class_range hyi).1
    unfold SameClass
    unfold classOf
    unfold Known at k1 k2
    have hpl : ∀ {κ : Type} (o : κ → κ → Ordering) [Std.TransCmp o] (ks : List κ) (u v : κ)
        (_ : ∃ w ∈ ks, o w u = .eq), place o ks u = place o ks v ↔ o u v = .eq := by
      intro κ o _ ks u v hu
      have ho : ∀ a b, (o a b == .eq) = true ↔ o a b = .eq := by simp
      constructor
      · intro he
        refine firstIndex_inj ho (items := ks) ?_ he
        obtain ⟨w, hw, hw'⟩ := hu
        exact firstIndex_ne.mpr ⟨w, hw, by simpa using hw'⟩
      · intro he
        exact firstIndex_congr ho he
    cases hx : sm items[i] with
    | some v =>
      rw [hx] at k1
      cases hy : sm items[j] with
      | some w =>
        simp only
        rw [hpl sord g.keys v w k1]
        constructor
        · intro he; exact .inr ⟨v, w, rfl, rfl, he⟩
        · rintro (he | ⟨v', w', e1, e2, he⟩)
          · rw [map_congr hl he, hy] at hx
            cases hx
            exact Std.ReflCmp.compare_self (cmp := sord)
          · cases e1; cases e2; exact he
      | none =>
        rw [hy] at k2
        simp only
        constructor
        · intro he
          rcases place_cases (ord := sord) g.keys v with ⟨a, ha, e, _⟩ | ⟨e, _⟩
          · rcases place_cases (ord := ord) single items[j] with ⟨b, hb, e', _⟩ | ⟨e', hno⟩
            · omega
            · obtain ⟨z, hz, hz'⟩ := k2
              exact (hno z hz hz').elim
          · rcases place_cases (ord := ord) single items[j] with ⟨b, hb, e', _⟩ | ⟨e', hno⟩
            · omega
            · obtain ⟨z, hz, hz'⟩ := k2
              exact (hno z hz hz').elim
        · rintro (he | ⟨v', w', e1, e2, he⟩)
          · rw [map_congr hl he, hy] at hx; cases hx
          · cases e2
    | none =>
      rw [hx] at k1
      cases hy : sm items[j] with
      | some w =>
        rw [hy] at k2
        simp only
        constructor
        · intro he
          rcases place_cases (ord := ord) single items[i] with ⟨b, hb, e', _⟩ | ⟨e', hno⟩
          · rcases place_cases (ord := sord) g.keys w with ⟨a, ha, e, _⟩ | ⟨e, _⟩ <;> omega
          · obtain ⟨z, hz, hz'⟩ := k1
            exact (hno z hz hz').elim
        · rintro (he | ⟨v', w', e1, e2, he⟩)
          · rw [map_congr hl he, hy] at hx; cases hx
          · cases e1
      | none =>
        simp only
        have : ∀ a b c : Int, a + b = a + c ↔ b = c := by intro a b c; omega
        rw [this, hpl ord single items[i] items[j] k1]
        constructor
        · intro he; exact .inl he
        · rintro (he | ⟨v', w', e1, e2, he⟩)
          · exact he
          · cases e1
  -- the buffer
  have hfill := fillLoop_ok (eq := eq) items h.group single h.nonempty ni.length [] [] 0 (by simp [ni])
  have hnlen : ni.flatten.length = items.length := by rw [← hlen, hflat, List.length_map]
  obtain ⟨p', cs, e6, hsh, hsc⟩ := sort_shows hR (Dep := ClassDepAt eq items classes (fun x y => y ∈ m x)) hr hdepAt
  refine ⟨⟨p, classes.flatten.map some, slotsOf 0 classes⟩, p', classes, cs, ?_, e6, ?_, hdiv, ?_, ?_, ?_⟩
  · unfold initWithSubClass
    rw [Cpp.bind_ok (Cpp.get_apply _), Cpp.bind_ok (Cpp.check_true (by rfl) _)]
    have f1 : locally (ρ := SubProc) GroupC.empty (scLoop scmp sub sub.keys.length 0) {} = .ok g {} := by
      simp only [locally]
      rw [e1]
    have f2 : locally (ρ := SubProc) [] (singleLoop cmp sub items) {} = .ok single {} := by
      simp only [locally]
      rw [e2]
    rw [Cpp.bind_ok f1, Cpp.bind_ok f2]
    have f3 : onProc (subKeyLoop (getSubClass cmp scmp sub g single) dep dep.keys.length 0) ({} : SubProc) =
        .ok () { proc := { ins := gi } } := by
      simp only [onProc]
      have e3 := e3
      simp only [Int.natCast_zero] at e3
      rw [e3]
    have f4 : onProc (outsLoop gi.keys.length 0) ({ proc := { ins := gi } } : SubProc) =
        .ok () { proc := { ins := gi, outs := go } } := by
      simp only [onProc]
      have e4 := e4
      simp only [Int.natCast_zero] at e4
      rw [e4]
    have f5 : onProc (initNodes (g.count + single.length)) ({ proc := { ins := gi, outs := go } } : SubProc) =
        .ok () { proc := p } := by
      have : g.count + single.length = (ni.length : Int) := by rw [hni]; unfold GroupC.count; omega
      rw [this]
      simp only [onProc]
      rw [e5]
    rw [Cpp.bind_ok f3, Cpp.bind_ok (Cpp.get_apply _)]
    refine (Cpp.bind_ok f4).trans ?_
    refine (Cpp.bind_ok f5).trans ?_
    unfold fillAll
    have hpl : p.nodes.length = ni.length := hR.len
    simp only [hpl]
    simp only [List.map_nil, List.nil_append, List.length_nil, Int.natCast_zero, List.drop_zero, Nat.zero_add] at hfill
    have hnlen' : (nodeItems (pairsOf sord (sub.values.zip sub.keys)) g.keys single).flatten.length = items.length := hnlen
    rw [hnlen'] at hfill
    rw [hfill]
    simp [classes, ni]
  · refine ⟨by rw [hcl]; exact hR.len, slotsOf_members classes [], ?_⟩
    intro s hs
    obtain ⟨f, a, b, c, d⟩ := slotsOf_range classes hne 0 (by omega) s hs
    refine ⟨f, a, b, c, ?_⟩
    simp only [List.length_map]
    omega
  · rw [hcl]; exact hsh
  · rw [hcl]; exact hsc
  · intro a ha
    rw [hcl] at ha
    have := hR.node a ⟨by omega, by show (a : Int) < (ni.length : Int); omega⟩
    refine ⟨⟨false, -1, (graphOf ni.length D2).ins a, (graphOf ni.length D2).outs a⟩, ?_, ?_, ?_, ?_⟩
    · simpa [at?] using this
    · exact nodup_pairsOf hD2n a
    · exact nodup_pairsOf (List.pairwise_map.mpr (hD2n.imp (fun h h' => h (by
        obtain ⟨h1, h2⟩ := Prod.mk.inj h'
        exact Prod.ext h2 h1)))) a
    · intro b
      exact ⟨mem_pairsOf.trans (hdepAt a b), mem_pairsOf.trans (mem_swap.trans (hdepAt b a))⟩

/-- **C65** (nodes): where the objects in `items` differ from each other, and `depGroup` and `subClasses` mention only
objects in `items`, `InitWithSubClass` returns; every item is in exactly one node, and two items are in the same node
exactly if `subClasses` gives them equal sub classes. -/
theorem C65_classes (hc : ∀ a b, cmp a b = some (ord a b)) (heq : ∀ a b, eq a b = true ↔ ord a b = .eq)
    (hs : ∀ a b, scmp a b = some (sord a b))
    (items : List τ) (hd : items.Pairwise (fun a b => ord a b ≠ .eq))
    {m : τ → List τ} {dep : GroupC τ τ} (hdep : GroupC.Models ord m dep)
    (hin : ∀ x y, y ∈ m x → (∃ a ∈ items, eq a x = true) ∧ ∃ b ∈ items, eq b y = true)
    {sm : τ → Option σ} {sub : DictC τ σ} (hl : Lists ord sm sub.keys sub.values)
    (hsub : ∀ x v, sm x = some v → ∃ a ∈ items, eq a x = true) :
    ∃ q classes, initWithSubClass cmp eq scmp items dep sub {} = .ok () q ∧ ShowsClasses q classes ∧
      Divides ord sord sm items classes := by
  obtain ⟨q, _, classes, _, h1, _, h3, h4, _⟩ := sub_sorted hc heq hs items hd hdep hin hl hsub
  exact ⟨q, classes, h1, h3, h4⟩

/-- **C65** (edges): a node lists every node it depends on, and every node that depends on it, exactly once. -/
theorem C65_edges (hc : ∀ a b, cmp a b = some (ord a b)) (heq : ∀ a b, eq a b = true ↔ ord a b = .eq)
    (hs : ∀ a b, scmp a b = some (sord a b))
    (items : List τ) (hd : items.Pairwise (fun a b => ord a b ≠ .eq))
    {m : τ → List τ} {dep : GroupC τ τ} (hdep : GroupC.Models ord m dep)
    (hin : ∀ x y, y ∈ m x → (∃ a ∈ items, eq a x = true) ∧ ∃ b ∈ items, eq b y = true)
    {sm : τ → Option σ} {sub : DictC τ σ} (hl : Lists ord sm sub.keys sub.values)
    (hsub : ∀ x v, sm x = some v → ∃ a ∈ items, eq a x = true) :
    ∃ q classes, initWithSubClass cmp eq scmp items dep sub {} = .ok () q ∧ ShowsClasses q classes ∧
      ∀ a : Nat, a < classes.length → ∃ nd, q.proc.nodes[a]? = some nd ∧ nd.ins.Nodup ∧ nd.outs.Nodup ∧
        ∀ b : Int, (b ∈ nd.ins ↔ ClassDepAt eq items classes (fun x y => y ∈ m x) a b) ∧
          (b ∈ nd.outs ↔ ClassDepAt eq items classes (fun x y => y ∈ m x) b a) := by
  obtain ⟨q, _, classes, _, h1, _, h3, _, _, _, h7⟩ := sub_sorted hc heq hs items hd hdep hin hl hsub
  exact ⟨q, classes, h1, h3, h7⟩

/-- **C65** (components): `Sort` puts the nodes into the strongly connected components of the dependencies between
sub classes, a component after all components it depends on. -/
theorem C65_components (hc : ∀ a b, cmp a b = some (ord a b)) (heq : ∀ a b, eq a b = true ↔ ord a b = .eq)
    (hs : ∀ a b, scmp a b = some (sord a b))
    (items : List τ) (hd : items.Pairwise (fun a b => ord a b ≠ .eq))
    {m : τ → List τ} {dep : GroupC τ τ} (hdep : GroupC.Models ord m dep)
    (hin : ∀ x y, y ∈ m x → (∃ a ∈ items, eq a x = true) ∧ ∃ b ∈ items, eq b y = true)
    {sm : τ → Option σ} {sub : DictC τ σ} (hl : Lists ord sm sub.keys sub.values)
    (hsub : ∀ x v, sm x = some v → ∃ a ∈ items, eq a x = true) :
    ∃ q p' classes cs, initWithSubClass cmp eq scmp items dep sub {} = .ok () q ∧ ShowsClasses q classes ∧
      sort q.proc = some (.ok () p') ∧ Shows classes.length p' cs ∧
      SortedComponents classes.length (ClassDepAt eq items classes (fun x y => y ∈ m x)) cs := by
  obtain ⟨q, p', classes, cs, h1, h2, h3, _, h5, h6, _⟩ := sub_sorted hc heq hs items hd hdep hin hl hsub
  exact ⟨q, p', classes, cs, h1, h3, h2, h5, h6⟩

omit [Std.TransCmp ord] in
theorem subEdgeLoop_err {cls : τ → Cpp Proc Int} {keyIndex : Int} (values : List τ)
    (hcls : ∀ y ∈ values, (∃ i, ∀ p, cls y p = .ok i p) ∨ ∀ p, cls y p = .err p) (n : Nat) :
    ∀ (j : Nat) (D : List (Int × Int)) (p : Proc), GroupC.Models compare (pairsOf compare D) p.ins →
    j + n = values.length →
    (∃ y ∈ values.drop j, ∀ p, cls y p = .err p) → ∃ p', subEdgeLoop cls keyIndex values n j p = .err p' := by
  induction n with
  | zero =>
    rintro j D p h hj ⟨y, hy, _⟩
    rw [List.drop_eq_nil_of_le (by omega)] at hy
    cases hy
  | succ n ih =>
    intro j D p h hj hex
    have hjl : j < values.length := by omega
    have h1 : reading (SeqList.get (j : Int) values) p = .ok values[j] p := by
      rw [SeqList.get_ok (by omega)]; rfl
    unfold subEdgeLoop
    rw [Cpp.bind_ok h1]
    rcases hcls _ (List.getElem_mem hjl) with ⟨i, hi⟩ | he
    · have hex' : ∃ y ∈ values.drop (j + 1), ∀ p, cls y p = .err p := by
        obtain ⟨y, hy, he⟩ := hex
        rw [List.drop_eq_getElem_cons hjl] at hy
        rcases List.mem_cons.mp hy with rfl | hy
        · have := he p; rw [hi p] at this; cases this
        · exact ⟨y, hy, he⟩
      obtain ⟨g1, e1, m1⟩ := group_contains h keyIndex i
      rw [Cpp.bind_ok (hi p), Cpp.bind_ok (onIns_ok e1)]
      by_cases hm : i ∈ pairsOf compare D keyIndex
      · simp only [hm, decide_true, Bool.true_eq_false, if_false]
        exact ih (j + 1) D { p with ins := g1 } m1 (by omega) hex'
      · simp only [hm, decide_false, if_true]
        obtain ⟨b2, g2, a2, m2⟩ := group_add vintKeyCmp m1 keyIndex i
        obtain ⟨p', e⟩ := ih (j + 1) _ { p with ins := g2 } m2 (by omega) hex'
        exact ⟨p', (Cpp.bind_ok (onIns_ok (p := { p with ins := g1 }) a2)).trans e⟩
    · exact ⟨p, Cpp.bind_err (he p)⟩

theorem subKeyLoop_err {cls : τ → Cpp Proc Int} {m : τ → List τ} {dep : GroupC τ τ} (hdep : GroupC.Models ord m dep)
    (hcls : ∀ y, (∃ i, ∀ p, cls y p = .ok i p) ∨ ∀ p, cls y p = .err p) (n : Nat) :
    ∀ (i : Nat) (D : List (Int × Int)) (p : Proc), GroupC.Models compare (pairsOf compare D) p.ins → D.Nodup →
    i + n = dep.keys.length →
    (∃ k ∈ dep.keys.drop i, (∀ p, cls k p = .err p) ∨ ∃ y ∈ m k, ∀ p, cls y p = .err p) →
    ∃ p', subKeyLoop cls dep n i p = .err p' := by
  induction n with
  | zero =>
    rintro i D p h _ hi ⟨y, hy, _⟩
    rw [List.drop_eq_nil_of_le (by omega)] at hy
    cases hy
  | succ n ih =>
    intro i D p h hD hi hex
    have hil : i < dep.keys.length := by omega
    have h1 : reading (SeqList.get (i : Int) dep.keys) p = .ok dep.keys[i] p := by
      rw [SeqList.get_ok (by omega)]; rfl
    have h3 : reading (GroupC.getByIndex (i : Int) dep) p = .ok (m dep.keys[i]) p := by
      obtain ⟨vss, d1, d2⟩ := hdep
      obtain ⟨_, e, he⟩ := GroupC.getByIndex_ok d1 d2 hil
      rw [e, he]; rfl
    unfold subKeyLoop
    rw [Cpp.bind_ok h1]
    rcases hcls dep.keys[i] with ⟨ki, hki⟩ | he
    · rw [Cpp.bind_ok (hki p), Cpp.bind_ok h3]
      by_cases hy : ∃ y ∈ m dep.keys[i], ∀ p, cls y p = .err p
      · obtain ⟨p', e⟩ := subEdgeLoop_err (keyIndex := ki) (m dep.keys[i]) (fun y _ => hcls y) (m dep.keys[i]).length 0 D p h
          (by omega) (by simpa using hy)
        exact ⟨p', Cpp.bind_err e⟩
      · have hf : ∀ y ∈ m dep.keys[i], ∃ f, ∀ p, cls y p = .ok f p := fun y hy' =>
          (hcls y).resolve_right (fun h => hy ⟨y, hy', h⟩)
        obtain ⟨D1, g1, e1, m1, hD1, _⟩ := subEdgeLoop_ok (cls := cls)
          (f := fun y => match cls y {} with | .ok f _ => f | _ => 0) (keyIndex := ki) (m dep.keys[i])
          (fun y hy p => by obtain ⟨f, hf⟩ := hf y hy; rw [hf p, hf {}]) (m dep.keys[i]).length 0 D p h hD (by omega)
        obtain ⟨p', e⟩ := ih (i + 1) D1 { p with ins := g1 } m1 hD1 (by omega) (by
          obtain ⟨k, hk, hk'⟩ := hex
          rw [List.drop_eq_getElem_cons hil] at hk
          rcases List.mem_cons.mp hk with rfl | hk
          · rcases hk' with hk' | hk'
            · have := hk' p; rw [hki p] at this; cases this
            · exact (hy hk').elim
          · exact ⟨k, hk, hk'⟩)
        exact ⟨p', (Cpp.bind_ok e1).trans e⟩
    · exact ⟨p, Cpp.bind_err (he p)⟩

/-- **C65** (errors): if `depGroup` or `subClasses` mentions an object that is not in `items`, `InitWithSubClass` raises
an Error. -/
theorem C65_unknown_object (hc : ∀ a b, cmp a b = some (ord a b)) (heq : ∀ a b, eq a b = true ↔ ord a b = .eq)
    (hs : ∀ a b, scmp a b = some (sord a b))
    (items : List τ) (hd : items.Pairwise (fun a b => ord a b ≠ .eq))
    {m : τ → List τ} {dep : GroupC τ τ} (hdep : GroupC.Models ord m dep)
    {sm : τ → Option σ} {sub : DictC τ σ} (hl : Lists ord sm sub.keys sub.values)
    (x : τ) (hx : (∃ v, sm x = some v) ∨ (∃ y, y ∈ m x) ∨ ∃ y, x ∈ m y) (hno : ∀ a ∈ items, eq a x = false) :
    ∃ q, initWithSubClass cmp eq scmp items dep sub {} = .err q := by
  have hself : ∀ x : τ, ord x x = .eq := fun x => Std.ReflCmp.compare_self (cmp := ord)
  obtain ⟨g, single, h, e1, e2⟩ := split_ok hc hs hl items hd
  have hg : g.keys.Pairwise (fun a b => sord a b = .lt) := by
    obtain ⟨vss, d1, _⟩ := h.group; exact d1.ascending
  have hno' : ∀ a ∈ items, ord a x ≠ .eq := by
    intro a ha he
    have := hno a ha
    rw [(heq a x).mpr he] at this; cases this
  have hcases : ∀ y, (Known ord sord sm g.keys single y ∧
        ∀ p : Proc, getSubClass cmp scmp sub g single y p = .ok (classOf ord sord sm g.keys single y) p) ∨
      (sm y = none ∧ ∀ p : Proc, getSubClass cmp scmp sub g single y p = .err p) := by
    intro y
    by_cases hk : Known ord sord sm g.keys single y
    · exact .inl ⟨hk, fun p => getSubClass_ok hc hs hl hg h.strict hk p⟩
    · right
      cases hv : sm y with
      | some v =>
        exfalso
        obtain ⟨z, hz, _⟩ := sub_member hl hv (Std.ReflCmp.compare_self (cmp := sord))
        obtain ⟨w, hw, hwv⟩ := (multimap_key h.group v).mp (List.ne_nil_of_mem hz)
        exact hk (by unfold Known; rw [hv]; exact ⟨w, hw, hwv⟩)
      | none =>
        refine ⟨rfl, fun p => getSubClass_err hc hl h.strict hv ?_ p⟩
        intro z hz he
        exact hk (by unfold Known; rw [hv]; exact ⟨z, hz, he⟩)
  have f1 : locally (ρ := SubProc) GroupC.empty (scLoop scmp sub sub.keys.length 0) {} = .ok g {} := by
    simp only [locally]
    rw [e1]
  have f2 : locally (ρ := SubProc) [] (singleLoop cmp sub items) {} = .ok single {} := by
    simp only [locally]
    rw [e2]
  unfold initWithSubClass
  rw [Cpp.bind_ok (Cpp.get_apply _), Cpp.bind_ok (Cpp.check_true (by rfl) _), Cpp.bind_ok f1, Cpp.bind_ok f2]
  by_cases hbad : ∃ k ∈ dep.keys, (∀ p : Proc, getSubClass cmp scmp sub g single k p = .err p) ∨
      ∃ y ∈ m k, ∀ p : Proc, getSubClass cmp scmp sub g single y p = .err p
  · obtain ⟨p', e⟩ := subKeyLoop_err (cls := getSubClass cmp scmp sub g single) hdep
      (fun y => (hcases y).imp (fun h => ⟨_, h.2⟩) (·.2)) dep.keys.length 0 [] {} models_empty List.nodup_nil (by omega)
      (by simpa using hbad)
    refine ⟨{ proc := p' }, Cpp.bind_err ?_⟩
    simp only [onProc]
    simp only [Int.natCast_zero] at e
    rw [e]
  · have hgood : ∀ k ∈ dep.keys, (Known ord sord sm g.keys single k) ∧ ∀ y ∈ m k, Known ord sord sm g.keys single y := by
      intro k hk
      constructor
      · rcases hcases k with h | ⟨_, h⟩
        · exact h.1
        · exact (hbad ⟨k, hk, .inl h⟩).elim
      · intro y hy
        rcases hcases y with h | ⟨_, h⟩
        · exact h.1
        · exact (hbad ⟨k, hk, .inr ⟨y, hy, h⟩⟩).elim
    -- `x` is a key of `subClasses`
    have hknown : ∀ y, Known ord sord sm g.keys single y → (∀ a ∈ items, ord a y ≠ .eq) → ∃ v, sm y = some v := by
      intro y hk hn
      unfold Known at hk
      cases hv : sm y with
      | some v => exact ⟨v, rfl⟩
      | none =>
        rw [hv] at hk
        obtain ⟨z, hz, he⟩ := hk
        exact (hn z ((h.mem z).mp hz).1 he).elim
    have hxs : ∃ v, sm x = some v := by
      rcases hx with hx | ⟨y, hy⟩ | ⟨y, hy⟩
      · exact hx
      · obtain ⟨k, hk, hkx⟩ := (multimap_key hdep x).mp (List.ne_nil_of_mem hy)
        obtain ⟨v, hv⟩ := hknown k (hgood k hk).1 (fun a ha he => hno' a ha (ord_eq_trans he hkx))
        exact ⟨v, by rw [← map_congr hl hkx]; exact hv⟩
      · obtain ⟨k, hk, hky⟩ := (multimap_key hdep y).mp (List.ne_nil_of_mem hy)
        exact hknown x ((hgood k hk).2 x (by rw [multimap_congr hdep hky]; exact hy)) hno'
    let ni := nodeItems (pairsOf sord (sub.values.zip sub.keys)) g.keys single
    have hni : ni.length = g.keys.length + single.length := by simp [ni, nodeItems]
    -- too many objects for the buffer
    have htoo : items.length < ni.flatten.length := by
      have hnd : (-1 :: (List.range items.length).map (fun i : Nat => (i : Int))).Nodup := by
        refine List.nodup_cons.mpr ⟨?_, List.pairwise_map.mpr (List.nodup_range.imp (fun h h' => h (by omega)))⟩
        intro hm
        obtain ⟨i, _, hi⟩ := List.mem_map.mp hm
        omega
      have := List.Nodup.length_le_of_subset (l₂ := ni.flatten.map (firstIndex eq items)) hnd (by
        intro v hv
        rcases List.mem_cons.mp hv with rfl | hv
        · obtain ⟨y, hy, he⟩ := (h.member x).mpr (.inl hxs)
          refine List.mem_map.mpr ⟨y, hy, ?_⟩
          rw [firstIndex_congr heq he]
          refine Classical.byContradiction fun hc => ?_
          obtain ⟨a, ha, ha'⟩ := firstIndex_ne.mp hc
          exact hno' a ha ((heq _ _).mp ha')
        · obtain ⟨i, hi, rfl⟩ := List.mem_map.mp hv
          have hlt := List.mem_range.mp hi
          obtain ⟨y, hy, he⟩ := (h.member items[i]).mpr (.inr ⟨_, List.getElem_mem hlt, hself _⟩)
          exact List.mem_map.mpr ⟨y, hy, by rw [firstIndex_congr heq he, firstIndex_at heq hd hlt]⟩)
      simp only [List.length_cons, List.length_map, List.length_range] at this
      omega
    obtain ⟨D, gi, e3, hgi, hDn, hDm⟩ := subKeyLoop_ok
      (cls := getSubClass cmp scmp sub g single) (f := classOf ord sord sm g.keys single) hdep
      (fun k hk => ⟨fun p => getSubClass_ok hc hs hl hg h.strict (hgood k hk).1 p,
        fun y hy p => getSubClass_ok hc hs hl hg h.strict ((hgood k hk).2 y hy) p⟩)
      dep.keys.length 0 [] {} models_empty List.nodup_nil (by omega)
    obtain ⟨go, e4, hgo⟩ := outsLoop_ok hgi gi.keys.length 0 [] { ins := gi } rfl models_empty (by omega)
    simp only [List.nil_append, List.drop_zero] at hgo
    let D2 := gi.keys.flatMap (fun k => (pairsOf compare D k).map (fun v => (k, v)))
    have hD2sw : D2.map (fun e => (e.2, e.1)) = gi.keys.flatMap (fun k => (pairsOf compare D k).map (fun v => (v, k))) := by
      simp only [D2, List.map_flatMap, List.map_map]
      rfl
    have hE : Edges D2 { ins := gi, outs := go } := by
      refine ⟨?_, ?_⟩
      · rw [pairsOf_grouped hgi]; exact hgi
      · rw [hD2sw]; exact hgo
    have hrange : ∀ y, Known ord sord sm g.keys single y →
        0 ≤ classOf ord sord sm g.keys single y ∧ classOf ord sord sm g.keys single y < ni.length := by
      intro y hk
      unfold Known at hk
      unfold classOf
      cases hv : sm y with
      | some v =>
        rw [hv] at hk
        obtain ⟨w, hw, hwv⟩ := hk
        rcases place_cases (ord := sord) g.keys v with ⟨j, hj, e, _⟩ | ⟨e, hn⟩
        · simp only [e]; omega
        · exact (hn w hw hwv).elim
      | none =>
        rw [hv] at hk
        obtain ⟨w, hw, hwv⟩ := hk
        rcases place_cases (ord := ord) single y with ⟨j, hj, e, _⟩ | ⟨e, hn⟩
        · simp only [e]; omega
        · exact (hn w hw hwv).elim
    have hr : ∀ e ∈ D2, (0 ≤ e.1 ∧ e.1 < ni.length) ∧ 0 ≤ e.2 ∧ e.2 < ni.length := by
      rintro ⟨a, b⟩ he
      rw [← mem_pairsOf, pairsOf_grouped hgi, mem_pairsOf, hDm] at he
      simp only [List.not_mem_nil, false_or, List.drop_zero, Prod.mk.injEq] at he
      obtain ⟨k, hk, y, hy, rfl, rfl⟩ := he
      exact ⟨hrange k (hgood k hk).1, hrange y ((hgood k hk).2 y hy)⟩
    obtain ⟨p, e5, hR⟩ := initNodes_ok hE ni.length hr rfl rfl rfl
    have f3 : onProc (subKeyLoop (getSubClass cmp scmp sub g single) dep dep.keys.length 0) ({} : SubProc) =
        .ok () { proc := { ins := gi } } := by
      simp only [onProc]
      simp only [Int.natCast_zero] at e3
      rw [e3]
    have f4 : onProc (outsLoop gi.keys.length 0) ({ proc := { ins := gi } } : SubProc) =
        .ok () { proc := { ins := gi, outs := go } } := by
      simp only [onProc]
      simp only [Int.natCast_zero] at e4
      rw [e4]
    have f5 : onProc (initNodes (g.count + single.length)) ({ proc := { ins := gi, outs := go } } : SubProc) =
        .ok () { proc := p } := by
      have : g.count + single.length = (ni.length : Int) := by rw [hni]; unfold GroupC.count; omega
      rw [this]
      simp only [onProc]
      rw [e5]
    rw [Cpp.bind_ok f3, Cpp.bind_ok (Cpp.get_apply _)]
    obtain ⟨s', e6⟩ := fillLoop_err (eq := eq) items h.group single h.nonempty ni.length [] [] items.length (by simp [ni])
      (by simpa [ni] using htoo)
    refine ⟨⟨p, s'.buffer, s'.slots⟩, (Cpp.bind_ok f4).trans ((Cpp.bind_ok f5).trans ?_)⟩
    unfold fillAll
    have hpl : p.nodes.length = ni.length := hR.len
    simp only [hpl]
    simp only [List.map_nil, List.nil_append, List.length_nil, Int.natCast_zero] at e6
    rw [e6]

/-- **C65** is violated if the same object is in `items` twice: it gets two nodes, and both nodes refer to the first
position; no node refers to the second. -/
theorem C65_violated_duplicates (hc : ∀ a b, cmp a b = some (ord a b)) (heq : ∀ a b, eq a b = true ↔ ord a b = .eq)
    (_hs : ∀ a b, scmp a b = some (sord a b)) (x : τ) :
    ∃ q, initWithSubClass cmp eq scmp [x, x] GroupC.empty (DictC.empty : DictC τ σ) {} = .ok () q ∧
      ShowsClasses q [[0], [0]] := by
  have hself : ord x x = .eq := Std.ReflCmp.compare_self (cmp := ord)
  have hl : Lists ord (fun _ => none : τ → Option σ) (DictC.empty : DictC τ σ).keys (DictC.empty : DictC τ σ).values :=
    ⟨rfl, .nil, by intro k v; simp [DictC.empty]⟩
  obtain ⟨single, e2, _, hperm⟩ := singleLoop_ok hc hl [x, x] [] List.Pairwise.nil
  have hsi : single = [x, x] := by
    have : single.Perm (List.replicate 2 x) := by simpa using hperm
    simpa using List.perm_replicate.mp this
  subst hsi
  have hg : GroupC.Models sord (pairsOf sord []) (GroupC.empty : GroupC σ τ) := models_empty
  have hE : Edges [] ({} : Proc) := ⟨models_empty, models_empty⟩
  obtain ⟨p, e5, hR⟩ := initNodes_ok hE 2 (by simp) rfl rfl rfl
  have hfill := fillLoop_ok (eq := eq) [x, x] hg [x, x] (by simp [nodeItems, GroupC.empty]) 2 [] [] 0
    (by simp [nodeItems, GroupC.empty])
  have hfi : firstIndex eq [x, x] x = 0 := by
    have : eq x x = true := (heq x x).mpr hself
    simp [firstIndex, List.findIdx?_cons, this]
  refine ⟨⟨p, [some 0, some 0], [⟨some 0, 1⟩, ⟨some 1, 1⟩]⟩, ?_, ⟨hR.len, rfl, ?_⟩⟩
  · unfold initWithSubClass
    rw [Cpp.bind_ok (Cpp.get_apply _), Cpp.bind_ok (Cpp.check_true (by rfl) _)]
    have f1 : locally (ρ := SubProc) (GroupC.empty : GroupC σ τ) (scLoop scmp DictC.empty (DictC.empty : DictC τ σ).keys.length 0) {} =
      .ok GroupC.empty {} := rfl
    have f2 : locally (ρ := SubProc) [] (singleLoop cmp (DictC.empty : DictC τ σ) [x, x]) {} = .ok [x, x] {} := by
      simp only [locally]
      rw [e2]
    rw [Cpp.bind_ok f1, Cpp.bind_ok f2]
    have f5 : onProc (initNodes ((GroupC.empty : GroupC σ τ).count + [x, x].length)) ({} : SubProc) = .ok () { proc := p } := by
      have : (GroupC.empty : GroupC σ τ).count + [x, x].length = ((2 : Nat) : Int) := rfl
      rw [this]
      simp only [onProc]
      rw [e5]
    refine (Cpp.bind_ok (a := ()) (s' := ({} : SubProc)) rfl).trans ?_
    refine (Cpp.bind_ok (Cpp.get_apply _)).trans ?_
    refine (Cpp.bind_ok (a := ()) (s' := ({} : SubProc)) rfl).trans ?_
    refine (Cpp.bind_ok f5).trans ?_
    unfold fillAll
    have hpl : p.nodes.length = 2 := hR.len
    simp only [hpl]
    simp [nodeItems, GroupC.empty, hfi, slotsOf, List.replicate] at hfill ⊢
    simp [hfill]
  · intro s hs
    rcases List.mem_cons.mp hs with rfl | hs
    · exact ⟨0, rfl, by simp⟩
    · rw [List.mem_singleton] at hs
      subst hs
      exact ⟨1, rfl, by simp⟩

end

/-! Concrete case: `1` and `2` have the same sub class, `0` depends on `1` and `2` depends on `0`; so the two nodes depend
on each other. -/

theorem example_group : ∃ dep : GroupC Nat Nat, GroupC.Models compare (pairsOf compare [(0, 1), (2, 0)]) dep ∧
    ∀ x y, y ∈ pairsOf compare [(0, 1), (2, 0)] x →
      (∃ a ∈ [0, 1, 2], (a == x) = true) ∧ ∃ b ∈ [0, 1, 2], (b == y) = true := by
  obtain ⟨_, g1, _, h1⟩ := group_add (cmp := fun a b : Nat => some (compare a b)) (fun _ _ => rfl)
    (models_empty (κ := Nat) (ν := Nat) (ord := compare)) 0 1
  obtain ⟨_, g2, _, h2⟩ := group_add (cmp := fun a b : Nat => some (compare a b)) (fun _ _ => rfl) h1 2 0
  refine ⟨g2, h2, ?_⟩
  intro x y h
  obtain ⟨e, he, rfl⟩ := List.mem_map.mp h
  obtain ⟨he, ho⟩ := List.mem_filter.mp he
  have hx : e.1 = x := by simpa using ho
  subst hx
  revert he
  simp
  rintro (rfl | rfl) <;> simp

theorem example_lists : Lists compare (fun k : Nat => if k = 1 ∨ k = 2 then some 5 else none) [1, 2] [5, 5] := by
  refine ⟨rfl, by simp [Nat.compare_eq_lt], ?_⟩
  intro k v
  constructor
  · intro h
    by_cases h1 : k = 1
    · subst h1; exact ⟨0, 1, rfl, rfl, by simpa using h⟩
    · by_cases h2 : k = 2
      · subst h2; exact ⟨1, 2, rfl, rfl, by simpa using h⟩
      · simp [h1, h2] at h
  · rintro ⟨i, k', a, b, c⟩
    match i, a, c with
    | 0, a, c =>
      simp at a c
      subst a; subst c
      simp at b
      simp [← b]
    | 1, a, c =>
      simp at a c
      subst a; subst c
      simp at b
      simp [← b]
    | i + 2, a, c => simp at a

example : ∃ (dep : GroupC Nat Nat) (q : SubProc) (p' : Proc) (classes cs : List (List Int)),
    initWithSubClass (fun a b : Nat => some (compare a b)) (fun a b => a == b) (fun a b : Nat => some (compare a b))
      [0, 1, 2] dep ⟨[1, 2], [5, 5]⟩ {} = .ok () q ∧ ShowsClasses q classes ∧ sort q.proc = some (.ok () p') ∧
      (∃ C ∈ classes, (1 : Int) ∈ C ∧ (2 : Int) ∈ C) ∧ ¬ (∃ C ∈ classes, (0 : Int) ∈ C ∧ (1 : Int) ∈ C) ∧
      ∀ C ∈ cs, ∀ a ∈ C, ∀ b, ClassDepAt (fun a b => a == b) [0, 1, 2] classes (fun x y => y ∈ pairsOf compare [(0, 1), (2, 0)] x) a b →
        ClassDepAt (fun a b => a == b) [0, 1, 2] classes (fun x y => y ∈ pairsOf compare [(0, 1), (2, 0)] x) b a → b ∈ C := by
  obtain ⟨dep, h1, h2⟩ := example_group
  obtain ⟨q, p', classes, cs, e1, e2, h3, h4, _, h6, _⟩ := sub_sorted (ord := (compare : Nat → Nat → Ordering))
    (sord := (compare : Nat → Nat → Ordering)) (eq := fun a b => a == b) (cmp := fun a b : Nat => some (compare a b))
    (scmp := fun a b : Nat => some (compare a b)) (fun _ _ => rfl) (by simp) (fun _ _ => rfl) [0, 1, 2]
    (by simp) h1 h2 (sub := ⟨[1, 2], [5, 5]⟩) example_lists (by
      intro x v h
      by_cases h1 : x = 1
      · subst h1; simp
      · by_cases h2 : x = 2
        · subst h2; simp
        · simp [h1, h2] at h)
  refine ⟨dep, q, p', classes, cs, e1, h3, e2, ?_, ?_, ?_⟩
  · exact (h4.same 1 2 1 2 rfl rfl).mpr (.inr ⟨5, 5, rfl, rfl, rfl⟩)
  · intro h
    rcases (h4.same 0 1 0 1 rfl rfl).mp h with h | ⟨v, w, h, _⟩
    · simp at h
    · simp at h
  · intro C hC a ha b hab hba
    exact (h6.scc C hC a ha b).mpr ⟨.single hab, .single hba⟩

/-- an object in `subClasses` that is not in `items` -/
example : ∃ q, initWithSubClass (fun a b : Nat => some (compare a b)) (fun a b => a == b) (fun a b : Nat => some (compare a b))
      [0, 1] GroupC.empty ⟨[1, 2], [5, 5]⟩ {} = .err q :=
  C65_unknown_object (ord := (compare : Nat → Nat → Ordering))
    (sord := (compare : Nat → Nat → Ordering)) (fun _ _ => rfl) (by simp) (fun _ _ => rfl) [0, 1] (by simp)
    models_empty (sub := ⟨[1, 2], [5, 5]⟩) example_lists 2 (.inl ⟨5, rfl⟩) (by simp)

end PO
end Vlpp
