import Verif.Model.SubClass
import Verif.Lemmas.DictC
import Verif.Props.PartialOrderingProps

set_option autoImplicit false
namespace Vlpp
namespace PO
open Spec

section place
variable {κ : Type} {ord : κ → κ → Ordering} [Std.TransCmp ord]

/-- the position of the element that `ord` does not distinguish from `k`, or -1 -/
def place (ord : κ → κ → Ordering) (ks : List κ) (k : κ) : Int := firstIndex (fun a b => ord a b == .eq) ks k

omit [Std.TransCmp ord] in
theorem place_cases (ks : List κ) (k : κ) :
    (∃ i : Nat, ∃ h : i < ks.length, place ord ks k = i ∧ ord ks[i] k = .eq) ∨
    (place ord ks k = -1 ∧ ∀ x ∈ ks, ord x k ≠ .eq) := by
  unfold place firstIndex
  cases h : ks.findIdx? (fun y => ord y k == .eq) with
  | none =>
    right
    refine ⟨rfl, fun x hx he => ?_⟩
    have := List.findIdx?_eq_none_iff.mp h x hx
    simp [he] at this
  | some i =>
    obtain ⟨hi, h1, _⟩ := List.findIdx?_eq_some_iff_getElem.mp h
    exact .inl ⟨i, hi, rfl, by simpa using h1⟩

theorem place_eq {ks : List κ} (hs : ks.Pairwise (fun a b => ord a b = .lt)) {i : Nat} (hi : i < ks.length) {k : κ} :
    place ord ks k = i ↔ ord ks[i] k = .eq := by
  rcases place_cases (ord := ord) ks k with ⟨j, hj, e, h⟩ | ⟨e, h⟩
  · rw [e]
    constructor
    · intro hij
      have hij : j = i := by omega
      subst hij; exact h
    · intro h'
      have := strict_unique hs (List.getElem?_eq_getElem hi) (List.getElem?_eq_getElem hj) (ord_eq_trans h' (ord_eq_symm h))
      rw [this]
  · rw [e]
    exact ⟨fun h => by omega, fun h' => (h _ (List.getElem_mem hi) h').elim⟩

theorem indexOf_place {cmp : κ → κ → Option Ordering} (hcmp : KeyCmp cmp ord) {ks : List κ}
    (hs : ks.Pairwise (fun a b => ord a b = .lt)) (k : κ) :
    SortedSeq.indexOf cmp k ks = .ok (place ord ks k) ks := by
  rcases SortedSeq.indexOf_spec hcmp.compares (strict_ascending hs) k with ⟨i, hi, e, h⟩ | ⟨e, h⟩
  · rw [e, (place_eq hs hi).mpr h]
  · rcases place_cases (ord := ord) ks k with ⟨j, hj, e', h'⟩ | ⟨e', h'⟩
    · exact (h _ (List.getElem_mem hj) h').elim
    · rw [e, e']
end place

section
variable {τ σ : Type} {ord : τ → τ → Ordering} [Std.TransCmp ord] {sord : σ → σ → Ordering} [Std.TransCmp sord]
variable {cmp : τ → τ → Option Ordering} {scmp : σ → σ → Option Ordering} {eq : τ → τ → Bool}

omit [Std.TransCmp ord] in
theorem scLoop_ok (hs : KeyCmp scmp sord) {sub : DictC τ σ} (hl : sub.keys.length = sub.values.length) (n : Nat) :
    ∀ (i : Nat) (D : List (σ × τ)) (g : GroupC σ τ), GroupC.Models sord (pairsOf sord D) g → i + n = sub.keys.length →
    ∃ g', scLoop scmp sub n i g = .ok () g' ∧
      GroupC.Models sord (pairsOf sord (D ++ (sub.values.zip sub.keys).drop i)) g' := by
  induction n with
  | zero =>
    intro i D g h hi
    refine ⟨g, rfl, ?_⟩
    rw [List.drop_eq_nil_of_le (by rw [List.length_zip]; omega)]
    simpa using h
  | succ n ih =>
    intro i D g h hi
    obtain ⟨b, g1, e1, m1⟩ := group_add hs h (sub.values[i]'(by omega)) (sub.keys[i]'(by omega))
    obtain ⟨g', e, m'⟩ := ih (i + 1) _ g1 m1 (by omega)
    refine ⟨g', ?_, ?_⟩
    · unfold scLoop
      have h1 : reading (SeqList.get (i : Int) sub.keys) g = .ok (sub.keys[i]'(by omega)) g := by
        rw [SeqList.get_ok (by omega)]; rfl
      have h2 : reading (SeqList.get (i : Int) sub.values) g = .ok (sub.values[i]'(by omega)) g := by
        rw [SeqList.get_ok (by omega)]; rfl
      rw [Cpp.bind_ok h1, Cpp.bind_ok h2, Cpp.bind_ok e1]
      exact e
    · rw [List.drop_eq_getElem_cons (i := i) (by rw [List.length_zip]; omega), List.getElem_zip]
      rw [List.append_assoc] at m'
      exact m'

theorem singleLoop_ok (hc : KeyCmp cmp ord) {sub : DictC τ σ} {sm : τ → Option σ} (hl : Lists ord sm sub.keys sub.values)
    (items : List τ) : ∀ xs : List τ, Ascending ord id xs →
    ∃ xs', singleLoop cmp sub items xs = .ok () xs' ∧ Ascending ord id xs' ∧
      xs'.Perm (xs ++ items.filter (fun x => (sm x).isNone)) := by
  induction items with
  | nil => intro xs h; exact ⟨xs, rfl, h, by simp⟩
  | cons item rest ih =>
    intro xs h
    unfold singleLoop
    rcases DictC.contains_spec hc (strict_ascending hl.ascending) item with ⟨e, x, hx, he⟩ | ⟨e, hne⟩
    · have h1 : reading (SortedSeq.contains cmp item sub.keys) xs = .ok true xs := by rw [e]; rfl
      have hsome : (sm item).isNone = false := by
        obtain ⟨i, hi, rfl⟩ := List.getElem_of_mem hx
        have hi' : i < sub.values.length := by rw [← hl.length]; exact hi
        rw [(hl.entries item _).mpr ⟨i, _, List.getElem?_eq_getElem hi, he, List.getElem?_eq_getElem hi'⟩]
        rfl
      rw [Cpp.bind_ok h1]
      obtain ⟨xs', e', a', p'⟩ := ih xs h
      refine ⟨xs', e', a', ?_⟩
      rw [List.filter_cons, hsome]
      exact p'
    · have h1 : reading (SortedSeq.contains cmp item sub.keys) xs = .ok false xs := by rw [e]; rfl
      have hnone : (sm item).isNone = true := by
        cases hv : sm item with
        | none => rfl
        | some v =>
          obtain ⟨i, k, a, b, _⟩ := (hl.entries item v).mp hv
          exact (hne k (List.mem_of_getElem? a) b).elim
      rw [Cpp.bind_ok h1]
      obtain ⟨p, hp, ea, hb, ha⟩ := SortedSeq.add_spec hc.compares h item
      obtain ⟨xs', e', a', p'⟩ := ih _ (SortedSeq.ascending_insert h hp hb ha)
      refine ⟨xs', ?_, a', ?_⟩
      · rw [if_pos rfl]
        exact (Cpp.bind_ok ea).trans e'
      · rw [List.filter_cons, hnone]
        refine p'.trans ?_
        have q1 : (xs.take p ++ item :: xs.drop p).Perm (item :: xs) := by
          refine List.perm_middle.trans ?_
          rw [List.take_append_drop]
        exact (q1.append_right _).trans List.perm_middle.symm

/-- the number of the node that represents an object -/
def classOf (ord : τ → τ → Ordering) (sord : σ → σ → Ordering) (sm : τ → Option σ) (sk : List σ) (single : List τ) (x : τ) : Int :=
  match sm x with
  | some v => place sord sk v
  | none => sk.length + place ord single x

/-- the object is in a sub class or is one of the single items -/
def Known (ord : τ → τ → Ordering) (sord : σ → σ → Ordering) (sm : τ → Option σ) (sk : List σ) (single : List τ) (x : τ) : Prop :=
  match sm x with
  | some v => ∃ w ∈ sk, sord w v = .eq
  | none => ∃ y ∈ single, ord y x = .eq

theorem getSubClass_ok (hc : KeyCmp cmp ord) (hs : KeyCmp scmp sord) {sub : DictC τ σ} {sm : τ → Option σ}
    (hl : Lists ord sm sub.keys sub.values) {g : GroupC σ τ} (hg : g.keys.Pairwise (fun a b => sord a b = .lt))
    {single : List τ} (hsi : single.Pairwise (fun a b => ord a b = .lt)) {x : τ}
    (hk : Known ord sord sm g.keys single x) {ρ : Type} (s : ρ) :
    getSubClass cmp scmp sub g single x s = .ok (classOf ord sord sm g.keys single x) s := by
  unfold getSubClass
  have h1 : reading (SortedSeq.indexOf cmp x sub.keys) s = .ok (place ord sub.keys x) s := by
    rw [indexOf_place hc hl.ascending]; rfl
  rw [Cpp.bind_ok h1]
  have h2 : ∀ v, reading (SortedSeq.indexOf scmp v g.keys) s = .ok (place sord g.keys v) s := by
    intro v; rw [indexOf_place hs hg]; rfl
  have h3 : reading (SortedSeq.indexOf cmp x single) s = .ok (place ord single x) s := by
    rw [indexOf_place hc hsi]; rfl
  unfold classOf
  unfold Known at hk
  rcases place_cases (ord := ord) sub.keys x with ⟨i, hi, e, h⟩ | ⟨e, h⟩
  · have hi' : i < sub.values.length := by rw [← hl.length]; exact hi
    have hv := (hl.entries x _).mpr ⟨i, _, List.getElem?_eq_getElem hi, h, List.getElem?_eq_getElem hi'⟩
    rw [hv] at hk ⊢
    have h4 : reading (SeqList.get (i : Int) sub.values) s = .ok sub.values[i] s := by
      rw [SeqList.get_ok hi']; rfl
    rw [e, if_pos (by omega)]
    have hne : place sord g.keys sub.values[i] ≠ -1 := by
      rcases place_cases (ord := sord) g.keys sub.values[i] with ⟨j, hj, e, _⟩ | ⟨e, h⟩
      · rw [e]; omega
      · obtain ⟨w, hw, hw'⟩ := hk
        exact (h w hw hw').elim
    refine (Cpp.bind_ok h4).trans ?_
    refine (Cpp.bind_ok (h2 _)).trans ?_
    exact Cpp.bind_ok (Cpp.check_true hne s)
  · have hv : sm x = none := by
      cases hv : sm x with
      | none => rfl
      | some v =>
        obtain ⟨i, k, a, b, _⟩ := (hl.entries x v).mp hv
        exact (h k (List.mem_of_getElem? a) b).elim
    rw [hv] at hk ⊢
    rw [e, if_neg (by simp)]
    have hne : place ord single x ≠ -1 := by
      rcases place_cases (ord := ord) single x with ⟨j, hj, e, _⟩ | ⟨e, h⟩
      · rw [e]; omega
      · obtain ⟨w, hw, hw'⟩ := hk
        exact (h w hw hw').elim
    refine (Cpp.bind_ok h3).trans ?_
    exact Cpp.bind_ok (Cpp.check_true hne s)

theorem getSubClass_err (hc : KeyCmp cmp ord) {sub : DictC τ σ} {sm : τ → Option σ}
    (hl : Lists ord sm sub.keys sub.values) {g : GroupC σ τ}
    {single : List τ} (hsi : single.Pairwise (fun a b => ord a b = .lt)) {x : τ}
    (hx : sm x = none) (hk : ∀ y ∈ single, ord y x ≠ .eq) {ρ : Type} (s : ρ) :
    getSubClass cmp scmp sub g single x s = .err s := by
  unfold getSubClass
  have h1 : reading (SortedSeq.indexOf cmp x sub.keys) s = .ok (place ord sub.keys x) s := by
    rw [indexOf_place hc hl.ascending]; rfl
  have h3 : reading (SortedSeq.indexOf cmp x single) s = .ok (place ord single x) s := by
    rw [indexOf_place hc hsi]; rfl
  have e1 : place ord sub.keys x = -1 := by
    rcases place_cases (ord := ord) sub.keys x with ⟨i, hi, e, h⟩ | ⟨e, h⟩
    · have hi' : i < sub.values.length := by rw [← hl.length]; exact hi
      have hv := (hl.entries x _).mpr ⟨i, _, List.getElem?_eq_getElem hi, h, List.getElem?_eq_getElem hi'⟩
      rw [hv] at hx; cases hx
    · exact e
  have e2 : place ord single x = -1 := by
    rcases place_cases (ord := ord) single x with ⟨i, hi, e, h⟩ | ⟨e, h⟩
    · exact (hk _ (List.getElem_mem hi) h).elim
    · exact e
  rw [Cpp.bind_ok h1, e1, if_neg (by simp)]
  refine (Cpp.bind_ok h3).trans ?_
  exact Cpp.bind_err (Cpp.check_false (by rw [e2]; simp) s)

theorem group_contains {m : Int → List Int} {g : GroupC Int Int} (h : GroupC.Models compare m g) (k v : Int) :
    ∃ g', GroupC.contains vintCmp (· == ·) k v g = .ok (decide (v ∈ m k)) g' ∧ GroupC.Models compare m g' := by
  obtain ⟨s', e, h'⟩ := GroupC.step_refines vintKeyCmp (· == ·) h (.contains k v)
  have e : GroupC.observe .flag (GroupC.contains vintCmp (· == ·) k v g) =
    some (s', .flag ((m k).any (fun x => x == v))) := e
  have h' : GroupC.Models compare m s' := h'
  have hb : (m k).any (fun x => x == v) = decide (v ∈ m k) := by
    rw [Bool.eq_iff_iff]; simp
  cases hr : GroupC.contains vintCmp (· == ·) k v g with
  | ok b s1 =>
    rw [hr] at e
    simp only [GroupC.observe, Option.some.injEq, Prod.mk.injEq, GroupRet.flag.injEq] at e
    exact ⟨s1, by rw [e.2, hb], e.1 ▸ h'⟩
  | err s1 => rw [hr] at e; simp [GroupC.observe] at e
  | fault => rw [hr] at e; simp [GroupC.observe] at e

omit [Std.TransCmp ord] in
theorem subEdgeLoop_ok {cls : τ → Cpp Proc Int} {f : τ → Int} {keyIndex : Int} (values : List τ)
    (hcls : ∀ y ∈ values, ∀ p, cls y p = .ok (f y) p) (n : Nat) :
    ∀ (j : Nat) (D : List (Int × Int)) (p : Proc), GroupC.Models compare (pairsOf compare D) p.ins → D.Nodup →
    j + n = values.length →
    ∃ D' g, subEdgeLoop cls keyIndex values n j p = .ok () { p with ins := g } ∧
      GroupC.Models compare (pairsOf compare D') g ∧ D'.Nodup ∧
      ∀ e, e ∈ D' ↔ e ∈ D ∨ ∃ y ∈ values.drop j, e = (keyIndex, f y) := by
  induction n with
  | zero =>
    intro j D p h hD hj
    refine ⟨D, p.ins, rfl, h, hD, fun e => ?_⟩
    rw [List.drop_eq_nil_of_le (by omega)]
    simp
  | succ n ih =>
    intro j D p h hD hj
    have hjl : j < values.length := by omega
    have h1 : reading (SeqList.get (j : Int) values) p = .ok values[j] p := by
      rw [SeqList.get_ok (by omega)]; rfl
    have h2 := hcls values[j] (List.getElem_mem hjl) p
    obtain ⟨g1, e1, m1⟩ := group_contains h keyIndex (f values[j])
    unfold subEdgeLoop
    rw [Cpp.bind_ok h1, Cpp.bind_ok h2, Cpp.bind_ok (onIns_ok e1)]
    rw [List.drop_eq_getElem_cons hjl]
    by_cases hin : (keyIndex, f values[j]) ∈ D
    · have : f values[j] ∈ pairsOf compare D keyIndex := mem_pairsOf.mpr hin
      simp only [this, decide_true, Bool.true_eq_false, if_false]
      obtain ⟨D', g, e, m', hD', hm⟩ := ih (j + 1) D { p with ins := g1 } m1 hD (by omega)
      refine ⟨D', g, e, m', hD', fun e => ?_⟩
      rw [hm e]
      simp only [List.mem_cons]
      constructor
      · rintro (h | ⟨y, hy, rfl⟩)
        · exact .inl h
        · exact .inr ⟨y, .inr hy, rfl⟩
      · rintro (h | ⟨y, rfl | hy, rfl⟩)
        · exact .inl h
        · exact .inl hin
        · exact .inr ⟨y, hy, rfl⟩
    · have : f values[j] ∉ pairsOf compare D keyIndex := fun hc => hin (mem_pairsOf.mp hc)
      simp only [this, decide_false, if_true]
      obtain ⟨b2, g2, a2, m2⟩ := group_add vintKeyCmp m1 keyIndex (f values[j])
      obtain ⟨D', g, e, m', hD', hm⟩ := ih (j + 1) (D ++ [(keyIndex, f values[j])]) { p with ins := g2 } m2
        (List.nodup_append.mpr ⟨hD, by simp, by
          intro a ha b hb hab
          simp only [List.mem_singleton] at hb
          subst hab; subst hb; exact hin ha⟩) (by omega)
      refine ⟨D', g, (Cpp.bind_ok (onIns_ok (p := { p with ins := g1 }) a2)).trans e, m', hD', fun e => ?_⟩
      rw [hm e]
      simp only [List.mem_cons, List.mem_append, List.not_mem_nil, or_false]
      constructor
      · rintro ((h | rfl) | ⟨y, hy, rfl⟩)
        · exact .inl h
        · exact .inr ⟨_, .inl rfl, rfl⟩
        · exact .inr ⟨y, .inr hy, rfl⟩
      · rintro (h | ⟨y, rfl | hy, rfl⟩)
        · exact .inl (.inl h)
        · exact .inl (.inr rfl)
        · exact .inr ⟨y, hy, rfl⟩

theorem subKeyLoop_ok {cls : τ → Cpp Proc Int} {f : τ → Int} {m : τ → List τ} {dep : GroupC τ τ}
    (hdep : GroupC.Models ord m dep)
    (hk : ∀ k ∈ dep.keys, (∀ p, cls k p = .ok (f k) p) ∧ ∀ y ∈ m k, ∀ p, cls y p = .ok (f y) p) (n : Nat) :
    ∀ (i : Nat) (D : List (Int × Int)) (p : Proc), GroupC.Models compare (pairsOf compare D) p.ins → D.Nodup →
    i + n = dep.keys.length →
    ∃ D' g, subKeyLoop cls dep n i p = .ok () { p with ins := g } ∧
      GroupC.Models compare (pairsOf compare D') g ∧ D'.Nodup ∧
      ∀ e, e ∈ D' ↔ e ∈ D ∨ ∃ k ∈ dep.keys.drop i, ∃ y ∈ m k, e = (f k, f y) := by
  induction n with
  | zero =>
    intro i D p h hD hi
    refine ⟨D, p.ins, rfl, h, hD, fun e => ?_⟩
    rw [List.drop_eq_nil_of_le (by omega)]
    simp
  | succ n ih =>
    intro i D p h hD hi
    have hil : i < dep.keys.length := by omega
    obtain ⟨hkc, hyc⟩ := hk _ (List.getElem_mem hil)
    have h1 : reading (SeqList.get (i : Int) dep.keys) p = .ok dep.keys[i] p := by
      rw [SeqList.get_ok (by omega)]; rfl
    have h3 : reading (GroupC.getByIndex (i : Int) dep) p = .ok (m dep.keys[i]) p := by
      obtain ⟨vss, d1, d2⟩ := hdep
      obtain ⟨_, e, he⟩ := GroupC.getByIndex_ok d1 d2 hil
      rw [e, he]; rfl
    obtain ⟨D1, g1, e1, m1, hD1, hm1⟩ := subEdgeLoop_ok (keyIndex := f dep.keys[i]) (m dep.keys[i]) hyc (m dep.keys[i]).length 0 D p h hD
      (by omega)
    obtain ⟨D', g, e, m', hD', hm⟩ := ih (i + 1) D1 { p with ins := g1 } m1 hD1 (by omega)
    refine ⟨D', g, ?_, m', hD', fun e => ?_⟩
    · unfold subKeyLoop
      rw [Cpp.bind_ok h1, Cpp.bind_ok (hkc p), Cpp.bind_ok h3]
      exact (Cpp.bind_ok e1).trans e
    · rw [hm e, hm1 e, List.drop_eq_getElem_cons hil]
      simp only [List.drop_zero, List.mem_cons]
      constructor
      · rintro ((h | ⟨y, hy, rfl⟩) | ⟨k, hk, y, hy, rfl⟩)
        · exact .inl h
        · exact .inr ⟨_, .inl rfl, y, hy, rfl⟩
        · exact .inr ⟨k, .inr hk, y, hy, rfl⟩
      · rintro (h | ⟨k, rfl | hk, y, hy, rfl⟩)
        · exact .inl (.inl h)
        · exact .inl (.inr ⟨y, hy, rfl⟩)
        · exact .inr ⟨k, hk, y, hy, rfl⟩

theorem outsInner_ok {key : Int} (values : List Int) (n : Nat) :
    ∀ (j : Nat) (E : List (Int × Int)) (p : Proc), GroupC.Models compare (pairsOf compare E) p.outs →
    j + n = values.length →
    ∃ g, outsInner key values n j p = .ok () { p with outs := g } ∧
      GroupC.Models compare (pairsOf compare (E ++ (values.drop j).map (fun v => (v, key)))) g := by
  induction n with
  | zero =>
    intro j E p h hj
    refine ⟨p.outs, rfl, ?_⟩
    rw [List.drop_eq_nil_of_le (by omega)]
    simpa using h
  | succ n ih =>
    intro j E p h hj
    have hjl : j < values.length := by omega
    have h1 : reading (SeqList.get (j : Int) values) p = .ok values[j] p := by
      rw [SeqList.get_ok (by omega)]; rfl
    obtain ⟨b2, g2, a2, m2⟩ := group_add vintKeyCmp h values[j] key
    obtain ⟨g, e, m'⟩ := ih (j + 1) _ { p with outs := g2 } m2 (by omega)
    refine ⟨g, ?_, ?_⟩
    · unfold outsInner
      rw [Cpp.bind_ok h1]
      exact (Cpp.bind_ok (onOuts_ok a2)).trans e
    · rw [List.drop_eq_getElem_cons hjl, List.map_cons]
      rw [List.append_assoc] at m'
      exact m'

theorem outsLoop_ok {m : Int → List Int} {gi : GroupC Int Int} (hg : GroupC.Models compare m gi) (n : Nat) :
    ∀ (i : Nat) (E : List (Int × Int)) (p : Proc), p.ins = gi → GroupC.Models compare (pairsOf compare E) p.outs →
    i + n = gi.keys.length →
    ∃ g, outsLoop n i p = .ok () { p with outs := g } ∧
      GroupC.Models compare (pairsOf compare (E ++ (gi.keys.drop i).flatMap (fun k => (m k).map (fun v => (v, k))))) g := by
  induction n with
  | zero =>
    intro i E p hp h hi
    refine ⟨p.outs, rfl, ?_⟩
    rw [List.drop_eq_nil_of_le (by omega)]
    simpa using h
  | succ n ih =>
    intro i E p hp h hi
    have hil : i < gi.keys.length := by omega
    have h1 : onIns (GroupC.onKeys (SeqList.get (i : Int))) p = .ok gi.keys[i] p := by
      have : GroupC.onKeys (SeqList.get (i : Int)) p.ins = .ok gi.keys[i] p.ins := by
        rw [hp]; exact GroupC.onKeys_ok (SeqList.get_ok hil)
      exact onIns_ok this
    have h3 : onIns (GroupC.getByIndex (i : Int)) p = .ok (m gi.keys[i]) p := by
      obtain ⟨vss, d1, d2⟩ := hg
      obtain ⟨_, e, he⟩ := GroupC.getByIndex_ok d1 d2 hil
      have : GroupC.getByIndex (i : Int) p.ins = .ok (m gi.keys[i]) p.ins := by rw [hp, e, he]
      exact onIns_ok this
    obtain ⟨g1, e1, m1⟩ := outsInner_ok (key := gi.keys[i]) (m gi.keys[i]) (m gi.keys[i]).length 0 E p h (by omega)
    obtain ⟨g, e, m'⟩ := ih (i + 1) _ { p with outs := g1 } hp m1 (by omega)
    refine ⟨g, ?_, ?_⟩
    · unfold outsLoop
      rw [Cpp.bind_ok h1, Cpp.bind_ok h3]
      exact (Cpp.bind_ok e1).trans e
    · rw [List.drop_eq_getElem_cons hil, List.flatMap_cons]
      rw [List.append_assoc] at m'
      exact m'

/-- the pairs of a group, by key -/
theorem pairsOf_grouped {m : Int → List Int} {gi : GroupC Int Int} (hg : GroupC.Models compare m gi) :
    pairsOf compare (gi.keys.flatMap (fun k => (m k).map (fun v => (k, v)))) = m := by
  funext k
  have hnd : gi.keys.Nodup := by
    obtain ⟨vss, d1, _⟩ := hg
    exact d1.ascending.imp (fun h e => by subst e; simp at h)
  have key : ∀ ks : List Int, ks.Nodup →
      pairsOf compare (ks.flatMap (fun k => (m k).map (fun v => (k, v)))) k = if k ∈ ks then m k else [] := by
    intro ks hnd
    induction ks with
    | nil => rfl
    | cons a ks ih =>
      obtain ⟨ha, hnd⟩ := List.nodup_cons.mp hnd
      have ih := ih hnd
      unfold pairsOf at ih ⊢
      rw [List.flatMap_cons, List.filter_append, List.map_append, ih]
      by_cases hak : a = k
      · subst hak
        rw [if_neg ha, if_pos (by simp)]
        simp [List.filter_map, Function.comp_def]
      · have : ¬ k = a := fun h => hak h.symm
        simp only [List.mem_cons, this, false_or]
        have hc : (compare a k == .eq) = false := by simp [hak]
        simp [List.filter_map, Function.comp_def, hc]
  rw [key _ hnd]
  by_cases h : k ∈ gi.keys
  · rw [if_pos h]
  · rw [if_neg h]
    refine Classical.byContradiction fun hc => ?_
    obtain ⟨x, hx, he⟩ := (multimap_key hg k).mp (fun h => hc h.symm)
    rw [Int.compare_eq_eq.mp he] at hx
    exact h hx

/-! ## the buffer -/

/-- the slots of nodes whose items are stored one after another, from `off` -/
def slotsOf : Int → List (List Int) → List Slot
  | _, [] => []
  | off, C :: cs => ⟨some off, C.length⟩ :: slotsOf (off + C.length) cs

theorem set_replicate (done : List Int) (k : Nat) (v : Int) :
    ((done.map some ++ List.replicate (k + 1) none).set done.length (some v) : List (Option Int)) =
      (done ++ [v]).map some ++ List.replicate k none := by
  rw [List.set_append_right _ _ (by simp)]
  simp [List.replicate_succ]

theorem store_ok (done : List Int) (k : Nat) (ss : List Slot) (v : Int) :
    Fill.store v ⟨done.map some ++ List.replicate (k + 1) none, ss, done.length⟩ =
      .ok () ⟨(done ++ [v]).map some ++ List.replicate k none, ss, (done ++ [v]).length⟩ := by
  unfold Fill.store
  rw [Cpp.bind_ok (Cpp.get_apply _), Cpp.bind_ok (Cpp.set_apply _ _),
    Cpp.bind_ok (Cpp.check_true (by simp; omega) _)]
  have e : ((done.length : Nat) : Int).toNat = done.length := by omega
  simp only [Cpp.set_apply, e, set_replicate]
  simp

theorem store_err (done : List Int) (ss : List Slot) (v : Int) :
    ∃ s', Fill.store v ⟨done.map some, ss, done.length⟩ = .err s' := by
  unfold Fill.store
  rw [Cpp.bind_ok (Cpp.get_apply _), Cpp.bind_ok (Cpp.set_apply _ _)]
  exact ⟨_, Cpp.bind_err (Cpp.check_false (by simp) _)⟩

omit [Std.TransCmp ord] in
theorem fillInner_ok (items values : List τ) (ss : List Slot) (n : Nat) :
    ∀ (j : Nat) (done : List Int) (k : Nat), j + n = values.length →
    fillInner eq items values n j ⟨done.map some ++ List.replicate (k + n) none, ss, done.length⟩ =
      .ok () ⟨(done ++ (values.drop j).map (firstIndex eq items)).map some ++ List.replicate k none, ss,
        (done ++ (values.drop j).map (firstIndex eq items)).length⟩ := by
  induction n with
  | zero =>
    intro j done k hj
    rw [List.drop_eq_nil_of_le (by omega)]
    simp [fillInner]
  | succ n ih =>
    intro j done k hj
    have hjl : j < values.length := by omega
    unfold fillInner
    have h1 : ∀ s : Fill, reading (SeqList.get (j : Int) values) s = .ok values[j] s := by
      intro s; rw [SeqList.get_ok (by omega)]; rfl
    have h2 : ∀ s : Fill, reading (SeqList.indexOf eq values[j] items) s = .ok (firstIndex eq items values[j]) s := by
      intro s; rw [SeqList.indexOf_ok]; rfl
    rw [Cpp.bind_ok (h1 _), Cpp.bind_ok (h2 _), show k + (n + 1) = (k + n) + 1 by omega, Cpp.bind_ok (store_ok _ _ _ _)]
    have := ih (j + 1) (done ++ [firstIndex eq items values[j]]) k (by omega)
    rw [List.drop_eq_getElem_cons hjl, List.map_cons]
    rw [List.append_assoc] at this
    exact this

omit [Std.TransCmp ord] in
theorem fillInner_err (items values : List τ) (ss : List Slot) (n : Nat) :
    ∀ (j : Nat) (done : List Int) (k : Nat), j + n = values.length → k < n →
    ∃ s', fillInner eq items values n j ⟨done.map some ++ List.replicate k none, ss, done.length⟩ = .err s' := by
  induction n with
  | zero => intro j done k hj hk; omega
  | succ n ih =>
    intro j done k hj hk
    have hjl : j < values.length := by omega
    unfold fillInner
    have h1 : ∀ s : Fill, reading (SeqList.get (j : Int) values) s = .ok values[j] s := by
      intro s; rw [SeqList.get_ok (by omega)]; rfl
    have h2 : ∀ s : Fill, reading (SeqList.indexOf eq values[j] items) s = .ok (firstIndex eq items values[j]) s := by
      intro s; rw [SeqList.indexOf_ok]; rfl
    rw [Cpp.bind_ok (h1 _), Cpp.bind_ok (h2 _)]
    cases k with
    | zero =>
      obtain ⟨s', e⟩ := store_err done ss (firstIndex eq items values[j])
      simp only [List.replicate_zero, List.append_nil]
      exact ⟨s', Cpp.bind_err e⟩
    | succ k =>
      rw [Cpp.bind_ok (store_ok _ _ _ _)]
      exact ih (j + 1) _ k (by omega) (by omega)

theorem onSlot_ok (buf : List (Option Int)) (ss rest : List Slot) (sl : Slot) (used : Int) (f : Slot → Slot) :
    Fill.onSlot ss.length f ⟨buf, ss ++ sl :: rest, used⟩ = .ok () ⟨buf, ss ++ f sl :: rest, used⟩ := by
  unfold Fill.onSlot
  rw [Cpp.bind_ok (Cpp.get_apply _)]
  have h : at? (ss ++ sl :: rest) (ss.length : Int) = some sl := by simp [at?]
  simp only [h]
  rw [Cpp.set_apply]
  simp

/-- the items of the nodes -/
def nodeItems (m : σ → List τ) (sk : List σ) (single : List τ) : List (List τ) := sk.map m ++ single.map (fun x => [x])

/-- the loop that fills the buffer -/
theorem fillLoop_step (items : List τ) {m : σ → List τ} {g : GroupC σ τ} (hg : GroupC.Models sord m g) (single : List τ)
    (n : Nat) (ss : List Slot) (hi : ss.length < (nodeItems m g.keys single).length) (done : List Int) (k : Nat) (hk : 0 < k) :
    (∀ k', k = k' + (nodeItems m g.keys single)[ss.length].length →
      fillLoop eq items g single (n + 1) ss.length
        ⟨done.map some ++ List.replicate k none, ss ++ List.replicate (n + 1) ({} : Slot), done.length⟩ =
      fillLoop eq items g single n (ss.length + 1 : Nat)
        ⟨(done ++ (nodeItems m g.keys single)[ss.length].map (firstIndex eq items)).map some ++ List.replicate k' none,
          (ss ++ [⟨some done.length, (nodeItems m g.keys single)[ss.length].length⟩]) ++ List.replicate n ({} : Slot),
          (done ++ (nodeItems m g.keys single)[ss.length].map (firstIndex eq items)).length⟩) ∧
    (k < (nodeItems m g.keys single)[ss.length].length → ∃ s', fillLoop eq items g single (n + 1) ss.length
        ⟨done.map some ++ List.replicate k none, ss ++ List.replicate (n + 1) ({} : Slot), done.length⟩ = .err s') := by
  have hnl : (nodeItems m g.keys single).length = g.keys.length + single.length := by simp [nodeItems]
  have hcheck : (0 : Int) ≤ done.length ∧ (done.length : Int) < (done.map some ++ List.replicate k none : List (Option Int)).length := by
    simp; omega
  by_cases hlt : ss.length < g.keys.length
  · have hgi : reading (GroupC.getByIndex (ss.length : Int) g) = fun s : Fill => .ok (m g.keys[ss.length]) s := by
      obtain ⟨vss, d1, d2⟩ := hg
      obtain ⟨_, e, he⟩ := GroupC.getByIndex_ok d1 d2 hlt
      rw [e, he]; rfl
    have hni : (nodeItems m g.keys single)[ss.length] = m g.keys[ss.length] := by
      simp [nodeItems, List.getElem_append_left, hlt]
    rw [hni]
    have hc : (ss.length : Int) < g.count := by unfold GroupC.count; omega
    constructor
    · intro k' hk'
      rw [fillLoop, Cpp.bind_ok (Cpp.get_apply _), Cpp.bind_ok (Cpp.check_true hcheck _), List.replicate_succ,
        Cpp.bind_ok (onSlot_ok _ _ _ _ _ _), if_pos hc, hgi]
      refine (Cpp.bind_ok rfl).trans ?_
      have := fillInner_ok (eq := eq) items (m g.keys[ss.length]) (ss ++ { ({} : Slot) with first := some (done.length : Int) } :: List.replicate n ({} : Slot))
        (m g.keys[ss.length]).length 0 done k' (by omega)
      rw [hk']
      refine (Cpp.bind_ok this).trans ?_
      refine (Cpp.bind_ok (onSlot_ok _ _ _ _ _ _)).trans ?_
      simp
    · intro hk'
      rw [fillLoop, Cpp.bind_ok (Cpp.get_apply _), Cpp.bind_ok (Cpp.check_true hcheck _), List.replicate_succ,
        Cpp.bind_ok (onSlot_ok _ _ _ _ _ _), if_pos hc, hgi]
      obtain ⟨s', e⟩ := fillInner_err (eq := eq) items (m g.keys[ss.length]) (ss ++ { ({} : Slot) with first := some (done.length : Int) } :: List.replicate n ({} : Slot))
        (m g.keys[ss.length]).length 0 done k (by omega) hk'
      exact ⟨s', (Cpp.bind_ok rfl).trans (Cpp.bind_err e)⟩
  · have hj : ss.length - g.keys.length < single.length := by omega
    have hni : (nodeItems m g.keys single)[ss.length] = [single[ss.length - g.keys.length]] := by
      simp [nodeItems, List.getElem_append_right, Nat.le_of_not_lt hlt]
    rw [hni]
    have hc : ¬ (ss.length : Int) < g.count := by unfold GroupC.count; omega
    have hget : reading (SeqList.get ((ss.length : Int) - g.count) single) =
        fun s : Fill => .ok single[ss.length - g.keys.length] s := by
      have : (ss.length : Int) - g.count = ((ss.length - g.keys.length : Nat) : Int) := by unfold GroupC.count; omega
      rw [this, SeqList.get_ok hj]; rfl
    constructor
    · intro k' hk'
      simp only [List.length_singleton] at hk'
      rw [fillLoop, Cpp.bind_ok (Cpp.get_apply _), Cpp.bind_ok (Cpp.check_true hcheck _), List.replicate_succ,
        Cpp.bind_ok (onSlot_ok _ _ _ _ _ _), if_neg hc, hget]
      refine (Cpp.bind_ok rfl).trans ?_
      rw [SeqList.indexOf_ok, hk']
      refine (Cpp.bind_ok rfl).trans ?_
      refine (Cpp.bind_ok (store_ok _ _ _ _)).trans ?_
      refine (Cpp.bind_ok (onSlot_ok _ _ _ _ _ _)).trans ?_
      simp
    · intro hk'
      simp only [List.length_singleton] at hk'
      omega

theorem fillLoop_ok (items : List τ) {m : σ → List τ} {g : GroupC σ τ} (hg : GroupC.Models sord m g) (single : List τ)
    (hne : ∀ C ∈ nodeItems m g.keys single, C ≠ []) (n : Nat) :
    ∀ (ss : List Slot) (done : List Int) (k : Nat), ss.length + n = (nodeItems m g.keys single).length →
    fillLoop eq items g single n ss.length
        ⟨done.map some ++ List.replicate (k + ((nodeItems m g.keys single).drop ss.length).flatten.length) none,
          ss ++ List.replicate n ({} : Slot), done.length⟩ =
      .ok () ⟨(done ++ (((nodeItems m g.keys single).drop ss.length).map (List.map (firstIndex eq items))).flatten).map some ++ List.replicate k none,
        ss ++ slotsOf done.length (((nodeItems m g.keys single).drop ss.length).map (List.map (firstIndex eq items))),
        (done ++ (((nodeItems m g.keys single).drop ss.length).map (List.map (firstIndex eq items))).flatten).length⟩ := by
  induction n with
  | zero =>
    intro ss done k hi
    rw [List.drop_eq_nil_of_le (by omega)]
    simp [fillLoop, slotsOf]
  | succ n ih =>
    intro ss done k hi
    have hlt : ss.length < (nodeItems m g.keys single).length := by omega
    have hpos : 0 < (nodeItems m g.keys single)[ss.length].length :=
      List.length_pos_iff.mpr (hne _ (List.getElem_mem hlt))
    rw [List.drop_eq_getElem_cons hlt, List.flatten_cons, List.length_append, List.map_cons, List.flatten_cons, slotsOf]
    rw [(fillLoop_step items hg single n ss hlt done _ (by omega)).1
      (k + ((nodeItems m g.keys single).drop (ss.length + 1)).flatten.length) (by omega)]
    have := ih (ss ++ [⟨some done.length, (nodeItems m g.keys single)[ss.length].length⟩])
      (done ++ (nodeItems m g.keys single)[ss.length].map (firstIndex eq items)) k (by simp; omega)
    simp only [List.length_append, List.length_singleton, List.length_map] at this ⊢
    rw [this]
    simp [Int.add_assoc]

theorem fillLoop_err (items : List τ) {m : σ → List τ} {g : GroupC σ τ} (hg : GroupC.Models sord m g) (single : List τ)
    (hne : ∀ C ∈ nodeItems m g.keys single, C ≠ []) (n : Nat) :
    ∀ (ss : List Slot) (done : List Int) (k : Nat), ss.length + n = (nodeItems m g.keys single).length →
    k < ((nodeItems m g.keys single).drop ss.length).flatten.length →
    ∃ s', fillLoop eq items g single n ss.length
        ⟨done.map some ++ List.replicate k none, ss ++ List.replicate n ({} : Slot), done.length⟩ = .err s' := by
  induction n with
  | zero =>
    intro ss done k hi hk
    rw [List.drop_eq_nil_of_le (by omega)] at hk
    simp at hk
  | succ n ih =>
    intro ss done k hi hk
    have hlt : ss.length < (nodeItems m g.keys single).length := by omega
    have hpos : 0 < (nodeItems m g.keys single)[ss.length].length :=
      List.length_pos_iff.mpr (hne _ (List.getElem_mem hlt))
    rw [List.drop_eq_getElem_cons hlt, List.flatten_cons, List.length_append] at hk
    by_cases h0 : k = 0
    · subst h0
      rw [fillLoop, Cpp.bind_ok (Cpp.get_apply _)]
      exact ⟨_, Cpp.bind_err (Cpp.check_false (by simp) _)⟩
    · have hstep := fillLoop_step (eq := eq) items hg single n ss hlt done k (by omega)
      by_cases hk' : k < (nodeItems m g.keys single)[ss.length].length
      · exact hstep.2 hk'
      · rw [hstep.1 (k - (nodeItems m g.keys single)[ss.length].length) (by omega)]
        have := ih (ss ++ [⟨some done.length, (nodeItems m g.keys single)[ss.length].length⟩])
          (done ++ (nodeItems m g.keys single)[ss.length].map (firstIndex eq items))
          (k - (nodeItems m g.keys single)[ss.length].length) (by simp; omega) (by
            simp only [List.length_append, List.length_singleton]; omega)
        simp only [List.length_append, List.length_singleton, List.length_map] at this ⊢
        exact this

/-! ## which item is in which node -/

/-- the situation after the first two loops -/
structure Split (ord : τ → τ → Ordering) (sord : σ → σ → Ordering) (sm : τ → Option σ) (sub : DictC τ σ) (items : List τ)
    (g : GroupC σ τ) (single : List τ) : Prop where
  lists : Lists ord sm sub.keys sub.values
  group : GroupC.Models sord (pairsOf sord (sub.values.zip sub.keys)) g
  strict : single.Pairwise (fun a b => ord a b = .lt)
  mem : ∀ x, x ∈ single ↔ x ∈ items ∧ sm x = none

omit [Std.TransCmp sord] in
theorem map_congr {sm : τ → Option σ} {ks : List τ} {vs : List σ} (h : Lists ord sm ks vs) {x y : τ} (he : ord x y = .eq) :
    sm x = sm y := by
  have key : ∀ x y, ord x y = .eq → ∀ v, sm x = some v → sm y = some v := by
    intro x y he v hv
    obtain ⟨i, k, a, b, c⟩ := (h.entries x v).mp hv
    exact (h.entries y v).mpr ⟨i, k, a, ord_eq_trans b he, c⟩
  cases hx : sm x with
  | some v => rw [key x y he v hx]
  | none =>
    cases hy : sm y with
    | none => rfl
    | some v => rw [key y x (ord_eq_symm he) v hy] at hx; cases hx

omit [Std.TransCmp ord] [Std.TransCmp sord] in
theorem mem_zip {ks : List τ} {vs : List σ} {v : σ} {x : τ} :
    x ∈ pairsOf sord (vs.zip ks) v ↔ ∃ (i : Nat) (w : σ), ks[i]? = some x ∧ vs[i]? = some w ∧ sord w v = .eq := by
  unfold pairsOf
  simp only [List.mem_map, List.mem_filter, beq_iff_eq]
  constructor
  · rintro ⟨⟨w, y⟩, ⟨h1, h2⟩, rfl⟩
    obtain ⟨i, hi⟩ := List.mem_iff_getElem?.mp h1
    obtain ⟨a, b⟩ := List.getElem?_zip_eq_some.mp hi
    exact ⟨i, w, b, a, h2⟩
  · rintro ⟨i, w, a, b, c⟩
    exact ⟨(w, x), ⟨List.mem_iff_getElem?.mpr ⟨i, List.getElem?_zip_eq_some.mpr ⟨b, a⟩⟩, c⟩, rfl⟩

omit [Std.TransCmp sord] in
theorem sub_value {sm : τ → Option σ} {ks : List τ} {vs : List σ} (h : Lists ord sm ks vs) {v : σ} {x : τ}
    (hx : x ∈ pairsOf sord (vs.zip ks) v) : ∃ w, sm x = some w ∧ sord w v = .eq := by
  obtain ⟨i, w, a, b, c⟩ := mem_zip.mp hx
  exact ⟨w, (h.entries x w).mpr ⟨i, x, a, Std.ReflCmp.compare_self (cmp := ord), b⟩, c⟩

omit [Std.TransCmp sord] in
theorem sub_member {sm : τ → Option σ} {ks : List τ} {vs : List σ} (h : Lists ord sm ks vs) {v w : σ} {x : τ}
    (hx : sm x = some w) (hv : sord w v = .eq) : ∃ y ∈ pairsOf sord (vs.zip ks) v, ord y x = .eq := by
  obtain ⟨i, k, a, b, c⟩ := (h.entries x w).mp hx
  exact ⟨k, mem_zip.mpr ⟨i, w, a, c, hv⟩, b⟩

theorem firstIndex_inj (heq : ∀ a b, eq a b = true ↔ ord a b = .eq) {items : List τ} {x y : τ}
    (hx : firstIndex eq items x ≠ -1) (h : firstIndex eq items x = firstIndex eq items y) : ord x y = .eq := by
  unfold firstIndex at hx h
  cases h1 : items.findIdx? (fun a => eq a x) with
  | none => rw [h1] at hx; exact (hx rfl).elim
  | some i =>
    cases h2 : items.findIdx? (fun a => eq a y) with
    | none => rw [h1, h2] at h; simp at h
    | some j =>
      rw [h1, h2] at h
      have hij : (i : Int) = j := h
      have hij : i = j := by omega
      subst hij
      obtain ⟨hi, e1, _⟩ := List.findIdx?_eq_some_iff_getElem.mp h1
      obtain ⟨_, e2, _⟩ := List.findIdx?_eq_some_iff_getElem.mp h2
      exact ord_eq_trans (ord_eq_symm ((heq _ _).mp e1)) ((heq _ _).mp e2)

theorem firstIndex_at (heq : ∀ a b, eq a b = true ↔ ord a b = .eq) {items : List τ}
    (hd : items.Pairwise (fun a b => ord a b ≠ .eq)) {i : Nat} (hi : i < items.length) :
    firstIndex eq items items[i] = i := by
  have hne : firstIndex eq items items[i] ≠ -1 :=
    firstIndex_ne.mpr ⟨_, List.getElem_mem hi, (heq _ _).mpr (Std.ReflCmp.compare_self (cmp := ord))⟩
  unfold firstIndex at hne ⊢
  cases h1 : items.findIdx? (fun a => eq a items[i]) with
  | none => rw [h1] at hne; exact (hne rfl).elim
  | some j =>
    obtain ⟨hj, e1, _⟩ := List.findIdx?_eq_some_iff_getElem.mp h1
    have e1 := (heq _ _).mp e1
    rcases Nat.lt_trichotomy i j with h | h | h
    · exact ((List.pairwise_iff_getElem.mp hd i j hi hj h) (ord_eq_symm e1)).elim
    · simp [h]
    · exact ((List.pairwise_iff_getElem.mp hd j i hj hi h) e1).elim

theorem Split.class_iff {sm : τ → Option σ} {sub : DictC τ σ} {items : List τ} {g : GroupC σ τ} {single : List τ}
    (h : Split ord sord sm sub items g single) (heq : ∀ a b, eq a b = true ↔ ord a b = .eq) {x : τ}
    (hx : ∃ a ∈ items, ord a x = .eq) {a : Nat} {C : List τ}
    (hC : (nodeItems (pairsOf sord (sub.values.zip sub.keys)) g.keys single)[a]? = some C) :
    firstIndex eq items x ∈ C.map (firstIndex eq items) ↔ classOf ord sord sm g.keys single x = a := by
  obtain ⟨x0, hx0, hxx⟩ := hx
  have hg : g.keys.Pairwise (fun a b => sord a b = .lt) := by
    obtain ⟨vss, d1, _⟩ := h.group; exact d1.ascending
  have hne : firstIndex eq items x ≠ -1 := firstIndex_ne.mpr ⟨x0, hx0, (heq _ _).mpr hxx⟩
  have hmem : firstIndex eq items x ∈ C.map (firstIndex eq items) ↔ ∃ y ∈ C, ord y x = .eq := by
    constructor
    · intro hm
      obtain ⟨y, hy, he⟩ := List.mem_map.mp hm
      exact ⟨y, hy, ord_eq_symm (firstIndex_inj heq hne he.symm)⟩
    · rintro ⟨y, hy, he⟩
      exact List.mem_map.mpr ⟨y, hy, firstIndex_congr heq he⟩
  rw [hmem]
  unfold classOf
  unfold nodeItems at hC
  by_cases ha : a < g.keys.length
  · rw [List.getElem?_append_left (by simpa using ha)] at hC
    have hC : pairsOf sord (sub.values.zip sub.keys) g.keys[a] = C := by
      rw [List.getElem?_map, List.getElem?_eq_getElem ha] at hC
      simpa using hC
    subst hC
    constructor
    · rintro ⟨y, hy, he⟩
      obtain ⟨w, hw, hwa⟩ := sub_value h.lists hy
      rw [← map_congr h.lists he, hw]
      exact (place_eq hg ha).mpr (ord_eq_symm hwa)
    · intro hc
      cases hv : sm x with
      | some v =>
        rw [hv] at hc
        exact sub_member h.lists hv (ord_eq_symm ((place_eq hg ha).mp hc))
      | none =>
        rw [hv] at hc
        have hx0' : x0 ∈ single := (h.mem x0).mpr ⟨hx0, (map_congr h.lists hxx).trans hv⟩
        rcases place_cases (ord := ord) single x with ⟨j, hj, e, _⟩ | ⟨e, hno⟩
        · simp only [e] at hc; omega
        · exact (hno x0 hx0' hxx).elim
  · rw [List.getElem?_append_right (by simpa using ha), List.length_map, List.getElem?_map] at hC
    have hlt : a - g.keys.length < single.length := by
      refine Classical.byContradiction fun hc => ?_
      rw [List.getElem?_eq_none (by omega)] at hC
      simp at hC
    rw [List.getElem?_eq_getElem hlt] at hC
    have hC : [single[a - g.keys.length]] = C := by simpa using hC
    subst hC
    have hnone := ((h.mem _).mp (List.getElem_mem hlt)).2
    constructor
    · rintro ⟨y, hy, he⟩
      rw [List.mem_singleton] at hy
      subst hy
      rw [← map_congr h.lists he, hnone]
      have := (place_eq h.strict hlt).mpr he
      simp only [this]; omega
    · intro hc
      cases hv : sm x with
      | some v =>
        rw [hv] at hc
        rcases place_cases (ord := sord) g.keys v with ⟨j, hj, e, _⟩ | ⟨e, hno⟩
        · simp only [e] at hc; omega
        · simp only [e] at hc; omega
      | none =>
        rw [hv] at hc
        refine ⟨_, List.mem_singleton_self _, ?_⟩
        refine (place_eq h.strict hlt).mp ?_
        simp only at hc
        omega

/-- the node number of an item -/
theorem Split.class_range {sm : τ → Option σ} {sub : DictC τ σ} {items : List τ} {g : GroupC σ τ} {single : List τ}
    (h : Split ord sord sm sub items g single) {x : τ} (hx : ∃ a ∈ items, ord a x = .eq) :
    Known ord sord sm g.keys single x ∧ ∃ a : Nat, a < g.keys.length + single.length ∧
      classOf ord sord sm g.keys single x = a := by
  obtain ⟨x0, hx0, hxx⟩ := hx
  unfold Known classOf
  cases hv : sm x with
  | some v =>
    obtain ⟨y, hy, _⟩ := sub_member h.lists hv (Std.ReflCmp.compare_self (cmp := sord))
    obtain ⟨w, hw, hwv⟩ := (multimap_key h.group v).mp (List.ne_nil_of_mem hy)
    refine ⟨⟨w, hw, hwv⟩, ?_⟩
    rcases place_cases (ord := sord) g.keys v with ⟨j, hj, e, _⟩ | ⟨e, hno⟩
    · exact ⟨j, by omega, e⟩
    · exact (hno w hw hwv).elim
  | none =>
    have hx0' : x0 ∈ single := (h.mem x0).mpr ⟨hx0, (map_congr h.lists hxx).trans hv⟩
    refine ⟨⟨x0, hx0', hxx⟩, ?_⟩
    rcases place_cases (ord := ord) single x with ⟨j, hj, e, _⟩ | ⟨e, hno⟩
    · exact ⟨g.keys.length + j, by omega, by simp only [e]; omega⟩
    · exact (hno x0 hx0' hxx).elim

theorem flatten_singles {α : Type} (l : List α) : (l.map (fun x => [x])).flatten = l := by
  induction l with
  | nil => rfl
  | cons a l ih => rw [List.map_cons, List.flatten_cons, ih]; rfl

theorem Split.distinct {sm : τ → Option σ} {sub : DictC τ σ} {items : List τ} {g : GroupC σ τ} {single : List τ}
    (h : Split ord sord sm sub items g single) :
    (nodeItems (pairsOf sord (sub.values.zip sub.keys)) g.keys single).flatten.Pairwise (fun a b => ord a b ≠ .eq) := by
  have hg : g.keys.Pairwise (fun a b => sord a b = .lt) := by
    obtain ⟨vss, d1, _⟩ := h.group; exact d1.ascending
  unfold nodeItems
  rw [List.flatten_append]
  refine List.pairwise_append.mpr ⟨List.pairwise_flatten.mpr ⟨?_, ?_⟩, ?_, ?_⟩
  · intro l hl
    obtain ⟨v, _, rfl⟩ := List.mem_map.mp hl
    unfold pairsOf
    have hsub : (((sub.values.zip sub.keys).filter (fun e => sord e.1 v == .eq)).map (·.2)).Sublist sub.keys := by
      have h1 := (List.filter_sublist (l := sub.values.zip sub.keys) (p := fun e => sord e.1 v == .eq)).map (·.2)
      rw [List.map_snd_zip (by rw [h.lists.length]; omega)] at h1
      exact h1
    exact (h.lists.ascending.sublist hsub).imp (fun h => by simp [h])
  · refine List.pairwise_map.mpr (hg.imp ?_)
    intro v w hvw x hx y hy hxy
    obtain ⟨a, ha, hav⟩ := sub_value h.lists hx
    obtain ⟨b, hb, hbw⟩ := sub_value h.lists hy
    rw [map_congr h.lists hxy, hb] at ha
    cases ha
    rw [ord_eq_trans (ord_eq_symm hav) hbw] at hvw
    cases hvw
  · rw [flatten_singles]
    exact h.strict.imp (fun h => by simp [h])
  · intro x hx y hy hxy
    obtain ⟨l, hl, hx⟩ := List.mem_flatten.mp hx
    obtain ⟨v, _, rfl⟩ := List.mem_map.mp hl
    obtain ⟨w, hw, _⟩ := sub_value h.lists hx
    rw [flatten_singles] at hy
    rw [map_congr h.lists hxy, ((h.mem y).mp hy).2] at hw
    cases hw

omit [Std.TransCmp ord] in
theorem Split.nonempty {sm : τ → Option σ} {sub : DictC τ σ} {items : List τ} {g : GroupC σ τ} {single : List τ}
    (h : Split ord sord sm sub items g single) :
    ∀ C ∈ nodeItems (pairsOf sord (sub.values.zip sub.keys)) g.keys single, C ≠ [] := by
  intro C hC
  rcases List.mem_append.mp hC with hC | hC
  · obtain ⟨v, hv, rfl⟩ := List.mem_map.mp hC
    exact (multimap_key h.group v).mpr ⟨v, hv, Std.ReflCmp.compare_self (cmp := sord)⟩
  · obtain ⟨x, _, rfl⟩ := List.mem_map.mp hC
    simp

/-- the members of nodes are the keys of `subClasses` and the items that are not such keys -/
theorem Split.member {sm : τ → Option σ} {sub : DictC τ σ} {items : List τ} {g : GroupC σ τ} {single : List τ}
    (h : Split ord sord sm sub items g single) (x : τ) :
    (∃ y ∈ (nodeItems (pairsOf sord (sub.values.zip sub.keys)) g.keys single).flatten, ord y x = .eq) ↔
      (∃ v, sm x = some v) ∨ ∃ y ∈ items, ord y x = .eq := by
  unfold nodeItems
  simp only [List.flatten_append, List.mem_append]
  rw [flatten_singles]
  constructor
  · rintro ⟨y, hy | hy, he⟩
    · obtain ⟨l, hl, hy⟩ := List.mem_flatten.mp hy
      obtain ⟨v, _, rfl⟩ := List.mem_map.mp hl
      obtain ⟨w, hw, _⟩ := sub_value h.lists hy
      exact .inl ⟨w, by rw [← map_congr h.lists he, hw]⟩
    · exact .inr ⟨y, ((h.mem y).mp hy).1, he⟩
  · intro hx
    cases hv : sm x with
    | some v =>
      obtain ⟨y, hy, he⟩ := sub_member h.lists hv (Std.ReflCmp.compare_self (cmp := sord))
      obtain ⟨w, hw, hwv⟩ := (multimap_key h.group v).mp (List.ne_nil_of_mem hy)
      rw [multimap_congr h.group (ord_eq_symm hwv)] at hy
      exact ⟨y, .inl (List.mem_flatten.mpr ⟨_, List.mem_map.mpr ⟨w, hw, rfl⟩, hy⟩), he⟩
    | none =>
      rcases hx with ⟨v, hv'⟩ | ⟨y, hy, he⟩
      · rw [hv] at hv'; cases hv'
      · exact ⟨y, .inr ((h.mem y).mpr ⟨hy, (map_congr h.lists he).trans hv⟩), he⟩

end
end PO
end Vlpp
