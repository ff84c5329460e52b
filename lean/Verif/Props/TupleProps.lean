import Verif.Spec.Tuple

/-! # C59, C61: the order of pairs and tuples -/
set_option autoImplicit false
namespace Vlpp
open Tuple Spec

namespace Tuple

theorem foldl_star_stop {o : Cmp} (h : o ≠ some .eq) : ∀ (l : List (Unit → Cmp)), l.foldl star o = o
  | [] => rfl
  | f :: l => by
    rw [List.foldl_cons, star, if_pos h]
    exact foldl_star_stop h l

theorem foldl_and (l : List Bool) (b : Bool) : l.foldl (· && ·) b = (b && l.all id) := by
  induction l generalizing b with
  | nil => simp
  | cons a l ih => rw [List.foldl_cons, ih, List.all_cons, Bool.and_assoc]; rfl

/-- the comparison of a tuple with at least one element -/
theorem compare_cons (E : ElemType) (Es : List ElemType) (x y : Tup (E :: Es)) :
    tupleCompare (E :: Es) x y = if E.cmp x.1 y.1 = some .eq then tupleCompare Es x.2 y.2 else E.cmp x.1 y.1 := by
  obtain ⟨a, x⟩ := x
  obtain ⟨b, y⟩ := y
  simp only [tupleCompare, comparisons, List.foldl_cons]
  rw [show star (some .eq) (fun _ => E.cmp a b) = E.cmp a b by simp [star]]
  split
  · rename_i h; rw [h]
  · rename_i h; exact foldl_star_stop h _

theorem areEqual_cons (E : ElemType) (Es : List ElemType) (x y : Tup (E :: Es)) :
    areEqual (E :: Es) x y = (E.eq x.1 y.1 && areEqual Es x.2 y.2) := by
  obtain ⟨a, x⟩ := x
  obtain ⟨b, y⟩ := y
  simp [areEqual, equalities, foldl_and]

/-- a comparison by first one thing and then another -/
def thenBy (o : Cmp) (p : Cmp) : Cmp := if o = some .eq then p else o

theorem thenBy_laws {T S U : Type} {c : T → T → Cmp} {d : S → S → Cmp} (hc : OrderLaws c) (hd : OrderLaws d) (f : U → T)
    (g : U → S) : OrderLaws (fun x y => thenBy (c (f x) (f y)) (d (g x) (g y))) where
  swap x y := by
    show thenBy (c (f y) (f x)) (d (g y) (g x)) = (thenBy (c (f x) (f y)) (d (g x) (g y))).map Ordering.swap
    rw [hc.swap (f x) (f y), hd.swap (g x) (g y)]
    rcases c (f x) (f y) with _ | _ | _ | _ <;> simp [thenBy, Ordering.swap]
  trans x y z a b h1 h2 ha hb := by
    show thenBy (c (f x) (f z)) (d (g x) (g z)) = _
    simp only [thenBy] at h1 h2
    split at h1
    · rename_i e1
      split at h2
      · rename_i e2
        have e3 := hc.trans _ _ _ _ _ e1 e2 (by simp) (by simp)
        simp at e3
        rw [thenBy, if_pos e3]
        exact hd.trans _ _ _ _ _ h1 h2 ha hb
      · rename_i e2
        have e3 := hc.trans _ _ _ _ _ e1 h2 (by simp) hb
        have hb' : b = .lt := by
          rw [h2] at e2
          cases b with
          | lt => rfl
          | eq => exact absurd rfl e2
          | gt => exact absurd rfl hb
        subst hb'
        simp at e3
        simp [thenBy, e3]
    · rename_i e1
      have ha' : a = .lt := by
        rw [h1] at e1
        cases a with
        | lt => rfl
        | eq => exact absurd rfl e1
        | gt => exact absurd rfl ha
      subst ha'
      split at h2
      · rename_i e2
        have e3 := hc.trans _ _ _ _ _ h1 e2 (by simp) (by simp)
        simp at e3
        simp [thenBy, e3]
      · have e3 := hc.trans _ _ _ _ _ h1 h2 (by simp) hb
        simp at e3
        simp [thenBy, e3]

theorem pairCompare_eq (K V : ElemType) (p q : K.T × V.T) :
    pairCompare K V p q = thenBy (K.cmp p.1 q.1) (V.cmp p.2 q.2) := by
  unfold pairCompare thenBy
  by_cases h : K.cmp p.1 q.1 = some .eq
  · by_cases h2 : V.cmp p.2 q.2 = some .eq <;> simp [h, h2]
  · simp [h]

end Tuple

/-- **C59, tuples are compared lexicographically**, whatever the number and the types of the elements. -/
theorem C59_tuple_lex (Es : List ElemType) (x y : Tup Es) :
    LexResult (elementCmp Es x y) Es.length (tupleCompare Es x y) := by
  induction Es with
  | nil => exact .inl ⟨rfl, fun k hk => by simp at hk⟩
  | cons E Es ih =>
    rw [compare_cons]
    split
    · rename_i h
      rcases ih x.2 y.2 with ⟨e, hall⟩ | ⟨hne, k, hk, hek, hb⟩
      · refine .inl ⟨e, fun k hk => ?_⟩
        cases k with
        | zero => simp [elementCmp, h]
        | succ k => exact hall k (by simpa using hk)
      · refine .inr ⟨hne, k + 1, by simpa using hk, hek, fun j hj => ?_⟩
        cases j with
        | zero => simp [elementCmp, h]
        | succ j => exact hb j (by omega)
    · rename_i h
      exact .inr ⟨h, 0, by simp, rfl, fun j hj => by omega⟩

/-- **C59, pairs are compared lexicographically.** -/
theorem C59_pair_lex (K V : ElemType) (p q : K.T × V.T) :
    LexResult (fun k => match k with | 0 => some (K.cmp p.1 q.1) | 1 => some (V.cmp p.2 q.2) | _ => none) 2 (pairCompare K V p q) := by
  rw [pairCompare_eq, thenBy]
  split
  · rename_i h
    by_cases h2 : V.cmp p.2 q.2 = some .eq
    · refine .inl ⟨h2, fun k hk => ?_⟩
      have : k = 0 ∨ k = 1 := by omega
      rcases this with rfl | rfl
      · simp [h]
      · simp [h2]
    · refine .inr ⟨h2, 1, by omega, rfl, fun j hj => ?_⟩
      have : j = 0 := by omega
      subst this
      simp [h]
  · rename_i h
    exact .inr ⟨h, 0, by omega, rfl, fun j hj => by omega⟩

/-- **C59, the order of tuples.** If the elements' comparisons are lawful, so is that of tuples; if they are total, so is that
of tuples; if their `==` agrees with `<=>`, so does that of tuples. -/
theorem C59_tuple_order (Es : List ElemType) :
    ((∀ E ∈ Es, OrderLaws E.cmp) → OrderLaws (tupleCompare Es)) ∧
    ((∀ E ∈ Es, Total E.cmp) → Total (tupleCompare Es)) ∧
    ((∀ E ∈ Es, EqAgrees E.cmp E.eq) → EqAgrees (tupleCompare Es) (areEqual Es)) := by
  induction Es with
  | nil =>
    refine ⟨fun _ => ⟨fun x y => rfl, fun x y z a b h1 h2 _ _ => ?_⟩, fun _ x y => by simp [tupleCompare, comparisons], fun _ x y => ?_⟩
    · simp only [tupleCompare, comparisons, List.foldl_nil, Option.some.injEq] at h1 h2 ⊢
      subst h1 h2
      rfl
    · simp [tupleCompare, comparisons, areEqual, equalities]
  | cons E Es ih =>
    obtain ⟨ih1, ih2, ih3⟩ := ih
    refine ⟨fun h => ?_, fun h x y => ?_, fun h x y => ?_⟩
    · have := thenBy_laws (U := Tup (E :: Es)) (h E (by simp)) (ih1 fun F hF => h F (by simp [hF])) Prod.fst Prod.snd
      have e : tupleCompare (E :: Es) = fun x y => thenBy (E.cmp x.1 y.1) (tupleCompare Es x.2 y.2) := by
        funext x y
        rw [compare_cons, thenBy]
      rw [e]
      exact this
    · rw [compare_cons]
      split
      · exact ih2 (fun F hF => h F (by simp [hF])) _ _
      · exact h E (by simp) _ _
    · rw [compare_cons, areEqual_cons, Bool.and_eq_true, h E (by simp), ih3 (fun F hF => h F (by simp [hF]))]
      split
      · rename_i e; simp [e]
      · rename_i e; simp [e]

/-- **C59, the order of pairs.** -/
theorem C59_pair_order (K V : ElemType) :
    (OrderLaws K.cmp → OrderLaws V.cmp → OrderLaws (pairCompare K V)) ∧
    (Total K.cmp → Total V.cmp → Total (pairCompare K V)) ∧
    (EqAgrees K.cmp K.eq → EqAgrees V.cmp V.eq → EqAgrees (pairCompare K V) (pairEqual K V)) := by
  have e : pairCompare K V = fun p q => thenBy (K.cmp p.1 q.1) (V.cmp p.2 q.2) := by
    funext p q
    rw [pairCompare_eq]
  rw [e]
  refine ⟨fun h1 h2 => thenBy_laws h1 h2 Prod.fst Prod.snd, fun h1 h2 p q => ?_, fun h1 h2 p q => ?_⟩
  · show thenBy _ _ ≠ none
    rw [thenBy]
    split
    · exact h2 _ _
    · exact h1 _ _
  · show _ ↔ thenBy _ _ = _
    rw [pairEqual, Bool.and_eq_true, h1, h2, thenBy]
    split
    · rename_i e; simp [e]
    · rename_i e; simp [e]

/-- **C61 (partial).** The declared category of the comparison is the weakest of those of the elements unless all are strong. -/
theorem C61_category_partial (cs : List Category) (h : ∃ c ∈ cs, c ≠ .strong) : IsWeakest cs (orderingOf cs) := by
  obtain ⟨c, hc, hne⟩ := h
  have hns : ¬ ∀ d ∈ cs, d = .strong := fun hh => hne (hh c hc)
  by_cases hp : Category.partial' ∈ cs
  · have : 0 < cs.count .partial' := List.count_pos_iff.mpr hp
    simp [IsWeakest, orderingOf, orderingSelection, this, hp, hns]
  · have hw : Category.weak ∈ cs := by
      cases c with
      | partial' => exact absurd hc hp
      | weak => exact hc
      | strong => exact absurd rfl hne
    have h1 : 0 < cs.count .weak := List.count_pos_iff.mpr hw
    have h2 : cs.count .partial' = 0 := List.count_eq_zero.mpr hp
    have : orderingOf cs = .weak := by simp [orderingOf, orderingSelection, h1, h2]
    rw [this]
    simp [IsWeakest, hp, hns]

/-- **C61, violated.** For strongly ordered elements, however many, the comparison has the type `std::partial_ordering`. -/
theorem C61_violated (cs : List Category) (h : ∀ c ∈ cs, c = .strong) :
    orderingOf cs = .partial' ∧ ¬ IsWeakest cs (orderingOf cs) := by
  have h1 : cs.count .weak = 0 := List.count_eq_zero.mpr fun hm => by cases h _ hm
  have h2 : cs.count .partial' = 0 := List.count_eq_zero.mpr fun hm => by cases h _ hm
  have e : orderingOf cs = .partial' := by
    simp only [orderingOf, h1, h2]
    cases decide (cs.count .strong > 0) <;> rfl
  refine ⟨e, fun hw => ?_⟩
  rw [e] at hw
  cases h _ (hw.1.mp rfl)

/-- integers -/
example : let I : ElemType := ⟨Int, fun a b => some (Ord.compare a b), (· == ·)⟩
    tupleCompare [I, I, I] (1, 2, 3, ()) (1, 3, 2, ()) = some .lt ∧ areEqual [I, I] (1, 2, ()) (1, 2, ()) = true ∧ Total I.cmp := by
  refine ⟨rfl, rfl, fun x y => by simp⟩

end Vlpp
