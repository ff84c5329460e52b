import Verif.Lemmas.AtorOps2

set_option autoImplicit false
namespace Vlpp
open Spec (eqBy firsts Ascending)

section firsts
universe u
variable {α : Type u}

/-- some element of `ys` equals `x` -/
abbrev seen (eqv : α → α → Bool) (ys : List α) (x : α) : Bool := ys.any (fun y => eqv y x)

theorem firsts_append (eqv : α → α → Bool) (ys zs : List α) :
    firsts eqv (ys ++ zs) = firsts eqv ys ++ (firsts eqv zs).filter (fun z => ! seen eqv ys z) := by
  induction ys with
  | nil => exact (List.filter_eq_self.2 (by simp)).symm
  | cons y ys ih =>
    rw [List.cons_append, firsts, ih, firsts, List.filter_append, List.filter_filter, List.cons_append]
    congr 3
    funext z
    simp [seen, Bool.not_or]

theorem firsts_subset (eqv : α → α → Bool) {xs : List α} {x : α} (h : x ∈ firsts eqv xs) : x ∈ xs := by
  induction xs with
  | nil => exact h
  | cons y xs ih =>
    rw [firsts] at h
    rcases List.mem_cons.1 h with rfl | h
    · exact List.mem_cons_self
    · exact List.mem_cons_of_mem _ (ih (List.mem_filter.1 h).1)

theorem firsts_filter_nil (eqv : α → α → Bool) {us ys : List α} (h : ∀ u ∈ us, seen eqv ys u = true) :
    (firsts eqv us).filter (fun z => ! seen eqv ys z) = [] := by
  rw [List.filter_eq_nil_iff]
  intro a ha
  simp [h a (firsts_subset eqv ha)]

theorem firsts_skip (eqv : α → α → Bool) {us ys : List α} (h : ∀ u ∈ us, seen eqv ys u = true) (ws : List α) :
    (firsts eqv (us ++ ws)).filter (fun z => ! seen eqv ys z) =
      (firsts eqv ws).filter (fun z => ! seen eqv (ys ++ us) z) := by
  rw [firsts_append, List.filter_append, firsts_filter_nil eqv h, List.nil_append, List.filter_filter]
  congr 1
  funext z
  simp [seen, List.any_append, Bool.not_or]

variable {ord : α → α → Ordering} [Std.TransCmp ord]

omit [Std.TransCmp ord] in
theorem eqBy_iff {a b : α} : eqBy ord a b = true ↔ ord a b = .eq := by simp [eqBy]

theorem not_seen_of {ys us : List α} {z : α} (hu : ∀ u ∈ us, seen (eqBy ord) ys u = true)
    (hz : seen (eqBy ord) ys z = false) : seen (eqBy ord) (ys ++ us) z = false := by
  rw [seen, List.any_append, Bool.or_eq_false_iff]
  refine ⟨hz, ?_⟩
  rw [List.any_eq_false]
  intro u hu' he
  obtain ⟨y, hy, hyu⟩ := List.any_eq_true.1 (hu u hu')
  rw [List.any_eq_false] at hz
  refine hz y hy ?_
  rw [eqBy_iff] at *
  exact Std.TransCmp.eq_trans hyu he

theorem firsts_found {ys us vs : List α} {z : α} (hu : ∀ u ∈ us, seen (eqBy ord) ys u = true)
    (hz : seen (eqBy ord) ys z = false) :
    (firsts (eqBy ord) (us ++ z :: vs)).filter (fun z => ! seen (eqBy ord) ys z) =
      z :: (firsts (eqBy ord) vs).filter (fun w => ! seen (eqBy ord) (ys ++ us ++ [z]) w) := by
  rw [firsts_skip _ hu, firsts, List.filter_cons, if_pos (by simp [not_seen_of hu hz]), List.filter_filter]
  congr 2
  funext w
  simp [seen, List.any_append, Bool.not_or]
  ac_rfl

theorem firsts_extend {ys us : List α} {z : α} (hu : ∀ u ∈ us, seen (eqBy ord) ys u = true)
    (hz : seen (eqBy ord) ys z = false) :
    firsts (eqBy ord) (ys ++ us ++ [z]) = firsts (eqBy ord) ys ++ [z] := by
  rw [List.append_assoc, firsts_append, firsts_found hu hz]
  simp [firsts]

theorem seen_firsts (ys : List α) (x : α) : seen (eqBy ord) (firsts (eqBy ord) ys) x = seen (eqBy ord) ys x := by
  induction ys with
  | nil => rfl
  | cons y ys ih =>
    rw [firsts, seen, List.any_cons, seen, List.any_cons]
    cases hy : eqBy ord y x with
    | true => simp
    | false =>
      simp only [Bool.false_or]
      refine Eq.trans ?_ ih
      rw [seen, List.any_filter]
      apply Bool.eq_iff_iff.2
      rw [List.any_eq_true, List.any_eq_true]
      constructor
      · rintro ⟨w, hw, h⟩
        simp only [Bool.and_eq_true] at h
        exact ⟨w, hw, h.2⟩
      · rintro ⟨w, hw, h⟩
        refine ⟨w, hw, ?_⟩
        simp only [Bool.and_eq_true, Bool.not_eq_true']
        refine ⟨?_, h⟩
        cases hyw : eqBy ord y w with
        | false => rfl
        | true =>
          rw [eqBy_iff] at h hyw
          have := Std.TransCmp.eq_trans hyw h
          rw [← eqBy_iff] at this
          rw [this] at hy; cases hy

end firsts

section sorted
variable {α : Type} {cmp : α → α → Option Ordering} {ord : α → α → Ordering} [Std.TransCmp ord]

theorem sortedContains_spec (hcmp : KeyCmp cmp ord) {items : List α} (hasc : Ascending ord id items) (x : α) :
    Ator.sortedContains cmp items x = some (seen (eqBy ord) items x) := by
  unfold Ator.sortedContains
  rcases DictC.contains_spec hcmp hasc x with ⟨e, h⟩ | ⟨e, h⟩
  · rw [e]
    simp only [Ator.valueOf, Option.some.injEq]
    symm
    simpa [seen, List.any_eq_true, eqBy] using h
  · rw [e]
    simp only [Ator.valueOf, Option.some.injEq]
    symm
    simpa [seen, List.any_eq_false, eqBy] using h

theorem sortedAdd_spec (hcmp : KeyCmp cmp ord) {items : List α} (hasc : Ascending ord id items) (x : α) :
    ∃ p items', SortedSeq.add cmp id x items = .ok p items' ∧ Ascending ord id items' ∧ items'.Perm (x :: items) := by
  obtain ⟨p, hp, e, h1, h2⟩ := SortedSeq.add_spec hcmp.compares hasc x
  refine ⟨p, _, e, SortedSeq.ascending_insert hasc hp h1 h2, ?_⟩
  have := List.perm_middle (a := x) (l₁ := items.take p) (l₂ := items.drop p)
  rwa [List.take_append_drop] at this

theorem addSorted_spec (hcmp : KeyCmp cmp ord) (xs : List α) {acc : List α} (hasc : Ascending ord id acc) :
    ∃ r, Ator.addSorted cmp acc xs = some r ∧ Ascending ord id r ∧ r.Perm (acc ++ xs) := by
  induction xs generalizing acc with
  | nil => exact ⟨acc, rfl, hasc, by simp⟩
  | cons x xs ih =>
    obtain ⟨p, acc', e, hasc', hperm⟩ := sortedAdd_spec hcmp hasc x
    obtain ⟨r, e', hr, hp⟩ := ih hasc'
    refine ⟨r, ?_, hr, ?_⟩
    · rw [Ator.addSorted, e]; exact e'
    · refine hp.trans ?_
      refine (List.Perm.append_right xs hperm).trans ?_
      exact List.perm_middle.symm

theorem seen_perm {eqv : α → α → Bool} {xs ys : List α} (h : xs.Perm ys) (x : α) : seen eqv xs x = seen eqv ys x := by
  apply Bool.eq_iff_iff.2
  simp only [seen, List.any_eq_true, h.mem_iff]

omit [Std.TransCmp ord] in
theorem ascending_nil : Ascending ord id ([] : List α) := List.Pairwise.nil

end sorted

namespace Ator
universe v

section distinct
variable {α : Type} {cmp : α → α → Option Ordering} {ord : α → α → Ordering} [Std.TransCmp ord]
variable {A : Ator.{0, v} α} {xs : List α} {i0 : Int}

def distinctC (hcmp : KeyCmp cmp ord) (c : A.Contract xs i0) :
    (distinct A cmp).Contract (firsts (eqBy ord) xs) (-1) where
  R := fun s ds zs => ∃ ys1 zs1, c.R s.enumerator ys1 zs1 ∧ ds = firsts (eqBy ord) ys1 ∧
    zs = (firsts (eqBy ord) zs1).filter (fun z => ! seen (eqBy ord) ys1 z) ∧
    Ascending ord id s.distinct ∧ s.distinct.Perm ds ∧ ∀ y, ds.getLast? = some y → s.lastValue = some y
  D := fun s => c.D s.enumerator ∧ Ascending ord id s.distinct
  start := by omega
  split := by
    rintro s ds zs ⟨ys1, zs1, h, rfl, rfl, _⟩
    rw [← firsts_append, c.split h]
  index := by
    rintro s ds zs ⟨ys1, zs1, h, rfl, rfl, _, hp, _⟩
    show ((s.distinct.length : Int) - 1) = _
    rw [hp.length_eq]; split <;> omega
  current := by
    rintro s ds zs ⟨ys1, zs1, h, rfl, rfl, _, hp, hl⟩ y hy
    exact hl y hy
  step := by
    rintro ⟨e, di, last⟩ ds z zs ⟨ys1, zs1, h, rfl, hz, hasc, hp, hl⟩
    simp only at h hasc hp hl
    have htest : ∀ x, (sortedContains cmp di x).map (! ·) = some (! seen (eqBy ord) ys1 x) := by
      intro x
      rw [sortedContains_spec hcmp hasc, seen_perm hp, seen_firsts]; rfl
    rcases exists_first (fun x => ! seen (eqBy ord) ys1 x) zs1 with hn | ⟨us, w, vs, rfl, hu, hw⟩
    · have : (firsts (eqBy ord) zs1).filter (fun z => ! seen (eqBy ord) ys1 z) = [] :=
        firsts_filter_nil _ (by simpa using hn)
      rw [this] at hz; cases hz
    · have hu' : ∀ u ∈ us, seen (eqBy ord) ys1 u = true := by simpa using hu
      have hw' : seen (eqBy ord) ys1 w = false := by simpa using hw
      rw [firsts_found hu' hw'] at hz
      simp only [List.cons.injEq] at hz
      obtain ⟨rfl, rfl⟩ := hz
      obtain ⟨e', q, h'⟩ := nextWhere_some c (fun x => (sortedContains cmp di x).map (! ·)) h
        (by intro u hu2; rw [htest, hu' u hu2]; rfl) (by rw [htest, hw']; rfl)
      have hcur := c.current h' z (by simp)
      obtain ⟨p, di', q', hasc', hp'⟩ := sortedAdd_spec hcmp hasc z
      refine ⟨⟨e', di', some z⟩, ?_, ys1 ++ us ++ [z], vs, h', ?_, rfl, hasc', ?_, by simp⟩
      · simp [distinct, q, hcur, q']
      · rw [firsts_extend hu' hw']
      · refine hp'.trans ?_
        refine (List.Perm.cons z hp).trans ?_
        exact (List.perm_append_singleton z _).symm
  stop := by
    rintro ⟨e, di, last⟩ ds ⟨ys1, zs1, h, rfl, hz, hasc, hp, hl⟩
    simp only at h hasc hp hl
    have htest : ∀ x, (sortedContains cmp di x).map (! ·) = some (! seen (eqBy ord) ys1 x) := by
      intro x
      rw [sortedContains_spec hcmp hasc, seen_perm hp, seen_firsts]; rfl
    rcases exists_first (fun x => ! seen (eqBy ord) ys1 x) zs1 with hn | ⟨us, w, vs, rfl, hu, hw⟩
    · obtain ⟨e', q, h'⟩ := nextWhere_none c (fun x => (sortedContains cmp di x).map (! ·)) h
        (by intro u hu2; rw [htest, hn u hu2])
      exact ⟨⟨e', di, last⟩, by simp [distinct, q], h', hasc⟩
    · have hu' : ∀ u ∈ us, seen (eqBy ord) ys1 u = true := by simpa using hu
      have hw' : seen (eqBy ord) ys1 w = false := by simpa using hw
      rw [firsts_found hu' hw'] at hz
      cases hz
  dead := by
    rintro ⟨e, di, last⟩ ⟨h, hasc⟩
    obtain ⟨e', q, h'⟩ := nextWhere_dead c (fun x => (sortedContains cmp di x).map (! ·)) h
    exact ⟨⟨e', di, last⟩, by simp only at q; simp [distinct, q], h', hasc⟩
  fresh := by
    rintro ⟨e, di, last⟩ zs ⟨ys1, zs1, h, hd, rfl, hasc, hp, hl⟩
    simp only at h hasc hp hl
    have hys : ys1 = [] := by
      cases ys1 with
      | nil => rfl
      | cons => cases hd
    subst hys
    have hdi : di = [] := by simpa using hp.length_eq
    subst hdi
    obtain ⟨e', q, h'⟩ := c.fresh h
    exact ⟨⟨e', [], last⟩, by simp [distinct, q, addSorted], [], zs1, h', rfl, rfl, hasc, hp, by simp⟩

theorem distinctC_resets (hcmp : KeyCmp cmp ord) {c : A.Contract xs i0} (hr : c.Resets) :
    (distinctC hcmp c).Resets := by
  have key : ∀ (s : DistinctState A.σ α), (∃ e, A.reset s.enumerator = .ok () e ∧ c.R e [] xs) →
      ∃ s', (distinct A cmp).reset s = .ok () s' ∧ (distinctC hcmp c).R s' [] (firsts (eqBy ord) xs) := by
    rintro ⟨e, di, last⟩ ⟨e', q, h⟩
    refine ⟨⟨e', [], last⟩, by simp only at q; simp [distinct, q], [], xs, h, rfl, ?_, ascending_nil, List.Perm.nil,
      by simp⟩
    exact (List.filter_eq_self.2 (by simp)).symm
  constructor
  · rintro s ds zs ⟨ys1, zs1, h, _⟩
    exact key s (hr.live h)
  · rintro s ⟨h, _⟩
    exact key s (hr.dead h)

theorem distinctC_clones (hcmp : KeyCmp cmp ord) {c : A.Contract xs i0} (hr : c.Clones) :
    (distinctC hcmp c).Clones where
  live := by
    rintro ⟨e, di, last⟩ ds zs ⟨ys1, zs1, h, hd, hz, hasc, hp, hl⟩
    obtain ⟨e', q, h'⟩ := hr.live h
    obtain ⟨di', q', hasc', hp'⟩ := addSorted_spec hcmp di (ascending_nil (ord := ord))
    refine ⟨⟨e', di', last⟩, by simp only at q; simp [distinct, q, q'], ys1, zs1, h', hd, hz, hasc', ?_, hl⟩
    exact (by simpa using hp' : di'.Perm di).trans hp
  dead := by
    rintro ⟨e, di, last⟩ ⟨h, hasc⟩
    obtain ⟨e', q, h'⟩ := hr.dead h
    obtain ⟨di', q', hasc', hp'⟩ := addSorted_spec hcmp di (ascending_nil (ord := ord))
    exact ⟨⟨e', di', last⟩, by simp only at q; simp [distinct, q, q'], h', hasc'⟩

end distinct

section set
variable {α : Type} {cmp : α → α → Option Ordering} {ord : α → α → Ordering} [Std.TransCmp ord]
variable {A : Ator.{0, v} α} {xs : List α} {i0 : Int}

/-- the elements of `xs` that do (`b`) or do not (`!b`) occur in `refs` -/
abbrev selectBy (ord : α → α → Ordering) (refs : List α) (b : Bool) (xs : List α) : List α :=
  xs.filter (fun x => seen (eqBy ord) refs x == b)

def intersectExceptC (hcmp : KeyCmp cmp ord) (c : A.Contract xs i0) (refs : List α) (b : Bool) :
    (intersectExcept A cmp b).Contract (selectBy ord refs b xs) (-1) where
  R := fun s ds zs => ∃ ys1 zs1, c.R s.enumerator ys1 zs1 ∧ ds = selectBy ord refs b ys1 ∧
    zs = selectBy ord refs b zs1 ∧ Ascending ord id s.reference ∧ s.reference.Perm refs ∧
    s.index = (ds.length : Int) - 1 ∧ ∀ y, ys1.getLast? = some y → (seen (eqBy ord) refs y == b) = true
  D := fun s => c.D s.enumerator ∧ Ascending ord id s.reference ∧ s.reference.Perm refs
  start := by omega
  split := by
    rintro s _ _ ⟨ys, zs, h, rfl, rfl, _⟩
    rw [← c.split h]; simp [selectBy]
  index := by
    rintro s _ _ ⟨ys, zs, h, rfl, rfl, _, _, hi, _⟩
    show s.index = _
    rw [hi]; split <;> omega
  current := by
    rintro s _ _ ⟨ys, zs, h, rfl, rfl, _, _, hi, hp⟩ y hy
    rcases List.eq_nil_or_concat ys with rfl | ⟨ys, w, rfl⟩
    · simp at hy
    · have hw := hp w (by simp)
      refine c.current h y ?_
      simpa [selectBy, List.filter_append, List.filter_cons, hw] using hy
  step := by
    rintro ⟨s, rf, i⟩ _ z' zs' ⟨ys, zs, h, rfl, hz, hasc, hperm, hi, hp⟩
    simp only at h hasc hperm hi
    have htest : ∀ x, (sortedContains cmp rf x).map (· == b) = some (seen (eqBy ord) refs x == b) := by
      intro x
      rw [sortedContains_spec hcmp hasc, seen_perm hperm]; rfl
    rcases exists_first (fun x => seen (eqBy ord) refs x == b) zs with hn | ⟨us, z, vs, rfl, hu, hpz⟩
    · rw [selectBy, List.filter_eq_nil_iff.2 (by simpa using hn)] at hz
      simp at hz
    · have hu' : us.filter (fun x => seen (eqBy ord) refs x == b) = [] :=
        List.filter_eq_nil_iff.2 (fun a ha => by simp [hu a ha])
      rw [selectBy, List.filter_append, hu', List.filter_cons, if_pos hpz] at hz
      simp only [List.nil_append, List.cons.injEq] at hz
      obtain ⟨rfl, rfl⟩ := hz
      obtain ⟨s', e, h'⟩ := nextWhere_some c (fun x => (sortedContains cmp rf x).map (· == b)) h
        (fun u hu2 => by rw [htest, hu u hu2]) (by rw [htest, hpz])
      refine ⟨⟨s', rf, i + 1⟩, by simp [intersectExcept, e], ys ++ us ++ [z'], vs, h', ?_, rfl, hasc, hperm, ?_, ?_⟩
      · simp only [selectBy, List.filter_append, hu', List.append_nil]
        rw [List.filter_cons, if_pos hpz]; rfl
      · simp only at hi ⊢; rw [hi]; simp
      · simpa using hpz
  stop := by
    rintro ⟨s, rf, i⟩ _ ⟨ys, zs, h, rfl, hz, hasc, hperm, hi, hp⟩
    simp only at h hasc hperm hi
    have htest : ∀ x, (sortedContains cmp rf x).map (· == b) = some (seen (eqBy ord) refs x == b) := by
      intro x
      rw [sortedContains_spec hcmp hasc, seen_perm hperm]; rfl
    have hn : ∀ z ∈ zs, (seen (eqBy ord) refs z == b) = false := fun z hzm => by
      simpa using List.filter_eq_nil_iff.1 hz.symm z hzm
    obtain ⟨s', e, h'⟩ := nextWhere_none c (fun x => (sortedContains cmp rf x).map (· == b)) h
      (fun u hu2 => by rw [htest, hn u hu2])
    exact ⟨⟨s', rf, i⟩, by simp [intersectExcept, e], h', hasc, hperm⟩
  dead := by
    rintro ⟨s, rf, i⟩ ⟨h, hasc, hperm⟩
    obtain ⟨s', e, h'⟩ := nextWhere_dead c (fun x => (sortedContains cmp rf x).map (· == b)) h
    exact ⟨⟨s', rf, i⟩, by simp only at e; simp [intersectExcept, e], h', hasc, hperm⟩
  fresh := by
    rintro ⟨s, rf, i⟩ zs' ⟨ys, zs, h, hy, rfl, hasc, hperm, hi, hp⟩
    simp only at h hasc hperm hi
    rcases List.eq_nil_or_concat ys with rfl | ⟨ys, w, rfl⟩
    · obtain ⟨s', e, h'⟩ := c.fresh h
      obtain ⟨rf', q', hasc', hp'⟩ := addSorted_spec hcmp rf (ascending_nil (ord := ord))
      exact ⟨⟨s', rf', i⟩, by simp [intersectExcept, e, q'], [], zs, h', rfl, rfl, hasc',
        (by simpa using hp' : rf'.Perm rf).trans hperm, hi, by simp⟩
    · have hw := hp w (by simp)
      simp only [selectBy, List.concat_eq_append, List.filter_append] at hy
      rw [List.filter_cons, if_pos hw] at hy
      simp at hy

theorem intersectExceptC_resets (hcmp : KeyCmp cmp ord) {c : A.Contract xs i0} (hr : c.Resets) (refs : List α)
    (b : Bool) : (intersectExceptC hcmp c refs b).Resets := by
  have key : ∀ (s : SetState A.σ α), Ascending ord id s.reference → s.reference.Perm refs →
      (∃ e, A.reset s.enumerator = .ok () e ∧ c.R e [] xs) →
      ∃ s', (intersectExcept A cmp b).reset s = .ok () s' ∧
        (intersectExceptC hcmp c refs b).R s' [] (selectBy ord refs b xs) := by
    rintro ⟨e, rf, i⟩ hasc hp ⟨e', q, h⟩
    exact ⟨⟨e', rf, -1⟩, by simp only at q; simp [intersectExcept, q], [], xs, h, rfl, rfl, hasc, hp, by simp, by simp⟩
  constructor
  · rintro s ds zs ⟨ys1, zs1, h, _, _, hasc, hp, _⟩
    exact key s hasc hp (hr.live h)
  · rintro s ⟨h, hasc, hp⟩
    exact key s hasc hp (hr.dead h)

theorem intersectExceptC_clones (hcmp : KeyCmp cmp ord) {c : A.Contract xs i0} (hr : c.Clones) (refs : List α)
    (b : Bool) : (intersectExceptC hcmp c refs b).Clones where
  live := by
    rintro ⟨s, rf, i⟩ ds zs ⟨ys1, zs1, h, hd, hz, hasc, hp, hi, hl⟩
    simp only at h hasc hp hi
    obtain ⟨e', q, h'⟩ := hr.live h
    obtain ⟨rf', q', hasc', hp'⟩ := addSorted_spec hcmp rf (ascending_nil (ord := ord))
    exact ⟨⟨e', rf', i⟩, by simp [intersectExcept, q, q'], ys1, zs1, h', hd, hz, hasc',
      (by simpa using hp' : rf'.Perm rf).trans hp, hi, hl⟩
  dead := by
    rintro ⟨s, rf, i⟩ ⟨h, hasc, hp⟩
    simp only at h hasc hp
    obtain ⟨e', q, h'⟩ := hr.dead h
    obtain ⟨rf', q', hasc', hp'⟩ := addSorted_spec hcmp rf (ascending_nil (ord := ord))
    exact ⟨⟨e', rf', i⟩, by simp [intersectExcept, q, q'], h', hasc',
      (by simpa using hp' : rf'.Perm rf).trans hp⟩

end set
end Ator
end Vlpp
