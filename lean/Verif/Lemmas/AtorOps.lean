import Verif.Model.AtorOps
import Verif.Spec.Enum

/-! Every operator enumerator keeps the contract of the enumerators it owns. -/
set_option autoImplicit false
namespace Vlpp
namespace Ator
universe u v u' v'
variable {α : Type u} {β : Type u'}

section where_loop
variable {A : Ator.{u, v} α} {xs : List α} {i0 : Int}

theorem nextWhere_dead (c : A.Contract xs i0) (test : α → Option Bool) {s : A.σ} (h : c.D s) :
    ∃ s', nextWhere A test s = some (.ok false s') ∧ c.D s' := by
  obtain ⟨s', e, h'⟩ := c.dead h
  refine ⟨s', ?_, h'⟩
  rw [nextWhere, e]; rfl

theorem nextWhere_none (c : A.Contract xs i0) (test : α → Option Bool) {s : A.σ} {ys zs : List α} (h : c.R s ys zs)
    (hn : ∀ z ∈ zs, test z = some false) : ∃ s', nextWhere A test s = some (.ok false s') ∧ c.D s' := by
  induction zs generalizing s ys with
  | nil =>
    obtain ⟨s', e, h'⟩ := c.stop h
    exact ⟨s', by rw [nextWhere, e]; rfl, h'⟩
  | cons z zs ih =>
    obtain ⟨s', e, h'⟩ := c.step h
    have hc := c.current h' z (by simp)
    obtain ⟨s'', e', h''⟩ := ih h' (fun z hz => hn z (by simp [hz]))
    refine ⟨s'', ?_, h''⟩
    rw [nextWhere, e]
    simp [hc, hn z (by simp), e']

theorem nextWhere_some (c : A.Contract xs i0) (test : α → Option Bool) {s : A.σ} {ys us vs : List α} {z : α}
    (h : c.R s ys (us ++ z :: vs)) (hn : ∀ z ∈ us, test z = some false) (hz : test z = some true) :
    ∃ s', nextWhere A test s = some (.ok true s') ∧ c.R s' (ys ++ us ++ [z]) vs := by
  induction us generalizing s ys with
  | nil =>
    obtain ⟨s', e, h'⟩ := c.step h
    have hc := c.current h' z (by simp)
    refine ⟨s', ?_, by simpa using h'⟩
    rw [nextWhere, e]
    simp [hc, hz]
  | cons w us ih =>
    obtain ⟨s', e, h'⟩ := c.step h
    have hc := c.current h' w (by simp)
    obtain ⟨s'', e', h''⟩ := ih h' (fun z hz => hn z (by simp [hz]))
    refine ⟨s'', ?_, by simpa using h''⟩
    rw [nextWhere, e]
    simp [hc, hn w (by simp), e']

/-- the first element passing a test -/
theorem exists_first (p : α → Bool) (zs : List α) :
    (∀ z ∈ zs, p z = false) ∨ ∃ us z vs, zs = us ++ z :: vs ∧ (∀ u ∈ us, p u = false) ∧ p z = true := by
  induction zs with
  | nil => left; simp
  | cons w zs ih =>
    cases hw : p w with
    | true => right; exact ⟨[], w, zs, rfl, by simp, hw⟩
    | false =>
      rcases ih with h | ⟨us, z, vs, rfl, hu, hz⟩
      · left; intro z hz; rcases List.mem_cons.1 hz with rfl | hz
        · exact hw
        · exact h z hz
      · right
        refine ⟨w :: us, z, vs, rfl, ?_, hz⟩
        intro u hu'; rcases List.mem_cons.1 hu' with rfl | hu'
        · exact hw
        · exact hu u hu'

end where_loop

section select
variable {A : Ator.{u, v} α} {xs : List α} {i0 : Int}

def selectC (c : A.Contract xs i0) {f : α → Option β} {g : α → β} (hf : ∀ x ∈ xs, f x = some (g x)) :
    (select A f).Contract (xs.map g) i0 where
  R := fun s ys' zs' => ∃ ys zs, c.R s.1 ys zs ∧ ys' = ys.map g ∧ zs' = zs.map g ∧
    ∀ y, ys'.getLast? = some y → s.2 = some y
  D := fun s => c.D s.1
  start := c.start
  split := by
    rintro s _ _ ⟨ys, zs, h, rfl, rfl, _⟩
    rw [← c.split h, List.map_append]
  index := by
    rintro s _ _ ⟨ys, zs, h, rfl, rfl, _⟩
    show A.index s.1 = _
    simpa using c.index h
  current := by
    rintro s _ _ ⟨ys, zs, h, rfl, rfl, hc⟩ y hy
    exact hc y hy
  step := by
    rintro ⟨s, cur⟩ _ z' zs' ⟨ys, zs, h, rfl, hz, hc⟩
    cases zs with
    | nil => simp at hz
    | cons z zs =>
      simp only [List.map_cons, List.cons.injEq] at hz
      obtain ⟨rfl, rfl⟩ := hz
      obtain ⟨s', e, h'⟩ := c.step h
      have hcur := c.current h' z (by simp)
      refine ⟨(s', some (g z)), ?_, ys ++ [z], zs, h', by simp, rfl, by simp⟩
      have := hf z (by rw [← c.split h]; simp)
      simp [select, e, hcur, this]
  stop := by
    rintro ⟨s, cur⟩ _ ⟨ys, zs, h, rfl, hz, hc⟩
    have hz' : zs = [] := by simpa using hz.symm
    subst hz'
    obtain ⟨s', e, h'⟩ := c.stop h
    exact ⟨(s', cur), by simp [select, e], h'⟩
  dead := by
    rintro ⟨s, cur⟩ h
    obtain ⟨s', e, h'⟩ := c.dead h
    exact ⟨(s', cur), by simp [select, e], h'⟩
  fresh := by
    rintro ⟨s, cur⟩ zs' ⟨ys, zs, h, hy, rfl, hc⟩
    have hy' : ys = [] := by simpa using hy.symm
    subst hy'
    obtain ⟨s', e, h'⟩ := c.fresh h
    exact ⟨(s', cur), by simp [select, e], [], zs, h', rfl, rfl, by simp⟩

theorem selectC_resets {c : A.Contract xs i0} (hr : c.Resets) {f : α → Option β} {g : α → β} (hf : ∀ x ∈ xs, f x = some (g x)) :
    (selectC c hf).Resets where
  live := by
    rintro ⟨s, cur⟩ _ _ ⟨ys, zs, h, rfl, rfl, _⟩
    obtain ⟨s', e, h'⟩ := hr.live h
    exact ⟨(s', cur), by simp [select, e, wrap], [], xs, h', rfl, rfl, by simp⟩
  dead := by
    rintro ⟨s, cur⟩ h
    obtain ⟨s', e, h'⟩ := hr.dead h
    exact ⟨(s', cur), by simp [select, e, wrap], [], xs, h', rfl, rfl, by simp⟩

theorem selectC_clones {c : A.Contract xs i0} (hr : c.Clones) {f : α → Option β} {g : α → β} (hf : ∀ x ∈ xs, f x = some (g x)) :
    (selectC c hf).Clones where
  live := by
    rintro ⟨s, cur⟩ _ _ ⟨ys, zs, h, rfl, rfl, hc⟩
    obtain ⟨s', e, h'⟩ := hr.live h
    exact ⟨(s', cur), by simp [select, e], ys, zs, h', rfl, rfl, hc⟩
  dead := by
    rintro ⟨s, cur⟩ h
    obtain ⟨s', e, h'⟩ := hr.dead h
    exact ⟨(s', cur), by simp [select, e], h'⟩

end select

section where_
variable {A : Ator.{u, v} α} {xs : List α} {i0 : Int}

def whereC (c : A.Contract xs i0) (p : α → Bool) : (where' A p).Contract (xs.filter p) (-1) where
  R := fun s ys' zs' => ∃ ys zs, c.R s.1 ys zs ∧ ys' = ys.filter p ∧ zs' = zs.filter p ∧ s.2 = (ys'.length : Int) - 1 ∧
    ∀ y, ys.getLast? = some y → p y = true
  D := fun s => c.D s.1
  start := by omega
  split := by
    rintro s _ _ ⟨ys, zs, h, rfl, rfl, _⟩
    rw [← c.split h, List.filter_append]
  index := by
    rintro s _ _ ⟨ys, zs, h, rfl, rfl, hi, _⟩
    show s.2 = _
    rw [hi]; split <;> omega
  current := by
    rintro s _ _ ⟨ys, zs, h, rfl, rfl, hi, hp⟩ y hy
    rcases List.eq_nil_or_concat ys with rfl | ⟨ys, w, rfl⟩
    · simp at hy
    · have hw := hp w (by simp)
      refine c.current h y ?_
      simpa [List.filter_append, List.filter_cons, hw] using hy
  step := by
    rintro ⟨s, i⟩ _ z' zs' ⟨ys, zs, h, rfl, hz, hi, hp⟩
    rcases exists_first p zs with hn | ⟨us, z, vs, rfl, hu, hpz⟩
    · rw [List.filter_eq_nil_iff.2 (by simpa using hn)] at hz
      simp at hz
    · have hu' : us.filter p = [] := List.filter_eq_nil_iff.2 (by simpa using hu)
      rw [List.filter_append, hu', List.filter_cons, if_pos hpz] at hz
      simp only [List.nil_append, List.cons.injEq] at hz
      obtain ⟨rfl, rfl⟩ := hz
      obtain ⟨s', e, h'⟩ := nextWhere_some c (fun x => some (p x)) h (by simpa using hu) (by simp [hpz])
      refine ⟨(s', i + 1), by simp [where', e], ys ++ us ++ [z'], vs, h', ?_, rfl, ?_, ?_⟩
      · simp [List.filter_append, hu', hpz]
      · simp only at hi ⊢; rw [hi]; simp
      · simp [hpz]
  stop := by
    rintro ⟨s, i⟩ _ ⟨ys, zs, h, rfl, hz, hi, hp⟩
    have hn : ∀ z ∈ zs, p z = false := by simpa using List.filter_eq_nil_iff.1 hz.symm
    obtain ⟨s', e, h'⟩ := nextWhere_none c (fun x => some (p x)) h (by simpa using hn)
    exact ⟨(s', i), by simp [where', e], h'⟩
  dead := by
    rintro ⟨s, i⟩ h
    obtain ⟨s', e, h'⟩ := nextWhere_dead c (fun x => some (p x)) h
    exact ⟨(s', i), by simp [where', e], h'⟩
  fresh := by
    rintro ⟨s, i⟩ zs' ⟨ys, zs, h, hy, rfl, hi, hp⟩
    rcases List.eq_nil_or_concat ys with rfl | ⟨ys, w, rfl⟩
    · obtain ⟨s', e, h'⟩ := c.fresh h
      exact ⟨(s', i), by simp [where', e], [], zs, h', rfl, rfl, hi, by simp⟩
    · have hw := hp w (by simp)
      simp [List.filter_append, hw] at hy

theorem whereC_resets {c : A.Contract xs i0} (hr : c.Resets) (p : α → Bool) : (whereC c p).Resets where
  live := by
    rintro ⟨s, i⟩ _ _ ⟨ys, zs, h, rfl, rfl, _⟩
    obtain ⟨s', e, h'⟩ := hr.live h
    exact ⟨(s', -1), by simp [where', e], [], xs, h', rfl, rfl, by simp, by simp⟩
  dead := by
    rintro ⟨s, i⟩ h
    obtain ⟨s', e, h'⟩ := hr.dead h
    exact ⟨(s', -1), by simp [where', e], [], xs, h', rfl, rfl, by simp, by simp⟩

theorem whereC_clones {c : A.Contract xs i0} (hr : c.Clones) (p : α → Bool) : (whereC c p).Clones where
  live := by
    rintro ⟨s, i⟩ _ _ ⟨ys, zs, h, rfl, rfl, hi, hp⟩
    obtain ⟨s', e, h'⟩ := hr.live h
    exact ⟨(s', i), by simp [where', e], ys, zs, h', rfl, rfl, hi, hp⟩
  dead := by
    rintro ⟨s, i⟩ h
    obtain ⟨s', e, h'⟩ := hr.dead h
    exact ⟨(s', i), by simp [where', e], h'⟩

end where_

section concat
variable {A : Ator.{u, v} α} {B : Ator.{u, v'} α} {xs ys : List α} {i0 j0 : Int}

def concatC (c1 : A.Contract xs i0) (c2 : B.Contract ys j0) : (concat A B).Contract (xs ++ ys) (-1) where
  R := fun s ds zs => s.index = (ds.length : Int) - 1 ∧
    ((s.turned = false ∧ ∃ zs1, c1.R s.enumerator1 ds zs1 ∧ c2.R s.enumerator2 [] ys ∧ zs = zs1 ++ ys) ∨
     (s.turned = true ∧ ∃ ds2, ds2 ≠ [] ∧ c1.D s.enumerator1 ∧ c2.R s.enumerator2 ds2 zs ∧ ds = xs ++ ds2))
  D := fun s => s.turned = true ∧ c1.D s.enumerator1 ∧ c2.D s.enumerator2
  start := by omega
  split := by
    rintro s ds zs ⟨_, ⟨_, zs1, h1, h2, rfl⟩ | ⟨_, ds2, _, h1, h2, rfl⟩⟩
    · rw [← List.append_assoc, c1.split h1]
    · rw [List.append_assoc, c2.split h2]
  index := by
    rintro s ds zs ⟨hi, _⟩
    show s.index = _
    rw [hi]; split <;> omega
  current := by
    rintro s ds zs ⟨_, ⟨ht, zs1, h1, h2, rfl⟩ | ⟨ht, ds2, hne, h1, h2, rfl⟩⟩ y hy
    · simpa [concat, ht] using c1.current h1 y hy
    · have hy' : ds2.getLast? = some y := by
        rcases List.eq_nil_or_concat ds2 with rfl | ⟨l, w, rfl⟩
        · exact absurd rfl hne
        · simpa using hy
      simpa [concat, ht] using c2.current h2 y hy'
  step := by
    rintro ⟨e1, e2, i, t⟩ ds z zs ⟨hi, ⟨ht, zs1, h1, h2, hz⟩ | ⟨ht, ds2, hne, h1, h2, rfl⟩⟩
    · simp only at ht hi h1 h2; subst ht
      cases zs1 with
      | cons w zs1 =>
        simp only [List.cons_append, List.cons.injEq] at hz
        obtain ⟨rfl, rfl⟩ := hz
        obtain ⟨s', e, h'⟩ := c1.step h1
        refine ⟨⟨s', e2, i + 1, false⟩, by simp [concat, e], by simp [hi], .inl ⟨rfl, zs1, h', h2, rfl⟩⟩
      | nil =>
        have hz' : z :: zs = ys := by simpa using hz
        subst hz'
        obtain ⟨s1, e, h1'⟩ := c1.stop h1
        obtain ⟨s2, e', h2'⟩ := c2.step h2
        refine ⟨⟨s1, s2, i + 1, true⟩, by simp [concat, e, e', wrap], by simp [hi],
          .inr ⟨rfl, [z], by simp, h1', h2', ?_⟩⟩
        rw [← c1.split h1]; simp
    · simp only at ht hi h1 h2; subst ht
      obtain ⟨s2, e', h2'⟩ := c2.step h2
      exact ⟨⟨e1, s2, i + 1, true⟩, by simp [concat, e', wrap], by simp [hi]; omega,
          .inr ⟨rfl, ds2 ++ [z], by simp, h1, h2', by simp⟩⟩
  stop := by
    rintro ⟨e1, e2, i, t⟩ ds ⟨hi, ⟨ht, zs1, h1, h2, hz⟩ | ⟨ht, ds2, hne, h1, h2, rfl⟩⟩
    · simp only at ht hi h1 h2; subst ht
      obtain ⟨rfl, rfl⟩ : zs1 = [] ∧ ys = [] := by simpa using hz.symm
      obtain ⟨s1, e, h1'⟩ := c1.stop h1
      obtain ⟨s2, e', h2'⟩ := c2.stop h2
      exact ⟨⟨s1, s2, i + 1, true⟩, by simp [concat, e, e', wrap], rfl, h1', h2'⟩
    · simp only at ht hi h1 h2; subst ht
      obtain ⟨s2, e', h2'⟩ := c2.stop h2
      exact ⟨⟨e1, s2, i + 1, true⟩, by simp [concat, e', wrap], rfl, h1, h2'⟩
  dead := by
    rintro ⟨e1, e2, i, t⟩ ⟨ht, h1, h2⟩
    simp only at ht h1 h2; subst ht
    obtain ⟨s2, e', h2'⟩ := c2.dead h2
    exact ⟨⟨e1, s2, i + 1, true⟩, by simp [concat, e', wrap], rfl, h1, h2'⟩
  fresh := by
    rintro ⟨e1, e2, i, t⟩ zs ⟨hi, ⟨ht, zs1, h1, h2, rfl⟩ | ⟨ht, ds2, hne, h1, h2, hd⟩⟩
    · obtain ⟨s1, e, h1'⟩ := c1.fresh h1
      obtain ⟨s2, e', h2'⟩ := c2.fresh h2
      exact ⟨⟨s1, s2, i, t⟩, by simp_all [concat], hi, .inl ⟨ht, zs1, h1', h2', rfl⟩⟩
    · exfalso
      have : xs = [] ∧ ds2 = [] := by simpa using hd.symm
      exact hne this.2

theorem concatC_resets {c1 : A.Contract xs i0} {c2 : B.Contract ys j0} (hr1 : c1.Resets) (hr2 : c2.Resets) :
    (concatC c1 c2).Resets := by
  have key : ∀ (s : ConcatState A.σ B.σ), (∃ s1, A.reset s.enumerator1 = .ok () s1 ∧ c1.R s1 [] xs) →
      (∃ s2, B.reset s.enumerator2 = .ok () s2 ∧ c2.R s2 [] ys) →
      ∃ s', (concat A B).reset s = .ok () s' ∧ (concatC c1 c2).R s' [] (xs ++ ys) := by
    rintro s ⟨s1, e1, h1⟩ ⟨s2, e2, h2⟩
    exact ⟨⟨s1, s2, -1, false⟩, by simp [concat, e1, e2], by simp, .inl ⟨rfl, xs, h1, h2, rfl⟩⟩
  constructor
  · rintro s ds zs ⟨_, ⟨_, zs1, h1, h2, _⟩ | ⟨_, ds2, _, h1, h2, _⟩⟩
    · exact key s (hr1.live h1) (hr2.live h2)
    · exact key s (hr1.dead h1) (hr2.live h2)
  · rintro s ⟨_, h1, h2⟩
    exact key s (hr1.dead h1) (hr2.dead h2)

theorem concatC_clones {c1 : A.Contract xs i0} {c2 : B.Contract ys j0} (hr1 : c1.Clones) (hr2 : c2.Clones) :
    (concatC c1 c2).Clones where
  live := by
    rintro ⟨e1, e2, i, t⟩ ds zs ⟨hi, ⟨ht, zs1, h1, h2, rfl⟩ | ⟨ht, ds2, hne, h1, h2, rfl⟩⟩
    · obtain ⟨s1, e, h1'⟩ := hr1.live h1
      obtain ⟨s2, e', h2'⟩ := hr2.live h2
      exact ⟨⟨s1, s2, i, t⟩, by simp_all [concat], hi, .inl ⟨ht, zs1, h1', h2', rfl⟩⟩
    · obtain ⟨s1, e, h1'⟩ := hr1.dead h1
      obtain ⟨s2, e', h2'⟩ := hr2.live h2
      exact ⟨⟨s1, s2, i, t⟩, by simp_all [concat], hi, .inr ⟨ht, ds2, hne, h1', h2', rfl⟩⟩
  dead := by
    rintro ⟨e1, e2, i, t⟩ ⟨ht, h1, h2⟩
    obtain ⟨s1, e, h1'⟩ := hr1.dead h1
    obtain ⟨s2, e', h2'⟩ := hr2.dead h2
    exact ⟨⟨s1, s2, i, t⟩, by simp_all [concat], ht, h1', h2'⟩

end concat

section pairwise
variable {A : Ator.{u, v} α} {B : Ator.{u', v'} β} {xs : List α} {ys : List β} {i0 j0 : Int}

/-- in some position, or at the end -/
def Contract.Live {A : Ator.{u, v} α} {xs : List α} {i0 : Int} (c : A.Contract xs i0) (s : A.σ) : Prop :=
  (∃ ds zs, c.R s ds zs) ∨ c.D s

theorem Contract.Live.next {A : Ator.{u, v} α} {xs : List α} {i0 : Int} {c : A.Contract xs i0} {s : A.σ}
    (h : c.Live s) : ∃ b s', A.next s = some (.ok b s') ∧ c.Live s' := by
  rcases h with ⟨ds, zs, h⟩ | h
  · cases zs with
    | nil => obtain ⟨s', e, h'⟩ := c.stop h; exact ⟨_, s', e, .inr h'⟩
    | cons z zs => obtain ⟨s', e, h'⟩ := c.step h; exact ⟨_, s', e, .inl ⟨_, _, h'⟩⟩
  · obtain ⟨s', e, h'⟩ := c.dead h; exact ⟨_, s', e, .inr h'⟩

theorem Contract.Resets.of_live {A : Ator.{u, v} α} {xs : List α} {i0 : Int} {c : A.Contract xs i0} (hr : c.Resets)
    {s : A.σ} (h : c.Live s) : ∃ s', A.reset s = .ok () s' ∧ c.R s' [] xs := by
  rcases h with ⟨ds, zs, h⟩ | h
  · exact hr.live h
  · exact hr.dead h

theorem Contract.Clones.of_live {A : Ator.{u, v} α} {xs : List α} {i0 : Int} {c : A.Contract xs i0} (hr : c.Clones)
    {s : A.σ} (h : c.Live s) : ∃ s', A.clone s = some s' ∧ c.Live s' := by
  rcases h with ⟨ds, zs, h⟩ | h
  · obtain ⟨s', e, h'⟩ := hr.live h; exact ⟨s', e, .inl ⟨_, _, h'⟩⟩
  · obtain ⟨s', e, h'⟩ := hr.dead h; exact ⟨s', e, .inr h'⟩

def pairwiseC (c1 : A.Contract xs i0) (c2 : B.Contract ys j0) : (pairwise A B).Contract (xs.zip ys) i0 where
  R := fun s ds zs => ∃ ds1 zs1 ds2 zs2, c1.R s.enumerator1 ds1 zs1 ∧ c2.R s.enumerator2 ds2 zs2 ∧
    ds1.length = ds2.length ∧ ds = ds1.zip ds2 ∧ zs = zs1.zip zs2 ∧ ∀ y, ds.getLast? = some y → s.current = some y
  D := fun s => (c1.D s.enumerator1 ∧ c2.Live s.enumerator2) ∨ (c1.Live s.enumerator1 ∧ c2.D s.enumerator2)
  start := c1.start
  split := by
    rintro s _ _ ⟨ds1, zs1, ds2, zs2, h1, h2, hl, rfl, rfl, _⟩
    rw [← c1.split h1, ← c2.split h2, List.zip_append hl]
  index := by
    rintro s _ _ ⟨ds1, zs1, ds2, zs2, h1, h2, hl, rfl, rfl, _⟩
    have : (ds1.zip ds2).length = ds1.length := by simp [hl]
    rw [this]
    exact c1.index h1
  current := by
    rintro s _ _ ⟨ds1, zs1, ds2, zs2, h1, h2, hl, rfl, rfl, hc⟩ y hy
    exact hc y hy
  step := by
    rintro ⟨e1, e2, cur⟩ _ z zs ⟨ds1, zs1, ds2, zs2, h1, h2, hl, rfl, hz, hc⟩
    cases zs1 with
    | nil => simp at hz
    | cons z1 zs1 =>
      cases zs2 with
      | nil => simp at hz
      | cons z2 zs2 =>
        simp only [List.zip_cons_cons, List.cons.injEq] at hz
        obtain ⟨rfl, rfl⟩ := hz
        obtain ⟨s1, e, h1'⟩ := c1.step h1
        obtain ⟨s2, e', h2'⟩ := c2.step h2
        have k1 := c1.current h1' z1 (by simp)
        have k2 := c2.current h2' z2 (by simp)
        have hzip : ds1.zip ds2 ++ [(z1, z2)] = (ds1 ++ [z1]).zip (ds2 ++ [z2]) := by
          rw [List.zip_append hl]; rfl
        refine ⟨⟨s1, s2, some (z1, z2)⟩, ?_, ds1 ++ [z1], zs1, ds2 ++ [z2], zs2, h1', h2', ?_, ?_, rfl, by simp⟩
        · simp only at e e'
          simp [pairwise, e, e', k1, k2]
        · simp [hl]
        · exact hzip
  stop := by
    rintro ⟨e1, e2, cur⟩ _ ⟨ds1, zs1, ds2, zs2, h1, h2, hl, rfl, hz, hc⟩
    simp only at h1 h2
    cases zs1 with
    | nil =>
      obtain ⟨s1, e, h1'⟩ := c1.stop h1
      exact ⟨⟨s1, e2, cur⟩, by simp [pairwise, e], .inl ⟨h1', .inl ⟨_, _, h2⟩⟩⟩
    | cons z1 zs1 =>
      cases zs2 with
      | cons z2 zs2 => simp at hz
      | nil =>
        obtain ⟨s1, e, h1'⟩ := c1.step h1
        obtain ⟨s2, e', h2'⟩ := c2.stop h2
        exact ⟨⟨s1, s2, cur⟩, by simp [pairwise, e, e'], .inr ⟨.inl ⟨_, _, h1'⟩, h2'⟩⟩
  dead := by
    rintro ⟨e1, e2, cur⟩ (⟨h1, h2⟩ | ⟨h1, h2⟩)
    · obtain ⟨s1, e, h1'⟩ := c1.dead h1
      exact ⟨⟨s1, e2, cur⟩, by simp [pairwise, e], .inl ⟨h1', h2⟩⟩
    · simp only at h1 h2
      obtain ⟨b, s1, e, h1'⟩ := h1.next
      obtain ⟨s2, e', h2'⟩ := c2.dead h2
      cases b with
      | true => exact ⟨⟨s1, s2, cur⟩, by simp [pairwise, e, e'], .inr ⟨h1', h2'⟩⟩
      | false => exact ⟨⟨s1, e2, cur⟩, by simp [pairwise, e], .inr ⟨h1', h2⟩⟩
  fresh := by
    rintro ⟨e1, e2, cur⟩ zs ⟨ds1, zs1, ds2, zs2, h1, h2, hl, hd, rfl, hc⟩
    obtain ⟨rfl, rfl⟩ : ds1 = [] ∧ ds2 = [] := by
      clear hc h1 h2
      cases ds1 <;> cases ds2 <;> simp_all
    simp only at h1 h2
    obtain ⟨s1, e, h1'⟩ := c1.fresh h1
    obtain ⟨s2, e', h2'⟩ := c2.fresh h2
    exact ⟨⟨s1, s2, cur⟩, by simp [pairwise, e, e'], [], zs1, [], zs2, h1', h2', rfl, rfl, rfl, by simp⟩

theorem pairwiseC_resets {c1 : A.Contract xs i0} {c2 : B.Contract ys j0} (hr1 : c1.Resets) (hr2 : c2.Resets) :
    (pairwiseC c1 c2).Resets := by
  have key : ∀ (s : PairState A.σ B.σ α β), c1.Live s.enumerator1 → c2.Live s.enumerator2 →
      ∃ s', (pairwise A B).reset s = .ok () s' ∧ (pairwiseC c1 c2).R s' [] (xs.zip ys) := by
    intro s h1 h2
    obtain ⟨s1, e1, h1'⟩ := hr1.of_live h1
    obtain ⟨s2, e2, h2'⟩ := hr2.of_live h2
    exact ⟨⟨s1, s2, s.current⟩, by simp [pairwise, e1, e2], [], xs, [], ys, h1', h2', rfl, rfl, rfl, by simp⟩
  constructor
  · rintro s ds zs ⟨ds1, zs1, ds2, zs2, h1, h2, _⟩
    exact key s (.inl ⟨_, _, h1⟩) (.inl ⟨_, _, h2⟩)
  · rintro s (⟨h1, h2⟩ | ⟨h1, h2⟩)
    · exact key s (.inr h1) h2
    · exact key s h1 (.inr h2)

theorem pairwiseC_clones {c1 : A.Contract xs i0} {c2 : B.Contract ys j0} (hr1 : c1.Clones) (hr2 : c2.Clones) :
    (pairwiseC c1 c2).Clones where
  live := by
    rintro ⟨e1, e2, cur⟩ ds zs ⟨ds1, zs1, ds2, zs2, h1, h2, hl, rfl, rfl, hc⟩
    obtain ⟨s1, e, h1'⟩ := hr1.live h1
    obtain ⟨s2, e', h2'⟩ := hr2.live h2
    exact ⟨⟨s1, s2, cur⟩, by simp_all [pairwise], ds1, zs1, ds2, zs2, h1', h2', hl, rfl, rfl, hc⟩
  dead := by
    rintro ⟨e1, e2, cur⟩ (⟨h1, h2⟩ | ⟨h1, h2⟩)
    · obtain ⟨s1, e, h1'⟩ := hr1.dead h1
      obtain ⟨s2, e', h2'⟩ := hr2.of_live h2
      exact ⟨⟨s1, s2, cur⟩, by simp_all [pairwise], .inl ⟨h1', h2'⟩⟩
    · obtain ⟨s1, e, h1'⟩ := hr1.of_live h1
      obtain ⟨s2, e', h2'⟩ := hr2.dead h2
      exact ⟨⟨s1, s2, cur⟩, by simp_all [pairwise], .inr ⟨h1', h2'⟩⟩

end pairwise

section take
variable {A : Ator.{u, v} α} {xs : List α} {i0 : Int}

/-- `Take(count)` is right if `count ≥ 1` or the source reports an index of at least `count - 1` before the first
`Next`. -/
def takeC (c : A.Contract xs i0) (count : Int) (hcount : 1 ≤ count ∨ count - 1 ≤ i0) :
    (take A count).Contract (xs.take count.toNat) i0 where
  R := fun s ds zs => ∃ zs1, c.R s ds zs1 ∧ ds.length ≤ count.toNat ∧ zs = zs1.take (count.toNat - ds.length)
  D := fun s => c.D s ∨ ((∃ ds zs, c.R s ds zs) ∧ A.index s ≥ count - 1)
  start := c.start
  split := by
    rintro s ds _ ⟨zs1, h, hl, rfl⟩
    rw [← c.split h, List.take_append, List.take_of_length_le hl]
  index := by
    rintro s ds _ ⟨zs1, h, hl, rfl⟩
    exact c.index h
  current := by
    rintro s ds _ ⟨zs1, h, hl, rfl⟩
    exact c.current h
  step := by
    rintro s ds z zs ⟨zs1, h, hl, hz⟩
    have hlt : ds.length < count.toNat := by
      apply Nat.lt_of_not_le; intro hge
      rw [Nat.sub_eq_zero_of_le hge] at hz
      simp at hz
    cases zs1 with
    | nil => simp at hz
    | cons z1 zs1 =>
      obtain ⟨k, hk⟩ : ∃ k, count.toNat - ds.length = k + 1 := ⟨count.toNat - ds.length - 1, by omega⟩
      rw [hk, List.take_succ_cons] at hz
      simp only [List.cons.injEq] at hz
      obtain ⟨rfl, rfl⟩ := hz
      obtain ⟨s', e, h'⟩ := c.step h
      refine ⟨s', ?_, zs1, h', by simp; omega, ?_⟩
      · have hi := c.index h
        have hs := c.start
        refine (if_neg (c := A.index s ≥ count - 1) ?_).trans e
        rw [hi]; split <;> omega
      · congr 1; simp; omega
  stop := by
    rintro s ds ⟨zs1, h, hl, hz⟩
    by_cases hidx : A.index s ≥ count - 1
    · exact ⟨s, by simp [take, hidx], .inr ⟨⟨_, _, h⟩, hidx⟩⟩
    · have hzs1 : zs1 = [] := by
        rcases List.take_eq_nil_iff.1 hz.symm with h0 | h0
        · exfalso
          have hi := c.index h
          rw [hi] at hidx
          split at hidx <;> omega
        · exact h0
      subst hzs1
      obtain ⟨s', e, h'⟩ := c.stop h
      exact ⟨s', (if_neg (c := A.index s ≥ count - 1) hidx).trans e, .inl h'⟩
  dead := by
    rintro s (h | ⟨h, hidx⟩)
    · by_cases hidx : A.index s ≥ count - 1
      · exact ⟨s, by simp [take, hidx], .inl h⟩
      · obtain ⟨s', e, h'⟩ := c.dead h
        exact ⟨s', (if_neg (c := A.index s ≥ count - 1) hidx).trans e, .inl h'⟩
    · exact ⟨s, by simp [take, hidx], .inr ⟨h, hidx⟩⟩
  fresh := by
    rintro s _ ⟨zs1, h, hl, rfl⟩
    obtain ⟨s', e, h'⟩ := c.fresh h
    exact ⟨s', e, zs1, h', hl, rfl⟩

theorem takeC_resets {c : A.Contract xs i0} (hr : c.Resets) (count : Int) (hcount : 1 ≤ count ∨ count - 1 ≤ i0) :
    (takeC c count hcount).Resets where
  live := by
    rintro s ds _ ⟨zs1, h, hl, rfl⟩
    obtain ⟨s', e, h'⟩ := hr.live h
    exact ⟨s', e, xs, h', by simp, by simp⟩
  dead := by
    rintro s (h | ⟨⟨ds, zs, h⟩, hidx⟩)
    · obtain ⟨s', e, h'⟩ := hr.dead h
      exact ⟨s', e, xs, h', by simp, by simp⟩
    · obtain ⟨s', e, h'⟩ := hr.live h
      exact ⟨s', e, xs, h', by simp, by simp⟩

theorem takeC_clones {c : A.Contract xs i0} (hr : c.Clones) (count : Int) (hcount : 1 ≤ count ∨ count - 1 ≤ i0) :
    (takeC c count hcount).Clones where
  live := by
    rintro s ds _ ⟨zs1, h, hl, rfl⟩
    obtain ⟨s', e, h'⟩ := hr.live h
    exact ⟨s', e, zs1, h', hl, rfl⟩
  dead := by
    rintro s (h | ⟨⟨ds, zs, h⟩, hidx⟩)
    · obtain ⟨s', e, h'⟩ := hr.dead h
      exact ⟨s', e, .inl h'⟩
    · obtain ⟨s', e, h'⟩ := hr.live h
      exact ⟨s', e, .inr ⟨⟨_, _, h'⟩, by rw [c.index h', ← c.index h]; exact hidx⟩⟩

end take

section skip
variable {A : Ator.{u, v} α} {xs : List α} {i0 : Int}

theorem skipLoop_done (c : A.Contract xs i0) (n : Nat) {s : A.σ} {ys zs : List α} (h : c.R s ys zs)
    (hn : n ≤ zs.length) : ∃ s', skipLoop A n s = some (.ok true s') ∧ c.R s' (ys ++ zs.take n) (zs.drop n) := by
  induction n generalizing s ys zs with
  | zero => exact ⟨s, rfl, by simpa using h⟩
  | succ n ih =>
    cases zs with
    | nil => simp at hn
    | cons z zs =>
      obtain ⟨s', e, h'⟩ := c.step h
      obtain ⟨s'', e', h''⟩ := ih h' (by simpa using hn)
      refine ⟨s'', ?_, by simpa using h''⟩
      rw [skipLoop, e]; exact e'

theorem skipLoop_short (c : A.Contract xs i0) (n : Nat) {s : A.σ} {ys zs : List α} (h : c.R s ys zs)
    (hn : zs.length < n) : ∃ s', skipLoop A n s = some (.ok false s') ∧ c.D s' := by
  induction n generalizing s ys zs with
  | zero => omega
  | succ n ih =>
    cases zs with
    | nil =>
      obtain ⟨s', e, h'⟩ := c.stop h
      exact ⟨s', by rw [skipLoop, e]; rfl, h'⟩
    | cons z zs =>
      obtain ⟨s', e, h'⟩ := c.step h
      obtain ⟨s'', e', h''⟩ := ih h' (by simpa using hn)
      exact ⟨s'', by rw [skipLoop, e]; exact e', h''⟩

def skipC (c : A.Contract xs i0) (count : Int) (hcount : 0 ≤ count) :
    (skip A count).Contract (xs.drop count.toNat) (i0 - count) where
  R := fun s ds zs => (s.2 = false ∧ ds = [] ∧ c.R s.1 [] xs ∧ zs = xs.drop count.toNat) ∨
    (s.2 = true ∧ ds ≠ [] ∧ c.R s.1 (xs.take count.toNat ++ ds) zs)
  D := fun s => s.2 = true ∧ c.D s.1
  start := by have := c.start; omega
  split := by
    rintro s ds zs (⟨_, rfl, h, rfl⟩ | ⟨_, hne, h⟩)
    · rfl
    · have := c.split h
      rw [List.append_assoc] at this
      have h2 : xs.take count.toNat ++ (ds ++ zs) = xs.take count.toNat ++ xs.drop count.toNat := by
        rw [this, List.take_append_drop]
      exact List.append_cancel_left h2
  index := by
    rintro s ds zs (⟨_, rfl, h, rfl⟩ | ⟨_, hne, h⟩)
    · show A.index s.1 - count = _
      rw [c.index h]; simp
    · show A.index s.1 - count = _
      have hl := congrArg List.length (c.split h)
      simp only [List.length_append, List.length_take] at hl
      have hpos : 0 < ds.length := List.length_pos_iff.2 hne
      rw [c.index h]
      simp only [List.length_append, List.length_take]
      rw [if_neg (by omega), if_neg (by omega)]
      omega
  current := by
    rintro s ds zs (⟨_, rfl, h, rfl⟩ | ⟨_, hne, h⟩) y hy
    · simp at hy
    · refine c.current h y ?_
      rcases List.eq_nil_or_concat ds with rfl | ⟨l, w, rfl⟩
      · exact absurd rfl hne
      · simpa [← List.append_assoc] using hy
  step := by
    rintro ⟨s, sk⟩ ds z zs (⟨hs, rfl, h, hz⟩ | ⟨hs, hne, h⟩)
    · simp only at hs h; subst hs
      have hlen : count.toNat < xs.length := by
        have := congrArg List.length hz
        simp at this; omega
      obtain ⟨s1, e1, h1⟩ := skipLoop_done c count.toNat h (by omega)
      rw [← hz] at h1
      obtain ⟨s2, e2, h2⟩ := c.step h1
      refine ⟨(s2, true), ?_, .inr ⟨rfl, by simp, by simpa using h2⟩⟩
      simp [skip, e1, e2, wrap]
    · simp only at hs h; subst hs
      obtain ⟨s2, e2, h2⟩ := c.step h
      exact ⟨(s2, true), by simp [skip, e2, wrap], .inr ⟨rfl, by simp, by simpa using h2⟩⟩
  stop := by
    rintro ⟨s, sk⟩ ds (⟨hs, rfl, h, hz⟩ | ⟨hs, hne, h⟩)
    · simp only at hs h; subst hs
      have hlen : xs.length ≤ count.toNat := by
        have := congrArg List.length hz
        simp at this; omega
      rcases Nat.lt_or_eq_of_le hlen with hlt | heq
      · obtain ⟨s1, e1, h1⟩ := skipLoop_short c count.toNat h hlt
        exact ⟨(s1, true), by simp [skip, e1], rfl, h1⟩
      · obtain ⟨s1, e1, h1⟩ := skipLoop_done c count.toNat h (by omega)
        rw [← hz] at h1
        obtain ⟨s2, e2, h2⟩ := c.stop h1
        exact ⟨(s2, true), by simp [skip, e1, e2, wrap], rfl, h2⟩
    · simp only at hs h; subst hs
      obtain ⟨s2, e2, h2⟩ := c.stop h
      exact ⟨(s2, true), by simp [skip, e2, wrap], rfl, h2⟩
  dead := by
    rintro ⟨s, sk⟩ ⟨hs, h⟩
    simp only at hs h; subst hs
    obtain ⟨s2, e2, h2⟩ := c.dead h
    exact ⟨(s2, true), by simp [skip, e2, wrap], rfl, h2⟩
  fresh := by
    rintro ⟨s, sk⟩ zs (⟨hs, _, h, hz⟩ | ⟨hs, hne, h⟩)
    · obtain ⟨s', e, h'⟩ := c.fresh h
      exact ⟨(s', sk), by simp_all [skip], .inl ⟨hs, rfl, h', hz⟩⟩
    · exact absurd rfl hne

theorem skipC_resets {c : A.Contract xs i0} (hr : c.Resets) (count : Int) (hcount : 0 ≤ count) :
    (skipC c count hcount).Resets where
  live := by
    rintro ⟨s, sk⟩ ds zs (⟨_, _, h, _⟩ | ⟨_, _, h⟩)
    all_goals
      obtain ⟨s', e, h'⟩ := hr.live h
      exact ⟨(s', false), by simp [skip, e], .inl ⟨rfl, rfl, h', rfl⟩⟩
  dead := by
    rintro ⟨s, sk⟩ ⟨_, h⟩
    obtain ⟨s', e, h'⟩ := hr.dead h
    exact ⟨(s', false), by simp [skip, e], .inl ⟨rfl, rfl, h', rfl⟩⟩

theorem skipC_clones {c : A.Contract xs i0} (hr : c.Clones) (count : Int) (hcount : 0 ≤ count) :
    (skipC c count hcount).Clones where
  live := by
    rintro ⟨s, sk⟩ ds zs (⟨hs, hd, h, hz⟩ | ⟨hs, hne, h⟩)
    · obtain ⟨s', e, h'⟩ := hr.live h
      exact ⟨(s', sk), by simp_all [skip], .inl ⟨hs, hd, h', hz⟩⟩
    · obtain ⟨s', e, h'⟩ := hr.live h
      exact ⟨(s', sk), by simp_all [skip], .inr ⟨hs, hne, h'⟩⟩
  dead := by
    rintro ⟨s, sk⟩ ⟨hs, h⟩
    obtain ⟨s', e, h'⟩ := hr.dead h
    exact ⟨(s', sk), by simp_all [skip], hs, h'⟩

end skip

end Ator
end Vlpp
