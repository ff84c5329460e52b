import Verif.Lemmas.AtorOps
import Verif.Lemmas.DictC
import Verif.Lemmas.SeqList
import Verif.Spec.Lazy

set_option autoImplicit false
namespace Vlpp
namespace Ator
universe u v u' v'

section repeat_
variable {α : Type u} {A : Ator.{u, v} α} {xs : List α} {i0 : Int}

/-- `n` copies of `xs` one after the other -/
abbrev flat (n : Nat) (xs : List α) : List α := (List.replicate n xs).flatten

theorem flat_succ (n : Nat) (xs : List α) : flat (n + 1) xs = flat n xs ++ xs := by
  simp [flat, List.replicate_succ']

theorem flat_succ' (n : Nat) (xs : List α) : flat (n + 1) xs = xs ++ flat n xs := by
  simp [flat, List.replicate_succ]

/-- what is left to deliver when `r` rounds are over and `zs` is left of the current one -/
def restOf (n r : Nat) (zs xs : List α) : List α := if r < n then zs ++ flat (n - r - 1) xs else []

theorem repeatNext_nil (c : A.Contract xs i0) (hr : c.Resets) (n : Nat) (k : Nat) (r : Nat) (i : Int) {e : A.σ}
    {ys zs : List α} (hk : n - r = k) (h : c.R e ys zs) (hz : restOf n r zs xs = []) :
    ∃ e' r', repeatNext A n ⟨e, i, (r : Nat)⟩ = some (.ok false ⟨e', i, (r' : Nat)⟩) ∧ n ≤ r' ∧ ∃ ys zs, c.R e' ys zs := by
  induction k generalizing r e ys zs with
  | zero =>
    refine ⟨e, r, ?_, by omega, ys, zs, h⟩
    rw [repeatNext, if_neg (by simp only; omega)]
  | succ k ih =>
    have hlt : r < n := by omega
    rw [restOf, if_pos hlt] at hz
    obtain ⟨rfl, hf⟩ : zs = [] ∧ flat (n - r - 1) xs = [] := by simpa using hz
    obtain ⟨e1, q1, h1⟩ := c.stop h
    obtain ⟨e2, q2, h2⟩ := hr.dead h1
    have hrest : restOf n (r + 1) xs xs = [] := by
      unfold restOf
      split
      · rename_i hlt'
        obtain ⟨m, hm⟩ : ∃ m, n - r - 1 = m + 1 := ⟨n - r - 2, by omega⟩
        rw [hm, flat_succ'] at hf
        rw [show n - (r + 1) - 1 = m by omega]
        exact hf
      · rfl
    obtain ⟨e3, r3, q3, hle, h3⟩ := ih (r + 1) (by omega) h2 hrest
    refine ⟨e3, r3, ?_, hle, h3⟩
    rw [repeatNext, if_pos (by simp only; omega)]
    have : (r : Int) + 1 = ((r + 1 : Nat) : Int) := by omega
    rw [← this] at q3
    simpa [q1, q2] using q3

theorem repeatNext_cons (c : A.Contract xs i0) (hr : c.Resets) (n : Nat) (k : Nat) (r : Nat) (i : Int) {e : A.σ}
    {ys zs : List α} {z : α} {rest : List α} (hk : n - r = k) (h : c.R e ys zs) (hz : restOf n r zs xs = z :: rest) :
    ∃ e' r' ys' zs', repeatNext A n ⟨e, i, (r : Nat)⟩ = some (.ok true ⟨e', i + 1, (r' : Nat)⟩) ∧ r' < n ∧
      c.R e' (ys' ++ [z]) zs' ∧ flat r xs ++ ys = flat r' xs ++ ys' ∧ rest = zs' ++ flat (n - r' - 1) xs := by
  induction k generalizing r e ys zs with
  | zero =>
    rw [restOf, if_neg (by omega)] at hz
    simp at hz
  | succ k ih =>
    have hlt : r < n := by omega
    rw [restOf, if_pos hlt] at hz
    cases zs with
    | cons w zs =>
      simp only [List.cons_append, List.cons.injEq] at hz
      obtain ⟨rfl, rfl⟩ := hz
      obtain ⟨e1, q1, h1⟩ := c.step h
      refine ⟨e1, r, ys, zs, ?_, hlt, h1, rfl, rfl⟩
      rw [repeatNext, if_pos (by simp only; omega)]
      simp [q1]
    | nil =>
      obtain ⟨e1, q1, h1⟩ := c.stop h
      obtain ⟨e2, q2, h2⟩ := hr.dead h1
      have hys : ys = xs := by simpa using c.split h
      have hrest : restOf n (r + 1) xs xs = z :: rest := by
        rcases Nat.eq_zero_or_pos (n - r - 1) with hm | hm
        · simp [hm, flat] at hz
        · obtain ⟨m, hm⟩ : ∃ m, n - r - 1 = m + 1 := ⟨n - r - 2, by omega⟩
          rw [hm, flat_succ'] at hz
          rw [restOf, if_pos (by omega), show n - (r + 1) - 1 = m by omega]
          simpa using hz
      obtain ⟨e3, r3, ys3, zs3, q3, hle, h3, hd, hrr⟩ := ih (r + 1) (by omega) h2 hrest
      refine ⟨e3, r3, ys3, zs3, ?_, hle, h3, ?_, hrr⟩
      · rw [repeatNext, if_pos (by simp only; omega)]
        have : (r : Int) + 1 = ((r + 1 : Nat) : Int) := by omega
        rw [← this] at q3
        simpa [q1, q2] using q3
      · rw [← hd, hys, List.append_nil, flat_succ]

theorem repeatNext_count (A : Ator.{u, v} α) (count : Int) (s : RepeatState A.σ) (h : 0 ≤ s.repeatedCount) :
    repeatNext A count s = repeatNext A (count.toNat : Nat) s := by
  by_cases hc : 0 ≤ count
  · rw [Int.toNat_of_nonneg hc]
  · rw [repeatNext, if_neg (by omega), repeatNext, if_neg (by omega)]

def repeatC (c : A.Contract xs i0) (hr : c.Resets) (count : Int) :
    (repeat' A count).Contract (flat count.toNat xs) (-1) where
  R := fun s ds rest => ∃ (r : Nat) (ys zs : List α), s.repeatedCount = r ∧ s.index = (ds.length : Int) - 1 ∧
    c.R s.enumerator ys zs ∧ ds = flat r xs ++ ys ∧ rest = restOf count.toNat r zs xs ∧
    ((r = 0 ∧ ys = []) ∨ (r < count.toNat ∧ ys ≠ []))
  D := fun s => ∃ r : Nat, s.repeatedCount = r ∧ count.toNat ≤ r ∧ ∃ ys zs, c.R s.enumerator ys zs
  start := by omega
  split := by
    rintro s ds rest ⟨r, ys, zs, hrc, hi, h, rfl, rfl, hcase⟩
    have hsp := c.split h
    unfold restOf
    rcases hcase with ⟨rfl, rfl⟩ | ⟨hlt, _⟩
    · split
      · rename_i hlt
        have hz : zs = xs := by simpa using hsp
        obtain ⟨m, hm⟩ : ∃ m, count.toNat = m + 1 := ⟨count.toNat - 1, by omega⟩
        rw [hz, hm, flat_succ']; simp [flat]
      · rw [show count.toNat = 0 by omega]; simp [flat]
    · rw [if_pos hlt, List.append_assoc, ← List.append_assoc ys, hsp, ← flat_succ']
      rw [← List.flatten_append, List.replicate_append_replicate]
      congr 2; omega
  index := by
    rintro s ds rest ⟨r, ys, zs, hrc, hi, _⟩
    show s.index = _
    rw [hi]; split <;> omega
  current := by
    rintro s ds rest ⟨r, ys, zs, hrc, hi, h, rfl, rfl, ⟨rfl, rfl⟩ | ⟨hlt, hne⟩⟩ y hy
    · simp [flat] at hy
    · refine c.current h y ?_
      rcases List.eq_nil_or_concat ys with rfl | ⟨l, w, rfl⟩
      · exact absurd rfl hne
      · simpa [← List.append_assoc] using hy
  step := by
    rintro ⟨e, i, rc⟩ ds z rest ⟨r, ys, zs, hrc, hi, h, rfl, hz, hcase⟩
    simp only at hrc hi h; subst hrc
    obtain ⟨e', r', ys', zs', q, hlt, h', hd, hrr⟩ := repeatNext_cons c hr count.toNat _ r i rfl h hz.symm
    refine ⟨⟨e', i + 1, r'⟩, ?_, r', ys' ++ [z], zs', rfl, ?_, h', ?_, ?_, .inr ⟨hlt, by simp⟩⟩
    · show repeatNext A count _ = _
      rw [repeatNext_count _ _ _ (by simp)]
      exact q
    · simp only at hi ⊢
      rw [hi, List.length_append (as := flat r xs ++ ys) (bs := [z]), List.length_singleton]
      omega
    · rw [hd]; simp
    · rw [restOf, if_pos hlt]; exact hrr
  stop := by
    rintro ⟨e, i, rc⟩ ds ⟨r, ys, zs, hrc, hi, h, rfl, hz, hcase⟩
    simp only at hrc hi h; subst hrc
    obtain ⟨e', r', q, hle, h'⟩ := repeatNext_nil c hr count.toNat _ r i rfl h hz.symm
    refine ⟨⟨e', i, r'⟩, ?_, r', rfl, hle, h'⟩
    show repeatNext A count _ = _
    rw [repeatNext_count _ _ _ (by simp)]
    exact q
  dead := by
    rintro ⟨e, i, rc⟩ ⟨r, hrc, hle, h⟩
    simp only at hrc h; subst hrc
    refine ⟨⟨e, i, r⟩, ?_, r, rfl, hle, h⟩
    show repeatNext A count _ = _
    rw [repeatNext, if_neg (by simp only; omega)]
    rfl
  fresh := by
    rintro ⟨e, i, rc⟩ rest ⟨r, ys, zs, hrc, hi, h, hd, rfl, ⟨rfl, rfl⟩ | ⟨hlt, hne⟩⟩
    · simp only at hrc hi h; subst hrc
      obtain ⟨e', q, h'⟩ := c.fresh h
      exact ⟨⟨e', i, 0⟩, by simp [repeat', q], 0, [], zs, rfl, hi, h', rfl, rfl, .inl ⟨rfl, rfl⟩⟩
    · have : flat r xs = [] ∧ ys = [] := by simpa using hd.symm
      exact absurd this.2 hne

theorem repeatC_resets {c : A.Contract xs i0} (hr : c.Resets) (count : Int) : (repeatC c hr count).Resets := by
  have key : ∀ (s : RepeatState A.σ), (∃ ys zs, c.R s.enumerator ys zs) →
      ∃ s', (repeat' A count).reset s = .ok () s' ∧ (repeatC c hr count).R s' [] (flat count.toNat xs) := by
    rintro ⟨e, i, rc⟩ ⟨ys, zs, h⟩
    obtain ⟨e', q, h'⟩ := hr.live h
    refine ⟨⟨e', -1, 0⟩, by simp only at q; simp [repeat', q], 0, [], xs, rfl, by simp, h', rfl, ?_, .inl ⟨rfl, rfl⟩⟩
    unfold restOf
    split
    · obtain ⟨m, hm⟩ : ∃ m, count.toNat = m + 1 := ⟨count.toNat - 1, by omega⟩
      rw [hm, flat_succ']; simp [flat]
    · rw [show count.toNat = 0 by omega]; simp [flat]
  constructor
  · rintro s ds rest ⟨r, ys, zs, hrc, hi, h, _⟩
    exact key s ⟨ys, zs, h⟩
  · rintro s ⟨r, _, _, h⟩
    exact key s h

theorem repeatC_clones {c : A.Contract xs i0} (hr : c.Resets) (hc : c.Clones) (count : Int) :
    (repeatC c hr count).Clones where
  live := by
    rintro ⟨e, i, rc⟩ ds rest ⟨r, ys, zs, hrc, hi, h, hd, hz, hcase⟩
    simp only at hrc hi h; subst hrc
    obtain ⟨e', q, h'⟩ := hc.live h
    exact ⟨⟨e', i, r⟩, by simp [repeat', q], r, ys, zs, rfl, hi, h', hd, hz, hcase⟩
  dead := by
    rintro ⟨e, i, rc⟩ ⟨r, hrc, hle, ys, zs, h⟩
    simp only at hrc h; subst hrc
    obtain ⟨e', q, h'⟩ := hc.live h
    exact ⟨⟨e', i, r⟩, by simp [repeat', q], r, rfl, hle, ys, zs, h'⟩

end repeat_

section reverse
variable {α : Type}

def reverseC (cache : List α) : (reverse (α := α)).Contract cache.reverse (-1) where
  R := fun s ds zs => s.1 = cache ∧ s.2 = (ds.length : Int) - 1 ∧ ds ++ zs = cache.reverse
  D := fun s => s.1 = cache ∧ s.2 ≥ cache.length
  start := by omega
  split := by rintro s ds zs ⟨_, _, h⟩; exact h
  index := by
    rintro s ds zs ⟨_, hi, _⟩
    show s.2 = _
    rw [hi]; split <;> omega
  current := by
    rintro ⟨ca, i⟩ ds zs ⟨rfl, hi, h⟩ y hy
    simp only at hi h
    rcases List.eq_nil_or_concat ds with rfl | ⟨l, w, rfl⟩
    · simp at hy
    · have hw : w = y := by simpa using hy
      subst hw
      have hl : l.length < ca.length := by
        have := congrArg List.length h
        simp at this; omega
      show valueOf (SeqList.get _ ca) = _
      have e1 : (ca.length : Int) - 1 - i = ((ca.length - 1 - l.length : Nat) : Int) := by
        rw [hi]; simp; omega
      rw [e1, SeqList.get_ok (by omega)]
      have h2 : ca.reverse[l.length]? = some w := by
        rw [← h]; simp
      rw [List.getElem?_reverse hl] at h2
      rw [List.getElem?_eq_getElem (by omega)] at h2
      exact h2
  step := by
    rintro ⟨ca, i⟩ ds z zs ⟨rfl, hi, h⟩
    simp only at hi h
    refine ⟨(ca, i + 1), ?_, rfl, ?_, by simpa using h⟩
    · have := congrArg List.length h
      simp at this
      simp [reverse, hi]; omega
    · simp [hi]
  stop := by
    rintro ⟨ca, i⟩ ds ⟨rfl, hi, h⟩
    simp only at hi h
    have := congrArg List.length h
    simp at this
    exact ⟨(ca, i + 1), by simp [reverse, hi]; omega, rfl, by simp only; omega⟩
  dead := by
    rintro ⟨ca, i⟩ ⟨rfl, hi⟩
    simp only at hi
    exact ⟨(ca, i + 1), by simp [reverse]; omega, rfl, by simp only; omega⟩
  fresh := by
    rintro ⟨ca, i⟩ zs h
    exact ⟨(ca, i), rfl, h⟩

theorem reverseC_resets (cache : List α) : (reverseC cache).Resets where
  live := by rintro ⟨ca, i⟩ ds zs ⟨h, _, _⟩; exact ⟨(ca, -1), rfl, h, by simp, rfl⟩
  dead := by rintro ⟨ca, i⟩ ⟨h, _⟩; exact ⟨(ca, -1), rfl, h, by simp, rfl⟩

theorem reverseC_clones (cache : List α) : (reverseC cache).Clones where
  live := by rintro ⟨ca, i⟩ ds zs h; exact ⟨(ca, i), rfl, h⟩
  dead := by rintro ⟨ca, i⟩ h; exact ⟨(ca, i), rfl, h⟩

end reverse
end Ator
end Vlpp
