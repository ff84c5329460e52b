import Verif.Model.CallAtor
import Verif.Lemmas.Resume
import Verif.Lemmas.AtorOps3

/-! Every operator enumerator can be used after an exception: the element that was being computed is lost, the others are not. -/
set_option autoImplicit false
namespace Vlpp
namespace CallAtor
open Spec (Plan Drawn)
open Spec.Plan (thn)
variable {W α β : Type}

/-- What `Next` has to answer, if drawing from the sequence gives `o`; `n` elements were delivered before. -/
def Goes (A : CallAtor W α) (R : A.σ → Nat → Plan W α → Prop) (n : Nat) (o : Drawn W α)
    (r : Option (Outcome (A.σ × W) Bool)) : Prop :=
  match o with
  | .item x g w => ∃ s, r = some (.ok true (s, w)) ∧ R s (n + 1) g ∧ A.current s = some x
  | .stop w => ∃ s, r = some (.ok false (s, w)) ∧ R s n .done
  | .threw g w => ∃ s, r = some (.err (s, w)) ∧ R s n g
  | .fault => r = some .fault

/-- The enumerator delivers `g0`, also after exceptions; `counts`: its `Index()` is the number of the element that was delivered last. -/
structure Resume (A : CallAtor W α) (g0 : Plan W α) (counts : Prop) where
  /-- `n` elements were delivered, `g` is left -/
  R : A.σ → Nat → Plan W α → Prop
  index : counts → ∀ {s n g}, R s n g → g ≠ .done → A.index s = (n : Int) - 1
  next : ∀ {s n g}, R s n g → ∀ w, A.Goes R n (g.draw w) (A.next s w)
  clone : ∀ {s n g}, R s n g → ∃ s', A.clone s = some s' ∧ R s' n g
  reset : ∀ {s n g}, R s n g → R (A.reset s) 0 g0

def listR (xs : List α) : (list (W := W) xs).Resume (.ofList xs) True where
  R := fun i n g => (i = (n : Int) - 1 ∧ g = .ofList (xs.drop n)) ∨ ((xs.length : Int) ≤ i ∧ g = .done)
  index := by
    rintro _ i n g (⟨h, _⟩ | ⟨_, rfl⟩) hg
    · exact h
    · exact (hg rfl).elim
  next := by
    intro (i : Int) n g h w
    rcases h with ⟨rfl, rfl⟩ | ⟨h, rfl⟩
    · cases hd : xs.drop n with
      | nil =>
        have hl : xs.length ≤ n := by simpa using hd
        refine ⟨(n : Int), ?_, .inr ⟨by omega, rfl⟩⟩
        show some (Outcome.ok (decide _) (((n : Int) - 1 + 1 : Int), w)) = _
        rw [show ((n : Int) - 1 + 1) = n by omega, decide_eq_false (by omega)]; rfl
      | cons x r =>
        have hl : n < xs.length := by
          have := congrArg List.length hd; simp at this; omega
        have hx : xs[n]? = some x := by
          have := congrArg (·[0]?) hd; simpa using this
        refine ⟨(n : Int), ?_, .inl ⟨show (n : Int) = ((n + 1 : Nat) : Int) - 1 by omega, ?_⟩, ?_⟩
        · show some (Outcome.ok (decide _) (((n : Int) - 1 + 1 : Int), w)) = _
          rw [show ((n : Int) - 1 + 1) = n by omega, decide_eq_true (by omega)]; rfl
        · have : xs.drop (n + 1) = r := by rw [← List.drop_drop, hd]; rfl
          rw [this]
        · show Ator.valueOf (SeqList.get (n : Int) xs) = some x
          obtain ⟨_, hg⟩ := List.getElem?_eq_some_iff.1 hx
          rw [SeqList.get_ok hl]
          simp [Ator.valueOf, hg]
    · refine ⟨(i + 1 : Int), ?_, .inr ⟨by omega, rfl⟩⟩
      show some (Outcome.ok (decide (i + 1 ≥ 0 ∧ i + 1 < (xs.length : Int))) ((i + 1 : Int), w)) = _
      rw [decide_eq_false (by omega)]; rfl
  clone := fun h => ⟨_, rfl, h⟩
  reset := fun _ => .inl ⟨rfl, rfl⟩

def emptyR : (empty : CallAtor W α).Resume .done True where
  R := fun _ _ g => g = .done
  index := by rintro _ s n g rfl h; exact (h rfl).elim
  next := by rintro s n g rfl w; exact ⟨s, rfl, rfl⟩
  clone := fun h => ⟨_, rfl, h⟩
  reset := fun _ => rfl

section one
variable {A : CallAtor W α} {g0 : Plan W α} {counts : Prop}

def selectR (c : A.Resume g0 counts) (f : α → Cpp W β) :
    (select A f).Resume (g0.map f) (counts ∧ ∀ x w w', f x w ≠ .err w') where
  R := fun s n g => ∃ m g', c.R s.1 m g' ∧ g = g'.map f ∧ ((∀ x w w', f x w ≠ .err w') → n = m)
  index := by
    rintro ⟨hc, hf⟩ s n _ ⟨m, g', h, rfl, hn⟩ hg
    rw [hn hf]
    exact c.index hc h (by rintro rfl; exact hg rfl)
  next := by
    rintro ⟨s, cur⟩ n _ ⟨m, g, h, rfl, hm⟩ w
    have hn := c.next h w
    rw [Plan.draw_map]
    revert hn
    cases g.draw w with
    | fault => intro hn; simp only [Goes] at hn; simp [Goes, thn, select, hn]
    | threw r w1 => rintro ⟨s', e, hr⟩; exact ⟨(s', cur), by simp [select, e], m, r, hr, rfl, hm⟩
    | stop w1 => rintro ⟨s', e, hr⟩; exact ⟨(s', cur), by simp [select, e], m, .done, hr, rfl, hm⟩
    | item x r w1 =>
      rintro ⟨s', e, hr, hx⟩
      simp only [thn]
      cases hf : f x w1 with
      | fault => simp [Goes, select, e, hx, hf]
      | err w2 =>
        exact ⟨(s', cur), by simp [select, e, hx, hf], m + 1, r, hr, rfl, fun hh => (hh _ _ _ hf).elim⟩
      | ok y w2 =>
        exact ⟨(s', some y), by simp [select, e, hx, hf], ⟨m + 1, r, hr, rfl, fun hh => by rw [hm hh]⟩, rfl⟩
  clone := by
    rintro ⟨s, cur⟩ n g ⟨m, g', h, hh⟩
    obtain ⟨s', e, h'⟩ := c.clone h
    exact ⟨(s', cur), by simp only at e; simp [select, e], m, g', h', hh⟩
  reset := by
    rintro ⟨s, cur⟩ n g ⟨m, g', h, hh⟩
    exact ⟨0, g0, c.reset h, rfl, fun _ => rfl⟩

/-- the loop of `Where` and `Distinct`: what drawing from the filtered sequence `K g` gives, if an element `x` that passes is followed by
`J x r` -/
theorem nextWhere_draw (c : A.Resume g0 counts) (f : α → Cpp W Bool) (K : Plan W α → Plan W α) (J : α → Plan W α → Plan W α)
    (hK : ∀ g w, (K g).draw w = thn (g.draw w) K .stop (fun x r w' =>
      match f x w' with
      | .ok true w'' => .item x (J x r) w''
      | .ok false w'' => (K r).draw w''
      | .err w'' => .threw (K r) w''
      | .fault => .fault)) (g : Plan W α) : ∀ (s : A.σ) (m : Nat), c.R s m g → ∀ w,
    match (K g).draw w with
    | .item x r' w' => ∃ s' m' r, nextWhere A f s w = some (.ok true (s', w')) ∧ c.R s' m' r ∧ A.current s' = some x ∧ r' = J x r
    | .stop w' => ∃ s' m', nextWhere A f s w = some (.ok false (s', w')) ∧ c.R s' m' .done
    | .threw r' w' => ∃ s' m' r, nextWhere A f s w = some (.err (s', w')) ∧ c.R s' m' r ∧ r' = K r
    | .fault => nextWhere A f s w = some .fault := by
  induction g using Plan.induct with | _ g ih
  intro s m h w
  rw [hK]
  have hn := c.next h w
  revert hn
  cases hp : g.draw w with
  | fault => intro hn; simp only [Goes] at hn; simp only [thn]; rw [nextWhere, hn]; rfl
  | threw r w1 => rintro ⟨s', e, hr⟩; exact ⟨s', m, r, by rw [nextWhere, e]; rfl, hr, rfl⟩
  | stop w1 => rintro ⟨s', e, hr⟩; exact ⟨s', m, by rw [nextWhere, e]; rfl, hr⟩
  | item x r w1 =>
    rintro ⟨s', e, hr, hx⟩
    have ih' := ih w x r w1 hp s' _ hr
    simp only [thn]
    cases hf : f x w1 with
    | fault => show _ = _; rw [nextWhere, e]; simp [hx, hf]
    | err w2 => exact ⟨s', m + 1, r, by rw [nextWhere, e]; simp [hx, hf], hr, rfl⟩
    | ok b w2 =>
      cases b with
      | true => exact ⟨s', m + 1, r, by rw [nextWhere, e]; simp [hx, hf], hr, hx, rfl⟩
      | false =>
        have hw : nextWhere A f s w = nextWhere A f s' w2 := by rw [nextWhere, e]; simp [hx, hf]
        rw [hw]
        exact ih' w2

def whereR (c : A.Resume g0 counts) (f : α → Cpp W Bool) : (where' A f).Resume (g0.filter f) True where
  R := fun s n g => s.2 = (n : Int) - 1 ∧ ∃ m g', c.R s.1 m g' ∧ g = g'.filter f
  index := by rintro _ s n g ⟨h, _⟩ _; exact h
  next := by
    rintro ⟨s, i⟩ n _ ⟨hi, m, g, h, rfl⟩ w
    simp only at hi
    have hn := nextWhere_draw c f (Plan.filter f) (fun _ r => r.filter f) (Plan.draw_filter f) g s m h w
    revert hn
    cases (g.filter f).draw w with
    | fault => intro hn; simp only at hn; simp [Goes, where', hn]
    | threw r w1 => rintro ⟨s', m', r', e, hr, rfl⟩; exact ⟨(s', i), by simp [where', e], hi, m', r', hr, rfl⟩
    | stop w1 => rintro ⟨s', m', e, hr⟩; exact ⟨(s', i), by simp [where', e], hi, m', .done, hr, rfl⟩
    | item x r w1 =>
      rintro ⟨s', m', r', e, hr, hx, rfl⟩
      exact ⟨(s', i + 1), by simp [where', e], ⟨by simp [hi], m', r', hr, rfl⟩, hx⟩
  clone := by
    rintro ⟨s, i⟩ n g ⟨hi, m, g', h, hh⟩
    obtain ⟨s', e, h'⟩ := c.clone h
    exact ⟨(s', i), by simp only at e; simp [where', e], hi, m, g', h', hh⟩
  reset := by
    rintro ⟨s, i⟩ n g ⟨hi, m, g', h, hh⟩
    exact ⟨rfl, 0, g0, c.reset h, rfl⟩

def takeR (c : A.Resume g0 counts) (hc : counts) (count : Int) : (take A count).Resume (g0.take count.toNat) counts where
  R := fun s n g => ∃ g', c.R s n g' ∧ g = g'.take (count.toNat - n)
  index := by
    rintro _ s n _ ⟨g', h, rfl⟩ hg
    refine c.index hc h ?_
    rintro rfl
    exact hg (Plan.take_done _)
  next := by
    rintro s n _ ⟨g, h, rfl⟩ w
    have hn := c.next h w
    by_cases hi : A.index s ≥ count - 1
    · have hz : g.take (count.toNat - n) = .done := by
        by_cases hg : g = .done
        · rw [hg]; exact Plan.take_done _
        · have := c.index hc h hg
          rw [show count.toNat - n = 0 by omega]; exact Plan.take_zero g
      rw [hz]
      refine ⟨s, ?_, g, h, hz.symm⟩
      exact if_pos hi
    · have e : (take A count).next s w = A.next s w := if_neg hi
      rw [e]
      by_cases hg : g = .done
      · subst hg
        rw [Plan.take_done]
        obtain ⟨s', e', hr⟩ := hn
        exact ⟨s', e', .done, hr, (Plan.take_done _).symm⟩
      · have := c.index hc h hg
        obtain ⟨k, hk⟩ : ∃ k, count.toNat - n = k + 1 := ⟨count.toNat - n - 1, by omega⟩
        rw [hk, Plan.draw_take]
        revert hn
        cases g.draw w with
        | fault => exact id
        | threw r w1 => rintro ⟨s', q, hr⟩; exact ⟨s', q, r, hr, by rw [hk]⟩
        | stop w1 => rintro ⟨s', q, hr⟩; exact ⟨s', q, .done, hr, (Plan.take_done _).symm⟩
        | item x r w1 =>
          rintro ⟨s', q, hr, hx⟩
          exact ⟨s', q, ⟨r, hr, by rw [show count.toNat - (n + 1) = k by omega]⟩, hx⟩
  clone := by
    rintro s n g ⟨g', h, hh⟩
    obtain ⟨s', e, h'⟩ := c.clone h
    exact ⟨s', e, g', h', hh⟩
  reset := by
    rintro s n g ⟨g', h, hh⟩
    exact ⟨g0, c.reset h, rfl⟩

theorem skipLoop_draw (c : A.Resume g0 counts) : ∀ (n : Nat) {s : A.σ} {m : Nat} {g : Plan W α}, c.R s m g → g.Sure → ∀ w,
    (∃ s' m' g' w', skipLoop A n s w = some (.ok true (s', w')) ∧ c.R s' m' g' ∧ (g.drop n).draw w = g'.draw w') ∨
    (∃ s' m' w', skipLoop A n s w = some (.ok false (s', w')) ∧ c.R s' m' .done ∧ (g.drop n).draw w = .stop w') ∨
    (skipLoop A n s w = some .fault ∧ (g.drop n).draw w = .fault) := by
  intro n
  induction n with
  | zero => intro s m g h _ w; exact .inl ⟨s, m, g, w, rfl, h, by rw [Plan.drop_zero]⟩
  | succ n ih =>
    intro s m g h hs w
    have hn := c.next h w
    have hd := Plan.sure_draw hs w
    rw [Plan.draw_drop]
    revert hn hd
    cases g.draw w with
    | fault => intro hn _; simp only [Goes] at hn; exact .inr (.inr ⟨by simp [skipLoop, hn], rfl⟩)
    | threw r w1 => intro _ hd; exact (hd.1 r w1 rfl).elim
    | stop w1 => rintro ⟨s', q, hr⟩ _; exact .inr (.inl ⟨s', m, w1, by simp [skipLoop, q], hr, rfl⟩)
    | item x r w1 =>
      rintro ⟨s', q, hr, _⟩ hd
      have := ih hr (hd.2 x r w1 rfl) w1
      have hw : skipLoop A (n + 1) s w = skipLoop A n s' w1 := by simp [skipLoop, q]
      rw [hw]
      exact this

def skipR (c : A.Resume g0 counts) (hs : g0.Sure) (count : Int) : (skip A count).Resume (g0.drop count.toNat) False where
  R := fun s _ g => ∃ m g', c.R s.1 m g' ∧
    ((s.2 = false ∧ g'.Sure ∧ g = g'.drop count.toNat) ∨ (s.2 = true ∧ g = g'))
  index := fun h => h.elim
  next := by
    have hskipped : ∀ (s : A.σ) (m : Nat) (g : Plan W α), c.R s m g → ∀ (n : Nat) w,
        Goes (skip A count) (fun s _ g => ∃ m g', c.R s.1 m g' ∧
          ((s.2 = false ∧ g'.Sure ∧ g = g'.drop count.toNat) ∨ (s.2 = true ∧ g = g'))) n (g.draw w)
          ((A.next s w).map (wrap fun s' => (s', true))) := by
      intro s m g h n w
      have hn := c.next h w
      revert hn
      cases g.draw w with
      | fault => intro hn; simp only [Goes] at hn; simp [Goes, hn, wrap]
      | threw r w1 => rintro ⟨s', q, hr⟩; exact ⟨(s', true), by simp [q, wrap], m, r, hr, .inr ⟨rfl, rfl⟩⟩
      | stop w1 => rintro ⟨s', q, hr⟩; exact ⟨(s', true), by simp [q, wrap], m, .done, hr, .inr ⟨rfl, rfl⟩⟩
      | item x r w1 =>
        rintro ⟨s', q, hr, hx⟩
        exact ⟨(s', true), by simp [q, wrap], ⟨m + 1, r, hr, .inr ⟨rfl, rfl⟩⟩, hx⟩
    rintro ⟨s, b⟩ n g ⟨m, g', h, hh⟩ w
    rcases hh with ⟨hb, hs', rfl⟩ | ⟨hb, rfl⟩
    · simp only at hb h; subst hb
      have hnext : (skip A count).next (s, false) w =
          (skipLoop A count.toNat s w).bind fun r =>
            match r with
            | .ok true (s', w') => (A.next s' w').map (wrap fun s'' => (s'', true))
            | .ok false (s', w') => some (.ok false ((s', true), w'))
            | .err (s', w') => some (.err ((s', true), w'))
            | .fault => some .fault := rfl
      rw [hnext]
      rcases skipLoop_draw c count.toNat h hs' w with ⟨s', m', g1, w', q, hr, hd⟩ | ⟨s', m', w', q, hr, hd⟩ | ⟨q, hd⟩
      · rw [q, hd]; exact hskipped s' m' g1 hr n w'
      · rw [q, hd]; exact ⟨(s', true), rfl, m', .done, hr, .inr ⟨rfl, rfl⟩⟩
      · rw [q, hd]; rfl
    · simp only at hb h; subst hb
      exact hskipped s m g h n w
  clone := by
    rintro ⟨s, b⟩ n g ⟨m, g', h, hh⟩
    obtain ⟨s', e, h'⟩ := c.clone h
    exact ⟨(s', b), by simp only at e; simp [skip, e], m, g', h', hh⟩
  reset := by
    rintro ⟨s, b⟩ n g ⟨m, g', h, hh⟩
    exact ⟨0, g0, c.reset h, .inl ⟨rfl, hs, rfl⟩⟩

/-- what is left of `Repeat` in round `r` -/
def leftOf (n r : Nat) (g g0 : Plan W α) : Plan W α := if r < n then g.append (g0.replicate (n - r - 1)) else .done

theorem leftOf_next (n r : Nat) (g0 : Plan W α) (h : r < n) : leftOf n (r + 1) g0 g0 = g0.replicate (n - r - 1) := by
  unfold leftOf
  split
  · obtain ⟨k, hk⟩ : ∃ k, n - r - 1 = k + 1 := ⟨n - r - 2, by omega⟩
    rw [show n - (r + 1) - 1 = k by omega, hk, Plan.replicate]
  · rw [show n - r - 1 = 0 by omega, Plan.replicate]

theorem repeatNext_left (c : A.Resume g0 counts) (count : Int) (k : Nat) : ∀ (r : Nat) (i : Int) {e : A.σ} {m : Nat} {g : Plan W α},
    count.toNat - r = k → c.R e m g → ∀ w,
    match (leftOf count.toNat r g g0).draw w with
    | .item x g' w' => ∃ (e' : A.σ) (r' m' : Nat) (g1 : Plan W α),
        repeatNext A count ⟨e, i, (r : Nat)⟩ w = some (.ok true (⟨e', i + 1, (r' : Nat)⟩, w')) ∧
        c.R e' m' g1 ∧ A.current e' = some x ∧ g' = leftOf count.toNat r' g1 g0
    | .stop w' => ∃ (e' : A.σ) (r' m' : Nat) (g1 : Plan W α),
        repeatNext A count ⟨e, i, (r : Nat)⟩ w = some (.ok false (⟨e', i, (r' : Nat)⟩, w')) ∧
        c.R e' m' g1 ∧ .done = leftOf count.toNat r' g1 g0
    | .threw g' w' => ∃ (e' : A.σ) (r' m' : Nat) (g1 : Plan W α),
        repeatNext A count ⟨e, i, (r : Nat)⟩ w = some (.err (⟨e', i, (r' : Nat)⟩, w')) ∧
        c.R e' m' g1 ∧ g' = leftOf count.toNat r' g1 g0
    | .fault => repeatNext A count ⟨e, i, (r : Nat)⟩ w = some .fault := by
  induction k with
  | zero =>
    intro r i e m g hk h w
    have hz : leftOf count.toNat r g g0 = .done := by rw [leftOf, if_neg (by omega)]
    rw [hz]
    refine ⟨e, r, m, g, ?_, h, hz.symm⟩
    rw [repeatNext, if_neg (by simp only; omega)]
  | succ k ih =>
    intro r i e m g hk h w
    have hlt : r < count.toNat := by omega
    have hl : ∀ g1, leftOf count.toNat r g1 g0 = g1.append (g0.replicate (count.toNat - r - 1)) := by
      intro g1; rw [leftOf, if_pos hlt]
    rw [hl, Plan.draw_append]
    have hn := c.next h w
    revert hn
    cases g.draw w with
    | fault =>
      intro hn; simp only [Goes] at hn
      show _ = _
      rw [repeatNext, if_pos (by simp only; omega)]; simp [hn]
    | threw r1 w1 =>
      rintro ⟨s', q, hr⟩
      refine ⟨s', r, m, r1, ?_, hr, (hl r1).symm⟩
      rw [repeatNext, if_pos (by simp only; omega)]; simp [q]
    | item x r1 w1 =>
      rintro ⟨s', q, hr, hx⟩
      refine ⟨s', r, m + 1, r1, ?_, hr, hx, (hl r1).symm⟩
      rw [repeatNext, if_pos (by simp only; omega)]; simp [q]
    | stop w1 =>
      rintro ⟨s', q, hr⟩
      simp only [thn]
      have hw : repeatNext A count ⟨e, i, (r : Nat)⟩ w = repeatNext A count ⟨A.reset s', i, ((r + 1 : Nat) : Int)⟩ w1 := by
        rw [repeatNext, if_pos (by simp only; omega)]; simp [q]
      rw [hw, ← leftOf_next _ _ _ hlt]
      exact ih (r + 1) i (by omega) (c.reset hr) w1

def repeatR (c : A.Resume g0 counts) (count : Int) : (repeat' A count).Resume (g0.replicate count.toNat) True where
  R := fun s n g => s.index = (n : Int) - 1 ∧ ∃ (r m : Nat) (g1 : Plan W α), s.repeatedCount = r ∧ c.R s.enumerator m g1 ∧
    g = leftOf count.toNat r g1 g0
  index := by rintro _ s n g ⟨h, _⟩ _; exact h
  next := by
    rintro ⟨e, i, rc⟩ n _ ⟨hi, r, m, g1, hrc, h, rfl⟩ w
    simp only at hi hrc h; subst hrc
    have hn := repeatNext_left c count _ r i rfl h w
    revert hn
    cases (leftOf count.toNat r g1 g0).draw w with
    | fault => exact id
    | threw g' w1 => rintro ⟨e', r', m', g2, q, hr, rfl⟩; exact ⟨⟨e', i, r'⟩, q, hi, r', m', g2, rfl, hr, rfl⟩
    | stop w1 => rintro ⟨e', r', m', g2, q, hr, hd⟩; exact ⟨⟨e', i, r'⟩, q, hi, r', m', g2, rfl, hr, hd⟩
    | item x g' w1 =>
      rintro ⟨e', r', m', g2, q, hr, hx, rfl⟩
      exact ⟨⟨e', i + 1, r'⟩, q, ⟨by simp [hi], r', m', g2, rfl, hr, rfl⟩, hx⟩
  clone := by
    rintro ⟨e, i, rc⟩ n g ⟨hi, r, m, g1, hrc, h, hh⟩
    obtain ⟨s', q, h'⟩ := c.clone h
    exact ⟨⟨s', i, rc⟩, by simp only at q; simp [repeat', q], hi, r, m, g1, hrc, h', hh⟩
  reset := by
    rintro ⟨e, i, rc⟩ n g ⟨hi, r, m, g1, hrc, h, hh⟩
    refine ⟨rfl, 0, 0, g0, rfl, c.reset h, ?_⟩
    unfold leftOf
    split
    · obtain ⟨k, hk⟩ : ∃ k, count.toNat = k + 1 := ⟨count.toNat - 1, by omega⟩
      rw [hk, Plan.replicate]; rfl
    · rw [show count.toNat = 0 by omega, Plan.replicate]

end one

section distinct
open Spec (eqBy Ascending)
variable {A : CallAtor W α} {g0 : Plan W α} {counts : Prop}
variable {cmp : α → α → Option Ordering} {ord : α → α → Ordering} [Std.TransCmp ord]

def distinctR (hcmp : KeyCmp cmp ord) (c : A.Resume g0 counts) : (distinct A cmp).Resume (g0.firsts (eqBy ord) []) True where
  R := fun s n g => s.distinct.length = n ∧ Ascending ord id s.distinct ∧
    ∃ m g1 ys, c.R s.enumerator m g1 ∧ s.distinct.Perm ys ∧ g = g1.firsts (eqBy ord) ys
  index := by
    rintro _ s n g ⟨h, _⟩ _
    show (s.distinct.length : Int) - 1 = _
    rw [h]
  next := by
    rintro ⟨e, di, last⟩ n _ ⟨hl, ha, m, g1, ys, h, hp, rfl⟩ w
    simp only at hl ha h hp
    have hf : (fun x => ofOption (W := W) ((Ator.sortedContains cmp di x).map (! ·))) =
        (fun x w => Outcome.ok (! ys.any (fun y => eqBy ord y x)) w) := by
      funext x w
      rw [sortedContains_spec hcmp ha, seen_perm hp]; rfl
    have hn := nextWhere_draw c (fun x w => Outcome.ok (! ys.any (fun y => eqBy ord y x)) w) (Plan.firsts (eqBy ord) ys)
      (fun x r => r.firsts (eqBy ord) (ys ++ [x])) (by
        intro g w
        rw [Plan.draw_firsts]
        congr 1
        funext x r w'
        cases ys.any (fun y => eqBy ord y x) <;> rfl) g1 e m h w
    revert hn
    cases (g1.firsts (eqBy ord) ys).draw w with
    | fault => intro hn; simp only at hn; simp [Goes, distinct, hf, hn]
    | threw r w1 =>
      rintro ⟨s', m', r', q, hr, rfl⟩
      exact ⟨⟨s', di, last⟩, by simp [distinct, hf, q], hl, ha, m', r', ys, hr, hp, rfl⟩
    | stop w1 =>
      rintro ⟨s', m', q, hr⟩
      exact ⟨⟨s', di, last⟩, by simp [distinct, hf, q], hl, ha, m', .done, ys, hr, hp, rfl⟩
    | item x r w1 =>
      rintro ⟨s', m', r', q, hr, hx, rfl⟩
      obtain ⟨p, di', q', ha', hp'⟩ := sortedAdd_spec hcmp ha x
      refine ⟨⟨s', di', some x⟩, by simp [distinct, hf, q, hx, q'], ⟨?_, ha', m', r', ys ++ [x], hr, ?_, rfl⟩, rfl⟩
      · show di'.length = _
        rw [hp'.length_eq, List.length_cons, hl]
      · refine hp'.trans ((List.Perm.cons x hp).trans ?_)
        exact (List.perm_append_singleton x ys).symm
  clone := by
    rintro ⟨e, di, last⟩ n g ⟨hl, ha, m, g1, ys, h, hp, hg⟩
    obtain ⟨s', q, h'⟩ := c.clone h
    obtain ⟨di', q', ha', hp'⟩ := addSorted_spec hcmp di (acc := []) ascending_nil
    simp only [List.nil_append] at q hp' hl hp
    exact ⟨⟨s', di', last⟩, by simp [distinct, q, q'], by simp only; rw [hp'.length_eq, hl], ha', m, g1, ys, h', hp'.trans hp, hg⟩
  reset := by
    rintro ⟨e, di, last⟩ n g ⟨hl, ha, m, g1, ys, h, hp, hg⟩
    exact ⟨rfl, ascending_nil, 0, g0, [], c.reset h, .refl _, rfl⟩

end distinct

section two

def concatR {A B : CallAtor W α} {g0 h0 : Plan W α} {c1 c2 : Prop} (c : A.Resume g0 c1) (d : B.Resume h0 c2) :
    (concat A B).Resume (g0.append h0) False where
  R := fun s _ g => ∃ m1 m2 g1 g2, c.R s.enumerator1 m1 g1 ∧ d.R s.enumerator2 m2 g2 ∧
    ((s.turned = false ∧ g = g1.append g2) ∨ (s.turned = true ∧ g = g2))
  index := fun h => h.elim
  next := by
    have hturned : ∀ (a : A.σ) (b : B.σ) (i : Int) (m1 m2 : Nat) (g1 g2 : Plan W α), c.R a m1 g1 → d.R b m2 g2 → ∀ (n : Nat) w,
        Goes (concat A B) (fun s _ g => ∃ m1 m2 g1 g2, c.R s.enumerator1 m1 g1 ∧ d.R s.enumerator2 m2 g2 ∧
          ((s.turned = false ∧ g = g1.append g2) ∨ (s.turned = true ∧ g = g2))) n (g2.draw w)
          ((B.next b w).map (wrap fun b => ⟨a, b, i, true⟩)) := by
      intro a b i m1 m2 g1 g2 h1 h2 n w
      have hn := d.next h2 w
      revert hn
      cases g2.draw w with
      | fault => intro hn; simp only [Goes] at hn; simp [Goes, hn, wrap]
      | threw r w1 => rintro ⟨s', q, hr⟩; exact ⟨⟨a, s', i, true⟩, by simp [q, wrap], m1, m2, g1, r, h1, hr, .inr ⟨rfl, rfl⟩⟩
      | stop w1 => rintro ⟨s', q, hr⟩; exact ⟨⟨a, s', i, true⟩, by simp [q, wrap], m1, m2, g1, .done, h1, hr, .inr ⟨rfl, rfl⟩⟩
      | item x r w1 =>
        rintro ⟨s', q, hr, hx⟩
        exact ⟨⟨a, s', i, true⟩, by simp [q, wrap], ⟨m1, m2 + 1, g1, r, h1, hr, .inr ⟨rfl, rfl⟩⟩, by simpa [concat] using hx⟩
    rintro ⟨a, b, i, t⟩ n g ⟨m1, m2, g1, g2, h1, h2, hh⟩ w
    simp only at h1 h2 hh
    rcases hh with ⟨rfl, rfl⟩ | ⟨rfl, rfl⟩
    · rw [Plan.draw_append]
      have hn := c.next h1 w
      revert hn
      cases g1.draw w with
      | fault => intro hn; simp only [Goes] at hn; simp [Goes, thn, concat, hn]
      | threw r w1 =>
        rintro ⟨s', q, hr⟩
        exact ⟨⟨s', b, i + 1, false⟩, by simp [concat, q], m1, m2, r, g2, hr, h2, .inl ⟨rfl, rfl⟩⟩
      | item x r w1 =>
        rintro ⟨s', q, hr, hx⟩
        exact ⟨⟨s', b, i + 1, false⟩, by simp [concat, q], ⟨m1 + 1, m2, r, g2, hr, h2, .inl ⟨rfl, rfl⟩⟩, by simpa [concat] using hx⟩
      | stop w1 =>
        rintro ⟨s', q, hr⟩
        have e : (concat A B).next ⟨a, b, i, false⟩ w = (B.next b w1).map (wrap fun b => ⟨s', b, i + 1, true⟩) := by
          simp [concat, q]
        rw [e]
        exact hturned s' b (i + 1) m1 m2 .done g2 hr h2 n w1
    · exact hturned a b (i + 1) m1 m2 g1 g h1 h2 n w
  clone := by
    rintro ⟨a, b, i, t⟩ n g ⟨m1, m2, g1, g2, h1, h2, hh⟩
    obtain ⟨a', q1, h1'⟩ := c.clone h1
    obtain ⟨b', q2, h2'⟩ := d.clone h2
    exact ⟨⟨a', b', i, t⟩, by simp only at q1 q2; simp [concat, q1, q2], m1, m2, g1, g2, h1', h2', hh⟩
  reset := by
    rintro ⟨a, b, i, t⟩ n g ⟨m1, m2, g1, g2, h1, h2, hh⟩
    exact ⟨0, 0, g0, h0, c.reset h1, d.reset h2, .inl ⟨rfl, rfl⟩⟩

def pairwiseR {A : CallAtor W α} {B : CallAtor W β} {g0 : Plan W α} {h0 : Plan W β} {c1 c2 : Prop} (c : A.Resume g0 c1)
    (d : B.Resume h0 c2) (hq : g0.Quiet) : (pairwise A B).Resume (g0.zip h0) False where
  R := fun s _ g => ∃ m1 m2 g1 g2, c.R s.enumerator1 m1 g1 ∧ d.R s.enumerator2 m2 g2 ∧ g1.Quiet ∧ g = g1.zip g2
  index := fun h => h.elim
  next := by
    rintro ⟨a, b, cur⟩ n _ ⟨m1, m2, g1, g2, h1, h2, hq1, rfl⟩ w
    simp only at h1 h2
    have hn := c.next h1 w
    cases g1 with
    | call f k lost => exact hq1.elim
    | done =>
      obtain ⟨s', q, hr⟩ := hn
      exact ⟨⟨s', b, cur⟩, by simp [pairwise, q], m1, m2, .done, g2, hr, h2, trivial, rfl⟩
    | yield x r =>
      obtain ⟨s', q, hr, hx⟩ := hn
      rw [Plan.zip, Plan.draw_head]
      have hn2 := d.next h2 w
      revert hn2
      cases g2.draw w with
      | fault => intro hn2; simp only [Goes] at hn2; simp [Goes, thn, pairwise, q, hn2]
      | threw r2 w1 =>
        rintro ⟨s2, q2, hr2⟩
        exact ⟨⟨s', s2, cur⟩, by simp [pairwise, q, q2], m1 + 1, m2, r, r2, hr, hr2, hq1, rfl⟩
      | stop w1 =>
        rintro ⟨s2, q2, hr2⟩
        exact ⟨⟨s', s2, cur⟩, by simp [pairwise, q, q2], m1 + 1, m2, r, .done, hr, hr2, hq1, (Plan.zip_done (g := r) hq1).symm⟩
      | item y r2 w1 =>
        rintro ⟨s2, q2, hr2, hy⟩
        exact ⟨⟨s', s2, some (x, y)⟩, by simp [pairwise, q, q2, hx, hy], ⟨m1 + 1, m2 + 1, r, r2, hr, hr2, hq1, rfl⟩, rfl⟩
  clone := by
    rintro ⟨a, b, cur⟩ n g ⟨m1, m2, g1, g2, h1, h2, hh⟩
    obtain ⟨a', q1, h1'⟩ := c.clone h1
    obtain ⟨b', q2, h2'⟩ := d.clone h2
    exact ⟨⟨a', b', cur⟩, by simp only at q1 q2; simp [pairwise, q1, q2], m1, m2, g1, g2, h1', h2', hh⟩
  reset := by
    rintro ⟨a, b, cur⟩ n g ⟨m1, m2, g1, g2, h1, h2, hh⟩
    exact ⟨0, 0, g0, h0, c.reset h1, d.reset h2, hq, rfl⟩

end two
end CallAtor
end Vlpp
