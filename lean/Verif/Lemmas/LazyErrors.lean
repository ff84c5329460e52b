import Verif.Model.LazyVars
import Verif.Lemmas.Pipe

/-! # Enumerators whose `Next` may raise an Error -/
set_option autoImplicit false
namespace Vlpp
open Spec
variable {α β : Type}

/-- Successive calls of `Next` deliver the elements, up to the end or to the first element that raises an Error; `i` is the
position of the next element. -/
def Ator.Plays (A : Ator.{0, 0} α) (i : Int) : A.σ → List (Option α) → Prop
  | s, [] => ∃ s', A.next s = some (.ok false s')
  | s, none :: _ => ∃ s', A.next s = some (.err s')
  | s, some x :: xs => ∃ s', A.next s = some (.ok true s') ∧ A.current s' = some x ∧ A.index s' = i ∧ A.Plays (i + 1) s' xs

/-- What `Index()` returns before element `i`. -/
def Ator.Before (A : Ator.{0, 0} α) (i : Int) (s : A.σ) : Prop := (i = 0 ∧ A.index s ≤ -1) ∨ (0 < i ∧ A.index s = i - 1)

/-- Every enumerator of the lazy list delivers the elements. -/
def LazyList.Tells (L : LazyList.{0, 0} α) (xs : List (Option α)) : Prop :=
  ∃ R : L.A.σ → Prop, R L.prototype ∧
    ∀ s, R s → (∃ s', L.A.clone s = some s' ∧ R s') ∧ L.A.Before 0 s ∧ L.A.Plays 0 s xs

namespace Ator

theorem Contract.plays {A : Ator.{0, 0} α} {xs : List α} {i0 : Int} (c : A.Contract xs i0) {s : A.σ} {ys zs : List α}
    (h : c.R s ys zs) : A.Plays ys.length s (zs.map some) := by
  induction zs generalizing s ys with
  | nil =>
    obtain ⟨s', e, _⟩ := c.stop h
    exact ⟨s', e⟩
  | cons z zs ih =>
    obtain ⟨s', e, h'⟩ := c.step h
    have hi := c.index h'
    refine ⟨s', e, c.current h' z (by simp), ?_, ?_⟩
    · rw [hi]; simp
    · have := ih h'
      simpa using this

theorem plays_select {A : Ator.{0, 0} α} (f : α → Option β) : ∀ (zs : List (Option α)) (i : Int) (s : A.σ) (cur : Option β),
    A.Plays i s zs → (Ator.select A f).Plays i (s, cur) (mapUntil f zs)
  | [], i, s, cur, ⟨s', e⟩ => ⟨(s', cur), by simp [Ator.select, e]⟩
  | none :: zs, i, s, cur, ⟨s', e⟩ => ⟨(s', cur), by simp [Ator.select, e]⟩
  | some x :: zs, i, s, cur, ⟨s', e, hc, hi, h⟩ => by
    cases hf : f x with
    | none =>
      simp only [mapUntil, List.map_cons, Option.bind_some, hf]
      exact ⟨(s', cur), by simp [Ator.select, e, hc, hf]⟩
    | some y =>
      simp only [mapUntil, List.map_cons, Option.bind_some, hf]
      exact ⟨(s', some y), by simp [Ator.select, e, hc, hf], rfl, hi, plays_select f zs (i + 1) s' (some y) h⟩

theorem nextWhere_plays {A : Ator.{0, 0} α} (p : α → Bool) : ∀ (zs : List (Option α)) (j : Int) (s : A.σ), A.Plays j s zs →
    match filterUntil p zs with
    | [] => ∃ s', nextWhere A (fun x => some (p x)) s = some (.ok false s')
    | none :: _ => ∃ s', nextWhere A (fun x => some (p x)) s = some (.err s')
    | some x :: ys => ∃ s' j' zs', nextWhere A (fun x => some (p x)) s = some (.ok true s') ∧ A.current s' = some x ∧
        A.Plays j' s' zs' ∧ filterUntil p zs' = ys ∧ zs'.length < zs.length
  | [], j, s, ⟨s', e⟩ => ⟨s', by rw [nextWhere, e]; rfl⟩
  | none :: zs, j, s, ⟨s', e⟩ => ⟨s', by rw [nextWhere, e]; rfl⟩
  | some x :: zs, j, s, ⟨s', e, hc, hi, h⟩ => by
    cases hp : p x with
    | true =>
      have : filterUntil p (some x :: zs) = some x :: filterUntil p zs := by simp [filterUntil, hp]
      rw [this]
      refine ⟨s', j + 1, zs, ?_, hc, h, rfl, by simp⟩
      rw [nextWhere, e]
      simp [hc, hp]
    | false =>
      have : filterUntil p (some x :: zs) = filterUntil p zs := by simp [filterUntil, hp]
      have e1 : nextWhere A (fun x => some (p x)) s = nextWhere A (fun x => some (p x)) s' := by
        conv => lhs; rw [nextWhere]
        rw [e]
        simp [hc, hp]
      rw [this, e1]
      have := nextWhere_plays p zs (j + 1) s' h
      split <;> rename_i heq <;> rw [heq] at this
      · exact this
      · exact this
      · obtain ⟨s2, j', zs', q1, q2, q3, q4, q5⟩ := this
        exact ⟨s2, j', zs', q1, q2, q3, q4, by simp; omega⟩

theorem plays_where {A : Ator.{0, 0} α} (p : α → Bool) (n : Nat) : ∀ (zs : List (Option α)) (i j : Int) (s : A.σ),
    zs.length < n → A.Plays j s zs → (Ator.where' A p).Plays i (s, i - 1) (filterUntil p zs) := by
  induction n with
  | zero => intro zs _ _ _ h; omega
  | succ n ih =>
    intro zs i j s hn h
    have := nextWhere_plays p zs j s h
    cases hz : filterUntil p zs with
    | nil =>
      rw [hz] at this
      obtain ⟨s', e⟩ := this
      exact ⟨(s', i - 1), by simp [Ator.where', e]⟩
    | cons y ys =>
      rw [hz] at this
      cases y with
      | none =>
        obtain ⟨s', e⟩ := this
        exact ⟨(s', i - 1), by simp [Ator.where', e]⟩
      | some x =>
        obtain ⟨s', j', zs', e, hc, h', he, hl⟩ := this
        refine ⟨(s', i - 1 + 1), by simp [Ator.where', e], hc, ?_, ?_⟩
        · show i - 1 + 1 = i
          omega
        · rw [← he]
          have := ih zs' (i + 1) j' s' (by omega) h'
          have e2 : i + 1 - 1 = i - 1 + 1 := by omega
          rw [e2] at this
          exact this

theorem plays_concat_turned {A B : Ator.{0, 0} α} (a : A.σ) : ∀ (ws : List (Option α)) (i j : Int) (b : B.σ), B.Plays j b ws →
    (Ator.concat A B).Plays i ⟨a, b, i - 1, true⟩ ws
  | [], i, j, b, ⟨b', e⟩ => ⟨⟨a, b', i - 1 + 1, true⟩, by simp [Ator.concat, e, Ator.wrap]⟩
  | none :: ws, i, j, b, ⟨b', e⟩ => ⟨⟨a, b', i - 1 + 1, true⟩, by simp [Ator.concat, e, Ator.wrap]⟩
  | some x :: ws, i, j, b, ⟨b', e, hc, hi, h⟩ => by
    refine ⟨⟨a, b', i - 1 + 1, true⟩, by simp [Ator.concat, e, Ator.wrap], by simp [Ator.concat, hc], ?_, ?_⟩
    · show i - 1 + 1 = i
      omega
    · have := plays_concat_turned a ws (i + 1) (j + 1) b' h
      have e2 : i + 1 - 1 = i - 1 + 1 := by omega
      rw [e2] at this
      exact this

theorem plays_concat {A B : Ator.{0, 0} α} (ws : List (Option α)) (b : B.σ) (hb : B.Plays 0 b ws) :
    ∀ (zs : List (Option α)) (i j : Int) (a : A.σ), A.Plays j a zs → (Ator.concat A B).Plays i ⟨a, b, i - 1, false⟩ (zs ++ ws)
  | [], i, j, a, ⟨a', e⟩ => by
    rw [List.nil_append]
    cases ws with
    | nil =>
      obtain ⟨b', e'⟩ := hb
      exact ⟨⟨a', b', i - 1 + 1, true⟩, by simp [Ator.concat, e, e', Ator.wrap]⟩
    | cons w ws =>
      cases w with
      | none =>
        obtain ⟨b', e'⟩ := hb
        exact ⟨⟨a', b', i - 1 + 1, true⟩, by simp [Ator.concat, e, e', Ator.wrap]⟩
      | some x =>
        obtain ⟨b', e', hc, hi, h⟩ := hb
        refine ⟨⟨a', b', i - 1 + 1, true⟩, by simp [Ator.concat, e, e', Ator.wrap], by simp [Ator.concat, hc], ?_, ?_⟩
        · show i - 1 + 1 = i
          omega
        · have := plays_concat_turned (A := A) a' ws (i + 1) (0 + 1) b' h
          have e2 : i + 1 - 1 = i - 1 + 1 := by omega
          rw [e2] at this
          exact this
  | none :: zs, i, j, a, ⟨a', e⟩ => ⟨⟨a', b, i - 1 + 1, false⟩, by simp [Ator.concat, e]⟩
  | some x :: zs, i, j, a, ⟨a', e, hc, hi, h⟩ => by
    refine ⟨⟨a', b, i - 1 + 1, false⟩, by simp [Ator.concat, e], by simp [Ator.concat, hc], ?_, ?_⟩
    · show i - 1 + 1 = i
      omega
    · have := plays_concat ws b hb zs (i + 1) (j + 1) a' h
      have e2 : i + 1 - 1 = i - 1 + 1 := by omega
      rw [e2] at this
      exact this

theorem plays_pairwise {A : Ator.{0, 0} α} {B : Ator.{0, 0} β} : ∀ (zs : List (Option α)) (ws : List (Option β)) (i j : Int)
    (a : A.σ) (b : B.σ) (cur : Option (α × β)), A.Plays i a zs → B.Plays j b ws →
    (Ator.pairwise A B).Plays i ⟨a, b, cur⟩ (zipUntil zs ws)
  | [], _, i, j, a, b, cur, ⟨a', e⟩, _ => ⟨⟨a', b, cur⟩, by simp [Ator.pairwise, e]⟩
  | none :: _, _, i, j, a, b, cur, ⟨a', e⟩, _ => ⟨⟨a', b, cur⟩, by simp [Ator.pairwise, e]⟩
  | some x :: zs, [], i, j, a, b, cur, ⟨a', e, _⟩, ⟨b', e'⟩ => ⟨⟨a', b', cur⟩, by simp [Ator.pairwise, e, e']⟩
  | some x :: zs, none :: _, i, j, a, b, cur, ⟨a', e, _⟩, ⟨b', e'⟩ => ⟨⟨a', b', cur⟩, by simp [Ator.pairwise, e, e']⟩
  | some x :: zs, some y :: ws, i, j, a, b, cur, ⟨a', e, hc, hi, h⟩, ⟨b', e', hc', _, h'⟩ =>
    ⟨⟨a', b', some (x, y)⟩, by simp [Ator.pairwise, e, e', hc, hc'], rfl, hi, plays_pairwise zs ws (i + 1) (j + 1) a' b' _ h h'⟩

theorem plays_take {A : Ator.{0, 0} α} (n : Int) : ∀ (zs : List (Option α)) (i : Int) (s : A.σ), A.Plays i s zs → A.Before i s →
    0 ≤ i → i ≤ n → 1 ≤ n → (Ator.take A n).Plays i s (zs.take (n - i).toNat)
  | zs, i, s, h, hb, h0, hn, h1 => by
    by_cases q : i = n
    · have : (n - i).toNat = 0 := by omega
      rw [this, List.take_zero]
      refine ⟨s, ?_⟩
      have hi : A.index s ≥ n - 1 := by
        rcases hb with ⟨h, _⟩ | ⟨_, h⟩ <;> omega
      simp only [Ator.take, hi, if_true]
    · have hi : ¬ A.index s ≥ n - 1 := by
        rcases hb with ⟨_, h⟩ | ⟨_, h⟩ <;> omega
      obtain ⟨k, hk⟩ : ∃ k, (n - i).toNat = k + 1 := ⟨(n - i).toNat - 1, by omega⟩
      match zs, h with
      | [], ⟨s', e⟩ => rw [List.take_nil]; exact ⟨s', by simp only [Ator.take, hi, if_false, e]⟩
      | none :: zs, ⟨s', e⟩ => rw [hk, List.take_succ_cons]; exact ⟨s', by simp only [Ator.take, hi, if_false, e]⟩
      | some x :: zs, ⟨s', e, hc, hi', h'⟩ =>
        rw [hk, List.take_succ_cons]
        have hk' : k = (n - (i + 1)).toNat := by omega
        rw [hk']
        exact ⟨s', by simp only [Ator.take, hi, if_false, e], hc, hi',
          plays_take n zs (i + 1) s' h' (.inr ⟨by omega, by omega⟩) (by omega) (by omega) h1⟩

theorem plays_skipped {A : Ator.{0, 0} α} (n : Int) : ∀ (zs : List (Option α)) (i : Int) (s : A.σ), A.Plays (i + n) s zs →
    (Ator.skip A n).Plays i (s, true) zs
  | [], i, s, ⟨s', e⟩ => ⟨(s', true), by simp [Ator.skip, e, Ator.wrap]⟩
  | none :: zs, i, s, ⟨s', e⟩ => ⟨(s', true), by simp [Ator.skip, e, Ator.wrap]⟩
  | some x :: zs, i, s, ⟨s', e, hc, hi, h⟩ => by
    refine ⟨(s', true), by simp [Ator.skip, e, Ator.wrap], hc, ?_, ?_⟩
    · show A.index s' - n = i
      omega
    · have e2 : i + n + 1 = i + 1 + n := by omega
      rw [e2] at h
      exact plays_skipped n zs (i + 1) s' h

theorem skipLoop_plays {A : Ator.{0, 0} α} : ∀ (k : Nat) (zs : List (Option α)) (i : Int) (s : A.σ), A.Plays i s zs →
    (skipUntil k zs = [] ∧ ∃ s', skipLoop A k s = some (.ok false s')) ∨
    ((∃ r, skipUntil k zs = none :: r) ∧ ∃ s', skipLoop A k s = some (.err s')) ∨
    ∃ s', skipLoop A k s = some (.ok true s') ∧ A.Plays (i + k) s' (skipUntil k zs)
  | 0, zs, i, s, h => .inr (.inr ⟨s, rfl, by simpa [skipUntil] using h⟩)
  | k + 1, [], i, s, ⟨s', e⟩ => .inl ⟨rfl, s', by simp [skipLoop, e]⟩
  | k + 1, none :: zs, i, s, ⟨s', e⟩ => .inr (.inl ⟨⟨[], rfl⟩, s', by simp [skipLoop, e]⟩)
  | k + 1, some x :: zs, i, s, ⟨s', e, _, _, h⟩ => by
    have e1 : skipLoop A (k + 1) s = skipLoop A k s' := by simp [skipLoop, e]
    rw [e1]
    have := skipLoop_plays k zs (i + 1) s' h
    have e2 : i + 1 + (k : Int) = i + ((k + 1 : Nat) : Int) := by omega
    rw [e2] at this
    exact this

theorem plays_skip {A : Ator.{0, 0} α} (n : Int) (hn : 0 ≤ n) (zs : List (Option α)) (s : A.σ) (h : A.Plays 0 s zs) :
    (Ator.skip A n).Plays 0 (s, false) (skipUntil n.toNat zs) := by
  rcases skipLoop_plays n.toNat zs 0 s h with ⟨h1, s', e⟩ | ⟨⟨r, h1⟩, s', e⟩ | ⟨s', e, h1⟩
  · rw [h1]; exact ⟨(s', true), by simp [Ator.skip, e]⟩
  · rw [h1]; exact ⟨(s', true), by simp [Ator.skip, e]⟩
  · have e2 : (0 : Int) + (n.toNat : Int) = 0 + n := by omega
    rw [e2] at h1
    have := plays_skipped n (skipUntil n.toNat zs) 0 s' h1
    have e3 : (Ator.skip A n).next (s, false) = (Ator.skip A n).next (s', true) := by simp [Ator.skip, e]
    match skipUntil n.toNat zs, this with
    | [], this => exact this.imp fun _ h => by rw [e3]; exact h
    | none :: _, this => exact this.imp fun _ h => by rw [e3]; exact h
    | some _ :: _, this => exact this.imp fun _ h => ⟨by rw [e3]; exact h.1, h.2⟩

end Ator

namespace LazyList

theorem Holds.tells {L : LazyList.{0, 0} α} {full : Bool} {xs : List α} {i0 : Int} (h : L.Holds full xs i0) :
    L.Tells (xs.map some) := by
  obtain ⟨c, hr, _⟩ := h
  refine ⟨fun s => c.R s [] xs, hr, fun s hs => ⟨c.fresh hs, .inl ⟨rfl, ?_⟩, c.plays hs⟩⟩
  rw [c.index hs]; exact c.start

theorem Tells.create {L : LazyList.{0, 0} α} {xs : List (Option α)} (h : L.Tells xs) :
    ∃ s, L.create = some s ∧ L.A.Plays 0 s xs := by
  obtain ⟨R, h0, hR⟩ := h
  obtain ⟨⟨s, e, hs⟩, _⟩ := hR _ h0
  exact ⟨s, e, (hR s hs).2.2⟩

theorem Tells.select {L : LazyList.{0, 0} α} {xs : List (Option α)} (h : L.Tells xs) (f : α → Option β) :
    ∃ N, L.select? f = some N ∧ N.Tells (mapUntil f xs) := by
  obtain ⟨R, h0, hR⟩ := h
  obtain ⟨⟨s, e, hs⟩, _⟩ := hR _ h0
  refine ⟨⟨.select L.A f, (s, none)⟩, by simp [LazyList.select?, LazyList.create, e], fun q => R q.1, hs, fun q hq => ?_⟩
  obtain ⟨⟨s', e', hs'⟩, hb, hp⟩ := hR q.1 hq
  exact ⟨⟨(s', q.2), by simp [Ator.select, e'], hs'⟩, hb, Ator.plays_select f xs 0 q.1 q.2 hp⟩

theorem Tells.where' {L : LazyList.{0, 0} α} {xs : List (Option α)} (h : L.Tells xs) (p : α → Bool) :
    ∃ N, L.where' p = some N ∧ N.Tells (filterUntil p xs) := by
  obtain ⟨R, h0, hR⟩ := h
  obtain ⟨⟨s, e, hs⟩, _⟩ := hR _ h0
  refine ⟨⟨.where' L.A p, (s, -1)⟩, by simp [LazyList.where', LazyList.create, e], fun q => R q.1 ∧ q.2 = -1, ⟨hs, rfl⟩,
    fun q hq => ?_⟩
  obtain ⟨q, i⟩ := q
  obtain ⟨hq, rfl⟩ := hq
  obtain ⟨⟨s', e', hs'⟩, hb, hp⟩ := hR q hq
  exact ⟨⟨(s', -1), by simp [Ator.where', e'], hs', rfl⟩, .inl ⟨rfl, by simp [Ator.where']⟩,
    Ator.plays_where p (xs.length + 1) xs 0 0 q (by omega) hp⟩

theorem Tells.concat {L M : LazyList.{0, 0} α} {xs ys : List (Option α)} (h : L.Tells xs) (h' : M.Tells ys) :
    ∃ N, L.concat M = some N ∧ N.Tells (xs ++ ys) := by
  obtain ⟨R, h0, hR⟩ := h
  obtain ⟨⟨s, e, hs⟩, _⟩ := hR _ h0
  obtain ⟨R', h0', hR'⟩ := h'
  obtain ⟨⟨t, e', ht⟩, _⟩ := hR' _ h0'
  refine ⟨⟨.concat L.A M.A, ⟨s, t, -1, false⟩⟩, by simp [LazyList.concat, LazyList.create, e, e'],
    fun q => R q.enumerator1 ∧ R' q.enumerator2 ∧ q.index = -1 ∧ q.turned = false, ⟨hs, ht, rfl, rfl⟩, fun q hq => ?_⟩
  obtain ⟨a, b, i, tn⟩ := q
  obtain ⟨hq, hq', hi, htn⟩ := hq
  simp only at hq hq' hi htn
  subst hi htn
  obtain ⟨⟨s', e1, hs'⟩, hb, hp⟩ := hR a hq
  obtain ⟨⟨t', e2, ht'⟩, hb', hp'⟩ := hR' b hq'
  exact ⟨⟨⟨s', t', -1, false⟩, by simp [Ator.concat, e1, e2], hs', ht', rfl, rfl⟩, .inl ⟨rfl, by simp [Ator.concat]⟩,
    Ator.plays_concat ys b hp' xs 0 0 a hp⟩

theorem Tells.pairwise {L : LazyList.{0, 0} α} {M : LazyList.{0, 0} β} {xs : List (Option α)} {ys : List (Option β)}
    (h : L.Tells xs) (h' : M.Tells ys) : ∃ N, L.pairwise M = some N ∧ N.Tells (zipUntil xs ys) := by
  obtain ⟨R, h0, hR⟩ := h
  obtain ⟨⟨s, e, hs⟩, _⟩ := hR _ h0
  obtain ⟨R', h0', hR'⟩ := h'
  obtain ⟨⟨t, e', ht⟩, _⟩ := hR' _ h0'
  refine ⟨⟨.pairwise L.A M.A, ⟨s, t, none⟩⟩, by simp [LazyList.pairwise, LazyList.create, e, e'],
    fun q => R q.enumerator1 ∧ R' q.enumerator2, ⟨hs, ht⟩, fun q hq => ?_⟩
  obtain ⟨a, b, cur⟩ := q
  obtain ⟨hq, hq'⟩ := hq
  obtain ⟨⟨s', e1, hs'⟩, hb, hp⟩ := hR a hq
  obtain ⟨⟨t', e2, ht'⟩, hb', hp'⟩ := hR' b hq'
  exact ⟨⟨⟨s', t', cur⟩, by simp [Ator.pairwise, e1, e2], hs', ht'⟩, hb, Ator.plays_pairwise xs ys 0 0 a b cur hp hp'⟩

theorem Tells.take {L : LazyList.{0, 0} α} {xs : List (Option α)} (h : L.Tells xs) (n : Int) (hn : 1 ≤ n) :
    ∃ N, L.take n = some N ∧ N.Tells (xs.take n.toNat) := by
  obtain ⟨R, h0, hR⟩ := h
  obtain ⟨⟨s, e, hs⟩, _⟩ := hR _ h0
  refine ⟨⟨.take L.A n, s⟩, by simp only [LazyList.take, LazyList.create, e]; rfl, R, hs, fun q hq => ?_⟩
  obtain ⟨⟨s', e', hs'⟩, hb, hp⟩ := hR q hq
  refine ⟨⟨s', e', hs'⟩, hb, ?_⟩
  have := Ator.plays_take (A := L.A) n xs 0 q hp hb (by omega) (by omega) hn
  rw [Int.sub_zero] at this
  exact this

theorem Tells.skip {L : LazyList.{0, 0} α} {xs : List (Option α)} (h : L.Tells xs) (n : Int) (hn : 0 ≤ n) :
    ∃ N, L.skip n = some N ∧ N.Tells (skipUntil n.toNat xs) := by
  obtain ⟨R, h0, hR⟩ := h
  obtain ⟨⟨s, e, hs⟩, _⟩ := hR _ h0
  refine ⟨⟨.skip L.A n, (s, false)⟩, by simp [LazyList.skip, LazyList.create, e], fun q => R q.1 ∧ q.2 = false, ⟨hs, rfl⟩,
    fun q hq => ?_⟩
  obtain ⟨q, b⟩ := q
  obtain ⟨hq, rfl⟩ := hq
  obtain ⟨⟨s', e', hs'⟩, hb, hp⟩ := hR q hq
  refine ⟨⟨(s', false), by simp [Ator.skip, e'], hs', rfl⟩, .inl ⟨rfl, ?_⟩, Ator.plays_skip n hn xs q hp⟩
  show L.A.index q - n ≤ -1
  rcases hb with ⟨_, hb⟩ | ⟨hb, _⟩ <;> omega

/-! ### Functions that read the lazy list -/

theorem foldLoop_plays {A : Ator.{0, 0} α} (f : β → α → β) : ∀ (zs : List (Option α)) (i : Int) (acc : β) (s : A.σ),
    A.Plays i s zs → foldLoop A (fun b a => some (f b a)) acc s = some (orError ((whole zs).map (·.foldl f acc)))
  | [], i, acc, s, ⟨s', e⟩ => by rw [foldLoop, e]; rfl
  | none :: zs, i, acc, s, ⟨s', e⟩ => by rw [foldLoop, e]; rfl
  | some x :: zs, i, acc, s, ⟨s', e, hc, hi, h⟩ => by
    rw [foldLoop, e]
    simp only [hc]
    rw [foldLoop_plays f zs (i + 1) (f acc x) s' h]
    simp only [whole]
    cases whole zs <;> rfl

theorem countLoop_plays {A : Ator.{0, 0} α} : ∀ (zs : List (Option α)) (i n : Int) (s : A.σ), A.Plays i s zs →
    countLoop A n s = some (orError ((whole zs).map fun l => n + (l.length : Int)))
  | [], i, n, s, ⟨s', e⟩ => by rw [countLoop, e]; simp [whole, orError]
  | none :: zs, i, n, s, ⟨s', e⟩ => by rw [countLoop, e]; rfl
  | some x :: zs, i, n, s, ⟨s', e, hc, hi, h⟩ => by
    rw [countLoop, e]
    simp only
    rw [countLoop_plays zs (i + 1) (n + 1) s' h]
    simp only [whole]
    cases whole zs with
    | none => rfl
    | some l => simp only [Option.map_some, orError, List.length_cons]; congr 2; omega

theorem compareLoop_plays {A : Ator.{0, 0} α} {B : Ator.{0, 0} β} (ord : α → β → Ordering) : ∀ (zs : List (Option α))
    (ws : List (Option β)) (i j : Int) (s : A.σ) (t : B.σ), A.Plays i s zs → B.Plays j t ws →
    compareLoop A B (fun a b => some (ord a b)) s t = some (orError ((compareUntil ord zs ws).map some))
  | none :: zs, ws, i, j, s, t, ⟨s', e⟩, _ => by rw [compareLoop, e]; simp [compareUntil, orError]
  | [], none :: ws, i, j, s, t, ⟨s', e⟩, ⟨t', e'⟩ => by rw [compareLoop, e, e']; rfl
  | some x :: zs, none :: ws, i, j, s, t, ⟨s', e, _⟩, ⟨t', e'⟩ => by rw [compareLoop, e, e']; rfl
  | [], [], i, j, s, t, ⟨s', e⟩, ⟨t', e'⟩ => by rw [compareLoop, e, e']; rfl
  | [], some y :: ws, i, j, s, t, ⟨s', e⟩, ⟨t', e', _⟩ => by rw [compareLoop, e, e']; rfl
  | some x :: zs, [], i, j, s, t, ⟨s', e, _⟩, ⟨t', e'⟩ => by rw [compareLoop, e, e']; rfl
  | some x :: zs, some y :: ws, i, j, s, t, ⟨s', e, hc, _, h⟩, ⟨t', e', hc', _, h'⟩ => by
    rw [compareLoop, e, e']
    simp only [Bool.not_true, Bool.and_false, Bool.and_true, Bool.false_eq_true, if_false, hc, hc', compareUntil]
    cases ord x y with
    | eq => exact compareLoop_plays ord zs ws (i + 1) (j + 1) s' t' h h'
    | lt => rfl
    | gt => rfl

variable {L : LazyList.{0, 0} α} {xs : List (Option α)}

theorem Tells.aggregateInit (h : L.Tells xs) (init : β) (f : β → α → β) :
    L.aggregateInit init f = some (orError ((whole xs).map (·.foldl f init))) := by
  obtain ⟨s, e, hp⟩ := h.create
  rw [LazyList.aggregateInit, LazyList.aggregateInit?, e]
  exact foldLoop_plays f xs 0 init s hp

theorem Tells.toList (h : L.Tells xs) : L.toList = some (orError (whole xs)) := by
  rw [LazyList.toList, h.aggregateInit]
  cases whole xs with
  | none => rfl
  | some l => simp only [Option.map_some, foldl_snoc, List.nil_append]

theorem Tells.count (h : L.Tells xs) : L.count = some (orError ((whole xs).map fun l => (l.length : Int))) := by
  obtain ⟨s, e, hp⟩ := h.create
  rw [LazyList.count, e]
  simp only
  rw [countLoop_plays xs 0 0 s hp]
  simp

theorem Tells.aggregate (h : L.Tells xs) (f : α → α → α) : L.aggregate f = some (orError ((whole xs).bind (foldl1 f))) := by
  obtain ⟨s, e, hp⟩ := h.create
  rw [LazyList.aggregate, LazyList.withFirst, e]
  match xs, hp with
  | [], ⟨s', e'⟩ => simp [e', whole, foldl1, orError]
  | none :: _, ⟨s', e'⟩ => simp [e', whole, orError]
  | some x :: xs, ⟨s', e', hc, _, hp⟩ =>
    simp only [e', Option.bind_some, if_true, hc, whole]
    rw [foldLoop_plays f xs (0 + 1) x s' hp]
    cases whole xs <;> rfl

theorem Tells.last (h : L.Tells xs) : L.last = some (orError ((whole xs).bind List.getLast?)) := by
  have : L.last = L.aggregate (fun _ a => a) := rfl
  rw [this, h.aggregate]
  cases whole xs with
  | none => rfl
  | some l =>
    cases l with
    | nil => rfl
    | cons x l => simp only [Option.bind_some, foldl1, foldl_last, List.getLast?_cons, List.getLastD_eq_getLast?]

theorem Tells.lastOr (h : L.Tells xs) (d : α) : L.lastOr d = some (orError ((whole xs).map (·.getLastD d))) := by
  rw [LazyList.lastOr, h.aggregateInit]
  simp only [foldl_last]

theorem Tells.first (h : L.Tells xs) : L.first = some (orError (atFirst none id xs)) := by
  obtain ⟨s, e, hp⟩ := h.create
  rw [LazyList.first, LazyList.withFirst, e]
  match xs, hp with
  | [], ⟨s', e'⟩ => simp [e', atFirst, orError]
  | none :: _, ⟨s', e'⟩ => simp [e', atFirst, orError]
  | some x :: xs, ⟨s', e', hc, _, hp⟩ => simp [e', hc, currentOf, atFirst, orError]

theorem Tells.firstOr (h : L.Tells xs) (d : α) : L.firstOr d = some (orError (atFirst (some d) id xs)) := by
  obtain ⟨s, e, hp⟩ := h.create
  rw [LazyList.firstOr, LazyList.withFirst, e]
  match xs, hp with
  | [], ⟨s', e'⟩ => simp [e', atFirst, orError]
  | none :: _, ⟨s', e'⟩ => simp [e', atFirst, orError]
  | some x :: xs, ⟨s', e', hc, _, hp⟩ => simp [e', hc, currentOf, atFirst, orError]

theorem Tells.isEmpty (h : L.Tells xs) : L.isEmpty = some (orError (atFirst (some true) (fun _ => false) xs)) := by
  obtain ⟨s, e, hp⟩ := h.create
  rw [LazyList.isEmpty, LazyList.withFirst, e]
  match xs, hp with
  | [], ⟨s', e'⟩ => simp [e', atFirst, orError]
  | none :: _, ⟨s', e'⟩ => simp [e', atFirst, orError]
  | some x :: xs, ⟨s', e', hc, _, hp⟩ => simp [e', atFirst, orError]

theorem whole_map (f : α → β) : ∀ xs : List (Option α), whole (mapUntil (fun x => some (f x)) xs) = (whole xs).map (·.map f)
  | [] => rfl
  | none :: _ => rfl
  | some x :: xs => by
    have := whole_map f xs
    simp only [mapUntil] at this
    simp only [mapUntil, List.map_cons, Option.bind_some, whole, this]
    cases whole xs <;> rfl

theorem Tells.all (h : L.Tells xs) (t : α → Bool) : L.all t = some (orError ((whole xs).map (·.all t))) := by
  obtain ⟨N, e, hN⟩ := h.select (fun x => some (t x))
  have e' : L.select t = some N := e
  rw [LazyList.all, e']
  simp only
  rw [hN.aggregateInit, whole_map]
  cases whole xs with
  | none => rfl
  | some l =>
    simp only [Option.map_some]
    congr 3
    have : ∀ (l : List α) (b : Bool), (l.map t).foldl (fun a b => a && b) b = (b && l.all t) := by
      intro l
      induction l with
      | nil => simp
      | cons x l ih => intro b; simp [ih, Bool.and_assoc]
    rw [this]; rfl

theorem Tells.any (h : L.Tells xs) (t : α → Bool) : L.any t = some (orError ((whole xs).map (·.any t))) := by
  obtain ⟨N, e, hN⟩ := h.select (fun x => some (t x))
  have e' : L.select t = some N := e
  rw [LazyList.any, e']
  simp only
  rw [hN.aggregateInit, whole_map]
  cases whole xs with
  | none => rfl
  | some l =>
    simp only [Option.map_some]
    congr 3
    have : ∀ (l : List α) (b : Bool), (l.map t).foldl (fun a b => a || b) b = (b || l.any t) := by
      intro l
      induction l with
      | nil => simp
      | cons x l ih => intro b; simp [ih, Bool.or_assoc]
    rw [this]; rfl

theorem Tells.compare {M : LazyList.{0, 0} β} {ys : List (Option β)} (h : L.Tells xs) (h' : M.Tells ys) (ord : α → β → Ordering) :
    L.compare M (fun a b => some (ord a b)) = some (orError ((compareUntil ord xs ys).map some)) := by
  obtain ⟨s, e, hp⟩ := h.create
  obtain ⟨s', e', hp'⟩ := h'.create
  rw [LazyList.compare, e, e']
  exact compareLoop_plays ord xs ys 0 0 s s' hp hp'

end LazyList
end Vlpp
