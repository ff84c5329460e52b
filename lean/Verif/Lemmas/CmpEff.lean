import Verif.Model.CmpEff
import Verif.Spec.CmpEff
import Verif.Lemmas.Compares

/-! # Searching with comparisons that do something -/
set_option autoImplicit false
namespace Vlpp.CmpEff
open QSortE (Answer)
open Spec (Compares Search Place Scan Found Apart Bad Cut Near)
variable {W α κ ν σ β : Type}

/-- the calls say where the elements from `start` to `stop` are: those before `s` are smaller, the others greater -/
def Splits (xs : List α) (calls : List (α × κ × Answer)) (start stop s : Int) : Prop :=
  start ≤ s ∧ s ≤ stop + 1 ∧
    (∀ j : Nat, start ≤ j → j < s → ∃ (i : Nat) (c : α × κ × Answer), j ≤ i ∧ i < s ∧ xs[i]? = some c.1 ∧ c ∈ calls ∧ c.2.2 = .ord .lt) ∧
    (∀ j : Nat, s ≤ j → j ≤ stop → ∃ (i : Nat) (c : α × κ × Answer), s ≤ i ∧ i ≤ j ∧ xs[i]? = some c.1 ∧ c ∈ calls ∧ c.2.2 = .ord .gt)

/-- the index after the search -/
def LastIndex (xs : List α) (k : κ) (calls : List (α × κ × Answer)) (index s o : Int) : Prop :=
  (calls = [] ∧ o = index) ∨
    ∃ (n : Nat) (x : α), o = n ∧ xs[n]? = some x ∧
      ((calls.getLast? = some (x, k, .ord .lt) ∧ s = n + 1) ∨ (calls.getLast? = some (x, k, .ord .gt) ∧ s = n))

/-- how the search loop ends -/
inductive LoopEnds (xs : List α) (k : κ) (calls : List (α × κ × Answer)) (w' : W) (start stop index : Int) : Outcome W (Int × Int) → Prop
  | found (i : Nat) (x : α) (h : xs[i]? = some x) (hc : calls.getLast? = some (x, k, .ord .eq)) :
    LoopEnds xs k calls w' start stop index (.ok ((i : Int), (i : Int)) w')
  | absent (o s : Int) (hs : Splits xs calls start stop s) (ho : LastIndex xs k calls index s o) (hc : ∀ c ∈ calls, Apart c.2.2) :
    LoopEnds xs k calls w' start stop index (.ok (-1, o) w')
  | failed (c : α × κ × Answer) (hc : calls.getLast? = some c) (hb : Bad c.2.2) : LoopEnds xs k calls w' start stop index (.err w')

theorem half_log {m a : Nat} (h : a ≤ m / 2) (hm : 0 < m) : (if a = 0 then 0 else Nat.log2 a + 1) + 1 ≤ Nat.log2 m + 1 := by
  split
  · omega
  · next h0 =>
    have h2 : 2 ≤ m := by omega
    have e : Nat.log2 m = Nat.log2 (m / 2) + 1 := by rw [Nat.log2_def m, if_pos h2]
    have : Nat.log2 a ≤ Nat.log2 (m / 2) := by
      refine (Nat.le_log2 (by omega)).2 (Nat.le_trans (Nat.log2_self_le h0) h)
    omega

theorem getLast?_cons_of_some {c0 c : α} {l : List α} (h : l.getLast? = some c) : (c0 :: l).getLast? = some c := by
  rw [List.getLast?_cons, h]; rfl

/-- after a smaller element -/
theorem LoopEnds.smaller {xs : List α} {k : κ} {x : α} {calls : List (α × κ × Answer)} {w' : W} {n : Nat} {start stop index : Int}
    {r : Outcome W (Int × Int)} (hx : xs[n]? = some x) (h0 : start ≤ n) (h1 : n ≤ stop) (h : LoopEnds xs k calls w' (n + 1) stop n r)
    (he : calls = [] → stop ≤ n) :
    LoopEnds xs k ((x, k, .ord .lt) :: calls) w' start stop index r := by
  cases h with
  | found i x h hc => exact .found i x h (getLast?_cons_of_some hc)
  | failed c hc hb => exact .failed c (getLast?_cons_of_some hc) hb
  | absent o s hs ho hc =>
    obtain ⟨s1, s2, s3, s4⟩ := hs
    refine .absent o s ⟨by omega, s2, ?_, ?_⟩ ?_ ?_
    · intro j j0 j1
      by_cases hj : (n : Int) + 1 ≤ j
      · obtain ⟨i, c, a, b, d, e, g⟩ := s3 j hj j1
        exact ⟨i, c, a, b, d, List.mem_cons_of_mem _ e, g⟩
      · exact ⟨n, (x, k, .ord .lt), by omega, by omega, hx, by simp, rfl⟩
    · intro j j0 j1
      obtain ⟨i, c, a, b, d, e, g⟩ := s4 j j0 j1
      exact ⟨i, c, a, b, d, List.mem_cons_of_mem _ e, g⟩
    · rcases ho with ⟨e, eo⟩ | ⟨m, y, a, b, d⟩
      · subst e
        have := he rfl
        exact .inr ⟨n, x, eo, hx, .inl ⟨rfl, by omega⟩⟩
      · refine .inr ⟨m, y, a, b, ?_⟩
        rcases d with ⟨d, e⟩ | ⟨d, e⟩
        · exact .inl ⟨getLast?_cons_of_some d, e⟩
        · exact .inr ⟨getLast?_cons_of_some d, e⟩
    · intro c hm
      rcases List.mem_cons.1 hm with rfl | hm
      · exact .inl rfl
      · exact hc c hm

/-- after a greater element -/
theorem LoopEnds.greater {xs : List α} {k : κ} {x : α} {calls : List (α × κ × Answer)} {w' : W} {n : Nat} {start stop index : Int}
    {r : Outcome W (Int × Int)} (hx : xs[n]? = some x) (h0 : start ≤ n) (h1 : n ≤ stop) (h : LoopEnds xs k calls w' start (n - 1) n r)
    (he : calls = [] → n ≤ start) :
    LoopEnds xs k ((x, k, .ord .gt) :: calls) w' start stop index r := by
  cases h with
  | found i x h hc => exact .found i x h (getLast?_cons_of_some hc)
  | failed c hc hb => exact .failed c (getLast?_cons_of_some hc) hb
  | absent o s hs ho hc =>
    obtain ⟨s1, s2, s3, s4⟩ := hs
    refine .absent o s ⟨s1, by omega, ?_, ?_⟩ ?_ ?_
    · intro j j0 j1
      obtain ⟨i, c, a, b, d, e, g⟩ := s3 j j0 j1
      exact ⟨i, c, a, b, d, List.mem_cons_of_mem _ e, g⟩
    · intro j j0 j1
      by_cases hj : (j : Int) ≤ n - 1
      · obtain ⟨i, c, a, b, d, e, g⟩ := s4 j j0 hj
        exact ⟨i, c, a, b, d, List.mem_cons_of_mem _ e, g⟩
      · exact ⟨n, (x, k, .ord .gt), by omega, by omega, hx, by simp, rfl⟩
    · rcases ho with ⟨e, eo⟩ | ⟨m, y, a, b, d⟩
      · subst e
        have := he rfl
        exact .inr ⟨n, x, eo, hx, .inr ⟨rfl, by omega⟩⟩
      · refine .inr ⟨m, y, a, b, ?_⟩
        rcases d with ⟨d, e⟩ | ⟨d, e⟩
        · exact .inl ⟨getLast?_cons_of_some d, e⟩
        · exact .inr ⟨getLast?_cons_of_some d, e⟩
    · intro c hm
      rcases List.mem_cons.1 hm with rfl | hm
      · exact .inr rfl
      · exact hc c hm

theorem dropLast_cons {c0 : α} {calls : List α} {P : α → Prop} (h0 : P c0) (h : ∀ c ∈ calls.dropLast, P c) : ∀ c ∈ (c0 :: calls).dropLast, P c := by
  cases calls with
  | nil => intro c hc; simp at hc
  | cons d t =>
    intro c hc
    rw [List.dropLast_cons_of_ne_nil (by simp)] at hc
    rcases List.mem_cons.1 hc with rfl | hc
    · exact h0
    · exact h c hc

theorem searchLoop_ends (f : W → α → κ → Answer × W) (xs : List α) (k : κ) (m : Nat) : ∀ (start stop index : Int) (w : W),
    0 ≤ start → stop < xs.length → start ≤ stop + 1 → (stop + 1 - start).toNat = m →
    ∃ calls w', Compares f w calls w' ∧ calls.length ≤ (if m = 0 then 0 else Nat.log2 m + 1) ∧ (calls = [] → m = 0) ∧
      (∀ c ∈ calls, c.1 ∈ xs ∧ c.2.1 = k) ∧ (∀ c ∈ calls.dropLast, Apart c.2.2) ∧
      LoopEnds xs k calls w' start stop index (searchLoop f xs k start stop index w) := by
  induction m using Nat.strongRecOn with
  | _ m ih =>
    intro start stop index w h0 h1 h2 hm
    rw [searchLoop]
    by_cases hs : start ≤ stop
    · rw [if_pos hs]
      have hi : 0 ≤ start + (stop - start) / 2 ∧ start + (stop - start) / 2 ≤ stop := by omega
      generalize hgi : start + (stop - start) / 2 = i at *
      obtain ⟨n, rfl⟩ : ∃ n : Nat, i = n := ⟨i.toNat, by omega⟩
      have hn : n < xs.length := by omega
      have hr : SortedSeq.read xs (n : Int) = some xs[n] := by
        rw [SortedSeq.read, if_pos (by omega)]; simp [hn]
      simp only [hr]
      have hx : xs[n] ∈ xs := List.getElem_mem hn
      have hx' : xs[n]? = some xs[n] := by simp [hn]
      generalize xs[n] = x at *
      have hlen : 1 ≤ (if m = 0 then 0 else Nat.log2 m + 1) := by rw [if_neg (by omega)]; omega
      cases e : f w x k with
      | mk r w1 =>
        have hc : Compares f w [(x, k, r)] w1 := ⟨w1, e, rfl⟩
        have hargs : ∀ c ∈ [(x, k, r)], c.1 ∈ xs ∧ c.2.1 = k := by
          intro c hc; rw [List.mem_singleton.1 hc]; exact ⟨hx, rfl⟩
        have go : ∀ (start' stop' : Int), 0 ≤ start' → stop' < xs.length → start' ≤ stop' + 1 → (stop' + 1 - start').toNat ≤ m / 2 → Apart r →
            (∀ calls w', (calls = [] → (stop' + 1 - start').toNat = 0) → LoopEnds xs k calls w' start' stop' n (searchLoop f xs k start' stop' n w1) →
              LoopEnds xs k ((x, k, r) :: calls) w' start stop index (searchLoop f xs k start' stop' n w1)) →
            ∃ calls w', Compares f w calls w' ∧ calls.length ≤ (if m = 0 then 0 else Nat.log2 m + 1) ∧ (calls = [] → m = 0) ∧
              (∀ c ∈ calls, c.1 ∈ xs ∧ c.2.1 = k) ∧ (∀ c ∈ calls.dropLast, Apart c.2.2) ∧
              LoopEnds xs k calls w' start stop index (searchLoop f xs k start' stop' n w1) := by
          intro start' stop' h0' h1' h2' hle ha hcons
          obtain ⟨calls, w2, g1, g2, g0, g3, g4, g5⟩ := ih _ (by omega) start' stop' n w1 h0' h1' h2' rfl
          refine ⟨(x, k, r) :: calls, w2, ⟨w1, e, g1⟩, ?_, nofun, ?_, dropLast_cons ha g4, hcons calls w2 g0 g5⟩
          · rw [if_neg (by omega), List.length_cons]
            exact Nat.le_trans (Nat.succ_le_succ g2) (half_log hle (by omega))
          · intro c hc
            rcases List.mem_cons.1 hc with rfl | hc
            · exact ⟨hx, rfl⟩
            · exact g3 c hc
        cases r with
        | threw => exact ⟨_, _, hc, hlen, nofun, hargs, by simp, .failed _ rfl (.inl rfl)⟩
        | unordered => exact ⟨_, _, hc, hlen, nofun, hargs, by simp, .failed _ rfl (.inr rfl)⟩
        | ord o =>
          cases o with
          | eq => exact ⟨_, _, hc, hlen, nofun, hargs, by simp, .found n x hx' rfl⟩
          | lt =>
            exact go (n + 1) stop (by omega) h1 (by omega) (by omega) (.inl rfl) fun calls w' h g =>
              g.smaller hx' (by omega) (by omega) fun hh => by have := h hh; omega
          | gt =>
            exact go start (n - 1) h0 (by omega) (by omega) (by omega) (.inr rfl) fun calls w' h g =>
              g.greater hx' (by omega) (by omega) fun hh => by have := h hh; omega
    · rw [if_neg hs]
      exact ⟨[], w, rfl, by simp, fun _ => by omega, by simp, by simp,
        .absent index start ⟨by omega, by omega, fun j _ _ => by omega, fun j _ _ => by omega⟩ (.inl ⟨rfl, rfl⟩) (by simp)⟩

/-- the whole list -/
theorem Splits.cut {xs : List α} {calls : List (α × κ × Answer)} {s : Int} (h : Splits xs calls 0 (xs.length - 1) s) :
    ∃ n : Nat, s = n ∧ Cut xs calls n := by
  obtain ⟨h1, h2, h3, h4⟩ := h
  obtain ⟨n, rfl⟩ : ∃ n : Nat, s = n := ⟨s.toNat, by omega⟩
  refine ⟨n, rfl, by omega, ?_, ?_⟩
  · intro j hj
    obtain ⟨i, c, a, b, d⟩ := h3 j (by omega) (by omega)
    exact ⟨i, c, a, by omega, d⟩
  · intro j hj hj2
    obtain ⟨i, c, a, b, d⟩ := h4 j (by omega) (by omega)
    exact ⟨i, c, by omega, b, d⟩

theorem indexOfInternal_def (f : W → α → κ → Answer × W) (xs : List α) (k : κ) (w : W) :
    indexOfInternal f k xs w = searchLoop f xs k 0 ((xs.length : Int) - 1) (-1) w := rfl

theorem indexOf_search (f : W → α → κ → Answer × W) (xs : List α) (k : κ) (w : W) :
    ∃ calls w' r, Search f xs k w calls w' r ∧ indexOf f k xs w = match r with
      | .found i => .ok (i : Int) w'
      | .absent => .ok (-1) w'
      | .failed => .err w' := by
  obtain ⟨calls, w', g1, g2, g0, g3, g4, g5⟩ := searchLoop_ends f xs k xs.length 0 (xs.length - 1) (-1) w (by omega) (by omega) (by omega) (by omega)
  have hfew : calls.length ≤ Nat.log2 xs.length + 1 := by split at g2 <;> omega
  have hnone : xs = [] → calls = [] := by
    rintro rfl; simpa using g2
  have key : ∀ r, (match r with
      | .found i => ∃ x, xs[i]? = some x ∧ calls.getLast? = some (x, k, .ord .eq)
      | .absent => (∀ c ∈ calls, Apart c.2.2) ∧ ∃ s, Cut xs calls s
      | .failed => ∃ c, calls.getLast? = some c ∧ Bad c.2.2) → Search f xs k w calls w' r :=
    fun r h => ⟨g1, hfew, hnone, g3, g4, h⟩
  unfold indexOf
  rw [Cpp.bind_apply, indexOfInternal_def]
  generalize searchLoop f xs k 0 ((xs.length : Int) - 1) (-1) w = o at g5
  cases g5 with
  | found i x h hc => exact ⟨calls, w', .found i, key _ ⟨x, h, hc⟩, rfl⟩
  | absent o s hs ho hc =>
    obtain ⟨n, _, hn⟩ := hs.cut
    exact ⟨calls, w', .absent, key _ ⟨hc, n, hn⟩, rfl⟩
  | failed c hc hb => exact ⟨calls, w', .failed, key _ ⟨c, hc, hb⟩, rfl⟩

theorem placeOf_place (f : W → α → κ → Answer × W) (xs : List α) (k : κ) (w : W) :
    ∃ calls w' r, Place f xs k w calls w' r ∧ placeOf f k xs w = match r with
      | some i => .ok (i : Int) w'
      | none => .err w' := by
  by_cases h0 : xs.length = 0
  · have : xs = [] := List.length_eq_zero_iff.1 h0
    refine ⟨[], w, some 0, ⟨rfl, by simp, fun _ => rfl, by simp, by simp, by simp [this]⟩, ?_⟩
    rw [placeOf, if_pos h0]; rfl
  obtain ⟨calls, w', g1, g2, g0, g3, g4, g5⟩ := searchLoop_ends f xs k xs.length 0 (xs.length - 1) (-1) w (by omega) (by omega) (by omega) (by omega)
  rw [if_neg h0] at g2
  have hne : xs ≠ [] := fun h => h0 (by rw [h]; rfl)
  have notBad : ∀ {a}, Apart a → ¬ Bad a := by
    rintro a (rfl | rfl) (h | h) <;> cases h
  unfold placeOf
  rw [if_neg h0, Cpp.bind_apply, indexOfInternal_def]
  have hset : ∀ (o : Int), (∃ n : Nat, o = n ∧ Near xs k calls n) → (∀ c ∈ calls, ¬ Bad c.2.2) →
      ∃ calls' w'' r, Place f xs k w calls' w'' r ∧
        ((do
          Cpp.check (o ≥ 0 ∧ o < xs.length)
          match SortedSeq.read xs o with
          | none => Cpp.faulting
          | some x => before f x k o : Cpp W Int) w') = match r with
          | some i => .ok (i : Int) w''
          | none => .err w'' := by
    rintro o ⟨n, rfl, near⟩ hq
    have hn : n < xs.length := by
      obtain ⟨x, hx, _⟩ := near
      exact (List.getElem?_eq_some_iff.1 hx).1
    have ho : (n : Int) ≥ 0 ∧ (n : Int) < xs.length := by omega
    have hx' : xs[n]? = some xs[n] := by simp [hn]
    have hr : SortedSeq.read xs (n : Int) = some xs[n] := by
      rw [SortedSeq.read, if_pos (by omega)]; simp [hn]
    have hx : xs[n] ∈ xs := List.getElem_mem hn
    rw [Cpp.bind_apply, Cpp.check_true ho, hr]
    simp only [before]
    generalize xs[n] = x at *
    cases e : f w' x k with
    | mk r w1 =>
      have hp : ∀ q, (match q with
          | some i => i ≤ xs.length ∧ (xs ≠ [] → ∃ o y a search, calls ++ [(x, k, r)] = search ++ [(y, k, a)] ∧ xs[o]? = some y ∧ a ≠ .threw ∧
              i = (if a = .ord .lt then o + 1 else o) ∧ Near xs k search o)
          | .none => ∃ c, (calls ++ [(x, k, r)]).getLast? = some c ∧ Bad c.2.2) → Place f xs k w (calls ++ [(x, k, r)]) w1 q := by
        intro q h
        refine ⟨Spec.compares_snoc g1 e, by simp; omega, fun h => absurd h hne, ?_, ?_, h⟩
        · intro c hc
          rcases List.mem_append.1 hc with hc | hc
          · exact g3 c hc
          · rw [List.mem_singleton.1 hc]; exact ⟨hx, rfl⟩
        · rw [List.dropLast_concat]; exact hq
      have ok : ∀ {i : Nat}, i ≤ xs.length → r ≠ .threw → i = (if r = .ord .lt then n + 1 else n) → Place f xs k w (calls ++ [(x, k, r)]) w1 (some i) :=
        fun hi hr h => hp _ ⟨hi, fun _ => ⟨n, x, r, calls, rfl, hx', hr, h, near⟩⟩
      cases r with
      | threw => exact ⟨_, _, .none, hp _ ⟨_, List.getLast?_concat, .inl rfl⟩, rfl⟩
      | unordered => exact ⟨_, _, some n, ok (by omega) nofun rfl, rfl⟩
      | ord r =>
        cases r with
        | lt => exact ⟨_, _, some (n + 1), ok (by omega) nofun rfl, rfl⟩
        | eq => exact ⟨_, _, some n, ok (by omega) nofun rfl, rfl⟩
        | gt => exact ⟨_, _, some n, ok (by omega) nofun rfl, rfl⟩
  have all : ∀ {a : α × κ × Answer}, calls.getLast? = some a → ¬ Bad a.2.2 → ∀ c ∈ calls, ¬ Bad c.2.2 := by
    intro a ha hb c hc
    obtain ⟨t, rfl⟩ := List.getLast?_eq_some_iff.1 ha
    rw [List.dropLast_concat] at g4
    rcases List.mem_append.1 hc with hc | hc
    · exact notBad (g4 c hc)
    · rw [List.mem_singleton.1 hc]; exact hb
  generalize searchLoop f xs k 0 ((xs.length : Int) - 1) (-1) w = o at g5
  cases g5 with
  | found i x h hc =>
    have hi : i < xs.length := (List.getElem?_eq_some_iff.1 h).1
    exact hset i ⟨i, rfl, x, h, .inl hc⟩ (all hc (by rintro (h | h) <;> cases h))
  | absent o s hs ho hc =>
    obtain ⟨m, rfl, hm⟩ := hs.cut
    refine hset o ?_ fun c h => notBad (hc c h)
    rcases ho with ⟨e, _⟩ | ⟨n, x, e, hx, hl⟩
    · exact absurd (g0 e) h0
    · refine ⟨n, e, x, hx, ?_⟩
      rcases hl with ⟨hl, e2⟩ | ⟨hl, e2⟩
      · obtain rfl : m = n + 1 := by omega
        exact .inr (.inl ⟨hl, hm⟩)
      · obtain rfl : m = n := by omega
        exact .inr (.inr ⟨hl, hm⟩)
  | failed c hc hb =>
    refine ⟨calls, w', none, ⟨g1, by omega, fun h => absurd h hne, g3, fun c hc => notBad (g4 c hc), c, hc, hb⟩, rfl⟩

theorem findLoop_scan (g : W → α → κ → Option Bool × W) (k : κ) : ∀ (xs : List α) (i : Nat) (w : W),
    ∃ w' r, Scan g k w xs i w' r ∧ findLoop g k (i : Int) xs w = (match r with
      | .found j => .ok (j : Int) w'
      | .absent => .ok (-1) w'
      | .failed => .err w') ∧ ∀ j, r = .found j → i ≤ j ∧ j < i + xs.length := by
  intro xs
  induction xs with
  | nil => intro i w; exact ⟨w, .absent, ⟨rfl, rfl⟩, rfl, by rintro j ⟨⟩⟩
  | cons x xs ih =>
    intro i w
    simp only [findLoop]
    cases e : g w x k with
    | mk b w1 =>
      cases b with
      | none => exact ⟨w1, .failed, ⟨_, _, e, rfl, rfl⟩, rfl, by rintro j ⟨⟩⟩
      | some b =>
        cases b with
        | true => exact ⟨w1, .found i, ⟨_, _, e, rfl, rfl⟩, rfl, by rintro j ⟨⟩; simp⟩
        | false =>
          obtain ⟨w', r, h1, h2, h3⟩ := ih (i + 1) w1
          refine ⟨w', r, ⟨_, _, e, h1⟩, ?_, ?_⟩
          · rw [show ((i : Int) + 1) = ((i + 1 : Nat) : Int) by omega]; exact h2
          · intro j hj
            have := h3 j hj
            simp only [List.length_cons]; omega

end Vlpp.CmpEff
