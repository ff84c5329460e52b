import Verif.Lemmas.UtfBits
import Verif.Spec.Utf

/-! What readers and consumers yield, as traces. -/

set_option autoImplicit false
namespace Vlpp
namespace Utf
open Spec

/-- what every conversion satisfies -/
structure Conv.Ok (C : Conv) : Prop where
  buffer : 1 ≤ C.bufferLength
  take : ∀ xs, C.to32 (xs.take C.bufferLength) = C.to32 xs
  bound : ∀ xs d k, C.to32 xs = some (d, k) → 1 ≤ k ∧ k ≤ xs.length ∧ k ≤ C.bufferLength
  here : ∀ xs d k rest, C.to32 xs = some (d, k) → C.to32 (xs.take k ++ rest) = some (d, k)
  units : ∀ c us, C.from32 c = some us → us ≠ []

theorem wchar_ok : wchar.Ok where
  buffer := by decide
  take xs := by cases xs <;> rfl
  bound xs d k h := by
    cases xs with
    | nil => cases h
    | cons x xs => simp [wchar] at h ⊢; omega
  here xs d k rest h := by
    cases xs with
    | nil => cases h
    | cons x xs =>
      simp only [wchar, Option.some.injEq, Prod.mk.injEq] at h ⊢
      obtain ⟨rfl, rfl⟩ := h
      rfl
  units c us h := by cases h; simp

/-- number of units announced by the first one -/
def len8 (c0 : Nat) : Nat :=
  if c0 < 128 then 1 else if c0 < 224 then 2 else if c0 < 240 then 3 else if c0 < 248 then 4 else if c0 < 252 then 5 else 6

theorem to32_8_len {c0 : Nat} {cs : List Nat} {d k : Nat} (h : to32_8 (c0 :: cs) = some (d, k)) :
    k = len8 c0 ∧ k ≤ cs.length + 1 := by
  rw [to32_8_eq] at h
  unfold len8
  split at h
  · rw [if_pos (by assumption)]; simp at h; omega
  rw [if_neg (by assumption)]
  split at h
  · rw [if_pos (by assumption)]
    split at h
    · simp at h ⊢; omega
    · cases h
  rw [if_neg (by assumption)]
  split at h
  · rw [if_pos (by assumption)]
    split at h
    · simp at h ⊢; omega
    · cases h
  rw [if_neg (by assumption)]
  split at h
  · rw [if_pos (by assumption)]
    split at h
    · simp at h ⊢; omega
    · cases h
  rw [if_neg (by assumption)]
  split at h
  · rw [if_pos (by assumption)]
    split at h
    · simp at h ⊢; omega
    · cases h
  rw [if_neg (by assumption)]
  split at h
  · simp at h ⊢; omega
  · cases h

theorem to32_8_isSome {c0 : Nat} {cs : List Nat} (h : len8 c0 ≤ cs.length + 1) : ∃ d, to32_8 (c0 :: cs) = some (d, len8 c0) := by
  rw [to32_8_eq]
  revert h
  unfold len8
  split
  · exact fun _ => ⟨_, rfl⟩
  split
  · intro h
    match cs, h with
    | _ :: _, _ => exact ⟨_, rfl⟩
  split
  · intro h
    match cs, h with
    | _ :: _ :: _, _ => exact ⟨_, rfl⟩
    | [_], h => simp at h
    | [], h => simp at h
  split
  · intro h
    match cs, h with
    | _ :: _ :: _ :: _, _ => exact ⟨_, rfl⟩
    | [_, _], h => simp at h
    | [_], h => simp at h
    | [], h => simp at h
  split
  · intro h
    match cs, h with
    | _ :: _ :: _ :: _ :: _, _ => exact ⟨_, rfl⟩
    | [_, _, _], h => simp at h
    | [_, _], h => simp at h
    | [_], h => simp at h
    | [], h => simp at h
  · intro h
    match cs, h with
    | _ :: _ :: _ :: _ :: _ :: _, _ => exact ⟨_, rfl⟩
    | [_, _, _, _], h => simp at h
    | [_, _, _], h => simp at h
    | [_, _], h => simp at h
    | [_], h => simp at h
    | [], h => simp at h

/-- the units after the announced ones do not matter -/
theorem to32_8_here {c0 : Nat} {cs : List Nat} {d k : Nat} (rest : List Nat) (h : to32_8 (c0 :: cs) = some (d, k)) :
    to32_8 ((c0 :: cs).take k ++ rest) = some (d, k) := by
  rw [to32_8_eq] at h
  split at h
  · cases h; simp only [List.take, List.cons_append]; rw [to32_8_eq]; rw [if_pos (by assumption)]
  split at h
  · split at h
    · cases h; simp only [List.take, List.cons_append]; rw [to32_8_eq]
      rw [if_neg (by assumption), if_pos (by assumption)]
    · cases h
  split at h
  · split at h
    · cases h; simp only [List.take, List.cons_append]; rw [to32_8_eq]
      rw [if_neg (by assumption), if_neg (by assumption), if_pos (by assumption)]
    · cases h
  split at h
  · split at h
    · cases h; simp only [List.take, List.cons_append]; rw [to32_8_eq]
      rw [if_neg (by assumption), if_neg (by assumption), if_neg (by assumption), if_pos (by assumption)]
    · cases h
  split at h
  · split at h
    · cases h; simp only [List.take, List.cons_append]; rw [to32_8_eq]
      rw [if_neg (by assumption), if_neg (by assumption), if_neg (by assumption), if_neg (by assumption),
        if_pos (by assumption)]
    · cases h
  split at h
  · cases h; simp only [List.take, List.cons_append]; rw [to32_8_eq]
    rw [if_neg (by assumption), if_neg (by assumption), if_neg (by assumption), if_neg (by assumption),
      if_neg (by assumption)]
  · cases h

theorem len8_bounds (c : Nat) : 1 ≤ len8 c ∧ len8 c ≤ 6 := by
  unfold len8; repeat' split
  all_goals omega

theorem utf8_ok : utf8.Ok where
  buffer := by decide
  take xs := by
    match xs with
    | [] | [_] | [_, _] | [_, _, _] | [_, _, _, _] | [_, _, _, _, _] => rfl
    | _ :: _ :: _ :: _ :: _ :: _ :: _ => rfl
  bound xs d k h := by
    cases xs with
    | nil => cases h
    | cons x xs =>
      have h1 := to32_8_len h
      have h2 := len8_bounds x
      simp only [List.length_cons, utf8]
      omega
  here xs d k rest h := by
    cases xs with
    | nil => cases h
    | cons x xs => exact to32_8_here rest h
  units c us h := by
    have h : from32_8 c = some us := h
    rw [from32_8_eq] at h
    rintro rfl
    repeat' split at h
    all_goals simp at h

theorem to32_16_bound {xs : List Nat} {d k : Nat} (h : to32_16 xs = some (d, k)) : 1 ≤ k ∧ k ≤ xs.length ∧ k ≤ 2 := by
  rw [to32_16.eq_def] at h
  cases xs with
  | nil => cases h
  | cons x xs =>
    simp only [] at h
    split at h
    · cases xs with
      | nil => cases h
      | cons y xs =>
        simp only [] at h
        split at h
        · split at h
          · cases h
          · simp at h ⊢; omega
        · cases h
    · split at h
      · cases h
      · simp at h ⊢; omega

theorem to32_16_here {xs : List Nat} {d k : Nat} (rest : List Nat) (h : to32_16 xs = some (d, k)) :
    to32_16 (xs.take k ++ rest) = some (d, k) := by
  cases xs with
  | nil => cases h
  | cons x xs =>
    rw [to32_16.eq_def] at h
    simp only [] at h
    split at h
    · cases xs with
      | nil => cases h
      | cons y xs =>
        simp only [] at h
        split at h
        · split at h
          · cases h
          · cases h
            simp only [List.take, List.cons_append]
            rw [to32_16.eq_def]
            simp only []
            rw [if_pos (by assumption), if_pos (by assumption), if_neg (by assumption)]
        · cases h
    · split at h
      · cases h
      · cases h
        simp only [List.take, List.cons_append]
        rw [to32_16.eq_def]
        simp only []
        rw [if_neg (by assumption), if_neg (by assumption)]

theorem to32_16_take (xs : List Nat) : to32_16 (xs.take 2) = to32_16 xs := by
  match xs with
  | [] | [_] => rfl
  | _ :: _ :: _ => rfl

theorem from32_16_units {c : Nat} {us : List Nat} (h : from32_16 c = some us) : us ≠ [] := by
  rw [from32_16_eq] at h
  rintro rfl
  repeat' split at h
  all_goals simp at h

theorem utf16_ok : utf16.Ok where
  buffer := by decide
  take := to32_16_take
  bound _ _ _ := to32_16_bound
  here _ _ _ := to32_16_here
  units _ _ := from32_16_units

theorem utf16be_to32 (xs : List Nat) : utf16be.to32 xs = to32_16 (xs.map swapByte) := by
  show to32_16 ((xs.take 2).map swapByte) = _
  rw [List.map_take, to32_16_take]

theorem utf16be_ok : utf16be.Ok where
  buffer := by decide
  take xs := by
    show to32_16 _ = to32_16 _
    rw [List.take_take]; rfl
  bound xs d k h := by
    rw [utf16be_to32] at h
    have := to32_16_bound h
    rw [List.length_map] at this
    exact this
  here xs d k rest h := by
    rw [utf16be_to32] at h ⊢
    rw [List.map_append, List.map_take]
    exact to32_16_here _ h
  units c us h := by
    simp only [utf16be, Option.map_eq_some_iff] at h
    obtain ⟨vs, h1, rfl⟩ := h
    have := from32_16_units h1
    simpa using this

/-! ## Traces -/

/-- the next value is zero -/
def Stops (R : Source) (s : R.σ) : Prop := ∃ s', R.consume s = some (0, s')

theorem ended_stops {R : Source} {s : R.σ} : Ended R s → Stops R s
  | ⟨_, h0, h1⟩ => let ⟨s', h2, _⟩ := h1 s h0; ⟨s', h2⟩

theorem ended_step {R : Source} {s : R.σ} : Ended R s → ∃ s', R.consume s = some (0, s') ∧ Ended R s'
  | ⟨E, h0, h1⟩ => let ⟨s', h2, h3⟩ := h1 s h0; ⟨s', h2, E, h3, h1⟩

theorem _root_.Vlpp.Spec.Yields.mono {ω : Type} {R : Source} {obs : R.σ → ω} {E F : R.σ → Prop} (hEF : ∀ s, E s → F s) :
    ∀ {tr : List (Nat × ω)} {s : R.σ}, Yields R obs E s tr → Yields R obs F s tr
  | [], _, h => hEF _ h
  | (_, _) :: _, _, ⟨h1, s', h2, h3, h4⟩ => ⟨h1, s', h2, h3, h4.mono hEF⟩

theorem _root_.Vlpp.Spec.Yields.nonzero {ω : Type} {R : Source} {obs : R.σ → ω} {E : R.σ → Prop} :
    ∀ {tr : List (Nat × ω)} {s : R.σ}, Yields R obs E s tr → ∀ x ∈ tr.map Prod.fst, x ≠ 0
  | [], _, _ => by simp
  | (x, _) :: _, _, ⟨h1, s', h2, h3, h4⟩ => by
    intro y hy
    rw [List.map_cons, List.mem_cons] at hy
    rcases hy with rfl | hy
    · exact h1
    · exact h4.nonzero y hy

/-- the trivial observation -/
def noObs {σ : Type} (_ : σ) : Unit := ()

theorem string_consume {x : Nat} (h : x ≠ 0) (mem : List Nat) : stringConsumer.consume (x :: mem) = some (x, mem) :=
  if_pos h

/-- a zero terminated text in memory -/
theorem feeds_string (junk : List Nat) : ∀ (xs : List Nat), (∀ x ∈ xs, x ≠ 0) →
    Yields stringConsumer noObs (Ended stringConsumer) (xs ++ 0 :: junk) (xs.map (·, ()))
  | [], _ => ⟨fun mem => mem = 0 :: junk, rfl, fun s hs => ⟨s, by subst hs; rfl, hs⟩⟩
  | x :: xs, h => by
    refine ⟨h x (by simp), xs ++ 0 :: junk, ?_, rfl, feeds_string junk xs fun y hy => h y (by simp [hy])⟩
    exact string_consume (h x (by simp)) _

/-- a range of units without zero -/
theorem feeds_range : ∀ (xs : List Nat), (∀ x ∈ xs, x ≠ 0) →
    Yields rangeConsumer noObs (Ended rangeConsumer) xs (xs.map (·, ()))
  | [], _ => ⟨fun mem => mem = [], rfl, fun s hs => ⟨s, by subst hs; rfl, hs⟩⟩
  | x :: xs, h => ⟨h x (by simp), xs, rfl, rfl, feeds_range xs fun y hy => h y (by simp [hy])⟩

/-! ## The loops -/

theorem countLoop_feeds {ω : Type} {R : Source} {obs : R.σ → ω} : ∀ {tr : List (Nat × ω)} {s : R.σ} (n : Nat),
    Yields R obs (Stops R) s tr → countLoop R s n = some (n + tr.length)
  | [], s, n, ⟨s', h⟩ => by
    rw [countLoop.eq_def, h]
    rfl
  | (x, o) :: tr, s, n, ⟨h1, s', h2, h3, h4⟩ => by
    rw [countLoop.eq_def, h2]
    simp only [h1, ne_eq, not_false_eq_true, if_true]
    rw [countLoop_feeds (n + 1) h4, List.length_cons]
    congr 1; omega

theorem set_mid (a : List Nat) (x y : Nat) (b : List Nat) : (a ++ x :: b).set a.length y = (a ++ [y]) ++ b := by
  simp

/-- the second pass, with any number of units allowed -/
theorem writeLoop_feeds {ω : Type} {R : Source} {obs : R.σ → ω} : ∀ {tr : List (Nat × ω)} {s : R.σ} (chars : Nat)
    (a b : List Nat), Yields R obs (Stops R) s tr → chars ≤ b.length →
    writeLoop R chars s a.length (a ++ b) = some (a.length + min chars (tr.length + 1),
      a ++ ((tr.map Prod.fst ++ [0]).take chars ++ b.drop (min chars (tr.length + 1))))
  | _, s, 0, a, b, _, _ => by simp [writeLoop]
  | tr, s, chars + 1, a, [], _, hb => by simp at hb
  | [], s, chars + 1, a, y :: b, ⟨s', h⟩, hb => by
    rw [writeLoop, h]
    simp only [List.length_append, List.length_cons, ne_eq, not_true_eq_false, if_false]
    rw [if_pos (by omega), set_mid]
    have : min (chars + 1) (0 + 1) = 1 := by omega
    simp [this]
  | (x, o) :: tr, s, chars + 1, a, y :: b, ⟨h1, s', h2, h3, h4⟩, hb => by
    rw [writeLoop, h2]
    simp only [List.length_append, List.length_cons, ne_eq, h1, not_false_eq_true, if_true]
    rw [if_pos (by omega), set_mid]
    have ih := writeLoop_feeds chars (a ++ [x]) b h4 (by simp at hb; omega)
    rw [List.length_append, List.length_singleton] at ih
    rw [ih]
    have e : min (chars + 1) (tr.length + 1 + 1) = min chars (tr.length + 1) + 1 := by omega
    rw [e]
    simp
    omega

theorem convertDirect_feeds {ω : Type} {R : Source} {obs : R.σ → ω} {tr : List (Nat × ω)} {s : R.σ}
    (h : Yields R obs (Stops R) s tr) : convertDirect R s = some (tr.map Prod.fst) := by
  have h1 := countLoop_feeds 0 h
  have h2 := writeLoop_feeds (tr.length + 1) [] (List.replicate (tr.length + 1) 0) h (by simp)
  simp only [List.length_nil, List.nil_append, Nat.zero_add, Nat.min_self] at h1 h2
  unfold convertDirect measure write
  rw [h1]
  simp only [Option.map_some]
  rw [if_neg (by omega), h2]
  have e : List.take (tr.length + 1) (tr.map Prod.fst ++ [0]) = tr.map Prod.fst ++ [0] :=
    List.take_of_length_le (by simp)
  rw [e]
  simp

/-! ## Decoding -/

/-- `Decodes C xs ds rest`: the code points `ds`, with the number of units they take, are decoded from `xs` and `rest`
is left. -/
inductive Decodes (C : Conv) : List Nat → List (Nat × Nat) → List Nat → Prop
  | nil (xs : List Nat) : Decodes C xs [] xs
  | cons {xs rest : List Nat} {d k : Nat} {ds : List (Nat × Nat)} : C.to32 xs = some (d, k) → d ≠ 0 →
    Decodes C (xs.drop k) ds rest → Decodes C xs ((d, k) :: ds) rest

/-- nothing more is decoded -/
def Stuck (C : Conv) (xs : List Nat) : Prop := xs = [] ∨ C.to32 xs = none ∨ ∃ k, C.to32 xs = some (0, k)

theorem decodes_exists {C : Conv} (hC : C.Ok) (xs : List Nat) : ∃ ds rest, Decodes C xs ds rest ∧ Stuck C rest := by
  generalize hn : xs.length = n
  induction n using Nat.strongRecOn generalizing xs with
  | ind n ih =>
    rcases h : C.to32 xs with _ | ⟨d, k⟩
    · exact ⟨[], xs, .nil xs, .inr (.inl h)⟩
    · rcases Nat.eq_zero_or_pos d with rfl | hd
      · exact ⟨[], xs, .nil xs, .inr (.inr ⟨k, h⟩)⟩
      · have hk := hC.bound xs d k h
        obtain ⟨ds, rest, h1, h2⟩ := ih (xs.drop k).length (by rw [List.length_drop]; omega) (xs.drop k) rfl
        exact ⟨(d, k) :: ds, rest, .cons h (by omega) h1, h2⟩

/-- the observations of a decoding reader -/
def clusters : Int → Int → List (Nat × Nat) → List (Nat × (Cluster × Int))
  | _, _, [] => []
  | idx, cnt, (d, k) :: ds => (d, (⟨idx, k⟩, cnt)) :: clusters (idx + k) (cnt + 1) ds

theorem clusters_fst : ∀ (idx cnt : Int) (ds : List (Nat × Nat)), (clusters idx cnt ds).map Prod.fst = ds.map Prod.fst
  | _, _, [] => rfl
  | idx, cnt, (d, k) :: ds => by
    rw [clusters, List.map_cons, List.map_cons, clusters_fst]

theorem fill_feeds {ω : Type} {S : Source} {obs : S.σ → ω} : ∀ (n : Nat) {tr : List (Nat × ω)} {s : S.σ} (b : List Nat),
    Yields S obs (Ended S) s tr →
    ∃ s', fill S n s b = some (b ++ (tr.map Prod.fst).take n, s') ∧ Yields S obs (Ended S) s' (tr.drop n)
  | 0, tr, s, b, h => ⟨s, by simp [fill], h⟩
  | n + 1, [], s, b, h => by
    obtain ⟨s', h1, h2⟩ := ended_step h
    exact ⟨s', by simp [fill, h1], h2⟩
  | n + 1, (x, o) :: tr, s, b, ⟨h1, s', h2, h3, h4⟩ => by
    obtain ⟨s'', h5, h6⟩ := fill_feeds n (b ++ [x]) h4
    exact ⟨s'', by simp [fill, h2, h1, h5], h6⟩

/-- what the decoding reader has still to decode -/
structure At {ω : Type} (C : Conv) (S : Source) (obs : S.σ → ω) (st : To32State S.σ) (xs : List Nat) (idx cnt : Int) : Prop where
  text : ∃ b tr, st.buffer = some b ∧ b.length ≤ C.bufferLength ∧ Yields S obs (Ended S) st.src tr ∧ xs = b ++ tr.map Prod.fst
  index : st.sourceCluster.index + st.sourceCluster.size = idx
  counter : st.readCounter + 1 = cnt

/-- the observation of a decoding reader -/
def obs32 {σ : Type} (st : To32State σ) : Cluster × Int := (st.sourceCluster, st.readCounter)

theorem At.read {ω : Type} {C : Conv} {S : Source} {obs : S.σ → ω} {st : To32State S.σ} {xs : List Nat} {idx cnt : Int}
    (hC : C.Ok) (h : At C S obs st xs idx cnt) :
    (xs = [] → ∃ st', read32 C S st = some (0, st') ∧ st'.buffer = none ∧ obs32 st' = (⟨idx, 0⟩, cnt)) ∧
    (xs ≠ [] → C.to32 xs = none → ∃ st', read32 C S st = some (0, st') ∧ st'.buffer = none ∧ obs32 st' = obs32 st) ∧
    (∀ d k, C.to32 xs = some (d, k) → ∃ st', read32 C S st = some (d, st') ∧ obs32 st' = (⟨idx, k⟩, cnt) ∧
      At C S obs st' (xs.drop k) (idx + k) (cnt + 1)) := by
  obtain ⟨⟨b, tr, hb, hl, hf, rfl⟩, rfl, rfl⟩ := h
  obtain ⟨s', h1, h2⟩ := fill_feeds (C.bufferLength - b.length) b hf
  have ht : b ++ (tr.map Prod.fst).take (C.bufferLength - b.length) = (b ++ tr.map Prod.fst).take C.bufferLength := by
    rw [List.take_append, List.take_of_length_le hl]
  rw [ht] at h1
  have hread : read32 C S st = if ((b ++ tr.map Prod.fst).take C.bufferLength).length = 0 then
      some (0, ⟨s', none, ⟨st.sourceCluster.index + st.sourceCluster.size, 0⟩, st.readCounter + 1⟩)
      else match C.to32 (b ++ tr.map Prod.fst) with
        | none => some (0, { st with src := s', buffer := none })
        | some (dest, result) => some (dest, ⟨s', some (((b ++ tr.map Prod.fst).take C.bufferLength).drop result),
            ⟨st.sourceCluster.index + st.sourceCluster.size, result⟩, st.readCounter + 1⟩) := by
    unfold read32
    rw [hb]
    simp only [h1, hC.take]
    rfl
  have hlen : ((b ++ tr.map Prod.fst).take C.bufferLength).length = 0 ↔ b ++ tr.map Prod.fst = [] := by
    have := hC.buffer
    rw [List.length_take, ← List.length_eq_zero_iff]; omega
  refine ⟨fun h => ?_, fun h hn => ?_, fun d k hk => ?_⟩
  · rw [hread, if_pos (hlen.2 h)]
    exact ⟨_, rfl, rfl, rfl⟩
  · rw [hread, if_neg (fun h' => h (hlen.1 h')), hn]
    exact ⟨_, rfl, rfl, rfl⟩
  · have hbd := hC.bound _ d k hk
    rw [hread, if_neg (fun h' => by rw [hlen] at h'; rw [h'] at hbd; simp at hbd; omega), hk]
    refine ⟨_, rfl, rfl, ⟨⟨_, _, rfl, ?_, h2, ?_⟩, rfl, rfl⟩⟩
    · rw [List.length_drop, List.length_take]; omega
    · show List.drop k _ = _
      have e : b ++ tr.map Prod.fst = (b ++ tr.map Prod.fst).take C.bufferLength ++ (b ++ tr.map Prod.fst).drop C.bufferLength :=
        (List.take_append_drop _ _).symm
      have e2 : (tr.drop (C.bufferLength - b.length)).map Prod.fst = (b ++ tr.map Prod.fst).drop C.bufferLength := by
        rw [List.map_drop, List.drop_append, List.drop_of_length_le hl, List.nil_append]
      rw [e2]
      have e3 : List.drop k ((b ++ tr.map Prod.fst).take C.bufferLength ++ (b ++ tr.map Prod.fst).drop C.bufferLength) =
          List.drop k ((b ++ tr.map Prod.fst).take C.bufferLength) ++ (b ++ tr.map Prod.fst).drop C.bufferLength := by
        rw [List.drop_append_of_le_length]
        rw [List.length_take]; omega
      rw [← e3, ← e]

/-- the decoding reader yields what is decoded from the text -/
theorem to32_feeds {ω : Type} {C : Conv} {S : Source} {obs : S.σ → ω} (hC : C.Ok) {xs rest : List Nat}
    {ds : List (Nat × Nat)} (hd : Decodes C xs ds rest) (hs : Stuck C rest) : ∀ {st : To32State S.σ} {idx cnt : Int},
    At C S obs st xs idx cnt → Yields (to32Reader C S) obs32 (Stops (to32Reader C S)) st (clusters idx cnt ds) := by
  induction hd with
  | nil xs =>
    intro st idx cnt h
    obtain ⟨r1, r2, r3⟩ := h.read hC
    rcases hs with hs | hs | ⟨k, hs⟩
    · obtain ⟨st', h1, _⟩ := r1 hs
      exact ⟨st', h1⟩
    · by_cases hx : xs = []
      · obtain ⟨st', h1, _⟩ := r1 hx
        exact ⟨st', h1⟩
      · obtain ⟨st', h1, _⟩ := r2 hx hs
        exact ⟨st', h1⟩
    · obtain ⟨st', h1, _⟩ := r3 _ _ hs
      exact ⟨st', h1⟩
  | cons hk hne _ ih =>
    intro st idx cnt h
    obtain ⟨r1, r2, r3⟩ := h.read hC
    obtain ⟨st', h1, h2, h3⟩ := r3 _ _ hk
    exact ⟨hne, st', h1, h2, ih hs h3⟩

theorem at_start {ω : Type} (C : Conv) {S : Source} {obs : S.σ → ω} {s : S.σ} {tr : List (Nat × ω)}
    (h : Yields S obs (Ended S) s tr) : At C S obs ({ src := s } : To32State S.σ) (tr.map Prod.fst) 0 0 :=
  ⟨⟨[], tr, rfl, Nat.zero_le _, h, rfl⟩, rfl, rfl⟩

/-! ## Encoding -/

/-- what an encoding reader yields: the units, its own cluster, its counter, and the observation of its source -/
def encT {ω : Type} (C : Conv) : Int → Int → List (Nat × ω) → List (Nat × (Cluster × Int × ω))
  | _, _, [] => []
  | idx, cnt, (c, o) :: tr =>
    match C.from32 c with
    | none => []
    | some us => us.zipIdx.map (fun (u, i) => (u, (⟨idx, 1⟩, cnt + i, o))) ++ encT C (idx + 1) (cnt + us.length) tr

def obsFrom {σ ω : Type} (obs : σ → ω) (st : From32State σ) : Cluster × Int × ω :=
  (st.sourceCluster, st.readCounter, obs st.src)

theorem readFrom_ended {C : Conv} {S : Source} {st : From32State S.σ} (h : st.pending = none) :
    readFrom C S st = some (0, st) := by
  unfold readFrom
  simp only [h]

theorem readFrom_stop {C : Conv} {S : Source} {s s' : S.σ} {cl : Cluster} {rc : Int} (h : S.consume s = some (0, s')) :
    readFrom C S ⟨s, some [], cl, rc⟩ = some (0, ⟨s', none, ⟨cl.index + cl.size, 0⟩, rc + 1⟩) := by
  unfold readFrom
  simp only [h]
  rfl

theorem readFrom_bad {C : Conv} {S : Source} {s s' : S.σ} {cl : Cluster} {rc : Int} {c : Nat}
    (h : S.consume s = some (c, s')) (hc : c ≠ 0) (hb : C.from32 c = none) :
    readFrom C S ⟨s, some [], cl, rc⟩ = some (0, ⟨s', none, cl, rc⟩) := by
  unfold readFrom
  simp only [h, hc, hb, ne_eq, not_false_eq_true, if_true]

theorem readFrom_next {C : Conv} {S : Source} {s s' : S.σ} {cl : Cluster} {rc : Int} {c u : Nat} {us : List Nat}
    (h : S.consume s = some (c, s')) (hc : c ≠ 0) (hb : C.from32 c = some (u :: us)) :
    readFrom C S ⟨s, some [], cl, rc⟩ = some (u, ⟨s', some us, ⟨cl.index + cl.size, 1⟩, rc + 1⟩) := by
  unfold readFrom
  simp only [h, hc, hb, ne_eq, not_false_eq_true, if_true]

theorem ended_from (C : Conv) {S : Source} {st : From32State S.σ} (h : st.pending = none) : Ended (from32Reader C S) st :=
  ⟨fun st => st.pending = none, h, fun st h => ⟨st, readFrom_ended h, h⟩⟩

/-- units that are still in the buffer -/
theorem feeds_pending {ω : Type} {C : Conv} {S : Source} {obs : S.σ → ω} {E : From32State S.σ → Prop}
    {tail : List (Nat × (Cluster × Int × ω))} {s : S.σ} {cl : Cluster} : ∀ (us : List Nat) (rc : Int) (off : Nat), (∀ u ∈ us, u ≠ 0) →
    Yields (from32Reader C S) (obsFrom obs) E ⟨s, some [], cl, rc + off + us.length⟩ tail →
    Yields (from32Reader C S) (obsFrom obs) E ⟨s, some us, cl, rc + off⟩
      ((us.zipIdx (off + 1)).map (fun (u, i) => (u, (cl, rc + i, obs s))) ++ tail)
  | [], rc, off, _, h => by simpa using h
  | u :: us, rc, off, hu, h => by
    refine ⟨hu u (by simp), ⟨s, some us, cl, rc + off + 1⟩, rfl, ?_, ?_⟩
    · simp only [obsFrom]
      rw [show rc + (off : Int) + 1 = rc + ((off + 1 : Nat) : Int) by omega]
    · have := feeds_pending (E := E) (tail := tail) us rc (off + 1) (fun v hv => hu v (by simp [hv])) (by
        have e : rc + off + ((u :: us).length : Nat) = rc + ((off + 1 : Nat) : Int) + (us.length : Nat) := by
          rw [List.length_cons]; push_cast; omega
        rw [← e]; exact h)
      have e : rc + ((off + 1 : Nat) : Int) = rc + off + 1 := by omega
      rw [e] at this
      exact this

theorem from32_feeds {ω : Type} {C : Conv} {S : Source} {obs : S.σ → ω} (hC : C.Ok)
    (hz : ∀ c us, c ≠ 0 → C.from32 c = some us → ∀ u ∈ us, u ≠ 0) : ∀ {tr : List (Nat × ω)} {s : S.σ} {cl : Cluster}
    {rc : Int}, Yields S obs (Stops S) s tr →
    Yields (from32Reader C S) (obsFrom obs) (Stops (from32Reader C S)) ⟨s, some [], cl, rc⟩
      (encT C (cl.index + cl.size) (rc + 1) tr)
  | [], s, cl, rc, ⟨s', h⟩ =>
    ⟨_, readFrom_stop h⟩
  | (c, o) :: tr, s, cl, rc, ⟨h1, s', h2, h3, h4⟩ => by
    rw [encT]
    rcases hus : C.from32 c with _ | us
    · exact ⟨_, readFrom_bad h2 h1 hus⟩
    · cases us with
      | nil => exact absurd rfl (hC.units c [] hus)
      | cons u us =>
        have hnz := hz c _ h1 hus
        simp only [List.zipIdx_cons, List.map_cons, List.cons_append]
        refine ⟨hnz u (by simp), ⟨s', some us, ⟨cl.index + cl.size, 1⟩, rc + 1⟩, readFrom_next h2 h1 hus, ?_, ?_⟩
        · simp only [obsFrom, h3]; simp
        · have ih := from32_feeds hC hz (cl := ⟨cl.index + cl.size, 1⟩) (rc := rc + 1 + us.length) h4
          have := feeds_pending us (rc + 1) 0 (fun v hv => hnz v (by simp [hv])) (by simpa using ih)
          rw [h3] at this
          have e : rc + 1 + ((us.length : Int) + 1) = rc + 1 + us.length + 1 := by omega
          simpa [e] using this

theorem encT_fst {ω : Type} (C : Conv) : ∀ (idx cnt : Int) (tr : List (Nat × ω)),
    (∀ c ∈ tr.map Prod.fst, C.from32 c ≠ none) →
    (encT C idx cnt tr).map Prod.fst = (tr.map Prod.fst).flatMap fun c => (C.from32 c).getD []
  | _, _, [], _ => rfl
  | idx, cnt, (c, o) :: tr, h => by
    rw [encT]
    rcases hus : C.from32 c with _ | us
    · exact absurd hus (h c (by simp))
    · simp only [List.map_append, List.map_map, List.map_cons, List.flatMap_cons, hus, Option.getD_some]
      rw [encT_fst C _ _ tr fun d hd => h d (by simp [hd])]
      congr 1
      conv => rhs; rw [← List.zipIdx_map_fst 0 us]
      rfl

end Utf
end Vlpp
