import Verif.Props.UtfProps

/-!
# C33-C35: UTF readers
-/
set_option autoImplicit false
namespace Vlpp
namespace Utf
open Spec

/-- The conversions of Conversion.h. -/
abbrev convs : List Conv := [utf8, utf16, utf16be, wchar]

theorem convs_ok {A : Conv} (h : A ∈ convs) : A.Ok := by
  simp only [List.mem_cons, List.not_mem_nil, or_false] at h
  rcases h with rfl | rfl | rfl | rfl
  · exact utf8_ok
  · exact utf16_ok
  · exact utf16be_ok
  · exact wchar_ok

theorem convs_nz {A : Conv} (h : A ∈ convs) : ∀ c us, c ≠ 0 → A.from32 c = some us → ∀ u ∈ us, u ≠ 0 := by
  simp only [List.mem_cons, List.not_mem_nil, or_false] at h
  rcases h with rfl | rfl | rfl | rfl
  · exact utf8_nz
  · exact utf16_nz
  · exact utf16be_nz
  · exact wchar_nz

theorem split_zero : ∀ {mem : List Nat}, 0 ∈ mem → ∃ xs junk, mem = xs ++ 0 :: junk ∧ ∀ x ∈ xs, x ≠ 0
  | [], h => by simp at h
  | c :: mem, h => by
    by_cases hc : c = 0
    · exact ⟨[], mem, by rw [hc]; rfl, by simp⟩
    · have : 0 ∈ mem := by
        rcases List.mem_cons.1 h with h | h
        · exact absurd h.symm hc
        · exact h
      obtain ⟨xs, junk, rfl, h2⟩ := split_zero this
      exact ⟨c :: xs, junk, rfl, by simpa [hc] using h2⟩

/-! ## C33 -/

theorem exact_of_yields {ω : Type} {R : Source} {obs : R.σ → ω} {s : R.σ} {tr : List (Nat × ω)}
    (h : Yields R obs (Stops R) s tr) : ExactBuffer (measure R s) (write R s) := by
  refine ⟨tr.map Prod.fst, h.nonzero, ?_, fun d chars hd => ?_⟩
  · unfold measure
    rw [countLoop_feeds 0 h]
    simp
  · have := writeLoop_feeds chars [] d h hd
    simp only [List.nil_append, List.length_nil, Nat.zero_add] at this
    unfold write
    rw [this, List.length_map]

/-- **C33**.  For every zero terminated text in memory, valid or not, decoding to UTF-32 counts exactly the units it
writes, terminator included. -/
theorem C33_exact_decode {A : Conv} (hA : A ∈ convs) {mem : List Nat} (h0 : 0 ∈ mem) :
    ExactBuffer (measure (to32Reader A stringConsumer) (decoder A mem)) (write (to32Reader A stringConsumer) (decoder A mem)) := by
  obtain ⟨xs, junk, rfl, hx⟩ := split_zero h0
  obtain ⟨ds, rest, h1, h2⟩ := decodes_exists (convs_ok hA) xs
  exact exact_of_yields (toU32_decodes (convs_ok hA) hx h1 h2 junk)

/-- **C33**.  Encoding UTF-32. -/
theorem C33_exact_encode {B : Conv} (hB : B ∈ convs) {mem : List Nat} (h0 : 0 ∈ mem) :
    ExactBuffer (measure (from32Reader B stringConsumer) (encoder B mem)) (write (from32Reader B stringConsumer) (encoder B mem)) := by
  obtain ⟨xs, junk, rfl, hx⟩ := split_zero h0
  have h1 := (feeds_string junk xs hx).mono fun _ => ended_stops
  exact exact_of_yields (from32_feeds (convs_ok hB) (convs_nz hB) (cl := ⟨0, 0⟩) (rc := -1) h1)

/-- **C33**.  Converting between two encodings. -/
theorem C33_exact_transcode {A B : Conv} (hA : A ∈ convs) (hB : B ∈ convs) {mem : List Nat} (h0 : 0 ∈ mem) :
    ExactBuffer (measure (utfToUtfReader A B stringConsumer) (transcoder A B mem))
      (write (utfToUtfReader A B stringConsumer) (transcoder A B mem)) := by
  obtain ⟨xs, junk, rfl, hx⟩ := split_zero h0
  obtain ⟨ds, rest, h1, h2⟩ := decodes_exists (convs_ok hA) xs
  have h3 := toU32_decodes (convs_ok hA) hx h1 h2 junk
  exact exact_of_yields (from32_feeds (convs_ok hB) (convs_nz hB) (cl := ⟨0, 0⟩) (rc := -1) h3)

theorem readDirect_eq {S : Source} {st : DirectState S.σ} {c : Nat} {s' : S.σ} (h : S.consume st.src = some (c, s')) :
    readDirect S st = some (c, ⟨s', if c ≠ 0 ∨ st.ended = false then st.readCounter + 1 else st.readCounter, decide (c = 0)⟩) := by
  unfold readDirect
  rw [h]

/-- what the reader for UTF-32 to UTF-32 yields -/
theorem direct_yields {S : Source} : ∀ {xs : List Nat} {s : S.σ} {n : Int},
    Yields S noObs (Ended S) s (xs.map (·, ())) → 0 ≤ n →
    Yields (directReader S) (fun st : DirectState S.σ => (st.cluster, st.readCounter)) (Ended (directReader S))
      (⟨s, n - 1, false⟩ : DirectState S.σ) (units32 n xs)
  | [], s, n, ⟨E, h0, h1⟩, _ => by
    refine ⟨fun st : DirectState S.σ => E st.src, h0, fun st hst => ?_⟩
    obtain ⟨s', h2, h3⟩ := h1 st.src hst
    exact ⟨_, readDirect_eq h2, h3⟩
  | x :: xs, s, n, ⟨h1, s', h2, _, h4⟩, hn => by
    refine ⟨h1, (⟨s', n, false⟩ : DirectState S.σ), ?_, ?_, ?_⟩
    · refine (readDirect_eq h2).trans ?_
      simp only [h1, ne_eq, not_false_eq_true, true_or, if_true, decide_false]
      rw [show n - 1 + 1 = n by omega]
      rfl
    · simp only [DirectState.cluster]
      rw [if_neg (by omega)]
      rfl
    · have := direct_yields (n := n + 1) h4 (by omega)
      rw [show n + 1 - 1 = n by omega] at this
      exact this

/-- **C33**.  UTF-32 to UTF-32. -/
theorem C33_exact_direct {mem : List Nat} (h0 : 0 ∈ mem) :
    ExactBuffer (measure (directReader stringConsumer) (⟨mem, -1, false⟩ : DirectState (List Nat)))
      (write (directReader stringConsumer) (⟨mem, -1, false⟩ : DirectState (List Nat))) := by
  obtain ⟨xs, junk, rfl, hx⟩ := split_zero h0
  exact exact_of_yields ((direct_yields (n := 0) (feeds_string junk xs hx) (by omega)).mono fun _ => ended_stops)

example : ExactBuffer (measure (utfToUtfReader utf8 utf16 stringConsumer) (transcoder utf8 utf16 [0x41, 0xFF, 0xC3, 0, 9]))
    (write (utfToUtfReader utf8 utf16 stringConsumer) (transcoder utf8 utf16 [0x41, 0xFF, 0xC3, 0, 9])) :=
  C33_exact_transcode (by simp) (by simp) (by simp)

/-! ## C35 -/

/-- the clusters of a decoding reader -/
theorem partition_clusters {A : Conv} (hA : A.Ok) {xs rest : List Nat} {ds : List (Nat × Nat)} (h : Decodes A xs ds rest) :
    ∀ (i n : Int), Partition A.to32 xs i n (clusters i n ds) rest := by
  induction h with
  | nil xs => intro i n; exact rfl
  | @cons xs rest d k ds hk hd _ ih =>
    intro i n
    have hb := hA.bound xs d k hk
    have hl : (xs.take k).length = k := by rw [List.length_take]; omega
    have h1 := hA.here xs d k [] hk
    rw [List.append_nil] at h1
    refine ⟨xs.take k, xs.drop k, (List.take_append_drop k xs).symm, ?_, ?_, ?_, rfl, ?_⟩
    · intro h; rw [h] at hl; simp at hl; omega
    · rw [hl]; exact h1
    · rw [hl]
    · rw [hl]; exact ih _ _

theorem clusters_length : ∀ (i n : Int) (ds : List (Nat × Nat)), (clusters i n ds).length = ds.length
  | _, _, [] => rfl
  | i, n, (d, k) :: ds => by rw [clusters, List.length_cons, List.length_cons, clusters_length]

theorem read32_ended {C : Conv} {S : Source} {st : To32State S.σ} (h : st.buffer = none) : read32 C S st = some (0, st) := by
  unfold read32
  simp only [h]

/-- after an end or an error the decoding reader stays there -/
theorem ended_to32 {C : Conv} {S : Source} {st : To32State S.σ} (h : st.buffer = none) : Ended (to32Reader C S) st :=
  ⟨fun st => st.buffer = none, h, fun st h => ⟨st, read32_ended h, h⟩⟩

/-- How decoding `xs` ends, at a state `st` of the reader where `rest` is left and `n` code points have been read: at the
end of the text the next `Read` returns zero, the cluster is the empty one at the end of the text, and all further reads
return zero; on text that does not decode the next `Read` returns zero, cluster and counter stay, and all further reads
return zero; otherwise a code point zero is decoded. -/
def DecodingEnds (A : Conv) (S : Source) (xs rest : List Nat) (n : Nat) (st : (to32Reader A S).σ) : Prop :=
  (rest = [] ∧ ∃ st', (to32Reader A S).consume st = some (0, st') ∧ obs32 st' = (⟨xs.length, 0⟩, (n : Int)) ∧
    Ended (to32Reader A S) st') ∨
  (rest ≠ [] ∧ A.to32 rest = none ∧ ∃ st', (to32Reader A S).consume st = some (0, st') ∧ obs32 st' = obs32 st ∧
    Ended (to32Reader A S) st') ∨
  (∃ k st', A.to32 rest = some (0, k) ∧ (to32Reader A S).consume st = some (0, st'))

theorem reader_clusters {A : Conv} (hA : A.Ok) {S : Source} {total xs rest : List Nat} {ds : List (Nat × Nat)}
    (hd : Decodes A xs ds rest) (hs : Stuck A rest) : ∀ {st : To32State S.σ} {i : Nat} {n : Nat},
    At A S noObs st xs i n → total.length = i + xs.length →
    Yields (to32Reader A S) obs32 (DecodingEnds A S total rest (n + ds.length)) st (clusters i n ds) := by
  induction hd with
  | nil xs =>
    intro st i n h hi
    obtain ⟨r1, r2, r3⟩ := h.read hA
    by_cases hx : xs = []
    · obtain ⟨st', h1, h2, h3⟩ := r1 hx
      refine .inl ⟨hx, st', h1, ?_, ended_to32 h2⟩
      rw [h3, hi, hx]; simp
    · rcases hs with hs | hs | ⟨k, hs⟩
      · exact absurd hs hx
      · obtain ⟨st', h1, h2, h3⟩ := r2 hx hs
        exact .inr (.inl ⟨hx, hs, st', h1, h3, ended_to32 h2⟩)
      · obtain ⟨st', h1, _⟩ := r3 _ _ hs
        exact .inr (.inr ⟨k, st', hs, h1⟩)
  | @cons xs rest d k ds hk hne _ ih =>
    intro st i n h hi
    have hb := hA.bound xs d k hk
    obtain ⟨r1, r2, r3⟩ := h.read hA
    obtain ⟨st', h1, h2, h3⟩ := r3 _ _ hk
    refine ⟨hne, st', h1, h2, ?_⟩
    have h4 := ih hs (i := i + k) (n := n + 1) (st := st') (by push_cast; exact h3) (by rw [List.length_drop]; omega)
    rw [show n + 1 + ds.length = n + (ds.length + 1) by omega] at h4
    push_cast at h4
    exact h4

theorem clusters_of_source {A : Conv} (hA : A.Ok) {S : Source} {s : S.σ} {xs : List Nat}
    (h : Yields S noObs (Ended S) s (xs.map (·, ()))) :
    ∃ tr rest, Partition A.to32 xs 0 0 tr rest ∧
      Yields (to32Reader A S) obs32 (DecodingEnds A S xs rest tr.length) ({ src := s } : To32State S.σ) tr := by
  obtain ⟨ds, rest, h1, h2⟩ := decodes_exists hA xs
  have h3 := at_start A h
  rw [List.map_map, show (Prod.fst ∘ fun x : Nat => (x, ())) = id from rfl, List.map_id] at h3
  refine ⟨clusters 0 0 ds, rest, partition_clusters hA h1 0 0, ?_⟩
  rw [clusters_length]
  have := reader_clusters hA h1 h2 (total := xs) (i := 0) (n := 0) h3 (by simp)
  simpa using this

/-- **C35**.  Decoding a zero terminated text: the reported clusters cut the text into consecutive pieces, each piece
being the units of the code point returned with it; they cover the text up to its end or up to where it does not
decode. -/
theorem C35_clusters_string {A : Conv} (hA : A ∈ convs) {xs : List Nat} (hx : ∀ x ∈ xs, x ≠ 0) (junk : List Nat) :
    ∃ tr rest, Partition A.to32 xs 0 0 tr rest ∧ Yields (to32Reader A stringConsumer) obs32
      (DecodingEnds A stringConsumer xs rest tr.length) (decoder A (xs ++ 0 :: junk)) tr :=
  clusters_of_source (convs_ok hA) (feeds_string junk xs hx)

/-- **C35**, partial.  The same for a range of units that contains no zero.  Missing are ranges with zero units: see
`C35_zero_in_range_violated`. -/
theorem C35_clusters_range_partial {A : Conv} (hA : A ∈ convs) {xs : List Nat} (hx : ∀ x ∈ xs, x ≠ 0) :
    ∃ tr rest, Partition A.to32 xs 0 0 tr rest ∧ Yields (to32Reader A rangeConsumer) obs32
      (DecodingEnds A rangeConsumer xs rest tr.length) ({ src := xs } : To32State (List Nat)) tr :=
  clusters_of_source (convs_ok hA) (feeds_range xs hx)

/-- **C35** is violated for a range that contains a zero unit: in "A\0B" the second code point read is B, and its cluster
is reported to be the unit 1, but B is the unit 2. -/
theorem C35_zero_in_range_violated : ∃ st1 st2 : To32State (List Nat),
    (to32Reader utf8 rangeConsumer).consume ({ src := [0x41, 0, 0x42] } : To32State (List Nat)) = some (0x41, st1) ∧
    obs32 st1 = (⟨0, 1⟩, 0) ∧
    (to32Reader utf8 rangeConsumer).consume st1 = some (0x42, st2) ∧ obs32 st2 = (⟨1, 1⟩, 1) ∧
    [0x41, 0, 0x42][1]? ≠ some 0x42 :=
  ⟨⟨[0x42], some [], ⟨0, 1⟩, 0⟩, ⟨[], some [], ⟨1, 1⟩, 1⟩, rfl, rfl, rfl, rfl, by decide⟩

theorem Spec.Yields.mapObs {ω ω' : Type} {R : Source} {obs : R.σ → ω} {E : R.σ → Prop} (f : ω → ω') :
    ∀ {tr : List (Nat × ω)} {s : R.σ}, Yields R obs E s tr →
      Yields R (fun s => f (obs s)) E s (tr.map fun e => (e.1, f e.2))
  | [], _, h => h
  | (_, _) :: _, _, ⟨h1, s', h2, h3, h4⟩ => ⟨h1, s', h2, congrArg f h3, Spec.Yields.mapObs f h4⟩

theorem encT_expand (B : Conv) : ∀ (i n : Int) (tr : List (Nat × (Cluster × Int))),
    (encT B i n tr).map (fun e => (e.1, (e.2.2.2.1, e.2.2.1))) = expand B.from32 n tr
  | _, _, [] => rfl
  | i, n, (d, cl, k) :: tr => by
    rw [encT, expand]
    cases B.from32 d with
    | none => rfl
    | some us =>
      simp only [List.map_append, List.map_map]
      rw [encT_expand B]
      rfl

/-- **C35**.  Converting between two encodings: every unit comes with the cluster, in the source, of the code point that
it belongs to, and the units are counted. -/
theorem C35_clusters_transcode {A B : Conv} (hA : A ∈ convs) (hB : B ∈ convs) {xs : List Nat} (hx : ∀ x ∈ xs, x ≠ 0)
    (junk : List Nat) : ∃ tr rest, Partition A.to32 xs 0 0 tr rest ∧ (rest = [] ∨ A.to32 rest = none ∨ ∃ k, A.to32 rest = some (0, k)) ∧
      Yields (utfToUtfReader A B stringConsumer)
        (fun st : From32State (To32State (List Nat)) => (st.src.sourceCluster, st.readCounter))
        (Stops (utfToUtfReader A B stringConsumer)) (transcoder A B (xs ++ 0 :: junk)) (expand B.from32 0 tr) := by
  obtain ⟨ds, rest, h1, h2⟩ := decodes_exists (convs_ok hA) xs
  have h3 := toU32_decodes (convs_ok hA) hx h1 h2 junk
  have h4 := from32_feeds (convs_ok hB) (convs_nz hB) (cl := ⟨0, 0⟩) (rc := -1) h3
  have h5 := Spec.Yields.mapObs (fun o : Cluster × Int × (Cluster × Int) => (o.2.2.1, o.2.1)) h4
  refine ⟨clusters 0 0 ds, rest, partition_clusters (convs_ok hA) h1 0 0, h2, ?_⟩
  rw [encT_expand] at h5
  exact h5

theorem encT_expand' (B : Conv) : ∀ (i n : Int) (cs : List Nat),
    (encT B i n (cs.map (·, ()))).map (fun e => (e.1, (e.2.1, e.2.2.1))) = expand B.from32 n (units32 i cs)
  | _, _, [] => rfl
  | i, n, c :: cs => by
    rw [List.map_cons, encT, units32, expand]
    cases B.from32 c with
    | none => rfl
    | some us =>
      simp only [List.map_append, List.map_map]
      rw [encT_expand' B]
      rfl

/-- **C35**.  Encoding UTF-32: the cluster of a unit is the position of its code point. -/
theorem C35_clusters_encode {B : Conv} (hB : B ∈ convs) {cs : List Nat} (hx : ∀ x ∈ cs, x ≠ 0) (junk : List Nat) :
    Yields (from32Reader B stringConsumer) (fun st : From32State (List Nat) => (st.sourceCluster, st.readCounter))
      (Stops (from32Reader B stringConsumer)) (encoder B (cs ++ 0 :: junk)) (expand B.from32 0 (units32 0 cs)) := by
  have h1 := (feeds_string junk cs hx).mono fun _ => ended_stops
  have h4 := from32_feeds (convs_ok hB) (convs_nz hB) (cl := ⟨0, 0⟩) (rc := -1) h1
  have h5 := Spec.Yields.mapObs (fun o : Cluster × Int × Unit => (o.1, o.2.1)) h4
  rw [encT_expand'] at h5
  exact h5

/-- **C35**.  UTF-32 to UTF-32. -/
theorem C35_clusters_direct {cs : List Nat} (hx : ∀ x ∈ cs, x ≠ 0) (junk : List Nat) :
    Yields (directReader stringConsumer) (fun st : DirectState (List Nat) => (st.cluster, st.readCounter))
      (Ended (directReader stringConsumer)) (⟨cs ++ 0 :: junk, -1, false⟩ : DirectState (List Nat)) (units32 0 cs) :=
  direct_yields (n := 0) (feeds_string junk cs hx) (by omega)

/-- A text for which everything can be seen: "A", the euro sign, and a cut off sequence. -/
example : Partition utf8.to32 [0x41, 0xE2, 0x82, 0xAC, 0xC3] 0 0 [(0x41, ⟨0, 1⟩, 0), (0x20AC, ⟨1, 3⟩, 1)] [0xC3] :=
  ⟨[0x41], _, rfl, by simp, by decide, rfl, rfl, [0xE2, 0x82, 0xAC], _, rfl, by simp, by decide, rfl, rfl, rfl⟩

/-! ## C34 -/

/-- **C34**, UTF-16.  Decoding stops exactly at text that does not begin with a UTF-16 form. -/
theorem C34_utf16 {xs : List Nat} (hx : ∀ x ∈ xs, x < 65536) :
    utf16.to32 xs = none ↔ ¬∃ us rest c, xs = us ++ rest ∧ Utf16Char us c := by
  constructor
  · rintro h ⟨us, rest, c, rfl, hu⟩
    have := to32_16_append hu rest
    rw [show utf16.to32 _ = to32_16 _ from rfl, this] at h
    cases h
  · intro h
    rcases hd : utf16.to32 xs with _ | ⟨d, k⟩
    · rfl
    · exact absurd ⟨xs.take k, xs.drop k, d, (List.take_append_drop k xs).symm, ((C30_utf16_decode hx d k).1 hd).2⟩ h

theorem utf16Text_decodes {xs rest : List Nat} {ds : List (Nat × Nat)} (h : Decodes utf16 xs ds rest) :
    (∀ x ∈ xs, x < 65536) → ∃ pre, xs = pre ++ rest ∧ Utf16Text pre (ds.map Prod.fst) := by
  induction h with
  | nil xs => intro _; exact ⟨[], rfl, .nil⟩
  | @cons xs rest d k ds hk hd _ ih =>
    intro hx
    obtain ⟨pre, h1, h2⟩ := ih fun x hx' => hx x (List.mem_of_mem_drop hx')
    refine ⟨xs.take k ++ pre, ?_, .cons ((C30_utf16_decode hx d k).1 hk).2 h2⟩
    rw [List.append_assoc, ← h1, List.take_append_drop]

theorem to32_16_zero {xs : List Nat} (hx : ∀ x ∈ xs, x < 65536) (hz : ∀ x ∈ xs, x ≠ 0) (k : Nat) :
    utf16.to32 xs ≠ some (0, k) := by
  intro h
  obtain ⟨h1, h2⟩ := (C30_utf16_decode hx 0 k).1 h
  generalize hus : xs.take k = us at h2
  generalize h0 : (0 : Nat) = z at h2
  cases h2 with
  | bmp _ _ =>
    have : z ∈ xs.take k := by rw [hus]; simp
    exact hz z (List.mem_of_mem_take this) h0.symm
  | pair _ _ => omega

/-- **C34**, UTF-16.  `u16tou32` returns the longest prefix of the text that is well formed. -/
theorem C34_utf16_text {xs : List Nat} (hx : ∀ x ∈ xs, x < 65536 ∧ x ≠ 0) (junk : List Nat) :
    ∃ pre rest cs, xs = pre ++ rest ∧ Utf16Text pre cs ∧ toU32 utf16 (xs ++ 0 :: junk) = some cs ∧
      (rest = [] ∨ ¬∃ us rest' c, rest = us ++ rest' ∧ Utf16Char us c) := by
  obtain ⟨ds, rest, h1, h2⟩ := decodes_exists utf16_ok xs
  have hx1 : ∀ x ∈ xs, x < 65536 := fun x h => (hx x h).1
  obtain ⟨pre, rfl, h4⟩ := utf16Text_decodes h1 hx1
  have h3 := toU32_decodes utf16_ok (fun x h => (hx x h).2) h1 h2 junk
  refine ⟨pre, rest, ds.map Prod.fst, rfl, h4, ?_, ?_⟩
  · unfold toU32
    rw [convertDirect_feeds h3, clusters_fst]
  · have hr : ∀ x ∈ rest, x < 65536 := fun x h => hx1 x (by simp [h])
    rcases h2 with h2 | h2 | ⟨k, h2⟩
    · exact .inl h2
    · exact .inr ((C34_utf16 hr).1 h2)
    · exact absurd h2 (to32_16_zero hr (fun x h => (hx x (by simp [h])).2) k)

example : utf16.to32 [0xDE00, 0x41] = none ∧ utf16.to32 [0xD83D, 0x41] = none := by decide

/-- **C34**, UTF-8, partial.  Decoding rejects exactly the sequences that are cut off by the end of the text.  Missing
is that it rejects bytes that are not what the first byte announces. -/
theorem C34_utf8_cut_partial (xs : List Nat) :
    utf8.to32 xs = none ↔ xs = [] ∨ ∃ c0 cs, xs = c0 :: cs ∧ xs.length < utf8Length c0 := by
  cases xs with
  | nil => exact ⟨fun _ => .inl rfl, fun _ => rfl⟩
  | cons c0 cs =>
    show to32_8 (c0 :: cs) = none ↔ _
    constructor
    · intro h
      refine .inr ⟨c0, cs, rfl, ?_⟩
      rcases Nat.lt_or_ge (cs.length + 1) (len8 c0) with h1 | h1
      · exact h1
      · obtain ⟨d, h2⟩ := to32_8_isSome h1
        rw [h] at h2; cases h2
    · rintro (h | ⟨_, _, e, h⟩)
      · cases h
      · injection e with e1 e2
        subst e1 e2
        rcases hd : to32_8 (c0 :: cs) with _ | ⟨d, k⟩
        · rfl
        · have h1 := to32_8_len hd
          have h2 : cs.length + 1 < len8 c0 := h
          omega

theorem toU32_single {us : List Nat} {c : Nat} (hz : ∀ u ∈ us, u ≠ 0) (hc : c ≠ 0)
    (h : utf8.to32 us = some (c, us.length)) (junk : List Nat) : toU32 utf8 (us ++ 0 :: junk) = some [c] := by
  have h1 : Decodes utf8 us [(c, us.length)] [] := .cons h hc (by rw [List.drop_length]; exact .nil [])
  have h2 := toU32_decodes utf8_ok hz h1 (.inl rfl) junk
  unfold toU32
  rw [convertDirect_feeds h2, clusters_fst]; rfl

/-- **C34** is violated: every surrogate is decoded from the three bytes that would encode it. -/
theorem C34_utf8_surrogates_violated {c : Nat} (h : Surrogate c) (junk : List Nat) :
    ∃ us, (∀ u ∈ us, u < 256 ∧ u ≠ 0) ∧ toU32 utf8 (us ++ 0 :: junk) = some [c] := by
  unfold Surrogate at h
  refine ⟨[c / 4096 + 224, c / 64 % 64 + 128, c % 64 + 128], ?_, toU32_single ?_ (by omega) ?_ junk⟩
  · intro u hu; simp only [List.mem_cons, List.not_mem_nil, or_false] at hu; omega
  · intro u hu; simp only [List.mem_cons, List.not_mem_nil, or_false] at hu; omega
  · rw [show utf8.to32 = to32_8 from rfl, to32_8_eq, if_neg (by omega), if_neg (by omega), if_pos (by omega)]
    refine congrArg some (Prod.ext ?_ rfl)
    show _ = c
    simp only []
    omega

/-- **C34** is violated: a byte that announces one more byte takes any byte for it, also one that is a character on its
own, and a stray continuation byte (0x80-0xBF) does the same. -/
theorem C34_utf8_continuation_violated {c0 c1 : Nat} (h0 : 0x81 ≤ c0 ∧ c0 < 0xE0 ∧ c0 % 32 ≠ 0) (h1 : c1 ≠ 0) (junk : List Nat) :
    toU32 utf8 ([c0, c1] ++ 0 :: junk) = some [c0 % 32 * 64 + c1 % 64] := by
  refine toU32_single ?_ (by omega) ?_ junk
  · intro u hu; simp only [List.mem_cons, List.not_mem_nil, or_false] at hu; omega
  · rw [show utf8.to32 = to32_8 from rfl, to32_8_eq, if_neg (by omega), if_pos (by omega)]
    rfl

example : toU32 utf8 ([0xC3, 0x41] ++ [0]) = some [0xC1] ∧ toU32 utf8 ([0x81, 0x41] ++ [0]) = some [0x41] :=
  ⟨C34_utf8_continuation_violated (by omega) (by omega) [], C34_utf8_continuation_violated (by omega) (by omega) []⟩

/-- **C34** is violated: overlong forms are decoded. -/
theorem C34_utf8_overlong_violated : utf8.to32 [0xC1, 0x81] = some (0x41, 2) ∧ utf8.from32 0x41 = some [0x41] := by decide

end Utf
end Vlpp
