import Verif.Spec.LoremIpsum

/-! # C54, C64: LoremIpsum -/
set_option autoImplicit false
namespace Vlpp
open Lorem Spec

namespace Lorem

theorem store_at (pre rest : Buffer) (x : Option Nat) (c p : Nat) (hp : p = pre.length) :
    store (pre ++ x :: rest) p c = some (pre ++ some c :: rest) := by
  subst hp
  simp [store]

theorem copy_at (word : List Nat) : ∀ (pre rest : Buffer) (p : Nat), p = pre.length → word.length < rest.length →
    copy (pre ++ rest) p word = some (pre ++ word.map some ++ some 0 :: rest.drop (word.length + 1)) := by
  induction word with
  | nil =>
    intro pre rest p hp hl
    cases rest with
    | nil => simp at hl
    | cons x rest => simp [copy, store_at pre rest x 0 p hp]
  | cons c word ih =>
    intro pre rest p hp hl
    cases rest with
    | nil => simp at hl
    | cons x rest =>
      simp only [copy, store_at pre rest x c p hp, Option.bind_some]
      have := ih (pre ++ [some c]) rest (p + 1) (by simp [hp]) (by simp at hl; omega)
      simp only [List.append_assoc, List.singleton_append] at this
      rw [this]
      simp

theorem load_at (pre rest : Buffer) (c p : Nat) (hp : p = pre.length) : load (pre ++ some c :: rest) p = some c := by
  subst hp
  simp [load]

theorem readString_at (t : List Nat) (h : ∀ c ∈ t, c ≠ 0) (rest : Buffer) : readString (t.map some ++ some 0 :: rest) = some t := by
  induction t with
  | nil => simp [readString]
  | cons c t ih =>
    have hc : c ≠ 0 := h c (by simp)
    simp only [List.map_cons, List.cons_append, readString, hc, if_false]
    rw [ih (fun x hx => h x (by simp [hx]))]
    rfl

/-- a word in its casing -/
def cased (casing : Casing) (first : Bool) (word : List Nat) : List Nat :=
  match casing with
  | .allLower => word
  | .firstUpper => if first then capital word else word
  | .allUpper => capital word

variable {table : List (List Nat)} {casing : Casing} {n i : Nat}

/-- the `k`-th word of a text -/
def wordAt (table : List (List Nat)) (i k : Nat) : List Nat := table[(i + k) % table.length]?.getD []

theorem wordsText_succ (k : Nat) : wordsText table casing i (k + 1) =
    wordsText table casing i k ++ (if k = 0 then [] else [32]) ++ cased casing (k = 0) (wordAt table i k) := by
  simp only [wordsText, cased, wordAt]
  cases casing <;> simp

theorem capital_length (w : List Nat) : (capital w).length = w.length := by cases w <;> rfl

theorem cased_length (f : Bool) (w : List Nat) : (cased casing f w).length = w.length := by
  unfold cased
  cases casing
  · rfl
  · simp only; split
    · exact capital_length w
    · rfl
  · exact capital_length w

theorem wordAt_mem (ht : GoodTable table) (k : Nat) : table[(i + k) % table.length]? = some (wordAt table i k) ∧ wordAt table i k ∈ table := by
  have hl : (i + k) % table.length < table.length := Nat.mod_lt _ (List.length_pos_iff.2 ht.1)
  unfold wordAt
  rw [List.getElem?_eq_getElem hl]
  exact ⟨rfl, List.getElem_mem hl⟩

theorem wordAt_length (ht : GoodTable table) (k : Nat) : 1 ≤ (wordAt table i k).length ∧ (wordAt table i k).length ≤ 12 := by
  have h := ht.2 _ (wordAt_mem (i := i) ht k).2
  exact ⟨List.length_pos_iff.2 h.1, h.2.1⟩

/-- length of a text -/
theorem wordsText_length (k : Nat) : (wordsText table casing i (k + 1)).length =
    (wordsText table casing i k).length + (if k = 0 then 0 else 1) + (wordAt table i k).length := by
  rw [wordsText_succ]
  simp only [List.length_append, cased_length]
  split <;> simp

theorem wordsText_lt (ht : GoodTable table) (k : Nat) :
    (wordsText table casing i k).length < (wordsText table casing i (k + 1)).length := by
  rw [wordsText_length]
  have := (wordAt_length (i := i) ht k).1
  omega

theorem wordsText_mono (ht : GoodTable table) {j k : Nat} (h : j ≤ k) :
    (wordsText table casing i j).length ≤ (wordsText table casing i k).length := by
  induction k with
  | zero => have : j = 0 := by omega
            subst this; exact Nat.le_refl _
  | succ k ih =>
    by_cases hj : j = k + 1
    · subst hj; exact Nat.le_refl _
    · have := ih (by omega)
      have := wordsText_lt (casing := casing) (i := i) ht k
      omega

theorem wordsText_pos (ht : GoodTable table) {k : Nat} (h : 0 < k) : 0 < (wordsText table casing i k).length := by
  have h1 := wordsText_mono (casing := casing) (i := i) ht (j := 1) (k := k) (by omega)
  have h2 : _ < (wordsText table casing i 1).length := wordsText_lt ht 0
  omega

theorem cased_nonzero (ht : GoodTable table) (f : Bool) {w : List Nat} (hw : w ∈ table) : ∀ c ∈ cased casing f w, c ≠ 0 := by
  obtain ⟨_, _, h0, hh⟩ := ht.2 w hw
  have hcap : ∀ c ∈ capital w, c ≠ 0 := by
    cases w with
    | nil => simp [capital]
    | cons x w =>
      have := hh x rfl
      intro c hc
      simp only [capital, List.mem_cons] at hc
      rcases hc with rfl | hc
      · omega
      · exact h0 c (by simp [hc])
  unfold cased
  cases casing
  · exact h0
  · simp only; split
    · exact hcap
    · exact h0
  · exact hcap

theorem wordsText_nonzero (ht : GoodTable table) (k : Nat) : ∀ c ∈ wordsText table casing i k, c ≠ 0 := by
  induction k with
  | zero => simp [wordsText]
  | succ k ih =>
    rw [wordsText_succ]
    intro c hc
    simp only [List.mem_append] at hc
    rcases hc with (hc | hc) | hc
    · exact ih c hc
    · split at hc
      · cases hc
      · simp at hc; omega
    · exact cased_nonzero ht _ (wordAt_mem ht k).2 c hc

/-- the state with a text -/
def Holds (s : State) (t : List Nat) (n : Nat) : Prop :=
  ∃ rest : Buffer, s.buffer = t.map some ++ some 0 :: rest ∧ s.used = t.length ∧ s.writing = t.length ∧ s.buffer.length = n + 21

theorem space_at {s : State} {t : List Nat} (h : Holds s t n) :
    ∃ s' rest, space s = some s' ∧ s'.index = s.index ∧
      s'.buffer = (t ++ if t.length = 0 then [] else [32]).map some ++ rest ∧
      s'.used = t.length + (if t.length = 0 then 0 else 1) ∧ s'.writing = s'.used ∧ s'.buffer.length = n + 21 := by
  obtain ⟨rest, hb, hu, hw, hl⟩ := h
  unfold space
  by_cases h0 : t.length = 0
  · have ht : t = [] := List.length_eq_zero_iff.1 h0
    refine ⟨s, some 0 :: rest, by simp [hu, h0], rfl, ?_, ?_, ?_, hl⟩
    · rw [hb]; simp [ht]
    · simp [hu, h0]
    · rw [hw, hu]
  · have hs : store s.buffer s.writing 32 = some (t.map some ++ some 32 :: rest) := by
      rw [hb]; exact store_at _ _ _ _ _ (by simp [hw])
    rw [if_pos (by omega), hs]
    refine ⟨_, rest, rfl, rfl, ?_, ?_, ?_, ?_⟩
    · simp [h0]
    · simp [hu, h0]
    · simp [hu, hw]
    · rw [hb] at hl; simp at hl ⊢; omega

theorem writeWord_at {s : State} {t w : List Nat} {rest : Buffer} (hb : s.buffer = t.map some ++ rest) (hw : s.writing = t.length)
    (hl : w.length < rest.length) (hne : w ≠ []) (hu : s.used = t.length) :
    writeWord casing w s = some { s with buffer := (t ++ cased casing (t.length = 0) w).map some ++ some 0 :: rest.drop (w.length + 1) } := by
  have hc := copy_at w (t.map some) rest s.writing (by simp [hw]) hl
  cases w with
  | nil => exact absurd rfl hne
  | cons c w =>
    unfold writeWord
    rw [hb, hc]
    simp only [bind, Option.bind_some]
    have hload : load (t.map some ++ (c :: w).map some ++ some 0 :: rest.drop ((c :: w).length + 1)) s.writing = some c := by
      simp only [List.map_cons, List.append_assoc, List.cons_append]
      exact load_at _ _ _ _ (by simp [hw])
    have hstore : store (t.map some ++ (c :: w).map some ++ some 0 :: rest.drop ((c :: w).length + 1)) s.writing (c - (97 - 65)) =
        some (t.map some ++ (capital (c :: w)).map some ++ some 0 :: rest.drop ((c :: w).length + 1)) := by
      simp only [List.map_cons, List.append_assoc, List.cons_append, capital]
      exact store_at _ _ _ _ _ (by simp [hw])
    rw [hload, Option.bind_some, hstore, Option.bind_some]
    rw [hu]
    unfold cased
    cases casing
    · simp
    · by_cases h0 : t.length = 0
      · simp [h0]
      · simp [h0]
    · simp

theorem undoSpace_at {s : State} {t u : List Nat} {rest : Buffer} (hb : s.buffer = (t ++ 32 :: u).map some ++ rest)
    (hw : s.writing = t.length + 1) :
    undoSpace s = some { s with buffer := t.map some ++ some 0 :: (u.map some ++ rest), writing := t.length, used := s.used - 1 } := by
  unfold undoSpace
  have hs : store s.buffer (s.writing - 1) 0 = some (t.map some ++ some 0 :: (u.map some ++ rest)) := by
    rw [hb]
    simp only [List.map_append, List.map_cons, List.append_assoc, List.cons_append]
    exact store_at _ _ _ _ _ (by simp [hw])
  rw [if_neg (by omega), hs]
  simp [hw]

/-- What the text is at the end: `k` words, at least one, and no other number of words is nearer. -/
def Nearest (table : List (List Nat)) (casing : Casing) (i n k : Nat) : Prop :=
  0 < k ∧ (∀ j, 0 < j → distance (wordsText table casing i k).length n ≤ distance (wordsText table casing i j).length n) ∧
    (12 ≤ n → distance (wordsText table casing i k).length n ≤ 6) ∧ distance (wordsText table casing i k).length n < 12

/-- the loop -/
theorem loop_spec (ht : GoodTable table) : ∀ (m k : Nat) (s : State), n + 1 - (wordsText table casing i k).length = m →
    Holds s (wordsText table casing i k) n → s.index = (i + k) % table.length →
    (wordsText table casing i k).length < n →
    ∃ s' k', loop table casing n s = some s' ∧ Nearest table casing i n k' ∧
      (∃ rest, s'.buffer = (wordsText table casing i k').map some ++ some 0 :: rest) ∧ s'.index = (i + k') % table.length := by
  intro m
  induction m using Nat.strongRecOn with
  | ind m ih =>
    intro k s hm hH hi hlt
    rw [loop.eq_def]
    have hused : s.used = (wordsText table casing i k).length := hH.choose_spec.2.1
    rw [if_pos (by omega)]
    obtain ⟨s1, rest, hsp, hi1, hb1, hu1, hw1, hl1⟩ := space_at hH
    obtain ⟨hget, hmem⟩ := wordAt_mem (i := i) ht k
    obtain ⟨hpos, h12⟩ := wordAt_length (i := i) ht k
    have hk0 : (wordsText table casing i k).length = 0 ↔ k = 0 := by
      constructor
      · intro h
        refine Classical.byContradiction fun hk => ?_
        have := wordsText_pos (casing := casing) (i := i) ht (k := k) (by omega)
        omega
      · rintro rfl; rfl
    have hne : wordAt table i k ≠ [] := List.length_pos_iff.1 hpos
    have hlen1 : ((wordsText table casing i k) ++ if (wordsText table casing i k).length = 0 then [] else [32]).length = s1.used := by
      rw [hu1]; split <;> simp_all
    have hrest : (wordAt table i k).length < rest.length := by
      have : s1.buffer.length = s1.used + rest.length := by rw [hb1, List.length_append, List.length_map, hlen1]
      have : s1.used ≤ n := by rw [hu1]; split <;> omega
      omega
    have hwr := writeWord_at (casing := casing) hb1 (hw1.trans hlen1.symm) hrest hne hlen1.symm
    have hnext := wordsText_length (table := table) (casing := casing) (i := i) k
    have hs1 : s1.used = (wordsText table casing i k).length + (if k = 0 then 0 else 1) := by
      rw [hu1]; simp only [hk0]
    simp only [bind, hsp, Option.bind_some, hi1, hi, hget, hwr]
    have htext : (wordsText table casing i k ++ if (wordsText table casing i k).length = 0 then [] else [32]) ++
        cased casing (decide (((wordsText table casing i k) ++ if (wordsText table casing i k).length = 0 then [] else [32]).length = 0))
          (wordAt table i k) = wordsText table casing i (k + 1) := by
      rw [wordsText_succ]
      have : ((wordsText table casing i k ++ if (wordsText table casing i k).length = 0 then [] else [32]).length = 0) ↔ k = 0 := by
        rw [hlen1, hu1]
        constructor
        · intro h; exact hk0.1 (by omega)
        · intro h; simp [hk0.2 h]
      simp only [hk0] at this ⊢
      simp only [this]
    rw [htext]
    split
    · next hcond =>
      obtain ⟨c1, c2, c3⟩ := hcond
      have hk : k ≠ 0 := by
        intro h; subst h; simp at hs1; exact c1 (by rw [hs1]; rfl)
      have hkl : ¬ (wordsText table casing i k).length = 0 := fun h => hk (hk0.1 h)
      simp only [hk, if_false] at hs1 hnext
      have hbuf := undoSpace_at (s := { s1 with index := (i + k) % table.length, buffer := (wordsText table casing i (k + 1)).map some ++ some 0 :: rest.drop ((wordAt table i k).length + 1) })
        (t := wordsText table casing i k) (u := cased casing false (wordAt table i k)) (rest := some 0 :: rest.drop ((wordAt table i k).length + 1))
        (by simp only; rw [wordsText_succ]; simp [hk]) (by simp only; omega)
      rw [hbuf]
      refine ⟨_, k, rfl, ⟨by omega, ?_, ?_, ?_⟩, ⟨_, rfl⟩, ?_⟩
      · intro j hj
        by_cases hjk : j ≤ k
        · have := wordsText_mono (casing := casing) (i := i) ht hjk
          unfold distance; omega
        · have := wordsText_mono (casing := casing) (i := i) ht (j := k + 1) (k := j) (by omega)
          unfold distance; omega
      · intro _; unfold distance; omega
      · unfold distance; omega
      · rfl
    · next hcond =>
      have hH' : Holds { s1 with buffer := (wordsText table casing i (k + 1)).map some ++ some 0 :: rest.drop ((wordAt table i k).length + 1),
                                 writing := s1.writing + (wordAt table i k).length, used := s1.used + (wordAt table i k).length,
                                 index := ((i + k) % table.length + 1) % table.length } (wordsText table casing i (k + 1)) n := by
        refine ⟨_, rfl, ?_, ?_, ?_⟩
        · simp only; rw [hs1, hnext]
        · simp only; rw [hw1, hs1, hnext]
        · have : s1.buffer.length = s1.used + rest.length := by rw [hb1, List.length_append, List.length_map, hlen1]
          simp only [List.length_append, List.length_map, List.length_cons, List.length_drop]
          omega
      have hidx : ((i + k) % table.length + 1) % table.length = (i + (k + 1)) % table.length := by
        rw [Nat.mod_add_mod]; rfl
      by_cases hlt' : (wordsText table casing i (k + 1)).length < n
      · exact ih _ (by omega) (k + 1) _ rfl hH' hidx hlt'
      · rw [loop.eq_def, if_neg (by simp only; omega)]
        refine ⟨_, k + 1, rfl, ⟨by omega, ?_, ?_, ?_⟩, ⟨_, rfl⟩, hidx⟩
        · intro j hj
          by_cases hjk : k + 1 ≤ j
          · have := wordsText_mono (casing := casing) (i := i) ht hjk
            unfold distance; omega
          · have := wordsText_mono (casing := casing) (i := i) ht (j := j) (k := k) (by omega)
            unfold distance
            have hk : k ≠ 0 := by omega
            simp only [hk, if_false] at hs1 hnext
            omega
        · intro hn
          unfold distance
          by_cases hk : k = 0
          · have : (wordsText table casing i k).length = 0 := hk0.2 hk
            simp only [hk, if_true] at hs1 hnext
            subst hk
            omega
          · simp only [hk, if_false] at hs1 hnext
            omega
        · unfold distance
          by_cases hk : k = 0
          · simp only [hk, if_true] at hs1 hnext
            subst hk
            have : (wordsText table casing i 0).length = 0 := rfl
            simp only [Nat.zero_add] at *
            omega
          · simp only [hk, if_false] at hs1 hnext
            omega

end Lorem

/-- **C54**, the table of the program: all words have 1 to 12 letters and begin with a letter in lower case. -/
theorem C54_table : GoodTable wordTable := by
  refine ⟨by decide +kernel, ?_⟩
  have h : wordTable.all (fun w => w != [] && w.length ≤ 12 && w.all (· != 0) && (w.headD 97 ≥ 97 && w.headD 97 ≤ 122)) = true := by
    decide +kernel
  intro w hw
  have := List.all_eq_true.1 h w hw
  simp only [Bool.and_eq_true, bne_iff_ne, ne_eq, decide_eq_true_eq, List.all_eq_true, ge_iff_le] at this
  obtain ⟨⟨⟨h1, h2⟩, h3⟩, h4⟩ := this
  refine ⟨h1, h2, h3, ?_⟩
  intro c hc
  cases w with
  | nil => cases hc
  | cons x w => simp only [List.head?_cons, Option.some.injEq] at hc; subst hc; simpa using h4

/-- **C54**: for every length, casing and starting word, the function ends, stays inside its buffer, and returns a number of words of the table with spaces
between them, and the next call goes on with the next word.  No text of another number of words is nearer to the requested length; the distance is less than 12
(the longest word), and at most 6 if the requested length is at least 12. -/
theorem C54_text (table : List (List Nat)) (ht : GoodTable table) (n : Int) (casing : Casing) (index : Nat) (hi : index < table.length) :
    ∃ k, loremIpsum table n casing index = some (wordsText table casing index k, (index + k) % table.length) ∧
      (n ≤ 0 → k = 0) ∧
      (0 < n → 0 < k ∧
        (∀ j, 0 < j → distance (wordsText table casing index k).length n.toNat ≤ distance (wordsText table casing index j).length n.toNat) ∧
        (12 ≤ n → distance (wordsText table casing index k).length n.toNat ≤ 6) ∧
        distance (wordsText table casing index k).length n.toNat < 12) := by
  unfold loremIpsum
  simp only [bind]
  by_cases hn : n ≤ 0
  · have h0 : n.toNat = 0 := by omega
    refine ⟨0, ?_, fun _ => rfl, fun h => by omega⟩
    rw [loop.eq_def, h0]
    simp [readString, wordsText, Nat.mod_eq_of_lt hi]
  · have hH : Holds ⟨some 0 :: List.replicate (n.toNat + 20) none, 0, 0, index⟩ (wordsText table casing index 0) n.toNat :=
      ⟨List.replicate (n.toNat + 20) none, rfl, rfl, rfl, by simp⟩
    obtain ⟨s', k, hloop, ⟨h1, h2, h3, h4⟩, ⟨rest, hb⟩, hi'⟩ := loop_spec (casing := casing) (i := index) ht _ 0 _ rfl hH
      (by simp [Nat.mod_eq_of_lt hi]) (by simp [wordsText]; omega)
    refine ⟨k, ?_, fun h => by omega, fun _ => ⟨h1, h2, fun h => h3 (by omega), h4⟩⟩
    rw [hloop, Option.bind_some, hb, readString_at _ (wordsText_nonzero ht k), Option.bind_some, hi']

/-- **C54**: the length, for the words of the program. -/
theorem C54_length (n : Int) (casing : Casing) (index : Nat) (hi : index < wordTable.length) :
    ∃ text index', loremIpsum wordTable n casing index = some (text, index') ∧ index' < wordTable.length ∧
      distance text.length n.toNat < 12 ∧ (12 ≤ n → distance text.length n.toNat ≤ 6) := by
  obtain ⟨k, h, h0, h1⟩ := C54_text wordTable C54_table n casing index hi
  refine ⟨_, _, h, Nat.mod_lt _ (by omega), ?_⟩
  by_cases hn : n ≤ 0
  · rw [h0 hn]
    have : n.toNat = 0 := by omega
    simp only [wordsText, this, distance, List.length_nil]
    omega
  · exact ⟨(h1 (by omega)).2.2.2, (h1 (by omega)).2.2.1⟩

/-! The first sentence, and what happens at the end of the table. -/
example : wordsText wordTable .firstUpper 0 4 = "Lorem ipsum dolor sit".toList.map Char.toNat := by decide +kernel
example : wordsText wordTable .allUpper 378 2 = "Tortor Lorem".toList.map Char.toNat := by decide +kernel
example : wordTable.length = 379 := by decide +kernel

/-- 20 characters: "Lorem ipsum dolor sit" has 21. -/
theorem Lorem.twenty : loremIpsum wordTable 20 .firstUpper 0 = some ("Lorem ipsum dolor sit".toList.map Char.toNat, 4) := by
  obtain ⟨k, h, _, h1⟩ := C54_text wordTable C54_table 20 .firstUpper 0 (by decide +kernel)
  obtain ⟨_, hnear, _, _⟩ := h1 (by decide)
  have hk : k = 4 := by
    have h4 := hnear 4 (by decide)
    have e4 : (wordsText wordTable .firstUpper 0 4).length = 21 := by decide +kernel
    have e3 : (wordsText wordTable .firstUpper 0 3).length = 17 := by decide +kernel
    have e5 : (wordsText wordTable .firstUpper 0 5).length = 26 := by decide +kernel
    rw [e4] at h4
    by_cases h3 : k ≤ 3
    · have := wordsText_mono (casing := .firstUpper) (i := 0) C54_table h3
      simp only [distance] at h4; omega
    · by_cases h5 : 5 ≤ k
      · have := wordsText_mono (casing := .firstUpper) (i := 0) C54_table h5
        simp only [distance] at h4; omega
      · omega
  subst hk
  rw [h]
  decide +kernel

namespace Lorem

/-- how a paragraph can end -/
def Ends (text : List Nat) : Prop := ∃ pre, text = pre ++ [46] ∨ text = pre ++ [46, 32] ∨ text = pre ++ [44, 32]

theorem paragraphLoop_spec (rand : Nat → Nat) (n : Int) (hn : 0 < n) : ∀ (m : Nat) (p : Paragraph), (n - p.result.length).toNat = m →
    p.index < wordTable.length → ((p.result.length : Int) ≤ n + 8) → (p.result = [] ∨ Ends p.result) →
    ∃ text index', paragraphLoop wordTable rand n p = some (text, index') ∧ index' < wordTable.length ∧
      distance text.length n.toNat ≤ 12 ∧ Ends text := by
  intro m
  induction m using Nat.strongRecOn with
  | ind m ih =>
    intro p hm hi hle hends
    rw [paragraphLoop.eq_def]
    split
    · next hlt =>
      simp only [bind]
      generalize hc : (if p.comma = 0 then (rand p.random % 4 + 1, p.random + 1) else (p.comma, p.random)) = cr
      obtain ⟨comma, r⟩ := cr
      have hcomma : comma ≠ 0 := by
        split at hc <;> simp only [Prod.mk.injEq] at hc <;> omega
      simp only
      generalize hq : (if n - (p.result.length : Int) < 20 then (0, n - (p.result.length : Int) - 1, r + 1)
        else if ((rand r % 45 + 15 : Nat) : Int) > n - (p.result.length : Int) then
          (0, n - (p.result.length : Int) + (rand (r + 1) % 11 : Nat) - 5, r + 1 + 1)
        else (comma, ((rand r % 45 + 15 : Nat) : Int), r + 1) : Nat × Int × Nat) = q
      obtain ⟨comma', length, r'⟩ := q
      simp only
      obtain ⟨text, index', htext, hi', hd, hd6⟩ := C54_length length p.casing p.index hi
      rw [htext]
      simp only [Option.bind_some]
      have hcases : comma' = 0 ∧ (0 ≤ length ∧ length = n - (p.result.length : Int) - 1 ∨
            12 ≤ length ∧ n - (p.result.length : Int) - 5 ≤ length ∧ length ≤ n - (p.result.length : Int) + 5) ∨
          comma' ≠ 0 ∧ 12 ≤ length ∧ length ≤ n - (p.result.length : Int) := by
        split at hq
        · simp only [Prod.mk.injEq] at hq; omega
        · split at hq
          · simp only [Prod.mk.injEq] at hq; omega
          · simp only [Prod.mk.injEq] at hq; omega
      clear hq
      split
      · next h0 =>
        refine ⟨_, _, rfl, hi', ?_, ⟨_, .inl rfl⟩⟩
        simp only [List.length_append, List.length_singleton]
        unfold distance at *
        rcases hcases with ⟨_, ⟨h1, h2⟩ | ⟨h1, h2, h3⟩⟩ | ⟨h1, h2⟩
        · omega
        · have := hd6 h1; omega
        · exact absurd h0 h1
      · next h0 =>
        have hlen : 12 ≤ length ∧ length ≤ n - (p.result.length : Int) := by
          rcases hcases with ⟨h, _⟩ | h
          · exact absurd h h0
          · exact h.2
        have h6 := hd6 hlen.1
        unfold distance at h6
        have hnew : ∀ (casing : Casing) (comma : Nat) (tail : List Nat), tail.length = 2 → (Ends (p.result ++ text ++ tail)) →
            ∃ text' index'', paragraphLoop wordTable rand n ⟨p.result ++ text ++ tail, comma, casing, r', index'⟩ = some (text', index'') ∧
              index'' < wordTable.length ∧ distance text'.length n.toNat ≤ 12 ∧ Ends text' := by
          intro casing comma tail htl hE
          have hl : ((p.result ++ text ++ tail).length : Int) = p.result.length + text.length + 2 := by
            simp only [List.length_append, htl]; omega
          exact ih (n - ((p.result ++ text ++ tail).length : Int)).toNat (by omega) ⟨p.result ++ text ++ tail, comma, casing, r', index'⟩ rfl hi' (by simp only; omega) (.inr hE)
        split
        · exact hnew _ _ _ rfl ⟨_, .inr (.inl rfl)⟩
        · exact hnew _ _ _ rfl ⟨_, .inr (.inr rfl)⟩
    · next hge =>
      refine ⟨_, _, rfl, hi, ?_, ?_⟩
      · unfold distance
        omega
      · rcases hends with h | h
        · rw [h] at hge; simp at hge; omega
        · exact h

end Lorem

/-- **C64**, partial.  For every requested length, every sequence of random numbers and every starting word: the function ends, its length differs from the
requested one by at most 12, and if something was requested then it ends with a period, or with a period or a comma and a space.

Missing: "it ends with a period", see `C64_violated`. -/
theorem C64_paragraph_partial (rand : Nat → Nat) (n : Int) (index : Nat) (hi : index < wordTable.length) :
    ∃ text index', paragraph wordTable rand n index = some (text, index') ∧ index' < wordTable.length ∧
      distance text.length n.toNat ≤ 12 ∧ (0 < n → Ends text) := by
  by_cases hn : 0 < n
  · obtain ⟨text, index', h1, h2, h3, h4⟩ := paragraphLoop_spec rand n hn _ ⟨[], 0, .firstUpper, 0, index⟩ rfl hi (by simp; omega) (.inl rfl)
    exact ⟨text, index', h1, h2, h3, fun _ => h4⟩
  · refine ⟨[], index, ?_, hi, ?_, fun h => absurd h hn⟩
    · unfold paragraph
      rw [paragraphLoop.eq_def, if_neg (by simp; omega)]
    · unfold distance; simp; omega

/-- one round that ends with a comma -/
theorem Lorem.paragraphLoop_comma {table : List (List Nat)} {rand : Nat → Nat} {n : Int} {p : Paragraph} {text : List Nat} {index : Nat}
    (hlt : (p.result.length : Int) < n) (h0 : p.comma = 0) (hoff : ¬ n - (p.result.length : Int) < 20)
    (hlen : ¬ ((rand (p.random + 1) % 45 + 15 : Nat) : Int) > n - (p.result.length : Int))
    (hl : loremIpsum table ((rand (p.random + 1) % 45 + 15 : Nat) : Int) p.casing p.index = some (text, index))
    (hc : rand p.random % 4 + 1 ≠ 1) :
    paragraphLoop table rand n p =
      paragraphLoop table rand n ⟨p.result ++ text ++ [44, 32], rand p.random % 4, .allLower, p.random + 2, index⟩ := by
  rw [paragraphLoop.eq_def, if_pos hlt]
  simp only [h0, if_true, hoff, if_false, hlen, bind]
  rw [hl, Option.bind_some]
  simp only [hc, if_false, show ¬ rand p.random % 4 + 1 = 0 by omega]
  rfl

/-- **C64** is violated: with these random numbers the paragraph of 20 characters is "Lorem ipsum dolor sit, ". -/
theorem C64_violated : ∃ rand : Nat → Nat,
    paragraph wordTable rand 20 0 = some ("Lorem ipsum dolor sit, ".toList.map Char.toNat, 4) := by
  refine ⟨fun k => if k = 0 then 1 else 5, ?_⟩
  unfold paragraph
  rw [paragraphLoop_comma (by decide) rfl (by decide) (by decide) Lorem.twenty (by decide), paragraphLoop.eq_def, if_neg (by decide +kernel)]
  decide +kernel

end Vlpp
