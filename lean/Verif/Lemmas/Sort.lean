import Verif.Model.Sort

/-! # Lemmas about `SortLambda`: the partition for any comparison, then the recursion -/
set_option autoImplicit false
namespace Vlpp
namespace QSort
variable {α : Type}

theorem read_some {buf : List α} {k : Int} (h0 : 0 ≤ k) (h1 : k < buf.length) : ∃ x, read buf k = some x := by
  refine ⟨buf[k.toNat]'(by omega), ?_⟩
  rw [read, if_pos h0, List.getElem?_eq_getElem]

theorem read_bound {buf : List α} {k : Int} {x : α} (h : read buf k = some x) : 0 ≤ k ∧ k < buf.length := by
  unfold read at h
  split at h
  · rename_i h0
    obtain ⟨h1, _⟩ := List.getElem?_eq_some_iff.1 h
    omega
  · cases h

/-- `buf'` comes from `buf` by moving elements inside `[lo, hi)` only. -/
structure Win (buf buf' : List α) (lo hi : Int) : Prop where
  len : buf'.length = buf.length
  perm : buf'.Perm buf
  out : ∀ k, k < lo ∨ hi ≤ k → read buf' k = read buf k
  inside : ∀ k, lo ≤ k → k < hi → ∃ k', lo ≤ k' ∧ k' < hi ∧ read buf' k = read buf k'

theorem Win.refl (buf : List α) (lo hi : Int) : Win buf buf lo hi :=
  ⟨rfl, .refl _, fun _ _ => rfl, fun k h1 h2 => ⟨k, h1, h2, rfl⟩⟩

theorem Win.trans {a b c : List α} {lo hi : Int} (h1 : Win a b lo hi) (h2 : Win b c lo hi) : Win a c lo hi := by
  refine ⟨h2.len.trans h1.len, h2.perm.trans h1.perm, fun k hk => (h2.out k hk).trans (h1.out k hk), ?_⟩
  intro k h3 h4
  obtain ⟨k', h5, h6, e⟩ := h2.inside k h3 h4
  obtain ⟨k'', h7, h8, e'⟩ := h1.inside k' h5 h6
  exact ⟨k'', h7, h8, e.trans e'⟩

theorem Win.mono {a b : List α} {lo hi lo' hi' : Int} (h : Win a b lo hi) (h1 : lo' ≤ lo) (h2 : hi ≤ hi') :
    Win a b lo' hi' := by
  refine ⟨h.len, h.perm, fun k hk => h.out k (by omega), ?_⟩
  intro k h3 h4
  by_cases h5 : lo ≤ k ∧ k < hi
  · obtain ⟨k', h6, h7, e⟩ := h.inside k h5.1 h5.2
    exact ⟨k', by omega, by omega, e⟩
  · exact ⟨k, h3, h4, h.out k (by omega)⟩

theorem swap_spec {buf : List α} {i j lo hi : Int} {a b : α} (hi1 : lo ≤ i) (hi2 : i < hi) (hj1 : lo ≤ j) (hj2 : j < hi)
    (ha : read buf i = some a) (hb : read buf j = some b) :
    ∃ buf', swap buf i j = some buf' ∧ Win buf buf' lo hi ∧
      (∀ k, read buf' k = if k = j then some a else if k = i then some b else read buf k) := by
  have bi := read_bound ha
  have bj := read_bound hb
  have key : ∀ k, read ((buf.set i.toNat b).set j.toNat a) k
      = if k = j then some a else if k = i then some b else read buf k := by
    intro k
    unfold read
    by_cases h0 : 0 ≤ k
    · rw [if_pos h0, if_pos h0]
      by_cases hkj : k = j
      · subst hkj
        rw [if_pos rfl, List.getElem?_set_self (by rw [List.length_set]; omega)]
      · rw [if_neg hkj, List.getElem?_set_ne (by omega)]
        by_cases hki : k = i
        · subst hki
          rw [if_pos rfl, List.getElem?_set_self (by omega)]
        · rw [if_neg hki, List.getElem?_set_ne (by omega)]
    · rw [if_neg h0, if_neg (by omega), if_neg (by omega), if_neg h0]
  refine ⟨(buf.set i.toNat b).set j.toNat a, by simp only [swap, ha, hb], ⟨by simp, ?_, ?_, ?_⟩, key⟩
  · unfold read at ha hb
    rw [if_pos bi.1] at ha
    rw [if_pos bj.1] at hb
    obtain ⟨h1, e1⟩ := List.getElem?_eq_some_iff.1 ha
    obtain ⟨h2, e2⟩ := List.getElem?_eq_some_iff.1 hb
    rw [← e1, ← e2]
    exact List.set_set_perm h1 h2
  · intro k hk
    rw [key k, if_neg (by omega), if_neg (by omega)]
  · intro k h1 h2
    rw [key k]
    by_cases hkj : k = j
    · exact ⟨i, hi1, hi2, by rw [if_pos hkj, ha]⟩
    · by_cases hki : k = i
      · exact ⟨j, hj1, hj2, by rw [if_neg hkj, if_pos hki, hb]⟩
      · exact ⟨k, h1, h2, by rw [if_neg hkj, if_neg hki]⟩

/-- every element of `[lo, hi)` satisfies `P` -/
def Reg (buf : List α) (lo hi : Int) (P : α → Prop) : Prop :=
  ∀ k, lo ≤ k → k < hi → ∃ x, read buf k = some x ∧ P x

theorem Win.reg {a b : List α} {lo hi : Int} {P : α → Prop} (h : Win a b lo hi) (r : Reg a lo hi P) : Reg b lo hi P := by
  intro k h1 h2
  obtain ⟨k', h3, h4, e⟩ := h.inside k h1 h2
  rw [e]
  exact r k' h3 h4

theorem Win.reg_out {a b : List α} {lo hi lo' hi' : Int} {P : α → Prop} (h : Win a b lo hi) (r : Reg a lo' hi' P)
    (hd : hi' ≤ lo ∨ hi ≤ lo') : Reg b lo' hi' P := by
  intro k h1 h2
  rw [h.out k (by omega)]
  exact r k h1 h2

variable {cmp : α → α → Option Ordering}

/-- the pivot `p` was compared with `x` and is not less -/
def GE (cmp : α → α → Option Ordering) (p x : α) : Prop := ∃ o, cmp p x = some o ∧ o ≠ .lt
/-- the pivot `p` was compared with `x` and is not greater -/
def LE (cmp : α → α → Option Ordering) (p x : α) : Prop := ∃ o, cmp p x = some o ∧ o ≠ .gt

/-- The partition loop for any comparison: it ends, stays inside the window, only moves elements; if it does not
raise, the pivot value is at `left`, and every element was compared with the pivot on the right side. -/
theorem partLoop_spec {base length : Int} (p : α) (hb : 0 ≤ base) :
    ∀ (n : Nat) (pivot left right : Int) (flag : Bool) (buf : List α), base + length ≤ buf.length →
      0 ≤ left → 0 ≤ right → left + right + 1 + n = length → pivot = (if flag then length - right - 1 else left) →
      read buf (base + pivot) = some p → Reg buf base (base + left) (GE cmp p) →
      Reg buf (base + length - right) (base + length) (LE cmp p) →
      ∃ buf', Win buf buf' base (base + length) ∧
        (partLoop cmp base length pivot left right flag buf = some (.err buf') ∧ (∃ a b, cmp a b = none) ∨
         ∃ l r, partLoop cmp base length pivot left right flag buf = some (.ok (l, l, r) buf') ∧ 0 ≤ l ∧ 0 ≤ r ∧
          l + r + 1 = length ∧ read buf' (base + l) = some p ∧ Reg buf' base (base + l) (GE cmp p) ∧
          Reg buf' (base + length - r) (base + length) (LE cmp p)) := by
  intro n
  induction n with
  | zero =>
    intro pivot left right flag buf hl h0 h1 hn hpv hp hL hR
    refine ⟨buf, .refl _ _ _, .inr ⟨left, right, ?_, h0, h1, by omega, ?_, hL, hR⟩⟩
    · have : pivot = left := by rw [hpv]; split <;> omega
      rw [partLoop, if_neg (by omega), this]
    · have : pivot = left := by rw [hpv]; split <;> omega
      rw [← this]; exact hp
  | succ n ih =>
    intro pivot left right flag buf hl h0 h1 hn hpv hp hL hR
    cases flag with
    | false =>
      simp only [Bool.false_eq_true, if_false] at hpv
      subst hpv
      obtain ⟨c, hc⟩ := read_some (buf := buf) (k := base + (length - right - 1)) (by omega) (by omega)
      cases ho : cmp p c with
      | none =>
        refine ⟨buf, .refl _ _ _, .inl ⟨?_, p, c, ho⟩⟩
        rw [partLoop, if_pos (by omega)]
        simp only [Bool.false_eq_true, if_false, hp, hc, ho]
      | some o =>
        by_cases hle : o ≠ .gt
        · have step : partLoop cmp base length pivot pivot right false buf
              = partLoop cmp base length pivot pivot (right + 1) false buf := by
            rw [partLoop.eq_def, if_pos (by omega)]
            simp only [Bool.false_eq_true, if_false, hp, hc, ho]
            simp [hle]
          rw [step]
          refine ih pivot pivot (right + 1) false buf hl h0 (by omega) (by omega) (by simp) hp hL ?_
          intro k h3 h4
          by_cases hk : k = base + (length - right - 1)
          · subst hk; exact ⟨c, hc, o, ho, hle⟩
          · exact hR k (by omega) h4
        · obtain ⟨buf1, e1, w1, g1⟩ := swap_spec (buf := buf) (lo := base) (hi := base + length) (by omega) (by omega)
            (by omega) (by omega) hp hc
          have step : partLoop cmp base length pivot pivot right false buf
              = partLoop cmp base length (length - right - 1) (pivot + 1) right true buf1 := by
            rw [partLoop.eq_def, if_pos (by omega)]
            simp only [Bool.false_eq_true, if_false, hp, hc, ho, e1]
            simp at hle
            simp [hle]
          rw [step]
          obtain ⟨buf2, w2, h⟩ := ih (length - right - 1) (pivot + 1) right true buf1 (by rw [w1.len]; exact hl) (by omega)
            h1 (by omega) (by simp) (by rw [g1, if_pos rfl]) (by
              intro k h3 h4
              rw [g1]
              by_cases hk : k = base + pivot
              · refine ⟨c, ?_, o, ho, ?_⟩
                · rw [if_neg (by omega), if_pos hk]
                · simp at hle; rw [hle]; exact fun h => nomatch h
              · rw [if_neg (by omega), if_neg hk]
                exact hL k h3 (by omega)) (by
              intro k h3 h4
              rw [g1, if_neg (by omega), if_neg (by omega)]
              exact hR k h3 h4)
          exact ⟨buf2, w1.trans w2, h⟩
    | true =>
      simp only [if_true] at hpv
      subst hpv
      obtain ⟨c, hc⟩ := read_some (buf := buf) (k := base + left) (by omega) (by omega)
      cases ho : cmp p c with
      | none =>
        refine ⟨buf, .refl _ _ _, .inl ⟨?_, p, c, ho⟩⟩
        rw [partLoop, if_pos (by omega)]
        simp only [if_true, hp, hc, ho]
      | some o =>
        by_cases hge : o ≠ .lt
        · have step : partLoop cmp base length (length - right - 1) left right true buf
              = partLoop cmp base length (length - right - 1) (left + 1) right true buf := by
            rw [partLoop.eq_def, if_pos (by omega)]
            simp only [if_true, hp, hc, ho]
            simp [hge]
          rw [step]
          refine ih (length - right - 1) (left + 1) right true buf hl (by omega) h1 (by omega) (by simp) hp ?_ hR
          intro k h3 h4
          by_cases hk : k = base + left
          · subst hk; exact ⟨c, hc, o, ho, hge⟩
          · exact hL k h3 (by omega)
        · obtain ⟨buf1, e1, w1, g1⟩ := swap_spec (buf := buf) (lo := base) (hi := base + length) (by omega) (by omega)
            (by omega) (by omega) hp hc
          have step : partLoop cmp base length (length - right - 1) left right true buf
              = partLoop cmp base length left left (right + 1) false buf1 := by
            rw [partLoop.eq_def, if_pos (by omega)]
            simp only [if_true, hp, hc, ho, e1]
            simp at hge
            simp [hge]
          rw [step]
          obtain ⟨buf2, w2, h⟩ := ih left left (right + 1) false buf1 (by rw [w1.len]; exact hl) (by omega)
            (by omega) (by omega) (by simp) (by rw [g1, if_pos rfl]) (by
              intro k h3 h4
              rw [g1, if_neg (by omega), if_neg (by omega)]
              exact hL k h3 h4) (by
              intro k h3 h4
              rw [g1]
              by_cases hk : k = base + (length - right - 1)
              · refine ⟨c, ?_, o, ho, ?_⟩
                · rw [if_neg (by omega), if_pos hk]
                · simp at hge; rw [hge]; exact fun h => nomatch h
              · rw [if_neg (by omega), if_neg hk]
                exact hR k (by omega) h4)
          exact ⟨buf2, w1.trans w2, h⟩

/-- Collecting equal elements on the left, for any comparison. -/
theorem leftLoop_spec {base pivot : Int} (p : α) (_hb : 0 ≤ base) :
    ∀ (n : Nat) (reading writing : Int) (buf : List α), base + pivot < buf.length → reading + 1 = n → reading ≤ writing →
      writing < pivot → read buf (base + pivot) = some p → Reg buf base (base + pivot) (GE cmp p) →
      Reg buf (base + reading + 1) (base + writing + 1) (fun x => cmp p x = some .gt) →
      Reg buf (base + writing + 1) (base + pivot) (fun x => cmp p x = some .eq) →
      ∃ buf' l, Win buf buf' base (base + pivot) ∧
        leftLoop cmp base pivot reading writing buf = some (.ok l buf') ∧ 0 ≤ l ∧ l ≤ pivot ∧
        Reg buf' base (base + l) (fun x => cmp p x = some .gt) ∧
        Reg buf' (base + l) (base + pivot) (fun x => cmp p x = some .eq) := by
  intro n
  induction n with
  | zero =>
    intro reading writing buf hl hn hrw hwp hp hG hgt heq
    refine ⟨buf, writing + 1, .refl _ _ _, ?_, by omega, by omega, ?_, ?_⟩
    · rw [leftLoop, if_neg (by omega)]
    · have : base = base + reading + 1 := by omega
      rw [← Int.add_assoc]
      intro k h1 h2
      exact hgt k (by omega) h2
    · rw [← Int.add_assoc]; exact heq
  | succ n ih =>
    intro reading writing buf hl hn hrw hwp hp hG hgt heq
    obtain ⟨c, hc, o, ho, hlt⟩ := hG (base + reading) (by omega) (by omega)
    cases o with
    | lt => exact absurd rfl hlt
    | gt =>
      have step : leftLoop cmp base pivot reading writing buf = leftLoop cmp base pivot (reading - 1) writing buf := by
        rw [leftLoop.eq_def, if_pos (by omega)]
        simp only [hp, hc, ho]
      rw [step]
      refine ih (reading - 1) writing buf hl (by omega) (by omega) hwp hp hG ?_ heq
      intro k h1 h2
      by_cases hk : k = base + reading
      · subst hk; exact ⟨c, hc, ho⟩
      · exact hgt k (by omega) h2
    | eq =>
      by_cases hne : reading = writing
      · have step : leftLoop cmp base pivot reading writing buf
            = leftLoop cmp base pivot (reading - 1) (writing - 1) buf := by
          rw [leftLoop.eq_def, if_pos (by omega)]
          simp only [hp, hc, ho]
          simp [hne]
        rw [step]
        refine ih (reading - 1) (writing - 1) buf hl (by omega) (by omega) (by omega) hp hG ?_ ?_
        · intro k h1 h2; omega
        · intro k h1 h2
          by_cases hk : k = base + reading
          · subst hk; exact ⟨c, hc, ho⟩
          · exact heq k (by omega) h2
      · obtain ⟨d, hd, hdgt⟩ := hgt (base + writing) (by omega) (by omega)
        obtain ⟨buf1, e1, w1, g1⟩ := swap_spec (buf := buf) (lo := base) (hi := base + pivot) (by omega) (by omega)
          (by omega) (by omega) hc hd
        have step : leftLoop cmp base pivot reading writing buf
            = leftLoop cmp base pivot (reading - 1) (writing - 1) buf1 := by
          rw [leftLoop.eq_def, if_pos (by omega)]
          simp only [hp, hc, ho, e1]
          simp [hne]
        rw [step]
        obtain ⟨buf2, l, w2, h⟩ := ih (reading - 1) (writing - 1) buf1 (by rw [w1.len]; exact hl) (by omega) (by omega)
          (by omega) (by rw [w1.out _ (by omega)]; exact hp) (w1.reg hG) (by
            intro k h1 h2
            rw [g1, if_neg (by omega)]
            by_cases hk : k = base + reading
            · exact ⟨d, by rw [if_pos hk], hdgt⟩
            · rw [if_neg hk]; exact hgt k (by omega) (by omega)) (by
            intro k h1 h2
            rw [g1]
            by_cases hk : k = base + writing
            · exact ⟨c, by rw [if_pos hk], ho⟩
            · rw [if_neg hk, if_neg (by omega)]; exact heq k (by omega) h2)
        exact ⟨buf2, l, w1.trans w2, h⟩

/-- Collecting equal elements on the right, for any comparison. -/
theorem rightLoop_spec {base length pivot : Int} (p : α) (_hb : 0 ≤ base) (_h0 : 0 ≤ pivot) :
    ∀ (n : Nat) (reading writing : Int) (buf : List α), base + length ≤ buf.length → reading + n = length →
      writing ≤ reading → pivot < writing → read buf (base + pivot) = some p →
      Reg buf (base + pivot + 1) (base + length) (LE cmp p) →
      Reg buf (base + pivot + 1) (base + writing) (fun x => cmp p x = some .eq) →
      Reg buf (base + writing) (base + reading) (fun x => cmp p x = some .lt) →
      ∃ buf' r, Win buf buf' (base + pivot + 1) (base + length) ∧
        rightLoop cmp base length pivot reading writing buf = some (.ok r buf') ∧ 0 ≤ r ∧ pivot < length - r ∧
        Reg buf' (base + pivot + 1) (base + length - r) (fun x => cmp p x = some .eq) ∧
        Reg buf' (base + length - r) (base + length) (fun x => cmp p x = some .lt) := by
  intro n
  induction n with
  | zero =>
    intro reading writing buf hl hn hrw hwp hp hG heq hlt
    refine ⟨buf, length - writing, .refl _ _ _, ?_, by omega, by omega, ?_, ?_⟩
    · rw [rightLoop, if_neg (by omega)]
    · intro k h1 h2; exact heq k h1 (by omega)
    · intro k h1 h2; exact hlt k (by omega) (by omega)
  | succ n ih =>
    intro reading writing buf hl hn hrw hwp hp hG heq hlt
    obtain ⟨c, hc, o, ho, hgt⟩ := hG (base + reading) (by omega) (by omega)
    cases o with
    | gt => exact absurd rfl hgt
    | lt =>
      have step : rightLoop cmp base length pivot reading writing buf
          = rightLoop cmp base length pivot (reading + 1) writing buf := by
        rw [rightLoop.eq_def, if_pos (by omega)]
        simp [hp, hc, ho]
      rw [step]
      refine ih (reading + 1) writing buf hl (by omega) (by omega) hwp hp hG heq ?_
      intro k h1 h2
      by_cases hk : k = base + reading
      · subst hk; exact ⟨c, hc, ho⟩
      · exact hlt k h1 (by omega)
    | eq =>
      by_cases hne : reading = writing
      · have step : rightLoop cmp base length pivot reading writing buf
            = rightLoop cmp base length pivot (reading + 1) (writing + 1) buf := by
          rw [rightLoop.eq_def, if_pos (by omega)]
          simp only [hp, hc, ho]
          simp [hne]
        rw [step]
        refine ih (reading + 1) (writing + 1) buf hl (by omega) (by omega) (by omega) hp hG ?_ ?_
        · intro k h1 h2
          by_cases hk : k = base + reading
          · subst hk; exact ⟨c, hc, ho⟩
          · exact heq k h1 (by omega)
        · intro k h1 h2; omega
      · obtain ⟨d, hd, hdlt⟩ := hlt (base + writing) (by omega) (by omega)
        obtain ⟨buf1, e1, w1, g1⟩ := swap_spec (buf := buf) (lo := base + pivot + 1) (hi := base + length) (by omega)
          (by omega) (by omega) (by omega) hc hd
        have step : rightLoop cmp base length pivot reading writing buf
            = rightLoop cmp base length pivot (reading + 1) (writing + 1) buf1 := by
          rw [rightLoop.eq_def, if_pos (by omega)]
          simp only [hp, hc, ho, e1]
          simp [hne]
        rw [step]
        obtain ⟨buf2, l, w2, h⟩ := ih (reading + 1) (writing + 1) buf1 (by rw [w1.len]; exact hl) (by omega) (by omega)
          (by omega) (by rw [w1.out _ (by omega)]; exact hp) (w1.reg hG) (by
            intro k h1 h2
            rw [g1]
            by_cases hk : k = base + writing
            · exact ⟨c, by rw [if_pos hk], ho⟩
            · rw [if_neg hk, if_neg (by omega)]; exact heq k h1 (by omega)) (by
            intro k h1 h2
            rw [g1, if_neg (by omega)]
            by_cases hk : k = base + reading
            · exact ⟨d, by rw [if_pos hk], hdlt⟩
            · rw [if_neg hk]; exact hlt k (by omega) (by omega))
        exact ⟨buf2, l, w1.trans w2, h⟩

/-- One round of the outer loop, for any comparison. -/
theorem partition_spec {base length : Int} {buf : List α} (hb : 0 ≤ base) (hl : 0 < length)
    (hbuf : base + length ≤ buf.length) :
    ∃ buf', Win buf buf' base (base + length) ∧
      (partition cmp base length buf = some (.err buf') ∧ (∃ a b, cmp a b = none) ∨
       ∃ l r p, partition cmp base length buf = some (.ok (l, r) buf') ∧ 0 ≤ l ∧ 0 ≤ r ∧ l + r + 1 ≤ length ∧
        Reg buf' base (base + l) (fun x => cmp p x = some .gt) ∧
        Reg buf' (base + l) (base + length - r) (fun x => cmp p x = some .eq ∨ x = p) ∧
        Reg buf' (base + length - r) (base + length) (fun x => cmp p x = some .lt)) := by
  obtain ⟨p, hp⟩ := read_some (buf := buf) (k := base + 0) (by omega) (by omega)
  obtain ⟨buf1, w1, h1⟩ := partLoop_spec (cmp := cmp) p hb (length - 1).toNat 0 0 0 false buf hbuf (by omega) (by omega)
    (by omega) (by simp) hp (fun k h3 h4 => by omega) (fun k h3 h4 => by omega)
  rcases h1 with ⟨e1, hn⟩ | ⟨l1, r1, e1, hl1, hr1, hlr, hp1, hG, hL⟩
  · exact ⟨buf1, w1, .inl ⟨by simp only [partition, e1, Option.bind_some], hn⟩⟩
  · obtain ⟨buf2, l, w2, e2, hl2, hl2', hgt, heq⟩ := leftLoop_spec (cmp := cmp) (pivot := l1) p hb l1.toNat (l1 - 1) (l1 - 1) buf1
      (by rw [w1.len]; omega) (by omega) (by omega) (by omega) hp1 hG (fun k h3 h4 => by omega)
      (fun k h3 h4 => by omega)
    have hp2 : read buf2 (base + l1) = some p := by rw [w2.out _ (by omega)]; exact hp1
    have hL2 : Reg buf2 (base + l1 + 1) (base + length) (LE cmp p) := by
      have := w2.reg_out hL (by omega)
      intro k h3 h4
      exact this k (by omega) h4
    obtain ⟨buf3, r, w3, e3, hr3, hr3', heq3, hlt3⟩ := rightLoop_spec (cmp := cmp) (pivot := l1) (length := length) p hb hl1 r1.toNat
      (length - r1) (length - r1) buf2 (by rw [w2.len, w1.len]; omega) (by omega) (by omega) (by omega) hp2 hL2
      (fun k h3 h4 => by omega) (fun k h3 h4 => by omega)
    refine ⟨buf3, w1.trans ((w2.mono (by omega) (by omega)).trans (w3.mono (by omega) (by omega))), .inr
      ⟨l, r, p, ?_, hl2, hr3, by omega, w3.reg_out hgt (by omega), ?_, hlt3⟩⟩
    · simp only [partition, e1, e2, e3, Option.bind_some, Option.map_some]
    · intro k h3 h4
      by_cases hk : k = base + l1
      · subst hk; exact ⟨p, by rw [w3.out _ (by omega)]; exact hp2, .inr rfl⟩
      · by_cases hk' : k < base + l1
        · obtain ⟨x, hx, hx'⟩ := w3.reg_out heq (by omega) k h3 hk'
          exact ⟨x, hx, .inl hx'⟩
        · obtain ⟨x, hx, hx'⟩ := heq3 k (by omega) h4
          exact ⟨x, hx, .inl hx'⟩

/-- the bound of the recursion depth -/
def depthBound (n : Nat) : Nat := if n = 0 then 0 else Nat.log2 n + 1

theorem depthBound_mono {m n : Nat} (h : m ≤ n) : depthBound m ≤ depthBound n := by
  unfold depthBound
  split
  · omega
  · rename_i hm
    rw [if_neg (by omega)]
    have : m.log2 ≤ n.log2 := (Nat.le_log2 (by omega)).2 (Nat.le_trans (Nat.log2_self_le hm) h)
    omega

theorem depthBound_half {m n : Nat} (h : 2 * m + 1 ≤ n) : depthBound m + 1 ≤ depthBound n := by
  unfold depthBound
  split
  · rw [if_neg (by omega)]; omega
  · rename_i hm
    rw [if_neg (by omega)]
    have : m.log2 + 1 ≤ n.log2 := by
      refine (Nat.le_log2 (by omega)).2 ?_
      have := Nat.log2_self_le hm
      rw [Nat.pow_succ]; omega
    omega

/-- in `[lo, hi)` no element is greater than a later one -/
def SortedIn (ord : α → α → Ordering) (buf : List α) (lo hi : Int) : Prop :=
  ∀ i j x y, lo ≤ i → i < j → j < hi → read buf i = some x → read buf j = some y → ord x y ≠ .gt

theorem SortedIn.out {ord : α → α → Ordering} {a b : List α} {lo hi lo' hi' : Int} (h : SortedIn ord a lo hi)
    (w : Win a b lo' hi') (hd : hi ≤ lo' ∨ hi' ≤ lo) : SortedIn ord b lo hi := by
  intro i j x y h1 h2 h3 hx hy
  rw [w.out _ (by omega)] at hx hy
  exact h i j x y h1 h2 h3 hx hy

theorem sortedIn_join {ord : α → α → Ordering} [Std.TransCmp ord] {buf : List α} {p : α} {lo m1 m2 hi : Int}
    (hl : SortedIn ord buf lo m1) (hr : SortedIn ord buf m2 hi) (_h12 : m1 ≤ m2)
    (rl : Reg buf lo m1 (fun x => ord p x = .gt)) (re : Reg buf m1 m2 (fun x => ord p x = .eq))
    (rr : Reg buf m2 hi (fun x => ord p x = .lt)) : SortedIn ord buf lo hi := by
  intro i j x y h1 h2 h3 hx hy
  have cl : ∀ {k z}, lo ≤ k → k < m1 → read buf k = some z → ord z p = .lt := by
    intro k z g1 g2 hz
    obtain ⟨z', hz', h⟩ := rl k g1 g2
    rw [hz] at hz'; cases hz'
    rw [Std.OrientedCmp.eq_swap (cmp := ord), h]; rfl
  have ce : ∀ {k z}, m1 ≤ k → k < m2 → read buf k = some z → ord p z = .eq := by
    intro k z g1 g2 hz
    obtain ⟨z', hz', h⟩ := re k g1 g2
    rw [hz] at hz'; cases hz'; exact h
  have cr : ∀ {k z}, m2 ≤ k → k < hi → read buf k = some z → ord p z = .lt := by
    intro k z g1 g2 hz
    obtain ⟨z', hz', h⟩ := rr k g1 g2
    rw [hz] at hz'; cases hz'; exact h
  by_cases hi1 : i < m1
  · by_cases hj1 : j < m1
    · exact hl i j x y h1 h2 hj1 hx hy
    · have e1 := cl h1 hi1 hx
      have e2 : (ord p y).isLE := by
        by_cases hj2 : j < m2
        · rw [ce (by omega) hj2 hy]; rfl
        · rw [cr (by omega) h3 hy]; rfl
      have := Std.TransCmp.isLE_trans (cmp := ord) (a := x) (b := p) (c := y) (by rw [e1]; rfl) e2
      intro h; rw [h] at this; cases this
  · by_cases hi2 : i < m2
    · have e1 := ce (by omega) hi2 hx
      have e1' : ord x p = .eq := by rw [Std.OrientedCmp.eq_swap (cmp := ord), e1]; rfl
      have e2 : (ord p y).isLE := by
        by_cases hj2 : j < m2
        · rw [ce (by omega) hj2 hy]; rfl
        · rw [cr (by omega) h3 hy]; rfl
      have := Std.TransCmp.isLE_trans (cmp := ord) (a := x) (b := p) (c := y) (by rw [e1']; rfl) e2
      intro h; rw [h] at this; cases this
    · exact hr i j x y (by omega) h2 h3 hx hy

/-- The whole algorithm: for any comparison it ends, stays inside the window, only moves elements and nests at most
`depthBound` recursive calls; for a comparison that follows a total preorder it sorts. -/
theorem sort_spec : ∀ (n : Nat) (base length : Int) (d : Nat) (buf : List α), length = n → 0 ≤ base →
    base + length ≤ buf.length →
    ∃ buf', Win buf buf' base (base + length) ∧
      (sort cmp base length d buf = some (.err buf') ∧ (∃ a b, cmp a b = none) ∨
       ∃ d', sort cmp base length d buf = some (.ok d' buf') ∧ d' ≤ max d (depthBound n) ∧
        ∀ (ord : α → α → Ordering) [Std.TransCmp ord], (∀ a b, cmp a b = some (ord a b)) →
          SortedIn ord buf' base (base + length)) := by
  intro n
  induction n using Nat.strongRecOn with
  | ind n ih =>
    intro base length d buf hn hb hl
    by_cases h0 : length = 0
    · subst h0
      refine ⟨buf, .refl _ _ _, .inr ⟨d, by rw [sort, if_pos rfl], by omega, ?_⟩⟩
      intro ord _ _ i j x y h1 h2 h3
      omega
    · obtain ⟨buf1, w1, h1⟩ := partition_spec (cmp := cmp) (buf := buf) hb (by omega) hl
      rcases h1 with ⟨e1, hn1⟩ | ⟨l, r, p, e1, hl1, hr1, hlr, hgt, heq, hlt⟩
      · refine ⟨buf1, w1, .inl ⟨?_, hn1⟩⟩
        rw [sort, if_neg h0, e1]; rfl
      · by_cases hlt' : l < r
        · obtain ⟨buf2, w2, h2⟩ := ih l.toNat (by omega) base l 0 buf1 (by omega) hb (by rw [w1.len]; omega)
          rcases h2 with ⟨e2, hn2⟩ | ⟨d2, e2, hd2, hs2⟩
          · refine ⟨buf2, w1.trans (w2.mono (by omega) (by omega)), .inl ⟨?_, hn2⟩⟩
            rw [sort, if_neg h0, e1]
            simp only [Option.bind_eq_bind, Option.bind_some, if_pos hlt', e2]
          · obtain ⟨buf3, w3, h3⟩ := ih r.toNat (by omega) (base + length - r) r (max d (d2 + 1)) buf2 (by omega) (by omega)
              (by rw [w2.len, w1.len]; omega)
            have ehi : base + length - r + r = base + length := by omega
            rw [ehi] at w3 h3
            have w := w1.trans ((w2.mono (by omega) (by omega)).trans (w3.mono (by omega) (by omega)))
            have e : sort cmp base length d buf = sort cmp (base + length - r) r (max d (d2 + 1)) buf2 := by
              rw [sort.eq_def, if_neg h0, e1]
              simp only [Option.bind_eq_bind, Option.bind_some, if_pos hlt', e2]
            rcases h3 with ⟨e3, hn3⟩ | ⟨d3, e3, hd3, hs3⟩
            · exact ⟨buf3, w, .inl ⟨e.trans e3, hn3⟩⟩
            · refine ⟨buf3, w, .inr ⟨d3, e.trans e3, ?_, ?_⟩⟩
              · have g1 := depthBound_half (m := l.toNat) (n := n) (by omega)
                have g2 := depthBound_mono (m := r.toNat) (n := n) (by omega)
                omega
              · intro ord _ hcmp
                refine sortedIn_join (p := p) (m1 := base + l) (m2 := base + length - r)
                  ((hs2 ord hcmp).out w3 (by omega)) (hs3 ord hcmp) (by omega) ?_ ?_ ?_
                · intro k g1 g2
                  obtain ⟨x, hx, h⟩ := w3.reg_out (w2.reg hgt) (by omega) k g1 g2
                  exact ⟨x, hx, by rw [hcmp] at h; exact Option.some.inj h⟩
                · intro k g1 g2
                  obtain ⟨x, hx, h⟩ := w3.reg_out (w2.reg_out heq (by omega)) (by omega) k g1 g2
                  refine ⟨x, hx, ?_⟩
                  rcases h with h | h
                  · rw [hcmp] at h; exact Option.some.inj h
                  · subst h; exact Std.ReflCmp.compare_self
                · intro k g1 g2
                  obtain ⟨x, hx, h⟩ := w3.reg (w2.reg_out hlt (by omega)) k g1 g2
                  exact ⟨x, hx, by rw [hcmp] at h; exact Option.some.inj h⟩
        · obtain ⟨buf2, w2, h2⟩ := ih r.toNat (by omega) (base + length - r) r 0 buf1 (by omega) (by omega)
            (by rw [w1.len]; omega)
          have ehi : base + length - r + r = base + length := by omega
          rw [ehi] at w2 h2
          rcases h2 with ⟨e2, hn2⟩ | ⟨d2, e2, hd2, hs2⟩
          · refine ⟨buf2, w1.trans (w2.mono (by omega) (by omega)), .inl ⟨?_, hn2⟩⟩
            rw [sort, if_neg h0, e1]
            simp only [Option.bind_eq_bind, Option.bind_some, if_neg hlt', e2]
          · obtain ⟨buf3, w3, h3⟩ := ih l.toNat (by omega) base l (max d (d2 + 1)) buf2 (by omega) (by omega)
              (by rw [w2.len, w1.len]; omega)
            have w := w1.trans ((w2.mono (by omega) (by omega)).trans (w3.mono (by omega) (by omega)))
            have e : sort cmp base length d buf = sort cmp base l (max d (d2 + 1)) buf2 := by
              rw [sort.eq_def, if_neg h0, e1]
              simp only [Option.bind_eq_bind, Option.bind_some, if_neg hlt', e2]
            rcases h3 with ⟨e3, hn3⟩ | ⟨d3, e3, hd3, hs3⟩
            · exact ⟨buf3, w, .inl ⟨e.trans e3, hn3⟩⟩
            · refine ⟨buf3, w, .inr ⟨d3, e.trans e3, ?_, ?_⟩⟩
              · have g1 := depthBound_half (m := r.toNat) (n := n) (by omega)
                have g2 := depthBound_mono (m := l.toNat) (n := n) (by omega)
                omega
              · intro ord _ hcmp
                refine sortedIn_join (p := p) (m1 := base + l) (m2 := base + length - r)
                  (hs3 ord hcmp) ((hs2 ord hcmp).out w3 (by omega)) (by omega) ?_ ?_ ?_
                · intro k g1 g2
                  obtain ⟨x, hx, h⟩ := w3.reg (w2.reg_out hgt (by omega)) k g1 g2
                  exact ⟨x, hx, by rw [hcmp] at h; exact Option.some.inj h⟩
                · intro k g1 g2
                  obtain ⟨x, hx, h⟩ := w3.reg_out (w2.reg_out heq (by omega)) (by omega) k g1 g2
                  refine ⟨x, hx, ?_⟩
                  rcases h with h | h
                  · rw [hcmp] at h; exact Option.some.inj h
                  · subst h; exact Std.ReflCmp.compare_self
                · intro k g1 g2
                  obtain ⟨x, hx, h⟩ := w3.reg_out (w2.reg hlt) (by omega) k g1 g2
                  exact ⟨x, hx, by rw [hcmp] at h; exact Option.some.inj h⟩

theorem sortedIn_pairwise {ord : α → α → Ordering} {buf : List α} (h : SortedIn ord buf 0 buf.length) :
    buf.Pairwise (fun x y => ord x y ≠ .gt) := by
  rw [List.pairwise_iff_getElem]
  intro i j hi hj hij
  refine h i j _ _ (by omega) (by omega) (by omega) ?_ ?_
  · simp [read]
  · simp [read]

end QSort
end Vlpp
