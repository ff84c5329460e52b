import Verif.Props.NumberProps

/-! # C92: what the integer parsers return for strings that are not numerals -/
set_option autoImplicit false
namespace Vlpp
open Number Spec

namespace Number
variable {space : Nat → Bool}

theorem skipSpaces_prefix {ws : List Nat} (hw : ∀ c ∈ ws, space c = true) {c : Nat} (hc : space c = false) (cs : List Nat)
    (k : Nat) : skipSpaces space (ws ++ c :: cs) k = some (c :: cs, k + ws.length) := by
  induction ws generalizing k with
  | nil => simp [skipSpaces, hc]
  | cons w ws ih =>
    rw [List.cons_append, skipSpaces, if_pos (hw w (by simp)), ih (fun c h => hw c (by simp [h]))]
    simp only [List.length_cons]
    congr 2
    omega

theorem readDigits_prefix {ds : List Nat} (hd : ∀ d ∈ ds, 48 ≤ d ∧ d ≤ 57) {c : Nat} (hc : ¬ (48 ≤ c ∧ c ≤ 57)) (cs : List Nat)
    (acc k : Nat) :
    readDigits (ds ++ c :: cs) acc k = some (ds.foldl (fun a d => 10 * a + (d - 48)) acc, k + ds.length) := by
  induction ds generalizing acc k with
  | nil => simp [readDigits, hc]
  | cons d ds ih =>
    rw [List.cons_append, readDigits, if_pos (hd d (by simp)), ih (fun e he => hd e (by simp [he]))]
    simp only [List.foldl_cons, List.length_cons]
    congr 2
    · rw [Nat.mul_comm]
    · omega

theorem scan_leading (hs : SaneSpaces space) (h43 : space 43 = false) {s : List Nat} {neg : Bool} {n : Nat}
    (h : LeadingNumber space s neg n) : ∃ k, scan space (s ++ [0]) = some (neg, n, k) := by
  obtain ⟨ws, sign, ds, rest, rfl, hw, hsign, hne, hd, hr, rfl⟩ := h
  obtain ⟨c, cs, hrest, hc⟩ : ∃ c cs, rest ++ [0] = c :: cs ∧ ¬ (48 ≤ c ∧ c ≤ 57) := by
    cases rest with
    | nil => exact ⟨0, [], rfl, by omega⟩
    | cons c cs => exact ⟨c, cs ++ [0], rfl, hr c rfl⟩
  have hl : 0 < ds.length := List.length_pos_iff.2 hne
  have hread := fun k => readDigits_prefix hd hc cs 0 k
  have hfold : ds.foldl (fun a d => 10 * a + (d - 48)) 0 = digitsValue ds := rfl
  have e : ∀ sg, (ws ++ (sg ++ (ds ++ rest))) ++ [0] = ws ++ (sg ++ (ds ++ c :: cs)) := by
    intro sg; simp [← hrest]
  rw [e]
  unfold scan
  rcases hsign with ⟨rfl, rfl⟩ | ⟨rfl | rfl, rfl⟩
  · rw [show [45] ++ (ds ++ c :: cs) = 45 :: (ds ++ c :: cs) from rfl, skipSpaces_prefix hw hs.2.1]
    simp only [if_true, hread, hfold]
    rw [if_neg (by omega)]
    exact ⟨_, rfl⟩
  · rw [show [43] ++ (ds ++ c :: cs) = 43 :: (ds ++ c :: cs) from rfl, skipSpaces_prefix hw h43]
    simp only [if_true]
    rw [if_neg (by omega)]
    simp only [hread, hfold]
    rw [if_neg (by omega)]
    exact ⟨_, rfl⟩
  · obtain ⟨d, ds', rfl⟩ := List.exists_cons_of_ne_nil hne
    have hd0 := hd d (by simp)
    rw [show [] ++ (d :: ds' ++ c :: cs) = d :: (ds' ++ c :: cs) from rfl, skipSpaces_prefix hw (hs.2.2 d hd0.1 hd0.2)]
    simp only
    rw [if_neg (by omega), if_neg (by omega)]
    simp only
    rw [show d :: (ds' ++ c :: cs) = d :: ds' ++ c :: cs from rfl, hread]
    simp only [hfold]
    rw [if_neg (by omega)]
    exact ⟨_, rfl⟩

theorem skipSpaces_split (h0 : space 0 = false) (s : List Nat) (k : Nat) :
    ∃ ws cs, s = ws ++ cs ∧ (∀ c ∈ ws, space c = true) ∧ skipSpaces space (s ++ [0]) k = some (cs ++ [0], k + ws.length) := by
  induction s generalizing k with
  | nil => exact ⟨[], [], rfl, by simp, by simp [skipSpaces, h0]⟩
  | cons c s ih =>
    rw [List.cons_append, skipSpaces]
    split
    · next h =>
      obtain ⟨ws, cs, rfl, hw, e⟩ := ih (k + 1)
      refine ⟨c :: ws, cs, rfl, ?_, ?_⟩
      · intro x hx
        rcases List.mem_cons.1 hx with rfl | hx
        · exact h
        · exact hw x hx
      · rw [e]; simp only [List.length_cons]; congr 2; omega
    · exact ⟨[], c :: s, rfl, by simp, by simp⟩

theorem readDigits_split (s : List Nat) (k : Nat) :
    ∃ ds rest, s = ds ++ rest ∧ (∀ d ∈ ds, 48 ≤ d ∧ d ≤ 57) ∧ (∀ c, rest.head? = some c → ¬ (48 ≤ c ∧ c ≤ 57)) ∧
      readDigits (s ++ [0]) 0 k = some (digitsValue ds, k + ds.length) := by
  have key : ∃ ds rest, s = ds ++ rest ∧ (∀ d ∈ ds, 48 ≤ d ∧ d ≤ 57) ∧ ∀ c, rest.head? = some c → ¬ (48 ≤ c ∧ c ≤ 57) := by
    induction s with
    | nil => exact ⟨[], [], rfl, by simp, by simp⟩
    | cons c s ih =>
      by_cases hc : 48 ≤ c ∧ c ≤ 57
      · obtain ⟨ds, rest, rfl, h1, h2⟩ := ih
        refine ⟨c :: ds, rest, rfl, ?_, h2⟩
        intro d hd
        rcases List.mem_cons.1 hd with rfl | hd
        · exact hc
        · exact h1 d hd
      · exact ⟨[], c :: s, rfl, by simp, by simp; omega⟩
  obtain ⟨ds, rest, rfl, h1, h2⟩ := key
  refine ⟨ds, rest, rfl, h1, h2, ?_⟩
  cases rest with
  | nil => rw [List.append_nil, readDigits_all ds h1]; rfl
  | cons c cs => rw [List.append_assoc, List.cons_append, readDigits_prefix h1 (h2 c rfl)]; rfl

theorem scan_cases (h0 : space 0 = false) (s : List Nat) :
    ∃ neg n k, scan space (s ++ [0]) = some (neg, n, k) ∧ (LeadingNumber space s neg n ∨ n = 0) := by
  obtain ⟨ws, cs, rfl, hw, e⟩ := skipSpaces_split h0 s 0
  -- the digits behind `sign`
  have tail : ∀ (neg : Bool) (sign ys : List Nat), cs = sign ++ ys →
      ((sign = [45] ∧ neg = true) ∨ ((sign = [43] ∨ sign = []) ∧ neg = false)) → ∀ k : Nat,
      ∃ m k', readDigits (ys ++ [0]) 0 k = some (m, k') ∧ (k' = k ∨ LeadingNumber space (ws ++ cs) neg m) := by
    intro neg sign ys hcs hsign k
    obtain ⟨ds, rest, rfl, h1, h2, h3⟩ := readDigits_split ys k
    refine ⟨_, _, h3, ?_⟩
    by_cases hne : ds = []
    · left; simp [hne]
    · right
      exact ⟨ws, sign, ds, rest, by rw [hcs], hw, hsign, hne, h1, h2, rfl⟩
  unfold scan
  rw [e]
  cases cs with
  | nil => exact ⟨false, 0, 0, by simp [readDigits], .inr rfl⟩
  | cons c cs =>
    simp only [List.cons_append]
    by_cases h1 : c = 45
    · rw [if_pos h1]
      subst h1
      obtain ⟨m, k', e', h⟩ := tail true [45] cs rfl (.inl ⟨rfl, rfl⟩) (0 + ws.length + 1)
      simp only [e']
      split
      · exact ⟨_, _, _, rfl, .inr rfl⟩
      · next hk => exact ⟨_, _, _, rfl, .inl (h.resolve_left hk)⟩
    · rw [if_neg h1]
      by_cases h2 : c = 43
      · rw [if_pos h2]
        subst h2
        obtain ⟨m, k', e', h⟩ := tail false [43] cs rfl (.inr ⟨.inl rfl, rfl⟩) (0 + ws.length + 1)
        simp only [e']
        split
        · exact ⟨_, _, _, rfl, .inr rfl⟩
        · next hk => exact ⟨_, _, _, rfl, .inl (h.resolve_left hk)⟩
      · rw [if_neg h2]
        obtain ⟨m, k', e', h⟩ := tail false [] (c :: cs) rfl (.inr ⟨.inr rfl, rfl⟩) (0 + ws.length)
        rw [List.cons_append] at e'
        simp only [e']
        split
        · exact ⟨_, _, _, rfl, .inr rfl⟩
        · next hk => exact ⟨_, _, _, rfl, .inl (h.resolve_left hk)⟩

end Number

/-- **C92.** For every string, `atoi64_test`, `wtoi64_test`, `atoi_test` and `wtoi_test` all return the number the string
begins with, or the nearest number with 64 bits, and zero if it does not begin with a number. -/
theorem C92_signed (C : Chars) (hC : C.Sane) (h43 : C.space 43 = false) (s : List Nat) :
    ∃ r ok ok', atoi64_test C s = some (r, ok) ∧ atoi_test C s = some (r, ok') ∧
      (∀ neg n, LeadingNumber C.space s neg n →
        r = max (-9223372036854775808) (min 9223372036854775807 (if neg then -(n : Int) else n))) ∧
      ((∀ neg n, ¬ LeadingNumber C.space s neg n) → r = 0) := by
  obtain ⟨neg, n, k, e, hn⟩ := scan_cases hC.2.1 s
  let r : Int := max (-9223372036854775808) (min 9223372036854775807 (if neg then -(n : Int) else n))
  have hr : InI64 r := by
    show -9223372036854775808 ≤ max _ _ ∧ max _ _ ≤ 9223372036854775807
    omega
  have e1 : strtol C.space (s ++ [0]) = some (r, k) := by
    unfold strtol
    rw [e]
    simp only [Option.map_some, Option.some.injEq, Prod.mk.injEq, and_true]
    show _ = max _ (min _ _)
    generalize (if neg = true then -(n : Int) else (n : Int)) = v
    by_cases h1 : v < -9223372036854775808
    · rw [if_pos h1]; omega
    · rw [if_neg h1]
      by_cases h2 : v > 9223372036854775807
      · rw [if_pos h2]; omega
      · rw [if_neg h2]; omega
  refine ⟨r, decide (k = s.length) && decide (decimalInt r = s),
    if (decide (k = s.length) && decide (decimalInt r = s)) = true then
      (decide (k = s.length) && decide (decimalInt r = s)) && decide (-2147483648 ≤ r ∧ r ≤ 2147483647)
      else (decide (k = s.length) && decide (decimalInt r = s)), ?_, ?_, ?_, ?_⟩
  · unfold atoi64_test
    simp only [e1, i64toa_eq hC.1 hr]
  · unfold atoi_test
    simp only [e1, i64toa_eq hC.1 hr]
  · intro neg' n' h
    obtain ⟨k', e'⟩ := scan_leading hC.2 h43 h
    rw [e] at e'
    simp only [Option.some.injEq, Prod.mk.injEq] at e'
    obtain ⟨rfl, rfl, _⟩ := e'
    rfl
  · intro h
    have : n = 0 := hn.resolve_left (h neg n)
    show max _ (min _ (if neg = true then -(n : Int) else n)) = 0
    rw [this]
    cases neg <;> decide

/-- **C92.** `atou64_test`, `wtou64_test`, `atou_test` and `wtou_test`: a minus sign negates the number modulo 2^64. -/
theorem C92_unsigned (C : Chars) (hC : C.Sane) (h43 : C.space 43 = false) (s : List Nat) :
    ∃ r ok ok', atou64_test C s = some (r, ok) ∧ atou_test C s = some (r, ok') ∧
      (∀ neg n, LeadingNumber C.space s neg n →
        (n > 18446744073709551615 → r = 18446744073709551615) ∧
        (n ≤ 18446744073709551615 → r ≤ 18446744073709551615 ∧ (neg = false → r = n) ∧
          (neg = true → (r + n) % 18446744073709551616 = 0))) ∧
      ((∀ neg n, ¬ LeadingNumber C.space s neg n) → r = 0) := by
  obtain ⟨neg, n, k, e, hn⟩ := scan_cases hC.2.1 s
  obtain ⟨r, k', e1, hr⟩ := strtoul_total hC.2.1 s
  have hval : r = if n > 18446744073709551615 then 18446744073709551615
      else if neg then (18446744073709551616 - n) % 18446744073709551616 else n := by
    unfold strtoul at e1
    rw [e] at e1
    simp only [Option.map_some, Option.some.injEq, Prod.mk.injEq] at e1
    exact e1.1.symm
  refine ⟨r, decide (k' = s.length) && decide (decimalNat r = s),
    if (decide (k' = s.length) && decide (decimalNat r = s)) = true then
      (decide (k' = s.length) && decide (decimalNat r = s)) && decide (r ≤ 4294967295)
      else (decide (k' = s.length) && decide (decimalNat r = s)), ?_, ?_, ?_, ?_⟩
  · unfold atou64_test
    simp only [e1, u64toa_eq hC.1 hr]
  · unfold atou_test
    simp only [e1, u64toa_eq hC.1 hr]
  · intro neg' n' h
    obtain ⟨k', e'⟩ := scan_leading hC.2 h43 h
    rw [e] at e'
    simp only [Option.some.injEq, Prod.mk.injEq] at e'
    obtain ⟨rfl, rfl, _⟩ := e'
    constructor
    · intro h; rw [hval, if_pos h]
    · intro h
      rw [if_neg (by omega)] at hval
      refine ⟨hr, ?_, ?_⟩
      · rintro rfl; simpa using hval
      · rintro rfl
        simp only [if_true] at hval
        omega
  · intro h
    have : n = 0 := hn.resolve_left (h neg n)
    rw [hval, this]
    cases neg <;> decide

/-- `" +12x"`, `"-5"` and `"x"` -/
example : LeadingNumber narrow.space [32, 43, 49, 50, 120] false 12 ∧
    atoi64_test narrow [32, 43, 49, 50, 120] = some (12, false) ∧ LeadingNumber narrow.space [45, 53] true 5 ∧
    atou64_test narrow [45, 53] = some (18446744073709551611, false) ∧ atoi_test narrow [120] = some (0, false) := by
  refine ⟨⟨[32], [43], [49, 50], [120], rfl, by decide, .inr ⟨.inl rfl, rfl⟩, by decide, by decide, by simp, rfl⟩, ?_,
    ⟨[], [45], [53], [], rfl, by decide, .inl ⟨rfl, rfl⟩, by decide, by decide, by simp, rfl⟩, ?_, ?_⟩
  · simp [atoi64_test, strtol, scan, skipSpaces, readDigits, narrow, i64toa, printInto, decimalInt, decimalNat]
  · simp [atou64_test, strtoul, scan, skipSpaces, readDigits, narrow, u64toa, printInto, decimalNat]
  · simp [atoi_test, strtol, scan, skipSpaces, readDigits, narrow, i64toa, printInto, decimalInt, decimalNat]

end Vlpp
