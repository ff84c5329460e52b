import Verif.Model.Utf

set_option autoImplicit false
namespace Vlpp
namespace Utf

theorem or_add {x y : Nat} (i : Nat) (hx : x % 2 ^ i = 0) (hy : y < 2 ^ i) : x ||| y = x + y := by
  obtain ⟨k, rfl⟩ := Nat.dvd_of_mod_eq_zero hx
  exact (Nat.two_pow_add_eq_or_of_lt hy k).symm

theorem or_add' {x y : Nat} (i : Nat) (hx : x < 2 ^ i) (hy : y % 2 ^ i = 0) : x ||| y = x + y := by
  rw [Nat.or_comm, or_add i hy hx, Nat.add_comm]

theorem and_mask (x i : Nat) : x &&& (2 ^ i - 1) = x % 2 ^ i := Nat.and_two_pow_sub_one_eq_mod x i

theorem and63 (x : Nat) : x &&& 0b111111 = x % 64 := and_mask x 6
theorem and31 (x : Nat) : x &&& 0b11111 = x % 32 := and_mask x 5
theorem and15 (x : Nat) : x &&& 0b1111 = x % 16 := and_mask x 4
theorem and7 (x : Nat) : x &&& 0b111 = x % 8 := and_mask x 3
theorem and3 (x : Nat) : x &&& 0b11 = x % 4 := and_mask x 2
theorem and1 (x : Nat) : x &&& 0b1 = x % 2 := and_mask x 1
theorem and1023 (x : Nat) : x &&& 0x3FF = x % 1024 := and_mask x 10

/-- a continuation unit -/
theorem cont (x : Nat) : u8 (x &&& 0b111111 ||| 0b10000000) = x % 64 + 128 := by
  rw [and63, or_add' 6 (by omega) (by rfl)]
  unfold u8; omega

theorem shr (x i : Nat) : x >>> i = x / 2 ^ i := Nat.shiftRight_eq_div_pow x i
theorem shl (x i : Nat) : x <<< i = x * 2 ^ i := Nat.shiftLeft_eq x i

/-- the units as numbers -/
theorem from32_8_eq (c : Nat) : from32_8 c =
    if 0xD800 ≤ c ∧ c ≤ 0xDFFF then none
    else if c < 0x80 then some [c]
    else if c < 0x800 then some [c / 64 + 192, c % 64 + 128]
    else if c < 0x10000 then some [c / 4096 + 224, c / 64 % 64 + 128, c % 64 + 128]
    else if c < 0x200000 then some [c / 262144 + 240, c / 4096 % 64 + 128, c / 64 % 64 + 128, c % 64 + 128]
    else if c < 0x4000000 then
      some [c / 16777216 + 248, c / 262144 % 64 + 128, c / 4096 % 64 + 128, c / 64 % 64 + 128, c % 64 + 128]
    else if c < 0x80000000 then
      some [c / 1073741824 + 252, c / 16777216 % 64 + 128, c / 262144 % 64 + 128, c / 4096 % 64 + 128, c / 64 % 64 + 128,
        c % 64 + 128]
    else none := by
  unfold from32_8
  simp only [cont, shr, isInvalid, Bool.and_eq_true, decide_eq_true_eq]
  by_cases h0 : 0xD800 ≤ c ∧ c ≤ 0xDFFF
  · rw [if_pos h0, if_pos h0]
  rw [if_neg h0, if_neg h0]
  by_cases h1 : c < 0x80
  · rw [if_pos (by omega), if_pos h1]; simp only [u8]; congr; omega
  rw [if_neg (by omega), if_neg h1]
  by_cases h2 : c < 0x800
  · rw [if_pos (by omega), if_pos h2, or_add' 5 (by omega) (by rfl)]; simp only [u8]; congr 2; omega
  rw [if_neg (by omega), if_neg h2]
  by_cases h3 : c < 0x10000
  · rw [if_pos (by omega), if_pos h3, or_add' 4 (by omega) (by rfl)]; simp only [u8]; congr 2; omega
  rw [if_neg (by omega), if_neg h3]
  by_cases h4 : c < 0x200000
  · rw [if_pos (by omega), if_pos h4, or_add' 3 (by omega) (by rfl)]; simp only [u8]; congr 2; omega
  rw [if_neg (by omega), if_neg h4]
  by_cases h5 : c < 0x4000000
  · rw [if_pos (by omega), if_pos h5, or_add' 2 (by omega) (by rfl)]; simp only [u8]; congr 2; omega
  rw [if_neg (by omega), if_neg h5]
  by_cases h6 : c < 0x80000000
  · rw [if_pos (by omega), if_pos h6, or_add' 1 (by omega) (by rfl)]; simp only [u8]; congr 2; omega
  rw [if_neg (by omega), if_neg h6]

theorem or2 (a b : Nat) : a % 32 * 2 ^ 6 ||| b % 64 =
    a % 32 * 64 + b % 64 := by
  rw [or_add (x := a % 32 * 2 ^ 6) 6 (by omega) (by omega)]

theorem or3 (a b c : Nat) : a % 16 * 2 ^ 12 ||| b % 64 * 2 ^ 6 ||| c % 64 =
    a % 16 * 4096 + b % 64 * 64 + c % 64 := by
  rw [or_add (x := a % 16 * 2 ^ 12) 12 (by omega) (by omega)]
  rw [or_add (x := a % 16 * 2 ^ 12 + b % 64 * 2 ^ 6) 6 (by omega) (by omega)]

theorem or4 (a b c d : Nat) : a % 8 * 2 ^ 18 ||| b % 64 * 2 ^ 12 ||| c % 64 * 2 ^ 6 ||| d % 64 =
    a % 8 * 262144 + b % 64 * 4096 + c % 64 * 64 + d % 64 := by
  rw [or_add (x := a % 8 * 2 ^ 18) 18 (by omega) (by omega)]
  rw [or_add (x := a % 8 * 2 ^ 18 + b % 64 * 2 ^ 12) 12 (by omega) (by omega)]
  rw [or_add (x := a % 8 * 2 ^ 18 + b % 64 * 2 ^ 12 + c % 64 * 2 ^ 6) 6 (by omega) (by omega)]

theorem or5 (a b c d e : Nat) : a % 4 * 2 ^ 24 ||| b % 64 * 2 ^ 18 ||| c % 64 * 2 ^ 12 ||| d % 64 * 2 ^ 6 ||| e % 64 =
    a % 4 * 16777216 + b % 64 * 262144 + c % 64 * 4096 + d % 64 * 64 + e % 64 := by
  rw [or_add (x := a % 4 * 2 ^ 24) 24 (by omega) (by omega)]
  rw [or_add (x := a % 4 * 2 ^ 24 + b % 64 * 2 ^ 18) 18 (by omega) (by omega)]
  rw [or_add (x := a % 4 * 2 ^ 24 + b % 64 * 2 ^ 18 + c % 64 * 2 ^ 12) 12 (by omega) (by omega)]
  rw [or_add (x := a % 4 * 2 ^ 24 + b % 64 * 2 ^ 18 + c % 64 * 2 ^ 12 + d % 64 * 2 ^ 6) 6 (by omega) (by omega)]

theorem or6 (a b c d e f : Nat) : a % 2 * 2 ^ 30 ||| b % 64 * 2 ^ 24 ||| c % 64 * 2 ^ 18 ||| d % 64 * 2 ^ 12 ||| e % 64 * 2 ^ 6 ||| f % 64 =
    a % 2 * 1073741824 + b % 64 * 16777216 + c % 64 * 262144 + d % 64 * 4096 + e % 64 * 64 + f % 64 := by
  rw [or_add (x := a % 2 * 2 ^ 30) 30 (by omega) (by omega)]
  rw [or_add (x := a % 2 * 2 ^ 30 + b % 64 * 2 ^ 24) 24 (by omega) (by omega)]
  rw [or_add (x := a % 2 * 2 ^ 30 + b % 64 * 2 ^ 24 + c % 64 * 2 ^ 18) 18 (by omega) (by omega)]
  rw [or_add (x := a % 2 * 2 ^ 30 + b % 64 * 2 ^ 24 + c % 64 * 2 ^ 18 + d % 64 * 2 ^ 12) 12 (by omega) (by omega)]
  rw [or_add (x := a % 2 * 2 ^ 30 + b % 64 * 2 ^ 24 + c % 64 * 2 ^ 18 + d % 64 * 2 ^ 12 + e % 64 * 2 ^ 6) 6 (by omega) (by omega)]

/-- decoding as numbers -/
theorem to32_8_eq (c0 : Nat) (cs : List Nat) : to32_8 (c0 :: cs) =
    if c0 < 128 then some (c0, 1)
    else if c0 < 224 then
      match cs with
      | c1 :: _ => some (c0 % 32 * 64 + c1 % 64, 2)
      | _ => none
    else if c0 < 240 then
      match cs with
      | c1 :: c2 :: _ => some (c0 % 16 * 4096 + c1 % 64 * 64 + c2 % 64, 3)
      | _ => none
    else if c0 < 248 then
      match cs with
      | c1 :: c2 :: c3 :: _ => some (c0 % 8 * 262144 + c1 % 64 * 4096 + c2 % 64 * 64 + c3 % 64, 4)
      | _ => none
    else if c0 < 252 then
      match cs with
      | c1 :: c2 :: c3 :: c4 :: _ =>
        some (c0 % 4 * 16777216 + c1 % 64 * 262144 + c2 % 64 * 4096 + c3 % 64 * 64 + c4 % 64, 5)
      | _ => none
    else
      match cs with
      | c1 :: c2 :: c3 :: c4 :: c5 :: _ =>
        some (c0 % 2 * 1073741824 + c1 % 64 * 16777216 + c2 % 64 * 262144 + c3 % 64 * 4096 + c4 % 64 * 64 + c5 % 64, 6)
      | _ => none := by
  rw [to32_8.eq_def]
  simp only [and63, and31, and15, and7, and3, and1, shl, or2, or3, or4, or5, or6]
  rfl

/-- the six highest bits of a unit -/
theorem andFC00 {x : Nat} (hx : x < 65536) : x &&& 0xFC00 = x / 1024 * 1024 := by
  have h2 : (x &&& 0xFC00) % 1024 = 0 := by
    rw [show 1024 = 2 ^ 10 from rfl, Nat.and_mod_two_pow]
    simp
  have h3 : (x &&& 0xFC00) / 1024 = x / 1024 := by
    rw [show 1024 = 2 ^ 10 from rfl, ← Nat.shiftRight_eq_div_pow, Nat.shiftRight_and_distrib, Nat.shiftRight_eq_div_pow]
    show x / 2 ^ 10 &&& (2 ^ 6 - 1) = _
    rw [Nat.and_two_pow_sub_one_eq_mod]
    omega
  have h1 := Nat.div_add_mod (x &&& 0xFC00) 1024
  rw [h2, h3] at h1
  rw [← h1]; exact (Nat.mul_comm _ _)

theorem from32_16_eq (c : Nat) : from32_16 c =
    if 0xD800 ≤ c ∧ c ≤ 0xDFFF then none
    else if c < 0x10000 then some [c]
    else if c < 0x110000 then some [(c - 0x10000) / 1024 + 0xD800, (c - 0x10000) % 1024 + 0xDC00]
    else none := by
  unfold from32_16
  simp only [shr, isInvalid, Bool.and_eq_true, decide_eq_true_eq, and1023]
  by_cases h0 : 0xD800 ≤ c ∧ c ≤ 0xDFFF
  · rw [if_pos h0, if_pos h0]
  rw [if_neg h0, if_neg h0]
  by_cases h1 : c < 0xD800
  · rw [if_pos (by omega), if_pos (by omega)]; simp only [u16]; congr 2; omega
  rw [if_neg (by omega)]
  by_cases h2 : c < 0x10000
  · rw [if_pos (by omega), if_pos h2]; simp only [u16]; congr 2; omega
  rw [if_neg (by omega), if_neg h2]
  by_cases h3 : c < 0x110000
  · rw [if_pos (by omega), if_pos h3, or_add' 10 (by omega) (by rfl), or_add' 10 (by omega) (by rfl)]
    have e1 : u16 ((c - 65536) / 2 ^ 10 + 55296) = (c - 65536) / 1024 + 55296 := by unfold u16; omega
    have e2 : u16 ((c - 65536) % 1024 + 56320) = (c - 65536) % 1024 + 56320 := by unfold u16; omega
    rw [e1, e2]
  · rw [if_neg (by omega), if_neg h3]

theorem to32_16_eq {c0 : Nat} {cs : List Nat} (h0 : c0 < 65536) (hs : ∀ c ∈ cs, c < 65536) : to32_16 (c0 :: cs) =
    if c0 < 0xD800 ∨ 0xE000 ≤ c0 then some (c0, 1)
    else if c0 < 0xDC00 then
      match cs with
      | [] => none
      | c1 :: _ =>
        if 0xDC00 ≤ c1 ∧ c1 < 0xE000 then some (0x10000 + (c0 - 0xD800) * 1024 + (c1 - 0xDC00), 2) else none
    else none := by
  rw [to32_16.eq_def]
  simp only []
  rw [andFC00 h0]
  simp only [isInvalid, Bool.and_eq_true, decide_eq_true_eq, shl, and1023]
  by_cases h1 : c0 / 1024 * 1024 = 0xD800
  · rw [if_pos h1, if_neg (by omega), if_pos (by omega)]
    cases cs with
    | nil => rfl
    | cons c1 cs =>
      have hc1 : c1 < 65536 := hs c1 (by simp)
      simp only []
      rw [andFC00 hc1]
      by_cases h2 : 0xDC00 ≤ c1 ∧ c1 < 0xE000
      · have e0 : c0 % 1024 * 2 ^ 10 ||| c1 % 1024 = c0 % 1024 * 2 ^ 10 + c1 % 1024 := or_add 10 (by omega) (by omega)
        have h4 : c1 / 1024 * 1024 = 0xDC00 := by
          clear e0 h1
          have : c1 / 1024 = 55 := by omega
          rw [this]
        rw [if_pos h2, if_pos h4, e0, if_neg (by omega)]
        have e : 0x10000 + (c0 % 1024 * 2 ^ 10 + c1 % 1024) = 0x10000 + (c0 - 0xD800) * 1024 + (c1 - 0xDC00) := by omega
        rw [e]
      · rw [if_neg h2, if_neg (by omega)]
  · rw [if_neg h1]
    by_cases h3 : c0 < 0xD800 ∨ 0xE000 ≤ c0
    · rw [if_pos h3, if_neg (by omega)]
    · rw [if_neg h3, if_pos (by omega), if_neg (by omega)]

theorem swap_swap {c : Nat} (h : c < 65536) : swapByte (swapByte c) = c := by
  unfold swapByte
  have h1 : c / 256 % 256 = c / 256 := by omega
  have h2 : (c % 256 * 256 + c / 256) % 256 = c / 256 := by omega
  have h3 : (c % 256 * 256 + c / 256) / 256 = c % 256 := by omega
  rw [h1, h2, h3]; omega
theorem swap_lt (c : Nat) : swapByte c < 65536 := by unfold swapByte; omega
theorem swap_zero {c : Nat} (h : c < 65536) : swapByte c = 0 ↔ c = 0 := by unfold swapByte; omega

end Utf
end Vlpp
