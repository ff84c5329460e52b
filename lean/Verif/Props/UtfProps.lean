import Verif.Lemmas.UtfReader

/-!
# C29-C35: UTF conversions
-/
set_option autoImplicit false
namespace Vlpp
namespace Utf
open Spec

/-! ## C29 -/

theorem u8_lt (c : Nat) {us : List Nat} (h : from32_8 c = some us) : (∀ u ∈ us, u < 256) ∧ (c ≠ 0 → ∀ u ∈ us, u ≠ 0) := by
  rw [from32_8_eq] at h
  repeat' split at h
  all_goals first
    | (cases h; done)
    | (cases h
       refine ⟨fun u hu => ?_, fun h0 u hu => ?_⟩ <;> simp only [List.mem_cons, List.not_mem_nil, or_false] at hu <;> omega)

/-- **C29**.  Every code point up to 0x7FFFFFFF that is no surrogate is encoded to at most `BufferLength` bytes, and
decoding these bytes, whatever follows them, gives back the code point and consumes exactly these bytes. -/
theorem C29_utf8_round_trip {c : Nat} (hs : ¬Surrogate c) (hc : c ≤ 0x7FFFFFFF) :
    ∃ us, utf8.from32 c = some us ∧ us.length ≤ utf8.bufferLength ∧ (∀ u ∈ us, u < 256) ∧ (c ≠ 0 → ∀ u ∈ us, u ≠ 0) ∧
      ∀ rest, utf8.to32 (us ++ rest) = some (c, us.length) := by
  suffices h : ∃ us, from32_8 c = some us ∧ us.length ≤ 6 ∧ ∀ rest, to32_8 (us ++ rest) = some (c, us.length) by
    obtain ⟨us, h1, h2, h3⟩ := h
    exact ⟨us, h1, h2, (u8_lt c h1).1, (u8_lt c h1).2, h3⟩
  rw [from32_8_eq, if_neg (c := 0xD800 ≤ c ∧ c ≤ 0xDFFF) hs]
  by_cases h1 : c < 0x80
  · rw [if_pos h1]
    refine ⟨_, rfl, by simp, fun rest => ?_⟩
    simp only [List.cons_append]
    rw [to32_8_eq, if_pos (by omega)]; rfl
  rw [if_neg h1]
  by_cases h2 : c < 0x800
  · rw [if_pos h2]
    refine ⟨_, rfl, by simp, fun rest => ?_⟩
    simp only [List.cons_append]
    rw [to32_8_eq, if_neg (by omega), if_pos (by omega)]
    refine congrArg some (Prod.ext ?_ rfl)
    show _ = c
    simp only []
    omega
  rw [if_neg h2]
  by_cases h3 : c < 0x10000
  · rw [if_pos h3]
    refine ⟨_, rfl, by simp, fun rest => ?_⟩
    simp only [List.cons_append]
    rw [to32_8_eq, if_neg (by omega), if_neg (by omega), if_pos (by omega)]
    refine congrArg some (Prod.ext ?_ rfl)
    show _ = c
    simp only []
    omega
  rw [if_neg h3]
  by_cases h4 : c < 0x200000
  · rw [if_pos h4]
    refine ⟨_, rfl, by simp, fun rest => ?_⟩
    simp only [List.cons_append]
    rw [to32_8_eq, if_neg (by omega), if_neg (by omega), if_neg (by omega), if_pos (by omega)]
    refine congrArg some (Prod.ext ?_ rfl)
    show _ = c
    simp only []
    omega
  rw [if_neg h4]
  by_cases h5 : c < 0x4000000
  · rw [if_pos h5]
    refine ⟨_, rfl, by simp, fun rest => ?_⟩
    simp only [List.cons_append]
    rw [to32_8_eq, if_neg (by omega), if_neg (by omega), if_neg (by omega), if_neg (by omega), if_pos (by omega)]
    refine congrArg some (Prod.ext ?_ rfl)
    show _ = c
    simp only []
    omega
  rw [if_neg h5, if_pos (by omega)]
  refine ⟨_, rfl, by simp, fun rest => ?_⟩
  simp only [List.cons_append]
  rw [to32_8_eq, if_neg (by omega), if_neg (by omega), if_neg (by omega), if_neg (by omega), if_neg (by omega)]
  refine congrArg some (Prod.ext ?_ rfl)
  show _ = c
  simp only []
  omega

example : ∃ us, utf8.from32 0x20AC = some us ∧ us.length ≤ utf8.bufferLength ∧ (∀ u ∈ us, u < 256) ∧
    (0x20AC ≠ 0 → ∀ u ∈ us, u ≠ 0) ∧ ∀ rest, utf8.to32 (us ++ rest) = some (0x20AC, us.length) :=
  C29_utf8_round_trip (by unfold Surrogate; omega) (by omega)
example : utf8.from32 0x20AC = some [0xE2, 0x82, 0xAC] := by decide

/-- **C29**.  Surrogates and larger values are rejected. -/
theorem C29_utf8_rejects {c : Nat} (h : Surrogate c ∨ 0x7FFFFFFF < c) : utf8.from32 c = none := by
  show from32_8 c = none
  rw [from32_8_eq]
  by_cases hs : Surrogate c
  · exact if_pos hs
  have h : 0x7FFFFFFF < c := h.resolve_left hs
  rw [if_neg (c := 0xD800 ≤ c ∧ c ≤ 0xDFFF) hs, if_neg (by omega), if_neg (by omega), if_neg (by omega), if_neg (by omega), if_neg (by omega),
    if_neg (by omega)]

example : utf8.from32 0xD800 = none := C29_utf8_rejects (.inl (by unfold Surrogate; omega))

theorem char_surrogate (c : Char) : ¬Surrogate c.toNat := by
  intro h
  have hv : c.val.toNat < 0xD800 ∨ 0xDFFF < c.val.toNat ∧ c.val.toNat < 0x110000 := c.valid
  unfold Surrogate Char.toNat at h
  omega

theorem char_lt (c : Char) : c.toNat < 0x110000 := by
  have hv : c.val.toNat < 0xD800 ∨ 0xDFFF < c.val.toNat ∧ c.val.toNat < 0x110000 := c.valid
  unfold Char.toNat
  omega

/-- **C29**.  For Unicode characters the bytes are those of the standard encoding, here the one of Lean's strings. -/
theorem C29_utf8_standard (c : Char) : utf8.from32 c.toNat = some ((String.utf8EncodeChar c).map UInt8.toNat) := by
  show from32_8 c.toNat = _
  have hs := char_surrogate c
  have hv := char_lt c
  rw [from32_8_eq, if_neg (c := 0xD800 ≤ c.toNat ∧ c.toNat ≤ 0xDFFF) hs]
  unfold String.utf8EncodeChar
  rw [show c.val.toNat = c.toNat from rfl]
  simp only []
  generalize c.toNat = v at *
  by_cases h1 : v < 0x80
  · rw [if_pos h1, if_pos (c := v ≤ 127) (by omega)]
    simp only [List.map_cons, List.map_nil, UInt8.toNat_ofNat', Option.some.injEq, List.cons.injEq, and_true]
    omega
  rw [if_neg h1, if_neg (c := v ≤ 127) (by omega)]
  by_cases h2 : v < 0x800
  · rw [if_pos h2, if_pos (c := v ≤ 2047) (by omega)]
    simp only [List.map_cons, List.map_nil, UInt8.toNat_ofNat', Option.some.injEq, List.cons.injEq, and_true]
    omega
  rw [if_neg h2, if_neg (c := v ≤ 2047) (by omega)]
  by_cases h3 : v < 0x10000
  · rw [if_pos h3, if_pos (c := v ≤ 65535) (by omega)]
    simp only [List.map_cons, List.map_nil, UInt8.toNat_ofNat', Option.some.injEq, List.cons.injEq, and_true]
    omega
  rw [if_neg h3, if_neg (c := v ≤ 65535) (by omega), if_pos (by omega)]
  simp only [List.map_cons, List.map_nil, UInt8.toNat_ofNat', Option.some.injEq, List.cons.injEq, and_true]
  omega

/-! ## C30 -/

/-- **C30**.  Encoding succeeds exactly for the code points up to 0x10FFFF that are no surrogates, and gives their
UTF-16 form. -/
theorem C30_utf16_encode (c : Nat) (us : List Nat) : utf16.from32 c = some us ↔ Utf16Char us c := by
  show from32_16 c = some us ↔ _
  rw [from32_16_eq]
  constructor
  · intro h
    split at h
    · cases h
    split at h
    · cases h
      exact .bmp (by assumption) (by assumption)
    split at h
    · cases h
      have := Utf16Char.pair (hi := (c - 0x10000) / 1024) (lo := (c - 0x10000) % 1024) (by omega) (by omega)
      rw [show 0x10000 + (c - 0x10000) / 1024 * 1024 + (c - 0x10000) % 1024 = c by omega] at this
      rw [Nat.add_comm, Nat.add_comm _ 0xDC00]
      exact this
    · cases h
  · intro h
    cases h with
    | bmp h1 h2 => rw [if_neg (c := 0xD800 ≤ c ∧ c ≤ 0xDFFF) h2, if_pos h1]
    | @pair hi lo h1 h2 =>
      rw [if_neg (by omega), if_neg (by omega), if_pos (by omega)]
      have e1 : (0x10000 + hi * 1024 + lo - 0x10000) / 1024 + 0xD800 = 0xD800 + hi := by omega
      have e2 : (0x10000 + hi * 1024 + lo - 0x10000) % 1024 + 0xDC00 = 0xDC00 + lo := by omega
      rw [e1, e2]

/-- **C30**.  ... exactly for these code points. -/
theorem C30_utf16_domain (c : Nat) : utf16.from32 c ≠ none ↔ ¬Surrogate c ∧ c ≤ 0x10FFFF := by
  show from32_16 c ≠ none ↔ _
  rw [from32_16_eq]
  by_cases hs : Surrogate c
  · rw [if_pos (c := 0xD800 ≤ c ∧ c ≤ 0xDFFF) hs]; simp [hs]
  rw [if_neg (c := 0xD800 ≤ c ∧ c ≤ 0xDFFF) hs]
  by_cases h1 : c < 0x10000
  · rw [if_pos h1]; simp [hs]; omega
  rw [if_neg h1]
  by_cases h2 : c < 0x110000
  · rw [if_pos h2]; simp [hs]; omega
  · rw [if_neg h2]; simp; omega

/-- **C30**.  What decoding accepts: text that begins with the UTF-16 form of a code point, which is the result, and the
units of this form are consumed. -/
theorem C30_utf16_decode {xs : List Nat} (hx : ∀ x ∈ xs, x < 65536) (d k : Nat) :
    utf16.to32 xs = some (d, k) ↔ k ≤ xs.length ∧ Utf16Char (xs.take k) d := by
  show to32_16 xs = some (d, k) ↔ _
  cases xs with
  | nil =>
    constructor
    · intro h; cases h
    · rintro ⟨_, h⟩
      rw [List.take_nil] at h
      cases h
  | cons c0 cs =>
    have h0 : c0 < 65536 := hx c0 (by simp)
    rw [to32_16_eq h0 (fun c hc => hx c (by simp [hc]))]
    constructor
    · intro h
      split at h
      · cases h
        exact ⟨by simp, .bmp h0 (by unfold Surrogate; omega)⟩
      split at h
      · cases cs with
        | nil => cases h
        | cons c1 cs =>
          simp only [] at h
          split at h
          · rw [Option.some.injEq, Prod.mk.injEq] at h
            obtain ⟨hd, hk⟩ := h
            subst hk
            rw [← hd]
            refine ⟨by simp, ?_⟩
            have := Utf16Char.pair (hi := c0 - 0xD800) (lo := c1 - 0xDC00) (by omega) (by omega)
            rw [show 0xD800 + (c0 - 0xD800) = c0 by omega, show 0xDC00 + (c1 - 0xDC00) = c1 by omega] at this
            exact this
          · cases h
      · cases h
    · rintro ⟨hk, h⟩
      cases k with
      | zero => rw [List.take_zero] at h; cases h
      | succ k =>
        rw [List.take_succ_cons] at h
        generalize hus : c0 :: cs.take k = us at h
        cases h with
        | bmp h1 h2 =>
          injection hus with e1 e2
          subst e1
          unfold Surrogate at h2
          rw [if_pos (by omega)]
          have e3 : (cs.take k).length = 0 := by rw [e2]; rfl
          rw [List.length_take] at e3
          simp at hk
          have : k = 0 := by omega
          rw [this]
        | @pair hi lo h1 h2 =>
          injection hus with e1 e2
          rw [if_neg (by omega), if_pos (by omega)]
          have e3 : (cs.take k).length = 1 := by rw [e2]; rfl
          rw [List.length_take] at e3
          simp at hk
          have : k = 1 := by omega
          subst this
          cases cs with
          | nil => simp at e3
          | cons c1 cs =>
            rw [List.take_succ_cons, List.take_zero] at e2
            injection e2 with e2 _
            simp only []
            rw [if_pos (by omega)]
            have : 0x10000 + (c0 - 0xD800) * 1024 + (c1 - 0xDC00) = 0x10000 + hi * 1024 + lo := by
              rw [e1, e2]; omega
            rw [this]

theorem utf16Char_lt {us : List Nat} {c : Nat} (h : Utf16Char us c) : (∀ u ∈ us, u < 65536) ∧ (c ≠ 0 → ∀ u ∈ us, u ≠ 0) ∧
    us.length ≤ 2 := by
  cases h with
  | bmp h1 _ => exact ⟨by simpa using h1, by simp, by simp⟩
  | pair h1 h2 =>
    refine ⟨?_, fun _ => ?_, by simp⟩ <;> intro u hu <;> simp only [List.mem_cons, List.not_mem_nil, or_false] at hu <;> omega

/-- what follows does not matter -/
theorem to32_16_append {us : List Nat} {c : Nat} (h : Utf16Char us c) (rest : List Nat) :
    to32_16 (us ++ rest) = some (c, us.length) := by
  have h1 : to32_16 us = some (c, us.length) :=
    (C30_utf16_decode (utf16Char_lt h).1 c us.length).2 ⟨Nat.le_refl _, by rw [List.take_length]; exact h⟩
  have h2 := to32_16_here rest h1
  rw [List.take_length] at h2
  exact h2

/-- **C30**.  Decoding an encoded code point, whatever follows it, gives it back and consumes exactly its units. -/
theorem C30_utf16_round_trip {c : Nat} (hs : ¬Surrogate c) (hc : c ≤ 0x10FFFF) :
    ∃ us, utf16.from32 c = some us ∧ us.length ≤ utf16.bufferLength ∧ (∀ u ∈ us, u < 65536) ∧ (c ≠ 0 → ∀ u ∈ us, u ≠ 0) ∧
      ∀ rest, utf16.to32 (us ++ rest) = some (c, us.length) := by
  rcases h : utf16.from32 c with _ | us
  · exact absurd h ((C30_utf16_domain c).2 ⟨hs, hc⟩)
  · have hu := (C30_utf16_encode c us).1 h
    obtain ⟨h1, h2, h3⟩ := utf16Char_lt hu
    exact ⟨us, rfl, h3, h1, h2, to32_16_append hu⟩

/-- **C30**.  What decodes re-encodes to the same units. -/
theorem C30_utf16_reencode {xs : List Nat} (hx : ∀ x ∈ xs, x < 65536) {d k : Nat} (h : utf16.to32 xs = some (d, k)) :
    utf16.from32 d = some (xs.take k) :=
  (C30_utf16_encode d _).2 ((C30_utf16_decode hx d k).1 h).2

example : utf16.from32 0x1F600 = some [0xD83D, 0xDE00] := by decide
example : utf16.to32 [0xD83D, 0xDE00, 0x41] = some (0x1F600, 2) := by decide
example : utf16.from32 0x1F600 = some ([0xD83D, 0xDE00, 0x41].take 2) :=
  C30_utf16_reencode (by decide) (by decide)

/-! ## C31 -/

/-- **C31**.  Swapping exchanges the two bytes of a unit. -/
theorem C31_swap_bytes {lo hi : Nat} (hl : lo < 256) (hh : hi < 256) : swapByte (lo + 256 * hi) = hi + 256 * lo := by
  unfold swapByte
  have h1 : (lo + 256 * hi) % 256 = lo := by omega
  have h2 : (lo + 256 * hi) / 256 % 256 = hi := by omega
  rw [h1, h2]; omega

/-- **C31**.  Swapping twice is the identity. -/
theorem C31_swap_twice {c : Nat} (h : c < 65536) : swapByte (swapByte c) = c := swap_swap h

theorem map_swap_swap {us : List Nat} (h : ∀ u ∈ us, u < 65536) : (us.map swapByte).map swapByte = us := by
  rw [List.map_map]
  conv => rhs; rw [← List.map_id us]
  exact List.map_congr_left fun u hu => swap_swap (h u hu)

/-- **C31**.  Encoding: the units, after swapping their bytes, are the UTF-16 form; it fails exactly when UTF-16 encoding
does. -/
theorem C31_utf16be_encode (c : Nat) (us : List Nat) :
    utf16be.from32 c = some us ↔ Utf16Char (us.map swapByte) c ∧ ∀ u ∈ us, u < 65536 := by
  show (from32_16 c).map _ = some us ↔ _
  rw [Option.map_eq_some_iff]
  constructor
  · rintro ⟨vs, h1, rfl⟩
    have h2 := (C30_utf16_encode c vs).1 h1
    rw [map_swap_swap (utf16Char_lt h2).1]
    refine ⟨h2, fun u hu => ?_⟩
    obtain ⟨v, _, rfl⟩ := List.mem_map.1 hu
    exact swap_lt v
  · rintro ⟨h1, h2⟩
    exact ⟨_, (C30_utf16_encode c _).2 h1, map_swap_swap h2⟩

/-- **C31**.  Decoding byte-swapped text is decoding the text as UTF-16. -/
theorem C31_utf16be_decode {xs : List Nat} (hx : ∀ x ∈ xs, x < 65536) : utf16be.to32 (xs.map swapByte) = utf16.to32 xs := by
  rw [utf16be_to32, map_swap_swap hx]; rfl

/-- **C31**.  Round trip. -/
theorem C31_utf16be_round_trip {c : Nat} (hs : ¬Surrogate c) (hc : c ≤ 0x10FFFF) :
    ∃ us, utf16be.from32 c = some us ∧ us.length ≤ utf16be.bufferLength ∧ (∀ u ∈ us, u < 65536) ∧
      (c ≠ 0 → ∀ u ∈ us, u ≠ 0) ∧ ∀ rest, utf16be.to32 (us ++ rest) = some (c, us.length) := by
  obtain ⟨us, h1, h2, h3, h4, h5⟩ := C30_utf16_round_trip hs hc
  have h6 := (C30_utf16_encode c us).1 h1
  refine ⟨us.map swapByte, (C31_utf16be_encode _ _).2 ⟨by rw [map_swap_swap h3]; exact h6, ?_⟩, ?_, ?_, ?_, ?_⟩
  · intro u hu
    obtain ⟨v, _, rfl⟩ := List.mem_map.1 hu
    exact swap_lt v
  · rw [List.length_map]; exact h2
  · intro u hu
    obtain ⟨v, _, rfl⟩ := List.mem_map.1 hu
    exact swap_lt v
  · intro hc u hu
    obtain ⟨v, hv, rfl⟩ := List.mem_map.1 hu
    intro h
    exact h4 hc v hv ((swap_zero (h3 v hv)).1 h)
  · intro rest
    rw [utf16be_to32, List.map_append, map_swap_swap h3, List.length_map]
    exact h5 _

example : utf16be.from32 0x1F600 = some [0x3DD8, 0x00DE] := by decide
example : utf16be.to32 ([0xD83D, 0xDE00].map swapByte) = utf16.to32 [0xD83D, 0xDE00] := C31_utf16be_decode (by decide)

/-! ## C32 -/

/-- The code points that an encoding can represent. -/
structure Encodable (B : Conv) (valid : Nat → Prop) : Prop where
  ok : B.Ok
  enc : ∀ c, valid c → ∃ us, B.from32 c = some us ∧ (c ≠ 0 → ∀ u ∈ us, u ≠ 0) ∧ ∀ rest, B.to32 (us ++ rest) = some (c, us.length)
  nz : ∀ c us, c ≠ 0 → B.from32 c = some us → ∀ u ∈ us, u ≠ 0

theorem wchar_nz (c : Nat) (us : List Nat) (hc : c ≠ 0) (h : wchar.from32 c = some us) : ∀ u ∈ us, u ≠ 0 := by
  cases h; simpa using hc

theorem utf8_nz (c : Nat) (us : List Nat) (hc : c ≠ 0) (h : utf8.from32 c = some us) : ∀ u ∈ us, u ≠ 0 := (u8_lt c h).2 hc

theorem utf16_nz (c : Nat) (us : List Nat) (hc : c ≠ 0) (h : utf16.from32 c = some us) : ∀ u ∈ us, u ≠ 0 :=
  (utf16Char_lt ((C30_utf16_encode c us).1 h)).2.1 hc

theorem utf16be_nz (c : Nat) (us : List Nat) (hc : c ≠ 0) (h : utf16be.from32 c = some us) : ∀ u ∈ us, u ≠ 0 := by
  obtain ⟨h1, h2⟩ := (C31_utf16be_encode c us).1 h
  intro u hu h0
  exact (utf16Char_lt h1).2.1 hc (swapByte u) (List.mem_map_of_mem hu) (by rw [h0]; rfl)

theorem utf8_encodable : Encodable utf8 fun c => ¬Surrogate c ∧ c ≤ 0x7FFFFFFF where
  ok := utf8_ok
  enc _ h := let ⟨us, h1, _, _, h2, h3⟩ := C29_utf8_round_trip h.1 h.2; ⟨us, h1, h2, h3⟩
  nz := utf8_nz

theorem utf16_encodable : Encodable utf16 fun c => ¬Surrogate c ∧ c ≤ 0x10FFFF where
  ok := utf16_ok
  enc _ h := let ⟨us, h1, _, _, h2, h3⟩ := C30_utf16_round_trip h.1 h.2; ⟨us, h1, h2, h3⟩
  nz := utf16_nz

theorem wchar_encodable : Encodable wchar fun _ => True where
  ok := wchar_ok
  enc c _ := ⟨[c], rfl, by simp, fun _ => rfl⟩
  nz := wchar_nz

/-- the units of a text -/
def encodeText (B : Conv) (cs : List Nat) : List Nat := cs.flatMap fun c => (B.from32 c).getD []

/-- the sizes of the encoded code points -/
def sizes (B : Conv) (cs : List Nat) : List (Nat × Nat) := cs.map fun c => (c, ((B.from32 c).getD []).length)

theorem sizes_fst (B : Conv) (cs : List Nat) : (sizes B cs).map Prod.fst = cs := by
  unfold sizes; rw [List.map_map]
  conv => rhs; rw [← List.map_id cs]
  rfl

theorem encodeText_nz {B : Conv} {valid : Nat → Prop} (hB : Encodable B valid) {cs : List Nat}
    (hv : ∀ c ∈ cs, valid c ∧ c ≠ 0) : ∀ u ∈ encodeText B cs, u ≠ 0 := by
  intro u hu
  obtain ⟨c, hc, hu⟩ := List.mem_flatMap.1 hu
  obtain ⟨us, h1, h2, _⟩ := hB.enc c (hv c hc).1
  rw [h1, Option.getD_some] at hu
  exact h2 (hv c hc).2 u hu

theorem decodes_encodeText {B : Conv} {valid : Nat → Prop} (hB : Encodable B valid) : ∀ {cs : List Nat},
    (∀ c ∈ cs, valid c ∧ c ≠ 0) → Decodes B (encodeText B cs) (sizes B cs) []
  | [], _ => .nil _
  | c :: cs, hv => by
    obtain ⟨us, h1, h2, h3⟩ := hB.enc c (hv c (by simp)).1
    have e : encodeText B (c :: cs) = us ++ encodeText B cs := by simp [encodeText, h1]
    have e2 : sizes B (c :: cs) = (c, us.length) :: sizes B cs := by simp [sizes, h1]
    rw [e, e2]
    refine .cons (h3 _) (hv c (by simp)).2 ?_
    rw [List.drop_left]
    exact decodes_encodeText hB fun d hd => hv d (by simp [hd])

/-- decoding what is in memory -/
theorem toU32_decodes {A : Conv} (hA : A.Ok) {xs rest : List Nat} {ds : List (Nat × Nat)} (hx : ∀ x ∈ xs, x ≠ 0)
    (hd : Decodes A xs ds rest) (hs : Stuck A rest) (junk : List Nat) :
    Yields (to32Reader A stringConsumer) obs32 (Stops (to32Reader A stringConsumer)) (decoder A (xs ++ 0 :: junk))
      (clusters 0 0 ds) := by
  have h1 := feeds_string junk xs hx
  have h2 := at_start A h1
  rw [List.map_map, show (Prod.fst ∘ fun x : Nat => (x, ())) = id from rfl, List.map_id] at h2
  exact to32_feeds hA hd hs h2

theorem toU32_encodeText {B : Conv} {valid : Nat → Prop} (hB : Encodable B valid) {cs : List Nat}
    (hv : ∀ c ∈ cs, valid c ∧ c ≠ 0) (junk : List Nat) : toU32 B (encodeText B cs ++ 0 :: junk) = some cs := by
  have h := toU32_decodes hB.ok (encodeText_nz hB hv) (decodes_encodeText hB hv) (.inl rfl) junk
  unfold toU32
  rw [convertDirect_feeds h, clusters_fst, sizes_fst]

theorem from32_ne_none {B : Conv} {valid : Nat → Prop} (hB : Encodable B valid) {cs : List Nat}
    (hv : ∀ c ∈ cs, valid c ∧ c ≠ 0) : ∀ c ∈ cs, B.from32 c ≠ none := by
  intro c hc
  obtain ⟨us, h1, _⟩ := hB.enc c (hv c hc).1
  rw [h1]; simp

theorem fromU32_encodeText {B : Conv} {valid : Nat → Prop} (hB : Encodable B valid) {cs : List Nat}
    (hv : ∀ c ∈ cs, valid c ∧ c ≠ 0) (junk : List Nat) : fromU32 B (cs ++ 0 :: junk) = some (encodeText B cs) := by
  have h1 := (feeds_string junk cs fun c hc => (hv c hc).2).mono fun _ => ended_stops
  have h2 := from32_feeds hB.ok hB.nz (cl := ⟨0, 0⟩) (rc := -1) h1
  have e : (cs.map fun x : Nat => (x, ())).map Prod.fst = cs := by
    rw [List.map_map, show (Prod.fst ∘ fun x : Nat => (x, ())) = id from rfl, List.map_id]
  unfold fromU32 encoder
  rw [convertDirect_feeds h2, encT_fst B _ _ _ (by rw [e]; exact from32_ne_none hB hv), e]
  rfl

theorem uToU_encodeText {A B : Conv} {va vb : Nat → Prop} (hA : Encodable A va) (hB : Encodable B vb) {cs : List Nat}
    (hv : ∀ c ∈ cs, va c ∧ c ≠ 0) (hw : ∀ c ∈ cs, vb c ∧ c ≠ 0) (junk : List Nat) :
    uToU A B (encodeText A cs ++ 0 :: junk) = some (encodeText B cs) := by
  have h1 := toU32_decodes hA.ok (encodeText_nz hA hv) (decodes_encodeText hA hv) (.inl rfl) junk
  have h2 := from32_feeds hB.ok hB.nz (cl := ⟨0, 0⟩) (rc := -1) h1
  have e : (clusters 0 0 (sizes A cs)).map Prod.fst = cs := by rw [clusters_fst, sizes_fst]
  unfold uToU transcoder
  have h3 := convertDirect_feeds h2
  rw [encT_fst B _ _ _ (by rw [e]; exact from32_ne_none hB hw), e] at h3
  exact h3

/-- **C32**.  `u8tou32(u32tou8(s))` is `s` for every string of code points up to 0x7FFFFFFF that are neither zero nor
surrogates.  `junk` and `junk'` are whatever is in memory after the terminators. -/
theorem C32_u32_u8_u32 {cs : List Nat} (hv : ∀ c ∈ cs, (¬Surrogate c ∧ c ≤ 0x7FFFFFFF) ∧ c ≠ 0) (junk junk' : List Nat) :
    ∃ us, fromU32 utf8 (cs ++ 0 :: junk) = some us ∧ toU32 utf8 (us ++ 0 :: junk') = some cs :=
  ⟨_, fromU32_encodeText utf8_encodable hv junk, toU32_encodeText utf8_encodable hv junk'⟩

/-- **C32**.  `u16tou32(u32tou16(s))` is `s`. -/
theorem C32_u32_u16_u32 {cs : List Nat} (hv : ∀ c ∈ cs, (¬Surrogate c ∧ c ≤ 0x10FFFF) ∧ c ≠ 0) (junk junk' : List Nat) :
    ∃ us, fromU32 utf16 (cs ++ 0 :: junk) = some us ∧ toU32 utf16 (us ++ 0 :: junk') = some cs :=
  ⟨_, fromU32_encodeText utf16_encodable hv junk, toU32_encodeText utf16_encodable hv junk'⟩

/-- **C32**.  The UTF-8 and UTF-16 forms of a text are converted to each other by `u8tou16` and `u16tou8`. -/
theorem C32_u8_u16 {cs : List Nat} (hv : ∀ c ∈ cs, (¬Surrogate c ∧ c ≤ 0x10FFFF) ∧ c ≠ 0) (junk : List Nat) :
    ∃ as bs, fromU32 utf8 (cs ++ 0 :: junk) = some as ∧ fromU32 utf16 (cs ++ 0 :: junk) = some bs ∧
      uToU utf8 utf16 (as ++ 0 :: junk) = some bs ∧ uToU utf16 utf8 (bs ++ 0 :: junk) = some as := by
  have hv8 : ∀ c ∈ cs, (¬Surrogate c ∧ c ≤ 0x7FFFFFFF) ∧ c ≠ 0 := fun c hc => by
    have := hv c hc
    exact ⟨⟨this.1.1, by omega⟩, this.2⟩
  exact ⟨_, _, fromU32_encodeText utf8_encodable hv8 junk, fromU32_encodeText utf16_encodable hv junk,
    uToU_encodeText utf8_encodable utf16_encodable hv8 hv junk, uToU_encodeText utf16_encodable utf8_encodable hv hv8 junk⟩

theorem encodeText_wchar (cs : List Nat) : encodeText wchar cs = cs := by
  unfold encodeText wchar
  simp

/-- **C32**.  On a platform where `wchar_t` is UTF-32, the conversions of `WString` are those of `U32String`, and
`u8tow(wtou8(s))`, `u16tow(wtou16(s))` are `s`. -/
theorem C32_wide {cs : List Nat} (hv : ∀ c ∈ cs, (¬Surrogate c ∧ c ≤ 0x10FFFF) ∧ c ≠ 0) (junk : List Nat) :
    uToU wchar utf8 (cs ++ 0 :: junk) = fromU32 utf8 (cs ++ 0 :: junk) ∧
    uToU wchar utf16 (cs ++ 0 :: junk) = fromU32 utf16 (cs ++ 0 :: junk) ∧
    (∃ as, uToU wchar utf8 (cs ++ 0 :: junk) = some as ∧ uToU utf8 wchar (as ++ 0 :: junk) = some cs) ∧
    (∃ bs, uToU wchar utf16 (cs ++ 0 :: junk) = some bs ∧ uToU utf16 wchar (bs ++ 0 :: junk) = some cs) := by
  have hv8 : ∀ c ∈ cs, (¬Surrogate c ∧ c ≤ 0x7FFFFFFF) ∧ c ≠ 0 := fun c hc => by
    have := hv c hc
    exact ⟨⟨this.1.1, by omega⟩, this.2⟩
  have hw : ∀ c ∈ cs, True ∧ c ≠ 0 := fun c hc => ⟨trivial, (hv c hc).2⟩
  have e1 := uToU_encodeText wchar_encodable utf8_encodable hw hv8 junk
  have e2 := uToU_encodeText wchar_encodable utf16_encodable hw hv junk
  have e3 := uToU_encodeText utf8_encodable wchar_encodable hv8 hw junk
  have e4 := uToU_encodeText utf16_encodable wchar_encodable hv hw junk
  rw [encodeText_wchar] at e1 e2 e3 e4
  exact ⟨e1.trans (fromU32_encodeText utf8_encodable hv8 junk).symm,
    e2.trans (fromU32_encodeText utf16_encodable hv junk).symm, ⟨_, e1, e3⟩, ⟨_, e2, e4⟩⟩

/-- **C32**.  For every Lean string without the null character, the result of `u32tou8` is its standard UTF-8 form, and
`u8tou32` decodes that form. -/
theorem C32_utf8_standard (s : String) (h0 : ∀ c ∈ s.toList, c.toNat ≠ 0) (junk : List Nat) :
    fromU32 utf8 (s.toList.map Char.toNat ++ 0 :: junk) = some (s.toUTF8.data.toList.map UInt8.toNat) ∧
    toU32 utf8 (s.toUTF8.data.toList.map UInt8.toNat ++ 0 :: junk) = some (s.toList.map Char.toNat) := by
  have hv : ∀ c ∈ s.toList.map Char.toNat, (¬Surrogate c ∧ c ≤ 0x7FFFFFFF) ∧ c ≠ 0 := by
    intro c hc
    obtain ⟨ch, hch, rfl⟩ := List.mem_map.1 hc
    exact ⟨⟨char_surrogate ch, by have := char_lt ch; omega⟩, h0 ch hch⟩
  have e : encodeText utf8 (s.toList.map Char.toNat) = s.toUTF8.data.toList.map UInt8.toNat := by
    rw [String.toUTF8_eq_toByteArray, ← String.utf8Encode_toList]
    unfold List.utf8Encode encodeText
    rw [List.data_toByteArray, List.flatMap_map, List.map_flatMap]
    congr 1
    funext c
    rw [C29_utf8_standard, Option.getD_some]
  rw [← e]
  exact ⟨fromU32_encodeText utf8_encodable hv junk, toU32_encodeText utf8_encodable hv junk⟩

example : ∃ us, fromU32 utf8 [0x20AC, 0x1F600, 0x41, 0, 7] = some us ∧ toU32 utf8 (us ++ 0 :: [9]) = some [0x20AC, 0x1F600, 0x41] :=
  C32_u32_u8_u32 (cs := [0x20AC, 0x1F600, 0x41]) (by unfold Surrogate; simp) [7] [9]

end Utf
end Vlpp
