import Verif.Spec.UtfWide
import Verif.Props.UtfReaderProps

/-!
# C82, C83: conversions between string classes
-/
set_option autoImplicit false
namespace Vlpp
namespace Utf
open Vlpp.Spec

theorem wcharOf_utf16 : wcharOf .utf16 = utf16 := rfl

theorem encodeText_utf8 (cs : List Char) :
    encodeText utf8 (cs.map Char.toNat) = (cs.flatMap String.utf8EncodeChar).map UInt8.toNat := by
  unfold encodeText
  rw [List.flatMap_map, List.map_flatMap]
  congr 1
  funext c
  rw [C29_utf8_standard, Option.getD_some]

theorem utf16Text_encodeText : ∀ (cs : List Char), Utf16Text (encodeText utf16 (cs.map Char.toNat)) (cs.map Char.toNat)
  | [] => .nil
  | c :: cs => by
    obtain ⟨us, h1, _⟩ := C30_utf16_round_trip (char_surrogate c) (by have := char_lt c; omega)
    have : encodeText utf16 ((c :: cs).map Char.toNat) = us ++ encodeText utf16 (cs.map Char.toNat) := by
      unfold encodeText
      rw [List.map_cons, List.flatMap_cons, h1, Option.getD_some]
    rw [this]
    exact .cons ((C30_utf16_encode _ _).1 h1) (utf16Text_encodeText cs)

theorem Utf16Text.encode {us cs : List Nat} (h : Utf16Text us cs) : us = encodeText utf16 cs := by
  induction h with
  | nil => rfl
  | cons h1 _ ih =>
    unfold encodeText at ih ⊢
    rw [List.flatMap_cons, (C30_utf16_encode _ _).2 h1, Option.getD_some, ← ih]

/-- the encoding of a class of strings; UTF-32 is that of `wchar` -/
def convOf (cfg : Wide) : Form → Conv
  | .u8 => utf8
  | .u16 => utf16
  | .u32 => wchar
  | .w => wcharOf cfg

theorem textIn_iff (cfg : Wide) (F : Form) (cs : List Char) (us : List Nat) :
    TextIn cfg F cs us ↔ us = encodeText (convOf cfg F) (cs.map Char.toNat) := by
  have h16 : Utf16Text us (cs.map Char.toNat) ↔ us = encodeText utf16 (cs.map Char.toNat) :=
    ⟨Utf16Text.encode, fun h => h ▸ utf16Text_encodeText cs⟩
  cases F <;> cases cfg <;> simp only [TextIn, convOf, wcharOf, encodeText_utf8, encodeText_wchar, h16]
  all_goals rfl

/-- **C82**.  On every platform and for every two different string classes, the conversion of the form of a text in one class is
the form of that text in the other class.  The texts are all sequences of Unicode scalar values other than U+0000. -/
theorem C82_conversions (cfg : Wide) (A B : Form) (hAB : A ≠ B) (cs : List Char) (h0 : ∀ c ∈ cs, c.toNat ≠ 0)
    (us : List Nat) (h : TextIn cfg A cs us) (junk : List Nat) :
    ∃ vs, convert cfg A B us junk = some vs ∧ TextIn cfg B cs vs := by
  have hv : ∀ c ∈ cs.map Char.toNat, (¬Surrogate c ∧ c ≤ 0x10FFFF) ∧ c ≠ 0 := by
    intro c hc
    obtain ⟨ch, hch, rfl⟩ := List.mem_map.1 hc
    exact ⟨⟨char_surrogate ch, by have := char_lt ch; omega⟩, h0 ch hch⟩
  have hv8 : ∀ c ∈ cs.map Char.toNat, (¬Surrogate c ∧ c ≤ 0x7FFFFFFF) ∧ c ≠ 0 := fun c hc => by
    have := hv c hc
    exact ⟨⟨this.1.1, by omega⟩, this.2⟩
  have hw : ∀ c ∈ cs.map Char.toNat, True ∧ c ≠ 0 := fun c hc => ⟨trivial, (hv c hc).2⟩
  refine ⟨encodeText (convOf cfg B) (cs.map Char.toNat), ?_, (textIn_iff _ _ _ _).2 rfl⟩
  have e := (textIn_iff _ _ _ _).1 h
  have ew := encodeText_wchar (cs.map Char.toNat)
  cases A <;> cases B <;> first | exact absurd rfl hAB | skip
  all_goals cases cfg
  all_goals simp only [convOf, wcharOf, ew] at e
  all_goals subst e
  all_goals simp only [convert, convOf, wcharOf, castUnits, ew]
  all_goals first
    | rfl
    | exact uToU_encodeText utf8_encodable utf16_encodable hv8 hv junk
    | exact uToU_encodeText utf16_encodable utf8_encodable hv hv8 junk
    | exact toU32_encodeText utf8_encodable hv8 junk
    | exact toU32_encodeText utf16_encodable hv junk
    | exact fromU32_encodeText utf8_encodable hv8 junk
    | exact fromU32_encodeText utf16_encodable hv junk
    | exact (uToU_encodeText utf8_encodable wchar_encodable hv8 hw junk).trans (congrArg some ew)
    | exact (uToU_encodeText utf16_encodable wchar_encodable hv hw junk).trans (congrArg some ew)
    | (have := uToU_encodeText wchar_encodable utf8_encodable hw hv8 junk; rw [ew] at this; exact this)
    | (have := uToU_encodeText wchar_encodable utf16_encodable hw hv junk; rw [ew] at this; exact this)

/-- **C82**.  A text has one form in every class. -/
theorem C82_unique (cfg : Wide) (F : Form) (cs : List Char) : ∃ us, ∀ vs, TextIn cfg F cs vs ↔ vs = us :=
  ⟨_, textIn_iff cfg F cs⟩

/-- **C82**.  Classes with the same units on the platform: every string, whether well formed or not and with or without zeros, is
converted to the string of the same units. -/
theorem C82_same_units (cfg : Wide) (A B : Form) (h : SameUnits cfg A B) (us junk : List Nat) :
    convert cfg A B us junk = some us := by
  cases cfg <;> rcases h with ⟨rfl, rfl⟩ | ⟨rfl, rfl⟩ <;> rfl

example : TextIn .utf16 .w ['A', '€', '😀'] [0x41, 0x20AC, 0xD83D, 0xDE00] :=
  .cons (.bmp (c := 0x41) (by decide) (by unfold Surrogate; decide)) (.cons (.bmp (c := 0x20AC) (by decide) (by unfold Surrogate; decide))
    (.cons (.pair (hi := 0x3D) (lo := 0x200) (by decide) (by decide)) .nil))

example : ∃ vs, convert .utf16 .w .u8 [0x41, 0x20AC, 0xD83D, 0xDE00] [7] = some vs ∧
    vs = (['A', '€', '😀'].flatMap String.utf8EncodeChar).map UInt8.toNat :=
  C82_conversions .utf16 .w .u8 (by decide) ['A', '€', '😀'] (by decide) _
    (.cons (.bmp (c := 0x41) (by decide) (by unfold Surrogate; decide)) (.cons (.bmp (c := 0x20AC) (by decide) (by unfold Surrogate; decide))
      (.cons (.pair (hi := 0x3D) (lo := 0x200) (by decide) (by decide)) .nil))) [7]

/-! ## C83 -/

theorem mapM_cons_some {K : Codec} {c : Nat} {cs : List Nat} {bss : List (List Nat)} (h : (c :: cs).mapM K.encode = some bss) :
    ∃ b bs, K.encode c = some b ∧ cs.mapM K.encode = some bs ∧ bss = b :: bs := by
  rw [List.mapM_cons] at h
  cases e : K.encode c with
  | none => rw [e] at h; cases h
  | some b =>
    cases e2 : cs.mapM K.encode with
    | none => rw [e, e2] at h; cases h
    | some bs => rw [e, e2] at h; cases h; exact ⟨b, bs, rfl, rfl, rfl⟩

theorem wcsLength_eq (K : Codec) (junk : List Nat) : ∀ (cs : List Nat), (∀ c ∈ cs, c ≠ 0) →
    wcsLength K (cs ++ 0 :: junk) = some ((multibyte K cs).map List.length)
  | [], _ => rfl
  | c :: cs, h => by
    have hc := h c (by simp)
    have ih := wcsLength_eq K junk cs fun x hx => h x (by simp [hx])
    show wcsLength K (c :: (cs ++ 0 :: junk)) = _
    unfold wcsLength
    rw [if_neg hc]
    unfold multibyte at ih ⊢
    rw [List.mapM_cons]
    cases e : K.encode c with
    | none => rfl
    | some bs =>
      show Option.map _ (wcsLength K (cs ++ 0 :: junk)) = _
      rw [ih]
      cases e2 : cs.mapM K.encode with
      | none => rfl
      | some bss => simp [List.length_append]

theorem putAt_mid (a b c bs : List Nat) (h : bs.length = b.length) : putAt (a ++ b ++ c) a.length bs = some (a ++ bs ++ c) := by
  unfold putAt
  rw [if_pos (by simp only [List.length_append]; omega), List.append_assoc a b c, List.take_left,
    ← List.drop_drop, List.drop_left, h, List.drop_left]

theorem wcsWrite_eq (K : Codec) (junk : List Nat) : ∀ (cs : List Nat) (bss : List (List Nat)) (a b c : List Nat), (∀ c ∈ cs, c ≠ 0) →
    cs.mapM K.encode = some bss → b.length = bss.flatten.length →
    wcsWrite K (a.length + b.length) (cs ++ 0 :: junk) a.length (a ++ b ++ c) = some (a ++ bss.flatten ++ c)
  | [], bss, a, b, c, _, h, hb => by
    cases h
    have : b = [] := List.length_eq_zero_iff.1 hb
    subst this
    show wcsWrite K _ (0 :: junk) _ _ = _
    unfold wcsWrite
    rw [if_pos rfl, if_neg (by simp)]
    rfl
  | x :: cs, bss, a, b, c, hn, h, hb => by
    obtain ⟨bx, bs, e1, e2, rfl⟩ := mapM_cons_some h
    rw [List.flatten_cons, List.length_append] at hb
    show wcsWrite K _ (x :: (cs ++ 0 :: junk)) _ _ = _
    unfold wcsWrite
    rw [if_neg (hn x (by simp)), e1]
    show (if a.length + bx.length ≤ a.length + b.length then _ else _) = _
    rw [if_pos (by omega)]
    have hsplit : b = b.take bx.length ++ b.drop bx.length := (List.take_append_drop _ _).symm
    have hput : putAt (a ++ b ++ c) a.length bx = some (a ++ bx ++ (b.drop bx.length ++ c)) := by
      rw [hsplit, ← List.append_assoc, List.append_assoc _ (b.drop _) c, putAt_mid _ _ _ _ (by simp; omega)]
      simp
    rw [hput]
    have ih := wcsWrite_eq K junk cs bs (a ++ bx) (b.drop bx.length) c (fun y hy => hn y (by simp [hy])) e2
      (by rw [List.length_drop]; omega)
    show wcsWrite K _ _ _ _ = _
    have hlen : (a ++ bx).length + (b.drop bx.length).length = a.length + b.length := by simp; omega
    rw [hlen, List.length_append, List.append_assoc _ (b.drop _) c] at ih
    rw [ih]
    simp

/-- **C83**.  `wtoa` returns the bytes of the text, or the empty string if some character cannot be represented.  No memory outside
of the text and the new string is accessed. -/
theorem C83_wtoa (K : Codec) (cs : List Nat) (h : ∀ c ∈ cs, c ≠ 0) (junk : List Nat) :
    wtoa K (cs ++ 0 :: junk) = some ((multibyte K cs).getD []) := by
  unfold wtoa convertAnsi
  rw [wcsLength_eq K junk cs h]
  unfold multibyte
  cases e : cs.mapM K.encode with
  | none => rfl
  | some bss =>
    simp only [Option.map_some, Option.getD_some]
    rw [if_neg (by omega), Nat.add_sub_cancel]
    have := wcsWrite_eq K junk cs bss [] (List.replicate bss.flatten.length 0) [0] h e (by simp)
    simp only [List.length_nil, List.nil_append, Nat.zero_add, List.length_replicate] at this
    rw [show List.replicate (bss.flatten.length + 1) 0 = List.replicate bss.flatten.length 0 ++ [0] from
      List.replicate_succ', this]
    simp

theorem untilZero_eq (junk : List Nat) : ∀ (bs : List Nat), (∀ b ∈ bs, b ≠ 0) → untilZero (bs ++ 0 :: junk) = some bs
  | [], _ => rfl
  | b :: bs, h => by
    show untilZero (b :: (bs ++ 0 :: junk)) = _
    unfold untilZero
    rw [if_neg (h b (by simp)), untilZero_eq junk bs fun x hx => h x (by simp [hx])]
    rfl

theorem decodeAll_text {K : Codec} {bs cs : List Nat} (h : MultibyteText K bs cs) : decodeAll K bs = (cs, true) := by
  induction h with
  | nil => unfold decodeAll; rfl
  | @cons bs c k cs hb hd _ ih =>
    cases bs with
    | nil => exact absurd rfl hb
    | cons b bs =>
      unfold decodeAll
      simp only
      split
      · next h2 => rw [hd] at h2; cases h2
      · next h2 => rw [hd] at h2; cases h2; rw [ih]

theorem text_decodeAll {K : Codec} : ∀ (n : Nat) (bs : List Nat), bs.length ≤ n → (decodeAll K bs).2 = true →
    MultibyteText K bs (decodeAll K bs).1
  | n, [], _, _ => by unfold decodeAll; exact .nil
  | 0, _ :: _, hn, _ => by simp at hn
  | n + 1, b :: bs, hn, h => by
    unfold decodeAll at h ⊢
    simp only at h ⊢
    split at h
    · cases h
    · next c k hd =>
      have := K.decode_pos _ _ _ hd
      exact .cons (by simp) hd (text_decodeAll n _ (by simp only [List.length_drop, List.length_cons] at *; omega) h)

theorem putAt_zero (n : Nat) (bs : List Nat) (h : bs.length = n) : putAt (List.replicate (n + 1) 0) 0 bs = some (bs ++ [0]) := by
  have := putAt_mid [] (List.replicate n 0) [0] bs (by simpa using h)
  rw [show List.replicate (n + 1) 0 = List.replicate n 0 ++ [0] from List.replicate_succ']
  simpa using this

/-- **C83**.  `atow` returns the characters of the text, … -/
theorem C83_atow (K : Codec) (bs cs : List Nat) (h : MultibyteText K bs cs) (hz : ∀ b ∈ bs, b ≠ 0) (junk : List Nat) :
    atow K (bs ++ 0 :: junk) = some cs := by
  unfold atow convertAnsi mbsLength mbsWrite
  rw [untilZero_eq junk bs hz]
  simp only [Option.map_some, Option.bind_some, decodeAll_text h, if_true]
  rw [if_neg (by omega), Nat.add_sub_cancel, if_neg (by omega), List.take_length, putAt_zero _ _ rfl]
  simp

/-- … or the empty string if the text is not a sequence of multibyte characters. -/
theorem C83_atow_invalid (K : Codec) (bs : List Nat) (h : ¬ ∃ cs, MultibyteText K bs cs) (hz : ∀ b ∈ bs, b ≠ 0)
    (junk : List Nat) : atow K (bs ++ 0 :: junk) = some [] := by
  have : (decodeAll K bs).2 = false := by
    cases e : (decodeAll K bs).2 with
    | false => rfl
    | true => exact absurd ⟨_, text_decodeAll _ bs (Nat.le_refl _) e⟩ h
  unfold atow convertAnsi mbsLength
  rw [untilZero_eq junk bs hz]
  simp only [Option.map_some, this]
  rfl

theorem multibyteText_of {K : Codec} (hK : Faithful K) : ∀ (cs bs : List Nat), multibyte K cs = some bs → MultibyteText K bs cs
  | [], bs, h => by cases h; exact .nil
  | c :: cs, bs, h => by
    unfold multibyte at h
    cases e : (c :: cs).mapM K.encode with
    | none => rw [e] at h; cases h
    | some bss =>
      rw [e] at h
      obtain ⟨b, bs', e1, e2, rfl⟩ := mapM_cons_some e
      cases h
      rw [List.flatten_cons]
      have hne : b ≠ [] := fun hb => hK.nonempty c (hb ▸ e1)
      refine .cons (by simp [hne]) (hK.decode c b e1 _) ?_
      rw [List.drop_left]
      exact multibyteText_of hK cs _ (by unfold multibyte; rw [e2]; rfl)

theorem multibyte_nz {K : Codec} (hK : Faithful K) {cs bs : List Nat} (h : multibyte K cs = some bs) (hz : ∀ c ∈ cs, c ≠ 0) :
    ∀ b ∈ bs, b ≠ 0 := by
  induction cs generalizing bs with
  | nil => cases h; simp
  | cons c cs ih =>
    unfold multibyte at h
    cases e : (c :: cs).mapM K.encode with
    | none => rw [e] at h; cases h
    | some bss =>
      rw [e] at h
      obtain ⟨b, bs', e1, e2, rfl⟩ := mapM_cons_some e
      cases h
      intro x hx
      rw [List.flatten_cons, List.mem_append] at hx
      rcases hx with hx | hx
      · exact hK.nonzero c b (hz c (by simp)) e1 x hx
      · exact ih (by unfold multibyte; rw [e2]; rfl) (fun y hy => hz y (by simp [hy])) x hx

/-- **C83**.  `atow(wtoa(s))` is `s` exactly if all characters of `s` can be represented or `s` is empty; otherwise it is the empty
string. -/
theorem C83_round_trip (K : Codec) (hK : Faithful K) (cs : List Nat) (h : ∀ c ∈ cs, c ≠ 0) (junk junk' : List Nat) :
    ∃ bs, wtoa K (cs ++ 0 :: junk) = some bs ∧
      atow K (bs ++ 0 :: junk') = some (if ∀ c ∈ cs, K.encode c ≠ none then cs else []) := by
  refine ⟨_, C83_wtoa K cs h junk, ?_⟩
  have hm : (∀ c ∈ cs, K.encode c ≠ none) ↔ multibyte K cs ≠ none := by
    clear h
    unfold multibyte
    induction cs with
    | nil => simp
    | cons c cs ih =>
      rw [List.mapM_cons]
      cases e : K.encode c with
      | none => simp [e]
      | some b =>
        cases e2 : cs.mapM K.encode with
        | none => simp [e2] at ih; simp [e, ih]
        | some bs => simp [e2] at ih; simp [e]; exact ih
  cases e : multibyte K cs with
  | none =>
    rw [if_neg (by rw [hm, e]; simp)]
    exact C83_atow K [] [] .nil (by simp) junk'
  | some bs =>
    rw [if_pos (by rw [hm, e]; simp)]
    exact C83_atow K bs cs (multibyteText_of hK cs bs e) (multibyte_nz hK e h) junk'

/-- UTF-8, restricted to characters of at most two bytes -/
def sample : Codec where
  encode c := if c < 0x80 then some [c] else if c < 0x800 then some [0xC0 + c / 64, 0x80 + c % 64] else none
  decode
    | [] => none
    | [b] => if b < 0x80 then some (b, 1) else none
    | b :: b2 :: _ => if b < 0x80 then some (b, 1)
      else if 0xC0 ≤ b ∧ b < 0xE0 ∧ 0x80 ≤ b2 ∧ b2 < 0xC0 then some ((b - 0xC0) * 64 + (b2 - 0x80), 2) else none
  decode_pos := by
    intro bs c k h
    match bs with
    | [] => cases h
    | [b] => simp only [] at h; split at h <;> cases h; decide
    | b :: b2 :: _ =>
      simp only [] at h
      split at h
      · cases h; decide
      · split at h
        · simp only [Option.some.injEq, Prod.mk.injEq] at h; omega
        · cases h

theorem sample_faithful : Faithful sample where
  nonempty c := by
    simp only [sample]
    split
    · simp
    · split <;> simp
  nonzero c bs hc h := by
    simp only [sample] at h
    split at h
    · cases h; simpa using hc
    · split at h <;> cases h
      intro b hb
      simp only [List.mem_cons, List.not_mem_nil, or_false] at hb
      omega
  decode c bs h rest := by
    simp only [sample] at h
    split at h
    · next hlt =>
      cases h
      cases rest with
      | nil => simp [sample, hlt]
      | cons r rest => simp [sample, hlt]
    · split at h <;> cases h
      next h1 h2 =>
      simp only [sample, List.cons_append, List.nil_append]
      rw [if_neg (by omega), if_pos (by omega)]
      refine congrArg some (Prod.ext ?_ rfl)
      simp only []
      omega

example : wtoa sample ([0x41, 0xE9] ++ 0 :: [5]) = some [0x41, 0xC3, 0xA9] := C83_wtoa sample _ (by decide) _
example : wtoa sample ([0x41, 0x20AC] ++ 0 :: [5]) = some [] := C83_wtoa sample _ (by decide) _
example : ∃ bs, wtoa sample ([0x41, 0xE9] ++ 0 :: [5]) = some bs ∧ atow sample (bs ++ 0 :: []) = some [0x41, 0xE9] :=
  C83_round_trip sample sample_faithful _ (by decide) _ _
example : atow sample ([0x41, 0xC3] ++ 0 :: []) = some [] :=
  C83_atow_invalid sample _ (by
    rintro ⟨cs, h⟩
    cases h with
    | cons _ h1 h2 =>
      cases h1
      cases h2 with
      | cons _ h3 _ => cases h3) (by decide) _

end Utf
end Vlpp
