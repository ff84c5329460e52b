import Verif.Spec.Ansi
import Verif.Props.UtfWideProps

/-!
# Property C112: strings of `char` on both platforms and in all conversions
-/
set_option autoImplicit false
namespace Vlpp
namespace Utf
open Vlpp.Spec

theorem convertWin_eq (f : List Nat → List Nat) (text junk : List Nat) (h : ∀ c ∈ text, c ≠ 0) :
    convertWin f (text ++ 0 :: junk) = some (if (f text).length < 2147483647 then f text else []) := by
  have hc : ∀ n d, winConvert f (text ++ 0 :: junk) n d =
      if 2147483647 < (f text).length + 1 then some (0, d)
      else if n = 0 then some ((f text).length + 1, d)
      else if (f text).length + 1 ≤ n then (putAt d 0 (f text ++ [0])).map fun d => ((f text).length + 1, d)
      else some (0, d) := by
    intro n d
    unfold winConvert
    rw [untilZero_eq junk text h]
    simp
  by_cases hl : (f text).length < 2147483647
  · have hp : putAt (List.replicate ((f text).length + 1) 0) 0 (f text ++ [0]) = some (f text ++ [0]) := by
      simp [putAt]
    simp only [convertWin, hc, if_pos hl, if_neg (show ¬2147483647 < (f text).length + 1 by omega)]
    simp [hp]
  · simp only [convertWin, hc, if_neg hl, if_pos (show 2147483647 < (f text).length + 1 by omega)]
    simp

theorem multibyte_bytes (P : Page) : ∀ (us bs : List Nat), multibyte P.toCodec us = some bs → P.bytes us = bs
  | [], bs, h => by cases h; rfl
  | c :: cs, bs, h => by
    unfold multibyte at h
    cases e : (c :: cs).mapM P.encode with
    | none => rw [e] at h; cases h
    | some bss =>
      rw [e] at h
      obtain ⟨b, bs', e1, e2, rfl⟩ := mapM_cons_some e
      cases h
      have ih := multibyte_bytes P cs bs'.flatten (by unfold multibyte; rw [e2]; rfl)
      unfold Page.bytes at ih ⊢
      rw [List.flatMap_cons, e1, ih]
      rfl

theorem units_text (P : Page) {bs us : List Nat} (h : MultibyteText P.toCodec bs us) : P.units bs = us := by
  induction h with
  | nil => unfold Page.units; rfl
  | @cons bs c k cs hb hd _ ih =>
    cases bs with
    | nil => exact absurd rfl hb
    | cons b bs =>
      unfold Page.units
      split
      · next h2 => rw [hd] at h2; cases h2
      · next h2 => rw [hd] at h2; cases h2; rw [ih]

/-- what a unit is after the way to bytes and back -/
def replaced (P : Page) (q : Nat) (u : Nat) : Nat := if P.encode u = none then q else u

theorem replaced_encode {P : Page} {q : Nat} (hP : PageFor P q) (u : Nat) :
    P.encode (replaced P q u) = some ((P.encode u).getD P.byteDefault) := by
  unfold replaced
  cases e : P.encode u with
  | none => simp [hP.default]
  | some b => simp [e]

theorem bytes_replaced {P : Page} {q : Nat} (hP : PageFor P q) (us : List Nat) :
    multibyte P.toCodec (us.map (replaced P q)) = some (P.bytes us) := by
  have : (us.map (replaced P q)).mapM P.encode = some (us.map fun u => (P.encode u).getD P.byteDefault) := by
    induction us with
    | nil => rfl
    | cons u us ih => rw [List.map_cons, List.mapM_cons, replaced_encode hP, ih]; rfl
  unfold multibyte Page.bytes
  rw [this, List.flatMap_def]
  rfl

theorem bytes_nz {P : Page} {q : Nat} (hP : PageFor P q) (us : List Nat) (h : ∀ u ∈ us, u ≠ 0) : ∀ b ∈ P.bytes us, b ≠ 0 := by
  refine multibyte_nz hP.faithful (bytes_replaced hP us) ?_
  intro c hc
  obtain ⟨u, hu, rfl⟩ := List.mem_map.1 hc
  unfold replaced
  split
  · exact hP.nonzero
  · exact h u hu

theorem bytes_length {P : Page} {q : Nat} (hP : PageFor P q) (us : List Nat) : us.length ≤ (P.bytes us).length := by
  induction us with
  | nil => simp
  | cons u us ih =>
    have hne : (P.encode u).getD P.byteDefault ≠ [] := fun e =>
      hP.faithful.nonempty _ ((replaced_encode hP u).trans (congrArg some e))
    have := List.length_pos_iff.2 hne
    unfold Page.bytes at ih ⊢
    rw [List.flatMap_cons, List.length_append, List.length_cons]
    omega

theorem text_length {K : Codec} {bs us : List Nat} (h : MultibyteText K bs us) : us.length ≤ bs.length := by
  induction h with
  | nil => simp
  | cons hb hd _ ih =>
    have := K.decode_pos _ _ _ hd
    have := List.length_pos_iff.2 hb
    simp only [List.length_drop, List.length_cons] at *
    omega

theorem textIn_nz {cfg : Wide} {cs : List Char} {us : List Nat} (h : TextIn cfg .w cs us) (h0 : ∀ c ∈ cs, c.toNat ≠ 0) :
    ∀ u ∈ us, u ≠ 0 := by
  cases cfg with
  | utf32 =>
    have h : us = cs.map Char.toNat := h
    subst h
    intro u hu
    obtain ⟨c, hc, rfl⟩ := List.mem_map.1 hu
    exact h0 c hc
  | utf16 =>
    replace h : Utf16Text us (cs.map Char.toNat) := h
    replace h0 : ∀ c ∈ cs.map Char.toNat, c ≠ 0 := by
      intro u hu
      obtain ⟨c, hc, rfl⟩ := List.mem_map.1 hu
      exact h0 c hc
    generalize cs.map Char.toNat = ns at h h0
    induction h with
    | nil => simp
    | cons h1 _ ih =>
      intro u hu
      rw [List.mem_append] at hu
      rcases hu with hu | hu
      · cases h1 with
        | bmp _ _ =>
          rw [List.mem_singleton] at hu
          subst hu
          exact h0 _ (by simp)
        | pair _ _ =>
          simp at hu
          omega
      · exact ih (fun c hc => h0 c (by simp [hc])) u hu

theorem atow_text (A : Ansi) {bs us : List Nat} (hz : ∀ b ∈ bs, b ≠ 0) (h : MultibyteText (codec A) bs us)
    (hl : us.length < 2147483647) (junk : List Nat) : A.atow (bs ++ 0 :: junk) = some us := by
  cases A with
  | linux K => exact C83_atow K bs us h hz junk
  | windows P =>
    show convertWin P.units _ = _
    rw [convertWin_eq _ _ _ hz, units_text P h, if_pos hl]

theorem wtoa_text (A : Ansi) {us bs : List Nat} (hz : ∀ u ∈ us, u ≠ 0) (h : multibyte (codec A) us = some bs)
    (hl : bs.length < 2147483647) (junk : List Nat) : A.wtoa (us ++ 0 :: junk) = some bs := by
  cases A with
  | linux K =>
    show Utf.wtoa K _ = _
    rw [C83_wtoa K us hz junk, show multibyte K us = some bs from h]
    rfl
  | windows P =>
    show convertWin P.bytes _ = _
    rw [convertWin_eq _ _ _ hz, multibyte_bytes P us bs h, if_pos hl]

theorem convert_w {A : Ansi} (F : Form) {cs : List Char} (h0 : ∀ c ∈ cs, c.toNat ≠ 0) {us : List Nat} (h : TextIn A.cfg .w cs us)
    (junk : List Nat) : ∃ vs, convert A.cfg .w F us junk = some vs ∧ TextIn A.cfg F cs vs := by
  by_cases hF : F = .w
  · subst hF
    exact ⟨us, by cases A <;> rfl, h⟩
  · exact C82_conversions A.cfg .w F (Ne.symm hF) cs h0 us h junk

theorem convert_to_w {A : Ansi} (F : Form) {cs : List Char} (h0 : ∀ c ∈ cs, c.toNat ≠ 0) {us : List Nat} (h : TextIn A.cfg F cs us)
    (junk : List Nat) : ∃ vs, convert A.cfg F .w us junk = some vs ∧ TextIn A.cfg .w cs vs := by
  by_cases hF : F = .w
  · subst hF
    exact ⟨us, by cases A <;> rfl, h⟩
  · exact C82_conversions A.cfg F .w hF cs h0 us h junk

theorem textIn_eq {cfg : Wide} {F : Form} {cs : List Char} {us vs : List Nat} (h : TextIn cfg F cs us) (h' : TextIn cfg F cs vs) :
    us = vs := ((textIn_iff _ _ _ _).1 h).trans ((textIn_iff _ _ _ _).1 h').symm

theorem cfg_wide (A : Ansi) : A.cfg = wide A := by cases A <;> rfl

theorem units_page (P : Page) : ∀ (n : Nat) (bs us : List Nat), bs.length ≤ n → (PageText P bs us ↔ us = P.units bs)
  | _, [], us, _ => by
    unfold Page.units
    constructor
    · intro h
      cases h with
      | nil => rfl
      | char hb _ _ => exact absurd rfl hb
      | malformed hb _ _ => exact absurd rfl hb
    · rintro rfl
      exact .nil
  | 0, _ :: _, _, hn => by simp at hn
  | n + 1, b :: bs, us, hn => by
    have hdrop : (b :: bs).drop (max 1 (P.skip (b :: bs))) = bs.drop (P.skip (b :: bs) - 1) := by
      rw [show max 1 (P.skip (b :: bs)) = P.skip (b :: bs) - 1 + 1 by omega, List.drop_succ_cons]
    simp only [List.length_cons] at hn
    unfold Page.units
    split
    · next hd =>
      constructor
      · intro h
        cases h with
        | char _ hd' _ => rw [hd] at hd'; cases hd'
        | malformed _ _ ht =>
          rw [hdrop] at ht
          rw [(units_page P n _ _ (by simp only [List.length_drop]; omega)).1 ht]
      · rintro rfl
        refine .malformed (by simp) hd ?_
        rw [hdrop]
        exact (units_page P n _ _ (by simp only [List.length_drop]; omega)).2 rfl
    · next c k hd =>
      have := P.decode_pos _ _ _ hd
      have hlen : ((b :: bs).drop k).length ≤ n := by simp only [List.length_drop, List.length_cons]; omega
      constructor
      · intro h
        cases h with
        | char _ hd' ht =>
          rw [hd] at hd'
          cases hd'
          rw [(units_page P n _ _ hlen).1 ht]
        | malformed _ hd' _ => rw [hd] at hd'; cases hd'
      · rintro rfl
        exact .char (by simp) hd ((units_page P n _ _ hlen).2 rfl)

/-- **C112.** Both platforms, every locale or code page, every class of strings: `atow`, `atou8`, `atou16`, `atou32` of a text give that text. -/
theorem _root_.Vlpp.C112_from (A : Ansi) (F : Form) (cs : List Char) (h0 : ∀ c ∈ cs, c.toNat ≠ 0) (bs : List Nat) (h : AnsiText A cs bs)
    (junk : List Nat) : ∃ vs, A.fromA F bs junk = some vs ∧ TextIn (wide A) F cs vs := by
  rw [← cfg_wide]
  obtain ⟨hz, us, h1, h2, h3⟩ := h
  rw [← cfg_wide] at h1
  obtain ⟨vs, e, hv⟩ := convert_w F h0 h1 []
  exact ⟨vs, by simp [Ansi.fromA, atow_text A hz h2 h3 junk, e], hv⟩

/-- **C112.** Both platforms, every locale or code page, every class of strings: `wtoa`, `u8toa`, `u16toa`, `u32toa` of a text that can be
represented give that text, from which all the functions in the other direction give it back. -/
theorem _root_.Vlpp.C112_to (A : Ansi) (hA : Faithful (codec A)) (F G : Form) (cs : List Char) (h0 : ∀ c ∈ cs, c.toNat ≠ 0)
    (hr : Representable A cs) (us : List Nat) (h : TextIn (wide A) F cs us) (junk junk' : List Nat) :
    ∃ bs vs, A.toA F us junk = some bs ∧ AnsiText A cs bs ∧ A.fromA G bs junk' = some vs ∧ TextIn (wide A) G cs vs := by
  obtain ⟨ws, bs, h1', h2, h3⟩ := hr
  have h1 := h1'
  rw [← cfg_wide] at h1 h
  obtain ⟨ws', e, hw⟩ := convert_to_w F h0 h junk
  obtain rfl := textIn_eq h1 hw
  have hz := textIn_nz h1 h0
  have ht := multibyteText_of hA ws bs h2
  have ha : AnsiText A cs bs := ⟨multibyte_nz hA h2 hz, ws, h1', ht, Nat.lt_of_le_of_lt (text_length ht) h3⟩
  obtain ⟨vs, ev, hv⟩ := C112_from A G cs h0 bs ha junk'
  refine ⟨bs, vs, ?_, ha, ev, hv⟩
  simp only [Ansi.toA, e, Option.bind_eq_bind, Option.bind_some]
  exact wtoa_text A hz h2 h3 _

/-- **C112.** Windows: in a text, whatever its characters are, exactly those that the code page has not are replaced by one that it has,
and the number of characters stays the same; also in wide strings that are not well formed. -/
theorem _root_.Vlpp.C112_replaced (P : Page) (q : Nat) (hP : PageFor P q) (us : List Nat) (hz : ∀ u ∈ us, u ≠ 0)
    (hl : (P.bytes us).length < 2147483647) (junk junk' : List Nat) :
    ∃ bs, (Ansi.windows P).toA .w us junk = some bs ∧
      (Ansi.windows P).fromA .w bs junk' = some (us.map fun u => if P.encode u = none then q else u) := by
  refine ⟨P.bytes us, ?_, ?_⟩
  · show convertWin P.bytes (us ++ 0 :: junk) = _
    rw [convertWin_eq _ _ _ hz, if_pos hl]
  · have ht := multibyteText_of hP.faithful _ _ (bytes_replaced hP us)
    have : convertWin P.units (P.bytes us ++ 0 :: junk') = some (us.map (replaced P q)) := by
      rw [convertWin_eq _ _ _ (bytes_nz hP us hz), units_text P ht, if_pos]
      exact Nat.lt_of_le_of_lt (text_length ht) hl
    have e : (Ansi.windows P).atow (P.bytes us ++ 0 :: junk') = some (us.map (replaced P q)) := this
    simp only [Ansi.fromA, e, Option.bind_eq_bind, Option.bind_some]
    rfl

/-- **C112.** Windows: in a string of `char`, whatever its bytes are, exactly what is malformed is replaced; the result is determined by that,
and not empty if the string is not. -/
theorem _root_.Vlpp.C112_malformed (P : Page) (bs us : List Nat) (hz : ∀ b ∈ bs, b ≠ 0) (h : PageText P bs us) (junk : List Nat)
    (hl : us.length < 2147483647) :
    (Ansi.windows P).fromA .w bs junk = some us ∧ (us = [] ↔ bs = []) ∧ ∀ us', PageText P bs us' → us' = us := by
  have e := (units_page P _ bs us (Nat.le_refl _)).1 h
  refine ⟨?_, ?_, fun us' h' => ((units_page P _ bs us' (Nat.le_refl _)).1 h').trans e.symm⟩
  · have e' : (Ansi.windows P).atow (bs ++ 0 :: junk) = some us := by
      show convertWin P.units _ = _
      rw [convertWin_eq _ _ _ hz, ← e, if_pos hl]
    simp only [Ansi.fromA, e', Option.bind_eq_bind, Option.bind_some]
    rfl
  · cases h with
    | nil => simp
    | char hb _ _ => simp [hb]
    | malformed hb _ _ => simp [hb]

/-- **C112.** Linux: a text that cannot be represented is the empty string in every direction and class. -/
theorem _root_.Vlpp.C112_empty (K : Codec) (F : Form) (junk : List Nat) :
    (∀ cs : List Char, (∀ c ∈ cs, c.toNat ≠ 0) → ∀ us, TextIn .utf32 F cs us → multibyte K (cs.map Char.toNat) = none →
      (Ansi.linux K).toA F us junk = some []) ∧
    (∀ bs : List Nat, (∀ b ∈ bs, b ≠ 0) → (¬∃ us, MultibyteText K bs us) → (Ansi.linux K).fromA F bs junk = some []) := by
  constructor
  · intro cs h0 us h hn
    obtain ⟨ws, e, hw⟩ := convert_to_w (A := .linux K) F h0 h junk
    have hw' : ws = cs.map Char.toNat := hw
    simp only [Ansi.toA, e, Option.bind_eq_bind, Option.bind_some]
    show Utf.wtoa K _ = _
    rw [C83_wtoa K ws (textIn_nz hw h0), hw', hn]
    rfl
  · intro bs hz hn
    have ha : (Ansi.linux K).atow (bs ++ 0 :: junk) = some [] := C83_atow_invalid K bs hn hz junk
    obtain ⟨vs, e, hv⟩ := convert_w (A := .linux K) F (cs := []) (by simp) (us := []) rfl []
    have hv' : vs = [] := textIn_eq hv (by cases F <;> first | rfl | exact .nil)
    simp only [Ansi.fromA, ha, Option.bind_eq_bind, Option.bind_some, e, hv']

/-- **C112.** Windows: if the result has more units than an `int` can count, it is the empty string; otherwise no string that is not empty
becomes empty. -/
theorem _root_.Vlpp.C112_windows_empty (P : Page) (q : Nat) (hP : PageFor P q) (us : List Nat) (hz : ∀ u ∈ us, u ≠ 0) (junk : List Nat) :
    (Ansi.windows P).toA .w us junk = some [] ↔ us = [] ∨ 2147483647 ≤ (P.bytes us).length := by
  have e : (Ansi.windows P).toA .w us junk = some (if (P.bytes us).length < 2147483647 then P.bytes us else []) :=
    convertWin_eq P.bytes us junk hz
  rw [e]
  by_cases hl : (P.bytes us).length < 2147483647
  · rw [if_pos hl]
    have := bytes_length hP us
    constructor
    · intro h
      have h : P.bytes us = [] := by simpa using h
      rw [h] at this
      exact .inl (List.eq_nil_of_length_eq_zero (by simpa using this))
    · rintro (rfl | h)
      · rfl
      · omega
  · rw [if_neg hl]
    simp
    omega

/-! Examples: a page with ASCII without `~`, and one character of two bytes -/

def page : Page where
  encode u := if u = 0x20AC then some [0x81, 0x40] else if u < 0x7E then some [u] else none
  decode
    | [] => none
    | b :: bs => if b < 0x7E then some (b, 1) else if b = 0x81 ∧ bs.head? = some 0x40 then some (0x20AC, 2) else none
  decode_pos := by
    intro bs c k h
    match bs with
    | [] => cases h
    | b :: bs =>
      simp only at h
      split at h
      · cases h; decide
      · split at h <;> cases h; decide
  byteDefault := [63]
  wideDefault := 0x3F
  skip _ := 1

theorem page_ok : PageFor page 63 where
  faithful :=
    { nonempty := by
        intro c
        simp only [page]
        split
        · simp
        · split <;> simp
      nonzero := by
        intro c bs hc h
        simp only [page] at h
        split at h
        · cases h; simp
        · split at h <;> cases h
          simpa using hc
      decode := by
        intro c bs h rest
        simp only [page] at h ⊢
        split at h
        · next e => cases h; subst e; rfl
        · split at h <;> cases h
          next e => simp [e] }
  default := rfl
  nonzero := by decide

/-- "A€" in UTF-8 to the code page and back to UTF-16 -/
example : ∃ bs vs, (Ansi.windows page).toA .u8 [0x41, 0xE2, 0x82, 0xAC] [7] = some bs ∧ AnsiText (.windows page) ['A', '€'] bs ∧
    (Ansi.windows page).fromA .u16 bs [9] = some vs ∧ TextIn .utf16 .u16 ['A', '€'] vs :=
  C112_to (.windows page) page_ok.faithful .u8 .u16 ['A', '€'] (by decide)
    ⟨[0x41, 0x20AC], [0x41, 0x81, 0x40], .cons (.bmp (c := 0x41) (by decide) (by unfold Surrogate; decide))
      (.cons (.bmp (c := 0x20AC) (by decide) (by unfold Surrogate; decide)) .nil), by decide, by decide⟩ _ (by show _ = _; decide +kernel) _ _

example : ∃ bs vs, (Ansi.linux sample).toA .u16 [0x41, 0xE9] [7] = some bs ∧ AnsiText (.linux sample) ['A', 'é'] bs ∧
    (Ansi.linux sample).fromA .u8 bs [9] = some vs ∧ TextIn .utf32 .u8 ['A', 'é'] vs :=
  C112_to (.linux sample) sample_faithful .u16 .u8 ['A', 'é'] (by decide)
    ⟨[0x41, 0xE9], [0x41, 0xC3, 0xA9], rfl, by decide, by decide⟩ _
    (.cons (.bmp (c := 0x41) (by decide) (by unfold Surrogate; decide))
      (.cons (.bmp (c := 0xE9) (by decide) (by unfold Surrogate; decide)) .nil)) _ _

/-- A surrogate pair is replaced by two characters. -/
example : ∃ bs, (Ansi.windows page).toA .w [0x41, 0xD83D, 0xDE00, 0x20AC, 0x7E] [] = some bs ∧
    (Ansi.windows page).fromA .w bs [1] = some [0x41, 63, 63, 0x20AC, 63] :=
  C112_replaced page 63 page_ok [0x41, 0xD83D, 0xDE00, 0x20AC, 0x7E] (by decide) (by decide) _ _

/-- The first of two bytes without the second. -/
example : (Ansi.windows page).fromA .w [0x41, 0x81, 0x42] [] = some [0x41, 63, 0x42] :=
  (C112_malformed page _ _ (by decide) (.char (k := 1) (by decide) (by decide) (.malformed (by decide) (by decide)
    (.char (k := 1) (by decide) (by decide) .nil))) _ (by decide)).1

example : (Ansi.linux sample).toA .u8 [0x41, 0xE2, 0x82, 0xAC] [7] = some [] :=
  (C112_empty sample .u8 [7]).1 ['A', '€'] (by decide) _ (by show _ = _; decide +kernel) (by decide)

end Utf
end Vlpp
