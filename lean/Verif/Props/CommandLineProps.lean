import Verif.Model.CommandLine
import Verif.Spec.CommandLine
import Verif.Props.AnsiProps

/-!
# Property C113: the command line of tests
-/
set_option autoImplicit false
namespace Vlpp
namespace CommandLine
open Utf Vlpp.Spec

/-! ## Texts in wide strings -/

theorem char_eq {c d : Char} (h : c.toNat = d.toNat) : c = d := Char.toNat_inj.1 h

theorem map_toNat_inj : ∀ (a b : List Char), a.map Char.toNat = b.map Char.toNat → a = b
  | [], [], _ => rfl
  | [], _ :: _, h => by simp at h
  | _ :: _, [], h => by simp at h
  | a :: as, b :: bs, h => by
    simp only [List.map_cons, List.cons.injEq] at h
    rw [char_eq h.1, map_toNat_inj as bs h.2]

theorem textIn_inj {A : Ansi} {cs cs' : List Char} {us : List Nat} (h : TextIn (wide A) .w cs us) (h' : TextIn (wide A) .w cs' us)
    (h0 : ∀ c ∈ cs, c.toNat ≠ 0) (h0' : ∀ c ∈ cs', c.toNat ≠ 0) : cs = cs' := by
  obtain ⟨vs, e, hv⟩ := C82_conversions (wide A) .w .u32 (by decide) cs h0 us h []
  obtain ⟨vs', e', hv'⟩ := C82_conversions (wide A) .w .u32 (by decide) cs' h0' us h' []
  rw [e] at e'
  cases e'
  have hv : vs = cs.map Char.toNat := by cases A <;> exact hv
  have hv' : vs = cs'.map Char.toNat := by cases A <;> exact hv'
  exact map_toNat_inj cs cs' (hv.symm.trans hv')

/-- a unit of ASCII in a text is a character -/
theorem split_ascii (A : Ansi) (a : Nat) (ha : a < 128) : ∀ (cs : List Char) (us1 us2 : List Nat), TextIn (wide A) .w cs (us1 ++ a :: us2) →
    ∃ cs1 c cs2, cs = cs1 ++ c :: cs2 ∧ c.toNat = a ∧ TextIn (wide A) .w cs1 us1 ∧ TextIn (wide A) .w cs2 us2 := by
  cases A with
  | linux K =>
    intro cs us1 us2 h
    have h : us1 ++ a :: us2 = cs.map Char.toNat := h
    obtain ⟨l1, l2, e, e1, e2⟩ := List.map_eq_append_iff.1 h.symm
    obtain ⟨c, l2', e3, e4, e5⟩ := List.map_eq_cons_iff.1 e2
    exact ⟨l1, c, l2', by rw [e, e3], e4, e1.symm, e5.symm⟩
  | windows P =>
    intro cs
    induction cs with
    | nil =>
      intro us1 us2 h
      have h : Utf16Text (us1 ++ a :: us2) [] := h
      generalize e : us1 ++ a :: us2 = us at h
      cases h
      simp at e
    | cons c cs ih =>
      intro us1 us2 h
      have h : Utf16Text (us1 ++ a :: us2) (c.toNat :: cs.map Char.toNat) := h
      generalize e : us1 ++ a :: us2 = us at h
      generalize ec : c.toNat = n at h
      cases h with
      | cons h1 h2 =>
        next uc rest =>
        cases h1 with
        | bmp hlt hs =>
          match us1, e with
          | [], e =>
            simp at e
            obtain ⟨rfl, rfl⟩ := e
            exact ⟨[], c, cs, rfl, ec, .nil, h2⟩
          | u :: us1, e =>
            simp at e
            obtain ⟨rfl, rfl⟩ := e
            obtain ⟨cs1, c', cs2, rfl, hc, t1, t2⟩ := ih us1 us2 h2
            refine ⟨c :: cs1, c', cs2, rfl, hc, ?_, t2⟩
            subst ec
            exact Utf16Text.cons (.bmp hlt hs) t1
        | @pair hi lo hh hl =>
          match us1, e with
          | [], e => simp at e; omega
          | [u], e => simp at e; omega
          | u :: v :: us1, e =>
            simp at e
            obtain ⟨rfl, rfl, rfl⟩ := e
            obtain ⟨cs1, c', cs2, rfl, hc, t1, t2⟩ := ih us1 us2 h2
            refine ⟨c :: cs1, c', cs2, rfl, hc, ?_, t2⟩
            have : Utf16Text ([0xD800 + hi, 0xDC00 + lo] ++ us1) (c.toNat :: cs1.map Char.toNat) := by
              rw [ec]
              exact Utf16Text.cons (.pair hh hl) t1
            exact this

theorem textIn_nil {A : Ansi} {cs : List Char} (h : TextIn (wide A) .w cs []) : cs = [] := by
  cases cs with
  | nil => rfl
  | cons c cs =>
    cases A with
    | linux K => have h : [] = (c :: cs).map Char.toNat := h; simp at h
    | windows P =>
      have h : Utf16Text [] (c.toNat :: cs.map Char.toNat) := h
      generalize e : ([] : List Nat) = us at h
      generalize c.toNat = n at h
      cases h with
      | cons h1 h2 => cases h1 <;> simp at e

theorem textIn_empty (A : Ansi) : TextIn (wide A) .w [] [] := by
  cases A with
  | linux K => rfl
  | windows P => exact .nil

theorem textIn_cons (A : Ansi) (c : Char) (hc : c.toNat < 128) {cs : List Char} {us : List Nat} (h : TextIn (wide A) .w cs us) :
    TextIn (wide A) .w (c :: cs) (c.toNat :: us) := by
  cases A with
  | linux K => have h : us = cs.map Char.toNat := h; show _ = _; simp [h]
  | windows P => exact Utf16Text.cons (.bmp (by omega) (by unfold Surrogate; omega)) h

theorem textIn_append (A : Ansi) {cs1 cs2 : List Char} {us1 us2 : List Nat} (h1 : TextIn (wide A) .w cs1 us1)
    (h2 : TextIn (wide A) .w cs2 us2) : TextIn (wide A) .w (cs1 ++ cs2) (us1 ++ us2) := by
  cases A with
  | linux K =>
    have h1 : us1 = cs1.map Char.toNat := h1
    have h2 : us2 = cs2.map Char.toNat := h2
    show _ = _
    simp [h1, h2]
  | windows P =>
    replace h1 : Utf16Text us1 (cs1.map Char.toNat) := h1
    have h2 : Utf16Text us2 (cs2.map Char.toNat) := h2
    show Utf16Text _ _
    rw [List.map_append]
    generalize cs1.map Char.toNat = ns at h1
    induction h1 with
    | nil => exact h2
    | cons h _ ih => rw [List.append_assoc]; exact .cons h ih

theorem head_ascii {A : Ansi} {a : Nat} (ha : a < 128) {cs : List Char} {us : List Nat} (h : TextIn (wide A) .w cs (a :: us)) :
    ∃ c cs', cs = c :: cs' ∧ c.toNat = a ∧ TextIn (wide A) .w cs' us := by
  obtain ⟨cs1, c, cs2, rfl, hc, h1, h2⟩ := split_ascii A a ha cs [] us h
  rw [textIn_nil h1]
  exact ⟨c, cs2, rfl, hc, h2⟩

/-- every text has units -/
theorem textIn_exists (A : Ansi) (cs : List Char) : ∃ us, TextIn (wide A) .w cs us := by
  obtain ⟨us, h⟩ := C82_unique (wide A) .w cs
  exact ⟨us, (h us).2 rfl⟩

/-! ## Options -/

theorem wtoa_some (A : Ansi) (us : List Nat) (h : ∀ u ∈ us, u ≠ 0) : ∃ bs, A.wtoa (us ++ [0]) = some bs := by
  cases A with
  | linux K => exact ⟨_, C83_wtoa K us h []⟩
  | windows P => exact ⟨_, convertWin_eq P.bytes us [] h⟩

theorem parse_debug {A : Ansi} {us : List Nat} (h : TextIn (wide A) .w ['/', 'D'] us) (o : Parsed) :
    parse A o us = some { o with debug := true } := by
  rw [textIn_eq h (textIn_cons A '/' (by decide) (textIn_cons A 'D' (by decide) (textIn_empty A)))]
  rfl

theorem parse_release {A : Ansi} {us : List Nat} (h : TextIn (wide A) .w ['/', 'R'] us) (o : Parsed) :
    parse A o us = some { o with release := true } := by
  rw [textIn_eq h (textIn_cons A '/' (by decide) (textIn_cons A 'R' (by decide) (textIn_empty A)))]
  rfl

theorem parse_file {A : Ansi} {name : List Char} (hn : name ≠ []) {us ns : List Nat} (hns : TextIn (wide A) .w name ns)
    (h : TextIn (wide A) .w ('/' :: 'F' :: ':' :: name) us) (o : Parsed) :
    parse A o us = (A.wtoa (ns ++ [0])).map fun b => { o with names := o.names ++ [b] } := by
  rw [textIn_eq h (textIn_cons A '/' (by decide) (textIn_cons A 'F' (by decide) (textIn_cons A ':' (by decide) hns)))]
  have : ns ≠ [] := by rintro rfl; exact hn (textIn_nil hns)
  have := List.length_pos_iff.2 this
  have e1 : ('/').toNat = 47 := by decide
  have e2 : ('F').toNat = 70 := by decide
  have e3 : (':').toNat = 58 := by decide
  rw [e1, e2, e3]
  unfold parse
  rw [if_neg (by simp), if_neg (by simp), if_pos ⟨by simp; omega, by simp⟩]
  simp
  cases A.wtoa (ns ++ [0]) <;> rfl

theorem parse_unknown {A : Ansi} {option : List Char} {us : List Nat} (h : TextIn (wide A) .w option us) (hw : ∀ w, ¬Written w option)
    (o : Parsed) : parse A o us = some { o with unrecognized := true } := by
  unfold parse
  rw [if_neg, if_neg, if_neg]
  · rintro ⟨hl, ht⟩
    have e : us = 47 :: 70 :: 58 :: us.drop 3 := by
      rw [← List.take_append_drop 3 us, ht]; simp
    rw [e] at h
    obtain ⟨c1, o1, rfl, h1, h⟩ := head_ascii (by decide) h
    obtain ⟨c2, o2, rfl, h2, h⟩ := head_ascii (by decide) h
    obtain ⟨c3, o3, rfl, h3, h3'⟩ := head_ascii (by decide) h
    have e1 : c1 = '/' := char_eq h1
    have e2 : c2 = 'F' := char_eq h2
    have e3 : c3 = ':' := char_eq h3
    subst e1 e2 e3
    refine hw _ (.file o3 ?_)
    rintro rfl
    have := textIn_eq h3' (textIn_empty A)
    have := congrArg List.length this
    simp at this
    omega
  · rintro rfl
    obtain ⟨c1, o1, rfl, h1, h⟩ := head_ascii (by decide) h
    obtain ⟨c2, o2, rfl, h2, h⟩ := head_ascii (by decide) h
    rw [textIn_nil h, show c1 = '/' from char_eq h1, show c2 = 'R' from char_eq h2] at hw
    exact hw _ .release
  · rintro rfl
    obtain ⟨c1, o1, rfl, h1, h⟩ := head_ascii (by decide) h
    obtain ⟨c2, o2, rfl, h2, h⟩ := head_ascii (by decide) h
    rw [textIn_nil h, show c1 = '/' from char_eq h1, show c2 = 'D' from char_eq h2] at hw
    exact hw _ .debug

theorem parse_some (A : Ansi) (o : Parsed) (us : List Nat) (h : ∀ u ∈ us, u ≠ 0) :
    ∃ o', parse A o us = some o' ∧ (o.unrecognized = true → o'.unrecognized = true) := by
  unfold parse
  split
  · exact ⟨_, rfl, id⟩
  · split
    · exact ⟨_, rfl, id⟩
    · split
      · obtain ⟨b, e⟩ := wtoa_some A (us.drop 3) fun u hu => h u (List.mem_of_mem_drop hu)
        exact ⟨{ o with names := o.names ++ [b] }, by rw [e]; rfl, id⟩
      · exact ⟨_, rfl, fun _ => rfl⟩

theorem parseAll_unrecognized (A : Ansi) {os : List (List Char)} {uss : List (List Nat)} (h : Each (TextIn (wide A) .w) os uss)
    (h0 : ∀ o ∈ os, ∀ c ∈ o, c.toNat ≠ 0) : ∀ o : Parsed, (o.unrecognized = true ∨ ∃ x ∈ os, ∀ w, ¬Written w x) →
    ∃ o', parseAll A uss o = some o' ∧ o'.unrecognized = true := by
  induction h with
  | nil =>
    rintro o (ho | ⟨x, hx, _⟩)
    · exact ⟨o, rfl, ho⟩
    · simp at hx
  | @cons t us os uss ht _ ih =>
    intro o ho
    have ih := ih fun o ho => h0 o (by simp [ho])
    obtain ⟨o1, e1, hk⟩ := parse_some A o us (textIn_nz (cfg := wide A) ht (h0 t (by simp)))
    have : o1.unrecognized = true ∨ ∃ x ∈ os, ∀ w, ¬Written w x := by
      rcases ho with ho | ⟨x, hx, hw⟩
      · exact .inl (hk ho)
      · rcases List.mem_cons.1 hx with rfl | hx
        · rw [parse_unknown ht hw o] at e1
          cases e1
          exact .inl rfl
        · exact .inr ⟨x, hx, hw⟩
    obtain ⟨o2, e2, h2⟩ := ih o1 this
    exact ⟨o2, by simp [parseAll, e1, e2], h2⟩

theorem parseAll_written (A : Ansi) {ws : List Option'} {os : List (List Char)} (hw : AllWritten ws os) : ∀ {uss : List (List Nat)},
    Each (TextIn (wide A) .w) os uss → ∀ {bss : List (List Nat)}, Each (Bytes A) (fileNames ws) bss → ∀ o : Parsed,
    ∃ o', parseAll A uss o = some o' ∧ o'.unrecognized = o.unrecognized ∧ (o'.debug = true ↔ o.debug = true ∨ .debug ∈ ws) ∧
      (o'.release = true ↔ o.release = true ∨ .release ∈ ws) ∧ o'.names = o.names ++ bss := by
  induction hw with
  | nil =>
    intro uss hu bss hb o
    cases hu
    cases hb
    exact ⟨o, rfl, rfl, by simp, by simp, by simp⟩
  | @cons w x ws os hw _ ih =>
    intro uss hu bss hb o
    cases hu with
    | cons ht hu =>
      cases hw with
      | debug =>
        obtain ⟨o', e, h1, h2, h3, h4⟩ := ih hu hb { o with debug := true }
        exact ⟨o', by simp [parseAll, parse_debug ht, e], h1, by rw [h2]; simp, by rw [h3]; simp, h4⟩
      | release =>
        obtain ⟨o', e, h1, h2, h3, h4⟩ := ih hu hb { o with release := true }
        exact ⟨o', by simp [parseAll, parse_release ht, e], h1, by rw [h2]; simp, by rw [h3]; simp, h4⟩
      | file name hn =>
        cases hb with
        | @cons _ b _ bss hb1 hb =>
          obtain ⟨h0, hl, ns, hns, hm⟩ := hb1
          have hwt := wtoa_text A (textIn_nz (cfg := wide A) hns h0) hm hl []
          obtain ⟨o', e, h1, h2, h3, h4⟩ := ih hu hb { o with names := o.names ++ [b] }
          exact ⟨o', by simp [parseAll, parse_file hn hns ht, hwt, e], h1, by rw [h2]; simp, by rw [h3]; simp, by rw [h4]; simp⟩

/-! ## Names of files -/

theorem matchesName_iff (file name : List Nat) :
    matchesName file name = true ↔ file = name ∨ ∃ path d, file = path ++ d :: name ∧ (d = 47 ∨ d = 92) := by
  unfold matchesName
  by_cases he : file = name
  · simp [he]
  · rw [if_neg he]
    simp only [he, false_or]
    by_cases hl : file.length > name.length
    · rw [if_pos hl]
      have hlt : file.length - name.length - 1 < file.length := by omega
      rw [List.getElem?_eq_getElem hlt]
      simp only [Bool.and_eq_true, Bool.or_eq_true, decide_eq_true_eq]
      have hsplit : file = file.take (file.length - name.length - 1) ++
          file[file.length - name.length - 1] :: file.drop (file.length - name.length) := by
        conv => lhs; rw [← List.take_append_drop (file.length - name.length - 1) file, List.drop_eq_getElem_cons hlt]
        rw [show file.length - name.length - 1 + 1 = file.length - name.length by omega]
      constructor
      · rintro ⟨hd, hdrop⟩
        refine ⟨file.take (file.length - name.length - 1), file[file.length - name.length - 1], ?_, hd⟩
        rw [hdrop] at hsplit
        exact hsplit
      · rintro ⟨path, d, hf, hd⟩
        have h1 : file.length - name.length - 1 = path.length := by rw [hf]; simp; omega
        have h2 : file.length - name.length = path.length + 1 := by rw [hf]; simp; omega
        constructor
        · have : file[file.length - name.length - 1] = d := by
            have : file[path.length]? = some d := by rw [hf]; simp
            rw [← h1] at this
            exact (List.getElem?_eq_some_iff.1 this).2
          rw [this]; exact hd
        · rw [h2, hf]; simp
    · rw [if_neg hl]
      constructor
      · intro h; cases h
      · rintro ⟨path, d, hf, _⟩
        rw [hf] at hl
        simp at hl
        omega

theorem multibyte_cons {K : Codec} {u : Nat} {us bs : List Nat} :
    multibyte K (u :: us) = some bs ↔ ∃ b bs', K.encode u = some b ∧ multibyte K us = some bs' ∧ bs = b ++ bs' := by
  unfold multibyte
  rw [List.mapM_cons]
  cases e : K.encode u with
  | none => simp
  | some b =>
    cases e2 : us.mapM K.encode with
    | none => simp
    | some bs' => simp [eq_comm]

theorem multibyte_append {K : Codec} {us vs bs bs' : List Nat} (h : multibyte K us = some bs) (h' : multibyte K vs = some bs') :
    multibyte K (us ++ vs) = some (bs ++ bs') := by
  induction us generalizing bs with
  | nil => cases h; exact h'
  | cons u us ih =>
    obtain ⟨b, bs1, e1, e2, rfl⟩ := multibyte_cons.1 h
    exact multibyte_cons.2 ⟨b, _, e1, ih e2, by simp⟩

theorem multibyte_inj {K : Codec} (hK : Faithful K) {us vs bs : List Nat} (h : multibyte K us = some bs) (h' : multibyte K vs = some bs) :
    us = vs := by
  have e1 := decodeAll_text (multibyteText_of hK us bs h)
  have e2 := decodeAll_text (multibyteText_of hK vs bs h')
  rw [e1] at e2
  exact congrArg Prod.fst e2

/-- a byte that only occurs in its own character splits the text -/
theorem multibyte_split {K : Codec} {d : Nat} (hd : K.encode d = some [d]) (ho : ∀ c bs, K.encode c = some bs → d ∈ bs → c = d) :
    ∀ (us path rest : List Nat), multibyte K us = some (path ++ d :: rest) →
      ∃ us1 us2, us = us1 ++ d :: us2 ∧ multibyte K us1 = some path ∧ multibyte K us2 = some rest
  | [], path, rest, h => by
    have h : some [] = some (path ++ d :: rest) := h
    simp at h
  | u :: us, path, rest, h => by
    obtain ⟨b, bs', e1, e2, e3⟩ := multibyte_cons.1 h
    rcases List.append_eq_append_iff.1 e3 with ⟨x, rfl, hx⟩ | ⟨x, rfl, rfl⟩
    · -- the byte is in the first character, or the first character ends there
      match x, hx with
      | [], hx =>
        rw [List.append_nil] at e1
        have hx : bs' = d :: rest := hx.symm
        rw [hx] at e2
        obtain ⟨us1, us2, rfl, m1, m2⟩ := multibyte_split hd ho us [] rest e2
        exact ⟨u :: us1, us2, rfl, multibyte_cons.2 ⟨path, [], e1, m1, by simp⟩, m2⟩
      | y :: x, hx =>
        simp only [List.cons_append, List.cons.injEq] at hx
        obtain ⟨rfl, rfl⟩ := hx
        obtain rfl := ho u _ e1 (by simp)
        rw [hd] at e1
        have e1 : [u] = path ++ u :: x := by simpa using e1
        have : path = [] ∧ x = [] := by
          have := congrArg List.length e1
          simp at this
          exact ⟨List.eq_nil_of_length_eq_zero (by omega), List.eq_nil_of_length_eq_zero (by omega)⟩
        obtain ⟨rfl, rfl⟩ := this
        exact ⟨[], us, rfl, rfl, by simpa using e2⟩
    · obtain ⟨us1, us2, rfl, m1, m2⟩ := multibyte_split hd ho us x rest e2
      exact ⟨u :: us1, us2, rfl, multibyte_cons.2 ⟨b, x, e1, m1, rfl⟩, m2⟩

theorem names_iff (A : Ansi) (hK : Faithful (codec A)) (hs : Separators (codec A)) {file name : List Char} {fb nb : List Nat}
    (hf : Bytes A file fb) (hn : Bytes A name nb) : matchesName fb nb = true ↔ Names name file := by
  obtain ⟨f0, _, fu, hfu, hfm⟩ := hf
  obtain ⟨n0, _, nu, hnu, hnm⟩ := hn
  rw [matchesName_iff]
  constructor
  · rintro (rfl | ⟨path, d, e, hd⟩)
    · obtain rfl := multibyte_inj hK hfm hnm
      exact .inl (textIn_inj hfu hnu f0 n0)
    · rw [e] at hfm
      have henc : (codec A).encode d = some [d] := by
        rcases hd with rfl | rfl
        · exact hs.slash
        · exact hs.backslash
      have hoth : ∀ c bs, (codec A).encode c = some bs → d ∈ bs → c = d := by
        intro c bs hc hm
        rcases hd with rfl | rfl
        · exact (hs.others c bs hc).1 hm
        · exact (hs.others c bs hc).2 hm
      obtain ⟨us1, us2, rfl, _, m2⟩ := multibyte_split henc hoth fu path nb hfm
      obtain rfl := multibyte_inj hK m2 hnm
      obtain ⟨cs1, c, cs2, rfl, hc, _, t2⟩ := split_ascii A d (by omega) file us1 us2 hfu
      obtain rfl := textIn_inj t2 hnu (fun c hc => f0 c (by simp [hc])) n0
      refine .inr ⟨cs1, c, rfl, ?_⟩
      rcases hd with rfl | rfl
      · exact .inl (char_eq hc)
      · exact .inr (char_eq hc)
  · rintro (rfl | ⟨path, d, rfl, hd⟩)
    · obtain rfl := textIn_eq hfu hnu
      rw [hfm] at hnm
      cases hnm
      exact .inl rfl
    · obtain ⟨pu, hpu⟩ := textIn_exists A path
      have hd128 : d.toNat < 128 := by rcases hd with rfl | rfl <;> decide
      have ht := textIn_append A hpu (textIn_cons A d hd128 hnu)
      obtain rfl := textIn_eq hfu ht
      have henc : (codec A).encode d.toNat = some [d.toNat] := by
        rcases hd with rfl | rfl
        · exact hs.slash
        · exact hs.backslash
      have : ∃ pb, multibyte (codec A) pu = some pb := by
        clear hpu hfu ht f0
        generalize fb = xb at hfm
        induction pu generalizing xb with
        | nil => exact ⟨[], rfl⟩
        | cons p pu ih =>
          obtain ⟨b, bs', e1, e2, _⟩ := multibyte_cons.1 hfm
          obtain ⟨pb, e3⟩ := ih _ e2
          exact ⟨b ++ pb, multibyte_cons.2 ⟨b, pb, e1, e3, rfl⟩⟩
      obtain ⟨pb, hpb⟩ := this
      have := multibyte_append hpb (multibyte_cons.2 ⟨_, nb, henc, hnm, rfl⟩)
      rw [hfm] at this
      cases this
      refine .inr ⟨pb, d.toNat, rfl, ?_⟩
      rcases hd with rfl | rfl
      · exact .inl rfl
      · exact .inr rfl

theorem skipped_iff (A : Ansi) (hK : Faithful (codec A)) (hs : Separators (codec A)) {file : List Char} {fb : List Nat} (hf : Bytes A file fb)
    {names : List (List Char)} {nbs : List (List Nat)} (hn : Each (Bytes A) names nbs) :
    skipped nbs fb = true ↔ ¬Selected names file := by
  have key : nbs.any (matchesName fb) = true ↔ ∃ name ∈ names, Names name file := by
    induction hn with
    | nil => simp
    | cons h _ ih => simp only [List.any_cons, Bool.or_eq_true, names_iff A hK hs hf h, ih]; simp
  have hl : nbs.length > 0 ↔ names ≠ [] := by cases hn <;> simp
  unfold skipped Selected
  simp only [Bool.and_eq_true, decide_eq_true_eq, hl, Bool.not_eq_true', not_or, ← key]
  simp

/-! ## Arguments -/

theorem loop_eq {R : List Nat → List Nat → Prop} {read : List Nat → Option (List Nat)} (hr : ∀ a o, R a o → read a = some o)
    {args options : List (List Nat)} (h : Each R args options) : ∀ pre rest : List (List Nat),
    loop read (pre ++ (args ++ rest)) args.length pre.length = some options := by
  induction h with
  | nil => intro pre rest; rfl
  | @cons a o as os ha _ ih =>
    intro pre rest
    have := ih (pre ++ [a]) rest
    rw [List.append_assoc, List.length_append] at this
    have e : (pre ++ (a :: as ++ rest))[pre.length]? = some a := by simp
    simp only [List.length_cons, loop, e, Option.bind_eq_bind, Option.bind_some, hr a o ha]
    rw [show pre.length + 1 = pre.length + [a].length from rfl, show pre ++ (a :: as ++ rest) = pre ++ ([a] ++ (as ++ rest)) from rfl, this]
    rfl

/-- what is done for a command line with the texts `os` -/
inductive Chosen (A : Ansi) (debugger : Bool) (os : List (List Char)) : Choice → Prop
  | unknown : (∃ o ∈ os, ∀ w, ¬Written w o) → Chosen A debugger os .usages
  | both {ws : List Option'} : AllWritten ws os → .debug ∈ ws → .release ∈ ws → Chosen A debugger os .usages
  | run {ws : List Option'} {suppress : Bool} {names : List (List Nat)} : AllWritten ws os → ¬(.debug ∈ ws ∧ .release ∈ ws) →
      (.debug ∈ ws → suppress = false) → (.release ∈ ws → suppress = true) →
      (.debug ∉ ws → .release ∉ ws → suppress = !debugger) →
      (∀ file fb, Bytes A file fb → (skipped names fb = true ↔ ¬Selected (fileNames ws) file)) → Chosen A debugger os (.run suppress names)

theorem allWritten_of : ∀ os : List (List Char), (∀ o ∈ os, ∃ w, Written w o) → ∃ ws, AllWritten ws os
  | [], _ => ⟨[], .nil⟩
  | o :: os, h => by
    obtain ⟨w, hw⟩ := h o (by simp)
    obtain ⟨ws, hws⟩ := allWritten_of os fun o ho => h o (by simp [ho])
    exact ⟨w :: ws, .cons hw hws⟩

theorem fileNames_mem {ws : List Option'} {os : List (List Char)} (h : AllWritten ws os) {P : List Char → Prop}
    (hP : ∀ n, n ≠ [] → '/' :: 'F' :: ':' :: n ∈ os → P n) : ∀ n ∈ fileNames ws, P n := by
  induction h with
  | nil => simp [fileNames]
  | cons hw _ ih =>
    have ih := ih fun n hn hm => hP n hn (by simp [hm])
    cases hw with
    | debug => exact ih
    | release => exact ih
    | file name hn =>
      intro n hm
      simp only [fileNames, List.mem_cons] at hm
      rcases hm with rfl | hm
      · exact hP n hn (by simp)
      · exact ih n hm

theorem each_of {α β : Type} {R : α → β → Prop} : ∀ as : List α, (∀ a ∈ as, ∃ b, R a b) → ∃ bs, Each R as bs
  | [], _ => ⟨[], .nil⟩
  | a :: as, h => by
    obtain ⟨b, hb⟩ := h a (by simp)
    obtain ⟨bs, hbs⟩ := each_of as fun a ha => h a (by simp [ha])
    exact ⟨b :: bs, .cons hb hbs⟩

theorem choose_spec (A : Ansi) (hK : Faithful (codec A)) (hs : Separators (codec A)) (debugger : Bool) {os : List (List Char)}
    (h0 : ∀ o ∈ os, ∀ c ∈ o, c.toNat ≠ 0) (hn : ∀ n, n ≠ [] → '/' :: 'F' :: ':' :: n ∈ os → ∃ b, Bytes A n b)
    {uss : List (List Nat)} (h : Each (TextIn (wide A) .w) os uss) : ∃ r, choose A debugger uss = some r ∧ Chosen A debugger os r := by
  by_cases hu : ∃ o ∈ os, ∀ w, ¬Written w o
  · obtain ⟨o', e, ho⟩ := parseAll_unrecognized A h h0 {} (.inr hu)
    exact ⟨.usages, by simp [choose, e, ho], .unknown hu⟩
  · have hw : ∀ o ∈ os, ∃ w, Written w o := by
      intro o ho
      apply Classical.byContradiction
      intro hc
      exact hu ⟨o, ho, fun w hw => hc ⟨w, hw⟩⟩
    obtain ⟨ws, hws⟩ := allWritten_of os hw
    obtain ⟨bss, hb⟩ := each_of (fileNames ws) (fileNames_mem hws hn)
    obtain ⟨o', e, h1, h2, h3, h4⟩ := parseAll_written A hws h hb {}
    have h1 : o'.unrecognized = false := h1
    have h2 : o'.debug = true ↔ .debug ∈ ws := by simpa using h2
    have h3 : o'.release = true ↔ .release ∈ ws := by simpa using h3
    have h4 : o'.names = bss := by simpa using h4
    have hsel : ∀ file fb, Bytes A file fb → (skipped bss fb = true ↔ ¬Selected (fileNames ws) file) :=
      fun file fb hf => skipped_iff A hK hs hf hb
    cases hd : o'.debug <;> cases hr : o'.release
    · have nd : Option'.debug ∉ ws := by rw [← h2]; simp [hd]
      have nr : Option'.release ∉ ws := by rw [← h3]; simp [hr]
      exact ⟨.run (!debugger) bss, by simp [choose, e, h1, hd, hr, h4],
        .run hws (fun h => nd h.1) (fun h => absurd h nd) (fun h => absurd h nr) (fun _ _ => rfl) hsel⟩
    · have nd : Option'.debug ∉ ws := by rw [← h2]; simp [hd]
      exact ⟨.run true bss, by simp [choose, e, h1, hd, hr, h4],
        .run hws (fun h => nd h.1) (fun h => absurd h nd) (fun _ => rfl) (fun _ nr => absurd (h3.1 hr) nr) hsel⟩
    · have nr : Option'.release ∉ ws := by rw [← h3]; simp [hr]
      exact ⟨.run false bss, by simp [choose, e, h1, hd, hr, h4],
        .run hws (fun h => nr h.2) (fun _ => rfl) (fun h => absurd h nr) (fun nd _ => absurd (h2.1 hd) nd) hsel⟩
    · exact ⟨.usages, by simp [choose, e, h1, hd, hr], .both hws (h2.1 hd) (h3.1 hr)⟩

/-- an argument of `wchar_t` -/
def ArgW (A : Ansi) (o : List Char) (arg : List Nat) : Prop := ∃ us junk, TextIn (wide A) .w o us ∧ arg = us ++ 0 :: junk

/-- an argument of `char`; on Linux bytes that are not a text are like no text -/
def ArgA (A : Ansi) (o : List Char) (arg : List Nat) : Prop :=
  ∃ bs junk, arg = bs ++ 0 :: junk ∧
    (AnsiText A o bs ∨ ∃ K, A = .linux K ∧ o = [] ∧ (∀ b ∈ bs, b ≠ 0) ∧ ¬∃ us, MultibyteText K bs us)

theorem split_each {R : List Char → List Nat → Prop} {S : List Nat → List Nat → Prop} {T : List Char → List Nat → Prop}
    {os : List (List Char)} {args : List (List Nat)} (h : Each R os args)
    (hr : ∀ o ∈ os, ∀ a, R o a → ∃ u, S a u ∧ T o u) : ∃ uss, Each S args uss ∧ Each T os uss := by
  induction h with
  | nil => exact ⟨[], .nil, .nil⟩
  | @cons o a os as hra _ ih =>
    obtain ⟨u, hs, ht⟩ := hr o (by simp) a hra
    obtain ⟨us, hs', ht'⟩ := ih fun o ho => hr o (by simp [ho])
    exact ⟨u :: us, .cons hs hs', .cons ht ht'⟩

theorem each_length {α β : Type} {R : α → β → Prop} {as : List α} {bs : List β} (h : Each R as bs) : as.length = bs.length := by
  induction h with
  | nil => rfl
  | cons _ _ ih => simp [ih]

/-- **C113.** A command line of `wchar_t`: both options, unknown options and the names of files have exactly the effect that they should have. The number
of arguments says how many there are; behind them and in the program's own name may be anything. Missing: locales in which a byte of
a delimiter occurs in another character (`C113_violated_delimiter`), and names that cannot be represented (`C113_violated_lost`). -/
theorem _root_.Vlpp.C113_wide_partial (A : Ansi) (hK : Faithful (codec A)) (hs : Separators (codec A)) (debugger : Bool) (os : List (List Char))
    (h0 : ∀ o ∈ os, ∀ c ∈ o, c.toNat ≠ 0) (hn : ∀ n, n ≠ [] → '/' :: 'F' :: ':' :: n ∈ os → ∃ b, Bytes A n b)
    (program : List Nat) (args rest : List (List Nat)) (h : Each (ArgW A) os args) :
    ∃ r, runW A debugger (args.length + 1) (program :: args ++ rest) = some r ∧ Chosen A debugger os r := by
  obtain ⟨uss, e1, e2⟩ := split_each (S := fun a u => Utf.untilZero a = some u) (T := TextIn (wide A) .w) h (by
    rintro o ho a ⟨us, junk, ht, rfl⟩
    exact ⟨us, untilZero_eq junk us (textIn_nz ht (h0 o ho)), ht⟩)
  obtain ⟨r, er, hr⟩ := choose_spec A hK hs debugger h0 hn e2
  refine ⟨r, ?_, hr⟩
  unfold runW
  by_cases hl : args.length = 0
  · have := each_length e1
    rw [List.eq_nil_of_length_eq_zero (this ▸ hl : uss.length = 0)] at er
    rw [if_pos (by omega)]
    exact er
  · rw [if_neg (by omega), show ((args.length : Int) + 1 - 1).toNat = args.length by omega]
    have := loop_eq (fun _ _ h => h) e1 [program] rest
    simp only [List.length_cons, List.length_nil, List.cons_append, List.nil_append, Nat.zero_add] at this
    simp only [List.cons_append, this, Option.bind_eq_bind, Option.bind_some]
    exact er

/-- **C113.** The same for a command line of `char`; also if there are arguments that are not text in the locale of Linux. -/
theorem _root_.Vlpp.C113_char_partial (A : Ansi) (hK : Faithful (codec A)) (hs : Separators (codec A)) (debugger : Bool) (os : List (List Char))
    (h0 : ∀ o ∈ os, ∀ c ∈ o, c.toNat ≠ 0) (hn : ∀ n, n ≠ [] → '/' :: 'F' :: ':' :: n ∈ os → ∃ b, Bytes A n b)
    (program : List Nat) (args rest : List (List Nat)) (h : Each (ArgA A) os args) :
    ∃ r, runA A debugger (args.length + 1) (program :: args ++ rest) = some r ∧ Chosen A debugger os r := by
  obtain ⟨uss, e1, e2⟩ := split_each (S := fun a u => (do let s ← Utf.untilZero a; A.atow (s ++ [0])) = some u) (T := TextIn (wide A) .w) h (by
    rintro o ho a ⟨bs, junk, rfl, ⟨hz, us, ht, hm, hl⟩ | ⟨K, rfl, rfl, hz, hm⟩⟩
    · exact ⟨us, by simp [untilZero_eq junk bs hz, atow_text A hz hm hl []], ht⟩
    · have : (Ansi.linux K).atow (bs ++ [0]) = some [] := C83_atow_invalid K bs hm hz []
      exact ⟨[], by simp [untilZero_eq junk bs hz, this], rfl⟩)
  obtain ⟨r, er, hr⟩ := choose_spec A hK hs debugger h0 hn e2
  refine ⟨r, ?_, hr⟩
  unfold runA
  by_cases hl : args.length = 0
  · have := each_length e1
    rw [List.eq_nil_of_length_eq_zero (this ▸ hl : uss.length = 0)] at er
    rw [if_pos (by omega)]
    exact er
  · rw [if_neg (by omega), show ((args.length : Int) + 1 - 1).toNat = args.length by omega]
    have := loop_eq (fun _ _ h => h) e1 [program] rest
    simp only [List.length_cons, List.length_nil, List.cons_append, List.nil_append, Nat.zero_add] at this
    simp only [List.cons_append]
    rw [this]
    exact er

/-- **C113** is violated: if the last byte of a character in the locale is that of `\`, as of some in code pages of Japanese and Chinese, then
`/F:` with the name of a file also executes the file whose name is that name behind the character. -/
theorem _root_.Vlpp.C113_violated_delimiter (A : Ansi) (c : Char) (hc : c ≠ '\\' ∧ c ≠ '/') (cb : List Nat) (hcb : Bytes A [c] (cb ++ [92]))
    (name : List Char) (nb : List Nat) (hn : Bytes A name nb) :
    (∃ us, TextIn (wide A) .w (c :: name) us ∧ multibyte (codec A) us = some (cb ++ 92 :: nb)) ∧
    skipped [nb] (cb ++ 92 :: nb) = false ∧ ¬Selected [name] (c :: name) := by
  obtain ⟨_, _, cu, hcu, hcm⟩ := hcb
  obtain ⟨_, _, nu, hnu, hnm⟩ := hn
  refine ⟨⟨cu ++ nu, textIn_append A hcu hnu, ?_⟩, ?_, ?_⟩
  · rw [multibyte_append hcm hnm]
    simp
  · have := (matchesName_iff (cb ++ 92 :: nb) nb).2 (.inr ⟨cb, 92, rfl, .inr rfl⟩)
    simp [skipped, this]
  · rintro (h | ⟨n, hm, hn⟩)
    · simp at h
    · rw [List.mem_singleton] at hm
      subst hm
      rcases hn with h | ⟨path, d, h, hd⟩
      · have := congrArg List.length h
        simp at this
      · have hl := congrArg List.length h
        simp only [List.length_cons, List.length_append] at hl
        have : path = [] := List.eq_nil_of_length_eq_zero (by omega)
        subst this
        simp at h
        rcases hd with rfl | rfl
        · exact hc.2 h
        · exact hc.1 h

/-- **C113** is violated on Linux: a name of a file that cannot be represented in the locale is not an error.  It is the empty name, no file is
executed, and that is a success. -/
theorem _root_.Vlpp.C113_violated_lost (K : Codec) (debugger : Bool) (name : List Char) (h0 : ∀ c ∈ name, c.toNat ≠ 0)
    (hm : multibyte K (name.map Char.toNat) = none) (program junk : List Nat) :
    runW (.linux K) debugger 2 [program, ('/' :: 'F' :: ':' :: name).map Char.toNat ++ 0 :: junk] = some (.run (!debugger) [[]]) ∧
    ∀ path d, d ≠ 47 → d ≠ 92 → skipped [[]] (path ++ [d]) = true := by
  constructor
  · have hne : name ≠ [] := by rintro rfl; cases hm
    have hz : ∀ u ∈ ('/' :: 'F' :: ':' :: name).map Char.toNat, u ≠ 0 := by
      intro u hu
      simp only [List.map_cons, List.mem_cons] at hu
      rcases hu with rfl | rfl | rfl | hu
      · decide
      · decide
      · decide
      · obtain ⟨c, hc, rfl⟩ := List.mem_map.1 hu
        exact h0 c hc
    have hz' : ∀ u ∈ name.map Char.toNat, u ≠ 0 := by
      intro u hu
      obtain ⟨c, hc, rfl⟩ := List.mem_map.1 hu
      exact h0 c hc
    have hw : (Ansi.linux K).wtoa (name.map Char.toNat ++ [0]) = some [] := by
      show Utf.wtoa K _ = _
      rw [C83_wtoa K _ hz' [], hm]
      rfl
    have hp := parse_file (A := .linux K) hne (us := ('/' :: 'F' :: ':' :: name).map Char.toNat) (ns := name.map Char.toNat) rfl rfl {}
    rw [hw] at hp
    have hc : choose (.linux K) debugger [('/' :: 'F' :: ':' :: name).map Char.toNat] = some (.run (!debugger) [[]]) := by
      simp only [choose, parseAll, hp, Option.map_some, Option.bind_eq_bind, Option.bind_some]
      rfl
    have hl : loop Utf.untilZero [program, ('/' :: 'F' :: ':' :: name).map Char.toNat ++ 0 :: junk] 1 1 =
        some [('/' :: 'F' :: ':' :: name).map Char.toNat] := by
      have := untilZero_eq junk _ hz
      simp only [loop, List.getElem?_cons_succ, List.getElem?_cons_zero, Option.bind_eq_bind, Option.bind_some, this]
      rfl
    unfold runW
    rw [if_neg (by decide)]
    show (loop Utf.untilZero _ 1 1).bind _ = _
    rw [hl]
    exact hc
  · intro path d h1 h2
    have : matchesName (path ++ [d]) [] = false := by
      apply Bool.eq_false_iff.2
      rw [Ne, matchesName_iff]
      rintro (h | ⟨p, e, h, he⟩)
      · simp at h
      · obtain ⟨_, h⟩ := List.append_inj' h rfl
        simp at h
        omega
    simp [skipped, this]

/-! Examples -/

theorem page_separators : Separators page.toCodec where
  slash := rfl
  backslash := rfl
  others := by
    intro c bs h
    simp only [page] at h
    split at h
    · cases h; simp
    · split at h <;> cases h
      constructor <;> intro h <;> exact (List.mem_singleton.1 h).symm

/-- `test /R /F:€.cpp` in the code page: the file `a/€.cpp` is executed, the file `a€.cpp` is not. -/
example : ∃ r, runA (.windows page) true 3 [[116], [47, 82, 0], [47, 70, 58, 0x81, 0x40, 46, 99, 112, 112, 0, 5], []] = some r ∧
    Chosen (.windows page) true [['/', 'R'], ['/', 'F', ':', '€', '.', 'c', 'p', 'p']] r := by
  have euro : ∀ {cs : List Char} {us : List Nat}, TextIn (wide (.windows page)) .w cs us →
      TextIn (wide (.windows page)) .w ('€' :: cs) (0x20AC :: us) := fun h =>
    Utf16Text.cons (.bmp (c := 0x20AC) (by decide) (by unfold Surrogate; decide)) h
  have cpp : TextIn (wide (.windows page)) .w ['.', 'c', 'p', 'p'] [46, 99, 112, 112] :=
    textIn_cons _ '.' (by decide) (textIn_cons _ 'c' (by decide) (textIn_cons _ 'p' (by decide) (textIn_cons _ 'p' (by decide) (textIn_empty _))))
  have arg : TextIn (wide (.windows page)) .w ['/', 'F', ':', '€', '.', 'c', 'p', 'p'] [47, 70, 58, 0x20AC, 46, 99, 112, 112] :=
    textIn_cons _ '/' (by decide) (textIn_cons _ 'F' (by decide) (textIn_cons _ ':' (by decide) (euro cpp)))
  refine C113_char_partial (.windows page) page_ok.faithful page_separators true _ (by decide) ?_ [116] [_, _] [[]]
    (.cons ⟨[47, 82], [], rfl, .inl ⟨by decide, [47, 82],
        textIn_cons _ '/' (by decide) (textIn_cons _ 'R' (by decide) (textIn_empty _)),
        multibyteText_of page_ok.faithful _ _ (by decide), by decide⟩⟩
      (.cons ⟨[47, 70, 58, 0x81, 0x40, 46, 99, 112, 112], [5], rfl, .inl ⟨by decide, _, arg,
        multibyteText_of page_ok.faithful _ _ (by decide), by decide⟩⟩ .nil))
  intro n hn hm
  simp at hm
  subst hm
  exact ⟨[0x81, 0x40, 46, 99, 112, 112], by decide, by decide, _, euro cpp, by decide⟩

example : runA (.windows page) true 3 [[116], [47, 82, 0], [47, 70, 58, 0x81, 0x40, 46, 99, 112, 112, 0, 5], []] =
    some (.run true [[0x81, 0x40, 46, 99, 112, 112]]) ∧
    skipped [[0x81, 0x40, 46, 99, 112, 112]] [97, 47, 0x81, 0x40, 46, 99, 112, 112] = false ∧
    skipped [[0x81, 0x40, 46, 99, 112, 112]] [97, 0x81, 0x40, 46, 99, 112, 112] = true := by decide +kernel

/-- a part of the code page 932: ASCII and U+8868, the bytes of which are 0x95 and 0x5C -/
def page932 : Page where
  encode u := if u = 0x8868 then some [0x95, 0x5C] else if u < 0x80 then some [u] else none
  decode
    | [] => none
    | b :: bs => if b < 0x80 then some (b, 1) else if b = 0x95 ∧ bs.head? = some 0x5C then some (0x8868, 2) else none
  decode_pos := by
    intro bs c k h
    match bs with
    | [] => cases h
    | b :: bs =>
      simp only at h
      split at h
      · cases h; decide
      · split at h <;> cases h; decide
  byteDefault := [63]
  wideDefault := 0x3F
  skip _ := 1

/-- `/F:A.cpp` executes the file `表A.cpp`. -/
example : skipped [[65, 46, 99]] ([0x95] ++ 92 :: [65, 46, 99]) = false ∧ ¬Selected [['A', '.', 'c']] ['表', 'A', '.', 'c'] :=
  (C113_violated_delimiter (.windows page932) '表' (by decide) [0x95]
    ⟨by decide, by decide, [0x8868], Utf16Text.cons (.bmp (c := 0x8868) (by decide) (by unfold Surrogate; decide)) .nil, by decide⟩
    ['A', '.', 'c'] [65, 46, 99] ⟨by decide, by decide, [65, 46, 99],
      textIn_cons _ 'A' (by decide) (textIn_cons _ '.' (by decide) (textIn_cons _ 'c' (by decide) (textIn_empty _))), by decide⟩).2

example : runW (.linux sample) false 2 [[116], [47, 70, 58, 0x20AC, 0]] = some (.run true [[]]) :=
  (C113_violated_lost sample false ['€'] (by decide) (by decide) [116] []).1

end CommandLine
end Vlpp
