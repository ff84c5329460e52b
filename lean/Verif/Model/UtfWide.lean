import Verif.Model.Utf

/-!
# Model of the conversions between the string classes

Source/Strings/Conversion.cpp, in both configurations of `wchar_t`; and the conversions between wide strings and strings of
`char`, Conversion.Linux.cpp.
-/
set_option autoImplicit false
namespace Vlpp
namespace Utf

/-- Basic.h 34-46: what `wchar_t` is. -/
inductive Wide
  | utf16
  | utf32
  deriving DecidableEq

/-- `U8String`, `U16String`, `U32String`, `WString` -/
inductive Form
  | u8
  | u16
  | u32
  | w
  deriving DecidableEq

/-- Conversion.h 64-75, Conversion.cpp 26-45 `UtfConversion<wchar_t>`.  The `reinterpret_cast`s between `wchar_t` and
`char16_t` are the identity on units. -/
def wcharOf : Wide → Conv
  | .utf16 => ⟨2, fun c => from32_16 c, fun cs => to32_16 cs⟩
  | .utf32 => wchar

/-- String.h 267-279 `UnsafeCastFrom`: the units are the same.  (That the buffer is shared is in `Model/Str`.) -/
def castUnits (text : List Nat) : Option (List Nat) := some text

/-- Conversion.cpp 338-348, 357-367: the function that converts a string of the class `A` to the class `B`.  `text` are the
units of the string, `junk` is what follows the zero after them in `source.Buffer()`.  There is no function for `A = B`. -/
def convert (cfg : Wide) (A B : Form) (text junk : List Nat) : Option (List Nat) :=
  let mem := text ++ 0 :: junk
  match A, B with
  | .w, .u32 =>
    match cfg with
    | .utf16 => toU32 (wcharOf cfg) mem
    | .utf32 => castUnits text
  | .u32, .w =>
    match cfg with
    | .utf16 => fromU32 (wcharOf cfg) mem
    | .utf32 => castUnits text
  | .u8, .u32 => toU32 utf8 mem
  | .u32, .u8 => fromU32 utf8 mem
  | .u16, .u32 => toU32 utf16 mem
  | .u32, .u16 => fromU32 utf16 mem
  | .w, .u8 => uToU (wcharOf cfg) utf8 mem
  | .u8, .w => uToU utf8 (wcharOf cfg) mem
  | .w, .u16 =>
    match cfg with
    | .utf16 => castUnits text
    | .utf32 => uToU (wcharOf cfg) utf16 mem
  | .u16, .w =>
    match cfg with
    | .utf16 => castUnits text
    | .utf32 => uToU utf16 (wcharOf cfg) mem
  | .u8, .u16 => uToU utf8 utf16 mem
  | .u16, .u8 => uToU utf16 utf8 mem
  | .u8, .u8 | .u16, .u16 | .u32, .u32 | .w, .w => some text

/-! ## Strings of `char` -/

/-- The multibyte encoding of the C library: `wcrtomb` and `mbrtowc`.  Encodings with shift states are not modelled.
`none` is the error `EILSEQ`; a character that is cut off by the end of the text is an error, too. -/
structure Codec where
  encode : Nat → Option (List Nat)
  decode : List Nat → Option (Nat × Nat)
  decode_pos : ∀ bs c k, decode bs = some (c, k) → 0 < k

/-- C11 7.22.8.2, `wcstombs(nullptr, w, n)`: the number of bytes without the terminator.  The outer `none` is undefined behaviour
(no terminator), the inner one is the result `(size_t)-1`. -/
def wcsLength (K : Codec) : List Nat → Option (Option Nat)
  | [] => none
  | c :: mem =>
    if c = 0 then some (some 0)
    else
      match K.encode c with
      | none => some none
      | some bs => (wcsLength K mem).map (·.map (bs.length + ·))

/-- Writing `bs` to a destination at `pos`; `none` is an access outside of it. -/
def putAt (d : List Nat) (pos : Nat) (bs : List Nat) : Option (List Nat) :=
  if pos + bs.length ≤ d.length then some (d.take pos ++ bs ++ d.drop (pos + bs.length)) else none

/-- C11 7.22.8.2, `wcstombs(a, w, n)`: what it leaves in the destination `d`; `pos` bytes are already written.  At most `n` bytes
are written, among them the terminator if there is room for it. -/
def wcsWrite (K : Codec) (n : Nat) : List Nat → Nat → List Nat → Option (List Nat)
  | [], _, _ => none
  | c :: mem, pos, d =>
    if c = 0 then if pos < n then putAt d pos [0] else some d
    else
      match K.encode c with
      | none => some d
      | some bs => if pos + bs.length ≤ n then (putAt d pos bs).bind (wcsWrite K n mem (pos + bs.length)) else some d

/-- The bytes up to the terminator; `none` if there is no terminator. -/
def untilZero : List Nat → Option (List Nat)
  | [] => none
  | c :: mem => if c = 0 then some [] else (untilZero mem).map (c :: ·)

/-- The characters of a multibyte text and whether all of it could be decoded. -/
def decodeAll (K : Codec) (bs : List Nat) : List Nat × Bool :=
  match _h : bs with
  | [] => ([], true)
  | b :: bs' =>
    match _hd : K.decode (b :: bs') with
    | none => ([], false)
    | some (c, k) => let r := decodeAll K ((b :: bs').drop k); (c :: r.1, r.2)
termination_by bs.length
decreasing_by
  have := K.decode_pos _ _ _ _hd
  simp only [List.length_drop, List.length_cons]
  omega

/-- C11 7.22.8.1, `mbstowcs(nullptr, a, n)`: the number of characters. -/
def mbsLength (K : Codec) (mem : List Nat) : Option (Option Nat) :=
  (untilZero mem).map fun bs => let r := decodeAll K bs; if r.2 then some r.1.length else none

/-- C11 7.22.8.1, `mbstowcs(w, a, n)`: at most `n` characters are written, among them the terminator if there is room for it. -/
def mbsWrite (K : Codec) (n : Nat) (mem : List Nat) (d : List Nat) : Option (List Nat) :=
  (untilZero mem).bind fun bs =>
    let r := decodeAll K bs
    if r.1.length < n then putAt d 0 (r.1 ++ if r.2 then [0] else []) else putAt d 0 (r.1.take n)

/-- Conversion.cpp 328-337 `ConvertStringDirect` with `_wtoa` or `_atow` of Conversion.Linux.cpp 17-25: `len` is the result of
`wcstombs` or `mbstowcs` without a destination, to which 1 is added as a `size_t`; `wr n d` is the call with a
destination. -/
def convertAnsi (len : Option (Option Nat)) (wr : Nat → List Nat → Option (List Nat)) : Option (List Nat) :=
  match len with
  | none => none
  | some r =>
    -- `(size_t)-1 + 1` is 0
    let len := match r with
      | none => 0
      | some n => n + 1
    if len < 1 then some []
    else
      match wr (len - 1) (List.replicate len 0) with
      | none => none
      | some buffer => if buffer[len - 1]? = some 0 then some (buffer.take (len - 1)) else none

/-- Conversion.cpp 354 `wtoa` -/
def wtoa (K : Codec) (mem : List Nat) : Option (List Nat) := convertAnsi (wcsLength K mem) fun n d => wcsWrite K n mem 0 d
/-- Conversion.cpp 355 `atow` -/
def atow (K : Codec) (mem : List Nat) : Option (List Nat) := convertAnsi (mbsLength K mem) fun n d => mbsWrite K n mem d

end Utf
end Vlpp
