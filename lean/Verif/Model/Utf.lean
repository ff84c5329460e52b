import Verif.Model.Outcome

/-!
# Model of the UTF conversions

Source/Strings/Conversion.h and Conversion.cpp, in the configuration `VCZH_WCHAR_UTF32` (Linux).  Code units and code
points are natural numbers; a `static_cast` to an `n`-bit unsigned type is `% 2 ^ n`.
-/
set_option autoImplicit false
namespace Vlpp
namespace Utf

/-- `UtfConversion<T>`, Conversion.h 61-102.  `from32 c` are the units that are written, `none` is the result -1; the
function result is the number of units.  `to32 cs` is `To32(cs, length of cs, dest)`: `dest` and the result; `none` is
the result -1. -/
structure Conv where
  bufferLength : Nat
  from32 : Nat → Option (List Nat)
  to32 : List Nat → Option (Nat × Nat)

/-- Conversion.cpp 17-20 `IsInvalid`. -/
def isInvalid (c : Nat) : Bool := 0xD800 ≤ c && c ≤ 0xDFFF

/-- `static_cast<vuint8_t>` -/
def u8 (x : Nat) : Nat := x % 256
/-- `static_cast<vuint16_t>` -/
def u16 (x : Nat) : Nat := x % 65536

/-- Conversion.cpp 26-45, `VCZH_WCHAR_UTF32`. -/
def wchar : Conv where
  bufferLength := 1
  from32 c := some [c]
  to32
    | [] => none
    | c :: _ => some (c, 1)

/-- Conversion.cpp 61-116 `UtfConversion<char8_t>::From32`. -/
def from32_8 (c : Nat) : Option (List Nat) :=
  if isInvalid c then none
  else if c ≤ 0x7F then some [u8 c]
  else if c ≤ 0x7FF then some [u8 (c >>> 6 ||| 0b11000000), u8 (c &&& 0b111111 ||| 0b10000000)]
  else if c ≤ 0xFFFF then
    some [u8 (c >>> 12 ||| 0b11100000), u8 (c >>> 6 &&& 0b111111 ||| 0b10000000), u8 (c &&& 0b111111 ||| 0b10000000)]
  else if c ≤ 0x1FFFFF then
    some [u8 (c >>> 18 ||| 0b11110000), u8 (c >>> 12 &&& 0b111111 ||| 0b10000000),
      u8 (c >>> 6 &&& 0b111111 ||| 0b10000000), u8 (c &&& 0b111111 ||| 0b10000000)]
  else if c ≤ 0x3FFFFFF then
    some [u8 (c >>> 24 ||| 0b11111000), u8 (c >>> 18 &&& 0b111111 ||| 0b10000000),
      u8 (c >>> 12 &&& 0b111111 ||| 0b10000000), u8 (c >>> 6 &&& 0b111111 ||| 0b10000000),
      u8 (c &&& 0b111111 ||| 0b10000000)]
  else if c ≤ 0x7FFFFFFF then
    some [u8 (c >>> 30 ||| 0b11111100), u8 (c >>> 24 &&& 0b111111 ||| 0b10000000),
      u8 (c >>> 18 &&& 0b111111 ||| 0b10000000), u8 (c >>> 12 &&& 0b111111 ||| 0b10000000),
      u8 (c >>> 6 &&& 0b111111 ||| 0b10000000), u8 (c &&& 0b111111 ||| 0b10000000)]
  else none

/-- Conversion.cpp 118-176 `UtfConversion<char8_t>::To32` (lines 174-175 cannot be reached).  A result that needs more
units than there are is -1. -/
def to32_8 : List Nat → Option (Nat × Nat)
  | [] => none
  | c0 :: cs =>
    if c0 < 0b10000000 then some (c0, 1)
    else if c0 < 0b11100000 then
      match cs with
      | c1 :: _ => some ((c0 &&& 0b11111) <<< 6 ||| (c1 &&& 0b111111), 2)
      | _ => none
    else if c0 < 0b11110000 then
      match cs with
      | c1 :: c2 :: _ => some ((c0 &&& 0b1111) <<< 12 ||| (c1 &&& 0b111111) <<< 6 ||| (c2 &&& 0b111111), 3)
      | _ => none
    else if c0 < 0b11111000 then
      match cs with
      | c1 :: c2 :: c3 :: _ =>
        some ((c0 &&& 0b111) <<< 18 ||| (c1 &&& 0b111111) <<< 12 ||| (c2 &&& 0b111111) <<< 6 ||| (c3 &&& 0b111111), 4)
      | _ => none
    else if c0 < 0b11111100 then
      match cs with
      | c1 :: c2 :: c3 :: c4 :: _ =>
        some ((c0 &&& 0b11) <<< 24 ||| (c1 &&& 0b111111) <<< 18 ||| (c2 &&& 0b111111) <<< 12 |||
          (c3 &&& 0b111111) <<< 6 ||| (c4 &&& 0b111111), 5)
      | _ => none
    else
      match cs with
      | c1 :: c2 :: c3 :: c4 :: c5 :: _ =>
        some ((c0 &&& 0b1) <<< 30 ||| (c1 &&& 0b111111) <<< 24 ||| (c2 &&& 0b111111) <<< 18 |||
          (c3 &&& 0b111111) <<< 12 ||| (c4 &&& 0b111111) <<< 6 ||| (c5 &&& 0b111111), 6)
      | _ => none

/-- `UtfConversion<char8_t>`, Conversion.h 77-84 -/
def utf8 : Conv := ⟨6, from32_8, to32_8⟩

/-- Conversion.cpp 189-216 `UtfConversion<char16_t>::From32`. -/
def from32_16 (c : Nat) : Option (List Nat) :=
  if isInvalid c then none
  else if c ≤ 0xD7FF then some [u16 c]
  else if 0xE000 ≤ c ∧ c ≤ 0xFFFF then some [u16 c]
  else if 0x10000 ≤ c ∧ c ≤ 0x10FFFF then
    let c := c - 0x10000
    some [u16 (c >>> 10 ||| 0xD800), u16 (c &&& 0x3FF ||| 0xDC00)]
  else none

/-- Conversion.cpp 218-247 `UtfConversion<char16_t>::To32`. -/
def to32_16 : List Nat → Option (Nat × Nat)
  | [] => none
  | c0 :: cs =>
    if c0 &&& 0xFC00 = 0xD800 then
      match cs with
      | [] => none
      | c1 :: _ =>
        if c1 &&& 0xFC00 = 0xDC00 then
          let d := 0x10000 + ((c0 &&& 0x3FF) <<< 10 ||| (c1 &&& 0x3FF))
          if isInvalid d then none else some (d, 2)
        else none
    else if isInvalid c0 then none
    else some (c0, 1)

/-- `UtfConversion<char16_t>`, Conversion.h 86-93 -/
def utf16 : Conv := ⟨2, from32_16, to32_16⟩

/-- Conversion.h 47-55 `SwapByteForUtf16BE`. -/
def swapByte (c : Nat) : Nat := (c % 256) * 256 + c / 256 % 256

/-- Conversion.cpp 253-272 `UtfConversion<char16be_t>`.  A unit is the member `value`.  `To32` passes on two units, the
second being indeterminate if it is given only one; `UtfConversion<char16_t>::To32` does not look at it then. -/
def utf16be : Conv where
  bufferLength := 2
  from32 c := (from32_16 c).map (·.map swapByte)
  to32 cs := to32_16 ((cs.take 2).map swapByte)

/-! ## Consumers and readers

`Read` and `Consume` are functions from a state to a value and the next state; `none` is undefined behaviour (access
outside of the text). -/

structure Source where
  σ : Type
  consume : σ → Option (Nat × σ)

/-- Conversion.h 382-401 `UtfStringConsumer`: the state is the memory from `consuming` on. -/
def stringConsumer : Source where
  σ := List Nat
  consume
    | [] => none
    | c :: mem => if c ≠ 0 then some (c, mem) else some (c, c :: mem)

/-- Conversion.h 418-445 `UtfStringRangeConsumer`: the state is the text from `consuming` to `ending`. -/
def rangeConsumer : Source where
  σ := List Nat
  consume
    | [] => some (0, [])
    | c :: text => some (c, text)

/-- Conversion.h 41-45 `UtfCharCluster` -/
structure Cluster where
  index : Int
  size : Int
  deriving DecidableEq

/-- Data members of `UtfTo32ReaderBase`, Conversion.h 205-210.  `buffer` are the first `available` units of the buffer,
`none` stands for `available == -1`. -/
structure To32State (σ : Type) where
  src : σ
  buffer : Option (List Nat) := some []
  sourceCluster : Cluster := ⟨0, 0⟩
  readCounter : Int := -1

/-- Conversion.h 224-243: fill the buffer, at most `n` more units.  (Returning 0 when there was nothing is left to the
caller.) -/
def fill (S : Source) : Nat → S.σ → List Nat → Option (List Nat × S.σ)
  | 0, s, b => some (b, s)
  | n + 1, s, b =>
    match S.consume s with
    | none => none
    | some (c, s) => if c ≠ 0 then fill S n s (b ++ [c]) else some (b, s)

/-- Conversion.h 221-261 `UtfTo32ReaderBase::Read`. -/
def read32 (C : Conv) (S : Source) (st : To32State S.σ) : Option (Nat × To32State S.σ) :=
  match st.buffer with
  | none => some (0, st)
  | some b =>
    match fill S (C.bufferLength - b.length) st.src b with
    | none => none
    | some (b, s) =>
      let next : Int := st.sourceCluster.index + st.sourceCluster.size
      if b.length = 0 then some (0, ⟨s, none, ⟨next, 0⟩, st.readCounter + 1⟩)
      else
        match C.to32 b with
        | none => some (0, { st with src := s, buffer := none })
        | some (dest, result) => some (dest, ⟨s, some (b.drop result), ⟨next, result⟩, st.readCounter + 1⟩)

/-- `UtfReaderConsumer<UtfTo32ReaderBase<..>>`, Conversion.h 117-134, 202-219 -/
def to32Reader (C : Conv) (S : Source) : Source := ⟨To32State S.σ, read32 C S⟩

/-- Data members of `UtfFrom32ReaderBase`, Conversion.h 143-149.  `pending` are the units from `read` to `available`,
`none` stands for `available == -1`. -/
structure From32State (σ : Type) where
  src : σ
  pending : Option (List Nat) := some []
  sourceCluster : Cluster := ⟨0, 0⟩
  readCounter : Int := -1

/-- Conversion.h 160-185 `UtfFrom32ReaderBase::Read`. -/
def readFrom (C : Conv) (S : Source) (st : From32State S.σ) : Option (Nat × From32State S.σ) :=
  match st.pending with
  | none => some (0, st)
  | some (u :: us) => some (u, { st with pending := some us, readCounter := st.readCounter + 1 })
  | some [] =>
    match S.consume st.src with
    | none => none
    | some (c, s) =>
      let next : Int := st.sourceCluster.index + st.sourceCluster.size
      if c ≠ 0 then
        match C.from32 c with
        | none => some (0, { st with src := s, pending := none })
        | some [] => none
        | some (u :: us) => some (u, ⟨s, some us, ⟨next, 1⟩, st.readCounter + 1⟩)
      else some (0, ⟨s, none, ⟨next, 0⟩, st.readCounter + 1⟩)

def from32Reader (C : Conv) (S : Source) : Source := ⟨From32State S.σ, readFrom C S⟩

/-- `UtfToUtfReaderSelector<TFrom, TTo>::Reader`, Conversion.h 322-341 -/
def utfToUtfReader (A B : Conv) (S : Source) : Source := from32Reader B (to32Reader A S)

/-- Data members of `Utf32DirectReaderBase`, Conversion.h 281-282 -/
structure DirectState (σ : Type) where
  src : σ
  readCounter : Int := -1
  ended : Bool := false

/-- Conversion.h 293-303 `Utf32DirectReaderBase::Read`. -/
def readDirect (S : Source) (st : DirectState S.σ) : Option (Nat × DirectState S.σ) :=
  match S.consume st.src with
  | none => none
  | some (dest, s) =>
    some (dest, ⟨s, if dest ≠ 0 ∨ st.ended = false then st.readCounter + 1 else st.readCounter, decide (dest = 0)⟩)

def directReader (S : Source) : Source := ⟨DirectState S.σ, readDirect S⟩

/-- Conversion.h 310-315 `Utf32DirectReaderBase::SourceCluster`. -/
def DirectState.cluster {σ : Type} (st : DirectState σ) : Cluster :=
  if st.readCounter = -1 then ⟨0, 0⟩ else if st.ended then ⟨st.readCounter, 0⟩ else ⟨st.readCounter, 1⟩

/-! ## Conversion of buffers and strings -/

/-- Conversion.cpp 286: `while (reader.Read()) size++`; `none`: does not return, or undefined behaviour. -/
def countLoop (R : Source) (s : R.σ) (size : Nat) : Option Nat :=
  match R.consume s with
  | none => none
  | some (c, s) => if c ≠ 0 then countLoop R s (size + 1) else some size
partial_fixpoint

/-- Conversion.cpp 291-299: `d` is the destination, `size` the number of units written; writing outside of it is
undefined. -/
def writeLoop (R : Source) : Nat → R.σ → Nat → List Nat → Option (Nat × List Nat)
  | 0, _, size, d => some (size, d)
  | chars + 1, s, size, d =>
    match R.consume s with
    | none => none
    | some (c, s) =>
      if size < d.length then
        if c ≠ 0 then writeLoop R chars s (size + 1) (d.set size c) else some (size + 1, d.set size c)
      else none

/-- Conversion.cpp 279-302 `_utftoutf_reader` with `d == nullptr` -/
def measure (R : Source) (s : R.σ) : Option Nat := (countLoop R s 0).map (· + 1)

/-- Conversion.cpp 279-302 `_utftoutf_reader` with a destination -/
def write (R : Source) (s : R.σ) (d : List Nat) (chars : Nat) : Option (Nat × List Nat) := writeLoop R chars s 0 d

/-- Conversion.cpp 328-337 `ConvertStringDirect`: `start` is the reader on `source.Buffer()`.  The resulting string
consists of the first `len - 1` units of its buffer, `TakeOver` of String.h 198-208 (`none` also stands for the Error
that `TakeOver` raises if the buffer is not zero-terminated). -/
def convertDirect (R : Source) (start : R.σ) : Option (List Nat) :=
  match measure R start with
  | none => none
  | some len =>
    if len < 1 then some []
    else
      match write R start (List.replicate len 0) len with
      | none => none
      | some (_, buffer) => if buffer[len - 1]? = some 0 then some (buffer.take (len - 1)) else none

/-- the reader of `_utftoutf<TFrom, char32_t>` at the beginning of a zero terminated text in memory -/
def decoder (A : Conv) (mem : List Nat) : (to32Reader A stringConsumer).σ := { src := mem }
def encoder (B : Conv) (mem : List Nat) : (from32Reader B stringConsumer).σ := { src := mem }
def transcoder (A B : Conv) (mem : List Nat) : (utfToUtfReader A B stringConsumer).σ := { src := { src := mem } }

/-- Conversion.cpp 345-348 `u8tou32`, `u16tou32`; a string is given by the memory behind `source.Buffer()` -/
def toU32 (A : Conv) (mem : List Nat) : Option (List Nat) := convertDirect (to32Reader A stringConsumer) (decoder A mem)
/-- Conversion.cpp 345-348 `u32tou8`, `u32tou16` -/
def fromU32 (B : Conv) (mem : List Nat) : Option (List Nat) := convertDirect (from32Reader B stringConsumer) (encoder B mem)
/-- Conversion.cpp 357-367 `wtou8`, `u8tow`, `wtou16`, `u16tow`, `u8tou16`, `u16tou8` -/
def uToU (A B : Conv) (mem : List Nat) : Option (List Nat) :=
  convertDirect (utfToUtfReader A B stringConsumer) (transcoder A B mem)

end Utf
end Vlpp
