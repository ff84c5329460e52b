import Verif.Model.UtfWide

/-!
# Model of the conversions of strings of `char` on Windows, and of those to all string classes

Source/Strings/Conversion.Windows.cpp, Conversion.cpp 328-337 and 354-355, Conversion.h 513-519.

Simplifications: a code page converts every unit of a wide string on its own, which is what code pages with one or two bytes do (UTF-8 as
the code page of the thread is not modelled); a character that a code page has not is replaced by one that the page chooses
(`lpDefaultChar` is null in the calls), without "best fit" characters; if a destination is too small it is left as it is, which does not matter
as no call has one.
-/
set_option autoImplicit false
namespace Vlpp
namespace Utf

/-- A code page: what it converts, and what it puts in the place of something that it has not.  `skip` is the number of bytes that are
replaced together. -/
structure Page extends Codec where
  byteDefault : List Nat
  wideDefault : Nat
  skip : List Nat → Nat

/-- the bytes of a wide string in a code page: `WideCharToMultiByte` with the flags 0 -/
def Page.bytes (P : Page) (us : List Nat) : List Nat := us.flatMap fun u => (P.encode u).getD P.byteDefault

/-- the units of a string of `char` in a code page: `MultiByteToWideChar` with the flags 0 -/
def Page.units (P : Page) (bs : List Nat) : List Nat :=
  match _h : bs with
  | [] => []
  | b :: bs' =>
    match _hd : P.decode (b :: bs') with
    | none => P.wideDefault :: P.units (bs'.drop (P.skip (b :: bs') - 1))
    | some (c, k) => c :: P.units ((b :: bs').drop k)
termination_by bs.length
decreasing_by
  · simp only [List.length_drop, List.length_cons]
    omega
  · have := P.decode_pos _ _ _ _hd
    simp only [List.length_drop, List.length_cons]
    omega

/-- Both functions of Windows with the length -1: they read up to the zero, convert it, too, and return the number of units in the result, which
is an `int`.  With the size 0 nothing is written.  A failure is the result 0.  `none` is an access to memory outside of `mem` or of the
destination `d`. -/
def winConvert (f : List Nat → List Nat) (mem : List Nat) (size : Nat) (d : List Nat) : Option (Nat × List Nat) :=
  (untilZero mem).bind fun text =>
    let r := f text ++ [0]
    if 2147483647 < r.length then some (0, d)
    else if size = 0 then some (r.length, d)
    else if r.length ≤ size then (putAt d 0 r).map fun d => (r.length, d)
    else some (0, d)

/-- Conversion.cpp 328-337 `ConvertStringDirect` with a function of Conversion.Windows.cpp 19-27: without a destination the size is 0.  `none`
is also a string that is not terminated by a zero. -/
def convertWin (f : List Nat → List Nat) (mem : List Nat) : Option (List Nat) := do
  let (len, _) ← winConvert f mem 0 []
  if len < 1 then return []
  let buffer := List.replicate len 0
  let (_, buffer) ← winConvert f mem len buffer
  if buffer[len - 1]? = some 0 then return buffer.take (len - 1) else none

/-- Conversion.cpp 354 `wtoa`, Conversion.Windows.cpp 19-22 -/
def wtoaWin (P : Page) (mem : List Nat) : Option (List Nat) := convertWin P.bytes mem
/-- Conversion.cpp 355 `atow`, Conversion.Windows.cpp 24-27 -/
def atowWin (P : Page) (mem : List Nat) : Option (List Nat) := convertWin P.units mem

/-- A platform: what a wide string is, and the two functions that depend on the locale. -/
inductive Ansi
  | linux (K : Codec)
  | windows (P : Page)

namespace Ansi

/-- Basic.h 34-46 -/
def cfg : Ansi → Wide
  | linux _ => .utf32
  | windows _ => .utf16

/-- Conversion.cpp 354 -/
def wtoa : Ansi → List Nat → Option (List Nat)
  | linux K => Utf.wtoa K
  | windows P => wtoaWin P

/-- Conversion.cpp 355 -/
def atow : Ansi → List Nat → Option (List Nat)
  | linux K => Utf.atow K
  | windows P => atowWin P

/-- Conversion.h 513-515 `atou8`, `atou16`, `atou32`, and `atow`.  The wide string is new: nothing is behind its zero. -/
def fromA (A : Ansi) (F : Form) (bs junk : List Nat) : Option (List Nat) := do
  let w ← A.atow (bs ++ 0 :: junk)
  convert A.cfg .w F w []

/-- Conversion.h 517-519 `u8toa`, `u16toa`, `u32toa`, and `wtoa`: if the units are the same, the wide string is the string itself with
what is behind it, otherwise it is new. -/
def toA (A : Ansi) (F : Form) (us junk : List Nat) : Option (List Nat) := do
  let w ← convert A.cfg F .w us junk
  A.wtoa (w ++ 0 :: if (A.cfg, F) = (Wide.utf32, Form.u32) ∨ (A.cfg, F) = (Wide.utf16, Form.u16) ∨ F = Form.w then junk else [])

end Ansi

end Utf
end Vlpp
