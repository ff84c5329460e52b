/-!
# Model of the conversions between integers and strings, and of case conversion

Source/Strings/String.cpp, for 64-bit Linux (`VCZH_GCC`, `VCZH_64`: `vint` and `long` have 64 bits, Basic.h 115-153).
Strings are lists of character codes.  The functions of the C library are modelled by their documented behaviour.
`none` is undefined behaviour: writing or reading outside a buffer.
-/
set_option autoImplicit false
namespace Vlpp
namespace Number

/-- `%lu` of `printf` -/
def decimalNat (n : Nat) : List Nat :=
  if n < 10 then [48 + n] else decimalNat (n / 10) ++ [48 + n % 10]

/-- `%ld` of `printf` -/
def decimalInt (z : Int) : List Nat :=
  if z < 0 then 45 :: decimalNat z.natAbs else decimalNat z.toNat

/-- `sprintf(buffer, ...)` into a buffer of `size` characters, and `return buffer`, which makes a string of them:
String.cpp 40-43, 60-63, 279-284, 293-298, 307-312, 321-326.  `swprintf(buffer, size - 1, ...)` of the wide versions
(45-48, 65-68, 286-291, 300-305, 314-319, 328-333) writes at most `size - 1` characters with the terminator. -/
def printInto (size : Nat) (text : List Nat) : Option (List Nat) :=
  if text.length + 1 ≤ size then some text else none

/-- The narrow and the wide functions differ in the size that is available and in what is taken for a space
(`isspace`, or `iswspace`, which depends on the locale). -/
structure Chars where
  size : Nat
  space : Nat → Bool

/-- `isspace` in the C locale, `char buffer[100]` -/
def narrow : Chars := ⟨100, fun c => c == 32 || (9 ≤ c && c ≤ 13)⟩

/-- `wchar_t buffer[100]`, `swprintf(buffer, size - 1, ...)` -/
def wide (iswspace : Nat → Bool) : Chars := ⟨99, iswspace⟩

/-- String.cpp 293-298 `i64toa`, 300-305 `i64tow`; also 279-284 `itoa`, 286-291 `itow`, since `ITOA_S` is `_i64toa_s`
(Basic.h 138-145). -/
def i64toa (C : Chars) (number : Int) : Option (List Nat) := printInto C.size (decimalInt number)

/-- String.cpp 321-326 `u64toa`, 328-333 `u64tow`; also 307-312 `utoa`, 314-319 `utow`. -/
def u64toa (C : Chars) (number : Nat) : Option (List Nat) := printInto C.size (decimalNat number)

/-- skip spaces: the rest of the memory and the number of characters; `none`: no end of the memory -/
def skipSpaces (space : Nat → Bool) : List Nat → Nat → Option (List Nat × Nat)
  | [], _ => none
  | c :: cs, k => if space c then skipSpaces space cs (k + 1) else some (c :: cs, k)

/-- read digits: their value, and the number of characters -/
def readDigits : List Nat → Nat → Nat → Option (Nat × Nat)
  | [], _, _ => none
  | c :: cs, acc, k => if 48 ≤ c ∧ c ≤ 57 then readDigits cs (acc * 10 + (c - 48)) (k + 1) else some (acc, k)

/-- Common part of `strtol`, `strtoul` with base 10: spaces, optional sign, digits; sign, magnitude and the number of
characters read, which is zero if there are no digits. -/
def scan (space : Nat → Bool) (mem : List Nat) : Option (Bool × Nat × Nat) :=
  match skipSpaces space mem 0 with
  | none => none
  | some (cs, k) =>
    let (neg, cs, k) := match cs with
      | c :: cs' => if c = 45 then (true, cs', k + 1) else if c = 43 then (false, cs', k + 1) else (false, cs, k)
      | [] => (false, cs, k)
    match readDigits cs 0 k with
    | none => none
    | some (m, k') => if k' = k then some (neg, 0, 0) else some (neg, m, k')

/-- `strtol(_, &endptr, 10)` and `strtoll`, `wcstol`, `wcstoll`: the value and `endptr - buffer`; out of range the nearest
number. -/
def strtol (space : Nat → Bool) (mem : List Nat) : Option (Int × Nat) :=
  (scan space mem).map fun (neg, m, k) =>
    let v : Int := if neg then -(m : Int) else m
    (if v < -9223372036854775808 then -9223372036854775808 else if v > 9223372036854775807 then 9223372036854775807 else v, k)

/-- `strtoul(_, &endptr, 10)` and `strtoull`, `wcstoul`, `wcstoull`: with a minus sign the number is negated in the
unsigned type. -/
def strtoul (space : Nat → Bool) (mem : List Nat) : Option (Nat × Nat) :=
  (scan space mem).map fun (neg, m, k) =>
    (if m > 18446744073709551615 then 18446744073709551615
      else if neg then (18446744073709551616 - m) % 18446744073709551616 else m, k)

/-- String.cpp 143-149 `atoi64_test`, 151-157 `wtoi64_test`: result and `success`.  `Buffer()` is the string with a zero
behind (C39). -/
def atoi64_test (C : Chars) (string : List Nat) : Option (Int × Bool) :=
  match strtol C.space (string ++ [0]) with
  | none => none
  | some (result, endptr) =>
    match i64toa C result with
    | none => none
    | some t => some (result, decide (endptr = string.length) && decide (t = string))

/-- String.cpp 125-132 `atoi_test`, 134-141 `wtoi_test` -/
def atoi_test (C : Chars) (string : List Nat) : Option (Int × Bool) :=
  match strtol C.space (string ++ [0]) with
  | none => none
  | some (result, endptr) =>
    match i64toa C result with
    | none => none
    | some t =>
      let success := decide (endptr = string.length) && decide (t = string)
      some (result, if success then success && decide (-2147483648 ≤ result ∧ result ≤ 2147483647) else success)

/-- String.cpp 177-183 `atou64_test`, 185-191 `wtou64_test` -/
def atou64_test (C : Chars) (string : List Nat) : Option (Nat × Bool) :=
  match strtoul C.space (string ++ [0]) with
  | none => none
  | some (result, endptr) =>
    match u64toa C result with
    | none => none
    | some t => some (result, decide (endptr = string.length) && decide (t = string))

/-- String.cpp 159-166 `atou_test`, 168-175 `wtou_test` -/
def atou_test (C : Chars) (string : List Nat) : Option (Nat × Bool) :=
  match strtoul C.space (string ++ [0]) with
  | none => none
  | some (result, endptr) =>
    match u64toa C result with
    | none => none
    | some t =>
      let success := decide (endptr = string.length) && decide (t = string)
      some (result, if success then success && decide (result ≤ 4294967295) else success)

/-- String.cpp 209-263: `atoi`, `wtoi`, `atoi64`, `wtoi64`, `atou`, `wtou`, `atou64`, `wtou64` -/
def valueOf {β : Type} [OfNat β 0] (test : Option (β × Bool)) : Option β :=
  test.map fun (result, success) => if success then result else 0

/-! ## Case conversion -/

/-- `(char)x` converted back to `wchar_t`: the lowest eight bits with sign -/
def viaChar (x : Int) : Int := (x + 128) % 256 - 128

/-- String.cpp 101-108 `_wcslwr_s`, 110-117 `_wcsupr_s`: from a position of the buffer on; `f` is `towlower` or `towupper`.
`none`: no terminator. -/
def wcscase_s (f : Int → Int) : List Int → Option (List Int)
  | [] => none
  | c :: cs => if c ≠ 0 then (wcscase_s f cs).map (viaChar (f c) :: ·) else some (c :: cs)

/-- String.cpp 359-364 `wlower`, 373-378 `wupper`: `result` is a copy of the characters before the first zero with its own
buffer (String.h 183-192), which is then changed in place. -/
def wcase (f : Int → Int) (string : List Int) : Option (List Int) :=
  let result := string.takeWhile (· ≠ 0)
  (wcscase_s f (result ++ [0])).map (·.take result.length)

end Number
end Vlpp
