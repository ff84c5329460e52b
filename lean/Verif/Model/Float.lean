import Verif.Model.Number

/-!
# Model of the conversions between floating point numbers and strings, and of narrow case conversion

Source/Strings/String.cpp, with the `_gcvt_s` of Linux (lines 70-81).  `double` is IEEE 754 binary64; `printf` and
`strtod` are those of the C standard in the C locale, with exact arithmetic and rounding to nearest, ties to even (as
glibc does it).  `none` is undefined behaviour.
-/
set_option autoImplicit false
namespace Vlpp
namespace Number

/-- `1 / unit` is the smallest positive `double` -/
def unit : Nat := 2 ^ 1074

/-- A `double`: `finite neg m b` is `± m * 2 ^ b / unit`. -/
inductive Double where
  | finite (neg : Bool) (m b : Nat)
  | inf (neg : Bool)
  | nan (neg : Bool)
  deriving DecidableEq

/-- the pairs of significand and exponent that binary64 has, each number once -/
def Double.Valid : Double → Prop
  | .finite _ m b => m < 2 ^ 53 ∧ b ≤ 2045 ∧ (2 ^ 52 ≤ m ∨ b = 0)
  | _ => True

/-- the integer nearest to `a / b`, ties to even -/
def roundEven (a b : Nat) : Nat :=
  let q := a / b
  let r := a % b
  if 2 * r < b then q else if b < 2 * r then q + 1 else if q % 2 = 0 then q else q + 1

/-- the `double` nearest to `± a / b` -/
def toDouble (neg : Bool) (a b : Nat) : Double :=
  let x := a * unit / b
  let e := if x < 2 ^ 53 then 0 else x.log2 - 52
  let m := roundEven (a * unit) (b * 2 ^ e)
  if m = 2 ^ 53 then (if e + 1 ≤ 2045 then .finite neg (2 ^ 52) (e + 1) else .inf neg)
  else if e ≤ 2045 then .finite neg m e else .inf neg

/-- six digits -/
def sixDigits (n : Nat) : List Nat :=
  [48 + n / 100000 % 10, 48 + n / 10000 % 10, 48 + n / 1000 % 10, 48 + n / 100 % 10, 48 + n / 10 % 10, 48 + n % 10]

def signText (neg : Bool) : List Nat := if neg then [45] else []

/-- `%f` of `printf` -/
def printfF : Double → List Nat
  | .finite neg m b =>
    let n := roundEven (m * 2 ^ b * 1000000) unit
    signText neg ++ decimalNat (n / 1000000) ++ [46] ++ sixDigits (n % 1000000)
  | .inf neg => signText neg ++ [105, 110, 102]
  | .nan neg => signText neg ++ [110, 97, 110]

/-- String.cpp 76-79: the characters before `zero`, the last one first; there must be one -/
def trimZeros : List Nat → Option (List Nat)
  | [] => none
  | c :: cs => if c = 48 then trimZeros cs else some (c :: cs)

/-- String.cpp 70-81, for a buffer that contains `text` -/
def gcvt_s (text : List Nat) : Option (List Nat) :=
  if 46 ∈ text then
    match trimZeros text.reverse with
    | none => none
    | some [] => none
    | some (c :: cs) => some (if c = 46 then cs else c :: cs).reverse
  else some text

/-- String.cpp 335-345 `ftoa` -/
def ftoa (number : Double) : Option (List Nat) :=
  match printInto 320 (printfF number) with
  | none => none
  | some text =>
    match gcvt_s text with
    | none => none
    | some buffer =>
      match buffer.getLast? with
      | none => none
      | some c => some (if c = 46 then buffer.dropLast else buffer)

/-! ## `strtod` -/

def isDigit (c : Nat) : Bool := decide (48 ≤ c) && decide (c ≤ 57)

/-- the digits at the beginning of the memory, and the rest; `none`: no end of the memory -/
def digits (cs : List Nat) : Option (List Nat × List Nat) :=
  match cs.dropWhile isDigit with
  | [] => none
  | r => some (cs.takeWhile isDigit, r)

def decimalValue (ds : List Nat) : Nat := ds.foldl (fun a c => a * 10 + (c - 48)) 0

def sign : List Nat → Bool × List Nat
  | [] => (false, [])
  | c :: r => if c = 45 then (true, r) else if c = 43 then (false, r) else (false, c :: r)

/-- digits, optionally with a period: digits before and after, and the rest -/
def mantissa (cs : List Nat) : Option (List Nat × List Nat × List Nat) :=
  match digits cs with
  | none => none
  | some (_, []) => none
  | some (ds, c :: r) =>
    if c = 46 then
      match digits r with
      | none => none
      | some (ds', r') => some (ds, ds', r')
    else some (ds, [], c :: r)

/-- an exponent, if there is one: its value and the rest -/
def exponent (cs : List Nat) : Option (Int × List Nat) :=
  match cs with
  | [] => none
  | c :: r =>
    if c = 101 ∨ c = 69 then
      match digits (sign r).2 with
      | none => none
      | some (ds, r') => if ds = [] then some (0, cs) else some (if (sign r).1 then -(decimalValue ds : Int) else decimalValue ds, r')
    else some (0, cs)

/-- `± m * 10 ^ e` -/
def ofDecimal (neg : Bool) (m : Nat) (e : Int) : Double :=
  if 0 ≤ e then toDouble neg (m * 10 ^ e.toNat) 1 else toDouble neg m (10 ^ (-e).toNat)

/-- `strtod`, `wcstod`: the value and `endptr - buffer`.  `special` is what is found of the other forms (`inf`, `nan`,
hexadecimal numbers) at the beginning of the memory, with the rest; it is arbitrary in the model. -/
def strtod (space : Nat → Bool) (special : List Nat → Option ((Bool → Double) × List Nat)) (mem : List Nat) : Option (Double × Nat) :=
  match mem.dropWhile space with
  | [] => none
  | r0 =>
    let (neg, r1) := sign r0
    match special r1 with
    | some (d, r2) => some (d neg, mem.length - r2.length)
    | none =>
      match mantissa r1 with
      | none => none
      | some (ds, ds', r2) =>
        if ds ++ ds' = [] then some (.finite false 0 0, 0)
        else
          match exponent r2 with
          | none => none
          | some (x, r3) => some (ofDecimal neg (decimalValue (ds ++ ds')) (x - ds'.length), mem.length - r3.length)

/-- String.cpp 193-199 `atof_test`, 201-207 `wtof_test`: result and `success` -/
def atof_test (space : Nat → Bool) (special : List Nat → Option ((Bool → Double) × List Nat)) (string : List Nat) :
    Option (Double × Bool) :=
  (strtod space special (string ++ [0])).map fun (result, endptr) => (result, decide (endptr = string.length))

/-- String.cpp 265-270 `atof`, 272-277 `wtof` -/
def atof (space : Nat → Bool) (special : List Nat → Option ((Bool → Double) × List Nat)) (string : List Nat) : Option Double :=
  (atof_test space special string).map fun (result, success) => if success then result else .finite false 0 0

/-! ## Case conversion of narrow strings -/

/-- `tolower`, `toupper` of the C library: defined for -1 (`EOF`) and 0..255 only -/
def ctype (f : Int → Int) (c : Int) : Option Int := if -1 ≤ c ∧ c ≤ 255 then some (f c) else none

/-- String.cpp 83-90 `_strlwr_s`, 92-99 `_strupr_s`: from a position of the buffer on; `char` is signed; the argument of
`tolower` is not converted to `unsigned char`. -/
def strcase_s (f : Int → Int) : List Int → Option (List Int)
  | [] => none
  | c :: cs =>
    if c ≠ 0 then
      match ctype f c with
      | none => none
      | some d => (strcase_s f cs).map (viaChar d :: ·)
    else some (c :: cs)

/-- String.cpp 352-357 `alower`, 366-371 `aupper`: `result` is a copy of the characters before the first zero with its own
buffer (String.h 183-192), which is then changed in place. -/
def acase (f : Int → Int) (string : List Int) : Option (List Int) :=
  let result := string.takeWhile (· ≠ 0)
  (strcase_s f (result ++ [0])).map (·.take result.length)

/-- `tolower` in the C locale -/
def asciiLower (c : Int) : Int := if 65 ≤ c ∧ c ≤ 90 then c + 32 else c

/-- `toupper` in the C locale -/
def asciiUpper (c : Int) : Int := if 97 ≤ c ∧ c ≤ 122 then c - 32 else c

end Number
end Vlpp
