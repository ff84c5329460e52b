import Verif.Model.Outcome

/-!
# Model of `Console`

Source/Console.cpp, Source/Console.Linux.cpp and Source/Console.Windows.cpp.  Characters are numbers.  A pointer to characters is the list of all
characters that can be read behind it; `none`: characters are read that are not there.  A `WString` is its characters, behind which
`Buffer()` has a zero (`Model/Str`, String.h 287-302).

Simplifications: all characters can be represented in the locale of the program, every output succeeds, and `std::wcout` and `wprintf`
write to the same stream in the order of the calls (which the C++ standard says of synchronized streams); the conversion to a code page is a
function; lengths are those of an `int`.
-/
set_option autoImplicit false
namespace Vlpp
namespace Console

/-- `wcslen` -/
def wcslen : List Nat → Option Nat
  | [] => none
  | c :: cs => if c = 0 then some 0 else (wcslen cs).map (· + 1)

/-- the first `length` characters -/
def take (mem : List Nat) (length : Int) : Option (List Nat) :=
  if 0 ≤ length ∧ length ≤ mem.length then some (mem.take length.toNat) else none

/-- what one of the platforms does: `Write(const wchar_t*, vint)` and `SetColor` -/
structure Platform where
  writeLen : List Nat → Int → Option (List Nat)
  setColor : Bool → Bool → Bool → Bool → List Nat

namespace Platform
variable (P : Platform)

/-- Console.cpp 17-20 `Write(const wchar_t*)` -/
def writePtr (mem : List Nat) : Option (List Nat) := do
  let n ← wcslen mem
  P.writeLen mem n

/-- Console.cpp 22-25 `Write(const WString&)` -/
def writeString (s : List Nat) : Option (List Nat) := P.writeLen (s ++ [0]) s.length

/-- Console.cpp 27-31 -/
def writeLine (s : List Nat) : Option (List Nat) := do
  let a ← P.writeString s
  let b ← P.writePtr [13, 10, 0]
  return a ++ b

end Platform

/-- Console.Linux.cpp 22-26: `std::ends` is a zero -/
def linuxWrite (mem : List Nat) (length : Int) : Option (List Nat) := do
  let s ← take mem length
  return s ++ [0]

/-- Console.Linux.cpp 35-42: the characters of `wprintf`; 27 is `\x1B`, the others are `[00;3`, a digit and `m` -/
def linuxSetColor (red green blue light : Bool) : List Nat :=
  let color := (if blue then 1 else 0) * 4 + (if green then 1 else 0) * 2 + (if red then 1 else 0)
  if light then [27, 91, 48, 48, 59, 51] ++ [48 + color, 109]
  else [27, 91, 48, 49, 59, 51] ++ [48 + color, 109]

def linux : Platform := ⟨linuxWrite, linuxSetColor⟩

/-- `std::getline(std::wcin, s, L'\n')`: the line, and the characters that are left -/
def getline : List Nat → List Nat × List Nat
  | [] => ([], [])
  | c :: cs => if c = 10 then ([], cs) else (c :: (getline cs).1, (getline cs).2)

/-- the string that `s.c_str()` points to -/
def untilZero : List Nat → List Nat
  | [] => []
  | c :: cs => if c = 0 then [] else c :: untilZero cs

/-- Console.Linux.cpp 28-33 `Read`: the string and the input that is left -/
def linuxRead (input : List Nat) : List Nat × List Nat := (untilZero (getline input).1, (getline input).2)

/-- Console.Windows.cpp 22-40: to a console, or converted by `encode` to something else.  `WideCharToMultiByte` with -1 reads up to the zero;
the zero, which is not written, is one byte of the converted string. -/
def windowsWrite (isConsole : Bool) (encode : List Nat → List Nat) (mem : List Nat) (length : Int) : Option (List Nat) :=
  if isConsole then take mem length
  else do
    let n ← wcslen mem
    return encode (mem.take n)

/-- Console.Windows.cpp 42-65 `Read`: the string and the input that is left, `none`: the input ends, then the variable that is tested has no value
or its last value again and again -/
def windowsRead : List Nat → Option (List Nat × List Nat)
  | [] => none
  | c :: cs =>
    if c = 13 then
      match cs with
      | [] => some ([], [])
      | _ :: cs => some ([], cs)
    else if c = 10 then some ([], cs)
    else (windowsRead cs).map fun p => (c :: p.1, p.2)

/-- Console.Windows.cpp 67-76: the attributes of a console, as a number -/
def windowsAttribute (red green blue light : Bool) : Nat :=
  let a := 0
  let a := if red then a ||| 4 else a
  let a := if green then a ||| 2 else a
  let a := if blue then a ||| 1 else a
  if light then a ||| 8 else a

end Console
end Vlpp
