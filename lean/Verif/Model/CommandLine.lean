import Verif.Model.Ansi

/-!
# Model of the command line of `UnitTest::RunAndDisposeTests`

UnitTest.cpp 157-200, 222-248 and 275-307, with the strings that the code has: arguments of `wchar_t` or of `char`, options as wide strings, names
of files as strings of `char`.  (`Model/UnitTest` and `Model/UnitTestReport` have everything else, with texts instead of strings.)  `none` is an access to
memory that is not there.  Delimiters: 47 is `/`, 92 is `\`.
-/
set_option autoImplicit false
namespace Vlpp
namespace CommandLine
open Utf (Ansi)

/-- UnitTest.cpp 159-162 -/
structure Parsed where
  unrecognized : Bool := false
  debug : Bool := false
  release : Bool := false
  names : List (List Nat) := []
  deriving DecidableEq

/-- UnitTest.cpp 164-182, one option; `/D`, `/R` and `/F:`.  Behind the zero of a substring nothing is read (C112). -/
def parse (A : Ansi) (o : Parsed) (option : List Nat) : Option Parsed :=
  if option = [47, 68] then some { o with debug := true }
  else if option = [47, 82] then some { o with release := true }
  else if option.length > 3 ∧ option.take 3 = [47, 70, 58] then do
    let name ← A.wtoa (option.drop 3 ++ [0])
    return { o with names := o.names ++ [name] }
  else some { o with unrecognized := true }

/-- UnitTest.cpp 164-182 -/
def parseAll (A : Ansi) : List (List Nat) → Parsed → Option Parsed
  | [], o => some o
  | option :: options, o => do
    let o ← parse A o option
    parseAll A options o

/-- what is done then: `PrintUsages`, or the tests with the value of `suppressFailure` and the names of files -/
inductive Choice where
  | usages
  | run (suppress : Bool) (names : List (List Nat))
  deriving DecidableEq

/-- UnitTest.cpp 157-200 -/
def choose (A : Ansi) (debuggerAttached : Bool) (options : List (List Nat)) : Option Choice := do
  let o ← parseAll A options {}
  if o.unrecognized || (o.debug && o.release) then return .usages
  else if o.debug then return .run false o.names
  else if o.release then return .run true o.names
  else return .run (!debuggerAttached) o.names

/-- UnitTest.cpp 226-246: the bytes of the name of a file and of an option -/
def matchesName (file name : List Nat) : Bool :=
  if file = name then true
  else
    let len := file.length
    if len > name.length then
      match file[len - name.length - 1]? with
      | some d => (d = 47 || d = 92) && file.drop (len - name.length) = name
      | none => false
    else false

/-- UnitTest.cpp 222-248 -/
def skipped (names : List (List Nat)) (file : List Nat) : Bool := names.length > 0 && !names.any (matchesName file)

/-- UnitTest.cpp 283-286, 299-302: the loop over `argv`, from `i` on; `argc - i` arguments are left -/
def loop (read : List Nat → Option (List Nat)) (argv : List (List Nat)) : Nat → Nat → Option (List (List Nat))
  | 0, _ => some []
  | n + 1, i => do
    let arg ← argv[i]?
    let option ← read arg
    let options ← loop read argv n (i + 1)
    return option :: options

/-- UnitTest.cpp 275-289: `argv[i]` is what can be read behind a pointer.  `Unmanaged` takes it up to the zero. -/
def runW (A : Ansi) (debuggerAttached : Bool) (argc : Int) (argv : List (List Nat)) : Option Choice :=
  if argc < 2 then choose A debuggerAttached []
  else do
    let options ← loop Utf.untilZero argv (argc - 1).toNat 1
    choose A debuggerAttached options

/-- UnitTest.cpp 291-307: an `AString` is made of `argv[i]` and converted. -/
def runA (A : Ansi) (debuggerAttached : Bool) (argc : Int) (argv : List (List Nat)) : Option Choice :=
  if argc < 2 then choose A debuggerAttached []
  else do
    let options ← loop (fun arg => do
      let s ← Utf.untilZero arg
      A.atow (s ++ [0])) argv (argc - 1).toNat 1
    choose A debuggerAttached options

end CommandLine
end Vlpp
