import Verif.Model.UnitTest
import Verif.Model.Number
import Verif.Spec.Terminal

/-!
# Model of the unit test runner, with its output

Source/UnitTest/UnitTest.h and Source/UnitTest/UnitTest.cpp.  As `Model/UnitTest`, but with texts, and with what is written to the console.
Contexts are local variables: one that does not exist any more is not `alive`, and reading it is undefined behaviour (`none`).

Not modelled: structured exceptions of Windows (UnitTest.cpp 93-101), classes derived from `Error` and `Exception`, and
`atow`: names of files consist of characters that are the same in both encodings.
-/
set_option autoImplicit false
namespace Vlpp
namespace UnitTest
open Spec (ConsoleCall)

/-- a literal -/
def lit (s : String) : List Nat := s.toList.map Char.toNat

/-- an exception with its message; `other`: without -/
structure Thrown where
  exc : Exc
  message : List Nat
  deriving DecidableEq, Repr

/-- code of a test, as `Code`, with the texts: `#CONDITION`, `#STATEMENT`, `#EXCEPTION`, descriptions and messages -/
inductive RCode where
  | done
  /-- any code that throws -/
  | raise (t : Thrown)
  /-- UnitTest.h 184-188 `TEST_ASSERT` -/
  | assert (b : Bool) (text : List Nat) (next : RCode)
  /-- UnitTest.h 207-208 `TEST_PRINT` -/
  | print (message : List Nat) (next : RCode)
  /-- UnitTest.h 190-197 `TEST_ERROR` -/
  | expectError (text : List Nat) (body next : RCode)
  /-- UnitTest.h 199-205 `TEST_EXCEPTION` -/
  | expectException (e : Exc) (type text : List Nat) (body handler next : RCode)
  /-- UnitTest.h 178-182 `TEST_CATEGORY` and `TEST_CASE` -/
  | group (isCategory : Bool) (description : List Nat) (body next : RCode)
  /-- any code that catches everything -/
  | tryAll (body next : RCode)
  deriving DecidableEq, Repr

/-- UnitTest.h 117-124 `MessageKind` -/
inductive MessageKind where
  | info
  | error
  | file
  | category
  | case
  deriving DecidableEq, Repr

/-- UnitTest.cpp 34-40; `parent` is the next element of the list -/
structure RContext where
  kind : Kind
  failed : Bool
  indentation : List Nat
  alive : Bool := true
  deriving DecidableEq, Repr

/-- UnitTest.cpp 42-46: `testContext` (the first element, null if there is none) with its parents; what was written -/
structure RState where
  contexts : List RContext
  totalCases : Nat
  passedCases : Nat
  out : List ConsoleCall

/-- `*testContext`; `some none`: null -/
def RState.deref (s : RState) : Option (Option RContext) :=
  match s.contexts with
  | [] => some none
  | c :: _ => if c.alive then some (some c) else none

/-- UnitTest.cpp 129-146 -/
def MessageKind.color : MessageKind → ConsoleCall
  | .error => .setColor true false false true
  | .info => .setColor true true true true
  | .file => .setColor true false true true
  | .category => .setColor true true false true
  | .case => .setColor false true false true

/-- UnitTest.cpp 122-149 `PrintMessage` -/
def printMessage (string : List Nat) (kind : MessageKind) (s : RState) : Option (Option Thrown × RState) :=
  if kind ≠ .error ∧ s.contexts = [] then
    some (some ⟨.configError, lit "Cannot print message when unit test is not running."⟩, s)
  else do
    let c ← s.deref
    let indentation := match c with
      | none => []
      | some c => c.indentation
    return (none, { s with out := s.out ++ [kind.color, .writeLine (indentation ++ string), .setColor true true true false] })

/-- UnitTest.cpp 49-59 `RecordFailure`; `PrintMessage` does not throw errors -/
def rRecordFailure (message : List Nat) (s : RState) : Option RState := do
  let (_, s) ← printMessage message .error s
  if s.contexts.all (·.alive) then return { s with contexts := s.contexts.map fun c => { c with failed := true } }
  else none

/-- UnitTest.cpp 68-87: the message of an exception -/
def Thrown.text (t : Thrown) : List Nat :=
  match t.exc with
  | .assertError | .configError | .error | .exception => t.message
  | .other => lit "Unknown exception occurred!"

/-- UnitTest.cpp 340-344 `EnsureLegalToAssert`: the exception it throws -/
def ensureLegalToAssert (s : RState) : Option (Option Thrown) := do
  match ← s.deref with
  | none => return some ⟨.configError, lit "Assertion is not allowed to execute outside of TEST_CASE."⟩
  | some c =>
    if c.kind ≠ .case then return some ⟨.configError, lit "Assertion is not allowed to execute outside of TEST_CASE."⟩
    else return none

/-- Contexts that are not among the last `n` do not exist any more, because the functions that have them were left by an exception. -/
def leave (n : Nat) (cs : List RContext) : List RContext :=
  ((cs.take (cs.length - n)).map fun c => { c with alive := false }) ++ cs.drop (cs.length - n)

/-- UnitTest.cpp 107-118 `ExecuteAndSuppressFailure`, after the callback: `r` is what it did, `n` the number of contexts outside -/
def afterCallback (suppress : Bool) (r : Option Thrown × RState) : Option (Option Thrown × RState) :=
  match r with
  | (none, s) => some (none, s)
  | (some t, s) => if suppress then (rRecordFailure t.text s).map fun s => (none, s) else some (some t, s)

/-- UnitTest.cpp 317-330: until the callback is called; an exception, or the number of contexts outside and the state -/
def enterGroup (isCategory : Bool) (description : List Nat) (s : RState) : Option (Option Thrown × RState) := do
  match ← s.deref with
  | none => return (some ⟨.configError, lit "TEST_CATEGORY is not allowed to execute outside of TEST_FILE."⟩, s)
  | some c =>
    if c.kind = .case then
      return (some ⟨.configError, if isCategory then lit "TEST_CATEGORY is not allowed to execute inside TEST_CASE"
        else lit "TEST_CASE is not allowed to execute inside TEST_CASE"⟩, s)
    else
      let (e, s) ← printMessage description (if isCategory then .category else .case) s
      return (e, { s with contexts := ⟨if isCategory then .category else .case, false, c.indentation ++ lit "    ", true⟩ :: s.contexts })

/-- UnitTest.cpp 332-336 -/
def countCase (isCategory : Bool) (s : RState) : Option RState :=
  if isCategory then some s
  else
    match s.deref with
    | some (some c) =>
      some { s with passedCases := if c.failed = false then s.passedCases + 1 else s.passedCases, totalCases := s.totalCases + 1 }
    | _ => none

/-- UnitTest.cpp 332-337; `n` is the number of contexts outside -/
def leaveGroup (isCategory : Bool) (n : Nat) (s : RState) : Option RState :=
  (countCase isCategory s).map fun s => { s with contexts := s.contexts.drop (s.contexts.length - n) }

/-- Execution of code: the exception that leaves it, and the state.  `suppress` is `suppressFailure`. -/
def rexec (suppress : Bool) : RCode → RState → Option (Option Thrown × RState)
  | .done, s => some (none, s)
  | .raise t, s => some (some t, s)
  | .assert b text next, s => do
    match ← ensureLegalToAssert s with
    | some t => return (some t, s)
    | none => if b = false then return (some ⟨.assertError, lit "Assertion failure: " ++ text⟩, s) else rexec suppress next s
  | .print message next, s => do
    match ← printMessage message .info s with
    | (some t, s) => return (some t, s)
    | (none, s) => rexec suppress next s
  | .expectError text body next, s => do
    match ← ensureLegalToAssert s with
    | some t => return (some t, s)
    | none =>
      match ← rexec suppress body s with
      | (none, s) => return (some ⟨.assertError, lit "Expect an error but nothing occurred: " ++ text⟩, s)
      | (some t, s) => if t.exc = .error then rexec suppress next s else return (some t, s)
  | .expectException e type text body handler next, s => do
    let (r, s) ← rexec suppress body s
    /- what is thrown inside of `try` -/
    let t := r.getD ⟨.assertError, lit "Expect [" ++ type ++ lit "] but nothing occurred: " ++ text⟩
    if t.exc = e then
      match ← rexec suppress handler s with
      | (none, s) => rexec suppress next s
      | (some t, s) => return (some t, s)
    else return (some ⟨.assertError, lit "Expect [" ++ type ++ lit "] but get unexpected exception: " ++ text⟩, s)
  /- UnitTest.cpp 315-338 `RunCategoryOrCase` -/
  | .group isCategory description body next, s => do
    match ← enterGroup isCategory description s with
    | (some t, s) => return (some t, s)
    | (none, s1) =>
      let r ← rexec suppress body s1
      match ← afterCallback suppress r with
      | (some t, s2) => return (some t, { s2 with contexts := leave s.contexts.length s2.contexts })
      | (none, s2) =>
        let s3 ← leaveGroup isCategory s.contexts.length s2
        rexec suppress next s3
  | .tryAll body next, s => do
    let (_, s) ← rexec suppress body s
    rexec suppress next s

/-! ## Files -/

/-- a file: its name and its code (UnitTest.h 21-26) -/
structure RFile where
  name : List Char
  code : RCode

/-- how `RunAndDisposeTests` ends; `leaves`: an exception leaves it; with what was written -/
inductive Ending where
  | returns (result : Int) (out : List ConsoleCall)
  | leaves (t : Thrown) (out : List ConsoleCall)

/-- UnitTest.cpp 220-264; `pf` and `tf` are `passedFiles` and `totalFiles`; the state has one context, that of the function -/
def rRunFiles (suppress : Bool) (names : List (List Char)) : List RFile → RState → Nat → Nat → Option (Ending ⊕ (RState × Nat × Nat))
  | [], s, pf, tf => some (.inr (s, pf, tf))
  | f :: fs, s, pf, tf => do
    let s := { s with contexts := s.contexts.map fun c => { c with failed := false } }
    if skipped names f.name then
      match ← printMessage (f.name.map Char.toNat ++ lit " [SKIPPED]") .file s with
      | (some t, s) => return .inl (.leaves t s.out)
      | (none, s) => rRunFiles suppress names fs s pf tf
    else
      match ← printMessage (f.name.map Char.toNat) .file s with
      | (some t, s) => return .inl (.leaves t s.out)
      | (none, s) =>
        let s := { s with contexts := s.contexts.map fun c => { c with indentation := lit "    " } }
        let r ← rexec suppress f.code s
        match ← afterCallback suppress r with
        | (some t, s) => return .inl (.leaves t s.out)
        | (none, s) =>
          match ← s.deref with
          | none => none
          | some c =>
            let s := { s with contexts := s.contexts.map fun c => { c with indentation := [] } }
            rRunFiles suppress names fs s (if c.failed = false then pf + 1 else pf) (tf + 1)

/-- UnitTest.cpp 268: `itow` of a number that is not too large (C41) -/
def itow (n : Nat) : List Nat := Number.decimalNat n

/-- UnitTest.cpp 266-271 -/
def rSummary (s : RState) (pf tf : Nat) : Option Ending := do
  let kind := if tf = pf then .case else .error
  let (_, s) ← printMessage (lit "Passed test files: " ++ itow pf ++ lit "/" ++ itow tf) kind s
  let (_, s) ← printMessage (lit "Passed test cases: " ++ itow s.passedCases ++ lit "/" ++ itow s.totalCases) kind s
  return .returns (if tf = pf then 0 else 1) s.out

/-- UnitTest.cpp 202-272 -/
def rRunTests (suppress : Bool) (names : List (List Char)) (files : List RFile) : Option Ending := do
  let (_, s) ← printMessage (lit (if suppress then "Failures are suppressed." else "Failures are not suppressed.")) .info
    ⟨[⟨.file, false, [], true⟩], 0, 0, []⟩
  match ← rRunFiles suppress names files s 0 0 with
  | .inl e => return e
  | .inr (s, pf, tf) => rSummary s pf tf

/-- UnitTest.cpp 151-200 `PrintUsages` and `RunAndDisposeTests`; `testContext` is null -/
def rRunAndDispose (debuggerAttached : Bool) (options : List (List Char)) (files : List RFile) : Option Ending :=
  let o := options.foldl Options.parse {}
  if o.unrecognized || (o.debug && o.release) then do
    let (_, s) ← printMessage (lit "Usage: [/D | /R] {/F:TestFile}") .error ⟨[], 0, 0, []⟩
    return .returns 1 s.out
  else
    let suppress := if o.debug then false else if o.release then true else !debuggerAttached
    rRunTests suppress o.names files

/-! ## Registration -/

/-- UnitTest.cpp 24-25 `testHead` and `testTail` (`none`: points to `testHead`), and the links, which are numbered -/
structure Links where
  next : Nat → Option Nat := fun _ => none
  head : Option Nat := none
  tail : Option Nat := none

/-- UnitTest.cpp 309-313 `RegisterTestFile` -/
def Links.register (l : Links) (link : Nat) : Links :=
  match l.tail with
  | none => { l with head := some link, tail := some link }
  | some t => { l with next := fun i => if i = t then some link else l.next i, tail := some link }

/-- UnitTest.cpp 219-264: the links from `current` on are those of the list -/
inductive Links.Visits (l : Links) : Option Nat → List Nat → Prop where
  | stop : l.Visits none []
  | link {i : Nat} {is : List Nat} : l.Visits (l.next i) is → l.Visits (some i) (i :: is)

end UnitTest
end Vlpp
