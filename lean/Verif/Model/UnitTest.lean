import Verif.Model.Outcome

/-!
# Model of the unit test runner

Source/UnitTest/UnitTest.h and Source/UnitTest/UnitTest.cpp.  The code of tests is a tree of the macros of UnitTest.h 178-211; other code of tests
is represented by its effects: throwing something and catching everything.

Messages, their indentation, and contexts that do not exist any more are in `Model/UnitTestReport`; without suppression and with code that catches
exceptions of cases, only that model is right.

Not modelled: structured exceptions of Windows (UnitTest.cpp 93-101), and classes derived from `Error` and
`Exception`.
-/
set_option autoImplicit false
namespace Vlpp
namespace UnitTest

/-- exceptions, in the order of the handlers in UnitTest.cpp 68-87 -/
inductive Exc where
  | assertError
  | configError
  | error
  | exception
  | other
  deriving DecidableEq, Repr

/-- code of a test -/
inductive Code where
  | done
  /-- any code that throws -/
  | raise (e : Exc)
  /-- UnitTest.h 184-188 `TEST_ASSERT` -/
  | assert (b : Bool) (next : Code)
  /-- UnitTest.h 207-208 `TEST_PRINT` -/
  | print (next : Code)
  /-- UnitTest.h 190-197 `TEST_ERROR` -/
  | expectError (body next : Code)
  /-- UnitTest.h 199-205 `TEST_EXCEPTION` -/
  | expectException (e : Exc) (body handler next : Code)
  /-- UnitTest.h 178-182 `TEST_CATEGORY` and `TEST_CASE` -/
  | group (isCategory : Bool) (body next : Code)
  /-- any code that catches everything -/
  | tryAll (body next : Code)
  deriving DecidableEq, Repr

/-- UnitTest.cpp 27-32 -/
inductive Kind where
  | file
  | category
  | case
  deriving DecidableEq, Repr

/-- UnitTest.cpp 34-40; `parent` is the next element of the list -/
structure Context where
  kind : Kind
  failed : Bool
  deriving DecidableEq, Repr

/-- UnitTest.cpp 42-46: `testContext` (the first element, null if there is none) with its parents -/
structure State where
  contexts : List Context
  totalCases : Nat
  passedCases : Nat
  deriving DecidableEq, Repr

/-- UnitTest.cpp 49-59 `RecordFailure` -/
def recordFailure (s : State) : State := { s with contexts := s.contexts.map fun c => { c with failed := true } }

/-- UnitTest.cpp 340-344 `EnsureLegalToAssert` -/
def legalToAssert (s : State) : Bool :=
  match s.contexts with
  | [] => false
  | c :: _ => c.kind == .case

/-- Execution of code: the exception that leaves it, and the state.  `suppress` is `suppressFailure`. -/
def exec (suppress : Bool) : Code → State → Option Exc × State
  | .done, s => (none, s)
  | .raise e, s => (some e, s)
  | .assert b next, s =>
    if legalToAssert s = false then (some .configError, s)
    else if b = false then (some .assertError, s)
    else exec suppress next s
  /- UnitTest.cpp 124-127 -/
  | .print next, s => if s.contexts = [] then (some .configError, s) else exec suppress next s
  | .expectError body next, s =>
    if legalToAssert s = false then (some .configError, s)
    else
      match exec suppress body s with
      | (none, s) => (some .assertError, s)
      | (some .error, s) => exec suppress next s
      | (some e, s) => (some e, s)
  | .expectException e body handler next, s =>
    match exec suppress body s with
    | (r, s) =>
      if r.getD .assertError = e then
        match exec suppress handler s with
        | (none, s) => exec suppress next s
        | (some e, s) => (some e, s)
      else (some .assertError, s)
  /- UnitTest.cpp 315-338 `RunCategoryOrCase`; 107-118 `ExecuteAndSuppressFailure` -/
  | .group isCategory body next, s =>
    match s.contexts with
    | [] => (some .configError, s)
    | c :: _ =>
      if c.kind = .case then (some .configError, s)
      else
        let s := { s with contexts := ⟨if isCategory then .category else .case, false⟩ :: s.contexts }
        match exec suppress body s with
        | (some e, s) => if suppress then group isCategory next (recordFailure s) else (some e, s)
        | (none, s) => group isCategory next s
  | .tryAll body next, s => exec suppress next (exec suppress body s).2
where
  /-- UnitTest.cpp 332-337, and what comes after the group -/
  group (isCategory : Bool) (next : Code) (s : State) : Option Exc × State :=
    match s.contexts with
    | [] => (some .other, s)
    | c :: parents =>
      let s := if isCategory then s
        else { s with passedCases := if c.failed = false then s.passedCases + 1 else s.passedCases, totalCases := s.totalCases + 1 }
      exec suppress next { s with contexts := parents }

/-! ## Files -/

/-- a file: its name and its code (UnitTest.h 21-26) -/
structure File where
  name : List Char
  code : Code

/-- UnitTest.cpp 224-248: does the name of a file match a name of an option? -/
def matchesName (file name : List Char) : Bool :=
  if file = name then true
  else if file.length > name.length then
    match file[file.length - name.length - 1]? with
    | some d => (d = '/' || d = '\\') && file.drop (file.length - name.length) = name
    | none => false
  else false

/-- UnitTest.cpp 222-248 -/
def skipped (names : List (List Char)) (file : List Char) : Bool := names.length > 0 && !names.any (matchesName file)

/-- the counters of files, with the state -/
structure Totals where
  state : State
  totalFiles : Nat
  passedFiles : Nat

/-- UnitTest.cpp 220-264, `none`: an exception leaves the function -/
def runFiles (suppress : Bool) (names : List (List Char)) : List File → Totals → Option Totals
  | [], t => some t
  | f :: fs, t =>
    if skipped names f.name then runFiles suppress names fs t
    else
      let s := { t.state with contexts := t.state.contexts.map fun c => { c with failed := false } }
      match exec suppress f.code s with
      | (some _, s) => if suppress then finish (recordFailure s) fs t else none
      | (none, s) => finish s fs t
where
  /-- UnitTest.cpp 259-263 -/
  finish (s : State) (fs : List File) (t : Totals) : Option Totals :=
    match s.contexts with
    | [] => none
    | c :: _ => runFiles suppress names fs
      ⟨s, t.totalFiles + 1, if c.failed = false then t.passedFiles + 1 else t.passedFiles⟩

/-- UnitTest.cpp 202-272: the counters at the end and the result -/
def runTests (suppress : Bool) (names : List (List Char)) (files : List File) : Option (Int × Totals) :=
  (runFiles suppress names files ⟨⟨[⟨.file, false⟩], 0, 0⟩, 0, 0⟩).map fun t => (if t.totalFiles = t.passedFiles then 0 else 1, t)

/-- options: UnitTest.cpp 159-182 -/
structure Options where
  unrecognized : Bool := false
  debug : Bool := false
  release : Bool := false
  names : List (List Char) := []
  deriving DecidableEq, Repr

/-- UnitTest.cpp 164-182, one option -/
def Options.parse (o : Options) (option : List Char) : Options :=
  if option = ['/', 'D'] then { o with debug := true }
  else if option = ['/', 'R'] then { o with release := true }
  else if option.length > 3 ∧ option.take 3 = ['/', 'F', ':'] then { o with names := o.names ++ [option.drop 3] }
  else { o with unrecognized := true }

/-- UnitTest.cpp 157-273 `RunAndDisposeTests`; options of the command line are characters of one byte, so that `wtoa` does not change them
(`Model/CommandLine` has strings of all encodings) -/
def runAndDispose (debuggerAttached : Bool) (options : List (List Char)) (files : List File) : Option Int :=
  let o := options.foldl Options.parse {}
  if o.unrecognized || (o.debug && o.release) then some 1
  else
    let suppress := if o.debug then false else if o.release then true else !debuggerAttached
    (runTests suppress o.names files).map (·.1)

end UnitTest
end Vlpp
