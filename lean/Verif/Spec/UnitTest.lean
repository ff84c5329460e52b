import Verif.Model.UnitTest

/-!
# What happens when a test is executed

A description without contexts and counters.
-/
set_option autoImplicit false
namespace Vlpp
namespace Spec
open UnitTest (Code Exc Kind File)

/-- what happened -/
structure Verdict where
  /-- the exception that leaves the code -/
  escapes : Option Exc := none
  /-- a category or a case inside ended with an exception -/
  broken : Bool := false
  /-- an assertion or expectation failed, something was not allowed where it is, or an exception left a category or a case -/
  incident : Bool := false
  /-- the cases that were executed: without incident? -/
  cases : List Bool := []
  deriving DecidableEq, Repr

/-- nothing but this exception -/
def Verdict.raised (e : Exc) (incident : Bool) : Verdict := { escapes := some e, incident }

/-- first `v`, then `w` -/
def Verdict.followedBy (v w : Verdict) : Verdict :=
  { escapes := w.escapes, broken := v.broken || w.broken, incident := v.incident || w.incident, cases := v.cases ++ w.cases }

/-- `v` and then this exception -/
def Verdict.butRaises (v : Verdict) (e : Exc) (incident : Bool) : Verdict := v.followedBy (.raised e incident)

/-- no exception, nothing broken -/
def Verdict.good (v : Verdict) : Bool := v.escapes.isNone && !v.broken

/-- a category or a case whose code did `v`, seen from outside -/
def Verdict.inGroup (isCategory : Bool) (v : Verdict) : Verdict :=
  { escapes := none, broken := v.broken || v.escapes.isSome, incident := v.incident || v.escapes.isSome,
    cases := v.cases ++ if isCategory then [] else [v.good] }

/-- Execution of code in a file, a category or a case. -/
def judge (kind : Kind) : Code → Verdict
  | .done => {}
  | .raise e => .raised e false
  | .assert b next => if kind ≠ .case then .raised .configError true else if b then judge kind next else .raised .assertError true
  | .print next => judge kind next
  | .expectError body next =>
    if kind ≠ .case then .raised .configError true
    else
      match (judge kind body).escapes with
      | none => (judge kind body).butRaises .assertError true
      | some .error => (judge kind body).followedBy (judge kind next)
      | some e => (judge kind body).butRaises e false
  | .expectException e body handler next =>
    if (judge kind body).escapes.getD .assertError = e then
      match (judge kind handler).escapes with
      | none => ((judge kind body).followedBy (judge kind handler)).followedBy (judge kind next)
      | some _ => (judge kind body).followedBy (judge kind handler)
    else (judge kind body).butRaises .assertError true
  | .group isCategory body next =>
    if kind = .case then .raised .configError true
    else ((judge (if isCategory then .category else .case) body).inGroup isCategory).followedBy (judge kind next)
  | .tryAll body next => (judge kind body).followedBy (judge kind next)

/-- Nothing in the code catches the exceptions of the test framework. -/
def NoSwallow : Code → Prop
  | .done | .raise _ => True
  | .assert _ next | .print next => NoSwallow next
  | .expectError body next => NoSwallow body ∧ NoSwallow next
  | .expectException e body handler next => (e ≠ .assertError ∧ e ≠ .configError) ∧ NoSwallow body ∧ NoSwallow handler ∧ NoSwallow next
  | .group _ body next => NoSwallow body ∧ NoSwallow next
  | .tryAll _ _ => False

/-- Does an option name a file? The whole path, or the last parts of it. -/
def Names (name file : List Char) : Prop := file = name ∨ ∃ path d, file = path ++ d :: name ∧ (d = '/' ∨ d = '\\')

/-- the files that are to be executed -/
def Selected (names : List (List Char)) (file : List Char) : Prop := names = [] ∨ ∃ name ∈ names, Names name file

/-- an option of the command line is one of these -/
inductive Option' where
  | debug
  | release
  | file (name : List Char)

/-- how it is written -/
inductive Written : Option' → List Char → Prop where
  | debug : Written .debug ['/', 'D']
  | release : Written .release ['/', 'R']
  | file (name : List Char) (h : name ≠ []) : Written (.file name) ('/' :: 'F' :: ':' :: name)

/-- a whole command line -/
inductive AllWritten : List Option' → List (List Char) → Prop where
  | nil : AllWritten [] []
  | cons {w : Option'} {o : List Char} {ws : List Option'} {os : List (List Char)} :
    Written w o → AllWritten ws os → AllWritten (w :: ws) (o :: os)

/-- the names of files in options -/
def fileNames : List Option' → List (List Char)
  | [] => []
  | .file name :: os => name :: fileNames os
  | _ :: os => fileNames os

end Spec
end Vlpp
