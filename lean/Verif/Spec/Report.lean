import Verif.Model.UnitTestReport
import Verif.Spec.Number

/-!
# What a test run reports

An outline: sections for categories and cases, with messages in them.  It is described without contexts, counters and indentation.
-/
set_option autoImplicit false
namespace Vlpp.Spec
open UnitTest (RCode RFile Thrown Exc Kind MessageKind lit)

/-- an outline -/
inductive Report where
  | done
  | message (error : Bool) (text : List Nat) (next : Report)
  | section (isCategory : Bool) (text : List Nat) (body next : Report)
  deriving DecidableEq, Repr

namespace Report

def append : Report → Report → Report
  | .done, r => r
  | .message e t n, r => .message e t (n.append r)
  | .section c t b n, r => .section c t b (n.append r)

/-- no error anywhere -/
def clean : Report → Bool
  | .done => true
  | .message e _ n => !e && n.clean
  | .section _ _ b n => b.clean && n.clean

/-- all cases: is there no error in it? -/
def cases : Report → List Bool
  | .done => []
  | .message _ _ n => n.cases
  | .section c _ b n => b.cases ++ (if c then [] else [b.clean]) ++ n.cases

end Report

/-- a line of the output -/
structure Line where
  kind : MessageKind
  level : Nat
  text : List Nat
  deriving DecidableEq, Repr

/-- the lines of an outline, with their levels -/
def Report.lines (level : Nat) : Report → List Line
  | .done => []
  | .message e t n => ⟨if e then .error else .info, level, t⟩ :: n.lines level
  | .section c t b n => ⟨if c then .category else .case, level, t⟩ :: b.lines (level + 1) ++ n.lines level

/-- what is reported when an exception leaves a file, a category or a case -/
def escaped : Option Thrown → Report
  | none => .done
  | some ⟨.other, _⟩ => .message true (lit "Unknown exception occurred!") .done
  | some ⟨_, m⟩ => .message true m .done

/-- Code of a test in a file, a category or a case: the outline, and the exception that leaves it. -/
def told (kind : Kind) : RCode → Report × Option Thrown
  | .done => (.done, none)
  | .raise t => (.done, some t)
  | .assert b text next =>
    if kind ≠ .case then (.done, some ⟨.configError, lit "Assertion is not allowed to execute outside of TEST_CASE."⟩)
    else if b then told kind next
    else (.done, some ⟨.assertError, lit "Assertion failure: " ++ text⟩)
  | .print m next => (.message false m (told kind next).1, (told kind next).2)
  | .expectError text body next =>
    if kind ≠ .case then (.done, some ⟨.configError, lit "Assertion is not allowed to execute outside of TEST_CASE."⟩)
    else
      match (told kind body).2 with
      | none => ((told kind body).1, some ⟨.assertError, lit "Expect an error but nothing occurred: " ++ text⟩)
      | some ⟨.error, _⟩ => ((told kind body).1.append (told kind next).1, (told kind next).2)
      | some t => ((told kind body).1, some t)
  | .expectException e type text body handler next =>
    /- with a type of its own for exceptions, the missing exception is one itself -/
    if ((told kind body).2.map (·.exc)).getD .assertError = e then
      match (told kind handler).2 with
      | none => (((told kind body).1.append (told kind handler).1).append (told kind next).1, (told kind next).2)
      | some t => ((told kind body).1.append (told kind handler).1, some t)
    else ((told kind body).1, some ⟨.assertError, lit "Expect [" ++ type ++ lit "] but get unexpected exception: " ++ text⟩)
  | .group isCategory description body next =>
    if kind = .case then
      (.done, some ⟨.configError, lit (if isCategory then "TEST_CATEGORY is not allowed to execute inside TEST_CASE"
        else "TEST_CASE is not allowed to execute inside TEST_CASE")⟩)
    else
      let b := told (if isCategory then .category else .case) body
      (.section isCategory description (b.1.append (escaped b.2)) (told kind next).1, (told kind next).2)
  | .tryAll body next => ((told kind body).1.append (told kind next).1, (told kind next).2)

/-- the outline of a file -/
def fileReport (f : RFile) : Report := (told .file f.code).1.append (escaped (told .file f.code).2)

/-- the lines of the files -/
def fileLines (skipped : RFile → Bool) (files : List RFile) : List Line :=
  files.flatMap fun f =>
    if skipped f then [⟨.file, 0, f.name.map Char.toNat ++ lit " [SKIPPED]"⟩]
    else ⟨.file, 0, f.name.map Char.toNat⟩ :: (fileReport f).lines 1

/-- the last two lines, for lists that say which files and cases passed -/
def Summary (files cases : List Bool) (lines : List Line) : Prop :=
  ∃ pf tf pc tc, NaturalNumeral pf (files.count true) ∧ NaturalNumeral tf files.length ∧
    NaturalNumeral pc (cases.count true) ∧ NaturalNumeral tc cases.length ∧
    lines = [⟨if files.all (· = true) then .case else .error, 0, lit "Passed test files: " ++ pf ++ lit "/" ++ tf⟩,
      ⟨if files.all (· = true) then .case else .error, 0, lit "Passed test cases: " ++ pc ++ lit "/" ++ tc⟩]

/-- how a line is written: bright in its colour, four spaces for every level, and then the colour is grey -/
def Line.calls (l : Line) : List ConsoleCall :=
  let (r, g, b) := match l.kind with
    | .info => (true, true, true)
    | .error => (true, false, false)
    | .file => (true, false, true)
    | .category => (true, true, false)
    | .case => (false, true, false)
  [.setColor r g b true, .writeLine (List.replicate (4 * l.level) 32 ++ l.text), .setColor true true true false]

def allCalls (ls : List Line) : List ConsoleCall := ls.flatMap Line.calls

/-- no categories and cases -/
def NoGroups : RCode → Prop
  | .done | .raise _ => True
  | .assert _ _ next | .print _ next => NoGroups next
  | .expectError _ body next => NoGroups body ∧ NoGroups next
  | .expectException _ _ _ body handler next => NoGroups body ∧ NoGroups handler ∧ NoGroups next
  | .group _ _ _ _ => False
  | .tryAll body next => NoGroups body ∧ NoGroups next

/-- Nothing catches the exceptions that leave categories and cases. -/
def Unguarded : RCode → Prop
  | .done | .raise _ => True
  | .assert _ _ next | .print _ next => Unguarded next
  | .expectError _ _ next => Unguarded next
  | .expectException _ _ _ body handler next => NoGroups body ∧ Unguarded handler ∧ Unguarded next
  | .group _ _ body next => Unguarded body ∧ Unguarded next
  | .tryAll body next => NoGroups body ∧ Unguarded next

end Vlpp.Spec
