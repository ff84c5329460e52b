/-!
# Specification: what a terminal shows

The part of ECMA-48 that matters here: characters are shown with the attributes that were chosen last, zeros are ignored, and
`ESC [ p1 ; ... ; pn m` chooses attributes.
-/
set_option autoImplicit false
namespace Vlpp.Spec

/-- how characters are shown; the colour has a bit for red (1), green (2) and blue (4) -/
structure Attr where
  color : Nat
  intense : Bool
  deriving DecidableEq, Repr

/-- how characters are shown before anything was chosen -/
def Attr.default : Attr := ⟨7, false⟩

inductive TermMode where
  | text
  | escape
  | params (done : List Nat) (cur : Nat)

structure Term where
  mode : TermMode
  attr : Attr
  shown : List (Nat × Attr)

def Term.start : Term := ⟨.text, .default, []⟩

/-- one parameter of `m` -/
def Attr.choose (a : Attr) (p : Nat) : Attr :=
  if p = 0 then .default
  else if p = 1 then { a with intense := true }
  else if 30 ≤ p ∧ p ≤ 37 then { a with color := p - 30 }
  else a

/-- one character -/
def Term.step (t : Term) (c : Nat) : Term :=
  match t.mode with
  | .text =>
    if c = 27 then { t with mode := .escape }
    else if c = 0 then t
    else { t with shown := t.shown ++ [(c, t.attr)] }
  | .escape => { t with mode := if c = 91 then .params [] 0 else .text }
  | .params done cur =>
    if 48 ≤ c ∧ c ≤ 57 then { t with mode := .params done (cur * 10 + (c - 48)) }
    else if c = 59 then { t with mode := .params (done ++ [cur]) 0 }
    else if c = 109 then { t with mode := .text, attr := (done ++ [cur]).foldl Attr.choose t.attr }
    else { t with mode := .text }

def Term.display (t : Term) (stream : List Nat) : Term := stream.foldl Term.step t

/-- what a program does with a console -/
inductive ConsoleCall where
  | write (s : List Nat)
  | writeLine (s : List Nat)
  | setColor (red green blue light : Bool)

/-- every character with the attributes chosen last; `intensity light` says whether it is shown intensely -/
def wanted (intensity : Bool → Bool) : Attr → List ConsoleCall → List (Nat × Attr)
  | _, [] => []
  | a, .write s :: calls => s.map (·, a) ++ wanted intensity a calls
  | a, .writeLine s :: calls => s.map (·, a) ++ [(13, a), (10, a)] ++ wanted intensity a calls
  | _, .setColor red green blue light :: calls =>
    wanted intensity ⟨(if red then 1 else 0) + (if green then 2 else 0) + (if blue then 4 else 0), intensity light⟩ calls

/-- text without characters that mean something to a terminal -/
def PlainText (s : List Nat) : Prop := 0 ∉ s ∧ 27 ∉ s

def ConsoleCall.Plain : ConsoleCall → Prop
  | .write s => PlainText s
  | .writeLine s => PlainText s
  | .setColor _ _ _ _ => True

end Vlpp.Spec
