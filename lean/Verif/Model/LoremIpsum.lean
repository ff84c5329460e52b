import Verif.Model.Outcome

/-!
# Model of LoremIpsum

Source/Strings/LoremIpsum.cpp.  Memory of the buffer is a list of cells; `none` in a cell is a value that has not been initialised.
The result `none` of a function is undefined behaviour (access outside of the buffer, use of a value that is not initialised) or non-termination.
Characters are numbers.
-/
set_option autoImplicit false
namespace Vlpp
namespace Lorem

/-- LoremIpsum.h 14-22 -/
inductive Casing where
  | allLower
  | firstUpper
  | allUpper
  deriving DecidableEq, Repr

/-- LoremIpsum.cpp 15-60 -/
def wordStrings : List String := [
    "lorem", "ipsum", "dolor", "sit", "amet", "consectetur", "adipiscing", "elit", "integer", "nec", "odio", "praesent", "libero", "sed", "cursus",
    "ante", "dapibus", "diam", "sed", "nisi", "nulla", "quis", "sem", "at", "nibh", "elementum", "imperdiet", "duis", "sagittis", "ipsum", "praesent",
    "mauris", "fusce", "nec", "tellus", "sed", "augue", "semper", "porta", "mauris", "massa", "vestibulum", "lacinia", "arcu", "eget", "nulla",
    "class", "aptent", "taciti", "sociosqu", "ad", "litora", "torquent", "per", "conubia", "nostra", "per", "inceptos", "himenaeos", "curabitur",
    "sodales", "ligula", "in", "libero", "sed", "dignissim", "lacinia", "nunc", "curabitur", "tortor", "pellentesque", "nibh", "aenean", "quam", "in",
    "scelerisque", "sem", "at", "dolor", "maecenas", "mattis", "sed", "convallis", "tristique", "sem", "proin", "ut", "ligula", "vel", "nunc",
    "egestas", "porttitor", "morbi", "lectus", "risus", "iaculis", "vel", "suscipit", "quis", "luctus", "non", "massa", "fusce", "ac", "turpis",
    "quis", "ligula", "lacinia", "aliquet", "mauris", "ipsum", "nulla", "metus", "metus", "ullamcorper", "vel", "tincidunt", "sed", "euismod", "in",
    "nibh", "quisque", "volutpat", "condimentum", "velit", "class", "aptent", "taciti", "sociosqu", "ad", "litora", "torquent", "per", "conubia",
    "nostra", "per", "inceptos", "himenaeos", "nam", "nec", "ante", "sed", "lacinia", "urna", "non", "tincidunt", "mattis", "tortor", "neque",
    "adipiscing", "diam", "a", "cursus", "ipsum", "ante", "quis", "turpis", "nulla", "facilisi", "ut", "fringilla", "suspendisse", "potenti", "nunc",
    "feugiat", "mi", "a", "tellus", "consequat", "imperdiet", "vestibulum", "sapien", "proin", "quam", "etiam", "ultrices", "suspendisse", "in",
    "justo", "eu", "magna", "luctus", "suscipit", "sed", "lectus", "integer", "euismod", "lacus", "luctus", "magna", "quisque", "cursus", "metus",
    "vitae", "pharetra", "auctor", "sem", "massa", "mattis", "sem", "at", "interdum", "magna", "augue", "eget", "diam", "vestibulum", "ante", "ipsum",
    "primis", "in", "faucibus", "orci", "luctus", "et", "ultrices", "posuere", "cubilia", "curae;", "morbi", "lacinia", "molestie", "dui", "praesent",
    "blandit", "dolor", "sed", "non", "quam", "in", "vel", "mi", "sit", "amet", "augue", "congue", "elementum", "morbi", "in", "ipsum", "sit", "amet",
    "pede", "facilisis", "laoreet", "donec", "lacus", "nunc", "viverra", "nec", "blandit", "vel", "egestas", "et", "augue", "vestibulum", "tincidunt",
    "malesuada", "tellus", "ut", "ultrices", "ultrices", "enim", "curabitur", "sit", "amet", "mauris", "morbi", "in", "dui", "quis", "est",
    "pulvinar", "ullamcorper", "nulla", "facilisi", "integer", "lacinia", "sollicitudin", "massa", "cras", "metus", "sed", "aliquet", "risus", "a",
    "tortor", "integer", "id", "quam", "morbi", "mi", "quisque", "nisl", "felis", "venenatis", "tristique", "dignissim", "in", "ultrices", "sit",
    "amet", "augue", "proin", "sodales", "libero", "eget", "ante", "nulla", "quam", "aenean", "laoreet", "vestibulum", "nisi", "lectus", "commodo",
    "ac", "facilisis", "ac", "ultricies", "eu", "pede", "ut", "orci", "risus", "accumsan", "porttitor", "cursus", "quis", "aliquet", "eget", "justo",
    "sed", "pretium", "blandit", "orci", "ut", "eu", "diam", "at", "pede", "suscipit", "sodales", "aenean", "lectus", "elit", "fermentum", "non",
    "convallis", "id", "sagittis", "at", "neque", "nullam", "mauris", "orci", "aliquet", "et", "iaculis", "et", "viverra", "vitae", "ligula", "nulla",
    "ut", "felis", "in", "purus", "aliquam", "imperdiet", "maecenas", "aliquet", "mollis", "lectus", "vivamus", "consectetuer", "risus", "et",
    "tortor"
  ]

/-- the words as characters -/
def wordTable : List (List Nat) := wordStrings.map fun w => w.toList.map Char.toNat

abbrev Buffer := List (Option Nat)

/-- `buffer[p] = c` -/
def store (b : Buffer) (p : Nat) (c : Nat) : Option Buffer := if p < b.length then some (b.set p (some c)) else none

/-- `buffer[p]` -/
def load (b : Buffer) (p : Nat) : Option Nat := b[p]?.join

/-- String.cpp 119-122 `wcscpy_s`: characters and a zero; the size is not used -/
def copy (b : Buffer) (p : Nat) : List Nat → Option Buffer
  | [] => store b p 0
  | c :: cs => (store b p c).bind fun b => copy b (p + 1) cs

/-- construction of a `WString` from a buffer: up to the first zero -/
def readString : Buffer → Option (List Nat)
  | [] => none
  | none :: _ => none
  | some c :: b => if c = 0 then some [] else (readString b).map (c :: ·)

/-- LoremIpsum.cpp 61, 66-70: the variables.  `writing` is a position. -/
structure State where
  buffer : Buffer
  used : Nat
  writing : Nat
  index : Nat

/-- LoremIpsum.cpp 73-77 -/
def space (s : State) : Option State :=
  if s.used ≠ 0 then (store s.buffer s.writing 32).map fun b => { s with buffer := b, writing := s.writing + 1, used := s.used + 1 }
  else some s

/-- LoremIpsum.cpp 80-84 -/
def writeWord (casing : Casing) (word : List Nat) (s : State) : Option State := do
  let b ← copy s.buffer s.writing word
  if casing = .allUpper ∨ (casing = .firstUpper ∧ s.used = 0) then
    let c ← load b s.writing
    let b ← store b s.writing (c - (97 - 65))
    some { s with buffer := b }
  else some { s with buffer := b }

/-- LoremIpsum.cpp 92-93 -/
def undoSpace (s : State) : Option State :=
  if s.writing = 0 then none
  else (store s.buffer (s.writing - 1) 0).map fun b => { s with buffer := b, writing := s.writing - 1, used := s.used - 1 }

/-- LoremIpsum.cpp 71-100 -/
def loop (table : List (List Nat)) (casing : Casing) (bestLength : Nat) (s : State) : Option State :=
  if s.used < bestLength then do
    let s ← space s
    let word ← table[s.index]?
    let s ← writeWord casing word s
    if s.used ≠ 0 ∧ s.used + word.length > bestLength ∧ (bestLength : Int) - s.used + 1 < (s.used : Int) + word.length - bestLength then
      undoSpace s
    else
      loop table casing bestLength
        { s with writing := s.writing + word.length, used := s.used + word.length, index := (s.index + 1) % table.length }
  else some s
partial_fixpoint

/-- LoremIpsum.cpp 13-105; the static variable `index` is an argument and a result -/
def loremIpsum (table : List (List Nat)) (bestLength : Int) (casing : Casing) (index : Nat) : Option (List Nat × Nat) := do
  let bestLength := bestLength.toNat
  let bufferLength := bestLength + 20
  let s ← loop table casing bestLength ⟨some 0 :: List.replicate bufferLength none, 0, 0, index⟩
  let text ← readString s.buffer
  some (text, s.index)

/-- the variables of `LoremIpsumParagraph`; `random` counts the calls of `rand` -/
structure Paragraph where
  result : List Nat
  comma : Nat
  casing : Casing
  random : Nat
  index : Nat

/-- LoremIpsum.cpp 123-159; the values of `rand` are arbitrary -/
def paragraphLoop (table : List (List Nat)) (rand : Nat → Nat) (bestLength : Int) (p : Paragraph) : Option (List Nat × Nat) :=
  if (p.result.length : Int) < bestLength then do
    let offset := bestLength - p.result.length
    let (comma, r) := if p.comma = 0 then (rand p.random % 4 + 1, p.random + 1) else (p.comma, p.random)
    let (length, r) := ((rand r % 45 + 15 : Nat), r + 1)
    let (comma, length, r) : Nat × Int × Nat :=
      if offset < 20 then (0, offset - 1, r)
      else if (length : Int) > offset then (0, offset + (rand r % 11 : Nat) - 5, r + 1)
      else (comma, length, r)
    let (text, index) ← loremIpsum table length p.casing p.index
    if comma = 0 then some (p.result ++ text ++ [46], index)
    else if comma = 1 then paragraphLoop table rand bestLength ⟨p.result ++ text ++ [46, 32], comma - 1, .firstUpper, r, index⟩
    else paragraphLoop table rand bestLength ⟨p.result ++ text ++ [44, 32], comma - 1, .allLower, r, index⟩
  else some (p.result, p.index)
partial_fixpoint

/-- LoremIpsum.cpp 117-161 -/
def paragraph (table : List (List Nat)) (rand : Nat → Nat) (bestLength : Int) (index : Nat) : Option (List Nat × Nat) :=
  paragraphLoop table rand bestLength ⟨[], 0, .firstUpper, 0, index⟩

end Lorem
end Vlpp
