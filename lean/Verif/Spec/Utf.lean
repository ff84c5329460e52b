import Verif.Model.Utf

/-!
# Specification for the UTF conversions

Stated with the Unicode notions and with what a caller of `Read`, `SourceCluster` and `ReadingIndex` can observe.
-/
set_option autoImplicit false
namespace Vlpp
namespace Spec

/-- The code points reserved for UTF-16. -/
def Surrogate (c : Nat) : Prop := 0xD800 ≤ c ∧ c ≤ 0xDFFF

/-- `Utf16Char us c`: the units `us` are the UTF-16 form of the code point `c` (The Unicode Standard, D91). -/
inductive Utf16Char : List Nat → Nat → Prop
  | bmp {c : Nat} : c < 0x10000 → ¬Surrogate c → Utf16Char [c] c
  | pair {hi lo : Nat} : hi < 1024 → lo < 1024 → Utf16Char [0xD800 + hi, 0xDC00 + lo] (0x10000 + hi * 1024 + lo)

/-- `Utf16Text us cs`: well formed UTF-16 text. -/
inductive Utf16Text : List Nat → List Nat → Prop
  | nil : Utf16Text [] []
  | cons {us rest : List Nat} {c : Nat} {cs : List Nat} : Utf16Char us c → Utf16Text rest cs → Utf16Text (us ++ rest) (c :: cs)

/-- Number of units of a UTF-8 sequence, from its first unit (RFC 2279). -/
def utf8Length (c0 : Nat) : Nat :=
  if c0 < 0x80 then 1 else if c0 < 0xE0 then 2 else if c0 < 0xF0 then 3 else if c0 < 0xF8 then 4
  else if c0 < 0xFC then 5 else 6

/-- `Partition dec xs i n tr rest`: the entries of `tr` are a value, a cluster and a counter.  Their clusters cut the
text `xs`, which starts at position `i`, into consecutive pieces that are not empty, each decoding to the value on its
own, and leave `rest`.  The counters count from `n`. -/
def Partition (dec : List Nat → Option (Nat × Nat)) : List Nat → Int → Int → List (Nat × Utf.Cluster × Int) → List Nat → Prop
  | xs, _, _, [], rest => xs = rest
  | xs, i, n, (d, cl, k) :: tr, rest => ∃ seg xs', xs = seg ++ xs' ∧ seg ≠ [] ∧ dec seg = some (d, seg.length) ∧
      cl = ⟨i, seg.length⟩ ∧ k = n ∧ Partition dec xs' (i + seg.length) (n + 1) tr rest

/-- The units of the code points of `tr`, with the cluster of the code point that they come from, counted from `n`, up
to the first code point that cannot be encoded. -/
def expand (enc : Nat → Option (List Nat)) : Int → List (Nat × Utf.Cluster × Int) → List (Nat × Utf.Cluster × Int)
  | _, [] => []
  | n, (d, cl, _) :: tr =>
    match enc d with
    | none => []
    | some us => us.zipIdx.map (fun (u, i) => (u, cl, n + i)) ++ expand enc (n + us.length) tr

/-- Code points at consecutive positions. -/
def units32 (i : Int) : List Nat → List (Nat × Utf.Cluster × Int)
  | [] => []
  | c :: cs => (c, ⟨i, 1⟩, i) :: units32 (i + 1) cs

/-- What counting and writing the converted units, zero terminated, means for a caller: `len` reports the length
including the terminator, and writing at most `chars` units to a destination `d` changes exactly its first units.
`none` as the result of writing would be an access outside of the destination or of the source. -/
def ExactBuffer (len : Option Nat) (wr : List Nat → Nat → Option (Nat × List Nat)) : Prop :=
  ∃ us : List Nat, (∀ u ∈ us, u ≠ 0) ∧ len = some (us.length + 1) ∧
    ∀ d chars, chars ≤ d.length → wr d chars = some (min chars (us.length + 1),
      (us ++ [0]).take chars ++ d.drop (min chars (us.length + 1)))

/-- Reading from `s` yields the values of `tr`, none of which is zero, with the given observations of the state after
each of them, and then comes to a state with `E`. -/
def Yields {ω : Type} (R : Utf.Source) (obs : R.σ → ω) (E : R.σ → Prop) : R.σ → List (Nat × ω) → Prop
  | s, [] => E s
  | s, (x, o) :: tr => x ≠ 0 ∧ ∃ s', R.consume s = some (x, s') ∧ obs s' = o ∧ Yields R obs E s' tr

/-- All further values are zero. -/
def Ended (R : Utf.Source) (s : R.σ) : Prop :=
  ∃ E : R.σ → Prop, E s ∧ ∀ s, E s → ∃ s', R.consume s = some (0, s') ∧ E s'

end Spec
end Vlpp
