import Verif.Spec.Utf
import Verif.Model.UtfWide

/-! # Specification of the conversions between string classes -/
set_option autoImplicit false
namespace Vlpp
namespace Spec
open Utf (Wide Form Codec)

/-- `us` are the units of the text `cs` in a string of the class `F`: UTF-8, UTF-16 or UTF-32, as the Unicode Standard defines them;
a wide string has the encoding of the platform. -/
def TextIn (cfg : Wide) (F : Form) (cs : List Char) (us : List Nat) : Prop :=
  match F, cfg with
  | .u8, _ => us = (cs.flatMap String.utf8EncodeChar).map UInt8.toNat
  | .u16, _ | .w, .utf16 => Utf16Text us (cs.map Char.toNat)
  | .u32, _ | .w, .utf32 => us = cs.map Char.toNat

/-- Two classes whose strings have the same units on the platform. -/
def SameUnits (cfg : Wide) (A B : Form) : Prop :=
  match cfg with
  | .utf16 => (A = .w ∧ B = .u16) ∨ (A = .u16 ∧ B = .w)
  | .utf32 => (A = .w ∧ B = .u32) ∨ (A = .u32 ∧ B = .w)

/-- The bytes of a text, if all of its characters can be represented. -/
def multibyte (K : Codec) (cs : List Nat) : Option (List Nat) := (cs.mapM K.encode).map List.flatten

/-- `bs` is a sequence of multibyte characters, which stand for `cs`. -/
inductive MultibyteText (K : Codec) : List Nat → List Nat → Prop
  | nil : MultibyteText K [] []
  | cons {bs : List Nat} {c k : Nat} {cs : List Nat} : bs ≠ [] → K.decode bs = some (c, k) → MultibyteText K (bs.drop k) cs →
      MultibyteText K bs (c :: cs)

/-- What the C standard requires: a character is read back from its bytes, none of which is zero. -/
structure Faithful (K : Codec) : Prop where
  nonempty : ∀ c, K.encode c ≠ some []
  nonzero : ∀ c bs, c ≠ 0 → K.encode c = some bs → ∀ b ∈ bs, b ≠ 0
  decode : ∀ c bs, K.encode c = some bs → ∀ rest, K.decode (bs ++ rest) = some (c, bs.length)

end Spec
end Vlpp
