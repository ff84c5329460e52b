import Verif.Spec.UtfWide
import Verif.Model.Ansi

/-! # Specification of the conversions of strings of `char` -/
set_option autoImplicit false
namespace Vlpp
namespace Spec
open Utf (Codec Page Ansi Form Wide)

/-- what a platform does with a single character -/
def codec : Ansi → Codec
  | .linux K => K
  | .windows P => P.toCodec

/-- Wide strings are UTF-16 on Windows and UTF-32 on Linux. -/
def wide : Ansi → Wide
  | .linux _ => .utf32
  | .windows _ => .utf16

/-- `bs` is the text `cs` as a string of `char`. -/
def AnsiText (A : Ansi) (cs : List Char) (bs : List Nat) : Prop :=
  (∀ b ∈ bs, b ≠ 0) ∧ ∃ us, TextIn (wide A) .w cs us ∧ MultibyteText (codec A) bs us ∧ us.length < 2147483647

/-- Every character of the text exists in the locale, and the text is not too long. -/
def Representable (A : Ansi) (cs : List Char) : Prop :=
  ∃ us bs, TextIn (wide A) .w cs us ∧ multibyte (codec A) us = some bs ∧ bs.length < 2147483647

/-- What is expected of a code page: that it reads back what it writes, and that it writes something for every unit, namely the bytes of a
character `q` for those that it has not. -/
structure PageFor (P : Page) (q : Nat) : Prop where
  faithful : Faithful P.toCodec
  default : P.encode q = some P.byteDefault
  nonzero : q ≠ 0

/-- `us` are the units of the bytes `bs`, in which everything that is malformed is replaced by the default character of the page. -/
inductive PageText (P : Page) : List Nat → List Nat → Prop
  | nil : PageText P [] []
  | char {bs : List Nat} {c k : Nat} {us : List Nat} : bs ≠ [] → P.decode bs = some (c, k) → PageText P (bs.drop k) us → PageText P bs (c :: us)
  | malformed {bs : List Nat} {us : List Nat} : bs ≠ [] → P.decode bs = none → PageText P (bs.drop (max 1 (P.skip bs))) us →
      PageText P bs (P.wideDefault :: us)

end Spec
end Vlpp
