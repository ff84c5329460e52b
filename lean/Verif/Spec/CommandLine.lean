import Verif.Spec.Ansi
import Verif.Spec.UnitTest

/-! # Specification of the command line of tests -/
set_option autoImplicit false
namespace Vlpp
namespace Spec
open Utf (Codec Ansi)

/-- two lists with related elements -/
inductive Each {α β : Type} (R : α → β → Prop) : List α → List β → Prop
  | nil : Each R [] []
  | cons {a : α} {b : β} {as : List α} {bs : List β} : R a b → Each R as bs → Each R (a :: as) (b :: bs)

/-- `bs` is the text `cs` in the locale. -/
def Bytes (A : Ansi) (cs : List Char) (bs : List Nat) : Prop :=
  (∀ c ∈ cs, c.toNat ≠ 0) ∧ bs.length < 2147483647 ∧ ∃ us, TextIn (wide A) .w cs us ∧ multibyte (codec A) us = some bs

/-- The bytes of the two delimiters do not occur in other characters. -/
structure Separators (K : Codec) : Prop where
  slash : K.encode 47 = some [47]
  backslash : K.encode 92 = some [92]
  others : ∀ c bs, K.encode c = some bs → (47 ∈ bs → c = 47) ∧ (92 ∈ bs → c = 92)

end Spec
end Vlpp
