import Verif.Model.Event

/-! # Subscriptions to events -/
set_option autoImplicit false
namespace Vlpp
namespace Spec
open Events (Op Ret)

/-- For each handler, in the order of their creation, the event to which it is attached. -/
abbrev Subscriptions := List (Option Nat)

/-- What each operation does to the subscriptions `s`.  Addresses and types are of no importance; only the order of the calls is open. -/
inductive SubscriptionStep : Subscriptions → Op → Ret → Subscriptions → Prop
  | newEvent {s : Subscriptions} {t : Nat} : SubscriptionStep s (.newEvent t) .unit s
  | destroyEvent {s : Subscriptions} {e : Nat} :
    SubscriptionStep s (.destroyEvent e) .unit (s.map fun x => if x = some e then none else x)
  | add {s : Subscriptions} {e a : Nat} : SubscriptionStep s (.add e a) (.handler s.length) (s ++ [some e])
  | remove {s : Subscriptions} {e h : Nat} : s[h]? = some (some e) →
    SubscriptionStep s (.remove e h) (.flag true) (s.set h none)
  | removeMiss {s : Subscriptions} {e h : Nat} : s[h]? ≠ some (some e) → SubscriptionStep s (.remove e h) (.flag false) s
  | attached {s : Subscriptions} {e h : Nat} : s[h]? = some (some e) → SubscriptionStep s (.isAttached h) (.flag true) s
  | detached {s : Subscriptions} {h : Nat} : s[h]? = some none → SubscriptionStep s (.isAttached h) (.flag false) s
  | drop {s : Subscriptions} {h : Nat} : SubscriptionStep s (.drop h) .unit s
  | raise {s : Subscriptions} {e : Nat} {hs : List Nat} : hs.Nodup → (∀ h, h ∈ hs ↔ s[h]? = some (some e)) →
    SubscriptionStep s (.raise e) (.calls hs) s

/-- a history -/
inductive SubscriptionRun : Subscriptions → List Op → List Ret → Subscriptions → Prop
  | nil {s : Subscriptions} : SubscriptionRun s [] [] s
  | cons {s s' s'' : Subscriptions} {op : Op} {ops : List Op} {r : Ret} {rs : List Ret} : SubscriptionStep s op r s' →
    SubscriptionRun s' ops rs s'' → SubscriptionRun s (op :: ops) (r :: rs) s''

end Spec
end Vlpp
