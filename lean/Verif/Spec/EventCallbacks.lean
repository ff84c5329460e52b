import Verif.Model.EventCallbacks
import Verif.Spec.Event

/-! # What callbacks and programs may rely on when callbacks use events -/
set_option autoImplicit false
namespace Vlpp
namespace Spec
open Events (Op Ret Entry)

/-- The subscriptions follow what happened: operations act as `SubscriptionStep` says, also inside of callbacks,
and who is called is attached to the raised event at that time. -/
inductive Follows : Subscriptions → List Entry → Subscriptions → Prop
  | nil {s : Subscriptions} : Follows s [] s
  | did {s s' s'' : Subscriptions} {op : Op} {r : Ret} {log : List Entry} : SubscriptionStep s op r s' → Follows s' log s'' →
    Follows s (.did op r :: log) s''
  | raise {s s'' : Subscriptions} {r e : Nat} {log : List Entry} : Follows s log s'' → Follows s (.raise r e :: log) s''
  | ended {s s'' : Subscriptions} {r : Nat} {t : Bool} {log : List Entry} : Follows s log s'' → Follows s (.ended r t :: log) s''
  | call {s s'' : Subscriptions} {r e h : Nat} {log : List Entry} : s[h]? = some (some e) → Follows s log s'' →
    Follows s (.call r e h :: log) s''
  | failed {s s'' : Subscriptions} {r h : Nat} {log : List Entry} : Follows s log s'' → Follows s (.failed r h :: log) s''

/-- the handlers that the raise `r` called, in order -/
def callsOf (r : Nat) (log : List Entry) : List Nat :=
  log.filterMap fun x => match x with
    | .call r' _ h => if r' = r then some h else none
    | _ => none

/-- a handler was added to `e` -/
def AddsTo (e : Nat) (log : List Entry) : Prop := ∃ a r, Entry.did (.add e a) r ∈ log

/-- a handler was removed from `e` -/
def RemovesFrom (e : Nat) (log : List Entry) : Prop := ∃ h, Entry.did (.remove e h) (.flag true) ∈ log

/-- What a raise `r` of `e` is: `s` are the subscriptions when it begins, `log` is what happens until it is over, and `threw` whether
a callback has thrown.
If nothing is added to the event then no handler is called twice and only those that were attached at the beginning;
if nothing is removed from it and nobody throws, then no handler that was attached at the beginning is left out.
An exception of a callback, and nothing else, ends the raise at once, and the program gets the exception. -/
structure RaiseFair (s : Subscriptions) (r e : Nat) (log : List Entry) (threw : Bool) : Prop where
  once : ¬ AddsTo e log → (callsOf r log).Nodup ∧ ∀ h ∈ callsOf r log, s[h]? = some (some e)
  every : ¬ RemovesFrom e log → threw = false → ∀ h, s[h]? = some (some e) → h ∈ callsOf r log
  stops : ∀ h, Entry.failed r h ∈ log → threw = true ∧ ∃ log', log = log' ++ [.failed r h]
  reason : threw = true → ∃ h ∈ callsOf r log, Entry.failed r h ∈ log

/-- All raises that are over, also those that callbacks made, are fair. -/
def AllFair (s : Subscriptions) (log : List Entry) : Prop :=
  ∀ (before during after : List Entry) (r e : Nat) (threw : Bool),
    log = before ++ .raise r e :: (during ++ .ended r threw :: after) →
    ∃ s', Follows s before s' ∧ RaiseFair s' r e during threw

end Spec
end Vlpp
