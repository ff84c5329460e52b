import Verif.Model.StrThreads
/-!
# Strings as values

What a thread that is alone in the world sees if a string variable contains a list of characters and nothing else.  No
buffers, no counters, no sharing.
-/
set_option autoImplicit false
namespace Vlpp
namespace Spec
namespace StrValues
open StrThreads (Op Obs Owner)

/-- The variables: `none` does not exist. -/
abbrev Env := Nat → Option (List Nat)

def store (e : Env) (v : Nat) (x : Option (List Nat)) : Env := fun u => if u = v then x else e u

/-- The order of a dictionary. -/
def lex : List Nat → List Nat → Ordering
  | [], [] => .eq
  | [], _ :: _ => .lt
  | _ :: _, [] => .gt
  | x :: xs, y :: ys => if x < y then .lt else if y < x then .gt else lex xs ys

/-- What thread `t` may read in variable `w`. -/
def read (own : Owner) (t : Nat) (e : Env) (w : Nat) : Option (List Nat) :=
  if own w = some t ∨ own w = none then e w else none

/-- Thread `t` may create variable `v`. -/
def fresh (own : Owner) (t : Nat) (e : Env) (v : Nat) : Bool := own v = some t ∧ e v = none

/-- Variable `v` is created with `x` if that is possible. -/
def create (own : Owner) (t : Nat) (e : Env) (v : Nat) (x : Option (List Nat)) : Env :=
  if fresh own t e v then store e v x else e

/-- One operation: the variables afterwards and what is observed. -/
def act (own : Owner) (t : Nat) (e : Env) : Op → Env × List Obs
  | .make v cs => (create own t e v (some (cs.takeWhile (· ≠ 0))), [])
  | .unmanaged v cs => (create own t e v (some (cs.takeWhile (· ≠ 0))), [])
  | .copy v w => (create own t e v (read own t e w), [])
  | .move v w =>
    match fresh own t e v && own w = some t, e w with
    | true, some x => (store (store e v (some x)) w (some []), [])
    | _, _ => (e, [])
  | .sub v w index count =>
    match fresh own t e v, read own t e w with
    | true, some x =>
      if 0 ≤ index ∧ index ≤ x.length ∧ 0 ≤ index + count ∧ index + count ≤ x.length then
        (store e v (some ((x.drop index.toNat).take count.toNat)), [])
      else (e, [.error])
    | _, _ => (e, [])
  | .concat v a b =>
    match fresh own t e v, read own t e a, read own t e b with
    | true, some x, some y => (store e v (some (x ++ y)), [])
    | _, _, _ => (e, [])
  | .insert v a index b =>
    match fresh own t e v, read own t e a, read own t e b with
    | true, some x, some y =>
      if 0 ≤ index ∧ index ≤ x.length then
        (store e v (some (x.take index.toNat ++ y ++ x.drop index.toNat)), [])
      else (e, [.error])
    | _, _, _ => (e, [])
  | .remove v a index count =>
    match fresh own t e v, read own t e a with
    | true, some x =>
      if 0 ≤ index ∧ index < x.length ∧ 0 ≤ index + count ∧ index + count ≤ x.length then
        (store e v (some (x.take index.toNat ++ x.drop (index + count).toNat)), [])
      else (e, [.error])
    | _, _ => (e, [])
  | .assign v w =>
    match (own v = some t ∧ (e v).isSome : Bool), read own t e w with
    | true, some x => (store e v (some x), [])
    | _, _ => (e, [])
  | .moveAssign v w =>
    match (own v = some t ∧ (e v).isSome ∧ own w = some t ∧ v ≠ w : Bool), e w with
    | true, some x => (store (store e v (some x)) w (some []), [])
    | _, _ => (e, [])
  | .destroy v => (if own v = some t then store e v none else e, [])
  | .at w index =>
    match read own t e w with
    | some x => if 0 ≤ index ∧ index < x.length then (e, [.text [x.getD index.toNat 0]]) else (e, [.error])
    | none => (e, [])
  | .length w =>
    match read own t e w with
    | some x => (e, [.number x.length])
    | none => (e, [])
  | .compare a b =>
    match read own t e a, read own t e b with
    | some x, some y => (e, [.order (lex x y)])
    | _, _ => (e, [])
  | .buffer w =>
    match read own t e w with
    | some x => (e, [.text (x ++ [0])])
    | none => (e, [])

/-- A whole program. -/
def alone (own : Owner) (t : Nat) : Env → List Op → Env × List Obs
  | e, [] => (e, [])
  | e, op :: prog =>
    let r := alone own t (act own t e op).1 prog
    (r.1, (act own t e op).2 ++ r.2)

end StrValues
end Spec

/-! ## What the memory of the threads means -/
namespace StrThreads
open Spec.StrValues (Env)

/-- The characters at an address, with the zero at the end. -/
def memChars (B : List Block) : Mem → List Nat
  | .lit cs => cs ++ [0]
  | .blk b => match B[b]? with
    | none => []
    | some k => k.chars

/-- The text of a string. -/
def text (B : List Block) (f : Fields) : List Nat := ((memChars B f.mem).drop f.start).take f.length

/-- The fields of a string are a range of characters of a buffer that ends with a zero. -/
structure FOk (B : List Block) (f : Fields) : Prop where
  size : (memChars B f.mem).length = f.real + 1
  zero : (memChars B f.mem).getD f.real 0 = 0
  inside : f.start + f.length ≤ f.real

/-- The variable shares block `b`. -/
def Slot.refers (b : Nat) : Slot → Bool
  | .live f => f.mem = .blk b
  | _ => false

/-- The number of variables that share block `b`. -/
def refs (s : State) (b : Nat) : Nat := s.vars.countP (Slot.refers b)

/-- Thread `t` may read variable `w`. -/
def Readable (own : Owner) (t w : Nat) : Prop := own w = some t ∨ own w = none

/-- No thread calls `Buffer()` on a shared string that has to be copied for that. -/
def Calm (own : Owner) (s : State) (th : Thread) : Prop :=
  ∀ w, Op.buffer w ∈ th.prog → own w = none → ∀ f, s.slot w = .live f → f.start + f.length = f.real

/-- The values of the variables. -/
def values (s : State) : Env := fun v =>
  match s.slot v with
  | .live f => some (text s.blocks f)
  | _ => none

/-- A state before the threads start: variables that share blocks, each counter is the number of variables that share the
block. -/
structure Fits (own : Owner) (s : State) : Prop where
  range : ∀ v t, own v = some t → v < s.vars.length
  fok : ∀ v f, s.slot v = .live f → FOk s.blocks f
  valid : ∀ v, s.slot v ≠ .stale
  blk : ∀ b k, s.blocks[b]? = some k → k.hasChars = true ∧ k.hasCounter = true ∧ k.counter = (refs s b : Int) ∧ 0 < refs s b
  idle : ∀ th ∈ s.threads, th.phase = .idle ∧ th.obs = []

/-- The thread has done everything. -/
def Thread.Finished (th : Thread) : Prop := th.prog = [] ∧ th.phase = .idle

end StrThreads
end Vlpp
