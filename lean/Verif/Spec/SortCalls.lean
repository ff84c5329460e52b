import Verif.Model.SortEff

/-! # What sorting with effects and exceptions may do -/
set_option autoImplicit false
namespace Vlpp
namespace Spec
open QSortE
variable {α σ : Type}

/-- the number of calls of the comparer -/
def comparisons : List (Ev α) → Nat
  | [] => 0
  | .cmp _ _ _ :: t => comparisons t + 1
  | .copy _ _ :: t => comparisons t

/-- the number of copies of elements -/
def copies : List (Ev α) → Nat
  | [] => 0
  | .cmp _ _ _ :: t => copies t
  | .copy _ _ :: t => copies t + 1

/-- the call threw an exception -/
def Threw (e : Ev α) : Prop := (∃ a b, e = .cmp a b .threw) ∨ ∃ a, e = .copy a false

/-- the call was about elements of `xs` -/
def About (xs : List α) : Ev α → Prop
  | .cmp a b _ => a ∈ xs ∧ b ∈ xs
  | .copy a _ => a ∈ xs

/-- The calls (the latest first) happened one after the other: they lead from state `s` to state `s'`. -/
def Plays (E : Env α σ) (s : σ) : List (Ev α) → σ → Prop
  | [], s' => s' = s
  | .cmp a b r :: t, s' => ∃ s1, Plays E s t s1 ∧ E.cmp s1 a b = (r, s')
  | .copy a d :: t, s' => ∃ s1, Plays E s t s1 ∧ E.copy s1 a = (d, s')

/-- `ys` has the elements of `xs`, but one was overwritten by a copy of another. -/
def Overwritten (xs ys : List α) : Prop :=
  ∃ (zs : List α) (i j : Nat) (b : α), zs.Perm xs ∧ i < zs.length ∧ i ≠ j ∧ zs[j]? = some b ∧ ys = zs.set i b

/-- What is known of every end of sorting `xs`: the calls, and what `xs` became. -/
def SortLeaves (pre xs post : List α) (calls : List (Ev α)) (buf : List α) (P : List α → Prop) : Prop :=
  comparisons calls ≤ xs.length * (xs.length - 1) ∧ copies calls ≤ 3 * (xs.length * (xs.length - 1)) ∧
    (∀ e ∈ calls, About xs e) ∧ ∃ ys, buf = pre ++ ys ++ post ∧ P ys

/-- How sorting `xs` inside `pre ++ xs ++ post` may end if the program was in state `s`. -/
def SortEnds (E : Env α σ) (s : σ) (pre xs post : List α) : Res α σ Nat → Prop
  | .fault => False
  | .ok depth st => Plays E s st.trace st.s ∧ SortLeaves pre xs post st.trace st.buf (·.Perm xs) ∧
      (∀ e ∈ st.trace, ¬ Threw e) ∧ depth ≤ Nat.log2 xs.length + 1
  | .error st => Plays E s st.trace st.s ∧ SortLeaves pre xs post st.trace st.buf (·.Perm xs) ∧
      ∃ a b earlier, st.trace = .cmp a b .unordered :: earlier ∧ ∀ e ∈ earlier, ¬ Threw e
  | .thrown st => Plays E s st.trace st.s ∧ ∃ e earlier, st.trace = e :: earlier ∧ Threw e ∧ (∀ e ∈ earlier, ¬ Threw e) ∧
      SortLeaves pre xs post st.trace st.buf (fun ys => ys.Perm xs ∨ (∃ a, e = .copy a false) ∧ Overwritten xs ys)

end Spec
end Vlpp
