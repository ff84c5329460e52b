import Verif.Lemmas.TupleWorld

/-!
# C89: tuples and pairs as objects

Elements that are values are objects of the tuple; elements that are references denote the objects given for them.  Programs
(sequences of declarations, constructions of tuples, copies, moves, assignments, reads, comparisons of addresses and ends of
scopes) get from the code what `Spec/TupleObj.lean` says, except for two kinds of statements: moving values out of a tuple of
references, and assigning or moving between tuples where an element refers to another element of one of them.
-/
set_option autoImplicit false
namespace Vlpp
open Spec.Tup

/-- Every program that the specification allows runs without undefined behaviour and returns what the specification says,
and afterwards exactly the objects of the specification exist, with the values of the specification.
Missing from the full claim: statements that are not `Plain` (see `C89_violated_move`, `C89_violated_swap`,
`C89_violated_shift`). -/
theorem C89_tuples_partial {α : Type} (mv : Option α → Option α) (ops : List (Op α)) (st : State α) (rs : List (Ret α))
    (hplain : AllPlain mv start ops) (h : run mv start ops = some (st, rs)) :
    ∃ (w : TupleWorld α) (addr : Loc → Nat), TupleWorld.run mv ops .start = .ok rs w ∧
      (∀ l v, st.val l = some v → w.mem.cell (addr l) = some v) ∧
      (∀ l l', (st.val l).isSome → (st.val l').isSome → addr l = addr l' → l = l') ∧
      (∀ a v, w.mem.cell a = some v → ∃ l, addr l = a ∧ st.val l = some v) := by
  obtain ⟨w, e, addr, hc, _⟩ := TupleWorld.run_ok mv ops TupleWorld.start_matches hplain h
  refine ⟨w, addr, e, hc.mem.cell, fun l l' h1 h2 q => ?_, fun a v ha => ?_⟩
  · obtain ⟨v1, e1⟩ := TupleWorld.isSome_of h1
    obtain ⟨v2, e2⟩ := TupleWorld.isSome_of h2
    exact hc.mem.inj l l' v1 v2 e1 e2 q
  · obtain ⟨l, v', hv, q⟩ := hc.mem.live a v ha
    have := hc.mem.cell l v' hv
    rw [q, ha] at this
    rw [this]
    exact ⟨l, q, hv⟩

/-- Copying (not moving) into a new tuple is always plain: copies of tuples are right without further hypotheses. -/
theorem C89_copies_plain {α : Type} (st : State α) (t : Nat) (ks : List Kind) (s : Nat) :
    Plain st (.makeFrom t ks s false : Op α) := fun _ _ h => nomatch h

/-- Elements that are references are the objects given for them: any assignment to a variable is seen through any tuple
that refers to it, and the other way round. -/
theorem C89_alias {α : Type} (mv : Option α → Option α) (x t : Nat) (a b : α) (c : Bool) :
    ∃ w, TupleWorld.run mv [.var x a, .make t [.ref c] [.lvalue (.var x)], .same (.get t 0) (.var x), .assign (.var x) b,
      .read (.get t 0), .assign (.get t 0) a, .read (.var x)] .start =
      .ok [.done, .done, .flag true, .done, .value (some b), .done, .value (some a)] w := by
  obtain ⟨st, h⟩ : ∃ st, run mv start [.var x a, .make t [.ref c] [.lvalue (.var x)], .same (.get t 0) (.var x), .assign (.var x) b,
      .read (.get t 0), .assign (.get t 0) a, .read (.var x)] =
      some (st, [.done, .done, .flag true, .done, .value (some b), .done, .value (some a)]) :=
    ⟨_, by simp [run, step, start, put, locate, elemLoc, slotLoc, evalArgs, initOneByOne, slotsOf, setSlots, forget, isTemp,
      Slot.without, Option.filter]; rfl⟩
  obtain ⟨w, _, e, _⟩ := C89_tuples_partial mv _ st _ (by exact ⟨trivial, fun _ _ _ => ⟨trivial, fun _ _ _ => ⟨trivial, fun _ _ _ => ⟨trivial,
    fun _ _ _ => ⟨trivial, fun _ _ _ => ⟨trivial, fun _ _ _ => ⟨trivial, fun _ _ _ => trivial⟩⟩⟩⟩⟩⟩⟩) h
  exact ⟨w, e⟩

/-- Moving from an object leaves 0 in it. -/
private def zero : Option Nat → Option Nat := fun _ => some 0

/-- The values that a run of the code reads. -/
private def codeReads (ops : List (Op Nat)) : Option (List (Ret Nat)) :=
  match TupleWorld.run zero ops .start with
  | .ok rs _ => some (rs.filter fun r => r ≠ .done)
  | _ => none

/-- The values that the specification says. -/
private def specReads (ops : List (Op Nat)) : Option (List (Ret Nat)) :=
  (run zero start ops).map fun p => p.2.filter fun r => r ≠ .done

/-- Not always: making `Tuple<T, T>` from `Tuple<T&, T>&&` moves the value out of the object that the reference denotes, which
is not a part of the tuple moved from (Tuple.h 151 `std::move` of an lvalue of another object; also 36):
`T x(5); Tuple<T&, T> s(x, T(7)); Tuple<T, T> t(std::move(s));` changes `x`. -/
theorem C89_violated_move : ∃ ops : List (Op Nat),
    specReads ops = some [.value (some 5), .value (some 5)] ∧ codeReads ops = some [.value (some 0), .value (some 5)] :=
  ⟨[.var 0 5, .make 0 [.ref false, .value] [.lvalue (.var 0), .temp 7], .makeFrom 1 [.value, .value] 0 true, .read (.var 0),
    .read (.get 1 0)], by decide +kernel⟩

/-- The same for `t = std::move(s);`. -/
theorem C89_violated_move_assign : ∃ ops : List (Op Nat),
    specReads ops = some [.value (some 5), .value (some 5)] ∧ codeReads ops = some [.value (some 0), .value (some 5)] :=
  ⟨[.var 0 5, .make 0 [.ref false, .value] [.lvalue (.var 0), .temp 7], .make 1 [.value, .value] [.temp 1, .temp 2],
    .assignFrom 1 0 true, .read (.var 0), .read (.get 1 0)], by decide +kernel⟩

/-- Not always: elements are assigned one after the other (Tuple.h 155-164), so that
`Tuple<T, T> p(1, 2); p = Tuple<T&, T&>(p.get<1>(), p.get<0>());` does not swap. -/
theorem C89_violated_swap : ∃ ops : List (Op Nat),
    specReads ops = some [.value (some 2), .value (some 1)] ∧ codeReads ops = some [.value (some 2), .value (some 2)] :=
  ⟨[.make 0 [.value, .value] [.temp 1, .temp 2], .make 1 [.ref false, .ref false] [.lvalue (.get 0 1), .lvalue (.get 0 0)],
    .assignFrom 0 1 false, .read (.get 0 0), .read (.get 0 1)], by decide +kernel⟩

/-- Not always: if an element refers to an earlier element of the tuple moved from, it gets what the earlier move left (Tuple.h
149-153): `Tuple<T, const T&> s` with the second element referring to the first, `Tuple<T, T> t(std::move(s));`. -/
theorem C89_violated_shift : ∃ ops : List (Op Nat),
    specReads ops = some [.value (some 1), .value (some 1)] ∧ codeReads ops = some [.value (some 1), .value (some 0)] :=
  ⟨[.make 0 [.value, .value] [.temp 1, .temp 2], .make 1 [.value, .ref true] [.temp 1, .lvalue (.get 0 0)],
    .make 2 [.value, .ref true] [.lvalue (.get 1 0), .lvalue (.get 1 0)], .assignFrom 1 2 false,
    .makeFrom 3 [.value, .value] 1 true, .read (.get 3 0), .read (.get 3 1)], by decide +kernel⟩

/-! ### Concrete cases -/

/-- a program with values, references and constant references, copies, moves and assignments -/
private def sample : List (Op Nat) :=
  [.var 0 1, .var 1 2, .make 0 [.ref false, .value] [.lvalue (.var 0), .lvalue (.var 1)],
   .makeFrom 1 [.value, .ref true] 0 false, .assign (.get 0 1) 9, .read (.get 1 1), .read (.var 1),
   .same (.get 1 1) (.get 0 1), .make 2 [.ref false, .value] [.lvalue (.var 1), .temp 4], .assignFrom 0 2 true,
   .same (.get 0 0) (.var 1), .read (.get 0 1), .read (.get 2 1), .drop 2, .drop 0, .endVar 0, .read (.get 1 0)]

example : specReads sample = some [.value (some 9), .value (some 2), .flag true, .flag true, .value (some 4), .value (some 0),
    .value (some 1)] ∧ codeReads sample = specReads sample := by decide +kernel

/-- after this program the second element of tuple 1 dangles: reading it is not allowed, and it is undefined -/
example : specReads (sample ++ [.read (.get 1 1)]) = none ∧ codeReads (sample ++ [.read (.get 1 1)]) = none := by decide +kernel

/-- a reference to a temporary object dangles: Tuple.h 63-67 takes its address -/
example : specReads [.make 0 [.ref true] [.temp 1], .read (.get 0 0)] = none ∧
    codeReads [.make 0 [.ref true] [.temp 1], .read (.get 0 0)] = none := by decide +kernel

/-- all statements are plain if the tuples have no references -/
example (t s : Nat) (n : Nat) (st : State Nat) (h : st.slots s = some (List.replicate n .value))
    (ht : st.slots t = some (List.replicate n .value)) (hts : t ≠ s) : Plain st (.assignFrom t s true) := by
  intro srcs sl h1 h2
  rw [h, Option.some.injEq] at h1
  rw [ht, Option.some.injEq] at h2
  subst h1 h2
  refine ⟨?_, fun _ => ⟨?_, ?_⟩⟩
  · rintro ⟨i, j, hij, hi, hj, he, _⟩
    simp only [elemLoc, List.getElem?_replicate] at he
    by_cases q : j < n <;> simp [q, slotLoc] at he
    exact hts he.1.symm
  · rintro ⟨i, l, _, hl⟩
    rw [List.getElem?_replicate] at hl
    by_cases q : i < n <;> simp [q] at hl
  · rintro ⟨i, j, hij, hi, hj, he, hs⟩
    simp only [elemLoc, ownLoc, List.getElem?_replicate] at he hs
    by_cases q : j < n <;> by_cases q2 : i < n <;> simp [q, q2, slotLoc] at he hs
    omega

end Vlpp
