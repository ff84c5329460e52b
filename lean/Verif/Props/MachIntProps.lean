import Verif.Lemmas.MachInt
import Verif.Props.ListProps
import Verif.Props.SortedListProps

/-!
# Property C101: sizes and positions as numbers of 64 bits

`room` is the number of elements of the largest buffer that `malloc` returns.  That five times this number fits is true for every address
space of at most 60 bits.
-/
set_option autoImplicit false
namespace Vlpp
open Strings
variable {α κ : Type}

/-- The arguments of `RemoveRange` are not negative and the end of the range is a signed number of 64 bits. -/
def Spec.SeqOp.Safe : Spec.SeqOp α κ → Prop
  | .removeRange i n => 0 ≤ n ∧ i + n < 2 ^ 63
  | _ => True

theorem Spec.seqStep_length (eq : α → κ → Bool) (xs : List α) (op : Spec.SeqOp α κ) :
    (Spec.seqStep eq xs op).1.length ≤ xs.length + 1 := by
  cases op <;> simp only [Spec.seqStep]
  case add v => simp
  case insert i v => split <;> simp; omega
  case set i v => split <;> simp
  case remove k => split <;> simp; omega
  case removeAt i => split <;> simp; omega
  case removeRange i n => split <;> simp; omega
  case clear => simp
  case get i => split; · split <;> simp
                · simp
  all_goals simp

theorem Mach.run_ok {room : Int} (mv : Option α → Option α) (eq : α → κ → Bool) (hr : 5 * (room + 1) < 2 ^ 63)
    (ops : List (Spec.SeqOp α κ)) (hv : ∀ op ∈ ops, op.Safe) {l : ListC α} {xs : List α} (h : ListC.Repr l xs)
    (hc : l.capacity ≤ room) (hn : ((xs.length : Int) + ops.length) * 5 / 4 + 1 ≤ room) :
    Mach.run room mv eq l ops = ListC.run mv eq l ops := by
  induction ops generalizing l xs with
  | nil => rfl
  | cons op ops ih =>
    have hs := hv op (by simp)
    have hval : op.Valid := by cases op <;> first | exact hs.1 | trivial
    have hno : ¬ (op.EndOverflows xs.length ∨ (op.Adds xs.length ∧ Mach.Full room l.capacity xs.length)) := by
      rintro (g | g)
      · cases op <;> first | exact g | (have := hs.2; have := g.2.2; omega)
      · have := g.2.2
        simp only [List.length_cons] at hn
        omega
    obtain ⟨_, g⟩ := Mach.step_eq mv eq h (by omega) hc op (fun i n e => by subst e; exact hs.1)
    obtain ⟨g1, g2⟩ := g hno
    obtain ⟨l1, e1, h1⟩ := list_step_refines mv eq h op hval
    have hlen := Spec.seqStep_length eq xs op
    have := ih (fun o ho => hv o (by simp [ho])) h1 (g2 _ _ e1) (by simp only [List.length_cons] at hn; omega)
    simp only [Mach.run, ListC.run, g1, e1, Option.bind_eq_bind, Option.bind_some, this]

/-- **C101** (lists): if `malloc` returns buffers of 5/4 of the number of calls plus one, a history of calls, in which the ends of the ranges
to remove fit, computes no number outside 64 bits, and the caller sees what a mathematical sequence gives. -/
theorem C101_lists_partial {room : Int} (mv : Option α → Option α) (eq : α → κ → Bool) (hr : 5 * (room + 1) < 2 ^ 63)
    (ops : List (Spec.SeqOp α κ)) (hv : ∀ op ∈ ops, op.Safe) (hn : (ops.length : Int) * 5 / 4 + 1 ≤ room) :
    ∃ l, Mach.run room mv eq ListC.empty ops = some (l, (Spec.seqRun eq [] ops).2) := by
  have hval : ∀ op ∈ ops, op.Valid := by
    intro op ho
    have hs := hv op ho
    cases op <;> first | exact hs.1 | trivial
  rw [Mach.run_ok mv eq hr ops hv ListC.Repr.empty (by simp only [ListC.empty]; omega) (by simpa using hn)]
  exact C01_list_is_sequence mv eq ops hval

/-- A history on a machine with room for 8 elements; `RemoveRange` gets the largest number. -/
example : (∀ op ∈ ([.add 1, .add 2, .insert 1 7, .removeRange 0 (2 ^ 63 - 1), .removeRange 0 2] : List (Spec.SeqOp Nat Nat)), op.Safe) ∧
    (5 : Int) * (8 + 1) < 2 ^ 63 ∧ ((5 : Nat) : Int) * 5 / 4 + 1 ≤ 8 ∧
    (Spec.seqRun (· == ·) [] ([.add 1, .add 2, .insert 1 7, .removeRange 0 (2 ^ 63 - 1), .removeRange 0 2] :
      List (Spec.SeqOp Nat Nat))).2 = [.index 0, .index 1, .index 1, .error, .flag true] := by
  refine ⟨?_, by decide, by decide, by decide⟩
  intro op h
  simp at h
  rcases h with h | h | h | h | h <;> subst h <;> simp [Spec.SeqOp.Safe]

/-- **C101** (one call): on a list of at most `room` elements, a call computes a number outside 64 bits, or gets no memory, exactly if it
removes a range whose end does not fit or if it adds an element to a full buffer of which 5/4 are too much. Otherwise its result is that of unbounded
numbers, which C01 describes, and the list stays within `room`. -/
theorem C101_call {room : Int} (mv : Option α → Option α) (eq : α → κ → Bool) (hr : 5 * (room + 1) < 2 ^ 63) {l : ListC α} {xs : List α}
    (h : ListC.Repr l xs) (hc : l.capacity ≤ room) (op : Spec.SeqOp α κ) (hv : op.Valid) :
    (Mach.step room mv eq l op = none ↔ op.EndOverflows xs.length ∨
      (op.Adds xs.length ∧ l.capacity < (xs.length : Int) + 1 ∧ room < ((xs.length : Int) + 1) * 5 / 4 + 1)) ∧
    ∀ l' r, Mach.step room mv eq l op = some (l', r) →
      r = (Spec.seqStep eq xs op).2 ∧ ListC.Repr l' (Spec.seqStep eq xs op).1 ∧ l'.capacity ≤ room := by
  obtain ⟨g, g'⟩ := Mach.step_eq mv eq h (by omega) hc op (fun i n e => by subst e; exact hv)
  obtain ⟨l1, e1, h1⟩ := list_step_refines mv eq h op hv
  by_cases hb : op.EndOverflows xs.length ∨ (op.Adds xs.length ∧ Mach.Full room l.capacity xs.length)
  · exact ⟨⟨fun _ => hb, fun _ => g hb⟩, fun l' r e => by rw [g hb] at e; cases e⟩
  · obtain ⟨g1, g2⟩ := g' hb
    refine ⟨⟨fun e => ?_, fun e => (hb e).elim⟩, fun l' r e => ?_⟩
    · rw [g1, e1] at e; cases e
    · rw [g1, e1] at e
      injection e with e; injection e with e e'
      subst e; subst e'
      exact ⟨rfl, h1, g2 _ _ e1⟩

/-- The empty list and any history that ends without a failure meet the hypotheses. -/
example : ListC.Repr (ListC.empty : ListC Nat) [] ∧ (ListC.empty : ListC Nat).capacity ≤ 8 ∧
    (Spec.SeqOp.insert 0 5 : Spec.SeqOp Nat Nat).Valid ∧ ¬ (Spec.SeqOp.insert 0 5 : Spec.SeqOp Nat Nat).EndOverflows 0 ∧
    (Spec.SeqOp.insert 0 5 : Spec.SeqOp Nat Nat).Adds 0 :=
  ⟨ListC.Repr.empty, by decide, trivial, id, by decide, by decide⟩

/-- **C101 is violated** for `RemoveRange`: the check of the count adds it to the index before it compares.  Whenever the index is in range and not
0, `RemoveRange(index, 2^63 - 1)` is undefined behaviour, where a mathematical sequence gives an error. -/
theorem C101_removeRange_violated {room : Int} (mv : Option α → Option α) (eq : α → κ → Bool) (hr : 5 * (room + 1) < 2 ^ 63) {l : ListC α}
    {xs : List α} (h : ListC.Repr l xs) (hc : l.capacity ≤ room) (i : Int) (h0 : 0 < i) (h1 : i ≤ xs.length) :
    Mach.step room mv eq l (.removeRange i (2 ^ 63 - 1)) = none ∧
      (Spec.seqStep eq xs (.removeRange i (2 ^ 63 - 1))) = (xs, .error) ∧ Spec.Int64 i ∧ Spec.Int64 (2 ^ 63 - 1) := by
  have hle := h.le
  have hcnt := h.count
  refine ⟨((C101_call mv eq hr h hc (.removeRange i (2 ^ 63 - 1)) (by simp [Spec.SeqOp.Valid])).1).2 (.inl ⟨by omega, h1, by omega⟩), ?_,
    ⟨by omega, by omega⟩, by unfold Spec.Int64; omega⟩
  simp only [Spec.seqStep]
  rw [if_neg (by omega)]

/-- A list of one element. -/
example : ∃ l : ListC Nat, ListC.Repr l [5] ∧ l.capacity ≤ 8 := by
  obtain ⟨l, e, h⟩ := list_step_refines (some <| ·.getD 0) (fun a (b : Nat) => a == b) (ListC.Repr.empty (α := Nat)) (.add 5) trivial
  refine ⟨l, h, ?_⟩
  have := (Mach.step_eq (room := 8) (some <| ·.getD 0) (fun a (b : Nat) => a == b) ListC.Repr.empty (by decide) (by decide) (.add 5)
    (fun i n e => by cases e)).2 (by rintro (g | g); exact g; exact absurd g.2.2 (by decide))
  exact this.2 _ _ e

/-- **C101** (search): the positions that `SortedList::IndexOf` computes fit, for every list whose length does: `start + (end - start) / 2` does not
overflow where `(start + end) / 2` would.  The machine's search is the one of C07. -/
theorem C101_search (cmp : α → κ → Option Ordering) (k : κ) {l : ListC α} {xs : List α} (h : ListC.Repr l xs)
    (hl : Spec.Int64 xs.length) :
    Mach.searchLoop (ListC.readVal l.buffer) cmp k (xs.length + 1) 0 (l.count - 1) (-1) =
      searchLoop (ListC.readVal l.buffer) cmp k 0 (l.count - 1) (-1) ∧
    ((∃ r, Mach.searchLoop (ListC.readVal l.buffer) cmp k (xs.length + 1) 0 (l.count - 1) (-1) = .ok r ()) ∨
      Mach.searchLoop (ListC.readVal l.buffer) cmp k (xs.length + 1) 0 (l.count - 1) (-1) = .err ()) := by
  have hc := h.count
  obtain ⟨_, h2⟩ := hl
  have e := Mach.searchLoop_eq (ListC.readVal l.buffer) cmp k (xs.length + 1) 0 (l.count - 1) (-1) (by omega) (by omega) (by omega) (by omega)
  have := searchLoop_no_fault (ListC.readVal l.buffer) cmp k xs.length
    (fun i h0 h1 => by
      have := ListC.readVal_ok h i.toNat (by omega)
      rw [Int.toNat_of_nonneg h0] at this
      rw [this]; rfl) 0 (xs.length - 1) (-1) (by omega) (by omega)
  rw [e]
  rw [← hc] at this
  rcases this with g | ⟨r, i, g, _⟩
  · exact ⟨rfl, .inr g⟩
  · exact ⟨rfl, .inl ⟨_, g⟩⟩

example : Spec.Int64 ([3, 5, 8] : List Nat).length := by unfold Spec.Int64; decide

/-- **C101** (strings): `Sub` and `Remove` compute a number outside 64 bits exactly if the index is in range and the end is not a number of 64
bits; otherwise they are the functions of C37. -/
theorem C101_strings [Zero α] (s : Str α) (hl : Spec.Int64 s.length) (i n : Int) (hi : Spec.Int64 i) (hn : Spec.Int64 n) (hp : Heap α) :
    Mach.sub s i n hp = (if 0 ≤ i ∧ i ≤ s.length ∧ 2 ^ 63 ≤ i + n then .fault else sub s i n hp) ∧
    Mach.removeStr s i n hp = (if 0 ≤ i ∧ i < s.length ∧ 2 ^ 63 ≤ i + n then .fault else remove s i n hp) := by
  unfold Spec.Int64 at *
  constructor
  · unfold Mach.sub sub
    by_cases hc : i ≥ 0 ∧ i ≤ s.length
    · rw [Cpp.bind_ok (Cpp.check_true hc hp), Cpp.bind_ok (Cpp.check_true hc hp)]
      by_cases ho : 2 ^ 63 ≤ i + n
      · rw [if_pos ⟨hc.1, hc.2, ho⟩, Mach.fit_none (by omega)]; rfl
      · rw [if_neg (fun g => ho g.2.2), Mach.fit_ok (by omega) (by omega)]
    · rw [Cpp.bind_err (Cpp.check_false hc hp), Cpp.bind_err (Cpp.check_false hc hp), if_neg (fun g => hc ⟨g.1, g.2.1⟩)]
  · unfold Mach.removeStr remove
    by_cases hc : i ≥ 0 ∧ i < s.length
    · rw [Cpp.bind_ok (Cpp.check_true hc hp), Cpp.bind_ok (Cpp.check_true hc hp)]
      by_cases ho : 2 ^ 63 ≤ i + n
      · rw [if_pos ⟨hc.1, hc.2, ho⟩, Mach.fit_none (by omega)]; rfl
      · rw [if_neg (fun g => ho g.2.2), Mach.fit_ok (by omega) (by omega)]
    · rw [Cpp.bind_err (Cpp.check_false hc hp), Cpp.bind_err (Cpp.check_false hc hp), if_neg (fun g => hc ⟨g.1, g.2.1⟩)]

/-- **C101 is violated** for strings: `s.Sub(i, 2^63 - 1)`, the way to ask for "the rest", is undefined for every `i > 0` in range, and so is
`Remove`; with unbounded numbers both are errors. -/
theorem C101_strings_violated [Zero α] (s : Str α) (hl : Spec.Int64 s.length) (i : Int) (h0 : 0 < i) (h1 : i < s.length) (hp : Heap α) :
    Mach.sub s i (2 ^ 63 - 1) hp = .fault ∧ sub s i (2 ^ 63 - 1) hp = .err hp ∧
    Mach.removeStr s i (2 ^ 63 - 1) hp = .fault ∧ remove s i (2 ^ 63 - 1) hp = .err hp := by
  have hl' := hl
  unfold Spec.Int64 at hl'
  obtain ⟨g1, g2⟩ := C101_strings s hl i (2 ^ 63 - 1) ⟨by omega, by omega⟩ (by unfold Spec.Int64; decide) hp
  rw [if_pos ⟨by omega, by omega, by omega⟩] at g1
  rw [if_pos ⟨by omega, by omega, by omega⟩] at g2
  refine ⟨g1, ?_, g2, ?_⟩
  · unfold sub
    rw [Cpp.bind_ok (Cpp.check_true ⟨by omega, by omega⟩ hp), Cpp.bind_err (Cpp.check_false (by omega) hp)]
  · unfold remove
    rw [Cpp.bind_ok (Cpp.check_true ⟨by omega, by omega⟩ hp), Cpp.bind_err (Cpp.check_false (by omega) hp)]

/-- A string of three characters. -/
example : ∃ s : Str Nat, s.length = 3 ∧ Spec.Int64 s.length ∧ Mach.sub s 1 2 {} = sub s 1 2 {} ∧ Mach.sub s 1 (2 ^ 63 - 1) {} = .fault :=
  ⟨{ buffer := .foreign 0 [7, 8, 9, 0], length := 3, realLength := 3 }, rfl, by unfold Spec.Int64; decide, rfl,
    (C101_strings_violated _ (by unfold Spec.Int64; decide) 1 (by decide) (by decide) {}).1⟩

/-- **C101** (arrays of a trivially constructible type): `Array(size)` has the memory of its elements if `malloc` returns that many bytes; otherwise it has
less, and `Count()` is `size` all the same.  `limit` is the number of bytes `malloc` returns at most. -/
theorem C101_array {limit sizeofT size : Int} (h0 : 0 ≤ limit) (hl : limit < 2 ^ 64) (hs : 0 < sizeofT) (hz : 0 ≤ size) :
    ∃ n, Mach.newArray limit sizeofT size = .ok (n, size) () ∧ (sizeofT * size ≤ limit → n = size) ∧
      (limit < sizeofT * size → n < size) := by
  unfold Mach.newArray
  rw [if_pos hz]
  split
  · next h =>
    have : size = 0 := by omega
    subst this
    exact ⟨0, rfl, fun _ => rfl, fun g => by simp at g; omega⟩
  · next h =>
    unfold Mach.mallocBytes
    have hp : 0 ≤ sizeofT * size := Int.mul_nonneg (by omega) hz
    by_cases hb : sizeofT * size % 18446744073709551616 ≤ limit
    · simp only [hb, if_true]
      refine ⟨_, rfl, fun g => ?_, fun g => ?_⟩
      · rw [Int.emod_eq_of_lt hp (by omega)]
        exact Int.mul_ediv_cancel_left _ (by omega)
      · refine Int.ediv_lt_of_lt_mul hs ?_
        rw [Int.mul_comm] at g
        omega
    · simp only [hb, if_false]
      refine ⟨0, rfl, fun g => ?_, fun _ => by omega⟩
      rw [Int.emod_eq_of_lt hp (by omega)] at hb
      omega

/-- **C101 is violated** for arrays: `Array<vint32_t>(2^62 + 1)` succeeds on every machine that returns 4 bytes, with `Count()` of `2^62 + 1` and memory of one
element. -/
theorem C101_array_violated {limit : Int} (h : 4 ≤ limit) : Mach.newArray limit 4 (2 ^ 62 + 1) = .ok (1, 2 ^ 62 + 1) () := by
  have : (4 * (2 ^ 62 + 1) : Int) % 18446744073709551616 = 4 := by decide
  unfold Mach.newArray Mach.mallocBytes
  rw [if_pos (by decide), if_neg (by decide), this]
  simp only [h, if_true]
  rfl

example : (4 : Int) * 1000 ≤ 2 ^ 40 ∧ (2 ^ 40 : Int) < 4 * 2 ^ 62 := by decide

/-- **C101** (`Range`): the numbers of a range are produced if the end (one after the last) and what is before the first fit.  `fuel` bounds the calls of
`Next`. -/
theorem C101_range_partial {start count : Int} (h0 : -(2 ^ 63) < start) (hs : start < 2 ^ 63) (h1 : -(2 ^ 63) < start + count)
    (h2 : start + count < 2 ^ 63) {fuel : Nat} (hf : count.toNat < fuel) :
    Mach.range start count fuel = some (Spec.upFrom start count.toNat) := by
  unfold Mach.range Mach.rangeStart
  rw [Mach.fit_ok (by omega) (by omega)]
  simp only [Option.bind_eq_bind, Option.bind_some]
  rw [Mach.rangeLoop_ok start count (by omega) (by omega) (by omega) (by omega) count.toNat (start - 1) fuel (by omega) (by omega) hf]
  congr 2
  omega

example : Mach.range (2 ^ 63 - 3) 2 5 = some [2 ^ 63 - 3, 2 ^ 63 - 2] :=
  C101_range_partial (by decide) (by decide) (by decide) (by decide) (by decide)

/-- **C101 is violated** for `Range`: a range that starts at the smallest number, or that ends at the largest, is undefined though all its
elements fit. -/
theorem C101_range_violated {start count : Int} (hc : 0 < count) :
    (start = -(2 ^ 63) → Mach.rangeStart start = none) ∧
    (-(2 ^ 63) < start → start + count = 2 ^ 63 → Mach.rangeNext start count (start - 1) = none ∧
      ∀ x ∈ Spec.upFrom start count.toNat, Spec.Int64 x) := by
  refine ⟨fun e => Mach.fit_none (by omega), fun h0 e => ⟨?_, fun x hx => ?_⟩⟩
  · unfold Mach.rangeNext
    rw [Mach.fit_ok (by omega) (by omega), Mach.fit_none (x := start + count) (by omega)]
    simp
  · simp only [Spec.upFrom, List.mem_map, List.mem_range] at hx
    obtain ⟨i, hi, rfl⟩ := hx
    unfold Spec.Int64
    omega

/-- `Range(2^63 - 1, 1)`: one element, the largest number. -/
example : (0 : Int) < 1 ∧ (2 ^ 63 - 1 : Int) + 1 = 2 ^ 63 ∧ Spec.upFrom (2 ^ 63 - 1) (1 : Int).toNat = [2 ^ 63 - 1] := by decide

/-- **C101** (`Take`): the test of `Take(count)` is that of unbounded numbers for every count but the smallest number, for which it is
undefined. -/
theorem C101_take (index count : Int) (h : Spec.Int64 count) :
    Mach.takeStops index count = if count = -(2 ^ 63) then none else some (decide (count ≤ index + 1)) := by
  unfold Spec.Int64 at h
  unfold Mach.takeStops
  split
  · rw [Mach.fit_none (by omega)]; rfl
  · rw [Mach.fit_ok (by omega) (by omega)]
    simp only [Option.bind_eq_bind, Option.bind_some, pure, Option.some.injEq, decide_eq_decide]
    omega

example : Mach.takeStops (-1) 0 = some true ∧ Spec.Int64 0 ∧ Mach.takeStops (-1) (-(2 ^ 63)) = none := by
  refine ⟨by decide, by unfold Spec.Int64; decide, by decide⟩

end Vlpp
