import Verif.Model.ArrayC
import Verif.Lemmas.ListC

/-!
# Property C05: `Array<T>`
-/
set_option autoImplicit false
namespace Vlpp
namespace ArrayC
variable {α κ : Type}
open Mem

/-- `a` stores exactly `ys`: the whole buffer consists of live objects with these contents. -/
structure Repr (a : ArrayC α) (ys : List (Option α)) : Prop where
  size : a.buffer.size = a.count
  count : a.count = ys.length
  live : ∀ i, 0 ≤ i → i < a.count → a.buffer.cell i = .obj (ys[i.toNat]?.getD none)

theorem mem_some {β : Type} {r : MemRes β} {v : β} (h : r = some v) (s : ArrayC α) : mem r s = .ok v s := by
  simp [mem, h]

theorem Repr.null : Repr (ArrayC.null : ArrayC α) [] :=
  ⟨rfl, rfl, fun i h0 h1 => by simp [ArrayC.null] at h1; omega⟩

theorem new_ok (d : Option α) (n : Nat) : ∃ a, new d n = .ok a () ∧ Repr a (List.replicate n d) := by
  obtain ⟨b, e1, e2, e3⟩ := callDefaultCtors_ok d (allocateBuffer (n : Int)) 0 n
    (fun j h0 h1 => ⟨⟨h0, by rw [allocateBuffer_size]; omega⟩, by simp [Cell.isRaw]⟩)
  refine ⟨⟨b, n⟩, by simp [new, e1], ⟨?_, by simp, ?_⟩⟩
  · simp only; rw [e2, allocateBuffer_size]; omega
  · intro i h0 h1
    simp only at h1 ⊢
    rw [e3, if_pos (by omega), List.getElem?_replicate, if_pos (by omega)]
    rfl

theorem new_err (d : Option α) (n : Int) (hn : n < 0) : new d n = .err () := by
  simp [new]; omega

theorem copyFrom_ok (src : Int → Option α) (b : Block α) (n : Nat) (hb : (n : Int) ≤ b.size)
    (hr : ∀ j, b.cell j = .raw) :
    ∃ b', copyFrom b src n = some b' ∧ b'.size = b.size ∧
      ∀ j, b'.cell j = if 0 ≤ j ∧ j < n then .obj (src j) else .raw := by
  induction n with
  | zero => exact ⟨b, rfl, rfl, fun j => by rw [hr, if_neg (by omega)]⟩
  | succ n ih =>
    obtain ⟨b', e1, e2, e3⟩ := ih (by omega)
    refine ⟨b'.upd n (.obj (src n)), ?_, by simp [e2], ?_⟩
    · simp only [copyFrom, e1, Option.bind_eq_bind, Option.bind_some]
      exact construct_ok ⟨by omega, by omega⟩ (by rw [e3, if_neg (by omega)]; rfl)
    · intro j
      rw [upd_cell, e3]
      by_cases h : j = n
      · subst h; rw [if_pos rfl, if_pos (by omega)]
      · rw [if_neg h]; ifsolve

theorem newFrom_ok (src : Int → Option α) (n : Nat) :
    ∃ a, newFrom src n = .ok a () ∧ Repr a ((List.range n).map (fun (i : Nat) => src i)) := by
  obtain ⟨b, e1, e2, e3⟩ := copyFrom_ok src (allocateBuffer (n : Int)) n (by rw [allocateBuffer_size]; omega)
    (fun j => allocateBuffer_cell ..)
  refine ⟨⟨b, n⟩, by simp [newFrom, e1], ⟨?_, by simp, ?_⟩⟩
  · simp only; rw [e2, allocateBuffer_size]; omega
  · intro i h0 h1
    simp only at h1 ⊢
    rw [e3, if_pos (by omega), List.getElem?_map, List.getElem?_range (by omega)]
    simp; congr 1; omega

theorem destructor_ok {a : ArrayC α} {ys : List (Option α)} (h : Repr a ys) : destructor a = .ok () a := by
  have hs := h.size
  have hc := h.count
  obtain ⟨b, e1, e2, e3⟩ := callDtors_ok a.buffer 0 a.count.toNat
    (fun j hj1 hj2 => ⟨⟨by omega, by omega⟩, by rw [h.live j (by omega) (by omega)]; rfl⟩)
  have hd : deallocateBuffer b = some () := by
    apply deallocateBuffer_ok
    intro i hi
    have hi1 := hi.1
    have hi2 := hi.2
    rw [e3, if_pos (by omega)]
    rfl
  unfold destructor
  rw [Cpp.bind_ok (Cpp.get_apply a)]
  split
  · rw [Cpp.bind_ok (mem_some e1 a), mem_some hd a]
  · rfl

theorem readVal_eq {a : ArrayC α} {ys : List (Option α)} (h : Repr a ys) (i : Nat) (hi : i < ys.length) :
    ListC.readVal a.buffer i = ys[i] := by
  have hs := h.size
  have hc := h.count
  unfold ListC.readVal Mem.read
  rw [if_pos ⟨by omega, by omega⟩, h.live i (by omega) (by omega)]
  simp only [Int.toNat_natCast, List.getElem?_eq_getElem hi, Option.getD_some]
  cases ys[i] <;> rfl

theorem setAt_ok {a : ArrayC α} {ys : List (Option α)} (h : Repr a ys) (i : Int) (v : α) (h0 : 0 ≤ i)
    (h1 : i < ys.length) : ∃ a', setAt i v a = .ok true a' ∧ Repr a' (ys.set i.toNat (some v)) := by
  have hs := h.size
  have hc := h.count
  have ha : assign a.buffer i (some v) = some (a.buffer.upd i (.obj (some v))) :=
    assign_ok ⟨h0, by omega⟩ (by rw [h.live i h0 (by omega)]; rfl)
  refine ⟨⟨a.buffer.upd i (.obj (some v)), a.count⟩, ?_, ⟨by simp [hs], by simp [hc], ?_⟩⟩
  · unfold setAt
    rw [Cpp.bind_ok (Cpp.get_apply a), Cpp.bind_ok (Cpp.check_true (by omega) a), Cpp.bind_ok (mem_some ha a)]
    rfl
  · intro j hj1 hj2
    simp only at hj2 ⊢
    rw [upd_cell]
    split
    · next e => subst e; rw [List.getElem?_set_self (by omega)]; rfl
    · rw [List.getElem?_set_ne (by omega), h.live j hj1 hj2]

theorem resize_ok (mv : Option α → Option α) (d : Option α) {a : ArrayC α} {ys : List (Option α)} (h : Repr a ys)
    (n : Nat) : ∃ a', resize mv d n a = .ok true a' ∧
      Repr a' (ys.take n ++ List.replicate (n - ys.length) d) := by
  have hs := h.size
  have hc := h.count
  have hliveR : ∀ j, 0 ≤ j → j < a.count → (a.buffer.cell j).isRaw = false := by
    intro j h0 h1; rw [h.live j h0 h1]; rfl
  have hstep : ∃ nb old, (show MemRes (Block α × Block α) from
      if (n : Int) < a.count then callMoveCtorsTo mv (allocateBuffer (n : Int)) a.buffer 0 0 (n : Int).toNat
      else do
        let (newBuffer, old) ← callMoveCtorsTo mv (allocateBuffer (n : Int)) a.buffer 0 0 a.count.toNat
        let newBuffer ← callDefaultCtors d newBuffer a.count ((n : Int) - a.count).toNat
        return (newBuffer, old)) = some (nb, old) ∧ nb.size = n ∧ old.size = a.count ∧
      (∀ j : Int, 0 ≤ j → j < n → nb.cell j =
        .obj ((ys.take n ++ List.replicate (n - ys.length) d)[j.toNat]?.getD none)) ∧
      (∀ j, 0 ≤ j → j < a.count → (old.cell j).isRaw = false) := by
    simp only
    split
    · next hlt =>
      obtain ⟨d1, s1, e1, e2, e3, e4, e5⟩ := callMoveCtorsTo_ok mv (allocateBuffer (n : Int)) a.buffer 0 0
        (n : Int).toNat
        (fun j hj1 hj2 => ⟨⟨by omega, by rw [allocateBuffer_size]; omega⟩, by simp [Cell.isRaw]⟩)
        (fun j hj1 hj2 => ⟨⟨by omega, by omega⟩, hliveR j (by omega) (by omega)⟩)
      refine ⟨d1, s1, e1, by rw [e2, allocateBuffer_size]; omega, by omega, ?_, ?_⟩
      · intro j h0 h1
        rw [e4, if_pos (by omega), h.live _ (by omega) (by omega), List.getElem?_append_left (by simp; omega),
          List.getElem?_take_of_lt (by omega)]
        simp
      · intro j h0 h1
        rw [e5]
        split
        · rw [mvCell_isRaw]; exact hliveR j h0 h1
        · exact hliveR j h0 h1
    · next hge =>
      obtain ⟨d1, s1, e1, e2, e3, e4, e5⟩ := callMoveCtorsTo_ok mv (allocateBuffer (n : Int)) a.buffer 0 0
        a.count.toNat
        (fun j hj1 hj2 => ⟨⟨by omega, by rw [allocateBuffer_size]; omega⟩, by simp [Cell.isRaw]⟩)
        (fun j hj1 hj2 => ⟨⟨by omega, by omega⟩, hliveR j (by omega) (by omega)⟩)
      obtain ⟨d2, f1, f2, f3⟩ := callDefaultCtors_ok d d1 a.count ((n : Int) - a.count).toNat
        (fun j hj1 hj2 => ⟨⟨by omega, by rw [e2, allocateBuffer_size]; omega⟩, by
          rw [e4, if_neg (by omega), allocateBuffer_cell]; rfl⟩)
      refine ⟨d2, s1, by simp [e1, f1], by rw [f2, e2, allocateBuffer_size]; omega, by omega, ?_, ?_⟩
      · intro j h0 h1
        rw [f3, List.take_of_length_le (by omega)]
        split
        · rw [List.getElem?_append_right (by omega), List.getElem?_replicate, if_pos (by omega)]
          rfl
        · rw [e4, if_pos (by omega), h.live _ (by omega) (by omega), List.getElem?_append_left (by omega)]
          simp
      · intro j h0 h1
        rw [e5]
        split
        · rw [mvCell_isRaw]; exact hliveR j h0 h1
        · exact hliveR j h0 h1
  obtain ⟨nb, old, g1, g2, g3, g4, g5⟩ := hstep
  obtain ⟨b, e1, e2, e3⟩ := callDtors_ok old 0 a.count.toNat
    (fun j hj1 hj2 => ⟨⟨by omega, by omega⟩, g5 j (by omega) (by omega)⟩)
  have hd : deallocateBuffer b = some () := by
    apply deallocateBuffer_ok
    intro i hi
    have hi1 := hi.1
    have hi2 := hi.2
    rw [e3, if_pos (by omega)]
    rfl
  refine ⟨⟨nb, n⟩, ?_, ⟨g2, by simp; omega, g4⟩⟩
  unfold resize
  rw [Cpp.bind_ok (Cpp.get_apply a), Cpp.bind_ok (Cpp.check_true (by omega) a)]
  simp only at g1 ⊢
  rw [Cpp.bind_ok (mem_some g1 a)]
  simp only
  rw [Cpp.bind_ok (mem_some e1 a), Cpp.bind_ok (mem_some hd a)]
  rfl

theorem indexOfLoop_eq {a : ArrayC α} {ys : List (Option α)} (h : Repr a ys) (eq : α → κ → Bool) (k : κ)
    (n i : Nat) (hin : i + n = ys.length) :
    ListC.indexOfLoop eq a.buffer k i n = Spec.arrIndexOf eq k i (ys.drop i) := by
  induction n generalizing i with
  | zero =>
    have : ys.drop i = [] := by rw [List.drop_eq_nil_iff]; omega
    simp [ListC.indexOfLoop, this, Spec.arrIndexOf]
  | succ n ih =>
    have hi : i < ys.length := by omega
    rw [List.drop_eq_getElem_cons hi]
    simp only [ListC.indexOfLoop, readVal_eq h i hi]
    cases hy : ys[i] with
    | none => rfl
    | some v =>
      simp only [Spec.arrIndexOf, Option.bind_eq_bind, Option.bind_some]
      split
      · rfl
      · rw [← ih (i + 1) (by omega)]; rfl

theorem step_refines (mv : Option α → Option α) (eq : α → κ → Bool) (d : Option α) {a : ArrayC α}
    {ys : List (Option α)} (h : Repr a ys) (op : Spec.ArrOp α κ) :
    match Spec.arrStep eq d ys op with
    | some (ys', r) => ∃ a', step mv eq d a op = some (a', r) ∧ Repr a' ys'
    | none => step mv eq d a op = none := by
  have hc := h.count
  cases op with
  | set i v =>
    simp only [Spec.arrStep, step]
    split
    · next ys' r he =>
      split at he
      · next hi =>
        cases he
        obtain ⟨a', e, h'⟩ := setAt_ok h i v hi.1 hi.2
        exact ⟨a', by simp [e, observe], h'⟩
      · next hi =>
        cases he
        refine ⟨a, ?_, h⟩
        unfold setAt
        rw [Cpp.bind_ok (Cpp.get_apply a), Cpp.bind_err (Cpp.check_false (by omega) a)]
        rfl
    · next he => split at he <;> cases he
  | get i =>
    simp only [Spec.arrStep, step]
    unfold get
    rw [Cpp.bind_ok (Cpp.get_apply a)]
    by_cases h0 : 0 ≤ i
    · rw [if_pos h0]
      by_cases h1 : i.toNat < ys.length
      · rw [Cpp.bind_ok (Cpp.check_true (by omega) a), List.getElem?_eq_getElem h1]
        have := readVal_eq h i.toNat h1
        rw [Int.toNat_of_nonneg h0] at this
        rw [this]
        cases ys[i.toNat] with
        | none => rfl
        | some v => exact ⟨a, rfl, h⟩
      · rw [Cpp.bind_err (Cpp.check_false (by omega) a), List.getElem?_eq_none (by omega)]
        exact ⟨a, rfl, h⟩
    · rw [if_neg h0, Cpp.bind_err (Cpp.check_false (by omega) a)]
      exact ⟨a, rfl, h⟩
  | count => exact ⟨a, by simp [step, hc], h⟩
  | resize n =>
    simp only [Spec.arrStep, step]
    by_cases h0 : 0 ≤ n
    · rw [if_pos h0]
      obtain ⟨a', e, h'⟩ := resize_ok mv d h n.toNat
      rw [Int.toNat_of_nonneg h0] at e
      exact ⟨a', by simp [e, observe], h'⟩
    · rw [if_neg h0]
      refine ⟨a, ?_, h⟩
      unfold resize
      rw [Cpp.bind_ok (Cpp.get_apply a), Cpp.bind_err (Cpp.check_false (by omega) a)]
      rfl
  | indexOf k =>
    simp only [Spec.arrStep, step]
    unfold indexOf
    rw [Cpp.bind_ok (Cpp.get_apply a)]
    have := indexOfLoop_eq h eq k ys.length 0 (by omega)
    rw [show a.count.toNat = ys.length by omega]
    rw [show ((0 : Nat) : Int) = 0 from rfl, List.drop_zero] at this
    rw [this]
    cases Spec.arrIndexOf eq k 0 ys with
    | none => rfl
    | some i => exact ⟨a, rfl, h⟩

theorem run_refines (mv : Option α → Option α) (eq : α → κ → Bool) (d : Option α) (ops : List (Spec.ArrOp α κ))
    {a : ArrayC α} {ys : List (Option α)} (h : Repr a ys) :
    match Spec.arrRun eq d ys ops with
    | some (ys', rs) => ∃ a', run mv eq d a ops = some (a', rs) ∧ Repr a' ys'
    | none => run mv eq d a ops = none := by
  induction ops generalizing a ys with
  | nil => exact ⟨a, rfl, h⟩
  | cons op ops ih =>
    have hs := step_refines mv eq d h op
    simp only [Spec.arrRun, run]
    cases he : Spec.arrStep eq d ys op with
    | none => rw [he] at hs; simp only at hs; simp [hs]
    | some r =>
      obtain ⟨ys1, r1⟩ := r
      rw [he] at hs
      obtain ⟨a1, e1, h1⟩ := hs
      have hr := ih h1
      simp only [e1, Option.bind_eq_bind, Option.bind_some]
      cases hr' : Spec.arrRun eq d ys1 ops with
      | none => rw [hr'] at hr; simp only at hr; simp [hr]
      | some r =>
        obtain ⟨ys2, rs⟩ := r
        rw [hr'] at hr
        obtain ⟨a2, e2, h2⟩ := hr
        exact ⟨a2, by simp [e2], h2⟩

end ArrayC
open ArrayC

variable {α κ : Type}

/-- **C05.** An array constructed with `n` elements, under any history of `Get`, `Set`, `Count`, `IndexOf` and
`Resize`, gives exactly the results of the sequence specification (`Resize(m)` keeps the first `min n m` elements,
out-of-range indexes and negative sizes are errors that change nothing).  It is undefined exactly where the
specification reads an element that was never given a value.  Afterwards the array can be destroyed without leaking. -/
theorem C05_array (mv : Option α → Option α) (eq : α → κ → Bool) (d : Option α) (n : Nat)
    (ops : List (Spec.ArrOp α κ)) :
    ∃ a0, ArrayC.new d n = .ok a0 () ∧
    match Spec.arrRun eq d (List.replicate n d) ops with
    | some (_, rs) => ∃ a, ArrayC.run mv eq d a0 ops = some (a, rs) ∧ destructor a = .ok () a
    | none => ArrayC.run mv eq d a0 ops = none := by
  obtain ⟨a0, e0, h0⟩ := new_ok d n
  refine ⟨a0, e0, ?_⟩
  have := ArrayC.run_refines mv eq d ops h0
  cases hs : Spec.arrRun eq d (List.replicate n d) ops with
  | none => rw [hs] at this; exact this
  | some r =>
    obtain ⟨ys, rs⟩ := r
    rw [hs] at this
    obtain ⟨a, e, h⟩ := this
    exact ⟨a, e, destructor_ok h⟩

/-- The same for `Array(const T*, size)`: the initial contents are the first `size` source elements. -/
theorem C05_array_from (mv : Option α → Option α) (eq : α → κ → Bool) (d : Option α) (src : Int → Option α) (n : Nat)
    (ops : List (Spec.ArrOp α κ)) :
    ∃ a0, ArrayC.newFrom src n = .ok a0 () ∧
    match Spec.arrRun eq d ((List.range n).map (fun (i : Nat) => src i)) ops with
    | some (_, rs) => ∃ a, ArrayC.run mv eq d a0 ops = some (a, rs) ∧ destructor a = .ok () a
    | none => ArrayC.run mv eq d a0 ops = none := by
  obtain ⟨a0, e0, h0⟩ := newFrom_ok src n
  refine ⟨a0, e0, ?_⟩
  have := ArrayC.run_refines mv eq d ops h0
  cases hs : Spec.arrRun eq d ((List.range n).map (fun (i : Nat) => src i)) ops with
  | none => rw [hs] at this; exact this
  | some r =>
    obtain ⟨ys, rs⟩ := r
    rw [hs] at this
    obtain ⟨a, e, h⟩ := this
    exact ⟨a, e, destructor_ok h⟩

/-- Constructing an array with a negative size is an error. -/
theorem C05_array_negative_size (d : Option α) (src : Int → Option α) (n : Int) (hn : n < 0) :
    ArrayC.new d n = .err () ∧ ArrayC.newFrom src n = .err () := by
  constructor <;> simp [ArrayC.new, ArrayC.newFrom] <;> omega

theorem arrStep_defined (eq : α → κ → Bool) (v : α) (ys : List (Option α)) (h : ∀ y ∈ ys, y ≠ none)
    (op : Spec.ArrOp α κ) : ∃ ys' r, Spec.arrStep eq (some v) ys op = some (ys', r) ∧ ∀ y ∈ ys', y ≠ none := by
  have hidx : ∀ (k : κ) (zs : List (Option α)) (i : Nat), (∀ y ∈ zs, y ≠ none) →
      (Spec.arrIndexOf eq k i zs).isSome := by
    intro k zs
    induction zs with
    | nil => intro i _; rfl
    | cons z zs ih =>
      intro i hz
      cases z with
      | none => exact absurd rfl (hz none (by simp))
      | some v =>
        simp only [Spec.arrIndexOf]
        split
        · rfl
        · exact ih _ (fun y hy => hz y (by simp [hy]))
  cases op with
  | set i w =>
    simp only [Spec.arrStep]
    split
    · refine ⟨_, _, rfl, fun y hy => ?_⟩
      rcases List.mem_or_eq_of_mem_set hy with h1 | h1
      · exact h y h1
      · rw [h1]; simp
    · exact ⟨_, _, rfl, h⟩
  | get i =>
    simp only [Spec.arrStep]
    split
    · cases hg : ys[i.toNat]? with
      | none => exact ⟨_, _, rfl, h⟩
      | some o =>
        cases o with
        | none => exact absurd rfl (h none (List.mem_of_getElem? hg))
        | some w => exact ⟨_, _, rfl, h⟩
    · exact ⟨_, _, rfl, h⟩
  | count => exact ⟨_, _, rfl, h⟩
  | resize n =>
    simp only [Spec.arrStep]
    split
    · refine ⟨_, _, rfl, fun y hy => ?_⟩
      rcases List.mem_append.1 hy with h1 | h1
      · exact h y (List.mem_of_mem_take h1)
      · rw [(List.mem_replicate.1 h1).2]; simp
    · exact ⟨_, _, rfl, h⟩
  | indexOf k =>
    simp only [Spec.arrStep]
    obtain ⟨i, hi⟩ := Option.isSome_iff_exists.1 (hidx k ys 0 h)
    rw [hi]
    exact ⟨_, _, rfl, h⟩

theorem arrRun_defined (eq : α → κ → Bool) (v : α) (ops : List (Spec.ArrOp α κ)) (ys : List (Option α))
    (h : ∀ y ∈ ys, y ≠ none) : (Spec.arrRun eq (some v) ys ops).isSome := by
  induction ops generalizing ys with
  | nil => rfl
  | cons op ops ih =>
    obtain ⟨ys', r, e, h'⟩ := arrStep_defined eq v ys h op
    have := ih ys' h'
    obtain ⟨q, hq⟩ := Option.isSome_iff_exists.1 this
    simp [Spec.arrRun, e, hq]

/-- For element types whose default constructor gives a value, no history on an array is undefined. -/
theorem C05_array_safe (mv : Option α → Option α) (eq : α → κ → Bool) (v : α) (n : Nat)
    (ops : List (Spec.ArrOp α κ)) :
    ∃ a0 a ys rs, ArrayC.new (some v) n = .ok a0 () ∧
      Spec.arrRun eq (some v) (List.replicate n (some v)) ops = some (ys, rs) ∧
      ArrayC.run mv eq (some v) a0 ops = some (a, rs) := by
  obtain ⟨a0, e0, h⟩ := C05_array mv eq (some v) n ops
  have hd := arrRun_defined eq v ops (List.replicate n (some v))
    (fun y hy => by rw [(List.mem_replicate.1 hy).2]; simp)
  obtain ⟨⟨ys, rs⟩, hr⟩ := Option.isSome_iff_exists.1 hd
  rw [hr] at h
  obtain ⟨a, e, _⟩ := h
  exact ⟨a0, a, ys, rs, e0, hr, e⟩

example : Spec.arrRun (κ := Nat) (· == ·) (some 0) (List.replicate 2 (some 0))
    [.set 1 7, .resize 4, .get 1, .get 3, .get 4, .resize 1, .count, .resize (-1)] =
    some ([some 0], [.flag true, .flag true, .value 7, .value 0, .error, .flag true, .index 1, .error]) := by decide

end Vlpp
