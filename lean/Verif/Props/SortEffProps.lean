import Verif.Lemmas.SortEff
import Verif.Spec.SortCalls
import Verif.Props.SortProps

/-!
# Property C97: sorting with comparers and elements that have effects and throw

The whole claim would be: whatever the comparer and the copies of elements do, sorting ends, is never undefined, calls
the comparer at most n(n-1) times and only with elements of the part that is sorted, passes on the first exception, and
*always* leaves a permutation.  The last part fails if a copy of an element throws (`C97_violated_copy`).
-/
set_option autoImplicit false
namespace Vlpp
open QSortE
variable {α σ : Type}

namespace QSortE

theorem countP_cmp (t : List (Ev α)) : t.countP Ev.isCmp = Spec.comparisons t := by
  induction t with
  | nil => rfl
  | cons e t ih => cases e <;> simp [List.countP_cons, Ev.isCmp, Spec.comparisons, ih]

theorem countP_copy (t : List (Ev α)) : t.countP Ev.isCopy = Spec.copies t := by
  induction t with
  | nil => rfl
  | cons e t ih => cases e <;> simp [List.countP_cons, Ev.isCopy, Spec.copies, ih]

theorem quiet_iff (e : Ev α) : e.quiet ↔ ¬ Spec.Threw e := by
  cases e with
  | cmp a b r => cases r <;> simp [Ev.quiet, Spec.Threw]
  | copy a d => cases d <;> simp [Ev.quiet, Spec.Threw]

theorem At.mem {pre xs post : List α} {a : α}
    (h : At (pre ++ xs ++ post) (pre.length : Int) ((pre.length : Int) + xs.length) a) : a ∈ xs := by
  obtain ⟨k, h1, h2, e⟩ := h
  rw [QSort.read, if_pos (by omega), List.append_assoc, List.getElem?_append_right (by omega),
    List.getElem?_append_left (by omega)] at e
  exact List.mem_of_getElem? e

theorem Trace.leaves {pre xs post buf : List α} {n : Nat} {evs : List (Ev α)} {P : List α → Prop} (hn : n = xs.length)
    (t : Trace (pre ++ xs ++ post) (pre.length : Int) ((pre.length : Int) + xs.length) (n * (n - 1)) (3 * (n * (n - 1))) evs)
    (h : ∃ ys, buf = pre ++ ys ++ post ∧ P ys) : Spec.SortLeaves pre xs post evs buf P := by
  subst hn
  refine ⟨by rw [← countP_cmp]; exact t.cmps, by rw [← countP_copy]; exact t.copies, ?_, h⟩
  intro e he
  have := t.inside e he
  cases e with
  | cmp a b r => exact ⟨this.1.mem, this.2.mem⟩
  | copy a d => exact At.mem this

theorem Dmg.split {pre xs post buf' : List α}
    (h : Dmg (pre ++ xs ++ post) buf' (pre.length : Int) ((pre.length : Int) + xs.length)) :
    ∃ ys, buf' = pre ++ ys ++ post ∧ Spec.Overwritten xs ys := by
  obtain ⟨mid, i, j, b, w, g1, g2, g3, g4, g5, g6, hb, rfl⟩ := h
  obtain ⟨zs, rfl, hp⟩ := w.split
  have hl := hp.length_eq
  refine ⟨zs.set (i.toNat - pre.length) b, ?_, zs, i.toNat - pre.length, j.toNat - pre.length, b, hp, by omega, by omega,
    ?_, rfl⟩
  · rw [List.append_assoc, List.set_append_right _ _ (by omega), List.set_append_left _ _ (by omega), List.append_assoc]
  · rw [QSort.read, if_pos (by omega), List.append_assoc, List.getElem?_append_right (by omega),
      List.getElem?_append_left (by omega)] at hb
    exact hb

end QSortE

/-- **C97 (partial).** For every comparer and every copying of elements (with any effects, any answers, throwing
whenever they like), every buffer and every part `xs` of it: sorting `xs` ends and is never undefined; the comparer is
called at most n(n-1) times and elements are copied at most 3n(n-1) times, all of them elements of `xs`; if no call
threw, it returns, or raises an Error right after an unordered answer; a call that throws is the last one and its
exception leaves `Sort`; in all cases the rest of the buffer is unchanged, and `xs` was replaced by a permutation of
`xs`, except that after an exception of *copying an element* one element may have been overwritten by another. -/
theorem C97_sort_effects_partial (E : Env α σ) (pre xs post : List α) (s : σ) :
    ∃ r, QSortE.sort E pre.length xs.length 0 ⟨pre ++ xs ++ post, s, []⟩ = some r ∧ Spec.SortEnds E s pre xs post r := by
  obtain ⟨r, e, h⟩ := sort_post E xs.length pre.length xs.length 0 ⟨pre ++ xs ++ post, s, []⟩ rfl (by omega)
    (by simp; omega)
  refine ⟨r, e, ?_⟩
  cases r with
  | fault => exact h
  | ok d st =>
    obtain ⟨w, hd, evs, e1, y, t, p⟩ := h
    simp only [List.append_nil] at e1
    obtain ⟨ys, e2, hp⟩ := w.split
    refine ⟨by rw [e1]; exact y, ?_, ?_, ?_⟩
    · rw [e1]; exact t.leaves rfl ⟨ys, e2, hp⟩
    · intro e he
      rw [e1] at he
      exact (quiet_iff e).1 (p e he)
    · unfold QSort.depthBound at hd
      split at hd <;> omega
  | error st =>
    obtain ⟨w, a, b, evs, e1, y, t, p⟩ := h
    simp only [List.append_nil] at e1
    obtain ⟨ys, e2, hp⟩ := w.split
    refine ⟨by rw [e1]; exact y, ?_, a, b, evs, e1, fun e he => (quiet_iff e).1 (p e he)⟩
    rw [e1]; exact t.leaves rfl ⟨ys, e2, hp⟩
  | thrown st =>
    obtain ⟨e0, evs, e1, y, t, p, n, w⟩ := h
    simp only [List.append_nil] at e1
    refine ⟨by rw [e1]; exact y, e0, evs, e1, ?_, fun e he => (quiet_iff e).1 (p e he), ?_⟩
    · exact Classical.byContradiction fun h => n ((quiet_iff e0).2 h)
    · rw [e1]
      refine t.leaves rfl ?_
      rcases w with w | ⟨c, w⟩
      · obtain ⟨ys, e2, hp⟩ := w.split
        exact ⟨ys, e2, .inl hp⟩
      · obtain ⟨ys, e2, hp⟩ := w.split
        refine ⟨ys, e2, .inr ⟨?_, hp⟩⟩
        cases e0 with
        | cmp a b r => cases c
        | copy a d =>
          cases d with
          | true => exact absurd rfl n
          | false => exact ⟨a, rfl⟩

/-- a comparer that counts its calls and throws at the third -/
def impatient : Env Nat Nat where
  cmp s a b := (if s = 2 then .threw else .ord (Ord.compare a b), s + 1)
  copy s _ := (true, s)

example : ∃ r, QSortE.sort impatient 1 4 0 ⟨[9, 3, 1, 2, 4, 0], 0, []⟩ = some r ∧ Spec.SortEnds impatient 0 [9] [3, 1, 2, 4] [0] r :=
  C97_sort_effects_partial impatient [9] [3, 1, 2, 4] [0] 0

/-- **C97, sorting.** If the comparer's answers follow a total preorder and copying does not throw, then whatever else
the comparer does (counting its calls, logging, …): sorting returns, and the part is sorted. -/
theorem C97_sort_effects_sorts {E : Env α σ} {ord : α → α → Ordering} [Std.TransCmp ord]
    (hc : ∀ s a b, (E.cmp s a b).1 = .ord (ord a b)) (hm : ∀ s a, (E.copy s a).1 = true) (pre xs post : List α) (s : σ) :
    ∃ depth st ys, QSortE.sort E pre.length xs.length 0 ⟨pre ++ xs ++ post, s, []⟩ = some (.ok depth st) ∧
      st.buf = pre ++ ys ++ post ∧ ys.Perm xs ∧ ys.Pairwise (fun x y => ord x y ≠ .gt) := by
  obtain ⟨d, ys, e, hp, hs⟩ := C15_sort (cmp := fun a b => some (ord a b)) (ord := ord) (fun _ _ => rfl) pre xs post
  have h := sort_pure (E := E) (cmp := fun a b => some (ord a b)) ⟨hc, hm⟩ xs.length pre.length xs.length 0
    ⟨pre ++ xs ++ post, s, []⟩ rfl (by omega) (by simp; omega)
  obtain ⟨st, e1, e2⟩ := map_erase_ok (h.trans e)
  exact ⟨d, st, ys, e1, e2, hp, hs⟩

example : ∃ depth st ys, QSortE.sort (⟨fun s a b => (.ord (Ord.compare a b), s + 1), fun s _ => (true, s)⟩ : Env Nat Nat) 1 4 0
      ⟨[9, 3, 1, 2, 4, 0], 0, []⟩ = some (.ok depth st) ∧
    st.buf = [9] ++ ys ++ [0] ∧ ys.Perm [3, 1, 2, 4] ∧ ys.Pairwise (fun x y => Ord.compare x y ≠ .gt) :=
  C97_sort_effects_sorts (fun _ _ _ => rfl) (fun _ _ => rfl) [9] [3, 1, 2, 4] [0] 0

namespace QSortE
variable {E : Env α σ}

/-- the buffer did not change and there were `k` more comparisons -/
def Adds (st st' : St α σ) (k : Nat) : Prop :=
  st'.buf = st.buf ∧ Spec.comparisons st'.trace = Spec.comparisons st.trace + k

/-- in the window the comparer answers "less" for every two elements in their order -/
def Asc (E : Env α σ) (buf : List α) (lo hi : Int) : Prop :=
  ∀ i j a b, lo ≤ i → i < j → j < hi → QSort.read buf i = some a → QSort.read buf j = some b →
    ∀ s, (E.cmp s a b).1 = .ord .lt

theorem compare_adds {a b : α} (hc : ∀ s, (E.cmp s a b).1 = .ord .lt) (st : St α σ) :
    ∃ st', (compare E a b st).1 = .ord .lt ∧ (compare E a b st).2 = st' ∧ Adds st st' 1 :=
  ⟨_, hc _, rfl, rfl, rfl⟩

theorem partLoop_lt {base length : Int} (hb : 0 ≤ base) :
    ∀ (n : Nat) (right : Int) (st : St α σ), base + length ≤ st.buf.length → Asc E st.buf base (base + length) → 0 ≤ right → right + 1 + n = length →
      ∃ st', partLoop E base length 0 0 right false st = some (.ok (0, 0, length - 1) st') ∧ Adds st st' n := by
  intro n
  induction n with
  | zero =>
    intro right st hl ha h0 hn
    refine ⟨st, ?_, rfl, rfl⟩
    rw [partLoop, if_neg (by omega), show right = length - 1 by omega]
  | succ n ih =>
    intro right st hl ha h0 hn
    obtain ⟨p, hp⟩ := QSort.read_some (buf := st.buf) (k := base + 0) (by omega) (by omega)
    obtain ⟨c, hc'⟩ := QSort.read_some (buf := st.buf) (k := base + (length - right - 1)) (by omega) (by omega)
    rw [partLoop_eq E (by omega) hp (by simpa using hc')]
    obtain ⟨st1, e1, e2, a1⟩ := compare_adds (ha _ _ _ _ (by omega) (by omega) (by omega) hp hc') st
    obtain ⟨st2, e3, a2⟩ := ih (right + 1) st1 (by rw [a1.1]; exact hl) (by rw [a1.1]; exact ha) (by omega) (by omega)
    refine ⟨st2, ?_, a2.1.trans a1.1, ?_⟩
    · rw [e1, e2]
      simp only [partCont]
      simpa using e3
    · have := a1.2; have := a2.2; omega

theorem rightLoop_lt {base length : Int} (hb : 0 ≤ base) :
    ∀ (n : Nat) (reading : Int) (st : St α σ), base + length ≤ st.buf.length → Asc E st.buf base (base + length) → 1 ≤ reading → reading + n = length →
      ∃ st', rightLoop E base length 0 reading 1 st = some (.ok (length - 1) st') ∧ Adds st st' n := by
  intro n
  induction n with
  | zero =>
    intro reading st hl ha h0 hn
    exact ⟨st, by rw [rightLoop, if_neg (by omega)], rfl, rfl⟩
  | succ n ih =>
    intro reading st hl ha h0 hn
    obtain ⟨p, hp⟩ := QSort.read_some (buf := st.buf) (k := base + 0) (by omega) (by omega)
    obtain ⟨c, hc'⟩ := QSort.read_some (buf := st.buf) (k := base + reading) (by omega) (by omega)
    rw [rightLoop_eq E (by omega) hp hc']
    obtain ⟨st1, e1, e2, a1⟩ := compare_adds (ha _ _ _ _ (by omega) (by omega) (by omega) hp hc') st
    obtain ⟨st2, e3, a2⟩ := ih (reading + 1) st1 (by rw [a1.1]; exact hl) (by rw [a1.1]; exact ha) (by omega) (by omega)
    refine ⟨st2, ?_, a2.1.trans a1.1, ?_⟩
    · rw [e1, e2]; exact e3
    · have := a1.2; have := a2.2; omega

theorem partition_lt {base length : Int} (hb : 0 ≤ base) (hl : 0 < length)
    (st : St α σ) (hbuf : base + length ≤ st.buf.length) (ha : Asc E st.buf base (base + length)) :
    ∃ st', partition E base length st = some (.ok (0, length - 1) st') ∧ Adds st st' (2 * (length.toNat - 1)) := by
  obtain ⟨st1, e1, a1⟩ := partLoop_lt hb (length.toNat - 1) 0 st hbuf ha (by omega) (by omega)
  obtain ⟨st2, e2, a2⟩ := rightLoop_lt hb (length.toNat - 1) 1 st1 (by rw [a1.1]; exact hbuf)
    (by rw [a1.1]; exact ha) (by omega) (by omega)
  refine ⟨st2, ?_, a2.1.trans a1.1, ?_⟩
  · have e3 : leftLoop E base 0 (0 - 1) (0 - 1) st1 = some (.ok 0 st1) := by rw [leftLoop, if_neg (by omega)]; rfl
    rw [partition_eq E e1]
    simp only [next, e3, Option.bind_some, show length - (length - 1) = 1 by omega, e2]
  · have := a1.2; have := a2.2; omega

theorem sort_lt :
    ∀ (n : Nat) (base length : Int) (d : Nat) (st : St α σ), length = n → 0 ≤ base → base + length ≤ st.buf.length →
      Asc E st.buf base (base + length) →
      ∃ d' st', sort E base length d st = some (.ok d' st') ∧ Adds st st' (n * (n - 1)) := by
  intro n
  induction n with
  | zero =>
    intro base length d st hn hb hl ha
    exact ⟨d, st, by rw [sort, if_pos (by omega)], rfl, rfl⟩
  | succ n ih =>
    intro base length d st hn hb hl ha
    obtain ⟨st1, e1, a1⟩ := partition_lt hb (by omega) st hl ha
    rw [sort_eq E (by omega) e1]
    have hz : ∀ b d (st : St α σ), sort E b 0 d st = some (.ok d st) := fun b d st => by rw [sort, if_pos rfl]
    obtain ⟨d2, st2, e2, a2⟩ := ih (base + length - (length - 1)) (length - 1) (max d (0 + 1)) st1 (by omega) (by omega)
      (by rw [a1.1]; omega) (by
        rw [a1.1]
        intro i j a b h1 h2 h3
        exact ha i j a b (by omega) h2 (by omega))
    have hk : (n + 1) * (n + 1 - 1) = 2 * (length.toNat - 1) + n * (n - 1) := by
      rw [show length.toNat - 1 = n by omega]
      cases n with
      | zero => rfl
      | succ k =>
        simp only [Nat.add_sub_cancel]
        rw [Nat.add_mul (k + 1) 1, Nat.mul_add (k + 1) k 1]
        omega
    by_cases hlt : (0 : Int) < length - 1
    · refine ⟨d2, st2, ?_, a2.1.trans a1.1, ?_⟩
      · simp only [next, if_pos hlt, hz, Option.bind_some]
        exact e2
      · have := a1.2; have := a2.2; omega
    · have hn0 : n = 0 := by omega
      subst hn0
      refine ⟨max d (0 + 1), st1, ?_, a1.1, ?_⟩
      · simp only [next, show length - 1 = 0 by omega, hz, Option.bind_some, ite_self]
      · have := a1.2; omega

end QSortE

/-- **C97, the bound is reached.** On a part whose elements are in strictly ascending order already, sorting n elements
calls the comparer exactly n(n-1) times. -/
theorem C97_sorted_input_quadratic {E : Env α σ} (pre xs post : List α) (s : σ)
    (hc : xs.Pairwise fun a b => ∀ s, (E.cmp s a b).1 = .ord .lt) :
    ∃ depth st, QSortE.sort E pre.length xs.length 0 ⟨pre ++ xs ++ post, s, []⟩ = some (.ok depth st) ∧
      st.buf = pre ++ xs ++ post ∧ Spec.comparisons st.trace = xs.length * (xs.length - 1) := by
  obtain ⟨d, st, e, h1, h2⟩ := sort_lt (E := E) xs.length pre.length xs.length 0 ⟨pre ++ xs ++ post, s, []⟩ rfl (by omega)
    (by simp; omega) (by
      intro i j a b g1 g2 g3 ha hb
      rw [QSort.read, if_pos (by omega), List.append_assoc, List.getElem?_append_right (by omega),
        List.getElem?_append_left (by omega)] at ha hb
      obtain ⟨k1, rfl⟩ := List.getElem?_eq_some_iff.1 ha
      obtain ⟨k2, rfl⟩ := List.getElem?_eq_some_iff.1 hb
      exact List.pairwise_iff_getElem.1 hc _ _ k1 k2 (by omega))
  exact ⟨d, st, e, h1, by rw [h2]; simp [Spec.comparisons]⟩

example : ∃ depth st, QSortE.sort (⟨fun s a b => (.ord (Ord.compare a b), s), fun s _ => (true, s)⟩ : Env Nat Unit) 0 3 0
      ⟨[1, 2, 3], (), []⟩ = some (.ok depth st) ∧ st.buf = [1, 2, 3] ∧ Spec.comparisons st.trace = 6 :=
  C97_sorted_input_quadratic [] [1, 2, 3] [] () (by
    simp only [List.pairwise_cons, List.mem_cons, List.not_mem_nil, or_false, forall_const, Answer.ord.injEq]
    refine ⟨?_, ?_, ?_, .nil⟩
    · rintro b (rfl | rfl) <;> decide
    · rintro b rfl; decide
    · intro b h; cases h)

/-- a comparer that orders numbers; the copy number `k` throws (the state is the number of copies so far) -/
def copyThrows (k : Nat) : Env Nat Nat where
  cmp s a b := (.ord (Ord.compare a b), s)
  copy s _ := (decide (s + 1 ≠ k), s + 1)

/-- **C97 is violated by copies that throw.** Sorting `b, a` with `a < b`: if the third copy of an element throws, the
exception leaves `Sort` and the list is `a, a`: the element `b` is lost. -/
theorem C97_violated_copy {a b : Nat} (h : a < b) :
    ∃ st, QSortE.sort (copyThrows 3) 0 2 0 ⟨[b, a], 0, []⟩ = some (.thrown st) ∧ st.buf = [a, a] ∧
      ¬ st.buf.Perm [b, a] := by
  have hgt : Ord.compare b a = .gt := Nat.compare_eq_gt.2 h
  have e0 : ∃ st, partLoop (copyThrows 3) 0 2 0 0 0 false ⟨[b, a], 0, []⟩ = some (.thrown st) ∧ st.buf = [a, a] := by
    rw [partLoop_eq (copyThrows 3) (p := b) (c := a) (by decide) (by rfl) (by rfl)]
    simp only [QSortE.compare, copyThrows, hgt, partCont]
    exact ⟨_, rfl, rfl⟩
  obtain ⟨st, e1, e2⟩ := e0
  refine ⟨st, ?_, e2, ?_⟩
  · rw [sort_eq (copyThrows 3) (by decide) (partition_eq (copyThrows 3) e1)]
    rfl
  · rw [e2]
    intro hp
    have : b ∈ [a, a] := hp.mem_iff.2 (by simp)
    simp at this
    omega

example : ∃ st, QSortE.sort (copyThrows 3) 0 2 0 ⟨[2, 1], 0, []⟩ = some (.thrown st) ∧ st.buf = [1, 1] ∧
    ¬ st.buf.Perm [2, 1] :=
  C97_violated_copy (by decide)

end Vlpp
