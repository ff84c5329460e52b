import Verif.Lemmas.StrHeap
import Verif.Spec.Str

/-! # Each function of `ObjectString`, on the heap -/
set_option autoImplicit false
namespace Vlpp
namespace Strings
open Spec.Str (upToZero)

variable {α : Type} [Zero α]

/-- `m` makes a string with characters `xs` beside the strings `L`. -/
def Makes (m : Cpp (Heap α) (Str α)) (h : Heap α) (L : List (Str α)) (xs : List α) : Prop :=
  ∃ t h', m h = .ok t h' ∧ Inv h' (t :: L) ∧ chars h' t = xs ∧ Extends h h'

omit [Zero α] in
theorem newCells_eq {n : Int} (hn : 0 ≤ n) (h : Heap α) :
    newCells n h = .ok (([] : List α).map some ++ List.replicate n.toNat none) h := by
  unfold newCells
  rw [if_pos hn]
  rfl

omit [Zero α] in
theorem put_eq (xs ys : List α) (n : Nat) {off : Int} (ho : off = xs.length) (hy : ys.length ≤ n) (h : Heap α) :
    put (xs.map some ++ List.replicate n none) off ys h
      = .ok ((xs ++ ys).map some ++ List.replicate (n - ys.length) none) h := by
  unfold put
  subst ho
  rw [if_pos (by simp; omega)]
  simp [List.drop_append]

omit [Zero α] in
theorem newBuffer_eq (xs : List α) {n : Nat} (hn : n = 0) (h : Heap α) :
    newBuffer (xs.map some ++ List.replicate n none) h
      = .ok (.heap h.bufs.length) { h with bufs := h.bufs ++ [some xs] } := by
  subst hn
  unfold newBuffer
  have e : (xs.map some ++ List.replicate 0 none : List (Option α)).filterMap id = xs := by
    simp [List.filterMap_map]
  rw [if_pos (by simp), e]

theorem empty_readable (h : Heap α) : Readable h ({} : Str α) :=
  ⟨by simp, by simp, by simp, [0], rfl, by simp, by simp⟩

theorem makes_empty {h : Heap α} {L : List (Str α)} (i : Inv h L) : Makes (pure {}) h L [] :=
  ⟨{}, h, rfl, i.cons_uncounted (empty_readable h) rfl (by simp), by simp [chars], Extends.refl h⟩

theorem extends_of_bufs {h h' : Heap α} (e : h'.bufs = h.bufs) : Extends h h' :=
  fun p _ x => (mem_bufs e p).trans x

theorem makes_copy {h : Heap α} {L : List (Str α)} (i : Inv h L) {s : Str α} (hs : s ∈ L) :
    Makes (copyCtor s) h L (chars h s) := by
  obtain ⟨h', e1, e2, e3⟩ := inc_spec i hs rfl rfl (i.good s hs).1
  refine ⟨s, h', ?_, e3, chars_of_mem (mem_bufs e2 _), extends_of_bufs e2⟩
  unfold copyCtor
  rw [Cpp.bind_ok e1]; rfl

theorem makes_copy_empty {h : Heap α} {L : List (Str α)} (i : Inv h L) : Makes (copyCtor {}) h L (chars h {}) := by
  obtain ⟨t, h', e1, e2, e3, e4⟩ := makes_empty i
  refine ⟨t, h', e1, e2, ?_, e4⟩
  rw [e3]; simp [chars]

theorem makes_sub {h : Heap α} {L : List (Str α)} (i : Inv h L) {s : Str α} (hs : s ∈ L) {index n : Int}
    (h0 : 0 ≤ index) (h1 : index + n ≤ s.length) :
    Makes (subUnsafe s index n) h L (((chars h s).drop index.toNat).take n.toNat) := by
  unfold subUnsafe
  by_cases hn : n ≤ 0
  · rw [if_pos hn]
    have : n.toNat = 0 := by omega
    rw [this, List.take_zero]
    exact makes_empty i
  · rw [if_neg hn]
    have r := (i.good s hs).1
    have r' : Readable h { s with start := s.start + index, length := n } := by
      have := r.1; have := r.2; have := r.3
      exact ⟨by show 0 ≤ s.start + index; omega, by show 0 ≤ n; omega,
        by show s.start + index + n ≤ s.realLength; omega, r.4⟩
    obtain ⟨h', e1, e2, e3⟩ := inc_spec (t := { s with start := s.start + index, length := n }) i hs rfl rfl r'
    refine ⟨_, h', by rw [Cpp.bind_ok e1]; rfl, e3, ?_, extends_of_bufs e2⟩
    rw [chars_of_mem (mem_bufs e2 _)]
    have := r.1
    simp only [chars]
    rw [List.drop_take, List.drop_drop, List.take_take]
    have e1 : s.start.toNat + index.toNat = (s.start + index).toNat := by omega
    rw [e1]
    congr 1
    omega

theorem makes_grown {h : Heap α} {L : List (Str α)} (i : Inv h L) {m : Cpp (Heap α) (Str α)} {xs : List α} {n : Int}
    (hn : n = xs.length)
    (e : m h = .ok ⟨.heap h.bufs.length, some h.ctrs.length, 0, n, n⟩ (grown h (xs ++ [0]))) : Makes m h L xs := by
  obtain ⟨a, b⟩ := grown_spec i (xs ++ [0]) n (by omega) (by subst hn; simp)
  exact ⟨_, _, e, a, by rw [b]; subst hn; simp, grown_extends _ _⟩

theorem makes_replace {h : Heap α} {L : List (Str α)} (i : Inv h L) {s t : Str α} {index count : Int}
    (rs : Readable h s) (rt : Readable h t) (h0 : 0 ≤ index) (h1 : index ≤ s.length) (h2 : 0 ≤ index + count)
    (h3 : index + count ≤ s.length)
    (ms : t.length = 0 → count = 0 → Makes (copyCtor s) h L (chars h s))
    (mt : index = 0 → count = s.length → Makes (copyCtor t) h L (chars h t)) :
    Makes (replaceUnsafe s t index count) h L
      ((chars h s).take index.toNat ++ chars h t ++ (chars h s).drop (index + count).toNat) := by
  have ls := chars_length rs
  have lt := chars_length rt
  unfold replaceUnsafe
  by_cases c1 : t.length = 0 ∧ count = 0
  · rw [if_pos c1]
    have e : chars h t = [] := List.eq_nil_of_length_eq_zero (by omega)
    have e2 : (index + count).toNat = index.toNat := by omega
    rw [e, List.append_nil, e2, List.take_append_drop]
    exact ms c1.1 c1.2
  rw [if_neg c1]
  by_cases c2 : index = 0 ∧ count = s.length
  · rw [if_pos c2]
    have e1 : index.toNat = 0 := by omega
    have e2 : (chars h s).drop (index + count).toNat = [] := List.drop_eq_nil_of_le (by omega)
    rw [e1, e2, List.take_zero, List.nil_append, List.append_nil]
    exact mt c2.1 c2.2
  rw [if_neg c2]
  refine makes_grown i (n := s.length - count + t.length) ?_ ?_
  · have := rs.2; have := rt.2
    simp only [List.length_append, List.length_take, List.length_drop]
    omega
  · let h1' : Heap α := { h with ctrs := h.ctrs ++ [some 1] }
    have x1 : Extends h h1' := extends_of_bufs rfl
    have rs' := x1.readable rs
    have rt' := x1.readable rt
    have := rs.1; have := rs.2; have := rt.1; have := rt.2
    rw [Cpp.bind_ok (show newCounter h = .ok h.ctrs.length h1' from rfl)]
    rw [Cpp.bind_ok (newCells_eq (by omega) h1')]
    have e1 := read_string rs' (off := 0) (n := index) (by omega) h0 (by omega)
    rw [Int.add_zero, x1.chars rs] at e1
    rw [Cpp.bind_ok e1]
    rw [Cpp.bind_ok (put_eq _ _ _ (by simp) (by simp; omega) h1')]
    have e2 := read_string rt' (off := 0) (n := t.length) (by omega) (by omega) (by omega)
    rw [Int.add_zero, x1.chars rt] at e2
    rw [Cpp.bind_ok e2]
    rw [Cpp.bind_ok (put_eq _ _ _ (by simp; omega) (by simp; omega) h1')]
    have e3 := read_string rs' (off := index + count) (n := s.length - index - count) (by omega) (by omega) (by omega)
    rw [← Int.add_assoc, x1.chars rs] at e3
    rw [Cpp.bind_ok e3]
    rw [Cpp.bind_ok (put_eq _ _ _ (by simp; omega) (by simp; omega) h1')]
    rw [Cpp.bind_ok (put_eq _ [0] _ (by simp; omega) (by simp; omega) h1')]
    rw [Cpp.bind_ok (newBuffer_eq _ (by simp; omega) h1')]
    show Outcome.ok _ _ = _
    congr 1
    simp only [grown, h1']
    have a1 : List.take index.toNat (List.drop (Int.toNat 0) (chars h s)) = List.take index.toNat (chars h s) := by simp
    have a2 : List.take t.length.toNat (List.drop (Int.toNat 0) (chars h t)) = chars h t := by
      simp only [Int.toNat_zero, List.drop_zero]
      exact List.take_of_length_le (by omega)
    have a3 : List.take (s.length - index - count).toNat (List.drop (index + count).toNat (chars h s))
        = List.drop (index + count).toNat (chars h s) := List.take_of_length_le (by simp; omega)
    rw [a1, a2, a3]
    simp

variable [DecidableEq α]

theorem calculateLength_eq {cs : List α} (h : 0 ∈ cs) : calculateLength cs = some (upToZero cs).length := by
  induction cs with
  | nil => cases h
  | cons c cs ih =>
    unfold calculateLength
    by_cases hc : c = 0
    · simp [hc, upToZero]
    · rw [if_pos hc, ih (by rcases List.mem_cons.mp h with e | e; exact absurd e.symm hc; exact e)]
      simp [upToZero, hc]

/-- Memory with a zero in it: the text, the zero, and the rest. -/
theorem upToZero_split {cs : List α} (h : 0 ∈ cs) : ∃ r, cs = upToZero cs ++ 0 :: r := by
  induction cs with
  | nil => cases h
  | cons c cs ih =>
    by_cases hc : c = 0
    · exact ⟨cs, by simp [upToZero, hc]⟩
    · obtain ⟨r, e⟩ := ih (by rcases List.mem_cons.mp h with e | e; exact absurd e.symm hc; exact e)
      refine ⟨r, ?_⟩
      have : upToZero (c :: cs) = c :: upToZero cs := by simp [upToZero, hc]
      rw [this, List.cons_append, ← e]

theorem upToZero_append (xs r : List α) : upToZero (xs ++ 0 :: r) = upToZero xs := by
  induction xs with
  | nil => simp [upToZero]
  | cons x xs ih =>
    by_cases hc : x = 0
    · simp [upToZero, hc]
    · have e : ∀ l : List α, upToZero (x :: l) = x :: upToZero l := fun l => by simp [upToZero, hc]
      rw [List.cons_append, e, e, ih]

/-- The pointer can be read up to a zero; the text before the zero is `x`. -/
def PtrOk (h : Heap α) : CPtr α → Option (List α) → Prop
  | none, x => x = none
  | some (p, off), x => 0 ≤ off ∧ ∃ cs, mem h p = some cs ∧ 0 ∈ cs.drop off.toNat ∧
      x = some (upToZero (cs.drop off.toNat))

theorem lengthAt_eq {h : Heap α} {p : BufPtr α} {off : Int} {cs : List α} (ho : 0 ≤ off) (e : mem h p = some cs)
    (hz : 0 ∈ cs.drop off.toNat) : lengthAt p off h = .ok ((upToZero (cs.drop off.toNat)).length : Int) h := by
  unfold lengthAt
  rw [Cpp.bind_ok (cells_eq e), if_pos ho, calculateLength_eq hz]
  rfl

theorem makes_fromPtr {h : Heap α} {L : List (Str α)} (i : Inv h L) {p : BufPtr α × Int} {x : List α}
    (hp : PtrOk h (some p) (some x)) : Makes (fromPtr (some p)) h L x := by
  obtain ⟨p, off⟩ := p
  obtain ⟨ho, cs, hm, hz, hx⟩ := hp
  rw [Option.some.injEq] at hx
  obtain ⟨r, hr⟩ := upToZero_split hz
  rw [← hx] at hr
  refine makes_grown i (n := x.length) rfl ?_
  let h1' : Heap α := { h with ctrs := h.ctrs ++ [some 1] }
  have hm' : mem h1' p = some cs := (mem_bufs rfl p).trans hm
  have hlen : x.length + 1 + r.length + off.toNat = cs.length := by
    have h1 : (cs.drop off.toNat).length = x.length + (r.length + 1) := by rw [hr]; simp
    have h2 : off.toNat ≤ cs.length := by
      refine Nat.le_of_not_lt fun hc => ?_
      rw [List.drop_eq_nil_of_le (by omega)] at hz
      cases hz
    rw [List.length_drop] at h1
    omega
  unfold fromPtr
  simp only []
  rw [Cpp.bind_ok (show newCounter h = .ok h.ctrs.length h1' from rfl)]
  rw [Cpp.bind_ok (lengthAt_eq ho hm' hz), ← hx]
  rw [Cpp.bind_ok (newCells_eq (by omega) h1')]
  rw [Cpp.bind_ok (read_eq hm' ho (by omega) (by omega)), hr]
  have e : List.take ((x.length : Int) + 1).toNat (x ++ 0 :: r) = x ++ [0] := by
    have : ((x.length : Int) + 1).toNat = x.length + 1 := by omega
    rw [this]
    simp [List.take_append, List.take_of_length_le]
  rw [e]
  rw [Cpp.bind_ok (put_eq _ _ _ (by simp) (by simp) h1')]
  rw [Cpp.bind_ok (newBuffer_eq _ (by simp) h1')]
  show Outcome.ok _ _ = _
  simp [grown, h1']

theorem unmanaged_spec {h : Heap α} {p : BufPtr α × Int} {x : List α} (hp : PtrOk h (some p) (some x)) :
    ∃ t, unmanaged (some p) h = .ok t h ∧ Readable h t ∧ chars h t = x ∧ t.counter = none ∧ t.buffer = p.1 := by
  obtain ⟨p, off⟩ := p
  obtain ⟨ho, cs, hm, hz, hx⟩ := hp
  rw [Option.some.injEq] at hx
  obtain ⟨r, hr⟩ := upToZero_split hz
  rw [← hx] at hr
  refine ⟨⟨p, none, off, x.length, off + x.length⟩, ?_, ?_, ?_, rfl, rfl⟩
  · unfold unmanaged
    simp only []
    rw [Cpp.bind_ok (lengthAt_eq ho hm hz), ← hx]
    rfl
  · have e : (off + x.length : Int).toNat = off.toNat + x.length := by omega
    have hg : cs[(off + (x.length : Int)).toNat]? = some 0 := by
      rw [e, ← List.getElem?_drop, hr]
      simp
    have := lt_of_getElem? hg
    exact ⟨ho, by simp, by simp, cs, hm, by show off + (x.length : Int) < _; omega, hg⟩
  · simp [chars, hm, hr]

theorem makes_takeOver {h : Heap α} {L : List (Str α)} (i : Inv h L) {cs : List α} {n : Int} (hn : 0 ≤ n)
    (hl : n < cs.length) (hz : cs[n.toNat]? = some 0) : Makes (takeOver cs n) h L (cs.take n.toNat) := by
  obtain ⟨a, b⟩ := grown_spec i cs n hn hz
  refine ⟨_, _, ?_, a, b, grown_extends _ _⟩
  unfold takeOver
  rw [Cpp.bind_ok (Cpp.check_true hn h), if_pos hl, Cpp.bind_ok (Cpp.check_true hz h)]
  let h1' : Heap α := { h with ctrs := h.ctrs ++ [some 1] }
  rw [Cpp.bind_ok (show newCounter h = .ok h.ctrs.length h1' from rfl)]
  have e : (cs.map some : List (Option α)) = cs.map some ++ List.replicate 0 none := by simp
  rw [e, Cpp.bind_ok (newBuffer_eq _ rfl h1')]
  rfl

omit [DecidableEq α] in
theorem makes_copyFrom {h : Heap α} {L : List (Str α)} (i : Inv h L) {p : BufPtr α} {off : Int} {cs : List α} {n : Int}
    (hn : 0 ≤ n) (ho : 0 ≤ off) (hm : mem h p = some cs) (hl : off + n ≤ cs.length) :
    Makes (copyFrom (p, off) n) h L ((cs.drop off.toNat).take n.toNat) := by
  by_cases hz : n = 0
  · subst hz
    obtain ⟨t, h', e1, e2⟩ := makes_empty i
    refine ⟨t, h', ?_, ?_⟩
    · unfold copyFrom
      rw [Cpp.bind_ok (Cpp.check_true hn h), if_neg (by omega)]
      exact e1
    · simpa using e2
  · refine makes_grown i (n := n) (by simp; omega) ?_
    unfold copyFrom
    rw [Cpp.bind_ok (Cpp.check_true hn h), if_pos (by omega)]
    rw [Cpp.bind_ok (newCells_eq (by omega) h)]
    rw [Cpp.bind_ok (read_eq hm ho hn hl)]
    rw [Cpp.bind_ok (put_eq _ _ _ (by simp) (by simp; omega) h)]
    rw [Cpp.bind_ok (put_eq _ [0] _ (by simp; omega) (by simp; omega) h)]
    rw [Cpp.bind_ok (newBuffer_eq _ (by simp; omega) h)]
    rfl

omit [DecidableEq α] in
/-- The zero-terminated tail behind a string that ends at the end of its buffer. -/
theorem tail_eq {h : Heap α} {s : Str α} (r : Readable h s) (he : s.start + s.length = s.realLength) :
    ∃ cs rest, mem h s.buffer = some cs ∧ cs.drop s.start.toNat = chars h s ++ 0 :: rest := by
  obtain ⟨cs, e, h1, h2⟩ := r.4
  have := r.1; have := r.2
  refine ⟨cs, cs.drop (s.realLength.toNat + 1), e, ?_⟩
  simp only [chars, e, Option.getD_some]
  have e1 : 0 :: cs.drop (s.realLength.toNat + 1) = (cs.drop s.start.toNat).drop s.length.toNat := by
    rw [List.drop_drop]
    have : s.start.toNat + s.length.toNat = s.realLength.toNat := by omega
    rw [this]
    obtain ⟨hl, hg⟩ := List.getElem?_eq_some_iff.mp h2
    rw [List.drop_eq_getElem_cons hl, hg]
  rw [e1, List.take_append_drop]

omit [DecidableEq α] in
/-- `Buffer()`: same characters, and a pointer to them with a zero behind. -/
theorem buffer_spec {h : Heap α} {L : List (Str α)} {s : Str α} (i : Inv h (s :: L)) :
    ∃ s' p h', buffer s h = .ok (s', p) h' ∧ Inv h' (s' :: L) ∧ chars h' s' = chars h s ∧
      (∀ u ∈ L, mem h' u.buffer = mem h u.buffer) ∧ 0 ≤ p.2 ∧
      (∃ cs rest, mem h' p.1 = some cs ∧ cs.drop p.2.toNat = chars h s ++ 0 :: rest) ∧ p.1 = s'.buffer := by
  have r := (i.good s List.mem_cons_self).1
  have := r.1; have := r.2; have hl := chars_length r
  by_cases he : s.start + s.length = s.realLength
  · refine ⟨s, (s.buffer, s.start), h, ?_, i, rfl, fun _ _ => rfl, r.1, tail_eq r he, rfl⟩
    unfold buffer
    rw [if_neg (by omega)]; rfl
  · obtain ⟨h', d1, d2, d3⟩ := dec_spec i
    obtain ⟨a, b⟩ := grown_spec d2 (chars h s ++ [0]) s.length r.2 (by
      have : s.length.toNat = (chars h s).length := by omega
      rw [this]; simp)
    refine ⟨_, (.heap h'.bufs.length, 0), _, ?_, a, ?_, ?_, by simp, ?_, rfl⟩
    · unfold buffer
      rw [if_pos he, Cpp.bind_ok (newCells_eq (by omega) h)]
      have e1 := read_string r (off := 0) (n := s.length) (by omega) (by omega) (by omega)
      have e0 : List.take s.length.toNat (List.drop (Int.toNat 0) (chars h s)) = chars h s := by
        simp only [Int.toNat_zero, List.drop_zero]
        exact List.take_of_length_le (by omega)
      rw [Int.add_zero, e0] at e1
      rw [Cpp.bind_ok e1]
      rw [Cpp.bind_ok (put_eq _ _ _ (by simp) (by omega) h)]
      rw [Cpp.bind_ok (put_eq _ [0] _ (by simp; omega) (by simp; omega) h)]
      rw [Cpp.bind_ok d1]
      rw [Cpp.bind_ok (newBuffer_eq _ (by simp; omega) h')]
      rfl
    · rw [b]
      have : s.length.toNat = (chars h s).length := by omega
      rw [this]; simp
    · intro u hu
      rw [(grown_extends h' _).mem_eq (d2.good u hu).1, d3 u hu]
    · refine ⟨chars h s ++ [0], [], ?_, by simp⟩
      simp [mem, grown]

omit [DecidableEq α] in
theorem makes_concat {h : Heap α} {L : List (Str α)} (i : Inv h L) {s t : Str α} (hs : s ∈ L) (ht : t ∈ L) :
    Makes (concat s t) h L (chars h s ++ chars h t) := by
  have rs := (i.good s hs).1
  have ls := chars_length rs
  have := rs.2
  have m := makes_replace i (index := s.length) (count := 0) rs (i.good t ht).1 rs.2 (by omega) (by omega) (by omega)
    (fun _ _ => makes_copy i hs) (fun _ _ => makes_copy i ht)
  have e1 : List.take s.length.toNat (chars h s) = chars h s := List.take_of_length_le (by omega)
  have e2 : List.drop (s.length + 0).toNat (chars h s) = [] := List.drop_eq_nil_of_le (by omega)
  rw [e1, e2, List.append_nil] at m
  exact m

theorem upToZero_nil_iff {cs : List α} (hz : 0 ∈ cs) : cs.take 1 = [0] ↔ upToZero cs = [] := by
  cases cs with
  | nil => cases hz
  | cons c cs => by_cases hc : c = 0 <;> simp [upToZero, hc]

theorem makes_concatPtr {h : Heap α} {L : List (Str α)} (i : Inv h L) {s : Str α} (hs : s ∈ L) {p : CPtr α}
    {x : Option (List α)} (hp : PtrOk h p x) : Makes (concatPtr s p) h L (chars h s ++ x.getD []) := by
  have rs := (i.good s hs).1
  have ls := chars_length rs
  unfold concatPtr replaceUnsafePtr
  cases p with
  | none =>
    simp only [PtrOk] at hp
    subst hp
    obtain ⟨t, h', e, q⟩ := makes_copy i hs
    refine ⟨t, h', ?_, ?_⟩
    · rw [Cpp.bind_ok (Cpp.pure_apply _ _), if_pos ⟨rfl, rfl⟩]
      exact e
    · simpa using q
  | some p =>
    obtain ⟨p, off⟩ := p
    have hp' := hp
    obtain ⟨ho, cs, hm, hz, hx⟩ := hp'
    have hl : off + 1 ≤ cs.length := by
      have : 0 < (cs.drop off.toNat).length := List.length_pos_of_mem hz
      rw [List.length_drop] at this
      omega
    have e0 : (do
        let x ← read p off 1
        pure (decide (x = [0])) : Cpp (Heap α) Bool) h
        = .ok (decide (upToZero (cs.drop off.toNat) = [])) h := by
      rw [Cpp.bind_ok (read_eq hm ho (by omega) hl)]
      show Outcome.ok _ _ = _
      congr 1
      exact decide_eq_decide.mpr (upToZero_nil_iff hz)
    subst hx
    by_cases c1 : upToZero (cs.drop off.toNat) = []
    · obtain ⟨t, h', e, q⟩ := makes_copy i hs
      refine ⟨t, h', ?_, ?_⟩
      · rw [Cpp.bind_ok e0, if_pos ⟨by simpa using c1, rfl⟩]
        exact e
      · simpa [c1] using q
    · by_cases c2 : s.length = 0
      · obtain ⟨t, h', e, q⟩ := makes_fromPtr i hp
        refine ⟨t, h', ?_, ?_⟩
        · rw [Cpp.bind_ok e0, if_neg (by simp [c1]), if_pos ⟨c2, c2.symm⟩]
          exact e
        · have : chars h s = [] := List.eq_nil_of_length_eq_zero (by omega)
          simpa [this] using q
      · obtain ⟨t, e1, rt, ct, -⟩ := unmanaged_spec hp
        have lt := chars_length rt
        have hx1 : (chars h t).length ≠ 0 := by rw [ct]; simpa using c1
        have := rs.2
        have m := makes_replace i (index := s.length) (count := 0) rs rt rs.2 (by omega) (by omega) (by omega)
          (fun a _ => by omega) (fun a _ => by omega)
        have a1 : List.take s.length.toNat (chars h s) = chars h s := List.take_of_length_le (by omega)
        have a2 : List.drop (s.length + 0).toNat (chars h s) = [] := List.drop_eq_nil_of_le (by omega)
        rw [a1, a2, List.append_nil, ct] at m
        obtain ⟨u, h', e, q⟩ := m
        refine ⟨u, h', ?_, q⟩
        rw [Cpp.bind_ok e0, if_neg (by simp [c1]), if_neg (by omega), Cpp.bind_ok e1]
        exact e

theorem makes_ptrConcat {h : Heap α} {L : List (Str α)} (i : Inv h L) {s : Str α} (hs : s ∈ L) {p : BufPtr α × Int}
    {x : List α} (hp : PtrOk h (some p) (some x)) : Makes (ptrConcat (some p) s) h L (x ++ chars h s) := by
  have rs := (i.good s hs).1
  have ls := chars_length rs
  unfold ptrConcat
  by_cases c1 : s.length = 0
  · rw [if_pos c1]
    have : chars h s = [] := List.eq_nil_of_length_eq_zero (by omega)
    rw [this, List.append_nil]
    exact makes_fromPtr i hp
  · rw [if_neg c1]
    obtain ⟨t, e1, rt, ct, -⟩ := unmanaged_spec hp
    have lt := chars_length rt
    have m := makes_replace i (index := t.length) (count := 0) rt rs rt.2 (by omega) (by have := rt.2; omega) (by omega)
      (fun a _ => absurd a c1) (fun _ _ => makes_copy i hs)
    have a1 : List.take t.length.toNat (chars h t) = chars h t := List.take_of_length_le (by omega)
    have a2 : List.drop (t.length + 0).toNat (chars h t) = [] := List.drop_eq_nil_of_le (by omega)
    rw [a1, a2, List.append_nil, ct] at m
    obtain ⟨u, h', e, q⟩ := m
    refine ⟨u, h', ?_, q⟩
    rw [Cpp.bind_ok e1]
    exact e

omit [DecidableEq α] in
/-- An operation that ends with moving its result `t` to `s`. -/
theorem moved_spec {h : Heap α} {L : List (Str α)} {s : Str α} {m : Cpp (Heap α) (Str α)} {xs : List α}
    (mk : Makes m h (s :: L) xs) (i : Inv h (s :: L)) :
    ∃ t h', (do
        let t ← m
        let r ← moveAssign s t
        pure r.1 : Cpp (Heap α) (Str α)) h = .ok t h' ∧ Inv h' (t :: L) ∧ chars h' t = xs ∧
      ∀ u ∈ L, mem h' u.buffer = mem h u.buffer := by
  obtain ⟨t, h1, e1, i1, c1, x1⟩ := mk
  obtain ⟨h2, e2, i2, k2⟩ := dec_spec (i1.perm (List.Perm.swap s t L))
  refine ⟨t, h2, ?_, i2, ?_, ?_⟩
  · rw [Cpp.bind_ok e1]
    unfold moveAssign
    have : (do dec s; pure (t, {}) : Cpp (Heap α) (Str α × Str α)) h1 = .ok (t, {}) h2 := by
      rw [Cpp.bind_ok e2]; rfl
    rw [Cpp.bind_ok this]; rfl
  · rw [chars_of_mem (k2 t List.mem_cons_self), c1]
  · intro u hu
    rw [k2 u (List.mem_cons_of_mem _ hu), x1.mem_eq (i.good u (List.mem_cons_of_mem _ hu)).1]

omit [DecidableEq α] in
/-- `operator=`: `s` gets the characters of `t`, which stays. -/
theorem assign_spec {h : Heap α} {L : List (Str α)} {s t : Str α} (i : Inv h (s :: L)) (ht : t ∈ L) :
    ∃ h', assign s t h = .ok t h' ∧ Inv h' (t :: L) ∧ ∀ u ∈ L, mem h' u.buffer = mem h u.buffer := by
  obtain ⟨h1, e1, i1, k1⟩ := dec_spec i
  obtain ⟨h2, e2, b2, i2⟩ := inc_spec i1 ht rfl rfl (i1.good t ht).1
  refine ⟨h2, ?_, i2, ?_⟩
  · unfold assign
    rw [Cpp.bind_ok e1, Cpp.bind_ok e2]; rfl
  · intro u hu
    rw [mem_bufs b2, k1 u hu]

end Strings
end Vlpp
