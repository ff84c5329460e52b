import Verif.Lemmas.StrWorld
import Verif.Props.LazyProps

/-! # C36-C40: strings -/
set_option autoImplicit false
namespace Vlpp
open Strings Spec.Str

namespace Strings
variable {α : Type} [Zero α] [DecidableEq α]

omit [DecidableEq α] in
theorem winv_empty : WInv ({} : World α) :=
  ⟨rfl, by simp [live], by simp, by simp [live]⟩

theorem run_agrees {w : World α} (i : WInv w) (ops : List (Op α)) (hl : LegalRun (abs w) ops) :
    ∃ w', runOps ops w = some w' ∧ WInv w' ∧ abs w' = Spec.Str.run (abs w) ops := by
  induction ops generalizing w with
  | nil => exact ⟨w, rfl, i, rfl⟩
  | cons op ops ih =>
    have a := step_agrees i op hl.1
    have l2 := hl.2
    unfold runOps
    simp only [Spec.Str.run]
    cases hs : Spec.Str.step (abs w) op with
    | some st =>
      rw [hs] at a l2
      obtain ⟨w', e, i', ab⟩ := a
      simp only [Option.getD_some, ← ab] at l2 ⊢
      rw [e]
      exact ih i' l2
    | none =>
      rw [hs] at a l2
      obtain ⟨w', e, i', ab⟩ := a
      simp only [Option.getD_none, ← ab] at l2 ⊢
      rw [e]
      exact ih i' l2

/-- State of every program that keeps to the contract. -/
theorem reach {ops : List (Op α)} (hl : LegalRun [] ops) :
    ∃ w, runOps ops {} = some w ∧ WInv w ∧ abs w = Spec.Str.run [] ops := run_agrees winv_empty ops hl

omit [DecidableEq α] in
theorem showsAt_chars {w : World α} (i : WInv w) {k : Nat} {s : Str α} (hk : w.objs[k]? = some (some s)) :
    ShowsAt w k (chars w.heap s) := by
  have r := (i.good s (mem_live hk)).1
  have l := chars_length r
  refine ⟨s, hk, l.symm, fun n => ?_⟩
  unfold at'
  by_cases c : n ≥ 0 ∧ n < s.length
  · rw [Cpp.bind_ok (Cpp.check_true c _), if_pos (by omega)]
    exact read_string r c.1 (by omega) (by omega)
  · rw [Cpp.bind_err (Cpp.check_false c _), if_neg (by omega)]

omit [Zero α] [DecidableEq α] in
theorem take_one_inj {xs ys : List α} (hl : xs.length = ys.length)
    (h : ∀ n : Nat, n < xs.length → (xs.drop n).take 1 = (ys.drop n).take 1) : xs = ys := by
  apply List.ext_getElem hl
  intro n h1 h2
  have := h n h1
  rw [List.drop_eq_getElem_cons h1, List.drop_eq_getElem_cons h2, List.take_succ_cons, List.take_succ_cons] at this
  exact (List.cons.inj this).1

omit [DecidableEq α] in
/-- What an object shows is determined. -/
theorem showsAt_iff {w : World α} (i : WInv w) {k : Nat} {xs : List α} :
    ShowsAt w k xs ↔ (abs w)[k]? = some (some xs) := by
  constructor
  · rintro ⟨s, hk, hl, ha⟩
    obtain ⟨s', hk', hl', ha'⟩ := showsAt_chars i hk
    rw [hk] at hk'
    simp only [Option.some.injEq] at hk'
    subst hk'
    have : chars w.heap s = xs := by
      apply take_one_inj (by omega)
      intro n hn
      have e1 := ha n
      have e2 := ha' n
      rw [e1, if_pos (by omega), if_pos (by omega)] at e2
      have := (Outcome.ok.inj e2).1
      simpa using this.symm
    simp [abs, hk, this]
  · intro h
    obtain ⟨s, hk, -, hg⟩ := obj_spec ⟨xs, h⟩
    have : xs = chars w.heap s := by rw [← hg]; simp [Spec.Str.get, h]
    rw [this]
    exact showsAt_chars i hk

omit [DecidableEq α] in
theorem shows_abs {w : World α} (i : WInv w) : Shows w (abs w) := by
  refine ⟨by simp [abs], fun k xs h => (showsAt_iff i).mpr h, fun k h => ?_⟩
  simp only [abs, List.getElem?_map] at h
  cases e : w.objs[k]? with
  | none => simp [e] at h
  | some o => cases o with
    | none => rfl
    | some s => simp [e] at h

theorem indexOfLoop_eq {h : Heap α} {s : Str α} (r : Readable h s) (c : α) (n : Nat) (i : Nat)
    (hn : i + n = (chars h s).length) :
    indexOfLoop s c n i h =
      .ok (if c ∈ (chars h s).drop i then (i + ((chars h s).drop i).idxOf c : Nat) else -1 : Int) h := by
  have l := chars_length r
  induction n generalizing i with
  | zero =>
    rw [List.drop_eq_nil_of_le (by omega)]
    simp [indexOfLoop]
  | succ n ih =>
    unfold indexOfLoop
    rw [Cpp.bind_ok (read_string r (by omega) (by omega) (by omega))]
    have hi : i < (chars h s).length := by omega
    have e0 : ((i : Int)).toNat = i := by omega
    rw [e0, List.drop_eq_getElem_cons hi]
    have e1 : List.take (Int.toNat 1) ((chars h s)[i] :: List.drop (i + 1) (chars h s)) = [(chars h s)[i]] := rfl
    rw [e1]
    by_cases hc : (chars h s)[i] = c
    · rw [if_pos (by simp [hc])]
      rw [if_pos (by rw [hc]; exact List.mem_cons_self), hc, List.idxOf_cons_self]
      rfl
    · rw [if_neg (by simpa using hc)]
      have := ih (i + 1) (by omega)
      have e2 : ((i + 1 : Nat) : Int) = (i : Int) + 1 := by omega
      rw [e2] at this
      rw [this]
      by_cases hm : c ∈ List.drop (i + 1) (chars h s)
      · rw [if_pos hm, if_pos (List.mem_cons_of_mem _ hm), List.idxOf_cons,
          show ((chars h s)[i] == c) = false from by simpa using hc, cond_false]
        congr 1
        omega
      · rw [if_neg hm, if_neg (fun e => by
          rcases List.mem_cons.mp e with e | e
          · exact hc e.symm
          · exact hm e)]

omit [DecidableEq α] in
theorem compareLoop_spec {h : Heap α} {a b : Str α} (ra : Readable h a) (rb : Readable h b) (ord : α → α → Ordering)
    (n i : Nat) (ha : i + n ≤ (chars h a).length) (hb : i + n ≤ (chars h b).length) :
    ∃ r, compareLoop ord a b n i h = .ok r h ∧
      Spec.lexOrd ord ((chars h a).drop i) ((chars h b).drop i) =
        r.getD (Spec.lexOrd ord ((chars h a).drop (i + n)) ((chars h b).drop (i + n))) := by
  have la := chars_length ra
  have lb := chars_length rb
  induction n generalizing i with
  | zero => exact ⟨none, rfl, rfl⟩
  | succ n ih =>
    have hia : i < (chars h a).length := by omega
    have hib : i < (chars h b).length := by omega
    have e0 : ((i : Int)).toNat = i := by omega
    have e2 : ((i + 1 : Nat) : Int) = (i : Int) + 1 := by omega
    unfold compareLoop
    rw [Cpp.bind_ok (read_string ra (by omega) (by omega) (by omega)),
      Cpp.bind_ok (read_string rb (by omega) (by omega) (by omega)), e0,
      List.drop_eq_getElem_cons hia, List.drop_eq_getElem_cons hib]
    simp only [Int.reduceToNat, List.take_succ_cons, List.take_zero]
    rw [Spec.lexOrd]
    by_cases hc : ord (chars h a)[i] (chars h b)[i] = .eq
    · rw [if_neg (by simp [hc]), hc]
      obtain ⟨r, e, q⟩ := ih (i + 1) (by omega) (by omega)
      rw [e2] at e
      refine ⟨r, e, ?_⟩
      have e3 : i + (n + 1) = i + 1 + n := by omega
      rw [e3]
      exact q
    · rw [if_pos hc]
      refine ⟨some _, rfl, ?_⟩
      cases hd : ord (chars h a)[i] (chars h b)[i] with
      | eq => exact absurd hd hc
      | lt => rfl
      | gt => rfl

omit [Zero α] [DecidableEq α] in
theorem lexOrd_nil (ord : α → α → Ordering) (xs ys : List α) (h : xs = [] ∨ ys = []) :
    Spec.lexOrd ord xs ys = compare xs.length ys.length := by
  cases xs <;> cases ys <;> simp_all [Spec.lexOrd, compare, compareOfLessAndEq]

omit [Zero α] [DecidableEq α] in
theorem lexOrd_prefix (ord : α → α → Ordering) [Std.TransCmp ord] (l : List α) (m n : Nat) :
    Spec.lexOrd ord (l.take m) (l.take n) = compare (l.take m).length (l.take n).length := by
  induction l generalizing m n with
  | nil => simp [Spec.lexOrd]
  | cons x l ih =>
    cases m with
    | zero => exact lexOrd_nil _ _ _ (.inl rfl)
    | succ m =>
      cases n with
      | zero => exact lexOrd_nil _ _ _ (.inr rfl)
      | succ n =>
        simp only [List.take_succ_cons, Spec.lexOrd, Std.ReflCmp.compare_self, ih, List.length_cons]
        simp only [compare, compareOfLessAndEq]
        simp

theorem compare_nat_int (m n : Nat) : compare (m : Int) (n : Int) = compare m n := by
  simp only [compare, compareOfLessAndEq]
  simp only [Int.ofNat_lt, Int.ofNat_inj]

theorem compare_spec {h : Heap α} {a b : Str α} (ra : Readable h a) (rb : Readable h b) (ord : α → α → Ordering)
    [Std.TransCmp ord] : compare' ord a b h = .ok (Spec.lexOrd ord (chars h a) (chars h b)) h := by
  have la := chars_length ra
  have lb := chars_length rb
  unfold compare'
  by_cases hp : a.buffer = b.buffer ∧ a.start = b.start
  · rw [if_pos hp, Cpp.bind_ok (Cpp.pure_apply _ _)]
    show Outcome.ok _ _ = _
    rw [← la, ← lb, compare_nat_int]
    have e := lexOrd_prefix ord (((mem h a.buffer).getD []).drop a.start.toNat) a.length.toNat b.length.toNat
    have eb : chars h b = (((mem h a.buffer).getD []).drop a.start.toNat).take b.length.toNat := by
      unfold chars; rw [hp.1, hp.2]
    rw [eb]
    exact congrArg (fun o => Outcome.ok o h) e.symm
  · rw [if_neg hp]
    obtain ⟨r, e, q⟩ := compareLoop_spec ra rb ord (if a.length < b.length then a.length else b.length).toNat 0
      (by split <;> omega) (by split <;> omega)
    have e' : compareLoop ord a b (if a.length < b.length then a.length else b.length).toNat 0 h = .ok r h := e
    rw [Cpp.bind_ok e']
    simp only [List.drop_zero] at q
    rw [q]
    cases r with
    | some o => rfl
    | none =>
      simp only [Option.getD_none]
      rw [lexOrd_nil]
      · show Outcome.ok _ _ = _
        rw [← la, ← lb, compare_nat_int]
        congr 1
        have := ra.2; have := rb.2
        have key : ∀ x y m : Nat, (m = x ∨ m = y) → m ≤ x → m ≤ y → compare x y = compare (x - m) (y - m) := by
          intro x y m hm h1 h2
          simp only [compare, compareOfLessAndEq]
          have i1 : x < y ↔ x - m < y - m := by omega
          have i2 : x = y ↔ x - m = y - m := by omega
          simp only [i1, i2]
        simp only [List.length_drop]
        apply key
        · split <;> omega
        · split <;> omega
        · split <;> omega
      · by_cases hlt : a.length < b.length
        · left
          rw [if_pos hlt]
          exact List.drop_eq_nil_of_le (by omega)
        · right
          rw [if_neg hlt]
          exact List.drop_eq_nil_of_le (by omega)

end Strings

variable {α : Type} [Zero α] [DecidableEq α]

/-- What the program holds after a legal history, and what the next operation does to it. -/
def Behaves (ops : List (Op α)) (op : Op α) (r : Option (St α)) : Prop :=
  ∃ w, runOps ops {} = some w ∧ Shows w (Spec.Str.run [] ops) ∧
    match r with
    | some st => ∃ w', Strings.step op w = .ok () w' ∧ Shows w' st
    | none => ∃ w', Strings.step op w = .err w' ∧ Shows w' (Spec.Str.run [] ops)

theorem Strings.behaves {ops : List (Op α)} {op : Op α} (hl : LegalRun [] ops)
    (ho : Legal (Spec.Str.run [] ops) op) : Behaves ops op (Spec.Str.step (Spec.Str.run [] ops) op) := by
  obtain ⟨w, e, i, ab⟩ := reach hl
  refine ⟨w, e, ab ▸ shows_abs i, ?_⟩
  rw [← ab] at ho ⊢
  have a := step_agrees i op ho
  cases hs : Spec.Str.step (abs w) op with
  | some st =>
    rw [hs] at a
    obtain ⟨w', e', i', ab'⟩ := a
    exact ⟨w', e', ab' ▸ shows_abs i'⟩
  | none =>
    rw [hs] at a
    obtain ⟨w', e', i', ab'⟩ := a
    exact ⟨w', e', ab' ▸ shows_abs i'⟩

/-- **C36 (partial).** After every legal history of string operations (so with objects that are slices of each other, share
buffers, have been moved from, refer to unmanaged memory, ...) every object shows exactly the sequence computed on lists;
the next operation returns exactly the list operation, or raises an Error exactly if its arguments are out of range,
leaving all objects as they were.  Excluded: `Sub` and `Remove` with a negative count (see `C36_violated_sub`,
`C36_violated_remove`). -/
theorem C36_sequences_partial (ops : List (Op α)) (op : Op α) (hl : LegalRun [] ops)
    (ho : Legal (Spec.Str.run [] ops) op) (hc : SizeOk op) :
    Behaves ops op (documented (Spec.Str.run [] ops) op) := by
  have b := behaves hl ho
  have e : documented (Spec.Str.run [] ops) op = Spec.Str.step (Spec.Str.run [] ops) op := by
    cases op with
    | sub i index n =>
      have : 0 ≤ n := hc
      simp only [documented, Spec.Str.step]
      by_cases h : 0 ≤ index ∧ 0 ≤ n ∧ index + n ≤ (get (Spec.Str.run [] ops) i).length
      · rw [if_pos h, if_pos (by omega)]
      · rw [if_neg h, if_neg (by omega)]
    | remove i index n =>
      have : 0 ≤ n := hc
      simp only [documented, Spec.Str.step]
      by_cases h : 0 ≤ index ∧ index < (get (Spec.Str.run [] ops) i).length ∧ 0 ≤ n ∧
          index + n ≤ (get (Spec.Str.run [] ops) i).length
      · rw [if_pos h, if_pos (by omega)]
        have : index.toNat + n.toNat = (index + n).toNat := by omega
        rw [this]
      · rw [if_neg h, if_neg (by omega)]
    | _ => rfl
  rw [e]
  exact b

/-- **C36.** `operator[]` (in `Shows`) and `IndexOf` on any object of any legal history: the position of the first
occurrence, or -1. -/
theorem C36_indexOf (ops : List (Op α)) (hl : LegalRun [] ops) (k : Nat) (xs : List α) (c : α)
    (hk : (Spec.Str.run [] ops)[k]? = some (some xs)) :
    ∃ w s, runOps ops {} = some w ∧ w.objs[k]? = some (some s) ∧ ∃ r : Int, indexOf s c w.heap = .ok r w.heap ∧
      ((r = -1 ∧ c ∉ xs) ∨ ∃ n : Nat, r = n ∧ xs[n]? = some c ∧ ∀ m < n, xs[m]? ≠ some c) := by
  obtain ⟨w, e, i, ab⟩ := reach hl
  rw [← ab] at hk
  obtain ⟨s, hj, -, hg⟩ := obj_spec ⟨xs, hk⟩
  have hx : xs = chars w.heap s := by rw [← hg]; simp [Spec.Str.get, hk]
  have r := (i.good s (mem_live hj)).1
  have l := chars_length r
  refine ⟨w, s, e, hj, _, indexOfLoop_eq r c s.length.toNat 0 (by omega), ?_⟩
  simp only [List.drop_zero, Nat.zero_add]
  rw [← hx]
  by_cases hm : c ∈ xs
  · rw [if_pos hm]
    right
    have hlt := List.idxOf_lt_length_of_mem hm
    refine ⟨xs.idxOf c, rfl, ?_, ?_⟩
    · rw [List.getElem?_eq_getElem hlt, List.getElem_idxOf]
    · intro m hm' hc
      obtain ⟨h1, h2⟩ := List.getElem?_eq_some_iff.mp hc
      have := List.not_of_lt_findIdx (xs := xs) (p := (· == c)) (i := m) hm'
      simp [h2] at this
  · rw [if_neg hm]
    exact .inl ⟨rfl, hm⟩

/-- **C36, violated.** `Sub` with a negative count and `index + count` not negative, which the documentation excludes,
raises no Error but returns the empty string. -/
theorem C36_violated_sub (ops : List (Op α)) (hl : LegalRun [] ops) (k : Nat) (xs : List α)
    (hk : (Spec.Str.run [] ops)[k]? = some (some xs)) (index n : Int) (h1 : index ≤ xs.length) (h2 : n < 0)
    (h3 : 0 ≤ index + n) :
    documented (Spec.Str.run [] ops) (.sub k index n) = none ∧
      Behaves ops (.sub k index n) (some (Spec.Str.run [] ops ++ [some []])) := by
  have hg : get (Spec.Str.run [] ops) k = xs := by simp [Spec.Str.get, hk]
  refine ⟨?_, ?_⟩
  · simp only [documented]
    rw [if_neg (by omega)]
  · have b := behaves (op := .sub k index n) hl ⟨xs, hk⟩
    simp only [Spec.Str.step, hg] at b
    rw [if_pos (by omega)] at b
    have : n.toNat = 0 := by omega
    rw [this, List.take_zero] at b
    exact b

/-- **C36, violated.** `Remove` with a negative count raises no Error but repeats the characters before `index`. -/
theorem C36_violated_remove (ops : List (Op α)) (hl : LegalRun [] ops) (k : Nat) (xs : List α)
    (hk : (Spec.Str.run [] ops)[k]? = some (some xs)) (index n : Int) (h1 : index < xs.length) (h2 : n < 0)
    (h3 : 0 ≤ index + n) :
    documented (Spec.Str.run [] ops) (.remove k index n) = none ∧
      Behaves ops (.remove k index n)
        (some (Spec.Str.run [] ops ++ [some (xs.take index.toNat ++ xs.drop (index + n).toNat)])) := by
  have hg : get (Spec.Str.run [] ops) k = xs := by simp [Spec.Str.get, hk]
  refine ⟨?_, ?_⟩
  · simp only [documented]
    rw [if_neg (by omega)]
  · have b := behaves (op := .remove k index n) hl ⟨xs, hk⟩
    simp only [Spec.Str.step, hg] at b
    rw [if_pos (by omega)] at b
    exact b

/-- **C37.** In every legal history, an operation changes what is seen through no object but its targets (the object
assigned to, moved from, appended to or destroyed); whether or not it raises an Error.  `Buffer()` has no targets. -/
theorem C37_immutable (ops : List (Op α)) (op : Op α) (hl : LegalRun [] ops) (ho : Legal (Spec.Str.run [] ops) op) :
    ∃ w w', runOps ops {} = some w ∧ (Strings.step op w = .ok () w' ∨ Strings.step op w = .err w') ∧
      ∀ k xs, k ∉ targets op → ShowsAt w k xs → ShowsAt w' k xs := by
  obtain ⟨w, e, i, ab⟩ := reach hl
  rw [← ab] at ho
  have a := step_agrees i op ho
  cases hs : Spec.Str.step (abs w) op with
  | none =>
    rw [hs] at a
    obtain ⟨w', e', i', ab'⟩ := a
    refine ⟨w, w', e, .inr e', fun k xs _ h => ?_⟩
    rw [showsAt_iff i', ab']
    exact (showsAt_iff i).mp h
  | some st =>
    rw [hs] at a
    obtain ⟨w', e', i', ab'⟩ := a
    refine ⟨w, w', e, .inl e', fun k xs hk h => ?_⟩
    rw [showsAt_iff i', ab']
    have h := (showsAt_iff i).mp h
    have hlt := lt_of_getElem? h
    have hnew : ∀ (st : St α) ys, st[k]? = some (some xs) → (new st ys)[k]? = some (some xs) := by
      intro st ys h
      rw [new, List.getElem?_append_left (lt_of_getElem? h), h]
    have hset : ∀ (st : St α) j o, k ≠ j → st[k]? = some (some xs) → (st.set j o)[k]? = some (some xs) := by
      intro st j o hj h
      rw [List.getElem?_set_ne hj.symm, h]
    cases op <;> simp only [Spec.Str.step, Option.some.injEq, Option.map_eq_some_iff, targets, List.mem_cons,
      List.not_mem_nil, or_false, not_or, Option.ite_none_right_eq_some] at hs hk
    all_goals first
      | (subst hs; exact hnew _ _ h)
      | (subst hs; exact hset _ _ _ hk h)
      | (subst hs; exact h)
      | (obtain ⟨_, _, rfl⟩ := hs; exact hnew _ _ h)
      | (obtain ⟨_, rfl⟩ := hs; exact hnew _ _ h)
      | (subst hs; exact hnew _ _ (hset _ _ _ hk h))
      | (subst hs; split
         · exact h
         · exact hset _ _ _ hk.2 (hset _ _ _ hk.1 h))

/-- **C38.** Every legal history runs without undefined behaviour (in particular nothing is used or released after its
release), and at its end a buffer made by strings is released exactly if no object refers to it; likewise for the
reference counters.  The counter of a buffer in use is the number of objects that refer to it. -/
theorem C38_buffers (ops : List (Op α)) (hl : LegalRun [] ops) :
    ∃ w, runOps ops {} = some w ∧ w.heap.ctrs.length = w.heap.bufs.length ∧
      (∀ (k : Nat) s b, w.objs[k]? = some (some s) → s.buffer = .heap b → ∃ cs, w.heap.bufs[b]? = some (some cs)) ∧
      ∀ b < w.heap.bufs.length,
        (w.heap.bufs[b]? = some none ↔ ∀ (k : Nat) s, w.objs[k]? = some (some s) → s.buffer ≠ .heap b) ∧
        (w.heap.ctrs[b]? = some none ↔ w.heap.bufs[b]? = some none) ∧
        (∀ v, w.heap.ctrs[b]? = some (some v) →
          v = w.objs.countP (fun o => decide (o.map Str.buffer = some (.heap b)))) := by
  obtain ⟨w, e, i, ab⟩ := reach hl
  have hb : ∀ s ∈ live w.objs, ∀ b, s.buffer = .heap b ↔ s.counter = some b := by
    intro s hs b
    rcases (i.good s hs).2 with ⟨h1, h2⟩ | ⟨c, h1, h2⟩
    · simp [h1, h2 b]
    · simp [h1, h2]
  have hcount : ∀ b, owners (live w.objs) b
      = w.objs.countP (fun o => decide (o.map Str.buffer = some (.heap b))) := by
    intro b
    have : ∀ l : List (Option (Str α)), (∀ s ∈ live l, (s.buffer = .heap b ↔ s.counter = some b)) →
        owners (live l) b = l.countP (fun o => decide (o.map Str.buffer = some (.heap b))) := by
      intro l
      induction l with
      | nil => intro _; rfl
      | cons o l ih =>
        intro h
        cases o with
        | none =>
          rw [List.countP_cons]
          simpa [live] using ih (by simpa [live] using h)
        | some s =>
          have h1 : s.buffer = .heap b ↔ s.counter = some b := h s (by simp [live])
          have h2 := ih (fun u hu => h u (by simp only [live, List.filterMap_cons, id_eq]; exact List.mem_cons_of_mem _ hu))
          have : live (some s :: l) = s :: live l := by simp [live]
          rw [this, owners_cons, h2, List.countP_cons]
          by_cases hc : s.counter = some b
          · rw [if_pos hc, if_pos (by simpa using h1.mpr hc)]
          · rw [if_neg hc, if_neg (by simpa using fun x => hc (h1.mp x))]
    exact this _ (fun s hs => hb s hs b)
  refine ⟨w, e, i.same.symm, ?_, ?_⟩
  · intro k s b hk hs
    obtain ⟨-, -, h⟩ := i.alive (mem_live hk) ((hb s (mem_live hk) b).mp hs)
    exact h
  · intro b hlt
    have hn : owners (live w.objs) b = 0 ↔ ∀ (k : Nat) s, w.objs[k]? = some (some s) → s.buffer ≠ .heap b := by
      rw [hcount, List.countP_eq_zero]
      constructor
      · intro h k s hk hs
        exact h _ (List.mem_of_getElem? hk) (by simpa using hs)
      · intro h o ho hd
        obtain ⟨k, hk⟩ := List.getElem?_of_mem ho
        cases o with
        | none => simp at hd
        | some s => exact h k s hk (by simpa using hd)
    rcases i.counted b (by have := i.same; omega) with ⟨h1, h2, cs, h3⟩ | ⟨⟨h1, h2⟩, h3⟩
    · refine ⟨⟨(fun h => by rw [h3] at h; cases h), fun h => by have := hn.mpr h; omega⟩, by rw [h1, h3]; simp, ?_⟩
      intro v hv
      rw [h1] at hv
      simp only [Option.some.injEq] at hv
      rw [← hv, hcount]
    · exact ⟨⟨fun _ => hn.mp h3, fun _ => h2⟩, by simp [h1, h2], fun v hv => by rw [h1] at hv; cases hv⟩

/-- **C39.** `Buffer()` of any object of any legal history returns a pointer from which the characters of the object and
then a zero can be read; the object shows the same characters as before. -/
theorem C39_buffer (ops : List (Op α)) (hl : LegalRun [] ops) (k : Nat) (xs : List α)
    (hk : (Spec.Str.run [] ops)[k]? = some (some xs)) :
    ∃ w s s' p h', runOps ops {} = some w ∧ w.objs[k]? = some (some s) ∧ buffer s w.heap = .ok (s', p) h' ∧
      read p.1 p.2 (xs.length + 1) h' = .ok (xs ++ [0]) h' ∧
      ShowsAt { heap := h', objs := w.objs.set k (some s') } k xs := by
  obtain ⟨w, e, i, ab⟩ := reach hl
  rw [← ab] at hk
  obtain ⟨s, hj, -, hg⟩ := obj_spec ⟨xs, hk⟩
  have hx : xs = chars w.heap s := by rw [← hg]; simp [Spec.Str.get, hk]
  obtain ⟨s', p, h', e2, i', c, k', p0, ⟨cs, rest, m1, m2⟩, -⟩ := buffer_spec (i.perm (live_perm hj))
  rw [← hx] at m2
  refine ⟨w, s, s', p, h', e, hj, e2, ?_, ?_⟩
  · have hlen : p.2.toNat + (xs.length + 1) ≤ cs.length := by
      have h1 : (cs.drop p.2.toNat).length = xs.length + (rest.length + 1) := by rw [m2]; simp
      rw [List.length_drop] at h1
      omega
    rw [read_eq m1 p0 (by omega) (by omega), m2]
    have : ((xs.length : Int) + 1).toNat = xs.length + 1 := by omega
    rw [this]
    simp [List.take_append, List.take_of_length_le]
  · have i'' : WInv { heap := h', objs := w.objs.set k (some s') } :=
      i'.perm (live_perm_set s' (lt_of_getElem? hj)).symm
    have hk' : (w.objs.set k (some s'))[k]? = some (some s') := List.getElem?_set_self (lt_of_getElem? hj)
    have := showsAt_chars (w := { heap := h', objs := w.objs.set k (some s') }) i'' hk'
    rwa [show chars h' s' = xs from c.trans hx.symm] at this

/-- **C40.** `operator<=>` on any two objects of any legal history reads nothing outside them (no fault), changes nothing
and returns the lexicographic comparison of their characters; `operator==` is its being equal. -/
theorem C40_compare (ord : α → α → Ordering) [Std.TransCmp ord] (ops : List (Op α)) (hl : LegalRun [] ops)
    (j k : Nat) (xs ys : List α) (hj : (Spec.Str.run [] ops)[j]? = some (some xs))
    (hk : (Spec.Str.run [] ops)[k]? = some (some ys)) :
    ∃ w s t, runOps ops {} = some w ∧ w.objs[j]? = some (some s) ∧ w.objs[k]? = some (some t) ∧
      compare' ord s t w.heap = .ok (Spec.lexOrd ord xs ys) w.heap := by
  obtain ⟨w, e, i, ab⟩ := reach hl
  rw [← ab] at hj hk
  obtain ⟨s, hj', -, hg⟩ := obj_spec ⟨xs, hj⟩
  obtain ⟨t, hk', -, hg'⟩ := obj_spec ⟨ys, hk⟩
  have hx : xs = chars w.heap s := by rw [← hg]; simp [Spec.Str.get, hj]
  have hy : ys = chars w.heap t := by rw [← hg']; simp [Spec.Str.get, hk]
  refine ⟨w, s, t, e, hj', hk', ?_⟩
  rw [hx, hy]
  exact compare_spec (i.good s (mem_live hj')).1 (i.good t (mem_live hk')).1 ord

/-- **C40.** `operator<=>(const T*)` compares with the text before the zero. -/
theorem C40_compareWithPtr (ord : α → α → Ordering) [Std.TransCmp ord] (ops : List (Op α)) (hl : LegalRun [] ops)
    (j : Nat) (xs : List α) (hj : (Spec.Str.run [] ops)[j]? = some (some xs)) (id : Nat) (cs : List α) (hz : 0 ∈ cs) :
    ∃ w s, runOps ops {} = some w ∧ w.objs[j]? = some (some s) ∧
      compareWithPtr ord s (some (.foreign id cs, 0)) w.heap = .ok (Spec.lexOrd ord xs (upToZero cs)) w.heap := by
  obtain ⟨w, e, i, ab⟩ := reach hl
  rw [← ab] at hj
  obtain ⟨s, hj', -, hg⟩ := obj_spec ⟨xs, hj⟩
  have hx : xs = chars w.heap s := by rw [← hg]; simp [Spec.Str.get, hj]
  have hp : PtrOk w.heap (some (.foreign id cs, 0)) (some (upToZero cs)) := ⟨by simp, cs, rfl, by simpa using hz, by simp⟩
  obtain ⟨t, e1, r, c, -⟩ := unmanaged_spec hp
  refine ⟨w, s, e, hj', ?_⟩
  unfold compareWithPtr
  rw [Cpp.bind_ok e1, hx, ← c]
  exact compare_spec (i.good s (mem_live hj')).1 r ord

omit [Zero α] [DecidableEq α] in
/-- **C40.** The comparison of character sequences that `operator<=>` returns is a total order consistent with equality,
if the comparison of characters is. -/
theorem C40_order (ord : α → α → Ordering) [Std.TransCmp ord] [Std.LawfulEqCmp ord] :
    (∀ xs ys, Spec.lexOrd ord xs ys = .eq ↔ xs = ys) ∧
    (∀ xs ys, Spec.lexOrd ord xs ys = (Spec.lexOrd ord ys xs).swap) ∧
    (∀ xs ys zs, Spec.lexOrd ord xs ys = .lt → Spec.lexOrd ord ys zs = .lt → Spec.lexOrd ord xs zs = .lt) := by
  haveI := Spec.lexOrd_trans (ord := ord)
  refine ⟨fun xs ys => ?_, fun xs ys => Std.OrientedCmp.eq_swap, fun xs ys zs h1 h2 => Std.TransCmp.lt_trans h1 h2⟩
  rw [Spec.lexOrd_eq_iff]
  constructor
  · rintro ⟨hl, h⟩
    apply List.ext_getElem hl
    intro n h1 h2
    exact Std.LawfulEqCmp.eq_of_compare (h n _ _ (List.getElem?_eq_getElem h1) (List.getElem?_eq_getElem h2))
  · rintro rfl
    refine ⟨rfl, fun i x y h1 h2 => ?_⟩
    rw [h1] at h2
    cases h2
    exact Std.ReflCmp.compare_self

/-! ## A history that meets the hypotheses

`"hello"`, its slice `"ell"`, the slice `"l"` of the slice, an Error, and the original gone. -/

def demoOps : List (Op Nat) :=
  [.fromPtr (.mem 0 [104, 101, 108, 108, 111, 0]), .sub 0 1 3, .right 1 1, .sub 1 2 5, .destroy 0, .appendPtr 1 (.bufferOf 2)]

theorem demo_legal : LegalRun [] demoOps := by
  simp [demoOps, LegalRun, Legal, LegalPtr, Alive, Spec.Str.step, text, upToZero, new, Spec.Str.get, List.takeWhile]

theorem demo_run : Spec.Str.run [] demoOps = [none, some [101, 108, 108, 108], some [108]] := by
  simp [demoOps, Spec.Str.run, Spec.Str.step, text, upToZero, new, Spec.Str.get, List.takeWhile]

example : Behaves demoOps (.insert 1 1 2)
    (some [none, some [101, 108, 108, 108], some [108], some [101, 108, 108, 108, 108]]) := by
  have := C36_sequences_partial demoOps (.insert 1 1 2) demo_legal (by rw [demo_run]; simp [Legal, Alive]) trivial
  rw [demo_run] at this
  simpa [documented, Spec.Str.step, Spec.Str.get, new] using this

example : Behaves demoOps (.sub 1 2 3) none := by
  have := C36_sequences_partial demoOps (.sub 1 2 3) demo_legal (by rw [demo_run]; simp [Legal, Alive]) (by simp [SizeOk])
  rw [demo_run] at this
  simpa [documented, Spec.Str.get, new] using this

/-- `"elll".Remove(2, -1)` is `"ellll"`. -/
example : Behaves demoOps (.remove 1 2 (-1))
    (some [none, some [101, 108, 108, 108], some [108], some [101, 108, 108, 108, 108]]) := by
  have := (C36_violated_remove demoOps demo_legal 1 [101, 108, 108, 108] (by rw [demo_run]; rfl) 2 (-1) (by simp) (by simp)
    (by simp)).2
  rw [demo_run] at this
  simpa using this

example : ∃ w w', runOps demoOps {} = some w ∧ (Strings.step (.buffer 2) w = .ok () w' ∨ Strings.step (.buffer 2) w = .err w') ∧
    ∀ k xs, k ∉ targets (.buffer 2 : Op Nat) → ShowsAt w k xs → ShowsAt w' k xs :=
  C37_immutable demoOps (.buffer 2) demo_legal (by rw [demo_run]; simp [Legal, Alive])

example : ∃ w s s' p h', runOps demoOps {} = some w ∧ w.objs[2]? = some (some s) ∧ buffer s w.heap = .ok (s', p) h' ∧
    read p.1 p.2 2 h' = .ok [108, 0] h' ∧ ShowsAt { heap := h', objs := w.objs.set 2 (some s') } 2 [108] :=
  C39_buffer demoOps demo_legal 2 [108] (by rw [demo_run]; rfl)

example : ∃ w s t, runOps demoOps {} = some w ∧ w.objs[1]? = some (some s) ∧ w.objs[2]? = some (some t) ∧
    compare' compare s t w.heap = .ok .lt w.heap :=
  C40_compare compare demoOps demo_legal 1 2 [101, 108, 108, 108] [108] (by rw [demo_run]; rfl) (by rw [demo_run]; rfl)

end Vlpp
