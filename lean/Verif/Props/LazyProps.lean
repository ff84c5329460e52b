import Verif.Lemmas.Pipe
import Verif.Props.EnumProps

/-!
# Properties C17-C26, C60: lazy lists

A source is any program `p` made of lazy list functions (Model/Pipe.lean) that satisfies `p.Ok` (Spec/Pipe.lean); its
elements are `p.eval`, a list computed by the ordinary list functions.
-/
set_option autoImplicit false
namespace Vlpp
variable {α β κ ν : Type}

/-- The program can be built, and every enumerator created from the result yields exactly `xs`, with `Index()` equal to
the position, and then nothing. -/
def Pipe.Shows (p : Pipe α) (xs : List α) : Prop := ∃ L, p.build = some (.ok L ()) ∧ L.Yields xs

/-- The same for every way to use an enumerator: any sequence of `Next`, `Reset` and `Clone`. -/
def Pipe.Follows (p : Pipe α) (xs : List α) : Prop :=
  ∃ L s, p.build = some (.ok L ()) ∧ L.create = some s ∧
    ∀ ops, L.A.runOps ops s = some (Spec.cursorRun xs ops (some 0))

theorem Pipe.shows {p : Pipe α} (h : p.Ok) : p.Shows p.eval := by
  obtain ⟨L, e, _, hL⟩ := p.built h
  exact ⟨L, e, (hL false (fun h => by cases h)).yields⟩

theorem Pipe.follows {p : Pipe α} (h : p.Ok) (hf : p.Full) : p.Follows p.eval := by
  obtain ⟨L, e, _, hL⟩ := p.built h
  obtain ⟨c, s, e', hR, hfull⟩ := (hL true (fun _ => hf)).create
  exact ⟨L, s, e, e', fun ops => (c.runOps (hfull rfl).1 (hfull rfl).2 ops s).1 [] _ hR⟩

/-- **C17.** -/
theorem C17_select_where_concat_pairwise (p q : Pipe α) (r : Pipe β) (hp : p.Ok) (hq : q.Ok) (hr : r.Ok)
    (f : α → β) (t : α → Bool) :
    (p.select f).Shows (p.eval.map f) ∧ (p.where' t).Shows (p.eval.filter t) ∧
    (p.concat q).Shows (p.eval ++ q.eval) ∧ (p.pairwise r).Shows (p.eval.zip r.eval) :=
  ⟨Pipe.shows (p := p.select f) hp, Pipe.shows (p := p.where' t) hp, Pipe.shows (p := p.concat q) ⟨hp, hq⟩,
    Pipe.shows (p := p.pairwise r) ⟨hp, hr⟩⟩

/-- The same under any use of `Next`, `Reset` and `Clone`, for sources that do not enumerate a dictionary or group. -/
theorem C17_any_use (p q : Pipe α) (r : Pipe β) (hp : p.Ok) (hq : q.Ok) (hr : r.Ok) (fp : p.Full) (fq : q.Full)
    (fr : r.Full) (f : α → β) (t : α → Bool) :
    (p.select f).Follows (p.eval.map f) ∧ (p.where' t).Follows (p.eval.filter t) ∧
    (p.concat q).Follows (p.eval ++ q.eval) ∧ (p.pairwise r).Follows (p.eval.zip r.eval) :=
  ⟨Pipe.follows (p := p.select f) hp fp, Pipe.follows (p := p.where' t) hp fp,
    Pipe.follows (p := p.concat q) ⟨hp, hq⟩ ⟨fp, fq⟩, Pipe.follows (p := p.pairwise r) ⟨hp, hr⟩ ⟨fp, fr⟩⟩

/-- `From(xs).Skip(1).Where(x > 1).Concat(From(dict).Select(key))`, mapped -/
example : ((((Pipe.list [5, 1, 2, 3]).skip 1).where' (fun x : Nat => decide (x > 1))).concat
      ((Pipe.dict (κ := Nat) (ν := String) ⟨[7, 8], ["a", "b"]⟩).select Prod.fst)).Shows [2, 3, 7, 8] :=
  (C17_select_where_concat_pairwise (((Pipe.list [5, 1, 2, 3]).skip 1).where' (fun x : Nat => decide (x > 1)))
    ((Pipe.dict (κ := Nat) (ν := String) ⟨[7, 8], ["a", "b"]⟩).select Prod.fst) (Pipe.list [()])
    (by simp [Pipe.Ok]) rfl trivial (fun _ => ()) (fun _ => true)).2.2.1

/-- **C18, partial.** `Skip(n)` for every `n ≥ 0` and every source; `Take(n)` for every source and every `n ≥ 1`, and
for `n ≤ 0` if `Index()` of the source does not start below `n - 1`.
Missing (false, see `C18_take_violated`): `Take(0)` of a source whose `Index()` starts below -1, as after `Skip`. -/
theorem C18_take_skip_partial (p : Pipe α) (hp : p.Ok) (n : Int) :
    (1 ≤ n ∨ n - 1 ≤ p.start → (p.take n).Shows (p.eval.take n.toNat)) ∧
    (0 ≤ n → (p.skip n).Shows (p.eval.drop n.toNat)) :=
  ⟨fun h => Pipe.shows (p := p.take n) ⟨hp, h⟩, fun h => Pipe.shows (p := p.skip n) ⟨hp, h⟩⟩

example : (((Pipe.list ["a", "b", "c", "d"]).skip 1).take 2).Shows ["b", "c"] :=
  (C18_take_skip_partial ((Pipe.list ["a", "b", "c", "d"]).skip 1) ⟨trivial, by omega⟩ 2).1 (.inl (by omega))

/-- **C18 is false**: for every source whose `Index()` starts below `n - 1`, `Take(n)` with `n ≤ 0` yields the first
element of the source (if there is one) instead of nothing. -/
theorem C18_take_violated (p : Pipe α) (hp : p.Ok) (n : Int) (hn : n ≤ 0) (hs : p.start < n - 1) :
    (p.take n).Shows (p.eval.take 1) := by
  obtain ⟨L, e, _, hL⟩ := p.built hp
  have h0 := hL false (fun h => by cases h)
  clear hL
  revert h0
  generalize p.eval = xs
  intro h0
  obtain ⟨c, s, ec, hR, _⟩ := h0.create
  obtain ⟨s', ec', hR'⟩ := c.fresh hR
  refine ⟨⟨.take L.A n, s⟩, by simp only [Pipe.build, e, Pipe.andThen, LazyList.take, ec]; rfl, ?_⟩
  refine ⟨s', ec', ?_⟩
  have hidx := c.index hR'
  simp only [List.length_nil, if_true] at hidx
  have hstep : (Ator.take L.A n).next s' = L.A.next s' := by
    simp only [Ator.take]; rw [if_neg (by omega)]
  have dead : ∀ (k : Nat) (s1 : L.A.σ), c.D s1 → (Ator.take L.A n).SilentFor k s1 := by
    intro k
    induction k with
    | zero => intro _ _; trivial
    | succ k ih =>
      intro s1 h1
      by_cases hi : L.A.index s1 ≥ n - 1
      · exact ⟨s1, by simp only [Ator.take]; rw [if_pos hi], ih s1 h1⟩
      · obtain ⟨s2, e2, h2⟩ := c.dead h1
        exact ⟨s2, by simp only [Ator.take]; rw [if_neg hi]; exact e2, ih s2 h2⟩
  cases xs with
  | nil =>
    intro k
    cases k with
    | zero => trivial
    | succ k =>
      obtain ⟨s1, e1, h1⟩ := c.stop hR'
      exact ⟨s1, hstep.trans e1, dead k s1 h1⟩
  | cons x l =>
    obtain ⟨s1, e1, h1⟩ := c.step hR'
    have hi1 := c.index h1
    simp at hi1
    refine ⟨s1, hstep.trans e1, c.current h1 x (by simp), hi1, ?_⟩
    intro k
    induction k with
    | zero => trivial
    | succ k ih =>
      refine ⟨s1, ?_, ih⟩
      show (Ator.take L.A n).next s1 = _
      simp only [Ator.take]
      rw [if_pos (by omega)]

/-- `From({"a","b","c"}).Skip(1).Take(0)` yields "b". -/
example : (((Pipe.list ["a", "b", "c"]).skip 1).take 0).Shows ["b"] :=
  C18_take_violated ((Pipe.list ["a", "b", "c"]).skip 1) ⟨trivial, by omega⟩ 0 (by omega)
    (by show (-1 - 1 : Int) < 0 - 1; omega)

/-- **C19, partial.** `Repeat(n)` of every source that does not enumerate a dictionary or group directly.
Missing (false, see `C19_repeat_violated`): dictionaries and groups, because `Repeat` calls `Reset`. -/
theorem C19_repeat_partial (p : Pipe α) (hp : p.Ok) (hf : p.Full) (n : Int) :
    (p.repeat' n).Shows (List.replicate n.toNat p.eval).flatten :=
  Pipe.shows (p := p.repeat' n) ⟨hp, hf⟩

example : (((Pipe.list [1, 2, 3]).where' (fun x : Nat => decide (x ≠ 2))).repeat' 2).Shows [1, 3, 1, 3] :=
  C19_repeat_partial ((Pipe.list [1, 2, 3]).where' (fun x : Nat => decide (x ≠ 2))) (by simp [Pipe.Ok])
    (by simp [Pipe.Full]) 2

theorem foldLoop_true {A : Ator.{0, 0} α} {f : β → α → Option β} {acc acc' : β} {s s' : A.σ} {x : α}
    (e : A.next s = some (.ok true s')) (hx : A.current s' = some x) (hf : f acc x = some acc') :
    LazyList.foldLoop A f acc s = LazyList.foldLoop A f acc' s' := by
  rw [LazyList.foldLoop.eq_def, e]
  simp only [hx, hf]

theorem foldLoop_err {A : Ator.{0, 0} α} {f : β → α → Option β} {acc : β} {s s' : A.σ}
    (e : A.next s = some (.err s')) : LazyList.foldLoop A f acc s = some (.err ()) := by
  rw [LazyList.foldLoop.eq_def, e]

/-- An enumerator that cannot be reset cannot be repeated: the loop over all elements raises an Error. -/
theorem foldLoop_repeat_err {A : Ator.{0, 0} α} {xs : List α} {i0 : Int} (c : A.Contract xs i0)
    (hreset : ∀ s, ∃ s', A.reset s = .err s') {n : Int} (hn : 0 < n) (f : β → α → β) (acc : β)
    {s : Ator.RepeatState A.σ} {ys zs : List α} (h : c.R s.enumerator ys zs) (hc : s.repeatedCount = 0) :
    LazyList.foldLoop (.repeat' A n) (fun b a => some (f b a)) acc s = some (.err ()) := by
  induction zs generalizing s ys acc with
  | nil =>
    obtain ⟨s1, e1, _⟩ := c.stop h
    obtain ⟨s2, e2⟩ := hreset s1
    have : Ator.repeatNext A n s = some (.err ⟨s2, s.index, s.repeatedCount + 1⟩) := by
      rw [Ator.repeatNext, if_pos (by omega), e1]
      simp [e2]
    exact foldLoop_err (A := .repeat' A n) this
  | cons z zs ih =>
    obtain ⟨s1, e1, h1⟩ := c.step h
    have : Ator.repeatNext A n s = some (.ok true ⟨s1, s.index + 1, s.repeatedCount⟩) := by
      rw [Ator.repeatNext, if_pos (by omega), e1]
      rfl
    have hcur : A.current s1 = some z := c.current h1 z (by simp)
    exact (foldLoop_true (A := .repeat' A n) this hcur rfl).trans
      (ih (f acc z) (s := ⟨s1, s.index + 1, s.repeatedCount⟩) h1 hc)

/-- **C19 is false**: for every dictionary (empty or not) and every `n ≥ 1`, enumerating `From(dictionary).Repeat(n)`
raises an Error. -/
theorem C19_repeat_violated (d : DictC κ ν) (hlen : d.keys.length = d.values.length) (n : Int) (hn : 1 ≤ n) :
    ∃ L, (LazyList.ofDict d).repeat' n = some L ∧ L.toList = some (.err ()) := by
  refine ⟨⟨.repeat' (.dict d) n, ⟨Ator.dictStart, -1, 0⟩⟩, rfl, ?_⟩
  have : LazyList.toList (⟨.repeat' (.dict d) n, ⟨Ator.dictStart, -1, 0⟩⟩ : LazyList (κ × ν))
      = LazyList.foldLoop (.repeat' (.dict d) n) (fun l x => some (l ++ [x])) [] ⟨Ator.dictStart, -1, 0⟩ := rfl
  rw [this]
  exact foldLoop_repeat_err (Ator.dictC d hlen) (fun s => ⟨_, Ator.dict_reset d s⟩) (by omega) (fun l x => l ++ [x]) []
    (s := ⟨Ator.dictStart, -1, 0⟩) (Ator.dictC_start d hlen) rfl

example : ∃ L, (LazyList.ofDict (⟨[1, 2], ["a", "b"]⟩ : DictC Int String)).repeat' 1 = some L ∧
    L.toList = some (.err ()) := C19_repeat_violated (κ := Int) (ν := String) ⟨[1, 2], ["a", "b"]⟩ rfl 1 (by omega)

/-- What "the first occurrence of each element" means. -/
theorem Spec.firsts_spec (ord : α → α → Ordering) [Std.TransCmp ord] (xs : List α) :
    (Spec.firsts (Spec.eqBy ord) xs).Sublist xs ∧ (Spec.firsts (Spec.eqBy ord) xs).Pairwise (fun x y => ord x y ≠ .eq) ∧
    (∀ x ∈ xs, ∃ y ∈ Spec.firsts (Spec.eqBy ord) xs, ord y x = .eq) ∧
    (∀ (i : Nat) (x : α), xs[i]? = some x → (∀ y ∈ xs.take i, ord y x ≠ .eq) → x ∈ Spec.firsts (Spec.eqBy ord) xs) := by
  induction xs with
  | nil => exact ⟨.slnil, .nil, by simp, by simp⟩
  | cons x xs ih =>
    obtain ⟨h1, h2, h3, h4⟩ := ih
    refine ⟨(List.filter_sublist.trans h1).cons_cons x, ?_, ?_, ?_⟩
    · rw [Spec.firsts, List.pairwise_cons]
      exact ⟨fun y hy => by simpa [Spec.eqBy] using (List.mem_filter.1 hy).2, h2.sublist List.filter_sublist⟩
    · intro y hy
      rcases List.mem_cons.1 hy with rfl | hy
      · exact ⟨y, by simp [Spec.firsts], Std.ReflCmp.compare_self⟩
      · obtain ⟨z, hz, e⟩ := h3 y hy
        by_cases hxz : ord x z = .eq
        · exact ⟨x, by simp [Spec.firsts], Std.TransCmp.eq_trans hxz e⟩
        · exact ⟨z, by simp [Spec.firsts, Spec.eqBy, hz, hxz], e⟩
    · intro i y hy hne
      cases i with
      | zero => simp at hy; subst hy; simp [Spec.firsts]
      | succ i =>
        have hxy : ord x y ≠ .eq := hne x (by simp)
        have := h4 i y (by simpa using hy) (fun z hz => hne z (by simp [hz]))
        simp [Spec.firsts, Spec.eqBy, this, hxy]

/-- **C20.** `Distinct()` yields a part of the source in the order of the source, no two of whose elements are equal;
every element of the source equals one of them; and an element of the source that no earlier one equals is one of
them. -/
theorem C20_distinct (p : Pipe α) (hp : p.Ok) (ord : α → α → Ordering) [ht : Std.TransCmp ord] :
    ∃ ys, (p.distinct ord).Shows ys ∧ ys.Sublist p.eval ∧ ys.Pairwise (fun x y => ord x y ≠ .eq) ∧
      (∀ x ∈ p.eval, ∃ y ∈ ys, ord y x = .eq) ∧
      (∀ (i : Nat) (x : α), p.eval[i]? = some x → (∀ y ∈ p.eval.take i, ord y x ≠ .eq) → x ∈ ys) :=
  ⟨_, Pipe.shows (p := p.distinct ord) ⟨hp, ht⟩, Spec.firsts_spec ord p.eval⟩

example : ((Pipe.list [31, 12, 22, 11]).distinct (compareOn (fun x : Nat => x % 10))).Shows [31, 12] :=
  Pipe.shows (p := (Pipe.list [31, 12, 22, 11]).distinct (compareOn (fun x : Nat => x % 10)))
    ⟨trivial, inferInstance⟩

/-- **C21.** -/
theorem C21_reverse (p : Pipe α) (hp : p.Ok) :
    p.reverse.Follows p.eval.reverse ∧ p.reverse.Shows p.eval.reverse ∧ p.reverse.reverse.Follows p.eval := by
  refine ⟨Pipe.follows (p := p.reverse) hp trivial, Pipe.shows (p := p.reverse) hp, ?_⟩
  have := Pipe.follows (p := p.reverse.reverse) hp trivial
  have e : p.reverse.reverse.eval = p.eval := by simp [Pipe.eval]
  rw [e] at this
  exact this

example : (Pipe.dict (κ := Nat) (ν := String) ⟨[7, 8], ["a", "b"]⟩).reverse.Shows [(8, "b"), (7, "a")] :=
  (C21_reverse (Pipe.dict (κ := Nat) (ν := String) ⟨[7, 8], ["a", "b"]⟩) rfl).2.1

/-- **C22.** Each of the three yields elements of the sources in the order of first appearance, no two of which are
equal, and contains (up to equality) exactly the elements in both, in `p` but not in `q`, and in either. -/
theorem C22_set_operations (p q : Pipe α) (hp : p.Ok) (hq : q.Ok) (ord : α → α → Ordering) [ht : Std.TransCmp ord] :
    (∃ ys, (p.intersect q ord).Shows ys ∧ ys.Sublist p.eval ∧ ys.Pairwise (fun x y => ord x y ≠ .eq) ∧
      (∀ y ∈ ys, ∃ z ∈ q.eval, ord z y = .eq) ∧
      (∀ x ∈ p.eval, (∃ z ∈ q.eval, ord z x = .eq) → ∃ y ∈ ys, ord y x = .eq)) ∧
    (∃ ys, (p.except q ord).Shows ys ∧ ys.Sublist p.eval ∧ ys.Pairwise (fun x y => ord x y ≠ .eq) ∧
      (∀ y ∈ ys, ∀ z ∈ q.eval, ord z y ≠ .eq) ∧
      (∀ x ∈ p.eval, (∀ z ∈ q.eval, ord z x ≠ .eq) → ∃ y ∈ ys, ord y x = .eq)) ∧
    (∃ ys, (p.union q ord).Shows ys ∧ ys.Sublist (p.eval ++ q.eval) ∧ ys.Pairwise (fun x y => ord x y ≠ .eq) ∧
      (∀ x ∈ p.eval ++ q.eval, ∃ y ∈ ys, ord y x = .eq)) := by
  refine ⟨⟨_, Pipe.shows (p := p.intersect q ord) ⟨hp, hq, ht⟩, ?_⟩, ⟨_, Pipe.shows (p := p.except q ord) ⟨hp, hq, ht⟩, ?_⟩,
    ⟨_, Pipe.shows (p := p.union q ord) ⟨hp, hq, ht⟩, ?_⟩⟩
  · obtain ⟨h1, h2, h3, _⟩ := Spec.firsts_spec ord (p.eval.filter (fun x => q.eval.any (fun y => Spec.eqBy ord y x)))
    refine ⟨h1.trans List.filter_sublist, h2, ?_, ?_⟩
    · intro y hy
      have := (List.mem_filter.1 (h1.subset hy)).2
      simpa [Spec.eqBy] using this
    · intro x hx hz
      exact h3 x (List.mem_filter.2 ⟨hx, by simpa [Spec.eqBy] using hz⟩)
  · obtain ⟨h1, h2, h3, _⟩ := Spec.firsts_spec ord (p.eval.filter (fun x => !q.eval.any (fun y => Spec.eqBy ord y x)))
    refine ⟨h1.trans List.filter_sublist, h2, ?_, ?_⟩
    · intro y hy
      have := (List.mem_filter.1 (h1.subset hy)).2
      simpa [Spec.eqBy] using this
    · intro x hx hz
      exact h3 x (List.mem_filter.2 ⟨hx, by simpa [Spec.eqBy] using hz⟩)
  · obtain ⟨h1, h2, h3, _⟩ := Spec.firsts_spec ord (p.eval ++ q.eval)
    exact ⟨h1, h2, h3⟩

example : ((Pipe.list [3, 1, 3, 2]).intersect (Pipe.list [2, 3, 5]) (compare : Nat → Nat → Ordering)).Shows [3, 2] ∧
    ((Pipe.list [3, 1, 3, 2]).except (Pipe.list [2, 5]) (compare : Nat → Nat → Ordering)).Shows [3, 1] ∧
    ((Pipe.list [3, 1, 3]).union (Pipe.list [2, 1]) (compare : Nat → Nat → Ordering)).Shows [3, 1, 2] :=
  ⟨Pipe.shows (p := (Pipe.list [3, 1, 3, 2]).intersect (Pipe.list [2, 3, 5]) compare) ⟨trivial, trivial, inferInstance⟩,
   Pipe.shows (p := (Pipe.list [3, 1, 3, 2]).except (Pipe.list [2, 5]) compare) ⟨trivial, trivial, inferInstance⟩,
   Pipe.shows (p := (Pipe.list [3, 1, 3]).union (Pipe.list [2, 1]) compare) ⟨trivial, trivial, inferInstance⟩⟩

/-- the largest element by a chain of comparisons -/
theorem foldl_max {ord : α → α → Ordering} [Std.TransCmp ord] (l : List α) (x : α) :
    l.foldl (fun a b => if ord a b == .gt then a else b) x ∈ x :: l ∧
    ∀ y ∈ x :: l, ord y (l.foldl (fun a b => if ord a b == .gt then a else b) x) ≠ .gt := by
  induction l generalizing x with
  | nil => simp [Std.ReflCmp.compare_self (cmp := ord)]
  | cons z l ih =>
    simp only [List.foldl_cons]
    by_cases h : ord x z = .gt
    · simp only [h, BEq.rfl, if_true]
      obtain ⟨h1, h2⟩ := ih x
      refine ⟨?_, ?_⟩
      · rcases List.mem_cons.1 h1 with e | h1
        · rw [e]; simp
        · exact .tail _ (.tail _ h1)
      · intro y hy
        rcases List.mem_cons.1 hy with rfl | hy
        · exact h2 y (by simp)
        · rcases List.mem_cons.1 hy with rfl | hy
          · have hx := h2 x (by simp)
            have hyx : ord y x = .lt := by rw [Std.OrientedCmp.eq_swap (cmp := ord), h]; rfl
            have := Std.TransCmp.isLE_trans (cmp := ord) (a := y) (b := x) (by rw [hyx]; rfl) (Ordering.isLE_iff_ne_gt.2 hx)
            exact Ordering.isLE_iff_ne_gt.1 this
          · exact h2 y (by simp [hy])
    · have hb : (ord x z == .gt) = false := by simpa using h
      simp only [hb, Bool.false_eq_true, if_false]
      obtain ⟨h1, h2⟩ := ih z
      refine ⟨by simp only [List.mem_cons] at h1 ⊢; exact .inr h1, ?_⟩
      intro y hy
      rcases List.mem_cons.1 hy with rfl | hy
      · have := Std.TransCmp.isLE_trans (cmp := ord) (a := y) (b := z) (Ordering.isLE_iff_ne_gt.2 h)
          (Ordering.isLE_iff_ne_gt.2 (h2 z (by simp)))
        exact Ordering.isLE_iff_ne_gt.1 this
      · exact h2 y hy

/-- **C23.** On every source: `Aggregate` is the left fold; `All`, `Any`, `Count`, `IsEmpty`, `First`, `Last` return what
their names say; `Max` (`Min`) returns an element that no element is greater (less) than; and the functions without a
default value raise an Error exactly if the source is empty. -/
theorem C23_aggregates (p : Pipe α) (hp : p.Ok) (ord : α → α → Ordering) [Std.TransCmp ord] :
    ∃ L, p.build = some (.ok L ()) ∧
      (∀ (init : β) (f : β → α → β), L.aggregateInit init f = some (.ok (p.eval.foldl f init) ())) ∧
      (∀ t : α → Bool, L.all t = some (.ok (p.eval.all t) ()) ∧ L.any t = some (.ok (p.eval.any t) ())) ∧
      L.count = some (.ok (p.eval.length : Int) ()) ∧ L.isEmpty = some (.ok p.eval.isEmpty ()) ∧
      (∀ d : α, L.firstOr d = some (.ok (p.eval.headD d) ()) ∧ L.lastOr d = some (.ok (p.eval.getLastD d) ())) ∧
      (p.eval = [] → L.first = some (.err ()) ∧ L.last = some (.err ()) ∧
        (∀ f, L.aggregate f = some (.err ())) ∧ L.maximum (fun a b => ord a b == .gt) = some (.err ()) ∧
        L.minimum (fun a b => ord a b == .lt) = some (.err ())) ∧
      (∀ x l, p.eval = x :: l → L.first = some (.ok x ()) ∧ L.last = some (.ok ((x :: l).getLast (by simp)) ()) ∧
        (∀ f, L.aggregate f = some (.ok (l.foldl f x) ())) ∧
        (∃ y ∈ p.eval, L.maximum (fun a b => ord a b == .gt) = some (.ok y ()) ∧ ∀ z ∈ p.eval, ord z y ≠ .gt) ∧
        (∃ y ∈ p.eval, L.minimum (fun a b => ord a b == .lt) = some (.ok y ()) ∧ ∀ z ∈ p.eval, ord z y ≠ .lt)) := by
  obtain ⟨L, e, _, hL⟩ := p.built hp
  have h := hL false (fun h => by cases h)
  refine ⟨L, e, fun init f => h.aggregateInit init f, fun t => ⟨h.all t, h.any t⟩, h.count, h.isEmpty,
    fun d => ⟨h.firstOr d, h.lastOr d⟩, ?_, ?_⟩
  · intro he
    rw [he] at h
    exact ⟨h.first, h.last, fun f => h.aggregate f, h.aggregate _, h.aggregate _⟩
  · intro x l he
    rw [he] at h ⊢
    refine ⟨h.first, ?_, fun f => h.aggregate f, ⟨_, (foldl_max (ord := ord) l x).1, h.aggregate _, (foldl_max (ord := ord) l x).2⟩, ?_⟩
    · rw [h.last, List.getLast?_eq_some_getLast (by simp)]; rfl
    · obtain ⟨h1, h2⟩ := foldl_max (ord := fun a b => ord b a) l x
      have e : (fun a b => if ord b a == .gt then a else b) = (fun a b => if ord a b == .lt then a else b) := by
        funext a b
        rw [Std.OrientedCmp.eq_swap (cmp := ord) (a := b)]
        cases ord a b <;> rfl
      simp only [e] at h1 h2
      refine ⟨_, h1, h.aggregate _, ?_⟩
      intro z hz hlt
      refine h2 z hz ?_
      rw [Std.OrientedCmp.eq_swap (cmp := ord), hlt]; rfl

example : ∃ L : LazyList.{0, 0} Nat, L.Yields [4, 9, 2] ∧ L.count = some (.ok 3 ()) ∧
    (∃ y ∈ [4, 9, 2], L.maximum (fun a b => compare a b == .gt) = some (.ok y ()) ∧
      ∀ z ∈ [4, 9, 2], compare z y ≠ .gt) := by
  obtain ⟨L, e, _, _, hc, _, _, _, h⟩ := C23_aggregates (β := Nat) (Pipe.list (α := Nat) [4, 9, 2]) trivial compare
  obtain ⟨L', e', hy⟩ := Pipe.shows (p := Pipe.list (α := Nat) [4, 9, 2]) trivial
  cases e.symm.trans e'
  exact ⟨L, hy, hc, (h 4 [9, 2] rfl).2.2.2.1⟩

/-- **C24.** `SelectMany` concatenates the selected sequences in source order. -/
theorem C24_selectMany (p : Pipe α) (hp : p.Ok) (f : α → Pipe β) (hf : ∀ x, (f x).Ok) :
    (p.selectMany f).Shows (p.eval.flatMap fun x => (f x).eval) :=
  Pipe.shows (p := p.selectMany f) ⟨hp, hf⟩

example : ((Pipe.list [2, 0, 3]).selectMany (fun n : Nat => (Pipe.list [n, n, n]).take n)).Shows [2, 2, 3, 3, 3] :=
  C24_selectMany (Pipe.list (α := Nat) [2, 0, 3]) trivial (fun n : Nat => (Pipe.list [n, n, n]).take n)
    (fun n => ⟨trivial, by
      cases n with
      | zero => exact .inr (by show (0 - 1 : Int) ≤ -1; omega)
      | succ n => exact .inl (by omega)⟩)

/-- the elements of the groups of pairwise different keys are the elements that have one of the keys -/
theorem groups_perm (ord : κ → κ → Ordering) [Std.TransCmp ord] (f : α → κ) (xs : List α) (ks : List κ)
    (h : ks.Pairwise (fun a b => ord a b ≠ .eq)) :
    (ks.flatMap fun k => xs.filter fun x => ord k (f x) == .eq).Perm
      (xs.filter fun x => ks.any fun k => ord k (f x) == .eq) := by
  induction ks with
  | nil => simp
  | cons k ks ih =>
    rw [List.pairwise_cons] at h
    rw [List.flatMap_cons]
    refine ((ih h.2).append_left _).trans ?_
    have key := List.filter_append_perm (fun x => ord k (f x) == .eq)
      (xs.filter fun x => (k :: ks).any fun k => ord k (f x) == .eq)
    refine List.Perm.trans (List.Perm.of_eq ?_) key
    rw [List.filter_filter, List.filter_filter]
    congr 1
    · refine List.filter_congr fun x _ => ?_
      simp only [List.any_cons]
      cases (ord k (f x) == .eq) <;> simp
    · refine List.filter_congr fun x _ => ?_
      simp only [List.any_cons]
      cases hk : (ord k (f x) == .eq) with
      | false => simp
      | true =>
        simp only [Bool.not_true, Bool.false_and]
        rw [List.any_eq_false]
        intro k' hk' he
        simp at hk he
        refine h.1 k' hk' (Std.TransCmp.eq_trans hk ?_)
        rw [Std.OrientedCmp.eq_swap (cmp := ord), he]; rfl

/-- **C24.** `GroupBy` yields one pair for each distinct key in the order of first appearance; the lazy list of a key
yields exactly the elements with this key in source order; and all groups together are a permutation of the source. -/
theorem C24_groupBy (p : Pipe α) (hp : p.Ok) (f : α → κ) (ord : κ → κ → Ordering) [Std.TransCmp ord] :
    ∃ L N, p.build = some (.ok L ()) ∧ L.groupBy f (fun a b => some (ord a b)) (fun a b => ord a b == .eq) = some N ∧
      ∃ (keys : List κ) (part : κ → LazyList α),
        N.Yields (keys.map fun k => (k, part k)) ∧
        (∀ k, (part k).Yields (p.eval.filter fun x => ord k (f x) == .eq)) ∧
        keys.Sublist (p.eval.map f) ∧ keys.Pairwise (fun a b => ord a b ≠ .eq) ∧
        (∀ (i : Nat) (x : α), p.eval[i]? = some x → (∀ y ∈ p.eval.take i, ord (f y) (f x) ≠ .eq) → f x ∈ keys) ∧
        (keys.flatMap fun k => p.eval.filter fun x => ord k (f x) == .eq).Perm p.eval := by
  obtain ⟨L, e, _, hL⟩ := p.built hp
  obtain ⟨N, part, eN, hN, hpart⟩ := (hL false (fun h => by cases h)).groupBy (cmp := fun a b => some (ord a b))
    (ord := ord) (fun _ _ => rfl) f (fun a b => ord a b == .eq)
  obtain ⟨h1, h2, h3, h4⟩ := Spec.firsts_spec ord (p.eval.map f)
  refine ⟨L, N, e, eN, _, part, hN.yields, fun k => (hpart k).yields, h1, h2, ?_, ?_⟩
  · intro i x hx hy
    refine h4 i (f x) (by rw [List.getElem?_map, hx]; rfl) ?_
    intro y hm
    rw [← List.map_take] at hm
    obtain ⟨z, hz, rfl⟩ := List.mem_map.1 hm
    exact hy z hz
  · refine (groups_perm ord f p.eval _ h2).trans (List.Perm.of_eq ?_)
    rw [List.filter_eq_self]
    intro x hx
    obtain ⟨k, hk, e⟩ := h3 (f x) (List.mem_map_of_mem hx)
    rw [List.any_eq_true]
    exact ⟨k, hk, by simp [e]⟩

example : ∃ (L : LazyList.{0, 0} Nat) (N : LazyList (Nat × LazyList Nat)), L.Yields [31, 12, 22, 11] ∧
    L.groupBy (· % 10) (fun a b => some (compare a b)) (fun a b => compare a b == .eq) = some N ∧
    ∃ part : Nat → LazyList Nat, N.Yields [(1, part 1), (2, part 2)] ∧ (part 2).Yields [12, 22] := by
  obtain ⟨L, e, _, hL⟩ := Pipe.built (Pipe.list (α := Nat) [31, 12, 22, 11]) trivial
  obtain ⟨N, part, eN, hN, hpart⟩ := (hL false (fun h => by cases h)).groupBy (cmp := fun a b => some (compare a b))
    (ord := compare) (fun _ _ => rfl) (fun x : Nat => x % 10) (fun a b => compare a b == .eq)
  exact ⟨L, N, (hL false (fun h => by cases h)).yields, eN, part, hN.yields, (hpart 2).yields⟩

/-- **C25.** `OrderBy` (and below `OrderByKey`, with the comparison of keys, and `OrderBySelf`) yields, under any use of the
enumerator, a permutation of the source in which no element is greater than a later one; the source still yields what it
yielded. -/
theorem C25_orderBy (p : Pipe α) (hp : p.Ok) (ord : α → α → Ordering) [ht : Std.TransCmp ord] :
    ∃ ys, (p.orderBy ord).Shows ys ∧ (p.orderBy ord).Follows ys ∧ ys.Perm p.eval ∧
      ys.Pairwise (fun x y => ord x y ≠ .gt) ∧ p.Shows p.eval := by
  obtain ⟨_, h1, h2⟩ := QSort.result_spec ord p.eval
  exact ⟨_, Pipe.shows (p := p.orderBy ord) ⟨hp, ht⟩, Pipe.follows (p := p.orderBy ord) ⟨hp, ht⟩ trivial, h1, h2,
    Pipe.shows hp⟩

theorem C25_orderByKey (p : Pipe α) (hp : p.Ok) (f : α → κ) (ord : κ → κ → Ordering) [Std.TransCmp ord] :
    ∃ L N ys, p.build = some (.ok L ()) ∧ L.orderByKey f (fun a b => some (ord a b)) = some (.ok N ()) ∧ N.Yields ys ∧
      ys.Perm p.eval ∧ ys.Pairwise (fun x y => ord (f x) (f y) ≠ .gt) := by
  have ht : Std.TransCmp (fun a b => ord (f a) (f b)) :=
    { eq_swap := Std.OrientedCmp.eq_swap (cmp := ord), isLE_trans := Std.TransCmp.isLE_trans (cmp := ord) }
  obtain ⟨L, e, _, hL⟩ := p.built hp
  obtain ⟨_, h1, h2⟩ := QSort.result_spec (fun a b => ord (f a) (f b)) p.eval
  exact ⟨L, _, _, e, (hL false (fun h => by cases h)).orderBy, (LazyList.holds_ofList _).yields, h1, h2⟩

theorem C25_orderBySelf (p : Pipe α) (hp : p.Ok) (ord : α → α → Ordering) [ht : Std.TransCmp ord] :
    ∃ L N ys, p.build = some (.ok L ()) ∧ L.orderBySelf (fun a b => some (ord a b)) = some (.ok N ()) ∧ N.Yields ys ∧
      ys.Perm p.eval ∧ ys.Pairwise (fun x y => ord x y ≠ .gt) :=
  C25_orderByKey p hp id ord

example : ∃ L N ys, (Pipe.list [31, 12, 22, 11]).build = some (.ok L ()) ∧
    L.orderBySelf (fun a b : Nat => some (compare a b)) = some (.ok N ()) ∧ N.Yields ys ∧ ys.Perm [31, 12, 22, 11] := by
  obtain ⟨L, N, ys, h1, h2, h3, h4, _⟩ := C25_orderBySelf (Pipe.list (α := Nat) [31, 12, 22, 11]) trivial (compare : Nat → Nat → Ordering)
  exact ⟨L, N, ys, h1, h2, h3, h4⟩

example : ∃ ys, ((Pipe.list [31, 12, 22, 11]).orderBy (compare : Nat → Nat → Ordering)).Shows ys ∧
    ys.Perm [31, 12, 22, 11] := by
  obtain ⟨ys, h, _, hp, _⟩ := C25_orderBy (Pipe.list (α := Nat) [31, 12, 22, 11]) trivial (compare : Nat → Nat → Ordering)
  exact ⟨ys, h, hp⟩

theorem Spec.lexOrd_eq_iff {ord : α → β → Ordering} {xs : List α} {ys : List β} :
    Spec.lexOrd ord xs ys = .eq ↔ xs.length = ys.length ∧
      ∀ (i : Nat) (x : α) (y : β), xs[i]? = some x → ys[i]? = some y → ord x y = .eq := by
  induction xs generalizing ys with
  | nil => cases ys <;> simp [Spec.lexOrd]
  | cons x xs ih =>
    cases ys with
    | nil => simp [Spec.lexOrd]
    | cons y ys =>
      have hc : Spec.lexOrd ord (x :: xs) (y :: ys) = .eq ↔ ord x y = .eq ∧ Spec.lexOrd ord xs ys = .eq := by
        rw [Spec.lexOrd]
        cases h : ord x y <;> simp
      rw [hc, ih]
      constructor
      · rintro ⟨h1, h2, h3⟩
        refine ⟨by simp [h2], ?_⟩
        intro i a b ha hb
        cases i with
        | zero => simp at ha hb; subst ha; subst hb; exact h1
        | succ i => exact h3 i a b (by simpa using ha) (by simpa using hb)
      · rintro ⟨h1, h2⟩
        exact ⟨h2 0 x y rfl rfl, by simpa using h1, fun i a b ha hb => h2 (i + 1) a b (by simpa using ha) (by simpa using hb)⟩

theorem Spec.lexOrd_trans {ord : α → α → Ordering} [Std.TransCmp ord] : Std.TransCmp (Spec.lexOrd ord) where
  eq_swap := by
    intro xs ys
    induction xs generalizing ys with
    | nil => cases ys <;> rfl
    | cons x xs ih =>
      cases ys with
      | nil => rfl
      | cons y ys =>
        rw [Spec.lexOrd, Spec.lexOrd, Std.OrientedCmp.eq_swap (cmp := ord) (a := x)]
        cases h : ord y x with
        | eq => exact ih
        | lt => rfl
        | gt => rfl
  isLE_trans := by
    intro xs ys zs
    induction xs generalizing ys zs with
    | nil => intro _ _; cases zs <;> rfl
    | cons x xs ih =>
      intro h1 h2
      cases ys with
      | nil => cases h1
      | cons y ys =>
        cases zs with
        | nil => cases h2
        | cons z zs =>
          rw [Spec.lexOrd] at h1 h2 ⊢
          cases hxy : ord x y with
          | gt => rw [hxy] at h1; cases h1
          | lt =>
            cases hyz : ord y z with
            | gt => rw [hyz] at h2; cases h2
            | lt => rw [Std.TransCmp.lt_trans hxy hyz]; rfl
            | eq => rw [Std.TransCmp.lt_of_lt_of_eq hxy hyz]; rfl
          | eq =>
            rw [hxy] at h1
            cases hyz : ord y z with
            | gt => rw [hyz] at h2; cases h2
            | lt => rw [Std.TransCmp.lt_of_eq_of_lt hxy hyz]; rfl
            | eq =>
              rw [hyz] at h2
              rw [Std.TransCmp.eq_trans hxy hyz]
              exact ih h1 h2

/-- **C26.** `CompareEnumerable` of any two sources ends and returns `c p q`, where `c` is a total preorder of sequences
(reflexive, antisymmetric up to equality, transitive) such that: sequences are equal exactly if they have the same
length and equal elements; a proper prefix is less; and otherwise the first different pair decides. -/
theorem C26_compareEnumerable (ord : α → α → Ordering) [Std.TransCmp ord] :
    ∃ c : List α → List α → Ordering, Std.TransCmp c ∧
      (∀ xs ys, c xs ys = .eq ↔ xs.length = ys.length ∧
        ∀ (i : Nat) (x y : α), xs[i]? = some x → ys[i]? = some y → ord x y = .eq) ∧
      (∀ xs y ys, c xs (xs ++ y :: ys) = .lt) ∧
      (∀ pre x y xs ys, ord x y ≠ .eq → c (pre ++ x :: xs) (pre ++ y :: ys) = ord x y) ∧
      ∀ (p q : Pipe α), p.Ok → q.Ok → ∃ L M, p.build = some (.ok L ()) ∧ q.build = some (.ok M ()) ∧
        L.compare M (fun a b => some (ord a b)) = some (.ok (some (c p.eval q.eval)) ()) := by
  refine ⟨Spec.lexOrd ord, Spec.lexOrd_trans, fun xs ys => Spec.lexOrd_eq_iff, ?_, ?_, ?_⟩
  · intro xs y ys
    induction xs with
    | nil => rfl
    | cons x xs ih =>
      rw [List.cons_append, Spec.lexOrd, Std.ReflCmp.compare_self (cmp := ord)]; exact ih
  · intro pre x y xs ys h
    induction pre with
    | nil =>
      rw [List.nil_append, List.nil_append, Spec.lexOrd]
      cases hxy : ord x y <;> simp_all
    | cons z pre ih =>
      rw [List.cons_append, List.cons_append, Spec.lexOrd, Std.ReflCmp.compare_self (cmp := ord)]; exact ih
  · intro p q hp hq
    obtain ⟨L, e, _, hL⟩ := p.built hp
    obtain ⟨M, e', _, hM⟩ := q.built hq
    exact ⟨L, M, e, e', (hL false (fun h => by cases h)).compare (hM false (fun h => by cases h)) (fun _ _ => rfl)⟩

example : ∃ L M : LazyList.{0, 0} Nat, L.Yields [1, 2] ∧ M.Yields [1, 3] ∧
    L.compare M (fun a b => some (compare a b)) = some (.ok (some .lt) ()) := by
  obtain ⟨L, e, _, hL⟩ := Pipe.built (Pipe.list (α := Nat) [1, 2]) trivial
  obtain ⟨M, e', _, hM⟩ := Pipe.built ((Pipe.list (α := Nat) [7, 1, 3]).skip 1) ⟨trivial, by omega⟩
  exact ⟨L, M, (hL false (fun h => by cases h)).yields, (hM false (fun h => by cases h)).yields,
    (hL false (fun h => by cases h)).compare (hM false (fun h => by cases h)) (ord := compare) (fun _ _ => rfl)⟩

/-! ## C60: cloned enumerators -/

/-- the state of an enumerator after a script; `none` if any call fails -/
def Ator.after (A : Ator.{0, 0} α) : List EnumOp → A.σ → Option A.σ
  | [], s => some s
  | .next :: ops, s =>
    match A.next s with
    | some (.ok _ s') => A.after ops s'
    | _ => none
  | .reset :: ops, s =>
    match A.reset s with
    | .ok _ s' => A.after ops s'
    | _ => none
  | .clone :: ops, s =>
    match A.clone s with
    | some s' => A.after ops s'
    | none => none

/-- the position of a cursor after a script -/
def Spec.cursorAfter (xs : List α) : List EnumOp → Option Nat → Option Nat
  | [], k => k
  | .next :: ops, some k => Spec.cursorAfter xs ops (if k < xs.length then some (k + 1) else none)
  | .next :: ops, none => Spec.cursorAfter xs ops none
  | .reset :: ops, _ => Spec.cursorAfter xs ops (some 0)
  | .clone :: ops, k => Spec.cursorAfter xs ops k

/-- the invariant of a position -/
def Ator.Contract.At {A : Ator.{0, 0} α} {xs : List α} {i0 : Int} (c : A.Contract xs i0) (s : A.σ) : Option Nat → Prop
  | some k => k ≤ xs.length ∧ c.R s (xs.take k) (xs.drop k)
  | none => c.D s

theorem Ator.Contract.after {A : Ator.{0, 0} α} {xs : List α} {i0 : Int} (c : A.Contract xs i0) (hr : c.Resets)
    (hc : c.Clones) (ops : List EnumOp) {s : A.σ} {k : Option Nat} (h : c.At s k) :
    ∃ s', A.after ops s = some s' ∧ c.At s' (Spec.cursorAfter xs ops k) := by
  induction ops generalizing s k with
  | nil => exact ⟨s, rfl, h⟩
  | cons op ops ih =>
    cases op with
    | next =>
      cases k with
      | none =>
        obtain ⟨s1, e, h1⟩ := c.dead h
        obtain ⟨s2, e2, h2⟩ := ih (s := s1) (k := none) h1
        exact ⟨s2, by simp [Ator.after, e, e2], h2⟩
      | some k =>
        obtain ⟨_, hR⟩ : k ≤ xs.length ∧ c.R s (xs.take k) (xs.drop k) := h
        by_cases hk : k < xs.length
        · rw [List.drop_eq_getElem_cons hk] at hR
          obtain ⟨s1, e, h1⟩ := c.step hR
          rw [← List.take_succ_eq_append_getElem hk] at h1
          obtain ⟨s2, e2, h2⟩ := ih (s := s1) (k := some (k + 1)) ⟨hk, h1⟩
          exact ⟨s2, by simp [Ator.after, e, e2], by rw [Spec.cursorAfter, if_pos hk]; exact h2⟩
        · rw [List.drop_eq_nil_of_le (by omega)] at hR
          obtain ⟨s1, e, h1⟩ := c.stop hR
          obtain ⟨s2, e2, h2⟩ := ih (s := s1) (k := none) h1
          exact ⟨s2, by simp [Ator.after, e, e2], by rw [Spec.cursorAfter, if_neg hk]; exact h2⟩
    | reset =>
      have : ∃ s1, A.reset s = .ok () s1 ∧ c.R s1 [] xs := by
        cases k with
        | none => exact hr.dead h
        | some k => exact hr.live h.2
      obtain ⟨s1, e, h1⟩ := this
      obtain ⟨s2, e2, h2⟩ := ih (s := s1) (k := some 0) (by simpa [Ator.Contract.At] using h1)
      exact ⟨s2, by simp [Ator.after, e, e2], h2⟩
    | clone =>
      have : ∃ s1, A.clone s = some s1 ∧ c.At s1 k := by
        cases k with
        | none => exact hc.dead h
        | some k =>
          obtain ⟨s1, e, h1⟩ := hc.live h.2
          exact ⟨s1, e, h.1, h1⟩
      obtain ⟨s1, e, h1⟩ := this
      obtain ⟨s2, e2, h2⟩ := ih h1
      exact ⟨s2, by simp [Ator.after, e, e2], h2⟩

/-- **C60, partial.** For every program that does not enumerate a dictionary or group directly and every use of an
enumerator of it: the enumerator can be cloned; if it is at an element (the `k`-th), then the clone and the original
have this element as `Current()` and `k - 1` as `Index()`; and whatever is done next with the clone gives the same
results as doing it with the original, namely those of a cursor at this position.
Missing: dictionaries and groups (false, `C10_clone_violated`); independence of the two objects is immediate here
because an enumerator is modelled by the values of its data members (no enumerator shares a mutable object with its
clone). -/
theorem C60_clone_partial (p : Pipe α) (hp : p.Ok) (hf : p.Full) :
    ∃ L s0, p.build = some (.ok L ()) ∧ L.create = some s0 ∧ ∀ ops, ∃ s s',
      L.A.after ops s0 = some s ∧ L.A.clone s = some s' ∧
      (∀ (k : Nat) x, Spec.cursorAfter p.eval ops (some 0) = some (k + 1) → p.eval[k]? = some x →
        L.A.current s = some x ∧ L.A.current s' = some x ∧ L.A.index s = k ∧ L.A.index s' = k) ∧
      ∀ ops', L.A.runOps ops' s' = some (Spec.cursorRun p.eval ops' (Spec.cursorAfter p.eval ops (some 0))) ∧
        L.A.runOps ops' s = L.A.runOps ops' s' := by
  obtain ⟨L, e, _, hL⟩ := p.built hp
  obtain ⟨c, s0, e0, hR, hfull⟩ := (hL true (fun _ => hf)).create
  obtain ⟨hr, hc⟩ := hfull rfl
  refine ⟨L, s0, e, e0, fun ops => ?_⟩
  obtain ⟨s, es, hs⟩ := c.after hr hc ops (s := s0) (k := some 0) (by simpa [Ator.Contract.At] using hR)
  generalize Spec.cursorAfter p.eval ops (some 0) = pos at hs
  cases pos with
  | none =>
    obtain ⟨s', ec, hs'⟩ := hc.dead hs
    refine ⟨s, s', es, ec, fun k x h => (by cases h), fun ops' => ?_⟩
    have h1 := (c.runOps hr hc ops' s').2 hs'
    have h2 := (c.runOps hr hc ops' s).2 hs
    exact ⟨h1, h2.trans h1.symm⟩
  | some n =>
    obtain ⟨hn, hs⟩ : n ≤ p.eval.length ∧ c.R s (p.eval.take n) (p.eval.drop n) := hs
    obtain ⟨s', ec, hs'⟩ := hc.live hs
    refine ⟨s, s', es, ec, ?_, fun ops' => ?_⟩
    · intro k x h hx
      cases h
      have hk := (List.getElem?_eq_some_iff.1 hx).1
      have hlast : (p.eval.take (k + 1)).getLast? = some x := by
        rw [List.take_succ_eq_append_getElem hk]
        simp [(List.getElem?_eq_some_iff.1 hx).2]
      have hlen : (p.eval.take (k + 1)).length = k + 1 := by rw [List.length_take]; omega
      have i1 := c.index hs
      have i2 := c.index hs'
      rw [hlen] at i1 i2
      rw [if_neg (by omega)] at i1 i2
      exact ⟨c.current hs x hlast, c.current hs' x hlast, by omega, by omega⟩
    · have h1 := (c.runOps hr hc ops' s').1 _ _ hs'
      have h2 := (c.runOps hr hc ops' s).1 _ _ hs
      refine ⟨?_, h2.trans h1.symm⟩
      rw [h1, List.length_take, Nat.min_eq_left hn]

example : ∃ L s0 s s', ((Pipe.list (α := Nat) [5, 6, 7]).where' (· != 6)).build = some (.ok L ()) ∧
    L.create = some s0 ∧ L.A.after [.next, .next] s0 = some s ∧ L.A.clone s = some s' ∧
    L.A.current s' = some 7 ∧ L.A.runOps [.next, .reset, .next] s' = some [none, some (5, 0)] := by
  obtain ⟨L, s0, e, e0, h⟩ := C60_clone_partial ((Pipe.list (α := Nat) [5, 6, 7]).where' (· != 6)) trivial trivial
  obtain ⟨s, s', e1, e2, h1, h2⟩ := h [.next, .next]
  exact ⟨L, s0, s, s', e, e0, e1, e2, (h1 1 7 rfl rfl).2.1, (h2 [.next, .reset, .next]).1⟩

end Vlpp
