import Verif.Model.CallResume
import Verif.Spec.ResumePipe
import Verif.Lemmas.CallResume

/-!
# C105: going on with an enumeration after an exception

When a function that was given to an operator throws out of `Next`, the enumerator may be used further: the element that was being computed
is lost and the enumeration goes on behind it.  This is true for most programs (`C105_go_partial`), and wrong for `Skip`, `Take` and
`Pairwise` in the cases below.
-/
set_option autoImplicit false
namespace Vlpp
open Spec (Plan Drawn GoOp GoRet)
variable {W α β : Type}

/-! ## A session -/

/-- Every enumerator stands where its sequence stands. -/
def Stands {A : CallAtor W α} {g0 : Plan W α} {counts : Prop} (c : A.Resume g0 counts) (ss : List A.σ) (gs : List (Plan W α)) : Prop :=
  ss.length = gs.length ∧ ∀ (i : Nat) s g, ss[i]? = some s → gs[i]? = some g → ∃ n, c.R s n g

section session
variable {A : CallAtor W α} {g0 : Plan W α} {counts : Prop} {c : A.Resume g0 counts} {ss : List A.σ} {gs : List (Plan W α)}

theorem Stands.push (h : Stands c ss gs) {s : A.σ} {g : Plan W α} {n : Nat} (hr : c.R s n g) : Stands c (ss ++ [s]) (gs ++ [g]) := by
  refine ⟨by simp [h.1], ?_⟩
  intro i s' g' hs hg
  by_cases hi : i < ss.length
  · rw [List.getElem?_append_left hi] at hs
    rw [List.getElem?_append_left (by rw [← h.1]; exact hi)] at hg
    exact h.2 i s' g' hs hg
  · rw [List.getElem?_append_right (by omega)] at hs
    rw [List.getElem?_append_right (by rw [← h.1]; omega), ← h.1] at hg
    cases hj : i - ss.length with
    | zero =>
      rw [hj] at hs hg
      cases hs; cases hg
      exact ⟨n, hr⟩
    | succ j => rw [hj] at hs; simp at hs

theorem Stands.put (h : Stands c ss gs) (i : Nat) {s : A.σ} {g : Plan W α} {n : Nat} (hr : c.R s n g) :
    Stands c (ss.set i s) (gs.set i g) := by
  refine ⟨by simp [h.1], ?_⟩
  intro j s' g' hs hg
  by_cases hij : i = j
  · subst hij
    rw [List.getElem?_set_self' ] at hs hg
    cases h1 : ss[i]? with
    | none => rw [h1] at hs; cases hs
    | some a =>
      cases h2 : gs[i]? with
      | none => rw [h2] at hg; cases hg
      | some b =>
        rw [h1] at hs; rw [h2] at hg
        cases hs; cases hg
        exact ⟨n, hr⟩
  · rw [List.getElem?_set_ne hij] at hs hg
    exact h.2 j s' g' hs hg

theorem Stands.find (h : Stands c ss gs) (i : Nat) :
    (ss[i]? = none ∧ gs[i]? = none) ∨ ∃ s g n, ss[i]? = some s ∧ gs[i]? = some g ∧ c.R s n g := by
  cases h1 : ss[i]? with
  | none => exact .inl ⟨rfl, by rw [List.getElem?_eq_none_iff] at h1 ⊢; have := h.1; omega⟩
  | some s =>
    cases h2 : gs[i]? with
    | none =>
      rw [List.getElem?_eq_none_iff] at h2
      obtain ⟨hi, _⟩ := List.getElem?_eq_some_iff.1 h1
      have := h.1; omega
    | some g => obtain ⟨n, hr⟩ := h.2 i s g h1 h2; exact .inr ⟨s, g, n, rfl, rfl, hr⟩

end session

/-- one call, and then the others -/
theorem goRun_step (L : CallList W α) (ss ss' : List L.A.σ) (w w' : W) (op : GoOp) (ops : List GoOp) (r : GoRet α)
    (o : Outcome W (List (GoRet α × W))) (h1 : L.go1 ss w op = some (.ok r (ss', w'))) (h2 : L.goRun ss' w' ops = some o) :
    L.goRun ss w (op :: ops) = some (Spec.goRun.more r w' o) := by
  rw [CallList.goRun, h1]
  simp only [h2]
  cases o <;> rfl

theorem goRun_spec (L : CallList W α) {g0 : Plan W α} {counts : Prop} (c : L.A.Resume g0 counts) (h0 : c.R L.prototype 0 g0)
    (ops : List GoOp) : ∀ (ss : List L.A.σ) (gs : List (Plan W α)) (w : W), Stands c ss gs →
    L.goRun ss w ops = some (Spec.goRun g0 gs w ops) := by
  induction ops with
  | nil => intro ss gs w _; rfl
  | cons op ops ih =>
    intro ss gs w h
    cases op with
    | create =>
      obtain ⟨s, e, hr⟩ := c.clone h0
      exact goRun_step L ss _ w w _ ops _ _ (by simp [CallList.go1, CallList.create, e]) (ih _ _ w (h.push hr))
    | clone i =>
      rcases h.find i with ⟨h1, h2⟩ | ⟨s, g, n, h1, h2, hr⟩
      · simp only [Spec.goRun, h2]
        exact goRun_step L ss ss w w _ ops _ _ (by simp [CallList.go1, h1]) (ih _ _ w h)
      · obtain ⟨s', e, hr'⟩ := c.clone hr
        simp only [Spec.goRun, h2]
        exact goRun_step L ss _ w w _ ops _ _ (by simp [CallList.go1, h1, e]) (ih _ _ w (h.push hr'))
    | reset i =>
      rcases h.find i with ⟨h1, h2⟩ | ⟨s, g, n, h1, h2, hr⟩
      · simp only [Spec.goRun, h2]
        exact goRun_step L ss ss w w _ ops _ _ (by simp [CallList.go1, h1]) (ih _ _ w h)
      · simp only [Spec.goRun, h2]
        exact goRun_step L ss _ w w _ ops _ _ (by simp [CallList.go1, h1]) (ih _ _ w (h.put i (c.reset hr)))
    | next i =>
      rcases h.find i with ⟨h1, h2⟩ | ⟨s, g, n, h1, h2, hr⟩
      · simp only [Spec.goRun, h2]
        exact goRun_step L ss ss w w _ ops _ _ (by simp [CallList.go1, h1]) (ih _ _ w h)
      · simp only [Spec.goRun, h2]
        have hn := c.next hr w
        revert hn
        cases g.draw w with
        | fault =>
          intro hn; simp only [CallAtor.Goes] at hn
          simp [CallList.goRun, CallList.go1, h1, hn]
        | threw r w1 =>
          rintro ⟨s', e, hr'⟩
          exact goRun_step L ss _ w w1 _ ops _ _ (by simp [CallList.go1, h1, e]) (ih _ _ w1 (h.put i hr'))
        | stop w1 =>
          rintro ⟨s', e, hr'⟩
          exact goRun_step L ss _ w w1 _ ops _ _ (by simp [CallList.go1, h1, e]) (ih _ _ w1 (h.put i hr'))
        | item x r w1 =>
          rintro ⟨s', e, hr', hx⟩
          exact goRun_step L ss _ w w1 _ ops _ _ (by simp [CallList.go1, h1, e, hx]) (ih _ _ w1 (h.put i hr'))

/-! ## Programs -/

/-- Making the lazy list calls nothing, and the lazy list can be used after exceptions. -/
theorem CallPipe.resumes (p : CallPipe W α) (h : p.Resumes) : ∃ L : CallList W α, (∀ w, p.build w = some (.ok L w)) ∧
    ∃ c : L.A.Resume p.plan p.Counts, c.R L.prototype 0 p.plan := by
  induction p with
  | list xs => exact ⟨.ofList xs, fun w => rfl, CallAtor.listR xs, .inl ⟨rfl, rfl⟩⟩
  | empty => exact ⟨.empty, fun w => rfl, CallAtor.emptyR, rfl⟩
  | select p f ih =>
    obtain ⟨L, e, c, h0⟩ := ih h
    obtain ⟨s, q, hs⟩ := c.clone h0
    exact ⟨⟨.select L.A f, (s, none)⟩, fun w => by simp [build, e, CallList.andThen, CallList.select, CallList.create, q, CallList.ofOption],
      CallAtor.selectR c f, 0, p.plan, hs, rfl, fun _ => rfl⟩
  | where' p f ih =>
    obtain ⟨L, e, c, h0⟩ := ih h
    obtain ⟨s, q, hs⟩ := c.clone h0
    exact ⟨⟨.where' L.A f, (s, -1)⟩, fun w => by simp [build, e, CallList.andThen, CallList.where', CallList.create, q, CallList.ofOption],
      CallAtor.whereR c f, rfl, 0, p.plan, hs, rfl⟩
  | concat p q ihp ihq =>
    obtain ⟨L, e, c, h0⟩ := ihp h.1
    obtain ⟨s, hq, hs⟩ := c.clone h0
    obtain ⟨M, e', d, h0'⟩ := ihq h.2
    obtain ⟨t, hq', ht⟩ := d.clone h0'
    exact ⟨⟨.concat L.A M.A, ⟨s, t, -1, false⟩⟩,
      fun w => by simp [build, e, e', CallList.andThen, CallList.concat, CallList.create, hq, hq', CallList.ofOption],
      CallAtor.concatR c d, 0, 0, p.plan, q.plan, hs, ht, .inl ⟨rfl, rfl⟩⟩
  | pairwise p q ihp ihq =>
    obtain ⟨L, e, c, h0⟩ := ihp h.1
    obtain ⟨s, hq, hs⟩ := c.clone h0
    obtain ⟨M, e', d, h0'⟩ := ihq h.2.1
    obtain ⟨t, hq', ht⟩ := d.clone h0'
    exact ⟨⟨.pairwise L.A M.A, ⟨s, t, none⟩⟩,
      fun w => by simp [build, e, e', CallList.andThen, CallList.pairwise, CallList.create, hq, hq', CallList.ofOption],
      CallAtor.pairwiseR c d h.2.2, 0, 0, p.plan, q.plan, hs, ht, h.2.2, rfl⟩
  | take p n ih =>
    obtain ⟨L, e, c, h0⟩ := ih h.1
    obtain ⟨s, q, hs⟩ := c.clone h0
    exact ⟨⟨.take L.A n, s⟩, fun w => by simp [build, e, CallList.andThen, CallList.take, CallList.create, q, CallList.ofOption]; rfl,
      CallAtor.takeR c h.2 n, p.plan, hs, rfl⟩
  | skip p n ih =>
    obtain ⟨L, e, c, h0⟩ := ih h.1
    obtain ⟨s, q, hs⟩ := c.clone h0
    exact ⟨⟨.skip L.A n, (s, false)⟩, fun w => by simp [build, e, CallList.andThen, CallList.skip, CallList.create, q, CallList.ofOption],
      CallAtor.skipR c h.2 n, 0, p.plan, hs, .inl ⟨rfl, h.2, rfl⟩⟩
  | repeat' p n ih =>
    obtain ⟨L, e, c, h0⟩ := ih h
    obtain ⟨s, q, hs⟩ := c.clone h0
    refine ⟨⟨.repeat' L.A n, ⟨s, -1, 0⟩⟩,
      fun w => by simp [build, e, CallList.andThen, CallList.repeat', CallList.create, q, CallList.ofOption], CallAtor.repeatR c n, ?_⟩
    refine ⟨rfl, 0, 0, p.plan, rfl, hs, ?_⟩
    show p.plan.replicate n.toNat = _
    cases hn : n.toNat with
    | zero => simp [CallAtor.leftOf, Plan.replicate]
    | succ k => simp [CallAtor.leftOf, Plan.replicate]
  | distinct p ord ih =>
    obtain ⟨L, e, c, h0⟩ := ih h.1
    obtain ⟨s, q, hs⟩ := c.clone h0
    have := h.2
    exact ⟨⟨.distinct L.A (fun a b => some (ord a b)), ⟨s, [], none⟩⟩,
      fun w => by simp [build, e, CallList.andThen, CallList.distinct, CallList.create, q, CallList.ofOption],
      CallAtor.distinctR (fun _ _ => rfl) c, rfl, ascending_nil, 0, p.plan, [], hs, .refl _, rfl⟩
  | reverse p ih => exact h.elim
  | intersect p q ord ihp ihq => exact h.elim
  | except p q ord ihp ihq => exact h.elim
  | selectMany p f q ihp ihq => exact h.elim
  | evaluate p b ih => exact h.elim

/-! ## The property -/

/-- Whatever a program does with the enumerators of a lazy list, and whatever is thrown in between: the results and the calls are those of
the sequence, in which nothing but the elements that were being computed is lost. -/
def C105_statement : Prop := ∀ (W α : Type) (p : CallPipe W α), p.Delayed → ∀ w, ∃ L : CallList W α,
  p.build w = some (.ok L w) ∧ ∀ ops, L.goRun [] w ops = some (Spec.goRun p.plan [] w ops)

/-- Partial: `Resumes` excludes `Take` of something whose `Index()` also counts what was lost, `Skip` of something that throws, and
`Pairwise` whose first sequence calls functions.  These are wrong (below). -/
theorem C105_go_partial (p : CallPipe W α) (h : p.Resumes) (w : W) : ∃ L : CallList W α, p.build w = some (.ok L w) ∧
    ∀ ops, L.goRun [] w ops = some (Spec.goRun p.plan [] w ops) := by
  obtain ⟨L, e, c, h0⟩ := p.resumes h
  exact ⟨L, e w, fun ops => goRun_spec L c h0 ops [] [] w ⟨rfl, by intro i s g hs; simp at hs⟩⟩

/-- What `Next` does, called once for each element of `xs`, if each call computes one element with `f`. -/
def attempts (f : α → Cpp W β) : List α → W → Outcome W (List (GoRet β × W))
  | [], w => .ok [] w
  | x :: xs, w =>
    match f x w with
    | .ok y w' => Spec.goRun.more (.got y) w' (attempts f xs w')
    | .err w' => Spec.goRun.more .threw w' (attempts f xs w')
    | .fault => .fault

/-- `Select` over a list: `f` is called once for each element in order, and each element whose call throws is reported and lost. -/
theorem C105_select_attempts_partial (xs : List α) (f : α → Cpp W β) (w : W) : ∃ L : CallList W β,
    (CallPipe.select (.list xs) f).build w = some (.ok L w) ∧
    L.goRun [] w (.create :: List.replicate xs.length (.next 0)) = some (Spec.goRun.more .done w (attempts f xs w)) := by
  obtain ⟨L, e, h⟩ := C105_go_partial (CallPipe.select (.list xs) f) trivial w
  refine ⟨L, e, ?_⟩
  rw [h, Spec.goRun]
  congr 1
  show Spec.goRun.more GoRet.done w (Spec.goRun _ [(Plan.ofList xs).map f] w _) = _
  congr 1
  generalize CallPipe.plan _ = g0
  clear h e L
  induction xs generalizing w with
  | nil => rfl
  | cons x xs ih =>
    have hd : ((Plan.ofList (x :: xs)).map f).draw w =
        match f x w with
        | .ok y w' => .item y ((Plan.ofList xs).map f) w'
        | .err w' => .threw ((Plan.ofList xs).map f) w'
        | .fault => .fault := by
      rw [Plan.draw_map]; rfl
    rw [List.length_cons, List.replicate_succ, attempts]
    simp only [Spec.goRun, List.getElem?_cons_zero, hd, List.set_cons_zero]
    cases f x w with
    | ok y w' => simp only [ih]
    | err w' => simp only [ih]
    | fault => rfl

/-! ## A case -/

/-- throws at 1 -/
def notOne (x : Nat) : Cpp Nat Nat := fun w => if x = 1 then .err (w + 1) else .ok (x * 10) (w + 1)

/-- throws at 3, even numbers pass -/
def evenNotThree (x : Nat) : Cpp Nat Bool := fun w => if x = 3 then .err (w + 1) else .ok (x % 2 == 0) (w + 1)

def goPipe : CallPipe Nat Nat :=
  .concat (.take (.where' (.list [2, 3, 4, 6]) evenNotThree) 2) (.select (.skip (.list [5, 1, 7]) 1) notOne)

example : goPipe.Resumes := ⟨⟨trivial, trivial⟩, trivial, trivial⟩

/-- 2 passes, 3 throws, 4 passes, that is enough; then 1 throws, and 7 is the last one -/
example : Spec.goRun goPipe.plan [] 0 [.create, .next 0, .next 0, .next 0, .next 0, .next 0, .next 0] =
    .ok [(.done, 0), (.got 2, 1), (.threw, 2), (.got 4, 3), (.threw, 4), (.got 70, 5), (.ended, 5)] 5 := rfl

example : (CallPipe.pairwise (.list [1, 2, 3]) (.select (.list [5, 1, 7]) notOne)).Resumes :=
  ⟨trivial, trivial, trivial⟩

example : Spec.goRun (CallPipe.pairwise (.list [1, 2, 3]) (.select (.list [5, 1, 7]) notOne)).plan [] 0
    [.create, .next 0, .next 0, .clone 0, .next 1, .reset 0, .next 0] =
    .ok [(.done, 0), (.got (1, 50), 1), (.threw, 2), (.done, 2), (.got (3, 70), 3), (.done, 3), (.got (1, 50), 4)] 4 := rfl

/-! ## Violations -/

/-- `Skip` remembers that it has skipped before it skips (OperationSequence.h 113-124): after an exception, elements that have to be skipped
are delivered. -/
theorem C105_violated_skip : ∃ L : CallList Nat Nat, (CallPipe.skip (.select (.list [1, 2, 3]) notOne) 2).build 0 = some (.ok L 0) ∧
    L.goRun [] 0 [.create, .next 0, .next 0] = some (.ok [(.done, 0), (.threw, 1), (.got 20, 2)] 2) ∧
    Spec.goRun (CallPipe.skip (.select (.list [1, 2, 3]) notOne) 2).plan [] 0 [.create, .next 0, .next 0] =
      .ok [(.done, 0), (.threw, 1), (.ended, 3)] 3 :=
  ⟨_, rfl, rfl, rfl⟩

/-- `Take` asks for the `Index()` of `Select`, which also counts the element that was lost (OperationSequence.h 55-59, OperationSelect.h
51-54): fewer elements are delivered. -/
theorem C105_violated_take : ∃ L : CallList Nat Nat, (CallPipe.take (.select (.list [1, 2, 3]) notOne) 2).build 0 = some (.ok L 0) ∧
    L.goRun [] 0 [.create, .next 0, .next 0, .next 0] = some (.ok [(.done, 0), (.threw, 1), (.got 20, 2), (.ended, 2)] 2) ∧
    Spec.goRun (CallPipe.take (.select (.list [1, 2, 3]) notOne) 2).plan [] 0 [.create, .next 0, .next 0, .next 0] =
      .ok [(.done, 0), (.threw, 1), (.got 20, 2), (.got 30, 3)] 3 :=
  ⟨_, rfl, rfl, rfl⟩

/-- `Pairwise` does not move its second enumerator if the first one throws (OperationPair.h 56-67): from there on, each element is paired with
the partner of another one. -/
theorem C105_violated_pairwise : ∃ L : CallList Nat (Nat × Nat),
    (CallPipe.pairwise (.select (.list [1, 2]) notOne) (.list [100, 200])).build 0 = some (.ok L 0) ∧
    L.goRun [] 0 [.create, .next 0, .next 0] = some (.ok [(.done, 0), (.threw, 1), (.got (20, 100), 2)] 2) ∧
    Spec.goRun (CallPipe.pairwise (.select (.list [1, 2]) notOne) (.list [100, 200])).plan [] 0 [.create, .next 0, .next 0] =
      .ok [(.done, 0), (.threw, 1), (.got (20, 200), 2)] 2 :=
  ⟨_, rfl, rfl, rfl⟩

/-- `Pairwise` goes on calling the functions of its first sequence when it is asked again after the end of the second one, although there
is nothing that could be delivered. -/
theorem C105_violated_pairwise_end : ∃ L : CallList Nat (Nat × Nat),
    (CallPipe.pairwise (.select (.list [2, 3]) notOne) (.list ([] : List Nat))).build 0 = some (.ok L 0) ∧
    L.goRun [] 0 [.create, .next 0, .next 0] = some (.ok [(.done, 0), (.ended, 1), (.ended, 2)] 2) ∧
    Spec.goRun (CallPipe.pairwise (.select (.list [2, 3]) notOne) (.list ([] : List Nat))).plan [] 0 [.create, .next 0, .next 0] =
      .ok [(.done, 0), (.ended, 1), (.ended, 1)] 1 :=
  ⟨_, rfl, rfl, rfl⟩

theorem C105_violated : ¬ C105_statement := by
  intro h
  obtain ⟨L, e, hL⟩ := h Nat Nat (.skip (.select (.list [1, 2, 3]) notOne) 2) (by simp [CallPipe.Delayed]) 0
  obtain ⟨L', e', h1, h2⟩ := C105_violated_skip
  rw [e] at e'
  cases e'
  have := hL [.create, .next 0, .next 0]
  rw [h1, h2] at this
  cases this

end Vlpp
