import Verif.Model.PartialOrderingEff
import Verif.Spec.Interview
import Verif.Props.PartialOrderingProps

set_option autoImplicit false
namespace Vlpp
namespace PO
open Spec

section asks
variable {σ τ : Type} {ord : τ → τ → Ordering} [Std.TransCmp ord] {cmp : τ → τ → Option Ordering} {eq : τ → τ → Bool}

theorem Answered.append {S : Type} {f : τ → τ → Cpp S Bool} {q1 q2 : List (τ × τ)} {b1 b2 : List Bool} {s s1 s2 : S}
    (h1 : Answered f q1 s b1 s1) (h2 : Answered f q2 s1 b2 s2) : Answered f (q1 ++ q2) s (b1 ++ b2) s2 := by
  induction h1 with
  | done => exact h2
  | next call _ ih => exact .next call (ih h2)

theorem Answered.length {S : Type} {f : τ → τ → Cpp S Bool} {q : List (τ × τ)} {b : List Bool} {s s' : S}
    (h : Answered f q s b s') : q.length = b.length := by
  induction h with
  | done => rfl
  | next _ _ ih => simp [ih]

theorem agreed_append {q1 q2 : List (τ × τ)} {b1 b2 : List Bool} (h : q1.length = b1.length) :
    agreed (q1 ++ q2) (b1 ++ b2) = agreed q1 b1 ++ agreed q2 b2 := by
  simp [agreed, List.zip_append h]

/-- the three ways in which asking the questions `qs` can end -/
def Ends (ord : τ → τ → Ordering) (f : τ → τ → Cpp (σ × Proc) Bool) (qs : List (τ × τ)) (s : σ × Proc) (D : List (τ × τ))
    (r : Outcome (σ × Proc) (GroupC τ τ)) : Prop :=
  (∃ bs s' dep, Answered f qs s bs s' ∧ r = .ok dep s' ∧ GroupC.Models ord (pairsOf ord (D ++ agreed qs bs)) dep) ∨
  (∃ s', CutShort f qs s s' ∧ r = .err s') ∨
  (r = .fault ∧ ∃ before x y after bs s1, qs = before ++ (x, y) :: after ∧ Answered f before s bs s1 ∧ f x y s1 = .fault)

theorem askInner_ends (hcmp : KeyCmp cmp ord) (f : τ → τ → Cpp (σ × Proc) Bool) (x : τ) (ys : List τ) :
    ∀ (D : List (τ × τ)) (dep : GroupC τ τ) (s : σ × Proc), GroupC.Models ord (pairsOf ord D) dep →
    Ends ord f (ys.map fun y => (x, y)) s D (askInner cmp f x ys dep s) := by
  induction ys with
  | nil =>
    intro D dep s h
    exact .inl ⟨[], s, dep, .done s, rfl, by simpa [agreed] using h⟩
  | cons y ys ih =>
    intro D dep s h
    unfold askInner
    cases hf : f x y s with
    | err s' =>
      exact .inr (.inl ⟨s', ⟨[], x, y, ys.map fun y => (x, y), [], s, rfl, .done s, hf⟩, Cpp.bind_err hf⟩)
    | fault =>
      exact .inr (.inr ⟨Cpp.bind_fault hf, [], x, y, ys.map fun y => (x, y), [], s, rfl, .done s, hf⟩)
    | ok b s1 =>
      rw [Cpp.bind_ok hf]
      have key : ∃ dep', record cmp x y dep b s1 = .ok dep' s1 ∧
          GroupC.Models ord (pairsOf ord (D ++ agreed [(x, y)] [b])) dep' := by
        cases b with
        | false => exact ⟨dep, rfl, by simpa [agreed] using h⟩
        | true =>
          obtain ⟨c, g, e, h'⟩ := group_add hcmp h x y
          refine ⟨g, ?_, by simpa [agreed] using h'⟩
          show put cmp x y dep s1 = _
          unfold put
          rw [e]
      obtain ⟨dep', e, h'⟩ := key
      rw [Cpp.bind_ok e]
      rcases ih _ dep' s1 h' with ⟨bs, s', d, a1, a2, a3⟩ | ⟨s', ⟨bf, x', y', af, bs, s2, q, a1, a2⟩, a3⟩ |
        ⟨a3, bf, x', y', af, bs, s2, q, a1, a2⟩
      · refine .inl ⟨b :: bs, s', d, .next hf a1, a2, ?_⟩
        have := agreed_append (q1 := [(x, y)]) (b1 := [b]) (q2 := ys.map fun y => (x, y)) (b2 := bs) rfl
        rw [List.append_assoc, ← this] at a3
        exact a3
      · exact .inr (.inl ⟨s', ⟨(x, y) :: bf, x', y', af, b :: bs, s2, by simp [q], .next hf a1, a2⟩, a3⟩)
      · exact .inr (.inr ⟨a3, (x, y) :: bf, x', y', af, b :: bs, s2, by simp [q], .next hf a1, a2⟩)

theorem askOuter_ends (hcmp : KeyCmp cmp ord) (f : τ → τ → Cpp (σ × Proc) Bool) (items xs : List τ) :
    ∀ (D : List (τ × τ)) (dep : GroupC τ τ) (s : σ × Proc), GroupC.Models ord (pairsOf ord D) dep →
    Ends ord f (xs.flatMap fun x => items.map fun y => (x, y)) s D (askOuter cmp f items xs dep s) := by
  induction xs with
  | nil =>
    intro D dep s h
    exact .inl ⟨[], s, dep, .done s, rfl, by simpa [agreed] using h⟩
  | cons x xs ih =>
    intro D dep s h
    unfold askOuter
    rw [List.flatMap_cons]
    rcases askInner_ends hcmp f x items D dep s h with ⟨bs, s1, d, a1, a2, a3⟩ | ⟨s', ⟨bf, x', y', af, bs, s2, q, a1, a2⟩, a3⟩ |
      ⟨a3, bf, x', y', af, bs, s2, q, a1, a2⟩
    · rw [Cpp.bind_ok a2]
      rcases ih _ d s1 a3 with ⟨bs', s', d', c1, c2, c3⟩ | ⟨s', ⟨bf, x', y', af, bs', s2, q, c1, c2⟩, c3⟩ |
        ⟨c3, bf, x', y', af, bs', s2, q, c1, c2⟩
      · refine .inl ⟨bs ++ bs', s', d', Answered.append a1 c1, c2, ?_⟩
        rw [List.append_assoc, ← agreed_append (Answered.length a1)] at c3
        exact c3
      · exact .inr (.inl ⟨s', ⟨_ ++ bf, x', y', af, bs ++ bs', s2, by rw [q, List.append_assoc], Answered.append a1 c1, c2⟩, c3⟩)
      · exact .inr (.inr ⟨c3, _ ++ bf, x', y', af, bs ++ bs', s2, by rw [q, List.append_assoc], Answered.append a1 c1, c2⟩)
    · exact .inr (.inl ⟨s', ⟨bf, x', y', af ++ _, bs, s2, by rw [q, List.append_assoc]; rfl, a1, a2⟩, Cpp.bind_err a3⟩)
    · exact .inr (.inr ⟨Cpp.bind_fault a3, bf, x', y', af ++ _, bs, s2, by rw [q, List.append_assoc]; rfl, a1, a2⟩)

/-- **C109**: whatever `depFunc` does, `InitWithFunc` asks it about every pair of items, once each and row by row.  If it
throws, `InitWithFunc` ends there and has changed nothing itself.  If all questions are answered, `InitWithFunc` is
`InitWithGroup` with the pairs that were agreed to. -/
theorem _root_.Vlpp.C109_questions (hcmp : ∀ a b, cmp a b = some (ord a b)) (f : τ → τ → Cpp (σ × Proc) Bool)
    (items : List τ) (s : σ × Proc) :
    (∃ bs s' dep, Answered f (allPairs items) s bs s' ∧ bs.length = items.length * items.length ∧
      GroupC.Models ord (pairsOf ord (agreed (allPairs items) bs)) dep ∧
      initWithFuncE cmp eq items f s = inProgram (initWithGroup eq items dep) s') ∨
    (∃ s', CutShort f (allPairs items) s s' ∧ initWithFuncE cmp eq items f s = .err s') ∨
    (∃ before x y after bs s1, allPairs items = before ++ (x, y) :: after ∧ Answered f before s bs s1 ∧ f x y s1 = .fault ∧
      initWithFuncE cmp eq items f s = .fault) := by
  rcases askOuter_ends hcmp f items items [] GroupC.empty s models_empty with ⟨bs, s', d, a1, a2, a3⟩ | ⟨s', a1, a2⟩ |
    ⟨a3, bf, x', y', af, bs, s2, q, a1, a2⟩
  · refine .inl ⟨bs, s', d, a1, ?_, a3, ?_⟩
    · rw [← (Answered.length a1)]
      have : ∀ xs : List τ, (xs.flatMap fun x => items.map fun y => (x, y)).length = xs.length * items.length := by
        intro xs
        induction xs with
        | nil => simp
        | cons x xs ih => rw [List.flatMap_cons, List.length_append, ih, List.length_map, List.length_cons, Nat.succ_mul,
            Nat.add_comm]
      exact this items
    · unfold initWithFuncE
      rw [Cpp.bind_ok a2]
  · exact .inr (.inl ⟨s', a1, by unfold initWithFuncE; rw [Cpp.bind_err a2]⟩)
  · exact .inr (.inr ⟨bf, x', y', af, bs, s2, q, a1, a2, by unfold initWithFuncE; rw [Cpp.bind_fault a3]⟩)

/-- `f` is a function that does not call members of the processor -/
def KeepsProc (f : τ → τ → Cpp (σ × Proc) Bool) : Prop :=
  ∀ x y s, (∀ b s', f x y s = .ok b s' → s'.2 = s.2) ∧ ∀ s', f x y s = .err s' → s'.2 = s.2

theorem Answered.proc {f : τ → τ → Cpp (σ × Proc) Bool} (hf : KeepsProc f) {qs : List (τ × τ)} {s s' : σ × Proc}
    {bs : List Bool} (h : Answered f qs s bs s') : s'.2 = s.2 := by
  induction h with
  | done => rfl
  | next call _ ih => rw [ih]; exact (hf _ _ _).1 _ _ call

theorem Answered.det {S : Type} {f : τ → τ → Cpp S Bool} {qs : List (τ × τ)} {s s1 s2 : S} {b1 b2 : List Bool}
    (h1 : Answered f qs s b1 s1) (h2 : Answered f qs s b2 s2) : b1 = b2 ∧ s1 = s2 := by
  induction h1 generalizing b2 with
  | done => cases h2; exact ⟨rfl, rfl⟩
  | next call _ ih =>
    cases h2 with
    | next call' rest' =>
      rw [call] at call'
      cases call'
      obtain ⟨rfl, rfl⟩ := ih rest'
      exact ⟨rfl, rfl⟩

theorem answered_not_stuck {S : Type} {f : τ → τ → Cpp S Bool} {before after : List (τ × τ)} {x y : τ} {s s1 s2 : S}
    {b1 b2 : List Bool} (h2 : Answered f before s b2 s2) (h1 : Answered f (before ++ (x, y) :: after) s b1 s1) :
    ∃ b s', f x y s2 = .ok b s' := by
  induction h2 generalizing b1 with
  | done => cases h1 with | next call _ => exact ⟨_, _, call⟩
  | next call _ ih =>
    cases h1 with
    | next call' rest' =>
      rw [call] at call'
      cases call'
      exact ih rest'

/-- **C109**: with a new processor and a function that answers all questions, with whatever effects, `Sort` then sorts by
the answers that were given: an item depends on another one if `depFunc` said so in at least one of the calls. -/
theorem _root_.Vlpp.C109_sorted (hcmp : ∀ a b, cmp a b = some (ord a b)) (heq : ∀ a b, eq a b = true ↔ ord a b = .eq)
    (f : τ → τ → Cpp (σ × Proc) Bool) (hf : KeepsProc f) (items : List τ) {w : σ} {s' : σ × Proc} {bs : List Bool}
    (ha : Answered f (allPairs items) (w, {}) bs s') :
    ∃ p p' cs, initWithFuncE cmp eq items f (w, {}) = .ok () (s'.1, p) ∧ sort p = some (.ok () p') ∧
      Shows items.length p' cs ∧
      SortedComponents items.length (DepAt eq items fun x y => (x, y) ∈ agreed (allPairs items) bs) cs := by
  have hself : ∀ x : τ, ord x x = .eq := fun x => Std.ReflCmp.compare_self (cmp := ord)
  have hproc : s'.2 = {} := Answered.proc hf ha
  have hne : ∀ s', ¬ CutShort f (allPairs items) (w, {}) s' := by
    rintro s' ⟨bf, x, y, af, bs', s1, q, a1, a2⟩
    rw [q] at ha
    obtain ⟨b, s2, e⟩ := answered_not_stuck a1 ha
    rw [e] at a2; cases a2
  rcases C109_questions (eq := eq) hcmp f items (w, {}) with ⟨bs', s2, dep, a1, _, a3, a4⟩ | ⟨s1, a1, _⟩ |
    ⟨bf, x, y, af, bs', s1, q, a1, a2, _⟩
  · obtain ⟨rfl, rfl⟩ := Answered.det ha a1
    have hmem : ∀ x y, y ∈ pairsOf ord (agreed (allPairs items) bs) x ↔
        ∃ x', ord x' x = .eq ∧ (x', y) ∈ agreed (allPairs items) bs := by
      intro x y
      unfold pairsOf
      simp only [List.mem_map, List.mem_filter, beq_iff_eq]
      constructor
      · rintro ⟨⟨a, b⟩, ⟨h1, h2⟩, rfl⟩; exact ⟨a, h2, h1⟩
      · rintro ⟨a, h1, h2⟩; exact ⟨(a, y), ⟨h2, h1⟩, rfl⟩
    have hsub : ∀ x y, (x, y) ∈ agreed (allPairs items) bs → x ∈ items ∧ y ∈ items := by
      intro x y h
      unfold agreed at h
      obtain ⟨⟨q, b⟩, hq, rfl⟩ := List.mem_map.mp h
      have hq := (List.of_mem_zip (List.mem_filter.mp hq).1).1
      unfold allPairs at hq
      obtain ⟨a, h1, h2⟩ := List.mem_flatMap.mp hq
      obtain ⟨b, h3, h4⟩ := List.mem_map.mp h2
      cases h4
      exact ⟨h1, h3⟩
    obtain ⟨p, p', cs, e1, e2, h1, h2⟩ := group_sorted heq a3 items (by
      intro x y h
      obtain ⟨x', ho, hx⟩ := (hmem x y).mp h
      obtain ⟨i1, i2⟩ := hsub _ _ hx
      exact ⟨⟨x', i1, (heq _ _).mpr ho⟩, y, i2, (heq _ _).mpr (hself y)⟩)
    refine ⟨p, p', cs, ?_, e2, h1, SortedComponents.congr ?_ h2⟩
    · rw [a4]
      unfold inProgram
      rw [hproc, e1]
    · intro a b
      constructor
      · rintro ⟨x, y, h, e1, e2⟩
        obtain ⟨x', ho, hx⟩ := (hmem x y).mp h
        exact ⟨x', y, hx, by rw [firstIndex_congr heq ho]; exact e1, e2⟩
      · rintro ⟨x, y, h, e1, e2⟩
        exact ⟨x, y, (hmem x y).mpr ⟨x, hself x, h⟩, e1, e2⟩
  · exact (hne _ a1).elim
  · rw [q] at ha
    obtain ⟨b, s2, e⟩ := answered_not_stuck a1 ha
    rw [e] at a2; cases a2

/-- **C109**: a function that throws leaves the processor as it was. -/
theorem _root_.Vlpp.C109_thrown (hcmp : ∀ a b, cmp a b = some (ord a b)) (f : τ → τ → Cpp (σ × Proc) Bool)
    (hf : KeepsProc f) (items : List τ) {s s' : σ × Proc} (hi : CutShort f (allPairs items) s s') :
    initWithFuncE cmp eq items f s = .err (s'.1, s.2) := by
  obtain ⟨bf, x, y, af, bs', s1, q, a1, a2⟩ := hi
  have hp : s'.2 = s.2 := ((hf _ _ _).2 _ a2).trans (Answered.proc hf a1)
  have key : ∀ (l1 l2 : List (τ × τ)) {b1 b2 : List Bool} {s2 s3 : σ × Proc} {x' y' : τ} {af' : List (τ × τ)} {s : σ × Proc},
      Answered f l1 s b1 s2 → Answered f l2 s b2 s3 → l1 ++ (x, y) :: af = l2 ++ (x', y') :: af' →
      f x y s2 = .err s' → (∀ b t, f x' y' s3 ≠ .ok b t) → (x', y') = (x, y) ∧ s3 = s2 := by
    intro l1
    induction l1 with
    | nil =>
      intro l2 b1 b2 s2 s3 x' y' af' s h1 h2 e hx hx'
      cases h1
      cases l2 with
      | nil => cases h2; simp only [List.nil_append, List.cons.injEq] at e; exact ⟨e.1.symm, rfl⟩
      | cons z l2 =>
        cases h2 with
        | next call _ =>
          simp only [List.nil_append, List.cons_append, List.cons.injEq, Prod.mk.injEq] at e
          rw [← e.1.1, ← e.1.2, hx] at call
          cases call
    | cons z l1 ih =>
      intro l2 b1 b2 s2 s3 x' y' af' s h1 h2 e hx hx'
      cases h1 with
      | next call rest =>
        cases l2 with
        | nil =>
          cases h2
          simp only [List.nil_append, List.cons_append, List.cons.injEq, Prod.mk.injEq] at e
          rw [e.1.1, e.1.2] at call
          exact (hx' _ _ call).elim
        | cons z' l2 =>
          cases h2 with
          | next call' rest' =>
            simp only [List.cons_append, List.cons.injEq, Prod.mk.injEq] at e
            rw [e.1.1, e.1.2, call'] at call
            cases call
            exact ih l2 rest rest' e.2 hx hx'
  rcases C109_questions (eq := eq) hcmp f items s with ⟨bs2, s2, dep, c1, _, c3, c4⟩ | ⟨s2, ⟨bf', x', y', af', bs2, s3, q', c1, c2⟩, c4⟩ |
    ⟨bf', x', y', af', bs2, s3, q', c1, c2, _⟩
  · rw [q] at c1
    obtain ⟨b, s3, e⟩ := answered_not_stuck a1 c1
    rw [e] at a2; cases a2
  · obtain ⟨e1, rfl⟩ := key bf bf' a1 c1 (q.symm.trans q') a2 (by intro b t e; rw [c2] at e; cases e)
    cases e1
    rw [a2] at c2
    cases c2
    rw [c4, ← hp]
  · obtain ⟨e1, rfl⟩ := key bf bf' a1 c1 (q.symm.trans q') a2 (by intro b t e; rw [c2] at e; cases e)
    cases e1
    rw [a2] at c2
    cases c2

/-- **C109**: after a function has thrown, the processor can be initialised again, with other items and another function,
and is sorted by the answers of that function only. -/
theorem _root_.Vlpp.C109_retry (hcmp : ∀ a b, cmp a b = some (ord a b)) (heq : ∀ a b, eq a b = true ↔ ord a b = .eq)
    (f g : τ → τ → Cpp (σ × Proc) Bool) (hf : KeepsProc f) (hg : KeepsProc g) (items items' : List τ) {w : σ}
    {s1 s2 : σ × Proc} {bs : List Bool} (hi : CutShort f (allPairs items) (w, {}) s1)
    (ha : Answered g (allPairs items') (s1.1, {}) bs s2) :
    ∃ s, initWithFuncE cmp eq items f (w, {}) = .err s ∧
    ∃ p p' cs, initWithFuncE cmp eq items' g s = .ok () (s2.1, p) ∧ sort p = some (.ok () p') ∧
      Shows items'.length p' cs ∧
      SortedComponents items'.length (DepAt eq items' fun x y => (x, y) ∈ agreed (allPairs items') bs) cs :=
  ⟨_, C109_thrown hcmp f hf items hi, C109_sorted hcmp heq g hg items' ha⟩

/-- **C109**: a function that initialises the processor itself makes `InitWithFunc` raise an Error; the processor stays as
that function has left it. -/
theorem _root_.Vlpp.C109_nested (hcmp : ∀ a b, cmp a b = some (ord a b)) (f : τ → τ → Cpp (σ × Proc) Bool)
    (items : List τ) {s s' : σ × Proc} {bs : List Bool} (ha : Answered f (allPairs items) s bs s')
    (hn : s'.2.nodes ≠ []) : initWithFuncE cmp eq items f s = .err s' := by
  rcases C109_questions (eq := eq) hcmp f items s with ⟨bs', s2, dep, a1, _, a3, a4⟩ | ⟨s1, ⟨bf, x, y, af, bs', s2, q, a1, a2⟩, _⟩ |
    ⟨bf, x, y, af, bs', s1, q, a1, a2, _⟩
  · obtain ⟨rfl, rfl⟩ := Answered.det ha a1
    rw [a4]
    have : initWithGroup eq items dep s'.2 = .err s'.2 := by
      unfold initWithGroup
      rw [Cpp.bind_ok (Cpp.get_apply _)]
      exact Cpp.bind_err (Cpp.check_false (by
        intro h
        exact hn (List.length_eq_zero_iff.mp h)) _)
    unfold inProgram
    rw [this]
  · rw [q] at ha
    obtain ⟨b, s2, e⟩ := answered_not_stuck a1 ha
    rw [e] at a2; cases a2
  · rw [q] at ha
    obtain ⟨b, s2, e⟩ := answered_not_stuck a1 ha
    rw [e] at a2; cases a2
end asks

section failed
variable {τ : Type} {ord : τ → τ → Ordering} [Std.TransCmp ord] {eq : τ → τ → Bool}

/-- the dependencies of a group: in the order in which `InitWithGroup` visits them -/
def depsOf (m : τ → List τ) (keys : List τ) : List (τ × τ) := keys.flatMap fun k => (m k).map fun y => (k, y)

/-- both items of a dependency are found in `items` -/
def found (eq : τ → τ → Bool) (items : List τ) (e : τ × τ) : Bool :=
  firstIndex eq items e.1 != -1 && firstIndex eq items e.2 != -1

/-- the edge of a dependency -/
def edgeOf (eq : τ → τ → Bool) (items : List τ) (e : τ × τ) : Int × Int := (firstIndex eq items e.1, firstIndex eq items e.2)

/-- `q` has the edges `D`; its other members are those of `p` -/
structure Stopped (D : List (Int × Int)) (p q : Proc) : Prop where
  edges : Edges D q
  nodes : q.nodes = p.nodes
  components : q.components = p.components
  buffer : q.firstNodesBuffer = p.firstNodesBuffer

theorem mem_takeWhile {α : Type} {c : α → Bool} {l : List α} {a : α} (h : a ∈ l.takeWhile c) : c a = true := by
  induction l with
  | nil => cases h
  | cons x l ih =>
    by_cases hx : c x = true
    · rw [List.takeWhile_cons_of_pos hx] at h
      rcases List.mem_cons.mp h with rfl | h
      · exact hx
      · exact ih h
    · rw [List.takeWhile_cons_of_neg hx] at h
      cases h

theorem edgeLoop_stop (items : List τ) {k : τ} (hk : firstIndex eq items k ≠ -1) (edges : List τ) (n : Nat) :
    ∀ (j : Nat) (D : List (Int × Int)) (p : Proc), Edges D p → j + n = edges.length →
    (∃ y ∈ edges.drop j, firstIndex eq items y = -1) →
    ∃ p', edgeLoop eq items (firstIndex eq items k) edges n j p = .err p' ∧
      Stopped (D ++ (((edges.drop j).map fun y => (k, y)).takeWhile (found eq items)).map (edgeOf eq items)) p p' := by
  induction n with
  | zero =>
    rintro j D p h hj ⟨y, hy, _⟩
    rw [List.drop_eq_nil_of_le (by omega)] at hy
    cases hy
  | succ n ih =>
    intro j D p h hj hex
    have hjl : j < edges.length := by omega
    unfold edgeLoop
    have h1 : reading (SeqList.get (j : Int) edges) p = .ok edges[j] p := by
      rw [SeqList.get_ok (by omega)]; rfl
    have h2 : reading (SeqList.indexOf eq edges[j] items) p = .ok (firstIndex eq items edges[j]) p := by
      rw [SeqList.indexOf_ok]; rfl
    rw [Cpp.bind_ok h1, Cpp.bind_ok h2]
    rw [List.drop_eq_getElem_cons hjl, List.map_cons]
    by_cases hne : firstIndex eq items edges[j] = -1
    · rw [Cpp.bind_err (Cpp.check_false (by simpa using hne) p),
        List.takeWhile_cons_of_neg (by simp [found, hne])]
      exact ⟨p, rfl, by simpa using h, rfl, rfl, rfl⟩
    · obtain ⟨b1, g1, a1, m1⟩ := group_add vintKeyCmp h.ins (firstIndex eq items k) (firstIndex eq items edges[j])
      obtain ⟨b2, g2, a2, m2⟩ := group_add vintKeyCmp h.outs (firstIndex eq items edges[j]) (firstIndex eq items k)
      obtain ⟨p', e, r⟩ := ih (j + 1) (D ++ [(firstIndex eq items k, firstIndex eq items edges[j])])
        { p with ins := g1, outs := g2 } ⟨m1, by rw [List.map_append]; exact m2⟩ (by omega) (by
          obtain ⟨y, hy, hy'⟩ := hex
          rw [List.drop_eq_getElem_cons hjl] at hy
          rcases List.mem_cons.mp hy with rfl | hy
          · exact (hne hy').elim
          · exact ⟨y, hy, hy'⟩)
      rw [Cpp.bind_ok (Cpp.check_true hne p), Cpp.bind_ok (onIns_ok a1)]
      refine ⟨p', (Cpp.bind_ok (onOuts_ok (p := { p with ins := g1 }) a2)).trans e, ?_, r.nodes, r.components, r.buffer⟩
      rw [List.takeWhile_cons_of_pos (by simp [found, hk, hne]), List.map_cons]
      have := r.edges
      rw [List.append_assoc] at this
      exact this

theorem keyLoop_stop (items : List τ) {m : τ → List τ} {dep : GroupC τ τ} (hdep : GroupC.Models ord m dep) (n : Nat) :
    ∀ (i : Nat) (D : List (Int × Int)) (p : Proc), Edges D p → i + n = dep.keys.length →
    (∃ k ∈ dep.keys.drop i, firstIndex eq items k = -1 ∨ ∃ y ∈ m k, firstIndex eq items y = -1) →
    ∃ p', keyLoop eq items dep n i p = .err p' ∧
      Stopped (D ++ ((depsOf m (dep.keys.drop i)).takeWhile (found eq items)).map (edgeOf eq items)) p p' := by
  induction n with
  | zero =>
    rintro i D p h hi ⟨y, hy, _⟩
    rw [List.drop_eq_nil_of_le (by omega)] at hy
    cases hy
  | succ n ih =>
    intro i D p h hi hex
    have hil : i < dep.keys.length := by omega
    unfold keyLoop
    have h1 : reading (SeqList.get (i : Int) dep.keys) p = .ok dep.keys[i] p := by
      rw [SeqList.get_ok (by omega)]; rfl
    have h2 : reading (SeqList.indexOf eq dep.keys[i] items) p = .ok (firstIndex eq items dep.keys[i]) p := by
      rw [SeqList.indexOf_ok]; rfl
    have h3 : reading (GroupC.getByIndex (i : Int) dep) p = .ok (m dep.keys[i]) p := by
      obtain ⟨vss, d1, d2⟩ := hdep
      obtain ⟨_, e, he⟩ := GroupC.getByIndex_ok d1 d2 hil
      rw [e, he]; rfl
    have hsome : m dep.keys[i] ≠ [] :=
      (multimap_key hdep _).mpr ⟨_, List.getElem_mem hil, Std.ReflCmp.compare_self (cmp := ord)⟩
    rw [Cpp.bind_ok h1, Cpp.bind_ok h2]
    unfold depsOf
    rw [List.drop_eq_getElem_cons hil, List.flatMap_cons]
    by_cases hne : firstIndex eq items dep.keys[i] = -1
    · rw [Cpp.bind_err (Cpp.check_false (by simpa using hne) p)]
      refine ⟨p, rfl, ?_, rfl, rfl, rfl⟩
      cases hm : m dep.keys[i] with
      | nil => exact (hsome hm).elim
      | cons y ys =>
        rw [List.map_cons, List.cons_append, List.takeWhile_cons_of_neg (by simp [found, hne])]
        simpa using h
    · rw [Cpp.bind_ok (Cpp.check_true hne p), Cpp.bind_ok h3]
      by_cases hv : ∃ y ∈ m dep.keys[i], firstIndex eq items y = -1
      · obtain ⟨p', e, r⟩ := edgeLoop_stop (eq := eq) items hne (m dep.keys[i])
          (m dep.keys[i]).length 0 D p h (by omega) (by simpa using hv)
        refine ⟨p', Cpp.bind_err e, ?_⟩
        rw [List.takeWhile_append, if_neg]
        · exact r
        · intro hlen
          obtain ⟨y, hy, hy'⟩ := hv
          have heq' := List.IsPrefix.eq_of_length (List.takeWhile_prefix (found eq items)
            (l := (m dep.keys[i]).map fun y => (dep.keys[i], y))) hlen
          have hmem : (dep.keys[i], y) ∈ ((m dep.keys[i]).map fun y => (dep.keys[i], y)).takeWhile (found eq items) := by
            rw [heq']; exact List.mem_map.mpr ⟨y, hy, rfl⟩
          have := mem_takeWhile hmem
          simp [found, hy'] at this
      · obtain ⟨p1, e1, hE1, q1, q2, q3⟩ := edgeLoop_ok eq items (fromNode := firstIndex eq items dep.keys[i]) (m dep.keys[i])
          (fun y hy h' => hv ⟨y, hy, h'⟩) (m dep.keys[i]).length 0 D p h (by omega)
        obtain ⟨p', e, r⟩ := ih (i + 1) _ p1 hE1 (by omega) (by
          obtain ⟨y, hy, hy'⟩ := hex
          rw [List.drop_eq_getElem_cons hil] at hy
          rcases List.mem_cons.mp hy with rfl | hy
          · exact (hy'.elim hne hv).elim
          · exact ⟨y, hy, hy'⟩)
        refine ⟨p', (Cpp.bind_ok e1).trans e, ?_, r.nodes.trans q1, r.components.trans q2, r.buffer.trans q3⟩
        have hall : ∀ e ∈ (m dep.keys[i]).map (fun y => (dep.keys[i], y)), found eq items e = true := by
          intro e he
          obtain ⟨y, hy, rfl⟩ := List.mem_map.mp he
          simp only [found, bne_iff_ne, ne_eq, Bool.and_eq_true]
          exact ⟨hne, fun h' => hv ⟨y, hy, h'⟩⟩
        rw [List.takeWhile_append_of_pos hall, List.map_append, List.map_map]
        have := r.edges
        rw [List.append_assoc] at this
        exact this

theorem firstIndex_range {items : List τ} {x : τ} (hx : firstIndex eq items x ≠ -1) :
    0 ≤ firstIndex eq items x ∧ firstIndex eq items x < items.length := by
  unfold firstIndex at hx ⊢
  cases h : items.findIdx? (fun y => eq y x) with
  | none => rw [h] at hx; exact (hx rfl).elim
  | some i =>
    have := List.findIdx?_eq_some_iff_findIdx_eq.mp h
    simp; omega

/-- **C109**: if `depGroup` has dependencies of unknown items, `InitWithGroup` raises an Error, and the processor keeps the
dependencies that come before the first of them.  It has no nodes, so it can be initialised again. -/
theorem _root_.Vlpp.C109_group_error {m : τ → List τ} {dep : GroupC τ τ} (hdep : GroupC.Models ord m dep) (items : List τ)
    (hu : ∃ e ∈ depsOf m dep.keys, found eq items e = false) :
    ∃ p, initWithGroup eq items dep {} = .err p ∧
      Stopped (((depsOf m dep.keys).takeWhile (found eq items)).map (edgeOf eq items)) {} p := by
  obtain ⟨⟨k, y⟩, he, hf⟩ := hu
  obtain ⟨k', hk, hy⟩ := List.mem_flatMap.mp he
  obtain ⟨y', hy, e⟩ := List.mem_map.mp hy
  cases e
  have hex : firstIndex eq items k = -1 ∨ firstIndex eq items y = -1 := by
    simp only [found, Bool.and_eq_false_iff, bne_eq_false_iff_eq] at hf
    exact hf
  obtain ⟨p, e, r⟩ := keyLoop_stop (eq := eq) items hdep dep.keys.length 0 [] {} ⟨models_empty, models_empty⟩ (by omega)
    ⟨k, by simpa using hk, hex.elim .inl fun h => .inr ⟨y, hy, h⟩⟩
  refine ⟨p, ?_, by simpa using r⟩
  unfold initWithGroup
  rw [Cpp.bind_ok (Cpp.get_apply _), Cpp.bind_ok (Cpp.check_true (by rfl) _)]
  exact Cpp.bind_err e

/-- **C109**, what is left of it after an Error of `InitWithGroup`: when the processor is initialised again, with at least
as many items, it is sorted by the new dependencies and by the ones that the failed call has left behind.
Full statement: it is sorted by the new dependencies.  That is wrong: see `C109_violated`. -/
theorem _root_.Vlpp.C109_again_partial (heq : ∀ a b, eq a b = true ↔ ord a b = .eq) {m m' : τ → List τ} {dep dep' : GroupC τ τ}
    (hdep : GroupC.Models ord m dep) (items : List τ) (hu : ∃ e ∈ depsOf m dep.keys, found eq items e = false)
    (hdep' : GroupC.Models ord m' dep') (items' : List τ) (hl : items.length ≤ items'.length)
    (hin : ∀ x y, y ∈ m' x → (∃ a ∈ items', eq a x = true) ∧ ∃ b ∈ items', eq b y = true) :
    ∃ p1 p2 p3 cs, initWithGroup eq items dep {} = .err p1 ∧ initWithGroup eq items' dep' p1 = .ok () p2 ∧
      sort p2 = some (.ok () p3) ∧ Shows items'.length p3 cs ∧
      SortedComponents items'.length (fun a b => DepAt eq items' (fun x y => y ∈ m' x) a b ∨
        (a, b) ∈ ((depsOf m dep.keys).takeWhile (found eq items)).map (edgeOf eq items)) cs := by
  have hself : ∀ x : τ, ord x x = .eq := fun x => Std.ReflCmp.compare_self (cmp := ord)
  obtain ⟨p1, e1, r1⟩ := C109_group_error (eq := eq) hdep items hu
  have hk : ∀ k ∈ dep'.keys, firstIndex eq items' k ≠ -1 ∧ ∀ y ∈ m' k, firstIndex eq items' y ≠ -1 := by
    intro k hk
    have hne := (multimap_key hdep' k).mpr ⟨k, hk, hself k⟩
    constructor
    · obtain ⟨y, hy⟩ := List.exists_mem_of_ne_nil _ hne
      exact firstIndex_ne.mpr (hin k y hy).1
    · intro y hy
      exact firstIndex_ne.mpr (hin k y hy).2
  obtain ⟨q, e2, hE, q1, q2, q3⟩ := keyLoop_ok eq items' hdep' hk dep'.keys.length 0 _ p1 r1.edges (by omega)
  simp only [List.drop_zero] at hE
  have hr : ∀ e ∈ ((depsOf m dep.keys).takeWhile (found eq items)).map (edgeOf eq items) ++
      dep'.keys.flatMap (fun k => (m' k).map (fun y => (firstIndex eq items' k, firstIndex eq items' y))),
      (0 ≤ e.1 ∧ e.1 < items'.length) ∧ 0 ≤ e.2 ∧ e.2 < items'.length := by
    intro e he
    rcases List.mem_append.mp he with he | he
    · obtain ⟨z, hz, rfl⟩ := List.mem_map.mp he
      have hf := mem_takeWhile hz
      simp only [found, bne_iff_ne, ne_eq, Bool.and_eq_true] at hf
      have a1 := firstIndex_range hf.1
      have a2 := firstIndex_range hf.2
      show (0 ≤ firstIndex eq items z.1 ∧ _ < _) ∧ 0 ≤ firstIndex eq items z.2 ∧ firstIndex eq items z.2 < _
      refine ⟨⟨a1.1, ?_⟩, a2.1, ?_⟩
      · show firstIndex eq items z.1 < _
        omega
      · omega
    · obtain ⟨k, hkm, hy⟩ := List.mem_flatMap.mp he
      obtain ⟨y, hym, rfl⟩ := List.mem_map.mp hy
      exact ⟨firstIndex_range (hk k hkm).1, firstIndex_range ((hk k hkm).2 y hym)⟩
  obtain ⟨p2, e3, hR⟩ := initNodes_ok hE items'.length hr (q1.trans r1.nodes) (q2.trans r1.components) (q3.trans r1.buffer)
  obtain ⟨p3, cs, e4, h1, h2⟩ := sort_shows hR (Dep := fun a b => DepAt eq items' (fun x y => y ∈ m' x) a b ∨
        (a, b) ∈ ((depsOf m dep.keys).takeWhile (found eq items)).map (edgeOf eq items)) hr (by
    intro a b
    rw [List.mem_append, or_comm]
    apply or_congr _ Iff.rfl
    constructor
    · intro h
      obtain ⟨k, hkm, hy⟩ := List.mem_flatMap.mp h
      obtain ⟨y, hym, e⟩ := List.mem_map.mp hy
      cases e
      exact ⟨k, y, hym, rfl, rfl⟩
    · rintro ⟨x, y, hy, rfl, rfl⟩
      obtain ⟨k, hkm, hkx⟩ := (multimap_key hdep' x).mp (List.ne_nil_of_mem hy)
      refine List.mem_flatMap.mpr ⟨k, hkm, List.mem_map.mpr ⟨y, ?_, ?_⟩⟩
      · rw [multimap_congr hdep' hkx]; exact hy
      · rw [firstIndex_congr heq hkx])
  refine ⟨p1, p2, p3, cs, e1, ?_, e4, h1, h2⟩
  unfold initWithGroup
  rw [Cpp.bind_ok (Cpp.get_apply _), Cpp.bind_ok (Cpp.check_true (by rw [r1.nodes]; rfl) _)]
  exact (Cpp.bind_ok e2).trans e3
end failed

/-- a group to which these pairs were added -/
theorem group_of (D : List (Nat × Nat)) : ∀ (E : List (Nat × Nat)) (g : GroupC Nat Nat), GroupC.Models compare (pairsOf compare E) g →
    ∃ g', GroupC.Models compare (pairsOf compare (E ++ D)) g' := by
  induction D with
  | nil => intro E g h; exact ⟨g, by simpa using h⟩
  | cons d D ih =>
    intro E g h
    obtain ⟨_, g1, _, h1⟩ := group_add (cmp := fun a b : Nat => some (compare a b)) (fun _ _ => rfl) h d.1 d.2
    obtain ⟨g', h'⟩ := ih _ g1 h1
    exact ⟨g', by simpa using h'⟩

/-- **C109** is violated by an Error of `InitWithGroup` that is caught.  The items are 0 and 1.  In the failed call 0 depends
on 1, and 1 depends on 7, which is not an item.  In the second call only 1 depends on 0.  `Sort` then says that 0 and 1
depend on each other. -/
theorem _root_.Vlpp.C109_violated : ∃ dep dep' : GroupC Nat Nat,
    GroupC.Models compare (pairsOf compare [(0, 1), (1, 7)]) dep ∧ GroupC.Models compare (pairsOf compare [(1, 0)]) dep' ∧
    ∃ p1 p2 p3 cs, initWithGroup (· == ·) [0, 1] dep {} = .err p1 ∧ initWithGroup (· == ·) [0, 1] dep' p1 = .ok () p2 ∧
      sort p2 = some (.ok () p3) ∧ Shows 2 p3 cs ∧
      (∃ C ∈ cs, (0 : Int) ∈ C ∧ (1 : Int) ∈ C) ∧
      ¬ SortedComponents 2 (DepAt (· == ·) [0, 1] fun x y => y ∈ pairsOf compare [(1, 0)] x) cs := by
  obtain ⟨dep, hd⟩ := group_of [(0, 1), (1, 7)] [] GroupC.empty models_empty
  obtain ⟨dep', hd'⟩ := group_of [(1, 0)] [] GroupC.empty models_empty
  simp only [List.nil_append] at hd hd'
  have hmem : ∀ k, k ∈ dep.keys ↔ k = 0 ∨ k = 1 := by
    intro k
    have h := multimap_key hd k
    have : (∃ x ∈ dep.keys, compare x k = .eq) ↔ k ∈ dep.keys := by
      constructor
      · rintro ⟨x, hx, e⟩
        have : x = k := by simpa using e
        exact this ▸ hx
      · intro hk; exact ⟨k, hk, by simp⟩
    rw [← this, ← h]
    unfold pairsOf
    by_cases h0 : k = 0
    · subst h0; decide
    · by_cases h1 : k = 1
      · subst h1; decide
      · have a0 : ¬ compare 0 k = .eq := by simp; omega
        have a1 : ¬ compare 1 k = .eq := by simp; omega
        simp [h0, h1, a0, a1]
  have hkeys : dep.keys = [0, 1] := by
    obtain ⟨vss, h1, _⟩ := hd
    have hs := h1.ascending
    revert hs hmem
    cases dep.keys with
    | nil => intro hm; exact absurd ((hm 0).mpr (.inl rfl)) (by simp)
    | cons a t =>
      cases t with
      | nil =>
        intro hm
        have x0 := (hm 0).mpr (.inl rfl)
        have x1 := (hm 1).mpr (.inr rfl)
        simp only [List.mem_singleton] at x0 x1
        omega
      | cons b t =>
        intro hm hs
        have ha := (hm a).mp (by simp)
        have hb := (hm b).mp (by simp)
        rw [List.pairwise_cons, List.pairwise_cons] at hs
        have hab : a < b := by have := hs.1 b (by simp); simpa [Nat.compare_eq_lt] using this
        cases t with
        | nil =>
          have : a = 0 := by omega
          have : b = 1 := by omega
          simp [*]
        | cons c t =>
          have hc := (hm c).mp (by simp)
          have hbc : b < c := by have := hs.2.1 c (by simp); simpa [Nat.compare_eq_lt] using this
          omega
  have hleft : ((depsOf (pairsOf compare [(0, 1), (1, 7)]) dep.keys).takeWhile (found (fun a b : Nat => a == b) [0, 1])).map
      (edgeOf (fun a b : Nat => a == b) [0, 1]) = [(0, 1)] := by
    rw [hkeys]; decide
  have hm' : ∀ x y, y ∈ pairsOf compare [(1, 0)] x ↔ x = 1 ∧ y = 0 := by
    intro x y
    unfold pairsOf
    simp only [List.mem_map, List.mem_filter, List.mem_singleton, beq_iff_eq, Nat.compare_eq_eq]
    constructor
    · rintro ⟨e, ⟨rfl, h⟩, h'⟩; exact ⟨h.symm, h'.symm⟩
    · rintro ⟨rfl, rfl⟩; exact ⟨(1, 0), ⟨rfl, rfl⟩, rfl⟩
  obtain ⟨p1, p2, p3, cs, e1, e2, e3, h1, h2⟩ := C109_again_partial (eq := fun a b : Nat => a == b) (by simp) hd [0, 1]
    ⟨(1, 7), by rw [hkeys]; decide, by decide⟩ hd' [0, 1] (Nat.le_refl _) (by
      intro x y h
      obtain ⟨rfl, rfl⟩ := (hm' x y).mp h
      simp)
  rw [hleft] at h2
  have hD : DepAt (fun a b : Nat => a == b) [0, 1] (fun x y => y ∈ pairsOf compare [(1, 0)] x) 1 0 :=
    ⟨1, 0, (hm' 1 0).mpr ⟨rfl, rfl⟩, rfl, rfl⟩
  have hboth : ∃ C ∈ cs, (0 : Int) ∈ C ∧ (1 : Int) ∈ C := by
    obtain ⟨C, hC, h0⟩ := List.mem_flatten.mp ((h2.nodes 0).mpr (by simp))
    exact ⟨C, hC, h0, (h2.scc C hC 0 h0 1).mpr ⟨.single (.inr (by simp)), .single (.inl hD)⟩⟩
  refine ⟨dep, dep', hd, hd', p1, p2, p3, cs, e1, e2, e3, h1, hboth, ?_⟩
  intro hw
  obtain ⟨C, hC, h0, h1⟩ := hboth
  obtain ⟨hr, _⟩ := (hw.scc C hC 0 h0 1).mp h1
  have hno : ∀ a b : Int, Reaches (DepAt (fun a b : Nat => a == b) [0, 1] fun x y => y ∈ pairsOf compare [(1, 0)] x) a b →
      a = 0 → b = 0 := by
    intro a b h
    induction h with
    | refl => exact id
    | step h _ _ =>
      rintro rfl
      obtain ⟨x, y, hxy, e, _⟩ := h
      obtain ⟨rfl, rfl⟩ := (hm' x y).mp hxy
      exact absurd e (by decide)
  exact absurd (hno 0 1 hr rfl) (by decide)

/-! Concrete cases: a function that counts its calls, gives another answer each time, and throws when the counter is 2. -/

/-- the function -/
def counting (x y : Nat) : Cpp (Nat × Proc) Bool := fun s =>
  if s.1 = 2 then .err (10, s.2) else .ok (s.1 % 2 = 0 ∧ x ≠ y) (s.1 + 1, s.2)

theorem counting_keeps : KeepsProc counting := by
  intro x y s
  unfold counting
  constructor
  · intro b s' h
    split at h
    · cases h
    · cases h; rfl
  · intro s' h
    split at h
    · cases h; rfl
    · cases h

/-- it throws when it is asked about (1, 0) -/
theorem counting_throws : CutShort counting (allPairs [0, 1]) (0, {}) (10, {}) :=
  ⟨[(0, 0), (0, 1)], 1, 0, [(1, 1)], [false, false], (2, {}), rfl, .next rfl (.next rfl (.done _)), rfl⟩

/-- the second time it answers all questions, with yes to (1, 0) only -/
theorem counting_answers : Answered counting (allPairs [0, 1]) (10, {}) [false, false, true, false] (14, {}) :=
  .next rfl (.next rfl (.next rfl (.next rfl (.done _))))

example : ∃ s, initWithFuncE (fun a b : Nat => some (compare a b)) (· == ·) [0, 1] counting (0, {}) = .err s ∧
    ∃ p p' cs, initWithFuncE (fun a b : Nat => some (compare a b)) (· == ·) [0, 1] counting s = .ok () (14, p) ∧
      sort p = some (.ok () p') ∧ Shows 2 p' cs ∧ SortedComponents 2 (DepAt (· == ·) [0, 1] fun x y => (x, y) = (1, 0)) cs := by
  obtain ⟨s, e1, p, p', cs, e2, e3, h1, h2⟩ := C109_retry (ord := (compare : Nat → Nat → Ordering))
    (cmp := fun a b : Nat => some (compare a b)) (eq := (· == ·)) (fun _ _ => rfl) (by simp) counting counting
    counting_keeps counting_keeps [0, 1] [0, 1] counting_throws counting_answers
  refine ⟨s, e1, p, p', cs, e2, e3, h1, SortedComponents.congr ?_ h2⟩
  intro a b
  have : agreed (allPairs [0, 1]) [false, false, true, false] = [(1, 0)] := by decide
  simp only [this, List.mem_singleton]

/-- a function that initialises the processor it is asked for -/
example : initWithFuncE (σ := Unit) (fun a b : Nat => some (compare a b)) (· == ·) [0]
    (fun _ _ s => .ok true (s.1, { nodes := [{ ins := [], outs := [] }] })) ((), {}) =
      .err ((), { nodes := [{ ins := [], outs := [] }] }) :=
  C109_nested (ord := (compare : Nat → Nat → Ordering)) (bs := [true]) (fun _ _ => rfl) _ [0] (.next rfl (.done _)) (by simp)

end PO
end Vlpp
