import Verif.Lemmas.LazyErrors

/-!
# C90: Errors raised while a lazy list is read; variables that hold lazy lists

`none` in a sequence stands for an element whose computation raises an Error (Spec/LazyErrors.lean).
-/
set_option autoImplicit false
namespace Vlpp
open Spec
variable {α β : Type}

/-- the elements of a program -/
def RaisePipe.eval : {α : Type} → RaisePipe α → List (Option α)
  | _, .source p => p.eval.map some
  | _, .select p f => mapUntil f p.eval
  | _, .where' p f => filterUntil f p.eval
  | _, .concat p q => p.eval ++ q.eval
  | _, .pairwise p q => zipUntil p.eval q.eval
  | _, .take p n => p.eval.take n.toNat
  | _, .skip p n => skipUntil n.toNat p.eval

/-- The arguments of `Take` and `Skip` are those of C18. -/
def RaisePipe.Ok : {α : Type} → RaisePipe α → Prop
  | _, .source p => p.Ok
  | _, .select p _ => p.Ok
  | _, .where' p _ => p.Ok
  | _, .concat p q => p.Ok ∧ q.Ok
  | _, .pairwise p q => p.Ok ∧ q.Ok
  | _, .take p n => p.Ok ∧ 1 ≤ n
  | _, .skip p n => p.Ok ∧ 0 ≤ n

theorem RaisePipe.tells {α : Type} (p : RaisePipe α) : p.Ok → ∃ L, p.build = some (.ok L ()) ∧ L.Tells p.eval := by
  induction p with
  | source p =>
    intro h
    obtain ⟨L, e, _, hL⟩ := p.built h
    exact ⟨L, e, (hL false (fun h => by cases h)).tells⟩
  | select p f ih =>
    intro h
    obtain ⟨L, e, hL⟩ := ih h
    obtain ⟨N, e', hN⟩ := hL.select f
    exact ⟨N, by simp only [RaisePipe.build, e, e', Pipe.andThen, Pipe.ofOption], hN⟩
  | where' p f ih =>
    intro h
    obtain ⟨L, e, hL⟩ := ih h
    obtain ⟨N, e', hN⟩ := hL.where' f
    exact ⟨N, by simp only [RaisePipe.build, e, e', Pipe.andThen, Pipe.ofOption], hN⟩
  | concat p q ihp ihq =>
    intro h
    obtain ⟨L, e, hL⟩ := ihp h.1
    obtain ⟨M, e', hM⟩ := ihq h.2
    obtain ⟨N, e'', hN⟩ := hL.concat hM
    exact ⟨N, by simp only [RaisePipe.build, e, e', e'', Pipe.andThen, Pipe.ofOption], hN⟩
  | pairwise p q ihp ihq =>
    intro h
    obtain ⟨L, e, hL⟩ := ihp h.1
    obtain ⟨M, e', hM⟩ := ihq h.2
    obtain ⟨N, e'', hN⟩ := hL.pairwise hM
    exact ⟨N, by simp only [RaisePipe.build, e, e', e'', Pipe.andThen, Pipe.ofOption], hN⟩
  | take p n ih =>
    intro h
    obtain ⟨L, e, hL⟩ := ih h.1
    obtain ⟨N, e', hN⟩ := hL.take n h.2
    exact ⟨N, by simp only [RaisePipe.build, e, e', Pipe.andThen, Pipe.ofOption], hN⟩
  | skip p n ih =>
    intro h
    obtain ⟨L, e, hL⟩ := ih h.1
    obtain ⟨N, e', hN⟩ := hL.skip n h.2
    exact ⟨N, by simp only [RaisePipe.build, e, e', Pipe.andThen, Pipe.ofOption], hN⟩

/-- **C90, Errors.** Building the lazy list raises no Error.  Functions that read the whole sequence raise an Error exactly if
some element does, and otherwise return what they return for the values; those that read only the first element raise an Error
exactly if this element does (or if there is none and they have no default). -/
theorem C90_errors (p : RaisePipe α) (hp : p.Ok) : ∃ L, p.build = some (.ok L ()) ∧
    (∀ (init : β) (f : β → α → β), L.aggregateInit init f = some (orError ((whole p.eval).map (·.foldl f init)))) ∧
    (∀ f, L.aggregate f = some (orError ((whole p.eval).bind (foldl1 f)))) ∧
    L.toList = some (orError (whole p.eval)) ∧
    L.count = some (orError ((whole p.eval).map fun l => (l.length : Int))) ∧
    L.last = some (orError ((whole p.eval).bind List.getLast?)) ∧
    (∀ d, L.lastOr d = some (orError ((whole p.eval).map (·.getLastD d)))) ∧
    (∀ t, L.all t = some (orError ((whole p.eval).map (·.all t))) ∧ L.any t = some (orError ((whole p.eval).map (·.any t)))) ∧
    L.first = some (orError (atFirst none id p.eval)) ∧
    (∀ d, L.firstOr d = some (orError (atFirst (some d) id p.eval))) ∧
    L.isEmpty = some (orError (atFirst (some true) (fun _ => false) p.eval)) := by
  obtain ⟨L, e, h⟩ := p.tells hp
  exact ⟨L, e, fun init f => h.aggregateInit init f, fun f => h.aggregate f, h.toList, h.count, h.last, fun d => h.lastOr d,
    fun t => ⟨h.all t, h.any t⟩, h.first, fun d => h.firstOr d, h.isEmpty⟩

/-- **C90, comparison.** `CompareEnumerable` raises an Error exactly if it gets to an element that raises one. -/
theorem C90_compare (p : RaisePipe α) (q : RaisePipe β) (hp : p.Ok) (hq : q.Ok) (ord : α → β → Ordering) :
    ∃ L M, p.build = some (.ok L ()) ∧ q.build = some (.ok M ()) ∧
      L.compare M (fun a b => some (ord a b)) = some (orError ((compareUntil ord p.eval q.eval).map some)) := by
  obtain ⟨L, e, h⟩ := p.tells hp
  obtain ⟨M, e', h'⟩ := q.tells hq
  exact ⟨L, M, e, e', h.compare h' ord⟩

theorem foldLoop_raises {A : Ator.{0, 0} α} (f : β → α → Option β) : ∀ (zs : List (Option α)) (i : Int) (acc : β) (s : A.σ),
    A.Plays i s zs → whole zs = none → LazyList.foldLoop A f acc s = some (.err ())
  | [], _, _, _, _, h => by cases h
  | none :: zs, i, acc, s, ⟨s', e⟩, _ => by rw [LazyList.foldLoop, e]
  | some x :: zs, i, acc, s, ⟨s', e, hc, _, h⟩, hw => by
    have hw : whole zs = none := by
      cases h : whole zs with
      | none => rfl
      | some l => simp [whole, h] at hw
    rw [LazyList.foldLoop, e]
    simp only [hc]
    cases f acc x with
    | none => rfl
    | some acc' => exact foldLoop_raises f zs (i + 1) acc' s' h hw

/-- **C90, functions that copy.** `OrderBy`, `OrderByKey`, `OrderBySelf`, `Reverse`, `Evaluate(true)` raise the Error at once, and so do
`Intersect` and `Except` of any sequence with this one. -/
theorem C90_copies (p q : RaisePipe α) (hp : p.Ok) (hq : q.Ok) (hw : whole p.eval = none) (cmp : α → α → Option Ordering)
    (key : α → β) (cmp' : β → β → Option Ordering) :
    ∃ L M, p.build = some (.ok L ()) ∧ q.build = some (.ok M ()) ∧ L.orderBy cmp = some (.err ()) ∧ L.orderByKey key cmp' = some (.err ()) ∧
      L.orderBySelf cmp = some (.err ()) ∧ L.reverse = some (.err ()) ∧ L.evaluate true = some (.err ()) ∧
      M.intersect L cmp = some (.err ()) ∧ M.except L cmp = some (.err ()) := by
  obtain ⟨L, e, h⟩ := p.tells hp
  obtain ⟨M, e', h'⟩ := q.tells hq
  have ht : L.toList = some (.err ()) := by rw [h.toList, hw]; rfl
  obtain ⟨s, es, hs⟩ := h.create
  obtain ⟨t, et, _⟩ := h'.create
  have hi : ∀ b, M.intersectExcept L cmp b = some (.err ()) := by
    intro b
    simp [LazyList.intersectExcept, et, LazyList.aggregateInit?, es, foldLoop_raises _ _ _ _ _ hs hw]
  exact ⟨L, M, e, e', by simp [LazyList.orderBy, ht], by simp [LazyList.orderByKey, LazyList.orderBy, ht],
    by simp [LazyList.orderBySelf, LazyList.orderBy, ht], by simp [LazyList.reverse, ht], by simp [LazyList.evaluate, ht],
    by simp [LazyList.intersect, LazyList.thenDistinct, hi], by simp [LazyList.except, LazyList.thenDistinct, hi]⟩

/-- **C90, prototypes.** If the prototype of a lazy list cannot be cloned, every function that reads it or is given it raises
this Error; none takes it for an empty sequence. -/
theorem C90_prototype (L : LazyList.{0, 0} α) (M : LazyList.{0, 0} β) (h : L.create = none) (init : β) (f : β → α → β)
    (g : α → α → α) (d : α) (t : α → Bool) (cmp : α → β → Option Ordering) (cmp' : β → α → Option Ordering) :
    L.aggregateInit init f = some (.err ()) ∧ L.aggregate g = some (.err ()) ∧ L.toList = some (.err ()) ∧
    L.count = some (.err ()) ∧ L.last = some (.err ()) ∧ L.lastOr d = some (.err ()) ∧ L.all t = some (.err ()) ∧
    L.any t = some (.err ()) ∧ L.first = some (.err ()) ∧ L.firstOr d = some (.err ()) ∧ L.isEmpty = some (.err ()) ∧
    L.compare M cmp = some (.err ()) ∧ M.compare L cmp' = some (.err ()) := by
  refine ⟨?_, ?_, ?_, ?_, ?_, ?_, ?_, ?_, ?_, ?_, ?_, ?_, ?_⟩
  · simp [LazyList.aggregateInit, LazyList.aggregateInit?, h]
  · simp [LazyList.aggregate, LazyList.withFirst, h]
  · simp [LazyList.toList, LazyList.aggregateInit, LazyList.aggregateInit?, h]
  · simp [LazyList.count, h]
  · simp [LazyList.last, LazyList.withFirst, h]
  · simp [LazyList.lastOr, LazyList.aggregateInit, LazyList.aggregateInit?, h]
  · simp [LazyList.all, LazyList.select, LazyList.select?, h]
  · simp [LazyList.any, LazyList.select, LazyList.select?, h]
  · simp [LazyList.first, LazyList.withFirst, h]
  · simp [LazyList.firstOr, LazyList.withFirst, h]
  · simp [LazyList.isEmpty, LazyList.withFirst, h]
  · simp [LazyList.compare, h]
  · cases hM : M.create <;> simp [LazyList.compare, h, hM]

/-- the lazy lists in variables hold the sequences of the specification -/
def LazyVars.Hold (vars : LazyVars α) (spec : Nat → Option (List α)) : Prop :=
  ∀ v, match vars v, spec v with
    | some L, some xs => ∃ i0, L.Holds false xs i0
    | none, none => True
    | _, _ => False

/-- a statement of a program: new sequences are programs of C17-C26 -/
def LazyVars.stmt : SeqVarOp (Pipe α) → Option (SeqVarOp (LazyList.{0, 0} α))
  | .new x p => match p.build with
    | some (.ok L _) => some (.new x L)
    | _ => none
  | .blank x => some (.blank x)
  | .copy x y => some (.copy x y)
  | .move x y => some (.move x y)
  | .assign x y => some (.assign x y)
  | .moveAssign x y => some (.moveAssign x y)
  | .drop x => some (.drop x)

/-- run a program -/
def LazyVars.exec (vars : LazyVars α) : List (SeqVarOp (Pipe α)) → Option (LazyVars α)
  | [] => some vars
  | op :: ops => (stmt op).bind fun op' => (vars.step op').bind fun vars' => LazyVars.exec vars' ops

/-- the same in the specification -/
def Spec.seqVars (spec : Nat → Option (List α)) : List (SeqVarOp (Pipe α)) → Option (Nat → Option (List α))
  | [] => some spec
  | op :: ops => (op.effect Pipe.eval [] spec).bind fun spec' => Spec.seqVars spec' ops

theorem LazyVars.Hold.isSome {vars : LazyVars α} {spec : Nat → Option (List α)} (h : vars.Hold spec) (v : Nat) :
    (vars v).isSome = (spec v).isSome := by
  have := h v
  cases h1 : vars v <;> cases h2 : spec v <;> rw [h1, h2] at this <;> first | rfl | exact this.elim

theorem LazyVars.Hold.set {vars : LazyVars α} {spec : Nat → Option (List α)} (h : vars.Hold spec) (x : Nat)
    {L : LazyList.{0, 0} α} {xs : List α} {i0 : Int} (hL : L.Holds false xs i0) :
    (vars.set x (some L)).Hold fun v => if v = x then some xs else spec v := by
  intro v
  unfold LazyVars.set
  by_cases q : v = x
  · simp only [q, if_true]; exact ⟨i0, hL⟩
  · simp only [q, if_false]; exact h v

theorem LazyVars.Hold.get {vars : LazyVars α} {spec : Nat → Option (List α)} (h : vars.Hold spec) {v : Nat} {xs : List α}
    (hv : spec v = some xs) : ∃ L i0, vars v = some L ∧ L.Holds false xs i0 := by
  have := h v
  rw [hv] at this
  cases h1 : vars v with
  | none => rw [h1] at this; exact this.elim
  | some L => rw [h1] at this; obtain ⟨i0, hL⟩ := this; exact ⟨L, i0, rfl, hL⟩

theorem LazyVars.exec_holds : ∀ (ops : List (SeqVarOp (Pipe α))) (vars : LazyVars α) (spec spec' : Nat → Option (List α)),
    vars.Hold spec → (∀ x p, SeqVarOp.new x p ∈ ops → p.Ok) → Spec.seqVars spec ops = some spec' →
    ∃ vars', vars.exec ops = some vars' ∧ vars'.Hold spec'
  | [], vars, spec, spec', h, _, e => ⟨vars, rfl, by cases e; exact h⟩
  | op :: ops, vars, spec, spec', h, hok, e => by
    simp only [Spec.seqVars] at e
    cases e1 : op.effect Pipe.eval [] spec with
    | none => rw [e1] at e; cases e
    | some spec1 =>
      rw [e1] at e
      obtain ⟨op', vars1, q1, q2, q3⟩ : ∃ op' vars1, LazyVars.stmt op = some op' ∧ vars.step op' = some vars1 ∧ vars1.Hold spec1 := by
        cases op with
        | new x p =>
          obtain ⟨L, eL, _, hL⟩ := p.built (hok x p (by simp))
          have hh := hL false (fun h => by cases h)
          simp only [SeqVarOp.effect] at e1
          by_cases q : spec x = none
          · rw [if_pos q, Option.some.injEq] at e1
            subst e1
            have hv : (vars x).isSome = false := by rw [h.isSome, q]; rfl
            exact ⟨.new x L, vars.set x (some L), by simp [LazyVars.stmt, eL], by simp [LazyVars.step, hv], h.set x hh⟩
          · rw [if_neg q] at e1; cases e1
        | blank x =>
          simp only [SeqVarOp.effect] at e1
          by_cases q : spec x = none
          · rw [if_pos q, Option.some.injEq] at e1
            subst e1
            have hv : (vars x).isSome = false := by rw [h.isSome, q]; rfl
            exact ⟨.blank x, vars.set x (some .empty), rfl, by simp [LazyVars.step, hv],
              h.set x (LazyList.holds_empty.weaken (fun h => by cases h))⟩
          · rw [if_neg q] at e1; cases e1
        | copy x y =>
          simp only [SeqVarOp.effect] at e1
          by_cases q : spec x = none ∧ (spec y).isSome
          · rw [if_pos q, Option.some.injEq] at e1
            subst e1
            have hv : (vars x).isSome = false := by rw [h.isSome, q.1]; rfl
            obtain ⟨ys, hy⟩ := Option.isSome_iff_exists.mp q.2
            obtain ⟨L, i0, hL, hh⟩ := h.get hy
            exact ⟨.copy x y, vars.set x (some L), rfl, by simp [LazyVars.step, hv, hL], by rw [hy]; exact h.set x hh⟩
          · rw [if_neg q] at e1; cases e1
        | assign x y =>
          simp only [SeqVarOp.effect] at e1
          by_cases q : (spec x).isSome ∧ (spec y).isSome
          · rw [if_pos q, Option.some.injEq] at e1
            subst e1
            have hv : (vars x).isSome = true := by rw [h.isSome]; exact q.1
            obtain ⟨ys, hy⟩ := Option.isSome_iff_exists.mp q.2
            obtain ⟨L, i0, hL, hh⟩ := h.get hy
            exact ⟨.assign x y, vars.set x (some L), rfl, by simp [LazyVars.step, hv, hL], by rw [hy]; exact h.set x hh⟩
          · rw [if_neg q] at e1; cases e1
        | move x y =>
          simp only [SeqVarOp.effect] at e1
          by_cases q : spec x = none ∧ (spec y).isSome
          · rw [if_pos q, Option.some.injEq] at e1
            subst e1
            have hv : (vars x).isSome = false := by rw [h.isSome, q.1]; rfl
            obtain ⟨ys, hy⟩ := Option.isSome_iff_exists.mp q.2
            obtain ⟨L, i0, hL, hh⟩ := h.get hy
            exact ⟨.move x y, (vars.set x (some L.move.1)).set y (some L.move.2), rfl, by simp [LazyVars.step, hv, hL], by
              rw [hy]
              exact (h.set x (L := L.move.1) hh).set y (L := L.move.2) (LazyList.holds_empty.weaken (fun h => by cases h))⟩
          · rw [if_neg q] at e1; cases e1
        | moveAssign x y =>
          simp only [SeqVarOp.effect] at e1
          by_cases q : (spec x).isSome ∧ (spec y).isSome
          · rw [if_pos q, Option.some.injEq] at e1
            subst e1
            have hv : (vars x).isSome = true := by rw [h.isSome]; exact q.1
            obtain ⟨ys, hy⟩ := Option.isSome_iff_exists.mp q.2
            obtain ⟨L, i0, hL, hh⟩ := h.get hy
            exact ⟨.moveAssign x y, (vars.set x (some L.move.1)).set y (some L.move.2), rfl, by simp [LazyVars.step, hv, hL], by
              rw [hy]
              exact (h.set x (L := L.move.1) hh).set y (L := L.move.2) (LazyList.holds_empty.weaken (fun h => by cases h))⟩
          · rw [if_neg q] at e1; cases e1
        | drop x =>
          simp only [SeqVarOp.effect] at e1
          by_cases q : (spec x).isSome
          · rw [if_pos q, Option.some.injEq] at e1
            subst e1
            have hv : (vars x).isSome = true := by rw [h.isSome]; exact q
            refine ⟨.drop x, vars.set x none, rfl, by simp [LazyVars.step, hv], fun v => ?_⟩
            unfold LazyVars.set
            by_cases q : v = x
            · simp [q]
            · simp only [q, if_false]; exact h v
          · rw [if_neg q] at e1; cases e1
      obtain ⟨vars2, r1, r2⟩ := LazyVars.exec_holds ops vars1 spec1 spec' q3 (fun x p hp => hok x p (by simp [hp])) e
      exact ⟨vars2, by simp [LazyVars.exec, q1, q2, r1], r2⟩

/-- **C90, variables.** After every program that declares, copies, moves, assigns and drops variables of type `LazyList<T>`, every
variable holds the sequence it should: a copy the same as the original, a variable moved from nothing. -/
theorem C90_variables (ops : List (SeqVarOp (Pipe α))) (hok : ∀ x p, SeqVarOp.new x p ∈ ops → p.Ok)
    (spec : Nat → Option (List α)) (h : Spec.seqVars (fun _ => none) ops = some spec) :
    ∃ vars : LazyVars α, LazyVars.exec (fun _ => none) ops = some vars ∧ (∀ v, (vars v).isSome = (spec v).isSome) ∧
      ∀ v xs, spec v = some xs → ∃ L, vars v = some L ∧ L.Yields xs ∧ L.toList = some (.ok xs ()) := by
  obtain ⟨vars, e, hv⟩ := LazyVars.exec_holds ops (fun _ => none) (fun _ => none) spec (fun _ => trivial) hok h
  refine ⟨vars, e, hv.isSome, fun v xs hx => ?_⟩
  obtain ⟨L, i0, hL, hh⟩ := hv.get hx
  exact ⟨L, hL, hh.yields, hh.toList⟩

/-! ### Concrete cases -/

/-- halves, Errors for odd numbers -/
private def half (n : Nat) : Option Nat := if n % 2 = 0 then some (n / 2) else none

/-- `From({4, 6, 7, 8}).Select(half)`: `First` is 2, `Take(2).Last` is 3, `Last` raises an Error -/
example : ∃ L M : LazyList.{0, 0} Nat, (RaisePipe.select (.source (.list [4, 6, 7, 8])) half).build = some (.ok L ()) ∧
    (RaisePipe.take (.select (.source (.list [4, 6, 7, 8])) half) 2).build = some (.ok M ()) ∧
    L.first = some (.ok 2 ()) ∧ L.last = some (.err ()) ∧ L.count = some (.err ()) ∧ M.last = some (.ok 3 ()) := by
  obtain ⟨L, e, _, _, _, h2, h3, _, _, h1, _⟩ := C90_errors (β := Nat) (.select (.source (.list [4, 6, 7, 8])) half) (by simp [RaisePipe.Ok, Pipe.Ok])
  obtain ⟨M, e', _, _, _, _, h4, _⟩ := C90_errors (β := Nat) (.take (.select (.source (.list [4, 6, 7, 8])) half) 2)
    (by simp [RaisePipe.Ok, Pipe.Ok])
  refine ⟨L, M, e, e', h1.trans rfl, h3.trans rfl, h2.trans rfl, h4.trans rfl⟩

/-- `Except` of a list and one with an element that raises an Error -/
example : ∃ L M : LazyList.{0, 0} Nat, (RaisePipe.select (.source (.list [4, 6, 7, 8])) half).build = some (.ok L ()) ∧
    (RaisePipe.source (.list [1])).build = some (.ok M ()) ∧ M.except L (fun a b => some (compare a b)) = some (.err ()) := by
  obtain ⟨L, M, e, e', _, _, _, _, _, _, h⟩ := C90_copies (β := Nat) (.select (.source (.list [4, 6, 7, 8])) half) (.source (.list [1]))
    (by simp [RaisePipe.Ok, Pipe.Ok]) (by simp [RaisePipe.Ok, Pipe.Ok]) rfl (fun a b => some (compare a b)) id (fun a b => some (compare a b))
  exact ⟨L, M, e, e', h⟩

/-- the comparison is decided before the Error -/
example : compareUntil (α := Nat) (β := Nat) compare [some 1, none] [some 2] = some .lt ∧
    compareUntil (α := Nat) (β := Nat) compare [some 2, none] [some 2] = none := by decide

/-- a copy keeps what a variable loses by being moved from -/
example : (Spec.seqVars (α := Nat) (fun _ => none) [.new 0 (.list [1, 2]), .copy 1 0, .move 2 0, .blank 3, .moveAssign 3 2]).map
    (fun s => [s 0, s 1, s 2, s 3, s 4]) = some [some [], some [1, 2], some [], some [1, 2], none] := by decide +kernel

end Vlpp
