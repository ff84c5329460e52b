import Verif.Spec.Variant

/-! # C48: a `Variant` has exactly one living alternative -/
set_option autoImplicit false
namespace Vlpp
open Variant Spec

namespace Variant
variable {V : Type}

/-- a variable with one living alternative, named by its index -/
def alive (x : Nat × V) : Var V := ⟨x.1, some x⟩

/-- variables with one living alternative each -/
def allAlive (c : Choices V) : World V := c.map (Option.map alive)

/-- all alternatives exist -/
def InRange (es : List Traits) (c : Choices V) : Prop := ∀ (a : Nat) (x : Nat × V), c[a]?.join = some x → x.1 < es.length

theorem allAlive_get {c : Choices V} {a : Nat} {x : Nat × V} (h : c[a]?.join = some x) :
    (allAlive c)[a]?.join = some (alive x) := by
  simp only [allAlive, List.getElem?_map]
  cases hc : c[a]? with
  | none => simp [hc] at h
  | some y => simp [hc] at h; simp [h]

theorem allAlive_set (c : Choices V) (a : Nat) (x : Option (Nat × V)) :
    allAlive (c.set a x) = (allAlive c).set a (x.map alive) := by
  simp [allAlive, List.map_set]

theorem allAlive_append (c : Choices V) (x : Option (Nat × V)) :
    allAlive (c ++ [x]) = allAlive c ++ [x.map alive] := by
  simp [allAlive]

theorem join_lt {α : Type} {w : List (Option α)} {a : Nat} {n : α} (h : w[a]?.join = some n) : a < w.length := by
  refine Classical.byContradiction fun hc => ?_
  rw [List.getElem?_eq_none (by omega)] at h
  cases h

theorem join_set_self {α : Type} {w : List (Option α)} {a : Nat} {n : α} (h : w[a]?.join = some n) (x : Option α) :
    (w.set a x)[a]?.join = x := by
  simp [List.getElem?_set_self (join_lt h)]

theorem join_set_ne {α : Type} {w : List (Option α)} {a b : Nat} (h : a ≠ b) (x : Option α) :
    (w.set a x)[b]?.join = w[b]?.join := by
  simp [List.getElem?_set_ne h]

theorem join_append_old {α : Type} {w : List (Option α)} {a : Nat} {n : α} (h : w[a]?.join = some n) (x : Option α) :
    (w ++ [x])[a]?.join = some n := by
  rw [List.getElem?_append_left (join_lt h), h]

theorem join_append_new {α : Type} (w : List (Option α)) (x : Option α) : (w ++ [x])[w.length]?.join = x := by
  simp

theorem ne_cast {J i : Nat} (h : J ≠ i) : ¬ ((J : Int) = (i : Int)) := by omega

theorem var_ok {w : World V} {a : Nat} {n : Var V} (h : w[a]?.join = some n) : var a w = .ok n w := by
  simp [var, h]

theorem read_ok {w : World V} {a i : Nat} {v : V} {k : Int} (h : w[a]?.join = some ⟨k, some (i, v)⟩) :
    read a i w = .ok v w := by
  rw [read, Cpp.bind_ok (var_ok h)]
  simp

theorem read_fault {w : World V} {a i : Nat} {k : Int} (h : w[a]?.join = some ⟨k, none⟩) : read a i w = .fault := by
  rw [read, Cpp.bind_ok (var_ok h)]
  simp

theorem write_ok {w : World V} {a i : Nat} {v u : V} {k : Int} (h : w[a]?.join = some ⟨k, some (i, u)⟩) :
    write a i v w = .ok () (w.set a (some ⟨k, some (i, v)⟩)) := by
  rw [write, Cpp.bind_ok (var_ok h)]
  simp [put]

theorem construct_ok {w : World V} {a : Nat} {k : Int} (h : w[a]?.join = some ⟨k, none⟩) (i : Nat) (v : V) :
    construct a i v .completes w = .ok () (w.set a (some ⟨k, some (i, v)⟩)) := by
  rw [construct, Cpp.bind_ok (var_ok h)]
  simp [put]

theorem construct_err {w : World V} {a : Nat} {k : Int} (h : w[a]?.join = some ⟨k, none⟩) (i : Nat) (v t s : V) :
    construct a i v (.throws t s) w = .err w := by
  rw [construct, Cpp.bind_ok (var_ok h)]
  simp [raise]

theorem setIndex_ok {w : World V} {a : Nat} {n : Var V} (h : w[a]?.join = some n) (i : Int) :
    setIndex a i w = .ok () (w.set a (some { n with index := i })) := by
  rw [setIndex, Cpp.bind_ok (var_ok h)]
  rfl

/-- The fold calls the function of the alternative with the index, and the others do nothing. -/
theorem foldOr_eq {R : Type} (f : Nat → Traits → Cpp (World V) (Option R)) (i : Nat)
    (hf : ∀ J e w, J ≠ i → f J e w = .ok none w) : ∀ (es : List Traits) (base : Nat) (w : World V),
    (i < base → foldOr f base es w = .ok none w) ∧
    (∀ k e, base + k = i → es[k]? = some e → foldOr f base es w = f i e w)
  | [], base, w => ⟨fun _ => rfl, fun k e _ h => by simp at h⟩
  | e :: es, base, w => by
    constructor
    · intro h
      rw [foldOr, Cpp.bind_ok (hf base e w (by omega))]
      exact (foldOr_eq f i hf es (base + 1) w).1 (by omega)
    · intro k d hk hd
      cases k with
      | zero =>
        simp at hd hk
        subst hd hk
        rw [foldOr]
        show Cpp.bind' _ _ w = _
        unfold Cpp.bind'
        cases hr : f base e w with
        | fault => rfl
        | err w' => rfl
        | ok r w' =>
          cases r with
          | some r => rfl
          | none => exact (foldOr_eq f base hf es (base + 1) w').1 (by omega)
      | succ k =>
        rw [foldOr, Cpp.bind_ok (hf base e w (by omega))]
        exact (foldOr_eq f i hf es (base + 1) w).2 k d (by omega) (by simpa using hd)

theorem pack_eq {R : Type} (es : List Traits) (f : Nat → Traits → Cpp (World V) (Option R)) (i : Nat) (e : Traits)
    (he : es[i]? = some e) (hf : ∀ J e w, J ≠ i → f J e w = .ok none w) (w : World V) :
    pack es f w = match f i e w with
      | .ok (some r) w' => .ok r w'
      | .ok none w' => .err w'
      | .err w' => .err w'
      | .fault => .fault := by
  rw [pack]
  show Cpp.bind' _ _ w = _
  unfold Cpp.bind'
  rw [(foldOr_eq f i hf es 0 w).2 i e (by omega) he]
  cases hr : f i e w with
  | fault => rfl
  | err w' => rfl
  | ok r w' => cases r <;> rfl

theorem dtor_ok {es : List Traits} {w : World V} {a i : Nat} {v : V} (hi : i < es.length)
    (h : w[a]?.join = some ⟨i, some (i, v)⟩) : dtor es a w = .ok () (w.set a (some ⟨i, none⟩)) := by
  rw [dtor, Cpp.bind_ok (var_ok h),
    pack_eq es _ i es[i] (List.getElem?_eq_getElem hi) (fun J e w' hJ => by simp [iDtor, ne_cast hJ])]
  simp only [iDtor, ne_eq, not_true_eq_false, if_false]
  rw [Cpp.bind_ok (read_ok h), Cpp.bind_ok (var_ok h)]
  rfl

theorem dtor_fault {es : List Traits} {w : World V} {a i : Nat} (hi : i < es.length)
    (h : w[a]?.join = some ⟨i, none⟩) : dtor es a w = .fault := by
  rw [dtor, Cpp.bind_ok (var_ok h),
    pack_eq es _ i es[i] (List.getElem?_eq_getElem hi) (fun J e w' hJ => by simp [iDtor, ne_cast hJ])]
  simp only [iDtor, ne_eq, not_true_eq_false, if_false]
  rw [Cpp.bind_fault (read_fault h)]

theorem copyCtor_eq {es : List Traits} {w : World V} {a b i : Nat} {v : V} {k : Int} (hi : i < es.length)
    (ha : w[a]?.join = some ⟨k, none⟩) (hb : w[b]?.join = some ⟨i, some (i, v)⟩) (ft : Fate V) :
    pack es (iCopyCtor i a b ft) w =
      match copyable es i, ft with
      | true, .completes => .ok () (w.set a (some ⟨k, some (i, v)⟩))
      | _, _ => .err w := by
  rw [pack_eq es _ i es[i] (List.getElem?_eq_getElem hi)
    (fun J e w' hJ => by simp only [iCopyCtor]; split <;> simp [ne_cast hJ])]
  have hc : copyable es i = es[i].copyConstructible := by simp [copyable, hi]
  rw [hc]
  simp only [iCopyCtor]
  cases es[i].copyConstructible with
  | false => simp
  | true =>
    simp only [if_true, ne_eq, not_true_eq_false, if_false]
    rw [Cpp.bind_ok (read_ok hb)]
    cases ft with
    | completes => rw [Cpp.bind_ok (construct_ok ha i v)]; simp
    | throws t s => rw [Cpp.bind_err (construct_err ha i v t s)]

theorem moveCtor_eq {moved : V → V} {es : List Traits} {w : World V} {a b i : Nat} {v : V} {k : Int} (hi : i < es.length)
    (hab : a ≠ b) (ha : w[a]?.join = some ⟨k, none⟩) (hb : w[b]?.join = some ⟨i, some (i, v)⟩) (ft : Fate V) :
    pack es (iMoveCtor moved i a b ft) w =
      match movable es i, ft with
      | true, .completes => .ok () ((w.set b (some ⟨i, some (i, moved v)⟩)).set a (some ⟨k, some (i, v)⟩))
      | true, .throws _ s => .err (w.set b (some ⟨i, some (i, s)⟩))
      | false, _ => .err w := by
  rw [pack_eq es _ i es[i] (List.getElem?_eq_getElem hi)
    (fun J e w' hJ => by simp only [iMoveCtor]; split <;> simp [ne_cast hJ])]
  have hc : movable es i = es[i].moveConstructible := by simp [movable, hi]
  rw [hc]
  simp only [iMoveCtor]
  cases es[i].moveConstructible with
  | false => simp
  | true =>
    simp only [if_true, ne_eq, not_true_eq_false, if_false]
    rw [Cpp.bind_ok (read_ok hb)]
    cases ft with
    | completes =>
      simp only []
      rw [Cpp.bind_ok (write_ok hb), Cpp.bind_ok (construct_ok (by rw [join_set_ne (Ne.symm hab)]; exact ha) i v)]
      simp
    | throws t s =>
      simp only []
      rw [Cpp.bind_ok (write_ok hb), Cpp.bind_err (construct_err (by rw [join_set_ne (Ne.symm hab)]; exact ha) i v t s)]

theorem copyAssign_eq {es : List Traits} {w : World V} {a b i : Nat} {u v : V} (hi : i < es.length)
    (ha : w[a]?.join = some ⟨i, some (i, u)⟩) (hb : w[b]?.join = some ⟨i, some (i, v)⟩) (ft : Fate V) :
    pack es (iCopyAssign i a b ft) w =
      match assignable es i, ft with
      | true, .completes => .ok () (w.set a (some ⟨i, some (i, v)⟩))
      | true, .throws t _ => .err (w.set a (some ⟨i, some (i, t)⟩))
      | false, _ => .err w := by
  rw [pack_eq es _ i es[i] (List.getElem?_eq_getElem hi)
    (fun J e w' hJ => by simp only [iCopyAssign]; split <;> simp [ne_cast hJ])]
  have hc : assignable es i = es[i].copyAssignable := by simp [assignable, hi]
  rw [hc]
  simp only [iCopyAssign]
  cases es[i].copyAssignable with
  | false => simp
  | true =>
    simp only [if_true, ne_eq, not_true_eq_false, if_false]
    rw [Cpp.bind_ok (read_ok hb)]
    cases ft with
    | completes =>
      simp only []
      rw [Cpp.bind_ok (write_ok ha)]
      simp
    | throws t s =>
      simp only []
      rw [Cpp.bind_ok (write_ok ha)]
      rfl

theorem moveAssign_eq {moved : V → V} {es : List Traits} {w : World V} {a b i : Nat} {u v : V} (hi : i < es.length)
    (hab : a ≠ b) (ha : w[a]?.join = some ⟨i, some (i, u)⟩) (hb : w[b]?.join = some ⟨i, some (i, v)⟩) (ft : Fate V) :
    pack es (iMoveAssign moved i a b ft) w =
      match movable es i, ft with
      | true, .completes => .ok () ((w.set a (some ⟨i, some (i, v)⟩)).set b (some ⟨i, some (i, moved v)⟩))
      | true, .throws t s => .err ((w.set a (some ⟨i, some (i, t)⟩)).set b (some ⟨i, some (i, s)⟩))
      | false, _ => .err w := by
  rw [pack_eq es _ i es[i] (List.getElem?_eq_getElem hi)
    (fun J e w' hJ => by simp only [iMoveAssign]; split <;> simp [ne_cast hJ])]
  have hc : movable es i = es[i].moveConstructible := by simp [movable, hi]
  have hb' : ∀ x, (w.set a x)[b]?.join = some ⟨i, some (i, v)⟩ := fun x => by rw [join_set_ne hab]; exact hb
  rw [hc]
  simp only [iMoveAssign]
  cases es[i].moveConstructible with
  | false => simp
  | true =>
    simp only [if_true, ne_eq, not_true_eq_false, if_false]
    rw [Cpp.bind_ok (read_ok hb)]
    cases ft with
    | completes =>
      simp only []
      rw [Cpp.bind_ok (write_ok ha), Cpp.bind_ok (write_ok (hb' _))]
      simp
    | throws t s =>
      simp only []
      rw [Cpp.bind_ok (write_ok ha), Cpp.bind_ok (write_ok (hb' _))]
      rfl

/-- assignment of an element of the same alternative -/
theorem assignElement_same {es : List Traits} {w : World V} {a i : Nat} {u v : V} {el : Cpp (World V) V}
    (ha : w[a]?.join = some ⟨i, some (i, u)⟩) (he : el w = .ok v w) (ft : Fate V) :
    assignElement es a i el ft w =
      match ft with
      | .completes => .ok () (w.set a (some ⟨i, some (i, v)⟩))
      | .throws t _ => .err (w.set a (some ⟨i, some (i, t)⟩)) := by
  rw [assignElement, Cpp.bind_ok (var_ok ha)]
  simp only [if_true]
  rw [Cpp.bind_ok he]
  cases ft with
  | completes => exact write_ok ha
  | throws t s => exact (Cpp.bind_ok (write_ok ha)).trans rfl

/-- assignment of an element of another alternative -/
theorem assignElement_other {es : List Traits} {w : World V} {a i j : Nat} {u v : V} {el : Cpp (World V) V}
    (hj : j < es.length) (hij : j ≠ i) (ha : w[a]?.join = some ⟨j, some (j, u)⟩)
    (he : el (w.set a (some ⟨i, none⟩)) = .ok v (w.set a (some ⟨i, none⟩))) (ft : Fate V) :
    assignElement es a i el ft w =
      match ft with
      | .completes => .ok () (w.set a (some ⟨i, some (i, v)⟩))
      | .throws _ _ => .err (w.set a (some ⟨i, none⟩)) := by
  have hne : ¬ ((j : Int) = (i : Int)) := by omega
  rw [assignElement, Cpp.bind_ok (var_ok ha)]
  simp only [hne, if_false]
  rw [Cpp.bind_ok (dtor_ok hj ha), Cpp.bind_ok (setIndex_ok (join_set_self ha _) _)]
  simp only [List.set_set]
  rw [Cpp.bind_ok he]
  cases ft with
  | completes =>
    rw [construct_ok (join_set_self ha _)]
    simp
  | throws t s => exact construct_err (join_set_self ha _) _ _ _ _

theorem assignCopy_same {es : List Traits} {w : World V} {a b i : Nat} {u v : V} (hi : i < es.length) (hab : a ≠ b)
    (ha : w[a]?.join = some ⟨i, some (i, u)⟩) (hb : w[b]?.join = some ⟨i, some (i, v)⟩) (ft : Fate V) :
    assignCopy es a b ft w =
      match assignable es i, ft with
      | true, .completes => .ok () (w.set a (some ⟨i, some (i, v)⟩))
      | true, .throws t _ => .err (w.set a (some ⟨i, some (i, t)⟩))
      | false, _ => .err w := by
  rw [assignCopy, if_pos hab, Cpp.bind_ok (var_ok ha), Cpp.bind_ok (var_ok hb)]
  simp only [if_true]
  exact copyAssign_eq hi ha hb ft

theorem assignMove_same {moved : V → V} {es : List Traits} {w : World V} {a b i : Nat} {u v : V} (hi : i < es.length)
    (hab : a ≠ b) (ha : w[a]?.join = some ⟨i, some (i, u)⟩) (hb : w[b]?.join = some ⟨i, some (i, v)⟩) (ft : Fate V) :
    assignMove moved es a b ft w =
      match movable es i, ft with
      | true, .completes => .ok () ((w.set a (some ⟨i, some (i, v)⟩)).set b (some ⟨i, some (i, moved v)⟩))
      | true, .throws t s => .err ((w.set a (some ⟨i, some (i, t)⟩)).set b (some ⟨i, some (i, s)⟩))
      | false, _ => .err w := by
  rw [assignMove, if_pos hab, Cpp.bind_ok (var_ok ha), Cpp.bind_ok (var_ok hb)]
  simp only [if_true]
  exact moveAssign_eq hi hab ha hb ft

/-- copy assignment from another alternative, and the same for moves -/
theorem assignCopy_other {es : List Traits} {w : World V} {a b i j : Nat} {u v : V} (hi : i < es.length) (hj : j < es.length)
    (hij : i ≠ j) (ha : w[a]?.join = some ⟨i, some (i, u)⟩) (hb : w[b]?.join = some ⟨j, some (j, v)⟩) (ft : Fate V) :
    assignCopy es a b ft w =
      match copyable es j, ft with
      | true, .completes => .ok () (w.set a (some ⟨j, some (j, v)⟩))
      | _, _ => .err (w.set a (some ⟨j, none⟩)) := by
  have hab : a ≠ b := by
    intro e; subst e; rw [ha] at hb; simp at hb; omega
  have hne : ¬ ((i : Int) = (j : Int)) := by omega
  rw [assignCopy, if_pos hab, Cpp.bind_ok (var_ok ha), Cpp.bind_ok (var_ok hb)]
  simp only [hne, if_false]
  rw [Cpp.bind_ok (dtor_ok hi ha), Cpp.bind_ok (setIndex_ok (join_set_self ha _) _)]
  simp only [List.set_set]
  rw [copyCtor_eq hj (join_set_self ha _) (by rw [join_set_ne hab]; exact hb)]
  simp

theorem assignMove_other {moved : V → V} {es : List Traits} {w : World V} {a b i j : Nat} {u v : V} (hi : i < es.length)
    (hj : j < es.length) (hij : i ≠ j) (ha : w[a]?.join = some ⟨i, some (i, u)⟩)
    (hb : w[b]?.join = some ⟨j, some (j, v)⟩) (ft : Fate V) :
    assignMove moved es a b ft w =
      match movable es j, ft with
      | true, .completes => .ok () ((w.set a (some ⟨j, some (j, v)⟩)).set b (some ⟨j, some (j, moved v)⟩))
      | true, .throws _ s => .err ((w.set a (some ⟨j, none⟩)).set b (some ⟨j, some (j, s)⟩))
      | false, _ => .err (w.set a (some ⟨j, none⟩)) := by
  have hab : a ≠ b := by
    intro e; subst e; rw [ha] at hb; simp at hb; omega
  have hne : ¬ ((i : Int) = (j : Int)) := by omega
  rw [assignMove, if_pos hab, Cpp.bind_ok (var_ok ha), Cpp.bind_ok (var_ok hb)]
  simp only [hne, if_false]
  rw [Cpp.bind_ok (dtor_ok hi ha), Cpp.bind_ok (setIndex_ok (join_set_self ha _) _)]
  simp only [List.set_set]
  rw [moveCtor_eq hj hab (join_set_self ha _) (by rw [join_set_ne hab]; exact hb)]
  cases movable es j with
  | false => rfl
  | true =>
    cases ft with
    | throws t s => rfl
    | completes =>
      simp only []
      rw [List.set_comm _ _ (Ne.symm hab), List.set_set]

theorem length_allAlive (c : Choices V) : (allAlive c).length = c.length := by simp [allAlive]

theorem inRange_set {es : List Traits} {c : Choices V} (h : InRange es c) (a : Nat) {x : Option (Nat × V)}
    (hx : ∀ y, x = some y → y.1 < es.length) : InRange es (c.set a x) := by
  intro b y hb
  by_cases e : a = b
  · subst e
    rw [List.getElem?_set] at hb
    simp only [if_true] at hb
    split at hb
    · exact hx y (by simpa using hb)
    · simp at hb
  · rw [join_set_ne e] at hb
    exact h b y hb

theorem inRange_append {es : List Traits} {c : Choices V} (h : InRange es c) {x : Option (Nat × V)}
    (hx : ∀ y, x = some y → y.1 < es.length) : InRange es (c ++ [x]) := by
  intro b y hb
  by_cases hl : b < c.length
  · rw [List.getElem?_append_left hl] at hb; exact h b y hb
  · rw [List.getElem?_append_right (by omega)] at hb
    by_cases e : b - c.length = 0
    · rw [e] at hb; exact hx y (by simpa using hb)
    · rw [List.getElem?_eq_none (by simp; omega)] at hb; cases hb

theorem set_append_last {α : Type} (l : List α) (x y : α) : (l ++ [x]).set l.length y = l ++ [y] := by simp

/-- the variable that a constructor works on -/
theorem constructing_ok {w : World V} {body : Nat → Cpp (World V) Unit} {w' : World V}
    (h : body w.length (w ++ [some ⟨-1, none⟩]) = .ok () w') : constructing body w = .ok .unit w' := by
  simp [constructing, h]

theorem constructing_err {w : World V} {body : Nat → Cpp (World V) Unit} {w' : World V} {k : Int}
    (h : body w.length (w ++ [some ⟨-1, none⟩]) = .err (w' ++ [some ⟨k, none⟩])) (hl : w'.length = w.length) :
    constructing body w = .err (w' ++ [none]) := by
  simp only [constructing, h]
  rw [← hl]
  simp

end Variant

/-- **C48 (partial), one operation.** Variables with one living alternative each: an operation does what it does to values that
are one of several alternatives, without undefined behaviour, and leaves variables with one living alternative each, also if
the element's constructor or assignment throws.  Excepted are assignments that replace the alternative and fail, or whose
source is inside the target. -/
theorem C48_step_partial {V : Type} (moved : V → V) (es : List Traits) (c : Choices V) (h : InRange es c) (op : Op V)
    (r : Result V) (c' : Choices V) (hs : choiceStep moved es c op = some (r, c'))
    (hi : ∀ a, ¬ Interrupted es c a op ∧ ¬ FromInside c a op) :
    seen (step moved es op (allAlive c)) = some (r, allAlive c') ∧ InRange es c' := by
  have hnew : ∀ x : Option (Var V), ((allAlive c) ++ [x])[(allAlive c).length]?.join = x := join_append_new _
  cases op with
  | new i v ft =>
    simp only [choiceStep] at hs
    split at hs
    case isFalse => cases hs
    rename_i hlt
    have e1 := setIndex_ok (hnew (some ⟨-1, none⟩)) (i : Int)
    rw [set_append_last] at e1
    cases ft with
    | completes =>
      simp only [Option.some.injEq, Prod.mk.injEq] at hs
      obtain ⟨rfl, rfl⟩ := hs
      refine ⟨?_, inRange_append h (by rintro y ⟨⟩; exact hlt)⟩
      have e2 := construct_ok (hnew (some ⟨(i : Int), none⟩)) i v
      rw [set_append_last] at e2
      rw [step, constructing_ok ((Cpp.bind_ok e1).trans e2), allAlive_append]
      rfl
    | throws t s =>
      simp only [Option.some.injEq, Prod.mk.injEq] at hs
      obtain ⟨rfl, rfl⟩ := hs
      refine ⟨?_, inRange_append h (by rintro y ⟨⟩)⟩
      have e2 := construct_err (hnew (some ⟨(i : Int), none⟩)) i v t s
      rw [step, constructing_err ((Cpp.bind_ok e1).trans e2) rfl, allAlive_append]
      rfl
  | copyCtor b ft =>
    simp only [choiceStep] at hs
    cases hb : c[b]?.join with
    | none => simp [hb] at hs
    | some y =>
      obtain ⟨i, v⟩ := y
      have hlt := h b _ hb
      simp only [hb, Option.map_some, Option.some.injEq] at hs
      have gb := fun x => join_append_old (allAlive_get hb) x
      have e1 := setIndex_ok (hnew (some ⟨-1, none⟩)) (i : Int)
      rw [set_append_last] at e1
      have e2 := copyCtor_eq hlt (hnew (some ⟨(i : Int), none⟩)) (gb _) ft
      rw [set_append_last] at e2
      have e3 := (Cpp.bind_ok (f := fun m : Var V => do
        setIndex (allAlive c).length m.index
        pack es (iCopyCtor m.index (allAlive c).length b ft)) (var_ok (gb (some ⟨-1, none⟩)))).trans ((Cpp.bind_ok e1).trans e2)
      cases hc : copyable es i with
      | false =>
        rw [hc] at hs e3
        simp only [Prod.mk.injEq] at hs e3
        obtain ⟨rfl, rfl⟩ := hs
        refine ⟨?_, inRange_append h (by rintro y ⟨⟩)⟩
        rw [step, constructing_err e3 rfl, allAlive_append]
        rfl
      | true =>
        rw [hc] at hs e3
        cases ft with
        | completes =>
          simp only [Prod.mk.injEq] at hs e3
          obtain ⟨rfl, rfl⟩ := hs
          refine ⟨?_, inRange_append h (by rintro y ⟨⟩; exact hlt)⟩
          rw [step, constructing_ok e3, allAlive_append]
          rfl
        | throws t s =>
          simp only [Prod.mk.injEq] at hs e3
          obtain ⟨rfl, rfl⟩ := hs
          refine ⟨?_, inRange_append h (by rintro y ⟨⟩)⟩
          rw [step, constructing_err e3 rfl, allAlive_append]
          rfl
  | moveCtor b ft =>
    simp only [choiceStep] at hs
    cases hb : c[b]?.join with
    | none => simp [hb] at hs
    | some y =>
      obtain ⟨i, v⟩ := y
      have hlt := h b _ hb
      simp only [hb, Option.map_some, Option.some.injEq] at hs
      have gb := fun x => join_append_old (allAlive_get hb) x
      have hne : (allAlive c).length ≠ b := by
        have := join_lt hb
        rw [length_allAlive]; omega
      have hbl : b < (allAlive c).length := by rw [length_allAlive]; exact join_lt hb
      have e1 := setIndex_ok (hnew (some ⟨-1, none⟩)) (i : Int)
      rw [set_append_last] at e1
      have e2 := moveCtor_eq (moved := moved) hlt hne (hnew (some ⟨(i : Int), none⟩)) (gb _) ft
      have hsa : ∀ (x y : Option (Var V)), (allAlive c ++ [x]).set b y = (allAlive c).set b y ++ [x] := by
        intro x y
        rw [List.set_append_left _ _ hbl]
      have hsb : ∀ (x y z : Option (Var V)), ((allAlive c).set b y ++ [x]).set (allAlive c).length z =
          (allAlive c).set b y ++ [z] := by
        intro x y z
        have := set_append_last ((allAlive c).set b y) x z
        rwa [List.length_set] at this
      simp only [hsa, hsb] at e2
      have e3 := (Cpp.bind_ok (f := fun m : Var V => do
        setIndex (allAlive c).length m.index
        pack es (iMoveCtor moved m.index (allAlive c).length b ft)) (var_ok (gb (some ⟨-1, none⟩)))).trans
          ((Cpp.bind_ok e1).trans e2)
      cases hc : movable es i with
      | false =>
        rw [hc] at hs e3
        simp only [Prod.mk.injEq] at hs e3
        obtain ⟨rfl, rfl⟩ := hs
        refine ⟨?_, inRange_append h (by rintro y ⟨⟩)⟩
        rw [step, constructing_err e3 rfl, allAlive_append]
        rfl
      | true =>
        rw [hc] at hs e3
        cases ft with
        | completes =>
          simp only [Prod.mk.injEq] at hs e3
          obtain ⟨rfl, rfl⟩ := hs
          refine ⟨?_, inRange_append (inRange_set h b (by rintro y ⟨⟩; exact hlt)) (by rintro y ⟨⟩; exact hlt)⟩
          rw [step, constructing_ok e3, allAlive_append, allAlive_set]
          rfl
        | throws t s =>
          simp only [Prod.mk.injEq] at hs e3
          obtain ⟨rfl, rfl⟩ := hs
          refine ⟨?_, inRange_append (inRange_set h b (by rintro y ⟨⟩; exact hlt)) (by rintro y ⟨⟩)⟩
          rw [step, constructing_err e3 (by rw [List.length_set]), allAlive_append, allAlive_set]
          rfl
  | destroy a =>
    simp only [choiceStep] at hs
    cases ha : c[a]?.join with
    | none => simp [ha] at hs
    | some x =>
      obtain ⟨i, v⟩ := x
      simp only [ha, Option.map_some, Option.some.injEq, Prod.mk.injEq] at hs
      obtain ⟨rfl, rfl⟩ := hs
      refine ⟨?_, inRange_set h a (by rintro y ⟨⟩)⟩
      rw [step, Cpp.bind_ok (dtor_ok (h a _ ha) (allAlive_get ha)), allAlive_set,
        Cpp.bind_ok (var_ok (join_set_self (allAlive_get ha) _))]
      simp [seen, Cpp.bind_apply]
  | assignCopy a b ft =>
    simp only [choiceStep] at hs
    cases ha : c[a]?.join with
    | none => simp [ha] at hs
    | some x =>
      cases hb : c[b]?.join with
      | none => simp [hb] at hs
      | some y =>
        obtain ⟨i, u⟩ := x
        obtain ⟨j, v⟩ := y
        have hi1 := h a _ ha
        have hj1 := h b _ hb
        simp only [ha, hb, Option.map_some, Option.bind_some, Option.some.injEq] at hs
        by_cases e : a = b
        · subst e
          rw [if_pos rfl, Prod.mk.injEq] at hs
          obtain ⟨rfl, rfl⟩ := hs
          refine ⟨?_, h⟩
          have e0 : assignCopy es a a ft (allAlive c) = .ok () (allAlive c) := by
            rw [assignCopy, if_neg (by simp), Cpp.bind_ok (var_ok (allAlive_get ha))]
            rfl
          rw [step, Cpp.bind_ok e0]
          rfl
        · rw [if_neg e] at hs
          by_cases eij : i = j
          · subst eij
            rw [if_pos rfl] at hs
            have e2 := assignCopy_same (i := i) (u := u) (v := v) hi1 e (allAlive_get ha) (allAlive_get hb) ft
            rw [step]
            cases hc : assignable es i with
            | false =>
              rw [hc] at hs e2
              simp only [Prod.mk.injEq] at hs e2
              obtain ⟨rfl, rfl⟩ := hs
              refine ⟨?_, h⟩
              rw [Cpp.bind_err e2]
              rfl
            | true =>
              rw [hc] at hs e2
              cases ft with
              | completes =>
                simp only [Prod.mk.injEq] at hs e2
                obtain ⟨rfl, rfl⟩ := hs
                refine ⟨?_, inRange_set h a (by rintro y ⟨⟩; exact hi1)⟩
                rw [Cpp.bind_ok e2, allAlive_set]
                rfl
              | throws t s =>
                simp only [Prod.mk.injEq] at hs e2
                obtain ⟨rfl, rfl⟩ := hs
                refine ⟨?_, inRange_set h a (by rintro y ⟨⟩; exact hi1)⟩
                rw [Cpp.bind_err e2, allAlive_set]
                rfl
          · rw [if_neg eij] at hs
            have hn := (hi a).1
            simp only [Interrupted, true_and] at hn
            have hgood : copyable es j = true ∧ ft = .completes := by
              refine Classical.byContradiction fun hc => hn ⟨_, _, ha, hb, eij, ?_⟩
              cases hcc : copyable es j with
              | false => exact .inl rfl
              | true => exact .inr fun hf => hc ⟨hcc, hf⟩
            obtain ⟨hc, rfl⟩ := hgood
            have e2 := assignCopy_other hi1 hj1 eij (allAlive_get ha) (allAlive_get hb) .completes
            rw [hc] at hs e2
            simp only [Prod.mk.injEq] at hs e2
            obtain ⟨rfl, rfl⟩ := hs
            refine ⟨?_, inRange_set h a (by rintro y ⟨⟩; exact hj1)⟩
            rw [step, Cpp.bind_ok e2, allAlive_set]
            rfl
  | assignMove a b ft =>
    simp only [choiceStep] at hs
    cases ha : c[a]?.join with
    | none => simp [ha] at hs
    | some x =>
      cases hb : c[b]?.join with
      | none => simp [hb] at hs
      | some y =>
        obtain ⟨i, u⟩ := x
        obtain ⟨j, v⟩ := y
        have hi1 := h a _ ha
        have hj1 := h b _ hb
        simp only [ha, hb, Option.map_some, Option.bind_some, Option.some.injEq] at hs
        by_cases e : a = b
        · subst e
          rw [if_pos rfl, Prod.mk.injEq] at hs
          obtain ⟨rfl, rfl⟩ := hs
          refine ⟨?_, h⟩
          have e0 : assignMove moved es a a ft (allAlive c) = .ok () (allAlive c) := by
            rw [assignMove, if_neg (by simp), Cpp.bind_ok (var_ok (allAlive_get ha))]
            rfl
          rw [step, Cpp.bind_ok e0]
          rfl
        · rw [if_neg e] at hs
          by_cases eij : i = j
          · subst eij
            rw [if_pos rfl] at hs
            have e2 := assignMove_same (moved := moved) (i := i) (u := u) (v := v) hi1 e (allAlive_get ha) (allAlive_get hb) ft
            rw [step]
            cases hc : movable es i with
            | false =>
              rw [hc] at hs e2
              simp only [Prod.mk.injEq] at hs e2
              obtain ⟨rfl, rfl⟩ := hs
              refine ⟨?_, h⟩
              rw [Cpp.bind_err e2]
              rfl
            | true =>
              rw [hc] at hs e2
              cases ft with
              | completes =>
                simp only [Prod.mk.injEq] at hs e2
                obtain ⟨rfl, rfl⟩ := hs
                refine ⟨?_, inRange_set (inRange_set h a (by rintro y ⟨⟩; exact hi1)) b (by rintro y ⟨⟩; exact hi1)⟩
                rw [Cpp.bind_ok e2, allAlive_set, allAlive_set]
                rfl
              | throws t s =>
                simp only [Prod.mk.injEq] at hs e2
                obtain ⟨rfl, rfl⟩ := hs
                refine ⟨?_, inRange_set (inRange_set h a (by rintro y ⟨⟩; exact hi1)) b (by rintro y ⟨⟩; exact hi1)⟩
                rw [Cpp.bind_err e2, allAlive_set, allAlive_set]
                rfl
          · rw [if_neg eij] at hs
            have hn := (hi a).1
            simp only [Interrupted, true_and] at hn
            have hgood : movable es j = true ∧ ft = .completes := by
              refine Classical.byContradiction fun hc => hn ⟨_, _, ha, hb, eij, ?_⟩
              cases hcc : movable es j with
              | false => exact .inl rfl
              | true => exact .inr fun hf => hc ⟨hcc, hf⟩
            obtain ⟨hc, rfl⟩ := hgood
            have e2 := assignMove_other (moved := moved) hi1 hj1 eij (allAlive_get ha) (allAlive_get hb) .completes
            rw [hc] at hs e2
            simp only [Prod.mk.injEq] at hs e2
            obtain ⟨rfl, rfl⟩ := hs
            refine ⟨?_, inRange_set (inRange_set h a (by rintro y ⟨⟩; exact hj1)) b (by rintro y ⟨⟩; exact hj1)⟩
            rw [step, Cpp.bind_ok e2, allAlive_set, allAlive_set]
            rfl
  | assign a i v ft =>
    simp only [choiceStep] at hs
    split at hs
    case isFalse => cases hs
    rename_i hlt
    cases ha : c[a]?.join with
    | none => simp [ha] at hs
    | some x =>
      obtain ⟨j, u⟩ := x
      simp only [ha, Option.map_some, Option.some.injEq] at hs
      rw [step]
      by_cases eij : j = i
      · subst eij
        have e2 := assignElement_same (es := es) (el := pure v) (allAlive_get ha) rfl ft
        cases ft with
        | completes =>
          simp only [Prod.mk.injEq] at hs e2
          obtain ⟨rfl, rfl⟩ := hs
          refine ⟨?_, inRange_set h a (by rintro y ⟨⟩; exact hlt)⟩
          rw [Cpp.bind_ok e2, allAlive_set]
          rfl
        | throws t s =>
          simp only [if_true, Prod.mk.injEq] at hs e2
          obtain ⟨rfl, rfl⟩ := hs
          refine ⟨?_, inRange_set h a (by rintro y ⟨⟩; exact hlt)⟩
          rw [Cpp.bind_err e2, allAlive_set]
          rfl
      · have hn := (hi a).1
        simp only [Interrupted, true_and] at hn
        have hft : ft = .completes := Classical.byContradiction fun hf => hn ⟨_, ha, eij, hf⟩
        subst hft
        have e2 := assignElement_other (el := pure v) (h a _ ha) eij (allAlive_get ha) rfl .completes
        simp only [Prod.mk.injEq] at hs e2
        obtain ⟨rfl, rfl⟩ := hs
        refine ⟨?_, inRange_set h a (by rintro y ⟨⟩; exact hlt)⟩
        rw [Cpp.bind_ok e2, allAlive_set]
        rfl
  | assignPart a b i part ft =>
    simp only [choiceStep] at hs
    split at hs
    case isFalse => cases hs
    rename_i hlt
    cases ha : c[a]?.join with
    | none => simp [ha] at hs
    | some x =>
      cases hb : c[b]?.join with
      | none => simp [hb] at hs
      | some y =>
        obtain ⟨j, u⟩ := x
        obtain ⟨k, v⟩ := y
        simp only [ha, hb, Option.map_some, Option.bind_some, Option.some.injEq] at hs
        rw [step, Cpp.bind_ok (var_ok (allAlive_get hb))]
        simp only [alive]
        by_cases eij : j = i
        · subst eij
          have e2 := assignElement_same (es := es) (v := part v) (el := do let y ← read b k; pure (part y)) (allAlive_get ha)
            ((Cpp.bind_ok (read_ok (allAlive_get hb))).trans rfl) ft
          cases ft with
          | completes =>
            simp only [Prod.mk.injEq] at hs e2
            obtain ⟨rfl, rfl⟩ := hs
            refine ⟨?_, inRange_set h a (by rintro y ⟨⟩; exact hlt)⟩
            rw [Cpp.bind_ok e2, allAlive_set]
            rfl
          | throws t s =>
            simp only [if_true, Prod.mk.injEq] at hs e2
            obtain ⟨rfl, rfl⟩ := hs
            refine ⟨?_, inRange_set h a (by rintro y ⟨⟩; exact hlt)⟩
            rw [Cpp.bind_err e2, allAlive_set]
            rfl
        · have hn := hi a
          simp only [Interrupted, FromInside, true_and] at hn
          have hab : a ≠ b := fun e => hn.2 ⟨e.symm, _, ha, eij⟩
          have hft : ft = .completes := Classical.byContradiction fun hf => hn.1 ⟨hab, _, _, ha, hb, eij, hf⟩
          subst hft
          have hb' : ∀ x, ((allAlive c).set a x)[b]?.join = some ⟨k, some (k, v)⟩ :=
            fun x => (join_set_ne hab x).trans (allAlive_get hb)
          have e2 := assignElement_other (v := part v) (el := do let y ← read b k; pure (part y)) (h a _ ha) eij
            (allAlive_get ha) ((Cpp.bind_ok (read_ok (hb' _))).trans rfl) .completes
          simp only [Prod.mk.injEq] at hs e2
          obtain ⟨rfl, rfl⟩ := hs
          refine ⟨?_, inRange_set h a (by rintro y ⟨⟩; exact hlt)⟩
          rw [Cpp.bind_ok e2, allAlive_set]
          rfl
  | index a =>
    simp only [choiceStep] at hs
    cases ha : c[a]?.join with
    | none => simp [ha] at hs
    | some x =>
      simp only [ha, Option.map_some, Option.some.injEq, Prod.mk.injEq] at hs
      obtain ⟨rfl, rfl⟩ := hs
      refine ⟨?_, h⟩
      rw [step, Cpp.bind_ok (var_ok (allAlive_get ha))]
      rfl
  | get a i =>
    simp only [choiceStep] at hs
    cases ha : c[a]?.join with
    | none => simp [ha] at hs
    | some x =>
      obtain ⟨j, u⟩ := x
      have ga : (allAlive c)[a]?.join = some ⟨(j : Int), some (j, u)⟩ := allAlive_get ha
      simp only [ha, Option.map_some, Option.some.injEq, Prod.mk.injEq] at hs
      obtain ⟨rfl, rfl⟩ := hs
      refine ⟨?_, h⟩
      rw [step, Cpp.bind_ok (var_ok ga)]
      by_cases e : j = i
      · subst e
        rw [Cpp.bind_ok (Cpp.check_true rfl _), Cpp.bind_ok (read_ok ga)]
        simp [seen]
      · rw [Cpp.bind_err (Cpp.check_false (ne_cast e) _)]
        simp [seen, e]
  | tryGet a i =>
    simp only [choiceStep] at hs
    cases ha : c[a]?.join with
    | none => simp [ha] at hs
    | some x =>
      obtain ⟨j, u⟩ := x
      have ga : (allAlive c)[a]?.join = some ⟨(j : Int), some (j, u)⟩ := allAlive_get ha
      simp only [ha, Option.map_some, Option.some.injEq, Prod.mk.injEq] at hs
      obtain ⟨rfl, rfl⟩ := hs
      refine ⟨?_, h⟩
      rw [step, Cpp.bind_ok (var_ok ga)]
      by_cases e : j = i
      · subst e
        simp only [if_true]
        rw [Cpp.bind_ok (read_ok ga)]
        simp [seen]
      · simp [seen, e, ne_cast e]
  | apply a g =>
    simp only [choiceStep] at hs
    cases ha : c[a]?.join with
    | none => simp [ha] at hs
    | some x =>
      obtain ⟨j, u⟩ := x
      have ga : (allAlive c)[a]?.join = some ⟨(j : Int), some (j, u)⟩ := allAlive_get ha
      have hj := h a _ ha
      simp only [ha, Option.map_some, Option.some.injEq, Prod.mk.injEq] at hs
      obtain ⟨rfl, rfl⟩ := hs
      refine ⟨?_, inRange_set h a (by rintro y ⟨⟩; exact hj)⟩
      rw [step, Cpp.bind_ok (var_ok ga), pack_eq es _ j es[j] (List.getElem?_eq_getElem hj)
        (fun J e w' hJ => by simp [iApply, ne_cast hJ])]
      simp only [iApply, ne_eq, not_true_eq_false, if_false]
      have e5 : (do write a j (g j u); pure (Result.called j u) : Cpp (World V) (Result V)) (allAlive c) =
          .ok (.called j u) ((allAlive c).set a (some ⟨(j : Int), some (j, g j u)⟩)) := (Cpp.bind_ok (write_ok ga)).trans rfl
      rw [Cpp.bind_ok (read_ok ga), Cpp.bind_ok e5, allAlive_set]
      rfl
  | tryApply a p g =>
    simp only [choiceStep] at hs
    cases ha : c[a]?.join with
    | none => simp [ha] at hs
    | some x =>
      obtain ⟨j, u⟩ := x
      have ga : (allAlive c)[a]?.join = some ⟨(j : Int), some (j, u)⟩ := allAlive_get ha
      have hj := h a _ ha
      simp only [ha, Option.map_some, Option.some.injEq] at hs
      rw [step, Cpp.bind_ok (var_ok ga), pack_eq es _ j es[j] (List.getElem?_eq_getElem hj)
        (fun J e w' hJ => by simp [iApply, ne_cast hJ])]
      simp only [iApply, ne_eq, not_true_eq_false, if_false]
      rw [Cpp.bind_ok (read_ok ga)]
      cases hp : p j with
      | true =>
        simp only [hp, if_true, Prod.mk.injEq] at hs ⊢
        obtain ⟨rfl, rfl⟩ := hs
        refine ⟨?_, inRange_set h a (by rintro y ⟨⟩; exact hj)⟩
        have e5 : (do write a j (g j u); pure (Result.called j u) : Cpp (World V) (Result V)) (allAlive c) =
          .ok (.called j u) ((allAlive c).set a (some ⟨(j : Int), some (j, g j u)⟩)) := (Cpp.bind_ok (write_ok ga)).trans rfl
        rw [Cpp.bind_ok e5, allAlive_set]
        rfl
      | false =>
        simp [hp] at hs
        obtain ⟨rfl, rfl⟩ := hs
        exact ⟨rfl, h⟩

/-- **C48 (partial).** Every history without assignments that replace the alternative and fail, or that take their source from
inside the target: the program sees what it would see of values that are one of several alternatives, and at the end every
variable has exactly the living alternative that its index names. -/
theorem C48_history_partial {V : Type} (moved : V → V) (es : List Traits) (ops : List (Op V)) (rs : List (Result V))
    (c : Choices V) (hs : choiceRun moved es [] ops = some (rs, c)) (hsm : Smooth moved es [] ops) :
    run moved es [] ops = some (rs, allAlive c) := by
  suffices H : ∀ c0 : Choices V, InRange es c0 → Smooth moved es c0 ops → choiceRun moved es c0 ops = some (rs, c) →
      run moved es (allAlive c0) ops = some (rs, allAlive c) from
    H [] (fun a n h => by simp at h) hsm hs
  clear hs hsm
  induction ops generalizing rs with
  | nil =>
    intro c0 h _ hr
    simp only [choiceRun, Option.some.injEq, Prod.mk.injEq] at hr
    simp [run, hr.1, hr.2]
  | cons op ops ih =>
    intro c0 h hsm hr
    simp only [choiceRun, bind, Option.bind_eq_some_iff] at hr
    obtain ⟨⟨r, c1⟩, h1, ⟨rs', c2⟩, h2, h3⟩ := hr
    simp only [Option.some.injEq, Prod.mk.injEq] at h3
    obtain ⟨e1, g1⟩ := C48_step_partial moved es c0 h op r c1 h1 hsm.1
    have e2 := ih rs' c1 g1 (hsm.2 r c1 h1) (by rw [← h3.2]; exact h2)
    simp [run, e1, e2, h3.1]

/-- **C48, violated.** Whenever the construction of the new alternative fails in an assignment that replaces the alternative,
for whatever reason, no alternative is alive afterwards: the destructor of the variable is undefined behaviour. -/
theorem C48_violated {V : Type} (moved : V → V) (es : List Traits) (c : Choices V) (h : InRange es c) (a : Nat) (op : Op V)
    (r : Result V) (c' : Choices V) (hs : choiceStep moved es c op = some (r, c')) (hi : Interrupted es c a op) :
    ∃ w i, step moved es op (allAlive c) = .err w ∧ w[a]?.join = some ⟨i, none⟩ ∧ step moved es (.destroy a) w = .fault := by
  have key : ∀ (w : World V) (i : Nat), i < es.length → w[a]?.join = some ⟨i, none⟩ → step moved es (.destroy a) w = .fault := by
    intro w i hlt hw
    rw [step, Cpp.bind_fault (dtor_fault hlt hw)]
  cases op with
  | assignCopy a' b ft =>
    obtain ⟨rfl, ⟨i, u⟩, ⟨j, v⟩, ha, hb, hij, hbad⟩ := hi
    have e2 := assignCopy_other (h a' _ ha) (h b _ hb) hij (allAlive_get ha) (allAlive_get hb) ft
    have e3 : assignCopy es a' b ft (allAlive c) = .err ((allAlive c).set a' (some ⟨j, none⟩)) := by
      rw [e2]
      cases hc : copyable es j with
      | false => simp only []
      | true =>
        cases ft with
        | completes => rcases hbad with hbad | hbad
                       · simp [hc] at hbad
                       · exact absurd rfl hbad
        | throws t s => simp only []
    have g := join_set_self (allAlive_get ha) (some ⟨(j : Int), none⟩)
    exact ⟨_, j, by rw [step, Cpp.bind_err e3], g, key _ j (h b _ hb) g⟩
  | assignMove a' b ft =>
    obtain ⟨rfl, ⟨i, u⟩, ⟨j, v⟩, ha, hb, hij, hbad⟩ := hi
    have hab : b ≠ a' := by
      intro e; subst e; rw [ha] at hb; simp at hb; exact hij hb.1
    have e2 := assignMove_other (moved := moved) (h a' _ ha) (h b _ hb) hij (allAlive_get ha) (allAlive_get hb) ft
    have g := join_set_self (allAlive_get ha) (some ⟨(j : Int), none⟩)
    cases hc : movable es j with
    | false =>
      simp only [hc] at e2
      exact ⟨_, j, by rw [step, Cpp.bind_err e2], g, key _ j (h b _ hb) g⟩
    | true =>
      cases ft with
      | completes => rcases hbad with hbad | hbad
                     · simp [hc] at hbad
                     · exact absurd rfl hbad
      | throws t s =>
        simp only [hc] at e2
        have g' := (join_set_ne hab (some ⟨(j : Int), some (j, s)⟩)).trans g
        exact ⟨_, j, by rw [step, Cpp.bind_err e2], g', key _ j (h b _ hb) g'⟩
  | assign a' i v ft =>
    obtain ⟨rfl, ⟨j, u⟩, ha, hij, hbad⟩ := hi
    have hlt : i < es.length := by
      refine Classical.byContradiction fun hc => ?_
      simp [choiceStep, hc] at hs
    cases ft with
    | completes => exact absurd rfl hbad
    | throws t s =>
      have e2 := assignElement_other (el := pure v) (h a' _ ha) hij (allAlive_get ha) rfl (.throws t s)
      have g := join_set_self (allAlive_get ha) (some ⟨(i : Int), none⟩)
      exact ⟨_, i, by rw [step, Cpp.bind_err e2], g, key _ i hlt g⟩
  | assignPart a' b i part ft =>
    obtain ⟨rfl, hab, ⟨j, u⟩, ⟨k, v⟩, ha, hb, hij, hbad⟩ := hi
    have hlt : i < es.length := by
      refine Classical.byContradiction fun hc => ?_
      simp [choiceStep, hc] at hs
    cases ft with
    | completes => exact absurd rfl hbad
    | throws t s =>
      have hb' : ∀ x, ((allAlive c).set a' x)[b]?.join = some ⟨k, some (k, v)⟩ :=
        fun x => (join_set_ne hab x).trans (allAlive_get hb)
      have e2 := assignElement_other (v := part v) (el := do let y ← Variant.read b k; pure (part y)) (h a' _ ha) hij
        (allAlive_get ha) ((Cpp.bind_ok (read_ok (hb' _))).trans rfl) (.throws t s)
      have g := join_set_self (allAlive_get ha) (some ⟨(i : Int), none⟩)
      refine ⟨_, i, ?_, g, key _ i hlt g⟩
      rw [step, Cpp.bind_ok (var_ok (allAlive_get hb))]
      simp only [alive]
      rw [Cpp.bind_err e2]
  | _ => exact absurd hi (by simp [Interrupted])

/-- **C48, violated.** Assigning a part of the living alternative that is another alternative reads it after its destruction. -/
theorem C48_violated_inside {V : Type} (moved : V → V) (es : List Traits) (c : Choices V) (h : InRange es c) (a : Nat) (op : Op V)
    (hi : FromInside c a op) : step moved es op (allAlive c) = .fault := by
  cases op with
  | assignPart a' b i part ft =>
    obtain ⟨rfl, rfl, ⟨j, u⟩, ha, hij⟩ := hi
    have ga : (allAlive c)[b]?.join = some ⟨(j : Int), some (j, u)⟩ := allAlive_get ha
    rw [step, Cpp.bind_ok (var_ok ga)]
    simp only []
    have e : assignElement es b i (do let y ← Variant.read b j; pure (part y)) ft (allAlive c) = .fault := by
      rw [assignElement, Cpp.bind_ok (var_ok ga)]
      simp only [ne_cast hij, if_false]
      rw [Cpp.bind_ok (dtor_ok (h b _ ha) ga), Cpp.bind_ok (setIndex_ok (join_set_self ga _) _)]
      rw [Cpp.bind_fault (Cpp.bind_fault (read_fault (join_set_self (join_set_self ga _) _)))]
    rw [Cpp.bind_fault e]
  | _ => exact absurd hi (by simp [FromInside])

/-- A history with a copy, a failing constructor, a failing assignment that keeps the alternative, and a replacement. -/
example : let es : List Traits := [⟨true, true, true⟩, ⟨false, true, false⟩]
    choiceRun (fun _ => 0) es [] [.new 0 5 .completes, .copyCtor 0 .completes, .new 1 7 .completes, .copyCtor 2 .completes,
      .assign 0 0 6 (.throws 9 9), .get 0 0, .assign 0 1 8 .completes, .index 0, .destroy 0] =
    some ([.unit, .unit, .unit, .error, .error, .value 9, .unit, .index 1, .unit],
      [none, some (0, 5), some (1, 7), none]) := by
  simp [choiceRun, choiceStep, copyable]

example : Interrupted [⟨true, true, true⟩, ⟨false, true, false⟩] [some (0, 5), some (1, 7)] 0 (.assignCopy 0 1 .completes) :=
  ⟨rfl, (0, 5), (1, 7), rfl, rfl, by simp, .inl rfl⟩

end Vlpp
