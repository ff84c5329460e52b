import Verif.Spec.Nullable
import Verif.Props.VariantProps

/-! # C47: `Nullable` is an optional value -/
set_option autoImplicit false
namespace Vlpp
open Nullable Spec
open Variant (Fate join_lt join_set_self join_set_ne join_append_old join_append_new)

namespace Nullable
variable {V : Type}

/-- a variable with the given optional value: the storage contains an object exactly if `initialized` -/
def nul (x : Option V) : Nul V := ⟨x.isSome, x⟩

/-- variables with the given optional values -/
def stand (c : Optionals V) : World V := c.map (Option.map nul)

theorem stand_get {c : Optionals V} {a : Nat} {x : Option V} (h : c[a]?.join = some x) : (stand c)[a]?.join = some (nul x) := by
  simp only [stand, List.getElem?_map]
  cases hc : c[a]? with
  | none => simp [hc] at h
  | some y => simp [hc] at h; simp [h]

theorem stand_set (c : Optionals V) (a : Nat) (x : Option (Option V)) :
    stand (c.set a x) = (stand c).set a (x.map nul) := by
  simp [stand, List.map_set]

theorem stand_append (c : Optionals V) (x : Option (Option V)) : stand (c ++ [x]) = stand c ++ [x.map nul] := by
  simp [stand]

theorem stand_length (c : Optionals V) : (stand c).length = c.length := by simp [stand]

theorem var_ok {w : World V} {a : Nat} {n : Nul V} (h : w[a]?.join = some n) : var a w = .ok n w := by
  simp [var, h]

theorem object_ok {w : World V} {a : Nat} {i : Bool} {v : V} (h : w[a]?.join = some ⟨i, some v⟩) : object a w = .ok v w := by
  rw [object, Cpp.bind_ok (var_ok h)]
  rfl

theorem object_fault {w : World V} {a : Nat} {i : Bool} (h : w[a]?.join = some ⟨i, none⟩) : object a w = .fault := by
  rw [object, Cpp.bind_ok (var_ok h)]
  rfl

theorem construct_ok {w : World V} {a : Nat} {i : Bool} (h : w[a]?.join = some ⟨i, none⟩) (v : V) :
    construct a v .completes w = .ok () (w.set a (some ⟨i, some v⟩)) := by
  rw [construct, Cpp.bind_ok (var_ok h)]
  rfl

theorem construct_err {w : World V} {a : Nat} {i : Bool} (h : w[a]?.join = some ⟨i, none⟩) (v t s : V) :
    construct a v (.throws t s) w = .err w := by
  rw [construct, Cpp.bind_ok (var_ok h)]
  rfl

theorem assign_ok {w : World V} {a : Nat} {i : Bool} {u : V} (h : w[a]?.join = some ⟨i, some u⟩) (v : V) :
    assign a v .completes w = .ok () (w.set a (some ⟨i, some v⟩)) := by
  rw [assign, Cpp.bind_ok (var_ok h)]
  rfl

theorem assign_err {w : World V} {a : Nat} {i : Bool} {u : V} (h : w[a]?.join = some ⟨i, some u⟩) (v t s : V) :
    assign a v (.throws t s) w = .err (w.set a (some ⟨i, some t⟩)) := by
  rw [assign, Cpp.bind_ok (var_ok h)]
  rfl

/-- what is left of a value after a move -/
def left (moved : V → V) (v : V) : Fate V → V
  | .completes => moved v
  | .throws _ s => s

theorem leave_ok {w : World V} {b : Nat} {n : Nul V} (h : w[b]?.join = some n) (moved : V → V) (v : V) (ft : Fate V) :
    leave moved b v ft w = .ok () (w.set b (some { n with object := some (left moved v ft) })) := by
  rw [leave, Cpp.bind_ok (var_ok h)]
  cases ft <;> rfl

theorem setInitialized_ok {w : World V} {a : Nat} {n : Nul V} (h : w[a]?.join = some n) (i : Bool) :
    setInitialized a i w = .ok () (w.set a (some { n with initialized := i })) := by
  rw [setInitialized, Cpp.bind_ok (var_ok h)]
  rfl

theorem set_same {α : Type} {w : List (Option α)} {a : Nat} {n : α} (h : w[a]?.join = some n) : w.set a (some n) = w := by
  have : w[a]? = some (some n) := by
    cases hw : w[a]? with
    | none => simp [hw] at h
    | some x => simp [hw] at h; rw [h]
  obtain ⟨h1, h2⟩ := List.getElem?_eq_some_iff.mp this
  rw [← h2, List.set_getElem_self]

theorem reset_ok {w : World V} {a : Nat} {x : Option V} (h : w[a]?.join = some (nul x)) :
    reset a w = .ok () (w.set a (some (nul none))) := by
  rw [reset, Cpp.bind_ok (var_ok h)]
  cases x with
  | none => rw [set_same h]; rfl
  | some v => rfl

/-- the value that assigning leaves in the storage -/
theorem assignElement_ok {assignable : Bool} {w : World V} {a : Nat} {x : Option V} {v : V} {element : Cpp (World V) V}
    (h : w[a]?.join = some (nul x)) (h1 : x.isSome = true → assignable = true → element w = .ok v w)
    (h2 : (x.isSome = true → assignable = false) →
      element (w.set a (some (nul none))) = .ok v (w.set a (some (nul none)))) (ft : Fate V) :
    assignElement assignable a element ft w =
      match ft with
      | .completes => .ok () (w.set a (some (nul (some v))))
      | .throws t _ => .err (w.set a (some (nul (optFailed assignable x t)))) := by
  rw [assignElement, Cpp.bind_ok (var_ok h)]
  by_cases hc : x.isSome = true ∧ assignable = true
  · obtain ⟨u, rfl⟩ := Option.isSome_iff_exists.mp hc.1
    rw [if_pos (by simp [nul, hc.2]), Cpp.bind_ok (h1 hc.1 hc.2)]
    cases ft with
    | completes => exact assign_ok h v
    | throws t s => rw [hc.2]; exact assign_err h v t s
  · have hno : x.isSome = true → assignable = false := fun hx => by
      cases hb : assignable with
      | false => rfl
      | true => exact absurd ⟨hx, hb⟩ hc
    rw [if_neg (by intro hh; simp [nul] at hh; exact hc ⟨hh.2, hh.1⟩), Cpp.bind_ok (reset_ok h), Cpp.bind_ok (h2 hno)]
    have hg : (w.set a (some (nul none)))[a]?.join = some (⟨false, none⟩ : Nul V) := join_set_self h _
    cases ft with
    | completes =>
      rw [Cpp.bind_ok (construct_ok hg v), setInitialized_ok (join_set_self hg _)]
      simp [nul]
    | throws t s =>
      rw [Cpp.bind_err (construct_err hg v t s)]
      have : optFailed assignable x t = none := by
        cases x with
        | none => simp [optFailed]
        | some u => simp [optFailed, hno rfl]
      simp [this]

theorem constructing_ok {i : Bool} {body : Nat → Cpp (World V) Unit} {w w' : World V}
    (h : body w.length (w ++ [some { initialized := i }]) = .ok () w') : constructing i body w = .ok .unit w' := by
  simp [constructing, h]

theorem constructing_err {i j : Bool} {body : Nat → Cpp (World V) Unit} {w w' : World V}
    (h : body w.length (w ++ [some { initialized := i }]) = .err w') (hn : w'[w.length]?.join = some ⟨j, none⟩) :
    constructing i body w = .err (w'.set w.length none) := by
  simp [constructing, h, hn]

end Nullable

/-- **C47 (partial), one operation.** Whatever the traits of `T`, and whether or not the constructor or assignment of `T` throws,
an operation that is legal for optional values and is not `a = a.Value()` for a `T` that cannot be copy-assigned has the result
that it has for optional values; nothing is undefined and no object is lost. -/
theorem C47_step_partial {V : Type} (E : Elem V) (c c' : Optionals V) (op : Op V) (r : Result V)
    (hs : optStep E.copyAssignable E.moveAssignable E.eq E.cmp c op = some (r, c'))
    (hself : SelfAssign op → E.copyAssignable = true) : seen (step E op (stand c)) = some (r, stand c') := by
  have fresh : ∀ (w : World V) (n : Nul V), (w ++ [some n])[w.length]?.join = some n := fun w n => join_append_new w _
  cases op with
  | newEmpty =>
    simp only [optStep, Option.some.injEq, Prod.mk.injEq] at hs
    obtain ⟨rfl, rfl⟩ := hs
    rw [step, constructing_ok rfl, stand_append]
    rfl
  | newCopy v ft =>
    cases ft with
    | completes =>
      simp only [optStep, Option.some.injEq, Prod.mk.injEq] at hs
      obtain ⟨rfl, rfl⟩ := hs
      rw [step, constructing_ok (construct_ok (fresh _ _) v), stand_append]
      simp [seen, nul]
    | throws t s =>
      simp only [optStep, Option.some.injEq, Prod.mk.injEq] at hs
      obtain ⟨rfl, rfl⟩ := hs
      rw [step, constructing_err (construct_err (fresh _ _) v t s) (fresh _ _), stand_append]
      simp [seen]
  | newMove v ft =>
    cases ft with
    | completes =>
      simp only [optStep, Option.some.injEq, Prod.mk.injEq] at hs
      obtain ⟨rfl, rfl⟩ := hs
      rw [step, constructing_ok (construct_ok (fresh _ _) v), stand_append]
      simp [seen, nul]
    | throws t s =>
      simp only [optStep, Option.some.injEq, Prod.mk.injEq] at hs
      obtain ⟨rfl, rfl⟩ := hs
      rw [step, constructing_err (construct_err (fresh _ _) v t s) (fresh _ _), stand_append]
      simp [seen]
  | copyCtor b ft =>
    simp only [optStep, Option.map_eq_some_iff] at hs
    obtain ⟨x, hx, hs⟩ := hs
    have hb := stand_get hx
    rw [step, Cpp.bind_ok (var_ok hb)]
    cases x with
    | none =>
      simp only [Prod.mk.injEq] at hs
      obtain ⟨rfl, rfl⟩ := hs
      rw [constructing_ok (by rw [if_neg (by simp [nul])]; rfl), stand_append]
      rfl
    | some v =>
      have hob := object_ok (join_append_old hb (some { initialized := true }))
      cases ft with
      | completes =>
        simp only [Prod.mk.injEq] at hs
        obtain ⟨rfl, rfl⟩ := hs
        rw [constructing_ok (by rw [if_pos (by simp [nul])]; exact (Cpp.bind_ok hob).trans (construct_ok (fresh _ _) v)), stand_append]
        simp [seen, nul]
      | throws t s =>
        simp only [Prod.mk.injEq] at hs
        obtain ⟨rfl, rfl⟩ := hs
        rw [constructing_err (by rw [if_pos (by simp [nul])]; exact (Cpp.bind_ok hob).trans (construct_err (fresh _ _) v t s)) (fresh _ _),
          stand_append]
        simp [seen]
  | moveCtor b ft =>
    simp only [optStep, Option.map_eq_some_iff] at hs
    obtain ⟨x, hx, hs⟩ := hs
    have hb := stand_get hx
    rw [step, Cpp.bind_ok (var_ok hb)]
    cases x with
    | none =>
      simp only [Prod.mk.injEq] at hs
      obtain ⟨rfl, rfl⟩ := hs
      rw [constructing_ok (by rw [if_neg (by simp [nul])]; rfl), stand_append, set_same hx]
      rfl
    | some v =>
      have hb' := join_append_old hb (some ⟨true, none⟩)
      have hob := object_ok hb'
      have hlt := join_lt hb
      have hne : b ≠ (stand c).length := by omega
      have hnew : ∀ n : Nul V, ((stand c ++ [some (⟨true, none⟩ : Nul V)]).set b (some n))[(stand c).length]?.join =
          some ⟨true, none⟩ := fun n => by rw [join_set_ne hne]; exact fresh _ _
      have hset : ∀ n : Nul V, (stand c ++ [some (⟨true, none⟩ : Nul V)]).set b (some n) =
          (stand c).set b (some n) ++ [some ⟨true, none⟩] := fun n => List.set_append_left _ _ hlt
      cases ft with
      | completes =>
        simp only [Prod.mk.injEq] at hs
        obtain ⟨rfl, rfl⟩ := hs
        rw [constructing_ok (by
          rw [if_pos (by simp [nul])]
          exact (Cpp.bind_ok hob).trans ((Cpp.bind_ok (leave_ok hb' _ _ _)).trans ((Cpp.bind_ok (construct_ok (hnew _) v)).trans
            (reset_ok (x := some (E.moved v)) (by rw [join_set_ne (Ne.symm hne), join_set_self hb']; rfl))))), stand_append, stand_set]
        rw [List.set_comm _ _ (Ne.symm hne), List.set_set, hset]
        simp [seen, nul]
      | throws t s =>
        simp only [Prod.mk.injEq] at hs
        obtain ⟨rfl, rfl⟩ := hs
        rw [constructing_err (by
          rw [if_pos (by simp [nul])]
          exact (Cpp.bind_ok hob).trans ((Cpp.bind_ok (leave_ok hb' _ _ _)).trans (Cpp.bind_err (construct_err (hnew _) v t s))))
          (hnew _), stand_append, stand_set, hset]
        simp [seen, nul, left]
  | destroy a =>
    simp only [optStep, Option.map_eq_some_iff, Prod.mk.injEq] at hs
    obtain ⟨x, hx, rfl, rfl⟩ := hs
    have ha := stand_get hx
    rw [step, Cpp.bind_ok (reset_ok ha), Cpp.bind_ok (var_ok (join_set_self ha _)), stand_set]
    simp [seen, nul, Cpp.bind_apply]
  | reset a =>
    simp only [optStep, Option.map_eq_some_iff, Prod.mk.injEq] at hs
    obtain ⟨x, hx, rfl, rfl⟩ := hs
    rw [step, Cpp.bind_ok (reset_ok (stand_get hx)), stand_set]
    rfl
  | assignValue a v ft =>
    simp only [optStep, Option.map_eq_some_iff] at hs
    obtain ⟨x, hx, hs⟩ := hs
    have hm := assignElement_ok (assignable := E.copyAssignable) (v := v) (element := pure v) (stand_get hx) (fun _ _ => rfl)
      (fun _ => rfl) ft
    cases ft <;> simp only [Prod.mk.injEq] at hs <;> obtain ⟨rfl, rfl⟩ := hs
    · rw [step, Cpp.bind_ok hm, stand_set]; rfl
    · rw [step, Cpp.bind_err hm, stand_set]; rfl
  | assignMoveValue a v ft =>
    simp only [optStep, Option.map_eq_some_iff] at hs
    obtain ⟨x, hx, hs⟩ := hs
    have hm := assignElement_ok (assignable := E.moveAssignable) (v := v) (element := pure v) (stand_get hx) (fun _ _ => rfl)
      (fun _ => rfl) ft
    cases ft <;> simp only [Prod.mk.injEq] at hs <;> obtain ⟨rfl, rfl⟩ := hs
    · rw [step, Cpp.bind_ok hm, stand_set]; rfl
    · rw [step, Cpp.bind_err hm, stand_set]; rfl
  | assignFrom a b ft =>
    simp only [optStep, Option.bind_eq_some_iff, Option.map_eq_some_iff] at hs
    obtain ⟨x, hx, y, hy, hs⟩ := hs
    have ha := stand_get hx
    have hb := stand_get hy
    rw [step, Cpp.bind_ok (var_ok hb)]
    cases y with
    | none =>
      simp only [Prod.mk.injEq] at hs
      obtain ⟨rfl, rfl⟩ := hs
      rw [Cpp.bind_err (Cpp.check_false (by simp [nul]) _)]
      rfl
    | some v =>
      rw [Cpp.bind_ok (Cpp.check_true (by simp [nul]) _)]
      have hm := assignElement_ok (assignable := E.copyAssignable) (v := v) (element := object b) ha (fun _ _ => object_ok hb)
        (fun hno => by
          have hne : a ≠ b := by
            rintro rfl
            rw [hx] at hy
            cases hy
            have := hno rfl
            rw [hself rfl] at this
            cases this
          exact object_ok (by rw [join_set_ne hne]; exact hb)) ft
      cases ft <;> simp only [Prod.mk.injEq] at hs <;> obtain ⟨rfl, rfl⟩ := hs
      · rw [Cpp.bind_ok hm, stand_set]; rfl
      · rw [Cpp.bind_err hm, stand_set]; rfl
  | assignCopy a b ft =>
    simp only [optStep, Option.bind_eq_some_iff, Option.map_eq_some_iff] at hs
    obtain ⟨x, hx, y, hy, hs⟩ := hs
    have ha := stand_get hx
    have hb := stand_get hy
    rw [step, Cpp.bind_ok (var_ok hb), Cpp.bind_ok (var_ok ha)]
    by_cases e : a = b
    · subst e
      rw [hx] at hy
      cases hy
      rw [if_pos rfl] at hs
      simp only [Prod.mk.injEq] at hs
      obtain ⟨rfl, rfl⟩ := hs
      cases x with
      | none => rw [if_pos (by simp [nul]), Cpp.bind_ok (reset_ok ha), set_same ha]; rfl
      | some v => rw [if_neg (by simp [nul]), if_neg (by simp)]; rfl
    · rw [if_neg e] at hs
      cases y with
      | none =>
        simp only [Prod.mk.injEq] at hs
        obtain ⟨rfl, rfl⟩ := hs
        rw [if_pos (by simp [nul]), Cpp.bind_ok (reset_ok ha), stand_set]; rfl
      | some v =>
        rw [if_neg (by simp [nul]), if_pos e]
        have hm := assignElement_ok (assignable := E.copyAssignable) (v := v) (element := object b) ha (fun _ _ => object_ok hb)
          (fun _ => object_ok (by rw [join_set_ne e]; exact hb)) ft
        have hj : (if E.copyAssignable && (nul x).initialized then do
              let v ← object b
              assign a v ft
              pure .unit
            else do
              reset a
              let v ← object b
              construct a v ft
              setInitialized a true
              pure .unit : Cpp (World V) (Result V)) (stand c) = (assignElement E.copyAssignable a (object b) ft >>= fun _ => (pure .unit : Cpp _ (Result V))) (stand c) := by
          rw [Cpp.bind_apply, assignElement, Cpp.bind_ok (var_ok ha)]
          split
          · rw [Cpp.bind_ok (object_ok hb), Cpp.bind_ok (object_ok hb), Cpp.bind_apply]
          · have hob : object b ((stand c).set a (some (nul none))) = _ := object_ok (by rw [join_set_ne e]; exact hb)
            rw [Cpp.bind_ok (reset_ok ha), Cpp.bind_ok (reset_ok ha), Cpp.bind_ok hob, Cpp.bind_ok hob]
            simp only [Cpp.bind_apply]
            cases construct a v ft ((stand c).set a (some (nul none))) <;> simp
        rw [hj]
        cases ft <;> simp only [Prod.mk.injEq] at hs <;> obtain ⟨rfl, rfl⟩ := hs
        · rw [Cpp.bind_ok hm, stand_set]; rfl
        · rw [Cpp.bind_err hm, stand_set]; rfl
  | assignMove a b ft =>
    simp only [optStep, Option.bind_eq_some_iff, Option.map_eq_some_iff] at hs
    obtain ⟨x, hx, y, hy, hs⟩ := hs
    have ha := stand_get hx
    have hb := stand_get hy
    rw [step, Cpp.bind_ok (var_ok hb), Cpp.bind_ok (var_ok ha)]
    by_cases e : a = b
    · subst e
      rw [hx] at hy
      cases hy
      rw [if_pos rfl] at hs
      simp only [Prod.mk.injEq] at hs
      obtain ⟨rfl, rfl⟩ := hs
      cases x with
      | none => rw [if_pos (by simp [nul]), Cpp.bind_ok (reset_ok ha), set_same ha]; rfl
      | some v => rw [if_neg (by simp [nul]), if_neg (by simp)]; rfl
    · rw [if_neg e] at hs
      cases y with
      | none =>
        simp only [Prod.mk.injEq] at hs
        obtain ⟨rfl, rfl⟩ := hs
        rw [if_pos (by simp [nul]), Cpp.bind_ok (reset_ok ha), stand_set, set_same hy]; rfl
      | some v =>
        rw [if_neg (by simp [nul]), if_pos e]
        have e' : b ≠ a := Ne.symm e
        by_cases hc : E.moveAssignable = true ∧ x.isSome = true
        · obtain ⟨u, rfl⟩ := Option.isSome_iff_exists.mp hc.2
          rw [if_pos (by simp [nul, hc.1]), Cpp.bind_ok (object_ok hb), Cpp.bind_ok (leave_ok hb _ _ _)]
          have ha' : ∀ n : Nul V, ((stand c).set b (some n))[a]?.join = some ⟨true, some u⟩ := fun n => by
            rw [join_set_ne e']; exact ha
          cases ft with
          | completes =>
            simp only [Prod.mk.injEq] at hs
            obtain ⟨rfl, rfl⟩ := hs
            rw [Cpp.bind_ok (assign_ok (ha' _) v), Cpp.bind_ok (reset_ok (x := some (E.moved v)) (by
              rw [join_set_ne e, join_set_self hb]; rfl)), stand_set, stand_set, List.set_comm _ _ e, List.set_set]
            rfl
          | throws t s =>
            simp only [Prod.mk.injEq] at hs
            obtain ⟨rfl, rfl⟩ := hs
            rw [Cpp.bind_err (assign_err (ha' _) v t s), stand_set, stand_set]
            simp [seen, nul, left, optFailed, hc.1]
        · rw [if_neg (by intro hh; simp [nul] at hh; exact hc hh), Cpp.bind_ok (reset_ok ha)]
          have hb' : ((stand c).set a (some (nul none)))[b]?.join = some ⟨true, some v⟩ := by rw [join_set_ne e]; exact hb
          have ha' : ∀ n : Nul V, (((stand c).set a (some (nul none))).set b (some n))[a]?.join = some ⟨false, none⟩ := fun n => by
            rw [join_set_ne e', join_set_self ha]; rfl
          rw [Cpp.bind_ok (object_ok hb'), Cpp.bind_ok (leave_ok hb' _ _ _)]
          cases ft with
          | completes =>
            simp only [Prod.mk.injEq] at hs
            obtain ⟨rfl, rfl⟩ := hs
            rw [Cpp.bind_ok (construct_ok (ha' _) v), Cpp.bind_ok (reset_ok (x := some (E.moved v)) (by
                rw [join_set_ne e, join_set_self hb']; rfl)),
              Cpp.bind_ok (setInitialized_ok (n := ⟨false, some v⟩) (by rw [join_set_ne e', join_set_self (ha' _)]) _),
              stand_set, stand_set]
            simp only [List.set_comm _ _ e, List.set_set, Cpp.pure_apply, seen, Option.map_some]
            simp [List.set_comm _ _ e', nul]
          | throws t s =>
            simp only [Prod.mk.injEq] at hs
            obtain ⟨rfl, rfl⟩ := hs
            rw [Cpp.bind_err (construct_err (ha' _) v t s), stand_set, stand_set, List.set_comm _ _ e]
            have : optFailed E.moveAssignable x t = none := by
              cases x with
              | none => simp [optFailed]
              | some u => simp at hc; simp [optFailed, hc]
            simp [seen, nul, left, this]
  | value a =>
    simp only [optStep, Option.map_eq_some_iff] at hs
    obtain ⟨x, hx, hs⟩ := hs
    have ha := stand_get hx
    rw [step, Cpp.bind_ok (var_ok ha)]
    cases x with
    | none =>
      simp only [Prod.mk.injEq] at hs
      obtain ⟨rfl, rfl⟩ := hs
      rw [Cpp.bind_err (Cpp.check_false (by simp [nul]) _)]; rfl
    | some v =>
      simp only [Prod.mk.injEq] at hs
      obtain ⟨rfl, rfl⟩ := hs
      rw [Cpp.bind_ok (Cpp.check_true (by simp [nul]) _), Cpp.bind_ok (object_ok ha)]; rfl
  | bool a =>
    simp only [optStep, Option.map_eq_some_iff, Prod.mk.injEq] at hs
    obtain ⟨x, hx, rfl, rfl⟩ := hs
    rw [step, Cpp.bind_ok (var_ok (stand_get hx))]; rfl
  | equal a b =>
    simp only [optStep, Option.bind_eq_some_iff, Option.map_eq_some_iff, Prod.mk.injEq] at hs
    obtain ⟨x, hx, y, hy, rfl, rfl⟩ := hs
    have ha := stand_get hx
    have hb := stand_get hy
    rw [step, Cpp.bind_ok (var_ok ha), Cpp.bind_ok (var_ok hb)]
    cases x <;> cases y
    · rfl
    · rfl
    · rfl
    · rw [if_pos (by simp [nul]), Cpp.bind_ok (object_ok ha), Cpp.bind_ok (object_ok hb)]; rfl
  | compare a b =>
    simp only [optStep, Option.bind_eq_some_iff, Option.map_eq_some_iff, Prod.mk.injEq] at hs
    obtain ⟨x, hx, y, hy, rfl, rfl⟩ := hs
    have ha := stand_get hx
    have hb := stand_get hy
    rw [step, Cpp.bind_ok (var_ok ha), Cpp.bind_ok (var_ok hb)]
    cases x <;> cases y
    · rfl
    · rfl
    · rfl
    · rw [if_pos (by simp [nul]), Cpp.bind_ok (object_ok ha), Cpp.bind_ok (object_ok hb)]; rfl

/-- **C47 (partial).** Every history, going on after exceptions of `T`: the program sees what it would see with optional values,
and there is no undefined behaviour: objects are constructed in empty storage, only living objects are used and destroyed, and no
object is left behind when a variable goes away. -/
theorem C47_history_partial {V : Type} (E : Elem V) (ops : List (Op V)) (rs : List (Result V)) (c : Optionals V)
    (hs : optRun E.copyAssignable E.moveAssignable E.eq E.cmp [] ops = some (rs, c))
    (hself : (∃ op ∈ ops, SelfAssign op) → E.copyAssignable = true) : run E [] ops = some (rs, stand c) := by
  suffices H : ∀ (c0 : Optionals V), optRun E.copyAssignable E.moveAssignable E.eq E.cmp c0 ops = some (rs, c) →
      run E (stand c0) ops = some (rs, stand c) from H [] hs
  clear hs
  induction ops generalizing rs with
  | nil =>
    intro c0 hr
    simp only [optRun, Option.some.injEq, Prod.mk.injEq] at hr
    obtain ⟨rfl, rfl⟩ := hr
    rfl
  | cons op ops ih =>
    intro c0 hr
    simp only [optRun, bind, Option.bind_eq_some_iff] at hr
    obtain ⟨⟨r, c1⟩, h1, ⟨rs', c2⟩, h2, h3⟩ := hr
    simp only [Option.some.injEq, Prod.mk.injEq] at h3
    obtain ⟨rfl, rfl⟩ := h3
    have e1 := C47_step_partial E c0 c1 op r h1 (fun hh => hself ⟨op, by simp, hh⟩)
    have e2 := ih rs' (fun ⟨o, ho, hh⟩ => hself ⟨o, by simp [ho], hh⟩) c1 h2
    simp [run, e1, e2]

/-- **C47, violated.** `a = a.Value()` for a type without copy assignment: the object is destroyed before it is copied, in
every state. -/
theorem C47_violated {V : Type} (E : Elem V) (c : Optionals V) (a : Nat) (v : V) (h : c[a]?.join = some (some v))
    (hc : E.copyAssignable = false) (ft : Fate V) : step E (.assignFrom a a ft) (stand c) = .fault := by
  have ha := stand_get h
  rw [step, Cpp.bind_ok (var_ok ha), Cpp.bind_ok (Cpp.check_true (by simp [nul]) _)]
  refine Cpp.bind_fault ?_
  rw [assignElement, Cpp.bind_ok (var_ok ha), if_neg (by simp [hc]), Cpp.bind_ok (reset_ok ha)]
  exact Cpp.bind_fault (object_fault (join_set_self ha _))

example : optRun true true (· == ·) compare [] [.newCopy 5 .completes, .moveCtor 0 .completes, .bool 0, .compare 0 1,
      .assignFrom 1 1 .completes, .value 1, .assignMove 0 1 (.throws 8 9), .bool 0, .value 1, .assignValue 1 3 (.throws 7 6),
      .copyCtor 1 (.throws 0 0), .value 1, .destroy 1] =
    some ([.unit, .unit, .bool false, .order .lt, .unit, .value 5, .error, .bool false, .value 9, .error, .error, .value 7, .unit],
      [some none, none, none]) := by
  decide +kernel

end Vlpp
