import Verif.Model.CopyString
import Verif.Props.CopyProps
import Verif.Props.StrProps

/-! # C88: copying between strings and containers -/
set_option autoImplicit false
namespace Vlpp
open Strings Spec.Str

namespace Strings
variable {σ α : Type} [Zero α] [DecidableEq α]

omit [DecidableEq α] in
theorem slice_spec {w : World α} (i : WInv w) {j : Nat} {xs : List α} (hj : (abs w)[j]? = some (some xs)) :
    ∃ w', slice j w = .ok (xs, xs.length) w' ∧ WInv w' ∧ abs w' = abs w := by
  obtain ⟨s, ho, e1, hg⟩ := obj_spec ⟨xs, hj⟩
  have hx : xs = chars w.heap s := by rw [← hg]; simp [Spec.Str.get, hj]
  obtain ⟨s', p, h', e2, i', c, k, p0, ⟨cs, rest, m1, m2⟩, -⟩ := buffer_spec (i.perm (live_perm ho))
  have hl : (xs.length : Int) = s.length := by rw [hx]; exact chars_length (i.good s (mem_live ho)).1
  refine ⟨{ heap := h', objs := w.objs.set j (some s') }, ?_, ?_, ?_⟩
  · have hr : read p.1 p.2 s.length h' = .ok xs h' := by
      have hlen : p.2.toNat + xs.length ≤ cs.length := by
        have h1 : (cs.drop p.2.toNat).length = (chars w.heap s).length + (rest.length + 1) := by rw [m2]; simp
        rw [List.length_drop, ← hx] at h1
        omega
      rw [read_eq m1 p0 (by omega) (by omega), m2, ← hx, ← hl]
      simp
    unfold slice
    rw [Cpp.bind_ok e1, Cpp.bind_ok (onHeap_ok e2)]
    rw [Cpp.bind_ok (show setObj j (some s') { w with heap := h' } = .ok () { heap := h', objs := w.objs.set j (some s') } from rfl)]
    rw [Cpp.bind_ok (onHeap_ok (w := { heap := h', objs := w.objs.set j (some s') }) hr), hl]
    rfl
  · exact i'.perm (live_perm_set s' (lt_of_getElem? ho)).symm
  · rw [abs_set (some s') k, Option.map_some, c, ← hg]
    exact self_set ⟨xs, hj⟩

omit [Zero α] [DecidableEq α] in
theorem elements_eq {a : ArrayC α} {ys : List α} (h : ArrayC.Repr a (ys.map some)) :
    ∀ (n i : Nat), i + n ≤ ys.length → elements a n i = some ((ys.drop i).take n) := by
  intro n
  induction n with
  | zero => intro i _; simp [elements]
  | succ n ih =>
    intro i hi
    unfold elements
    have hlt : i < (ys.map some).length := by simp; omega
    rw [ArrayC.readVal_eq h i hlt]
    have h1 := ih (i + 1) (by omega)
    rw [show ((i : Int) + 1) = ((i + 1 : Nat) : Int) by omega, h1]
    rw [List.drop_eq_getElem_cons (show i < ys.length by omega), List.take_succ_cons]
    simp

omit [Zero α] [DecidableEq α] in
theorem elements_length {a : ArrayC α} {n : Nat} : ∀ {i : Int} {cs : List α}, elements a n i = some cs → cs.length = n := by
  induction n with
  | zero => intro i cs h; cases h; rfl
  | succ n ih =>
    intro i cs h
    unfold elements at h
    cases hx : ListC.readVal a.buffer i with
    | none => rw [hx] at h; cases h
    | some x =>
      cases hxs : elements a n (i + 1) with
      | none => rw [hx, hxs] at h; cases h
      | some xs =>
        rw [hx, hxs] at h
        cases h
        rw [List.length_cons, ih hxs]

theorem assignTemporary_spec {w : World α} {i : Nat} {xs ys : List α} (hi : (abs w)[i]? = some (some ys)) {make : Cpp (World α) Unit}
    (hm : Agrees (make w) (abs w) (some (new (abs w) xs))) :
    ∃ w', assignTemporary i make w = .ok () w' ∧ WInv w' ∧ abs w' = (abs w).set i (some xs) ++ [none] := by
  obtain ⟨w1, e1, i1, a1⟩ := hm
  have hilt : i < (abs w).length := lt_of_getElem? hi
  have hlen : w1.objs.length = (abs w).length + 1 := by
    have : (abs w1).length = (abs w).length + 1 := by rw [a1]; simp [new]
    simpa [abs] using this
  have hlast : (abs w1)[w1.objs.length - 1]? = some (some xs) := by
    rw [a1, hlen]; simp [new]
  have hi1 : (abs w1)[i]? = some (some ys) := by
    rw [a1]; unfold new; rw [List.getElem?_append_left hilt]; exact hi
  have s1 := step_agrees i1 (.moveAssign i (w1.objs.length - 1)) ⟨⟨ys, hi1⟩, ⟨xs, hlast⟩⟩
  have hne : i ≠ w1.objs.length - 1 := by omega
  simp only [Spec.Str.step, if_neg hne] at s1
  obtain ⟨w2, e2, i2, a2⟩ := s1
  have hg : Spec.Str.get (abs w1) (w1.objs.length - 1) = xs := by simp [Spec.Str.get, hlast]
  rw [hg] at a2
  have hl2 : (abs w2)[w1.objs.length - 1]? = some (some []) := by
    rw [a2]
    refine List.getElem?_set_self ?_
    rw [List.length_set]; exact lt_of_getElem? hlast
  have s2 := step_agrees i2 (.destroy (w1.objs.length - 1)) ⟨[], hl2⟩
  simp only [Spec.Str.step] at s2
  obtain ⟨w3, e3, i3, a3⟩ := s2
  refine ⟨w3, ?_, i3, ?_⟩
  · unfold assignTemporary
    rw [Cpp.bind_ok e1, Cpp.bind_ok (Cpp.get_apply w1), Cpp.bind_ok e2, e3]
  · rw [a3, a2, a1, hlen]
    unfold new
    simp only [Nat.add_sub_cancel]
    rw [List.set_set, List.set_append_left _ _ hilt, List.set_append_right _ _ (by simp)]
    simp

theorem fromContainer_spec {w : World α} (i : WInv w) {k : Nat} {xs ys : List α} (hk : (abs w)[k]? = some (some xs))
    (mv : Option α → Option α) {src : CopySource α} (hsrc : src.Gives ys) (append : Bool) :
    ∃ w', fromContainer mv src k append w = some (.ok () w') ∧ WInv w' ∧
      abs w' = (abs w).set k (some ((if append then xs else []) ++ ys)) ++ [none] := by
  obtain ⟨w1, e1, i1, a1⟩ := slice_spec i hk
  obtain ⟨da, e2, r2⟩ := ArrayC.newFrom_ok (fun k => xs[k.toNat]?) xs.length
  have hr : (List.range xs.length).map (fun (n : Nat) => xs[(n : Int).toNat]?) = xs.map some := by
    apply List.ext_getElem
    · simp
    · intro n h1 h2
      simp at h1 h2 ⊢
  rw [hr] at r2
  obtain ⟨da', e3, r3⟩ := C57_array mv none r2 hsrc append
  have r3' : ArrayC.Repr da' (((if append then xs else []) ++ ys).map some) := by
    cases append <;> simpa using r3
  have hc := r3'.count
  rw [List.length_map] at hc
  unfold fromContainer
  rw [e1]
  simp only
  rw [e2]
  simp only
  rw [e3]
  simp only
  rw [ArrayC.destructor_ok r3']
  simp only
  generalize hz : (if append then xs else []) ++ ys = zs at *
  rw [← a1] at hk ⊢
  by_cases h0 : da'.count = 0
  · rw [if_pos h0]
    have : zs = [] := List.length_eq_zero_iff.1 (by omega)
    subst this
    obtain ⟨w', e, i', a⟩ := assignTemporary_spec hk (step_agrees i1 .empty trivial)
    exact ⟨w', by rw [e], i', a⟩
  · rw [if_neg h0]
    have he := elements_eq r3' zs.length 0 (by omega)
    rw [show da'.count.toNat = zs.length by omega]
    simp only [Int.ofNat_zero, List.drop_zero, List.take_length] at he
    rw [he]
    simp only
    have ag := step_agrees i1 (.copyFrom zs da'.count) (by simp only [Legal]; omega)
    simp only [Spec.Str.step] at ag
    rw [if_pos (by omega), List.take_of_length_le (by omega)] at ag
    obtain ⟨w', e, i', a⟩ := assignTemporary_spec hk ag
    exact ⟨w', by rw [e], i', a⟩

end Strings

variable {σ α : Type} [Zero α] [DecidableEq α]

/-- **C88**.  `CopyFrom(container, string, append)`: the container gets the characters of the string, also if the string is a part of
another one, contains zeros or is empty, as `CopyFrom` from an array of these characters (for which C57 says what happens, here for a `List`
and an `Array`); all strings stay as they are. -/
theorem C88_to_container (ops : List (Op α)) (hl : LegalRun [] ops) (k : Nat) (xs : List α)
    (hk : (Spec.Str.run [] ops)[k]? = some (some xs)) (append : Bool) :
    ∃ w w', runOps ops {} = some w ∧ Shows w' (Spec.Str.run [] ops) ∧
      (∀ (mv : Option α → Option α) (l : ListC α) (ys : List α), ListC.Repr l ys →
        ∃ l', toContainer (CopyFrom.toList mv) k append w l = some (.ok () (w', l')) ∧
          ListC.Repr l' ((if append then ys else []) ++ xs)) ∧
      (∀ (mv : Option α → Option α) (d : Option α) (a : ArrayC α) (ys : List (Option α)), ArrayC.Repr a ys →
        ∃ a', toContainer (CopyFrom.toArray mv d) k append w a = some (.ok () (w', a')) ∧
          ArrayC.Repr a' ((if append then ys else []) ++ xs.map some)) := by
  obtain ⟨w, e, i, ab⟩ := reach hl
  rw [← ab] at hk
  obtain ⟨w', e1, i1, a1⟩ := slice_spec i hk
  have hg : (CopyFrom.fromSlice xs (xs.length : Int)).Gives xs := by
    have := (C57_sources (α := α) (κ := Unit) (ν := Unit)).2.2.1 xs xs.length (Nat.le_refl _)
    rwa [List.take_length] at this
  refine ⟨w, w', e, by rw [← ab, ← a1]; exact shows_abs i1, ?_, ?_⟩
  · intro mv l ys h
    obtain ⟨l', e2, h2⟩ := C57_list mv h hg append
    refine ⟨l', ?_, h2⟩
    unfold toContainer
    rw [e1]
    simp only
    rw [e2]
  · intro mv d a ys h
    obtain ⟨l', e2, h2⟩ := C57_array mv d h hg append
    refine ⟨l', ?_, h2⟩
    unfold toContainer
    rw [e1]
    simp only
    rw [e2]

/-- **C88**.  `CopyFrom(string, container, append)`, from a list, a sorted list, an array, memory or a lazy list that yields `ys`: the string is then the sequence
`ys`, or with `append` its own characters and then `ys`, including zeros; all other strings, also those that shared its buffer, stay as they are;
nothing uninitialised is read. -/
theorem C88_from_container (ops : List (Op α)) (hl : LegalRun [] ops) (k : Nat) (xs ys : List α)
    (hk : (Spec.Str.run [] ops)[k]? = some (some xs)) (mv : Option α → Option α) (src : CopySource α) (hsrc : src.Gives ys)
    (append : Bool) :
    ∃ w w', runOps ops {} = some w ∧ fromContainer mv src k append w = some (.ok () w') ∧
      Shows w' ((Spec.Str.run [] ops).set k (some ((if append then xs else []) ++ ys)) ++ [none]) := by
  obtain ⟨w, e, i, ab⟩ := reach hl
  rw [← ab] at hk ⊢
  obtain ⟨w', e1, i1, a1⟩ := fromContainer_spec i hk mv hsrc append
  exact ⟨w, w', e, e1, by rw [← a1]; exact shows_abs i1⟩

/-- **C88**, when the source fails (raises an error) while it is copied: all strings stay as they are. -/
theorem C88_error (ops : List (Op α)) (hl : LegalRun [] ops) (k : Nat) (xs : List α)
    (hk : (Spec.Str.run [] ops)[k]? = some (some xs)) (mv : Option α → Option α) (src : CopySource α) (append : Bool)
    (w w' : World α) (hw : runOps ops {} = some w) (he : fromContainer mv src k append w = some (.err w')) :
    Shows w' (Spec.Str.run [] ops) := by
  obtain ⟨w0, e, i, ab⟩ := reach hl
  rw [e] at hw
  obtain rfl := Option.some.inj hw
  rw [← ab] at hk ⊢
  obtain ⟨w1, e1, i1, a1⟩ := slice_spec i hk
  have h1 : Shows w1 (abs w0) := by rw [← a1]; exact shows_abs i1
  rw [← a1] at hk
  unfold fromContainer at he
  rw [e1] at he
  simp only at he
  obtain ⟨da, e2, -⟩ := ArrayC.newFrom_ok (fun k => xs[k.toNat]?) xs.length
  rw [e2] at he
  simp only at he
  split at he
  · cases he
  · cases he
  · split at he
    · cases he; exact h1
    · cases he
  · rename_i da' _
    split at he
    · split at he
      · obtain ⟨w2, e, -, -⟩ := assignTemporary_spec hk (step_agrees i1 .empty trivial)
        rw [e] at he
        cases he
      · split at he
        · cases he
        · rename_i cs hcs
          have hl : cs.length = da'.count.toNat := elements_length hcs
          have ag := step_agrees i1 (.copyFrom cs da'.count) (by simp only [Legal]; omega)
          simp only [Spec.Str.step] at ag
          split at ag
          · obtain ⟨w2, e, -, -⟩ := assignTemporary_spec hk ag
            rw [e] at he
            cases he
          · obtain ⟨w2, e, i2, a2⟩ := ag
            have : assignTemporary k (step (.copyFrom cs da'.count)) w1 = .err w2 := by
              unfold assignTemporary
              rw [Cpp.bind_err e]
            rw [this] at he
            cases he
            rw [← a1, ← a2]
            exact shows_abs i2
    · cases he

/-- a string with a zero, one with a part of it, and another owner of its buffer -/
def copyDemo : List (Op Nat) := [.copyFrom [104, 0, 105] 3, .copyFrom [7, 8, 9, 10] 4, .sub 1 1 2, .copy 1]

theorem copyDemo_run : Spec.Str.run [] copyDemo = [some [104, 0, 105], some [7, 8, 9, 10], some [8, 9], some [7, 8, 9, 10]] := rfl

theorem copyDemo_legal : LegalRun [] copyDemo := by
  simp [copyDemo, LegalRun, Legal, Spec.Str.step, new, Alive, Spec.Str.get]

example : ∃ w w', runOps copyDemo {} = some w ∧ Shows w' (Spec.Str.run [] copyDemo) ∧
    ∃ l', toContainer (CopyFrom.toList id) 2 false w ListC.empty = some (.ok () (w', l')) ∧ ListC.Repr l' [8, 9] := by
  obtain ⟨w, w', e, s, hl, -⟩ := C88_to_container copyDemo copyDemo_legal 2 [8, 9] rfl false
  obtain ⟨l', e', r⟩ := hl id ListC.empty [] ListC.Repr.empty
  exact ⟨w, w', e, s, l', e', r⟩

example : ∃ w w', runOps copyDemo {} = some w ∧ fromContainer id (CopyFrom.fromSlice [1, 2] 2) 1 true w = some (.ok () w') ∧
    Shows w' [some [104, 0, 105], some [7, 8, 9, 10, 1, 2], some [8, 9], some [7, 8, 9, 10], none] :=
  C88_from_container copyDemo copyDemo_legal 1 [7, 8, 9, 10] [1, 2] rfl id _
    ((C57_sources (κ := Unit) (ν := Unit)).2.2.1 [1, 2] 2 (by simp)) true

-- a source that fails
example : ∃ w w', runOps copyDemo {} = some w ∧
    fromContainer id (CopySource.random 1 (fun _ => .err ())) 1 true w = some (.err w') ∧ Shows w' (Spec.Str.run [] copyDemo) :=
  ⟨_, _, rfl, rfl, C88_error copyDemo copyDemo_legal 1 [7, 8, 9, 10] rfl id (CopySource.random 1 (fun _ => .err ())) true _ _ rfl rfl⟩

end Vlpp
