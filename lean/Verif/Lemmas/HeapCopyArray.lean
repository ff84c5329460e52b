import Verif.Lemmas.HeapCopy
import Verif.Props.HeapArrayProps

/-! # `CopyFrom` between arrays and between dictionaries of one memory -/
set_option autoImplicit false
namespace Vlpp
open Heap

namespace ArrayH
variable {α : Type} {F : Nat → Option (Block α)}
open ListWorld (RelBy RepsBy AtBy on countOf)
open ListH (onHeap members setMembers members_bind)

theorem setAt_ok {ys : List (Option α)} {i : Nat} (hi : i < ys.length) (v : α) (s : Heap α × ListH) (hr : RelBy Repr F s ys) :
    ∃ s', setAt (i : Int) v s = .ok true s' ∧ RelBy Repr F s' (ys.set i (some v)) := by
  obtain ⟨⟨b, n, cap⟩, hr, hc, hy⟩ := hr
  have hc : cap = 0 := hc
  subst hc
  have := setAt_refines (F := F) (i : Int) v s ⟨b, n⟩ hr
  obtain ⟨a', e, h'⟩ := ArrayC.setAt_ok hy (i : Int) v (by omega) (by omega)
  rw [e] at this
  generalize setAt (i : Int) v s = o at this
  cases this with
  | ok h => exact ⟨_, rfl, _, h, rfl, by rw [Int.toNat_natCast] at h'; exact h'⟩

theorem resize_ok (mv : Option α → Option α) (dflt : Option α) {ys : List (Option α)} (n : Nat) (s : Heap α × ListH) (hr : RelBy Repr F s ys) :
    ∃ s', resize mv dflt (n : Int) s = .ok true s' ∧ RelBy Repr F s' (ys.take n ++ List.replicate (n - ys.length) dflt) := by
  obtain ⟨⟨b, m, cap⟩, hr, hc, hy⟩ := hr
  have hc : cap = 0 := hc
  subst hc
  have := resize_refines (F := F) mv dflt (n : Int) s ⟨b, m⟩ hr
  obtain ⟨a', e, h'⟩ := ArrayC.resize_ok mv dflt hy n
  rw [e] at this
  generalize resize mv dflt (n : Int) s = o at this
  cases this with
  | ok h => exact ⟨_, rfl, _, h, rfl, h'⟩

/-- a call that ends, on container `i` of many -/
theorem on_ok_of {β : Type} {m : Cpp (Heap α × ListH) β} {w : ListWorld α} {ys : Nat → List (Option α)} (h : RepsBy Repr w ys) (i : Nat)
    {r : β} {x : List (Option α)} (hm : ∀ F s, RelBy Repr F s (ys i) → ∃ s', m s = .ok r s' ∧ RelBy Repr F s' x) :
    ∃ w', on i m w = .ok r w' ∧ RepsBy Repr w' (upd ys i x) := by
  obtain ⟨cs, hw, hp⟩ := h
  obtain ⟨s', e, c', hr, hc⟩ := hm (w.others i) (w.heap, w.lists i) ⟨_, hw.rel i, hp i⟩
  refine ⟨({ w with heap := s'.1 } : ListWorld α).put i s'.2, ?_, _, hw.update hr, ?_⟩
  · unfold on
    rw [e]
  · intro n
    by_cases hn : n = i
    · subst hn; simpa using hc
    · simp only [if_neg hn, upd_ne hn]
      exact hp n

theorem count_of {w : ListWorld α} {ys : Nat → List (Option α)} (h : RepsBy Repr w ys) (i : Nat) :
    (w.lists i).count = (ys i).length := by
  obtain ⟨cs, hw, hp⟩ := h
  rw [show (w.lists i).count = (cs i).count from (hw.rel i).count]
  exact (hp i).2.count

theorem refAt_ok {w : ListWorld α} {ys : Nat → List (Option α)} (h : RepsBy Repr w ys) {i m : Nat} (hm : m < (ys i).length) :
    on i (ListH.refAt m) w = .ok (.elem (w.lists i).buffer m) w := by
  refine ListWorld.on_ok (ListH.refAt_ok ?_)
  rw [count_of h i]
  omega

theorem read_ok {w : ListWorld α} {ys : Nat → List (Option α)} (h : RepsBy Repr w ys) {i m : Nat} {v : α} (hm : (ys i)[m]? = some (some v)) :
    (ElemRef.elem (w.lists i).buffer m).read w.heap = .ok v w.heap := by
  obtain ⟨cs, hw, hp⟩ := h
  obtain ⟨hlt, hv⟩ := List.getElem?_eq_some_iff.1 hm
  have hr := (hp i).2
  have hs : (cs i).buffer.size = (cs i).count := hr.size
  have hc : (cs i).count = (ys i).length := hr.count
  have hl : (cs i).buffer.cell m = .obj (some v) := by
    have := hr.live m (by omega) (by show (m : Int) < (cs i).count; omega)
    rw [Int.toNat_natCast, hm] at this
    exact this
  have hrd : ListC.readVal (cs i).buffer m = some v := by
    unfold ListC.readVal Mem.read
    rw [if_pos ⟨by omega, by omega⟩, hl]
  have o := (hw.rel i).own.at'
  cases hb : (w.lists i).buffer with
  | none =>
    simp only [hb] at o
    rw [show (cs i).buffer = Block.null from o] at hs
    have : (0 : Int) = (cs i).count := hs
    omega
  | some a =>
    simp only [hb] at o
    exact ElemRef.read_elem o hrd

/-- `Set` of a reference to an element -/
theorem setRef_ok {w : ListWorld α} {ys : Nat → List (Option α)} (h : RepsBy Repr w ys) {d s i m : Nat} {v : α}
    (hi : i < (ys d).length) (hm : (ys s)[m]? = some (some v)) :
    ∃ w', on d (setRef (i : Int) (.elem (w.lists s).buffer m)) w = .ok true w' ∧ RepsBy Repr w' (upd ys d ((ys d).set i (some v))) := by
  obtain ⟨w', e, h'⟩ := on_ok_of h d (m := setAt (i : Int) v) (fun F s hr => setAt_ok hi v s hr)
  refine ⟨w', ?_, h'⟩
  rw [← e]
  refine ListWorld.on_congr ?_
  unfold setRef setAt
  rw [members_bind, members_bind, Cpp.bind_ok (Cpp.check_true ⟨by omega, by rw [count_of h d]; omega⟩ _),
    Cpp.bind_ok (Cpp.check_true ⟨by omega, by rw [count_of h d]; omega⟩ _),
    Cpp.bind_ok (ListH.onHeap_ok (read_ok h hm))]

theorem set_append {a b : List (Option α)} {x y : Option α} (n : Nat) (hn : a.length = n) :
    (a ++ x :: b).set n y = a ++ y :: b := by
  subst hn
  rw [List.set_append_right _ _ (Nat.le_refl _), Nat.sub_self]
  rfl

/-- The elements of `s` are written over what is in `d` at `index` and behind. -/
theorem setLoop_other {d s : Nat} (hds : d ≠ s) : ∀ (n i : Nat) (w : ListWorld α) (ys : Nat → List (Option α)) (pre post : List (Option α)) (vs : List α),
    RepsBy Repr w ys → ys s = vs.map some → i + n = vs.length → ys d = pre ++ post → post.length = n →
    ∃ w', setLoop d s ((pre.length : Int) - i) n i w = .ok () w' ∧ RepsBy Repr w' (upd ys d (pre ++ (vs.drop i).map some))
  | 0, i, w, ys, pre, post, vs, h, hs, hn, hd, hp => by
    refine ⟨w, rfl, ?_⟩
    cases post with
    | nil =>
      rw [List.drop_eq_nil_of_le (by omega), List.map_nil, ← hd, upd_eq]
      exact h
    | cons x xs => simp at hp
  | n + 1, i, w, ys, pre, post, vs, h, hs, hn, hd, hp => by
    cases post with
    | nil => simp at hp
    | cons x xs =>
      have hi : i < vs.length := by omega
      have hm : (ys s)[i]? = some (some vs[i]) := by rw [hs]; simp [hi]
      obtain ⟨w1, e1, h1⟩ := setRef_ok (d := d) h (i := pre.length) (by rw [hd]; simp) hm
      rw [hd, set_append pre.length rfl] at h1
      have hs1 : upd ys d (pre ++ some vs[i] :: xs) s = vs.map some := by rw [upd_ne (Ne.symm hds)]; exact hs
      obtain ⟨w2, e2, h2⟩ := setLoop_other hds n (i + 1) w1 _ (pre ++ [some vs[i]]) xs vs h1 hs1 (by omega)
        (by rw [upd_self, List.append_assoc]; rfl) (by simpa using hp)
      refine ⟨w2, ?_, ?_⟩
      · unfold setLoop
        rw [Cpp.bind_ok (refAt_ok h (by rw [hs]; simp; omega)), show (pre.length : Int) - i + i = pre.length by omega, Cpp.bind_ok e1]
        rw [show ((pre ++ [some vs[i]]).length : Int) - ((i + 1 : Nat) : Int) = (pre.length : Int) - i by simp; omega] at e2
        exact e2
      · rw [upd_upd, List.append_assoc, List.singleton_append, ← List.map_cons, List.getElem_cons_drop] at h2
        exact h2

/-- The same within one array: the elements before `m` are copied behind. -/
theorem setLoop_own {d : Nat} (vs : List α) (m : Nat) (hm : m ≤ vs.length) : ∀ (n i : Nat) (w : ListWorld α) (ys : Nat → List (Option α)) (post : List (Option α)),
    RepsBy Repr w ys → i + n = m → ys d = (vs ++ vs.take i).map some ++ post → post.length = n →
    ∃ w', setLoop d d (vs.length : Int) n i w = .ok () w' ∧ RepsBy Repr w' (upd ys d ((vs ++ vs.take m).map some))
  | 0, i, w, ys, post, h, hn, hd, hp => by
    refine ⟨w, rfl, ?_⟩
    cases post with
    | nil =>
      rw [List.append_nil] at hd
      rw [show m = i by omega, ← hd, upd_eq]
      exact h
    | cons x xs => simp at hp
  | n + 1, i, w, ys, post, h, hn, hd, hp => by
    cases post with
    | nil => simp at hp
    | cons x xs =>
      have hi : i < vs.length := by omega
      have hm' : (ys d)[i]? = some (some vs[i]) := by
        rw [hd, List.map_append, List.append_assoc, List.getElem?_append_left (by simpa using hi)]
        simp [hi]
      have hlen : ((vs ++ vs.take i).map some).length = vs.length + i := by simp; omega
      obtain ⟨w1, e1, h1⟩ := setRef_ok (d := d) h (i := vs.length + i) (by rw [hd, List.length_append, hlen]; simp) hm'
      rw [hd, set_append (vs.length + i) hlen] at h1
      obtain ⟨w2, e2, h2⟩ := setLoop_own vs m hm n (i + 1) w1 _ xs h1 (by omega)
        (by
          rw [upd_self, ← List.take_append_getElem hi, List.map_append, List.map_append, List.map_append]
          simp) (by simpa using hp)
      refine ⟨w2, ?_, by rw [upd_upd] at h2; exact h2⟩
      unfold setLoop
      rw [Cpp.bind_ok (refAt_ok h (by rw [hd, List.length_append, hlen]; omega)),
        show (vs.length : Int) + i = ((vs.length + i : Nat) : Int) by omega, Cpp.bind_ok e1]
      exact e2

/-- The same onto the elements themselves. -/
theorem setLoop_same {d : Nat} (vs : List α) : ∀ (n i : Nat) (w : ListWorld α) (ys : Nat → List (Option α)),
    RepsBy Repr w ys → i + n = vs.length → ys d = vs.map some →
    ∃ w', setLoop d d 0 n i w = .ok () w' ∧ RepsBy Repr w' ys
  | 0, i, w, ys, h, hn, hd => ⟨w, rfl, h⟩
  | n + 1, i, w, ys, h, hn, hd => by
    have hi : i < vs.length := by omega
    have hm : (ys d)[i]? = some (some vs[i]) := by rw [hd]; simp [hi]
    obtain ⟨w1, e1, h1⟩ := setRef_ok (d := d) h (i := i) (by rw [hd]; simpa using hi) hm
    have : (ys d).set i (some vs[i]) = ys d := by
      rw [← List.getElem?_eq_some_iff.1 hm |>.2, List.set_getElem_self]
    rw [this, upd_eq] at h1
    obtain ⟨w2, e2, h2⟩ := setLoop_same vs n (i + 1) w1 ys h1 (by omega) hd
    refine ⟨w2, ?_, h2⟩
    unfold setLoop
    rw [Cpp.bind_ok (refAt_ok h (by rw [hd]; simpa using hi)), show (0 : Int) + i = i by omega, Cpp.bind_ok e1]
    exact e2

/-- `CopyFrom` between arrays, also from an array to itself -/
theorem copyFrom_ok (mv : Option α → Option α) (dflt : Option α) {w : ListWorld α} {ys : Nat → List (Option α)} (h : RepsBy Repr w ys)
    (d s : Nat) (append : Bool) {vs : List α} (hs : ys s = vs.map some) :
    ∃ w', copyFrom mv dflt d s append w = .ok () w' ∧
      RepsBy Repr w' (upd ys d ((if append then ys d else []) ++ vs.map some)) := by
  have hcs := count_of h s
  have hcd := count_of h d
  rw [hs, List.length_map] at hcs
  have hidx : (if append then (w.lists d).count else 0 : Int) = ((if append then ys d else []).length : Nat) := by
    cases append <;> simp [hcd]
  have hpre : ∀ n, ((if append then ys d else []).length + n) ≥ 0 := fun _ => Nat.zero_le _
  obtain ⟨w1, e1, h1⟩ := on_ok_of h d (m := resize mv dflt (((if append then ys d else []).length + vs.length : Nat) : Int))
    (fun F s hr => resize_ok mv dflt _ s hr)
  unfold copyFrom
  rw [Cpp.bind_ok (ListWorld.countOf_ok w s), Cpp.bind_ok (ListWorld.countOf_ok w d)]
  simp only [hidx, hcs]
  rw [show (((if append then ys d else []).length : Nat) : Int) + (vs.length : Int) = (((if append then ys d else []).length + vs.length : Nat) : Int) by omega,
    Cpp.bind_ok e1, Int.toNat_natCast]
  by_cases hds : d = s
  · subst hds
    have hlen : (ys d).length = vs.length := by rw [hs, List.length_map]
    cases append with
    | false =>
      have h1' : RepsBy Repr w1 (upd ys d (vs.map some)) := by
        have e : List.take (0 + vs.length) (ys d) ++ List.replicate (0 + vs.length - (ys d).length) dflt = vs.map some := by
          rw [hlen, List.take_of_length_le (by omega), show 0 + vs.length - vs.length = 0 by omega, hs]; simp
        simp only [Bool.false_eq_true, if_false, List.length_nil, e] at h1
        exact h1
      obtain ⟨w2, e2, h2⟩ := setLoop_same vs vs.length 0 w1 _ h1' (by omega) (by rw [upd_self])
      exact ⟨w2, e2, h2⟩
    | true =>
      have h1' : RepsBy Repr w1 (upd ys d (vs.map some ++ List.replicate vs.length dflt)) := by
        have e : List.take ((ys d).length + vs.length) (ys d) ++ List.replicate ((ys d).length + vs.length - (ys d).length) dflt =
            vs.map some ++ List.replicate vs.length dflt := by
          rw [List.take_of_length_le (by omega), Nat.add_sub_cancel_left, hs]
        simp only [if_true, e] at h1
        exact h1
      obtain ⟨w2, e2, h2⟩ := setLoop_own vs vs.length (Nat.le_refl _) vs.length 0 w1 _ (List.replicate vs.length dflt) h1' (by omega)
        (by rw [upd_self]; simp) (by simp)
      refine ⟨w2, ?_, ?_⟩
      · simp only [if_true, hlen]
        exact e2
      · rw [upd_upd, List.take_of_length_le (Nat.le_refl _), List.map_append] at h2
        simp only [if_true, hs]
        exact h2
  · have hsplit : ∃ post, List.take ((if append then ys d else []).length + vs.length) (ys d) ++
        List.replicate ((if append then ys d else []).length + vs.length - (ys d).length) dflt =
        (if append then ys d else []) ++ post ∧ post.length = vs.length := by
      cases append with
      | false => exact ⟨_, by simp only [Bool.false_eq_true, if_false, List.nil_append]; rfl, by simp; omega⟩
      | true =>
        refine ⟨List.replicate vs.length dflt, ?_, by simp⟩
        simp only [if_true]
        rw [List.take_of_length_le (by omega), Nat.add_sub_cancel_left]
    obtain ⟨post, hpost, hlen⟩ := hsplit
    rw [hpost] at h1
    have hs1 : upd ys d ((if append then ys d else []) ++ post) s = vs.map some := by rw [upd_ne (Ne.symm hds)]; exact hs
    obtain ⟨w2, e2, h2⟩ := setLoop_other hds vs.length 0 w1 _ (if append then ys d else []) post vs h1 hs1 (by omega)
      (by rw [upd_self]) hlen
    refine ⟨w2, ?_, ?_⟩
    · rw [Int.natCast_zero, Int.sub_zero] at e2
      exact e2
    · rw [upd_upd, List.drop_zero] at h2
      exact h2

end ArrayH

namespace DictWorld
variable {κ ν : Type}
open ListWorld (Reps)

theorem pairAt_ok {w : DictWorld κ ν} {ds : Nat → DictC κ ν} (h : Rel w ds) {s i : Nat} (hk : i < (ds s).keys.length)
    (hv : i < (ds s).values.length) : pairAt s (i : Int) w = .ok ((ds s).keys[i], (ds s).values[i]) w := by
  have key : ∀ {α : Type} (w : ListWorld α) (xs : Nat → List α), Reps w xs → ∀ (h : i < (xs s).length),
      ListWorld.on s (ListH.reading (ListC.get (i : Int))) w = .ok (xs s)[i] w := by
    rintro α w xs ⟨cs, hw, hp⟩ hi
    refine ListWorld.on_ok ?_
    unfold ListH.reading
    rw [(hw.rel s).view]
    simp only [ListC.get_ok (hp s) i hi]
  have e1 : onKeys (ListWorld.on s (ListH.reading (ListC.get (i : Int)))) w = .ok (ds s).keys[i] w := by
    unfold onKeys
    rw [key w.keys _ h.keys hk]
  have e2 : onValues (ListWorld.on s (ListH.reading (ListC.get (i : Int)))) w = .ok (ds s).values[i] w := by
    unfold onValues
    rw [key w.values _ h.values hv]
  unfold pairAt
  rw [Cpp.bind_ok e1, Cpp.bind_ok e2]
  rfl

theorem call_ok {β : Type} {m : Cpp (DictWorld κ ν) β} {m' : Cpp (DictC κ ν) β} {w : DictWorld κ ν} {ds : Nat → DictC κ ν} {d : Nat}
    (hm : Cpp.Refines (At w d ds) m m') (h : Rel w ds) {r : β} {x : DictC κ ν} (e : m' (ds d) = .ok r x) :
    ∃ w', m w = .ok r w' ∧ Rel w' (upd ds d x) := by
  have := hm w (ds d) ⟨ListWorld.AtBy.start h.keys d, ListWorld.AtBy.start h.values d⟩
  rw [e] at this
  generalize m w = o at this
  cases this with
  | ok h' => exact ⟨_, rfl, h'.rel⟩

section
variable {cmp : κ → κ → Option Ordering} {ord : κ → κ → Ordering} [Std.TransCmp ord]

theorem set_models (hcmp : ∀ a b, cmp a b = some (ord a b)) {m : κ → Option ν} {x : DictC κ ν} (h : DictC.Models ord m x) (k : κ) (v : ν) :
    ∃ x', DictC.set cmp k v x = .ok true x' ∧ DictC.Models ord (Spec.mapPut ord m k v) x' := by
  obtain ⟨s', e, h'⟩ := DictC.step_refines hcmp h (.set k v)
  simp only [DictC.step] at e
  cases e1 : DictC.set cmp k v x with
  | ok r x' =>
    rw [e1] at e
    simp only [DictC.observe, Option.some.injEq, Prod.mk.injEq] at e
    obtain ⟨rfl, e⟩ := e
    refine ⟨_, ?_, h'⟩
    simp only [Spec.mapStep, Spec.MapRet.flag.injEq] at e
    rw [e]
  | err x' => rw [e1] at e; simp [DictC.observe, Spec.mapStep] at e
  | fault => rw [e1] at e; simp [DictC.observe] at e

theorem set_same (hcmp : ∀ a b, cmp a b = some (ord a b)) {m : κ → Option ν} {x : DictC κ ν} (h : DictC.Models ord m x) {i : Nat}
    (hk : i < x.keys.length) (hv : i < x.values.length) : DictC.set cmp x.keys[i] x.values[i] x = .ok true x := by
  have hasc := strict_ascending h.ascending
  unfold DictC.set
  rcases SortedSeq.indexOf_spec (KeyCmp.compares hcmp) hasc x.keys[i] with ⟨j, hj, e, heq⟩ | ⟨e, hne⟩
  · have hji : j = i := strict_unique h.ascending (List.getElem?_eq_getElem hj) (List.getElem?_eq_getElem hk) heq
    subst hji
    rw [Cpp.bind_ok (DictC.onKeys_ok e), if_neg (by omega), Cpp.bind_ok (DictC.onValues_ok (SeqList.setAt_ok _ (by simp only; omega)))]
    simp
  · exact absurd (Std.ReflCmp.compare_self (cmp := ord)) (hne _ (List.getElem_mem hk))

variable (mk : Option κ → Option κ) (mv : Option ν → Option ν)

theorem setLoop_other (hcmp : ∀ a b, cmp a b = some (ord a b)) {d s : Nat} (hds : d ≠ s) : ∀ (n i : Nat) (w : DictWorld κ ν)
    (ds : Nat → DictC κ ν) (m : κ → Option ν), Rel w ds → i + n = (ds s).keys.length → (ds s).keys.length = (ds s).values.length →
    DictC.Models ord m (ds d) →
    ∃ w' x, setLoop mk mv cmp d s n i w = .ok () w' ∧ Rel w' (upd ds d x) ∧
      DictC.Models ord ((((ds s).keys.zip (ds s).values).drop i).foldl (fun m p => Spec.mapPut ord m p.1 p.2) m) x
  | 0, i, w, ds, m, h, hn, hl, hm => by
    refine ⟨w, ds d, rfl, by rw [upd_eq]; exact h, ?_⟩
    rw [List.drop_eq_nil_of_le (by rw [List.length_zip]; omega)]
    exact hm
  | n + 1, i, w, ds, m, h, hn, hl, hm => by
    have hk : i < (ds s).keys.length := by omega
    have hv : i < (ds s).values.length := by omega
    obtain ⟨x, e1, m1⟩ := set_models hcmp hm (ds s).keys[i] (ds s).values[i]
    obtain ⟨w1, e2, h1⟩ := call_ok (set_refines mk mv cmp w d ds _ _) h e1
    have hs : upd ds d x s = ds s := upd_ne (Ne.symm hds)
    obtain ⟨w2, y, e3, h2, m2⟩ := setLoop_other hcmp hds n (i + 1) w1 _ _ h1 (by rw [hs]; omega) (by rw [hs]; exact hl)
      (by rw [upd_self]; exact m1)
    rw [upd_upd] at h2
    rw [hs] at m2
    refine ⟨w2, y, ?_, h2, ?_⟩
    · unfold setLoop
      rw [Cpp.bind_ok (pairAt_ok h hk hv)]
      simp only
      rw [Cpp.bind_ok e2]
      exact e3
    · rw [← List.getElem_cons_drop (show i < ((ds s).keys.zip (ds s).values).length by rw [List.length_zip]; omega), List.foldl_cons,
        List.getElem_zip]
      exact m2

theorem setLoop_own (hcmp : ∀ a b, cmp a b = some (ord a b)) {d : Nat} : ∀ (n i : Nat) (w : DictWorld κ ν)
    (ds : Nat → DictC κ ν) (m : κ → Option ν), Rel w ds → i + n = (ds d).keys.length → DictC.Models ord m (ds d) →
    ∃ w', setLoop mk mv cmp d d n i w = .ok () w' ∧ Rel w' ds
  | 0, i, w, ds, m, h, hn, hm => ⟨w, rfl, h⟩
  | n + 1, i, w, ds, m, h, hn, hm => by
    have hk : i < (ds d).keys.length := by omega
    have hv : i < (ds d).values.length := by have := hm.length; omega
    obtain ⟨w1, e2, h1⟩ := call_ok (set_refines mk mv cmp w d ds _ _) h (set_same hcmp hm hk hv)
    rw [upd_eq] at h1
    obtain ⟨w2, e3, h2⟩ := setLoop_own hcmp n (i + 1) w1 _ _ h1 (by omega) hm
    refine ⟨w2, ?_, h2⟩
    unfold setLoop
    rw [Cpp.bind_ok (pairAt_ok h hk hv)]
    simp only
    rw [Cpp.bind_ok e2]
    exact e3

omit [Std.TransCmp ord] in
theorem fold_none (ps : List (κ × ν)) (m : κ → Option ν) (k : κ) (h : ∀ p ∈ ps, ord p.1 k ≠ .eq) :
    ps.foldl (fun m p => Spec.mapPut ord m p.1 p.2) m k = m k := by
  induction ps generalizing m with
  | nil => rfl
  | cons p ps ih =>
    rw [List.foldl_cons, ih _ (fun q hq => h q (List.mem_cons_of_mem _ hq))]
    simp [Spec.mapPut, h p List.mem_cons_self]

/-- What the entries of a map do to another map. -/
theorem fold_lists {ms : κ → Option ν} {ks : List κ} {vs : List ν} (h : Spec.Lists ord ms ks vs) (m : κ → Option ν) :
    (ks.zip vs).foldl (fun m p => Spec.mapPut ord m p.1 p.2) m = fun k => (ms k).or (m k) := by
  funext k
  have hl := h.length
  cases hm : ms k with
  | none =>
    rw [fold_none]
    · rfl
    · intro p hp he
      obtain ⟨i, hi, rfl⟩ := List.mem_iff_getElem.1 hp
      rw [List.length_zip] at hi
      rw [List.getElem_zip] at he
      have := (h.entries k vs[i]).2 ⟨i, ks[i], List.getElem?_eq_getElem (by omega), he, List.getElem?_eq_getElem (by omega)⟩
      rw [hm] at this
      cases this
  | some v =>
    obtain ⟨i, k', hk, he, hv⟩ := (h.entries k v).1 hm
    obtain ⟨hi, rfl⟩ := List.getElem?_eq_some_iff.1 hk
    obtain ⟨hi', rfl⟩ := List.getElem?_eq_some_iff.1 hv
    have hz : i < (ks.zip vs).length := by rw [List.length_zip]; omega
    rw [← List.take_append_drop i (ks.zip vs), ← List.getElem_cons_drop hz, List.foldl_append, List.foldl_cons, fold_none]
    · simp [Spec.mapPut, he]
    · intro p hp hpe
      obtain ⟨j, hj, rfl⟩ := List.mem_iff_getElem.1 hp
      rw [List.length_drop, List.length_zip] at hj
      rw [List.getElem_drop, List.getElem_zip] at hpe
      have := strict_unique h.ascending (List.getElem?_eq_getElem (show i + 1 + j < ks.length by omega)) hk (Std.TransCmp.eq_trans hpe (Std.OrientedCmp.eq_symm he))
      omega

end
end DictWorld
end Vlpp
