import Verif.Lemmas.CmpEff
import Verif.Lemmas.GroupC

/-!
# Comparisons whose answers do not depend on the state: the containers behave as in the models without effects
-/
set_option autoImplicit false
namespace Vlpp.CmpEff
open QSortE (Answer)
open Spec (Answers)
variable {W α κ ν σ β γ : Type}

/-- forget the state of the program -/
def strip : Outcome (W × σ) β → Outcome σ β
  | .ok v s => .ok v s.2
  | .err s => .err s.2
  | .fault => .fault

/-- the result of code that only reads the container -/
def onto (s : σ) : Outcome W β → Outcome σ β
  | .ok v _ => .ok v s
  | .err _ => .err s
  | .fault => .fault

/-- `m` does what `p` does -/
def Same (m : Cpp (W × σ) β) (p : Cpp σ β) : Prop := ∀ w s, strip (m (w, s)) = p s

theorem Same.bind {m : Cpp (W × σ) β} {p : Cpp σ β} {f : β → Cpp (W × σ) γ} {q : β → Cpp σ γ} (h : Same m p)
    (hf : ∀ v, Same (f v) (q v)) : Same (m >>= f) (p >>= q) := by
  intro w s
  rw [Cpp.bind_apply, Cpp.bind_apply, ← h w s]
  cases m (w, s) with
  | ok v s' => exact hf v s'.1 s'.2
  | err s' => rfl
  | fault => rfl

theorem Same.pure (v : β) : Same (Pure.pure v : Cpp (W × σ) β) (Pure.pure v) := fun _ _ => rfl

theorem Same.check (p : Prop) [Decidable p] : Same (Cpp.check p : Cpp (W × σ) Unit) (Cpp.check p) := by
  intro w s
  by_cases h : p
  · rw [Cpp.check_true h, Cpp.check_true h]; rfl
  · rw [Cpp.check_false h, Cpp.check_false h]; rfl

theorem Same.ite (p : Prop) [Decidable p] {m m' : Cpp (W × σ) β} {q q' : Cpp σ β} (h : Same m q) (h' : Same m' q') :
    Same (if p then m else m') (if p then q else q') := by
  by_cases hp : p
  · simpa [hp] using h
  · simpa [hp] using h'

theorem Same.writing (m : Cpp σ β) : Same (CmpEff.writing m : Cpp (W × σ) β) m := by
  intro w s
  rw [CmpEff.writing]
  simp only
  cases m s <;> rfl

theorem Same.reading {m : σ → Cpp W β} {p : Cpp σ β} (h : ∀ w s, onto s (m s w) = p s) : Same (CmpEff.reading m) p := by
  intro w s
  rw [CmpEff.reading, ← h w s]
  simp only
  cases m s w <;> rfl

theorem searchLoop_same {f : W → α → κ → Answer × W} {cmp : α → κ → Option Ordering} (hf : Answers f cmp) (xs : List α) (k : κ)
    (n : Nat) : ∀ (start stop index : Int) (w : W), (stop + 1 - start).toNat = n →
      onto () (searchLoop f xs k start stop index w) = Vlpp.searchLoop (SortedSeq.read xs) cmp k start stop index := by
  induction n using Nat.strongRecOn with
  | ind n ih =>
    intro start stop index w hn
    rw [searchLoop, Vlpp.searchLoop]
    by_cases h : start ≤ stop
    · rw [if_pos h, if_pos h]
      simp only
      cases SortedSeq.read xs (start + (stop - start) / 2) with
      | none => rfl
      | some x =>
        simp only
        have := hf w x k
        rcases e : f w x k with ⟨a, w1⟩
        rw [e] at this
        simp only at this
        rcases ec : cmp x k with _ | o
        · rw [ec] at this; simp only at this; subst this; rfl
        · rw [ec] at this
          simp only at this
          subst this
          cases o with
          | lt => exact ih _ (by omega) _ _ _ _ rfl
          | gt => exact ih _ (by omega) _ _ _ _ rfl
          | eq => rfl
    · rw [if_neg h, if_neg h]; rfl

theorem onto_onto {τ : Type} (s : σ) (t : τ) (o : Outcome W β) : onto t (onto s o) = onto t o := by cases o <;> rfl

theorem liftSearch_onto (s : σ) (o : Outcome Unit β) : SortedListC.liftSearch o s = onto s o := by cases o <;> rfl

theorem indexOfInternal_same {f : W → α → κ → Answer × W} {cmp : α → κ → Option Ordering} (hf : Answers f cmp) (xs : List α) (k : κ)
    (w : W) : onto xs (indexOfInternal f k xs w) = SortedSeq.indexOfInternal cmp k xs := by
  rw [SortedSeq.indexOfInternal, Cpp.bind_ok (Cpp.get_apply xs), liftSearch_onto, ← searchLoop_same hf xs k _ _ _ _ w rfl, onto_onto]
  rfl

theorem onto_bind (s : σ) (m : Cpp W β) (p : Cpp σ β) (f : β → Cpp W γ) (q : β → Cpp σ γ) (w : W) (h : onto s (m w) = p s)
    (hf : ∀ v w, onto s (f v w) = q v s) : onto s ((m >>= f) w) = (p >>= q) s := by
  rw [Cpp.bind_apply, Cpp.bind_apply, ← h]
  cases m w with
  | ok v w' => exact hf v w'
  | err w' => rfl
  | fault => rfl

theorem indexOf_same {f : W → α → κ → Answer × W} {cmp : α → κ → Option Ordering} (hf : Answers f cmp) (xs : List α) (k : κ)
    (w : W) : onto xs (indexOf f k xs w) = SortedSeq.indexOf cmp k xs :=
  onto_bind xs _ _ _ _ w (indexOfInternal_same hf xs k w) fun _ _ => rfl

theorem onto_check (s : σ) (p : Prop) [Decidable p] (w : W) : onto s (Cpp.check p w) = Cpp.check p s := by
  by_cases h : p
  · rw [Cpp.check_true h, Cpp.check_true h]; rfl
  · rw [Cpp.check_false h, Cpp.check_false h]; rfl

/-- finding the place and inserting -/
theorem add_same {f : W → α → κ → Answer × W} {cmp : α → κ → Option Ordering} (hf : Answers f cmp) (key : α → κ) (v : α)
    (xs : List α) (w : W) :
    (match placeOf f (key v) xs w with
      | .ok i _ => SortedSeq.insertRaw i v xs
      | .err _ => .err xs
      | .fault => .fault) = SortedSeq.add cmp key v xs := by
  rw [placeOf, SortedSeq.add, Cpp.bind_ok (Cpp.get_apply xs)]
  by_cases h : xs.length = 0
  · rw [if_pos h, if_pos h]; rfl
  · rw [if_neg h, if_neg h, Cpp.bind_apply, Cpp.bind_apply, ← indexOfInternal_same hf xs (key v) w]
    cases indexOfInternal f (key v) xs w with
    | err w' => rfl
    | fault => rfl
    | ok r w' =>
      simp only [onto]
      by_cases hc : r.2 ≥ 0 ∧ r.2 < xs.length
      · rw [Cpp.bind_ok (Cpp.check_true hc w'), Cpp.bind_ok (Cpp.check_true hc xs)]
        cases SortedSeq.read xs r.2 with
        | none => rfl
        | some x =>
          simp only [before]
          have := hf w' x (key v)
          rcases e : f w' x (key v) with ⟨a, w1⟩
          rw [e] at this
          simp only at this
          rcases ec : cmp x (key v) with _ | o
          · rw [ec] at this; simp only at this; subst this; simp
          · rw [ec] at this
            simp only at this
            subst this
            cases o <;> simp
      · rw [Cpp.bind_err (Cpp.check_false hc w'), Cpp.bind_err (Cpp.check_false hc xs)]

theorem findLoop_same {g : W → α → κ → Option Bool × W} {eq : α → κ → Bool} (hg : ∀ w a b, (g w a b).1 = some (eq a b)) (k : κ)
    (xs : List α) : ∀ (n : Nat) (w : W), ∃ w', findLoop g k (n : Int) xs w =
      .ok (match xs.findIdx? (fun x => eq x k) with
        | some i => ((n + i : Nat) : Int)
        | none => -1) w' := by
  induction xs with
  | nil => intro n w; exact ⟨w, rfl⟩
  | cons x xs ih =>
    intro n w
    have := hg w x k
    rcases e : g w x k with ⟨a, w1⟩
    rw [e] at this
    simp only at this
    subst this
    simp only [findLoop, e]
    cases h : eq x k with
    | true => exact ⟨w1, by simp [List.findIdx?_cons, h]⟩
    | false =>
      obtain ⟨w', e'⟩ := ih (n + 1) w1
      refine ⟨w', ?_⟩
      simp only
      rw [show ((n : Int) + 1) = ((n + 1 : Nat) : Int) by omega, e']
      simp only [List.findIdx?_cons, h]
      cases xs.findIdx? (fun x => eq x k) with
      | none => rfl
      | some i => simp; omega

theorem plainIndexOf_same {g : W → α → κ → Option Bool × W} {eq : α → κ → Bool} (hg : ∀ w a b, (g w a b).1 = some (eq a b)) (k : κ)
    (xs : List α) (w : W) : onto xs (findLoop g k 0 xs w) = SeqList.indexOf eq k xs := by
  obtain ⟨w', e⟩ := findLoop_same hg k xs 0 w
  rw [SeqList.indexOf, Cpp.bind_ok (Cpp.get_apply xs)]
  rw [Int.natCast_zero] at e
  rw [e]
  cases xs.findIdx? (fun x => eq x k) with
  | none => rfl
  | some i => simp [onto]

/-! ## keys -/

theorem dictIndex {f : W → κ → κ → Answer × W} {cmp : κ → κ → Option Ordering} (hf : Answers f cmp) (k : κ) :
    Same (reading (fun d : DictC κ ν => indexOf f k d.keys)) (DictC.onKeys (SortedSeq.indexOf cmp k)) := by
  refine Same.reading fun w s => ?_
  rw [DictC.onKeys, ← indexOf_same hf s.keys k w]
  cases indexOf f k s.keys w <;> rfl

theorem dictContains {f : W → κ → κ → Answer × W} {cmp : κ → κ → Option Ordering} (hf : Answers f cmp) (k : κ) :
    Same (Dict.contains f k : Cpp (W × DictC κ ν) Bool) (DictC.contains cmp k) := by
  intro w s
  have h := dictIndex (ν := ν) hf k w s
  rw [Dict.contains, DictC.contains, Cpp.bind_apply]
  have e : DictC.onKeys (SortedSeq.contains cmp k) s = (DictC.onKeys (SortedSeq.indexOf cmp k) >>= fun i => pure (decide (i ≠ -1))) s := by
    rw [Cpp.bind_apply, DictC.onKeys, DictC.onKeys, SortedSeq.contains, Cpp.bind_apply]
    cases SortedSeq.indexOf cmp k s.keys <;> rfl
  rw [e, Cpp.bind_apply, ← h]
  cases reading (fun d : DictC κ ν => indexOf f k d.keys) (w, s) <;> rfl

theorem dictAdd {f : W → κ → κ → Answer × W} {cmp : κ → κ → Option Ordering} (hf : Answers f cmp) (k : κ)
    {m : Int → Cpp (W × DictC κ ν) β} {q : Int → Cpp (DictC κ ν) β} (h : ∀ i, Same (m i) (q i)) :
    Same (do
      let index ← reading (fun d : DictC κ ν => placeOf f k d.keys)
      let index ← writing (DictC.onKeys (SortedSeq.insertRaw index k))
      m index) (do
      let index ← DictC.onKeys (SortedSeq.add cmp id k)
      q index) := by
  intro w s
  have e := add_same hf id k s.keys w
  rw [Cpp.bind_apply, Cpp.bind_apply, DictC.onKeys, ← e, reading]
  simp only [id]
  cases placeOf f k s.keys w with
  | err w' => rfl
  | fault => rfl
  | ok i w' =>
    simp only
    rw [Cpp.bind_apply, writing]
    simp only [DictC.onKeys]
    cases SortedSeq.insertRaw i k s.keys with
    | err ks => rfl
    | fault => rfl
    | ok j ks => exact h j w' _

theorem groupIndex {f : W → κ → κ → Answer × W} {cmp : κ → κ → Option Ordering} (hf : Answers f cmp) (k : κ) :
    Same (reading (fun d : GroupC κ ν => indexOf f k d.keys)) (GroupC.onKeys (SortedSeq.indexOf cmp k)) := by
  refine Same.reading fun w s => ?_
  rw [GroupC.onKeys, ← indexOf_same hf s.keys k w]
  cases indexOf f k s.keys w <;> rfl

theorem groupContains {f : W → κ → κ → Answer × W} {cmp : κ → κ → Option Ordering} (hf : Answers f cmp) (k : κ) :
    Same (Group.containsKey f k : Cpp (W × GroupC κ ν) Bool) (GroupC.containsKey cmp k) := by
  intro w s
  have h := groupIndex (ν := ν) hf k w s
  rw [Group.containsKey, GroupC.containsKey, Cpp.bind_apply]
  have e : GroupC.onKeys (SortedSeq.contains cmp k) s = (GroupC.onKeys (SortedSeq.indexOf cmp k) >>= fun i => pure (decide (i ≠ -1))) s := by
    rw [Cpp.bind_apply, GroupC.onKeys, GroupC.onKeys, SortedSeq.contains, Cpp.bind_apply]
    cases SortedSeq.indexOf cmp k s.keys <;> rfl
  rw [e, Cpp.bind_apply, ← h]
  cases reading (fun d : GroupC κ ν => indexOf f k d.keys) (w, s) <;> rfl

theorem groupAdd {f : W → κ → κ → Answer × W} {cmp : κ → κ → Option Ordering} (hf : Answers f cmp) (k : κ)
    {m : Int → Cpp (W × GroupC κ ν) β} {q : Int → Cpp (GroupC κ ν) β} (h : ∀ i, Same (m i) (q i)) :
    Same (do
      let index ← reading (fun d : GroupC κ ν => placeOf f k d.keys)
      let index ← writing (GroupC.onKeys (SortedSeq.insertRaw index k))
      m index) (do
      let index ← GroupC.onKeys (SortedSeq.add cmp id k)
      q index) := by
  intro w s
  have e := add_same hf id k s.keys w
  rw [Cpp.bind_apply, Cpp.bind_apply, GroupC.onKeys, ← e, reading]
  simp only [id]
  cases placeOf f k s.keys w with
  | err w' => rfl
  | fault => rfl
  | ok i w' =>
    simp only
    rw [Cpp.bind_apply, writing]
    simp only [GroupC.onKeys]
    cases SortedSeq.insertRaw i k s.keys with
    | err ks => rfl
    | fault => rfl
    | ok j ks => exact h j w' _

/-! ## the list of values of a key -/

theorem targetContains {g : W → ν → ν → Option Bool × W} {eq : ν → ν → Bool} (hg : ∀ w a b, (g w a b).1 = some (eq a b)) (a : Nat) (v : ν) :
    Same (do
      let vs ← writing (GroupC.onTarget a Cpp.get)
      let i ← reading (fun _ => findLoop g v 0 vs)
      return decide (i ≠ -1) : Cpp (W × GroupC κ ν) Bool) (GroupC.onTarget a (SeqList.contains eq v)) := by
  intro w s
  rw [Cpp.bind_apply, writing]
  rcases ha : s.heap[a]? with _ | _ | vs
  · simp [GroupC.onTarget, ha, strip]
  · simp [GroupC.onTarget, ha, strip]
  · rw [GroupC.onTarget_get ha]
    simp only
    have h := plainIndexOf_same hg v vs w
    rw [Cpp.bind_apply, reading]
    simp only
    have e2 : SeqList.contains eq v vs = .ok (decide (((match vs.findIdx? (fun x => eq x v) with
        | some i => (i : Int)
        | none => -1) : Int) ≠ -1)) vs := by
      rw [SeqList.contains, Cpp.bind_apply, SeqList.indexOf, Cpp.bind_ok (Cpp.get_apply vs)]
      cases vs.findIdx? (fun x => eq x v) <;> rfl
    obtain ⟨w', e⟩ := findLoop_same hg v vs 0 w
    rw [Int.natCast_zero] at e
    rw [e, GroupC.onTarget_ok ha e2, GroupC.set_same ha]
    cases vs.findIdx? (fun x => eq x v) <;> simp [strip]

theorem targetRemove {g : W → ν → ν → Option Bool × W} {eq : ν → ν → Bool} (hg : ∀ w a b, (g w a b).1 = some (eq a b)) (a : Nat) (v : ν)
    {m : Bool → Cpp (W × GroupC κ ν) β} {q : Bool → Cpp (GroupC κ ν) β} (h : ∀ b, Same (m b) (q b)) :
    Same (do
      let vs ← writing (GroupC.onTarget a Cpp.get)
      let i ← reading (fun _ => findLoop g v 0 vs)
      let b ← Group.removeFound a i vs.length
      m b) (do
      let b ← GroupC.onTarget a (SeqList.remove eq v)
      q b) := by
  intro w s
  rw [Cpp.bind_apply, writing]
  rcases ha : s.heap[a]? with _ | _ | vs
  · rw [Cpp.bind_apply]; simp [GroupC.onTarget, ha, strip]
  · rw [Cpp.bind_apply]; simp [GroupC.onTarget, ha, strip]
  · rw [GroupC.onTarget_get ha]
    simp only
    rw [Cpp.bind_apply, reading]
    simp only
    obtain ⟨w', e⟩ := findLoop_same hg v vs 0 w
    rw [Int.natCast_zero] at e
    rw [e, Cpp.bind_apply (GroupC.onTarget a (SeqList.remove eq v))]
    have e1 : SeqList.remove eq v vs = ((SeqList.indexOf eq v >>= fun i => (do
      let xs ← Cpp.get
      if i ≥ 0 ∧ i < xs.length then
        let _ ← SeqList.removeAt i
        return true
      else
        return false)) : Cpp (List ν) Bool) vs := rfl
    rcases hi : vs.findIdx? (fun x => eq x v) with _ | i
    · have e2 : SeqList.indexOf eq v vs = .ok (-1) vs := by
        rw [SeqList.indexOf, Cpp.bind_ok (Cpp.get_apply vs), hi]; rfl
      have e3 : SeqList.remove eq v vs = .ok false vs := by
        rw [e1, Cpp.bind_ok e2, Cpp.bind_ok (Cpp.get_apply vs), if_neg (by omega)]; rfl
      rw [GroupC.onTarget_ok ha e3, GroupC.set_same ha]
      exact h false w' s
    · have hlt : i < vs.length := by
        rw [List.findIdx?_eq_some_iff_getElem] at hi
        exact hi.1
      have e2 : SeqList.indexOf eq v vs = .ok (i : Int) vs := by
        rw [SeqList.indexOf, Cpp.bind_ok (Cpp.get_apply vs), hi]; rfl
      have e4 : SeqList.removeAt (i : Int) vs = .ok true (vs.take i ++ vs.drop (i + 1)) := by
        unfold SeqList.removeAt
        rw [Cpp.bind_ok (Cpp.get_apply vs), Cpp.bind_ok (Cpp.check_true ⟨by omega, by omega⟩ vs)]
        simp [Cpp.bind_apply]
      have e3 : SeqList.remove eq v vs = .ok true (vs.take i ++ vs.drop (i + 1)) := by
        rw [e1, Cpp.bind_ok e2, Cpp.bind_ok (Cpp.get_apply vs), if_pos (by omega), Cpp.bind_ok e4]; rfl
      rw [GroupC.onTarget_ok ha e3]
      simp only [Nat.zero_add]
      rw [Cpp.bind_apply, Group.removeFound, if_pos (by omega), writing]
      simp only
      rw [GroupC.onTarget_ok ha e4]
      exact h true w' _

end Vlpp.CmpEff
