import Verif.Lemmas.HeapList
import Verif.Lemmas.MoveWorld

/-! # Many lists on one heap -/
set_option autoImplicit false
namespace Vlpp
namespace ListWorld
open Heap
variable {α β κ A X Op Ret : Type}

/-- the blocks that are not those of list `i` -/
def others (w : ListWorld α) (i : Nat) : Nat → Option (Block α) :=
  fun a => if (w.lists i).buffer = some a then none else w.heap.block a

/-- The lists are those of `cs`, no two share a block, and every block belongs to a list. -/
structure Rel (w : ListWorld α) (cs : Nat → ListC α) : Prop where
  rel : ∀ i, ListH.Rel (others w i) (w.heap, w.lists i) (cs i)
  disjoint : ∀ i j a, i ≠ j → (w.lists i).buffer = some a → (w.lists j).buffer ≠ some a
  owned : ∀ a, w.heap.block a ≠ none → ∃ i, (w.lists i).buffer = some a

theorem Rel.empty : Rel (ListWorld.empty : ListWorld α) (fun _ => ListC.empty) where
  rel := fun _ => ⟨⟨rfl, fun a h => (by cases h), fun _ _ => rfl, fun a h => (by cases h), fun _ _ => rfl⟩, rfl, rfl⟩
  disjoint := fun i j a _ h => by cases h
  owned := fun a h => absurd rfl h

/-- list `i` and its block changed, the blocks of others did not -/
theorem Rel.update {w : ListWorld α} {cs : Nat → ListC α} (hw : Rel w cs) {i : Nat} {h : Heap α} {l : ListH} {c : ListC α}
    (hr : ListH.Rel (others w i) (h, l) c) :
    Rel (({ w with heap := h } : ListWorld α).put i l) (fun n => if n = i then c else cs n) := by
  have hl : ∀ n, (({ w with heap := h } : ListWorld α).put i l).lists n = if n = i then l else w.lists n := fun _ => rfl
  have hh : (({ w with heap := h } : ListWorld α).put i l).heap = h := rfl
  have hsep : ∀ n a, n ≠ i → (w.lists n).buffer = some a → l.buffer ≠ some a ∧ h.block a = w.heap.block a := by
    intro n a hn ha
    have hni : (w.lists i).buffer ≠ some a := hw.disjoint n i a hn ha
    have hlive : w.heap.block a ≠ none := by
      have := (hw.rel n).own.at'
      simp only [ha] at this
      rw [show w.heap.block a = some _ from this]; simp
    have hF : others w i a = w.heap.block a := by simp [others, hni]
    have h1 : l.buffer ≠ some a := fun hc => hlive (by rw [← hF]; exact hr.own.own a hc)
    exact ⟨h1, by rw [show h.block a = _ from hr.own.frame a h1, hF]⟩
  refine ⟨?_, ?_, ?_⟩
  · intro n
    by_cases hn : n = i
    · subst hn
      rw [hl, hh, if_pos rfl, if_pos rfl]
      refine ⟨⟨hr.own.at', hr.own.pos, ?_, ?_, hr.own.fresh⟩, hr.count, hr.capacity⟩
      · intro a ha
        have : l.buffer ≠ some a := ha
        simp [others, hl, hh, this]
      · intro a ha
        have : l.buffer = some a := ha
        simp [others, hl, this]
    · rw [hl, hh, if_neg hn, if_neg hn]
      have o := (hw.rel n).own
      refine ⟨⟨?_, o.pos, ?_, ?_, hr.own.fresh⟩, (hw.rel n).count, (hw.rel n).capacity⟩
      · have h1 := o.at'
        simp only at h1 ⊢
        cases hb : (w.lists n).buffer with
        | none => rw [hb] at h1; exact h1
        | some a =>
          rw [hb] at h1
          exact (hsep n a hn hb).2.trans h1
      · intro a ha
        have : (w.lists n).buffer ≠ some a := ha
        simp [others, hl, hh, hn, this]
      · intro a ha
        have : (w.lists n).buffer = some a := ha
        simp [others, hl, hn, this]
  · intro n m a hnm ha
    rw [hl] at ha ⊢
    by_cases hn : n = i
    · subst hn
      rw [if_pos rfl] at ha
      rw [if_neg (fun hc => hnm hc.symm)]
      exact fun hc => (hsep m a (fun hc => hnm hc.symm) hc).1 ha
    · rw [if_neg hn] at ha
      by_cases hm : m = i
      · rw [if_pos hm]; exact (hsep n a hn ha).1
      · rw [if_neg hm]; exact hw.disjoint n m a hnm ha
  · intro a ha
    rw [hh] at ha
    by_cases hb : l.buffer = some a
    · exact ⟨i, by rw [hl, if_pos rfl]; exact hb⟩
    · have : h.block a = others w i a := hr.own.frame a hb
      rw [this] at ha
      by_cases hi : (w.lists i).buffer = some a
      · simp [others, hi] at ha
      · simp only [others, if_neg hi] at ha
        obtain ⟨n, hn⟩ := hw.owned a ha
        refine ⟨n, ?_⟩
        have : n ≠ i := fun hc => hi (by rw [← hc]; exact hn)
        rw [hl, if_neg this]; exact hn

theorem destroy_ok {w : ListWorld α} {cs : Nat → ListC α} (hw : Rel w cs) {i : Nat} {c' : ListC α}
    (hd : ListC.destructor (cs i) = .ok () c') :
    ∃ h, on i ListH.destructor w = .ok () { w with heap := h } ∧
      destroy i w = .ok () (({ w with heap := h } : ListWorld α).put i ListH.empty) ∧
      Rel (({ w with heap := h } : ListWorld α).put i ListH.empty) (fun n => if n = i then ListC.empty else cs n) := by
  obtain ⟨h, e, o⟩ := ListH.destructor_ok (hw.rel i) hd
  have hput : (({ w with heap := h } : ListWorld α).put i (w.lists i)) = { w with heap := h } := by
    simp only [put]
    congr 1
    funext n
    by_cases hn : n = i <;> simp [hn]
  have e1 : on i ListH.destructor w = .ok () { w with heap := h } := by
    simp only [on, e, hput]
  refine ⟨h, e1, ?_, ?_⟩
  · unfold destroy
    rw [Cpp.bind_ok e1]
    rfl
  · exact hw.update (i := i) (l := ListH.empty) (c := ListC.empty) ⟨o, rfl, rfl⟩

/-- the members of `j` are moved to the storage `i` -/
def moved (w : ListWorld α) (i j : Nat) : ListWorld α :=
  { w with lists := fun n => if n = j then ListH.empty else if n = i then w.lists j else w.lists n }

theorem moveConstruct_eq (w : ListWorld α) (i j : Nat) : moveConstruct i j w = .ok () (moved w i j) := by
  have key : ∀ lists : Nat → ListH, lists = (moved w i j).lists →
      (.ok () ⟨w.heap, lists⟩ : Outcome (ListWorld α) Unit) = .ok () (moved w i j) := by
    rintro lists rfl; rfl
  refine key _ ?_
  funext n
  by_cases hij : i = j
  · subst hij
    by_cases hn : n = i <;> simp [moved, put, hn, ListH.empty]
  · have hji : ¬ j = i := fun h => hij h.symm
    by_cases hn : n = j
    · subst hn; simp [moved, put, ListH.empty]
    · by_cases hn' : n = i
      · subst hn'; simp [moved, put, hij, hji]
      · simp [moved, put, hn, hn']

theorem Rel.moved {w : ListWorld α} {cs : Nat → ListC α} (hw : Rel w cs) {i j : Nat} (hij : i ≠ j)
    (hi : w.lists i = ListH.empty) :
    Rel (w.moved i j) (fun n => if n = j then ListC.empty else if n = i then cs j else cs n) := by
  have hl : ∀ n, (w.moved i j).lists n = if n = j then ListH.empty else if n = i then w.lists j else w.lists n :=
    fun _ => rfl
  have hh : (w.moved i j).heap = w.heap := rfl
  refine ⟨?_, ?_, ?_⟩
  · intro n
    by_cases hn : n = j
    · subst hn
      rw [hl, hh, if_pos rfl, if_pos rfl]
      refine ⟨⟨rfl, fun a h => (by cases h), ?_, fun a h => (by cases h), (hw.rel n).own.fresh⟩, rfl, rfl⟩
      intro a _
      simp [others, hl, hh, ListH.empty]
    · have hsrc : ∃ m, (w.moved i j).lists n = w.lists m ∧
          (if n = j then ListC.empty else if n = i then cs j else cs n) = cs m := by
        by_cases hn' : n = i
        · exact ⟨j, by simp [hl, hn', hij], by simp [hn', hij]⟩
        · exact ⟨n, by simp [hl, hn, hn'], by simp [hn, hn']⟩
      obtain ⟨m, e1, e2⟩ := hsrc
      have : others (w.moved i j) n = others w m := by funext a; simp only [others, e1, hh]
      rw [this, e1, hh]
      exact (congrArg (ListH.Rel (others w m) (w.heap, w.lists m)) e2).mpr (hw.rel m)
  · intro n m a hnm ha hc
    rw [hl] at ha hc
    by_cases hn : n = j
    · rw [if_pos hn] at ha; cases ha
    · by_cases hm : m = j
      · rw [if_pos hm] at hc; cases hc
      · rw [if_neg hn] at ha
        rw [if_neg hm] at hc
        by_cases hn' : n = i
        · rw [if_pos hn'] at ha
          rw [if_neg (fun h => hnm (hn'.trans h.symm))] at hc
          exact hw.disjoint j m a (fun h => hm h.symm) ha hc
        · rw [if_neg hn'] at ha
          by_cases hm' : m = i
          · rw [if_pos hm'] at hc
            exact hw.disjoint n j a hn ha hc
          · rw [if_neg hm'] at hc
            exact hw.disjoint n m a hnm ha hc
  · intro a ha
    obtain ⟨n, hn⟩ := hw.owned a ha
    by_cases hj : n = j
    · exact ⟨i, by rw [hl, if_neg hij, if_pos rfl, ← hj]; exact hn⟩
    · refine ⟨n, ?_⟩
      have : n ≠ i := by
        rintro rfl
        rw [hi] at hn; cases hn
      rw [hl, if_neg hj, if_neg this]; exact hn

/-- The lists have the contents `xs`, in the sense of `R`. -/
def RepsBy (R : ListC α → X → Prop) (w : ListWorld α) (xs : Nat → X) : Prop := ∃ cs, Rel w cs ∧ ∀ n, R (cs n) (xs n)

/-- The lists contain the sequences `xs`. -/
abbrev Reps (w : ListWorld α) (xs : Nat → List α) : Prop := RepsBy ListC.Repr w xs

/-- what `R` has to satisfy for moves and destruction -/
structure Holding (R : ListC α → X → Prop) (e : X) : Prop where
  empty : R ListC.empty e
  destroy : ∀ c x, R c x → ∃ c', ListC.destructor c = .ok () c'

theorem holding_list : Holding (ListC.Repr (α := α)) [] := ⟨ListC.Repr.empty, fun _ _ h => ⟨_, ListC.destructor_ok h⟩⟩

/-- Storage `n` holds no memory. -/
def Fresh (w : ListWorld α) (n : Nat) : Prop := w.lists n = ListH.empty

theorem Reps.empty : Reps (ListWorld.empty : ListWorld α) (fun _ => []) :=
  ⟨_, Rel.empty, fun _ => ListC.Repr.empty⟩

/-- A list and its contents. -/
def RelBy (R : ListC α → X → Prop) (F : Nat → Option (Block α)) (s : Heap α × ListH) (x : X) : Prop :=
  ∃ c, ListH.Rel F s c ∧ R c x

/-- A list and the sequence it contains. -/
abbrev ListRel (F : Nat → Option (Block α)) (s : Heap α × ListH) (x : List α) : Prop := RelBy ListC.Repr F s x

section
variable {R : ListC α → X → Prop} {e : X}

/-- what a call on list `i` preserves -/
def AtBy (R : ListC α → X → Prop) (w0 : ListWorld α) (i : Nat) (xs : Nat → X) (w : ListWorld α) (x : X) : Prop :=
  RepsBy R w (upd xs i x) ∧ ∀ n, n ≠ i → w.lists n = w0.lists n

theorem on_refines {m : Cpp (Heap α × ListH) β} {m' : Cpp X β} (h : ∀ F, Cpp.Refines (RelBy R F) m m')
    (w0 : ListWorld α) (i : Nat) (xs : Nat → X) : Cpp.Refines (AtBy R w0 i xs) (on i m) m' := by
  rintro w x ⟨⟨cs, hw, hp⟩, hl⟩
  have hx : R (cs i) x := by simpa using hp i
  have := h (others w i) (w.heap, w.lists i) x ⟨_, hw.rel i, hx⟩
  have key : ∀ (s' : Heap α × ListH) (x' : X), RelBy R (others w i) s' x' →
      AtBy R w0 i xs (({ w with heap := s'.1 } : ListWorld α).put i s'.2) x' := by
    rintro ⟨h', l'⟩ x' ⟨c', hr, hp'⟩
    refine ⟨⟨_, hw.update hr, ?_⟩, ?_⟩
    · intro n
      by_cases hn : n = i
      · subst hn; simpa using hp'
      · have := hp n
        rw [upd_ne hn] at this ⊢
        simpa [hn] using this
    · intro n hn
      show (if n = i then l' else w.lists n) = _
      rw [if_neg hn]; exact hl n hn
  unfold on
  generalize m (w.heap, w.lists i) = o at this
  generalize m' x = o' at this
  cases this with
  | ok h => exact .ok (key _ _ h)
  | err h => exact .err (key _ _ h)
  | fault => exact .fault

theorem AtBy.start {w : ListWorld α} {xs : Nat → X} (h : RepsBy R w xs) (i : Nat) : AtBy R w i xs w (xs i) :=
  ⟨by rw [upd_eq]; exact h, fun _ _ => rfl⟩

theorem dtor_ok (hR : Holding R e) {w : ListWorld α} {xs : Nat → X} (h : RepsBy R w xs) (i : Nat) :
    ∃ hp, on i ListH.destructor w = .ok () { w with heap := hp } ∧
      destroy i w = .ok () (({ w with heap := hp } : ListWorld α).put i ListH.empty) ∧
      RepsBy R (({ w with heap := hp } : ListWorld α).put i ListH.empty) (upd xs i e) := by
  obtain ⟨cs, hw, hp⟩ := h
  obtain ⟨_, hd⟩ := hR.destroy _ _ (hp i)
  obtain ⟨h, e1, e2, hr⟩ := destroy_ok hw hd
  refine ⟨h, e1, e2, _, hr, ?_⟩
  intro n
  by_cases hn : n = i
  · subst hn; simpa using hR.empty
  · rw [upd_ne hn]; simpa [hn] using hp n

theorem renew_ok (hR : Holding R e) {w : ListWorld α} {xs : Nat → X} (h : RepsBy R w xs) (i : Nat) :
    ∃ w', destroy i w = .ok () w' ∧ RepsBy R w' (upd xs i e) ∧ Fresh w' i ∧ ∀ n, n ≠ i → w'.lists n = w.lists n := by
  obtain ⟨hp, _, e, hr⟩ := dtor_ok hR h i
  exact ⟨_, e, hr, by simp [Fresh, put], fun n hn => by simp [put, hn]⟩

theorem moveConstruct_ok (hR : Holding R e) {w : ListWorld α} {xs : Nat → X} (h : RepsBy R w xs) {i j : Nat} (hij : i ≠ j) (hi : Fresh w i) :
    ∃ w', moveConstruct i j w = .ok () w' ∧ RepsBy R w' (movedTo e xs i j) ∧ Fresh w' j ∧
      ∀ n, n ≠ i → n ≠ j → w'.lists n = w.lists n := by
  obtain ⟨cs, hw, hp⟩ := h
  refine ⟨_, moveConstruct_eq w i j, ⟨_, hw.moved hij hi, ?_⟩, by simp [Fresh, moved], fun n h1 h2 => by simp [moved, h1, h2]⟩
  intro n
  unfold movedTo
  by_cases hn : n = j
  · simpa [hn] using hR.empty
  · by_cases hn' : n = i
    · simpa [hn', hij] using hp j
    · simpa [hn, hn'] using hp n

theorem moveAssign_ok (hR : Holding R e) {w : ListWorld α} {xs : Nat → X} (h : RepsBy R w xs) (i j : Nat) :
    ∃ w', moveAssign i j w = .ok () w' ∧ RepsBy R w' (movedTo e xs i j) ∧ Fresh w' j ∧
      ∀ n, n ≠ i → n ≠ j → w'.lists n = w.lists n := by
  obtain ⟨hp, e1, e2, hr⟩ := dtor_ok hR h i
  by_cases hij : i = j
  · subst hij
    have em : moved ({ w with heap := hp } : ListWorld α) i i = ({ w with heap := hp } : ListWorld α).put i ListH.empty := by
      simp only [moved, put]
      congr 1
      funext n
      by_cases hn : n = i <;> simp [hn]
    have ex : movedTo e xs i i = upd xs i e := by
      funext n
      by_cases hn : n = i <;> simp [movedTo, upd, hn]
    refine ⟨_, by unfold moveAssign; rw [Cpp.bind_ok e1, moveConstruct_eq], ?_, ?_, ?_⟩
    · rw [em, ex]; exact hr
    · simp [Fresh, moved]
    · intro n hn _; simp [moved, hn]
  · have em : moved ({ w with heap := hp } : ListWorld α) i j =
        moved (({ w with heap := hp } : ListWorld α).put i ListH.empty) i j := by
      simp only [moved, put]
      congr 1
      funext n
      by_cases hn : n = j
      · simp [hn]
      · by_cases hn' : n = i
        · simp [hn', hij, Ne.symm hij]
        · simp [hn, hn']
    obtain ⟨w', e, hr', hf, hl⟩ := moveConstruct_ok hR hr hij (by simp [Fresh, put])
    rw [moveConstruct_eq] at e
    simp only [Outcome.ok.injEq, true_and] at e
    subst e
    refine ⟨_, by unfold moveAssign; rw [Cpp.bind_ok e1, moveConstruct_eq], ?_, ?_, ?_⟩
    · rw [em]
      have ex : movedTo e (upd xs i e) i j = movedTo e xs i j := by
        funext n
        unfold movedTo upd
        by_cases h1 : n = j
        · simp [h1]
        · by_cases h2 : n = i
          · simp [h2, Ne.symm hij]
          · simp [h1, h2]
      rw [← ex]; exact hr'
    · simp [Fresh, moved]
    · intro n h1 h2; simp [moved, h1, h2]

/-- No memory is left when all variables are fresh. -/
theorem RepsBy.clean {w : ListWorld α} {xs : Nat → X} (h : RepsBy R w xs) (hf : ∀ n, Fresh w n) (a : Nat) :
    w.heap.block a = none := by
  obtain ⟨cs, hw, _⟩ := h
  refine Classical.byContradiction fun hne => ?_
  obtain ⟨i, hi⟩ := hw.owned a hne
  rw [hf i] at hi
  cases hi

/-- Programs over many lists. `P` is an invariant of the sequences. -/
theorem moveSim {step : Op → Cpp (Heap α × ListH) Ret} {error : Ret} {P : X → Prop}
    {Step : X → Op → X → Ret → Prop} {Valid : X → Op → Prop} (hR : Holding R e) (hempty : P e)
    (hstep : ∀ F s x op, RelBy R F s x → P x → Valid x op →
      (∃ s' x' r, step op s = .ok r s' ∧ RelBy R F s' x' ∧ P x' ∧ Step x op x' r) ∨
      (∃ s' x', step op s = .err s' ∧ RelBy R F s' x' ∧ P x' ∧ Step x op x' error)) :
    MoveSim (movable step) (fun w xs => RepsBy R w xs ∧ ∀ n, P (xs n)) Fresh Step Valid e error := by
  refine ⟨?_, ?_, ?_, ?_⟩
  · rintro w xs i op ⟨⟨cs, hw, hp⟩, hP⟩ hv
    have key : ∀ (s' : Heap α × ListH) (x' : X), RelBy R (others w i) s' x' → P x' →
        (RepsBy R (({ w with heap := s'.1 } : ListWorld α).put i s'.2) (upd xs i x') ∧ ∀ n, P (upd xs i x' n)) ∧
        ∀ n, n ≠ i → Fresh w n → Fresh (({ w with heap := s'.1 } : ListWorld α).put i s'.2) n := by
      rintro ⟨h', l'⟩ x' ⟨c', hr, hp'⟩ hP'
      refine ⟨⟨⟨_, hw.update hr, ?_⟩, ?_⟩, ?_⟩
      · intro n
        by_cases hn : n = i
        · subst hn; simpa using hp'
        · rw [upd_ne hn]; simpa [hn] using hp n
      · intro n
        by_cases hn : n = i
        · subst hn; simpa using hP'
        · rw [upd_ne hn]; exact hP n
      · intro n hn hf
        show (if n = i then l' else w.lists n) = _
        rw [if_neg hn]; exact hf
    rcases hstep _ _ _ op ⟨_, hw.rel i, hp i⟩ (hP i) hv with ⟨s', x', r, e, hr, hP', hs⟩ | ⟨s', x', e, hr, hP', hs⟩
    · obtain ⟨a1, a2⟩ := key s' x' hr hP'
      exact .inl ⟨_, x', r, by simp only [movable, on, e], a1, hs, a2⟩
    · obtain ⟨a1, a2⟩ := key s' x' hr hP'
      exact .inr ⟨_, x', by simp only [movable, on, e], a1, hs, a2⟩
  · rintro w xs i j ⟨hr, hP⟩
    obtain ⟨w', e, hr', _, hl⟩ := moveAssign_ok hR hr i j
    refine ⟨w', e, ⟨hr', ?_⟩, fun n h1 h2 hf => (hl n h1 h2).trans hf⟩
    intro n
    unfold movedTo
    split
    · exact hempty
    · split
      · exact hP j
      · exact hP n
  · rintro w xs i j hij ⟨hr, hP⟩ hi
    obtain ⟨w', e, hr', _, hl⟩ := moveConstruct_ok hR hr hij hi
    refine ⟨w', e, ⟨hr', ?_⟩, fun n h1 h2 hf => (hl n h1 h2).trans hf⟩
    intro n
    unfold movedTo
    split
    · exact hempty
    · split
      · exact hP j
      · exact hP n
  · rintro w xs i ⟨hr, hP⟩
    obtain ⟨w', e, hr', hf, hl⟩ := renew_ok hR hr i
    refine ⟨w', e, ⟨hr', ?_⟩, hf, ?_⟩
    · intro n
      by_cases hn : n = i
      · subst hn; simpa using hempty
      · rw [upd_ne hn]; exact hP n
    · intro n h
      by_cases hn : n = i
      · subst hn; exact hf
      · exact (hl n hn).trans h

end

/-- what a call on list `i` preserves -/
abbrev At (w0 : ListWorld α) (i : Nat) (xs : Nat → List α) (w : ListWorld α) (x : List α) : Prop := AtBy ListC.Repr w0 i xs w x

end ListWorld
end Vlpp
