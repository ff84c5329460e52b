import Verif.Model.HeapGroupEnum
import Verif.Lemmas.HeapEnum

/-! # Enumerators of groups that change -/
set_option autoImplicit false
namespace Vlpp
open EnumClass

/-- If `P` holds before, then `Q` holds when the computation ends and `E` when it raises an error. -/
def Cpp.Triple {σ β : Type} (P : σ → Prop) (m : Cpp σ β) (Q : β → σ → Prop) (E : σ → Prop) : Prop :=
  ∀ w, P w → match m w with
    | .ok x w' => Q x w'
    | .err w' => E w'
    | .fault => True

namespace Cpp.Triple
variable {σ β γ : Type} {P : σ → Prop} {E : σ → Prop}

theorem bind {m : Cpp σ β} {f : β → Cpp σ γ} {Q : β → σ → Prop} {R : γ → σ → Prop} (h1 : Triple P m Q E)
    (h2 : ∀ x, Triple (Q x) (f x) R E) : Triple P (m >>= f) R E := by
  intro w hw
  have a := h1 w hw
  rw [Cpp.bind_apply]
  cases e : m w with
  | ok x w1 => rw [e] at a; exact h2 x w1 a
  | err w1 => rw [e] at a; exact a
  | fault => trivial

theorem pure {Q : β → σ → Prop} (v : β) (h : ∀ w, P w → Q v w) : Triple P (Pure.pure v) Q E := fun w hw => h w hw

theorem weaken {m : Cpp σ β} {P' : σ → Prop} {Q : β → σ → Prop} {R : β → σ → Prop} (h : Triple P m Q E) (hp : ∀ w, P' w → P w)
    (hq : ∀ v w, Q v w → R v w) : Triple P' m R E := by
  intro w hw
  have a := h w (hp w hw)
  cases e : m w with
  | ok x w1 => rw [e] at a; exact hq _ _ a
  | err w1 => rw [e] at a; exact a
  | fault => trivial

theorem ok {m : Cpp σ β} {Q : β → σ → Prop} (h : Triple P m Q E) {w w' : σ} {v : β} (hw : P w) (e : m w = .ok v w') : Q v w' := by
  have a := h w hw
  rw [e] at a
  exact a

theorem err {m : Cpp σ β} {Q : β → σ → Prop} (h : Triple P m Q E) {w w' : σ} (hw : P w) (e : m w = .err w') : E w' := by
  have a := h w hw
  rw [e] at a
  exact a

end Cpp.Triple

namespace GroupWorld
variable {κ ν β : Type}
open ListWorld (Reps Fresh)
open Cpp (Triple)

theorem valueAt_ok {w : GroupWorld κ ν} {ps : Nat → List Nat} (h : Reps w.values ps) {i k p : Nat} (hk : (ps i)[k]? = some p) :
    valueAt i (k : Int) w = .ok p w := by
  obtain ⟨cv, rv, pv⟩ := h
  obtain ⟨hlt, hp⟩ := List.getElem?_eq_some_iff.1 hk
  have : ListH.reading (ListC.get (k : Int)) (w.values.heap, w.values.lists i) = .ok p (w.values.heap, w.values.lists i) := by
    unfold ListH.reading
    rw [(rv.rel i).view]
    simp only [ListC.get_ok (pv i) k hlt, hp]
  exact onValues_same (ListWorld.on_ok this)

theorem valueAt_out {w : GroupWorld κ ν} {ps : Nat → List Nat} (h : Reps w.values ps) {i : Nat} {k : Int}
    (hk : ¬ (0 ≤ k ∧ k < (ps i).length)) : valueAt i k w = .err w := by
  obtain ⟨cv, rv, pv⟩ := h
  have hc : (cv i).count = (ps i).length := (pv i).count
  have : ListH.reading (ListC.get k) (w.values.heap, w.values.lists i) = .err (w.values.heap, w.values.lists i) := by
    unfold ListH.reading
    rw [(rv.rel i).view]
    have : ListC.get k (cv i) = .err (cv i) := by
      unfold ListC.get
      rw [Cpp.bind_ok (Cpp.get_apply _), Cpp.bind_err (Cpp.check_false (by omega) _)]
    simp only [this]
  unfold valueAt onValues
  rw [ListWorld.on_err this]

/-! ### other groups keep their value lists -/

/-- value list `p` is `L` -/
def Kept (p : Nat) (L : ListH) (w : GroupWorld κ ν) : Prop := w.targets.lists p = L

/-- value list `p` is `L` and is not reachable from group `j` -/
structure Apart (j p : Nat) (L : ListH) (w : GroupWorld κ ν) : Prop where
  kept : Kept p L w
  lt : p < w.next
  avoid : ∀ index q w', valueAt j index w = .ok q w' → q ≠ p

section
variable {j p : Nat} {L : ListH}

theorem valueAt_congr {w w' : GroupWorld κ ν} (h : w'.values = w.values) {i : Nat} {k : Int} {q : Nat} {w1 : GroupWorld κ ν}
    (e : valueAt i k w' = .ok q w1) : ∃ w2, valueAt i k w = .ok q w2 := by
  unfold valueAt onValues at *
  rw [h] at e
  cases ho : ListWorld.on i (ListH.reading (ListC.get k)) w.values with
  | ok v ks => rw [ho] at e; cases e; exact ⟨_, rfl⟩
  | err ks => rw [ho] at e; cases e
  | fault => rw [ho] at e; cases e

theorem Apart.of {w w' : GroupWorld κ ν} (h : Apart j p L w) (h1 : w'.targets.lists p = w.targets.lists p) (h2 : w'.values = w.values)
    (h3 : w.next ≤ w'.next) : Apart j p L w' :=
  ⟨h1.trans h.kept, Nat.lt_of_lt_of_le h.lt h3, fun index q w1 e => by
    obtain ⟨w2, e2⟩ := valueAt_congr h2 e
    exact h.avoid index q w2 e2⟩

theorem keys_apart (m : Cpp (ListWorld κ) β) : Triple (Apart j p L) (onKeys m : Cpp (GroupWorld κ ν) β) (fun _ => Apart j p L) (Kept p L) := by
  intro w hw
  unfold onKeys
  cases e : m w.keys with
  | ok v ks => exact hw.of rfl rfl (Nat.le_refl _)
  | err ks => exact hw.kept
  | fault => trivial

theorem keys_kept (m : Cpp (ListWorld κ) β) : Triple (Kept p L) (onKeys m : Cpp (GroupWorld κ ν) β) (fun _ => Kept p L) (Kept p L) := by
  intro w hw
  unfold onKeys
  cases e : m w.keys with
  | ok v ks => exact hw
  | err ks => exact hw
  | fault => trivial

theorem values_kept (m : Cpp (ListWorld Nat) β) : Triple (Kept p L) (onValues m : Cpp (GroupWorld κ ν) β) (fun _ => Kept p L) (Kept p L) := by
  intro w hw
  unfold onValues
  cases e : m w.values with
  | ok v ks => exact hw
  | err ks => exact hw
  | fault => trivial

theorem valueAt_apart (k : Int) :
    Triple (Apart j p L) (valueAt j k : Cpp (GroupWorld κ ν) Nat) (fun q w => Apart j p L w ∧ q ≠ p) (Kept p L) := by
  intro w hw
  have hav := hw.avoid k
  unfold valueAt onValues at *
  cases e : ListWorld.on j (ListH.reading (ListC.get k)) w.values with
  | ok v ks =>
    rw [e] at hav
    cases reading_same e
    exact ⟨hw, hav _ _ rfl⟩
  | err ks => exact hw.kept
  | fault => trivial

theorem newTarget_apart :
    Triple (Apart j p L) (newTarget : Cpp (GroupWorld κ ν) Nat) (fun q w => Apart j p L w ∧ q ≠ p) (Kept p L) := by
  intro w hw
  have := hw.lt
  exact ⟨hw.of (by simp [ListWorld.put, Nat.ne_of_lt this]) rfl (Nat.le_succ _), Nat.ne_of_gt this⟩

theorem target_lists {q : Nat} (hq : p ≠ q) (m : Cpp (Heap ν × ListH) β) (w : GroupWorld κ ν) :
    match onTarget q m w with
    | .ok _ w' => w'.targets.lists p = w.targets.lists p ∧ w'.values = w.values ∧ w'.next = w.next
    | .err w' => w'.targets.lists p = w.targets.lists p
    | .fault => True := by
  unfold onTarget
  by_cases hl : w.live q
  · simp only [if_pos hl]
    have := DictWorld.on_keeps hq m w.targets
    unfold DictWorld.ListKeeps at this
    cases e : ListWorld.on q m w.targets with
    | ok v ts => rw [e] at this; exact ⟨this, rfl, rfl⟩
    | err ts => rw [e] at this; exact this
    | fault => trivial
  · simp only [if_neg hl]

theorem target_apart {q : Nat} (m : Cpp (Heap ν × ListH) β) :
    Triple (fun w => Apart j p L w ∧ q ≠ p) (onTarget q m : Cpp (GroupWorld κ ν) β) (fun _ w => Apart j p L w ∧ q ≠ p) (Kept p L) := by
  rintro w ⟨hw, hq⟩
  have := target_lists (Ne.symm hq) m w
  cases e : onTarget q m w with
  | ok v w' => rw [e] at this; exact ⟨hw.of this.1 this.2.1 (Nat.le_of_eq this.2.2.symm), hq⟩
  | err w' => rw [e] at this; exact this.trans hw.kept
  | fault => trivial

theorem target_kept {q : Nat} (hq : q ≠ p) (m : Cpp (Heap ν × ListH) β) :
    Triple (Kept p L) (onTarget q m : Cpp (GroupWorld κ ν) β) (fun _ => Kept p L) (Kept p L) := by
  intro w hw
  have := target_lists (Ne.symm hq) m w
  cases e : onTarget q m w with
  | ok v w' => rw [e] at this; exact this.1.trans hw
  | err w' => rw [e] at this; exact this.trans hw
  | fault => trivial

theorem delete_lists {q : Nat} (hq : p ≠ q) (w : GroupWorld κ ν) :
    match deleteTarget q w with
    | .ok _ w' => w'.targets.lists p = w.targets.lists p ∧ w'.values = w.values ∧ w'.next = w.next
    | .err w' => w'.targets.lists p = w.targets.lists p
    | .fault => True := by
  unfold deleteTarget
  by_cases hl : w.live q
  · simp only [if_pos hl]
    have := DictWorld.destroy_keeps hq w.targets
    unfold DictWorld.ListKeeps at this
    cases e : ListWorld.destroy q w.targets with
    | ok v ts => rw [e] at this; exact ⟨this, rfl, rfl⟩
    | err ts => rw [e] at this; exact this
    | fault => trivial
  · simp only [if_neg hl]

theorem delete_apart {q : Nat} :
    Triple (fun w => Apart j p L w ∧ q ≠ p) (deleteTarget q : Cpp (GroupWorld κ ν) Unit) (fun _ => Apart j p L) (Kept p L) := by
  rintro w ⟨hw, hq⟩
  have := delete_lists (Ne.symm hq) w
  cases e : deleteTarget q w with
  | ok v w' => rw [e] at this; exact hw.of this.1 this.2.1 (Nat.le_of_eq this.2.2.symm)
  | err w' => rw [e] at this; exact this.trans hw.kept
  | fault => trivial

theorem delete_kept {q : Nat} (hq : q ≠ p) :
    Triple (Kept p L) (deleteTarget q : Cpp (GroupWorld κ ν) Unit) (fun _ => Kept p L) (Kept p L) := by
  intro w hw
  have := delete_lists (Ne.symm hq) w
  cases e : deleteTarget q w with
  | ok v w' => rw [e] at this; exact this.1.trans hw
  | err w' => rw [e] at this; exact this.trans hw
  | fault => trivial

/-- keep a fact that does not depend on the state -/
theorem with_fact {m : Cpp (GroupWorld κ ν) β} {P : GroupWorld κ ν → Prop} {Q : β → GroupWorld κ ν → Prop} {E : GroupWorld κ ν → Prop}
    {f : Prop} (h : f → Triple P m Q E) : Triple (fun w => P w ∧ f) m Q E := fun w hw => h hw.2 w hw.1

theorem deleteLoop_apart (fuel n : Nat) :
    Triple (Apart j p L) (deleteLoop j n fuel : Cpp (GroupWorld κ ν) Unit) (fun _ => Apart j p L) (Kept p L) := by
  induction fuel generalizing n with
  | zero => exact .pure _ fun _ h => h
  | succ fuel ih => exact .bind (valueAt_apart _) fun q => .bind delete_apart fun _ => ih _

theorem clear_kept : Triple (Apart j p L) (clear j : Cpp (GroupWorld κ ν) Bool) (fun _ => Kept p L) (Kept p L) := by
  refine .bind (Q := fun _ => Apart j p L) ?_ fun n => .bind (deleteLoop_apart _ _) fun _ =>
    .bind ((keys_apart _).weaken (fun _ h => h) fun _ _ h => h.kept) fun _ => .bind (values_kept _) fun _ => .pure _ fun _ h => h
  intro w hw
  unfold onValues
  rw [ListWorld.count_ok]
  exact hw

variable (mk : Option κ → Option κ) (mv : Option ν → Option ν) (cmp : κ → κ → Option Ordering) (eq : ν → ν → Bool)

theorem call_kept (op : Spec.GroupOp κ ν) : Triple (Apart j p L) (call mk mv cmp eq j op) (fun _ => Kept p L) (Kept p L) := by
  have drop : ∀ {γ : Type} {m : Cpp (GroupWorld κ ν) γ} {Q : γ → GroupWorld κ ν → Prop} {q : Nat},
      (q ≠ p → Triple (Kept p L) m Q (Kept p L)) → Triple (fun w => Apart j p L w ∧ q ≠ p) m Q (Kept p L) :=
    fun h => with_fact fun hq => (h hq).weaken (fun _ h => h.kept) fun _ _ h => h
  cases op with
  | add k v =>
    refine .bind (Q := fun _ => Kept p L) (.bind (keys_apart _) fun index => ?_) fun _ => .pure _ fun _ h => h
    split
    · exact .bind newTarget_apart fun q => drop fun hq => .bind (keys_kept _) fun _ => .bind (values_kept _) fun _ =>
        .bind (target_kept hq _) fun _ => .pure _ fun _ h => h
    · exact .bind (valueAt_apart _) fun q => drop fun hq => .bind (target_kept hq _) fun _ => .pure _ fun _ h => h
  | removeKey k =>
    refine .bind (Q := fun _ => Kept p L) (.bind (keys_apart _) fun index => ?_) fun _ => .pure _ fun _ h => h
    split
    · exact .bind (keys_apart _) fun _ => .bind (valueAt_apart _) fun q => drop fun hq => .bind (values_kept _) fun _ =>
        .bind (delete_kept hq) fun _ => .pure _ fun _ h => h
    · exact .pure _ fun _ h => h.kept
  | remove k v =>
    refine .bind (Q := fun _ => Kept p L) (.bind (keys_apart _) fun index => ?_) fun _ => .pure _ fun _ h => h
    split
    · refine .bind (valueAt_apart _) fun q => drop fun hq => .bind (target_kept hq _) fun _ => .bind (target_kept hq _) fun n => ?_
      split
      · exact .bind (keys_kept _) fun _ => .bind (values_kept _) fun _ => .bind (delete_kept hq) fun _ => .pure _ fun _ h => h
      · exact .pure _ fun _ h => h
    · exact .pure _ fun _ h => h.kept
  | clear => exact .bind clear_kept fun _ => .pure _ fun _ h => h
  | get k =>
    exact .bind (.bind (keys_apart _) fun _ => .bind (valueAt_apart _) fun q => drop fun hq => target_kept hq _) fun _ => .pure _ fun _ h => h
  | containsKey k => exact .bind (keys_apart _) fun _ => .pure _ fun _ h => h.kept
  | contains k v =>
    refine .bind (Q := fun _ => Kept p L) (.bind (keys_apart _) fun index => ?_) fun _ => .pure _ fun _ h => h
    split
    · exact .bind (valueAt_apart _) fun q => drop fun hq => target_kept hq _
    · exact .pure _ fun _ h => h.kept

/-! ### calls that only read -/

theorem reading_err {α : Type} {m : Cpp (ListC α) β} {w : ListWorld α} {w' : ListWorld α} {i : Nat}
    (e : ListWorld.on i (ListH.reading m) w = .err w') : w' = w := by
  unfold ListWorld.on ListH.reading at e
  split at e
  · cases e
  · next s h =>
    cases e
    split at h
    · cases h
    · split at h
      · cases h
      · cases h; exact ListWorld.put_self w i
      · cases h
  · cases e

theorem readKeys_same (w0 : GroupWorld κ ν) (i : Nat) (m : Cpp (ListC κ) β) :
    Triple (· = w0) (onKeys (ListWorld.on i (ListH.reading m)) : Cpp (GroupWorld κ ν) β) (fun _ w => w = w0) (· = w0) := by
  rintro w rfl
  unfold onKeys
  cases e : ListWorld.on i (ListH.reading m) w.keys with
  | ok v ks => cases reading_same e; rfl
  | err ks => cases reading_err e; rfl
  | fault => trivial

theorem readValues_same (w0 : GroupWorld κ ν) (i : Nat) (m : Cpp (ListC Nat) β) :
    Triple (· = w0) (onValues (ListWorld.on i (ListH.reading m)) : Cpp (GroupWorld κ ν) β) (fun _ w => w = w0) (· = w0) := by
  rintro w rfl
  unfold onValues
  cases e : ListWorld.on i (ListH.reading m) w.values with
  | ok v ks => cases reading_same e; rfl
  | err ks => cases reading_err e; rfl
  | fault => trivial

theorem readTarget_same (w0 : GroupWorld κ ν) (q : Nat) (m : Cpp (ListC ν) β) :
    Triple (· = w0) (onTarget q (ListH.reading m) : Cpp (GroupWorld κ ν) β) (fun _ w => w = w0) (· = w0) := by
  rintro w rfl
  unfold onTarget
  by_cases hl : w.live q
  · simp only [if_pos hl]
    cases e : ListWorld.on q (ListH.reading m) w.targets with
    | ok v ks => cases reading_same e; rfl
    | err ks => cases reading_err e; rfl
    | fault => trivial
  · simp only [if_neg hl]

theorem call_same (w0 : GroupWorld κ ν) (op : Spec.GroupOp κ ν) (h : op.Modifies = false) :
    Triple (· = w0) (call mk mv cmp eq j op) (fun _ w => w = w0) (· = w0) := by
  cases op with
  | get k =>
    exact .bind (.bind (readKeys_same _ _ _) fun _ => .bind (readValues_same _ _ _) fun q => readTarget_same _ _ _) fun _ => .pure _ fun _ h => h
  | containsKey k => exact .bind (readKeys_same _ _ _) fun _ => .pure _ fun _ h => h
  | contains k v =>
    refine .bind (Q := fun _ w => w = w0) (.bind (readKeys_same _ _ _) fun index => ?_) fun _ => .pure _ fun _ h => h
    split
    · exact .bind (readValues_same _ _ _) fun q => readTarget_same _ _ _
    · exact .pure _ fun _ h => h
  | add | removeKey | remove | clear => cases h

end

/-! ### a step that does not change group `n` -/

/-- group `n` and its value lists are as before -/
structure Stays (n : Nat) (ps : List Nat) (w w' : GroupWorld κ ν) : Prop where
  keys : w'.keys.lists n = w.keys.lists n
  values : ∃ ps' : Nat → List Nat, Reps w'.values ps' ∧ ps' n = ps
  targets : ∀ p ∈ ps, w'.targets.lists p = w.targets.lists p

section
variable (mk : Option κ → Option κ) (mv : Option ν → Option ν) {cmp : κ → κ → Option Ordering} (eq : ν → ν → Bool)
  {ord : κ → κ → Ordering} [Std.TransCmp ord]

omit [Std.TransCmp ord] in
theorem apart_of {w : GroupWorld κ ν} {ms : Nat → κ → List ν} {ks : Nat → List κ}
    {ps : Nat → List Nat} {h : List (Option (List ν))} (h2 : Reps w.values ps) (h3 : Targets w h) (h4 : Groups ord ms ks ps h)
    {n i p : Nat} (hni : n ≠ i) (hp : p ∈ ps n) : Apart i p (w.targets.lists p) w := by
  refine ⟨rfl, ?_, ?_⟩
  · rw [h3.next]
    have := h4.live hp
    refine Classical.byContradiction fun hc => this ?_
    simp [liveAt, List.getElem?_eq_none (show h.length ≤ p by omega)]
  · intro index q w' e hq
    subst hq
    by_cases hr : 0 ≤ index ∧ index < (ps i).length
    · obtain ⟨k, rfl⟩ := Int.eq_ofNat_of_zero_le hr.1
      have hk : k < (ps i).length := by omega
      rw [valueAt_ok h2 (List.getElem?_eq_getElem hk)] at e
      cases e
      exact h4.disjoint n i _ hni hp (List.getElem_mem hk)
    · rw [valueAt_out h2 hr] at e
      cases e

theorem observe_eq {m : Cpp (GroupWorld κ ν) β} {w w' : GroupWorld κ ν} {error r : β}
    (e : Movable.observe error (m w) = some (w', r)) : m w = .ok r w' ∨ m w = .err w' := by
  cases e' : m w with
  | ok v w1 => rw [e'] at e; cases e; exact .inl rfl
  | err w1 => rw [e'] at e; cases e; exact .inr rfl
  | fault => rw [e'] at e; cases e

omit [Std.TransCmp ord] in
theorem clear_stays {w : GroupWorld κ ν} {ms : Nat → κ → List ν} {ks : Nat → List κ}
    {ps : Nat → List Nat} {h : List (Option (List ν))} (h1 : Reps w.keys ks) (h2 : Reps w.values ps) (h3 : Targets w h)
    (h4 : Groups ord ms ks ps h) (i : Nat) :
    ∃ w', clear i w = .ok true w' ∧ Reps w'.keys (upd ks i []) ∧ Reps w'.values (upd ps i []) ∧
      (∀ n, n ≠ i → w'.keys.lists n = w.keys.lists n ∧ ∀ p ∈ ps n, w'.targets.lists p = w.targets.lists p) := by
  obtain ⟨w', h', e, r1, r2, _, _, l⟩ := clear_ok h1 h2 h3 h4 i
  exact ⟨w', e, r1, r2, fun n hn => ⟨(l n hn).1, fun p hp => clear_kept.ok (apart_of h2 h3 h4 hn hp) e⟩⟩

omit [Std.TransCmp ord] in
theorem renew_stays {w : GroupWorld κ ν} {ms : Nat → κ → List ν} {ks : Nat → List κ}
    {ps : Nat → List Nat} {h : List (Option (List ν))} (h1 : Reps w.keys ks) (h2 : Reps w.values ps) (h3 : Targets w h)
    (h4 : Groups ord ms ks ps h) (i : Nat) :
    ∃ w', renew i w = .ok () w' ∧ Reps w'.keys (upd ks i []) ∧ Reps w'.values (upd ps i []) ∧ Fresh w'.keys i ∧ Fresh w'.values i ∧
      (∀ n, n ≠ i → w'.keys.lists n = w.keys.lists n ∧ ∀ p ∈ ps n, w'.targets.lists p = w.targets.lists p) := by
  obtain ⟨w1, e0, c1, c2, l0⟩ := clear_stays h1 h2 h3 h4 i
  obtain ⟨v', e2, r2, g2, l2⟩ := ListWorld.renew_ok ListWorld.holding_list c2 i
  obtain ⟨k', e1, r1, g1, l1⟩ := ListWorld.renew_ok ListWorld.holding_list c1 i
  rw [upd_upd] at r1 r2
  refine ⟨{ w1 with keys := k', values := v' }, ?_, r1, r2, g1, g2, fun n hn => ⟨(l1 n hn).trans (l0 n hn).1, (l0 n hn).2⟩⟩
  show (clear i >>= fun _ => onValues _ >>= fun _ => onKeys _) w = _
  rw [Cpp.bind_ok e0, Cpp.bind_ok (onValues_ok e2)]
  exact onKeys_ok e1

theorem step_stays (hcmp : ∀ a b, cmp a b = some (ord a b)) {w : GroupWorld κ ν} {ms : Nat → κ → List ν} {ks : Nat → List κ}
    {ps : Nat → List Nat} {h : List (Option (List ν))} (h1 : Reps w.keys ks) (h2 : Reps w.values ps) (h3 : Targets w h)
    (h4 : Groups ord ms ks ps h) {n : Nat} {op : Spec.MoveOp (Spec.GroupOp κ ν)} (hn : op.ChangesGroup n = false) {w' : GroupWorld κ ν}
    {moved err r : Spec.GroupRet ν} (e : (movable mk mv cmp eq).step moved err w op = some (w', r)) : Stays n (ps n) w w' := by
  have hmv : ∀ {A : Type} (x : A) (xs : Nat → A) {i j : Nat}, n ≠ i → n ≠ j → movedTo x xs i j n = xs n := by
    intro A x xs i j hi hj
    simp [movedTo, hi, hj]
  cases op with
  | call i op =>
    simp only [Spec.MoveOp.ChangesGroup, Bool.and_eq_false_iff, decide_eq_false_iff_not] at hn
    by_cases hni : n = i
    · have hmod := hn.resolve_left (fun h => h hni)
      have : w' = w := by
        rcases observe_eq e with e | e
        · exact (call_same mk mv cmp eq w op hmod).ok rfl e
        · exact (call_same mk mv cmp eq w op hmod).err rfl e
      subst this
      exact ⟨rfl, ⟨ps, h2, rfl⟩, fun _ _ => rfl⟩
    · obtain ⟨s', es, hm⟩ := GroupC.step_refines hcmp eq (h4.models i) op
      have hat : At w i ks ps w ⟨ks i, ps i, h⟩ := ⟨ListWorld.AtBy.start h1 i, ListWorld.AtBy.start h2 i, h3⟩
      have hkept : ∀ p ∈ ps n, w'.targets.lists p = w.targets.lists p := by
        intro p hp
        rcases observe_eq e with e | e
        · exact (call_kept mk mv cmp eq op).ok (apart_of h2 h3 h4 hni hp) e
        · exact (call_kept mk mv cmp eq op).err (apart_of h2 h3 h4 hni hp) e
      have hat' : At w i ks ps w' s' := by
        rcases call_refines mk mv cmp eq hat op es with ⟨w1, e', hr⟩ | ⟨w1, e', hr, _⟩ <;> rcases observe_eq e with e | e
        · cases e'.symm.trans e; exact hr
        · cases e'.symm.trans e
        · cases e'.symm.trans e
        · cases e'.symm.trans e; exact hr
      exact ⟨hat'.keys.2 n hni, ⟨_, hat'.values.1, upd_ne hni⟩, hkept⟩
  | moveAssign i j =>
    simp only [Spec.MoveOp.ChangesGroup, Bool.or_eq_false_iff, decide_eq_false_iff_not] at hn
    obtain ⟨w1, e0, c1, c2, l0⟩ := clear_stays h1 h2 h3 h4 i
    obtain ⟨k', e1, r1, _, l1⟩ := ListWorld.moveAssign_ok ListWorld.holding_list c1 i j
    obtain ⟨v', e2, r2, _, l2⟩ := ListWorld.moveAssign_ok ListWorld.holding_list c2 i j
    have hstep : moveAssign i j w = .ok () { w1 with keys := k', values := v' } := by
      show (clear i >>= fun _ => onKeys _ >>= fun _ => onValues _) w = _
      rw [Cpp.bind_ok e0, Cpp.bind_ok (onKeys_ok e1)]
      exact onValues_ok e2
    simp only [Movable.step] at e
    rw [Cpp.bind_ok (m := (movable mk mv cmp eq).moveAssign i j) hstep] at e
    cases e
    exact ⟨(l1 n hn.1 hn.2).trans (l0 n hn.1).1, ⟨_, r2, by rw [hmv _ _ hn.1 hn.2, upd_ne hn.1]⟩, (l0 n hn.1).2⟩
  | moveConstruct i j =>
    simp only [Spec.MoveOp.ChangesGroup, Bool.or_eq_false_iff, decide_eq_false_iff_not] at hn
    by_cases hij : i = j
    · simp only [Movable.step, if_pos hij] at e
      cases e
      exact ⟨rfl, ⟨ps, h2, rfl⟩, fun _ _ => rfl⟩
    · obtain ⟨w1, e0, c1, c2, f1, f2, l0⟩ := renew_stays h1 h2 h3 h4 i
      obtain ⟨k', e1, r1, _, l1⟩ := ListWorld.moveConstruct_ok ListWorld.holding_list c1 hij f1
      obtain ⟨v', e2, r2, _, l2⟩ := ListWorld.moveConstruct_ok ListWorld.holding_list c2 hij f2
      have hstep : moveConstruct i j w1 = .ok () { w1 with keys := k', values := v' } := by
        show (onKeys _ >>= fun _ => onValues _) w1 = _
        rw [Cpp.bind_ok (onKeys_ok e1)]
        exact onValues_ok e2
      simp only [Movable.step, if_neg hij] at e
      rw [Cpp.bind_ok (m := (movable mk mv cmp eq).renew i) e0, Cpp.bind_ok (m := (movable mk mv cmp eq).moveConstruct i j) hstep] at e
      cases e
      exact ⟨(l1 n hn.1 hn.2).trans (l0 n hn.1).1, ⟨_, r2, by rw [hmv _ _ hn.1 hn.2, upd_ne hn.1]⟩, (l0 n hn.1).2⟩
  | renew i =>
    simp only [Spec.MoveOp.ChangesGroup, decide_eq_false_iff_not] at hn
    obtain ⟨w1, e0, c1, c2, f1, f2, l0⟩ := renew_stays h1 h2 h3 h4 i
    simp only [Movable.step] at e
    rw [Cpp.bind_ok (m := (movable mk mv cmp eq).renew i) e0] at e
    cases e
    exact ⟨(l0 n hn).1, ⟨_, c2, upd_ne hn⟩, (l0 n hn).2⟩

end
end GroupWorld

namespace GroupEnum
variable {κ ν : Type}
open GroupWorld
open ListWorld (Reps)

/-- the pair of an enumerator is the value at its position -/
def Shows (w : GroupWorld κ ν) (e : GroupEnum κ ν) : Prop :=
  0 ≤ e.keyIndex ∧ e.keyIndex < (w.keys.lists e.container).count ∧ 0 ≤ e.valueIndex ∧
  ∃ p, valueAt e.container e.keyIndex w = .ok p w ∧ e.valueIndex < (w.targets.lists p).count ∧
    e.current = some (.elem (w.keys.lists e.container).buffer e.keyIndex, .elem (w.targets.lists p).buffer e.valueIndex)

structure Is (w : GroupWorld κ ν) (e : GroupEnum κ ν) (c : Spec.GroupCursor) : Prop where
  container : e.container = c.container
  position : (e.keyIndex, e.valueIndex) = c.position
  nothing : c.shown = .nothing → e.current = none
  entry : c.shown = .entry → Shows w e
  value : -1 ≤ e.valueIndex
  key : e.keyIndex = -1 ∧ e.valueIndex = -1 ∨ 0 ≤ e.keyIndex

theorem count_ok (w : GroupWorld κ ν) (e : GroupEnum κ ν) (i : Nat) : count i (w, e) = .ok (w.keys.lists i).count (w, e) := by
  refine onObjects_ok ?_
  unfold onKeys
  rw [ListWorld.count_ok]

theorem valueCount_ok {w : GroupWorld κ ν} (e : GroupEnum κ ν) {p : Nat} (hp : w.live p = true) :
    valueCount p (w, e) = .ok (w.targets.lists p).count (w, e) :=
  onObjects_ok (onTarget_same hp (ListWorld.count_ok _ _))

theorem getByIndex_ok {w : GroupWorld κ ν} (e : GroupEnum κ ν) {i p : Nat} {k : Int} (h : valueAt i k w = .ok p w) :
    getByIndex i k (w, e) = .ok p (w, e) := onObjects_ok h

/-- what group `i` looks like -/
structure Looks (w : GroupWorld κ ν) (i : Nat) (vss : List (List ν)) (ps : List Nat) : Prop where
  count : (w.keys.lists i).count = vss.length
  at' : ∀ k (hk : k < vss.length), ∃ p, ps[k]? = some p ∧ valueAt i (k : Int) w = .ok p w ∧ w.live p = true ∧
    (w.targets.lists p).count = vss[k].length

section
variable {w : GroupWorld κ ν} {e : GroupEnum κ ν} {vss : List (List ν)} {ps : List Nat}

theorem updateCurrent_entry (hl : Looks w e.container vss ps) {k : Nat} (hk : k < vss.length) (he : e.keyIndex = k) {p : Nat}
    (hv : valueAt e.container (k : Int) w = .ok p w) (hlive : w.live p = true) (h0 : 0 ≤ e.valueIndex)
    (h1 : e.valueIndex < (w.targets.lists p).count) :
    updateCurrent (w, e) = .ok () (w, ⟨e.container, e.keyIndex, e.valueIndex,
      some (.elem (w.keys.lists e.container).buffer e.keyIndex, .elem (w.targets.lists p).buffer e.valueIndex)⟩) := by
  have hlt : e.keyIndex < (w.keys.lists e.container).count := by rw [hl.count]; omega
  unfold updateCurrent
  rw [members_bind, Cpp.bind_ok (count_ok w e _)]
  simp only [if_pos hlt]
  rw [Cpp.bind_ok (getByIndex_ok e (by rw [he]; exact hv)), Cpp.bind_ok (valueCount_ok e hlive)]
  simp only [if_pos h1]
  rw [Cpp.bind_ok (onObjects_ok (onKeys_same (ListWorld.on_ok (ListH.refAt_ok ⟨by omega, hlt⟩)))),
    Cpp.bind_ok (onObjects_ok (onTarget_same hlive (ListWorld.on_ok (ListH.refAt_ok ⟨h0, h1⟩))))]
  rfl

theorem nextLoop_end (h : ¬ e.keyIndex < (w.keys.lists e.container).count) (f : Nat) : nextLoop (f + 1) (w, e) = .ok false (w, e) := by
  unfold nextLoop
  rw [members_bind, Cpp.bind_ok (count_ok w e _)]
  simp only [if_neg h]
  rfl

theorem nextLoop_hit (hl : Looks w e.container vss ps) {k : Nat} (hk : k < vss.length) (he : e.keyIndex = k) {p : Nat}
    (hv : valueAt e.container (k : Int) w = .ok p w) (hlive : w.live p = true) (h0 : -1 ≤ e.valueIndex)
    (h1 : e.valueIndex + 1 < (w.targets.lists p).count) (f : Nat) :
    nextLoop (f + 1) (w, e) = .ok true (w, ⟨e.container, e.keyIndex, e.valueIndex + 1,
      some (.elem (w.keys.lists e.container).buffer e.keyIndex, .elem (w.targets.lists p).buffer (e.valueIndex + 1))⟩) := by
  have hlt : e.keyIndex < (w.keys.lists e.container).count := by rw [hl.count]; omega
  unfold nextLoop
  rw [members_bind, Cpp.bind_ok (count_ok w e _)]
  simp only [if_pos hlt]
  rw [setMembers_bind, members_bind, Cpp.bind_ok (getByIndex_ok _ (by rw [he]; exact hv)), Cpp.bind_ok (valueCount_ok _ hlive)]
  simp only [if_pos h1]
  rw [Cpp.bind_ok (updateCurrent_entry (e := { e with valueIndex := e.valueIndex + 1 }) hl hk he hv hlive (by simp only; omega) h1)]
  rfl

theorem nextLoop_miss (hl : Looks w e.container vss ps) {k : Nat} (hk : k < vss.length) (he : e.keyIndex = k) {p : Nat}
    (hv : valueAt e.container (k : Int) w = .ok p w) (hlive : w.live p = true)
    (h1 : ¬ e.valueIndex + 1 < (w.targets.lists p).count) (f : Nat) :
    nextLoop (f + 1) (w, e) = nextLoop f (w, { e with keyIndex := e.keyIndex + 1, valueIndex := -1 }) := by
  have hlt : e.keyIndex < (w.keys.lists e.container).count := by rw [hl.count]; omega
  conv => lhs; unfold nextLoop
  rw [members_bind, Cpp.bind_ok (count_ok w e _)]
  simp only [if_pos hlt]
  rw [setMembers_bind, members_bind, Cpp.bind_ok (getByIndex_ok _ (by rw [he]; exact hv)), Cpp.bind_ok (valueCount_ok _ hlive)]
  simp only [if_neg h1]
  rw [setMembers_bind]

/-- what `Next` does -/
structure Advanced (w : GroupWorld κ ν) (e : GroupEnum κ ν) (vss : List (List ν)) (b : Bool) (e' : GroupEnum κ ν) : Prop where
  container : e'.container = e.container
  found : b = true → Spec.IsPosition vss (e'.keyIndex, e'.valueIndex) ∧
    Spec.Before (e.keyIndex, e.valueIndex) (e'.keyIndex, e'.valueIndex) ∧
    (∀ q, Spec.IsPosition vss q → Spec.Before (e.keyIndex, e.valueIndex) q → ¬ Spec.Before q (e'.keyIndex, e'.valueIndex)) ∧ Shows w e'
  ended : b = false → (∀ q, Spec.IsPosition vss q → ¬ Spec.Before (e.keyIndex, e.valueIndex) q) ∧
    (e'.keyIndex, e'.valueIndex) = (if e.keyIndex < vss.length then ((vss.length : Int), -1) else (e.keyIndex, e.valueIndex)) ∧
    e'.current = e.current

theorem isPosition_lt {q : Int × Int} (h : Spec.IsPosition vss q) : q.1 < vss.length := by
  obtain ⟨h0, _, vs, hvs, _⟩ := h
  have := (List.getElem?_eq_some_iff.1 hvs).1
  omega

theorem isPosition_of {k : Nat} (hk : k < vss.length) {v : Int} (h0 : 0 ≤ v) (h1 : v < vss[k].length) :
    Spec.IsPosition vss ((k : Int), v) :=
  ⟨Int.natCast_nonneg _, h0, vss[k], by simp [List.getElem?_eq_getElem hk], h1⟩

theorem nextLoop_ok (hl : Looks w e.container vss ps) (hne : ∀ vs ∈ vss, vs ≠ []) (h0 : 0 ≤ e.keyIndex) (h1 : -1 ≤ e.valueIndex) :
    ∃ b e', nextLoop (vss.length + 1) (w, e) = .ok b (w, e') ∧ Advanced w e vss b e' := by
  by_cases hlt : e.keyIndex < vss.length
  · obtain ⟨k, hk⟩ := Int.eq_ofNat_of_zero_le h0
    have hkl : k < vss.length := by omega
    obtain ⟨p, _, hv, hlive, hc⟩ := hl.at' k hkl
    by_cases hhit : e.valueIndex + 1 < (w.targets.lists p).count
    · refine ⟨_, _, nextLoop_hit hl hkl hk hv hlive h1 hhit _, rfl, fun _ => ⟨?_, ?_, ?_, ?_⟩, fun h => by cases h⟩
      · show Spec.IsPosition vss (e.keyIndex, e.valueIndex + 1)
        rw [hk]
        exact isPosition_of hkl (by omega) (by omega)
      · exact .inr ⟨rfl, show e.valueIndex < e.valueIndex + 1 by omega⟩
      · rintro q - hq hb
        rcases hq with hq | hq <;> rcases hb with hb | hb <;> simp only at hq hb <;> omega
      · exact ⟨h0, by simp only [hl.count]; omega, by simp only; omega, p, by simp only [hk]; exact hv, hhit, rfl⟩
    · -- the next key
      have hstep := nextLoop_miss hl hkl hk hv hlive hhit vss.length
      rw [hstep]
      have hno : ∀ q, Spec.IsPosition vss q → Spec.Before (e.keyIndex, e.valueIndex) q → e.keyIndex + 1 ≤ q.1 := by
        rintro q ⟨q0, _, vs, hvs, hqv⟩ hq
        rcases hq with hq | hq
        · simp only at hq; omega
        · simp only at hq
          have : q.1.toNat = k := by omega
          rw [this, List.getElem?_eq_getElem hkl] at hvs
          cases hvs
          omega
      obtain ⟨f, hf⟩ : ∃ f, vss.length = f + 1 := ⟨vss.length - 1, by omega⟩
      by_cases hlt2 : k + 1 < vss.length
      · obtain ⟨p2, _, hv2, hlive2, hc2⟩ := hl.at' (k + 1) hlt2
        have hpos : 0 < vss[k + 1].length := List.length_pos_iff.2 (hne _ (List.getElem_mem _))
        have hh := nextLoop_hit (e := { e with keyIndex := e.keyIndex + 1, valueIndex := -1 }) hl hlt2 (by simp only; omega) hv2 hlive2
          (by simp) (by simp only; omega) f
        rw [← hf] at hh
        refine ⟨_, _, hh, rfl, fun _ => ⟨?_, ?_, ?_, ?_⟩, fun h => by cases h⟩
        · simp only
          rw [show e.keyIndex + 1 = ((k + 1 : Nat) : Int) by omega]
          exact isPosition_of hlt2 (by omega) (by omega)
        · left; simp only; omega
        · intro q hq hb hb2
          have := hno q hq hb
          have hq0 := hq.2.1
          rcases hb2 with hb2 | hb2 <;> simp only at hb2 <;> omega
        · refine ⟨by simp only; omega, by simp only [hl.count]; omega, by simp only; omega, p2, ?_, by simp only; omega, rfl⟩
          simp only
          rw [show e.keyIndex + 1 = ((k + 1 : Nat) : Int) by omega]
          exact hv2
      · have hh := nextLoop_end (w := w) (e := { e with keyIndex := e.keyIndex + 1, valueIndex := -1 })
          (by simp only [hl.count]; omega) f
        rw [← hf] at hh
        refine ⟨_, _, hh, rfl, fun h => (by cases h), fun _ => ⟨?_, ?_, rfl⟩⟩
        · intro q hq hb
          have := hno q hq hb
          have := isPosition_lt hq
          omega
        · rw [if_pos hlt]
          simp only [Prod.mk.injEq, and_true]
          omega
  · refine ⟨_, _, nextLoop_end (by rw [hl.count]; exact hlt) _, rfl, fun h => (by cases h), fun _ => ⟨?_, by rw [if_neg hlt], rfl⟩⟩
    intro q hq hb
    have := isPosition_lt hq
    rcases hb with hb | hb <;> simp only at hb <;> omega

theorem next_ok (hl : Looks w e.container vss ps) (hne : ∀ vs ∈ vss, vs ≠ []) (h1 : -1 ≤ e.valueIndex)
    (h0 : e.keyIndex = -1 ∧ e.valueIndex = -1 ∨ 0 ≤ e.keyIndex) :
    ∃ b e', next (w, e) = .ok b (w, e') ∧ Advanced w e vss b e' := by
  have hn : ((w.keys.lists e.container).count).toNat = vss.length := by rw [hl.count]; rfl
  rcases h0 with ⟨k0, v0⟩ | h0
  · obtain ⟨b, e', he, ha⟩ := nextLoop_ok (e := { e with keyIndex := 0 }) hl hne (by simp) h1
    refine ⟨b, e', ?_, ha.container, ?_, ?_⟩
    · unfold next
      rw [members_bind, Cpp.bind_ok (count_ok w e _)]
      simp only [if_pos k0]
      rw [setMembers_bind, hn]
      exact he
    · intro hb
      obtain ⟨a1, a2, a3, a4⟩ := ha.found hb
      refine ⟨a1, ?_, ?_, a4⟩
      · have := a1.1
        left; simp only at this ⊢; omega
      · intro q hq _
        refine a3 q hq ?_
        have := hq.1
        have := hq.2.1
        simp only [Spec.Before]
        omega
    · intro hb
      obtain ⟨a1, a2, a3⟩ := ha.ended hb
      refine ⟨?_, ?_, a3⟩
      · intro q hq _
        refine a1 q hq ?_
        have := hq.1
        have := hq.2.1
        simp only [Spec.Before]
        omega
      · rw [a2]
        simp only
        by_cases hz : vss.length = 0
        · rw [if_neg (by omega), if_pos (by omega), hz, v0]; rfl
        · rw [if_pos (by omega), if_pos (by omega)]
  · obtain ⟨b, e', he, ha⟩ := nextLoop_ok hl hne h0 h1
    refine ⟨b, e', ?_, ha⟩
    unfold next
    rw [members_bind, Cpp.bind_ok (count_ok w e _)]
    simp only [if_neg (show ¬ e.keyIndex = -1 by omega)]
    rw [hn]
    exact he

theorem indexLoop_ok {i : Nat} (hl : Looks w i vss ps) (n : Nat) : ∀ k, k + n ≤ vss.length →
    indexLoop i n (k : Int) (((vss.take k).flatten.length : Nat) : Int) (w, e) = .ok (((vss.take (k + n)).flatten.length : Nat) : Int) (w, e) := by
  induction n with
  | zero => intro k _; rfl
  | succ n ih =>
    intro k hk
    obtain ⟨p, _, hv, hlive, hc⟩ := hl.at' k (by omega)
    unfold indexLoop
    rw [Cpp.bind_ok (getByIndex_ok e hv), Cpp.bind_ok (valueCount_ok e hlive), hc]
    have := ih (k + 1) (by omega)
    rw [show k + 1 + n = k + (n + 1) by omega, List.take_succ_eq_append_getElem (show k < vss.length by omega), List.flatten_append,
      List.length_append] at this
    simp only [List.flatten_cons, List.flatten_nil, List.append_nil] at this
    exact this

theorem index_ok (hl : Looks w e.container vss ps) : index (w, e) = .ok (if 0 ≤ e.keyIndex ∧ e.keyIndex < vss.length then
    (((vss.take e.keyIndex.toNat).flatten.length : Nat) : Int) + e.valueIndex else -1) (w, e) := by
  unfold index
  rw [members_bind, Cpp.bind_ok (count_ok w e _), hl.count]
  by_cases h : 0 ≤ e.keyIndex ∧ e.keyIndex < vss.length
  · simp only [if_pos h]
    have := indexLoop_ok (e := e) hl e.keyIndex.toNat 0 (by omega)
    simp only [Nat.zero_add] at this
    rw [Cpp.bind_ok (show indexLoop e.container e.keyIndex.toNat 0 0 (w, e) = _ from this)]
    rfl
  · simp only [if_neg h]
    rfl

end

/-- groups are enumerable -/
theorem looks_of {ord : κ → κ → Ordering} {w : GroupWorld κ ν} {ms : Nat → κ → List ν} {ks : Nat → List κ} {ps : Nat → List Nat}
    {h : List (Option (List ν))} (h1 : Reps w.keys ks) (h2 : Reps w.values ps) (h3 : Targets w h) (h4 : Groups ord ms ks ps h) (i : Nat) :
    ∃ vss, Spec.GroupLists ord (ms i) (ks i) vss ∧ Looks w i vss (ps i) ∧
      ∀ (k p : Nat), (ps i)[k]? = some p → vss[k]? = some ((liveAt h p).getD []) := by
  obtain ⟨vss, g1, g2⟩ := h4.models i
  obtain ⟨ck, hk, hkp⟩ := h1
  obtain ⟨ct, ht, htp⟩ := h3.reps
  have hlen : (ps i).length = vss.length := g2.length
  have hlive : ∀ k (hk : k < vss.length) p, (ps i)[k]? = some p → liveAt h p = some vss[k] := fun k hk p hp =>
    liveAt_eq_some.2 (g2.live k p _ hp (List.getElem?_eq_getElem hk))
  refine ⟨vss, g1, ⟨?_, ?_⟩, ?_⟩
  · rw [show (w.keys.lists i).count = (ks i).length from ((hk.rel i).count).trans (hkp i).count]
    exact congrArg _ g1.length
  · intro k hk
    have hp : (ps i)[k]? = some (ps i)[k] := List.getElem?_eq_getElem (by omega)
    have hl := hlive k hk _ hp
    refine ⟨_, hp, valueAt_ok h2 hp, by rw [h3.live, hl]; rfl, ?_⟩
    rw [show (w.targets.lists (ps i)[k]).count = ((liveAt h (ps i)[k]).getD []).length from ((ht.rel _).count).trans (htp _).count, hl]
    rfl
  · intro k p hp
    have hk : k < vss.length := hlen ▸ (List.getElem?_eq_some_iff.1 hp).1
    rw [hlive k hk p hp, List.getElem?_eq_getElem hk]
    rfl

theorem outdated_nothing {s : Spec.Shown} (h : s.outdated = .nothing) : s = .nothing := by
  cases s <;> simp_all [Spec.Shown.outdated]
theorem outdated_entry {s : Spec.Shown} (h : s.outdated = .entry) : False := by
  cases s <;> simp_all [Spec.Shown.outdated]

variable (mk : Option κ → Option κ) (mv : Option ν → Option ν) (eq : ν → ν → Bool) {cmp : κ → κ → Option Ordering}
  {ord : κ → κ → Ordering} [Std.TransCmp ord]

theorem sim (hcmp : ∀ a b, cmp a b = some (ord a b)) (moved err : Spec.GroupRet ν) :
    CursorSim (movable mk mv cmp eq) cls (Spec.groupCursors ord) (Stores ord) Is moved err := by
  refine ⟨fun _ _ => ⟨rfl, rfl, fun _ => rfl, fun h => (by cases h), Int.le_refl _, .inl ⟨rfl, rfl⟩⟩, ?_, ?_, ?_, ?_, ?_, ?_⟩
  · intro w e c h
    exact ⟨h.container, h.position, fun _ => rfl, fun h => (by cases h), h.value, h.key⟩
  · rintro w ms e c ⟨ks, ps, hp, h1, h2, h3, h4⟩ h
    have hc := h.container
    obtain ⟨vss, g1, hl, _⟩ := looks_of h1 h2 h3 h4 e.container
    obtain ⟨b, e', he, ha⟩ := next_ok hl g1.nonempty h.value h.key
    cases b with
    | true =>
      obtain ⟨a1, a2, a3, a4⟩ := ha.found rfl
      refine ⟨true, e', ⟨c.container, (e'.keyIndex, e'.valueIndex), .entry⟩, he, ⟨ks e.container, vss, hc ▸ g1, rfl, ?_⟩, ?_⟩
      · rw [if_pos rfl, ← h.position]
        exact ⟨a1, a2, a3, rfl⟩
      · exact ⟨ha.container.trans hc, rfl, fun h => (nomatch h), fun _ => a4, by have := a1.2.1; simp only at this; omega, .inr a1.1⟩
    | false =>
      obtain ⟨a1, a2, a3⟩ := ha.ended rfl
      refine ⟨false, e', ⟨c.container, (e'.keyIndex, e'.valueIndex), c.shown.outdated⟩, he, ⟨ks e.container, vss, hc ▸ g1, rfl, ?_⟩, ?_⟩
      · rw [if_neg (by simp), ← h.position, g1.length]
        exact ⟨a1, a2, rfl⟩
      · refine ⟨ha.container.trans hc, rfl, fun hn => ?_, fun hn => (outdated_entry hn).elim, ?_, ?_⟩
        · rw [a3]; exact h.nothing (outdated_nothing hn)
        · have := h.value
          split at a2 <;> simp only [Prod.mk.injEq] at a2 <;> omega
        · have := h.key
          split at a2 <;> simp only [Prod.mk.injEq] at a2 <;> omega
  · rintro w ms e c ⟨ks, ps, hp, h1, h2, h3, h4⟩ h hread
    have hc := h.container
    obtain ⟨vss, g1, hl, hlive⟩ := looks_of h1 h2 h3 h4 e.container
    obtain ⟨ck, hk, hkp⟩ := h1
    obtain ⟨ct, ht, htp⟩ := h3.reps
    cases hs : c.shown with
    | unknown => exact absurd hs hread
    | nothing =>
      refine .inr ⟨?_, ?_⟩
      · show readCurrent (w, e) = _
        unfold readCurrent
        rw [members_bind]
        simp only [h.nothing hs]
      · simp only [Spec.groupCursors, hs]
    | entry =>
      obtain ⟨s0, s1, s2, p, s3, s4, s5⟩ := h.entry hs
      obtain ⟨k, hk0⟩ := Int.eq_ofNat_of_zero_le s0
      obtain ⟨m, hm0⟩ := Int.eq_ofNat_of_zero_le s2
      have hkv : k < vss.length := by rw [hl.count] at s1; omega
      have hkk : k < (ks e.container).length := by rw [g1.length]; exact hkv
      obtain ⟨p', hp', hv', _, hcnt⟩ := hl.at' k hkv
      have : p' = p := by rw [hk0, hv'] at s3; cases s3; rfl
      subst this
      have hvs := hlive k p' hp'
      rw [List.getElem?_eq_getElem hkv, Option.some.injEq] at hvs
      have hmv : m < ((liveAt hp p').getD []).length := by rw [← hvs]; omega
      have rk := hk.readElem hkp hkk e.container
      have rv := ht.read htp hmv
      refine .inl ⟨((ks e.container)[k], ((liveAt hp p').getD [])[m]), ?_, ?_⟩
      · show readCurrent (w, e) = _
        unfold readCurrent
        rw [members_bind]
        simp only [s5, hk0, hm0]
        rw [Cpp.bind_ok (onObjects_ok (show GroupWorld.readKey _ w = .ok (ks e.container)[k] w from
            onKeys_same (ListWorld.on_ok (ListH.onHeap_ok (hk.read hkp hkk))))),
          Cpp.bind_ok (onObjects_ok (show GroupWorld.readValue _ w = .ok _ w by unfold GroupWorld.readValue; rw [rv]))]
        rfl
      · simp only [Spec.groupCursors, hs, ← h.position]
        refine ⟨s0, s2, _, _, _, vss[k], _, hc ▸ g1, ?_, ?_, ?_, rfl⟩
        · rw [hk0, ← hc]; exact List.getElem?_eq_getElem hkk
        · rw [hk0]; exact List.getElem?_eq_getElem hkv
        · rw [hm0, hvs]; exact List.getElem?_eq_getElem hmv
  · rintro w ms e c ⟨ks, ps, hp, h1, h2, h3, h4⟩ h
    obtain ⟨vss, g1, hl, _⟩ := looks_of h1 h2 h3 h4 e.container
    refine ⟨_, index_ok hl, ks e.container, vss, h.container ▸ g1, ?_⟩
    rw [← h.position, g1.length]
  · rintro w ms e c ⟨ks, ps, hp, h1, h2, h3, h4⟩ h
    obtain ⟨vss, g1, hl, _⟩ := looks_of h1 h2 h3 h4 e.container
    refine ⟨{ e with keyIndex := -1, valueIndex := -1 }, ⟨c.container, (-1, -1), c.shown.outdated⟩,
      ⟨h.container, rfl, fun hn => h.nothing (outdated_nothing hn), fun hn => (outdated_entry hn).elim, Int.le_refl _, .inl ⟨rfl, rfl⟩⟩,
      .inr ⟨?_, rfl, rfl⟩⟩
    show reset (w, e) = _
    unfold reset updateCurrent
    rw [members_bind, setMembers_bind, members_bind, Cpp.bind_ok (count_ok w _ _)]
    have : (-1 : Int) < (w.keys.lists e.container).count := by rw [hl.count]; omega
    simp only [if_pos this]
    rw [Cpp.bind_err (m := getByIndex e.container (-1)) (onObjects_err (valueAt_out h2 (by omega)))]
  · rintro w w' op r ms e c ⟨ks, ps, hp, h1, h2, h3, h4⟩ hstep h
    have hc := h.container
    cases hch : op.ChangesGroup c.container with
    | true =>
      simp only [Spec.groupCursors, hch, if_true]
      exact ⟨hc, h.position, fun hn => h.nothing (outdated_nothing hn), fun hn => (outdated_entry hn).elim, h.value, h.key⟩
    | false =>
      simp only [Spec.groupCursors, hch]
      have st := step_stays mk mv eq hcmp h1 h2 h3 h4 hch hstep
      refine ⟨hc, h.position, h.nothing, fun hs => ?_, h.value, h.key⟩
      obtain ⟨s0, s1, s2, p, s3, s4, s5⟩ := h.entry hs
      obtain ⟨k, hk0⟩ := Int.eq_ofNat_of_zero_le s0
      obtain ⟨vss, g1, hl, _⟩ := looks_of h1 h2 h3 h4 e.container
      obtain ⟨p', hp', hv', _, _⟩ := hl.at' k (by rw [hl.count] at s1; omega)
      have : p' = p := by rw [hk0, hv'] at s3; cases s3; rfl
      subst this
      rw [hc] at hp'
      obtain ⟨ps', r', e'⟩ := st.values
      have ht := st.targets p' (List.mem_of_getElem? hp')
      have hkeys := st.keys
      rw [← hc] at hkeys
      refine ⟨s0, by rw [hkeys]; exact s1, s2, p', ?_, by rw [ht]; exact s4, by rw [hkeys, ht]; exact s5⟩
      rw [hk0]
      exact valueAt_ok r' (by rw [hc, e']; exact hp')

end GroupEnum
end Vlpp
