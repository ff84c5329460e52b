import Verif.Lemmas.HeapCopyGroup
import Verif.Lemmas.HeapCopyArray
import Verif.Props.HeapDictProps
import Verif.Props.HeapGroupProps

/-!
# Programs that copy containers to each other
-/
set_option autoImplicit false
namespace Vlpp

theorem Spec.CopyRun.eq_copyRun {C Op Ret : Type} {step : C → Op → C × Ret} {join : C → C → C} {empty : C} {moved refused : Ret}
    {w w' : Nat → C} {ops : List (Spec.CopyOp Op)} {rs : List Ret}
    (h : Spec.CopyRun (fun x op x' r => step x op = (x', r)) (fun x y z => join x y = z) empty moved refused w ops w' rs) :
    Spec.copyRun step join empty moved refused w ops = (w', rs) := by
  induction h with
  | nil w => rfl
  | cons h1 _ ih =>
    unfold Spec.copyRun
    cases h1 with
    | op o _ _ h =>
      have : Spec.moveRun step empty moved refused _ [o] = _ := (Spec.MoveRun.cons h (.nil _)).eq_moveRun
      simp only [Spec.moveRun, Prod.mk.injEq, List.cons.injEq, and_true] at this
      simp only [Spec.copyStep, this.1, this.2, ih]
    | copy d s append x h => simp only [Spec.copyStep, h, ih]

namespace MoveSim
variable {σ Op Ret A : Type} {M : Movable σ Op Ret} {R : σ → (Nat → A) → Prop} {Fresh : σ → Nat → Prop}
  {Step : A → Op → A → Ret → Prop} {Valid : A → Op → Prop} {empty : A} {moved error : Ret}

/-- A program with copies, when one copy between different containers keeps the relation. -/
theorem copies (h : MoveSim M R Fresh Step Valid empty error) {copy : Nat → Nat → Bool → σ → Option (Outcome σ Unit)}
    {Join : A → A → A → Prop}
    (hc : ∀ w xs d s append, R w xs → d ≠ s → ∃ w' x, copy d s append w = some (.ok () w') ∧ R w' (upd xs d x) ∧
      Join (if append then xs d else empty) (xs s) x)
    (ops : List (Spec.CopyOp Op)) (hv : ∀ i op, .op (.call i op) ∈ ops → ∀ x, Valid x op) (hds : Spec.NoSelfCopy ops)
    {w : σ} {xs : Nat → A} (hR : R w xs) :
    ∃ w' xs' rs, M.runC copy moved error w ops = some (w', rs) ∧ R w' xs' ∧
      Spec.CopyRun Step Join empty moved error xs ops xs' rs := by
  induction ops generalizing w xs with
  | nil => exact ⟨w, xs, [], rfl, hR, .nil _⟩
  | cons op ops ih =>
    have hstep : ∃ w1 xs1 r, M.stepC copy moved error w op = some (w1, r) ∧ R w1 xs1 ∧
        Spec.CopyStep Step Join empty moved error xs op xs1 r := by
      cases op with
      | op o =>
        obtain ⟨w1, xs1, r, e1, hR1, s1, _⟩ := h.step (moved := moved) hR o
          (fun i o' ho => hv i o' (by subst ho; simp) _)
        exact ⟨w1, xs1, r, e1, hR1, .op o _ _ s1⟩
      | copy d s append =>
        obtain ⟨w1, x, e1, hR1, hj⟩ := hc w xs d s append hR (hds d s append (by simp))
        exact ⟨w1, _, moved, by simp [Movable.stepC, e1], hR1, .copy d s append x hj⟩
    obtain ⟨w1, xs1, r, e1, hR1, s1⟩ := hstep
    obtain ⟨w2, xs2, rs, e2, hR2, s2⟩ := ih (fun i o ho => hv i o (by simp [ho])) (fun d s a ha => hds d s a (by simp [ha])) hR1
    exact ⟨w2, xs2, r :: rs, by simp [Movable.runC, e1, e2], hR2, .cons s1 s2⟩

end MoveSim

namespace ListWorld
variable {α κ : Type}

theorem Reps.holds {w : ListWorld α} {xs : Nat → List α} (h : Reps w xs) : w.Holds xs := by
  obtain ⟨cs, hw, hp⟩ := h
  exact hw.holds hp

/-- copying a list, or a lazy list over it, to another list -/
theorem copyOf_other (mv : Option α → Option α) (viaLazy : Bool) {w : ListWorld α} {xs : Nat → List α} {d s : Nat} (append : Bool)
    (h : Reps w xs) (hds : d ≠ s) :
    ∃ w', copyOf (ListH.addRef mv) viaLazy d s append w = some (.ok () w') ∧
      Reps w' (upd xs d ((if append then xs d else []) ++ xs s)) := by
  obtain ⟨w1, e1, h1, _⟩ := clearUnless_ok h append d
  have hs : upd xs d (if append then xs d else []) s = xs s := upd_ne (Ne.symm hds)
  cases viaLazy with
  | false =>
    obtain ⟨w2, e2, h2, _⟩ := appendLoop_other mv hds (xs s).length 0 w1 _ h1 (by rw [hs]; omega)
    rw [hs, upd_self, upd_upd, List.drop_zero] at h2
    refine ⟨w2, ?_, h2⟩
    unfold copyOf copyFrom
    rw [if_neg (by simp), Cpp.bind_ok e1, Cpp.bind_ok (countOf_ok w1 s), h1.count s, hs, Int.toNat_natCast]
    exact congrArg some e2
  | true =>
    obtain ⟨w2, e2, h2, _⟩ := enumLoop_other mv hds (xs s).length 0 w1 _ h1 (by rw [hs]; omega)
    rw [hs, upd_self, upd_upd, List.drop_zero] at h2
    refine ⟨w2, ?_, h2⟩
    unfold copyOf copyFromLazy
    rw [if_pos rfl, e1]
    exact e2

/-- a list that is cleared before it is copied to itself stays empty -/
theorem copyOf_self_clear (add : ElemRef α → Cpp (Heap α × ListH) Int) (viaLazy : Bool) {w : ListWorld α} {xs : Nat → List α} (d : Nat)
    (h : Reps w xs) : ∃ w', copyOf add viaLazy d d false w = some (.ok () w') ∧ Reps w' (upd xs d []) := by
  obtain ⟨w1, e1, h1, _⟩ := clearUnless_ok h false d
  have hc := h1.count d
  rw [upd_self] at hc
  refine ⟨w1, ?_, h1⟩
  cases viaLazy with
  | false =>
    unfold copyOf copyFrom
    rw [if_neg (by simp), Cpp.bind_ok e1, Cpp.bind_ok (countOf_ok w1 d), hc]
    rfl
  | true =>
    unfold copyOf copyFromLazy
    rw [if_pos rfl, e1]
    have hn : ListEnum.next (w1, (⟨d, -1⟩ : ListEnum)) = .ok false (w1, ⟨d, 0⟩) := by
      rw [ListEnum.next_ok, decide_eq_false (by rw [hc]; simp)]
      rfl
    show enumLoop add d ⟨d, -1⟩ w1 = _
    unfold enumLoop
    rw [hn]

theorem copyOf_self_append (mv : Option α → Option α) {w : ListWorld α} {xs : Nat → List α} (d : Nat) (h : Reps w xs) :
    (2 * (xs d).length ≤ (w.lists d).capacity → ∃ w', copyOf (ListH.addRef mv) false d d true w = some (.ok () w') ∧
      Reps w' (upd xs d (xs d ++ xs d))) ∧
    ((w.lists d).capacity < 2 * (xs d).length → copyOf (ListH.addRef mv) false d d true w = some .fault) ∧
    (xs d ≠ [] → copyOf (ListH.addRef mv) true d d true w = some .fault) := by
  have e0 : copyOf (ListH.addRef mv) false d d true w = some (appendLoop (ListH.addRef mv) d d (xs d).length 0 w) := by
    unfold copyOf copyFrom
    rw [if_neg (by simp), Cpp.bind_ok (show clearUnless true d w = .ok () w from rfl), Cpp.bind_ok (countOf_ok w d), h.count d,
      Int.toNat_natCast]
  refine ⟨fun hc => ?_, fun hc => ?_, fun hne => ?_⟩
  · obtain ⟨w2, e2, h2, _⟩ := appendLoop_own mv (d := d) (xs d).length 0 w xs h (by omega) (by omega)
    rw [List.drop_zero, List.take_length] at h2
    exact ⟨w2, by rw [e0]; exact congrArg some e2, h2⟩
  · rw [e0]
    exact congrArg some (appendLoop_full mv (d := d) (xs d).length 0 w xs h (by omega) (by omega))
  · have hpos := List.length_pos_iff.2 hne
    have := h.le d
    have he := enumLoop_own mv ((w.lists d).capacity - (xs d).length).toNat 0 w xs h hpos (by omega)
    unfold copyOf copyFromLazy
    rw [if_pos rfl]
    exact he

variable {cmp : α → κ → Option Ordering} {ord : κ → κ → Ordering} {key : α → κ} [Std.TransCmp ord]

theorem copyOf_sorted (mv : Option α → Option α) (hcmp : ∀ x k, cmp x k = some (ord (key x) k)) {w : ListWorld α} {xs : Nat → List α}
    {d s : Nat} (append : Bool) (h : Reps w xs ∧ ∀ n, Spec.Ascending ord key (xs n)) (hds : d ≠ s) :
    ∃ w' x, copyOf (ListH.sortedAddRef mv cmp key) false d s append w = some (.ok () w') ∧
      (Reps w' (upd xs d x) ∧ ∀ n, Spec.Ascending ord key (upd xs d x n)) ∧
      Spec.SortedJoin ord key (if append then xs d else []) (xs s) x := by
  obtain ⟨h, hasc⟩ := h
  obtain ⟨w1, e1, h1, _⟩ := clearUnless_ok h append d
  have hs : upd xs d (if append then xs d else []) s = xs s := upd_ne (Ne.symm hds)
  have ha : Spec.Ascending ord key (upd xs d (if append then xs d else []) d) := by
    rw [upd_self]
    cases append
    · exact List.Pairwise.nil
    · exact hasc d
  obtain ⟨w2, ys, e2, h2, ha2, hp⟩ := sortedLoop_other mv hcmp hds (xs s).length 0 w1 _ h1 (by rw [hs]; omega) ha
  rw [upd_upd] at h2
  rw [hs, upd_self, List.drop_zero] at hp
  refine ⟨w2, ys, ?_, ⟨h2, ?_⟩, ha2, hp⟩
  · unfold copyOf copyFrom
    rw [if_neg (by simp), Cpp.bind_ok e1, Cpp.bind_ok (countOf_ok w1 s), h1.count s, hs, Int.toNat_natCast]
    exact congrArg some e2
  · intro n
    by_cases hn : n = d
    · subst hn; rw [upd_self]; exact ha2
    · rw [upd_ne hn]; exact hasc n

theorem copyOf_sorted_self (mv : Option α → Option α) (hcmp : ∀ x k, cmp x k = some (ord (key x) k)) {w : ListWorld α}
    {xs : Nat → List α} (h : Reps w xs) {d : Nat} {x : α} {rest : List α} (hx : xs d = x :: rest)
    (hasc : Spec.Ascending ord key (xs d)) (hone : ∀ y ∈ rest, ord (key x) (key y) ≠ .eq) :
    copyOf (ListH.sortedAddRef mv cmp key) false d d true w = some .fault := by
  have h0 : 0 < (xs d).length := by rw [hx]; simp
  have hf := sortedAddRef_own mv hcmp h h0 hasc (by
    intro j hj he
    cases j with
    | zero => rfl
    | succ j =>
      simp only [hx, List.getElem_cons_succ, List.getElem_cons_zero] at he
      exact absurd (Std.OrientedCmp.eq_symm he) (hone _ (List.getElem_mem _)))
  unfold copyOf copyFrom
  rw [if_neg (by simp), Cpp.bind_ok (show clearUnless true d w = .ok () w from rfl), Cpp.bind_ok (countOf_ok w d), h.count d,
    Int.toNat_natCast, hx, List.length_cons]
  unfold appendLoop
  have hr : on d (ListH.refAt 0) w = .ok (.elem (w.lists d).buffer (0 : Nat)) w := refAt_ok h h0
  rw [Cpp.bind_ok hr]
  exact congrArg some (Cpp.bind_fault hf)

end ListWorld

namespace DictWorld
variable {κ ν : Type} {cmp : κ → κ → Option Ordering} {ord : κ → κ → Ordering} [Std.TransCmp ord]
  (mk : Option κ → Option κ) (mv : Option ν → Option ν)

theorem countOf_ok (w : DictWorld κ ν) (s : Nat) : onKeys (ListWorld.countOf s) w = .ok (w.keys.lists s).count w := by
  unfold onKeys
  rw [ListWorld.countOf_ok]

theorem copyFrom_eq {w : DictWorld κ ν} {ms : Nat → κ → Option ν} (h : Stores ord w ms) (d s : Nat) (append : Bool) :
    ∃ w' ds, copyFrom mk mv cmp d s append w = setLoop mk mv cmp d s (ds s).keys.length 0 w' ∧ Rel w' ds ∧
      ∀ n, Spec.Lists ord (upd ms d (if append then ms d else fun _ => none) n) (ds n).keys (ds n).values := by
  obtain ⟨ds, hr, hl⟩ := h
  cases append with
  | true =>
    refine ⟨w, ds, ?_, hr, ?_⟩
    · unfold copyFrom
      rw [Cpp.bind_ok (show (show Cpp (DictWorld κ ν) Unit from if true then pure () else do
        let _ ← clear d
        return ()) w = .ok () w from rfl), Cpp.bind_ok (countOf_ok w s), hr.keys.count s,
        Int.toNat_natCast]
    · rw [if_pos rfl, upd_eq]; exact hl
  | false =>
    obtain ⟨w', e, h'⟩ := call_ok (clear_refines w d ds) hr (r := true) (x := DictC.empty) rfl
    refine ⟨w', _, ?_, h', ?_⟩
    · unfold copyFrom
      rw [Cpp.bind_ok (s' := w') (a := ()) (by
        show (do
          let _ ← clear d
          return ()) w = _
        rw [Cpp.bind_ok e]; rfl), Cpp.bind_ok (countOf_ok w' s), h'.keys.count s,
        Int.toNat_natCast]
    · intro n
      by_cases hn : n = d
      · subst hn; simp only [upd_self]; exact Spec.Lists.empty
      · simp only [upd_ne hn]; exact hl n

theorem copyFrom_other (hcmp : ∀ a b, cmp a b = some (ord a b)) {w : DictWorld κ ν} {ms : Nat → κ → Option ν} {d s : Nat}
    (append : Bool) (h : Stores ord w ms) (hds : d ≠ s) :
    ∃ w', copyFrom mk mv cmp d s append w = .ok () w' ∧
      Stores ord w' (upd ms d (Spec.mapJoin (if append then ms d else fun _ => none) (ms s))) := by
  obtain ⟨w1, ds, e, hr, hl⟩ := copyFrom_eq mk mv (cmp := cmp) h d s append
  have hs := hl s
  rw [upd_ne (Ne.symm hds)] at hs
  have hd := hl d
  rw [upd_self] at hd
  obtain ⟨w2, x, e2, h2, m2⟩ := setLoop_other mk mv hcmp hds _ 0 w1 ds _ hr (Nat.zero_add _) hs.length hd
  rw [List.drop_zero, fold_lists hs] at m2
  refine ⟨w2, e.trans e2, _, h2, ?_⟩
  intro n
  by_cases hn : n = d
  · subst hn; simp only [upd_self]; exact m2
  · have := hl n
    simp only [upd_ne hn] at this ⊢; exact this

theorem copyFrom_self (hcmp : ∀ a b, cmp a b = some (ord a b)) {w : DictWorld κ ν} {ms : Nat → κ → Option ν} (d : Nat)
    (append : Bool) (h : Stores ord w ms) :
    ∃ w', copyFrom mk mv cmp d d append w = .ok () w' ∧ Stores ord w' (upd ms d (if append then ms d else fun _ => none)) := by
  obtain ⟨w1, ds, e, hr, hl⟩ := copyFrom_eq mk mv (cmp := cmp) h d d append
  obtain ⟨w2, e2, h2⟩ := setLoop_own mk mv hcmp _ 0 w1 ds _ hr (Nat.zero_add _) (hl d)
  exact ⟨w2, e.trans e2, ds, h2, hl⟩

end DictWorld

namespace GroupWorld
variable {κ ν : Type} {cmp : κ → κ → Option Ordering} {ord : κ → κ → Ordering} [Std.TransCmp ord]
  (mk : Option κ → Option κ) (mv : Option ν → Option ν)

theorem copyFrom_eq {w : GroupWorld κ ν} {ms : Nat → κ → List ν} (h : Stores ord w ms) (d s : Nat) (append : Bool) :
    ∃ w' ks ps h', copyFrom mk mv cmp d s append w = enumLoop mk mv cmp d (GroupEnum.cls.create s) w' ∧
      Shot ord w' (upd ms d (if append then ms d else fun _ => [])) ks ps h' := by
  obtain ⟨ks, ps, h, h1, h2, ht, hg⟩ := h
  have hs : Shot ord w ms ks ps h := ⟨h1, h2, ht, hg⟩
  cases append with
  | true => exact ⟨w, ks, ps, h, rfl, by rw [if_pos rfl, upd_eq]; exact hs⟩
  | false =>
    obtain ⟨w', h', e, hs'⟩ := hs.clear d
    refine ⟨w', _, _, h', ?_, hs'⟩
    unfold copyFrom
    rw [if_neg (by simp), e]

theorem Shot.stores {w : GroupWorld κ ν} {ms : Nat → κ → List ν} {ks : Nat → List κ} {ps : Nat → List Nat}
    {h : List (Option (List ν))} (hs : Shot ord w ms ks ps h) : Stores ord w ms :=
  ⟨ks, ps, h, hs.keys, hs.values, hs.targets, hs.groups⟩

theorem copyFrom_other (hcmp : ∀ a b, cmp a b = some (ord a b)) {w : GroupWorld κ ν} {ms : Nat → κ → List ν} {d s : Nat}
    (append : Bool) (h : Stores ord w ms) (hds : d ≠ s) :
    ∃ w', copyFrom mk mv cmp d s append w = some (.ok () w') ∧
      Stores ord w' (upd ms d (Spec.groupJoin (if append then ms d else fun _ => []) (ms s))) := by
  obtain ⟨w1, ks, ps, h1, e, hs⟩ := copyFrom_eq mk mv (cmp := cmp) h d s append
  obtain ⟨w2, ks', ps', h2, e2, hs2⟩ := GroupEnum.enumLoop_other mk mv hcmp hds _ w1 _ ks ps h1 (GroupEnum.cls.create s) 0 0 hs
    ⟨rfl, rfl, .inr ⟨rfl, rfl⟩⟩ (fun _ => Nat.zero_le _) rfl
  refine ⟨w2, e.trans e2, ?_⟩
  obtain ⟨vss, hl, _⟩ := hs.groups.models s
  obtain ⟨vss', hl', _⟩ := hs.groups.models d
  rw [GroupEnum.rest_zero, GroupEnum.fold_pairs hl (fun _ _ h => hl'.congr h), upd_self, upd_upd, upd_ne (Ne.symm hds)] at hs2
  exact hs2.stores

/-- a group that has no values, or is cleared, before it is copied to itself -/
theorem copyFrom_self_empty {w : GroupWorld κ ν} {ms : Nat → κ → List ν} (d : Nat) (append : Bool) (h : Stores ord w ms)
    (h0 : append = true → ∀ k, ms d k = []) :
    ∃ w', copyFrom mk mv cmp d d append w = some (.ok () w') ∧ Stores ord w' (upd ms d (fun _ => [])) := by
  obtain ⟨w1, ks, ps, h1, e, hs⟩ := copyFrom_eq mk mv (cmp := cmp) h d d append
  have hm : (if append then ms d else fun _ => []) = fun _ => [] := by
    cases append with
    | false => rfl
    | true => funext k; exact h0 rfl k
  rw [hm] at hs
  obtain ⟨vss, hl, _⟩ := hs.groups.models d
  simp only [upd_self] at hl
  have hk : ks d = [] := by
    cases hk : ks d with
    | nil => rfl
    | cons k r =>
      have h0 : 0 < (ks d).length := by rw [hk]; simp
      have := hl.at h0
      exact absurd rfl (hl.nonempty _ (List.mem_of_getElem? this))
  obtain ⟨e', en⟩ := GroupEnum.next_none hs (e := GroupEnum.cls.create d) (s := d) (k := 0) (j := 0)
    ⟨rfl, rfl, .inr ⟨rfl, rfl⟩⟩ (by rw [hk]; simp)
  refine ⟨w1, ?_, hs.stores⟩
  rw [e]
  unfold enumLoop
  rw [en]

theorem copyFrom_self (hcmp : ∀ a b, cmp a b = some (ord a b)) {w : GroupWorld κ ν} {ms : Nat → κ → List ν} (d : Nat)
    (h : Stores ord w ms) (hk : ∃ k, ms d k ≠ []) : copyFrom mk mv cmp d d true w = none := by
  obtain ⟨k, hk⟩ := hk
  obtain ⟨w1, ks, ps, h1, e, hs⟩ := copyFrom_eq mk mv (cmp := cmp) h d d true
  rw [e]
  rw [if_pos rfl, upd_eq] at hs
  obtain ⟨vss, hl, _⟩ := hs.groups.models d
  have h0 : 0 < (ks d).length := by
    rcases hl.entries k with ⟨i, x, hx, _, _⟩ | ⟨_, h2⟩
    · exact Nat.lt_of_le_of_lt (Nat.zero_le i) (List.getElem?_eq_some_iff.1 hx).1
    · exact absurd h2 hk
  refine GroupEnum.enumLoop_own mk mv hcmp hs (j := 0) ⟨rfl, rfl, .inr ⟨rfl, rfl⟩⟩ h0 ?_
  exact List.length_pos_iff.2 (hl.nonempty _ (List.mem_of_getElem? (hl.at h0)))

end GroupWorld
end Vlpp
