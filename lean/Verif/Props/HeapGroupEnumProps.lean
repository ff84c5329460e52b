import Verif.Lemmas.HeapGroupEnum
import Verif.Props.HeapEnumProps
import Verif.Props.HeapGroupProps

/-!
# Property C85, continued: enumerators of groups
-/
set_option autoImplicit false
namespace Vlpp
open EnumClass
variable {κ ν : Type}

/-- the careful programs over groups and enumerators -/
def CarefulGroups (ord : κ → κ → Ordering) (eq : ν → ν → Bool) (ops : List (Spec.CursorOp (Spec.GroupOp κ ν))) : Prop :=
  Spec.Careful (Spec.groupCursors ord) (fun x op x' r => Spec.groupStep ord eq x op = (x', r)) (fun _ _ => True) (fun _ => [])
    (.flag true) .error (fun _ _ => []) (fun _ => ⟨0, (-1, -1), .nothing⟩) ops

/-- groups and enumerators on the model -/
def groupsRun (mk : Option κ → Option κ) (mv : Option ν → Option ν) (cmp : κ → κ → Option Ordering) (eq : ν → ν → Bool)
    (ops : List (Spec.CursorOp (Spec.GroupOp κ ν))) :
    Option (EnumWorld (GroupWorld κ ν) (GroupEnum κ ν) × List (Spec.CursorRet (Spec.GroupRet ν) (κ × ν))) :=
  EnumWorld.run (GroupWorld.movable mk mv cmp eq) GroupEnum.cls (.flag true) .error ⟨GroupWorld.empty, fun _ => GroupEnum.cls.create 0⟩ ops

section
variable (mk : Option κ → Option κ) (mv : Option ν → Option ν) (eq : ν → ν → Bool) {cmp : κ → κ → Option Ordering}
  {ord : κ → κ → Ordering} [Std.TransCmp ord]

theorem groups_run (hcmp : ∀ a b, cmp a b = some (ord a b))
    (ops : List (Spec.CursorOp (Spec.GroupOp κ ν))) (hv : CarefulGroups ord eq ops) :
    ∃ w ms cs rs, groupsRun mk mv cmp eq ops = some (w, rs) ∧ GroupWorld.Stores ord w.objects ms ∧
      (∀ n, GroupEnum.Is w.objects (w.enums n) (cs n)) ∧
      Spec.CursorRun (Spec.groupCursors ord) (fun x op x' r => Spec.groupStep ord eq x op = (x', r)) (fun _ => []) (.flag true) .error
        (fun _ _ => []) (fun _ => ⟨0, (-1, -1), .nothing⟩) ops ms cs rs :=
  CursorSim.run (moved := .flag true) (GroupWorld.moveSim mk mv eq hcmp) (GroupEnum.sim mk mv eq hcmp _ _) ops
    (w := ⟨GroupWorld.empty, fun _ => GroupEnum.cls.create 0⟩) (cs := fun _ => ⟨0, (-1, -1), .nothing⟩)
    GroupWorld.stores_empty
    (fun _ => ⟨rfl, rfl, fun _ => rfl, fun h => (nomatch h), Int.le_refl _, .inl ⟨rfl, rfl⟩⟩) hv

/-- **C85, partial.** Any program over any number of groups and any number of enumerators of them that calls `Current` only when the
group was not changed since the last `Next` (which returned true): no undefined behaviour, and `Next` returns; it goes to the first value
after its position that the group has now, in the order of the keys and of the values of each key, or tells that there is none.
Missing: programs that call `Current` at other times, see `C85_violated_group`. -/
theorem C85_group_partial (hcmp : ∀ a b, cmp a b = some (ord a b))
    (ops : List (Spec.CursorOp (Spec.GroupOp κ ν))) (hv : CarefulGroups ord eq ops) :
    ∃ w ms cs rs ks ps xs, groupsRun mk mv cmp eq ops = some (w, rs) ∧
      Spec.CursorRun (Spec.groupCursors ord) (fun x op x' r => Spec.groupStep ord eq x op = (x', r)) (fun _ => []) (.flag true) .error
        (fun _ _ => []) (fun _ => ⟨0, (-1, -1), .nothing⟩) ops ms cs rs ∧
      w.objects.Holds ks ps xs ∧ ∀ n, Spec.GroupLists ord (ms n) (ks n) ((ps n).map xs) := by
  obtain ⟨w, ms, cs, rs, e, hst, _, hr⟩ := groups_run mk mv eq hcmp ops hv
  obtain ⟨ks, ps, xs, h1, h2⟩ := GroupWorld.holds_of hst
  exact ⟨w, ms, cs, rs, ks, ps, xs, e, hr, h1, h2⟩

/-- **C85 is violated by groups**: after any careful program, when `Next` returned true, clearing the group makes `Current` undefined: it
returns a pair of references to memory that was released. -/
theorem C85_violated_group (hcmp : ∀ a b, cmp a b = some (ord a b))
    (ops : List (Spec.CursorOp (Spec.GroupOp κ ν))) (hv : CarefulGroups ord eq ops) (e : Nat)
    (w : EnumWorld (GroupWorld κ ν) (GroupEnum κ ν)) (rs : List (Spec.CursorRet (Spec.GroupRet ν) (κ × ν)))
    (h : groupsRun mk mv cmp eq (ops ++ [.next e]) = some (w, rs ++ [.flag true])) :
    groupsRun mk mv cmp eq (ops ++ [.next e, .object (.call (w.enums e).container .clear), .current e]) = none := by
  obtain ⟨w0, ms, cs, rs0, e0, hst, hQ, _⟩ := groups_run mk mv eq hcmp ops hv
  obtain ⟨b, e', c', hn, hNext, hIs⟩ := (GroupEnum.sim mk mv eq hcmp (.flag true) .error).next _ _ _ _ hst (hQ e)
  have hstep : EnumWorld.step (GroupWorld.movable mk mv cmp eq) GroupEnum.cls (.flag true) .error w0 (.next e) =
      some (⟨w0.objects, fun n => if n = e then e' else w0.enums n⟩, .flag b) := by
    simp only [EnumWorld.step]
    rw [Cpp.bind_ok (show EnumWorld.on e GroupEnum.cls.next w0 = .ok b ⟨w0.objects, fun n => if n = e then e' else w0.enums n⟩ by
      simp only [EnumWorld.on, hn])]
    rfl
  unfold groupsRun at h e0 ⊢
  rw [EnumWorld.run_append, e0] at h ⊢
  simp only [Option.bind_some, EnumWorld.run, hstep, Option.bind_eq_bind, Option.pure_def, Option.map_some, Option.some.injEq,
    Prod.mk.injEq] at h ⊢
  obtain ⟨rfl, hrs⟩ := h
  have hb : b = true := by
    have := (List.append_inj' hrs rfl).2
    simpa using this
  subst hb
  obtain ⟨_, _, _, _, hpos⟩ := hNext
  rw [if_pos rfl] at hpos
  obtain ⟨g0, g1, g2, p, g3, g4, g5⟩ := hIs.entry hpos.2.2.2
  obtain ⟨ks, ps, hp, h1, h2, h3, h4⟩ := hst
  obtain ⟨wo, h', e1, r1, _, _, _, hother⟩ := GroupWorld.clear_ok h1 h2 h3 h4 e'.container
  have hclear : (GroupWorld.movable mk mv cmp eq).step (.flag true) .error w0.objects (.call e'.container .clear) =
      some (wo, .flag true) := by
    simp only [Movable.step, GroupWorld.movable, GroupWorld.call]
    rw [Cpp.bind_ok e1]
    rfl
  have hbuf : (wo.keys.lists e'.container).buffer = none := by
    unfold GroupWorld.clear at e1
    obtain ⟨_, s1, _, e1⟩ := Cpp.bind_eq_ok e1
    obtain ⟨_, s2, _, e1⟩ := Cpp.bind_eq_ok e1
    obtain ⟨_, s3, h3, e1⟩ := Cpp.bind_eq_ok e1
    obtain ⟨_, s4, h5, e1⟩ := Cpp.bind_eq_ok e1
    cases e1
    unfold GroupWorld.onKeys at h3
    unfold GroupWorld.onValues at h5
    split at h3
    · next e3 =>
      cases h3
      split at h5
      · cases h5
        exact clear_buffer e3
      · cases h5
      · cases h5
    · cases h3
    · cases h3
  obtain ⟨_, hk0, hp0⟩ := h1
  obtain ⟨_, hk1, _⟩ := r1
  obtain ⟨a, ha⟩ : ∃ a, (w0.objects.keys.lists e'.container).buffer = some a := by
    cases hb : (w0.objects.keys.lists e'.container).buffer with
    | some a => exact ⟨a, rfl⟩
    | none =>
      have := (hk0.holds hp0).empty _ hb
      have hc := (hk0.holds hp0).count e'.container
      rw [this] at hc
      simp only [List.length_nil] at hc
      omega
  have hgone : wo.keys.heap.block a = none := by
    refine Classical.byContradiction fun hne => ?_
    obtain ⟨j, hj⟩ := hk1.owned a hne
    by_cases hje : j = e'.container
    · rw [hje, hbuf] at hj
      cases hj
    · rw [(hother j hje).1] at hj
      exact hk0.disjoint j _ a hje hj ha
  have hread : GroupEnum.cls.current (wo, e') = .fault := by
    show GroupEnum.readCurrent (wo, e') = _
    unfold GroupEnum.readCurrent
    rw [members_bind]
    simp only [g5, ha]
    rw [Cpp.bind_fault (onObjects_fault _)]
    unfold GroupWorld.readKey GroupWorld.onKeys ListWorld.on ListH.onHeap ElemRef.read Heap.access
    simp only [hgone]
  simp only [if_true, EnumWorld.step, hclear, Option.map_some, Option.bind_some]
  rw [Cpp.bind_fault (show EnumWorld.on e GroupEnum.cls.current _ = .fault by simp only [EnumWorld.on, if_true, hread])]
  rfl

end

/-- A group changes under an enumerator: `Next` goes on from the position, whatever is before it; another group may change between `Next`
and `Current`. -/
example :
    let ops : List (Spec.CursorOp (Spec.GroupOp Int Int)) :=
      [.object (.call 0 (.add 3 30)), .next 0, .object (.call 1 (.add 3 31)), .current 0, .object (.call 0 (.add 3 32)), .next 0, .index 0]
    let M := groupsRun (ν := Int) (fun _ => none) (fun _ => none) (fun a b : Int => some (compare a b)) (· == ·)
    CarefulGroups compare (· == ·) ops ∧
    (M ops).map (fun p => (p.2, (p.1.enums 0).container)) =
      some ([.object (.flag true), .flag true, .object (.flag true), .item (3, 30), .object (.flag true), .flag true, .index 1], 0) ∧
    (M (ops ++ [.current 0, .object (.call 0 (.add 1 10)), .next 0])).map (·.2) =
      some [.object (.flag true), .flag true, .object (.flag true), .item (3, 30), .object (.flag true), .flag true, .index 1, .item (3, 32),
        .object (.flag true), .flag true] ∧
    (M (ops ++ [.reset 0, .clone 1 0, .current 1, .index 1])).map (·.2) =
      some [.object (.flag true), .flag true, .object (.flag true), .item (3, 30), .object (.flag true), .flag true, .index 1, .error, .done,
        .error, .index (-1)] ∧
    (M (ops ++ [.object (.call 0 .clear), .current 0])).isNone := by
  refine ⟨?_, by decide +kernel, by decide +kernel, by decide +kernel, by decide +kernel⟩
  have no : ∀ {o : Spec.CursorOp (Spec.GroupOp Int Int)} {P : Nat → Prop}, (∀ e, o ≠ .current e) → ∀ e, o = .current e → P e :=
    fun h e he => absurd he (h e)
  refine ⟨no (by simp), fun _ _ _ => trivial, ?_⟩
  intro xs cs r h
  cases h with | object op xs r h => ?_
  refine ⟨no (by simp), fun _ _ _ => trivial, ?_⟩
  intro xs cs r h
  cases h with | next e c b h => ?_
  obtain ⟨ks, vss, _, hcont, hb⟩ := h
  have hs : c.shown ≠ .unknown := by
    cases b with
    | true => rw [if_pos rfl] at hb; simp [hb.2.2.2]
    | false =>
      rw [if_neg (by simp)] at hb
      simp [hb.2.2, Spec.groupCursors, Spec.MoveOp.ChangesGroup, Spec.GroupOp.Modifies, Spec.Shown.outdated]
  have hc0 : c.container = 0 := by
    rw [hcont]
    simp [Spec.groupCursors, Spec.MoveOp.ChangesGroup, Spec.GroupOp.Modifies]
  refine ⟨no (by simp), fun _ _ _ => trivial, ?_⟩
  intro xs cs r h
  cases h with | object op xs r h => ?_
  refine ⟨?_, fun _ _ _ => trivial, fun _ _ _ _ => ⟨no (by simp), fun _ _ _ => trivial, fun _ _ _ _ => ⟨no (by simp), fun _ _ _ => trivial,
    fun _ _ _ _ => ⟨no (by simp), fun _ _ _ => trivial, fun _ _ _ _ => trivial⟩⟩⟩⟩
  intro e h
  cases h
  simp only [Spec.groupCursors, Spec.replace, if_true, Spec.MoveOp.ChangesGroup, hc0]
  exact hs

end Vlpp
