import Verif.Model.JoinEff
import Verif.Props.GroupProps

/-!
# Property C114: callbacks of `GroupInnerJoin`
-/
set_option autoImplicit false
namespace Vlpp
namespace JoinEff
variable {κ α β W : Type}

/-- calls one after another, until one throws -/
def calls {σ ε : Type} (call : ε → Cpp σ Unit) : List ε → Cpp σ Unit
  | [] => pure ()
  | e :: es => fun s =>
    match call e s with
    | .ok _ s => calls call es s
    | .err s => .err s
    | .fault => .fault

/-- the callbacks do not change the groups -/
def Keeps (call : Spec.JoinEvent κ α β → Cpp (State κ α β W) Unit) : Prop :=
  ∀ e s s', call e s = .ok () s' → s'.first = s.first ∧ s'.second = s.second

theorem get_ok {γ : Type} {xs : List γ} {i : Nat} {x : γ} (h : xs[i]? = some x) : SeqList.get (i : Int) xs = .ok x xs := by
  have hi : i < xs.length := (List.getElem?_eq_some_iff.1 h).1
  simp only [SeqList.get, Cpp.bind_apply, Cpp.get_apply]
  rw [Cpp.check_true (by omega)]
  simp [h]

theorem first_key {s : State κ α β W} {i : Nat} {k : κ} (h : s.first.keys[i]? = some k) :
    onFirst (GroupC.onKeys (SeqList.get (i : Int))) s = .ok k s := by
  simp [onFirst, GroupC.onKeys, get_ok h]

theorem second_key {s : State κ α β W} {i : Nat} {k : κ} (h : s.second.keys[i]? = some k) :
    onSecond (GroupC.onKeys (SeqList.get (i : Int))) s = .ok k s := by
  simp [onSecond, GroupC.onKeys, get_ok h]

theorem getByIndex_state {ν : Type} {g g' : GroupC κ ν} {i : Int} {vs : List ν} (h : GroupC.getByIndex i g = .ok vs g') : g' = g := by
  have hget : ∀ {xs xs' : List Nat} {x : Nat}, SeqList.get i xs = .ok x xs' → xs' = xs := by
    intro xs xs' x h
    simp only [SeqList.get, Cpp.bind_apply, Cpp.get_apply, Cpp.check_apply] at h
    by_cases c : 0 ≤ i ∧ i < (xs.length : Int)
    · rw [if_pos c] at h
      dsimp only at h
      cases e : xs[i.toNat]? with
      | none => rw [e] at h; cases h
      | some y => rw [e] at h; cases h; rfl
    · rw [if_neg c] at h
      cases h
  unfold GroupC.getByIndex at h
  simp only [Cpp.bind_apply, GroupC.onValues] at h
  cases e : SeqList.get i g.values with
  | err => rw [e] at h; cases h
  | fault => rw [e] at h; cases h
  | ok p vs' =>
    rw [e] at h
    have := hget e
    subst this
    simp only [GroupC.onTarget, Cpp.get_apply] at h
    cases e2 : g.heap[p]? with
    | none => rw [e2] at h; cases h
    | some o =>
      cases o with
      | none => rw [e2] at h; cases h
      | some ws =>
        rw [e2] at h
        cases h
        have : g.heap.set p (some vs) = g.heap := by
          apply List.ext_getElem?
          intro n
          rw [List.getElem?_set]
          split
          · next hn =>
            subst hn
            split
            · exact e2.symm
            · next hl =>
              rw [List.getElem?_eq_none (by omega)] at e2
              cases e2
          · rfl
        rw [this]

theorem first_values {s : State κ α β W} {i : Nat} {as : List α} (h : s.first.listAt i = some as) :
    onFirst (GroupC.getByIndex (i : Int)) s = .ok as s := by
  unfold GroupC.listAt at h
  cases e : GroupC.getByIndex (i : Int) s.first with
  | err => rw [e] at h; cases h
  | fault => rw [e] at h; cases h
  | ok vs g =>
    rw [e] at h
    cases h
    have := getByIndex_state e
    subst this
    simp [onFirst, e]

theorem second_values {s : State κ α β W} {i : Nat} {bs : List β} (h : s.second.listAt i = some bs) :
    onSecond (GroupC.getByIndex (i : Int)) s = .ok bs s := by
  unfold GroupC.listAt at h
  cases e : GroupC.getByIndex (i : Int) s.second with
  | err => rw [e] at h; cases h
  | fault => rw [e] at h; cases h
  | ok vs g =>
    rw [e] at h
    cases h
    have := getByIndex_state e
    subst this
    simp [onSecond, e]

theorem loop_calls (cmp : κ → κ → Option Ordering) {call : Spec.JoinEvent κ α β → Cpp (State κ α β W) Unit} (hc : Keeps call)
    (g1 : GroupC κ α) (g2 : GroupC κ β) : ∀ (n i j : Nat) (s : State κ α β W) (es : List (Spec.JoinEvent κ α β)),
    (g1.keys.length - i) + (g2.keys.length - j) ≤ n → s.first = g1 → s.second = g2 → joinLoop cmp g1 g2 i j = some es →
    loop cmp call g1.keys.length g2.keys.length i j s = calls call es s := by
  intro n
  induction n with
  | zero =>
    intro i j s es hn _ _ h
    unfold joinLoop at h
    rw [dif_neg (by omega), dif_neg (by omega)] at h
    cases h
    unfold loop
    rw [dif_neg (by omega), dif_neg (by omega)]
    rfl
  | succ n ih =>
    intro i j s es hn h1 h2 h
    have step : ∀ (e : Spec.JoinEvent κ α β) (es' : List (Spec.JoinEvent κ α β)) (i' j' : Nat),
        (g1.keys.length - i') + (g2.keys.length - j') ≤ n → joinLoop cmp g1 g2 i' j' = some es' →
        (do call e; loop cmp call g1.keys.length g2.keys.length i' j') s = calls call (e :: es') s := by
      intro e es' i' j' hn' h'
      simp only [Cpp.bind_apply, calls]
      cases hr : call e s with
      | err => rfl
      | fault => rfl
      | ok u s' =>
        obtain ⟨k1, k2⟩ := hc e s s' hr
        exact ih i' j' s' es' hn' (k1.trans h1) (k2.trans h2) h'
    unfold joinLoop at h
    unfold loop
    by_cases c1 : i < g1.keys.length
    · rw [dif_pos c1] at h ⊢
      have ek : g1.keys[i]? = some g1.keys[i] := List.getElem?_eq_getElem c1
      rw [ek] at h
      simp only [Option.bind_eq_bind, Option.bind_some] at h
      cases ea : g1.listAt i with
      | none => rw [ea] at h; cases h
      | some as =>
        rw [ea] at h
        simp only [Option.bind_some] at h
        rw [Cpp.bind_ok (first_key (by rw [h1]; exact ek)), Cpp.bind_ok (first_values (by rw [h1]; exact ea))]
        by_cases c2 : j < g2.keys.length
        · rw [dif_pos c2] at h ⊢
          have ek2 : g2.keys[j]? = some g2.keys[j] := List.getElem?_eq_getElem c2
          rw [ek2] at h
          simp only [Option.bind_some] at h
          cases eb : g2.listAt j with
          | none => rw [eb] at h; cases h
          | some bs =>
            rw [eb] at h
            simp only [Option.bind_some] at h
            rw [Cpp.bind_ok (second_key (by rw [h2]; exact ek2)), Cpp.bind_ok (second_values (by rw [h2]; exact eb))]
            by_cases cl : cmp g1.keys[i] g2.keys[j] = some .lt
            · rw [if_pos cl] at h ⊢
              obtain ⟨es', e1, e2⟩ := Option.bind_eq_some_iff.1 h
              cases e2
              exact step _ _ _ _ (by omega) e1
            · rw [if_neg cl] at h ⊢
              by_cases cg : cmp g1.keys[i] g2.keys[j] = some .gt
              · rw [if_pos cg] at h ⊢
                obtain ⟨es', e1, e2⟩ := Option.bind_eq_some_iff.1 h
                cases e2
                exact step _ _ _ _ (by omega) e1
              · rw [if_neg cg] at h ⊢
                obtain ⟨es', e1, e2⟩ := Option.bind_eq_some_iff.1 h
                cases e2
                exact step _ _ _ _ (by omega) e1
        · rw [dif_neg c2] at h ⊢
          obtain ⟨es', e1, e2⟩ := Option.bind_eq_some_iff.1 h
          cases e2
          exact step _ _ _ _ (by omega) e1
    · rw [dif_neg c1] at h ⊢
      by_cases c2 : j < g2.keys.length
      · rw [dif_pos c2] at h ⊢
        have ek2 : g2.keys[j]? = some g2.keys[j] := List.getElem?_eq_getElem c2
        rw [ek2] at h
        simp only [Option.bind_eq_bind, Option.bind_some] at h
        cases eb : g2.listAt j with
        | none => rw [eb] at h; cases h
        | some bs =>
          rw [eb] at h
          simp only [Option.bind_some] at h
          rw [Cpp.bind_ok (second_key (by rw [h2]; exact ek2)), Cpp.bind_ok (second_values (by rw [h2]; exact eb))]
          obtain ⟨es', e1, e2⟩ := Option.bind_eq_some_iff.1 h
          cases e2
          exact step _ _ _ _ (by omega) e1
      · rw [dif_neg c2] at h ⊢
        cases h
        rfl

/-- **C114.** For any two groups obtained by any histories, and callbacks that do anything but change the groups: the calls that are due are
made one after another, with ascending keys, each in the state that the one before has left; the first one that throws ends `GroupInnerJoin` in the
state in which it has thrown. Missing: callbacks that change the groups (`C114_violated_change`), keys that are not comparable
(`C114_violated_unordered`). -/
theorem _root_.Vlpp.C114_calls_partial {cmp : κ → κ → Option Ordering} {ord : κ → κ → Ordering} [Std.TransCmp ord]
    (hcmp : ∀ a b, cmp a b = some (ord a b)) (eq1 : α → α → Bool) (eq2 : β → β → Bool)
    (ops1 : List (Spec.GroupOp κ α)) (ops2 : List (Spec.GroupOp κ β))
    {s1 : GroupC κ α} {r1 : List (Spec.GroupRet α)} (hrun1 : GroupC.run cmp eq1 GroupC.empty ops1 = some (s1, r1))
    {s2 : GroupC κ β} {r2 : List (Spec.GroupRet β)} (hrun2 : GroupC.run cmp eq2 GroupC.empty ops2 = some (s2, r2))
    {call : Spec.JoinEvent κ α β → Cpp (State κ α β W) Unit} (hc : Keeps call) (w : W) :
    ∃ es, join cmp call ⟨s1, s2, w⟩ = calls call es ⟨s1, s2, w⟩ ∧
      es.Pairwise (fun a b => ord a.key b.key = .lt) ∧
      ∀ e, e ∈ es ↔ Spec.JoinEvent.Due (Spec.groupRun ord eq1 (fun _ => []) ops1).1 s1.keys
        (Spec.groupRun ord eq2 (fun _ => []) ops2).1 s2.keys e := by
  obtain ⟨es, e, hp, hd⟩ := C14_groupInnerJoin hcmp eq1 eq2 ops1 ops2 hrun1 hrun2
  exact ⟨es, loop_calls cmp hc s1 s2 _ 0 0 _ es (Nat.le_refl _) rfl rfl e, hp, hd⟩

/-- **C114.** An exception of a callback: the calls before it have been made, no other is made, and the exception leaves `GroupInnerJoin`. -/
theorem _root_.Vlpp.C114_throws (cmp : κ → κ → Option Ordering) {call : Spec.JoinEvent κ α β → Cpp (State κ α β W) Unit} (hc : Keeps call)
    (s s' s'' : State κ α β W) (made rest : List (Spec.JoinEvent κ α β)) (e : Spec.JoinEvent κ α β)
    (h : groupInnerJoin cmp s.first s.second = some (made ++ e :: rest)) (hm : calls call made s = .ok () s') (he : call e s' = .err s'') :
    join cmp call s = .err s'' := by
  have hl := loop_calls cmp hc s.first s.second _ 0 0 s _ (Nat.le_refl _) rfl rfl h
  refine hl.trans ?_
  clear h hl
  induction made generalizing s with
  | nil =>
    have hm : Outcome.ok () s = .ok () s' := hm
    cases hm
    simp only [List.nil_append, calls, he]
  | cons x made ih =>
    simp only [calls, List.cons_append] at hm ⊢
    cases hx : call x s with
    | err => rw [hx] at hm; cases hm
    | fault => rw [hx] at hm; cases hm
    | ok u s1 => rw [hx] at hm; exact ih s1 hm

/-- **C114** is violated if a callback changes the groups, although they are read again before every call: if after the first call only one of
several keys of the first group is left, for example because the callback has removed the key that it got, there is an Error and no other call. -/
theorem _root_.Vlpp.C114_violated_change (cmp : κ → κ → Option Ordering) (call : Spec.JoinEvent κ α β → Cpp (State κ α β W) Unit)
    (s s' : State κ α β W) (k : κ) (as : List α) (hk : s.first.keys[0]? = some k) (ha : s.first.listAt 0 = some as)
    (h1 : 2 ≤ s.first.keys.length) (h2 : s.second.keys = []) (hcall : call (.discardFirst k as) s = .ok () s')
    (h3 : s'.first.keys.length ≤ 1) : join cmp call s = .err s' := by
  have herr : onFirst (GroupC.onKeys (SeqList.get ((1 : Nat) : Int))) s' = .err s' := by
    have : SeqList.get ((1 : Nat) : Int) s'.first.keys = .err s'.first.keys := by
      simp only [SeqList.get, Cpp.bind_apply, Cpp.get_apply]
      rw [Cpp.check_false (by omega)]
    simp only [onFirst, GroupC.onKeys, this]
  unfold join
  rw [h2]
  unfold loop
  rw [dif_pos (by omega), Cpp.bind_ok (first_key hk), Cpp.bind_ok (first_values ha), dif_neg (by simp), Cpp.bind_ok hcall]
  unfold loop
  rw [dif_pos (by omega), Cpp.bind_err herr]

/-- **C114** is violated if the keys of the two groups are not comparable, like a number and one that is not a number: `accept` is called with the
first key and the values of both. -/
theorem _root_.Vlpp.C114_violated_unordered (cmp : κ → κ → Option Ordering) {call : Spec.JoinEvent κ α β → Cpp (State κ α β W) Unit}
    (hc : Keeps call) (s : State κ α β W) (k1 k2 : κ) (as : List α) (bs : List β)
    (hk1 : s.first.keys = [k1]) (hk2 : s.second.keys = [k2]) (ha : s.first.listAt 0 = some as) (hb : s.second.listAt 0 = some bs)
    (hu : cmp k1 k2 = none) : join cmp call s = call (.accept k1 as bs) s := by
  have h : joinLoop cmp s.first s.second 0 0 = some [.accept k1 as bs] := ?_
  · refine (loop_calls cmp hc s.first s.second _ 0 0 s _ (Nat.le_refl _) rfl rfl h).trans ?_
    simp only [calls]
    cases call (.accept k1 as bs) s <;> rfl
  unfold joinLoop
  rw [dif_pos (by simp [hk1]), hk1, ha]
  simp only [List.getElem?_cons_zero, Option.bind_eq_bind, Option.bind_some]
  rw [dif_pos (by simp [hk2]), hk2, hb]
  simp only [List.getElem?_cons_zero, Option.bind_some, hu, reduceCtorEq, if_false]
  unfold joinLoop
  rw [dif_neg (by simp [hk1]), dif_neg (by simp [hk2])]
  rfl

/-- callbacks that write down the keys, and throw if there are two -/
def noting : Spec.JoinEvent Nat Nat Nat → Cpp (State Nat Nat Nat (List Nat)) Unit := fun e s =>
  if s.world.length ≥ 2 then .err s else .ok () { s with world := s.world ++ [e.key] }

theorem noting_keeps : Keeps noting := by
  intro e s s' h
  unfold noting at h
  split at h
  · cases h
  · cases h; exact ⟨rfl, rfl⟩

/-- keys 1, 2, 5 and 2, 4: the third call throws -/
example : join (fun a b : Nat => some (compare a b)) noting ⟨⟨[1, 2, 5], [0, 1, 2], [some [10], some [20], some [50]]⟩,
    ⟨[2, 4], [0, 1], [some [21], some [40]]⟩, []⟩ =
      .err ⟨⟨[1, 2, 5], [0, 1, 2], [some [10], some [20], some [50]]⟩, ⟨[2, 4], [0, 1], [some [21], some [40]]⟩, [1, 2]⟩ :=
  C114_throws _ noting_keeps _ ⟨⟨[1, 2, 5], [0, 1, 2], [some [10], some [20], some [50]]⟩, ⟨[2, 4], [0, 1], [some [21], some [40]]⟩, [1, 2]⟩ _
    [.discardFirst 1 [10], .accept 2 [20] [21]] [.discardFirst 5 [50]] (.discardSecond 4 [40]) (by decide +kernel) rfl rfl

/-- `discardFirst` removes the key from the first group: two keys, one call, then an Error -/
example : ∃ s', join (fun a b : Nat => some (compare a b))
      (fun e => do let _ ← onFirst (GroupC.removeKey (fun a b => some (compare a b)) e.key); pure ())
      (⟨⟨[1, 2], [0, 1], [some [10], some [20]]⟩, ⟨[], [], []⟩, ()⟩ : State Nat Nat Nat Unit) = .err s' ∧ s'.first.keys = [2] := by
  refine ⟨⟨⟨[2], [1], [none, some [20]]⟩, ⟨[], [], []⟩, ()⟩, ?_, rfl⟩
  exact C114_violated_change _ _ _ _ 1 [10] rfl rfl (by decide) rfl (by with_unfolding_all rfl) (by decide)

/-- a key that is not comparable with anything gets into an empty group -/
example : ∃ s1 r1 s2 r2, GroupC.run (fun _ _ : Nat => none) (fun a b : Nat => a == b) GroupC.empty [.add 1 10] = some (s1, r1) ∧
    GroupC.run (fun _ _ : Nat => none) (fun a b : Nat => a == b) GroupC.empty [.add 2 20] = some (s2, r2) ∧
    join (fun _ _ : Nat => none) noting ⟨s1, s2, []⟩ = .ok () ⟨s1, s2, [1]⟩ :=
  ⟨⟨[1], [0], [some [10]]⟩, _, ⟨[2], [0], [some [20]]⟩, _, by with_unfolding_all rfl, by with_unfolding_all rfl,
    C114_violated_unordered _ noting_keeps ⟨_, _, []⟩ 1 2 [10] [20] rfl rfl rfl rfl rfl⟩

end JoinEff
end Vlpp
