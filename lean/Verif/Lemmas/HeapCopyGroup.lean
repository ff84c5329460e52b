import Verif.Lemmas.HeapCopy

/-! # `CopyFrom` between groups of one memory -/
set_option autoImplicit false
namespace Vlpp
open EnumClass

namespace GroupWorld
variable {κ ν : Type} {ord : κ → κ → Ordering}
open ListWorld (Reps)

/-- what the groups are -/
structure Shot (ord : κ → κ → Ordering) (w : GroupWorld κ ν) (ms : Nat → κ → List ν) (ks : Nat → List κ) (ps : Nat → List Nat)
    (h : List (Option (List ν))) : Prop where
  keys : Reps w.keys ks
  values : Reps w.values ps
  targets : Targets w h
  groups : Groups ord ms ks ps h

section
variable [Std.TransCmp ord]

theorem _root_.Vlpp.Spec.GroupLists.congr {m : κ → List ν} {ks : List κ} {vss : List (List ν)} (h : Spec.GroupLists ord m ks vss)
    {a b : κ} (hab : ord a b = .eq) : m a = m b := by
  rcases h.entries a with ⟨i, x, hx, hxa, hv⟩ | ⟨h1, h2⟩
  · rcases h.entries b with ⟨j, y, hy, hyb, hv'⟩ | ⟨h3, h4⟩
    · have : i = j := strict_unique h.ascending hx hy
        (Std.TransCmp.eq_trans (Std.TransCmp.eq_trans hxa hab) (Std.OrientedCmp.eq_symm hyb))
      subst this
      rw [hv] at hv'
      exact Option.some.inj hv'
    · exact absurd (Std.TransCmp.eq_trans hxa hab) (h3 x (List.mem_of_getElem? hx))
  · rcases h.entries b with ⟨j, y, hy, hyb, hv'⟩ | ⟨h3, h4⟩
    · exact absurd (Std.TransCmp.eq_trans hyb (Std.OrientedCmp.eq_symm hab)) (h1 y (List.mem_of_getElem? hy))
    · rw [h2, h4]

theorem _root_.Vlpp.Spec.GroupLists.at {m : κ → List ν} {ks : List κ} {vss : List (List ν)} (h : Spec.GroupLists ord m ks vss)
    {i : Nat} (hi : i < ks.length) : vss[i]? = some (m ks[i]) := by
  rcases h.entries ks[i] with ⟨j, y, hy, hyb, hv⟩ | ⟨h3, _⟩
  · have : j = i := strict_unique h.ascending hy (List.getElem?_eq_getElem hi) hyb
    subst this
    exact hv
  · exact absurd (Std.ReflCmp.compare_self (cmp := ord)) (h3 _ (List.getElem_mem hi))

variable (mk : Option κ → Option κ) (mv : Option ν → Option ν) {cmp : κ → κ → Option Ordering}

/-- adding a pair -/
theorem Shot.add (hcmp : ∀ a b, cmp a b = some (ord a b)) {w : GroupWorld κ ν} {ms : Nat → κ → List ν} {ks : Nat → List κ}
    {ps : Nat → List Nat} {h : List (Option (List ν))} (hs : Shot ord w ms ks ps h) (d : Nat) (k : κ) (v : ν) :
    ∃ w' k' p' h', add mk mv cmp d k v w = .ok true w' ∧
      Shot ord w' (upd ms d (Spec.groupPut ord (ms d) k (ms d k ++ [v]))) (upd ks d k') (upd ps d p') h' ∧
      ((∃ x ∈ ks d, ord x k = .eq) → k' = ks d) := by
  obtain ⟨s', es, hm⟩ := GroupC.step_refines hcmp (fun _ _ => true) (hs.groups.models d) (.add k v)
  have hat : At w d ks ps w ⟨ks d, ps d, h⟩ := ⟨ListWorld.AtBy.start hs.keys d, ListWorld.AtBy.start hs.values d, hs.targets⟩
  have href := add_refines mk mv cmp k v w _ hat
  simp only [GroupC.step] at es
  have hkeys : (∃ x ∈ ks d, ord x k = .eq) → ∀ r s', GroupC.add cmp k v ⟨ks d, ps d, h⟩ = .ok r s' → s'.keys = ks d := by
    rintro ⟨x, hx, hxk⟩ r s' e
    obtain ⟨vss, h1, h2⟩ := hs.groups.models d
    unfold GroupC.add at e
    rcases GroupC.indexOf_cases hcmp h1 h2 k with ⟨i, p, hi, e1, heq, hp, hvs, hh, hne⟩ | ⟨e1, hne, hm⟩
    · rw [Cpp.bind_ok e1, if_neg (by omega), Cpp.bind_ok (GroupC.values_get hp),
        Cpp.bind_ok (GroupC.onTarget_ok hh (SeqList.add_ok _ v))] at e
      cases e
      rfl
    · exact absurd hxk (hne x hx)
  cases e1 : GroupC.add cmp k v ⟨ks d, ps d, h⟩ with
  | ok r x =>
    rw [e1] at es href
    simp only [GroupC.observe, Option.some.injEq, Prod.mk.injEq, Spec.groupStep, Spec.GroupRet.flag.injEq] at es
    obtain ⟨rfl, rfl⟩ := es
    generalize GroupWorld.add mk mv cmp d k v w = o at href
    cases href with
    | ok hat' => exact ⟨_, _, _, _, rfl, ⟨hat'.keys.1, hat'.values.1, hat'.targets, hs.groups.update hm⟩, fun hx => hkeys hx _ _ e1⟩
  | err x => rw [e1] at es; simp [GroupC.observe, Spec.groupStep] at es
  | fault => rw [e1] at es; simp [GroupC.observe] at es

omit [Std.TransCmp ord] in
theorem Shot.clear {w : GroupWorld κ ν} {ms : Nat → κ → List ν} {ks : Nat → List κ}
    {ps : Nat → List Nat} {h : List (Option (List ν))} (hs : Shot ord w ms ks ps h) (d : Nat) :
    ∃ w' h', GroupWorld.clear d w = .ok true w' ∧ Shot ord w' (upd ms d (fun _ => [])) (upd ks d []) (upd ps d []) h' := by
  obtain ⟨w', h', e, r1, r2, r3, r4, _⟩ := clear_ok hs.keys hs.values hs.targets hs.groups d
  exact ⟨w', h', e, r1, r2, r3, r4⟩

end
end GroupWorld

namespace GroupEnum
variable {κ ν : Type} {ord : κ → κ → Ordering} [Std.TransCmp ord]
open GroupWorld
open ListWorld (Reps)

/-- where the enumerator is: `j` values of key number `k` were seen -/
structure Seen (e : GroupEnum κ ν) (s k j : Nat) : Prop where
  container : e.container = s
  value : e.valueIndex = (j : Int) - 1
  key : e.keyIndex = k ∨ (e.keyIndex = -1 ∧ k = 0)

section
variable {w : GroupWorld κ ν} {ms : Nat → κ → List ν} {ks : Nat → List κ} {ps : Nat → List Nat} {h : List (Option (List ν))}

/-- the pair is read where the enumerator is -/
theorem readCurrent_ok (hs : Shot ord w ms ks ps h) {s k j p : Nat} (hk : k < (ks s).length) (hj : j < (ms s (ks s)[k]).length)
    (hv : valueAt s (k : Int) w = .ok p w) (e : GroupEnum κ ν)
    (he : e.current = some (.elem (w.keys.lists s).buffer (k : Int), .elem (w.targets.lists p).buffer (j : Int))) :
    readCurrent (w, e) = .ok ((ks s)[k], (ms s (ks s)[k])[j]) (w, e) := by
  obtain ⟨vss, g1, hl, hlive⟩ := looks_of hs.keys hs.values hs.targets hs.groups s
  have hkv : k < vss.length := by rw [← g1.length]; exact hk
  obtain ⟨p', hp', hv', _, hcnt⟩ := hl.at' k hkv
  have : p' = p := by rw [hv'] at hv; cases hv; rfl
  subst this
  have hvs := hlive k p' hp'
  rw [g1.at hk, Option.some.injEq] at hvs
  obtain ⟨ck, hck, hkp⟩ := hs.keys
  obtain ⟨ct, ht, htp⟩ := hs.targets.reps
  have hmv : j < ((liveAt h p').getD []).length := by rw [← hvs]; exact hj
  have rv := ht.read htp hmv
  unfold readCurrent
  rw [members_bind]
  simp only [he]
  rw [Cpp.bind_ok (onObjects_ok (show GroupWorld.readKey _ w = .ok (ks s)[k] w from
      onKeys_same (ListWorld.on_ok (ListH.onHeap_ok (hck.read hkp hk))))),
    Cpp.bind_ok (onObjects_ok (show GroupWorld.readValue _ w = .ok _ w by unfold GroupWorld.readValue; rw [rv]))]
  simp only [hvs]
  rfl

theorem nextLoop_seen (hs : Shot ord w ms ks ps h) {e : GroupEnum κ ν} {s k j : Nat} (hc : e.container = s) (hk0 : e.keyIndex = k)
    (hv0 : e.valueIndex = (j : Int) - 1) (hk : k < (ks s).length) (hj : j < (ms s (ks s)[k]).length) (f : Nat) :
    ∃ e', nextLoop (f + 1) (w, e) = .ok true (w, e') ∧ Seen e' s k (j + 1) ∧
      readCurrent (w, e') = .ok ((ks s)[k], (ms s (ks s)[k])[j]) (w, e') := by
  subst hc
  obtain ⟨vss, g1, hl, hlive⟩ := looks_of hs.keys hs.values hs.targets hs.groups e.container
  have hkv : k < vss.length := by rw [← g1.length]; exact hk
  obtain ⟨p, hp, hv, hlv, hcnt⟩ := hl.at' k hkv
  have hvk : vss[k] = ms e.container (ks e.container)[k] := by
    have := g1.at hk
    rw [List.getElem?_eq_getElem hkv] at this
    exact Option.some.inj this
  rw [hvk] at hcnt
  refine ⟨_, nextLoop_hit hl hkv hk0 hv hlv (by omega) (by rw [hcnt, hv0]; omega) f, ⟨rfl, ?_, .inl hk0⟩, ?_⟩
  · simp only; omega
  · refine readCurrent_ok hs hk hj hv _ ?_
    simp only
    rw [hk0, show e.valueIndex + 1 = j by omega]

theorem nextLoop_done (hs : Shot ord w ms ks ps h) {e : GroupEnum κ ν} {s k j : Nat} (hc : e.container = s) (hk0 : e.keyIndex = k)
    (hv0 : e.valueIndex = (j : Int) - 1) (hk : k < (ks s).length) (hj : j = (ms s (ks s)[k]).length) (f : Nat) :
    nextLoop (f + 1) (w, e) = nextLoop f (w, { e with keyIndex := ((k + 1 : Nat) : Int), valueIndex := -1 }) := by
  subst hc
  obtain ⟨vss, g1, hl, hlive⟩ := looks_of hs.keys hs.values hs.targets hs.groups e.container
  have hkv : k < vss.length := by rw [← g1.length]; exact hk
  obtain ⟨p, hp, hv, hlv, hcnt⟩ := hl.at' k hkv
  have hvk : vss[k] = ms e.container (ks e.container)[k] := by
    have := g1.at hk
    rw [List.getElem?_eq_getElem hkv] at this
    exact Option.some.inj this
  rw [hvk] at hcnt
  rw [nextLoop_miss hl hkv hk0 hv hlv (by rw [hcnt, hv0]; omega) f, hk0]
  rfl

/-- `Next` is the loop, from the first key if it was not called before -/
theorem next_eq (hs : Shot ord w ms ks ps h) {e : GroupEnum κ ν} {s k j : Nat} (hseen : Seen e s k j) :
    ∃ e', next (w, e) = nextLoop ((ks s).length + 1) (w, e') ∧ e'.container = s ∧ e'.keyIndex = k ∧ e'.valueIndex = (j : Int) - 1 := by
  obtain ⟨rfl, hv, hk⟩ := hseen
  have hcount : ((w.keys.lists e.container).count).toNat = (ks e.container).length := by
    rw [hs.keys.count e.container, Int.toNat_natCast]
  unfold next
  rw [members_bind, Cpp.bind_ok (count_ok w e _), hcount]
  rcases hk with hk | ⟨hk, rfl⟩
  · rw [if_neg (by omega)]
    exact ⟨e, rfl, rfl, hk, hv⟩
  · rw [if_pos hk]
    exact ⟨{ e with keyIndex := 0 }, rfl, rfl, rfl, hv⟩

theorem next_seen (hs : Shot ord w ms ks ps h) {e : GroupEnum κ ν} {s k j : Nat} (hseen : Seen e s k j)
    (hk : k < (ks s).length) (hj : j < (ms s (ks s)[k]).length) :
    ∃ e', next (w, e) = .ok true (w, e') ∧ Seen e' s k (j + 1) ∧
      readCurrent (w, e') = .ok ((ks s)[k], (ms s (ks s)[k])[j]) (w, e') := by
  obtain ⟨e', e1, c1, k1, v1⟩ := next_eq hs hseen
  rw [e1]
  exact nextLoop_seen hs c1 k1 v1 hk hj _

theorem next_done (hs : Shot ord w ms ks ps h) {e : GroupEnum κ ν} {s k j : Nat} (hseen : Seen e s k j)
    (hk : k < (ks s).length) (hj : j = (ms s (ks s)[k]).length) (hk' : k + 1 < (ks s).length) (h0 : 0 < (ms s (ks s)[k + 1]).length) :
    ∃ e', next (w, e) = .ok true (w, e') ∧ Seen e' s (k + 1) 1 ∧
      readCurrent (w, e') = .ok ((ks s)[k + 1], (ms s (ks s)[k + 1])[0]) (w, e') := by
  obtain ⟨e', e1, c1, k1, v1⟩ := next_eq hs hseen
  obtain ⟨n, hn⟩ : ∃ n, (ks s).length = n + 1 := ⟨(ks s).length - 1, by omega⟩
  rw [e1, nextLoop_done hs c1 k1 v1 hk hj, hn]
  exact nextLoop_seen (e := { e' with keyIndex := ((k + 1 : Nat) : Int), valueIndex := -1 }) hs (j := 0) c1 rfl (by simp) hk' h0 _

theorem next_last (hs : Shot ord w ms ks ps h) {e : GroupEnum κ ν} {s k j : Nat} (hseen : Seen e s k j)
    (hk : k < (ks s).length) (hj : j = (ms s (ks s)[k]).length) (hk' : k + 1 = (ks s).length) :
    ∃ e', next (w, e) = .ok false (w, e') := by
  obtain ⟨e', e1, c1, k1, v1⟩ := next_eq hs hseen
  obtain ⟨n, hn⟩ : ∃ n, (ks s).length = n + 1 := ⟨(ks s).length - 1, by omega⟩
  have hcount := hs.keys.count s
  rw [e1, nextLoop_done hs c1 k1 v1 hk hj, hn]
  refine ⟨_, nextLoop_end ?_ n⟩
  simp only [c1]
  omega

theorem next_none (hs : Shot ord w ms ks ps h) {e : GroupEnum κ ν} {s k j : Nat} (hseen : Seen e s k j) (hk : (ks s).length ≤ k) :
    ∃ e', next (w, e) = .ok false (w, e') := by
  obtain ⟨e', e1, c1, k1, v1⟩ := next_eq hs hseen
  have hcount := hs.keys.count s
  rw [e1]
  refine ⟨_, nextLoop_end ?_ _⟩
  simp only [c1]
  omega

end

variable (mk : Option κ → Option κ) (mv : Option ν → Option ν) {cmp : κ → κ → Option Ordering}

/-- the pairs that an enumerator still shows -/
def rest (m : κ → List ν) (ks : List κ) (k j : Nat) : List (κ × ν) :=
  match ks.drop k with
  | [] => []
  | x :: xs => ((m x).drop j).map (fun v => (x, v)) ++ xs.flatMap (fun x => (m x).map fun v => (x, v))

theorem rest_zero (m : κ → List ν) (ks : List κ) : rest m ks 0 0 = ks.flatMap (fun x => (m x).map fun v => (x, v)) := by
  unfold rest
  cases ks <;> simp

theorem rest_lt {m : κ → List ν} {ks : List κ} {k : Nat} (j : Nat) (hk : k < ks.length) :
    rest m ks k j = ((m ks[k]).drop j).map (fun v => (ks[k], v)) ++ (ks.drop (k + 1)).flatMap (fun x => (m x).map fun v => (x, v)) := by
  unfold rest
  rw [← List.getElem_cons_drop hk]

/-- Adding the pairs of another group. -/
theorem enumLoop_other (hcmp : ∀ a b, cmp a b = some (ord a b)) {d s : Nat} (hds : d ≠ s) : ∀ (n : Nat) (w : GroupWorld κ ν)
    (ms : Nat → κ → List ν) (ks : Nat → List κ) (ps : Nat → List Nat) (h : List (Option (List ν))) (e : GroupEnum κ ν) (k j : Nat),
    Shot ord w ms ks ps h → Seen e s k j → (∀ hk : k < (ks s).length, j ≤ (ms s (ks s)[k]).length) →
    (rest (ms s) (ks s) k j).length = n →
    ∃ w' ks' ps' h', GroupWorld.enumLoop mk mv cmp d e w = some (.ok () w') ∧
      Shot ord w' (upd ms d ((rest (ms s) (ks s) k j).foldl (fun m p => Spec.groupPut ord m p.1 (m p.1 ++ [p.2])) (ms d))) ks' ps' h' := by
  intro n
  induction n with
  | zero =>
    intro w ms ks ps h e k j hs hseen hj hn
    have hnil := List.length_eq_zero_iff.1 hn
    have hend : ∃ e', next (w, e) = .ok false (w, e') := by
      by_cases hk : k < (ks s).length
      · rw [rest_lt j hk, List.append_eq_nil_iff, List.map_eq_nil_iff] at hnil
        have hj' := hj hk
        have := congrArg List.length hnil.1
        rw [List.length_drop, List.length_nil] at this
        by_cases hk' : k + 1 < (ks s).length
        · exfalso
          rw [← List.getElem_cons_drop hk', List.flatMap_cons, List.append_eq_nil_iff, List.map_eq_nil_iff] at hnil
          obtain ⟨vss, g1, _⟩ := hs.groups.models s
          exact g1.nonempty _ (List.mem_of_getElem? (g1.at hk')) hnil.2.1
        · exact next_last hs hseen hk (by omega) (by omega)
      · exact next_none hs hseen (by omega)
    obtain ⟨e', he⟩ := hend
    refine ⟨w, ks, ps, h, ?_, ?_⟩
    · unfold GroupWorld.enumLoop
      rw [he]
    · rw [hnil, List.foldl_nil, upd_eq]
      exact hs
  | succ n ih =>
    intro w ms ks ps h e k j hs hseen hj hn
    have step : ∃ e' k' j' p, next (w, e) = .ok true (w, e') ∧ Seen e' s k' j' ∧ readCurrent (w, e') = .ok p (w, e') ∧
        (∀ hk : k' < (ks s).length, j' ≤ (ms s (ks s)[k']).length) ∧ rest (ms s) (ks s) k j = p :: rest (ms s) (ks s) k' j' := by
      have hk : k < (ks s).length := by
        refine Classical.byContradiction fun hc => ?_
        rw [rest, List.drop_eq_nil_of_le (by omega)] at hn
        cases hn
      by_cases hj' : j < (ms s (ks s)[k]).length
      · obtain ⟨e', e1, s1, r1⟩ := next_seen hs hseen hk hj'
        refine ⟨e', k, j + 1, _, e1, s1, r1, fun _ => by omega, ?_⟩
        rw [rest_lt j hk, rest_lt (j + 1) hk, ← List.getElem_cons_drop hj']
        rfl
      · have hjl : j = (ms s (ks s)[k]).length := by have := hj hk; omega
        have hk' : k + 1 < (ks s).length := by
          refine Classical.byContradiction fun hc => ?_
          rw [rest_lt j hk, hjl, List.drop_length, List.drop_eq_nil_of_le (by omega)] at hn
          simp at hn
        obtain ⟨vss, g1, _⟩ := hs.groups.models s
        have hne : 0 < (ms s (ks s)[k + 1]).length := List.length_pos_iff.2 (g1.nonempty _ (List.mem_of_getElem? (g1.at hk')))
        obtain ⟨e', e1, s1, r1⟩ := next_done hs hseen hk hjl hk' hne
        refine ⟨e', k + 1, 1, _, e1, s1, r1, fun _ => hne, ?_⟩
        rw [rest_lt j hk, rest_lt 1 hk', hjl, List.drop_length, List.map_nil, List.nil_append, ← List.getElem_cons_drop hk',
          List.flatMap_cons, ← List.cons_append, ← List.map_cons (f := fun v => ((ks s)[k + 1], v)), List.getElem_cons_drop hne, List.drop_zero]
    obtain ⟨e', k', j', p, e1, s1, r1, hj1, hrest⟩ := step
    obtain ⟨w1, k1, p1, h1, e2, hs1, _⟩ := hs.add mk mv hcmp d p.1 p.2
    have hms : upd ms d (Spec.groupPut ord (ms d) p.1 (ms d p.1 ++ [p.2])) s = ms s := upd_ne (Ne.symm hds)
    have hks : upd ks d k1 s = ks s := upd_ne (Ne.symm hds)
    obtain ⟨w2, ks2, ps2, h2, e3, hs2⟩ := ih w1 _ _ _ _ e' k' j' hs1 s1 (by simp only [hms, hks]; exact hj1)
      (by rw [hms, hks]; rw [hrest, List.length_cons] at hn; omega)
    refine ⟨w2, ks2, ps2, h2, ?_, ?_⟩
    · unfold GroupWorld.enumLoop
      simp only [e1, r1, e2]
      exact e3
    · rw [hms, hks, upd_self, upd_upd] at hs2
      rw [hrest, List.foldl_cons]
      exact hs2

/-- Adding the pairs of a group to itself does not end. -/
theorem enumLoop_own (hcmp : ∀ a b, cmp a b = some (ord a b)) {d : Nat} {w : GroupWorld κ ν}
    {ms : Nat → κ → List ν} {ks : Nat → List κ} {ps : Nat → List Nat} {h : List (Option (List ν))} {e : GroupEnum κ ν} {j : Nat}
    (hs : Shot ord w ms ks ps h) (hseen : Seen e d 0 j) (h0 : 0 < (ks d).length) (hj : j < (ms d (ks d)[0]).length) :
    GroupWorld.enumLoop mk mv cmp d e w = none := by
  suffices ∀ (e : GroupEnum κ ν) (w : GroupWorld κ ν) (o : Outcome (GroupWorld κ ν) Unit),
      GroupWorld.enumLoop mk mv cmp d e w = some o → ∀ ms ks ps h j, Shot ord w ms ks ps h → Seen e d 0 j →
        ∀ h0 : 0 < (ks d).length, ¬ j < (ms d (ks d)[0]).length by
    cases hr : GroupWorld.enumLoop mk mv cmp d e w with
    | none => rfl
    | some o => exact absurd hj (this e w o hr ms ks ps h j hs hseen h0)
  refine GroupWorld.enumLoop.partial_correctness mk mv cmp d (fun e w _ => ∀ ms ks ps h j, Shot ord w ms ks ps h → Seen e d 0 j →
        ∀ h0 : 0 < (ks d).length, ¬ j < (ms d (ks d)[0]).length) ?_
  intro rec ih e w o ho ms ks ps h j hs hseen h0 hj
  obtain ⟨e', e1, s1, r1⟩ := next_seen hs hseen h0 hj
  obtain ⟨w1, k1, p1, h1, e2, hs1, hk1⟩ := hs.add mk mv hcmp d (ks d)[0] (ms d (ks d)[0])[j]
  simp only [e1, r1, e2] at ho
  have hk : k1 = ks d := hk1 ⟨_, List.getElem_mem h0, Std.ReflCmp.compare_self (cmp := ord)⟩
  subst hk
  rw [upd_eq] at hs1
  refine ih e' w1 o ho _ _ _ _ (j + 1) hs1 s1 h0 ?_
  rw [upd_self]
  simp only [Spec.groupPut, Std.ReflCmp.compare_self (cmp := ord), if_true, List.length_append, List.length_singleton]
  omega

/-- what adding pairs does to the values of a key -/
theorem fold_put (ps : List (κ × ν)) (m : κ → List ν) (hm : ∀ a b, ord a b = .eq → m a = m b) (k : κ) :
    ps.foldl (fun m p => Spec.groupPut ord m p.1 (m p.1 ++ [p.2])) m k =
      m k ++ (ps.filter fun p => ord p.1 k == .eq).map Prod.snd := by
  induction ps generalizing m with
  | nil => simp
  | cons p ps ih =>
    rw [List.foldl_cons, ih]
    · by_cases hp : ord p.1 k = .eq
      · simp [Spec.groupPut, hp, hm _ _ hp]
      · have : (ord p.1 k == .eq) = false := by simp [hp]
        simp [Spec.groupPut, hp, this]
    · intro a b hab
      unfold Spec.groupPut
      by_cases ha : ord p.1 a = .eq
      · rw [if_pos ha, if_pos (Std.TransCmp.eq_trans ha hab)]
      · rw [if_neg ha, if_neg (fun hb => ha (Std.TransCmp.eq_trans hb (Std.OrientedCmp.eq_symm hab))), hm _ _ hab]

theorem filter_pairs {m : κ → List ν} : ∀ (ks : List κ), ks.Pairwise (fun a b => ord a b = .lt) → ∀ (k : κ),
    (∀ x ∈ ks, ord x k = .eq → m x = m k) → ((∀ x ∈ ks, ord x k ≠ .eq) → m k = []) →
    ((ks.flatMap fun x => (m x).map fun v => (x, v)).filter fun p => ord p.1 k == .eq).map Prod.snd = m k
  | [], _, k, _, h => by simp [h (by simp)]
  | x :: xs, hp, k, h1, h2 => by
    rw [List.pairwise_cons] at hp
    rw [List.flatMap_cons, List.filter_append, List.map_append, List.filter_map]
    by_cases hx : ord x k = .eq
    · have hnone : (xs.flatMap fun x => (m x).map fun v => (x, v)).filter (fun p => ord p.1 k == .eq) = [] := by
        rw [List.filter_eq_nil_iff]
        intro p hp'
        obtain ⟨y, hy, hpy⟩ := List.mem_flatMap.1 hp'
        obtain ⟨v, _, rfl⟩ := List.mem_map.1 hpy
        simp only [beq_iff_eq]
        intro hyk
        have := hp.1 y hy
        rw [Std.TransCmp.eq_trans hx (Std.OrientedCmp.eq_symm hyk)] at this
        cases this
      rw [hnone]
      simp [Function.comp_def, hx, h1 x List.mem_cons_self hx]
    · have hx' : (ord x k == .eq) = false := by simp [hx]
      have ih := filter_pairs xs hp.2 k (fun y hy => h1 y (List.mem_cons_of_mem _ hy)) (fun h => h2 (by
        intro y hy
        rcases List.mem_cons.1 hy with rfl | hy
        · exact hx
        · exact h y hy))
      rw [List.filter_eq_nil_iff.2 (by simp [Function.comp_def, hx'])]
      exact ih

/-- All pairs of a group added to a group. -/
theorem fold_pairs {m ms : κ → List ν} {ks : List κ} {vss : List (List ν)} (hs : Spec.GroupLists ord ms ks vss)
    (hm : ∀ a b, ord a b = .eq → m a = m b) :
    (ks.flatMap fun x => (ms x).map fun v => (x, v)).foldl (fun m p => Spec.groupPut ord m p.1 (m p.1 ++ [p.2])) m =
      fun k => m k ++ ms k := by
  funext k
  rw [fold_put _ _ hm, filter_pairs ks hs.ascending k (fun x _ h => hs.congr h)]
  intro h
  rcases hs.entries k with ⟨i, x, hx, hxk, _⟩ | ⟨_, h2⟩
  · exact absurd hxk (h x (List.mem_of_getElem? hx))
  · exact h2

end GroupEnum
end Vlpp
