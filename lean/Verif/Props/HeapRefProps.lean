import Verif.Lemmas.HeapRef
import Verif.Props.HeapGroupProps

/-!
# Property C80: elements of groups as arguments of calls on groups
-/
set_option autoImplicit false
namespace Vlpp
open GroupWorld
open Spec (KeyArg ValueArg callValue)
variable {κ ν : Type}

/-- `g.Add(k, g[k2][m])` where `k` and `k2` are the same key and the list of that key has no room left -/
def GroupWorld.Clash (ord : κ → κ → Ordering) (w : GroupWorld κ ν) (ks : Nat → List κ) (ps : Nat → List Nat) (i : Nat) :
    Spec.GroupOp (KeyArg κ) (ValueArg κ ν) → Prop
  | .add k (.elem j k2 _) => j = i ∧ (∃ k', k.value ks = some k' ∧ ord k' k2 = .eq) ∧
    ∃ (n p : Nat) (x : κ), (ks i)[n]? = some x ∧ ord x k2 = .eq ∧ (ps i)[n]? = some p ∧
      (w.targets.lists p).count = (w.targets.lists p).capacity
  | _ => False

theorem GroupWorld.callRef_of {ord : κ → κ → Ordering} {w : GroupWorld κ ν} {ms : Nat → κ → List ν} {ks : Nat → List κ}
    {ps : Nat → List Nat} {h : List (Option (List ν))} {ck : Nat → ListC κ} {ct : Nat → ListC ν}
    (hs : Snap ord w ms ks ps h ck ct) (mk : Option κ → Option κ) (mv : Option ν → Option ν) (eq : ν → ν → Bool)
    {cmp : κ → κ → Option Ordering} [Std.TransCmp ord] (hcmp : ∀ a b, cmp a b = some (ord a b)) (i : Nat)
    (op : Spec.GroupOp (KeyArg κ) (ValueArg κ ν)) :
    (callValue ks ms op = none → callRef mk mv cmp eq i op w = .err w) ∧
    ∀ op', callValue ks ms op = some op' →
      (¬ Clash ord w ks ps i op → callRef mk mv cmp eq i op w = call mk mv cmp eq i op' w) ∧
      (Clash ord w ks ps i op → callRef mk mv cmp eq i op w = .fault) := by
  cases op with
  | clear =>
    refine ⟨fun h => (by cases h), ?_⟩
    rintro _ ⟨⟩
    exact ⟨fun _ => rfl, fun h => h.elim⟩
  | removeKey a =>
    rcases hs.evalKey a with ⟨e1, e2⟩ | ⟨k, r, e1, e2, hk⟩
    · refine ⟨fun _ => ?_, fun op' h => ?_⟩
      · show (evalKey a >>= _) w = _; rw [Cpp.bind_err e2]
      · simp [callValue, e1] at h
    · refine ⟨fun h => ?_, fun op' h => ?_⟩
      · simp [callValue, e1] at h
      · simp only [callValue, e1, Option.bind_eq_bind, Option.bind_some, Option.pure_def, Option.some.injEq] at h
        subst h
        refine ⟨fun _ => ?_, fun h => h.elim⟩
        show (evalKey a >>= _) w = _
        rw [Cpp.bind_ok e2, Cpp.bind_ok (hs.readKey hk)]
        rfl
  | get a =>
    rcases hs.evalKey a with ⟨e1, e2⟩ | ⟨k, r, e1, e2, hk⟩
    · refine ⟨fun _ => ?_, fun op' h => ?_⟩
      · show (evalKey a >>= _) w = _; rw [Cpp.bind_err e2]
      · simp [callValue, e1] at h
    · refine ⟨fun h => ?_, fun op' h => ?_⟩
      · simp [callValue, e1] at h
      · simp only [callValue, e1, Option.bind_eq_bind, Option.bind_some, Option.pure_def, Option.some.injEq] at h
        subst h
        refine ⟨fun _ => ?_, fun h => h.elim⟩
        show (evalKey a >>= _) w = _
        rw [Cpp.bind_ok e2, Cpp.bind_ok (hs.readKey hk)]
        rfl
  | containsKey a =>
    rcases hs.evalKey a with ⟨e1, e2⟩ | ⟨k, r, e1, e2, hk⟩
    · refine ⟨fun _ => ?_, fun op' h => ?_⟩
      · show (evalKey a >>= _) w = _; rw [Cpp.bind_err e2]
      · simp [callValue, e1] at h
    · refine ⟨fun h => ?_, fun op' h => ?_⟩
      · simp [callValue, e1] at h
      · simp only [callValue, e1, Option.bind_eq_bind, Option.bind_some, Option.pure_def, Option.some.injEq] at h
        subst h
        refine ⟨fun _ => ?_, fun h => h.elim⟩
        show (evalKey a >>= _) w = _
        rw [Cpp.bind_ok e2, Cpp.bind_ok (hs.readKey hk)]
        rfl
  | contains a b =>
    rcases hs.evalKey a with ⟨e1, e2⟩ | ⟨k, r, e1, e2, hk⟩
    · refine ⟨fun _ => ?_, fun op' h => ?_⟩
      · show (evalKey a >>= _) w = _; rw [Cpp.bind_err e2]
      · simp [callValue, e1] at h
    · rcases hs.evalValue hcmp b with ⟨e3, e4⟩ | ⟨v, rv, o, e3, e4, hv, _, _⟩
      · refine ⟨fun _ => ?_, fun op' h => ?_⟩
        · show (evalKey a >>= _) w = _; rw [Cpp.bind_ok e2, Cpp.bind_err e4]
        · simp [callValue, e1, e3] at h
      · refine ⟨fun h => ?_, fun op' h => ?_⟩
        · simp [callValue, e1, e3] at h
        · simp only [callValue, e1, e3, Option.bind_eq_bind, Option.bind_some, Option.pure_def, Option.some.injEq] at h
          subst h
          refine ⟨fun _ => ?_, fun h => h.elim⟩
          show (evalKey a >>= _) w = _
          rw [Cpp.bind_ok e2, Cpp.bind_ok e4, Cpp.bind_apply, hs.containsRef eq hcmp hk hv i]
          rfl
  | remove a b =>
    rcases hs.evalKey a with ⟨e1, e2⟩ | ⟨k, r, e1, e2, hk⟩
    · refine ⟨fun _ => ?_, fun op' h => ?_⟩
      · show (evalKey a >>= _) w = _; rw [Cpp.bind_err e2]
      · simp [callValue, e1] at h
    · rcases hs.evalValue hcmp b with ⟨e3, e4⟩ | ⟨v, rv, o, e3, e4, hv, _, _⟩
      · refine ⟨fun _ => ?_, fun op' h => ?_⟩
        · show (evalKey a >>= _) w = _; rw [Cpp.bind_ok e2, Cpp.bind_err e4]
        · simp [callValue, e1, e3] at h
      · refine ⟨fun h => ?_, fun op' h => ?_⟩
        · simp [callValue, e1, e3] at h
        · simp only [callValue, e1, e3, Option.bind_eq_bind, Option.bind_some, Option.pure_def, Option.some.injEq] at h
          subst h
          refine ⟨fun _ => ?_, fun h => h.elim⟩
          show (evalKey a >>= _) w = _
          rw [Cpp.bind_ok e2, Cpp.bind_ok e4, Cpp.bind_apply, hs.removeRef mk mv eq hcmp hk hv i]
          rfl
  | add a b =>
    rcases hs.evalKey a with ⟨e1, e2⟩ | ⟨k, r, e1, e2, hk⟩
    · refine ⟨fun _ => ?_, fun op' h => ?_⟩
      · show (evalKey a >>= _) w = _; rw [Cpp.bind_err e2]
      · simp [callValue, e1] at h
    · rcases hs.evalValue hcmp b with ⟨e3, e4⟩ | ⟨v, rv, o, e3, e4, hv, hat, hat0⟩
      · refine ⟨fun _ => ?_, fun op' h => ?_⟩
        · show (evalKey a >>= _) w = _; rw [Cpp.bind_ok e2, Cpp.bind_err e4]
        · simp [callValue, e1, e3] at h
      · refine ⟨fun h => ?_, fun op' h => ?_⟩
        · simp [callValue, e1, e3] at h
        · simp only [callValue, e1, e3, Option.bind_eq_bind, Option.bind_some, Option.pure_def, Option.some.injEq] at h
          subst h
          have ha := hs.addRef mk mv hcmp hk hv i
          have hc : callRef mk mv cmp eq i (.add a b) w = (addRef mk mv cmp i r rv >>= fun x => pure (.flag x)) w := by
            show (evalKey a >>= _) w = _
            rw [Cpp.bind_ok e2, Cpp.bind_ok e4]
          rw [hc]
          clear hc
          constructor
          · intro hc
            rw [Cpp.bind_apply, ha.1 ?_]
            · rfl
            · rintro ⟨n, p, x, hx, hxk, hps, ho, hf⟩
              obtain ⟨j, n', k2, x', m, rfl, hx', hxk', hps'⟩ := hat p ho
              have hji : j = i := Classical.byContradiction fun hne =>
                hs.groups.disjoint j i p hne (List.mem_of_getElem? hps') (List.mem_of_getElem? hps)
              subst hji
              obtain ⟨vss, _, g2⟩ := hs.groups.models j
              have : n' = n := (List.getElem?_inj (List.getElem?_eq_some_iff.1 hps').1 g2.nodup).1 (hps'.trans hps.symm)
              subst this
              rw [hx] at hx'
              cases hx'
              exact hc ⟨rfl, ⟨k, e1, ord_eq_trans (ord_eq_symm hxk) hxk'⟩, n', p, x, hx, hxk', hps, hf⟩
          · intro hc
            cases b with
            | temp v => exact hc.elim
            | elem j k2 m =>
              obtain ⟨rfl, ⟨k', ek, hkk⟩, n, p, x, hx, hxk, hps, hf⟩ := hc
              rw [e1] at ek
              cases ek
              have ho : o = some p := by
                rcases hv with ⟨rfl, rfl⟩ | ⟨q, m', vs, _, _, _, _, rfl⟩
                · obtain ⟨x, hx⟩ := hat0 rfl
                  cases hx
                · obtain ⟨j', n', k2', x', m'', he, hx', hxk', hps'⟩ := hat q rfl
                  cases he
                  obtain ⟨vss, g1, _⟩ := hs.groups.models j
                  have : n' = n := strict_unique g1.ascending hx' hx (ord_eq_trans hxk' (ord_eq_symm hxk))
                  subst this
                  rw [hps] at hps'
                  cases hps'
                  rfl
              rw [Cpp.bind_fault (ha.2 ⟨n, p, x, hx, ord_eq_trans hxk (ord_eq_symm hkk), hps, ho, hf⟩)]

/-- **C80, the part that holds, and exactly where it fails.** After every program over any number of groups (as in C79), for
every call whose arguments are the caller's own objects, keys `g.Keys()[n]` or values `g[k][m]` of any of the groups, the group
called included:
* if an argument does not exist, evaluating it raises an error and nothing changes;
* otherwise the call does exactly what it does with copies of the arguments (to which C79 applies) — unless it appends an
  element of a value list to this same list and the list has no room left (`Clash`): then `List::Insert` copies the element from
  the buffer it has just released, which is undefined behaviour.
What is missing for the full property is that last case. -/
theorem C80_arguments_partial (mk : Option κ → Option κ) (mv : Option ν → Option ν) (eq : ν → ν → Bool)
    {cmp : κ → κ → Option Ordering} {ord : κ → κ → Ordering} [Std.TransCmp ord] (hcmp : ∀ a b, cmp a b = some (ord a b))
    (ops : List (Spec.MoveOp (Spec.GroupOp κ ν))) :
    let r := Spec.moveRun (Spec.groupStep ord eq) (fun _ => []) (.flag true) .error (fun _ => fun _ => []) ops
    ∃ w ks ps xs, (movable mk mv cmp eq).run (.flag true) .error empty ops = some (w, r.2) ∧
      w.Holds ks ps xs ∧ (∀ n, Spec.GroupLists ord (r.1 n) (ks n) ((ps n).map xs)) ∧
      ∀ (i : Nat) (op : Spec.GroupOp (KeyArg κ) (ValueArg κ ν)),
        (callValue ks r.1 op = none → callRef mk mv cmp eq i op w = .err w) ∧
        ∀ op', callValue ks r.1 op = some op' →
          (¬ Clash ord w ks ps i op → callRef mk mv cmp eq i op w = call mk mv cmp eq i op' w) ∧
          (Clash ord w ks ps i op → callRef mk mv cmp eq i op w = .fault) := by
  intro r
  obtain ⟨w, ms, rs, e, hs, hm, _⟩ := (moveSim mk mv eq hcmp).run (moved := .flag true) ops
    (.of_forall _ (fun _ _ _ _ => trivial) _) stores_empty
  have hr : r = (ms, rs) := hm.eq_moveRun
  rw [hr]
  obtain ⟨ks, ps, h, ⟨ck, k1, k2⟩, hv, ht, hg⟩ := hs
  obtain ⟨ct, t1, t2⟩ := ht.reps
  obtain ⟨xs, h1, h2⟩ := holds_at ⟨ck, k1, k2⟩ hv ht hg
  exact ⟨w, ks, ps, xs, e, h1, h2, fun i op => callRef_of ⟨k1, k2, hv, ht, t1, t2, hg⟩ mk mv eq hcmp i op⟩

/-- what the caller sees; `none` is undefined behaviour, `some none` an error -/
def GroupWorld.seen (o : Outcome (GroupWorld Int Int) (Spec.GroupRet Int)) : Option (Option (Spec.GroupRet Int)) :=
  match o with | .ok v _ => some (some v) | .err _ => some none | .fault => none

/-- Two groups: keys and values of each are given to the other and to itself; and `g0.Keys()[1]`, which does not exist. -/
example :
    let M := movable (fun _ => none) (fun _ => none) (fun a b : Int => some (compare a b)) (fun a b : Int => a == b)
    let ref := callRef (fun _ => none) (fun _ => none) (fun a b : Int => some (compare a b)) (fun a b : Int => a == b)
    let w := M.run (.flag true) .error (empty : GroupWorld Int Int) [.call 0 (.add 1 10), .call 1 (.add 3 30), .call 1 (.add 4 40)]
    (w.map fun (w, _) => seen ((do
      let _ ← ref 0 (.add (.elem 1 0) (.elem 1 4 0))
      let _ ← ref 1 (.add (.elem 0 0) (.elem 0 1 0))
      let _ ← ref 0 (.add (.elem 0 0) (.elem 0 1 0))
      ref 0 (.get (.temp 1))) w)) = some (some (some (.values [10, 10]))) ∧
    (w.map fun (w, _) => seen (ref 0 (.add (.elem 0 1) (.temp 5)) w)) = some (some none) := by
  refine ⟨?_, ?_⟩ <;> decide +kernel

/-- **C80 is violated.** `g.Add(1, 10); g.Add(1, g[1][0]); g.Add(1, g[1][0]);` — the list of key 1 has two elements and no spare
room before the last call, which reads released memory. -/
theorem C80_violated :
    let ref := callRef (fun _ => none) (fun _ => none) (fun a b : Int => some (compare a b)) (fun a b : Int => a == b)
    seen ((do
      let _ ← ref 0 (.add (.temp 1) (.temp 10))
      ref 0 (.add (.temp 1) (.elem 0 1 0))) empty) = some (some (.flag true)) ∧
    seen ((do
      let _ ← ref 0 (.add (.temp 1) (.temp 10))
      let _ ← ref 0 (.add (.temp 1) (.elem 0 1 0))
      ref 0 (.add (.temp 1) (.elem 0 1 0))) empty) = none := by
  refine ⟨?_, ?_⟩ <;> decide +kernel

end Vlpp
