import Verif.Model.HeapGroup
import Verif.Lemmas.HeapDict
import Verif.Lemmas.GroupC

/-! # Groups on a heap do what groups of sequences do -/
set_option autoImplicit false
namespace Vlpp

namespace ListC
variable {α : Type}

theorem readFirst_ok {l : ListC α} {xs : List α} (h : Repr l xs) (n : Nat) (hn : n ≤ xs.length) :
    readFirst n l = .ok (xs.take n) l := by
  induction n with
  | zero => rfl
  | succ n ih =>
    unfold readFirst
    rw [Cpp.bind_ok (ih (by omega)), Cpp.bind_ok (get_ok h n (by omega)), Cpp.pure_apply, List.take_succ_eq_append_getElem]

theorem readAll_refines : Cpp.Refines Repr (readAll (α := α)) Cpp.get := by
  intro l xs h
  have hc : l.count = xs.length := h.count
  unfold readAll
  rw [Cpp.bind_ok (Cpp.get_apply l), hc]
  show Refines _ (readFirst xs.length l) _
  rw [readFirst_ok h _ (Nat.le_refl _), List.take_length]
  exact .ok h

theorem count_refines : Cpp.Refines Repr (do return (← Cpp.get).count : Cpp (ListC α) Int) SeqList.count := by
  intro l xs h
  show Refines _ (.ok l.count l) (.ok (xs.length : Int) xs)
  rw [show l.count = xs.length from h.count]
  exact .ok h

end ListC

namespace ListH
variable {α : Type} {F : Nat → Option (Block α)}

theorem readOnly_readFirst (n : Nat) : ReadOnly (ListC.readFirst (α := α) n) := by
  induction n with
  | zero => exact .pure _
  | succ n ih => exact ih.bind fun _ => (readOnly_get _).bind fun _ => .pure _

theorem readOnly_readAll : ReadOnly (ListC.readAll (α := α)) := ReadOnly.get.bind fun _ => readOnly_readFirst _

theorem count_refines : Cpp.Refines (Rel F) (do return (← members).count) (do return (← Cpp.get).count : Cpp (ListC α) Int) := by
  intro s c h
  show Refines _ (.ok s.2.count s) (.ok c.count c)
  rw [show s.2.count = c.count from h.count]
  exact .ok h

end ListH

namespace ListWorld
variable {α : Type}

theorem RepsBy.fresh_nil {w : ListWorld α} {xs : Nat → List α} (h : Reps w xs) {n : Nat} (hf : Fresh w n) : xs n = [] := by
  obtain ⟨cs, hw, hp⟩ := h
  have h1 : (w.lists n).count = (cs n).count := (hw.rel n).count
  have h2 : (cs n).count = (xs n).length := (hp n).count
  rw [hf] at h1
  have : (0 : Int) = (cs n).count := h1
  exact List.length_eq_zero_iff.1 (by omega)

end ListWorld

namespace GroupWorld
variable {κ ν β : Type}
open ListWorld (Reps Fresh)

/-- the value lists that are live, and no others, are those of `h` -/
structure Targets (w : GroupWorld κ ν) (h : List (Option (List ν))) : Prop where
  reps : Reps w.targets (fun p => (liveAt h p).getD [])
  next : w.next = h.length
  live : ∀ p, w.live p = (liveAt h p).isSome
  fresh : ∀ p, liveAt h p = none → Fresh w.targets p

/-- during a call on group `i` -/
structure At (w0 : GroupWorld κ ν) (i : Nat) (ks : Nat → List κ) (ps : Nat → List Nat) (w : GroupWorld κ ν)
    (s : GroupC κ ν) : Prop where
  keys : ListWorld.At w0.keys i ks w.keys s.keys
  values : ListWorld.At w0.values i ps w.values s.values
  targets : Targets w s.heap

theorem liveAt_set {h : List (Option (List ν))} {p q : Nat} {o : Option (List ν)} (hp : p < h.length) :
    liveAt (h.set p o) q = if q = p then o else liveAt h q := by
  by_cases hq : q = p
  · subst hq
    simp [liveAt, hp]
  · rw [if_neg hq]
    exact liveAt_congr (List.getElem?_set_ne (Ne.symm hq))

variable {w0 : GroupWorld κ ν} {i : Nat} {ks : Nat → List κ} {ps : Nat → List Nat}

theorem onKeys_refines {m : Cpp (Heap κ × ListH) β} {m1 : Cpp (ListC κ) β} {m' : Cpp (List κ) β}
    (h1 : ∀ F, Cpp.Refines (ListH.Rel F) m m1) (h2 : Cpp.Refines ListC.Repr m1 m') :
    Cpp.Refines (At w0 i ks ps) (onKeys (ListWorld.on i m)) (GroupC.onKeys m') := by
  intro w s hr
  have := ListWorld.on_refines (ListWorld.listRel_refines h1 h2) _ _ _ _ _ hr.keys
  unfold onKeys GroupC.onKeys
  generalize ListWorld.on i m w.keys = o at this
  generalize m' s.keys = o' at this
  cases this with
  | ok h => exact .ok ⟨h, hr.values, ⟨hr.targets.reps, hr.targets.next, hr.targets.live, hr.targets.fresh⟩⟩
  | err h => exact .err ⟨h, hr.values, ⟨hr.targets.reps, hr.targets.next, hr.targets.live, hr.targets.fresh⟩⟩
  | fault => exact .fault

theorem onValues_refines {m : Cpp (Heap Nat × ListH) β} {m1 : Cpp (ListC Nat) β} {m' : Cpp (List Nat) β}
    (h1 : ∀ F, Cpp.Refines (ListH.Rel F) m m1) (h2 : Cpp.Refines ListC.Repr m1 m') :
    Cpp.Refines (At w0 i ks ps) (onValues (ListWorld.on i m)) (GroupC.onValues m') := by
  intro w s hr
  have := ListWorld.on_refines (ListWorld.listRel_refines h1 h2) _ _ _ _ _ hr.values
  unfold onValues GroupC.onValues
  generalize ListWorld.on i m w.values = o at this
  generalize m' s.values = o' at this
  cases this with
  | ok h => exact .ok ⟨hr.keys, h, ⟨hr.targets.reps, hr.targets.next, hr.targets.live, hr.targets.fresh⟩⟩
  | err h => exact .err ⟨hr.keys, h, ⟨hr.targets.reps, hr.targets.next, hr.targets.live, hr.targets.fresh⟩⟩
  | fault => exact .fault

theorem onTarget_refines {m : Cpp (Heap ν × ListH) β} {m1 : Cpp (ListC ν) β} {m' : Cpp (List ν) β}
    (h1 : ∀ F, Cpp.Refines (ListH.Rel F) m m1) (h2 : Cpp.Refines ListC.Repr m1 m') (p : Nat) :
    Cpp.Refines (At w0 i ks ps) (onTarget p m) (GroupC.onTarget p m') := by
  intro w s hr
  unfold onTarget GroupC.onTarget
  cases hh : s.heap[p]? with
  | none => exact .fault
  | some o =>
    cases o with
    | none => exact .fault
    | some l =>
      have hl : liveAt s.heap p = some l := liveAt_eq_some.2 hh
      have hlt := (List.getElem?_eq_some_iff.1 hh).1
      rw [if_pos (by rw [hr.targets.live, hl]; rfl)]
      have := ListWorld.on_refines (ListWorld.listRel_refines h1 h2) _ _ _ _ _ (ListWorld.AtBy.start hr.targets.reps p)
      rw [show (liveAt s.heap p).getD [] = l by rw [hl]; rfl] at this
      have key : ∀ (t : ListWorld ν) (l' : List ν),
          ListWorld.At w.targets p (fun p => (liveAt s.heap p).getD []) t l' →
          At w0 i ks ps { w with targets := t } { s with heap := s.heap.set p (some l') } := by
        intro t l' ⟨hrep, hls⟩
        refine ⟨hr.keys, hr.values, ⟨?_, ?_, ?_, ?_⟩⟩
        · rw [show (fun q => (liveAt (s.heap.set p (some l')) q).getD []) =
            upd (fun q => (liveAt s.heap q).getD []) p l' from by
              funext q; rw [liveAt_set hlt]; unfold upd; split <;> rfl]
          exact hrep
        · simpa using hr.targets.next
        · intro q
          show w.live q = _
          rw [liveAt_set hlt, hr.targets.live]
          split
          · next h => rw [h, hl]; rfl
          · rfl
        · intro q hq
          simp only [liveAt_set hlt] at hq
          split at hq
          · cases hq
          · next h => exact (hls q h).trans (hr.targets.fresh q hq)
      simp only
      generalize ListWorld.on p m w.targets = o at this
      generalize m' l = o' at this
      cases this with
      | ok h => exact .ok (key _ _ h)
      | err h => exact .err (key _ _ h)
      | fault => exact .fault

theorem newTarget_refines : Cpp.Refines (At w0 i ks ps) newTarget GroupC.newTarget := by
  intro w s hr
  have hnone : liveAt s.heap s.heap.length = none := by simp [liveAt]
  have hput : w.targets.put s.heap.length ListH.empty = w.targets := by
    have hf : w.targets.lists s.heap.length = ListH.empty := hr.targets.fresh _ hnone
    unfold ListWorld.put
    congr 1
    funext n
    split
    · next h => rw [h, hf]
    · rfl
  have hat : ∀ q, liveAt (s.heap ++ [some []]) q = if q = s.heap.length then some [] else liveAt s.heap q := by
    intro q
    split
    · next h => subst h; simp [liveAt]
    · next h => exact liveAt_append h
  unfold newTarget GroupC.newTarget
  rw [hr.targets.next, hput]
  refine .ok ⟨hr.keys, hr.values, ⟨?_, ?_, ?_, ?_⟩⟩
  · rw [show (fun q => (liveAt (s.heap ++ [some []]) q).getD []) = (fun q => (liveAt s.heap q).getD []) from by
      funext q; rw [hat]; split
      · next h => rw [h, hnone]; rfl
      · rfl]
    exact hr.targets.reps
  · simp
  · intro q
    show (if q = s.heap.length then true else w.live q) = _
    rw [hat, hr.targets.live]
    split <;> rfl
  · intro q hq
    simp only [hat] at hq
    split at hq
    · cases hq
    · exact hr.targets.fresh q hq

theorem deleteTarget_refines (p : Nat) : Cpp.Refines (At w0 i ks ps) (deleteTarget p) (GroupC.deleteTarget p) := by
  intro w s hr
  unfold deleteTarget GroupC.deleteTarget
  cases hh : s.heap[p]? with
  | none => exact .fault
  | some o =>
    cases o with
    | none => exact .fault
    | some l =>
      have hl : liveAt s.heap p = some l := liveAt_eq_some.2 hh
      have hlt := (List.getElem?_eq_some_iff.1 hh).1
      rw [if_pos (by rw [hr.targets.live, hl]; rfl)]
      obtain ⟨t, e, hrep, hf, hls⟩ := ListWorld.renew_ok ListWorld.holding_list hr.targets.reps p
      rw [e]
      refine .ok ⟨hr.keys, hr.values, ⟨?_, ?_, ?_, ?_⟩⟩
      · rw [show (fun q => (liveAt (s.heap.set p none) q).getD []) =
          upd (fun q => (liveAt s.heap q).getD []) p [] from by
            funext q; rw [liveAt_set hlt]; unfold upd; split <;> rfl]
        exact hrep
      · simpa using hr.targets.next
      · intro q
        show (if q = p then false else w.live q) = _
        rw [liveAt_set hlt, hr.targets.live]
        split <;> rfl
      · intro q hq
        simp only [liveAt_set hlt] at hq
        split at hq
        · next h => rw [h]; exact hf
        · next h => exact (hls q h).trans (hr.targets.fresh q hq)

section
variable (mk : Option κ → Option κ) (mv : Option ν → Option ν) (cmp : κ → κ → Option Ordering) (eq : ν → ν → Bool)
open Cpp.Refines

theorem keyIndex_refines (k : κ) :
    Cpp.Refines (At w0 i ks ps) (keyIndex cmp i k) (GroupC.onKeys (SortedSeq.indexOf cmp k)) :=
  onKeys_refines (fun _ => ListH.reading_refines (ListH.readOnly_sortedIndexOf cmp k)) (ListC.indexOf_refines cmp k)

theorem valueAt_refines (p : Int) : Cpp.Refines (At w0 i ks ps) (valueAt i p) (GroupC.onValues (SeqList.get p)) :=
  onValues_refines (fun _ => ListH.reading_refines (ListH.readOnly_get p)) (ListC.get_refines p)

theorem addTarget_refines (p : Nat) (v : ν) :
    Cpp.Refines (At w0 i ks ps) (onTarget p (ListH.add mv v)) (GroupC.onTarget p (SeqList.add v)) :=
  onTarget_refines (fun _ => ListH.add_refines mv v) (ListC.add_refines mv v) p

theorem add_refines (k : κ) (v : ν) : Cpp.Refines (At w0 i ks ps) (add mk mv cmp i k v) (GroupC.add cmp k v) := by
  refine bind (keyIndex_refines cmp k) fun p => ?_
  split
  · exact bind newTarget_refines fun t =>
      bind (onKeys_refines (fun _ => ListH.sortedAdd_refines mk cmp id k) (ListC.sortedAdd_refines mk cmp id k)) fun j =>
      bind (onValues_refines (fun _ => ListH.insert_refines id j t) (ListC.insert_refines id j t)) fun _ =>
      bind (addTarget_refines mv t v) fun _ => pure _
  · exact bind (valueAt_refines p) fun t => bind (addTarget_refines mv t v) fun _ => pure _

theorem get_refines (k : κ) : Cpp.Refines (At w0 i ks ps) (get cmp i k) (GroupC.get (ν := ν) cmp k) :=
  bind (keyIndex_refines cmp k) fun p => bind (valueAt_refines p) fun t =>
    onTarget_refines (fun _ => ListH.reading_refines ListH.readOnly_readAll) ListC.readAll_refines t

theorem containsKey_refines (k : κ) : Cpp.Refines (At w0 i ks ps) (containsKey cmp i k) (GroupC.containsKey (ν := ν) cmp k) :=
  onKeys_refines (fun _ => ListH.reading_refines (ListH.readOnly_sortedContains cmp k)) (ListC.contains_refines cmp k)

theorem contains_refines (k : κ) (v : ν) :
    Cpp.Refines (At w0 i ks ps) (contains cmp eq i k v) (GroupC.contains cmp eq k v) := by
  refine bind (keyIndex_refines cmp k) fun p => ?_
  split
  · exact bind (valueAt_refines p) fun t =>
      onTarget_refines (fun _ => ListH.reading_refines (ListH.readOnly_contains eq v)) (ListC.seqContains_refines eq v) t
  · exact pure _

theorem removeKeyAt_refines (p : Int) : Cpp.Refines (At w0 i ks ps) (onKeys (ν := ν) (ListWorld.on i (ListH.removeAt mk p)))
    (GroupC.onKeys (SortedSeq.removeAt p)) :=
  onKeys_refines (fun _ => ListH.removeAt_refines mk p) (ListC.sortedRemoveAt_refines mk p)

theorem removeValueAt_refines (p : Int) : Cpp.Refines (At w0 i ks ps) (onValues (ListWorld.on i (ListH.removeAt id p)))
    (GroupC.onValues (SeqList.removeAt p)) :=
  onValues_refines (fun _ => ListH.removeAt_refines id p) (ListC.removeAt_refines id p)

theorem removeKey_refines (k : κ) : Cpp.Refines (At w0 i ks ps) (removeKey mk cmp i k) (GroupC.removeKey (ν := ν) cmp k) := by
  refine bind (keyIndex_refines cmp k) fun p => ?_
  split
  · exact bind (removeKeyAt_refines mk p) fun _ => bind (valueAt_refines p) fun t =>
      bind (removeValueAt_refines p) fun _ => bind (deleteTarget_refines t) fun _ => pure _
  · exact pure _

theorem remove_refines (k : κ) (v : ν) :
    Cpp.Refines (At w0 i ks ps) (remove mk mv cmp eq i k v) (GroupC.remove cmp eq k v) := by
  refine bind (keyIndex_refines cmp k) fun p => ?_
  split
  · refine bind (valueAt_refines p) fun t =>
      bind (onTarget_refines (fun _ => ListH.remove_refines mv eq v) (ListC.remove_refines mv eq v) t) fun _ =>
      bind (onTarget_refines (fun _ => ListH.count_refines) ListC.count_refines t) fun n => ?_
    split
    · exact bind (removeKeyAt_refines mk p) fun _ => bind (removeValueAt_refines p) fun _ =>
        bind (deleteTarget_refines t) fun _ => pure _
    · exact pure _
  · exact pure _

theorem deleteLoop_refines (fuel : Nat) : ∀ (n : Nat) (w : GroupWorld κ ν) (s : GroupC κ ν), At w0 i ks ps w s →
    n + fuel = s.values.length →
    Refines (At w0 i ks ps) (deleteLoop i n fuel w) (GroupC.deleteAll (s.values.drop n) s) := by
  induction fuel with
  | zero =>
    intro n w s hr hn
    rw [List.drop_of_length_le (by omega)]
    exact .ok hr
  | succ fuel ih =>
    intro n w s hr hn
    have hlt : n < s.values.length := by omega
    unfold deleteLoop
    rw [List.drop_eq_getElem_cons hlt]
    unfold GroupC.deleteAll
    have h1 := valueAt_refines (n : Int) w s hr
    rw [GroupC.values_get (List.getElem?_eq_getElem hlt)] at h1
    cases hv : (valueAt i (n : Int) : Cpp (GroupWorld κ ν) Nat) w with
    | fault => rw [hv] at h1; cases h1
    | err _ => rw [hv] at h1; cases h1
    | ok t w1 =>
      rw [hv] at h1
      cases h1 with
      | ok hr1 =>
        rw [Cpp.bind_ok hv]
        have h2 := deleteTarget_refines s.values[n] w1 s hr1
        rw [Cpp.bind_apply, Cpp.bind_apply]
        cases hd : (GroupC.deleteTarget s.values[n]) s with
        | fault => exact .fault
        | err s' =>
          rw [hd] at h2
          cases hw : deleteTarget s.values[n] w1 with
          | fault => rw [hw] at h2; cases h2
          | ok _ _ => rw [hw] at h2; cases h2
          | err w2 => rw [hw] at h2; cases h2 with | err h => exact .err h
        | ok u s' =>
          rw [hd] at h2
          cases hw : deleteTarget s.values[n] w1 with
          | fault => rw [hw] at h2; cases h2
          | err _ => rw [hw] at h2; cases h2
          | ok u' w2 =>
            rw [hw] at h2
            cases h2 with
            | ok hr2 =>
              have hvs : s'.values = s.values := by
                unfold GroupC.deleteTarget at hd
                split at hd
                · cases hd; rfl
                · cases hd
              have := ih (n + 1) w2 s' hr2 (by rw [hvs]; omega)
              rw [hvs] at this
              exact this

theorem clear_refines : Cpp.Refines (At w0 i ks ps) (clear i) (GroupC.clear (κ := κ) (ν := ν)) := by
  intro w s hr
  unfold clear GroupC.clear
  have h1 := onValues_refines (fun _ => ListH.count_refines) ListC.count_refines w s hr
  rw [show GroupC.onValues SeqList.count s = .ok (s.values.length : Int) s from rfl] at h1
  rw [Cpp.bind_ok (Cpp.get_apply s)]
  cases hv : (onValues (ListWorld.on i (do return (← ListH.members).count)) : Cpp (GroupWorld κ ν) Int) w with
  | fault => rw [hv] at h1; cases h1
  | err _ => rw [hv] at h1; cases h1
  | ok t w1 =>
    rw [hv] at h1
    cases h1 with
    | ok hr1 =>
      rw [Cpp.bind_ok hv]
      have h2 := deleteLoop_refines s.values.length 0 w1 s hr1 (by omega)
      rw [List.drop_zero] at h2
      rw [Cpp.bind_apply, Cpp.bind_apply, Int.toNat_natCast]
      generalize deleteLoop i 0 s.values.length w1 = o at h2
      generalize GroupC.deleteAll s.values s = o' at h2
      cases h2 with
      | ok hr2 =>
        exact bind (onKeys_refines (fun _ => ListH.clear_refines) ListC.clear_refines) (fun _ =>
          bind (onValues_refines (fun _ => ListH.clear_refines) ListC.clear_refines) fun _ => pure _) _ _ hr2
      | err hr2 => exact .err hr2
      | fault => exact .fault

/-- a call and what the caller sees -/
theorem call_step {m : Cpp (GroupWorld κ ν) β} {m' : Cpp (GroupC κ ν) β} (h : Cpp.Refines (At w0 i ks ps) m m')
    {w : GroupWorld κ ν} {s s' : GroupC κ ν} (hr : At w0 i ks ps w s) {f : β → Spec.GroupRet ν} {r : Spec.GroupRet ν}
    (e : GroupC.observe f (m' s) = some (s', r)) :
    (∃ w', (do return f (← m) : Cpp (GroupWorld κ ν) (Spec.GroupRet ν)) w = .ok r w' ∧ At w0 i ks ps w' s') ∨
    (∃ w', (do return f (← m) : Cpp (GroupWorld κ ν) (Spec.GroupRet ν)) w = .err w' ∧ At w0 i ks ps w' s' ∧ r = .error) := by
  have := h w s hr
  rw [Cpp.bind_apply]
  generalize m w = o at this
  generalize m' s = o' at this e
  cases this with
  | ok h =>
    simp only [GroupC.observe, Option.some.injEq, Prod.mk.injEq] at e
    obtain ⟨rfl, rfl⟩ := e
    exact .inl ⟨_, rfl, h⟩
  | err h =>
    simp only [GroupC.observe, Option.some.injEq, Prod.mk.injEq] at e
    obtain ⟨rfl, rfl⟩ := e
    exact .inr ⟨_, rfl, h, rfl⟩
  | fault => simp [GroupC.observe] at e

theorem call_refines {w : GroupWorld κ ν} {s s' : GroupC κ ν} (hr : At w0 i ks ps w s) (op : Spec.GroupOp κ ν)
    {r : Spec.GroupRet ν} (e : GroupC.step cmp eq s op = some (s', r)) :
    (∃ w', call mk mv cmp eq i op w = .ok r w' ∧ At w0 i ks ps w' s') ∨
    (∃ w', call mk mv cmp eq i op w = .err w' ∧ At w0 i ks ps w' s' ∧ r = .error) := by
  cases op with
  | add k v => exact call_step (add_refines mk mv cmp k v) hr e
  | removeKey k => exact call_step (removeKey_refines mk cmp k) hr e
  | remove k v => exact call_step (remove_refines mk mv cmp eq k v) hr e
  | clear => exact call_step clear_refines hr e
  | get k => exact call_step (get_refines cmp k) hr e
  | containsKey k => exact call_step (containsKey_refines cmp k) hr e
  | contains k v => exact call_step (contains_refines cmp eq k v) hr e

end

/-! ### many groups -/

/-- the live lists that are not those of group `n` -/
def others (ps : Nat → List Nat) (h : List (Option (List ν))) (n : Nat) : Nat → Option (List ν) :=
  fun p => if p ∈ ps n then none else liveAt h p

/-- The groups store the multimaps `ms`, no two share a value list, and every live value list belongs to a group. -/
structure Groups (ord : κ → κ → Ordering) (ms : Nat → κ → List ν) (ks : Nat → List κ) (ps : Nat → List Nat)
    (h : List (Option (List ν))) : Prop where
  models : ∀ n, GroupC.ModelsIn (others ps h n) ord (ms n) ⟨ks n, ps n, h⟩
  disjoint : ∀ n m p, n ≠ m → p ∈ ps n → p ∉ ps m
  owned : ∀ p, liveAt h p ≠ none → ∃ n, p ∈ ps n

theorem Groups.live {ord : κ → κ → Ordering} {ms : Nat → κ → List ν} {ks : Nat → List κ} {ps : Nat → List Nat}
    {h : List (Option (List ν))} (hg : Groups ord ms ks ps h) {n p : Nat} (hp : p ∈ ps n) : liveAt h p ≠ none := by
  obtain ⟨vss, _, h2⟩ := hg.models n
  obtain ⟨i, hi⟩ := List.mem_iff_getElem?.1 hp
  have hlt := (List.getElem?_eq_some_iff.1 hi).1
  have hlen : (ps n).length = vss.length := h2.length
  rw [liveAt_eq_some.2 (h2.live i p _ hi (List.getElem?_eq_getElem (hlen ▸ hlt)))]
  simp

theorem Groups.empty {ord : κ → κ → Ordering} : Groups ord (fun _ _ => ([] : List ν)) (fun _ => []) (fun _ => []) [] where
  models := fun n => GroupC.models_cleared fun p => by simp [others]
  disjoint := fun _ _ _ _ h => by cases h
  owned := fun p h => absurd (by simp [liveAt]) h

theorem Groups.update {ord : κ → κ → Ordering} {ms : Nat → κ → List ν} {ks : Nat → List κ} {ps : Nat → List Nat}
    {h h' : List (Option (List ν))} (hg : Groups ord ms ks ps h) {i : Nat} {m' : κ → List ν} {k' : List κ} {p' : List Nat}
    (hm : GroupC.ModelsIn (others ps h i) ord m' ⟨k', p', h'⟩) :
    Groups ord (upd ms i m') (upd ks i k') (upd ps i p') h' := by
  obtain ⟨vss, g1, g2⟩ := hm
  have hsep : ∀ n p, n ≠ i → p ∈ ps n → p ∉ p' ∧ liveAt h' p = liveAt h p := by
    intro n p hn hp
    have hni : p ∉ ps i := hg.disjoint n i p hn hp
    have hF : others ps h i p = liveAt h p := by simp [others, hni]
    have h1 : p ∉ p' := fun hc => hg.live hp (by rw [← hF]; exact g2.own p hc)
    exact ⟨h1, by rw [g2.frame p h1, hF]⟩
  refine ⟨?_, ?_, ?_⟩
  · intro n
    by_cases hn : n = i
    · subst hn
      simp only [upd_self]
      exact ⟨vss, g1, g2.length, g2.live, g2.nodup, fun p hp => by simp [others, hp], fun p hp => by simp [others, hp]⟩
    · rw [upd_ne hn, upd_ne hn, upd_ne hn]
      obtain ⟨vs, a1, a2⟩ := hg.models n
      refine ⟨vs, a1, a2.length, ?_, a2.nodup, ?_, ?_⟩
      · intro j p l e1 e2
        have := hsep n p hn (List.mem_of_getElem? e1)
        rw [← liveAt_eq_some, this.2, liveAt_eq_some]
        exact a2.live j p l e1 e2
      · intro p hp
        have hp : p ∉ ps n := hp
        simp [others, upd_ne hn, hp]
      · intro p hp
        have hp : p ∈ ps n := hp
        simp [others, upd_ne hn, hp]
  · intro n m p hnm hp
    by_cases hn : n = i
    · subst hn
      rw [upd_self] at hp
      rw [upd_ne (Ne.symm hnm)]
      exact fun hc => (hsep m p (Ne.symm hnm) hc).1 hp
    · rw [upd_ne hn] at hp
      by_cases hmi : m = i
      · subst hmi; rw [upd_self]; exact (hsep n p hn hp).1
      · rw [upd_ne hmi]; exact hg.disjoint n m p hnm hp
  · intro p hp
    by_cases hc : p ∈ p'
    · exact ⟨i, by rw [upd_self]; exact hc⟩
    · rw [show liveAt h' p = others ps h i p from g2.frame p hc] at hp
      by_cases hi : p ∈ ps i
      · simp [others, hi] at hp
      · simp only [others, if_neg hi] at hp
        obtain ⟨n, hn⟩ := hg.owned p hp
        have hni : n ≠ i := by rintro rfl; exact hi hn
        exact ⟨n, by rw [upd_ne hni]; exact hn⟩

theorem Groups.moved {ord : κ → κ → Ordering} {ms : Nat → κ → List ν} {ks : Nat → List κ} {ps : Nat → List Nat}
    {h : List (Option (List ν))} (hg : Groups ord ms ks ps h) {i j : Nat} (hi : ps i = []) (hij : i ≠ j) :
    Groups ord (movedTo (fun _ => []) ms i j) (movedTo [] ks i j) (movedTo [] ps i j) h := by
  have hj : ∀ {A : Type} (e : A) (xs : Nat → A), movedTo e xs i j j = e := fun e xs => by simp [movedTo]
  have hsrc : ∀ n, n ≠ j → ∃ m, m ≠ i ∧ (n = i → m = j) ∧ (n ≠ i → m = n) ∧
      ∀ {A : Type} (e : A) (xs : Nat → A), movedTo e xs i j n = xs m := by
    intro n hn
    by_cases hni : n = i
    · exact ⟨j, Ne.symm hij, fun _ => rfl, fun h => absurd hni h, fun e xs => by simp [movedTo, hni, hij]⟩
    · exact ⟨n, hni, fun h => absurd h hni, fun _ => rfl, fun e xs => by simp [movedTo, hni, hn]⟩
  refine ⟨?_, ?_, ?_⟩
  · intro n
    by_cases hn : n = j
    · subst hn
      rw [hj, hj, hj]
      exact GroupC.models_cleared fun p => by simp [others, hj]
    · obtain ⟨m, _, _, _, e⟩ := hsrc n hn
      have : others (movedTo [] ps i j) h n = others ps h m := by funext p; simp only [others, e]
      rw [this, e, e, e]
      exact hg.models m
  · intro n m p hnm hp hc
    by_cases hn : n = j
    · subst hn; rw [hj] at hp; cases hp
    · by_cases hm : m = j
      · subst hm; rw [hj] at hc; cases hc
      · obtain ⟨n', _, a1, a2, e1⟩ := hsrc n hn
        obtain ⟨m', _, b1, b2, e2⟩ := hsrc m hm
        rw [e1] at hp
        rw [e2] at hc
        refine hg.disjoint n' m' p ?_ hp hc
        by_cases hni : n = i
        · rw [a1 hni, b2 (fun h => hnm (hni.trans h.symm))]; exact Ne.symm hm
        · rw [a2 hni]
          by_cases hmi : m = i
          · rw [b1 hmi]; exact hn
          · rw [b2 hmi]; exact hnm
  · intro p hp
    obtain ⟨n, hn⟩ := hg.owned p hp
    by_cases hnj : n = j
    · exact ⟨i, by simp [movedTo, hij]; exact hnj ▸ hn⟩
    · have hni : n ≠ i := by rintro rfl; rw [hi] at hn; cases hn
      exact ⟨n, by simp [movedTo, hnj, hni]; exact hn⟩

/-- groups of multimaps -/
def Stores (ord : κ → κ → Ordering) (w : GroupWorld κ ν) (ms : Nat → κ → List ν) : Prop :=
  ∃ ks ps h, Reps w.keys ks ∧ Reps w.values ps ∧ Targets w h ∧ Groups ord ms ks ps h

theorem stores_empty {ord : κ → κ → Ordering} : Stores ord (empty : GroupWorld κ ν) (fun _ _ => []) := by
  refine ⟨_, _, [], Reps.empty, Reps.empty, ⟨?_, rfl, fun p => ?_, fun p _ => rfl⟩, Groups.empty⟩
  · exact Reps.empty
  · simp [liveAt, empty]

theorem onKeys_ok {m : Cpp (ListWorld κ) Unit} {w : GroupWorld κ ν} {k' : ListWorld κ} (e : m w.keys = .ok () k') :
    onKeys m w = .ok () { w with keys := k' } := by simp [onKeys, e]
theorem onValues_ok {m : Cpp (ListWorld Nat) Unit} {w : GroupWorld κ ν} {v' : ListWorld Nat} (e : m w.values = .ok () v') :
    onValues m w = .ok () { w with values := v' } := by simp [onValues, e]

theorem Targets.of {w w' : GroupWorld κ ν} {h : List (Option (List ν))} (ht : Targets w h) (e1 : w'.targets = w.targets)
    (e2 : w'.next = w.next) (e3 : w'.live = w.live) : Targets w' h :=
  ⟨e1 ▸ ht.reps, e2 ▸ ht.next, e3 ▸ ht.live, e1 ▸ ht.fresh⟩

/-- `Clear`, used by the destructor and the move assignment -/
theorem clear_ok {ord : κ → κ → Ordering} {w : GroupWorld κ ν} {ms : Nat → κ → List ν} {ks : Nat → List κ}
    {ps : Nat → List Nat} {h : List (Option (List ν))} (h1 : Reps w.keys ks) (h2 : Reps w.values ps) (h3 : Targets w h)
    (h4 : Groups ord ms ks ps h) (i : Nat) :
    ∃ w' h', clear i w = .ok true w' ∧ Reps w'.keys (upd ks i []) ∧ Reps w'.values (upd ps i []) ∧ Targets w' h' ∧
      Groups ord (upd ms i fun _ => []) (upd ks i []) (upd ps i []) h' ∧
      ∀ n, n ≠ i → w'.keys.lists n = w.keys.lists n ∧ w'.values.lists n = w.values.lists n := by
  obtain ⟨hp, e, hh⟩ := GroupC.clear_ok (h4.models i)
  have hat : At w i ks ps w ⟨ks i, ps i, h⟩ := ⟨ListWorld.AtBy.start h1 i, ListWorld.AtBy.start h2 i, h3⟩
  have := clear_refines w _ hat
  rw [e] at this
  cases hc : clear i w with
  | fault => rw [hc] at this; cases this
  | err _ => rw [hc] at this; cases this
  | ok v w' =>
    rw [hc] at this
    cases this with
    | ok hr =>
      exact ⟨w', hp, rfl, hr.keys.1, hr.values.1, hr.targets, h4.update (GroupC.models_cleared hh),
        fun n hn => ⟨hr.keys.2 n hn, hr.values.2 n hn⟩⟩

theorem moveSim (mk : Option κ → Option κ) (mv : Option ν → Option ν) (eq : ν → ν → Bool) {cmp : κ → κ → Option Ordering}
    {ord : κ → κ → Ordering} [Std.TransCmp ord] (hcmp : ∀ a b, cmp a b = some (ord a b)) :
    MoveSim (movable mk mv cmp eq) (Stores ord) (fun w n => Fresh w.keys n ∧ Fresh w.values n)
      (fun m op m' r => Spec.groupStep ord eq m op = (m', r)) (fun _ _ => True) (fun _ => []) .error := by
  refine ⟨?_, ?_, ?_, ?_⟩
  · rintro w ms i op ⟨ks, ps, h, h1, h2, h3, h4⟩ -
    obtain ⟨s', e, hm⟩ := GroupC.step_refines hcmp eq (h4.models i) op
    have hat : At w i ks ps w ⟨ks i, ps i, h⟩ := ⟨ListWorld.AtBy.start h1 i, ListWorld.AtBy.start h2 i, h3⟩
    have key : ∀ w', At w i ks ps w' s' →
        Stores ord w' (upd ms i (Spec.groupStep ord eq (ms i) op).1) ∧
        ∀ n, n ≠ i → Fresh w.keys n ∧ Fresh w.values n → Fresh w'.keys n ∧ Fresh w'.values n := by
      intro w' hr
      exact ⟨⟨_, _, _, hr.keys.1, hr.values.1, hr.targets, h4.update hm⟩,
        fun n hn hf => ⟨(hr.keys.2 n hn).trans hf.1, (hr.values.2 n hn).trans hf.2⟩⟩
    rcases call_refines mk mv cmp eq hat op e with ⟨w', e', hr⟩ | ⟨w', e', hr, hret⟩
    · exact .inl ⟨w', _, _, e', (key w' hr).1, rfl, (key w' hr).2⟩
    · exact .inr ⟨w', _, e', (key w' hr).1, by rw [← hret], (key w' hr).2⟩
  · rintro w ms i j ⟨ks, ps, h, h1, h2, h3, h4⟩
    obtain ⟨w1, h', e0, c1, c2, c3, c4, l0⟩ := clear_ok h1 h2 h3 h4 i
    obtain ⟨k', e1, r1, _, l1⟩ := ListWorld.moveAssign_ok ListWorld.holding_list c1 i j
    obtain ⟨v', e2, r2, _, l2⟩ := ListWorld.moveAssign_ok ListWorld.holding_list c2 i j
    have hmv : ∀ {A : Type} (e : A) (xs : Nat → A), movedTo e (upd xs i e) i j = movedTo e xs i j := by
      intro A e xs
      funext n
      unfold movedTo upd
      by_cases hn : n = j
      · simp [hn]
      · by_cases hni : n = i
        · by_cases hji : j = i
          · exact absurd (hni.trans hji.symm) hn
          · simp [hni, hji]
        · simp [hn, hni]
    refine ⟨{ w1 with keys := k', values := v' }, ?_, ⟨movedTo [] ks i j, movedTo [] ps i j, h', ?_, ?_, ?_, ?_⟩, ?_⟩
    · show (clear i >>= fun _ => onKeys _ >>= fun _ => onValues _) w = _
      rw [Cpp.bind_ok e0, Cpp.bind_ok (onKeys_ok e1)]
      exact onValues_ok e2
    · rw [hmv] at r1; exact r1
    · rw [hmv] at r2; exact r2
    · exact c3.of rfl rfl rfl
    · by_cases hij : i = j
      · subst hij
        have : ∀ {A : Type} (e : A) (xs : Nat → A), movedTo e xs i i = upd xs i e := by
          intro A e xs
          funext n
          by_cases hn : n = i <;> simp [movedTo, upd, hn]
        rw [this, this, this]
        exact c4
      · have := c4.moved (by simp) hij
        rw [hmv, hmv, hmv] at this
        exact this
    · exact fun n n1 n2 hf => ⟨(l1 n n1 n2).trans ((l0 n n1).1.trans hf.1), (l2 n n1 n2).trans ((l0 n n1).2.trans hf.2)⟩
  · rintro w ms i j hij ⟨ks, ps, h, h1, h2, h3, h4⟩ ⟨f1, f2⟩
    obtain ⟨k', e1, r1, _, l1⟩ := ListWorld.moveConstruct_ok ListWorld.holding_list h1 hij f1
    obtain ⟨v', e2, r2, _, l2⟩ := ListWorld.moveConstruct_ok ListWorld.holding_list h2 hij f2
    refine ⟨{ w with keys := k', values := v' }, ?_, ⟨_, _, h, r1, r2, h3.of rfl rfl rfl, h4.moved ?_ hij⟩, ?_⟩
    · show (onKeys _ >>= fun _ => onValues _) w = _
      rw [Cpp.bind_ok (onKeys_ok e1)]
      exact onValues_ok e2
    · exact ListWorld.RepsBy.fresh_nil h2 f2
    · exact fun n n1 n2 hf => ⟨(l1 n n1 n2).trans hf.1, (l2 n n1 n2).trans hf.2⟩
  · rintro w ms i ⟨ks, ps, h, h1, h2, h3, h4⟩
    obtain ⟨w1, h', e0, c1, c2, c3, c4, l0⟩ := clear_ok h1 h2 h3 h4 i
    obtain ⟨v', e2, r2, g2, l2⟩ := ListWorld.renew_ok ListWorld.holding_list c2 i
    obtain ⟨k', e1, r1, g1, l1⟩ := ListWorld.renew_ok ListWorld.holding_list c1 i
    rw [upd_upd] at r1 r2
    refine ⟨{ w1 with keys := k', values := v' }, ?_, ⟨_, _, h', r1, r2, c3.of rfl rfl rfl, c4⟩, ⟨g1, g2⟩, ?_⟩
    · show (clear i >>= fun _ => onValues _ >>= fun _ => onKeys _) w = _
      rw [Cpp.bind_ok e0, Cpp.bind_ok (onValues_ok e2)]
      exact onKeys_ok e1
    · intro n hf
      by_cases hn : n = i
      · subst hn; exact ⟨g1, g2⟩
      · exact ⟨(l1 n hn).trans ((l0 n hn).1.trans hf.1), (l2 n hn).trans ((l0 n hn).2.trans hf.2)⟩

end GroupWorld
end Vlpp
