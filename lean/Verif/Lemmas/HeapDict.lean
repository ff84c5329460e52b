import Verif.Model.HeapDict
import Verif.Lemmas.ListWorld
import Verif.Lemmas.DictC

/-! # Dictionaries on a heap do what dictionaries of sequences do -/
set_option autoImplicit false
namespace Vlpp

namespace ListWorld
variable {α β κ : Type}

/-- the calls on lists, down to sequences -/
theorem listRel_refines {m : Cpp (Heap α × ListH) β} {m1 : Cpp (ListC α) β} {m2 : Cpp (List α) β}
    (h1 : ∀ F, Cpp.Refines (ListH.Rel F) m m1) (h2 : Cpp.Refines ListC.Repr m1 m2) (F : Nat → Option (Block α)) :
    Cpp.Refines (ListRel F) m m2 := (h1 F).trans h2

end ListWorld

namespace DictWorld
variable {κ ν β : Type}
open ListWorld (Reps Fresh)

/-- the dictionaries contain the sequences `ds` -/
structure Rel (w : DictWorld κ ν) (ds : Nat → DictC κ ν) : Prop where
  keys : Reps w.keys (fun n => (ds n).keys)
  values : Reps w.values (fun n => (ds n).values)

/-- during a call on dictionary `i` -/
structure At (w0 : DictWorld κ ν) (i : Nat) (ds : Nat → DictC κ ν) (w : DictWorld κ ν) (d : DictC κ ν) : Prop where
  keys : ListWorld.At w0.keys i (fun n => (ds n).keys) w.keys d.keys
  values : ListWorld.At w0.values i (fun n => (ds n).values) w.values d.values

theorem At.rel {w0 w : DictWorld κ ν} {i : Nat} {ds : Nat → DictC κ ν} {d : DictC κ ν} (h : At w0 i ds w d) :
    Rel w (upd ds i d) := by
  refine ⟨?_, ?_⟩
  · have := h.keys.1
    rwa [show upd (fun n => (ds n).keys) i d.keys = fun n => (upd ds i d n).keys from by
      funext n; by_cases hn : n = i <;> simp [upd, hn]] at this
  · have := h.values.1
    rwa [show upd (fun n => (ds n).values) i d.values = fun n => (upd ds i d n).values from by
      funext n; by_cases hn : n = i <;> simp [upd, hn]] at this

theorem onKeys_refines {m : Cpp (Heap κ × ListH) β} {m1 : Cpp (ListC κ) β} {m' : Cpp (List κ) β}
    (h1 : ∀ F, Cpp.Refines (ListH.Rel F) m m1) (h2 : Cpp.Refines ListC.Repr m1 m') (w0 : DictWorld κ ν) (i : Nat)
    (ds : Nat → DictC κ ν) : Cpp.Refines (At w0 i ds) (onKeys (ListWorld.on i m)) (DictC.onKeys m') := by
  intro w d hr
  have := ListWorld.on_refines (ListWorld.listRel_refines h1 h2) _ _ _ _ _ hr.keys
  unfold onKeys DictC.onKeys
  generalize ListWorld.on i m w.keys = o at this
  generalize m' d.keys = o' at this
  cases this with
  | ok h => exact .ok ⟨h, hr.values⟩
  | err h => exact .err ⟨h, hr.values⟩
  | fault => exact .fault

theorem onValues_refines {m : Cpp (Heap ν × ListH) β} {m1 : Cpp (ListC ν) β} {m' : Cpp (List ν) β}
    (h1 : ∀ F, Cpp.Refines (ListH.Rel F) m m1) (h2 : Cpp.Refines ListC.Repr m1 m') (w0 : DictWorld κ ν) (i : Nat)
    (ds : Nat → DictC κ ν) : Cpp.Refines (At w0 i ds) (onValues (ListWorld.on i m)) (DictC.onValues m') := by
  intro w d hr
  have := ListWorld.on_refines (ListWorld.listRel_refines h1 h2) _ _ _ _ _ hr.values
  unfold onValues DictC.onValues
  generalize ListWorld.on i m w.values = o at this
  generalize m' d.values = o' at this
  cases this with
  | ok h => exact .ok ⟨hr.keys, h⟩
  | err h => exact .err ⟨hr.keys, h⟩
  | fault => exact .fault

section
variable (mk : Option κ → Option κ) (mv : Option ν → Option ν) (cmp : κ → κ → Option Ordering) (w0 : DictWorld κ ν)
  (i : Nat) (ds : Nat → DictC κ ν)
open Cpp.Refines

theorem keyIndex_refines (k : κ) :
    Cpp.Refines (At w0 i ds) (keyIndex cmp i k) (DictC.onKeys (SortedSeq.indexOf cmp k)) :=
  onKeys_refines (fun _ => ListH.reading_refines (ListH.readOnly_sortedIndexOf cmp k)) (ListC.indexOf_refines cmp k) _ _ _

theorem keyContains_refines (k : κ) : Cpp.Refines (At w0 i ds)
    (onKeys (ListWorld.on i (ListH.reading (SortedListC.contains cmp k)))) (DictC.onKeys (SortedSeq.contains cmp k)) :=
  onKeys_refines (fun _ => ListH.reading_refines (ListH.readOnly_sortedContains cmp k)) (ListC.contains_refines cmp k) _ _ _

theorem keyAdd_refines (k : κ) : Cpp.Refines (At w0 i ds)
    (onKeys (ListWorld.on i (ListH.sortedAdd mk cmp id k))) (DictC.onKeys (SortedSeq.add cmp id k)) :=
  onKeys_refines (fun _ => ListH.sortedAdd_refines mk cmp id k) (ListC.sortedAdd_refines mk cmp id k) _ _ _

theorem valueInsert_refines (p : Int) (v : ν) : Cpp.Refines (At w0 i ds)
    (onValues (ListWorld.on i (ListH.insert mv p v))) (DictC.onValues (SeqList.insert p v)) :=
  onValues_refines (fun _ => ListH.insert_refines mv p v) (ListC.insert_refines mv p v) _ _ _

theorem set_refines (k : κ) (v : ν) : Cpp.Refines (At w0 i ds) (set mk mv cmp i k v) (DictC.set cmp k v) := by
  refine bind (keyIndex_refines cmp w0 i ds k) fun p => ?_
  split
  · exact bind (keyAdd_refines mk cmp w0 i ds k) fun j => bind (valueInsert_refines mv w0 i ds j v) fun _ => pure _
  · exact bind (onValues_refines (fun _ => ListH.setAt_refines p v) (ListC.setAt_refines p v) _ _ _) fun _ => pure _

theorem add_refines (k : κ) (v : ν) : Cpp.Refines (At w0 i ds) (add mk mv cmp i k v) (DictC.add cmp k v) :=
  bind (keyContains_refines cmp w0 i ds k) fun _ => bind (check _) fun _ => bind (keyAdd_refines mk cmp w0 i ds k) fun j =>
    bind (valueInsert_refines mv w0 i ds j v) fun _ => pure _

theorem get_refines (k : κ) : Cpp.Refines (At w0 i ds) (get cmp i k) (DictC.get cmp k) :=
  bind (keyIndex_refines cmp w0 i ds k) fun p =>
    onValues_refines (fun _ => ListH.reading_refines (ListH.readOnly_get p)) (ListC.get_refines p) _ _ _

theorem remove_refines (k : κ) : Cpp.Refines (At w0 i ds) (remove mk mv cmp i k) (DictC.remove cmp k) := by
  refine bind (keyIndex_refines cmp w0 i ds k) fun p => ?_
  split
  · exact bind (onKeys_refines (fun _ => ListH.removeAt_refines mk p) (ListC.sortedRemoveAt_refines mk p) _ _ _) fun _ =>
      bind (onValues_refines (fun _ => ListH.removeAt_refines mv p) (ListC.removeAt_refines mv p) _ _ _) fun _ => pure _
  · exact pure _

theorem clear_refines : Cpp.Refines (At w0 i ds) (clear i) DictC.clear :=
  bind (onKeys_refines (fun _ => ListH.clear_refines) ListC.clear_refines _ _ _) fun _ =>
    bind (onValues_refines (fun _ => ListH.clear_refines) ListC.clear_refines _ _ _) fun _ => pure _

/-- a call and what the caller sees -/
theorem call_step {m : Cpp (DictWorld κ ν) β} {m' : Cpp (DictC κ ν) β} (h : Cpp.Refines (At w0 i ds) m m')
    {w : DictWorld κ ν} {d d' : DictC κ ν} (hr : At w0 i ds w d) {f : β → Spec.MapRet ν} {r : Spec.MapRet ν}
    (e : DictC.observe f (m' d) = some (d', r)) :
    (∃ w', (do return f (← m) : Cpp (DictWorld κ ν) (Spec.MapRet ν)) w = .ok r w' ∧ At w0 i ds w' d') ∨
    (∃ w', (do return f (← m) : Cpp (DictWorld κ ν) (Spec.MapRet ν)) w = .err w' ∧ At w0 i ds w' d' ∧ r = .error) := by
  have := h w d hr
  rw [Cpp.bind_apply]
  generalize m w = o at this
  generalize m' d = o' at this e
  cases this with
  | ok h =>
    simp only [DictC.observe, Option.some.injEq, Prod.mk.injEq] at e
    obtain ⟨rfl, rfl⟩ := e
    exact .inl ⟨_, rfl, h⟩
  | err h =>
    simp only [DictC.observe, Option.some.injEq, Prod.mk.injEq] at e
    obtain ⟨rfl, rfl⟩ := e
    exact .inr ⟨_, rfl, h, rfl⟩
  | fault => simp [DictC.observe] at e

theorem call_refines {w : DictWorld κ ν} {d d' : DictC κ ν} (hr : At w0 i ds w d) (op : Spec.MapOp κ ν) {r : Spec.MapRet ν}
    (e : DictC.step cmp d op = some (d', r)) :
    (∃ w', call mk mv cmp i op w = .ok r w' ∧ At w0 i ds w' d') ∨
    (∃ w', call mk mv cmp i op w = .err w' ∧ At w0 i ds w' d' ∧ r = .error) := by
  cases op with
  | add k v => exact call_step w0 i ds (add_refines mk mv cmp w0 i ds k v) hr e
  | set k v => exact call_step w0 i ds (set_refines mk mv cmp w0 i ds k v) hr e
  | get k => exact call_step w0 i ds (get_refines cmp w0 i ds k) hr e
  | remove k => exact call_step w0 i ds (remove_refines mk mv cmp w0 i ds k) hr e
  | clear => exact call_step w0 i ds (clear_refines w0 i ds) hr e
  | contains k => exact call_step w0 i ds (keyContains_refines cmp w0 i ds k) hr e

end

theorem onKeys_ok {m : Cpp (ListWorld κ) Unit} {w : DictWorld κ ν} {k' : ListWorld κ} (e : m w.keys = .ok () k') :
    onKeys m w = .ok () ⟨k', w.values⟩ := by simp [onKeys, e]
theorem onValues_ok {m : Cpp (ListWorld ν) Unit} {w : DictWorld κ ν} {v' : ListWorld ν} (e : m w.values = .ok () v') :
    onValues m w = .ok () ⟨w.keys, v'⟩ := by simp [onValues, e]

theorem movedTo_keys (ds : Nat → DictC κ ν) (i j : Nat) :
    movedTo [] (fun n => (ds n).keys) i j = fun n => (movedTo DictC.empty ds i j n).keys := by
  funext n; unfold movedTo; split
  · rfl
  · split <;> rfl
theorem movedTo_values (ds : Nat → DictC κ ν) (i j : Nat) :
    movedTo [] (fun n => (ds n).values) i j = fun n => (movedTo DictC.empty ds i j n).values := by
  funext n; unfold movedTo; split
  · rfl
  · split <;> rfl
theorem upd_keys (ds : Nat → DictC κ ν) (i : Nat) :
    upd (fun n => (ds n).keys) i [] = fun n => (upd ds i DictC.empty n).keys := by
  funext n; unfold upd; split <;> rfl
theorem upd_values (ds : Nat → DictC κ ν) (i : Nat) :
    upd (fun n => (ds n).values) i [] = fun n => (upd ds i DictC.empty n).values := by
  funext n; unfold upd; split <;> rfl

/-- dictionaries of maps -/
def Stores (ord : κ → κ → Ordering) (w : DictWorld κ ν) (ms : Nat → κ → Option ν) : Prop :=
  ∃ ds, Rel w ds ∧ ∀ n, Spec.Lists ord (ms n) (ds n).keys (ds n).values

theorem stores_empty {ord : κ → κ → Ordering} : Stores ord (empty : DictWorld κ ν) (fun _ _ => none) :=
  ⟨fun _ => DictC.empty, ⟨Reps.empty, Reps.empty⟩, fun _ => Spec.Lists.empty⟩

theorem moveSim (mk : Option κ → Option κ) (mv : Option ν → Option ν) {cmp : κ → κ → Option Ordering}
    {ord : κ → κ → Ordering} [Std.TransCmp ord] (hcmp : ∀ a b, cmp a b = some (ord a b)) :
    MoveSim (movable mk mv cmp) (Stores ord) (fun w n => Fresh w.keys n ∧ Fresh w.values n)
      (fun m op m' r => Spec.mapStep ord m op = (m', r)) (fun _ _ => True) (fun _ => none) .error := by
  refine ⟨?_, ?_, ?_, ?_⟩
  · rintro w ms i op ⟨ds, hr, hl⟩ -
    obtain ⟨d', e, hl'⟩ := DictC.step_refines hcmp (hl i) op
    have hat : At w i ds w (ds i) := ⟨ListWorld.AtBy.start hr.keys i, ListWorld.AtBy.start hr.values i⟩
    have key : ∀ w', At w i ds w' d' →
        Stores ord w' (upd ms i (Spec.mapStep ord (ms i) op).1) ∧
        ∀ n, n ≠ i → Fresh w.keys n ∧ Fresh w.values n → Fresh w'.keys n ∧ Fresh w'.values n := by
      intro w' h
      refine ⟨⟨_, h.rel, ?_⟩, fun n hn hf => ⟨(h.keys.2 n hn).trans hf.1, (h.values.2 n hn).trans hf.2⟩⟩
      intro n
      by_cases hn : n = i
      · subst hn; rw [upd_self, upd_self]; exact hl'
      · rw [upd_ne hn, upd_ne hn]; exact hl n
    rcases call_refines mk mv cmp w i ds hat op e with ⟨w', e', h⟩ | ⟨w', e', h, hret⟩
    · exact .inl ⟨w', _, _, e', (key w' h).1, rfl, (key w' h).2⟩
    · exact .inr ⟨w', _, e', (key w' h).1, by rw [← hret], (key w' h).2⟩
  · rintro w ms i j ⟨ds, hr, hl⟩
    obtain ⟨k', e1, r1, _, l1⟩ := ListWorld.moveAssign_ok ListWorld.holding_list hr.keys i j
    obtain ⟨v', e2, r2, _, l2⟩ := ListWorld.moveAssign_ok ListWorld.holding_list hr.values i j
    refine ⟨⟨k', v'⟩, ?_, ⟨movedTo DictC.empty ds i j, ⟨?_, ?_⟩, ?_⟩, ?_⟩
    · show (onKeys _ >>= fun _ => onValues _) w = _
      rw [Cpp.bind_ok (onKeys_ok e1)]
      exact onValues_ok e2
    · rw [movedTo_keys] at r1; exact r1
    · rw [movedTo_values] at r2; exact r2
    · intro n
      unfold movedTo
      split
      · exact Spec.Lists.empty
      · split
        · exact hl j
        · exact hl n
    · exact fun n h1 h2 hf => ⟨(l1 n h1 h2).trans hf.1, (l2 n h1 h2).trans hf.2⟩
  · rintro w ms i j hij ⟨ds, hr, hl⟩ ⟨f1, f2⟩
    obtain ⟨k', e1, r1, _, l1⟩ := ListWorld.moveConstruct_ok ListWorld.holding_list hr.keys hij f1
    obtain ⟨v', e2, r2, _, l2⟩ := ListWorld.moveConstruct_ok ListWorld.holding_list hr.values hij f2
    refine ⟨⟨k', v'⟩, ?_, ⟨movedTo DictC.empty ds i j, ⟨?_, ?_⟩, ?_⟩, ?_⟩
    · show (onKeys _ >>= fun _ => onValues _) w = _
      rw [Cpp.bind_ok (onKeys_ok e1)]
      exact onValues_ok e2
    · rw [movedTo_keys] at r1; exact r1
    · rw [movedTo_values] at r2; exact r2
    · intro n
      unfold movedTo
      split
      · exact Spec.Lists.empty
      · split
        · exact hl j
        · exact hl n
    · exact fun n h1 h2 hf => ⟨(l1 n h1 h2).trans hf.1, (l2 n h1 h2).trans hf.2⟩
  · rintro w ms i ⟨ds, hr, hl⟩
    obtain ⟨v', e2, r2, g2, l2⟩ := ListWorld.renew_ok ListWorld.holding_list hr.values i
    obtain ⟨k', e1, r1, g1, l1⟩ := ListWorld.renew_ok ListWorld.holding_list hr.keys i
    refine ⟨⟨k', v'⟩, ?_, ⟨upd ds i DictC.empty, ⟨?_, ?_⟩, ?_⟩, ⟨g1, g2⟩, ?_⟩
    · show (onValues _ >>= fun _ => onKeys _) w = _
      rw [Cpp.bind_ok (onValues_ok e2)]
      exact onKeys_ok e1
    · rw [upd_keys] at r1; exact r1
    · rw [upd_values] at r2; exact r2
    · intro n
      unfold upd
      split
      · exact Spec.Lists.empty
      · exact hl n
    · intro n hf
      by_cases hn : n = i
      · subst hn; exact ⟨g1, g2⟩
      · exact ⟨(l1 n hn).trans hf.1, (l2 n hn).trans hf.2⟩

end DictWorld
end Vlpp
