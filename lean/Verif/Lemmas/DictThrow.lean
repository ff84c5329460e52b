import Verif.Model.DictThrow
import Verif.Lemmas.HeapDict
import Verif.Lemmas.ArrayThrow

/-! # Dictionaries whose keys and values throw -/
set_option autoImplicit false
namespace Vlpp
open Spec (CopyFate EntryFate)

theorem Cpp.Refines.eq_ok {σ τ β : Type} {R : σ → τ → Prop} {m : Cpp σ β} {m' : Cpp τ β} (h : Cpp.Refines R m m') {s : σ} {t t' : τ}
    {v : β} (hr : R s t) (e : m' t = .ok v t') : ∃ s', m s = .ok v s' ∧ R s' t' := by
  have := h s t hr
  rw [e] at this
  cases hm : m s with
  | fault => rw [hm] at this; cases this
  | err _ => rw [hm] at this; cases this
  | ok u s' =>
    rw [hm] at this
    cases this with
    | ok h => exact ⟨s', rfl, h⟩

theorem Outcome.thrown_bind {σ β γ : Type} {o : Outcome σ β} {m : Cpp σ β} {s : σ} {f : β → γ} (e : m s = (o.thrown : Outcome σ β)) :
    (m >>= fun b => Pure.pure (f b)) s = (o.thrown : Outcome σ γ) := by
  rw [Cpp.bind_apply, e]
  cases o <;> rfl

namespace ListWorld
variable {α κ β : Type}

/-- List `i` counts a cell without an element. -/
def BrokenAt (w : ListWorld α) (i m : Nat) : Prop :=
  ∃ F c, ListH.Rel F (w.heap, w.lists i) c ∧ ListH.Broken c m

namespace BrokenAt
variable {w : ListWorld α} {i m : Nat} (h : BrokenAt w i m)
include h

theorem dtor : on i ListH.destructor w = .fault := by
  obtain ⟨F, c, hr, hb⟩ := h
  simp [on, hb.destructor hr]

theorem destroy : ListWorld.destroy i w = .fault := Cpp.bind_fault h.dtor

theorem moveAssign (j : Nat) : ListWorld.moveAssign i j w = .fault := Cpp.bind_fault h.dtor

theorem clear : on i ListH.clear w = .fault := by
  obtain ⟨F, c, hr, hb⟩ := h
  simp [on, hb.clear hr]

theorem get : on i (ListH.reading (ListC.get (m : Int))) w = .fault := by
  obtain ⟨F, c, hr, hb⟩ := h
  simp [on, hb.get hr]

end BrokenAt

/-- an interrupted addition to a sorted list -/
theorem sortedAddT_breaks (mv : Option α → Option α) {cmp : α → κ → Option Ordering} {key : α → κ} {w w1 : ListWorld α}
    {xs : Nat → List α} (hr : Reps w xs) {i : Nat} {v t : α} {n : Int} (e : on i (ListH.sortedAdd mv cmp key v) w = .ok n w1) :
    ∃ w' m, on i (ListH.sortedAddT mv cmp key v (.throws 0 t)) w = .err w' ∧ BrokenAt w' i m ∧
      ∀ n, n ≠ i → w'.lists n = w.lists n := by
  obtain ⟨cs, hw, hp⟩ := hr
  have e1 : ∃ s', ListH.sortedAdd mv cmp key v (w.heap, w.lists i) = .ok n s' := by
    unfold on at e
    split at e
    · next e2 => cases e; exact ⟨_, e2⟩
    · cases e
    · cases e
  obtain ⟨s1, e1⟩ := e1
  obtain ⟨m, hm, e2⟩ := ListH.sortedAdd_position mv cmp key (hw.rel i) (hp i) v e1 (.throws 0 t)
  obtain ⟨⟨h', l'⟩, c', e3, hr', hb⟩ := ListH.insertRawT_throws mv (hw.rel i) (hp i) hm v t
  refine ⟨({ w with heap := h' } : ListWorld α).put i l', m, by simp only [on, e2, e3], ⟨others w i, c', by simpa [put] using hr', hb⟩, fun n hn => by simp [put, hn]⟩

/-- an interrupted insertion -/
theorem insertT_breaks (mv : Option α → Option α) {w : ListWorld α} {xs : Nat → List α} (hr : Reps w xs) {i m : Nat}
    (hm : m ≤ (xs i).length) (v t : α) :
    ∃ w', on i (ListH.insertT mv (m : Int) v (.throws 0 t)) w = .err w' ∧ BrokenAt w' i m := by
  obtain ⟨cs, hw, hp⟩ := hr
  obtain ⟨⟨h', l'⟩, c', e3, hr', hb⟩ := ListH.insertT_throws mv (hw.rel i) (hp i) hm v t
  exact ⟨({ w with heap := h' } : ListWorld α).put i l', by simp only [on, e3], others w i, c', by simpa [put] using hr', hb⟩

theorem put_same (w : ListWorld α) (i : Nat) : w.put i (w.lists i) = w := by
  unfold put
  congr 1
  funext n
  split
  · next h => rw [h]
  · rfl

/-- reading does not change anything -/
theorem on_reading_state {m : Cpp (ListC α) β} {w w' : ListWorld α} {i : Nat} {v : β}
    (e : on i (ListH.reading m) w = .ok v w') : w' = w := by
  unfold on at e
  split at e
  · next e1 =>
    have := ListH.reading_state e1
    cases this
    cases e
    exact put_same w i
  · cases e
  · cases e

end ListWorld

namespace DictWorld
variable {κ ν β : Type}
open ListWorld (Reps Fresh)

theorem onKeys_eq_ok {m : Cpp (ListWorld κ) β} {w : DictWorld κ ν} {v : β} {k' : ListWorld κ} (e : m w.keys = .ok v k') :
    onKeys m w = .ok v ⟨k', w.values⟩ := by simp [onKeys, e]
theorem onKeys_err {m : Cpp (ListWorld κ) β} {w : DictWorld κ ν} {k' : ListWorld κ} (e : m w.keys = .err k') :
    onKeys m w = .err ⟨k', w.values⟩ := by simp [onKeys, e]
theorem onKeys_fault {m : Cpp (ListWorld κ) β} {w : DictWorld κ ν} (e : m w.keys = .fault) :
    onKeys m w = .fault := by simp [onKeys, e]
theorem onValues_err {m : Cpp (ListWorld ν) β} {w : DictWorld κ ν} {v' : ListWorld ν} (e : m w.values = .err v') :
    onValues m w = .err ⟨w.keys, v'⟩ := by simp [onValues, e]
theorem onValues_fault {m : Cpp (ListWorld ν) β} {w : DictWorld κ ν} (e : m w.values = .fault) :
    onValues m w = .fault := by simp [onValues, e]

section
variable (mk : Option κ → Option κ) (mv : Option ν → Option ν) (cmp : κ → κ → Option Ordering)

theorem callT_completes (i : Nat) (op : Spec.MapOp κ ν) : callT mk mv cmp i (op, .completes) = call mk mv cmp i op := by
  have h1 : ∀ k : κ, ListH.sortedAddT mk cmp id k (EntryFate.completes (ν := ν).key k) = ListH.sortedAdd mk cmp id k :=
    fun k => ListH.sortedAddT_eq mk cmp id k (fun t h => by cases h)
  have h2 : ∀ (n : Int) (v : ν), ListH.insertT mv n v EntryFate.completes.value = ListH.insert mv n v :=
    fun n v => ListH.insertT_eq mv n v (fun t h => by cases h)
  have h3 : ∀ (n : Int) (v : ν), ListH.setAtT n v EntryFate.completes.value = ListH.setAt n v :=
    fun n v => ListH.setAtT_eq n v (fun t h => by cases h)
  cases op with
  | add k v =>
    show (addT mk mv cmp i k v .completes >>= fun b => pure (Spec.MapRet.flag b)) = (add mk mv cmp i k v >>= fun b => pure (.flag b))
    unfold addT add
    rw [h1]; simp only [h2]
  | set k v =>
    show (setT mk mv cmp i k v .completes >>= fun b => pure (Spec.MapRet.flag b)) = (set mk mv cmp i k v >>= fun b => pure (.flag b))
    unfold setT set
    rw [h1]; simp only [h2, h3]
  | _ => rfl

variable {cmp} {ord : κ → κ → Ordering} [Std.TransCmp ord] (hcmp : ∀ a b, cmp a b = some (ord a b)) {w : DictWorld κ ν} {i : Nat}
  {ds : Nat → DictC κ ν} {m : κ → Option ν} (hat : At w i ds w (ds i)) (hl : Spec.Lists ord m (ds i).keys (ds i).values)
include hcmp hat hl

theorem keyIndex_found {k : κ} (hk : (m k).isSome) : ∃ p : Nat, keyIndex cmp i k w = .ok (p : Int) w := by
  rcases SortedSeq.indexOf_spec (KeyCmp.compares hcmp) (strict_ascending hl.ascending) k with ⟨p, hp, e, _⟩ | ⟨_, hne⟩
  · obtain ⟨w', e', _⟩ := (keyIndex_refines cmp w i ds k).eq_ok hat (DictC.onKeys_ok e)
    refine ⟨p, ?_⟩
    rw [e']
    have e2 : onKeys (ListWorld.on i (ListH.reading (SortedListC.indexOf cmp k))) w = .ok (p : Int) w' := e'
    unfold onKeys at e2
    split at e2
    · next e3 => cases e2; rw [ListWorld.on_reading_state e3]
    · cases e2
    · cases e2
  · obtain ⟨x, hx, he⟩ := (hl.isSome_iff k).1 hk
    exact absurd he (hne x hx)

theorem keyIndex_absent {k : κ} (hk : m k = none) : keyIndex cmp i k w = .ok (-1) w := by
  rcases SortedSeq.indexOf_spec (KeyCmp.compares hcmp) (strict_ascending hl.ascending) k with ⟨p, hp, e, he⟩ | ⟨e, hne⟩
  · have := (hl.isSome_iff k).2 ⟨_, List.getElem_mem hp, he⟩
    rw [hk] at this; cases this
  · obtain ⟨w', e', _⟩ := (keyIndex_refines cmp w i ds k).eq_ok hat (DictC.onKeys_ok e)
    rw [e']
    have e2 : onKeys (ListWorld.on i (ListH.reading (SortedListC.indexOf cmp k))) w = .ok (-1) w' := e'
    unfold onKeys at e2
    split at e2
    · next e3 => cases e2; rw [ListWorld.on_reading_state e3]
    · cases e2
    · cases e2

theorem contains_ok (k : κ) : contains cmp i k w = .ok (m k).isSome w := by
  have key : ∀ b, SortedSeq.contains cmp k (ds i).keys = .ok b (ds i).keys → contains cmp i k w = .ok b w := by
    intro b e
    obtain ⟨w', e', _⟩ := (keyContains_refines cmp w i ds k).eq_ok hat (DictC.onKeys_ok e)
    unfold contains
    rw [e']
    unfold onKeys at e'
    split at e'
    · next e3 => cases e'; rw [ListWorld.on_reading_state e3]
    · cases e'
    · cases e'
  rcases DictC.contains_spec hcmp (strict_ascending hl.ascending) k with ⟨e, hex⟩ | ⟨e, hne⟩
  · rw [(hl.isSome_iff k).2 hex]; exact key _ e
  · have hm : m k = none := by
      rw [← Option.not_isSome_iff_eq_none, hl.isSome_iff k]
      exact fun ⟨x, hx, he⟩ => hne x hx he
    rw [hm]; exact key _ e

/-- a call that is not interrupted is an ordinary call, or assigns another value and throws -/
theorem callT_cases {op : Spec.MapOp κ ν} {f : EntryFate ν} (hn : ¬ Spec.MapInterrupted m (op, f)) :
    (callT mk mv cmp i (op, f) w = call mk mv cmp i op w ∧ Spec.mapThrowStep ord m (op, f) = Spec.mapStep ord m op) ∨
    ∃ k t, callT mk mv cmp i (op, f) w = (call mk mv cmp i (.set k t) w).thrown ∧
      Spec.mapThrowStep ord m (op, f) = ((Spec.mapStep ord m (.set k t)).1, .error) := by
  by_cases hf : f = .completes
  · subst hf
    exact .inl ⟨by rw [callT_completes], by cases op <;> rfl⟩
  cases op with
  | add k v =>
    have hk : (m k).isSome := by
      cases h : m k with
      | some _ => rfl
      | none => cases f <;> first | exact absurd rfl hf | exact absurd h hn
    refine .inl ⟨?_, ?_⟩
    · show (addT mk mv cmp i k v f >>= fun b => pure (Spec.MapRet.flag b)) w = (add mk mv cmp i k v >>= fun b => pure (.flag b)) w
      have e := contains_ok hcmp hat hl k
      unfold contains at e
      have e1 : addT mk mv cmp i k v f w = .err w := by
        unfold addT
        rw [Cpp.bind_ok e, Cpp.bind_err (Cpp.check_false (by simp [hk]) _)]
      have e2 : add mk mv cmp i k v w = .err w := by
        unfold add
        rw [Cpp.bind_ok e, Cpp.bind_err (Cpp.check_false (by simp [hk]) _)]
      rw [Cpp.bind_err e1, Cpp.bind_err e2]
    · show _ = if (m k).isSome then _ else _
      rw [if_pos hk]
      cases f with
      | completes => exact absurd rfl hf
      | keyThrows => rfl
      | valueThrows t => rfl
  | set k v =>
    have hk : (m k).isSome := by
      cases h : m k with
      | some _ => rfl
      | none => cases f <;> first | exact absurd rfl hf | exact absurd h hn
    obtain ⟨p, e⟩ := keyIndex_found hcmp hat hl hk
    have hp : (p : Int) ≠ -1 := by omega
    cases f with
    | completes => exact absurd rfl hf
    | keyThrows =>
      refine .inl ⟨?_, if_pos hk⟩
      show (setT mk mv cmp i k v .keyThrows >>= fun b => pure (Spec.MapRet.flag b)) w = (set mk mv cmp i k v >>= fun b => pure (.flag b)) w
      have : setT mk mv cmp i k v .keyThrows w = set mk mv cmp i k v w := by
        unfold setT set
        rw [Cpp.bind_ok e, Cpp.bind_ok e, if_neg hp, if_neg hp]
        rw [show ListH.setAtT (p : Int) v EntryFate.keyThrows.value = ListH.setAt p v from
          ListH.setAtT_eq _ v (fun t h => by cases h)]
      rw [Cpp.bind_apply, Cpp.bind_apply, this]
    | valueThrows t =>
      refine .inr ⟨k, t, ?_, if_pos hk⟩
      show (setT mk mv cmp i k v (.valueThrows t) >>= fun b => pure (Spec.MapRet.flag b)) w =
        ((set mk mv cmp i k t >>= fun b => pure (Spec.MapRet.flag b)) w).thrown
      have h1 : setT mk mv cmp i k v (.valueThrows t) w = (set mk mv cmp i k t w).thrown := by
        unfold setT set
        rw [Cpp.bind_ok e, Cpp.bind_ok e, if_neg hp, if_neg hp, Cpp.bind_apply, Cpp.bind_apply]
        unfold onValues ListWorld.on
        rw [show ListH.setAtT (p : Int) v (EntryFate.valueThrows t).value (w.values.heap, w.values.lists i) =
          (ListH.setAt (p : Int) t (w.values.heap, w.values.lists i)).thrown from ListH.setAtT_throws _ _ _ _]
        cases ListH.setAt (p : Int) t (w.values.heap, w.values.lists i) <;> rfl
      rw [Cpp.bind_apply, h1, Cpp.bind_apply]
      cases set mk mv cmp i k t w <;> rfl
  | _ => exact .inl ⟨by cases f <;> rfl, by cases f <;> rfl⟩

end

theorem moveSimT (mk : Option κ → Option κ) (mv : Option ν → Option ν) {cmp : κ → κ → Option Ordering}
    {ord : κ → κ → Ordering} [Std.TransCmp ord] (hcmp : ∀ a b, cmp a b = some (ord a b)) :
    MoveSim (movableT mk mv cmp) (Stores ord) (fun w n => Fresh w.keys n ∧ Fresh w.values n)
      (fun m op m' r => Spec.mapThrowStep ord m op = (m', r)) (fun m op => ¬ Spec.MapInterrupted m op) (fun _ => none) .error := by
  have h := moveSim mk mv hcmp
  refine ⟨?_, h.moveAssign, h.moveConstruct, h.renew⟩
  rintro w ms i ⟨op, f⟩ hs hn
  obtain ⟨ds, hr, hl⟩ := id hs
  have hat : At w i ds w (ds i) := ⟨ListWorld.AtBy.start hr.keys i, ListWorld.AtBy.start hr.values i⟩
  rcases callT_cases mk mv hcmp hat (hl i) hn with ⟨e1, e2⟩ | ⟨k, t, e1, e2⟩
  · have e1 : (movableT mk mv cmp).call i (op, f) w = (movable mk mv cmp).call i op w := e1
    rw [e1]
    rcases h.call w ms i op hs trivial with ⟨w', x', r, e, a, b, c⟩ | ⟨w', x', e, a, b, c⟩
    · exact .inl ⟨w', x', r, e, a, by rw [e2]; exact b, c⟩
    · exact .inr ⟨w', x', e, a, by rw [e2]; exact b, c⟩
  · have e1 : (movableT mk mv cmp).call i (op, f) w = ((movable mk mv cmp).call i (.set k t) w).thrown := e1
    rw [e1]
    rcases h.call w ms i (.set k t) hs trivial with ⟨w', x', r, e, a, b, c⟩ | ⟨w', x', e, a, b, c⟩
    · exact .inr ⟨w', x', by rw [e]; rfl, a, by rw [e2, b], c⟩
    · exact .inr ⟨w', x', by rw [e]; rfl, a, by rw [e2, b], c⟩

end DictWorld

theorem Spec.MapUninterrupted.safe {κ ν : Type} {ord : κ → κ → Ordering} (ops : List (Spec.MoveOp (Spec.MapOp κ ν × EntryFate ν)))
    {ms : Nat → κ → Option ν} (h : Spec.MapUninterrupted ord ms ops) :
    Safe (fun m op m' r => Spec.mapThrowStep ord m op = (m', r)) (fun m op => ¬ Spec.MapInterrupted m op) (fun _ => none)
      (.flag true) .error ms ops := by
  induction ops generalizing ms with
  | nil => trivial
  | cons op ops ih =>
    refine ⟨h.1, fun ys r hm => ih ?_⟩
    have := h.2
    rw [hm.eq_moveStep] at this
    exact this

end Vlpp
