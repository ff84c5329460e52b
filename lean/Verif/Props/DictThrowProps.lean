import Verif.Lemmas.DictThrow
import Verif.Props.HeapDictProps
import Verif.Props.ThrowProps

/-!
# Property C91: dictionaries and groups when copying a key or a value throws

The full statements are `C91_dictionary_partial` without the hypothesis `MapUninterrupted` and `C91_group_partial` without
`GroupUninterrupted` (GroupThrowProps.lean).  The theorems `..._violated...` refute them for every program that reaches an interrupted insertion.
-/
set_option autoImplicit false
namespace Vlpp
open Spec (CopyFate EntryFate)

/-! ## Dictionaries -/

namespace DictWorld
variable {κ ν : Type}
open ListWorld (Reps Fresh BrokenAt)

/-- what an interrupted insertion leaves behind -/
inductive Ruined (cmp : κ → κ → Option Ordering) (w : DictWorld κ ν) (i : Nat) (k : κ) : EntryFate ν → Prop where
  | key {m : Nat} {vs : Nat → List ν} : BrokenAt w.keys i m → Reps w.values vs → Ruined cmp w i k .keyThrows
  | value {m : Nat} {ks : Nat → List κ} {t : ν} : BrokenAt w.values i m → Reps w.keys ks → keyIndex cmp i k w = .ok (m : Int) w →
      DictWorld.contains cmp i k w = .ok true w → Ruined cmp w i k (.valueThrows t)

/-- reading the keys does not depend on the values -/
theorem onKeys_reading {β : Type} {m : Cpp (ListC κ) β} {i : Nat} {ks : ListWorld κ} {vs : ListWorld ν} {x : β} {w' : DictWorld κ ν}
    (e : onKeys (ListWorld.on i (ListH.reading m)) ⟨ks, vs⟩ = .ok x w') (vs' : ListWorld ν) :
    onKeys (ListWorld.on i (ListH.reading m)) ⟨ks, vs'⟩ = .ok x ⟨ks, vs'⟩ := by
  unfold onKeys at e
  split at e
  · next e6 =>
    have := ListWorld.on_reading_state e6
    subst this
    cases e
    exact onKeys_eq_ok e6
  · cases e
  · cases e

section
variable (mk : Option κ → Option κ) (mv : Option ν → Option ν) {cmp : κ → κ → Option Ordering} {ord : κ → κ → Ordering}
  [Std.TransCmp ord] (hcmp : ∀ a b, cmp a b = some (ord a b)) {w : DictWorld κ ν} {i : Nat}
  {ds : Nat → DictC κ ν} {m : κ → Option ν} (hat : At w i ds w (ds i)) (hl : Spec.Lists ord m (ds i).keys (ds i).values)
include hcmp hat hl

theorem insertT_ruins {k : κ} (hk : m k = none) (v : ν) {f : EntryFate ν} (hf : f ≠ .completes) :
    ∃ w', (do
        let index ← onKeys (ListWorld.on i (ListH.sortedAddT mk cmp id k (f.key k)))
        let _ ← onValues (ListWorld.on i (ListH.insertT mv index v f.value))
        return true : Cpp (DictWorld κ ν) Bool) w = .err w' ∧ Ruined cmp w' i k f := by
  have hne : ∀ x ∈ (ds i).keys, ord x k ≠ .eq := by
    intro x hx he
    have := (hl.isSome_iff k).2 ⟨x, hx, he⟩
    rw [hk] at this; cases this
  obtain ⟨p, hp, e, hb, ha⟩ := SortedSeq.add_spec (KeyCmp.compares hcmp) (strict_ascending hl.ascending) k
  obtain ⟨w1, e1, h1⟩ := (keyAdd_refines mk cmp w i ds k).eq_ok hat (DictC.onKeys_ok e)
  have e2 : ∃ k1, ListWorld.on i (ListH.sortedAdd mk cmp id k) w.keys = .ok (p : Int) k1 ∧ w1 = ⟨k1, w.values⟩ := by
    unfold onKeys at e1
    split at e1
    · next e3 => cases e1; exact ⟨_, e3, rfl⟩
    · cases e1
    · cases e1
  obtain ⟨k1, e2, rfl⟩ := e2
  cases f with
  | completes => exact absurd rfl hf
  | keyThrows =>
    obtain ⟨w', n, e3, hb', _⟩ := ListWorld.sortedAddT_breaks mk (t := k) hat.keys.1 e2
    exact ⟨_, Cpp.bind_err (onKeys_err e3), .key hb' hat.values.1⟩
  | valueThrows t =>
    rw [show ListH.sortedAddT mk cmp id k ((EntryFate.valueThrows t).key k) = ListH.sortedAdd mk cmp id k from
      ListH.sortedAddT_eq mk cmp id k (fun t h => by cases h)]
    have hpv : p ≤ (upd (fun n => (ds n).values) i (ds i).values i).length := by
      rw [upd_self, ← hl.length]; exact hp
    obtain ⟨v', e3, hb'⟩ := ListWorld.insertT_breaks mv h1.values.1 hpv v t
    have hasc := strict_insert hl.ascending hp hne hb ha
    have hrefl : ord k k = .eq := Std.ReflCmp.compare_self
    refine ⟨⟨k1, v'⟩, ?_, .value (m := p) hb' h1.keys.1 ?_ ?_⟩
    · rw [Cpp.bind_ok e1]
      exact Cpp.bind_err (onValues_err e3)
    · -- the key is found
      rcases SortedSeq.indexOf_spec (KeyCmp.compares hcmp) (strict_ascending hasc) k with ⟨q, hq, e4, heq⟩ | ⟨_, hne'⟩
      · have hq' : q = p := by
          refine strict_unique hasc (List.getElem?_eq_getElem hq) (j := p) (b := k) ?_ heq
          rw [getElem?_insert (ds i).keys p k hp]; simp
        subst hq'
        obtain ⟨w2, e5, _⟩ := (keyIndex_refines cmp w i ds k).eq_ok h1 (DictC.onKeys_ok e4)
        exact onKeys_reading e5 v'
      · exact absurd hrefl (hne' k (by simp))
    · rcases DictC.contains_spec hcmp (strict_ascending hasc) k with ⟨e4, _⟩ | ⟨_, hne'⟩
      · obtain ⟨w2, e5, _⟩ := (keyContains_refines cmp w i ds k).eq_ok h1 (DictC.onKeys_ok e4)
        exact onKeys_reading e5 v'
      · exact absurd hrefl (hne' k (by simp))

theorem callT_ruins {op : Spec.MapOp κ ν} {f : EntryFate ν} (hi : Spec.MapInterrupted m (op, f)) :
    ∃ w' k v, (op = .add k v ∨ op = .set k v) ∧ callT mk mv cmp i (op, f) w = .err w' ∧ Ruined cmp w' i k f := by
  have hf : f ≠ .completes := by rintro rfl; cases op <;> exact hi
  cases op with
  | add k v =>
    have hk : m k = none := by cases f <;> first | exact absurd rfl hf | exact hi
    obtain ⟨w', e, hr⟩ := insertT_ruins mk mv hcmp hat hl hk v hf
    refine ⟨w', k, v, .inl rfl, ?_, hr⟩
    refine Cpp.bind_err ?_
    have e1 := contains_ok hcmp hat hl k
    unfold contains at e1
    unfold addT
    rw [Cpp.bind_ok e1, Cpp.bind_ok (Cpp.check_true (by simp [hk]) _)]
    exact e
  | set k v =>
    have hk : m k = none := by cases f <;> first | exact absurd rfl hf | exact hi
    obtain ⟨w', e, hr⟩ := insertT_ruins mk mv hcmp hat hl hk v hf
    refine ⟨w', k, v, .inr rfl, ?_, hr⟩
    refine Cpp.bind_err ?_
    unfold setT
    rw [Cpp.bind_ok (keyIndex_absent hcmp hat hl hk), if_pos rfl]
    exact e
  | _ => cases f <;> first | exact absurd rfl hf | exact hi.elim

end

theorem Ruined.renew {cmp : κ → κ → Option Ordering} {w : DictWorld κ ν} {i : Nat} {k : κ} {f : EntryFate ν}
    (h : Ruined cmp w i k f) : DictWorld.renew i w = .fault := by
  unfold DictWorld.renew
  cases h with
  | key hb hv =>
    obtain ⟨v', e, _⟩ := ListWorld.renew_ok ListWorld.holding_list hv i
    rw [Cpp.bind_ok (onValues_ok e)]
    exact onKeys_fault hb.destroy
  | value hb _ _ _ => exact Cpp.bind_fault (onValues_fault hb.destroy)

theorem Ruined.moveAssign {cmp : κ → κ → Option Ordering} {w : DictWorld κ ν} {i : Nat} {k : κ} {f : EntryFate ν}
    (h : Ruined cmp w i k f) (j : Nat) : DictWorld.moveAssign i j w = .fault := by
  unfold DictWorld.moveAssign
  cases h with
  | key hb _ => exact Cpp.bind_fault (onKeys_fault (hb.moveAssign j))
  | value hb hk _ _ =>
    obtain ⟨k', e, _⟩ := ListWorld.moveAssign_ok ListWorld.holding_list hk i j
    rw [Cpp.bind_ok (onKeys_ok e)]
    exact onValues_fault (hb.moveAssign j)

theorem Ruined.clear {cmp : κ → κ → Option Ordering} {w : DictWorld κ ν} {i : Nat} {k : κ} {f : EntryFate ν}
    (h : Ruined cmp w i k f) : DictWorld.clear i w = .fault := by
  unfold DictWorld.clear
  cases h with
  | key hb _ => exact Cpp.bind_fault (onKeys_fault hb.clear)
  | value hb hk _ _ =>
    obtain ⟨k', e, _⟩ := (ListWorld.on_refines (ListWorld.listRel_refines (fun _ => ListH.clear_refines) ListC.clear_refines)
      w.keys i _).eq_ok (ListWorld.AtBy.start hk i) rfl
    rw [Cpp.bind_ok (onKeys_eq_ok e)]
    exact Cpp.bind_fault (onValues_fault hb.clear)

end DictWorld

section
open DictWorld
variable {κ ν : Type}

/-- **C91 (dictionaries).** Programs over any number of dictionaries in which copying keys and values throws, except while
an entry is inserted: the results are those of maps, a value whose assignment throws is what the assignment left, the
dictionaries can be used after the exception, the heaps are exactly the buffers of the dictionaries with their entries, and
nothing is left when the dictionaries are destroyed. -/
theorem C91_dictionary_partial (mk : Option κ → Option κ) (mv : Option ν → Option ν) {cmp : κ → κ → Option Ordering}
    {ord : κ → κ → Ordering} [Std.TransCmp ord] (hcmp : ∀ a b, cmp a b = some (ord a b))
    (ops : List (Spec.MoveOp (Spec.MapOp κ ν × EntryFate ν))) (hu : Spec.MapUninterrupted ord (fun _ _ => none) ops)
    (N : Nat) (hN : ∀ op ∈ ops, ∀ n, op.Mentions n → n < N) :
    let r := Spec.moveRun (Spec.mapThrowStep ord) (fun _ => none) (.flag true) .error (fun _ => fun _ => none) ops
    (∃ w ks vs, (movableT mk mv cmp).run (.flag true) .error empty ops = some (w, r.2) ∧
      w.keys.Holds ks ∧ w.values.Holds vs ∧ ∀ n, Spec.Lists ord (r.1 n) (ks n) (vs n)) ∧
    ∃ w rs, (movableT mk mv cmp).run (.flag true) .error empty (ops ++ (List.range N).map .renew) = some (w, rs) ∧
      ∀ a, w.keys.heap.block a = none ∧ w.values.heap.block a = none := by
  intro r
  constructor
  · obtain ⟨w, ms, rs, e, ⟨ds, ⟨⟨c1, h1, p1⟩, ⟨c2, h2, p2⟩⟩, hl⟩, hm, _⟩ := (moveSimT mk mv hcmp).run (moved := .flag true) ops
      hu.safe stores_empty
    have hr : r = (ms, rs) := hm.eq_moveRun
    rw [hr]
    exact ⟨w, _, _, e, h1.holds p1, h2.holds p2, hl⟩
  · obtain ⟨w, rs, ms, e, ⟨ds, hr, _⟩, hf⟩ := (moveSimT mk mv hcmp).run_renew (moved := .flag true) ops
      hu.safe stores_empty (fun _ => ⟨rfl, rfl⟩) N hN
    exact ⟨w, rs, e, fun a => ⟨hr.keys.clean (fun n => (hf n).1) a, hr.values.clean (fun n => (hf n).2) a⟩⟩

/-- **C91 is violated by dictionaries.** Whatever the program did before: when copying the key or the value throws while
`Add` or `Set` inserts an entry, the exception reaches the caller, but from then on destroying the dictionary, assigning to
it and clearing it is undefined behaviour; if it was the value, the dictionary now contains the key, and reading its value
is undefined behaviour as well. -/
theorem C91_violated_dictionary (mk : Option κ → Option κ) (mv : Option ν → Option ν) {cmp : κ → κ → Option Ordering}
    {ord : κ → κ → Ordering} [Std.TransCmp ord] (hcmp : ∀ a b, cmp a b = some (ord a b))
    (ops : List (Spec.MoveOp (Spec.MapOp κ ν × EntryFate ν))) (hu : Spec.MapUninterrupted ord (fun _ _ => none) ops) (i : Nat)
    (op : Spec.MapOp κ ν) (f : EntryFate ν)
    (hi : Spec.MapInterrupted
      ((Spec.moveRun (Spec.mapThrowStep ord) (fun _ => none) (.flag true) .error (fun _ => fun _ => none) ops).1 i) (op, f)) :
    let run := (movableT mk mv cmp).run (.flag true) .error empty
    (∃ w rs, run (ops ++ [.call i (op, f)]) = some (w, rs ++ [.error])) ∧
    run (ops ++ [.call i (op, f), .renew i]) = none ∧
    (∀ j, run (ops ++ [.call i (op, f), .moveAssign i j]) = none) ∧
    (∀ j, i ≠ j → run (ops ++ [.call i (op, f), .moveConstruct i j]) = none) ∧
    run (ops ++ [.call i (op, f), .call i (.clear, .completes)]) = none ∧
    ∀ t, f = .valueThrows t → ∃ k v, (op = .add k v ∨ op = .set k v) ∧
      (∃ w rs, run (ops ++ [.call i (op, f), .call i (.contains k, .completes)]) = some (w, rs ++ [.error, .flag true])) ∧
      run (ops ++ [.call i (op, f), .call i (.get k, .completes)]) = none := by
  obtain ⟨w, ms, rs, e, ⟨ds, hr, hl⟩, hm, _⟩ := (moveSimT mk mv hcmp).run (moved := .flag true) ops hu.safe stores_empty
  rw [hm.eq_moveRun] at hi
  have hat : At w i ds w (ds i) := ⟨ListWorld.AtBy.start hr.keys i, ListWorld.AtBy.start hr.values i⟩
  obtain ⟨w', k, v, hop, e1, hb⟩ := callT_ruins mk mv hcmp hat (hl i) hi
  have e2 : (movableT mk mv cmp).run (.flag true) .error w [.call i (op, f)] = some (w', [.error]) := by
    simp only [Movable.run, Movable.step, movableT, e1]; rfl
  have e3 := Movable.run_after e [.call i (op, f)]
  rw [e2] at e3
  have after : ∀ last, (movableT mk mv cmp).run (.flag true) .error empty (ops ++ [.call i (op, f), last]) =
      ((movableT mk mv cmp).run (.flag true) .error w' [last]).map fun q => (q.1, (rs ++ [.error]) ++ q.2) := by
    intro last
    have : ops ++ [Spec.MoveOp.call i (op, f), last] = (ops ++ [.call i (op, f)]) ++ [last] := by simp
    rw [this, Movable.run_after e3]
  refine ⟨⟨_, rs, e3⟩, ?_, fun j => ?_, fun j hij => ?_, ?_, fun t ht => ⟨k, v, hop, ?_⟩⟩
  · rw [after]
    simp only [Movable.run, Movable.step, movableT]
    rw [Cpp.bind_fault hb.renew]; rfl
  · rw [after]
    simp only [Movable.run, Movable.step, movableT]
    rw [Cpp.bind_fault (hb.moveAssign j)]; rfl
  · rw [after]
    simp only [Movable.run, Movable.step, movableT, if_neg hij]
    rw [Cpp.bind_fault hb.renew]; rfl
  · rw [after]
    have : callT mk mv cmp i (.clear, .completes) w' = .fault := Cpp.bind_fault hb.clear
    simp only [Movable.run, Movable.step, movableT, this]; rfl
  · subst ht
    cases hb with
    | value hb hk e4 e5 =>
    constructor
    · have : callT mk mv cmp i (.contains k, .completes) w' = .ok (.flag true) w' := by
        show (DictWorld.contains cmp i k >>= fun b => pure (Spec.MapRet.flag b)) w' = _
        rw [Cpp.bind_ok e5]; rfl
      exact ⟨w', rs, by rw [after]; simp only [Movable.run, Movable.step, movableT, this]; simp [Movable.observe]⟩
    · rw [after]
      have : callT mk mv cmp i (.get k, .completes) w' = .fault := by
        refine Cpp.bind_fault ?_
        unfold DictWorld.get
        rw [Cpp.bind_ok e4]
        exact onValues_fault hb.get
      simp only [Movable.run, Movable.step, movableT, this]; rfl

end
end Vlpp
