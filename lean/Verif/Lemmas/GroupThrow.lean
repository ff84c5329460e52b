import Verif.Lemmas.DictThrow
import Verif.Lemmas.HeapGroup

/-! # Groups whose keys and values throw -/
set_option autoImplicit false
namespace Vlpp
open Spec (CopyFate EntryFate)

namespace ListC
variable {α : Type}

/-- reading a list up to a cell without an element -/
theorem readFirst_raw {c : ListC α} {m : Nat} (hraw : c.buffer.cell m = .raw) (n : Nat) (hn : (n : Int) ≤ c.count) :
    (∃ xs, readFirst n c = .ok xs c ∧ n ≤ m) ∨ readFirst n c = .fault := by
  induction n with
  | zero => exact .inl ⟨[], rfl, Nat.zero_le _⟩
  | succ n ih =>
    unfold readFirst
    rcases ih (by omega) with ⟨xs, e, hle⟩ | e
    · rw [Cpp.bind_ok e]
      have hi : (n : Int) ≥ 0 ∧ (n : Int) < c.count := ⟨by omega, by omega⟩
      have hg : get (n : Int) c = match readVal c.buffer n with | none => .fault | some v => .ok v c := by
        unfold get
        rw [Cpp.bind_ok (Cpp.get_apply _), Cpp.bind_ok (Cpp.check_true hi _)]
        cases readVal c.buffer n <;> rfl
      cases hv : readVal c.buffer n with
      | none =>
        rw [hv] at hg
        exact .inr (Cpp.bind_fault hg)
      | some x =>
        rw [hv] at hg
        refine .inl ⟨xs ++ [x], by rw [Cpp.bind_ok hg]; rfl, ?_⟩
        have : n ≠ m := by
          rintro rfl
          simp [readVal, Mem.read, hraw] at hv
        omega
    · exact .inr (Cpp.bind_fault e)

end ListC

namespace ListH
variable {α : Type} {F : Nat → Option (Block α)}

theorem Broken.readAll {s : Heap α × ListH} {c : ListC α} {i : Nat} (hb : Broken c i) (hr : Rel F s c) :
    reading ListC.readAll s = .fault := by
  obtain ⟨h, l⟩ := s
  have hn := hb.buffer hr
  have ha := hr.own.at'
  cases hp : l.buffer with
  | none => exact absurd hp hn
  | some a =>
    simp only [hp] at ha
    have hv : view (h, l) = some ⟨c.buffer, l.count, l.capacity⟩ := by
      have : h.block a = some c.buffer := ha
      simp [view, hp, this]
    have hc : l.count = c.count := hr.count
    have hlt := hb.lt
    unfold reading
    rw [hv]
    simp only
    have : ListC.readAll (⟨c.buffer, l.count, l.capacity⟩ : ListC α) = .fault := by
      unfold ListC.readAll
      rw [Cpp.bind_ok (Cpp.get_apply _)]
      simp only
      rcases ListC.readFirst_raw (c := ⟨c.buffer, l.count, l.capacity⟩) (m := i) hb.raw l.count.toNat (by simp only; omega) with
        ⟨_, _, h⟩ | h
      · omega
      · exact h
    rw [this]

end ListH

namespace GroupWorld
variable {κ ν β : Type}
open ListWorld (Reps Fresh BrokenAt)

theorem onKeys_eq_ok {m : Cpp (ListWorld κ) β} {w : GroupWorld κ ν} {v : β} {k' : ListWorld κ} (e : m w.keys = .ok v k') :
    onKeys m w = .ok v { w with keys := k' } := by simp [onKeys, e]
theorem onKeys_throws {m : Cpp (ListWorld κ) β} {w : GroupWorld κ ν} {k' : ListWorld κ} (e : m w.keys = .err k') :
    onKeys m w = .err { w with keys := k' } := by simp [onKeys, e]
theorem onKeys_faults {m : Cpp (ListWorld κ) β} {w : GroupWorld κ ν} (e : m w.keys = .fault) :
    onKeys m w = .fault := by simp [onKeys, e]

/-- reading the keys depends on nothing else -/
theorem onKeys_reading {m : Cpp (ListC κ) β} {i : Nat} {w w' : GroupWorld κ ν} {x : β}
    (e : onKeys (ListWorld.on i (ListH.reading m)) w = .ok x w') {w2 : GroupWorld κ ν} (h : w2.keys = w.keys) :
    onKeys (ListWorld.on i (ListH.reading m)) w2 = .ok x w2 := by
  unfold onKeys at e
  split at e
  · next e6 =>
    have := ListWorld.on_reading_state e6
    subst this
    rw [← h] at e6
    rw [onKeys_eq_ok e6]
    cases e
    rfl
  · cases e
  · cases e

theorem newTarget_keys {w w' : GroupWorld κ ν} {p : Nat} (e : newTarget w = .ok p w') : w'.keys = w.keys := by
  unfold newTarget at e
  simp only [Outcome.ok.injEq] at e
  rw [← e.2]

theorem valueAt_ok {w : GroupWorld κ ν} {ps : Nat → List Nat} (hr : Reps w.values ps) {i j p : Nat} (hj : (ps i)[j]? = some p) :
    valueAt i (j : Int) w = .ok p w := by
  obtain ⟨hlt, rfl⟩ := List.getElem?_eq_some_iff.1 hj
  obtain ⟨v', e, _⟩ := (ListWorld.on_refines (ListWorld.listRel_refines
    (fun _ => ListH.reading_refines (ListH.readOnly_get (j : Int))) (ListC.get_refines (j : Int))) w.values i _).eq_ok
    (ListWorld.AtBy.start hr i) (SeqList.get_ok hlt)
  have := ListWorld.on_reading_state e
  subst this
  unfold valueAt onValues
  rw [e]

/-- the lists that `Clear` deletes -/
structure Deletable (w : GroupWorld κ ν) (cs : Nat → ListC ν) (p : Nat) : Prop where
  live : w.live p = true
  dtor : ∃ c', ListC.destructor (cs p) = .ok () c'

theorem deleteTarget_ok {w : GroupWorld κ ν} {cs : Nat → ListC ν} (hw : ListWorld.Rel w.targets cs) {p : Nat}
    (hd : Deletable w cs p) : ∃ ts, deleteTarget p w =
        .ok () { w with targets := ts, live := fun q => if q = p then false else w.live q } ∧
      ListWorld.Rel ts (fun n => if n = p then ListC.empty else cs n) := by
  obtain ⟨c', hc⟩ := hd.dtor
  obtain ⟨h, _, e, hr⟩ := ListWorld.destroy_ok hw hc
  refine ⟨_, ?_, hr⟩
  unfold deleteTarget
  rw [if_pos hd.live, e]

theorem deleteLoop_good {i : Nat} {ps : Nat → List Nat} (fuel : Nat) : ∀ (n : Nat) (w : GroupWorld κ ν) (cs : Nat → ListC ν),
    Reps w.values ps → ListWorld.Rel w.targets cs → n + fuel ≤ (ps i).length → (ps i).Nodup →
    (∀ (j p : Nat), n ≤ j → j < n + fuel → (ps i)[j]? = some p → Deletable w cs p) →
    ∃ w', deleteLoop i n fuel w = .ok () w' ∧ w'.keys = w.keys ∧ w'.values = w.values := by
  induction fuel with
  | zero => intro n w cs _ _ _ _ _; exact ⟨w, rfl, rfl, rfl⟩
  | succ fuel ih =>
    intro n w cs hv ht hn hnd hd
    have hlt : n < (ps i).length := by omega
    have hj := List.getElem?_eq_getElem hlt
    have hdn := hd n _ (Nat.le_refl _) (by omega) hj
    obtain ⟨ts, e, hr⟩ := deleteTarget_ok ht hdn
    unfold deleteLoop
    rw [Cpp.bind_ok (valueAt_ok hv hj), Cpp.bind_ok e]
    obtain ⟨w', e', h1, h2⟩ := ih (n + 1) { w with targets := ts, live := fun q => if q = (ps i)[n] then false else w.live q } _ hv hr
      (by omega) hnd (by
      intro j p h1 h2 h3
      have hne : p ≠ (ps i)[n] := by
        rintro rfl
        have := (List.getElem?_inj hlt hnd).1 (hj.trans h3.symm)
        omega
      have := hd j p (by omega) (by omega) h3
      exact ⟨by simp [hne, this.live], by simpa [hne] using this.dtor⟩)
    exact ⟨w', e', h1, h2⟩

theorem deleteLoop_bad {i : Nat} {ps : Nat → List Nat} (fuel : Nat) : ∀ (n : Nat) (w : GroupWorld κ ν) (cs : Nat → ListC ν),
    Reps w.values ps → ListWorld.Rel w.targets cs → n + fuel ≤ (ps i).length → (ps i).Nodup → ∀ (q p : Nat),
    n ≤ q → q < n + fuel → (ps i)[q]? = some p → (∃ m, ListH.Broken (cs p) m) →
    (∀ (j r : Nat), n ≤ j → j < n + fuel → (ps i)[j]? = some r → r ≠ p → Deletable w cs r) →
    deleteLoop i n fuel w = .fault := by
  induction fuel with
  | zero => intro n w cs _ _ _ _ q p h1 h2; omega
  | succ fuel ih =>
    intro n w cs hv ht hn hnd q p h1 h2 hq hb hd
    have hlt : n < (ps i).length := by omega
    have hj := List.getElem?_eq_getElem hlt
    unfold deleteLoop
    rw [Cpp.bind_ok (valueAt_ok hv hj)]
    by_cases hp : (ps i)[n] = p
    · refine Cpp.bind_fault ?_
      obtain ⟨m, hb⟩ := hb
      rw [hp]
      have : BrokenAt w.targets p m := ⟨_, _, ht.rel p, hb⟩
      unfold deleteTarget
      split
      · rw [this.destroy]
      · rfl
    · obtain ⟨ts, e, hr⟩ := deleteTarget_ok ht (hd n _ (Nat.le_refl _) (by omega) hj hp)
      rw [Cpp.bind_ok e]
      have hqn : q ≠ n := by
        rintro rfl
        rw [hj] at hq
        exact hp (Option.some.inj hq)
      refine ih (n + 1) { w with targets := ts, live := fun q => if q = (ps i)[n] then false else w.live q } _ hv hr (by omega) hnd
        q p (by omega) (by omega) hq (by simpa [Ne.symm hp] using hb) ?_
      intro j r a1 a2 a3 a4
      have hne : r ≠ (ps i)[n] := by
        rintro rfl
        have := (List.getElem?_inj hlt hnd).1 (hj.trans a3.symm)
        omega
      have := hd j r (by omega) (by omega) a3 a4
      exact ⟨by simp [hne, this.live], by simpa [hne] using this.dtor⟩

theorem valueCount_ok {w : GroupWorld κ ν} {ps : Nat → List Nat} (hr : Reps w.values ps) (i : Nat) :
    onValues (ListWorld.on i (do return (← ListH.members).count)) w = .ok ((ps i).length : Int) w := by
  obtain ⟨cs, hw, hp⟩ := hr
  have hc : (w.values.lists i).count = (ps i).length := (hw.rel i).count.trans (hp i).count
  have e : ListWorld.on i (do return (← ListH.members).count) w.values = .ok ((ps i).length : Int) w.values := by
    show Outcome.ok _ _ = _
    simp only
    rw [ListWorld.put_same, hc]
  unfold onValues
  rw [e]

/-- what an interrupted addition leaves behind -/
inductive Ruined (cmp : κ → κ → Option Ordering) (w : GroupWorld κ ν) (i : Nat) (k : κ) : EntryFate ν → Prop where
  | key {m p : Nat} {ps : Nat → List Nat} {cs : Nat → ListC ν} : BrokenAt w.keys i m → Reps w.values ps →
      ListWorld.Rel w.targets cs → (ps i).Nodup → (∀ r ∈ ps i, Deletable w cs r) →
      w.live p = true → (∀ n, p ∉ ps n) → Ruined cmp w i k .keyThrows
  | value {m p q : Nat} {ps : Nat → List Nat} {cs : Nat → ListC ν} {t : ν} : Reps w.values ps →
      ListWorld.Rel w.targets cs → (ps i).Nodup → (ps i)[q]? = some p → ListH.Broken (cs p) m →
      (∀ r ∈ ps i, r ≠ p → Deletable w cs r) → keyIndex cmp i k w = .ok (q : Int) w → Ruined cmp w i k (.valueThrows t)

theorem Ruined.clear {cmp : κ → κ → Option Ordering} {w : GroupWorld κ ν} {i : Nat} {k : κ} {f : EntryFate ν}
    (h : Ruined cmp w i k f) : GroupWorld.clear i w = .fault := by
  unfold GroupWorld.clear
  cases h with
  | key hb hv ht hnd hd _ _ =>
    rw [Cpp.bind_ok (valueCount_ok hv i)]
    obtain ⟨w', e, h1, _⟩ := deleteLoop_good (i := i) _ 0 w _ hv ht (Nat.le_of_eq (Nat.zero_add _)) hnd
      (fun j p _ _ hj => hd p (List.mem_of_getElem? hj))
    rw [Int.toNat_natCast, Cpp.bind_ok e]
    exact Cpp.bind_fault (onKeys_faults (by rw [h1]; exact hb.clear))
  | value hv ht hnd hq hb hd _ =>
    rw [Cpp.bind_ok (valueCount_ok hv i), Int.toNat_natCast]
    have hlt := (List.getElem?_eq_some_iff.1 hq).1
    refine Cpp.bind_fault ?_
    exact deleteLoop_bad (i := i) _ 0 w _ hv ht (Nat.le_of_eq (Nat.zero_add _)) hnd _ _ (Nat.zero_le _)
      (by omega) hq ⟨_, hb⟩ (fun j r _ _ hj hne => hd r (List.mem_of_getElem? hj) hne)

theorem Ruined.renew {cmp : κ → κ → Option Ordering} {w : GroupWorld κ ν} {i : Nat} {k : κ} {f : EntryFate ν}
    (h : Ruined cmp w i k f) : GroupWorld.renew i w = .fault := Cpp.bind_fault h.clear

theorem Ruined.moveAssign {cmp : κ → κ → Option Ordering} {w : GroupWorld κ ν} {i : Nat} {k : κ} {f : EntryFate ν}
    (h : Ruined cmp w i k f) (j : Nat) : GroupWorld.moveAssign i j w = .fault := Cpp.bind_fault h.clear

theorem Ruined.get {cmp : κ → κ → Option Ordering} {w : GroupWorld κ ν} {i : Nat} {k : κ} {t : ν}
    (h : Ruined cmp w i k (.valueThrows t)) : GroupWorld.get cmp i k w = .fault := by
  cases h with
  | @value m p q ps cs _ hv ht hnd hq hb hd e =>
    unfold GroupWorld.get
    rw [Cpp.bind_ok e, Cpp.bind_ok (valueAt_ok hv hq)]
    unfold onTarget
    split
    · have : ListWorld.on p (ListH.reading ListC.readAll) w.targets = .fault := by
        simp [ListWorld.on, hb.readAll (ht.rel p)]
      rw [this]
    · rfl

section
variable (mk : Option κ → Option κ) (mv : Option ν → Option ν) (cmp : κ → κ → Option Ordering) (eq : ν → ν → Bool)

theorem addTarget_completes (v : ν) {f : EntryFate ν} (hf : ∀ t, f ≠ .valueThrows t) :
    ListH.addT mv v f.value = ListH.add mv v :=
  ListH.addT_eq mv v (fun t h => by
    cases f with
    | valueThrows t => exact hf t rfl
    | _ => cases h)

theorem callT_completes (i : Nat) (op : Spec.GroupOp κ ν) : callT mk mv cmp eq i (op, .completes) = call mk mv cmp eq i op := by
  cases op with
  | add k v =>
    show (addT mk mv cmp i k v .completes >>= fun b => pure (Spec.GroupRet.flag b)) = (add mk mv cmp i k v >>= fun b => pure (.flag b))
    unfold addT add
    rw [show ListH.sortedAddT mk cmp id k (EntryFate.completes (ν := ν).key k) = ListH.sortedAdd mk cmp id k from
      ListH.sortedAddT_eq mk cmp id k (fun t h => by cases h), addTarget_completes mv v (fun t h => by cases h)]
  | _ => rfl

variable {cmp} {ord : κ → κ → Ordering} [Std.TransCmp ord] (hcmp : ∀ a b, cmp a b = some (ord a b)) {w w0 : GroupWorld κ ν} {i : Nat}
  {ks : Nat → List κ} {ps : Nat → List Nat}

/-- adding a value to a list throws -/
theorem addTarget_ruins {s : GroupC κ ν} (hat : At w0 i ks ps w s) {F : Nat → Option (List ν)} {vss : List (List ν)}
    (hh : HeapRepr F s.heap s.values vss) {q p : Nat} (hq : s.values[q]? = some p) {k : κ}
    (hk : keyIndex cmp i k w = .ok (q : Int) w) (v t : ν) :
    ∃ w', onTarget p (ListH.addT mv v (.throws 0 t)) w = .err w' ∧ Ruined cmp w' i k (.valueThrows t) := by
  have hlive : ∀ r ∈ s.values, w.live r = true := by
    intro r hr
    obtain ⟨j, hj⟩ := List.mem_iff_getElem?.1 hr
    have hlt := (List.getElem?_eq_some_iff.1 hj).1
    rw [hat.targets.live, liveAt_eq_some.2 (hh.live j r _ hj (List.getElem?_eq_getElem (hh.length ▸ hlt)))]
    rfl
  have hpl : w.live p = true := hlive p (List.mem_of_getElem? hq)
  obtain ⟨cs, hw, hp⟩ := hat.targets.reps
  have hcount : (w.targets.lists p).count = ((liveAt s.heap p).getD []).length := (hw.rel p).count.trans (hp p).count
  obtain ⟨⟨h', l'⟩, c', e, hr', hb⟩ := ListH.insertT_throws mv (hw.rel p) (hp p) (Nat.le_refl _) v t
  have e2 : ListH.addT mv v (.throws 0 t) (w.targets.heap, w.targets.lists p) = .err (h', l') := by
    unfold ListH.addT
    rw [ListH.members_bind, hcount]
    exact e
  refine ⟨{ w with targets := ({ w.targets with heap := h' } : ListWorld ν).put p l' }, ?_, ?_⟩
  · unfold onTarget
    rw [if_pos hpl]
    simp only [ListWorld.on, e2]
  · refine .value (m := _) (q := q) (p := p) (ps := upd ps i s.values) (cs := fun n => if n = p then c' else cs n) hat.values.1 (hw.update hr')
      (by rw [upd_self]; exact hh.nodup) (by rw [upd_self]; exact hq) (by simp only [if_true]; exact hb) ?_ ?_
    · intro r hr hne
      rw [upd_self] at hr
      refine ⟨hlive r hr, ?_⟩
      simp only [if_neg hne]
      exact ListWorld.holding_list.destroy _ _ (hp r)
    · exact onKeys_reading hk rfl

variable {ms : Nat → κ → List ν} {h : List (Option (List ν))} (h1 : Reps w.keys ks) (h2 : Reps w.values ps) (h3 : Targets w h)
  (h4 : Groups ord ms ks ps h)
include hcmp h1 h2 h3 h4

theorem keyIndex_cases (k : κ) :
    (∃ q : Nat, keyIndex cmp i k w = .ok (q : Int) w ∧ ms i k ≠ [] ∧ ∃ p, (ps i)[q]? = some p) ∨
    (keyIndex cmp i k w = .ok (-1) w ∧ ms i k = [] ∧ ∀ x ∈ ks i, ord x k ≠ .eq) := by
  obtain ⟨vss, g1, g2⟩ := h4.models i
  have hat : At w i ks ps w ⟨ks i, ps i, h⟩ := ⟨ListWorld.AtBy.start h1 i, ListWorld.AtBy.start h2 i, h3⟩
  rcases GroupC.indexOf_cases hcmp g1 g2 k with ⟨q, p, _, e, _, hp, _, _, hne⟩ | ⟨e, hne, hm⟩
  · obtain ⟨w', e', _⟩ := (keyIndex_refines cmp k).eq_ok hat e
    exact .inl ⟨q, onKeys_reading e' rfl, hne, p, hp⟩
  · obtain ⟨w', e', _⟩ := (keyIndex_refines cmp k).eq_ok hat e
    exact .inr ⟨onKeys_reading e' rfl, hm, hne⟩

/-- a call that is not interrupted is an ordinary call -/
theorem callT_eq {op : Spec.GroupOp κ ν} {f : EntryFate ν} (hn : ¬ Spec.GroupInterrupted (ms i) (op, f)) :
    callT mk mv cmp eq i (op, f) w = call mk mv cmp eq i op w ∧
    Spec.groupThrowStep ord eq (ms i) (op, f) = Spec.groupStep ord eq (ms i) op := by
  cases op with
  | add k v =>
    cases f with
    | completes => exact ⟨by rw [callT_completes], rfl⟩
    | valueThrows t => exact absurd trivial hn
    | keyThrows =>
      have hne : ms i k ≠ [] := hn
      refine ⟨?_, if_neg hne⟩
      rcases keyIndex_cases (i := i) hcmp h1 h2 h3 h4 k with ⟨q, e, _⟩ | ⟨_, hm, _⟩
      · have : addT mk mv cmp i k v .keyThrows w = add mk mv cmp i k v w := by
          unfold addT add
          rw [Cpp.bind_ok e, Cpp.bind_ok e, if_neg (by omega), if_neg (by omega),
            addTarget_completes mv v (fun t h => by cases h)]
        show (addT mk mv cmp i k v .keyThrows >>= fun b => pure (Spec.GroupRet.flag b)) w =
          (add mk mv cmp i k v >>= fun b => pure (.flag b)) w
        rw [Cpp.bind_apply, Cpp.bind_apply, this]
      · exact absurd hm hne
  | _ => exact ⟨by cases f <;> rfl, by cases f <;> rfl⟩

theorem callT_ruins {op : Spec.GroupOp κ ν} {f : EntryFate ν} (hi : Spec.GroupInterrupted (ms i) (op, f)) :
    ∃ w' k v, op = .add k v ∧ callT mk mv cmp eq i (op, f) w = .err w' ∧ Ruined cmp w' i k f := by
  have hat : At w i ks ps w ⟨ks i, ps i, h⟩ := ⟨ListWorld.AtBy.start h1 i, ListWorld.AtBy.start h2 i, h3⟩
  obtain ⟨vss, g1, g2⟩ := h4.models i
  match op, f, hi with
  | .add k v, .keyThrows, hi =>
    have hi : ms i k = [] := hi
    rcases keyIndex_cases (i := i) hcmp h1 h2 h3 h4 k with ⟨q, _, hne, _⟩ | ⟨e, _, hne⟩
    · exact absurd hi hne
    · obtain ⟨w1, e1, hat1⟩ := newTarget_refines.eq_ok hat
        (show (GroupC.newTarget : Cpp (GroupC κ ν) Nat) ⟨ks i, ps i, h⟩ = .ok h.length ⟨ks i, ps i, h ++ [some []]⟩ from rfl)
      have hw1 : w1.keys = w.keys := newTarget_keys e1
      obtain ⟨q, hq, e2, hb, ha⟩ := SortedSeq.add_spec (KeyCmp.compares hcmp) (strict_ascending g1.ascending) k
      obtain ⟨w2, e3, _⟩ := (onKeys_refines (fun _ => ListH.sortedAdd_refines mk cmp id k) (ListC.sortedAdd_refines mk cmp id k)).eq_ok
        hat1 (GroupC.onKeys_mk e2)
      have e4 : ∃ k1, ListWorld.on i (ListH.sortedAdd mk cmp id k) w1.keys = .ok (q : Int) k1 := by
        unfold onKeys at e3
        split at e3
        · next e5 => cases e3; exact ⟨_, e5⟩
        · cases e3
        · cases e3
      obtain ⟨k1, e4⟩ := e4
      obtain ⟨k2, m, e5, hbr, _⟩ := ListWorld.sortedAddT_breaks mk (t := k) hat1.keys.1 e4
      have hnone : liveAt h h.length = none := by simp [liveAt]
      have hla : ∀ r, liveAt (h ++ [some []]) r = if r = h.length then some [] else liveAt h r := by
        intro r
        split
        · next hr => subst hr; simp [liveAt]
        · next hr => exact liveAt_append hr
      obtain ⟨cs, hcs, hp⟩ := hat1.targets.reps
      refine ⟨{ w1 with keys := k2 }, k, v, rfl, ?_, ?_⟩
      · refine Cpp.bind_err ?_
        unfold addT
        rw [Cpp.bind_ok e, if_pos rfl, Cpp.bind_ok e1]
        exact Cpp.bind_err (onKeys_throws e5)
      · refine .key (p := h.length) hbr hat1.values.1 hcs (by rw [upd_self]; exact g2.nodup) ?_ ?_ ?_
        · intro r hr
          rw [upd_self] at hr
          refine ⟨?_, ListWorld.holding_list.destroy _ _ (hp r)⟩
          show w1.live r = true
          rw [hat1.targets.live, hla]
          split
          · rfl
          · cases hl : liveAt h r with
            | none => exact absurd hl (h4.live hr)
            | some _ => rfl
        · show w1.live h.length = true
          rw [hat1.targets.live, hla, if_pos rfl]; rfl
        · intro n hc
          refine h4.live (n := n) (p := h.length) ?_ hnone
          by_cases hn : n = i
          · subst hn; rw [upd_self] at hc; exact hc
          · rw [upd_ne hn] at hc; exact hc
  | .add k v, .valueThrows t, _ =>
    rcases keyIndex_cases (i := i) hcmp h1 h2 h3 h4 k with ⟨q, e, _, p, hp⟩ | ⟨e, _, hne⟩
    · obtain ⟨w', e1, hr⟩ := addTarget_ruins mv hat g2 hp e v t
      refine ⟨w', k, v, rfl, ?_, hr⟩
      refine Cpp.bind_err ?_
      unfold addT
      rw [Cpp.bind_ok e, if_neg (by omega), Cpp.bind_ok (valueAt_ok h2 hp)]
      exact Cpp.bind_err e1
    · obtain ⟨w1, e1, hat1⟩ := newTarget_refines.eq_ok hat
        (show (GroupC.newTarget : Cpp (GroupC κ ν) Nat) ⟨ks i, ps i, h⟩ = .ok h.length ⟨ks i, ps i, h ++ [some []]⟩ from rfl)
      obtain ⟨q, hq, e2, hb, ha⟩ := SortedSeq.add_spec (KeyCmp.compares hcmp) (strict_ascending g1.ascending) k
      obtain ⟨w2, e3, hat2⟩ := (onKeys_refines (fun _ => ListH.sortedAdd_refines mk cmp id k) (ListC.sortedAdd_refines mk cmp id k)).eq_ok
        hat1 (GroupC.onKeys_mk e2)
      have hl1 : (ks i).length = vss.length := g1.length
      have hl2 : (ps i).length = vss.length := g2.length
      have hq : q ≤ (ks i).length := hq
      obtain ⟨w3, e4, hat3⟩ := (onValues_refines (fun _ => ListH.insert_refines id (q : Int) h.length)
        (ListC.insert_refines id (q : Int) h.length)).eq_ok hat2
        (GroupC.onValues_ok (SeqList.insert_ok (xs := ps i) h.length (by omega)))
      have hasc := strict_insert g1.ascending hq hne hb ha
      have hrefl : ord k k = .eq := Std.ReflCmp.compare_self
      have hidx : keyIndex cmp i k w3 = .ok (q : Int) w3 := by
        rcases SortedSeq.indexOf_spec (KeyCmp.compares hcmp) (strict_ascending hasc) k with ⟨q', hq', e5, heq⟩ | ⟨_, hne'⟩
        · have : q' = q := by
            refine strict_unique hasc (List.getElem?_eq_getElem hq') (j := q) (b := k) ?_ heq
            rw [getElem?_insert (ks i) q k hq]; simp
          subst this
          obtain ⟨w4, e6, _⟩ := (keyIndex_refines cmp k).eq_ok hat3 (GroupC.onKeys_ok e5)
          exact onKeys_reading e6 rfl
        · exact absurd hrefl (hne' k (by simp))
      have hp : ((ps i).take q ++ h.length :: (ps i).drop q)[q]? = some h.length := by
        rw [getElem?_insert (ps i) q h.length (by omega)]; simp
      obtain ⟨w', e5, hr⟩ := addTarget_ruins mv hat3 (g2.alloc q (by show q ≤ (ps i).length; omega) []) hp hidx v t
      refine ⟨w', k, v, rfl, ?_, hr⟩
      refine Cpp.bind_err ?_
      unfold addT
      rw [Cpp.bind_ok e, if_pos rfl, Cpp.bind_ok e1]
      rw [show ListH.sortedAddT mk cmp id k ((EntryFate.valueThrows t).key k) = ListH.sortedAdd mk cmp id k from
        ListH.sortedAddT_eq mk cmp id k (fun t h => by cases h)]
      rw [Cpp.bind_ok e3, Cpp.bind_ok e4]
      exact Cpp.bind_err e5

end

theorem moveSimT (mk : Option κ → Option κ) (mv : Option ν → Option ν) (eq : ν → ν → Bool) {cmp : κ → κ → Option Ordering}
    {ord : κ → κ → Ordering} [Std.TransCmp ord] (hcmp : ∀ a b, cmp a b = some (ord a b)) :
    MoveSim (movableT mk mv cmp eq) (Stores ord) (fun w n => Fresh w.keys n ∧ Fresh w.values n)
      (fun m op m' r => Spec.groupThrowStep ord eq m op = (m', r)) (fun m op => ¬ Spec.GroupInterrupted m op) (fun _ => [])
      .error := by
  have h := moveSim mk mv eq hcmp
  refine ⟨?_, h.moveAssign, h.moveConstruct, h.renew⟩
  rintro w ms i ⟨op, f⟩ hs hn
  obtain ⟨ks, ps, hp, h1, h2, h3, h4⟩ := id hs
  obtain ⟨e1, e2⟩ := callT_eq mk mv eq hcmp h1 h2 h3 h4 hn
  have e1 : (movableT mk mv cmp eq).call i (op, f) w = (movable mk mv cmp eq).call i op w := e1
  rw [e1]
  rcases h.call w ms i op hs trivial with ⟨w', x', r, e, a, b, c⟩ | ⟨w', x', e, a, b, c⟩
  · exact .inl ⟨w', x', r, e, a, by rw [e2]; exact b, c⟩
  · exact .inr ⟨w', x', e, a, by rw [e2]; exact b, c⟩

end GroupWorld

theorem Spec.GroupUninterrupted.safe {κ ν : Type} {ord : κ → κ → Ordering} {eq : ν → ν → Bool}
    (ops : List (Spec.MoveOp (Spec.GroupOp κ ν × EntryFate ν)))
    {ms : Nat → κ → List ν} (h : Spec.GroupUninterrupted ord eq ms ops) :
    Safe (fun m op m' r => Spec.groupThrowStep ord eq m op = (m', r)) (fun m op => ¬ Spec.GroupInterrupted m op) (fun _ => [])
      (.flag true) .error ms ops := by
  induction ops generalizing ms with
  | nil => trivial
  | cons op ops ih =>
    refine ⟨h.1, fun ys r hm => ih ?_⟩
    have := h.2
    rw [hm.eq_moveStep] at this
    exact this

end Vlpp
