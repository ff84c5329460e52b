import Verif.Model.HeapRef
import Verif.Lemmas.HeapGroup

/-! # References to elements of lists on the heap -/
set_option autoImplicit false
namespace Vlpp

theorem Cpp.bind_eq_ok {σ β γ : Type} {m : Cpp σ β} {f : β → Cpp σ γ} {s s' : σ} {v : γ} (h : (m >>= f) s = .ok v s') :
    ∃ x s1, m s = .ok x s1 ∧ f x s1 = .ok v s' := by
  rw [Cpp.bind_apply] at h
  split at h
  · exact ⟨_, _, ‹_›, h⟩
  · cases h
  · cases h

namespace ElemRef
variable {α : Type}

theorem read_elem {h : Heap α} {a : Nat} {i : Int} {b : Block α} {v : α} (hb : h.block a = some b)
    (hv : ListC.readVal b i = some v) : (ElemRef.elem (some a) i).read h = .ok v h := by
  unfold ElemRef.read Heap.access
  simp only [hb, hv, Option.map_some]
  rw [Heap.put_self hb]

end ElemRef

namespace ListH
open Heap
variable {α κ : Type} {F : Nat → Option (Block α)}

theorem members_bind {β : Type} (f : ListH → Cpp (Heap α × ListH) β) (h : Heap α) (l : ListH) :
    (members >>= f) (h, l) = f l (h, l) := rfl

/-- the reference denotes `v`, and its object is not in the blocks of the list -/
def Denotes (F : Nat → Option (Block α)) (r : ElemRef α) (v : α) : Prop :=
  match r with
  | .temp x => x = v
  | .elem p i => ∃ a b, p = some a ∧ F a = some b ∧ ListC.readVal b i = some v

theorem Denotes.read {r : ElemRef α} {v : α} (hr : Denotes F r v) {h : Heap α} {p : Ptr} {b : Block α} (ho : Own F h p b) :
    r.read h = .ok v h := by
  cases r with
  | temp x => cases hr; rfl
  | elem q i =>
    obtain ⟨a, b', rfl, hF, hv⟩ := hr
    have hne : p ≠ some a := fun hc => by rw [ho.own a hc] at hF; cases hF
    exact ElemRef.read_elem ((ho.frame a hne).trans hF) hv

theorem insertRawRef_eq (mv : Option α → Option α) {h : Heap α} {l : ListH} {c : ListC α} {xs : List α} {r : ElemRef α} {v : α}
    (hr : Rel F (h, l) c) (hx : ListC.Repr c xs) (hd : Denotes F r v) {i : Int} (h0 : 0 ≤ i) (h1 : i ≤ l.count) :
    insertRawRef mv i r (h, l) = insertRaw mv i v (h, l) := by
  have hc : l.count = c.count := hr.count
  have hcap : l.capacity = c.capacity := hr.capacity
  obtain ⟨b, cap, e, _⟩ := ListC.insertUninitializedItems_ok mv hx i 1 (by omega) h0 (by omega)
  obtain ⟨p', h', g, o⟩ := insertUninitializedItems_sim hr.own e
  simp only [Int.natCast_one] at g
  rw [← hc, ← hcap] at g
  unfold insertRawRef insertRaw
  rw [Cpp.bind_ok (m := members) (a := l) (s' := (h, l)) rfl, Cpp.bind_ok (m := members) (a := l) (s' := (h, l)) rfl,
    Cpp.bind_ok (onHeap_ok g), Cpp.bind_ok (onHeap_ok g)]
  simp only
  rw [Cpp.bind_ok (onHeap_ok (hd.read o))]

theorem insertRef_eq (mv : Option α → Option α) {h : Heap α} {l : ListH} {c : ListC α} {xs : List α} {r : ElemRef α} {v : α}
    (hr : Rel F (h, l) c) (hx : ListC.Repr c xs) (hd : Denotes F r v) (i : Int) :
    insertRef mv i r (h, l) = insert mv i v (h, l) := by
  unfold insertRef insert
  rw [Cpp.bind_ok (m := members) (a := l) (s' := (h, l)) rfl, Cpp.bind_ok (m := members) (a := l) (s' := (h, l)) rfl]
  by_cases hi : i ≥ 0 ∧ i ≤ l.count
  · rw [Cpp.bind_ok (Cpp.check_true hi _), Cpp.bind_ok (Cpp.check_true hi _)]
    exact insertRawRef_eq mv hr hx hd hi.1 hi.2
  · rw [Cpp.bind_err (Cpp.check_false hi _), Cpp.bind_err (Cpp.check_false hi _)]

theorem addRef_eq (mv : Option α → Option α) {h : Heap α} {l : ListH} {c : ListC α} {xs : List α} {r : ElemRef α} {v : α}
    (hr : Rel F (h, l) c) (hx : ListC.Repr c xs) (hd : Denotes F r v) :
    addRef mv r (h, l) = add mv v (h, l) := by
  unfold addRef add
  rw [Cpp.bind_ok (m := members) (a := l) (s' := (h, l)) rfl, Cpp.bind_ok (m := members) (a := l) (s' := (h, l)) rfl]
  exact insertRef_eq mv hr hx hd _

theorem reading_state {β : Type} {m : Cpp (ListC α) β} {s : Heap α × ListH} {v : β} {s' : Heap α × ListH}
    (e : reading m s = .ok v s') : s' = s := by
  unfold reading at e
  split at e
  · cases e
  · split at e
    · cases e; rfl
    · cases e
    · cases e

theorem sortedAddRef_eq (mv : Option α → Option α) (cmp : α → κ → Option Ordering) (key : α → κ) {h : Heap α} {l : ListH}
    {c : ListC α} {xs : List α} {r : ElemRef α} {v : α} (hr : Rel F (h, l) c) (hx : ListC.Repr c xs) (hd : Denotes F r v) :
    sortedAddRef mv cmp key r (h, l) = sortedAdd mv cmp key v (h, l) := by
  have hread := onHeap_ok (l := l) (hd.read hr.own)
  have hc : l.count = c.count := hr.count
  have hxc := hx.count
  unfold sortedAddRef sortedAdd
  rw [Cpp.bind_ok (m := members) (a := l) (s' := (h, l)) rfl, Cpp.bind_ok (m := members) (a := l) (s' := (h, l)) rfl]
  by_cases h0 : l.count = 0
  · rw [if_pos h0, if_pos h0]
    exact insertRawRef_eq mv hr hx hd (by omega) (by omega)
  · rw [if_neg h0, if_neg h0, Cpp.bind_ok hread]
    cases e : reading (SortedListC.indexOfInternal cmp (key v)) (h, l) with
    | fault => rw [Cpp.bind_fault e, Cpp.bind_fault e]
    | err _ => rw [Cpp.bind_err e, Cpp.bind_err e]
    | ok q s' =>
      cases reading_state e
      rw [Cpp.bind_ok e, Cpp.bind_ok e]
      by_cases hi : q.2 ≥ 0 ∧ q.2 < l.count
      · rw [Cpp.bind_ok (Cpp.check_true hi _), Cpp.bind_ok (Cpp.check_true hi _)]
        cases e2 : reading (ListC.get q.2) (h, l) with
        | fault => rw [Cpp.bind_fault e2, Cpp.bind_fault e2]
        | err _ => rw [Cpp.bind_err e2, Cpp.bind_err e2]
        | ok x s' =>
          cases reading_state e2
          rw [Cpp.bind_ok e2, Cpp.bind_ok e2, Cpp.bind_ok hread]
          split
          · exact insertRawRef_eq mv hr hx hd (by omega) (by omega)
          · exact insertRawRef_eq mv hr hx hd (by omega) (by omega)
      · rw [Cpp.bind_err (Cpp.check_false hi _), Cpp.bind_err (Cpp.check_false hi _)]

/-- an element of the list itself, appended without reallocation -/
theorem addRef_own (mv : Option α → Option α) {h : Heap α} {l : ListH} {c : ListC α} {xs : List α}
    (hr : Rel F (h, l) c) (hx : ListC.Repr c xs) {m : Nat} (hm : m < xs.length) (hs : l.count ≠ l.capacity) :
    addRef mv (.elem l.buffer m) (h, l) = add mv xs[m] (h, l) := by
  have hc : l.count = c.count := hr.count
  have hcap : l.capacity = c.capacity := hr.capacity
  have hxc := hx.count
  have hle := hx.le
  unfold addRef add insertRef insert insertRawRef insertRaw
  rw [members_bind, members_bind, members_bind, members_bind]
  have hi : l.count ≥ 0 ∧ l.count ≤ l.count := ⟨by omega, by omega⟩
  rw [Cpp.bind_ok (Cpp.check_true hi _), Cpp.bind_ok (Cpp.check_true hi _)]
  rw [members_bind, members_bind]
  have g : insertUninitializedItems mv l.buffer l.capacity l.count l.count 1 h = .ok (l.buffer, l.capacity, l.count + 1) h := by
    unfold insertUninitializedItems
    simp only
    rw [if_neg (by omega), if_neg (by omega)]
    rfl
  rw [Cpp.bind_ok (onHeap_ok g), Cpp.bind_ok (onHeap_ok g)]
  simp only
  have hrd := ListC.readVal_ok hx m hm
  cases hb : l.buffer with
  | none =>
    have h1 := hr.own.at'
    simp only [hb] at h1
    rw [show c.buffer = Block.null from h1] at hrd
    have hsz := hx.size
    rw [show c.buffer = Block.null from h1] at hsz
    have : (0 : Int) = c.capacity := hsz
    omega
  | some a =>
    have h1 := hr.own.at'
    simp only [hb] at h1
    rw [Cpp.bind_ok (onHeap_ok (ElemRef.read_elem (show h.block a = some c.buffer from h1) hrd))]

theorem insertUninit_ptr {mv : Option α → Option α} {p : Ptr} {cap cnt i n : Int} {h h' : Heap α} {p' : Ptr} {cap' cnt' : Int}
    (hn : cnt + n > cap) (h0 : 0 < cnt + n)
    (e : insertUninitializedItems mv p cap cnt i n h = .ok (p', cap', cnt') h') : p' = some h.next := by
  unfold insertUninitializedItems at e
  simp only at e
  rw [if_pos hn, if_neg (by omega)] at e
  have e0 : allocateBuffer ((cnt + n) * 5 / 4 + 1) h = .ok (some h.next)
      ⟨h.next + 1, fun k => if k = h.next then some ⟨(cnt + n) * 5 / 4 + 1, fun _ => .raw⟩ else h.block k⟩ := by
    unfold allocateBuffer
    rw [if_neg (by omega)]
  rw [Cpp.bind_ok e0] at e
  obtain ⟨_, _, _, e⟩ := Cpp.bind_eq_ok e
  obtain ⟨_, _, _, e⟩ := Cpp.bind_eq_ok e
  obtain ⟨_, _, _, e⟩ := Cpp.bind_eq_ok e
  obtain ⟨_, _, _, e⟩ := Cpp.bind_eq_ok e
  cases e
  rfl

/-- an element of the list itself, appended to a full buffer: the reference is to released memory -/
theorem addRef_full (mv : Option α → Option α) {h : Heap α} {l : ListH} {c : ListC α} {xs : List α}
    (hr : Rel F (h, l) c) (hx : ListC.Repr c xs) {m : Int} (hs : l.count = l.capacity) :
    addRef mv (.elem l.buffer m) (h, l) = .fault := by
  have hc : l.count = c.count := hr.count
  have hcap : l.capacity = c.capacity := hr.capacity
  have hxc := hx.count
  obtain ⟨b, cap, e, _⟩ := ListC.insertUninitializedItems_ok mv hx l.count 1 (by omega) (by omega) (by omega)
  obtain ⟨p', h', g, o⟩ := insertUninitializedItems_sim hr.own e
  simp only [Int.natCast_one] at g
  rw [← hc, ← hcap] at g
  have hp' := insertUninit_ptr (by omega) (by omega) g
  unfold addRef insertRef insertRawRef
  rw [members_bind, members_bind]
  have hi : l.count ≥ 0 ∧ l.count ≤ l.count := ⟨by omega, by omega⟩
  rw [Cpp.bind_ok (Cpp.check_true hi _)]
  rw [members_bind, Cpp.bind_ok (onHeap_ok g)]
  simp only
  have hread : (ElemRef.elem l.buffer m).read h' = .fault := by
    unfold ElemRef.read Heap.access
    cases hb : l.buffer with
    | none => rfl
    | some a =>
      have hF : F a = none := hr.own.own a hb
      have hlive : h.block a = some c.buffer := by
        have h1 := hr.own.at'
        simp only [hb] at h1
        exact h1
      have hne : p' ≠ some a := by
        rw [hp']
        intro hc
        cases hc
        have := hr.own.fresh h.next (Nat.le_refl _)
        rw [show h.block h.next = none from this] at hlive
        cases hlive
      simp only [o.frame a hne, hF]
  rw [Cpp.bind_fault (by simp [onHeap, hread])]

theorem refAt_ok {h : Heap α} {l : ListH} {n : Int} (hn : n ≥ 0 ∧ n < l.count) :
    refAt (α := α) n (h, l) = .ok (.elem l.buffer n) (h, l) := by
  unfold refAt
  rw [members_bind, Cpp.bind_ok (Cpp.check_true hn _)]
  rfl

theorem refAt_err {h : Heap α} {l : ListH} {n : Int} (hn : ¬ (n ≥ 0 ∧ n < l.count)) :
    refAt (α := α) n (h, l) = .err (h, l) := by
  unfold refAt
  rw [members_bind, Cpp.bind_err (Cpp.check_false hn _)]

end ListH

namespace ListWorld
variable {α β : Type}

theorem put_self (w : ListWorld α) (i : Nat) : w.put i (w.lists i) = w := by
  unfold put
  have : (fun n => if n = i then w.lists i else w.lists n) = w.lists := by
    funext n
    split
    · next h => rw [h]
    · rfl
  rw [this]

theorem on_ok {m : Cpp (Heap α × ListH) β} {w : ListWorld α} {i : Nat} {v : β}
    (e : m (w.heap, w.lists i) = .ok v (w.heap, w.lists i)) : on i m w = .ok v w := by
  unfold on
  rw [e]
  simp only
  rw [put_self]

theorem on_err {m : Cpp (Heap α × ListH) β} {w : ListWorld α} {i : Nat}
    (e : m (w.heap, w.lists i) = .err (w.heap, w.lists i)) : on i m w = .err w := by
  unfold on
  rw [e]
  simp only
  rw [put_self]

theorem on_congr {m m' : Cpp (Heap α × ListH) β} {w : ListWorld α} {i : Nat}
    (e : m (w.heap, w.lists i) = m' (w.heap, w.lists i)) : on i m w = on i m' w := by
  unfold on
  rw [e]

theorem Rel.denotes {w : ListWorld α} {cs : Nat → ListC α} {xs : Nat → List α} (hw : Rel w cs)
    (hp : ∀ n, ListC.Repr (cs n) (xs n)) {i j n : Nat} (hij : i ≠ j) (hn : n < (xs j).length) :
    ListH.Denotes (others w i) (.elem (w.lists j).buffer n) (xs j)[n] := by
  have hrd := ListC.readVal_ok (hp j) n hn
  have o := (hw.rel j).own.at'
  cases hb : (w.lists j).buffer with
  | none =>
    simp only [hb] at o
    have hsz := (hp j).size
    have hle := (hp j).le
    have hc := (hp j).count
    rw [show (cs j).buffer = Block.null from o] at hsz
    have : (0 : Int) = (cs j).capacity := hsz
    omega
  | some a =>
    simp only [hb] at o
    have hne : (w.lists i).buffer ≠ some a := hw.disjoint j i a (Ne.symm hij) hb
    exact ⟨a, (cs j).buffer, rfl, by rw [others, if_neg hne]; exact o, hrd⟩

theorem Rel.read {w : ListWorld α} {cs : Nat → ListC α} {xs : Nat → List α} (hw : Rel w cs)
    (hp : ∀ n, ListC.Repr (cs n) (xs n)) {j n : Nat} (hn : n < (xs j).length) :
    (ElemRef.elem (w.lists j).buffer n).read w.heap = .ok (xs j)[n] w.heap :=
  (hw.denotes hp (i := j + 1) (by omega) hn).read (hw.rel (j + 1)).own

end ListWorld

namespace GroupWorld
variable {κ ν β : Type}
open ListWorld (Reps)
open Spec (KeyArg ValueArg)

theorem onKeys_same {m : Cpp (ListWorld κ) β} {w : GroupWorld κ ν} {v : β} (e : m w.keys = .ok v w.keys) :
    onKeys m w = .ok v w := by simp [onKeys, e]
theorem onValues_same {m : Cpp (ListWorld Nat) β} {w : GroupWorld κ ν} {v : β} (e : m w.values = .ok v w.values) :
    onValues m w = .ok v w := by simp [onValues, e]
theorem onTarget_same {p : Nat} {m : Cpp (Heap ν × ListH) β} {w : GroupWorld κ ν} {v : β} (hl : w.live p = true)
    (e : ListWorld.on p m w.targets = .ok v w.targets) : onTarget p m w = .ok v w := by simp [onTarget, e, hl]
theorem onKeys_err {m : Cpp (ListWorld κ) β} {w : GroupWorld κ ν} (e : m w.keys = .err w.keys) :
    onKeys m w = .err w := by simp [onKeys, e]
theorem onTarget_err {p : Nat} {m : Cpp (Heap ν × ListH) β} {w : GroupWorld κ ν} (hl : w.live p = true)
    (e : ListWorld.on p m w.targets = .err w.targets) : onTarget p m w = .err w := by simp [onTarget, e, hl]
theorem onTarget_congr {p : Nat} {m m' : Cpp (Heap ν × ListH) β} {w : GroupWorld κ ν}
    (e : m (w.targets.heap, w.targets.lists p) = m' (w.targets.heap, w.targets.lists p)) : onTarget p m w = onTarget p m' w := by
  unfold onTarget
  rw [ListWorld.on_congr e]

theorem reading_same {α : Type} {m : Cpp (ListC α) β} {w : ListWorld α} {w' : ListWorld α} {i : Nat} {v : β}
    (e : ListWorld.on i (ListH.reading m) w = .ok v w') : w' = w := by
  unfold ListWorld.on at e
  cases h : ListH.reading m (w.heap, w.lists i) with
  | fault => rw [h] at e; cases e
  | err _ => rw [h] at e; cases e
  | ok x s =>
    cases ListH.reading_state h
    rw [h] at e
    simp only at e
    rw [ListWorld.put_self] at e
    cases e
    rfl

/-- what the groups are, for use in the proofs below -/
structure Snap (ord : κ → κ → Ordering) (w : GroupWorld κ ν) (ms : Nat → κ → List ν) (ks : Nat → List κ) (ps : Nat → List Nat)
    (h : List (Option (List ν))) (ck : Nat → ListC κ) (ct : Nat → ListC ν) : Prop where
  keysRel : ListWorld.Rel w.keys ck
  keysRepr : ∀ n, ListC.Repr (ck n) (ks n)
  values : Reps w.values ps
  targets : Targets w h
  targetsRel : ListWorld.Rel w.targets ct
  targetsRepr : ∀ p, ListC.Repr (ct p) ((liveAt h p).getD [])
  groups : Groups ord ms ks ps h

section
variable {ord : κ → κ → Ordering} {w : GroupWorld κ ν} {ms : Nat → κ → List ν} {ks : Nat → List κ} {ps : Nat → List Nat}
  {h : List (Option (List ν))} {ck : Nat → ListC κ} {ct : Nat → ListC ν}

theorem Snap.at (hs : Snap ord w ms ks ps h ck ct) (i : Nat) : At w i ks ps w ⟨ks i, ps i, h⟩ :=
  ⟨ListWorld.AtBy.start ⟨ck, hs.keysRel, hs.keysRepr⟩ i, ListWorld.AtBy.start hs.values i, hs.targets⟩

theorem Snap.keyIndex (hs : Snap ord w ms ks ps h ck ct) {cmp : κ → κ → Option Ordering} [Std.TransCmp ord]
    (hcmp : ∀ a b, cmp a b = some (ord a b)) (i : Nat) (k : κ) :
    (∃ (n p : Nat) (x : κ), keyIndex cmp i k w = .ok (n : Int) w ∧ (ks i)[n]? = some x ∧ ord x k = .eq ∧ (ps i)[n]? = some p ∧
      liveAt h p = some (ms i k) ∧ valueAt i (n : Int) w = .ok p w ∧ w.live p = true) ∨
    (keyIndex cmp i k w = .ok (-1) w ∧ (∀ x ∈ ks i, ord x k ≠ .eq) ∧ ms i k = []) := by
  have hat := hs.at i
  have h1 := keyIndex_refines cmp k w _ hat
  obtain ⟨vss, g1, g2⟩ := hs.groups.models i
  have state : ∀ {v w'}, GroupWorld.keyIndex cmp i k w = .ok v w' → w' = w := by
    intro v w' e
    unfold GroupWorld.keyIndex onKeys at e
    cases e1 : ListWorld.on i (ListH.reading (SortedListC.indexOf cmp k)) w.keys with
    | fault => rw [e1] at e; cases e
    | err _ => rw [e1] at e; cases e
    | ok y s =>
      cases reading_same e1
      rw [e1] at e
      cases e
      rfl
  rcases GroupC.indexOf_cases hcmp g1 g2 k with ⟨n, p, hn, e, heq, hp, _, hl, _⟩ | ⟨e, hne, hm⟩
  · left
    rw [e] at h1
    cases hk : GroupWorld.keyIndex cmp i k w with
    | fault => rw [hk] at h1; cases h1
    | err _ => rw [hk] at h1; cases h1
    | ok v w' =>
      cases state hk
      rw [hk] at h1
      cases h1
      have h2 := valueAt_refines (n : Int) w _ hat
      rw [GroupC.values_get_mk hp] at h2
      have hlive : liveAt h p = some (ms i k) := liveAt_eq_some.2 hl
      refine ⟨n, p, _, rfl, List.getElem?_eq_getElem hn, heq, hp, hlive, ?_, by rw [hs.targets.live, hlive]; rfl⟩
      cases hv : valueAt i (n : Int) w with
      | fault => rw [hv] at h2; cases h2
      | err _ => rw [hv] at h2; cases h2
      | ok q w' =>
        have : w' = w := by
          unfold valueAt onValues at hv
          cases e1 : ListWorld.on i (ListH.reading (ListC.get (n : Int))) w.values with
          | fault => rw [e1] at hv; cases hv
          | err _ => rw [e1] at hv; cases hv
          | ok y s =>
            cases reading_same e1
            rw [e1] at hv
            cases hv
            rfl
        cases this
        rw [hv] at h2
        cases h2
        rfl
  · right
    rw [e] at h1
    cases hk : GroupWorld.keyIndex cmp i k w with
    | fault => rw [hk] at h1; cases h1
    | err _ => rw [hk] at h1; cases h1
    | ok v w' =>
      cases state hk
      rw [hk] at h1
      cases h1
      exact ⟨rfl, hne, hm⟩

theorem Snap.valueAt_neg (hs : Snap ord w ms ks ps h ck ct) (i : Nat) : valueAt i (-1) w = .err w := by
  obtain ⟨cv, rv, pv⟩ := hs.values
  unfold valueAt onValues
  have : ListH.reading (ListC.get (-1)) (w.values.heap, w.values.lists i) = .err (w.values.heap, w.values.lists i) := by
    unfold ListH.reading
    rw [(rv.rel i).view]
    have : ListC.get (-1) (cv i) = .err (cv i) := by
      unfold ListC.get
      rw [Cpp.bind_ok (Cpp.get_apply _), Cpp.bind_err (Cpp.check_false (by omega) _)]
    simp only [this]
  rw [ListWorld.on_err this]

/-- the reference `r` to the key `k` -/
def KeyRef (w : GroupWorld κ ν) (ks : Nat → List κ) (r : ElemRef κ) (k : κ) : Prop :=
  r = .temp k ∨ ∃ (j n : Nat) (_ : n < (ks j).length), k = (ks j)[n] ∧ r = .elem (w.keys.lists j).buffer n

/-- the reference `r` to the value `v`; `at'` says of which value list -/
def ValueRef (w : GroupWorld κ ν) (h : List (Option (List ν))) (r : ElemRef ν) (v : ν) (at' : Option Nat) : Prop :=
  (r = .temp v ∧ at' = none) ∨ ∃ (p m : Nat) (vs : List ν) (_ : m < vs.length), liveAt h p = some vs ∧ v = vs[m] ∧
    r = .elem (w.targets.lists p).buffer m ∧ at' = some p

theorem Snap.evalKey (hs : Snap ord w ms ks ps h ck ct) (a : KeyArg κ) :
    (a.value ks = none ∧ evalKey a w = .err w) ∨
    ∃ k r, a.value ks = some k ∧ evalKey a w = .ok r w ∧ KeyRef w ks r k := by
  cases a with
  | temp k => exact .inr ⟨k, _, rfl, rfl, .inl rfl⟩
  | elem j n =>
    have hc : (w.keys.lists j).count = (ks j).length := (hs.keysRel.rel j).count.trans (hs.keysRepr j).count
    by_cases hn : n ≥ 0 ∧ n < (w.keys.lists j).count
    · right
      have hlt : n.toNat < (ks j).length := by omega
      refine ⟨(ks j)[n.toNat], _, ?_, onKeys_same (ListWorld.on_ok (ListH.refAt_ok hn)), .inr ⟨j, n.toNat, hlt, rfl, ?_⟩⟩
      · simp only [KeyArg.value]
        rw [if_pos hn.1, List.getElem?_eq_getElem hlt]
      · rw [Int.toNat_of_nonneg hn.1]
    · left
      refine ⟨?_, onKeys_err (ListWorld.on_err (ListH.refAt_err hn))⟩
      simp only [KeyArg.value]
      split
      · exact List.getElem?_eq_none (by omega)
      · rfl

theorem Snap.evalValue (hs : Snap ord w ms ks ps h ck ct) {cmp : κ → κ → Option Ordering} [Std.TransCmp ord]
    (hcmp : ∀ a b, cmp a b = some (ord a b)) (a : ValueArg κ ν) :
    (a.value ms = none ∧ evalValue cmp a w = .err w) ∨
    ∃ v r o, a.value ms = some v ∧ evalValue cmp a w = .ok r w ∧ ValueRef w h r v o ∧
      (∀ p, o = some p → ∃ (j n : Nat) (k x : κ) (m : Int), a = .elem j k m ∧ (ks j)[n]? = some x ∧ ord x k = .eq ∧
        (ps j)[n]? = some p) ∧ (o = none → ∃ x, a = .temp x) := by
  cases a with
  | temp v => exact .inr ⟨v, _, none, rfl, rfl, .inl ⟨rfl, rfl⟩, fun p hp => (by cases hp), fun _ => ⟨v, rfl⟩⟩
  | elem j k m =>
    have hev : GroupWorld.evalValue cmp (.elem j k m) w = (GroupWorld.keyIndex cmp j k >>= fun index => valueAt j index >>=
      fun target => onTarget target (ListH.refAt m)) w := rfl
    rw [hev]
    rcases hs.keyIndex hcmp j k with ⟨n, p, x, e, hx, hk, hp, hl, hv, hlive⟩ | ⟨e, _, hm⟩
    · rw [Cpp.bind_ok e, Cpp.bind_ok hv]
      have hc : (w.targets.lists p).count = (ms j k).length := by
        have := (hs.targetsRel.rel p).count.trans (hs.targetsRepr p).count
        rw [hl] at this
        exact this
      by_cases hn : m ≥ 0 ∧ m < (w.targets.lists p).count
      · right
        have hlt : m.toNat < (ms j k).length := by omega
        refine ⟨(ms j k)[m.toNat], _, some p, ?_, onTarget_same hlive (ListWorld.on_ok (ListH.refAt_ok hn)),
          .inr ⟨p, m.toNat, _, hlt, hl, rfl, ?_, rfl⟩, ?_, fun h => by cases h⟩
        · simp only [ValueArg.value]
          rw [if_pos hn.1, List.getElem?_eq_getElem hlt]
        · rw [Int.toNat_of_nonneg hn.1]
        · rintro q ⟨⟩
          exact ⟨j, n, k, x, m, rfl, hx, hk, hp⟩
      · left
        refine ⟨?_, onTarget_err hlive (ListWorld.on_err (ListH.refAt_err hn))⟩
        simp only [ValueArg.value]
        split
        · exact List.getElem?_eq_none (by omega)
        · rfl
    · left
      refine ⟨?_, by rw [Cpp.bind_ok e, Cpp.bind_err (hs.valueAt_neg j)]⟩
      simp [ValueArg.value, hm]

theorem Snap.readKey (hs : Snap ord w ms ks ps h ck ct) {r : ElemRef κ} {k : κ} (hr : KeyRef w ks r k) :
    readKey r w = .ok k w := by
  have : r.read w.keys.heap = .ok k w.keys.heap := by
    rcases hr with rfl | ⟨j, n, hn, rfl, rfl⟩
    · rfl
    · exact hs.keysRel.read hs.keysRepr hn
  exact onKeys_same (ListWorld.on_ok (ListH.onHeap_ok this))

theorem Snap.readValue (hs : Snap ord w ms ks ps h ck ct) {r : ElemRef ν} {v : ν} {o : Option Nat} (hr : ValueRef w h r v o) :
    r.read w.targets.heap = .ok v w.targets.heap := by
  rcases hr with ⟨rfl, _⟩ | ⟨p, m, vs, hm, hl, rfl, rfl, _⟩
  · rfl
  · have := hs.targetsRel.read hs.targetsRepr (j := p) (n := m) (by rw [hl]; exact hm)
    simp only [hl] at this
    exact this

/-- appending to a value list -/
theorem Snap.addTarget (hs : Snap ord w ms ks ps h ck ct) (mv : Option ν → Option ν) {r : ElemRef ν} {v : ν} {o : Option Nat}
    (hr : ValueRef w h r v o) (p : Nat) :
    ((o ≠ some p ∨ (w.targets.lists p).count ≠ (w.targets.lists p).capacity) →
      ListH.addRef mv r (w.targets.heap, w.targets.lists p) = ListH.add mv v (w.targets.heap, w.targets.lists p)) ∧
    (o = some p → (w.targets.lists p).count = (w.targets.lists p).capacity →
      ListH.addRef mv r (w.targets.heap, w.targets.lists p) = .fault) := by
  rcases hr with ⟨rfl, rfl⟩ | ⟨q, m, vs, hm, hl, rfl, rfl, rfl⟩
  · refine ⟨fun _ => ListH.addRef_eq mv (hs.targetsRel.rel p) (hs.targetsRepr p) rfl, fun h => by cases h⟩
  · by_cases hqp : q = p
    · subst hqp
      constructor
      · rintro (hc | hc)
        · exact absurd rfl hc
        · have hx := hs.targetsRepr q
          rw [hl] at hx
          exact ListH.addRef_own mv (hs.targetsRel.rel q) hx hm hc
      · intro _ hc
        exact ListH.addRef_full mv (hs.targetsRel.rel q) (hs.targetsRepr q) hc
    · refine ⟨fun _ => ?_, fun h => absurd (Option.some.inj h) hqp⟩
      have hd := hs.targetsRel.denotes hs.targetsRepr (i := p) (j := q) (n := m) (Ne.symm hqp) (by rw [hl]; exact hm)
      simp only [hl] at hd
      exact ListH.addRef_eq mv (hs.targetsRel.rel p) (hs.targetsRepr p) hd

variable (mk : Option κ → Option κ) (mv : Option ν → Option ν) {cmp : κ → κ → Option Ordering} (eq : ν → ν → Bool)
  [Std.TransCmp ord]

theorem Snap.containsRef (hs : Snap ord w ms ks ps h ck ct) (hcmp : ∀ a b, cmp a b = some (ord a b)) {rk : ElemRef κ}
    {k : κ} (hk : KeyRef w ks rk k) {rv : ElemRef ν} {v : ν} {o : Option Nat} (hv : ValueRef w h rv v o) (i : Nat) :
    containsRef cmp eq i rk rv w = contains cmp eq i k v w := by
  unfold GroupWorld.containsRef contains
  rw [Cpp.bind_ok (hs.readKey hk)]
  rcases hs.keyIndex hcmp i k with ⟨n, p, x, e, _, _, _, _, hp, _⟩ | ⟨e, _, _⟩
  · rw [Cpp.bind_ok e, Cpp.bind_ok e, if_pos (by omega), if_pos (by omega), Cpp.bind_ok hp, Cpp.bind_ok hp]
    refine onTarget_congr ?_
    rw [Cpp.bind_ok (ListH.onHeap_ok (hs.readValue hv))]
  · rw [Cpp.bind_ok e, Cpp.bind_ok e]
    rfl

theorem Snap.removeRef (hs : Snap ord w ms ks ps h ck ct) (hcmp : ∀ a b, cmp a b = some (ord a b)) {rk : ElemRef κ}
    {k : κ} (hk : KeyRef w ks rk k) {rv : ElemRef ν} {v : ν} {o : Option Nat} (hv : ValueRef w h rv v o) (i : Nat) :
    removeRef mk mv cmp eq i rk rv w = remove mk mv cmp eq i k v w := by
  unfold GroupWorld.removeRef remove
  rw [Cpp.bind_ok (hs.readKey hk)]
  rcases hs.keyIndex hcmp i k with ⟨n, p, x, e, _, _, _, _, hp, _⟩ | ⟨e, _, _⟩
  · rw [Cpp.bind_ok e, Cpp.bind_ok e, if_pos (by omega), if_pos (by omega), Cpp.bind_ok hp, Cpp.bind_ok hp]
    have : onTarget p (ListH.removeRef mv eq rv) w = onTarget p (ListH.remove mv eq v) w := by
      refine onTarget_congr ?_
      unfold ListH.removeRef
      rw [Cpp.bind_ok (ListH.onHeap_ok (hs.readValue hv))]
    rw [Cpp.bind_apply, Cpp.bind_apply, this]
  · rw [Cpp.bind_ok e, Cpp.bind_ok e]
    rfl

theorem onKeys_ok' {m : Cpp (ListWorld κ) β} {w w' : GroupWorld κ ν} {v : β} (e : onKeys m w = .ok v w') :
    w'.targets = w.targets := by
  unfold onKeys at e
  split at e
  · cases e; rfl
  · cases e
  · cases e

theorem onValues_ok' {m : Cpp (ListWorld Nat) β} {w w' : GroupWorld κ ν} {v : β} (e : onValues m w = .ok v w') :
    w'.targets = w.targets := by
  unfold onValues at e
  split at e
  · cases e; rfl
  · cases e
  · cases e

theorem Snap.addRef (hs : Snap ord w ms ks ps h ck ct) (hcmp : ∀ a b, cmp a b = some (ord a b)) {rk : ElemRef κ}
    {k : κ} (hk : KeyRef w ks rk k) {rv : ElemRef ν} {v : ν} {o : Option Nat} (hv : ValueRef w h rv v o) (i : Nat) :
    let Clash := ∃ (n p : Nat) (x : κ), (ks i)[n]? = some x ∧ ord x k = .eq ∧ (ps i)[n]? = some p ∧ o = some p ∧
      (w.targets.lists p).count = (w.targets.lists p).capacity
    (¬ Clash → addRef mk mv cmp i rk rv w = add mk mv cmp i k v w) ∧ (Clash → addRef mk mv cmp i rk rv w = .fault) := by
  intro Clash
  unfold GroupWorld.addRef add
  rw [Cpp.bind_ok (hs.readKey hk)]
  rcases hs.keyIndex hcmp i k with ⟨n, p, x, e, hx, hxk, hps, hl, hp, hlive⟩ | ⟨e, hne, _⟩
  · rw [Cpp.bind_ok e, Cpp.bind_ok e, if_neg (by omega), if_neg (by omega), Cpp.bind_ok hp, Cpp.bind_ok hp]
    have ha := hs.addTarget mv hv p
    constructor
    · intro hc
      have : onTarget p (ListH.addRef mv rv) w = onTarget p (ListH.add mv v) w := by
        refine onTarget_congr (ha.1 ?_)
        by_cases ho : o = some p
        · exact .inr fun hf => hc ⟨n, p, x, hx, hxk, hps, ho, hf⟩
        · exact .inl ho
      rw [Cpp.bind_apply, Cpp.bind_apply, this]
    · rintro ⟨n', p', x', hx', hxk', hps', ho, hf⟩
      obtain ⟨vss, g1, _⟩ := hs.groups.models i
      have : n' = n := strict_unique g1.ascending hx' hx (ord_eq_trans hxk' (ord_eq_symm hxk))
      subst this
      rw [hps] at hps'
      cases hps'
      have : onTarget p (ListH.addRef mv rv) w = .fault := by
        unfold onTarget ListWorld.on
        rw [if_pos hlive, ha.2 ho hf]
      rw [Cpp.bind_fault this]
  · refine ⟨fun _ => ?_, fun ⟨n', p', x', hx', hxk', _⟩ => absurd hxk' (hne _ (List.mem_of_getElem? hx'))⟩
    rw [Cpp.bind_ok e, Cpp.bind_ok e, if_pos rfl, if_pos rfl]
    have hnone : liveAt h w.next = none := by rw [hs.targets.next]; simp [liveAt]
    have hput : w.targets.put w.next ListH.empty = w.targets := by
      have hf : w.targets.lists w.next = ListH.empty := hs.targets.fresh _ hnone
      rw [← hf, ListWorld.put_self]
    have hnew : (newTarget : Cpp (GroupWorld κ ν) Nat) w = .ok w.next 
        ⟨w.keys, w.values, w.targets, w.next + 1, fun q => if q = w.next then true else w.live q⟩ := by
      unfold newTarget
      rw [hput]
    rw [Cpp.bind_ok hnew, Cpp.bind_ok hnew]
    have hkey : ListH.sortedAddRef mk cmp id rk (w.keys.heap, w.keys.lists i) =
        ListH.sortedAdd mk cmp id k (w.keys.heap, w.keys.lists i) := by
      refine ListH.sortedAddRef_eq mk cmp id (hs.keysRel.rel i) (hs.keysRepr i) ?_
      rcases hk with rfl | ⟨j, n, hn, rfl, rfl⟩
      · rfl
      · refine hs.keysRel.denotes hs.keysRepr ?_ hn
        rintro rfl
        exact hne _ (List.getElem_mem hn) (Std.ReflCmp.compare_self)
    generalize hw1 : (⟨w.keys, w.values, w.targets, w.next + 1, fun q => if q = w.next then true else w.live q⟩ :
      GroupWorld κ ν) = w1
    have hk1 : onKeys (ListWorld.on i (ListH.sortedAddRef mk cmp id rk)) w1 =
        onKeys (ListWorld.on i (ListH.sortedAdd mk cmp id k)) w1 := by
      have : ListWorld.on i (ListH.sortedAddRef mk cmp id rk) w1.keys = ListWorld.on i (ListH.sortedAdd mk cmp id k) w1.keys :=
        ListWorld.on_congr (by rw [← hw1]; exact hkey)
      simp only [onKeys, this]
    have ht1 : w1.targets = w.targets := by rw [← hw1]
    have hstep : ∀ w2 : GroupWorld κ ν, w2.targets = w.targets →
        onTarget w.next (ListH.addRef mv rv) w2 = onTarget w.next (ListH.add mv v) w2 := by
      intro w2 h2
      refine onTarget_congr ?_
      rw [h2]
      refine (hs.addTarget mv hv w.next).1 (.inl fun ho => ?_)
      rcases hv with ⟨_, h0⟩ | ⟨q, m, vs, _, hl, _, _, h0⟩
      · rw [ho] at h0; cases h0
      · rw [ho] at h0; cases h0; rw [hnone] at hl; cases hl
    cases e1 : onKeys (ListWorld.on i (ListH.sortedAdd mk cmp id k)) w1 with
    | fault => rw [Cpp.bind_fault (hk1.trans e1), Cpp.bind_fault e1]
    | err _ => rw [Cpp.bind_err (hk1.trans e1), Cpp.bind_err e1]
    | ok index w2 =>
      rw [Cpp.bind_ok (hk1.trans e1), Cpp.bind_ok e1]
      have ht2 := (onKeys_ok' e1).trans ht1
      cases e2 : onValues (ListWorld.on i (ListH.insert id index w.next)) w2 with
      | fault => rw [Cpp.bind_fault e2, Cpp.bind_fault e2]
      | err _ => rw [Cpp.bind_err e2, Cpp.bind_err e2]
      | ok _ w3 =>
        rw [Cpp.bind_ok e2, Cpp.bind_ok e2]
        have ht3 := (onValues_ok' e2).trans ht2
        rw [Cpp.bind_apply, Cpp.bind_apply, hstep w3 ht3]

end
end GroupWorld
end Vlpp
