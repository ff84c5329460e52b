import Verif.Lemmas.StrOps

/-! # Histories of string operations refine operations on sequences -/
set_option autoImplicit false
namespace Vlpp
namespace Strings
open Spec.Str (St Alive Legal LegalPtr text upToZero new)

variable {α : Type} [Zero α]

/-- The characters seen through each object. -/
def abs (w : World α) : St α := w.objs.map (Option.map (chars w.heap))

/-- the objects not yet destroyed -/
def live (l : List (Option (Str α))) : List (Str α) := l.filterMap id

/-- The heap is as the live objects need it. -/
def WInv (w : World α) : Prop := Inv w.heap (live w.objs)

omit [Zero α] in
theorem mem_live {l : List (Option (Str α))} {j : Nat} {s : Str α} (h : l[j]? = some (some s)) : s ∈ live l :=
  List.mem_filterMap.mpr ⟨some s, List.mem_of_getElem? h, rfl⟩

omit [Zero α] in
/-- Put one object aside. -/
theorem live_perm {l : List (Option (Str α))} {j : Nat} {s : Str α} (h : l[j]? = some (some s)) :
    (live l).Perm (s :: live (l.set j none)) := by
  induction l generalizing j with
  | nil => simp at h
  | cons o l ih =>
    cases j with
    | zero =>
      simp at h
      subst h
      simp [live]
    | succ j =>
      simp only [List.getElem?_cons_succ] at h
      have := ih h
      cases o with
      | none => simpa [live] using this
      | some u =>
        simp only [live, List.set_cons_succ, List.filterMap_cons, id_eq] at this ⊢
        exact (List.Perm.cons u this).trans (List.Perm.swap _ _ _)

omit [Zero α] in
theorem live_perm_set {l : List (Option (Str α))} {j : Nat} (t : Str α) (h : j < l.length) :
    (live (l.set j (some t))).Perm (t :: live (l.set j none)) := by
  have e : (l.set j (some t))[j]? = some (some t) := List.getElem?_set_self h
  have := live_perm e
  rwa [List.set_set] at this

omit [Zero α] in
theorem live_append (l : List (Option (Str α))) (t : Str α) : (live (l ++ [some t])).Perm (t :: live l) := by
  have : live (l ++ [some t]) = live l ++ [t] := by simp [live]
  rw [this]
  exact List.perm_append_singleton t (live l)

theorem obj_spec {w : World α} {j : Nat} (h : Alive (abs w) j) :
    ∃ s, w.objs[j]? = some (some s) ∧ obj j w = .ok s w ∧ Spec.Str.get (abs w) j = chars w.heap s := by
  obtain ⟨xs, h⟩ := h
  simp only [abs, List.getElem?_map] at h
  cases e : w.objs[j]? with
  | none => simp [e] at h
  | some o =>
    cases o with
    | none => simp [e] at h
    | some s =>
      refine ⟨s, rfl, ?_, ?_⟩
      · unfold obj; rw [e]
      · simp [Spec.Str.get, abs, e]

theorem abs_push {w : World α} {h' : Heap α} {t : Str α} {xs : List α} (i : WInv w) (x : Extends w.heap h')
    (c : chars h' t = xs) : abs { heap := h', objs := w.objs ++ [some t] } = new (abs w) xs := by
  simp only [abs, new, List.map_append, List.map_cons, List.map_nil, Option.map_some, c]
  congr 1
  apply List.map_congr_left
  intro o ho
  cases o with
  | none => rfl
  | some u =>
    have : u ∈ live w.objs := List.mem_filterMap.mpr ⟨some u, ho, rfl⟩
    simp only [Option.map_some]
    rw [x.chars (i.good u this).1]

theorem abs_set {w : World α} {h' : Heap α} {j : Nat} (o : Option (Str α))
    (x : ∀ u ∈ live (w.objs.set j none), mem h' u.buffer = mem w.heap u.buffer) :
    abs { heap := h', objs := w.objs.set j o } = (abs w).set j (o.map (chars h')) := by
  apply List.ext_getElem?
  intro k
  simp only [abs, List.getElem?_map]
  by_cases hk : j = k
  · subst hk
    by_cases hl : j < w.objs.length
    · rw [List.getElem?_set_self hl, List.getElem?_set_self (by simpa using hl)]; rfl
    · rw [List.getElem?_eq_none (by simp; omega), List.getElem?_eq_none (by simp; omega)]; rfl
  · rw [List.getElem?_set_ne hk, List.getElem?_set_ne hk, List.getElem?_map]
    cases e : w.objs[k]? with
    | none => rfl
    | some o =>
      cases o with
      | none => rfl
      | some u =>
        have : u ∈ live (w.objs.set j none) := mem_live (j := k) (by rw [List.getElem?_set_ne hk, e])
        simp only [Option.map_some]
        rw [chars_of_mem (x u this)]

/-- The outcome of an operation agrees with what it does to the sequences. -/
def Agrees (o : Outcome (World α) Unit) (st : St α) : Option (St α) → Prop
  | some st' => ∃ w', o = .ok () w' ∧ WInv w' ∧ abs w' = st'
  | none => ∃ w', o = .err w' ∧ WInv w' ∧ abs w' = st

omit [Zero α] in
theorem onHeap_ok {β : Type} {m : Cpp (Heap α) β} {w : World α} {b : β} {h' : Heap α} (e : m w.heap = .ok b h') :
    onHeap m w = .ok b { w with heap := h' } := by
  unfold onHeap; rw [e]

omit [Zero α] in
theorem onHeap_err {β : Type} {m : Cpp (Heap α) β} {w : World α} {h' : Heap α} (e : m w.heap = .err h') :
    onHeap m w = .err { w with heap := h' } := by
  unfold onHeap; rw [e]

theorem agrees_push {w : World α} (i : WInv w) {m : Cpp (Heap α) (Str α)} {xs : List α}
    (mk : Makes m w.heap (live w.objs) xs) :
    Agrees ((do let t ← onHeap m; push t) w) (abs w) (some (new (abs w) xs)) := by
  obtain ⟨t, h', e, i', c, x⟩ := mk
  refine ⟨{ heap := h', objs := w.objs ++ [some t] }, ?_, ?_, abs_push i x c⟩
  · rw [Cpp.bind_ok (onHeap_ok e)]; rfl
  · exact i'.perm (live_append w.objs t).symm

theorem agrees_err {w : World α} (i : WInv w) {β : Type} {m : Cpp (Heap α) β} {f : β → Cpp (World α) Unit}
    (e : m w.heap = .err w.heap) : Agrees ((do let t ← onHeap m; f t) w) (abs w) none :=
  ⟨w, Cpp.bind_err (onHeap_err e), i, rfl⟩

theorem agrees_set {w : World α} {j : Nat} {s : Str α} (hj : w.objs[j]? = some (some s))
    {m : Cpp (Heap α) (Str α)} {xs : List α}
    (mk : ∃ t h', m w.heap = .ok t h' ∧ Inv h' (t :: live (w.objs.set j none)) ∧ chars h' t = xs ∧
      ∀ u ∈ live (w.objs.set j none), mem h' u.buffer = mem w.heap u.buffer) :
    Agrees ((do let t ← onHeap m; setObj j (some t)) w) (abs w) (some ((abs w).set j (some xs))) := by
  obtain ⟨t, h', e, i', c, k⟩ := mk
  refine ⟨{ heap := h', objs := w.objs.set j (some t) }, ?_, ?_, ?_⟩
  · rw [Cpp.bind_ok (onHeap_ok e)]; rfl
  · exact i'.perm (live_perm_set t (lt_of_getElem? hj)).symm
  · rw [abs_set (some t) k, Option.map_some, c]

variable [DecidableEq α]

theorem ptr_spec {w : World α} (i : WInv w) {p : PtrArg α} (hp : LegalPtr (abs w) p) :
    ∃ q w', ptr p w = .ok q w' ∧ WInv w' ∧ abs w' = abs w ∧ PtrOk w'.heap q (text (abs w) p) := by
  cases p with
  | null => exact ⟨none, w, rfl, i, rfl, rfl⟩
  | mem id cs =>
    refine ⟨some (.foreign id cs, 0), w, rfl, i, rfl, by simp, cs, rfl, ?_, ?_⟩
    · simpa [LegalPtr] using hp
    · simp [text]
  | bufferOf j =>
    obtain ⟨s, hj, e1, hg⟩ := obj_spec hp
    obtain ⟨s', p, h', e2, i', c, k, p0, ⟨cs, rest, m1, m2⟩, -⟩ := buffer_spec (i.perm (live_perm hj))
    refine ⟨some p, { heap := h', objs := w.objs.set j (some s') }, ?_, ?_, ?_, ?_⟩
    · simp only [ptr]
      rw [Cpp.bind_ok e1, Cpp.bind_ok (onHeap_ok e2)]
      rfl
    · exact i'.perm (live_perm_set s' (lt_of_getElem? hj)).symm
    · rw [abs_set (some s') k, Option.map_some, c, ← hg]
      apply List.ext_getElem?
      intro n
      by_cases hn : j = n
      · subst hn
        have hl : j < (abs w).length := by simpa [abs] using lt_of_getElem? hj
        rw [List.getElem?_set_self hl]
        simp [Spec.Str.get, abs, hj]
      · rw [List.getElem?_set_ne hn]
    · obtain ⟨p, off⟩ := p
      refine ⟨p0, cs, m1, ?_, ?_⟩
      · simp only at m2; rw [m2]; simp
      · simp only at m2
        rw [m2, upToZero_append]
        simp only [text, hg]

omit [DecidableEq α] in
theorem self_set {w : World α} {j : Nat} (h : Alive (abs w) j) :
    (abs w).set j (some (Spec.Str.get (abs w) j)) = abs w := by
  obtain ⟨xs, e⟩ := h
  apply List.ext_getElem?
  intro n
  by_cases hn : j = n
  · subst hn
    rw [List.getElem?_set_self (lt_of_getElem? e)]
    simp [Spec.Str.get, e]
  · rw [List.getElem?_set_ne hn]

omit [DecidableEq α] in
theorem bind_agrees {β : Type} {m : Cpp (World α) β} {f : β → Cpp (World α) Unit} {w w' : World α} {b : β}
    {st : St α} {r : Option (St α)} (e : m w = .ok b w') (a : Agrees (f b w') st r) : Agrees ((m >>= f) w) st r := by
  rw [Cpp.bind_ok e]; exact a

theorem step_agrees {w : World α} (i : WInv w) (op : Op α) (hl : Legal (abs w) op) :
    Agrees (step op w) (abs w) (Spec.Str.step (abs w) op) := by
  cases op with
  | empty =>
    have := agrees_push i (makes_empty i)
    exact this
  | copy j =>
    obtain ⟨s, hj, e, hg⟩ := obj_spec hl
    refine bind_agrees e ?_
    simp only [Spec.Str.step, hg]
    exact agrees_push i (makes_copy i (mem_live hj))
  | move j =>
    obtain ⟨s, hj, e, hg⟩ := obj_spec hl
    refine bind_agrees e ?_
    simp only [Spec.Str.step, hg]
    have hlt := lt_of_getElem? hj
    refine ⟨{ heap := w.heap, objs := w.objs.set j (some {}) ++ [some s] }, rfl, ?_, ?_⟩
    · have p1 := (live_append (w.objs.set j (some {})) s).trans
        ((live_perm_set ({} : Str α) hlt).cons s)
      have p2 : (({} : Str α) :: live w.objs).Perm (s :: ({} : Str α) :: live (w.objs.set j none)) :=
        ((live_perm hj).cons _).trans (List.Perm.swap _ _ _)
      exact (i.cons_uncounted (empty_readable _) rfl (by simp)).perm (p2.trans p1.symm)
    · have a := abs_set (w := w) (h' := w.heap) (j := j) (some {}) (fun _ _ => rfl)
      simp only [abs] at a
      simp only [abs, new, List.map_append, a]
      simp [chars]
  | fromPtr p =>
    obtain ⟨q, w', e, i', ab, hq⟩ := ptr_spec i hl
    refine bind_agrees e ?_
    simp only [Spec.Str.step]
    cases q with
    | none =>
      have ht : text (abs w) p = none := hq
      rw [ht, ← ab]
      exact agrees_err i' rfl
    | some q =>
      obtain ⟨x, hx⟩ : ∃ x, text (abs w) p = some x := ⟨_, hq.2.choose_spec.2.2⟩
      rw [hx] at hq ⊢
      rw [← ab]
      exact agrees_push i' (makes_fromPtr i' hq)
  | takeOver cs n =>
    simp only [Spec.Str.step]
    by_cases h1 : 0 ≤ n
    · by_cases h2 : cs[n.toNat]? = some 0
      · rw [if_pos ⟨h1, h2⟩]
        exact agrees_push i (makes_takeOver i h1 hl h2)
      · rw [if_neg (fun c => h2 c.2)]
        refine agrees_err i ?_
        unfold takeOver
        have hl' : n < cs.length := hl
        rw [Cpp.bind_ok (Cpp.check_true h1 _), if_pos hl', Cpp.bind_err (Cpp.check_false h2 _)]
    · rw [if_neg (fun c => h1 c.1)]
      refine agrees_err i ?_
      unfold takeOver
      rw [Cpp.bind_err (Cpp.check_false h1 _)]
  | fromChar c =>
    have hp : PtrOk w.heap (some (.foreign 0 [c, 0], 0)) (some (if c = 0 then [] else [c])) := by
      refine ⟨by simp, [c, 0], rfl, by simp, ?_⟩
      by_cases hc : c = 0 <;> simp [upToZero, hc]
    exact agrees_push i (makes_fromPtr i hp)
  | copyFrom cs n =>
    simp only [Spec.Str.step]
    have hl' : n ≤ cs.length := hl
    by_cases h1 : 0 ≤ n
    · rw [if_pos h1]
      have m := makes_copyFrom i (p := .foreign 0 cs) (off := 0) h1 (by omega) rfl (by omega)
      exact agrees_push i m
    · rw [if_neg h1]
      refine agrees_err i ?_
      unfold copyFrom
      rw [Cpp.bind_err (Cpp.check_false h1 _)]
  | unmanaged id cs =>
    have hp : PtrOk w.heap (some (.foreign id cs, 0)) (some (upToZero cs)) :=
      ⟨by simp, cs, rfl, by simpa [Legal] using hl, by simp⟩
    obtain ⟨t, e, r, c, hc, hb⟩ := unmanaged_spec hp
    exact agrees_push i ⟨t, w.heap, e, i.cons_uncounted r hc (by rw [hb]; simp), c, Extends.refl _⟩
  | cast j =>
    obtain ⟨s, hj, e, hg⟩ := obj_spec hl
    refine bind_agrees e ?_
    simp only [Spec.Str.step, hg]
    have r := (i.good s (mem_live hj)).1
    by_cases hz : s.length = 0
    · have : chars w.heap s = [] := List.eq_nil_of_length_eq_zero (by have := chars_length r; omega)
      rw [this]
      have m := makes_empty i
      refine agrees_push i ?_
      unfold unsafeCastFrom
      rw [if_pos hz]
      exact m
    · refine agrees_push i ?_
      unfold unsafeCastFrom
      rw [if_neg hz]
      exact makes_copy i (mem_live hj)
  | assign a b =>
    obtain ⟨s, hj, e, hg⟩ := obj_spec hl.1
    obtain ⟨t, hj', e', hg'⟩ := obj_spec hl.2
    refine bind_agrees e (bind_agrees e' ?_)
    by_cases hab : a = b
    · subst hab
      rw [if_pos rfl]
      exact ⟨w, rfl, i, (self_set hl.1).symm⟩
    · rw [if_neg hab]
      simp only [Spec.Str.step, hg']
      have ht : t ∈ live (w.objs.set a none) := mem_live (j := b) (by rw [List.getElem?_set_ne hab, hj'])
      obtain ⟨h', e1, i1, k1⟩ := assign_spec (i.perm (live_perm hj)) ht
      exact agrees_set hj ⟨t, h', e1, i1, chars_of_mem (k1 t ht), k1⟩
  | moveAssign a b =>
    obtain ⟨s, hj, e, hg⟩ := obj_spec hl.1
    obtain ⟨t, hj', e', hg'⟩ := obj_spec hl.2
    refine bind_agrees e (bind_agrees e' ?_)
    by_cases hab : a = b
    · subst hab
      rw [if_pos rfl]
      simp only [Spec.Str.step, if_true]
      exact ⟨w, rfl, i, rfl⟩
    · rw [if_neg hab]
      simp only [Spec.Str.step, hg', if_neg hab]
      have ht : t ∈ live (w.objs.set a none) := mem_live (j := b) (by rw [List.getElem?_set_ne hab, hj'])
      obtain ⟨h', e1, i1, k1⟩ := dec_spec (i.perm (live_perm hj))
      have hm : moveAssign s t w.heap = .ok (t, {}) h' := by
        unfold moveAssign; rw [Cpp.bind_ok e1]; rfl
      have hla := lt_of_getElem? hj
      have hlb := lt_of_getElem? hj'
      refine ⟨{ heap := h', objs := (w.objs.set a (some t)).set b (some {}) }, ?_, ?_, ?_⟩
      · rw [Cpp.bind_ok (onHeap_ok hm)]; rfl
      · -- live objects: `t` moves from `b` to `a`, `b` becomes empty
        have q1 : (live (w.objs.set a none)).Perm (t :: live ((w.objs.set a none).set b none)) :=
          live_perm (by rw [List.getElem?_set_ne hab, hj'])
        have q2 := live_perm_set (l := w.objs.set a (some t)) (j := b) ({} : Str α) (by simpa using hlb)
        have q3 : (live ((w.objs.set a (some t)).set b none)).Perm (t :: live ((w.objs.set a none).set b none)) := by
          rw [List.set_comm _ _ hab, List.set_comm _ _ hab]
          exact live_perm_set t (by simpa using hla)
        refine (i1.cons_uncounted (empty_readable _) rfl (by simp)).perm ?_
        exact ((q1.trans q3.symm).cons _).trans q2.symm
      · have a1 := abs_set (w := w) (j := a) (some t) k1
        rw [Option.map_some, chars_of_mem (k1 t ht)] at a1
        rw [← a1]
        have a2 := abs_set (w := { heap := h', objs := w.objs.set a (some t) }) (h' := h') (j := b) (some {})
          (fun _ _ => rfl)
        rw [a2]
        simp [chars]
  | append a b =>
    obtain ⟨s, hj, e, hg⟩ := obj_spec hl.1
    obtain ⟨t, hj', e', hg'⟩ := obj_spec hl.2
    refine bind_agrees e (bind_agrees e' ?_)
    simp only [Spec.Str.step, hg, hg']
    have ip := i.perm (live_perm hj)
    have hs : s ∈ s :: live (w.objs.set a none) := List.mem_cons_self
    have ht : t ∈ s :: live (w.objs.set a none) := (live_perm hj).mem_iff.mp (mem_live hj')
    exact agrees_set hj (moved_spec (makes_concat ip hs ht) ip)
  | appendPtr a p =>
    obtain ⟨q, w', e, i', ab, hq⟩ := ptr_spec i hl.2
    have hl' := hl.1
    rw [← ab] at hl' hq ⊢
    obtain ⟨s, hj, e', hg⟩ := obj_spec hl'
    refine bind_agrees e (bind_agrees e' ?_)
    simp only [Spec.Str.step, hg]
    have ip := i'.perm (live_perm hj)
    exact agrees_set hj (moved_spec (makes_concatPtr ip List.mem_cons_self hq) ip)
  | concat a b =>
    obtain ⟨s, hj, e, hg⟩ := obj_spec hl.1
    obtain ⟨t, hj', e', hg'⟩ := obj_spec hl.2
    refine bind_agrees e (bind_agrees e' ?_)
    simp only [Spec.Str.step, hg, hg']
    exact agrees_push i (makes_concat i (mem_live hj) (mem_live hj'))
  | concatPtr a p =>
    obtain ⟨q, w', e, i', ab, hq⟩ := ptr_spec i hl.2
    have hl' := hl.1
    rw [← ab] at hl' hq ⊢
    obtain ⟨s, hj, e', hg⟩ := obj_spec hl'
    refine bind_agrees e (bind_agrees e' ?_)
    simp only [Spec.Str.step, hg]
    exact agrees_push i' (makes_concatPtr i' (mem_live hj) hq)
  | ptrConcat p b =>
    obtain ⟨q, w', e, i', ab, hq⟩ := ptr_spec i hl.1
    have hl' := hl.2
    rw [← ab] at hl' hq ⊢
    obtain ⟨s, hj, e', hg⟩ := obj_spec hl'
    refine bind_agrees e (bind_agrees e' ?_)
    simp only [Spec.Str.step, hg]
    cases q with
    | none =>
      have ht : text (abs w') p = none := hq
      rw [ht]
      refine agrees_err i' ?_
      unfold ptrConcat
      by_cases hz : s.length = 0
      · rw [if_pos hz]; rfl
      · rw [if_neg hz]; rfl
    | some q =>
      obtain ⟨x, hx⟩ : ∃ x, text (abs w') p = some x := ⟨_, hq.2.choose_spec.2.2⟩
      rw [hx] at hq ⊢
      exact agrees_push i' (makes_ptrConcat i' (mem_live hj) hq)
  | left a n =>
    obtain ⟨s, hj, e, hg⟩ := obj_spec hl
    refine bind_agrees e ?_
    simp only [Spec.Str.step, hg]
    have hs := mem_live hj
    have ls := chars_length (i.good s hs).1
    by_cases c : n ≥ 0 ∧ n ≤ s.length
    · rw [if_pos (by omega)]
      have m := makes_sub i hs (index := 0) (n := n) (by omega) (by omega)
      refine agrees_push i ?_
      obtain ⟨t, h', e1, q⟩ := m
      refine ⟨t, h', ?_, by simpa using q⟩
      unfold left
      rw [Cpp.bind_ok (Cpp.check_true c _)]; exact e1
    · rw [if_neg (by omega)]
      refine agrees_err i ?_
      unfold left
      rw [Cpp.bind_err (Cpp.check_false c _)]
  | right a n =>
    obtain ⟨s, hj, e, hg⟩ := obj_spec hl
    refine bind_agrees e ?_
    simp only [Spec.Str.step, hg]
    have hs := mem_live hj
    have ls := chars_length (i.good s hs).1
    by_cases c : n ≥ 0 ∧ n ≤ s.length
    · rw [if_pos (by omega)]
      have m := makes_sub i hs (index := s.length - n) (n := n) (by omega) (by omega)
      refine agrees_push i ?_
      obtain ⟨t, h', e1, i1, c1, x1⟩ := m
      refine ⟨t, h', ?_, i1, ?_, x1⟩
      · unfold right
        rw [Cpp.bind_ok (Cpp.check_true c _)]; exact e1
      · rw [c1, List.take_of_length_le (by simp; omega)]
        congr 1
        omega
    · rw [if_neg (by omega)]
      refine agrees_err i ?_
      unfold right
      rw [Cpp.bind_err (Cpp.check_false c _)]
  | sub a index n =>
    obtain ⟨s, hj, e, hg⟩ := obj_spec hl
    refine bind_agrees e ?_
    simp only [Spec.Str.step, hg]
    have hs := mem_live hj
    have ls := chars_length (i.good s hs).1
    by_cases c : index ≥ 0 ∧ index ≤ s.length
    · by_cases c' : index + n ≥ 0 ∧ index + n ≤ s.length
      · rw [if_pos (by omega)]
        have m := makes_sub i hs (index := index) (n := n) (by omega) (by omega)
        refine agrees_push i ?_
        obtain ⟨t, h', e1, q⟩ := m
        refine ⟨t, h', ?_, q⟩
        unfold sub
        rw [Cpp.bind_ok (Cpp.check_true c _), Cpp.bind_ok (Cpp.check_true c' _)]; exact e1
      · rw [if_neg (by omega)]
        refine agrees_err i ?_
        unfold sub
        rw [Cpp.bind_ok (Cpp.check_true c _), Cpp.bind_err (Cpp.check_false c' _)]
    · rw [if_neg (by omega)]
      refine agrees_err i ?_
      unfold sub
      rw [Cpp.bind_err (Cpp.check_false c _)]
  | remove a index n =>
    obtain ⟨s, hj, e, hg⟩ := obj_spec hl
    refine bind_agrees e ?_
    simp only [Spec.Str.step, hg]
    have hs := mem_live hj
    have rs := (i.good s hs).1
    have ls := chars_length rs
    by_cases c : index ≥ 0 ∧ index < s.length
    · by_cases c' : index + n ≥ 0 ∧ index + n ≤ s.length
      · rw [if_pos (by omega)]
        have m := makes_replace i (t := {}) (index := index) (count := n) rs (empty_readable _) (by omega) (by omega)
          (by omega) (by omega) (fun _ _ => makes_copy i hs) (fun _ _ => makes_copy_empty i)
        refine agrees_push i ?_
        obtain ⟨t, h', e1, i1, c1, x1⟩ := m
        refine ⟨t, h', ?_, i1, ?_, x1⟩
        · unfold remove
          rw [Cpp.bind_ok (Cpp.check_true c _), Cpp.bind_ok (Cpp.check_true c' _)]; exact e1
        · rw [c1]; simp [chars]
      · rw [if_neg (by omega)]
        refine agrees_err i ?_
        unfold remove
        rw [Cpp.bind_ok (Cpp.check_true c _), Cpp.bind_err (Cpp.check_false c' _)]
    · rw [if_neg (by omega)]
      refine agrees_err i ?_
      unfold remove
      rw [Cpp.bind_err (Cpp.check_false c _)]
  | insert a index b =>
    obtain ⟨s, hj, e, hg⟩ := obj_spec hl.1
    obtain ⟨t, hj', e', hg'⟩ := obj_spec hl.2
    refine bind_agrees e (bind_agrees e' ?_)
    simp only [Spec.Str.step, hg, hg']
    have hs := mem_live hj
    have ht := mem_live hj'
    have rs := (i.good s hs).1
    have ls := chars_length rs
    by_cases c : index ≥ 0 ∧ index ≤ s.length
    · rw [if_pos (by omega)]
      have m := makes_replace i (index := index) (count := 0) rs (i.good t ht).1 (by omega) (by omega)
        (by omega) (by omega) (fun _ _ => makes_copy i hs) (fun _ _ => makes_copy i ht)
      refine agrees_push i ?_
      obtain ⟨u, h', e1, i1, c1, x1⟩ := m
      refine ⟨u, h', ?_, i1, ?_, x1⟩
      · unfold insert
        rw [Cpp.bind_ok (Cpp.check_true c _)]; exact e1
      · rw [c1, Int.add_zero]
    · rw [if_neg (by omega)]
      refine agrees_err i ?_
      unfold insert
      rw [Cpp.bind_err (Cpp.check_false c _)]
  | buffer a =>
    obtain ⟨q, w', e, i', ab, -⟩ := ptr_spec (p := .bufferOf a) i hl
    exact bind_agrees e ⟨w', rfl, i', ab⟩
  | destroy a =>
    obtain ⟨s, hj, e, hg⟩ := obj_spec hl
    refine bind_agrees e ?_
    obtain ⟨h', e1, i1, k1⟩ := dec_spec (i.perm (live_perm hj))
    refine ⟨{ heap := h', objs := w.objs.set a none }, ?_, i1, ?_⟩
    · rw [Cpp.bind_ok (onHeap_ok e1)]; rfl
    · rw [abs_set none k1]; rfl

end Strings
end Vlpp
