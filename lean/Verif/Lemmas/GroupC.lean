import Verif.Model.GroupC
import Verif.Lemmas.DictC

set_option autoImplicit false
namespace Vlpp
variable {κ ν : Type}
open Spec

/-- a multimap as a map to non-empty lists -/
def toMap (m : κ → List ν) : κ → Option (List ν) := fun k => if (m k).isEmpty then none else some (m k)

theorem toMap_eq_some {m : κ → List ν} {k : κ} {vs : List ν} : toMap m k = some vs ↔ m k = vs ∧ vs ≠ [] := by
  unfold toMap
  split
  · next h =>
    simp only [List.isEmpty_iff] at h
    constructor
    · intro h; cases h
    · intro ⟨h1, h2⟩; exact absurd (h1.symm.trans h) h2
  · next h =>
    simp only [List.isEmpty_iff] at h
    constructor
    · intro h'; cases h'; exact ⟨rfl, h⟩
    · intro ⟨h1, _⟩; rw [h1]

theorem toMap_put {ord : κ → κ → Ordering} {m : κ → List ν} {k : κ} {vs : List ν} (h : vs ≠ []) :
    toMap (groupPut ord m k vs) = mapPut ord (toMap m) k vs := by
  funext k'
  unfold toMap groupPut mapPut
  by_cases he : ord k k' = .eq
  · simp [he, h]
  · simp [he]

theorem toMap_erase {ord : κ → κ → Ordering} {m : κ → List ν} {k : κ} :
    toMap (groupPut ord m k []) = mapErase ord (toMap m) k := by
  funext k'
  unfold toMap groupPut mapErase
  by_cases he : ord k k' = .eq
  · simp [he]
  · simp [he]

theorem groupLists_iff {ord : κ → κ → Ordering} [Std.TransCmp ord] {m : κ → List ν} {ks : List κ}
    {vss : List (List ν)} :
    GroupLists ord m ks vss ↔ Lists ord (toMap m) ks vss ∧ ∀ vs ∈ vss, vs ≠ [] := by
  constructor
  · intro h
    refine ⟨⟨h.length, h.ascending, ?_⟩, h.nonempty⟩
    intro k v
    rw [toMap_eq_some]
    constructor
    · intro ⟨h1, h2⟩
      rcases h.entries k with ⟨i, k', a, b, c⟩ | ⟨_, h3⟩
      · exact ⟨i, k', a, b, h1 ▸ c⟩
      · exact absurd (h1.symm.trans h3) h2
    · intro ⟨i, k', a, b, c⟩
      refine ⟨?_, h.nonempty v (List.mem_of_getElem? c)⟩
      rcases h.entries k with ⟨j, k2, a2, b2, c2⟩ | ⟨h3, _⟩
      · have := strict_unique h.ascending a a2 (ord_eq_trans b (ord_eq_symm b2))
        subst this
        rw [c] at c2; cases c2; rfl
      · exact absurd b (h3 k' (List.mem_of_getElem? a))
  · intro ⟨h, hne⟩
    refine ⟨h.length, h.ascending, hne, ?_⟩
    intro k
    by_cases hk : m k = []
    · right
      refine ⟨?_, hk⟩
      intro k' hk' he
      have := (h.isSome_iff k).2 ⟨k', hk', he⟩
      simp [toMap, hk] at this
    · left
      exact (h.entries k (m k)).1 (toMap_eq_some.2 ⟨rfl, hk⟩)

/-- the list that lives at an address -/
def liveAt (h : List (Option (List ν))) (p : Nat) : Option (List ν) := h[p]?.join

theorem liveAt_eq_some {h : List (Option (List ν))} {p : Nat} {l : List ν} : liveAt h p = some l ↔ h[p]? = some (some l) := by
  unfold liveAt
  cases h[p]? <;> simp

theorem liveAt_congr {h h' : List (Option (List ν))} {p q : Nat} (e : h[p]? = h'[q]?) : liveAt h p = liveAt h' q := by
  unfold liveAt; rw [e]

theorem liveAt_append {h : List (Option (List ν))} {l : List ν} {p : Nat} (hp : p ≠ h.length) :
    liveAt (h ++ [some l]) p = liveAt h p := by
  by_cases hlt : p < h.length
  · exact liveAt_congr (List.getElem?_append_left hlt)
  · unfold liveAt
    rw [List.getElem?_eq_none (by simp; omega), List.getElem?_eq_none (by omega)]

/-- `ps` are pairwise different addresses of the live lists `vss`; what else is live is said by `F`. -/
structure HeapRepr (F : Nat → Option (List ν)) (h : List (Option (List ν))) (ps : List Nat) (vss : List (List ν)) : Prop where
  length : ps.length = vss.length
  live : ∀ (i p : Nat) (l : List ν), ps[i]? = some p → vss[i]? = some l → h[p]? = some (some l)
  nodup : ps.Nodup
  frame : ∀ p : Nat, p ∉ ps → liveAt h p = F p
  own : ∀ p ∈ ps, F p = none

namespace HeapRepr
variable {F : Nat → Option (List ν)}

theorem lt {h : List (Option (List ν))} {ps : List Nat} {vss : List (List ν)} (hr : HeapRepr F h ps vss) {p : Nat}
    (hp : p ∈ ps) : p < h.length := by
  obtain ⟨i, hi, rfl⟩ := List.mem_iff_getElem.1 hp
  have := hr.live i _ _ (List.getElem?_eq_getElem hi) (List.getElem?_eq_getElem (hr.length ▸ hi))
  exact (List.getElem?_eq_some_iff.1 this).1

theorem alloc {h : List (Option (List ν))} {ps : List Nat} {vss : List (List ν)} (hr : HeapRepr F h ps vss)
    (i : Nat) (hi : i ≤ ps.length) (l : List ν) :
    HeapRepr F (h ++ [some l]) (ps.take i ++ h.length :: ps.drop i) (vss.take i ++ l :: vss.drop i) := by
  have hl := hr.length
  have old : ∀ (j p : Nat) (l' : List ν), ps[j]? = some p → vss[j]? = some l' → (h ++ [some l])[p]? = some (some l') := by
    intro j p l' a b
    rw [List.getElem?_append_left (hr.lt (List.mem_of_getElem? a))]
    exact hr.live j p l' a b
  have hn : h.length ∉ ps := fun hm => Nat.lt_irrefl _ (hr.lt hm)
  have hp : (ps.take i ++ h.length :: ps.drop i).Perm (h.length :: ps) := by
    refine List.perm_middle.trans ?_
    rw [List.take_append_drop]
  refine ⟨by simp; omega, ?_, ?_, ?_, ?_⟩
  · intro j p l' a b
    rw [getElem?_insert ps i _ hi] at a
    rw [getElem?_insert vss i _ (by omega)] at b
    by_cases h1 : j < i
    · rw [if_pos h1] at a b; exact old j p l' a b
    · by_cases h2 : j = i
      · rw [if_neg h1, if_pos h2] at a b; cases a; cases b; simp
      · rw [if_neg h1, if_neg h2] at a b; exact old _ p l' a b
  · rw [hp.nodup_iff]
    exact List.nodup_cons.2 ⟨hn, hr.nodup⟩
  · intro p hm
    rw [hp.mem_iff, List.mem_cons, not_or] at hm
    rw [liveAt_append hm.1]
    exact hr.frame p hm.2
  · intro p hm
    rw [hp.mem_iff, List.mem_cons] at hm
    rcases hm with rfl | hm
    · rw [← hr.frame _ hn]; simp [liveAt]
    · exact hr.own p hm

theorem update {h : List (Option (List ν))} {ps : List Nat} {vss : List (List ν)} (hr : HeapRepr F h ps vss)
    {i p : Nat} (hp : ps[i]? = some p) (l : List ν) : HeapRepr F (h.set p (some l)) ps (vss.set i l) := by
  have hl := hr.length
  have hi := (List.getElem?_eq_some_iff.1 hp).1
  refine ⟨by simpa using hl, ?_, hr.nodup, ?_, hr.own⟩
  · intro j q l' a b
    by_cases hij : i = j
    · subst hij
      rw [hp] at a; cases a
      rw [List.getElem?_set_self (by omega)] at b; cases b
      rw [List.getElem?_set_self (hr.lt (List.mem_of_getElem? hp))]
    · rw [List.getElem?_set_ne hij] at b
      have hpq : p ≠ q := by
        intro he; subst he
        exact hij ((List.getElem?_inj hi hr.nodup).1 (hp.trans a.symm))
      rw [List.getElem?_set_ne hpq]
      exact hr.live j q l' a b
  · intro q hq
    have hpq : p ≠ q := fun h => hq (h ▸ List.mem_of_getElem? hp)
    rw [liveAt_congr (List.getElem?_set_ne hpq)]
    exact hr.frame q hq

theorem free {h : List (Option (List ν))} {ps : List Nat} {vss : List (List ν)} (hr : HeapRepr F h ps vss)
    {i p : Nat} (hp : ps[i]? = some p) :
    HeapRepr F (h.set p none) (ps.take i ++ ps.drop (i + 1)) (vss.take i ++ vss.drop (i + 1)) := by
  have hl := hr.length
  have hi := (List.getElem?_eq_some_iff.1 hp).1
  have key : ∀ (j q : Nat) (l' : List ν), i ≠ j → ps[j]? = some q → vss[j]? = some l' → (h.set p none)[q]? = some (some l') := by
    intro j q l' hij a b
    have hpq : p ≠ q := by
      intro he; subst he
      exact hij ((List.getElem?_inj hi hr.nodup).1 (hp.trans a.symm))
    rw [List.getElem?_set_ne hpq]
    exact hr.live j q l' a b
  have hsub : (ps.take i ++ ps.drop (i + 1)).Sublist ps := by
    conv => rhs; rw [← List.take_append_drop i ps]
    apply List.Sublist.append (List.Sublist.refl _)
    rw [← List.drop_drop]
    exact List.drop_sublist _ _
  refine ⟨by simp; omega, ?_, hr.nodup.sublist hsub, ?_, fun q hq => hr.own q (hsub.subset hq)⟩
  · intro j q l' a b
    rw [getElem?_erase] at a b
    by_cases hj : j < i
    · rw [if_pos hj] at a b; exact key j q l' (by omega) a b
    · rw [if_neg hj] at a b; exact key (j + 1) q l' (by omega) a b
  · intro q hq
    by_cases hpq : p = q
    · subst hpq
      have hm := List.mem_of_getElem? hp
      rw [hr.own _ hm]
      unfold liveAt
      rw [List.getElem?_set_self (hr.lt hm)]; rfl
    · rw [liveAt_congr (List.getElem?_set_ne hpq)]
      refine hr.frame q fun hm => hq ?_
      obtain ⟨j, hj⟩ := List.mem_iff_getElem?.1 hm
      have hij : i ≠ j := by intro he; subst he; rw [hp] at hj; cases hj; exact hpq rfl
      rw [List.mem_iff_getElem?]
      by_cases hlt : j < i
      · exact ⟨j, by rw [getElem?_erase, if_pos hlt]; exact hj⟩
      · exact ⟨j - 1, by rw [getElem?_erase, if_neg (by omega), show j - 1 + 1 = j by omega]; exact hj⟩

end HeapRepr

namespace GroupC

/-- `s` stores the multimap `m`; the live lists are its own and those of `F`. -/
def ModelsIn (F : Nat → Option (List ν)) (ord : κ → κ → Ordering) (m : κ → List ν) (s : GroupC κ ν) : Prop :=
  ∃ vss, GroupLists ord m s.keys vss ∧ HeapRepr F s.heap s.values vss

/-- `s` stores the multimap `m` and owns exactly the live value lists. -/
abbrev Models (ord : κ → κ → Ordering) (m : κ → List ν) (s : GroupC κ ν) : Prop := ModelsIn (fun _ => none) ord m s

theorem _root_.Vlpp.HeapRepr.noleak {h : List (Option (List ν))} {ps : List Nat} {vss : List (List ν)}
    (hr : HeapRepr (fun _ => none) h ps vss) (p : Nat) (l : List ν) (e : h[p]? = some (some l)) : p ∈ ps :=
  Classical.byContradiction fun hm => by
    have := hr.frame p hm
    rw [liveAt_eq_some.2 e] at this
    cases this

theorem onKeys_ok {β : Type} {m : Cpp (List κ) β} {s : GroupC κ ν} {v : β} {ks : List κ} (h : m s.keys = .ok v ks) :
    onKeys m s = .ok v { s with keys := ks } := by simp [onKeys, h]
theorem onKeys_mk {β : Type} {m : Cpp (List κ) β} {v : β} {ks ks' : List κ} {vs : List Nat}
    {h : List (Option (List ν))} (he : m ks = .ok v ks') : onKeys m ⟨ks, vs, h⟩ = .ok v ⟨ks', vs, h⟩ := by
  simp [onKeys, he]
theorem onValues_ok {β : Type} {m : Cpp (List Nat) β} {s : GroupC κ ν} {v : β} {vs : List Nat}
    (h : m s.values = .ok v vs) : onValues m s = .ok v { s with values := vs } := by simp [onValues, h]
theorem onValues_err {β : Type} {m : Cpp (List Nat) β} {s : GroupC κ ν} {vs : List Nat}
    (h : m s.values = .err vs) : onValues m s = .err { s with values := vs } := by simp [onValues, h]
theorem onTarget_ok {β : Type} {p : Nat} {m : Cpp (List ν) β} {s : GroupC κ ν} {v : β} {l l' : List ν}
    (hp : s.heap[p]? = some (some l)) (h : m l = .ok v l') :
    onTarget p m s = .ok v { s with heap := s.heap.set p (some l') } := by simp [onTarget, hp, h]
theorem deleteTarget_ok {p : Nat} {s : GroupC κ ν} {l : List ν} (hp : s.heap[p]? = some (some l)) :
    deleteTarget p s = .ok () { s with heap := s.heap.set p none } := by simp [deleteTarget, hp]

theorem deleteTarget_mk {p : Nat} {ks : List κ} {vs : List Nat} {h : List (Option (List ν))} {l : List ν}
    (hp : h[p]? = some (some l)) : deleteTarget p (⟨ks, vs, h⟩ : GroupC κ ν) = .ok () ⟨ks, vs, h.set p none⟩ :=
  deleteTarget_ok hp

theorem set_same {h : List (Option (List ν))} {p : Nat} {l : List ν} (hp : h[p]? = some (some l)) :
    h.set p (some l) = h := by
  obtain ⟨hlt, he⟩ := List.getElem?_eq_some_iff.1 hp
  rw [← he, List.set_getElem_self]

theorem onTarget_get {p : Nat} {s : GroupC κ ν} {l : List ν} (hp : s.heap[p]? = some (some l)) :
    onTarget p Cpp.get s = .ok l s := by
  rw [onTarget_ok hp (Cpp.get_apply l), set_same hp]

theorem onTarget_count {p : Nat} {s : GroupC κ ν} {l : List ν} (hp : s.heap[p]? = some (some l)) :
    onTarget p SeqList.count s = .ok (l.length : Int) s := by
  rw [onTarget_ok hp (show SeqList.count l = .ok (l.length : Int) l from rfl), set_same hp]

theorem deleteAll_ok (ps : List Nat) {s : GroupC κ ν} (hnd : ps.Nodup)
    (hlive : ∀ p ∈ ps, ∃ l, s.heap[p]? = some (some l)) :
    ∃ h, deleteAll ps s = .ok () { s with heap := h } ∧ h.length = s.heap.length ∧
      (∀ p : Nat, h[p]? = if p ∈ ps then some none else s.heap[p]?) := by
  induction ps generalizing s with
  | nil => exact ⟨s.heap, rfl, rfl, fun p => by simp⟩
  | cons q qs ih =>
    obtain ⟨l, hl⟩ := hlive q (by simp)
    have hq := (List.getElem?_eq_some_iff.1 hl).1
    rw [List.nodup_cons] at hnd
    obtain ⟨h, e, hlen, hh⟩ := ih (s := { s with heap := s.heap.set q none }) hnd.2 (by
      intro p hp
      obtain ⟨l', hl'⟩ := hlive p (by simp [hp])
      refine ⟨l', ?_⟩
      have : q ≠ p := fun he => hnd.1 (he ▸ hp)
      simp only
      rw [List.getElem?_set_ne this]; exact hl')
    refine ⟨h, ?_, by simpa using hlen, ?_⟩
    · unfold deleteAll
      rw [Cpp.bind_ok (deleteTarget_ok hl)]
      exact e
    · intro p
      rw [hh p]
      by_cases h1 : p ∈ qs
      · simp [h1]
      · simp only [h1, if_false, List.mem_cons, or_false]
        by_cases h2 : p = q
        · subst h2; simp [hq]
        · rw [List.getElem?_set_ne (Ne.symm h2)]; simp [h2]

variable {F : Nat → Option (List ν)}

theorem clear_ok {ord : κ → κ → Ordering} {m : κ → List ν} {s : GroupC κ ν} (h : ModelsIn F ord m s) :
    ∃ hp, clear s = .ok true ⟨[], [], hp⟩ ∧ ∀ p : Nat, liveAt hp p = F p := by
  obtain ⟨vss, h1, h2⟩ := h
  obtain ⟨hp, e, _, hh⟩ := deleteAll_ok (κ := κ) s.values (s := s) h2.nodup (by
    intro p hp
    obtain ⟨i, hi⟩ := List.mem_iff_getElem?.1 hp
    have := (List.getElem?_eq_some_iff.1 hi).1
    exact ⟨_, h2.live i p _ hi (List.getElem?_eq_getElem (h2.length ▸ this))⟩)
  refine ⟨hp, ?_, ?_⟩
  · unfold clear
    rw [Cpp.bind_ok (Cpp.get_apply s), Cpp.bind_ok e]
    rfl
  · intro p
    by_cases hm : p ∈ s.values
    · rw [h2.own p hm]
      unfold liveAt
      rw [hh p, if_pos hm]; rfl
    · rw [← h2.frame p hm]
      exact liveAt_congr (by rw [hh p, if_neg hm])

theorem models_cleared {ord : κ → κ → Ordering} {hp : List (Option (List ν))}
    (h : ∀ p : Nat, liveAt hp p = F p) : ModelsIn F ord (fun _ => []) (⟨[], [], hp⟩ : GroupC κ ν) :=
  ⟨[], ⟨rfl, .nil, by simp, fun k => .inr ⟨by simp, rfl⟩⟩,
    ⟨rfl, by simp, .nil, fun p _ => h p, by simp⟩⟩

/-- a new group -/
theorem models_empty {ord : κ → κ → Ordering} : Models ord (fun _ => []) (empty : GroupC κ ν) :=
  models_cleared fun _ => by simp [liveAt]

section
variable {cmp : κ → κ → Option Ordering} {ord : κ → κ → Ordering} [Std.TransCmp ord]

/-- `IndexOf` on the keys, in terms of the multimap -/
theorem indexOf_cases (hcmp : KeyCmp cmp ord) {m : κ → List ν} {s : GroupC κ ν} {vss : List (List ν)}
    (h1 : GroupLists ord m s.keys vss) (h2 : HeapRepr F s.heap s.values vss) (k : κ) :
    (∃ (i p : Nat) (hi : i < s.keys.length), onKeys (SortedSeq.indexOf cmp k) s = .ok (i : Int) s ∧
      ord s.keys[i] k = .eq ∧ s.values[i]? = some p ∧ vss[i]? = some (m k) ∧ s.heap[p]? = some (some (m k)) ∧
      m k ≠ []) ∨
    (onKeys (SortedSeq.indexOf cmp k) s = .ok (-1) s ∧ (∀ x ∈ s.keys, ord x k ≠ .eq) ∧ m k = []) := by
  have hl1 := h1.length
  have hl2 := h2.length
  rcases SortedSeq.indexOf_spec hcmp.compares (strict_ascending h1.ascending) k with ⟨i, hi, e, heq⟩ | ⟨e, hne⟩
  · left
    rcases h1.entries k with ⟨j, k', a, b, c⟩ | ⟨h3, _⟩
    · have hij := strict_unique h1.ascending (List.getElem?_eq_getElem hi) a (ord_eq_trans heq (ord_eq_symm b))
      subst hij
      have hv : s.values[i]? = some (s.values[i]'(by omega)) := List.getElem?_eq_getElem _
      exact ⟨i, _, hi, onKeys_ok e, heq, hv, c, h2.live i _ _ hv c, h1.nonempty _ (List.mem_of_getElem? c)⟩
    · exact absurd heq (h3 _ (List.getElem_mem hi))
  · right
    refine ⟨onKeys_ok e, hne, ?_⟩
    rcases h1.entries k with ⟨j, k', a, b, c⟩ | ⟨_, h4⟩
    · exact absurd b (hne _ (List.mem_of_getElem? a))
    · exact h4

theorem values_get {s : GroupC κ ν} {i p : Nat} (h : s.values[i]? = some p) :
    onValues (SeqList.get (i : Int)) s = .ok p s := by
  obtain ⟨hi, rfl⟩ := List.getElem?_eq_some_iff.1 h
  exact onValues_ok (SeqList.get_ok hi)

theorem values_get_mk {ks : List κ} {vs : List Nat} {h : List (Option (List ν))} {i p : Nat}
    (he : vs[i]? = some p) :
    onValues (SeqList.get (i : Int)) (⟨ks, vs, h⟩ : GroupC κ ν) = .ok p ⟨ks, vs, h⟩ := values_get he

theorem GroupLists.put_old {m : κ → List ν} {ks : List κ} {vss : List (List ν)} (h : GroupLists ord m ks vss)
    {k : κ} {vs : List ν} (hvs : vs ≠ []) {p : Nat} (hp : p < ks.length) (he : ord ks[p] k = .eq) :
    GroupLists ord (groupPut ord m k vs) ks (vss.set p vs) := by
  rw [groupLists_iff] at h ⊢
  rw [toMap_put hvs]
  refine ⟨h.1.put_old hp he, ?_⟩
  intro x hx
  rcases List.mem_or_eq_of_mem_set hx with hx | rfl
  · exact h.2 x hx
  · exact hvs

theorem GroupLists.put_new {m : κ → List ν} {ks : List κ} {vss : List (List ν)} (h : GroupLists ord m ks vss)
    {k : κ} {vs : List ν} (hvs : vs ≠ []) {p : Nat} (hp : p ≤ ks.length) (hne : ∀ x ∈ ks, ord x k ≠ .eq)
    (hb : ∀ (j : Nat) (_ : j < p) (hj : j < ks.length), ord ks[j] k ≠ .gt)
    (ha : ∀ (j : Nat) (_ : p ≤ j) (hj : j < ks.length), ord ks[j] k ≠ .lt) :
    GroupLists ord (groupPut ord m k vs) (ks.take p ++ k :: ks.drop p) (vss.take p ++ vs :: vss.drop p) := by
  rw [groupLists_iff] at h ⊢
  rw [toMap_put hvs]
  refine ⟨h.1.put_new hp hne hb ha, ?_⟩
  intro x hx
  rw [List.mem_append, List.mem_cons] at hx
  rcases hx with hx | rfl | hx
  · exact h.2 x (List.mem_of_mem_take hx)
  · exact hvs
  · exact h.2 x (List.mem_of_mem_drop hx)

theorem GroupLists.erase {m : κ → List ν} {ks : List κ} {vss : List (List ν)} (h : GroupLists ord m ks vss)
    {k : κ} {p : Nat} (hp : p < ks.length) (he : ord ks[p] k = .eq) :
    GroupLists ord (groupPut ord m k []) (ks.take p ++ ks.drop (p + 1)) (vss.take p ++ vss.drop (p + 1)) := by
  rw [groupLists_iff] at h ⊢
  rw [toMap_erase]
  refine ⟨h.1.erase hp he, ?_⟩
  intro x hx
  rw [List.mem_append] at hx
  rcases hx with hx | hx
  · exact h.2 x (List.mem_of_mem_take hx)
  · exact h.2 x (List.mem_of_mem_drop hx)

theorem groupPut_absent {m : κ → List ν} {k : κ} {s : GroupC κ ν} {vss : List (List ν)}
    (h1 : GroupLists ord m s.keys vss) (hm : m k = []) : groupPut ord m k [] = m := by
  funext k'
  unfold groupPut
  split
  · next he =>
    rcases h1.entries k' with ⟨i, k2, a, b, c⟩ | ⟨_, h⟩
    · rcases h1.entries k with ⟨i2, k3, a2, b2, c2⟩ | ⟨h4, _⟩
      · exact absurd hm (h1.nonempty _ (List.mem_of_getElem? c2))
      · exact absurd (ord_eq_trans b (ord_eq_symm he)) (h4 _ (List.mem_of_getElem? a))
    · exact h.symm
  · rfl

theorem eraseP_findIdx? (f : ν → Bool) (l : List ν) :
    l.eraseP f = match l.findIdx? f with
      | some i => l.take i ++ l.drop (i + 1)
      | none => l := by
  induction l with
  | nil => rfl
  | cons x xs ih =>
    rw [List.eraseP_cons, List.findIdx?_cons]
    cases hf : f x with
    | true => simp
    | false =>
      simp only [Bool.false_eq_true, if_false, cond_false]
      rw [ih]
      cases xs.findIdx? f <;> simp

theorem seq_remove_ok (eq : ν → ν → Bool) (v : ν) (l : List ν) :
    SeqList.remove eq v l = .ok (l.any (fun x => eq x v)) (l.eraseP (fun x => eq x v)) := by
  rw [SeqList.remove_ok, eraseP_findIdx?]
  cases h : l.findIdx? (fun x => eq x v) with
  | none =>
    rw [List.findIdx?_eq_none_iff] at h
    have : l.any (fun x => eq x v) = false := by
      rw [List.any_eq_false]; intro x hx; simp [h x hx]
    rw [this]
  | some i =>
    rw [List.findIdx?_eq_some_iff_getElem] at h
    obtain ⟨hi, hp, _⟩ := h
    have h1 : l.any (fun x => eq x v) = true := List.any_eq_true.2 ⟨_, List.getElem_mem hi, hp⟩
    rw [h1]

omit [Std.TransCmp ord] in
theorem erase_set {β : Type} (l : List β) (i : Nat) (x : β) :
    (l.set i x).take i ++ (l.set i x).drop (i + 1) = l.take i ++ l.drop (i + 1) := by
  apply List.ext_getElem?
  intro j
  rw [getElem?_erase, getElem?_erase]
  split
  · rw [List.getElem?_set_ne (by omega)]
  · rw [List.getElem?_set_ne (by omega)]

/-- Exact behaviour of `Remove(key, value)`: the first matching value goes away; the result only tells whether the
key existed. -/
theorem remove_ok (hcmp : KeyCmp cmp ord) (eq : ν → ν → Bool) {m : κ → List ν} {s : GroupC κ ν}
    (h : ModelsIn F ord m s) (k : κ) (v : ν) :
    ∃ s', remove cmp eq k v s = .ok (!(m k).isEmpty) s' ∧
      ModelsIn F ord (groupPut ord m k ((m k).eraseP (fun x => eq x v))) s' := by
  obtain ⟨vss, h1, h2⟩ := h
  have hl1 := h1.length
  have hl2 := h2.length
  unfold remove
  rcases indexOf_cases hcmp h1 h2 k with ⟨i, p, hi, e, heq, hp, hvs, hh, hne⟩ | ⟨e, hne, hm⟩
  · rw [Cpp.bind_ok e, if_pos (by omega), Cpp.bind_ok (values_get hp),
      Cpp.bind_ok (onTarget_ok hh (seq_remove_ok eq v (m k)))]
    have hplt := (List.getElem?_eq_some_iff.1 hh).1
    have hflag : (!(m k).isEmpty) = true := by simp [hne]
    have hh2 : (s.heap.set p (some ((m k).eraseP (fun x => eq x v))))[p]? =
        some (some ((m k).eraseP (fun x => eq x v))) := by
      rw [List.getElem?_set_self hplt]
    rw [Cpp.bind_ok (onTarget_count hh2), hflag]
    by_cases hz : (m k).eraseP (fun x => eq x v) = []
    · rw [if_pos (by rw [hz]; rfl), Cpp.bind_ok (onKeys_mk (DictC.removeAt_seq hi)),
        Cpp.bind_ok (onValues_ok (SeqList.removeAt_ok (by simp only; omega))),
        Cpp.bind_ok (deleteTarget_ok hh2)]
      refine ⟨_, rfl, _, ?_, (h2.update hp _).free hp⟩
      rw [hz]
      rw [erase_set]
      exact GroupLists.erase h1 hi heq
    · rw [if_neg (fun h => hz (List.length_eq_zero_iff.1 (by omega)))]
      exact ⟨_, rfl, _, GroupLists.put_old h1 hz hi heq, h2.update hp _⟩
  · rw [Cpp.bind_ok e, if_neg (by simp), hm]
    refine ⟨s, rfl, ?_⟩
    rw [List.eraseP_nil, groupPut_absent h1 hm]
    exact ⟨vss, h1, h2⟩

theorem step_refines (hcmp : KeyCmp cmp ord) (eq : ν → ν → Bool) {m : κ → List ν} {s : GroupC κ ν}
    (h : ModelsIn F ord m s) (op : GroupOp κ ν) :
    ∃ s', step cmp eq s op = some (s', (groupStep ord eq m op).2) ∧ ModelsIn F ord (groupStep ord eq m op).1 s' := by
  have h0 := h
  obtain ⟨vss, h1, h2⟩ := h
  have hl1 := h1.length
  have hl2 := h2.length
  cases op with
  | add k v =>
    simp only [step, groupStep]
    unfold add
    rcases indexOf_cases hcmp h1 h2 k with ⟨i, p, hi, e, heq, hp, hvs, hh, hne⟩ | ⟨e, hne, hm⟩
    · rw [Cpp.bind_ok e, if_neg (by omega), Cpp.bind_ok (values_get hp),
        Cpp.bind_ok (onTarget_ok hh (SeqList.add_ok (m k) v))]
      exact ⟨_, rfl, _, GroupLists.put_old h1 (by simp) hi heq, h2.update hp _⟩
    · obtain ⟨q, hq, e2, hb, ha⟩ := SortedSeq.add_spec hcmp.compares (strict_ascending h1.ascending) k
      rw [Cpp.bind_ok e, if_pos rfl]
      have e1 : (newTarget : Cpp (GroupC κ ν) Nat) s = .ok s.heap.length { s with heap := s.heap ++ [some []] } := rfl
      rw [Cpp.bind_ok e1, Cpp.bind_ok (onKeys_mk e2),
        Cpp.bind_ok (onValues_ok (SeqList.insert_ok s.heap.length (by simp only; omega))),
        Cpp.bind_ok (onTarget_ok (l := []) (by simp) (SeqList.add_ok [] v))]
      refine ⟨_, rfl, vss.take q ++ [v] :: vss.drop q, ?_, ?_⟩
      · rw [hm]; exact GroupLists.put_new h1 (by simp) hq hne hb ha
      · have := h2.alloc q (by omega) [v]
        simpa using this
  | removeKey k =>
    simp only [step, groupStep]
    unfold removeKey
    rcases indexOf_cases hcmp h1 h2 k with ⟨i, p, hi, e, heq, hp, hvs, hh, hne⟩ | ⟨e, hne, hm⟩
    · rw [Cpp.bind_ok e, if_pos (by omega), Cpp.bind_ok (onKeys_ok (DictC.removeAt_seq hi)),
        Cpp.bind_ok (values_get_mk hp),
        Cpp.bind_ok (onValues_ok (SeqList.removeAt_ok (by simp only; omega))),
        Cpp.bind_ok (deleteTarget_mk hh)]
      have hflag : (!(m k).isEmpty) = true := by simp [hne]
      rw [hflag]
      exact ⟨_, rfl, _, GroupLists.erase h1 hi heq, h2.free hp⟩
    · rw [Cpp.bind_ok e, if_neg (by simp), groupPut_absent h1 hm, hm]
      exact ⟨_, rfl, h0⟩
  | remove k v =>
    simp only [step, groupStep]
    obtain ⟨s', e, h'⟩ := remove_ok hcmp eq h0 k v
    rw [e]
    exact ⟨s', rfl, h'⟩
  | clear =>
    simp only [step, groupStep]
    obtain ⟨hp, e, hh⟩ := clear_ok h0
    rw [e]
    exact ⟨_, rfl, models_cleared hh⟩
  | get k =>
    simp only [step, groupStep]
    unfold get
    rcases indexOf_cases hcmp h1 h2 k with ⟨i, p, hi, e, heq, hp, hvs, hh, hne⟩ | ⟨e, hne, hm⟩
    · rw [Cpp.bind_ok e, Cpp.bind_ok (values_get hp), onTarget_get hh]
      exact ⟨s, by simp [observe, hne], h0⟩
    · rw [Cpp.bind_ok e, Cpp.bind_err (onValues_err (SeqList.get_err (by omega)))]
      exact ⟨s, by simp [observe, hm], h0⟩
  | containsKey k =>
    simp only [step, groupStep]
    unfold containsKey
    rcases DictC.contains_spec hcmp (strict_ascending h1.ascending) k with ⟨e, x, hx, he⟩ | ⟨e, hne⟩
    · rw [onKeys_ok e]
      rcases h1.entries k with ⟨j, k', a, b, c⟩ | ⟨h3, _⟩
      · have := h1.nonempty _ (List.mem_of_getElem? c)
        exact ⟨s, by simp [observe, this], h0⟩
      · exact absurd he (h3 x hx)
    · rw [onKeys_ok e]
      rcases h1.entries k with ⟨j, k', a, b, c⟩ | ⟨_, h4⟩
      · exact absurd b (hne _ (List.mem_of_getElem? a))
      · exact ⟨s, by simp [observe, h4], h0⟩
  | contains k v =>
    simp only [step, groupStep]
    unfold contains
    rcases indexOf_cases hcmp h1 h2 k with ⟨i, p, hi, e, heq, hp, hvs, hh, hne⟩ | ⟨e, hne, hm⟩
    · rw [Cpp.bind_ok e, if_pos (by omega), Cpp.bind_ok (values_get hp),
        onTarget_ok hh (SeqList.contains_ok eq v (m k)), set_same hh]
      exact ⟨s, rfl, h0⟩
    · rw [Cpp.bind_ok e, if_neg (by simp), hm]
      exact ⟨s, rfl, h0⟩

theorem run_refines (hcmp : KeyCmp cmp ord) (eq : ν → ν → Bool) (ops : List (GroupOp κ ν)) {m : κ → List ν}
    {s : GroupC κ ν} (h : ModelsIn F ord m s) :
    ∃ s', run cmp eq s ops = some (s', (groupRun ord eq m ops).2) ∧ ModelsIn F ord (groupRun ord eq m ops).1 s' := by
  induction ops generalizing m s with
  | nil => exact ⟨s, rfl, h⟩
  | cons op ops ih =>
    obtain ⟨s1, e1, h1⟩ := step_refines hcmp eq h op
    obtain ⟨s2, e2, h2⟩ := ih h1
    exact ⟨s2, by simp [run, e1, e2, groupRun], h2⟩

theorem getByIndex_ok {m : κ → List ν} {s : GroupC κ ν} {vss : List (List ν)}
    (h1 : GroupLists ord m s.keys vss) (h2 : HeapRepr F s.heap s.values vss) {i : Nat} (hi : i < s.keys.length) :
    ∃ hi' : i < vss.length, getByIndex (i : Int) s = .ok vss[i] s ∧ vss[i] = m s.keys[i] := by
  have hl1 := h1.length
  have hl2 := h2.length
  refine ⟨by omega, ?_, ?_⟩
  · have hv : s.values[i]? = some (s.values[i]'(by omega)) := List.getElem?_eq_getElem _
    unfold getByIndex
    rw [Cpp.bind_ok (values_get hv)]
    exact onTarget_get (h2.live i _ _ hv (List.getElem?_eq_getElem (by omega)))
  · rcases h1.entries s.keys[i] with ⟨j, k', a, b, c⟩ | ⟨h3, _⟩
    · have := strict_unique h1.ascending a (List.getElem?_eq_getElem hi) b
      subst this
      exact (List.getElem?_eq_some_iff.1 c).2
    · exact absurd (Std.ReflCmp.compare_self (cmp := ord)) (h3 _ (List.getElem_mem hi))

omit [Std.TransCmp ord] in
theorem getByIndex_err {s : GroupC κ ν} {i : Int} (hlen : s.values.length = s.keys.length)
    (hi : ¬ (0 ≤ i ∧ i < s.keys.length)) : getByIndex i s = .err s := by
  unfold getByIndex
  rw [Cpp.bind_err (onValues_err (SeqList.get_err (by omega)))]

end
end GroupC

/-! ### the merge loop of `GroupInnerJoin` -/
section join
variable {α β : Type} {cmp : κ → κ → Option Ordering} {ord : κ → κ → Ordering} [Std.TransCmp ord]

theorem listAt_ok {m : κ → List α} {s : GroupC κ α} (h : GroupC.Models ord m s) {i : Nat}
    (hi : i < s.keys.length) : s.listAt i = some (m s.keys[i]) := by
  obtain ⟨vss, h1, h2⟩ := h
  obtain ⟨hi', e, he⟩ := GroupC.getByIndex_ok h1 h2 hi
  unfold GroupC.listAt
  rw [e, ← he]

theorem multimap_congr {m : κ → List α} {s : GroupC κ α} (h : GroupC.Models ord m s) {a b : κ}
    (he : ord a b = .eq) : m a = m b := by
  obtain ⟨vss, h1, _⟩ := h
  rcases h1.entries a with ⟨i, k, a1, b1, c1⟩ | ⟨n1, z1⟩
  · rcases h1.entries b with ⟨j, k2, a2, b2, c2⟩ | ⟨n2, z2⟩
    · have := strict_unique h1.ascending a1 a2 (ord_eq_trans b1 (ord_eq_trans he (ord_eq_symm b2)))
      subst this
      rw [c1] at c2; exact Option.some.inj c2
    · exact absurd (ord_eq_trans b1 he) (n2 k (List.mem_of_getElem? a1))
  · rcases h1.entries b with ⟨j, k2, a2, b2, c2⟩ | ⟨n2, z2⟩
    · exact absurd (ord_eq_trans b2 (ord_eq_symm he)) (n1 k2 (List.mem_of_getElem? a2))
    · rw [z1, z2]

omit [Std.TransCmp ord] in
theorem multimap_key {m : κ → List α} {s : GroupC κ α} (h : GroupC.Models ord m s) (k : κ) :
    m k ≠ [] ↔ ∃ x ∈ s.keys, ord x k = .eq := by
  obtain ⟨vss, h1, _⟩ := h
  rcases h1.entries k with ⟨i, k', a, b, c⟩ | ⟨n, z⟩
  · exact ⟨fun _ => ⟨k', List.mem_of_getElem? a, b⟩, fun _ => h1.nonempty _ (List.mem_of_getElem? c)⟩
  · exact ⟨fun h => absurd z h, fun ⟨x, hx, he⟩ => absurd he (n x hx)⟩

theorem mem_drop_iff {l : List κ} {i : Nat} (hi : i < l.length) (k : κ) :
    k ∈ l.drop i ↔ k = l[i] ∨ k ∈ l.drop (i + 1) := by
  rw [List.drop_eq_getElem_cons hi, List.mem_cons]

omit [Std.TransCmp ord] in
theorem lt_of_mem_drop {l : List κ} (h : l.Pairwise (fun a b => ord a b = .lt)) {i : Nat} (hi : i < l.length)
    {k : κ} (hk : k ∈ l.drop (i + 1)) : ord l[i] k = .lt := by
  obtain ⟨j, hj, rfl⟩ := List.mem_iff_getElem.1 hk
  simp at hj
  rw [List.getElem_drop]
  exact (List.pairwise_iff_getElem.1 h) i (i + 1 + j) hi (by omega) (by omega)

/-- What is still to be called from positions `i`, `j` on. -/
def DueFrom (m1 : κ → List α) (ks1 : List κ) (m2 : κ → List β) (ks2 : List κ) (i j : Nat) :
    JoinEvent κ α β → Prop
  | .accept k as bs => k ∈ ks1.drop i ∧ as = m1 k ∧ bs = m2 k ∧ bs ≠ []
  | .discardFirst k as => k ∈ ks1.drop i ∧ as = m1 k ∧ m2 k = []
  | .discardSecond k bs => k ∈ ks2.drop j ∧ bs = m2 k ∧ m1 k = []

theorem mem_take_or_drop {l : List κ} {x : κ} (h : x ∈ l) (i : Nat) : x ∈ l.take i ∨ x ∈ l.drop i := by
  rw [← List.take_append_drop i l, List.mem_append] at h
  exact h

theorem mem_take_succ {l : List κ} {i : Nat} (hi : i < l.length) {x : κ} (h : x ∈ l.take (i + 1)) :
    x ∈ l.take i ∨ x = l[i] := by
  rw [List.take_add_one, List.getElem?_eq_getElem hi, List.mem_append] at h
  rcases h with h | h
  · exact .inl h
  · exact .inr (by simpa using h)

/-- a key below everything left in the other group is not in the other group -/
theorem absent_of_min {m2 : κ → List β} {s2 : GroupC κ β} (h2 : GroupC.Models ord m2 s2) {j : Nat} {k : κ}
    (hb : ∀ y ∈ s2.keys.take j, ord y k = .lt) (hmin : ∀ y ∈ s2.keys.drop j, ord k y = .lt) : m2 k = [] := by
  apply Classical.byContradiction
  intro hne
  obtain ⟨y, hy, he⟩ := (multimap_key h2 k).1 hne
  rcases mem_take_or_drop hy j with hy | hy
  · rw [hb y hy] at he; cases he
  · have := hmin y hy
    rw [ord_eq_symm he] at this; cases this

theorem joinLoop_spec (hcmp : KeyCmp cmp ord) {m1 : κ → List α} {m2 : κ → List β} {s1 : GroupC κ α}
    {s2 : GroupC κ β} (h1 : GroupC.Models ord m1 s1) (h2 : GroupC.Models ord m2 s2) (i j : Nat)
    (ha : ∀ x ∈ s1.keys.drop i, ∀ y ∈ s2.keys.take j, ord y x = .lt)
    (hb : ∀ x ∈ s2.keys.drop j, ∀ y ∈ s1.keys.take i, ord y x = .lt) :
    ∃ es, joinLoop cmp s1 s2 i j = some es ∧ es.Pairwise (fun a b => ord a.key b.key = .lt) ∧
      ∀ e, e ∈ es ↔ DueFrom m1 s1.keys m2 s2.keys i j e := by
  have hs1 : s1.keys.Pairwise (fun a b => ord a b = .lt) := h1.elim fun _ h => h.1.ascending
  have hs2 : s2.keys.Pairwise (fun a b => ord a b = .lt) := h2.elim fun _ h => h.1.ascending
  -- the call `discardFirst`
  have stepFirst : ∀ (hi : i < s1.keys.length) (es : List (JoinEvent κ α β)),
      (∀ y ∈ s2.keys.drop j, ord s1.keys[i] y = .lt) →
      es.Pairwise (fun a b => ord a.key b.key = .lt) →
      (∀ e, e ∈ es ↔ DueFrom m1 s1.keys m2 s2.keys (i + 1) j e) →
      (JoinEvent.discardFirst s1.keys[i] (m1 s1.keys[i]) :: es).Pairwise (fun a b => ord a.key b.key = .lt) ∧
      ∀ e, e ∈ JoinEvent.discardFirst s1.keys[i] (m1 s1.keys[i]) :: es ↔
        DueFrom m1 s1.keys m2 s2.keys i j e := by
    intro hi es hmin hp hdue
    have hz : m2 s1.keys[i] = [] :=
      absent_of_min h2 (ha _ ((mem_drop_iff hi _).2 (.inl rfl))) hmin
    constructor
    · refine List.pairwise_cons.2 ⟨?_, hp⟩
      intro e he
      have := (hdue e).1 he
      cases e with
      | accept k as bs => exact lt_of_mem_drop hs1 hi this.1
      | discardFirst k as => exact lt_of_mem_drop hs1 hi this.1
      | discardSecond k bs => exact hmin k this.1
    · intro e
      rw [List.mem_cons, hdue e]
      cases e with
      | accept k as bs =>
        simp only [DueFrom, mem_drop_iff hi, reduceCtorEq, false_or]
        constructor
        · rintro ⟨a, b⟩; exact ⟨.inr a, b⟩
        · rintro ⟨rfl | a, b, c, d⟩
          · exact absurd (c.trans hz) d
          · exact ⟨a, b, c, d⟩
      | discardFirst k as =>
        simp only [DueFrom, mem_drop_iff hi, JoinEvent.discardFirst.injEq]
        constructor
        · rintro (⟨rfl, rfl⟩ | ⟨a, b⟩)
          · exact ⟨.inl rfl, rfl, hz⟩
          · exact ⟨.inr a, b⟩
        · rintro ⟨rfl | a, b, c⟩
          · exact .inl ⟨rfl, b⟩
          · exact .inr ⟨a, b, c⟩
      | discardSecond k bs => simp only [DueFrom, reduceCtorEq, false_or]
  -- the call `discardSecond`
  have stepSecond : ∀ (hj : j < s2.keys.length) (es : List (JoinEvent κ α β)),
      (∀ y ∈ s1.keys.drop i, ord s2.keys[j] y = .lt) →
      es.Pairwise (fun a b => ord a.key b.key = .lt) →
      (∀ e, e ∈ es ↔ DueFrom m1 s1.keys m2 s2.keys i (j + 1) e) →
      (JoinEvent.discardSecond s2.keys[j] (m2 s2.keys[j]) :: es).Pairwise (fun a b => ord a.key b.key = .lt) ∧
      ∀ e, e ∈ JoinEvent.discardSecond s2.keys[j] (m2 s2.keys[j]) :: es ↔
        DueFrom m1 s1.keys m2 s2.keys i j e := by
    intro hj es hmin hp hdue
    have hz : m1 s2.keys[j] = [] :=
      absent_of_min h1 (hb _ ((mem_drop_iff hj _).2 (.inl rfl))) hmin
    constructor
    · refine List.pairwise_cons.2 ⟨?_, hp⟩
      intro e he
      have := (hdue e).1 he
      cases e with
      | accept k as bs => exact hmin k this.1
      | discardFirst k as => exact hmin k this.1
      | discardSecond k bs => exact lt_of_mem_drop hs2 hj this.1
    · intro e
      rw [List.mem_cons, hdue e]
      cases e with
      | accept k as bs => simp only [DueFrom, reduceCtorEq, false_or]
      | discardFirst k as => simp only [DueFrom, reduceCtorEq, false_or]
      | discardSecond k bs =>
        simp only [DueFrom, mem_drop_iff hj, JoinEvent.discardSecond.injEq]
        constructor
        · rintro (⟨rfl, rfl⟩ | ⟨a, b⟩)
          · exact ⟨.inl rfl, rfl, hz⟩
          · exact ⟨.inr a, b⟩
        · rintro ⟨rfl | a, b, c⟩
          · exact .inl ⟨rfl, b⟩
          · exact .inr ⟨a, b, c⟩
  -- the bounds kept by a `discardFirst` / `discardSecond` step
  have nextFirst : ∀ (hi : i < s1.keys.length), (∀ y ∈ s2.keys.drop j, ord s1.keys[i] y = .lt) →
      ∃ es, joinLoop cmp s1 s2 (i + 1) j = some es ∧ es.Pairwise (fun a b => ord a.key b.key = .lt) ∧
        ∀ e, e ∈ es ↔ DueFrom m1 s1.keys m2 s2.keys (i + 1) j e := by
    intro hi hmin
    refine joinLoop_spec hcmp h1 h2 (i + 1) j ?_ ?_
    · exact fun x hx y hy => ha x ((mem_drop_iff hi x).2 (.inr hx)) y hy
    · intro x hx y hy
      rcases mem_take_succ hi hy with hy | rfl
      · exact hb x hx y hy
      · exact hmin x hx
  have nextSecond : ∀ (hj : j < s2.keys.length), (∀ y ∈ s1.keys.drop i, ord s2.keys[j] y = .lt) →
      ∃ es, joinLoop cmp s1 s2 i (j + 1) = some es ∧ es.Pairwise (fun a b => ord a.key b.key = .lt) ∧
        ∀ e, e ∈ es ↔ DueFrom m1 s1.keys m2 s2.keys i (j + 1) e := by
    intro hj hmin
    refine joinLoop_spec hcmp h1 h2 i (j + 1) ?_ ?_
    · intro x hx y hy
      rcases mem_take_succ hj hy with hy | rfl
      · exact ha x hx y hy
      · exact hmin x hx
    · exact fun x hx y hy => hb x ((mem_drop_iff hj x).2 (.inr hx)) y hy
  rw [joinLoop]
  by_cases hi : i < s1.keys.length
  · rw [dif_pos hi, List.getElem?_eq_getElem hi, listAt_ok h1 hi]
    by_cases hj : j < s2.keys.length
    · simp only [Option.bind_eq_bind, Option.bind_some]
      rw [dif_pos hj, List.getElem?_eq_getElem hj, listAt_ok h2 hj]
      simp only [Option.pure_def, Option.bind_some, hcmp _ _, Option.some.injEq]
      cases hc : ord s1.keys[i] s2.keys[j] with
      | lt =>
        have hmin : ∀ y ∈ s2.keys.drop j, ord s1.keys[i] y = .lt := by
          intro y hy
          rcases (mem_drop_iff hj y).1 hy with rfl | hy
          · exact hc
          · exact Std.TransCmp.lt_trans hc (lt_of_mem_drop hs2 hj hy)
        obtain ⟨es, e, hp, hd⟩ := nextFirst hi hmin
        rw [if_pos rfl, e]
        exact ⟨_, rfl, stepFirst hi es hmin hp hd⟩
      | gt =>
        have hc' : ord s2.keys[j] s1.keys[i] = .lt := Std.OrientedCmp.gt_iff_lt.1 hc
        have hmin : ∀ y ∈ s1.keys.drop i, ord s2.keys[j] y = .lt := by
          intro y hy
          rcases (mem_drop_iff hi y).1 hy with rfl | hy
          · exact hc'
          · exact Std.TransCmp.lt_trans hc' (lt_of_mem_drop hs1 hi hy)
        obtain ⟨es, e, hp, hd⟩ := nextSecond hj hmin
        rw [if_neg (by simp), if_pos rfl, e]
        exact ⟨_, rfl, stepSecond hj es hmin hp hd⟩
      | eq =>
        have hm1 : m1 s1.keys[i] = m1 s2.keys[j] := multimap_congr h1 hc
        have hm2 : m2 s1.keys[i] = m2 s2.keys[j] := multimap_congr h2 hc
        have hn1 : m1 s1.keys[i] ≠ [] :=
          (multimap_key h1 _).2 ⟨_, List.getElem_mem hi, Std.ReflCmp.compare_self (cmp := ord)⟩
        have hn2 : m2 s2.keys[j] ≠ [] :=
          (multimap_key h2 _).2 ⟨_, List.getElem_mem hj, Std.ReflCmp.compare_self (cmp := ord)⟩
        have hc' := ord_eq_symm hc
        have lt1 : ∀ y ∈ s1.keys.drop (i + 1), ord s2.keys[j] y = .lt := fun y hy =>
          Std.TransCmp.lt_of_eq_of_lt hc' (lt_of_mem_drop hs1 hi hy)
        have lt2 : ∀ y ∈ s2.keys.drop (j + 1), ord s1.keys[i] y = .lt := fun y hy =>
          Std.TransCmp.lt_of_eq_of_lt hc (lt_of_mem_drop hs2 hj hy)
        obtain ⟨es, e, hp, hd⟩ := joinLoop_spec hcmp h1 h2 (i + 1) (j + 1)
          (by
            intro x hx y hy
            rcases mem_take_succ hj hy with hy | rfl
            · exact ha x ((mem_drop_iff hi x).2 (.inr hx)) y hy
            · exact lt1 x hx)
          (by
            intro x hx y hy
            rcases mem_take_succ hi hy with hy | rfl
            · exact hb x ((mem_drop_iff hj x).2 (.inr hx)) y hy
            · exact lt2 x hx)
        rw [if_neg (by simp), if_neg (by simp), e]
        refine ⟨_, rfl, List.pairwise_cons.2 ⟨?_, hp⟩, ?_⟩
        · intro e he
          have := (hd e).1 he
          cases e with
          | accept k as bs => exact lt_of_mem_drop hs1 hi this.1
          | discardFirst k as => exact lt_of_mem_drop hs1 hi this.1
          | discardSecond k bs => exact lt2 k this.1
        · intro e
          rw [List.mem_cons, hd e]
          cases e with
          | accept k as bs =>
            simp only [DueFrom, mem_drop_iff hi, JoinEvent.accept.injEq]
            constructor
            · rintro (⟨rfl, rfl, rfl⟩ | ⟨a, b⟩)
              · exact ⟨.inl rfl, rfl, hm2.symm, hn2⟩
              · exact ⟨.inr a, b⟩
            · rintro ⟨rfl | a, b, c, d⟩
              · exact .inl ⟨rfl, b, c.trans hm2⟩
              · exact .inr ⟨a, b, c, d⟩
          | discardFirst k as =>
            simp only [DueFrom, mem_drop_iff hi, reduceCtorEq, false_or]
            constructor
            · rintro ⟨a, b⟩; exact ⟨.inr a, b⟩
            · rintro ⟨rfl | a, b, c⟩
              · exact absurd (hm2.symm.trans c) hn2
              · exact ⟨a, b, c⟩
          | discardSecond k bs =>
            simp only [DueFrom, mem_drop_iff hj, reduceCtorEq, false_or]
            constructor
            · rintro ⟨a, b⟩; exact ⟨.inr a, b⟩
            · rintro ⟨rfl | a, b, c⟩
              · exact absurd (hm1.trans c) hn1
              · exact ⟨a, b, c⟩
    · simp only [Option.bind_eq_bind, Option.bind_some]
      rw [dif_neg hj]
      have hmin : ∀ y ∈ s2.keys.drop j, ord s1.keys[i] y = .lt := by
        rw [List.drop_eq_nil_iff.2 (by omega)]; intro y hy; cases hy
      obtain ⟨es, e, hp, hd⟩ := nextFirst hi hmin
      simp only [Option.pure_def, Option.bind_some, e]
      exact ⟨_, rfl, stepFirst hi es hmin hp hd⟩
  · rw [dif_neg hi]
    by_cases hj : j < s2.keys.length
    · rw [dif_pos hj, List.getElem?_eq_getElem hj, listAt_ok h2 hj]
      have hmin : ∀ y ∈ s1.keys.drop i, ord s2.keys[j] y = .lt := by
        rw [List.drop_eq_nil_iff.2 (by omega)]; intro y hy; cases hy
      obtain ⟨es, e, hp, hd⟩ := nextSecond hj hmin
      simp only [Option.pure_def, Option.bind_eq_bind, Option.bind_some, e]
      exact ⟨_, rfl, stepSecond hj es hmin hp hd⟩
    · rw [dif_neg hj]
      refine ⟨[], rfl, .nil, ?_⟩
      intro e
      cases e <;> simp [DueFrom, List.drop_eq_nil_iff.2 (show s1.keys.length ≤ i by omega),
        List.drop_eq_nil_iff.2 (show s2.keys.length ≤ j by omega)]
termination_by (s1.keys.length - i) + (s2.keys.length - j)

end join
end Vlpp
