import Verif.Model.DictC
import Verif.Lemmas.SortedListC
import Verif.Lemmas.SeqList

set_option autoImplicit false
namespace Vlpp
variable {κ ν : Type}
open Spec

/-- total comparison of keys -/
def KeyCmp (cmp : κ → κ → Option Ordering) (ord : κ → κ → Ordering) : Prop := ∀ x k, cmp x k = some (ord x k)

theorem KeyCmp.compares {cmp : κ → κ → Option Ordering} {ord : κ → κ → Ordering} (h : KeyCmp cmp ord) :
    SortedSeq.Compares cmp ord id := h

theorem strict_ascending {ord : κ → κ → Ordering} {ks : List κ} (h : ks.Pairwise (fun a b => ord a b = .lt)) :
    Ascending ord id ks := h.imp (fun h => by simp [h])

theorem getElem?_insert (xs : List κ) (p : Nat) (v : κ) (hp : p ≤ xs.length) (i : Nat) :
    (xs.take p ++ v :: xs.drop p)[i]? = if i < p then xs[i]? else if i = p then some v else xs[i - 1]? :=
  ListC.take_cons_drop_getElem? xs p v hp i

theorem getElem?_erase (xs : List κ) (p i : Nat) :
    (xs.take p ++ xs.drop (p + 1))[i]? = if i < p then xs[i]? else xs[i + 1]? := by
  by_cases hp : p ≤ xs.length
  · rw [List.getElem?_append]
    have hl : (xs.take p).length = p := by simp; omega
    rw [hl]
    split
    · rw [List.getElem?_take_of_lt (by assumption)]
    · rw [List.getElem?_drop]; congr 1; omega
  · rw [List.take_of_length_le (by omega), List.drop_eq_nil_iff.2 (by omega), List.append_nil]
    split
    · rfl
    · rw [List.getElem?_eq_none (by omega), List.getElem?_eq_none (by omega)]

section
variable {ord : κ → κ → Ordering} [Std.TransCmp ord]

theorem ord_eq_trans {a b c : κ} (h1 : ord a b = .eq) (h2 : ord b c = .eq) : ord a c = .eq :=
  Std.TransCmp.eq_trans h1 h2

theorem ord_eq_symm {a b : κ} (h1 : ord a b = .eq) : ord b a = .eq := Std.OrientedCmp.eq_symm h1

omit [Std.TransCmp ord] in
theorem Spec.Lists.empty : Lists ord (fun _ => none : κ → Option ν) [] [] :=
  ⟨rfl, .nil, fun k v => by simp⟩

theorem strict_insert {ks : List κ} {k : κ} {p : Nat} (h : ks.Pairwise (fun a b => ord a b = .lt))
    (hp : p ≤ ks.length) (hne : ∀ x ∈ ks, ord x k ≠ .eq)
    (hb : ∀ (j : Nat) (_ : j < p) (hj : j < ks.length), ord ks[j] k ≠ .gt)
    (ha : ∀ (j : Nat) (_ : p ≤ j) (hj : j < ks.length), ord ks[j] k ≠ .lt) :
    (ks.take p ++ k :: ks.drop p).Pairwise (fun a b => ord a b = .lt) := by
  rw [List.pairwise_append, List.pairwise_cons]
  refine ⟨h.sublist (List.take_sublist _ _), ⟨?_, h.sublist (List.drop_sublist _ _)⟩, ?_⟩
  · intro x hx
    obtain ⟨j, hj, rfl⟩ := List.mem_iff_getElem.1 hx
    simp at hj
    rw [List.getElem_drop]
    have h1 := ha (p + j) (by omega) (by omega)
    have h2 := hne _ (List.getElem_mem (show p + j < ks.length by omega))
    have h3 : ord ks[p + j] k = .gt := by
      cases hc : ord ks[p + j] k <;> simp_all
    rwa [Std.OrientedCmp.gt_iff_lt] at h3
  · intro a ha' b hb'
    obtain ⟨j, hj, rfl⟩ := List.mem_iff_getElem.1 ha'
    simp at hj
    rw [List.getElem_take]
    rcases List.mem_cons.1 hb' with rfl | hb'
    · have h1 := hb j (by omega) (by omega)
      have h2 := hne _ (List.getElem_mem (show j < ks.length by omega))
      cases hc : ord ks[j] b <;> simp_all
    · obtain ⟨m, hm, rfl⟩ := List.mem_iff_getElem.1 hb'
      simp at hm
      rw [List.getElem_drop]
      exact (List.pairwise_iff_getElem.1 h) j (p + m) (by omega) (by omega) (by omega)

/-- two entries with equal keys are the same entry -/
theorem strict_unique {ks : List κ} (h : ks.Pairwise (fun a b => ord a b = .lt)) {i j : Nat} {a b : κ}
    (hi : ks[i]? = some a) (hj : ks[j]? = some b) (he : ord a b = .eq) : i = j := by
  obtain ⟨hi', rfl⟩ := List.getElem?_eq_some_iff.1 hi
  obtain ⟨hj', rfl⟩ := List.getElem?_eq_some_iff.1 hj
  rcases Nat.lt_trichotomy i j with hlt | heq | hgt
  · have := (List.pairwise_iff_getElem.1 h) i j hi' hj' hlt
    rw [he] at this; cases this
  · exact heq
  · have := (List.pairwise_iff_getElem.1 h) j i hj' hi' hgt
    rw [ord_eq_symm he] at this; cases this

omit [Std.TransCmp ord] in
theorem Spec.Lists.isSome_iff {m : κ → Option ν} {ks : List κ} {vs : List ν} (h : Lists ord m ks vs) (k : κ) :
    (m k).isSome ↔ ∃ x ∈ ks, ord x k = .eq := by
  constructor
  · intro hs
    obtain ⟨v, hv⟩ := Option.isSome_iff_exists.1 hs
    obtain ⟨i, k', hk, he, _⟩ := (h.entries k v).1 hv
    exact ⟨k', List.mem_of_getElem? hk, he⟩
  · intro ⟨x, hx, he⟩
    obtain ⟨i, hi, rfl⟩ := List.mem_iff_getElem.1 hx
    have hv : i < vs.length := by rw [← h.length]; exact hi
    rw [(h.entries k vs[i]).2 ⟨i, ks[i], List.getElem?_eq_getElem hi, he, List.getElem?_eq_getElem hv⟩]
    rfl

theorem Spec.Lists.put_new {m : κ → Option ν} {ks : List κ} {vs : List ν} (h : Lists ord m ks vs) {k : κ} {v : ν}
    {p : Nat} (hp : p ≤ ks.length) (hne : ∀ x ∈ ks, ord x k ≠ .eq)
    (hb : ∀ (j : Nat) (_ : j < p) (hj : j < ks.length), ord ks[j] k ≠ .gt)
    (ha : ∀ (j : Nat) (_ : p ≤ j) (hj : j < ks.length), ord ks[j] k ≠ .lt) :
    Lists ord (mapPut ord m k v) (ks.take p ++ k :: ks.drop p) (vs.take p ++ v :: vs.drop p) := by
  have hl := h.length
  refine ⟨by simp; omega, strict_insert h.ascending hp hne hb ha, ?_⟩
  intro k1 v1
  unfold mapPut
  constructor
  · intro hm
    split at hm
    · next he =>
      cases hm
      refine ⟨p, k, ?_, he, ?_⟩
      · rw [getElem?_insert ks p k hp]; simp
      · rw [getElem?_insert vs p v (by omega)]; simp
    · obtain ⟨i, k', h1, h2, h3⟩ := (h.entries k1 v1).1 hm
      by_cases hip : i < p
      · refine ⟨i, k', ?_, h2, ?_⟩
        · rw [getElem?_insert ks p k hp, if_pos hip]; exact h1
        · rw [getElem?_insert vs p v (by omega), if_pos hip]; exact h3
      · refine ⟨i + 1, k', ?_, h2, ?_⟩
        · rw [getElem?_insert ks p k hp, if_neg (by omega), if_neg (by omega)]; exact h1
        · rw [getElem?_insert vs p v (by omega), if_neg (by omega), if_neg (by omega)]; exact h3
  · intro ⟨i, k', h1, h2, h3⟩
    rw [getElem?_insert ks p k hp] at h1
    rw [getElem?_insert vs p v (by omega)] at h3
    by_cases hip : i = p
    · subst hip
      rw [if_neg (by omega), if_pos rfl] at h1 h3
      cases h1; cases h3
      rw [if_pos h2]
    · have hkey : k' ∈ ks := by
        by_cases hlt : i < p
        · rw [if_pos hlt] at h1; exact List.mem_of_getElem? h1
        · rw [if_neg hlt, if_neg hip] at h1; exact List.mem_of_getElem? h1
      have hnk : ord k k1 ≠ .eq := fun he => hne k' hkey (ord_eq_trans h2 (ord_eq_symm he))
      rw [if_neg hnk]
      by_cases hlt : i < p
      · rw [if_pos hlt] at h1 h3
        exact (h.entries k1 v1).2 ⟨i, k', h1, h2, h3⟩
      · rw [if_neg hlt, if_neg hip] at h1 h3
        exact (h.entries k1 v1).2 ⟨i - 1, k', h1, h2, h3⟩

theorem Spec.Lists.put_old {m : κ → Option ν} {ks : List κ} {vs : List ν} (h : Lists ord m ks vs) {k : κ} {v : ν}
    {p : Nat} (hp : p < ks.length) (he : ord ks[p] k = .eq) :
    Lists ord (mapPut ord m k v) ks (vs.set p v) := by
  have hl := h.length
  refine ⟨by simp; omega, h.ascending, ?_⟩
  intro k1 v1
  unfold mapPut
  constructor
  · intro hm
    split at hm
    · next hk =>
      cases hm
      exact ⟨p, ks[p], List.getElem?_eq_getElem hp, ord_eq_trans he hk, List.getElem?_set_self (by omega)⟩
    · next hk =>
      obtain ⟨i, k', h1, h2, h3⟩ := (h.entries k1 v1).1 hm
      have hip : p ≠ i := by
        intro hh; subst hh
        rw [List.getElem?_eq_getElem hp] at h1; cases h1
        exact hk (ord_eq_trans (ord_eq_symm he) h2)
      exact ⟨i, k', h1, h2, by rw [List.getElem?_set_ne hip]; exact h3⟩
  · intro ⟨i, k', h1, h2, h3⟩
    by_cases hip : p = i
    · subst hip
      rw [List.getElem?_eq_getElem hp] at h1; cases h1
      rw [List.getElem?_set_self (by omega)] at h3; cases h3
      rw [if_pos (ord_eq_trans (ord_eq_symm he) h2)]
    · rw [List.getElem?_set_ne hip] at h3
      rw [if_neg]
      · exact (h.entries k1 v1).2 ⟨i, k', h1, h2, h3⟩
      · intro hk
        exact hip (strict_unique h.ascending (List.getElem?_eq_getElem hp) h1
          (ord_eq_trans (ord_eq_trans he hk) (ord_eq_symm h2)))

omit [Std.TransCmp ord] in
theorem strict_erase {ks : List κ} (h : ks.Pairwise (fun a b => ord a b = .lt)) (p : Nat) :
    (ks.take p ++ ks.drop (p + 1)).Pairwise (fun a b => ord a b = .lt) := by
  refine h.sublist ?_
  conv => rhs; rw [← List.take_append_drop p ks]
  apply List.Sublist.append (List.Sublist.refl _)
  rw [← List.drop_drop]
  exact List.drop_sublist _ _

theorem Spec.Lists.erase {m : κ → Option ν} {ks : List κ} {vs : List ν} (h : Lists ord m ks vs) {k : κ}
    {p : Nat} (hp : p < ks.length) (he : ord ks[p] k = .eq) :
    Lists ord (mapErase ord m k) (ks.take p ++ ks.drop (p + 1)) (vs.take p ++ vs.drop (p + 1)) := by
  have hl := h.length
  refine ⟨by simp; omega, strict_erase h.ascending p, ?_⟩
  intro k1 v1
  unfold mapErase
  constructor
  · intro hm
    split at hm
    · cases hm
    · next hk =>
      obtain ⟨i, k', h1, h2, h3⟩ := (h.entries k1 v1).1 hm
      have hip : p ≠ i := by
        intro hh; subst hh
        rw [List.getElem?_eq_getElem hp] at h1; cases h1
        exact hk (ord_eq_trans (ord_eq_symm he) h2)
      by_cases hlt : i < p
      · refine ⟨i, k', ?_, h2, ?_⟩
        · rw [getElem?_erase, if_pos hlt]; exact h1
        · rw [getElem?_erase, if_pos hlt]; exact h3
      · refine ⟨i - 1, k', ?_, h2, ?_⟩
        · rw [getElem?_erase, if_neg (by omega), show i - 1 + 1 = i by omega]; exact h1
        · rw [getElem?_erase, if_neg (by omega), show i - 1 + 1 = i by omega]; exact h3
  · intro ⟨i, k', h1, h2, h3⟩
    rw [getElem?_erase] at h1 h3
    have key : ∀ j, j ≠ p → ks[j]? = some k' → vs[j]? = some v1 →
        (if ord k k1 = .eq then none else m k1) = some v1 := by
      intro j hj hk hv
      rw [if_neg]
      · exact (h.entries k1 v1).2 ⟨j, k', hk, h2, hv⟩
      · intro hkk
        exact hj (strict_unique h.ascending hk (List.getElem?_eq_getElem hp)
          (ord_eq_trans h2 (ord_eq_symm (ord_eq_trans he hkk))))
    by_cases hlt : i < p
    · rw [if_pos hlt] at h1 h3
      exact key i (by omega) h1 h3
    · rw [if_neg hlt] at h1 h3
      exact key (i + 1) (by omega) h1 h3

end

namespace DictC

theorem onKeys_ok {β : Type} {m : Cpp (List κ) β} {s : DictC κ ν} {v : β} {ks : List κ} (h : m s.keys = .ok v ks) :
    onKeys m s = .ok v ⟨ks, s.values⟩ := by simp [onKeys, h]
theorem onValues_ok {β : Type} {m : Cpp (List ν) β} {s : DictC κ ν} {v : β} {vs : List ν}
    (h : m s.values = .ok v vs) : onValues m s = .ok v ⟨s.keys, vs⟩ := by simp [onValues, h]
theorem onValues_err {β : Type} {m : Cpp (List ν) β} {s : DictC κ ν} {vs : List ν}
    (h : m s.values = .err vs) : onValues m s = .err ⟨s.keys, vs⟩ := by simp [onValues, h]

theorem removeAt_seq {xs : List κ} {i : Nat} (h : i < xs.length) :
    SortedSeq.removeAt (i : Int) xs = .ok true (xs.take i ++ xs.drop (i + 1)) := by
  unfold SortedSeq.removeAt
  rw [Cpp.bind_ok (Cpp.get_apply xs), Cpp.bind_ok (Cpp.check_true (by omega) xs)]
  rfl

theorem contains_spec {cmp : κ → κ → Option Ordering} {ord : κ → κ → Ordering} [Std.TransCmp ord]
    (hcmp : KeyCmp cmp ord) {ks : List κ} (hasc : Ascending ord id ks) (k : κ) :
    (SortedSeq.contains cmp k ks = .ok true ks ∧ ∃ x ∈ ks, ord x k = .eq) ∨
    (SortedSeq.contains cmp k ks = .ok false ks ∧ ∀ x ∈ ks, ord x k ≠ .eq) := by
  rcases SortedSeq.indexOf_spec hcmp.compares hasc k with ⟨i, hi, e, heq⟩ | ⟨e, hne⟩
  · left
    constructor
    · unfold SortedSeq.contains
      rw [Cpp.bind_ok e, Cpp.pure_apply]
      simp
    · exact ⟨_, List.getElem_mem hi, heq⟩
  · right
    constructor
    · unfold SortedSeq.contains
      rw [Cpp.bind_ok e, Cpp.pure_apply]
      rfl
    · exact hne

/-- `s` stores the map `m`. -/
def Models (ord : κ → κ → Ordering) (m : κ → Option ν) (s : DictC κ ν) : Prop := Lists ord m s.keys s.values

theorem addNew_ok {cmp : κ → κ → Option Ordering} {ord : κ → κ → Ordering} [Std.TransCmp ord]
    (hcmp : KeyCmp cmp ord) {m : κ → Option ν} {s : DictC κ ν} (h : Models ord m s) (k : κ) (v : ν)
    (hne : ∀ x ∈ s.keys, ord x k ≠ .eq) :
    ∃ p s1 s2, onKeys (SortedSeq.add cmp id k) s = .ok (p : Int) s1 ∧
      onValues (SeqList.insert (p : Int) v) s1 = .ok (p : Int) s2 ∧ Models ord (mapPut ord m k v) s2 := by
  obtain ⟨p, hp, e, hb, ha⟩ := SortedSeq.add_spec hcmp.compares (strict_ascending h.ascending) k
  have hl := h.length
  refine ⟨p, _, _, onKeys_ok e, onValues_ok (SeqList.insert_ok v ?_), ?_⟩
  · simp only; omega
  · exact Lists.put_new h hp hne hb ha

theorem step_refines {cmp : κ → κ → Option Ordering} {ord : κ → κ → Ordering} [Std.TransCmp ord]
    (hcmp : KeyCmp cmp ord) {m : κ → Option ν} {s : DictC κ ν} (h : Models ord m s) (op : MapOp κ ν) :
    ∃ s', step cmp s op = some (s', (mapStep ord m op).2) ∧ Models ord (mapStep ord m op).1 s' := by
  have hasc := strict_ascending h.ascending
  have hl := h.length
  cases op with
  | add k v =>
    simp only [step, mapStep]
    unfold add
    rcases contains_spec hcmp hasc k with ⟨e, hex⟩ | ⟨e, hne⟩
    · rw [Cpp.bind_ok (onKeys_ok e), Cpp.bind_err (Cpp.check_false (by simp) _),
        if_pos ((h.isSome_iff k).2 hex)]
      exact ⟨_, rfl, h⟩
    · rw [Cpp.bind_ok (onKeys_ok e), Cpp.bind_ok (Cpp.check_true rfl _), if_neg (by
        rw [h.isSome_iff k]; exact fun ⟨x, hx, he⟩ => hne x hx he)]
      obtain ⟨p, s1, s2, e1, e2, h2⟩ := addNew_ok hcmp h k v hne
      rw [Cpp.bind_ok e1, Cpp.bind_ok e2]
      exact ⟨s2, rfl, h2⟩
  | set k v =>
    simp only [step, mapStep]
    unfold set
    rcases SortedSeq.indexOf_spec hcmp.compares hasc k with ⟨i, hi, e, heq⟩ | ⟨e, hne⟩
    · rw [Cpp.bind_ok (onKeys_ok e), if_neg (by omega),
        Cpp.bind_ok (onValues_ok (SeqList.setAt_ok v (by simp only; omega)))]
      exact ⟨_, rfl, Lists.put_old h hi heq⟩
    · rw [Cpp.bind_ok (onKeys_ok e), if_pos rfl]
      obtain ⟨p, s1, s2, e1, e2, h2⟩ := addNew_ok hcmp h k v hne
      rw [Cpp.bind_ok e1, Cpp.bind_ok e2]
      exact ⟨s2, rfl, h2⟩
  | get k =>
    simp only [step, mapStep]
    unfold get
    rcases SortedSeq.indexOf_spec hcmp.compares hasc k with ⟨i, hi, e, heq⟩ | ⟨e, hne⟩
    · have hv : i < s.values.length := by omega
      have hm : m k = some s.values[i] := (h.entries k _).2
        ⟨i, s.keys[i], List.getElem?_eq_getElem hi, heq, List.getElem?_eq_getElem hv⟩
      rw [Cpp.bind_ok (onKeys_ok e), onValues_ok (SeqList.get_ok hv), hm]
      exact ⟨_, rfl, h⟩
    · have hm : m k = none := by
        rw [← Option.not_isSome_iff_eq_none, h.isSome_iff k]
        exact fun ⟨x, hx, he⟩ => hne x hx he
      rw [Cpp.bind_ok (onKeys_ok e), onValues_err (SeqList.get_err (by omega)), hm]
      exact ⟨_, rfl, h⟩
  | remove k =>
    simp only [step, mapStep]
    unfold remove
    rcases SortedSeq.indexOf_spec hcmp.compares hasc k with ⟨i, hi, e, heq⟩ | ⟨e, hne⟩
    · rw [Cpp.bind_ok (onKeys_ok e), if_pos (by omega), Cpp.bind_ok (onKeys_ok (removeAt_seq hi)),
        Cpp.bind_ok (onValues_ok (SeqList.removeAt_ok (by simp only; omega))),
        if_pos ((h.isSome_iff k).2 ⟨_, List.getElem_mem hi, heq⟩)]
      exact ⟨_, rfl, Lists.erase h hi heq⟩
    · rw [Cpp.bind_ok (onKeys_ok e), if_neg (by simp), if_neg (by
        rw [h.isSome_iff k]; exact fun ⟨x, hx, he⟩ => hne x hx he)]
      exact ⟨_, rfl, h⟩
  | clear => exact ⟨_, rfl, Lists.empty⟩
  | contains k =>
    simp only [step, mapStep]
    unfold contains
    rcases contains_spec hcmp hasc k with ⟨e, hex⟩ | ⟨e, hne⟩
    · rw [onKeys_ok e, (h.isSome_iff k).2 hex]
      exact ⟨_, rfl, h⟩
    · have hm : m k = none := by
        rw [← Option.not_isSome_iff_eq_none, h.isSome_iff k]
        exact fun ⟨x, hx, he⟩ => hne x hx he
      rw [onKeys_ok e, hm]
      exact ⟨_, rfl, h⟩

theorem run_refines {cmp : κ → κ → Option Ordering} {ord : κ → κ → Ordering} [Std.TransCmp ord]
    (hcmp : KeyCmp cmp ord) (ops : List (MapOp κ ν)) {m : κ → Option ν} {s : DictC κ ν} (h : Models ord m s) :
    ∃ s', run cmp s ops = some (s', (mapRun ord m ops).2) ∧ Models ord (mapRun ord m ops).1 s' := by
  induction ops generalizing m s with
  | nil => exact ⟨s, rfl, h⟩
  | cons op ops ih =>
    obtain ⟨s1, e1, h1⟩ := step_refines hcmp h op
    obtain ⟨s2, e2, h2⟩ := ih h1
    exact ⟨s2, by simp [run, e1, e2, mapRun], h2⟩

end DictC
end Vlpp
