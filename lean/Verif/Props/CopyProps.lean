import Verif.Model.CopyFrom
import Verif.Props.ArrayProps
import Verif.Props.SortedListProps
import Verif.Lemmas.DictC
import Verif.Lemmas.GroupC
import Verif.Props.LazyProps

/-!
# Property C57: `CopyFrom`
-/
set_option autoImplicit false
namespace Vlpp

/-- The source provides exactly the elements `xs`. -/
def CopySource.Gives {α : Type} : CopySource α → List α → Prop
  | .random count getValue, xs =>
    count = xs.length ∧ ∀ (i : Nat) (x : α), xs[i]? = some x → getValue i = .ok x ()
  | .enumerable L, xs => L.Yields xs

namespace CopyFrom
variable {σ α κ ν : Type}

theorem forLoop_inv {getValue : Int → Outcome Unit α} {body : Int → α → Cpp σ Bool} {xs : List α}
    (hget : ∀ (i : Nat) (x : α), xs[i]? = some x → getValue i = .ok x ()) (I : List α → σ → Prop)
    (hbody : ∀ (done : List α) (x : α) (s : σ), I done s → (done ++ [x]) <+: xs →
      ∃ b s', body done.length x s = .ok b s' ∧ I (done ++ [x]) s')
    (n : Nat) (done rest : List α) (hx : done ++ rest = xs) (hn : n = rest.length) {s : σ} (h : I done s) :
    ∃ s', forLoop getValue body n done.length s = .ok () s' ∧ I xs s' := by
  induction rest generalizing n done s with
  | nil => subst hn; refine ⟨s, rfl, ?_⟩; rw [← hx]; simpa using h
  | cons x rest ih =>
    subst hn
    have hget' : getValue (done.length : Int) = .ok x () := hget done.length x (by rw [← hx]; simp)
    obtain ⟨b, s1, e1, h1⟩ := hbody done x s h ⟨rest, by rw [← hx]; simp⟩
    obtain ⟨s2, e2, h2⟩ := ih rest.length (done ++ [x]) (by rw [← hx]; simp) rfl h1
    refine ⟨s2, ?_, h2⟩
    rw [List.length_cons, forLoop, hget', Cpp.bind_ok (m := ofSource (.ok x ())) (a := x) (s := s) (s' := s) rfl, Cpp.bind_ok e1]
    simpa using e2

theorem enumLoop_inv {A : Ator.{0, 0} α} {body : Int → α → Cpp σ Bool} (index : Int) {xs : List α}
    (I : List α → σ → Prop)
    (hbody : ∀ (done : List α) (x : α) (s : σ), I done s → (done ++ [x]) <+: xs →
      ∃ b s', body (index + done.length) x s = .ok b s' ∧ I (done ++ [x]) s')
    (done rest : List α) (hx : done ++ rest = xs) {e : A.σ} {i : Int} (hd : A.Delivers e i rest) {s : σ}
    (h : I done s) : ∃ s', enumLoop A body (index + done.length) e s = some (.ok () s') ∧ I xs s' := by
  induction rest generalizing done e i s with
  | nil =>
    obtain ⟨e', he, _⟩ := hd 1
    refine ⟨s, ?_, by rw [← hx]; simpa using h⟩
    rw [enumLoop, he]
  | cons x rest ih =>
    obtain ⟨e', he, hcur, _, hd'⟩ := hd
    obtain ⟨b, s1, e1, h1⟩ := hbody done x s h ⟨rest, by rw [← hx]; simp⟩
    obtain ⟨s2, e2, h2⟩ := ih (done ++ [x]) (by rw [← hx]; simp) hd' h1
    refine ⟨s2, ?_, h2⟩
    rw [enumLoop, he]
    simp only [hcur, e1]
    rw [← e2]
    congr 1
    simp; omega

theorem countLoop_delivers {A : Ator.{0, 0} α} (xs : List α) (n : Int) {e : A.σ} {i : Int}
    (hd : A.Delivers e i xs) : LazyList.countLoop A n e = some (.ok (n + xs.length) ()) := by
  induction xs generalizing n e i with
  | nil =>
    obtain ⟨e', he, _⟩ := hd 1
    rw [LazyList.countLoop, he]; simp
  | cons x xs ih =>
    obtain ⟨e', he, _, _, hd'⟩ := hd
    rw [LazyList.countLoop, he]
    simp only
    rw [ih (n + 1) hd', List.length_cons]
    congr 2; omega

theorem count_yields {L : LazyList.{0, 0} α} {xs : List α} (h : L.Yields xs) :
    L.count = some (.ok (xs.length : Int) ()) := by
  obtain ⟨s, e, hd⟩ := h
  rw [LazyList.count, e]
  simp only
  rw [countLoop_delivers xs 0 hd]; simp

/-- a target that grows: an invariant that every `AppendValue` extends by its element -/
theorem growing_inv {clear : Cpp σ Bool} {appendValue : α → Cpp σ Bool} {src : CopySource α} {xs : List α}
    (hsrc : src.Gives xs) (append : Bool) (I : List α → σ → Prop)
    (hbody : ∀ (done : List α) (x : α) (s : σ), I done s → ∃ b s', appendValue x s = .ok b s' ∧ I (done ++ [x]) s')
    {s : σ} (hstart : if append then I [] s else ∃ b s', clear s = .ok b s' ∧ I [] s') :
    ∃ s', copyFrom (.growing clear appendValue) src append s = some (.ok () s') ∧ I xs s' := by
  have hstart' : ∃ b s1, (if append then Outcome.ok true s else clear s) = .ok b s1 ∧ I [] s1 := by
    cases append with
    | true => exact ⟨true, s, rfl, hstart⟩
    | false => exact hstart
  obtain ⟨b, s1, e1, h1⟩ := hstart'
  cases src with
  | random count getValue =>
    obtain ⟨hc, hget⟩ := hsrc
    obtain ⟨s2, e2, h2⟩ := forLoop_inv (body := fun _ v => appendValue v) hget I
      (fun done x s h _ => hbody done x s h) count.toNat [] xs rfl (by omega) h1
    refine ⟨s2, ?_, h2⟩
    simp only [copyFrom, e1]
    exact congrArg some e2
  | enumerable L =>
    obtain ⟨e, he, hd⟩ := hsrc
    obtain ⟨s2, e2, h2⟩ := enumLoop_inv (body := fun _ v => appendValue v) 0 I
      (fun done x s h _ => hbody done x s h) [] xs rfl hd h1
    refine ⟨s2, ?_, h2⟩
    simp only [copyFrom, e1, enumerate, he]
    exact e2

end CopyFrom

open CopyFrom
variable {α κ ν : Type}

/-- **C57, sources.** Lists, sorted lists, arrays, buffers, dictionaries and everything that can be enumerated provide
their elements in order. -/
theorem C57_sources :
    (∀ (l : ListC α) (xs : List α), ListC.Repr l xs → (fromList l).Gives xs) ∧
    (∀ (a : ArrayC α) (xs : List α), ArrayC.Repr a (xs.map some) → (fromArray a).Gives xs) ∧
    (∀ (items : List α) (n : Nat), n ≤ items.length → (fromSlice items n).Gives (items.take n)) ∧
    (∀ (d : DictC κ ν), d.keys.length = d.values.length → (fromDict d).Gives (d.keys.zip d.values)) ∧
    (∀ (p : Pipe α), p.Ok → ∃ L, p.build = some (.ok L ()) ∧ (CopySource.enumerable L).Gives p.eval) := by
  refine ⟨?_, ?_, ?_, ?_, ?_⟩
  · intro l xs h
    refine ⟨h.count, fun i x hx => ?_⟩
    obtain ⟨hi, rfl⟩ := List.getElem?_eq_some_iff.1 hx
    show observe (ListC.get i l) = _
    rw [ListC.get_ok h i hi]; rfl
  · intro a xs h
    have hc := h.count
    rw [List.length_map] at hc
    refine ⟨hc, fun i x hx => ?_⟩
    obtain ⟨hi, rfl⟩ := List.getElem?_eq_some_iff.1 hx
    have := ArrayC.readVal_eq h i (by simpa using hi)
    show observe (ArrayC.get i a) = _
    unfold ArrayC.get
    rw [Cpp.bind_ok (Cpp.get_apply a), Cpp.bind_ok (Cpp.check_true (by omega) a), this]
    simp [ArrayC.mem, observe]
  · intro items n hn
    refine ⟨by rw [List.length_take]; omega, fun i x hx => ?_⟩
    rw [List.getElem?_take] at hx
    split at hx
    · simp [hx]
    · cases hx
  · intro d hl
    refine ⟨by simp [DictC.count, List.length_zip]; omega, fun i x hx => ?_⟩
    obtain ⟨hi, rfl⟩ := List.getElem?_eq_some_iff.1 hx
    rw [List.length_zip] at hi
    simp only
    rw [SeqList.get_ok (by omega), SeqList.get_ok (by omega)]
    simp
  · intro p hp
    obtain ⟨L, e, h⟩ := Pipe.shows hp
    exact ⟨L, e, h⟩

/-- **C57, `List` as the target.** -/
theorem C57_list (mv : Option α → Option α) {l : ListC α} {xs ys : List α} (h : ListC.Repr l xs)
    {src : CopySource α} (hsrc : src.Gives ys) (append : Bool) :
    ∃ l', copyFrom (toList mv) src append l = some (.ok () l') ∧
      ListC.Repr l' ((if append then xs else []) ++ ys) := by
  refine growing_inv hsrc append (fun done l => ListC.Repr l ((if append then xs else []) ++ done)) ?_ ?_
  · intro done x s hs
    obtain ⟨s', e, h'⟩ := ListC.add_ok mv hs x
    exact ⟨true, s', by rw [Cpp.bind_ok e]; rfl, by simpa using h'⟩
  · cases append with
    | true => simpa using h
    | false => exact ⟨true, _, ListC.clear_ok h, ListC.Repr.empty⟩

/-- **C57, `SortedList` as the target**: the result has exactly the elements of both, in order. -/
theorem C57_sortedList (mv : Option α → Option α) {cmp : α → α → Option Ordering} {ord : α → α → Ordering}
    [Std.TransCmp ord] (hcmp : ∀ a b, cmp a b = some (ord a b)) {l : ListC α} {xs ys : List α} (h : ListC.Repr l xs)
    (hasc : Spec.Ascending ord id xs) {src : CopySource α} (hsrc : src.Gives ys) (append : Bool) :
    ∃ l' zs, copyFrom (toSortedList mv cmp) src append l = some (.ok () l') ∧ ListC.Repr l' zs ∧
      Spec.Ascending ord id zs ∧ zs.Perm ((if append then xs else []) ++ ys) := by
  suffices hh : ∃ l', copyFrom (toSortedList mv cmp) src append l = some (.ok () l') ∧
      ∃ zs, ListC.Repr l' zs ∧ Spec.Ascending ord id zs ∧ zs.Perm ((if append then xs else []) ++ ys) by
    obtain ⟨l', e, zs, h1⟩ := hh
    exact ⟨l', zs, e, h1⟩
  refine growing_inv hsrc append
    (fun done l => ∃ zs, ListC.Repr l zs ∧ Spec.Ascending ord id zs ∧ zs.Perm ((if append then xs else []) ++ done))
    ?_ ?_
  · intro done x s ⟨zs, hz, ha, hp⟩
    obtain ⟨p, hp1, e, hb, hf⟩ := SortedSeq.add_spec (cmp := cmp) (ord := ord) (key := id) hcmp ha x
    have hsim := SortedListC.add_sim mv hz cmp id x
    rw [e] at hsim
    generalize hr : SortedListC.add mv cmp id x s = r at hsim
    cases hsim with
    | ok hz' =>
      refine ⟨true, _, by rw [Cpp.bind_ok hr]; rfl, _, hz', SortedSeq.ascending_insert ha hp1 hb hf, ?_⟩
      rw [← List.append_assoc]
      refine List.Perm.trans List.perm_middle ?_
      rw [List.take_append_drop]
      exact (hp.cons x).trans (List.perm_append_singleton x _).symm
  · cases append with
    | true => exact ⟨xs, h, hasc, by simp⟩
    | false => exact ⟨true, _, ListC.clear_ok h, [], ListC.Repr.empty, List.Pairwise.nil, by simp⟩

/-- **C57, `Array` as the target.** -/
theorem C57_array (mv : Option α → Option α) (d : Option α) {a : ArrayC α} {xs : List (Option α)} {ys : List α}
    (h : ArrayC.Repr a xs) {src : CopySource α} (hsrc : src.Gives ys) (append : Bool) :
    ∃ a', copyFrom (toArray mv d) src append a = some (.ok () a') ∧
      ArrayC.Repr a' ((if append then xs else []) ++ ys.map some) := by
  have hc := h.count
  -- the invariant: the prefix has been stored, the rest of the array exists
  let base : List (Option α) := if append then xs else []
  let I : List α → ArrayC α → Prop := fun done a =>
    ∃ rest : List (Option α), rest.length + done.length = ys.length ∧ ArrayC.Repr a (base ++ done.map some ++ rest)
  have hlast : ∀ a, I ys a → ArrayC.Repr a (base ++ ys.map some) := by
    intro a ⟨rest, hr, hR⟩
    have : rest = [] := List.eq_nil_of_length_eq_zero (by omega)
    subst this; simpa using hR
  have hidx : (if append then ArrayC.count a else 0) = (base.length : Int) := by
    cases append with
    | true => exact hc
    | false => rfl
  have hstart : ∃ a1, ArrayC.resize mv d ((base.length : Int) + ys.length) a = .ok true a1 ∧ I [] a1 := by
    obtain ⟨a1, e, hR⟩ := ArrayC.resize_ok mv d h (base.length + ys.length)
    refine ⟨a1, by simpa using e, ?_⟩
    cases append with
    | true =>
      refine ⟨List.replicate ys.length d, by simp, ?_⟩
      have : base = xs := rfl
      rw [this] at hR ⊢
      rw [List.take_of_length_le (by omega)] at hR
      simpa using hR
    | false =>
      refine ⟨_, ?_, by
        have : base = [] := rfl
        rw [this] at hR ⊢
        simpa using hR⟩
      simp; omega
  have hset : ∀ (done : List α) (x : α) (s : ArrayC α), I done s → (done ++ [x]) <+: ys →
      ∃ b s', ArrayC.setAt ((base.length : Int) + done.length) x s = .ok b s' ∧ I (done ++ [x]) s' := by
    intro done x s ⟨rest, hr, hR⟩ hpre
    have hle := hpre.length_le
    simp only [List.length_append, List.length_singleton] at hle
    obtain ⟨r, rest', rfl⟩ := List.exists_cons_of_length_pos (by omega : 0 < rest.length)
    simp only [List.length_cons] at hr
    obtain ⟨s', e, h'⟩ := ArrayC.setAt_ok hR ((base.length : Int) + done.length) x (by omega)
      (by simp only [List.length_append, List.length_map, List.length_cons]; omega)
    refine ⟨true, s', e, rest', by simp only [List.length_append, List.length_singleton]; omega, ?_⟩
    have hn : ((base.length : Int) + done.length).toNat = (base ++ done.map some).length := by
      simp only [List.length_append, List.length_map]; omega
    rw [hn, List.set_append_right _ _ (Nat.le_refl _), Nat.sub_self, List.set_cons_zero] at h'
    simpa using h'
  obtain ⟨a1, e1, h1⟩ := hstart
  cases src with
  | random count getValue =>
    obtain ⟨hcount, hget⟩ := hsrc
    obtain ⟨a2, e2, h2⟩ := forLoop_inv (body := fun i v => ArrayC.setAt ((base.length : Int) + i) v) hget I hset
      count.toNat [] ys rfl (by omega) h1
    refine ⟨a2, ?_, hlast a2 h2⟩
    simp only [toArray, copyFrom]
    rw [hidx, hcount, e1]
    simp only
    rw [hcount] at e2
    exact congrArg some e2
  | enumerable L =>
    have hcount := count_yields hsrc
    obtain ⟨e, he, hd⟩ := hsrc
    obtain ⟨a2, e2, h2⟩ := enumLoop_inv (body := ArrayC.setAt) (base.length : Int) I hset [] ys rfl hd h1
    refine ⟨a2, ?_, hlast a2 h2⟩
    simp only [toArray, copyFrom]
    rw [hcount]
    simp only
    rw [hidx, e1]
    simp only [enumerate, he]
    simpa using e2

/-- **C57, `Dictionary` as the target**: the entries are put one after another into the dictionary, so a later entry of
the source replaces an earlier one (and one of the target) with the same key. -/
theorem C57_dictionary {cmp : κ → κ → Option Ordering} {ord : κ → κ → Ordering} [Std.TransCmp ord]
    (hcmp : ∀ a b, cmp a b = some (ord a b)) {m : κ → Option ν} {d : DictC κ ν} (h : Spec.Lists ord m d.keys d.values)
    {src : CopySource (κ × ν)} {ys : List (κ × ν)} (hsrc : src.Gives ys) (append : Bool) :
    ∃ d', copyFrom (toDict cmp) src append d = some (.ok () d') ∧
      Spec.Lists ord (fun k => match ys.reverse.find? (fun e => ord e.1 k == .eq) with
        | some e => some e.2
        | none => if append then m k else none) d'.keys d'.values := by
  let M : List (κ × ν) → κ → Option ν := fun done k =>
    match done.reverse.find? (fun e => ord e.1 k == .eq) with
    | some e => some e.2
    | none => if append then m k else none
  refine growing_inv hsrc append (fun done (d : DictC κ ν) => Spec.Lists ord (M done) d.keys d.values) ?_ ?_
  · intro done x s hs
    obtain ⟨s', e, h'⟩ := DictC.step_refines (m := M done) hcmp hs (.set x.1 x.2)
    have e : DictC.observe .flag (DictC.set cmp x.1 x.2 s) = some (s', .flag true) := e
    have hM : M (done ++ [x]) = (Spec.mapStep ord (M done) (.set x.1 x.2)).1 := by
      funext k
      simp only [M, Spec.mapStep, Spec.mapPut, List.reverse_append, List.reverse_cons, List.reverse_nil, List.nil_append,
        List.cons_append, List.find?_cons]
      cases hk : ord x.1 k <;> simp
    cases hr : DictC.set cmp x.1 x.2 s with
    | ok b s1 =>
      rw [hr] at e
      simp only [DictC.observe, Option.some.injEq, Prod.mk.injEq] at e
      refine ⟨b, s1, hr, ?_⟩
      show Spec.Lists ord (M (done ++ [x])) s1.keys s1.values
      rw [hM, e.1]; exact h'
    | err s1 => rw [hr] at e; simp [DictC.observe] at e
    | fault => rw [hr] at e; simp [DictC.observe] at e
  · cases append with
    | true => exact h
    | false => exact ⟨true, ⟨[], []⟩, rfl, Spec.Lists.empty⟩

/-- **C57, `Group` as the target**: every pair of the source is added. -/
theorem C57_group {cmp : κ → κ → Option Ordering} {ord : κ → κ → Ordering} [Std.TransCmp ord]
    (hcmp : ∀ a b, cmp a b = some (ord a b)) {m : κ → List ν} {g : GroupC κ ν} (h : GroupC.Models ord m g)
    {src : CopySource (κ × ν)} {ys : List (κ × ν)} (hsrc : src.Gives ys) (append : Bool) :
    ∃ g', copyFrom (toGroup cmp) src append g = some (.ok () g') ∧
      GroupC.Models ord (fun k => (if append then m k else []) ++ (ys.filter (fun e => ord e.1 k == .eq)).map (·.2)) g' := by
  let M : List (κ × ν) → κ → List ν := fun done k =>
    (if append then m k else []) ++ (done.filter (fun e => ord e.1 k == .eq)).map (·.2)
  refine growing_inv hsrc append (fun done (g : GroupC κ ν) => GroupC.Models ord (M done) g) ?_ ?_
  · intro done x s hs
    obtain ⟨s', e, h'⟩ := GroupC.step_refines (m := M done) hcmp (fun _ _ => true) hs (.add x.1 x.2)
    have e : GroupC.observe .flag (GroupC.add cmp x.1 x.2 s) = some (s', .flag true) := e
    have hM : M (done ++ [x]) = (Spec.groupStep ord (fun _ _ => true) (M done) (.add x.1 x.2)).1 := by
      funext k
      simp only [Spec.groupStep, Spec.groupPut]
      by_cases hk : ord x.1 k = .eq
      · rw [if_pos hk, multimap_congr hs hk]
        simp [M, List.filter_append, hk]
      · rw [if_neg hk]
        simp [M, List.filter_append, hk]
    cases hr : GroupC.add cmp x.1 x.2 s with
    | ok b s1 =>
      rw [hr] at e
      simp only [GroupC.observe, Option.some.injEq, Prod.mk.injEq] at e
      refine ⟨b, s1, hr, ?_⟩
      show GroupC.Models ord (M (done ++ [x])) s1
      rw [hM, e.1]; exact h'
    | err s1 => rw [hr] at e; simp [GroupC.observe] at e
    | fault => rw [hr] at e; simp [GroupC.observe] at e
  · cases append with
    | true =>
      have : M [] = m := by funext k; simp [M]
      show GroupC.Models ord (M []) g
      rw [this]; exact h
    | false =>
      obtain ⟨hp, e, hh⟩ := GroupC.clear_ok h
      exact ⟨true, _, e, GroupC.models_cleared hh⟩

/-! Non-vacuity: all targets, with a lazy source and a list source. -/
example : ∃ L : LazyList.{0, 0} Nat, L.Yields [3, 1] ∧
    (∃ l', copyFrom (toList id) (.enumerable L) false ListC.empty = some (.ok () l') ∧ ListC.Repr l' [3, 1] ∧
      ∃ a', copyFrom (toArray id (some 0)) (fromList l') true ArrayC.null = some (.ok () a') ∧
        ArrayC.Repr a' [some 3, some 1]) := by
  obtain ⟨L, _, h⟩ := Pipe.shows (p := (Pipe.list (α := Nat) [3, 2, 1]).where' (· != 2)) trivial
  refine ⟨L, h, ?_⟩
  obtain ⟨l', e, h'⟩ := C57_list id (ListC.Repr.empty (α := Nat)) (src := .enumerable L) h false
  obtain ⟨a', e2, h2⟩ := C57_array id (some 0) ArrayC.Repr.null (C57_sources (κ := Nat) (ν := Nat).1 l' _ h') true
  exact ⟨l', e, h', a', e2, h2⟩

example : ∃ d' : DictC Nat String, copyFrom (toDict (fun a b => some (compare a b)))
    (fromSlice [(2, "b"), (1, "a"), (2, "c")] 3) false DictC.empty = some (.ok () d') ∧ d'.keys.length = d'.values.length := by
  obtain ⟨d', e, h⟩ := C57_dictionary (cmp := fun a b : Nat => some (compare a b)) (ord := compare) (fun _ _ => rfl)
    (d := (DictC.empty : DictC Nat String)) Spec.Lists.empty
    ((C57_sources (κ := Nat) (ν := Nat)).2.2.1 [(2, "b"), (1, "a"), (2, "c")] 3 (by simp)) false
  exact ⟨d', e, h.length⟩

end Vlpp
