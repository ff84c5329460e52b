import Verif.Model.CallOrder
import Verif.Lemmas.Compares
import Verif.Props.CallProps
import Verif.Props.SortEffProps

/-!
# C98: When `OrderBy` and `GroupBy` call the functions given to them

`OrderBy` is not lazy: it computes the whole sequence and makes all comparisons at once; afterwards nothing is called any
more.  `GroupBy` is lazy: it calls the key function for every element to find the keys, and again for every element and
every group that is enumerated.
-/
set_option autoImplicit false
namespace Vlpp
open Spec (Gen Reader ReadOp ReadRet)
open QSortE (Answer Ev)
variable {W α κ : Type}

namespace CallList

/-- the comparisons among the calls, the earliest first -/
def cmpsOf : List (Ev α) → List (α × α × Answer)
  | [] => []
  | .cmp a b r :: t => cmpsOf t ++ [(a, b, r)]
  | .copy _ _ :: t => cmpsOf t

theorem compares_of_plays {f : W → α → α → Answer × W} {w : W} : ∀ {t : List (Ev α)} {w' : W}, Spec.Plays (sortEnv f) w t w' →
    Spec.Compares f w (cmpsOf t) w' := by
  intro t
  induction t with
  | nil => intro w' h; exact h
  | cons e t ih =>
    intro w' h
    cases e with
    | cmp a b r => obtain ⟨w1, h1, e⟩ := h; exact Spec.compares_snoc (ih h1) e
    | copy a d =>
      obtain ⟨w1, h1, e⟩ := h
      have : w1 = w' := by simpa [sortEnv] using (congrArg Prod.snd e)
      rw [← this]; exact ih h1

theorem cmpsOf_length (t : List (Ev α)) : (cmpsOf t).length = Spec.comparisons t := by
  induction t with
  | nil => rfl
  | cons e t ih => cases e <;> simp [cmpsOf, Spec.comparisons, ih]

theorem mem_cmpsOf {t : List (Ev α)} {c : α × α × Answer} (h : c ∈ cmpsOf t) : Ev.cmp c.1 c.2.1 c.2.2 ∈ t := by
  induction t with
  | nil => cases h
  | cons e t ih =>
    cases e with
    | cmp a b r =>
      rcases List.mem_append.1 h with h | h
      · exact List.mem_cons_of_mem _ (ih h)
      · rw [List.mem_singleton.1 h]; exact List.mem_cons_self
    | copy a d => exact List.mem_cons_of_mem _ (ih h)

/-- copies do not throw here -/
theorem plays_copy {f : W → α → α → Answer × W} {w w' : W} {t : List (Ev α)} {a : α}
    (h : Spec.Plays (sortEnv f) w (.copy a false :: t) w') : False := by
  obtain ⟨w1, _, e⟩ := h
  simpa [sortEnv] using congrArg Prod.fst e

theorem sortCalls_of {f : W → α → α → Answer × W} {xs : List α} {w w' : W} {t : List (Ev α)} {buf : List α} {P : List α → Prop}
    (hp : Spec.Plays (sortEnv f) w t w') (hl : Spec.SortLeaves [] xs [] t buf P)
    (hs : ∀ c ∈ (cmpsOf t).dropLast, c.2.2 ≠ .threw) : Spec.SortCalls f xs w (cmpsOf t) w' :=
  ⟨compares_of_plays hp, by rw [cmpsOf_length]; exact hl.1, fun _ hc => hl.2.2.1 _ (mem_cmpsOf hc), hs⟩

theorem quiet_calls {t : List (Ev α)} (h : ∀ e ∈ t, ¬ Spec.Threw e) : ∀ c ∈ cmpsOf t, c.2.2 ≠ .threw := by
  intro c hc hr
  refine h _ (mem_cmpsOf hc) (.inl ⟨c.1, c.2.1, ?_⟩)
  rw [hr]

end CallList

open CallList

theorem orderBy_outcome {L : CallList W α} {g : Gen W α} {fresh : Prop} (hL : L.Holds g fresh) (f : W → α → α → Answer × W) (w : W) :
    match g.collect w with
    | .fault => L.orderBy f w = some .fault
    | .err w' => L.orderBy f w = some (.err w')
    | .ok xs w' => ∃ calls w'', Spec.SortCalls f xs w' calls w'' ∧
        ((∃ ys, ys.Perm xs ∧ L.orderBy f w = some (.ok (ofList ys) w'') ∧ ∀ c ∈ calls, c.2.2 ≠ .threw) ∨
         (L.orderBy f w = some (.err w'') ∧ ∃ c, calls.getLast? = some c ∧ (c.2.2 = .threw ∨ c.2.2 = .unordered))) := by
  rw [orderBy, hL.toList]
  cases g.collect w with
  | fault => rfl
  | err w' => rfl
  | ok xs w' =>
    simp only [andThen]
    by_cases h0 : xs.length > 0
    · rw [if_pos h0]
      obtain ⟨r, e, h⟩ := C97_sort_effects_partial (sortEnv f) [] xs [] w'
      simp only [List.nil_append, List.append_nil, List.length_nil, Int.natCast_zero] at e
      rw [e]
      cases r with
      | fault => exact absurd h id
      | ok d st =>
        obtain ⟨hy, hl, hq, _⟩ := h
        obtain ⟨_, _, _, ys, eb, hp⟩ := id hl
        simp only [List.nil_append, List.append_nil] at eb
        refine ⟨cmpsOf st.trace, st.s, sortCalls_of hy hl ?_, .inl ⟨ys, hp, by simp only [eb], quiet_calls hq⟩⟩
        intro c hc
        exact quiet_calls hq c (List.dropLast_subset _ hc)
      | error st =>
        obtain ⟨hy, hl, a, b, earlier, et, hq⟩ := h
        refine ⟨cmpsOf st.trace, st.s, sortCalls_of hy hl ?_, .inr ⟨rfl, (a, b, .unordered), ?_, .inr rfl⟩⟩
        · rw [et]
          simp only [cmpsOf, List.dropLast_concat]
          exact quiet_calls hq
        · rw [et]; simp [cmpsOf]
      | thrown st =>
        obtain ⟨hy, e0, earlier, et, ht, hq, hl⟩ := h
        rcases ht with ⟨a, b, rfl⟩ | ⟨a, rfl⟩
        · refine ⟨cmpsOf st.trace, st.s, sortCalls_of hy hl ?_, .inr ⟨rfl, (a, b, .threw), ?_, .inl rfl⟩⟩
          · rw [et]
            simp only [cmpsOf, List.dropLast_concat]
            exact quiet_calls hq
          · rw [et]; simp [cmpsOf]
        · rw [et] at hy
          exact (plays_copy hy).elim
    · rw [if_neg h0]
      refine ⟨[], w', ⟨rfl, by simp, by simp, by simp⟩, .inl ⟨xs, .refl _, rfl, by simp⟩⟩

/-- **C98, `OrderBy`.** For every program that makes a lazy list and every comparer (with any effects and any answers,
throwing or not): `OrderBy` first computes the whole sequence with exactly the prescribed calls (an exception of these
leaves `OrderBy` before any comparison); then it compares elements of the sequence, at most n(n-1) times, up to the first
exception; it returns a list of the same elements in some order, or passes on the exception, or raises an Error after an
unordered answer.  The list it returns is like `From(ys)`: nothing is called any more, whatever is done with it. -/
theorem C98_orderBy (p : CallPipe W α) (hp : p.Ok) (w w1 : W) (g : Gen W α) (L : CallList W α) (hm : p.meaning w = .ok g w1)
    (hb : p.build w = some (.ok L w1)) (f : W → α → α → Answer × W) (w2 : W) :
    match g.collect w2 with
    | .fault => L.orderBy f w2 = some .fault
    | .err w3 => L.orderBy f w2 = some (.err w3)
    | .ok xs w3 => ∃ calls w4, Spec.SortCalls f xs w3 calls w4 ∧
        ((∃ ys N, ys.Perm xs ∧ L.orderBy f w2 = some (.ok N w4) ∧ (∀ c ∈ calls, c.2.2 ≠ .threw) ∧
            ∀ w5, N.toList w5 = some (.ok ys w5) ∧
              ∀ (ops : List ReadOp) (r : Outcome W (List (ReadRet α × W))), Reader.run (.ofList ys) [] w5 ops = some r →
                N.run [] w5 ops = some r ∧ ∃ l, r = .ok l w5 ∧ ∀ a ∈ l, a.2 = w5) ∨
         (L.orderBy f w2 = some (.err w4) ∧ ∃ c, calls.getLast? = some c ∧ (c.2.2 = .threw ∨ c.2.2 = .unordered))) := by
  have h := orderBy_outcome (p.holds hp hm hb) f w2
  revert h
  cases g.collect w2 with
  | fault => exact id
  | err w3 => exact id
  | ok xs w3 =>
    rintro ⟨calls, w4, hc, h⟩
    refine ⟨calls, w4, hc, ?_⟩
    rcases h with ⟨ys, h1, h2, h3⟩ | h
    · refine .inl ⟨ys, _, h1, h2, h3, fun w5 => ?_⟩
      have hN : (ofList ys : CallList W α).Holds (.ofList ys) True := holds_ofList ys
      refine ⟨by rw [hN.toList, Gen.ofList_collect], fun ops r hr => ⟨hN.run w5 ops r hr, ?_⟩⟩
      exact Reader.run_calm ys w5 ops [] r (by simp) hr
    · exact .inr h

/-- **C98, `OrderBy` sorts.** If the answers of the comparer follow a total preorder, `OrderBy` returns the sorted sequence,
whatever else the comparer does. -/
theorem C98_orderBy_sorts (p : CallPipe W α) (hp : p.Ok) (w w1 : W) (g : Gen W α) (L : CallList W α) (hm : p.meaning w = .ok g w1)
    (hb : p.build w = some (.ok L w1)) (f : W → α → α → Answer × W) (ord : α → α → Ordering) [Std.TransCmp ord]
    (hf : ∀ w a b, (f w a b).1 = .ord (ord a b)) (w2 w3 : W) (xs : List α) (hx : g.collect w2 = .ok xs w3) :
    ∃ ys N w4, L.orderBy f w2 = some (.ok N w4) ∧ (∀ w5, N.toList w5 = some (.ok ys w5)) ∧ ys.Perm xs ∧
      ys.Pairwise (fun x y => ord x y ≠ .gt) := by
  have hL := p.holds hp hm hb
  rw [orderBy, hL.toList, hx]
  simp only [andThen]
  have hN : ∀ ys : List α, (ofList ys : CallList W α).Holds (.ofList ys) True := fun ys => holds_ofList ys
  by_cases h0 : xs.length > 0
  · rw [if_pos h0]
    obtain ⟨d, st, ys, e, e1, h1, h2⟩ := C97_sort_effects_sorts (E := sortEnv f) (ord := ord) hf (fun _ _ => rfl) [] xs [] w3
    simp only [List.nil_append, List.append_nil, List.length_nil, Int.natCast_zero] at e e1
    rw [e]
    exact ⟨ys, _, _, rfl, fun w5 => by rw [e1, (hN ys).toList, Gen.ofList_collect], h1, h2⟩
  · rw [if_neg h0]
    have : xs = [] := List.length_eq_zero_iff.1 (by omega)
    subst this
    exact ⟨[], _, _, rfl, fun w5 => by rw [(hN []).toList, Gen.ofList_collect], .refl _, .nil⟩

/-! ## `OrderByKey` -/

/-- **C98, `OrderByKey`.** One comparison is one call of the key function for each of the two elements, in either order
(the language leaves it open); if the first of them throws, the second is not called; the answer is that of the keys, in the
order of the elements, also if they are not comparable. -/
theorem C98_byKey (key : α → Option κ) (cmp : κ → κ → Option Ordering) (leftFirst : Bool) (log : List α) (a b : α) :
    let calls := if leftFirst then [a, b] else [b, a]
    let answer := byKey (fun w x => (key x, w ++ [x])) cmp leftFirst log a b
    (∀ x y o, key a = some x → key b = some y → cmp x y = some o → answer = (.ord o, log ++ calls)) ∧
    (∀ x y, key a = some x → key b = some y → cmp x y = none → answer = (.unordered, log ++ calls)) ∧
    (∀ x y, calls = [x, y] → key x = none → answer = (.threw, log ++ [x])) ∧
    (∀ x y, calls = [x, y] → key x ≠ none → key y = none → answer = (.threw, log ++ [x, y])) := by
  cases leftFirst
  · refine ⟨?_, ?_, ?_, ?_⟩
    · intro x y o h1 h2 h3; simp [byKey, answerOf, h1, h2, h3]
    · intro x y h1 h2 h3; simp [byKey, answerOf, h1, h2, h3]
    · intro x y h h1
      simp only [Bool.false_eq_true, if_false, List.cons.injEq, and_true] at h
      obtain ⟨rfl, rfl⟩ := h
      simp [byKey, h1]
    · intro x y h h1 h2
      simp only [Bool.false_eq_true, if_false, List.cons.injEq, and_true] at h
      obtain ⟨rfl, rfl⟩ := h
      obtain ⟨k, hk⟩ := Option.ne_none_iff_exists'.1 h1
      simp [byKey, hk, h2]
  · refine ⟨?_, ?_, ?_, ?_⟩
    · intro x y o h1 h2 h3; simp [byKey, answerOf, h1, h2, h3]
    · intro x y h1 h2 h3; simp [byKey, answerOf, h1, h2, h3]
    · intro x y h h1
      simp only [if_true, List.cons.injEq, and_true] at h
      obtain ⟨rfl, rfl⟩ := h
      simp [byKey, h1]
    · intro x y h h1 h2
      simp only [if_true, List.cons.injEq, and_true] at h
      obtain ⟨rfl, rfl⟩ := h
      obtain ⟨k, hk⟩ := Option.ne_none_iff_exists'.1 h1
      simp [byKey, hk, h2]

/-- **C98, `OrderByKey` sorts.** If the key function does not throw and its result depends on its argument only, the
sequence is sorted by keys, whatever else the key function does, and whichever operand of `<=>` is computed first. -/
theorem C98_orderByKey_sorts (p : CallPipe W α) (hp : p.Ok) (w w1 : W) (g : Gen W α) (L : CallList W α) (hm : p.meaning w = .ok g w1)
    (hb : p.build w = some (.ok L w1)) (f : W → α → Option κ × W) (key : α → κ) (hf : ∀ w x, (f w x).1 = some (key x))
    (ord : κ → κ → Ordering) [Std.TransCmp ord] (leftFirst : Bool) (w2 w3 : W) (xs : List α) (hx : g.collect w2 = .ok xs w3) :
    ∃ ys N w4, L.orderByKey f (fun a b => some (ord a b)) leftFirst w2 = some (.ok N w4) ∧
      (∀ w5, N.toList w5 = some (.ok ys w5)) ∧ ys.Perm xs ∧ ys.Pairwise (fun x y => ord (key x) (key y) ≠ .gt) := by
  have hf' : ∀ w x, f w x = (some (key x), (f w x).2) := fun w x => by rw [← hf w x]
  haveI : Std.TransCmp (fun a b => ord (key a) (key b)) :=
    { eq_swap := Std.OrientedCmp.eq_swap (cmp := ord), isLE_trans := fun h1 h2 => Std.TransCmp.isLE_trans (cmp := ord) h1 h2 }
  refine C98_orderBy_sorts p hp w w1 g L hm hb _ (fun a b => ord (key a) (key b)) ?_ w2 w3 xs hx
  intro w a b
  cases leftFirst
  · simp only [byKey]; rw [hf' w b]; simp only [Bool.false_eq_true, if_false]; rw [hf' _ a]; rfl
  · simp only [byKey]; rw [hf' w a]; simp only [if_true]; rw [hf' _ b]; rfl

/-! ## `OrderBySelf` -/

/-- **C98, `OrderBySelf`** is `OrderByKey` with the element as its key: also for elements that are not comparable. -/
theorem C98_orderBySelf (L : CallList W α) (cmp : α → α → Option Ordering) (leftFirst : Bool) (w : W) :
    L.orderBySelf cmp w = L.orderByKey (fun w x => (some x, w)) cmp leftFirst w := by
  have : byKey (fun (w : W) (x : α) => (some x, w)) cmp leftFirst = fun w a b => (answerOf (cmp a b), w) := by
    funext w a b
    cases leftFirst <;> rfl
  rw [orderBySelf, orderByKey, this]

/-- **C98, `OrderBySelf` sorts**, ascending. -/
theorem C98_orderBySelf_sorts (p : CallPipe W α) (hp : p.Ok) (w w1 : W) (g : Gen W α) (L : CallList W α) (hm : p.meaning w = .ok g w1)
    (hb : p.build w = some (.ok L w1)) (ord : α → α → Ordering) [Std.TransCmp ord] (w2 w3 : W) (xs : List α) (hx : g.collect w2 = .ok xs w3) :
    ∃ ys N w4, L.orderBySelf (fun a b => some (ord a b)) w2 = some (.ok N w4) ∧ (∀ w5, N.toList w5 = some (.ok ys w5)) ∧ ys.Perm xs ∧
      ys.Pairwise (fun x y => ord x y ≠ .gt) := by
  rw [C98_orderBySelf L _ true]
  exact C98_orderByKey_sorts p hp w w1 g L hm hb (fun w x => (some x, w)) id (fun _ _ => rfl) ord true w2 w3 xs hx

/-! ## `GroupBy` -/

/-- **C98, `GroupBy`.** Making the list calls nothing.  The keys are computed by calling the key function for one element
after the other as they are wanted; the group of a key is computed by calling the key function for the elements of the
source again, as its elements are wanted. -/
theorem C98_groupBy (p : CallPipe W α) (hp : p.Ok) (w w1 : W) (g : Gen W α) (L : CallList W α) (hm : p.meaning w = .ok g w1)
    (hb : p.build w = some (.ok L w1)) (f : α → Cpp W κ) (ord : κ → κ → Ordering) [Std.TransCmp ord] (eq : κ → κ → Bool) (w2 : W) :
    (∃ K, L.groupKeys f (fun a b => some (ord a b)) w2 = some (.ok K w2) ∧
      ∀ (w3 : W) (ops : List ReadOp) (r : Outcome W (List (ReadRet κ × W))),
        Reader.run ((g.map f).firsts (Spec.eqBy ord) []) [] w3 ops = some r → K.run [] w3 ops = some r) ∧
    (∀ k, ∃ G, L.groupOf f eq k w2 = some (.ok G w2) ∧
      ∀ (w3 : W) (ops : List ReadOp) (r : Outcome W (List (ReadRet α × W))),
        Reader.run (g.filter (fun t => Cpp.bind' (f t) fun k' => Cpp.pure' (eq k k'))) [] w3 ops = some r → G.run [] w3 ops = some r) := by
  have hL := p.holds hp hm hb
  constructor
  · obtain ⟨M, e, hM⟩ := hL.select f w2
    obtain ⟨K, e', hK⟩ := hM.distinct ord w2
    exact ⟨K, by rw [groupKeys, e]; exact e', fun w3 ops r hr => hK.run w3 ops r hr⟩
  · intro k
    obtain ⟨G, e, hG⟩ := hL.where' (fun t => Cpp.bind' (f t) fun k' => Cpp.pure' (eq k k')) w2
    exact ⟨G, e, fun w3 ops r hr => hG.run w3 ops r hr⟩

open Spec (tracked eqBy moody)

theorem filter_tracked_collect (t : α → Bool) (f : α → Cpp (List α) Bool) (hf : ∀ x log, f x log = .ok (t x) (log ++ [x])) (xs log : List α) :
    (Gen.filter f (.ofList xs)).collect log = .ok (xs.filter t) (log ++ xs) := by
  have : ∀ (xs : List α) (acc : List α) (log : List α),
      (Gen.filter f (.ofList xs)).foldM (fun l x => Cpp.pure' (l ++ [x])) acc log = .ok (acc ++ xs.filter t) (log ++ xs) := by
    intro xs
    induction xs with
    | nil => intro acc log; simp [Gen.ofList, Gen.filter, Gen.foldM]
    | cons x xs ih =>
      intro acc log
      simp only [Gen.ofList, Gen.filter, Gen.foldM, hf]
      cases h : t x
      · simp only [cond_false]; rw [ih]; simp [h]
      · simp only [cond_true, Gen.foldM, Cpp.pure'_apply]; rw [ih]; simp [h]
  exact this xs [] log

theorem foldM_firsts {β : Type} (ord : κ → κ → Ordering) [Std.TransCmp ord] (key : α → κ) (h : κ → β) (ys : List α) (body : List β → κ → Cpp (List α) (List β))
    (hb : ∀ acc k log, body acc k log = .ok (acc ++ [h k]) (log ++ ys)) : ∀ (xs : List α) (seen : List κ) (acc : List β) (log : List α),
    ∃ log', Gen.foldM body acc (Gen.firsts (eqBy ord) seen (Gen.map (tracked key) (.ofList xs))) log =
        .ok (acc ++ ((Spec.firsts (eqBy ord) (xs.map key)).filter (fun z => !seen.any (fun y => eqBy ord y z))).map h) log' ∧
      log'.Perm (log ++ xs ++
        (List.replicate ((Spec.firsts (eqBy ord) (xs.map key)).filter (fun z => !seen.any (fun y => eqBy ord y z))).length ys).flatten) := by
  intro xs
  induction xs with
  | nil => intro seen acc log; exact ⟨log, by simp [Gen.ofList, Gen.map, Gen.firsts, Gen.foldM, Spec.firsts], by simp [Spec.firsts]⟩
  | cons x xs ih =>
    intro seen acc log
    simp only [Gen.ofList, Gen.map, Gen.firsts, Gen.foldM, tracked, List.map_cons, Spec.firsts, List.filter_cons]
    cases hs : seen.any (fun y => eqBy ord y (key x)) with
    | true =>
      simp only [cond_true, Bool.not_true, Bool.false_eq_true, if_false]
      have : ((Spec.firsts (eqBy ord) (xs.map key)).filter (fun y => !eqBy ord (key x) y)).filter (fun z => !seen.any (fun y => eqBy ord y z)) =
          (Spec.firsts (eqBy ord) (xs.map key)).filter (fun z => !seen.any (fun y => eqBy ord y z)) := by
        rw [List.filter_filter]
        refine List.filter_congr fun z _ => ?_
        cases hz : seen.any (fun y => eqBy ord y z) with
        | true => rfl
        | false =>
          obtain ⟨y, hy, e⟩ := List.any_eq_true.1 hs
          have hn := List.any_eq_false.1 hz y hy
          cases hk : eqBy ord (key x) z with
          | false => rfl
          | true =>
            simp only [eqBy, beq_iff_eq] at e hk hn
            exact absurd (Std.TransCmp.eq_trans e hk) hn
      rw [this]
      obtain ⟨log', e, hp⟩ := ih seen acc (log ++ [x])
      exact ⟨log', e, by simpa using hp⟩
    | false =>
      simp only [cond_false, Bool.not_false, if_true, Gen.foldM, hb]
      have : ((Spec.firsts (eqBy ord) (xs.map key)).filter (fun y => !eqBy ord (key x) y)).filter (fun z => !seen.any (fun y => eqBy ord y z)) =
          (Spec.firsts (eqBy ord) (xs.map key)).filter (fun z => !(seen ++ [key x]).any (fun y => eqBy ord y z)) := by
        rw [List.filter_filter]
        refine List.filter_congr fun z _ => ?_
        simp [Bool.and_comm]
      rw [this]
      obtain ⟨log', e, hp⟩ := ih (seen ++ [key x]) (acc ++ [h (key x)]) (log ++ [x] ++ ys)
      refine ⟨log', by rw [e]; simp, hp.trans ?_⟩
      simp only [List.length_cons, List.replicate_succ, List.flatten_cons, List.append_assoc, List.cons_append, List.nil_append]
      refine List.Perm.append_left _ (List.Perm.cons _ ?_)
      rw [← List.append_assoc, ← List.append_assoc]
      exact List.Perm.append_right _ List.perm_append_comm

/-- **C98, what looping over the groups costs.** A loop over `GroupBy(f)` that copies each group gets every group with its
key, in the order of the first appearances; but the key function is not called once for each element: it is called once
for each element and once more for each element and each group. -/
theorem C98_groupBy_calls (xs : List α) (key : α → κ) (ord : κ → κ → Ordering) [Std.TransCmp ord] (log : List α) :
    ∃ log', (ofList xs : CallList (List α) α).forGroups (tracked key) (fun a b => some (ord a b)) (eqBy ord) log =
        some (.ok ((Spec.firsts (eqBy ord) (xs.map key)).map fun k => (k, xs.filter fun x => eqBy ord k (key x))) log') ∧
      log'.Perm (log ++ xs ++ (List.replicate (Spec.firsts (eqBy ord) (xs.map key)).length xs).flatten) := by
  have hL : (ofList xs : CallList (List α) α).Holds (.ofList xs) True := holds_ofList xs
  obtain ⟨M, e, hM⟩ := hL.select (tracked key) log
  obtain ⟨K, e', hK⟩ := hM.distinct ord log
  rw [forGroups, groupKeys, e]
  simp only [andThen]
  rw [e']
  simp only
  rw [hK.fold]
  have hb : ∀ (acc : List (κ × List α)) (k : κ) (log : List α),
      (ofList xs : CallList (List α) α).copyGroup (tracked key) (eqBy ord) acc k log = .ok (acc ++ [(k, xs.filter fun x => eqBy ord k (key x))]) (log ++ xs) := by
    intro acc k log
    obtain ⟨G, eG, hG⟩ := hL.where' (fun t => Cpp.bind' (tracked key t) fun k' => Cpp.pure' (eqBy ord k k')) log
    rw [copyGroup, groupOf, eG]
    simp only [andThen]
    have hc : (Gen.filter (fun t => Cpp.bind' (tracked key t) fun k' => Cpp.pure' (eqBy ord k k')) (.ofList xs)).collect log =
        .ok (xs.filter fun x => eqBy ord k (key x)) (log ++ xs) := filter_tracked_collect _ _ (fun _ _ => rfl) xs log
    rw [hG.toList, hc]
  obtain ⟨log', h1, h2⟩ := foldM_firsts ord key (fun k => (k, xs.filter fun x => eqBy ord k (key x))) xs _ hb xs [] [] log
  rw [List.filter_eq_self.2 (by simp)] at h1 h2
  exact ⟨log', by rw [h1]; simp, h2⟩

/-- If all keys are different, the number of calls is quadratic. -/
theorem C98_groupBy_quadratic (xs : List Nat) (hx : xs.Nodup) :
    ∃ r log', (ofList xs : CallList (List Nat) Nat).forGroups (tracked id) (fun a b => some (compare a b)) (eqBy compare) [] = some (.ok r log') ∧
      log'.length = xs.length * (1 + xs.length) := by
  obtain ⟨log', h1, h2⟩ := C98_groupBy_calls xs id compare []
  refine ⟨_, log', h1, ?_⟩
  have : Spec.firsts (eqBy compare) (xs.map id) = xs := by
    rw [List.map_id]
    clear h1 h2
    induction xs with
    | nil => rfl
    | cons x xs ih =>
      rw [List.nodup_cons] at hx
      rw [Spec.firsts, ih hx.2, List.filter_eq_self.2]
      intro y hy
      simp only [eqBy, Bool.not_eq_true', beq_eq_false_iff_ne, ne_eq, Nat.compare_eq_eq]
      rintro rfl
      exact hx.1 hy
  rw [h2.length_eq, this]
  simp [Nat.mul_add]

/-! ## Examples -/

/-- Four elements in two groups: twelve calls of the key function. -/
example : ∃ log', (ofList [31, 12, 22, 11] : CallList (List Nat) Nat).forGroups (tracked (· % 10)) (fun a b => some (compare a b)) (eqBy compare) [] =
      some (.ok [(1, [31, 11]), (2, [12, 22])] log') ∧ log'.length = 12 := by
  obtain ⟨log', h1, h2⟩ := C98_groupBy_calls [31, 12, 22, 11] (· % 10) compare []
  exact ⟨log', h1, h2.length_eq⟩

/-- `From({3, 1, 2}).Where(counted).OrderBy(counted comparison)`: the comparer counts its calls in the same world. -/
example : ∃ L ys N n, (CallPipe.where' (.list [3, 1, 2]) (fun _ (n : Nat) => .ok true (n + 1))).build 0 = some (.ok L 0) ∧
    L.orderBy (fun n a b => (.ord (compare a b), n + 100)) 0 = some (.ok N n) ∧ (∀ m, N.toList m = some (.ok ys m)) ∧
    ys.Perm [3, 1, 2] ∧ ys.Pairwise (fun x y : Nat => compare x y ≠ .gt) := by
  have hp : (CallPipe.where' (.list [3, 1, 2]) (fun (_ : Nat) (n : Nat) => .ok true (n + 1))).Ok := trivial
  obtain ⟨L, e⟩ := C86_lazy_partial _ hp trivial 0
  obtain ⟨ys, N, n, h1, h2, h3, h4⟩ := C98_orderBy_sorts _ hp 0 0 _ L rfl e (fun n a b => (.ord (compare a b), n + 100)) compare
    (fun _ _ _ => rfl) 0 3 [3, 1, 2] rfl
  exact ⟨L, ys, N, n, e, h1, h2, h3, h4⟩

/-- `From({3, 1, 2}).Where(counted).OrderBySelf()` -/
example : ∃ L ys N n, (CallPipe.where' (.list [3, 1, 2]) (fun _ (n : Nat) => .ok true (n + 1))).build 0 = some (.ok L 0) ∧
    L.orderBySelf (fun a b => some (compare a b)) 0 = some (.ok N n) ∧ (∀ m, N.toList m = some (.ok ys m)) ∧
    ys.Perm [3, 1, 2] ∧ ys.Pairwise (fun x y : Nat => compare x y ≠ .gt) := by
  have hp : (CallPipe.where' (.list [3, 1, 2]) (fun (_ : Nat) (n : Nat) => .ok true (n + 1))).Ok := trivial
  obtain ⟨L, e⟩ := C86_lazy_partial _ hp trivial 0
  obtain ⟨ys, N, n, h1, h2, h3, h4⟩ := C98_orderBySelf_sorts _ hp 0 0 _ L rfl e compare 0 3 [3, 1, 2] rfl
  exact ⟨L, ys, N, n, e, h1, h2, h3, h4⟩

/-- keys 1 and 0 (not comparable with anything), and a key function that throws -/
example : byKey (fun w x => (some x, w ++ [x])) (fun x y => if x = 0 ∨ y = 0 then none else some (compare x y)) false [] 1 0 = (.unordered, [0, 1]) ∧
    byKey (fun w x => (if x = 7 then none else some x, w ++ [x])) (fun x y => some (compare x y)) true [] 7 1 = (.threw, [7]) :=
  ⟨(C98_byKey some _ false [] 1 0).2.1 1 0 rfl rfl rfl,
    (C98_byKey (fun x => if x = 7 then none else some x) (fun x y => some (compare x y)) true [] 7 1).2.2.1 7 1 rfl rfl⟩

/-- An exception of `Select`'s function leaves `OrderBy` before the comparer is called. -/
example : ∃ L, (CallPipe.select (.list [1, 2, 3, 4]) moody).build [] = some (.ok L []) ∧
    L.orderBy (fun log _ _ => (.threw, log ++ [1000])) [] = some (.err [1, 2, 3]) := by
  have hp : (CallPipe.select (.list [1, 2, 3, 4]) moody).Ok := trivial
  obtain ⟨L, e⟩ := C86_lazy_partial _ hp trivial []
  exact ⟨L, e, C98_orderBy _ hp [] [] _ L rfl e (fun log _ _ => (.threw, log ++ [1000])) []⟩

end Vlpp
