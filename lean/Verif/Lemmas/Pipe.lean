import Verif.Spec.Pipe
import Verif.Lemmas.LazyList
import Verif.Props.SortProps

/-! # Every program made of lazy list functions enumerates the list it means -/
set_option autoImplicit false
namespace Vlpp

theorem QSort.result_spec {α : Type} (ord : α → α → Ordering) [Std.TransCmp ord] (xs : List α) :
    (∃ d, QSort.sort (fun a b => some (ord a b)) 0 xs.length 0 xs = some (.ok d (QSort.result ord xs))) ∧
    (QSort.result ord xs).Perm xs ∧ (QSort.result ord xs).Pairwise (fun x y => ord x y ≠ .gt) := by
  obtain ⟨d, ys, e, hp, hs⟩ := C15_sort (cmp := fun a b => some (ord a b)) (ord := ord) (fun _ _ => rfl) [] xs []
  simp only [List.nil_append, List.append_nil, List.length_nil] at e
  have e' : QSort.sort (fun a b => some (ord a b)) 0 xs.length 0 xs = some (.ok d ys) := e
  have : QSort.result ord xs = ys := by rw [QSort.result, e']
  rw [this]
  exact ⟨⟨d, e'⟩, hp, hs⟩

namespace LazyList
universe v
theorem Holds.orderBy {α : Type} {L : LazyList.{0, v} α} {full : Bool} {xs : List α} {i0 : Int} {ord : α → α → Ordering}
    [Std.TransCmp ord] (h : L.Holds full xs i0) :
    L.orderBy (fun a b => some (ord a b)) = some (.ok (ofContainer (QSort.result ord xs)) ()) := by
  rw [LazyList.orderBy, h.toList]
  simp only [Option.bind_some]
  obtain ⟨⟨d, e⟩, hp, _⟩ := QSort.result_spec ord xs
  split
  · rw [e]; rfl
  · have h0 : xs = [] := List.length_eq_zero_iff.1 (by omega)
    subst h0
    have : QSort.result ord ([] : List α) = [] := List.Perm.nil_eq hp.symm |>.symm
    rw [this]

theorem evaluated_pairwise {α β : Type} {L : LazyList.{0, 0} α} {M : LazyList.{0, 0} β} {N : LazyList.{0, 0} (α × β)}
    (h : L.pairwise M = some N) : N.A.evaluated = (L.A.evaluated && M.A.evaluated) := by
  unfold LazyList.pairwise at h
  cases h1 : L.create with
  | none => rw [h1] at h; cases h
  | some s =>
    cases h2 : M.create with
    | none => rw [h1, h2] at h; cases h
    | some t => rw [h1, h2] at h; cases h; rfl

theorem evaluated_thenDistinct {α : Type} {r : Option (Outcome Unit (LazyList.{0, 0} α))}
    {cmp : α → α → Option Ordering} {N : LazyList.{0, 0} α} (h : thenDistinct r cmp = some (.ok N ())) :
    N.A.evaluated = false := by
  unfold LazyList.thenDistinct at h
  cases r with
  | none => cases h
  | some r =>
    cases r with
    | err => cases h
    | fault => cases h
    | ok L u =>
      simp only [Option.map_some] at h
      unfold LazyList.distinct at h
      cases h1 : L.create with
      | none => rw [h1] at h; cases h
      | some s => rw [h1] at h; cases h; rfl
end LazyList

namespace Pipe

/-- the outcome of building a program: a lazy list that holds the meaning of the program -/
def Built {α : Type} (p : Pipe α) : Prop :=
  ∃ L, p.build = some (.ok L ()) ∧ L.A.evaluated = p.evaluated ∧
    ∀ full : Bool, (full = true → p.Full) → L.Holds full p.eval p.start

theorem built_map {α β : Type} {p : Pipe α} {q : Pipe β} {k : LazyList.{0, 0} α → Option (LazyList.{0, 0} β)}
    (hp : p.Built) (hq : q.build = andThen p.build fun L => ofOption (k L))
    (hk : ∀ L, L.A.evaluated = p.evaluated → (∀ full : Bool, (full = true → p.Full) → L.Holds full p.eval p.start) →
      (∃ N, k L = some N) ∧
      ∀ N, k L = some N → N.A.evaluated = q.evaluated ∧
        ∀ full : Bool, (full = true → q.Full) → N.Holds full q.eval q.start) : q.Built := by
  obtain ⟨L, e, hev, hL⟩ := hp
  obtain ⟨⟨N, eN⟩, h⟩ := hk L hev hL
  exact ⟨N, by rw [hq, e]; simp [andThen, eN, ofOption], (h N eN).1, (h N eN).2⟩

theorem built_of_create {α β : Type} {p : Pipe α} {q : Pipe β} {k : LazyList.{0, 0} α → Option (LazyList.{0, 0} β)}
    (hp : p.Built) (hq : q.build = andThen p.build fun L => ofOption (k L))
    (hev : ∀ L N, L.A.evaluated = p.evaluated → k L = some N → N.A.evaluated = q.evaluated)
    (hfull : q.Full → p.Full)
    (hk : ∀ L (full : Bool), (full = true → q.Full) → L.Holds full p.eval p.start →
      ∃ N, k L = some N ∧ N.Holds full q.eval q.start) : q.Built := by
  refine built_map hp hq fun L hL1 hL2 => ⟨?_, ?_⟩
  · obtain ⟨N, e, _⟩ := hk L false (fun h => by cases h) (hL2 false (fun h => by cases h))
    exact ⟨N, e⟩
  · intro N eN
    refine ⟨hev L N hL1 eN, fun full hf => ?_⟩
    obtain ⟨N', e, hN⟩ := hk L full hf (hL2 full (fun h => hfull (hf h)))
    rw [eN] at e; cases e
    exact hN

theorem built_of_create₂ {α β γ : Type} {p : Pipe α} {p' : Pipe β} {q : Pipe γ}
    {k : LazyList.{0, 0} α → LazyList.{0, 0} β → Option (LazyList.{0, 0} γ)}
    (hp : p.Built) (hp' : p'.Built) (hq : q.build = andThen p.build fun L => andThen p'.build fun M => ofOption (k L M))
    (hev : ∀ L M N, L.A.evaluated = p.evaluated → M.A.evaluated = p'.evaluated → k L M = some N →
      N.A.evaluated = q.evaluated)
    (hfull : q.Full → p.Full ∧ p'.Full)
    (hk : ∀ L M (full : Bool), L.Holds full p.eval p.start → M.Holds full p'.eval p'.start →
      ∃ N, k L M = some N ∧ N.Holds full q.eval q.start) : q.Built := by
  obtain ⟨L, e, hL1, hL2⟩ := hp
  obtain ⟨M, e', hM1, hM2⟩ := hp'
  obtain ⟨N, eN, _⟩ := hk L M false (hL2 false (fun h => by cases h)) (hM2 false (fun h => by cases h))
  refine ⟨N, by rw [hq, e, e']; simp [andThen, eN, ofOption], hev L M N hL1 hM1 eN, fun full hf => ?_⟩
  obtain ⟨N', e'', hN⟩ := hk L M full (hL2 full (fun h => (hfull (hf h)).1)) (hM2 full (fun h => (hfull (hf h)).2))
  rw [eN] at e''; cases e''
  exact hN

/-- operators that enumerate their sources at once -/
theorem built_set {α : Type} {p p' q : Pipe α}
    {k : LazyList.{0, 0} α → LazyList.{0, 0} α → Option (Outcome Unit (LazyList.{0, 0} α))}
    (hp : p.Built) (hp' : p'.Built) (hq : q.build = andThen p.build fun L => andThen p'.build fun M => k L M)
    (hev : ∀ L M N, k L M = some (.ok N ()) → N.A.evaluated = q.evaluated)
    (hfull : q.Full → p.Full)
    (hk : ∀ L M (full : Bool), L.Holds full p.eval p.start → M.Holds false p'.eval p'.start →
      ∃ N, k L M = some (.ok N ()) ∧ N.Holds full q.eval q.start) : q.Built := by
  obtain ⟨L, e, hL1, hL2⟩ := hp
  obtain ⟨M, e', hM1, hM2⟩ := hp'
  have hM := hM2 false (fun h => by cases h)
  obtain ⟨N, eN, _⟩ := hk L M false (hL2 false (fun h => by cases h)) hM
  refine ⟨N, by rw [hq, e, e']; simp [andThen, eN], hev L M N eN, fun full hf => ?_⟩
  obtain ⟨N', e'', hN⟩ := hk L M full (hL2 full (fun h => hfull (hf h))) hM
  rw [eN] at e''; cases e''
  exact hN

theorem built_source {α : Type} {p : Pipe α} {L : LazyList.{0, 0} α} (e : p.build = some (.ok L ()))
    (hev : L.A.evaluated = p.evaluated) (full : Bool) (hf : p.Full → full = true) (h : L.Holds full p.eval p.start) :
    p.Built := ⟨L, e, hev, fun _ hfull => h.weaken fun ht => hf (hfull ht)⟩

theorem selectBy_true {α : Type} (ord : α → α → Ordering) (ys xs : List α) :
    Ator.selectBy ord ys true xs = xs.filter (fun x => ys.any (fun y => Spec.eqBy ord y x)) := by
  unfold Ator.selectBy
  congr 1
  funext x
  simp

theorem selectBy_false {α : Type} (ord : α → α → Ordering) (ys xs : List α) :
    Ator.selectBy ord ys false xs = xs.filter (fun x => !ys.any (fun y => Spec.eqBy ord y x)) := by
  unfold Ator.selectBy
  congr 1
  funext x
  simp

theorem built {α : Type} (p : Pipe α) (h : p.Ok) : p.Built := by
  induction p with
  | list xs => exact built_source rfl rfl true (fun _ => rfl) (LazyList.holds_ofList xs)
  | iter xs => exact built_source rfl rfl true (fun _ => rfl) (LazyList.holds_ofIter xs)
  | range start count => exact built_source rfl rfl true (fun _ => rfl) (LazyList.holds_range start count)
  | empty => exact built_source rfl rfl true (fun _ => rfl) LazyList.holds_empty
  | dict d => exact built_source rfl rfl false (fun h => h.elim) (LazyList.holds_ofDict d h)
  | group g m =>
    refine built_source rfl rfl false (fun h => h.elim) ?_
    exact LazyList.holds_ofGroup (m := m) h
  | select p f ih =>
    refine built_of_create (ih h) rfl ?_ (fun h => h) ?_
    · intro L N _ e
      obtain ⟨s, _, rfl⟩ := Option.map_eq_some_iff.1 e
      rfl
    · intro L full _ hL
      exact hL.select f
  | where' p f ih =>
    refine built_of_create (ih h) rfl ?_ (fun h => h) ?_
    · intro L N _ e
      obtain ⟨s, _, rfl⟩ := Option.map_eq_some_iff.1 e
      rfl
    · intro L full _ hL
      exact hL.where' f
  | concat p q ihp ihq =>
    refine built_of_create₂ (ihp h.1) (ihq h.2) rfl ?_ (fun h => h) ?_
    · intro L M N h1 h2 e
      rw [LazyList.evaluated_concat e, h1, h2]; rfl
    · intro L M full hL hM
      exact hL.concat hM
  | pairwise p q ihp ihq =>
    refine built_of_create₂ (ihp h.1) (ihq h.2) rfl ?_ (fun h => h) ?_
    · intro L M N h1 h2 e
      rw [LazyList.evaluated_pairwise e, h1, h2]; rfl
    · intro L M full hL hM
      exact hL.pairwise hM
  | take p n ih =>
    refine built_of_create (ih h.1) rfl ?_ (fun h => h) ?_
    · intro L N h1 e
      obtain ⟨s, _, rfl⟩ := Option.map_eq_some_iff.1 e
      exact h1
    · intro L full _ hL
      exact hL.take n h.2
  | skip p n ih =>
    refine built_of_create (ih h.1) rfl ?_ (fun h => h) ?_
    · intro L N h1 e
      obtain ⟨s, _, rfl⟩ := Option.map_eq_some_iff.1 e
      exact h1
    · intro L full _ hL
      exact hL.skip n h.2
  | repeat' p n ih =>
    obtain ⟨L, e, hev, hL⟩ := ih h.1
    obtain ⟨N, eN, hN⟩ := (hL true (fun _ => h.2)).repeat' n
    refine ⟨N, by rw [build, e]; simp [andThen, eN, ofOption], ?_, fun _ _ => hN.weaken (fun _ => rfl)⟩
    obtain ⟨s, _, rfl⟩ := Option.map_eq_some_iff.1 eN
    exact hev
  | distinct p ord ih =>
    have := h.2
    refine built_of_create (ih h.1) rfl ?_ (fun h => h) ?_
    · intro L N h1 e
      obtain ⟨s, _, rfl⟩ := Option.map_eq_some_iff.1 e
      rfl
    · intro L full _ hL
      exact hL.distinct (ord := ord) (fun _ _ => rfl)
  | reverse p ih =>
    obtain ⟨L, e, hev, hL⟩ := ih h
    obtain ⟨N, eN, hN⟩ := (hL false (fun h => by cases h)).reverse
    refine ⟨N, by rw [build, e]; simp [andThen, eN], ?_, fun _ _ => hN.weaken (fun _ => rfl)⟩
    have h2 := (hL false (fun h => by cases h)).toList
    simp only [LazyList.reverse, h2, Option.map_some] at eN
    cases eN
    rfl
  | intersect p q ord ihp ihq =>
    obtain ⟨hp, hq, _⟩ := h
    refine built_set (ihp hp) (ihq hq) rfl (fun L M N e => LazyList.evaluated_thenDistinct e) (fun h => h) ?_
    intro L M full hL hM
    have := hL.thenDistinct (ord := ord) (fun _ _ => rfl) hM true
    rw [selectBy_true] at this
    exact this
  | except p q ord ihp ihq =>
    obtain ⟨hp, hq, _⟩ := h
    refine built_set (ihp hp) (ihq hq) rfl (fun L M N e => LazyList.evaluated_thenDistinct e) (fun h => h) ?_
    intro L M full hL hM
    have := hL.thenDistinct (ord := ord) (fun _ _ => rfl) hM false
    rw [selectBy_false] at this
    exact this
  | union p q ord ihp ihq =>
    obtain ⟨hp, hq, _⟩ := h
    refine built_of_create₂ (ihp hp) (ihq hq) rfl ?_ (fun h => h) ?_
    · intro L M N h1 h2 e
      obtain ⟨K, _, e⟩ := Option.bind_eq_some_iff.1 e
      obtain ⟨s, _, rfl⟩ := Option.map_eq_some_iff.1 e
      rfl
    · intro L M full hL hM
      exact hL.union (ord := ord) (fun _ _ => rfl) hM
  | selectMany p f ihp ihf =>
    obtain ⟨L, e, hev, hL⟩ := ihp h.1
    have key : ∀ full : Bool, (full = true → p.Full ∧ ∀ x, (f x).Full) →
        ∃ N, L.selectMany? (fun x => value (f x).build) = some (.ok N ()) ∧
          N.Holds full (p.eval.flatMap (fun x => (f x).eval)) (-1) ∧
          N.A.evaluated = p.eval.all (fun x => (f x).evaluated) := by
      intro full hf
      refine (hL full (fun h => (hf h).1)).selectMany? ?_
      intro x _
      obtain ⟨M, eM, hMev, hM⟩ := ihf x (h.2 x)
      exact ⟨M, (f x).start, by rw [eM]; rfl, hM full (fun h => (hf h).2 x), hMev⟩
    obtain ⟨N, eN, _, hN⟩ := key false (fun h => by cases h)
    refine ⟨N, by rw [build, e]; exact eN, hN, fun full hf => ?_⟩
    obtain ⟨N', eN', hN', _⟩ := key full hf
    rw [eN] at eN'; cases eN'
    exact hN'
  | evaluate p forceCopy ih =>
    obtain ⟨L, e, hev, hL⟩ := ih h
    have hL0 := hL false (fun h => by cases h)
    by_cases hc : (!forceCopy && p.evaluated) = true
    · refine ⟨L, ?_, ?_, fun full hf => ?_⟩
      · rw [build, e]; simp only [andThen]
        rw [LazyList.evaluate, if_pos (by rw [hev]; exact hc)]
      · rw [hev, evaluated]; simp at hc; exact hc.2
      · have : (Pipe.evaluate p forceCopy).start = p.start := by rw [start, if_pos hc]
        rw [this]
        refine hL full fun ht => ?_
        simp at hc
        rcases hf ht with h | h | h
        · rw [hc.1] at h; cases h
        · rw [hc.2] at h; cases h
        · exact h
    · obtain ⟨N, eN, hN, hNev⟩ := hL0.evaluate_copy forceCopy (by rw [hev]; exact hc)
      refine ⟨N, by rw [build, e]; exact eN, hNev, fun full hf => ?_⟩
      have : (Pipe.evaluate p forceCopy).start = -1 := by rw [start, if_neg hc]
      rw [this]
      exact hN.weaken fun _ => rfl
  | orderBy p ord ih =>
    have := h.2
    obtain ⟨L, e, hev, hL⟩ := ih h.1
    have hL0 := hL false (fun h => by cases h)
    refine ⟨.ofContainer (QSort.result ord p.eval), ?_, rfl, fun _ _ => ?_⟩
    · rw [build, e]; exact hL0.orderBy
    · exact (LazyList.holds_ofList _).weaken fun _ => rfl

end Pipe
end Vlpp
