import Verif.Spec.LazyList
import Verif.Lemmas.AtorOps3
import Verif.Lemmas.AtorSources

set_option autoImplicit false
namespace Vlpp
open Spec (eqBy firsts Ascending lexOrd)
namespace LazyList
universe u v u' v'
variable {α : Type u} {β : Type u'}

theorem Holds.create {L : LazyList.{u, v} α} {full : Bool} {xs : List α} {i0 : Int} (h : L.Holds full xs i0) :
    ∃ (c : L.A.Contract xs i0) (s : L.A.σ), L.create = some s ∧ c.R s [] xs ∧ (full = true → c.Resets ∧ c.Clones) := by
  obtain ⟨c, hr, hf⟩ := h
  obtain ⟨s, e, h⟩ := c.fresh hr
  exact ⟨c, s, e, h, hf⟩

theorem Holds.yields {L : LazyList.{u, v} α} {full : Bool} {xs : List α} {i0 : Int} (h : L.Holds full xs i0) :
    L.Yields xs := by
  obtain ⟨c, s, e, h, _⟩ := h.create
  exact ⟨s, e, c.delivers h⟩

theorem Holds.script {L : LazyList.{u, v} α} {xs : List α} {i0 : Int} (h : L.Holds true xs i0) (ops : List EnumOp) :
    ∃ s, L.create = some s ∧ L.A.runOps ops s = some (Spec.cursorRun xs ops (some 0)) := by
  obtain ⟨c, s, e, h, hf⟩ := h.create
  exact ⟨s, e, (c.runOps (hf rfl).1 (hf rfl).2 ops s).1 [] xs h⟩

theorem Holds.weaken {L : LazyList.{u, v} α} {full full' : Bool} {xs : List α} {i0 : Int} (h : L.Holds full xs i0)
    (hle : full' = true → full = true) : L.Holds full' xs i0 := by
  obtain ⟨c, h, hf⟩ := h
  exact ⟨c, h, fun h => hf (hle h)⟩

/-! ### Sources -/

theorem holds_ofList {α : Type} (xs : List α) : (ofList xs).Holds true xs (-1) :=
  ⟨Ator.listC xs, Ator.listC_start xs, fun _ => ⟨Ator.listC_resets xs, Ator.listC_clones xs⟩⟩

theorem holds_ofIter {α : Type} (xs : List α) : (ofIter xs).Holds true xs (-1) :=
  ⟨Ator.iterC xs, Ator.iterC_start xs, fun _ => ⟨Ator.iterC_resets xs, Ator.iterC_clones xs⟩⟩

theorem holds_range (start count : Int) : (range start count).Holds true (Ator.rangeValues start count) (-1) :=
  ⟨Ator.rangeC start count, Ator.rangeC_start start count,
    fun _ => ⟨Ator.rangeC_resets start count, Ator.rangeC_clones start count⟩⟩

theorem holds_empty : (empty.{u, v} (α := α)).Holds true [] (-1) :=
  ⟨Ator.emptyC, ⟨rfl, rfl⟩, fun _ => ⟨Ator.emptyC_resets, Ator.emptyC_clones⟩⟩

theorem holds_ofDict {κ ν : Type} (d : DictC κ ν) (hlen : d.keys.length = d.values.length) :
    (ofDict d).Holds false (d.keys.zip d.values) (-1) :=
  ⟨Ator.dictC d hlen, Ator.dictC_start d hlen, fun h => by cases h⟩

theorem holds_ofGroup {κ ν : Type} {g : GroupC κ ν} {m : κ → List ν} (h : Ator.Reads g m) :
    (ofGroup g).Holds false (Ator.blocks g m).flatten (-1) :=
  ⟨Ator.groupC m h, Ator.groupC_start h, fun h => by cases h⟩

/-! ### Operators -/
section operators
variable {L : LazyList.{u, v} α} {full : Bool} {xs : List α} {i0 : Int}

theorem Holds.select? (h : L.Holds full xs i0) {f : α → Option β} {g : α → β} (hf : ∀ x ∈ xs, f x = some (g x)) :
    ∃ N, L.select? f = some N ∧ N.Holds full (xs.map g) i0 := by
  obtain ⟨c, s, e, h, hfull⟩ := h.create
  refine ⟨⟨.select L.A f, (s, none)⟩, by simp [LazyList.select?, e], Ator.selectC c hf, ⟨[], xs, h, rfl, rfl, by simp⟩, ?_⟩
  exact fun ht => ⟨Ator.selectC_resets (hfull ht).1 hf, Ator.selectC_clones (hfull ht).2 hf⟩

theorem Holds.select (h : L.Holds full xs i0) (f : α → β) :
    ∃ N, L.select f = some N ∧ N.Holds full (xs.map f) i0 := h.select? (fun _ _ => rfl)

theorem Holds.where' (h : L.Holds full xs i0) (p : α → Bool) :
    ∃ N, L.where' p = some N ∧ N.Holds full (xs.filter p) (-1) := by
  obtain ⟨c, s, e, h, hfull⟩ := h.create
  refine ⟨⟨.where' L.A p, (s, -1)⟩, by simp [LazyList.where', e], Ator.whereC c p, ⟨[], xs, h, rfl, rfl, by simp, by simp⟩, ?_⟩
  exact fun ht => ⟨Ator.whereC_resets (hfull ht).1 p, Ator.whereC_clones (hfull ht).2 p⟩

theorem Holds.concat {M : LazyList.{u, v'} α} {ys : List α} {j0 : Int} (h : L.Holds full xs i0)
    (hM : M.Holds full ys j0) : ∃ N, L.concat M = some N ∧ N.Holds full (xs ++ ys) (-1) := by
  obtain ⟨c, s, e, h, hfull⟩ := h.create
  obtain ⟨c', s', e', h', hfull'⟩ := hM.create
  refine ⟨⟨.concat L.A M.A, ⟨s, s', -1, false⟩⟩, by simp [LazyList.concat, e, e'], Ator.concatC c c', ?_, ?_⟩
  · exact ⟨rfl, .inl ⟨rfl, xs, h, h', rfl⟩⟩
  · exact fun ht => ⟨Ator.concatC_resets (hfull ht).1 (hfull' ht).1, Ator.concatC_clones (hfull ht).2 (hfull' ht).2⟩

theorem Holds.pairwise {M : LazyList.{u', v'} β} {ys : List β} {j0 : Int} (h : L.Holds full xs i0)
    (hM : M.Holds full ys j0) : ∃ N, L.pairwise M = some N ∧ N.Holds full (xs.zip ys) i0 := by
  obtain ⟨c, s, e, h, hfull⟩ := h.create
  obtain ⟨c', s', e', h', hfull'⟩ := hM.create
  refine ⟨⟨.pairwise L.A M.A, ⟨s, s', none⟩⟩, by simp [LazyList.pairwise, e, e'], Ator.pairwiseC c c', ?_, ?_⟩
  · exact ⟨[], xs, [], ys, h, h', rfl, rfl, rfl, by simp⟩
  · exact fun ht => ⟨Ator.pairwiseC_resets (hfull ht).1 (hfull' ht).1, Ator.pairwiseC_clones (hfull ht).2 (hfull' ht).2⟩

theorem Holds.take (h : L.Holds full xs i0) (count : Int) (hcount : 1 ≤ count ∨ count - 1 ≤ i0) :
    ∃ N, L.take count = some N ∧ N.Holds full (xs.take count.toNat) i0 := by
  obtain ⟨c, s, e, h, hfull⟩ := h.create
  refine ⟨⟨.take L.A count, s⟩, by simp only [LazyList.take, e]; rfl, Ator.takeC c count hcount, ?_, ?_⟩
  · exact ⟨xs, h, by simp, by simp⟩
  · exact fun ht => ⟨Ator.takeC_resets (hfull ht).1 count hcount, Ator.takeC_clones (hfull ht).2 count hcount⟩

theorem Holds.skip (h : L.Holds full xs i0) (count : Int) (hcount : 0 ≤ count) :
    ∃ N, L.skip count = some N ∧ N.Holds full (xs.drop count.toNat) (i0 - count) := by
  obtain ⟨c, s, e, h, hfull⟩ := h.create
  refine ⟨⟨.skip L.A count, (s, false)⟩, by simp [LazyList.skip, e], Ator.skipC c count hcount, ?_, ?_⟩
  · exact .inl ⟨rfl, rfl, h, rfl⟩
  · exact fun ht => ⟨Ator.skipC_resets (hfull ht).1 count hcount, Ator.skipC_clones (hfull ht).2 count hcount⟩

theorem Holds.repeat' (h : L.Holds true xs i0) (count : Int) :
    ∃ N, L.repeat' count = some N ∧ N.Holds true (Ator.flat count.toNat xs) (-1) := by
  obtain ⟨c, s, e, h, hfull⟩ := h.create
  obtain ⟨hr, hc⟩ := hfull rfl
  refine ⟨⟨.repeat' L.A count, ⟨s, -1, 0⟩⟩, by simp [LazyList.repeat', e], Ator.repeatC c hr count, ?_, ?_⟩
  · refine ⟨0, [], xs, rfl, rfl, h, by simp [Ator.flat], ?_, .inl ⟨rfl, rfl⟩⟩
    unfold Ator.restOf
    split
    · next hlt =>
      have := Ator.flat_succ' (count.toNat - 0 - 1) xs
      rwa [show count.toNat - 0 - 1 + 1 = count.toNat by omega] at this
    · next hlt =>
      have : count.toNat = 0 := by omega
      simp [this, Ator.flat]
  · exact fun _ => ⟨Ator.repeatC_resets hr count, Ator.repeatC_clones hr hc count⟩

end operators

/-! ### Enumerating functions -/
section loops
variable {L : LazyList.{u, v} α} {full : Bool} {xs : List α} {i0 : Int}

theorem foldLoop_ok {A : Ator.{u, v} α} (c : A.Contract xs i0) (f : β → α → Option β) (g : β → List α → β)
    (hnil : ∀ b, g b [] = b) (hstep : ∀ b x l, x ∈ xs → ∃ b', f b x = some b' ∧ g b (x :: l) = g b' l) (acc : β) {s : A.σ}
    {ys zs : List α} (h : c.R s ys zs) : foldLoop A f acc s = some (.ok (g acc zs) ()) := by
  induction zs generalizing s ys acc with
  | nil =>
    obtain ⟨s', e, h'⟩ := c.stop h
    rw [foldLoop, e, hnil]
  | cons z zs ih =>
    obtain ⟨s', e, h'⟩ := c.step h
    have hcur := c.current h' z (by simp)
    have hz : z ∈ xs := by rw [← c.split h]; simp
    obtain ⟨acc', e', e''⟩ := hstep acc z zs hz
    rw [foldLoop, e]
    simp only [hcur, e']
    rw [ih acc' h', e'']

theorem Holds.aggregateInit (h : L.Holds full xs i0) (init : β) (f : β → α → β) :
    L.aggregateInit init f = some (.ok (xs.foldl f init) ()) := by
  obtain ⟨c, s, e, h, _⟩ := h.create
  rw [LazyList.aggregateInit, aggregateInit?, e]
  exact foldLoop_ok c _ (fun b l => l.foldl f b) (fun _ => rfl) (fun b x l _ => ⟨f b x, rfl, rfl⟩) init h

theorem foldl_snoc (xs acc : List α) : xs.foldl (fun l x => l ++ [x]) acc = acc ++ xs := by
  induction xs generalizing acc with
  | nil => simp
  | cons x xs ih => simp [ih]

theorem Holds.toList (h : L.Holds full xs i0) : L.toList = some (.ok xs ()) := by
  rw [LazyList.toList, h.aggregateInit, foldl_snoc]; rfl

theorem Holds.withFirst (h : L.Holds full xs i0) (k : Bool → L.A.σ → Option (Outcome Unit β)) :
    (xs = [] ∧ ∃ s', L.withFirst k = k false s') ∨
    ∃ (x : α) (l : List α) (c : L.A.Contract xs i0) (s : L.A.σ), xs = x :: l ∧ L.withFirst k = k true s ∧ c.R s [x] l ∧
      L.A.current s = some x := by
  obtain ⟨c, s, e, h, _⟩ := h.create
  cases xs with
  | nil =>
    obtain ⟨s', e', _⟩ := c.stop h
    exact .inl ⟨rfl, s', by simp [LazyList.withFirst, e, e']⟩
  | cons x l =>
    obtain ⟨s', e', h'⟩ := c.step h
    exact .inr ⟨x, l, c, s', rfl, by simp [LazyList.withFirst, e, e'], h', c.current h' x (by simp)⟩

theorem Holds.aggregate (h : L.Holds full xs i0) (f : α → α → α) :
    L.aggregate f = some (Spec.orError (Spec.foldl1 f xs)) := by
  unfold LazyList.aggregate
  rcases h.withFirst (fun b s =>
    if b then
      match L.A.current s with
      | none => some .fault
      | some x => foldLoop L.A (fun b a => some (f b a)) x s
    else some (.err ())) with ⟨rfl, s, e⟩ | ⟨x, l, c, s, rfl, e, hR, hcur⟩
  · exact e.trans rfl
  · refine e.trans ?_
    simp only [if_true, hcur]
    exact foldLoop_ok c _ (fun b l => l.foldl f b) (fun _ => rfl) (fun b x l _ => ⟨f b x, rfl, rfl⟩) x hR

theorem Holds.first (h : L.Holds full xs i0) :
    L.first = some (Spec.orError xs.head?) := by
  unfold LazyList.first
  rcases h.withFirst (fun b s => if b then currentOf L.A s else some (.err ())) with
    ⟨rfl, s, e⟩ | ⟨x, l, c, s, rfl, e, hR, hcur⟩
  · rw [e]; rfl
  · rw [e]; simp only [if_true, currentOf, hcur, List.head?_cons]; rfl

theorem Holds.firstOr (h : L.Holds full xs i0) (d : α) : L.firstOr d = some (.ok (xs.headD d) ()) := by
  unfold LazyList.firstOr
  rcases h.withFirst (fun b s => if b then currentOf L.A s else some (.ok d ())) with
    ⟨rfl, s, e⟩ | ⟨x, l, c, s, rfl, e, hR, hcur⟩
  · rw [e]; rfl
  · rw [e]; simp only [if_true, currentOf, hcur, List.headD_cons]

theorem foldl_last (l : List α) (x : α) : l.foldl (fun _ a => a) x = l.getLastD x := by
  induction l generalizing x with
  | nil => rfl
  | cons y l ih => rw [List.foldl_cons, ih]; simp [List.getLast?_cons]

theorem Holds.last (h : L.Holds full xs i0) :
    L.last = some (Spec.orError xs.getLast?) := by
  have : L.last = L.aggregate (fun _ a => a) := rfl
  rw [this, h.aggregate]
  cases xs with
  | nil => rfl
  | cons x l => simp only [Spec.foldl1, foldl_last, List.getLast?_cons]; simp [List.getLastD_eq_getLast?]

theorem Holds.lastOr (h : L.Holds full xs i0) (d : α) : L.lastOr d = some (.ok (xs.getLastD d) ()) := by
  rw [LazyList.lastOr, h.aggregateInit, foldl_last]

theorem countLoop_ok {A : Ator.{u, v} α} (c : A.Contract xs i0) (n : Int) {s : A.σ}
    {ys zs : List α} (h : c.R s ys zs) : countLoop A n s = some (.ok (n + zs.length) ()) := by
  induction zs generalizing s ys n with
  | nil =>
    obtain ⟨s', e, h'⟩ := c.stop h
    rw [countLoop, e]; simp
  | cons z zs ih =>
    obtain ⟨s', e, h'⟩ := c.step h
    rw [countLoop, e]
    simp only
    rw [ih (n + 1) h']
    simp only [List.length_cons]
    congr 2; omega

theorem Holds.count (h : L.Holds full xs i0) : L.count = some (.ok (xs.length : Int) ()) := by
  obtain ⟨c, s, e, h, _⟩ := h.create
  rw [LazyList.count, e]
  simp only
  rw [countLoop_ok c 0 h]; simp

theorem Holds.isEmpty (h : L.Holds full xs i0) : L.isEmpty = some (.ok xs.isEmpty ()) := by
  unfold LazyList.isEmpty
  rcases h.withFirst (fun b _ => some (.ok (!b) ())) with ⟨rfl, s, e⟩ | ⟨x, l, c, s, rfl, e, hR, hcur⟩ <;> rw [e] <;> rfl

theorem compareLoop_ok {A : Ator.{u, v} α} {B : Ator.{u', v'} β} {us : List β} {j0 : Int} (c : A.Contract xs i0)
    (c' : B.Contract us j0) {cmp : α → β → Option Ordering} {ord : α → β → Ordering}
    (hcmp : ∀ a b, cmp a b = some (ord a b)) {s : A.σ} {t : B.σ} {ys zs : List α} {ys' zs' : List β}
    (h : c.R s ys zs) (h' : c'.R t ys' zs') : compareLoop A B cmp s t = some (.ok (some (lexOrd ord zs zs')) ()) := by
  induction zs generalizing s t ys ys' zs' with
  | nil =>
    obtain ⟨s1, e1, _⟩ := c.stop h
    cases zs' with
    | nil =>
      obtain ⟨t1, e2, _⟩ := c'.stop h'
      rw [compareLoop, e1, e2]; rfl
    | cons y zs' =>
      obtain ⟨t1, e2, _⟩ := c'.step h'
      rw [compareLoop, e1, e2]; rfl
  | cons x zs ih =>
    obtain ⟨s1, e1, h1⟩ := c.step h
    cases zs' with
    | nil =>
      obtain ⟨t1, e2, _⟩ := c'.stop h'
      rw [compareLoop, e1, e2]; rfl
    | cons y zs' =>
      obtain ⟨t1, e2, h2⟩ := c'.step h'
      have q1 := c.current h1 x (by simp)
      have q2 := c'.current h2 y (by simp)
      rw [compareLoop, e1, e2]
      simp only [Bool.not_true, Bool.and_false, Bool.and_true, Bool.false_eq_true, if_false, q1, q2, hcmp, Spec.lexOrd]
      cases ord x y with
      | eq => simpa using ih h1 h2
      | lt => rfl
      | gt => rfl

theorem Holds.compare {M : LazyList.{u', v'} β} {full' : Bool} {ys : List β} {j0 : Int} (h : L.Holds full xs i0)
    (hM : M.Holds full' ys j0) {cmp : α → β → Option Ordering} {ord : α → β → Ordering}
    (hcmp : ∀ a b, cmp a b = some (ord a b)) : L.compare M cmp = some (.ok (some (lexOrd ord xs ys)) ()) := by
  obtain ⟨c, s, e, h, _⟩ := h.create
  obtain ⟨c', s', e', h', _⟩ := hM.create
  rw [LazyList.compare, e, e']
  exact compareLoop_ok c c' hcmp h h'

theorem evaluated_concat {L : LazyList.{u, v} α} {M : LazyList.{u, v'} α} {N : LazyList.{u, max v v'} α}
    (h : L.concat M = some N) : N.A.evaluated = (L.A.evaluated && M.A.evaluated) := by
  unfold LazyList.concat at h
  cases h1 : L.create with
  | none => rw [h1] at h; cases h
  | some s =>
    cases h2 : M.create with
    | none => rw [h1, h2] at h; cases h
    | some t => rw [h1, h2] at h; cases h; rfl

theorem Holds.selectMany? {f : α → Option (LazyList.{u', v'} β)} {g : α → List β} {ev : α → Bool}
    (h : L.Holds full xs i0)
    (hf : ∀ x ∈ xs, ∃ N j0, f x = some N ∧ N.Holds full (g x) j0 ∧ N.A.evaluated = ev x) :
    ∃ N, L.selectMany? f = some (.ok N ()) ∧ N.Holds full (xs.flatMap g) (-1) ∧ N.A.evaluated = xs.all ev := by
  have hf' : ∀ x ∈ xs, f x = some ((f x).getD LazyList.empty) := by
    intro x hx
    obtain ⟨N, _, e, _⟩ := hf x hx
    rw [e]; rfl
  obtain ⟨M, e, hM⟩ := h.select? hf'
  obtain ⟨c, s, e', hR, _⟩ := hM.create
  rw [LazyList.selectMany?, e]
  simp only
  rw [aggregateInit?, e']
  simp only
  -- the loop of `Aggregate` over the selected lists
  have key : ∀ (zs : List α) (ys : List (LazyList.{u', v'} β)) (s : M.A.σ) (a : LazyList.{u', v'} β) (l : List β),
      (∀ x ∈ zs, ∃ N j0, f x = some N ∧ N.Holds full (g x) j0 ∧ N.A.evaluated = ev x) →
      c.R s ys (zs.map (fun x => (f x).getD LazyList.empty)) → a.Holds full l (-1) →
      ∃ N, foldLoop M.A (fun a b => a.concat b) a s = some (.ok N ()) ∧ N.Holds full (l ++ zs.flatMap g) (-1) ∧
        N.A.evaluated = (a.A.evaluated && zs.all ev) := by
    intro zs
    induction zs with
    | nil =>
      intro ys s a l _ hR ha
      obtain ⟨s', q, _⟩ := c.stop hR
      exact ⟨a, by rw [foldLoop, q], by simpa using ha, by simp⟩
    | cons z zs ih =>
      intro ys s a l hz hR ha
      obtain ⟨s', q, hR'⟩ := c.step hR
      obtain ⟨N, j0, ez, hfz, hev⟩ := hz z (by simp)
      have hcur := c.current hR' N (by simp [ez])
      obtain ⟨a', q', ha'⟩ := ha.concat hfz
      obtain ⟨N, qN, hN, hNe⟩ := ih _ _ _ _ (fun x hx => hz x (by simp [hx])) hR' ha'
      refine ⟨N, ?_, by simpa using hN, ?_⟩
      · rw [foldLoop, q]
        simp only [hcur, q']
        exact qN
      · rw [hNe, evaluated_concat q', hev]; simp [Bool.and_assoc]
  obtain ⟨N, q, hN, hNe⟩ := key xs [] s LazyList.empty [] hf hR (by
    obtain ⟨c0, h0, h1⟩ := holds_empty.{u', v'} (α := β)
    exact ⟨c0, h0, fun _ => h1 rfl⟩)
  refine ⟨N, q, by simpa using hN, ?_⟩
  rw [hNe]
  show (true && xs.all ev) = _
  simp

theorem Holds.selectMany {f : α → LazyList.{u', v'} β} {g : α → List β} (h : L.Holds full xs i0)
    (hf : ∀ x ∈ xs, ∃ j0, (f x).Holds full (g x) j0) :
    ∃ N, L.selectMany f = some (.ok N ()) ∧ N.Holds full (xs.flatMap g) (-1) := by
  obtain ⟨N, e, hN, _⟩ := h.selectMany? (f := fun x => some (f x)) (g := g) (ev := fun x => (f x).A.evaluated)
    (fun x hx => by obtain ⟨j0, h⟩ := hf x hx; exact ⟨f x, j0, rfl, h, rfl⟩)
  exact ⟨N, e, hN⟩

theorem Holds.all (h : L.Holds full xs i0) (f : α → Bool) : L.all f = some (.ok (xs.all f) ()) := by
  obtain ⟨N, e, hN⟩ := h.select f
  rw [LazyList.all, e]
  simp only
  rw [hN.aggregateInit]
  have : ∀ (l : List α) (b : Bool), (l.map f).foldl (fun a b => a && b) b = (b && l.all f) := by
    intro l
    induction l with
    | nil => simp
    | cons x l ih => intro b; simp only [List.map_cons, List.foldl_cons, ih, List.all_cons, Bool.and_assoc]
  rw [this]; simp

theorem Holds.any (h : L.Holds full xs i0) (f : α → Bool) : L.any f = some (.ok (xs.any f) ()) := by
  obtain ⟨N, e, hN⟩ := h.select f
  rw [LazyList.any, e]
  simp only
  rw [hN.aggregateInit]
  have : ∀ (l : List α) (b : Bool), (l.map f).foldl (fun a b => a || b) b = (b || l.any f) := by
    intro l
    induction l with
    | nil => simp
    | cons x l ih => intro b; simp only [List.map_cons, List.foldl_cons, ih, List.any_cons, Bool.or_assoc]
  rw [this]; simp

end loops

section ordered
variable {α : Type} {L : LazyList.{0, v} α} {full : Bool} {xs : List α} {i0 : Int}
variable {cmp : α → α → Option Ordering} {ord : α → α → Ordering} [Std.TransCmp ord]

theorem Holds.distinct (hcmp : KeyCmp cmp ord) (h : L.Holds full xs i0) :
    ∃ N, L.distinct cmp = some N ∧ N.Holds full (firsts (eqBy ord) xs) (-1) := by
  obtain ⟨c, s, e, h, hfull⟩ := h.create
  refine ⟨⟨.distinct L.A cmp, ⟨s, [], none⟩⟩, by simp [LazyList.distinct, e], Ator.distinctC hcmp c, ?_, ?_⟩
  · exact ⟨[], xs, h, rfl, (List.filter_eq_self.2 (by simp)).symm, ascending_nil, List.Perm.nil, by simp⟩
  · exact fun ht => ⟨Ator.distinctC_resets hcmp (hfull ht).1, Ator.distinctC_clones hcmp (hfull ht).2⟩

theorem holds_reverse (cache : List α) : (⟨.reverse, (cache, -1)⟩ : LazyList α).Holds true cache.reverse (-1) := by
  refine ⟨Ator.reverseC cache, ?_, fun _ => ⟨Ator.reverseC_resets cache, Ator.reverseC_clones cache⟩⟩
  exact ⟨rfl, rfl, rfl⟩

theorem Holds.reverse (h : L.Holds full xs i0) :
    ∃ N, L.reverse = some (.ok N ()) ∧ N.Holds true xs.reverse (-1) :=
  ⟨⟨.reverse, (xs, -1)⟩, by simp [LazyList.reverse, h.toList], holds_reverse xs⟩

theorem Holds.addSorted {M : LazyList.{0, v'} α} {full' : Bool} {ys : List α} {j0 : Int} (hcmp : KeyCmp cmp ord)
    (hM : M.Holds full' ys j0) : ∃ r, M.aggregateInit? [] (fun l x => Ator.addSorted cmp l [x]) = some (.ok r ()) ∧
      Ascending ord id r ∧ r.Perm ys := by
  obtain ⟨c, s, e, h, _⟩ := hM.create
  rw [aggregateInit?, e]
  simp only
  have key : ∀ (zs us : List α) (s : M.A.σ) (acc : List α), c.R s us zs → Ascending ord id acc →
      ∃ r, foldLoop M.A (fun l x => Ator.addSorted cmp l [x]) acc s = some (.ok r ()) ∧ Ascending ord id r ∧
        r.Perm (acc ++ zs) := by
    intro zs
    induction zs with
    | nil =>
      intro us s acc hR hacc
      obtain ⟨s', q, _⟩ := c.stop hR
      exact ⟨acc, by rw [foldLoop, q], hacc, by simp⟩
    | cons z zs ih =>
      intro us s acc hR hacc
      obtain ⟨s', q, hR'⟩ := c.step hR
      have hcur := c.current hR' z (by simp)
      obtain ⟨acc', q', hacc', hp⟩ := addSorted_spec hcmp [z] hacc
      obtain ⟨r, qr, hr, hpr⟩ := ih _ _ _ hR' hacc'
      refine ⟨r, ?_, hr, ?_⟩
      · rw [foldLoop, q]
        simp only [hcur, q']
        exact qr
      · refine hpr.trans ?_
        simpa using hp.append_right zs
  simpa using key ys [] s [] h ascending_nil

theorem Holds.intersectExcept {M : LazyList.{0, v'} α} {full' : Bool} {ys : List α} {j0 : Int} (hcmp : KeyCmp cmp ord)
    (h : L.Holds full xs i0) (hM : M.Holds full' ys j0) (b : Bool) :
    ∃ N, L.intersectExcept M cmp b = some (.ok N ()) ∧ N.Holds full (Ator.selectBy ord ys b xs) (-1) := by
  obtain ⟨c, s, e, h, hfull⟩ := h.create
  obtain ⟨r, er, hasc, hp⟩ := hM.addSorted hcmp
  refine ⟨⟨.intersectExcept L.A cmp b, ⟨s, r, -1⟩⟩, by simp [LazyList.intersectExcept, e, er],
    Ator.intersectExceptC hcmp c ys b, ?_, ?_⟩
  · exact ⟨[], xs, h, rfl, rfl, hasc, hp, rfl, by simp⟩
  · exact fun ht => ⟨Ator.intersectExceptC_resets hcmp (hfull ht).1 ys b, Ator.intersectExceptC_clones hcmp (hfull ht).2 ys b⟩

theorem Holds.thenDistinct {M : LazyList.{0, v'} α} {full' : Bool} {ys : List α} {j0 : Int} (hcmp : KeyCmp cmp ord)
    (h : L.Holds full xs i0) (hM : M.Holds full' ys j0) (b : Bool) :
    ∃ N, LazyList.thenDistinct (L.intersectExcept M cmp b) cmp = some (.ok N ()) ∧
      N.Holds full (firsts (eqBy ord) (Ator.selectBy ord ys b xs)) (-1) := by
  obtain ⟨N, e, hN⟩ := h.intersectExcept hcmp hM b
  obtain ⟨N', e', hN'⟩ := hN.distinct hcmp
  exact ⟨N', by simp [LazyList.thenDistinct, e, e'], hN'⟩

theorem Holds.union {M : LazyList.{0, v'} α} {ys : List α} {j0 : Int} (hcmp : KeyCmp cmp ord)
    (h : L.Holds full xs i0) (hM : M.Holds full ys j0) :
    ∃ N, L.union M cmp = some N ∧ N.Holds full (firsts (eqBy ord) (xs ++ ys)) (-1) := by
  obtain ⟨N, e, hN⟩ := h.concat hM
  obtain ⟨N', e', hN'⟩ := hN.distinct hcmp
  exact ⟨N', by simp [LazyList.union, e, e'], hN'⟩

end ordered

theorem Holds.evaluate {α : Type} {L : LazyList.{0, 0} α} {full : Bool} {xs : List α} {i0 : Int}
    (h : L.Holds full xs i0) (forceCopy : Bool) (hc : (!forceCopy && L.A.evaluated) = true) :
    ∃ N, L.evaluate forceCopy = some (.ok N ()) ∧ N.Holds full xs i0 ∧ N.A.evaluated = true := by
  refine ⟨L, ?_, h, by simp at hc; exact hc.2⟩
  rw [LazyList.evaluate, if_pos hc]

theorem Holds.evaluate_copy {α : Type} {L : LazyList.{0, 0} α} {full : Bool} {xs : List α} {i0 : Int}
    (h : L.Holds full xs i0) (forceCopy : Bool) (hc : ¬ (!forceCopy && L.A.evaluated) = true) :
    ∃ N, L.evaluate forceCopy = some (.ok N ()) ∧ N.Holds true xs (-1) ∧ N.A.evaluated = true := by
  refine ⟨ofContainer xs, ?_, holds_ofList xs, rfl⟩
  rw [LazyList.evaluate, if_neg hc, h.toList]; rfl

section groupBy
variable {α κ : Type} {L : LazyList.{0, v} α} {full : Bool} {xs : List α} {i0 : Int}
variable {cmp : κ → κ → Option Ordering} {ord : κ → κ → Ordering} [Std.TransCmp ord]

theorem Holds.groupBy (hcmp : KeyCmp cmp ord) (h : L.Holds full xs i0) (f : α → κ) (eq : κ → κ → Bool) :
    ∃ (N : LazyList.{v + 1, v + 1} (κ × LazyList.{0, v} α)) (part : κ → LazyList.{0, v} α),
      L.groupBy f cmp eq = some N ∧
      N.Holds full ((firsts (eqBy ord) (xs.map f)).map (fun k => (k, part k))) (-1) ∧
      ∀ k, (part k).Holds full (xs.filter (fun x => eq k (f x))) (-1) := by
  obtain ⟨K, e, hK⟩ := h.select f
  obtain ⟨K', e', hK'⟩ := hK.distinct hcmp
  have hw : ∀ k, ∃ M, L.where' (fun t => eq k (f t)) = some M ∧ M.Holds full (xs.filter (fun x => eq k (f x))) (-1) :=
    fun k => h.where' _
  let part : κ → LazyList.{0, v} α := fun k => Classical.choose (hw k)
  have hp : ∀ k, _ := fun k => Classical.choose_spec (hw k)
  obtain ⟨N, e'', hN⟩ := hK'.select? (f := fun k => (L.where' (fun t => eq k (f t))).map fun M => (k, M))
    (g := fun k => (k, part k)) (fun k _ => congrArg (Option.map fun M => (k, M)) (hp k).1)
  refine ⟨N, part, ?_, hN, fun k => (hp k).2⟩
  simp [LazyList.groupBy, e, e', e'']

end groupBy
end LazyList
end Vlpp
