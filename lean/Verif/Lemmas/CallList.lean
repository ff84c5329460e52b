import Verif.Spec.CallPipe
import Verif.Lemmas.CallAtor

/-! Lazy lists make the calls that are prescribed for their sequences. -/
set_option autoImplicit false
namespace Vlpp
open Spec (Gen)
variable {W α β : Type}

section loops
variable {A : CallAtor W α} {g0 : Gen W α} {i0 : Int}

theorem CallList.foldLoop_spec (c : A.Sim g0 i0) (body : β → α → Cpp W β) (g : Gen W α) : ∀ (acc : β) (s : A.σ) (ys : List α),
    c.R s ys g → ∀ w, foldLoop A body acc s w = some (g.foldM body acc w) := by
  induction g using Gen.induct with | _ g ih
  intro acc s ys h w
  rw [Gen.foldM_pull]
  have hn := c.next h w
  revert hn
  cases hp : g.pull w with
  | fault => intro hn; simp only [CallAtor.Answers] at hn; rw [foldLoop, hn]; rfl
  | err w1 => rintro ⟨s', e, hi⟩; rw [foldLoop, e]; rfl
  | ok o w1 =>
    match o with
    | none => rintro ⟨s', e, hi⟩; rw [foldLoop, e]; rfl
    | some (x, r) =>
      rintro ⟨s', e, hr⟩
      have hx := c.current hr x (CallAtor.last_append _ _)
      rw [foldLoop, e]
      simp only [hx, Gen.then']
      cases hb : body acc x w1 with
      | ok acc' w2 => exact ih w x r w1 hp acc' s' _ hr w2
      | err w2 => rfl
      | fault => rfl

theorem CallList.countLoop_spec (c : A.Sim g0 i0) (g : Gen W α) : ∀ (n : Int) (s : A.σ) (ys : List α),
    c.R s ys g → ∀ w, countLoop A n s w = some (g.foldM (fun n _ => Cpp.pure' (n + 1)) n w) := by
  induction g using Gen.induct with | _ g ih
  intro n s ys h w
  rw [Gen.foldM_pull]
  have hn := c.next h w
  revert hn
  cases hp : g.pull w with
  | fault => intro hn; simp only [CallAtor.Answers] at hn; rw [countLoop, hn]; rfl
  | err w1 => rintro ⟨s', e, hi⟩; rw [countLoop, e]; rfl
  | ok o w1 =>
    match o with
    | none => rintro ⟨s', e, hi⟩; rw [countLoop, e]; rfl
    | some (x, r) =>
      rintro ⟨s', e, hr⟩
      rw [countLoop, e]
      exact ih w x r w1 hp (n + 1) s' _ hr w1

end loops

namespace CallList

/-- The lazy list stands for the sequence `g`; if `fresh` holds, `Index()` of a new enumerator is -1. -/
def Holds (L : CallList W α) (g : Gen W α) (fresh : Prop) : Prop :=
  ∃ (i0 : Int) (c : L.A.Sim g i0), c.R L.prototype [] g ∧ (fresh → i0 = -1) ∧ (L.A.evaluated = true → ∃ xs, g = .ofList xs)

variable {L M : CallList W α} {g h : Gen W α} {fresh fresh' : Prop}

theorem Holds.weaken (h : L.Holds g fresh) (hf : fresh' → fresh) : L.Holds g fresh' := by
  obtain ⟨i0, c, hr, h1, h2⟩ := h
  exact ⟨i0, c, hr, fun q => h1 (hf q), h2⟩

theorem Holds.create (h : L.Holds g fresh) :
    ∃ (i0 : Int) (c : L.A.Sim g i0) (s : L.A.σ), L.create = some s ∧ c.R s [] g ∧ (fresh → i0 = -1) ∧
      (L.A.evaluated = true → ∃ xs, g = .ofList xs) := by
  obtain ⟨i0, c, hr, h1, h2⟩ := h
  obtain ⟨s, e, hs⟩ := c.clone hr
  exact ⟨i0, c, s, e, hs, h1, h2⟩

theorem holds_ofList (xs : List α) : (ofList xs : CallList W α).Holds (.ofList xs) True :=
  ⟨-1, CallAtor.listS xs, ⟨rfl, xs, rfl, rfl⟩, fun _ => rfl, fun _ => ⟨xs, rfl⟩⟩

theorem holds_empty : (empty : CallList W α).Holds .done True :=
  ⟨-1, CallAtor.emptyS, ⟨rfl, rfl⟩, fun _ => rfl, fun _ => ⟨[], rfl⟩⟩

theorem Holds.select (hL : L.Holds g fresh) (f : α → Cpp W β) (w : W) :
    ∃ N, L.select f w = some (.ok N w) ∧ N.Holds (g.map f) fresh := by
  obtain ⟨i0, c, s, e, hr, h1, h2⟩ := hL.create
  exact ⟨⟨.select L.A f, (s, none)⟩, by simp [CallList.select, e, ofOption], i0, CallAtor.selectS c f,
    ⟨[], g, hr, rfl, rfl, by simp⟩, h1, by simp [CallAtor.select]⟩

theorem Holds.where' (hL : L.Holds g fresh) (f : α → Cpp W Bool) (w : W) :
    ∃ N, L.where' f w = some (.ok N w) ∧ N.Holds (g.filter f) True := by
  obtain ⟨i0, c, s, e, hr, h1, h2⟩ := hL.create
  exact ⟨⟨.where' L.A f, (s, -1)⟩, by simp [CallList.where', e, ofOption], -1, CallAtor.whereS c f,
    ⟨[], g, hr, by simp, rfl, by simp⟩, fun _ => rfl, by simp [CallAtor.where']⟩

theorem Holds.concat (hL : L.Holds g fresh) (hM : M.Holds h fresh') (w : W) :
    ∃ N, L.concat M w = some (.ok N w) ∧ N.Holds (g.append h) True := by
  obtain ⟨i0, c, s, e, hr, h1, h2⟩ := hL.create
  obtain ⟨j0, d, t, e', hr', h1', h2'⟩ := hM.create
  refine ⟨⟨.concat L.A M.A, ⟨s, t, -1, false⟩⟩, by simp [CallList.concat, e, e', ofOption], -1, CallAtor.concatS c d,
    ⟨by simp, .inl ⟨rfl, g, hr, hr', rfl⟩⟩, fun _ => rfl, ?_⟩
  intro he
  simp only [CallAtor.concat, Bool.and_eq_true] at he
  obtain ⟨xs, rfl⟩ := h2 he.1
  obtain ⟨ys, rfl⟩ := h2' he.2
  exact ⟨_, Gen.ofList_append xs ys⟩

theorem Holds.pairwise {M : CallList W β} {h : Gen W β} (hL : L.Holds g fresh) (hM : M.Holds h fresh') (w : W) :
    ∃ N, L.pairwise M w = some (.ok N w) ∧ N.Holds (g.zip h) fresh := by
  obtain ⟨i0, c, s, e, hr, h1, h2⟩ := hL.create
  obtain ⟨j0, d, t, e', hr', h1', h2'⟩ := hM.create
  refine ⟨⟨.pairwise L.A M.A, ⟨s, t, none⟩⟩, by simp [CallList.pairwise, e, e', ofOption], i0, CallAtor.pairwiseS c d,
    ⟨[], g, [], h, hr, hr', rfl, rfl, by simp⟩, h1, ?_⟩
  intro he
  simp only [CallAtor.pairwise, Bool.and_eq_true] at he
  obtain ⟨xs, rfl⟩ := h2 he.1
  obtain ⟨ys, rfl⟩ := h2' he.2
  exact ⟨_, Gen.ofList_zip xs ys⟩

theorem Holds.take (hL : L.Holds g fresh) (n : Int) (hn : 1 ≤ n ∨ fresh) (w : W) :
    ∃ N, L.take n w = some (.ok N w) ∧ N.Holds (g.take n.toNat) fresh := by
  obtain ⟨i0, c, s, e, hr, h1, h2⟩ := hL.create
  refine ⟨⟨.take L.A n, s⟩, by rw [CallList.take, e]; rfl, i0, CallAtor.takeS c n (hn.imp_right h1),
    ⟨g, hr, by simp, rfl⟩, h1, ?_⟩
  intro he
  obtain ⟨xs, rfl⟩ := h2 he
  exact ⟨_, Gen.ofList_take _ xs⟩

theorem Holds.skip (hL : L.Holds g fresh) (n : Int) (hn : 0 ≤ n) (w : W) :
    ∃ N, L.skip n w = some (.ok N w) ∧ N.Holds (g.drop n.toNat) (fresh ∧ n = 0) := by
  obtain ⟨i0, c, s, e, hr, h1, h2⟩ := hL.create
  refine ⟨⟨.skip L.A n, (s, false)⟩, by simp [CallList.skip, e, ofOption], i0 - n, CallAtor.skipS c n hn,
    .inl ⟨rfl, rfl, g, hr, rfl⟩, ?_, ?_⟩
  · rintro ⟨hf, rfl⟩; rw [h1 hf]; rfl
  · intro he
    obtain ⟨xs, rfl⟩ := h2 he
    exact ⟨_, Gen.ofList_drop _ xs⟩

theorem Holds.repeat' (hL : L.Holds g fresh) (n : Int) (w : W) :
    ∃ N, L.repeat' n w = some (.ok N w) ∧ N.Holds (g.replicate n.toNat) True := by
  obtain ⟨i0, c, s, e, hr, h1, h2⟩ := hL.create
  refine ⟨⟨.repeat' L.A n, ⟨s, -1, 0⟩⟩, by simp [CallList.repeat', e, ofOption], -1, CallAtor.repeatS c n,
    ?_, fun _ => rfl, ?_⟩
  · have := (CallAtor.repeatS c n).reset (s := ⟨s, -1, 0⟩) (c.inv hr)
    refine ⟨0, [], g, rfl, by simp, hr, ?_, by simp⟩
    unfold CallAtor.restOf
    split
    · obtain ⟨m, hm⟩ : ∃ m, n.toNat = m + 1 := ⟨n.toNat - 1, by omega⟩
      rw [hm, Gen.replicate]; rfl
    · rw [show n.toNat = 0 by omega, Gen.replicate]
  · intro he
    obtain ⟨xs, rfl⟩ := h2 he
    exact ⟨_, Gen.ofList_replicate _ xs⟩

theorem keyCmp_some (ord : α → α → Ordering) [Std.TransCmp ord] : KeyCmp (fun a b => some (ord a b)) ord := fun _ _ => rfl

theorem Holds.distinct (hL : L.Holds g fresh) (ord : α → α → Ordering) [Std.TransCmp ord] (w : W) :
    ∃ N, L.distinct (fun a b => some (ord a b)) w = some (.ok N w) ∧ N.Holds (g.firsts (Spec.eqBy ord) []) True := by
  obtain ⟨i0, c, s, e, hr, h1, h2⟩ := hL.create
  exact ⟨⟨.distinct L.A _, ⟨s, [], none⟩⟩, by simp [CallList.distinct, e, ofOption], -1, CallAtor.distinctS (keyCmp_some ord) c,
    ⟨[], g, hr, rfl, ascending_nil, .refl _, by simp⟩, fun _ => rfl, by simp [CallAtor.distinct]⟩

theorem Holds.fold (hL : L.Holds g fresh) (init : β) (f : β → α → Cpp W β) (w : W) :
    L.aggregateInit init f w = some (g.foldM f init w) := by
  obtain ⟨i0, c, s, e, hr, h1, h2⟩ := hL.create
  rw [aggregateInit, e]
  exact foldLoop_spec c f g init s [] hr w

theorem Holds.toList (hL : L.Holds g fresh) (w : W) : L.toList w = some (g.collect w) := hL.fold _ _ w

theorem Holds.count (hL : L.Holds g fresh) (w : W) : L.count w = some (g.foldM (fun n _ => Cpp.pure' (n + 1)) 0 w) := by
  obtain ⟨i0, c, s, e, hr, h1, h2⟩ := hL.create
  rw [CallList.count, e]
  exact countLoop_spec c g 0 s [] hr w

theorem Holds.count' (hL : L.Holds g fresh) (w : W) : L.count w = some (g.count w) := by
  rw [hL.count, show (0 : Int) = ([] : List α).foldl (fun n _ => n + 1) 0 from rfl, Gen.foldM_pure]
  have : ∀ (xs : List α) (n : Int), xs.foldl (fun n _ => n + 1) n = n + xs.length := by
    intro xs
    induction xs with
    | nil => simp
    | cons x xs ih => intro n; rw [List.foldl_cons, ih]; simp; omega
  simp only [this, Int.zero_add]
  rfl

theorem Holds.withFirst {γ : Type} (hL : L.Holds g fresh) (k : Bool → L.A.σ → W → Option (Outcome W γ)) (K : Option (α × Gen W α) → Cpp W γ)
    (hn : ∀ s w, k false s w = some (K none w))
    (hs : ∀ {i0 : Int} (c : L.A.Sim g i0) s x r w, c.R s [x] r → k true s w = some (K (some (x, r)) w)) (w : W) :
    L.withFirst k w = some (Cpp.bind' g.pull K w) := by
  obtain ⟨i0, c, s, e, hr, h1, h2⟩ := hL.create
  rw [CallList.withFirst, e]
  unfold Cpp.bind'
  have hn' := c.next hr w
  revert hn'
  cases g.pull w with
  | fault => intro q; simp only [CallAtor.Answers] at q; simp [q]
  | err w1 => rintro ⟨s', q, hi⟩; simp [q]
  | ok o w1 =>
    match o with
    | none => rintro ⟨s', q, hi⟩; simp [q, hn]
    | some (x, r) => rintro ⟨s', q, hi⟩; simp [q, hs c s' x r w1 hi]

theorem currentOf_spec {A : CallAtor W α} {g0 : Gen W α} {i0 : Int} (c : A.Sim g0 i0) {s : A.σ} {x : α} {r : Gen W α} (h : c.R s [x] r) (w : W) :
    currentOf A s w = some (.ok x w) := by rw [currentOf, c.current h x rfl]

theorem Holds.first (hL : L.Holds g fresh) (w : W) : L.first w = some (g.first w) := by
  rw [CallList.first, Gen.first]
  exact hL.withFirst _ _ (fun _ _ => rfl) (fun c _ _ _ w h => currentOf_spec c h w) w

theorem Holds.firstOr (hL : L.Holds g fresh) (d : α) (w : W) : L.firstOr d w = some (g.firstOr d w) := by
  rw [CallList.firstOr, Gen.firstOr]
  exact hL.withFirst _ _ (fun _ _ => rfl) (fun c _ _ _ w h => currentOf_spec c h w) w

theorem Holds.isEmpty (hL : L.Holds g fresh) (w : W) : L.isEmpty w = some (g.isEmpty w) := by
  rw [CallList.isEmpty, Gen.isEmpty]
  exact hL.withFirst _ _ (fun _ _ => rfl) (fun _ _ _ _ _ _ => rfl) w

theorem Holds.aggregate (hL : L.Holds g fresh) (f : α → α → Cpp W α) (w : W) : L.aggregate f w = some (g.reduce f w) := by
  rw [CallList.aggregate, Gen.reduce]
  refine hL.withFirst _ _ (fun _ _ => rfl) ?_ w
  intro i0 c s x r w h
  simp only [currentOf_spec c h w, andThen, if_true]
  exact foldLoop_spec c f r x s [x] h w

theorem foldl_last (xs : List α) (d : α) : xs.foldl (fun _ y => y) d = xs.getLast?.getD d := by
  induction xs generalizing d with
  | nil => rfl
  | cons x xs ih => rw [List.foldl_cons, ih, List.getLast?_cons]; rfl

theorem Holds.lastOr (hL : L.Holds g fresh) (d : α) (w : W) : L.lastOr d w = some (g.lastOr d w) := by
  rw [CallList.lastOr, hL.fold, ← List.foldl_nil (f := fun (_ : α) (y : α) => y) (b := d)]
  rw [Gen.foldM_pure (fun _ y => y)]
  simp only [foldl_last]
  rfl

theorem Holds.last (hL : L.Holds g fresh) (w : W) : L.last w = some (g.last w) := by
  rw [CallList.last, hL.withFirst _
    (fun | none => Gen.throw | some (x, r) => Cpp.bind' r.collect fun xs => Cpp.pure' (xs.getLast?.getD x)) (fun _ _ => rfl)]
  · unfold Gen.last Cpp.bind'
    rw [Gen.collect_pull]
    cases g.pull w with
    | fault => rfl
    | err w' => rfl
    | ok o w' =>
      match o with
      | none => rfl
      | some (x, r) =>
        simp only [Gen.then', Cpp.bind']
        cases r.collect w' with
        | fault => rfl
        | err w2 => rfl
        | ok xs w2 => simp [List.getLast?_cons]
  · intro i0 c s x r w h
    simp only [currentOf_spec c h w, andThen, if_true]
    rw [foldLoop_spec c _ r x s [x] h w, ← List.foldl_nil (f := fun (_ : α) (y : α) => y) (b := x), Gen.foldM_pure (fun _ y => y)]
    simp only [foldl_last]
    rfl

/-- The second loop of `CopyFrom` to an array. -/
theorem setLoop_spec (arr : List α) (g : Gen W α) : ∀ (ys : List α) (w : W), ys.length ≤ arr.length →
    g.foldM setNext ((ys.length : Int), ys ++ arr.drop ys.length) w =
    Cpp.bind' ((g.take (arr.length - ys.length + 1)).foldM (fun l x => Cpp.pure' (l ++ [x])) ys) (fun zs =>
      if zs.length ≤ arr.length then Cpp.pure' ((zs.length : Int), zs ++ arr.drop zs.length) else Gen.throw) w := by
  induction g with
  | done =>
    intro ys w hy
    simp only [Gen.take, Gen.foldM, Cpp.bind', if_pos hy]
    rfl
  | yield x r ih =>
    intro ys w hy
    simp only [Gen.take, Gen.foldM]
    by_cases hl : ys.length < arr.length
    · have hc : (0 : Int) ≤ (ys.length : Int) ∧ (ys.length : Int) < ((ys ++ arr.drop ys.length).length : Nat) := by
        simp; omega
      rw [setNext, if_pos hc]
      have := ih (ys ++ [x]) w (by simp; omega)
      have e1 : (ys ++ arr.drop ys.length).set ys.length x = (ys ++ [x]) ++ arr.drop (ys ++ [x]).length := by
        rw [List.set_append_right _ _ (Nat.le_refl _), Nat.sub_self]
        cases hd : arr.drop ys.length with
        | nil => simp at hd; omega
        | cons z zs =>
          rw [List.set_cons_zero, List.append_assoc, List.length_append, ← List.drop_drop, hd]
          rfl
      have e2 : arr.length - (ys ++ [x]).length + 1 = arr.length - ys.length := by simp; omega
      rw [e2, ← e1] at this
      simp only [Int.toNat_natCast]
      rw [show ((ys ++ [x]).length : Int) = (ys.length : Int) + 1 by simp] at this
      rw [this]
      simp only [Cpp.bind', Cpp.pure'_apply]
    · have hc : ¬ ((0 : Int) ≤ (ys.length : Int) ∧ (ys.length : Int) < ((ys ++ arr.drop ys.length).length : Nat)) := by
        simp; omega
      rw [setNext, if_neg hc, show arr.length - ys.length = 0 by omega, Gen.take_zero]
      simp only [Cpp.bind', Gen.foldM, Cpp.pure'_apply, List.length_append, List.length_singleton]
      rw [if_neg (by omega)]
      rfl
  | call c k ih =>
    intro ys w hy
    simp only [Gen.take, Gen.foldM, Cpp.bind']
    cases c w with
    | ok b' w' => exact ih b' ys w' hy
    | err w' => rfl
    | fault => rfl

theorem Holds.toArray (hL : L.Holds g fresh) (old : List α) (d : α) (w : W) : L.toArray old d w = some (g.twice old d w) := by
  rw [CallList.toArray, hL.count', Gen.count, Gen.twice, Cpp.bind', Cpp.bind']
  cases g.collect w with
  | fault => rfl
  | err w' => rfl
  | ok xs w' =>
    have hl : (resized old d (xs.length : Int)).length = xs.length := by simp [resized]; omega
    have := setLoop_spec (resized old d (xs.length : Int)) g [] w' (by simp)
    simp only [andThen, Cpp.pure'_apply]
    rw [hL.fold]
    simp only [List.nil_append, List.length_nil, List.drop_zero, Nat.sub_zero, hl] at this
    rw [show ((0 : Nat) : Int) = 0 from rfl] at this
    erw [this]
    rw [Gen.collect, Cpp.bind', Cpp.bind']
    cases (g.take (xs.length + 1)).foldM (fun l x => Cpp.pure' (l ++ [x])) [] w' with
    | fault => rfl
    | err w2 => rfl
    | ok ys w2 =>
      by_cases h : ys.length ≤ xs.length
      · simp only [if_pos h]; simp [resized]
      · simp only [if_neg h]; rfl

theorem Holds.all (hL : L.Holds g fresh) (f : α → Cpp W Bool) (w : W) :
    L.all f w = some (Cpp.bind' (g.map f).collect (fun bs => Cpp.pure' (bs.all id)) w) := by
  obtain ⟨N, e, hN⟩ := hL.select f w
  rw [CallList.all, e]
  show N.aggregateInit _ _ w = _
  rw [hN.fold, show true = ([] : List Bool).foldl (fun a b => a && b) true from rfl, Gen.foldM_pure]
  have : ∀ (bs : List Bool) (b : Bool), bs.foldl (fun a b => a && b) b = (b && bs.all id) := by
    intro bs
    induction bs with
    | nil => simp
    | cons x xs ih => intro b; rw [List.foldl_cons, ih]; simp [Bool.and_assoc]
  simp only [this, Bool.true_and]
  rfl

theorem Holds.any (hL : L.Holds g fresh) (f : α → Cpp W Bool) (w : W) :
    L.any f w = some (Cpp.bind' (g.map f).collect (fun bs => Cpp.pure' (bs.any id)) w) := by
  obtain ⟨N, e, hN⟩ := hL.select f w
  rw [CallList.any, e]
  show N.aggregateInit _ _ w = _
  rw [hN.fold, show false = ([] : List Bool).foldl (fun a b => a || b) false from rfl, Gen.foldM_pure]
  have : ∀ (bs : List Bool) (b : Bool), bs.foldl (fun a b => a || b) b = (b || bs.any id) := by
    intro bs
    induction bs with
    | nil => simp
    | cons x xs ih => intro b; rw [List.foldl_cons, ih]; simp [Bool.or_assoc]
  simp only [this, Bool.false_or]
  rfl

/-- The sorted list that is made of the elements of the second sequence. -/
theorem fold_addSorted (ord : α → α → Ordering) [Std.TransCmp ord] (g : Gen W α) : ∀ (l d : List α) (w : W),
    Spec.Ascending ord id d → d.Perm l →
    match g.foldM (fun l x => Cpp.pure' (l ++ [x])) l w with
    | .ok xs w' => ∃ d', g.foldM (fun l x => CallAtor.ofOption (Ator.addSorted (fun a b => some (ord a b)) l [x])) d w = .ok d' w' ∧
        Spec.Ascending ord id d' ∧ d'.Perm xs
    | .err w' => g.foldM (fun l x => CallAtor.ofOption (Ator.addSorted (fun a b => some (ord a b)) l [x])) d w = .err w'
    | .fault => g.foldM (fun l x => CallAtor.ofOption (Ator.addSorted (fun a b => some (ord a b)) l [x])) d w = .fault := by
  induction g using Gen.induct with | _ g ih
  intro l d w ha hp
  rw [Gen.foldM_pull, Gen.foldM_pull]
  cases hg : g.pull w with
  | fault => rfl
  | err w1 => rfl
  | ok o w1 =>
    match o with
    | none => exact ⟨d, rfl, ha, hp⟩
    | some (x, r) =>
      obtain ⟨d', q, ha', hp'⟩ := addSorted_spec (keyCmp_some ord) [x] ha
      simp only [Gen.then', q, CallAtor.ofOption]
      exact ih w x r w1 hg (l ++ [x]) d' w1 ha' (hp'.trans (List.Perm.append_right [x] hp))

theorem Holds.intersectExcept (hL : L.Holds g fresh) (hM : M.Holds h fresh') (ord : α → α → Ordering) [Std.TransCmp ord] (b : Bool) (w : W) :
    match h.collect w with
    | .ok xs w' => ∃ N, L.intersectExcept M (fun a b => some (ord a b)) b w = some (.ok N w') ∧
        N.Holds ((g.filter (Gen.pureTest fun x => xs.any (fun y => Spec.eqBy ord y x) == b)).firsts (Spec.eqBy ord) []) True
    | .err w' => L.intersectExcept M (fun a b => some (ord a b)) b w = some (.err w')
    | .fault => L.intersectExcept M (fun a b => some (ord a b)) b w = some .fault := by
  obtain ⟨i0, c, s, e, hr, h1, h2⟩ := hL.create
  have hd := fold_addSorted ord h [] [] w ascending_nil (.refl _)
  rw [CallList.intersectExcept, e]
  simp only
  rw [hM.fold]
  unfold Gen.collect
  revert hd
  cases h.foldM (fun l x => Cpp.pure' (l ++ [x])) [] w with
  | fault => intro hd; simp only at hd; simp [hd, andThen]
  | err w' => intro hd; simp only at hd; simp [hd, andThen]
  | ok xs w' =>
    rintro ⟨d', q, ha, hp⟩
    simp only [q, andThen]
    have hN : Holds (W := W) ⟨.intersectExcept L.A (fun a b => some (ord a b)) b, ⟨s, d', -1⟩⟩
        (g.filter (Gen.pureTest fun x => xs.any (fun y => Spec.eqBy ord y x) == b)) True :=
      ⟨-1, CallAtor.intersectExceptS (keyCmp_some ord) c xs b, ⟨[], g, hr, rfl, ha, hp, by simp, by simp⟩, fun _ => rfl,
        by simp [CallAtor.intersectExcept]⟩
    exact hN.distinct ord w'

theorem Holds.reverse (hL : L.Holds g fresh) (w : W) :
    match g.collect w with
    | .ok xs w' => ∃ N, L.reverse w = some (.ok N w') ∧ N.Holds (.ofList xs.reverse) True
    | .err w' => L.reverse w = some (.err w')
    | .fault => L.reverse w = some .fault := by
  rw [CallList.reverse, hL.toList]
  cases g.collect w with
  | fault => rfl
  | err w' => rfl
  | ok xs w' =>
    exact ⟨_, rfl, -1, CallAtor.reverseS xs, ⟨rfl, xs.reverse, rfl, rfl⟩, fun _ => rfl, fun _ => ⟨_, rfl⟩⟩

theorem Holds.evaluate (hL : L.Holds g fresh) (forceCopy : Bool) (w : W) :
    match g.collect w with
    | .ok xs w' => ∃ N, L.evaluate forceCopy w = some (.ok N w') ∧ N.Holds (.ofList xs) fresh
    | .err w' => L.evaluate forceCopy w = some (.err w')
    | .fault => L.evaluate forceCopy w = some .fault := by
  rw [CallList.evaluate]
  by_cases he : (!forceCopy && L.A.evaluated) = true
  · rw [if_pos he]
    simp only [Bool.and_eq_true] at he
    have hL' := hL
    obtain ⟨i0, c, hr, h1, h2⟩ := hL
    obtain ⟨xs, rfl⟩ := h2 he.2
    rw [Gen.ofList_collect]
    exact ⟨L, rfl, hL'⟩
  · rw [if_neg he, hL.toList]
    cases g.collect w with
    | fault => rfl
    | err w' => rfl
    | ok xs w' => exact ⟨_, rfl, (holds_ofList xs).weaken (fun _ => trivial)⟩

/-- Running a function that makes a lazy list does what is prescribed. -/
def Makes (o : Outcome W (Gen W α)) (r : Option (Outcome W (CallList W α))) (fresh : Prop) : Prop :=
  match o with
  | .ok g w => ∃ L, r = some (.ok L w) ∧ L.Holds g fresh
  | .err w => r = some (.err w)
  | .fault => r = some .fault

theorem manyLoop_spec {A : CallAtor W α} {g0 : Gen W α} {i0 : Int} (c : A.Sim g0 i0) (f : α → W → Option (Outcome W (CallList W β)))
    (F : α → Cpp W (Gen W β)) (hf : ∀ x w, Makes (F x w) (f x w) False) (g : Gen W α) :
    ∀ (acc : CallList W β) (gs : List (Gen W β)) (s : A.σ) (ys : List α), c.R s ys g → acc.Holds (.concat gs) True → ∀ w,
    Makes (Cpp.bind' (g.foldM (fun l x => Cpp.bind' (F x) fun h => Cpp.pure' (l ++ [h])) gs) (fun l => Cpp.pure' (.concat l)) w)
      (manyLoop A f acc s w) True := by
  induction g using Gen.induct with | _ g ih
  intro acc gs s ys h hacc w
  simp only [Cpp.bind']
  rw [Gen.foldM_pull]
  have hn := c.next h w
  revert hn
  cases hp : g.pull w with
  | fault => intro hn; simp only [CallAtor.Answers] at hn; show _ = _; rw [manyLoop, hn]
  | err w1 => rintro ⟨s', e, hi⟩; show _ = _; rw [manyLoop, e]
  | ok o w1 =>
    match o with
    | none => rintro ⟨s', e, hi⟩; exact ⟨acc, by rw [manyLoop, e], hacc⟩
    | some (x, r) =>
      rintro ⟨s', e, hr⟩
      have hx := c.current hr x (CallAtor.last_append _ _)
      rw [manyLoop, e]
      simp only [hx, Gen.then']
      have hfx := hf x w1
      revert hfx
      rw [Cpp.bind']
      cases F x w1 with
      | fault => intro hfx; simp only [Makes] at hfx; simp [Makes, hfx]
      | err w2 => intro hfx; simp only [Makes] at hfx; simp [Makes, hfx]
      | ok b w2 =>
        rintro ⟨L, q, hL⟩
        obtain ⟨N, q', hN⟩ := hacc.concat hL w2
        simp only [q, q', Cpp.pure'_apply]
        have := ih w x r w1 hp N (gs ++ [b]) s' _ hr (by rw [Gen.concat_snoc]; exact hN) w2
        exact this

theorem Holds.selectMany (hL : L.Holds g fresh) (f : α → W → Option (Outcome W (CallList W β)))
    (F : α → Cpp W (Gen W β)) (hf : ∀ x w, Makes (F x w) (f x w) False) (w : W) :
    Makes (Cpp.bind' (g.foldM (fun l x => Cpp.bind' (F x) fun h => Cpp.pure' (l ++ [h])) []) (fun l => Cpp.pure' (.concat l)) w)
      (L.selectMany f w) True := by
  obtain ⟨i0, c, s, e, hr, h1, h2⟩ := hL.create
  rw [CallList.selectMany, e]
  exact manyLoop_spec c f F hf g empty [] s [] hr holds_empty w

theorem Makes.weaken {o : Outcome W (Gen W α)} {r : Option (Outcome W (CallList W α))} (hm : Makes o r fresh) : Makes o r False := by
  cases o with
  | fault => exact hm
  | err w => exact hm
  | ok g w =>
    obtain ⟨L, e, hL⟩ := hm
    exact ⟨L, e, hL.weaken False.elim⟩

/-- go on with what was made -/
theorem Makes.bind {γ : Type} {m : Cpp W (Gen W α)} {r : Option (Outcome W (CallList W α))} {w : W} (hm : Makes (m w) r fresh)
    {k : CallList W α → W → Option (Outcome W (CallList W γ))} {K : Gen W α → Cpp W (Gen W γ)}
    (hk : ∀ L g w, L.Holds g fresh → Makes (K g w) (k L w) fresh') :
    Makes (Cpp.bind' m K w) (andThen r k) fresh' := by
  rw [Cpp.bind']
  revert hm
  cases m w with
  | fault => intro hm; simp only [Makes] at hm; simp [Makes, hm, andThen]
  | err w => intro hm; simp only [Makes] at hm; simp [Makes, hm, andThen]
  | ok g w =>
    rintro ⟨L, rfl, hL⟩
    exact hk L g w hL

end CallList

open CallList in
/-- Making a lazy list by a program calls what is prescribed, and gives a list that stands for the prescribed sequence. -/
theorem CallPipe.build_makes : {α : Type} → (p : CallPipe W α) → p.Ok → ∀ w, Makes (p.meaning w) (p.build w) p.Fresh
  | _, .list xs, _, w => ⟨_, rfl, holds_ofList xs⟩
  | _, .empty, _, w => ⟨_, rfl, holds_empty⟩
  | _, .select p f, ok, w => by
    rw [meaning, build]
    refine (build_makes p ok w).bind fun L g w hL => ?_
    exact hL.select f w
  | _, .where' p f, ok, w => by
    rw [meaning, build]
    refine (build_makes p ok w).bind fun L g w hL => ?_
    exact hL.where' f w
  | _, .concat p q, ok, w => by
    rw [meaning, build]
    refine (build_makes p ok.1 w).bind fun L g w hL => ?_
    refine (build_makes q ok.2 w).bind fun M h w hM => ?_
    exact hL.concat hM w
  | _, .pairwise p q, ok, w => by
    rw [meaning, build]
    refine (build_makes p ok.1 w).bind fun L g w hL => ?_
    refine (build_makes q ok.2 w).bind fun M h w hM => ?_
    exact hL.pairwise hM w
  | _, .take p n, ok, w => by
    rw [meaning, build]
    refine (build_makes p ok.1 w).bind fun L g w hL => ?_
    exact hL.take n ok.2 w
  | _, .skip p n, ok, w => by
    rw [meaning, build]
    refine (build_makes p ok.1 w).bind fun L g w hL => ?_
    exact hL.skip n ok.2 w
  | _, .repeat' p n, ok, w => by
    rw [meaning, build]
    refine (build_makes p ok w).bind fun L g w hL => ?_
    exact hL.repeat' n w
  | _, .distinct p ord, ok, w => by
    rw [meaning, build]
    refine (build_makes p ok.1 w).bind fun L g w hL => ?_
    have := ok.2
    exact hL.distinct ord w
  | _, .reverse p, ok, w => by
    rw [meaning, build]
    refine (build_makes p ok w).bind fun L g w hL => ?_
    have := hL.reverse w
    rw [Cpp.bind']
    revert this
    cases g.collect w <;> exact id
  | _, .intersect p q ord, ok, w => by
    rw [meaning, build]
    refine (build_makes p ok.1 w).bind fun L g w hL => ?_
    refine (build_makes q ok.2.1 w).bind fun M h w hM => ?_
    have := ok.2.2
    have := hL.intersectExcept hM ord true w
    rw [Cpp.bind']
    revert this
    simp only [beq_true]
    cases h.collect w <;> exact id
  | _, .except p q ord, ok, w => by
    rw [meaning, build]
    refine (build_makes p ok.1 w).bind fun L g w hL => ?_
    refine (build_makes q ok.2.1 w).bind fun M h w hM => ?_
    have := ok.2.2
    have := hL.intersectExcept hM ord false w
    rw [Cpp.bind']
    revert this
    simp only [beq_false]
    cases h.collect w <;> exact id
  | _, .selectMany p f q, ok, w => by
    rw [meaning, build]
    refine (build_makes p ok.1 w).bind fun L g w hL => ?_
    have ea : (fun (l : List (Gen W _)) x => Cpp.bind' (f x) fun i => Cpp.bind' (q i).meaning fun h => Cpp.pure' (l ++ [h])) =
        fun l x => Cpp.bind' (Cpp.bind' (f x) fun i => (q i).meaning) fun h => Cpp.pure' (l ++ [h]) := by
      funext l x w
      simp only [Cpp.bind']
      cases f x w <;> rfl
    rw [ea]
    refine hL.selectMany _ (fun x => Cpp.bind' (f x) fun i => (q i).meaning) ?_ w
    intro x w
    rw [Cpp.bind']
    cases f x w with
    | fault => rfl
    | err w' => rfl
    | ok i w' => exact (build_makes (q i) (ok.2 i) w').weaken
  | _, .evaluate p forceCopy, ok, w => by
    rw [meaning, build]
    refine (build_makes p ok w).bind fun L g w hL => ?_
    have := hL.evaluate forceCopy w
    rw [Cpp.bind']
    revert this
    cases g.collect w <;> exact id

end Vlpp
