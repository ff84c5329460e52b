import Verif.Model.CallAtor
import Verif.Lemmas.Gen
import Verif.Lemmas.AtorOps3

/-! Every operator enumerator makes the calls that are prescribed for its sequence. -/
set_option autoImplicit false
namespace Vlpp
namespace CallAtor
open Spec (Gen)
variable {W α β : Type}

/-- What `Next` has to answer, if pulling the next element of the sequence gives `o`; `ys` was delivered before. -/
def Answers {σ : Type} (I : σ → Prop) (R : σ → List α → Gen W α → Prop) (ys : List α) (o : Outcome W (Option (α × Gen W α)))
    (r : Option (Outcome (σ × W) Bool)) : Prop :=
  match o with
  | .ok none w => ∃ s, r = some (.ok false (s, w)) ∧ I s
  | .ok (some (x, g)) w => ∃ s, r = some (.ok true (s, w)) ∧ R s (ys ++ [x]) g
  | .err w => ∃ s, r = some (.err (s, w)) ∧ I s
  | .fault => r = some .fault

/-- The enumerator delivers the sequence `g0`, making exactly the calls of `g0`; `i0` is the `Index()` of a new one. -/
structure Sim (A : CallAtor W α) (g0 : Gen W α) (i0 : Int) where
  /-- the enumerator was used in any way -/
  I : A.σ → Prop
  /-- `ys` was delivered, `g` is left -/
  R : A.σ → List α → Gen W α → Prop
  start : i0 ≤ -1
  inv : ∀ {s ys g}, R s ys g → I s
  index : ∀ {s ys g}, R s ys g → A.index s = if ys = [] then i0 else (ys.length : Int) - 1
  current : ∀ {s ys g}, R s ys g → ∀ y, ys.getLast? = some y → A.current s = some y
  next : ∀ {s ys g}, R s ys g → ∀ w, Answers I R ys (g.pull w) (A.next s w)
  clone : ∀ {s ys g}, R s ys g → ∃ s', A.clone s = some s' ∧ R s' ys g
  cloneI : ∀ {s}, I s → ∃ s', A.clone s = some s' ∧ I s'
  reset : ∀ {s}, I s → R (A.reset s) [] g0

theorem last_append (ys : List α) (x : α) : (ys ++ [x]).getLast? = some x := by simp

section sources

def listS (xs : List α) : (list (W := W) xs).Sim (.ofList xs) (-1) where
  I := fun _ => True
  R := fun i ys g => i = (ys.length : Int) - 1 ∧ ∃ zs, ys ++ zs = xs ∧ g = .ofList zs
  start := by omega
  inv := fun _ => trivial
  index := by
    rintro i ys g ⟨rfl, _⟩
    show (ys.length : Int) - 1 = _
    split <;> simp_all
  current := by
    rintro i ys g ⟨rfl, zs, rfl, rfl⟩ y hy
    rcases List.eq_nil_or_concat ys with rfl | ⟨l, x, rfl⟩
    · simp at hy
    · have : x = y := by simpa using hy
      subst this
      rw [List.concat_eq_append]
      have e1 : ((l ++ [x]).length : Int) - 1 = ((l.length : Nat) : Int) := by simp
      have e2 : Ator.valueOf (SeqList.get (((l ++ [x]).length : Int) - 1) (l ++ [x] ++ zs)) = some x := by
        rw [e1, SeqList.get_ok (by simp)]
        simp [Ator.valueOf]
      exact e2
  next := by
    rintro i ys g ⟨rfl, zs, rfl, rfl⟩ w
    cases zs with
    | nil => exact ⟨_, by simp [list]; rfl, trivial⟩
    | cons z zs =>
      refine ⟨(ys.length : Int), ?_, show (ys.length : Int) = ((ys ++ [z]).length : Int) - 1 by simp, zs, by simp, rfl⟩
      simp [list]
      omega
  clone := fun h => ⟨_, rfl, h⟩
  cloneI := fun h => ⟨_, rfl, h⟩
  reset := fun _ => ⟨rfl, xs, rfl, rfl⟩

def emptyS : (empty : CallAtor W α).Sim .done (-1) where
  I := fun _ => True
  R := fun _ ys g => ys = [] ∧ g = .done
  start := by omega
  inv := fun _ => trivial
  index := by rintro s ys g ⟨rfl, rfl⟩; rfl
  current := by rintro s ys g ⟨rfl, rfl⟩ y hy; cases hy
  next := by rintro s ys g ⟨rfl, rfl⟩ w; exact ⟨s, rfl, trivial⟩
  clone := fun h => ⟨_, rfl, h⟩
  cloneI := fun h => ⟨_, rfl, h⟩
  reset := fun _ => ⟨rfl, rfl⟩

def reverseS (xs : List α) : (reverse (W := W) xs).Sim (.ofList xs.reverse) (-1) where
  I := fun _ => True
  R := fun i ys g => i = (ys.length : Int) - 1 ∧ ∃ zs, ys ++ zs = xs.reverse ∧ g = .ofList zs
  start := by omega
  inv := fun _ => trivial
  index := by
    rintro i ys g ⟨rfl, _⟩
    show (ys.length : Int) - 1 = _
    split <;> simp_all
  current := by
    rintro i ys g ⟨rfl, zs, h, rfl⟩ y hy
    rcases List.eq_nil_or_concat ys with rfl | ⟨l, x, rfl⟩
    · simp at hy
    · have : x = y := by simpa using hy
      subst this
      rw [List.concat_eq_append] at *
      have hl : l.length < xs.length := by
        have := congrArg List.length h
        simp at this; omega
      have e1 : (xs.length : Int) - 1 - (((l ++ [x]).length : Int) - 1) = ((xs.length - 1 - l.length : Nat) : Int) := by
        simp; omega
      have h2 : xs.reverse[l.length]? = some x := by
        rw [← h]; simp
      rw [List.getElem?_reverse hl] at h2
      rw [List.getElem?_eq_getElem (by omega)] at h2
      have e2 : Ator.valueOf (SeqList.get ((xs.length : Int) - 1 - (((l ++ [x]).length : Int) - 1)) xs) = some x := by
        rw [e1, SeqList.get_ok (by omega)]
        exact h2
      exact e2
  next := by
    rintro i ys g ⟨rfl, zs, h, rfl⟩ w
    have hl := congrArg List.length h
    cases zs with
    | nil =>
      refine ⟨(ys.length : Int) - 1 + 1, ?_, trivial⟩
      simp at hl
      simp [reverse, hl]
    | cons z zs =>
      refine ⟨(ys.length : Int), ?_, show (ys.length : Int) = ((ys ++ [z]).length : Int) - 1 by simp, zs, by simpa using h, rfl⟩
      simp at hl
      simp [reverse]
      omega
  clone := fun h => ⟨_, rfl, h⟩
  cloneI := fun h => ⟨_, rfl, h⟩
  reset := fun _ => ⟨rfl, xs.reverse, rfl, rfl⟩

end sources

section select
variable {A : CallAtor W α} {g0 : Gen W α} {i0 : Int}

def selectS (c : A.Sim g0 i0) (f : α → Cpp W β) : (select A f).Sim (g0.map f) i0 where
  I := fun s => c.I s.1
  R := fun s ys' g' => ∃ ys g, c.R s.1 ys g ∧ ys'.length = ys.length ∧ g' = g.map f ∧ ∀ y, ys'.getLast? = some y → s.2 = some y
  start := c.start
  inv := by rintro s _ _ ⟨ys, g, h, _⟩; exact c.inv h
  index := by
    rintro s ys' _ ⟨ys, g, h, hl, _⟩
    show A.index s.1 = _
    rw [c.index h, hl]
    cases ys <;> cases ys' <;> simp_all
  current := by rintro s _ _ ⟨ys, g, h, _, _, hc⟩ y hy; exact hc y hy
  next := by
    rintro ⟨s, cur⟩ ys' _ ⟨ys, g, h, hl, rfl, hc⟩ w
    rw [Gen.pull_map]
    have hn := c.next h w
    revert hn
    cases g.pull w with
    | fault => intro hn; simp only [Answers] at hn; simp [Answers, Gen.then', select, hn]
    | err w1 => rintro ⟨s', e, hi⟩; exact ⟨(s', cur), by simp [select, e], hi⟩
    | ok o w1 =>
      match o with
      | none => rintro ⟨s', e, hi⟩; exact ⟨(s', cur), by simp [select, e], hi⟩
      | some (x, r) =>
        rintro ⟨s', e, hr⟩
        have hx := c.current hr x (last_append _ _)
        simp only [Gen.then']
        cases hf : f x w1 with
        | ok y w2 =>
          exact ⟨(s', some y), by simp [select, e, hx, hf], ys ++ [x], r, hr, by simp [hl], rfl, by simp⟩
        | err w2 => exact ⟨(s', cur), by simp [select, e, hx, hf], c.inv hr⟩
        | fault => simp [Answers, select, e, hx, hf]
  clone := by
    rintro ⟨s, cur⟩ ys' g' ⟨ys, g, h, hh⟩
    obtain ⟨s', e, h'⟩ := c.clone h
    exact ⟨(s', cur), by simp [select, e], ys, g, h', hh⟩
  cloneI := by
    rintro ⟨s, cur⟩ h
    obtain ⟨s', e, h'⟩ := c.cloneI h
    exact ⟨(s', cur), by simp [select, e], h'⟩
  reset := by
    rintro ⟨s, cur⟩ h
    exact ⟨[], g0, c.reset h, rfl, rfl, by simp⟩

end select

section where_
variable {A : CallAtor W α} {g0 : Gen W α} {i0 : Int}

/-- the loop of `Where`, `Distinct`, `Intersect` and `Except`: what pulling from the filtered sequence `K g` gives, if an element `x` that
passes is followed by `J x r` -/
theorem nextWhere_pull (c : A.Sim g0 i0) (f : α → Cpp W Bool) (K : Gen W α → Gen W α) (J : α → Gen W α → Gen W α)
    (hK : ∀ g w, (K g).pull w = Gen.then' (g.pull w) (fun r w' =>
      match r with
      | none => .ok none w'
      | some (x, r) =>
        match f x w' with
        | .ok true w'' => .ok (some (x, J x r)) w''
        | .ok false w'' => (K r).pull w''
        | .err w'' => .err w''
        | .fault => .fault)) (g : Gen W α) : ∀ (s : A.σ) (ys : List α), c.R s ys g → ∀ w,
    match (K g).pull w with
    | .ok none w' => ∃ s', nextWhere A f s w = some (.ok false (s', w')) ∧ c.I s'
    | .ok (some (x, r')) w' => ∃ s' ys' r, nextWhere A f s w = some (.ok true (s', w')) ∧ c.R s' (ys' ++ [x]) r ∧ r' = J x r
    | .err w' => ∃ s', nextWhere A f s w = some (.err (s', w')) ∧ c.I s'
    | .fault => nextWhere A f s w = some .fault := by
  induction g using Gen.induct with | _ g ih
  intro s ys h w
  rw [hK]
  have hn := c.next h w
  revert hn
  cases hp : g.pull w with
  | fault => intro hn; simp only [Answers] at hn; simp only [Gen.then']; rw [nextWhere, hn]; rfl
  | err w1 => rintro ⟨s', e, hi⟩; exact ⟨s', by rw [nextWhere, e]; rfl, hi⟩
  | ok o w1 =>
    match o with
    | none => rintro ⟨s', e, hi⟩; exact ⟨s', by rw [nextWhere, e]; rfl, hi⟩
    | some (x, r) =>
      rintro ⟨s', e, hr⟩
      have hx := c.current hr x (last_append _ _)
      have ih' := ih w x r w1 hp s' _ hr
      simp only [Gen.then']
      cases hf : f x w1 with
      | fault => show _ = _; rw [nextWhere, e]; simp [hx, hf]
      | err w2 => exact ⟨s', by rw [nextWhere, e]; simp [hx, hf], c.inv hr⟩
      | ok b w2 =>
        cases b with
        | true => exact ⟨s', ys, r, by rw [nextWhere, e]; simp [hx, hf], hr, rfl⟩
        | false =>
          have hw : nextWhere A f s w = nextWhere A f s' w2 := by rw [nextWhere, e]; simp [hx, hf]
          rw [hw]
          exact ih' w2

def whereS (c : A.Sim g0 i0) (f : α → Cpp W Bool) : (where' A f).Sim (g0.filter f) (-1) where
  I := fun s => c.I s.1
  R := fun s ys' g' => ∃ ys g, c.R s.1 ys g ∧ s.2 = (ys'.length : Int) - 1 ∧ g' = g.filter f ∧
    ∀ y, ys'.getLast? = some y → ys.getLast? = some y
  start := by omega
  inv := by rintro s _ _ ⟨ys, g, h, _⟩; exact c.inv h
  index := by
    rintro s ys' _ ⟨ys, g, h, hi, _⟩
    show s.2 = _
    rw [hi]
    split <;> simp_all
  current := by rintro s _ _ ⟨ys, g, h, _, _, hc⟩ y hy; exact c.current h y (hc y hy)
  next := by
    rintro ⟨s, i⟩ ys' _ ⟨ys, g, h, hi, rfl, hc⟩ w
    have hn := nextWhere_pull c f (Gen.filter f) (fun _ r => r.filter f) (Gen.pull_filter f) g s ys h w
    revert hn
    cases (g.filter f).pull w with
    | fault => intro hn; simp only at hn; simp [Answers, where', hn]
    | err w1 => rintro ⟨s', e, hI⟩; exact ⟨(s', i), by simp [where', e], hI⟩
    | ok o w1 =>
      match o with
      | none => rintro ⟨s', e, hI⟩; exact ⟨(s', i), by simp [where', e], hI⟩
      | some (x, r') =>
        rintro ⟨s', ys1, r, e, hr, rfl⟩
        refine ⟨(s', i + 1), by simp [where', e], ys1 ++ [x], r, hr, ?_, rfl, by simp⟩
        simp only at hi ⊢
        simp [hi]
  clone := by
    rintro ⟨s, i⟩ ys' g' ⟨ys, g, h, hh⟩
    obtain ⟨s', e, h'⟩ := c.clone h
    exact ⟨(s', i), by simp [where', e], ys, g, h', hh⟩
  cloneI := by
    rintro ⟨s, i⟩ h
    obtain ⟨s', e, h'⟩ := c.cloneI h
    exact ⟨(s', i), by simp [where', e], h'⟩
  reset := by
    rintro ⟨s, i⟩ h
    exact ⟨[], g0, c.reset h, by simp [where'], rfl, by simp⟩

end where_

section concat
variable {A B : CallAtor W α} {g0 h0 : Gen W α} {i0 j0 : Int}

def concatS (c : A.Sim g0 i0) (d : B.Sim h0 j0) : (concat A B).Sim (g0.append h0) (-1) where
  I := fun s => c.I s.enumerator1 ∧ d.I s.enumerator2
  R := fun s ys g => s.index = (ys.length : Int) - 1 ∧
    ((s.turned = false ∧ ∃ g1, c.R s.enumerator1 ys g1 ∧ d.R s.enumerator2 [] h0 ∧ g = g1.append h0) ∨
     (s.turned = true ∧ ∃ ys2, c.I s.enumerator1 ∧ d.R s.enumerator2 ys2 g ∧ ∀ y, ys.getLast? = some y → ys2.getLast? = some y))
  start := by omega
  inv := by
    rintro s ys g ⟨_, ⟨_, g1, h1, h2, _⟩ | ⟨_, ys2, h1, h2, _⟩⟩
    · exact ⟨c.inv h1, d.inv h2⟩
    · exact ⟨h1, d.inv h2⟩
  index := by
    rintro s ys g ⟨hi, _⟩
    show s.index = _
    rw [hi]
    split <;> simp_all
  current := by
    rintro s ys g ⟨_, ⟨ht, g1, h1, h2, _⟩ | ⟨ht, ys2, h1, h2, hl⟩⟩ y hy
    · simpa [concat, ht] using c.current h1 y hy
    · simpa [concat, ht] using d.current h2 y (hl y hy)
  next := by
    rintro ⟨s1, s2, i, t⟩ ys g ⟨hi, ⟨ht, g1, h1, h2, rfl⟩ | ⟨ht, ys2, h1, h2, hl⟩⟩ w
    · simp only at ht hi h1 h2; subst ht
      rw [Gen.pull_append]
      have hn := c.next h1 w
      revert hn
      cases g1.pull w with
      | fault => intro hn; simp only [Answers] at hn; simp [Answers, Gen.then', concat, hn]
      | err w1 => rintro ⟨s', e, hI⟩; exact ⟨⟨s', s2, i + 1, false⟩, by simp [concat, e], hI, d.inv h2⟩
      | ok o w1 =>
        match o with
        | some (x, r) =>
          rintro ⟨s', e, hr⟩
          exact ⟨⟨s', s2, i + 1, false⟩, by simp [concat, e], by simp [hi], .inl ⟨rfl, r, hr, h2, rfl⟩⟩
        | none =>
          rintro ⟨s', e, hI⟩
          simp only [Gen.then']
          have hm := d.next h2 w1
          revert hm
          cases h0.pull w1 with
          | fault => intro hm; simp only [Answers] at hm; simp [Answers, concat, e, hm, wrap]
          | err w2 => rintro ⟨s2', e', hI'⟩; exact ⟨⟨s', s2', i + 1, true⟩, by simp [concat, e, e', wrap], hI, hI'⟩
          | ok o w2 =>
            match o with
            | none => rintro ⟨s2', e', hI'⟩; exact ⟨⟨s', s2', i + 1, true⟩, by simp [concat, e, e', wrap], hI, hI'⟩
            | some (x, r) =>
              rintro ⟨s2', e', hr⟩
              exact ⟨⟨s', s2', i + 1, true⟩, by simp [concat, e, e', wrap], by simp [hi],
                .inr ⟨rfl, [x], hI, hr, by simp⟩⟩
    · simp only at ht hi h1 h2; subst ht
      have hm := d.next h2 w
      revert hm
      cases g.pull w with
      | fault => intro hm; simp only [Answers] at hm; simp [Answers, concat, hm, wrap]
      | err w2 => rintro ⟨s2', e', hI'⟩; exact ⟨⟨s1, s2', i + 1, true⟩, by simp [concat, e', wrap], h1, hI'⟩
      | ok o w2 =>
        match o with
        | none => rintro ⟨s2', e', hI'⟩; exact ⟨⟨s1, s2', i + 1, true⟩, by simp [concat, e', wrap], h1, hI'⟩
        | some (x, r) =>
          rintro ⟨s2', e', hr⟩
          exact ⟨⟨s1, s2', i + 1, true⟩, by simp [concat, e', wrap], by simp [hi],
            .inr ⟨rfl, ys2 ++ [x], h1, hr, by simp⟩⟩
  clone := by
    rintro ⟨s1, s2, i, t⟩ ys g ⟨hi, ⟨ht, g1, h1, h2, hg⟩ | ⟨ht, ys2, h1, h2, hl⟩⟩
    · obtain ⟨s1', e1, h1'⟩ := c.clone h1
      obtain ⟨s2', e2, h2'⟩ := d.clone h2
      exact ⟨⟨s1', s2', i, t⟩, by simp_all [concat], hi, .inl ⟨ht, g1, h1', h2', hg⟩⟩
    · obtain ⟨s1', e1, h1'⟩ := c.cloneI h1
      obtain ⟨s2', e2, h2'⟩ := d.clone h2
      exact ⟨⟨s1', s2', i, t⟩, by simp_all [concat], hi, .inr ⟨ht, ys2, h1', h2', hl⟩⟩
  cloneI := by
    rintro ⟨s1, s2, i, t⟩ ⟨h1, h2⟩
    obtain ⟨s1', e1, h1'⟩ := c.cloneI h1
    obtain ⟨s2', e2, h2'⟩ := d.cloneI h2
    exact ⟨⟨s1', s2', i, t⟩, by simp_all [concat], h1', h2'⟩
  reset := by
    rintro ⟨s1, s2, i, t⟩ ⟨h1, h2⟩
    exact ⟨by simp [concat], .inl ⟨rfl, g0, c.reset h1, d.reset h2, rfl⟩⟩

end concat

section pairwise
variable {A : CallAtor W α} {B : CallAtor W β} {g0 : Gen W α} {h0 : Gen W β} {i0 j0 : Int}

def pairwiseS (c : A.Sim g0 i0) (d : B.Sim h0 j0) : (pairwise A B).Sim (g0.zip h0) i0 where
  I := fun s => c.I s.enumerator1 ∧ d.I s.enumerator2
  R := fun s ys g => ∃ ys1 g1 ys2 g2, c.R s.enumerator1 ys1 g1 ∧ d.R s.enumerator2 ys2 g2 ∧ ys.length = ys1.length ∧
    g = g1.zip g2 ∧ ∀ y, ys.getLast? = some y → s.current = some y
  start := c.start
  inv := by rintro s ys g ⟨_, _, _, _, h1, h2, _⟩; exact ⟨c.inv h1, d.inv h2⟩
  index := by
    rintro s ys g ⟨ys1, _, _, _, h1, h2, hl, _⟩
    show A.index s.enumerator1 = _
    rw [c.index h1, hl]
    cases ys <;> cases ys1 <;> simp_all
  current := by rintro s ys g ⟨_, _, _, _, _, _, _, _, hc⟩ y hy; exact hc y hy
  next := by
    rintro ⟨s1, s2, cur⟩ ys _ ⟨ys1, g1, ys2, g2, h1, h2, hl, rfl, hc⟩ w
    simp only at h1 h2
    rw [Gen.pull_zip]
    have hn := c.next h1 w
    revert hn
    cases g1.pull w with
    | fault => intro hn; simp only [Answers] at hn; simp [Answers, Gen.then', pairwise, hn]
    | err w1 => rintro ⟨s', e, hI⟩; exact ⟨⟨s', s2, cur⟩, by simp [pairwise, e], hI, d.inv h2⟩
    | ok o w1 =>
      match o with
      | none => rintro ⟨s', e, hI⟩; exact ⟨⟨s', s2, cur⟩, by simp [pairwise, e], hI, d.inv h2⟩
      | some (x, r) =>
        rintro ⟨s', e, hr⟩
        have hx := c.current hr x (last_append _ _)
        simp only [Gen.then']
        have hm := d.next h2 w1
        revert hm
        cases g2.pull w1 with
        | fault => intro hm; simp only [Answers] at hm; simp [Answers, pairwise, e, hm]
        | err w2 => rintro ⟨s2', e', hI'⟩; exact ⟨⟨s', s2', cur⟩, by simp [pairwise, e, e'], c.inv hr, hI'⟩
        | ok o w2 =>
          match o with
          | none => rintro ⟨s2', e', hI'⟩; exact ⟨⟨s', s2', cur⟩, by simp [pairwise, e, e'], c.inv hr, hI'⟩
          | some (y, q) =>
            rintro ⟨s2', e', hq⟩
            have hy := d.current hq y (last_append _ _)
            exact ⟨⟨s', s2', some (x, y)⟩, by simp [pairwise, e, e', hx, hy], ys1 ++ [x], r, ys2 ++ [y], q, hr, hq,
              by simp [hl], rfl, by simp⟩
  clone := by
    rintro ⟨s1, s2, cur⟩ ys g ⟨ys1, g1, ys2, g2, h1, h2, hh⟩
    obtain ⟨s1', e1, h1'⟩ := c.clone h1
    obtain ⟨s2', e2, h2'⟩ := d.clone h2
    exact ⟨⟨s1', s2', cur⟩, by simp_all [pairwise], ys1, g1, ys2, g2, h1', h2', hh⟩
  cloneI := by
    rintro ⟨s1, s2, cur⟩ ⟨h1, h2⟩
    obtain ⟨s1', e1, h1'⟩ := c.cloneI h1
    obtain ⟨s2', e2, h2'⟩ := d.cloneI h2
    exact ⟨⟨s1', s2', cur⟩, by simp_all [pairwise], h1', h2'⟩
  reset := by
    rintro ⟨s1, s2, cur⟩ ⟨h1, h2⟩
    exact ⟨[], g0, [], h0, c.reset h1, d.reset h2, rfl, rfl, by simp⟩

end pairwise

section take
variable {A : CallAtor W α} {g0 : Gen W α} {i0 : Int}

def takeS (c : A.Sim g0 i0) (count : Int) (hc : 1 ≤ count ∨ i0 = -1) : (take A count).Sim (g0.take count.toNat) i0 where
  I := c.I
  R := fun s ys g => ∃ g1, c.R s ys g1 ∧ ys.length ≤ count.toNat ∧ g = g1.take (count.toNat - ys.length)
  start := c.start
  inv := by rintro s ys g ⟨g1, h, _⟩; exact c.inv h
  index := by rintro s ys g ⟨g1, h, _⟩; exact c.index h
  current := by rintro s ys g ⟨g1, h, _⟩; exact c.current h
  next := by
    rintro s ys _ ⟨g1, h, hl, rfl⟩ w
    have hidx := c.index h
    have hs := c.start
    cases hk : count.toNat - ys.length with
    | zero =>
      rw [Gen.take_zero]
      refine ⟨s, ?_, c.inv h⟩
      show (if _ then _ else _) = _
      refine if_pos ?_
      split at hidx
      · subst_vars; simp at hk; omega
      · omega
    | succ k =>
      have hif : (take A count).next s w = A.next s w := by
        show (if _ then _ else _) = _
        refine if_neg ?_
        split at hidx
        · subst_vars; simp at hk; omega
        · omega
      rw [hif, Gen.pull_take]
      have hn := c.next h w
      revert hn
      cases g1.pull w with
      | fault => exact id
      | err w1 => exact id
      | ok o w1 =>
        match o with
        | none => exact id
        | some (x, r) =>
          rintro ⟨s', e, hr⟩
          refine ⟨s', e, r, hr, by simp; omega, ?_⟩
          congr 1
          simp; omega
  clone := by
    rintro s ys g ⟨g1, h, hh⟩
    obtain ⟨s', e, h'⟩ := c.clone h
    exact ⟨s', e, g1, h', hh⟩
  cloneI := c.cloneI
  reset := by
    intro s h
    exact ⟨g0, c.reset h, by simp, rfl⟩

end take

section skip
variable {A : CallAtor W α} {g0 : Gen W α} {i0 : Int}

theorem skipLoop_drop (c : A.Sim g0 i0) : ∀ (n : Nat) {s : A.σ} {ys : List α} {g : Gen W α}, c.R s ys g → ∀ w,
    (∃ s' ys' g' w', skipLoop A n s w = some (.ok true (s', w')) ∧ c.R s' ys' g' ∧ ys'.length = ys.length + n ∧
      (g.drop n).pull w = g'.pull w') ∨
    (∃ s' w', skipLoop A n s w = some (.ok false (s', w')) ∧ c.I s' ∧ (g.drop n).pull w = .ok none w') ∨
    (∃ s' w', skipLoop A n s w = some (.err (s', w')) ∧ c.I s' ∧ (g.drop n).pull w = .err w') ∨
    (skipLoop A n s w = some .fault ∧ (g.drop n).pull w = .fault)
  | 0, s, ys, g, h, w => .inl ⟨s, ys, g, w, rfl, h, rfl, by rw [Gen.drop_zero]⟩
  | n + 1, s, ys, g, h, w => by
    rw [Gen.pull_drop]
    have hn := c.next h w
    revert hn
    cases g.pull w with
    | fault => intro hn; simp only [Answers] at hn; exact .inr (.inr (.inr ⟨by simp [skipLoop, hn], rfl⟩))
    | err w1 => rintro ⟨s', e, hI⟩; exact .inr (.inr (.inl ⟨s', w1, by simp [skipLoop, e], hI, rfl⟩))
    | ok o w1 =>
      match o with
      | none => rintro ⟨s', e, hI⟩; exact .inr (.inl ⟨s', w1, by simp [skipLoop, e], hI, rfl⟩)
      | some (x, r) =>
        rintro ⟨s', e, hr⟩
        have : skipLoop A (n + 1) s w = skipLoop A n s' w1 := by simp [skipLoop, e]
        rw [this]
        simp only [Gen.then']
        rcases skipLoop_drop c n hr w1 with ⟨s2, ys2, g2, w2, e2, h2, hl, hp⟩ | h2 | h2 | h2
        · exact .inl ⟨s2, ys2, g2, w2, e2, h2, by simp at hl; omega, hp⟩
        · exact .inr (.inl h2)
        · exact .inr (.inr (.inl h2))
        · exact .inr (.inr (.inr h2))

def skipS (c : A.Sim g0 i0) (count : Int) (hc : 0 ≤ count) : (skip A count).Sim (g0.drop count.toNat) (i0 - count) where
  I := fun s => c.I s.1
  R := fun s ys g => (s.2 = false ∧ ys = [] ∧ ∃ g1, c.R s.1 [] g1 ∧ g = g1.drop count.toNat) ∨
    (s.2 = true ∧ ys ≠ [] ∧ ∃ ys1, c.R s.1 ys1 g ∧ ys1.length = ys.length + count.toNat ∧ ys1.getLast? = ys.getLast?)
  start := by have := c.start; omega
  inv := by
    rintro s ys g (⟨_, _, g1, h, _⟩ | ⟨_, _, ys1, h, _⟩)
    · exact c.inv h
    · exact c.inv h
  index := by
    rintro s ys g (⟨_, rfl, g1, h, _⟩ | ⟨_, hne, ys1, h, hl, _⟩)
    · show A.index s.1 - count = _
      rw [c.index h]; rfl
    · show A.index s.1 - count = _
      rw [c.index h, if_neg hne, if_neg (by rintro rfl; cases ys <;> simp_all <;> omega)]
      omega
  current := by
    rintro s ys g (⟨_, rfl, g1, h, _⟩ | ⟨_, hne, ys1, h, hl, hl2⟩) y hy
    · cases hy
    · exact c.current h y (hl2.trans hy)
  next := by
    rintro ⟨s, b⟩ ys g (⟨hb, rfl, g1, h, rfl⟩ | ⟨hb, hne, ys1, h, hl, hl2⟩) w
    · simp only at hb h; subst hb
      rcases skipLoop_drop c count.toNat h w with ⟨s2, ys2, g2, w2, e2, h2, hl, hp⟩ | ⟨s2, w2, e2, h2, hp⟩ | ⟨s2, w2, e2, h2, hp⟩ | ⟨e2, hp⟩
      · rw [hp]
        have hn := c.next h2 w2
        revert hn
        cases g2.pull w2 with
        | fault => intro hn; simp only [Answers] at hn; simp [Answers, skip, e2, hn, wrap]
        | err w1 => rintro ⟨s', e, hI⟩; exact ⟨(s', true), by simp [skip, e2, e, wrap], hI⟩
        | ok o w1 =>
          match o with
          | none => rintro ⟨s', e, hI⟩; exact ⟨(s', true), by simp [skip, e2, e, wrap], hI⟩
          | some (x, r) =>
            rintro ⟨s', e, hr⟩
            exact ⟨(s', true), by simp [skip, e2, e, wrap], .inr ⟨rfl, by simp, ys2 ++ [x], hr, by simp at hl; simp [hl]; omega, by simp⟩⟩
      · rw [hp]; exact ⟨(s2, true), by simp [skip, e2], h2⟩
      · rw [hp]; exact ⟨(s2, true), by simp [skip, e2], h2⟩
      · rw [hp]; simp [Answers, skip, e2]
    · simp only at hb h; subst hb
      have hn := c.next h w
      revert hn
      cases g.pull w with
      | fault => intro hn; simp only [Answers] at hn; simp [Answers, skip, hn, wrap]
      | err w1 => rintro ⟨s', e, hI⟩; exact ⟨(s', true), by simp [skip, e, wrap], hI⟩
      | ok o w1 =>
        match o with
        | none => rintro ⟨s', e, hI⟩; exact ⟨(s', true), by simp [skip, e, wrap], hI⟩
        | some (x, r) =>
          rintro ⟨s', e, hr⟩
          exact ⟨(s', true), by simp [skip, e, wrap], .inr ⟨rfl, by simp, ys1 ++ [x], hr, by simp [hl]; omega, by simp⟩⟩
  clone := by
    rintro ⟨s, b⟩ ys g (⟨hb, hy, g1, h, hg⟩ | ⟨hb, hne, ys1, h, hh⟩)
    · obtain ⟨s', e, h'⟩ := c.clone h
      exact ⟨(s', b), by simp [skip, e], .inl ⟨hb, hy, g1, h', hg⟩⟩
    · obtain ⟨s', e, h'⟩ := c.clone h
      exact ⟨(s', b), by simp [skip, e], .inr ⟨hb, hne, ys1, h', hh⟩⟩
  cloneI := by
    rintro ⟨s, b⟩ h
    obtain ⟨s', e, h'⟩ := c.cloneI h
    exact ⟨(s', b), by simp [skip, e], h'⟩
  reset := by
    rintro ⟨s, b⟩ h
    exact .inl ⟨rfl, rfl, g0, c.reset h, rfl⟩

end skip

section repeat_
variable {A : CallAtor W α} {g0 : Gen W α} {i0 : Int}

/-- what is left when `r` rounds are over and `g` is left of the current one -/
def restOf (n r : Nat) (g g0 : Gen W α) : Gen W α := if r < n then g.append (g0.replicate (n - r - 1)) else .done

theorem restOf_next (n r : Nat) (g0 : Gen W α) (h : r < n) : restOf n (r + 1) g0 g0 = g0.replicate (n - r - 1) := by
  unfold restOf
  split
  · obtain ⟨m, hm⟩ : ∃ m, n - r - 1 = m + 1 := ⟨n - r - 2, by omega⟩
    rw [hm, Gen.replicate, show n - (r + 1) - 1 = m by omega]
  · rw [show n - r - 1 = 0 by omega, Gen.replicate]

theorem repeatNext_rest (c : A.Sim g0 i0) (count : Int) (k : Nat) : ∀ (r : Nat) (i : Int) {e : A.σ} {ys : List α} {g : Gen W α},
    count.toNat - r = k → c.R e ys g → ∀ w,
    match (restOf count.toNat r g g0).pull w with
    | .ok none w' => ∃ s', repeatNext A count ⟨e, i, (r : Nat)⟩ w = some (.ok false (s', w')) ∧ c.I s'.enumerator
    | .ok (some (x, g')) w' => ∃ (e' : A.σ) (r' : Nat) (ys' : List α) (g1 : Gen W α),
        repeatNext A count ⟨e, i, (r : Nat)⟩ w = some (.ok true (⟨e', i + 1, (r' : Nat)⟩, w')) ∧
        c.R e' (ys' ++ [x]) g1 ∧ g' = restOf count.toNat r' g1 g0
    | .err w' => ∃ s', repeatNext A count ⟨e, i, (r : Nat)⟩ w = some (.err (s', w')) ∧ c.I s'.enumerator
    | .fault => repeatNext A count ⟨e, i, (r : Nat)⟩ w = some .fault := by
  induction k with
  | zero =>
    intro r i e ys g hk h w
    rw [restOf, if_neg (by omega)]
    refine ⟨⟨e, i, r⟩, ?_, c.inv h⟩
    rw [repeatNext, if_neg (by simp only; omega)]
  | succ k ih =>
    intro r i e ys g hk h w
    have hlt : r < count.toNat := by omega
    rw [restOf, if_pos hlt, Gen.pull_append]
    have hn := c.next h w
    revert hn
    cases g.pull w with
    | fault =>
      intro hn; simp only [Answers] at hn
      show _ = _
      rw [repeatNext, if_pos (by simp only; omega)]; simp [hn]
    | err w1 =>
      rintro ⟨s', q, hI⟩
      refine ⟨⟨s', i, r⟩, ?_, hI⟩
      rw [repeatNext, if_pos (by simp only; omega)]; simp [q]
    | ok o w1 =>
      match o with
      | some (x, r1) =>
        rintro ⟨s', q, hr⟩
        refine ⟨s', r, ys, r1, ?_, hr, by rw [restOf, if_pos hlt]⟩
        rw [repeatNext, if_pos (by simp only; omega)]; simp [q]
      | none =>
        rintro ⟨s', q, hI⟩
        simp only [Gen.then']
        have hw : repeatNext A count ⟨e, i, (r : Nat)⟩ w = repeatNext A count ⟨A.reset s', i, ((r + 1 : Nat) : Int)⟩ w1 := by
          rw [repeatNext, if_pos (by simp only; omega)]; simp [q]
        rw [hw, ← restOf_next _ _ _ hlt]
        exact ih (r + 1) i (by omega) (c.reset hI) w1

def repeatS (c : A.Sim g0 i0) (count : Int) : (repeat' A count).Sim (g0.replicate count.toNat) (-1) where
  I := fun s => c.I s.enumerator
  R := fun s ys g => ∃ (r : Nat) (ys1 : List α) (g1 : Gen W α), s.repeatedCount = r ∧ s.index = (ys.length : Int) - 1 ∧
    c.R s.enumerator ys1 g1 ∧ g = restOf count.toNat r g1 g0 ∧ ∀ y, ys.getLast? = some y → ys1.getLast? = some y
  start := by omega
  inv := by rintro s ys g ⟨_, _, _, _, _, h, _⟩; exact c.inv h
  index := by
    rintro s ys g ⟨_, _, _, _, hi, _⟩
    show s.index = _
    rw [hi]
    split <;> simp_all
  current := by rintro s ys g ⟨_, _, _, _, _, h, _, hl⟩ y hy; exact c.current h y (hl y hy)
  next := by
    rintro ⟨e, i, rc⟩ ys _ ⟨r, ys1, g1, hrc, hi, h, rfl, hl⟩ w
    simp only at hrc hi h; subst hrc
    have hn := repeatNext_rest c count _ r i rfl h w
    revert hn
    cases (restOf count.toNat r g1 g0).pull w with
    | fault => exact id
    | err w1 => exact id
    | ok o w1 =>
      match o with
      | none => exact id
      | some (x, g') =>
        rintro ⟨e', r', ys', g2, q, hr, rfl⟩
        exact ⟨⟨e', i + 1, r'⟩, q, r', ys' ++ [x], g2, rfl, by simp [hi], hr, rfl, by simp⟩
  clone := by
    rintro ⟨e, i, rc⟩ ys g ⟨r, ys1, g1, hrc, hi, h, hh⟩
    obtain ⟨s', q, h'⟩ := c.clone h
    exact ⟨⟨s', i, rc⟩, by simp only at q; simp [repeat', q], r, ys1, g1, hrc, hi, h', hh⟩
  cloneI := by
    rintro ⟨e, i, rc⟩ h
    obtain ⟨s', q, h'⟩ := c.cloneI h
    exact ⟨⟨s', i, rc⟩, by simp only at q; simp [repeat', q], h'⟩
  reset := by
    rintro ⟨e, i, rc⟩ h
    refine ⟨0, [], g0, rfl, by simp [repeat'], c.reset h, ?_, by simp⟩
    unfold restOf
    split
    · obtain ⟨m, hm⟩ : ∃ m, count.toNat = m + 1 := ⟨count.toNat - 1, by omega⟩
      rw [hm, Gen.replicate]; rfl
    · rw [show count.toNat = 0 by omega, Gen.replicate]

end repeat_

section sets
open Spec (eqBy Ascending)
variable {A : CallAtor W α} {g0 : Gen W α} {i0 : Int}
variable {cmp : α → α → Option Ordering} {ord : α → α → Ordering} [Std.TransCmp ord]

def distinctS (hcmp : KeyCmp cmp ord) (c : A.Sim g0 i0) : (distinct A cmp).Sim (g0.firsts (eqBy ord) []) (-1) where
  I := fun s => c.I s.enumerator ∧ Ascending ord id s.distinct
  R := fun s ys g => ∃ ys1 g1, c.R s.enumerator ys1 g1 ∧ g = g1.firsts (eqBy ord) ys ∧
    Ascending ord id s.distinct ∧ s.distinct.Perm ys ∧ ∀ y, ys.getLast? = some y → s.lastValue = some y
  start := by omega
  inv := by rintro s ys g ⟨_, _, h, _, ha, _⟩; exact ⟨c.inv h, ha⟩
  index := by
    rintro s ys g ⟨_, _, h, _, ha, hp, _⟩
    show (s.distinct.length : Int) - 1 = _
    rw [hp.length_eq]
    split <;> simp_all
  current := by rintro s ys g ⟨_, _, h, _, ha, hp, hl⟩ y hy; exact hl y hy
  next := by
    rintro ⟨e, di, last⟩ ys _ ⟨ys1, g1, h, rfl, ha, hp, hl⟩ w
    simp only at h ha hp hl
    have htest : (fun x => ofOption (W := W) ((Ator.sortedContains cmp di x).map (! ·))) =
        Gen.pureTest (fun x => ! ys.any (fun y => eqBy ord y x)) := by
      funext x w
      rw [sortedContains_spec hcmp ha, seen_perm hp]; rfl
    have hn := nextWhere_pull c (Gen.pureTest (fun x => ! ys.any (fun y => eqBy ord y x))) (Gen.firsts (eqBy ord) ys) (fun x r => r.firsts (eqBy ord) (ys ++ [x])) (by
      intro g w
      rw [Gen.pull_firsts]
      congr 1
      funext o w'
      match o with
      | none => rfl
      | some (x, r) =>
        simp only [Gen.pureTest]
        cases ys.any (fun y => eqBy ord y x) <;> rfl) g1 e ys1 h w
    revert hn
    cases (g1.firsts (eqBy ord) ys).pull w with
    | fault => intro hn; simp only at hn; simp [Answers, distinct, htest, hn]
    | err w1 => rintro ⟨s', q, hI⟩; exact ⟨⟨s', di, last⟩, by simp [distinct, htest, q], hI, ha⟩
    | ok o w1 =>
      match o with
      | none => rintro ⟨s', q, hI⟩; exact ⟨⟨s', di, last⟩, by simp [distinct, htest, q], hI, ha⟩
      | some (x, r') =>
        rintro ⟨s', ys2, r, q, hr, rfl⟩
        have hx := c.current hr x (last_append _ _)
        obtain ⟨p, di', q', ha', hp'⟩ := sortedAdd_spec hcmp ha x
        refine ⟨⟨s', di', some x⟩, by simp [distinct, htest, q, hx, q'], ys2 ++ [x], r, hr, rfl, ha', ?_, by simp⟩
        refine hp'.trans ((List.Perm.cons x hp).trans ?_)
        exact (List.perm_append_singleton x ys).symm
  clone := by
    rintro ⟨e, di, last⟩ ys g ⟨ys1, g1, h, hg, ha, hp, hl⟩
    obtain ⟨s', q, h'⟩ := c.clone h
    obtain ⟨di', q', ha', hp'⟩ := addSorted_spec hcmp di (acc := []) ascending_nil
    simp only at q
    exact ⟨⟨s', di', last⟩, by simp [distinct, q, q'], ys1, g1, h', hg, ha', (by simpa using hp'.trans hp), hl⟩
  cloneI := by
    rintro ⟨e, di, last⟩ ⟨h, ha⟩
    obtain ⟨s', q, h'⟩ := c.cloneI h
    obtain ⟨di', q', ha', hp'⟩ := addSorted_spec hcmp di (acc := []) ascending_nil
    simp only at q
    exact ⟨⟨s', di', last⟩, by simp [distinct, q, q'], h', ha'⟩
  reset := by
    rintro ⟨e, di, last⟩ ⟨h, ha⟩
    exact ⟨[], g0, c.reset h, rfl, ascending_nil, .refl _, by simp⟩

def intersectExceptS (hcmp : KeyCmp cmp ord) (c : A.Sim g0 i0) (ref : List α) (b : Bool) :
    (intersectExcept A cmp b).Sim (g0.filter (Gen.pureTest (fun x => ref.any (fun y => eqBy ord y x) == b))) (-1) where
  I := fun s => c.I s.enumerator ∧ Ascending ord id s.reference ∧ s.reference.Perm ref
  R := fun s ys g => ∃ ys1 g1, c.R s.enumerator ys1 g1 ∧ g = g1.filter (Gen.pureTest (fun x => ref.any (fun y => eqBy ord y x) == b)) ∧
    Ascending ord id s.reference ∧ s.reference.Perm ref ∧ s.index = (ys.length : Int) - 1 ∧
    ∀ y, ys.getLast? = some y → ys1.getLast? = some y
  start := by omega
  inv := by rintro s ys g ⟨_, _, h, _, ha, hp, _⟩; exact ⟨c.inv h, ha, hp⟩
  index := by
    rintro s ys g ⟨_, _, h, _, ha, hp, hi, _⟩
    show s.index = _
    rw [hi]
    split <;> simp_all
  current := by rintro s ys g ⟨_, _, h, _, ha, hp, _, hl⟩ y hy; exact c.current h y (hl y hy)
  next := by
    rintro ⟨e, di, i⟩ ys _ ⟨ys1, g1, h, rfl, ha, hp, hi, hl⟩ w
    simp only at h ha hp hi
    have htest : (fun x => ofOption (W := W) ((Ator.sortedContains cmp di x).map (· == b))) =
        Gen.pureTest (fun x => ref.any (fun y => eqBy ord y x) == b) := by
      funext x w
      rw [sortedContains_spec hcmp ha, seen_perm hp]; rfl
    have hn := nextWhere_pull c (Gen.pureTest (fun x => ref.any (fun y => eqBy ord y x) == b)) _ (fun _ r => r.filter _) (Gen.pull_filter _) g1 e ys1 h w
    revert hn
    cases (g1.filter _).pull w with
    | fault => intro hn; simp only at hn; simp [Answers, intersectExcept, htest, hn]
    | err w1 => rintro ⟨s', q, hI⟩; exact ⟨⟨s', di, i⟩, by simp [intersectExcept, htest, q], hI, ha, hp⟩
    | ok o w1 =>
      match o with
      | none => rintro ⟨s', q, hI⟩; exact ⟨⟨s', di, i⟩, by simp [intersectExcept, htest, q], hI, ha, hp⟩
      | some (x, r') =>
        rintro ⟨s', ys2, r, q, hr, rfl⟩
        exact ⟨⟨s', di, i + 1⟩, by simp [intersectExcept, htest, q], ys2 ++ [x], r, hr, rfl, ha, hp, by simp [hi], by simp⟩
  clone := by
    rintro ⟨e, di, i⟩ ys g ⟨ys1, g1, h, hg, ha, hp, hh⟩
    obtain ⟨s', q, h'⟩ := c.clone h
    obtain ⟨di', q', ha', hp'⟩ := addSorted_spec hcmp di (acc := []) ascending_nil
    simp only at q
    exact ⟨⟨s', di', i⟩, by simp [intersectExcept, q, q'], ys1, g1, h', hg, ha', (by simpa using hp'.trans hp), hh⟩
  cloneI := by
    rintro ⟨e, di, i⟩ ⟨h, ha, hp⟩
    obtain ⟨s', q, h'⟩ := c.cloneI h
    obtain ⟨di', q', ha', hp'⟩ := addSorted_spec hcmp di (acc := []) ascending_nil
    simp only at q
    exact ⟨⟨s', di', i⟩, by simp [intersectExcept, q, q'], h', ha', (by simpa using hp'.trans hp)⟩
  reset := by
    rintro ⟨e, di, i⟩ ⟨h, ha, hp⟩
    exact ⟨[], g0, c.reset h, rfl, ha, hp, by simp [intersectExcept], by simp⟩

end sets
end CallAtor
end Vlpp
