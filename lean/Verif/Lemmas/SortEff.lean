import Verif.Model.SortEff
import Verif.Lemmas.Sort
import Verif.Spec.SortCalls

/-! # Lemmas about `SortLambda` with effects and exceptions -/
set_option autoImplicit false
namespace Vlpp
namespace QSortE
open QSort (read Win read_some read_bound)
variable {α σ β γ : Type}

def Ev.isCmp : Ev α → Bool
  | .cmp _ _ _ => true
  | .copy _ _ => false

def Ev.isCopy : Ev α → Bool
  | .cmp _ _ _ => false
  | .copy _ _ => true

/-- the call did not throw -/
def Ev.quiet : Ev α → Prop
  | .cmp _ _ r => r ≠ .threw
  | .copy _ d => d = true

def At (buf : List α) (lo hi : Int) (a : α) : Prop := ∃ k, lo ≤ k ∧ k < hi ∧ read buf k = some a

/-- the arguments of the call are elements of the window -/
def Ev.from (buf : List α) (lo hi : Int) : Ev α → Prop
  | .cmp a b _ => At buf lo hi a ∧ At buf lo hi b
  | .copy a _ => At buf lo hi a

theorem At.mono {buf : List α} {lo hi lo' hi' : Int} {a : α} (h : At buf lo hi a) (h1 : lo' ≤ lo) (h2 : hi ≤ hi') :
    At buf lo' hi' a := by
  obtain ⟨k, g1, g2, e⟩ := h
  exact ⟨k, by omega, by omega, e⟩

theorem At.back {a b : List α} {lo hi : Int} {x : α} (w : Win a b lo hi) (h : At b lo hi x) : At a lo hi x := by
  obtain ⟨k, g1, g2, e⟩ := h
  obtain ⟨k', g3, g4, e'⟩ := w.inside k g1 g2
  exact ⟨k', g3, g4, by rw [← e', e]⟩

theorem Ev.from.mono {buf : List α} {lo hi lo' hi' : Int} {e : Ev α} (h : e.from buf lo hi) (h1 : lo' ≤ lo)
    (h2 : hi ≤ hi') : e.from buf lo' hi' := by
  cases e with
  | cmp a b r => exact ⟨h.1.mono h1 h2, h.2.mono h1 h2⟩
  | copy a d => exact At.mono h h1 h2

theorem Ev.from.back {a b : List α} {lo hi : Int} {e : Ev α} (w : Win a b lo hi) (h : e.from b lo hi) :
    e.from a lo hi := by
  cases e with
  | cmp x y r => exact ⟨h.1.back w, h.2.back w⟩
  | copy x d => exact At.back w h

/-- calls on elements of the window: at most `k` comparisons and `m` copies -/
structure Trace (buf : List α) (lo hi : Int) (k m : Nat) (evs : List (Ev α)) : Prop where
  cmps : evs.countP Ev.isCmp ≤ k
  copies : evs.countP Ev.isCopy ≤ m
  inside : ∀ e ∈ evs, e.from buf lo hi

theorem Trace.mono {buf : List α} {lo hi lo' hi' : Int} {k m k' m' : Nat} {evs : List (Ev α)}
    (h : Trace buf lo hi k m evs) (h1 : lo' ≤ lo) (h2 : hi ≤ hi') (h3 : k ≤ k') (h4 : m ≤ m') :
    Trace buf lo' hi' k' m' evs :=
  ⟨Nat.le_trans h.cmps h3, Nat.le_trans h.copies h4, fun e he => (h.inside e he).mono h1 h2⟩

theorem Trace.trans {a b : List α} {lo hi : Int} {k m k' m' : Nat} {evs evs' : List (Ev α)}
    (h : Trace a lo hi k m evs) (w : Win a b lo hi) (h' : Trace b lo hi k' m' evs') :
    Trace a lo hi (k + k') (m + m') (evs' ++ evs) := by
  refine ⟨?_, ?_, ?_⟩
  · rw [List.countP_append]; have := h.cmps; have := h'.cmps; omega
  · rw [List.countP_append]; have := h.copies; have := h'.copies; omega
  · intro e he
    rcases List.mem_append.1 he with he | he
    · exact (h'.inside e he).back w
    · exact h.inside e he

/-- a rearrangement in which one element was overwritten by another -/
def Dmg (buf buf' : List α) (lo hi : Int) : Prop :=
  ∃ mid i j b, Win buf mid lo hi ∧ lo ≤ i ∧ i < hi ∧ lo ≤ j ∧ j < hi ∧ i ≠ j ∧ 0 ≤ i ∧ read mid j = some b ∧
    buf' = mid.set i.toNat b

theorem Dmg.mono {a b : List α} {lo hi lo' hi' : Int} (h : Dmg a b lo hi) (h1 : lo' ≤ lo) (h2 : hi ≤ hi') :
    Dmg a b lo' hi' := by
  obtain ⟨mid, i, j, x, w, g1, g2, g3, g4, g5, g6, g7⟩ := h
  exact ⟨mid, i, j, x, w.mono h1 h2, by omega, by omega, by omega, by omega, g5, g6, g7⟩

theorem Dmg.back {a b c : List α} {lo hi : Int} (w : Win a b lo hi) (h : Dmg b c lo hi) : Dmg a c lo hi := by
  obtain ⟨mid, i, j, x, w', g⟩ := h
  exact ⟨mid, i, j, x, w.trans w', g⟩

theorem Plays.trans {E : Env α σ} {s s1 s2 : σ} {t t' : List (Ev α)} (h : Spec.Plays E s t s1) (h' : Spec.Plays E s1 t' s2) :
    Spec.Plays E s (t' ++ t) s2 := by
  induction t' generalizing s2 with
  | nil => simp only [Spec.Plays] at h'; subst h'; exact h
  | cons e t' ih =>
    cases e with
    | cmp a b r => obtain ⟨s3, g, e⟩ := h'; exact ⟨s3, ih g, e⟩
    | copy a d => obtain ⟨s3, g, e⟩ := h'; exact ⟨s3, ih g, e⟩

/-- What holds at the end of a part of the code that started in `st` and works on the window. -/
def Post (E : Env α σ) (st : St α σ) (lo hi : Int) (k m : Nat) (Q : β → St α σ → Prop) : Res α σ β → Prop
  | .fault => False
  | .ok b st' => Win st.buf st'.buf lo hi ∧ Q b st' ∧
      ∃ evs, st'.trace = evs ++ st.trace ∧ Spec.Plays E st.s evs st'.s ∧ Trace st.buf lo hi k m evs ∧ ∀ e ∈ evs, e.quiet
  | .error st' => Win st.buf st'.buf lo hi ∧
      ∃ a b evs, st'.trace = (.cmp a b .unordered :: evs) ++ st.trace ∧
        Spec.Plays E st.s (.cmp a b .unordered :: evs) st'.s ∧
        Trace st.buf lo hi k m (.cmp a b .unordered :: evs) ∧ ∀ e ∈ evs, e.quiet
  | .thrown st' => ∃ e evs, st'.trace = (e :: evs) ++ st.trace ∧ Spec.Plays E st.s (e :: evs) st'.s ∧ Trace st.buf lo hi k m (e :: evs) ∧
      (∀ e ∈ evs, e.quiet) ∧ ¬ e.quiet ∧ (Win st.buf st'.buf lo hi ∨ e.isCopy = true ∧ Dmg st.buf st'.buf lo hi)

theorem Post.mono {E : Env α σ} {st : St α σ} {lo hi lo' hi' : Int} {k m k' m' : Nat} {Q Q' : β → St α σ → Prop} {r : Res α σ β}
    (h : Post E st lo hi k m Q r) (h1 : lo' ≤ lo) (h2 : hi ≤ hi') (h3 : k ≤ k') (h4 : m ≤ m')
    (hQ : ∀ b st', Q b st' → Q' b st') : Post E st lo' hi' k' m' Q' r := by
  cases r with
  | fault => exact h
  | ok b st' =>
    obtain ⟨w, q, evs, e, y, t, p⟩ := h
    exact ⟨w.mono h1 h2, hQ _ _ q, evs, e, y, t.mono h1 h2 h3 h4, p⟩
  | error st' =>
    obtain ⟨w, a, b, evs, e, y, t, p⟩ := h
    exact ⟨w.mono h1 h2, a, b, evs, e, y, t.mono h1 h2 h3 h4, p⟩
  | thrown st' =>
    obtain ⟨e, evs, e1, y, t, p, n, w⟩ := h
    refine ⟨e, evs, e1, y, t.mono h1 h2 h3 h4, p, n, ?_⟩
    rcases w with w | ⟨c, w⟩
    · exact .inl (w.mono h1 h2)
    · exact .inr ⟨c, w.mono h1 h2⟩

/-- prepending calls that did not throw -/
theorem Post.after {E : Env α σ} {st st1 : St α σ} {lo hi : Int} {k m k1 m1 : Nat} {Q : β → St α σ → Prop} {r : Res α σ β}
    {evs1 : List (Ev α)} (w1 : Win st.buf st1.buf lo hi) (e1 : st1.trace = evs1 ++ st.trace)
    (y1 : Spec.Plays E st.s evs1 st1.s) (t1 : Trace st.buf lo hi k1 m1 evs1) (p1 : ∀ e ∈ evs1, e.quiet) (h : Post E st1 lo hi k m Q r) :
    Post E st lo hi (k1 + k) (m1 + m) Q r := by
  have hq : ∀ evs : List (Ev α), (∀ e ∈ evs, e.quiet) → ∀ e ∈ evs ++ evs1, e.quiet := by
    intro evs p e he
    rcases List.mem_append.1 he with he | he
    · exact p e he
    · exact p1 e he
  cases r with
  | fault => exact h
  | ok b st' =>
    obtain ⟨w, q, evs, e, y, t, p⟩ := h
    exact ⟨w1.trans w, q, evs ++ evs1, by rw [e, e1, List.append_assoc], Plays.trans y1 y, t1.trans w1 t, hq evs p⟩
  | error st' =>
    obtain ⟨w, a, b, evs, e, y, t, p⟩ := h
    exact ⟨w1.trans w, a, b, evs ++ evs1, by rw [e, e1]; simp, Plays.trans y1 y, t1.trans w1 t, hq evs p⟩
  | thrown st' =>
    obtain ⟨e, evs, e2, y, t, p, n, w⟩ := h
    refine ⟨e, evs ++ evs1, by rw [e2, e1]; simp, Plays.trans y1 y, t1.trans w1 t, hq evs p, n, ?_⟩
    rcases w with w | ⟨c, w⟩
    · exact .inl (w1.trans w)
    · exact .inr ⟨c, w.back w1⟩

/-- the continuation of a part of the code: errors and exceptions leave at once -/
def next (r : Res α σ β) (f : β → St α σ → Option (Res α σ γ)) : Option (Res α σ γ) :=
  match r with
  | .error st => some (.error st)
  | .thrown st => some (.thrown st)
  | .fault => some .fault
  | .ok b st => f b st

theorem Post.next {E : Env α σ} {st : St α σ} {lo hi : Int} {k m k' m' : Nat} {Q : β → St α σ → Prop} {Q' : γ → St α σ → Prop}
    {r : Res α σ β} {f : β → St α σ → Option (Res α σ γ)} (h : Post E st lo hi k m Q r)
    (hf : ∀ b st', Win st.buf st'.buf lo hi → Q b st' → ∃ r', f b st' = some r' ∧ Post E st' lo hi k' m' Q' r') :
    ∃ r', QSortE.next r f = some r' ∧ Post E st lo hi (k + k') (m + m') Q' r' := by
  cases r with
  | fault => exact absurd h id
  | ok b st' =>
    obtain ⟨w, q, evs, e, y, t, p⟩ := h
    obtain ⟨r', e', h'⟩ := hf b st' w q
    exact ⟨r', e', Post.after w e y t p h'⟩
  | error st' =>
    obtain ⟨w, a, b, evs, e, y, t, p⟩ := h
    exact ⟨.error st', rfl, w, a, b, evs, e, y, t.mono (by omega) (by omega) (by omega) (by omega), p⟩
  | thrown st' =>
    obtain ⟨e, evs, e1, y, t, p, n, w⟩ := h
    exact ⟨.thrown st', rfl, e, evs, e1, y, t.mono (by omega) (by omega) (by omega) (by omega), p, n, w⟩

theorem compare_buf (E : Env α σ) (a b : α) (st : St α σ) : (compare E a b st).2.buf = st.buf := rfl

theorem compare_trace (E : Env α σ) (a b : α) (st : St α σ) :
    (compare E a b st).2.trace = .cmp a b (compare E a b st).1 :: st.trace := rfl

theorem copy_buf (E : Env α σ) (a : α) (st : St α σ) : (copy E a st).2.buf = st.buf := rfl

theorem copy_trace (E : Env α σ) (a : α) (st : St α σ) :
    (copy E a st).2.trace = .copy a (copy E a st).1 :: st.trace := rfl

theorem copy_plays (E : Env α σ) (a : α) (st : St α σ) :
    E.copy st.s a = ((copy E a st).1, (copy E a st).2.s) := rfl

theorem compare_plays (E : Env α σ) (a b : α) (st : St α σ) :
    E.cmp st.s a b = ((compare E a b st).1, (compare E a b st).2.s) := rfl

/-- Exchanging two elements of the window. -/
theorem swap_post (E : Env α σ) {st : St α σ} {i j lo hi : Int} (hi1 : lo ≤ i) (hi2 : i < hi) (hj1 : lo ≤ j)
    (hj2 : j < hi) (h0 : 0 ≤ lo) (hl : hi ≤ st.buf.length) (hij : i ≠ j) :
    Post E st lo hi 0 3 (fun _ _ => True) (swap E i j st) := by
  obtain ⟨a, ha⟩ := read_some (buf := st.buf) (k := i) (by omega) (by omega)
  obtain ⟨b, hb⟩ := read_some (buf := st.buf) (k := j) (by omega) (by omega)
  have atA : At st.buf lo hi a := ⟨i, hi1, hi2, ha⟩
  have atB : At st.buf lo hi b := ⟨j, hj1, hj2, hb⟩
  unfold swap
  simp only [ha, hb]
  have b1 := copy_buf E a st
  have t1 := copy_trace E a st
  have y1 := copy_plays E a st
  generalize copy E a st = r1 at b1 t1 y1
  obtain ⟨d1, st1⟩ := r1
  cases d1 with
  | false =>
    refine ⟨.copy a false, [], t1, ⟨_, rfl, y1⟩, ⟨by simp [Ev.isCmp], by simp [Ev.isCopy], ?_⟩, by simp, by simp [Ev.quiet], .inl ?_⟩
    · intro e he; rw [List.mem_singleton.1 he]; exact atA
    · show Win st.buf st1.buf lo hi
      rw [show st1.buf = st.buf from b1]; exact .refl _ _ _
  | true =>
    simp only
    have b2 := copy_buf E b st1
    have t2 := copy_trace E b st1
    have y2 := copy_plays E b st1
    generalize copy E b st1 = r2 at b2 t2 y2
    obtain ⟨d2, st2⟩ := r2
    have bb2 : st2.buf = st.buf := (show st2.buf = st1.buf from b2).trans b1
    have tt2 : st2.trace = [.copy b d2, .copy a true] ++ st.trace := by
      rw [show st2.trace = .copy b d2 :: st1.trace from t2, show st1.trace = .copy a true :: st.trace from t1]; rfl
    cases d2 with
    | false =>
      refine ⟨.copy b false, [.copy a true], tt2, ⟨_, ⟨_, rfl, y1⟩, y2⟩, ⟨by simp [Ev.isCmp],
        by simp [List.countP_cons, Ev.isCopy], ?_⟩, by simp [Ev.quiet], by simp [Ev.quiet], .inl ?_⟩
      · intro e he
        simp only [List.mem_cons, List.not_mem_nil, or_false] at he
        rcases he with rfl | rfl
        · exact atB
        · exact atA
      · rw [bb2]; exact .refl _ _ _
    | true =>
      simp only
      have b3 := copy_buf E a { st2 with buf := st2.buf.set i.toNat b }
      have t3 := copy_trace E a { st2 with buf := st2.buf.set i.toNat b }
      have y3 := copy_plays E a { st2 with buf := st2.buf.set i.toNat b }
      generalize copy E a { st2 with buf := st2.buf.set i.toNat b } = r3 at b3 t3 y3
      obtain ⟨d3, st3⟩ := r3
      have bb3 : st3.buf = st.buf.set i.toNat b := by
        rw [show st3.buf = st2.buf.set i.toNat b from b3, bb2]
      have tt3 : st3.trace = [.copy a d3, .copy b true, .copy a true] ++ st.trace := by
        rw [show st3.trace = .copy a d3 :: st2.trace from t3, tt2]; rfl
      have tin : ∀ e ∈ ([.copy a d3, .copy b true, .copy a true] : List (Ev α)), e.from st.buf lo hi := by
        intro e he
        simp only [List.mem_cons, List.not_mem_nil, or_false] at he
        rcases he with rfl | rfl | rfl
        · exact atA
        · exact atB
        · exact atA
      cases d3 with
      | false =>
        exact ⟨.copy a false, [.copy b true, .copy a true], tt3, ⟨_, ⟨_, ⟨_, rfl, y1⟩, y2⟩, y3⟩, ⟨by simp [Ev.isCmp],
          by simp [List.countP_cons, Ev.isCopy], tin⟩, by simp [Ev.quiet], by simp [Ev.quiet],
          .inr ⟨rfl, st.buf, i, j, b, .refl _ _ _, hi1, hi2, hj1, hj2, hij, by omega, hb, bb3⟩⟩
      | true =>
        obtain ⟨buf', e, w, _⟩ := QSort.swap_spec hi1 hi2 hj1 hj2 ha hb
        refine ⟨?_, trivial, [.copy a true, .copy b true, .copy a true], tt3, ⟨_, ⟨_, ⟨_, rfl, y1⟩, y2⟩, y3⟩, ⟨by simp [Ev.isCmp],
          by simp [List.countP_cons, Ev.isCopy], tin⟩, by simp [Ev.quiet]⟩
        simp only [QSort.swap, ha, hb, Option.some.injEq] at e
        simp only [bb3]
        rw [e]; exact w

/-- One comparison: how the code goes on after each answer. -/
theorem compare_post (E : Env α σ) {st : St α σ} {lo hi : Int} {k m : Nat} {a b : α} (ha : At st.buf lo hi a)
    (hb : At st.buf lo hi b) {Q : β → St α σ → Prop} {f : Answer → St α σ → Option (Res α σ β)}
    (h1 : ∀ st', f .threw st' = some (.thrown st'))
    (h2 : ∀ st', st'.buf = st.buf → f .unordered st' = some (.error st') ∨
      ∃ r, f .unordered st' = some r ∧ Post E st' lo hi k m Q r)
    (h3 : ∀ o st', st'.buf = st.buf → ∃ r, f (.ord o) st' = some r ∧ Post E st' lo hi k m Q r) :
    ∃ r, f (compare E a b st).1 (compare E a b st).2 = some r ∧ Post E st lo hi (1 + k) (0 + m) Q r := by
  have hbuf := compare_buf E a b st
  have htr := compare_trace E a b st
  have hy := compare_plays E a b st
  generalize compare E a b st = c at hbuf htr hy
  obtain ⟨ans, st'⟩ := c
  simp only at hbuf htr hy ⊢
  have hy1 : Spec.Plays E st.s [.cmp a b ans] st'.s := ⟨_, rfl, hy⟩
  have w : Win st.buf st'.buf lo hi := by rw [hbuf]; exact .refl _ _ _
  have tr : ∀ k m, 1 ≤ k → Trace st.buf lo hi k m [.cmp a b ans] := by
    intro k m hk
    refine ⟨by simpa [Ev.isCmp] using hk, by simp [Ev.isCopy], ?_⟩
    intro e he; rw [List.mem_singleton.1 he]; exact ⟨ha, hb⟩
  have go : ans ≠ .threw → (∃ r, f ans st' = some r ∧ Post E st' lo hi k m Q r) →
      ∃ r, f ans st' = some r ∧ Post E st lo hi (1 + k) (0 + m) Q r := by
    intro hne ⟨r, e, hp⟩
    refine ⟨r, e, Post.after w (evs1 := [.cmp a b ans]) htr hy1 (tr 1 0 (by omega)) ?_ hp⟩
    intro e he; rw [List.mem_singleton.1 he]; exact hne
  cases ans with
  | threw =>
    exact ⟨_, h1 st', .cmp a b .threw, [], htr, hy1, tr _ _ (by omega), by simp, by simp [Ev.quiet], .inl w⟩
  | unordered =>
    rcases h2 st' hbuf with h | h
    · exact ⟨_, h, w, a, b, [], htr, hy1, tr _ _ (by omega), by simp⟩
    · exact go (by simp) h
  | ord o => exact go (by simp) (h3 o st' hbuf)

/-- the code after one comparison of the partition loop -/
def partCont (E : Env α σ) (base length pivot left right : Int) (flag : Bool) (ans : Answer) (st : St α σ) :
    Option (Res α σ (Int × Int × Int)) :=
  let candidate := if flag then left else length - right - 1
  match ans with
  | .threw => some (.thrown st)
  | .unordered => some (.error st)
  | .ord ordering =>
    if (flag = false ∧ ordering ≠ .gt) ∨ (flag = true ∧ ordering ≠ .lt) then
      if flag then partLoop E base length pivot (left + 1) right flag st
      else partLoop E base length pivot left (right + 1) flag st
    else
      next (swap E (base + pivot) (base + candidate) st) fun _ st =>
        if flag then partLoop E base length candidate left (right + 1) (!flag) st
        else partLoop E base length candidate (left + 1) right (!flag) st

theorem partLoop_eq (E : Env α σ) {base length pivot left right : Int} {flag : Bool} {st : St α σ} {p c : α}
    (hne : left + right + 1 ≠ length) (hp : read st.buf (base + pivot) = some p)
    (hc : read st.buf (base + (if flag then left else length - right - 1)) = some c) :
    partLoop E base length pivot left right flag st
      = partCont E base length pivot left right flag (compare E p c st).1 (compare E p c st).2 := by
  rw [partLoop.eq_def, if_pos hne]
  simp only [hp, hc]
  generalize compare E p c st = r
  obtain ⟨ans, st'⟩ := r
  cases ans with
  | threw => rfl
  | unordered => rfl
  | ord o =>
    simp only [partCont]
    split
    · rfl
    · cases swap E (base + pivot) (base + if flag = true then left else length - right - 1) st' <;> rfl

/-- The partition loop. -/
theorem partLoop_post (E : Env α σ) {base length : Int} (hb : 0 ≤ base) :
    ∀ (n : Nat) (pivot left right : Int) (flag : Bool) (st : St α σ), base + length ≤ st.buf.length →
      0 ≤ left → 0 ≤ right → left + right + 1 + n = length → pivot = (if flag then length - right - 1 else left) →
      ∃ r, partLoop E base length pivot left right flag st = some r ∧
        Post E st base (base + length) n (3 * n) (fun v _ => v.1 = v.2.1 ∧ 0 ≤ v.2.1 ∧ 0 ≤ v.2.2 ∧
          v.2.1 + v.2.2 + 1 = length) r := by
  intro n
  induction n with
  | zero =>
    intro pivot left right flag st hl h0 h1 hn hpv
    refine ⟨.ok (pivot, left, right) st, by rw [partLoop, if_neg (by omega)], .refl _ _ _, ⟨?_, h0, h1, by simp only; omega⟩, [], rfl, rfl,
      ⟨by simp, by simp, by simp⟩, by simp⟩
    simp only [hpv]; split <;> omega
  | succ n ih =>
    intro pivot left right flag st hl h0 h1 hn hpv
    have hpr : 0 ≤ pivot ∧ pivot < length ∧ pivot ≠ (if flag then left else length - right - 1) ∧
        0 ≤ (if flag then left else length - right - 1) ∧ (if flag then left else length - right - 1) < length := by
      subst hpv; cases flag <;> simp <;> omega
    obtain ⟨p, hp⟩ := read_some (buf := st.buf) (k := base + pivot) (by omega) (by omega)
    obtain ⟨c, hc⟩ := read_some (buf := st.buf) (k := base + (if flag then left else length - right - 1)) (by omega)
      (by omega)
    rw [partLoop_eq E (by omega) hp hc]
    obtain ⟨r, e, h⟩ := compare_post E (st := st) (lo := base) (hi := base + length) (k := n) (m := 3 + 3 * n)
      (a := p) (b := c) ⟨_, by omega, by omega, hp⟩ ⟨_, by omega, by omega, hc⟩
      (Q := fun (v : Int × Int × Int) _ => v.1 = v.2.1 ∧ 0 ≤ v.2.1 ∧ 0 ≤ v.2.2 ∧ v.2.1 + v.2.2 + 1 = length)
      (f := partCont E base length pivot left right flag)
      (fun _ => rfl) (fun _ _ => .inl rfl) (by
        intro o st' hst
        have hl' : base + length ≤ st'.buf.length := by rw [hst]; exact hl
        simp only [partCont]
        split
        · cases flag with
          | false =>
            simp only [Bool.false_eq_true, if_false] at hpv ⊢
            obtain ⟨r, e, h⟩ := ih pivot left (right + 1) false st' hl' h0 (by omega) (by omega) (by simpa using hpv)
            exact ⟨r, e, h.mono (by omega) (by omega) (by omega) (by omega) (fun _ _ h => h)⟩
          | true =>
            simp only [if_true] at hpv ⊢
            obtain ⟨r, e, h⟩ := ih pivot (left + 1) right true st' hl' (by omega) h1 (by omega) (by simpa using hpv)
            exact ⟨r, e, h.mono (by omega) (by omega) (by omega) (by omega) (fun _ _ h => h)⟩
        · have hs := swap_post E (st := st') (i := base + pivot)
            (j := base + (if flag then left else length - right - 1)) (lo := base) (hi := base + length) (by omega)
            (by omega) (by omega) (by omega) hb hl' (by omega)
          have := Post.next (k' := n) (m' := 3 * n)
            (Q' := fun (v : Int × Int × Int) _ => v.1 = v.2.1 ∧ 0 ≤ v.2.1 ∧ 0 ≤ v.2.2 ∧ v.2.1 + v.2.2 + 1 = length)
            (f := fun _ st => if flag then
                partLoop E base length (if flag then left else length - right - 1) left (right + 1) (!flag) st
              else partLoop E base length (if flag then left else length - right - 1) (left + 1) right (!flag) st) hs (by
            intro _ st2 w2 _
            have hl2 : base + length ≤ st2.buf.length := by rw [w2.len]; exact hl'
            cases flag with
            | false =>
              simp only [Bool.false_eq_true, if_false, Bool.not_false]
              exact ih _ _ _ true st2 hl2 (by omega) h1 (by omega) (by simp)
            | true =>
              simp only [if_true, Bool.not_true]
              exact ih _ _ _ false st2 hl2 h0 (by omega) (by omega) (by simp))
          rw [Nat.zero_add] at this
          exact this)
    exact ⟨r, e, h.mono (by omega) (by omega) (by omega) (by omega) (fun _ _ h => h)⟩

/-- the code after one comparison of the loop over the left part -/
def leftCont (E : Env α σ) (base pivot reading writing : Int) (ans : Answer) (st : St α σ) : Option (Res α σ Int) :=
  match ans with
  | .threw => some (.thrown st)
  | .unordered => some (.error st)
  | .ord .eq =>
    if reading ≠ writing then
      next (swap E (base + reading) (base + writing) st) fun _ st =>
        leftLoop E base pivot (reading - 1) (writing - 1) st
    else leftLoop E base pivot (reading - 1) (writing - 1) st
  | .ord _ => leftLoop E base pivot (reading - 1) writing st

theorem leftLoop_eq (E : Env α σ) {base pivot reading writing : Int} {st : St α σ} {p c : α} (h0 : 0 ≤ reading)
    (hp : read st.buf (base + pivot) = some p) (hc : read st.buf (base + reading) = some c) :
    leftLoop E base pivot reading writing st
      = leftCont E base pivot reading writing (compare E p c st).1 (compare E p c st).2 := by
  rw [leftLoop.eq_def, if_pos h0]
  simp only [hp, hc]
  generalize compare E p c st = r
  obtain ⟨ans, st'⟩ := r
  cases ans with
  | threw => rfl
  | unordered => rfl
  | ord o =>
    cases o with
    | lt => rfl
    | gt => rfl
    | eq =>
      simp only [leftCont]
      split
      · cases swap E (base + reading) (base + writing) st' <;> rfl
      · rfl

/-- Collecting equal elements on the left. -/
theorem leftLoop_post (E : Env α σ) {base length pivot : Int} (hb : 0 ≤ base) (hpl : pivot < length) :
    ∀ (n : Nat) (reading writing : Int) (st : St α σ), base + length ≤ st.buf.length → reading + 1 = n →
      reading ≤ writing → writing < pivot →
      ∃ r, leftLoop E base pivot reading writing st = some r ∧
        Post E st base (base + length) n (3 * n) (fun l _ => 0 ≤ l ∧ l ≤ pivot) r := by
  intro n
  induction n with
  | zero =>
    intro reading writing st hl hn hrw hwp
    exact ⟨.ok (writing + 1) st, by rw [leftLoop, if_neg (by omega)], .refl _ _ _, ⟨by omega, by omega⟩, [], rfl, rfl,
      ⟨by simp, by simp, by simp⟩, by simp⟩
  | succ n ih =>
    intro reading writing st hl hn hrw hwp
    obtain ⟨p, hp⟩ := read_some (buf := st.buf) (k := base + pivot) (by omega) (by omega)
    obtain ⟨c, hc⟩ := read_some (buf := st.buf) (k := base + reading) (by omega) (by omega)
    rw [leftLoop_eq E (by omega) hp hc]
    obtain ⟨r, e, h⟩ := compare_post E (st := st) (lo := base) (hi := base + length) (k := n) (m := 3 + 3 * n)
      (a := p) (b := c) ⟨_, by omega, by omega, hp⟩ ⟨_, by omega, by omega, hc⟩
      (Q := fun (l : Int) _ => 0 ≤ l ∧ l ≤ pivot) (f := leftCont E base pivot reading writing)
      (fun _ => rfl) (fun _ _ => .inl rfl) (by
        intro o st' hst
        have hl' : base + length ≤ st'.buf.length := by rw [hst]; exact hl
        have skip : ∃ r, leftLoop E base pivot (reading - 1) writing st' = some r ∧
            Post E st' base (base + length) n (3 + 3 * n) (fun l _ => 0 ≤ l ∧ l ≤ pivot) r := by
          obtain ⟨r, e, h⟩ := ih (reading - 1) writing st' hl' (by omega) (by omega) hwp
          exact ⟨r, e, h.mono (by omega) (by omega) (by omega) (by omega) (fun _ _ h => h)⟩
        cases o with
        | lt => exact skip
        | gt => exact skip
        | eq =>
          simp only [leftCont]
          split
          · rename_i hne
            have hs := swap_post E (st := st') (i := base + reading) (j := base + writing) (lo := base)
              (hi := base + length) (by omega) (by omega) (by omega) (by omega) hb hl' (by omega)
            have := Post.next (k' := n) (m' := 3 * n) (Q' := fun (l : Int) _ => 0 ≤ l ∧ l ≤ pivot)
              (f := fun _ st => leftLoop E base pivot (reading - 1) (writing - 1) st) hs (by
              intro _ st2 w2 _
              exact ih _ _ st2 (by rw [w2.len]; exact hl') (by omega) (by omega) (by omega))
            rw [Nat.zero_add] at this
            exact this
          · obtain ⟨r, e, h⟩ := ih (reading - 1) (writing - 1) st' hl' (by omega) (by omega) (by omega)
            exact ⟨r, e, h.mono (by omega) (by omega) (by omega) (by omega) (fun _ _ h => h)⟩)
    exact ⟨r, e, h.mono (by omega) (by omega) (by omega) (by omega) (fun _ _ h => h)⟩

/-- the code after one comparison of the loop over the right part -/
def rightCont (E : Env α σ) (base length pivot reading writing : Int) (ans : Answer) (st : St α σ) :
    Option (Res α σ Int) :=
  match ans with
  | .threw => some (.thrown st)
  | .ord .eq =>
    if reading ≠ writing then
      next (swap E (base + reading) (base + writing) st) fun _ st =>
        rightLoop E base length pivot (reading + 1) (writing + 1) st
    else rightLoop E base length pivot (reading + 1) (writing + 1) st
  | _ => rightLoop E base length pivot (reading + 1) writing st

theorem rightLoop_eq (E : Env α σ) {base length pivot reading writing : Int} {st : St α σ} {p c : α}
    (h0 : reading < length) (hp : read st.buf (base + pivot) = some p) (hc : read st.buf (base + reading) = some c) :
    rightLoop E base length pivot reading writing st
      = rightCont E base length pivot reading writing (compare E p c st).1 (compare E p c st).2 := by
  rw [rightLoop.eq_def, if_pos h0]
  simp only [hp, hc]
  generalize compare E p c st = r
  obtain ⟨ans, st'⟩ := r
  cases ans with
  | threw => rfl
  | unordered => rfl
  | ord o =>
    cases o with
    | lt => rfl
    | gt => rfl
    | eq =>
      simp only [rightCont]
      split
      · cases swap E (base + reading) (base + writing) st' <;> rfl
      · rfl

/-- Collecting equal elements on the right. -/
theorem rightLoop_post (E : Env α σ) {base length pivot : Int} (hb : 0 ≤ base) (h0 : 0 ≤ pivot) :
    ∀ (n : Nat) (reading writing : Int) (st : St α σ), base + length ≤ st.buf.length → reading + n = length →
      writing ≤ reading → pivot < writing →
      ∃ r, rightLoop E base length pivot reading writing st = some r ∧
        Post E st base (base + length) n (3 * n) (fun l _ => 0 ≤ l ∧ pivot < length - l) r := by
  intro n
  induction n with
  | zero =>
    intro reading writing st hl hn hrw hwp
    exact ⟨.ok (length - writing) st, by rw [rightLoop, if_neg (by omega)], .refl _ _ _, ⟨by omega, by omega⟩, [], rfl, rfl,
      ⟨by simp, by simp, by simp⟩, by simp⟩
  | succ n ih =>
    intro reading writing st hl hn hrw hwp
    obtain ⟨p, hp⟩ := read_some (buf := st.buf) (k := base + pivot) (by omega) (by omega)
    obtain ⟨c, hc⟩ := read_some (buf := st.buf) (k := base + reading) (by omega) (by omega)
    rw [rightLoop_eq E (by omega) hp hc]
    have skip : ∀ st' : St α σ, st'.buf = st.buf →
        ∃ r, rightLoop E base length pivot (reading + 1) writing st' = some r ∧
          Post E st' base (base + length) n (3 + 3 * n) (fun l _ => 0 ≤ l ∧ pivot < length - l) r := by
      intro st' hst
      obtain ⟨r, e, h⟩ := ih (reading + 1) writing st' (by rw [hst]; exact hl) (by omega) (by omega) hwp
      exact ⟨r, e, h.mono (by omega) (by omega) (by omega) (by omega) (fun _ _ h => h)⟩
    obtain ⟨r, e, h⟩ := compare_post E (st := st) (lo := base) (hi := base + length) (k := n) (m := 3 + 3 * n)
      (a := p) (b := c) ⟨_, by omega, by omega, hp⟩ ⟨_, by omega, by omega, hc⟩
      (Q := fun (l : Int) _ => 0 ≤ l ∧ pivot < length - l) (f := rightCont E base length pivot reading writing)
      (fun _ => rfl) (fun st' hst => .inr (skip st' hst)) (by
        intro o st' hst
        have hl' : base + length ≤ st'.buf.length := by rw [hst]; exact hl
        cases o with
        | lt => exact skip st' hst
        | gt => exact skip st' hst
        | eq =>
          simp only [rightCont]
          split
          · rename_i hne
            have hs := swap_post E (st := st') (i := base + reading) (j := base + writing) (lo := base)
              (hi := base + length) (by omega) (by omega) (by omega) (by omega) hb hl' (by omega)
            have := Post.next (k' := n) (m' := 3 * n) (Q' := fun (l : Int) _ => 0 ≤ l ∧ pivot < length - l)
              (f := fun _ st => rightLoop E base length pivot (reading + 1) (writing + 1) st) hs (by
              intro _ st2 w2 _
              exact ih _ _ st2 (by rw [w2.len]; exact hl') (by omega) (by omega) (by omega))
            rw [Nat.zero_add] at this
            exact this
          · obtain ⟨r, e, h⟩ := ih (reading + 1) (writing + 1) st' hl' (by omega) (by omega) (by omega)
            exact ⟨r, e, h.mono (by omega) (by omega) (by omega) (by omega) (fun _ _ h => h)⟩)
    exact ⟨r, e, h.mono (by omega) (by omega) (by omega) (by omega) (fun _ _ h => h)⟩

theorem partition_eq (E : Env α σ) {base length : Int} {st : St α σ} {r : Res α σ (Int × Int × Int)}
    (h : partLoop E base length 0 0 0 false st = some r) :
    partition E base length st = next r fun v st =>
      (leftLoop E base v.1 (v.2.1 - 1) (v.2.1 - 1) st).bind fun r => next r fun left st =>
        (rightLoop E base length v.1 (length - v.2.2) (length - v.2.2) st).bind fun r => next r fun right st =>
          some (.ok (left, right) st) := by
  unfold partition
  rw [h]
  cases r with
  | fault => rfl
  | error st => rfl
  | thrown st => rfl
  | ok v st =>
    simp only [Option.bind_some, next]
    cases leftLoop E base v.1 (v.2.1 - 1) (v.2.1 - 1) st with
    | none => rfl
    | some r =>
      cases r with
      | fault => rfl
      | error st => rfl
      | thrown st => rfl
      | ok left st =>
        simp only [Option.bind_some]
        cases rightLoop E base length v.1 (length - v.2.2) (length - v.2.2) st with
        | none => rfl
        | some r => cases r <;> rfl

/-- One round of the outer loop. -/
theorem partition_post (E : Env α σ) {base length : Int} {st : St α σ} (hb : 0 ≤ base) (hl : 0 < length)
    (hbuf : base + length ≤ st.buf.length) :
    ∃ r, partition E base length st = some r ∧
      Post E st base (base + length) (2 * (length.toNat - 1)) (3 * (2 * (length.toNat - 1)))
        (fun v _ => 0 ≤ v.1 ∧ 0 ≤ v.2 ∧ v.1 + v.2 + 1 ≤ length) r := by
  obtain ⟨r1, e1, h1⟩ := partLoop_post E hb (length.toNat - 1) 0 0 0 false st hbuf (by omega) (by omega) (by omega) rfl
  rw [partition_eq E e1]
  obtain ⟨r, e, h⟩ := Post.next (k' := length.toNat - 1) (m' := 3 * (length.toNat - 1))
    (Q' := fun (v : Int × Int) _ => 0 ≤ v.1 ∧ 0 ≤ v.2 ∧ v.1 + v.2 + 1 ≤ length) (f := fun v st =>
      (leftLoop E base v.1 (v.2.1 - 1) (v.2.1 - 1) st).bind fun r => next r fun left st =>
        (rightLoop E base length v.1 (length - v.2.2) (length - v.2.2) st).bind fun r => next r fun right st =>
          some (.ok (left, right) st)) h1 (by
    rintro ⟨pv, l, r⟩ st1 w1 ⟨hpv, hl1, hr1, hlr⟩
    simp only at hpv hl1 hr1 hlr
    subst hpv
    have hb1 : base + length ≤ st1.buf.length := by rw [w1.len]; exact hbuf
    obtain ⟨r2, e2, h2⟩ := leftLoop_post E (length := length) (pivot := pv) hb (by omega) pv.toNat (pv - 1) (pv - 1) st1 hb1
      (by omega) (by omega) (by omega)
    simp only [e2, Option.bind_some]
    obtain ⟨r3, e3, h3⟩ := Post.next (k' := r.toNat) (m' := 3 * r.toNat)
      (Q' := fun (v : Int × Int) _ => 0 ≤ v.1 ∧ 0 ≤ v.2 ∧ v.1 + v.2 + 1 ≤ length) (f := fun left st =>
        (rightLoop E base length pv (length - r) (length - r) st).bind fun r => next r fun right st =>
          some (.ok (left, right) st)) h2 (by
      intro l2 st2 w2 ⟨hl2, hl2'⟩
      have hb2 : base + length ≤ st2.buf.length := by rw [w2.len]; exact hb1
      obtain ⟨r4, e4, h4⟩ := rightLoop_post E (length := length) (pivot := pv) hb (by omega) r.toNat (length - r)
        (length - r) st2 hb2 (by omega) (by omega) (by omega)
      simp only [e4, Option.bind_some]
      have := Post.next (k' := 0) (m' := 0)
        (Q' := fun (v : Int × Int) _ => 0 ≤ v.1 ∧ 0 ≤ v.2 ∧ v.1 + v.2 + 1 ≤ length) (f := fun right st =>
          some (.ok (l2, right) st)) h4 (by
        intro r5 st3 w3 ⟨g1, g2⟩
        exact ⟨_, rfl, .refl _ _ _, ⟨hl2, g1, by simp only; omega⟩, [], rfl, rfl, ⟨by simp, by simp, by simp⟩, by simp⟩)
      exact this)
    exact ⟨r3, e3, h3.mono (by omega) (by omega) (by omega) (by omega) (fun _ _ h => h)⟩)
  exact ⟨r, e, h.mono (by omega) (by omega) (by omega) (by omega) (fun _ _ h => h)⟩

theorem sort_eq (E : Env α σ) {base length : Int} {d : Nat} {st : St α σ} {r : Res α σ (Int × Int)} (h0 : length ≠ 0)
    (h : partition E base length st = some r) :
    sort E base length d st = next r fun v st =>
      if v.1 < v.2 then (sort E base v.1 0 st).bind fun r => next r fun d' st =>
        sort E (base + length - v.2) v.2 (max d (d' + 1)) st
      else (sort E (base + length - v.2) v.2 0 st).bind fun r => next r fun d' st =>
        sort E base v.1 (max d (d' + 1)) st := by
  rw [sort.eq_def, if_neg h0, h]
  cases r with
  | fault => rfl
  | error st => rfl
  | thrown st => rfl
  | ok v st =>
    simp only [Option.bind_eq_bind, Option.bind_some, next]
    split
    · congr 1; funext r; cases r <;> rfl
    · congr 1; funext r; cases r <;> rfl

theorem cost {n l r : Nat} (h : l + r + 1 ≤ n) : 2 * (n - 1) + (l * (l - 1) + r * (r - 1)) ≤ n * (n - 1) := by
  have h1 : l * (l - 1) ≤ l * (n - 2) := Nat.mul_le_mul_left _ (by omega)
  have h2 : r * (r - 1) ≤ r * (n - 2) := Nat.mul_le_mul_left _ (by omega)
  have h3 : (l + r) * (n - 2) ≤ (n - 1) * (n - 2) := Nat.mul_le_mul_right _ (by omega)
  rw [Nat.add_mul] at h3
  rcases Nat.lt_or_ge n 2 with hn | hn
  · have : n - 1 = 0 := by omega
    have : n - 2 = 0 := by omega
    simp_all
  · obtain ⟨k, rfl⟩ : ∃ k, n = k + 2 := ⟨n - 2, by omega⟩
    simp only [Nat.add_sub_cancel, show k + 2 - 1 = k + 1 by omega] at *
    have : (k + 2) * (k + 1) = (k + 1) * k + 2 * (k + 1) := by rw [Nat.add_mul k 2, Nat.mul_comm k (k + 1)]
    omega

/-- The whole algorithm. -/
theorem sort_post (E : Env α σ) : ∀ (n : Nat) (base length : Int) (d : Nat) (st : St α σ), length = n → 0 ≤ base →
    base + length ≤ st.buf.length →
    ∃ r, sort E base length d st = some r ∧
      Post E st base (base + length) (n * (n - 1)) (3 * (n * (n - 1))) (fun d' _ => d' ≤ max d (QSort.depthBound n)) r := by
  intro n
  induction n using Nat.strongRecOn with
  | ind n ih =>
    intro base length d st hn hb hl
    by_cases h0 : length = 0
    · subst h0
      exact ⟨.ok d st, by rw [sort, if_pos rfl], .refl _ _ _, by simp only; omega, [], rfl, rfl, ⟨by simp, by simp, by simp⟩, by simp⟩
    · obtain ⟨r1, e1, h1⟩ := partition_post E hb (by omega) hl
      rw [sort_eq E h0 e1]
      have rest : ∀ (v : Int × Int) (st1 : St α σ), Win st.buf st1.buf base (base + length) →
          0 ≤ v.1 ∧ 0 ≤ v.2 ∧ v.1 + v.2 + 1 ≤ length →
          ∃ r, (if v.1 < v.2 then (sort E base v.1 0 st1).bind fun r => next r fun d' st =>
              sort E (base + length - v.2) v.2 (max d (d' + 1)) st
            else (sort E (base + length - v.2) v.2 0 st1).bind fun r => next r fun d' st =>
              sort E base v.1 (max d (d' + 1)) st) = some r ∧
            Post E st1 base (base + length) (n * (n - 1) - 2 * (n - 1)) (3 * (n * (n - 1) - 2 * (n - 1)))
              (fun d' _ => d' ≤ max d (QSort.depthBound n)) r := by
        rintro ⟨l, r⟩ st1 w1 ⟨hl1, hr1, hlr⟩
        simp only at hl1 hr1 hlr ⊢
        have hc := cost (n := n) (l := l.toNat) (r := r.toNat) (by omega)
        split
        · rename_i hlt
          obtain ⟨r2, e2, h2⟩ := ih l.toNat (by omega) base l 0 st1 (by omega) hb (by rw [w1.len]; omega)
          simp only [e2, Option.bind_some]
          have h2' := h2.mono (lo' := base) (hi' := base + length) (by omega) (by omega) (Nat.le_refl _) (Nat.le_refl _)
            (fun _ _ h => h)
          obtain ⟨r3, e3, h3⟩ := Post.next (k' := r.toNat * (r.toNat - 1)) (m' := 3 * (r.toNat * (r.toNat - 1)))
            (Q' := fun (d' : Nat) _ => d' ≤ max d (QSort.depthBound n)) (f := fun d' st =>
              sort E (base + length - r) r (max d (d' + 1)) st) h2' (by
            intro d2 st2 w2 hd2
            obtain ⟨r4, e4, h4⟩ := ih r.toNat (by omega) (base + length - r) r (max d (d2 + 1)) st2 (by omega) (by omega)
              (by rw [w2.len, w1.len]; omega)
            refine ⟨r4, e4, h4.mono (by omega) (by omega) (Nat.le_refl _) (Nat.le_refl _) ?_⟩
            intro d5 _ hd5
            have g1 := QSort.depthBound_half (m := l.toNat) (n := n) (by omega)
            have g2 := QSort.depthBound_mono (m := r.toNat) (n := n) (by omega)
            omega)
          exact ⟨r3, e3, h3.mono (by omega) (by omega) (by omega) (by omega) (fun _ _ h => h)⟩
        · rename_i hlt
          obtain ⟨r2, e2, h2⟩ := ih r.toNat (by omega) (base + length - r) r 0 st1 (by omega) (by omega)
            (by rw [w1.len]; omega)
          simp only [e2, Option.bind_some]
          have h2' := h2.mono (lo' := base) (hi' := base + length) (by omega) (by omega) (Nat.le_refl _) (Nat.le_refl _)
            (fun _ _ h => h)
          obtain ⟨r3, e3, h3⟩ := Post.next (k' := l.toNat * (l.toNat - 1)) (m' := 3 * (l.toNat * (l.toNat - 1)))
            (Q' := fun (d' : Nat) _ => d' ≤ max d (QSort.depthBound n)) (f := fun d' st =>
              sort E base l (max d (d' + 1)) st) h2' (by
            intro d2 st2 w2 hd2
            obtain ⟨r4, e4, h4⟩ := ih l.toNat (by omega) base l (max d (d2 + 1)) st2 (by omega) hb
              (by rw [w2.len, w1.len]; omega)
            refine ⟨r4, e4, h4.mono (by omega) (by omega) (Nat.le_refl _) (Nat.le_refl _) ?_⟩
            intro d5 _ hd5
            have g1 := QSort.depthBound_half (m := r.toNat) (n := n) (by omega)
            have g2 := QSort.depthBound_mono (m := l.toNat) (n := n) (by omega)
            omega)
          exact ⟨r3, e3, h3.mono (by omega) (by omega) (by omega) (by omega) (fun _ _ h => h)⟩
      obtain ⟨r, e, h⟩ := Post.next h1 (fun v st1 w q => rest v st1 w q)
      have hc := cost (n := n) (l := 0) (r := 0) (by omega)
      have hn1 : length.toNat = n := by omega
      rw [hn1] at h
      exact ⟨r, e, h.mono (by omega) (by omega) (by omega) (by omega) (fun _ _ h => h)⟩

/-- forgetting the state and the calls -/
def erase : Res α σ β → Outcome (List α) β
  | .ok b st => .ok b st.buf
  | .error st => .err st.buf
  | .thrown _ => .fault
  | .fault => .fault

/-- The answers do not depend on the state and nothing throws. -/
structure Pure (E : Env α σ) (cmp : α → α → Option Ordering) : Prop where
  cmp : ∀ s a b, (E.cmp s a b).1 = match cmp a b with
    | some o => .ord o
    | none => .unordered
  copy : ∀ s a, (E.copy s a).1 = true

variable {E : Env α σ} {cmp : α → α → Option Ordering}

theorem swap_pure (h : Pure E cmp) {i j : Int} {st : St α σ} {a b : α} (ha : read st.buf i = some a)
    (hb : read st.buf j = some b) :
    ∃ st', swap E i j st = .ok () st' ∧ QSort.swap st.buf i j = some st'.buf := by
  unfold swap QSort.swap
  simp only [ha, hb]
  have e1 : copy E a st = (true, (copy E a st).2) := Prod.ext (h.copy _ _) rfl
  rw [e1]; simp only
  have e2 : copy E b (copy E a st).2 = (true, (copy E b (copy E a st).2).2) := Prod.ext (h.copy _ _) rfl
  rw [e2]; simp only
  have e3 : ∀ st', copy E a st' = (true, (copy E a st').2) := fun st' => Prod.ext (h.copy _ _) rfl
  rw [e3]; simp only
  exact ⟨_, rfl, rfl⟩

theorem compare_pure (h : Pure E cmp) (a b : α) (st : St α σ) :
    (compare E a b st).1 = match cmp a b with
      | some o => .ord o
      | none => .unordered := h.cmp _ _ _

theorem partLoop_pure (h : Pure E cmp) {base length : Int} (hb : 0 ≤ base) :
    ∀ (n : Nat) (pivot left right : Int) (flag : Bool) (st : St α σ), base + length ≤ st.buf.length →
      0 ≤ left → 0 ≤ right → left + right + 1 + n = length → pivot = (if flag then length - right - 1 else left) →
      (partLoop E base length pivot left right flag st).map erase
        = QSort.partLoop cmp base length pivot left right flag st.buf := by
  intro n
  induction n with
  | zero =>
    intro pivot left right flag st hl h0 h1 hn hpv
    rw [partLoop, if_neg (by omega), QSort.partLoop, if_neg (by omega)]; rfl
  | succ n ih =>
    intro pivot left right flag st hl h0 h1 hn hpv
    have hpr : 0 ≤ pivot ∧ pivot < length ∧
        0 ≤ (if flag then left else length - right - 1) ∧ (if flag then left else length - right - 1) < length := by
      subst hpv; cases flag <;> simp <;> omega
    obtain ⟨p, hp⟩ := read_some (buf := st.buf) (k := base + pivot) (by omega) (by omega)
    obtain ⟨c, hc⟩ := read_some (buf := st.buf) (k := base + (if flag then left else length - right - 1)) (by omega)
      (by omega)
    rw [partLoop_eq E (by omega) hp hc, QSort.partLoop.eq_def, if_pos (by omega)]
    simp only [hp, hc]
    have hans := compare_pure h p c st
    have hbuf := compare_buf E p c st
    generalize compare E p c st = r at hans hbuf
    obtain ⟨ans, st'⟩ := r
    simp only at hans hbuf ⊢
    subst hans
    have hl' : base + length ≤ st'.buf.length := by rw [hbuf]; exact hl
    cases cmp p c with
    | none => simp only [partCont, Option.map_some, erase, hbuf]
    | some o =>
      simp only [partCont]
      split
      · cases flag with
        | false =>
          simp only [Bool.false_eq_true, if_false] at hpv ⊢
          rw [← hbuf]
          exact ih pivot left (right + 1) false st' hl' h0 (by omega) (by omega) (by simpa using hpv)
        | true =>
          simp only [if_true] at hpv ⊢
          rw [← hbuf]
          exact ih pivot (left + 1) right true st' hl' (by omega) h1 (by omega) (by simpa using hpv)
      · obtain ⟨st2, e1, e2⟩ := swap_pure h (st := st') (by rw [hbuf]; exact hp) (by rw [hbuf]; exact hc)
        have w := QSort.swap_spec (buf := st'.buf) (i := base + pivot)
          (j := base + (if flag then left else length - right - 1)) (lo := base) (hi := base + length) (by omega) (by omega)
          (by omega) (by omega) (by rw [hbuf]; exact hp) (by rw [hbuf]; exact hc)
        obtain ⟨b2, e3, w2, _⟩ := w
        rw [e2] at e3; cases e3
        have hl2 : base + length ≤ st2.buf.length := by rw [w2.len]; exact hl'
        rw [← hbuf, e1, e2]
        simp only [next]
        cases flag with
        | false =>
          simp only [Bool.false_eq_true, if_false, Bool.not_false]
          exact ih _ _ _ true st2 hl2 (by omega) h1 (by omega) (by simp)
        | true =>
          simp only [if_true, Bool.not_true]
          exact ih _ _ _ false st2 hl2 h0 (by omega) (by omega) (by simp)

theorem leftLoop_pure (h : Pure E cmp) {base length pivot : Int} (hb : 0 ≤ base) (hpl : pivot < length) :
    ∀ (n : Nat) (reading writing : Int) (st : St α σ), base + length ≤ st.buf.length → reading + 1 = n →
      reading ≤ writing → writing < pivot →
      (leftLoop E base pivot reading writing st).map erase = QSort.leftLoop cmp base pivot reading writing st.buf := by
  intro n
  induction n with
  | zero =>
    intro reading writing st hl hn hrw hwp
    rw [leftLoop, if_neg (by omega), QSort.leftLoop, if_neg (by omega)]; rfl
  | succ n ih =>
    intro reading writing st hl hn hrw hwp
    obtain ⟨p, hp⟩ := read_some (buf := st.buf) (k := base + pivot) (by omega) (by omega)
    obtain ⟨c, hc⟩ := read_some (buf := st.buf) (k := base + reading) (by omega) (by omega)
    obtain ⟨d, hd⟩ := read_some (buf := st.buf) (k := base + writing) (by omega) (by omega)
    rw [leftLoop_eq E (by omega) hp hc, QSort.leftLoop.eq_def, if_pos (by omega)]
    simp only [hp, hc]
    have hans := compare_pure h p c st
    have hbuf := compare_buf E p c st
    generalize compare E p c st = r at hans hbuf
    obtain ⟨ans, st'⟩ := r
    simp only at hans hbuf ⊢
    subst hans
    have hl' : base + length ≤ st'.buf.length := by rw [hbuf]; exact hl
    cases cmp p c with
    | none => simp only [leftCont, Option.map_some, erase, hbuf]
    | some o =>
      cases o with
      | lt =>
        simp only [leftCont]
        rw [← hbuf]; exact ih (reading - 1) writing st' hl' (by omega) (by omega) hwp
      | gt =>
        simp only [leftCont]
        rw [← hbuf]; exact ih (reading - 1) writing st' hl' (by omega) (by omega) hwp
      | eq =>
        simp only [leftCont]
        split
        · obtain ⟨st2, e1, e2⟩ := swap_pure h (st := st') (i := base + reading) (j := base + writing)
            (by rw [hbuf]; exact hc) (by rw [hbuf]; exact hd)
          obtain ⟨b2, e3, w2, _⟩ := QSort.swap_spec (buf := st'.buf) (i := base + reading) (j := base + writing)
            (lo := base) (hi := base + length) (by omega) (by omega) (by omega) (by omega) (by rw [hbuf]; exact hc)
            (by rw [hbuf]; exact hd)
          rw [e2] at e3; cases e3
          rw [← hbuf, e1, e2]
          simp only [next]
          exact ih _ _ st2 (by rw [w2.len]; exact hl') (by omega) (by omega) (by omega)
        · rw [← hbuf]; exact ih (reading - 1) (writing - 1) st' hl' (by omega) (by omega) (by omega)

theorem rightLoop_pure (h : Pure E cmp) {base length pivot : Int} (hb : 0 ≤ base) (h0 : 0 ≤ pivot) :
    ∀ (n : Nat) (reading writing : Int) (st : St α σ), base + length ≤ st.buf.length → reading + n = length →
      writing ≤ reading → pivot < writing →
      (rightLoop E base length pivot reading writing st).map erase
        = QSort.rightLoop cmp base length pivot reading writing st.buf := by
  intro n
  induction n with
  | zero =>
    intro reading writing st hl hn hrw hwp
    rw [rightLoop, if_neg (by omega), QSort.rightLoop, if_neg (by omega)]; rfl
  | succ n ih =>
    intro reading writing st hl hn hrw hwp
    obtain ⟨p, hp⟩ := read_some (buf := st.buf) (k := base + pivot) (by omega) (by omega)
    obtain ⟨c, hc⟩ := read_some (buf := st.buf) (k := base + reading) (by omega) (by omega)
    obtain ⟨d, hd⟩ := read_some (buf := st.buf) (k := base + writing) (by omega) (by omega)
    rw [rightLoop_eq E (by omega) hp hc, QSort.rightLoop.eq_def, if_pos (by omega)]
    simp only [hp, hc]
    have hans := compare_pure h p c st
    have hbuf := compare_buf E p c st
    generalize compare E p c st = r at hans hbuf
    obtain ⟨ans, st'⟩ := r
    simp only at hans hbuf ⊢
    subst hans
    have hl' : base + length ≤ st'.buf.length := by rw [hbuf]; exact hl
    have skip := ih (reading + 1) writing st' hl' (by omega) (by omega) hwp
    rw [hbuf] at skip
    cases cmp p c with
    | none => simpa only [rightCont, reduceCtorEq, if_false] using skip
    | some o =>
      cases o with
      | lt => simpa only [rightCont, Option.some.injEq, reduceCtorEq, if_false] using skip
      | gt => simpa only [rightCont, Option.some.injEq, reduceCtorEq, if_false] using skip
      | eq =>
        simp only [rightCont, if_true]
        split
        · obtain ⟨st2, e1, e2⟩ := swap_pure h (st := st') (i := base + reading) (j := base + writing)
            (by rw [hbuf]; exact hc) (by rw [hbuf]; exact hd)
          obtain ⟨b2, e3, w2, _⟩ := QSort.swap_spec (buf := st'.buf) (i := base + reading) (j := base + writing)
            (lo := base) (hi := base + length) (by omega) (by omega) (by omega) (by omega) (by rw [hbuf]; exact hc)
            (by rw [hbuf]; exact hd)
          rw [e2] at e3; cases e3
          rw [← hbuf, e1, e2]
          simp only [next]
          exact ih _ _ st2 (by rw [w2.len]; exact hl') (by omega) (by omega) (by omega)
        · rw [← hbuf]; exact ih (reading + 1) (writing + 1) st' hl' (by omega) (by omega) (by omega)

theorem map_erase_ok {r : Option (Res α σ β)} {b : β} {buf : List α} (h : r.map erase = some (.ok b buf)) :
    ∃ st, r = some (.ok b st) ∧ st.buf = buf := by
  cases r with
  | none => cases h
  | some r =>
    simp only [Option.map_some, Option.some.injEq] at h
    cases r with
    | ok b' st => simp only [erase, Outcome.ok.injEq] at h; exact ⟨st, by rw [h.1], h.2⟩
    | error st => simp [erase] at h
    | thrown st => simp [erase] at h
    | fault => simp [erase] at h

theorem partition_pure (h : Pure E cmp) {base length : Int} {st : St α σ} (hb : 0 ≤ base) (hl : 0 < length)
    (hbuf : base + length ≤ st.buf.length) :
    (partition E base length st).map erase = QSort.partition cmp base length st.buf := by
  have h1 := partLoop_pure h hb (length.toNat - 1) 0 0 0 false st hbuf (by omega) (by omega) (by omega) rfl
  obtain ⟨r1, e1, p1⟩ := partLoop_post E hb (length.toNat - 1) 0 0 0 false st hbuf (by omega) (by omega) (by omega) rfl
  rw [partition_eq E e1, QSort.partition, ← h1, e1]
  cases r1 with
  | fault => exact absurd p1 id
  | error st1 => rfl
  | thrown st1 =>
    rfl
  | ok v st1 =>
    obtain ⟨pv, l, r⟩ := v
    obtain ⟨w1, ⟨hpv, hl1, hr1, hlr⟩, _⟩ := p1
    simp only at hpv hl1 hr1 hlr
    subst hpv
    have hb1 : base + length ≤ st1.buf.length := by rw [w1.len]; exact hbuf
    have h2 := leftLoop_pure h (length := length) (pivot := pv) hb (by omega) pv.toNat (pv - 1) (pv - 1) st1 hb1
      (by omega) (by omega) (by omega)
    obtain ⟨r2, e2, p2⟩ := leftLoop_post E (length := length) (pivot := pv) hb (by omega) pv.toNat (pv - 1) (pv - 1) st1
      hb1 (by omega) (by omega) (by omega)
    simp only [next, e2, Option.bind_some, Option.map_some, erase]
    rw [← h2, e2]
    cases r2 with
    | fault => exact absurd p2 id
    | error st2 => rfl
    | thrown st2 => rfl
    | ok l2 st2 =>
      obtain ⟨w2, ⟨hl2, hl2'⟩, _⟩ := p2
      have hb2 : base + length ≤ st2.buf.length := by rw [w2.len]; exact hb1
      have h3 := rightLoop_pure h (length := length) (pivot := pv) hb (by omega) r.toNat (length - r)
        (length - r) st2 hb2 (by omega) (by omega) (by omega)
      simp only [Option.map_some, erase, Option.bind_some]
      rw [← h3]
      cases rightLoop E base length pv (length - r) (length - r) st2 with
      | none => rfl
      | some r3 => cases r3 <;> rfl

/-- If the answers do not depend on the state and nothing throws, the code does what `QSort.sort` does. -/
theorem sort_pure (h : Pure E cmp) : ∀ (n : Nat) (base length : Int) (d : Nat) (st : St α σ), length = n → 0 ≤ base →
    base + length ≤ st.buf.length →
    (sort E base length d st).map erase = QSort.sort cmp base length d st.buf := by
  intro n
  induction n using Nat.strongRecOn with
  | ind n ih =>
    intro base length d st hn hb hl
    by_cases h0 : length = 0
    · rw [sort, if_pos h0, QSort.sort, if_pos h0]; rfl
    · have h1 := partition_pure h (st := st) hb (by omega) hl
      obtain ⟨r1, e1, p1⟩ := partition_post E hb (by omega) hl
      rw [sort_eq E h0 e1, QSort.sort.eq_def, if_neg h0, ← h1, e1]
      cases r1 with
      | fault => exact absurd p1 id
      | error st1 => rfl
      | thrown st1 => rfl
      | ok v st1 =>
        obtain ⟨l, r⟩ := v
        obtain ⟨w1, ⟨hl1, hr1, hlr⟩, _⟩ := p1
        simp only at hl1 hr1 hlr
        simp only [next, Option.map_some, erase, Option.bind_eq_bind, Option.bind_some]
        split
        · have h2 := ih l.toNat (by omega) base l 0 st1 (by omega) hb (by rw [w1.len]; omega)
          obtain ⟨r2, e2, p2⟩ := sort_post E l.toNat base l 0 st1 (by omega) hb (by rw [w1.len]; omega)
          rw [← h2, e2]
          cases r2 with
          | fault => exact absurd p2 id
          | error st2 => rfl
          | thrown st2 => rfl
          | ok d2 st2 =>
            exact ih r.toNat (by omega) (base + length - r) r (max d (d2 + 1)) st2 (by omega) (by omega)
              (by rw [p2.1.len, w1.len]; omega)
        · have h2 := ih r.toNat (by omega) (base + length - r) r 0 st1 (by omega) (by omega) (by rw [w1.len]; omega)
          obtain ⟨r2, e2, p2⟩ := sort_post E r.toNat (base + length - r) r 0 st1 (by omega) (by omega)
            (by rw [w1.len]; omega)
          rw [← h2, e2]
          cases r2 with
          | fault => exact absurd p2 id
          | error st2 => rfl
          | thrown st2 => rfl
          | ok d2 st2 =>
            exact ih l.toNat (by omega) base l (max d (d2 + 1)) st2 (by omega) hb (by rw [p2.1.len, w1.len]; omega)

end QSortE
end Vlpp
