import Verif.Lemmas.EnmOwn

/-!
# C102: every enumerator of lazy lists has one owner
-/
set_option autoImplicit false
namespace Vlpp
open EnmOwn Spec.Enms

/-- **C102, one statement.**  Whatever the variables refer to and whatever user code throws: a statement is never undefined (no
enumerator is used or deleted after it was deleted); if it returns, every enumerator still has one owner and no enumerator is lost; if it throws, the
variables and everything they refer to are as before, and nothing is lost but enumerators that the statement made. -/
theorem C102_statement (w : World) (ho : Owned w) (op : Op) (hm : Mentions w.vars.length op) :
    match perform op w with
    | .ok _ w' => Owned w' ∧ w'.vars.length = w.vars.length ∧ ∀ i, Lost w' i ↔ Lost w i
    | .err w' => w'.vars = w.vars ∧ Owned w' ∧ (∀ i, i < w.alive.length → (Alive w' i ↔ Alive w i)) ∧
        ∀ i, Lost w' i → Lost w i ∨ w.alive.length ≤ i
    | .fault => False := by
  have h := perform_post ho op hm
  revert h
  cases perform op w with
  | ok _ w' => exact fun h => ⟨h.owned, h.vars, h.lost⟩
  | err w' =>
    intro h
    obtain ⟨a, b, c⟩ := threw_owned ho h.1
    refine ⟨b, a, fun i hi => h.1.alive_iff hi, fun i hl => ?_⟩
    rcases Nat.lt_or_ge i w.alive.length with g | g
    · exact .inl ((c i g).1 hl)
    · exact .inr g
  | fault => exact id

theorem run_post (ops : List Op) : ∀ (w : World), Owned w → (∀ op ∈ ops, Mentions w.vars.length op) →
    ∃ w' rs, run w ops = some (w', rs) ∧ rs.length = ops.length ∧ Owned w' ∧ w'.vars.length = w.vars.length ∧
      ((∀ b ∈ rs, b = true) → ∀ i, Lost w' i ↔ Lost w i) ∧
      ((∀ op ∈ ops, Careful op) → SimpleVars w → (∀ i, Lost w' i ↔ Lost w i) ∧ SimpleVars w') := by
  induction ops with
  | nil => exact fun w ho _ => ⟨w, [], rfl, rfl, ho, rfl, fun _ _ => Iff.rfl, fun _ hs => ⟨fun _ => Iff.rfl, hs⟩⟩
  | cons op ops ih =>
    intro w ho hm
    have h := perform_post ho op (hm op (by simp))
    simp only [run]
    revert h
    cases perform op w with
    | ok _ w1 =>
      intro h
      obtain ⟨w', rs, e, l, o, v, t, c⟩ := ih w1 h.owned (fun p hp => by rw [h.vars]; exact hm p (by simp [hp]))
      refine ⟨w', true :: rs, by simp [e], by simp [l], o, v.trans h.vars, fun hr i => ?_, fun hc hs => ?_⟩
      · exact (t (fun b hb => hr b (by simp [hb])) i).trans (h.lost i)
      · have := c (fun p hp => hc p (by simp [hp])) (h.simple (hc op (by simp)) hs)
        exact ⟨fun i => (this.1 i).trans (h.lost i), this.2⟩
    | err w1 =>
      intro h
      obtain ⟨a, b, _⟩ := threw_owned ho h.1
      obtain ⟨w', rs, e, l, o, v, t, c⟩ := ih w1 a (fun p hp => by rw [b]; exact hm p (by simp [hp]))
      refine ⟨w', false :: rs, by simp [e], by simp [l], o, by rw [v, b], fun hr => ?_, fun hc hs => ?_⟩
      · have := hr false (by simp)
        cases this
      · have d := done_of_tight (c := True) ho (h.2 ⟨hc op (by simp), hs⟩)
        have := c (fun p hp => hc p (by simp [hp])) (d.simple trivial hs)
        exact ⟨fun i => (this.1 i).trans (d.lost i), this.2⟩
    | fault => exact False.elim

theorem begins_owned {w : World} {n : Nat} (h : Begins w n) : Owned w ∧ SimpleVars w ∧ ∀ i, ¬ Lost w i := by
  have nr : ∀ v e, ¬ Refers w v e := fun v e g => by
    unfold Refers at g
    rw [h.2, List.getElem?_replicate] at g
    split at g <;> cases g
  refine ⟨⟨fun v e g => (nr v e g).elim, fun v u e f g => (nr v e g).elim⟩, fun v e g => (nr v e g).elim, fun i g => ?_⟩
  have := alive_lt g.1
  rw [h.1] at this
  simp at this

/-- **C102 (partial).**  Every program of statements on lazy lists, catching what user code throws, is never undefined, and every enumerator has one
owner all the time; as long as no statement throws, no enumerator is lost. -/
theorem C102_owned_partial (n : Nat) (w : World) (hb : Begins w n) (ops : List Op) (hm : ∀ op ∈ ops, Mentions n op) :
    ∃ w' rs, run w ops = some (w', rs) ∧ rs.length = ops.length ∧ Owned w' ∧ w'.vars.length = n ∧
      ((∀ b ∈ rs, b = true) → ∀ i, ¬ Lost w' i) := by
  obtain ⟨o, _, l⟩ := begins_owned hb
  have hn : w.vars.length = n := by rw [hb.2, List.length_replicate]
  obtain ⟨w', rs, e, h1, h2, h3, h4, _⟩ := run_post ops w o (by rw [hn]; exact hm)
  exact ⟨w', rs, e, h1, h2, h3.trans hn, fun g i hi => l i ((h4 g i).1 hi)⟩

theorem leave_ok (k : Nat) : ∀ (s : Nat) (w : World), Owned w → w.vars.length = s + k → (∀ v, v < s → w.vars[v]? = some none) →
    ∃ w', run w ((List.range' s k).map .renew) = some (w', List.replicate k true) ∧ (∀ v, v < s + k → w'.vars[v]? = some none) ∧
      w'.vars.length = s + k ∧ ∀ i, Lost w' i ↔ Lost w i := by
  induction k with
  | zero => exact fun s w _ hl h => ⟨w, rfl, h, hl, fun _ => Iff.rfl⟩
  | succ k ih =>
    intro s w ho hl h
    have hs : s < w.vars.length := by omega
    obtain ⟨w1, e1, v1, o1, l1⟩ := assign_good (p := none) ho (Tight.start w) hs (.inl ⟨rfl, nofun⟩)
    obtain ⟨w2, e2, v2, n2, l2⟩ := ih (s + 1) w1 o1 (by rw [v1, List.length_set]; omega) (fun v hv => by
      rw [v1, List.getElem?_set]
      by_cases g : s = v
      · subst g; simp [hs]
      · rw [if_neg g]
        exact h v (by omega))
    refine ⟨w2, ?_, fun v hv => v2 v (by omega), by omega, fun i => (l2 i).trans (l1 i)⟩
    rw [List.range'_succ, List.map_cons, run]
    simp only [perform, e1]
    rw [e2]
    rfl

theorem run_append (a b : List Op) : ∀ (w : World), run w (a ++ b) =
    (run w a).bind fun r => (run r.1 b).map fun q => (q.1, r.2 ++ q.2) := by
  induction a with
  | nil => intro w; simp [run]
  | cons op a ih =>
    intro w
    simp only [List.cons_append, run]
    cases perform op w with
    | ok _ w1 =>
      simp only [ih]
      cases run w1 a with
      | none => rfl
      | some r =>
        simp only [Option.bind_some, Option.map_some, Option.map_map]
        rfl
    | err w1 =>
      simp only [ih]
      cases run w1 a with
      | none => rfl
      | some r =>
        simp only [Option.bind_some, Option.map_some, Option.map_map]
        rfl
    | fault => rfl

theorem all_left {w : World} {n : Nat} (ho : Owned w) (hn : w.vars.length = n) (hl : ∀ i, ¬ Lost w i) :
    ∃ w', run w (leave n) = some (w', List.replicate n true) ∧ ∀ i, ¬ Alive w' i := by
  obtain ⟨w', e, v, k, l⟩ := leave_ok n 0 w ho (by omega) (fun v hv => by omega)
  refine ⟨w', ?_, fun i ha => hl i ((l i).1 ⟨ha, fun u f hr => ?_⟩)⟩
  · rw [leave, List.range_eq_range']
    exact e
  · have hlt : u < w'.vars.length := (List.getElem?_eq_some_iff.1 hr).1
    have := v u (by omega)
    unfold Refers at hr
    rw [this] at hr
    cases hr

/-- **C102, nothing leaks if nothing throws.**  A program of which no statement throws has deleted every enumerator it made, exactly once, when its variables
are gone. -/
theorem C102_no_leak (n : Nat) (w : World) (hb : Begins w n) (ops : List Op) (hm : ∀ op ∈ ops, Mentions n op) (w' : World)
    (h : run w ops = some (w', List.replicate ops.length true)) :
    ∃ w'', run w (ops ++ leave n) = some (w'', List.replicate (ops.length + n) true) ∧ ∀ i, ¬ Alive w'' i := by
  obtain ⟨w1, rs, e, h1, h2, h3, h4⟩ := C102_owned_partial n w hb ops hm
  rw [h] at e
  cases e
  obtain ⟨w2, e2, l2⟩ := all_left h2 h3 (h4 (fun b hb => (List.mem_replicate.1 hb).2))
  refine ⟨w2, ?_, l2⟩
  rw [run_append, h]
  simp [e2]

/-- **C102, careful programs leak nothing, whatever throws.**  Programs without `Intersect`, `Except`, `Reverse`, without range-based loops (and
`Aggregate(init, f)`, `All`, `Any`), and with functions that are copied without throwing. -/
theorem C102_careful (n : Nat) (w : World) (hb : Begins w n) (ops : List Op) (hm : ∀ op ∈ ops, Mentions n op) (hc : ∀ op ∈ ops, Careful op) :
    (∃ w' rs, run w ops = some (w', rs) ∧ Owned w' ∧ ∀ i, ¬ Lost w' i) ∧
    ∃ w' rs, run w (ops ++ leave n) = some (w', rs) ∧ ∀ i, ¬ Alive w' i := by
  obtain ⟨o, s, l⟩ := begins_owned hb
  have hn : w.vars.length = n := by rw [hb.2, List.length_replicate]
  obtain ⟨w', rs, e, h1, h2, h3, _, h5⟩ := run_post ops w o (by rw [hn]; exact hm)
  have hl : ∀ i, ¬ Lost w' i := fun i hi => l i (((h5 hc s).1 i).1 hi)
  refine ⟨⟨w', rs, e, h2, hl⟩, ?_⟩
  obtain ⟨w2, e2, l2⟩ := all_left h2 (h3.trans hn) hl
  exact ⟨w2, rs ++ List.replicate n true, by rw [run_append, e]; simp [e2], l2⟩

theorem evaluated_lazy (e : Enm) : ∀ (w : World), (∀ i ∈ parts e, Alive w i) → ∃ b, evaluated e w = .ok b w ∧ (b = true ↔ ¬ Lazy e) := by
  induction e with
  | leaf n k =>
    intro w h
    rw [evaluated, Cpp.bind_ok (touch_ok (h n (by simp [parts])))]
    exact ⟨true, rfl, by simp [Lazy]⟩
  | un n k e ih =>
    intro w h
    obtain ⟨b, e1, hb⟩ := ih w (fun i hi => h i (by simp [parts, hi]))
    unfold Lazy
    cases k <;> simp only [evaluated] <;> rw [Cpp.bind_ok (touch_ok (h n (by simp [parts])))]
    case take | skip | rep => exact ⟨b, e1, by simp [hb]⟩
    all_goals exact ⟨false, rfl, by simp⟩
  | bin n k a b iha ihb =>
    intro w h
    obtain ⟨x, e1, hx⟩ := iha w (fun i hi => h i (by simp [parts, hi]))
    obtain ⟨y, e2, hy⟩ := ihb w (fun i hi => h i (by simp [parts, hi]))
    unfold Lazy
    rw [evaluated, Cpp.bind_ok (touch_ok (h n (by simp [parts]))), Cpp.bind_ok e1]
    cases x with
    | false => exact ⟨false, rfl, by simp at hx; simp [hx]⟩
    | true => exact ⟨y, e2, by simp at hx; simp [hx, hy]⟩

/-- **C102, `Evaluate`.**  `v = u.Evaluate(force)` shares the enumerator of `u` if reading it calls no function and compares nothing, unless forced; otherwise `v` gets
an enumerator of its own, of a container. -/
theorem C102_evaluate (w : World) (ho : Owned w) (v u : Nat) (hv : v < w.vars.length) (e : Enm) (hr : Refers w u e) (force : Bool) (rounds : Nat)
    (w' : World) (h : perform (.evaluate v u force rounds) w = .ok () w') :
    (force = false ∧ ¬ Lazy e → w'.vars = w.vars.set v (some e)) ∧
    (force = true ∨ Lazy e → ∃ n, w.alive.length ≤ n ∧ w'.vars = w.vars.set v (some (.leaf n .container))) := by
  have hu : u < w.vars.length := (List.getElem?_eq_some_iff.1 hr).1
  obtain ⟨b, eb, hb⟩ := evaluated_lazy e w (ho.alive u e hr).2
  simp only [perform] at h
  rw [Cpp.bind_ok (Cpp.get_apply w), show w.vars[u]? = some (some e) from hr] at h
  simp only at h
  rw [Cpp.bind_ok eb] at h
  by_cases hc : force = false ∧ b = true
  · rw [if_pos hc] at h
    obtain ⟨w1, e1, v1, _⟩ := assign_good (p := some e) ho (Tight.start w) hv (.inl ⟨rfl, fun f hf => ⟨u, by cases hf; exact hr⟩⟩)
    rw [e1] at h
    cases h
    refine ⟨fun _ => v1, ?_⟩
    rintro (g | g)
    · rw [hc.1] at g; cases g
    · exact (hb.1 hc.2 g).elim
  · rw [if_neg hc] at h
    refine ⟨fun g => (hc ⟨g.1, hb.2 g.2⟩).elim, fun _ => ?_⟩
    have q := consume_post ho (Tight.start w) hu rounds
    rw [Cpp.bind_apply] at h
    revert q h
    cases consume u rounds w with
    | err _ => exact fun h => nomatch h
    | fault => exact fun h => nomatch h
    | ok _ w1 =>
      intro h q
      obtain ⟨n, w2, e2, t2, _⟩ := Tight.new q
      simp only at h
      rw [Cpp.bind_ok e2] at h
      obtain ⟨w3, e3, v3, _⟩ := assign_good (p := some (.leaf n .container)) ho t2 hv (.inr ⟨_, rfl, rfl⟩)
      rw [e3] at h
      cases h
      exact ⟨n, t2.fresh n (by simp), v3⟩

/-! ## Violations -/

theorem next_calls (e : Enm) : ∀ (w : World) (ts : List Bool), (∀ i ∈ parts e, Alive w i) → w.throws = true :: ts →
    (Calls e → next e w = .err { w with throws := ts }) ∧ (¬ Calls e → next e w = .ok () w) := by
  have hu : ∀ (w : World) ts, w.throws = true :: ts → user w = .err { w with throws := ts } := fun w ts h => by simp [user, h]
  induction e with
  | leaf n k => exact fun w ts ha _ => ⟨False.elim, fun _ => touch_ok (ha n (by simp [parts]))⟩
  | un n k e ih =>
    intro w ts ha ht
    have := ih w ts (fun i hi => ha i (by simp [parts, hi])) ht
    rw [next, Cpp.bind_ok (touch_ok (ha n (by simp [parts])))]
    by_cases hc : Calls e
    · rw [Cpp.bind_err (this.1 hc)]
      exact ⟨fun _ => rfl, fun g => (g (.inr hc)).elim⟩
    · rw [Cpp.bind_ok (this.2 hc)]
      unfold Calls
      cases k <;> simp [Un.calls, userIf, hc, hu w ts ht]
  | bin n k a b iha ihb =>
    intro w ts ha ht
    have h1 := iha w ts (fun i hi => ha i (by simp [parts, hi])) ht
    have h2 := ihb w ts (fun i hi => ha i (by simp [parts, hi])) ht
    rw [next, Cpp.bind_ok (touch_ok (ha n (by simp [parts])))]
    by_cases hc : Calls a
    · rw [Cpp.bind_err (h1.1 hc)]
      exact ⟨fun _ => rfl, fun g => (g (.inr (.inl hc))).elim⟩
    · rw [Cpp.bind_ok (h1.2 hc)]
      by_cases hd : Calls b
      · rw [Cpp.bind_err (h2.1 hd)]
        exact ⟨fun _ => rfl, fun g => (g (.inr (.inr hd))).elim⟩
      · rw [Cpp.bind_ok (h2.2 hd)]
        unfold Calls
        cases k <;> simp [Bin.calls, userIf, hc, hd, hu w ts ht]

theorem clone_calls (e : Enm) : ∀ (w : World), (∀ i ∈ parts e, Alive w i) → Post (fun e' _ => Calls e' ↔ Calls e) (fun _ => True) (clone e w) := by
  induction e with
  | leaf n k =>
    intro w h
    rw [clone, Cpp.bind_ok (touch_ok (h n (by simp [parts])))]
    exact (userIf_post _ w).bind (fun _ w1 q => Iff.rfl) (fun _ _ => trivial)
  | un n k e ih =>
    intro w h
    rw [clone, Cpp.bind_ok (touch_ok (h n (by simp [parts])))]
    refine (ih w (fun i hi => h i (by simp [parts, hi]))).bind (fun e' w1 q => ?_) (fun _ _ => trivial)
    refine (userIf_post _ w1).bind (fun _ w2 _ => ?_) (fun _ _ => trivial)
    show Calls (.un _ k e') ↔ Calls (.un n k e)
    unfold Calls
    rw [q]
  | bin n k a b iha ihb =>
    intro w h
    rw [clone, Cpp.bind_ok (touch_ok (h n (by simp [parts])))]
    have hc := clone_post a w (fun i hi => h i (by simp [parts, hi]))
    have ha := iha w (fun i hi => h i (by simp [parts, hi]))
    rw [Cpp.bind_apply]
    revert hc ha
    cases clone a w with
    | ok a' w1 =>
      rintro ⟨j, m1, _⟩ q1
      refine (ihb w1 (fun i hi => m1.mono (h i (by simp [parts, hi])))).bind (fun b' w2 q2 => ?_) (fun _ _ => trivial)
      show Calls (.bin _ k a' b') ↔ Calls (.bin n k a b)
      unfold Calls
      have q1 : Calls a' ↔ Calls a := q1
      rw [q1, q2]
    | err _ => exact fun _ _ => trivial
    | fault => exact fun g _ => g

theorem clone_simple {w : World} {e : Enm} (hs : Simple e) (ha : ∀ i ∈ parts e, Alive w i) :
    ∃ e' w', clone e w = .ok e' w' ∧ Made w w' (parts e).length ∧ Block e' w.alive.length (parts e).length ∧ w'.throws = w.throws ∧
      (Calls e' ↔ Calls e) := by
  have h := clone_post e w ha
  have c := clone_calls e w ha
  revert h c
  cases clone e w with
  | ok e' w' =>
    rintro ⟨k, m, b, rfl, s⟩ c
    exact ⟨e', w', rfl, m, b, (s hs).2, c⟩
  | err w' => rintro ⟨k, m, s⟩ _; exact (s hs).elim
  | fault => exact fun g => g.elim

/-- **C102, violated by range-based loops.**  `for (auto x : u)` and `u.Aggregate(init, f)`: the iterator makes an enumerator and calls its `Next` in its
constructor.  Whatever lazy list with a function, a comparison or a pair in it `u` is, if the first call of user code throws, the enumerator and all those that it owns are
lost, however long the loop would have been. -/
theorem C102_violated_loop (w : World) (ho : Owned w) (u : Nat) (e : Enm) (hr : Refers w u e) (hs : Simple e) (hc : Calls e) (ts : List Bool)
    (ht : w.throws = true :: ts) (rounds : Nat) :
    ∃ w', perform (.loop u rounds) w = .err w' ∧ w'.vars = w.vars ∧ w'.alive.length = w.alive.length + (parts e).length ∧
      ∀ i, w.alive.length ≤ i → i < w.alive.length + (parts e).length → Lost w' i := by
  obtain ⟨e', w1, e1, m1, b1, t1, c1⟩ := clone_simple hs (ho.alive u e hr).2
  have ex : xs u w = .ok e' w1 := by unfold xs; rw [show w.vars[u]? = some (some e) from hr]; exact e1
  have en := (next_calls e' w1 ts (fun i hi => (m1.iff i).2 (.inr ((b1.mem i).1 hi))) (t1.trans ht)).1 (c1.2 hc)
  refine ⟨{ w1 with throws := ts }, ?_, m1.2, m1.length, fun i h1 h2 => ⟨(m1.iff i).2 (.inr ⟨h1, h2⟩), fun v f hf hi => ?_⟩⟩
  · simp only [perform]
    rw [Cpp.bind_ok ex, loopOver, Cpp.bind_err en]
  · have hf' : Refers w v f := by unfold Refers at *; rw [← m1.2]; exact hf
    have := alive_lt ((ho.alive v f hf').2 i hi)
    omega

/-- **C102, violated by `Intersect` and `Except`.**  `u.Intersect(x)`, `u.Except(x)`: `xs()` makes an enumerator of `u`, then the constructor copies the elements of
`x`; if copying or comparing one of them throws, the enumerator and all those that it owns are lost. -/
theorem C102_violated_intersect (w : World) (ho : Owned w) (v u x : Nat) (k : Un) (e : Enm) (hr : Refers w u e) (hs : Simple e) (m : Nat)
    (l : Leaf) (hl : l ≠ .reverse) (hx : Refers w x (.leaf m l)) (ts : List Bool) (ht : w.throws = true :: ts) (rounds : Nat) :
    ∃ w', perform (.set v k u x (rounds + 1)) w = .err w' ∧ w'.vars = w.vars ∧
      (∀ i, Lost w' i ↔ Lost w i ∨ (w.alive.length ≤ i ∧ i < w.alive.length + (parts e).length)) := by
  obtain ⟨e', w1, e1, m1, b1, t1, c1⟩ := clone_simple hs (ho.alive u e hr).2
  have ex : xs u w = .ok e' w1 := by unfold xs; rw [show w.vars[u]? = some (some e) from hr]; exact e1
  have am : Alive w1 m := m1.mono ((ho.alive x _ hx).2 m (by simp [parts]))
  have ex2 : xs x w1 = .ok (.leaf w1.alive.length l) { w1 with alive := w1.alive ++ [true] } := by
    unfold xs
    rw [show w1.vars[x]? = some (some (.leaf m l)) by rw [m1.2]; exact hx]
    simp only [clone]
    rw [Cpp.bind_ok (touch_ok am)]
    have : l.copies = false := by cases l <;> first | rfl | exact (hl rfl).elim
    rw [this]
    rfl
  have a2 : Alive { w1 with alive := w1.alive ++ [true] } w1.alive.length := by simp [Alive]
  have es : steps (.leaf w1.alive.length l) (rounds + 1) { w1 with alive := w1.alive ++ [true] } =
      .err { w1 with alive := w1.alive ++ [true], throws := ts } := by
    rw [steps]
    have : next (.leaf w1.alive.length l) { w1 with alive := w1.alive ++ [true] } = .ok () { w1 with alive := w1.alive ++ [true] } := touch_ok a2
    have hu : user { w1 with alive := w1.alive ++ [true] } = .err { w1 with alive := w1.alive ++ [true], throws := ts } := by
      simp [user, t1, ht]
    rw [Cpp.bind_ok this, Cpp.bind_err hu]
  have ef : delete (.leaf w1.alive.length l) { w1 with alive := w1.alive ++ [true], throws := ts } =
      .ok () { w1 with alive := w1.alive ++ [false], throws := ts } := by
    simp [delete, free]
  have same : ∀ i, Alive { w1 with alive := w1.alive ++ [false], throws := ts } i ↔ Alive w1 i := by
    intro i
    unfold Alive
    rcases Nat.lt_or_ge i w1.alive.length with g | g
    · simp only [List.getElem?_append_left g]
    · simp only [List.getElem?_append_right g, List.getElem?_eq_none g]
      cases i - w1.alive.length <;> simp
  have hw1 : ∀ i, Lost { w1 with alive := w1.alive ++ [false], throws := ts } i ↔ Alive w1 i ∧ ∀ v f, Refers w v f → i ∉ parts f := by
    intro i
    unfold Lost
    rw [same]
    unfold Refers
    rw [m1.2]
  refine ⟨{ w1 with alive := w1.alive ++ [false], throws := ts }, ?_, m1.2, fun i => ?_⟩
  · simp only [perform]
    rw [Cpp.bind_ok ex]
    have : consume x (rounds + 1) w1 = .err { w1 with alive := w1.alive ++ [false], throws := ts } := by
      unfold consume
      rw [Cpp.bind_ok ex2]
      unfold withPtr
      simp only [es, ef]
    rw [Cpp.bind_err this]
  · rw [hw1, m1.iff]
    constructor
    · rintro ⟨g | g, h⟩
      · exact .inl ⟨g, h⟩
      · exact .inr g
    · rintro (g | g)
      · exact ⟨.inl g.1, g.2⟩
      · refine ⟨.inr g, fun v f hf hi => ?_⟩
        have := alive_lt ((ho.alive v f hf).2 i hi)
        omega

/-! ## Cases -/

/-- two variables: a container, its `Select`, and the first is overwritten by the `Concat` of both: 3 enumerators live, the clones are new -/
example : run ⟨[], [none, none], []⟩ [.source 0 .container, .func 1 .select 0 true, .both 0 .concat 0 1, .loop 0 3] =
    some (⟨[false, true, true, true, true, true, true, false, false, false, false],
      [some (.bin 6 .concat (.leaf 3 .container) (.un 5 .select (.leaf 4 .container))), some (.un 2 .select (.leaf 1 .container))], []⟩,
      [true, true, true, true]) := by decide +kernel

/-- `C102_no_leak`: the same program, and its variables are gone -/
example : ∃ w, run ⟨[], [none, none], []⟩ ([.source 0 .container, .func 1 .select 0 true, .both 0 .concat 0 1, .loop 0 3] ++ leave 2) =
    some (w, List.replicate 6 true) ∧ ∀ i, ¬ Alive w i :=
  C102_no_leak 2 ⟨[], [none, none], []⟩ ⟨rfl, rfl⟩ [.source 0 .container, .func 1 .select 0 true, .both 0 .concat 0 1, .loop 0 3]
    (by simp [Mentions]) ⟨[false, true, true, true, true, true, true, false, false, false, false],
      [some (.bin 6 .concat (.leaf 3 .container) (.un 5 .select (.leaf 4 .container))), some (.un 2 .select (.leaf 1 .container))], []⟩
    (by decide +kernel)

/-- `C102_careful`: the third statement throws in its second `Next`, and nothing is lost -/
example : run ⟨[], [none, none], [false, false, true]⟩ [.source 0 .container, .func 1 .select 0 true, .consume 1 5] =
      some (⟨[true, true, true, false, false], [some (.leaf 0 .container), some (.un 2 .select (.leaf 1 .container))], []⟩, [true, true, false]) ∧
    ∃ w rs, run ⟨[], [none, none], [false, false, true]⟩ ([.source 0 .container, .func 1 .select 0 true, .consume 1 5] ++ leave 2) = some (w, rs) ∧
      ∀ i, ¬ Alive w i :=
  ⟨by decide +kernel, (C102_careful 2 ⟨[], [none, none], [false, false, true]⟩ ⟨rfl, rfl⟩
    [.source 0 .container, .func 1 .select 0 true, .consume 1 5] (by simp [Mentions]) (by simp [Careful])).2⟩

theorem ex_owned (ts : List Bool) : Owned ⟨[true, true, true], [some (.leaf 0 .container), some (.un 2 .select (.leaf 1 .container))], ts⟩ := by
  have h : ∀ v e, Refers ⟨[true, true, true], [some (.leaf 0 .container), some (.un 2 .select (.leaf 1 .container))], ts⟩ v e →
      e = .leaf 0 .container ∨ e = .un 2 .select (.leaf 1 .container) := by
    intro v e g
    unfold Refers at g
    match v with
    | 0 => simp at g; exact .inl g.symm
    | 1 => simp at g; exact .inr g.symm
    | v + 2 => simp at g
  constructor
  · intro v e g
    rcases h v e g with rfl | rfl <;> simp [parts, Alive]
  · intro v u e f g1 g2
    rcases h v e g1 with rfl | rfl <;> rcases h u f g2 with rfl | rfl <;> simp [parts]

/-- `C102_violated_loop`: two enumerators are lost -/
example : ∃ w', perform (.loop 1 7) ⟨[true, true, true], [some (.leaf 0 .container), some (.un 2 .select (.leaf 1 .container))], [true]⟩ = .err w' ∧
    Lost w' 3 ∧ Lost w' 4 := by
  obtain ⟨w', e, _, _, h⟩ := C102_violated_loop _ (ex_owned [true]) 1 (.un 2 .select (.leaf 1 .container)) rfl (by simp [Simple]) (by simp [Calls]) [] rfl 7
  exact ⟨w', e, h 3 (by simp) (by simp [parts]), h 4 (by simp) (by simp [parts])⟩

/-- `C102_violated_intersect`: as many -/
example : ∃ w', perform (.set 0 .except 1 0 7) ⟨[true, true, true], [some (.leaf 0 .container), some (.un 2 .select (.leaf 1 .container))], [true]⟩ = .err w' ∧
    Lost w' 3 ∧ Lost w' 4 ∧ ¬ Lost w' 5 := by
  obtain ⟨w', e, _, h⟩ := C102_violated_intersect _ (ex_owned [true]) 0 1 0 .except (.un 2 .select (.leaf 1 .container)) rfl (by simp [Simple]) 0 .container
    (by simp) rfl [] rfl 6
  exact ⟨w', e, (h 3).2 (.inr (by simp [parts])), (h 4).2 (.inr (by simp [parts])), fun g => by
    rcases (h 5).1 g with q | q
    · have := alive_lt q.1
      simp at this
    · simp [parts] at q⟩

/-- `C102_statement`: `v = v.Take(…)`; the old enumerator is deleted after it was cloned -/
example : perform (.plain 1 .take 1) ⟨[true, true, true], [some (.leaf 0 .container), some (.un 2 .select (.leaf 1 .container))], []⟩ =
      .ok () ⟨[true, false, false, true, true, true], [some (.leaf 0 .container), some (.un 5 .take (.un 4 .select (.leaf 3 .container)))], []⟩ := rfl

/-- `C102_evaluate`: of a container and of a `Select` -/
example : perform (.evaluate 1 0 false 9) ⟨[true, true, true], [some (.leaf 0 .container), some (.un 2 .select (.leaf 1 .container))], []⟩ =
      .ok () ⟨[true, false, false], [some (.leaf 0 .container), some (.leaf 0 .container)], []⟩ ∧
    perform (.evaluate 0 1 false 9) ⟨[true, true, true], [some (.leaf 0 .container), some (.un 2 .select (.leaf 1 .container))], []⟩ =
      .ok () ⟨[false, true, true, false, false, true], [some (.leaf 5 .container), some (.un 2 .select (.leaf 1 .container))], []⟩ := ⟨rfl, rfl⟩

end Vlpp
