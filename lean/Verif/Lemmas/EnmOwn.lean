import Verif.Spec.EnmOwn

/-!
# Lemmas: who owns the enumerators of lazy lists
-/
set_option autoImplicit false
namespace Vlpp.EnmOwn
open Spec.Enms

/-- what holds after a computation that returned, and after one that threw; it is not undefined -/
def Post {β : Type} (Q : β → World → Prop) (E : World → Prop) : Outcome World β → Prop
  | .ok r w => Q r w
  | .err w => E w
  | .fault => False

theorem Post.bind {β γ : Type} {m : Cpp World β} {f : β → Cpp World γ} {Q : β → World → Prop} {Q' : γ → World → Prop}
    {E E' : World → Prop} {w : World} (h : Post Q E (m w)) (hf : ∀ r w', Q r w' → Post Q' E' (f r w')) (he : ∀ w', E w' → E' w') :
    Post Q' E' ((m >>= f) w) := by
  rw [Cpp.bind_apply]
  revert h
  cases m w with
  | ok r w' => exact hf r w'
  | err w' => exact he w'
  | fault => exact id

theorem Post.imp {β : Type} {o : Outcome World β} {Q Q' : β → World → Prop} {E E' : World → Prop} (h : Post Q E o)
    (hq : ∀ r w, Q r w → Q' r w) (he : ∀ w, E w → E' w) : Post Q' E' o := by
  revert h
  cases o with
  | ok r w' => exact hq r w'
  | err w' => exact he w'
  | fault => exact id

/-- only `throws` changes -/
structure Quiet (w w' : World) : Prop where
  alive : w'.alive = w.alive
  vars : w'.vars = w.vars

theorem Quiet.refl (w : World) : Quiet w w := ⟨rfl, rfl⟩
theorem Quiet.trans {a b c : World} (h : Quiet a b) (g : Quiet b c) : Quiet a c := ⟨g.1.trans h.1, g.2.trans h.2⟩

theorem touch_ok {n : Nat} {w : World} (h : Alive w n) : touch n w = .ok () w := by
  unfold touch
  rw [if_pos (show w.alive[n]? = some true from h)]

theorem user_post (w : World) : Post (fun _ => Quiet w) (Quiet w) (user w) := by
  unfold user
  cases e : w.throws with
  | nil => exact ⟨rfl, rfl⟩
  | cons b ts => cases b <;> exact ⟨rfl, rfl⟩

theorem userIf_post (b : Bool) (w : World) : Post (fun _ => Quiet w) (fun w' => Quiet w w' ∧ b = true) (userIf b w) := by
  cases b with
  | false => exact ⟨rfl, rfl⟩
  | true => exact (user_post w).imp (fun _ _ h => h) (fun _ h => ⟨h, rfl⟩)

theorem parts_un (n : Nat) (k : Un) (e : Enm) : parts (.un n k e) = n :: parts e := rfl
theorem parts_bin (n : Nat) (k : Bin) (a b : Enm) : parts (.bin n k a b) = n :: (parts a ++ parts b) := rfl

theorem root_mem (e : Enm) : e.root ∈ parts e := by
  cases e <;> simp [parts, Enm.root]

theorem next_post (e : Enm) : ∀ (w : World), (∀ i ∈ parts e, Alive w i) → Post (fun _ => Quiet w) (Quiet w) (next e w) := by
  induction e with
  | leaf n k =>
    intro w h
    rw [next, touch_ok (h n (by simp [parts]))]
    exact .refl w
  | un n k e ih =>
    intro w h
    rw [next, Cpp.bind_ok (touch_ok (h n (by simp [parts])))]
    refine (ih w (fun i hi => h i (by simp [parts, hi]))).bind (fun _ w1 q => ?_) (fun _ q => q)
    exact (userIf_post _ w1).imp (fun _ _ q' => q.trans q') (fun _ q' => q.trans q'.1)
  | bin n k a b iha ihb =>
    intro w h
    rw [next, Cpp.bind_ok (touch_ok (h n (by simp [parts])))]
    refine (iha w (fun i hi => h i (by simp [parts, hi]))).bind (fun _ w1 q => ?_) (fun _ q => q)
    have h1 : ∀ i ∈ parts b, Alive w1 i := fun i hi => by
      unfold Alive; rw [q.1]; exact h i (by simp [parts, hi])
    refine (ihb w1 h1).bind (fun _ w2 q' => ?_) (fun _ q' => q.trans q')
    exact (userIf_post _ w2).imp (fun _ _ q'' => (q.trans q').trans q'') (fun _ q'' => (q.trans q').trans q''.1)

theorem steps_post (e : Enm) (n : Nat) : ∀ (w : World), (∀ i ∈ parts e, Alive w i) → Post (fun _ => Quiet w) (Quiet w) (steps e n w) := by
  induction n with
  | zero => intro w _; exact .refl w
  | succ n ih =>
    intro w h
    rw [steps]
    refine (next_post e w h).bind (fun _ w1 q => ?_) (fun _ q => q)
    refine (user_post w1).bind (fun _ w2 q' => ?_) (fun _ q' => q.trans q')
    have := ih w2 (fun i hi => by unfold Alive; rw [q'.1, q.1]; exact h i hi)
    exact this.imp (fun _ _ q'' => (q.trans q').trans q'') (fun _ q'' => (q.trans q').trans q'')

theorem evaluated_ok (e : Enm) : ∀ (w : World), (∀ i ∈ parts e, Alive w i) → ∃ b, evaluated e w = .ok b w := by
  induction e with
  | leaf n k =>
    intro w h
    exact ⟨true, by rw [evaluated, Cpp.bind_ok (touch_ok (h n (by simp [parts])))]; rfl⟩
  | un n k e ih =>
    intro w h
    have := ih w (fun i hi => h i (by simp [parts, hi]))
    have ht := touch_ok (h n (by simp [parts]))
    cases k <;> simp only [evaluated] <;> rw [Cpp.bind_ok ht] <;> first | exact this | exact ⟨false, rfl⟩
  | bin n k a b iha ihb =>
    intro w h
    rw [evaluated, Cpp.bind_ok (touch_ok (h n (by simp [parts])))]
    obtain ⟨r, e⟩ := iha w (fun i hi => h i (by simp [parts, hi]))
    rw [Cpp.bind_ok e]
    cases r with
    | true => exact ihb w (fun i hi => h i (by simp [parts, hi]))
    | false => exact ⟨false, rfl⟩

/-- `k` enumerators were made -/
structure Made (w w' : World) (k : Nat) : Prop where
  alive : w'.alive = w.alive ++ List.replicate k true
  vars : w'.vars = w.vars

theorem Made.mono {w w' : World} {k : Nat} (h : Made w w' k) {i : Nat} (hi : Alive w i) : Alive w' i := by
  unfold Alive at *
  rw [h.1, List.getElem?_append_left]
  · exact hi
  · exact (List.getElem?_eq_some_iff.1 hi).1

theorem Made.length {w w' : World} {k : Nat} (h : Made w w' k) : w'.alive.length = w.alive.length + k := by
  simp [h.1]

theorem Made.trans {a b c : World} {j k : Nat} (h : Made a b j) (g : Made b c k) : Made a c (j + k) :=
  ⟨by rw [g.1, h.1, List.append_assoc, List.replicate_append_replicate], g.2.trans h.2⟩

theorem Made.quiet {a b c : World} {j : Nat} (h : Made a b j) (g : Quiet b c) : Made a c j :=
  ⟨g.1.trans h.1, g.2.trans h.2⟩

theorem Made.iff {w w' : World} {k : Nat} (h : Made w w' k) (i : Nat) :
    Alive w' i ↔ Alive w i ∨ (w.alive.length ≤ i ∧ i < w.alive.length + k) := by
  unfold Alive
  rw [h.1]
  by_cases hi : i < w.alive.length
  · rw [List.getElem?_append_left hi]
    exact ⟨.inl, fun g => g.elim id (fun g => by omega)⟩
  · rw [List.getElem?_append_right (by omega), List.getElem?_replicate]
    by_cases hk : i - w.alive.length < k
    · rw [if_pos hk]; exact ⟨fun _ => .inr ⟨by omega, by omega⟩, fun _ => rfl⟩
    · rw [if_neg hk]
      refine ⟨fun g => (by cases g), fun g => ?_⟩
      rcases g with g | g
      · rw [List.getElem?_eq_none (by omega)] at g; cases g
      · omega

theorem new_made (w : World) : ∃ w', new w = .ok w.alive.length w' ∧ Made w w' 1 ∧ w'.throws = w.throws :=
  ⟨_, rfl, ⟨rfl, rfl⟩, rfl⟩

/-- `e` is made of the `k` objects from number `n` on -/
structure Block (e : Enm) (n k : Nat) : Prop where
  mem : ∀ i, i ∈ parts e ↔ n ≤ i ∧ i < n + k
  nodup : (parts e).Nodup

theorem clone_post (e : Enm) : ∀ (w : World), (∀ i ∈ parts e, Alive w i) →
    Post (fun e' w' => ∃ k, Made w w' k ∧ Block e' w.alive.length k ∧ k = (parts e).length ∧ (Simple e → Simple e' ∧ w'.throws = w.throws))
      (fun w' => ∃ k, Made w w' k ∧ ¬ Simple e) (clone e w) := by
  induction e with
  | leaf n k =>
    intro w h
    rw [clone, Cpp.bind_ok (touch_ok (h n (by simp [parts])))]
    have hu : Post (fun _ w' => Quiet w w' ∧ (Simple (.leaf n k) → w'.throws = w.throws))
        (fun w' => Quiet w w' ∧ ¬ Simple (.leaf n k)) (userIf k.copies w) := by
      by_cases hk : k = .reverse
      · subst hk
        exact (user_post w).imp (fun _ _ q => ⟨q, fun g => (g rfl).elim⟩) (fun _ q => ⟨q, fun g => g rfl⟩)
      · have : k.copies = false := by cases k <;> first | rfl | exact (hk rfl).elim
        rw [this]
        exact ⟨.refl w, fun _ => rfl⟩
    refine hu.bind (fun _ w1 q => ?_) (fun w' q => ⟨0, ⟨by simp [q.1.1], q.1.2⟩, q.2⟩)
    obtain ⟨w2, e2, m2, t2⟩ := new_made w1
    rw [Cpp.bind_ok e2]
    have hl : w1.alive.length = w.alive.length := by rw [q.1.1]
    refine ⟨1, ⟨by rw [m2.1, q.1.1], m2.2.trans q.1.2⟩, ⟨fun i => by simp [parts, hl]; omega, by simp [parts]⟩, by simp [parts],
      fun g => ⟨g, t2.trans (q.2 g)⟩⟩
  | un n k e ih =>
    intro w h
    rw [clone, Cpp.bind_ok (touch_ok (h n (by simp [parts])))]
    refine (ih w (fun i hi => h i (by simp [parts, hi]))).bind (fun e' w1 q => ?_) (fun w' q => ?_)
    · obtain ⟨j, m1, b1, k1, s1⟩ := q
      have hu : Post (fun _ w' => Quiet w1 w' ∧ (Simple (.un n k e) → w'.throws = w1.throws))
          (fun w' => Quiet w1 w' ∧ ¬ Simple (.un n k e)) (userIf k.copies w1) := by
        by_cases hk : k = .intersect ∨ k = .except
        · have hn : ¬ Simple (.un n k e) := fun g => hk.elim g.1 g.2.1
          have : k.copies = true := by rcases hk with hk | hk <;> subst hk <;> rfl
          rw [this]
          exact (user_post w1).imp (fun _ _ q => ⟨q, fun g => (hn g).elim⟩) (fun _ q => ⟨q, hn⟩)
        · have : k.copies = false := by
            cases k <;> first | rfl | exact (hk (.inl rfl)).elim | exact (hk (.inr rfl)).elim
          rw [this]
          exact ⟨.refl w1, fun _ => rfl⟩
      refine hu.bind (fun _ w2 q2 => ?_) (fun w' q2 => ⟨j, m1.quiet q2.1, q2.2⟩)
      obtain ⟨w3, e3, m3, t3⟩ := new_made w2
      rw [Cpp.bind_ok e3]
      have hl : w2.alive.length = w.alive.length + j := by rw [q2.1.1, m1.length]
      refine ⟨j + 1, (m1.quiet q2.1).trans m3, ⟨fun i => ?_, ?_⟩, by simp [parts, k1],
        fun g => ⟨⟨g.1, g.2.1, (s1 g.2.2).1⟩, t3.trans ((q2.2 g).trans (s1 g.2.2).2)⟩⟩
      · rw [parts_un, List.mem_cons, b1.mem, hl]; omega
      · rw [parts_un, List.nodup_cons, b1.mem, hl]
        exact ⟨by omega, b1.nodup⟩
    · obtain ⟨j, m1, s1⟩ := q
      exact ⟨j, m1, fun g => s1 g.2.2⟩
  | bin n k a b iha ihb =>
    intro w h
    rw [clone, Cpp.bind_ok (touch_ok (h n (by simp [parts])))]
    refine (iha w (fun i hi => h i (by simp [parts, hi]))).bind (fun a' w1 q => ?_) (fun w' q => ?_)
    · obtain ⟨j, m1, b1, k1, s1⟩ := q
      refine (ihb w1 (fun i hi => m1.mono (h i (by simp [parts, hi])))).bind (fun b' w2 q2 => ?_) (fun w' q2 => ?_)
      · obtain ⟨j2, m2, b2, k2, s2⟩ := q2
        obtain ⟨w3, e3, m3, t3⟩ := new_made w2
        rw [Cpp.bind_ok e3]
        have hl1 := m1.length
        have hl : w2.alive.length = w.alive.length + j + j2 := by rw [m2.length, hl1]
        refine ⟨j + j2 + 1, (m1.trans m2).trans m3, ⟨fun i => ?_, ?_⟩, by simp [parts, k1, k2],
          fun g => ⟨⟨(s1 g.1).1, (s2 g.2).1⟩, t3.trans ((s2 g.2).2.trans (s1 g.1).2)⟩⟩
        · rw [parts_bin, List.mem_cons, List.mem_append, b1.mem, b2.mem, hl, hl1]; omega
        · rw [parts_bin, List.nodup_cons, List.mem_append, b1.mem, b2.mem, hl, hl1]
          refine ⟨by omega, List.nodup_append.2 ⟨b1.nodup, b2.nodup, fun x hx y hy => ?_⟩⟩
          rw [b1.mem] at hx
          rw [b2.mem, hl1] at hy
          omega
      · obtain ⟨j2, m2, s2⟩ := q2
        exact ⟨j + j2, m1.trans m2, fun g => s2 g.2⟩
    · obtain ⟨j, m1, s1⟩ := q
      exact ⟨j, m1, fun g => s1 g.1⟩

theorem free_ok {n : Nat} {w : World} (h : Alive w n) : free n w = .ok () { w with alive := w.alive.set n false } := by
  unfold free
  rw [if_pos (show w.alive[n]? = some true from h)]

/-- exactly the objects `is` were deleted -/
structure Killed (w w' : World) (is : List Nat) : Prop where
  alive : ∀ i, Alive w' i ↔ Alive w i ∧ i ∉ is
  length : w'.alive.length = w.alive.length
  keep : ∀ i, i ∉ is → w'.alive[i]? = w.alive[i]?
  vars : w'.vars = w.vars
  throws : w'.throws = w.throws

theorem Killed.trans {a b c : World} {is js : List Nat} (h : Killed a b is) (g : Killed b c js) : Killed a c (is ++ js) :=
  ⟨fun i => by rw [g.alive, h.alive, List.mem_append]; exact ⟨fun x => ⟨x.1.1, fun y => y.elim x.1.2 x.2⟩, fun x => ⟨⟨x.1, fun y => x.2 (.inl y)⟩, fun y => x.2 (.inr y)⟩⟩,
    g.length.trans h.length, fun i hi => (g.keep i (fun y => hi (by simp [y]))).trans (h.keep i (fun y => hi (by simp [y]))),
    g.vars.trans h.vars, g.throws.trans h.throws⟩

theorem Killed.congr {a b : World} {is js : List Nat} (h : Killed a b is) (e : ∀ i, i ∈ is ↔ i ∈ js) : Killed a b js :=
  ⟨fun i => by rw [h.alive, e], h.length, fun i hi => h.keep i (fun y => hi ((e i).1 y)), h.vars, h.throws⟩

theorem free_killed {n : Nat} {w : World} (h : Alive w n) : ∃ w', free n w = .ok () w' ∧ Killed w w' [n] := by
  have hl : n < w.alive.length := (List.getElem?_eq_some_iff.1 h).1
  refine ⟨_, free_ok h, fun i => ?_, by simp, fun i hi => ?_, rfl, rfl⟩
  · unfold Alive
    simp only [List.getElem?_set, List.mem_singleton]
    by_cases e : n = i
    · subst e
      simp [hl]
    · simp [e, Ne.symm e]
  · simp only [List.mem_singleton] at hi
    simp only [List.getElem?_set]
    rw [if_neg (Ne.symm hi)]

theorem delete_ok (e : Enm) : ∀ (w : World), (parts e).Nodup → (∀ i ∈ parts e, Alive w i) →
    ∃ w', delete e w = .ok () w' ∧ Killed w w' (parts e) := by
  induction e with
  | leaf n k =>
    intro w _ h
    rw [delete]
    exact free_killed (h n (by simp [parts]))
  | un n k e ih =>
    intro w hn h
    rw [parts_un, List.nodup_cons] at hn
    rw [delete, Cpp.bind_ok (touch_ok (h n (by simp [parts])))]
    obtain ⟨w1, e1, k1⟩ := ih w hn.2 (fun i hi => h i (by simp [parts, hi]))
    rw [Cpp.bind_ok e1]
    obtain ⟨w2, e2, k2⟩ := free_killed (w := w1) (n := n) ((k1.alive n).2 ⟨h n (by simp [parts]), hn.1⟩)
    exact ⟨w2, e2, (k1.trans k2).congr (fun i => by simp [parts, or_comm])⟩
  | bin n k a b iha ihb =>
    intro w hn h
    rw [parts_bin, List.nodup_cons, List.nodup_append] at hn
    rw [delete, Cpp.bind_ok (touch_ok (h n (by simp [parts])))]
    obtain ⟨w1, e1, k1⟩ := iha w hn.2.1 (fun i hi => h i (by simp [parts, hi]))
    rw [Cpp.bind_ok e1]
    obtain ⟨w2, e2, k2⟩ := ihb w1 hn.2.2.1 (fun i hi => (k1.alive i).2 ⟨h i (by simp [parts, hi]), fun g => hn.2.2.2 i g i hi rfl⟩)
    rw [Cpp.bind_ok e2]
    have hn' := hn.1
    rw [List.mem_append] at hn'
    obtain ⟨w3, e3, k3⟩ := free_killed (w := w2) (n := n)
      ((k2.alive n).2 ⟨(k1.alive n).2 ⟨h n (by simp [parts]), fun g => hn' (.inl g)⟩, fun g => hn' (.inr g)⟩)
    exact ⟨w3, e3, ((k1.trans k2).trans k3).congr (fun i => by simp only [parts, List.mem_append, List.mem_cons, List.mem_singleton, List.not_mem_nil, or_false]; exact or_comm)⟩

/-- Since the statement began in `w0`, the variables and the old enumerators are unchanged; the new ones `is` exist. -/
structure Loose (w0 w : World) (is : List Nat) : Prop where
  vars : w.vars = w0.vars
  len : w0.alive.length ≤ w.alive.length
  old : ∀ i, i < w0.alive.length → w.alive[i]? = w0.alive[i]?
  nodup : is.Nodup
  fresh : ∀ i ∈ is, w0.alive.length ≤ i
  live : ∀ i ∈ is, Alive w i

/-- … and no other new ones exist -/
structure Tight (w0 w : World) (is : List Nat) : Prop extends Loose w0 w is where
  all : ∀ i, w0.alive.length ≤ i → Alive w i → i ∈ is

theorem alive_lt {w : World} {i : Nat} (h : Alive w i) : i < w.alive.length := (List.getElem?_eq_some_iff.1 h).1

theorem Loose.alive {w0 w : World} {is : List Nat} (h : Loose w0 w is) {i : Nat} (hi : Alive w0 i) : Alive w i := by
  unfold Alive
  rw [h.old i (alive_lt hi)]
  exact hi

theorem Loose.alive_iff {w0 w : World} {is : List Nat} (h : Loose w0 w is) {i : Nat} (hi : i < w0.alive.length) : Alive w i ↔ Alive w0 i := by
  unfold Alive
  rw [h.old i hi]

theorem Tight.start (w : World) : Tight w w [] :=
  ⟨⟨rfl, Nat.le_refl _, fun _ _ => rfl, List.nodup_nil, fun i hi => by simp at hi, fun i hi => by simp at hi⟩,
    fun i hi h => by have := alive_lt h; omega⟩

theorem Loose.quiet {w0 w w' : World} {is : List Nat} (h : Loose w0 w is) (q : Quiet w w') : Loose w0 w' is :=
  ⟨q.2.trans h.vars, by rw [q.1]; exact h.len, fun i hi => by rw [q.1]; exact h.old i hi, h.nodup, h.fresh,
    fun i hi => by unfold Alive; rw [q.1]; exact h.live i hi⟩

theorem Tight.quiet {w0 w w' : World} {is : List Nat} (h : Tight w0 w is) (q : Quiet w w') : Tight w0 w' is :=
  ⟨h.toLoose.quiet q, fun i hi hl => h.all i hi (by unfold Alive at *; rw [q.1] at hl; exact hl)⟩

theorem Loose.drop {w0 w : World} {js is : List Nat} (h : Loose w0 w (js ++ is)) : Loose w0 w is :=
  ⟨h.vars, h.len, h.old, (List.nodup_append.1 h.nodup).2.1, fun i hi => h.fresh i (by simp [hi]), fun i hi => h.live i (by simp [hi])⟩

theorem Loose.perm {w0 w : World} {js is : List Nat} (h : Loose w0 w js) (p : js.Perm is) : Loose w0 w is :=
  ⟨h.vars, h.len, h.old, p.nodup_iff.1 h.nodup, fun i hi => h.fresh i (p.mem_iff.2 hi), fun i hi => h.live i (p.mem_iff.2 hi)⟩

theorem Tight.perm {w0 w : World} {js is : List Nat} (h : Tight w0 w js) (p : js.Perm is) : Tight w0 w is :=
  ⟨h.toLoose.perm p, fun i hi hl => p.mem_iff.1 (h.all i hi hl)⟩

theorem Loose.made {w0 w w' : World} {is : List Nat} {k : Nat} (h : Loose w0 w is) (m : Made w w' k) : Loose w0 w' is :=
  ⟨m.2.trans h.vars, by rw [m.length]; have := h.len; omega,
    fun i hi => by rw [m.1, List.getElem?_append_left (by have := h.len; omega)]; exact h.old i hi, h.nodup, h.fresh, fun i hi => m.mono (h.live i hi)⟩

theorem Tight.made {w0 w w' : World} {is js : List Nat} {k : Nat} (h : Tight w0 w is) (m : Made w w' k)
    (hm : ∀ i, i ∈ js ↔ w.alive.length ≤ i ∧ i < w.alive.length + k) (hn : js.Nodup) : Tight w0 w' (js ++ is) := by
  have hl := h.len
  have h' := h.toLoose.made m
  refine ⟨⟨h'.vars, h'.len, h'.old, List.nodup_append.2 ⟨hn, h.nodup, fun x hx y hy e => ?_⟩, fun i hi => ?_, fun i hi => ?_⟩, fun i hi ha => ?_⟩
  · subst e
    have := alive_lt (h.live x hy)
    rw [hm] at hx
    omega
  · rw [List.mem_append, hm] at hi
    exact hi.elim (fun g => by omega) (h.fresh i)
  · rw [List.mem_append, hm] at hi
    exact hi.elim (fun g => (m.iff i).2 (.inr g)) (h'.live i)
  · rw [List.mem_append, hm]
    exact ((m.iff i).1 ha).elim (fun g => .inr (h.all i hi g)) .inl

theorem Tight.block {w0 w w' : World} {is : List Nat} {k : Nat} {e : Enm} (h : Tight w0 w is) (m : Made w w' k)
    (b : Block e w.alive.length k) : Tight w0 w' (parts e ++ is) := h.made m b.mem b.nodup

/-- `new` -/
theorem Tight.new {w0 w : World} {is : List Nat} (h : Tight w0 w is) :
    ∃ n w', new w = .ok n w' ∧ Tight w0 w' (n :: is) ∧ w'.throws = w.throws := by
  obtain ⟨w', e, m, t⟩ := new_made w
  exact ⟨_, w', e, h.made (js := [w.alive.length]) m (fun i => by simp; omega) (by simp), t⟩

theorem Loose.killed {w0 w w' : World} {js is : List Nat} (h : Loose w0 w (js ++ is)) (k : Killed w w' js) : Loose w0 w' is := by
  have hn := List.nodup_append.1 h.nodup
  refine ⟨k.vars.trans h.vars, by rw [k.length]; exact h.len, fun i hi => ?_, hn.2.1, fun i hi => h.fresh i (by simp [hi]),
    fun i hi => (k.alive i).2 ⟨h.live i (by simp [hi]), fun g => hn.2.2 i g i hi rfl⟩⟩
  rw [k.keep i (fun g => by have := h.fresh i (by simp [g]); omega)]
  exact h.old i hi

theorem Tight.killed {w0 w w' : World} {js is : List Nat} (h : Tight w0 w (js ++ is)) (k : Killed w w' js) : Tight w0 w' is := by
  refine ⟨h.toLoose.killed k, fun i hi ha => ?_⟩
  have := (k.alive i).1 ha
  exact (List.mem_append.1 (h.all i hi this.1)).elim (fun g => (this.2 g).elim) id

/-- what holds of a statement that throws: if `c`, nothing was lost -/
def Threw (c : Prop) (w0 : World) (is : List Nat) (w : World) : Prop := Loose w0 w is ∧ (c → Tight w0 w is)

theorem Threw.drop {c : Prop} {w0 w : World} {js is : List Nat} (h : Loose w0 w (js ++ is)) (hc : ¬ c) : Threw c w0 is w :=
  ⟨h.drop, fun g => (hc g).elim⟩

theorem withPtr_post {β : Type} {e : Enm} {body : Cpp World β} {w w0 : World} {is : List Nat} {R : β → List Nat} {P : β → World → Prop} {c : Prop}
    (hP : ∀ r w1 w2, P r w1 → w2.throws = w1.throws → P r w2)
    (h : Post (fun r w' => Tight w0 w' (parts e ++ R r) ∧ P r w') (Threw c w0 (parts e ++ is)) (body w)) :
    Post (fun r w' => Tight w0 w' (R r) ∧ P r w') (Threw c w0 is) (withPtr e body w) := by
  unfold withPtr
  revert h
  cases body w with
  | ok r w1 =>
    rintro ⟨h, hp⟩
    obtain ⟨w2, e2, k2⟩ := delete_ok e w1 (List.nodup_append.1 h.nodup).1 (fun i hi => h.live i (by simp [hi]))
    simp only [e2]
    exact ⟨h.killed k2, hP r w1 w2 hp k2.throws⟩
  | err w1 =>
    rintro ⟨h, hc⟩
    obtain ⟨w2, e2, k2⟩ := delete_ok e w1 (List.nodup_append.1 h.nodup).1 (fun i hi => h.live i (by simp [hi]))
    simp only [e2]
    exact ⟨h.killed k2, fun g => (hc g).killed k2⟩
  | fault => exact False.elim

/-- no variable has an enumerator whose clones copy elements -/
def SimpleVars (w : World) : Prop := ∀ v e, Refers w v e → Simple e

theorem xs_post {w0 w : World} {is : List Nat} (ho : Owned w0) (h : Tight w0 w is) {u : Nat} (hu : u < w0.vars.length) :
    Post (fun e w' => Tight w0 w' (parts e ++ is) ∧ (SimpleVars w0 → Simple e ∧ w'.throws = w.throws))
      (fun w' => Loose w0 w' is ∧ ¬ SimpleVars w0) (xs u w) := by
  unfold xs
  rw [h.vars]
  cases e : w0.vars[u]? with
  | none => rw [List.getElem?_eq_none_iff] at e; omega
  | some p =>
    cases p with
    | none =>
      obtain ⟨n, w', e', t, th⟩ := h.new
      simp only
      rw [Cpp.bind_ok e']
      exact ⟨t, fun _ => ⟨by simp [Simple], th⟩⟩
    | some f =>
      simp only
      refine (clone_post f w (fun i hi => h.toLoose.alive ((ho.alive u f e).2 i hi))).imp (fun e' w' q => ?_) (fun w' q => ?_)
      · obtain ⟨k, m, b, _, s⟩ := q
        exact ⟨h.block m b, fun g => s (g u f e)⟩
      · obtain ⟨k, m, s⟩ := q
        exact ⟨h.toLoose.made m, fun g => s (g u f e)⟩

theorem steps_tight {w0 w : World} {is : List Nat} {e : Enm} {c : Prop} (n : Nat) (h : Tight w0 w is) (hs : ∀ i ∈ parts e, i ∈ is) :
    Post (fun _ w' => Tight w0 w' is) (Threw c w0 is) (steps e n w) :=
  (steps_post e n w (fun i hi => h.live i (hs i hi))).imp (fun _ _ q => h.quiet q) (fun _ q => ⟨(h.quiet q).toLoose, fun _ => h.quiet q⟩)

theorem consume_post {w0 w : World} {is : List Nat} (ho : Owned w0) (h : Tight w0 w is) {u : Nat} (hu : u < w0.vars.length) (n : Nat) :
    Post (fun _ w' => Tight w0 w' is) (Threw (SimpleVars w0) w0 is) (consume u n w) := by
  unfold consume
  refine (xs_post ho h hu).bind (fun e w1 q => ?_) (fun w' q => ⟨q.1, fun g => (q.2 g).elim⟩)
  have := withPtr_post (c := SimpleVars w0) (P := fun _ _ => True) (R := fun (_ : Unit) => is) (fun _ _ _ _ _ => trivial)
    (((steps_tight (c := SimpleVars w0) n q.1 (fun i hi => by simp [hi])).imp (fun _ _ g => ⟨g, trivial⟩) (fun _ g => g)) :
      Post (fun (_ : Unit) w' => Tight w0 w' (parts e ++ is) ∧ True) _ (steps e n w1))
  exact this.imp (fun _ _ g => g.1) (fun _ g => g)

theorem distinctOf_post {w0 w : World} {t : Enm} {is : List Nat} (h : Tight w0 w (parts t ++ is)) :
    Post (fun d w' => Tight w0 w' (parts d ++ is) ∧ (Simple t → Simple d)) (fun w' => Loose w0 w' is ∧ ¬ Simple t) (distinctOf t w) := by
  unfold distinctOf
  have hb : Post (fun d w' => Tight w0 w' (parts t ++ (parts d ++ is)) ∧ (Simple t → Simple d)) (Threw False w0 (parts t ++ is))
      ((do let e ← clone t; let m ← new; return Enm.un m .distinct e : Cpp World Enm) w) ∧
      (Simple t → ∃ d w', (do let e ← clone t; let m ← new; return Enm.un m .distinct e : Cpp World Enm) w = .ok d w') := by
    have hc := clone_post t w (fun i hi => h.live i (by simp [hi]))
    have hok : ∀ e' w', (∃ k, Made w w' k ∧ Block e' w.alive.length k ∧ k = (parts t).length ∧ (Simple t → Simple e' ∧ w'.throws = w.throws)) →
        Post (fun d w' => Tight w0 w' (parts t ++ (parts d ++ is)) ∧ (Simple t → Simple d)) (fun _ => False)
          ((do let m ← new; return Enm.un m .distinct e' : Cpp World Enm) w') := by
      rintro e' w1 ⟨k, m, b, _, s⟩
      obtain ⟨n, w2, e2, t2, _⟩ := (h.block m b).new
      rw [Cpp.bind_ok e2]
      refine ⟨t2.perm ?_, fun g => ⟨nofun, nofun, (s g).1⟩⟩
      have : (n :: (parts e' ++ (parts t ++ is))) = (n :: parts e') ++ (parts t ++ is) := rfl
      rw [this, parts_un, ← List.append_assoc, ← List.append_assoc]
      exact List.perm_append_comm.append_right _
    constructor
    · refine hc.bind (fun e' w' q => (hok e' w' q).imp (fun _ _ g => g) (fun _ g => g.elim)) (fun w' q => ?_)
      obtain ⟨k, m, s⟩ := q
      exact ⟨h.toLoose.made m, False.elim⟩
    · intro g
      rw [Cpp.bind_apply]
      revert hc
      cases clone t w with
      | ok e' w' =>
        intro q
        have := hok e' w' q
        revert this
        simp only
        cases (do let m ← new; return Enm.un m .distinct e' : Cpp World Enm) w' with
        | ok d w2 => exact fun _ => ⟨d, w2, rfl⟩
        | err _ => exact False.elim
        | fault => exact False.elim
      | err w' => rintro ⟨k, m, s⟩; exact (s g).elim
      | fault => exact False.elim
  have hw := withPtr_post (c := False) (P := fun d _ => Simple t → Simple d) (R := fun d => parts d ++ is) (fun _ _ _ g _ => g) hb.1
  by_cases hs : Simple t
  · obtain ⟨d, w', e⟩ := hb.2 hs
    have h1 := hb.1
    rw [e] at h1
    obtain ⟨w3, e3, k3⟩ := delete_ok t w' (List.nodup_append.1 h1.1.nodup).1 (fun i hi => h1.1.live i (by simp [hi]))
    unfold withPtr
    simp only [e, e3]
    exact ⟨h1.1.killed k3, h1.2⟩
  · exact hw.imp (fun _ _ g => g) (fun _ g => ⟨g.1, hs⟩)

theorem refers_set {w : World} {vs : List (Option Enm)} {v : Nat} {p : Option Enm} {u : Nat} {f : Enm} (h : w.vars = vs.set v p) (hv : v < vs.length) :
    Refers w u f ↔ (u = v ∧ p = some f) ∨ (u ≠ v ∧ vs[u]? = some (some f)) := by
  unfold Refers
  rw [h, List.getElem?_set]
  by_cases e : v = u
  · subst e
    simp [hv]
  · have : u ≠ v := fun g => e g.symm
    simp [e, this]

theorem held_iff (w : World) (n : Nat) : held w n = true ↔ ∃ u f, Refers w u f ∧ f.root = n := by
  unfold held Refers
  rw [List.any_eq_true]
  constructor
  · rintro ⟨p, hp, e⟩
    obtain ⟨u, hu⟩ := List.mem_iff_getElem?.1 hp
    cases p with
    | none => simp at e
    | some f => exact ⟨u, f, hu, by simpa using e⟩
  · rintro ⟨u, f, hu, e⟩
    exact ⟨some f, List.mem_of_getElem? hu, by simp [e]⟩

theorem assign_good {w0 w : World} {is : List Nat} {v : Nat} {p : Option Enm} (ho : Owned w0) (h : Tight w0 w is) (hv : v < w0.vars.length)
    (hp : (is = [] ∧ ∀ e, p = some e → ∃ u, Refers w0 u e) ∨ ∃ e, p = some e ∧ is = parts e) :
    ∃ w', assign v p w = .ok () w' ∧ w'.vars = w0.vars.set v p ∧ Owned w' ∧ ∀ i, Lost w' i ↔ Lost w0 i := by
  have hW : ({ w with vars := w.vars.set v p } : World).vars = w0.vars.set v p := by rw [← h.vars]
  -- where what is referred to comes from
  have src : ∀ u f, Refers { w with vars := w.vars.set v p } u f → (∃ u', Refers w0 u' f) ∨ (p = some f ∧ is = parts f) := by
    intro u f hr
    rcases (refers_set hW hv).1 hr with ⟨_, e⟩ | ⟨_, e⟩
    · rcases hp with ⟨_, g⟩ | ⟨e', g1, g2⟩
      · exact .inl (g f e)
      · rw [e] at g1
        cases g1
        exact .inr ⟨e, g2⟩
    · exact .inl ⟨u, e⟩
  have oldlt : ∀ u f, Refers w0 u f → ∀ i ∈ parts f, i < w0.alive.length := fun u f hr i hi => alive_lt ((ho.alive u f hr).2 i hi)
  have hown : Owned { w with vars := w.vars.set v p } := by
    constructor
    · intro u f hr
      rcases src u f hr with ⟨u', g⟩ | ⟨_, g⟩
      · exact ⟨(ho.alive u' f g).1, fun i hi => h.toLoose.alive ((ho.alive u' f g).2 i hi)⟩
      · exact ⟨g ▸ h.nodup, fun i hi => h.live i (g ▸ hi)⟩
    · intro a b e f ha hb
      rcases src a e ha with ⟨a', ga⟩ | ⟨pa, ga⟩
      · rcases src b f hb with ⟨b', gb⟩ | ⟨pb, gb⟩
        · exact ho.apart a' b' e f ga gb
        · refine .inr fun i hi hj => ?_
          have := oldlt a' e ga i hi
          have := h.fresh i (gb ▸ hj)
          omega
      · rcases src b f hb with ⟨b', gb⟩ | ⟨pb, gb⟩
        · refine .inr fun i hi hj => ?_
          have := oldlt b' f gb i hj
          have := h.fresh i (ga ▸ hi)
          omega
        · rw [pa] at pb
          cases pb
          exact .inl rfl
  -- losing
  have lost : ∀ w' : World, w'.vars = w0.vars.set v p →
      (∀ i, Alive w' i ↔ Alive w i ∧ ∀ o, Refers w0 v o → i ∈ parts o → ∃ u f, Refers w' u f ∧ i ∈ parts f) → ∀ i, Lost w' i ↔ Lost w0 i := by
    intro w' hv' ha i
    have same : ∀ u f, Refers w' u f ↔ Refers { w with vars := w.vars.set v p } u f := fun u f => by unfold Refers; rw [hv', hW]
    constructor
    · rintro ⟨h1, h2⟩
      obtain ⟨h3, h4⟩ := (ha i).1 h1
      have hlt : i < w0.alive.length := by
        rcases Nat.lt_or_ge i w0.alive.length with g | g
        · exact g
        · have hi := h.all i g h3
          rcases hp with ⟨e, _⟩ | ⟨e, pe, ge⟩
          · rw [e] at hi; simp at hi
          · exact (h2 v e ((refers_set hv' hv).2 (.inl ⟨rfl, pe⟩)) (ge ▸ hi)).elim
      refine ⟨(h.toLoose.alive_iff hlt).1 h3, fun u f hr hi => ?_⟩
      by_cases e : u = v
      · subst e
        obtain ⟨u', f', g1, g2⟩ := h4 f hr hi
        exact h2 u' f' g1 g2
      · exact h2 u f ((refers_set hv' hv).2 (.inr ⟨e, hr⟩)) hi
    · rintro ⟨h1, h2⟩
      refine ⟨(ha i).2 ⟨h.toLoose.alive h1, fun o ho' hi => (h2 v o ho' hi).elim⟩, fun u f hr hi => ?_⟩
      rcases src u f ((same u f).1 hr) with ⟨u', g⟩ | ⟨_, g⟩
      · exact h2 u' f g hi
      · have := h.fresh i (g ▸ hi)
        have := alive_lt h1
        omega
  unfold assign
  rw [h.vars]
  obtain ⟨o, eo⟩ : ∃ o, w0.vars[v]? = some o := ⟨_, List.getElem?_eq_getElem hv⟩
  rw [eo]
  cases o with
  | none =>
    refine ⟨_, rfl, rfl, ?_, lost _ rfl fun i => ?_⟩
    · have := hown
      rw [h.vars] at this
      exact this
    · refine ⟨fun g => ⟨g, fun o ho' => ?_⟩, fun g => g.1⟩
      unfold Refers at ho'
      rw [eo] at ho'
      cases ho'
  | some o =>
    have hro : Refers w0 v o := eo
    simp only
    have hown' : Owned { w with vars := w0.vars.set v p } := by
      have := hown
      rw [h.vars] at this
      exact this
    have src' := src
    rw [h.vars] at src'
    by_cases hh : held { w with vars := w0.vars.set v p } o.root = true
    · rw [if_pos hh]
      refine ⟨_, rfl, rfl, hown', lost _ rfl fun i => ⟨fun g => ⟨g, fun o' ho' hi => ?_⟩, fun g => g.1⟩⟩
      unfold Refers at ho'
      rw [eo] at ho'
      cases ho'
      obtain ⟨u, f, hr, er⟩ := (held_iff _ _).1 hh
      refine ⟨u, f, hr, ?_⟩
      rcases src' u f hr with ⟨u', g⟩ | ⟨_, g⟩
      · rcases ho.apart v u' o f hro g with e | d
        · rw [← e]; exact hi
        · exact (d _ (root_mem o) (er ▸ root_mem f)).elim
      · have h1 := h.fresh f.root (g ▸ root_mem f)
        have h2 := oldlt v o hro _ (root_mem o)
        omega
    · rw [if_neg hh]
      obtain ⟨w', e', k⟩ := delete_ok o { w with vars := w0.vars.set v p } (ho.alive v o hro).1
        (fun i hi => h.toLoose.alive ((ho.alive v o hro).2 i hi))
      -- nothing that is still referred to shares anything with `o`
      have away : ∀ u f, Refers { w with vars := w0.vars.set v p } u f → ∀ i ∈ parts o, i ∉ parts f := by
        intro u f hr i hi hj
        rcases src' u f hr with ⟨u', g⟩ | ⟨_, g⟩
        · rcases ho.apart v u' o f hro g with e | d
          · exact hh ((held_iff _ _).2 ⟨u, f, hr, by rw [e]⟩)
          · exact d i hi hj
        · have h1 := h.fresh i (g ▸ hj)
          have h2 := oldlt v o hro i hi
          omega
      have same : ∀ u f, Refers w' u f ↔ Refers { w with vars := w0.vars.set v p } u f := fun u f => by unfold Refers; rw [k.vars]
      refine ⟨w', e', k.vars, ⟨fun u f hr => ?_, fun a b e f ha hb => hown'.apart a b e f ((same a e).1 ha) ((same b f).1 hb)⟩, lost w' k.vars fun i => ?_⟩
      · have hr' := (same u f).1 hr
        exact ⟨(hown'.alive u f hr').1, fun i hi => (k.alive i).2 ⟨(hown'.alive u f hr').2 i hi, fun g => away u f hr' i g hi⟩⟩
      · rw [k.alive]
        refine ⟨fun g => ⟨g.1, fun o' ho' hi => ?_⟩, fun g => ⟨g.1, fun hi => ?_⟩⟩
        · unfold Refers at ho'
          rw [eo] at ho'
          cases ho'
          exact (g.2 hi).elim
        · obtain ⟨u, f, hr, hj⟩ := g.2 o hro hi
          exact away u f ((same u f).1 hr) i hi hj

/-- what a statement that returned has done -/
structure Done (w0 : World) (c : Prop) (w : World) : Prop where
  owned : Owned w
  vars : w.vars.length = w0.vars.length
  lost : ∀ i, Lost w i ↔ Lost w0 i
  simple : c → SimpleVars w0 → SimpleVars w

theorem assign_done {w0 w : World} {is : List Nat} {v : Nat} {p : Option Enm} {c : Prop} {E : World → Prop} (ho : Owned w0) (h : Tight w0 w is)
    (hv : v < w0.vars.length) (hp : (is = [] ∧ ∀ e, p = some e → ∃ u, Refers w0 u e) ∨ ∃ e, p = some e ∧ is = parts e)
    (hs : c → SimpleVars w0 → ∀ e, p = some e → Simple e) : Post (fun _ => Done w0 c) E (assign v p w) := by
  obtain ⟨w', e, hv', o, l⟩ := assign_good ho h hv hp
  rw [e]
  refine ⟨o, by rw [hv', List.length_set], l, fun hc hs' u f hr => ?_⟩
  rcases (refers_set hv' hv).1 hr with ⟨_, g⟩ | ⟨_, g⟩
  · exact hs hc hs' f g
  · exact hs' u f g

theorem done_of_tight {w0 w : World} {c : Prop} (ho : Owned w0) (h : Tight w0 w []) : Done w0 c w := by
  have same : ∀ u f, Refers w u f ↔ Refers w0 u f := fun u f => by unfold Refers; rw [h.vars]
  have al : ∀ i, Alive w i ↔ Alive w0 i := fun i => by
    refine ⟨fun g => ?_, h.toLoose.alive⟩
    rcases Nat.lt_or_ge i w0.alive.length with hi | hi
    · exact (h.toLoose.alive_iff hi).1 g
    · have := h.all i hi g
      simp at this
  refine ⟨⟨fun u f hr => ?_, fun a b e f ha hb => ho.apart a b e f ((same a e).1 ha) ((same b f).1 hb)⟩, by rw [h.vars], fun i => ?_, fun _ hs u f hr => hs u f ((same u f).1 hr)⟩
  · have := ho.alive u f ((same u f).1 hr)
    exact ⟨this.1, fun i hi => (al i).2 (this.2 i hi)⟩
  · unfold Lost
    simp only [al, same]

theorem loopOver_post {w0 w : World} {is : List Nat} {e : Enm} (h : Tight w0 w (parts e ++ is)) (n : Nat) :
    Post (fun _ w' => Tight w0 w' is) (fun w' => Loose w0 w' is) (loopOver e n w) := by
  unfold loopOver
  refine (next_post e w (fun i hi => h.live i (by simp [hi]))).bind (fun _ w1 q => ?_) (fun w1 q => (h.quiet q).toLoose.drop)
  have := withPtr_post (c := False) (P := fun _ _ => True) (R := fun (_ : Unit) => is) (fun _ _ _ _ _ => trivial)
    (((steps_tight (c := False) n (h.quiet q) (fun i hi => by simp [hi])).imp (fun _ _ g => ⟨g, trivial⟩) (fun _ g => g)) :
      Post (fun (_ : Unit) w' => Tight w0 w' (parts e ++ is) ∧ True) _ (steps e n w1))
  exact this.imp (fun _ _ g => g.1) (fun _ g => g.1)

theorem threw_of_xs {c : Prop} {w0 w : World} {js is : List Nat} (q : Loose w0 w (js ++ is) ∧ ¬ SimpleVars w0) : Threw (c ∧ SimpleVars w0) w0 is w :=
  ⟨q.1.drop, fun g => (q.2 g.2).elim⟩

theorem nil_right {w0 w : World} {is : List Nat} (h : Tight w0 w (is ++ [])) : Tight w0 w is := by rw [List.append_nil] at h; exact h

theorem perform_post {w0 : World} (ho : Owned w0) (op : Op) (hm : Mentions w0.vars.length op) :
    Post (fun _ => Done w0 (Careful op)) (Threw (Careful op ∧ SimpleVars w0) w0 []) (perform op w0) := by
  have h0 := Tight.start w0
  cases op with
  | source v k =>
    obtain ⟨n, w1, e1, t1, _⟩ := h0.new
    simp only [perform]
    rw [Cpp.bind_ok e1]
    exact assign_done ho t1 hm (.inr ⟨_, rfl, rfl⟩) (fun hc _ e he => by cases he; exact hc)
  | copy v u =>
    simp only [perform]
    rw [Cpp.bind_ok (Cpp.get_apply w0), List.getElem?_eq_getElem hm.2]
    refine assign_done ho h0 hm.1 (.inl ⟨rfl, fun e he => ⟨u, ?_⟩⟩) (fun _ hs e he => hs u e ?_)
    all_goals unfold Refers; rw [List.getElem?_eq_getElem hm.2, he]
  | move v u =>
    simp only [perform]
    rw [Cpp.bind_ok (Cpp.get_apply w0), List.getElem?_eq_getElem hm.2]
    refine (assign_done (c := Careful (.move v u)) (E := fun _ => False) ho h0 hm.1 (.inl ⟨rfl, fun e he => ⟨u, ?_⟩⟩)
      (fun _ hs e he => hs u e ?_)).bind (fun _ w1 q => ?_) (fun _ g => g.elim)
    · unfold Refers; rw [List.getElem?_eq_getElem hm.2, he]
    · unfold Refers; rw [List.getElem?_eq_getElem hm.2, he]
    · refine (assign_done (p := none) (c := Careful (.move v u)) (E := fun _ => False) q.owned (Tight.start w1) (by rw [q.vars]; exact hm.2) (.inl ⟨rfl, nofun⟩)
        (fun _ _ e he => nomatch he)).imp (fun _ w2 r => ?_) (fun _ g => g.elim)
      exact ⟨r.owned, r.vars.trans q.vars, fun i => (r.lost i).trans (q.lost i), fun hc hs => r.simple hc (q.simple hc hs)⟩
  | renew v => exact assign_done ho h0 hm (.inl ⟨rfl, nofun⟩) (fun _ _ e he => nomatch he)
  | plain v k u =>
    simp only [perform]
    refine (xs_post ho h0 hm.2).bind (fun e w1 q => ?_) (fun w1 q => threw_of_xs (js := []) q)
    obtain ⟨n, w2, e2, t2, _⟩ := (nil_right q.1).new
    rw [Cpp.bind_ok e2]
    refine assign_done ho t2 hm.1 (.inr ⟨_, rfl, rfl⟩) (fun hc hs f he => ?_)
    cases he
    exact ⟨hc.1, hc.2, (q.2 hs).1⟩
  | func v k u nothrow =>
    simp only [perform]
    refine (xs_post ho h0 hm.2).bind (fun e w1 q => ?_) (fun w1 q => threw_of_xs (js := []) q)
    refine (userIf_post (!nothrow) w1).bind (fun _ w2 q2 => ?_) (fun w2 q2 => ?_)
    · obtain ⟨n, w3, e3, t3, _⟩ := ((nil_right q.1).quiet q2).new
      rw [Cpp.bind_ok e3]
      refine assign_done ho t3 hm.1 (.inr ⟨_, rfl, rfl⟩) (fun hc hs f he => ?_)
      cases he
      exact ⟨hc.1, hc.2.1, (q.2 hs).1⟩
    · refine Threw.drop (js := parts e) (q.1.quiet q2.1).toLoose (fun g => ?_)
      have := g.1.2.2
      have := q2.2
      simp_all
  | both v k u x =>
    simp only [perform]
    refine (xs_post ho h0 hm.2.1).bind (fun a w1 q => ?_) (fun w1 q => threw_of_xs (js := []) q)
    refine (xs_post ho (nil_right q.1) hm.2.2).bind (fun b w2 q2 => ?_) (fun w2 q2 => threw_of_xs (by rw [List.append_nil]; exact q2))
    obtain ⟨n, w3, e3, t3, _⟩ := (q2.1.perm List.perm_append_comm).new
    rw [Cpp.bind_ok e3]
    refine assign_done ho t3 hm.1 (.inr ⟨_, rfl, rfl⟩) (fun hc hs f he => ?_)
    cases he
    exact ⟨(q.2 hs).1, (q2.2 hs).1⟩
  | reverse v u rounds =>
    simp only [perform]
    refine (consume_post ho h0 hm.2 rounds).bind (fun _ w1 q => ?_) (fun w1 q => ⟨q.1, fun g => q.2 g.2⟩)
    obtain ⟨n, w2, e2, t2, _⟩ := q.new
    rw [Cpp.bind_ok e2]
    exact assign_done ho t2 hm.1 (.inr ⟨_, rfl, rfl⟩) (fun hc => hc.elim)
  | set v k u x rounds =>
    simp only [perform]
    refine (xs_post ho h0 hm.2.1).bind (fun e w1 q => ?_) (fun w1 q => threw_of_xs (js := []) q)
    refine (consume_post ho q.1 hm.2.2 rounds).bind (fun _ w2 q2 => ?_) (fun w2 q2 => Threw.drop q2.1 (fun g => g.1))
    obtain ⟨n, w3, e3, t3, _⟩ := q2.new
    rw [Cpp.bind_ok e3]
    refine (distinctOf_post (t := .un n k e) (is := []) t3).bind (fun d w4 q4 => ?_) (fun w4 q4 => ⟨q4.1, fun g => g.1.elim⟩)
    exact assign_done ho (nil_right q4.1) hm.1 (.inr ⟨_, rfl, rfl⟩) (fun hc => hc.elim)
  | union v u x =>
    simp only [perform]
    refine (xs_post ho h0 hm.2.1).bind (fun a w1 q => ?_) (fun w1 q => threw_of_xs (js := []) q)
    refine (xs_post ho (nil_right q.1) hm.2.2).bind (fun b w2 q2 => ?_) (fun w2 q2 => threw_of_xs (by rw [List.append_nil]; exact q2))
    obtain ⟨n, w3, e3, t3, _⟩ := (q2.1.perm List.perm_append_comm).new
    rw [Cpp.bind_ok e3]
    refine (distinctOf_post (t := .bin n .concat a b) (is := []) (by rw [List.append_nil]; exact t3)).bind (fun d w4 q4 => ?_)
      (fun w4 q4 => ⟨q4.1, fun g => (q4.2 ⟨(q.2 g.2).1, (q2.2 g.2).1⟩).elim⟩)
    refine assign_done ho (nil_right q4.1) hm.1 (.inr ⟨_, rfl, rfl⟩) (fun _ hs f he => ?_)
    cases he
    exact q4.2 ⟨(q.2 hs).1, (q2.2 hs).1⟩
  | evaluate v u force rounds =>
    simp only [perform]
    rw [Cpp.bind_ok (Cpp.get_apply w0), List.getElem?_eq_getElem hm.2]
    cases e : w0.vars[u]'hm.2 with
    | none => exact assign_done ho h0 hm.1 (.inl ⟨rfl, nofun⟩) (fun _ _ e he => nomatch he)
    | some f =>
      have hr : Refers w0 u f := by unfold Refers; rw [List.getElem?_eq_getElem hm.2, e]
      obtain ⟨b, eb⟩ := evaluated_ok f w0 (ho.alive u f hr).2
      simp only
      rw [Cpp.bind_ok eb]
      by_cases hc : force = false ∧ b = true
      · rw [if_pos hc]
        refine assign_done ho h0 hm.1 (.inl ⟨rfl, fun g he => ⟨u, ?_⟩⟩) (fun _ hs g he => hs u g ?_)
        all_goals cases he; exact hr
      · rw [if_neg hc]
        refine (consume_post ho h0 hm.2 rounds).bind (fun _ w1 q => ?_) (fun w1 q => ⟨q.1, fun g => q.2 g.2⟩)
        obtain ⟨n, w2, e2, t2, _⟩ := q.new
        rw [Cpp.bind_ok e2]
        refine assign_done ho t2 hm.1 (.inr ⟨_, rfl, rfl⟩) (fun _ _ g he => ?_)
        cases he
        exact nofun
  | consume u rounds =>
    exact (consume_post ho h0 hm rounds).imp (fun _ _ q => done_of_tight ho q) (fun _ q => ⟨q.1, fun g => q.2 g.2⟩)
  | compare u x rounds =>
    simp only [perform]
    refine (xs_post ho h0 hm.1).bind (fun a w1 q => ?_) (fun w1 q => threw_of_xs (js := []) q)
    have inner : Post (fun (_ : Unit) w' => Tight w0 w' (parts a ++ []) ∧ True) (Threw (SimpleVars w0) w0 (parts a ++ []))
        ((do let b ← xs x; withPtr b (do steps a rounds; steps b rounds) : Cpp World Unit) w1) := by
      refine (xs_post ho q.1 hm.2).bind (fun b w2 q2 => ?_) (fun w2 q2 => ⟨q2.1, fun g => (q2.2 g).elim⟩)
      refine withPtr_post (c := SimpleVars w0) (P := fun _ _ => True) (R := fun (_ : Unit) => parts a ++ []) (fun _ _ _ _ _ => trivial) ?_
      refine (steps_tight (c := SimpleVars w0) rounds q2.1 (fun i hi => by simp [hi])).bind (fun _ w3 q3 => ?_) (fun _ g => g)
      exact (steps_tight (c := SimpleVars w0) rounds q3 (fun i hi => by simp [hi])).imp (fun _ _ g => ⟨g, trivial⟩) (fun _ g => g)
    have := withPtr_post (c := SimpleVars w0) (P := fun _ _ => True) (R := fun (_ : Unit) => []) (fun _ _ _ _ _ => trivial) inner
    exact this.imp (fun _ _ g => done_of_tight ho g.1) (fun _ g => ⟨g.1, fun c => g.2 c.2⟩)
  | loop u rounds =>
    simp only [perform]
    refine (xs_post ho h0 hm).bind (fun e w1 q => ?_) (fun w1 q => threw_of_xs (js := []) q)
    exact (loopOver_post q.1 rounds).imp (fun _ _ g => done_of_tight ho g) (fun _ g => ⟨g, fun c => c.1.elim⟩)
  | all u rounds =>
    simp only [perform]
    refine (xs_post ho h0 hm).bind (fun e w1 q => ?_) (fun w1 q => threw_of_xs (js := []) q)
    refine (user_post w1).bind (fun _ w2 q2 => ?_) (fun w2 q2 => Threw.drop (q.1.quiet q2).toLoose (fun g => g.1))
    obtain ⟨n, w3, e3, t3, _⟩ := (q.1.quiet q2).new
    rw [Cpp.bind_ok e3]
    have inner : Post (fun (_ : Unit) w' => Tight w0 w' (parts (.un n .select e) ++ []) ∧ True) (Threw False w0 (parts (.un n .select e) ++ []))
        ((do let r ← clone (.un n .select e); loopOver r rounds : Cpp World Unit) w3) := by
      refine (clone_post (.un n .select e) w3 (fun i hi => t3.live i (by rw [parts_un] at hi; simpa using hi))).bind (fun r w4 q4 => ?_)
        (fun w4 q4 => ?_)
      · obtain ⟨k, m, b, _⟩ := q4
        exact (loopOver_post (t3.block m b) rounds).imp (fun _ _ g => ⟨g, trivial⟩) (fun _ g => ⟨g, False.elim⟩)
      · obtain ⟨k, m, _⟩ := q4
        exact ⟨t3.toLoose.made m, False.elim⟩
    have := withPtr_post (c := False) (P := fun _ _ => True) (R := fun (_ : Unit) => []) (fun _ _ _ _ _ => trivial) inner
    exact this.imp (fun _ _ g => done_of_tight ho g.1) (fun _ g => ⟨g.1, fun c => c.1.elim⟩)

/-- what a statement that threw has left -/
theorem threw_owned {w0 w : World} (ho : Owned w0) (h : Loose w0 w []) :
    Owned w ∧ w.vars = w0.vars ∧ (∀ i, i < w0.alive.length → (Lost w i ↔ Lost w0 i)) := by
  have same : ∀ u f, Refers w u f ↔ Refers w0 u f := fun u f => by unfold Refers; rw [h.vars]
  refine ⟨⟨fun u f hr => ?_, fun a b e f ha hb => ho.apart a b e f ((same a e).1 ha) ((same b f).1 hb)⟩, h.vars, fun i hi => ?_⟩
  · have := ho.alive u f ((same u f).1 hr)
    exact ⟨this.1, fun i hi => h.alive (this.2 i hi)⟩
  · unfold Lost
    simp only [h.alive_iff hi, same]

end Vlpp.EnmOwn
