import Verif.Model.StorageExit
import Verif.Spec.StorageExit
import Verif.Props.GlobalStorageProps

/-! # C111: the end of a program that has global storages -/
set_option autoImplicit false
namespace Vlpp
open Storage Spec

namespace Storage

theorem stepsX_add (p : Program) (a b : Nat) : ∀ s, stepsX p (a + b) s = stepsX p b (stepsX p a s) := by
  induction a with
  | zero => intro s; simp [stepsX]
  | succ a ih => intro s; rw [Nat.add_right_comm]; exact ih _

theorem stepX_run (p : Program) {x : Exit} {y : Instr} {t : List Instr} (ht : x.m.todo = y :: t)
    (h : ¬ ∃ i ∈ touched x.m, i ∈ x.dead) (h' : .top ∈ x.m.todo ∨ throwing p x.m = false) :
    stepX p (.run x) = .run { x with m := step p x.m } := by
  obtain ⟨m, dead, dying, last⟩ := x
  simp only at ht h h'
  have h2 : ¬ (throwing p m = true ∧ .top ∉ m.todo) := by
    rintro ⟨h1, h2⟩
    rcases h' with h' | h'
    · exact h2 h'
    · rw [h'] at h1; cases h1
  rw [ht] at h2
  simp only [stepX, ht]
  rw [if_neg h, if_neg h2]

/-- whatever is done in `main` is done where exceptions are caught -/
def Caught (t : List Instr) : Prop := t = [] ∨ ∃ a, t = a ++ [.top]

theorem Caught.suffix {a t : List Instr} (h : Caught t) (hs : a <:+ t) : Caught a := by
  obtain ⟨b, rfl⟩ := hs
  rcases List.eq_nil_or_concat a with rfl | ⟨a', x, rfl⟩
  · exact .inl rfl
  · rcases h with h | ⟨c, h⟩
    · simp at h
    · rw [List.concat_eq_append, ← List.append_assoc] at h
      have := List.append_inj' h rfl
      right
      exact ⟨a', by rw [List.concat_eq_append, this.2]⟩

theorem Caught.push {x : Instr} {t : List Instr} (h : Caught (x :: t)) (hx : x ≠ .top) (b : List Instr) : Caught (b ++ t) := by
  rcases h with h | ⟨c, h⟩
  · cases h
  · cases c with
    | nil => simp at h; exact absurd h.1 hx
    | cons y c =>
      simp only [List.cons_append, List.cons.injEq] at h
      exact .inr ⟨b ++ c, by rw [h.2]; simp⟩

theorem Caught.step {m : Machine} (h : Caught m.todo) (p : Program) : Caught (step p m).todo := by
  obtain ⟨reg, ini, todo, trace⟩ := m
  simp only at h
  cases todo with
  | nil => exact h
  | cons x t =>
    cases x with
    | top => exact h.suffix (List.suffix_cons _ _)
    | use i => exact h.suffix (List.suffix_cons _ _)
    | finalize => exact h.push (by simp) [.walk 0]
    | initEnd i =>
      simp only [Storage.step]
      split
      · exact h.suffix ((unwind_suffix t).trans (List.suffix_cons _ _))
      · exact h.suffix (List.suffix_cons _ _)
    | walk k =>
      simp only [Storage.step]
      split
      · exact h.suffix (List.suffix_cons _ _)
      · split
        · rename_i i _ _
          have := h.push (by simp) ((p.fin i).map .access ++ [.walk (k + 1)])
          simpa using this
        · exact h.push (by simp) [.walk (k + 1)]
    | access i =>
      simp only [Storage.step]
      split
      · have := h.push (by simp) ((p.init i).map .access ++ [.initEnd i, .use i])
        simpa using this
      · exact h.push (by simp) [.use i]

theorem Caught.initial (ops : List Op) : Caught (initial ops).todo := by
  show Caught (script ops)
  induction ops with
  | nil => exact .inl rfl
  | cons op ops ih =>
    have : ∀ y : Instr, Caught (y :: .top :: script ops) := by
      intro y
      rcases ih with h | ⟨a, h⟩
      · exact .inr ⟨[y], by rw [h]; rfl⟩
      · exact .inr ⟨y :: .top :: a, by rw [h]; rfl⟩
    cases op <;> exact this _

/-- until `main` returns nothing is different -/
theorem main_runs (p : Program) (last : List Op) (n : Nat) : ∀ m : Machine, Caught m.todo → (steps p n m).todo = [] →
    ∃ k, stepsX p k (.run ⟨m, [], none, last⟩) = .run ⟨steps p n m, [], none, last⟩ := by
  induction n with
  | zero => intro m _ h; exact ⟨0, rfl⟩
  | succ n ih =>
    intro m hc h
    cases ht : m.todo with
    | nil =>
      have hm : step p m = m := by unfold step; rw [ht]
      have : steps p (n + 1) m = steps p n m := by simp only [steps, hm]
      rw [this] at h ⊢
      exact ih m hc h
    | cons y t =>
      obtain ⟨k, hk⟩ := ih (step p m) (hc.step p) h
      refine ⟨k + 1, ?_⟩
      simp only [stepsX]
      rw [stepX_run p (x := ⟨m, [], none, last⟩) ht (by simp) (.inl (by
        rcases hc with hc | ⟨a, hc⟩
        · rw [ht] at hc; cases hc
        · show .top ∈ m.todo
          rw [hc]; simp))]
      exact hk

theorem registered_nodup_step {p : Program} {m : Machine} (h : m.registered.Nodup) : (step p m).registered.Nodup := by
  unfold step
  split
  · exact h
  · simp only
    split
    · exact register_nodup h
    · exact register_nodup h
  · split <;> exact h
  · exact h
  · exact h
  · split
    · exact h
    · split <;> exact h
  · exact h

theorem registered_nodup (p : Program) (n : Nat) : ∀ m : Machine, m.registered.Nodup → (steps p n m).registered.Nodup := by
  induction n with
  | zero => intro m h; exact h
  | succ n ih => intro m h; exact ih _ (registered_nodup_step h)

/-- accesses of storages that are initialised and alive -/
theorem exit_accesses (p : Program) (reg : List Nat) (ini : Nat → Bool) (dead : List Nat) (d : Option Nat) (last : List Op) (xs : List Nat) :
    ∀ trace : List Event, (∀ j ∈ xs, j ∈ reg ∧ ini j = true ∧ j ∉ dead) →
    stepsX p (2 * xs.length) (.run ⟨⟨reg, ini, xs.map .access, trace⟩, dead, d, last⟩) =
      .run ⟨⟨reg, ini, [], trace ++ xs.map .use⟩, dead, d, last⟩ := by
  induction xs with
  | nil => intro trace _; simp [stepsX]
  | cons j xs ih =>
    intro trace h
    obtain ⟨h1, h2, h3⟩ := h j (by simp)
    have e : 2 * (j :: xs).length = 1 + (1 + 2 * xs.length) := by simp; omega
    rw [e, stepsX_add]
    have s1 : stepsX p 1 (.run ⟨⟨reg, ini, (j :: xs).map .access, trace⟩, dead, d, last⟩) =
        .run ⟨⟨reg, ini, .use j :: xs.map .access, trace⟩, dead, d, last⟩ := by
      simp only [stepsX]
      rw [stepX_run p (x := ⟨⟨reg, ini, (j :: xs).map .access, trace⟩, dead, d, last⟩) (List.map_cons ..)
        (by simp [touched, h3]) (.inr rfl)]
      simp [step, h1, h2]
    have s2 : stepsX p 1 (.run ⟨⟨reg, ini, .use j :: xs.map .access, trace⟩, dead, d, last⟩) =
        .run ⟨⟨reg, ini, xs.map .access, trace ++ [.use j]⟩, dead, d, last⟩ := by
      simp only [stepsX]
      rw [stepX_run p (x := ⟨⟨reg, ini, .use j :: xs.map .access, trace⟩, dead, d, last⟩) rfl
        (by simp [touched]) (.inr rfl)]
      simp [step]
    rw [s1, stepsX_add, s2, ih _ (fun j' hj' => h j' (by simp [hj']))]
    simp

/-- which storages are initialised when the destructors of `b` have run -/
def without (ini : Nat → Bool) (b : List Nat) : Nat → Bool := fun j => if j ∈ b then false else ini j

theorem next_last {a b : List Nat} {i : Nat} (hnd : (a ++ i :: b).Nodup) (ini : Nat → Bool) (todo : List Instr)
    (trace : List Event) (d : Option Nat) (last : List Op) : nextDead ⟨⟨a ++ i :: b, ini, todo, trace⟩, b, d, last⟩ = some i := by
  unfold nextDead
  rw [List.nodup_append] at hnd
  obtain ⟨_, h2, h3⟩ := hnd
  have hi : i ∉ b := (List.nodup_cons.1 h2).1
  simp only [List.filter_append, List.filter_cons]
  rw [if_pos (by simpa using hi)]
  have : b.filter (fun i => decide (i ∉ b)) = [] := by
    rw [List.filter_eq_nil_iff]; intro x hx; simpa using hx
  rw [this]
  simp

/-- the destructor of one storage -/
theorem exit_one (p : Program) (last : List Op) {a b : List Nat} {i : Nat} (hnd : (a ++ i :: b).Nodup) (ini : Nat → Bool)
    (h : ini i = true → ∀ j ∈ p.fin i, j ∈ a ∧ ini j = true) (trace : List Event) :
    ∃ n, stepsX p n (.run ⟨⟨a ++ i :: b, without ini b, [], trace⟩, b, none, last⟩) =
      .run ⟨⟨a ++ i :: b, without ini (i :: b), [], trace ++ if ini i then .fin i :: (p.fin i).map .use else []⟩, i :: b, none, last⟩ := by
  have hnd' := List.nodup_append.1 hnd
  have hi : i ∉ b := (List.nodup_cons.1 hnd'.2.1).1
  have hn := next_last hnd (without ini b) [] trace none last
  have hw : without ini b i = ini i := by simp [without, hi]
  have hasg : assign (without ini b) i false = without ini (i :: b) := by
    funext j
    by_cases hj : j = i <;> simp [assign, without, hj]
  cases hini : ini i with
  | false =>
    refine ⟨2, ?_⟩
    have : without ini (i :: b) = without ini b := by
      funext j
      by_cases hj : j = i
      · subst hj; simp [without, hi, hini]
      · simp [without, hj]
    simp only [stepsX, stepX, hn, destroy, hw, hini, this]
    simp
  | true =>
    refine ⟨1 + (2 * (p.fin i).length + 1), ?_⟩
    rw [stepsX_add]
    have s1 : stepsX p 1 (.run ⟨⟨a ++ i :: b, without ini b, [], trace⟩, b, none, last⟩) =
        .run ⟨⟨a ++ i :: b, without ini (i :: b), (p.fin i).map .access, trace ++ [.fin i]⟩, b, some i, last⟩ := by
      simp only [stepsX, stepX, hn, destroy, hw, hini, hasg]
      simp
    rw [s1, stepsX_add, exit_accesses p _ _ _ _ _ (p.fin i) _ (by
      intro j hj
      obtain ⟨h1, h2⟩ := h hini j hj
      have hjb : j ∉ i :: b := fun hm => hnd'.2.2 j h1 j hm rfl
      exact ⟨by simp [h1], by simp only [without]; rw [if_neg hjb]; exact h2, fun hm => hjb (by simp [hm])⟩)]
    simp [stepsX, stepX]

/-- the destructors of the newest storages -/
theorem exit_some (p : Program) (last : List Op) (ini : Nat → Bool) (b : List Nat) : ∀ (a : List Nat) (trace : List Event), (a ++ b).Nodup →
    (∀ older newer i, b = older ++ i :: newer → ini i = true → ∀ j ∈ p.fin i, j ∈ a ++ older ∧ ini j = true) →
    ∃ n, stepsX p n (.run ⟨⟨a ++ b, without ini [], [], trace⟩, [], none, last⟩) =
      .run ⟨⟨a ++ b, without ini b, [], trace ++ atExit b ini p.fin⟩, b, none, last⟩ := by
  induction b with
  | nil => intro a trace _ _; exact ⟨0, by simp [stepsX, atExit]⟩
  | cons i b ih =>
    intro a trace hnd h
    obtain ⟨n, hn⟩ := ih (a ++ [i]) trace (by simpa using hnd) (by
      intro older newer k hb hk j hj
      have := h (i :: older) newer k (by simp [hb]) hk j hj
      simpa using this)
    obtain ⟨n', hn'⟩ := exit_one p last hnd ini (by
      intro hi j hj
      simpa using h [] b i rfl hi j hj) (trace ++ atExit b ini p.fin)
    refine ⟨n + n', ?_⟩
    simp only [List.append_assoc, List.singleton_append] at hn
    rw [stepsX_add, hn, hn']
    simp [atExit]

end Storage

/-- **C111**, partial.  If `main` ends with storages whose finalisers use only storages that were accessed earlier and are
initialised, then, when the program ends, nothing undefined happens, each storage that is initialised is finalised exactly
once, in the reverse order of the first accesses, every storage is destroyed once, and none is initialised again.

Missing: finalisers that use other storages, see `C111_violated`. -/
theorem C111_exit_partial (p : Program) (ops last : List Storage.Op) (n : Nat) {m : Machine} (hm : steps p n (initial ops) = m)
    (hend : m.todo = []) (hu : UsesOlder m.registered m.initialized p.fin) :
    ∃ k, stepsX p k (begin ops last) = .run ⟨⟨m.registered, fun _ => false, [],
      m.trace ++ atExit m.registered m.initialized p.fin⟩, m.registered, none, last⟩ ∧ m.registered.Nodup := by
  have hnd : m.registered.Nodup := by rw [← hm]; exact registered_nodup p n _ (by simp [initial])
  have hI : Inv m := by rw [← hm]; exact (Inv.initial ops).steps n
  obtain ⟨k1, h1⟩ := main_runs p last n (initial ops) (Caught.initial ops) (by rw [hm]; exact hend)
  obtain ⟨k2, h2⟩ := exit_some p last m.initialized m.registered [] m.trace (by simpa using hnd) (by
    intro older newer i hb hi j hj
    simpa using hu older newer i hb hi j hj)
  refine ⟨k1 + k2, ?_, hnd⟩
  have hm' : m = ⟨m.registered, without m.initialized [], [], m.trace⟩ := by
    have : without m.initialized [] = m.initialized := by funext j; simp [without]
    rw [this, ← hend]
  have hw : without m.initialized m.registered = fun _ => false := by
    funext j
    unfold without
    split
    · rfl
    · rename_i hj
      cases hc : m.initialized j with
      | false => rfl
      | true => exact absurd (hI.registered j hc) hj
  rw [stepsX_add]
  unfold begin
  rw [h1, hm]
  simp only [List.nil_append, hw] at h2
  rw [← h2, ← hm']

/-- **C111**: if the last thing `main` does is to call `FinalizeGlobalStorage`, and finalisers use only storages that were
accessed for the first time after their own, then the end of the program calls no finaliser and is defined. -/
theorem C111_finalized (p : Program) (N : Nat) (hp : Closed p N) (ops last : List Storage.Op)
    (hops : ∀ i, Storage.Op.access i ∈ ops → i < N) :
    ∃ n m, steps p n (initial (ops ++ [.finalize])) = m ∧ m.todo = [] ∧
      (FinalisersInOrder p m.registered →
        ∃ k, stepsX p k (begin (ops ++ [.finalize]) last) = .run ⟨m, m.registered, none, last⟩) := by
  obtain ⟨n, h1, h2⟩ := C51_finalized_partial p N hp ops hops
  refine ⟨n, _, rfl, h1, fun hf => ?_⟩
  have h3 := h2 hf
  obtain ⟨k, hk, _⟩ := C111_exit_partial p _ last n rfl h1 (by
    intro older newer i _ hi
    rw [(h3 i).1] at hi; cases hi)
  refine ⟨k, ?_⟩
  rw [hk]
  generalize steps p n (initial (ops ++ [.finalize])) = m at h1 h3
  have e1 : (fun _ => false) = m.initialized := by funext i; exact (h3 i).1.symm
  have e2 : atExit m.registered m.initialized p.fin = [] := by
    unfold atExit
    rw [List.flatMap_eq_nil_iff]
    intro i _
    rw [(h3 i).1]; rfl
  rw [e2, List.append_nil, e1, ← h1]

namespace Storage
/-- the destructors up to that of `i`, if the finalisers of the newer storages use nothing -/
theorem exit_until (p : Program) {ops : List Op} (last : List Op) {n : Nat} {m : Machine} (hm : steps p n (initial ops) = m)
    (hend : m.todo = []) {older newer : List Nat} {i : Nat} (hreg : m.registered = older ++ i :: newer)
    (hnew : ∀ i' ∈ newer, p.fin i' = []) :
    ∃ k tr, stepsX p k (begin ops last) =
      .run ⟨⟨older ++ i :: newer, without m.initialized newer, [], tr⟩, newer, none, last⟩ ∧ (older ++ i :: newer).Nodup := by
  have hnd : m.registered.Nodup := by rw [← hm]; exact registered_nodup p n _ (by simp [initial])
  obtain ⟨k1, h1⟩ := main_runs p last n (initial ops) (Caught.initial ops) (by rw [hm]; exact hend)
  obtain ⟨k2, h2⟩ := exit_some p last m.initialized newer (older ++ [i]) m.trace (by rw [hreg] at hnd; simpa using hnd) (by
    intro a b x hb _ y hy
    rw [hnew x (by rw [hb]; simp)] at hy; cases hy)
  simp only [List.append_assoc, List.singleton_append] at h2
  rw [hreg] at hnd
  refine ⟨k1 + k2, m.trace ++ atExit newer m.initialized p.fin, ?_, hnd⟩
  have hm' : m = ⟨older ++ i :: newer, without m.initialized [], [], m.trace⟩ := by
    have : without m.initialized [] = m.initialized := by funext j; simp [without]
    rw [this, ← hend, ← hreg]
  rw [stepsX_add]
  unfold begin
  rw [h1, hm]
  rw [show (Now.run ⟨m, [], none, last⟩) = .run ⟨⟨older ++ i :: newer, without m.initialized [], [], m.trace⟩, [], none, last⟩ by rw [← hm'], h2]

end Storage

/-- **C111** is violated whenever the finaliser of a storage that is initialised first uses a storage that was accessed later
than its own for the first time, such as one that its own initialiser uses: when the program ends, that storage has been
destroyed. -/
theorem C111_violated (p : Program) (ops last : List Storage.Op) (n : Nat) {m : Machine} (hm : steps p n (initial ops) = m)
    (hend : m.todo = []) {older newer rest : List Nat} {i j : Nat} (hreg : m.registered = older ++ i :: newer)
    (hi : m.initialized i = true) (hfin : p.fin i = j :: rest) (hj : j ∈ newer)
    (hnew : ∀ i' ∈ newer, p.fin i' = []) :
    ∃ k, stepsX p k (begin ops last) = .fault := by
  obtain ⟨k, tr, hk, hnd⟩ := exit_until p last hm hend hreg hnew
  refine ⟨k + 2, ?_⟩
  rw [stepsX_add, hk]
  have hi' : i ∉ newer := (List.nodup_cons.1 (List.nodup_append.1 hnd).2.1).1
  have hn := next_last hnd (without m.initialized newer) [] tr none last
  have hw : without m.initialized newer i = true := by simp [without, hi', hi]
  simp only [stepsX, stepX, hn, destroy, hw, if_true, hfin, List.map_cons]
  rw [if_pos]
  exact ⟨j, rfl, hj⟩

/-- **C111** is violated: a global variable constructed before `main` whose destructor calls `FinalizeGlobalStorage`, which
reads storages that have been destroyed, whether they are initialised or not. -/
theorem C111_violated_global (p : Program) (ops last : List Storage.Op) (n : Nat) {m : Machine}
    (hm : steps p n (initial ops) = m) (hend : m.todo = []) (hu : UsesOlder m.registered m.initialized p.fin)
    (hne : m.registered ≠ []) : ∃ k, stepsX p k (begin ops (.finalize :: last)) = .fault := by
  obtain ⟨k, hk, _⟩ := C111_exit_partial p ops (.finalize :: last) n hm hend hu
  refine ⟨k + 3, ?_⟩
  rw [stepsX_add, hk]
  obtain ⟨i, reg, hreg⟩ : ∃ i reg, m.registered = i :: reg := by
    cases h : m.registered with
    | nil => exact absurd h hne
    | cons i reg => exact ⟨i, reg, rfl⟩
  rw [hreg]
  generalize m.trace ++ atExit (i :: reg) m.initialized p.fin = tr
  have hn : nextDead ⟨⟨i :: reg, fun _ => false, [], tr⟩, i :: reg, none, .finalize :: last⟩ = none := by
    unfold nextDead
    have : (i :: reg).filter (fun j => decide (j ∉ i :: reg)) = [] := by
      rw [List.filter_eq_nil_iff]; intro x hx h; exact of_decide_eq_true h hx
    simp only [this]; rfl
  have s1 : stepX p (.run ⟨⟨i :: reg, fun _ => false, [], tr⟩, i :: reg, none, .finalize :: last⟩) =
      .run ⟨⟨i :: reg, fun _ => false, [.finalize], tr⟩, i :: reg, none, last⟩ := by
    simp only [stepX, hn, request]
  have s2 : stepX p (.run ⟨⟨i :: reg, fun _ => false, [.finalize], tr⟩, i :: reg, none, last⟩) =
      .run ⟨⟨i :: reg, fun _ => false, [.walk 0], tr⟩, i :: reg, none, last⟩ := by
    rw [stepX_run p (x := ⟨⟨i :: reg, fun _ => false, [.finalize], tr⟩, i :: reg, none, last⟩) rfl (by simp [touched]) (.inr rfl)]
    rfl
  simp only [stepsX, s1, s2]
  simp only [stepX]
  rw [if_pos]
  exact ⟨i, rfl, by simp⟩

/-- **C111**: if the finaliser of a storage first uses a storage that was never accessed and whose initialiser throws, the end
of the program terminates it; the exception is not ignored. -/
theorem C111_terminated (p : Program) (ops last : List Storage.Op) (n : Nat) {m : Machine} (hm : steps p n (initial ops) = m)
    (hend : m.todo = []) {older newer rest : List Nat} {i j : Nat} (hreg : m.registered = older ++ i :: newer)
    (hi : m.initialized i = true) (hfin : p.fin i = j :: rest) (hj : j ∉ m.registered) (hinit : p.init j = [])
    (hth : p.throws j = true) (hnew : ∀ i' ∈ newer, p.fin i' = []) :
    ∃ k, stepsX p k (begin ops last) = .terminated := by
  have hI : Inv m := by rw [← hm]; exact (Inv.initial ops).steps n
  obtain ⟨k, tr, hk, hnd⟩ := exit_until p last hm hend hreg hnew
  refine ⟨k + 3, ?_⟩
  rw [stepsX_add, hk]
  have hi' : i ∉ newer := (List.nodup_cons.1 (List.nodup_append.1 hnd).2.1).1
  have hn := next_last hnd (without m.initialized newer) [] tr none last
  have hw : without m.initialized newer i = true := by simp [without, hi', hi]
  rw [hreg] at hj
  have hji : j ≠ i := by rintro rfl; simp at hj
  have hjn : j ∉ newer := fun h => hj (by simp [h])
  have hjf : assign (without m.initialized newer) i false j = false := by
    simp only [assign, if_neg hji, without, if_neg hjn]
    cases hc : m.initialized j with
    | false => rfl
    | true => have := hI.registered j hc; rw [hreg] at this; exact absurd this hj
  have s1 : stepX p (.run ⟨⟨older ++ i :: newer, without m.initialized newer, [], tr⟩, newer, none, last⟩) =
      .run ⟨⟨older ++ i :: newer, assign (without m.initialized newer) i false, .access j :: rest.map .access, tr ++ [.fin i]⟩,
        newer, some i, last⟩ := by
    simp only [stepX, hn, destroy, hw, if_true, hfin, List.map_cons]
  simp only [stepsX, s1]
  rw [stepX_run p (x := ⟨⟨older ++ i :: newer, assign (without m.initialized newer) i false, .access j :: rest.map .access,
    tr ++ [Event.fin i]⟩, newer, some i, last⟩) rfl (by simp [touched, hjn]) (.inr rfl)]
  simp only [step, hjf, if_true, hinit, List.map_nil, List.nil_append]
  simp only [stepX]
  rw [if_neg (by simp [touched]), if_pos ⟨by simp [throwing, hth], by simp⟩]

namespace Storage

theorem Inv.destroy {m : Machine} (hI : Inv m) (p : Program) (i : Nat) : Inv (destroy p i m) := by
  unfold Storage.destroy
  split
  · rename_i hini
    have hpend : ∀ x ∈ (p.fin i).map Instr.access, ¬ x.Pending := fun x hx => (access_not_pending hx).1
    refine ⟨fun j => ?_, ?_, ?_, ?_, ?_, ?_⟩
    · by_cases hj : j = i
      · subst hj
        obtain ⟨s, hs, hf⟩ := hI.flag j
        have hs' : s ≠ .absent := fun hc => by have := hf.2 hc; simp [hini] at this
        refine ⟨.absent, ?_, by simp [assign]⟩
        rw [phase_snoc j m.trace _ hs]; simp [phase.go, hs']
      · simp only [phase_snoc_other (.inl ⟨i, fun h => hj h.symm, by simp⟩ :
          (∃ j', j' ≠ j ∧ (Event.fin i = .start j' ∨ Event.fin i = .ready j' ∨ Event.fin i = .fin j')) ∨ ∃ j', Event.fin i = .use j')]
        simpa [assign, hj] using hI.flag j
    · intro j hj; exact absurd trivial (hpend _ hj)
    · intro j
      rw [List.count_eq_zero_of_not_mem fun hj => hpend (.initEnd j) hj trivial]; omega
    · refine List.Pairwise.imp_of_mem (R := fun _ _ => True) ?_ (List.pairwise_of_forall fun _ _ => trivial)
      intro a b _ hb _ _
      exact hpend b hb
    · intro j hj; exact absurd trivial (hpend _ hj)
    · intro j hj
      refine hI.registered j ?_
      simp only [assign] at hj
      split at hj
      · cases hj
      · exact hj
  · exact hI

theorem Inv.request {m : Machine} (hI : Inv m) (op : Op) : Inv { m with todo := [request op] } := by
  have hne : ∀ x ∈ [Storage.request op], ¬ x.Pending := by
    intro x hx
    rw [List.mem_singleton] at hx
    subst hx
    cases op <;> simp [Storage.request, Instr.Pending]
  refine ⟨hI.flag, fun j hj => absurd trivial (hne _ hj), ?_, List.pairwise_singleton _ _,
    fun j hj => absurd trivial (hne _ hj), hI.registered⟩
  intro j
  rw [List.count_eq_zero_of_not_mem fun hj => hne (.initEnd j) hj trivial]; omega

theorem step_registered (p : Program) (m : Machine) {i : Nat} (h : i ∈ m.registered) : i ∈ (step p m).registered := by
  unfold step
  split
  · exact h
  · simp only
    split <;> exact mem_registered_if (.inl h)
  · split <;> exact h
  · exact h
  · exact h
  · split
    · exact h
    · split <;> exact h
  · exact h

/-- the invariant of all executions until the end of the program -/
structure ExitInv (x : Exit) : Prop where
  inv : Inv x.m
  once : x.dead.Nodup
  constructed : ∀ i ∈ x.dead, i ∈ x.m.registered
  alive : ∀ i, x.dying = some i → i ∉ x.dead ∧ i ∈ x.m.registered

theorem destroy_registered (p : Program) (i : Nat) (m : Machine) : (destroy p i m).registered = m.registered := by
  unfold destroy
  split <;> rfl

theorem ExitInv.step {p : Program} {x y : Exit} (h : ExitInv x) (e : stepX p (.run x) = .run y) : ExitInv y := by
  obtain ⟨m, dead, dying, last⟩ := x
  cases ht : m.todo with
  | nil =>
    cases dying with
    | some i =>
      simp only [stepX, ht, Now.run.injEq] at e
      subst e
      have ha := h.alive i rfl
      refine ⟨h.inv, List.nodup_cons.2 ⟨ha.1, h.once⟩, ?_, fun j hj => by cases hj⟩
      intro j hj
      rcases List.mem_cons.1 hj with rfl | hj
      · exact ha.2
      · exact h.constructed j hj
    | none =>
      cases hn : nextDead ⟨m, dead, none, last⟩ with
      | none =>
        cases last with
        | nil => simp only [stepX, ht, hn, Now.run.injEq] at e; subst e; exact h
        | cons op last =>
          simp only [stepX, ht, hn, Now.run.injEq] at e
          subst e
          exact ⟨h.inv.request op, h.once, h.constructed, fun j hj => by cases hj⟩
      | some i =>
        simp only [stepX, ht, hn, Now.run.injEq] at e
        subst e
        have hmem : i ∈ m.registered.filter fun i => decide (i ∉ dead) := List.mem_of_getLast? hn
        rw [List.mem_filter] at hmem
        refine ⟨h.inv.destroy p i, h.once, ?_, ?_⟩
        · intro j hj; rw [destroy_registered]; exact h.constructed j hj
        · intro j hj
          cases hj
          exact ⟨by simpa using hmem.2, by rw [destroy_registered]; exact hmem.1⟩
  | cons a t =>
    simp only [stepX, ht] at e
    split at e
    · cases e
    · split at e
      · cases e
      · simp only [Now.run.injEq] at e
        subst e
        exact ⟨h.inv.step p, h.once, fun i hi => step_registered p m (h.constructed i hi),
          fun i hi => ⟨(h.alive i hi).1, step_registered p m (h.alive i hi).2⟩⟩

end Storage

/-- **C111**: at every moment of every execution, the end of the program included, whatever initialisers and finalisers access
and whether or not initialisers throw: for each storage, initialiser and finaliser alternate, and no storage is destroyed
twice or without having been constructed. -/
theorem C111_alternate (p : Program) (ops last : List Storage.Op) (n : Nat) {x : Exit} (h : stepsX p n (begin ops last) = .run x) :
    LifeCycles x.m.trace ∧ x.dead.Nodup ∧ ∀ i ∈ x.dead, i ∈ x.m.registered := by
  have key : ∀ n s, (∀ y, s = .run y → ExitInv y) → ∀ x, stepsX p n s = .run x → ExitInv x := by
    intro n
    induction n with
    | zero => intro s hs x hx; exact hs x hx
    | succ n ih =>
      intro s hs x hx
      refine ih (stepX p s) ?_ x hx
      intro y hy
      cases s with
      | run z => exact (hs z rfl).step hy
      | fault => cases hy
      | terminated => cases hy
  have hx := key n _ (by
    intro y hy
    cases hy
    exact ⟨Inv.initial ops, List.nodup_nil, by simp, by simp⟩) x h
  refine ⟨?_, hx.once, hx.constructed⟩
  intro i hi
  obtain ⟨s, hs, _⟩ := hx.inv.flag i
  rw [hs] at hi; cases hi

/-! ## Examples -/
namespace Storage

/-- storage 0 uses storage 1 in its initialiser and in its finaliser -/
def needsOther : Program where
  init i := if i = 0 then [1] else []
  throws _ := false
  fin i := if i = 0 then [1] else []

/-- the hypotheses of `C111_violated` hold: a program that accesses storage 0 ends with undefined behaviour -/
example : ∃ k, stepsX needsOther k (begin [.access 0] []) = .fault :=
  C111_violated needsOther [.access 0] [] 8 (older := []) (newer := [1]) (rest := []) (i := 0) (j := 1) rfl rfl rfl rfl rfl
    (by simp) (by simp [needsOther])

/-- the same program, if it calls `FinalizeGlobalStorage`, ends properly -/
example : ∃ m k, stepsX needsOther k (begin [.access 0, .finalize] []) = .run ⟨m, m.registered, none, []⟩ := by
  have hc : Closed needsOther 2 := by
    refine ⟨?_, ?_, fun _ => rfl⟩ <;> intro i _ j hj <;> simp only [needsOther] at hj <;> split at hj <;> simp at hj <;> omega
  obtain ⟨n, m, h1, h2, h3⟩ := C111_finalized needsOther 2 hc [.access 0] [] (by simp)
  have hreg : m.registered = [0, 1] := by
    have hs : (steps needsOther 20 (initial [.access 0, .finalize])).todo = [] := rfl
    have stay : ∀ k (m : Machine), m.todo = [] → steps needsOther k m = m := by
      intro k
      induction k with
      | zero => intro m _; rfl
      | succ k ih => intro m hm; simp only [steps]; rw [show step needsOther m = m by unfold step; rw [hm]]; exact ih m hm
    have e : m = steps needsOther 20 (initial [.access 0, .finalize]) := by
      have a1 := steps_add needsOther n 20 (initial [.access 0, .finalize])
      have a2 := steps_add needsOther 20 n (initial [.access 0, .finalize])
      rw [Nat.add_comm] at a2
      rw [a2, stay n _ hs] at a1
      have h1' : steps needsOther n (initial [.access 0, .finalize]) = m := h1
      rw [h1', stay 20 m h2] at a1
      exact a1.symm
    rw [e]; rfl
  obtain ⟨k, hk⟩ := h3 (by
    rw [hreg]
    have hr : ∀ x, Reaches needsOther 1 x → x = 1 := by
      intro x hx
      cases hx with
      | refl => rfl
      | step hj _ => simp [needsOther] at hj
    intro k i hk j hj x hx
    match k, hk with
    | 0, hk =>
      simp only [List.getElem?_cons_zero, Option.some.injEq] at hk
      subst hk
      simp only [needsOther, if_true, List.mem_singleton] at hj
      subst hj
      rw [hr x hx]; simp
    | 1, hk =>
      simp only [List.getElem?_cons_succ, List.getElem?_cons_zero, Option.some.injEq] at hk
      subst hk
      simp [needsOther] at hj
    | k + 2, hk => simp at hk)
  exact ⟨m, k, hk⟩

/-- a program whose finalisers use older storages: storage 0 is accessed after storage 1 -/
example : ∃ k, stepsX needsOther k (begin [.access 1, .access 0] []) = .run ⟨⟨[1, 0], fun _ => false, [],
    [.start 1, .ready 1, .use 1, .start 0, .use 1, .ready 0, .use 0, .fin 0, .use 1, .fin 1]⟩, [1, 0], none, []⟩ := by
  obtain ⟨k, hk, _⟩ := C111_exit_partial needsOther [.access 1, .access 0] [] 20 rfl rfl (by
    have hr : (steps needsOther 20 (initial [.access 1, .access 0])).registered = [1, 0] := rfl
    intro older newer i hreg _ j hj
    rw [hr] at hreg
    simp only [needsOther] at hj
    split at hj
    · rename_i h0
      subst h0
      simp only [List.mem_singleton] at hj
      subst hj
      match older, hreg with
      | [], hreg => simp at hreg
      | [a], hreg => simp at hreg; obtain ⟨rfl, _⟩ := hreg; exact ⟨by simp, rfl⟩
      | a :: b :: c, hreg => simp at hreg
    · cases hj)
  exact ⟨k, hk⟩

/-- an exception of an initialiser that is called by a finaliser at the end of the program terminates it -/
example : ∃ k, stepsX ⟨fun _ => [], fun i => i == 1, fun i => if i = 0 then [1] else []⟩ k (begin [.access 0] []) = .terminated :=
  C111_terminated _ [.access 0] [] 8 (older := []) (newer := []) (rest := []) (i := 0) (j := 1) rfl rfl rfl rfl rfl
    (by simp [steps, step, initial, script]) rfl rfl (by simp)

/-- storages without finalisers, and a global variable whose destructor calls `FinalizeGlobalStorage` -/
example : ∃ k, stepsX ⟨fun _ => [], fun _ => false, fun _ => []⟩ k (begin [.access 0, .finalize] [.finalize]) = .fault :=
  C111_violated_global _ [.access 0, .finalize] [] 12 rfl rfl (by intro _ _ _ _ _ j hj; cases hj) (by
    simp [steps, step, initial, script, assign])

/-- without storages the same program is defined -/
example : ∃ m, stepsX ⟨fun _ => [], fun _ => false, fun _ => []⟩ 12 (begin [.finalize] [.finalize]) = .run ⟨m, [], none, []⟩ ∧
    m.todo = [] := ⟨_, rfl, rfl⟩

end Storage
end Vlpp
