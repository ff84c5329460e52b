import Verif.Spec.GlobalStorage

/-! # C51: life cycles of global storages -/
set_option autoImplicit false
namespace Vlpp
open Storage Spec

namespace Storage

theorem phase_go_append (i : Nat) (a b : List Event) : ∀ s, phase.go i s (a ++ b) = (phase.go i s a).bind fun s' => phase.go i s' b := by
  induction a with
  | nil => intro s; rfl
  | cons e a ih =>
    intro s
    cases e <;> simp only [List.cons_append, phase.go]
    all_goals (repeat split) <;> first | exact ih _ | rfl

theorem phase_snoc (i : Nat) (a : List Event) (e : Event) {s : Phase} (h : phase i a = some s) :
    phase i (a ++ [e]) = phase.go i s [e] := by
  unfold phase at *
  rw [phase_go_append, h]; rfl

theorem phase_snoc_other {i : Nat} {a : List Event} {e : Event}
    (he : (∃ j, j ≠ i ∧ (e = .start j ∨ e = .ready j ∨ e = .fin j)) ∨ ∃ j, e = .use j) :
    phase i (a ++ [e]) = phase i a := by
  cases h : phase i a with
  | none => unfold phase at *; rw [phase_go_append, h]; rfl
  | some s =>
    rw [phase_snoc i a e h]
    rcases he with ⟨j, hj, rfl | rfl | rfl⟩ | ⟨j, rfl⟩ <;> simp [phase.go, *]

/-- what is done only by the program or by `FinalizeGlobalStorage` -/
def Instr.Barrier : Instr → Prop
  | .finalize | .walk _ | .top => True
  | _ => False

/-- what belongs to an access that has begun -/
def Instr.Pending : Instr → Prop
  | .initEnd _ | .use _ => True
  | _ => False

/-- The invariant of all executions. -/
structure Inv (m : Machine) : Prop where
  /-- `initialized` tells whether the life of the storage has begun -/
  flag : ∀ i, ∃ s, phase i m.trace = some s ∧ (m.initialized i = false ↔ s = .absent)
  /-- initialisers that are running -/
  starting : ∀ i, .initEnd i ∈ m.todo → phase i m.trace = some .starting
  once : ∀ i, m.todo.count (.initEnd i) ≤ 1
  /-- accesses that have begun end before anything else begins -/
  nested : m.todo.Pairwise fun a b => a.Barrier → ¬ b.Pending
  /-- a storage that is going to be returned is initialised -/
  used : ∀ i, .use i ∈ m.todo → m.initialized i = true
  registered : ∀ i, m.initialized i = true → i ∈ m.registered

theorem script_noPending {ops : List Op} : ∀ x ∈ script ops, ¬ x.Pending := by
  induction ops with
  | nil => simp [script]
  | cons op ops ih =>
    intro x hx
    cases op <;> simp only [script, List.mem_cons] at hx <;> rcases hx with rfl | rfl | hx <;>
      first | exact ih x hx | simp [Instr.Pending]

theorem unwind_suffix (t : List Instr) : unwind t <:+ t := by
  induction t with
  | nil => exact List.suffix_refl _
  | cons x t ih =>
    cases x <;> simp only [unwind]
    all_goals first | exact List.suffix_cons _ _ | exact ih.trans (List.suffix_cons _ _)

theorem Inv.initial (ops : List Op) : Inv (initial ops) := by
  have h := script_noPending (ops := ops)
  constructor
  · intro i; exact ⟨.absent, rfl, by simp [Storage.initial]⟩
  · intro i hi; exact absurd trivial (h _ hi)
  · intro i
    have : Instr.initEnd i ∉ script ops := fun hi => absurd trivial (h _ hi)
    show List.count _ (script ops) ≤ 1
    rw [List.count_eq_zero_of_not_mem this]; omega
  · refine List.Pairwise.imp_of_mem (R := fun _ _ => True) ?_ (List.pairwise_of_forall fun _ _ => trivial)
    intro a b _ hb _ _
    exact h b hb
  · intro i hi; exact absurd trivial (h _ hi)
  · intro i hi; simp [Storage.initial] at hi

theorem access_mem_map {xs : List Nat} {x : Instr} (h : x ∈ xs.map Instr.access) : ∃ i, i ∈ xs ∧ x = .access i := by
  obtain ⟨i, hi, rfl⟩ := List.mem_map.1 h
  exact ⟨i, hi, rfl⟩

theorem access_not_pending {xs : List Nat} {x : Instr} (h : x ∈ xs.map Instr.access) : ¬ x.Pending ∧ ¬ x.Barrier := by
  obtain ⟨i, _, rfl⟩ := access_mem_map h
  simp [Instr.Pending, Instr.Barrier]

theorem count_access {xs : List Nat} {i : Nat} : (xs.map Instr.access).count (.initEnd i) = 0 := by
  rw [List.count_eq_zero]
  intro h
  exact (access_not_pending h).1 trivial

theorem mem_registered_if {r : List Nat} {i j : Nat} (h : j ∈ r ∨ j = i) : j ∈ if i ∈ r then r else r ++ [i] := by
  split
  · rcases h with h | rfl <;> assumption
  · simpa using h

/-- for steps that only remove things to do -/
theorem Inv.shrink {m : Machine} (hI : Inv m) {t : List Instr} (hs : t.Sublist m.todo) : Inv { m with todo := t } where
  flag := hI.flag
  starting := fun i hi => hI.starting i (hs.mem hi)
  once := fun i => Nat.le_trans (hs.count_le _) (hI.once i)
  nested := hI.nested.sublist hs
  used := fun i hi => hI.used i (hs.mem hi)
  registered := hI.registered

theorem Inv.step {m : Machine} (hI : Inv m) (p : Program) : Inv (step p m) := by
  obtain ⟨reg, ini, todo, trace⟩ := m
  cases todo with
  | nil => exact hI
  | cons x t =>
    have htail : t.Sublist (x :: t) := List.sublist_cons_self x t
    have hn := List.pairwise_cons.1 hI.nested
    cases x with
    | top => exact hI.shrink htail
    | finalize =>
      have h := hI.shrink htail
      refine ⟨h.flag, ?_, ?_, ?_, ?_, h.registered⟩
      · intro i hi; exact h.starting i (by simpa [Storage.step] using hi)
      · intro i; have := h.once i; simp only [Storage.step]; rw [List.count_cons_of_ne (by simp)]; exact this
      · exact List.pairwise_cons.2 ⟨fun b hb _ => hn.1 b hb trivial, hn.2⟩
      · intro i hi; exact h.used i (by simpa [Storage.step] using hi)
    | use i =>
      have h := hI.shrink htail
      have hp : ∀ j, phase j (trace ++ [.use i]) = phase j trace := fun j => phase_snoc_other (.inr ⟨i, rfl⟩)
      refine ⟨fun j => ?_, fun j hj => ?_, h.once, h.nested, h.used, h.registered⟩
      · simp only [Storage.step, hp]; exact h.flag j
      · simp only [Storage.step, hp]; exact h.starting j hj
    | initEnd i =>
      simp only [Storage.step]
      split
      · exact hI.shrink ((unwind_suffix t).sublist.trans htail)
      · have h := hI.shrink htail
        have hst := hI.starting i (by simp)
        have hp : ∀ j, j ≠ i → phase j (trace ++ [.ready i]) = phase j trace :=
          fun j hj => phase_snoc_other (.inl ⟨i, fun h => hj h.symm, by simp⟩)
        have hpi : phase i (trace ++ [.ready i]) = some .ready := by rw [phase_snoc i trace _ hst]; simp [phase.go]
        have hni : Instr.initEnd i ∉ t := by
          intro hm
          have h1 := hI.once i
          simp only [List.count_cons_self] at h1
          have := List.count_pos_iff.2 hm
          omega
        refine ⟨fun j => ?_, fun j hj => ?_, h.once, h.nested, h.used, h.registered⟩
        · by_cases hj : j = i
          · subst hj
            obtain ⟨s, hs, hf⟩ := hI.flag j
            have : s = .starting := by
              have h' : phase j trace = some s := hs
              have hst' : phase j trace = some .starting := hst
              rw [hst'] at h'; cases h'; rfl
            subst this
            exact ⟨.ready, hpi, by simpa using hf⟩
          · simp only [hp j hj]; exact h.flag j
        · have hj' : j ≠ i := by rintro rfl; exact hni hj
          simp only [hp j hj']; exact h.starting j hj
    | walk k =>
      simp only [Storage.step]
      have h := hI.shrink htail
      have hno : ∀ x ∈ t, ¬ x.Pending := fun b hb => hn.1 b hb trivial
      cases hk : reg[k]? with
      | none => exact h
      | some i =>
        simp only []
        split
        · rename_i hini
          have hpend : ∀ x ∈ (p.fin i).map Instr.access ++ .walk (k + 1) :: t, ¬ x.Pending := by
            intro x hx
            rcases List.mem_append.1 hx with hx | hx
            · exact (access_not_pending hx).1
            · rcases List.mem_cons.1 hx with rfl | hx
              · simp [Instr.Pending]
              · exact hno x hx
          refine ⟨fun j => ?_, ?_, ?_, ?_, ?_, ?_⟩
          · by_cases hj : j = i
            · subst hj
              obtain ⟨s, hs, hf⟩ := hI.flag j
              have hs' : s ≠ .absent := fun hc => by have := hf.2 hc; simp [hini] at this
              refine ⟨.absent, ?_, by simp [assign]⟩
              rw [phase_snoc j trace _ hs]; simp [phase.go, hs']
            · simp only [phase_snoc_other (.inl ⟨i, fun h => hj h.symm, by simp⟩ :
                (∃ j', j' ≠ j ∧ (Event.fin i = .start j' ∨ Event.fin i = .ready j' ∨ Event.fin i = .fin j')) ∨ ∃ j', Event.fin i = .use j')]
              simpa [assign, hj] using h.flag j
          · intro j hj; exact absurd trivial (hpend _ hj)
          · intro j
            rw [List.count_eq_zero_of_not_mem fun hj => hpend (.initEnd j) hj trivial]; omega
          · refine List.Pairwise.imp_of_mem (R := fun _ _ => True) ?_ (List.pairwise_of_forall fun _ _ => trivial)
            intro a b _ hb _ _
            exact hpend b hb
          · intro j hj; exact absurd trivial (hpend _ hj)
          · intro j hj
            refine h.registered j ?_
            simp only [assign] at hj
            split at hj
            · cases hj
            · exact hj
        · refine ⟨h.flag, ?_, ?_, ?_, ?_, h.registered⟩
          · intro j hj; exact h.starting j (by simpa using hj)
          · intro j; have := h.once j; rw [List.count_cons_of_ne (by simp)]; exact this
          · exact List.pairwise_cons.2 ⟨fun b hb _ => hno b hb, hn.2⟩
          · intro j hj; exact h.used j (by simpa using hj)
    | access i =>
      have h := hI.shrink htail
      simp only [Storage.step]
      split
      · rename_i hini
        obtain ⟨s, hs, hf⟩ := hI.flag i
        have hs' : s = .absent := hf.1 hini
        subst hs'
        have hpi : phase i (trace ++ [.start i]) = some .starting := by rw [phase_snoc i trace _ hs]; simp [phase.go]
        have hp : ∀ j, j ≠ i → phase j (trace ++ [.start i]) = phase j trace :=
          fun j hj => phase_snoc_other (.inl ⟨i, fun h => hj h.symm, by simp⟩)
        have hni : Instr.initEnd i ∉ t := by
          intro hm
          have := h.starting i hm
          simp only [] at this
          have hs2 : phase i trace = some .absent := hs
          rw [hs2] at this; cases this
        refine ⟨fun j => ?_, fun j hj => ?_, ?_, ?_, ?_, ?_⟩
        · by_cases hj : j = i
          · subst hj
            exact ⟨.starting, hpi, by simp [assign]⟩
          · simp only [hp j hj]
            simpa [assign, hj] using h.flag j
        · by_cases hj' : j = i
          · subst hj'; exact hpi
          · simp only [hp j hj']
            refine h.starting j ?_
            rcases List.mem_append.1 hj with hj | hj
            · exact absurd trivial (access_not_pending hj).1
            · simp at hj
              rcases hj with hj | hj
              · exact absurd hj hj'
              · exact hj
        · intro j
          have h1 := h.once j
          simp only [] at h1
          rw [List.count_append, count_access]
          by_cases hj : j = i
          · subst hj
            simp [List.count_eq_zero_of_not_mem hni]
          · rw [List.count_cons_of_ne (by simp; exact fun h => hj h.symm), List.count_cons_of_ne (by simp)]
            omega
        · simp only [List.pairwise_append]
          refine ⟨?_, ?_, ?_⟩
          · refine List.Pairwise.imp_of_mem (R := fun _ _ => True) ?_ (List.pairwise_of_forall fun _ _ => trivial)
            intro a b _ hb _ _ hq
            exact (access_not_pending hb).1 hq
          · exact List.pairwise_cons.2 ⟨fun _ _ hb => hb.elim, List.pairwise_cons.2 ⟨fun _ _ hb => hb.elim, hn.2⟩⟩
          · intro a ha b _ hb
            exact absurd hb (access_not_pending ha).2
        · intro j hj
          by_cases hj' : j = i
          · simp [assign, hj']
          · simp only [assign, hj', if_false]
            refine h.used j ?_
            rcases List.mem_append.1 hj with hj | hj
            · exact absurd trivial (access_not_pending hj).1
            · simp at hj
              rcases hj with hj | hj
              · exact absurd hj hj'
              · exact hj
        · intro j hj
          refine mem_registered_if ?_
          by_cases hj' : j = i
          · exact .inr hj'
          · simp only [assign, hj', if_false] at hj
            exact .inl (h.registered j hj)
      · rename_i hini
        have hini' : ini i = true := by simpa using hini
        refine ⟨h.flag, ?_, ?_, ?_, ?_, ?_⟩
        · intro j hj; exact h.starting j (by simpa using hj)
        · intro j; have := h.once j; rw [List.count_cons_of_ne (by simp)]; exact this
        · exact List.pairwise_cons.2 ⟨fun b hb hc => hc.elim, hn.2⟩
        · intro j hj
          simp only [List.mem_cons] at hj
          rcases hj with hj | hj
          · cases hj; exact hini'
          · exact h.used j hj
        · intro j hj; exact mem_registered_if (.inl (h.registered j hj))

theorem Inv.steps {p : Program} (n : Nat) : ∀ {m : Machine}, Inv m → Inv (steps p n m) := by
  induction n with
  | zero => intro m h; exact h
  | succ n ih => intro m h; exact ih (h.step p)

end Storage

/-- **C51**, first part.  At every moment of every execution, whatever initialisers and finalisers access and whether or not initialisers throw:
for each storage, initialiser and finaliser alternate, the finaliser runs once for each run of the initialiser, and a storage that is returned
is one whose initialiser has begun since it was last finalised. -/
theorem C51_alternate (p : Program) (ops : List Storage.Op) (n : Nat) :
    LifeCycles (steps p n (initial ops)).trace ∧
    ∀ i, ∃ s, phase i (steps p n (initial ops)).trace = some s ∧ ((steps p n (initial ops)).initialized i = true ↔ s ≠ .absent) := by
  have hI := (Inv.initial ops).steps (p := p) n
  constructor
  · intro i hi
    obtain ⟨s, hs, _⟩ := hI.flag i
    rw [hs] at hi; cases hi
  · intro i
    obtain ⟨s, hs, hf⟩ := hI.flag i
    refine ⟨s, hs, ?_⟩
    rw [Ne, ← hf]
    simp

namespace Storage

/-! ## Readiness -/

/-- the storage that something is about -/
def Instr.storage : Instr → Option Nat
  | .access i | .initEnd i | .use i => some i
  | _ => none

theorem usedWhenReady_snoc {t : List Event} {e : Event} (h : UsedWhenReady t) (he : ∀ i, e = .use i → phase i t = some .ready) :
    UsedWhenReady (t ++ [e]) := by
  intro a b i hab
  rcases List.eq_nil_or_concat b with rfl | ⟨b', x, rfl⟩
  · have := List.append_inj' hab rfl
    rw [← this.1]
    exact he i (by simpa using this.2)
  · have hab' : t ++ [e] = (a ++ .use i :: b') ++ [x] := by rw [hab]; simp
    have := List.append_inj' hab' rfl
    exact h a b' i this.1

/-- the invariant of executions with initialisers that do not throw and do not depend on themselves -/
structure ReadyInv (rank : Nat → Nat) (m : Machine) : Prop where
  inv : Inv m
  ranked : m.todo.Pairwise fun a b => ∀ j, b = .initEnd j → ∃ i, a.storage = some i ∧ rank i < rank j
  progress : ∀ i, m.initialized i = true → phase i m.trace = some .ready ∨ .initEnd i ∈ m.todo
  used : UsedWhenReady m.trace

theorem ReadyInv.step {rank : Nat → Nat} {m : Machine} (hR : ReadyInv rank m) {p : Program} (hth : ∀ i, p.throws i = false)
    (hac : ∀ i, ∀ j ∈ p.init i, rank j < rank i) : ReadyInv rank (step p m) := by
  have hI := hR.inv.step p
  refine ⟨hI, ?_, ?_, ?_⟩
  all_goals
    obtain ⟨reg, ini, todo, trace⟩ := m
    cases todo with
    | nil => first | exact hR.ranked | exact hR.progress | exact hR.used
    | cons x t => ?_
  · have hr := List.pairwise_cons.1 hR.ranked
    cases x with
    | top => exact hr.2
    | finalize =>
      refine List.pairwise_cons.2 ⟨?_, hr.2⟩
      intro b hb j hbj
      obtain ⟨_, h, _⟩ := hr.1 b hb j hbj
      cases h
    | use i => exact hr.2
    | initEnd i => simp only [Storage.step, hth]; exact hr.2
    | walk k =>
      have hno : ∀ b ∈ t, ∀ j, b ≠ .initEnd j := by
        intro b hb j hbj
        obtain ⟨_, h, _⟩ := hr.1 b hb j hbj
        cases h
      simp only [Storage.step]
      cases hk : reg[k]? with
      | none => exact hr.2
      | some i =>
        simp only []
        split
        · refine List.Pairwise.imp_of_mem (R := fun _ _ => True) ?_ (List.pairwise_of_forall fun _ _ => trivial)
          intro a b _ hb _ j hbj
          subst hbj
          rcases List.mem_append.1 hb with hb | hb
          · exact absurd trivial (access_not_pending hb).1
          · simp at hb
            exact absurd rfl (hno _ hb j)
        · exact List.pairwise_cons.2 ⟨fun b hb j hbj => absurd hbj (hno b hb j), hr.2⟩
    | access i =>
      have hi : ∀ b ∈ t, ∀ j, b = .initEnd j → rank i < rank j := by
        intro b hb j hbj
        obtain ⟨i', h, hlt⟩ := hr.1 b hb j hbj
        cases h
        exact hlt
      simp only [Storage.step]
      split
      · simp only [List.pairwise_append, List.pairwise_cons]
        refine ⟨?_, ⟨?_, ?_, hr.2⟩, ?_⟩
        · refine List.Pairwise.imp_of_mem (R := fun _ _ => True) ?_ (List.pairwise_of_forall fun _ _ => trivial)
          intro a b _ hb _ j hbj
          subst hbj
          exact absurd trivial (access_not_pending hb).1
        · intro b hb j hbj
          refine ⟨i, rfl, ?_⟩
          rcases List.mem_cons.1 hb with rfl | hb
          · cases hbj
          · exact hi b hb j hbj
        · intro b hb j hbj
          exact ⟨i, rfl, hi b hb j hbj⟩
        · intro a ha b hb j hbj
          obtain ⟨a', ha', rfl⟩ := access_mem_map ha
          have h1 := hac i a' ha'
          refine ⟨a', rfl, ?_⟩
          rcases List.mem_cons.1 hb with rfl | hb
          · cases hbj; exact h1
          · rcases List.mem_cons.1 hb with rfl | hb
            · cases hbj
            · exact Nat.lt_trans h1 (hi b hb j hbj)
      · exact List.pairwise_cons.2 ⟨fun b hb j hbj => ⟨i, rfl, hi b hb j hbj⟩, hr.2⟩
  · intro j hj
    have hpr : ini j = true → phase j trace = some .ready ∨ .initEnd j ∈ x :: t := hR.progress j
    cases x with
    | top => exact (hpr hj).imp id (by simp [Storage.step])
    | finalize => exact (hpr hj).imp id (by simp [Storage.step])
    | use i =>
      simp only [Storage.step]
      rw [phase_snoc_other (.inr ⟨i, rfl⟩)]
      exact (hpr hj).imp id (by simp)
    | initEnd i =>
      simp only [Storage.step, hth] at hj ⊢
      by_cases hji : j = i
      · subst hji
        left
        have hst := hR.inv.starting j (by simp)
        rw [if_neg (by simp)]
        show phase j (trace ++ [.ready j]) = _
        rw [phase_snoc j trace _ hst]; simp [phase.go]
      · rw [if_neg (by simp)] at hj ⊢
        simp only []
        rw [phase_snoc_other (.inl ⟨i, fun h => hji h.symm, by simp⟩)]
        refine (hpr hj).imp id ?_
        simp [hji]
    | walk k =>
      simp only [Storage.step] at hj ⊢
      cases hk : reg[k]? with
      | none => simp only [hk] at hj ⊢; exact (hpr hj).imp id (by simp)
      | some i =>
        simp only [hk] at hj ⊢
        split at hj
        · rename_i hini
          rw [if_pos hini]
          simp only [assign] at hj ⊢
          split at hj
          · cases hj
          · rename_i hji
            rw [phase_snoc_other (.inl ⟨i, fun h => hji h.symm, by simp⟩)]
            refine (hpr hj).imp id ?_
            intro h; simp at h; simp [h]
        · rename_i hini
          rw [if_neg hini]
          exact (hpr hj).imp id (by simp)
    | access i =>
      simp only [Storage.step] at hj ⊢
      split at hj
      · rename_i hini
        rw [if_pos hini]
        simp only [assign] at hj ⊢
        by_cases hji : j = i
        · subst hji; right; simp
        · rw [if_neg hji] at hj
          rw [phase_snoc_other (.inl ⟨i, fun h => hji h.symm, by simp⟩)]
          refine (hpr hj).imp id ?_
          intro h; simp at h; simp [h]
      · rename_i hini
        rw [if_neg hini]
        exact (hpr hj).imp id (by simp)
  · have hu : UsedWhenReady trace := hR.used
    cases x with
    | top => exact hu
    | finalize => exact hu
    | use i =>
      refine usedWhenReady_snoc hu ?_
      intro i' hi'
      cases hi'
      refine (hR.progress i (hR.inv.used i (by simp))).resolve_right ?_
      intro hm
      simp at hm
      obtain ⟨i', h, hlt⟩ := (List.pairwise_cons.1 hR.ranked).1 _ hm i rfl
      cases h
      omega
    | initEnd i =>
      simp only [Storage.step, hth]
      exact usedWhenReady_snoc hu (fun _ h => by cases h)
    | walk k =>
      simp only [Storage.step]
      split
      · exact hu
      · split
        · exact usedWhenReady_snoc hu (fun _ h => by cases h)
        · exact hu
    | access i =>
      simp only [Storage.step]
      split
      · exact usedWhenReady_snoc hu (fun _ h => by cases h)
      · exact hu

theorem ReadyInv.initial (rank : Nat → Nat) (ops : List Op) : ReadyInv rank (initial ops) := by
  refine ⟨Inv.initial ops, ?_, ?_, ?_⟩
  · refine List.Pairwise.imp_of_mem (R := fun _ _ => True) ?_ (List.pairwise_of_forall fun _ _ => trivial)
    intro a b _ hb _ j hbj
    subst hbj
    exact absurd trivial (script_noPending _ hb)
  · intro i hi; simp [Storage.initial] at hi
  · intro a b i h; simp [Storage.initial] at h

/-! ## The end of `FinalizeGlobalStorage` -/

theorem steps_add (p : Program) (a b : Nat) : ∀ m, steps p (a + b) m = steps p b (steps p a m) := by
  induction a with
  | zero => intro m; simp [steps]
  | succ a ih => intro m; rw [Nat.add_right_comm]; exact ih _

/-- `InitializeResource` of the first accesses the second, directly or through others -/
inductive Reaches (p : Program) : Nat → Nat → Prop
  | refl {i : Nat} : Reaches p i i
  | step {i j k : Nat} : j ∈ p.init i → Reaches p j k → Reaches p i k

/-- storages with numbers below `N`; initialisers do not throw -/
structure Closed (p : Program) (N : Nat) : Prop where
  init : ∀ i, i < N → ∀ j ∈ p.init i, j < N
  fin : ∀ i, i < N → ∀ j ∈ p.fin i, j < N
  throws : ∀ i, p.throws i = false

/-- the number of storages that are not initialised -/
def uninit (N : Nat) (f : Nat → Bool) : Nat := (List.range N).countP fun i => !f i

theorem uninit_le {N : Nat} {f g : Nat → Bool} (h : ∀ i, f i = true → g i = true) : uninit N g ≤ uninit N f := by
  refine List.countP_mono_left ?_
  intro i _ hi
  cases hf : f i with
  | false => rfl
  | true => rw [h i hf] at hi; cases hi

theorem uninit_assign {N i : Nat} {f : Nat → Bool} (hi : i < N) (hf : f i = false) : uninit N (assign f i true) < uninit N f := by
  unfold uninit
  induction N with
  | zero => omega
  | succ N ih =>
    simp only [List.range_succ, List.countP_append, List.countP_singleton]
    by_cases hN : i = N
    · subst hN
      have : List.countP (fun j => !assign f i true j) (List.range i) ≤ List.countP (fun j => !f j) (List.range i) := by
        refine List.countP_mono_left ?_
        intro j hj h
        have : j ≠ i := by have := List.mem_range.1 hj; omega
        simpa [assign, this] using h
      simp [assign, hf] at *
      omega
    · have := ih (by omega)
      have h2 : assign f i true N = f N := by simp [assign]; omega
      rw [h2]
      omega

/-- what accesses do -/
structure After (p : Program) (N : Nat) (xs : List Nat) (m m' : Machine) : Prop where
  grows : m.registered <+: m'.registered
  keeps : ∀ i, m.initialized i = true → m'.initialized i = true
  reached : ∀ i, m'.initialized i = true → m.initialized i = true ∨ ∃ j ∈ xs, Reaches p j i
  bounded : (∀ i ∈ m.registered, i < N) → ∀ i ∈ m'.registered, i < N
  nodup : m.registered.Nodup → m'.registered.Nodup

theorem register_nodup {r : List Nat} {i : Nat} (h : r.Nodup) : (if i ∈ r then r else r ++ [i]).Nodup := by
  split
  · exact h
  · rename_i hi
    rw [List.nodup_append]
    exact ⟨h, by simp, by intro a ha b hb; simp at hb; subst hb; exact fun h => hi (h ▸ ha)⟩

theorem register_prefix (r : List Nat) (i : Nat) : r <+: if i ∈ r then r else r ++ [i] := by
  split
  · exact List.prefix_refl _
  · exact List.prefix_append _ _

theorem register_bounded {r : List Nat} {i N : Nat} (hi : i < N) (h : ∀ j ∈ r, j < N) :
    ∀ j ∈ (if i ∈ r then r else r ++ [i]), j < N := by
  split
  · exact h
  · intro j hj
    rcases List.mem_append.1 hj with hj | hj
    · exact h j hj
    · simp at hj; omega

theorem run_accesses {p : Program} {N : Nat} (hp : Closed p N) : ∀ (u : Nat) (xs : List Nat) (m : Machine) (t : List Instr),
    uninit N m.initialized ≤ u → (∀ x ∈ xs, x < N) → m.todo = xs.map Instr.access ++ t →
    ∃ n, (steps p n m).todo = t ∧ After p N xs m (steps p n m) := by
  intro u
  induction u using Nat.strongRecOn with
  | ind u ihu =>
    intro xs
    induction xs with
    | nil =>
      intro m t _ _ ht
      exact ⟨0, ht, List.prefix_refl _, fun _ h => h, fun _ h => .inl h, fun h => h, fun h => h⟩
    | cons i xs ihx =>
      intro m t hu hx ht
      have hi : i < N := hx i (by simp)
      obtain ⟨reg, ini, todo, trace⟩ := m
      simp only [List.map_cons, List.cons_append] at ht
      subst ht
      cases hini : ini i with
      | true =>
        let m1 : Machine := ⟨if i ∈ reg then reg else reg ++ [i], ini, xs.map Instr.access ++ t, trace ++ [.use i]⟩
        have h1 : steps p 2 ⟨reg, ini, .access i :: (xs.map Instr.access ++ t), trace⟩ = m1 := by
          simp [steps, step, hini, m1]
        obtain ⟨n, h2, h3⟩ := ihx m1 t hu (fun x h => hx x (by simp [h])) rfl
        refine ⟨2 + n, ?_⟩
        rw [steps_add, h1]
        refine ⟨h2, (register_prefix reg i).trans h3.grows, h3.keeps, ?_, ?_, ?_⟩
        · intro j hj
          refine (h3.reached j hj).imp id ?_
          rintro ⟨a, ha, hr⟩
          exact ⟨a, by simp [ha], hr⟩
        · intro hb; exact h3.bounded (register_bounded hi hb)
        · intro hb; exact h3.nodup (register_nodup hb)
      | false =>
        let m1 : Machine := ⟨if i ∈ reg then reg else reg ++ [i], assign ini i true,
          (p.init i).map Instr.access ++ .initEnd i :: .use i :: (xs.map Instr.access ++ t), trace ++ [.start i]⟩
        have h1 : steps p 1 ⟨reg, ini, .access i :: (xs.map Instr.access ++ t), trace⟩ = m1 := by
          simp [steps, step, hini, m1]
        have hlt : uninit N m1.initialized < u := Nat.lt_of_lt_of_le (uninit_assign hi hini) hu
        obtain ⟨n1, h2, h3⟩ := ihu _ hlt (p.init i) m1 _ (Nat.le_refl _) (hp.init i hi) rfl
        generalize hm2 : steps p n1 m1 = m2 at h2 h3
        obtain ⟨reg2, ini2, todo2, trace2⟩ := m2
        simp only at h2
        subst h2
        let m3 : Machine := ⟨reg2, ini2, xs.map Instr.access ++ t, trace2 ++ [.ready i] ++ [.use i]⟩
        have h4 : steps p 2 ⟨reg2, ini2, .initEnd i :: .use i :: (xs.map Instr.access ++ t), trace2⟩ = m3 := by
          simp [steps, step, hp.throws, m3]
        have hu3 : uninit N m3.initialized < u := Nat.lt_of_le_of_lt (uninit_le h3.keeps) hlt
        obtain ⟨n2, h5, h6⟩ := ihu _ hu3 xs m3 t (Nat.le_refl _) (fun x h => hx x (by simp [h])) rfl
        refine ⟨1 + (n1 + (2 + n2)), ?_⟩
        rw [steps_add, h1, steps_add, hm2, steps_add, h4]
        refine ⟨h5, ((register_prefix reg i).trans h3.grows).trans h6.grows, ?_, ?_, ?_, ?_⟩
        · intro j hj
          refine h6.keeps j (h3.keeps j ?_)
          simp only [m1, assign]
          split
          · rfl
          · exact hj
        · intro j hj
          rcases h6.reached j hj with hj | ⟨a, ha, hr⟩
          · rcases h3.reached j hj with hj | ⟨a, ha, hr⟩
            · simp only [m1, assign] at hj
              split at hj
              · rename_i hji
                subst hji
                exact .inr ⟨j, by simp, .refl⟩
              · exact .inl hj
            · exact .inr ⟨i, by simp, .step ha hr⟩
          · exact .inr ⟨a, by simp [ha], hr⟩
        · intro hb; exact h6.bounded (h3.bounded (register_bounded hi hb))
        · intro hb; exact h6.nodup (h3.nodup (register_nodup hb))

/-- finalisers use only storages that are finalised later -/
def FinalisersInOrder (p : Program) (registered : List Nat) : Prop :=
  ∀ (k i : Nat), registered[k]? = some i → ∀ j ∈ p.fin i, ∀ x, Reaches p j x → x ∉ registered.take (k + 1)

theorem prefix_take {a b : List Nat} (h : a <+: b) {k : Nat} (hk : k ≤ a.length) : b.take k = a.take k := by
  obtain ⟨c, rfl⟩ := h
  rw [List.take_append_of_le_length hk]

theorem run_walk {p : Program} {N : Nat} (hp : Closed p N) : ∀ (d k : Nat) (m : Machine) (t : List Instr),
    N - k ≤ d → m.registered.Nodup → (∀ i ∈ m.registered, i < N) → m.todo = .walk k :: t →
    ∃ n, (steps p n m).todo = t ∧ m.registered <+: (steps p n m).registered ∧ (steps p n m).registered.Nodup ∧
      (∀ i ∈ (steps p n m).registered, i < N) ∧
      (FinalisersInOrder p (steps p n m).registered → (∀ i ∈ m.registered.take k, m.initialized i = false) →
        ∀ i ∈ (steps p n m).registered, (steps p n m).initialized i = false) := by
  intro d
  induction d with
  | zero =>
    intro k m t hd hnd hb ht
    obtain ⟨reg, ini, todo, trace⟩ := m
    simp only at ht hnd hb
    subst ht
    have hlen : reg.length ≤ N := by
      have := hnd.length_le_of_subset (l₂ := List.range N) (fun x hx => List.mem_range.2 (hb x hx))
      simpa using this
    have hk : reg[k]? = none := List.getElem?_eq_none (by omega)
    refine ⟨1, ?_⟩
    simp only [steps, step, hk]
    refine ⟨trivial, List.prefix_refl _, hnd, hb, ?_⟩
    intro _ h i hi
    exact h i (by rw [List.take_of_length_le (by omega)]; exact hi)
  | succ d ih =>
    intro k m t hd hnd hb ht
    obtain ⟨reg, ini, todo, trace⟩ := m
    simp only at ht hnd hb
    subst ht
    cases hk : reg[k]? with
    | none =>
      have hlen : reg.length ≤ k := List.getElem?_eq_none_iff.1 hk
      refine ⟨1, ?_⟩
      simp only [steps, step, hk]
      refine ⟨trivial, List.prefix_refl _, hnd, hb, ?_⟩
      intro _ h i hi
      exact h i (by rw [List.take_of_length_le hlen]; exact hi)
    | some i =>
      have hklt : k < reg.length := (List.getElem?_eq_some_iff.1 hk).1
      have hik : reg[k] = i := (List.getElem?_eq_some_iff.1 hk).2
      have htake : reg.take (k + 1) = reg.take k ++ [i] := by rw [List.take_add_one, hk]; rfl
      have hiN : i < N := hb i (List.mem_of_getElem? hk)
      cases hini : ini i with
      | false =>
        let m1 : Machine := ⟨reg, ini, .walk (k + 1) :: t, trace⟩
        have h1 : steps p 1 ⟨reg, ini, .walk k :: t, trace⟩ = m1 := by simp [steps, step, hk, hini, m1]
        obtain ⟨n, h2, h3, h4, h5, h6⟩ := ih (k + 1) m1 t (by omega) hnd hb rfl
        refine ⟨1 + n, ?_⟩
        rw [steps_add, h1]
        refine ⟨h2, h3, h4, h5, fun hf hz => h6 hf ?_⟩
        intro j hj
        simp only [m1] at hj ⊢
        rw [htake] at hj
        rcases List.mem_append.1 hj with hj | hj
        · exact hz j hj
        · simp at hj; subst hj; exact hini
      | true =>
        let m1 : Machine := ⟨reg, assign ini i false, (p.fin i).map Instr.access ++ .walk (k + 1) :: t, trace ++ [.fin i]⟩
        have h1 : steps p 1 ⟨reg, ini, .walk k :: t, trace⟩ = m1 := by simp [steps, step, hk, hini, m1]
        obtain ⟨n1, h2, h3⟩ := run_accesses hp _ (p.fin i) m1 _ (Nat.le_refl _) (hp.fin i hiN) rfl
        obtain ⟨n2, h4, h5, h6, h7, h8⟩ := ih (k + 1) (steps p n1 m1) t (by omega) (h3.nodup hnd) (h3.bounded hb) h2
        refine ⟨1 + (n1 + n2), ?_⟩
        rw [steps_add, h1, steps_add]
        have hpre : reg <+: (steps p n2 (steps p n1 m1)).registered := h3.grows.trans h5
        refine ⟨h4, hpre, h6, h7, fun hf hz => h8 hf ?_⟩
        intro j hj
        rw [prefix_take h3.grows hklt] at hj
        simp only [m1] at hj
        cases hc : (steps p n1 m1).initialized j with
        | false => rfl
        | true =>
          exfalso
          rcases h3.reached j hc with hc | ⟨a, ha, hr⟩
          · simp only [m1, assign] at hc
            split at hc
            · cases hc
            · rename_i hji
              rw [htake] at hj
              rcases List.mem_append.1 hj with hj | hj
              · have := hz j hj
                simp only at this
                rw [this] at hc; cases hc
              · simp at hj; exact hji hj
          · have hkF : (steps p n2 (steps p n1 m1)).registered[k]? = some i := by
              obtain ⟨c, hc⟩ := hpre
              rw [← hc, List.getElem?_append_left hklt]; exact hk
            refine hf k i hkF a ha j hr ?_
            rw [prefix_take hpre hklt]; exact hj

/-- what holds between operations -/
structure Between (N : Nat) (m : Machine) : Prop where
  nodup : m.registered.Nodup
  bounded : ∀ i ∈ m.registered, i < N

theorem run_op {p : Program} {N : Nat} (hp : Closed p N) {op : Op} (hop : ∀ i, op = .access i → i < N) {m : Machine} (hb : Between N m)
    {ops : List Op} (ht : m.todo = script (op :: ops)) : ∃ n, (steps p n m).todo = script ops ∧ Between N (steps p n m) := by
  obtain ⟨reg, ini, todo, trace⟩ := m
  simp only at ht
  subst ht
  have htop : ∀ m' : Machine, m'.todo = .top :: script ops → steps p 1 m' = { m' with todo := script ops } := by
    intro m' h
    simp only [steps, step, h]
  cases op with
  | access i =>
    obtain ⟨n, h1, h2⟩ := run_accesses hp _ [i] ⟨reg, ini, script (.access i :: ops), trace⟩ (.top :: script ops) (Nat.le_refl _)
      (by intro x hx; simp at hx; subst hx; exact hop x rfl) rfl
    refine ⟨n + 1, ?_⟩
    rw [steps_add, htop _ h1]
    exact ⟨rfl, h2.nodup hb.nodup, h2.bounded hb.bounded⟩
  | finalize =>
    obtain ⟨n, h1, _, h2, h3, _⟩ := run_walk hp N 0 ⟨reg, ini, .walk 0 :: .top :: script ops, trace⟩ (.top :: script ops) (by omega)
      hb.nodup hb.bounded rfl
    refine ⟨1 + (n + 1), ?_⟩
    have h0 : steps p 1 ⟨reg, ini, script (.finalize :: ops), trace⟩ = ⟨reg, ini, .walk 0 :: .top :: script ops, trace⟩ := rfl
    rw [steps_add, h0, steps_add, htop _ h1]
    exact ⟨rfl, h2, h3⟩

theorem run_ops {p : Program} {N : Nat} (hp : Closed p N) {rest : List Op} (ops : List Op) : ∀ {m : Machine}, Between N m →
    (∀ i, Op.access i ∈ ops → i < N) → m.todo = script (ops ++ rest) →
    ∃ n, (steps p n m).todo = script rest ∧ Between N (steps p n m) := by
  induction ops with
  | nil => intro m hb _ ht; exact ⟨0, ht, hb⟩
  | cons op ops ih =>
    intro m hb hops ht
    obtain ⟨n1, h1, hb1⟩ := run_op hp (op := op) (fun i hi => hops i (by simp [hi])) hb ht
    obtain ⟨n2, h2, hb2⟩ := ih hb1 (fun i hi => hops i (by simp [hi])) h1
    refine ⟨n1 + n2, ?_⟩
    rw [steps_add]
    exact ⟨h2, hb2⟩

end Storage

/-- **C51**, partial.  A storage is returned only when its initialiser has completed, and has not been finalised since, at every moment of every history,
if initialisers do not throw and no initialiser needs its own storage (`rank` orders them).

Missing: see `C51_violated_throws` and `C51_violated_cycle`. -/
theorem C51_ready_partial (p : Program) (rank : Nat → Nat) (hth : ∀ i, p.throws i = false)
    (hac : ∀ i, ∀ j ∈ p.init i, rank j < rank i) (ops : List Storage.Op) (n : Nat) :
    UsedWhenReady (steps p n (initial ops)).trace := by
  have h : ∀ n m, ReadyInv rank m → ReadyInv rank (steps p n m) := by
    intro n
    induction n with
    | zero => intro m h; exact h
    | succ n ih => intro m h; exact ih _ (h.step hth hac)
  exact (h n _ (ReadyInv.initial rank ops)).used

/-- **C51**: every history of accesses and of calls of `FinalizeGlobalStorage` ends, whatever initialisers and finalisers access, if
initialisers do not throw. -/
theorem C51_terminates (p : Program) (N : Nat) (hp : Closed p N) (ops : List Storage.Op) (hops : ∀ i, Storage.Op.access i ∈ ops → i < N) :
    ∃ n, (steps p n (initial ops)).todo = [] := by
  obtain ⟨n, h, _⟩ := run_ops hp (rest := []) ops (m := initial ops) ⟨by simp [initial], by simp [initial]⟩ hops (by simp [initial])
  exact ⟨n, h⟩

/-- **C51**, partial.  When `FinalizeGlobalStorage` returns, in every history, no storage is initialised and each storage that was initialised has been finalised,
if finalisers use only storages that have been accessed for the first time after their own.

Missing: see `C51_violated_finaliser`. -/
theorem C51_finalized_partial (p : Program) (N : Nat) (hp : Closed p N) (ops : List Storage.Op)
    (hops : ∀ i, Storage.Op.access i ∈ ops → i < N) :
    ∃ n, (steps p n (initial (ops ++ [.finalize]))).todo = [] ∧
      (FinalisersInOrder p (steps p n (initial (ops ++ [.finalize]))).registered → ∀ i,
        (steps p n (initial (ops ++ [.finalize]))).initialized i = false ∧
        phase i (steps p n (initial (ops ++ [.finalize]))).trace = some .absent) := by
  obtain ⟨n1, h1, hb⟩ := run_ops hp (rest := [.finalize]) ops (m := initial (ops ++ [.finalize]))
    ⟨by simp [initial], by simp [initial]⟩ hops rfl
  generalize hm : steps p n1 (initial (ops ++ [.finalize])) = m at h1 hb
  have hstep : steps p 1 m = { m with todo := [.walk 0, .top] } := by
    simp only [steps, step, h1, script]
  obtain ⟨n2, h2, _, h3, h4, h5⟩ := run_walk hp N 0 { m with todo := [.walk 0, .top] } [.top] (by omega) hb.nodup hb.bounded rfl
  generalize hm2 : steps p n2 { m with todo := [.walk 0, .top] } = m2 at h2 h3 h4 h5
  have hlast : steps p 1 m2 = { m2 with todo := [] } := by simp only [steps, step, h2]
  have hall : steps p (n1 + (1 + (n2 + 1))) (initial (ops ++ [.finalize])) = { m2 with todo := [] } := by
    rw [steps_add, hm, steps_add, hstep, steps_add, hm2, hlast]
  have hI := (Inv.initial (ops ++ [.finalize])).steps (p := p) (n1 + (1 + (n2 + 1)))
  refine ⟨n1 + (1 + (n2 + 1)), ?_⟩
  rw [hall] at hI ⊢
  refine ⟨rfl, fun hf i => ?_⟩
  have hi : m2.initialized i = false := by
    cases hc : m2.initialized i with
    | false => rfl
    | true =>
      have := h5 hf (by simp) i (hI.registered i hc)
      rw [this] at hc; cases hc
  refine ⟨hi, ?_⟩
  obtain ⟨s, hs, hf'⟩ := hI.flag i
  rw [hf'.1 hi] at hs
  exact hs

/-- **C51** is violated: when the finaliser of `i` uses a storage `j` that was accessed for the first time before `i`, then `j` is initialised after
`FinalizeGlobalStorage`, for all storages and whatever else there is. -/
theorem C51_violated_finaliser (p : Program) (i j : Nat) (hij : i ≠ j) (hi : p.init i = []) (hj : p.init j = []) (hfi : p.fin i = [j])
    (hfj : p.fin j = []) (hth : ∀ i, p.throws i = false) :
    (steps p 16 (initial [.access j, .access i, .finalize])).todo = [] ∧
    (steps p 16 (initial [.access j, .access i, .finalize])).initialized j = true ∧
    (steps p 16 (initial [.access j, .access i, .finalize])).trace =
      [.start j, .ready j, .use j, .start i, .ready i, .use i, .fin j, .fin i, .start j, .ready j, .use j] := by
  have hji : j ≠ i := fun h => hij h.symm
  simp [steps, step, initial, script, hi, hj, hfi, hfj, hth, assign, hij, hji]

/-- **C51** is violated: a storage whose initialiser has thrown is returned by the next access without having been initialised. -/
theorem C51_violated_throws (p : Program) (i : Nat) (hi : p.init i = []) (hth : p.throws i = true) :
    (steps p 5 (initial [.access i, .access i])).trace = [.start i, .use i] ∧
    ¬ UsedWhenReady (steps p 5 (initial [.access i, .access i])).trace := by
  have h : (steps p 5 (initial [.access i, .access i])).trace = [.start i, .use i] := by
    simp [steps, step, initial, script, hi, hth, assign, unwind]
  refine ⟨h, fun hu => ?_⟩
  have := hu [.start i] [] i (by rw [h]; rfl)
  simp [phase, phase.go] at this

/-- **C51** is violated: two storages whose initialisers need each other. -/
theorem C51_violated_cycle (p : Program) (i j : Nat) (hij : i ≠ j) (hi : p.init i = [j]) (hj : p.init j = [i]) :
    (steps p 4 (initial [.access i])).trace = [.start i, .start j, .use i] ∧
    ¬ UsedWhenReady (steps p 4 (initial [.access i])).trace := by
  have hji : j ≠ i := fun h => hij h.symm
  have h : (steps p 4 (initial [.access i])).trace = [.start i, .start j, .use i] := by
    simp [steps, step, initial, script, hi, hj, assign, hij, hji]
  refine ⟨h, fun hu => ?_⟩
  have := hu [.start i, .start j] [] i (by rw [h]; rfl)
  simp [phase, phase.go, hji] at this

/-! Non-vacuity: storage 0 needs 1 and 2, 1 needs 2; finalisers use what initialisers use.  The hypotheses of the three theorems hold. -/
namespace Storage
/-- three storages -/
def exampleProgram : Program where
  init i := match i with | 0 => [1, 2] | 1 => [2] | _ => []
  throws _ := false
  fin i := match i with | 0 => [1, 2] | 1 => [2] | _ => []

example : Closed exampleProgram 3 := by
  constructor
  · intro i hi j hj; match i, hi with | 0, _ | 1, _ | 2, _ => simp [exampleProgram] at hj <;> omega
  · intro i hi j hj; match i, hi with | 0, _ | 1, _ | 2, _ => simp [exampleProgram] at hj <;> omega
  · intro i; rfl

example : ∀ i, ∀ j ∈ exampleProgram.init i, 3 - j < 3 - i := by
  intro i j hj
  match i with
  | 0 | 1 | _ + 2 => simp [exampleProgram] at hj <;> omega

theorem example_reaches {a b : Nat} (h : Reaches exampleProgram a b) : a ≤ b := by
  induction h with
  | refl => exact Nat.le_refl _
  | @step i j k hj _ ih =>
    refine Nat.le_trans ?_ ih
    match i with
    | 0 | 1 | _ + 2 => simp [exampleProgram] at hj <;> omega

example : (steps exampleProgram 30 (initial ([.access 0] ++ [.finalize]))).registered = [0, 1, 2] ∧
    FinalisersInOrder exampleProgram [0, 1, 2] ∧
    (steps exampleProgram 30 (initial ([.access 0] ++ [.finalize]))).trace =
      [.start 0, .start 1, .start 2, .ready 2, .use 2, .ready 1, .use 1, .use 2, .ready 0, .use 0, .fin 0, .use 1, .use 2, .fin 1, .use 2, .fin 2] := by
  refine ⟨by decide, ?_, by decide⟩
  intro k i hk j hj x hr
  have := example_reaches hr
  match k, hk with
  | 0, hk | 1, hk | 2, hk => simp at hk; subst hk; simp [exampleProgram] at hj <;> simp <;> omega
end Storage

end Vlpp
