import Verif.Model.CollRef
import Mathlib.Data.List.Count

/-!
# Counters of collection references

`Counted w temps`: every counter is the number of `Ptr`s that refer to the object, `temps` being those that are not a
variable or a `colref`.
-/
set_option autoImplicit false
namespace Vlpp.CollRef
variable {T U : Type}

/-- `colref` of a collection is the reference `r` -/
def Phase.has (r : Nat) : Phase → Bool
  | .gone => false
  | .alive q => q == some r
  | .dying q => q == some r

/-- `Ptr`s that refer to `r` -/
def held (w : World T) (r : Nat) : Nat := w.vars.count (some r) + w.colls.countP (Phase.has r)

/-- `n r` is the counter of `r`, an object whose counter is 0 is deleted -/
structure Cnt (refs : List (T × Option Nat)) (dels : List Nat) (n : Nat → Nat) : Prop where
  value : ∀ r t c, refs[r]? = some (t, c) → (n r = 0 ∧ c = none) ∨ (0 < n r ∧ c = some (n r))
  inside : ∀ r, 0 < n r → r < refs.length
  nodup : dels.Nodup
  deleted : ∀ r, r ∈ dels ↔ r < refs.length ∧ n r = 0

def Counted (w : World T) (temps : List (Option Nat)) : Prop :=
  Cnt w.refs w.deletions (fun r => held w r + temps.count (some r))

theorem names_set {refs : List (T × Option Nat)} {r : Nat} {t : T} {c : Option Nat} (e : refs[r]? = some (t, c)) (x : Option Nat) :
    (refs.set r (t, x)).map Prod.fst = refs.map Prod.fst := by
  rw [List.map_set]
  apply List.ext_getElem?
  intro i
  have lt : r < refs.length := (List.getElem?_eq_some_iff.1 e).1
  by_cases hi : i = r
  · subst hi
    rw [List.getElem?_set_self (by simpa using lt), List.getElem?_map, e]
    rfl
  · rw [List.getElem?_set_ne (Ne.symm hi)]

theorem Cnt.live {refs : List (T × Option Nat)} {dels : List Nat} {n : Nat → Nat} (h : Cnt refs dels n) {r : Nat}
    (pos : 0 < n r) : ∃ t, refs[r]? = some (t, some (n r)) := by
  have lt := h.inside r pos
  obtain ⟨⟨t, c⟩, e⟩ : ∃ x, refs[r]? = some x := ⟨_, List.getElem?_eq_getElem lt⟩
  rcases h.value r t c e with ⟨z, _⟩ | ⟨_, ec⟩
  · omega
  · exact ⟨t, by rw [e, ec]⟩

/-- the counter of a living object changes, and does not become 0 -/
theorem Cnt.change {refs : List (T × Option Nat)} {dels : List Nat} {n n' : Nat → Nat} (h : Cnt refs dels n) {r : Nat}
    (pos : 0 < n r) (pos' : 0 < n' r) (same : ∀ i, i ≠ r → n' i = n i) {t : T} : Cnt (refs.set r (t, some (n' r))) dels n' := by
  have lt := h.inside r pos
  refine ⟨?_, ?_, h.nodup, ?_⟩
  · intro i t' c' e
    by_cases hi : i = r
    · subst hi
      rw [List.getElem?_set_self lt] at e
      simp only [Option.some.injEq, Prod.mk.injEq] at e
      exact .inr ⟨pos', e.2.symm⟩
    · rw [List.getElem?_set_ne (Ne.symm hi)] at e
      rw [same i hi]
      exact h.value i t' c' e
  · intro i e
    rw [List.length_set]
    by_cases hi : i = r
    · subst hi; exact lt
    · exact h.inside i (by rw [← same i hi]; exact e)
  · intro i
    rw [List.length_set, h.deleted i]
    by_cases hi : i = r
    · subst hi; omega
    · rw [same i hi]

/-- the counter of a living object becomes 0 -/
theorem Cnt.delete {refs : List (T × Option Nat)} {dels : List Nat} {n n' : Nat → Nat} (h : Cnt refs dels n) {r : Nat}
    (pos : 0 < n r) (zero : n' r = 0) (same : ∀ i, i ≠ r → n' i = n i) {t : T} :
    Cnt (refs.set r (t, none)) (dels ++ [r]) n' := by
  have lt := h.inside r pos
  refine ⟨?_, ?_, ?_, ?_⟩
  · intro i t' c' e
    by_cases hi : i = r
    · subst hi
      rw [List.getElem?_set_self lt] at e
      simp only [Option.some.injEq, Prod.mk.injEq] at e
      exact .inl ⟨zero, e.2.symm⟩
    · rw [List.getElem?_set_ne (Ne.symm hi)] at e
      rw [same i hi]
      exact h.value i t' c' e
  · intro i e
    rw [List.length_set]
    by_cases hi : i = r
    · subst hi; exact lt
    · exact h.inside i (by rw [← same i hi]; exact e)
  · refine List.nodup_append.2 ⟨h.nodup, by simp, ?_⟩
    intro a ha b hb
    simp only [List.mem_singleton] at hb
    subst hb
    rintro rfl
    have := ((h.deleted a).1 ha).2
    omega
  · intro i
    rw [List.length_set, List.mem_append, List.mem_singleton, h.deleted i]
    by_cases hi : i = r
    · subst hi
      simp [lt, zero]
    · rw [same i hi]
      simp [hi]

theorem Cnt.congr {refs : List (T × Option Nat)} {dels : List Nat} {n n' : Nat → Nat} (h : Cnt refs dels n)
    (same : ∀ i, n' i = n i) : Cnt refs dels n' := by
  have : n' = n := funext same
  rw [this]
  exact h

/-- only what refers to what matters -/
theorem Counted.congr {w w' : World T} {temps temps' : List (Option Nat)} (h : Counted w temps)
    (er : w'.refs = w.refs) (ed : w'.deletions = w.deletions)
    (eh : ∀ r, held w' r + temps'.count (some r) = held w r + temps.count (some r)) : Counted w' temps' := by
  unfold Counted
  rw [er, ed]
  exact Cnt.congr h eh

theorem inc_ok {w : World T} {temps : List (Option Nat)} (h : Counted w temps) {p : Option Nat}
    (hp : ∀ r, p = some r → 0 < held w r + temps.count (some r)) :
    ∃ refs, inc p w = some { w with refs := refs } ∧ refs.map Prod.fst = w.refs.map Prod.fst
      ∧ Counted { w with refs := refs } (p :: temps) := by
  cases p with
  | none => exact ⟨w.refs, rfl, rfl, h.congr rfl rfl (by simp [held])⟩
  | some r =>
    obtain ⟨t, e⟩ := Cnt.live h (hp r rfl)
    refine ⟨w.refs.set r (t, some (held w r + temps.count (some r) + 1)), by simp only [inc, e], names_set e _, ?_⟩
    have := Cnt.change (n' := fun i => held w i + (some r :: temps).count (some i)) (t := t) h (hp r rfl)
      (by simp only [List.count_cons_self]; omega)
      (by intro i hi; rw [List.count_cons_of_ne (by simpa using fun x => hi x.symm)])
    simp only [List.count_cons_self, ← Nat.add_assoc] at this
    exact this

theorem dec_ok {w : World T} {temps : List (Option Nat)} {p : Option Nat} (h : Counted w (p :: temps)) :
    ∃ refs dels, dec p w = some { w with refs := refs, deletions := dels } ∧ refs.map Prod.fst = w.refs.map Prod.fst
      ∧ Counted { w with refs := refs, deletions := dels } temps := by
  cases p with
  | none => exact ⟨w.refs, w.deletions, rfl, rfl, h.congr rfl rfl (by simp [held])⟩
  | some r =>
    have pos : 0 < held w r + (some r :: temps).count (some r) := by rw [List.count_cons_self]; omega
    obtain ⟨t, e⟩ := Cnt.live h pos
    have same : ∀ i, i ≠ r → held w i + temps.count (some i) = held w i + (some r :: temps).count (some i) := by
      intro i hi
      rw [List.count_cons_of_ne (by simpa using fun x => hi x.symm)]
    have one : held w r + (some r :: temps).count (some r) - 1 = held w r + temps.count (some r) := by
      rw [List.count_cons_self]; omega
    by_cases z : held w r + temps.count (some r) = 0
    · refine ⟨w.refs.set r (t, none), w.deletions ++ [r], ?_, names_set e _, Cnt.delete h pos z same⟩
      simp only [dec, e]
      rw [one, if_pos z]
    · refine ⟨w.refs.set r (t, some (held w r + temps.count (some r))), w.deletions, ?_, names_set e _,
        Cnt.change (n' := fun i => held w i + temps.count (some i)) h pos (by omega) same⟩
      simp only [dec, e]
      rw [one, if_neg z]

theorem count_put {vars : List (Option Nat)} {v : Nat} {old : Option Nat} (e : vars[v]? = some old) (p : Option Nat) (r : Nat) :
    (vars.set v p).count (some r) + [old].count (some r) = vars.count (some r) + [p].count (some r) := by
  have lt : v < vars.length := (List.getElem?_eq_some_iff.1 e).1
  have eo : vars[v] = old := (List.getElem?_eq_some_iff.1 e).2
  rw [List.count_set lt, eo]
  have pos : old = some r → 0 < vars.count (some r) := by
    intro h
    exact List.count_pos_iff.2 (h ▸ eo ▸ List.getElem_mem lt)
  simp only [List.count_singleton, beq_iff_eq]
  split
  · rename_i h
    have := pos h
    split <;> omega
  · split <;> omega

theorem countP_put {colls : List Phase} {c : Nat} {old : Phase} (e : colls[c]? = some old) (p : Phase) (r : Nat) :
    (colls.set c p).countP (Phase.has r) + (if old.has r then 1 else 0)
      = colls.countP (Phase.has r) + (if p.has r then 1 else 0) := by
  have lt : c < colls.length := (List.getElem?_eq_some_iff.1 e).1
  have eo : colls[c] = old := (List.getElem?_eq_some_iff.1 e).2
  rw [List.countP_set lt, eo]
  have pos : old.has r = true → 0 < colls.countP (Phase.has r) := by
    intro h
    exact List.countP_pos_iff.2 ⟨_, List.getElem_mem lt, by rw [eo]; exact h⟩
  split
  · rename_i h
    have := pos h
    split <;> omega
  · split <;> omega

/-- `v = move(temp)` -/
theorem moveTo_ok {w : World T} {temps : List (Option Nat)} {p : Option Nat} (h : Counted w (p :: temps)) {v : Nat}
    (lt : v < w.vars.length) :
    ∃ refs dels, moveTo v p w = some { w with refs := refs, deletions := dels, vars := w.vars.set v p }
      ∧ refs.map Prod.fst = w.refs.map Prod.fst
      ∧ Counted { w with refs := refs, deletions := dels, vars := w.vars.set v p } temps := by
  have e : w.vars[v]? = some w.vars[v] := List.getElem?_eq_getElem lt
  have h' : Counted { w with vars := w.vars.set v p } (w.vars[v] :: temps) := by
    refine h.congr rfl rfl ?_
    intro r
    have := count_put e p r
    simp only [held]
    rw [List.count_cons, List.count_cons]
    simp only [List.count_singleton] at this
    omega
  obtain ⟨refs, dels, ed, names, hc⟩ := dec_ok h'
  refine ⟨refs, dels, ?_, names, hc⟩
  have ed' : dec w.vars[v] w = some { w with refs := refs, deletions := dels } := by
    cases q : w.vars[v] with
    | none =>
      rw [q] at ed
      simp only [dec, Option.some.injEq, World.mk.injEq] at ed ⊢
      cases w
      simp_all
    | some r =>
      rw [q] at ed
      simp only [dec] at ed ⊢
      split at ed
      · split at ed
        · rename_i z
          rw [if_pos z]
          simp only [Option.some.injEq, World.mk.injEq] at ed ⊢
          simp_all
        · rename_i z
          rw [if_neg z]
          simp only [Option.some.injEq, World.mk.injEq] at ed ⊢
          simp_all
      · cases ed
  simp only [moveTo, e, ed', Option.map_some]

/-- what a program sees -/
def abs (w : World T) : Spec.CollRef.World T := ⟨w.vars, w.colls, w.refs.map Prod.fst, w.stack, w.disposals, w.links⟩

theorem held_var {w : World T} {v r : Nat} (e : w.vars[v]? = some (some r)) : 0 < held w r := by
  have : 0 < w.vars.count (some r) := List.count_pos_iff.2 (List.mem_of_getElem? e)
  unfold held
  omega

theorem held_coll {w : World T} {c r : Nat} {q : Phase} (e : w.colls[c]? = some q) (hq : q.has r = true) : 0 < held w r := by
  have : 0 < w.colls.countP (Phase.has r) := List.countP_pos_iff.2 ⟨q, List.mem_of_getElem? e, hq⟩
  unfold held
  omega

theorem held_colref {w : World T} {c r : Nat} (e : colref w c = some (some r)) : 0 < held w r := by
  unfold colref at e
  split at e
  · rename_i q eq
    cases e
    exact held_coll eq (by simp [Phase.has])
  · rename_i q eq
    cases e
    exact held_coll eq (by simp [Phase.has])
  · cases e

/-- the collections that are being destroyed are those whose `OnDisposed` is running, and the calls of `OnDisposed` are what
was associated to collections that are destroyed -/
structure Ordered (w : Spec.CollRef.World T) : Prop where
  stack : ∀ c, c ∈ w.stack ↔ ∃ q, w.colls[c]? = some (.dying q)
  nodup : w.stack.Nodup
  alive : ∀ c r, w.colls[c]? = some (.alive (some r)) → (r, c) ∈ w.links
  dying : ∀ c q, w.colls[c]? = some (.dying q) → ∃ r, q = some r ∧ (r, c) ∈ w.disposals
  disposed : ∀ r c, (r, c) ∈ w.disposals → (w.colls[c]? = some .gone ∨ w.colls[c]? = some (.dying (some r))) ∧ (r, c) ∈ w.links
  linked : ∀ r c, (r, c) ∈ w.links → w.colls[c]? = some (.alive (some r)) ∨ (r, c) ∈ w.disposals
  once : (w.disposals.map Prod.snd).Nodup
  single : (w.links.map Prod.snd).Nodup

theorem step_ok (casts : T → U → Bool) {w : World T} (h : Counted w []) (ho : Ordered (abs w)) (op : Op T U) :
    (step casts w op = none ∧ Spec.CollRef.step casts (abs w) op = none)
    ∨ ∃ w' a, step casts w op = some (w', a) ∧ Spec.CollRef.step casts (abs w) op = some (abs w', a) ∧ Counted w' [] := by
  cases op with
  | newVar =>
    refine .inr ⟨_, _, rfl, rfl, h.congr rfl rfl ?_⟩
    intro r
    simp [held, List.count_append]
  | newRef v t =>
    have h1 : Counted { w with refs := w.refs ++ [(t, some 1)] } [some w.refs.length] := by
      have z : held w w.refs.length = 0 := by
        by_cases z : held w w.refs.length = 0
        · exact z
        · have := h.inside w.refs.length (by omega)
          omega
      refine ⟨?_, ?_, h.nodup, ?_⟩
      · intro r t' c e
        by_cases hr : r = w.refs.length
        · subst hr
          simp only [List.getElem?_concat_length, Option.some.injEq, Prod.mk.injEq] at e
          refine .inr ⟨by simp, ?_⟩
          rw [← e.2]
          simp only [List.count_cons_self, List.count_nil]
          have : held { w with refs := w.refs ++ [(t, some 1)] } w.refs.length = held w w.refs.length := rfl
          rw [this, z]
        · have lt : r < w.refs.length := by
            have := (List.getElem?_eq_some_iff.1 e).1
            simp only [List.length_append, List.length_cons, List.length_nil] at this
            omega
          rw [List.getElem?_append_left lt] at e
          have := h.value r t' c e
          simp only [List.count_nil] at this
          rw [List.count_cons_of_ne (by simpa using fun x => hr x.symm)]
          exact this
      · intro r e
        simp only [List.length_append, List.length_cons, List.length_nil]
        by_cases hr : r = w.refs.length
        · omega
        · rw [List.count_cons_of_ne (by simpa using fun x => hr x.symm)] at e
          have := h.inside r e
          omega
      · intro r
        have d := h.deleted r
        simp only [List.length_append, List.length_cons, List.length_nil] at d ⊢
        by_cases hr : r = w.refs.length
        · subst hr
          rw [d]
          simp
        · rw [List.count_cons_of_ne (by simpa using fun x => hr x.symm)]
          rw [d]
          have : held { w with refs := w.refs ++ [(t, some 1)] } r = held w r := rfl
          rw [this, List.count_nil]
          constructor
          · rintro ⟨a, b⟩; exact ⟨by omega, b⟩
          · rintro ⟨a, b⟩; exact ⟨by omega, b⟩
    have ei : inc (some w.refs.length) { w with refs := w.refs ++ [(t, some 0)] } = some { w with refs := w.refs ++ [(t, some 1)] } := by
      simp [inc]
    by_cases lt : v < w.vars.length
    · obtain ⟨refs, dels, em, names, hc⟩ := moveTo_ok h1 (v := v) lt
      refine .inr ⟨_, .done, by simp only [step, ei, bind, Option.bind, em] <;> rfl, ?_, hc⟩
      simp only [Spec.CollRef.step, abs, Spec.CollRef.put, lt, if_true, names]
      simp
    · refine .inl ⟨?_, by simp only [Spec.CollRef.step, abs, lt, if_false]⟩
      simp only [step, ei, bind, Option.bind, moveTo]
      rw [List.getElem?_eq_none (by simpa using lt)]
  | drop v =>
    by_cases lt : v < w.vars.length
    · obtain ⟨refs, dels, em, names, hc⟩ := moveTo_ok (p := none) (temps := [])
        (h.congr (w' := w) (temps' := [none]) rfl rfl (by simp)) lt
      refine .inr ⟨_, .done, by simp only [step, em, Option.map_some] <;> rfl, ?_, hc⟩
      simp only [Spec.CollRef.step, abs, Spec.CollRef.put, lt, if_true, names]
    · refine .inl ⟨?_, by simp only [Spec.CollRef.step, abs, lt, if_false]⟩
      simp only [step, moveTo]
      rw [List.getElem?_eq_none (by omega)]
      rfl
  | copyVar v u =>
    by_cases vu : v = u
    · subst vu
      by_cases lt : v < w.vars.length
      · refine .inr ⟨w, .done, by simp [step, lt], ?_, h⟩
        simp only [Spec.CollRef.step, abs, Spec.CollRef.put, lt, if_true, List.getElem?_eq_getElem lt, Option.map_some, List.set_getElem_self]
      · exact .inl ⟨by simp [step, lt], by simp only [Spec.CollRef.step, abs, lt, if_false]⟩
    · by_cases lt : v < w.vars.length
      · by_cases lu : u < w.vars.length
        · have ev : w.vars[v]? = some w.vars[v] := List.getElem?_eq_getElem lt
          have eu : w.vars[u]? = some w.vars[u] := List.getElem?_eq_getElem lu
          generalize w.vars[v] = old at ev
          generalize w.vars[u] = p at eu
          have h1 : Counted { w with vars := w.vars.set v none } [old] := by
            refine h.congr rfl rfl ?_
            intro r
            have := count_put ev none r
            simp only [held, List.count_singleton, List.count_nil] at this ⊢
            simp at this
            simp
            omega
          obtain ⟨refs, dels, ed, names, hc⟩ := dec_ok h1
          have ed' : dec old w = some { w with refs := refs, deletions := dels } := by
            cases old with
            | none =>
              simp only [dec, Option.some.injEq, World.mk.injEq] at ed ⊢
              cases w
              simp_all
            | some r =>
              simp only [dec] at ed ⊢
              split at ed
              · split at ed
                · rename_i z
                  rw [if_pos z]
                  simp only [Option.some.injEq, World.mk.injEq] at ed ⊢
                  simp_all
                · rename_i z
                  rw [if_neg z]
                  simp only [Option.some.injEq, World.mk.injEq] at ed ⊢
                  simp_all
              · cases ed
          have eu' : (w.vars.set v none)[u]? = some p := by rw [List.getElem?_set_ne vu]; exact eu
          obtain ⟨refs', ei, names', hc'⟩ := inc_ok hc (p := p) (by
            intro r er
            subst er
            exact Nat.lt_of_lt_of_le (held_var (w := { w with vars := w.vars.set v none, refs := refs, deletions := dels }) eu')
              (Nat.le_add_right _ _))
          have ei' : inc p { w with refs := refs, deletions := dels, vars := w.vars.set v p }
              = some { w with refs := refs', deletions := dels, vars := w.vars.set v p } := by
            cases p with
            | none =>
              simp only [inc, Option.some.injEq, World.mk.injEq] at ei ⊢
              simp_all
            | some r =>
              simp only [inc] at ei ⊢
              split at ei
              · simp only [Option.some.injEq, World.mk.injEq] at ei ⊢
                simp_all
              · cases ei
          refine .inr ⟨_, .done, by simp only [step, vu, if_false, ev, eu, ed', bind, Option.bind, ei'] <;> rfl, ?_, ?_⟩
          · simp only [Spec.CollRef.step, abs, Spec.CollRef.put, lt, if_true, eu, Option.map_some, names', names]
          · refine hc'.congr rfl rfl ?_
            intro r
            have a := count_put ev none r
            have b := count_put ev p r
            simp only [held, List.count_singleton, List.count_nil] at a b ⊢
            simp at a
            simp
            simp at b
            omega
        · refine .inl ⟨?_, ?_⟩
          · simp only [step, vu, if_false]
            rw [List.getElem?_eq_none (by omega : w.vars.length ≤ u)]
            simp
          · simp only [Spec.CollRef.step, abs, lt, if_true]
            rw [List.getElem?_eq_none (by omega : w.vars.length ≤ u)]
            rfl
      · refine .inl ⟨?_, by simp only [Spec.CollRef.step, abs, lt, if_false]⟩
        simp only [step, vu, if_false]
        rw [List.getElem?_eq_none (by omega : w.vars.length ≤ v)]
  | newColl =>
    refine .inr ⟨_, _, rfl, rfl, h.congr rfl rfl ?_⟩
    intro r
    simp [held, List.countP_append, Phase.has]
  | copyColl d =>
    simp only [step, Spec.CollRef.step, abs]
    cases w.colls[d]? with
    | none => exact .inl ⟨rfl, rfl⟩
    | some q =>
      cases q with
      | gone => exact .inl ⟨rfl, rfl⟩
      | dying q => exact .inl ⟨rfl, rfl⟩
      | alive q =>
        refine .inr ⟨_, _, rfl, rfl, h.congr rfl rfl ?_⟩
        intro r
        simp [held, List.countP_append, Phase.has]
  | assignColl c d =>
    simp only [step, Spec.CollRef.step, abs]
    generalize w.colls[c]? = a
    generalize w.colls[d]? = b
    rcases a with _ | _ | _ | _ <;> rcases b with _ | _ | _ | _ <;>
      first
      | exact .inl ⟨rfl, rfl⟩
      | exact .inr ⟨_, _, rfl, rfl, h⟩
  | get v c =>
    have er : Spec.CollRef.ref (abs w) c = colref w c := rfl
    simp only [step, Spec.CollRef.step, er]
    cases e : colref w c with
    | none => exact .inl ⟨rfl, by simp⟩
    | some q =>
      obtain ⟨refs, ei, names, hc⟩ := inc_ok h (p := q) (by
        intro r er
        subst er
        have := held_colref e
        omega)
      by_cases lt : v < w.vars.length
      · obtain ⟨refs', dels, em, names', hc'⟩ := moveTo_ok hc (v := v) lt
        refine .inr ⟨_, .done, by simp only [ei, bind, Option.bind, em] <;> rfl, ?_, hc'⟩
        have lt' : v < (abs w).vars.length := lt
        rw [if_pos lt']
        simp only [Option.map_some, abs, Spec.CollRef.put, names', names]
      · have lt' : ¬ v < (abs w).vars.length := lt
        refine .inl ⟨?_, by simp only [lt', if_false]⟩
        simp only [ei, bind, Option.bind, moveTo]
        rw [List.getElem?_eq_none (by omega : w.vars.length ≤ v)]
  | tryGet v c u =>
    have er : Spec.CollRef.ref (abs w) c = colref w c := rfl
    simp only [step, Spec.CollRef.step, er]
    by_cases lt : v < w.vars.length
    · have lt' : v < (abs w).vars.length := lt
      simp only [lt, lt', if_true, tryGet]
      cases e : colref w c with
      | none => exact .inl ⟨rfl, rfl⟩
      | some q =>
        cases q with
        | none =>
          obtain ⟨refs, dels, em, names, hc⟩ := moveTo_ok (p := none) (temps := [])
            (h.congr (w' := w) (temps' := [none]) rfl rfl (by simp)) lt
          refine .inr ⟨_, .done, by simp only [em, Option.map_some] <;> rfl, ?_, hc⟩
          simp only [abs, Spec.CollRef.put, names]
        | some r =>
          have pos := held_colref e
          obtain ⟨refs, ei, names, hc⟩ := inc_ok h (p := some r) (by
            intro r' er
            cases er
            omega)
          obtain ⟨t, et⟩ := Cnt.live hc (r := r) (by
            have : held { w with refs := refs } r = held w r := rfl
            simp only [this]
            omega)
          have ecl : (abs w).classes[r]? = some t := by
            have : (refs.map Prod.fst)[r]? = some t := by
              rw [List.getElem?_map]
              have et' : refs[r]? = _ := et
              rw [et']
              rfl
            rw [names] at this
            exact this
          simp only [ei, bind, Option.bind, et, ecl, Option.map_some]
          cases casts t u with
          | true =>
            obtain ⟨refs2, ei2, names2, hc2⟩ := inc_ok hc (p := some r) (by
              intro r' er
              cases er
              simp only [List.count_cons_self]
              omega)
            obtain ⟨refs3, dels3, ed3, names3, hc3⟩ := dec_ok hc2
            obtain ⟨refs4, dels4, em4, names4, hc4⟩ := moveTo_ok hc3 (v := v) lt
            refine .inr ⟨_, .done, by simp only [if_true, ei2, ed3, em4] <;> rfl, ?_, hc4⟩
            simp only [if_true, abs, Spec.CollRef.put, names4, names3, names2, names]
          | false =>
            obtain ⟨refs3, dels3, ed3, names3, hc3⟩ := dec_ok hc
            refine .inr ⟨_, .error, by simp only [Bool.false_eq_true, if_false, ed3] <;> rfl, ?_, hc3⟩
            simp only [Bool.false_eq_true, if_false, abs, names3, names]
    · have lt' : ¬ v < (abs w).vars.length := lt
      exact .inl ⟨by simp only [lt, if_false], by simp only [lt', if_false]⟩
  | set c v =>
    simp only [step, Spec.CollRef.step, set]
    have evs : (abs w).vars[v]? = w.vars[v]? := rfl
    have ecs : (abs w).colls[c]? = w.colls[c]? := rfl
    rw [evs, ecs]
    cases ev : w.vars[v]? with
    | none => exact .inl ⟨rfl, rfl⟩
    | some p =>
      obtain ⟨refs, ei, names, hc⟩ := inc_ok h (p := p) (by
        intro r er
        subst er
        have := held_var ev
        omega)
      simp only [ei]
      cases ec : w.colls[c]? with
      | none => exact .inl ⟨rfl, rfl⟩
      | some ph =>
        cases ph with
        | gone => exact .inl ⟨rfl, rfl⟩
        | alive q =>
          cases q with
          | none =>
            have h2 : ∃ refs', inc p { w with refs := refs, colls := w.colls.set c (.alive p), links := w.links ++ p.toList.map (·, c) }
                = some { w with refs := refs', colls := w.colls.set c (.alive p), links := w.links ++ p.toList.map (·, c) } ∧ refs'.map Prod.fst = refs.map Prod.fst
                ∧ Counted { w with refs := refs', colls := w.colls.set c (.alive p), links := w.links ++ p.toList.map (·, c) } [p] := by
              obtain ⟨refs', ei', names', hc'⟩ := inc_ok hc (p := p) (by
                intro r er
                subst er
                simp only [List.count_cons_self]
                omega)
              refine ⟨refs', ?_, names', ?_⟩
              · cases p with
                | none =>
                  simp only [inc, Option.some.injEq, World.mk.injEq] at ei' ⊢
                  simp_all
                | some r =>
                  simp only [inc] at ei' ⊢
                  split at ei'
                  · simp only [Option.some.injEq, World.mk.injEq] at ei' ⊢
                    simp_all
                  · cases ei'
              · refine hc'.congr rfl rfl ?_
                intro r
                have := countP_put ec (.alive p) r
                simp only [held, Phase.has, List.count_cons, List.count_nil] at this ⊢
                simp at this
                simp
                omega
            obtain ⟨refs', ei', names', hc'⟩ := h2
            obtain ⟨refs3, dels3, ed3, names3, hc3⟩ := dec_ok hc'
            refine .inr ⟨_, .done, by simp only [bind, Option.bind, ei', ed3] <;> rfl, ?_, hc3⟩
            simp only [abs, names3, names', names]
          | some q =>
            obtain ⟨refs3, dels3, ed3, names3, hc3⟩ := dec_ok hc
            refine .inr ⟨_, .error, by simp only [ed3, Option.map_some] <;> rfl, ?_, hc3⟩
            simp only [abs, names3, names]
        | dying q =>
          cases q with
          | none => exact .inl ⟨rfl, rfl⟩
          | some q =>
            obtain ⟨refs3, dels3, ed3, names3, hc3⟩ := dec_ok hc
            refine .inr ⟨_, .error, by simp only [ed3, Option.map_some] <;> rfl, ?_, hc3⟩
            simp only [abs, names3, names]
  | destroy c =>
    simp only [step, Spec.CollRef.step, destroy]
    have ecs : (abs w).colls[c]? = w.colls[c]? := rfl
    rw [ecs]
    cases ec : w.colls[c]? with
    | none => exact .inl ⟨rfl, rfl⟩
    | some ph =>
      cases ph with
      | gone => exact .inl ⟨rfl, rfl⟩
      | dying q => exact .inl ⟨rfl, rfl⟩
      | alive q =>
        cases q with
        | none =>
          refine .inr ⟨_, _, rfl, rfl, h.congr rfl rfl ?_⟩
          intro r
          have := countP_put ec .gone r
          simp [Phase.has] at this
          simp only [held, List.count_nil]
          omega
        | some r =>
          obtain ⟨t, et⟩ := Cnt.live h (r := r) (by
            have := held_coll ec (r := r) (by simp [Phase.has])
            omega)
          simp only [et]
          refine .inr ⟨_, _, rfl, rfl, h.congr rfl rfl ?_⟩
          intro r'
          have := countP_put ec (.dying (some r)) r'
          have same : (Phase.alive (some r)).has r' = (Phase.dying (some r)).has r' := rfl
          rw [same] at this
          simp only [held, List.count_nil]
          omega
  | ret =>
    simp only [step, Spec.CollRef.step, ret]
    have es : (abs w).stack = w.stack := rfl
    rw [es]
    cases e : w.stack with
    | nil => exact .inl ⟨rfl, rfl⟩
    | cons c stack =>
      obtain ⟨q, eq⟩ := (ho.stack c).1 (by rw [es, e]; simp)
      have eq' : w.colls[c]? = some (.dying q) := eq
      simp only [eq']
      have h1 : Counted { w with colls := w.colls.set c .gone, stack := stack } [q] := by
        refine h.congr rfl rfl ?_
        intro r
        have := countP_put eq' .gone r
        simp only [held, List.count_singleton, List.count_nil]
        simp only [Phase.has] at this
        simp at this
        simp
        omega
      obtain ⟨refs, dels, ed, names, hc⟩ := dec_ok h1
      refine .inr ⟨_, .done, by simp only [ed, Option.map_some] <;> rfl, ?_, hc⟩
      simp only [abs, names]

theorem Ordered.congr {w w' : Spec.CollRef.World T} (h : Ordered w) (e1 : w'.colls = w.colls) (e2 : w'.stack = w.stack)
    (e3 : w'.disposals = w.disposals) (e4 : w'.links = w.links) : Ordered w' := by
  cases w
  cases w'
  simp only at e1 e2 e3 e4
  subst e1 e2 e3 e4
  exact ⟨h.stack, h.nodup, h.alive, h.dying, h.disposed, h.linked, h.once, h.single⟩

theorem append_alive {colls : List Phase} {c : Nat} {ph : Phase} :
    (colls ++ [Phase.alive none])[c]? = some ph ↔ colls[c]? = some ph ∨ (c = colls.length ∧ ph = .alive none) := by
  by_cases lt : c < colls.length
  · rw [List.getElem?_append_left lt]
    constructor
    · exact .inl
    · rintro (h | ⟨h, _⟩)
      · exact h
      · omega
  · rw [List.getElem?_append_right (by omega), List.getElem?_eq_none (by omega : colls.length ≤ c)]
    by_cases eq : c = colls.length
    · subst eq
      simp only [Nat.sub_self, List.getElem?_cons_zero, Option.some.injEq]
      constructor
      · intro h; exact .inr ⟨trivial, h.symm⟩
      · rintro (h | ⟨_, h⟩)
        · cases h
        · exact h.symm
    · have : ([Phase.alive none])[c - colls.length]? = none := List.getElem?_eq_none (by simp; omega)
      rw [this]
      simp [eq]

theorem Ordered.append {w : Spec.CollRef.World T} (h : Ordered w) : Ordered { w with colls := w.colls ++ [.alive none] } := by
  refine ⟨?_, h.nodup, ?_, ?_, ?_, ?_, h.once, h.single⟩
  · intro c
    simp only [append_alive]
    rw [h.stack]
    simp
  · intro c r e
    simp only [append_alive] at e
    rcases e with e | ⟨_, e⟩
    · exact h.alive c r e
    · cases e
  · intro c q e
    simp only [append_alive] at e
    rcases e with e | ⟨_, e⟩
    · exact h.dying c q e
    · cases e
  · intro r c e
    simp only [append_alive]
    obtain ⟨a, b⟩ := h.disposed r c e
    exact ⟨by rcases a with a | a <;> simp [a], b⟩
  · intro r c e
    simp only [append_alive]
    rcases h.linked r c e with a | a <;> simp [a]

theorem set_iff {colls : List Phase} {c d : Nat} {old p ph : Phase} (e : colls[c]? = some old) :
    (colls.set c p)[d]? = some ph ↔ (d = c ∧ ph = p) ∨ (d ≠ c ∧ colls[d]? = some ph) := by
  have lt : c < colls.length := (List.getElem?_eq_some_iff.1 e).1
  by_cases eq : d = c
  · subst eq
    rw [List.getElem?_set_self lt]
    simp [eq_comm]
  · rw [List.getElem?_set_ne (Ne.symm eq)]
    simp [eq]

theorem step_ordered (casts : T → U → Bool) {w : Spec.CollRef.World T} (h : Ordered w) {op : Op T U} {w' : Spec.CollRef.World T}
    {a : Answer} (e : Spec.CollRef.step casts w op = some (w', a)) : Ordered w' := by
  cases op with
  | newVar =>
    simp only [Spec.CollRef.step, Option.some.injEq, Prod.mk.injEq] at e
    obtain ⟨rfl, _⟩ := e
    exact h.congr rfl rfl rfl rfl
  | newRef v t =>
    simp only [Spec.CollRef.step] at e
    split at e
    · simp only [Option.some.injEq, Prod.mk.injEq] at e
      obtain ⟨rfl, _⟩ := e
      exact h.congr rfl rfl rfl rfl
    · cases e
  | drop v =>
    simp only [Spec.CollRef.step] at e
    split at e
    · simp only [Option.some.injEq, Prod.mk.injEq] at e
      obtain ⟨rfl, _⟩ := e
      exact h.congr rfl rfl rfl rfl
    · cases e
  | copyVar v u =>
    simp only [Spec.CollRef.step] at e
    split at e
    · simp only [Option.map_eq_some_iff, Prod.mk.injEq] at e
      obtain ⟨_, _, rfl, _⟩ := e
      exact h.congr rfl rfl rfl rfl
    · cases e
  | newColl =>
    simp only [Spec.CollRef.step, Option.some.injEq, Prod.mk.injEq] at e
    obtain ⟨rfl, _⟩ := e
    exact h.append
  | copyColl d =>
    simp only [Spec.CollRef.step] at e
    split at e
    · simp only [Option.some.injEq, Prod.mk.injEq] at e
      obtain ⟨rfl, _⟩ := e
      exact h.append
    · cases e
  | assignColl c d =>
    simp only [Spec.CollRef.step] at e
    split at e
    · simp only [Option.some.injEq, Prod.mk.injEq] at e
      obtain ⟨rfl, _⟩ := e
      exact h
    · cases e
  | get v c =>
    simp only [Spec.CollRef.step] at e
    split at e
    · simp only [Option.map_eq_some_iff, Prod.mk.injEq] at e
      obtain ⟨_, _, rfl, _⟩ := e
      exact h.congr rfl rfl rfl rfl
    · cases e
  | tryGet v c u =>
    simp only [Spec.CollRef.step] at e
    split at e
    · split at e
      · cases e
      · simp only [Option.some.injEq, Prod.mk.injEq] at e
        obtain ⟨rfl, _⟩ := e
        exact h.congr rfl rfl rfl rfl
      · simp only [Option.map_eq_some_iff] at e
        obtain ⟨t, _, e⟩ := e
        split at e
        · simp only [Prod.mk.injEq] at e
          obtain ⟨rfl, _⟩ := e
          exact h.congr rfl rfl rfl rfl
        · simp only [Prod.mk.injEq] at e
          obtain ⟨rfl, _⟩ := e
          exact h
    · cases e
  | set c v =>
    simp only [Spec.CollRef.step] at e
    split at e
    · rename_i p ev ec
      simp only [Option.some.injEq, Prod.mk.injEq] at e
      obtain ⟨rfl, _⟩ := e
      have fresh : ∀ r, (r, c) ∉ w.links := by
        intro r m
        rcases h.linked r c m with x | x
        · rw [ec] at x; cases x
        · rcases (h.disposed r c x).1 with y | y <;> (rw [ec] at y; cases y)
      have freshd : ∀ r, (r, c) ∉ w.disposals := fun r m => fresh r (h.disposed r c m).2
      refine ⟨?_, h.nodup, ?_, ?_, ?_, ?_, h.once, ?_⟩
      · intro d
        simp only [set_iff ec, h.stack]
        constructor
        · rintro ⟨q, hq⟩
          refine ⟨q, .inr ⟨?_, hq⟩⟩
          rintro rfl
          rw [ec] at hq; cases hq
        · rintro ⟨q, ⟨_, hq⟩ | ⟨_, hq⟩⟩
          · cases hq
          · exact ⟨q, hq⟩
      · intro d r hd
        simp only [set_iff ec] at hd
        rcases hd with ⟨rfl, hd⟩ | ⟨_, hd⟩
        · cases hd
          simp
        · exact List.mem_append_left _ (h.alive d r hd)
      · intro d q hd
        simp only [set_iff ec] at hd
        rcases hd with ⟨rfl, hd⟩ | ⟨_, hd⟩
        · cases hd
        · exact h.dying d q hd
      · intro r d hd
        obtain ⟨x, y⟩ := h.disposed r d hd
        refine ⟨?_, List.mem_append_left _ y⟩
        simp only [set_iff ec]
        have : d ≠ c := by
          rintro rfl
          exact freshd r hd
        rcases x with x | x
        · exact .inl (.inr ⟨this, x⟩)
        · exact .inr (.inr ⟨this, x⟩)
      · intro r d hd
        simp only [set_iff ec]
        rcases List.mem_append.1 hd with hd' | hd
        · rcases h.linked r d hd' with x | x
          · refine .inl (.inr ⟨?_, x⟩)
            rintro rfl
            exact fresh r hd'
          · exact .inr x
        · cases p with
          | none => simp at hd
          | some r' =>
            simp only [Option.toList_some, List.map_cons, List.map_nil, List.mem_singleton, Prod.mk.injEq] at hd
            obtain ⟨rfl, rfl⟩ := hd
            exact .inl (.inl ⟨rfl, rfl⟩)
      · simp only [List.map_append]
        cases p with
        | none => simpa using h.single
        | some r =>
          refine List.nodup_append.2 ⟨h.single, by simp, ?_⟩
          intro x hx y hy
          simp only [Option.toList_some, List.map_cons, List.map_nil, List.mem_singleton] at hy
          subst hy
          rintro rfl
          obtain ⟨⟨r', c'⟩, m, rfl⟩ := List.mem_map.1 hx
          exact fresh r' m
    · simp only [Option.some.injEq, Prod.mk.injEq] at e
      obtain ⟨rfl, _⟩ := e
      exact h
    · simp only [Option.some.injEq, Prod.mk.injEq] at e
      obtain ⟨rfl, _⟩ := e
      exact h
    · cases e
  | destroy c =>
    simp only [Spec.CollRef.step] at e
    split at e
    · rename_i ec
      simp only [Option.some.injEq, Prod.mk.injEq] at e
      obtain ⟨rfl, _⟩ := e
      refine ⟨?_, h.nodup, ?_, ?_, ?_, ?_, h.once, h.single⟩
      · intro d
        simp only [set_iff ec, h.stack]
        constructor
        · rintro ⟨q, hq⟩
          refine ⟨q, .inr ⟨?_, hq⟩⟩
          rintro rfl
          rw [ec] at hq; cases hq
        · rintro ⟨q, ⟨_, hq⟩ | ⟨_, hq⟩⟩
          · cases hq
          · exact ⟨q, hq⟩
      · intro d r hd
        simp only [set_iff ec] at hd
        rcases hd with ⟨rfl, hd⟩ | ⟨_, hd⟩
        · cases hd
        · exact h.alive d r hd
      · intro d q hd
        simp only [set_iff ec] at hd
        rcases hd with ⟨rfl, hd⟩ | ⟨_, hd⟩
        · cases hd
        · exact h.dying d q hd
      · intro r d hd
        obtain ⟨x, y⟩ := h.disposed r d hd
        refine ⟨?_, y⟩
        simp only [set_iff ec]
        by_cases dc : d = c
        · exact .inl (.inl ⟨dc, trivial⟩)
        · rcases x with x | x
          · exact .inl (.inr ⟨dc, x⟩)
          · exact .inr (.inr ⟨dc, x⟩)
      · intro r d hd
        simp only [set_iff ec]
        rcases h.linked r d hd with x | x
        · refine .inl (.inr ⟨?_, x⟩)
          rintro rfl
          rw [ec] at x; cases x
        · exact .inr x
    · rename_i r0 ec
      simp only [Option.some.injEq, Prod.mk.injEq] at e
      obtain ⟨rfl, _⟩ := e
      have freshd : ∀ r, (r, c) ∉ w.disposals := by
        intro r m
        rcases (h.disposed r c m).1 with x | x <;> (rw [ec] at x; cases x)
      refine ⟨?_, ?_, ?_, ?_, ?_, ?_, ?_, h.single⟩
      · intro d
        simp only [set_iff ec, List.mem_cons, h.stack]
        constructor
        · rintro (rfl | ⟨q, hq⟩)
          · exact ⟨some r0, .inl ⟨rfl, rfl⟩⟩
          · refine ⟨q, .inr ⟨?_, hq⟩⟩
            rintro rfl
            rw [ec] at hq; cases hq
        · rintro ⟨q, ⟨hd, hq⟩ | ⟨_, hq⟩⟩
          · exact .inl hd
          · exact .inr ⟨q, hq⟩
      · refine List.nodup_cons.2 ⟨?_, h.nodup⟩
        intro m
        obtain ⟨q, hq⟩ := (h.stack c).1 m
        rw [ec] at hq; cases hq
      · intro d r hd
        simp only [set_iff ec] at hd
        rcases hd with ⟨rfl, hd⟩ | ⟨_, hd⟩
        · cases hd
        · exact h.alive d r hd
      · intro d q hd
        simp only [set_iff ec] at hd
        rcases hd with ⟨rfl, hd⟩ | ⟨_, hd⟩
        · cases hd
          exact ⟨r0, rfl, by simp⟩
        · obtain ⟨r, x, y⟩ := h.dying d q hd
          exact ⟨r, x, List.mem_append_left _ y⟩
      · intro r d hd
        simp only [set_iff ec]
        rcases List.mem_append.1 hd with hd' | hd
        · obtain ⟨x, y⟩ := h.disposed r d hd'
          refine ⟨?_, y⟩
          have dc : d ≠ c := by
            rintro rfl
            exact freshd r hd'
          rcases x with x | x
          · exact .inl (.inr ⟨dc, x⟩)
          · exact .inr (.inr ⟨dc, x⟩)
        · simp only [List.mem_singleton, Prod.mk.injEq] at hd
          obtain ⟨rfl, rfl⟩ := hd
          exact ⟨.inr (.inl ⟨rfl, rfl⟩), h.alive d r ec⟩
      · intro r d hd
        simp only [set_iff ec]
        rcases h.linked r d hd with x | x
        · by_cases dc : d = c
          · subst dc
            rw [ec] at x
            cases x
            exact .inr (by simp)
          · exact .inl (.inr ⟨dc, x⟩)
        · exact .inr (List.mem_append_left _ x)
      · simp only [List.map_append]
        refine List.nodup_append.2 ⟨h.once, by simp, ?_⟩
        intro x hx y hy
        simp only [List.map_cons, List.map_nil, List.mem_singleton] at hy
        subst hy
        rintro rfl
        obtain ⟨⟨r', c'⟩, m, rfl⟩ := List.mem_map.1 hx
        exact freshd r' m
    · cases e
  | ret =>
    simp only [Spec.CollRef.step] at e
    split at e
    · cases e
    · rename_i c stack es
      simp only [Option.some.injEq, Prod.mk.injEq] at e
      obtain ⟨rfl, _⟩ := e
      obtain ⟨q0, ec⟩ := (h.stack c).1 (by rw [es]; simp)
      have nd := h.nodup
      rw [es] at nd
      obtain ⟨nc, nd⟩ := List.nodup_cons.1 nd
      refine ⟨?_, nd, ?_, ?_, ?_, ?_, h.once, h.single⟩
      · intro d
        have hd := h.stack d
        rw [es, List.mem_cons] at hd
        simp only [set_iff ec]
        constructor
        · intro m
          obtain ⟨q, hq⟩ := hd.1 (.inr m)
          refine ⟨q, .inr ⟨?_, hq⟩⟩
          rintro rfl
          exact nc m
        · rintro ⟨q, ⟨_, hq⟩ | ⟨dc, hq⟩⟩
          · cases hq
          · rcases hd.2 ⟨q, hq⟩ with x | x
            · exact absurd x dc
            · exact x
      · intro d r hd
        simp only [set_iff ec] at hd
        rcases hd with ⟨rfl, hd⟩ | ⟨_, hd⟩
        · cases hd
        · exact h.alive d r hd
      · intro d q hd
        simp only [set_iff ec] at hd
        rcases hd with ⟨rfl, hd⟩ | ⟨_, hd⟩
        · cases hd
        · exact h.dying d q hd
      · intro r d hd
        obtain ⟨x, y⟩ := h.disposed r d hd
        refine ⟨?_, y⟩
        simp only [set_iff ec]
        by_cases dc : d = c
        · exact .inl (.inl ⟨dc, trivial⟩)
        · rcases x with x | x
          · exact .inl (.inr ⟨dc, x⟩)
          · exact .inr (.inr ⟨dc, x⟩)
      · intro r d hd
        simp only [set_iff ec]
        rcases h.linked r d hd with x | x
        · refine .inl (.inr ⟨?_, x⟩)
          rintro rfl
          rw [ec] at x; cases x
        · exact .inr x

theorem run_ok (casts : T → U → Bool) (ops : List (Op T U)) : ∀ {w : World T}, Counted w [] → Ordered (abs w) →
    (run casts w ops = none ∧ Spec.CollRef.run casts (abs w) ops = none)
    ∨ ∃ w' as, run casts w ops = some (w', as) ∧ Spec.CollRef.run casts (abs w) ops = some (abs w', as)
      ∧ Counted w' [] ∧ Ordered (abs w') := by
  induction ops with
  | nil => exact fun h ho => .inr ⟨_, _, rfl, rfl, h, ho⟩
  | cons op ops ih =>
    intro w h ho
    rcases step_ok casts h ho op with ⟨e, es⟩ | ⟨w1, a, e, es, h1⟩
    · exact .inl ⟨by simp only [run, e], by simp only [Spec.CollRef.run, es]⟩
    · rcases ih h1 (step_ordered casts ho es) with ⟨e2, es2⟩ | ⟨w2, as, e2, es2, h2⟩
      · exact .inl ⟨by simp only [run, e, e2, Option.map_none], by simp only [Spec.CollRef.run, es, es2, Option.map_none]⟩
      · exact .inr ⟨w2, a :: as, by simp only [run, e, e2, Option.map_some], by simp only [Spec.CollRef.run, es, es2, Option.map_some], h2⟩

theorem empty_ok : Counted (empty : World T) [] ∧ Ordered (abs (empty : World T)) := by
  constructor
  · constructor <;> simp [empty, held]
  · constructor <;> simp [empty, abs]

end Vlpp.CollRef
