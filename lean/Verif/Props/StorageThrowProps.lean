import Verif.Model.StorageThrow

/-!
# Property C115: finalisers of global storages that throw
-/
set_option autoImplicit false
namespace Vlpp
namespace StorageThrow
variable {W : Type}

/-- what remains of the world after these finalisers, whether they throw or not -/
def after (fin : Finalisers W) (is : List Nat) (w : W) : W := is.foldl (fun w i => (fin i w).2) w

/-- the finalisers of these storages are called in this order and none throws -/
def Calm (fin : Finalisers W) : List Nat → W → Prop
  | [], _ => True
  | i :: t, w => (fin i w).1 = false ∧ Calm fin t (fin i w).2

/-- the state after exactly these finalisers have been called -/
def called (fin : Finalisers W) (s : State W) (is : List Nat) : State W :=
  ⟨fun j => s.initialized j && !is.contains j, s.trace ++ is, after fin is s.world⟩

theorem called_nil (fin : Finalisers W) (s : State W) : called fin s [] = s := by
  simp [called, after]

theorem called_called (fin : Finalisers W) (s : State W) (a b : List Nat) : called fin (called fin s a) b = called fin s (a ++ b) := by
  simp only [called, after, List.foldl_append, List.append_assoc, State.mk.injEq, and_true]
  funext j
  simp [Bool.and_assoc]

theorem ensure_skip {fin : Finalisers W} {i : Nat} {s : State W} (h : s.initialized i = false) : ensureFinalized fin i s = .ok () s := by
  simp [ensureFinalized, h]

theorem ensure_call {fin : Finalisers W} {i : Nat} {s : State W} (h : s.initialized i = true) :
    ensureFinalized fin i s = if (fin i s.world).1 then .err (called fin s [i]) else .ok () (called fin s [i]) := by
  have : (⟨Storage.assign s.initialized i false, s.trace ++ [i], (fin i s.world).2⟩ : State W) = called fin s [i] := by
    simp only [called, after, List.foldl_cons, List.foldl_nil, State.mk.injEq, and_true]
    funext j
    by_cases e : j = i
    · simp [Storage.assign, e]
    · simp [Storage.assign, e]
  simp only [ensureFinalized, h, if_true, this]

theorem filter_called {fin : Finalisers W} {i : Nat} {s : State W} {t : List Nat} (h : i ∉ t) :
    t.filter (called fin s [i]).initialized = t.filter s.initialized := by
  refine List.filter_congr fun j hj => ?_
  have : j ≠ i := fun e => h (e ▸ hj)
  simp [called, this]

/-- **C115, one call.** For every list of registered storages and all finalisers: `FinalizeGlobalStorage` calls the finalisers of the storages
that are initialised, in the order of their registration, up to the first that throws; a storage is no longer initialised exactly if its finaliser
has been called, also if it has thrown.  It returns if none throws, otherwise the exception leaves it.
Missing: the finalisers after the one that throws (`C115_violated_rest`). -/
theorem _root_.Vlpp.C115_call_partial (fin : Finalisers W) (registered : List Nat) (hr : registered.Nodup) (s : State W) :
    (Calm fin (registered.filter s.initialized) s.world ∧
      finalizeAll fin registered s = .ok () (called fin s (registered.filter s.initialized))) ∨
    ∃ made i rest, registered.filter s.initialized = made ++ i :: rest ∧ Calm fin made s.world ∧ (fin i (after fin made s.world)).1 = true ∧
      finalizeAll fin registered s = .err (called fin s (made ++ [i])) := by
  induction registered generalizing s with
  | nil => exact .inl ⟨trivial, by rw [List.filter_nil, called_nil]; rfl⟩
  | cons i t ih =>
    rw [List.nodup_cons] at hr
    cases h : s.initialized i with
    | false =>
      rw [List.filter_cons_of_neg (by simp [h]), finalizeAll, Cpp.bind_ok (ensure_skip h)]
      exact ih hr.2 s
    | true =>
      rw [List.filter_cons_of_pos h, finalizeAll]
      cases ht : (fin i s.world).1 with
      | true =>
        refine .inr ⟨[], i, t.filter s.initialized, rfl, trivial, ht, ?_⟩
        have e := ensure_call (fin := fin) h
        rw [ht, if_pos rfl] at e
        rw [Cpp.bind_err e]
        rfl
      | false =>
        have e := ensure_call (fin := fin) h
        rw [ht, if_neg (by simp)] at e
        rw [Cpp.bind_ok e]
        have := ih hr.2 (called fin s [i])
        rw [filter_called hr.1] at this
        rcases this with ⟨h1, h2⟩ | ⟨made, k, rest, h1, h2, h3, h4⟩
        · exact .inl ⟨⟨ht, h1⟩, by rw [h2, called_called]; rfl⟩
        · exact .inr ⟨i :: made, k, rest, by rw [h1]; rfl, ⟨ht, h2⟩, h3, by rw [h4, called_called]; rfl⟩

theorem filter_rest {fin : Finalisers W} {registered made rest : List Nat} {s : State W} (hr : registered.Nodup)
    (h : registered.filter s.initialized = made ++ rest) : registered.filter (called fin s made).initialized = rest := by
  have : registered.filter (called fin s made).initialized = (registered.filter s.initialized).filter (fun j => !made.contains j) := by
    rw [List.filter_filter]
    exact List.filter_congr fun j _ => by simp [called, Bool.and_comm]
  rw [this, h, List.filter_append]
  have hn : (made ++ rest).Nodup := h ▸ hr.filter _
  have h1 : made.filter (fun j => !made.contains j) = [] := by
    rw [List.filter_eq_nil_iff]
    intro j hj
    simp [hj]
  have h2 : rest.filter (fun j => !made.contains j) = rest := by
    rw [List.filter_eq_self]
    intro j hj
    have : j ∉ made := fun hm => (List.nodup_append.1 hn).2.2 j hm j hj rfl
    simp [this]
  rw [h1, h2, List.nil_append]

/-- **C115, calling it again.** A program that catches the exception and calls `FinalizeGlobalStorage` again, at most once for each initialised
storage and once more, succeeds: every finaliser has been called exactly once, in the order of registration, no storage is initialised. -/
theorem _root_.Vlpp.C115_again (fin : Finalisers W) (registered : List Nat) (hr : registered.Nodup) (s : State W) (n : Nat)
    (hn : (registered.filter s.initialized).length < n) :
    retry fin registered n s = .ok () (called fin s (registered.filter s.initialized)) := by
  induction n generalizing s with
  | zero => omega
  | succ n ih =>
    simp only [retry]
    rcases C115_call_partial fin registered hr s with ⟨_, h⟩ | ⟨made, i, rest, h1, _, _, h4⟩
    · rw [h]
    · rw [h4]
      have hf : registered.filter s.initialized = (made ++ [i]) ++ rest := by rw [h1]; simp
      have hrest := filter_rest (fin := fin) hr hf
      have := ih (called fin s (made ++ [i])) (by
        rw [hrest]
        rw [hf] at hn
        simp only [List.length_append, List.length_cons, List.length_nil] at hn
        omega)
      simp only
      rw [this, hrest, called_called, hf]

/-- **C115, the end of the program.** After that the destructors of the storages call nothing and do not terminate the program. -/
theorem _root_.Vlpp.C115_exit (fin : Finalisers W) (registered : List Nat) (hr : registered.Nodup) (s s' : State W) (n : Nat)
    (hn : (registered.filter s.initialized).length < n) (h : retry fin registered n s = .ok () s') :
    destroyAll fin registered s' = .ok () s' := by
  rw [C115_again fin registered hr s n hn] at h
  cases h
  have hrest := filter_rest (fin := fin) (s := s) (rest := []) hr (List.append_nil _).symm
  have hrev : registered.reverse.filter (called fin s (registered.filter s.initialized)).initialized = [] := by
    rw [List.filter_reverse, hrest, List.reverse_nil]
  rcases C115_call_partial fin registered.reverse (List.pairwise_reverse.2 (hr.imp fun h => h.symm)) (called fin s (registered.filter s.initialized)) with ⟨_, h⟩ | ⟨made, i, rest, h1, _⟩
  · rw [hrev, called_nil] at h
    exact h
  · rw [hrev] at h1
    simp at h1

/-- **C115** is violated: after a finaliser has thrown, the storages registered later that were initialised still are, their finalisers have not
been called. -/
theorem _root_.Vlpp.C115_violated_rest (fin : Finalisers W) (a b : List Nat) (i j : Nat) (hr : (a ++ i :: b).Nodup) (s : State W)
    (ha : ∀ k ∈ a, s.initialized k = false) (hi : s.initialized i = true) (hj : j ∈ b) (hj' : s.initialized j = true)
    (ht : (fin i s.world).1 = true) :
    ∃ s', finalizeAll fin (a ++ i :: b) s = .err s' ∧ s'.initialized j = true ∧ s'.trace = s.trace ++ [i] := by
  have hf : (a ++ i :: b).filter s.initialized = i :: b.filter s.initialized := by
    rw [List.filter_append, List.filter_eq_nil_iff.2 (fun k hk => by simp [ha k hk]), List.nil_append, List.filter_cons_of_pos hi]
  have hne : j ≠ i := by
    rintro rfl
    exact (List.nodup_cons.1 (List.nodup_append.1 hr).2.1).1 hj
  rcases C115_call_partial fin _ hr s with ⟨h1, _⟩ | ⟨made, k, rest, h1, h2, _, h4⟩
  · rw [hf] at h1
    rw [h1.1] at ht
    cases ht
  · rw [hf] at h1
    cases made with
    | nil =>
      rw [List.nil_append, List.cons.injEq] at h1
      obtain ⟨rfl, _⟩ := h1
      exact ⟨_, h4, by simp [called, hj', hne], rfl⟩
    | cons m made =>
      rw [List.cons_append, List.cons.injEq] at h1
      obtain ⟨rfl, _⟩ := h1
      rw [h2.1] at ht
      cases ht

/-- **C115** is violated: if the storage constructed last is initialised at the end of the program and its finaliser throws, the program is
terminated and no other storage is finalised. -/
theorem _root_.Vlpp.C115_violated_exit (fin : Finalisers W) (a : List Nat) (i : Nat) (s : State W) (hi : s.initialized i = true)
    (ht : (fin i s.world).1 = true) :
    destroyAll fin (a ++ [i]) s = .err (called fin s [i]) := by
  have e := ensure_call (fin := fin) hi
  rw [ht, if_pos rfl] at e
  rw [destroyAll, List.reverse_append, List.reverse_singleton, List.singleton_append, finalizeAll, Cpp.bind_err e]

/-- storages 3, 1, 4, 2 of which 4 is not initialised; the finaliser of 1 throws, each writes down its number -/
def sample : Finalisers (List Nat) := fun i w => (i == 1, w ++ [10 * i])

example : ∃ s', finalizeAll sample [3, 1, 4, 2] ⟨fun i => i != 4, [], []⟩ = .err s' ∧ s'.trace = [3, 1] ∧ s'.initialized 2 = true := by
  rcases C115_call_partial sample [3, 1, 4, 2] (by decide) ⟨fun i => i != 4, [], []⟩ with ⟨h, _⟩ | ⟨made, i, rest, h1, h2, h3, h4⟩
  · exact absurd h.2.1 (by decide)
  · have h1 : [3, 1, 2] = made ++ i :: rest := h1
    match made, h1 with
    | [], h1 => cases h1; cases h3
    | [_], h1 => cases h1; exact ⟨_, h4, rfl, rfl⟩
    | _ :: _ :: _, h1 =>
      simp only [List.cons_append, List.cons.injEq] at h1
      obtain ⟨rfl, rfl, _⟩ := h1
      exact absurd h2.2.1 (by decide)

example : ∃ s', retry sample [3, 1, 4, 2] 4 ⟨fun i => i != 4, [], []⟩ = .ok () s' ∧ s'.trace = [3, 1, 2] ∧ s'.world = [30, 10, 20] ∧
    destroyAll sample [3, 1, 4, 2] s' = .ok () s' :=
  ⟨_, C115_again sample [3, 1, 4, 2] (by decide) _ 4 (by decide), rfl, rfl,
    C115_exit sample [3, 1, 4, 2] (by decide) ⟨fun i => i != 4, [], []⟩ _ 4 (by decide) (C115_again sample [3, 1, 4, 2] (by decide) _ 4 (by decide))⟩

example : ∃ s', finalizeAll sample [4, 1, 2] ⟨fun i => i != 4, [], []⟩ = .err s' ∧ s'.initialized 2 = true ∧ s'.trace = [1] :=
  C115_violated_rest sample [4] [2] 1 2 (by decide) _ (by decide) rfl (by decide) rfl rfl

example : destroyAll sample [3, 1] ⟨fun _ => true, [], []⟩ = .err (called sample ⟨fun _ => true, [], []⟩ [1]) :=
  C115_violated_exit sample [3] 1 _ rfl rfl

end StorageThrow
end Vlpp
