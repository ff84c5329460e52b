import Verif.Spec.Resume

/-! Lemmas about sequences that go on after an exception. -/
set_option autoImplicit false
namespace Vlpp.Spec.Plan
variable {W α β : Type}

/-- go on with what was drawn; `K` is what becomes of the rest after an exception -/
def thn (o : Drawn W α) (K : Plan W α → Plan W β) (stop : W → Drawn W β) (item : α → Plan W α → W → Drawn W β) : Drawn W β :=
  match o with
  | .item x r w => item x r w
  | .stop w => stop w
  | .threw r w => .threw (K r) w
  | .fault => .fault

theorem draw_call {γ : Type} (f : Cpp W γ) (k : γ → Plan W α) (lost : Plan W α) (w : W) : draw (call f k lost) w =
    match f w with
    | .ok b w' => draw (k b) w'
    | .err w' => .threw lost w'
    | .fault => .fault := by rw [draw]; rfl

theorem thn_call {γ : Type} (f : Cpp W γ) (k : γ → Plan W α) (lost : Plan W α) (w : W) (K : Plan W α → Plan W β)
    (stop : W → Drawn W β) (item : α → Plan W α → W → Drawn W β) : thn (draw (call f k lost) w) K stop item =
    match f w with
    | .ok b w' => thn (draw (k b) w') K stop item
    | .err w' => .threw (K lost) w'
    | .fault => .fault := by
  rw [draw_call]; cases f w <;> rfl

/-- Induction over what is left after drawing elements. -/
theorem induct {P : Plan W α → Prop} (h : ∀ g, (∀ w x r w', draw g w = .item x r w' → P r) → P g) (g : Plan W α) : P g := by
  suffices key : P g ∧ ∀ w x r w', draw g w = .item x r w' → P r from h g key.2
  induction g with
  | done =>
    have : ∀ w x r w', draw (done : Plan W α) w = .item x r w' → P r := by
      intro w x r w' e; cases e
    exact ⟨h _ this, this⟩
  | yield x r ih =>
    have : ∀ w y s w', draw (yield x r) w = .item y s w' → P s := by
      intro w y s w' e; cases e; exact ih.1
    exact ⟨h _ this, this⟩
  | call f k lost ih =>
    have : ∀ w y s w', draw (call f k lost) w = .item y s w' → P s := by
      intro w y s w' e
      rw [draw_call] at e
      cases hf : f w with
      | ok b w1 => rw [hf] at e; exact (ih b).2 w1 y s w' e
      | err w1 => rw [hf] at e; cases e
      | fault => rw [hf] at e; cases e
    exact ⟨h _ this, this⟩

theorem draw_map (f : α → Cpp W β) (g : Plan W α) (w : W) : draw (map f g) w =
    thn (draw g w) (map f) .stop (fun x r w' =>
      match f x w' with
      | .ok y w'' => .item y (map f r) w''
      | .err w'' => .threw (map f r) w''
      | .fault => .fault) := by
  induction g generalizing w with
  | done => rfl
  | yield x r ih => rw [map, draw_call]; simp only [draw, thn]
  | call c k lost ih ihl => rw [map, draw_call, thn_call]; cases c w <;> simp_all

theorem draw_filter (f : α → Cpp W Bool) (g : Plan W α) (w : W) : draw (filter f g) w =
    thn (draw g w) (filter f) .stop (fun x r w' =>
      match f x w' with
      | .ok true w'' => .item x (filter f r) w''
      | .ok false w'' => draw (filter f r) w''
      | .err w'' => .threw (filter f r) w''
      | .fault => .fault) := by
  induction g generalizing w with
  | done => rfl
  | yield x r ih =>
    rw [filter, draw_call]
    cases hf : f x w with
    | ok b w' => cases b <;> simp_all [draw, thn]
    | err w' => simp_all [draw, thn]
    | fault => simp_all [draw, thn]
  | call c k lost ih ihl => rw [filter, draw_call, thn_call]; cases c w <;> simp_all

theorem draw_append (g h : Plan W α) (w : W) : draw (append g h) w =
    thn (draw g w) (fun r => append r h) (draw h) (fun x r w' => .item x (append r h) w') := by
  induction g generalizing w with
  | done => rfl
  | yield x r ih => rfl
  | call c k lost ih ihl => rw [append, draw_call, thn_call]; cases c w <;> simp_all

theorem draw_firsts (eqv : α → α → Bool) (seen : List α) (g : Plan W α) (w : W) : draw (firsts eqv seen g) w =
    thn (draw g w) (firsts eqv seen) .stop (fun x r w' =>
      bif seen.any (fun y => eqv y x) then draw (firsts eqv seen r) w' else .item x (firsts eqv (seen ++ [x]) r) w') := by
  induction g generalizing w with
  | done => rfl
  | yield x r ih =>
    rw [firsts]
    simp only [draw, thn]
    cases seen.any (fun y => eqv y x) <;> simp [draw]
  | call c k lost ih ihl => rw [firsts, draw_call, thn_call]; cases c w <;> simp_all

theorem take_zero (g : Plan W α) : take 0 g = done := by cases g <;> rfl

theorem take_done (n : Nat) : take n (done : Plan W α) = done := by cases n <;> rfl

theorem draw_take (n : Nat) (g : Plan W α) (w : W) : draw (take (n + 1) g) w =
    thn (draw g w) (take (n + 1)) .stop (fun x r w' => .item x (take n r) w') := by
  induction g generalizing w with
  | done => rfl
  | yield x r ih => rfl
  | call c k lost ih ihl => rw [take, draw_call, thn_call]; cases c w <;> simp_all

theorem drop_zero (g : Plan W α) : drop 0 g = g := by cases g <;> rfl

theorem draw_drop (n : Nat) (g : Plan W α) (w : W) : draw (drop (n + 1) g) w =
    thn (draw g w) (drop (n + 1)) .stop (fun _ r w' => draw (drop n r) w') := by
  induction g generalizing w with
  | done => rfl
  | yield x r ih => rfl
  | call c k lost ih ihl => rw [drop, draw_call, thn_call]; cases c w <;> simp_all

theorem draw_head (item : α → Plan W α → Plan W β) (other : Plan W α → Plan W β) (g : Plan W α) (w : W) :
    draw (head item other g) w = thn (draw g w) other .stop (fun y r w' => draw (item y r) w') := by
  induction g generalizing w with
  | done => rfl
  | yield x r ih => rfl
  | call c k lost ih ihl => rw [head, draw_call, thn_call]; cases c w <;> simp_all

theorem zip_done {g : Plan W α} (h : g.Quiet) : zip g (done : Plan W β) = done := by
  cases g with
  | done => rfl
  | yield x r => rfl
  | call c k lost => exact h.elim

theorem quiet_ofList (xs : List α) : (ofList xs : Plan W α).Quiet := by
  induction xs with
  | nil => trivial
  | cons x xs ih => exact ih

theorem sure_ofList (xs : List α) : (ofList xs : Plan W α).Sure := by
  induction xs with
  | nil => trivial
  | cons x xs ih => exact ih

theorem sure_draw {g : Plan W α} (h : g.Sure) (w : W) :
    (∀ r w', draw g w ≠ .threw r w') ∧ ∀ x r w', draw g w = .item x r w' → r.Sure := by
  induction g generalizing w with
  | done => exact ⟨(by intro r w' e; cases e), (by intro x r w' e; cases e)⟩
  | yield x r ih => exact ⟨(by intro r w' e; cases e), (by intro x r w' e; cases e; exact h)⟩
  | call c k lost ih ihl =>
    rw [draw_call]
    cases hc : c w with
    | ok b w1 => exact ih b (h.2 b) w1
    | err w1 => exact (h.1 w w1 hc).elim
    | fault => exact ⟨(by intro r w' e; cases e), (by intro x r w' e; cases e)⟩

end Vlpp.Spec.Plan
