import Verif.Spec.Calls

/-! Lemmas about sequences that are computed by calling functions. -/
set_option autoImplicit false
namespace Vlpp.Spec.Gen
variable {W α β γ : Type}

/-- go on with the element that was pulled -/
def then' {β : Type _} (o : Outcome W (Option (α × Gen W α))) (k : Option (α × Gen W α) → W → Outcome W β) : Outcome W β :=
  match o with
  | .ok r w => k r w
  | .err w => .err w
  | .fault => .fault

theorem pull_call {β : Type} (f : Cpp W β) (k : β → Gen W α) (w : W) : pull (call f k) w =
    match f w with
    | .ok b w' => pull (k b) w'
    | .err w' => .err w'
    | .fault => .fault := by rw [pull]; rfl

theorem then'_call {β : Type} {γ : Type _} (f : Cpp W β) (k : β → Gen W α) (w : W)
    (c : Option (α × Gen W α) → W → Outcome W γ) : then' (pull (call f k) w) c =
    match f w with
    | .ok b w' => then' (pull (k b) w') c
    | .err w' => .err w'
    | .fault => .fault := by
  rw [pull_call]; cases f w <;> rfl

/-- Induction over what is left after pulling elements. -/
theorem induct {P : Gen W α → Prop} (h : ∀ g, (∀ w x r w', pull g w = .ok (some (x, r)) w' → P r) → P g) (g : Gen W α) : P g := by
  suffices hs : ∀ w x r w', pull g w = .ok (some (x, r)) w' → P r from h g hs
  have key : P g ∧ ∀ w x r w', pull g w = .ok (some (x, r)) w' → P r := by
    induction g with
    | done =>
      have : ∀ w x r w', pull (done : Gen W α) w = .ok (some (x, r)) w' → P r := by
        intro w x r w' e; cases e
      exact ⟨h _ this, this⟩
    | yield x r ih =>
      have : ∀ w y s w', pull (yield x r) w = .ok (some (y, s)) w' → P s := by
        intro w y s w' e; cases e; exact ih.1
      exact ⟨h _ this, this⟩
    | call f k ih =>
      have : ∀ w y s w', pull (call f k) w = .ok (some (y, s)) w' → P s := by
        intro w y s w' e
        rw [pull_call] at e
        cases hf : f w with
        | ok b w1 => rw [hf] at e; exact (ih b).2 w1 y s w' e
        | err w1 => rw [hf] at e; cases e
        | fault => rw [hf] at e; cases e
      exact ⟨h _ this, this⟩
  exact key.2

theorem pull_map (f : α → Cpp W β) (g : Gen W α) (w : W) : pull (map f g) w =
    then' (pull g w) (fun r w' =>
      match r with
      | none => .ok none w'
      | some (x, r) =>
        match f x w' with
        | .ok y w'' => .ok (some (y, map f r)) w''
        | .err w'' => .err w''
        | .fault => .fault) := by
  induction g generalizing w with
  | done => rfl
  | yield x r ih => rw [map, pull_call]; simp only [pull, then']
  | call c k ih => rw [map, pull_call, then'_call]; cases c w <;> simp_all

theorem pull_filter (f : α → Cpp W Bool) (g : Gen W α) (w : W) : pull (filter f g) w =
    then' (pull g w) (fun r w' =>
      match r with
      | none => .ok none w'
      | some (x, r) =>
        match f x w' with
        | .ok true w'' => .ok (some (x, filter f r)) w''
        | .ok false w'' => pull (filter f r) w''
        | .err w'' => .err w''
        | .fault => .fault) := by
  induction g generalizing w with
  | done => rfl
  | yield x r ih =>
    rw [filter, pull_call]
    cases hf : f x w with
    | ok b w' => cases b <;> simp_all [pull, then']
    | err w' => simp_all [pull, then']
    | fault => simp_all [pull, then']
  | call c k ih => rw [filter, pull_call, then'_call]; cases c w <;> simp_all

theorem pull_append (g h : Gen W α) (w : W) : pull (append g h) w =
    then' (pull g w) (fun r w' =>
      match r with
      | none => pull h w'
      | some (x, r) => .ok (some (x, append r h)) w') := by
  induction g generalizing w with
  | done => rfl
  | yield x r ih => rfl
  | call c k ih => rw [append, pull_call, then'_call]; cases c w <;> simp_all

theorem pull_head (k : α → Gen W α → Gen W β) (g : Gen W α) (w : W) : pull (head k g) w =
    then' (pull g w) (fun r w' =>
      match r with
      | none => .ok none w'
      | some (x, r) => pull (k x r) w') := by
  induction g generalizing w with
  | done => rfl
  | yield x r ih => rfl
  | call c k ih => rw [head, pull_call, then'_call]; cases c w <;> simp_all

theorem pull_zip (g : Gen W α) (h : Gen W β) (w : W) : pull (zip g h) w =
    then' (pull g w) (fun r w' =>
      match r with
      | none => .ok none w'
      | some (x, r) => then' (pull h w') (fun q w'' =>
        match q with
        | none => .ok none w''
        | some (y, s) => .ok (some ((x, y), zip r s)) w'')) := by
  induction g generalizing w with
  | done => rfl
  | yield x r ih =>
    rw [zip, pull_head]
    rfl
  | call c k ih => rw [zip, pull_call, then'_call]; cases c w <;> simp_all

theorem pull_take (n : Nat) (g : Gen W α) (w : W) : pull (take (n + 1) g) w =
    then' (pull g w) (fun r w' =>
      match r with
      | none => .ok none w'
      | some (x, r) => .ok (some (x, take n r)) w') := by
  induction g generalizing w with
  | done => rfl
  | yield x r ih => rfl
  | call c k ih => rw [take, pull_call, then'_call]; cases c w <;> simp_all

theorem take_zero (g : Gen W α) : take 0 g = done := by cases g <;> rfl

theorem drop_zero (g : Gen W α) : drop 0 g = g := by cases g <;> rfl

theorem pull_drop (n : Nat) (g : Gen W α) (w : W) : pull (drop (n + 1) g) w =
    then' (pull g w) (fun r w' =>
      match r with
      | none => .ok none w'
      | some (_, r) => pull (drop n r) w') := by
  induction g generalizing w with
  | done => rfl
  | yield x r ih => rfl
  | call c k ih => rw [drop, pull_call, then'_call]; cases c w <;> simp_all

theorem pull_firsts (eqv : α → α → Bool) (seen : List α) (g : Gen W α) (w : W) : pull (firsts eqv seen g) w =
    then' (pull g w) (fun r w' =>
      match r with
      | none => .ok none w'
      | some (x, r) =>
        bif seen.any (fun y => eqv y x) then pull (firsts eqv seen r) w'
        else .ok (some (x, firsts eqv (seen ++ [x]) r)) w') := by
  induction g generalizing w with
  | done => rfl
  | yield x r ih =>
    rw [firsts]
    simp only [pull, then']
    cases seen.any (fun y => eqv y x) <;> simp [pull]
  | call c k ih => rw [firsts, pull_call, then'_call]; cases c w <;> simp_all

theorem foldM_pull.{u} {β : Type u} (body : β → α → Cpp W β) (acc : β) (g : Gen W α) (w : W) : foldM body acc g w =
    then' (pull g w) (fun r w' =>
      match r with
      | none => .ok acc w'
      | some (x, r) =>
        match body acc x w' with
        | .ok acc' w'' => foldM body acc' r w''
        | .err w'' => .err w''
        | .fault => .fault) := by
  induction g generalizing w with
  | done => rfl
  | yield x r ih => rw [foldM]; simp only [pull, then']; cases body acc x w <;> rfl
  | call c k ih => rw [foldM, then'_call]; simp only; cases c w <;> simp_all

theorem append_done (g : Gen W α) : append g done = g := by
  induction g with
  | done => rfl
  | yield x r ih => rw [append, ih]
  | call c k ih => rw [append]; congr 1; funext b; exact ih b

theorem append_assoc (g h k : Gen W α) : append (append g h) k = append g (append h k) := by
  induction g with
  | done => rfl
  | yield x r ih => rw [append, append, append, ih]
  | call c f ih => rw [append, append, append]; congr 1; funext b; exact ih b

theorem append_concat (g : Gen W α) (gs : List (Gen W α)) : gs.foldl append g = append g (concat gs) := by
  induction gs generalizing g with
  | nil => exact (append_done g).symm
  | cons h gs ih => rw [List.foldl_cons, ih, concat, append_assoc]

theorem concat_snoc (gs : List (Gen W α)) (g : Gen W α) : concat (gs ++ [g]) = append (concat gs) g := by
  induction gs with
  | nil => rw [List.nil_append, concat, concat, concat, append_done]; rfl
  | cons h gs ih => rw [List.cons_append, concat, concat, ih, append_assoc]

/-! Loops -/

/-- A loop whose body calls nothing. -/
theorem foldM_pure (f : β → α → β) (b : β) (g : Gen W α) : ∀ (l : List α) (w : W),
    foldM (fun b x => Cpp.pure' (f b x)) (l.foldl f b) g w =
      Cpp.bind' (foldM (fun l x => Cpp.pure' (l ++ [x])) l g) (fun xs => Cpp.pure' (xs.foldl f b)) w := by
  induction g with
  | done => intro l w; rfl
  | yield x r ih =>
    intro l w
    have := ih (l ++ [x]) w
    rw [List.foldl_append] at this
    exact this
  | call c k ih =>
    intro l w
    simp only [Cpp.bind', foldM]
    cases c w with
    | ok b' w' => exact ih b' l w'
    | err w' => rfl
    | fault => rfl

/-- The first element comes first. -/
theorem collect_pull (g : Gen W α) (w : W) :
    collect g w = then' (pull g w) (fun o => match o with
      | none => Cpp.pure' []
      | some (x, r) => Cpp.bind' (collect r) (fun xs => Cpp.pure' (x :: xs))) := by
  rw [collect, foldM_pull]
  cases pull g w with
  | fault => rfl
  | err w' => rfl
  | ok o w' =>
    match o with
    | none => rfl
    | some (x, r) =>
      have e : ∀ (r : Gen W α) (l : List α) (w : W), foldM (fun l x => Cpp.pure' (l ++ [x])) (x :: l) r w =
          Cpp.bind' (foldM (fun l x => Cpp.pure' (l ++ [x])) l r) (fun xs => Cpp.pure' (x :: xs)) w := by
        intro r
        induction r with
        | done => intro l w; rfl
        | yield y r ih => intro l w; exact ih (l ++ [y]) w
        | call c k ih =>
          intro l w
          simp only [Cpp.bind', foldM]
          cases c w with
          | ok b' w' => exact ih b' l w'
          | err w' => rfl
          | fault => rfl
      exact e r [] w'

/-! Sequences without calls -/

theorem ofList_append (xs ys : List α) : append (ofList xs : Gen W α) (ofList ys) = ofList (xs ++ ys) := by
  induction xs with
  | nil => rfl
  | cons x xs ih => rw [ofList, append, ih]; rfl

theorem ofList_zip (xs : List α) (ys : List β) : zip (ofList xs : Gen W α) (ofList ys) = ofList (xs.zip ys) := by
  induction xs generalizing ys with
  | nil => rfl
  | cons x xs ih =>
    cases ys with
    | nil => rfl
    | cons y ys => rw [ofList, ofList, zip, head, ih]; rfl

theorem ofList_take (n : Nat) (xs : List α) : take n (ofList xs : Gen W α) = ofList (xs.take n) := by
  induction n generalizing xs with
  | zero => rw [take_zero]; rfl
  | succ n ih =>
    cases xs with
    | nil => rfl
    | cons x xs => rw [ofList, take, ih]; rfl

theorem ofList_drop (n : Nat) (xs : List α) : drop n (ofList xs : Gen W α) = ofList (xs.drop n) := by
  induction n generalizing xs with
  | zero => rw [drop_zero]; rfl
  | succ n ih =>
    cases xs with
    | nil => rfl
    | cons x xs => rw [ofList, drop, ih]; rfl

theorem ofList_replicate (n : Nat) (xs : List α) :
    replicate n (ofList xs : Gen W α) = ofList (List.replicate n xs).flatten := by
  induction n with
  | zero => rfl
  | succ n ih => rw [replicate, ih, ofList_append]; rfl

theorem ofList_foldM {β : Type} (f : β → α → β) (acc : β) (xs : List α) (w : W) :
    foldM (fun b x => Cpp.pure' (f b x)) acc (ofList xs : Gen W α) w = .ok (xs.foldl f acc) w := by
  induction xs generalizing acc with
  | nil => rfl
  | cons x xs ih => exact ih (f acc x)

theorem ofList_collect (xs : List α) (w : W) : collect (ofList xs : Gen W α) w = .ok xs w := by
  rw [collect, ofList_foldM (fun l x => l ++ [x])]
  congr 1
  have : ∀ l : List α, xs.foldl (fun l x => l ++ [x]) l = l ++ xs := by
    induction xs with
    | nil => simp
    | cons x xs ih => intro l; simp [ih]
  simpa using this []

end Vlpp.Spec.Gen
