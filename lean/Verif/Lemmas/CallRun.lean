import Verif.Model.CallRun
import Verif.Lemmas.CallList

/-! Programs that use enumerators of a lazy list see its sequence. -/
set_option autoImplicit false
namespace Vlpp.CallList
open Spec (Gen ReadOp ReadRet Reader)
variable {W α : Type}

/-- two lists whose elements belong together one by one -/
inductive Match {σ : Type} {ρ : Type 1} (P : σ → ρ → Prop) : List σ → List ρ → Prop
  | nil : Match P [] []
  | cons {s r ss rs} : P s r → Match P ss rs → Match P (s :: ss) (r :: rs)

section
variable {L : CallList W α} {g0 : Gen W α} {i0 : Int}

/-- enumerator `s` is where reader `r` is -/
def At (c : L.A.Sim g0 i0) (s : L.A.σ) (r : Reader W α) : Prop :=
  match r.left with
  | some g => c.R s r.seen g
  | none => c.I s

theorem At.inv {c : L.A.Sim g0 i0} {s : L.A.σ} {r : Reader W α} (h : At c s r) : c.I s := by
  obtain ⟨ys, _ | g⟩ := r
  · exact h
  · exact c.inv h

theorem match_get {σ : Type} {ρ : Type 1} {P : σ → ρ → Prop} {ss : List σ} {rs : List ρ} (h : Match P ss rs) {i : Nat} {r : ρ}
    (hr : rs[i]? = some r) : ∃ s, ss[i]? = some s ∧ P s r := by
  induction h generalizing i with
  | nil => simp at hr
  | cons h _ ih =>
    cases i with
    | zero => simp at hr; subst hr; exact ⟨_, rfl, h⟩
    | succ i => exact ih (by simpa using hr)

theorem match_set {σ : Type} {ρ : Type 1} {P : σ → ρ → Prop} {ss : List σ} {rs : List ρ} (h : Match P ss rs) (i : Nat) {s : σ} {r : ρ}
    (hs : P s r) : Match P (ss.set i s) (rs.set i r) := by
  induction h generalizing i with
  | nil => exact .nil
  | cons h hl ih =>
    cases i with
    | zero => exact .cons hs hl
    | succ i => exact .cons h (ih i)

theorem match_snoc {σ : Type} {ρ : Type 1} {P : σ → ρ → Prop} {ss : List σ} {rs : List ρ} (h : Match P ss rs) {s : σ} {r : ρ}
    (hs : P s r) : Match P (ss ++ [s]) (rs ++ [r]) := by
  induction h with
  | nil => exact .cons hs .nil
  | cons h _ ih => exact .cons h ih

theorem perform_step (c : L.A.Sim g0 i0) (hp : c.R L.prototype [] g0) {ss : List L.A.σ} {rs : List (Reader W α)}
    (h : Match (At c) ss rs) (w : W) (op : ReadOp) :
    match Reader.step g0 rs w op with
    | none => True
    | some .fault => L.perform ss w op = some .fault
    | some (.err _) => False
    | some (.ok r (rs', w')) => ∃ ss', L.perform ss w op = some (.ok r (ss', w')) ∧ Match (At c) ss' rs' := by
  cases op with
  | create =>
    obtain ⟨s, e, hs⟩ := c.clone hp
    exact ⟨ss ++ [s], by simp [perform, create, e], match_snoc h hs⟩
  | clone i =>
    rw [Reader.step]
    cases hr : rs[i]? with
    | none => trivial
    | some r =>
      obtain ⟨s, e, hs⟩ := match_get h hr
      obtain ⟨ys, _ | g⟩ := r
      · obtain ⟨s', e', hs'⟩ := c.cloneI hs
        exact ⟨ss ++ [s'], by simp [perform, e, e'], match_snoc h hs'⟩
      · obtain ⟨s', e', hs'⟩ := c.clone hs
        exact ⟨ss ++ [s'], by simp [perform, e, e'], match_snoc h hs'⟩
  | next i =>
    rw [Reader.step]
    cases hr : rs[i]? with
    | none => trivial
    | some r =>
      obtain ⟨s, e, hs⟩ := match_get h hr
      obtain ⟨ys, _ | g⟩ := r
      · trivial
      · have hn := c.next hs w
        simp only
        revert hn
        cases g.pull w with
        | fault => intro hn; simp only [CallAtor.Answers] at hn; simp [perform, e, hn]
        | err w' =>
          rintro ⟨s', e', hi⟩
          exact ⟨ss.set i s', by simp [perform, e, e'], match_set h i hi⟩
        | ok o w' =>
          match o with
          | none =>
            rintro ⟨s', e', hi⟩
            exact ⟨ss.set i s', by simp [perform, e, e'], match_set h i hi⟩
          | some (x, r) =>
            rintro ⟨s', e', hi⟩
            exact ⟨ss.set i s', by simp [perform, e, e'], match_set h i hi⟩
  | current i =>
    rw [Reader.step]
    cases hr : rs[i]? with
    | none => trivial
    | some r =>
      obtain ⟨s, e, hs⟩ := match_get h hr
      obtain ⟨ys, _ | g⟩ := r
      · trivial
      · simp only
        cases hy : ys.getLast? with
        | none => trivial
        | some y => exact ⟨ss, by simp [perform, e, c.current hs y hy], h⟩
  | index i =>
    rw [Reader.step]
    cases hr : rs[i]? with
    | none => trivial
    | some r =>
      obtain ⟨s, e, hs⟩ := match_get h hr
      obtain ⟨_ | ⟨y, ys⟩, _ | g⟩ := r
      · trivial
      · trivial
      · trivial
      · exact ⟨ss, by simp [perform, e, c.index hs], h⟩
  | reset i =>
    rw [Reader.step]
    cases hr : rs[i]? with
    | none => trivial
    | some r =>
      obtain ⟨s, e, hs⟩ := match_get h hr
      exact ⟨ss.set i (L.A.reset s), by simp [perform, e], match_set h i (c.reset hs.inv)⟩

theorem run_run (c : L.A.Sim g0 i0) (hp : c.R L.prototype [] g0) (ops : List ReadOp) : ∀ {ss : List L.A.σ} {rs : List (Reader W α)}
    (_ : Match (At c) ss rs) (w : W) (r : Outcome W (List (ReadRet α × W))), Reader.run g0 rs w ops = some r → L.run ss w ops = some r := by
  induction ops with
  | nil => intro ss rs h w r hr; exact hr
  | cons op ops ih =>
    intro ss rs h w r hr
    have := perform_step c hp h w op
    rw [Reader.run] at hr
    rw [run]
    revert this hr
    match Reader.step g0 rs w op with
    | none => simp
    | some .fault => simp only; intro hr e; rw [e]; exact hr
    | some (.err (_, w')) => simp
    | some (.ok x (rs', w')) =>
      rintro hr ⟨ss', e, h'⟩
      rw [e]
      simp only at hr ⊢
      revert hr
      cases hq : Reader.run g0 rs' w' ops with
      | none => simp
      | some q => rw [ih h' w' q hq]; exact id

end

theorem Holds.run {L : CallList W α} {g : Gen W α} {fresh : Prop} (h : L.Holds g fresh) (w : W) (ops : List ReadOp)
    (r : Outcome W (List (ReadRet α × W))) (hr : Reader.run g [] w ops = some r) : L.run [] w ops = some r := by
  obtain ⟨i0, c, hp, _⟩ := h
  exact run_run c hp ops .nil w r hr

end Vlpp.CallList
