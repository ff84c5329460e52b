import Verif.Spec.Report
import Verif.Props.UnitTestProps
import Verif.Props.NumberProps
import Verif.Props.ConsoleProps

/-!
# Property C95: the report of a test run
-/
set_option autoImplicit false
namespace Vlpp
open UnitTest
open Spec (Report Line told escaped fileReport fileLines Summary allCalls NoGroups Unguarded ConsoleCall)

namespace UnitTest

/-! ## Outlines -/

theorem append_done (r : Report) : r.append .done = r := by
  induction r <;> simp_all [Report.append]

theorem append_assoc (a b c : Report) : (a.append b).append c = a.append (b.append c) := by
  induction a <;> simp_all [Report.append]

theorem clean_append (a b : Report) : (a.append b).clean = (a.clean && b.clean) := by
  induction a <;> simp_all [Report.append, Report.clean, Bool.and_assoc]

theorem cases_append (a b : Report) : (a.append b).cases = a.cases ++ b.cases := by
  induction a <;> simp_all [Report.append, Report.cases]

theorem lines_append (a b : Report) (n : Nat) : (a.append b).lines n = a.lines n ++ b.lines n := by
  induction a <;> simp_all [Report.append, Report.lines]

theorem allCalls_append (a b : List Line) : allCalls (a ++ b) = allCalls a ++ allCalls b := by simp [allCalls]

theorem allCalls_cons (a : Line) (b : List Line) : allCalls (a :: b) = allCalls [a] ++ allCalls b := by simp [allCalls]

theorem escaped_some (t : Thrown) : escaped (some t) = .message true t.text .done := by
  obtain ⟨e, m⟩ := t
  cases e <;> rfl

theorem escaped_cases (t : Option Thrown) : (escaped t).cases = [] := by
  cases t with
  | none => rfl
  | some t => rw [escaped_some]; rfl

theorem escaped_clean (t : Option Thrown) : (escaped t).clean = t.isNone := by
  cases t with
  | none => rfl
  | some t => rw [escaped_some]; rfl

/-- a case reports no errors itself -/
theorem told_case_clean (code : RCode) : (told .case code).1.clean = true ∧ (told .case code).1.cases = [] := by
  induction code with
  | done => exact ⟨rfl, rfl⟩
  | raise t => exact ⟨rfl, rfl⟩
  | assert b text next ih =>
    cases b
    · exact ⟨rfl, rfl⟩
    · simpa [told] using ih
  | print m next ih => simpa [told, Report.clean, Report.cases] using ih
  | expectError text body next ihb ihn =>
    simp only [told]
    rw [if_neg (by simp)]
    split <;> simp [clean_append, cases_append, ihb, ihn]
  | expectException e type text body handler next ihb ihh ihn =>
    simp only [told]
    split
    · split <;> simp [clean_append, cases_append, ihb, ihn, ihh]
    · simp [ihb]
  | group c d body next ihb ihn => simp [told, Report.clean, Report.cases]
  | tryAll body next ihb ihn => simp [told, clean_append, cases_append, ihb, ihn]

/-- without categories and cases there are no errors in the outline -/
theorem told_noGroups_clean (k : Kind) (code : RCode) : NoGroups code → (told k code).1.clean = true := by
  induction code with
  | done => exact fun _ => rfl
  | raise t => exact fun _ => rfl
  | assert b text next ih =>
    intro h
    simp only [told]
    split
    · rfl
    · split
      · exact ih h
      · rfl
  | print m next ih => intro h; simpa [told, Report.clean] using ih h
  | expectError text body next ihb ihn =>
    intro h
    simp only [told]
    split
    · rfl
    · split <;> simp [clean_append, ihb h.1, ihn h.2]
  | expectException e type text body handler next ihb ihh ihn =>
    intro h
    simp only [told]
    split
    · split <;> simp [clean_append, ihb h.1, ihn h.2.2, ihh h.2.1]
    · simp [ihb h.1]
  | group c d body next ihb ihn => exact fun h => h.elim
  | tryAll body next ihb ihn => intro h; simp [told, clean_append, ihb h.1, ihn h.2]

/-! ## Execution -/

/-- all contexts failed -/
def rmark (b : Bool) (cs : List RContext) : List RContext := cs.map fun c => { c with failed := c.failed || b }

theorem rmark_false (cs : List RContext) : rmark false cs = cs := by simp [rmark]

theorem rmark_rmark (a b : Bool) (cs : List RContext) : rmark b (rmark a cs) = rmark (a || b) cs := by
  simp [rmark, Bool.or_assoc]

theorem rmark_cons (b : Bool) (c : RContext) (cs : List RContext) : rmark b (c :: cs) = { c with failed := c.failed || b } :: rmark b cs := rfl

theorem rmark_length (b : Bool) (cs : List RContext) : (rmark b cs).length = cs.length := by simp [rmark]

/-- what an outline does to a state -/
def told.after (r : Report) (n : Nat) (s : RState) : RState :=
  ⟨rmark (!r.clean) s.contexts, s.totalCases + r.cases.length, s.passedCases + r.cases.count true, s.out ++ allCalls (r.lines n)⟩

theorem after_done (n : Nat) (s : RState) : told.after .done n s = s := by
  simp [told.after, Report.clean, Report.cases, Report.lines, allCalls, rmark_false]

theorem after_append (a b : Report) (n : Nat) (s : RState) : told.after b n (told.after a n s) = told.after (a.append b) n s := by
  simp [told.after, clean_append, cases_append, lines_append, allCalls_append, rmark_rmark, List.count_append, Nat.add_assoc]

/-- the contexts exist, the innermost one is of this kind, at this level -/
def Stands (k : Kind) (n : Nat) (s : RState) : Prop :=
  ∃ f cs, s.contexts = ⟨k, f, List.replicate (4 * n) 32, true⟩ :: cs ∧ ∀ c ∈ cs, c.alive = true

theorem Stands.after {k : Kind} {n : Nat} {s : RState} (h : Stands k n s) (r : Report) (m : Nat) : Stands k n (told.after r m s) := by
  obtain ⟨f, cs, h, ha⟩ := h
  refine ⟨f || !r.clean, rmark (!r.clean) cs, by simp [told.after, h, rmark_cons], ?_⟩
  intro c hc
  simp only [rmark, List.mem_map] at hc
  obtain ⟨c', hc', rfl⟩ := hc
  exact ha c' hc'

theorem Stands.deref {k : Kind} {n : Nat} {s : RState} (h : Stands k n s) :
    ∃ f, s.deref = some (some ⟨k, f, List.replicate (4 * n) 32, true⟩) := by
  obtain ⟨f, cs, h, _⟩ := h
  exact ⟨f, by simp [RState.deref, h]⟩

theorem Stands.alive {k : Kind} {n : Nat} {s : RState} (h : Stands k n s) : s.contexts.all (·.alive) = true := by
  obtain ⟨f, cs, h, ha⟩ := h
  simp [h]
  exact ha

theorem lit_spaces : lit "    " = List.replicate 4 32 := by decide

/-- a line is written -/
theorem printMessage_eq {k : Kind} {n : Nat} {s : RState} (h : Stands k n s) (text : List Nat) (kind : MessageKind) :
    printMessage text kind s = some (none, { s with out := s.out ++ allCalls [⟨kind, n, text⟩] }) := by
  have hne : s.contexts ≠ [] := by obtain ⟨f, cs, h, _⟩ := h; simp [h]
  obtain ⟨f, hd⟩ := h.deref
  unfold printMessage
  rw [if_neg (by simp [hne]), hd]
  cases kind <;> rfl

theorem recordFailure_eq' {k : Kind} {n : Nat} {s : RState} (h : Stands k n s) (t : Thrown) :
    rRecordFailure t.text s = some (told.after (escaped (some t)) n s) := by
  have ha := h.alive
  unfold rRecordFailure
  rw [printMessage_eq h]
  simp only [Option.bind_eq_bind, Option.bind_some, ha, if_true]
  rw [escaped_some]
  simp [told.after, Report.clean, Report.cases, Report.lines, rmark]

theorem afterCallback_eq {k : Kind} {n : Nat} {s : RState} (h : Stands k n s) (e : Option Thrown) (suppress : Bool)
    (hs : suppress = true ∨ e = none) : afterCallback suppress (e, s) = some (none, told.after (escaped e) n s) := by
  cases e with
  | none => simp [afterCallback, escaped, after_done]
  | some t =>
    rcases hs with rfl | hs
    · simp [afterCallback, recordFailure_eq' h]
    · cases hs

theorem ensure_eq {k : Kind} {n : Nat} {s : RState} (h : Stands k n s) :
    ensureLegalToAssert s = some (if k ≠ .case then some ⟨.configError, lit "Assertion is not allowed to execute outside of TEST_CASE."⟩ else none) := by
  obtain ⟨f, hd⟩ := h.deref
  simp only [ensureLegalToAssert, hd]
  by_cases hk : k = .case <;> simp [hk]

theorem enterGroup_case {n : Nat} {s : RState} (h : Stands .case n s) (c : Bool) (d : List Nat) :
    enterGroup c d s = some (some ⟨.configError, lit (if c then "TEST_CATEGORY is not allowed to execute inside TEST_CASE"
        else "TEST_CASE is not allowed to execute inside TEST_CASE")⟩, s) := by
  obtain ⟨f, hd⟩ := h.deref
  simp only [enterGroup, hd]
  cases c <;> rfl

/-- a group begins -/
def entered (c : Bool) (d : List Nat) (n : Nat) (s : RState) : RState :=
  { s with contexts := ⟨if c then .category else .case, false, List.replicate (4 * (n + 1)) 32, true⟩ :: s.contexts,
           out := s.out ++ allCalls [⟨if c then .category else .case, n, d⟩] }

theorem enterGroup_eq {k : Kind} {n : Nat} {s : RState} (h : Stands k n s) (hk : k ≠ .case) (c : Bool) (d : List Nat) :
    enterGroup c d s = some (none, entered c d n s) := by
  obtain ⟨f, hd⟩ := h.deref
  simp only [enterGroup, hd, Option.bind_eq_bind, Option.bind_some]
  rw [if_neg (by exact hk), printMessage_eq h]
  simp only [Option.bind_some, entered]
  rw [lit_spaces, show 4 * (n + 1) = 4 * n + 4 by omega, ← List.replicate_append_replicate]
  rfl

theorem entered_stands {k : Kind} {n : Nat} {s : RState} (h : Stands k n s) (c : Bool) (d : List Nat) :
    Stands (if c then .category else .case) (n + 1) (entered c d n s) := by
  refine ⟨false, s.contexts, rfl, ?_⟩
  have := h.alive
  simpa using this

/-- a group ends -/
theorem leaveGroup_eq {n : Nat} {s : RState} (c : Bool) (d : List Nat) (r : Report) :
    leaveGroup c s.contexts.length (told.after r (n + 1) (entered c d n s)) = some (told.after (.section c d r .done) n s) := by
  have e1 : (told.after r (n + 1) (entered c d n s)).contexts =
      ⟨if c then .category else .case, !r.clean, List.replicate (4 * (n + 1)) 32, true⟩ :: rmark (!r.clean) s.contexts := by
    simp [told.after, entered, rmark_cons]
  have e2 : (told.after r (n + 1) (entered c d n s)).deref =
      some (some ⟨if c then .category else .case, !r.clean, List.replicate (4 * (n + 1)) 32, true⟩) := by
    simp [RState.deref, e1]
  have hlen : (rmark (!r.clean) s.contexts).length + 1 - s.contexts.length = 1 := by rw [rmark_length]; omega
  have eout : allCalls ((Report.section c d r .done).lines n) = allCalls [⟨if c then .category else .case, n, d⟩] ++ allCalls (r.lines (n + 1)) := by
    simp [Report.lines, allCalls]
  cases c
  · simp only [leaveGroup, countCase, Bool.false_eq_true, if_false, e2, Option.map_some, e1, List.length_cons, hlen, List.drop_one, List.tail_cons]
    have hl : r.clean = true ∨ r.clean = false := by cases r.clean <;> simp
    rcases hl with hl | hl <;>
      simp [told.after, entered, Report.clean, Report.cases, hl, List.count_append, Nat.add_assoc] <;>
      simpa using eout.symm
  · simp only [leaveGroup, countCase, if_true, Option.map_some, e1, List.length_cons, hlen, List.drop_one, List.tail_cons]
    simp [told.after, entered, Report.clean, Report.cases]
    simpa using eout.symm

theorem clean_append_left {a b : Report} (h : (a.append b).clean = true) : a.clean = true := by
  rw [clean_append] at h; simp at h; exact h.1

theorem clean_append_right {a b : Report} (h : (a.append b).clean = true) : b.clean = true := by
  rw [clean_append] at h; simp at h; exact h.2

/-- Execution does what the outline says, if failures are suppressed or there are none. -/
theorem rexec_eq (suppress : Bool) (code : RCode) : ∀ (k : Kind) (n : Nat) (s : RState), Stands k n s →
    (suppress = true ∨ (told k code).1.clean = true) →
    rexec suppress code s = some ((told k code).2, told.after (told k code).1 n s) := by
  induction code with
  | done => intro k n s _ _; simp [rexec, told, after_done]
  | raise t => intro k n s _ _; simp [rexec, told, after_done]
  | assert b text next ih =>
    intro k n s h hs
    simp only [rexec, ensure_eq h, Option.bind_eq_bind, Option.bind_some]
    by_cases hk : k = .case
    · subst hk
      cases b
      · simp [told, after_done]
      · have := ih .case n s h (by simpa [told] using hs)
        simpa [told] using this
    · simp [told, hk, after_done]
  | print m next ih =>
    intro k n s h hs
    simp only [rexec, printMessage_eq h, Option.bind_eq_bind, Option.bind_some]
    have e : ({ s with out := s.out ++ allCalls [⟨.info, n, m⟩] } : RState) = told.after (.message false m .done) n s := by
      simp [told.after, Report.clean, Report.cases, Report.lines, rmark_false]
    rw [e, ih k n _ (h.after _ _) (by simpa [told, Report.clean] using hs), after_append]
    simp [told, Report.append]
  | expectError text body next ihb ihn =>
    intro k n s h hs
    simp only [rexec, ensure_eq h, Option.bind_eq_bind, Option.bind_some]
    by_cases hk : k = .case
    · subst hk
      have hb := ihb .case n s h (.inr (told_case_clean body).1)
      have hn := ihn .case n _ (h.after (told .case body).1 n) (.inr (told_case_clean next).1)
      simp only [told, ne_eq, not_true_eq_false, if_false, hb, Option.bind_some]
      cases he : (told .case body).2 with
      | none => simp
      | some t =>
        obtain ⟨e, m⟩ := t
        cases e <;> simp [hn, after_append]
    · simp [told, hk, after_done]
  | expectException e type text body handler next ihb ihh ihn =>
    intro k n s h hs
    have hb := ihb k n s h
    have hh := ihh k n _ (h.after (told k body).1 n)
    have hn := ihn k n _ ((h.after (told k body).1 n).after (told k handler).1 n)
    have hget : ((told k body).2.getD ⟨.assertError, lit "Expect [" ++ type ++ lit "] but nothing occurred: " ++ text⟩).exc =
        ((told k body).2.map (·.exc)).getD .assertError := by
      cases (told k body).2 <;> rfl
    simp only [told] at hs ⊢
    simp only [rexec]
    by_cases he : ((told k body).2.map (·.exc)).getD .assertError = e
    · rw [if_pos he] at hs ⊢
      cases ht : (told k handler).2 with
      | none =>
        simp only [ht] at hs hh ⊢
        have hb := hb (hs.imp_right fun hs => clean_append_left (clean_append_left hs))
        have hh := hh (hs.imp_right fun hs => clean_append_right (clean_append_left hs))
        have hn := hn (hs.imp_right fun hs => clean_append_right hs)
        rw [hb]
        simp only [Option.bind_eq_bind, Option.bind_some]
        rw [hget, if_pos he, hh]
        simp only [Option.bind_some]
        rw [hn, after_append, after_append, append_assoc]
      | some t =>
        simp only [ht] at hs hh ⊢
        have hb := hb (hs.imp_right fun hs => clean_append_left hs)
        have hh := hh (hs.imp_right fun hs => clean_append_right hs)
        rw [hb]
        simp only [Option.bind_eq_bind, Option.bind_some]
        rw [hget, if_pos he, hh]
        simp [after_append]
    · rw [if_neg he] at hs ⊢
      have hb := hb hs
      rw [hb]
      simp only [Option.bind_eq_bind, Option.bind_some]
      rw [hget, if_neg he]
      rfl
  | group c d body next ihb ihn =>
    intro k n s h hs
    by_cases hk : k = .case
    · subst hk
      simp [rexec, enterGroup_case h, told, after_done]
    · simp only [rexec, enterGroup_eq h hk, Option.bind_eq_bind, Option.bind_some]
      simp only [told, if_neg hk] at hs ⊢
      generalize hb : told (if c then .category else .case) body = b at hs ⊢
      have h1 := ihb _ (n + 1) _ (entered_stands h c d)
      rw [hb] at h1
      have hs' : suppress = true ∨ ((b.1.append (escaped b.2)).clean = true ∧ (told k next).1.clean = true) := by
        simpa [Report.clean] using hs
      have h1 := h1 (hs'.imp_right fun hs => clean_append_left hs.1)
      have h2 := afterCallback_eq ((entered_stands h c d).after b.1 (n + 1)) b.2 suppress (hs'.imp_right fun hs => by
        have := clean_append_right hs.1
        rw [escaped_clean] at this
        simpa using this)
      simp only [h1, h2, Option.bind_some, after_append, leaveGroup_eq]
      rw [ihn k n _ (h.after _ _) (hs'.imp_right (·.2)), after_append]
      simp [Report.append]
  | tryAll body next ihb ihn =>
    intro k n s h hs
    simp only [told] at hs ⊢
    have hb := ihb k n s h (hs.imp_right fun hs => clean_append_left hs)
    have hn := ihn k n _ (h.after (told k body).1 n) (hs.imp_right fun hs => clean_append_right hs)
    simp [rexec, hb, hn, after_append]

theorem lines_clean {r : Report} (h : r.clean = true) : ∀ n, ∀ l ∈ r.lines n, l.kind ≠ .error := by
  induction r with
  | done => intro n l hl; cases hl
  | message e t next ih =>
    simp [Report.clean] at h
    intro n l hl
    simp only [Report.lines, List.mem_cons] at hl
    rcases hl with rfl | hl
    · simp [h.1]
    · exact ih h.2 n l hl
  | «section» c t body next ihb ihn =>
    simp [Report.clean] at h
    intro n l hl
    simp only [Report.lines, List.cons_append, List.mem_cons, List.mem_append] at hl
    rcases hl with rfl | hl | hl
    · cases c <;> simp
    · exact ihb h.1 _ l hl
    · exact ihn h.2 _ l hl

/-- the lines before the first error were written, and that error is an exception -/
def Fails (ls : List Line) (s : RState) (res : Option (Option Thrown × RState)) : Prop :=
  ∃ t s' pre lv post, res = some (some t, s') ∧ ls = pre ++ ⟨.error, lv, t.text⟩ :: post ∧ (∀ l ∈ pre, l.kind ≠ .error) ∧
    s'.out = s.out ++ allCalls pre

theorem Fails.append {ls : List Line} {s : RState} {res : Option (Option Thrown × RState)} (h : Fails ls s res) (ls' : List Line) :
    Fails (ls ++ ls') s res := by
  obtain ⟨t, s', pre, lv, post, h1, h2, h3, h4⟩ := h
  exact ⟨t, s', pre, lv, post ++ ls', h1, by simp [h2], h3, h4⟩

theorem Fails.after {ls : List Line} {s : RState} {res : Option (Option Thrown × RState)} {r : Report} {n : Nat}
    (h : Fails ls (told.after r n s) res) (hr : r.clean = true) : Fails (r.lines n ++ ls) s res := by
  obtain ⟨t, s', pre, lv, post, h1, h2, h3, h4⟩ := h
  refine ⟨t, s', r.lines n ++ pre, lv, post, h1, by simp [h2], ?_, ?_⟩
  · intro l hl
    rcases List.mem_append.1 hl with hl | hl
    · exact lines_clean hr n l hl
    · exact h3 l hl
  · rw [h4]; simp [told.after, allCalls_append]

/-- Without suppression, execution ends at the first error of the outline. -/
theorem rexec_fails (code : RCode) : Unguarded code → ∀ (k : Kind) (n : Nat) (s : RState), Stands k n s →
    (told k code).1.clean = false → Fails ((told k code).1.lines n) s (rexec false code s) := by
  induction code with
  | done => intro _ k n s _ hc; simp [told, Report.clean] at hc
  | raise t => intro _ k n s _ hc; simp [told, Report.clean] at hc
  | assert b text next ih =>
    intro hu k n s h hc
    simp only [told] at hc ⊢
    simp only [rexec, ensure_eq h, Option.bind_eq_bind, Option.bind_some]
    by_cases hk : k = .case
    · subst hk
      cases b
      · simp [Report.clean] at hc
      · simpa using ih hu .case n s h (by simpa using hc)
    · simp [hk, Report.clean] at hc
  | print m next ih =>
    intro hu k n s h hc
    simp only [rexec, printMessage_eq h, Option.bind_eq_bind, Option.bind_some]
    have e : ({ s with out := s.out ++ allCalls [⟨.info, n, m⟩] } : RState) = told.after (.message false m .done) n s := by
      simp [told.after, Report.clean, Report.cases, Report.lines, rmark_false]
    rw [e]
    have := (ih hu k n _ (h.after (.message false m .done) n) (by simpa [told, Report.clean] using hc)).after rfl
    simpa [told, Report.lines] using this
  | expectError text body next ihb ihn =>
    intro hu k n s h hc
    by_cases hk : k = .case
    · subst hk
      rw [(told_case_clean _).1] at hc
      cases hc
    · simp [told, hk, Report.clean] at hc
  | expectException e type text body handler next ihb ihh ihn =>
    intro hu k n s h hc
    obtain ⟨hu1, hu2, hu3⟩ := hu
    have hcb := told_noGroups_clean k body hu1
    have hb := rexec_eq false body k n s h (.inr hcb)
    have hget : ((told k body).2.getD ⟨.assertError, lit "Expect [" ++ type ++ lit "] but nothing occurred: " ++ text⟩).exc =
        ((told k body).2.map (·.exc)).getD .assertError := by
      cases (told k body).2 <;> rfl
    simp only [told] at hc ⊢
    simp only [rexec]
    rw [hb]
    simp only [Option.bind_eq_bind, Option.bind_some]
    rw [hget]
    by_cases he : ((told k body).2.map (·.exc)).getD .assertError = e
    · rw [if_pos he] at hc ⊢
      rw [if_pos he]
      cases hch : (told k handler).1.clean with
      | false =>
        have hh := ihh hu2 k n _ (h.after (told k body).1 n) hch
        obtain ⟨t, s', pre, lv, post, h1, h2, h3, h4⟩ := hh
        rw [h1]
        have : Fails ((told k handler).1.lines n) (told.after (told k body).1 n s) (some (some t, s')) := ⟨t, s', pre, lv, post, rfl, h2, h3, h4⟩
        have := this.after hcb
        split
        · simp only [lines_append]
          exact this.append _
        · simp only [lines_append]
          exact this
      | true =>
        have hh := rexec_eq false handler k n _ (h.after (told k body).1 n) (.inr hch)
        rw [hh]
        cases ht : (told k handler).2 with
        | some t => simp [ht, clean_append, hcb, hch] at hc
        | none =>
          simp only [ht, clean_append, hcb, hch, Bool.true_and] at hc ⊢
          have := ((ihn hu3 k n _ ((h.after (told k body).1 n).after (told k handler).1 n) hc).after hch).after hcb
          simpa [lines_append] using this
    · rw [if_neg he, hcb] at hc
      cases hc
  | group c d body next ihb ihn =>
    intro hu k n s h hc
    by_cases hk : k = .case
    · simp [told, hk, Report.clean] at hc
    · simp only [rexec, enterGroup_eq h hk, Option.bind_eq_bind, Option.bind_some]
      simp only [told, if_neg hk] at hc ⊢
      have ihb := ihb hu.1 _ (n + 1) _ (entered_stands h c d)
      have heq := rexec_eq false body _ (n + 1) _ (entered_stands h c d)
      generalize told (if c then .category else .case) body = b at hc ihb heq ⊢
      have hout : (entered c d n s).out = s.out ++ allCalls [⟨if c then .category else .case, n, d⟩] := rfl
      have hkind : (if c then MessageKind.category else .case) ≠ .error := by cases c <;> simp
      cases hcb : b.1.clean with
      | false =>
        obtain ⟨t, s', pre, lv, post, h1, h2, h3, h4⟩ := ihb hcb
        rw [h1]
        refine ⟨t, _, ⟨if c then .category else .case, n, d⟩ :: pre, lv, post ++ (escaped b.2).lines (n + 1) ++ (told k next).1.lines n,
          rfl, ?_, ?_, ?_⟩
        · simp [Report.lines, lines_append, h2]
        · intro l hl
          rcases List.mem_cons.1 hl with rfl | hl
          · exact hkind
          · exact h3 l hl
        · simp only [h4, hout, List.append_assoc, ← allCalls_append]
          rfl
      | true =>
        have heq := heq (.inr hcb)
        rw [heq]
        cases he : b.2 with
        | some t =>
          refine ⟨t, _, ⟨if c then .category else .case, n, d⟩ :: b.1.lines (n + 1), n + 1, (told k next).1.lines n, rfl, ?_, ?_, ?_⟩
          · simp [Report.lines, lines_append, escaped_some]
          · intro l hl
            rcases List.mem_cons.1 hl with rfl | hl
            · exact hkind
            · exact lines_clean hcb _ l hl
          · simp only [told.after, hout, List.append_assoc, ← allCalls_append]
            rfl
        | none =>
          rw [he] at hc
          have ha := afterCallback_eq ((entered_stands h c d).after b.1 (n + 1)) none false (.inr rfl)
          simp only [ha, Option.bind_some, after_append, leaveGroup_eq]
          have hcs : (Report.section c d (b.1.append (escaped none)) .done).clean = true := by simp [Report.clean, clean_append, hcb, escaped]
          have hcn : (told k next).1.clean = false := by simpa [Report.clean, clean_append, hcb, escaped] using hc
          have := (ihn hu.2 k n _ (h.after (.section c d (b.1.append (escaped none)) .done) n) hcn).after hcs
          simpa [Report.lines] using this
  | tryAll body next ihb ihn =>
    intro hu k n s h hc
    simp only [told] at hc ⊢
    have hcb := told_noGroups_clean k body hu.1
    have hb := rexec_eq false body k n s h (.inr hcb)
    simp only [clean_append, hcb, Bool.true_and] at hc
    simp only [rexec, hb, Option.bind_eq_bind, Option.bind_some, lines_append]
    exact (ihn hu.2 k n _ (h.after (told k body).1 n) hc).after hcb

/-! ## Files -/

/-- the files that are executed -/
def rexecuted (names : List (List Char)) (fs : List RFile) : List RFile := fs.filter fun f => !skipped names f.name

/-- between files -/
def between (f : Bool) (tc pc : Nat) (out : List ConsoleCall) : RState := ⟨[⟨.file, f, [], true⟩], tc, pc, out⟩

theorem between_stands (f : Bool) (tc pc : Nat) (out : List ConsoleCall) : Stands .file 0 (between f tc pc out) := ⟨f, [], rfl, by simp⟩

/-- in a file -/
def inFile (tc pc : Nat) (out : List ConsoleCall) : RState := ⟨[⟨.file, false, List.replicate 4 32, true⟩], tc, pc, out⟩

theorem inFile_stands (tc pc : Nat) (out : List ConsoleCall) : Stands .file 1 (inFile tc pc out) := ⟨false, [], rfl, by simp⟩

theorem rRunFiles_skip {names : List (List Char)} {f : RFile} (h : skipped names f.name = true) (suppress : Bool) (fs : List RFile) (b : Bool)
    (tc pc : Nat) (out : List ConsoleCall) (pf tf : Nat) :
    rRunFiles suppress names (f :: fs) (between b tc pc out) pf tf =
      rRunFiles suppress names fs (between false tc pc (out ++ allCalls [⟨.file, 0, f.name.map Char.toNat ++ lit " [SKIPPED]"⟩])) pf tf := by
  simp only [rRunFiles, h, if_true]
  have : ({ between b tc pc out with contexts := (between b tc pc out).contexts.map fun c => { c with failed := false } } : RState) =
    between false tc pc out := rfl
  rw [this, printMessage_eq (between_stands false tc pc out)]
  rfl

theorem rRunFiles_run {names : List (List Char)} {f : RFile} (h : skipped names f.name = false) (suppress : Bool) (fs : List RFile) (b : Bool)
    (tc pc : Nat) (out : List ConsoleCall) (pf tf : Nat) :
    rRunFiles suppress names (f :: fs) (between b tc pc out) pf tf = (do
      let r ← rexec suppress f.code (inFile tc pc (out ++ allCalls [⟨.file, 0, f.name.map Char.toNat⟩]))
      match ← afterCallback suppress r with
      | (some t, s) => return .inl (.leaves t s.out)
      | (none, s) =>
        match ← s.deref with
        | none => none
        | some c =>
          let s := { s with contexts := s.contexts.map fun c => { c with indentation := [] } }
          rRunFiles suppress names fs s (if c.failed = false then pf + 1 else pf) (tf + 1)) := by
  simp only [rRunFiles, h, Bool.false_eq_true, if_false]
  have : ({ between b tc pc out with contexts := (between b tc pc out).contexts.map fun c => { c with failed := false } } : RState) =
    between false tc pc out := rfl
  rw [this, printMessage_eq (between_stands false tc pc out)]
  rfl

/-- one file of which failures are suppressed, or that has none -/
theorem rRunFiles_good {names : List (List Char)} {f : RFile} (h : skipped names f.name = false) (suppress : Bool)
    (hs : suppress = true ∨ (fileReport f).clean = true) (fs : List RFile) (b : Bool)
    (tc pc : Nat) (out : List ConsoleCall) (pf tf : Nat) :
    rRunFiles suppress names (f :: fs) (between b tc pc out) pf tf =
      rRunFiles suppress names fs (between (!(fileReport f).clean) (tc + (fileReport f).cases.length) (pc + (fileReport f).cases.count true)
        (out ++ allCalls (⟨.file, 0, f.name.map Char.toNat⟩ :: (fileReport f).lines 1)))
        (if (fileReport f).clean then pf + 1 else pf) (tf + 1) := by
  rw [rRunFiles_run h]
  have hst := inFile_stands tc pc (out ++ allCalls [⟨.file, 0, f.name.map Char.toNat⟩])
  have h1 := rexec_eq suppress f.code .file 1 _ hst (hs.imp_right fun hs => clean_append_left hs)
  have h2 := afterCallback_eq (hst.after (told .file f.code).1 1) (told .file f.code).2 suppress (hs.imp_right fun hs => by
    have := clean_append_right hs
    rw [escaped_clean] at this
    simpa using this)
  rw [h1]
  simp only [Option.bind_eq_bind, Option.bind_some]
  rw [h2, after_append]
  have e : told.after (fileReport f) 1 (inFile tc pc (out ++ allCalls [⟨.file, 0, f.name.map Char.toNat⟩])) =
      ⟨[⟨.file, !(fileReport f).clean, List.replicate 4 32, true⟩], tc + (fileReport f).cases.length, pc + (fileReport f).cases.count true,
        out ++ allCalls (⟨.file, 0, f.name.map Char.toNat⟩ :: (fileReport f).lines 1)⟩ := by
    simp [told.after, inFile, rmark]
    simp [allCalls]
  rw [show ((told .file f.code).1.append (escaped (told .file f.code).2)) = fileReport f from rfl, e]
  simp only [Option.bind_some, RState.deref, if_true, Option.bind_some]
  cases (fileReport f).clean <;> rfl

theorem fileLines_cons (sk : RFile → Bool) (f : RFile) (fs : List RFile) : fileLines sk (f :: fs) =
    (if sk f then [⟨.file, 0, f.name.map Char.toNat ++ lit " [SKIPPED]"⟩]
      else ⟨.file, 0, f.name.map Char.toNat⟩ :: (fileReport f).lines 1) ++ fileLines sk fs := rfl

/-- all files -/
theorem rRunFiles_eq (suppress : Bool) (names : List (List Char)) (fs : List RFile)
    (hs : suppress = true ∨ ∀ f ∈ rexecuted names fs, (fileReport f).clean = true) : ∀ (b : Bool) (tc pc : Nat) (out : List ConsoleCall) (pf tf : Nat),
    ∃ b', rRunFiles suppress names fs (between b tc pc out) pf tf =
      some (.inr (between b' (tc + ((rexecuted names fs).flatMap fun f => (fileReport f).cases).length)
        (pc + ((rexecuted names fs).flatMap fun f => (fileReport f).cases).count true)
        (out ++ allCalls (fileLines (fun f => skipped names f.name) fs)),
        pf + (rexecuted names fs).countP (fun f => (fileReport f).clean), tf + (rexecuted names fs).length)) := by
  induction fs with
  | nil => intro b tc pc out pf tf; exact ⟨b, by simp [rRunFiles, rexecuted, fileLines, allCalls]⟩
  | cons f fs ih =>
    intro b tc pc out pf tf
    cases hsk : skipped names f.name with
    | true =>
      have hex : rexecuted names (f :: fs) = rexecuted names fs := by simp [rexecuted, hsk]
      rw [hex] at hs ⊢
      obtain ⟨b', h⟩ := ih hs false tc pc (out ++ allCalls [⟨.file, 0, f.name.map Char.toNat ++ lit " [SKIPPED]"⟩]) pf tf
      refine ⟨b', ?_⟩
      rw [rRunFiles_skip hsk, h, fileLines_cons]
      simp only [hsk, if_true, List.cons_append, List.nil_append]
      rw [allCalls_cons _ (fileLines _ fs), List.append_assoc]
    | false =>
      have hex : rexecuted names (f :: fs) = f :: rexecuted names fs := by simp [rexecuted, hsk]
      rw [hex] at hs ⊢
      obtain ⟨b', h⟩ := ih (hs.imp_right fun hs g hg => hs g (by simp [hg])) (!(fileReport f).clean) (tc + (fileReport f).cases.length)
        (pc + (fileReport f).cases.count true) (out ++ allCalls (⟨.file, 0, f.name.map Char.toNat⟩ :: (fileReport f).lines 1))
        (if (fileReport f).clean then pf + 1 else pf) (tf + 1)
      refine ⟨b', ?_⟩
      rw [rRunFiles_good hsk suppress (hs.imp_right fun hs => hs f (by simp)), h, fileLines_cons]
      simp only [hsk, Bool.false_eq_true, if_false, allCalls_append, List.flatMap_cons, List.length_append, List.count_append, List.countP_cons,
        List.length_cons, List.append_assoc, Nat.add_assoc]
      cases (fileReport f).clean
      · simp only [Bool.false_eq_true, if_false, Nat.add_zero]
        rw [Nat.add_comm 1]
      · simp only [if_true]
        rw [Nat.add_comm 1, Nat.add_assoc pf, Nat.add_comm 1]

/-- all files, without suppression, up to the first error -/
theorem rRunFiles_fails (names : List (List Char)) (fs : List RFile) (hu : ∀ f ∈ rexecuted names fs, Unguarded f.code)
    (hc : ¬ ∀ f ∈ rexecuted names fs, (fileReport f).clean = true) : ∀ (b : Bool) (tc pc : Nat) (out : List ConsoleCall) (pf tf : Nat),
    ∃ t pre lv post, rRunFiles false names fs (between b tc pc out) pf tf = some (.inl (.leaves t (out ++ allCalls pre))) ∧
      fileLines (fun f => skipped names f.name) fs = pre ++ ⟨.error, lv, t.text⟩ :: post ∧ ∀ l ∈ pre, l.kind ≠ .error := by
  induction fs with
  | nil => simp [rexecuted] at hc
  | cons f fs ih =>
    intro b tc pc out pf tf
    cases hsk : skipped names f.name with
    | true =>
      have hex : rexecuted names (f :: fs) = rexecuted names fs := by simp [rexecuted, hsk]
      rw [hex] at hu hc
      obtain ⟨t, pre, lv, post, h1, h2, h3⟩ :=
        ih hu hc false tc pc (out ++ allCalls [⟨.file, 0, f.name.map Char.toNat ++ lit " [SKIPPED]"⟩]) pf tf
      refine ⟨t, ⟨.file, 0, f.name.map Char.toNat ++ lit " [SKIPPED]"⟩ :: pre, lv, post, ?_, ?_, ?_⟩
      · rw [rRunFiles_skip hsk, h1]
        simp [allCalls]
      · rw [fileLines_cons, h2]
        simp [hsk]
      · intro l hl
        rcases List.mem_cons.1 hl with rfl | hl
        · simp
        · exact h3 l hl
    | false =>
      have hex : rexecuted names (f :: fs) = f :: rexecuted names fs := by simp [rexecuted, hsk]
      rw [hex] at hu hc
      by_cases hf : (fileReport f).clean = true
      · have hc' : ¬ ∀ f ∈ rexecuted names fs, (fileReport f).clean = true := fun h => hc fun g hg => by
          rcases List.mem_cons.1 hg with rfl | hg
          · exact hf
          · exact h g hg
        obtain ⟨t, pre, lv, post, h1, h2, h3⟩ := ih (fun g hg => hu g (by simp [hg])) hc' (!(fileReport f).clean) (tc + (fileReport f).cases.length)
          (pc + (fileReport f).cases.count true) (out ++ allCalls (⟨.file, 0, f.name.map Char.toNat⟩ :: (fileReport f).lines 1))
          (if (fileReport f).clean then pf + 1 else pf) (tf + 1)
        refine ⟨t, ⟨.file, 0, f.name.map Char.toNat⟩ :: (fileReport f).lines 1 ++ pre, lv, post, ?_, ?_, ?_⟩
        · rw [rRunFiles_good hsk false (.inr hf), h1, allCalls_append, List.append_assoc]
        · rw [fileLines_cons, h2]
          simp [hsk]
        · intro l hl
          simp only [List.cons_append, List.mem_cons, List.mem_append] at hl
          rcases hl with rfl | hl | hl
          · simp
          · exact lines_clean hf 1 l hl
          · exact h3 l hl
      · have hst := inFile_stands tc pc (out ++ allCalls [⟨.file, 0, f.name.map Char.toNat⟩])
        have key : ∃ t s' pre lv post, rexec false f.code (inFile tc pc (out ++ allCalls [⟨.file, 0, f.name.map Char.toNat⟩])) = some (some t, s') ∧
            (fileReport f).lines 1 = pre ++ ⟨.error, lv, t.text⟩ :: post ∧ (∀ l ∈ pre, l.kind ≠ .error) ∧
            s'.out = out ++ allCalls [⟨.file, 0, f.name.map Char.toNat⟩] ++ allCalls pre := by
          cases hb : (told .file f.code).1.clean with
          | false =>
            obtain ⟨t, s', pre, lv, post, h1, h2, h3, h4⟩ := rexec_fails f.code (hu f (by simp)) .file 1 _ hst hb
            exact ⟨t, s', pre, lv, post ++ (escaped (told .file f.code).2).lines 1, h1, by simp [fileReport, lines_append, h2], h3, h4⟩
          | true =>
            have h1 := rexec_eq false f.code .file 1 _ hst (.inr hb)
            cases he : (told .file f.code).2 with
            | none => simp [fileReport, clean_append, hb, he, escaped, Report.clean] at hf
            | some t =>
              rw [he] at h1
              exact ⟨t, _, (told .file f.code).1.lines 1, 1, [], h1, by simp [fileReport, lines_append, he, escaped_some, Report.lines],
                lines_clean hb 1, rfl⟩
        obtain ⟨t, s', pre, lv, post, h1, h2, h3, h4⟩ := key
        refine ⟨t, ⟨.file, 0, f.name.map Char.toNat⟩ :: pre, lv, post ++ fileLines (fun f => skipped names f.name) fs, ?_, ?_, ?_⟩
        · rw [rRunFiles_run hsk, h1]
          simp only [Option.bind_eq_bind, Option.bind_some, afterCallback]
          rw [show allCalls (⟨.file, 0, f.name.map Char.toNat⟩ :: pre) = allCalls [⟨.file, 0, f.name.map Char.toNat⟩] ++ allCalls pre by simp [allCalls],
            ← List.append_assoc, ← h4]
          rfl
        · rw [fileLines_cons, h2]
          simp [hsk]
        · intro l hl
          rcases List.mem_cons.1 hl with rfl | hl
          · simp
          · exact h3 l hl

theorem naturalNumeral_itow (n : Nat) : Spec.NaturalNumeral (itow n) n := (Number.naturalNumeral_iff _ _).2 rfl

theorem count_map_true {α : Type} (p : α → Bool) (xs : List α) : (xs.map p).count true = xs.countP p := by
  rw [List.count, List.countP_map]
  congr 1
  funext x
  simp

theorem rRunTests_start (suppress : Bool) (names : List (List Char)) (fs : List RFile) : rRunTests suppress names fs =
    match rRunFiles suppress names fs (between false 0 0 (allCalls
      [⟨.info, 0, lit (if suppress then "Failures are suppressed." else "Failures are not suppressed.")⟩])) 0 0 with
    | none => none
    | some (.inl e) => some e
    | some (.inr (s, pf, tf)) => rSummary s pf tf := by
  have h : printMessage (lit (if suppress then "Failures are suppressed." else "Failures are not suppressed.")) .info
      ⟨[⟨.file, false, [], true⟩], 0, 0, []⟩ = some (none, between false 0 0 (allCalls
      [⟨.info, 0, lit (if suppress then "Failures are suppressed." else "Failures are not suppressed.")⟩])) :=
    printMessage_eq (between_stands false 0 0 []) _ .info
  unfold rRunTests
  rw [h]
  simp only [Option.bind_eq_bind, Option.bind_some]
  cases rRunFiles suppress names fs (between false 0 0 (allCalls
      [⟨.info, 0, lit (if suppress then "Failures are suppressed." else "Failures are not suppressed.")⟩])) 0 0 with
  | none => rfl
  | some x => cases x <;> rfl

theorem rSummary_eq (b : Bool) (tc pc : Nat) (out : List ConsoleCall) (pf tf : Nat) : rSummary (between b tc pc out) pf tf =
    some (.returns (if tf = pf then 0 else 1) (out ++ allCalls
      [⟨if tf = pf then .case else .error, 0, lit "Passed test files: " ++ itow pf ++ lit "/" ++ itow tf⟩,
        ⟨if tf = pf then .case else .error, 0, lit "Passed test cases: " ++ itow pc ++ lit "/" ++ itow tc⟩])) := by
  unfold rSummary
  simp only [printMessage_eq (between_stands b tc pc out), Option.bind_eq_bind, Option.bind_some]
  rw [show ∀ o, ({ between b tc pc out with out := o } : RState) = between b tc pc o from fun _ => rfl]
  simp only [printMessage_eq (between_stands b tc pc _), Option.bind_some]
  simp [between, allCalls]

/-- the whole run, if failures are suppressed or there are none -/
theorem rRunTests_eq (suppress : Bool) (names : List (List Char)) (fs : List RFile)
    (hs : suppress = true ∨ ∀ f ∈ rexecuted names fs, (fileReport f).clean = true) :
    ∃ summary, Summary ((rexecuted names fs).map fun f => (fileReport f).clean) ((rexecuted names fs).flatMap fun f => (fileReport f).cases) summary ∧
      rRunTests suppress names fs = some (.returns (if (rexecuted names fs).all (fun f => (fileReport f).clean) then 0 else 1)
        (allCalls ([⟨.info, 0, lit (if suppress then "Failures are suppressed." else "Failures are not suppressed.")⟩] ++
          fileLines (fun f => skipped names f.name) fs ++ summary))) := by
  refine ⟨_, ⟨_, _, _, _, naturalNumeral_itow _, naturalNumeral_itow _, naturalNumeral_itow _, naturalNumeral_itow _, rfl⟩, ?_⟩
  obtain ⟨b, h⟩ := rRunFiles_eq suppress names fs hs false 0 0
    (allCalls [⟨.info, 0, lit (if suppress then "Failures are suppressed." else "Failures are not suppressed.")⟩]) 0 0
  rw [rRunTests_start, h]
  simp only [Nat.zero_add, rSummary_eq]
  have hall : ((rexecuted names fs).length = (rexecuted names fs).countP fun f => (fileReport f).clean) ↔
      (rexecuted names fs).all (fun f => (fileReport f).clean) = true := by
    rw [eq_comm, List.countP_eq_length, List.all_eq_true]
  have hall' : ((rexecuted names fs).map fun f => (fileReport f).clean).all (· = true) = (rexecuted names fs).all (fun f => (fileReport f).clean) := by
    simp [List.all_map]; rfl
  simp only [hall, hall', count_map_true, List.length_map, allCalls_append]

theorem rRunTests_fails (names : List (List Char)) (fs : List RFile) (hu : ∀ f ∈ rexecuted names fs, Unguarded f.code)
    (hc : ¬ ∀ f ∈ rexecuted names fs, (fileReport f).clean = true) :
    ∃ t pre lv post, rRunTests false names fs = some (.leaves t (allCalls (⟨.info, 0, lit "Failures are not suppressed."⟩ :: pre))) ∧
      fileLines (fun f => skipped names f.name) fs = pre ++ ⟨.error, lv, t.text⟩ :: post ∧ ∀ l ∈ pre, l.kind ≠ .error := by
  obtain ⟨t, pre, lv, post, h1, h2, h3⟩ :=
    rRunFiles_fails names fs hu hc false 0 0 (allCalls [⟨.info, 0, lit "Failures are not suppressed."⟩]) 0 0
  refine ⟨t, pre, lv, post, ?_, h2, h3⟩
  rw [rRunTests_start]
  simp only [Bool.false_eq_true, if_false]
  rw [h1, allCalls_cons _ pre]

theorem skipped_iff (names : List (List Char)) (file : List Char) : skipped names file = true ↔ ¬ Spec.Selected names file := by
  simp only [skipped, Spec.Selected, Bool.and_eq_true, Bool.not_eq_true', List.any_eq_false, not_or, matchesName_iff]
  simp [List.length_pos_iff]

theorem skipped_eq (names : List (List Char)) (sk : RFile → Bool) (h : ∀ f, sk f = true ↔ ¬ Spec.Selected names f.name) :
    (fun f : RFile => skipped names f.name) = sk := by
  funext f
  rw [Bool.eq_iff_iff, skipped_iff, h]

/-- an error is in the lines exactly if it is in the outline -/
theorem lines_error {r : Report} (h : r.clean = false) : ∀ n, ∃ l ∈ r.lines n, l.kind = .error := by
  induction r with
  | done => cases h
  | message e t next ih =>
    intro n
    cases e with
    | true => exact ⟨_, List.mem_cons_self, rfl⟩
    | false =>
      obtain ⟨l, hl, hk⟩ := ih (by simpa [Report.clean] using h) n
      exact ⟨l, List.mem_cons_of_mem _ hl, hk⟩
  | «section» c t body next ihb ihn =>
    intro n
    have h : body.clean = false ∨ next.clean = false := by
      simp only [Report.clean] at h
      cases hb : body.clean <;> simp_all
    rcases h with h | h
    · obtain ⟨l, hl, hk⟩ := ihb h (n + 1)
      exact ⟨l, by simp [Report.lines, hl], hk⟩
    · obtain ⟨l, hl, hk⟩ := ihn h n
      exact ⟨l, by simp [Report.lines, hl], hk⟩

theorem all_clean_iff (sk : RFile → Bool) (files : List RFile) :
    (files.filter fun f => !sk f).all (fun f => (fileReport f).clean) = true ↔ ∀ l ∈ fileLines sk files, l.kind ≠ .error := by
  simp only [List.all_eq_true, List.mem_filter, fileLines, List.mem_flatMap]
  constructor
  · rintro h l ⟨f, hf, hl⟩
    split at hl
    · simp at hl; simp [hl]
    · rename_i hsk
      rcases List.mem_cons.1 hl with rfl | hl
      · simp
      · exact lines_clean (h f ⟨hf, by simpa using hsk⟩) 1 l hl
  · rintro h f ⟨hf, hsk⟩
    cases hc : (fileReport f).clean with
    | true => rfl
    | false =>
      obtain ⟨l, hl, hk⟩ := lines_error hc 1
      refine absurd hk (h l ⟨f, hf, ?_⟩)
      rw [if_neg (by simpa using hsk)]
      exact List.mem_cons_of_mem _ hl

/-! ## The model without texts -/

/-- without texts -/
def RCode.erase : RCode → Code
  | .done => .done
  | .raise t => .raise t.exc
  | .assert b _ next => .assert b next.erase
  | .print _ next => .print next.erase
  | .expectError _ body next => .expectError body.erase next.erase
  | .expectException e _ _ body handler next => .expectException e body.erase handler.erase next.erase
  | .group c _ body next => .group c body.erase next.erase
  | .tryAll body next => .tryAll body.erase next.erase

def RFile.erase (f : RFile) : File := ⟨f.name, f.code.erase⟩

theorem told_judge (code : RCode) : ∀ k, (Spec.judge k code.erase).escapes = (told k code).2.map (·.exc) ∧
    (Spec.judge k code.erase).broken = !(told k code).1.clean ∧ (Spec.judge k code.erase).cases = (told k code).1.cases := by
  induction code with
  | done => intro k; exact ⟨rfl, rfl, rfl⟩
  | raise t => intro k; exact ⟨rfl, rfl, rfl⟩
  | assert b text next ih =>
    intro k
    simp only [RCode.erase, Spec.judge, told]
    split
    · exact ⟨rfl, rfl, rfl⟩
    · cases b
      · exact ⟨rfl, rfl, rfl⟩
      · exact ih k
  | print m next ih => intro k; simpa [RCode.erase, Spec.judge, told, Report.clean, Report.cases] using ih k
  | expectError text body next ihb ihn =>
    intro k
    obtain ⟨h1, h2, h3⟩ := ihb k
    obtain ⟨n1, n2, n3⟩ := ihn k
    simp only [RCode.erase, Spec.judge, told]
    by_cases hk : k = .case
    · simp only [hk, ne_eq, not_true_eq_false, if_false] at *
      simp only [h1]
      cases he : (told .case body).2 with
      | none => simp [Spec.Verdict.butRaises, Spec.Verdict.followedBy, Spec.Verdict.raised, h2, h3]
      | some t =>
        obtain ⟨e, m⟩ := t
        cases e <;> simp [Spec.Verdict.butRaises, Spec.Verdict.followedBy, Spec.Verdict.raised, h2, h3, n1, n2, n3, clean_append, cases_append]
    · simp only [hk, ne_eq, not_false_eq_true, if_true]
      exact ⟨rfl, rfl, rfl⟩
  | expectException e type text body handler next ihb ihh ihn =>
    intro k
    obtain ⟨h1, h2, h3⟩ := ihb k
    obtain ⟨g1, g2, g3⟩ := ihh k
    obtain ⟨n1, n2, n3⟩ := ihn k
    simp only [RCode.erase, Spec.judge, told]
    simp only [h1, g1]
    split
    · cases he : (told k handler).2 with
      | none => simp [Spec.Verdict.followedBy, h2, h3, g2, g3, n1, n2, n3, clean_append, cases_append]
      | some t => simp [Spec.Verdict.followedBy, h2, h3, g1, g2, g3, he, clean_append, cases_append]
    · simp [Spec.Verdict.butRaises, Spec.Verdict.followedBy, Spec.Verdict.raised, h2, h3]
  | group c d body next ihb ihn =>
    intro k
    obtain ⟨h1, h2, h3⟩ := ihb (if c then .category else .case)
    obtain ⟨n1, n2, n3⟩ := ihn k
    simp only [RCode.erase, Spec.judge, told]
    split
    · exact ⟨rfl, rfl, rfl⟩
    · simp only [Spec.Verdict.followedBy, Spec.Verdict.inGroup, Spec.Verdict.good, Report.clean, Report.cases, clean_append, cases_append, escaped_clean,
        escaped_cases, h1, h2, h3, n1, n2, n3]
      cases (told (if c then .category else .case) body).2 <;> cases (told (if c then .category else .case) body).1.clean <;> simp
  | tryAll body next ihb ihn =>
    intro k
    obtain ⟨h1, h2, h3⟩ := ihb k
    obtain ⟨n1, n2, n3⟩ := ihn k
    simp [RCode.erase, Spec.judge, told, Spec.Verdict.followedBy, h2, h3, n1, n2, n3, clean_append, cases_append]

theorem verdict_erase (f : RFile) : (verdict f.erase).good = (fileReport f).clean := by
  obtain ⟨h1, h2, _⟩ := told_judge f.code .file
  have h1 : (verdict f.erase).escapes = (told .file f.code).2.map (·.exc) := h1
  have h2 : (verdict f.erase).broken = !(told .file f.code).1.clean := h2
  simp only [Spec.Verdict.good, h1, h2, fileReport, clean_append, escaped_clean]
  cases (told .file f.code).2 <;> cases (told .file f.code).1.clean <;> simp

end UnitTest

/-- **C95.** With failures suppressed, for every list of files, every nesting and every choice of files: the report is the outline of the
files, with a line for every error at the level where it occurred, the skipped files, and a summary with the numbers of files and cases,
and of those of them that contain no error. The result is 0 exactly if no error is reported. -/
theorem C95_report (names : List (List Char)) (files : List RFile) (sk : RFile → Bool) (hsk : ∀ f, sk f = true ↔ ¬ Spec.Selected names f.name) :
    ∃ r summary, rRunTests true names files =
        some (.returns r (allCalls ([⟨.info, 0, lit "Failures are suppressed."⟩] ++ fileLines sk files ++ summary))) ∧
      Summary ((files.filter fun f => !sk f).map fun f => (fileReport f).clean)
        ((files.filter fun f => !sk f).flatMap fun f => (fileReport f).cases) summary ∧
      (r = 0 ∨ r = 1) ∧ (r = 0 ↔ ∀ l ∈ fileLines sk files, l.kind ≠ .error) := by
  obtain ⟨summary, hs, h⟩ := rRunTests_eq true names files (.inl rfl)
  have he := skipped_eq names sk hsk
  have hx : rexecuted names files = files.filter fun f => !sk f := by subst he; rfl
  rw [hx] at hs h
  rw [he] at h
  refine ⟨_, summary, h, hs, ?_, ?_⟩
  · split <;> simp
  · rw [← all_clean_iff]
    split <;> simp_all

/-- **C95.** With failures suppressed, the result is 0 exactly if the files that are executed contain no failed assertion or expectation,
nothing at a place where it is not allowed, and no escaping exception; if the code of the tests does not catch the exceptions of the
framework itself. Missing: see `C52_violated_swallow`. -/
theorem C95_verdict_partial (names : List (List Char)) (files : List RFile) (hs : ∀ f ∈ files, Spec.NoSwallow f.code.erase) :
    ∃ r out, rRunTests true names files = some (.returns r out) ∧ (r = 0 ↔ ∀ f ∈ files, Spec.Selected names f.name → Clean f.erase) := by
  obtain ⟨r, summary, h, _, _, hr⟩ := C95_report names files (fun f => skipped names f.name) fun f => skipped_iff names f.name
  refine ⟨r, _, h, ?_⟩
  rw [hr, ← all_clean_iff]
  simp only [List.all_eq_true, List.mem_filter, Bool.not_eq_true']
  constructor
  · intro hc f hf hsel
    rw [clean_iff_good (hs f hf), verdict_erase]
    refine hc f ⟨hf, ?_⟩
    cases hb : skipped names f.name with
    | false => rfl
    | true => exact absurd hsel ((skipped_iff names f.name).1 hb)
  · rintro hc f ⟨hf, hb⟩
    rw [← verdict_erase, ← clean_iff_good (hs f hf)]
    refine hc f hf (Classical.byContradiction fun hn => ?_)
    rw [(skipped_iff names f.name).2 hn] at hb
    cases hb

/-- **C95.** Without suppression, if there is no error, the report is the same, except for the first line, and the result is 0; if there is an error, the
report ends before its line, and an exception with its message leaves the function. Missing: files in which something catches the
exception that leaves a category or a case, see `C95_violated_caught`. -/
theorem C95_debug_partial (names : List (List Char)) (files : List RFile) (sk : RFile → Bool) (hsk : ∀ f, sk f = true ↔ ¬ Spec.Selected names f.name) :
    ((∀ l ∈ fileLines sk files, l.kind ≠ .error) → ∃ summary,
      rRunTests false names files =
        some (.returns 0 (allCalls ([⟨.info, 0, lit "Failures are not suppressed."⟩] ++ fileLines sk files ++ summary))) ∧
      Summary ((files.filter fun f => !sk f).map fun f => (fileReport f).clean)
        ((files.filter fun f => !sk f).flatMap fun f => (fileReport f).cases) summary) ∧
    ((∀ f ∈ files, Unguarded f.code) → ∀ l ∈ fileLines sk files, l.kind = .error →
      ∃ t pre lv post, fileLines sk files = pre ++ ⟨.error, lv, t.text⟩ :: post ∧ (∀ l ∈ pre, l.kind ≠ .error) ∧
        rRunTests false names files = some (.leaves t (allCalls (⟨.info, 0, lit "Failures are not suppressed."⟩ :: pre)))) := by
  have he := skipped_eq names sk hsk
  have hx : rexecuted names files = files.filter fun f => !sk f := by subst he; rfl
  constructor
  · intro hc
    have hc := (all_clean_iff sk files).2 hc
    rw [← hx] at hc
    obtain ⟨summary, hs, h⟩ := rRunTests_eq false names files (.inr (List.all_eq_true.1 hc))
    rw [hc] at h
    rw [hx] at hs
    rw [he] at h
    exact ⟨summary, h, hs⟩
  · intro hu l hl hk
    have hc : ¬ ∀ f ∈ rexecuted names files, (fileReport f).clean = true := fun h => by
      have := (all_clean_iff sk files).1 (by rw [← hx]; exact List.all_eq_true.2 h)
      exact this l hl hk
    obtain ⟨t, pre, lv, post, h1, h2, h3⟩ := rRunTests_fails names files (fun f hf => hu f (List.mem_filter.1 hf).1) hc
    rw [he] at h2
    exact ⟨t, pre, lv, post, h2, h3, h1⟩

/-- **C95** is violated without suppression: if a case fails and its exception is caught outside of it, by the program or by `TEST_EXCEPTION`, a
context that does not exist any more is used, at the latest at the end of the file. -/
theorem C95_violated_caught (name : List Char) (d ty tx : List Nat) (body : RCode) (t : Thrown) (h : (told .case body).2 = some t) :
    rRunTests false [] [⟨name, .tryAll (.group false d body .done) .done⟩] = none ∧
    rRunTests false [] [⟨name, .expectException t.exc ty tx (.group false d body .done) .done .done⟩] = none := by
  have hsk : skipped [] name = false := rfl
  have key : ∀ tc pc out, ∃ s', rexec false (.group false d body .done) (inFile tc pc out) = some (some t, s') ∧ s'.deref = none := by
    intro tc pc out
    have hst := inFile_stands tc pc out
    have hb := rexec_eq false body .case 2 _ (entered_stands hst false d) (.inr (told_case_clean body).1)
    simp only [rexec, enterGroup_eq hst (by decide), Option.bind_eq_bind, Option.bind_some, hb, h, afterCallback]
    refine ⟨_, rfl, ?_⟩
    simp [RState.deref, leave, told.after, entered, inFile, rmark]
  have run : ∀ code, (∀ tc pc out, ∃ s', rexec false code (inFile tc pc out) = some (none, s') ∧ s'.deref = none) →
      rRunTests false [] [⟨name, code⟩] = none := by
    intro code hcode
    rw [rRunTests_start, rRunFiles_run hsk]
    simp only [Bool.false_eq_true, if_false]
    obtain ⟨s', h1, h2⟩ := hcode 0 0 (allCalls [⟨.info, 0, lit "Failures are not suppressed."⟩] ++ allCalls [⟨.file, 0, name.map Char.toNat⟩])
    simp only [h1, Option.bind_eq_bind, Option.bind_some, afterCallback, h2, Option.bind_none]
  refine ⟨run _ fun tc pc out => ?_, run _ fun tc pc out => ?_⟩
  · obtain ⟨s', h1, h2⟩ := key tc pc out
    refine ⟨s', ?_, h2⟩
    rw [rexec.eq_8, h1]
    rfl
  · obtain ⟨s', h1, h2⟩ := key tc pc out
    exact ⟨s', by simp only [rexec.eq_6, h1]; simp [rexec], h2⟩

/-- **C95.** Options: one that does not exist, or both `/D` and `/R`: only the usage is written, and the result is 1. Otherwise the files that are
named are executed; failures are suppressed if `/R` is given, or if `/D` is not given and there is no debugger. -/
theorem C95_options (debugger : Bool) (os : List (List Char)) (files : List RFile) :
    ((∃ o ∈ os, ∀ w, ¬ Spec.Written w o) →
      rRunAndDispose debugger os files = some (.returns 1 (allCalls [⟨.error, 0, lit "Usage: [/D | /R] {/F:TestFile}"⟩]))) ∧
    ∀ ws, Spec.AllWritten ws os →
      (.debug ∈ ws → .release ∈ ws →
        rRunAndDispose debugger os files = some (.returns 1 (allCalls [⟨.error, 0, lit "Usage: [/D | /R] {/F:TestFile}"⟩]))) ∧
      (.debug ∈ ws → .release ∉ ws → rRunAndDispose debugger os files = rRunTests false (Spec.fileNames ws) files) ∧
      (.debug ∉ ws → .release ∈ ws → rRunAndDispose debugger os files = rRunTests true (Spec.fileNames ws) files) ∧
      (.debug ∉ ws → .release ∉ ws → rRunAndDispose debugger os files = rRunTests (!debugger) (Spec.fileNames ws) files) := by
  constructor
  · intro h
    unfold rRunAndDispose
    simp [parse_unknown os {} h]
    rfl
  · intro ws hw
    have h1 : hasDebug ws = true ↔ .debug ∈ ws := by
      simp only [hasDebug, List.any_eq_true]
      constructor
      · rintro ⟨x, hx, h⟩
        cases x <;> first | exact hx | cases h
      · exact fun h => ⟨_, h, rfl⟩
    have h2 : hasRelease ws = true ↔ .release ∈ ws := by
      simp only [hasRelease, List.any_eq_true]
      constructor
      · rintro ⟨x, hx, h⟩
        cases x <;> first | exact hx | cases h
      · exact fun h => ⟨_, h, rfl⟩
    unfold rRunAndDispose
    simp only [parse_all hw, Bool.false_or, List.nil_append]
    rw [← h1, ← h2]
    cases hasDebug ws <;> cases hasRelease ws <;> simp
    rfl

namespace UnitTest

/-- these links were registered -/
structure Registered (l : Links) (is : List Nat) : Prop where
  visits : l.Visits l.head is
  tail : l.tail = is.getLast?
  next : ∀ i, some i = is.getLast? ∨ i ∉ is → l.next i = none

theorem visits_append {l l' : Links} {t j : Nat} (hj : l'.next j = none) (ht : l'.next t = some j) (hn : ∀ i, i ≠ t → l'.next i = l.next i)
    {cur : Option Nat} {is : List Nat} (h : l.Visits cur is) : is.Nodup → is.getLast? = some t → l'.Visits cur (is ++ [j]) := by
  induction h with
  | stop => intro _ h; cases h
  | @link i is h ih =>
    intro hd hl
    cases is with
    | nil =>
      simp at hl
      subst hl
      exact .link (ht ▸ .link (hj ▸ .stop))
    | cons k is =>
      have hl' : (k :: is).getLast? = some t := by rw [← hl]; simp
      have hm : t ∈ k :: is := List.mem_of_getLast? hl'
      have hne : i ≠ t := fun e => (List.nodup_cons.1 hd).1 (e ▸ hm)
      exact .link (hn i hne ▸ ih (List.nodup_cons.1 hd).2 hl')

theorem Registered.register {l : Links} {is : List Nat} (h : Registered l is) (hd : is.Nodup) {j : Nat} (hj : j ∉ is) :
    Registered (l.register j) (is ++ [j]) := by
  have hjn := h.next j (.inr hj)
  cases ht : is.getLast? with
  | none =>
    have : is = [] := by simpa using ht
    subst this
    have ht : l.tail = none := h.tail
    have e : l.register j = { l with head := some j, tail := some j } := by simp [Links.register, ht]
    rw [e]
    refine ⟨.link ?_, rfl, fun i _ => h.next i (.inr (by simp))⟩
    show Links.Visits _ (l.next j) []
    rw [hjn]
    exact .stop
  | some t =>
    have ht' : l.tail = some t := h.tail.trans ht
    have hm : t ∈ is := List.mem_of_getLast? ht
    have hjt : j ≠ t := fun e => hj (e ▸ hm)
    have e : l.register j = { l with next := fun i => if i = t then some j else l.next i, tail := some j } := by simp [Links.register, ht']
    rw [e]
    refine ⟨visits_append (l := l) (t := t) ?_ ?_ ?_ h.visits hd ht, by simp, ?_⟩
    · simp [hjt, hjn]
    · simp
    · intro i hi; simp [hi]
    · rintro i (hi | hi)
      · simp at hi
        subst hi
        simp [hjt, hjn]
      · simp at hi
        have hit : i ≠ t := fun e => hi.1 (e ▸ hm)
        simp [hit, h.next i (.inr hi.1)]

theorem Registered.all (js : List Nat) : ∀ (l : Links) (is : List Nat), Registered l is → (is ++ js).Nodup →
    Registered (js.foldl Links.register l) (is ++ js) := by
  induction js with
  | nil => intro l is h _; simpa using h
  | cons j js ih =>
    intro l is h hd
    have hd' : (is ++ [j] ++ js).Nodup := by simpa using hd
    have h1 := List.nodup_append.1 (List.nodup_append.1 hd').1
    have := ih (l.register j) (is ++ [j]) (h.register h1.1 fun hm => h1.2.2 j hm j (by simp) rfl) hd'
    simpa using this

theorem visits_unique {l : Links} {cur : Option Nat} {is js : List Nat} (h : l.Visits cur is) : l.Visits cur js → js = is := by
  induction h generalizing js with
  | stop => intro h; cases h; rfl
  | link _ ih => intro h; cases h with | link h => rw [ih h]

end UnitTest

/-- **C95.** The files are executed in the order of their registration, each once; if every one is registered once. -/
theorem C95_registered (links : List Nat) (h : links.Nodup) (visited : List Nat) :
    (links.foldl Links.register {}).Visits (links.foldl Links.register {}).head visited ↔ visited = links := by
  have := (Registered.all links {} [] ⟨.stop, rfl, fun _ _ => rfl⟩ (by simpa using h)).visits
  exact ⟨visits_unique this, fun e => e ▸ this⟩

/-- **C95.** What a terminal shows for lines of plain text, on Linux: every character in the colour of its line. (The intensity is not high, see
`C94_violated_light`.) -/
theorem C95_terminal (ls : List Line) (h : ∀ l ∈ ls, Spec.PlainText l.text) :
    ∃ stream, Console.linux.run (allCalls ls) = some stream ∧ (Spec.Term.start.display stream).shown =
      ls.flatMap fun l => (List.replicate (4 * l.level) 32 ++ l.text ++ [13, 10]).map fun c => (c, ⟨match l.kind with
        | .info => 7 | .error => 1 | .file => 5 | .category => 3 | .case => 2, false⟩) := by
  have hp : ∀ c ∈ allCalls ls, c.Plain := by
    intro c hc
    simp only [allCalls, List.mem_flatMap, Line.calls] at hc
    obtain ⟨l, hl, hc⟩ := hc
    simp at hc
    rcases hc with rfl | rfl | rfl
    · trivial
    · have := h l hl
      exact ⟨by simp [this.1], by simp [this.2]⟩
    · trivial
  obtain ⟨stream, h1, h2⟩ := C94_linux_partial _ hp
  refine ⟨stream, h1, h2.trans ?_⟩
  clear h1 h2 hp h
  generalize Spec.Attr.default = a
  induction ls generalizing a with
  | nil => rfl
  | cons l ls ih =>
    obtain ⟨k, n, t⟩ := l
    rw [List.flatMap_cons, ← ih ⟨7, true⟩]
    cases k <;> simp [allCalls, Line.calls, Spec.wanted]

namespace UnitTest

/-- a category with a case that passes and one that fails, and a message after it -/
def exampleFile : RFile := ⟨"/x/A.cpp".toList,
  .group true (lit "numbers") (
    .group false (lit "one") (.assert true (lit "1 == 1") .done) <|
    .group false (lit "two") (.print (lit "now") <| .assert false (lit "1 == 2") <| .print (lit "never") .done) .done) <|
  .print (lit "end") .done⟩

end UnitTest

/-- Two files, one of them skipped. -/
example : fileLines (fun f => skipped ["A.cpp".toList] f.name) [exampleFile, ⟨"/x/B.cpp".toList, .done⟩] =
    [⟨.file, 0, lit "/x/A.cpp"⟩, ⟨.category, 1, lit "numbers"⟩, ⟨.case, 2, lit "one"⟩, ⟨.case, 2, lit "two"⟩, ⟨.info, 3, lit "now"⟩,
      ⟨.error, 3, lit "Assertion failure: 1 == 2"⟩, ⟨.info, 1, lit "end"⟩, ⟨.file, 0, lit "/x/B.cpp [SKIPPED]"⟩] := by
  decide +kernel

example : Summary [(fileReport exampleFile).clean] (fileReport exampleFile).cases
    [⟨.error, 0, lit "Passed test files: 0/1"⟩, ⟨.error, 0, lit "Passed test cases: 1/2"⟩] := by
  refine ⟨lit "0", lit "1", lit "1", lit "2", ?_, ?_, ?_, ?_, by decide +kernel⟩ <;>
    exact (Number.naturalNumeral_iff _ _).2 (by decide +kernel)

example : Unguarded exampleFile.code ∧ Spec.NoSwallow exampleFile.code.erase :=
  ⟨⟨⟨trivial, trivial, trivial⟩, trivial⟩, ⟨⟨trivial, trivial, trivial⟩, trivial⟩⟩

/-- A failing case whose exception is caught. -/
example : (told .case (.assert false (lit "1 == 2") .done)).2 = some ⟨.assertError, lit "Assertion failure: " ++ lit "1 == 2"⟩ := by
  simp [told]

example : ([3, 1, 2].foldl Links.register {}).Visits ([3, 1, 2].foldl Links.register {}).head [3, 1, 2] :=
  (C95_registered [3, 1, 2] (by decide) _).2 rfl

end Vlpp
