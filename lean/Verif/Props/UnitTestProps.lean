import Verif.Spec.UnitTest

/-! # C52: the verdict of the test runner -/
set_option autoImplicit false
namespace Vlpp
open UnitTest Spec

namespace UnitTest

/-- all contexts failed -/
def mark (b : Bool) (cs : List Context) : List Context := cs.map fun c => { c with failed := c.failed || b }

theorem mark_false (cs : List Context) : mark false cs = cs := by simp [mark]

theorem mark_mark (a b : Bool) (cs : List Context) : mark b (mark a cs) = mark (a || b) cs := by
  simp [mark, Bool.or_assoc]

theorem mark_cons (b : Bool) (c : Context) (cs : List Context) : mark b (c :: cs) = { c with failed := c.failed || b } :: mark b cs := rfl

theorem recordFailure_eq (cs : List Context) (t p : Nat) : recordFailure ⟨cs, t, p⟩ = ⟨mark true cs, t, p⟩ := by
  simp [recordFailure, mark]

/-- what a verdict does to a state -/
def after (v : Verdict) (s : State) : State :=
  ⟨mark v.broken s.contexts, s.totalCases + v.cases.length, s.passedCases + v.cases.count true⟩

theorem after_followedBy (v w : Verdict) (s : State) : after w (after v s) = after (v.followedBy w) s := by
  simp [after, Verdict.followedBy, mark_mark, List.count_append, Nat.add_assoc]

theorem after_raised (e : Exc) (b : Bool) (s : State) : after (.raised e b) s = s := by
  simp [after, Verdict.raised, mark_false]

theorem after_butRaises (v : Verdict) (e : Exc) (b : Bool) (s : State) : after (v.butRaises e b) s = after v s := by
  rw [Verdict.butRaises, ← after_followedBy, after_raised]

/-- the innermost context -/
def Top (k : Kind) (s : State) : Prop := ∃ f cs, s.contexts = ⟨k, f⟩ :: cs

theorem Top.after {k : Kind} {s : State} (h : Top k s) (v : Verdict) : Top k (after v s) := by
  obtain ⟨f, cs, h⟩ := h
  exact ⟨f || v.broken, mark v.broken cs, by simp [UnitTest.after, h, mark_cons]⟩

/-- Execution of code does what the specification says. -/
theorem exec_eq (code : Code) : ∀ (k : Kind) (s : State), Top k s → exec true code s = ((judge k code).escapes, after (judge k code) s) := by
  induction code with
  | done => intro k s _; simp [exec, judge, after, mark_false]
  | raise e => intro k s _; simp [exec, judge, Verdict.raised, after, mark_false]
  | assert b next ih =>
    intro k s h
    have hl : legalToAssert s = (k == .case) := by
      obtain ⟨f, cs, h⟩ := h; simp [legalToAssert, h]
    simp only [exec, judge, hl]
    by_cases hk : k = .case
    · subst hk
      cases b
      · simp [after_raised]; rfl
      · simpa using ih .case s h
    · simp [hk, after_raised]; rfl
  | print next ih =>
    intro k s h
    have hne : s.contexts ≠ [] := by obtain ⟨f, cs, h⟩ := h; simp [h]
    simp only [exec, judge, if_neg hne]
    exact ih k s h
  | expectError body next ihb ihn =>
    intro k s h
    have hl : legalToAssert s = (k == .case) := by
      obtain ⟨f, cs, h⟩ := h; simp [legalToAssert, h]
    simp only [exec, judge, hl]
    by_cases hk : k = .case
    · subst hk
      rw [if_neg (by decide), if_neg (by simp), ihb .case s h]
      cases he : (judge .case body).escapes with
      | none => simp only [after_butRaises]; rfl
      | some e =>
        cases e <;> simp only [after_butRaises]
        case error =>
          rw [ihn .case _ (h.after _), after_followedBy]; rfl
        all_goals rfl
    · simp [hk, after_raised]; rfl
  | expectException e body handler next ihb ihh ihn =>
    intro k s h
    simp only [exec, judge]
    rw [ihb k s h]
    simp only []
    by_cases he : (judge k body).escapes.getD .assertError = e
    · rw [if_pos he, if_pos he, ihh k _ (h.after _)]
      cases hh : (judge k handler).escapes with
      | none =>
        simp only []
        rw [ihn k _ ((h.after _).after _), after_followedBy (judge k body), after_followedBy]; rfl
      | some e' =>
        simp only [after_followedBy]
        rw [Verdict.followedBy, hh]
    · rw [if_neg he, if_neg he, after_butRaises]; rfl
  | group isCategory body next ihb ihn =>
    intro k s h
    obtain ⟨f, cs, hs⟩ := h
    obtain ⟨contexts, t, p⟩ := s
    simp only at hs
    subst hs
    simp only [exec, judge]
    by_cases hk : k = .case
    · subst hk
      simp [after_raised]; rfl
    · rw [if_neg hk, if_neg hk]
      have hb := ihb (if isCategory then .category else .case)
        ⟨⟨if isCategory then .category else .case, false⟩ :: ⟨k, f⟩ :: cs, t, p⟩ ⟨false, _, rfl⟩
      generalize hv : judge (if isCategory = true then Kind.category else .case) body = v at hb
      simp only [hb]
      have key : ∀ (fl : Bool) (cs' : List Context) (pre : Bool), v.good = !fl → cs' = mark (v.broken || v.escapes.isSome) (⟨k, f⟩ :: cs) →
          exec.group true isCategory next ⟨⟨if isCategory then .category else .case, fl⟩ :: cs', t + v.cases.length, p + v.cases.count true⟩ =
          (((v.inGroup isCategory).followedBy (judge k next)).escapes,
            after ((v.inGroup isCategory).followedBy (judge k next)) ⟨⟨k, f⟩ :: cs, t, p⟩) := by
        intro fl cs' _ hfl hcs
        have hstate : after (v.inGroup isCategory) ⟨⟨k, f⟩ :: cs, t, p⟩ =
            ⟨cs', t + v.cases.length + (if isCategory then 0 else 1),
              p + v.cases.count true + (if isCategory then 0 else if fl = false then 1 else 0)⟩ := by
          simp only [after, Verdict.inGroup, ← hcs]
          cases isCategory
          · cases fl <;> simp [hfl, List.count_append, Nat.add_assoc]
          · simp
        rw [← after_followedBy, hstate]
        have htop : Top k ⟨cs', t + v.cases.length + (if isCategory then 0 else 1),
              p + v.cases.count true + (if isCategory then 0 else if fl = false then 1 else 0)⟩ := by
          rw [hcs, mark_cons]; exact ⟨_, _, rfl⟩
        rw [show ((v.inGroup isCategory).followedBy (judge k next)).escapes = (judge k next).escapes from rfl, ← ihn k _ htop]
        simp only [exec.group]
        congr 1
        cases isCategory
        · cases fl <;> simp
        · simp
      cases he : v.escapes with
      | none =>
        simp only [after, mark_cons]
        refine (key v.broken _ false ?_ ?_).trans ?_
        · simp [Verdict.good, he]
        · simp [he, mark_cons]
        · rfl
      | some e =>
        simp only [after, mark_cons, if_true, recordFailure_eq]
        rw [mark_mark]
        refine (key (false || v.broken || true) _ false ?_ ?_).trans ?_
        · simp [Verdict.good, he]
        · simp [he, mark_cons]
        · rfl
  | tryAll body next ihb ihn =>
    intro k s h
    simp only [exec, judge, ihb k s h]
    rw [ihn k _ (h.after _), after_followedBy]; rfl

/-- a case contains no cases -/
theorem judge_case_cases (code : Code) : (judge .case code).cases = [] := by
  induction code with
  | done => rfl
  | raise e => rfl
  | assert b next ih => simp only [judge]; cases b <;> simp [Verdict.raised, ih]
  | print next ih => exact ih
  | expectError body next ihb ihn =>
    simp only [judge]
    rw [if_neg (by simp)]
    split <;> simp [Verdict.butRaises, Verdict.followedBy, Verdict.raised, ihb, ihn]
  | expectException e body handler next ihb ihh ihn =>
    simp only [judge]
    split
    · split <;> simp [Verdict.followedBy, ihb, ihh, ihn]
    · simp [Verdict.butRaises, Verdict.followedBy, Verdict.raised, ihb]
  | group isCategory body next ihb ihn => simp [judge, Verdict.raised]
  | tryAll body next ihb ihn => simp [judge, Verdict.followedBy, ihb, ihn]

theorem incident_of_broken (code : Code) : ∀ k, (judge k code).broken = true → (judge k code).incident = true := by
  induction code with
  | done => intro k h; cases h
  | raise e => intro k h; cases h
  | assert b next ih =>
    intro k
    simp only [judge]
    split
    · intro h; cases h
    · split
      · exact ih k
      · intro h; cases h
  | print next ih => exact ih
  | expectError body next ihb ihn =>
    intro k
    simp only [judge]
    have hb := ihb k
    have hn := ihn k
    split
    · intro h; cases h
    · split <;> simp only [Verdict.butRaises, Verdict.followedBy, Verdict.raised] <;> simp <;> grind
  | expectException e body handler next ihb ihh ihn =>
    intro k
    simp only [judge]
    have hb := ihb k
    have hn := ihn k
    have hh := ihh k
    split
    · split <;> simp only [Verdict.followedBy] <;> simp <;> grind
    · simp only [Verdict.butRaises, Verdict.followedBy, Verdict.raised]; simp
  | group isCategory body next ihb ihn =>
    intro k
    simp only [judge]
    have hb := ihb (if isCategory = true then Kind.category else .case)
    have hn := ihn k
    split
    · intro h; cases h
    · simp only [Verdict.followedBy, Verdict.inGroup]; simp; grind
  | tryAll body next ihb ihn =>
    intro k
    simp only [judge]
    have hb := ihb k
    have hn := ihn k
    simp only [Verdict.followedBy]; simp; grind

/-- when nothing is swallowed, an incident leaves a trace -/
theorem incident_visible (code : Code) : ∀ k, NoSwallow code → (judge k code).incident = true →
    (judge k code).broken = true ∨ (judge k code).escapes = some .assertError ∨ (judge k code).escapes = some .configError := by
  induction code with
  | done => intro k _ h; cases h
  | raise e => intro k _ h; cases h
  | assert b next ih =>
    intro k hs
    simp only [judge]
    split
    · intro _; simp [Verdict.raised]
    · split
      · exact ih k hs
      · intro _; simp [Verdict.raised]
  | print next ih => exact ih
  | expectError body next ihb ihn =>
    intro k hs
    simp only [judge]
    have hb := ihb k hs.1
    have hn := ihn k hs.2
    split
    · intro _; simp [Verdict.raised]
    · split <;> rename_i he <;> simp only [he] at hb <;> simp only [Verdict.butRaises, Verdict.followedBy, Verdict.raised] <;> simp <;> grind
  | expectException e body handler next ihb ihh ihn =>
    intro k hs
    simp only [judge]
    obtain ⟨he, hs1, hs2, hs3⟩ := hs
    have hb := ihb k hs1
    have hn := ihn k hs3
    have hh := ihh k hs2
    split
    · rename_i hget
      have hb' : (judge k body).incident = true → (judge k body).broken = true := by
        intro hi
        rcases hb hi with h | h | h
        · exact h
        · rw [h] at hget; exact absurd hget.symm he.1
        · rw [h] at hget; exact absurd hget.symm he.2
      split <;> rename_i hesc <;> simp only [Verdict.followedBy] <;> simp <;> grind
    · simp only [Verdict.butRaises, Verdict.followedBy, Verdict.raised]; simp
  | group isCategory body next ihb ihn =>
    intro k hs
    simp only [judge]
    have hb := ihb (if isCategory = true then Kind.category else .case) hs.1
    have hn := ihn k hs.2
    split
    · intro _; simp [Verdict.raised]
    · simp only [Verdict.followedBy, Verdict.inGroup]; simp; grind
  | tryAll body next ihb ihn => intro k hs; exact hs.elim

/-- the verdict about a file -/
def verdict (f : File) : Verdict := judge .file f.code

/-- a file is clean: no failed assertion or expectation, nothing at a wrong place, no exception that escapes -/
def Clean (f : File) : Prop := (verdict f).incident = false ∧ (verdict f).escapes = none

theorem clean_iff_good {f : File} (hs : NoSwallow f.code) : Clean f ↔ (verdict f).good = true := by
  have h1 := incident_of_broken f.code .file
  have h2 := incident_visible f.code .file hs
  have h1' : (verdict f).broken = true → (verdict f).incident = true := h1
  have h2' : (verdict f).incident = true → (verdict f).broken = true ∨ (verdict f).escapes = some .assertError ∨
    (verdict f).escapes = some .configError := h2
  unfold Clean Verdict.good
  cases hb : (verdict f).broken <;> cases hi : (verdict f).incident <;> cases he : (verdict f).escapes <;> simp_all

/-- the files that are executed -/
def executed (names : List (List Char)) (fs : List File) : List File := fs.filter fun f => !skipped names f.name

theorem runFiles_eq (names : List (List Char)) (fs : List File) : ∀ (b : Bool) (tc pc tf pf : Nat),
    ∃ b', runFiles true names fs ⟨⟨[⟨.file, b⟩], tc, pc⟩, tf, pf⟩ =
      some ⟨⟨[⟨.file, b'⟩], tc + ((executed names fs).flatMap fun f => (verdict f).cases).length,
          pc + ((executed names fs).flatMap fun f => (verdict f).cases).count true⟩,
        tf + (executed names fs).length, pf + (executed names fs).countP fun f => (verdict f).good⟩ := by
  induction fs with
  | nil => intro b tc pc tf pf; exact ⟨b, by simp [runFiles, executed]⟩
  | cons f fs ih =>
    intro b tc pc tf pf
    cases hsk : skipped names f.name with
    | true =>
      obtain ⟨b', h⟩ := ih b tc pc tf pf
      refine ⟨b', ?_⟩
      simp only [runFiles, hsk, if_true, h]
      simp [executed, hsk]
    | false =>
      have hex : executed names (f :: fs) = f :: executed names fs := by simp [executed, hsk]
      have hx := exec_eq f.code .file ⟨[⟨.file, false⟩], tc, pc⟩ ⟨false, [], rfl⟩
      have hafter : after (verdict f) ⟨[⟨.file, false⟩], tc, pc⟩ =
        ⟨[⟨.file, (verdict f).broken⟩], tc + (verdict f).cases.length, pc + (verdict f).cases.count true⟩ := by simp [after, mark]
      change _ = ((verdict f).escapes, after (verdict f) _) at hx
      rw [hafter] at hx
      obtain ⟨b', h⟩ := ih (!(verdict f).good) (tc + (verdict f).cases.length) (pc + (verdict f).cases.count true) (tf + 1)
        (if (verdict f).good then pf + 1 else pf)
      refine ⟨b', ?_⟩
      simp only [runFiles, hsk, Bool.false_eq_true, if_false, List.map_cons, List.map_nil, hx]
      rw [hex]
      have hfin : ∀ fl : Bool, fl = !(verdict f).good →
          runFiles.finish true names ⟨[⟨.file, fl⟩], tc + (verdict f).cases.length, pc + (verdict f).cases.count true⟩ fs
            ⟨⟨[⟨.file, b⟩], tc, pc⟩, tf, pf⟩ =
          some ⟨⟨[⟨.file, b'⟩], tc + ((f :: executed names fs).flatMap fun f => (verdict f).cases).length,
              pc + ((f :: executed names fs).flatMap fun f => (verdict f).cases).count true⟩,
            tf + (f :: executed names fs).length, pf + (f :: executed names fs).countP fun f => (verdict f).good⟩ := by
        intro fl hfl
        have hcond : (if fl = false then pf + 1 else pf) = if (verdict f).good then pf + 1 else pf := by
          rw [hfl]; cases (verdict f).good <;> simp
        simp only [runFiles.finish, hcond]
        rw [hfl, h]
        simp only [List.flatMap_cons, List.length_append, List.count_append, List.length_cons, List.countP_cons]
        cases (verdict f).good <;> simp <;> omega
      cases he : (verdict f).escapes with
      | none =>
        simp only []
        exact hfin _ (by simp [Verdict.good, he])
      | some e =>
        simp only [if_true, recordFailure, List.map_cons, List.map_nil]
        exact hfin _ (by simp [Verdict.good, he])

theorem runTests_eq (names : List (List Char)) (fs : List File) :
    ∃ b, runTests true names fs = some (if (executed names fs).all (fun f => (verdict f).good) then 0 else 1,
      ⟨⟨[⟨.file, b⟩], ((executed names fs).flatMap fun f => (verdict f).cases).length,
          ((executed names fs).flatMap fun f => (verdict f).cases).count true⟩,
        (executed names fs).length, (executed names fs).countP fun f => (verdict f).good⟩) := by
  obtain ⟨b, h⟩ := runFiles_eq names fs false 0 0 0 0
  refine ⟨b, ?_⟩
  simp only [runTests, h, Option.map_some, Nat.zero_add]
  congr 2
  by_cases hall : (executed names fs).all (fun f => (verdict f).good) = true
  · rw [if_pos hall, if_pos]
    exact (List.countP_eq_length.2 (List.all_eq_true.1 hall)).symm
  · rw [if_neg hall, if_neg]
    intro he
    exact hall (List.all_eq_true.2 (List.countP_eq_length.1 he.symm))

theorem matchesName_iff (file name : List Char) : matchesName file name = true ↔ Names name file := by
  unfold matchesName Names
  by_cases he : file = name
  · simp [he]
  · rw [if_neg he]
    simp only [he, false_or]
    by_cases hl : file.length > name.length
    · rw [if_pos hl]
      have hlt : file.length - name.length - 1 < file.length := by omega
      rw [List.getElem?_eq_getElem hlt]
      simp only [Bool.and_eq_true, Bool.or_eq_true, decide_eq_true_eq]
      have hsplit : file = file.take (file.length - name.length - 1) ++
          file[file.length - name.length - 1] :: file.drop (file.length - name.length) := by
        conv => lhs; rw [← List.take_append_drop (file.length - name.length - 1) file, List.drop_eq_getElem_cons hlt]
        rw [show file.length - name.length - 1 + 1 = file.length - name.length by omega]
      constructor
      · rintro ⟨hd, hdrop⟩
        refine ⟨file.take (file.length - name.length - 1), file[file.length - name.length - 1], ?_, hd⟩
        rw [hdrop] at hsplit
        exact hsplit
      · rintro ⟨path, d, hf, hd⟩
        have h1 : file.length - name.length - 1 = path.length := by rw [hf]; simp; omega
        have h2 : file.length - name.length = path.length + 1 := by rw [hf]; simp; omega
        constructor
        · have : file[file.length - name.length - 1] = d := by
            have : file[path.length]? = some d := by rw [hf]; simp
            rw [← h1] at this
            exact (List.getElem?_eq_some_iff.1 this).2
          rw [this]; exact hd
        · rw [h2, hf]
          simp
    · rw [if_neg hl]
      simp
      intro path d hf
      exfalso
      rw [hf] at hl
      simp at hl
      omega

end UnitTest

/-- **C52**, partial.  With failures suppressed, for every list of files, every nesting and every choice of files: the result is 0 exactly
when no executed file contains a failed assertion or expectation, something at a place where it is not allowed, or an escaping exception.
The counters are the numbers of executed files and cases, and of those without failures.

The code of the tests does not catch the exceptions of the framework itself (`NoSwallow`). Missing: see `C52_violated_swallow`. -/
theorem C52_verdict_partial (names : List (List Char)) (files : List File) (hs : ∀ f ∈ files, NoSwallow f.code) :
    ∃ r t, runTests true names files = some (r, t) ∧ (r = 0 ↔ ∀ f ∈ files, Selected names f.name → Clean f) ∧
      ∃ ran : List File, ran.Sublist files ∧ (∀ f, f ∈ ran ↔ f ∈ files ∧ Selected names f.name) ∧
        t.totalFiles = ran.length ∧ t.passedFiles = ran.countP (fun f => (verdict f).good) ∧
        t.state.totalCases = (ran.flatMap fun f => (verdict f).cases).length ∧
        t.state.passedCases = (ran.flatMap fun f => (verdict f).cases).count true := by
  obtain ⟨b, h⟩ := runTests_eq names files
  have hmem : ∀ f, f ∈ executed names files ↔ f ∈ files ∧ Selected names f.name := by
    intro f
    simp only [executed, List.mem_filter]
    refine and_congr_right fun _ => ?_
    simp only [skipped, Selected, Bool.not_and, Bool.not_not, Bool.or_eq_true, List.any_eq_true, matchesName_iff]
    simp [List.length_pos_iff]
  refine ⟨_, _, h, ?_, executed names files, List.filter_sublist, hmem, rfl, rfl, rfl, rfl⟩
  have : (if (executed names files).all (fun f => (verdict f).good) then (0 : Int) else 1) = 0 ↔
      (executed names files).all (fun f => (verdict f).good) = true := by
    split <;> simp_all
  rw [this, List.all_eq_true]
  constructor
  · intro hg f hf hsel
    exact (clean_iff_good (hs f hf)).2 (hg f ((hmem f).2 ⟨hf, hsel⟩))
  · intro hc f hf
    obtain ⟨h1, h2⟩ := (hmem f).1 hf
    exact (clean_iff_good (hs f h1)).1 (hc f h1 h2)

theorem parse_written {w : Spec.Option'} {o : List Char} (h : Written w o) (s : Options) :
    Options.parse s o = match w with
      | .debug => { s with debug := true }
      | .release => { s with release := true }
      | .file name => { s with names := s.names ++ [name] } := by
  cases h with
  | debug => rfl
  | release => rfl
  | file name hn =>
    have : 0 < name.length := List.length_pos_iff.2 hn
    simp [Options.parse, this]

theorem parse_unwritten {o : List Char} (h : ∀ w, ¬ Written w o) (s : Options) : Options.parse s o = { s with unrecognized := true } := by
  unfold Options.parse
  have hD : o ≠ ['/', 'D'] := by rintro rfl; exact h _ .debug
  have hR : o ≠ ['/', 'R'] := by rintro rfl; exact h _ .release
  rw [if_neg hD, if_neg hR, if_neg]
  rintro ⟨h1, h2⟩
  have hd : o = '/' :: 'F' :: ':' :: o.drop 3 := by
    conv => lhs; rw [← List.take_append_drop 3 o, h2]
    rfl
  refine h (.file (o.drop 3)) ?_
  conv => arg 2; rw [hd]
  refine .file _ fun hn => ?_
  rw [List.drop_eq_nil_iff] at hn
  omega

theorem parse_unrecognized (os : List (List Char)) : ∀ s : Options, s.unrecognized = true → (os.foldl Options.parse s).unrecognized = true := by
  induction os with
  | nil => intro s h; exact h
  | cons o os ih =>
    intro s h
    refine ih _ ?_
    unfold Options.parse
    split
    · exact h
    · split
      · exact h
      · split
        · exact h
        · rfl

theorem parse_unknown (os : List (List Char)) : ∀ s : Options, (∃ o ∈ os, ∀ w, ¬ Written w o) → (os.foldl Options.parse s).unrecognized = true := by
  induction os with
  | nil => rintro s ⟨o, ho, _⟩; cases ho
  | cons o os ih =>
    rintro s ⟨x, hx, hw⟩
    cases hx with
    | head => exact parse_unrecognized os _ (by rw [parse_unwritten hw])
    | tail _ hx => exact ih _ ⟨x, hx, hw⟩

/-- some option switches debugging on -/
def hasDebug (ws : List Spec.Option') : Bool := ws.any fun | .debug => true | _ => false

/-- some option switches debugging off -/
def hasRelease (ws : List Spec.Option') : Bool := ws.any fun | .release => true | _ => false

theorem parse_all {ws : List Spec.Option'} {os : List (List Char)} (h : AllWritten ws os) : ∀ s : Options,
    os.foldl Options.parse s =
      { s with debug := s.debug || hasDebug ws, release := s.release || hasRelease ws, names := s.names ++ fileNames ws } := by
  induction h with
  | nil => intro s; simp [hasDebug, hasRelease, fileNames]
  | @cons w o ws os hw _ ih =>
    intro s
    rw [List.foldl_cons, parse_written hw, ih]
    cases w <;> simp [hasDebug, hasRelease, fileNames]

/-- **C52**: options of the command line, for every list of them.  An option that does not exist, or both `/D` and `/R`: nothing is executed and the result is 1.
Otherwise the files that are named are executed; failures are suppressed if `/R` is given, or if `/D` is not given and there is no debugger. -/
theorem C52_options (debugger : Bool) (os : List (List Char)) (files : List File) :
    ((∃ o ∈ os, ∀ w, ¬ Written w o) → runAndDispose debugger os files = some 1) ∧
    ∀ ws, AllWritten ws os →
      (.debug ∈ ws → .release ∈ ws → runAndDispose debugger os files = some 1) ∧
      (.debug ∈ ws → .release ∉ ws → runAndDispose debugger os files = (runTests false (fileNames ws) files).map (·.1)) ∧
      (.debug ∉ ws → .release ∈ ws → runAndDispose debugger os files = (runTests true (fileNames ws) files).map (·.1)) ∧
      (.debug ∉ ws → .release ∉ ws → runAndDispose debugger os files = (runTests (!debugger) (fileNames ws) files).map (·.1)) := by
  constructor
  · intro h
    unfold runAndDispose
    simp [parse_unknown os {} h]
  · intro ws hw
    have h1 : hasDebug ws = true ↔ .debug ∈ ws := by
      simp only [hasDebug, List.any_eq_true]
      constructor
      · rintro ⟨x, hx, h⟩
        cases x <;> first | exact hx | cases h
      · exact fun h => ⟨_, h, rfl⟩
    have h2 : hasRelease ws = true ↔ .release ∈ ws := by
      simp only [hasRelease, List.any_eq_true]
      constructor
      · rintro ⟨x, hx, h⟩
        cases x <;> first | exact hx | cases h
      · exact fun h => ⟨_, h, rfl⟩
    unfold runAndDispose
    simp only [parse_all hw, Bool.false_or, List.nil_append]
    rw [← h1, ← h2]
    cases hasDebug ws <;> cases hasRelease ws <;> simp

/-! Two files are named, and failures are suppressed. -/
example (debugger : Bool) (files : List File) :
    runAndDispose debugger ["/F:A.cpp".toList, "/R".toList, "/F:B.cpp".toList] files =
      (runTests true ["A.cpp".toList, "B.cpp".toList] files).map (·.1) :=
  ((C52_options debugger _ files).2 [.file "A.cpp".toList, .release, .file "B.cpp".toList]
    (.cons (.file _ (by decide)) (.cons .release (.cons (.file _ (by decide)) .nil)))).2.2.1 (by simp) (by simp)

/-- **C52**: whatever happens in a case, what comes after it in the same file or category is executed as if the case was not there: the case is counted, and
counted as passed exactly when it ended without an exception. -/
theorem C52_continues (body next : Code) (k : Kind) (hk : k ≠ .case) (s : State) (hs : Top k s) :
    (exec true (.group false body next) s).1 = (exec true next s).1 ∧
    (exec true (.group false body next) s).2.totalCases = (exec true next s).2.totalCases + 1 ∧
    (exec true (.group false body next) s).2.passedCases =
      (exec true next s).2.passedCases + if (judge .case body).good then 1 else 0 := by
  rw [exec_eq _ k s hs, exec_eq next k s hs]
  simp only [judge, if_neg hk, Bool.false_eq_true, if_false, after, Verdict.followedBy, Verdict.inGroup, judge_case_cases, List.nil_append,
    List.length_append, List.length_cons, List.length_nil, List.count_append]
  refine ⟨trivial, by omega, ?_⟩
  cases (judge .case body).good <;> simp <;> omega

/-- **C52**: the same for categories, with all cases that they contain. -/
theorem C52_continues_category (body next : Code) (k : Kind) (hk : k ≠ .case) (s : State) (hs : Top k s) :
    (exec true (.group true body next) s).1 = (exec true next s).1 ∧
    (exec true (.group true body next) s).2.totalCases = (exec true next s).2.totalCases + (judge .category body).cases.length ∧
    (exec true (.group true body next) s).2.passedCases =
      (exec true next s).2.passedCases + (judge .category body).cases.count true := by
  rw [exec_eq _ k s hs, exec_eq next k s hs]
  simp only [judge, if_neg hk, if_true, after, Verdict.followedBy, Verdict.inGroup, List.append_nil,
    List.length_append, List.count_append]
  exact ⟨trivial, by omega, by omega⟩

/-- **C52** is violated: an assertion directly in a category, even one that would hold, prevents all remaining cases of this category. -/
theorem C52_violated_category (b : Bool) (next : Code) (s : State) (hs : Top .category s) :
    exec true (.assert b next) s = (some .configError, s) := by
  rw [exec_eq _ .category s hs]
  simp [judge, after_raised]
  rfl

/-- **C52** is violated: the result is 0 although an assertion failed, if the test catches everything. -/
theorem C52_violated_swallow (name : List Char) :
    ∃ t, runTests true [] [⟨name, .group false (.tryAll (.assert false .done) .done) .done⟩] = some (0, t) ∧
      ¬ Clean ⟨name, .group false (.tryAll (.assert false .done) .done) .done⟩ := by
  obtain ⟨b, h⟩ := runTests_eq [] [⟨name, .group false (.tryAll (.assert false .done) .done) .done⟩]
  rw [if_pos] at h
  · refine ⟨_, h, ?_⟩
    simp [Clean, verdict, judge, Verdict.raised, Verdict.followedBy, Verdict.inGroup]
  · simp [executed, skipped, verdict, judge, Verdict.raised, Verdict.followedBy, Verdict.inGroup, Verdict.good]

/-! Non-vacuity: two files; the second has a category with a passing case, a case that fails, an illegal case in a case, and a case afterwards. -/
namespace UnitTest
/-- files -/
def exampleFiles : List File :=
  [⟨"/a/good.cpp".toList, .group true (.group false (.assert true (.expectError (.raise .error) .done)) .done) .done⟩,
   ⟨"/a/bad.cpp".toList, .group true (.group false (.assert true .done) (.group false (.assert false .done)
      (.group false (.group false .done .done) (.group false (.expectException .exception (.raise .exception) .done .done) .done))))
      (.group false .done .done)⟩]

example : ∀ f ∈ exampleFiles, NoSwallow f.code := by simp [exampleFiles, NoSwallow]

example : (runTests true [] exampleFiles).map (fun x => (x.1, x.2.totalFiles, x.2.passedFiles, x.2.state.totalCases, x.2.state.passedCases)) =
    some (1, 2, 1, 6, 4) := by
  obtain ⟨b, h⟩ := runTests_eq [] exampleFiles
  rw [h]
  simp only [Option.map_some]
  decide +kernel

example : (runTests true ["good.cpp".toList] exampleFiles).map (fun x => (x.1, x.2.totalFiles)) = some (0, 1) := by
  obtain ⟨b, h⟩ := runTests_eq ["good.cpp".toList] exampleFiles
  rw [h]
  simp only [Option.map_some]
  decide +kernel
end UnitTest

end Vlpp
