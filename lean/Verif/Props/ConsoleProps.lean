import Verif.Model.Console
import Verif.Spec.Terminal

/-!
# Property C94: `Console`
-/
set_option autoImplicit false
namespace Vlpp
open Spec (Term Attr ConsoleCall PlainText wanted)
namespace Console

/-- a call on a platform: what it writes -/
def Platform.call (P : Platform) : ConsoleCall → Option (List Nat)
  | .write s => P.writeString s
  | .writeLine s => P.writeLine s
  | .setColor r g b l => some (P.setColor r g b l)

/-- a program: what it writes -/
def Platform.run (P : Platform) : List ConsoleCall → Option (List Nat)
  | [] => some []
  | c :: cs => do
    let a ← P.call c
    let b ← P.run cs
    return a ++ b

theorem take_of (mem rest : List Nat) : take (mem ++ rest) mem.length = some mem := by
  simp [take]
  omega

theorem wcslen_of (s rest : List Nat) (h : 0 ∉ s) : wcslen (s ++ 0 :: rest) = some s.length := by
  induction s with
  | nil => rfl
  | cons c s ih =>
    simp only [List.mem_cons, not_or] at h
    simp [wcslen, Ne.symm h.1, ih h.2]

theorem linux_writeString (s : List Nat) : linux.writeString s = some (s ++ [0]) := by
  simp [Platform.writeString, linux, linuxWrite, take_of]

theorem linux_writeLine (s : List Nat) : linux.writeLine s = some (s ++ [0, 13, 10, 0]) := by
  have : linux.writePtr [13, 10, 0] = some [13, 10, 0] := by decide
  simp [Platform.writeLine, linux_writeString, this]

theorem display_append (t : Term) (a b : List Nat) : t.display (a ++ b) = (t.display a).display b := by
  simp [Term.display]

theorem display_text (s : List Nat) (h : 27 ∉ s) : ∀ t : Term, t.mode = .text →
    t.display s = { t with shown := t.shown ++ (s.filter (· ≠ 0)).map (·, t.attr) } := by
  induction s with
  | nil => intro t _; simp [Term.display]
  | cons c s ih =>
    intro t ht
    simp only [List.mem_cons, not_or] at h
    show (t.step c).display s = _
    by_cases hc : c = 0
    · have : t.step c = t := by simp [Term.step, ht, hc]
      rw [this, ih h.2 t ht]
      simp [hc]
    · have : t.step c = { t with shown := t.shown ++ [(c, t.attr)] } := by simp [Term.step, ht, hc, Ne.symm h.1]
      rw [this, ih h.2 _ (by exact ht)]
      simp [hc]

theorem filter_plain (s : List Nat) (h : 0 ∉ s) : s.filter (· ≠ 0) = s := by
  rw [List.filter_eq_self]
  intro a ha
  simp
  intro e
  exact h (e ▸ ha)

theorem display_color (r g b l : Bool) (t : Term) (ht : t.mode = .text) :
    t.display (linuxSetColor r g b l) =
      { t with attr := ⟨(if r then 1 else 0) + (if g then 2 else 0) + (if b then 4 else 0), !l⟩ } := by
  obtain ⟨m, ⟨a, i⟩, sh⟩ := t
  simp only at ht
  subst ht
  cases r <;> cases g <;> cases b <;> cases l <;> rfl

theorem run_display (calls : List ConsoleCall) : (∀ c ∈ calls, c.Plain) → ∀ t : Term, t.mode = .text →
    ∃ stream, linux.run calls = some stream ∧ (t.display stream).mode = .text ∧
      (t.display stream).shown = t.shown ++ wanted (!·) t.attr calls := by
  induction calls with
  | nil => exact fun _ t ht => ⟨[], rfl, ht, by simp [Term.display, wanted]⟩
  | cons c calls ih =>
    intro h t ht
    have hc := h c (by simp)
    have key : ∃ a, linux.call c = some a ∧ (t.display a).mode = .text ∧
        t.shown ++ wanted (!·) t.attr (c :: calls) = (t.display a).shown ++ wanted (!·) (t.display a).attr calls := by
      cases c with
      | write s =>
        refine ⟨_, linux_writeString s, ?_⟩
        rw [display_text _ (by simpa using hc.2) t ht]
        exact ⟨ht, by rw [List.filter_append, filter_plain s hc.1]; simp [wanted]⟩
      | writeLine s =>
        refine ⟨_, linux_writeLine s, ?_⟩
        rw [display_text _ (by simpa using hc.2) t ht]
        exact ⟨ht, by rw [List.filter_append, filter_plain s hc.1]; simp [wanted]⟩
      | setColor r g b l =>
        refine ⟨_, rfl, ?_⟩
        simp only [linux]
        rw [display_color r g b l t ht]
        exact ⟨ht, rfl⟩
    obtain ⟨a, ea, ma, sa⟩ := key
    obtain ⟨b, eb, mb, sb⟩ := ih (fun c hc => h c (by simp [hc])) (t.display a) ma
    refine ⟨a ++ b, by simp [Platform.run, ea, eb], ?_, ?_⟩
    · rw [display_append]; exact mb
    · rw [display_append, sb, sa]

/-- Windows: `encode` is the conversion to the code page, when the output is not a console -/
def windows (isConsole : Bool) (encode : List Nat → List Nat) : Platform := ⟨windowsWrite isConsole encode, fun _ _ _ _ => []⟩

/-- `n` calls of `Read` -/
def reads (read : List Nat → Option (List Nat × List Nat)) : Nat → List Nat → Option (List (List Nat) × List Nat)
  | 0, input => some ([], input)
  | n + 1, input => do
    let (line, input) ← read input
    let (lines, input) ← reads read n input
    return (line :: lines, input)

theorem getline_of (line rest : List Nat) (h : 10 ∉ line) : getline (line ++ 10 :: rest) = (line, rest) := by
  induction line with
  | nil => rfl
  | cons c line ih =>
    simp only [List.mem_cons, not_or] at h
    simp [getline, Ne.symm h.1, ih h.2]

theorem getline_end (line : List Nat) (h : 10 ∉ line) : getline line = (line, []) := by
  induction line with
  | nil => rfl
  | cons c line ih =>
    simp only [List.mem_cons, not_or] at h
    simp [getline, Ne.symm h.1, ih h.2]

theorem untilZero_of (s : List Nat) (h : 0 ∉ s) : untilZero s = s := by
  induction s with
  | nil => rfl
  | cons c s ih =>
    simp only [List.mem_cons, not_or] at h
    simp [untilZero, Ne.symm h.1, ih h.2]

theorem untilZero_cut (s rest : List Nat) (h : 0 ∉ s) : untilZero (s ++ 0 :: rest) = s := by
  induction s with
  | nil => rfl
  | cons c s ih =>
    simp only [List.mem_cons, not_or] at h
    simp [untilZero, Ne.symm h.1, ih h.2]

theorem windowsRead_of (line rest : List Nat) (h : 10 ∉ line) (h' : 13 ∉ line) :
    windowsRead (line ++ 10 :: rest) = some (line, rest) ∧ (∀ c, windowsRead (line ++ 13 :: c :: rest) = some (line, rest)) ∧
    windowsRead (line ++ [13]) = some (line, []) := by
  induction line with
  | nil => exact ⟨rfl, fun _ => rfl, rfl⟩
  | cons c line ih =>
    simp only [List.mem_cons, not_or] at h h'
    simp [windowsRead, Ne.symm h.1, Ne.symm h'.1, ih h.2 h'.2]

theorem windowsRead_end (input : List Nat) (h : 10 ∉ input) (h' : 13 ∉ input) : windowsRead input = none := by
  induction input with
  | nil => rfl
  | cons c line ih =>
    simp only [List.mem_cons, not_or] at h h'
    simp [windowsRead, Ne.symm h.1, Ne.symm h'.1, ih h.2 h'.2]

theorem reads_of (read : List Nat → Option (List Nat × List Nat)) (ending : List Nat) (lines : List (List Nat)) (rest : List Nat)
    (h : ∀ line ∈ lines, ∀ rest, read (line ++ (ending ++ rest)) = some (line, rest)) :
    reads read lines.length (lines.flatMap (· ++ ending) ++ rest) = some (lines, rest) := by
  induction lines with
  | nil => rfl
  | cons line lines ih =>
    simp only [List.length_cons, reads, List.flatMap_cons, List.append_assoc]
    rw [h line (by simp) (lines.flatMap (· ++ ending) ++ rest)]
    simp [ih fun l hl => h l (by simp [hl])]

end Console

open Console

/-- **C94, Linux.** For every sequence of `Write`, `WriteLine` and `SetColor` with text that contains no zeros and no escape characters,
a terminal shows exactly the characters, in order, each in the colour that was set last. Missing: the intensity is the opposite of what is
asked for, see `C94_violated_light`. -/
theorem C94_linux_partial (calls : List ConsoleCall) (h : ∀ c ∈ calls, c.Plain) :
    ∃ stream, linux.run calls = some stream ∧ (Term.start.display stream).shown = wanted (!·) .default calls := by
  obtain ⟨stream, e, _, hs⟩ := run_display calls h .start rfl
  exact ⟨stream, e, by simpa [Term.start] using hs⟩

/-- **C94** is violated: `light` has the opposite effect: whenever a character is written after a colour was set. -/
theorem C94_violated_light (r g b l : Bool) (c : Nat) (hc : c ≠ 0) (he : c ≠ 27) :
    ∃ stream, linux.run [.setColor r g b l, .write [c]] = some stream ∧
      ((Term.start.display stream).shown.map fun p => (p.1, p.2.intense)) = [(c, !l)] := by
  obtain ⟨stream, e, hs⟩ := C94_linux_partial [.setColor r g b l, .write [c]] (by
    intro x hx
    simp at hx
    rcases hx with rfl | rfl
    · trivial
    · exact ⟨by simpa using Ne.symm hc, by simpa using Ne.symm he⟩)
  exact ⟨stream, e, by rw [hs]; rfl⟩

/-- **C94** is violated: every `Write` writes a zero behind the characters, which is in the file if the output is redirected. -/
theorem C94_violated_zero (s rest : List Nat) :
    linuxWrite (s ++ rest) s.length = some (s ++ [0]) ∧ linux.writeString s = some (s ++ [0]) ∧
    linux.writeLine s = some (s ++ [0, 13, 10, 0]) := by
  refine ⟨?_, linux_writeString s, linux_writeLine s⟩
  simp [linuxWrite, take_of]

/-- **C94, Windows.** To a console exactly the characters are written, however many there are and whatever they are. -/
theorem C94_windows_console (encode : List Nat → List Nat) (s rest : List Nat) :
    windowsWrite true encode (s ++ rest) s.length = some s ∧ (windows true encode).writeString s = some s ∧
    (windows true encode).writeLine s = some (s ++ [13, 10]) := by
  have h1 : ∀ s rest, windowsWrite true encode (s ++ rest) s.length = some s := fun s rest => by simp [windowsWrite, take_of]
  have h2 : ∀ s, (windows true encode).writeString s = some s := fun s => h1 s [0]
  have h3 : (windows true encode).writePtr [13, 10, 0] = some [13, 10] := h1 [13, 10] [0]
  exact ⟨h1 s rest, h2 s, by simp [Platform.writeLine, h2, h3]⟩

/-- **C94, Windows.** To a file or pipe the characters are written in the code page of the console, if there is no zero among them and one
behind them. Missing: see `C94_violated_length`. -/
theorem C94_windows_file_partial (encode : List Nat → List Nat) (s : List Nat) (h : 0 ∉ s) :
    (windows false encode).writeString s = some (encode s) ∧ (windows false encode).writePtr (s ++ [0]) = some (encode s) ∧
    (windows false encode).writeLine s = some (encode s ++ encode [13, 10]) := by
  have h1 : ∀ s, 0 ∉ s → ∀ n, windowsWrite false encode (s ++ [0]) n = some (encode s) := fun s h n => by
    simp [windowsWrite, wcslen_of s [] h]
  have h2 : ∀ s, 0 ∉ s → (windows false encode).writePtr (s ++ [0]) = some (encode s) := fun s h => by
    simp only [Platform.writePtr, wcslen_of s [] h]
    exact h1 s h (s.length : Int)
  have h3 := h2 [13, 10] (by decide)
  refine ⟨h1 s h s.length, h2 s h, ?_⟩
  simp only [Platform.writeLine, Platform.writeString]
  have h4 : (windows false encode).writeLen (s ++ [0]) s.length = some (encode s) := h1 s h s.length
  have h3 : (windows false encode).writePtr [13, 10, 0] = some (encode [13, 10]) := h3
  rw [h4, h3]
  rfl

/-- **C94** is violated: `Write(string, length)` to a file or pipe writes everything up to the next zero, whatever `length` says; nothing
of a string behind a zero in it; and if there is no zero, it reads beyond the end of the memory. -/
theorem C94_violated_length (encode : List Nat → List Nat) (s rest : List Nat) (h : 0 ∉ s) (length : Int) :
    windowsWrite false encode (s ++ 0 :: rest) length = some (encode s) ∧
    (windows false encode).writeString (s ++ 0 :: rest) = some (encode s) ∧
    windowsWrite false encode s length = none := by
  refine ⟨by simp [windowsWrite, wcslen_of s rest h], ?_, ?_⟩
  · show windowsWrite false encode (s ++ 0 :: rest ++ [0]) ((s ++ 0 :: rest).length : Int) = _
    rw [List.append_assoc, List.cons_append]
    simp [windowsWrite, wcslen_of s _ h]
  · have : wcslen s = none := by
      induction s with
      | nil => rfl
      | cons c s ih =>
        simp only [List.mem_cons, not_or] at h
        simp [wcslen, Ne.symm h.1, ih h.2]
    simp [windowsWrite, this]

/-- **C94.** The attributes on Windows have a bit for each colour and one for the intensity. -/
theorem C94_windows_color (r g b l : Bool) :
    windowsAttribute r g b l = (if b then 1 else 0) + (if g then 2 else 0) + (if r then 4 else 0) + (if l then 8 else 0) := by
  cases r <;> cases g <;> cases b <;> cases l <;> rfl

/-- **C94.** `Read` gives one line after the other: on Linux lines that contain no zeros, on Windows lines that end with CR LF or LF. -/
theorem C94_read_partial (lines : List (List Nat)) (rest : List Nat) (h : ∀ line ∈ lines, 10 ∉ line) :
    ((∀ line ∈ lines, 0 ∉ line) →
      reads (fun i => some (linuxRead i)) lines.length (lines.flatMap (· ++ [10]) ++ rest) = some (lines, rest)) ∧
    ((∀ line ∈ lines, 13 ∉ line) →
      reads windowsRead lines.length (lines.flatMap (· ++ [10]) ++ rest) = some (lines, rest) ∧
      reads windowsRead lines.length (lines.flatMap (· ++ [13, 10]) ++ rest) = some (lines, rest)) := by
  refine ⟨fun h0 => reads_of _ [10] lines rest ?_, fun h1 => ⟨reads_of _ [10] lines rest ?_, reads_of _ [13, 10] lines rest ?_⟩⟩
  · intro line hl rest
    simp [linuxRead, getline_of line rest (h line hl), untilZero_of line (h0 line hl)]
  · intro line hl rest
    exact (windowsRead_of line rest (h line hl) (h1 line hl)).1
  · intro line hl rest
    exact (windowsRead_of line rest (h line hl) (h1 line hl)).2.1 10

/-- **C94** is violated: on Linux the rest of a line behind a zero is lost, and the end of the input is an empty line; on Windows the
character behind CR is lost whatever it is, and at the end of the input `Read` does not return. -/
theorem C94_violated_read (line rest : List Nat) (h0 : 0 ∉ line) (h10 : 10 ∉ line) (h13 : 13 ∉ line) :
    (10 ∉ rest → linuxRead (line ++ 0 :: rest) = (line, [])) ∧ linuxRead [] = ([], []) ∧ linuxRead [10] = ([], []) ∧
    (∀ c, windowsRead (line ++ 13 :: c :: rest) = some (line, rest)) ∧ windowsRead (line ++ [13]) = some (line, []) ∧
    windowsRead line = none := by
  refine ⟨fun hr => ?_, rfl, rfl, (windowsRead_of line rest h10 h13).2.1, (windowsRead_of line rest h10 h13).2.2, windowsRead_end line h10 h13⟩
  have : 10 ∉ line ++ 0 :: rest := by simp [h10, hr]
  simp [linuxRead, getline_end _ this, untilZero_cut line rest h0]

/-- Two colours and three texts, one of them empty: what the terminal shows. -/
example :
    let calls : List ConsoleCall := [.write [65, 66], .setColor true false true true, .writeLine [67], .write [], .setColor false true false false,
      .write [68]]
    (∀ c ∈ calls, c.Plain) ∧
    (linux.run calls).map (fun s => (Term.start.display s).shown) =
      some [(65, ⟨7, false⟩), (66, ⟨7, false⟩), (67, ⟨5, false⟩), (13, ⟨5, false⟩), (10, ⟨5, false⟩), (68, ⟨2, true⟩)] := by
  refine ⟨?_, by decide +kernel⟩
  intro c h
  simp at h
  rcases h with rfl | rfl | rfl | rfl | rfl | rfl <;> simp [ConsoleCall.Plain, PlainText]

example : reads windowsRead 2 [72, 105, 13, 10, 13, 10, 33] = some ([[72, 105], []], [33]) := by decide +kernel

end Vlpp
