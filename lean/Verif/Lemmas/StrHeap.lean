import Verif.Model.Str

/-! # Ownership of character buffers -/
set_option autoImplicit false
namespace Vlpp
namespace Strings

variable {α : Type} [Zero α]

/-- content of the memory behind a pointer; `none`: released or never made -/
def mem (h : Heap α) : BufPtr α → Option (List α)
  | .zero => some [0]
  | .foreign _ cs => some cs
  | .heap b => h.bufs[b]?.join

/-- The characters of a string object. -/
def chars (h : Heap α) (s : Str α) : List α :=
  (((mem h s.buffer).getD []).drop s.start.toNat).take s.length.toNat

theorem cells_eq {h : Heap α} {p : BufPtr α} {cs : List α} (e : mem h p = some cs) : cells p h = .ok cs h := by
  cases p with
  | zero => simp [mem] at e; subst e; rfl
  | foreign i c => simp [mem] at e; subst e; rfl
  | heap b =>
    simp only [mem] at e
    unfold cells
    cases hb : h.bufs[b]? with
    | none => simp [hb] at e
    | some o =>
      cases o with
      | none => simp [hb] at e
      | some c => simp [hb] at e; subst e; simp [hb]

theorem read_eq {h : Heap α} {p : BufPtr α} {cs : List α} (e : mem h p = some cs) {off n : Int}
    (ho : 0 ≤ off) (hn : 0 ≤ n) (hb : off + n ≤ cs.length) :
    read p off n h = .ok ((cs.drop off.toNat).take n.toNat) h := by
  unfold read
  rw [Cpp.bind_ok (cells_eq e), if_pos ⟨ho, hn, hb⟩]
  rfl

/-- A string whose characters and terminator can be read. -/
structure Readable (h : Heap α) (s : Str α) : Prop where
  start_nonneg : 0 ≤ s.start
  length_nonneg : 0 ≤ s.length
  fits : s.start + s.length ≤ s.realLength
  backed : ∃ cs, mem h s.buffer = some cs ∧ s.realLength < cs.length ∧ cs[s.realLength.toNat]? = some 0

/-- The counter of a string belongs to its buffer. -/
def Linked (s : Str α) : Prop :=
  (s.counter = none ∧ ∀ b, s.buffer ≠ .heap b) ∨ ∃ c, s.counter = some c ∧ s.buffer = .heap c

/-- number of strings that share counter `c` -/
def owners (L : List (Str α)) (c : Nat) : Nat := L.countP (fun s => s.counter == some c)

/-- Buffer and counter `c` are alive, shared by `n` strings. -/
def AliveAt (h : Heap α) (c n : Nat) : Prop :=
  h.ctrs[c]? = some (some (n : Int)) ∧ 0 < n ∧ ∃ cs, h.bufs[c]? = some (some cs)

/-- Buffer and counter `c` have been released. -/
def FreedAt (h : Heap α) (c : Nat) : Prop := h.ctrs[c]? = some none ∧ h.bufs[c]? = some none

/-- The heap is as the strings in `L` need it, and holds nothing else. -/
structure Inv (h : Heap α) (L : List (Str α)) : Prop where
  same : h.bufs.length = h.ctrs.length
  good : ∀ s ∈ L, Readable h s ∧ Linked s
  counted : ∀ c, c < h.ctrs.length → AliveAt h c (owners L c) ∨ (FreedAt h c ∧ owners L c = 0)
  known : ∀ s ∈ L, ∀ c, s.counter = some c → c < h.ctrs.length

theorem Inv.perm {h : Heap α} {L L' : List (Str α)} (i : Inv h L) (p : L.Perm L') : Inv h L' where
  same := i.same
  good := fun s hs => i.good s (p.mem_iff.mpr hs)
  counted := by
    intro c hc
    have e : owners L' c = owners L c := (p.countP_eq _).symm
    rw [e]
    exact i.counted c hc
  known := fun s hs => i.known s (p.mem_iff.mpr hs)

/-- everything that could be read still can -/
def Extends (h h' : Heap α) : Prop := ∀ p cs, mem h p = some cs → mem h' p = some cs

theorem Extends.refl (h : Heap α) : Extends h h := fun _ _ e => e

theorem Extends.trans {h h' h'' : Heap α} (a : Extends h h') (b : Extends h' h'') : Extends h h'' :=
  fun p cs e => b p cs (a p cs e)

theorem Readable.of_mem {h h' : Heap α} {s : Str α} (r : Readable h s) (e : mem h' s.buffer = mem h s.buffer) :
    Readable h' s := ⟨r.1, r.2, r.3, by rw [e]; exact r.4⟩

theorem Extends.mem_eq {h h' : Heap α} (x : Extends h h') {s : Str α} (r : Readable h s) :
    mem h' s.buffer = mem h s.buffer := by
  obtain ⟨cs, e, -⟩ := r.4
  rw [e, x _ _ e]

theorem Extends.readable {h h' : Heap α} (x : Extends h h') {s : Str α} (r : Readable h s) : Readable h' s :=
  r.of_mem (x.mem_eq r)

theorem chars_of_mem {h h' : Heap α} {s : Str α} (e : mem h' s.buffer = mem h s.buffer) : chars h' s = chars h s := by
  unfold chars; rw [e]

theorem Extends.chars {h h' : Heap α} (x : Extends h h') {s : Str α} (r : Readable h s) : chars h' s = chars h s :=
  chars_of_mem (x.mem_eq r)

theorem chars_length {h : Heap α} {s : Str α} (r : Readable h s) : ((chars h s).length : Int) = s.length := by
  obtain ⟨cs, e, h1, -⟩ := r.4
  have := r.1; have := r.2; have := r.3
  simp only [chars, e, Option.getD_some, List.length_take, List.length_drop]
  omega

/-- Reading inside the string. -/
theorem read_string {h : Heap α} {s : Str α} (r : Readable h s) {off n : Int} (ho : 0 ≤ off) (hn : 0 ≤ n)
    (hb : off + n ≤ s.length) :
    read s.buffer (s.start + off) n h = .ok (((chars h s).drop off.toNat).take n.toNat) h := by
  obtain ⟨cs, e, h1, -⟩ := r.4
  have := r.1; have := r.2; have := r.3
  rw [read_eq e (by omega) hn (by omega)]
  simp only [chars, e, Option.getD_some]
  congr 1
  rw [List.drop_take, List.drop_drop, List.take_take]
  have e1 : s.start.toNat + off.toNat = (s.start + off).toNat := by omega
  rw [e1]
  congr 1
  omega

theorem mem_bufs {h h' : Heap α} (e : h'.bufs = h.bufs) (p : BufPtr α) : mem h' p = mem h p := by
  cases p <;> simp [mem, e]

omit [Zero α] in
theorem owners_cons (s : Str α) (L : List (Str α)) (c : Nat) :
    owners (s :: L) c = owners L c + if s.counter = some c then 1 else 0 := by
  unfold owners
  rw [List.countP_cons]
  simp

omit [Zero α] in
theorem owners_pos {L : List (Str α)} {s : Str α} {c : Nat} (hs : s ∈ L) (hc : s.counter = some c) :
    0 < owners L c := by
  unfold owners
  rw [List.countP_pos_iff]
  exact ⟨s, hs, by simp [hc]⟩

theorem Inv.alive {h : Heap α} {L : List (Str α)} (i : Inv h L) {s : Str α} {c : Nat} (hs : s ∈ L)
    (hc : s.counter = some c) : AliveAt h c (owners L c) := by
  rcases i.counted c (i.known s hs c hc) with a | ⟨-, z⟩
  · exact a
  · have := owners_pos hs hc; omega

theorem lt_of_getElem? {β : Type} {l : List β} {n : Nat} {x : β} (h : l[n]? = some x) : n < l.length := by
  refine Classical.byContradiction fun hc => ?_
  rw [List.getElem?_eq_none (by omega)] at h
  cases h

/-- A string that takes no part in counting can join. -/
theorem Inv.cons_uncounted {h : Heap α} {L : List (Str α)} (i : Inv h L) {t : Str α} (r : Readable h t)
    (hc : t.counter = none) (hb : ∀ b, t.buffer ≠ .heap b) : Inv h (t :: L) where
  same := i.same
  good := by
    intro s hs
    rcases List.mem_cons.mp hs with rfl | hs
    · exact ⟨r, .inl ⟨hc, hb⟩⟩
    · exact i.good s hs
  counted := by
    intro c h'
    rw [owners_cons, hc]
    simpa using i.counted c h'
  known := by
    intro s hs c h'
    rcases List.mem_cons.mp hs with rfl | hs
    · rw [hc] at h'; cases h'
    · exact i.known s hs c h'

theorem Inv.uncons_uncounted {h : Heap α} {L : List (Str α)} {t : Str α} (i : Inv h (t :: L))
    (hc : t.counter = none) : Inv h L where
  same := i.same
  good := fun s hs => i.good s (List.mem_cons_of_mem _ hs)
  counted := by
    intro c h'
    have := i.counted c h'
    rw [owners_cons, hc] at this
    simpa using this
  known := fun s hs => i.known s (List.mem_cons_of_mem _ hs)

/-- `Inc`, for a string `t` that looks into the buffer of a string `s`. -/
theorem inc_spec {h : Heap α} {L : List (Str α)} (i : Inv h L) {s t : Str α} (hs : s ∈ L)
    (hc : t.counter = s.counter) (hb : t.buffer = s.buffer) (r : Readable h t) :
    ∃ h', inc s.counter h = .ok () h' ∧ h'.bufs = h.bufs ∧ Inv h' (t :: L) := by
  rcases (i.good s hs).2 with ⟨h1, h2⟩ | ⟨c, h1, h2⟩
  · refine ⟨h, by rw [h1]; rfl, rfl, i.cons_uncounted r (hc.trans h1) (by rw [hb]; exact h2)⟩
  · obtain ⟨a1, a2, cs, a3⟩ := i.alive hs h1
    refine ⟨{ h with ctrs := h.ctrs.set c (some ((owners L c : Int) + 1)) }, ?_, rfl, ?_⟩
    · rw [h1]; simp only [inc, a1]
    · have hlt := lt_of_getElem? a1
      refine ⟨by simpa using i.same, ?_, ?_, ?_⟩
      · intro u hu
        rcases List.mem_cons.mp hu with rfl | hu
        · exact ⟨r.of_mem (mem_bufs rfl _), .inr ⟨c, hc.trans h1, hb.trans h2⟩⟩
        · exact ⟨(i.good u hu).1.of_mem (mem_bufs rfl _), (i.good u hu).2⟩
      · intro c' hc'
        simp only [List.length_set] at hc'
        rw [owners_cons]
        by_cases e : c = c'
        · subst e
          left
          refine ⟨?_, by omega, cs, a3⟩
          simp [List.getElem?_set_self hlt, hc, h1]
        · have ne : ¬ t.counter = some c' := by rw [hc, h1]; simpa using e
          rw [if_neg ne, Nat.add_zero]
          rcases i.counted c' hc' with ⟨b1, b2, b3⟩ | ⟨⟨b1, b2⟩, b3⟩
          · exact .inl ⟨by simp only [List.getElem?_set_ne e]; exact b1, b2, b3⟩
          · exact .inr ⟨⟨by simp only [List.getElem?_set_ne e]; exact b1, b2⟩, b3⟩
      · intro u hu c' h'
        simp only [List.length_set]
        rcases List.mem_cons.mp hu with rfl | hu
        · exact i.known s hs c' (hc ▸ h')
        · exact i.known u hu c' h'

/-- `Dec` takes a string out and leaves what the others see. -/
theorem dec_spec {h : Heap α} {L : List (Str α)} {s : Str α} (i : Inv h (s :: L)) :
    ∃ h', dec s h = .ok () h' ∧ Inv h' L ∧ ∀ t ∈ L, mem h' t.buffer = mem h t.buffer := by
  rcases (i.good s (List.mem_cons_self)).2 with ⟨h1, h2⟩ | ⟨c, h1, h2⟩
  · refine ⟨h, ?_, i.uncons_uncounted h1, fun _ _ => rfl⟩
    unfold dec; rw [h1]; rfl
  · obtain ⟨a1, a2, cs, a3⟩ := i.alive List.mem_cons_self h1
    have hlt := lt_of_getElem? a1
    have hlt' := lt_of_getElem? a3
    have hcnt : owners (s :: L) c = owners L c + 1 := by rw [owners_cons, if_pos h1]
    rw [hcnt] at a1 a2
    by_cases hz : owners L c = 0
    · refine ⟨{ bufs := h.bufs.set c none, ctrs := h.ctrs.set c none }, ?_, ?_, ?_⟩
      · unfold dec
        simp only [h1, a1, h2, a3, hz]
        rfl
      all_goals
        have others : ∀ t ∈ L, mem { bufs := h.bufs.set c none, ctrs := h.ctrs.set c none : Heap α } t.buffer
            = mem h t.buffer := by
          intro t ht
          cases e : t.buffer with
          | zero => rfl
          | foreign _ _ => rfl
          | heap b =>
            have hb : t.counter = some b := by
              rcases (i.good t (List.mem_cons_of_mem _ ht)).2 with ⟨_, n⟩ | ⟨c', n1, n2⟩
              · exact absurd e (n b)
              · rw [n2] at e; cases e; exact n1
            have hne : c ≠ b := by
              rintro rfl
              have := owners_pos ht hb
              omega
            simp only [mem, List.getElem?_set_ne hne]
      · refine ⟨by simpa using i.same, ?_, ?_, ?_⟩
        · intro t ht
          exact ⟨(i.good t (List.mem_cons_of_mem _ ht)).1.of_mem (others t ht),
            (i.good t (List.mem_cons_of_mem _ ht)).2⟩
        · intro c' hc'
          simp only [List.length_set] at hc'
          by_cases e : c = c'
          · subst e
            exact .inr ⟨⟨List.getElem?_set_self hlt, List.getElem?_set_self hlt'⟩, hz⟩
          · have := i.counted c' hc'
            rw [owners_cons, if_neg (by rw [h1]; simpa using e), Nat.add_zero] at this
            simp only [AliveAt, FreedAt, List.getElem?_set_ne e]
            exact this
        · intro t ht c' h'
          simp only [List.length_set]
          exact i.known t (List.mem_cons_of_mem _ ht) c' h'
      · exact others
    · refine ⟨{ h with ctrs := h.ctrs.set c (some (owners L c : Int)) }, ?_, ?_, fun t _ => mem_bufs rfl _⟩
      · have e1 : ((owners L c + 1 : Nat) : Int) - 1 = owners L c := by omega
        unfold dec
        simp only [h1, a1, e1]
        rw [if_neg (by omega)]
      · refine ⟨by simpa using i.same, ?_, ?_, ?_⟩
        · intro t ht
          exact ⟨(i.good t (List.mem_cons_of_mem _ ht)).1.of_mem (mem_bufs rfl _),
            (i.good t (List.mem_cons_of_mem _ ht)).2⟩
        · intro c' hc'
          simp only [List.length_set] at hc'
          by_cases e : c = c'
          · subst e
            exact .inl ⟨List.getElem?_set_self hlt, by omega, cs, a3⟩
          · have := i.counted c' hc'
            rw [owners_cons, if_neg (by rw [h1]; simpa using e), Nat.add_zero] at this
            simp only [AliveAt, FreedAt, List.getElem?_set_ne e]
            exact this
        · intro t ht c' h'
          simp only [List.length_set]
          exact i.known t (List.mem_cons_of_mem _ ht) c' h'

/-- the heap with a new counter and a new buffer -/
def grown (h : Heap α) (cs : List α) : Heap α :=
  { bufs := h.bufs ++ [some cs], ctrs := h.ctrs ++ [some 1] }

theorem grown_extends (h : Heap α) (cs : List α) : Extends h (grown h cs) := by
  intro p x e
  cases p with
  | zero => exact e
  | foreign _ _ => exact e
  | heap b =>
    simp only [mem, grown] at e ⊢
    have hb : b < h.bufs.length := by
      refine Classical.byContradiction fun hc => ?_
      rw [List.getElem?_eq_none (by omega)] at e
      cases e
    rw [List.getElem?_append_left hb]
    exact e

/-- The new string made of a new counter and a new buffer. -/
theorem grown_spec {h : Heap α} {L : List (Str α)} (i : Inv h L) (cs : List α) (n : Int) (hn : 0 ≤ n)
    (hz : cs[n.toNat]? = some 0) :
    Inv (grown h cs) (⟨.heap h.bufs.length, some h.ctrs.length, 0, n, n⟩ :: L) ∧
      chars (grown h cs) ⟨.heap h.bufs.length, some h.ctrs.length, 0, n, n⟩ = cs.take n.toNat := by
  have hm : mem (grown h cs) (.heap h.bufs.length) = some cs := by simp [mem, grown]
  have hlt := lt_of_getElem? hz
  refine ⟨⟨by simp [grown, i.same], ?_, ?_, ?_⟩, by simp [chars, hm]⟩
  · intro u hu
    rcases List.mem_cons.mp hu with rfl | hu
    · refine ⟨⟨by simp, hn, by simp, cs, hm, by show n < _; omega, hz⟩, .inr ⟨h.ctrs.length, rfl, ?_⟩⟩
      show BufPtr.heap _ = _
      rw [i.same]
    · exact ⟨(grown_extends h cs).readable (i.good u hu).1, (i.good u hu).2⟩
  · intro c hc
    rw [owners_cons]
    simp only [grown, List.length_append, List.length_cons, List.length_nil] at hc
    by_cases e : c = h.ctrs.length
    · have e0 : owners L c = 0 := by
        unfold owners
        rw [List.countP_eq_zero]
        intro u hu hc'
        have := i.known u hu c (by simpa using hc')
        omega
      rw [e0, if_pos (by rw [e])]
      left
      refine ⟨by simp [grown, e], by omega, cs, by simp [grown, e, ← i.same]⟩
    · rw [if_neg (by simp; omega), Nat.add_zero]
      have h1 : (grown h cs).ctrs[c]? = h.ctrs[c]? := List.getElem?_append_left (by omega)
      have h2 : (grown h cs).bufs[c]? = h.bufs[c]? := List.getElem?_append_left (by have := i.same; omega)
      simp only [AliveAt, FreedAt, h1, h2]
      exact i.counted c (by omega)
  · intro u hu c h'
    simp only [grown, List.length_append, List.length_cons, List.length_nil]
    rcases List.mem_cons.mp hu with rfl | hu
    · simp at h'; omega
    · have := i.known u hu c h'; omega

end Strings
end Vlpp
