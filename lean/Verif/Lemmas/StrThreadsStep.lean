import Verif.Lemmas.StrThreads
/-!
# Strings used by several threads: the parts of a step keep the invariant
-/
set_option autoImplicit false
namespace Vlpp
namespace StrThreads
open Spec.StrValues

def Phase.Calm (p : Phase) : Prop := ∀ b, p.delBuf b = false ∧ p.delCnt b = false

theorem Next.phase_calm (k : Next) : k.phase.Calm := by
  intro b
  cases k <;> exact ⟨rfl, rfl⟩

theorem calm_idle : Phase.idle.Calm := fun _ => ⟨rfl, rfl⟩
theorem calm_copying (f : Fields) (v : Nat) : (Phase.copying f v).Calm := fun _ => ⟨rfl, rfl⟩
theorem calm_gather (l : List Loc) (acc : List Nat) (k : Use) : (Phase.gather l acc k).Calm := fun _ => ⟨rfl, rfl⟩
theorem calm_comparing (l : List (Loc × Loc)) (o : Ordering) : (Phase.comparing l o).Calm := fun _ => ⟨rfl, rfl⟩
theorem calm_next (k : Next) : (Phase.next k).Calm := fun _ => ⟨rfl, rfl⟩

/-- `t`'s own variable `v` becomes `x`, everything else that `t` or anybody can see is as before. -/
structure Changed (s s' : State) (v : Nat) (x : Slot) : Prop where
  self : s'.slot v = x
  other : ∀ w, w ≠ v → s'.slot w = s.slot w
  ext : Extends s.blocks s'.blocks

section
variable {own : Owner} {goal : Nat → Env × List Obs} {σ : Nat → Slot} {s : State} {t : Nat} {th : Thread}

theorem counts_calm (th' : Thread) (b : Nat) (ht : s.threads[t]? = some th) (hc : th.phase.Calm) (hc' : th'.phase.Calm) :
    d1 (s.setThread t th') b = d1 s b ∧ d2 (s.setThread t th') b = d2 s b := by
  have := counts_setThread s t th th' b ht
  rw [(hc b).1, (hc b).2, (hc' b).1, (hc' b).2] at this
  simpa using this

/-- Only the thread itself changes. -/
theorem Inv.quiet (h : Inv own goal σ s) (ht : s.threads[t]? = some th) (th' : Thread) (hc : th.phase.Calm)
    (hc' : th'.phase.Calm) (hprog : ∀ op ∈ th'.prog, op ∈ th.prog) (hT : TInv own (goal t) s t th') :
    Inv own goal σ (s.setThread t th') := by
  refine h.of_step ht rfl rfl (Extends.refl _) (fun _ _ => rfl) h.fok ?_ ?_ hprog hT
  · intro b k hk
    rw [(counts_calm th' b ht hc hc').1, (counts_calm th' b ht hc hc').2]
    exact h.blk b k hk
  · intro b hb
    rw [(counts_calm th' b ht hc hc').1, (counts_calm th' b ht hc hc').2]
    exact h.del b hb

theorem extends_set (B : List Block) (b : Nat) (k k' : Block) (hb : B[b]? = some k) (hk : k'.chars = k.chars) :
    Extends B (B.set b k') := by
  intro c x hc
  by_cases h : c = b
  · subst h
    rw [hb] at hc
    injection hc with hc
    subst hc
    exact ⟨k', by rw [List.getElem?_set_self (List.getElem?_eq_some_iff.1 hb).1], hk⟩
  · exact ⟨x, by rw [List.getElem?_set_ne (Ne.symm h)]; exact hc, rfl⟩

theorem mem_block {B : List Block} {f : Fields} {b : Nat} (h : FOk B f) (hm : f.mem = .blk b) : ∃ k, B[b]? = some k := by
  have := h.pos
  rw [hm] at this
  simp only [memChars] at this
  cases hb : B[b]? with
  | none => rw [hb] at this; simp at this
  | some k => exact ⟨k, rfl⟩

/-- A variable without counter becomes another one without counter. -/
theorem Inv.plain (h : Inv own goal σ s) (ht : s.threads[t]? = some th) (th' : Thread) (v : Nat) (f : Fields)
    (hv : own v = some t) (hn : NotLive s v) (hf : ∀ B, FOk B f) (hm : ∀ b, f.mem ≠ .blk b) (hc : th.phase.Calm)
    (hc' : th'.phase.Calm) (hprog : ∀ op ∈ th'.prog, op ∈ th.prog)
    (hT : ∀ s', Changed s s' v (.live f) → TInv own (goal t) s' t th') :
    Inv own goal σ ((s.setVar v (.live f)).setThread t th') := by
  have hr := h.range v t hv
  have hch : Changed s ((s.setVar v (.live f)).setThread t th') v (.live f) :=
    ⟨slot_setVar_self s v _ hr, fun w hw => slot_setVar_ne s v w _ hw, Extends.refl _⟩
  refine h.of_step ht rfl (setVar_len s v _) (Extends.refl _) ?_ ?_ ?_ ?_ hprog (hT _ hch)
  · intro w hw
    exact slot_setVar_ne s v w _ (fun hh => hw (by rw [hh]; exact hv))
  · intro w g hg
    by_cases hw : w = v
    · subst hw
      rw [hch.self] at hg
      injection hg with hg
      subst hg
      exact hf _
    · rw [hch.other w hw] at hg
      exact h.fok w g hg
  · intro b k hk
    have hb := h.blk b k hk
    have e1 := counts_calm (s := s.setVar v (.live f)) th' b ht hc hc'
    have e2 := refs_setVar s v (.live f) b hr
    have : (Slot.live f).refers b = false := by simpa [Slot.refers] using hm b
    have h2 : (s.slot v).refers b = false := by rcases hn with hn | hn <;> rw [hn] <;> rfl
    rw [this, h2] at e2
    simp only [Bool.toNat_false, Nat.add_zero] at e2
    rw [e1.1, e1.2]
    exact e2 ▸ hb
  · intro b hb
    have e1 := counts_calm (s := s.setVar v (.live f)) th' b ht hc hc'
    rw [e1.1, e1.2]
    exact h.del b hb

/-- A new block. -/
theorem Inv.alloc (h : Inv own goal σ s) (ht : s.threads[t]? = some th) (th' : Thread) (v : Nat) (cs : List Nat)
    (hv : own v = some t) (hn : NotLive s v) (hc : th.phase.Calm)
    (hc' : th'.phase.Calm) (hprog : ∀ op ∈ th'.prog, op ∈ th.prog)
    (hT : ∀ s', Changed s s' v (.live (s.allocFields cs)) → FOk s'.blocks (s.allocFields cs) →
      text s'.blocks (s.allocFields cs) = cs → TInv own (goal t) s' t th') :
    Inv own goal σ (((s.alloc cs).setVar v (.live (s.allocFields cs))).setThread t th') := by
  have hr := h.range v t hv
  have hx : Extends s.blocks (s.blocks ++ [{ chars := cs ++ [0] }]) := by
    intro b k hk
    exact ⟨k, by rw [List.getElem?_append_left (List.getElem?_eq_some_iff.1 hk).1]; exact hk, rfl⟩
  have hch : Changed s (((s.alloc cs).setVar v (.live (s.allocFields cs))).setThread t th') v (.live (s.allocFields cs)) :=
    ⟨slot_setVar_self (s.alloc cs) v _ hr, fun w hw => slot_setVar_ne (s.alloc cs) v w _ hw, hx⟩
  have hmem : memChars (s.blocks ++ [{ chars := cs ++ [0] }]) (.blk s.blocks.length) = cs ++ [0] := by
    simp [memChars]
  have hfok : FOk (s.blocks ++ [{ chars := cs ++ [0] }]) (s.allocFields cs) := by
    refine ⟨?_, ?_, ?_⟩
    · show (memChars _ (.blk s.blocks.length)).length = _
      rw [hmem]; simp [State.allocFields]
    · show (memChars _ (.blk s.blocks.length)).getD _ 0 = _
      rw [hmem]; simp [State.allocFields]
    · simp [State.allocFields]
  have htext : text (s.blocks ++ [{ chars := cs ++ [0] }]) (s.allocFields cs) = cs := by
    show ((memChars _ (.blk s.blocks.length)).drop 0).take cs.length = cs
    rw [hmem]; simp
  refine h.of_step ht rfl (setVar_len (s.alloc cs) v _) hx ?_ ?_ ?_ ?_ hprog (hT _ hch hfok htext)
  · intro w hw
    exact hch.other w (fun hh => hw (by rw [hh]; exact hv))
  · intro w g hg
    by_cases hw : w = v
    · subst hw
      rw [hch.self] at hg
      injection hg with hg
      subst hg
      exact hfok
    · rw [hch.other w hw] at hg
      exact (h.fok w g hg).ext hx
  · intro b k hk
    have hk : (s.blocks ++ [{ chars := cs ++ [0] }])[b]? = some k := hk
    have e1 := counts_calm (s := (s.alloc cs).setVar v (.live (s.allocFields cs))) th' b ht hc hc'
    have e2 := refs_setVar (s.alloc cs) v (.live (s.allocFields cs)) b hr
    have h2 : ((s.alloc cs).slot v).refers b = false := by
      rcases hn with hn | hn
      · rw [show (s.alloc cs).slot v = s.slot v from rfl, hn]; rfl
      · rw [show (s.alloc cs).slot v = s.slot v from rfl, hn]; rfl
    rw [h2, show refs (s.alloc cs) b = refs s b from rfl] at e2
    rw [e1.1, e1.2]
    rw [show refs (((s.alloc cs).setVar v (.live (s.allocFields cs))).setThread t th') b
      = refs ((s.alloc cs).setVar v (.live (s.allocFields cs))) b from rfl,
      show d1 ((s.alloc cs).setVar v (.live (s.allocFields cs))) b = d1 s b from rfl,
      show d2 ((s.alloc cs).setVar v (.live (s.allocFields cs))) b = d2 s b from rfl]
    by_cases hb : b < s.blocks.length
    · rw [List.getElem?_append_left hb] at hk
      have : (Slot.live (s.allocFields cs)).refers b = false := by
        simp only [Slot.refers, State.allocFields, Mem.blk.injEq, decide_eq_false_iff_not]; omega
      rw [this] at e2
      simp only [Bool.toNat_false, Nat.add_zero] at e2
      rw [e2]
      exact h.blk b k hk
    · have hbl : b = s.blocks.length := by
        have := (List.getElem?_eq_some_iff.1 hk).1
        simp at this; omega
      subst hbl
      simp only [List.getElem?_concat_length, Option.some.injEq] at hk
      subst hk
      have hz : refs s s.blocks.length = 0 := by
        unfold refs
        rw [List.countP_eq_zero]
        intro x hx' hh
        obtain ⟨w, hw, rfl⟩ := List.mem_iff_getElem.1 hx'
        have hsl : s.slot w = s.vars[w] := by simp [State.slot, List.getElem?_eq_getElem hw]
        cases hxx : s.vars[w] with
        | dead => rw [hxx] at hh; exact absurd hh nofun
        | stale => rw [hxx] at hh; exact absurd hh nofun
        | live f =>
          rw [hxx] at hh hsl
          simp only [Slot.refers, decide_eq_true_eq] at hh
          obtain ⟨k, hk⟩ := mem_block (h.fok w f hsl) hh
          have := (List.getElem?_eq_some_iff.1 hk).1
          omega
      have hself : (Slot.live (s.allocFields cs)).refers s.blocks.length = true := by
        simp [Slot.refers, State.allocFields]
      rw [hself, hz] at e2
      simp only [Bool.toNat_false, Bool.toNat_true, Nat.add_zero, Nat.zero_add] at e2
      have hd := h.del s.blocks.length (Nat.le_refl _)
      rw [hd.1, hd.2, e2]
      exact ⟨by simp, by simp, by simp, by simp, by simp⟩
  · intro b hb
    have e1 := counts_calm (s := (s.alloc cs).setVar v (.live (s.allocFields cs))) th' b ht hc hc'
    rw [e1.1, e1.2]
    refine h.del b ?_
    have hb : (s.alloc cs).blocks.length ≤ b := hb
    simp [State.alloc] at hb
    omega

/-- `Inc()` on the fields that have been copied to `v`. -/
theorem Inv.incr (h : Inv own goal σ s) (ht : s.threads[t]? = some th) (th' : Thread) (v : Nat) (f : Fields)
    (hv : own v = some t) (hn : NotLive s v) (hf : FOk s.blocks f) (hm : Held own s t f.mem) (hc : th.phase.Calm)
    (hc' : th'.phase.Calm) (hprog : ∀ op ∈ th'.prog, op ∈ th.prog)
    (hT : ∀ s', Changed s s' v (.live f) → TInv own (goal t) s' t th') :
    ∃ s', s.inc f = some s' ∧ Inv own goal σ ((s'.setVar v (.live f)).setThread t th') := by
  have hr := h.range v t hv
  rcases hm with ⟨cs, hm⟩ | ⟨w, g, hw, hg, hgm⟩
  · refine ⟨s, by simp [State.inc, hm], ?_⟩
    refine h.plain ht th' v f hv hn ?_ (by simp [hm]) hc hc' hprog hT
    intro B
    have e : memChars B f.mem = memChars s.blocks f.mem := by rw [hm]; rfl
    exact ⟨by rw [e]; exact hf.size, by rw [e]; exact hf.zero, hf.inside⟩
  · cases hfm : f.mem with
    | lit cs =>
      refine ⟨s, by simp [State.inc, hfm], ?_⟩
      refine h.plain ht th' v f hv hn ?_ (by simp [hfm]) hc hc' hprog hT
      intro B
      have e : memChars B f.mem = memChars s.blocks f.mem := by rw [hfm]; rfl
      exact ⟨by rw [e]; exact hf.size, by rw [e]; exact hf.zero, hf.inside⟩
    | blk b =>
      obtain ⟨k, hk⟩ := mem_block hf hfm
      have hbo := h.blk b k hk
      have hpos : 0 < refs s b := refs_pos hg (by rw [hgm]; exact hfm)
      have hcnt : k.hasCounter = true := hbo.counter.2 (Or.inl hpos)
      refine ⟨{ s with blocks := s.blocks.set b { k with counter := k.counter + 1 } }, by simp [State.inc, hfm, hk, hcnt], ?_⟩
      have hx : Extends s.blocks (s.blocks.set b { k with counter := k.counter + 1 }) := extends_set _ _ k _ hk rfl
      have hch : Changed s (({ s with blocks := s.blocks.set b { k with counter := k.counter + 1 } }.setVar v (.live f)).setThread t th')
          v (.live f) :=
        ⟨slot_setVar_self s v _ hr, fun w hw => slot_setVar_ne s v w _ hw, hx⟩
      refine h.of_step ht rfl (setVar_len s v _) hx ?_ ?_ ?_ ?_ hprog (hT _ hch)
      · intro w hw
        exact hch.other w (fun hh => hw (by rw [hh]; exact hv))
      · intro w g hg
        by_cases hw : w = v
        · subst hw
          rw [hch.self] at hg
          injection hg with hg
          subst hg
          exact hf.ext hx
        · rw [hch.other w hw] at hg
          exact (h.fok w g hg).ext hx
      · intro c kc hkc
        have hkc : (s.blocks.set b { k with counter := k.counter + 1 })[c]? = some kc := hkc
        have e1 := counts_calm (s := { s with blocks := s.blocks.set b { k with counter := k.counter + 1 } }.setVar v (.live f))
          th' c ht hc hc'
        have e2 := refs_setVar s v (.live f) c hr
        have h2 : (s.slot v).refers c = false := by rcases hn with hn | hn <;> rw [hn] <;> rfl
        rw [h2] at e2
        rw [e1.1, e1.2]
        show BlockOk kc (refs (s.setVar v (.live f)) c) (d1 s c) (d2 s c)
        by_cases hcb : c = b
        · subst hcb
          rw [List.getElem?_set_self (List.getElem?_eq_some_iff.1 hk).1] at hkc
          injection hkc with hkc
          subst hkc
          have : (Slot.live f).refers c = true := by simp [Slot.refers, hfm]
          rw [this] at e2
          simp only [Bool.toNat_false, Bool.toNat_true] at e2
          rw [show refs (s.setVar v (.live f)) c = refs s c + 1 by omega]
          refine ⟨?_, ?_, ?_, hbo.one, fun _ => hbo.free hpos⟩
          · have := hbo.chars.2 (Or.inl hpos)
            simp [this]
          · simp [hcnt]
          · intro hh
            have := hbo.count hcnt
            show k.counter + 1 = _
            omega
        · rw [List.getElem?_set_ne (Ne.symm hcb)] at hkc
          have : (Slot.live f).refers c = false := by
            simp only [Slot.refers, hfm, Mem.blk.injEq, decide_eq_false_iff_not]; omega
          rw [this] at e2
          simp only [Bool.toNat_false, Nat.add_zero] at e2
          rw [e2]
          exact h.blk c kc hkc
      · intro c hcl
        have e1 := counts_calm (s := { s with blocks := s.blocks.set b { k with counter := k.counter + 1 } }.setVar v (.live f))
          th' c ht hc hc'
        rw [e1.1, e1.2]
        refine h.del c ?_
        have hcl : (s.blocks.set b { k with counter := k.counter + 1 }).length ≤ c := hcl
        simpa using hcl

/-- `Dec()` on variable `v`. -/
theorem Inv.decr (h : Inv own goal σ s) (ht : s.threads[t]? = some th) (th' : Thread) (v : Nat) (f : Fields) (x : Slot) (k : Next)
    (hv : own v = some t) (hl : s.slot v = .live f) (hxs : x = .dead ∨ x = .stale) (hc : th.phase.Calm)
    (hprog : ∀ op ∈ th'.prog, op ∈ th.prog)
    (hT : ∀ s', Changed s s' v x → ∀ p, (p = k.phase ∨ ∃ b, p = .deleteBuffer b k) →
      TInv own (goal t) s' t { th' with phase := p }) :
    ∃ s', decVar s t th' v x k = some s' ∧ Inv own goal σ s' := by
  have hr := h.range v t hv
  have hfok : ∀ s', Changed s s' v x → ∀ w g, s'.slot w = .live g → FOk s'.blocks g := by
    intro s' hch w g hg
    by_cases hw : w = v
    · subst hw
      rw [hch.self] at hg
      rcases hxs with rfl | rfl <;> exact absurd hg nofun
    · rw [hch.other w hw] at hg
      exact (h.fok w g hg).ext hch.ext
  have hxr : ∀ c, x.refers c = false := by intro c; rcases hxs with rfl | rfl <;> rfl
  cases hm : f.mem with
  | lit cs =>
    have hdec : s.dec f = some (s, none) := by simp [State.dec, hm]
    have hch : Changed s ((s.setVar v x).setThread t { th' with phase := k.phase }) v x :=
      ⟨slot_setVar_self s v _ hr, fun w hw => slot_setVar_ne s v w _ hw, Extends.refl _⟩
    refine ⟨(s.setVar v x).setThread t { th' with phase := k.phase }, by simp [decVar, hl, hdec], ?_⟩
    refine h.of_step ht rfl (setVar_len s v _) hch.ext ?_ (hfok _ hch) ?_ ?_ hprog (hT _ hch _ (Or.inl rfl))
    · intro w hw
      exact hch.other w (fun hh => hw (by rw [hh]; exact hv))
    · intro c kc hkc
      have e1 := counts_calm (s := s.setVar v x) { th' with phase := k.phase } c ht hc k.phase_calm
      have e2 := refs_setVar s v x c hr
      rw [hxr, hl, show (Slot.live f).refers c = false by simp [Slot.refers, hm]] at e2
      simp only [Bool.toNat_false, Nat.add_zero] at e2
      rw [e1.1, e1.2]
      exact e2 ▸ h.blk c kc hkc
    · intro c hcl
      have e1 := counts_calm (s := s.setVar v x) { th' with phase := k.phase } c ht hc k.phase_calm
      rw [e1.1, e1.2]
      exact h.del c hcl
  | blk b =>
    obtain ⟨kb, hk⟩ := mem_block (h.fok v f hl) hm
    have hbo := h.blk b kb hk
    have hpos : 0 < refs s b := refs_pos hl hm
    have hcnt : kb.hasCounter = true := hbo.counter.2 (Or.inl hpos)
    have hnum := hbo.count hcnt
    have hx : Extends s.blocks (s.blocks.set b { kb with counter := kb.counter - 1 }) := extends_set _ _ kb _ hk rfl
    have hdec : s.dec f = some ({ s with blocks := s.blocks.set b { kb with counter := kb.counter - 1 } },
        if kb.counter - 1 = 0 then some b else none) := by simp [State.dec, hm, hk, hcnt]
    -- the references afterwards
    have href : ∀ c, refs (s.setVar v x) c + (decide (c = b)).toNat = refs s c := by
      intro c
      have e2 := refs_setVar s v x c hr
      rw [hxr, hl] at e2
      by_cases hcb : c = b
      · subst hcb
        rw [show (Slot.live f).refers c = true by simp [Slot.refers, hm]] at e2
        simpa using e2
      · rw [show (Slot.live f).refers c = false by
          simp only [Slot.refers, hm, Mem.blk.injEq, decide_eq_false_iff_not]; omega] at e2
        simpa [hcb] using e2
    have main : ∀ p, (p = k.phase ∨ ∃ b, p = .deleteBuffer b k) →
        (∀ c, p.delBuf c = decide (refs s b = 1 ∧ c = b)) → (∀ c, p.delCnt c = false) →
        Inv own goal σ (({ s with blocks := s.blocks.set b { kb with counter := kb.counter - 1 } }.setVar v x).setThread t
          { th' with phase := p }) := by
      intro p hp hp1 hp2
      have hch : Changed s (({ s with blocks := s.blocks.set b { kb with counter := kb.counter - 1 } }.setVar v x).setThread t
          { th' with phase := p }) v x :=
        ⟨slot_setVar_self s v _ hr, fun w hw => slot_setVar_ne s v w _ hw, hx⟩
      have e1 : ∀ c, _ := fun c => counts_setThread ({ s with blocks := s.blocks.set b { kb with counter := kb.counter - 1 } }.setVar v x)
        t th { th' with phase := p } c ht
      have e1 : ∀ c, d1 (({ s with blocks := s.blocks.set b { kb with counter := kb.counter - 1 } }.setVar v x).setThread t
          { th' with phase := p }) c = d1 s c + (decide (refs s b = 1 ∧ c = b)).toNat ∧
          d2 (({ s with blocks := s.blocks.set b { kb with counter := kb.counter - 1 } }.setVar v x).setThread t
          { th' with phase := p }) c = d2 s c := by
        intro c
        have := e1 c
        rw [(hc c).1, (hc c).2, hp1 c, hp2 c] at this
        exact ⟨this.1, this.2⟩
      refine h.of_step ht rfl (setVar_len s v _) hch.ext ?_ (hfok _ hch) ?_ ?_ hprog (hT _ hch _ hp)
      · intro w hw
        exact hch.other w (fun hh => hw (by rw [hh]; exact hv))
      · intro c kc hkc
        have hkc : (s.blocks.set b { kb with counter := kb.counter - 1 })[c]? = some kc := hkc
        rw [(e1 c).1, (e1 c).2]
        show BlockOk kc (refs (s.setVar v x) c) _ _
        have e2 := href c
        by_cases hcb : c = b
        · subst hcb
          rw [List.getElem?_set_self (List.getElem?_eq_some_iff.1 hk).1] at hkc
          injection hkc with hkc
          subst hkc
          simp only [decide_true, Bool.toNat_true] at e2
          have hfree := hbo.free hpos
          have hch := hbo.chars.2 (Or.inl hpos)
          by_cases h1 : refs s c = 1
          · have : refs (s.setVar v x) c = 0 := by omega
            rw [this]
            have hd1 : d1 s c = 0 := by omega
            have hd2 : d2 s c = 0 := by omega
            rw [hd1, hd2]
            refine ⟨by simp [hch, h1], by simp [hcnt, h1], ?_, by simp [h1], by simp⟩
            intro _
            show kb.counter - 1 = _
            simp only [Int.natCast_zero]
            omega
          · have hd1 : d1 s c = 0 := by omega
            have hd2 : d2 s c = 0 := by omega
            rw [hd1, hd2]
            have hp : 0 < refs (s.setVar v x) c := by omega
            refine ⟨by simp [hch, hp], by simp [hcnt, hp], ?_, by simp [h1], by simp [h1]⟩
            intro _
            show kb.counter - 1 = _
            omega
        · rw [List.getElem?_set_ne (Ne.symm hcb)] at hkc
          simp only [hcb, decide_false, Bool.toNat_false, Nat.add_zero, and_false] at e2 ⊢
          rw [e2]
          exact h.blk c kc hkc
      · intro c hcl
        have hcl : (s.blocks.set b { kb with counter := kb.counter - 1 }).length ≤ c := hcl
        simp only [List.length_set] at hcl
        have hcb : c ≠ b := by
          have := (List.getElem?_eq_some_iff.1 hk).1
          omega
        rw [(e1 c).1, (e1 c).2]
        simp only [hcb, and_false, decide_false, Bool.toNat_false, Nat.add_zero]
        exact h.del c hcl
    by_cases hone : refs s b = 1
    · refine ⟨_, by simp only [decVar, hl, hdec]; rfl, ?_⟩
      rw [if_pos (by omega)]
      exact main _ (Or.inr ⟨b, rfl⟩) (by intro c; simp [Phase.delBuf, hone, eq_comm]) (fun _ => rfl)
    · refine ⟨_, by simp only [decVar, hl, hdec]; rfl, ?_⟩
      rw [if_neg (by omega)]
      exact main _ (Or.inl rfl) (by intro c; simp [(k.phase_calm c).1, hone]) (fun c => (k.phase_calm c).2)

/-- The fields of `w` are moved to `v`. -/
theorem Inv.moved (h : Inv own goal σ s) (ht : s.threads[t]? = some th) (th' : Thread) (v w : Nat) (f : Fields)
    (hv : own v = some t) (hw : own w = some t) (hne : w ≠ v) (hn : NotLive s v) (hl : s.slot w = .live f) (hc : th.phase.Calm)
    (hc' : th'.phase.Calm) (hprog : ∀ op ∈ th'.prog, op ∈ th.prog)
    (hT : ∀ s', s'.slot v = .live f → s'.slot w = .live .empty → (∀ u, u ≠ v → u ≠ w → s'.slot u = s.slot u) →
      s'.blocks = s.blocks → TInv own (goal t) s' t th') :
    Inv own goal σ (((s.setVar v (.live f)).setVar w (.live .empty)).setThread t th') := by
  have hrv := h.range v t hv
  have hrw := h.range w t hw
  have s1 : (((s.setVar v (.live f)).setVar w (.live .empty)).setThread t th').slot v = .live f := by
    rw [setThread_slot, slot_setVar_ne _ _ _ _ (Ne.symm hne), slot_setVar_self _ _ _ hrv]
  have s2 : (((s.setVar v (.live f)).setVar w (.live .empty)).setThread t th').slot w = .live .empty := by
    rw [setThread_slot, slot_setVar_self _ _ _ (by simpa using hrw)]
  have s3 : ∀ u, u ≠ v → u ≠ w → (((s.setVar v (.live f)).setVar w (.live .empty)).setThread t th').slot u = s.slot u := by
    intro u h1 h2
    rw [setThread_slot, slot_setVar_ne _ _ _ _ h2, slot_setVar_ne _ _ _ _ h1]
  refine h.of_step ht rfl (by simp) (Extends.refl _) ?_ ?_ ?_ ?_ hprog (hT _ s1 s2 s3 rfl)
  · intro u hu
    exact s3 u (fun hh => hu (by rw [hh]; exact hv)) (fun hh => hu (by rw [hh]; exact hw))
  · intro u g hg
    by_cases h1 : u = v
    · subst h1; rw [s1] at hg; injection hg with hg; subst hg; exact h.fok w f hl
    · by_cases h2 : u = w
      · subst h2; rw [s2] at hg; injection hg with hg; subst hg; exact FOk.empty _
      · rw [s3 u h1 h2] at hg; exact h.fok u g hg
  · intro b k hk
    have e1 := counts_calm (s := (s.setVar v (.live f)).setVar w (.live .empty)) th' b ht hc hc'
    have e2 := refs_setVar s v (.live f) b hrv
    have e3 := refs_setVar (s.setVar v (.live f)) w (.live .empty) b (by simpa using hrw)
    have h2 : (s.slot v).refers b = false := by rcases hn with hn | hn <;> rw [hn] <;> rfl
    rw [slot_setVar_ne _ _ _ _ hne, hl, show (Slot.live Fields.empty).refers b = false from rfl] at e3
    rw [h2] at e2
    simp only [Bool.toNat_false, Nat.add_zero] at e2 e3
    rw [e1.1, e1.2]
    have : refs ((s.setVar v (.live f)).setVar w (.live .empty)) b = refs s b := by omega
    exact this ▸ h.blk b k hk
  · intro b hb
    have e1 := counts_calm (s := (s.setVar v (.live f)).setVar w (.live .empty)) th' b ht hc hc'
    rw [e1.1, e1.2]
    exact h.del b hb

end
end StrThreads
end Vlpp
