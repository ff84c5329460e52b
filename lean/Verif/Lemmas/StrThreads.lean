import Verif.Spec.StrValues
/-!
# Strings used by several threads: the invariant
-/
set_option autoImplicit false
namespace Vlpp
namespace StrThreads
open Spec.StrValues

theorem countP_set_add {α : Type} (p : α → Bool) (l : List α) (i : Nat) (x y : α) (h : l[i]? = some y) :
    (l.set i x).countP p + (p y).toNat = l.countP p + (p x).toNat := by
  induction l generalizing i with
  | nil => simp at h
  | cons a l ih =>
    cases i with
    | zero =>
      simp at h
      subst h
      simp only [List.set_cons_zero, List.countP_cons]
      cases p x <;> cases p a <;> simp
    | succ i =>
      simp at h
      have := ih i h
      simp only [List.set_cons_succ, List.countP_cons]
      omega

/-! ## Contents of memory -/

def charAt (B : List Block) (l : Loc) : Nat := (memChars B l.1).getD l.2 0

def Extends (B B' : List Block) : Prop := ∀ (b : Nat) (k : Block), B[b]? = some k → ∃ k' : Block, B'[b]? = some k' ∧ k'.chars = k.chars

theorem Extends.refl (B : List Block) : Extends B B := fun _ k h => ⟨k, h, rfl⟩

theorem Extends.chars {B B' : List Block} (h : Extends B B') (m : Mem) (hm : 0 < (memChars B m).length) :
    memChars B' m = memChars B m := by
  cases m with
  | lit cs => rfl
  | blk b =>
    simp only [memChars] at hm ⊢
    cases hb : B[b]? with
    | none => rw [hb] at hm; simp at hm
    | some k =>
      obtain ⟨k', h1, h2⟩ := h b k hb
      rw [h1]
      simpa using h2

theorem FOk.pos {B : List Block} {f : Fields} (h : FOk B f) : 0 < (memChars B f.mem).length := by rw [h.size]; omega

theorem FOk.ext {B B' : List Block} (h : Extends B B') {f : Fields} (hf : FOk B f) : FOk B' f := by
  have := h.chars f.mem hf.pos
  exact ⟨by rw [this]; exact hf.size, by rw [this]; exact hf.zero, hf.inside⟩

theorem FOk.text_ext {B B' : List Block} (h : Extends B B') {f : Fields} (hf : FOk B f) : text B' f = text B f := by
  unfold text
  rw [h.chars f.mem hf.pos]

theorem FOk.text_length {B : List Block} {f : Fields} (h : FOk B f) : (text B f).length = f.length := by
  unfold text
  simp only [List.length_take, List.length_drop, h.size]
  have := h.inside
  omega

theorem charAt_ext {B B' : List Block} (h : Extends B B') (l : Loc) (hl : l.2 < (memChars B l.1).length) :
    charAt B' l = charAt B l := by
  unfold charAt
  rw [h.chars l.1 (by omega)]

theorem FOk.empty (B : List Block) : FOk B .empty := ⟨rfl, rfl, Nat.le_refl _⟩

theorem text_empty (B : List Block) : text B .empty = [] := rfl

theorem locs_chars (B : List Block) (f : Fields) (hf : FOk B f) (i j : Nat) (hj : j ≤ f.length) :
    (f.locs i j).map (charAt B) = ((text B f).take j).drop i := by
  apply List.ext_getElem
  · simp only [Fields.locs, List.length_map, List.length_range', List.length_drop, List.length_take, hf.text_length]
    omega
  · intro n h1 h2
    have := hf.inside
    have := hf.size
    simp only [Fields.locs, List.length_map, List.length_range'] at h1
    simp only [Fields.locs, List.getElem_map, List.getElem_range', charAt, List.getElem_drop, List.getElem_take, text]
    rw [List.getD_eq_getElem?_getD, List.getElem?_eq_getElem (by omega)]
    simp

theorem locs_zero (B : List Block) (f : Fields) (hf : FOk B f) (he : f.start + f.length = f.real) :
    (f.locs 0 (f.length + 1)).map (charAt B) = text B f ++ [0] := by
  have h1 : f.locs 0 (f.length + 1) = f.locs 0 f.length ++ [(f.mem, f.real)] := by
    unfold Fields.locs
    rw [Nat.sub_zero, Nat.sub_zero, List.range'_concat]
    simp [he]
  rw [h1, List.map_append, locs_chars B f hf 0 f.length (Nat.le_refl _)]
  have : (text B f).take f.length = text B f := by
    rw [List.take_of_length_le]; rw [hf.text_length]; exact Nat.le_refl _
  simp only [List.drop_zero, this, List.map_cons, List.map_nil]
  rw [show charAt B (f.mem, f.real) = 0 from hf.zero]

theorem locs_mem (f : Fields) (i j : Nat) (l : Loc) (h : l ∈ f.locs i j) :
    l.1 = f.mem ∧ ∃ p, i ≤ p ∧ p < j ∧ l.2 = f.start + p := by
  unfold Fields.locs at h
  rw [List.mem_map] at h
  obtain ⟨p, hp, rfl⟩ := h
  rw [List.mem_range'_1] at hp
  exact ⟨rfl, p, hp.1, by omega, rfl⟩

/-! ## The invariant -/

def Phase.delBuf (b : Nat) : Phase → Bool
  | .deleteBuffer b' _ => b' = b
  | _ => false

def Phase.delCnt (b : Nat) : Phase → Bool
  | .deleteCounter b' _ => b' = b
  | _ => false

def d1 (s : State) (b : Nat) : Nat := s.threads.countP fun th => th.phase.delBuf b
def d2 (s : State) (b : Nat) : Nat := s.threads.countP fun th => th.phase.delCnt b

structure BlockOk (k : Block) (r d e : Nat) : Prop where
  chars : k.hasChars = true ↔ 0 < r ∨ 0 < d
  counter : k.hasCounter = true ↔ 0 < r ∨ 0 < d ∨ 0 < e
  count : k.hasCounter = true → k.counter = (r : Int)
  one : d + e ≤ 1
  free : 0 < r → d + e = 0

def MatchAt (s : State) (e : Env) (w : Nat) : Prop :=
  match s.slot w with
  | .dead => e w = none
  | .stale => False
  | .live f => e w = some (text s.blocks f)

def Matches (own : Owner) (s : State) (t : Nat) (e : Env) (skip : Nat → Prop) : Prop :=
  ∀ w, Readable own t w → ¬ skip w → MatchAt s e w

def Held (own : Owner) (s : State) (t : Nat) (m : Mem) : Prop :=
  (∃ cs, m = .lit cs) ∨ ∃ w f, Readable own t w ∧ s.slot w = .live f ∧ f.mem = m

def LocOk (own : Owner) (s : State) (t : Nat) (l : Loc) : Prop :=
  l.2 < (memChars s.blocks l.1).length ∧ Held own s t l.1

def NotLive (s : State) (v : Nat) : Prop := s.slot v = .dead ∨ s.slot v = .stale

def lexWith : List (Nat × Nat) → Ordering → Ordering
  | [], o => o
  | (x, y) :: l, o => if Ord.compare x y ≠ .eq then Ord.compare x y else lexWith l o

def NextOk (own : Owner) (s : State) (t : Nat) (e : Env) (pend : List Obs) : Next → Prop
  | .stop => pend = [] ∧ Matches own s t e (fun _ => False)
  | .fetch w v => pend = [] ∧ own v = some t ∧ s.slot v = .stale ∧ Readable own t w ∧ w ≠ v ∧
      (∃ f, s.slot w = .live f ∧ e v = some (text s.blocks f)) ∧ Matches own s t e (· = v)
  | .take w v => pend = [] ∧ own v = some t ∧ s.slot v = .stale ∧ own w = some t ∧ w ≠ v ∧
      (∃ f, s.slot w = .live f ∧ e v = some (text s.blocks f)) ∧ e w = some [] ∧
      Matches own s t e (fun u => u = v ∨ u = w)
  | .put w cs => pend = [.text (cs ++ [0])] ∧ own w = some t ∧ s.slot w = .stale ∧ e w = some cs ∧
      Matches own s t e (· = w)

def PhaseOk (own : Owner) (s : State) (t : Nat) (e : Env) (pend : List Obs) : Phase → Prop
  | .idle => pend = [] ∧ Matches own s t e (fun _ => False)
  | .copying f v => pend = [] ∧ own v = some t ∧ NotLive s v ∧ FOk s.blocks f ∧ Held own s t f.mem ∧
      e v = some (text s.blocks f) ∧ Matches own s t e (· = v)
  | .gather todo acc (.make v) => pend = [] ∧ own v = some t ∧ NotLive s v ∧ (∀ l ∈ todo, LocOk own s t l) ∧
      e v = some (acc ++ todo.map (charAt s.blocks)) ∧ Matches own s t e (· = v)
  | .gather todo acc (.rebuffer w) => pend = [.text (acc ++ todo.map (charAt s.blocks) ++ [0])] ∧ own w = some t ∧
      (∃ f, s.slot w = .live f) ∧ (∀ l ∈ todo, LocOk own s t l) ∧
      e w = some (acc ++ todo.map (charAt s.blocks)) ∧ Matches own s t e (fun _ => False)
  | .gather todo acc .observe => pend = [.text (acc ++ todo.map (charAt s.blocks))] ∧
      (∀ l ∈ todo, LocOk own s t l) ∧ Matches own s t e (fun _ => False)
  | .comparing todo o => pend = [.order (lexWith (todo.map fun p => (charAt s.blocks p.1, charAt s.blocks p.2)) o)] ∧
      (∀ p ∈ todo, LocOk own s t p.1 ∧ LocOk own s t p.2) ∧ Matches own s t e (fun _ => False)
  | .deleteBuffer _ k => NextOk own s t e pend k
  | .deleteCounter _ k => NextOk own s t e pend k
  | .next k => NextOk own s t e pend k

def TInv (own : Owner) (goal : Env × List Obs) (s : State) (t : Nat) (th : Thread) : Prop :=
  ∃ e pend, (alone own t e th.prog).1 = goal.1 ∧ th.obs ++ pend ++ (alone own t e th.prog).2 = goal.2 ∧
    PhaseOk own s t e pend th.phase

structure Inv (own : Owner) (goal : Nat → Env × List Obs) (σ : Nat → Slot) (s : State) : Prop where
  range : ∀ v t, own v = some t → v < s.vars.length
  fok : ∀ v f, s.slot v = .live f → FOk s.blocks f
  blk : ∀ b k, s.blocks[b]? = some k → BlockOk k (refs s b) (d1 s b) (d2 s b)
  del : ∀ b, s.blocks.length ≤ b → d1 s b = 0 ∧ d2 s b = 0
  shared : ∀ v, own v = none → s.slot v ≠ .stale
  same : ∀ v, own v = none → s.slot v = σ v
  threads : ∀ t th, s.threads[t]? = some th → TInv own (goal t) s t th ∧ Calm own s th

/-! ## Other threads -/

theorem MatchAt.frame {s s' : State} {e : Env} {w : Nat} (hf : ∀ v f, s.slot v = .live f → FOk s.blocks f)
    (hx : Extends s.blocks s'.blocks) (hs : s'.slot w = s.slot w) (h : MatchAt s e w) : MatchAt s' e w := by
  unfold MatchAt at h ⊢
  rw [hs]
  cases hw : s.slot w with
  | dead => rw [hw] at h; exact h
  | stale => rw [hw] at h; exact h
  | live f => rw [hw] at h; simp only at h ⊢; rw [(hf w f hw).text_ext hx]; exact h

section frame
variable {own : Owner} {s s' : State} {t : Nat} (hf : ∀ v f, s.slot v = .live f → FOk s.blocks f)
  (hx : Extends s.blocks s'.blocks) (hs : ∀ w, Readable own t w → s'.slot w = s.slot w)
include hf hx hs

omit hf hx in
theorem Held.frame {m : Mem} (h : Held own s t m) : Held own s' t m := by
  rcases h with h | ⟨w, f, h1, h2, h3⟩
  · exact Or.inl h
  · exact Or.inr ⟨w, f, h1, by rw [hs w h1]; exact h2, h3⟩

omit hf in
theorem LocOk.frame {l : Loc} (h : LocOk own s t l) : LocOk own s' t l :=
  ⟨by rw [hx.chars l.1 (by have := h.1; omega)]; exact h.1, Held.frame hs h.2⟩

theorem Matches.frame {e : Env} {skip : Nat → Prop} (h : Matches own s t e skip) : Matches own s' t e skip :=
  fun w hr hn => MatchAt.frame hf hx (hs w hr) (h w hr hn)

omit hf hs in
theorem locs_frame {todo : List Loc} (h : ∀ l ∈ todo, LocOk own s t l) :
    todo.map (charAt s'.blocks) = todo.map (charAt s.blocks) :=
  List.map_congr_left fun l hl => charAt_ext hx l (h l hl).1

theorem NextOk.frame {e : Env} {pend : List Obs} {k : Next} (h : NextOk own s t e pend k) : NextOk own s' t e pend k := by
  cases k with
  | stop => exact ⟨h.1, Matches.frame hf hx hs h.2⟩
  | fetch w v =>
    obtain ⟨h1, h2, h3, h4, h5, ⟨f, h6, h7⟩, h8⟩ := h
    exact ⟨h1, h2, by rw [hs v (Or.inl h2)]; exact h3, h4, h5,
      ⟨f, by rw [hs w h4]; exact h6, by rw [(hf w f h6).text_ext hx]; exact h7⟩, Matches.frame hf hx hs h8⟩
  | take w v =>
    obtain ⟨h1, h2, h3, h4, h5, ⟨f, h6, h7⟩, h8, h9⟩ := h
    exact ⟨h1, h2, by rw [hs v (Or.inl h2)]; exact h3, h4, h5,
      ⟨f, by rw [hs w (Or.inl h4)]; exact h6, by rw [(hf w f h6).text_ext hx]; exact h7⟩, h8, Matches.frame hf hx hs h9⟩
  | put w cs =>
    obtain ⟨h1, h2, h3, h4, h5⟩ := h
    exact ⟨h1, h2, by rw [hs w (Or.inl h2)]; exact h3, h4, Matches.frame hf hx hs h5⟩

theorem PhaseOk.frame {e : Env} {pend : List Obs} {p : Phase} (h : PhaseOk own s t e pend p) : PhaseOk own s' t e pend p := by
  cases p with
  | idle => exact ⟨h.1, Matches.frame hf hx hs h.2⟩
  | copying f v =>
    obtain ⟨h1, h2, h3, h4, h5, h6, h7⟩ := h
    exact ⟨h1, h2, by unfold NotLive at h3 ⊢; rw [hs v (Or.inl h2)]; exact h3, h4.ext hx, Held.frame hs h5,
      by rw [h4.text_ext hx]; exact h6, Matches.frame hf hx hs h7⟩
  | gather todo acc k =>
    cases k with
    | make v =>
      obtain ⟨h1, h2, h3, h4, h5, h6⟩ := h
      refine ⟨h1, h2, ?_, fun l hl => LocOk.frame hx hs (h4 l hl), ?_, Matches.frame hf hx hs h6⟩
      · unfold NotLive at h3 ⊢; rw [hs v (Or.inl h2)]; exact h3
      · rw [locs_frame hx h4]; exact h5
    | rebuffer w =>
      obtain ⟨h1, h2, ⟨f, h3⟩, h4, h5, h6⟩ := h
      refine ⟨?_, h2, ⟨f, by rw [hs w (Or.inl h2)]; exact h3⟩, fun l hl => LocOk.frame hx hs (h4 l hl), ?_,
        Matches.frame hf hx hs h6⟩
      · rw [locs_frame hx h4]; exact h1
      · rw [locs_frame hx h4]; exact h5
    | observe =>
      obtain ⟨h1, h4, h6⟩ := h
      refine ⟨?_, fun l hl => LocOk.frame hx hs (h4 l hl), Matches.frame hf hx hs h6⟩
      rw [locs_frame hx h4]; exact h1
  | comparing todo o =>
    obtain ⟨h1, h4, h6⟩ := h
    refine ⟨?_, fun p hp => ⟨LocOk.frame hx hs (h4 p hp).1, LocOk.frame hx hs (h4 p hp).2⟩, Matches.frame hf hx hs h6⟩
    have : (todo.map fun p => (charAt s'.blocks p.1, charAt s'.blocks p.2))
        = todo.map fun p => (charAt s.blocks p.1, charAt s.blocks p.2) := by
      apply List.map_congr_left
      intro p hp
      rw [charAt_ext hx p.1 (h4 p hp).1.1, charAt_ext hx p.2 (h4 p hp).2.1]
    rw [this]; exact h1
  | deleteBuffer b k => exact NextOk.frame hf hx hs h
  | deleteCounter b k => exact NextOk.frame hf hx hs h
  | next k => exact NextOk.frame hf hx hs h

end frame

/-- A step of thread `t` that keeps the other threads' variables and all characters. -/
theorem Inv.of_step {own : Owner} {goal : Nat → Env × List Obs} {σ : Nat → Slot} {s s' : State} {t : Nat} {th th' : Thread}
    (h : Inv own goal σ s) (ht : s.threads[t]? = some th) (hth : s'.threads = s.threads.set t th')
    (hlen : s'.vars.length = s.vars.length) (hx : Extends s.blocks s'.blocks)
    (hs : ∀ w, own w ≠ some t → s'.slot w = s.slot w)
    (hfok : ∀ v f, s'.slot v = .live f → FOk s'.blocks f)
    (hblk : ∀ b k, s'.blocks[b]? = some k → BlockOk k (refs s' b) (d1 s' b) (d2 s' b))
    (hdel : ∀ b, s'.blocks.length ≤ b → d1 s' b = 0 ∧ d2 s' b = 0)
    (hprog : ∀ op ∈ th'.prog, op ∈ th.prog) (hT : TInv own (goal t) s' t th') : Inv own goal σ s' where
  range := fun v u hv => by rw [hlen]; exact h.range v u hv
  fok := hfok
  blk := hblk
  del := hdel
  shared := fun v hv => by rw [hs v (by rw [hv]; exact nofun)]; exact h.shared v hv
  same := fun v hv => by rw [hs v (by rw [hv]; exact nofun)]; exact h.same v hv
  threads := by
    intro u thu hu
    rw [hth] at hu
    by_cases hut : u = t
    · subst hut
      rw [List.getElem?_set_self (by have := List.getElem?_eq_some_iff.1 ht; exact this.1)] at hu
      simp only [Option.some.injEq] at hu
      subst hu
      refine ⟨hT, ?_⟩
      intro w hw hn f hf
      rw [hs w (by rw [hn]; exact nofun)] at hf
      exact (h.threads u th ht).2 w (hprog _ hw) hn f hf
    · rw [List.getElem?_set_ne (Ne.symm hut)] at hu
      obtain ⟨⟨e, pend, g1, g2, g3⟩, hc⟩ := h.threads u thu hu
      refine ⟨⟨e, pend, g1, g2, PhaseOk.frame h.fok hx ?_ g3⟩, ?_⟩
      · intro w hw
        apply hs
        rcases hw with hw | hw
        · rw [hw]; intro hh; exact hut (by injection hh)
        · rw [hw]; exact nofun
      · intro w hw hn f hf
        rw [hs w (by rw [hn]; exact nofun)] at hf
        exact hc w hw hn f hf

/-! ## Counts -/

theorem slot_setVar_self (s : State) (v : Nat) (x : Slot) (h : v < s.vars.length) : (s.setVar v x).slot v = x := by
  simp [State.slot, State.setVar, h]

theorem slot_setVar_ne (s : State) (v w : Nat) (x : Slot) (h : w ≠ v) : (s.setVar v x).slot w = s.slot w := by
  simp [State.slot, State.setVar, List.getElem?_set_ne (Ne.symm h)]

@[simp] theorem setVar_blocks (s : State) (v : Nat) (x : Slot) : (s.setVar v x).blocks = s.blocks := rfl
@[simp] theorem setVar_threads (s : State) (v : Nat) (x : Slot) : (s.setVar v x).threads = s.threads := rfl
@[simp] theorem setVar_len (s : State) (v : Nat) (x : Slot) : (s.setVar v x).vars.length = s.vars.length := by
  simp [State.setVar]
@[simp] theorem setThread_blocks (s : State) (t : Nat) (x : Thread) : (s.setThread t x).blocks = s.blocks := rfl
@[simp] theorem setThread_vars (s : State) (t : Nat) (x : Thread) : (s.setThread t x).vars = s.vars := rfl
@[simp] theorem setThread_slot (s : State) (t : Nat) (x : Thread) (w : Nat) : (s.setThread t x).slot w = s.slot w := rfl
@[simp] theorem setThread_threads (s : State) (t : Nat) (x : Thread) : (s.setThread t x).threads = s.threads.set t x := rfl

theorem refs_setVar (s : State) (v : Nat) (x : Slot) (b : Nat) (h : v < s.vars.length) :
    refs (s.setVar v x) b + ((s.slot v).refers b).toNat = refs s b + (x.refers b).toNat := by
  unfold refs State.setVar
  apply countP_set_add
  simp [State.slot, List.getElem?_eq_getElem h]

theorem refs_pos {s : State} {v b : Nat} {f : Fields} (h : s.slot v = .live f) (hm : f.mem = .blk b) : 0 < refs s b := by
  unfold refs
  rw [List.countP_pos_iff]
  refine ⟨.live f, ?_, by simp [Slot.refers, hm]⟩
  unfold State.slot at h
  cases hv : s.vars[v]? with
  | none => rw [hv] at h; exact absurd h nofun
  | some x =>
    rw [hv] at h
    simp only [Option.getD_some] at h
    subst h
    exact List.mem_of_getElem? hv

theorem refs_zero {s : State} {b : Nat} (h : refs s b = 0) (v : Nat) (f : Fields) (hv : s.slot v = .live f) : f.mem ≠ .blk b :=
  fun hm => by have := refs_pos hv hm; omega

theorem counts_setThread (s : State) (t : Nat) (th th' : Thread) (b : Nat) (ht : s.threads[t]? = some th) :
    d1 (s.setThread t th') b + (th.phase.delBuf b).toNat = d1 s b + (th'.phase.delBuf b).toNat ∧
    d2 (s.setThread t th') b + (th.phase.delCnt b).toNat = d2 s b + (th'.phase.delCnt b).toNat :=
  ⟨countP_set_add _ _ _ _ _ ht, countP_set_add _ _ _ _ _ ht⟩

end StrThreads
end Vlpp
