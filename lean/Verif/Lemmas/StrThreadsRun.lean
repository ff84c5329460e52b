import Verif.Lemmas.StrThreadsStep
/-!
# Strings used by several threads: every step keeps the invariant
-/
set_option autoImplicit false
namespace Vlpp
namespace StrThreads
open Spec.StrValues

section
variable {own : Owner} {goal : Nat → Env × List Obs} {σ : Nat → Slot} {s : State} {t : Nat}

/-! ## The variables and their values -/

theorem store_self (e : Env) (v : Nat) (x : Option (List Nat)) : store e v x v = x := by simp [store]
theorem store_ne (e : Env) (v w : Nat) (x : Option (List Nat)) (h : w ≠ v) : store e v x w = e w := by simp [store, h]

theorem MatchAt.dead_iff {e : Env} {w : Nat} (h : MatchAt s e w) : s.slot w = .dead ↔ e w = none := by
  unfold MatchAt at h
  cases hw : s.slot w with
  | dead => rw [hw] at h; simpa using h
  | stale => rw [hw] at h; exact h.elim
  | live f => rw [hw] at h; simp at h; simp [h]

theorem MatchAt.live {e : Env} {w : Nat} (h : MatchAt s e w) (hn : s.slot w ≠ .dead) :
    ∃ f, s.slot w = .live f ∧ e w = some (text s.blocks f) := by
  unfold MatchAt at h
  cases hw : s.slot w with
  | dead => exact absurd hw hn
  | stale => rw [hw] at h; exact h.elim
  | live f => rw [hw] at h; exact ⟨f, rfl, h⟩

theorem look_cases {e : Env} (hm : Matches own s t e (fun _ => False)) (w : Nat) :
    (s.look own t w = .dead ∧ read own t e w = none) ∨
    ∃ f, s.look own t w = .live f ∧ Readable own t w ∧ s.slot w = .live f ∧ read own t e w = some (text s.blocks f) ∧
      e w = some (text s.blocks f) := by
  by_cases hr : Readable own t w
  · have h := hm w hr id
    have e1 : s.look own t w = s.slot w := by unfold State.look; exact if_pos hr
    have e2 : read own t e w = e w := by unfold Spec.StrValues.read; exact if_pos hr
    rw [e1, e2]
    by_cases hd : s.slot w = .dead
    · exact Or.inl ⟨hd, h.dead_iff.1 hd⟩
    · obtain ⟨f, h1, h2⟩ := h.live hd
      exact Or.inr ⟨f, h1, hr, h1, h2, h2⟩
  · exact Or.inl ⟨by unfold State.look; exact if_neg hr, by unfold Spec.StrValues.read; exact if_neg hr⟩

theorem fresh_iff {e : Env} (hm : Matches own s t e (fun _ => False)) (v : Nat) :
    fresh own t e v = true ↔ own v = some t ∧ s.slot v = .dead := by
  unfold fresh
  simp only [decide_eq_true_eq]
  constructor
  · rintro ⟨h1, h2⟩; exact ⟨h1, (hm v (Or.inl h1) id).dead_iff.2 h2⟩
  · rintro ⟨h1, h2⟩; exact ⟨h1, (hm v (Or.inl h1) id).dead_iff.1 h2⟩

theorem Matches.skip {e : Env} {p : Nat → Prop} (hm : Matches own s t e (fun _ => False)) (v : Nat) (x : Option (List Nat))
    (hp : ∀ u, ¬ p u → u ≠ v) : Matches own s t (store e v x) p := by
  intro w hr hn
  have := hm w hr id
  unfold MatchAt at this ⊢
  rw [store_ne e v w x (hp w hn)]
  exact this

theorem Changed.matches {s' : State} {e : Env} {v : Nat} {x : Slot} (hc : Changed s s' v x)
    (hf : ∀ v f, s.slot v = .live f → FOk s.blocks f) {p : Nat → Prop} (hp : p v) (hm : Matches own s t e p) :
    Matches own s' t e p := by
  intro w hr hn
  have hwv : w ≠ v := fun hh => hn (hh ▸ hp)
  exact MatchAt.frame hf hc.ext (hc.other w hwv) (hm w hr hn)

theorem Changed.matches_live {s' : State} {e : Env} {v : Nat} {f : Fields} (hc : Changed s s' v (.live f))
    (hf : ∀ v f, s.slot v = .live f → FOk s.blocks f) (hm : Matches own s t e (· = v))
    (he : e v = some (text s'.blocks f)) : Matches own s' t e (fun _ => False) := by
  intro w hr _
  by_cases hw : w = v
  · subst hw
    unfold MatchAt
    rw [hc.self]
    exact he
  · exact MatchAt.frame hf hc.ext (hc.other w hw) (hm w hr hw)

theorem Changed.matches_dead {s' : State} {e : Env} {v : Nat} (hc : Changed s s' v .dead)
    (hf : ∀ v f, s.slot v = .live f → FOk s.blocks f) (hm : Matches own s t e (· = v))
    (he : e v = none) : Matches own s' t e (fun _ => False) := by
  intro w hr _
  by_cases hw : w = v
  · subst hw
    unfold MatchAt
    rw [hc.self]
    exact he
  · exact MatchAt.frame hf hc.ext (hc.other w hw) (hm w hr hw)

theorem tail_mem {op : Op} {rest : List Op} {p : Phase} {obs obs' : List Obs} :
    ∀ o ∈ (⟨rest, p, obs'⟩ : Thread).prog, o ∈ (⟨op :: rest, .idle, obs⟩ : Thread).prog :=
  fun _ ho => List.mem_cons_of_mem _ ho

/-! ## Substrings and replacement -/

theorem FOk.sub {B : List Block} {f : Fields} (hf : FOk B f) (i n : Nat) (h : i + n ≤ f.length) :
    FOk B ⟨f.mem, f.start + i, n, f.real⟩ ∧ text B ⟨f.mem, f.start + i, n, f.real⟩ = ((text B f).drop i).take n := by
  have := hf.inside
  refine ⟨⟨hf.size, hf.zero, ?_⟩, ?_⟩
  · show f.start + i + n ≤ f.real
    omega
  · simp only [text, List.drop_take, List.take_take, List.drop_drop]
    rw [show min n (f.length - i) = n by omega]

theorem locs_ok {w : Nat} {f : Fields} (hr : Readable own t w) (hw : s.slot w = .live f) (hf : FOk s.blocks f) (i j : Nat)
    (hj : f.start + j ≤ f.real + 1) : ∀ l ∈ f.locs i j, LocOk own s t l := by
  intro l hl
  obtain ⟨h1, p, _, h3, h4⟩ := locs_mem f i j l hl
  refine ⟨?_, Or.inr ⟨w, f, hr, hw, h1.symm⟩⟩
  rw [h1, hf.size, h4]
  omega

theorem drop_take_full {α : Type} (l : List α) (i n : Nat) (h : l.length ≤ n) : (l.take n).drop i = l.drop i := by
  rw [List.take_of_length_le h]

/-- `ReplaceUnsafe` computes the replaced text. -/
theorem replace_ok {e : Env} {v : Nat} {f g : Fields} (hv : own v = some t) (hn : NotLive s v)
    (hf : FOk s.blocks f) (hg : FOk s.blocks g)
    (hfl : ∀ l i j, j ≤ f.length → l ∈ f.locs i j → LocOk own s t l) (hgl : ∀ l i j, j ≤ g.length → l ∈ g.locs i j → LocOk own s t l)
    (hfh : Held own s t f.mem) (hgh : Held own s t g.mem)
    (index count : Int) (h2 : index ≤ f.length)
    (he : e v = some ((text s.blocks f).take index.toNat ++ text s.blocks g ++ (text s.blocks f).drop (index + count).toNat))
    (hm : Matches own s t e (· = v)) : PhaseOk own s t e [] (replaceUnsafe f g index count v) := by
  have lf := hf.text_length
  have lg := hg.text_length
  unfold replaceUnsafe
  split
  · next h =>
    refine ⟨rfl, hv, hn, hf, hfh, ?_, hm⟩
    have : text s.blocks g = [] := List.eq_nil_of_length_eq_zero (by omega)
    rw [he, this, h.2]
    simp
  · split
    · next h =>
      refine ⟨rfl, hv, hn, hg, hgh, ?_, hm⟩
      rw [he, h.1, h.2]
      simp only [Int.zero_add, Int.toNat_natCast]
      rw [List.drop_of_length_le (by omega)]
      simp
    · refine ⟨rfl, hv, hn, ?_, ?_, hm⟩
      · intro l hl
        simp only [List.mem_append] at hl
        rcases hl with (hl | hl) | hl
        · exact hfl l _ _ (by omega) hl
        · exact hgl l _ _ (Nat.le_refl _) hl
        · exact hfl l _ _ (Nat.le_refl _) hl
      · rw [he]
        simp only [List.map_append, List.nil_append]
        rw [locs_chars _ f hf _ _ (by omega), locs_chars _ g hg _ _ (Nat.le_refl _), locs_chars _ f hf _ _ (Nat.le_refl _)]
        rw [drop_take_full (text s.blocks f) _ f.length (by omega), drop_take_full (text s.blocks g) _ g.length (by omega)]
        simp

/-! ## Comparing -/

theorem compare_nat (x y : Nat) : Ord.compare x y = if x < y then .lt else if y < x then .gt else .eq := by
  rw [Nat.compare_eq_ite_lt]

theorem lexWith_eq : ∀ x y : List Nat,
    lexWith ((x.take (min x.length y.length)).zip (y.take (min x.length y.length))) (Ord.compare x.length y.length) = lex x y
  | [], [] => by simp [lexWith, lex]
  | [], y :: ys => by simp [lexWith, lex, compare_nat]
  | x :: xs, [] => by simp [lexWith, lex, compare_nat]
  | x :: xs, y :: ys => by
    have ih := lexWith_eq xs ys
    have h1 : min (x :: xs).length (y :: ys).length = min xs.length ys.length + 1 := by simp
    have h2 : Ord.compare (x :: xs).length (y :: ys).length = Ord.compare xs.length ys.length := by
      simp [compare_nat]
    rw [h1, h2]
    simp only [List.take_succ_cons, List.zip_cons_cons, lexWith, lex]
    rw [ih, compare_nat]
    by_cases h : x < y
    · simp [h]
    · by_cases h' : y < x
      · simp [h, h']
      · simp [h, h']

theorem lex_same : ∀ (x : List Nat) (n m : Nat), lex (x.take n) (x.take m) = Ord.compare (x.take n).length (x.take m).length
  | [], n, m => by simp [lex]
  | a :: x, 0, 0 => by simp [lex]
  | a :: x, 0, m + 1 => by simp [lex, compare_nat]
  | a :: x, n + 1, 0 => by simp [lex, compare_nat]
  | a :: x, n + 1, m + 1 => by
    have := lex_same x n m
    simp only [List.take_succ_cons, lex, Nat.lt_irrefl, if_false, this, List.length_cons]
    simp [compare_nat]

theorem zip_map' {α β γ δ : Type} (f : α → γ) (g : β → δ) (l : List α) (m : List β) :
    (l.zip m).map (fun p => (f p.1, g p.2)) = (l.map f).zip (m.map g) := by
  rw [List.zip_map]
  rfl

theorem comparePairs_ok {B : List Block} {f g : Fields} (hf : FOk B f) (hg : FOk B g) :
    lexWith ((comparePairs f g).map fun p => (charAt B p.1, charAt B p.2)) (Ord.compare f.length g.length)
      = lex (text B f) (text B g) := by
  have lf := hf.text_length
  have lg := hg.text_length
  unfold comparePairs
  split
  · next h =>
    simp only [List.map_nil, lexWith]
    have h1 : text B g = ((memChars B f.mem).drop f.start).take g.length := by unfold text; rw [h.1, h.2]
    have h2 : text B f = ((memChars B f.mem).drop f.start).take f.length := rfl
    rw [h1, h2, lex_same, ← h1, ← h2, lf, lg]
  · rw [zip_map', locs_chars B f hf _ _ (by omega), locs_chars B g hg _ _ (by omega)]
    have := lexWith_eq (text B f) (text B g)
    rw [lf, lg] at this
    simpa using this

/-! ## The first step of an operation -/

theorem begin_ok {op : Op} {rest : List Op} {obs : List Obs} (h : Inv own goal σ s)
    (ht : s.threads[t]? = some ⟨op :: rest, .idle, obs⟩) :
    ∃ s', begin own s t ⟨rest, .idle, obs⟩ op = some s' ∧ Inv own goal σ s' := by
  obtain ⟨⟨e, pend, g1, g2, hp, hm⟩, hcalm⟩ := h.threads t _ ht
  subst hp
  simp only [alone, List.append_nil] at g1 g2
  -- what has to be shown for the thread
  have fin : ∀ (s' : State) (e' : Env) (o1 pend : List Obs) (p : Phase), act own t e op = (e', o1 ++ pend) →
      PhaseOk own s' t e' pend p → TInv own (goal t) s' t ⟨rest, p, obs ++ o1⟩ := by
    intro s' e' o1 pend p ha hP
    rw [ha] at g1 g2
    exact ⟨e', pend, g1, by rw [← g2]; simp, hP⟩
  have fin0 : ∀ (s' : State) (e' : Env) (pend : List Obs) (p : Phase), act own t e op = (e', pend) →
      PhaseOk own s' t e' pend p → TInv own (goal t) s' t ⟨rest, p, obs⟩ := by
    intro s' e' pend p ha hP
    have := fin s' e' [] pend p (by simpa using ha) hP
    simpa using this
  have skip : act own t e op = (e, []) → Inv own goal σ (s.setThread t ⟨rest, .idle, obs⟩) := fun ha =>
    h.quiet ht _ calm_idle calm_idle tail_mem (fin0 s e [] .idle ha ⟨rfl, hm⟩)
  have fail : act own t e op = (e, [.error]) → Inv own goal σ (s.setThread t (Thread.fail ⟨rest, .idle, obs⟩)) := fun ha =>
    h.quiet ht _ calm_idle calm_idle tail_mem (fin s e [.error] [] .idle ha ⟨rfl, hm⟩)
  have phase : ∀ p e' pend, p.Calm → act own t e op = (e', pend) → PhaseOk own s t e' pend p →
      Inv own goal σ (s.setThread t ⟨rest, p, obs⟩) := fun p e' pend hc ha hP =>
    h.quiet ht _ calm_idle hc tail_mem (fin0 s e' pend p ha hP)
  have hrep : ∀ (f g : Fields) (i c : Int) (v : Nat), (replaceUnsafe f g i c v).Calm := by
    intro f g i c v
    unfold replaceUnsafe
    split
    · exact calm_copying _ _
    · split
      · exact calm_copying _ _
      · exact calm_gather _ _ _
  have heldw : ∀ w f, Readable own t w → s.slot w = .live f → Held own s t f.mem := fun w f hr hw => Or.inr ⟨w, f, hr, hw, rfl⟩
  have locw : ∀ w f, Readable own t w → s.slot w = .live f → ∀ l i j, j ≤ f.length → l ∈ f.locs i j → LocOk own s t l := by
    intro w f hr hw l i j hj hl
    have hf := h.fok w f hw
    have := hf.inside
    exact locs_ok hr hw hf i j (by omega) l hl
  cases op with
  | make v cs =>
    simp only [begin]
    split
    · next hfr =>
      refine ⟨_, rfl, ?_⟩
      refine h.alloc ht _ v _ hfr.1 (Or.inl hfr.2) calm_idle calm_idle tail_mem ?_
      intro s' hc hf htx
      refine fin0 s' (store e v (some (cs.takeWhile (· ≠ 0)))) [] .idle ?_ ⟨rfl, ?_⟩
      · simp [act, create, (fresh_iff hm v).2 hfr]
      · exact hc.matches_live h.fok (hm.skip v _ (fun u hu => hu)) (by rw [store_self, htx])
    · next hfr =>
      refine ⟨_, rfl, skip ?_⟩
      rw [← fresh_iff hm v] at hfr
      simp [act, create, hfr]
  | unmanaged v cs =>
    simp only [begin]
    split
    · next hfr =>
      refine ⟨_, rfl, ?_⟩
      refine h.plain ht _ v _ hfr.1 (Or.inl hfr.2) ?_ (by simp) calm_idle calm_idle tail_mem ?_
      · intro B
        exact ⟨by simp [memChars], by simp [memChars], by simp⟩
      intro s' hc
      refine fin0 s' (store e v (some (cs.takeWhile (· ≠ 0)))) [] .idle ?_ ⟨rfl, ?_⟩
      · simp [act, create, (fresh_iff hm v).2 hfr]
      · refine hc.matches_live h.fok (hm.skip v _ (fun u hu => hu)) ?_
        rw [store_self]
        simp [text, memChars]
    · next hfr =>
      refine ⟨_, rfl, skip ?_⟩
      rw [← fresh_iff hm v] at hfr
      simp [act, create, hfr]
  | copy v w =>
    simp only [begin]
    split
    · next hfr =>
      have hfr' := (fresh_iff hm v).2 hfr
      rcases look_cases hm w with ⟨hl, hr⟩ | ⟨f, hl, hr, hs, hrd, he⟩
      · rw [hl]
        refine ⟨_, rfl, skip ?_⟩
        have : store e v none = e := by
          funext u
          by_cases hu : u = v
          · rw [hu, store_self, (hm v (Or.inl hfr.1) id).dead_iff.1 hfr.2]
          · rw [store_ne _ _ _ _ hu]
        simp [act, create, hfr', hr, this]
      · rw [hl]
        refine ⟨_, rfl, phase _ (store e v (some (text s.blocks f))) [] (calm_copying _ _) ?_ ?_⟩
        · simp [act, create, hfr', hrd]
        · exact ⟨rfl, hfr.1, Or.inl hfr.2, h.fok w f hs, heldw w f hr hs, store_self _ _ _, hm.skip v _ (fun u hu => hu)⟩
    · next hfr =>
      refine ⟨_, rfl, skip ?_⟩
      rw [← fresh_iff hm v] at hfr
      simp [act, create, hfr]
  | move v w =>
    simp only [begin]
    split
    · next hfr =>
      have hfr' := (fresh_iff hm v).2 ⟨hfr.1, hfr.2.1⟩
      rcases look_cases hm w with ⟨hl, hr⟩ | ⟨f, hl, hr, hs, hrd, he⟩
      · rw [hl]
        refine ⟨_, rfl, skip ?_⟩
        have : e w = none := by
          unfold Spec.StrValues.read at hr
          rwa [if_pos (Or.inl hfr.2.2)] at hr
        simp [act, this]
      · rw [hl]
        have hne : w ≠ v := by intro hh; subst hh; rw [hfr.2.1] at hs; exact absurd hs nofun
        refine ⟨_, rfl, ?_⟩
        refine h.moved ht _ v w f hfr.1 hfr.2.2 hne (Or.inl hfr.2.1) hs calm_idle calm_idle tail_mem ?_
        intro s' s1 s2 s3 hb
        refine fin0 s' (store (store e v (some (text s.blocks f))) w (some [])) [] .idle ?_ ⟨rfl, ?_⟩
        · simp [act, hfr', hfr.2.2, he]
        · intro u hu _
          unfold MatchAt
          by_cases h2 : u = w
          · subst h2; rw [s2, store_self]; rfl
          · rw [store_ne _ _ _ _ h2]
            by_cases h1 : u = v
            · subst h1; rw [s1, store_self, hb]
            · rw [store_ne _ _ _ _ h1, s3 u h1 h2, hb]
              exact hm u hu id
    · next hfr =>
      refine ⟨_, rfl, skip ?_⟩
      have : (fresh own t e v && decide (own w = some t)) = false := by
        cases hf : fresh own t e v with
        | false => rfl
        | true =>
          have hh := (fresh_iff hm v).1 hf
          have hw : ¬ own w = some t := fun hw => hfr ⟨hh.1, hh.2, hw⟩
          simp [hw]
      simp only [act]
      rw [this]
  | sub v w index count =>
    simp only [begin]
    split
    · next hfr =>
      have hfr' := (fresh_iff hm v).2 hfr
      rcases look_cases hm w with ⟨hl, hr⟩ | ⟨f, hl, hr, hs, hrd, he⟩
      · rw [hl]
        refine ⟨_, rfl, skip ?_⟩
        simp [act, hfr', hr]
      · rw [hl]
        have hf := h.fok w f hs
        have hlen := hf.text_length
        simp only []
        split
        · next herr =>
          refine ⟨_, rfl, fail ?_⟩
          simp only [act, hfr', hrd]
          rw [if_neg (by rw [hlen]; omega)]
        · next herr =>
          have ha : act own t e (.sub v w index count)
              = (store e v (some (((text s.blocks f).drop index.toNat).take count.toNat)), []) := by
            simp only [act, hfr', hrd]
            rw [if_pos (by rw [hlen]; omega)]
          split
          · next hcnt =>
            refine ⟨_, rfl, ?_⟩
            refine h.plain ht _ v _ hfr.1 (Or.inl hfr.2) FOk.empty (by simp [Fields.empty]) calm_idle calm_idle tail_mem ?_
            intro s' hc
            refine fin0 s' _ [] .idle ha ⟨rfl, ?_⟩
            refine hc.matches_live h.fok (hm.skip v _ (fun u hu => hu)) ?_
            rw [store_self, show count.toNat = 0 by omega, text_empty]
            simp
          · next hcnt =>
            obtain ⟨hf1, hf2⟩ := hf.sub index.toNat count.toNat (by omega)
            refine ⟨_, rfl, phase _ _ [] (calm_copying _ _) ha ?_⟩
            exact ⟨rfl, hfr.1, Or.inl hfr.2, hf1, heldw w f hr hs, by rw [store_self, hf2], hm.skip v _ (fun u hu => hu)⟩
    · next hfr =>
      refine ⟨_, rfl, skip ?_⟩
      rw [← fresh_iff hm v, Bool.not_eq_true] at hfr
      simp [act, hfr]
  | concat v a b =>
    simp only [begin]
    split
    · next hfr =>
      have hfr' := (fresh_iff hm v).2 hfr
      rcases look_cases hm a with ⟨hl, hr⟩ | ⟨f, hl, hr, hs, hrd, he⟩
      · rw [hl]
        refine ⟨_, rfl, skip ?_⟩
        simp [act, hfr', hr]
      · rcases look_cases hm b with ⟨hl', hr'⟩ | ⟨g, hl', hr', hs', hrd', he'⟩
        · rw [hl, hl']
          refine ⟨_, rfl, skip ?_⟩
          simp [act, hfr', hrd, hr']
        · rw [hl, hl']
          have lf := (h.fok a f hs).text_length
          refine ⟨_, rfl, phase _ (store e v (some (text s.blocks f ++ text s.blocks g))) [] (hrep _ _ _ _ _) ?_ ?_⟩
          · simp [act, hfr', hrd, hrd']
          · refine replace_ok hfr.1 (Or.inl hfr.2) (h.fok a f hs) (h.fok b g hs') (locw a f hr hs) (locw b g hr' hs')
              (heldw a f hr hs) (heldw b g hr' hs') _ _ (by omega) ?_ (hm.skip v _ (fun u hu => hu))
            rw [store_self]
            simp only [Int.add_zero, Int.toNat_natCast]
            rw [List.take_of_length_le (by omega), List.drop_of_length_le (by omega), List.append_nil]
    · next hfr =>
      refine ⟨_, rfl, skip ?_⟩
      rw [← fresh_iff hm v, Bool.not_eq_true] at hfr
      simp [act, hfr]
  | insert v a index b =>
    simp only [begin]
    split
    · next hfr =>
      have hfr' := (fresh_iff hm v).2 hfr
      rcases look_cases hm a with ⟨hl, hr⟩ | ⟨f, hl, hr, hs, hrd, he⟩
      · rw [hl]
        refine ⟨_, rfl, skip ?_⟩
        simp [act, hfr', hr]
      · rcases look_cases hm b with ⟨hl', hr'⟩ | ⟨g, hl', hr', hs', hrd', he'⟩
        · rw [hl, hl']
          refine ⟨_, rfl, skip ?_⟩
          simp [act, hfr', hrd, hr']
        · rw [hl, hl']
          have lf := (h.fok a f hs).text_length
          simp only []
          split
          · next herr =>
            refine ⟨_, rfl, fail ?_⟩
            simp only [act, hfr', hrd, hrd']
            rw [if_neg (by rw [lf]; omega)]
          · next herr =>
            have hin : 0 ≤ index ∧ index ≤ f.length := Classical.not_not.1 herr
            refine ⟨_, rfl, phase _ (store e v (some ((text s.blocks f).take index.toNat ++ text s.blocks g ++
              (text s.blocks f).drop index.toNat))) [] (hrep _ _ _ _ _) ?_ ?_⟩
            · simp only [act, hfr', hrd, hrd']
              rw [if_pos (by rw [lf]; omega)]
            · refine replace_ok hfr.1 (Or.inl hfr.2) (h.fok a f hs) (h.fok b g hs') (locw a f hr hs) (locw b g hr' hs')
                (heldw a f hr hs) (heldw b g hr' hs') _ _ (by omega) ?_ (hm.skip v _ (fun u hu => hu))
              rw [store_self]
              simp only [Int.add_zero]
    · next hfr =>
      refine ⟨_, rfl, skip ?_⟩
      rw [← fresh_iff hm v, Bool.not_eq_true] at hfr
      simp [act, hfr]
  | remove v a index count =>
    simp only [begin]
    split
    · next hfr =>
      have hfr' := (fresh_iff hm v).2 hfr
      rcases look_cases hm a with ⟨hl, hr⟩ | ⟨f, hl, hr, hs, hrd, he⟩
      · rw [hl]
        refine ⟨_, rfl, skip ?_⟩
        simp [act, hfr', hr]
      · rw [hl]
        have lf := (h.fok a f hs).text_length
        simp only []
        split
        · next herr =>
          refine ⟨_, rfl, fail ?_⟩
          simp only [act, hfr', hrd]
          rw [if_neg (by rw [lf]; omega)]
        · next herr =>
          refine ⟨_, rfl, phase _ (store e v (some ((text s.blocks f).take index.toNat ++
            (text s.blocks f).drop (index + count).toNat))) [] (hrep _ _ _ _ _) ?_ ?_⟩
          · simp only [act, hfr', hrd]
            rw [if_pos (by rw [lf]; omega)]
          · refine replace_ok hfr.1 (Or.inl hfr.2) (h.fok a f hs) (FOk.empty _) (locw a f hr hs) ?_
              (heldw a f hr hs) (Or.inl ⟨_, rfl⟩) _ _ (by omega) ?_ (hm.skip v _ (fun u hu => hu))
            · intro l i j hj hl
              obtain ⟨_, p, _, hp, _⟩ := locs_mem _ _ _ _ hl
              simp only [Fields.empty] at hj
              omega
            · rw [store_self, text_empty, List.append_nil]
    · next hfr =>
      refine ⟨_, rfl, skip ?_⟩
      rw [← fresh_iff hm v, Bool.not_eq_true] at hfr
      simp [act, hfr]
  | assign v w =>
    simp only [begin]
    rcases look_cases hm w with ⟨hl, hr⟩ | ⟨f, hl, hr, hs, hrd, he⟩
    · rw [if_neg (by simp [hl])]
      refine ⟨_, rfl, skip ?_⟩
      simp [act, hr]
    · by_cases hv : own v = some t ∧ s.slot v ≠ .dead
      · have hmv := hm v (Or.inl hv.1) id
        obtain ⟨g, hg1, hg2⟩ := hmv.live hv.2
        by_cases hvw : v = w
        · rw [if_neg (by simp [hvw])]
          refine ⟨_, rfl, skip ?_⟩
          subst hvw
          have : store e v (some (text s.blocks f)) = e := by
            funext u
            by_cases hu : u = v
            · rw [hu, store_self, he]
            · rw [store_ne _ _ _ _ hu]
          simp [act, hv.1, he, hrd, this]
        · rw [if_pos ⟨hv.1, hv.2, by simp [hl], hvw⟩]
          refine h.decr ht _ v g .stale (.fetch w v) hv.1 hg1 (Or.inr rfl) calm_idle tail_mem ?_
          intro s' hc p hp
          have hN : NextOk own s' t (store e v (some (text s.blocks f))) [] (.fetch w v) := by
            refine ⟨rfl, hv.1, hc.self, hr, Ne.symm hvw, ⟨f, ?_, ?_⟩, ?_⟩
            · rw [hc.other w (Ne.symm hvw)]; exact hs
            · rw [store_self, (h.fok w f hs).text_ext hc.ext]
            · exact hc.matches h.fok rfl (hm.skip v _ (fun u hu => hu))
          refine fin0 s' (store e v (some (text s.blocks f))) [] p ?_ ?_
          · simp [act, hv.1, hg2, hrd]
          · rcases hp with rfl | ⟨b, rfl⟩
            · exact hN
            · exact hN
      · rw [if_neg (fun hh => hv ⟨hh.1, hh.2.1⟩)]
        refine ⟨_, rfl, skip ?_⟩
        have : (decide (own v = some t ∧ (e v).isSome = true)) = false := by
          rw [decide_eq_false_iff_not]
          rintro ⟨h1, h2⟩
          refine hv ⟨h1, fun hd => ?_⟩
          rw [(hm v (Or.inl h1) id).dead_iff.1 hd] at h2
          exact absurd h2 nofun
        simp only [act]
        rw [this]
  | moveAssign v w =>
    simp only [begin]
    split
    · next hc =>
      obtain ⟨hv, hd, hw, hl, hne⟩ := hc
      obtain ⟨g, hg1, hg2⟩ := (hm v (Or.inl hv) id).live hd
      have hlw : s.slot w ≠ .dead := by
        unfold State.look at hl
        rwa [if_pos (Or.inl hw)] at hl
      obtain ⟨f, hs, he⟩ := (hm w (Or.inl hw) id).live hlw
      refine h.decr ht _ v g .stale (.take w v) hv hg1 (Or.inr rfl) calm_idle tail_mem ?_
      intro s' hc p hp
      have hN : NextOk own s' t (store (store e v (some (text s.blocks f))) w (some [])) [] (.take w v) := by
        refine ⟨rfl, hv, hc.self, hw, Ne.symm hne, ⟨f, ?_, ?_⟩, store_self _ _ _, ?_⟩
        · rw [hc.other w (Ne.symm hne)]; exact hs
        · rw [store_ne _ _ _ _ hne, store_self, (h.fok w f hs).text_ext hc.ext]
        · refine hc.matches h.fok (Or.inl rfl) ?_
          intro u hu hn
          have hu1 : u ≠ v := fun hh => hn (Or.inl hh)
          have hu2 : u ≠ w := fun hh => hn (Or.inr hh)
          unfold MatchAt
          rw [store_ne _ _ _ _ hu2, store_ne _ _ _ _ hu1]
          exact hm u hu id
      refine fin0 s' (store (store e v (some (text s.blocks f))) w (some [])) [] p ?_ ?_
      · simp [act, hv, hw, hne, hg2, he]
      · rcases hp with rfl | ⟨b, rfl⟩
        · exact hN
        · exact hN
    · next hc =>
      refine ⟨_, rfl, skip ?_⟩
      simp only [act]
      split
      · next x hb hx =>
        exfalso
        simp only [decide_eq_true_eq] at hb
        obtain ⟨h1, h2, h3, h4⟩ := hb
        refine hc ⟨h1, ?_, h3, ?_, h4⟩
        · intro hd
          rw [(hm v (Or.inl h1) id).dead_iff.1 hd] at h2
          exact absurd h2 nofun
        · unfold State.look
          rw [if_pos (Or.inl h3)]
          intro hd
          rw [(hm w (Or.inl h3) id).dead_iff.1 hd] at hx
          exact absurd hx nofun
      · rfl
  | destroy v =>
    simp only [begin]
    split
    · next hc =>
      obtain ⟨hv, hd⟩ := hc
      obtain ⟨g, hg1, hg2⟩ := (hm v (Or.inl hv) id).live hd
      refine h.decr ht _ v g .dead .stop hv hg1 (Or.inl rfl) calm_idle tail_mem ?_
      intro s' hc p hp
      have hN : NextOk own s' t (store e v none) [] .stop :=
        ⟨rfl, hc.matches_dead h.fok (hm.skip v _ (fun u hu => hu)) (store_self _ _ _)⟩
      refine fin0 s' (store e v none) [] p ?_ ?_
      · simp [act, hv]
      · rcases hp with rfl | ⟨b, rfl⟩
        · exact hN
        · exact hN
    · next hc =>
      refine ⟨_, rfl, skip ?_⟩
      simp only [act]
      split
      · next hv =>
        have hd : s.slot v = .dead := Classical.byContradiction fun hd => hc ⟨hv, hd⟩
        have : store e v none = e := by
          funext u
          by_cases hu : u = v
          · rw [hu, store_self, (hm v (Or.inl hv) id).dead_iff.1 hd]
          · rw [store_ne _ _ _ _ hu]
        rw [this]
      · rfl
  | «at» w index =>
    simp only [begin]
    rcases look_cases hm w with ⟨hl, hr⟩ | ⟨f, hl, hr, hs, hrd, he⟩
    · rw [hl]
      exact ⟨_, rfl, skip (by simp [act, hr])⟩
    · rw [hl]
      have hf := h.fok w f hs
      have lf := hf.text_length
      have hin := hf.inside
      simp only []
      split
      · next herr =>
        refine ⟨_, rfl, fail ?_⟩
        simp only [act, hrd]
        rw [if_neg (by rw [lf]; omega)]
      · next herr =>
        have hix : 0 ≤ index ∧ index < f.length := Classical.not_not.1 herr
        refine ⟨_, rfl, phase _ e [.text [(text s.blocks f).getD index.toNat 0]] (calm_gather _ _ _) ?_ ⟨?_, ?_, hm⟩⟩
        · simp only [act, hrd]
          rw [if_pos (by rw [lf]; omega)]
        · have hix' : index.toNat < f.length := by omega
          simp only [List.map_cons, List.map_nil, List.nil_append, charAt, text]
          rw [List.getD_eq_getElem?_getD, List.getD_eq_getElem?_getD, List.getElem?_take_of_lt hix', List.getElem?_drop]
        · intro l hl
          simp only [List.mem_singleton] at hl
          subst hl
          refine ⟨?_, heldw w f hr hs⟩
          show f.start + index.toNat < (memChars s.blocks f.mem).length
          rw [hf.size]
          omega
  | length w =>
    simp only [begin]
    rcases look_cases hm w with ⟨hl, hr⟩ | ⟨f, hl, hr, hs, hrd, he⟩
    · rw [hl]
      exact ⟨_, rfl, skip (by simp [act, hr])⟩
    · rw [hl]
      refine ⟨_, rfl, h.quiet ht _ calm_idle calm_idle tail_mem (fin s e [.number f.length] [] .idle ?_ ⟨rfl, hm⟩)⟩
      simp [act, hrd, (h.fok w f hs).text_length]
  | compare a b =>
    simp only [begin]
    rcases look_cases hm a with ⟨hl, hr⟩ | ⟨f, hl, hr, hs, hrd, he⟩
    · rw [hl]
      exact ⟨_, rfl, skip (by simp [act, hr])⟩
    · rcases look_cases hm b with ⟨hl', hr'⟩ | ⟨g, hl', hr', hs', hrd', he'⟩
      · rw [hl, hl']
        exact ⟨_, rfl, skip (by simp [act, hrd, hr'])⟩
      · rw [hl, hl']
        refine ⟨_, rfl, phase _ e [.order (lex (text s.blocks f) (text s.blocks g))] (calm_comparing _ _) ?_ ⟨?_, ?_, hm⟩⟩
        · simp [act, hrd, hrd']
        · rw [comparePairs_ok (h.fok a f hs) (h.fok b g hs')]
        · intro p hp
          unfold comparePairs at hp
          split at hp
          · simp at hp
          · obtain ⟨p1, p2⟩ := p
            have := List.of_mem_zip hp
            exact ⟨locw a f hr hs _ _ _ (by omega) this.1, locw b g hr' hs' _ _ _ (by omega) this.2⟩
  | buffer w =>
    simp only [begin]
    rcases look_cases hm w with ⟨hl, hr⟩ | ⟨f, hl, hr, hs, hrd, he⟩
    · rw [hl]
      exact ⟨_, rfl, skip (by simp [act, hr])⟩
    · rw [hl]
      have hf := h.fok w f hs
      have lf := hf.text_length
      have ha : act own t e (.buffer w) = (e, [.text (text s.blocks f ++ [0])]) := by simp [act, hrd]
      have hall : (f.locs 0 f.length).map (charAt s.blocks) = text s.blocks f := by
        rw [locs_chars _ f hf _ _ (Nat.le_refl _), drop_take_full _ _ _ (by omega)]
        rfl
      simp only []
      split
      · next hne =>
        have hown : own w = some t := by
          rcases hr with hr | hr
          · exact hr
          · exact absurd (hcalm w (List.mem_cons_self) hr f hs) hne
        refine ⟨_, rfl, phase _ e _ (calm_gather _ _ _) ha ⟨?_, hown, ⟨f, hs⟩, ?_, ?_, hm⟩⟩
        · rw [hall]; rfl
        · exact fun l hl => locw w f hr hs l _ _ (Nat.le_refl _) hl
        · rw [hall]; exact he
      · next heq =>
        have heq : f.start + f.length = f.real := Classical.not_not.1 heq
        refine ⟨_, rfl, phase _ e _ (calm_gather _ _ _) ha ⟨?_, ?_, hm⟩⟩
        · rw [locs_zero _ f hf heq]; rfl
        · exact locs_ok hr hs hf _ _ (by omega)

/-! ## The other steps -/

theorem peek_ok (h : Inv own goal σ s) (l : Loc) (hl : LocOk own s t l) : s.peek l = some (charAt s.blocks l) := by
  obtain ⟨m, p⟩ := l
  obtain ⟨h1, h2⟩ := hl
  cases m with
  | lit cs =>
    have h1 : p < (cs ++ [0]).length := h1
    simp only [State.peek, charAt, memChars]
    rw [List.getD_eq_getElem?_getD, List.getElem?_eq_getElem h1]
    rfl
  | blk b =>
    rcases h2 with ⟨cs, h2⟩ | ⟨w, f, _, h3, h4⟩
    · exact absurd h2 nofun
    · obtain ⟨k, hk⟩ := mem_block (h.fok w f h3) h4
      have := (h.blk b k hk).chars.2 (Or.inl (refs_pos h3 h4))
      simp only [memChars, hk] at h1
      simp only [State.peek, charAt, memChars, hk, this, if_true]
      rw [List.getD_eq_getElem?_getD, List.getElem?_eq_getElem h1]
      rfl

theorem same_prog {prog : List Op} {p p' : Phase} {obs obs' : List Obs} :
    ∀ o ∈ (⟨prog, p, obs'⟩ : Thread).prog, o ∈ (⟨prog, p', obs⟩ : Thread).prog := fun _ ho => ho

/-- Something of block `b` is deleted. -/
theorem Inv.delete (h : Inv own goal σ s) {th : Thread} (ht : s.threads[t]? = some th) (th' : Thread) (b : Nat) (k k' : Block)
    (hk : s.blocks[b]? = some k) (hkc : k'.chars = k.chars)
    (hbo : BlockOk k' (refs s b) (d1 (s.setThread t th') b) (d2 (s.setThread t th') b))
    (hother : ∀ c, c ≠ b → th.phase.delBuf c = false ∧ th.phase.delCnt c = false ∧ th'.phase.delBuf c = false ∧ th'.phase.delCnt c = false)
    (hprog : ∀ op ∈ th'.prog, op ∈ th.prog)
    (hT : ∀ s', (∀ w, s'.slot w = s.slot w) → Extends s.blocks s'.blocks → TInv own (goal t) s' t th') :
    Inv own goal σ ({ s with blocks := s.blocks.set b k' }.setThread t th') := by
  have hx : Extends s.blocks (s.blocks.set b k') := extends_set _ _ k _ hk hkc
  have hcnt : ∀ c, c ≠ b → d1 ({ s with blocks := s.blocks.set b k' }.setThread t th') c = d1 s c ∧
      d2 ({ s with blocks := s.blocks.set b k' }.setThread t th') c = d2 s c := by
    intro c hc
    have e := counts_setThread { s with blocks := s.blocks.set b k' } t th th' c ht
    obtain ⟨a1, a2, a3, a4⟩ := hother c hc
    rw [a1, a2, a3, a4] at e
    exact e
  refine h.of_step ht rfl rfl hx (fun _ _ => rfl) ?_ ?_ ?_ hprog (hT _ (fun _ => rfl) hx)
  · intro v f hv
    exact (h.fok v f hv).ext hx
  · intro c kc hkc'
    have hkc' : (s.blocks.set b k')[c]? = some kc := hkc'
    by_cases hc : c = b
    · subst hc
      rw [List.getElem?_set_self (List.getElem?_eq_some_iff.1 hk).1] at hkc'
      injection hkc' with hkc'
      subst hkc'
      exact hbo
    · rw [List.getElem?_set_ne (Ne.symm hc)] at hkc'
      rw [(hcnt c hc).1, (hcnt c hc).2]
      exact h.blk c kc hkc'
  · intro c hcl
    have hcl : (s.blocks.set b k').length ≤ c := hcl
    simp only [List.length_set] at hcl
    have hc : c ≠ b := by
      have := (List.getElem?_eq_some_iff.1 hk).1
      omega
    rw [(hcnt c hc).1, (hcnt c hc).2]
    exact h.del c hcl

theorem del_pos {s : State} {t : Nat} {th : Thread} (ht : s.threads[t]? = some th) (b : Nat) :
    (th.phase.delBuf b = true → 0 < d1 s b) ∧ (th.phase.delCnt b = true → 0 < d2 s b) := by
  constructor
  · intro h
    unfold d1
    rw [List.countP_pos_iff]
    exact ⟨th, List.mem_of_getElem? ht, h⟩
  · intro h
    unfold d2
    rw [List.countP_pos_iff]
    exact ⟨th, List.mem_of_getElem? ht, h⟩

theorem step_ok (h : Inv own goal σ s) (t : Nat) : ∃ s', step own s t = some s' ∧ Inv own goal σ s' := by
  unfold step
  cases ht : s.threads[t]? with
  | none => exact ⟨s, rfl, h⟩
  | some th =>
    obtain ⟨prog, phase, obs⟩ := th
    obtain ⟨⟨e, pend, g1, g2, hP⟩, hcalm⟩ := h.threads t _ ht
    simp only at g1 g2 hP
    cases phase with
    | idle =>
      cases prog with
      | nil => exact ⟨s, rfl, h⟩
      | cons op rest => exact begin_ok h ht
    | copying f v =>
      obtain ⟨rfl, h2, h3, h4, h5, h6, h7⟩ := hP
      obtain ⟨s', hi, hinv⟩ := h.incr ht ⟨prog, .idle, obs⟩ v f h2 h3 h4 h5 (calm_copying _ _) calm_idle same_prog (by
        intro s' hc
        refine ⟨e, [], g1, g2, rfl, ?_⟩
        exact hc.matches_live h.fok h7 (by rw [h4.text_ext hc.ext]; exact h6))
      exact ⟨_, by simp only [hi], hinv⟩
    | gather todo acc k =>
      cases todo with
      | cons l todo =>
        have hl : LocOk own s t l ∧ ∀ l ∈ todo, LocOk own s t l := by
          cases k with
          | make v => obtain ⟨_, _, _, h4, _⟩ := hP; exact ⟨h4 l List.mem_cons_self, fun x hx => h4 x (List.mem_cons_of_mem _ hx)⟩
          | rebuffer w => obtain ⟨_, _, _, h4, _⟩ := hP; exact ⟨h4 l List.mem_cons_self, fun x hx => h4 x (List.mem_cons_of_mem _ hx)⟩
          | observe => obtain ⟨_, h4, _⟩ := hP; exact ⟨h4 l List.mem_cons_self, fun x hx => h4 x (List.mem_cons_of_mem _ hx)⟩
        have hpk := peek_ok h l hl.1
        refine ⟨s.setThread t ⟨prog, .gather todo (acc ++ [charAt s.blocks l]) k, obs⟩, by simp only [hpk], ?_⟩
        refine h.quiet ht _ (calm_gather _ _ _) (calm_gather _ _ _) same_prog ⟨e, pend, g1, g2, ?_⟩
        have hmap : acc ++ (l :: todo).map (charAt s.blocks) = acc ++ [charAt s.blocks l] ++ todo.map (charAt s.blocks) := by
          simp
        cases k with
        | make v =>
          obtain ⟨h1, h2, h3, h4, h5, h6⟩ := hP
          exact ⟨h1, h2, h3, hl.2, by rw [← hmap]; exact h5, h6⟩
        | rebuffer w =>
          obtain ⟨h1, h2, h3, h4, h5, h6⟩ := hP
          exact ⟨by rw [← hmap]; exact h1, h2, h3, hl.2, by rw [← hmap]; exact h5, h6⟩
        | observe =>
          obtain ⟨h1, h4, h6⟩ := hP
          exact ⟨by rw [← hmap]; exact h1, hl.2, h6⟩
      | nil =>
        cases k with
        | make v =>
          obtain ⟨rfl, h2, h3, h4, h5, h6⟩ := hP
          refine ⟨_, rfl, ?_⟩
          refine h.alloc ht _ v acc h2 h3 (calm_gather _ _ _) calm_idle same_prog ?_
          intro s' hc hf htx
          refine ⟨e, [], g1, g2, rfl, ?_⟩
          exact hc.matches_live h.fok h6 (by rw [htx, h5]; simp)
        | rebuffer w =>
          obtain ⟨rfl, h2, ⟨f, h3⟩, h4, h5, h6⟩ := hP
          simp only [List.map_nil, List.append_nil] at h5 g2
          refine h.decr ht _ w f .stale (.put w acc) h2 h3 (Or.inr rfl) (calm_gather _ _ _) same_prog ?_
          intro s' hc p hp
          have hN : NextOk own s' t e [.text (acc ++ [0])] (.put w acc) :=
            ⟨rfl, h2, hc.self, h5, hc.matches h.fok rfl (fun u hu hn => h6 u hu id)⟩
          refine ⟨e, _, g1, g2, ?_⟩
          rcases hp with rfl | ⟨b, rfl⟩
          · exact hN
          · exact hN
        | observe =>
          obtain ⟨rfl, h4, h6⟩ := hP
          refine ⟨_, rfl, ?_⟩
          refine h.quiet ht _ (calm_gather _ _ _) calm_idle same_prog ⟨e, [], g1, ?_, rfl, h6⟩
          simpa using g2
    | comparing todo o =>
      obtain ⟨rfl, h4, h6⟩ := hP
      cases todo with
      | nil =>
        refine ⟨_, rfl, ?_⟩
        refine h.quiet ht _ (calm_comparing _ _) calm_idle same_prog ⟨e, [], g1, ?_, rfl, h6⟩
        simpa [lexWith] using g2
      | cons p todo =>
        obtain ⟨l, r⟩ := p
        have hlr := h4 (l, r) List.mem_cons_self
        have hpl := peek_ok h l hlr.1
        have hpr := peek_ok h r hlr.2
        simp only [hpl, hpr]
        split
        · next hne =>
          refine ⟨_, rfl, ?_⟩
          refine h.quiet ht _ (calm_comparing _ _) calm_idle same_prog ⟨e, [], g1, ?_, rfl, h6⟩
          simp only [List.map_cons, lexWith] at g2
          rw [if_pos hne] at g2
          simpa using g2
        · next hne =>
          refine ⟨_, rfl, ?_⟩
          refine h.quiet ht _ (calm_comparing _ _) (calm_comparing _ _) same_prog ⟨e, _, g1, ?_, rfl, ?_, h6⟩
          · simp only [List.map_cons, lexWith] at g2
            rw [if_neg hne] at g2
            exact g2
          · exact fun x hx => h4 x (List.mem_cons_of_mem _ hx)
    | deleteBuffer b k =>
      have hd := (del_pos ht b).1 (by simp [Phase.delBuf])
      cases hb : s.blocks[b]? with
      | none =>
        have := (h.del b (List.getElem?_eq_none_iff.1 hb)).1
        omega
      | some x =>
        have hbo := h.blk b x hb
        have hc : x.hasChars = true := hbo.chars.2 (Or.inr hd)
        refine ⟨_, by simp only [hb, hc, if_true]; rfl, ?_⟩
        have e1 := counts_setThread s t _ ⟨prog, .deleteCounter b k, obs⟩ b ht
        simp only [Phase.delBuf, Phase.delCnt, decide_true, Bool.toNat_true, Bool.toNat_false] at e1
        have := hbo.one
        have hr0 : refs s b = 0 := by
          have := hbo.free
          omega
        refine h.delete ht ⟨prog, .deleteCounter b k, obs⟩ b x _ hb rfl ?_ ?_ same_prog ?_
        · have hcc : x.hasCounter = true := hbo.counter.2 (Or.inr (Or.inl hd))
          have hnum := hbo.count hcc
          rw [show d1 (s.setThread t ⟨prog, .deleteCounter b k, obs⟩) b = 0 by omega,
            show d2 (s.setThread t ⟨prog, .deleteCounter b k, obs⟩) b = 1 by omega, hr0]
          rw [hr0] at hnum
          exact ⟨by simp, by simp [hcc], fun _ => hnum, by simp, by simp⟩
        · intro c hc
          simp [Phase.delBuf, Phase.delCnt, Ne.symm hc]
        · intro s' hs hx
          exact ⟨e, pend, g1, g2, NextOk.frame h.fok hx (fun w _ => hs w) hP⟩
    | deleteCounter b k =>
      have hd := (del_pos ht b).2 (by simp [Phase.delCnt])
      cases hb : s.blocks[b]? with
      | none =>
        have := (h.del b (List.getElem?_eq_none_iff.1 hb)).2
        omega
      | some x =>
        have hbo := h.blk b x hb
        have hc : x.hasCounter = true := hbo.counter.2 (Or.inr (Or.inr hd))
        refine ⟨_, by simp only [hb, hc, if_true]; rfl, ?_⟩
        have e1 := counts_setThread s t _ ⟨prog, k.phase, obs⟩ b ht
        rw [(k.phase_calm b).1, (k.phase_calm b).2] at e1
        simp only [Phase.delBuf, Phase.delCnt, decide_true, Bool.toNat_true, Bool.toNat_false] at e1
        have := hbo.one
        have hr0 : refs s b = 0 := by
          have := hbo.free
          omega
        refine h.delete ht ⟨prog, k.phase, obs⟩ b x _ hb rfl ?_ ?_ same_prog ?_
        · have hch : x.hasChars = false := by
            have := hbo.chars
            rw [hr0, show d1 s b = 0 by omega] at this
            simpa using this
          rw [show d1 (s.setThread t ⟨prog, k.phase, obs⟩) b = 0 by omega,
            show d2 (s.setThread t ⟨prog, k.phase, obs⟩) b = 0 by omega, hr0]
          exact ⟨by simp [hch], by simp, by simp, by simp, by simp⟩
        · intro c hc
          refine ⟨rfl, ?_, (k.phase_calm c).1, (k.phase_calm c).2⟩
          simp [Phase.delCnt, Ne.symm hc]
        · intro s' hs hx
          refine ⟨e, pend, g1, g2, ?_⟩
          have := NextOk.frame h.fok hx (fun w _ => hs w) hP
          cases k <;> exact this
    | next k =>
      cases k with
      | stop =>
        refine ⟨_, rfl, ?_⟩
        exact h.quiet ht _ (calm_next _) calm_idle same_prog ⟨e, pend, g1, g2, hP⟩
      | fetch w v =>
        obtain ⟨h1, h2, h3, h4, h5, ⟨f, h6, h7⟩, h8⟩ := hP
        refine ⟨s.setThread t ⟨prog, .copying f v, obs⟩, by simp only [continue_, h6], ?_⟩
        refine h.quiet ht _ (calm_next _) (calm_copying _ _) same_prog ⟨e, pend, g1, g2, ?_⟩
        exact ⟨h1, h2, Or.inr h3, h.fok w f h6, Or.inr ⟨w, f, h4, h6, rfl⟩, h7, h8⟩
      | take w v =>
        obtain ⟨h1, h2, h3, h4, h5, ⟨f, h6, h7⟩, h8, h9⟩ := hP
        refine ⟨((s.setVar v (.live f)).setVar w (.live .empty)).setThread t ⟨prog, .idle, obs⟩,
          by simp only [continue_, h6], ?_⟩
        refine h.moved ht _ v w f h2 h4 h5 (Or.inr h3) h6 (calm_next _) calm_idle same_prog ?_
        intro s' s1 s2 s3 hb
        refine ⟨e, pend, g1, g2, h1, ?_⟩
        intro u hu _
        unfold MatchAt
        by_cases hv : u = v
        · subst hv; rw [s1, hb]; exact h7
        · by_cases hw : u = w
          · subst hw; rw [s2]; exact h8
          · rw [s3 u hv hw, hb]
            exact h9 u hu (fun hh => hh.elim hv hw)
      | put w cs =>
        obtain ⟨h1, h2, h3, h4, h5⟩ := hP
        refine ⟨_, rfl, ?_⟩
        refine h.alloc ht _ w cs h2 (Or.inr h3) (calm_next _) (calm_gather _ _ _) same_prog ?_
        intro s' hc hf htx
        have hm : Matches own s' t e (fun _ => False) := hc.matches_live h.fok h5 (by rw [htx]; exact h4)
        refine ⟨e, pend, g1, g2, ?_, ?_, hm⟩
        · rw [h1, locs_zero _ _ hf (by simp [State.allocFields]), htx]; rfl
        · exact locs_ok (Or.inl h2) hc.self hf _ _ (by simp [State.allocFields])

theorem run_ok : ∀ (ts : List Nat) (s : State), Inv own goal σ s → ∃ s', run own s ts = some s' ∧ Inv own goal σ s'
  | [], s, h => ⟨s, rfl, h⟩
  | t :: ts, s, h => by
    obtain ⟨s', h1, h2⟩ := step_ok h t
    obtain ⟨s'', h3, h4⟩ := run_ok ts s' h2
    exact ⟨s'', by simp only [run, h1, h3], h4⟩

theorem run_append (ts us : List Nat) (s s' : State) (h : run own s ts = some s') : run own s (ts ++ us) = run own s' us := by
  induction ts generalizing s with
  | nil => simp only [run, Option.some.injEq] at h; subst h; rfl
  | cons t ts ih =>
    simp only [run, List.cons_append] at h ⊢
    cases hs : step own s t with
    | none => rw [hs] at h; exact absurd h nofun
    | some s1 => rw [hs] at h; simp only at h ⊢; exact ih s1 h

/-! ## Threads come to an end -/

def Next.weight : Next → Nat
  | .stop => 1
  | .fetch _ _ => 2
  | .take _ _ => 1
  | .put _ cs => cs.length + 3

def Use.weight (n : Nat) : Use → Nat
  | .make _ => 1
  | .rebuffer _ => n + 6
  | .observe => 1

def Phase.weight : Phase → Nat
  | .idle => 0
  | .copying _ _ => 1
  | .gather todo acc k => todo.length + k.weight (acc.length + todo.length)
  | .comparing todo _ => todo.length + 1
  | .deleteBuffer _ k => k.weight + 2
  | .deleteCounter _ k => k.weight + 1
  | .next k => k.weight

theorem Next.phase_weight (k : Next) : k.phase.weight ≤ k.weight := by cases k <;> simp [Next.phase, Phase.weight, Next.weight]

theorem decVar_threads {s s' : State} {th : Thread} {v : Nat} {x : Slot} {k : Next} (h : decVar s t th v x k = some s') :
    ∃ p, s'.threads = s.threads.set t { th with phase := p } ∧ p.weight ≤ k.weight + 2 := by
  unfold decVar at h
  cases hv : s.slot v with
  | dead => rw [hv] at h; exact absurd h nofun
  | stale => rw [hv] at h; exact absurd h nofun
  | live f =>
    rw [hv] at h
    simp only at h
    cases hd : s.dec f with
    | none => rw [hd] at h; exact absurd h nofun
    | some r =>
      obtain ⟨s1, d⟩ := r
      rw [hd] at h
      simp only [Option.some.injEq] at h
      subst h
      have : s1.threads = s.threads := by
        unfold State.dec at hd
        split at hd
        · injection hd with hd; injection hd with h1 _; rw [← h1]
        · split at hd
          · exact absurd hd nofun
          · split at hd
            · injection hd with hd; injection hd with h1 _; rw [← h1]
            · exact absurd hd nofun
      cases d with
      | some b => exact ⟨.deleteBuffer b k, by simp [State.setThread, this], by simp [Phase.weight]⟩
      | none => exact ⟨k.phase, by simp [State.setThread, this], by have := k.phase_weight; omega⟩

theorem begin_threads {s s' : State} {th : Thread} {op : Op} (h : begin own s t th op = some s') :
    ∃ th', s'.threads = s.threads.set t th' ∧ th'.prog = th.prog := by
  cases op with
  | assign v w =>
    simp only [begin] at h
    split at h
    · obtain ⟨p, h1, _⟩ := decVar_threads h; exact ⟨_, h1, rfl⟩
    · injection h with h; subst h; exact ⟨_, rfl, rfl⟩
  | moveAssign v w =>
    simp only [begin] at h
    split at h
    · obtain ⟨p, h1, _⟩ := decVar_threads h; exact ⟨_, h1, rfl⟩
    · injection h with h; subst h; exact ⟨_, rfl, rfl⟩
  | destroy v =>
    simp only [begin] at h
    split at h
    · obtain ⟨p, h1, _⟩ := decVar_threads h; exact ⟨_, h1, rfl⟩
    · injection h with h; subst h; exact ⟨_, rfl, rfl⟩
  | _ =>
    simp only [begin] at h
    repeat' split at h
    all_goals first
      | (injection h with h; subst h; exact ⟨_, rfl, rfl⟩)
      | exact absurd h nofun

theorem step_threads {s s' : State} {th : Thread} (ht : s.threads[t]? = some th) (hn : ¬ th.Finished)
    (h : step own s t = some s') :
    ∃ th', s'.threads = s.threads.set t th' ∧
      (th'.prog.length < th.prog.length ∨ th'.prog = th.prog ∧ th'.phase.weight < th.phase.weight) := by
  obtain ⟨prog, phase, obs⟩ := th
  unfold step at h
  rw [ht] at h
  simp only at h
  cases phase with
  | idle =>
    cases prog with
    | nil => exact absurd ⟨rfl, rfl⟩ hn
    | cons op rest =>
      obtain ⟨th', h1, h2⟩ := begin_threads h
      exact ⟨th', h1, Or.inl (by rw [h2]; simp)⟩
  | copying f v =>
    simp only at h
    cases hi : s.inc f with
    | none => rw [hi] at h; exact absurd h nofun
    | some s1 =>
      rw [hi] at h
      simp only [Option.some.injEq] at h
      subst h
      have : s1.threads = s.threads := by
        unfold State.inc at hi
        split at hi
        · injection hi with hi; rw [← hi]
        · split at hi
          · exact absurd hi nofun
          · split at hi
            · injection hi with hi; rw [← hi]
            · exact absurd hi nofun
      exact ⟨⟨prog, .idle, obs⟩, by simp [State.setThread, this], Or.inr ⟨rfl, by simp [Phase.weight]⟩⟩
  | gather todo acc k =>
    cases todo with
    | cons l todo =>
      simp only at h
      split at h
      · exact absurd h nofun
      · injection h with h
        subst h
        refine ⟨_, rfl, Or.inr ⟨rfl, ?_⟩⟩
        simp only [Phase.weight, List.length_cons, List.length_append, List.length_nil]
        rw [show acc.length + (0 + 1) + todo.length = acc.length + (todo.length + 1) by omega]
        omega
    | nil =>
      cases k with
      | make v => injection h with h; subst h; exact ⟨_, rfl, Or.inr ⟨rfl, by simp [Phase.weight, Use.weight]⟩⟩
      | rebuffer w =>
        obtain ⟨p, h1, h2⟩ := decVar_threads h
        refine ⟨_, h1, Or.inr ⟨rfl, ?_⟩⟩
        simp only [Next.weight] at h2
        show p.weight < [].length + (acc.length + [].length + 6)
        simp only [List.length_nil]
        omega
      | observe => injection h with h; subst h; exact ⟨_, rfl, Or.inr ⟨rfl, by simp [Phase.weight, Use.weight]⟩⟩
  | comparing todo o =>
    cases todo with
    | nil => injection h with h; subst h; exact ⟨_, rfl, Or.inr ⟨rfl, by simp [Phase.weight]⟩⟩
    | cons p todo =>
      simp only at h
      split at h
      · split at h
        · injection h with h; subst h; exact ⟨_, rfl, Or.inr ⟨rfl, by simp [Phase.weight]⟩⟩
        · injection h with h; subst h; exact ⟨_, rfl, Or.inr ⟨rfl, by simp [Phase.weight]⟩⟩
      · exact absurd h nofun
  | deleteBuffer b k =>
    simp only at h
    split at h
    · exact absurd h nofun
    · split at h
      · injection h with h; subst h; exact ⟨_, rfl, Or.inr ⟨rfl, by simp [Phase.weight]⟩⟩
      · exact absurd h nofun
  | deleteCounter b k =>
    simp only at h
    split at h
    · exact absurd h nofun
    · split at h
      · injection h with h
        subst h
        refine ⟨_, rfl, Or.inr ⟨rfl, ?_⟩⟩
        have := k.phase_weight
        show k.phase.weight < k.weight + 1
        omega
      · exact absurd h nofun
  | next k =>
    cases k with
    | stop => injection h with h; subst h; exact ⟨_, rfl, Or.inr ⟨rfl, by simp [Phase.weight, Next.weight]⟩⟩
    | fetch w v =>
      simp only [continue_] at h
      split at h
      · injection h with h; subst h; exact ⟨_, rfl, Or.inr ⟨rfl, by simp [Phase.weight, Next.weight]⟩⟩
      · exact absurd h nofun
    | take w v =>
      simp only [continue_] at h
      split at h
      · injection h with h; subst h; exact ⟨_, rfl, Or.inr ⟨rfl, by simp [Phase.weight, Next.weight]⟩⟩
      · exact absurd h nofun
    | put w cs =>
      injection h with h
      subst h
      refine ⟨_, rfl, Or.inr ⟨rfl, ?_⟩⟩
      simp [Phase.weight, Next.weight, Use.weight, Fields.locs, State.allocFields]

theorem step_length {s s' : State} (h : step own s t = some s') : s'.threads.length = s.threads.length := by
  cases ht : s.threads[t]? with
  | none =>
    simp only [step, ht, Option.some.injEq] at h
    rw [h]
  | some th =>
    by_cases hf : th.Finished
    · simp only [step, ht, hf.1, hf.2, Option.some.injEq] at h
      rw [h]
    · obtain ⟨th', h1, _⟩ := step_threads ht hf h
      rw [h1, List.length_set]

theorem run_threads_length : ∀ (ts : List Nat) (s s' : State), run own s ts = some s' → s'.threads.length = s.threads.length
  | [], s, s', h => by simp only [run, Option.some.injEq] at h; rw [h]
  | t :: ts, s, s', h => by
    simp only [run] at h
    cases hs : step own s t with
    | none => rw [hs] at h; exact absurd h nofun
    | some s1 =>
      rw [hs] at h
      rw [run_threads_length ts s1 s' h, step_length hs]

/-- A thread that runs alone comes to an end, the others stay where they are. -/
theorem finish_one (n : Nat) : ∀ (m : Nat) (s : State) (th : Thread), Inv own goal σ s → s.threads[t]? = some th →
    th.prog.length = n → th.phase.weight = m →
    ∃ k s' th', run own s (List.replicate k t) = some s' ∧ Inv own goal σ s' ∧ th'.Finished ∧
      s'.threads = s.threads.set t th' := by
  induction n using Nat.strongRecOn with
  | _ n ihn =>
    intro m
    induction m using Nat.strongRecOn with
    | _ m ihm =>
      intro s th hi ht hn hm
      have hlt := (List.getElem?_eq_some_iff.1 ht).1
      by_cases hf : th.Finished
      · refine ⟨0, s, th, rfl, hi, hf, ?_⟩
        have := (List.getElem?_eq_some_iff.1 ht).2
        rw [← this, List.set_getElem_self]
      · obtain ⟨s1, h1, h2⟩ := step_ok hi t
        obtain ⟨th1, h3, h4⟩ := step_threads ht hf h1
        have ht1 : s1.threads[t]? = some th1 := by rw [h3, List.getElem?_set_self hlt]
        have : ∃ k s' th', run own s1 (List.replicate k t) = some s' ∧ Inv own goal σ s' ∧ th'.Finished ∧
            s'.threads = s1.threads.set t th' := by
          rcases h4 with h4 | ⟨h4, h5⟩
          · exact ihn _ (by omega) _ s1 th1 h2 ht1 rfl rfl
          · exact ihm _ (by omega) s1 th1 h2 ht1 (by rw [h4]; exact hn) rfl
        obtain ⟨k, s', th', r1, r2, r3, r4⟩ := this
        refine ⟨k + 1, s', th', by simp only [List.replicate_succ, run, h1, r1], r2, r3, ?_⟩
        rw [r4, h3, List.set_set]

theorem finish_all (n : Nat) (s : State) (hi : Inv own goal σ s) (hn : n ≤ s.threads.length) :
    ∃ ts s', run own s ts = some s' ∧ Inv own goal σ s' ∧ s'.threads.length = s.threads.length ∧
      ∀ t th, t < n → s'.threads[t]? = some th → th.Finished := by
  induction n with
  | zero => exact ⟨[], s, rfl, hi, rfl, fun _ _ h => absurd h (Nat.not_lt_zero _)⟩
  | succ n ih =>
    obtain ⟨ts, s1, h1, h2, h3, h4⟩ := ih (by omega)
    have ht : s1.threads[n]? = some (s1.threads[n]'(by omega)) := List.getElem?_eq_getElem _
    obtain ⟨k, s2, th2, r1, r2, r3, r4⟩ := finish_one _ _ s1 _ h2 ht rfl rfl
    refine ⟨ts ++ List.replicate k n, s2, by rw [run_append _ _ _ _ h1, r1], r2, by rw [r4, List.length_set, h3], ?_⟩
    intro t th htn hth
    rw [r4] at hth
    by_cases hh : t = n
    · subst hh
      rw [List.getElem?_set_self (by omega)] at hth
      injection hth with hth
      subst hth
      exact r3
    · rw [List.getElem?_set_ne (Ne.symm hh)] at hth
      exact h4 t th (by omega) hth

end
end StrThreads
end Vlpp
