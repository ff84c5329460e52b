import Verif.Spec.PushOnly

/-! # C55, C56: PushOnlyAllocator and ByteObjectMap -/
set_option autoImplicit false
namespace Vlpp
open PushOnly Spec

namespace PushOnly

/-- the pointer with number `i` -/
def nth (bs : Nat) (blocks : List Nat) (i : Nat) : Ptr := ((blocks[i / bs]?).getD 0, i % bs)

/-- the first `n` pointers -/
def firsts (bs : Nat) (blocks : List Nat) (n : Nat) : List Ptr := (List.range n).map (nth bs blocks)

/-- an allocator and the pointers it has returned -/
structure AllocInv (heap : List (Option Nat)) (al : Alloc) (ps : List Ptr) (bs n : Nat) : Prop where
  size : al.blockSize = bs
  pos : 0 < bs
  count : al.allocatedSize = n
  enough : n ≤ al.blocks.length * bs
  heap : ∀ b ∈ al.blocks, heap[b]? = some (some bs)
  nodup : al.blocks.Nodup
  created : ps = firsts bs al.blocks n

/-- the invariant -/
structure Inv (w : World) (c : Created) : Prop where
  length : w.allocs.length = c.length
  none : ∀ a : Nat, w.allocs[a]? = some none ↔ c[a]? = some none
  alloc : ∀ (a : Nat) (al : Alloc), w.allocs[a]? = some (some al) → ∃ ps bs n, c[a]? = some (some ps) ∧ AllocInv w.heap al ps bs n
  disjoint : ∀ (a a' : Nat) (al al' : Alloc), w.allocs[a]? = some (some al) → w.allocs[a']? = some (some al') →
    ∀ b, b ∈ al.blocks → b ∈ al'.blocks → a = a'
  owned : ∀ (b size : Nat), w.heap[b]? = some (some size) → ∃ (a : Nat) (al : Alloc), w.allocs[a]? = some (some al) ∧ b ∈ al.blocks

theorem Inv.empty : Inv {} [] := by
  constructor <;> simp

theorem Inv.find {w : World} {c : Created} (h : Inv w c) {a : Nat} {ps : List Ptr} (hc : c[a]? = some (some ps)) :
    ∃ al bs n, w.allocs[a]? = some (some al) ∧ AllocInv w.heap al ps bs n := by
  have hlt : a < w.allocs.length := by rw [h.length]; exact (List.getElem?_eq_some_iff.1 hc).1
  cases ho : w.allocs[a] with
  | none =>
    have := (h.none a).1 (by rw [List.getElem?_eq_getElem hlt, ho])
    rw [hc] at this; cases this
  | some al =>
    have hal : w.allocs[a]? = some (some al) := by rw [List.getElem?_eq_getElem hlt, ho]
    obtain ⟨ps', bs, n, h1, h2⟩ := h.alloc a al hal
    rw [hc] at h1
    simp only [Option.some.injEq] at h1
    subst h1
    exact ⟨al, bs, n, hal, h2⟩

theorem firsts_length (bs : Nat) (blocks : List Nat) (n : Nat) : (firsts bs blocks n).length = n := by simp [firsts]

theorem firsts_get (bs : Nat) (blocks : List Nat) (n i : Nat) : (firsts bs blocks n)[i]? = if i < n then some (nth bs blocks i) else none := by
  simp only [firsts, List.getElem?_map]
  split
  · next h => rw [List.getElem?_range h]; rfl
  · next h => rw [List.getElem?_eq_none (by simpa using h)]; rfl

theorem div_lt {bs i k : Nat} (h : i < k * bs) : i / bs < k := Nat.div_lt_of_lt_mul (Nat.mul_comm k bs ▸ h)

theorem getIn_eq {w : World} {al : Alloc} {ps : List Ptr} {bs n : Nat} (h : AllocInv w.heap al ps bs n) (i : Nat) :
    w.getIn al i = some ps[i]? := by
  unfold World.getIn
  rw [h.created, firsts_get, h.count]
  by_cases hi : i < n
  · rw [if_neg (by omega), if_neg (by have := h.pos; have := h.size; omega), h.size]
    have hpos := h.pos
    have hrow : ((i : Int).tdiv (bs : Int)) = ((i / bs : Nat) : Int) := by
      rw [Int.tdiv_eq_ediv_of_nonneg (by omega)]; rfl
    have hcol : ((i : Int).tmod (bs : Int)) = ((i % bs : Nat) : Int) := by
      rw [Int.tmod_eq_emod_of_nonneg (by omega)]; rfl
    simp only [hrow, hcol]
    rw [if_neg (Int.not_lt.2 (Int.natCast_nonneg _))]
    have hlt : i / bs < al.blocks.length := div_lt (Nat.lt_of_lt_of_le hi h.enough)
    have hmod : i % bs < bs := Nat.mod_lt _ hpos
    simp only [Int.toNat_natCast, List.getElem?_eq_getElem hlt]
    have hheap := h.heap _ (List.getElem_mem hlt)
    simp only [World.element, hheap]
    rw [if_pos ⟨Int.natCast_nonneg _, Int.ofNat_lt.2 hmod⟩, if_pos hi]
    simp only [Option.map_some, nth, List.getElem?_eq_getElem hlt, Option.getD_some, Int.toNat_natCast]
  · rw [if_pos (by omega), if_neg hi]

theorem mem_firsts {bs : Nat} {blocks : List Nat} {n : Nat} {p : Ptr} : p ∈ firsts bs blocks n ↔ ∃ i, i < n ∧ p = nth bs blocks i := by
  simp only [firsts, List.mem_map, List.mem_range]
  constructor
  · rintro ⟨i, h, rfl⟩; exact ⟨i, h, rfl⟩
  · rintro ⟨i, h, rfl⟩; exact ⟨i, h, rfl⟩

theorem AllocInv.mem {heap : List (Option Nat)} {al : Alloc} {ps : List Ptr} {bs n : Nat} (h : AllocInv heap al ps bs n) {p : Ptr} (hp : p ∈ ps) :
    p.1 ∈ al.blocks ∧ p.2 < bs := by
  rw [h.created, mem_firsts] at hp
  obtain ⟨i, hi, rfl⟩ := hp
  have hlt : i / bs < al.blocks.length := div_lt (Nat.lt_of_lt_of_le hi h.enough)
  simp only [nth, List.getElem?_eq_getElem hlt, Option.getD_some]
  exact ⟨List.getElem_mem hlt, Nat.mod_lt _ h.pos⟩

theorem nth_inj {bs : Nat} {blocks : List Nat} (hn : blocks.Nodup) {i j : Nat} (hi : i < blocks.length * bs) (hj : j < blocks.length * bs)
    (h : nth bs blocks i = nth bs blocks j) : i = j := by
  have h1 : i / bs < blocks.length := div_lt hi
  have h2 : j / bs < blocks.length := div_lt hj
  simp only [nth, List.getElem?_eq_getElem h1, List.getElem?_eq_getElem h2, Option.getD_some, Prod.mk.injEq] at h
  have := (List.getElem_inj hn).1 h.1
  rw [← Nat.div_add_mod i bs, ← Nat.div_add_mod j bs, this, h.2]

theorem AllocInv.nodup_created {heap : List (Option Nat)} {al : Alloc} {ps : List Ptr} {bs n : Nat} (h : AllocInv heap al ps bs n) : ps.Nodup := by
  rw [h.created, List.Nodup, firsts, List.pairwise_map]
  refine List.Pairwise.imp_of_mem (fun {i j} hi hj hij he => ?_) List.nodup_range
  have h1 := h.enough
  have hi := List.mem_range.1 hi
  have hj := List.mem_range.1 hj
  exact hij (nth_inj h.nodup (by omega) (by omega) he)

/-- growing an allocator: what does not change -/
theorem firsts_append {bs : Nat} {blocks : List Nat} {n : Nat} (b : List Nat) (h : n ≤ blocks.length * bs) :
    firsts bs (blocks ++ b) n = firsts bs blocks n := by
  refine List.map_congr_left fun i hi => ?_
  have hi : i < n := List.mem_range.1 hi
  have hlt : i / bs < blocks.length := div_lt (by omega)
  simp [nth, List.getElem?_append_left hlt]

theorem firsts_succ (bs : Nat) (blocks : List Nat) (n : Nat) : firsts bs blocks (n + 1) = firsts bs blocks n ++ [nth bs blocks n] := by
  simp [firsts, List.range_succ]

theorem finish_spec {w : World} {a : Nat} {al : Alloc} {ps : List Ptr} {bs n : Nat} (h : AllocInv w.heap al ps bs n) (hlt : n < al.blocks.length * bs) :
    World.create.finish a w al = some (some (nth bs al.blocks n),
      { w with allocs := w.allocs.set a (some { al with allocatedSize := al.allocatedSize + 1 }) }) ∧
    AllocInv w.heap { al with allocatedSize := al.allocatedSize + 1 } (ps ++ [nth bs al.blocks n]) bs (n + 1) := by
  have hI : AllocInv w.heap { al with allocatedSize := al.allocatedSize + 1 } (ps ++ [nth bs al.blocks n]) bs (n + 1) :=
    ⟨h.size, h.pos, by simp [h.count], hlt, h.heap, h.nodup, by rw [firsts_succ, h.created]⟩
  refine ⟨?_, hI⟩
  unfold World.create.finish
  have hI' : AllocInv ({ w with allocs := w.allocs.set a (some { al with allocatedSize := al.allocatedSize + 1 }) } : World).heap
    { al with allocatedSize := al.allocatedSize + 1 } (ps ++ [nth bs al.blocks n]) bs (n + 1) := hI
  have hl : ps.length = n := by rw [h.created, firsts_length]
  have := getIn_eq hI' n
  simp only [h.count] at this ⊢
  rw [this]
  simp [← hl]

/-- `Create` in every state -/
theorem create_spec {w : World} {c : Created} (h : Inv w c) {a : Nat} {ps : List Ptr} (hc : c[a]? = some (some ps)) :
    ∃ p w', w.create a = some (some p, w') ∧ ¬ c.Has p ∧ Inv w' (c.set a (some (ps ++ [p]))) := by
  obtain ⟨al, bs, n, hal, hA⟩ := h.find hc
  have halt : a < w.allocs.length := (List.getElem?_eq_some_iff.1 hal).1
  have hclt : a < c.length := by rw [← h.length]; exact halt
  unfold World.create
  simp only [hal, Option.join_some]
  by_cases hfull : al.allocatedSize = al.blocks.length * al.blockSize
  · have hfull' : n = al.blocks.length * bs := by
      have := hfull; rw [hA.count, hA.size] at this; exact_mod_cast this
    rw [if_pos hfull, if_neg (by have := hA.size; omega)]
    have hnew : ∀ b ∈ al.blocks, b < w.heap.length := fun b hb => (List.getElem?_eq_some_iff.1 (hA.heap b hb)).1
    have hA' : AllocInv (w.heap ++ [some al.blockSize.toNat]) { al with blocks := al.blocks ++ [w.heap.length] } ps bs n := by
      refine ⟨hA.size, hA.pos, hA.count, ?_, ?_, ?_, ?_⟩
      · simp only [List.length_append, List.length_singleton]
        rw [Nat.add_mul]; omega
      · intro b hb
        simp only [List.mem_append, List.mem_singleton] at hb
        rcases hb with hb | rfl
        · rw [List.getElem?_append_left (hnew b hb)]; exact hA.heap b hb
        · simp [hA.size]
      · rw [List.nodup_append]
        refine ⟨hA.nodup, by simp, ?_⟩
        intro x hx y hy
        simp only [List.mem_singleton] at hy
        have := hnew x hx
        omega
      · rw [firsts_append _ hA.enough]; exact hA.created
    have hlen : (w.heap ++ [some al.blockSize.toNat]).length - 1 = w.heap.length := by simp
    simp only [hlen]
    obtain ⟨e, hA''⟩ := finish_spec (w := { w with heap := w.heap ++ [some al.blockSize.toNat] }) (a := a) hA'
      (by simp only [List.length_append, List.length_singleton]; rw [Nat.add_mul]; have := hA.pos; omega)
    refine ⟨_, _, e, ?_, ?_⟩
    · rintro ⟨a', ps', hc', hp⟩
      obtain ⟨al', bs', n', hal', hA2⟩ := h.find hc'
      have := (hA2.mem hp).1
      have hlt' := (List.getElem?_eq_some_iff.1 (hA2.heap _ this)).1
      have hdiv : n / bs = al.blocks.length := by rw [hfull']; exact Nat.mul_div_cancel _ hA.pos
      simp only [nth, hdiv, List.getElem?_concat_length, Option.getD_some] at hlt'
      omega
    · refine ⟨?_, ?_, ?_, ?_, ?_⟩
      · simp [h.length]
      · intro x
        simp only [List.getElem?_set]
        by_cases hx : a = x
        · subst hx; simp [halt, hclt]
        · simp only [hx, if_false]; exact h.none x
      · intro x alx hx
        simp only [List.getElem?_set] at hx ⊢
        by_cases hax : a = x
        · subst hax
          simp only [if_true, halt, Option.some.injEq] at hx
          subst hx
          exact ⟨_, bs, n + 1, by simp [hclt], hA''⟩
        · simp only [hax, if_false] at hx ⊢
          obtain ⟨ps2, bs2, n2, g1, g2⟩ := h.alloc x alx hx
          refine ⟨ps2, bs2, n2, g1, { g2 with heap := fun b hb => ?_ }⟩
          have := (List.getElem?_eq_some_iff.1 (g2.heap b hb)).1
          rw [List.getElem?_append_left this]; exact g2.heap b hb
      · have key : ∀ (x : Nat) (alx : Alloc), a ≠ x → w.allocs[x]? = some (some alx) → ∀ b, b ∈ al.blocks ++ [w.heap.length] → b ∈ alx.blocks → False := by
          intro x alx hax hx b h1 h2
          obtain ⟨_, _, _, _, g2⟩ := h.alloc x alx hx
          simp only [List.mem_append, List.mem_singleton] at h1
          rcases h1 with h1 | rfl
          · exact hax (h.disjoint a x al alx hal hx b h1 h2)
          · have := (List.getElem?_eq_some_iff.1 (g2.heap _ h2)).1; omega
        intro x y alx aly hx hy b hbx hby
        simp only [List.getElem?_set] at hx hy
        by_cases hax : a = x <;> by_cases hay : a = y
        · omega
        · subst hax
          simp only [if_true, halt, Option.some.injEq] at hx
          simp only [hay, if_false] at hy
          subst hx
          exact (key y aly hay hy b hbx hby).elim
        · subst hay
          simp only [if_true, halt, Option.some.injEq] at hy
          simp only [hax, if_false] at hx
          subst hy
          exact (key x alx hax hx b hby hbx).elim
        · simp only [hax, hay, if_false] at hx hy
          exact h.disjoint x y alx aly hx hy b hbx hby
      · intro b size hb
        simp only [List.getElem?_append] at hb
        split at hb
        · obtain ⟨x, alx, g1, g2⟩ := h.owned b size hb
          by_cases hax : a = x
          · subst hax
            rw [hal] at g1
            simp only [Option.some.injEq] at g1
            subst g1
            exact ⟨a, _, List.getElem?_set_self halt, by simp [g2]⟩
          · exact ⟨x, alx, by simp [hax, g1], g2⟩
        · next hge =>
          have : b = w.heap.length := by
            have := (List.getElem?_eq_some_iff.1 hb).1
            simp at this; omega
          subst this
          exact ⟨a, _, List.getElem?_set_self halt, by simp⟩
  · have hlt : n < al.blocks.length * bs := by
      have h1 := hA.enough
      have : n ≠ al.blocks.length * bs := by
        intro he; apply hfull; rw [hA.count, hA.size, he]; push_cast; rfl
      omega
    rw [if_neg hfull]
    obtain ⟨e, hA''⟩ := finish_spec (a := a) hA hlt
    refine ⟨_, _, e, ?_, ?_⟩
    · rintro ⟨a', ps', hc', hp⟩
      obtain ⟨al', bs', n', hal', hA2⟩ := h.find hc'
      have hb := (hA2.mem hp).1
      have hdl : n / bs < al.blocks.length := div_lt hlt
      have hb' : (nth bs al.blocks n).1 ∈ al.blocks := by
        simp only [nth, List.getElem?_eq_getElem hdl, Option.getD_some]; exact List.getElem_mem hdl
      have haa := h.disjoint a a' al al' hal hal' _ hb' hb
      subst haa
      rw [hc] at hc'
      simp only [Option.some.injEq] at hc'
      subst hc'
      rw [hA.created, mem_firsts] at hp
      obtain ⟨i, hi, hp⟩ := hp
      have := nth_inj hA.nodup hlt (by have := hA.enough; omega) hp
      omega
    · refine ⟨?_, ?_, ?_, ?_, ?_⟩
      · simp [h.length]
      · intro x
        simp only [List.getElem?_set]
        by_cases hx : a = x
        · subst hx; simp [halt, hclt]
        · simp only [hx, if_false]; exact h.none x
      · intro x alx hx
        simp only [List.getElem?_set] at hx ⊢
        by_cases hax : a = x
        · subst hax
          simp only [if_true, halt, Option.some.injEq] at hx
          subst hx
          exact ⟨_, bs, n + 1, by simp [hclt], hA''⟩
        · simp only [hax, if_false] at hx ⊢
          exact h.alloc x alx hx
      · intro x y alx aly hx hy b hbx hby
        have key : ∀ (z : Nat) (alz : Alloc), (w.allocs.set a (some { al with allocatedSize := al.allocatedSize + 1 }))[z]? = some (some alz) →
            ∃ alz', w.allocs[z]? = some (some alz') ∧ alz'.blocks = alz.blocks := by
          intro z alz hz
          simp only [List.getElem?_set] at hz
          by_cases haz : a = z
          · subst haz
            simp only [if_true, halt, Option.some.injEq] at hz
            subst hz
            exact ⟨al, hal, rfl⟩
          · simp only [haz, if_false] at hz
            exact ⟨alz, hz, rfl⟩
        obtain ⟨x', h1, h2⟩ := key x alx hx
        obtain ⟨y', h3, h4⟩ := key y aly hy
        exact h.disjoint x y x' y' h1 h3 b (h2 ▸ hbx) (h4 ▸ hby)
      · intro b size hb
        obtain ⟨x, alx, g1, g2⟩ := h.owned b size hb
        by_cases hax : a = x
        · subst hax
          rw [hal] at g1
          simp only [Option.some.injEq] at g1
          subst g1
          exact ⟨a, _, List.getElem?_set_self halt, g2⟩
        · exact ⟨x, alx, by simp [hax, g1], g2⟩

theorem deleteBlocks_spec (bs : List Nat) (hn : bs.Nodup) : ∀ heap : List (Option Nat), (∀ b ∈ bs, ∃ n, heap[b]? = some (some n)) →
    ∃ heap', deleteBlocks bs heap = some heap' ∧ (∀ b : Nat, b ∉ bs → heap'[b]? = heap[b]?) ∧ (∀ b ∈ bs, heap'[b]? = some none) := by
  induction bs with
  | nil => intro heap _; exact ⟨heap, rfl, fun _ _ => rfl, by simp⟩
  | cons b bs ih =>
    intro heap h
    obtain ⟨hb, hn⟩ := List.nodup_cons.1 hn
    obtain ⟨n, hbn⟩ := h b (by simp)
    have hblt := (List.getElem?_eq_some_iff.1 hbn).1
    obtain ⟨heap', h1, h2, h3⟩ := ih hn (heap.set b none) (by
      intro x hx
      obtain ⟨m, hm⟩ := h x (by simp [hx])
      have : b ≠ x := by rintro rfl; exact hb hx
      exact ⟨m, by rw [List.getElem?_set_ne this]; exact hm⟩)
    refine ⟨heap', by simp only [deleteBlocks, hbn, h1], ?_, ?_⟩
    · intro x hx
      simp only [List.mem_cons, not_or] at hx
      rw [h2 x hx.2, List.getElem?_set_ne (Ne.symm hx.1)]
    · intro x hx
      rcases List.mem_cons.1 hx with rfl | hx
      · rw [h2 x hb]; simp [hblt]
      · exact h3 x hx

/-- every operation -/
theorem step_inv {w : World} {c : Created} (h : Inv w c) {op : Op} (hl : LegalOp c op) :
    ∃ r w' c', step w op = some (r, w') ∧ CreatedStep c op r c' ∧ Inv w' c' := by
  cases op with
  | newAllocator n =>
    refine ⟨_, _, _, rfl, .newAllocator, ?_⟩
    have hlen := h.length
    have hn : 0 < n := hl
    have hget : ∀ (x : Nat) (al : Alloc), (w.allocs ++ [some ⟨n, 0, []⟩])[x]? = some (some al) →
        w.allocs[x]? = some (some al) ∨ x = w.allocs.length ∧ al = ⟨n, 0, []⟩ := by
      intro x al hx
      rw [List.getElem?_append] at hx
      split at hx
      · exact .inl hx
      · next hge =>
        have := (List.getElem?_eq_some_iff.1 hx).1
        simp only [List.length_singleton] at this
        have hx0 : x - w.allocs.length = 0 := by omega
        rw [hx0] at hx
        simp only [List.getElem?_cons_zero, Option.some.injEq] at hx
        exact .inr ⟨by omega, hx.symm⟩
    refine ⟨by simp [hlen], ?_, ?_, ?_, ?_⟩
    · intro a
      simp only [List.getElem?_append, hlen]
      split
      · exact h.none a
      · by_cases hx0 : a - c.length = 0
        · rw [hx0]; simp
        · rw [List.getElem?_eq_none (by simp; omega), List.getElem?_eq_none (by simp; omega)]; simp
    · intro a al ha
      rcases hget a al ha with ha | ⟨rfl, rfl⟩
      · obtain ⟨ps, bs, m, g1, g2⟩ := h.alloc a al ha
        exact ⟨ps, bs, m, by rw [List.getElem?_append_left (List.getElem?_eq_some_iff.1 g1).1]; exact g1, g2⟩
      · refine ⟨[], n.toNat, 0, by simp [hlen], ⟨by simp; omega, by omega, rfl, by simp, by simp, by simp, rfl⟩⟩
    · intro x y alx aly hx hy b hbx hby
      rcases hget x alx hx with hx | ⟨rfl, rfl⟩
      · rcases hget y aly hy with hy | ⟨rfl, rfl⟩
        · exact h.disjoint x y alx aly hx hy b hbx hby
        · cases hby
      · cases hbx
    · intro b size hb
      obtain ⟨x, alx, g1, g2⟩ := h.owned b size hb
      exact ⟨x, alx, by simp only; rw [List.getElem?_append_left (List.getElem?_eq_some_iff.1 g1).1]; exact g1, g2⟩
  | create a =>
    obtain ⟨ps, hc⟩ := hl
    obtain ⟨p, w', h1, h2, h3⟩ := create_spec h hc
    exact ⟨_, _, _, by simp [step, h1], .create hc h2, h3⟩
  | get a i =>
    obtain ⟨⟨ps, hc⟩, hi⟩ := hl
    obtain ⟨al, bs, n, hal, hA⟩ := h.find hc
    obtain ⟨k, rfl⟩ := Int.eq_ofNat_of_zero_le hi
    exact ⟨_, _, _, by simp only [step, hal, Option.join_some, getIn_eq hA k, Option.map_some], .get hc, h⟩
  | destroy a =>
    obtain ⟨ps, hc⟩ := hl
    obtain ⟨al, bs, n, hal, hA⟩ := h.find hc
    have halt : a < w.allocs.length := (List.getElem?_eq_some_iff.1 hal).1
    have hclt : a < c.length := by rw [← h.length]; exact halt
    obtain ⟨heap', h1, h2, h3⟩ := deleteBlocks_spec al.blocks hA.nodup w.heap (fun b hb => ⟨bs, hA.heap b hb⟩)
    refine ⟨_, ⟨heap', w.allocs.set a none⟩, _, by simp only [step, hal, Option.join_some, h1, Option.map_some], .destroy, ?_⟩
    have hget : ∀ (x : Nat) (alx : Alloc), (w.allocs.set a none)[x]? = some (some alx) → w.allocs[x]? = some (some alx) ∧ x ≠ a := by
      intro x alx hx
      simp only [List.getElem?_set] at hx
      by_cases hax : a = x
      · subst hax; simp [halt] at hx
      · simp only [hax, if_false] at hx; exact ⟨hx, Ne.symm hax⟩
    refine ⟨by simp [h.length], ?_, ?_, ?_, ?_⟩
    · intro x
      simp only [List.getElem?_set]
      by_cases hx : a = x
      · subst hx; simp [halt, hclt]
      · simp only [hx, if_false]; exact h.none x
    · intro x alx hx
      obtain ⟨hx, hne⟩ := hget x alx hx
      obtain ⟨ps2, bs2, n2, g1, g2⟩ := h.alloc x alx hx
      refine ⟨ps2, bs2, n2, by rw [List.getElem?_set_ne (Ne.symm hne)]; exact g1, { g2 with heap := fun b hb => ?_ }⟩
      rw [h2 b (fun hb' => hne (h.disjoint x a alx al hx hal b hb hb'))]
      exact g2.heap b hb
    · intro x y alx aly hx hy b hbx hby
      exact h.disjoint x y alx aly (hget x alx hx).1 (hget y aly hy).1 b hbx hby
    · intro b size hb
      have hnb : b ∉ al.blocks := by
        intro hb'
        have := h3 b hb'
        simp only at hb
        rw [hb] at this; cases this
      have hb0 : w.heap[b]? = some (some size) := by rw [← h2 b hnb]; exact hb
      obtain ⟨x, alx, g1, g2⟩ := h.owned b size hb0
      have hxa : a ≠ x := by
        rintro rfl
        rw [hal] at g1
        simp only [Option.some.injEq] at g1
        subst g1; exact hnb g2
      exact ⟨x, alx, by simp [hxa, g1], g2⟩

theorem run_inv (ops : List Op) : ∀ {w : World} {c : Created}, Inv w c → LegalOps c ops →
    ∃ rs w' c', run w ops = some (rs, w') ∧ CreatedRun c ops rs c' ∧ Inv w' c' := by
  induction ops with
  | nil => intro w c h _; exact ⟨[], w, c, rfl, .nil, h⟩
  | cons op ops ih =>
    intro w c h hl
    obtain ⟨r, w1, c1, h1, h2, h3⟩ := step_inv h hl.1
    obtain ⟨rs, w2, c2, g1, g2, g3⟩ := ih h3 (hl.2 r c1 h2)
    exact ⟨r :: rs, w2, c2, by simp [run, h1, g1], .cons h2 g2, g3⟩

/-- the pointer points to an element of an array that is not deleted -/
def World.Valid (w : World) (p : Ptr) : Prop := ∃ size, w.heap[p.1]? = some (some size) ∧ p.2 < size

end PushOnly

/-- **C55**: any number of allocators with block sizes greater than 0, in every history of creating allocators, `Create`, `Get` and destroying: every `Create` returns a
pointer that is different from all objects that any existing allocator has created; `Get(i)` returns the `i`-th created object of the allocator, or null;
and at the end of every history (so at every time) all objects of all existing allocators are valid, and nothing but their arrays is left. -/
theorem C55_history (ops : List Op) (hl : LegalOps [] ops) :
    ∃ rs w c, run {} ops = some (rs, w) ∧ CreatedRun [] ops rs c ∧
      (∀ p, c.Has p → w.Valid p) ∧
      (∀ (a : Nat) (ps : List Ptr), c[a]? = some (some ps) → ps.Nodup) ∧
      (∀ (a a' : Nat) (ps ps' : List Ptr), c[a]? = some (some ps) → c[a']? = some (some ps') → ∀ p, p ∈ ps → p ∈ ps' → a = a') ∧
      ((∀ a : Nat, a < c.length → c[a]? = some none) → ∀ b : Nat, b < w.heap.length → w.heap[b]? = some none) := by
  obtain ⟨rs, w, c, h1, h2, h3⟩ := run_inv ops Inv.empty hl
  refine ⟨rs, w, c, h1, h2, ?_, ?_, ?_, ?_⟩
  · rintro p ⟨a, ps, hc, hp⟩
    obtain ⟨al, bs, n, hal, hA⟩ := h3.find hc
    obtain ⟨g1, g2⟩ := hA.mem hp
    exact ⟨bs, hA.heap _ g1, g2⟩
  · intro a ps hc
    obtain ⟨al, bs, n, hal, hA⟩ := h3.find hc
    exact hA.nodup_created
  · intro a a' ps ps' hc hc' p hp hp'
    obtain ⟨al, bs, n, hal, hA⟩ := h3.find hc
    obtain ⟨al', bs', n', hal', hA'⟩ := h3.find hc'
    exact h3.disjoint a a' al al' hal hal' _ (hA.mem hp).1 (hA'.mem hp').1
  · intro hall b hb
    cases ho : w.heap[b] with
    | none => rw [List.getElem?_eq_getElem hb, ho]
    | some size =>
      obtain ⟨a, al, g1, _⟩ := h3.owned b size (by rw [List.getElem?_eq_getElem hb, ho])
      have halt : a < c.length := by rw [← h3.length]; exact (List.getElem?_eq_some_iff.1 g1).1
      have := (h3.none a).2 (hall a halt)
      rw [g1] at this; cases this

theorem PushOnly.step_get_negative {w : World} {c : Created} (h : Inv w c) {a : Nat} {ps : List Ptr} (hc : c[a]? = some (some ps)) {i : Int} (hi : i < 0) :
    step w (.get a i) = none := by
  obtain ⟨al, bs, n, hal, hA⟩ := h.find hc
  have hpos := hA.pos
  have hneg : i.tmod bs < 0 ∨ i.tdiv bs < 0 := by
    refine Classical.byContradiction fun hcon => ?_
    have h1 := Int.mul_tdiv_add_tmod i bs
    have h2 : 0 ≤ (bs : Int) * i.tdiv bs := Int.mul_nonneg (by omega) (by omega)
    omega
  simp only [step, hal, Option.join_some, World.getIn]
  rw [if_neg (by have := hA.count; omega), hA.size, if_neg (by omega)]
  split
  · rfl
  · next hrow =>
    cases al.blocks[(i.tdiv ↑bs).toNat]? with
    | none => rfl
    | some block =>
      have : w.element block (i.tmod bs) = none := by
        unfold World.element
        split
        · rw [if_neg (by omega)]
        · rfl
      simp [this]

/-- **C55**, the precondition of `Get`: in every history a negative index is undefined (or an error of the list of blocks), it is not a null result. -/
theorem C55_negative (ops : List Op) (hl : LegalOps [] ops) :
    ∃ rs w c, run {} ops = some (rs, w) ∧ CreatedRun [] ops rs c ∧
      ∀ (a : Nat) (ps : List Ptr), c[a]? = some (some ps) → ∀ i : Int, i < 0 → step w (.get a i) = none := by
  obtain ⟨rs, w, c, h1, h2, h3⟩ := run_inv ops Inv.empty hl
  exact ⟨rs, w, c, h1, h2, fun a ps hc i hi => step_get_negative h3 hc hi⟩

/-! Blocks of two objects, two allocators. -/
example : run {} [.newAllocator 2, .create 0, .create 0, .newAllocator 1, .create 1, .create 0, .get 0 1, .get 0 3, .destroy 0] =
    some ([.unit, .pointer (some (0, 0)), .pointer (some (0, 1)), .unit, .pointer (some (1, 0)), .pointer (some (2, 0)), .pointer (some (0, 1)), .pointer none,
      .unit], ⟨[none, some 1, none], [none, some ⟨1, 1, [1]⟩]⟩) := by decide

example : LegalOps [] [.newAllocator 2, .create 0, .get 0 5] := by
  refine ⟨show (0 : Int) < 2 by decide, fun r c h => ?_⟩
  cases h
  refine ⟨⟨[], rfl⟩, fun r c h => ?_⟩
  cases h with
  | create hc hp =>
    simp at hc; subst hc
    exact ⟨⟨⟨[_], rfl⟩, by decide⟩, fun _ _ _ => trivial⟩

/-! # C56 -/

namespace PushOnly

/-- the reference that is reached from the root of a map through the given positions, the last position first -/
def slotAt (w : MapWorld) (m : Nat) : List Nat → Option Slot
  | [] => some (.root m)
  | d :: rl => (slotAt w m rl).bind fun s => match w.read s with
    | .node p => some (.entry p d)
    | _ => none

/-- what is there -/
def valueAt (w : MapWorld) (m : Nat) (rl : List Nat) : Word :=
  match slotAt w m rl with
  | some s => w.read s
  | none => .null

theorem slotAt_node {w : MapWorld} {m d : Nat} {rl : List Nat} {s : Slot} {p : Ptr} (h : slotAt w m rl = some s) (hr : w.read s = .node p) :
    slotAt w m (d :: rl) = some (.entry p d) := by
  simp [slotAt, h, hr]

theorem slotAt_null {w : MapWorld} {m d : Nat} {rl : List Nat} {s : Slot} (h : slotAt w m rl = some s) (hr : w.read s = .null) :
    slotAt w m (d :: rl) = none := by
  simp [slotAt, h, hr]

theorem slotAt_none {w : MapWorld} {m d : Nat} {rl : List Nat} (h : slotAt w m rl = none) : slotAt w m (d :: rl) = none := by
  simp [slotAt, h]

theorem slotAt_cons {w : MapWorld} {m d : Nat} {rl : List Nat} {s : Slot} (h : slotAt w m (d :: rl) = some s) :
    ∃ s' p, slotAt w m rl = some s' ∧ w.read s' = .node p ∧ s = .entry p d := by
  simp only [slotAt, Option.bind_eq_some_iff] at h
  obtain ⟨s', h1, h2⟩ := h
  split at h2
  · next p hp => exact ⟨s', p, h1, hp, (Option.some.inj h2).symm⟩
  · cases h2

/-- maps and their nodes -/
structure MapInv (w : MapWorld) (ps : List Ptr) : Prop where
  alloc : Inv w.alloc [some ps]
  uniq : ∀ (m m' : Nat) (rl rl' : List Nat) (s : Slot), slotAt w m rl = some s → slotAt w m' rl' = some s → m = m' ∧ rl = rl'
  inner : ∀ (m : Nat) (rl : List Nat) (s : Slot), slotAt w m rl = some s → rl.length ≤ 3 → w.read s = .null ∨ ∃ p ∈ ps, w.read s = .node p
  leaf : ∀ (m : Nat) (rl : List Nat) (s : Slot), slotAt w m rl = some s → rl.length = 4 → ∃ v, w.read s = toWord v

theorem MapInv.length {w : MapWorld} {ps : List Ptr} (h : MapInv w ps) {m : Nat} : ∀ {rl : List Nat} {s : Slot}, slotAt w m rl = some s → rl.length ≤ 4
  | [], _, _ => by simp
  | d :: rl, s, hs => by
    obtain ⟨s', p, h1, h2, _⟩ := slotAt_cons hs
    have := h.length h1
    refine Classical.byContradiction fun hc => ?_
    simp only [List.length_cons] at hc
    obtain ⟨v, hv⟩ := h.leaf m rl s' h1 (by omega)
    rw [h2] at hv
    cases v <;> cases hv

theorem MapInv.fresh {w : MapWorld} {ps : List Ptr} (h : MapInv w ps) {m d : Nat} {rl : List Nat} {p : Ptr} (hs : slotAt w m rl = some (.entry p d)) :
    p ∈ ps := by
  cases rl with
  | nil => simp [slotAt] at hs
  | cons e rl =>
    have hl := h.length hs
    obtain ⟨s', q, h1, h2, h3⟩ := slotAt_cons hs
    cases h3
    simp only [List.length_cons] at hl
    rcases h.inner m rl s' h1 (by omega) with h4 | ⟨q, hq, h4⟩
    · rw [h2] at h4; cases h4
    · rw [h2] at h4; cases h4; exact hq

theorem read_write_ne {w : MapWorld} {s s' : Slot} {x : Word} (h : s' ≠ s) : (w.write s x).read s' = w.read s' := by
  cases s with
  | root m =>
    cases s' with
    | root m' =>
      have : m ≠ m' := fun e => h (by rw [e])
      simp [MapWorld.write, MapWorld.read, List.getElem?_set_ne this]
    | entry q j => rfl
  | entry p i =>
    cases s' with
    | root m' => rfl
    | entry q j =>
      have : ¬ (q = p ∧ j = i) := fun ⟨e1, e2⟩ => h (by rw [e1, e2])
      simp [MapWorld.write, MapWorld.read, this]

/-- the reference exists -/
def Slot.Ok (w : MapWorld) : Slot → Prop
  | .root m => m < w.roots.length
  | .entry _ _ => True

theorem read_write_self {w : MapWorld} {s : Slot} {x : Word} (h : s.Ok w) : (w.write s x).read s = x := by
  cases s with
  | root m => simp only [Slot.Ok] at h; simp [MapWorld.write, MapWorld.read, h]
  | entry p i => simp [MapWorld.write, MapWorld.read]

theorem write_roots_length (w : MapWorld) (s : Slot) (x : Word) : (w.write s x).roots.length = w.roots.length := by
  cases s <;> simp [MapWorld.write]

/-! writing at the end of a path -/

theorem leaf_write {w : MapWorld} {ps : List Ptr} (h : MapInv w ps) {m : Nat} {rl : List Nat} {s : Slot} (hs : slotAt w m rl = some s) (hok : s.Ok w)
    (hl : rl.length = 4) (v : Option Nat) :
    MapInv (w.write s (toWord v)) ps ∧ ∀ (m' : Nat) (rl' : List Nat), rl'.length = 4 →
      valueAt (w.write s (toWord v)) m' rl' = if m' = m ∧ rl' = rl then toWord v else valueAt w m' rl' := by
  have hslot : ∀ (m' : Nat) (rl' : List Nat), slotAt (w.write s (toWord v)) m' rl' = slotAt w m' rl' := by
    intro m' rl'
    induction rl' with
    | nil => rfl
    | cons d rl' ih =>
      simp only [slotAt, ih]
      cases hs' : slotAt w m' rl' with
      | none => rfl
      | some s' =>
        simp only [Option.bind_some]
        by_cases he : s' = s
        · subst he
          obtain ⟨u, hu⟩ := h.leaf m rl s' hs hl
          rw [read_write_self hok, hu]
          cases v <;> cases u <;> rfl
        · rw [read_write_ne he]
  refine ⟨⟨?_, ?_, ?_, ?_⟩, ?_⟩
  · have : (w.write s (toWord v)).alloc = w.alloc := by cases s <;> rfl
    rw [this]; exact h.alloc
  · intro m1 m2 r1 r2 s' h1 h2
    rw [hslot] at h1 h2
    exact h.uniq m1 m2 r1 r2 s' h1 h2
  · intro m1 r1 s' h1 hlen
    rw [hslot] at h1
    have hne : s' ≠ s := by
      rintro rfl
      obtain ⟨_, rfl⟩ := h.uniq _ _ _ _ _ hs h1
      omega
    rw [read_write_ne hne]
    exact h.inner m1 r1 s' h1 hlen
  · intro m1 r1 s' h1 hlen
    rw [hslot] at h1
    by_cases he : s' = s
    · subst he; exact ⟨v, read_write_self hok⟩
    · rw [read_write_ne he]; exact h.leaf m1 r1 s' h1 hlen
  · intro m' rl' hlen
    simp only [valueAt, hslot]
    cases hs' : slotAt w m' rl' with
    | none =>
      rw [if_neg]
      rintro ⟨rfl, rfl⟩
      rw [hs] at hs'; cases hs'
    | some s' =>
      by_cases he : s' = s
      · subst he
        obtain ⟨rfl, rfl⟩ := h.uniq _ _ _ _ _ hs hs'
        simp [read_write_self hok]
      · rw [if_neg]
        · simp only [read_write_ne he]
        · rintro ⟨rfl, rfl⟩
          rw [hs] at hs'
          exact he (Option.some.inj hs').symm

/-! making a node -/

theorem read_insert_new (w : MapWorld) (s : Slot) (p : Ptr) (alloc : World) (j : Nat) : (w.insert s p alloc).read (.entry p j) = .null := by
  simp [MapWorld.insert, MapWorld.read]

theorem read_insert_old (w : MapWorld) (s : Slot) (p : Ptr) (alloc : World) (s' : Slot) (h : ∀ j, s' ≠ .entry p j) :
    (w.insert s p alloc).read s' = (w.write s (.node p)).read s' := by
  cases s' with
  | root m => cases s <;> rfl
  | entry q j =>
    have : q ≠ p := fun e => h j (by rw [e])
    cases s <;> simp [MapWorld.insert, MapWorld.read, this, MapWorld.write]

theorem insert_node {w : MapWorld} {ps : List Ptr} (h : MapInv w ps) {m : Nat} {rl : List Nat} {s : Slot} (hs : slotAt w m rl = some s) (hok : s.Ok w)
    (hl : rl.length ≤ 3) (hnull : w.read s = .null) {p : Ptr} (hp : p ∉ ps) {alloc : World} (ha : Inv alloc [some (ps ++ [p])]) :
    MapInv (w.insert s p alloc) (ps ++ [p]) ∧ slotAt (w.insert s p alloc) m rl = some s ∧ (w.insert s p alloc).read s = .node p ∧
      ∀ (m' : Nat) (rl' : List Nat), rl'.length = 4 → valueAt (w.insert s p alloc) m' rl' = valueAt w m' rl' := by
  have hold : ∀ {m' : Nat} {rl' : List Nat} {s' : Slot}, slotAt w m' rl' = some s' → ∀ j, s' ≠ .entry p j := by
    rintro m' rl' s' h' j rfl
    exact hp (h.fresh h')
  have hself : (w.insert s p alloc).read s = .node p := by
    rw [read_insert_old _ _ _ _ _ (hold hs), read_write_self hok]
  have hother : ∀ {m' : Nat} {rl' : List Nat} {s' : Slot}, slotAt w m' rl' = some s' → s' ≠ s → (w.insert s p alloc).read s' = w.read s' := by
    intro m' rl' s' h' hne
    rw [read_insert_old _ _ _ _ _ (hold h'), read_write_ne hne]
  have hslot : ∀ (m' : Nat) (rl' : List Nat), slotAt (w.insert s p alloc) m' rl' = match slotAt w m' rl' with
      | some s' => some s'
      | none => match rl' with
        | [] => none
        | d :: rl'' => if m' = m ∧ rl'' = rl then some (.entry p d) else none := by
    intro m' rl'
    induction rl' with
    | nil => rfl
    | cons d rl' ih =>
      cases hs' : slotAt w m' rl' with
      | none =>
        rw [slotAt_none hs']
        simp only
        have hne : ¬ (m' = m ∧ rl' = rl) := by
          rintro ⟨rfl, rfl⟩
          rw [hs] at hs'; cases hs'
        rw [if_neg hne]
        rw [hs'] at ih
        simp only at ih
        cases rl' with
        | nil => simp [slotAt] at hs'
        | cons e rl'' =>
          simp only at ih
          split at ih
          · exact slotAt_null ih (read_insert_new _ _ _ _ _)
          · exact slotAt_none ih
      | some s' =>
        rw [hs'] at ih
        simp only at ih
        by_cases he : s' = s
        · subst he
          obtain ⟨rfl, rfl⟩ := h.uniq _ _ _ _ _ hs hs'
          rw [slotAt_null hs' hnull, slotAt_node ih hself]
          simp
        · have hne : ¬ (m' = m ∧ rl' = rl) := by
            rintro ⟨rfl, rfl⟩
            rw [hs] at hs'; exact he (Option.some.inj hs').symm
          have hr := hother hs' he
          simp only [slotAt, ih, hs', Option.bind_some, hr]
          cases w.read s' <;> simp [hne]
  have hnew : ∀ {m' : Nat} {rl' : List Nat} {s' : Slot}, slotAt (w.insert s p alloc) m' rl' = some s' →
      slotAt w m' rl' = some s' ∨ ∃ d, m' = m ∧ rl' = d :: rl ∧ s' = .entry p d := by
    intro m' rl' s' h'
    rw [hslot] at h'
    split at h'
    · next heq => exact .inl (by rw [heq]; exact h')
    · split at h'
      · cases h'
      · split at h'
        · next d rl'' _ hc => exact .inr ⟨d, hc.1, by rw [hc.2], (Option.some.inj h').symm⟩
        · cases h'
  refine ⟨⟨?_, ?_, ?_, ?_⟩, ?_, hself, ?_⟩
  · have : (w.insert s p alloc).alloc = alloc := by cases s <;> rfl
    rw [this]; exact ha
  · intro m1 m2 r1 r2 s' h1 h2
    rcases hnew h1 with h1 | ⟨d1, rfl, rfl, e1⟩ <;> rcases hnew h2 with h2 | ⟨d2, rfl, rfl, e2⟩
    · exact h.uniq m1 m2 r1 r2 s' h1 h2
    · exact (hold h1 _ e2).elim
    · exact (hold h2 _ e1).elim
    · rw [e1] at e2; cases e2; exact ⟨rfl, rfl⟩
  · intro m1 r1 s' h1 hlen
    rcases hnew h1 with h1 | ⟨d1, rfl, rfl, rfl⟩
    · by_cases he : s' = s
      · subst he; exact .inr ⟨p, by simp, hself⟩
      · rw [hother h1 he]
        rcases h.inner m1 r1 s' h1 hlen with h3 | ⟨q, hq, h3⟩
        · exact .inl h3
        · exact .inr ⟨q, by simp [hq], h3⟩
    · exact .inl (read_insert_new _ _ _ _ _)
  · intro m1 r1 s' h1 hlen
    rcases hnew h1 with h1' | ⟨d1, rfl, rfl, rfl⟩
    · by_cases he : s' = s
      · subst he
        obtain ⟨rfl, rfl⟩ := h.uniq _ _ _ _ _ hs h1'
        omega
      · rw [hother h1' he]; exact h.leaf m1 r1 s' h1' hlen
    · exact ⟨none, read_insert_new _ _ _ _ _⟩
  · rw [hslot, hs]
  · intro m' rl' hlen
    simp only [valueAt]
    cases hs' : slotAt (w.insert s p alloc) m' rl' with
    | none =>
      rw [hslot] at hs'
      cases hs'' : slotAt w m' rl' with
      | none => rfl
      | some s' => rw [hs''] at hs'; cases hs'
    | some s' =>
      rcases hnew hs' with h1 | ⟨d1, rfl, rfl, rfl⟩
      · rw [h1]
        simp only
        by_cases he : s' = s
        · subst he
          obtain ⟨rfl, rfl⟩ := h.uniq _ _ _ _ _ hs h1
          omega
        · exact hother h1 he
      · rw [slotAt_null hs hnull]
        exact read_insert_new _ _ _ _ _

/-- the positions that `index` of the four levels use -/
def path (byte : Nat) : Nat → List Nat → List Nat
  | 0, rl => rl
  | k + 1, rl => path byte k (fragment (k + 1) byte :: rl)

theorem path_length (byte : Nat) : ∀ (k : Nat) (rl : List Nat), (path byte k rl).length = rl.length + k
  | 0, _ => rfl
  | k + 1, rl => by rw [path, path_length byte k]; simp; omega

theorem set_spec (byte : Nat) (v : Option Nat) : ∀ (k : Nat) {w : MapWorld} {ps : List Ptr}, MapInv w ps → ∀ {m : Nat} {rl : List Nat} {s : Slot},
    slotAt w m rl = some s → s.Ok w → rl.length + k = 4 →
    ∃ w' ps', MapWorld.set k w s byte (toWord v) = some w' ∧ MapInv w' ps' ∧ w'.roots.length = w.roots.length ∧
      ∀ (m' : Nat) (rl' : List Nat), rl'.length = 4 → valueAt w' m' rl' = if m' = m ∧ rl' = path byte k rl then toWord v else valueAt w m' rl'
  | 0, w, ps, h, m, rl, s, hs, hok, hlen => by
    obtain ⟨h1, h2⟩ := leaf_write h hs hok (by omega) v
    exact ⟨_, ps, rfl, h1, write_roots_length _ _ _, h2⟩
  | k + 1, w, ps, h, m, rl, s, hs, hok, hlen => by
    have hgo : ∃ w1 ps1 p, w.prepare s = some w1 ∧ MapInv w1 ps1 ∧ slotAt w1 m rl = some s ∧ w1.read s = .node p ∧ w1.roots.length = w.roots.length ∧
        ∀ (m' : Nat) (rl' : List Nat), rl'.length = 4 → valueAt w1 m' rl' = valueAt w m' rl' := by
      unfold MapWorld.prepare
      by_cases hnull : w.read s = .null
      · rw [if_pos hnull]
        obtain ⟨p, alloc, c1, c2, c3⟩ := create_spec h.alloc (a := 0) (ps := ps) rfl
        have hp : p ∉ ps := fun hp => c2 ⟨0, ps, rfl, hp⟩
        obtain ⟨i1, i2, i3, i4⟩ := insert_node h hs hok (by omega) hnull hp c3
        refine ⟨_, _, p, by rw [c1], i1, i2, i3, ?_, i4⟩
        cases s <;> simp [MapWorld.insert, MapWorld.write]
      · rw [if_neg hnull]
        rcases h.inner m rl s hs (by omega) with h1 | ⟨p, _, h1⟩
        · exact (hnull h1).elim
        · exact ⟨w, ps, p, rfl, h, hs, h1, rfl, fun _ _ _ => rfl⟩
    obtain ⟨w1, ps1, p, e1, h1, hs1, hr1, hl1, hv1⟩ := hgo
    obtain ⟨w', ps', g1, g2, g3, g4⟩ := set_spec byte v k h1 (slotAt_node (d := fragment (k + 1) byte) hs1 hr1) trivial (by simp; omega)
    refine ⟨w', ps', ?_, g2, by rw [g3, hl1], ?_⟩
    · simp only [MapWorld.set, e1, hr1]; exact g1
    · intro m' rl' hl'
      rw [g4 m' rl' hl', hv1 m' rl' hl']; rfl

theorem get_null (w : MapWorld) (byte : Nat) (k : Nat) : w.get k .null byte = some .null := by
  cases k <;> simp [MapWorld.get]

theorem slotAt_path_none {w : MapWorld} {m : Nat} (byte : Nat) : ∀ (k : Nat) {rl : List Nat}, slotAt w m rl = none → slotAt w m (path byte k rl) = none
  | 0, _, h => h
  | k + 1, _, h => slotAt_path_none byte k (slotAt_none h)

theorem get_spec (byte : Nat) : ∀ (k : Nat) {w : MapWorld} {ps : List Ptr}, MapInv w ps → ∀ {m : Nat} {rl : List Nat} {s : Slot},
    slotAt w m rl = some s → rl.length + k = 4 → w.get k (w.read s) byte = some (valueAt w m (path byte k rl))
  | 0, w, ps, h, m, rl, s, hs, hlen => by simp [MapWorld.get, path, valueAt, hs]
  | k + 1, w, ps, h, m, rl, s, hs, hlen => by
    rcases h.inner m rl s hs (by omega) with h1 | ⟨p, _, h1⟩
    · have := slotAt_path_none byte k (slotAt_null (d := fragment (k + 1) byte) hs h1)
      rw [h1, get_null]
      simp [path, valueAt, this]
    · rw [h1]
      have ih := get_spec byte k h (slotAt_node (d := fragment (k + 1) byte) hs h1) (by simp; omega)
      simp only [MapWorld.get, path]
      split
      · exact ih
      · next hn =>
        have hn : w.read (.entry p (fragment (k + 1) byte)) = .null := Classical.not_not.1 hn
        rw [hn, get_null] at ih
        exact ih

theorem byte_eq {b : Nat} (hb : b < 256) : b = 64 * fragment 4 b + 16 * fragment 3 b + 4 * fragment 2 b + fragment 1 b := by
  simp only [fragment, Nat.shiftRight_eq_div_pow]
  omega

theorem path_inj {b b' : Nat} (hb : b < 256) (hb' : b' < 256) (h : path b 4 [] = path b' 4 []) : b = b' := by
  simp only [path, List.cons.injEq] at h
  obtain ⟨h1, h2, h3, h4, _⟩ := h
  rw [byte_eq hb, byte_eq hb', h1, h2, h3, h4]

/-- the maps hold these values -/
structure Holds (w : MapWorld) (s : Maps) : Prop where
  inv : ∃ ps, MapInv w ps
  length : w.roots.length = s.length
  value : ∀ (m : Nat) (f : Nat → Option Nat), s[m]? = some f → ∀ b, b < 256 → valueAt w m (path b 4 []) = toWord (f b)

theorem slotAt_newMap (w : MapWorld) (m : Nat) (rl : List Nat) : (∀ s, ({ w with roots := w.roots ++ [.null] } : MapWorld).read s = w.read s) ∧
    slotAt { w with roots := w.roots ++ [.null] } m rl = slotAt w m rl := by
  have hr : ∀ s, ({ w with roots := w.roots ++ [.null] } : MapWorld).read s = w.read s := by
    intro s
    cases s with
    | entry p i => rfl
    | root m =>
      simp only [MapWorld.read, List.getElem?_append]
      split
      · rfl
      · next hlt =>
        rw [List.getElem?_eq_none (l := w.roots) (by omega)]
        by_cases h0 : m - w.roots.length = 0
        · rw [h0]; rfl
        · rw [List.getElem?_eq_none (by simp; omega)]
  refine ⟨hr, ?_⟩
  induction rl with
  | nil => rfl
  | cons d rl ih => simp only [slotAt, ih, hr]

theorem mapRun_spec (ops : List MapOp) : ∀ {w : MapWorld} {s : Maps}, Holds w s → LegalMapOps s.length ops →
    ∃ w', mapRun w ops = some ((mapResults s ops).map (Option.map toWord), w') := by
  induction ops with
  | nil => intro w s _ _; exact ⟨w, rfl⟩
  | cons op ops ih =>
    intro w s h hl
    obtain ⟨ps, hI⟩ := h.inv
    cases op with
    | newMap =>
      have hroot : ∀ m d rl, (slotAt w m [] = some (.root m)) ∧ (m ≥ w.roots.length → slotAt w m (d :: rl) = none) := by
        intro m d rl
        refine ⟨rfl, fun hm => ?_⟩
        induction rl generalizing d with
        | nil => exact slotAt_null (s := .root m) rfl (by simp [MapWorld.read, List.getElem?_eq_none hm])
        | cons e rl ih' => exact slotAt_none (ih' e)
      have hH : Holds { w with roots := w.roots ++ [.null] } (s ++ [fun _ => none]) := by
        refine ⟨⟨ps, hI.alloc, ?_, ?_, ?_⟩, by simp [h.length], ?_⟩
        · intro m1 m2 r1 r2 s' h1 h2
          rw [(slotAt_newMap w _ _).2] at h1 h2
          exact hI.uniq m1 m2 r1 r2 s' h1 h2
        · intro m1 r1 s' h1 hlen
          rw [(slotAt_newMap w _ _).2] at h1
          rw [(slotAt_newMap w 0 []).1]
          exact hI.inner m1 r1 s' h1 hlen
        · intro m1 r1 s' h1 hlen
          rw [(slotAt_newMap w _ _).2] at h1
          rw [(slotAt_newMap w 0 []).1]
          exact hI.leaf m1 r1 s' h1 hlen
        · intro m f hf b hb
          have hv : valueAt { w with roots := w.roots ++ [.null] } m (path b 4 []) = valueAt w m (path b 4 []) := by
            simp only [valueAt, (slotAt_newMap w m _).2]
            cases slotAt w m (path b 4 []) with
            | none => rfl
            | some s => exact (slotAt_newMap w m []).1 s
          rw [hv]
          rw [List.getElem?_append] at hf
          split at hf
          · exact h.value m f hf b hb
          · next hge =>
            have hlt := (List.getElem?_eq_some_iff.1 hf).1
            simp only [List.length_singleton] at hlt
            have h0 : m - s.length = 0 := by omega
            rw [h0] at hf
            simp only [List.getElem?_cons_zero, Option.some.injEq] at hf
            subst hf
            have : slotAt w m (path b 4 []) = none := (hroot m _ _).2 (by rw [h.length]; omega)
            simp [valueAt, this, toWord]
      obtain ⟨w', hw'⟩ := ih hH (by simpa [LegalMapOps] using hl)
      exact ⟨w', by simp [mapRun, mapStep, hw', mapResults]⟩
    | set m byte value =>
      obtain ⟨hm, hb, hl⟩ := hl
      have hok : (Slot.root m).Ok w := by simp only [Slot.Ok, h.length]; exact hm
      obtain ⟨w1, ps1, g1, g2, g3, g4⟩ := set_spec byte value 4 hI (m := m) (rl := []) (s := .root m) rfl hok (by simp)
      have hH : Holds w1 (s.modify m fun (f : Nat → Option Nat) (b : Nat) => if b = byte then value else f b) := by
        refine ⟨⟨ps1, g2⟩, by simp [g3, h.length], ?_⟩
        intro m' f hf b hb'
        rw [g4 m' _ (by rw [path_length]; rfl)]
        rw [List.getElem?_modify] at hf
        by_cases hmm : m = m'
        · subst hmm
          simp only [Option.map_eq_map, if_true, Option.map_eq_some_iff] at hf
          obtain ⟨f0, hf0, rfl⟩ := hf
          by_cases hbb : b = byte
          · subst hbb; simp
          · rw [if_neg (fun hc => hbb (path_inj hb' hb hc.2)), h.value m f0 hf0 b hb']
            simp [hbb]
        · have hf : s[m']? = some f := by
            rw [← hf]
            cases s[m']? <;> simp [hmm]
          rw [if_neg (fun hc => hmm hc.1.symm)]
          exact h.value m' f hf b hb'
      obtain ⟨w', hw'⟩ := ih hH (by simpa using hl)
      have hm' : m < w.roots.length := hok
      exact ⟨w', by simp [mapRun, mapStep, hm', g1, hw', mapResults]⟩
    | get m byte =>
      obtain ⟨hm, hb, hl⟩ := hl
      have hm' : m < w.roots.length := by rw [h.length]; exact hm
      have hg := get_spec byte 4 hI (m := m) (rl := []) (s := .root m) rfl (by simp)
      have hv := h.value m s[m] (List.getElem?_eq_getElem hm) byte hb
      rw [hv] at hg
      obtain ⟨w', hw'⟩ := ih h hl
      exact ⟨w', by simp [mapRun, mapStep, hm', hg, hw', mapResults, List.getElem?_eq_getElem hm]⟩

end PushOnly

/-- **C56**: any number of maps that share an allocator, in every history of `Set` and `Get` with all bytes: every `Get` returns the pointer that was last `Set` for this
byte in this map, and null if there was none.  The block size of the allocator is anything greater than 0 and new nodes contain anything. -/
theorem C56_history (blockSize : Int) (hb : 0 < blockSize) (garbage : Ptr → Nat → Word) (ops : List MapOp) (hl : LegalMapOps 0 ops) :
    ∃ w, mapRun (mapStart blockSize garbage) ops = some ((mapResults [] ops).map (Option.map toWord), w) := by
  refine mapRun_spec ops (s := []) ⟨⟨[], ⟨?_, ?_, ?_, ?_⟩⟩, rfl, by simp⟩ hl
  · obtain ⟨r, w', c', h1, h2, h3⟩ := step_inv Inv.empty (op := .newAllocator blockSize) hb
    cases h2
    simp only [step, Option.some.injEq, Prod.mk.injEq, true_and] at h1
    subst h1
    exact h3
  all_goals
    have hroot : ∀ (m d : Nat) (rl : List Nat), slotAt (mapStart blockSize garbage) m (d :: rl) = none := by
      intro m d rl
      induction rl generalizing d with
      | nil => exact slotAt_null (s := .root m) rfl (by simp [MapWorld.read, mapStart])
      | cons e rl ih' => exact slotAt_none (ih' e)
  · intro m m' rl rl' s h1 h2
    cases rl with
    | cons d rl => rw [hroot] at h1; cases h1
    | nil =>
      cases rl' with
      | cons d rl' => rw [hroot] at h2; cases h2
      | nil =>
        simp only [slotAt, Option.some.injEq] at h1 h2
        rw [← h2] at h1; cases h1; exact ⟨rfl, rfl⟩
  · intro m rl s h1 hlen
    cases rl with
    | cons d rl => rw [hroot] at h1; cases h1
    | nil =>
      simp only [slotAt, Option.some.injEq] at h1
      subst h1
      exact .inl (by simp [MapWorld.read, mapStart])
  · intro m rl s h1 hlen
    cases rl with
    | cons d rl => rw [hroot] at h1; cases h1
    | nil => cases hlen

/-! Two maps and an allocator with blocks of one node; nodes contain garbage. -/
example : LegalMapOps 0 [.newMap, .newMap, .set 0 27 (some 5), .set 1 27 (some 6), .set 0 26 (some 7), .get 0 27, .get 0 26, .get 1 26, .set 0 27 none, .get 0 27] := by
  simp [LegalMapOps]
example : (mapRun (mapStart 1 fun _ _ => .object 99) [.newMap, .newMap, .set 0 27 (some 5), .set 1 27 (some 6), .set 0 26 (some 7), .get 0 27, .get 0 26, .get 1 26,
    .set 0 27 none, .get 0 27]).map (·.1) =
    some [none, none, none, none, none, some (.object 5), some (.object 7), some .null, none, some .null] := by decide

end Vlpp
