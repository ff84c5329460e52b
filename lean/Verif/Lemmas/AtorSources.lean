import Verif.Spec.Enum
import Verif.Lemmas.SeqList
import Verif.Lemmas.GroupC
import Verif.Lemmas.DictC

set_option autoImplicit false
namespace Vlpp
namespace Ator

section list
variable {α : Type} (xs : List α)

/-- the position of an enumerator that has delivered `ys` -/
abbrev At (xs : List α) (i : Int) (ys zs : List α) : Prop := ys ++ zs = xs ∧ i = (ys.length : Int) - 1

def listC : (list xs).Contract xs (-1) where
  R := fun i ys zs => At xs i ys zs
  D := fun i => (xs.length : Int) ≤ i
  start := by omega
  split := fun h => h.1
  index := by
    rintro i ys zs ⟨_, rfl⟩
    show (ys.length : Int) - 1 = _
    split <;> omega
  current := by
    rintro i ys zs ⟨rfl, rfl⟩ y hy
    obtain ⟨ys', rfl⟩ := List.getLast?_eq_some_iff.1 hy
    show valueOf (SeqList.get (((ys' ++ [y]).length : Int) - 1) _) = _
    have : (((ys' ++ [y]).length : Int) - 1) = (ys'.length : Nat) := by simp
    rw [this, SeqList.get_ok (by simp)]
    simp [valueOf]
  step := by
    rintro i ys z zs ⟨rfl, rfl⟩
    refine ⟨(ys.length : Int) - 1 + 1, ?_, by simp, by simp; omega⟩
    simp [list]; omega
  stop := by
    rintro i ys ⟨rfl, rfl⟩
    refine ⟨(ys.length : Int) - 1 + 1, ?_, ?_⟩
    · simp [list]
    · simp; omega
  dead := by
    intro (i : Int) h
    refine ⟨(i + 1 : Int), ?_, ?_⟩
    · simp only [list]
      rw [decide_eq_false (by omega)]
    · show (xs.length : Int) ≤ i + 1
      omega
  fresh := fun h => ⟨_, rfl, h⟩

theorem listC_resets : (listC xs).Resets :=
  ⟨fun _ => ⟨listStart, rfl, rfl, rfl⟩, fun _ => ⟨listStart, rfl, rfl, rfl⟩⟩
theorem listC_clones : (listC xs).Clones := ⟨fun h => ⟨_, rfl, h⟩, fun h => ⟨_, rfl, h⟩⟩
theorem listC_start : (listC xs).R listStart [] xs := ⟨rfl, rfl⟩

def iterC : (iter xs).Contract xs (-1) where
  R := fun i ys zs => At xs i ys zs
  D := fun i => (xs.length : Int) ≤ i
  start := by omega
  split := fun h => h.1
  index := by
    rintro i ys zs ⟨_, rfl⟩
    show (ys.length : Int) - 1 = _
    split <;> omega
  current := by
    rintro i ys zs ⟨rfl, rfl⟩ y hy
    obtain ⟨ys', rfl⟩ := List.getLast?_eq_some_iff.1 hy
    show SortedSeq.read _ (((ys' ++ [y]).length : Int) - 1) = _
    have : (((ys' ++ [y]).length : Int) - 1) = (ys'.length : Nat) := by simp
    rw [this]
    simp [SortedSeq.read]
  step := by
    rintro i ys z zs ⟨rfl, rfl⟩
    refine ⟨(ys.length : Int) - 1 + 1, ?_, by simp, by simp; omega⟩
    simp [iter]; omega
  stop := by
    rintro i ys ⟨rfl, rfl⟩
    refine ⟨(ys.length : Int) - 1 + 1, ?_, ?_⟩
    · simp [iter]
    · simp; omega
  dead := by
    intro (i : Int) h
    refine ⟨(i + 1 : Int), ?_, ?_⟩
    · simp only [iter]
      rw [decide_eq_false (by omega)]
    · show (xs.length : Int) ≤ i + 1
      omega
  fresh := fun h => ⟨_, rfl, h⟩

theorem iterC_resets : (iterC xs).Resets :=
  ⟨fun _ => ⟨listStart, rfl, rfl, rfl⟩, fun _ => ⟨listStart, rfl, rfl, rfl⟩⟩
theorem iterC_clones : (iterC xs).Clones := ⟨fun h => ⟨_, rfl, h⟩, fun h => ⟨_, rfl, h⟩⟩
theorem iterC_start : (iterC xs).R listStart [] xs := ⟨rfl, rfl⟩
end list

section empty
universe u v
variable {α : Type u}

def emptyC : (empty.{u, v} (α := α)).Contract [] (-1) where
  R := fun _ ys zs => ys = [] ∧ zs = []
  D := fun _ => True
  start := by omega
  split := by rintro s ys zs ⟨rfl, rfl⟩; rfl
  index := by rintro s ys zs ⟨rfl, rfl⟩; rfl
  current := by rintro s ys zs ⟨rfl, rfl⟩ y hy; cases hy
  step := by rintro s ys z zs ⟨_, h⟩; cases h
  stop := fun _ => ⟨⟨⟩, rfl, trivial⟩
  dead := fun _ => ⟨⟨⟩, rfl, trivial⟩
  fresh := fun h => ⟨⟨⟩, rfl, h⟩

theorem emptyC_resets : (emptyC.{u, v} (α := α)).Resets := ⟨fun _ => ⟨⟨⟩, rfl, rfl, rfl⟩, fun _ => ⟨⟨⟩, rfl, rfl, rfl⟩⟩
theorem emptyC_clones : (emptyC.{u, v} (α := α)).Clones := ⟨fun h => ⟨⟨⟩, rfl, h⟩, fun h => ⟨⟨⟩, rfl, h⟩⟩
end empty

section range
/-- `start, start + 1, …`: `count` numbers -/
abbrev rangeValues (start count : Int) : List Int := (List.range count.toNat).map (fun (n : Nat) => start + n)

theorem rangeValues_split {start count : Int} {ys : List Int} {z : Int} {zs : List Int}
    (h : ys ++ z :: zs = rangeValues start count) : z = start + ys.length ∧ (ys.length : Int) < count := by
  have hl : ys.length + (zs.length + 1) = count.toNat := by
    have := congrArg List.length h
    simpa using this
  have : (ys ++ z :: zs)[ys.length]? = (rangeValues start count)[ys.length]? := by rw [h]
  rw [List.getElem?_append_right (Nat.le_refl _)] at this
  rw [List.getElem?_map, List.getElem?_range (by omega)] at this
  simp at this
  exact ⟨this, by omega⟩

def rangeC (start count : Int) : (range start count).Contract (rangeValues start count) (-1) where
  R := fun c ys zs => ys ++ zs = rangeValues start count ∧ c = start + (ys.length : Int) - 1
  D := fun c => start + count - 1 ≤ c
  start := by omega
  split := fun h => h.1
  index := by
    rintro c ys zs ⟨_, rfl⟩
    show start + (ys.length : Int) - 1 - start = _
    split <;> omega
  current := by
    rintro c ys zs ⟨h, rfl⟩ y hy
    obtain ⟨ys', rfl⟩ := List.getLast?_eq_some_iff.1 hy
    rw [List.append_assoc] at h
    have := (rangeValues_split h).1
    show some (start + ((ys' ++ [y]).length : Int) - 1) = some y
    rw [this, List.length_append, List.length_singleton]
    congr 1; omega
  step := by
    rintro c ys z zs ⟨h, rfl⟩
    have := (rangeValues_split h).2
    refine ⟨start + (ys.length : Int) - 1 + 1, ?_, by simpa using h, ?_⟩
    rotate_left
    · show start + (ys.length : Int) - 1 + 1 = start + ((ys ++ [z]).length : Int) - 1
      rw [List.length_append, List.length_singleton]; omega
    simp only [range]
    rw [if_pos (by omega)]
  stop := by
    rintro c ys ⟨h, rfl⟩
    have : ys.length = count.toNat := by
      have := congrArg List.length h
      simpa using this
    refine ⟨start + (ys.length : Int) - 1, ?_, ?_⟩
    · simp only [range]
      rw [if_neg (by omega)]
    · show _ ≤ _; omega
  dead := by
    intro c h
    refine ⟨c, ?_, h⟩
    simp only [range]
    rw [if_neg (by omega)]
  fresh := fun h => ⟨_, rfl, h⟩

theorem rangeC_start (start count : Int) : (rangeC start count).R (rangeStart start) [] (rangeValues start count) :=
  ⟨rfl, by show start - 1 = start + ((0 : Nat) : Int) - 1; omega⟩
theorem rangeC_resets (start count : Int) : (rangeC start count).Resets :=
  ⟨fun _ => ⟨_, rfl, rangeC_start start count⟩, fun _ => ⟨_, rfl, rangeC_start start count⟩⟩
theorem rangeC_clones (start count : Int) : (rangeC start count).Clones :=
  ⟨fun h => ⟨_, rfl, h⟩, fun h => ⟨_, rfl, h⟩⟩
end range

section dict
variable {κ ν : Type} (d : DictC κ ν)

theorem dictUpdate_ok {d : DictC κ ν} (hlen : d.keys.length = d.values.length) {i : Nat} (hi : i < d.keys.length)
    (cur : Option (κ × ν)) :
    dictUpdate d ⟨i, cur⟩ = .ok () ⟨i, some (d.keys[i], d.values[i])⟩ := by
  have h1 := SeqList.get_ok hi
  have h2 := SeqList.get_ok (hlen ▸ hi : i < d.values.length)
  simp [dictUpdate, DictC.count, h1, h2, hi]

theorem dictUpdate_end {d : DictC κ ν} {i : Int} (hi : (d.keys.length : Int) ≤ i) (cur : Option (κ × ν)) :
    dictUpdate d ⟨i, cur⟩ = .ok () ⟨i, cur⟩ := by
  exact if_neg (c := i < (d.keys.length : Int)) (by omega)

def dictC (hlen : d.keys.length = d.values.length) : (dict d).Contract (d.keys.zip d.values) (-1) where
  R := fun s ys zs => At (d.keys.zip d.values) s.index ys zs ∧ ∀ y, ys.getLast? = some y → s.current = some y
  D := fun s => (d.keys.length : Int) ≤ s.index
  start := by omega
  split := fun h => h.1.1
  index := by
    rintro ⟨i, cur⟩ ys zs ⟨⟨_, rfl⟩, _⟩
    show (ys.length : Int) - 1 = _
    split <;> omega
  current := fun h => h.2
  step := by
    rintro ⟨i, cur⟩ ys z zs ⟨⟨h, hi⟩, _⟩
    have hi : i = _ := hi
    subst hi
    have hl : ys.length + (zs.length + 1) = d.keys.length := by
      have := congrArg List.length h
      simpa [hlen] using this
    have hy : ys.length < d.keys.length := by omega
    have hz : z = (d.keys[ys.length], d.values[ys.length]) := by
      have : (ys ++ z :: zs)[ys.length]? = (d.keys.zip d.values)[ys.length]? := by rw [h]
      rw [List.getElem?_append_right (Nat.le_refl _),
        List.getElem?_eq_getElem (l := d.keys.zip d.values) (by rw [List.length_zip]; omega)] at this
      simpa using this
    have hu := dictUpdate_ok hlen hy cur
    refine ⟨⟨(ys.length : Nat), some z⟩, ?_, ⟨by simpa using h, by simp⟩, by simp⟩
    have e : (ys.length : Int) - 1 + 1 = (ys.length : Nat) := by omega
    simp only [dict, e, hu]
    simp [DictC.count, hy, hz]
  stop := by
    rintro ⟨i, cur⟩ ys ⟨⟨h, hi⟩, _⟩
    have hi : i = _ := hi
    subst hi
    have hl : ys.length = d.keys.length := by
      have := congrArg List.length h
      simpa [hlen] using this
    have e : (ys.length : Int) - 1 + 1 = (ys.length : Nat) := by omega
    have hu := dictUpdate_end (d := d) (i := (ys.length : Nat)) (by omega) cur
    refine ⟨⟨(ys.length : Nat), cur⟩, ?_, by simp [hl]⟩
    have : ¬ ((ys.length : Int) < (d.keys.length : Int)) := by omega
    simp only [dict, e, hu]
    simp [DictC.count, this]
  dead := by
    rintro ⟨i, cur⟩ h
    have h : (d.keys.length : Int) ≤ i := h
    have hu := dictUpdate_end (d := d) (i := i + 1) (by omega) cur
    refine ⟨⟨i + 1, cur⟩, ?_, ?_⟩
    · have : ¬ (i + 1 < (d.keys.length : Int)) := by omega
      simp [dict, hu, DictC.count, this]
    · show (d.keys.length : Int) ≤ i + 1
      omega
  fresh := by
    rintro ⟨i, cur⟩ zs ⟨h, hc⟩
    exact ⟨⟨i, none⟩, rfl, h, by simp⟩

theorem dictC_start (hlen : d.keys.length = d.values.length) :
    (dictC d hlen).R dictStart [] (d.keys.zip d.values) := ⟨⟨rfl, rfl⟩, by simp⟩

/-- `Reset` raises an Error in every state. -/
theorem dict_reset (s : DictState κ ν) : (dict d).reset s = .err ⟨-1, s.current⟩ := by
  have h1 : SeqList.get (-1) d.keys = .err d.keys := SeqList.get_err (by omega)
  have h2 : SeqList.get (-1) d.values = .err d.values := SeqList.get_err (by omega)
  have h3 : (-1 : Int) < d.keys.length := by omega
  simp [dict, dictUpdate, DictC.count, h1, h2, h3]
end dict

section group
variable {κ ν : Type} (g : GroupC κ ν) (m : κ → List ν)

/-- the pairs of one key -/
def pairsOf (k : κ) : List (κ × ν) := (m k).map (fun v => (k, v))

/-- the pairs of all keys, key by key -/
def blocks : List (List (κ × ν)) := g.keys.map (pairsOf m)

/-- the pairs before the `j`-th pair of the `i`-th key -/
def blocksBefore (i j : Nat) : List (κ × ν) := ((blocks g m).take i).flatten ++ ((blocks g m)[i]?.getD []).take j

/-- the pairs from the `j`-th pair of the `i`-th key -/
def blocksFrom (i j : Nat) : List (κ × ν) := ((blocks g m)[i]?.getD []).drop j ++ ((blocks g m).drop (i + 1)).flatten

variable {g m}

theorem flatten_drop {β : Type} (l : List (List β)) (i : Nat) :
    (l.drop i).flatten = l[i]?.getD [] ++ (l.drop (i + 1)).flatten := by
  by_cases hi : i < l.length
  · rw [List.drop_eq_getElem_cons hi, List.getElem?_eq_getElem hi]; rfl
  · rw [List.getElem?_eq_none (by omega), List.drop_eq_nil_of_le (by omega), List.drop_eq_nil_of_le (by omega)]; rfl

theorem blocks_split (i j : Nat) : blocksBefore g m i j ++ blocksFrom g m i j = (blocks g m).flatten := by
  rw [blocksBefore, blocksFrom, List.append_assoc, ← List.append_assoc (List.take j _), List.take_append_drop, ← flatten_drop,
    ← List.flatten_append, List.take_append_drop]

/-- reading the values of a key -/
def Reads (g : GroupC κ ν) (m : κ → List ν) : Prop :=
  ∀ (i : Nat) (h : i < g.keys.length), GroupC.getByIndex i g = .ok (m g.keys[i]) g

theorem blocks_get {i : Nat} (h : i < g.keys.length) : (blocks g m)[i]?.getD [] = pairsOf m g.keys[i] := by
  simp [blocks, h]

theorem blocksFrom_last {i j : Nat} (h : i < g.keys.length) (hj : (m g.keys[i]).length ≤ j) :
    blocksFrom g m i j = blocksFrom g m (i + 1) 0 := by
  have h2 : blocksFrom g m i j = ((blocks g m).drop (i + 1)).flatten := by
    rw [blocksFrom, blocks_get h, List.drop_eq_nil_of_le (by simpa [pairsOf] using hj), List.nil_append]
  rw [h2, blocksFrom, flatten_drop, List.drop_zero]

theorem blocksBefore_last {i j : Nat} (h : i < g.keys.length) (hj : (m g.keys[i]).length ≤ j) :
    blocksBefore g m i j = blocksBefore g m (i + 1) 0 := by
  have a := blocks_split (g := g) (m := m) i j
  rw [blocksFrom_last h hj, ← blocks_split (i + 1) 0] at a
  exact List.append_cancel_right a

theorem blocksFrom_cons {i j : Nat} (h : i < g.keys.length) (hj : j < (m g.keys[i]).length) :
    blocksFrom g m i j = (g.keys[i], (m g.keys[i])[j]) :: blocksFrom g m i (j + 1) := by
  rw [blocksFrom, blocks_get h, List.drop_eq_getElem_cons (by simpa [pairsOf] using hj), blocksFrom, blocks_get h]
  simp [pairsOf]

theorem blocksBefore_snoc {i j : Nat} (h : i < g.keys.length) (hj : j < (m g.keys[i]).length) :
    blocksBefore g m i (j + 1) = blocksBefore g m i j ++ [(g.keys[i], (m g.keys[i])[j])] := by
  have a := blocks_split (g := g) (m := m) i j
  rw [blocksFrom_cons h hj, ← blocks_split i (j + 1)] at a
  rw [show ∀ (x : κ × ν) (l : List (κ × ν)), x :: l = [x] ++ l from fun _ _ => rfl, ← List.append_assoc] at a
  exact (List.append_cancel_right a).symm

theorem blocksFrom_end {i : Nat} (h : g.keys.length ≤ i) : blocksFrom g m i 0 = [] := by
  rw [blocksFrom, List.drop_zero, ← flatten_drop, List.drop_eq_nil_of_le (by simpa [blocks] using h)]
  rfl

theorem groupUpdate_ok (hr : Reads g m) {i j : Nat} (hi : i < g.keys.length) (hj : j < (m g.keys[i]).length)
    (cur : Option (κ × ν)) :
    groupUpdate g ⟨i, j, cur⟩ = .ok () ⟨i, j, some (g.keys[i], (m g.keys[i])[j])⟩ := by
  have h1 := SeqList.get_ok hi
  have h2 := SeqList.get_ok hj
  simp [groupUpdate, GroupC.count, hr i hi, h1, h2, hi, hj]

theorem groupNext_unfold (hr : Reads g m) {i : Nat} (hi : i < g.keys.length) (vi : Int) (cur : Option (κ × ν)) :
    groupNext g ⟨i, vi, cur⟩ =
      if vi + 1 < (m g.keys[i]).length then
        match groupUpdate g ⟨i, vi + 1, cur⟩ with
        | .ok _ s' => .ok true s'
        | .err s' => .err s'
        | .fault => .fault
      else groupNext g ⟨(i : Int) + 1, -1, cur⟩ := by
  rw [groupNext]
  have : (i : Int) < g.count := by simpa [GroupC.count] using hi
  simp only [this, if_true, hr i hi]
  rfl

/-- what `Next` of the group's enumerator does -/
theorem groupNext_spec (hr : Reads g m) (n : Nat) {i j : Nat} (hn : g.keys.length - i = n)
    (hij : i < g.keys.length ∨ j = 0) (cur : Option (κ × ν)) :
    (blocksFrom g m i j = [] ∧ ∃ s', groupNext g ⟨i, (j : Int) - 1, cur⟩ = .ok false s' ∧
        (g.keys.length : Int) ≤ s'.keyIndex) ∨
    (∃ (i' j' : Nat) (hi : i' < g.keys.length) (hj : j' < (m g.keys[i']).length),
      groupNext g ⟨i, (j : Int) - 1, cur⟩ = .ok true ⟨i', j', some (g.keys[i'], (m g.keys[i'])[j'])⟩ ∧
      blocksFrom g m i j = blocksFrom g m i' j' ∧ blocksBefore g m i j = blocksBefore g m i' j') := by
  induction n generalizing i j with
  | zero =>
    refine .inl ⟨?_, ⟨i, (j : Int) - 1, cur⟩, ?_, by show _ ≤ (i : Int); omega⟩
    · rw [show j = 0 by omega]; exact blocksFrom_end (by omega)
    · rw [groupNext]; exact if_neg (c := (i : Int) < (g.keys.length : Int)) (by omega)
  | succ n ih =>
    have hi : i < g.keys.length := by omega
    rw [groupNext_unfold hr hi]
    by_cases hj : j < (m g.keys[i]).length
    · right
      refine ⟨i, j, hi, hj, ?_, rfl, rfl⟩
      rw [if_pos (by omega)]
      have e : (j : Int) - 1 + 1 = (j : Nat) := by omega
      simp only [e, groupUpdate_ok hr hi hj]
    · rw [if_neg (by omega)]
      have := ih (i := i + 1) (j := 0) (by omega) (.inr rfl)
      have hj' : (m g.keys[i]).length ≤ j := by omega
      rw [← blocksFrom_last hi hj', ← blocksBefore_last hi hj'] at this
      simpa using this

theorem groupBefore_eq (hr : Reads g m) {i : Nat} (hi : i ≤ g.keys.length) :
    groupBefore g i = (((blocks g m).take i).flatten.length : Int) := by
  induction i with
  | zero => simp [groupBefore]
  | succ i ih =>
    rw [groupBefore, ih (by omega), hr i (by omega)]
    rw [List.take_add_one, List.flatten_append, List.length_append]
    simp [blocks, show i < g.keys.length by omega, pairsOf]

variable (m) in
def groupC (hr : Reads g m) : (group g).Contract (blocks g m).flatten (-1) where
  R := fun s ys zs =>
    (ys = [] ∧ zs = (blocks g m).flatten ∧ s.keyIndex = -1 ∧ s.valueIndex = -1) ∨
    ∃ (i j : Nat) (hi : i < g.keys.length) (hj : j < (m g.keys[i]).length), s.keyIndex = i ∧ s.valueIndex = j ∧
      s.current = some (g.keys[i], (m g.keys[i])[j]) ∧ ys = blocksBefore g m i (j + 1) ∧ zs = blocksFrom g m i (j + 1)
  D := fun s => (g.keys.length : Int) ≤ s.keyIndex
  start := by omega
  split := by
    rintro s ys zs (⟨rfl, rfl, _⟩ | ⟨i, j, hi, hj, _, _, _, rfl, rfl⟩)
    · rfl
    · exact blocks_split i (j + 1)
  index := by
    rintro ⟨ki, vi, cur⟩ ys zs (⟨rfl, rfl, h1, h2⟩ | ⟨i, j, hi, hj, h1, h2, _, rfl, rfl⟩)
    · have h1 : ki = -1 := h1
      subst h1
      simp [group]
    · have h1 : ki = i := h1
      have h2 : vi = j := h2
      subst h1 h2
      have hl : (blocksBefore g m i (j + 1)).length = ((blocks g m).take i).flatten.length + (j + 1) := by
        rw [blocksBefore, List.length_append, blocks_get hi, List.length_take]
        have : (pairsOf m g.keys[i]).length = (m g.keys[i]).length := by simp [pairsOf]
        omega
      rw [if_neg (by omega), hl]
      show (if 0 ≤ (i : Int) ∧ (i : Int) < (g.keys.length : Int) then groupBefore g (i : Int).toNat + (j : Int) else -1) = _
      rw [if_pos (by omega), Int.toNat_natCast, groupBefore_eq hr (by omega)]
      omega
  current := by
    rintro ⟨ki, vi, cur⟩ ys zs (⟨rfl, rfl, h1, h2⟩ | ⟨i, j, hi, hj, h1, h2, h3, rfl, rfl⟩) y hy
    · cases hy
    · rw [blocksBefore_snoc hi hj] at hy
      simp only [List.getLast?_append, List.getLast?_singleton, Option.some_or, Option.some.injEq] at hy
      subst hy
      exact h3
  step := by
    have key : ∀ (i j : Nat) (cur : Option (κ × ν)) (z : κ × ν) (zs : List (κ × ν)), (i < g.keys.length ∨ j = 0) →
        blocksFrom g m i j = z :: zs → ∃ (i' j' : Nat) (hi : i' < g.keys.length) (hj : j' < (m g.keys[i']).length),
        groupNext g ⟨i, (j : Int) - 1, cur⟩ = .ok true ⟨i', j', some (g.keys[i'], (m g.keys[i'])[j'])⟩ ∧
        blocksBefore g m i j ++ [z] = blocksBefore g m i' (j' + 1) ∧ zs = blocksFrom g m i' (j' + 1) := by
      intro i j cur z zs hij hz
      rcases groupNext_spec hr _ rfl hij cur with ⟨e, _⟩ | ⟨i', j', hi, hj, e, h1, h2⟩
      · rw [e] at hz; cases hz
      · rw [hz, blocksFrom_cons hi hj] at h1
        simp only [List.cons.injEq] at h1
        obtain ⟨rfl, rfl⟩ := h1
        exact ⟨i', j', hi, hj, e, by rw [h2, blocksBefore_snoc hi hj], rfl⟩
    rintro ⟨ki, vi, cur⟩ ys z zs (⟨rfl, hz, h1, h2⟩ | ⟨i, j, hi, hj, h1, h2, h3, rfl, hz⟩)
    · have h1 : ki = -1 := h1
      have h2 : vi = -1 := h2
      subst h1 h2
      have hz' : blocksFrom g m 0 0 = z :: zs := by
        rw [hz, ← blocks_split 0 0]; simp [blocksBefore]
      obtain ⟨i', j', hi, hj, e, h4, h5⟩ := key 0 0 cur z zs (.inr rfl) hz'
      refine ⟨⟨i', j', some (g.keys[i'], (m g.keys[i'])[j'])⟩, congrArg some ?_, .inr ⟨i', j', hi, hj, rfl, rfl, rfl, ?_, h5⟩⟩
      · show groupNext g ⟨0, -1, cur⟩ = .ok true ⟨i', j', some (g.keys[i'], (m g.keys[i'])[j'])⟩
        simpa using e
      · rw [← h4]; simp [blocksBefore]
    · have h1 : ki = i := h1
      have h2 : vi = j := h2
      subst h1 h2
      obtain ⟨i', j', hi', hj', e, h4, h5⟩ := key i (j + 1) cur z zs (.inl hi) hz.symm
      refine ⟨⟨i', j', some (g.keys[i'], (m g.keys[i'])[j'])⟩, congrArg some ?_, .inr ⟨i', j', hi', hj', rfl, rfl, rfl, h4, h5⟩⟩
      rw [if_neg (by simp only; omega)]
      have : ((j + 1 : Nat) : Int) - 1 = j := by omega
      rw [this] at e
      exact e
  stop := by
    have key : ∀ (i j : Nat) (cur : Option (κ × ν)), (i < g.keys.length ∨ j = 0) →
        blocksFrom g m i j = [] → ∃ s', groupNext g ⟨i, (j : Int) - 1, cur⟩ = .ok false s' ∧
        (g.keys.length : Int) ≤ s'.keyIndex := by
      intro i j cur hij hz
      rcases groupNext_spec hr _ rfl hij cur with ⟨_, h⟩ | ⟨i', j', hi, hj, e, h1, h2⟩
      · exact h
      · rw [hz, blocksFrom_cons hi hj] at h1; cases h1
    rintro ⟨ki, vi, cur⟩ ys (⟨rfl, hz, h1, h2⟩ | ⟨i, j, hi, hj, h1, h2, h3, rfl, hz⟩)
    · have h1 : ki = -1 := h1
      have h2 : vi = -1 := h2
      subst h1 h2
      have hz' : blocksFrom g m 0 0 = [] := by
        rw [hz, ← blocks_split 0 0]; simp [blocksBefore]
      obtain ⟨s', e, h⟩ := key 0 0 cur (.inr rfl) hz'
      exact ⟨s', congrArg some (show groupNext g ⟨0, -1, cur⟩ = .ok false s' by simpa using e), h⟩
    · have h1 : ki = i := h1
      have h2 : vi = j := h2
      subst h1 h2
      obtain ⟨s', e, h⟩ := key i (j + 1) cur (.inl hi) hz.symm
      refine ⟨s', congrArg some ?_, h⟩
      rw [if_neg (by simp only; omega)]
      have : ((j + 1 : Nat) : Int) - 1 = j := by omega
      rw [this] at e
      exact e
  dead := by
    rintro ⟨ki, vi, cur⟩ h
    have h : (g.keys.length : Int) ≤ ki := h
    refine ⟨⟨ki, vi, cur⟩, congrArg some ?_, h⟩
    rw [if_neg (by simp only; omega), groupNext]
    exact if_neg (c := ki < (g.keys.length : Int)) (by omega)
  fresh := by
    rintro ⟨ki, vi, cur⟩ zs (⟨_, hz, h1, h2⟩ | ⟨i, j, hi, hj, h1, h2, h3, h, hz⟩)
    · exact ⟨⟨ki, vi, none⟩, rfl, .inl ⟨rfl, hz, h1, h2⟩⟩
    · rw [blocksBefore_snoc hi hj] at h
      simp at h

theorem groupC_start (hr : Reads g m) : (groupC m hr).R groupStart [] (blocks g m).flatten :=
  .inl ⟨rfl, rfl, rfl, rfl⟩

theorem reads_of_models {ord : κ → κ → Ordering} [Std.TransCmp ord] (h : GroupC.Models ord m g) : Reads g m := by
  obtain ⟨vss, h1, h2⟩ := h
  intro i hi
  obtain ⟨hi', e, e'⟩ := GroupC.getByIndex_ok h1 h2 hi
  rw [e, e']

/-- `Reset` raises an Error in every state. -/
theorem group_reset (hlen : g.values.length = g.keys.length) (s : GroupState κ ν) :
    (group g).reset s = .err ⟨-1, -1, s.current⟩ := by
  have h1 : GroupC.getByIndex (-1) g = .err g := GroupC.getByIndex_err hlen (by omega)
  have h3 : (-1 : Int) < g.keys.length := by omega
  simp [group, groupUpdate, GroupC.count, h1, h3]
end group
end Ator
end Vlpp

namespace Vlpp
namespace Ator
universe u v

/-- A state whose next step agrees with that of `s` delivers the same elements. -/
theorem Contract.delivers_like {α : Type u} {A : Ator.{u, v} α} {xs : List α} {i0 : Int} (c : A.Contract xs i0)
    {s s' : A.σ} {ys zs : List α} (h : c.R s ys zs)
    (ht : ∀ s1, A.next s = some (.ok true s1) → A.next s' = some (.ok true s1))
    (hf : ∀ s1, A.next s = some (.ok false s1) → c.D s1 → ∃ s2, A.next s' = some (.ok false s2) ∧ c.D s2) :
    A.Delivers s' ys.length zs := by
  cases zs with
  | nil =>
    obtain ⟨s1, e, h'⟩ := c.stop h
    obtain ⟨s2, e2, h2⟩ := hf s1 e h'
    intro n
    cases n with
    | zero => trivial
    | succ n => exact ⟨s2, e2, c.silent h2 n⟩
  | cons z zs =>
    obtain ⟨s1, e, h'⟩ := c.step h
    have := c.delivers h'
    refine ⟨s1, ht s1 e, c.current h' z (by simp), ?_, by simpa using this⟩
    rw [c.index h']; simp

theorem dict_clone_delivers {κ ν : Type} (d : DictC κ ν) (hlen : d.keys.length = d.values.length)
    {s : DictState κ ν} {ys zs : List (κ × ν)} (h : (dictC d hlen).R s ys zs) :
    ∃ s', (dict d).clone s = some s' ∧ (dict d).Delivers s' ys.length zs := by
  refine ⟨⟨s.index, none⟩, rfl, (dictC d hlen).delivers_like h ?_ ?_⟩
  · intro s1 e
    simp only [dict, dictUpdate] at e ⊢
    by_cases hc : s.index + 1 < d.count
    · rw [if_pos hc] at e ⊢
      cases h1 : SeqList.get (s.index + 1) d.keys <;> cases h2 : SeqList.get (s.index + 1) d.values <;>
        simp only [h1, h2, Option.some.injEq, reduceCtorEq] at e ⊢
      exact e
    · rw [if_neg hc] at e
      simp only [hc, and_false, decide_false, Option.some.injEq] at e
      cases e
  · intro s1 e hD
    simp only [dict, dictUpdate] at e ⊢
    by_cases hc : s.index + 1 < d.count
    · rw [if_pos hc] at e ⊢
      cases h1 : SeqList.get (s.index + 1) d.keys <;> cases h2 : SeqList.get (s.index + 1) d.values <;>
        simp only [h1, h2, Option.some.injEq, reduceCtorEq] at e ⊢
      exact ⟨s1, e, hD⟩
    · rw [if_neg hc] at e ⊢
      simp only [hc, and_false, decide_false, Option.some.injEq, Outcome.ok.injEq, true_and] at e ⊢
      cases e
      exact ⟨⟨s.index + 1, none⟩, rfl, hD⟩

theorem groupNext_current {κ ν : Type} (g : GroupC κ ν) (cur' : Option (κ × ν)) (n : Nat) (s : GroupState κ ν)
    (hn : (g.count - s.keyIndex).toNat = n) :
    (∀ s1, groupNext g s = .ok true s1 → groupNext g ⟨s.keyIndex, s.valueIndex, cur'⟩ = .ok true s1) ∧
    (∀ s1, groupNext g s = .ok false s1 →
      groupNext g ⟨s.keyIndex, s.valueIndex, cur'⟩ = .ok false ⟨s1.keyIndex, s1.valueIndex, cur'⟩) := by
  induction n generalizing s with
  | zero =>
    rw [groupNext.eq_def g s, groupNext.eq_def g ⟨s.keyIndex, s.valueIndex, cur'⟩]
    have : ¬ s.keyIndex < g.count := by omega
    simp only [this, if_false]
    constructor
    · intro s1 h; cases h
    · intro s1 h; cases h; rfl
  | succ n ih =>
    rw [groupNext.eq_def g s, groupNext.eq_def g ⟨s.keyIndex, s.valueIndex, cur'⟩]
    have : s.keyIndex < g.count := by omega
    simp only [this, if_true]
    cases hg : GroupC.getByIndex s.keyIndex g with
    | err _ => exact ⟨fun _ h => (by cases h), fun _ h => (by cases h)⟩
    | fault => exact ⟨fun _ h => (by cases h), fun _ h => (by cases h)⟩
    | ok values g' =>
      simp only
      by_cases hv : s.valueIndex + 1 < values.length
      · simp only [hv, if_true, groupUpdate, this, hg]
        cases SeqList.get s.keyIndex g.keys with
        | ok k _ =>
          cases SeqList.get (s.valueIndex + 1) values with
          | ok v _ => exact ⟨fun _ h => h, fun _ h => (by cases h)⟩
          | err _ => exact ⟨fun _ h => (by cases h), fun _ h => (by cases h)⟩
          | fault => exact ⟨fun _ h => (by cases h), fun _ h => (by cases h)⟩
        | err _ =>
          cases SeqList.get (s.valueIndex + 1) values <;>
            exact ⟨fun _ h => (by cases h), fun _ h => (by cases h)⟩
        | fault => exact ⟨fun _ h => (by cases h), fun _ h => (by cases h)⟩
      · simp only [hv, if_false]
        exact ih ⟨s.keyIndex + 1, -1, s.current⟩ (by simp only; omega)

theorem group_clone_delivers {κ ν : Type} {g : GroupC κ ν} {m : κ → List ν} (hr : Reads g m)
    {s : GroupState κ ν} {ys zs : List (κ × ν)} (h : (groupC m hr).R s ys zs) :
    ∃ s', (group g).clone s = some s' ∧ (group g).Delivers s' ys.length zs := by
  refine ⟨⟨s.keyIndex, s.valueIndex, none⟩, rfl, (groupC m hr).delivers_like h ?_ ?_⟩
  · intro s1 e
    simp only [group, Option.some.injEq] at e ⊢
    have := (groupNext_current g none _ (if s.keyIndex = -1 then ⟨0, s.valueIndex, s.current⟩ else s) rfl).1 s1 e
    by_cases hk : s.keyIndex = -1 <;> simp_all
  · intro s1 e hD
    simp only [group, Option.some.injEq] at e ⊢
    have := (groupNext_current g none _ (if s.keyIndex = -1 then ⟨0, s.valueIndex, s.current⟩ else s) rfl).2 s1 e
    refine ⟨⟨s1.keyIndex, s1.valueIndex, none⟩, ?_, hD⟩
    by_cases hk : s.keyIndex = -1 <;> simp_all
end Ator
end Vlpp
