import Verif.Lemmas.Sort

/-!
# Properties C15, C16: `Sort` / `SortLambda`

The buffer is `pre ++ xs ++ post`; the call sorts the `xs.length` elements starting at `&pre.end`.
-/
set_option autoImplicit false
namespace Vlpp
variable {α : Type}

/-- What a rearrangement of a window means for the whole buffer. -/
theorem QSort.Win.split {pre xs post buf' : List α}
    (w : QSort.Win (pre ++ xs ++ post) buf' (pre.length : Int) ((pre.length : Int) + xs.length)) :
    ∃ ys, buf' = pre ++ ys ++ post ∧ ys.Perm xs := by
  have hlen : buf'.length = pre.length + xs.length + post.length := by rw [w.len]; simp; omega
  have out : ∀ k : Nat, k < pre.length ∨ pre.length + xs.length ≤ k → buf'[k]? = (pre ++ xs ++ post)[k]? := by
    intro k hk
    have := w.out k (by omega)
    simpa [QSort.read] using this
  have e1 : buf'.take pre.length = pre := by
    apply List.ext_getElem?
    intro k
    by_cases hk : k < pre.length
    · rw [List.getElem?_take_of_lt hk, out k (.inl hk), List.append_assoc, List.getElem?_append_left hk]
    · rw [List.getElem?_eq_none (by rw [List.length_take]; omega), List.getElem?_eq_none (by omega)]
  have e2 : buf'.drop (pre.length + xs.length) = post := by
    apply List.ext_getElem?
    intro k
    rw [List.getElem?_drop, out _ (.inr (by omega)), List.getElem?_append_right (by simp)]
    congr 1
    simp
  refine ⟨(buf'.drop pre.length).take xs.length, ?_, ?_⟩
  · have h1 : buf' = buf'.take pre.length ++ buf'.drop pre.length := (List.take_append_drop _ _).symm
    have h2 : buf'.drop pre.length = (buf'.drop pre.length).take xs.length ++ (buf'.drop pre.length).drop xs.length :=
      (List.take_append_drop _ _).symm
    rw [List.drop_drop, e2] at h2
    rw [e1] at h1
    refine h1.trans ?_
    rw [List.append_assoc]
    exact congrArg (pre ++ ·) h2
  · have h1 : buf' = buf'.take pre.length ++ buf'.drop pre.length := (List.take_append_drop _ _).symm
    have h2 : buf'.drop pre.length = (buf'.drop pre.length).take xs.length ++ (buf'.drop pre.length).drop xs.length :=
      (List.take_append_drop _ _).symm
    rw [List.drop_drop, e2] at h2
    rw [e1] at h1
    have hp := w.perm
    rw [h1, h2, List.append_assoc] at hp
    exact (List.perm_append_right_iff _).1 ((List.perm_append_left_iff _).1 hp)

/-- **C15.** For every total preorder, every buffer and every part `xs` of it: sorting `xs` ends without an Error and
without undefined behaviour, and replaces `xs` by a permutation of `xs` in which no element is greater than a later
one; the rest of the buffer is unchanged. -/
theorem C15_sort {cmp : α → α → Option Ordering} {ord : α → α → Ordering} [Std.TransCmp ord]
    (hcmp : ∀ a b, cmp a b = some (ord a b)) (pre xs post : List α) :
    ∃ (depth : Nat) (ys : List α),
      QSort.sort cmp pre.length xs.length 0 (pre ++ xs ++ post) = some (.ok depth (pre ++ ys ++ post)) ∧
      ys.Perm xs ∧ ys.Pairwise (fun x y => ord x y ≠ .gt) := by
  obtain ⟨buf', w, h⟩ := QSort.sort_spec (cmp := cmp) xs.length pre.length xs.length 0 (pre ++ xs ++ post) rfl (by omega)
    (by simp; omega)
  rcases h with ⟨_, a, b, hn⟩ | ⟨d, e, _, hs⟩
  · rw [hcmp] at hn; cases hn
  · obtain ⟨ys, rfl, hp⟩ := w.split
    refine ⟨d, ys, e, hp, ?_⟩
    have hs := hs ord hcmp
    rw [List.pairwise_iff_getElem]
    intro i j hi hj hij
    have hl := hp.length_eq
    refine hs (pre.length + i) (pre.length + j) _ _ (by omega) (by omega) (by omega) ?_ ?_
    · have : ((pre.length : Int) + i).toNat = pre.length + i := by omega
      rw [QSort.read, if_pos (by omega), this, List.append_assoc, List.getElem?_append_right (by omega),
        List.getElem?_append_left (by omega), List.getElem?_eq_getElem (by omega)]
      simp
    · have : ((pre.length : Int) + j).toNat = pre.length + j := by omega
      rw [QSort.read, if_pos (by omega), this, List.append_assoc, List.getElem?_append_right (by omega),
        List.getElem?_append_left (by omega), List.getElem?_eq_getElem (by omega)]
      simp

/-- Sorting by the last digit (a preorder that is not an order) in the middle of a buffer. -/
example : ∃ (depth : Nat) (ys : List Nat),
    QSort.sort (fun a b : Nat => some (compareOn (· % 10) a b)) 1 4 0 [99, 31, 12, 21, 10, 0]
      = some (.ok depth ([99] ++ ys ++ [0])) ∧
    ys.Perm [31, 12, 21, 10] ∧ ys.Pairwise (fun x y => compareOn (· % 10) x y ≠ .gt) :=
  C15_sort (ord := compareOn (· % 10)) (fun _ _ => rfl) [99] [31, 12, 21, 10] [0]

/-- **C16.** For every comparison function whatsoever (it may be inconsistent, and it may answer "unordered"), every
buffer and every part `xs` of it: sorting `xs` ends; it is never undefined (every access is inside the buffer); whether
it returns or raises an Error, `xs` has been replaced by a permutation of `xs` and the rest of the buffer is unchanged;
an Error is raised only if some pair is unordered; and at most `log2(length) + 1` recursive calls are nested. -/
theorem C16_sort_any_comparison (cmp : α → α → Option Ordering) (pre xs post : List α) :
    ∃ ys : List α, ys.Perm xs ∧
      ((QSort.sort cmp pre.length xs.length 0 (pre ++ xs ++ post) = some (.err (pre ++ ys ++ post)) ∧
          ∃ a b, cmp a b = none) ∨
       ∃ depth : Nat, QSort.sort cmp pre.length xs.length 0 (pre ++ xs ++ post) = some (.ok depth (pre ++ ys ++ post)) ∧
          depth ≤ Nat.log2 xs.length + 1) := by
  obtain ⟨buf', w, h⟩ := QSort.sort_spec (cmp := cmp) xs.length pre.length xs.length 0 (pre ++ xs ++ post) rfl (by omega)
    (by simp; omega)
  obtain ⟨ys, rfl, hp⟩ := w.split
  refine ⟨ys, hp, ?_⟩
  rcases h with ⟨e, hn⟩ | ⟨d, e, hd, _⟩
  · exact .inl ⟨e, hn⟩
  · refine .inr ⟨d, e, ?_⟩
    unfold QSort.depthBound at hd
    split at hd <;> omega

/-- A comparison that always says "greater". -/
example : ∃ ys : List Nat, ys.Perm [1, 2, 3, 4, 5] ∧
    ∃ depth : Nat, QSort.sort (fun _ _ : Nat => some .gt) 0 5 0 [1, 2, 3, 4, 5] = some (.ok depth ys) ∧ depth ≤ 3 := by
  obtain ⟨ys, hp, h⟩ := C16_sort_any_comparison (fun _ _ : Nat => some .gt) [] [1, 2, 3, 4, 5] []
  refine ⟨ys, hp, ?_⟩
  rcases h with ⟨_, _, _, hn⟩ | ⟨d, e, hd⟩
  · cases hn
  · refine ⟨d, by simpa using e, hd⟩

end Vlpp
