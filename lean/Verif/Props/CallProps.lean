import Verif.Lemmas.CallRun

/-!
# C86: When lazy lists call the functions given to them

The functions may change the world, depend on it and throw.  A program made of member functions of lazy lists stands for a sequence together
with the calls that are necessary to compute it (`CallPipe.meaning`, Spec/CallPipe.lean, in terms of Spec/Calls.lean).  The calls made by the
code are these calls, in this order, at the time when an element is wanted, and no others.
-/
set_option autoImplicit false
namespace Vlpp
open Spec (Gen Reader ReadOp ReadRet)
variable {W α β : Type}

/-- Making a lazy list makes exactly the prescribed calls.  Afterwards any number of enumerators can be created, cloned, used in turn and
reset: each call returns what is prescribed and leaves the world as prescribed, also if the functions throw. -/
theorem C86_calls_partial (p : CallPipe W α) (hp : p.Ok) (w : W) :
    match p.meaning w with
    | .ok g w' => ∃ L, p.build w = some (.ok L w') ∧
        ∀ (w2 : W) (ops : List ReadOp) (r : Outcome W (List (ReadRet α × W))), Reader.run g [] w2 ops = some r → L.run [] w2 ops = some r
    | .err w' => p.build w = some (.err w')
    | .fault => p.build w = some .fault := by
  have := p.build_makes hp w
  revert this
  cases p.meaning w with
  | fault => exact id
  | err w' => exact id
  | ok g w' =>
    rintro ⟨L, e, hL⟩
    exact ⟨L, e, fun w2 ops r hr => hL.run w2 ops r hr⟩

theorem CallPipe.holds (p : CallPipe W α) (hp : p.Ok) {w w' : W} {g : Gen W α} {L : CallList W α} (hm : p.meaning w = .ok g w')
    (hb : p.build w = some (.ok L w')) : L.Holds g p.Fresh := by
  have := p.build_makes hp w
  rw [hm] at this
  obtain ⟨L', e, hL⟩ := this
  rw [hb] at e
  obtain rfl : L = L' := by simpa using e
  exact hL

/-- What the other functions do with a lazy list: loops, `Aggregate`, `All`, `Any`, `First`, `Last`, `Count`, `IsEmpty`, copying to a list
and to an array.  `First` and `IsEmpty` compute one element; `Count`, `Last`, `Aggregate` and copying to a list compute each element once;
`All` and `Any` call the function for each element, also if the answer is known; copying to an array computes everything twice. -/
theorem C86_consumers_partial (p : CallPipe W α) (hp : p.Ok) (w w' : W) (g : Gen W α) (L : CallList W α) (hm : p.meaning w = .ok g w')
    (hb : p.build w = some (.ok L w')) (w2 : W) :
    (∀ (γ : Type) (init : γ) (f : γ → α → Cpp W γ), L.aggregateInit init f w2 = some (g.foldM f init w2)) ∧
    (∀ f : α → α → Cpp W α, L.aggregate f w2 = some (g.reduce f w2)) ∧
    (∀ f : α → Cpp W Bool, L.all f w2 = some (Cpp.bind' (g.map f).collect (fun bs => Cpp.pure' (bs.all id)) w2)) ∧
    (∀ f : α → Cpp W Bool, L.any f w2 = some (Cpp.bind' (g.map f).collect (fun bs => Cpp.pure' (bs.any id)) w2)) ∧
    L.first w2 = some (g.first w2) ∧ (∀ d, L.firstOr d w2 = some (g.firstOr d w2)) ∧
    L.last w2 = some (g.last w2) ∧ (∀ d, L.lastOr d w2 = some (g.lastOr d w2)) ∧
    L.count w2 = some (g.count w2) ∧ L.isEmpty w2 = some (g.isEmpty w2) ∧
    L.toList w2 = some (g.collect w2) ∧ (∀ old d, L.toArray old d w2 = some (g.twice old d w2)) := by
  have h := p.holds hp hm hb
  exact ⟨fun γ init f => h.fold init f w2, fun f => h.aggregate f w2, fun f => h.all f w2, fun f => h.any f w2, h.first w2,
    fun d => h.firstOr d w2, h.last w2, fun d => h.lastOr d w2, h.count' w2, h.isEmpty w2, h.toList w2, fun old d => h.toArray old d w2⟩

/-- Programs that only use `Select`, `Where`, `Concat`, `Pairwise`, `Take`, `Skip`, `Repeat` and `Distinct`. -/
def CallPipe.Lazy : {α : Type} → CallPipe W α → Prop
  | _, .list _ => True
  | _, .empty => True
  | _, .select p _ => p.Lazy
  | _, .where' p _ => p.Lazy
  | _, .concat p q => p.Lazy ∧ q.Lazy
  | _, .pairwise p q => p.Lazy ∧ q.Lazy
  | _, .take p _ => p.Lazy
  | _, .skip p _ => p.Lazy
  | _, .repeat' p _ => p.Lazy
  | _, .distinct p _ => p.Lazy
  | _, .reverse _ => False
  | _, .intersect _ _ _ => False
  | _, .except _ _ _ => False
  | _, .selectMany _ _ _ => False
  | _, .evaluate _ _ => False

theorem CallPipe.lazy_meaning : {α : Type} → (p : CallPipe W α) → p.Lazy → ∀ w, ∃ g, p.meaning w = .ok g w
  | _, .list _, _, _ => ⟨_, rfl⟩
  | _, .empty, _, _ => ⟨_, rfl⟩
  | _, .select p _, h, w => by obtain ⟨g, e⟩ := lazy_meaning p h w; exact ⟨_, by rw [meaning, Cpp.bind', e]; rfl⟩
  | _, .where' p _, h, w => by obtain ⟨g, e⟩ := lazy_meaning p h w; exact ⟨_, by rw [meaning, Cpp.bind', e]; rfl⟩
  | _, .concat p q, h, w => by
    obtain ⟨g, e⟩ := lazy_meaning p h.1 w
    obtain ⟨g', e'⟩ := lazy_meaning q h.2 w
    exact ⟨_, by rw [meaning, Cpp.bind', e]; simp only; rw [Cpp.bind', e']; rfl⟩
  | _, .pairwise p q, h, w => by
    obtain ⟨g, e⟩ := lazy_meaning p h.1 w
    obtain ⟨g', e'⟩ := lazy_meaning q h.2 w
    exact ⟨_, by rw [meaning, Cpp.bind', e]; simp only; rw [Cpp.bind', e']; rfl⟩
  | _, .take p _, h, w => by obtain ⟨g, e⟩ := lazy_meaning p h w; exact ⟨_, by rw [meaning, Cpp.bind', e]; rfl⟩
  | _, .skip p _, h, w => by obtain ⟨g, e⟩ := lazy_meaning p h w; exact ⟨_, by rw [meaning, Cpp.bind', e]; rfl⟩
  | _, .repeat' p _, h, w => by obtain ⟨g, e⟩ := lazy_meaning p h w; exact ⟨_, by rw [meaning, Cpp.bind', e]; rfl⟩
  | _, .distinct p _, h, w => by obtain ⟨g, e⟩ := lazy_meaning p h w; exact ⟨_, by rw [meaning, Cpp.bind', e]; rfl⟩

/-- Making a lazy list with these functions calls nothing and changes nothing. -/
theorem C86_lazy_partial (p : CallPipe W α) (hp : p.Ok) (hl : p.Lazy) (w : W) : ∃ L, p.build w = some (.ok L w) := by
  obtain ⟨g, e⟩ := p.lazy_meaning hl w
  have := p.build_makes hp w
  rw [e] at this
  obtain ⟨L, q, _⟩ := this
  exact ⟨L, q⟩

/-- a reader of a sequence without calls -/
def Spec.Reader.Calm (r : Reader W α) : Prop := ∀ g, r.left = some g → ∃ zs, g = .ofList zs

theorem Spec.Reader.run_calm (xs : List α) (w : W) (ops : List ReadOp) : ∀ (rs : List (Reader W α)) (r : Outcome W (List (ReadRet α × W))),
    (∀ q ∈ rs, q.Calm) → Reader.run (.ofList xs) rs w ops = some r → ∃ l, r = .ok l w ∧ ∀ a ∈ l, a.2 = w := by
  have hx : Reader.Calm (⟨[], some (.ofList xs)⟩ : Reader W α) := by rintro g ⟨⟩; exact ⟨xs, rfl⟩
  have hn : ∀ ys, Reader.Calm (⟨ys, none⟩ : Reader W α) := by rintro ys g ⟨⟩
  have hset : ∀ {rs : List (Reader W α)} {i q}, (∀ q ∈ rs, q.Calm) → q.Calm → ∀ q' ∈ rs.set i q, q'.Calm := by
    intro rs i q h hq q' hm
    rcases List.mem_or_eq_of_mem_set hm with h1 | rfl
    · exact h _ h1
    · exact hq
  have hstep : ∀ (rs : List (Reader W α)) op, (∀ q ∈ rs, q.Calm) →
      match Reader.step (.ofList xs) rs w op with
      | none => True
      | some (.ok _ (rs', w')) => w' = w ∧ ∀ q ∈ rs', q.Calm
      | some (.err _) => False
      | some .fault => False := by
    intro rs op h
    cases op with
    | create =>
      refine ⟨rfl, fun q hq => ?_⟩
      rcases List.mem_append.mp hq with h1 | h1
      · exact h q h1
      · obtain rfl : q = _ := by simpa using h1
        exact hx
    | clone i =>
      rw [Reader.step]
      cases hr : rs[i]? with
      | none => trivial
      | some r =>
        refine ⟨rfl, fun q hq => ?_⟩
        rcases List.mem_append.mp hq with h1 | h1
        · exact h q h1
        · obtain rfl : q = r := by simpa using h1
          exact h q (List.mem_of_getElem? hr)
    | next i =>
      rw [Reader.step]
      cases hr : rs[i]? with
      | none => trivial
      | some r =>
        have hq := h r (List.mem_of_getElem? hr)
        obtain ⟨ys, _ | g⟩ := r
        · trivial
        · obtain ⟨zs, rfl⟩ := hq g rfl
          cases zs with
          | nil => exact ⟨rfl, hset h (hn ys)⟩
          | cons z zs => exact ⟨rfl, hset h (by rintro g ⟨⟩; exact ⟨zs, rfl⟩)⟩
    | current i =>
      rw [Reader.step]
      cases hr : rs[i]? with
      | none => trivial
      | some r =>
        obtain ⟨ys, _ | g⟩ := r
        · trivial
        · simp only
          cases ys.getLast? with
          | none => trivial
          | some y => exact ⟨rfl, h⟩
    | index i =>
      rw [Reader.step]
      cases hr : rs[i]? with
      | none => trivial
      | some r =>
        obtain ⟨_ | ⟨y, ys⟩, _ | g⟩ := r
        · trivial
        · trivial
        · trivial
        · exact ⟨rfl, h⟩
    | reset i =>
      rw [Reader.step]
      cases hr : rs[i]? with
      | none => trivial
      | some r => exact ⟨rfl, hset h hx⟩
  induction ops with
  | nil => intro rs r _ hr; exact ⟨[], by simpa [Reader.run] using hr.symm, by simp⟩
  | cons op ops ih =>
    intro rs r h hr
    have := hstep rs op h
    rw [Reader.run] at hr
    revert this hr
    match Reader.step (.ofList xs) rs w op with
    | none => simp
    | some (.err _) => simp
    | some .fault => simp
    | some (.ok x (rs', w')) =>
      rintro hr ⟨rfl, h'⟩
      simp only at hr
      cases hq : Reader.run (.ofList xs) rs' w' ops with
      | none => rw [hq] at hr; simp at hr
      | some q =>
        obtain ⟨l, rfl, hl⟩ := ih rs' q h' hq
        rw [hq] at hr
        refine ⟨(x, w') :: l, by simpa using hr.symm, ?_⟩
        intro a ha
        rcases List.mem_cons.mp ha with rfl | ha
        · rfl
        · exact hl a ha

/-- If `Evaluated` says that everything is evaluated, nothing is called any more, whatever is done with the list. -/
theorem C86_evaluated_partial (p : CallPipe W α) (hp : p.Ok) (w w' : W) (L : CallList W α) (hb : p.build w = some (.ok L w'))
    (he : L.A.evaluated = true) :
    ∃ xs, ∀ w2, L.toList w2 = some (.ok xs w2) ∧
      ∀ (ops : List ReadOp) (r : Outcome W (List (ReadRet α × W))), Reader.run (.ofList xs) [] w2 ops = some r →
        L.run [] w2 ops = some r ∧ ∃ l, r = .ok l w2 ∧ ∀ a ∈ l, a.2 = w2 := by
  have hm := p.build_makes hp w
  revert hm
  cases p.meaning w with
  | fault => intro hm; simp [CallList.Makes, hb] at hm
  | err w1 => intro hm; simp [CallList.Makes, hb] at hm
  | ok g w1 =>
    rintro ⟨L', e, hL⟩
    rw [hb] at e
    obtain ⟨rfl, rfl⟩ : L = L' ∧ w' = w1 := by simpa using e
    have hL' := hL
    obtain ⟨i0, c, hr, h1, h2⟩ := hL
    obtain ⟨xs, rfl⟩ := h2 he
    refine ⟨xs, fun w2 => ⟨by rw [hL'.toList, Gen.ofList_collect], fun ops r hr => ⟨hL'.run w2 ops r hr, ?_⟩⟩⟩
    exact Reader.run_calm xs w2 ops [] r (by simp) hr

/-! ## What is called for which elements

The world is a log of the elements for which a function was called. -/

/-- a function that logs its argument -/
def Spec.tracked (f : α → β) : α → Cpp (List α) β := fun x log => .ok (f x) (log ++ [x])

open Spec (tracked)

theorem take_map_tracked_collect (f : α → β) (m : Nat) (xs : List α) (log : List α) :
    (Gen.take m (Gen.map (tracked f) (.ofList xs))).collect log = .ok ((xs.take m).map f) (log ++ xs.take m) := by
  have : ∀ (m : Nat) (xs : List α) (acc : List β) (log : List α),
      (Gen.take m (Gen.map (tracked f) (.ofList xs))).foldM (fun l x => Cpp.pure' (l ++ [x])) acc log =
        .ok (acc ++ (xs.take m).map f) (log ++ xs.take m) := by
    intro m
    induction m with
    | zero => intro xs acc log; rw [Gen.take_zero]; simp [Gen.foldM]
    | succ m ih =>
      intro xs acc log
      cases xs with
      | nil => simp [Gen.ofList, Gen.map, Gen.take, Gen.foldM]
      | cons x xs =>
        simp only [Gen.ofList, Gen.map, Gen.take, Gen.foldM, tracked, Cpp.pure'_apply]
        rw [ih]
        simp
  exact this m xs [] log

theorem map_tracked_collect (f : α → β) (xs : List α) (log : List α) :
    (Gen.map (tracked f) (.ofList xs)).collect log = .ok (xs.map f) (log ++ xs) := by
  have : ∀ (xs : List α) (acc : List β) (log : List α),
      (Gen.map (tracked f) (.ofList xs)).foldM (fun l x => Cpp.pure' (l ++ [x])) acc log = .ok (acc ++ xs.map f) (log ++ xs) := by
    intro xs
    induction xs with
    | nil => intro acc log; simp [Gen.ofList, Gen.map, Gen.foldM]
    | cons x xs ih =>
      intro acc log
      simp only [Gen.ofList, Gen.map, Gen.foldM, tracked, Cpp.pure'_apply]
      rw [ih]
      simp
  exact this xs [] log

/-- `Select(f).Take(n)`: making it calls nothing; computing all elements calls `f` for the first `n` elements, once each. -/
theorem C86_select_take (xs : List α) (f : α → β) (n : Int) (log : List α) :
    ∃ L, (CallPipe.take (.select (.list xs) (tracked f)) n).build log = some (.ok L log) ∧
      ∀ log2, L.toList log2 = some (.ok ((xs.take n.toNat).map f) (log2 ++ xs.take n.toNat)) := by
  have hp : (CallPipe.take (.select (.list xs) (tracked f)) n).Ok := ⟨trivial, .inr trivial⟩
  obtain ⟨L, e⟩ := C86_lazy_partial _ hp trivial log
  refine ⟨L, e, fun log2 => ?_⟩
  have h := (C86_consumers_partial _ hp log log _ L rfl e log2).2.2.2.2.2.2.2.2.2.2.1
  rw [h]
  congr 1
  exact take_map_tracked_collect f n.toNat xs log2

/-- `Where(t).First()`: `t` is called up to the first element that passes. -/
theorem C86_where_first (xs : List α) (t : α → Bool) (log : List α) :
    ∃ L, (CallPipe.where' (.list xs) (tracked t)).build log = some (.ok L log) ∧
      ∀ log2, L.first log2 = some (match xs.dropWhile (fun x => !t x) with
        | [] => .err (log2 ++ xs)
        | x :: _ => .ok x (log2 ++ xs.takeWhile (fun x => !t x) ++ [x])) := by
  have hp : (CallPipe.where' (.list xs) (tracked t)).Ok := trivial
  obtain ⟨L, e⟩ := C86_lazy_partial _ hp trivial log
  refine ⟨L, e, fun log2 => ?_⟩
  have h := (C86_consumers_partial _ hp log log _ L rfl e log2).2.2.2.2.1
  rw [h]
  congr 1
  clear h e L hp
  show (Gen.filter (tracked t) (.ofList xs)).first log2 = _
  induction xs generalizing log2 with
  | nil => simp [Gen.ofList, Gen.filter, Gen.first, Cpp.bind', Gen.pull, Gen.throw]
  | cons x xs ih =>
    simp only [Gen.ofList, Gen.filter, Gen.first, Cpp.bind', Gen.pull, tracked]
    cases hx : t x with
    | true => simp [Gen.pull, hx]
    | false =>
      have := ih (log2 ++ [x])
      simp only [Gen.first, Cpp.bind'] at this
      simp only [cond_false, List.dropWhile_cons, hx, Bool.not_false, if_true, List.takeWhile_cons]
      rw [this]
      cases List.dropWhile (fun x => !t x) xs <;> simp

/-- `All(t)` calls `t` for each element, even after one that does not pass. -/
theorem C86_all (xs : List α) (t : α → Bool) (log : List α) :
    ∃ L : CallList (List α) α, (CallPipe.list xs).build log = some (.ok L log) ∧
      ∀ log2, L.all (tracked t) log2 = some (.ok (xs.all t) (log2 ++ xs)) := by
  have hp : (CallPipe.list xs : CallPipe (List α) α).Ok := trivial
  obtain ⟨L, e⟩ := C86_lazy_partial _ hp trivial log
  refine ⟨L, e, fun log2 => ?_⟩
  rw [(C86_consumers_partial _ hp log log _ L rfl e log2).2.2.1]
  rw [Cpp.bind', map_tracked_collect]
  simp [List.all_map]

/-- Copying `Select(f)` to an array calls `f` twice for each element. -/
theorem C86_array_calls_twice_violated (xs : List α) (f : α → β) (log : List α) :
    ∃ L, (CallPipe.select (.list xs) (tracked f)).build log = some (.ok L log) ∧
      ∀ old d log2, L.toArray old d log2 = some (.ok (xs.map f) (log2 ++ xs ++ xs)) := by
  have hp : (CallPipe.select (.list xs) (tracked f)).Ok := trivial
  obtain ⟨L, e⟩ := C86_lazy_partial _ hp trivial log
  refine ⟨L, e, fun old d log2 => ?_⟩
  rw [(C86_consumers_partial _ hp log log _ L rfl e log2).2.2.2.2.2.2.2.2.2.2.2 old d]
  rw [Gen.twice, Cpp.bind', map_tracked_collect]
  simp only
  rw [Cpp.bind', take_map_tracked_collect]
  simp only [List.length_map]
  rw [List.take_of_length_le (by omega), if_pos (by simp)]
  simp
  omega

/-! ## Examples -/

/-- logs its argument, throws for 3 -/
def Spec.moody (x : Nat) : Cpp (List Nat) Nat := fun log => if x = 3 then .err (log ++ [x]) else .ok (x * 10) (log ++ [x])

open Spec (moody)

/-- Two enumerators in turn, an exception in between, and `Reset` after the exception. -/
example : ∃ L, (CallPipe.select (.list [1, 2, 3, 4]) moody).build [] = some (.ok L []) ∧
    L.run [] [] [.create, .next 0, .current 0, .clone 0, .next 1, .next 1, .reset 1, .next 1, .current 1, .next 0, .index 0] =
      some (.ok [(.done, []), (.flag true, [1]), (.item 10, [1]), (.done, [1]), (.flag true, [1, 2]), (.threw, [1, 2, 3]),
        (.done, [1, 2, 3]), (.flag true, [1, 2, 3, 1]), (.item 10, [1, 2, 3, 1]), (.flag true, [1, 2, 3, 1, 2]),
        (.index 1, [1, 2, 3, 1, 2])] [1, 2, 3, 1, 2]) := by
  have hp : (CallPipe.select (.list [1, 2, 3, 4]) moody).Ok := trivial
  obtain ⟨L, e, h⟩ := C86_calls_partial _ hp []
  exact ⟨L, e, h [] _ _ rfl⟩

/-- `Reverse` computes everything at once, an exception comes out of it. -/
example : (CallPipe.reverse (.select (.list [1, 2, 3, 4]) moody)).build [] = some (.err [1, 2, 3]) := by
  have hp : (CallPipe.reverse (.select (.list [1, 2, 3, 4]) moody)).Ok := trivial
  exact C86_calls_partial _ hp []

/-- `Skip` computes the skipped elements, but not before the first element is wanted; `Pairwise` has computed an element of the first
sequence when the second one ends. -/
example : ∃ L, (CallPipe.pairwise (.skip (.select (.list [1, 2, 4, 5, 6]) moody) 1) (.list [7, 8])).build [] = some (.ok L []) ∧
    L.toList [] = some (.ok [(20, 7), (40, 8)] [1, 2, 4, 5]) := by
  have hp : (CallPipe.pairwise (.skip (.select (.list [1, 2, 4, 5, 6]) moody) 1) (.list [7, 8])).Ok := ⟨⟨trivial, by decide⟩, trivial⟩
  obtain ⟨L, e⟩ := C86_lazy_partial _ hp ⟨trivial, trivial⟩ []
  exact ⟨L, e, (C86_consumers_partial _ hp [] [] _ L rfl e []).2.2.2.2.2.2.2.2.2.2.1⟩

/-- A function that gives less each time it is called: the number of elements found in the first round is wrong in the second one. -/
example : ∃ L, (CallPipe.where' (.list [1, 2, 3]) (fun x (n : Nat) => .ok (n < 4) (n + x))).build 0 = some (.ok L 0) ∧
    L.count 0 = some (.ok 3 6) ∧ L.toArray [] 9 0 = some (.ok [9, 9, 9] 12) := by
  have hp : (CallPipe.where' (.list [1, 2, 3]) (fun x (n : Nat) => .ok (n < 4) (n + x))).Ok := trivial
  obtain ⟨L, e⟩ := C86_lazy_partial _ hp trivial 0
  have h := C86_consumers_partial _ hp 0 0 _ L rfl e 0
  exact ⟨L, e, h.2.2.2.2.2.2.2.2.1, h.2.2.2.2.2.2.2.2.2.2.2 [] 9⟩

/-- More elements in the second round: an Error. -/
example : ∃ L, (CallPipe.where' (.list [1, 2, 3]) (fun x (n : Nat) => .ok (decide (3 < n)) (n + x))).build 0 = some (.ok L 0) ∧
    L.count 0 = some (.ok 0 6) ∧ L.toArray [] 9 0 = some (.err 7) := by
  have hp : (CallPipe.where' (.list [1, 2, 3]) (fun x (n : Nat) => .ok (decide (3 < n)) (n + x))).Ok := trivial
  obtain ⟨L, e⟩ := C86_lazy_partial _ hp trivial 0
  have h := C86_consumers_partial _ hp 0 0 _ L rfl e 0
  exact ⟨L, e, h.2.2.2.2.2.2.2.2.1, h.2.2.2.2.2.2.2.2.2.2.2 [] 9⟩

end Vlpp
