import Verif.Model.Iter

/-!
# C154: iterators visit the items of the list

What a loop has to do is said with a plain fold over a plain list (`visit`); the items of `Range(from, to)` are those of
`part`.
-/

namespace Claw.Iter

open Claw

variable {σ α : Type}

/-! ### Specification -/

/-- Do the body for one item after the other until it stops. -/
def visit (body : σ → α → σ × Bool) (l : List α) (s : σ) : σ :=
  (l.foldl (fun (r : σ × Bool) v => if r.2 then body r.1 v else r) (s, true)).1

/-- The items with an index from `lo` to before `hi`. -/
def part (lo hi : Int) (l : List α) : List α := (l.take hi.toNat).drop lo.toNat

/-- The body leaves the list as it is. -/
def Keeps (items : σ → List α) (body : σ → α → σ × Bool) : Prop := ∀ s v, items (body s v).1 = items s

/-! ### Loops -/

theorem stopped (body : σ → α → σ × Bool) (l : List α) (s : σ) :
    l.foldl (fun (r : σ × Bool) v => if r.2 then body r.1 v else r) (s, false) = (s, false) := by
  induction l with
  | nil => rfl
  | cons v l ih => simpa using ih

theorem visit_cons (body : σ → α → σ × Bool) (v : α) (l : List α) (s : σ) :
    visit body (v :: l) s = if (body s v).2 then visit body l (body s v).1 else (body s v).1 := by
  unfold visit
  simp only [List.foldl_cons, if_true]
  rcases hb : body s v with ⟨s', go⟩
  cases go
  · simp [stopped]
  · simp

theorem slice_visit (body : σ → α → σ × Bool) (l : List α) (s : σ) : sliceLoop body l s = visit body l s := by
  induction l generalizing s with
  | nil => rfl
  | cons v l ih =>
    rw [visit_cons]
    unfold sliceLoop
    simp only [ih]

theorem range_visit (items : σ → List α) (body : σ → α → σ × Bool) (hk : Keeps items body) :
    ∀ (n i : Nat) (s : σ), i + n ≤ (items s).length →
      rangeLoop items body n i s = .ok (visit body (((items s).take (i + n)).drop i) s) := by
  intro n
  induction n with
  | zero =>
    intro i s _
    have : ((items s).take (i + 0)).drop i = [] := by simp
    rw [this]
    rfl
  | succ n ih =>
    intro i s h
    have hi : i < (items s).length := by omega
    have he : ((items s).take (i + (n + 1))).drop i = (items s)[i] :: ((items s).take (i + 1 + n)).drop (i + 1) := by
      rw [List.drop_eq_getElem_cons (by simp; omega)]
      simp [Nat.add_assoc, Nat.add_comm 1 n]
    rw [he, visit_cons]
    unfold rangeLoop
    simp only [List.getElem?_eq_getElem hi]
    split
    · rw [ih (i + 1) _ (by rw [hk]; omega), hk]
    · rfl

theorem part_clamp (lo hi : Int) (l : List α) :
    let it := It.clamp ⟨lo, hi⟩ l.length
    (l.take (it.lo.toNat + (it.hi - it.lo).toNat)).drop it.lo.toNat = part lo hi l := by
  intro it
  have h1 : it.lo.toNat = lo.toNat := by simp only [it, It.clamp]; split <;> omega
  have h0 : 0 ≤ it.lo := by simp only [it, It.clamp]; split <;> omega
  have h2 : it.hi.toNat = min hi.toNat l.length := by simp only [it, It.clamp]; split <;> omega
  unfold part
  rw [h1]
  by_cases hc : it.lo ≤ it.hi
  · have : lo.toNat + (it.hi - it.lo).toNat = min hi.toNat l.length := by omega
    rw [this]
    congr 1
    rw [← List.take_take]
    simp
  · have : (it.hi - it.lo).toNat = 0 := by omega
    rw [this]
    have a : (l.take (lo.toNat + 0)).drop lo.toNat = [] := by simp
    have b : (l.take hi.toNat).drop lo.toNat = [] := by
      apply List.drop_eq_nil_of_le
      simp
      omega
    rw [a, b]

/-- **C154, Range.** For every list, all bounds and every body that leaves the list as it is: a new iterator visits the
items with an index in the bounds that the list has, in order, until the body stops, and does not panic. -/
theorem C154_range (items : σ → List α) (body : σ → α → σ × Bool) (hk : Keeps items body) (lo hi : Int) (s : σ) :
    (useRange items body ⟨lo, hi⟩ s).2 = .ok (visit body (part lo hi (items s)) s) := by
  unfold useRange
  dsimp only
  have hp := part_clamp lo hi (items s)
  dsimp only at hp
  by_cases hc : (It.clamp ⟨lo, hi⟩ (items s).length).lo ≤ (It.clamp ⟨lo, hi⟩ (items s).length).hi
  · rw [range_visit items body hk _ _ s (by
      simp only [It.clamp] at hc ⊢
      split at hc <;> split at hc <;> simp_all <;> omega), hp]
  · have h0 : ((It.clamp ⟨lo, hi⟩ (items s).length).hi - (It.clamp ⟨lo, hi⟩ (items s).length).lo).toNat = 0 := by omega
    rw [h0] at hp ⊢
    rw [← hp]
    have : ((items s).take ((It.clamp ⟨lo, hi⟩ (items s).length).lo.toNat + 0)).drop
      (It.clamp ⟨lo, hi⟩ (items s).length).lo.toNat = [] := by simp
    rw [this]
    rfl

/-- **C154, All.** For every list and body that leaves the list as it is: all items are visited in order until the body
stops; for lists of numbers after at most one step more than the list has items. -/
theorem C154_all (items : σ → List α) (body : σ → α → σ × Bool) (hk : Keeps items body) (s : σ) :
    useAll items body s = visit body (items s) s ∧
      numAll items body ((items s).length + 1) 0 s = some (visit body (items s) s) := by
  refine ⟨slice_visit body _ s, ?_⟩
  have : ∀ (n i : Nat) (s : σ), i + n = (items s).length →
      numAll items body (n + 1) i s = some (visit body ((items s).drop i) s) := by
    intro n
    induction n with
    | zero =>
      intro i s h
      unfold numAll
      rw [List.getElem?_eq_none (by omega), List.drop_eq_nil_of_le (by omega)]
      rfl
    | succ n ih =>
      intro i s h
      have hi : i < (items s).length := by omega
      rw [List.drop_eq_getElem_cons hi, visit_cons]
      unfold numAll
      simp only [List.getElem?_eq_getElem hi]
      split
      · rw [ih (i + 1) _ (by rw [hk]; omega), hk]
      · rfl
  simpa using this (items s).length 0 s (by omega)

/-- **C154, using an iterator again, exactly.** For all lists and bounds: the second use visits the items in the bounds, as
far as the list went at the first use. -/
theorem C154_again (items : σ → List α) (body body' : σ → α → σ × Bool) (hk' : Keeps items body') (lo hi : Int) (s s' : σ) :
    (useRange items body' (useRange items body ⟨lo, hi⟩ s).1 s').2 =
      .ok (visit body' (part lo (min hi (items s).length) (items s')) s') := by
  have : (useRange items body ⟨lo, hi⟩ s).1 = It.clamp ⟨lo, hi⟩ (items s).length := rfl
  rw [this]
  rw [show It.clamp ⟨lo, hi⟩ (items s).length = ⟨(It.clamp ⟨lo, hi⟩ (items s).length).lo,
    (It.clamp ⟨lo, hi⟩ (items s).length).hi⟩ from rfl, C154_range items body' hk']
  congr 2
  have h1 : (It.clamp ⟨lo, hi⟩ (items s).length).lo.toNat = lo.toNat := by simp only [It.clamp]; split <;> omega
  have h2 : (It.clamp ⟨lo, hi⟩ (items s).length).hi.toNat = (min hi (items s).length).toNat := by
    simp only [It.clamp]; split <;> omega
  unfold part
  rw [h1, h2]

/-- **C154, using an iterator again.** For every list and bounds, and bodies that leave the list as it is: if the list has
not become longer in between, the second use visits what a new iterator does. Missing: lists that have become longer,
for which it is false (`C154_used_iterator_is_short`). -/
theorem C154_again_partial (items : σ → List α) (body body' : σ → α → σ × Bool) (hk' : Keeps items body')
    (lo hi : Int) (s s' : σ) (hlen : (items s').length ≤ (items s).length) :
    (useRange items body' (useRange items body ⟨lo, hi⟩ s).1 s').2 = .ok (visit body' (part lo hi (items s')) s') := by
  rw [C154_again items body body' hk']
  congr 2
  have h : (min hi ((items s).length : Int)).toNat = min hi.toNat (items s).length := by omega
  unfold part
  rw [h, ← List.take_take, List.take_of_length_le hlen]

/-- **C154, bodies that change the list.** For every iterator, used before or not, and every body that never makes the list
shorter: the loop over Range does not panic. -/
theorem C154_growing_never_panics (items : σ → List α) (body : σ → α → σ × Bool)
    (hg : ∀ s v, (items s).length ≤ (items (body s v).1).length) (it : It) (s : σ) :
    (useRange items body it s).2 ≠ .panic := by
  have key : ∀ (n i : Nat) (s : σ), (n ≠ 0 → i + n ≤ (items s).length) → rangeLoop items body n i s ≠ .panic := by
    intro n
    induction n with
    | zero => intro i s _ h; cases h
    | succ n ih =>
      intro i s h
      have h := h (by omega)
      unfold rangeLoop
      simp only [List.getElem?_eq_getElem (show i < (items s).length by omega)]
      split
      · exact ih _ _ (fun _ => by have := hg s (items s)[i]; omega)
      · intro h; cases h
  unfold useRange
  dsimp only
  apply key
  intro hn
  have h0 : 0 ≤ (it.clamp (items s).length).lo := by simp only [It.clamp]; split <;> omega
  have h1 : (it.clamp (items s).length).hi ≤ (items s).length := by simp only [It.clamp]; split <;> omega
  omega

/-- A program with the list and what it has seen. -/
def see (s : List α × List α) (v : α) : (List α × List α) × Bool := ((s.1, s.2 ++ [v]), true)

theorem see_keeps : Keeps (σ := List α × List α) (·.1) see := fun _ _ => rfl

theorem visit_see (l : List α) (s : List α × List α) : visit see l s = (s.1, s.2 ++ l) := by
  induction l generalizing s with
  | nil => simp [visit]
  | cons v l ih => rw [visit_cons, ih]; simp [see]

/-- **C154, refuted (1): an iterator that has been used does not see items appended since.** For every list and items to
append: with the bounds of the longer list, the second use visits the old items only, and a new iterator all. -/
theorem C154_used_iterator_is_short (l more : List α) :
    let it : It := ⟨0, (l ++ more).length⟩
    (useRange (·.1) see (useRange (·.1) see it (l, ([] : List α))).1 (l ++ more, [])).2 = .ok (l ++ more, l) ∧
      (useRange (·.1) see it (l ++ more, ([] : List α))).2 = .ok (l ++ more, l ++ more) := by
  intro it
  constructor
  · have : (useRange (·.1) see it (l, ([] : List α))).1 = ⟨0, l.length⟩ := by
      simp only [useRange, It.clamp, it, List.length_append]
      congr 1
      split <;> omega
    rw [this, C154_range _ _ see_keeps, visit_see]
    simp [part]
  · rw [C154_range _ _ see_keeps, visit_see]
    have : ((l ++ more).length : Int).toNat = (l ++ more).length := by omega
    simp only [part, this, List.take_length]
    simp

/-- **C154, refuted (2): a loop over Range panics when the body empties the list.** For every list of two items or more;
`All` goes on with the items there were. -/
theorem C154_shrinking_panics (a b : α) (l : List α) :
    (useRange (σ := List α × List α) (·.1) (fun s v => (([], s.2 ++ [v]), true)) ⟨0, (a :: b :: l).length⟩
      (a :: b :: l, [])).2 = .panic ∧
    (useAll (σ := List α × List α) (·.1) (fun s v => (([], s.2 ++ [v]), true)) (a :: b :: l, [])).2 = a :: b :: l := by
  constructor
  · have h : (((a :: b :: l).length : Int) - 0).toNat = l.length + 1 + 1 := by simp; omega
    simp only [useRange, It.clamp]
    rw [if_neg (by omega), if_neg (by omega), h]
    simp [rangeLoop]
  · have : ∀ (l : List α) (s : List α × List α),
        (sliceLoop (fun (s : List α × List α) v => ((([] : List α), s.2 ++ [v]), true)) l s).2 = s.2 ++ l := by
      intro l
      induction l with
      | nil => simp [sliceLoop]
      | cons v l ih => intro s; simp [sliceLoop, ih]
    simpa [useAll] using this (a :: b :: l) (a :: b :: l, [])

/-- **C154, refuted (3): a loop over All of numbers whose body appends does not end.** For every list that is not empty and
any number of steps; over other lists it ends after the items there were. -/
theorem C154_append_forever (l : List α) (hl : l ≠ []) (n : Nat) :
    numAll (σ := List α) id (fun s v => (s ++ [v], true)) n 0 l = none ∧
    useAll (σ := List α) id (fun s v => (s ++ [v], true)) l = l ++ l := by
  constructor
  · have : ∀ (n i : Nat) (s : List α), i < s.length →
        numAll (σ := List α) id (fun s v => (s ++ [v], true)) n i s = none := by
      intro n
      induction n with
      | zero => intros; rfl
      | succ n ih =>
        intro i s h
        unfold numAll
        simp only [id_eq, List.getElem?_eq_getElem h, if_true]
        exact ih (i + 1) _ (by simp; omega)
    exact this n 0 l (List.length_pos_iff.mpr hl)
  · have : ∀ (m s : List α), sliceLoop (fun (s : List α) v => (s ++ [v], true)) m s = s ++ m := by
      intro m
      induction m with
      | nil => simp [sliceLoop]
      | cons v m ih => intro s; simp [sliceLoop, ih]
    simpa [useAll] using this l l

/-! ### Concrete cases -/

example : (useRange (·.1) see ⟨-2, 2⟩ ([10, 20, 30], ([] : List Nat))).2 = .ok ([10, 20, 30], [10, 20]) := by
  rw [C154_range _ _ see_keeps, visit_see]; rfl
example : (useRange (·.1) see ⟨2, 9⟩ ([10, 20, 30], ([] : List Nat))).2 = .ok ([10, 20, 30], [30]) := by
  rw [C154_range _ _ see_keeps, visit_see]; rfl
example : useAll (·.1) see ([10, 20], ([] : List Nat)) = ([10, 20], [10, 20]) := by
  rw [(C154_all _ _ see_keeps _).1, visit_see]; rfl
/-- A body that stops at the first item. -/
example : (useRange (σ := List Nat × Nat) (·.1) (fun s v => ((s.1, v), false)) ⟨1, 3⟩ ([10, 20, 30], 0)).2 =
    .ok ([10, 20, 30], 20) := by rw [C154_range _ _ (fun _ _ => rfl)]; rfl
/-- Used again on a shorter list. -/
example : (useRange (·.1) see (useRange (·.1) see ⟨0, 9⟩ ([1, 2, 3], ([] : List Nat))).1 ([4, 5], [])).2 =
    .ok ([4, 5], [4, 5]) := by
  rw [C154_again_partial _ _ _ see_keeps _ _ _ _ (by decide), visit_see]; rfl
/-- Three items, two appended. -/
example : (useRange (·.1) see (useRange (·.1) see ⟨0, 5⟩ ([1, 2, 3], ([] : List Nat))).1 ([1, 2, 3, 4, 5], [])).2 =
    .ok ([1, 2, 3, 4, 5], [1, 2, 3]) := (C154_used_iterator_is_short [1, 2, 3] [4, 5]).1

/-- A body that appends to the list it goes over. -/
example : (useRange (σ := List Nat) id (fun s v => (s ++ [v], true)) ⟨0, 9⟩ [1, 2]).2 ≠ .panic :=
  C154_growing_never_panics id _ (fun s v => by simp) _ _
example : (useRange (σ := List Nat) id (fun s v => (s ++ [v], true)) ⟨0, 9⟩ [1, 2]).2 = .ok [1, 2, 1, 2] := by decide +kernel

end Claw.Iter
