import Verif.Model.Balancer

/-!
# C33 Balancers always pick an offered connection and are fair

Fairness is stated for a window of consecutive picks, as a permutation: the picks of the window
are the candidates, each as often as it should be.  The counter wraps after `2^64` picks; a
window is fair if it does not contain the wrap, or if the cycle length divides `2^64`.
-/

namespace Claw.Balancer

/-- The window of `k` picks from counter `c` on is not disturbed by the wrap for cycles of
length `n`. -/
def Smooth (c k n : Nat) : Prop := c + k ≤ 2 ^ 64 ∨ n ∣ 2 ^ 64

/-! ## Cycling through a list -/

theorem cycle_perm {α : Type} (l : List α) (b : Nat) (hl : l.length ≠ 0) :
    ((List.range l.length).map fun i => l[(b + i) % l.length]?).Perm (l.map some) := by
  have hn : 0 < l.length := by omega
  have hr : b % l.length < l.length := Nat.mod_lt _ hn
  have heq : ((List.range l.length).map fun i => l[(b + i) % l.length]?) =
      (l.drop (b % l.length) ++ l.take (b % l.length)).map some := by
    apply List.ext_getElem?
    intro i
    simp only [List.getElem?_map, List.getElem?_range', List.getElem?_append, List.length_drop]
    by_cases hi : i < l.length
    · rw [List.getElem?_range hi]
      simp only [Option.map_some]
      have hmod : (b + i) % l.length = (b % l.length + i) % l.length := by
        rw [Nat.add_mod, Nat.mod_eq_of_lt hi]
      rw [hmod]
      by_cases h1 : i < l.length - b % l.length
      · rw [if_pos h1, Nat.mod_eq_of_lt (by omega), List.getElem?_drop]
        rw [List.getElem?_eq_getElem (show b % l.length + i < l.length by omega)]
        rfl
      · rw [if_neg h1]
        have h2 : (b % l.length + i) % l.length = b % l.length + i - l.length := by
          rw [Nat.mod_eq_sub_mod (by omega), Nat.mod_eq_of_lt (by omega)]
        rw [h2, List.getElem?_take]
        rw [if_pos (by omega)]
        rw [show i - (l.length - b % l.length) = b % l.length + i - l.length by omega]
        rw [List.getElem?_eq_getElem (show b % l.length + i - l.length < l.length by omega)]
        rfl
    · rw [List.getElem?_eq_none (by simpa using hi)]
      rw [if_neg (by omega), List.getElem?_eq_none (by simp; omega)]
      rfl
  rw [heq]
  exact ((List.perm_append_comm).trans (by rw [List.take_append_drop])).map some

theorem cycles_perm {α : Type} (l : List α) (hl : l.length ≠ 0) (k : Nat) : ∀ b : Nat,
    ((List.range (k * l.length)).map fun i => l[(b + i) % l.length]?).Perm
      ((List.replicate k l).flatten.map some) := by
  induction k with
  | zero => intro b; simp
  | succ k ih =>
    intro b
    have h1 : (k + 1) * l.length = l.length + k * l.length := by rw [Nat.succ_mul]; omega
    rw [h1, List.range_add, List.map_append, List.replicate_succ, List.flatten_cons,
      List.map_append]
    apply List.Perm.append (cycle_perm l b hl)
    have := ih (b + l.length)
    simp only [List.map_map]
    simpa [Function.comp_def, Nat.add_assoc] using this

theorem picks_eq {α : Type} (pick : Nat → Nat × Option α)
    (h1 : ∀ c, (pick c).1 = add1 c) (k : Nat) :
    ∀ c, c < 2 ^ 64 → picks pick c k = (List.range k).map fun i => (pick ((c + i) % 2 ^ 64)).2 := by
  induction k with
  | zero => intro c _; rfl
  | succ k ih =>
    intro c hc
    rw [List.range_succ_eq_map, List.map_cons, List.map_map]
    simp only [picks, Nat.add_zero, Nat.mod_eq_of_lt hc]
    congr 1
    rw [h1 c, ih (add1 c) (Nat.mod_lt _ (by decide))]
    apply List.map_congr_left
    intro i _
    simp only [Function.comp_apply, add1]
    congr 2
    rw [Nat.mod_add_mod]
    congr 1
    omega

theorem smooth_mod {c k n i : Nat} (h : Smooth c k n) (hi : i < k) :
    (c + i) % 2 ^ 64 % n = (c + i) % n := by
  rcases h with h | h
  · rw [Nat.mod_eq_of_lt (show c + i < 2 ^ 64 by omega)]
  · exact Nat.mod_mod_of_dvd _ h

theorem add1_window (c i : Nat) : add1 ((c + i) % 2 ^ 64) = (c + 1 + i) % 2 ^ 64 := by
  unfold add1
  rw [Nat.mod_add_mod, Nat.add_right_comm]

theorem back1 {c : Nat} (hc : c < 2 ^ 64) : (add1 c + (2 ^ 64 - 1)) % 2 ^ 64 = c := by
  unfold add1
  omega

/-! ## Every pick is a candidate -/

theorem getElem?_mod_isSome {α : Type} (l : List α) (h : l.length ≠ 0) (i : Nat) :
    ∃ a ∈ l, l[i % l.length]? = some a := by
  have hi : i % l.length < l.length := Nat.mod_lt _ (by omega)
  exact ⟨l[i % l.length], List.getElem_mem _, List.getElem?_eq_getElem hi⟩

/-- The smallest priority is reached, and is a lower bound. -/
theorem minPriority_spec {α : Type} (prio : α → Nat) (as : List α) (m : Nat) :
    minPriority prio m as ≤ m ∧ (∀ a ∈ as, minPriority prio m as ≤ prio a) ∧
    (minPriority prio m as = m ∨ ∃ a ∈ as, prio a = minPriority prio m as) := by
  induction as generalizing m with
  | nil => simp [minPriority]
  | cons a as ih =>
    simp only [minPriority]
    obtain ⟨h1, h2, h3⟩ := ih (if prio a < m then prio a else m)
    by_cases hc : prio a < m
    · rw [if_pos hc] at h1 h2 h3 ⊢
      refine ⟨by omega, ?_, ?_⟩
      · intro x hx
        rcases List.mem_cons.mp hx with e | e
        · subst e; exact h1
        · exact h2 x e
      · right
        rcases h3 with h3 | ⟨x, hx, h3⟩
        · exact ⟨a, by simp, h3.symm⟩
        · exact ⟨x, by simp [hx], h3⟩
    · rw [if_neg hc] at h1 h2 h3 ⊢
      refine ⟨h1, ?_, ?_⟩
      · intro x hx
        rcases List.mem_cons.mp hx with e | e
        · subst e; omega
        · exact h2 x e
      · rcases h3 with h3 | ⟨x, hx, h3⟩
        · exact Or.inl h3
        · exact Or.inr ⟨x, by simp [hx], h3⟩

/-- The candidates of minimal priority, said without the code's loop. -/
def best {α : Type} (prio : α → Nat) (l : List α) : List α :=
  l.filter fun x => l.all fun y => prio x ≤ prio y

theorem best_eq {α : Type} (prio : α → Nat) (a : α) (as : List α) :
    ((a :: as).filter fun x => prio x = minPriority prio (prio a) as) = best prio (a :: as) ∧
    best prio (a :: as) ≠ [] := by
  obtain ⟨h1, h2, h3⟩ := minPriority_spec prio as (prio a)
  have hle : ∀ y ∈ a :: as, minPriority prio (prio a) as ≤ prio y := by
    intro y hy
    rcases List.mem_cons.mp hy with e | e
    · subst e; exact h1
    · exact h2 y e
  have hex : ∃ x ∈ a :: as, prio x = minPriority prio (prio a) as := by
    rcases h3 with h3 | ⟨x, hx, h3⟩
    · exact ⟨a, by simp, h3.symm⟩
    · exact ⟨x, by simp [hx], h3⟩
  have heq : ((a :: as).filter fun x => prio x = minPriority prio (prio a) as) =
      best prio (a :: as) := by
    unfold best
    apply List.filter_congr
    intro x hx
    rw [Bool.eq_iff_iff]
    simp only [decide_eq_true_eq, List.all_eq_true]
    constructor
    · intro e y hy; rw [e]; exact hle y hy
    · intro h
      obtain ⟨z, hz, ez⟩ := hex
      have := h z hz
      have := hle x hx
      omega
  refine ⟨heq, ?_⟩
  rw [← heq]
  obtain ⟨z, hz, ez⟩ := hex
  intro hn
  have : z ∈ ((a :: as).filter fun x => prio x = minPriority prio (prio a) as) := by
    rw [List.mem_filter]; exact ⟨hz, by simpa using ez⟩
  rw [hn] at this
  cases this

theorem priorityPicker_eq {α : Type} (prio : α → Nat) (c : Nat) (l : List α) (h : l ≠ []) :
    best prio l ≠ [] ∧ priorityPicker prio c l = (add1 c,
      (best prio l)[add1 c % (best prio l).length]?) := by
  cases l with
  | nil => exact absurd rfl h
  | cons a as =>
    obtain ⟨h1, h2⟩ := best_eq prio a as
    refine ⟨h2, ?_⟩
    simp only [priorityPicker]
    rw [h1]

/-! ## Weights -/

/-- Every connection as often as its weight says, in order. -/
def expand {α : Type} (w : α → UInt32) (l : List α) : List α :=
  l.flatMap fun s => List.replicate (if w s = 0 then 1 else (w s).toNat) s

theorem weightOf_eq (w : UInt32) : weightOf w = if w = 0 then 1 else w.toNat := by
  unfold weightOf
  by_cases h : w = 0
  · subst h; rfl
  · rw [if_neg h, if_neg]
    intro e
    exact h (UInt32.toNat_inj.mp (by rw [e]; rfl))

theorem weightOf_pos (w : UInt32) : 0 < weightOf w := by unfold weightOf; split <;> omega

theorem weightOf_lt (w : UInt32) : weightOf w < 2 ^ 32 := by
  unfold weightOf; have := w.toNat_lt; split <;> omega

theorem expand_cons {α : Type} (w : α → UInt32) (s : α) (l : List α) :
    expand w (s :: l) = List.replicate (weightOf (w s)) s ++ expand w l := by
  simp [expand, weightOf_eq]

theorem expand_length_lt {α : Type} (w : α → UInt32) (l : List α) :
    (expand w l).length ≤ l.length * (2 ^ 32 - 1) := by
  induction l with
  | nil => simp [expand]
  | cons s l ih =>
    rw [expand_cons, List.length_append, List.length_replicate, List.length_cons, Nat.succ_mul]
    have := weightOf_lt (w s)
    omega

theorem totalWeight_eq {α : Type} (w : α → UInt32) (l : List α) (h : (expand w l).length < 2 ^ 64) :
    totalWeight w l = (expand w l).length := by
  have key : ∀ (l : List α) (t : Nat), t + (expand w l).length < 2 ^ 64 →
      l.foldl (fun t s => (t + weightOf (w s)) % 2 ^ 64) t = t + (expand w l).length := by
    intro l
    induction l with
    | nil => intro t _; simp [expand]
    | cons s l ih =>
      intro t ht
      rw [expand_cons, List.length_append, List.length_replicate] at ht ⊢
      rw [List.foldl_cons, Nat.mod_eq_of_lt (by omega), ih _ (by omega)]
      omega
  have := key l 0 (by omega)
  simpa [totalWeight] using this

theorem findWeighted_eq {α : Type} (w : α → UInt32) (pos : Nat) (l : List α) : ∀ cum : Nat,
    cum ≤ pos → cum + (expand w l).length < 2 ^ 64 →
    findWeighted w pos cum l = (expand w l)[pos - cum]? := by
  induction l with
  | nil => intro cum _ _; simp [findWeighted, expand]
  | cons s l ih =>
    intro cum h1 h2
    rw [expand_cons, List.length_append, List.length_replicate] at h2
    simp only [findWeighted]
    rw [Nat.mod_eq_of_lt (by omega), expand_cons]
    by_cases hp : pos < cum + weightOf (w s)
    · rw [if_pos hp, List.getElem?_append_left (by simp; omega), List.getElem?_replicate,
        if_pos (by omega)]
    · rw [if_neg hp, ih _ (by omega) (by omega), List.getElem?_append_right (by simp; omega)]
      rw [List.length_replicate]
      congr 1
      omega

theorem weighted_eq {α : Type} (w : α → UInt32) (c : Nat) (hc : c < 2 ^ 64) (l : List α)
    (hl : l ≠ []) (h : (expand w l).length < 2 ^ 64) :
    weighted w c l = .ok (add1 c, (expand w l)[c % (expand w l).length]?) ∧
    (expand w l).length ≠ 0 := by
  have hne : (expand w l).length ≠ 0 := by
    cases l with
    | nil => exact absurd rfl hl
    | cons s l =>
      rw [expand_cons, List.length_append, List.length_replicate]
      have := weightOf_pos (w s)
      omega
  refine ⟨?_, hne⟩
  have hll : ¬ l.length = 0 := fun e => hl (List.length_eq_zero_iff.mp e)
  unfold weighted
  simp only [if_neg hll, totalWeight_eq w l h, if_neg hne, back1 hc]
  rw [findWeighted_eq w _ l 0 (by omega) (by omega), Nat.sub_zero]
  obtain ⟨a, _, ha⟩ := getElem?_mod_isSome (expand w l) hne c
  rw [ha]

theorem mem_expand {α : Type} (w : α → UInt32) (l : List α) (a : α) :
    a ∈ expand w l → a ∈ l := by
  intro h
  unfold expand at h
  obtain ⟨s, hs, hm⟩ := List.mem_flatMap.mp h
  rw [List.eq_of_mem_replicate hm]
  exact hs

/-! ## The theorems -/

/-- C33: whatever the counter, every picker and balancer answers `none` for an empty list and
otherwise gives one of the candidates; the priority picker gives one of minimal priority, the
first-pickers the first. -/
theorem C33_picks_a_candidate {α : Type} (l : List α) (c : Nat) (hc : c < 2 ^ 64)
    (prio : α → Nat) (w : α → UInt32) (hlen : l.length ≤ 2 ^ 32) :
    (l = [] → (rrPicker c l).2 = none ∧ (rrBalancer c l).2 = none ∧ first l = none ∧
      (priorityPicker prio c l).2 = none ∧ weighted w c l = .ok (c, none) ∧ (random c l).2 = none) ∧
    (l ≠ [] →
      (∃ a ∈ l, (rrPicker c l).2 = some a) ∧ (∃ a ∈ l, (rrBalancer c l).2 = some a) ∧
      (∃ a ∈ l, (random c l).2 = some a) ∧ (∃ a rest, l = a :: rest ∧ first l = some a) ∧
      (∃ a ∈ l, ∃ c', weighted w c l = .ok (c', some a)) ∧
      (∃ a ∈ l, (priorityPicker prio c l).2 = some a ∧ ∀ b ∈ l, prio a ≤ prio b)) := by
  constructor
  · rintro rfl
    exact ⟨rfl, rfl, rfl, rfl, rfl, rfl⟩
  · intro hl
    have hll : ¬ l.length = 0 := fun e => hl (List.length_eq_zero_iff.mp e)
    refine ⟨?_, ?_, ?_, ?_, ?_, ?_⟩
    · simp only [rrPicker, if_neg hll]; exact getElem?_mod_isSome l hll _
    · simp only [rrBalancer, if_neg hll]; exact getElem?_mod_isSome l hll _
    · simp only [random, if_neg hll]
      split
      · have := getElem?_mod_isSome l hll 0
        simpa using this
      · exact getElem?_mod_isSome l hll _
    · cases l with
      | nil => exact absurd rfl hl
      | cons a rest => exact ⟨a, rest, rfl, rfl⟩
    · have hx := expand_length_lt w l
      have hx2 : l.length * (2 ^ 32 - 1) ≤ 2 ^ 32 * (2 ^ 32 - 1) := Nat.mul_le_mul_right _ hlen
      obtain ⟨h1, h2⟩ := weighted_eq w c hc l hl (by omega)
      obtain ⟨a, ha, e⟩ := getElem?_mod_isSome (expand w l) h2 c
      exact ⟨a, mem_expand w l a ha, add1 c, by rw [h1, e]⟩
    · obtain ⟨h1, h2⟩ := priorityPicker_eq prio c l hl
      rw [h2]
      have hb : (best prio l).length ≠ 0 := fun e => h1 (List.length_eq_zero_iff.mp e)
      obtain ⟨a, ha, e⟩ := getElem?_mod_isSome (best prio l) hb (add1 c)
      have := List.mem_filter.mp ha
      exact ⟨a, this.1, e, fun b hb => by
        have := this.2
        simp only [List.all_eq_true, decide_eq_true_eq] at this
        exact this b hb⟩

theorem cycle_of_picks {α : Type} (pick : Nat → Nat × Option α) (l : List α) (off k c : Nat)
    (hl : l.length ≠ 0) (hc : c < 2 ^ 64) (h1 : ∀ c, (pick c).1 = add1 c)
    (h2 : ∀ i, i < k * l.length → (pick ((c + i) % 2 ^ 64)).2 = l[(c + off + i) % l.length]?) :
    (picks pick c (k * l.length)).Perm ((List.replicate k l).flatten.map some) := by
  rw [picks_eq pick h1 _ c hc]
  rw [List.map_congr_left (g := fun i => l[(c + off + i) % l.length]?)
    (fun i hi => h2 i (List.mem_range.mp hi))]
  exact cycles_perm l hl k (c + off)

/-- C33, fairness of both round robins: any `k * n` consecutive picks among `n` candidates take
every candidate exactly `k` times (windows without the wrap of the counter, or `n` a power of
two).  The full claim has no condition; `C33_unfair_across_the_wrap` shows it is false. -/
theorem C33_round_robin_fair_partial {α : Type} (l : List α) (hl : l ≠ []) (c k : Nat)
    (hc : c < 2 ^ 64) (hs : Smooth (c + 1) (k * l.length) l.length) :
    (picks (rrPicker · l) c (k * l.length)).Perm ((List.replicate k l).flatten.map some) ∧
    (picks (rrBalancer · l) c (k * l.length)).Perm ((List.replicate k l).flatten.map some) := by
  have hll : ¬ l.length = 0 := fun e => hl (List.length_eq_zero_iff.mp e)
  have hs' : Smooth c (k * l.length) l.length := by
    rcases hs with h | h
    · exact Or.inl (by omega)
    · exact Or.inr h
  constructor
  · apply cycle_of_picks _ l 1 k c hll hc
    · intro c; simp only [rrPicker, if_neg hll]
    · intro i hi
      simp only [rrPicker, if_neg hll]
      congr 1
      rw [add1_window]
      exact smooth_mod hs hi
  · apply cycle_of_picks _ l 0 k c hll hc
    · intro c; simp only [rrBalancer, if_neg hll]
    · intro i hi
      simp only [rrBalancer, if_neg hll]
      rw [back1 (Nat.mod_lt _ (by decide)), smooth_mod hs' hi, Nat.add_zero]

/-- C33 is false across the wrap of the counter: of three candidates, three consecutive picks take
the first one twice and the last one never. -/
theorem C33_unfair_across_the_wrap :
    picks (rrBalancer · [10, 20, 30]) (2 ^ 64 - 1) 3 = [some 10, some 10, some 20] := by
  decide +kernel

/-- C33, weights: any `k` full cycles take every connection exactly `k` times its weight, weight
0 counting as 1 (same condition on the window). -/
theorem C33_weighted_fair_partial {α : Type} (w : α → UInt32) (l : List α) (hl : l ≠ [])
    (hlen : l.length ≤ 2 ^ 32) (c k : Nat) (hc : c < 2 ^ 64)
    (hs : Smooth c (k * (expand w l).length) (expand w l).length) :
    (picks (fun c => match weighted w c l with | .ok r => r | _ => (add1 c, none)) c
      (k * (expand w l).length)).Perm ((List.replicate k (expand w l)).flatten.map some) := by
  have hx := expand_length_lt w l
  have hx2 : l.length * (2 ^ 32 - 1) ≤ 2 ^ 32 * (2 ^ 32 - 1) := Nat.mul_le_mul_right _ hlen
  have hx3 : (expand w l).length < 2 ^ 64 := by omega
  have hll : ¬ l.length = 0 := fun e => hl (List.length_eq_zero_iff.mp e)
  have hne := (weighted_eq w c hc l hl hx3).2
  apply cycle_of_picks _ (expand w l) 0 k c hne hc
  · intro c
    simp only [weighted, if_neg hll, totalWeight_eq w l hx3, if_neg hne]
    split
    · rename_i r hr
      split at hr <;> (injection hr with hr; rw [← hr])
    · rfl
  · intro i hi
    rw [(weighted_eq w ((c + i) % 2 ^ 64) (Nat.mod_lt _ (by decide)) l hl hx3).1]
    simp only [Nat.add_zero]
    rw [smooth_mod hs hi]

/-- What the permutation says about one connection: it is chosen as often as its weight. -/
theorem C33_weight_is_the_share {α : Type} [DecidableEq α] (w : α → UInt32) (l : List α)
    (hd : l.Nodup) (s : α) (hs : s ∈ l) :
    ((expand w l).map some).count (some s) = if w s = 0 then 1 else (w s).toNat := by
  have : ((expand w l).map some).count (some s) = (expand w l).count s := by
    generalize expand w l = e
    induction e with
    | nil => rfl
    | cons a e ih => simp [List.count_cons, ih]
  rw [this, ← weightOf_eq]
  clear this
  induction l with
  | nil => cases hs
  | cons a l ih =>
    rw [expand_cons, List.count_append, List.count_replicate]
    simp only [List.nodup_cons] at hd
    by_cases he : a = s
    · subst he
      have : (expand w l).count a = 0 := List.count_eq_zero.mpr fun h => hd.1 (mem_expand w l a h)
      simp [this]
    · have hm : s ∈ l := by
        rcases List.mem_cons.mp hs with h | h
        · exact absurd h.symm he
        · exact h
      rw [ih hd.2 hm]
      simp [he]

/-- C33, priority: among the candidates of minimal priority the picks are round robin (same
condition on the window). -/
theorem C33_priority_fair_partial {α : Type} (prio : α → Nat) (l : List α) (hl : l ≠ []) (c k : Nat)
    (hc : c < 2 ^ 64) (hs : Smooth (c + 1) (k * (best prio l).length) (best prio l).length) :
    (picks (priorityPicker prio · l) c (k * (best prio l).length)).Perm
      ((List.replicate k (best prio l)).flatten.map some) := by
  have hb := (priorityPicker_eq prio c l hl).1
  have hbl : (best prio l).length ≠ 0 := fun e => hb (List.length_eq_zero_iff.mp e)
  apply cycle_of_picks _ (best prio l) 1 k c hbl hc
  · intro c; rw [(priorityPicker_eq prio c l hl).2]
  · intro i hi
    rw [(priorityPicker_eq prio _ l hl).2]
    simp only
    congr 1
    rw [add1_window]
    exact smooth_mod hs hi

/-- The hypotheses of the theorems are met by ordinary lists and counters. -/
example : Smooth (5 + 1) (2 * [10, 20, 30].length) [10, 20, 30].length ∧
    picks (rrPicker · [10, 20, 30]) 5 6 =
      [some 10, some 20, some 30, some 10, some 20, some 30] ∧
    expand (fun n : Nat => n.toUInt32) [2, 0, 1] = [2, 2, 0, 1] ∧
    picks (fun c => match weighted (fun n : Nat => n.toUInt32) c [2, 0, 1] with
      | .ok r => r | _ => (0, none)) 3 4 = [some 1, some 2, some 2, some 0] ∧
    best (fun n : Nat => n % 10) [13, 21, 31, 42] = [21, 31] := by
  refine ⟨Or.inl (by decide), by decide +kernel, by decide +kernel, by decide +kernel,
    by decide +kernel⟩

end Claw.Balancer
