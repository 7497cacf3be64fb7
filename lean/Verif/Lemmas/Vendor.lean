import Verif.Model.Vendor
import Verif.Spec.Graph

/-!
# The recursive walks over imports
-/

namespace Claw.Vendor

open Claw.Graph
open Claw.Idl (Out)

/-- The rule for a run of calls: what every call keeps holds at the end. -/
theorem walk_ok {σ : Type} {f : Str → σ → Out σ} {ds : List Str} {s t : σ} (h : walk f ds s = .ok t) (P : List Str → σ → Prop)
    (h0 : P [] s) (hs : ∀ d ∈ ds, ∀ done s1 s2, P done s1 → f d s1 = .ok s2 → P (done ++ [d]) s2) : P ds t := by
  have key : ∀ (ds : List Str) (done : List Str) (s : σ), (∀ d ∈ ds, ∀ done s1 s2, P done s1 → f d s1 = .ok s2 → P (done ++ [d]) s2) →
      P done s → walk f ds s = .ok t → P (done ++ ds) t := by
    intro ds
    induction ds with
    | nil =>
      intro done s _ hp h
      cases h
      simpa using hp
    | cons d ds ih =>
      intro done s hs hp h
      rw [walk, Out.bind_eq_ok] at h
      obtain ⟨s1, h1, h⟩ := h
      have := ih (done ++ [d]) s1 (fun x hx => hs x (List.mem_cons_of_mem _ hx)) (hs d List.mem_cons_self done s s1 hp h1) h
      simpa using this
  simpa using key ds [] s hs h0 h

/-- The rule for a run of calls that fails. -/
theorem walk_err {σ : Type} {f : Str → σ → Out σ} {ds : List Str} {s : σ} (h : walk f ds s = .err) (P : σ → Prop)
    (h0 : P s) (hs : ∀ d ∈ ds, ∀ s1 s2, P s1 → f d s1 = .ok s2 → P s2) : ∃ d ∈ ds, ∃ s1, P s1 ∧ f d s1 = .err := by
  induction ds generalizing s with
  | nil => cases h
  | cons d ds ih =>
    rw [walk] at h
    cases h1 : f d s with
    | ok s1 =>
      rw [h1, Out.ok_bind] at h
      obtain ⟨x, hx, r⟩ := ih h (hs d List.mem_cons_self s s1 h0 h1) (fun x hx => hs x (List.mem_cons_of_mem _ hx))
      exact ⟨x, List.mem_cons_of_mem _ hx, r⟩
    | err => exact ⟨d, List.mem_cons_self, s, h0, h1⟩
    | panic => rw [h1] at h; cases h

theorem walk_panic {σ : Type} {f : Str → σ → Out σ} {ds : List Str} {s : σ} (h : walk f ds s = .panic) (P : σ → Prop)
    (h0 : P s) (hs : ∀ d ∈ ds, ∀ s1 s2, P s1 → f d s1 = .ok s2 → P s2) : ∃ d ∈ ds, ∃ s1, P s1 ∧ f d s1 = .panic := by
  induction ds generalizing s with
  | nil => cases h
  | cons d ds ih =>
    rw [walk] at h
    cases h1 : f d s with
    | ok s1 =>
      rw [h1, Out.ok_bind] at h
      obtain ⟨x, hx, r⟩ := ih h (hs d List.mem_cons_self s s1 h0 h1) (fun x hx => hs x (List.mem_cons_of_mem _ hx))
      exact ⟨x, List.mem_cons_of_mem _ hx, r⟩
    | panic => exact ⟨d, List.mem_cons_self, s, h0, h1⟩
    | err => rw [h1] at h; cases h

/-- A list without repetitions within another is not longer. -/
theorem length_le_of_nodup : ∀ {l u : List Str}, l.Nodup → (∀ x ∈ l, x ∈ u) → l.length ≤ u.length := by
  intro l
  induction l with
  | nil => simp
  | cons x l ih =>
    intro u hn hs
    rw [List.nodup_cons] at hn
    have := ih (u := u.erase x) hn.2 (by
      intro y hy
      have hxy : y ≠ x := by rintro rfl; exact hn.1 hy
      exact (List.mem_erase_of_ne hxy).2 (hs y (by simp [hy])))
    have hx := List.length_erase_of_mem (hs x (by simp))
    have : 0 < u.length := List.length_pos_of_mem (hs x (by simp))
    simp only [List.length_cons]
    omega

/-! ### The order of compilation -/

/-- In the list, every package is after those that it imports. -/
def Ordered (e : Str → List Str) (l : List Str) : Prop := ∀ l1 p l2, l = l1 ++ p :: l2 → ∀ d ∈ e p, d ∈ l1

theorem ordered_snoc {e : Str → List Str} {l : List Str} {p : Str} (h : Ordered e l) (hp : ∀ d ∈ e p, d ∈ l) : Ordered e (l ++ [p]) := by
  intro l1 q l2 heq d hd
  rcases List.eq_nil_or_concat l2 with rfl | ⟨l2, x, rfl⟩
  · have h1 := List.append_inj_left' heq (by simp)
    have h2 := List.append_inj_right' heq (by simp)
    simp only [List.cons.injEq, and_true] at h2
    subst h1 h2
    exact hp d hd
  · have heq' : l ++ [p] = (l1 ++ q :: l2) ++ [x] := by simp [heq]
    have h1 := List.append_inj_left' heq' (by simp)
    exact h l1 q l2 h1 d hd

/-- What holds of the marks. -/
structure Marks.Good (e : Str → List Str) (s : Marks) : Prop where
  same : ∀ x, x ∈ s.visited ↔ x ∈ s.result
  nodup : s.result.Nodup
  ordered : Ordered e s.result
  apart : ∀ x ∈ s.visiting, x ∉ s.result
  vnodup : s.visiting.Nodup

/-- What a visit to `p` does. -/
structure Visited (e : Str → List Str) (p : Str) (s t : Marks) : Prop where
  good : t.Good e
  visiting : t.visiting = s.visiting
  mem : p ∈ t.result
  more : ∀ x ∈ s.result, x ∈ t.result
  reach : ∀ x ∈ t.result, x ∈ s.result ∨ Reach e p x

theorem visit_ok (e : Str → List Str) : ∀ (n : Nat) (p : Str) (s t : Marks), s.Good e → visit e n p s = .ok t → Visited e p s t := by
  intro n
  induction n with
  | zero => intro p s t _ h; cases h
  | succ n ih =>
    intro p s t hs h
    rw [visit] at h
    split at h
    · cases h
    · rename_i hnv
      split at h
      · rename_i hv
        cases h
        exact ⟨hs, rfl, (hs.same p).1 hv, fun x hx => hx, fun x hx => .inl hx⟩
      · rename_i hv
        rw [Out.bind_eq_ok] at h
        obtain ⟨s1, h1, h⟩ := h
        cases h
        have hres : p ∉ s.result := fun hx => hv ((hs.same p).2 hx)
        have hg0 : Marks.Good e { s with visiting := p :: s.visiting } := by
          refine ⟨hs.same, hs.nodup, hs.ordered, ?_, List.nodup_cons.2 ⟨hnv, hs.vnodup⟩⟩
          intro x hx
          rcases List.mem_cons.1 hx with rfl | hx
          · exact hres
          · exact hs.apart x hx
        have hw := walk_ok h1 (fun done x => x.Good e ∧ x.visiting = p :: s.visiting ∧ (∀ d ∈ done, d ∈ x.result) ∧
            (∀ y ∈ s.result, y ∈ x.result) ∧ ∀ y ∈ x.result, y ∈ s.result ∨ Reach e p y)
          ⟨hg0, rfl, by simp, fun y hy => hy, fun y hy => .inl hy⟩ (by
            rintro d hd done x1 x2 ⟨g, v, m, k, r⟩ hx
            have hvis := ih d x1 x2 g hx
            refine ⟨hvis.good, hvis.visiting.trans v, ?_, fun y hy => hvis.more y (k y hy), ?_⟩
            · intro y hy
              rcases List.mem_append.1 hy with hy | hy
              · exact hvis.more y (m y hy)
              · simp only [List.mem_singleton] at hy
                subst hy
                exact hvis.mem
            · intro y hy
              rcases hvis.reach y hy with hy | hy
              · exact r y hy
              · exact .inr (hy.head hd))
        obtain ⟨g, v, m, k, r⟩ := hw
        have hp1 : p ∉ s1.result := g.apart p (by simp [v])
        have hfilter : (s1.visiting.filter fun x => x ≠ p) = s.visiting := by
          rw [v]
          simp only [ne_eq, not_true_eq_false, decide_false, Bool.false_eq_true, not_false_eq_true, List.filter_cons_of_neg]
          rw [List.filter_eq_self]
          intro a ha
          simp only [decide_not, Bool.not_eq_eq_eq_not, Bool.not_true, decide_eq_false_iff_not]
          rintro rfl
          exact hnv ha
        refine ⟨⟨?_, ?_, ordered_snoc g.ordered m, ?_, by simp only [hfilter]; exact hs.vnodup⟩, hfilter, by simp,
          fun x hx => by simp [k x hx], ?_⟩
        · intro x
          simp only [List.mem_cons, List.mem_append, List.not_mem_nil, or_false, g.same x]
          exact Or.comm
        · rw [List.nodup_append]
          refine ⟨g.nodup, by simp, ?_⟩
          intro a ha b hb
          simp only [List.mem_singleton] at hb
          subst hb
          rintro rfl
          exact hp1 ha
        · intro x hx
          simp only [hfilter] at hx
          simp only [List.mem_append, List.mem_singleton, not_or]
          refine ⟨g.apart x (by simp [v, hx]), ?_⟩
          rintro rfl
          exact hnv hx
        · intro x hx
          rcases List.mem_append.1 hx with hx | hx
          · exact r x hx
          · simp only [List.mem_singleton] at hx
            subst hx
            exact .inr .refl

/-- A visit fails only over a cycle. -/
theorem visit_err (e : Str → List Str) : ∀ (n : Nat) (p : Str) (s : Marks), s.Good e →
    (∀ v ∈ s.visiting, ∃ d ∈ e v, Reach e d p) → visit e n p s = .err → ∃ q, Reach e p q ∧ Cyclic e q := by
  intro n
  induction n with
  | zero => intro p s _ _ h; cases h
  | succ n ih =>
    intro p s hs hpath h
    rw [visit] at h
    split at h
    · rename_i hm
      exact ⟨p, .refl, hpath p hm⟩
    · rename_i hnv
      split at h
      · cases h
      · rename_i hv
        have hw : walk (visit e n) (e p) { s with visiting := p :: s.visiting } = .err := by
          cases hx : walk (visit e n) (e p) { s with visiting := p :: s.visiting } with
          | ok a => rw [hx] at h; cases h
          | err => rfl
          | panic => rw [hx] at h; cases h
        have hg0 : Marks.Good e { s with visiting := p :: s.visiting } := by
          refine ⟨hs.same, hs.nodup, hs.ordered, ?_, List.nodup_cons.2 ⟨hnv, hs.vnodup⟩⟩
          intro x hx
          rcases List.mem_cons.1 hx with rfl | hx
          · exact fun hx => hv ((hs.same _).2 hx)
          · exact hs.apart x hx
        obtain ⟨d, hd, s1, ⟨g1, v1⟩, h1⟩ := walk_err hw (fun x => x.Good e ∧ x.visiting = p :: s.visiting) ⟨hg0, rfl⟩ (by
          rintro d hd x1 x2 ⟨g, v⟩ hx
          have := visit_ok e n d x1 x2 g hx
          exact ⟨this.good, this.visiting.trans v⟩)
        obtain ⟨q, hq, hc⟩ := ih d s1 g1 (by
          rw [v1]
          intro v hv
          rcases List.mem_cons.1 hv with rfl | hv
          · exact ⟨d, hd, .refl⟩
          · obtain ⟨x, hx, hr⟩ := hpath v hv
            exact ⟨x, hx, .step hr hd⟩) h1
        exact ⟨q, hq.head hd, hc⟩

/-- A depth of the number of packages is enough. -/
theorem visit_depth (e : Str → List Str) (u : List Str) (hu : ∀ p ∈ u, ∀ d ∈ e p, d ∈ u) : ∀ (n : Nat) (p : Str) (s : Marks), s.Good e →
    (∀ v ∈ s.visiting, v ∈ u) → p ∈ u → u.length < n + s.visiting.length → visit e n p s ≠ .panic := by
  intro n
  induction n with
  | zero =>
    intro p s hs hv _ hl _
    have := length_le_of_nodup hs.vnodup hv
    omega
  | succ n ih =>
    intro p s hs hv hp hl h
    rw [visit] at h
    split at h
    · cases h
    · rename_i hnv
      split at h
      · cases h
      · rename_i hvis
        have hw : walk (visit e n) (e p) { s with visiting := p :: s.visiting } = .panic := by
          cases hx : walk (visit e n) (e p) { s with visiting := p :: s.visiting } with
          | ok a => rw [hx] at h; cases h
          | err => rw [hx] at h; cases h
          | panic => rfl
        have hg0 : Marks.Good e { s with visiting := p :: s.visiting } := by
          refine ⟨hs.same, hs.nodup, hs.ordered, ?_, List.nodup_cons.2 ⟨hnv, hs.vnodup⟩⟩
          intro x hx
          rcases List.mem_cons.1 hx with rfl | hx
          · exact fun hx => hvis ((hs.same _).2 hx)
          · exact hs.apart x hx
        obtain ⟨d, hd, s1, ⟨g1, v1⟩, h1⟩ := walk_panic hw (fun x => x.Good e ∧ x.visiting = p :: s.visiting) ⟨hg0, rfl⟩ (by
          rintro d hd x1 x2 ⟨g, v⟩ hx
          have := visit_ok e n d x1 x2 g hx
          exact ⟨this.good, this.visiting.trans v⟩)
        refine ih d s1 g1 ?_ (hu p hp d hd) ?_ h1
        · rw [v1]
          intro v hv'
          rcases List.mem_cons.1 hv' with rfl | hv'
          · exact hp
          · exact hv v hv'
        · rw [v1, List.length_cons]
          omega

/-- In an ordered list, what comes before a place reaches only what comes before it. -/
theorem ordered_closed {e : Str → List Str} {l l1 l2 : List Str} (h : Ordered e l) (hl : l = l1 ++ l2) {x y : Str} (hr : Reach e x y)
    (hx : x ∈ l1) : y ∈ l1 := by
  induction hr with
  | refl => exact hx
  | step _ hm ih =>
    obtain ⟨a, b, rfl⟩ := List.append_of_mem ih
    have := h a _ (b ++ l2) (by simp [hl]) _ hm
    simp [this]

theorem ordered_acyclic {e : Str → List Str} {l : List Str} (h : Ordered e l) (hn : l.Nodup) {p : Str} (hp : p ∈ l) : ¬ Cyclic e p := by
  rintro ⟨d, hd, hr⟩
  obtain ⟨a, b, rfl⟩ := List.append_of_mem hp
  have hd' := h a p b rfl d hd
  have := ordered_closed h rfl hr hd'
  rw [List.nodup_append] at hn
  exact hn.2.2 p this p (by simp) rfl

/-! ### The loop that turns the list round -/

theorem swapEnds_length (l : List Str) (i : Nat) : (swapEnds l i).length = l.length := by simp [swapEnds]

theorem flip_length : ∀ (k : Nat) (l : List Str), (flip l k).length = l.length := by
  intro k
  induction k with
  | zero => intro l; rfl
  | succ k ih => intro l; rw [flip, ih, swapEnds_length]

theorem swapEnds_get (l : List Str) (i j : Nat) (hi : i < l.length / 2) (hj : j < l.length) :
    (swapEnds l i)[j]'(by rw [swapEnds_length]; exact hj) =
      if j = i ∨ j = l.length - 1 - i then l[l.length - 1 - j] else l[j] := by
  unfold swapEnds
  rw [List.getElem_set]
  split
  · rename_i h
    subst h
    rw [if_pos (.inr rfl), List.getD_eq_getElem?_getD, List.getElem?_eq_getElem (by omega)]
    simp only [Option.getD_some]
    congr 1
    omega
  · rename_i h
    rw [List.getElem_set]
    split
    · rename_i h2
      subst h2
      rw [if_pos (.inl rfl), List.getD_eq_getElem?_getD, List.getElem?_eq_getElem (by omega)]
      rfl
    · rename_i h2
      rw [if_neg (by omega)]

theorem flip_get : ∀ (k : Nat) (l : List Str) (j : Nat) (_ : k ≤ l.length / 2) (hj : j < l.length),
    (flip l k)[j]'(by rw [flip_length]; exact hj) = if j < k ∨ l.length - 1 - j < k then l[l.length - 1 - j] else l[j] := by
  intro k
  induction k with
  | zero => intro l j _ hj; simp [flip]
  | succ k ih =>
    intro l j hk hj
    have h1 := ih (swapEnds l k) j (by rw [swapEnds_length]; omega) (by rw [swapEnds_length]; exact hj)
    simp only [flip, swapEnds_length] at h1 ⊢
    rw [h1]
    split
    · rename_i h
      rw [swapEnds_get l k _ (by omega) (by omega), if_neg (by omega), if_pos (by omega)]
    · rename_i h
      rw [swapEnds_get l k _ (by omega) (by omega)]
      split
      · rename_i h2
        rw [if_pos (by omega)]
      · rename_i h2
        rw [if_neg (by omega)]

/-- The loop turns the list round. -/
theorem flip_reverse (l : List Str) : flip l (l.length / 2) = l.reverse := by
  apply List.ext_getElem
  · simp [flip_length]
  · intro j h1 h2
    rw [flip_length] at h1
    rw [flip_get _ _ _ (Nat.le_refl _) h1, List.getElem_reverse]
    split
    · rfl
    · rename_i h
      congr 1
      omega

end Claw.Vendor
