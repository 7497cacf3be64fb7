import Verif.Spec.Conc

/-! # Lemmas about goroutines that read a struct -/

namespace Claw.Conc

open Claw

/-! ### The entries are what indexing writes -/

/-- Writing entries into the index. -/
def fillIdx (idx : List Entry) (es : List (Nat × Entry)) : List Entry := es.foldl (fun i e => if e.1 < i.length then i.set e.1 e.2 else i) idx

theorem fillIdx_length (es : List (Nat × Entry)) : ∀ idx, (fillIdx idx es).length = idx.length := by
  induction es with
  | nil => intro idx; rfl
  | cons e es ih =>
    intro idx
    rw [fillIdx, List.foldl_cons, ← fillIdx, ih]
    split <;> simp

theorem parse_entries : ∀ (fuel pos : Nat) (rest : Bytes) (idx r : List Entry), parseFuel fuel pos rest idx = .ok r →
    ∃ es, entriesFuel fuel pos rest = .ok es ∧ r = fillIdx idx es := by
  intro fuel
  induction fuel with
  | zero =>
    intro pos rest idx r h
    simp only [parseFuel] at h
    cases h
    exact ⟨[], rfl, rfl⟩
  | succ fuel ih =>
    intro pos rest idx r h
    simp only [parseFuel] at h
    simp only [entriesFuel]
    by_cases hl : HeaderSize ≤ rest.length
    · rw [if_pos hl] at h ⊢
      cases hd : decodeHeader rest with
      | none => rw [hd] at h; cases h; exact ⟨[], rfl, rfl⟩
      | some q =>
        obtain ⟨fn, ft, fin⟩ := q
        rw [hd] at h
        simp only at h ⊢
        by_cases h0 : ft = 0
        · rw [if_pos h0] at h ⊢; cases h; exact ⟨[], rfl, rfl⟩
        · rw [if_neg h0] at h ⊢
          by_cases hz : fieldSizeAt rest ft fin = 0
          · rw [if_pos hz] at h; cases h
          · rw [if_neg hz] at h ⊢
            obtain ⟨es, he, hr⟩ := ih _ _ _ _ h
            rw [he]
            refine ⟨_, rfl, ?_⟩
            rw [hr]
            rfl
    · rw [if_neg hl] at h ⊢
      cases h; exact ⟨[], rfl, rfl⟩

theorem fillIdx_get (m : Nat) (f : Nat) (hf : f < m) : ∀ (es : List (Nat × Entry)) (idx : List Entry), idx.length = m → Once m es →
    (∀ e, (f, e) ∈ es → (fillIdx idx es)[f]? = some e) ∧ ((∀ e, (f, e) ∉ es) → (fillIdx idx es)[f]? = idx[f]?) := by
  intro es
  induction es with
  | nil => intro idx _ _; exact ⟨fun e h => (by cases h), fun _ => rfl⟩
  | cons x es ih =>
    intro idx hm ho
    have hc : fillIdx idx (x :: es) = fillIdx (if x.1 < idx.length then idx.set x.1 x.2 else idx) es := rfl
    have ho' : Once m es := by
      unfold Once at *
      simp only [List.map_cons, List.filter_cons] at ho
      split at ho
      · exact (List.nodup_cons.1 ho).2
      · exact ho
    have hm' : (if x.1 < idx.length then idx.set x.1 x.2 else idx).length = m := by split <;> simp [hm]
    obtain ⟨h1, h2⟩ := ih _ hm' ho'
    rw [hc]
    constructor
    · intro e he
      rcases List.mem_cons.1 he with rfl | he
      · have hn : ∀ e', (f, e') ∉ es := by
          intro e' he'
          unfold Once at ho
          simp only [List.map_cons, List.filter_cons] at ho
          rw [if_pos (by simpa using hf)] at ho
          exact (List.nodup_cons.1 ho).1 (List.mem_filter.2 ⟨List.mem_map.2 ⟨_, he', rfl⟩, by simpa using hf⟩)
        rw [h2 hn]
        simp [hm, hf]
      · exact h1 e he
    · intro hn
      have hx : x.1 ≠ f := by
        intro hx
        obtain ⟨a, b⟩ := x
        simp only at hx
        subst hx
        exact hn b (by simp)
      rw [h2 (fun e he => hn e (List.mem_cons_of_mem _ he))]
      split
      · rw [List.getElem?_set_ne hx]
      · rfl

theorem mem_stores {m : Nat} {es : List (Nat × Entry)} {x : Word} {v : Nat} (h : (x, v) ∈ stores m es) :
    (x = .flag ∧ v = 1) ∨ ∃ f e, (f, e) ∈ es ∧ f < m ∧ ((x = .off f ∧ v = e.offset) ∨ (x = .size f ∧ v = e.size)) := by
  simp only [stores, List.mem_append, List.mem_flatMap, List.mem_singleton, Prod.mk.injEq] at h
  rcases h with ⟨⟨f, e⟩, he, h⟩ | h
  · right
    simp only at h
    split at h
    · rename_i hf
      refine ⟨f, e, he, hf, ?_⟩
      simpa using h
    · cases h
  · exact .inl h

theorem stores_mem {m : Nat} {es : List (Nat × Entry)} {f : Nat} {e : Entry} (h : (f, e) ∈ es) (hf : f < m) :
    (.off f, e.offset) ∈ stores m es ∧ (.size f, e.size) ∈ stores m es := by
  constructor <;>
  · refine List.mem_append_left _ (List.mem_flatMap.2 ⟨_, h, ?_⟩)
    rw [if_pos hf]
    simp

theorem flag_mem (m : Nat) (es : List (Nat × Entry)) : (Word.flag, 1) ∈ stores m es := by
  simp [stores]

/-! ### One after the other -/

/-- The value of a word in a struct. -/
def val (s : St) : Word → Nat
  | .flag => if s.parsed then 1 else 0
  | .off f => (s.idx.getD f .zero).offset
  | .size f => (s.idx.getD f .zero).size

/-- How the stores take the words from their values `a` to their values `b`. -/
structure Change (w : List (Word × Nat)) (a b : Word → Nat) : Prop where
  written : ∀ x v, (x, v) ∈ w → v = b x
  kept : ∀ x, (∀ v, (x, v) ∉ w) → a x = b x
  last : ∃ w0 v, w = w0 ++ [(Word.flag, v)] ∧ ∀ u, (Word.flag, u) ∉ w0
  start : a .flag = 0

def All (w : List (Word × Nat)) (s : State) : Prop := ∀ p ∈ w, 1 < (s.mem p.1).length

structure Inv (m : Nat) (w : List (Word × Nat)) (a b : Word → Nat) (s : State) : Prop where
  hist : ∀ x, ∃ k, s.mem x = a x :: List.replicate k (b x)
  flag : 1 < (s.mem .flag).length → All w s
  fill : ∀ i f todo, (s.gs i).pc = .fill f todo → ∃ pre, w = pre ++ todo ∧ ∀ p ∈ pre, 1 < (s.mem p.1).length
  off : ∀ i f, (s.gs i).pc = .readOff f → f < m ∧ All w s
  size : ∀ i f o, (s.gs i).pc = .readSize f o → f < m ∧ All w s ∧ o = b (.off f)
  out : ∀ i f o v, (f, o, v) ∈ (s.gs i).out → (f < m → o = b (.off f) ∧ v = b (.size f)) ∧ (¬ f < m → o = 0 ∧ v = 0)

theorem read_sc {s : State} {g : Gor} {x : Word} {p v : Nat} (h : read true s g x p = some v) : (s.mem x).getLast? = some v := by
  unfold read at h
  split at h
  · rename_i hc
    rw [List.getLast?_eq_getElem?, ← h]
    congr 1
    have := hc.2 rfl
    omega
  · cases h

theorem last_hist {l : List Nat} {a b k v : Nat} (h : l = a :: List.replicate k b) (hv : l.getLast? = some v) :
    (l.length = 1 → v = a) ∧ (1 < l.length → v = b) := by
  subst h
  cases k with
  | zero => simp at hv; simp [hv]
  | succ k =>
    have : (a :: List.replicate (k + 1) b).getLast? = some b := by
      rw [List.getLast?_cons_of_ne_nil (by simp), List.getLast?_replicate]
      simp
    rw [this] at hv
    cases hv
    simp

theorem All.read {m : Nat} {w : List (Word × Nat)} {a b : Word → Nat} {s : State} (hc : Change w a b) (hi : Inv m w a b s) (ha : All w s)
    {x : Word} {v : Nat} (h : (s.mem x).getLast? = some v) : v = b x := by
  obtain ⟨k, hk⟩ := hi.hist x
  obtain ⟨h1, h2⟩ := last_hist hk h
  by_cases hx : ∃ u, (x, u) ∈ w
  · obtain ⟨u, hu⟩ := hx
    exact h2 (ha _ hu)
  · have hx' : ∀ u, (x, u) ∉ w := fun u hu => hx ⟨u, hu⟩
    by_cases hl : 1 < (s.mem x).length
    · exact h2 hl
    · rw [h1 (by have : (s.mem x).length ≠ 0 := by rw [hk]; simp
                 omega), hc.kept x hx']

/-- A step that changes only the goroutine `i`. -/
theorem Inv.set {m : Nat} {w : List (Word × Nat)} {a b : Word → Nat} {s : State} (hi : Inv m w a b s) (i : Nat) (g : Gor)
    (h1 : ∀ f todo, g.pc = .fill f todo → ∃ pre, w = pre ++ todo ∧ ∀ p ∈ pre, 1 < (s.mem p.1).length)
    (h2 : ∀ f, g.pc = .readOff f → f < m ∧ All w s)
    (h3 : ∀ f o, g.pc = .readSize f o → f < m ∧ All w s ∧ o = b (.off f))
    (h4 : ∀ f o v, (f, o, v) ∈ g.out → (f < m → o = b (.off f) ∧ v = b (.size f)) ∧ (¬ f < m → o = 0 ∧ v = 0)) :
    Inv m w a b (s.set i g) := by
  refine ⟨hi.hist, hi.flag, ?_, ?_, ?_, ?_⟩
  · intro j f todo h
    simp only [State.set] at h
    split at h
    · exact h1 f todo h
    · exact hi.fill j f todo h
  · intro j f h
    simp only [State.set] at h
    split at h
    · exact h2 f h
    · exact hi.off j f h
  · intro j f o h
    simp only [State.set] at h
    split at h
    · exact h3 f o h
    · exact hi.size j f o h
  · intro j f o v h
    simp only [State.set] at h
    split at h
    · exact h4 f o v h
    · exact hi.out j f o v h

theorem Inv.after {m : Nat} {w : List (Word × Nat)} {a b : Word → Nat} {s : State} (hi : Inv m w a b s) (ha : All w s) (i f : Nat) (g : Gor)
    (ho : g.out = (s.gs i).out) : Inv m w a b (s.set i (afterEnsure m g f)) := by
  unfold afterEnsure
  split
  · rename_i hf
    refine hi.set i _ ?_ ?_ ?_ ?_
    · intro f' todo h; cases h
    · intro f' h; cases h; exact ⟨hf, ha⟩
    · intro f' o h; cases h
    · intro f' o v h; exact hi.out i f' o v (ho ▸ h)
  · rename_i hf
    refine hi.set i _ ?_ ?_ ?_ ?_
    · intro f' todo h; cases h
    · intro f' h; cases h
    · intro f' o h; cases h
    · intro f' o v h
      rcases List.mem_append.1 h with h | h
      · exact hi.out i f' o v (ho ▸ h)
      · simp only [List.mem_singleton, Prod.mk.injEq] at h
        obtain ⟨rfl, rfl, rfl⟩ := h
        exact ⟨fun h => absurd h hf, fun _ => ⟨rfl, rfl⟩⟩

theorem step_inv {m : Nat} {w : List (Word × Nat)} {a b : Word → Nat} {s s' : State} (hc : Change w a b) (hi : Inv m w a b s) (x : Act)
    (h : step true m w s x = some s') : Inv m w a b s' := by
  cases x with
  | call i f =>
    simp only [step] at h
    split at h
    · cases h
      exact hi.set i _ (fun _ _ h => (by cases h)) (fun _ h => (by cases h)) (fun _ _ h => (by cases h)) (fun f o v h => hi.out i f o v h)
    · cases h
  | look i p =>
    simp only [step] at h
    split at h
    · rename_i f hpc
      split at h
      · cases h
      · rename_i hr
        cases h
        exact hi.set i _ (fun _ _ h => (by cases h; exact ⟨[], rfl, by simp⟩)) (fun _ h => (by cases h)) (fun _ _ h => (by cases h))
          (fun f o v h => hi.out i f o v h)
      · rename_i n hr
        cases h
        have hl := read_sc hr
        obtain ⟨k, hk⟩ := hi.hist .flag
        obtain ⟨h1, -⟩ := last_hist hk hl
        have : 1 < (s.mem .flag).length := by
          have h0 : (s.mem .flag).length ≠ 0 := by rw [hk]; simp
          have : (s.mem .flag).length ≠ 1 := by
            intro h'
            have := h1 h'
            rw [hc.start] at this
            omega
          omega
        exact hi.after (hi.flag this) i f _ rfl
    · cases h
  | store i =>
    simp only [step] at h
    split at h
    · rename_i f x v todo hpc
      cases h
      obtain ⟨pre, hw, hpre⟩ := hi.fill i f _ hpc
      have hv := hc.written x v (by rw [hw]; simp)
      have hm : ∀ y, (s.mem y).length ≤ (if y = x then s.mem x ++ [v] else s.mem y).length := by
        intro y
        split
        · rename_i h; subst h; simp
        · exact Nat.le_refl _
      have hx : 1 < (s.mem x ++ [v]).length := by
        obtain ⟨k, hk⟩ := hi.hist x
        rw [hk]; simp
      have hi2 : Inv m w a b { s with mem := fun y => if y = x then s.mem x ++ [v] else s.mem y } := by
        have hall : All w s → All w { s with mem := fun y => if y = x then s.mem x ++ [v] else s.mem y } := by
          intro ha p hp
          have := ha p hp
          have := hm p.1
          simp only
          omega
        refine ⟨?_, ?_, ?_, ?_, ?_, hi.out⟩
        · intro y
          simp only
          split
          · rename_i h
            obtain ⟨k, hk⟩ := hi.hist x
            rw [h, hk, hv]
            refine ⟨k + 1, ?_⟩
            rw [List.cons_append, ← List.replicate_succ']
          · exact hi.hist y
        · intro hf
          simp only at hf
          by_cases hxf : x = .flag
          · subst hxf
            -- the store of the flag is the last one
            by_cases hall0 : 1 < (s.mem .flag).length
            · exact hall (hi.flag hall0)
            · have ht : todo = [] := by
                obtain ⟨w0, u, hw0, hn⟩ := hc.last
                cases List.eq_nil_or_concat todo with
                | inl h => exact h
                | inr h =>
                  obtain ⟨t, z, rfl⟩ := h
                  rw [hw0, List.concat_eq_append, ← List.cons_append, ← List.append_assoc] at hw
                  have := (List.append_inj' hw rfl).1
                  exact absurd (by rw [this]; simp) (hn v)
              subst ht
              intro p hp
              rw [hw] at hp
              rcases List.mem_append.1 hp with hp | hp
              · have := hpre p hp
                have := hm p.1
                simp only
                omega
              · simp only [List.mem_singleton] at hp
                subst hp
                simp only [if_true]
                exact hx
          · rw [if_neg (fun h => hxf h.symm)] at hf
            exact hall (hi.flag hf)
        · intro j f' todo' hj
          obtain ⟨pre', hw', hp'⟩ := hi.fill j f' todo' hj
          refine ⟨pre', hw', ?_⟩
          intro p hp
          have := hp' p hp
          have := hm p.1
          simp only
          omega
        · intro j f' hj
          obtain ⟨q1, q2⟩ := hi.off j f' hj
          exact ⟨q1, hall q2⟩
        · intro j f' o hj
          obtain ⟨q1, q2, q3⟩ := hi.size j f' o hj
          exact ⟨q1, hall q2, q3⟩
      refine hi2.set i _ ?_ (fun _ h => (by cases h)) (fun _ _ h => (by cases h)) (fun f o v h => hi.out i f o v h)
      intro f' todo' h
      cases h
      refine ⟨pre ++ [(x, v)], by rw [hw]; simp, ?_⟩
      intro p hp
      rcases List.mem_append.1 hp with hp | hp
      · have := hpre p hp
        have := hm p.1
        simp only
        omega
      · simp only [List.mem_singleton] at hp
        subst hp
        simp only [if_true]
        exact hx
    · cases h
  | filled i =>
    simp only [step] at h
    split at h
    · rename_i f hpc
      cases h
      obtain ⟨pre, hw, hpre⟩ := hi.fill i f _ hpc
      rw [List.append_nil] at hw
      subst hw
      exact hi.after hpre i f _ rfl
    · cases h
  | off i p =>
    simp only [step] at h
    split at h
    · rename_i f hpc
      split at h
      · cases h
      · rename_i o hr
        cases h
        obtain ⟨q1, q2⟩ := hi.off i f hpc
        have := q2.read hc hi (read_sc hr)
        exact hi.set i _ (fun _ _ h => (by cases h)) (fun _ h => (by cases h)) (fun _ _ h => (by cases h; exact ⟨q1, q2, this⟩))
          (fun f o v h => hi.out i f o v h)
    · cases h
  | size i p =>
    simp only [step] at h
    split at h
    · rename_i f o hpc
      split at h
      · cases h
      · rename_i v hr
        cases h
        obtain ⟨q1, q2, q3⟩ := hi.size i f o hpc
        have := q2.read hc hi (read_sc hr)
        refine hi.set i _ (fun _ _ h => (by cases h)) (fun _ h => (by cases h)) (fun _ _ h => (by cases h)) ?_
        intro f' o' v' h
        rcases List.mem_append.1 h with h | h
        · exact hi.out i f' o' v' h
        · simp only [List.mem_singleton, Prod.mk.injEq] at h
          obtain ⟨rfl, rfl, rfl⟩ := h
          exact ⟨fun _ => ⟨q3, this⟩, fun h => absurd q1 h⟩
    · cases h

theorem run_inv {m : Nat} {w : List (Word × Nat)} {a b : Word → Nat} (hc : Change w a b) : ∀ (as : List Act) {s s' : State}, Inv m w a b s →
    run true m w as s = some s' → Inv m w a b s' := by
  intro as
  induction as with
  | nil => intro s s' hi h; cases h; exact hi
  | cons x as ih =>
    intro s s' hi h
    simp only [run] at h
    cases hx : step true m w s x with
    | none => rw [hx] at h; cases h
    | some t =>
      rw [hx] at h
      exact ih (step_inv hc hi x hx) h

theorem init_inv (s : St) (m : Nat) (w : List (Word × Nat)) (b : Word → Nat) (h : s.parsed = false) : Inv m w (val s) b (init s) := by
  refine ⟨?_, ?_, ?_, ?_, ?_, ?_⟩
  · intro x; exact ⟨0, by cases x <;> rfl⟩
  · intro h'; simp [init] at h'
  · intro i f todo h'; cases h'
  · intro i f h'; cases h'
  · intro i f o h'; cases h'
  · intro i f o v h'; cases h'

theorem change (s : St) (m : Nat) (hm : s.idx.length = m) (h0 : s.parsed = false) (es : List (Nat × Entry)) (ho : Once m es) (s' : St)
    (hp : s'.parsed = true) (hs : s'.idx = fillIdx s.idx es) : Change (stores m es) (val s) (val s') := by
  refine ⟨?_, ?_, ?_, ?_⟩
  · intro x v h
    rcases mem_stores h with ⟨rfl, rfl⟩ | ⟨f, e, he, hf, ⟨rfl, rfl⟩ | ⟨rfl, rfl⟩⟩
    · simp [val, hp]
    · have := (fillIdx_get m f hf es s.idx hm ho).1 e he
      simp [val, hs, List.getD_eq_getElem?_getD, this]
    · have := (fillIdx_get m f hf es s.idx hm ho).1 e he
      simp [val, hs, List.getD_eq_getElem?_getD, this]
  · intro x hx
    cases x with
    | flag => exact absurd (flag_mem m es) (hx 1)
    | off f =>
      by_cases hf : f < m
      · have := (fillIdx_get m f hf es s.idx hm ho).2 (fun e he => hx _ (stores_mem he hf).1)
        simp [val, hs, List.getD_eq_getElem?_getD, this]
      · have h1 : s.idx[f]? = none := List.getElem?_eq_none (by omega)
        have h2 : (fillIdx s.idx es)[f]? = none := List.getElem?_eq_none (by rw [fillIdx_length]; omega)
        simp [val, hs, List.getD_eq_getElem?_getD, h1, h2]
    | size f =>
      by_cases hf : f < m
      · have := (fillIdx_get m f hf es s.idx hm ho).2 (fun e he => hx _ (stores_mem he hf).2)
        simp [val, hs, List.getD_eq_getElem?_getD, this]
      · have h1 : s.idx[f]? = none := List.getElem?_eq_none (by omega)
        have h2 : (fillIdx s.idx es)[f]? = none := List.getElem?_eq_none (by rw [fillIdx_length]; omega)
        simp [val, hs, List.getD_eq_getElem?_getD, h1, h2]
  · refine ⟨_, 1, rfl, ?_⟩
    intro u hu
    obtain ⟨e, -, h⟩ := List.mem_flatMap.1 hu
    split at h
    · simp at h
    · cases h
  · simp [val, h0]

/-! ### A struct that is indexed already -/

structure Still (m : Nat) (s0 : St) (s : State) : Prop where
  mem : ∀ x, s.mem x = [val s0 x]
  fill : ∀ i f todo, (s.gs i).pc ≠ .fill f todo
  off : ∀ i f, (s.gs i).pc = .readOff f → f < m
  size : ∀ i f o, (s.gs i).pc = .readSize f o → f < m ∧ o = val s0 (.off f)
  out : ∀ i f o v, (f, o, v) ∈ (s.gs i).out → (f < m → o = val s0 (.off f) ∧ v = val s0 (.size f)) ∧ (¬ f < m → o = 0 ∧ v = 0)

theorem Still.set {m : Nat} {s0 : St} {s : State} (hi : Still m s0 s) (i : Nat) (g : Gor) (h1 : ∀ f todo, g.pc ≠ .fill f todo)
    (h2 : ∀ f, g.pc = .readOff f → f < m) (h3 : ∀ f o, g.pc = .readSize f o → f < m ∧ o = val s0 (.off f))
    (h4 : ∀ f o v, (f, o, v) ∈ g.out → (f < m → o = val s0 (.off f) ∧ v = val s0 (.size f)) ∧ (¬ f < m → o = 0 ∧ v = 0)) :
    Still m s0 (s.set i g) := by
  refine ⟨hi.mem, ?_, ?_, ?_, ?_⟩
  · intro j f todo h
    simp only [State.set] at h
    split at h
    · exact h1 f todo h
    · exact hi.fill j f todo h
  · intro j f h
    simp only [State.set] at h
    split at h
    · exact h2 f h
    · exact hi.off j f h
  · intro j f o h
    simp only [State.set] at h
    split at h
    · exact h3 f o h
    · exact hi.size j f o h
  · intro j f o v h
    simp only [State.set] at h
    split at h
    · exact h4 f o v h
    · exact hi.out j f o v h

theorem read_single {sc : Bool} {s : State} {g : Gor} {x : Word} {p v u : Nat} (hm : s.mem x = [u]) (h : read sc s g x p = some v) : v = u := by
  unfold read at h
  split at h
  · rw [hm] at h
    cases p with
    | zero => simpa using h.symm
    | succ p => simp at h
  · cases h

theorem still_step {sc : Bool} {m : Nat} {w : List (Word × Nat)} {s0 : St} (hp : s0.parsed = true) {s s' : State} (hi : Still m s0 s)
    (x : Act) (h : step sc m w s x = some s') : Still m s0 s' := by
  cases x with
  | call i f =>
    simp only [step] at h
    split at h
    · cases h
      exact hi.set i _ (fun _ _ h => (by cases h)) (fun _ h => (by cases h)) (fun _ _ h => (by cases h)) (fun f o v h => hi.out i f o v h)
    · cases h
  | look i p =>
    simp only [step] at h
    split at h
    · rename_i f hpc
      split at h
      · cases h
      · rename_i hr
        have := read_single (hi.mem _) hr
        simp [val, hp] at this
      · rename_i n hr
        cases h
        unfold afterEnsure
        split
        · rename_i hf
          exact hi.set i _ (fun _ _ h => (by cases h)) (fun _ h => (by cases h; exact hf)) (fun _ _ h => (by cases h))
            (fun f o v h => hi.out i f o v h)
        · rename_i hf
          refine hi.set i _ (fun _ _ h => (by cases h)) (fun _ h => (by cases h)) (fun _ _ h => (by cases h)) ?_
          intro f' o v h
          rcases List.mem_append.1 h with h | h
          · exact hi.out i f' o v h
          · simp only [List.mem_singleton, Prod.mk.injEq] at h
            obtain ⟨rfl, rfl, rfl⟩ := h
            exact ⟨fun h => absurd h hf, fun _ => ⟨rfl, rfl⟩⟩
    · cases h
  | store i =>
    simp only [step] at h
    split at h
    · rename_i hpc; exact absurd hpc (hi.fill i _ _)
    · cases h
  | filled i =>
    simp only [step] at h
    split at h
    · rename_i hpc; exact absurd hpc (hi.fill i _ _)
    · cases h
  | off i p =>
    simp only [step] at h
    split at h
    · rename_i f hpc
      split at h
      · cases h
      · rename_i o hr
        cases h
        have q1 := hi.off i f hpc
        have := read_single (hi.mem _) hr
        exact hi.set i _ (fun _ _ h => (by cases h)) (fun _ h => (by cases h)) (fun _ _ h => (by cases h; exact ⟨q1, this⟩))
          (fun f o v h => hi.out i f o v h)
    · cases h
  | size i p =>
    simp only [step] at h
    split at h
    · rename_i f o hpc
      split at h
      · cases h
      · rename_i v hr
        cases h
        obtain ⟨q1, q3⟩ := hi.size i f o hpc
        have := read_single (hi.mem _) hr
        refine hi.set i _ (fun _ _ h => (by cases h)) (fun _ h => (by cases h)) (fun _ _ h => (by cases h)) ?_
        intro f' o' v' h
        rcases List.mem_append.1 h with h | h
        · exact hi.out i f' o' v' h
        · simp only [List.mem_singleton, Prod.mk.injEq] at h
          obtain ⟨rfl, rfl, rfl⟩ := h
          exact ⟨fun _ => ⟨q3, this⟩, fun h => absurd q1 h⟩
    · cases h

theorem still_run {sc : Bool} {m : Nat} {w : List (Word × Nat)} {s0 : St} (hp : s0.parsed = true) : ∀ (as : List Act) {s s' : State},
    Still m s0 s → run sc m w as s = some s' → Still m s0 s' := by
  intro as
  induction as with
  | nil => intro s s' hi h; cases h; exact hi
  | cons x as ih =>
    intro s s' hi h
    simp only [run] at h
    cases hx : step sc m w s x with
    | none => rw [hx] at h; cases h
    | some t =>
      rw [hx] at h
      exact ih (still_step hp hi x hx) h

theorem run_append {sc : Bool} {m : Nat} {w : List (Word × Nat)} : ∀ (as bs : List Act) {s t u : State}, run sc m w as s = some t →
    run sc m w bs t = some u → run sc m w (as ++ bs) s = some u := by
  intro as
  induction as with
  | nil => intro bs s t u h1 h2; cases h1; exact h2
  | cons x as ih =>
    intro bs s t u h1 h2
    simp only [run, List.cons_append] at h1 ⊢
    cases hx : step sc m w s x with
    | none => rw [hx] at h1; cases h1
    | some v => rw [hx] at h1; exact ih bs h1 h2

/-- Goroutine `i` does all its stores; the others are where they were, and all old values are still there. -/
theorem run_stores {sc : Bool} {m : Nat} {w : List (Word × Nat)} (i f : Nat) : ∀ (todo : List (Word × Nat)) (s : State),
    (s.gs i).pc = .fill f todo → ∃ as s', run sc m w as s = some s' ∧ (s'.gs i).pc = .fill f [] ∧
      (∀ j, j ≠ i → s'.gs j = s.gs j) ∧ (∀ x, s.mem x <+: s'.mem x) ∧
      (∀ x v, (x, v) ∈ todo → ∃ p, (s.mem x).length ≤ p ∧ (s'.mem x)[p]? = some v) := by
  intro todo
  induction todo with
  | nil =>
    intro s h
    exact ⟨[], s, rfl, h, fun _ _ => rfl, fun x => List.prefix_refl _, fun x v h => (by cases h)⟩
  | cons q todo ih =>
    intro s h
    obtain ⟨x, v⟩ := q
    have hs : step sc m w s (.store i) = some (({ s with mem := fun y => if y = x then s.mem x ++ [v] else s.mem y } : State).set i
        { note (s.gs i) x (s.mem x).length with pc := .fill f todo }) := by
      simp only [step, h]
    obtain ⟨as, s', hr, hpc, hothers, hmem, hval⟩ := ih _ (by simp [State.set] :
      ((({ s with mem := fun y => if y = x then s.mem x ++ [v] else s.mem y } : State).set i
        { note (s.gs i) x (s.mem x).length with pc := .fill f todo }).gs i).pc = .fill f todo)
    have hm1 : ∀ y, s.mem y <+: s'.mem y := by
      intro y
      have := hmem y
      simp only [State.set] at this
      by_cases hy : y = x
      · subst hy
        rw [if_pos rfl] at this
        exact (List.prefix_append _ _).trans this
      · rwa [if_neg hy] at this
    refine ⟨.store i :: as, s', ?_, hpc, ?_, hm1, ?_⟩
    · simp only [run, hs]; exact hr
    · intro j hj
      rw [hothers j hj]
      simp [State.set, hj]
    · intro y u hu
      rcases List.mem_cons.1 hu with hu | hu
      · cases hu
        have := hmem x
        simp only [State.set, if_true] at this
        obtain ⟨t, ht⟩ := this
        refine ⟨(s.mem x).length, Nat.le_refl _, ?_⟩
        rw [← ht]
        simp
      · obtain ⟨p, hp, hpv⟩ := hval y u hu
        refine ⟨p, Nat.le_trans ?_ hp, hpv⟩
        simp only [State.set]
        split
        · rename_i h; subst h; simp
        · exact Nat.le_refl _

end Claw.Conc
