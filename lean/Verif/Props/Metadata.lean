import Verif.Lemmas.Metadata

/-!
# C30: metadata
-/

namespace Claw.Metadata

open Claw

/-! ## Specification: contexts as values

A context is a value: nothing, or a finite map from folded keys to byte strings.  No heap, no
sharing. -/

abbrev Value := Option (Dict Str Bytes)

/-- The value the last pair of a flat `k, v, k, v, …` list gives to a folded key. -/
def lastValue (low : Str → Str) : List Str → Str → Option Bytes
  | k :: v :: kv, x =>
    match lastValue low kv x with
    | some w => some w
    | none => if x = low k then some v else none
  | _, _ => none

/-- The first `v.length` bytes replaced, the length kept. -/
def patched (v old : Bytes) : Bytes :=
  if v.length ≤ old.length then v ++ old.drop v.length else v.take old.length

def specStep (low : Str → Str) (cs : List Value) : Op → Option (List Value)
  | .background => some (cs ++ [none])
  | .append i kv =>
    match cs[i]? with
    | none => none
    | some parent =>
      if kv.length % 2 = 0 then
        some (cs ++ [some fun x =>
          match lastValue low kv x with
          | some v => some v
          | none => parent.bind (· x)])
      else none
  | .set i k v =>
    match cs[i]? with
    | some (some f) => some (cs.set i (some fun x => if x = low k then some v else f x))
    | _ => none
  | .delete i k =>
    match cs[i]? with
    | some (some f) => some (cs.set i (some fun x => if x = low k then none else f x))
    | some none => some cs
    | none => none
  | .scribble i k v =>
    match cs[i]? with
    | some (some f) =>
      some (cs.set i (some fun x => if x = low k then (f x).map (patched v) else f x))
    | some none => some cs
    | none => none

def specRun (low : Str → Str) : List Op → List Value → Option (List Value)
  | [], cs => some cs
  | op :: ops, cs => (specStep low cs op).bind (specRun low ops)

def specGet (low : Str → Str) (cs : List Value) (i : Nat) (k : Str) : Option Bytes :=
  match cs[i]? with
  | some (some f) => f (low k)
  | _ => none

/-! ## Refinement -/

theorem overwrite_eq (v old : Bytes) : Heap.overwrite v old = patched v old := by
  unfold Heap.overwrite patched
  split
  · rename_i h; rw [List.take_of_length_le h]
  · rename_i h
    rw [List.drop_of_length_le (by omega), List.append_nil]

theorem pairUp_isSome : ∀ kv, (pairUp kv).isSome = decide (kv.length % 2 = 0)
  | [] => rfl
  | [_] => rfl
  | k :: v :: kv => by
    simp only [pairUp, Option.isSome_map, List.length_cons, pairUp_isSome kv]
    congr 1
    simp only [eq_iff_iff]
    omega

theorem overlay_eq (low : Str → Str) : ∀ (kv : List Str) (ps : List (Str × Bytes))
    (f : Dict Str Bytes), pairUp kv = some ps → ∀ x,
      Heap.overlay low f ps x =
        match lastValue low kv x with
        | some v => some v
        | none => f x
  | [], ps, f, h, x => by
    cases h
    rfl
  | [_], ps, f, h, x => by cases h
  | k :: v :: kv, ps, f, h, x => by
    simp only [pairUp, Option.map_eq_some_iff] at h
    obtain ⟨ps', h', he⟩ := h
    subst he
    simp only [Heap.overlay, lastValue]
    rw [overlay_eq low kv ps' _ h' x]
    cases lastValue low kv x with
    | some w => rfl
    | none =>
      simp only [Dict.set]
      split <;> rfl

/-- The value a context stands for. -/
def absCtx (h : Heap) : Ctx → Value
  | some (some m) => some (h.view m)
  | _ => none

def abs (s : St) : List Value := s.ctxs.map (absCtx s.heap)

structure Inv (s : St) : Prop where
  ok : s.heap.Ok
  live : ∀ i m : Nat, s.ctxs[i]? = some (some (some m)) → m < s.heap.maps.length
  sep : ∀ i j m : Nat, s.ctxs[i]? = some (some (some m)) → s.ctxs[j]? = some (some (some m)) → i = j
  noNil : ∀ i : Nat, s.ctxs[i]? ≠ some (some none)

theorem inv_init : Inv St.init := by
  refine ⟨⟨?_, ?_, ?_⟩, ?_, ?_, ?_⟩ <;> simp [St.init, Heap.look]

theorem abs_get? (s : St) (i : Nat) : (abs s)[i]? = (s.ctxs[i]?).map (absCtx s.heap) := by
  simp [abs]

/-- Changing the map of context `i` changes the value of context `i` only. -/
theorem abs_update {s : St} (inv : Inv s) {i m : Nat} (hi : s.ctxs[i]? = some (some (some m)))
    (h' : Heap) (f : Dict Str Bytes)
    (hv : ∀ m', h'.view m' = if m' = m then f else s.heap.view m') :
    abs { s with heap := h' } = (abs s).set i (some f) := by
  apply List.ext_getElem?
  intro j
  have hlt : i < s.ctxs.length := (List.getElem?_eq_some_iff.mp hi).1
  rw [abs_get?, List.getElem?_set]
  by_cases hij : i = j
  · subst hij
    have hlt' : i < (abs s).length := by simpa [abs] using hlt
    simp only [hi, Option.map_some, if_true, hlt', absCtx, hv]
  · simp only [hij, if_false, abs_get?]
    cases hc : s.ctxs[j]? with
    | none => rfl
    | some c =>
      match c with
      | none => rfl
      | some none => rfl
      | some (some m') =>
        have hne : m' ≠ m := by
          intro e
          subst e
          exact hij (inv.sep _ _ _ hi hc)
        simp [absCtx, hv, hne]

theorem inv_update {s : St} (inv : Inv s) (h' : Heap) (ok : h'.Ok)
    (hl : h'.maps.length = s.heap.maps.length) : Inv { s with heap := h' } :=
  ⟨ok, fun i m hi => by have := inv.live i m hi; simp only; omega, inv.sep, inv.noNil⟩

/-- Adding a context with a fresh map. -/
theorem abs_push {s : St} (inv : Inv s) (h' : Heap) (m : Nat) (f : Dict Str Bytes)
    (hm : m = s.heap.maps.length) (hlen : h'.maps.length = s.heap.maps.length + 1)
    (ok : h'.Ok) (hv : ∀ m', h'.view m' = if m' = m then f else s.heap.view m') :
    abs { heap := h', ctxs := s.ctxs ++ [some (some m)] } = abs s ++ [some f] ∧
      Inv { heap := h', ctxs := s.ctxs ++ [some (some m)] } := by
  refine ⟨?_, ok, ?_, ?_, ?_⟩
  · simp only [abs, List.map_append, List.map_cons, List.map_nil]
    congr 1
    · apply List.map_congr_left
      intro c hc
      obtain ⟨i, hi, he⟩ := List.getElem_of_mem hc
      match c, he with
      | none, _ => rfl
      | some none, _ => rfl
      | some (some m'), he =>
        have := inv.live i m' (by rw [List.getElem?_eq_getElem hi, he])
        have hne : m' ≠ m := by omega
        simp [absCtx, hv, hne]
    · simp [absCtx, hv]
  · intro i m' hi
    simp only
    rw [List.getElem?_append] at hi
    split at hi
    · have := inv.live i m' hi; omega
    · cases hx : i - s.ctxs.length with
      | zero => simp [hx] at hi; omega
      | succ x => simp [hx] at hi
  · intro i j m' hi hj
    rw [List.getElem?_append] at hi hj
    split at hi <;> split at hj
    · exact inv.sep i j m' hi hj
    · have := inv.live i m' hi
      cases hx : j - s.ctxs.length with
      | zero => simp [hx] at hj; omega
      | succ x => simp [hx] at hj
    · have := inv.live j m' hj
      cases hx : i - s.ctxs.length with
      | zero => simp [hx] at hi; omega
      | succ x => simp [hx] at hi
    · cases hx : i - s.ctxs.length with
      | zero =>
        cases hy : j - s.ctxs.length with
        | zero => omega
        | succ y => simp [hy] at hj
      | succ x => simp [hx] at hi
  · intro i hi
    rw [List.getElem?_append] at hi
    split at hi
    · exact inv.noNil i hi
    · cases hx : i - s.ctxs.length with
      | zero => simp [hx] at hi
      | succ x => simp [hx] at hi

theorem step_spec (low : Str → Str) (s : St) (inv : Inv s) (op : Op) :
    (∃ s', step low s op = .ok s' ∧ Inv s' ∧ specStep low (abs s) op = some (abs s')) ∨
    (step low s op = .panic ∧ specStep low (abs s) op = none) := by
  cases op with
  | background =>
    refine Or.inl ⟨_, rfl, ⟨inv.ok, ?_, ?_, ?_⟩, by simp [specStep, abs, absCtx]⟩
    · intro i m hi
      rw [List.getElem?_append] at hi
      split at hi
      · exact inv.live i m hi
      · cases hx : i - s.ctxs.length <;> simp [hx] at hi
    · intro i j m hi hj
      rw [List.getElem?_append] at hi hj
      split at hi
      · split at hj
        · exact inv.sep i j m hi hj
        · cases hx : j - s.ctxs.length <;> simp [hx] at hj
      · cases hx : i - s.ctxs.length <;> simp [hx] at hi
    · intro i hi
      rw [List.getElem?_append] at hi
      split at hi
      · exact inv.noNil i hi
      · cases hx : i - s.ctxs.length <;> simp [hx] at hi
  | append i kv =>
    cases hc : s.ctxs[i]? with
    | none => exact Or.inr ⟨by simp [step, hc], by simp [specStep, abs_get?, hc]⟩
    | some c =>
      have hodd : pairUp kv = none → ¬ kv.length % 2 = 0 := by
        intro h hev
        have := pairUp_isSome kv
        rw [h] at this
        simp [hev] at this
      have heven : ∀ ps, pairUp kv = some ps → kv.length % 2 = 0 := by
        intro ps h
        have := pairUp_isSome kv
        rw [h] at this
        simpa using this.symm
      match c, hc with
      | some none, hc => exact absurd hc (inv.noNil i)
      | none, hc =>
        cases hp : pairUp kv with
        | none =>
          exact Or.inr ⟨by simp [step, hc, appendToContext, hp],
            by simp [specStep, abs_get?, hc, hodd hp]⟩
        | some ps =>
          obtain ⟨i1, i2, i3⟩ := Heap.setPairs_spec low s.heap.maps.length ps s.heap.newMap
            inv.ok.newMap (by simp [Heap.newMap])
          have hpush := abs_push inv (s.heap.newMap.setPairs low s.heap.maps.length ps)
            s.heap.maps.length
            (Heap.overlay low (s.heap.newMap.view s.heap.maps.length) ps) rfl
            (by rw [i2]; simp [Heap.newMap]) i1 (by
              intro m'
              funext k
              rw [i3 m' k]
              split
              · rfl
              · exact Heap.view_newMap _ _ _)
          refine Or.inl ⟨_, by simp [step, hc, appendToContext, hp, Heap.newMD], hpush.2, ?_⟩
          rw [hpush.1]
          simp only [specStep, abs_get?, hc, Option.map_some, heven ps hp, if_true,
            Option.some.injEq, List.append_cancel_left_eq, List.cons.injEq, and_true]
          funext x
          rw [overlay_eq low kv ps _ hp x, Heap.view_newMap,
            Heap.view_none_of_ge _ _ _ (Nat.le_refl _)]
          rfl
      | some (some m), hc =>
        have hm := inv.live i m hc
        cases hp : pairUp kv with
        | none =>
          exact Or.inr ⟨by simp [step, hc, appendToContext, hp],
            by simp [specStep, abs_get?, hc, hodd hp]⟩
        | some ps =>
          obtain ⟨c1, c2, c3, c4⟩ := Heap.clone_spec s.heap inv.ok m hm
          obtain ⟨i1, i2, i3⟩ := Heap.setPairs_spec low s.heap.maps.length ps
            (s.heap.clone m).1 c1 (by omega)
          have hpush := abs_push inv ((s.heap.clone m).1.setPairs low s.heap.maps.length ps)
            s.heap.maps.length
            (Heap.overlay low ((s.heap.clone m).1.view s.heap.maps.length) ps) rfl
            (by omega) i1 (by
              intro m'
              funext k
              rw [i3 m' k]
              split
              · rfl
              · rename_i hne
                rw [c4 m' k, if_neg hne])
          refine Or.inl ⟨_, by simp [step, hc, appendToContext, hp, c2], hpush.2, ?_⟩
          rw [hpush.1]
          simp only [specStep, abs_get?, hc, Option.map_some, heven ps hp, if_true,
            Option.some.injEq, List.append_cancel_left_eq, List.cons.injEq, and_true]
          funext x
          rw [overlay_eq low kv ps _ hp x, c4, if_pos rfl]
          rfl
  | set i k v =>
    cases hc : s.ctxs[i]? with
    | none => exact Or.inr ⟨by simp [step, hc], by simp [specStep, abs_get?, hc]⟩
    | some c =>
      match c, hc with
      | some none, hc => exact absurd hc (inv.noNil i)
      | none, hc => exact Or.inr ⟨by simp [step, hc], by simp [specStep, abs_get?, hc, absCtx]⟩
      | some (some m), hc =>
        have hm := inv.live i m hc
        refine Or.inl ⟨{ s with heap := s.heap.set low m k v }, by simp [step, hc],
          inv_update inv _ (inv.ok.put _ _ _ hm) (Heap.length_put _ _ _ _), ?_⟩
        rw [abs_update inv hc (s.heap.set low m k v)
          (fun x => if x = low k then some v else s.heap.view m x) (by
            intro m'
            funext x
            unfold Heap.set
            rw [Heap.view_put _ inv.ok _ _ _ _ _ hm]
            by_cases h1 : m' = m
            · subst h1; simp
            · simp [h1])]
        simp [specStep, abs_get?, hc, absCtx]
  | delete i k =>
    cases hc : s.ctxs[i]? with
    | none => exact Or.inr ⟨by simp [step, hc], by simp [specStep, abs_get?, hc]⟩
    | some c =>
      match c, hc with
      | some none, hc => exact absurd hc (inv.noNil i)
      | none, hc =>
        exact Or.inl ⟨s, by simp [step, hc], inv, by simp [specStep, abs_get?, hc, absCtx]⟩
      | some (some m), hc =>
        refine Or.inl ⟨_, by simp [step, hc],
          inv_update inv _ (inv.ok.delete low m k) (by simp [Heap.delete]), ?_⟩
        rw [abs_update inv hc (s.heap.delete low m k)
          (fun x => if x = low k then none else s.heap.view m x) (by
            intro m'
            funext x
            rw [Heap.view_delete]
            by_cases h1 : m' = m
            · subst h1; simp
            · simp [h1])]
        simp [specStep, abs_get?, hc, absCtx]
  | scribble i k v =>
    cases hc : s.ctxs[i]? with
    | none => exact Or.inr ⟨by simp [step, hc], by simp [specStep, abs_get?, hc]⟩
    | some c =>
      match c, hc with
      | some none, hc => exact absurd hc (inv.noNil i)
      | none, hc =>
        exact Or.inl ⟨s, by simp [step, hc], inv, by simp [specStep, abs_get?, hc, absCtx]⟩
      | some (some m), hc =>
        refine Or.inl ⟨_, by simp [step, hc],
          inv_update inv _ (inv.ok.scribble low m k v) (by
            unfold Heap.scribble; split <;> rfl), ?_⟩
        rw [abs_update inv hc (s.heap.scribble low m k v)
          (fun x => if x = low k then (s.heap.view m x).map (patched v) else s.heap.view m x) (by
            intro m'
            funext x
            rw [Heap.view_scribble _ _ inv.ok]
            have he : Heap.overwrite v = patched v := funext (overwrite_eq v)
            by_cases h1 : m' = m
            · subst h1; simp [he]
            · simp [h1])]
        simp [specStep, abs_get?, hc, absCtx]

theorem run_spec (low : Str → Str) : ∀ (ops : List Op) (s : St), Inv s →
    (∃ s', run low ops s = .ok s' ∧ Inv s' ∧ specRun low ops (abs s) = some (abs s')) ∨
    (run low ops s = .panic ∧ specRun low ops (abs s) = none)
  | [], s, inv => Or.inl ⟨s, rfl, inv, rfl⟩
  | op :: ops, s, inv => by
    rcases step_spec low s inv op with ⟨s', h1, h2, h3⟩ | ⟨h1, h3⟩
    · rcases run_spec low ops s' h2 with ⟨s'', k1, k2, k3⟩ | ⟨k1, k3⟩
      · exact Or.inl ⟨s'', by simp [run, h1, k1], k2, by simp [specRun, h3, k3]⟩
      · exact Or.inr ⟨by simp [run, h1, k1], by simp [specRun, h3, k3]⟩
    · exact Or.inr ⟨by simp [run, h1], by simp [specRun, h3]⟩

theorem get_abs (low : Str → Str) (s : St) (i : Nat) (k : Str) :
    s.get low i k = specGet low (abs s) i k := by
  unfold St.get specGet
  rw [abs_get?]
  cases hc : s.ctxs[i]? with
  | none => rfl
  | some c =>
    match c with
    | none => rfl
    | some none => rfl
    | some (some m) => rfl

/-- **C30.**  For every history of contexts, appends, sets, deletes and in-place edits of the
bytes that `Get` returned, and for every lower-casing function, metadata behaves as if every
context owned a separate immutable-by-others map: what `Get` gives in any context is what the
specification with contexts as plain values gives, and the program panics exactly when the
specification says so (odd argument lists, setting on a context without metadata). -/
theorem C30_contexts_are_values (low : Str → Str) (ops : List Op) :
    (∃ s cs, run low ops St.init = .ok s ∧ specRun low ops [] = some cs ∧
      ∀ i k, s.get low i k = specGet low cs i k) ∨
    (run low ops St.init = .panic ∧ specRun low ops [] = none) := by
  rcases run_spec low ops St.init inv_init with ⟨s, h1, -, h3⟩ | h
  · exact Or.inl ⟨s, abs s, h1, h3, get_abs low s⟩
  · exact Or.inr h

/-- Appending to a context leaves every existing context, the parent included, as it was; the
new context has the parent's metadata with the pairs on top. -/
theorem C30_append_keeps_parent (low : Str → Str) (ops : List Op) (s s' : St) (i : Nat)
    (kv : List Str) (hrun : run low ops St.init = .ok s) (happ : step low s (.append i kv) = .ok s') :
    (∀ j k, j < s.ctxs.length → s'.get low j k = s.get low j k) ∧
    (∀ k, s'.get low s.ctxs.length k =
      match lastValue low kv (low k) with
      | some v => some v
      | none => s.get low i k) := by
  have inv : Inv s := by
    rcases run_spec low ops St.init inv_init with ⟨s1, h1, h2, -⟩ | ⟨h1, -⟩
    · rw [hrun] at h1; cases h1; exact h2
    · rw [hrun] at h1; cases h1
  rcases step_spec low s inv (.append i kv) with ⟨s1, h1, -, h3⟩ | ⟨h1, -⟩
  · rw [happ] at h1; cases h1
    simp only [specStep] at h3
    cases hi : (abs s)[i]? with
    | none => simp [hi] at h3
    | some parent =>
      rw [hi] at h3
      simp only at h3
      split at h3
      · injection h3 with h3
        have hl : (abs s).length = s.ctxs.length := by simp [abs]
        constructor
        · intro j k hj
          rw [get_abs, get_abs, ← h3]
          unfold specGet
          rw [List.getElem?_append_left (by omega)]
        · intro k
          rw [get_abs, ← h3]
          unfold specGet
          rw [List.getElem?_append_right (by omega)]
          simp only [hl, Nat.sub_self, List.getElem?_cons_zero]
          rw [get_abs]
          unfold specGet
          rw [hi]
          cases parent with
          | none => rfl
          | some f => rfl
      · cases h3
  · rw [happ] at h1; cases h1

/-- Editing through one context never shows in another. -/
theorem C30_isolation (low : Str → Str) (ops : List Op) (s s' : St) (i : Nat) (op : Op)
    (hrun : run low ops St.init = .ok s) (hop : step low s op = .ok s')
    (htouch : (∃ k v, op = .set i k v) ∨ (∃ k, op = .delete i k) ∨ (∃ k v, op = .scribble i k v))
    (j : Nat) (hj : j ≠ i) (k : Str) : s'.get low j k = s.get low j k := by
  have inv : Inv s := by
    rcases run_spec low ops St.init inv_init with ⟨s1, h1, h2, -⟩ | ⟨h1, -⟩
    · rw [hrun] at h1; cases h1; exact h2
    · rw [hrun] at h1; cases h1
  have hkey : (abs s')[j]? = (abs s)[j]? := by
    rcases step_spec low s inv op with ⟨s1, h1, -, h3⟩ | ⟨h1, -⟩
    · rw [hop] at h1; cases h1
      have hset : ∀ v : Value, ((abs s).set i v)[j]? = (abs s)[j]? :=
        fun v => List.getElem?_set_ne (fun e => hj e.symm)
      rcases htouch with ⟨k, v, rfl⟩ | ⟨k, rfl⟩ | ⟨k, v, rfl⟩ <;>
        simp only [specStep] at h3 <;> split at h3 <;>
        first
          | (have h3 := Option.some.inj h3; rw [← h3]; exact hset _)
          | (have h3 := Option.some.inj h3; rw [← h3])
          | exact absurd h3 (by simp)
    · rw [hop] at h1; cases h1
  rw [get_abs, get_abs]
  unfold specGet
  rw [hkey]

/-! ## Capitalisation -/

/-- Two keys that differ only in the case of ASCII letters, byte by byte. -/
def SameLetters (k k' : Str) : Prop :=
  k.length = k'.length ∧ ∀ i (h : i < k.length) (h' : i < k'.length),
    k[i] = k'[i] ∨ (65 ≤ k[i].toNat ∧ k[i].toNat ≤ 90 ∧ k'[i].toNat = k[i].toNat + 32) ∨
      (65 ≤ k'[i].toNat ∧ k'[i].toNat ≤ 90 ∧ k[i].toNat = k'[i].toNat + 32)

theorem lowerByte_toNat (c : UInt8) :
    (Str.lowerByte c).toNat = if 65 ≤ c.toNat ∧ c.toNat ≤ 90 then c.toNat + 32 else c.toNat := by
  unfold Str.lowerByte
  simp only [UInt8.le_iff_toNat_le]
  split
  · rename_i h
    have h1 : 65 ≤ c.toNat ∧ c.toNat ≤ 90 := h
    simp only [h1, and_self, if_true, UInt8.toNat_add]
    have : (32 : UInt8).toNat = 32 := rfl
    rw [this]; omega
  · rename_i h
    have h1 : ¬ (65 ≤ c.toNat ∧ c.toNat ≤ 90) := h
    simp [h1]

theorem lower_eq_iff (k k' : Str) : Str.lower k = Str.lower k' ↔ SameLetters k k' := by
  constructor
  · intro h
    have hl : k.length = k'.length := by simpa [Str.lower] using congrArg List.length h
    refine ⟨hl, fun i hi hi' => ?_⟩
    have : (Str.lower k)[i]'(by simpa [Str.lower] using hi) =
        (Str.lower k')[i]'(by simpa [Str.lower] using hi') := by simp [h]
    simp only [Str.lower, List.getElem_map] at this
    have h1 := lowerByte_toNat k[i]
    have h2 := lowerByte_toNat k'[i]
    rw [this] at h1
    rw [h1] at h2
    have key : k[i].toNat = k'[i].toNat → k[i] = k'[i] := fun e => UInt8.toNat_inj.mp e
    split at h2 <;> split at h2
    · exact Or.inl (key (by omega))
    · exact Or.inr (Or.inl (by omega))
    · exact Or.inr (Or.inr (by omega))
    · exact Or.inl (key h2)
  · rintro ⟨hl, h⟩
    apply List.ext_getElem
    · simpa [Str.lower] using hl
    · intro i h1 h2
      simp only [Str.lower, List.length_map] at h1 h2
      simp only [Str.lower, List.getElem_map]
      apply UInt8.toNat_inj.mp
      rw [lowerByte_toNat, lowerByte_toNat]
      rcases h i h1 h2 with e | ⟨a, b, c⟩ | ⟨a, b, c⟩
      · rw [e]
      · split <;> split <;> omega
      · split <;> split <;> omega

/-- After `Set`, `Get` with any capitalisation of the key returns the value, and `Get` with a
key that is not the same up to capitalisation is unaffected: for every history, context, key
and value (ASCII letters). -/
theorem C30_case_insensitive (ops : List Op) (s s' : St) (i : Nat) (k : Str) (v : Bytes)
    (hrun : run Str.lower ops St.init = .ok s)
    (hset : step Str.lower s (.set i k v) = .ok s') (k' : Str) :
    (SameLetters k k' → s'.get Str.lower i k' = some v) ∧
    (¬ SameLetters k k' → s'.get Str.lower i k' = s.get Str.lower i k') := by
  have inv : Inv s := by
    rcases run_spec Str.lower ops St.init inv_init with ⟨s1, h1, h2, -⟩ | ⟨h1, -⟩
    · rw [hrun] at h1; cases h1; exact h2
    · rw [hrun] at h1; cases h1
  rcases step_spec Str.lower s inv (.set i k v) with ⟨s1, h1, -, h3⟩ | ⟨h1, -⟩
  · rw [hset] at h1; cases h1
    simp only [specStep] at h3
    split at h3
    · rename_i f hf
      injection h3 with h3
      have hlt : i < (abs s).length := (List.getElem?_eq_some_iff.mp hf).1
      have hget : s'.get Str.lower i k' =
          if Str.lower k' = Str.lower k then some v else s.get Str.lower i k' := by
        rw [get_abs, get_abs, ← h3]
        unfold specGet
        rw [List.getElem?_set_self hlt, hf]
      rw [hget]
      constructor
      · intro hsl
        rw [if_pos ((lower_eq_iff k k').mpr hsl).symm]
      · intro hns
        rw [if_neg (fun e => hns ((lower_eq_iff k k').mp e.symm))]
    · cases h3
  · rw [hset] at h1; cases h1

/-! ## The wire -/

/-- Metadata sent as a list of pairs in any order is received with the same contents, when
the keys are distinct and already folded (as every key stored through `Set` is). -/
theorem C30_wire_round_trip (low : Str → Str) (es sent : List (Str × Bytes))
    (hkeys : (es.map (·.1)).Nodup) (hlow : ∀ e ∈ es, low e.1 = e.1) (hperm : sent.Perm es) :
    (∀ k v, (k, v) ∈ es → fromMsgs low sent k = some v) ∧
    (∀ k, k ∉ es.map (·.1) → fromMsgs low sent k = none) := by
  have hk : (sent.map (·.1)).Nodup := (hperm.map (·.1)).nodup_iff.mpr hkeys
  have hl : ∀ e ∈ sent, low e.1 = e.1 := fun e he => hlow e (hperm.mem_iff.mp he)
  have gen : ∀ (l : List (Str × Bytes)) (m : Dict Str Bytes), (l.map (·.1)).Nodup →
      (∀ e ∈ l, low e.1 = e.1) →
      (∀ k v, (k, v) ∈ l → l.foldl (fun m e => m.set (low e.1) e.2) m k = some v) ∧
      (∀ k, k ∉ l.map (·.1) → l.foldl (fun m e => m.set (low e.1) e.2) m k = m k) := by
    intro l
    induction l with
    | nil => intro m _ _; exact ⟨by simp, by simp⟩
    | cons e l ih =>
      intro m hn hlw
      rw [List.map_cons, List.nodup_cons] at hn
      obtain ⟨i1, i2⟩ := ih (m.set (low e.1) e.2) hn.2 (fun x hx => hlw x (by simp [hx]))
      have he := hlw e (by simp)
      constructor
      · intro k v hm
        rw [List.foldl_cons]
        rcases List.mem_cons.mp hm with h | h
        · subst h
          rw [i2 k hn.1]
          simp at he
          simp [Dict.set, he]
        · exact i1 k v h
      · intro k hk
        rw [List.foldl_cons]
        simp only [List.map_cons, List.mem_cons, not_or] at hk
        rw [i2 k hk.2]
        simp [Dict.set, he, hk.1]
  obtain ⟨g1, g2⟩ := gen sent Dict.empty hk hl
  constructor
  · intro k v hm
    exact g1 k v (hperm.mem_iff.mpr hm)
  · intro k hkn
    have : k ∉ sent.map (·.1) := by
      intro h
      exact hkn ((hperm.map (·.1)).mem_iff.mp h)
    exact g2 k this

/-- A context that carries a nil `MD` (for instance one built from a message without
metadata, since `FromMsgs` of nothing is nil) cannot be appended to: the program panics. -/
theorem C30_append_after_nil_metadata_panics :
    appendToContext Str.lower { maps := [], bufs := [] } (some none) [lit "k", lit "v"] = .panic := by
  decide +kernel

/-! ## Concrete cases -/

def demoOps : List Op :=
  [.background, .append 0 [lit "Auth", lit "a", lit "X", lit "1"], .append 1 [lit "AUTH", lit "b"],
   .set 2 (lit "new") (lit "n"), .scribble 2 (lit "x") (lit "9"), .delete 2 (lit "nothing")]

example : ∃ s, run Str.lower demoOps St.init = .ok s ∧
    s.get Str.lower 1 (lit "auth") = some (lit "a") ∧ s.get Str.lower 1 (lit "x") = some (lit "1") ∧
    s.get Str.lower 1 (lit "new") = none ∧
    s.get Str.lower 2 (lit "aUTH") = some (lit "b") ∧ s.get Str.lower 2 (lit "X") = some (lit "9") ∧
    s.get Str.lower 2 (lit "NEW") = some (lit "n") := by
  refine ⟨_, rfl, ?_⟩
  decide +kernel

example : SameLetters (lit "Auth") (lit "aUTH") := (lower_eq_iff _ _).mp (by decide +kernel)

example : run Str.lower [.background, .append 0 [lit "odd"]] St.init = .panic := by decide +kernel

end Claw.Metadata
