import Verif.Model.Resolver
import Verif.Lemmas.GoStr

/-!
# C32 Resolver targets round-trip
-/

namespace Claw.Resolver

open Claw

/-- `://`. -/
def sep : Str := [58, 47, 47]

theorem lit_sep : lit "://" = sep := by decide +kernel
theorem lit_slash : lit "/" = [47] := by decide +kernel
theorem lit_sep3 : lit ":///" = [58, 47, 47, 47] := by decide +kernel

/-- What is needed of lower-casing: it is idempotent, keeps non-empty strings non-empty and does
not create a `://`. -/
structure LowOk (low : Str → Str) : Prop where
  idem : ∀ s, low (low s) = low s
  nil : ∀ s, low s = [] → s = []
  lowNil : low [] = []
  sep : ∀ s, ¬ Occurs sep s → ¬ Occurs sep (low s)

theorem lowerByte_idem (c : UInt8) : Str.lowerByte (Str.lowerByte c) = Str.lowerByte c := by
  unfold Str.lowerByte
  by_cases h : 65 ≤ c ∧ c ≤ 90
  · rw [if_pos h]
    rw [if_neg]
    intro h2
    have h1 := h.1; have h1' := h.2; have h2' := h2.2
    simp only [UInt8.le_iff_toNat_le, UInt8.toNat_add] at h1 h1' h2'
    simp at h1 h1' h2'
    omega
  · rw [if_neg h, if_neg h]

theorem lowerByte_fix (c d : UInt8) (hd : d.toNat < 65) (h : Str.lowerByte c = d) : c = d := by
  unfold Str.lowerByte at h
  split at h
  · rename_i hc
    exfalso
    have h1 := hc.1; have h1' := hc.2
    simp only [UInt8.le_iff_toNat_le] at h1 h1'
    subst h
    simp only [UInt8.toNat_add] at hd
    simp at h1 h1' hd
    omega
  · exact h

/-- ASCII lower-casing has these properties. -/
theorem lower_ok : LowOk Str.lower := by
  refine ⟨?_, ?_, rfl, ?_⟩
  · intro s
    simp only [Str.lower, List.map_map]
    apply List.map_congr_left
    intro c _
    exact lowerByte_idem c
  · intro s h
    simpa [Str.lower] using h
  · rintro s hs ⟨a, b, hab⟩
    apply hs
    have hl : s.map Str.lowerByte = a ++ sep ++ b := hab
    rw [List.append_assoc] at hl
    obtain ⟨a', r, h1, h2, h3⟩ := List.map_eq_append_iff.mp hl
    obtain ⟨m, b', h4, h5, h6⟩ := List.map_eq_append_iff.mp h3
    refine ⟨a', b', ?_⟩
    rw [h1, h4, List.append_assoc]
    congr 2
    match m, h5 with
    | [x, y, z], h5 =>
      simp only [sep, List.map_cons, List.map_nil, List.cons.injEq, and_true] at h5
      rw [lowerByte_fix x 58 (by decide) h5.1, lowerByte_fix y 47 (by decide) h5.2.1,
        lowerByte_fix z 47 (by decide) h5.2.2]
      rfl
    | [], h5 => simp [sep] at h5
    | [_], h5 => simp [sep] at h5
    | [_, _], h5 => simp [sep] at h5
    | _ :: _ :: _ :: _ :: _, h5 => simp [sep] at h5

/-! ## First occurrences -/

theorem index_first (sch rest : Str) (h : ¬ Occurs sep sch) :
    Str.index sep (sch ++ sep ++ rest) = some sch.length := by
  induction sch with
  | nil => simp [Str.index, sep]
  | cons c sch ih =>
    have h' : ¬ Occurs sep sch := by
      rintro ⟨a, b, hab⟩
      exact h ⟨c :: a, b, by simp [hab]⟩
    simp only [List.cons_append, Str.index]
    rw [if_neg, ih h']
    · rfl
    · intro hp
      match sch, h with
      | [], _ => simp [sep, List.isPrefixOf] at hp
      | [d], _ => simp [sep, List.isPrefixOf] at hp
      | d :: e :: t, h =>
        simp [sep, List.isPrefixOf] at hp
        apply h
        refine ⟨[], t, ?_⟩
        obtain ⟨h1, h2, h3⟩ := hp
        simp [sep, ← h1, ← h2, ← h3]

theorem index_some {s : Str} {i : Nat} (h : Str.index sep s = some i) :
    ∃ sch rest, s = sch ++ sep ++ rest ∧ ¬ Occurs sep sch ∧ sch.length = i := by
  induction s generalizing i with
  | nil => simp [Str.index, sep] at h
  | cons c s ih =>
    simp only [Str.index] at h
    split at h
    · rename_i hp
      injection h with h
      obtain ⟨r, hr⟩ := List.isPrefixOf_iff_prefix.mp hp
      refine ⟨[], r, by simp [hr], ?_, by simpa using h⟩
      rintro ⟨a, b, hab⟩
      have := congrArg List.length hab
      simp [sep] at this
    · rename_i hp
      cases hi : Str.index sep s with
      | none => rw [hi] at h; cases h
      | some j =>
        rw [hi] at h
        simp only [Option.map_some, Option.some.injEq] at h
        obtain ⟨sch, rest, h1, h2, h3⟩ := ih hi
        refine ⟨c :: sch, rest, by simp [h1], ?_, by simp [h3, h]⟩
        rintro ⟨a, b, hab⟩
        cases a with
        | nil =>
          apply hp
          rw [List.isPrefixOf_iff_prefix]
          simp only [List.nil_append] at hab
          refine ⟨b ++ (sep ++ rest), ?_⟩
          rw [h1]
          have : c :: (sch ++ sep ++ rest) = (c :: sch) ++ (sep ++ rest) := by simp
          rw [this, hab]
          simp
        | cons x a =>
          simp only [List.cons_append, List.cons.injEq] at hab
          exact h2 ⟨a, b, hab.2⟩

theorem index_none {s : Str} : Str.index sep s = none ↔ ¬ Occurs sep s := by
  rw [← index_isSome]
  cases Str.index sep s <;> simp

theorem slash_index (auth ep : Str) (h : (47 : UInt8) ∉ auth) :
    Str.index [47] (auth ++ 47 :: ep) = some auth.length := by
  induction auth with
  | nil => simp [Str.index]
  | cons c auth ih =>
    simp only [List.mem_cons, not_or] at h
    have hc : ¬ (47 : UInt8) = c := h.1
    simp only [List.cons_append, Str.index]
    rw [if_neg (by simp [List.isPrefixOf, hc]), ih h.2]
    rfl

theorem slash_index_some {s : Str} {i : Nat} (h : Str.index [47] s = some i) :
    ∃ auth ep, s = auth ++ 47 :: ep ∧ (47 : UInt8) ∉ auth ∧ auth.length = i := by
  induction s generalizing i with
  | nil => simp [Str.index] at h
  | cons c s ih =>
    simp only [Str.index] at h
    split at h
    · rename_i hp
      injection h with h
      obtain ⟨r, hr⟩ := List.isPrefixOf_iff_prefix.mp hp
      exact ⟨[], r, by simpa using hr.symm, by simp, by simpa using h⟩
    · rename_i hp
      cases hi : Str.index [47] s with
      | none => rw [hi] at h; cases h
      | some j =>
        rw [hi] at h
        simp only [Option.map_some, Option.some.injEq] at h
        obtain ⟨auth, ep, h1, h2, h3⟩ := ih hi
        refine ⟨c :: auth, ep, by simp [h1], ?_, by simp [h3, h]⟩
        simp only [List.mem_cons, not_or]
        refine ⟨fun e => hp ?_, h2⟩
        simp [List.isPrefixOf, e]

theorem slash_index_none {s : Str} (h : Str.index [47] s = none) : (47 : UInt8) ∉ s := by
  intro hm
  obtain ⟨a, b, hab⟩ := List.append_of_mem hm
  have : (Str.index [47] s).isSome = true := by
    rw [index_isSome]
    exact ⟨a, b, by simp [hab]⟩
  rw [h] at this
  cases this

/-! ## The accepted strings -/

/-- The specification: what the text of a target means. -/
inductive Means (low : Str → Str) : Str → Target → Prop
  /-- a bare address -/
  | bare {s} : s ≠ [] → ¬ Occurs sep s → Means low s ⟨lit "passthrough", [], s⟩
  /-- `scheme://authority/endpoint`, the authority possibly empty -/
  | full {sch auth ep} : sch ≠ [] → ¬ Occurs sep sch → (47 : UInt8) ∉ auth → ep ≠ [] →
      Means low (sch ++ sep ++ auth ++ 47 :: ep) ⟨low sch, auth, ep⟩

theorem parse_full {low : Str → Str} (hl : LowOk low) {sch auth ep : Str} (h1 : sch ≠ [])
    (h2 : ¬ Occurs sep sch) (h3 : (47 : UInt8) ∉ auth) (h4 : ep ≠ []) :
    parse low (sch ++ sep ++ auth ++ 47 :: ep) = some ⟨low sch, auth, ep⟩ := by
  have hne : sch ++ sep ++ auth ++ 47 :: ep ≠ [] := by simp
  have hidx : Str.index sep (sch ++ sep ++ auth ++ 47 :: ep) = some sch.length := by
    rw [List.append_assoc (sch ++ sep)]
    exact index_first sch _ h2
  have htake : (sch ++ sep ++ auth ++ 47 :: ep).take sch.length = sch := by simp
  have hdrop : (sch ++ sep ++ auth ++ 47 :: ep).drop (sch.length + 3) = auth ++ 47 :: ep := by
    rw [show sch ++ sep ++ auth ++ 47 :: ep = (sch ++ sep) ++ (auth ++ 47 :: ep) by simp]
    rw [List.drop_append_of_le_length (by simp [sep])]
    have : List.drop (sch.length + 3) (sch ++ sep) = [] := by
      apply List.drop_of_length_le; simp [sep]
    rw [this]; rfl
  have hs : ¬ low sch = [] := fun e => h1 (hl.nil _ e)
  unfold parse
  rw [if_neg hne, lit_sep, hidx]
  simp only [htake, hdrop, lit_slash]
  rw [if_neg hs]
  cases auth with
  | nil =>
    have : Str.hasPrefix [47] ([] ++ 47 :: ep) = true := by simp [Str.hasPrefix, List.isPrefixOf]
    rw [if_pos this]
    simp [h4]
  | cons c auth =>
    have hc : ¬ (47 : UInt8) = c := fun e => h3 (by simp [e])
    have : ¬ Str.hasPrefix [47] (c :: auth ++ 47 :: ep) = true := by
      simp [Str.hasPrefix, List.isPrefixOf, hc]
    rw [if_neg this, slash_index (c :: auth) ep h3]
    simp only
    have hd : (c :: auth ++ 47 :: ep).drop ((c :: auth).length + 1) = ep := by
      rw [List.drop_append]
      simp
    have ht : (c :: auth ++ 47 :: ep).take (c :: auth).length = c :: auth := by simp
    rw [hd, ht, if_neg h4]

/-- C32, exactly: `Parse` accepts precisely the strings of the documented form and gives their
parts; everything else (the empty string, an empty scheme, a missing or empty endpoint) is
rejected. -/
theorem C32_parse_exact (low : Str → Str) (hl : LowOk low) (s : Str) (t : Target) :
    parse low s = some t ↔ Means low s t := by
  constructor
  · intro h
    unfold parse at h
    split at h
    · cases h
    rename_i hne
    rw [lit_sep] at h
    cases hi : Str.index sep s with
    | none =>
      rw [hi] at h
      injection h with h
      subst h
      exact .bare hne (index_none.mp hi)
    | some i =>
      rw [hi] at h
      obtain ⟨sch, rest, h1, h2, h3⟩ := index_some hi
      have htake : s.take i = sch := by
        rw [h1, ← h3, List.append_assoc]; simp
      have hdrop : s.drop (i + 3) = rest := by
        rw [h1, ← h3, List.drop_append_of_le_length (by simp [sep])]
        have : List.drop (sch.length + 3) (sch ++ sep) = [] := by
          apply List.drop_of_length_le; simp [sep]
        rw [this]; rfl
      simp only [htake, hdrop, lit_slash] at h
      split at h
      · cases h
      rename_i hls
      have hsch : sch ≠ [] := by
        intro e
        subst e
        exact hls hl.lowNil
      split at h
      · rename_i hp
        cases rest with
        | nil => simp [Str.hasPrefix, List.isPrefixOf] at hp
        | cons c r =>
          have hc : c = 47 := by
            have h47 : (47 : UInt8) = c := by
              simp only [Str.hasPrefix, List.isPrefixOf, Bool.and_true, beq_iff_eq] at hp
              exact hp
            exact h47.symm
          subst hc
          split at h
          · cases h
          rename_i hep
          injection h with h
          subst h
          have := Means.full (low := low) (auth := []) hsch h2 (by simp) hep
          simpa [h1] using this
      · cases hs : Str.index [47] rest with
        | none => rw [hs] at h; cases h
        | some j =>
          rw [hs] at h
          obtain ⟨auth, ep, g1, g2, g3⟩ := slash_index_some hs
          have ht : rest.take j = auth := by rw [g1, ← g3]; simp
          have hd : rest.drop (j + 1) = ep := by
            rw [g1, ← g3, List.drop_append]
            simp
          simp only [ht, hd] at h
          split at h
          · cases h
          rename_i hep
          injection h with h
          subst h
          have := Means.full (low := low) hsch h2 g2 hep
          rw [h1, g1]
          simpa using this
  · intro h
    cases h with
    | bare h1 h2 =>
      unfold parse
      rw [if_neg h1, lit_sep, index_none.mpr h2]
      rfl
    | full h1 h2 h3 h4 => exact parse_full hl h1 h2 h3 h4

/-- C32: printing what `Parse` returned and parsing it again gives the same target, for every
string; in particular a bare address gets its default scheme and keeps its meaning. -/
theorem C32_round_trip (low : Str → Str) (hl : LowOk low) (hp : low (lit "passthrough") = lit "passthrough")
    (s : Str) (t : Target) (h : parse low s = some t) : parse low t.string = some t := by
  have key : ∀ sch auth ep : Str, sch ≠ [] → ¬ Occurs sep sch → (47 : UInt8) ∉ auth → ep ≠ [] →
      low sch = sch → parse low (Target.string ⟨sch, auth, ep⟩) = some ⟨sch, auth, ep⟩ := by
    intro sch auth ep h1 h2 h3 h4 h5
    have := parse_full hl h1 h2 h3 h4
    rw [h5] at this
    rw [← this]
    congr 1
    unfold Target.string
    simp only [lit_sep, lit_slash, lit_sep3]
    cases auth with
    | nil => simp [sep]
    | cons c a => simp
  cases (C32_parse_exact low hl s t).mp h with
  | bare h1 h2 =>
    refine key _ _ _ (by decide +kernel) ?_ (by simp) h1 hp
    rw [← index_none]
    decide +kernel
  | full h1 h2 h3 h4 =>
    exact key _ _ _ (fun e => h1 (hl.nil _ e)) (hl.sep _ h2) h3 h4 (hl.idem _)

/-- Malformed targets are rejected. -/
theorem C32_malformed_rejected (low : Str → Str) (hl : LowOk low) :
    parse low [] = none ∧
    (∀ r, parse low (sep ++ r) = none) ∧
    (∀ sch a, sch ≠ [] → ¬ Occurs sep sch → (47 : UInt8) ∉ a →
      parse low (sch ++ sep ++ a) = none ∧ parse low (sch ++ sep ++ a ++ [47]) = none) := by
  refine ⟨rfl, ?_, ?_⟩
  · intro r
    have : Str.index sep (sep ++ r) = some 0 := by
      have := index_first [] r (by rintro ⟨a, b, h⟩; have := congrArg List.length h; simp [sep] at this)
      simpa using this
    unfold parse
    rw [if_neg (by simp [sep]), lit_sep, this]
    show (if low ((sep ++ r).take 0) = [] then none else _) = none
    rw [if_pos (by rw [List.take_zero]; exact hl.lowNil)]
  · intro sch a h1 h2 h3
    have hmean : ∀ s t, Means low s t → ∀ x, s = sch ++ sep ++ x →
        ∃ auth ep, x = auth ++ 47 :: ep ∧ ep ≠ [] ∧ (47 : UInt8) ∉ auth := by
      intro s t hm x hx
      cases hm with
      | bare g1 g2 => exact absurd ⟨sch, x, hx⟩ g2
      | full g1 g2 g3 g4 =>
        rename_i sch' auth ep
        have e1 := index_first sch x h2
        have e2 := index_first sch' (auth ++ 47 :: ep) g2
        rw [← hx] at e1
        rw [show sch' ++ sep ++ (auth ++ 47 :: ep) = sch' ++ sep ++ auth ++ 47 :: ep by simp] at e2
        rw [e2] at e1
        injection e1 with e1
        have hx' : (sch' ++ sep) ++ (auth ++ 47 :: ep) = (sch ++ sep) ++ x := by
          rw [← hx]; simp
        have := List.append_inj hx' (by simp [e1])
        exact ⟨auth, ep, this.2.symm, g4, g3⟩
    constructor
    · cases hpz : parse low (sch ++ sep ++ a) with
      | none => rfl
      | some t =>
        obtain ⟨auth, ep, e, _, _⟩ := hmean _ t ((C32_parse_exact low hl _ _).mp hpz) a rfl
        exact absurd (by rw [e]; simp) h3
    · cases hpz : parse low (sch ++ sep ++ a ++ [47]) with
      | none => rfl
      | some t =>
        obtain ⟨auth, ep, e, hne, ha⟩ := hmean _ t ((C32_parse_exact low hl _ _).mp hpz) (a ++ [47])
          (by simp)
        have := cut_inj (a := a) (x := []) (a' := auth) (x' := ep) e h3 ha
        exact absurd this.2.symm hne

example : parse Str.lower (lit "DNS://srv:53/svc") = some ⟨lit "dns", lit "srv:53", lit "svc"⟩ ∧
    parse Str.lower (lit "localhost:80") = some ⟨lit "passthrough", [], lit "localhost:80"⟩ ∧
    parse Str.lower (lit "dns://server") = none := by decide +kernel

example : LowOk Str.lower ∧ Str.lower (lit "passthrough") = lit "passthrough" :=
  ⟨lower_ok, by decide +kernel⟩

end Claw.Resolver
