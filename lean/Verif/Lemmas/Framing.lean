import Verif.Model.Framing
import Verif.Lemmas.Record

namespace Claw.Frame

open Claw

theorem fill_enough : ∀ (cs : List Bytes) (n : Nat) (got : Bytes), n ≤ cs.flatten.length →
    ∃ cs', fill cs n got = (none, got ++ cs.flatten.take n, cs') ∧ cs'.flatten = cs.flatten.drop n := by
  intro cs
  induction cs with
  | nil =>
    intro n got h
    have : n = 0 := by simpa using h
    subst this; exact ⟨[], by simp [fill], rfl⟩
  | cons c cs ih =>
    intro n got h
    cases n with
    | zero => exact ⟨c :: cs, by simp [fill], rfl⟩
    | succ n =>
      simp only [List.flatten_cons, List.length_append] at h
      by_cases hc : c.length ≤ n + 1
      · obtain ⟨cs', e, he⟩ := ih (n + 1 - c.length) (got ++ c) (by omega)
        refine ⟨cs', ?_, ?_⟩
        · rw [fill, if_pos hc, e]
          simp only [List.flatten_cons]
          rw [List.take_append, List.take_of_length_le hc]; simp
        · rw [he, List.flatten_cons, List.drop_append, List.drop_of_length_le hc]; simp
      · refine ⟨c.drop (n + 1) :: cs, ?_, ?_⟩
        · rw [fill, if_neg hc, List.flatten_cons, List.take_append_of_le_length (by omega)]
        · rw [List.flatten_cons, List.flatten_cons, List.drop_append_of_le_length (by omega)]

theorem fill_short : ∀ (cs : List Bytes) (n : Nat) (got : Bytes), cs.flatten.length < n →
    fill cs n got = (some (if got ++ cs.flatten = [] then .eof else .unexpectedEof), got ++ cs.flatten, []) := by
  intro cs
  induction cs with
  | nil =>
    intro n got h
    cases n with
    | zero => simp at h
    | succ n => simp [fill]
  | cons c cs ih =>
    intro n got h
    simp only [List.flatten_cons, List.length_append] at h
    cases n with
    | zero => omega
    | succ n => rw [fill, if_pos (by omega), ih _ _ (by omega)]; simp

/-- Two transports that deliver the same bytes. -/
theorem fill_congr (cs ds : List Bytes) (h : cs.flatten = ds.flatten) (n : Nat) (got : Bytes) :
    (fill cs n got).1 = (fill ds n got).1 ∧ (fill cs n got).2.1 = (fill ds n got).2.1 ∧
      (fill cs n got).2.2.flatten = (fill ds n got).2.2.flatten := by
  by_cases hn : n ≤ cs.flatten.length
  · obtain ⟨a, e1, h1⟩ := fill_enough cs n got hn
    obtain ⟨b, e2, h2⟩ := fill_enough ds n got (by rw [← h]; exact hn)
    rw [e1, e2, h]; exact ⟨rfl, rfl, by rw [h1, h2, h]⟩
  · rw [fill_short cs n got (by omega), fill_short ds n got (by rw [← h]; omega), h]
    exact ⟨rfl, rfl, rfl⟩

/-- The same result up to how the rest is cut into pieces. -/
def Out.Same (a b : Out) : Prop := a.err = b.err ∧ a.st = b.st ∧ a.rest.flatten = b.rest.flatten ∧ a.alloc = b.alloc

def SameRes : Res Out → Res Out → Prop
  | .ok a, .ok b => a.Same b
  | .panic, .panic => True
  | .hang, .hang => True
  | _, _ => False

theorem unmarshalReader_congr (k : Nat) (s : St) {cs ds : List Bytes} (h : cs.flatten = ds.flatten) :
    SameRes (unmarshalReader k s cs) (unmarshalReader k s ds) := by
  obtain ⟨h1, h2, h3⟩ := fill_congr cs ds h HeaderSize []
  simp only [unmarshalReader]
  revert h1 h2 h3
  generalize fill cs HeaderSize [] = a
  generalize fill ds HeaderSize [] = b
  obtain ⟨ea, ga, ra⟩ := a
  obtain ⟨eb, gb, rb⟩ := b
  rintro h1 h2 h3
  simp only at h1 h2 h3
  subst h1 h2
  simp only
  cases ea with
  | some e => exact ⟨rfl, rfl, h3, rfl⟩
  | none =>
    simp only
    cases decodeHeader ga with
    | none => trivial
    | some x =>
      obtain ⟨_, ft, n⟩ := x
      simp only
      split
      · exact ⟨rfl, rfl, h3, rfl⟩
      split
      · trivial
      split
      · obtain ⟨g1, g2, g3⟩ := fill_congr ra rb h3 (n - HeaderSize) []
        revert g1 g2 g3
        generalize fill ra (n - HeaderSize) [] = a
        generalize fill rb (n - HeaderSize) [] = b
        obtain ⟨ea, ga, ra⟩ := a
        obtain ⟨eb, gb, rb⟩ := b
        rintro g1 g2 g3
        simp only at g1 g2 g3
        subst g1 g2
        cases ea with
        | some e => exact ⟨rfl, rfl, g3, rfl⟩
        | none => exact ⟨rfl, rfl, g3, rfl⟩
      · exact ⟨rfl, rfl, h3, rfl⟩

theorem readPack_congr (k : Nat) {cs ds : List Bytes} (h : cs.flatten = ds.flatten) :
    (readPack k cs = .panic ∧ readPack k ds = .panic) ∨
    ∃ e p rc rd a, readPack k cs = .ok (e, p, rc, a) ∧ readPack k ds = .ok (e, p, rd, a) ∧ rc.flatten = rd.flatten := by
  obtain ⟨h1, h2, h3⟩ := fill_congr cs ds h 16 []
  simp only [readPack]
  revert h1 h2 h3
  generalize fill cs 16 [] = a
  generalize fill ds 16 [] = b
  obtain ⟨ea, ga, ra⟩ := a
  obtain ⟨eb, gb, rb⟩ := b
  rintro h1 h2 h3
  simp only at h1 h2 h3
  subst h1 h2
  simp only
  cases ea with
  | some e => exact Or.inr ⟨_, _, _, _, _, rfl, rfl, h3⟩
  | none =>
    simp only
    generalize Pack.addInt 16 (Pack.toInt (getLE ((ga.drop 8).take 8))) = sz
    split
    · exact Or.inl ⟨rfl, rfl⟩
    split
    · exact Or.inl ⟨rfl, rfl⟩
    obtain ⟨g1, g2, g3⟩ := fill_congr ra rb h3 (sz.toNat - 16) []
    revert g1 g2 g3
    generalize fill ra (sz.toNat - 16) [] = a
    generalize fill rb (sz.toNat - 16) [] = b
    obtain ⟨ea, ga', ra⟩ := a
    obtain ⟨eb, gb, rb⟩ := b
    rintro g1 g2 g3
    simp only at g1 g2 g3
    subst g1 g2
    exact Or.inr ⟨_, _, _, _, _, rfl, rfl, g3⟩

/-! ### Whole messages -/

/-- A whole message is read. -/
theorem unmarshalReader_message (k : Nat) (s : St) (r : Nat) (hr : r < 2 ^ 16) (body tail : Bytes) (h40 : 8 + body.length < 2 ^ 40)
    (hk : 8 + body.length ≤ k) (cs : List Bytes) (hcs : cs.flatten = hdr r FTStruct (8 + body.length) ++ body ++ tail) :
    ∃ sp rest, unmarshalReader k s cs = .ok ⟨none, { s with seg := ⟨hdr r FTStruct (8 + body.length) ++ body, sp⟩, parsed := false }, rest,
      if 8 + body.length ≤ s.seg.cap then 0 else 8 + body.length⟩ ∧ rest.flatten = tail := by
  obtain ⟨c1, e1, h1⟩ := fill_enough cs HeaderSize [] (by rw [hcs]; simp [HeaderSize])
  have ht : cs.flatten.take HeaderSize = hdr r FTStruct (8 + body.length) := by
    rw [hcs, List.append_assoc]; exact List.take_left' (by simp [HeaderSize])
  have hd : cs.flatten.drop HeaderSize = body ++ tail := by
    rw [hcs, List.append_assoc]; exact List.drop_left' (by simp [HeaderSize])
  rw [ht, List.nil_append] at e1
  rw [hd] at h1
  have hdec := decodeHeader_hdr hr (ft := FTStruct) (by decide) h40 []
  rw [List.append_nil] at hdec
  obtain ⟨c2, e2, h2⟩ := fill_enough c1 (8 + body.length - HeaderSize) [] (by rw [h1]; simp [HeaderSize])
  have hn : 8 + body.length - HeaderSize = body.length := by simp [HeaderSize]
  rw [h1, hn, List.nil_append, List.take_left] at e2
  rw [h1, hn, List.drop_left] at h2
  have hcopy : ∀ d : Bytes, d.length = 8 + body.length → goCopy (goCopy d 0 (hdr r FTStruct (8 + body.length))) HeaderSize body
      = hdr r FTStruct (8 + body.length) ++ body := by
    intro d hdl
    rw [goCopy_take_drop d 0 _ (by simp; omega)]
    simp only [List.take_zero, List.nil_append, hdr_length, Nat.zero_add]
    rw [goCopy_take_drop _ HeaderSize _ (by simp [HeaderSize]; omega)]
    rw [List.take_left' (by simp [HeaderSize]), List.drop_of_length_le (by simp [HeaderSize]; omega), List.append_nil]
  simp only [unmarshalReader, e1, hdec]
  rw [if_neg (by decide)]
  by_cases hc : 8 + body.length ≤ s.seg.cap
  · have hcd : decide (8 + body.length ≤ s.seg.cap) = true := by simpa using hc
    simp only [hcd, Bool.not_true, Bool.false_and, Bool.false_eq_true, if_false, if_true]
    by_cases hb : HeaderSize < 8 + body.length
    · rw [if_pos hb]
      simp only [hn, e2]
      rw [hcopy _ (by simp [Seg.cap] at hc; simp; omega), if_pos hc]
      exact ⟨_, _, rfl, h2⟩
    · rw [if_neg hb]
      have hb0 : body = [] := List.length_eq_zero_iff.mp (by simp only [HeaderSize] at hb; omega)
      subst hb0
      rw [goCopy_take_drop _ 0 _ (by simp [Seg.cap] at hc; simp; omega), if_pos hc]
      simp only [List.take_zero, List.nil_append, List.append_nil, List.length_nil, Nat.add_zero, hdr_length, Nat.zero_add]
      rw [List.drop_of_length_le (by simp; omega), List.append_nil]
      exact ⟨_, _, rfl, by simpa using h1⟩
  · have hcd : decide (8 + body.length ≤ s.seg.cap) = false := by simpa using hc
    have hkd : decide (k < 8 + body.length) = false := by simpa using hk
    simp only [hcd, hkd, Bool.and_false, Bool.false_eq_true, if_false]
    by_cases hb : HeaderSize < 8 + body.length
    · rw [if_pos hb]
      simp only [hn, e2]
      rw [hcopy _ (by simp), if_neg hc]
      exact ⟨_, _, rfl, h2⟩
    · rw [if_neg hb]
      have hb0 : body = [] := List.length_eq_zero_iff.mp (by simp only [HeaderSize] at hb; omega)
      subst hb0
      rw [goCopy_take_drop _ 0 _ (by simp), if_neg hc]
      simp only [List.take_zero, List.nil_append, List.append_nil, List.length_nil, Nat.add_zero, hdr_length, Nat.zero_add]
      rw [List.drop_of_length_le (by simp), List.append_nil]
      exact ⟨_, _, rfl, by simpa using h1⟩

end Claw.Frame
