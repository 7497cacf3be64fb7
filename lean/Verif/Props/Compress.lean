import Verif.Model.Compress

/-!
# C44 Compression is transparent
-/

namespace Claw.Compress

open Claw

/-- What a compressor must satisfy: non-empty data that it compresses comes back, and does not
become empty.  (gzip, snappy and zstd all write at least a header.) -/
def Lawful (send recv : Compressor) : Prop :=
  ∀ d z, d ≠ [] → send.compress d = some z → z ≠ [] ∧ recv.decompress z = some d

/-- The two ends agree on an algorithm: both know it and one undoes the other, or neither
compresses. -/
def Agree (rs rr : Registry) (t : UInt8) : Prop :=
  t ≠ 0 → ∀ c, rs t = some c → ∃ c', rr t = some c' ∧ Lawful c c'

/-- C44: what was compressed decompresses to the input, for every payload and algorithm. -/
theorem C44_round_trip (rs rr : Registry) (t : UInt8) (h : Agree rs rr t) (d z : Bytes)
    (hz : compress rs t d = some z) : decompress rr t z = some d := by
  unfold compress at hz
  unfold decompress
  by_cases ht : t = cmpNone
  · rw [if_pos ht] at hz ⊢
    injection hz with hz; rw [hz]
  · rw [if_neg ht] at hz ⊢
    by_cases hd : d.length = 0
    · rw [if_pos hd] at hz
      injection hz with hz
      rw [← hz, if_pos hd]
    · rw [if_neg hd] at hz
      cases hr : rs t with
      | none => rw [hr] at hz; cases hz
      | some c =>
        rw [hr] at hz
        obtain ⟨c', hc', hl⟩ := h ht c hr
        obtain ⟨hne, hdec⟩ := hl d z (fun e => hd (by simp [e])) hz
        have : ¬ z.length = 0 := fun e => hne (List.length_eq_zero_iff.mp e)
        rw [if_neg this, hc']
        exact hdec

/-- C44 (for non-empty payloads): an algorithm that is not registered is an error in both
directions.  The full claim has no restriction on the payload; `C44_empty_is_not_checked` shows
that the empty payload passes. -/
theorem C44_unknown_is_an_error_partial (r : Registry) (t : UInt8) (ht : t ≠ 0) (hr : r t = none)
    (d : Bytes) (hd : d ≠ []) : compress r t d = none ∧ decompress r t d = none := by
  have h1 : ¬ t = cmpNone := ht
  have h2 : ¬ d.length = 0 := fun e => hd (List.length_eq_zero_iff.mp e)
  simp [compress, decompress, h1, h2, hr]

theorem C44_empty_is_not_checked :
    compress Dict.empty 9 [] = some [] ∧ decompress Dict.empty 9 [] = some [] := by
  decide

/-- C44: what a receiver delivers for a non-empty compressed frame was produced by the
decompressor registered for the frame's algorithm; the raw bytes are never passed through. -/
theorem C44_never_passed_through (r : Registry) (limit : Nat) (f : Frame) (d : Bytes) (e : Bool)
    (ht : f.compression ≠ 0) (hp : f.payload ≠ [])
    (h : handlePayload r limit f = some (d, e)) :
    ∃ c, r f.compression = some c ∧ c.decompress f.payload = some d := by
  have h1 : ¬ f.compression = cmpNone := ht
  have h2 : ¬ f.payload.length = 0 := fun e => hp (List.length_eq_zero_iff.mp e)
  have h3 : f.compression ≠ cmpNone ∧ f.payload.length > 0 := ⟨h1, by omega⟩
  unfold handlePayload at h
  rw [if_pos h3] at h
  unfold decompress at h
  rw [if_neg h1, if_neg h2] at h
  cases hr : r f.compression with
  | none => rw [hr] at h; simp at h
  | some c =>
    rw [hr] at h
    refine ⟨c, rfl, ?_⟩
    cases hd : c.decompress f.payload with
    | none => simp [hd] at h
    | some d' =>
      simp only [hd] at h
      split at h
      · cases h
      · injection h with h; injection h with h _; rw [h]

/-- C44 end to end: for ends that agree on the sender's algorithm, a payload that was accepted
for sending is delivered unchanged with its end-of-stream mark, unless it is larger than the
receiver's limit; then it is dropped.  Nothing else can happen. -/
theorem C44_end_to_end (rs rr : Registry) (ls lr : Nat) (alg : UInt8) (payload : Bytes) (e : Bool)
    (h : Agree rs rr alg) (f : Frame) (hf : sendPayload rs ls alg payload e = some f) :
    handlePayload rr lr f =
      if lr > 0 ∧ payload.length > lr then none else some (payload, e) := by
  unfold sendPayload at hf
  split at hf
  · cases hf
  split at hf
  · rename_i ha
    cases hc : compress rs alg payload with
    | none => rw [hc] at hf; cases hf
    | some z =>
      rw [hc] at hf
      injection hf with hf
      subst hf
      have hd := C44_round_trip rs rr alg h payload z hc
      have hz : z.length > 0 := by
        unfold compress at hc
        rw [if_neg ha.1, if_neg (by omega)] at hc
        cases hr : rs alg with
        | none => rw [hr] at hc; cases hc
        | some c =>
          rw [hr] at hc
          obtain ⟨c', _, hl⟩ := h ha.1 c hr
          have := (hl payload z (fun e => by have := ha.2; simp [e] at this) hc).1
          have h0 : z.length ≠ 0 := fun e => this (List.length_eq_zero_iff.mp e)
          omega
      simp only [handlePayload]
      rw [if_pos ⟨ha.1, hz⟩, hd]
  · rename_i ha
    injection hf with hf
    subst hf
    simp only [handlePayload]
    rw [if_neg ha]

/-- C44: a frame whose algorithm the receiver does not know is dropped without any notice. -/
theorem C44_unknown_frames_are_dropped (rr : Registry) (lr : Nat) (f : Frame)
    (ht : f.compression ≠ 0) (hp : f.payload ≠ []) (hr : rr f.compression = none) :
    handlePayload rr lr f = none := by
  cases h : handlePayload rr lr f with
  | none => rfl
  | some x =>
    obtain ⟨c, hc, _⟩ := C44_never_passed_through rr lr f x.1 x.2 ht hp h
    rw [hr] at hc; cases hc

/-- The law must exclude empty output: with a compressor that inverts correctly but sends one
input to the empty string, the payload is lost. -/
theorem C44_empty_output_is_not_undone :
    ∃ c : Compressor, (∀ d z, c.compress d = some z → c.decompress z = some d) ∧
      ∃ d z, compress (register Dict.empty c) c.type d = some z ∧
        decompress (register Dict.empty c) c.type z ≠ some d := by
  refine ⟨⟨fun d => if d = [7] then some [] else if d = [] then some [7] else some d,
      fun z => if z = [] then some [7] else if z = [7] then some [] else some z, 4⟩, ?_, ?_⟩
  · intro d z
    simp only
    by_cases h1 : d = [7]
    · subst h1; simp only [if_true]; intro h; injection h with h; subst h; rfl
    · by_cases h2 : d = []
      · subst h2; simp
        intro h; subst h; simp
      · simp only [if_neg h1, if_neg h2]
        intro h; injection h with h; subst h
        simp [h1, h2]
  · exact ⟨[7], [], by decide +kernel, by decide +kernel⟩

/-- C44: a later registration of the same type replaces an earlier one and no other. -/
theorem C44_last_registration_wins (cs : List Compressor) (c : Compressor) (t : UInt8) :
    (cs ++ [c]).foldl register Dict.empty t =
      if t = c.type then some c else cs.foldl register Dict.empty t := by
  rw [List.foldl_append]
  simp [register, Dict.set]

section demo

private def xorC : Compressor := ⟨fun d => some (1 :: d.map (· ^^^ 0x55)),
  fun z => match z with | 1 :: z => some (z.map (· ^^^ 0x55)) | _ => none, 1⟩

private theorem xorC_lawful : Lawful xorC xorC := by
  intro d z _ h
  simp only [xorC, Option.some.injEq] at h
  subst h
  refine ⟨by simp, ?_⟩
  simp only [xorC, List.map_map, Option.some.injEq]
  have : ((fun x : UInt8 => x ^^^ 0x55) ∘ fun x => x ^^^ 0x55) = id := by
    funext x
    simp [UInt8.xor_assoc]
  rw [this, List.map_id]

/-- The hypotheses are met by a real (if simple) compressor. -/
example : Agree (register Dict.empty xorC) (register Dict.empty xorC) 1 ∧
    sendPayload (register Dict.empty xorC) 10 1 [1, 2, 3] true = some ⟨[1, 0x54, 0x57, 0x56], true, 1⟩ ∧
    handlePayload (register Dict.empty xorC) 10 ⟨[1, 0x54, 0x57, 0x56], true, 1⟩ =
      some ([1, 2, 3], true) := by
  refine ⟨?_, by decide +kernel, by decide +kernel⟩
  intro _ c hc
  refine ⟨c, hc, ?_⟩
  simp only [register, Dict.set, xorC, if_true] at hc
  injection hc with hc
  subst hc
  exact xorC_lawful

end demo

end Claw.Compress
