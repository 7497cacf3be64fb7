import Verif.Model.BytesList

/-!
# C155: a list of bytes holds values

`after` says what an operation does to the values of a list, if it holds values and not slices of the program.
-/

namespace Claw.BytesList

open Claw

/-! ### Specification -/

/-- The values in the list after an operation; `rd` are the bytes of the slices of the program before it. -/
def after (rd : Nat → Bytes) (l : List Bytes) : Op → List Bytes
  | .append bs => l ++ bs.map rd
  | .set i b => l.set i (rd b)
  | .setAll bs => bs.map rd
  | _ => l

/-- Operations that neither take over a slice nor hand one out. -/
def Op.Copies : Op → Prop
  | .append _ => False
  | .get _ => False
  | .set _ _ | .setAll _ | .make _ | .write _ _ | .slice | .sync => True

/-! ### Invariant -/

/-- No buffer of the list is known to the program, and a list that is not marked is as in the message. -/
structure Inv (p : P) : Prop where
  own : ∀ b ∈ p.items, b < p.bufs.length ∧ b ∉ p.mine
  mine : ∀ b ∈ p.mine, b < p.bufs.length
  clean : p.dirty = false → p.msg = p.contents

theorem contents_append (p : P) (more : List Bytes) (d : Bool) (m : List Bytes) (mi : List Nat)
    (h : ∀ b ∈ p.items, b < p.bufs.length) : P.contents ⟨p.bufs ++ more, p.items, d, m, mi⟩ = p.contents := by
  unfold P.contents P.rd
  apply List.map_congr_left
  intro b hb
  simp only
  rw [List.getElem?_append_left (h b hb)]

theorem range_contents (bufs more : List Bytes) (d : Bool) (m : List Bytes) (mi : List Nat) :
    P.contents ⟨bufs ++ more, List.range' bufs.length more.length, d, m, mi⟩ = more := by
  apply List.ext_getElem
  · simp [P.contents]
  · intro i h1 h2
    simp [P.contents, P.rd, List.getElem?_append_right, h2]

theorem step_inv (p p' : P) (o : Op) (hi : Inv p) (ho : o.Copies) (h : step p o = .ok p') :
    Inv p' ∧ p'.contents = after p.rd p.contents o := by
  have hlt : ∀ b ∈ p.items, b < p.bufs.length := fun b hb => (hi.own b hb).1
  cases o with
  | append bs => exact ho.elim
  | get i => exact ho.elim
  | make v =>
    cases h
    have hc := contents_append p [v] p.dirty p.msg (p.bufs.length :: p.mine) hlt
    refine ⟨⟨fun b hb => ?_, fun b hb => ?_, fun hd => ?_⟩, hc⟩
    · have := hi.own b hb
      simp only [List.length_append, List.mem_cons, not_or]
      exact ⟨by omega, by omega, this.2⟩
    · simp only [List.mem_cons] at hb
      simp only [List.length_append, List.length_cons]
      rcases hb with rfl | hb
      · omega
      · have := hi.mine b hb; omega
    · rw [hc]; exact hi.clean hd
  | write b v =>
    cases h
    by_cases hb : b ∈ p.mine
    · rw [if_pos hb]
      have hc : P.contents { p with bufs := p.bufs.set b v } = p.contents := by
        unfold P.contents P.rd
        apply List.map_congr_left
        intro c hc
        have : b ≠ c := fun e => (hi.own c hc).2 (e ▸ hb)
        simp only
        rw [List.getElem?_set_ne this]
      refine ⟨⟨fun c hc => ?_, fun c hc => ?_, fun hd => ?_⟩, hc⟩
      · simpa using hi.own c hc
      · simpa using hi.mine c hc
      · rw [hc]; exact hi.clean hd
    · rw [if_neg hb]; exact ⟨hi, rfl⟩
  | set i b =>
    unfold step at h
    simp only at h
    split at h
    · rename_i hil
      cases h
      refine ⟨⟨fun c hc => ?_, fun c hc => ?_, fun hd => by cases hd⟩, ?_⟩
      · simp only [List.length_append, List.length_cons, List.length_nil]
        rcases List.mem_or_eq_of_mem_set hc with hc | rfl
        · have := hi.own c hc; exact ⟨by omega, this.2⟩
        · exact ⟨by omega, fun hm => by have := hi.mine _ hm; omega⟩
      · have := hi.mine c hc
        simp only [List.length_append]; omega
      · have hc := contents_append p [p.rd b] true p.msg p.mine hlt
        simp only [after, ← hc]
        unfold P.contents
        rw [List.map_set]
        congr 1
        simp [P.rd]
    · cases h
  | setAll bs =>
    cases h
    refine ⟨⟨fun c hc => ?_, fun c hc => ?_, fun hd => by cases hd⟩, ?_⟩
    · simp only [List.mem_range'_1] at hc
      simp only [List.length_append, List.length_map]
      exact ⟨by omega, fun hm => by have := hi.mine _ hm; omega⟩
    · have := hi.mine c hc
      simp only [List.length_append]; omega
    · have := range_contents p.bufs (bs.map p.rd) true p.msg p.mine
      simpa [after] using this
  | slice =>
    cases h
    have hc := contents_append p (p.items.map p.rd) p.dirty p.msg (List.range' p.bufs.length p.items.length ++ p.mine) hlt
    refine ⟨⟨fun c hc => ?_, fun c hc => ?_, fun hd => ?_⟩, hc⟩
    · have := hi.own c hc
      simp only [List.length_append, List.mem_append, not_or, List.mem_range'_1]
      exact ⟨by omega, by omega, this.2⟩
    · simp only [List.mem_append, List.mem_range'_1] at hc
      simp only [List.length_append, List.length_map]
      rcases hc with hc | hc
      · omega
      · have := hi.mine c hc; omega
    · rw [hc]; exact hi.clean hd
  | sync =>
    cases h
    split
    · exact ⟨⟨hi.own, hi.mine, fun _ => rfl⟩, rfl⟩
    · exact ⟨hi, rfl⟩

theorem run_inv : ∀ (os : List Op) (p p' : P), Inv p → (∀ o ∈ os, o.Copies) → run os p = .ok p' → Inv p'
  | [], p, p', hi, _, h => by cases h; exact hi
  | o :: os, p, p', hi, ho, h => by
    obtain ⟨q, h1, h2⟩ := Res.bind_eq_ok.mp h
    exact run_inv os q p' (step_inv p q o hi (ho o (by simp)) h1).1 (fun o' h' => ho o' (by simp [h'])) h2

theorem start_inv (vs : List Bytes) : Inv (start vs) := by
  have := range_contents [] vs false vs []
  refine ⟨fun b hb => ?_, fun b hb => ?_, fun _ => ?_⟩
  · simp only [start, List.mem_range'_1] at hb ⊢
    exact ⟨by omega, by simp⟩
  · simp [start] at hb
  · simpa [start] using this.symm

/-- **C155, lists hold values.** For every list read from a message and every history of Set, SetAll, Slice, SyncToSegment
and of buffers made and written by the program: each operation does to the values of the list what it says; in particular
writing into a buffer that was given to Set or SetAll, or came from Slice, does not change the list. Missing: histories
with Append, Get, All and Range, for which it is false. -/
theorem C155_values_partial (vs : List Bytes) (os : List Op) (o : Op) (p p' : P) (hos : ∀ x ∈ os, x.Copies)
    (ho : o.Copies) (hr : run os (start vs) = .ok p) (h : step p o = .ok p') :
    p'.contents = after p.rd p.contents o :=
  (step_inv p p' o (run_inv os _ p (start_inv vs) hos hr) ho h).2

/-- **C155, what the list shows is what is written.** For the same histories: after SyncToSegment the message has the values
of the list. Missing: as before, and which lists Marshal writes (C18). -/
theorem C155_sync_partial (vs : List Bytes) (os : List Op) (p p' : P) (hos : ∀ x ∈ os, x.Copies)
    (hr : run os (start vs) = .ok p) (h : step p .sync = .ok p') : p'.msg = p.contents ∧ p'.contents = p.contents := by
  have hi := run_inv os _ p (start_inv vs) hos hr
  cases h
  split
  · exact ⟨rfl, rfl⟩
  · rename_i hd
    exact ⟨hi.clean (by simpa using hd), rfl⟩

/-- **C155, refuted (1): Append takes over the slice.** For every list and buffer of the program: what the program writes
into it after Append is in the list. -/
theorem C155_append_shares (p : P) (b : Nat) (v : Bytes) (hb : b ∈ p.mine) (hl : b < p.bufs.length) :
    ∃ p', run [.append [b], .write b v] p = .ok p' ∧ p'.contents.getLast? = some v := by
  refine ⟨_, rfl, ?_⟩
  simp [P.contents, P.rd, hb, hl]

/-- **C155, refuted (2): what is written into a slice of Get shows in the list and is not in the message.** For every list
read from a message that is not empty, at every index, whatever is written. -/
theorem C155_get_write_lost (vs : List Bytes) (i : Nat) (v : Bytes) (hi : i < vs.length) :
    ∃ p', run [.get i, .write i v, .sync] (start vs) = .ok p' ∧ p'.contents[i]? = some v ∧ p'.msg = vs := by
  have hg : (start vs).items[i]? = some i := by simp [start, hi]
  refine ⟨{ start vs with bufs := vs.set i v, mine := [i] }, ?_, ?_, rfl⟩
  · simp only [run, step, hg]
    simp [start]
  · simp [P.contents, P.rd, start, hi]

/-! ### Concrete cases -/

/-- A list of two, a buffer given to Set and written after it. -/
def demoOps : List Op := [.make [7], .set 1 2, .write 2 [9], .slice, .write 4 [5]]

example : ∀ o ∈ demoOps, o.Copies := by simp [demoOps, Op.Copies]
example : (run demoOps (start [[1], [2]])).bind (fun p => .ok p.contents) = .ok [[1], [7]] := by decide +kernel
example : (run (demoOps ++ [.sync]) (start [[1], [2]])).bind (fun p => .ok p.msg) = .ok [[1], [7]] := by decide +kernel
example : (run [.make [7], .append [2], .write 2 [9]] (start [[1], [2]])).bind (fun p => .ok p.contents) =
    .ok [[1], [2], [9]] := by decide +kernel
example : ∃ p', run [.get 1, .write 1 [9], .sync] (start [[1], [2]]) = .ok p' ∧ p'.contents[1]? = some [9] ∧
    p'.msg = [[1], [2]] := C155_get_write_lost [[1], [2]] 1 [9] (by decide)

end Claw.BytesList
