import Verif.Model.ErrCode

/-!
# C36 Handler errors reach the client as errors

The specification looks at the nodes of an error in the order in which Go's `errors` package
visits them.
-/

namespace Claw.ErrCode

open Claw

/-- What one node of an error is. -/
inductive Node where
  | other | deadline | canceled | category (c : UInt32) | foreign
  deriving DecidableEq, Repr

/-- All nodes, outside in and left to right. -/
def nodes : Err → List Node
  | .other => [.other]
  | .deadline => [.deadline]
  | .canceled => [.canceled]
  | .rpc (some c) e => .category c :: nodes e
  | .rpc none e => .foreign :: nodes e
  | .wrap e => .other :: nodes e
  | .join a b => .other :: (nodes a ++ nodes b)

/-- The node is an `Error` of the errors package. -/
def Node.isRpc : Node → Bool
  | .category _ => true
  | .foreign => true
  | _ => false

theorem asRpc_eq (e : Err) : asRpc e =
    match (nodes e).find? Node.isRpc with
    | some (.category c) => some (some c)
    | some .foreign => some none
    | _ => none := by
  induction e with
  | other => rfl
  | deadline => rfl
  | canceled => rfl
  | rpc c e _ => cases c <;> rfl
  | wrap e ih => simp only [asRpc, nodes, List.find?, Node.isRpc, ih]
  | join a b iha ihb =>
    simp only [asRpc, nodes, List.find?, Node.isRpc, List.find?_append]
    rw [iha, ihb]
    cases ha : (nodes a).find? Node.isRpc with
    | none => simp
    | some n =>
      have := List.find?_some ha
      cases n <;> simp_all [Node.isRpc]

theorem isDeadline_iff (e : Err) : isDeadline e = true ↔ Node.deadline ∈ nodes e := by
  induction e with
  | rpc c e ih => cases c <;> simp [isDeadline, nodes, ih]
  | wrap e ih => simp [isDeadline, nodes, ih]
  | join a b iha ihb => simp [isDeadline, nodes, iha, ihb]
  | _ => simp [isDeadline, nodes]

theorem isCanceled_iff (e : Err) : isCanceled e = true ↔ Node.canceled ∈ nodes e := by
  induction e with
  | rpc c e ih => cases c <;> simp [isCanceled, nodes, ih]
  | wrap e ih => simp [isCanceled, nodes, ih]
  | join a b iha ihb => simp [isCanceled, nodes, iha, ihb]
  | _ => simp [isCanceled, nodes]

/-- C36, exact code: the code sent is the category of the outermost `Error` of the errors
package, cut to 16 bits; without one (or with a category of another package) it is 4 for an
error around `context.DeadlineExceeded`, else 1 for one around `context.Canceled`, else 13. -/
theorem C36_code_exact (e : Err) :
    (errCode (some e)).toNat =
      match (nodes e).find? Node.isRpc with
      | some (.category c) => c.toNat % 65536
      | _ => if Node.deadline ∈ nodes e then 4 else if Node.canceled ∈ nodes e then 1 else 13 := by
  simp only [errCode]
  rw [asRpc_eq]
  have hd := isDeadline_iff e
  have hc := isCanceled_iff e
  have rest : (if isDeadline e = true then (4 : UInt16)
      else if isCanceled e = true then 1 else 13).toNat =
      if Node.deadline ∈ nodes e then 4 else if Node.canceled ∈ nodes e then 1 else 13 := by
    by_cases h1 : Node.deadline ∈ nodes e
    · rw [if_pos (hd.mpr h1), if_pos h1]; rfl
    · rw [if_neg (fun h => h1 (hd.mp h)), if_neg h1]
      by_cases h2 : Node.canceled ∈ nodes e
      · rw [if_pos (hc.mpr h2), if_pos h2]; rfl
      · rw [if_neg (fun h => h2 (hc.mp h)), if_neg h2]; rfl
  cases hf : (nodes e).find? Node.isRpc with
  | none => exact rest
  | some n =>
    cases n with
    | category c => simp
    | foreign => exact rest
    | other => exact rest
    | deadline => exact rest
    | canceled => exact rest

/-- C36 (for categories 1 to 65535): the code sent to the client is the error's category, and
not 'none'.  The full claim has no restriction on the category; `C36_code_none_iff` shows exactly
when it fails. -/
theorem C36_code_is_category_partial (e : Err) (c : UInt32)
    (h : (nodes e).find? Node.isRpc = some (.category c)) (h1 : 1 ≤ c.toNat) (h2 : c.toNat < 65536) :
    (errCode (some e)).toNat = c.toNat ∧ errCode (some e) ≠ 0 := by
  have := C36_code_exact e
  rw [h] at this
  simp only [Nat.mod_eq_of_lt h2] at this
  refine ⟨this, fun h0 => ?_⟩
  rw [h0] at this
  have h00 : (0 : UInt16).toNat = 0 := rfl
  omega

/-- C36: exactly the errors whose outermost category is a multiple of 65536 (among them the
category 'unknown') are reported as 'none'. -/
theorem C36_code_none_iff (e : Err) :
    errCode (some e) = 0 ↔
      ∃ c, (nodes e).find? Node.isRpc = some (.category c) ∧ c.toNat % 65536 = 0 := by
  have h := C36_code_exact e
  have h0 : errCode (some e) = 0 ↔ (errCode (some e)).toNat = 0 :=
    ⟨fun h => by rw [h]; rfl, fun h => UInt16.toNat_inj.mp (by rw [h]; rfl)⟩
  rw [h0, h]
  have rest : (if Node.deadline ∈ nodes e then 4 else if Node.canceled ∈ nodes e then 1 else 13)
      ≠ 0 := by split <;> (try split) <;> omega
  cases hf : (nodes e).find? Node.isRpc with
  | none => simpa using rest
  | some n => cases n <;> simp <;> simpa using rest

/-- C36, no error: success is reported as 'none'. -/
theorem C36_success_is_none : errCode none = 0 := rfl

/-! ## Delivery -/

/-- C36: a synchronous call whose handler fails never returns a reply: in every interleaving it
is still waiting, has an error, or has panicked; the error's category is the code sent, or 14
(unavailable) when the code is 'none'. -/
theorem C36_sync_outcomes (e : Err) (reqID : Nat) (s : Call)
    (h : Steps Call.Step ⟨⟨syncMsgs e, [], false, none⟩, reqID, .waiting⟩ s) :
    s.outcome = .waiting ∨ s.outcome = .panic ∨
      s.outcome = .error (if errCode (some e) ≠ 0 then errCode (some e) else 14) := by
  have inv : s.ch.recvQ = [] ∧ (∀ m ∈ s.ch.inbox, m = .close (errCode (some e)) ∨ m = .closeRecv) ∧
      (∀ c, s.ch.closeQ = some c → c = errCode (some e)) ∧
      (s.outcome = .waiting ∨ s.outcome = .panic ∨
        s.outcome = .error (if errCode (some e) ≠ 0 then errCode (some e) else 14)) := by
    induction h with
    | refl => simp [syncMsgs]
    | tail _ st ih =>
      rename_i b c _
      obtain ⟨i1, i2, i3, i4⟩ := ih
      cases st with
      | read hr =>
        unfold Chans.read at hr
        split at hr
        · cases hr
        · rename_i q d e' rest hin
          have := i2 (.payload q d e') (by rw [hin]; simp)
          simp at this
        · rename_i c' rest hin
          injection hr with hr
          subst hr
          have := i2 (.close c') (by rw [hin]; simp)
          simp only [Msg.close.injEq, reduceCtorEq, or_false] at this
          refine ⟨i1, ?_, ?_, i4⟩
          · intro m hm
            rcases List.mem_cons.mp hm with h | h
            · exact Or.inr h
            · exact i2 m (by rw [hin]; simp [h])
          · intro x hx
            cases hq : b.ch.closeQ with
            | none => simp only [hq, Option.none_or, Option.some.injEq] at hx; rw [← hx, this]
            | some y =>
              simp only [hq, Option.some_or, Option.some.injEq] at hx
              rw [← hx]; exact i3 y hq
        · rename_i rest hin
          injection hr with hr
          subst hr
          exact ⟨i1, fun m hm => i2 m (by rw [hin]; simp [hm]), i3, i4⟩
      | close hw hq =>
        have := i3 _ hq
        refine ⟨i1, i2, by simp, ?_⟩
        right; right
        simp only
        rw [this]
        by_cases h0 : errCode (some e) = 0 <;> simp [h0]
      | recv hw hq => rw [i1] at hq; cases hq
      | recvClosed hw hq hc => exact ⟨i1, i2, i3, Or.inr (Or.inl rfl)⟩
  exact inv.2.2.2

/-- C36 is false for synchronous calls: when the Close message is handled before the caller
looks, the caller may take the closed channel and panic instead of returning the error. -/
theorem C36_sync_call_may_panic :
    ∃ (e : Err) (s : Call), errCode (some e) = 5 ∧
      Steps Call.Step ⟨⟨syncMsgs e, [], false, none⟩, 0, .waiting⟩ s ∧ s.outcome = .panic := by
  refine ⟨.E 5 .other, ⟨⟨[], [], true, some 5⟩, 0, .panic⟩, by decide, ?_, rfl⟩
  have s1 : Call.Step ⟨⟨syncMsgs (.E 5 .other), [], false, none⟩, 0, .waiting⟩
      ⟨⟨[.closeRecv], [], false, some 5⟩, 0, .waiting⟩ := .read (by decide)
  have s2 : Call.Step ⟨⟨[.closeRecv], [], false, some 5⟩, 0, .waiting⟩
      ⟨⟨[], [], true, some 5⟩, 0, .waiting⟩ := .read (by decide)
  have s3 : Call.Step ⟨⟨[], [], true, some 5⟩, 0, .waiting⟩
      ⟨⟨[], [], true, some 5⟩, 0, .panic⟩ := .recvClosed rfl rfl rfl
  exact .tail (.tail (.tail (.refl _) s1) s2) s3

/-- What a session still has to hand to the consumer, in order. -/
def pendingItems (ch : Chans) : List (Bytes × Bool) :=
  ch.recvQ.map (·.2) ++ ch.inbox.filterMap fun
    | .payload _ d e => some (d, e)
    | _ => none

/-- The reader closes `recvCh` only after it has handled everything before the Close. -/
def closeLast : List Msg → Bool
  | [] => true
  | .payload _ _ _ :: ms => closeLast ms
  | .close _ :: ms => ms.isEmpty
  | .closeRecv :: ms => ms.isEmpty

structure Inv (items : List Bytes) (code : UInt16) (s : Stream) : Prop where
  last : closeLast s.ch.inbox = true
  closed : s.ch.recvClosed = true → s.ch.inbox = []
  codes : ∀ c, Msg.close c ∈ s.ch.inbox → c = code
  closeQ : ∀ c, s.ch.closeQ = some c → c = code
  err : s.err = none ∨ (s.err = some code ∧ code ≠ 0)
  running : s.finished = false → ∃ rest,
    items = s.items ++ rest ∧ pendingItems s.ch = rest.map (·, false) ++ [([], true)]
  done : s.finished = true → s.items = items

theorem inv_check {items : List Bytes} {code : UInt16} {s : Stream}
    (h1 : closeLast s.ch.inbox = true) (h0 : s.ch.recvClosed = true → s.ch.inbox = []) (h2 : ∀ c, Msg.close c ∈ s.ch.inbox → c = code)
    (h3 : ∀ c, s.ch.closeQ = some c → c = code)
    (h4 : s.err = none ∨ (s.err = some code ∧ code ≠ 0)) (h5 : s.items = items) :
    Inv items code s.checkClose := by
  unfold Stream.checkClose
  cases hq : s.ch.closeQ with
  | none =>
    exact ⟨h1, h0, h2, fun c hc => (by simp only [hq] at hc; cases hc), h4,
      fun hf => (by simp at hf), fun _ => h5⟩
  | some c =>
    refine ⟨h1, h0, h2, fun _ hc => (by simp at hc), ?_, fun hf => (by simp at hf), fun _ => h5⟩
    have := h3 c hq
    subst this
    by_cases h0 : c = 0
    · simp only [h0, ne_eq, not_true_eq_false, if_false]
      rw [h0] at h4
      rcases h4 with h4 | h4
      · exact Or.inl h4
      · exact absurd rfl h4.2
    · right
      simp [h0]

theorem inv_step {items : List Bytes} {code : UInt16} {s s' : Stream}
    (hi : Inv items code s) (st : Stream.Step s s') : Inv items code s' := by
  obtain ⟨h1, h0, h2, h3, h4, h5, h6⟩ := hi
  cases st with
  | read hr =>
    unfold Chans.read at hr
    split at hr
    · cases hr
    · rename_i q d e rest hin
      injection hr with hr
      subst hr
      rw [hin] at h1 h2 h0
      refine ⟨h1, fun hc => (by cases h0 hc), fun c hc => h2 c (by simp [hc]), h3, h4, fun hf => ?_, h6⟩
      obtain ⟨r, hr1, hr2⟩ := h5 hf
      refine ⟨r, hr1, ?_⟩
      rw [← hr2]
      simp [pendingItems, hin]
    · rename_i c rest hin
      injection hr with hr
      subst hr
      rw [hin] at h1 h2 h0
      have hrest : rest = [] := by simpa [closeLast] using h1
      subst hrest
      refine ⟨rfl, fun hc => (by cases h0 hc), fun c hc => (by simp at hc), ?_, h4, fun hf => ?_, h6⟩
      · intro x hx
        cases hq : s.ch.closeQ with
        | none =>
          simp only [hq, Option.none_or, Option.some.injEq] at hx
          rw [← hx]; exact h2 c (by simp)
        | some y =>
          simp only [hq, Option.some_or, Option.some.injEq] at hx
          rw [← hx]; exact h3 y hq
      · obtain ⟨r, hr1, hr2⟩ := h5 hf
        refine ⟨r, hr1, ?_⟩
        rw [← hr2]
        simp [pendingItems, hin]
    · rename_i rest hin
      injection hr with hr
      subst hr
      rw [hin] at h1 h2 h0
      have hrest : rest = [] := by simpa [closeLast] using h1
      subst hrest
      refine ⟨rfl, fun _ => rfl, fun c hc => (by simp at hc), h3, h4, fun hf => ?_, h6⟩
      obtain ⟨r, hr1, hr2⟩ := h5 hf
      refine ⟨r, hr1, ?_⟩
      rw [← hr2]
      simp [pendingItems, hin]
  | next hn =>
    unfold Stream.next at hn
    split at hn
    · cases hn
    rename_i hf
    have hf : s.finished = false := by simpa using hf
    obtain ⟨r, hr1, hr2⟩ := h5 hf
    split at hn
    · rename_i q d e rest hq
      simp only [pendingItems, hq, List.map_cons, List.cons_append] at hr2
      cases r with
      | nil =>
        simp only [List.map_nil, List.nil_append, List.cons.injEq, Prod.mk.injEq] at hr2
        obtain ⟨⟨hd, he⟩, _⟩ := hr2
        subst hd he
        simp only [List.length_nil, and_self, if_true, Option.some.injEq] at hn
        subst hn
        refine inv_check h1 h0 h2 h3 h4 ?_
        simpa using hr1.symm
      | cons x r =>
        simp only [List.map_cons, List.cons_append, List.cons.injEq, Prod.mk.injEq] at hr2
        obtain ⟨⟨hd, he⟩, hr2⟩ := hr2
        subst hd he
        simp only [Bool.false_eq_true, false_and, if_false, Option.some.injEq] at hn
        subst hn
        refine ⟨h1, h0, h2, h3, h4, fun _ => ⟨r, by simpa using hr1, ?_⟩, fun h => ?_⟩
        · rw [← hr2]; simp [pendingItems]
        · simp only at h; rw [hf] at h; cases h
    · rename_i hq
      split at hn
      · rename_i hc
        exfalso
        have hin := h0 hc
        simp [pendingItems, hq, hin] at hr2
      · cases hn

/-- C36 for streams (bidirectional and server streaming): whatever the interleaving, a loop over
`Recv()` that ends has seen exactly the items the handler sent, in order, and its error is the
code sent or nothing; it is nothing when the code is 'none'. -/
theorem C36_stream_outcomes (items : List Bytes) (result : Option Err) (s : Stream)
    (h : Steps Stream.Step ⟨⟨streamMsgs items result, [], false, none⟩, [], false, none⟩ s)
    (hf : s.finished = true) :
    s.items = items ∧ (s.err = none ∨ (s.err = some (errCode result) ∧ errCode result ≠ 0)) := by
  have inv : Inv items (errCode result) s := by
    clear hf
    induction h with
    | refl =>
      refine ⟨?_, fun h => (by simp at h), ?_, fun _ h => (by simp at h), Or.inl rfl,
        fun _ => ⟨items, rfl, ?_⟩, fun h => (by simp at h)⟩
      · simp only [streamMsgs]
        induction items with
        | nil => rfl
        | cons x xs ih => simpa [closeLast] using ih
      · intro c hc
        simp only [streamMsgs, List.mem_append, List.mem_map, List.mem_cons] at hc
        simpa using hc
      · simp only [pendingItems, streamMsgs, List.map_nil, List.nil_append, List.filterMap_append]
        congr 1
        induction items with
        | nil => rfl
        | cons x xs ih => simpa using ih
    | tail _ st ih => exact inv_step ih st
  exact ⟨inv.done hf, inv.err⟩

/-- C36 is false for streams: the server marks the end of the stream before it sends the Close
message, and a reader that sees the mark first does not wait for the Close.  The handler failed
with category 5 and the client's loop ends without an error. -/
theorem C36_stream_error_may_be_lost :
    ∃ (e : Err) (s : Stream), errCode (some e) = 5 ∧
      Steps Stream.Step ⟨⟨streamMsgs [[1]] (some e), [], false, none⟩, [], false, none⟩ s ∧
      s.finished = true ∧ s.items = [[1]] ∧ s.err = none := by
  refine ⟨.E 5 .other, ⟨⟨[.close 5], [], false, none⟩, [[1]], true, none⟩, by decide, ?_,
    rfl, rfl, rfl⟩
  have s1 : Stream.Step ⟨⟨streamMsgs [[1]] (some (.E 5 .other)), [], false, none⟩, [], false, none⟩
      ⟨⟨[.payload 0 [] true, .close 5], [(0, [1], false)], false, none⟩, [], false, none⟩ :=
    .read (by decide)
  have s2 : Stream.Step
      ⟨⟨[.payload 0 [] true, .close 5], [(0, [1], false)], false, none⟩, [], false, none⟩
      ⟨⟨[.close 5], [(0, [1], false), (0, [], true)], false, none⟩, [], false, none⟩ :=
    .read (by decide)
  have s3 : Stream.Step
      ⟨⟨[.close 5], [(0, [1], false), (0, [], true)], false, none⟩, [], false, none⟩
      ⟨⟨[.close 5], [(0, [], true)], false, none⟩, [[1]], false, none⟩ := .next (by decide)
  have s4 : Stream.Step ⟨⟨[.close 5], [(0, [], true)], false, none⟩, [[1]], false, none⟩
      ⟨⟨[.close 5], [], false, none⟩, [[1]], true, none⟩ := .next (by decide)
  exact .tail (.tail (.tail (.tail (.refl _) s1) s2) s3) s4

/-- C36 for streams: once the Close message has been handled before the loop ends, the error is
reported. -/
theorem C36_stream_error_reported (s s' : Stream) (c : UInt16) (hc : c ≠ 0)
    (hq : s.ch.closeQ = some c) (hn : s.next = some s') (hf : s'.finished = true) :
    s'.err = some c := by
  unfold Stream.next at hn
  split at hn
  · cases hn
  rename_i h0
  split at hn
  · simp only at hn
    split at hn
    · injection hn with hn; subst hn; simp [Stream.checkClose, hq, hc]
    · split at hn
      · injection hn with hn; subst hn; simp [Stream.checkClose, hq, hc]
      · injection hn with hn; subst hn
        simp only at hf; exact absurd hf h0
  · split at hn
    · injection hn with hn; subst hn; simp [Stream.checkClose, hq, hc]
    · cases hn

/-- C36: an error with the category 'unknown' is a success for the client of a stream, in every
interleaving. -/
theorem C36_unknown_category_looks_like_success (items : List Bytes) (s : Stream)
    (h : Steps Stream.Step
      ⟨⟨streamMsgs items (some (.E 0 .other)), [], false, none⟩, [], false, none⟩ s)
    (hf : s.finished = true) : s.err = none := by
  have := (C36_stream_outcomes items _ s h hf).2
  have h0 : errCode (some (.E 0 .other)) = 0 := by decide
  rcases this with h | h
  · exact h
  · exact absurd h0 h.2

/-- Ordinary errors meet the hypotheses: a category inside two wrappers; and a context error. -/
example : (nodes (.wrap (.join .canceled (.E 5 .other)))).find? Node.isRpc = some (.category 5) ∧
    errCode (some (.wrap (.join .canceled (.E 5 .other)))) = 5 ∧
    errCode (some (.wrap (.join .canceled .deadline))) = 4 ∧
    errCode (some (.E 65536 .other)) = 0 := by decide

/-- A run in which the error does arrive. -/
example : ∃ s s' : Stream, s.ch.closeQ = some 5 ∧ s.next = some s' ∧ s'.finished = true :=
  ⟨⟨⟨[.closeRecv], [(0, [], true)], false, some 5⟩, [], false, none⟩, _, rfl, rfl, rfl⟩

end Claw.ErrCode
