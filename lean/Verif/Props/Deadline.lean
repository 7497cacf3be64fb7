import Verif.Lemmas.Deadline

/-!
# C143 The deadline of a call is kept on both sides

A call or stream that is opened under a deadline runs under that deadline at the server; a configured timeout is the time each call has;
a call returns when its time is over. Times are integers in nanoseconds. The clock of the server is ahead of that of the client by
`skew`.
-/

namespace Claw.Deadline

open Claw
open Claw.ServiceConfig (Config MethodConfig getMethodConfig applyServiceConfig)
open Claw.ErrCode (Err errCode)

/-- An Open written at `t1` under the deadline `d`, at least one millisecond ahead, and handled at `t2`: the context of the handler has a
deadline, which is no later than `d` by more than `t2 - t1`, whatever the clocks show and the context of the connection is; when the
latter has none, it is earlier than `d + (t2 - t1)` by less than a millisecond (a `time.Duration` ends after 292 years).
Partial: nothing is said about deadlines less than a millisecond ahead (`C143_short_deadline`), and the handler has the time of the
transport on top (`C143_transport_added`). -/
theorem C143_handler_deadline_partial (t1 t2 d skew : Int) (parent : Option Int) (h : t1 + ms ≤ d) :
    (∃ e, handlerCtx parent (t2 + skew) (openDeadline t1 (some d)) = some (e + skew) ∧ e ≤ d + (t2 - t1)) ∧
    (d - t1 < 2 ^ 63 → parent = none →
      ∃ e, handlerCtx parent (t2 + skew) (openDeadline t1 (some d)) = some (e + skew) ∧ d + (t2 - t1) - ms < e) := by
  obtain ⟨h1, h2, h3, h4⟩ := openDeadline_long t1 d h
  have hd := duration_small _ h2
  constructor
  · obtain ⟨e, he, hle⟩ := withDeadline_le parent (t2 + skew + duration (openDeadline t1 (some d)))
    refine ⟨e - skew, ?_, ?_⟩
    · rw [handlerCtx, if_pos h1, he, Int.sub_add_cancel]
    · rw [hd] at hle; omega
  · rintro h5 rfl
    have := h4 h5
    refine ⟨t2 + openDeadline t1 (some d) * ms, ?_, by omega⟩
    rw [handlerCtx, if_pos h1, hd]
    simp only [withDeadline, Option.some.injEq]
    omega

example : (5 : Int) + ms ≤ 30000000000 ∧
    handlerCtx none (700 + 40) (openDeadline 5 (some 30000000000)) = some (29999000700 + 40) := by decide +kernel

/-- Violation: a call opened with less than a millisecond left, or after its deadline, runs at the server without any deadline: the
context of the handler is the one of the connection. -/
theorem C143_short_deadline (t1 t2 d : Int) (parent : Option Int) (h : d < t1 + ms) :
    handlerCtx parent t2 (openDeadline t1 (some d)) = parent ∧
      handlerCtx parent t2 (openDeadline t1 none) = parent := by
  rw [openDeadline_short t1 d h]
  exact ⟨rfl, rfl⟩

example : (7000000 : Int) < 8000000 + ms ∧ handlerCtx none 9000000 (openDeadline 8000000 (some 7000000)) = none := by decide +kernel

/-- Violation: a handler may go on after the deadline of the caller for as long as the Open was on its way. -/
theorem C143_transport_added (t1 t2 skew : Int) (n : Nat) (h : 0 < n) (h2 : n ≤ 9223372036854) :
    handlerCtx none (t2 + skew) (openDeadline t1 (some (t1 + n * ms))) = some (t1 + n * ms + (t2 - t1) + skew) := by
  have h0 : t1 + ms ≤ t1 + n * ms := by unfold ms; omega
  obtain ⟨h3, h4, h5, h6⟩ := openDeadline_long t1 (t1 + n * ms) h0
  have h7 := h6 (by unfold ms; omega)
  have : openDeadline t1 (some (t1 + n * ms)) = n := by unfold ms at *; omega
  rw [this, handlerCtx, if_pos h, duration_small n h2]
  simp only [withDeadline, Option.some.injEq]
  omega

example : handlerCtx none (900000000 + 0) (openDeadline 0 (some (0 + (100 : Nat) * ms))) = some 1000000000 := by decide +kernel

/-- What the server makes of the number in an Open, from any client: up to 9223372036854 it is that many milliseconds from now. -/
theorem C143_wire (now : Int) (n : Nat) (h : 0 < n) (h2 : n ≤ 9223372036854) : handlerCtx none now n = some (now + n * ms) := by
  rw [handlerCtx, if_pos h, duration_small n h2]; rfl

/-- Violation: from there on up to 18446744073709 the deadline has passed before the handler starts. -/
theorem C143_wire_overflow (now : Int) (parent : Option Int) (n : Nat) (h : 9223372036855 ≤ n) (h2 : n ≤ 18446744073709) :
    ∃ e, handlerCtx parent now n = some e ∧ e < now := by
  obtain ⟨e, he, hle⟩ := withDeadline_le parent (now + duration n)
  have := duration_big n h h2
  exact ⟨e, by rw [handlerCtx, if_pos (by omega), he], by omega⟩

example : handlerCtx none 5 9223372036854 = some 9223372036854000005 ∧ handlerCtx none 5 9223372036855 = some (-9223372036854551611) := by
  decide +kernel

/-- The deadline of the caller is the one the session is opened under; without one it is the configured timeout from now. -/
theorem C143_open (cfg : Config) (pkg service call : Str) (wait : Bool) (now : Int) (m : MethodConfig)
    (h : getMethodConfig cfg pkg service call = some m) (ht : 0 < m.timeout) (d : Int) :
    openCtx (some cfg) pkg service call wait now none = some (now + m.timeout) ∧
      openCtx (some cfg) pkg service call wait now (some d) = some d := by
  simp only [openCtx, applyServiceConfig, h]
  simp [ht, withDeadline]

/-- Violation: a configured timeout runs from the call of `Sync`, for all calls of the client together. A client opened at `t0` under the
timeout `m.timeout` gets no reply to a request that reaches the server after that time (and the time of the transport) has passed, nor to
any later one, from no handler that heeds its context; the session ends with an error. The contexts of the calls themselves play no
role. -/
theorem C143_shared_timeout (cfg : Config) (pkg service call : Str) (wait : Bool) (m : MethodConfig)
    (h : getMethodConfig cfg pkg service call = some m) (t0 t1 t2 : Int) (h1 : t1 + ms ≤ t0 + m.timeout) (h0 : t0 ≤ t1)
    (hd : Handler) (hh : Obeys hd) (now : Int) (pre post : List Req) (r : Req) (hr : t0 + m.timeout + (t2 - t1) ≤ r.arrives)
    (out : List (UInt32 × Bytes) × Option Err)
    (hout : out = runSync hd (handlerCtx none t2 (openDeadline t1 (openCtx (some cfg) pkg service call wait t0 none))) now
      (pre ++ r :: post)) :
    out.1.length ≤ pre.length ∧ out.1.map (·.1) <+: pre.map (·.id) ∧ out.2.isSome ∧ (pre = [] → out.2 = some .deadline ∧ errCode out.2 = 4) := by
  have ht : 0 < m.timeout := by unfold ms at h1; omega
  rw [(C143_open cfg pkg service call wait t0 m h ht 0).1] at hout
  obtain ⟨⟨e, he, hle⟩, -⟩ := C143_handler_deadline_partial t1 t2 (t0 + m.timeout) 0 none h1
  rw [Int.add_zero, Int.add_zero] at he
  rw [he] at hout
  obtain ⟨a, b, x, c⟩ := runSync_late hd hh e r (by omega) post pre now
  subst hout
  refine ⟨a, b, by rw [c]; rfl, ?_⟩
  rintro rfl
  have hx := hh e (max now r.arrives) r.data (by omega)
  have : (runSync hd (some e) now ([] ++ r :: post)).2 = some .deadline := by
    simp only [List.nil_append, runSync]
    revert hx
    generalize hd (some e) (max now r.arrives) r.data = y
    obtain ⟨y1, y2⟩ := y
    intro hy
    simp only at hy
    subst hy
    rfl
  exact ⟨this, by rw [this]; rfl⟩

/-- A handler that answers at once with the request unless its context has ended. -/
def echo : Handler := fun ctx t req =>
  match ctx with
  | some d => if d ≤ t then (.error .deadline, t) else (.ok req, t)
  | none => (.ok req, t)

theorem echo_obeys : Obeys echo := by
  intro d t req h
  simp [echo, h]

/-- A timeout of one second for all methods. -/
def second : Config := ServiceConfig.setTimeout (fun _ => none) (lit "*/*/*") 1000000000

example : getMethodConfig second (lit "p") (lit "s") (lit "c") = some { timeout := 1000000000, waitForReady := false } := by
  decide +kernel

/-- A call made two seconds after the client was opened is refused, and with it the session is over. -/
example : (match runSync echo (handlerCtx none 2000000 (openDeadline 1000000 (openCtx (some second) (lit "p") (lit "s") (lit "c") false 0 none))) 0
      [⟨500000000, 0, [1]⟩, ⟨2000000000, 1, [2]⟩, ⟨2100000000, 2, [3]⟩] with
    | (out, e) => decide (out = [(0, [1])]) && decide (e = some .deadline)) = true := by
  decide +kernel

/-- A call under the deadline `d` returns, whatever the server and the connection do, as soon as its request is written and its deadline
has passed, plus what the write of the Cancel takes.
Partial: the write of the request must return, and that of the Cancel within `delay` (`C143_stalled_write`). -/
theorem C143_call_returns_partial (w : World) (a d delay : Int) (hw : w.written = some a) (hf : w.failed = none)
    (hc : ∀ t, ∃ f, w.cancel t = some f ∧ f ≤ t + delay) (h0 : 0 ≤ delay) (r : Option Int) (h : Returns w (some d) r) :
    ∃ t, r = some t ∧ t ≤ max a d + delay := by
  cases h with
  | failed t h => rw [hf] at h; cases h
  | stuck h1 h2 => rw [hw] at h2; cases h2
  | never a' h1 h2 h3 h4 => cases h4
  | ended a' d' h1 h2 h3 h4 =>
    rw [hw] at h2
    cases h2; cases h3
    obtain ⟨f, hf, hle⟩ := hc (max a d)
    exact ⟨f, hf, hle⟩
  | event a' b h1 h2 h3 h4 h5 =>
    rw [hw] at h2
    cases h2
    have := h5 d rfl
    exact ⟨_, rfl, by omega⟩

example : Returns { written := some 5, events := [90] } (some 60) (some 60) := by
  refine .ended (w := { written := some 5, events := [90] }) 5 60 rfl rfl rfl ?_
  decide

/-- Every call has an outcome, whatever happens around it. -/
theorem C143_outcome (w : World) (ctx : Option Int) : ∃ r, Returns w ctx r := by
  cases hf : w.failed with
  | some t => exact ⟨_, .failed t hf⟩
  | none =>
    cases hw : w.written with
    | none => exact ⟨_, .stuck hf hw⟩
    | some a =>
      by_cases he : w.events = []
      · cases ctx with
        | none => exact ⟨_, .never a hf hw he rfl⟩
        | some d => exact ⟨_, .ended a d hf hw rfl (by rw [he]; simp)⟩
      · have : ∀ l : List Int, l ≠ [] → ∃ b ∈ l, ∀ c ∈ l, max a b ≤ max a c := by
          intro l
          induction l with
          | nil => intro h; exact absurd rfl h
          | cons x l ih =>
            intro _
            by_cases hl : l = []
            · subst hl; exact ⟨x, by simp, by simp⟩
            · obtain ⟨b, hb, hall⟩ := ih hl
              by_cases hxb : max a x ≤ max a b
              · refine ⟨x, by simp, ?_⟩
                intro c hc
                rcases List.mem_cons.1 hc with rfl | hc
                · exact Int.le_refl _
                · have := hall c hc; omega
              · refine ⟨b, List.mem_cons_of_mem _ hb, ?_⟩
                intro c hc
                rcases List.mem_cons.1 hc with rfl | hc
                · omega
                · exact hall c hc
        obtain ⟨b, hb, hall⟩ := this _ he
        cases ctx with
        | none => exact ⟨_, .event a b hf hw hb hall (by intro d hd; cases hd)⟩
        | some d =>
          by_cases hbd : max a b ≤ max a d
          · exact ⟨_, .event a b hf hw hb hall (by intro d' hd; cases hd; exact hbd)⟩
          · refine ⟨_, .ended a d hf hw rfl ?_⟩
            intro c hc
            have := hall c hc
            omega

/-- Violation: a call never returns while the transport does not take its request, or the Cancel that is sent when its time is over,
whatever its deadline. -/
theorem C143_stalled_write (w : World) (hf : w.failed = none) (ctx r : Option Int) (h : Returns w ctx r) :
    (w.written = none → r = none) ∧ (∀ a, w.written = some a → w.events = [] → (∀ t, w.cancel t = none) → r = none) := by
  cases h with
  | failed t h => rw [hf] at h; cases h
  | stuck h1 h2 => exact ⟨fun _ => rfl, fun _ _ _ _ => rfl⟩
  | never a' h1 h2 h3 h4 => exact ⟨fun _ => rfl, fun _ _ _ _ => rfl⟩
  | ended a' d' h1 h2 h3 h4 =>
    refine ⟨fun h => (by rw [h2] at h; cases h), fun a _ _ hc => hc _⟩
  | event a' b h1 h2 h3 h4 h5 =>
    refine ⟨fun h => (by rw [h2] at h; cases h), fun a _ he _ => (by rw [he] at h3; cases h3)⟩

example : Returns {} (some 60) none := .stuck rfl rfl

/-- Violation: a configured timeout does not bound a call. A client opened under one, whose server does not answer: its calls without a
deadline of their own never return. -/
theorem C143_timeout_ignored (cfg : Config) (pkg service call : Str) (wait : Bool) (m : MethodConfig)
    (h : getMethodConfig cfg pkg service call = some m) (ht : 0 < m.timeout) (t0 : Int) (w : World) (hf : w.failed = none)
    (he : w.events = []) :
    openCtx (some cfg) pkg service call wait t0 none = some (t0 + m.timeout) ∧ ∀ r, Returns w none r → r = none := by
  refine ⟨(C143_open cfg pkg service call wait t0 m h ht 0).1, ?_⟩
  intro r hr
  cases hr with
  | failed t h => rw [hf] at h; cases h
  | stuck h1 h2 => rfl
  | never a' h1 h2 h3 h4 => rfl
  | ended a' d' h1 h2 h3 h4 => cases h3
  | event a' b h1 h2 h3 h4 h5 => rw [he] at h3; cases h3

example : Returns { written := some 5 } none none := .never (w := { written := some 5 }) 5 rfl rfl rfl rfl

end Claw.Deadline
