import Verif.Spec.KeepAlive

/-!
# C133: keeping a client connection alive
-/

namespace Claw.Alive

open Claw.Idl (Out)
open Claw.AliveSpec

section
variable {P T : Nat} {w : World}

theorem fold_read (now : Nat) (l : List Msg) (s : State) :
    l.foldl (readMsg now) s = { s with lastAct := if l = [] then s.lastAct else now, pong := s.pong || decide (Msg.pong ∈ l) } := by
  induction l generalizing s with
  | nil => simp
  | cons m l ih =>
    rw [List.foldl_cons, ih]
    cases m <;> cases l <;> simp [readMsg]

/-- The state when the ping loop gets its turn. -/
def before (P : Nat) (w : World) (now : Nat) (s : State) : State :=
  { s with
    tick := if now % P = 0 then true else s.tick
    lastAct := if w.recv now = [] then s.lastAct else now
    pong := s.pong || decide (Msg.pong ∈ w.recv now) }

theorem step_eq {now : Nat} {s : State} (h : s.phase ≠ .closed) :
    step P T w now s = ping P T now (w.write now) (w.late now) (before P w now s) := by
  rw [step, if_neg h]
  simp only [fold_read]
  rfl

theorem step_closed {now : Nat} {s : State} (h : s.phase = .closed) : step P T w now s = s := by
  rw [step, if_pos h]

/-- What is known of the state after the instant `n`. -/
structure Good (P T : Nat) (w : World) (n : Nat) (s : State) : Prop where
  act : s.lastAct ≤ n
  /-- nothing since -/
  quiet : s.phase ≠ .closed → ∀ m, s.lastAct < m → m ≤ n → w.recv m = []
  heard : s.lastAct = 0 ∨ w.recv s.lastAct ≠ []
  /-- a pong that is awaited has not come, and there is still time -/
  wait : ∀ p, s.phase = .waiting p → p ∈ s.pings ∧ p ≤ n ∧ (n < p + T ∨ n = p) ∧ s.pong = false ∧ ∀ m, p < m → m ≤ n → Msg.pong ∉ w.recv m
  /-- pings are sent when nothing has come for the interval -/
  pinged : ∀ p ∈ s.pings, p ≤ n ∧ P ≤ p ∧ ∀ m, p < m + P → m ≤ p → m ≠ 0 → w.recv m = []
  /-- why the connection is closed -/
  why : s.phase = .closed → ∃ p ∈ s.pings, w.write p = .fails ∨ (w.write p = .done ∧ ∀ m, p < m → m < p + T → Msg.pong ∉ w.recv m)
  done : ∀ p, s.phase = .waiting p → w.write p = .done
  stuck : s.phase = .sending → ∃ p ∈ s.pings, w.write p = .blocks

theorem good_init : Good P T w 0 init :=
  ⟨by simp [init], fun _ m h1 h2 => by simp [init] at h1; omega, .inl rfl, by simp [init], by simp [init], by simp [init], by simp [init],
    by simp [init]⟩

theorem good_step {n : Nat} {s : State} (g : Good P T w n s) : Good P T w (n + 1) (step P T w (n + 1) s) := by
  by_cases hc : s.phase = .closed
  · rw [step_closed hc]
    exact ⟨by have := g.act; omega, fun h => absurd hc h, g.heard, fun p hp => (by rw [hc] at hp; cases hp),
      fun p hp => let ⟨a, b, c⟩ := g.pinged p hp; ⟨by omega, b, c⟩, g.why, g.done, g.stuck⟩
  · rw [step_eq hc]
    obtain ⟨act, quiet, heard, wait, pinged, why, done, stk⟩ := g
    obtain ⟨la, po, ti, ph, pi⟩ := s
    simp only at *
    have hq := quiet hc
    have act' : (if w.recv (n + 1) = [] then la else n + 1) ≤ n + 1 := by split <;> omega
    have quiet' : ∀ m, (if w.recv (n + 1) = [] then la else n + 1) < m → m ≤ n + 1 → w.recv m = [] := by
      intro m h1 h2
      split at h1
      · rename_i he
        by_cases hm : m = n + 1
        · rw [hm]; exact he
        · exact hq m h1 (by omega)
      · omega
    have heard' : (if w.recv (n + 1) = [] then la else n + 1) = 0 ∨ w.recv (if w.recv (n + 1) = [] then la else n + 1) ≠ [] := by
      split
      · exact heard
      · exact .inr ‹_›
    have pinged' : ∀ p ∈ pi, p ≤ n + 1 ∧ P ≤ p ∧ ∀ m, p < m + P → m ≤ p → m ≠ 0 → w.recv m = [] := by
      intro p hp
      obtain ⟨a, b, c⟩ := pinged p hp
      exact ⟨by omega, b, c⟩
    have hb : before P w (n + 1) ⟨la, po, ti, ph, pi⟩ = ⟨if w.recv (n + 1) = [] then la else n + 1, po || decide (Msg.pong ∈ w.recv (n + 1)),
        if (n + 1) % P = 0 then true else ti, ph, pi⟩ := rfl
    rw [hb]
    generalize (if w.recv (n + 1) = [] then la else n + 1) = la' at *
    generalize (if (n + 1) % P = 0 then true else ti) = tk at *
    cases ph with
    | closed => exact absurd rfl hc
    | sending =>
      exact ⟨act', fun _ => quiet', heard', fun p hp => (by cases hp), pinged', fun h => (by cases h), fun p hp => (by cases hp), stk⟩
    | idle =>
      rw [ping]
      simp only
      split
      · split
        · exact ⟨act', fun _ => quiet', heard', fun p hp => (by cases hp), pinged', fun h => (by cases h), fun p hp => (by cases hp),
            fun h => (by cases h)⟩
        · rename_i hlong
          have pinged2 : ∀ p ∈ pi ++ [n + 1], p ≤ n + 1 ∧ P ≤ p ∧ ∀ m, p < m + P → m ≤ p → m ≠ 0 → w.recv m = [] := by
            intro p hp
            rcases List.mem_append.1 hp with hp | hp
            · exact pinged' p hp
            · simp only [List.mem_singleton] at hp
              subst hp
              refine ⟨by omega, by omega, ?_⟩
              intro m h1 h2 h3
              exact quiet' m (by omega) h2
          cases hw : w.write (n + 1) with
          | done =>
            refine ⟨act', fun _ => quiet', heard', ?_, pinged2, fun h => (by cases h), ?_, fun h => (by cases h)⟩
            · intro p hp
              cases hp
              exact ⟨by simp, by omega, .inr rfl, rfl, fun m h1 h2 => by omega⟩
            · intro p hp
              cases hp
              exact hw
          | fails =>
            exact ⟨act', fun h => absurd rfl h, heard', fun p hp => (by cases hp), pinged2, fun _ => ⟨n + 1, by simp, .inl hw⟩,
              fun p hp => (by cases hp), fun h => (by cases h)⟩
          | blocks =>
            exact ⟨act', fun _ => quiet', heard', fun p hp => (by cases hp), pinged2, fun h => (by cases h), fun p hp => (by cases hp),
              fun _ => ⟨n + 1, by simp, hw⟩⟩
      · exact ⟨act', fun _ => quiet', heard', fun p hp => (by cases hp), pinged', fun h => (by cases h), fun p hp => (by cases hp),
          fun h => (by cases h)⟩
    | waiting p =>
      obtain ⟨w1, w2, w3, w4, w5⟩ := wait p rfl
      have wd := done p rfl
      rw [ping]
      simp only
      split
      · exact ⟨act', fun _ => quiet', heard', fun p hp => (by cases hp), pinged', fun h => (by cases h), fun p hp => (by cases hp),
            fun h => (by cases h)⟩
      · rename_i hno
        split
        · rename_i hT
          refine ⟨act', fun h => absurd rfl h, heard', fun p hp => (by cases hp), pinged', ?_, fun p hp => (by cases hp), fun h => (by cases h)⟩
          intro _
          refine ⟨p, w1, .inr ⟨wd, ?_⟩⟩
          intro m h1 h2
          exact w5 m h1 (by omega)
        · rename_i hT
          have hnp : ¬ (Msg.pong ∈ w.recv (n + 1)) := by
            intro hp
            apply hno
            refine ⟨by simp [hp], .inl (by omega)⟩
          refine ⟨act', fun _ => quiet', heard', ?_, pinged', fun h => (by cases h), ?_, fun h => (by cases h)⟩
          · intro q hq2
            cases hq2
            refine ⟨w1, by omega, .inl (by omega), by simp [w4, hnp], ?_⟩
            intro m h1 h2
            by_cases hm : m = n + 1
            · rw [hm]; exact hnp
            · exact w5 m h1 (by omega)
          · intro q hq2
            cases hq2
            exact wd

theorem good_run (P T : Nat) (w : World) (n : Nat) : Good P T w n (run P T w n) := by
  induction n with
  | zero => exact good_init
  | succ n ih => exact good_step ih

/-- C133: a ping is sent only when nothing has been received for the interval. -/
theorem C133_idle_only {n p : Nat} (h : p ∈ (run P T w n).pings) : ∀ m, p < m + P → m ≤ p → m ≠ 0 → w.recv m = [] :=
  ((good_run P T w n).pinged p h).2.2

/-- C133: keeping alive closes a connection only if writing a ping failed, or no pong came in time for a ping that was written. -/
theorem C133_why {n : Nat} (h : (run P T w n).phase = .closed) :
    ∃ p ∈ (run P T w n).pings, w.write p = .fails ∨ (w.write p = .done ∧ ¬ Answered w T p) := by
  obtain ⟨p, hp, h2⟩ := (good_run P T w n).why h
  refine ⟨p, hp, h2.imp id fun ⟨h3, h4⟩ => ⟨h3, ?_⟩⟩
  rintro ⟨m, m1, m2, m3⟩
  exact h4 m m1 m2 m3

/-- C133: so a connection on which pings are written and answered in time stays open. -/
theorem C133_alive (hw : ∀ p, w.write p ≠ .fails) (ha : ∀ n, ∀ p ∈ (run P T w n).pings, Answered w T p) (n : Nat) :
    (run P T w n).phase ≠ .closed := by
  intro h
  obtain ⟨p, hp, h2⟩ := C133_why h
  rcases h2 with h2 | h2
  · exact hw p h2
  · exact h2.2 (ha n p hp)

/-- C133: as does one on which something is received in every interval; it is never pinged. -/
theorem C133_busy (hb : Busy w P) (n : Nat) : (run P T w n).pings = [] ∧ (run P T w n).phase ≠ .closed := by
  have hn : (run P T w n).pings = [] := by
    cases hp : (run P T w n).pings with
    | nil => rfl
    | cons p l =>
      exfalso
      have hm : p ∈ (run P T w n).pings := by rw [hp]; simp
      obtain ⟨_, h1, h2⟩ := (good_run P T w n).pinged p hm
      obtain ⟨m, m1, m2, m3⟩ := hb p
      rcases m3 with m3 | m3
      · omega
      · by_cases h0 : m = 0
        · omega
        · exact m3 (h2 m (by omega) m1 h0)
  refine ⟨hn, ?_⟩
  intro h
  obtain ⟨p, hp, _⟩ := C133_why h
  rw [hn] at hp
  cases hp

theorem closed_stays {n m : Nat} (h : (run P T w n).phase = .closed) (hm : n ≤ m) : (run P T w m).phase = .closed := by
  induction m with
  | zero =>
    have : n = 0 := by omega
    subst this
    exact h
  | succ m ih =>
    by_cases he : n = m + 1
    · subst he; exact h
    · rw [run, step_closed (ih (by omega))]
      exact ih (by omega)

/-- Without a pong the connection is closed when the time is up. -/
theorem wait_closes {n p m : Nat} (h : (run P T w n).phase = .waiting p) (hq : ∀ k, n < k → k ≤ m → Msg.pong ∉ w.recv k)
    (hm : n ≤ m) (hT : p + T ≤ m) (hlt : n < m) : (run P T w m).phase = .closed := by
  have key : ∀ k, n ≤ k → k ≤ m → (run P T w k).phase = .waiting p ∨ (run P T w k).phase = .closed := by
    intro k
    induction k with
    | zero =>
      intro h1 _
      have : n = 0 := by omega
      subst this
      exact .inl h
    | succ k ih =>
      intro h1 h2
      by_cases he : n = k + 1
      · subst he; exact .inl h
      · rcases ih (by omega) (by omega) with hk | hk
        · have hg := ((good_run P T w k).wait p hk).2.2.2.1
          have hno := hq (k + 1) (by omega) h2
          rw [run, step_eq (by rw [hk]; simp), ping]
          simp only [before, hk, hg, hno, decide_false, Bool.or_false]
          rw [if_neg (by simp)]
          split
          · exact .inr rfl
          · exact .inl rfl
        · exact .inr (closed_stays hk (by omega))
  rcases key m hm (Nat.le_refl m) with hk | hk
  · have := ((good_run P T w m).wait p hk).2.2.1
    have h0 := ((good_run P T w n).wait p h).2.1
    omega
  · exact hk

/-- The ping loop waits or has closed the connection. -/
def Over (w : World) (P T k n : Nat) : Prop :=
  (∃ p, (run P T w n).phase = .waiting p ∧ p ≤ k) ∨ (run P T w n).phase = .closed

theorem over_step {k n : Nat} (hs : w.recv (n + 1) = []) (h : Over w P T k n) : Over w P T k (n + 1) := by
  rcases h with ⟨p, hp, hk⟩ | h
  · have hg := ((good_run P T w n).wait p hp).2.2.2.1
    rw [Over, run, step_eq (by rw [hp]; simp), ping]
    simp only [before, hp, hg, hs, List.not_mem_nil, decide_false, Bool.or_false]
    rw [if_neg (by simp)]
    split
    · exact .inr rfl
    · exact .inl ⟨p, rfl, hk⟩
  · exact .inr (closed_stays h (by omega))

/-- C133 (partial): where writes return, a peer from which nothing is received after the instant `t` is found out: the connection is
closed after two intervals and the timeout at most. Missing: writes that do not return, see `C133_blocked`. -/
theorem C133_dead_partial (hP : 0 < P) (hT : 0 < T) (hw : ∀ p, w.write p ≠ .blocks) {t : Nat} (hs : SilentAfter w t) {n : Nat}
    (hn : t + 2 * P + T ≤ n) : (run P T w n).phase = .closed := by
  refine closed_stays (n := t + 2 * P + T) ?_ hn
  have nosend : ∀ k, (run P T w k).phase ≠ .sending := by
    intro k hk
    obtain ⟨p, _, hp⟩ := (good_run P T w k).stuck hk
    exact hw p hp
  -- the tick at which it is seen that nothing has come
  have hk : ∃ k, k % P = 0 ∧ t + P ≤ k ∧ k < t + 2 * P := by
    refine ⟨t + 2 * P - 1 - (t + 2 * P - 1) % P, ?_, ?_, ?_⟩
    · have := Nat.div_add_mod (t + 2 * P - 1) P
      have e : t + 2 * P - 1 - (t + 2 * P - 1) % P = P * ((t + 2 * P - 1) / P) := by omega
      rw [e]
      exact Nat.mul_mod_right P _
    · have := Nat.mod_lt (t + 2 * P - 1) hP
      omega
    · have := Nat.mod_le (t + 2 * P - 1) P
      omega
  obtain ⟨k, k1, k2, k3⟩ := hk
  have hact : ∀ m, (run P T w m).lastAct ≤ t := by
    intro m
    rcases (good_run P T w m).heard with h | h
    · omega
    · by_cases hlt : t < (run P T w m).lastAct
      · exact absurd (hs _ hlt) h
      · omega
  have hover : Over w P T k k := by
    obtain ⟨j, rfl⟩ : ∃ j, k = j + 1 := ⟨k - 1, by omega⟩
    have hrecv : w.recv (j + 1) = [] := hs _ (by omega)
    cases hph : (run P T w j).phase with
    | closed => exact .inr (closed_stays hph (by omega))
    | sending => exact absurd hph (nosend j)
    | waiting p => exact over_step hrecv (.inl ⟨p, hph, by have := ((good_run P T w j).wait p hph).2.1; omega⟩)
    | idle =>
      have ha := hact j
      rw [Over, run, step_eq (by rw [hph]; simp), ping]
      simp only [before, hph, hrecv, if_true, k1]
      rw [if_neg (by omega)]
      cases hwr : w.write (j + 1) with
      | done => exact .inl ⟨j + 1, rfl, Nat.le_refl _⟩
      | fails => exact .inr rfl
      | blocks => exact absurd hwr (hw _)
  rcases hover with ⟨p, hp, hpk⟩ | h
  · exact wait_closes hp (fun m h1 _ => by rw [hs m (by omega)]; simp) (by omega) (by omega) (by omega)
  · exact closed_stays h (by omega)

/-- C133 is violated: where writes do not return, as when the buffers towards a dead peer are full, no connection is ever closed. -/
theorem C133_blocked (hw : ∀ p, w.write p = .blocks) (n : Nat) : (run P T w n).phase ≠ .closed := by
  intro h
  obtain ⟨p, _, h2⟩ := C133_why h
  rw [hw p] at h2
  rcases h2 with h2 | h2
  · cases h2
  · cases h2.1

/-- C133 is violated: what else is received does not count while a pong is awaited; a peer that is sending is given up if its pong is late. -/
theorem C133_data {n p : Nat} (hp : (run P T w n).phase = .waiting p)
    (hq : ∀ m, p < m → m ≤ p + T → Msg.pong ∉ w.recv m) (hT : 0 < T) : (run P T w (p + T)).phase = .closed := by
  have hg := (good_run P T w n).wait p hp
  rcases hg.2.2.1 with h | h
  · exact wait_closes hp (fun k h1 h2 => hq k (by omega) h2) (by omega) (Nat.le_refl _) (by omega)
  · exact wait_closes hp (fun k h1 h2 => hq k (by omega) h2) (by omega) (Nat.le_refl _) (by omega)

/-- C133 is violated: if one stream of the connection is not read from, so that reading stops at the instant `t`, the connection is closed
for all streams, however promptly the peer answers. -/
theorem C133_reader (hP : 0 < P) (hT : 0 < T) (hw : ∀ p, w.write p ≠ .blocks) (t : Nat) {n : Nat} (hn : t + 2 * P + T ≤ n) :
    (run P T (stuck t w) n).phase = .closed := by
  refine C133_dead_partial hP hT hw (w := stuck t w) ?_ hn
  intro m hm
  show (if m ≤ t then w.recv m else []) = []
  rw [if_neg (by omega)]

end

/-- C133 is violated: an interval of zero, which would turn pings off, panics. -/
theorem C133_zero (timeout : Int) (w : World) (n : Nat) {interval : Int} (h : interval ≤ 0) : pingLoop interval timeout w n = .panic := by
  rw [pingLoop, if_pos h]

/-! ### Examples -/

/-- The peer answers the ping sent at 3 at 4, then nothing. -/
def once : World := ⟨fun n => if n = 4 then [.pong] else [], fun _ => .done, fun _ => false⟩

example : (run 3 2 once 3).phase = .waiting 3 := by decide
example : (run 3 2 once 4).phase = .idle := by decide
example : (run 3 2 once 9).phase = .waiting 9 := by decide
example : (run 3 2 once 10).phase = .waiting 9 := by decide
example : (run 3 2 once 11).phase = .closed := by decide
example : SilentAfter once 4 := by
  intro n hn
  simp only [once]
  rw [if_neg (by omega)]

/-- A message at every instant. -/
def chatty : World := ⟨fun _ => [.other], fun _ => .done, fun _ => true⟩

example : Busy chatty 3 := fun n => ⟨n, Nat.le_refl _, by omega, .inr (by simp [chatty])⟩

/-- A peer that answers each ping: pings go out at 3, 9, 15, … -/
def good : World := ⟨fun n => if n % 6 = 4 then [.pong] else [], fun _ => .done, fun _ => false⟩

example : (run 3 2 good 30).phase ≠ .closed ∧ (run 3 2 good 30).pings ≠ [] := by decide
example : Answered good 2 9 := ⟨10, by decide, by decide, by decide⟩

/-- The peer answers but is not read: closed. -/
example : (run 3 2 (stuck 1 good) 12).phase = .closed := by decide

/-- The peer sends data all the time after the ping, and its pong too late. -/
def slow : World := ⟨fun n => if n < 4 then [] else if n = 6 then [.pong] else [.other], fun _ => .done, fun _ => false⟩

example : (run 3 2 slow 3).phase = .waiting 3 ∧ (run 3 2 slow 5).phase = .closed := by decide

example : (run 3 2 { once with write := fun _ => .blocks } 100).phase = .sending := by decide +kernel

end Claw.Alive
