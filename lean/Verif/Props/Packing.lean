import Verif.Model.Packing
import Verif.Lemmas.NetSteps
import Verif.Props.ClientStream

/-!
# C42: negotiation of packing
-/

namespace Claw.Packing

open Claw

/-- One session is opened and acknowledged with packing. -/
def openOne : List Act :=
  [.cli .open, .cli (.sendOpen 0), .srvRead true true false 0, .srv .tick, .srv .tick, .srv .tick, .cliRead false 0, .cli (.openReady 0)]

/-- **C42 (second session)** With packing, a second session cannot be opened on a connection: its Open is written plain and the server
reads it packed. -/
theorem C42_second_open_lost : ∃ n, run (openOne ++ [.cli .open, .cli (.sendOpen 1), .srvRead true true false 0]) (init true true 0) = some n ∧
    n.lost = true := ⟨_, rfl, by decide⟩

/-- **C42 (two opens at once)** The same when two sessions are opened at the same time. -/
theorem C42_concurrent_opens_lost : ∃ n, run [.cli .open, .cli .open, .cli (.sendOpen 0), .cli (.sendOpen 1), .srvRead true true false 0,
    .srv .tick, .srv .tick, .srv .tick, .srvRead true true false 0] (init true true 0) = some n ∧ n.lost = true := ⟨_, rfl, by decide⟩

/-- **C42 (ping)** A keepalive ping sent before the answer to the first Open is written plain, and the server reads it packed. -/
theorem C42_ping_lost : ∃ n, run [.cli .open, .cli (.sendOpen 0), .cli .ping, .srvRead true true false 0,
    .srv .tick, .srv .tick, .srv .tick, .srvRead true true false 0] (init true true 0) = some n ∧ n.lost = true := ⟨_, rfl, by decide⟩

/-- **C42 (shutdown)** The server is shut down while it handles the first Open: GoAway is written packed before the OpenAck, and the
client reads it plain. -/
theorem C42_goaway_lost : ∃ n, run [.cli .open, .cli (.sendOpen 0), .srvRead true true false 0, .srv .tick, .srv .graceful, .srv (.drain 0),
    .cliRead false 0] (init true true 0) = some n ∧ n.lost = true := ⟨_, rfl, by decide⟩

/-- **C42 (open given up)** The call that opens the first session stops waiting before the OpenAck comes: the client ignores the OpenAck
and its packing bit, the server packs, and the next frame of the server is not understood. -/
theorem C42_timeout_lost : ∃ n, run [.cli .open, .cli (.sendOpen 0), .srvRead true true false 0, .srv .tick, .srv .tick, .srv .tick,
    .cli (.openTimeout 0), .cliRead false 0, .srv (.ret 0), .cliRead false 0] (init true true 0) = some n ∧ n.lost = true :=
  ⟨_, rfl, by decide⟩

/-! ### Reachable states -/

theorem run_append : ∀ (as bs : List Act) (n : Net), run (as ++ bs) n = (run as n).bind (run bs)
  | [], bs, n => rfl
  | a :: as, bs, n => by
    simp only [List.cons_append, run]
    cases step n a with
    | none => rfl
    | some d => exact run_append as bs d

theorem reach {P : Net → Prop} {use allow : Bool} {m : Nat} (h0 : P (init use allow m)) (hs : ∀ n a n', P n → step n a = some n' → P n') :
    ∀ {as : List Act} {n : Net}, run as (init use allow m) = some n → P n := by
  have key : ∀ (as : List Act) (n n' : Net), P n → run as n = some n' → P n' := by
    intro as
    induction as with
    | nil => intro n n' h e; simp only [run, Option.some.injEq] at e; exact e ▸ h
    | cons a as ih =>
      intro n n' h e
      simp only [run, Option.bind_eq_some_iff] at e
      obtain ⟨d, e1, e2⟩ := e
      exact ih d n' (hs n a d h e1) e2
  intro as n e
  exact key as _ _ h0 e

/-- What a step of the two ends is. -/
inductive Eff (n n' : Net) (a : Act) : Prop
  | cli (b : CliConn.Act) (c : CliConn.Conn) : a = .cli b → (∀ f, b ≠ .read f) → CliConn.step n.cli b = some c → n' = { n with cli := c } → Eff n n' a
  | srv (b : SrvConn.Act) (c : SrvConn.Conn) : a = .srv b → (∀ f, b ≠ .read f) → SrvConn.step n.srv b = some c → n' = { n with srv := c } → Eff n n' a
  | up (m : CliConn.Sent) (found typeOk dropped : Bool) (req : UInt32) : a = .srvRead found typeOk dropped req →
      n.cli.out[n.up]? = some (m, n.srv.packing) → n.srv.pc = .idle →
      n' = { n with srv := SrvConn.read n.srv (toSrv m found typeOk dropped req), up := n.up + 1 } → Eff n n' a
  | down (m : SrvConn.Sent) (dropped : Bool) (code : Nat) : a = .cliRead dropped code → n.srv.out[n.down]? = some (m, n.cli.packing) →
      n.cli.pc = .idle → n' = { n with cli := CliConn.read n.cli (toCli m dropped code), down := n.down + 1 } → Eff n n' a
  | lostUp (m : CliConn.Sent) (form : Bool) : n.cli.out[n.up]? = some (m, form) → form ≠ n.srv.packing → n' = { n with lost := true } →
      (∃ f t d r, a = .srvRead f t d r) → Eff n n' a
  | lostDown (m : SrvConn.Sent) (form : Bool) : n.srv.out[n.down]? = some (m, form) → form ≠ n.cli.packing → n' = { n with lost := true } →
      (∃ d c, a = .cliRead d c) → Eff n n' a

theorem step_eff {n n' : Net} {a : Act} (e : step n a = some n') : Eff n n' a := by
  unfold step at e
  split at e
  · simp at e
  cases a with
  | cli b =>
    by_cases hb : ∃ f, b = .read f
    · obtain ⟨f, rfl⟩ := hb
      simp at e
    · have e' : (CliConn.step n.cli b).map (fun c => { n with cli := c }) = some n' := by
        cases b with
        | read f => exact absurd ⟨f, rfl⟩ hb
        | _ => exact e
      simp only [Option.map_eq_some_iff] at e'
      obtain ⟨c, e1, e2⟩ := e'
      exact .cli b c rfl (fun f hf => hb ⟨f, hf⟩) e1 e2.symm
  | srv b =>
    by_cases hb : ∃ f, b = .read f
    · obtain ⟨f, rfl⟩ := hb
      simp at e
    · have e' : (SrvConn.step n.srv b).map (fun c => { n with srv := c }) = some n' := by
        cases b with
        | read f => exact absurd ⟨f, rfl⟩ hb
        | _ => exact e
      simp only [Option.map_eq_some_iff] at e'
      obtain ⟨c, e1, e2⟩ := e'
      exact .srv b c rfl (fun f hf => hb ⟨f, hf⟩) e1 e2.symm
  | srvRead found typeOk dropped req =>
    dsimp only at e
    split at e <;> try (simp at e; done)
    rename_i m form hm
    split at e <;> try (simp at e; done)
    rename_i hp
    split at e
    · rename_i hf
      simp only [Option.map_eq_some_iff] at e
      obtain ⟨c, e1, e2⟩ := e
      unfold SrvConn.step at e1
      split at e1
      · simp at e1
      simp only [Option.some.injEq] at e1
      exact .up m found typeOk dropped req rfl (hf ▸ hm) hp (by rw [e1, e2])
    · rename_i hf
      simp only [Option.some.injEq] at e
      exact .lostUp m form hm hf e.symm ⟨_, _, _, _, rfl⟩
  | cliRead dropped code =>
    dsimp only at e
    split at e <;> try (simp at e; done)
    rename_i m form hm
    split at e <;> try (simp at e; done)
    rename_i hp
    split at e
    · rename_i hf
      simp only [Option.map_eq_some_iff] at e
      obtain ⟨c, e1, e2⟩ := e
      unfold CliConn.step at e1
      split at e1
      · simp at e1
      simp only [Option.some.injEq] at e1
      exact .down m dropped code rfl (hf ▸ hm) hp (by rw [e1, e2])
    · rename_i hf
      simp only [Option.some.injEq] at e
      exact .lostDown m form hm hf e.symm ⟨_, _, rfl⟩

/-- **C42 (no further session)** In every reachable state of the two ends: when the server packs, an Open that it comes to read is not
understood. -/
theorem C42_open_lost (use allow : Bool) (m : Nat) (as : List Act) (n : Net) (h : run as (init use allow m) = some n)
    (hl : n.lost = false) (hp : n.srv.packing = true) (hi : n.srv.pc = .idle) (o : UInt32) (pk form : Bool)
    (hn : n.cli.out[n.up]? = some (.open o pk, form)) (found typeOk dropped : Bool) (req : UInt32) :
    ∃ n', step n (.srvRead found typeOk dropped req) = some n' ∧ n'.lost = true := by
  have hf : ∀ x ∈ n.cli.out, ∀ o pk, x.1 = .open o pk → x.2 = false := by
    refine reach (P := fun n => ∀ x ∈ n.cli.out, ∀ o pk, x.1 = .open o pk → x.2 = false) (by simp [init]) ?_ h
    intro n a n' hP e
    cases step_eff e with
    | cli b c _ hr e1 he =>
      subst he
      obtain ⟨l, g1, g2⟩ := (CliConn.wrote_step e1 hr).out
      intro x hx o pk ho
      dsimp only at hx
      rw [g1, List.mem_append] at hx
      rcases hx with hx | hx
      · exact hP x hx o pk ho
      · rcases g2 x hx with ⟨_, _, rfl, _⟩ | ⟨_, g3⟩
        · rfl
        · exact absurd ho (g3 o pk)
    | srv b c _ hr e1 he => subst he; exact hP
    | up m _ _ _ _ _ _ _ he => subst he; exact hP
    | down m d c _ _ _ he =>
      subst he
      dsimp only
      rw [(CliConn.read_forms n.cli _).1]
      exact hP
    | lostUp m form _ _ he => subst he; exact hP
    | lostDown m form _ _ he => subst he; exact hP
  have hform : form = false := hf _ (List.mem_of_getElem? hn) o pk rfl
  refine ⟨{ n with lost := true }, ?_, rfl⟩
  unfold step
  rw [if_neg (by simp [hl])]
  dsimp only
  rw [hn]
  dsimp only
  rw [if_pos hi, if_neg (by simp [hform, hp])]

/-- Non-vacuous: after the first session. -/
example : ∃ n, run (openOne ++ [.cli .open, .cli (.sendOpen 1)]) (init true true 0) = some n ∧ n.lost = false ∧ n.srv.packing = true ∧
    n.srv.pc = .idle ∧ n.cli.out[n.up]? = some (.open 1 true, false) := ⟨_, rfl, by decide, by decide, by decide, by decide⟩

/-! ### Without packing -/

structure Plain (use allow : Bool) (n : Net) : Prop where
  lost : n.lost = false
  cp : n.cli.packing = false
  sp : n.srv.packing = false
  cu : n.cli.usePacking = use
  sa : n.srv.allowPacking = allow
  cout : ∀ x ∈ n.cli.out, x.2 = false ∧ ∀ o pk, x.1 = .open o pk → pk = use
  sout : ∀ x ∈ n.srv.out, x.2 = false ∧ ∀ o sid ok pk, x.1 = .ack o sid ok pk → pk = false
  pc : ∀ o pk, n.srv.pc = .creating o pk → pk = use

theorem srv_read_pc {c : SrvConn.Conn} {m : CliConn.Sent} {f t d : Bool} {r : UInt32} (hi : c.pc = .idle) {o : UInt32} {pk : Bool}
    (h : (SrvConn.read c (toSrv m f t d r)).pc = .creating o pk) : m = .open o pk := by
  unfold SrvConn.read toSrv at h
  cases m <;> dsimp only at h <;> repeat' split at h
  all_goals first
    | (cases h; rfl)
    | (rw [hi] at h; cases h)
    | (cases h; done)

/-- **C42 (without packing)** When the client does not ask for packing or the server does not allow it, both ends write and read plain
and no frame is ever misunderstood. -/
theorem C42_plain_partial (use allow : Bool) (hw : use = false ∨ allow = false) (m : Nat) (as : List Act) (n : Net)
    (h : run as (init use allow m) = some n) : n.lost = false ∧ n.cli.packing = false ∧ n.srv.packing = false := by
  have key : Plain use allow n := by
    refine reach (P := Plain use allow) ⟨rfl, rfl, rfl, rfl, rfl, by simp [init], by simp [init], by simp [init]⟩ ?_ h
    intro n a n' hP e
    cases step_eff e with
    | cli b c _ hr e1 he =>
      subst he
      have w := CliConn.wrote_step e1 hr
      obtain ⟨l, g1, g2⟩ := w.out
      refine ⟨hP.lost, w.packing.trans hP.cp, hP.sp, w.use.trans hP.cu, hP.sa, ?_, hP.sout, hP.pc⟩
      intro x hx
      dsimp only at hx
      rw [g1, List.mem_append] at hx
      rcases hx with hx | hx
      · exact hP.cout x hx
      · rcases g2 x hx with ⟨o, _, rfl, _⟩ | ⟨g2, g3⟩
        · refine ⟨rfl, ?_⟩
          intro o' pk hh
          simp only [CliConn.Sent.open.injEq] at hh
          exact hh.2.symm.trans hP.cu
        · exact ⟨g2.trans hP.cp, fun o pk ho => absurd ho (g3 o pk)⟩
    | srv b c _ hr e1 he =>
      subst he
      by_cases hc : b = .tick ∧ ∃ o pk, n.srv.pc = .creating o pk
      · obtain ⟨rfl, o, pk, hpc⟩ := hc
        have hpk := hP.pc o pk hpc
        unfold SrvConn.step at e1
        split at e1
        · simp at e1
        dsimp only [SrvConn.tick] at e1
        rw [hpc] at e1
        simp only [Option.some.injEq] at e1
        subst e1
        unfold SrvConn.create
        split
        · exact ⟨hP.lost, hP.cp, hP.sp, hP.cu, hP.sa, hP.cout, hP.sout, by simp⟩
        · refine ⟨hP.lost, hP.cp, ?_, hP.cu, hP.sa, hP.cout, hP.sout, by simp⟩
          dsimp only
          rw [if_neg]
          · exact hP.sp
          · rintro ⟨_, h1, h2⟩
            rw [hpk] at h1
            rw [hP.sa] at h2
            rcases hw with hw | hw
            · rw [hw] at h1; cases h1
            · rw [hw] at h2; cases h2
      · have w := SrvConn.wrote_step e1 hr (fun o pk hpc hb => hc ⟨hb, o, pk, hpc⟩)
        obtain ⟨l, g1, g2⟩ := w.out
        refine ⟨hP.lost, hP.cp, w.packing.trans hP.sp, hP.cu, w.allow.trans hP.sa, hP.cout, ?_, ?_⟩
        · intro x hx
          dsimp only at hx
          rw [g1, List.mem_append] at hx
          rcases hx with hx | hx
          · exact hP.sout x hx
          · rcases g2 x hx with ⟨o, rfl, _⟩ | ⟨o, i, s, rfl, _⟩ | ⟨g2, g3⟩
            · exact ⟨rfl, by intro o' sid ok pk hh; cases hh; rfl⟩
            · exact ⟨rfl, by intro o' sid ok pk hh; cases hh; exact hP.sp⟩
            · exact ⟨g2.trans hP.sp, fun o sid ok pk ho => absurd ho (g3 o sid ok pk)⟩
        · intro o pk hpc
          dsimp only at hpc
          rcases w.pc with h | ⟨_, _, _, h⟩ | h | h | ⟨_, h⟩
          · exact hP.pc o pk (h ▸ hpc)
          all_goals (rw [h] at hpc; cases hpc)
    | up m _ _ _ _ _ hm hi he =>
      subst he
      obtain ⟨r1, r2, r3⟩ := SrvConn.read_forms n.srv (toSrv m _ _ _ _)
      refine ⟨hP.lost, hP.cp, r2.trans hP.sp, hP.cu, r3.trans hP.sa, hP.cout, by dsimp only; rw [r1]; exact hP.sout, ?_⟩
      intro o pk hpc
      have := srv_read_pc hi hpc
      exact (hP.cout _ (List.mem_of_getElem? hm)).2 o pk this
    | down m d c _ hm hi he =>
      subst he
      obtain ⟨r1, r2, r3, r4⟩ := CliConn.read_forms n.cli (toCli m d c)
      refine ⟨hP.lost, ?_, hP.sp, r2.trans hP.cu, hP.sa, by dsimp only; rw [r1]; exact hP.cout, hP.sout, hP.pc⟩
      rcases r4 with ⟨r4, _⟩ | ⟨o, sid, pk, r4, _, r5⟩
      · exact r4.trans hP.cp
      · have hpk : pk = false := by
          refine (hP.sout _ (List.mem_of_getElem? hm)).2 o sid true pk ?_
          unfold toCli at r4
          cases m <;> simp at r4
          simp [r4]
        dsimp only
        rw [r5, hP.cp, hpk]
        simp
    | lostUp m form hm hf he => exact absurd ((hP.cout _ (List.mem_of_getElem? hm)).1.trans hP.sp.symm) hf
    | lostDown m form hm hf he => exact absurd ((hP.sout _ (List.mem_of_getElem? hm)).1.trans hP.cp.symm) hf
  exact ⟨key.lost, key.cp, key.sp⟩

/-- Two sessions and pings on a connection where the server does not allow packing. -/
example : ∃ n, run (openOne ++ [.cli .open, .cli .ping, .cli (.sendOpen 1), .srvRead true true false 3, .srv .tick, .srvRead true true false 0,
    .srv .tick, .srv .tick, .srv .tick, .cliRead false 0, .cliRead false 0, .cli (.openReady 1)]) (init true false 0) = some n ∧
    n.lost = false ∧ n.cli.openers = [.accepted, .accepted] := ⟨_, rfl, by decide, by decide⟩

/-! ### One session -/

/-- The client has one open session at most and is waiting for its answer, or has not asked yet. -/
inductive Shape (use : Bool) : List CliConn.Sess → List CliConn.OPc → List (UInt32 × Nat) → List (CliConn.Sent × Bool) → Prop
  | fresh : Shape use [] [] [] []
  | reg (s : CliConn.Sess) : s.ready = false → Shape use [s] [.registered] [(s.openID, 0)] []
  | gone (s : CliConn.Sess) : s.ready = false → Shape use [s] [.gaveUp] [] []
  | wait (s : CliConn.Sess) (w : CliConn.OPc) : s.ready = false → w = .waiting ∨ w = .sawClosed →
      Shape use [s] [w] [(s.openID, 0)] [(.open s.openID use, false)]

structure CPre (use : Bool) (c : CliConn.Conn) : Prop where
  sess : c.sessions = []
  packing : c.packing = false
  neg : c.negotiated = false
  cu : c.usePacking = use
  pc : c.pc = .idle ∨ c.pc = .exited
  nocrash : c.crashed = false
  shape : Shape use c.heap c.openers c.pending c.out

theorem Shape.cancels {use : Bool} {h h' : List CliConn.Sess} {o : List CliConn.OPc} {p : List (UInt32 × Nat)} {out : List (CliConn.Sent × Bool)}
    (hs : Shape use h o p out) (hc : CliConn.Cancels h h') : Shape use h' o p out := by
  obtain ⟨hl, hc⟩ := hc
  cases hs with
  | fresh =>
    have : h' = [] := List.length_eq_zero_iff.1 hl
    subst this
    exact .fresh
  | reg s hr =>
    obtain ⟨x, hx⟩ := hc 0 s rfl
    obtain ⟨t, rfl⟩ : ∃ t, h' = [t] := List.length_eq_one_iff.1 hl
    simp at hx
    subst hx
    exact .reg { s with cancelClosed := x } hr
  | gone s hr =>
    obtain ⟨x, hx⟩ := hc 0 s rfl
    obtain ⟨t, rfl⟩ : ∃ t, h' = [t] := List.length_eq_one_iff.1 hl
    simp at hx
    subst hx
    exact .gone { s with cancelClosed := x } hr
  | wait s w hr hw =>
    obtain ⟨x, hx⟩ := hc 0 s rfl
    obtain ⟨t, rfl⟩ : ∃ t, h' = [t] := List.length_eq_one_iff.1 hl
    simp at hx
    subst hx
    exact .wait { s with cancelClosed := x } w hr hw

theorem CPre.closeConn {use : Bool} {c : CliConn.Conn} (h : CPre use c) : CPre use (CliConn.closeConn c) := by
  obtain ⟨heap, e, k⟩ := CliConn.closeConn_cancels c
  rw [e]
  exact ⟨h.sess, h.packing, h.neg, h.cu, h.pc, h.nocrash, h.shape.cancels k⟩

theorem Shape.openers {use : Bool} {h : List CliConn.Sess} {o : List CliConn.OPc} {p : List (UInt32 × Nat)} {out : List (CliConn.Sent × Bool)}
    (hs : Shape use h o p out) (i : Nat) (w : CliConn.OPc) (ho : o[i]? = some w) :
    i = 0 ∧ o = [w] ∧ w ≠ .accepted ∧ ∃ s, h = [s] ∧ s.ready = false := by
  cases hs with
  | fresh => simp at ho
  | reg s hr => cases i <;> simp at ho; subst ho; exact ⟨rfl, rfl, by simp, s, rfl, hr⟩
  | gone s hr => cases i <;> simp at ho; subst ho; exact ⟨rfl, rfl, by simp, s, rfl, hr⟩
  | wait s w hr hw =>
    cases i <;> simp at ho
    subst ho
    exact ⟨rfl, rfl, by rcases hw with rfl | rfl <;> simp, s, rfl, hr⟩

theorem CPre.step {use : Bool} {c c' : CliConn.Conn} {a : CliConn.Act} (h : CPre use c) (e : CliConn.step c a = some c')
    (hr : ∀ f, a ≠ .read f) (ho : a = .open → c.openers = []) (hp : a ≠ .ping) (ht : ∀ i, a ≠ .openTimeout i) : CPre use c' := by
  have hacc : ∀ i : Nat, c.openers[i]? ≠ some .accepted := fun i hi => (h.shape.openers i _ hi).2.2.1 rfl
  have hon : ∀ i f, CliConn.onSess c i f = some c' → False := by
    intro i f hf
    obtain ⟨_, _, _, h2, _⟩ := CliConn.onSess_cases hf
    exact hacc i h2
  unfold CliConn.step at e
  rw [if_neg (by simp [h.nocrash])] at e
  cases a with
  | read f => exact absurd rfl (hr f)
  | ping => exact absurd rfl hp
  | openTimeout i => exact absurd rfl (ht i)
  | tick =>
    dsimp only [CliConn.tick] at e
    rcases h.pc with hp | hp <;> rw [hp] at e <;> simp at e
  | giveUp =>
    dsimp only at e
    rcases h.pc with hp | hp <;> rw [hp] at e <;> simp at e
  | exit =>
    dsimp only at e
    split at e <;> simp only [Option.some.injEq, reduceCtorEq] at e
    have he : CliConn.exit c = { c with pc := .exited } := by
      unfold CliConn.exit
      rw [h.sess]
      rfl
    rw [← e, he]
    exact ⟨h.sess, h.packing, h.neg, h.cu, .inr rfl, h.nocrash, h.shape⟩
  | close =>
    simp only [Option.some.injEq] at e
    rw [← e]
    exact h.closeConn
  | «open» =>
    have ho := ho rfl
    dsimp only at e
    repeat' split at e
    all_goals
      simp only [Option.some.injEq] at e
      subst e
    · exact h
    · exact h
    · have hsh := h.shape
      rw [ho] at hsh
      generalize hhp : c.heap = hp at hsh
      generalize hpd : c.pending = pd at hsh
      generalize hou : c.out = ou at hsh
      cases hsh
      refine ⟨h.sess, h.packing, h.neg, h.cu, h.pc, h.nocrash, ?_⟩
      dsimp only
      rw [ho]
      exact .reg { openID := c.nextOpen } rfl
  | sendOpen i =>
    dsimp only at e
    split at e <;> try (simp at e; done)
    rename_i s hopen hs
    obtain ⟨rfl, ho1, _, _⟩ := h.shape.openers i _ hopen
    have hsh := h.shape
    rw [ho1] at hsh
    generalize hhp : c.heap = hp at hsh hs
    generalize hpd : c.pending = pd at hsh
    generalize hou : c.out = ou at hsh
    cases hsh with
    | wait s w hr hw => rcases hw with hw | hw <;> cases hw
    | reg s' hr =>
      simp at hs
      subst hs
      split at e
      · simp only [Option.some.injEq] at e
        subst e
        refine ⟨h.sess, h.packing, h.neg, h.cu, h.pc, h.nocrash, ?_⟩
        dsimp only
        rw [hhp, ho1, hpd, hou]
        have : SrvConn.remove [(s'.openID, 0)] s'.openID = [] := by simp [SrvConn.remove]
        rw [this]
        exact .gone s' hr
      · rename_i hc
        simp only [Option.some.injEq] at e
        subst e
        have hse : CliConn.send c (.open s'.openID c.usePacking) = { c with out := c.out ++ [(.open s'.openID c.usePacking, false)] } := by
          unfold CliConn.send
          rw [if_neg hc]
        rw [hse]
        refine ⟨h.sess, h.packing, h.neg, h.cu, h.pc, h.nocrash, ?_⟩
        dsimp only
        rw [hhp, ho1, hpd, hou, h.cu]
        exact .wait s' .waiting hr (.inl rfl)
  | openClosed i =>
    dsimp only at e
    split at e <;> try (simp at e; done)
    rename_i hopen
    split at e <;> simp only [Option.some.injEq, reduceCtorEq] at e
    subst e
    obtain ⟨rfl, ho1, _, _⟩ := h.shape.openers i _ hopen
    have hsh := h.shape
    rw [ho1] at hsh
    refine ⟨h.sess, h.packing, h.neg, h.cu, h.pc, h.nocrash, ?_⟩
    dsimp only
    rw [ho1]
    generalize c.heap = hp at hsh ⊢
    generalize c.pending = pd at hsh ⊢
    generalize c.out = ou at hsh ⊢
    cases hsh with
    | wait s w hr hw => exact .wait s .sawClosed hr (.inr rfl)
  | openReady i =>
    exfalso
    dsimp only at e
    split at e <;> try (simp at e; done)
    rename_i s hopen hs
    obtain ⟨rfl, ho1, _, s', hh, hr⟩ := h.shape.openers i _ hopen
    rw [hh] at hs
    simp at hs
    subst hs
    rw [hr] at e
    simp at e
  | recv i => exact (hon _ _ e).elim
  | iterCancel i => exact (hon _ _ e).elim
  | iterTick i => exact (hon _ _ e).elim
  | closeSess i =>
    exfalso
    dsimp only at e
    split at e <;> try (simp at e; done)
    rename_i h1 _
    exact hacc _ h1
  | sendPl i p =>
    exfalso
    dsimp only at e
    split at e <;> try (simp at e; done)
    rename_i h1 _
    exact hacc _ h1
  | sendCancel i =>
    exfalso
    dsimp only at e
    split at e <;> try (simp at e; done)
    rename_i h1 _
    exact hacc _ h1
  | graceful =>
    dsimp only at e
    repeat' split at e
    all_goals
      simp only [Option.some.injEq] at e
      subst e
      exact ⟨h.sess, h.packing, h.neg, h.cu, h.pc, h.nocrash, h.shape⟩
  | drain k =>
    dsimp only at e
    repeat' split at e
    all_goals try (simp at e; done)
    all_goals
      simp only [Option.some.injEq] at e
      subst e
    · exact ⟨h.sess, h.packing, h.neg, h.cu, h.pc, h.nocrash, h.shape⟩
    · exact CPre.closeConn ⟨h.sess, h.packing, h.neg, h.cu, h.pc, h.nocrash, h.shape⟩
  | timeout k =>
    dsimp only at e
    repeat' split at e
    all_goals try (simp at e; done)
    simp only [Option.some.injEq] at e
    subst e
    exact CPre.closeConn ⟨h.sess, h.packing, h.neg, h.cu, h.pc, h.nocrash, h.shape⟩
  | gracefulClosed k =>
    dsimp only at e
    repeat' split at e
    all_goals try (simp at e; done)
    simp only [Option.some.injEq] at e
    subst e
    exact ⟨h.sess, h.packing, h.neg, h.cu, h.pc, h.nocrash, h.shape⟩

/-- The server has not handled an Open: nothing but GoAway was written, and then no session is made. -/
structure SPre (allow : Bool) (c : SrvConn.Conn) : Prop where
  heap : c.heap = []
  sess : c.sessions = []
  packing : c.packing = false
  sa : c.allowPacking = allow
  next : c.next = 1
  nocrash : c.crashed = false
  out : ∀ x ∈ c.out, x.2 = false ∧ ∀ o sid ok pk, x.1 ≠ .ack o sid ok pk
  drain : c.out ≠ [] ∨ (∃ g ∈ c.gs, g ≠ .early) → c.draining = true

/-- The first session is made with the form settled, its OpenAck is not written yet. -/
structure SAck (o : UInt32) (c : SrvConn.Conn) : Prop where
  heap : ∃ s, c.heap = [s] ∧ s.h = .waiting
  nocrash : c.crashed = false
  out : c.out = []
  pc : c.pc = .acking o 0

theorem SPre.closeConn {allow : Bool} {c : SrvConn.Conn} (h : SPre allow c) :
    SPre allow (SrvConn.closeConn c) ∧ (SrvConn.closeConn c).pc = c.pc := by
  have : SrvConn.closeConn c = { c with closed := true } := by
    unfold SrvConn.closeConn
    split
    · rename_i hc; cases c; simp_all
    · rw [h.sess]; rfl
  rw [this]
  exact ⟨⟨h.heap, h.sess, h.packing, h.sa, h.next, h.nocrash, h.out, h.drain⟩, rfl⟩

/-- The server before it handles an Open: every action but the making of the session. -/
theorem SPre.step {allow : Bool} {c c' : SrvConn.Conn} {a : SrvConn.Act} (h : SPre allow c) (e : SrvConn.step c a = some c')
    (hr : ∀ f, a ≠ .read f) (hpc : c.pc = .idle ∨ c.pc = .exited ∨ ((∃ o pk, c.pc = .creating o pk) ∧ a ≠ .tick)) :
    SPre allow c' ∧ (c'.pc = c.pc ∨ c'.pc = .exited) := by
  have hcr : ∀ o pk, c.pc = .creating o pk → a ≠ .tick := by
    intro o pk hc
    rcases hpc with h1 | h1 | ⟨_, h1⟩
    · rw [h1] at hc; cases hc
    · rw [h1] at hc; cases hc
    · exact h1
  unfold SrvConn.step at e
  rw [if_neg (by simp [h.nocrash])] at e
  cases a with
  | read f => exact absurd rfl (hr f)
  | tick =>
    dsimp only [SrvConn.tick] at e
    rcases hpc with hp | hp | ⟨_, hp⟩
    · rw [hp] at e; simp at e
    · rw [hp] at e; simp at e
    · exact absurd rfl hp
  | giveUp =>
    dsimp only at e
    rcases hpc with hp | hp | ⟨⟨o, pk, hp⟩, _⟩ <;> rw [hp] at e <;> simp at e
  | exit =>
    dsimp only at e
    split at e <;> simp only [Option.some.injEq, reduceCtorEq] at e
    have he : SrvConn.exit c = { c with pc := .exited } := by
      unfold SrvConn.exit
      rw [h.sess]
      rfl
    rw [← e, he]
    exact ⟨⟨h.heap, h.sess, h.packing, h.sa, h.next, h.nocrash, h.out, h.drain⟩, .inr rfl⟩
  | close =>
    simp only [Option.some.injEq] at e
    rw [← e]
    exact ⟨h.closeConn.1, .inl h.closeConn.2⟩
  | recv i => dsimp only at e; rw [h.heap] at e; simp at e
  | reply i p => dsimp only at e; rw [h.heap] at e; simp at e
  | ret i => dsimp only [SrvConn.ret] at e; rw [h.heap] at e; simp at e
  | graceful =>
    dsimp only at e
    split at e
    · simp only [Option.some.injEq] at e
      subst e
      refine ⟨⟨h.heap, h.sess, h.packing, h.sa, h.next, h.nocrash, h.out, ?_⟩, .inl rfl⟩
      rintro (h1 | ⟨g, h1, h2⟩)
      · exact h.drain (.inl h1)
      · dsimp only at h1
        rw [List.mem_append, List.mem_singleton] at h1
        rcases h1 with h1 | h1
        · exact h.drain (.inr ⟨g, h1, h2⟩)
        · exact absurd h1 h2
    · simp only [Option.some.injEq] at e
      subst e
      exact ⟨⟨h.heap, h.sess, h.packing, h.sa, h.next, h.nocrash, h.out, fun _ => rfl⟩, .inl rfl⟩
  | drain k =>
    dsimp only [SrvConn.drain] at e
    split at e <;> try (simp at e; done)
    · rename_i hg
      have hd : c.draining = true := h.drain (.inr ⟨_, List.mem_of_getElem? hg, by simp⟩)
      simp only [Option.some.injEq] at e
      subst e
      obtain ⟨l, e1, e2⟩ := SrvConn.send_wrote c (.goAway (c.next - 1))
      rw [e1]
      refine ⟨⟨h.heap, h.sess, h.packing, h.sa, h.next, h.nocrash, ?_, fun _ => hd⟩, .inl rfl⟩
      intro x hx
      dsimp only at hx
      rw [List.mem_append] at hx
      rcases hx with hx | hx
      · exact h.out x hx
      · obtain ⟨k1, k2⟩ := e2 x hx
        exact ⟨k2.trans h.packing, by simp [k1]⟩
    · rename_i hg
      have hd : c.draining = true := h.drain (.inr ⟨_, List.mem_of_getElem? hg, by simp⟩)
      split at e <;> simp only [Option.some.injEq, reduceCtorEq] at e
      rw [← e]
      have := SPre.closeConn (c := { c with gs := c.gs.set k .finished })
        ⟨h.heap, h.sess, h.packing, h.sa, h.next, h.nocrash, h.out, fun _ => hd⟩
      exact ⟨this.1, .inl this.2⟩
  | timeout k =>
    dsimp only at e
    split at e <;> simp only [Option.some.injEq, reduceCtorEq] at e
    rename_i hg
    have hd : c.draining = true := h.drain (.inr ⟨_, List.mem_of_getElem? hg, by simp⟩)
    rw [← e]
    have := SPre.closeConn (c := { c with gs := c.gs.set k .timedOut })
      ⟨h.heap, h.sess, h.packing, h.sa, h.next, h.nocrash, h.out, fun _ => hd⟩
    exact ⟨this.1, .inl this.2⟩

/-- While the OpenAck of the first session waits to be written, nothing else is written — unless by `GracefulClose`. -/
theorem SAck.step {o : UInt32} {c c' : SrvConn.Conn} {a : SrvConn.Act} (h : SAck o c) (e : SrvConn.step c a = some c')
    (hr : ∀ f, a ≠ .read f) (hd : ∀ k, a ≠ .drain k) : (SAck o c' ∧ c'.packing = c.packing) ∨
      (c'.packing = c.packing ∧ c'.pc = .submitting 0 ∧
        ((∃ sid, c'.out = [(.ack o sid true c.packing, false)]) ∨ (c'.out = [] ∧ c'.closed = true))) := by
  obtain ⟨s, hs, hw⟩ := h.heap
  have hget : ∀ (i : Nat) t, c.heap[i]? = some t → t.h = .waiting := by
    intro i t ht
    rw [hs] at ht
    cases i <;> simp at ht
    subst ht
    exact hw
  have hclose : ∀ d : SrvConn.Conn, d.heap = c.heap → d.crashed = false → d.out = [] → d.pc = .acking o 0 → d.packing = c.packing →
      SAck o (SrvConn.closeConn d) ∧ (SrvConn.closeConn d).packing = c.packing := by
    intro d h1 h2 h3 h4 h5
    have key : ∀ (l : List (UInt32 × Nat)) (d : SrvConn.Conn), (∃ s, d.heap = [s] ∧ s.h = .waiting) →
        ∃ heap, l.foldl (fun c e => SrvConn.closeCancel c e.2) d = { d with heap := heap } ∧ ∃ s, heap = [s] ∧ s.h = .waiting := by
      intro l
      induction l with
      | nil => intro d hd; exact ⟨d.heap, rfl, hd⟩
      | cons e l ih =>
        intro d hd
        rw [List.foldl_cons]
        have : ∃ heap, SrvConn.closeCancel d e.2 = { d with heap := heap } ∧ ∃ s, heap = [s] ∧ s.h = .waiting := by
          obtain ⟨t, ht, hw⟩ := hd
          unfold SrvConn.closeCancel
          split
          · exact ⟨d.heap, rfl, t, ht, hw⟩
          · rename_i t' ht'
            refine ⟨_, rfl, ?_⟩
            rw [ht] at ht' ⊢
            cases hi : e.2 with
            | zero => rw [hi] at ht'; simp at ht'; subst ht'; exact ⟨_, rfl, hw⟩
            | succ j => rw [hi] at ht'; simp at ht'
        obtain ⟨heap, e1, e2⟩ := this
        obtain ⟨heap', e3, e4⟩ := ih { d with heap := heap } e2
        rw [e1, e3]
        exact ⟨heap', rfl, e4⟩
    unfold SrvConn.closeConn
    split
    · exact ⟨⟨h1 ▸ ⟨s, hs, hw⟩, h2, h3, h4⟩, h5⟩
    · obtain ⟨heap, e1, e2⟩ := key d.sessions { d with closed := true } ⟨s, h1.trans hs, hw⟩
      rw [e1]
      exact ⟨⟨e2, h2, h3, h4⟩, h5⟩
  unfold SrvConn.step at e
  rw [if_neg (by simp [h.nocrash])] at e
  cases a with
  | read f => exact absurd rfl (hr f)
  | drain k => exact absurd rfl (hd k)
  | tick =>
    right
    dsimp only [SrvConn.tick] at e
    rw [h.pc, hs] at e
    simp only [List.getElem?_cons_zero, Option.some.injEq] at e
    subst e
    unfold SrvConn.send
    split
    · rename_i hc
      exact ⟨rfl, rfl, .inr ⟨h.out, hc⟩⟩
    · exact ⟨rfl, rfl, .inl ⟨s.id, by dsimp only; rw [h.out]; rfl⟩⟩
  | giveUp => dsimp only at e; rw [h.pc] at e; simp at e
  | exit => dsimp only at e; rw [h.pc] at e; simp at e
  | close =>
    simp only [Option.some.injEq] at e
    rw [← e]
    exact .inl (hclose c rfl h.nocrash h.out h.pc rfl)
  | recv i =>
    exfalso
    dsimp only at e
    split at e <;> try (simp at e; done)
    rename_i t ht
    rw [if_neg (by simp [hget i t ht])] at e
    simp at e
  | reply i p =>
    exfalso
    dsimp only at e
    split at e <;> try (simp at e; done)
    rename_i t ht
    rw [if_neg (by simp [hget i t ht])] at e
    simp at e
  | ret i =>
    exfalso
    dsimp only [SrvConn.ret] at e
    split at e <;> try (simp at e; done)
    rename_i t ht
    rw [hget i t ht] at e
    simp at e
  | graceful =>
    dsimp only at e
    split at e
    all_goals
      simp only [Option.some.injEq] at e
      subst e
      exact .inl ⟨⟨h.heap, h.nocrash, h.out, h.pc⟩, rfl⟩
  | timeout k =>
    dsimp only at e
    split at e <;> simp only [Option.some.injEq, reduceCtorEq] at e
    rw [← e]
    exact .inl (hclose { c with gs := c.gs.set k .timedOut } rfl h.nocrash h.out h.pc rfl)

/-- Nothing of an Open is left to do at the server. -/
def Calm (p : SrvConn.RPc) : Prop := (∀ o, p ≠ .rejecting o) ∧ (∀ o i, p ≠ .acking o i) ∧ ∀ o pk, p ≠ .creating o pk

theorem calm_step {c c' : SrvConn.Conn} {a : SrvConn.Act} (w : SrvConn.Wrote c a c') (h : Calm c.pc) : Calm c'.pc := by
  rcases w.pc with h1 | ⟨o, i, h1, _⟩ | h1 | h1 | ⟨_, h1⟩
  · rw [h1]; exact h
  · exact absurd h1 (h.2.1 o i)
  all_goals (rw [h1]; exact ⟨by simp, by simp, by simp⟩)

theorem calm_read {c : SrvConn.Conn} {m : CliConn.Sent} {f t d : Bool} {r : UInt32} (hi : c.pc = .idle)
    (hm : ∀ o pk, m ≠ .open o pk) : Calm (SrvConn.read c (toSrv m f t d r)).pc := by
  have hidle : Calm c.pc := by rw [hi]; exact ⟨by simp, by simp, by simp⟩
  unfold SrvConn.read toSrv
  cases m with
  | «open» o pk => exact absurd rfl (hm o pk)
  | _ =>
    dsimp only
    repeat' split
    all_goals first
      | exact hidle
      | exact ⟨by simp, by simp, by simp⟩

/-- Nothing is packed and nothing will be. -/
structure Unpacked (use allow : Bool) (n : Net) : Prop where
  cp : n.cli.packing = false
  sp : n.srv.packing = false
  cout : ∀ x ∈ n.cli.out, x.2 = false
  unread : ∀ x ∈ n.cli.out.drop n.up, ∀ o pk, x.1 ≠ .open o pk
  upLe : n.up ≤ n.cli.out.length
  openers : ∃ w, n.cli.openers = [w] ∧ w ≠ .registered
  sout : ∀ x ∈ n.srv.out, x.2 = false ∧ ∀ o sid ok pk, x.1 = .ack o sid ok pk → pk = false
  pc : ∀ o pk, n.srv.pc ≠ .creating o pk
  why : (use && allow) = false ∨ ((∀ o i, n.srv.pc ≠ .acking o i) ∧ (∀ x ∈ n.srv.out, ∀ o sid pk, x.1 ≠ .ack o sid true pk) ∧
    n.cli.negotiated = false)

/-- Both ends pack. -/
structure Packed (use allow : Bool) (n : Net) : Prop where
  cp : n.cli.packing = true
  sp : n.srv.packing = true
  both : (use && allow) = true
  unread : ∀ x ∈ n.cli.out.drop n.up, x.2 = true ∧ ∀ o pk, x.1 ≠ .open o pk
  upLe : n.up ≤ n.cli.out.length
  openers : ∃ w, n.cli.openers = [w] ∧ w ≠ .registered
  sunread : ∀ x ∈ n.srv.out.drop n.down, x.2 = true ∧ ∀ o sid ok pk, x.1 ≠ .ack o sid ok pk
  downLe : n.down ≤ n.srv.out.length
  pc : Calm n.srv.pc

/-- The stages of a connection with one session. -/
inductive Stage (use allow : Bool) (n : Net) : Prop
  | start : CPre use n.cli → SPre allow n.srv → n.srv.pc = .idle ∨ n.srv.pc = .exited → n.up = 0 → n.down ≤ n.srv.out.length →
      Stage use allow n
  | creating (o : UInt32) : CPre use n.cli → n.cli.out = [(.open o use, false)] → SPre allow n.srv → n.srv.pc = .creating o use → n.up = 1 →
      n.down ≤ n.srv.out.length → Stage use allow n
  | acking (o : UInt32) : CPre use n.cli → n.cli.out = [(.open o use, false)] → SAck o n.srv → n.srv.packing = true → (use && allow) = true →
      n.up = 1 → n.down = 0 → Stage use allow n
  | acked (o : UInt32) : CPre use n.cli → n.cli.out = [(.open o use, false)] → n.srv.packing = true → (use && allow) = true →
      Calm n.srv.pc → n.up = 1 → n.down = 0 →
      ((n.srv.out = [] ∧ n.srv.closed = true) ∨ ∃ sid rest, n.srv.out = (.ack o sid true true, false) :: rest ∧
        ∀ x ∈ rest, x.2 = true ∧ ∀ o sid ok pk, x.1 ≠ .ack o sid ok pk) → Stage use allow n
  | unpacked : Unpacked use allow n → Stage use allow n
  | packed : Packed use allow n → Stage use allow n

/-- What the client and the server must not do: a second session, a ping before the answer to the Open, giving up the Open, and GoAway
between the making of the session and the OpenAck. -/
def Tame (n : Net) (a : Act) : Prop :=
  (a = .cli .open → n.cli.openers = []) ∧ (a = .cli .ping → n.cli.negotiated = true) ∧ (∀ i, a ≠ .cli (.openTimeout i)) ∧
  (∀ k, a = .srv (.drain k) → ∀ o i, n.srv.pc ≠ .acking o i)

/-- The states that can be reached so. -/
inductive Reach (use allow : Bool) (m : Nat) : Net → Prop
  | init : Reach use allow m (init use allow m)
  | step {n n' : Net} (a : Act) : Reach use allow m n → Tame n a → step n a = some n' → Reach use allow m n'

theorem drop_snoc {α : Type} {l k : List α} {i : Nat} (h : i ≤ l.length) {P : α → Prop} (h1 : ∀ x ∈ l.drop i, P x) (h2 : ∀ x ∈ k, P x) :
    ∀ x ∈ (l ++ k).drop i, P x := by
  intro x hx
  rw [List.drop_append_of_le_length h, List.mem_append] at hx
  rcases hx with hx | hx
  · exact h1 x hx
  · exact h2 x hx

theorem drop_next {α : Type} {l : List α} {i : Nat} {P : α → Prop} (h1 : ∀ x ∈ l.drop i, P x) : ∀ x ∈ l.drop (i + 1), P x := by
  intro x hx
  refine h1 x ?_
  rw [← List.drop_drop] at hx
  exact List.mem_of_mem_drop hx

theorem mem_drop_get {α : Type} {l : List α} {i : Nat} {x : α} (h : l[i]? = some x) : x ∈ l.drop i := by
  have : (l.drop i)[0]? = some x := by rw [List.getElem?_drop]; simpa using h
  exact List.mem_of_getElem? this

theorem get_lt {α : Type} {l : List α} {i : Nat} {x : α} (h : l[i]? = some x) : i + 1 ≤ l.length :=
  (List.getElem?_eq_some_iff.1 h).1

/-- Before its Open is answered the client ignores everything but GoAway. -/
theorem CPre.read {use : Bool} {c : CliConn.Conn} (h : CPre use c) {m : SrvConn.Sent} (hm : ∀ o sid ok pk, m ≠ .ack o sid ok pk)
    (d : Bool) (k : Nat) : CPre use (CliConn.read c (toCli m d k)) := by
  cases m with
  | ack o sid ok pk => exact absurd rfl (hm o sid ok pk)
  | goAway l => exact h.closeConn
  | pong _ => exact h
  | payload sid p =>
    dsimp only [CliConn.read, toCli]
    rw [h.sess]
    exact h
  | close sid =>
    dsimp only [CliConn.read, toCli]
    rw [h.sess]
    exact h

theorem openers_one {c c' : CliConn.Conn} {a : CliConn.Act} (w : CliConn.Wrote c a c') (h : ∃ w, c.openers = [w] ∧ w ≠ .registered)
    (ho : a = .open → c.openers = []) : ∃ w, c'.openers = [w] ∧ w ≠ .registered := by
  obtain ⟨v, h1, h2⟩ := h
  rcases w.openers with (⟨rfl, _⟩ | ⟨i, u, hu, e⟩) | e
  · rw [ho rfl] at h1; cases h1
  · rw [h1] at e
    cases i with
    | zero => exact ⟨u, e, hu⟩
    | succ j => exact ⟨v, e, h2⟩
  · exact ⟨v, e.trans h1, h2⟩

theorem no_open {c c' : CliConn.Conn} {a : CliConn.Act} (w : CliConn.Wrote c a c') (h : ∃ w, c.openers = [w] ∧ w ≠ .registered) :
    ∃ l, c'.out = c.out ++ l ∧ ∀ x ∈ l, x.2 = c.packing ∧ ∀ o pk, x.1 ≠ .open o pk := by
  obtain ⟨v, h1, h2⟩ := h
  obtain ⟨l, e, hl⟩ := w.out
  refine ⟨l, e, fun x hx => ?_⟩
  rcases hl x hx with ⟨o, i, _, _, hi⟩ | hh
  · rw [h1] at hi
    cases i with
    | zero => simp at hi; exact absurd hi h2
    | succ j => simp at hi
  · exact hh

/-- The client stays as it is while it waits. -/
theorem CPre.wait_step {use : Bool} {c c' : CliConn.Conn} {a : CliConn.Act} {o : UInt32} (h : CPre use c)
    (e : CliConn.step c a = some c') (hr : ∀ f, a ≠ .read f) (ho : a = .open → c.openers = []) (hp : a ≠ .ping)
    (ht : ∀ i, a ≠ .openTimeout i) (hout : c.out = [(.open o use, false)]) : CPre use c' ∧ c'.out = [(.open o use, false)] := by
  have h' := h.step e hr ho hp ht
  refine ⟨h', ?_⟩
  obtain ⟨l, e1, _⟩ := (CliConn.wrote_step e hr).out
  rw [hout] at e1
  have hsh := h'.shape
  rw [e1] at hsh ⊢
  generalize c'.heap = hp at hsh
  generalize c'.openers = op at hsh
  generalize c'.pending = pd at hsh
  generalize hx : [(CliConn.Sent.open o use, false)] ++ l = out at hsh ⊢
  cases hsh with
  | fresh => simp at hx
  | reg => simp at hx
  | gone => simp at hx
  | wait s w => simp at hx; simp [hx]

theorem CPre.waiting {use : Bool} {c : CliConn.Conn} {o : UInt32} (h : CPre use c) (hout : c.out = [(.open o use, false)]) :
    ∃ s w, c.heap = [s] ∧ s.ready = false ∧ s.openID = o ∧ c.openers = [w] ∧ w ≠ .registered ∧ c.pending = [(o, 0)] := by
  have hsh := h.shape
  rw [hout] at hsh
  generalize hhp : c.heap = hp at hsh
  generalize hop : c.openers = op at hsh
  generalize hpd : c.pending = pd at hsh
  generalize hx : [(CliConn.Sent.open o use, false)] = out at hsh
  cases hsh with
  | fresh => simp at hx
  | reg => simp at hx
  | gone => simp at hx
  | wait s w hr hw =>
    simp at hx
    exact ⟨s, w, rfl, hr, hx.symm, rfl, by rcases hw with rfl | rfl <;> simp, by rw [hx]⟩


theorem stage_step {use allow : Bool} {n n' : Net} {a : Act} (hS : Stage use allow n) (hT : Tame n a) (e : step n a = some n') :
    Stage use allow n' ∧ n'.lost = n.lost := by
  obtain ⟨tOpen, tPing, tTime, tDrain⟩ := hT
  cases hS with
  | start hc hs hpc hup hdn =>
    cases step_eff e with
    | cli b c hb hr e1 he =>
      subst he
      have h' := hc.step e1 hr (fun h => tOpen (by rw [hb, h])) (fun h => by have := tPing (by rw [hb, h]); rw [hc.neg] at this; cases this)
        (fun i h => tTime i (by rw [hb, h]))
      exact ⟨.start h' hs hpc hup hdn, rfl⟩
    | srv b c hb hr e1 he =>
      subst he
      obtain ⟨h1, h2⟩ := hs.step e1 hr (hpc.imp_right .inl)
      have w := SrvConn.wrote_step e1 hr (by intro o pk hcr; rcases hpc with h | h <;> rw [h] at hcr <;> cases hcr)
      obtain ⟨l, g1, _⟩ := w.out
      refine ⟨.start hc h1 ?_ hup (by dsimp only; rw [g1, List.length_append]; omega), rfl⟩
      rcases h2 with h2 | h2
      · dsimp only; rw [h2]; exact hpc
      · exact .inr h2
    | up m found typeOk dropped req hb hm hi he =>
      subst he
      have hsh := hc.shape
      generalize hhp : n.cli.heap = hp at hsh
      generalize hop : n.cli.openers = op at hsh
      generalize hpd : n.cli.pending = pd at hsh
      generalize hou : n.cli.out = ou at hsh hm
      rw [hup] at hm
      cases hsh with
      | fresh => simp at hm
      | reg => simp at hm
      | gone => simp at hm
      | wait s w hr hw =>
        simp at hm
        obtain ⟨rfl, hpk⟩ := hm
        obtain ⟨r1, r2, r3⟩ := SrvConn.read_forms n.srv (toSrv (.open s.openID use) found typeOk dropped req)
        refine ⟨?_, rfl⟩
        have hrej : SrvConn.read n.srv (toSrv (.open s.openID use) found typeOk dropped req) = { n.srv with pc := .rejecting s.openID } →
            Stage use allow { n with srv := SrvConn.read n.srv (toSrv (.open s.openID use) found typeOk dropped req), up := n.up + 1 } := by
          intro he
          refine .unpacked ⟨hc.packing, r2.trans hs.packing, ?_, ?_, ?_, ?_, ?_, ?_, .inr ⟨?_, ?_, hc.neg⟩⟩
          · dsimp only; rw [hou]; simp
          · dsimp only; rw [hou, hup]; simp
          · dsimp only; rw [hou, hup]; simp
          · exact ⟨w, hop, by rcases hw with rfl | rfl <;> simp⟩
          · dsimp only
            rw [r1]
            exact fun x hx => ⟨(hs.out x hx).1, fun o sid ok pk h => absurd h ((hs.out x hx).2 o sid ok pk)⟩
          · dsimp only; rw [he]; simp
          · dsimp only; rw [he]; simp
          · dsimp only
            rw [r1]
            exact fun x hx o sid pk => (hs.out x hx).2 o sid true pk
        by_cases hdr : n.srv.draining = true
        · exact hrej (by dsimp only [SrvConn.read, toSrv]; rw [if_pos hdr])
        by_cases hf : found = false
        · exact hrej (by dsimp only [SrvConn.read, toSrv]; rw [if_neg hdr, if_pos hf])
        by_cases ht : typeOk = false
        · exact hrej (by dsimp only [SrvConn.read, toSrv]; rw [if_neg hdr, if_neg hf, if_pos ht])
        have he : SrvConn.read n.srv (toSrv (.open s.openID use) found typeOk dropped req) = { n.srv with pc := .creating s.openID use } := by
          dsimp only [SrvConn.read, toSrv]; rw [if_neg hdr, if_neg hf, if_neg ht]
        rw [he]
        exact .creating s.openID hc hou ⟨hs.heap, hs.sess, hs.packing, hs.sa, hs.next, hs.nocrash, hs.out, hs.drain⟩ rfl (by rw [hup]) hdn
    | down m d k hb hm hi he =>
      subst he
      have hx := hs.out _ (List.mem_of_getElem? hm)
      exact ⟨.start (hc.read hx.2 d k) hs hpc hup (get_lt hm), rfl⟩
    | lostUp m form hm hf he hb =>
      exfalso
      have hsh := hc.shape
      generalize n.cli.heap = hp at hsh
      generalize n.cli.openers = op at hsh
      generalize n.cli.pending = pd at hsh
      generalize n.cli.out = ou at hsh hm
      rw [hup] at hm
      rw [hs.packing] at hf
      cases hsh with
      | fresh => simp at hm
      | reg => simp at hm
      | gone => simp at hm
      | wait s w hr hw => simp at hm; exact hf hm.2
    | lostDown m form hm hf he hb => exact absurd ((hs.out _ (List.mem_of_getElem? hm)).1.trans hc.packing.symm) hf
  | creating o hc hout hs hpc hup hdn =>
    cases step_eff e with
    | cli b c hb hr e1 he =>
      subst he
      obtain ⟨h1, h2⟩ := hc.wait_step e1 hr (fun h => tOpen (by rw [hb, h]))
        (fun h => by have := tPing (by rw [hb, h]); rw [hc.neg] at this; cases this) (fun i h => tTime i (by rw [hb, h])) hout
      exact ⟨.creating o h1 h2 hs hpc hup hdn, rfl⟩
    | srv b c hb hr e1 he =>
      subst he
      refine ⟨?_, rfl⟩
      by_cases ht : b = .tick
      · subst ht
        unfold SrvConn.step at e1
        rw [if_neg (by simp [hs.nocrash])] at e1
        dsimp only [SrvConn.tick] at e1
        rw [hpc] at e1
        simp only [Option.some.injEq] at e1
        subst e1
        obtain ⟨s, w, w1, w2, w3, w4, w5, w6⟩ := hc.waiting hout
        unfold SrvConn.create
        by_cases hd : n.srv.draining = true
        · rw [if_pos hd]
          refine .unpacked ⟨hc.packing, hs.packing, ?_, ?_, ?_, ⟨w, w4, w5⟩, ?_, by simp, .inr ⟨by simp, ?_, hc.neg⟩⟩
          · dsimp only; rw [hout]; simp
          · dsimp only; rw [hout, hup]; simp
          · dsimp only; rw [hout, hup]; simp
          · exact fun x hx => ⟨(hs.out x hx).1, fun o sid ok pk h => absurd h ((hs.out x hx).2 o sid ok pk)⟩
          · exact fun x hx o sid pk => (hs.out x hx).2 o sid true pk
        · rw [if_neg hd]
          have hnil : n.srv.out = [] := by
            by_cases h : n.srv.out = []
            · exact h
            · exact absurd (hs.drain (.inl h)) hd
          rw [hnil] at hdn
          by_cases hb : (use && allow) = true
          · simp only [Bool.and_eq_true] at hb
            refine .acking o hc hout ⟨⟨{ id := n.srv.next }, ?_, rfl⟩, hs.nocrash, hnil, ?_⟩ ?_ (by simp [hb]) hup (by simpa using hdn)
            · dsimp only; rw [hs.heap]; rfl
            · dsimp only; rw [hs.heap]; rfl
            · dsimp only; rw [if_pos ⟨hs.next, hb.1, hs.sa.trans hb.2⟩]
          · refine .unpacked ⟨hc.packing, ?_, ?_, ?_, ?_, ⟨w, w4, w5⟩, ?_, by simp, .inl (by simpa using hb)⟩
            · dsimp only
              rw [if_neg]
              · exact hs.packing
              · rintro ⟨_, h1, h2⟩; rw [hs.sa] at h2; simp [h1, h2] at hb
            · dsimp only; rw [hout]; simp
            · dsimp only; rw [hout, hup]; simp
            · dsimp only; rw [hout, hup]; simp
            · dsimp only; rw [hnil]; simp
      · obtain ⟨h1, h2⟩ := hs.step e1 hr (.inr (.inr ⟨⟨_, _, hpc⟩, ht⟩))
        have w := SrvConn.wrote_step e1 hr (fun _ _ _ => ht)
        obtain ⟨l, g1, _⟩ := w.out
        have hdn' : n.down ≤ c.out.length := by rw [g1, List.length_append]; omega
        rcases h2 with h2 | h2
        · exact .creating o hc hout h1 (h2.trans hpc) hup hdn'
        · exfalso
          have : b ≠ .exit := by
            rintro rfl
            unfold SrvConn.step at e1
            rw [if_neg (by simp [hs.nocrash])] at e1
            dsimp only at e1
            rw [hpc] at e1
            simp at e1
          have hpc' : c.pc = n.srv.pc := by
            have := SrvConn.pc_step e1 hr ht this
            exact this (by intro i p h; rw [hpc] at h; cases h)
          rw [hpc', hpc] at h2
          cases h2
    | up m found typeOk dropped req hb hm hi he => rw [hpc] at hi; cases hi
    | down m d k hb hm hi he =>
      subst he
      have hx := hs.out _ (List.mem_of_getElem? hm)
      refine ⟨.creating o (hc.read hx.2 d k) ?_ hs hpc hup (get_lt hm), rfl⟩
      exact (CliConn.read_forms n.cli _).1.trans hout
    | lostUp m form hm hf he hb => rw [hout, hup] at hm; simp at hm
    | lostDown m form hm hf he hb => exact absurd ((hs.out _ (List.mem_of_getElem? hm)).1.trans hc.packing.symm) hf
  | acking o hc hout hs hp hb2 hup hdn =>
    cases step_eff e with
    | cli b c hb hr e1 he =>
      subst he
      obtain ⟨h1, h2⟩ := hc.wait_step e1 hr (fun h => tOpen (by rw [hb, h]))
        (fun h => by have := tPing (by rw [hb, h]); rw [hc.neg] at this; cases this) (fun i h => tTime i (by rw [hb, h])) hout
      exact ⟨.acking o h1 h2 hs hp hb2 hup hdn, rfl⟩
    | srv b c hb hr e1 he =>
      subst he
      refine ⟨?_, rfl⟩
      rcases hs.step e1 hr (fun k h => tDrain k (by rw [hb, h]) o 0 hs.pc) with ⟨h1, h2⟩ | ⟨h1, h2, h3⟩
      · exact .acking o hc hout h1 (h2.trans hp) hb2 hup hdn
      · refine .acked o hc hout (h1.trans hp) hb2 (by dsimp only; rw [h2]; exact ⟨by simp, by simp, by simp⟩) hup hdn ?_
        rcases h3 with ⟨sid, h3⟩ | h3
        · exact .inr ⟨sid, [], by dsimp only; rw [h3, hp], by simp⟩
        · exact .inl h3
    | up m found typeOk dropped req hb hm hi he => rw [hs.pc] at hi; cases hi
    | down m d k hb hm hi he => rw [hs.out] at hm; simp at hm
    | lostUp m form hm hf he hb => rw [hout, hup] at hm; simp at hm
    | lostDown m form hm hf he hb => rw [hs.out] at hm; simp at hm
  | acked o hc hout hp hb2 hcalm hup hdn hsout =>
    cases step_eff e with
    | cli b c hb hr e1 he =>
      subst he
      obtain ⟨h1, h2⟩ := hc.wait_step e1 hr (fun h => tOpen (by rw [hb, h]))
        (fun h => by have := tPing (by rw [hb, h]); rw [hc.neg] at this; cases this) (fun i h => tTime i (by rw [hb, h])) hout
      exact ⟨.acked o h1 h2 hp hb2 hcalm hup hdn hsout, rfl⟩
    | srv b c hb hr e1 he =>
      subst he
      have w := SrvConn.wrote_step e1 hr (fun o pk h => absurd h (hcalm.2.2 o pk))
      obtain ⟨l, g1, g2⟩ := w.out
      refine ⟨.acked o hc hout (w.packing.trans hp) hb2 (calm_step w hcalm) hup hdn ?_, rfl⟩
      rcases hsout with ⟨h1, h2⟩ | ⟨sid, rest, h1, h2⟩
      · obtain ⟨k1, k2⟩ := SrvConn.closed_quiet e1 hr h2
        exact .inl ⟨k1.trans h1, k2⟩
      · refine .inr ⟨sid, rest ++ l, by dsimp only; rw [g1, h1]; rfl, ?_⟩
        intro x hx
        rw [List.mem_append] at hx
        rcases hx with hx | hx
        · exact h2 x hx
        · rcases g2 x hx with ⟨o, _, _, h⟩ | ⟨o, i, _, _, _, h⟩ | ⟨h, h'⟩
          · exact absurd h (hcalm.1 o)
          · exact absurd h (hcalm.2.1 o i)
          · exact ⟨h.trans hp, h'⟩
    | up m found typeOk dropped req hb hm hi he => rw [hout, hup] at hm; simp at hm
    | down m d k hb hm hi he =>
      subst he
      refine ⟨?_, rfl⟩
      rcases hsout with ⟨h1, _⟩ | ⟨sid, rest, h1, h2⟩
      · rw [h1] at hm; simp at hm
      rw [h1, hdn] at hm
      simp only [List.getElem?_cons_zero, Option.some.injEq, Prod.mk.injEq] at hm
      obtain ⟨rfl, _⟩ := hm
      obtain ⟨s, w, w1, w2, w3, w4, w5, w6⟩ := hc.waiting hout
      simp only [Bool.and_eq_true] at hb2
      obtain ⟨r1, r2, r3, r4⟩ := CliConn.read_forms n.cli (toCli (.ack o sid true true) d k)
      have hpk : (CliConn.read n.cli (toCli (.ack o sid true true) d k)).packing = true := by
        dsimp only [CliConn.read, toCli]
        unfold CliConn.handleAck
        have : SrvConn.lookup n.cli.pending o = some 0 := by rw [w6]; simp [SrvConn.lookup]
        rw [this]
        dsimp only
        rw [w1]
        simp [w2, hc.neg, hc.cu, hb2]
      refine .packed ⟨hpk, hp, by simp [hb2], ?_, ?_, ?_, ?_, ?_, hcalm⟩
      · dsimp only; rw [r1, hout, hup]; simp
      · dsimp only; rw [r1, hout, hup]; simp
      · dsimp only; rw [r3]; exact ⟨w, w4, w5⟩
      · dsimp only; rw [h1, hdn]; exact h2
      · dsimp only; rw [h1, hdn]; simp
    | lostUp m form hm hf he hb => rw [hout, hup] at hm; simp at hm
    | lostDown m form hm hf he hb =>
      exfalso
      rcases hsout with ⟨h1, _⟩ | ⟨sid, rest, h1, h2⟩
      · rw [h1] at hm; simp at hm
      · rw [h1, hdn] at hm
        simp at hm
        rw [hc.packing] at hf
        exact hf hm.2
  | unpacked h =>
    cases step_eff e with
    | cli b c hb hr e1 he =>
      subst he
      have w := CliConn.wrote_step e1 hr
      obtain ⟨l, g1, g2⟩ := no_open w h.openers
      refine ⟨.unpacked ⟨w.packing.trans h.cp, h.sp, ?_, ?_, ?_, openers_one w h.openers (fun k => tOpen (by rw [hb, k])), h.sout, h.pc, ?_⟩, rfl⟩
      · dsimp only
        rw [g1]
        intro x hx
        rw [List.mem_append] at hx
        rcases hx with hx | hx
        · exact h.cout x hx
        · exact (g2 x hx).1.trans h.cp
      · dsimp only
        rw [g1]
        exact drop_snoc h.upLe h.unread (fun x hx => (g2 x hx).2)
      · dsimp only; rw [g1, List.length_append]; exact Nat.le_trans h.upLe (Nat.le_add_right _ _)
      · rcases h.why with hw | ⟨h1, h2, h3⟩
        · exact .inl hw
        · exact .inr ⟨h1, h2, w.neg.trans h3⟩
    | srv b c hb hr e1 he =>
      subst he
      have w := SrvConn.wrote_step e1 hr (fun o pk k => absurd k (h.pc o pk))
      obtain ⟨l, g1, g2⟩ := w.out
      refine ⟨.unpacked ⟨h.cp, w.packing.trans h.sp, h.cout, h.unread, h.upLe, h.openers, ?_, ?_, ?_⟩, rfl⟩
      · intro x hx
        dsimp only at hx
        rw [g1, List.mem_append] at hx
        rcases hx with hx | hx
        · exact h.sout x hx
        · rcases g2 x hx with ⟨o, rfl, _⟩ | ⟨o, i, s, rfl, _⟩ | ⟨k, k'⟩
          · exact ⟨rfl, by intro o' sid ok pk hh; cases hh; rfl⟩
          · exact ⟨rfl, by intro o' sid ok pk hh; cases hh; exact h.sp⟩
          · exact ⟨k.trans h.sp, fun o sid ok pk ho => absurd ho (k' o sid ok pk)⟩
      · intro o pk hpc
        dsimp only at hpc
        rcases w.pc with k | ⟨_, _, _, k⟩ | k | k | ⟨_, k⟩
        · exact h.pc o pk (k ▸ hpc)
        all_goals (rw [k] at hpc; cases hpc)
      · rcases h.why with hw | ⟨h1, h2, h3⟩
        · exact .inl hw
        · refine .inr ⟨?_, ?_, h3⟩
          · intro o i hpc
            dsimp only at hpc
            rcases w.pc with k | ⟨_, _, _, k⟩ | k | k | ⟨_, k⟩
            · exact h1 o i (k ▸ hpc)
            all_goals (rw [k] at hpc; cases hpc)
          · intro x hx
            dsimp only at hx
            rw [g1, List.mem_append] at hx
            rcases hx with hx | hx
            · exact h2 x hx
            · rcases g2 x hx with ⟨o, rfl, _⟩ | ⟨o, i, s, rfl, _, k⟩ | ⟨k, k'⟩
              · simp
              · exact absurd k (h1 o i)
              · exact fun o sid pk => k' o sid true pk
    | up m found typeOk dropped req hb hm hi he =>
      subst he
      have hno := h.unread _ (mem_drop_get hm)
      obtain ⟨r1, r2, r3⟩ := SrvConn.read_forms n.srv (toSrv m found typeOk dropped req)
      have hcalm := calm_read (f := found) (t := typeOk) (d := dropped) (r := req) hi hno
      refine ⟨.unpacked ⟨h.cp, r2.trans h.sp, h.cout, drop_next h.unread, get_lt hm, h.openers, by dsimp only; rw [r1]; exact h.sout,
        hcalm.2.2, ?_⟩, rfl⟩
      rcases h.why with hw | ⟨h1, h2, h3⟩
      · exact .inl hw
      · exact .inr ⟨hcalm.2.1, by dsimp only; rw [r1]; exact h2, h3⟩
    | down m d k hb hm hi he =>
      subst he
      obtain ⟨r1, r2, r3, r4⟩ := CliConn.read_forms n.cli (toCli m d k)
      have hack : ∀ o sid pk, toCli m d k = .ack o sid true pk → m = .ack o sid true pk := by
        intro o sid pk hh
        unfold toCli at hh
        cases m <;> simp at hh
        simp [hh]
      refine ⟨.unpacked ⟨?_, h.sp, by dsimp only; rw [r1]; exact h.cout, by dsimp only; rw [r1]; exact h.unread,
        by dsimp only; rw [r1]; exact h.upLe, by dsimp only; rw [r3]; exact h.openers, h.sout, h.pc, ?_⟩, rfl⟩
      · rcases r4 with ⟨r4, _⟩ | ⟨o, sid, pk, r4, _, r5⟩
        · exact r4.trans h.cp
        · have hpk : pk = false := (h.sout _ (List.mem_of_getElem? hm)).2 o sid true pk (hack o sid pk r4)
          dsimp only
          rw [r5, h.cp, hpk]
          simp
      · rcases h.why with hw | ⟨h1, h2, h3⟩
        · exact .inl hw
        · refine .inr ⟨h1, h2, ?_⟩
          rcases r4 with ⟨_, r4⟩ | ⟨o, sid, pk, r4, _⟩
          · exact r4.trans h3
          · exact absurd (hack o sid pk r4) (h2 _ (List.mem_of_getElem? hm) o sid pk)
    | lostUp m form hm hf he hb => exact absurd ((h.cout _ (List.mem_of_getElem? hm)).trans h.sp.symm) hf
    | lostDown m form hm hf he hb => exact absurd ((h.sout _ (List.mem_of_getElem? hm)).1.trans h.cp.symm) hf
  | packed h =>
    cases step_eff e with
    | cli b c hb hr e1 he =>
      subst he
      have w := CliConn.wrote_step e1 hr
      obtain ⟨l, g1, g2⟩ := no_open w h.openers
      refine ⟨.packed ⟨w.packing.trans h.cp, h.sp, h.both, ?_, ?_, openers_one w h.openers (fun k => tOpen (by rw [hb, k])), h.sunread,
        h.downLe, h.pc⟩, rfl⟩
      · dsimp only
        rw [g1]
        exact drop_snoc h.upLe h.unread (fun x hx => ⟨(g2 x hx).1.trans h.cp, (g2 x hx).2⟩)
      · dsimp only; rw [g1, List.length_append]; exact Nat.le_trans h.upLe (Nat.le_add_right _ _)
    | srv b c hb hr e1 he =>
      subst he
      have w := SrvConn.wrote_step e1 hr (fun o pk k => absurd k (h.pc.2.2 o pk))
      obtain ⟨l, g1, g2⟩ := w.out
      refine ⟨.packed ⟨h.cp, w.packing.trans h.sp, h.both, h.unread, h.upLe, h.openers, ?_, ?_, calm_step w h.pc⟩, rfl⟩
      · dsimp only
        rw [g1]
        refine drop_snoc h.downLe h.sunread ?_
        intro x hx
        rcases g2 x hx with ⟨o, _, _, k⟩ | ⟨o, i, _, _, _, k⟩ | ⟨k, k'⟩
        · exact absurd k (h.pc.1 o)
        · exact absurd k (h.pc.2.1 o i)
        · exact ⟨k.trans h.sp, k'⟩
      · dsimp only; rw [g1, List.length_append]; exact Nat.le_trans h.downLe (Nat.le_add_right _ _)
    | up m found typeOk dropped req hb hm hi he =>
      subst he
      have hno := (h.unread _ (mem_drop_get hm)).2
      obtain ⟨r1, r2, r3⟩ := SrvConn.read_forms n.srv (toSrv m found typeOk dropped req)
      exact ⟨.packed ⟨h.cp, r2.trans h.sp, h.both, drop_next h.unread, get_lt hm, h.openers, by dsimp only; rw [r1]; exact h.sunread,
        by dsimp only; rw [r1]; exact h.downLe, calm_read hi hno⟩, rfl⟩
    | down m d k hb hm hi he =>
      subst he
      have hno := (h.sunread _ (mem_drop_get hm)).2
      obtain ⟨r1, r2, r3, r4⟩ := CliConn.read_forms n.cli (toCli m d k)
      refine ⟨.packed ⟨?_, h.sp, h.both, by dsimp only; rw [r1]; exact h.unread, by dsimp only; rw [r1]; exact h.upLe,
        by dsimp only; rw [r3]; exact h.openers, drop_next h.sunread, get_lt hm, h.pc⟩, rfl⟩
      rcases r4 with ⟨r4, _⟩ | ⟨o, sid, pk, r4, _, r5⟩
      · exact r4.trans h.cp
      · exfalso
        unfold toCli at r4
        cases m <;> simp at r4
        exact hno _ _ _ _ rfl
    | lostUp m form hm hf he hb => exact absurd ((h.unread _ (mem_drop_get hm)).1.trans h.sp.symm) hf
    | lostDown m form hm hf he hb => exact absurd ((h.sunread _ (mem_drop_get hm)).1.trans h.cp.symm) hf

/-- **C42 (one session)** When there is one session on a connection, no ping before its Open is answered, the Open is not given up, and
no GoAway is written between the making of the session and its OpenAck, then no frame is ever misunderstood, and once the client has the
answer both ends pack exactly when the client asked for it and the server allows it. Missing: the four conditions, without
which it fails (`C42_second_open_lost`, `C42_ping_lost`, `C42_timeout_lost`, `C42_goaway_lost`). -/
theorem C42_single_session_partial (use allow : Bool) (m : Nat) (n : Net) (h : Reach use allow m n) :
    n.lost = false ∧ (n.cli.negotiated = true → n.cli.packing = (use && allow) ∧ n.srv.packing = (use && allow)) := by
  have key : Stage use allow n ∧ n.lost = false := by
    induction h with
    | init =>
      exact ⟨.start ⟨rfl, rfl, rfl, rfl, .inl rfl, rfl, .fresh⟩ ⟨rfl, rfl, rfl, rfl, rfl, rfl, by simp [init], by simp [init]⟩ (.inl rfl) rfl
        (by simp [init]), rfl⟩
    | step a _ hT e ih =>
      obtain ⟨h1, h2⟩ := stage_step ih.1 hT e
      exact ⟨h1, h2.trans ih.2⟩
  refine ⟨key.2, fun hn => ?_⟩
  cases key.1 with
  | start hc => rw [hc.neg] at hn; cases hn
  | creating o hc => rw [hc.neg] at hn; cases hn
  | acking o hc => rw [hc.neg] at hn; cases hn
  | acked o hc => rw [hc.neg] at hn; cases hn
  | unpacked h =>
    rcases h.why with hw | ⟨_, _, h3⟩
    · rw [hw]; exact ⟨h.cp, h.sp⟩
    · rw [h3] at hn; cases hn
  | packed h => rw [h.both]; exact ⟨h.cp, h.sp⟩

/-- The restricted executions as lists of actions, to exhibit one. -/
theorem reach_of_run {use allow : Bool} {m : Nat} : ∀ (as : List Act) (n n' : Net), Reach use allow m n → run as n = some n' →
    (∀ a ∈ as, a ≠ .cli .open ∧ a ≠ .cli .ping ∧ (∀ i, a ≠ .cli (.openTimeout i)) ∧ ∀ k, a ≠ .srv (.drain k)) → Reach use allow m n' := by
  intro as
  induction as with
  | nil => intro n n' h e _; simp only [run, Option.some.injEq] at e; exact e ▸ h
  | cons a as ih =>
    intro n n' h e ha
    simp only [run, Option.bind_eq_some_iff] at e
    obtain ⟨d, e1, e2⟩ := e
    obtain ⟨h1, h2, h3, h4⟩ := ha a (by simp)
    exact ih d n' (.step a h ⟨fun k => absurd k h1, fun k => absurd k h2, h3, fun k e => absurd e (h4 k)⟩ e1) e2
      (fun b hb => ha b (List.mem_cons_of_mem _ hb))

/-- Non-vacuous: a session with packing, a request and a reply. -/
example : ∃ n, Reach true true 0 n ∧ n.cli.negotiated = true ∧ n.srv.packing = true ∧
    n.srv.out = [(.ack 0 1 true true, false), (.payload 1 ⟨0, [8]⟩, true)] ∧ n.cli.out = [(.open 0 true, false), (.payload 1 ⟨[7], false⟩, true)] ∧
    n.up = 2 ∧ n.down = 2 := by
  refine ⟨_, reach_of_run [.cli (.sendOpen 0), .srvRead true true false 0, .srv .tick, .srv .tick, .srv .tick, .cliRead false 0,
    .cli (.openReady 0), .cli (.sendPl 0 ⟨[7], false⟩), .srvRead true true false 0, .srv .tick, .srv (.recv 0), .srv (.reply 0 ⟨0, [8]⟩),
    .cliRead false 0] _ _ (.step (.cli .open) .init ⟨by simp [init], by simp, by simp, by simp⟩ rfl) rfl (by simp), ?_⟩
  decide

end Claw.Packing
