import Verif.Lemmas.TransportClose

/-!
# C104, C105, C106: the stream transports

Everything is stated for both the client and the server transport and for every reachable state
of any number of goroutines.
-/

namespace Claw.Transport

/-! ## C104: messages arrive whole and in order -/

/-- What a connection has taken is, in the order in which the calls returned, the messages of
the `Write` calls that returned no error, followed by a beginning of at most one more message:
one that some goroutine is still writing to this connection or whose `Write` failed. -/
theorem C104_whole (m : Mode) {s : St} (h : Reach m s) (c : Nat) :
    ∃ tail, s.wire c = (on c s.sent).flatten ++ tail ∧
      (tail = [] ∨ ∃ t p, p ∈ s.issued t ∧ tail <+: p ∧
        ((∃ k, s.pc t = .wPut c p k) ∨ s.pc t = .wErr p ∨ (Op.write p, Ret.err) ∈ s.rets t)) :=
  tail_reach h c

/-- If no `Write` has failed and none is running, the connection has taken exactly the messages
of the calls that returned. -/
theorem C104_exact (m : Mode) {s : St} (h : Reach m s) (hq : ∀ t, s.pc t = .idle)
    (hf : ∀ t p, (Op.write p, Ret.err) ∉ s.rets t) (c : Nat) :
    s.wire c = (on c s.sent).flatten := by
  obtain ⟨tail, h1, h2⟩ := tail_reach h c
  rcases h2 with rfl | ⟨t, p, -, -, h3⟩
  · simpa using h1
  · rcases h3 with ⟨k, h3⟩ | h3 | h3
    · simp [hq t] at h3
    · simp [hq t] at h3
    · exact absurd h3 (hf t p)

/-- The messages a goroutine got through are the ones whose `Write` returned no error, each
once, in the order in which it passed them to `Write`. -/
theorem C104_order (m : Mode) {s : St} (h : Reach m s) (t : Tid) :
    byTid t s.sent = okWrites (s.rets t) ∧ (byTid t s.sent).Sublist (s.issued t) :=
  ⟨(inv_reach h).rets t, (inv_reach h).order t⟩

/-- Nothing taken is taken back, and a call that returns later comes later: the histories at an
earlier time are beginnings of the histories at a later time. -/
theorem C104_stable (m : Mode) {s s' : St} (h : Steps m s s') :
    (∀ c, s.wire c <+: s'.wire c) ∧ s.sent <+: s'.sent ∧ ∀ t, s.rets t <+: s'.rets t :=
  steps_mono h

/-- Two goroutines write; the second one begins while the first one is half done and a third one
fails: both whole messages are there, then a beginning of the third. -/
example : ∃ s, Reach .client s ∧ s.sent = [(0, 1, [1, 2]), (0, 2, [3])] ∧
    s.wire 0 = [1, 2, 3, 4] ∧ s.rets 3 = [(.write [4, 5], .err)] ∧ ∀ t, s.pc t = .idle := by
  refine ⟨_, .tail (.tail (.tail (.tail (.tail (.tail (.tail (.tail (.tail (.tail (.tail (.tail
    (.tail (.tail (.tail (.tail (.tail (.refl _)
    (.call (t := 1) (op := .write [1, 2]) rfl))
    (.run (.enter (t := 1) (op := .write [1, 2]) rfl rfl)))
    (.run (.lock (t := 1) (p := [1, 2]) rfl rfl)))
    (.run (.put (t := 1) (c := 0) (p := [1, 2]) (k := 0) (by decide) rfl rfl)))
    (.call (t := 2) (op := .write [3]) rfl))
    (.run (.enter (t := 2) (op := .write [3]) rfl rfl)))
    (.run (.put (t := 1) (c := 0) (p := [1, 2]) (k := 1) (by decide) rfl rfl)))
    (.run (.putOk (t := 1) (c := 0) (p := [1, 2]) rfl)))
    (.run (.lock (t := 2) (p := [3]) rfl rfl)))
    (.run (.put (t := 2) (c := 0) (p := [3]) (k := 0) (by decide) rfl rfl)))
    (.run (.putOk (t := 2) (c := 0) (p := [3]) rfl)))
    (.call (t := 3) (op := .write [4, 5]) rfl))
    (.run (.enter (t := 3) (op := .write [4, 5]) rfl rfl)))
    (.run (.lock (t := 3) (p := [4, 5]) rfl rfl)))
    (.run (.put (t := 3) (c := 0) (p := [4, 5]) (k := 0) (by decide) rfl rfl)))
    (.run (.putFail (t := 3) (c := 0) (p := [4, 5]) (k := 1) rfl (by decide))))
    (.run (.writeErr (t := 3) (p := [4, 5]) rfl rfl)), rfl, rfl, rfl, ?_⟩
  intro t
  simp only [St.ret, St.enter, St.init, upd]
  by_cases h1 : t = 1 <;> by_cases h2 : t = 2 <;> by_cases h3 : t = 3 <;> simp_all [upd]

/-- `bufio.Writer` as the transports use it, starting with an empty buffer and no error: either
the connection takes the whole message, the buffer is empty again and the call succeeds, or it
takes a proper beginning of it, the call fails and the writer stays failed. -/
theorem C104_buffer (b : BufW) (wire p : Bytes) (n m : Nat) (hb : b.buf = [])
    (hf : b.failed = false) :
    (∃ b', writeFlush b wire p n m = (b', wire ++ p, true) ∧ b'.buf = [] ∧ b'.failed = false ∧
        b'.size = b.size) ∨
    (∃ b' k, writeFlush b wire p n m = (b', wire ++ p.take k, false) ∧ k < p.length ∧
        b'.failed = true) := by
  unfold writeFlush
  simp only [BufW.write, hf, hb, List.length_nil, Nat.sub_zero]
  by_cases h1 : p.length ≤ b.size
  · simp only [h1, if_true, Bool.false_eq_true, if_false, List.nil_append]
    unfold BufW.flush
    simp only [Bool.false_eq_true, if_false]
    by_cases h2 : p = []
    · subst h2
      left
      refine ⟨b, ?_, hb, hf, rfl⟩
      cases b; simp_all
    · simp only [h2, if_false, connWrite]
      by_cases h3 : m < p.length
      · right
        exact ⟨{ b with buf := p.drop m, failed := true }, m, by simp [h3], h3, rfl⟩
      · left
        refine ⟨{ b with buf := [] }, ?_, rfl, hf, rfl⟩
        simp [h3, hf, List.take_of_length_le (Nat.le_of_not_lt h3)]
  · simp only [h1, Bool.false_eq_true, if_false, if_true, connWrite]
    by_cases h3 : n < p.length
    · right
      exact ⟨{ b with failed := true }, n, by simp [h3, hb], h3, rfl⟩
    · left
      refine ⟨b, ?_, hb, hf, rfl⟩
      simp [h3, hf, hb, BufW.flush, List.take_of_length_le (Nat.le_of_not_lt h3)]

/-- Hence the `Flush` that `Close` does sends nothing: after a `Write` that succeeded the buffer
is empty, after one that failed the writer refuses. -/
theorem writeFlush_idle (b : BufW) (wire p : Bytes) (n m : Nat) (hb : b.buf = [])
    (hf : b.failed = false) (wire' : Bytes) (k : Nat) :
    ((writeFlush b wire p n m).1.flush wire' k).2 = wire' := by
  rcases C104_buffer b wire p n m hb hf with ⟨b', h, h1, h2, -⟩ | ⟨b', j, h, -, h2⟩
  · rw [h]; simp [BufW.flush, h1]
  · rw [h]; simp [BufW.flush, h2]

example : writeFlush ⟨[], 4, false⟩ [9] [1, 2, 3] 0 3 = (⟨[], 4, false⟩, [9, 1, 2, 3], true) ∧
    writeFlush ⟨[], 2, false⟩ [9] [1, 2, 3] 2 0 = (⟨[], 2, true⟩, [9, 1, 2], false) := by decide

/-! ## C105: a call returns -/

/-- From any reachable state with finitely many goroutines inside a call, a run without new
calls is finite, and where it cannot go on every call has returned, or one goroutine whose
`Write` failed and one inside `Close` or `Reconnect` each hold the lock the other waits for. -/
theorem C105_ends (m : Mode) {s s' : St} (h : Reach m s) (l : List Tid) (hl : l.Nodup)
    (hi : ∀ t, t ∉ l → s.pc t = .idle) {n : Nat} (r : Runs m n s s') :
    n ≤ work l s ∧
    ((∀ u s'', ¬ Run m u s' s'') → (∀ t, s'.pc t = .idle) ∨ Deadlock s') := by
  refine ⟨by have := (runs_work hl hi r).1; omega, ?_⟩
  intro hstop
  have j := runs_inv (inv_reach h) r
  by_cases hd : Deadlock s'
  · exact .inr hd
  · left
    intro t
    apply Classical.byContradiction
    intro hb
    obtain ⟨u, s'', hr⟩ := progress j hb hd
    exact hstop u s'' hr

/-- The server transport never gets into that state, so there every call returns once the
network has answered. -/
theorem C105_server {s s' : St} (h : Reach .server s) (l : List Tid) (hl : l.Nodup)
    (hi : ∀ t, t ∉ l → s.pc t = .idle) {n : Nat} (r : Runs .server n s s') :
    n ≤ work l s ∧ ((∀ u s'', ¬ Run .server u s' s'') → ∀ t, s'.pc t = .idle) := by
  obtain ⟨h1, h2⟩ := C105_ends .server h l hl hi r
  refine ⟨h1, fun hs => ?_⟩
  rcases h2 hs with h3 | ⟨t, u, p, ht, -⟩
  · exact h3
  · exact absurd ht (((runs_inv (inv_reach h) r).server rfl).1 t p)

/-- The client transport returns from every call if no `Write` is held up after a failure. -/
theorem C105_client_partial {s s' : St} (h : Reach .client s) (l : List Tid) (hl : l.Nodup)
    (hi : ∀ t, t ∉ l → s.pc t = .idle) {n : Nat} (r : Runs .client n s s')
    (hw : ∀ t p, s'.pc t ≠ .wErr p) (hs : ∀ u s'', ¬ Run .client u s' s'') :
    ∀ t, s'.pc t = .idle := by
  rcases (C105_ends .client h l hl hi r).2 hs with h3 | ⟨t, u, p, ht, -⟩
  · exact h3
  · exact absurd ht (hw t p)

/-- A `Read` and a `Write` of five bytes just begun: at most thirteen more steps. -/
example : work [1, 2]
    { St.init with pc := (upd (upd St.init.pc 1 (.call .read)) 2
        (.call (.write [1, 2, 3, 4, 5]))) } = 13 := by decide

theorem stuck_forever {m : Mode} {s : St} (h : Reach m s) {a b : Tid} {p : Bytes} {q : PC}
    (ha : s.pc a = .wErr p) (hb : s.pc b = q) (hq : q.connHeld = true) {s' : St}
    (r : Steps m s s') :
    s'.pc a = .wErr p ∧ s'.pc b = q ∧ ∀ t op, s.pc t = .call op → s'.pc t = .call op := by
  have key : Inv m s' ∧ s'.pc a = .wErr p ∧ s'.pc b = q ∧
      ∀ t op, s.pc t = .call op → s'.pc t = .call op := by
    induction r with
    | refl => exact ⟨inv_reach h, ha, hb, fun _ _ => id⟩
    | tail _ st ih =>
      obtain ⟨i, h1, h2, h3⟩ := ih
      obtain ⟨g1, g2, g3⟩ := stuck_step i h1 h2 hq st
      exact ⟨inv_step i st, g1, g2, fun t op ht => g3 t op (h3 t op ht)⟩
  exact key.2

/-- Disagreement with C105, client transport: a `Write` that fails while `Close` runs.  Neither
ever returns, whatever happens, and no call begun afterwards returns either. -/
theorem C105_deadlock (p : Bytes) (hp : p ≠ []) :
    ∃ s, Reach .client s ∧ s.pc 1 = .wErr p ∧ s.pc 2 = .cWait ∧
      ∀ s', Steps .client s s' →
        (s'.pc 1 = .wErr p ∧ s'.pc 2 = .cWait) ∧
        ∀ t op, s'.pc t = .call op → ∀ s'', Steps .client s' s'' → s''.pc t = .call op := by
  have hk : 0 < p.length := List.length_pos_iff.2 hp
  have key : ∃ s, Reach .client s ∧ s.pc 1 = .wErr p ∧ s.pc 2 = .cWait := by
    refine ⟨_, .tail (.tail (.tail (.tail (.tail (.tail (.refl _)
      (.call (t := 1) (op := .write p) rfl))
      (.run (.enter (t := 1) (op := .write p) rfl rfl)))
      (.run (.lock (t := 1) (p := p) rfl rfl)))
      (.call (t := 2) (op := .close) rfl))
      (.run (.enter (t := 2) (op := .close) rfl rfl)))
      (.run (.putFail (t := 1) (c := 0) (p := p) (k := 0) rfl hk)), rfl, rfl⟩
  obtain ⟨s, hr, h1, h2⟩ := key
  refine ⟨s, hr, h1, h2, ?_⟩
  intro s' hs
  obtain ⟨g1, g2, -⟩ := stuck_forever hr h1 h2 rfl hs
  refine ⟨⟨g1, g2⟩, ?_⟩
  intro t op ht s'' hs'
  exact (stuck_forever (Steps.trans hr hs) g1 g2 rfl hs').2.2 t op ht

/-- The same with `Reconnect` in the place of `Close`. -/
theorem C105_reconnect (p : Bytes) (hp : p ≠ []) :
    ∃ s, Reach .client s ∧ s.pc 1 = .wErr p ∧ s.pc 2 = .kWait ∧
      ∀ s', Steps .client s s' →
        (s'.pc 1 = .wErr p ∧ s'.pc 2 = .kWait) ∧
        ∀ t op, s'.pc t = .call op → ∀ s'', Steps .client s' s'' → s''.pc t = .call op := by
  have hk : 0 < p.length := List.length_pos_iff.2 hp
  have key : ∃ s, Reach .client s ∧ s.pc 1 = .wErr p ∧ s.pc 2 = .kWait := by
    refine ⟨_, .tail (.tail (.tail (.tail (.tail (.tail (.refl _)
      (.call (t := 1) (op := .write p) rfl))
      (.run (.enter (t := 1) (op := .write p) rfl rfl)))
      (.run (.lock (t := 1) (p := p) rfl rfl)))
      (.call (t := 2) (op := .connect) rfl))
      (.run (.enter (t := 2) (op := .connect) rfl rfl)))
      (.run (.putFail (t := 1) (c := 0) (p := p) (k := 0) rfl hk)), rfl, rfl⟩
  obtain ⟨s, hr, h1, h2⟩ := key
  refine ⟨s, hr, h1, h2, ?_⟩
  intro s' hs
  obtain ⟨g1, g2, -⟩ := stuck_forever hr h1 h2 rfl hs
  refine ⟨⟨g1, g2⟩, ?_⟩
  intro t op ht s'' hs'
  exact (stuck_forever (Steps.trans hr hs) g1 g2 rfl hs').2.2 t op ht

/-- Steps in which goroutine `t` takes no part. -/
inductive Others (m : Mode) (t : Tid) : St → St → Prop
  | refl (s) : Others m t s s
  | call {a b u op} : Others m t a b → u ≠ t → b.pc u = .idle →
      Others m t a { b with pc := upd b.pc u (.call op),
                            issued := match op with
                              | .write p => upd b.issued u (b.issued u ++ [p])
                              | _ => b.issued }
  | run {a b c u} : Others m t a b → u ≠ t → Run m u b c → Others m t a c

/-- Disagreement with C105, both transports: while the other side takes no bytes, `Close` neither
interrupts a running `Write` nor returns, and the connection stays open. -/
theorem C105_blocked (m : Mode) (p : Bytes) :
    ∃ s, Reach m s ∧ s.pc 1 = .wPut 0 p 0 ∧ s.pc 2 = .cWait ∧
      ∀ s', Others m 1 s s' → s'.pc 1 = .wPut 0 p 0 ∧ s'.pc 2 = .cWait ∧ s'.shut 0 = false := by
  have key : ∃ s, Reach m s ∧ s.pc 1 = .wPut 0 p 0 ∧ s.pc 2 = .cWait ∧ s.shut 0 = false := by
    refine ⟨_, .tail (.tail (.tail (.tail (.tail (.refl _)
      (.call (t := 1) (op := .write p) rfl))
      (.run (.enter (t := 1) (op := .write p) rfl rfl)))
      (.run (.lock (t := 1) (p := p) rfl rfl)))
      (.call (t := 2) (op := .close) rfl))
      (.run (.enter (t := 2) (op := .close) rfl rfl)), rfl, rfl, rfl⟩
  obtain ⟨s, hr, h1, h2, h3⟩ := key
  refine ⟨s, hr, h1, h2, ?_⟩
  intro s' ho
  have inv : Inv m s' ∧ s'.pc 1 = .wPut 0 p 0 ∧ s'.pc 2 = .cWait ∧ s'.shut 0 = false := by
    induction ho with
    | refl => exact ⟨inv_reach hr, h1, h2, h3⟩
    | call _ hu hidle ih =>
      rename_i u op _
      obtain ⟨i, g1, g2, g3⟩ := ih
      have hu2 : u ≠ 2 := by rintro rfl; simp [g2] at hidle
      exact ⟨inv_call i hidle, by rw [← g1]; exact upd_other _ _ (Ne.symm hu),
        by rw [← g2]; exact upd_other _ _ (Ne.symm hu2), g3⟩
    | run _ hu hrun ih =>
      rename_i b c u _
      obtain ⟨i, g1, g2, g3⟩ := ih
      have hw : b.writeMu = some 1 := (i.writeMu 1).1 (by rw [g1]; rfl)
      have hc : b.connMu = some 2 := (i.connMu 2).1 (by rw [g2]; rfl)
      have hu2 : u ≠ 2 := by rintro rfl; cases hrun <;> simp_all
      obtain ⟨-, ho⟩ := run_rank hrun
      refine ⟨inv_run i hrun, by rw [ho 1 (Ne.symm hu), g1], by rw [ho 2 (Ne.symm hu2), g2], ?_⟩
      cases hrun with
      | enter hp hc' => simp [hc] at hc'
      | close hp hw' => simp [hw] at hw'
      | clean hp hw' => simp [hw] at hw'
      | dialOk hp hc' => simp [hc] at hc'
      | lock hp hw' => simp [hw] at hw'
      | fetch hp => split <;> exact g3
      | readFail hp => split <;> exact g3
      | putFail hp hk => split <;> exact g3
      | _ => exact g3
  exact inv.2

/-! ## C106: `Close` closes every connection -/

/-- After `Close` has returned without an error, every connection the transport has made is
closed, if no two goroutines made connections at the same time. -/
theorem C106_closed_partial (m : Mode) {s : St} (h : StepsIn m OneConnect St.init s) {t : Tid}
    (hc : (Op.close, Ret.ok) ∈ s.rets t) (c : Nat) (hn : c < s.next) : s.shut c = true := by
  rcases (kept_reach h).all c hn with h1 | h1
  · exact h1
  · have := ((shut_reach h.steps).returned t hc).2
    simp [this] at h1

/-- The server transport has one connection, and `Close` closes it. -/
theorem C106_server {s : St} (h : Reach .server s) {t : Tid}
    (hc : (Op.close, Ret.ok) ∈ s.rets t) : s.shut 0 = true := by
  have hn : 0 < s.next := by
    have key : ∀ a b, Steps .server a b → 0 < a.next → 0 < b.next := by
      intro a b hab
      induction hab with
      | refl => exact id
      | tail _ st ih =>
        intro ha
        have hb := ih ha
        cases st with
        | call _ => exact hb
        | run r =>
          cases r with
          | enter hp hc =>
            next op =>
            cases op <;> simp only [St.enter] <;> repeat' split
            all_goals exact hb
          | fetch hp => split <;> exact hb
          | readFail hp => split <;> exact hb
          | putFail hp hk => split <;> exact hb
          | lock hp hw => repeat' split
                          all_goals exact hb
          | close hp hw => simp only [St.drop]; split <;> exact hb
          | clean hp hw => simp only [St.drop]; split <;> exact hb
          | dialOk hp hc => split <;> exact Nat.succ_pos _
          | _ => exact hb
    exact key _ _ h (by simp [St.init])
  exact C106_closed_partial .server (server_one (inv_init _) h) hc 0 hn

/-- A connection, a `Reconnect`, a `Close`: both connections are closed. -/
example : ∃ s, StepsIn .client OneConnect St.init s ∧ (Op.close, Ret.ok) ∈ s.rets 1 ∧
    s.next = 2 ∧ s.shut 0 = true ∧ s.shut 1 = true := by
  have one : ∀ s : St, (∀ t, t ≠ 1 → s.pc t = .idle) → OneConnect s := by
    intro s h t u ht hu
    have : ∀ v, Connecting s v → v = 1 := by
      intro v hv
      apply Classical.byContradiction
      intro hn
      rcases hv with hv | hv | hv <;> simp [h v hn] at hv
    rw [this t ht, this u hu]
  refine ⟨_, .tail (.tail (.tail (.tail (.tail (.tail (.tail (.tail (.refl (one _ ?_))
    (.call (t := 1) (op := .connect) rfl) (one _ ?_))
    (.run (.enter (t := 1) (op := .connect) rfl rfl)) (one _ ?_))
    (.run (.clean (t := 1) rfl rfl)) (one _ ?_))
    (.run (.dialOk (t := 1) rfl rfl)) (one _ ?_))
    (.run (.set (t := 1) rfl rfl)) (one _ ?_))
    (.call (t := 1) (op := .close) rfl) (one _ ?_))
    (.run (.enter (t := 1) (op := .close) rfl rfl)) (one _ ?_))
    (.run (.close (t := 1) rfl rfl)) (one _ ?_), ?_, rfl, rfl, rfl⟩
  all_goals first
    | (intro t ht; simp [St.ret, St.drop, St.enter, St.init, upd, ht]; done)
    | exact List.mem_of_getElem? (i := 1) rfl

/-- Once `Close` has returned, every later `Read` and `Write` fails. -/
theorem C106_after {m : Mode} {s : St} (h : Reach m s) {t : Tid}
    (hc : (Op.close, Ret.ok) ∈ s.rets t) (u : Tid) (op : Op) (ho : op = .read ∨ ∃ p, op = .write p) :
    s.enter m u op = s.ret u op .err := by
  have := ((shut_reach h).returned t hc).1
  rcases ho with rfl | ⟨p, rfl⟩ <;> simp [St.enter, this]

/-- Disagreement with C106: two `Reconnect` calls at the same time.  Both succeed, the second
connection replaces the first one without closing it, and after `Close` has returned the first
one is open and stays open whatever happens. -/
theorem C106_leak :
    ∃ s c, Reach .client s ∧ (∀ t, s.pc t = .idle) ∧ (Op.close, Ret.ok) ∈ s.rets 3 ∧
      (Op.connect, Ret.ok) ∈ s.rets 1 ∧ c < s.next ∧
      ∀ s', Steps .client s s' → s'.shut c = false := by
  have key : ∃ s, Reach .client s ∧ (∀ t, s.pc t = .idle) ∧ (Op.close, Ret.ok) ∈ s.rets 3 ∧
      (Op.connect, Ret.ok) ∈ s.rets 1 ∧ Lost 1 s := by
    refine ⟨_, .tail (.tail (.tail (.tail (.tail (.tail (.tail (.tail (.tail (.tail (.tail
      (.tail (.refl _)
      (.call (t := 1) (op := .connect) rfl))
      (.call (t := 2) (op := .connect) rfl))
      (.run (.enter (t := 1) (op := .connect) rfl rfl)))
      (.run (.clean (t := 1) rfl rfl)))
      (.run (.enter (t := 2) (op := .connect) rfl rfl)))
      (.run (.dialOk (t := 1) rfl rfl)))
      (.run (.set (t := 1) rfl rfl)))
      (.run (.dialOk (t := 2) rfl rfl)))
      (.run (.set (t := 2) rfl rfl)))
      (.call (t := 3) (op := .close) rfl))
      (.run (.enter (t := 3) (op := .close) rfl rfl)))
      (.run (.close (t := 3) rfl rfl)), ?_, ?_, ?_, ?_⟩
    · intro t
      simp only [St.ret, St.drop, St.enter, St.init, upd]
      by_cases h1 : t = 1 <;> by_cases h2 : t = 2 <;> by_cases h3 : t = 3 <;> simp_all [upd]
    · exact List.mem_singleton.2 rfl
    · exact List.mem_singleton.2 rfl
    · exact ⟨rfl, rfl, by decide, rfl⟩
  obtain ⟨s, h1, h2, h3, h4, h5⟩ := key
  refine ⟨s, 1, h1, h2, h3, h4, h5.2.2.1, ?_⟩
  intro s' hs
  have : Inv .client s' ∧ Lost 1 s' := by
    induction hs with
    | refl => exact ⟨inv_reach h1, h5⟩
    | tail _ st ih => exact ⟨inv_step ih.1 st, lost_step ih.1 ih.2 st⟩
  exact this.2.2.2.2

end Claw.Transport
