import Verif.Model.HttpServer

/-!
# The HTTP server transport (C114, C115)
-/

namespace Claw.HttpServer

open Claw.Transport (upd Tid)

/-! ### C114 which requests are served -/

/-- **C114 (a)** The handler serves exactly the POST requests without a content type or with the one of
the protocol, on a response that can be flushed; the others get 405, 415 or 500, in this order. -/
theorem C114_served_iff (f : Bool) (r : Req) :
    ((∃ h, serve f r = .serve h) ↔ r.method = "POST" ∧
      (r.header.get "Content-Type" = "" ∨ r.header.get "Content-Type" = "application/x-claw-rpc") ∧ f = true) ∧
    (serve f r = .refuse 405 ↔ r.method ≠ "POST") ∧
    (serve f r = .refuse 415 ↔ r.method = "POST" ∧ r.header.get "Content-Type" ≠ "" ∧
      r.header.get "Content-Type" ≠ "application/x-claw-rpc") := by
  simp only [serve, contentType]
  by_cases h1 : r.method = "POST"
  · by_cases h2 : r.header.get "Content-Type" = ""
    · cases f <;> simp [h1, h2]
    · by_cases h3 : r.header.get "Content-Type" = "application/x-claw-rpc"
      · cases f <;> simp [h1, h3]
      · cases f <;> simp [h1, h2, h3]
  · simp [h1]

example : serve true ⟨"POST", [("Content-Type", "application/x-claw-rpc")]⟩ =
    .serve [("X-Claw-Protocol-Version", "1.0"), ("Content-Type", "application/x-claw-rpc")] := by decide +kernel
example : serve true ⟨"GET", []⟩ = .refuse 405 ∧ serve true ⟨"POST", [("Content-Type", "text/html")]⟩ = .refuse 415 := by
  decide +kernel

theorem get_set (h : Header) (k v : String) : (h.set k v).get k = v := by
  simp [Header.set, Header.get]

theorem get_set_ne (h : Header) (k j v : String) (e : j ≠ k) : (h.set k v).get j = h.get j := by
  have e' : (k == j) = false := by simpa using Ne.symm e
  simp only [Header.set, Header.get, List.find?_cons, e']
  suffices (h.filter fun x => x.1 != k).find? (fun x => x.1 == j) = h.find? fun x => x.1 == j by rw [this]
  induction h with
  | nil => rfl
  | cons x h ih =>
    by_cases hx : x.1 = k
    · have : (x.1 == j) = false := by rw [hx]; exact e'
      simp [List.find?_cons, hx, e', ih]
    · have hx' : (x.1 != k) = true := by simpa using hx
      rw [List.filter_cons, if_pos hx', List.find?_cons, List.find?_cons, ih]

/-- **C114 (b)** Whatever other headers the caller configures, the client's request is served by the
handler. -/
theorem C114_client_served (custom : Header) (h : ∀ x ∈ custom, x.1 ≠ "Content-Type") :
    ∃ hd, serve true (clientReq custom) = .serve hd ∧ clientTakes 200 hd = true := by
  have key : ∀ (l : Header) (acc : Header), (∀ x ∈ l, x.1 ≠ "Content-Type") →
      (l.foldl (fun h x => h.set x.1 x.2) acc).get "Content-Type" = acc.get "Content-Type" := by
    intro l
    induction l with
    | nil => intro acc _; rfl
    | cons x l ih =>
      intro acc hl
      rw [List.foldl_cons, ih _ (fun y hy => hl y (List.mem_cons_of_mem _ hy)),
        get_set_ne _ _ _ _ (Ne.symm (hl x List.mem_cons_self))]
  have hct : (clientReq custom).header.get "Content-Type" = "application/x-claw-rpc" := by
    rw [clientReq, key _ _ h, get_set_ne _ _ _ _ (by decide), get_set]; rfl
  obtain ⟨hd, hs⟩ := (C114_served_iff true (clientReq custom)).1.2 ⟨rfl, .inr hct, rfl⟩
  exact ⟨hd, hs, rfl⟩

example := C114_client_served [("Authorization", "Bearer x"), ("X-Trace", "1")] (by decide)

/-- Disagreement with C114: the protocol version is sent by both sides and looked at by neither: a client
with any version is served, and a client takes any response with status 200, whatever its headers, for an
RPC connection. -/
theorem C114_version (v : String) (h : Header) :
    (∃ hd, serve true ⟨"POST", [(versionHeader, v), ("Content-Type", contentType)]⟩ = .serve hd) ∧
      clientTakes 200 h = true := by
  refine ⟨(C114_served_iff _ _).1.2 ⟨rfl, .inr ?_, rfl⟩, rfl⟩
  simp +decide [Header.get, List.find?_cons, versionHeader, contentType]

/-! ### C115 the transport of a served request -/

structure Inv (s : St) : Prop where
  held : ∀ t p k, s.pc t = .wPut p k → s.mu = some t ∧ s.closed = false ∧ k ≤ p.length
  holds : ∀ t, s.mu = some t → ∃ p k, s.pc t = .wPut p k
  once : s.bodyCloses = if s.closed then 1 else 0
  ret : s.returned = true → s.closed = true
  busy : s.failed = false → ∀ t p k, s.pc t = .wPut p k → s.out = s.sent.flatten ++ p.take k
  free : s.failed = false → s.mu = none → s.out = s.sent.flatten ∧ s.flushed = s.out.length

theorem inv_init : Inv St.init := by
  constructor <;> simp [St.init] <;> grind

theorem put_unique {s : St} (h : Inv s) {t u : Tid} {p q k j} (h1 : s.pc t = .wPut p k)
    (h2 : s.pc u = .wPut q j) : t = u :=
  Option.some.inj ((h.held t p k h1).1.symm.trans (h.held u q j h2).1)

/-- A goroutine that is not writing moves to a place where it does not write. -/
theorem Inv.move {s : St} (h : Inv s) (t : Tid) (q : PC) (ho : ∀ p k, s.pc t ≠ .wPut p k)
    (hq : ∀ p k, q ≠ .wPut p k) (rets : Tid → List (Op × Ret)) :
    Inv { s with pc := upd s.pc t q, rets } := by
  have key : ∀ u p k, upd s.pc t q u = .wPut p k → s.pc u = .wPut p k := by
    intro u p k hu
    by_cases e : u = t
    · subst e; simp [upd] at hu; exact absurd hu (hq p k)
    · simpa [upd, e] using hu
  refine ⟨fun u p k hu => h.held u p k (key u p k hu), ?_, h.once, h.ret,
    fun hf u p k hu => h.busy hf u p k (key u p k hu), h.free⟩
  intro u hu
  obtain ⟨p, k, hp⟩ := h.holds u hu
  have : u ≠ t := by rintro rfl; exact ho p k hp
  exact ⟨p, k, by simpa [upd, this] using hp⟩

theorem Inv.close {s : St} (h : Inv s) (hm : s.mu = none) (e : Ret) : Inv (s.close e) := by
  unfold St.close
  split
  · exact h
  · rename_i hc
    refine ⟨?_, h.holds, ?_, ?_, h.busy, h.free⟩
    · intro t p k ht; have := (h.held t p k ht).1; rw [hm] at this; cases this
    · have := h.once; simp [hc] at this; simp [this]
    · intro _; rfl

theorem close_closed (s : St) (e : Ret) : (s.close e).closed = true := by
  unfold St.close; split <;> simp_all

theorem close_pc (s : St) (e : Ret) : (s.close e).pc = s.pc := by
  unfold St.close; split <;> rfl

theorem Inv.step {s s' : St} (h : Inv s) (hs : Step s s') : Inv s' := by
  cases hs with
  | call hpc _ => exact h.move _ _ (by simp [hpc]) (by simp) s.rets
  | read hpc hm =>
    split
    · exact h.move _ _ (by simp [hpc]) (by simp) _
    · exact h.move _ _ (by simp [hpc]) (by simp) s.rets
  | readEnd hpc _ => exact h.move _ _ (by simp [hpc]) (by simp) _
  | @write t p hpc hm =>
    split
    · exact h.move _ _ (by simp [hpc]) (by simp) _
    · rename_i hc
      have hno : ∀ u q j, s.pc u ≠ .wPut q j := by
        intro u q j hu; have := (h.held u q j hu).1; rw [hm] at this; cases this
      have key : ∀ u q j, upd s.pc t (PC.wPut p 0) u = .wPut q j → u = t ∧ q = p ∧ j = 0 := by
        intro u q j hu
        by_cases e : u = t
        · subst e; simp [upd] at hu; exact ⟨rfl, hu.1.symm, hu.2.symm⟩
        · exact absurd (by simpa [upd, e] using hu) (hno u q j)
      refine ⟨?_, ?_, h.once, h.ret, ?_, ?_⟩
      · intro u q j hu
        obtain ⟨rfl, rfl, rfl⟩ := key u q j hu
        exact ⟨rfl, by simpa using hc, Nat.zero_le _⟩
      · intro u hu; cases hu; exact ⟨p, 0, by simp [upd]⟩
      · intro hf u q j hu
        obtain ⟨rfl, rfl, rfl⟩ := key u q j hu
        simpa using (h.free hf hm).1
      · intro _ hm'; cases hm'
  | @put t p k hk hpc =>
    have key : ∀ u q j, upd s.pc t (PC.wPut p (k + 1)) u = .wPut q j → u = t ∧ q = p ∧ j = k + 1 := by
      intro u q j hu
      by_cases e : u = t
      · subst e; simp [upd] at hu; exact ⟨rfl, hu.1.symm, hu.2.symm⟩
      · exact absurd (put_unique h (by simpa [upd, e] using hu) hpc) e
    obtain ⟨h1, h2, h3⟩ := h.held t p k hpc
    refine ⟨?_, ?_, h.once, h.ret, ?_, ?_⟩
    · intro u q j hu
      obtain ⟨rfl, rfl, rfl⟩ := key u q j hu
      exact ⟨h1, h2, hk⟩
    · intro u hu
      have : u = t := Option.some.inj (hu.symm.trans h1)
      subst this; exact ⟨p, k + 1, by simp [upd]⟩
    · intro hf u q j hu
      obtain ⟨rfl, rfl, rfl⟩ := key u q j hu
      show s.out ++ [_] = _
      rw [h.busy hf u q k hpc, List.append_assoc, List.take_add_one]; simp [hk]
    · intro _ hm; rw [show s.mu = none from hm] at h1; cases h1
  | @putFail t p k hpc hk =>
    have hno : ∀ u q j, upd s.pc t PC.idle u ≠ .wPut q j := by
      intro u q j hu
      by_cases e : u = t
      · subst e; simp [upd] at hu
      · exact e (put_unique h (by simpa [upd, e] using hu) hpc)
    exact ⟨fun u q j hu => absurd hu (hno u q j), by simp, h.once, h.ret, by simp, by simp⟩
  | @putOk t p hpc =>
    have hno : ∀ u q j, upd s.pc t PC.idle u ≠ .wPut q j := by
      intro u q j hu
      by_cases e : u = t
      · subst e; simp [upd] at hu
      · exact e (put_unique h (by simpa [upd, e] using hu) hpc)
    refine ⟨fun u q j hu => absurd hu (hno u q j), by simp, h.once, h.ret, fun _ u q j hu => absurd hu (hno u q j), ?_⟩
    intro hf _
    have := h.busy hf t p _ hpc
    simp only [List.take_length] at this
    exact ⟨by simpa [St.ret] using this, rfl⟩
  | @close t e hpc hm =>
    have := h.close hm e
    exact this.move t _ (by rw [close_pc]; simp [hpc]) (by simp) _
  | @final e hpc hm =>
    have h' := h.close hm e
    have h'' := h'.move 0 .idle (by rw [close_pc]; simp [hpc]) (by simp) (s.close e).rets
    rw [close_pc] at h''
    exact ⟨h''.held, h''.holds, h''.once, fun _ => close_closed s e, h''.busy, h''.free⟩
  | served hpc => exact h.move _ _ (by simp [hpc]) (by simp) s.rets

theorem inv_steps {s s' : St} (h : Inv s) (hs : Steps s s') : Inv s' := by
  induction hs with
  | refl => exact h
  | tail _ hs ih => exact ih.step hs

theorem reach_inv {s : St} (h : Reach s) : Inv s := inv_steps inv_init h

/-- A closed transport writes nothing more and keeps what `Close` answered. -/
theorem closed_step {s s' : St} (h : Inv s) (hs : Step s s') (hc : s.closed = true) :
    s'.out = s.out ∧ s'.closed = true ∧ s'.closeErr = s.closeErr := by
  cases hs with
  | put hk hpc => rw [(h.held _ _ _ hpc).2.1] at hc; cases hc
  | read => split <;> exact ⟨rfl, hc, rfl⟩
  | write => simp [hc, St.ret]
  | close => simp [St.close, hc, St.ret]
  | final => simp [St.close, hc]
  | _ => exact ⟨rfl, hc, rfl⟩

/-- **C115 (a)** After `Close` has returned, and so after `ServeHTTP` has returned, nothing is ever written
to the response, in any interleaving; the request body has been closed exactly once; every later `Close`
gives the answer of the first. -/
theorem C115_after_return (s s' : St) (h : Reach s) (hc : s.closed = true ∨ s.returned = true)
    (hs : Steps s s') :
    s'.out = s.out ∧ s'.closed = true ∧ s'.closeErr = s.closeErr ∧ s'.bodyCloses = 1 := by
  have hi := reach_inv h
  have hc : s.closed = true := hc.elim id hi.ret
  have key : s'.out = s.out ∧ s'.closed = true ∧ s'.closeErr = s.closeErr := by
    induction hs with
    | refl => exact ⟨rfl, hc, rfl⟩
    | tail hs hst ih =>
      have := closed_step (inv_steps hi hs) hst ih.2.1
      exact ⟨this.1.trans ih.1, this.2.1, this.2.2.trans ih.2.2⟩
  refine ⟨key.1, key.2.1, key.2.2, ?_⟩
  have := (inv_steps hi hs).once
  simpa [key.2.1] using this

/-- Every `Close` that has returned gave the answer the transport keeps. -/
theorem close_answer {s : St} (h : Reach s) :
    ∀ t r, (Op.close, r) ∈ s.rets t → s.closed = true ∧ r = s.closeErr := by
  induction h with
  | refl => intro t r h; simp [St.init] at h
  | @tail b c hb hs ih =>
    have key : ∀ (u : Tid) (op : Op) (x : Ret) (l : Tid → List (Op × Ret)), op ≠ .close →
        (∀ t r, (Op.close, r) ∈ l t → b.closed = true ∧ r = b.closeErr) →
        ∀ t r, (Op.close, r) ∈ upd l u (l u ++ [(op, x)]) t → b.closed = true ∧ r = b.closeErr := by
      intro u op x l hop hl t r hm
      by_cases e : t = u
      · subst e
        simp only [upd, if_true, List.mem_append, List.mem_singleton, Prod.mk.injEq] at hm
        rcases hm with hm | hm
        · exact hl _ _ hm
        · exact absurd hm.1.symm hop
      · exact hl t r (by simpa [upd, e] using hm)
    cases hs with
    | call => exact ih
    | read => split <;> first | exact key _ _ _ _ (by simp) ih | exact ih
    | readEnd => exact key _ _ _ _ (by simp) ih
    | write => split <;> first | exact key _ _ _ _ (by simp) ih | exact ih
    | put => exact ih
    | putFail => exact key _ _ _ _ (by simp) ih
    | putOk => exact key _ _ _ _ (by simp) ih
    | @close u e =>
      intro t r hm
      have hcl := close_closed b e
      refine ⟨hcl, ?_⟩
      by_cases hu : t = u
      · subst hu
        simp only [St.ret, upd, if_true, List.mem_append, List.mem_singleton, Prod.mk.injEq] at hm
        rcases hm with hm | hm
        · have : (Op.close, r) ∈ b.rets t := by
            unfold St.close at hm; split at hm <;> exact hm
          obtain ⟨h1, h2⟩ := ih t r this
          simp [St.ret, St.close, h1, h2]
        · simpa [St.ret] using hm.2
      · have : (Op.close, r) ∈ b.rets t := by
          simp only [St.ret, upd, hu, if_false] at hm
          unfold St.close at hm; split at hm <;> exact hm
        obtain ⟨h1, h2⟩ := ih t r this
        simp [St.ret, St.close, h1, h2]
    | served => exact ih
    | @final e =>
      intro t r hm
      have : (Op.close, r) ∈ b.rets t := by
        simp only at hm
        unfold St.close at hm; split at hm <;> exact hm
      obtain ⟨h1, h2⟩ := ih t r this
      simp [St.close, h1, h2]

/-- **C115 (d)** All `Close` calls give the same answer. -/
theorem C115_close_answer (s : St) (h : Reach s) (t u : Tid) (r q : Ret) (h1 : (Op.close, r) ∈ s.rets t)
    (h2 : (Op.close, q) ∈ s.rets u) : r = q :=
  (close_answer h t r h1).2.trans (close_answer h u q h2).2.symm

/-- Two calls of `Close`, the first of which failed. -/
example : ∃ s, Reach s ∧ s.rets 1 = [(.close, .err)] ∧ s.rets 2 = [(.close, .err)] := by
  refine ⟨_, .tail (.tail (.tail (.tail (.refl _)
    (.call (t := 1) (op := .close) rfl (by decide)))
    (.call (t := 2) (op := .close) rfl (by decide)))
    (.close (t := 1) (e := .err) rfl rfl))
    (.close (t := 2) (e := .ok) rfl rfl), rfl, rfl⟩

/-- **C115 (b)** As long as no write to the response has failed, the response is the messages of the
successful `Write` calls, whole and in order, then the beginning of the one being written; and when none is
being written everything has been flushed. -/
theorem C115_stream (s : St) (h : Reach s) (hf : s.failed = false) :
    (∃ tail, s.out = s.sent.flatten ++ tail ∧
      (tail = [] ∨ ∃ t p k, s.pc t = .wPut p k ∧ tail = p.take k)) ∧
    (s.mu = none → s.out = s.sent.flatten ∧ s.flushed = s.out.length) := by
  have hi := reach_inv h
  refine ⟨?_, hi.free hf⟩
  cases hm : s.mu with
  | none => exact ⟨[], by simpa using (hi.free hf hm).1, .inl rfl⟩
  | some t =>
    obtain ⟨p, k, hp⟩ := hi.holds t hm
    exact ⟨p.take k, hi.busy hf t p k hp, .inr ⟨t, p, k, hp, rfl⟩⟩

/-- **C115 (c)** A `Write` or `Read` begun on a closed transport fails at once with `ErrClosedPipe`. -/
theorem C115_closed_calls (s : St) (t : Tid) (op : Op) (hc : s.closed = true) (hop : op ≠ .close)
    (hpc : s.pc t = .call op) (hm : s.mu = none) :
    ∃ s', Step s s' ∧ s'.rets t = s.rets t ++ [(op, .errClosedPipe)] ∧ s'.out = s.out := by
  cases op with
  | read => exact ⟨_, .read hpc hm, by simp [hc, St.ret, upd], by simp [hc, St.ret]⟩
  | write p => exact ⟨_, .write hpc hm, by simp [hc, St.ret, upd], by simp [hc, St.ret]⟩
  | close => exact absurd rfl hop

/-- Non-trivial case of (a) and (b): a message was sent, the handler returned, another `Write` is under
way. -/
example : ∃ s, Reach s ∧ s.returned = true ∧ s.out = [1, 2] ∧ s.failed = false ∧
    s.pc 2 = .call (.write [3]) := by
  refine ⟨_, .tail (.tail (.tail (.tail (.tail (.tail (.tail (.tail (.refl _)
    (.call (t := 1) (op := .write [1, 2]) rfl (by decide)))
    (.write (t := 1) (p := [1, 2]) rfl rfl))
    (.put (t := 1) (p := [1, 2]) (k := 0) (by decide) rfl))
    (.put (t := 1) (p := [1, 2]) (k := 1) (by decide) rfl))
    (.putOk (t := 1) (p := [1, 2]) rfl))
    (.call (t := 2) (op := .write [3]) rfl (by decide)))
    (.served rfl))
    (.final (e := .ok) rfl rfl), rfl, rfl, rfl, rfl⟩

theorem final_step {s s' : St} (hs : Step s s') (h : s.pc 0 = .final ∨ s.returned = true) :
    s'.pc 0 = .final ∨ s'.returned = true := by
  have key : ∀ (t : Tid) (q : PC), s.pc t ≠ .final → (upd s.pc t q 0 = .final ∨ s.returned = true) := by
    intro t q ht
    rcases h with h | h
    · left
      have : (0 : Nat) ≠ t := by rintro rfl; exact ht h
      simpa [upd, this] using h
    · exact .inr h
  cases hs with
  | call hpc _ => exact key _ _ (by simp [hpc])
  | read hpc _ => split <;> exact key _ _ (by simp [hpc])
  | readEnd hpc _ => exact key _ _ (by simp [hpc])
  | write hpc _ => split <;> exact key _ _ (by simp [hpc])
  | put _ hpc => exact key _ _ (by simp [hpc])
  | putFail hpc _ => exact key _ _ (by simp [hpc])
  | putOk hpc => exact key _ _ (by simp [hpc])
  | @close t e hpc _ =>
    have := key t .idle (by simp [hpc])
    simp only [St.ret, close_pc]
    have hr : (s.close e).returned = s.returned := by unfold St.close; split <;> rfl
    rw [hr]; exact this
  | served hpc => exact .inl (by simp [upd])
  | final => exact .inr rfl

theorem final_steps {s s' : St} (hs : Steps s s') (h : s.pc 0 = .final) :
    s'.pc 0 = .final ∨ s'.returned = true := by
  induction hs with
  | refl => exact .inl h
  | tail _ hst ih => exact final_step hst ih

/-- Disagreement with C115: `ServeHTTP` does not return while a `Write` waits for a client that does not
read: its `Close` waits for the mutex that the `Write` holds. -/
theorem C115_blocked (p : Bytes) (hp : p ≠ []) :
    ∃ s, Reach s ∧ s.pc 0 = .final ∧ s.pc 1 = .wPut p 0 ∧
      ∀ s', Steps s s' → s'.pc 1 = .wPut p 0 → s'.pc 0 = .final ∧ s'.returned = false := by
  have key : ∃ s, Reach s ∧ s.pc 0 = .final ∧ s.pc 1 = .wPut p 0 ∧ s.returned = false :=
    ⟨_, .tail (.tail (.tail (.refl _)
      (.call (t := 1) (op := .write p) rfl (by decide)))
      (.write (t := 1) (p := p) rfl rfl))
      (.served rfl), rfl, rfl, rfl⟩
  obtain ⟨s, h, h1, h2, h3⟩ := key
  refine ⟨s, h, h1, h2, ?_⟩
  intro s' hs
  intro h1'
  have hi := inv_steps (reach_inv h) hs
  have hr : s'.returned = false := by
    cases hr : s'.returned with
    | false => rfl
    | true => have := (hi.held 1 p 0 h1').2.1; rw [hi.ret hr] at this; cases this
  refine ⟨?_, hr⟩
  rcases final_steps hs h1 with h | h
  · exact h
  · rw [hr] at h; cases h

end Claw.HttpServer
