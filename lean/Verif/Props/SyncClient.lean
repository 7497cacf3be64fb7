import Verif.Model.SyncClient
import Verif.Lemmas.ServerConn

/-!
# C41: replies reach the call that asked

An execution is a list of actions of any number of concurrent calls and of the read loop, with any payloads.
-/

namespace Claw.SyncCli

open Claw.SrvConn (Pl lookup remove insert lookup_mem mem_remove mem_insert)

set_option linter.unusedSimpArgs false

/-- The payloads that came for the session. -/
def delivered : List Act → List Pl
  | [] => []
  | .deliver p :: as => p :: delivered as
  | _ :: as => delivered as

theorem delivered_append (as bs : List Act) : delivered (as ++ bs) = delivered as ++ delivered bs := by
  induction as with
  | nil => rfl
  | cons a as ih => cases a <;> simp [delivered, ih]

/-- What a call has: a reply in its channel, a reply it returns. -/
def holds (x : Call) : List Pl :=
  (match x.ch with | some d => [⟨x.reqID, d⟩] | none => []) ++
  (match x.pc with | .returning (some d) => [⟨x.reqID, d⟩] | .done (some d) => [⟨x.reqID, d⟩] | _ => [])

theorem count_set [BEq β] [LawfulBEq β] (f : α → List β) (b : β) : ∀ (l : List α) (i : Nat) (x y : α), l[i]? = some x →
    ((l.set i y).flatMap f).count b + (f x).count b = (l.flatMap f).count b + (f y).count b
  | [], _, _, _, h => by simp at h
  | z :: l, 0, x, y, h => by simp at h; subst h; simp; omega
  | z :: l, i + 1, x, y, h => by
    have := count_set f b l i x y (by simpa using h)
    simp; omega

structure Inv (as : List Act) (c : Cli) : Prop where
  /-- every payload is in at most one place -/
  cons : ∀ p, c.queue.count p + (c.calls.flatMap holds).count p ≤ (delivered as).count p
  pend : ∀ e ∈ c.pending, ∃ x, c.calls[e.2]? = some x ∧ x.reqID = e.1

/-- A call changes, not its identifier, and it and the queue hold no more than before. -/
theorem Inv.setCall {as : List Act} {a : Act} {c : Cli} {q : List Pl} {m : List (UInt32 × Nat)} (h : Inv as c) {i : Nat}
    {x y : Call} (hx : c.calls[i]? = some x) (hid : y.reqID = x.reqID) (hm : ∀ e ∈ m, e ∈ c.pending)
    (hh : ∀ p, q.count p + (holds y).count p ≤ c.queue.count p + (holds x).count p) :
    Inv (as ++ [a]) { c with queue := q, pending := m, calls := c.calls.set i y } := by
  constructor
  · intro p
    have h1 := h.cons p
    have h2 := count_set holds p c.calls i x y hx
    have h3 := hh p
    rw [delivered_append, List.count_append]
    dsimp only
    omega
  · intro e he
    obtain ⟨z, k1, k2⟩ := h.pend e (hm e he)
    by_cases hi : i = e.2
    · subst hi
      rw [hx] at k1
      cases k1
      exact ⟨y, List.getElem?_set_self (List.getElem?_eq_some_iff.1 hx).1, hid.trans k2⟩
    · exact ⟨z, (List.getElem?_set_ne hi).trans k1, k2⟩

theorem Inv.step {as : List Act} {c c' : Cli} {a : Act} (h : Inv as c) (e : step c a = some c') : Inv (as ++ [a]) c' := by
  have hdel : ∀ p, (delivered as).count p ≤ (delivered (as ++ [a])).count p := by
    intro p; rw [delivered_append, List.count_append]; omega
  have same : Inv (as ++ [a]) c := ⟨fun p => Nat.le_trans (h.cons p) (hdel p), h.pend⟩
  unfold SyncCli.step at e
  split at e
  · simp at e
  cases a with
  | call =>
    dsimp only at e
    split at e <;> simp only [Option.some.injEq] at e <;> subst e
    · exact same
    · constructor
      · intro p
        have := same.cons p
        simp only [List.flatMap_append, List.count_append]
        simpa [holds] using this
      · intro x hx
        rcases mem_insert.1 hx with ⟨hx, _⟩ | rfl
        · obtain ⟨y, k1, k2⟩ := h.pend x hx
          exact ⟨y, by rw [List.getElem?_append_left (List.getElem?_eq_some_iff.1 k1).1]; exact k1, k2⟩
        · exact ⟨{ reqID := c.next }, by simp, rfl⟩
  | sent i =>
    dsimp only at e
    split at e
    · simp at e
    rename_i x hx
    split at e <;> simp only [Option.some.injEq, reduceCtorEq] at e
    rename_i hp
    subst e
    exact h.setCall hx rfl (fun _ h => h) (by intro p; simp [holds, hp])
  | fail i =>
    dsimp only at e
    split at e
    · simp at e
    rename_i x hx
    split at e <;> simp only [Option.some.injEq, reduceCtorEq] at e
    rename_i hp
    subst e
    refine h.setCall hx rfl (fun _ h => h) ?_
    intro p
    rcases hp with hp | hp <;> simp [holds, hp]
  | deliver p =>
    dsimp only at e
    split at e <;> simp only [Option.some.injEq, reduceCtorEq] at e
    subst e
    refine ⟨?_, h.pend⟩
    intro q
    have := h.cons q
    rw [delivered_append]
    simp only [delivered, List.count_append]
    omega
  | shut =>
    dsimp only at e
    split at e <;> simp only [Option.some.injEq, reduceCtorEq] at e
    subst e
    exact ⟨same.cons, same.pend⟩
  | take i =>
    dsimp only at e
    split at e
    · simp at e
    rename_i x hx
    split at e <;> try (simp at e; done)
    rename_i hp
    split at e
    · split at e <;> simp only [Option.some.injEq, reduceCtorEq] at e
      subst e
      exact ⟨same.cons, same.pend⟩
    · rename_i p q hq
      simp only [Option.some.injEq] at e
      subst e
      have drop : Inv (as ++ [.take i]) { c with queue := q } := by
        refine ⟨fun r => ?_, h.pend⟩
        have := same.cons r
        rw [hq, List.count_cons] at this
        dsimp only
        omega
      unfold dispatch
      split
      · rename_i hr
        refine h.setCall (m := c.pending) hx rfl (fun _ h => h) ?_
        intro r
        have : (⟨x.reqID, p.data⟩ : Pl) = p := by rw [← hr]
        simp only [holds, hp, hq, List.count_append, List.count_cons, List.count_nil, this]
        omega
      · split
        · exact drop
        · rename_i j hj
          dsimp only
          split
          · exact drop
          · rename_i y hy
            split
            · rename_i hc
              refine h.setCall (m := c.pending) hy rfl (fun _ h => h) ?_
              intro r
              obtain ⟨z, k1, k2⟩ := h.pend _ (lookup_mem hj)
              dsimp only at k1
              rw [hy] at k1
              cases k1
              have : (⟨y.reqID, p.data⟩ : Pl) = p := by
                cases p; simp only at k2 ⊢; rw [k2]
              simp only [holds, hc, hq, List.count_append, List.count_cons, List.count_nil, this]
              omega
            · exact drop
  | resp i =>
    dsimp only at e
    split at e
    · simp at e
    rename_i x hx
    split at e <;> try (simp at e; done)
    rename_i hp
    split at e <;> simp only [Option.some.injEq, reduceCtorEq] at e
    rename_i d hd
    subst e
    refine h.setCall hx rfl (fun _ h => h) ?_
    intro p
    simp [holds, hp, hd]
  | cleanup i =>
    dsimp only at e
    split at e
    · simp at e
    rename_i x hx
    split at e <;> simp only [Option.some.injEq, reduceCtorEq] at e
    rename_i r hp
    subst e
    refine h.setCall hx rfl (fun _ h => (mem_remove.1 h).1) ?_
    intro p
    cases r <;> simp [holds, hp]
  | close =>
    simp only [Option.some.injEq] at e
    subst e
    exact ⟨same.cons, same.pend⟩

/-- Induction over an execution. -/
theorem reach_induction (P : List Act → Cli → Prop) (h0 : P [] {})
    (hs : ∀ as c a c', P as c → step c a = some c' → P (as ++ [a]) c') {as : List Act} {c : Cli}
    (h : run as {} = some c) : P as c := by
  have key : ∀ (as pre : List Act) (c c' : Cli), P pre c → run as c = some c' → P (pre ++ as) c' := by
    intro as
    induction as with
    | nil => intro pre c c' hp e; simp [run] at e; subst e; simpa using hp
    | cons a as ih =>
      intro pre c c' hp e
      simp only [run, Option.bind_eq_some_iff] at e
      obtain ⟨d, e1, e2⟩ := e
      have := ih (pre ++ [a]) d c' (hs _ _ _ _ hp e1) e2
      simpa using this
  simpa using key as [] _ _ h0 h

theorem reach_inv {as : List Act} {c : Cli} (h : run as {} = some c) : Inv as c :=
  reach_induction (fun as c => Inv as c) ⟨by simp, by simp⟩ (fun _ _ _ _ hp e => hp.step e) h

/-- The reply of a call that has returned one. -/
def reply (x : Call) : Option Bytes :=
  match x.pc with
  | .returning r => r
  | .done r => r
  | _ => none

/-- **C41** A call returns a payload only if a payload with these bytes and the request identifier of that call came for
the session. -/
theorem C41_reply_is_ours {as : List Act} {c : Cli} (h : run as {} = some c) {i : Nat} {x : Call} {d : Bytes}
    (hx : c.calls[i]? = some x) (hr : reply x = some d) : ⟨x.reqID, d⟩ ∈ delivered as := by
  have h1 := (reach_inv h).cons ⟨x.reqID, d⟩
  have h2 : (⟨x.reqID, d⟩ : Pl) ∈ c.calls.flatMap holds := by
    refine List.mem_flatMap.2 ⟨x, List.mem_of_getElem? hx, ?_⟩
    unfold reply at hr
    unfold holds
    split at hr
    · rename_i hp; subst hr; simp [hp]
    · rename_i hp; subst hr; simp [hp]
    · simp at hr
  have h3 := List.count_pos_iff.2 h2
  exact List.count_pos_iff.1 (by omega)

/-- C41: a payload is returned by at most one call: payloads are returned at most as often as they came. -/
theorem C41_no_duplicates {as : List Act} {c : Cli} (h : run as {} = some c) (p : Pl) :
    (c.calls.filter fun x => x.reqID = p.req ∧ reply x = some p.data).length ≤ (delivered as).count p := by
  have h1 := (reach_inv h).cons p
  have : ∀ l : List Call, (l.filter fun x => x.reqID = p.req ∧ reply x = some p.data).length ≤ (l.flatMap holds).count p := by
    intro l
    induction l with
    | nil => simp
    | cons x l ih =>
      rw [List.filter_cons, List.flatMap_cons, List.count_append]
      split
      · rename_i hx
        simp only [decide_eq_true_eq] at hx
        have : p ∈ holds x := by
          obtain ⟨k1, k2⟩ := hx
          have hp : p = ⟨x.reqID, p.data⟩ := by rw [k1]
          rw [hp]
          unfold reply at k2
          unfold holds
          split at k2
          · rename_i e; subst k2; simp [e]
          · rename_i e; subst k2; simp [e]
          · simp at k2
        have := List.count_pos_iff.2 this
        simp only [List.length_cons]
        omega
      · omega
  have := this c.calls
  omega

/-- Two calls at the same time; each gets the reply of the other from the receive channel and passes it on. -/
def crossed : List Act :=
  [.call, .call, .sent 0, .sent 1, .deliver ⟨1, [11]⟩, .deliver ⟨0, [10]⟩, .take 0, .take 1, .resp 0, .resp 1, .cleanup 0,
   .cleanup 1]

example : ∃ c, run crossed {} = some c ∧ c.calls.map (fun x => (x.reqID, reply x)) = [(0, some [10]), (1, some [11])] ∧
    c.pending = [] := ⟨_, rfl, by decide, by decide⟩

/-! ### Identifiers -/

/-- Calls have the identifiers 0, 1, 2, …; a call that has not run its deferred function is found under its own. -/
structure Ids (c : Cli) : Prop where
  next : c.next = UInt32.ofNat c.calls.length
  id : ∀ (i : Nat) x, c.calls[i]? = some x → x.reqID = UInt32.ofNat i
  found : c.calls.length < 2 ^ 32 → ∀ (i : Nat) x, c.calls[i]? = some x → (∀ r, x.pc ≠ .done r) →
    lookup c.pending x.reqID = some i

theorem lookup_insert (m : List (UInt32 × Nat)) (a b : UInt32) (i : Nat) :
    lookup (SrvConn.insert m a i) b = if b = a then some i else lookup m b := by
  unfold lookup SrvConn.insert remove
  rw [List.find?_append]
  split
  · rename_i h
    subst h
    rw [List.find?_eq_none.2 (by intro x hx; simp at hx; simpa using hx.2)]
    simp
  · rename_i h
    rw [List.find?_filter]
    have : (fun e : UInt32 × Nat => decide (decide (e.1 ≠ a) = true ∧ decide (e.1 = b) = true)) = fun e => decide (e.1 = b) := by
      funext e
      by_cases h2 : e.1 = b
      · simp [h2, h]
      · simp [h2]
    simp only [this, List.find?_singleton]
    have : (decide (a = b)) = false := by simp [Ne.symm h]
    rw [this]
    simp

theorem lookup_remove_ne (m : List (UInt32 × Nat)) {a b : UInt32} (h : b ≠ a) : lookup (remove m a) b = lookup m b := by
  unfold lookup remove
  rw [List.find?_filter]
  have : (fun e : UInt32 × Nat => decide (decide (e.1 ≠ a) = true ∧ decide (e.1 = b) = true)) = fun e => decide (e.1 = b) := by
    funext e
    by_cases h2 : e.1 = b
    · simp [h2, h]
    · simp [h2]
  simp only [this]

theorem ofNat_inj {i j : Nat} (hi : i < 2 ^ 32) (hj : j < 2 ^ 32) (h : UInt32.ofNat i = UInt32.ofNat j) : i = j := by
  have := congrArg UInt32.toNat h
  simp only [UInt32.toNat_ofNat'] at this
  omega

/-- The calls are as many as before, with the same identifiers; who is not done was not done before. -/
theorem Ids.keep {c c' : Cli} (h : Ids c) (hn : c'.next = c.next) (hp : c'.pending = c.pending)
    (hl : c'.calls.length = c.calls.length)
    (hc : ∀ (i : Nat) x', c'.calls[i]? = some x' → ∃ x, c.calls[i]? = some x ∧ x'.reqID = x.reqID ∧
      ((∀ r, x'.pc ≠ .done r) → ∀ r, x.pc ≠ .done r)) : Ids c' := by
  constructor
  · rw [hn, h.next, hl]
  · intro i x' hx'
    obtain ⟨x, k1, k2, _⟩ := hc i x' hx'
    rw [k2]; exact h.id i x k1
  · intro hlt i x' hx' hd
    obtain ⟨x, k1, k2, k3⟩ := hc i x' hx'
    rw [k2, hp]
    exact h.found (hl ▸ hlt) i x k1 (k3 hd)

theorem set_calls {l : List Call} {j : Nat} {y y' : Call} (hj : l[j]? = some y) (hid : y'.reqID = y.reqID)
    (hd : (∀ r, y'.pc ≠ .done r) → ∀ r, y.pc ≠ .done r) (i : Nat) (x' : Call) (h : (l.set j y')[i]? = some x') :
    ∃ x, l[i]? = some x ∧ x'.reqID = x.reqID ∧ ((∀ r, x'.pc ≠ .done r) → ∀ r, x.pc ≠ .done r) := by
  by_cases hji : j = i
  · subst hji
    rw [List.getElem?_set_self (List.getElem?_eq_some_iff.1 hj).1] at h
    cases h
    exact ⟨y, hj, hid, hd⟩
  · rw [List.getElem?_set_ne hji] at h
    exact ⟨x', h, rfl, fun h => h⟩

theorem Ids.step {c c' : Cli} {a : Act} (h : Ids c) (e : step c a = some c') : Ids c' := by
  have same : ∀ (q : List Pl) (b1 b2 b3 : Bool),
      Ids { c with queue := q, recvClosed := b1, crashed := b2, closed := b3 } := fun _ _ _ _ => ⟨h.next, h.id, h.found⟩
  unfold SyncCli.step at e
  split at e
  · simp at e
  cases a with
  | call =>
    dsimp only at e
    split at e <;> simp only [Option.some.injEq] at e <;> subst e
    · exact h
    · have hget : ∀ (i : Nat) x, (c.calls ++ [({ reqID := c.next } : Call)])[i]? = some x →
          c.calls[i]? = some x ∨ (i = c.calls.length ∧ x = { reqID := c.next }) := by
        intro i x hx
        by_cases hi : i < c.calls.length
        · rw [List.getElem?_append_left hi] at hx; exact .inl hx
        · have := (List.getElem?_eq_some_iff.1 hx).1
          have : i = c.calls.length := by simp at this; omega
          subst this
          simp at hx
          exact .inr ⟨rfl, hx.symm⟩
      constructor
      · simp only [List.length_append, List.length_cons, List.length_nil, h.next]
        apply UInt32.toNat_inj.1
        simp [UInt32.toNat_add]
      · intro i x hx
        rcases hget i x hx with hx | ⟨rfl, rfl⟩
        · exact h.id i x hx
        · exact h.next
      · intro hlt i x hx hd
        simp only [List.length_append, List.length_cons, List.length_nil] at hlt
        rw [lookup_insert]
        rcases hget i x hx with hx | ⟨rfl, rfl⟩
        · have hi := (List.getElem?_eq_some_iff.1 hx).1
          rw [if_neg]
          · exact h.found (by omega) i x hx hd
          · rw [h.id i x hx, h.next]
            intro e
            have := ofNat_inj (by omega) (by omega) e
            omega
        · simp
  | sent i =>
    dsimp only at e
    split at e
    · simp at e
    rename_i x hx
    split at e <;> simp only [Option.some.injEq, reduceCtorEq] at e
    rename_i hp
    subst e
    exact h.keep rfl rfl (by simp) (set_calls hx rfl (by simp [hp]))
  | fail i =>
    dsimp only at e
    split at e
    · simp at e
    rename_i x hx
    split at e <;> simp only [Option.some.injEq, reduceCtorEq] at e
    rename_i hp
    subst e
    exact h.keep rfl rfl (by simp) (set_calls hx rfl (by rcases hp with hp | hp <;> simp [hp]))
  | deliver p =>
    dsimp only at e
    split at e <;> simp only [Option.some.injEq, reduceCtorEq] at e
    subst e
    exact same ..
  | shut =>
    dsimp only at e
    split at e <;> simp only [Option.some.injEq, reduceCtorEq] at e
    subst e
    exact same ..
  | take i =>
    dsimp only at e
    split at e
    · simp at e
    rename_i x hx
    split at e <;> try (simp at e; done)
    rename_i hp
    split at e
    · split at e <;> simp only [Option.some.injEq, reduceCtorEq] at e
      subst e
      exact same ..
    · simp only [Option.some.injEq] at e
      subst e
      unfold dispatch
      split
      · exact h.keep rfl rfl (by simp) (set_calls hx rfl (by simp [hp]))
      · split
        · exact same ..
        · dsimp only
          split
          · exact same ..
          · rename_i y hy
            split
            · exact h.keep rfl rfl (by simp) (set_calls hy rfl (fun h => h))
            · exact same ..
  | resp i =>
    dsimp only at e
    split at e
    · simp at e
    rename_i x hx
    split at e <;> try (simp at e; done)
    rename_i hp
    split at e <;> simp only [Option.some.injEq, reduceCtorEq] at e
    subst e
    exact h.keep rfl rfl (by simp) (set_calls hx rfl (by simp [hp]))
  | cleanup i =>
    dsimp only at e
    split at e
    · simp at e
    rename_i x hx
    split at e <;> simp only [Option.some.injEq, reduceCtorEq] at e
    rename_i r hp
    subst e
    refine ⟨by simp [h.next], ?_, ?_⟩
    · intro j y hy
      obtain ⟨z, k1, k2, _⟩ := set_calls (y' := { x with pc := .done r }) hx rfl (by simp [hp]) j y hy
      rw [k2]; exact h.id j z k1
    · intro hlt j y hy hd
      simp only [List.length_set] at hlt
      by_cases hij : i = j
      · subst hij
        simp only at hy
        rw [List.getElem?_set_self (List.getElem?_eq_some_iff.1 hx).1] at hy
        cases hy
        exact absurd rfl (hd r)
      · simp only at hy
        rw [List.getElem?_set_ne hij] at hy
        rw [lookup_remove_ne]
        · exact h.found hlt j y hy hd
        · rw [h.id j y hy, h.id i x hx]
          intro e
          have h1 := (List.getElem?_eq_some_iff.1 hy).1
          have h2 := (List.getElem?_eq_some_iff.1 hx).1
          exact hij (ofNat_inj (by omega) (by omega) e).symm
  | close =>
    simp only [Option.some.injEq] at e
    subst e
    exact same ..

theorem reach_ids {as : List Act} {c : Cli} (h : run as {} = some c) : Ids c :=
  reach_induction (fun _ c => Ids c) ⟨rfl, by simp, by simp⟩ (fun _ _ _ _ hp e => hp.step e) h

/-- C41: as long as fewer than 2^32 calls were made on the client, all calls have different request identifiers; so a
payload that came for one call is returned by no other call. -/
theorem C41_only_one_owner_partial {as : List Act} {c : Cli} (h : run as {} = some c) (hn : c.calls.length < 2 ^ 32)
    {i j : Nat} {x y : Call} (hx : c.calls[i]? = some x) (hy : c.calls[j]? = some y) (hne : i ≠ j) : x.reqID ≠ y.reqID := by
  have hi := reach_ids h
  rw [hi.id i x hx, hi.id j y hy]
  have h1 := (List.getElem?_eq_some_iff.1 hx).1
  have h2 := (List.getElem?_eq_some_iff.1 hy).1
  exact fun e => hne (ofNat_inj (by omega) (by omega) e)

/-! ### No reply is lost -/

/-- The call is in progress. -/
def Busy (x : Call) : Prop := x.pc = .sending ∨ x.pc = .waiting

/-- A reply for call `i` is there: in the receive channel or in its own. -/
def There (i : Nat) (c : Cli) : Prop := ∀ x, c.calls[i]? = some x → Busy x →
  (∃ q ∈ c.queue, q.req = x.reqID) ∨ x.ch ≠ none

theorem there_step {i : Nat} {c c' : Cli} {a : Act} (hids : Ids c) (hn : c'.calls.length < 2 ^ 32)
    (hi : i < c.calls.length) (h : There i c) (e : step c a = some c') : There i c' ∧ i < c'.calls.length := by
  -- a call changes: it keeps its identifier, keeps a reply it has, and is in progress only if it was
  have setc : ∀ (j : Nat) (y y' : Call) (m : List (UInt32 × Nat)), c.calls[j]? = some y → y'.reqID = y.reqID →
      (Busy y' → Busy y ∧ (y.ch ≠ none → y'.ch ≠ none)) →
      There i { c with pending := m, calls := c.calls.set j y' } ∧ i < (c.calls.set j y').length := by
    intro j y y' m hj h1 h2
    refine ⟨?_, by simpa using hi⟩
    intro x hx hb
    by_cases hji : j = i
    · subst hji
      simp only at hx
      rw [List.getElem?_set_self hi] at hx
      cases hx
      rcases h y hj (h2 hb).1 with ⟨q, k1, k2⟩ | h3
      · exact .inl ⟨q, k1, by rw [h1]; exact k2⟩
      · exact .inr ((h2 hb).2 h3)
    · simp only at hx
      rw [List.getElem?_set_ne hji] at hx
      exact h x hx hb
  unfold SyncCli.step at e
  split at e
  · simp at e
  cases a with
  | call =>
    dsimp only at e
    split at e <;> simp only [Option.some.injEq] at e <;> subst e
    · exact ⟨h, hi⟩
    · refine ⟨?_, by simp; omega⟩
      intro x hx hb
      simp only at hx
      rw [List.getElem?_append_left hi] at hx
      exact h x hx hb
  | sent j =>
    dsimp only at e
    split at e
    · simp at e
    rename_i y hy
    split at e <;> simp only [Option.some.injEq, reduceCtorEq] at e
    rename_i hp
    subst e
    exact setc j y _ _ hy rfl (fun _ => ⟨.inl hp, id⟩)
  | fail j =>
    dsimp only at e
    split at e
    · simp at e
    rename_i y hy
    split at e <;> simp only [Option.some.injEq, reduceCtorEq] at e
    subst e
    exact setc j y _ _ hy rfl (by simp [Busy])
  | deliver p =>
    dsimp only at e
    split at e <;> simp only [Option.some.injEq, reduceCtorEq] at e
    subst e
    refine ⟨?_, hi⟩
    intro x hx hb
    rcases h x hx hb with ⟨q, k1, k2⟩ | h3
    · exact .inl ⟨q, by simp [k1], k2⟩
    · exact .inr h3
  | shut =>
    dsimp only at e
    split at e <;> simp only [Option.some.injEq, reduceCtorEq] at e
    subst e
    exact ⟨h, hi⟩
  | take j =>
    dsimp only at e
    split at e
    · simp at e
    rename_i y hy
    split at e <;> try (simp at e; done)
    rename_i hp
    split at e
    · split at e <;> simp only [Option.some.injEq, reduceCtorEq] at e
      subst e
      exact ⟨h, hi⟩
    · rename_i p q hq
      simp only [Option.some.injEq] at e
      subst e
      -- what happens if the payload taken was not the one call `i` waits for
      have other : ∀ x, c.calls[i]? = some x → Busy x → p.req ≠ x.reqID →
          (∃ r ∈ q, r.req = x.reqID) ∨ x.ch ≠ none := by
        intro x hx hb hne
        rcases h x hx hb with ⟨r, k1, k2⟩ | h3
        · rw [hq] at k1
          rcases List.mem_cons.1 k1 with rfl | k1
          · exact absurd k2 hne
          · exact .inl ⟨r, k1, k2⟩
        · exact .inr h3
      unfold dispatch at hn ⊢
      split
      · rename_i hr
        refine ⟨?_, by simpa using hi⟩
        intro x hx hb
        by_cases hji : j = i
        · subst hji
          simp only at hx
          rw [List.getElem?_set_self hi] at hx
          cases hx
          simp [Busy] at hb
        · simp only at hx
          rw [List.getElem?_set_ne hji] at hx
          refine other x hx hb ?_
          rw [hr, hids.id j y hy, hids.id i x hx]
          rw [if_pos hr] at hn
          simp only [List.length_set] at hn
          have h1 := (List.getElem?_eq_some_iff.1 hy).1
          intro e
          exact hji (ofNat_inj (by omega) (by omega) e)
      · rename_i hr
        rw [if_neg hr] at hn
        -- call `i` itself may be the one the payload is for
        by_cases hmine : ∃ x, c.calls[i]? = some x ∧ Busy x ∧ p.req = x.reqID
        · obtain ⟨x, hx, hb, hpr⟩ := hmine
          have hlt : c.calls.length < 2 ^ 32 := by
            dsimp only at hn
            split at hn
            · exact hn
            · split at hn
              · exact hn
              · split at hn
                · simpa using hn
                · exact hn
          have hf := hids.found hlt i x hx (by rcases hb with hb | hb <;> simp [hb])
          rw [← hpr] at hf
          dsimp only
          rw [hf]
          simp only [hx]
          cases hch : x.ch with
          | none =>
            refine ⟨?_, by simpa using hi⟩
            intro x' hx' _
            simp only at hx'
            rw [List.getElem?_set_self hi] at hx'
            cases hx'
            exact .inr (by simp)
          | some d =>
            refine ⟨?_, hi⟩
            intro x' hx' _
            simp only at hx'
            rw [hx] at hx'
            cases hx'
            exact .inr (by simp [hch])
        · have drop : There i { c with queue := q } := by
            intro x hx hb
            exact other x hx hb (fun e => hmine ⟨x, hx, hb, e⟩)
          dsimp only
          split
          · exact ⟨drop, hi⟩
          · rename_i k hk
            split
            · exact ⟨drop, hi⟩
            · rename_i z hz
              split
              · refine ⟨?_, by simpa using hi⟩
                intro x hx hb
                by_cases hki : k = i
                · subst hki
                  simp only at hx
                  rw [List.getElem?_set_self hi] at hx
                  cases hx
                  exact .inr (by simp)
                · simp only at hx
                  rw [List.getElem?_set_ne hki] at hx
                  exact drop x hx hb
              · exact ⟨drop, hi⟩
  | resp j =>
    dsimp only at e
    split at e
    · simp at e
    rename_i y hy
    split at e <;> try (simp at e; done)
    split at e <;> simp only [Option.some.injEq, reduceCtorEq] at e
    subst e
    exact setc j y _ _ hy rfl (by simp [Busy])
  | cleanup j =>
    dsimp only at e
    split at e
    · simp at e
    rename_i y hy
    split at e <;> simp only [Option.some.injEq, reduceCtorEq] at e
    subst e
    exact setc j y _ _ hy rfl (by simp [Busy])
  | close =>
    simp only [Option.some.injEq] at e
    subst e
    exact ⟨h, hi⟩

theorem calls_grow {c c' : Cli} {a : Act} (e : step c a = some c') : c.calls.length ≤ c'.calls.length := by
  unfold step at e
  split at e
  · simp at e
  cases a <;> dsimp only at e
  case take =>
    repeat' split at e
    all_goals first
      | (simp at e; done)
      | (simp only [Option.some.injEq] at e; subst e; simp; done)
      | (simp only [Option.some.injEq] at e; subst e; unfold dispatch; repeat' split) <;> simp
  all_goals
    repeat' split at e
  all_goals first
    | (simp at e; done)
    | (simp only [Option.some.injEq] at e; subst e; simp)

theorem run_grow : ∀ (as : List Act) {c c' : Cli}, run as c = some c' → c.calls.length ≤ c'.calls.length
  | [], c, c', e => by simp [run] at e; subst e; exact Nat.le_refl _
  | a :: as, c, c', e => by
    simp only [run, Option.bind_eq_some_iff] at e
    obtain ⟨d, e1, e2⟩ := e
    exact Nat.le_trans (calls_grow e1) (run_grow as e2)

/-- C41: no reply is lost, whichever call takes it from the receive channel. If a payload with the identifier of a call
in progress comes, then at any later time (with fewer than 2^32 calls made) the call has returned, or a reply waits
for it in the receive channel or in its own. -/
theorem C41_reply_not_lost_partial {as bs : List Act} {c c' : Cli} {p : Pl} (h : run as {} = some c) {i : Nat} {x y : Call}
    (hx : c.calls[i]? = some x) (hp : p.req = x.reqID) (e : run (.deliver p :: bs) c = some c')
    (hn : c'.calls.length < 2 ^ 32) (hy : c'.calls[i]? = some y) :
    (∃ r, y.pc = .returning r ∨ y.pc = .done r) ∨ (∃ q ∈ c'.queue, q.req = y.reqID) ∨ y.ch ≠ none := by
  simp only [run, Option.bind_eq_some_iff] at e
  obtain ⟨d, e1, e2⟩ := e
  have hids := (reach_ids h).step e1
  have hd : There i d ∧ i < d.calls.length := by
    unfold step at e1
    split at e1
    · simp at e1
    dsimp only at e1
    split at e1 <;> simp only [Option.some.injEq, reduceCtorEq] at e1
    subst e1
    refine ⟨?_, (List.getElem?_eq_some_iff.1 hx).1⟩
    intro z hz _
    rw [hx] at hz
    cases hz
    exact .inl ⟨p, by simp, hp⟩
  have key : ∀ (bs : List Act) (d c' : Cli), Ids d → There i d → i < d.calls.length → run bs d = some c' →
      c'.calls.length < 2 ^ 32 → There i c' := by
    intro bs
    induction bs with
    | nil => intro d c' _ h1 _ e _; simp [run] at e; exact e ▸ h1
    | cons a bs ih =>
      intro d c' hids h1 h2 e hn
      simp only [run, Option.bind_eq_some_iff] at e
      obtain ⟨f, e1, e2⟩ := e
      obtain ⟨k1, k2⟩ := there_step hids (Nat.lt_of_le_of_lt (run_grow bs e2) hn) h2 h1 e1
      exact ih f c' (hids.step e1) k1 k2 e2 hn
  have := key bs d c' hids hd.1 hd.2 e2 hn y hy
  cases hpc : y.pc with
  | sending => exact .inr (this (.inl hpc))
  | waiting => exact .inr (this (.inr hpc))
  | returning r => exact .inl ⟨r, .inl rfl⟩
  | done r => exact .inl ⟨r, .inr rfl⟩

/-- A call waits; its reply is taken by another call, which passes it on; a third payload with the same identifier is
dropped. The first reply is still there. -/
example : ∃ c c' x y, run [.call, .call, .sent 0, .sent 1] {} = some c ∧ c.calls[0]? = some x ∧ x.reqID = 0 ∧
    run (.deliver ⟨0, [10]⟩ :: [.take 1, .deliver ⟨0, [20]⟩, .take 1]) c = some c' ∧ c'.calls.length < 2 ^ 32 ∧
    c'.calls[0]? = some y ∧ y = ⟨0, some [10], .waiting⟩ ∧ c'.queue = [] :=
  ⟨_, _, _, _, rfl, rfl, rfl, rfl, by decide, rfl, by decide, by decide⟩

/-! ### Where it fails -/

theorem run_append : ∀ (as bs : List Act) (c : Cli), run (as ++ bs) c = (run as c).bind (run bs)
  | [], bs, c => rfl
  | a :: as, bs, c => by
    simp only [List.cons_append, run]
    cases step c a with
    | none => rfl
    | some d => exact run_append as bs d

/-- A call that waits, and then `n` calls whose request cannot be sent. -/
def failing : Nat → List Act
  | 0 => [.call, .sent 0]
  | n + 1 => failing n ++ [.call, .fail (n + 1), .cleanup (n + 1)]

theorem failing_run (n : Nat) : ∃ c, run (failing n) {} = some c ∧ c.calls.length = n + 1 ∧
    c.calls[0]? = some ⟨0, none, .waiting⟩ ∧ c.closed = false ∧ c.queue = [] ∧ c.recvClosed = false ∧ c.crashed = false := by
  induction n with
  | zero => exact ⟨_, rfl, rfl, rfl, rfl, rfl, rfl, rfl⟩
  | succ n ih =>
    obtain ⟨c, e, h1, h2, h3, h4, h5, h6⟩ := ih
    have s1 : step c .call = some { c with
        next := c.next + 1
        pending := SrvConn.insert c.pending c.next c.calls.length
        calls := c.calls ++ [{ reqID := c.next }] } := by simp [step, h3, h6]
    have hg : (c.calls ++ [({ reqID := c.next } : Call)])[n + 1]? = some { reqID := c.next } := by simp [← h1]
    have hs : ∀ x, ((c.calls ++ [({ reqID := c.next } : Call)]).set (n + 1) x)[n + 1]? = some x := by
      intro x; rw [List.getElem?_set_self (by simp; omega)]
    refine ⟨{ c with
        next := c.next + 1
        pending := remove (SrvConn.insert c.pending c.next c.calls.length) c.next
        calls := ((c.calls ++ [({ reqID := c.next } : Call)]).set (n + 1) ⟨c.next, none, .returning none⟩).set (n + 1)
          ⟨c.next, none, .done none⟩ }, ?_, ?_, ?_, h3, h4, h5, h6⟩
    · rw [failing, run_append, e]
      simp only [Option.bind_some, run, s1]
      simp only [step, h6, hg, hs, Bool.false_eq_true, if_false, or_false, true_or, if_true, Option.bind_some]
    · simp [h1]
    · simp only
      rw [List.getElem?_set_ne (by omega), List.getElem?_set_ne (by omega), List.getElem?_append_left (by omega)]
      exact h2

/-- C41 fails after 2^32 calls: the call that is made then has the identifier of the first one, which still waits, and the first
one returns the reply to the other. No payload came before that other call had sent its request. -/
theorem C41_ids_wrap : ∃ as c c', run as {} = some c ∧ delivered as = [] ∧
    c.calls[0]? = some ⟨0, none, .waiting⟩ ∧ c.calls[2 ^ 32]? = some ⟨0, none, .waiting⟩ ∧
    run [.deliver ⟨0, [7]⟩, .take 0] c = some c' ∧ c'.calls[0]? = some ⟨0, none, .returning (some [7])⟩ := by
  obtain ⟨c, e, h1, h2, h3, h4, h5, h6⟩ := failing_run (2 ^ 32 - 1)
  have hnext : c.next = 0 := by
    rw [(reach_ids e).next, h1]
    rfl
  have hl : c.calls.length = 2 ^ 32 := by rw [h1]
  have hdel : ∀ n, delivered (failing n) = [] := by
    intro n
    induction n with
    | zero => rfl
    | succ n ih => rw [failing, delivered_append, ih]; rfl
  have hg : (c.calls ++ [({ reqID := 0 } : Call)])[2 ^ 32]? = some { reqID := 0 } := by simp [← hl]
  have hlen : (c.calls ++ [({ reqID := 0 } : Call)]).length = 2 ^ 32 + 1 := by
    rw [List.length_append, hl]; rfl
  generalize hN : (2 ^ 32 : Nat) = N at *
  have hN0 : N ≠ 0 := by omega
  generalize hL : c.calls ++ [({ reqID := 0 } : Call)] = L at *
  have hL0 : L[0]? = some ⟨0, none, .waiting⟩ := by
    rw [← hL, List.getElem?_append_left (by omega)]; exact h2
  have s1 : step c .call = some { c with
      next := 1, pending := SrvConn.insert c.pending 0 N, calls := L } := by
    simp [step, h3, h6, hnext, hl, hL]
  have s2 : step { c with next := 1, pending := SrvConn.insert c.pending 0 N, calls := L } (.sent N) =
      some { c with
        next := 1, pending := SrvConn.insert c.pending 0 N
        calls := L.set N ⟨0, none, .waiting⟩ } := by
    simp [step, h6, hg]
  have hM0 : (L.set N ⟨0, none, .waiting⟩)[0]? = some ⟨0, none, .waiting⟩ := by
    rw [List.getElem?_set_ne hN0]; exact hL0
  have hMlen : (L.set N ⟨0, none, .waiting⟩).length = N + 1 := by rw [List.length_set, hlen]
  have hMN : (L.set N ⟨0, none, .waiting⟩)[N]? = some ⟨0, none, .waiting⟩ := List.getElem?_set_self (by omega)
  generalize L.set N ⟨0, none, .waiting⟩ = M at *
  refine ⟨failing (N - 1) ++ [.call, .sent N], { c with
        next := 1, pending := SrvConn.insert c.pending 0 N, calls := M }, { c with
        next := 1, pending := SrvConn.insert c.pending 0 N
        calls := M.set 0 ⟨0, none, .returning (some [7])⟩ }, ?_, ?_, hM0, hMN, ?_, ?_⟩
  · rw [run_append, e]
    simp only [Option.bind_some, run, s1, s2]
  · rw [delivered_append, hdel]; rfl
  · simp [run, step, h6, h5, h4, hM0, dispatch]
  · exact List.getElem?_set_self (by omega)

/-! ### C60 -/

/-- **C60** fails: a call is in progress when the read loop closes the receive channel of the session (the server closed
the session, or the read loop ended); the call takes the zero payload from it and panics. -/
theorem C60_closed_session_panics {as : List Act} {c : Cli} (h : run as {} = some c) {i : Nat} {x : Call}
    (hx : c.calls[i]? = some x) (hw : x.pc = .waiting) (hq : c.queue = []) (hc : c.crashed = false)
    (ho : c.recvClosed = false) : ∃ c', run [.shut, .take i] c = some c' ∧ c'.crashed = true := by
  refine ⟨{ c with recvClosed := true, crashed := true }, ?_, rfl⟩
  simp [run, step, hc, ho, hx, hw, hq]

example : ∃ c x, run [.call, .sent 0] {} = some c ∧ c.calls[0]? = some x ∧ x.pc = .waiting ∧ c.queue = [] ∧
    c.crashed = false ∧ c.recvClosed = false := ⟨_, _, rfl, rfl, rfl, rfl, rfl, rfl⟩

/-- C60: as long as the receive channel of the session is open, no call panics. Missing: the closed channel, see
`C60_closed_session_panics`. -/
theorem C60_no_panic_while_open_partial {as : List Act} {c : Cli} (h : run as {} = some c) (hs : Act.shut ∉ as) :
    c.crashed = false := by
  have key := reach_induction (fun as c => Act.shut ∉ as → c.recvClosed = false ∧ c.crashed = false) (fun _ => ⟨rfl, rfl⟩)
    (by
      intro as c a c' hp e hn
      rw [List.mem_append] at hn
      obtain ⟨h1, h2⟩ := hp (fun h => hn (.inl h))
      have ha : a ≠ .shut := fun h => hn (.inr (by simp [h]))
      unfold step at e
      rw [if_neg (by simp [h2])] at e
      cases a <;> dsimp only at e
      case shut => exact absurd rfl ha
      case take =>
        repeat' split at e
        all_goals try (simp at e; done)
        · rename_i h3; simp [h1] at h3
        · simp only [Option.some.injEq] at e
          subst e
          unfold dispatch
          repeat' split
          all_goals exact ⟨h1, h2⟩
      all_goals
        repeat' split at e
      all_goals first
        | (simp at e; done)
        | (simp only [Option.some.injEq] at e; subst e; exact ⟨h1, h2⟩)) h
  exact (key hs).2

example : Act.shut ∉ crossed ∧ (run crossed {}).isSome := by decide

end Claw.SyncCli
