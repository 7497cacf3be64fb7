import Verif.Lemmas.ClientConn

/-!
# What a step of the client connection does to a session
-/

namespace Claw.CliConn

open Claw.SrvConn (lookup remove lookup_mem mem_remove mem_insert)

set_option linter.unusedSimpArgs false

/-- What action `a` does to session `i`. -/
inductive SEff (c : Conn) (a : Act) (c' : Conn) (i : Nat) (s : Sess) : Sess → Prop
  | keep (x : Bool) : (x = s.cancelClosed ∨ c'.closed = true ∨ a = .closeSess i) → SEff c a c' i s { s with cancelClosed := x }
  | accept {o sid : UInt32} {pk : Bool} : a = .read (.ack o sid true pk) → lookup c.pending o = some i →
      SEff c a c' i s { s with sid := sid, ready := true }
  | reject {o sid : UInt32} {pk : Bool} : a = .read (.ack o sid false pk) → lookup c.pending o = some i →
      SEff c a c' i s { s with ready := true, cancelClosed := true }
  | info {code : Nat} : a = .tick → c.pc = .closing i code →
      SEff c a c' i s { s with info := match s.info with | none => some code | some k => some k }
  | shut : a = .tick → c.pc = .closed i → SEff c a c' i s { s with recvClosed := true }
  | exit : a = .exit → (∃ e ∈ c.sessions, e.2 = i) → SEff c a c' i s { s with recvClosed := true }
  | push {p : Pl} : a = .tick → c.pc = .sending i p → s.queue.length < 16 → SEff c a c' i s { s with queue := s.queue ++ [p] }
  | recv {s' : Sess} : a = .recv i → c.openers[i]? = some .accepted → iterRecv s = some s' → SEff c a c' i s s'
  | cancel : a = .iterCancel i → c.openers[i]? = some .accepted → s.it = .reading → SEff c a c' i s { s with it := .draining }
  | itick {s' : Sess} : a = .iterTick i → c.openers[i]? = some .accepted → iterTick s = some s' → SEff c a c' i s s'

theorem SEff.same {c : Conn} {a : Act} {c' : Conn} {i : Nat} {s : Sess} : SEff c a c' i s s :=
  SEff.keep (s := s) s.cancelClosed (.inl rfl)

/-- Cancelled or not, nothing else. -/
def Cancels (l l' : List Sess) : Prop :=
  l'.length = l.length ∧ ∀ (i : Nat) s, l[i]? = some s → ∃ x, l'[i]? = some { s with cancelClosed := x }

theorem Cancels.refl (l : List Sess) : Cancels l l := ⟨rfl, fun _ s h => ⟨s.cancelClosed, h⟩⟩

theorem Cancels.trans {a b c : List Sess} (h1 : Cancels a b) (h2 : Cancels b c) : Cancels a c := by
  refine ⟨h2.1.trans h1.1, ?_⟩
  intro i s hs
  obtain ⟨x, k1⟩ := h1.2 i s hs
  obtain ⟨y, k2⟩ := h2.2 i _ k1
  exact ⟨y, k2⟩

theorem closeCancel_cancels (c : Conn) (i : Nat) : ∃ heap, closeCancel c i = { c with heap := heap } ∧ Cancels c.heap heap ∧
    ∀ (j : Nat), j ≠ i → heap[j]? = c.heap[j]? := by
  unfold closeCancel
  split
  · exact ⟨c.heap, rfl, Cancels.refl _, fun _ _ => rfl⟩
  · rename_i s hs
    refine ⟨_, rfl, ⟨by simp, ?_⟩, fun j hj => List.getElem?_set_ne (Ne.symm hj)⟩
    intro j t ht
    by_cases hj : i = j
    · subst hj
      rw [hs] at ht
      cases ht
      exact ⟨true, List.getElem?_set_self (List.getElem?_eq_some_iff.1 hs).1⟩
    · exact ⟨t.cancelClosed, (List.getElem?_set_ne hj).trans ht⟩

theorem closeAll_cancels : ∀ (l : List (UInt32 × Nat)) (c : Conn), ∃ heap,
    l.foldl (fun c e => closeCancel c e.2) c = { c with heap := heap } ∧ Cancels c.heap heap
  | [], c => ⟨c.heap, rfl, Cancels.refl _⟩
  | e :: l, c => by
    obtain ⟨h1, e1, k1, _⟩ := closeCancel_cancels c e.2
    obtain ⟨h2, e2, k2⟩ := closeAll_cancels l { c with heap := h1 }
    exact ⟨h2, by rw [List.foldl_cons, e1, e2], k1.trans k2⟩

theorem closeConn_cancels (c : Conn) : ∃ heap, closeConn c = { c with closed := true, heap := heap } ∧ Cancels c.heap heap := by
  unfold closeConn
  split
  · rename_i h
    exact ⟨c.heap, by cases c; simp_all, Cancels.refl _⟩
  · obtain ⟨heap, e, k⟩ := closeAll_cancels (c.sessions ++ c.pending) { c with closed := true }
    exact ⟨heap, e, k⟩

/-- One session object changes. -/
theorem set_eff {c : Conn} {a : Act} {c' : Conn} {j : Nat} {t t' : Sess} (hj : c.heap[j]? = some t)
    (hc : c'.heap = c.heap.set j t') (h : SEff c a c' j t t') {i : Nat} {s : Sess} (hs : c.heap[i]? = some s) :
    ∃ s', c'.heap[i]? = some s' ∧ SEff c a c' i s s' := by
  rw [hc]
  by_cases hi : j = i
  · subst hi
    rw [hj] at hs
    cases hs
    exact ⟨t', List.getElem?_set_self (List.getElem?_eq_some_iff.1 hj).1, h⟩
  · exact ⟨s, (List.getElem?_set_ne hi).trans hs, .same⟩

theorem same_eff {c : Conn} {a : Act} {c' : Conn} (hc : c'.heap = c.heap) {i : Nat} {s : Sess} (hs : c.heap[i]? = some s) :
    ∃ s', c'.heap[i]? = some s' ∧ SEff c a c' i s s' := ⟨s, by rw [hc]; exact hs, .same⟩

theorem closed_eff {c d : Conn} {a : Act} (hd : d.heap = c.heap) {i : Nat} {s : Sess} (hs : c.heap[i]? = some s) :
    ∃ s', (closeConn d).heap[i]? = some s' ∧ SEff c a (closeConn d) i s s' := by
  obtain ⟨heap, e, k⟩ := closeConn_cancels d
  obtain ⟨x, k1⟩ := k.2 i s (by rw [hd]; exact hs)
  exact ⟨_, by rw [e]; exact k1, .keep x (.inr (.inl (by rw [e])))⟩

theorem checkDrained_heap (c : Conn) : (checkDrained c).heap = c.heap := by
  rcases checkDrained_frame c with e | ⟨e, _⟩ <;> rw [e]

theorem sess_step {c c' : Conn} {a : Act} (hinv : Inv c) (e : step c a = some c') {i : Nat} {s : Sess}
    (hs : c.heap[i]? = some s) : ∃ s', c'.heap[i]? = some s' ∧ SEff c a c' i s s' := by
  have hsend : ∀ (c : Conn) m, (send c m).heap = c.heap := by
    intro c m; obtain ⟨o, eo⟩ := send_frame c m; rw [eo]
  unfold step at e
  rw [if_neg (by simp [hinv.nocrash])] at e
  cases a with
  | read f =>
    dsimp only at e
    split at e <;> simp only [Option.some.injEq, reduceCtorEq] at e
    subst e
    cases f with
    | ack o sid ok pk =>
      show ∃ s', (handleAck c o sid ok pk).heap[i]? = some s' ∧ SEff c _ (handleAck c o sid ok pk) i s s'
      unfold handleAck
      split
      · exact same_eff (by rfl) hs
      rename_i j hl
      dsimp only
      split
      · exact same_eff (by rfl) hs
      rename_i t ht
      split
      · exact same_eff (by rfl) hs
      split
      · rename_i hok
        subst hok
        exact set_eff ht (by simp [checkDrained_heap]) (.reject rfl hl) hs
      · rename_i hok
        have hok : ok = true := by simpa using hok
        subst hok
        exact set_eff ht (by rfl) (.accept rfl hl) hs
    | close sid code =>
      unfold read
      dsimp only
      split
      · exact same_eff (by rfl) hs
      · exact same_eff (by exact checkDrained_heap _) hs
    | payload sid p d =>
      unfold read
      dsimp only
      repeat' split
      all_goals exact same_eff (by rfl) hs
    | goAway => exact closed_eff (by rfl) hs
    | other => exact same_eff (by rfl) hs
  | tick =>
    dsimp only [tick] at e
    split at e
    · simp at e
    · simp at e
    · rename_i j code hp
      split at e <;> simp only [Option.some.injEq, reduceCtorEq] at e
      rename_i t ht
      subst e
      exact set_eff ht (by rfl) (.info rfl hp) hs
    · rename_i j hp
      simp only [Option.some.injEq] at e
      subst e
      have hpk := hinv.pcok
      unfold PcOk at hpk
      rw [hp] at hpk
      obtain ⟨t, h1, h2, _⟩ := hpk
      have he : closeRecv c j = { c with heap := c.heap.set j { t with recvClosed := true } } := by
        unfold closeRecv
        rw [h1]
        dsimp only
        rw [if_neg (by simp [h2])]
      rw [he]
      exact set_eff h1 (by rfl) (.shut rfl hp) hs
    · rename_i j p hp
      split at e
      · simp at e
      rename_i t ht
      split at e
      · simp only [Option.some.injEq] at e
        subst e
        exact same_eff (by rfl) hs
      split at e <;> simp only [Option.some.injEq, reduceCtorEq] at e
      rename_i hlen
      subst e
      exact set_eff ht (by rfl) (.push rfl hp hlen) hs
  | exit =>
    dsimp only at e
    split at e <;> simp only [Option.some.injEq, reduceCtorEq] at e
    rename_i hp
    subst e
    obtain ⟨heap, e, k0, k1, k2⟩ := exit_all c.sessions { c with pc := .exited } hinv.nodupS (fun e he => by
      obtain ⟨s, h1, _, _, h4⟩ := hinv.sess e he
      exact ⟨s, h1, h4 (by simp [hp])⟩)
    unfold exit
    rw [e]
    by_cases hin : ∃ x ∈ c.sessions, x.2 = i
    · obtain ⟨x, hx, rfl⟩ := hin
      obtain ⟨t, g1, g2⟩ := k2 x hx
      dsimp only at g1
      rw [hs] at g1
      cases g1
      exact ⟨_, g2, .exit rfl ⟨x, hx, rfl⟩⟩
    · exact ⟨s, k1 i s hs (fun x hx heq => hin ⟨x, hx, heq⟩), .same⟩
  | close =>
    simp only [Option.some.injEq] at e
    subst e
    exact closed_eff (by rfl) hs
  | «open» =>
    dsimp only at e
    split at e
    · simp only [Option.some.injEq] at e; subst e; exact same_eff (by rfl) hs
    split at e
    · simp only [Option.some.injEq] at e; subst e; exact same_eff (by rfl) hs
    simp only [Option.some.injEq] at e
    subst e
    exact ⟨s, by rw [List.getElem?_append_left (List.getElem?_eq_some_iff.1 hs).1]; exact hs, .same⟩
  | recv j =>
    obtain ⟨t, t', h1, h2, h3, rfl⟩ := onSess_cases e
    exact set_eff h1 (by rfl) (.recv rfl h2 h3) hs
  | iterCancel j =>
    obtain ⟨t, t', h1, h2, h3, rfl⟩ := onSess_cases e
    split at h3 <;> simp only [Option.some.injEq, reduceCtorEq] at h3
    rename_i hr
    subst h3
    exact set_eff h1 (by rfl) (.cancel rfl h2 hr) hs
  | iterTick j =>
    obtain ⟨t, t', h1, h2, h3, rfl⟩ := onSess_cases e
    exact set_eff h1 (by rfl) (.itick rfl h2 h3) hs
  | closeSess j =>
    dsimp only at e
    split at e <;> simp only [Option.some.injEq, reduceCtorEq] at e
    subst e
    obtain ⟨heap, e1, k, k2⟩ := closeCancel_cancels c j
    obtain ⟨x, k1⟩ := k.2 i s hs
    by_cases hij : i = j
    · subst hij
      exact ⟨_, by rw [hsend, e1]; exact k1, .keep x (.inr (.inr rfl))⟩
    · exact ⟨s, by rw [hsend, e1]; exact (k2 i hij).trans hs, .same⟩
  | drain k =>
    dsimp only at e
    repeat' split at e
    all_goals try (simp at e; done)
    all_goals
      simp only [Option.some.injEq] at e
      subst e
    · exact same_eff (by rfl) hs
    · exact closed_eff (by rfl) hs
  | timeout k =>
    dsimp only at e
    repeat' split at e
    all_goals try (simp at e; done)
    simp only [Option.some.injEq] at e
    subst e
    exact closed_eff (by rfl) hs
  | graceful =>
    dsimp only at e
    repeat' split at e
    all_goals
      simp only [Option.some.injEq] at e
      subst e
      exact same_eff (by rfl) hs
  | _ =>
    dsimp only at e
    repeat' split at e
    all_goals try (simp at e; done)
    all_goals
      simp only [Option.some.injEq] at e
      subst e
    all_goals first
      | exact same_eff (by rfl) hs
      | exact same_eff (by exact hsend _ _) hs

/-- The objects after a step are those before it, and perhaps a new one. -/
theorem heap_grow {c c' : Conn} {a : Act} (hinv : Inv c) (e : step c a = some c') :
    c'.heap.length = c.heap.length ∨ (a = .open ∧ c.closed = false ∧ c'.heap = c.heap ++ [{ openID := c.nextOpen }] ∧
      c'.openers = c.openers ++ [.registered] ∧ c'.pc = c.pc ∧ c'.sessions = c.sessions ∧ c'.closed = c.closed) := by
  have hsend : ∀ (c : Conn) m, (send c m).heap = c.heap := by
    intro c m; obtain ⟨o, eo⟩ := send_frame c m; rw [eo]
  have hcl : ∀ c : Conn, (closeConn c).heap.length = c.heap.length := by
    intro c; obtain ⟨heap, e, k⟩ := closeConn_like c; rw [e]; exact k.1
  unfold step at e
  rw [if_neg (by simp [hinv.nocrash])] at e
  cases a with
  | read f =>
    dsimp only at e
    split at e <;> simp only [Option.some.injEq, reduceCtorEq] at e
    subst e
    left
    cases f with
    | ack o sid ok pk =>
      unfold read handleAck
      dsimp only
      repeat' split
      all_goals first | rfl | simp [checkDrained_heap]
    | close sid code =>
      unfold read
      dsimp only
      split
      · rfl
      · exact congrArg _ (checkDrained_heap _)
    | payload sid p d =>
      unfold read
      dsimp only
      repeat' split
      all_goals rfl
    | goAway => exact hcl c
    | other => rfl
  | tick =>
    left
    have hp := hinv.tick e
    dsimp only [tick] at e
    split at e
    · simp at e
    · simp at e
    · split at e <;> simp only [Option.some.injEq, reduceCtorEq] at e
      subst e; simp
    · simp only [Option.some.injEq] at e
      subst e
      unfold closeRecv
      repeat' split
      all_goals simp
    · repeat' split at e
      all_goals try (simp at e; done)
      all_goals
        simp only [Option.some.injEq] at e
        subst e
        simp
  | exit =>
    dsimp only at e
    split at e <;> simp only [Option.some.injEq, reduceCtorEq] at e
    rename_i hp
    subst e
    left
    obtain ⟨heap, e, k0, k1, k2⟩ := exit_all c.sessions { c with pc := .exited } hinv.nodupS (fun e he => by
      obtain ⟨s, h1, _, _, h4⟩ := hinv.sess e he
      exact ⟨s, h1, h4 (by simp [hp])⟩)
    unfold exit
    rw [e]
    exact k0
  | close =>
    simp only [Option.some.injEq] at e
    subst e
    exact .inl (hcl c)
  | «open» =>
    dsimp only at e
    split at e
    · simp only [Option.some.injEq] at e; subst e; exact .inl rfl
    rename_i hc
    split at e
    · simp only [Option.some.injEq] at e; subst e; exact .inl rfl
    simp only [Option.some.injEq] at e
    subst e
    exact .inr ⟨rfl, by simpa using hc, rfl, rfl, rfl, rfl, rfl⟩
  | recv j => obtain ⟨t, t', h1, h2, h3, rfl⟩ := onSess_cases e; exact .inl (by simp)
  | iterCancel j => obtain ⟨t, t', h1, h2, h3, rfl⟩ := onSess_cases e; exact .inl (by simp)
  | iterTick j => obtain ⟨t, t', h1, h2, h3, rfl⟩ := onSess_cases e; exact .inl (by simp)
  | closeSess j =>
    dsimp only at e
    split at e <;> simp only [Option.some.injEq, reduceCtorEq] at e
    subst e
    obtain ⟨heap, e1, k, k2⟩ := closeCancel_cancels c j
    rw [hsend, e1]
    exact .inl k.1
  | drain k =>
    dsimp only at e
    repeat' split at e
    all_goals try (simp at e; done)
    all_goals
      simp only [Option.some.injEq] at e
      subst e
    · exact .inl rfl
    · exact .inl (hcl _)
  | timeout k =>
    dsimp only at e
    repeat' split at e
    all_goals try (simp at e; done)
    simp only [Option.some.injEq] at e
    subst e
    exact .inl (hcl _)
  | graceful =>
    dsimp only at e
    repeat' split at e
    all_goals
      simp only [Option.some.injEq] at e
      subst e
      exact .inl rfl
  | _ =>
    dsimp only at e
    repeat' split at e
    all_goals try (simp at e; done)
    all_goals
      simp only [Option.some.injEq] at e
      subst e
    all_goals first
      | exact .inl rfl
      | exact .inl (congrArg _ (hsend _ _))

/-- A session after a step: an old one, changed, or a new one. -/
theorem sess_back {c c' : Conn} {a : Act} (hinv : Inv c) (e : step c a = some c') {i : Nat} {s' : Sess}
    (hs : c'.heap[i]? = some s') : (∃ s, c.heap[i]? = some s ∧ SEff c a c' i s s') ∨
      (i = c.heap.length ∧ s' = { openID := c.nextOpen } ∧ c.closed = false ∧ c'.openers[i]? = some .registered) := by
  by_cases hi : i < c.heap.length
  · obtain ⟨s'', k1, k2⟩ := sess_step hinv e (List.getElem?_eq_getElem hi)
    rw [hs] at k1
    cases k1
    exact .inl ⟨_, List.getElem?_eq_getElem hi, k2⟩
  · have hlt := (List.getElem?_eq_some_iff.1 hs).1
    rcases heap_grow hinv e with h | ⟨_, hcl, h, ho, _⟩
    · omega
    · rw [h] at hs hlt
      have : i = c.heap.length := by simp at hlt; omega
      subst this
      simp at hs
      exact .inr ⟨rfl, hs.symm, hcl, by rw [ho, ← hinv.len]; simp⟩

end Claw.CliConn
