import Verif.Model.Recycle

/-!
# C68: a message stays what it was
-/

namespace Claw.Recycle

open Claw

/-! ### Where it fails -/

/-- **C68, refuted** The server reads a packed message `a`, and then a second one `b` of the same length: whoever still holds the first one,
such as a handler that has not yet got to it, now reads `b` in it. The two messages may come from different connections. -/
theorem C68_next_message_shows_through (a b : Bytes) (hlen : b.length = a.length) :
    ∃ s, run [.take none a a.length, .unmarshal ⟨0, a⟩, .put ⟨0, a⟩, .take (some 0) b b.length, .unmarshal ⟨0, b⟩, .put ⟨0, b⟩] init = some s ∧
      s.msgs = [.view 0 a.length a, .view 0 b.length b] ∧ s.read (.view 0 a.length a) = b := by
  refine ⟨⟨[over (over (zeros (max poolCap a.length)) a) b], [0], [], [.view 0 a.length a, .view 0 b.length b], []⟩, ?_, rfl, ?_⟩
  · have h1 : ¬ (over (zeros (max poolCap a.length)) a).length < b.length := by simp [over]; omega
    simp [run, step, init, State.fresh, h1]
  · simp [State.read, State.bytes, over, ← hlen]

/-- What the first handler reads is what the second client sent. -/
example : (run [.take none [1, 2] 2, .unmarshal ⟨0, [1, 2]⟩, .put ⟨0, [1, 2]⟩, .take (some 0) [7, 8] 2] init).map
    (fun s => (s.msgs.map s.read, s.msgs.map Msg.sent)) = some ([[7, 8]], [[1, 2]]) := by decide +kernel

/-- Nothing is lost between the buffers: what is out of the pool belongs to one user, and holds what that user put there. -/
structure Inv (s : State) : Prop where
  heldLt : ∀ h ∈ s.held, h.arr < s.mem.length
  freeLt : ∀ a ∈ s.free, a < s.mem.length
  heldNodup : (s.held.map Held.arr).Nodup
  freeNodup : s.free.Nodup
  apart : ∀ h ∈ s.held, h.arr ∉ s.free
  exact : ∀ h ∈ s.held, s.bytes h.arr h.content.length = h.content
  owned : ∀ b sent, Msg.owned b sent ∈ s.msgs → b = sent
  wire : ∀ p ∈ s.wire, p.1 = p.2
  viewLt : ∀ a n sent, Msg.view a n sent ∈ s.msgs → a < s.mem.length

theorem bytes_over (content old : Bytes) : (over old content).take content.length = content := by simp [over]

theorem init_inv : Inv init := by constructor <;> simp [init]

theorem fresh_inv {s : State} (h : Inv s) (content : Bytes) (cap : Nat) : Inv (s.fresh content cap) := by
  obtain ⟨h1, h2, h3, h4, h5, h6, h7, h8, h9⟩ := h
  have hget : ∀ a, a < s.mem.length → (s.mem ++ [over (zeros cap) content]).getD a [] = s.mem.getD a [] := by
    intro a ha; simp [List.getD_eq_getElem?_getD, List.getElem?_append_left ha]
  constructor
  · intro x hx
    simp only [State.fresh, List.mem_append, List.mem_singleton, List.length_append, List.length_cons, List.length_nil] at hx ⊢
    rcases hx with hx | rfl
    · have := h1 x hx; omega
    · simp
  · intro a ha
    have := h2 a ha
    simp [State.fresh]; omega
  · simp only [State.fresh, List.map_append, List.map_cons, List.map_nil]
    rw [List.nodup_append]
    refine ⟨h3, by simp, ?_⟩
    intro a ha b hb
    simp only [List.mem_map] at ha
    obtain ⟨x, hx, rfl⟩ := ha
    simp only [List.mem_singleton] at hb
    have := h1 x hx; omega
  · exact h4
  · intro x hx hf
    simp only [State.fresh, List.mem_append, List.mem_singleton] at hx hf
    rcases hx with hx | rfl
    · exact h5 x hx hf
    · have := h2 _ hf; simp at this
  · intro x hx
    simp only [State.fresh, List.mem_append, List.mem_singleton] at hx
    simp only [State.bytes, State.fresh]
    rcases hx with hx | rfl
    · rw [hget _ (h1 x hx)]; exact h6 x hx
    · simp [List.getD_eq_getElem?_getD, bytes_over]
  · exact h7
  · exact h8
  · intro a n sent hm
    have := h9 a n sent hm
    simp [State.fresh]; omega

theorem nodup_inj {l : List Held} (h : (l.map Held.arr).Nodup) {x y : Held} (hx : x ∈ l) (hy : y ∈ l) (he : x.arr = y.arr) : x = y := by
  induction l with
  | nil => cases hx
  | cons z l ih =>
    rw [List.map_cons, List.nodup_cons] at h
    rcases List.mem_cons.mp hx with e1 | hx' <;> rcases List.mem_cons.mp hy with e2 | hy'
    · rw [e1, e2]
    · exact absurd (List.mem_map.mpr ⟨y, hy', by rw [← he, e1]⟩) h.1
    · exact absurd (List.mem_map.mpr ⟨x, hx', by rw [he, e2]⟩) h.1
    · exact ih h.2 hx' hy'

theorem step_inv {s s' : State} (h : Inv s) (act : Act) (hs : step s act = some s') : Inv s' := by
  cases act with
  | take pick content need =>
    cases pick with
    | none =>
      simp only [step] at hs
      split at hs
      · cases hs; exact fresh_inv h _ _
      · cases hs
    | some a =>
      simp only [step] at hs
      split at hs
      · rename_i hc
        obtain ⟨hfree, hneed⟩ := hc
        have hi : Inv { s with free := s.free.erase a } := by
          obtain ⟨h1, h2, h3, h4, h5, h6, h7, h8, h9⟩ := h
          exact ⟨h1, fun b hb => h2 b (List.mem_of_mem_erase hb), h3, h4.erase a, fun x hx hb => h5 x hx (List.mem_of_mem_erase hb), h6, h7, h8, h9⟩
        have hna : a ∉ s.free.erase a := by
          intro hx; exact (List.Nodup.mem_erase_iff h.freeNodup).mp hx |>.1 rfl
        split at hs
        · cases hs; exact fresh_inv hi _ _
        · cases hs
          have halt := h.freeLt a hfree
          have hah : ∀ x ∈ s.held, x.arr ≠ a := fun x hx he => h.apart x hx (he ▸ hfree)
          have hget : ∀ b, b ≠ a → (s.mem.set a (over (s.mem.getD a []) content)).getD b [] = s.mem.getD b [] := by
            intro b hb; simp [List.getD_eq_getElem?_getD, Ne.symm hb]
          obtain ⟨h1, h2, h3, h4, h5, h6, h7, h8, h9⟩ := hi
          constructor
          · intro x hx
            simp only [List.mem_append, List.mem_singleton, List.length_set] at hx ⊢
            rcases hx with hx | rfl
            · exact h1 x hx
            · exact halt
          · intro b hb; simpa using h2 b hb
          · simp only [List.map_append, List.map_cons, List.map_nil]
            rw [List.nodup_append]
            refine ⟨h3, by simp, ?_⟩
            intro b hb c hc
            simp only [List.mem_map] at hb
            obtain ⟨x, hx, rfl⟩ := hb
            simp only [List.mem_singleton] at hc
            subst hc
            exact hah x hx
          · exact h4
          · intro x hx hf
            simp only [List.mem_append, List.mem_singleton] at hx
            rcases hx with hx | rfl
            · exact h5 x hx hf
            · exact hna hf
          · intro x hx
            simp only [List.mem_append, List.mem_singleton] at hx
            simp only [State.bytes]
            rcases hx with hx | rfl
            · rw [hget _ (hah x hx)]; exact h6 x hx
            · simp [List.getD_eq_getElem?_getD, halt, bytes_over]
          · exact h7
          · exact h8
          · intro b n sent hm; simpa using h9 b n sent hm
      · cases hs
  | unmarshal x =>
    simp only [step] at hs
    split at hs
    · rename_i hx
      cases hs
      obtain ⟨h1, h2, h3, h4, h5, h6, h7, h8, h9⟩ := h
      refine ⟨h1, h2, h3, h4, h5, h6, ?_, h8, ?_⟩
      · intro b sent hm; simp at hm; exact h7 b sent hm
      · intro a n sent hm
        simp only [List.mem_append, List.mem_singleton, Msg.view.injEq] at hm
        rcases hm with hm | ⟨rfl, _, _⟩
        · exact h9 a n sent hm
        · exact h1 x hx
    · cases hs
  | copy x =>
    simp only [step] at hs
    split at hs
    · rename_i hx
      cases hs
      obtain ⟨h1, h2, h3, h4, h5, h6, h7, h8, h9⟩ := h
      refine ⟨h1, h2, h3, h4, h5, h6, ?_, h8, ?_⟩
      · intro b sent hm
        simp only [List.mem_append, List.mem_singleton, Msg.owned.injEq] at hm
        rcases hm with hm | ⟨rfl, rfl⟩
        · exact h7 b sent hm
        · exact h6 x hx
      · intro a n sent hm; simp at hm; exact h9 a n sent hm
    · cases hs
  | write x =>
    simp only [step] at hs
    split at hs
    · rename_i hx
      cases hs
      obtain ⟨h1, h2, h3, h4, h5, h6, h7, h8, h9⟩ := h
      refine ⟨h1, h2, h3, h4, h5, h6, h7, ?_, h9⟩
      intro p hp
      simp only [List.mem_append, List.mem_singleton] at hp
      rcases hp with hp | rfl
      · exact h8 p hp
      · exact h6 x hx
    · cases hs
  | put x =>
    simp only [step] at hs
    split at hs
    · rename_i hx
      cases hs
      obtain ⟨h1, h2, h3, h4, h5, h6, h7, h8, h9⟩ := h
      have hsub : ∀ y ∈ s.held.erase x, y ∈ s.held := fun y hy => List.mem_of_mem_erase hy
      have hnd : s.held.Nodup := by
        have := h3
        rw [List.Nodup, List.pairwise_map] at this
        exact this.imp (fun {a b} hab he => hab (by rw [he]))
      have hinj : ∀ y ∈ s.held, y.arr = x.arr → y = x := by
        intro y hy he
        exact nodup_inj h3 hy hx he
      refine ⟨fun y hy => h1 y (hsub y hy), ?_, ?_, ?_, ?_, fun y hy => h6 y (hsub y hy), h7, h8, h9⟩
      · intro a ha
        simp only [List.mem_cons] at ha
        rcases ha with rfl | ha
        · exact h1 x hx
        · exact h2 a ha
      · exact h3.sublist ((List.erase_sublist (a := x) (l := s.held)).map _)
      · exact List.nodup_cons.mpr ⟨h5 x hx, h4⟩
      · intro y hy hf
        simp only [List.mem_cons] at hf
        rcases hf with hf | hf
        · have := hinj y (hsub y hy) hf
          subst this
          exact (List.Nodup.mem_erase_iff hnd).mp hy |>.1 rfl
        · exact h5 y (hsub y hy) hf
    · cases hs

theorem run_inv {as : List Act} {s s' : State} (h : Inv s) (hs : run as s = some s') : Inv s' := by
  induction as generalizing s with
  | nil => cases hs; exact h
  | cons a as ih =>
    simp only [run, Option.bind_eq_some_iff] at hs
    obtain ⟨s1, e1, e2⟩ := hs
    exact ih (step_inv h a e1) e2

/-- **C68 (client, partial)** In every history of readers and senders that share the pool, in every interleaving: a message the client's
reader took in keeps what was unpacked for it, and what a sender writes to its transport is what it packed. Missing: the messages of the
server's reader, for which it is false. -/
theorem C68_copies_are_exact_partial (as : List Act) (s : State) (h : run as init = some s) :
    (∀ b sent, Msg.owned b sent ∈ s.msgs → s.read (.owned b sent) = sent) ∧ ∀ p ∈ s.wire, p.1 = p.2 :=
  have i := run_inv init_inv h
  ⟨i.owned, i.wire⟩

/-- A client reads while a server of the same process reads and packs. -/
example : (run [.take none [1, 2] 2, .take none [3] 4, .copy ⟨0, [1, 2]⟩, .put ⟨0, [1, 2]⟩, .take (some 0) [7, 8] 2, .write ⟨1, [3]⟩,
    .unmarshal ⟨0, [7, 8]⟩] init).map (fun s => (s.msgs.map s.read, s.wire)) = some ([[1, 2], [7, 8]], [([3], [3])]) := by decide +kernel

/-- **C68, refuted (always)** In every reachable state, a message of the server's reader whose buffer is back in the pool (which is the
case as soon as the reader returns) reads whatever the next user of the buffer puts there: for every other content of that length
there is such a step. -/
theorem C68_server_message_changes (as : List Act) (s : State) (h : run as init = some s) (a n : Nat) (sent : Bytes)
    (hm : Msg.view a n sent ∈ s.msgs) (hfree : a ∈ s.free) (hcap : n ≤ (s.mem.getD a []).length) (other : Bytes) (hn : other.length = n) :
    ∃ s', step s (.take (some a) other n) = some s' ∧ Msg.view a n sent ∈ s'.msgs ∧ s'.read (.view a n sent) = other := by
  have i := run_inv init_inv h
  have ha := i.freeLt a hfree
  refine ⟨{ s with free := s.free.erase a, mem := s.mem.set a (over (s.mem.getD a []) other), held := s.held ++ [⟨a, other⟩] },
    by simp only [step]; rw [if_pos ⟨hfree, by omega⟩, if_neg (by omega)], hm, ?_⟩
  simp [State.read, State.bytes, List.getD_eq_getElem?_getD, ha, ← hn, bytes_over]

example : (run [.take none [1, 2] 2, .unmarshal ⟨0, [1, 2]⟩, .put ⟨0, [1, 2]⟩] init).map
    (fun s => decide (Msg.view 0 2 [1, 2] ∈ s.msgs ∧ 0 ∈ s.free ∧ 2 ≤ (s.mem.getD 0 []).length)) = some true := by decide +kernel

theorem step_keeps {s s' : State} (act : Act) (a n : Nat) (hs : step s act = some s') (hlt : a < s.mem.length)
    (hno : ∀ c k, act ≠ .take (some a) c k) : s'.bytes a n = s.bytes a n := by
  have hfresh : ∀ (s : State) c k, a < s.mem.length → (s.fresh c k).bytes a n = s.bytes a n := by
    intro s c k h; simp [State.fresh, State.bytes, List.getD_eq_getElem?_getD, List.getElem?_append_left h]
  cases act with
  | take pick content need =>
    cases pick with
    | none =>
      simp only [step] at hs
      split at hs
      · cases hs; exact hfresh s _ _ hlt
      · cases hs
    | some b =>
      have hb : b ≠ a := fun e => hno content need (by rw [e])
      simp only [step] at hs
      split at hs
      · split at hs
        · cases hs; exact hfresh { s with free := s.free.erase b } _ _ hlt
        · cases hs
          simp [State.bytes, List.getD_eq_getElem?_getD, hb]
      · cases hs
  | unmarshal x => simp only [step] at hs; split at hs <;> cases hs; rfl
  | copy x => simp only [step] at hs; split at hs <;> cases hs; rfl
  | write x => simp only [step] at hs; split at hs <;> cases hs; rfl
  | put x => simp only [step] at hs; split at hs <;> cases hs; rfl

theorem step_grows {s s' : State} (act : Act) (hs : step s act = some s') : s.mem.length ≤ s'.mem.length := by
  cases act with
  | take pick content need =>
    cases pick with
    | none => simp only [step] at hs; split at hs <;> cases hs; simp [State.fresh]
    | some b =>
      simp only [step] at hs
      split at hs
      · split at hs <;> cases hs <;> simp [State.fresh]
      · cases hs
  | unmarshal x => simp only [step] at hs; split at hs <;> cases hs; exact Nat.le_refl _
  | copy x => simp only [step] at hs; split at hs <;> cases hs; exact Nat.le_refl _
  | write x => simp only [step] at hs; split at hs <;> cases hs; exact Nat.le_refl _
  | put x => simp only [step] at hs; split at hs <;> cases hs; exact Nat.le_refl _

/-- **C68 (server, partial)** A message of the server's reader is what was sent as long as nobody is given the buffer again: for every
history before it is read and every one after it in which the pool does not give out that buffer. Missing: the rest
(`C68_server_message_changes`). -/
theorem C68_intact_until_reuse_partial (as bs : List Act) (s s1 s2 : State) (x : Held) (h : run as init = some s)
    (hu : step s (.unmarshal x) = some s1) (hb : run bs s1 = some s2) (hno : ∀ c k, Act.take (some x.arr) c k ∉ bs) :
    s2.read (.view x.arr x.content.length x.content) = x.content := by
  have i := run_inv init_inv h
  have hx : x ∈ s.held := by
    simp only [step] at hu; split at hu
    · assumption
    · cases hu
  have e1 : s1.bytes x.arr x.content.length = x.content := by
    simp only [step, hx, if_true] at hu; cases hu; exact i.exact x hx
  have hlt : x.arr < s1.mem.length := by
    simp only [step, hx, if_true] at hu; cases hu; exact i.heldLt x hx
  clear hu hx i h
  induction bs generalizing s1 with
  | nil => cases hb; exact e1
  | cons b bs ih =>
    simp only [run, Option.bind_eq_some_iff] at hb
    obtain ⟨s', f1, f2⟩ := hb
    have hk := step_keeps b x.arr x.content.length f1 hlt (fun c k e => hno c k (by rw [e]; simp))
    exact ih s' f2 (fun c k hm => hno c k (by simp [hm])) (by rw [hk, e1]) (Nat.lt_of_lt_of_le hlt (step_grows b f1))

example : (run [.take none [1, 2] 2, .unmarshal ⟨0, [1, 2]⟩, .put ⟨0, [1, 2]⟩, .take none [7, 8] 2, .put ⟨1, [7, 8]⟩, .take (some 1) [9, 9] 2] init).map
    (fun s => s.msgs.map s.read) = some [[1, 2]] := by decide +kernel

end Claw.Recycle
