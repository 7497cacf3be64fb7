import Verif.Model.Listener

/-!
# C107, C108: listeners

C107: what becomes of a connection that has come in.  C108: the socket file of a unix listener.
-/

namespace Claw.Listener

open Claw.Transport (upd)

attribute [local grind] upd

/-- Connection `c` waits in the kernel, is closed, has been returned by a call of `Accept`, or is
about to be. -/
def Placed (s : St) (c : Nat) : Prop :=
  c ∈ s.backlog ∨ c ∈ s.shut ∨ (∃ i, s.caller i = some (.got c)) ∨
  ∃ i, s.caller i = some .waiting ∧ s.chan i = some (some c)

structure Inv (s : St) : Prop where
  got : ∀ i c, s.caller i = some (.got c) → s.chan i = some (some c)
  lt : ∀ i c, s.chan i = some (some c) → c < s.next ∧ c ∉ s.backlog
  one : ∀ i j c, s.chan i = some (some c) → s.chan j = some (some c) → i = j
  queue : ∀ c, c ∈ s.backlog → c < s.next ∧ c ∉ s.shut
  nodup : s.backlog.Nodup
  served : ∀ c, c ∈ s.served → ∃ i, s.caller i = some (.got c)
  shut : ∀ c, c ∈ s.shut → c < s.next ∧ (c ∈ s.served ∨ ∀ i, s.chan i ≠ some (some c))
  closed : s.closed = true → s.backlog = []
  begun : ∀ i, s.begun ≤ i → s.caller i = none ∧ s.chan i = none
  live : ∀ i, i < s.begun → s.caller i ≠ none

theorem inv_init : Inv St.init := by
  constructor <;> simp [St.init]

local macro "keep " h:ident : tactic =>
  `(tactic| first | grind | (intro c hc; obtain ⟨w, hw⟩ := $h c hc; exact ⟨w, by grind⟩))

theorem inv_step {b : Bool} {s s' : St} (h : Inv s) (st : Step b s s') : Inv s' := by
  obtain ⟨h1, h2, h3, h4, h5, h6, h7, h8, h9, h10⟩ := h
  cases st with
  | arrive hcl => constructor <;> dsimp only <;> keep h6
  | start => unfold St.start; split <;> constructor <;> dsimp only <;> keep h6
  | accept ha hn hb => constructor <;> dsimp only <;> keep h6
  | acceptFail ha hn hc => constructor <;> dsimp only <;> keep h6
  | take hw hr =>
    rename_i r i
    cases r <;> simp only [result] <;> constructor <;> dsimp only <;> keep h6
  | cancel hcn hw => constructor <;> dsimp only <;> keep h6
  | submit hg hn => constructor <;> dsimp only <;> keep h6
  | finish hs => constructor <;> dsimp only <;> keep h6
  | close => constructor <;> dsimp only [St.close] <;> keep h6
  | srvClose => constructor <;> dsimp only [St.close, St.srvClose] <;> keep h6

theorem inv_steps {b : Bool} {s s' : St} (h : Inv s) (st : Steps b s s') : Inv s' := by
  induction st with
  | refl => exact h
  | tail _ st ih => exact inv_step ih st

theorem Steps.trans {b : Bool} {x y z : St} (h : Steps b x y) (g : Steps b y z) : Steps b x z := by
  induction g with
  | refl => exact h
  | tail _ st ih => exact .tail ih st

/-! ## C107 -/

/-- `Accept` returns only connections that have come in, and never the same one twice, with or
without cancelled contexts. -/
theorem C107_once {s : St} (h : Steps true St.init s) :
    (∀ i c, s.caller i = some (.got c) → c < s.next) ∧
    ∀ i j c, s.caller i = some (.got c) → s.caller j = some (.got c) → i = j := by
  have i := inv_steps inv_init h
  exact ⟨fun k c hk => (i.lt k c (i.got k c hk)).1,
    fun k l c hk hl => i.one k l c (i.got k c hk) (i.got l c hl)⟩

/-- Every connection has its place, and a call that failed holds none. -/
def Kept (s : St) : Prop :=
  (∀ c, c < s.next → Placed s c) ∧ ∀ i, s.caller i = some .failed → s.chan i = some none

theorem placed_grow {s s' : St} {c : Nat} (hp : Placed s c)
    (hb : ∀ x, x ∈ s.backlog → x ∈ s'.backlog ∨ x ∈ s'.shut ∨
      ∃ i, s'.caller i = some .waiting ∧ s'.chan i = some (some x))
    (hs : ∀ x, x ∈ s.shut → x ∈ s'.shut)
    (hg : ∀ i x, s.caller i = some (.got x) → s'.caller i = some (.got x))
    (hw : ∀ i x, s.caller i = some .waiting → s.chan i = some (some x) →
      s'.caller i = some (.got x) ∨ (s'.caller i = some .waiting ∧ s'.chan i = some (some x))) :
    Placed s' c := by
  rcases hp with h | h | ⟨i, h⟩ | ⟨i, h, h'⟩
  · rcases hb c h with h | h | h
    · exact .inl h
    · exact .inr (.inl h)
    · exact .inr (.inr (.inr h))
  · exact .inr (.inl (hs c h))
  · exact .inr (.inr (.inl ⟨i, hg i c h⟩))
  · rcases hw i c h h' with h | h
    · exact .inr (.inr (.inl ⟨i, h⟩))
    · exact .inr (.inr (.inr ⟨i, h⟩))

theorem kept_step {s s' : St} (inv : Inv s) (h : Kept s) (st : Step false s s') : Kept s' := by
  obtain ⟨h1, h2, h3, h4, h5, h6, h7, h8, h9, h10⟩ := inv
  obtain ⟨k1, k2⟩ := h
  cases st with
  | arrive hcl =>
    refine ⟨?_, k2⟩
    intro c hc
    dsimp only at hc
    by_cases hx : c < s.next
    · exact placed_grow (k1 c hx) (fun x hx => .inl (by simp [hx])) (fun _ => id)
        (fun _ _ => id) (fun _ _ a b => .inr ⟨a, b⟩)
    · left
      have : c = s.next := by omega
      simp [this]
  | start =>
    unfold St.start
    split
    · refine ⟨fun c hc => placed_grow (k1 c hc) (fun _ => .inl) (fun _ => id) ?_ ?_, ?_⟩ <;>
        dsimp only <;> grind
    · refine ⟨fun c hc => placed_grow (k1 c hc) (fun _ => .inl) (fun _ => id) ?_ ?_, ?_⟩ <;>
        dsimp only <;> grind
  | accept ha hn hb =>
    rename_i c rest i
    have hw : s.caller i = some .waiting := by
      cases hc : s.caller i with
      | none => exact absurd hc (h10 i ha)
      | some x => cases x <;> grind
    refine ⟨fun c hc => placed_grow (k1 c hc) ?_ (fun _ => id) (fun _ _ => id) ?_, ?_⟩
    · intro x hx
      rw [hb] at hx
      simp only [List.mem_cons] at hx
      rcases hx with rfl | hx
      · exact .inr (.inr ⟨i, hw, by dsimp only; grind⟩)
      · exact .inl hx
    · dsimp only; grind
    · dsimp only; grind
  | acceptFail ha hn hc =>
    refine ⟨fun c hc => placed_grow (k1 c hc) (fun _ => .inl) (fun _ => id) (fun _ _ => id) ?_, ?_⟩ <;>
      dsimp only <;> grind
  | take hw hr =>
    rename_i r i
    cases r <;> simp only [result] <;>
      refine ⟨fun c hc => placed_grow (k1 c hc) (fun _ => .inl) (fun _ => id) ?_ ?_, ?_⟩ <;>
      dsimp only <;> grind
  | cancel hcn hw => simp at hcn
  | submit hg hn =>
    exact ⟨fun c hc => placed_grow (k1 c hc) (fun _ => .inl) (fun _ => id) (fun _ _ => id)
      (fun _ _ a b => .inr ⟨a, b⟩), k2⟩
  | finish hs =>
    exact ⟨fun c hc => placed_grow (k1 c hc) (fun _ => .inl) (fun x hx => by simp [hx])
      (fun _ _ => id) (fun _ _ a b => .inr ⟨a, b⟩), k2⟩
  | close =>
    exact ⟨fun c hc => placed_grow (k1 c hc) (fun x hx => .inr (.inl (by simp [St.close, hx])))
      (fun x hx => by simp [St.close, hx]) (fun _ _ => id) (fun _ _ a b => .inr ⟨a, b⟩), k2⟩
  | srvClose =>
    exact ⟨fun c hc => placed_grow (k1 c hc)
      (fun x hx => .inr (.inl (by simp [St.srvClose, St.close, hx])))
      (fun x hx => by simp [St.srvClose, St.close, hx]) (fun _ _ => id)
      (fun _ _ a b => .inr ⟨a, b⟩), k2⟩

/-- As long as no context is cancelled, every connection that has come in waits in the kernel,
is returned by a call of `Accept` (or is about to be), or is closed. -/
theorem C107_kept_partial {s : St} (h : Steps false St.init s) (c : Nat) (hc : c < s.next) :
    Placed s c := by
  have key : Inv s ∧ Kept s := by
    clear hc
    induction h with
    | refl => exact ⟨inv_init, by simp [St.init], by simp [St.init]⟩
    | tail _ st ih =>
      obtain ⟨i, k⟩ := ih
      exact ⟨inv_step i st, kept_step i k st⟩
  exact key.2.1 c hc

/-- Connection `c` is in the channel of a call that has returned an error. -/
def Stranded (c : Nat) (s : St) : Prop :=
  ∃ i, s.caller i = some .failed ∧ s.chan i = some (some c) ∧ c ∉ s.shut

theorem stranded_step {b : Bool} {s s' : St} {c : Nat} (i : Inv s) (h : Stranded c s)
    (st : Step b s s') : Stranded c s' := by
  obtain ⟨k, a1, a2, a3⟩ := h
  obtain ⟨h1, h2, h3, h4, h5, h6, h7, h8, h9, h10⟩ := i
  have hk : k < s.begun := by grind
  have hb := (h2 k c a2).2
  have hsv : c ∉ s.served := by
    intro hx
    obtain ⟨j, hj⟩ := h6 c hx
    have := h3 j k c (h1 j c hj) a2
    grind
  refine ⟨k, ?_⟩
  cases st with
  | start => unfold St.start; split <;> dsimp only <;> grind
  | close => simp only [St.close]; grind
  | srvClose => simp only [St.close, St.srvClose]; grind
  | _ => dsimp only; grind

theorem stranded_steps {b : Bool} {s s' : St} {c : Nat} (i : Inv s) (h : Stranded c s)
    (st : Steps b s s') : Inv s' ∧ Stranded c s' := by
  induction st with
  | refl => exact ⟨i, h⟩
  | tail _ st ih => exact ⟨inv_step ih.1 st, stranded_step ih.1 ih.2 st⟩

/-- Disagreement with C107: the context of an `Accept` is cancelled, then a client connects.  Its
connection is never returned by any `Accept` and never closed, whatever happens, closing the
listener included; the next `Accept` returns the next client. -/
theorem C107_lost :
    ∃ s, Steps true St.init s ∧ s.caller 0 = some .failed ∧ s.caller 1 = some (.got 1) ∧
      ∀ s', Steps true s s' → 0 < s'.next ∧ ¬ Placed s' 0 := by
  have key : ∃ s, Steps true St.init s ∧ s.caller 0 = some .failed ∧ s.caller 1 = some (.got 1) ∧
      Stranded 0 s := by
    refine ⟨_, .tail (.tail (.tail (.tail (.tail (.tail (.tail (.tail (.refl _)
      .start) (.cancel (i := 0) rfl rfl)) (.arrive rfl))
      (.accept (i := 0) (c := 0) (rest := []) (by decide) rfl rfl))
      .start) (.arrive rfl))
      (.accept (i := 1) (c := 1) (rest := []) (by decide) rfl rfl))
      (.take (i := 1) (r := some 1) rfl rfl), rfl, rfl, 0, rfl, rfl, ?_⟩
    simp [St.start, St.init]
  obtain ⟨s, h1, h2, h3, h4⟩ := key
  refine ⟨s, h1, h2, h3, ?_⟩
  intro s' hs
  obtain ⟨i, k, a1, a2, a3⟩ := stranded_steps (inv_steps inv_init h1) h4 hs
  refine ⟨(i.lt k 0 a2).1, ?_⟩
  intro hp
  rcases hp with h | h | ⟨j, h⟩ | ⟨j, h, h'⟩
  · exact (i.lt k 0 a2).2 h
  · exact a3 h
  · have := i.one j k 0 (i.got j 0 h) a2
    subst this; simp [a1] at h
  · have := i.one j k 0 h' a2
    subst this; simp [a1] at h

/-! ### Order -/

/-- Steps through states in which at most one call of `Accept` waits, no context cancelled: a
loop that accepts. -/
inductive Loop : St → St → Prop
  | refl (s) : Loop s s
  | tail {a b c} : Loop a b → Step false b c →
      (∀ i j, c.caller i = some .waiting → c.caller j = some .waiting → i = j) → Loop a c

theorem Loop.steps {s s' : St} (h : Loop s s') : Steps false s s' := by
  induction h with
  | refl => exact .refl _
  | tail _ st _ ih => exact .tail ih st

/-- What call `i` returned. -/
def returned (s : St) (i : Nat) : List Nat :=
  match s.caller i with
  | some (.got c) => [c]
  | _ => []

/-- What call `i` has been given. -/
def given (s : St) (i : Nat) : List Nat :=
  match s.chan i with
  | some (some c) => [c]
  | _ => []

/-- A list built from the calls in their order. -/
def along (n : Nat) (f : Nat → List Nat) : List Nat := (List.range n).flatMap f

theorem along_succ (n : Nat) (f : Nat → List Nat) : along (n + 1) f = along n f ++ f n := by
  simp [along, List.range_succ]

theorem along_congr {n : Nat} {f g : Nat → List Nat} (h : ∀ i, i < n → f i = g i) :
    along n f = along n g := by
  induction n with
  | zero => rfl
  | succ n ih =>
    rw [along_succ, along_succ, ih (fun i hi => h i (by omega)), h n (by omega)]

/-- Filling in the last non-empty place appends. -/
theorem along_put {n : Nat} {f g : Nat → List Nat} {i c : Nat} (hi : i < n) (hf : f i = [])
    (hg : g i = [c]) (ho : ∀ j, j ≠ i → g j = f j) (hl : ∀ j, i < j → f j = []) :
    along n g = along n f ++ [c] := by
  induction n with
  | zero => omega
  | succ n ih =>
    rw [along_succ, along_succ]
    by_cases h : i = n
    · subst h
      rw [hf, hg, along_congr (fun j hj => ho j (by omega))]; simp
    · have hn := hl n (by omega)
      rw [ih (by omega), ho n (Ne.symm h), hn]; simp

structure Seq (s : St) : Prop where
  all : s.closed = false → along s.begun (given s) ++ s.backlog = List.range s.next
  pre : along s.begun (given s) ++ s.backlog <+: List.range s.next
  last : ∀ i j, s.caller i = some .waiting → i < j → j < s.begun → s.caller j = some .failed

theorem seq_step {s s' : St} (inv : Inv s) (k : Kept s) (h : Seq s)
    (one : ∀ i j, s'.caller i = some .waiting → s'.caller j = some .waiting → i = j)
    (st : Step false s s') : Seq s' := by
  obtain ⟨h1, h2, h3, h4, h5, h6, h7, h8, h9, h10⟩ := inv
  obtain ⟨-, k2⟩ := k
  obtain ⟨a1, a2, a3⟩ := h
  cases st with
  | arrive hcl =>
    have := a1 hcl
    refine ⟨fun _ => ?_, ?_, a3⟩
    · show along s.begun (given s) ++ (s.backlog ++ [s.next]) = _
      rw [List.range_succ, ← this, List.append_assoc]
    · show along s.begun (given s) ++ (s.backlog ++ [s.next]) <+: _
      rw [List.range_succ, ← this, List.append_assoc]
      exact List.prefix_refl _
  | start =>
    have e : along s.start.begun (given s.start) = along s.begun (given s) := by
      unfold St.start
      split
      · show along (s.begun + 1) _ = _
        rw [along_succ]
        have : along s.begun (given { s with begun := s.begun + 1, caller := upd s.caller s.begun (some .failed), chan := upd s.chan s.begun (some none) }) = along s.begun (given s) :=
          along_congr (fun i hi => by simp only [given]; rw [show upd s.chan s.begun (some none) i = s.chan i by grind])
        rw [this]
        simp [given, upd]
      · show along (s.begun + 1) _ = _
        rw [along_succ]
        have : given { s with begun := s.begun + 1, caller := upd s.caller s.begun (some .waiting) } s.begun = [] := by
          simp [given, (h9 s.begun (Nat.le_refl _)).2]
        rw [this]
        simp only [List.append_nil]
        rfl
    have e2 : s.start.backlog = s.backlog ∧ s.start.next = s.next ∧ s.start.closed = s.closed := by
      unfold St.start; split <;> simp
    obtain ⟨e2, e3, e4⟩ := e2
    refine ⟨by rw [e, e2, e3, e4]; exact a1, by rw [e, e2, e3]; exact a2, ?_⟩
    intro i j hi hij hj
    unfold St.start at *
    split at hi
    · next hc => simp only [hc, if_true] at *; grind
    · next hc =>
      simp only [hc, Bool.false_eq_true, if_false] at *
      have := one i s.begun hi (by grind)
      grind
  | accept ha hn hb =>
    rename_i c rest i
    have hw : s.caller i = some .waiting := by
      cases hc : s.caller i with
      | none => exact absurd hc (h10 i ha)
      | some x => cases x <;> grind
    have e : along s.begun (given { s with backlog := rest, chan := upd s.chan i (some (some c)) })
        = along s.begun (given s) ++ [c] := by
      apply along_put ha
      · simp [given, hn]
      · simp [given, upd]
      · intro j hj; simp [given, upd, hj]
      · intro j hj
        by_cases hjb : j < s.begun
        · have := k2 j (a3 i j hw hj hjb)
          simp [given, this]
        · simp [given, (h9 j (by omega)).2]
    refine ⟨fun hc => ?_, ?_, a3⟩
    · show along s.begun _ ++ rest = _
      rw [e, ← a1 hc, hb]; simp
    · show along s.begun _ ++ rest <+: _
      rw [e]; rw [hb] at a2; simpa using a2
  | acceptFail ha hn hc =>
    rename_i i
    have e : along s.begun (given { s with chan := upd s.chan i (some none) }) =
        along s.begun (given s) := by
      apply along_congr
      intro j _
      by_cases hj : j = i
      · subst hj; simp [given, upd, hn]
      · simp [given, upd, hj]
    refine ⟨fun hx => by simp [hc] at hx, ?_, a3⟩
    show along s.begun _ ++ s.backlog <+: _
    rw [e]; exact a2
  | take hw hr =>
    refine ⟨a1, a2, ?_⟩
    rename_i r i
    cases r <;> simp only [result] at * <;> grind
  | cancel hcn hw => simp at hcn
  | submit hg hn => exact ⟨a1, a2, a3⟩
  | finish hs => exact ⟨a1, a2, a3⟩
  | close =>
    refine ⟨fun hx => by simp [St.close] at hx, ?_, a3⟩
    show along s.begun (given s) ++ [] <+: _
    rw [List.append_nil]
    exact (List.prefix_append _ _).trans a2
  | srvClose =>
    refine ⟨fun hx => by simp [St.close, St.srvClose] at hx, ?_, a3⟩
    show along s.begun (given s) ++ [] <+: _
    rw [List.append_nil]
    exact (List.prefix_append _ _).trans a2

/-- A loop that calls `Accept` again and again, no context cancelled, gets the connections in
the order in which they came in, none left out: what its calls returned is `0, 1, 2, …` up to
some number, whenever no call is running. -/
theorem C107_order_partial {s : St} (h : Loop St.init s)
    (hq : ∀ i, s.caller i ≠ some .waiting) :
    along s.begun (returned s) <+: List.range s.next ∧
    (s.closed = false → along s.begun (returned s) ++ s.backlog = List.range s.next) := by
  have key : Inv s ∧ Kept s ∧ Seq s := by
    clear hq
    induction h with
    | refl =>
      refine ⟨inv_init, ⟨by simp [St.init], by simp [St.init]⟩, ⟨?_, ?_, ?_⟩⟩ <;>
        simp [St.init, along]
    | tail _ st one ih =>
      obtain ⟨i, k, q⟩ := ih
      exact ⟨inv_step i st, kept_step i k st, seq_step i k q one st⟩
  obtain ⟨i, k, q⟩ := key
  have e : along s.begun (returned s) = along s.begun (given s) := by
    apply along_congr
    intro j hj
    cases hc : s.caller j with
    | none => exact absurd hc (i.live j hj)
    | some x =>
      cases x with
      | waiting => exact absurd hc (hq j)
      | got c => simp [returned, given, hc, i.got j c hc]
      | failed => simp [returned, given, hc, k.2 j hc]
  rw [e]
  exact ⟨(List.prefix_append _ _).trans q.pre, q.all⟩

/-! ### `Server.Close` -/

/-- Disagreement with C107: `Server.Close` ("immediately closes the server and all connections")
closes none of the connections being served. -/
theorem C107_server_close :
    (∀ s, Steps true St.init s → ∀ c, c ∈ s.served → c ∉ s.shut → c ∉ s.srvClose.shut) ∧
    ∃ s, Steps false St.init s ∧ s.srvClosed = true ∧ 0 ∈ s.served ∧ 0 ∉ s.shut := by
  refine ⟨?_, ?_⟩
  · intro s hs c hc hn
    have i := inv_steps inv_init hs
    obtain ⟨j, hj⟩ := i.served c hc
    have := (i.lt j c (i.got j c hj)).2
    simp [St.srvClose, St.close, hn, this]
  · refine ⟨_, .tail (.tail (.tail (.tail (.tail (.tail (.refl _)
      .start) (.arrive rfl))
      (.accept (i := 0) (c := 0) (rest := []) (by decide) rfl rfl))
      (.take (i := 0) (r := some 0) rfl rfl))
      (.submit (i := 0) (c := 0) rfl (by simp [St.start, St.init])))
      .srvClose, rfl, ?_, ?_⟩ <;> simp [St.srvClose, St.close, St.start, St.init]

/-- After `Close`, no new call of `Accept` gets a connection, and no waiting call that has none
yet gets one. -/
theorem C107_closed {b : Bool} {s s' : St} (h0 : Steps b St.init s) (hc : s.closed = true)
    (h : Steps b s s') (k c : Nat) :
    s'.caller k = some (.got c) → s.chan k = some (some c) := by
  have i := inv_steps inv_init h0
  have key : Inv s' ∧ s'.closed = true ∧
      ∀ k c, s'.chan k = some (some c) → s.chan k = some (some c) := by
    induction h with
    | refl => exact ⟨i, hc, fun _ _ => id⟩
    | tail _ st ih =>
      obtain ⟨i, hc, ih⟩ := ih
      refine ⟨inv_step i st, ?_, ?_⟩
      · cases st with
        | start => unfold St.start; split <;> exact hc
        | close => rfl
        | srvClose => rfl
        | _ => exact hc
      · have hb := i.closed hc
        cases st with
        | start => unfold St.start; simp only [hc, if_true]; grind
        | accept ha hn hx => rw [hb] at hx; simp at hx
        | acceptFail ha hn hx => grind
        | _ => exact ih
  exact fun hg => key.2.2 k c (key.1.got k c hg)

/-- After `Close` no call of `Accept` is left waiting: its goroutine has a result or gets the error of the
closed socket, and taking it ends the call. -/
theorem C107_unblocked {b : Bool} {s : St} (h0 : Steps b St.init s) (hc : s.closed = true) (k : Nat)
    (hk : s.caller k = some .waiting) :
    ∃ s', Steps b s s' ∧ (s'.caller k = some .failed ∨ ∃ c, s'.caller k = some (.got c)) := by
  have i := inv_steps inv_init h0
  have hlt : k < s.begun := by
    refine Nat.lt_of_not_le fun h => ?_
    rw [(i.begun k h).1] at hk; cases hk
  cases hn : s.chan k with
  | none =>
    refine ⟨_, .tail (.tail (.refl _) (.acceptFail hlt hn hc)) (.take (r := none) hk (by simp [upd])), .inl ?_⟩
    simp [upd, result]
  | some r =>
    refine ⟨_, .tail (.refl _) (.take hk hn), ?_⟩
    cases r with
    | none => left; simp [upd, result]
    | some c => right; exact ⟨c, by simp [upd, result]⟩

example : ∃ s, Steps false St.init s ∧ s.closed = true ∧ s.caller 0 = some .waiting :=
  ⟨_, .tail (.tail (.refl _) .start) .close, rfl, rfl⟩

/-! ## The socket file -/

/-- The permission bits in `a` are all in `b`. -/
def Within (a b : Nat) : Prop := a &&& b = a

/-- The path is free, or leads to a socket that may be replaced. -/
def Open (f : Fs) (path : Nat) (u : Bool) : Prop :=
  f.node path = none ∨ (u = true ∧ ∃ id m, f.node path = some (.socket id m))

theorem listen_ok {f : Fs} {path : Nat} {u : Bool} (h : Open f path u) (umask mode : Nat) :
    ∃ g : Fs, g.node path = none ∧ g.mine = f.mine ∧ (∀ p, p ≠ path → g.node p = f.node p) ∧
    f.listen path umask mode u =
      ([g,
        { node := upd g.node path (some (.socket f.mine.length (0o777 &&& (0o777 ^^^ umask)))),
          mine := f.mine ++ [(path, true)] },
        { node := upd (upd g.node path
            (some (.socket f.mine.length (0o777 &&& (0o777 ^^^ umask))))) path
            (some (.socket f.mine.length mode)),
          mine := f.mine ++ [(path, true)] }], true) := by
  obtain ⟨node, mine⟩ := f
  rcases h with h | ⟨rfl, id, m, h⟩
  · refine ⟨⟨node, mine⟩, h, rfl, fun _ _ => rfl, ?_⟩
    dsimp only at h
    have e : (Fs.mk node mine).unlink path u = ⟨node, mine⟩ := by
      unfold Fs.unlink; split <;> simp [h]
    simp [Fs.listen, e, Fs.bind, Fs.chmod, h, upd]
  · dsimp only at h
    refine ⟨⟨upd node path none, mine⟩, by simp [upd], rfl, fun p hp => by simp [upd, hp], ?_⟩
    have e : (Fs.mk node mine).unlink path true = ⟨upd node path none, mine⟩ := by
      simp [Fs.unlink, h]
    simp [Fs.listen, e, Fs.bind, Fs.chmod, upd]

theorem listen_no {f : Fs} {path : Nat} {u : Bool} (h : ¬ Open f path u) (umask mode : Nat) :
    f.listen path umask mode u = ([f], false) := by
  obtain ⟨node, mine⟩ := f
  unfold Open at h
  dsimp only at h
  have hu : (Fs.mk node mine).unlink path u = ⟨node, mine⟩ := by
    unfold Fs.unlink
    split
    · next hx =>
      dsimp only
      split
      · next hy => exact absurd (.inr ⟨hx, _, _, hy⟩) h
      · rfl
    · rfl
  cases hn : node path with
  | none => exact absurd (.inl hn) h
  | some x => simp [Fs.listen, hu, Fs.bind, hn]

/-- `Listen` succeeds when the path is free or leads to a socket it may replace; then the path
leads to the new listener's socket with the configured permissions.  When it fails it has
changed nothing.  Either way no other path is touched, at any moment. -/
theorem C108_listen (f : Fs) (path umask mode : Nat) (u : Bool) :
    ((f.listen path umask mode u).2 = true ↔
      f.node path = none ∨ (u = true ∧ ∃ id m, f.node path = some (.socket id m))) ∧
    ((f.listen path umask mode u).2 = true →
      (f.after path umask mode u).node path = some (.socket f.mine.length mode) ∧
      (f.after path umask mode u).mine = f.mine ++ [(path, true)]) ∧
    ((f.listen path umask mode u).2 = false → ∀ g ∈ (f.listen path umask mode u).1, g = f) ∧
    ∀ g ∈ (f.listen path umask mode u).1, ∀ p, p ≠ path → g.node p = f.node p := by
  by_cases h : Open f path u
  · obtain ⟨g, g1, g2, g3, e⟩ := listen_ok h umask mode
    unfold Fs.after
    rw [e]
    refine ⟨⟨fun _ => h, fun _ => rfl⟩, fun _ => ⟨by simp [upd], by simp⟩, by simp, ?_⟩
    intro x hx p hp
    simp only [List.mem_cons, List.not_mem_nil, or_false] at hx
    rcases hx with rfl | rfl | rfl <;> simp [upd, hp, g3 p hp]
  · rw [listen_no h]
    refine ⟨⟨fun hx => by simp at hx, fun hx => absurd hx h⟩, by simp, by simp, by simp⟩

/-- `Listen` never removes or replaces a file that is not a socket: it fails. -/
theorem C108_foreign (f : Fs) (path umask mode : Nat) (u : Bool) (h : f.node path = some .other) :
    (f.listen path umask mode u).2 = false ∧
    ∀ g ∈ (f.listen path umask mode u).1, g.node path = some .other := by
  have := C108_listen f path umask mode u
  have e : (f.listen path umask mode u).2 = false := by
    rw [Bool.eq_false_iff, Ne, this.1, h]; simp
  exact ⟨e, fun g hg => by rw [this.2.2.1 e g hg, h]⟩

/-- If the process mask already leaves no more than the configured permissions, the new socket
never has more than those. -/
theorem C108_mode_partial (f : Fs) (path umask mode : Nat) (u : Bool)
    (hm : Within (0o777 &&& (0o777 ^^^ umask)) mode)
    (g : Fs) (hg : g ∈ (f.listen path umask mode u).1) (m : Nat)
    (h : g.node path = some (.socket f.mine.length m))
    (hf : ∀ m, f.node path ≠ some (.socket f.mine.length m)) :
    Within m mode := by
  by_cases ho : Open f path u
  · obtain ⟨x, g1, g2, g3, e⟩ := listen_ok ho umask mode
    rw [e] at hg
    simp only [List.mem_cons, List.not_mem_nil, or_false] at hg
    rcases hg with rfl | rfl | rfl
    · rw [g1] at h; simp at h
    · simp [upd] at h; rw [← h]; exact hm
    · simp [upd] at h; rw [← h]; exact Nat.and_self _
  · rw [listen_no ho] at hg
    simp at hg
    exact absurd h (hg ▸ hf m)

/-- Disagreement with C108: with the default mode `0600` and no process mask, there is a moment
during `Listen` at which everyone may connect. -/
theorem C108_window (f : Fs) (path : Nat) (h : f.node path = none) :
    ∃ g ∈ (f.listen path 0 0o600 true).1,
      g.node path = some (.socket f.mine.length 0o777) ∧ ¬ Within 0o777 0o600 := by
  refine ⟨{ node := upd f.node path (some (.socket f.mine.length 0o777)),
            mine := f.mine ++ [(path, true)] }, ?_, ?_, by unfold Within; decide⟩
  · simp [Fs.listen, Fs.unlink, Fs.bind, h]
  · simp [upd]

/-- Listeners made and closed by processes that never use the path of a listener still open. -/
inductive Apart : Fs → Fs → Prop
  | refl (f) : Apart f f
  | listen {f g : Fs} {path umask mode : Nat} {u : Bool} : Apart f g → (path, true) ∉ g.mine →
      Apart f (g.after path umask mode u)
  | close {f g : Fs} {id : Nat} : Apart f g → Apart f (g.close id)
  /-- someone makes a file where there is none -/
  | make {f g : Fs} {path : Nat} : Apart f g → g.node path = none →
      (path, true) ∉ g.mine → Apart f { g with node := upd g.node path (some .other) }

/-- Listeners that keep to paths of their own: every open one's path leads to its socket. -/
theorem C108_alive_partial {f g : Fs} (h0 : f.mine = []) (h : Apart f g) (id path : Nat)
    (ho : g.mine[id]? = some (path, true)) : ∃ m, g.node path = some (.socket id m) := by
  induction h generalizing id path with
  | refl => simp [h0] at ho
  | @listen g path' umask mode u _ hn ih =>
    have hl := C108_listen g path' umask mode u
    cases hr : (g.listen path' umask mode u).2 with
    | false =>
      have : g.after path' umask mode u = g := by
        have hx := hl.2.2.1 hr
        unfold Fs.after
        cases hgl : (g.listen path' umask mode u).1.getLast? with
        | none => rfl
        | some z => exact hx z (List.mem_of_getLast? hgl)
      rw [this] at ho ⊢
      exact ih id path ho
    | true =>
      obtain ⟨e1, e2⟩ := hl.2.1 hr
      rw [e2, List.getElem?_append] at ho
      split at ho
      · have hp : path ≠ path' := by
          intro e; subst e; exact hn (List.mem_of_getElem? ho)
        have : (g.after path' umask mode u).node path = g.node path := by
          unfold Fs.after
          cases hgl : (g.listen path' umask mode u).1.getLast? with
          | none => rfl
          | some z => exact hl.2.2.2 z (List.mem_of_getLast? hgl) path hp
        rw [this]; exact ih id path ho
      · next hlt =>
        rw [List.getElem?_eq_some_iff] at ho
        obtain ⟨hi, ho⟩ := ho
        simp at hi
        have : id = g.mine.length := by omega
        subst this
        simp at ho
        subst ho
        exact ⟨mode, e1⟩
  | @close g k _ ih =>
    unfold Fs.close at *
    split at ho
    · next p hk =>
      dsimp only at ho ⊢
      rw [List.getElem?_set] at ho
      split at ho
      · simp at ho
      · next hki =>
        obtain ⟨m, hm⟩ := ih id path ho
        obtain ⟨m', hm'⟩ := ih k p hk
        have : path ≠ p := by
          intro e; subst e; rw [hm] at hm'; simp at hm'; omega
        exact ⟨m, by simp [upd, this, hm]⟩
    · exact ih id path ho
  | @make g path' _ hf hn ih =>
    obtain ⟨m, hm⟩ := ih id path ho
    have : path ≠ path' := by
      intro e; subst e; rw [hm] at hf; simp at hf
    exact ⟨m, by simp [upd, this, hm]⟩

theorem close_open {f : Fs} {id path : Nat} (h : f.mine[id]? = some (path, true)) :
    f.close id = { node := upd f.node path none, mine := f.mine.set id (path, false) } := by
  unfold Fs.close; rw [h]

theorem close_done {f : Fs} {id path : Nat} (h : f.mine[id]? = some (path, false)) :
    f.close id = f := by
  unfold Fs.close; rw [h]

/-- `Close` frees the listener's path and touches no other; a second `Close` changes nothing. -/
theorem C108_close (f : Fs) (id path : Nat) (h : f.mine[id]? = some (path, true)) :
    (f.close id).node path = none ∧
    (∀ p, p ≠ path → (f.close id).node p = f.node p) ∧
    (f.close id).close id = f.close id := by
  have hi : id < f.mine.length := by
    rw [List.getElem?_eq_some_iff] at h; exact h.1
  refine ⟨?_, ?_, ?_⟩
  · simp [close_open h, upd]
  · intro p hp; simp [close_open h, upd, hp]
  · exact close_done (path := path) (by simp [close_open h, hi])

/-- Disagreement with C108: with the default options a second listener takes the path of one that
is open, which no client reaches any more; closing the first one then removes the second one's
socket. -/
theorem C108_steal (f : Fs) (path id umask m mode : Nat)
    (h : f.mine[id]? = some (path, true)) (hn : f.node path = some (.socket id m)) :
    (f.listen path umask mode true).2 = true ∧
    (f.after path umask mode true).mine[id]? = some (path, true) ∧
    (f.after path umask mode true).node path = some (.socket f.mine.length mode) ∧
    ((f.after path umask mode true).close id).mine[f.mine.length]? = some (path, true) ∧
    ((f.after path umask mode true).close id).node path = none := by
  have hl := C108_listen f path umask mode true
  have ok : (f.listen path umask mode true).2 = true := hl.1.2 (.inr ⟨rfl, id, m, hn⟩)
  obtain ⟨e1, e2⟩ := hl.2.1 ok
  have hi : id < f.mine.length := by
    rw [List.getElem?_eq_some_iff] at h; exact h.1
  have e3 : (f.after path umask mode true).mine[id]? = some (path, true) := by
    rw [e2, List.getElem?_append_left hi, h]
  refine ⟨ok, e3, e1, ?_, (C108_close _ id path e3).1⟩
  have : id ≠ f.mine.length := by omega
  rw [close_open e3]
  simp [e2, List.getElem?_set, this]

/-- Disagreement with C108: `Close` also removes a file that is not the listener's socket, when
the path has come to lead to one. -/
theorem C108_foreign_close (f : Fs) (id path : Nat) (h : f.mine[id]? = some (path, true))
    (hn : f.node path = some .other) : (f.close id).node path = none := by
  have := hn
  exact (C108_close f id path h).1

/-! ## Cases the theorems are about -/

section Cases

/-- No files. -/
def blank : Fs := { node := fun _ => none, mine := [] }

example : (blank.listen 7 0o022 0o600 true).2 = true ∧
    (blank.after 7 0o022 0o600 true).node 7 = some (.socket 0 0o600) := by decide
/-- Listener 0 on path 7, then a second on the same path, then the first closes. -/
example :
    let f := (blank.after 7 0o022 0o600 true).after 7 0o022 0o660 true
    f.node 7 = some (.socket 1 0o660) ∧ (f.close 0).node 7 = none ∧
      (f.close 0).mine = [(7, false), (7, true)] := by decide
/-- Without the option the second one is refused. -/
example : ((blank.after 7 0o022 0o600 true).listen 7 0o022 0o600 false).2 = false := by decide
example : Within (0o777 &&& (0o777 ^^^ 0o177)) 0o600 := by unfold Within; decide
/-- Two listeners on paths of their own, the first closed. -/
example : Apart blank (((blank.after 7 0o022 0o600 true).after 8 0o022 0o600 true).close 0) :=
  .close (.listen (.listen (.refl _) (by decide)) (by decide))
/-- Two calls one after the other, two connections, returned in order. -/
example : ∃ s, Loop St.init s ∧ s.begun = 2 ∧ (∀ i, s.caller i ≠ some .waiting) ∧
    along s.begun (returned s) = [0, 1] := by
  refine ⟨_, .tail (.tail (.tail (.tail (.tail (.tail (.tail (.tail (.refl _)
      (.arrive rfl) ?_) (.arrive rfl) ?_)
      .start ?_) (.accept (i := 0) (c := 0) (rest := [1]) (by decide) rfl rfl) ?_)
      (.take (i := 0) (r := some 0) rfl rfl) ?_)
      .start ?_) (.accept (i := 1) (c := 1) (rest := []) (by decide) rfl rfl) ?_)
      (.take (i := 1) (r := some 1) rfl rfl) ?_, rfl, ?_, by decide⟩ <;>
    simp only [St.start, St.init, result, Bool.false_eq_true, if_false, if_true] <;>
    intros <;> grind

end Cases

end Claw.Listener
