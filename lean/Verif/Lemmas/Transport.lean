import Verif.Spec.Stream

/-!
# Invariants of the stream transports
-/

namespace Claw.Transport

theorem upd_same {α : Type} (f : Nat → α) (t : Nat) (a : α) : upd f t a t = a := by simp [upd]

theorem upd_other {α : Type} (f : Nat → α) {t u : Nat} (a : α) (h : u ≠ t) :
    upd f t a u = f u := by simp [upd, h]

theorem on_append (c : Nat) (l r) : on c (l ++ r) = on c l ++ on c r := by
  simp [on, List.filter_append]

theorem byTid_append (t : Nat) (l r) : byTid t (l ++ r) = byTid t l ++ byTid t r := by
  simp [byTid, List.filter_append]

theorem okWrites_append (l r) : okWrites (l ++ r) = okWrites l ++ okWrites r := by
  induction l with
  | nil => rfl
  | cons x l ih =>
    rcases x with ⟨op, rt⟩
    cases op <;> cases rt <;> simp [okWrites, ih]

/-- The message a goroutine is writing. -/
def pend : PC → Option Bytes
  | .call (.write p) => some p
  | .wWant p => some p
  | .wPut _ p _ => some p
  | .wErr p => some p
  | _ => none

/-- Holding `connMu` between two steps. -/
def PC.connHeld : PC → Bool
  | .cWait | .kWait | .kSet => true
  | _ => false

/-- Holding `writeMu` between two steps. -/
def PC.writeHeld : PC → Bool
  | .wPut _ _ _ | .wErr _ => true
  | _ => false

structure Inv (m : Mode) (s : St) : Prop where
  connMu : ∀ t, (s.pc t).connHeld = true ↔ s.connMu = some t
  writeMu : ∀ t, (s.pc t).writeHeld = true ↔ s.writeMu = some t
  put : ∀ t c p k, s.pc t = .wPut c p k → s.writer = some (c, false) ∧ k ≤ p.length
  bad : ∀ t p, s.pc t = .wErr p → ∀ c, s.writer ≠ some (c, false)
  connNext : ∀ c, s.conn = some c → c < s.next
  writerNext : ∀ c b, s.writer = some (c, b) → c < s.next
  fresh : ∀ c, s.next ≤ c → s.wire c = [] ∧ on c s.sent = []
  set : ∀ t, s.pc t = .kSet → ∃ c, s.conn = some c ∧ s.wire c = [] ∧ on c s.sent = [] ∧
    ∀ b, s.writer ≠ some (c, b)
  held : ∀ t, s.pc t = .cWait ∨ s.pc t = .kWait → s.conn ≠ none
  wirePut : ∀ t c p k, s.pc t = .wPut c p k → s.wire c = (on c s.sent).flatten ++ p.take k
  wireFree : ∀ c, s.writer = some (c, false) → s.writeMu = none →
    s.wire c = (on c s.sent).flatten
  wireAny : ∀ c, ∃ tail, s.wire c = (on c s.sent).flatten ++ tail ∧
    (tail = [] ∨ ∃ t p, p ∈ s.issued t ∧ tail <+: p)
  pending : ∀ t p, pend (s.pc t) = some p →
    ∃ l, s.issued t = l ++ [p] ∧ (byTid t s.sent).Sublist l
  order : ∀ t, (byTid t s.sent).Sublist (s.issued t)
  rets : ∀ t, byTid t s.sent = okWrites (s.rets t)
  server : m = .server → (∀ t p, s.pc t ≠ .wErr p) ∧ (∀ t, s.pc t ≠ .rErr) ∧
    (∀ t, s.pc t ≠ .kWait ∧ s.pc t ≠ .kSet ∧ s.pc t ≠ .kDial)

theorem inv_init (m : Mode) : Inv m St.init := by
  constructor <;> simp [St.init, PC.connHeld, PC.writeHeld, on, byTid, okWrites, pend]

theorem on_snoc (c d t p l) : on c (l ++ [(d, t, p)]) = if d = c then on c l ++ [p] else on c l := by
  by_cases h : d = c <;> simp [on, h]

theorem byTid_snoc (t d u p l) :
    byTid t (l ++ [(d, u, p)]) = if u = t then byTid t l ++ [p] else byTid t l := by
  by_cases h : u = t <;> simp [byTid, h]

theorem okWrites_snoc (l op r) : okWrites (l ++ [(op, r)]) = okWrites l ++ okWrites [(op, r)] :=
  okWrites_append _ _

attribute [grind] upd PC.connHeld PC.writeHeld pend

/-- A step that only moves goroutine `t` to a place holding no lock, before and after, and ends
no write, keeps the invariant. -/
theorem inv_move {m : Mode} {s : St} (i : Inv m s) (t : Tid) (q : PC)
    (h0 : (s.pc t).connHeld = false) (h1 : (s.pc t).writeHeld = false)
    (q0 : q.connHeld = false) (q1 : q.writeHeld = false)
    (hp : pend q = none ∨ pend q = pend (s.pc t))
    (hs : m = .server → q ≠ .rErr ∧ q ≠ .kDial) :
    Inv m { s with pc := upd s.pc t q } := by
  obtain ⟨h_connMu, h_writeMu, h_put, h_bad, h_connNext, h_writerNext, h_fresh, h_set, h_held, h_wirePut, h_wireFree, h_wireAny, h_pending, h_order, h_rets, h_server⟩ := i
  constructor
  all_goals first | assumption | skip
  all_goals dsimp only
  · intro u; by_cases h : u = t <;> grind
  · intro u; by_cases h : u = t <;> grind
  · intro u c p k; by_cases h : u = t <;> grind
  · intro u p; by_cases h : u = t <;> grind
  · intro u; by_cases h : u = t <;> grind
  · intro u; by_cases h : u = t <;> grind
  · intro u c p k; by_cases h : u = t <;> grind
  · intro u p; by_cases h : u = t <;> grind
  · intro hm; grind

theorem inv_ret {m : Mode} {s : St} (i : Inv m s) (t : Tid) (op : Op) (r : Ret)
    (h0 : (s.pc t).connHeld = false) (h1 : (s.pc t).writeHeld = false)
    (hw : okWrites [(op, r)] = []) :
    Inv m (s.ret t op r) := by
  have j := inv_move i t .idle h0 h1 rfl rfl (.inl rfl) (fun _ => by simp)
  obtain ⟨h_connMu, h_writeMu, h_put, h_bad, h_connNext, h_writerNext, h_fresh, h_set, h_held, h_wirePut, h_wireFree, h_wireAny, h_pending, h_order, h_rets, h_server⟩ := j
  constructor
  all_goals first | assumption | skip
  intro u
  have := h_rets u
  simp only [St.ret] at *
  by_cases h : u = t
  · subst h; rw [upd_same, okWrites_snoc, hw]; simpa using this
  · rw [upd_other _ _ h]; exact this

/-- The same for changes of `closed` and `connected`, which the invariant does not mention. -/
theorem inv_flags {m : Mode} {s : St} (i : Inv m s) (a b : Bool) :
    Inv m { s with closed := a, connected := b } := by
  obtain ⟨h_connMu, h_writeMu, h_put, h_bad, h_connNext, h_writerNext, h_fresh, h_set, h_held, h_wirePut, h_wireFree, h_wireAny, h_pending, h_order, h_rets, h_server⟩ := i
  constructor <;> assumption

theorem inv_takeConn {m : Mode} {s : St} (i : Inv m s) (t : Tid) (q : PC)
    (h : (s.pc t).writeHeld = false) (hc : s.connMu = none) (hn : s.conn ≠ none)
    (hq : q = .cWait ∨ (q = .kWait ∧ m = .client)) :
    Inv m { s with connMu := some t, pc := upd s.pc t q } := by
  obtain ⟨h_connMu, h_writeMu, h_put, h_bad, h_connNext, h_writerNext, h_fresh, h_set, h_held, h_wirePut, h_wireFree, h_wireAny, h_pending, h_order, h_rets, h_server⟩ := i
  have q0 : q.connHeld = true := by grind
  have q1 : q.writeHeld = false := by grind
  have q2 : pend q = none := by grind
  constructor
  all_goals first | assumption | skip
  all_goals dsimp only
  · intro u; by_cases h : u = t <;> grind
  · intro u; by_cases h : u = t <;> grind
  · intro u c p k; by_cases h : u = t <;> grind
  · intro u p; by_cases h : u = t <;> grind
  · intro u; by_cases h : u = t <;> grind
  · intro u; by_cases h : u = t <;> grind
  · intro u c p k; by_cases h : u = t <;> grind
  · intro u p; by_cases h : u = t <;> grind
  · intro hm; grind

theorem inv_enter {m : Mode} {s : St} (i : Inv m s) {t : Tid} {op : Op} (h : s.pc t = .call op)
    (hc : s.connMu = none) : Inv m (s.enter m t op) := by
  have h0 : (s.pc t).connHeld = false := by grind
  have h1 : (s.pc t).writeHeld = false := by grind
  cases op with
  | read =>
    simp only [St.enter]
    split
    · exact inv_ret i t _ _ h0 h1 rfl
    · exact inv_move i t _ h0 h1 rfl rfl (.inl rfl) (by simp)
  | write p =>
    simp only [St.enter]
    split
    · exact inv_ret i t _ _ h0 h1 rfl
    · exact inv_move i t _ h0 h1 rfl rfl (.inr (by rw [h]; rfl)) (by simp)
  | query => exact inv_ret i t _ _ h0 h1 rfl
  | close =>
    simp only [St.enter]
    split
    · exact inv_ret i t _ _ h0 h1 rfl
    · have j := inv_flags i true false
      split
      · exact inv_ret j t _ _ h0 h1 rfl
      · next c hcn => exact inv_takeConn j t .cWait h1 hc (by simp [hcn]) (.inl rfl)
  | connect =>
    simp only [St.enter]
    split
    · exact inv_ret i t _ _ h0 h1 rfl
    · next hm =>
      have hm : m = .client := by cases m <;> simp_all
      split
      · exact inv_ret i t _ _ h0 h1 rfl
      · have j := inv_flags i s.closed false
        split
        · exact inv_move j t _ h0 h1 rfl rfl (.inl rfl) (by simp [hm])
        · next c hcn => exact inv_takeConn j t .kWait h1 hc (by simp [hcn]) (.inr ⟨rfl, hm⟩)

theorem inv_putOk {m : Mode} {s : St} (i : Inv m s) {t : Tid} {c : Nat} {p : Bytes}
    (h : s.pc t = .wPut c p p.length) :
    Inv m { s.ret t (.write p) .ok with writeMu := none, sent := s.sent ++ [(c, t, p)] } := by
  have hw : s.writeMu = some t := (i.writeMu t).1 (by rw [h]; rfl)
  have hwr := (i.put t c p _ h).1
  have hlt := i.writerNext c false hwr
  have hwire := i.wirePut t c p _ h
  rw [List.take_length] at hwire
  obtain ⟨l, hl, hsub⟩ := i.pending t p (by rw [h]; rfl)
  obtain ⟨h_connMu, h_writeMu, h_put, h_bad, h_connNext, h_writerNext, h_fresh, h_set, h_held, h_wirePut, h_wireFree, h_wireAny, h_pending, h_order, h_rets, h_server⟩ := i
  constructor
  all_goals first | assumption | skip
  all_goals dsimp only [St.ret]
  · intro u; by_cases h : u = t <;> grind
  · intro u; by_cases h : u = t <;> grind
  · intro u c p k; by_cases h : u = t <;> grind
  · intro u p; by_cases h : u = t <;> grind
  · intro d hd; grind [on_snoc]
  · intro u hu
    have hu : u ≠ t := by grind
    obtain ⟨d, h1, h2, h3, h4⟩ := h_set u (by grind)
    have : c ≠ d := by grind
    exact ⟨d, h1, h2, by rw [on_snoc]; simp [this, h3], h4⟩
  · intro u; by_cases h : u = t <;> grind
  · intro u d q k
    by_cases h : u = t
    · subst h; rw [upd_same]; simp
    · rw [upd_other _ _ h]
      intro hx
      have : u = t := by
        have := (h_writeMu u).1 (by rw [hx]; rfl)
        grind
      exact absurd this h
  · intro d hd _
    rw [on_snoc]
    have : c = d := by grind
    subst this
    simp [hwire]
  · intro d
    rw [on_snoc]
    by_cases hd : c = d
    · subst hd; exact ⟨[], by simp [hwire], .inl rfl⟩
    · simp only [hd, if_false]; exact h_wireAny d
  · intro u q; rw [byTid_snoc]; by_cases h : u = t <;> grind
  · intro u
    rw [byTid_snoc]
    by_cases h : t = u
    · subst h; simp only [if_true, hl]; exact hsub.append (List.Sublist.refl _)
    · simp only [h, if_false]; exact h_order u
  · intro u
    rw [byTid_snoc]
    by_cases h : t = u
    · subst h; rw [upd_same, okWrites_snoc]; simp [h_rets t, okWrites]
    · rw [upd_other _ _ (Ne.symm h)]; simp [h, h_rets u]
  · intro hm; grind

theorem inv_writeErr {m : Mode} {s : St} (i : Inv m s) {t : Tid} {p : Bytes}
    (h : s.pc t = .wErr p) :
    Inv m { s.ret t (.write p) .err with writeMu := none } := by
  have hw : s.writeMu = some t := (i.writeMu t).1 (by rw [h]; rfl)
  obtain ⟨h_connMu, h_writeMu, h_put, h_bad, h_connNext, h_writerNext, h_fresh, h_set, h_held, h_wirePut, h_wireFree, h_wireAny, h_pending, h_order, h_rets, h_server⟩ := i
  constructor
  all_goals first | assumption | skip
  all_goals dsimp only [St.ret]
  · intro u; by_cases h : u = t <;> grind
  · intro u; by_cases h : u = t <;> grind
  · intro u c p k; by_cases h : u = t <;> grind
  · intro u p; by_cases h : u = t <;> grind
  · intro u; by_cases h : u = t <;> grind
  · intro u; by_cases h : u = t <;> grind
  · intro u c p k; by_cases h : u = t <;> grind
  · intro c; grind
  · intro u p; by_cases h : u = t <;> grind
  · intro u; by_cases h : u = t <;> grind [okWrites_snoc, okWrites]
  · intro hm; grind

theorem inv_close {m : Mode} {s : St} (i : Inv m s) {t : Tid}
    (h : s.pc t = .cWait) (hw : s.writeMu = none) :
    Inv m { s.drop.ret t .close .ok with connMu := none } := by
  have hc : s.connMu = some t := (i.connMu t).1 (by rw [h]; rfl)
  have hn := i.held t (.inl h)
  obtain ⟨c, hcn⟩ := Option.ne_none_iff_exists'.1 hn
  simp only [St.drop, hcn]
  obtain ⟨h_connMu, h_writeMu, h_put, h_bad, h_connNext, h_writerNext, h_fresh, h_set, h_held, h_wirePut, h_wireFree, h_wireAny, h_pending, h_order, h_rets, h_server⟩ := i
  constructor
  all_goals first | assumption | skip
  all_goals dsimp only [St.ret]
  · intro u; by_cases h : u = t <;> grind
  · intro u; by_cases h : u = t <;> grind
  · intro u c p k; by_cases h : u = t <;> grind
  · intro u p; by_cases h : u = t <;> grind
  · intro c; grind
  · intro c b; grind
  · intro u; by_cases h : u = t <;> grind
  · intro u; by_cases h : u = t <;> grind
  · intro u c p k; by_cases h : u = t <;> grind
  · intro c; grind
  · intro u p; by_cases h : u = t <;> grind
  · intro u; by_cases h : u = t <;> grind [okWrites_snoc, okWrites]
  · intro hm; grind

theorem inv_clean {m : Mode} {s : St} (i : Inv m s) {t : Tid}
    (h : s.pc t = .kWait) (hw : s.writeMu = none) :
    Inv m { s.drop with connMu := none, pc := upd s.pc t .kDial } := by
  have hc : s.connMu = some t := (i.connMu t).1 (by rw [h]; rfl)
  have hn := i.held t (.inr h)
  obtain ⟨c, hcn⟩ := Option.ne_none_iff_exists'.1 hn
  simp only [St.drop, hcn]
  obtain ⟨h_connMu, h_writeMu, h_put, h_bad, h_connNext, h_writerNext, h_fresh, h_set, h_held, h_wirePut, h_wireFree, h_wireAny, h_pending, h_order, h_rets, h_server⟩ := i
  constructor
  all_goals first | assumption | skip
  all_goals dsimp only [St.ret]
  · intro u; by_cases h : u = t <;> grind
  · intro u; by_cases h : u = t <;> grind
  · intro u c p k; by_cases h : u = t <;> grind
  · intro u p; by_cases h : u = t <;> grind
  · intro c; grind
  · intro c b; grind
  · intro u; by_cases h : u = t <;> grind
  · intro u; by_cases h : u = t <;> grind
  · intro u c p k; by_cases h : u = t <;> grind
  · intro c; grind
  · intro u p; by_cases h : u = t <;> grind
  · intro hm; grind

theorem inv_dialOk {m : Mode} {s : St} (i : Inv m s) {t : Tid}
    (h : s.pc t = .kDial) (hc : s.connMu = none) :
    Inv m { s with conn := some s.next, reader := some s.next, connected := true,
                   next := s.next + 1, connMu := some t, pc := upd s.pc t .kSet } := by
  obtain ⟨h_connMu, h_writeMu, h_put, h_bad, h_connNext, h_writerNext, h_fresh, h_set, h_held, h_wirePut, h_wireFree, h_wireAny, h_pending, h_order, h_rets, h_server⟩ := i
  constructor
  all_goals first | assumption | skip
  all_goals dsimp only [St.ret]
  · intro u; by_cases h : u = t <;> grind
  · intro u; by_cases h : u = t <;> grind
  · intro u c p k; by_cases h : u = t <;> grind
  · intro u p; by_cases h : u = t <;> grind
  · intro c; grind
  · intro c b; grind
  · intro c; grind
  · intro u; by_cases h : u = t <;> grind
  · intro u; by_cases h : u = t <;> grind
  · intro u c p k; by_cases h : u = t <;> grind
  · intro u p; by_cases h : u = t <;> grind
  · intro hm; grind

theorem inv_dialLate {m : Mode} {s : St} (i : Inv m s) {t : Tid}
    (h : s.pc t = .kDial) (hc : s.connMu = none) :
    Inv m { s.ret t .connect .err with next := s.next + 1, shut := upd s.shut s.next true } := by
  obtain ⟨h_connMu, h_writeMu, h_put, h_bad, h_connNext, h_writerNext, h_fresh, h_set, h_held, h_wirePut, h_wireFree, h_wireAny, h_pending, h_order, h_rets, h_server⟩ := i
  constructor
  all_goals first | assumption | skip
  all_goals dsimp only [St.ret]
  · intro u; by_cases h : u = t <;> grind
  · intro u; by_cases h : u = t <;> grind
  · intro u c p k; by_cases h : u = t <;> grind
  · intro u p; by_cases h : u = t <;> grind
  · intro c; grind
  · intro c b; grind
  · intro c; grind
  · intro u; by_cases h : u = t <;> grind
  · intro u; by_cases h : u = t <;> grind
  · intro u c p k; by_cases h : u = t <;> grind
  · intro u p; by_cases h : u = t <;> grind
  · intro u; by_cases h : u = t <;> grind [okWrites_snoc, okWrites]
  · intro hm; grind

theorem inv_set {m : Mode} {s : St} (i : Inv m s) {t : Tid}
    (h : s.pc t = .kSet) (hw : s.writeMu = none) :
    Inv m { s.ret t .connect .ok with connMu := none,
                                      writer := s.conn.map (fun c => (c, false)) } := by
  have hc : s.connMu = some t := (i.connMu t).1 (by rw [h]; rfl)
  obtain ⟨c, hcn, hc1, hc2, hc3⟩ := i.set t h
  simp only [hcn, Option.map_some]
  obtain ⟨h_connMu, h_writeMu, h_put, h_bad, h_connNext, h_writerNext, h_fresh, h_set, h_held, h_wirePut, h_wireFree, h_wireAny, h_pending, h_order, h_rets, h_server⟩ := i
  constructor
  all_goals first | assumption | skip
  all_goals dsimp only [St.ret]
  · intro u; by_cases h : u = t <;> grind
  · intro u; by_cases h : u = t <;> grind
  · intro u c p k; by_cases h : u = t <;> grind
  · intro u p; by_cases h : u = t <;> grind
  · intro c b; grind
  · intro u; by_cases h : u = t <;> grind
  · intro u; by_cases h : u = t <;> grind
  · intro u c p k; by_cases h : u = t <;> grind
  · intro d; grind
  · intro u p; by_cases h : u = t <;> grind
  · intro u; by_cases h : u = t <;> grind [okWrites_snoc, okWrites]
  · intro hm; grind

theorem inv_run {m : Mode} {t : Tid} {s s' : St} (i : Inv m s) (r : Run m t s s') : Inv m s' := by
  cases r with
  | enter h hc => exact inv_enter i h hc
  | fetch h =>
    have h0 : (s.pc t).connHeld = false := by grind
    have h1 : (s.pc t).writeHeld = false := by grind
    split
    · exact inv_ret i t _ _ h0 h1 rfl
    · exact inv_move i t _ h0 h1 rfl rfl (.inl rfl) (by simp)
  | readOk h hs =>
    have h0 : (s.pc t).connHeld = false := by grind
    have h1 : (s.pc t).writeHeld = false := by grind
    exact inv_ret i t _ _ h0 h1 rfl
  | readFail h =>
    have h0 : (s.pc t).connHeld = false := by grind
    have h1 : (s.pc t).writeHeld = false := by grind
    split
    · exact inv_ret i t _ _ h0 h1 rfl
    · next hm => exact inv_move i t _ h0 h1 rfl rfl (.inl rfl) (fun h => absurd h hm)
  | readErr h hs =>
    have h0 : (s.pc t).connHeld = false := by grind
    have h1 : (s.pc t).writeHeld = false := by grind
    exact inv_ret i t _ _ h0 h1 rfl
  | dialFail h =>
    have h0 : (s.pc t).connHeld = false := by grind
    have h1 : (s.pc t).writeHeld = false := by grind
    exact inv_ret i t _ _ h0 h1 rfl
  | lock h hw =>
    next p =>
    have h0 : (s.pc t).connHeld = false := by grind
    have h1 : (s.pc t).writeHeld = false := by grind
    split
    · exact inv_ret i t _ _ h0 h1 rfl
    · next c hwr =>
      obtain ⟨h_connMu, h_writeMu, h_put, h_bad, h_connNext, h_writerNext, h_fresh, h_set, h_held, h_wirePut, h_wireFree, h_wireAny, h_pending, h_order, h_rets, h_server⟩ := i
      constructor
      all_goals first | assumption | skip
      all_goals dsimp only
      · intro u; by_cases h : u = t <;> grind
      · intro u; by_cases h : u = t <;> grind
      · intro u c p k; by_cases h : u = t <;> grind
      · intro u p; by_cases h : u = t <;> grind
      · intro u; by_cases h : u = t <;> grind
      · intro u; by_cases h : u = t <;> grind
      · intro u c p k; by_cases h : u = t <;> grind
      · intro c; grind
      · intro u p; by_cases h : u = t <;> grind
      · intro hm; grind
    · next c hwr =>
      split
      · exact inv_ret i t _ _ h0 h1 rfl
      · obtain ⟨h_connMu, h_writeMu, h_put, h_bad, h_connNext, h_writerNext, h_fresh, h_set, h_held, h_wirePut, h_wireFree, h_wireAny, h_pending, h_order, h_rets, h_server⟩ := i
        constructor
        all_goals first | assumption | skip
        all_goals dsimp only
        · intro u; by_cases h : u = t <;> grind
        · intro u; by_cases h : u = t <;> grind
        · intro u c p k; by_cases h : u = t <;> grind
        · intro u p; by_cases h : u = t <;> grind
        · intro u; by_cases h : u = t <;> grind
        · intro u; by_cases h : u = t <;> grind
        · intro u c p k; by_cases h : u = t <;> grind
        · intro c; grind
        · intro u p; by_cases h : u = t <;> grind
        · intro hm; grind
  | put h hp hs =>
    next c p k =>
    obtain ⟨h_connMu, h_writeMu, h_put, h_bad, h_connNext, h_writerNext, h_fresh, h_set, h_held, h_wirePut, h_wireFree, h_wireAny, h_pending, h_order, h_rets, h_server⟩ := i
    constructor
    all_goals first | assumption | skip
    all_goals dsimp only [St.ret]
    · intro u; by_cases h : u = t <;> grind
    · intro u; by_cases h : u = t <;> grind
    · intro u c p k; by_cases h : u = t <;> grind
    · intro u p; by_cases h : u = t <;> grind
    · intro d hd; have := h_writerNext c false (h_put t c p k hp).1; grind
    · intro u hu; by_cases h : u = t <;> grind
    · intro u; by_cases h : u = t <;> grind
    · have e := List.take_append_getElem h
      intro u d q j; by_cases h : u = t
      · subst h; rw [upd_same]; intro hx; cases hx
        rw [upd_same, h_wirePut u c p k hp, List.append_assoc, e]
      · grind
    · intro d; grind
    · intro d
      by_cases hd : d = c
      · subst hd
        rw [upd_same]
        refine ⟨p.take (k + 1), ?_, .inr ⟨t, p, ?_, List.take_prefix _ _⟩⟩
        · rw [h_wirePut t d p k hp, List.append_assoc, List.take_append_getElem h]
        · obtain ⟨l, hl, -⟩ := h_pending t p (by rw [hp]; rfl)
          rw [hl]; simp
      · rw [upd_other _ _ hd]; exact h_wireAny d
    · intro u p; by_cases h : u = t <;> grind
    · intro hm; grind
  | putFail h hk =>
    next c p k =>
    have hw : s.writeMu = some t := (i.writeMu t).1 (by rw [h]; rfl)
    have hwr := (i.put t c p k h).1
    split
    · skip
      obtain ⟨h_connMu, h_writeMu, h_put, h_bad, h_connNext, h_writerNext, h_fresh, h_set, h_held, h_wirePut, h_wireFree, h_wireAny, h_pending, h_order, h_rets, h_server⟩ := i
      constructor
      all_goals first | assumption | skip
      all_goals dsimp only [St.ret]
      · intro u; by_cases h : u = t <;> grind
      · intro u; by_cases h : u = t <;> grind
      · intro u c p k; by_cases h : u = t <;> grind
      · intro u p; by_cases h : u = t <;> grind
      · intro c b; grind
      · intro u; by_cases h : u = t <;> grind
      · intro u; by_cases h : u = t <;> grind
      · intro u c p k; by_cases h : u = t <;> grind
      · intro c; grind
      · intro u p; by_cases h : u = t <;> grind
      · intro u; by_cases h : u = t <;> grind [okWrites_snoc, okWrites]
      · intro hm; grind
    · skip
      obtain ⟨h_connMu, h_writeMu, h_put, h_bad, h_connNext, h_writerNext, h_fresh, h_set, h_held, h_wirePut, h_wireFree, h_wireAny, h_pending, h_order, h_rets, h_server⟩ := i
      constructor
      all_goals first | assumption | skip
      all_goals dsimp only [St.ret]
      · intro u; by_cases h : u = t <;> grind
      · intro u; by_cases h : u = t <;> grind
      · intro u c p k; by_cases h : u = t <;> grind
      · intro u p; by_cases h : u = t <;> grind
      · intro c b; grind
      · intro u; by_cases h : u = t <;> grind
      · intro u; by_cases h : u = t <;> grind
      · intro u c p k; by_cases h : u = t <;> grind
      · intro c; grind
      · intro u p; by_cases h : u = t <;> grind
      · intro hm; grind
  | putOk h => exact inv_putOk i h
  | writeErr h hc => exact inv_writeErr i h
  | close h hw => exact inv_close i h hw
  | clean h hw => exact inv_clean i h hw
  | dialOk h hc =>
    split
    · exact inv_dialLate i h hc
    · exact inv_dialOk i h hc
  | set h hw => exact inv_set i h hw

theorem inv_call {m : Mode} {s : St} (i : Inv m s) {t : Tid} {op : Op} (h : s.pc t = .idle) :
    Inv m { s with pc := upd s.pc t (.call op),
                   issued := match op with
                     | .write p => upd s.issued t (s.issued t ++ [p])
                     | _ => s.issued } := by
  have h0 : (s.pc t).connHeld = false := by grind
  have h1 : (s.pc t).writeHeld = false := by grind
  by_cases hop : ∃ p, op = .write p
  · obtain ⟨p, rfl⟩ := hop
    dsimp only
    have mono : ∀ u q, q ∈ s.issued u → q ∈ upd s.issued t (s.issued t ++ [p]) u := by grind
    obtain ⟨h_connMu, h_writeMu, h_put, h_bad, h_connNext, h_writerNext, h_fresh, h_set, h_held, h_wirePut, h_wireFree, h_wireAny, h_pending, h_order, h_rets, h_server⟩ := i
    constructor
    all_goals first | assumption | skip
    all_goals dsimp only
    · intro u; by_cases h : u = t <;> grind
    · intro u; by_cases h : u = t <;> grind
    · intro u c p k; by_cases h : u = t <;> grind
    · intro u p; by_cases h : u = t <;> grind
    · intro u; by_cases h : u = t <;> grind
    · intro u; by_cases h : u = t <;> grind
    · intro u c p k; by_cases h : u = t <;> grind
    · intro c
      obtain ⟨tail, ht, hp⟩ := h_wireAny c
      refine ⟨tail, ht, ?_⟩
      rcases hp with hp | ⟨u, q, hq, hpre⟩
      · exact .inl hp
      · exact .inr ⟨u, q, mono u q hq, hpre⟩
    · intro u q
      by_cases h : u = t
      · subst h
        rw [upd_same, upd_same]
        intro hq
        have : p = q := by simpa [pend] using hq
        subst this
        exact ⟨_, rfl, h_order u⟩
      · rw [upd_other _ _ h, upd_other _ _ h]; exact h_pending u q
    · intro u
      by_cases h : u = t
      · subst h; rw [upd_same]; exact (h_order u).trans (List.sublist_append_left _ _)
      · rw [upd_other _ _ h]; exact h_order u
    · intro hm; grind
  · have j := inv_move i t (.call op) h0 h1 rfl rfl
      (.inl (by cases op <;> simp_all [pend])) (by simp)
    cases op <;> first | exact j | exact absurd ⟨_, rfl⟩ hop

theorem inv_step {m : Mode} {s s' : St} (i : Inv m s) (h : Step m s s') : Inv m s' := by
  cases h with
  | call h => exact inv_call i h
  | run r => exact inv_run i r

theorem inv_reach {m : Mode} {s : St} (h : Reach m s) : Inv m s := by
  have key : ∀ a b, Steps m a b → Inv m a → Inv m b := by
    intro a b hab
    induction hab with
    | refl => exact id
    | tail _ st ih => exact fun ha => inv_step (ih ha) st
  exact key _ _ h (inv_init m)

/-! ## Where a cut message comes from -/

/-- Goroutine `t` is writing `p` to connection `c`, or its `Write` of `p` failed. -/
def Cut (s : St) (c : Nat) (t : Tid) (p : Bytes) : Prop :=
  (∃ k, s.pc t = .wPut c p k) ∨ s.pc t = .wErr p ∨ (Op.write p, Ret.err) ∈ s.rets t

/-- What connection `c` has taken: whole messages, and a beginning of one more. -/
def Tail (s : St) (c : Nat) : Prop :=
  ∃ tail, s.wire c = (on c s.sent).flatten ++ tail ∧
    (tail = [] ∨ ∃ t p, p ∈ s.issued t ∧ tail <+: p ∧ Cut s c t p)

theorem tail_keep {s s' : St} {c : Nat} (h : Tail s c) (hw : s'.wire c = s.wire c)
    (hs : on c s'.sent = on c s.sent) (hi : ∀ t p, p ∈ s.issued t → p ∈ s'.issued t)
    (hc : ∀ t p, Cut s c t p → Cut s' c t p) : Tail s' c := by
  obtain ⟨tail, h1, h2⟩ := h
  refine ⟨tail, by rw [hw, hs, h1], ?_⟩
  rcases h2 with h2 | ⟨t, p, h3, h4, h5⟩
  · exact .inl h2
  · exact .inr ⟨t, p, hi t p h3, h4, hc t p h5⟩

theorem enter_frame (m : Mode) (s : St) (t : Tid) (op : Op) :
    (s.enter m t op).wire = s.wire ∧ (s.enter m t op).sent = s.sent ∧
    (s.enter m t op).issued = s.issued ∧ (∀ u, u ≠ t → (s.enter m t op).pc u = s.pc u) ∧
    (∀ u x, x ∈ s.rets u → x ∈ (s.enter m t op).rets u) ∧
    (∀ c p k, (s.enter m t op).pc t ≠ .wPut c p k) := by
  cases op <;> simp only [St.enter] <;> repeat' split
  all_goals (simp only [St.ret]; refine ⟨?_, ?_, ?_, ?_, ?_, ?_⟩)
  all_goals first | rfl | trivial | grind

theorem tail_free {s s' : St} {c : Nat} {t : Tid} (h : Tail s c) (hw : s'.wire c = s.wire c)
    (hs : on c s'.sent = on c s.sent) (hi : s'.issued = s.issued)
    (ho : ∀ u, u ≠ t → s'.pc u = s.pc u) (hr : ∀ u x, x ∈ s.rets u → x ∈ s'.rets u)
    (hf : (s.pc t).writeHeld = false) : Tail s' c := by
  refine tail_keep h hw hs (by rw [hi]; exact fun _ _ => id) ?_
  intro u p hc
  by_cases hu : u = t
  · subst hu
    rcases hc with ⟨k, hc⟩ | hc | hc
    · rw [hc] at hf; simp [PC.writeHeld] at hf
    · rw [hc] at hf; simp [PC.writeHeld] at hf
    · exact .inr (.inr (hr _ _ hc))
  · unfold Cut
    rw [ho u hu]
    rcases hc with hc | hc | hc
    · exact .inl hc
    · exact .inr (.inl hc)
    · exact .inr (.inr (hr _ _ hc))

theorem tail_run {m : Mode} {t : Tid} {s s' : St} (i : Inv m s) (r : Run m t s s')
    (h : ∀ c, Tail s c) (c : Nat) : Tail s' c := by
  cases r with
  | enter hp hc =>
    next op =>
    obtain ⟨h1, h2, h3, h4, h5, -⟩ := enter_frame m s t op
    exact tail_free (h c) (by rw [h1]) (by rw [h2]) h3 h4 h5 (by rw [hp]; rfl)
  | fetch hp =>
    split <;> refine tail_free (t := t) (h c) rfl rfl rfl ?_ ?_ (by rw [hp]; rfl) <;>
      simp only [St.ret] <;> grind
  | readOk hp hs =>
    refine tail_free (t := t) (h c) rfl rfl rfl ?_ ?_ (by rw [hp]; rfl) <;>
      simp only [St.ret] <;> grind
  | readFail hp =>
    split <;> refine tail_free (t := t) (h c) rfl rfl rfl ?_ ?_ (by rw [hp]; rfl) <;>
      simp only [St.ret] <;> grind
  | readErr hp hs =>
    refine tail_free (t := t) (h c) rfl rfl rfl ?_ ?_ (by rw [hp]; rfl) <;>
      simp only [St.ret] <;> grind
  | dialFail hp =>
    refine tail_free (t := t) (h c) rfl rfl rfl ?_ ?_ (by rw [hp]; rfl) <;>
      simp only [St.ret] <;> grind
  | lock hp hw =>
    split
    · refine tail_free (t := t) (h c) rfl rfl rfl ?_ ?_ (by rw [hp]; rfl) <;>
        simp only [St.ret] <;> grind
    · refine tail_free (t := t) (h c) rfl rfl rfl ?_ ?_ (by rw [hp]; rfl) <;>
        simp only [St.ret] <;> grind
    · split <;> refine tail_free (t := t) (h c) rfl rfl rfl ?_ ?_ (by rw [hp]; rfl) <;>
        simp only [St.ret] <;> grind
  | put hk hp hs =>
    next d p k =>
    by_cases hd : c = d
    · subst hd
      refine ⟨p.take (k + 1), ?_, .inr ⟨t, p, ?_, List.take_prefix _ _, .inl ⟨k + 1, ?_⟩⟩⟩
      · simp only [upd_same]
        rw [i.wirePut t c p k hp, List.append_assoc, List.take_append_getElem hk]
      · obtain ⟨l, hl, -⟩ := i.pending t p (by rw [hp]; rfl)
        simp only [hl]; simp
      · simp only [upd_same]
    · refine tail_keep (h c) (by simp only [upd_other _ _ hd]) rfl (fun _ _ => id) ?_
      intro u q
      unfold Cut
      by_cases hu : u = t <;> grind
  | putFail hp hk =>
    next d p k =>
    split <;> refine tail_keep (h c) rfl rfl (fun _ _ => id) ?_ <;> intro u q <;> unfold Cut <;>
      simp only [St.ret] <;> by_cases hu : u = t <;> grind
  | putOk hp =>
    next d p =>
    by_cases hd : d = c
    · subst hd
      refine ⟨[], ?_, .inl rfl⟩
      simp only [St.ret]
      rw [on_snoc, i.wirePut t d p _ hp]
      simp
    · refine tail_keep (h c) rfl (by simp only [on_snoc, hd, if_false]) (fun _ _ => id) ?_
      intro u q
      unfold Cut
      simp only [St.ret]
      by_cases hu : u = t <;> grind
  | writeErr hp hc =>
    next p =>
    refine tail_keep (h c) rfl rfl (fun _ _ => id) ?_
    intro u q
    unfold Cut
    simp only [St.ret]
    by_cases hu : u = t <;> grind
  | close hp hw =>
    refine tail_free (t := t) (h c) ?_ ?_ ?_ ?_ ?_ (by rw [hp]; rfl) <;>
      simp only [St.drop] <;> split <;> simp only [St.ret] <;> grind
  | clean hp hw =>
    refine tail_free (t := t) (h c) ?_ ?_ ?_ ?_ ?_ (by rw [hp]; rfl) <;>
      (try simp only [St.drop]) <;> (try split) <;> grind
  | dialOk hp hc =>
    split <;> refine tail_free (t := t) (h c) rfl rfl rfl ?_ ?_ (by rw [hp]; rfl) <;>
      simp only [St.ret] <;> grind
  | set hp hw =>
    refine tail_free (t := t) (h c) rfl rfl rfl ?_ ?_ (by rw [hp]; rfl) <;>
      simp only [St.ret] <;> grind

theorem tail_reach {m : Mode} {s : St} (h : Reach m s) (c : Nat) : Tail s c := by
  have key : ∀ a b, Steps m a b → Reach m a → (∀ c, Tail a c) → Reach m b ∧ ∀ c, Tail b c := by
    intro a b hab ha ht
    induction hab with
    | refl => exact ⟨ha, ht⟩
    | tail _ st ih =>
      obtain ⟨hr, hb⟩ := ih
      refine ⟨.tail hr st, ?_⟩
      cases st with
      | run r => exact tail_run (inv_reach hr) r hb
      | call hp =>
        next t op =>
        intro c
        refine tail_keep (hb c) rfl rfl ?_ ?_
        · intro u q hq
          cases op <;> simp only <;> grind
        · intro u q
          unfold Cut
          dsimp only
          by_cases hu : u = t <;> grind
  exact (key _ _ h (.refl _) (fun c => ⟨[], by simp [St.init, on], .inl rfl⟩)).2 c

/-! ## Nothing is taken back -/

theorem prefix_upd {α : Type} (f : Nat → List α) (c : Nat) (l : List α) (d : Nat) :
    f d <+: upd f c (f c ++ l) d := by
  by_cases h : d = c
  · subst h; rw [upd_same]; exact List.prefix_append _ _
  · rw [upd_other _ _ h]; exact List.prefix_refl _

/-- Histories only grow. -/
def Grows (s s' : St) : Prop :=
  (∀ c, s.wire c <+: s'.wire c) ∧ s.sent <+: s'.sent ∧ (∀ u, s.rets u <+: s'.rets u)

theorem grows_same {s s' : St} (h1 : s'.wire = s.wire) (h2 : s'.sent = s.sent)
    (h3 : s'.rets = s.rets) : Grows s s' := by
  unfold Grows
  rw [h1, h2, h3]
  exact ⟨fun _ => List.prefix_refl _, List.prefix_refl _, fun _ => List.prefix_refl _⟩

theorem grows_ret {s s' : St} {t op r} (h1 : s'.wire = s.wire) (h2 : s'.sent = s.sent)
    (h3 : s'.rets = upd s.rets t (s.rets t ++ [(op, r)])) : Grows s s' := by
  unfold Grows
  rw [h1, h2, h3]
  exact ⟨fun _ => List.prefix_refl _, List.prefix_refl _, fun u => prefix_upd _ _ _ u⟩

theorem drop_frame (s : St) : s.drop.wire = s.wire ∧ s.drop.sent = s.sent ∧
    s.drop.rets = s.rets ∧ s.drop.pc = s.pc ∧ s.drop.connMu = s.connMu ∧
    s.drop.writeMu = s.writeMu := by
  unfold St.drop
  split <;> simp

theorem run_mono {m : Mode} {t : Tid} {s s' : St} (r : Run m t s s') : Grows s s' := by
  cases r with
  | enter hp hc =>
    next op =>
    cases op <;> simp only [St.enter] <;> repeat' split
    all_goals first | exact grows_same rfl rfl rfl | exact grows_ret rfl rfl rfl
  | fetch hp => split <;> first | exact grows_same rfl rfl rfl | exact grows_ret rfl rfl rfl
  | readOk hp hs => exact grows_ret rfl rfl rfl
  | readFail hp => split <;> first | exact grows_same rfl rfl rfl | exact grows_ret rfl rfl rfl
  | readErr hp hs => exact grows_ret rfl rfl rfl
  | dialFail hp => exact grows_ret rfl rfl rfl
  | lock hp hw =>
    repeat' split
    all_goals first | exact grows_same rfl rfl rfl | exact grows_ret rfl rfl rfl
  | put hk hp hs =>
    exact ⟨fun d => prefix_upd _ _ _ d, List.prefix_refl _, fun _ => List.prefix_refl _⟩
  | putFail hp hk => split <;> first | exact grows_same rfl rfl rfl | exact grows_ret rfl rfl rfl
  | putOk hp =>
    exact ⟨fun _ => List.prefix_refl _, List.prefix_append _ _, fun u => prefix_upd _ _ _ u⟩
  | writeErr hp hc => exact grows_ret rfl rfl rfl
  | close hp hw =>
    obtain ⟨h1, h2, h3, -⟩ := drop_frame s
    exact grows_ret (t := t) (op := .close) (r := .ok) h1 h2 (by simp only [St.ret, h3])
  | clean hp hw =>
    obtain ⟨h1, h2, h3, -⟩ := drop_frame s
    exact grows_same h1 h2 h3
  | dialOk hp hc => split <;> first | exact grows_same rfl rfl rfl | exact grows_ret rfl rfl rfl
  | set hp hw => exact grows_ret rfl rfl rfl

theorem step_mono {m : Mode} {s s' : St} (st : Step m s s') : Grows s s' := by
  cases st with
  | call hp => exact grows_same rfl rfl rfl
  | run r => exact run_mono r

theorem steps_mono {m : Mode} {s s' : St} (h : Steps m s s') : Grows s s' := by
  induction h with
  | refl => exact grows_same rfl rfl rfl
  | tail _ st ih =>
    obtain ⟨a1, a2, a3⟩ := ih
    obtain ⟨b1, b2, b3⟩ := step_mono st
    exact ⟨fun c => (a1 c).trans (b1 c), a2.trans b2, fun u => (a3 u).trans (b3 u)⟩

/-! ## Progress -/

/-- How many more steps a goroutine can take inside its call. -/
def rank : PC → Nat
  | .idle => 0
  | .call .read => 4
  | .call (.write p) => 4 + p.length
  | .call .close => 2
  | .call .connect => 4
  | .call .query => 1
  | .rGet => 3
  | .rRead _ => 2
  | .rErr => 1
  | .wWant p => 3 + p.length
  | .wPut _ p k => 2 + (p.length - k)
  | .wErr _ => 1
  | .cWait => 1
  | .kWait => 3
  | .kDial => 2
  | .kSet => 1

attribute [grind] rank

theorem run_rank {m : Mode} {t : Tid} {s s' : St} (r : Run m t s s') :
    rank (s'.pc t) < rank (s.pc t) ∧ ∀ u, u ≠ t → s'.pc u = s.pc u := by
  cases r with
  | enter hp hc =>
    next op =>
    cases op <;> simp only [St.enter] <;> repeat' split
    all_goals simp only [St.ret, hp, upd_same]
    all_goals grind
  | fetch hp => split <;> simp only [St.ret, hp, upd_same] <;> grind
  | readOk hp hs => simp only [St.ret, hp, upd_same]; grind
  | readFail hp => split <;> simp only [St.ret, hp, upd_same] <;> grind
  | readErr hp hs => simp only [St.ret, hp, upd_same]; grind
  | dialFail hp => simp only [St.ret, hp, upd_same]; grind
  | lock hp hw =>
    repeat' split
    all_goals simp only [St.ret, hp, upd_same]
    all_goals grind
  | put hk hp hs => simp only [hp, upd_same]; grind
  | putFail hp hk => split <;> simp only [St.ret, hp, upd_same] <;> grind
  | putOk hp => simp only [St.ret, hp, upd_same]; grind
  | writeErr hp hc => simp only [St.ret, hp, upd_same]; grind
  | close hp hw =>
    obtain ⟨-, -, -, h4, -⟩ := drop_frame s
    simp only [St.ret, h4, hp, upd_same]; grind
  | clean hp hw => simp only [hp, upd_same]; grind
  | dialOk hp hc => split <;> simp only [St.ret, hp, upd_same] <;> grind
  | set hp hw => simp only [St.ret, hp, upd_same]; grind

theorem progress {m : Mode} {s : St} (i : Inv m s) {t : Tid} (hb : Busy s t)
    (hd : ¬ Deadlock s) : ∃ u s', Run m u s s' := by
  -- the goroutine in the writer can always go on or fail
  have net : ∀ u c p k, s.pc u = .wPut c p k → ∃ s', Run m u s s' := by
    intro u c p k hu
    have hk := (i.put u c p k hu).2
    by_cases h : k < p.length
    · exact ⟨_, .putFail hu h⟩
    · have : k = p.length := by omega
      subst this
      exact ⟨_, .putOk hu⟩
  -- who holds the lock of the writer
  have wr : ∀ u, s.writeMu = some u → (∃ c p k, s.pc u = .wPut c p k) ∨ ∃ p, s.pc u = .wErr p := by
    intro u hu
    have := (i.writeMu u).2 hu
    cases h : s.pc u <;> simp_all [PC.writeHeld]
  have cn : ∀ u, s.connMu = some u → s.pc u = .cWait ∨ s.pc u = .kWait ∨ s.pc u = .kSet := by
    intro u hu
    have := (i.connMu u).2 hu
    cases h : s.pc u <;> simp_all [PC.connHeld]
  cases hw : s.writeMu with
  | some v =>
    rcases wr v hw with ⟨c, p, k, hv⟩ | ⟨p, hv⟩
    · obtain ⟨s', h⟩ := net v c p k hv; exact ⟨v, s', h⟩
    · cases hc : s.connMu with
      | some u => exact absurd ⟨v, u, p, hv, cn u hc⟩ hd
      | none => exact ⟨v, _, .writeErr hv hc⟩
  | none =>
    cases hc : s.connMu with
    | some u =>
      rcases cn u hc with hu | hu | hu
      · exact ⟨u, _, .close hu hw⟩
      · exact ⟨u, _, .clean hu hw⟩
      · exact ⟨u, _, .set hu hw⟩
    | none =>
      refine ⟨t, ?_⟩
      cases h : s.pc t with
      | idle => exact absurd h hb
      | call op => exact ⟨_, .enter h hc⟩
      | rGet => exact ⟨_, .fetch h⟩
      | rRead c => exact ⟨_, .readFail h⟩
      | rErr => exact ⟨_, .readErr h hc⟩
      | wWant p => exact ⟨_, .lock h hw⟩
      | wPut c p k => exact net t c p k h
      | wErr p => exact ⟨_, .writeErr h hc⟩
      | cWait => exact ⟨_, .close h hw⟩
      | kWait => exact ⟨_, .clean h hw⟩
      | kDial => exact ⟨_, .dialFail h⟩
      | kSet => exact ⟨_, .set h hw⟩

/-- `n` steps, no new call among them. -/
inductive Runs (m : Mode) : Nat → St → St → Prop
  | refl (s) : Runs m 0 s s
  | tail {n a b c t} : Runs m n a b → Run m t b c → Runs m (n + 1) a c

/-- The work left in the calls of the goroutines `l`. -/
def work (l : List Tid) (s : St) : Nat := (l.map fun t => rank (s.pc t)).sum

theorem work_run {m : Mode} {t : Tid} {s s' : St} {l : List Tid} (hl : l.Nodup)
    (hi : ∀ u, u ∉ l → s.pc u = .idle) (r : Run m t s s') :
    work l s' < work l s ∧ ∀ u, u ∉ l → s'.pc u = .idle := by
  obtain ⟨h1, h2⟩ := run_rank r
  have ht : t ∈ l := by
    apply Classical.byContradiction
    intro hn
    rw [hi t hn] at h1
    simp [rank] at h1
  refine ⟨?_, ?_⟩
  · clear hi
    unfold work
    have same : ∀ l : List Tid, t ∉ l →
        (l.map fun u => rank (s'.pc u)).sum = (l.map fun u => rank (s.pc u)).sum := by
      intro l hn
      congr 1
      apply List.map_congr_left
      intro u hu
      rw [h2 u (fun e => hn (e ▸ hu))]
    induction l with
    | nil => simp at ht
    | cons x l ih =>
      rw [List.nodup_cons] at hl
      simp only [List.map_cons, List.sum_cons]
      by_cases hx : x = t
      · subst hx
        rw [same l hl.1]; omega
      · have := ih hl.2 (by simpa [Ne.symm hx] using ht)
        rw [h2 x hx]; omega
  · intro u hu
    rw [h2 u (fun e => hu (e ▸ ht))]; exact hi u hu

theorem runs_work {m : Mode} {n : Nat} {s s' : St} {l : List Tid} (hl : l.Nodup)
    (hi : ∀ u, u ∉ l → s.pc u = .idle) (r : Runs m n s s') :
    n + work l s' ≤ work l s ∧ ∀ u, u ∉ l → s'.pc u = .idle := by
  induction r with
  | refl => exact ⟨by omega, hi⟩
  | tail _ st ih =>
    obtain ⟨h1, h2⟩ := ih hi
    obtain ⟨h3, h4⟩ := work_run hl h2 st
    exact ⟨by omega, h4⟩

theorem runs_inv {m : Mode} {n : Nat} {s s' : St} (i : Inv m s) (r : Runs m n s s') : Inv m s' := by
  induction r with
  | refl => exact i
  | tail _ st ih => exact inv_run (ih i) st

/-! ## A deadlock stays -/

theorem stuck_step {m : Mode} {s s' : St} (i : Inv m s) {a b : Tid} {p : Bytes} {q : PC}
    (ha : s.pc a = .wErr p) (hb : s.pc b = q) (hq : q.connHeld = true) (st : Step m s s') :
    s'.pc a = .wErr p ∧ s'.pc b = q ∧ ∀ t op, s.pc t = .call op → s'.pc t = .call op := by
  have hw : s.writeMu = some a := (i.writeMu a).1 (by rw [ha]; rfl)
  have hc : s.connMu = some b := (i.connMu b).1 (by rw [hb]; exact hq)
  cases st with
  | call h => dsimp only; grind
  | run r =>
    next t =>
    have key : ∀ u, u ≠ t → s'.pc u = s.pc u := (run_rank r).2
    have hta : t ≠ a := by
      rintro rfl
      cases r <;> simp_all
    have htb : t ≠ b := by
      rintro rfl
      cases r <;> simp_all [PC.connHeld] <;> grind
    refine ⟨by rw [key a (Ne.symm hta), ha], by rw [key b (Ne.symm htb), hb], ?_⟩
    intro u op hu
    by_cases h : u = t
    · subst h
      cases r <;> simp_all
    · rw [key u h, hu]

end Claw.Transport
