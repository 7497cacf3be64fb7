import Verif.Model.HttpClient

/-!
# Invariants of the HTTP client transport
-/

namespace Claw.HttpClient

open Claw.Transport (upd Tid)

attribute [local grind] upd

theorem mark_true (f : Nat → Bool) (o : Option Nat) (g : Nat) :
    mark f o g = true ↔ f g = true ∨ o = some g := by
  cases o with
  | none => simp [mark]
  | some i => by_cases h : g = i <;> simp [mark, upd, h]; exact fun e => absurd e.symm h

/-- What the successful writes put into pipe `g`. -/
def flat (g : Nat) (l : List (Nat × Bytes)) : Bytes := (l.filter fun x => x.1 == g).flatMap (·.2)

theorem flat_snoc (g d : Nat) (p : Bytes) (l) :
    flat g (l ++ [(d, p)]) = if d = g then flat g l ++ p else flat g l := by
  by_cases h : d = g <;> simp [flat, h]

structure Inv (s : St) : Prop where
  cancelLt : ∀ g, s.cancel = some g → g < s.gens
  pipeLt : ∀ g, s.pipe = some g → g < s.gens
  ctxLt : ∀ g, s.ctx = some g → g < s.gens
  respLt : ∀ r, s.resp = some r → r < s.reqs
  doneOld : ∀ g, g < s.gens → s.cancel ≠ some g → s.done g = true
  doneWhy : ∀ g, g < s.gens → s.done g = true → s.ended (s.parent g) = true ∨ s.cancel ≠ some g
  shutOld : ∀ g, g < s.gens → s.pipe ≠ some g → s.shut g = true
  closed : s.closed = true → s.cancel = none ∧ s.pipe = none
  reqCtxLt : ∀ r, r < s.reqs → s.reqCtx r < s.gens
  reqBodyLt : ∀ r g, r < s.reqs → s.reqBody r = some g → g < s.gens
  freshGen : ∀ g, s.gens ≤ g → s.piped g = [] ∧ s.writer g = none ∧ flat g s.sent = []
  freshReq : ∀ r, s.reqs ≤ r → s.carried r = []
  want : ∀ t g p, s.pc t = .wWant g p → g < s.gens ∧ p ∈ s.issued
  put : ∀ t g p k, s.pc t = .wPut g p k → s.writer g = some t ∧ k ≤ p.length ∧ g < s.gens ∧
    p ∈ s.issued
  held : ∀ t g, s.writer g = some t → ∃ p k, s.pc t = .wPut g p k
  wPut : ∀ t g p k, s.pc t = .wPut g p k →
    s.piped g = flat g s.sent ++ p.take k ∨ (s.shut g = true ∧ k = 0)
  free : ∀ g, s.writer g = none → s.shut g = false → s.piped g = flat g s.sent
  any : ∀ g, ∃ tail, s.piped g = flat g s.sent ++ tail ∧
    (tail = [] ∨ ∃ p, p ∈ s.issued ∧ tail <+: p)
  sub : ∀ r g, r < s.reqs → s.reqBody r = some g → (s.carried r).Sublist (s.piped g)
  pcReq : ∀ t, (∀ c r, s.pc t = .kSel c r → r < s.reqs) ∧
    (∀ c r g, s.pc t = .kWait c r g → r < s.reqs ∧ g < s.gens) ∧
    (∀ c r, s.pc t = .kSet c r → r < s.reqs)

theorem inv_init (c : Nat) : Inv (St.init c) := by
  constructor <;> simp [St.init, flat] <;> grind

/-- A goroutine that is not writing goes on to a place where it does not write. -/
def PC.plain : PC → Bool
  | .wWant _ _ | .wPut _ _ _ => false
  | _ => true

def PC.okReq (q : PC) (reqs gens : Nat) : Prop :=
  (∀ c r, q = .kSel c r → r < reqs) ∧ (∀ c r g, q = .kWait c r g → r < reqs ∧ g < gens) ∧
    (∀ c r, q = .kSet c r → r < reqs)

theorem Inv.move {s : St} (h : Inv s) (t : Tid) (q : PC) (ho : ∀ g p k, s.pc t ≠ .wPut g p k)
    (hq : q.plain = true) (hr : q.okReq s.reqs s.gens) (connected connErr handed : Bool)
    (resp : Option Nat) (hresp : ∀ r, resp = some r → r < s.reqs) (respShut : Nat → Bool)
    (rets : Tid → List (Op × Ret)) (now : Nat) :
    Inv { s with pc := upd s.pc t q, connected, connErr, handed, resp, respShut, rets, now } := by
  obtain ⟨h1, h2, h3, h4, h5, h6, h7, h8, h9, h10, h11, h12, h13, h14, h15, h16, h17, h18, h19, h20⟩ := h
  refine ⟨h1, h2, h3, hresp, h5, h6, h7, h8, h9, h10, h11, h12, ?_, ?_, ?_, ?_, h17, h18, h19, ?_⟩
  · intro u g p hu
    by_cases e : u = t
    · subst e; simp [upd] at hu; subst hu; simp [PC.plain] at hq
    · exact h13 u g p (by simpa [upd, e] using hu)
  · intro u g p k hu
    by_cases e : u = t
    · subst e; simp [upd] at hu; subst hu; simp [PC.plain] at hq
    · exact h14 u g p k (by simpa [upd, e] using hu)
  · intro u g hu
    obtain ⟨p, k, hp⟩ := h15 u g hu
    have e : u ≠ t := by rintro rfl; exact ho _ _ _ hp
    exact ⟨p, k, by simpa [upd, e] using hp⟩
  · intro u g p k hu
    by_cases e : u = t
    · subst e; simp [upd] at hu; subst hu; simp [PC.plain] at hq
    · exact h16 u g p k (by simpa [upd, e] using hu)
  · intro u
    by_cases e : u = t
    · subst e; simpa [upd, PC.okReq] using hr
    · simpa [upd, e] using h20 u

theorem Inv.cleanup {s : St} (h : Inv s) : Inv s.cleanup := by
  obtain ⟨h1, h2, h3, h4, h5, h6, h7, h8, h9, h10, h11, h12, h13, h14, h15, h16, h17, h18, h19, h20⟩ := h
  have hshut : ∀ g, mark s.shut s.pipe g = false → s.shut g = false := by
    intro g hg
    cases e : s.shut g with
    | false => rfl
    | true => rw [(mark_true _ _ _).2 (.inl e)] at hg; cases hg
  have hshut' : ∀ g, s.shut g = true → mark s.shut s.pipe g = true := fun g e =>
    (mark_true _ _ _).2 (.inl e)
  refine ⟨by simp [St.cleanup], by simp [St.cleanup], h3, by simp [St.cleanup], ?_, ?_, ?_,
    by simp [St.cleanup], h9, h10, h11, h12, h13, h14, h15, ?_, ?_, h18, h19, h20⟩
  · intro g hg _
    simp only [St.cleanup, mark_true]
    exact (Classical.em (s.cancel = some g)).elim .inr fun e => .inl (h5 g hg e)
  · intro g hg _; right; simp [St.cleanup]
  · intro g hg _
    simp only [St.cleanup, mark_true]
    exact (Classical.em (s.pipe = some g)).elim .inr fun e => .inl (h7 g hg e)
  · intro t g p k ht
    rcases h16 t g p k ht with h | h
    · exact .inl h
    · exact .inr ⟨hshut' g h.1, h.2⟩
  · intro g hw hs; exact h17 g hw (hshut g hs)

theorem Inv.close {s : St} (h : Inv s) : Inv { s.cleanup with closed := true } := by
  have h := h.cleanup
  exact { h with closed := by simp [St.cleanup] }

theorem Inv.newGen {s : St} (h : Inv s.cleanup) (c : Nat) (hc : s.closed = false) :
    Inv (s.cleanup.newGen c) := by
  have e1 : s.cleanup.cancel = none := rfl
  have e2 : s.cleanup.pipe = none := rfl
  have e3 : s.cleanup.closed = false := hc
  generalize s.cleanup = s at *
  obtain ⟨h1, h2, h3, h4, h5, h6, h7, h8, h9, h10, h11, h12, h13, h14, h15, h16, h17, h18, h19, h20⟩ := h
  refine ⟨?_, ?_, ?_, h4, ?_, ?_, ?_, ?_, ?_, ?_, ?_, h12, ?_, ?_, h15, h16, h17, h18, h19, ?_⟩
  all_goals simp only [St.newGen]
  · simp
  · simp
  · simp
  · grind
  · grind
  · grind
  · grind
  · grind
  · grind
  · grind
  · grind
  · grind
  · intro t; have := h20 t; grind

theorem Inv.request {s : St} (h : Inv s) (t : Tid) (c g : Nat) (hpc : s.pc t = .kReq c)
    (hg : s.ctx = some g) : Inv (s.request t c g) := by
  obtain ⟨h1, h2, h3, h4, h5, h6, h7, h8, h9, h10, h11, h12, h13, h14, h15, h16, h17, h18, h19, h20⟩ := h
  refine ⟨h1, h2, h3, ?_, h5, h6, h7, h8, ?_, ?_, h11, ?_, ?_, ?_, ?_, ?_, h17, h18, ?_, ?_⟩
  all_goals simp only [St.request]
  · grind
  · grind
  · grind
  · grind
  · grind
  · grind
  · intro u g hu; obtain ⟨p, k, hp⟩ := h15 u g hu; exact ⟨p, k, by grind⟩
  · intro u g' q k hu
    by_cases e : u = t
    · subst e; simp [upd] at hu
    · exact h16 u g' q k (by simpa [upd, e] using hu)
  · intro r g hr hb
    by_cases e : r = s.reqs
    · subst e; rw [h12 _ (Nat.le_refl _)]; exact List.nil_sublist _
    · exact h19 r g (by omega) (by simpa [upd, e] using hb)
  · intro u; have := h20 u; grind

theorem Inv.want' {s : St} (h : Inv s) (t : Tid) (g : Nat) (p : Bytes)
    (ho : ∀ g p k, s.pc t ≠ .wPut g p k) (hg : s.pipe = some g) :
    Inv { s with issued := p :: s.issued, pc := upd s.pc t (.wWant g p) } := by
  have hl := h.pipeLt g hg
  obtain ⟨h1, h2, h3, h4, h5, h6, h7, h8, h9, h10, h11, h12, h13, h14, h15, h16, h17, h18, h19, h20⟩ := h
  refine ⟨h1, h2, h3, h4, h5, h6, h7, h8, h9, h10, h11, h12, ?_, ?_, ?_, ?_, h17, ?_, h19, ?_⟩
  · grind
  · grind
  · intro u g hu; obtain ⟨p, k, hp⟩ := h15 u g hu; exact ⟨p, k, by grind⟩
  · intro u g' q k hu
    by_cases e : u = t
    · subst e; simp [upd] at hu
    · exact h16 u g' q k (by simpa [upd, e] using hu)
  · intro g'
    obtain ⟨tail, e, h⟩ := h18 g'
    exact ⟨tail, e, h.imp_right fun ⟨q, hq, hp⟩ => ⟨q, List.mem_cons_of_mem _ hq, hp⟩⟩
  · intro u; have := h20 u; grind

theorem Inv.lock {s : St} (h : Inv s) (t : Tid) (g : Nat) (p : Bytes) (hpc : s.pc t = .wWant g p)
    (hw : s.writer g = none) :
    Inv { s with writer := upd s.writer g (some t), pc := upd s.pc t (.wPut g p 0) } := by
  obtain ⟨hl, hi⟩ := h.want t g p hpc
  obtain ⟨h1, h2, h3, h4, h5, h6, h7, h8, h9, h10, h11, h12, h13, h14, h15, h16, h17, h18, h19, h20⟩ := h
  refine ⟨h1, h2, h3, h4, h5, h6, h7, h8, h9, h10, ?_, h12, ?_, ?_, ?_, ?_, ?_, h18, h19, ?_⟩
  · grind
  · grind
  · grind
  · intro u g' hu
    by_cases e : g' = g
    · subst e; simp [upd] at hu; subst hu; exact ⟨p, 0, by simp [upd]⟩
    · obtain ⟨q, k, hq⟩ := h15 u g' (by simpa [upd, e] using hu)
      have : u ≠ t := by rintro rfl; rw [hpc] at hq; cases hq
      exact ⟨q, k, by simpa [upd, this] using hq⟩
  · intro u g' q k hu
    by_cases e : u = t
    · subst e; simp [upd] at hu; obtain ⟨rfl, rfl, rfl⟩ := hu
      cases es : s.shut g with
      | false => left; simpa using h17 g hw es
      | true => right; exact ⟨by first | exact es | rfl, rfl⟩
    · exact h16 u g' q k (by simpa [upd, e] using hu)
  · grind
  · intro u; have := h20 u; grind

theorem Inv.take {s : St} (h : Inv s) (t : Tid) (g : Nat) (p : Bytes) (k r : Nat) (hk : k < p.length)
    (hpc : s.pc t = .wPut g p k) (hs : s.shut g = false) (hr : r < s.reqs)
    (hb : s.reqBody r = some g) :
    Inv { s with carried := upd s.carried r (s.carried r ++ [p[k]])
                 piped := upd s.piped g (s.piped g ++ [p[k]])
                 pc := upd s.pc t (.wPut g p (k + 1)) } := by
  obtain ⟨hw, hle, hl, hi⟩ := h.put t g p k hpc
  have hp : s.piped g = flat g s.sent ++ p.take k := by
    rcases h.wPut t g p k hpc with e | e
    · exact e
    · rw [hs] at e; exact absurd e.1 (by decide)
  have hp' : s.piped g ++ [p[k]] = flat g s.sent ++ p.take (k + 1) := by
    rw [hp, List.append_assoc, List.take_add_one]; simp [hk]
  obtain ⟨h1, h2, h3, h4, h5, h6, h7, h8, h9, h10, h11, h12, h13, h14, h15, h16, h17, h18, h19, h20⟩ := h
  refine ⟨h1, h2, h3, h4, h5, h6, h7, h8, h9, h10, ?_, ?_, ?_, ?_, ?_, ?_, ?_, ?_, ?_, ?_⟩
  · intro g' hg'
    have : g' ≠ g := by have : s.gens ≤ g' := hg'; omega
    simpa [upd, this] using h11 g' hg'
  · grind
  · intro u g' p' hu
    by_cases e : u = t
    · subst e; simp [upd] at hu
    · exact h13 u g' p' (by simpa [upd, e] using hu)
  · grind
  · intro u g' hu
    obtain ⟨q, j, hq⟩ := h15 u g' hu
    by_cases e : u = t
    · subst e; rw [hpc] at hq; cases hq; exact ⟨p, k + 1, by simp [upd]⟩
    · exact ⟨q, j, by simpa [upd, e] using hq⟩
  · intro u g' q j hu
    by_cases e : u = t
    · subst e; simp [upd] at hu; obtain ⟨rfl, rfl, rfl⟩ := hu
      left; simpa [upd] using hp'
    · have hu' : s.pc u = .wPut g' q j := by simpa [upd, e] using hu
      have : g' ≠ g := by
        rintro rfl; have := (h14 u g' q j hu').1; rw [hw] at this; exact e (Option.some.inj this).symm
      simpa [upd, this] using h16 u g' q j hu'
  · intro g' hg' hs'
    have : g' ≠ g := by rintro rfl; rw [hw] at hg'; cases hg'
    simpa [upd, this] using h17 g' hg' hs'
  · intro g'
    by_cases e : g' = g
    · subst e
      exact ⟨p.take (k + 1), by simpa [upd] using hp', .inr ⟨p, hi, List.take_prefix _ _⟩⟩
    · simpa [upd, e] using h18 g'
  · intro r' g' hr' hb'
    by_cases e : r' = r
    · subst e; rw [hb] at hb'; cases hb'
      simpa [upd] using h19 r' g hr hb
    · by_cases e' : g' = g
      · subst e'
        simpa [upd, e] using (h19 r' g' hr' hb').trans (List.sublist_append_left _ _)
      · simpa [upd, e, e'] using h19 r' g' hr' hb'
  · intro u; have := h20 u; clear h1 h2 h3 h4 h5 h6 h7 h8 h9 h10 h11 h12 h13 h14 h15 h16 h17 h18 h19 h20; grind

theorem Inv.release {s : St} (h : Inv s) (t : Tid) (g : Nat) (p : Bytes) (k : Nat) (q : PC)
    (hpc : s.pc t = .wPut g p k) (hq : q.plain = true) (hr : q.okReq s.reqs s.gens)
    (hend : s.shut g = true ∨ s.piped g = flat g s.sent) :
    Inv { s with writer := upd s.writer g none, pc := upd s.pc t q } := by
  obtain ⟨hw, hle, hl, hi⟩ := h.put t g p k hpc
  obtain ⟨h1, h2, h3, h4, h5, h6, h7, h8, h9, h10, h11, h12, h13, h14, h15, h16, h17, h18, h19, h20⟩ := h
  refine ⟨h1, h2, h3, h4, h5, h6, h7, h8, h9, h10, ?_, h12, ?_, ?_, ?_, ?_, ?_, h18, h19, ?_⟩
  · grind
  · intro u g' p' hu
    by_cases e : u = t
    · subst e; simp [upd] at hu; subst hu; simp [PC.plain] at hq
    · exact h13 u g' p' (by simpa [upd, e] using hu)
  · intro u g' p' k' hu
    by_cases e : u = t
    · subst e; simp [upd] at hu; subst hu; simp [PC.plain] at hq
    · have hu' : s.pc u = .wPut g' p' k' := by simpa [upd, e] using hu
      have : g' ≠ g := by
        rintro rfl; have := (h14 u g' p' k' hu').1; rw [hw] at this; exact e (Option.some.inj this).symm
      simpa [upd, this] using h14 u g' p' k' hu'
  · intro u g' hu
    by_cases e : g' = g
    · subst e; simp [upd] at hu
    · obtain ⟨p', k', hp'⟩ := h15 u g' (by simpa [upd, e] using hu)
      have : u ≠ t := by rintro rfl; rw [hpc] at hp'; cases hp'; exact e rfl
      exact ⟨p', k', by simpa [upd, this] using hp'⟩
  · intro u g' p' k' hu
    by_cases e : u = t
    · subst e; simp [upd] at hu; subst hu; simp [PC.plain] at hq
    · exact h16 u g' p' k' (by simpa [upd, e] using hu)
  · intro g' hg' hs'
    by_cases e : g' = g
    · subst e
      rcases hend with h | h
      · rw [hs'] at h; cases h
      · exact h
    · exact h17 g' (by simpa [upd, e] using hg') hs'
  · intro u
    by_cases e : u = t
    · subst e; simpa [upd, PC.okReq] using hr
    · simpa [upd, e] using h20 u

theorem Inv.sent {s : St} (h : Inv s) (t : Tid) (g : Nat) (p : Bytes)
    (hpc : s.pc t = .wPut g p p.length) :
    Inv { s with writer := upd s.writer g none, sent := s.sent ++ [(g, p)],
                 pc := upd s.pc t .idle } := by
  obtain ⟨hw, hle, hl, hi⟩ := h.put t g p _ hpc
  have hfl : ∀ g', g' ≠ g → flat g' (s.sent ++ [(g, p)]) = flat g' s.sent := fun g' e => by
    rw [flat_snoc, if_neg (Ne.symm e)]
  have hflg : flat g (s.sent ++ [(g, p)]) = flat g s.sent ++ p := by rw [flat_snoc, if_pos rfl]
  have hcase : s.piped g = flat g (s.sent ++ [(g, p)]) ∨ (s.shut g = true ∧ p = []) := by
    rcases h.wPut t g p _ hpc with e | e
    · left; rw [e, hflg, List.take_length]
    · exact .inr ⟨e.1, List.length_eq_zero_iff.1 e.2⟩
  obtain ⟨h1, h2, h3, h4, h5, h6, h7, h8, h9, h10, h11, h12, h13, h14, h15, h16, h17, h18, h19, h20⟩ := h
  refine ⟨h1, h2, h3, h4, h5, h6, h7, h8, h9, h10, ?_, h12, ?_, ?_, ?_, ?_, ?_, ?_, h19, ?_⟩
  · intro g' hg'
    have e : g' ≠ g := by have : s.gens ≤ g' := hg'; omega
    have := h11 g' hg'
    exact ⟨this.1, by simpa [upd, e] using this.2.1, by rw [hfl g' e]; exact this.2.2⟩
  · intro u g' p' hu
    by_cases e : u = t
    · subst e; simp [upd] at hu
    · exact h13 u g' p' (by simpa [upd, e] using hu)
  · intro u g' p' k' hu
    by_cases e : u = t
    · subst e; simp [upd] at hu
    · have hu' : s.pc u = .wPut g' p' k' := by simpa [upd, e] using hu
      have : g' ≠ g := by
        rintro rfl; have := (h14 u g' p' k' hu').1; rw [hw] at this; exact e (Option.some.inj this).symm
      simpa [upd, this] using h14 u g' p' k' hu'
  · intro u g' hu
    by_cases e : g' = g
    · subst e; simp [upd] at hu
    · obtain ⟨p', k', hp'⟩ := h15 u g' (by simpa [upd, e] using hu)
      have : u ≠ t := by rintro rfl; rw [hpc] at hp'; cases hp'; exact e rfl
      exact ⟨p', k', by simpa [upd, this] using hp'⟩
  · intro u g' p' k' hu
    by_cases e : u = t
    · subst e; simp [upd] at hu
    · have hu' : s.pc u = .wPut g' p' k' := by simpa [upd, e] using hu
      have : g' ≠ g := by
        rintro rfl; have := (h14 u g' p' k' hu').1; rw [hw] at this; exact e (Option.some.inj this).symm
      simp only [hfl g' this]
      exact h16 u g' p' k' hu'
  · intro g' hg' hs'
    by_cases e : g' = g
    · subst e
      rcases hcase with h | h
      · exact h
      · rw [show s.shut g' = false from hs'] at h; exact absurd h.1 (by decide)
    · simp only [hfl g' e]; exact h17 g' (by simpa [upd, e] using hg') hs'
  · intro g'
    by_cases e : g' = g
    · subst e
      rcases hcase with h | h
      · exact ⟨[], by simpa using h, .inl rfl⟩
      · obtain ⟨tail, e1, e2⟩ := h18 g'
        refine ⟨tail, ?_, e2⟩
        show s.piped g' = flat g' (s.sent ++ [(g', p)]) ++ tail
        rw [hflg, h.2, List.append_nil]; exact e1
    · simp only [hfl g' e]; exact h18 g'
  · intro u; have := h20 u; grind

/-- Changes that touch no goroutine. -/
theorem Inv.answer {s : St} (h : Inv s) (reqSt : Nat → ReqSt) (now : Nat) :
    Inv { s with reqSt, now } :=
  ⟨h.cancelLt, h.pipeLt, h.ctxLt, h.respLt, h.doneOld, h.doneWhy, h.shutOld, h.closed, h.reqCtxLt,
    h.reqBodyLt, h.freshGen, h.freshReq, h.want, h.put, h.held, h.wPut, h.free, h.any, h.sub, h.pcReq⟩

theorem Inv.over {s : St} (h : Inv s) (c : Nat) :
    Inv { s with ended := upd s.ended c true
                 done := fun g => s.done g || (decide (g < s.gens) && s.parent g == c) } := by
  refine ⟨h.cancelLt, h.pipeLt, h.ctxLt, h.respLt, ?_, ?_, h.shutOld, h.closed, h.reqCtxLt,
    h.reqBodyLt, h.freshGen, h.freshReq, h.want, h.put, h.held, h.wPut, h.free, h.any, h.sub, h.pcReq⟩
  · intro g hg hc; simp [h.doneOld g hg hc]
  · intro g hg hd
    simp only [Bool.or_eq_true, Bool.and_eq_true, decide_eq_true_eq, beq_iff_eq] at hd
    simp only [upd]
    rcases hd with hd | ⟨_, hd⟩
    · rcases h.doneWhy g hg hd with h | h
      · left; split <;> first | rfl | exact h
      · exact .inr h
    · left; rw [if_pos hd]

theorem okReq_plain {q : PC} (a b : Nat) (h1 : ∀ c r, q ≠ .kSel c r) (h2 : ∀ c r g, q ≠ .kWait c r g)
    (h3 : ∀ c r, q ≠ .kSet c r) : q.okReq a b :=
  ⟨fun c r e => absurd e (h1 c r), fun c r g e => absurd e (h2 c r g), fun c r e => absurd e (h3 c r)⟩

theorem Inv.enter {s : St} (h : Inv s) (t : Tid) (op : Op) (hpc : s.pc t = .call op) :
    Inv (s.enter t op) := by
  have ho : ∀ g p k, s.pc t ≠ .wPut g p k := by intro g p k e; rw [hpc] at e; cases e
  have hi : PC.idle.okReq s.reqs s.gens := okReq_plain _ _ (by simp) (by simp) (by simp)
  have hret : ∀ op r, Inv (s.ret t op r) := fun op r =>
    h.move t .idle ho rfl hi s.connected s.connErr s.handed s.resp h.respLt s.respShut _ s.now
  cases op with
  | read =>
    simp only [St.enter]
    split
    · exact hret _ _
    · split
      · exact hret _ _
      · split
        · exact hret _ _
        · exact h.move t _ ho rfl (okReq_plain _ _ (by simp) (by simp) (by simp)) s.connected s.connErr
            s.handed s.resp h.respLt s.respShut s.rets s.now
  | write p =>
    simp only [St.enter]
    split
    · exact hret _ _
    · split
      · exact hret _ _
      · split
        · exact hret _ _
        · rename_i g hg; exact h.want' t g p ho hg
  | close =>
    simp only [St.enter]
    split
    · exact hret _ _
    · have h' := h.close
      exact h'.move t .idle ho rfl hi false s.connErr s.handed none (by simp) _ _ s.now
  | connect c =>
    simp only [St.enter]
    split
    · exact hret _ _
    · rename_i hc
      have h' := Inv.newGen h.cleanup c (by simpa using hc)
      exact h'.move t (.kReq c) ho rfl (okReq_plain _ _ (by simp) (by simp) (by simp)) _ s.connErr
        s.handed _ h'.respLt _ s.rets s.now
  | query => exact hret _ _

theorem Inv.run {s s' : St} (h : Inv s) (t : Tid) (hr : Run t s s') : Inv s' := by
  cases hr with
  | enter hpc => exact h.enter t _ hpc
  | request hpc hg => exact h.request t _ _ hpc hg
  | @select c r g hpc hg =>
    refine h.move t _ (by simp [hpc]) rfl ⟨by simp, ?_, by simp⟩ s.connected s.connErr s.handed s.resp h.respLt
      s.respShut s.rets s.now
    intro c' r' g' e; cases e
    exact ⟨(h.pcReq t).1 c r hpc, h.ctxLt g hg⟩
  | ctxDone hpc _ =>
    exact h.move t _ (by simp [hpc]) rfl (okReq_plain _ _ (by simp) (by simp) (by simp)) s.connected s.connErr
      s.handed s.resp h.respLt s.respShut s.rets s.now
  | cleanDone hpc =>
    exact h.cleanup.move t _ (by intro g p k e; rw [show s.cleanup.pc t = _ from hpc] at e; cases e) rfl (okReq_plain _ _ (by simp) (by simp) (by simp)) _ s.connErr
      s.handed none (by simp) _ s.rets s.now
  | retDone hpc hg =>
    exact h.move t _ (by simp [hpc]) rfl (okReq_plain _ _ (by simp) (by simp) (by simp)) s.connected s.connErr
      s.handed s.resp h.respLt s.respShut _ s.now
  | reqFailed hpc _ =>
    exact h.move t _ (by simp [hpc]) rfl (okReq_plain _ _ (by simp) (by simp) (by simp)) s.connected s.connErr
      s.handed s.resp h.respLt s.respShut s.rets s.now
  | reqRefused hpc _ =>
    exact h.move t _ (by simp [hpc]) rfl (okReq_plain _ _ (by simp) (by simp) (by simp)) s.connected s.connErr
      s.handed s.resp h.respLt _ s.rets s.now
  | cleanFail hpc =>
    exact h.cleanup.move t _ (by intro g p k e; rw [show s.cleanup.pc t = _ from hpc] at e; cases e) rfl (okReq_plain _ _ (by simp) (by simp) (by simp)) _ s.connErr
      s.handed none (by simp) _ _ s.now
  | @reqOk c r g hpc _ =>
    refine h.move t _ (by simp [hpc]) rfl ⟨by simp, by simp, ?_⟩ s.connected s.connErr s.handed s.resp h.respLt
      s.respShut s.rets s.now
    intro c' r' e; cases e
    exact ((h.pcReq t).2.1 c r g hpc).1
  | @set c r hpc =>
    refine h.move t _ (by simp [hpc]) rfl (okReq_plain _ _ (by simp) (by simp) (by simp)) true false
      true (some r) ?_ s.respShut _ s.now
    intro r' e; cases e; exact (h.pcReq t).2.2 c r hpc
  | readOk hpc _ =>
    exact h.move t _ (by simp [hpc]) rfl (okReq_plain _ _ (by simp) (by simp) (by simp)) s.connected s.connErr
      s.handed s.resp h.respLt s.respShut _ s.now
  | readFail hpc =>
    exact h.move t _ (by simp [hpc]) rfl (okReq_plain _ _ (by simp) (by simp) (by simp)) s.connected s.connErr
      s.handed s.resp h.respLt s.respShut s.rets s.now
  | readErr hpc =>
    exact h.move t _ (by simp [hpc]) rfl (okReq_plain _ _ (by simp) (by simp) (by simp)) s.connected true
      s.handed s.resp h.respLt s.respShut _ s.now
  | lock hpc hw => exact h.lock t _ _ hpc hw
  | late hpc _ =>
    exact h.move t _ (by simp [hpc]) rfl (okReq_plain _ _ (by simp) (by simp) (by simp)) s.connected s.connErr
      s.handed s.resp h.respLt s.respShut s.rets s.now
  | take hk hpc hs hr hb => exact h.take t _ _ _ _ hk hpc hs hr hb
  | putFail hpc hs =>
    exact h.release t _ _ _ _ hpc rfl (okReq_plain _ _ (by simp) (by simp) (by simp)) (.inl hs)
  | putOk hpc =>
    have h' := h.sent t _ _ hpc
    refine ⟨h'.cancelLt, h'.pipeLt, h'.ctxLt, h'.respLt, h'.doneOld, h'.doneWhy, h'.shutOld, h'.closed, h'.reqCtxLt,
      h'.reqBodyLt, h'.freshGen, h'.freshReq, h'.want, h'.put, h'.held, h'.wPut, h'.free, h'.any, h'.sub, h'.pcReq⟩
  | writeErr hpc =>
    exact h.move t _ (by simp [hpc]) rfl (okReq_plain _ _ (by simp) (by simp) (by simp)) s.connected true
      s.handed s.resp h.respLt s.respShut _ s.now

theorem Inv.step {s s' : St} (h : Inv s) (hs : Step s s') : Inv s' := by
  cases hs with
  | call hpc _ =>
    exact h.move _ _ (by simp [hpc]) rfl (okReq_plain _ _ (by simp) (by simp) (by simp)) s.connected s.connErr
      s.handed s.resp h.respLt s.respShut s.rets s.now
  | run hr => exact h.run _ hr
  | answer _ _ _ => exact h.answer _ s.now
  | over => exact h.over _
  | tick => exact h.answer s.reqSt _

theorem Inv.steps {s s' : St} (h : Inv s) (hs : Steps s s') : Inv s' := by
  induction hs with
  | refl => exact h
  | tail _ hs ih => exact ih.step hs

theorem reach_inv {c : Nat} {s : St} (h : Reach c s) : Inv s := (inv_init c).steps h

theorem Alone.steps {a b : St} (h : Alone a b) : Steps a b := by
  induction h with
  | refl => exact .refl _
  | tail _ hs _ ih => exact .tail ih hs

end Claw.HttpClient
