import Verif.Lemmas.Transport

/-!
# Closing a stream transport
-/

namespace Claw.Transport

theorem Steps.trans {m : Mode} {a b c : St} (h : Steps m a b) (g : Steps m b c) :
    Steps m a c := by
  induction g with
  | refl => exact h
  | tail _ st ih => exact .tail ih st

/-- Goroutine `t` is making a new connection. -/
def Connecting (s : St) (t : Tid) : Prop :=
  s.pc t = .kWait ∨ s.pc t = .kDial ∨ s.pc t = .kSet

/-- At most one goroutine is making a new connection. -/
def OneConnect (s : St) : Prop := ∀ t u, Connecting s t → Connecting s u → t = u

/-- Steps through states that all satisfy `P`. -/
inductive StepsIn (m : Mode) (P : St → Prop) : St → St → Prop
  | refl {s} : P s → StepsIn m P s s
  | tail {a b c} : StepsIn m P a b → Step m b c → P c → StepsIn m P a c

theorem StepsIn.steps {m : Mode} {P : St → Prop} {s s' : St} (h : StepsIn m P s s') :
    Steps m s s' := by
  induction h with
  | refl => exact .refl _
  | tail _ st _ ih => exact .tail ih st

theorem StepsIn.last {m : Mode} {P : St → Prop} {s s' : St} (h : StepsIn m P s s') : P s' := by
  cases h <;> assumption

/-- What `Close` leaves behind. -/
structure Shut (s : St) : Prop where
  closing : s.closed = true → s.conn = none ∨ ∃ t, s.pc t = .cWait
  returned : ∀ t, (Op.close, Ret.ok) ∈ s.rets t → s.closed = true ∧ s.conn = none
  waiting : ∀ t, s.pc t = .cWait → s.closed = true

/-- Moving a goroutine that is not in `Close` to another place outside it. -/
theorem shut_move {s s' : St} (h : Shut s) {t : Tid} {q : PC} (hp : s.pc t ≠ .cWait)
    (hq : q ≠ .cWait) (h1 : s'.closed = s.closed) (h2 : s'.conn = s.conn)
    (h3 : s'.rets = s.rets) (h4 : s'.pc = upd s.pc t q) : Shut s' := by
  obtain ⟨a, b, c⟩ := h
  constructor
  · rw [h1, h2, h4]
    intro hc
    rcases a hc with h | ⟨u, h⟩
    · exact .inl h
    · exact .inr ⟨u, by rw [upd_other _ _ (by grind)]; exact h⟩
  · rw [h1, h2, h3]; exact b
  · rw [h1, h4]; intro u; by_cases hu : u = t <;> grind

theorem shut_ret {s : St} (h : Shut s) {t : Tid} {op : Op} {r : Ret}
    (hp : s.pc t ≠ .cWait) (ho : op = .close → s.closed = true ∧ s.conn = none) :
    Shut (s.ret t op r) := by
  obtain ⟨h1, h2, h3⟩ := h
  constructor
  · simp only [St.ret]
    intro hc
    rcases h1 hc with h | ⟨u, h⟩
    · exact .inl h
    · exact .inr ⟨u, by grind⟩
  · simp only [St.ret]
    intro u
    by_cases hu : u = t <;> grind
  · simp only [St.ret]
    intro u
    by_cases hu : u = t <;> grind

theorem shut_run {m : Mode} {t : Tid} {s s' : St} (i : Inv m s) (h : Shut s) (r : Run m t s s') :
    Shut s' := by
  cases r with
  | enter hp hc =>
    next op =>
    have hnot : ∀ u, s.pc u ≠ .cWait := by
      intro u hu
      have := (i.connMu u).1 (by rw [hu]; rfl)
      simp [hc] at this
    have hcl : s.closed = true → s.conn = none := by
      intro hx
      rcases h.closing hx with h | ⟨u, h⟩
      · exact h
      · exact absurd h (hnot u)
    cases op with
    | read =>
      simp only [St.enter]; split
      · exact shut_ret h (hnot t) (by simp)
      · exact shut_move h (t := t) (hnot t) (by simp) rfl rfl rfl rfl
    | write p =>
      simp only [St.enter]; split
      · exact shut_ret h (hnot t) (by simp)
      · exact shut_move h (t := t) (hnot t) (by simp) rfl rfl rfl rfl
    | query => exact shut_ret h (hnot t) (by simp)
    | connect =>
      simp only [St.enter]
      split
      · exact shut_ret h (hnot t) (by simp)
      · split
        · exact shut_ret h (hnot t) (by simp)
        · next hm hcf =>
          split
          · exact shut_move h (t := t) (hnot t) (by simp) rfl rfl rfl rfl
          · exact shut_move h (t := t) (hnot t) (by simp) rfl rfl rfl rfl
    | close =>
      simp only [St.enter]
      split
      · next hx => exact shut_ret h (hnot t) (fun _ => ⟨hx, hcl hx⟩)
      · next hx =>
        have hr : ∀ u, (Op.close, Ret.ok) ∉ s.rets u := fun u hu => hx (h.returned u hu).1
        split
        · next hn =>
          have hj : Shut { s with closed := true, connected := false } :=
            ⟨fun _ => .inl hn, fun u hu => absurd hu (hr u), fun _ _ => rfl⟩
          exact shut_ret hj (hnot t) (fun _ => ⟨rfl, hn⟩)
        · exact ⟨fun _ => .inr ⟨t, upd_same _ _ _⟩, fun u hu => absurd hu (hr u), fun _ _ => rfl⟩
  | fetch hp =>
    split
    · exact shut_ret h (by simp [hp]) (by simp)
    · exact shut_move h (t := t) (by simp [hp]) (by simp) rfl rfl rfl rfl
  | readOk hp hs => exact shut_ret h (by simp [hp]) (by simp)
  | readFail hp =>
    split
    · exact shut_ret h (by simp [hp]) (by simp)
    · exact shut_move h (t := t) (by simp [hp]) (by simp) rfl rfl rfl rfl
  | readErr hp hs => exact shut_ret h (by simp [hp]) (by simp)
  | dialFail hp => exact shut_ret h (by simp [hp]) (by simp)
  | lock hp hw =>
    split
    · exact shut_ret h (by simp [hp]) (by simp)
    · exact shut_move h (t := t) (by simp [hp]) (by simp) rfl rfl rfl rfl
    · split
      · exact shut_ret h (by simp [hp]) (by simp)
      · exact shut_move h (t := t) (by simp [hp]) (by simp) rfl rfl rfl rfl
  | put hk hp hs => exact shut_move h (t := t) (by simp [hp]) (by simp) rfl rfl rfl rfl
  | putFail hp hk =>
    split
    · have j := shut_ret (op := .write ‹_›) (r := .err) (t := t) h (by simp [hp]) (by simp)
      exact ⟨j.closing, j.returned, j.waiting⟩
    · exact shut_move h (t := t) (by simp [hp]) (by simp) rfl rfl rfl rfl
  | putOk hp =>
    next c p =>
    have j := shut_ret (op := .write p) (r := .ok) (t := t) h (by simp [hp]) (by simp)
    exact ⟨j.closing, j.returned, j.waiting⟩
  | writeErr hp hc =>
    next p =>
    have j := shut_ret (op := .write p) (r := .err) (t := t) h (by simp [hp]) (by simp)
    exact ⟨j.closing, j.returned, j.waiting⟩
  | close hp hw =>
    obtain ⟨c, hcn⟩ := Option.ne_none_iff_exists'.1 (i.held t (.inl hp))
    have hx : s.closed = true := h.waiting t hp
    simp only [St.drop, hcn, St.ret]
    exact ⟨fun _ => .inl rfl, fun u hu => ⟨hx, rfl⟩, fun _ _ => hx⟩
  | clean hp hw =>
    obtain ⟨c, hcn⟩ := Option.ne_none_iff_exists'.1 (i.held t (.inr hp))
    simp only [St.drop, hcn]
    exact ⟨fun _ => .inl rfl, fun u hu => ⟨(h.returned u hu).1, rfl⟩, fun u => by
      have := h.waiting u
      dsimp only
      by_cases hu : u = t <;> grind⟩
  | dialOk hp hc =>
    split
    · have j := shut_ret (op := .connect) (r := .err) (t := t) h (by simp [hp]) (by simp)
      exact ⟨j.closing, j.returned, j.waiting⟩
    · next hx =>
      exact ⟨fun hy => absurd hy hx, fun u hu => absurd (h.returned u hu).1 hx, fun u => by
        have := h.waiting u
        dsimp only
        by_cases hu : u = t <;> grind⟩
  | set hp hw =>
    have j := shut_ret (op := .connect) (r := .ok) (t := t) h (by simp [hp]) (by simp)
    exact ⟨j.closing, j.returned, j.waiting⟩

theorem shut_reach {m : Mode} {s : St} (h : Reach m s) : Shut s := by
  have key : ∀ a b, Steps m a b → Reach m a → Shut a → Reach m b ∧ Shut b := by
    intro a b hab ha ht
    induction hab with
    | refl => exact ⟨ha, ht⟩
    | tail _ st ih =>
      obtain ⟨hr, hb⟩ := ih
      refine ⟨.tail hr st, ?_⟩
      cases st with
      | run r => exact shut_run (inv_reach hr) hb r
      | call hp => exact shut_move hb (by simp [hp]) (by simp) rfl rfl rfl rfl
  exact (key _ _ h (.refl _) ⟨by simp [St.init], by simp [St.init], by simp [St.init]⟩).2

/-- Every connection made is the current one or closed. -/
structure Kept (s : St) : Prop where
  all : ∀ c, c < s.next → s.shut c = true ∨ s.conn = some c
  dial : ∀ t, s.pc t = .kDial → s.conn = none

theorem kept_frame {s s' : St} (h : Kept s) (h1 : s'.next = s.next) (h2 : s'.shut = s.shut)
    (h3 : s'.conn = s.conn) (h4 : ∀ t, s'.pc t = .kDial → s.pc t = .kDial ∨ s.conn = none) :
    Kept s' := by
  constructor
  · rw [h1, h2, h3]; exact h.all
  · rw [h3]
    intro t ht
    rcases h4 t ht with h5 | h5
    · exact h.dial t h5
    · exact h5

theorem kept_run {m : Mode} {t : Tid} {s s' : St} (i : Inv m s) (h : Kept s) (one : OneConnect s)
    (r : Run m t s s') : Kept s' := by
  cases r with
  | enter hp hc =>
    next op =>
    cases op <;> simp only [St.enter] <;> repeat' split
    all_goals refine kept_frame h rfl rfl rfl ?_
    all_goals intro u
    all_goals simp only [St.ret]
    all_goals by_cases hu : u = t <;> grind
  | fetch hp =>
    split <;> refine kept_frame h rfl rfl rfl ?_ <;> intro u <;> simp only [St.ret] <;>
      by_cases hu : u = t <;> grind
  | readOk hp hs =>
    refine kept_frame h rfl rfl rfl ?_ ; intro u ; simp only [St.ret] ;
      by_cases hu : u = t <;> grind
  | readFail hp =>
    split <;> refine kept_frame h rfl rfl rfl ?_ <;> intro u <;> simp only [St.ret] <;>
      by_cases hu : u = t <;> grind
  | readErr hp hs =>
    refine kept_frame h rfl rfl rfl ?_ ; intro u ; simp only [St.ret] ;
      by_cases hu : u = t <;> grind
  | dialFail hp =>
    refine kept_frame h rfl rfl rfl ?_ ; intro u ; simp only [St.ret] ;
      by_cases hu : u = t <;> grind
  | lock hp hw =>
    repeat' split
    all_goals refine kept_frame h rfl rfl rfl ?_
    all_goals intro u
    all_goals simp only [St.ret]
    all_goals by_cases hu : u = t <;> grind
  | put hk hp hs =>
    refine kept_frame h rfl rfl rfl ?_ ; intro u ;
      by_cases hu : u = t <;> grind
  | putFail hp hk =>
    split <;> refine kept_frame h rfl rfl rfl ?_ <;> intro u <;> simp only [St.ret] <;>
      by_cases hu : u = t <;> grind
  | putOk hp =>
    refine kept_frame h rfl rfl rfl ?_ ; intro u ; simp only [St.ret] ;
      by_cases hu : u = t <;> grind
  | writeErr hp hc =>
    refine kept_frame h rfl rfl rfl ?_ ; intro u ; simp only [St.ret] ;
      by_cases hu : u = t <;> grind
  | close hp hw =>
    obtain ⟨c, hcn⟩ := Option.ne_none_iff_exists'.1 (i.held t (.inl hp))
    simp only [St.drop, hcn, St.ret]
    obtain ⟨a, b⟩ := h
    constructor <;> dsimp only <;> grind
  | clean hp hw =>
    obtain ⟨c, hcn⟩ := Option.ne_none_iff_exists'.1 (i.held t (.inr hp))
    simp only [St.drop, hcn]
    obtain ⟨a, b⟩ := h
    constructor <;> dsimp only <;> grind
  | dialOk hp hc =>
    obtain ⟨a, b⟩ := h
    split
    · constructor <;> simp only [St.ret] <;> grind
    · have hn := b t hp
      constructor
      · dsimp only; grind
      · dsimp only
        intro u hu
        by_cases h : u = t
        · subst h; rw [upd_same] at hu; simp at hu
        · rw [upd_other _ _ h] at hu
          exact absurd (one u t (.inr (.inl hu)) (.inr (.inl hp))) h
  | set hp hw =>
    refine kept_frame h rfl rfl rfl ?_ ; intro u ; simp only [St.ret] ;
      by_cases hu : u = t <;> grind

theorem kept_reach {m : Mode} {s : St} (h : StepsIn m OneConnect St.init s) : Kept s := by
  have key : ∀ a b, StepsIn m OneConnect a b → Reach m a → Kept a → Kept b := by
    intro a b hab
    induction hab with
    | refl => exact fun _ => id
    | tail pre st _ ih =>
      intro ha ht
      have hb := ih ha ht
      have hr := Steps.trans ha pre.steps
      cases st with
      | run r => exact kept_run (inv_reach hr) hb pre.last r
      | call hp =>
        refine kept_frame hb rfl rfl rfl ?_
        intro u
        dsimp only
        rename_i t op _
        by_cases hu : u = t <;> grind
  refine key _ _ h (.refl _) ⟨?_, by simp [St.init]⟩
  intro c hc
  simp [St.init] at *
  omega

/-- In the server transport nobody makes connections. -/
theorem server_one {s s' : St} (i : Inv .server s) (h : Steps .server s s') :
    StepsIn .server OneConnect s s' := by
  have one : ∀ s, Inv .server s → OneConnect s := by
    intro s i t u ht
    have := (i.server rfl).2.2 t
    rcases ht with h | h | h <;> simp_all
  have key : StepsIn .server OneConnect s s' ∧ Inv .server s' := by
    induction h with
    | refl => exact ⟨.refl (one _ i), i⟩
    | tail _ st ih =>
      have j := inv_step ih.2 st
      exact ⟨.tail ih.1 st (one _ j), j⟩
  exact key.1

/-! ## Connections nobody closes -/

/-- Closed, no current connection, connection `c` made and not closed. -/
def Lost (c : Nat) (s : St) : Prop :=
  s.closed = true ∧ s.conn = none ∧ c < s.next ∧ s.shut c = false

theorem lost_step {m : Mode} {s s' : St} {c : Nat} (i : Inv m s) (h : Lost c s)
    (st : Step m s s') : Lost c s' := by
  obtain ⟨h1, h2, h3, h4⟩ := h
  have hn : ∀ u, s.pc u ≠ .cWait ∧ s.pc u ≠ .kWait ∧ s.pc u ≠ .kSet := by
    intro u
    refine ⟨fun hu => i.held u (.inl hu) h2, fun hu => i.held u (.inr hu) h2, fun hu => ?_⟩
    obtain ⟨d, hd, -⟩ := i.set u hu
    simp [h2] at hd
  cases st with
  | call hp => exact ⟨h1, h2, h3, h4⟩
  | run r =>
    cases r with
    | enter hp hc =>
      next op =>
      cases op <;> simp only [St.enter] <;> repeat' split
      all_goals first | exact ⟨h1, h2, h3, h4⟩ | simp_all
    | close hp hw => exact absurd hp (hn _).1
    | clean hp hw => exact absurd hp (hn _).2.1
    | set hp hw => exact absurd hp (hn _).2.2
    | dialOk hp hc =>
      simp only [h1, if_true]
      exact ⟨h1, h2, by dsimp only; omega, by dsimp only; rw [upd_other _ _ (by omega)]; exact h4⟩
    | fetch hp => split <;> exact ⟨h1, h2, h3, h4⟩
    | readFail hp => split <;> exact ⟨h1, h2, h3, h4⟩
    | putFail hp hk => split <;> exact ⟨h1, h2, h3, h4⟩
    | lock hp hw => repeat' split
                    all_goals exact ⟨h1, h2, h3, h4⟩
    | _ => exact ⟨h1, h2, h3, h4⟩

end Claw.Transport
