import Verif.Lemmas.HttpAlone

/-!
# Running the HTTP client transport

A schedule is a list of actions; `play` carries it out and fails where an action is not possible.
-/

namespace Claw.HttpClient

open Claw.Transport (upd Tid)

inductive Act where
  | call (t : Tid) (op : Op)
  /-- goroutine `t` goes on; in the `select`, with the context if `b`, else with the request -/
  | go (t : Tid) (b : Bool := false)
  /-- request `r` takes a byte of the `Write` of goroutine `t` -/
  | take (t r : Nat)
  | answer (r : Nat) (q : ReqSt)
  | over (c : Nat)

/-- One action. -/
def act (s : St) : Act → Option St
  | .call t op =>
    if s.pc t = .idle ∧ s.handed = true then some { s with pc := upd s.pc t (.call op) } else none
  | .go t b =>
    match s.pc t with
    | .idle => none
    | .call op => some (s.enter t op)
    | .kReq c => s.ctx.map fun g => s.request t c g
    | .kSel c r => s.ctx.map fun g => { s with pc := upd s.pc t (.kWait c r g) }
    | .kWait c r g =>
      if b then
        if s.done g = true then some { s with pc := upd s.pc t (.kDone c) } else none
      else match s.reqSt r with
        | .pending => none
        | .failed => some { s with pc := upd s.pc t (.kFail c) }
        | .refused =>
          some { s with respShut := upd s.respShut r true, pc := upd s.pc t (.kFail c) }
        | .ok => some { s with pc := upd s.pc t (.kSet c r) }
    | .kDone c => some { s.cleanup with pc := upd s.pc t (.kRet c) }
    | .kRet c => s.ctx.map fun g => s.ret t (.connect c) (if s.done g then .err else .ok)
    | .kFail c => some (s.cleanup.ret t (.connect c) .err)
    | .kSet c r =>
      some ({ s with resp := some r, connected := true, connErr := false,
                     handed := true }.ret t (.connect c) .ok)
    | .rRead r =>
      if b then some { s with pc := upd s.pc t .rErr }
      else if s.respShut r = false then some (s.ret t .read .ok) else none
    | .rErr => some ({ s with connErr := true }.ret t .read .err)
    | .wWant g p =>
      if b then if s.shut g = true then some { s with pc := upd s.pc t (.wErr p) } else none
      else if s.writer g = none then
        some { s with writer := upd s.writer g (some t), pc := upd s.pc t (.wPut g p 0) }
      else none
    | .wPut g p k =>
      if b then
        if s.shut g = true then
          some { s with writer := upd s.writer g none, pc := upd s.pc t (.wErr p) }
        else none
      else if k = p.length then
        some ({ s with writer := upd s.writer g none,
                       sent := s.sent ++ [(g, p)] }.ret t (.write p) .ok)
      else none
    | .wErr p => some ({ s with connErr := true }.ret t (.write p) .err)
  | .take t r =>
    match s.pc t with
    | .wPut g p k =>
      if h : k < p.length then
        if s.shut g = false ∧ r < s.reqs ∧ s.reqBody r = some g then
          some { s with carried := upd s.carried r (s.carried r ++ [p[k]])
                        piped := upd s.piped g (s.piped g ++ [p[k]])
                        pc := upd s.pc t (.wPut g p (k + 1)) }
        else none
      else none
    | _ => none
  | .answer r q =>
    if r < s.reqs ∧ s.reqSt r = .pending ∧ q ≠ .pending then
      some { s with reqSt := upd s.reqSt r q }
    else none
  | .over c =>
    some { s with ended := upd s.ended c true
                  done := fun g => s.done g || (decide (g < s.gens) && s.parent g == c) }

theorem go_run {s s' : St} {t : Tid} {b : Bool} (h : act s (.go t b) = some s') : Run t s s' := by
  simp only [act] at h
  split at h
  all_goals rename_i hpc
  · cases h
  · cases h; exact .enter hpc
  · obtain ⟨g, hg, rfl⟩ := Option.map_eq_some_iff.1 h; exact .request hpc hg
  · obtain ⟨g, hg, rfl⟩ := Option.map_eq_some_iff.1 h; exact .select hpc hg
  · split at h
    · split at h
      · rename_i hd; cases h; exact .ctxDone hpc hd
      · cases h
    · split at h
      · cases h
      · rename_i hd; cases h; exact .reqFailed hpc hd
      · rename_i hd; cases h; exact .reqRefused hpc hd
      · rename_i hd; cases h; exact .reqOk hpc hd
  · cases h; exact .cleanDone hpc
  · obtain ⟨g, hg, rfl⟩ := Option.map_eq_some_iff.1 h; exact .retDone hpc hg
  · cases h; exact .cleanFail hpc
  · cases h; exact .set hpc
  · split at h
    · cases h; exact .readFail hpc
    · split at h
      · rename_i hd; cases h; exact .readOk hpc hd
      · cases h
  · cases h; exact .readErr hpc
  · split at h
    · split at h
      · rename_i hd; cases h; exact .late hpc hd
      · cases h
    · split at h
      · rename_i hd; cases h; exact .lock hpc hd
      · cases h
  · split at h
    · split at h
      · rename_i hd; cases h; exact .putFail hpc hd
      · cases h
    · split at h
      · rename_i hd; cases h; subst hd; exact .putOk hpc
      · cases h
  · cases h; exact .writeErr hpc

theorem take_run {s s' : St} {t r : Nat} (h : act s (.take t r) = some s') : Run t s s' := by
  simp only [act] at h
  split at h
  · rename_i hpc
    split at h
    · rename_i hk
      split at h
      · rename_i hd; cases h; exact .take hk hpc hd.1 hd.2.1 hd.2.2
      · cases h
    · cases h
  · cases h

theorem act_step {s s' : St} {a : Act} (h : act s a = some s') : Step s s' := by
  cases a with
  | call t op =>
    simp only [act] at h
    split at h
    · rename_i hc; cases h; exact .call hc.1 hc.2
    · cases h
  | go t b => exact .run (go_run h)
  | take t r => exact .run (take_run h)
  | answer r q =>
    simp only [act] at h
    split at h
    · rename_i hd; cases h; exact .answer hd.1 hd.2.1 hd.2.2
    · cases h
  | over c => simp only [act, Option.some.injEq] at h; cases h; exact .over

/-- A schedule. -/
def play : St → List Act → Option St
  | s, [] => some s
  | s, a :: l => (act s a).bind fun s' => play s' l

theorem Steps.trans {a b c : St} (h : Steps a b) (h' : Steps b c) : Steps a c := by
  induction h' with
  | refl => exact h
  | tail _ hs ih => exact .tail ih hs

theorem play_steps {s s' : St} {l : List Act} (h : play s l = some s') : Steps s s' := by
  induction l generalizing s with
  | nil => simp only [play, Option.some.injEq] at h; subst h; exact .refl _
  | cons a l ih =>
    simp only [play, Option.bind_eq_some_iff] at h
    obtain ⟨m, h1, h2⟩ := h
    exact Steps.trans (.tail (.refl _) (act_step h1)) (ih h2)

/-- The action does not begin a `connect`. -/
def Act.quiet : Act → Bool
  | .call _ (.connect _) => false
  | _ => true

theorem run_call {s s' : St} {t u : Tid} {op : Op} (h : Run t s s') (hu : s'.pc u = .call op) :
    s.pc u = .call op := by
  have key : ∀ q : PC, q ≠ .call op → upd s.pc t q u = .call op → s.pc u = .call op := by
    intro q hq h
    by_cases e : u = t
    · subst e; simp [upd] at h; exact absurd h hq
    · simpa [upd, e] using h
  cases h with
  | @enter op' hpc =>
    cases op' <;> simp only [St.enter] at hu
    · (repeat' split at hu) <;> exact key _ (by simp) hu
    · (repeat' split at hu) <;> exact key _ (by simp) hu
    · (repeat' split at hu) <;> exact key _ (by simp) hu
    · (repeat' split at hu) <;> exact key _ (by simp) hu
    · exact key _ (by simp) hu
  | _ => exact key _ (by simp) hu

theorem play_alone {a s s' : St} {l : List Act} (h : play s l = some s') (ha : Alone a s)
    (hq : l.all Act.quiet = true) : Alone a s' := by
  induction l generalizing s with
  | nil => simp only [play, Option.some.injEq] at h; subst h; exact ha
  | cons x l ih =>
    simp only [play, Option.bind_eq_some_iff] at h
    obtain ⟨m, h1, h2⟩ := h
    simp only [List.all_cons, Bool.and_eq_true] at hq
    refine ih h2 (.tail ha (act_step h1) ?_) hq.2
    intro t u op ht hm hc
    exfalso
    have hop : ∃ c, op = .connect c := by
      cases op <;> simp [PC.connecting] at hc
      exact ⟨_, rfl⟩
    obtain ⟨c, rfl⟩ := hop
    cases x with
    | call t' op' =>
      simp only [act] at h1
      split at h1
      · cases h1
        by_cases e : t = t'
        · subst e; simp [upd] at hm; subst hm; simp [Act.quiet] at hq
        · simp [upd, e, ht] at hm
      · cases h1
    | answer r q =>
      simp only [act] at h1
      split at h1
      · cases h1; simp [ht] at hm
      · cases h1
    | over c => simp only [act, Option.some.injEq] at h1; cases h1; simp [ht] at hm
    | go t' b => rw [run_call (go_run h1) hm] at ht; cases ht
    | take t' r => rw [run_call (take_run h1) hm] at ht; cases ht

/-- A state with property `p` can be reached by the schedule. -/
theorem witness (c : Nat) (l : List Act) (p : St → Bool)
    (h : (play (St.init c) l).any p = true) : ∃ s, Reach c s ∧ p s = true := by
  cases hp : play (St.init c) l with
  | none => simp [hp] at h
  | some s => exact ⟨s, play_steps hp, by simpa [hp] using h⟩

/-- The same for `Alone`. -/
theorem witness_alone (c : Nat) (l : List Act) (p : St → Bool) (hq : l.all Act.quiet = true)
    (h : (play (St.init c) l).any p = true) : ∃ s, Alone (St.init c) s ∧ p s = true := by
  cases hp : play (St.init c) l with
  | none => simp [hp] at h
  | some s => exact ⟨s, play_alone hp (.refl _) hq, by simpa [hp] using h⟩

/-- `Dial` succeeds. -/
def dialActs : List Act := [.go 0, .go 0, .go 0, .answer 0 .ok, .go 0, .go 0]

end Claw.HttpClient
