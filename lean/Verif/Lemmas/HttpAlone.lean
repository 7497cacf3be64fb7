import Verif.Lemmas.HttpClient

/-!
# The HTTP client transport when no two `connect` calls overlap
-/

namespace Claw.HttpClient

open Claw.Transport (upd Tid)

attribute [local grind] upd

/-- The request a `connect` has made. -/
def PC.req? : PC → Option Nat
  | .kSel _ r | .kWait _ r _ | .kSet _ r => some r
  | _ => none

structure Own (s : St) : Prop where
  uniq : ∀ t u, (s.pc t).connecting = true → (s.pc u).connecting = true → t = u
  bodies : ∀ r r' g, r < s.reqs → r' < s.reqs → s.reqBody r = some g → s.reqBody r' = some g → r = r'
  unreq : ∀ t c g r, s.pc t = .kReq c → s.pipe = some g → r < s.reqs → s.reqBody r ≠ some g
  same : ∀ r g, r < s.reqs → s.reqBody r = some g → s.carried r = s.piped g
  unused : ∀ g, (∀ r, r < s.reqs → s.reqBody r ≠ some g) → s.piped g = []
  start : ∀ t c, s.pc t = .kReq c → s.closed = false →
    ∃ g, s.pipe = some g ∧ s.cancel = some g ∧ s.ctx = some g
  mine : ∀ t r, (s.pc t).req? = some r → s.closed = false →
    ∃ g, s.pipe = some g ∧ s.cancel = some g ∧ s.ctx = some g ∧ s.reqBody r = some g ∧ s.reqCtx r = g

/-- While connected, the fields belong to one request, with its own pipe and context. -/
structure Up (s : St) : Prop where
  up : s.connected = true → s.closed = false →
    ∃ r g, s.resp = some r ∧ s.pipe = some g ∧ s.cancel = some g ∧ r < s.reqs ∧ s.reqBody r = some g ∧ s.reqCtx r = g
  calm : ∀ t x, x ∈ s.rets t → x.2 ≠ .panic

theorem own_init (c : Nat) : Own (St.init c) := by
  constructor <;> simp [St.init, PC.connecting] <;> grind [PC.connecting, PC.req?]

/-- A goroutine moves to a place outside `connect`, or within it. -/
theorem Own.move {s : St} (h : Own s) (t : Tid) (q : PC)
    (hc : q.connecting = true → (s.pc t).connecting = true ∨ ∀ u, (s.pc u).connecting = false)
    (hk : ∀ c, q ≠ .kReq c) (hr : ∀ r, q.req? = some r → (s.pc t).req? = some r)
    (connected connErr handed : Bool) (resp : Option Nat) (respShut : Nat → Bool)
    (rets : Tid → List (Op × Ret)) (now : Nat) (writer : Nat → Option Tid) (sent : List (Nat × Bytes))
    (issued : List Bytes) (reqSt : Nat → ReqSt) (ended done : Nat → Bool) :
    Own { s with pc := upd s.pc t q, connected, connErr, handed, resp, respShut, rets, now, writer, sent, issued,
                 reqSt, ended, done } := by
  obtain ⟨h1, h2, h3, h4, h5, h6, h7⟩ := h
  refine ⟨?_, h2, ?_, h4, h5, ?_, ?_⟩
  · intro a b ha hb
    simp only [upd] at ha hb
    by_cases ea : a = t <;> by_cases eb : b = t
    · rw [ea, eb]
    · rw [if_pos ea] at ha; rw [if_neg eb] at hb
      rcases hc ha with h | h
      · rw [ea]; exact h1 _ _ h hb
      · rw [h b] at hb; cases hb
    · rw [if_neg ea] at ha; rw [if_pos eb] at hb
      rcases hc hb with h | h
      · rw [eb]; exact h1 _ _ ha h
      · rw [h a] at ha; cases ha
    · rw [if_neg ea] at ha; rw [if_neg eb] at hb; exact h1 _ _ ha hb
  · intro u c g r hu
    by_cases e : u = t
    · subst e; simp [upd] at hu; exact absurd hu (hk c)
    · exact h3 u c g r (by simpa [upd, e] using hu)
  · intro u c hu
    by_cases e : u = t
    · subst e; simp [upd] at hu; exact absurd hu (hk c)
    · exact h6 u c (by simpa [upd, e] using hu)
  · intro u r hu
    by_cases e : u = t
    · subst e; simp [upd] at hu; exact h7 _ r (hr r hu)
    · exact h7 u r (by simpa [upd, e] using hu)

theorem req_connecting {q : PC} {r : Nat} (h : q.req? = some r) : q.connecting = true := by
  cases q <;> simp_all [PC.req?, PC.connecting]

/-- The only `connect` cleans up and goes on to `q`. -/
theorem Own.cleanup {s : St} (h : Own s) (t : Tid) (q : PC) (ht : (s.pc t).connecting = true)
    (hk : ∀ c, q ≠ .kReq c) (hr : q.req? = none)
    (rets : Tid → List (Op × Ret)) : Own { s.cleanup with pc := upd s.pc t q, rets } := by
  obtain ⟨h1, h2, h3, h4, h5, h6, h7⟩ := h
  refine ⟨?_, h2, ?_, h4, h5, ?_, ?_⟩
  · intro a b ha hb
    simp only [upd] at ha hb
    by_cases ea : a = t <;> by_cases eb : b = t
    · rw [ea, eb]
    · rw [if_neg eb] at hb; rw [ea]; exact h1 _ _ ht hb
    · rw [if_neg ea] at ha; rw [eb]; exact h1 _ _ ha ht
    · rw [if_neg ea] at ha; rw [if_neg eb] at hb; exact h1 _ _ ha hb
  · intro u c g r _ hp; simp [St.cleanup] at hp
  · intro u c hu
    by_cases e : u = t
    · subst e; simp [upd] at hu; exact absurd hu (hk c)
    · have hu' : s.pc u = .kReq c := by simpa [upd, e] using hu
      exact absurd (h1 u t (by simp [hu', PC.connecting]) ht) e
  · intro u r hu
    by_cases e : u = t
    · subst e; simp [upd, hr] at hu
    · have hu' : (s.pc u).req? = some r := by simpa [upd, e] using hu
      exact absurd (h1 u t (req_connecting hu') ht) e

theorem Own.close {s : St} (h : Own s) (t : Tid) (hpc : s.pc t = .call .close)
    (rets : Tid → List (Op × Ret)) :
    Own { s.cleanup with closed := true, pc := upd s.pc t .idle, rets } := by
  obtain ⟨h1, h2, h3, h4, h5, h6, h7⟩ := h
  refine ⟨?_, h2, ?_, h4, h5, by simp, by simp⟩
  · intro a b ha hb
    have hn : ∀ a, (upd s.pc t PC.idle a).connecting = true → (s.pc a).connecting = true := by
      intro a ha
      by_cases e : a = t
      · subst e; simp [upd, PC.connecting] at ha
      · simpa [upd, e] using ha
    exact h1 a b (hn a ha) (hn b hb)
  · intro u c g r _ hp; simp [St.cleanup] at hp

theorem Own.newGen {s : St} (h : Own s) (hi : Inv s) (t : Tid) (c : Nat)
    (hpc : s.pc t = .call (.connect c)) :
    Own { s.cleanup.newGen c with pc := upd s.pc t (.kReq c) } := by
  have ht : (s.pc t).connecting = true := by simp [hpc, PC.connecting]
  obtain ⟨h1, h2, h3, h4, h5, h6, h7⟩ := h
  refine ⟨?_, h2, ?_, h4, h5, ?_, ?_⟩
  · intro a b ha hb
    simp only [upd] at ha hb
    by_cases ea : a = t <;> by_cases eb : b = t
    · rw [ea, eb]
    · rw [if_neg eb] at hb; rw [ea]; exact h1 _ _ ht hb
    · rw [if_neg ea] at ha; rw [eb]; exact h1 _ _ ha ht
    · rw [if_neg ea] at ha; rw [if_neg eb] at hb; exact h1 _ _ ha hb
  · intro u c' g r _ hp hr hb
    simp only [St.newGen, St.cleanup, Option.some.injEq] at hp
    have := hi.reqBodyLt r g hr hb
    omega
  · intro u c' _ _; exact ⟨s.gens, rfl, rfl, rfl⟩
  · intro u r hu
    by_cases e : u = t
    · subst e; simp [upd, PC.req?] at hu
    · have hu' : (s.pc u).req? = some r := by simpa [upd, e] using hu
      exact absurd (h1 u t (req_connecting hu') ht) e

theorem Own.request {s : St} (h : Own s) (hi : Inv s) (t : Tid) (c g : Nat) (hpc : s.pc t = .kReq c)
    (hg : s.ctx = some g) : Own (s.request t c g) := by
  have ht : (s.pc t).connecting = true := by simp [hpc, PC.connecting]
  obtain ⟨h1, h2, h3, h4, h5, h6, h7⟩ := h
  have hb : ∀ r, r ≠ s.reqs → (s.request t c g).reqBody r = s.reqBody r := fun r e => by
    simp [St.request, upd, e]
  have hb' : (s.request t c g).reqBody s.reqs = s.pipe := by simp [St.request, upd]
  have hlt : ∀ r, r < (s.request t c g).reqs → r = s.reqs ∨ (r ≠ s.reqs ∧ r < s.reqs) := by
    intro r hr; have : r < s.reqs + 1 := hr; omega
  have hnew : ∀ r g', r < s.reqs → s.pipe = some g' → s.reqBody r ≠ some g' := fun r g' hr hp =>
    h3 t c g' r hpc hp hr
  refine ⟨?_, ?_, ?_, ?_, ?_, ?_, ?_⟩
  · intro a b ha hb
    simp only [St.request, upd] at ha hb
    by_cases ea : a = t <;> by_cases eb : b = t
    · rw [ea, eb]
    · rw [if_neg eb] at hb; rw [ea]; exact h1 _ _ ht hb
    · rw [if_neg ea] at ha; rw [eb]; exact h1 _ _ ha ht
    · rw [if_neg ea] at ha; rw [if_neg eb] at hb; exact h1 _ _ ha hb
  · intro r r' g' hr hr' er er'
    rcases hlt r hr with e | ⟨e, l⟩ <;> rcases hlt r' hr' with e' | ⟨e', l'⟩
    · rw [e, e']
    · subst e; rw [hb'] at er; rw [hb _ e'] at er'; exact absurd er' (hnew _ _ l' er)
    · subst e'; rw [hb'] at er'; rw [hb _ e] at er; exact absurd er (hnew _ _ l er')
    · rw [hb _ e] at er; rw [hb _ e'] at er'; exact h2 r r' g' l l' er er'
  · intro u c' g' r hu
    by_cases e : u = t
    · subst e; simp [St.request, upd] at hu
    · have hu' : s.pc u = .kReq c' := by simpa [St.request, upd, e] using hu
      exact absurd (h1 u t (by simp [hu', PC.connecting]) ht) e
  · intro r g' hr er
    show s.carried r = s.piped g'
    rcases hlt r hr with e | ⟨e, l⟩
    · subst e; rw [hb'] at er
      rw [hi.freshReq _ (Nat.le_refl _), h5 g' fun r hr => hnew r g' hr er]
    · rw [hb _ e] at er; exact h4 r g' l er
  · intro g' hn
    refine h5 g' fun r hr => ?_
    have := hn r (show r < s.reqs + 1 by omega)
    rwa [hb r (by omega)] at this
  · intro u c' hu
    by_cases e : u = t
    · subst e; simp [St.request, upd] at hu
    · have hu' : s.pc u = .kReq c' := by simpa [St.request, upd, e] using hu
      exact absurd (h1 u t (by simp [hu', PC.connecting]) ht) e
  · intro u r hu hc
    by_cases e : u = t
    · subst e
      simp [St.request, upd, PC.req?] at hu; subst hu
      obtain ⟨g', e1, e2, e3⟩ := h6 u c hpc hc
      refine ⟨g', e1, e2, e3, by rw [hb', e1], ?_⟩
      simp only [St.request, upd, if_true]
      exact Option.some.inj (hg.symm.trans e3)
    · have hu' : (s.pc u).req? = some r := by simpa [St.request, upd, e] using hu
      exact absurd (h1 u t (req_connecting hu') ht) e

theorem Own.take {s : St} (h : Own s) (t : Tid) (g : Nat) (p : Bytes) (k r : Nat) (b : UInt8)
    (hpc : s.pc t = .wPut g p k) (hr : r < s.reqs) (hb : s.reqBody r = some g) :
    Own { s with carried := upd s.carried r (s.carried r ++ [b])
                 piped := upd s.piped g (s.piped g ++ [b])
                 pc := upd s.pc t (.wPut g p (k + 1)) } := by
  have h' := h.move t (.wPut g p (k + 1)) (by simp [PC.connecting]) (by simp) (by simp [PC.req?]) s.connected s.connErr
    s.handed s.resp s.respShut s.rets s.now s.writer s.sent s.issued s.reqSt s.ended s.done
  obtain ⟨h1, h2, h3, h4, h5, h6, h7⟩ := h'
  refine ⟨h1, h2, h3, ?_, ?_, h6, h7⟩
  · intro r' g' hr' hb'
    show upd s.carried r _ r' = upd s.piped g _ g'
    by_cases e : r' = r
    · subst e; have : g' = g := Option.some.inj (hb'.symm.trans hb)
      subst this; simp [upd]; exact h.same r' g' hr hb
    · have : g' ≠ g := by rintro rfl; exact e (h.bodies r' r g' hr' hr hb' hb)
      simp [upd, e, this]; exact h.same r' g' hr' hb'
  · intro g' hn
    have : g' ≠ g := by rintro rfl; exact hn r hr hb
    show upd s.piped g _ g' = []
    simp [upd, this]; exact h.unused g' hn

theorem Own.enter {s : St} (h : Own s) (hi : Inv s) (t : Tid) (op : Op) (hpc : s.pc t = .call op) :
    Own (s.enter t op) := by
  have hret : ∀ op r, Own (s.ret t op r) := fun op r =>
    h.move t .idle (by simp [PC.connecting]) (by simp) (by simp [PC.req?]) s.connected s.connErr
      s.handed s.resp s.respShut _ s.now s.writer s.sent s.issued s.reqSt s.ended s.done
  cases op with
  | read =>
    simp only [St.enter]
    split
    · exact hret _ _
    · split
      · exact hret _ _
      · split
        · exact hret _ _
        · exact h.move t _ (by simp [PC.connecting]) (by simp) (by simp [PC.req?]) s.connected s.connErr
            s.handed s.resp s.respShut s.rets s.now s.writer s.sent s.issued s.reqSt s.ended s.done
  | write p =>
    simp only [St.enter]
    split
    · exact hret _ _
    · split
      · exact hret _ _
      · split
        · exact hret _ _
        · exact h.move t _ (by simp [PC.connecting]) (by simp) (by simp [PC.req?]) s.connected s.connErr
            s.handed s.resp s.respShut s.rets s.now s.writer s.sent _ s.reqSt s.ended s.done
  | close =>
    simp only [St.enter]
    split
    · exact hret _ _
    · exact h.close t hpc _
  | connect c =>
    simp only [St.enter]
    split
    · exact hret _ _
    · exact h.newGen hi t c hpc
  | query => exact hret _ _

theorem Own.run {s s' : St} (h : Own s) (hi : Inv s) (t : Tid) (hr : Run t s s') : Own s' := by
  cases hr with
  | enter hpc => exact h.enter hi t _ hpc
  | request hpc hg => exact h.request hi t _ _ hpc hg
  | select hpc hg =>
    exact h.move t _ (by simp [hpc, PC.connecting]) (by simp) (by simp [hpc, PC.req?]) s.connected s.connErr
      s.handed s.resp s.respShut s.rets s.now s.writer s.sent s.issued s.reqSt s.ended s.done
  | ctxDone hpc _ =>
    exact h.move t _ (by simp [hpc, PC.connecting]) (by simp) (by simp [hpc, PC.req?]) s.connected s.connErr
      s.handed s.resp s.respShut s.rets s.now s.writer s.sent s.issued s.reqSt s.ended s.done
  | cleanDone hpc => exact h.cleanup t _ (by simp [hpc, PC.connecting]) (by simp) rfl s.rets
  | retDone hpc hg =>
    exact h.move t _ (by simp [PC.connecting]) (by simp) (by simp [PC.req?]) s.connected s.connErr
      s.handed s.resp s.respShut _ s.now s.writer s.sent s.issued s.reqSt s.ended s.done
  | reqFailed hpc _ =>
    exact h.move t _ (by simp [hpc, PC.connecting]) (by simp) (by simp [hpc, PC.req?]) s.connected s.connErr
      s.handed s.resp s.respShut s.rets s.now s.writer s.sent s.issued s.reqSt s.ended s.done
  | reqRefused hpc _ =>
    exact h.move t _ (by simp [hpc, PC.connecting]) (by simp) (by simp [hpc, PC.req?]) s.connected s.connErr
      s.handed s.resp _ s.rets s.now s.writer s.sent s.issued s.reqSt s.ended s.done
  | cleanFail hpc => exact h.cleanup t _ (by simp [hpc, PC.connecting]) (by simp) rfl _
  | reqOk hpc _ =>
    exact h.move t _ (by simp [hpc, PC.connecting]) (by simp) (by simp [hpc, PC.req?]) s.connected s.connErr
      s.handed s.resp s.respShut s.rets s.now s.writer s.sent s.issued s.reqSt s.ended s.done
  | set hpc =>
    exact h.move t _ (by simp [PC.connecting]) (by simp) (by simp [PC.req?]) true false
      true _ s.respShut _ s.now s.writer s.sent s.issued s.reqSt s.ended s.done
  | readOk hpc _ =>
    exact h.move t _ (by simp [PC.connecting]) (by simp) (by simp [PC.req?]) s.connected s.connErr
      s.handed s.resp s.respShut _ s.now s.writer s.sent s.issued s.reqSt s.ended s.done
  | readFail hpc =>
    exact h.move t _ (by simp [PC.connecting]) (by simp) (by simp [PC.req?]) s.connected s.connErr
      s.handed s.resp s.respShut s.rets s.now s.writer s.sent s.issued s.reqSt s.ended s.done
  | readErr hpc =>
    exact h.move t _ (by simp [PC.connecting]) (by simp) (by simp [PC.req?]) s.connected true
      s.handed s.resp s.respShut _ s.now s.writer s.sent s.issued s.reqSt s.ended s.done
  | lock hpc hw =>
    exact h.move t _ (by simp [PC.connecting]) (by simp) (by simp [PC.req?]) s.connected s.connErr
      s.handed s.resp s.respShut s.rets s.now _ s.sent s.issued s.reqSt s.ended s.done
  | late hpc _ =>
    exact h.move t _ (by simp [PC.connecting]) (by simp) (by simp [PC.req?]) s.connected s.connErr
      s.handed s.resp s.respShut s.rets s.now s.writer s.sent s.issued s.reqSt s.ended s.done
  | take hk hpc hs hr hb => exact h.take t _ _ _ _ _ hpc hr hb
  | putFail hpc hs =>
    exact h.move t _ (by simp [PC.connecting]) (by simp) (by simp [PC.req?]) s.connected s.connErr
      s.handed s.resp s.respShut s.rets s.now _ s.sent s.issued s.reqSt s.ended s.done
  | putOk hpc =>
    exact h.move t _ (by simp [PC.connecting]) (by simp) (by simp [PC.req?]) s.connected s.connErr
      s.handed s.resp s.respShut _ s.now _ _ s.issued s.reqSt s.ended s.done
  | writeErr hpc =>
    exact h.move t _ (by simp [PC.connecting]) (by simp) (by simp [PC.req?]) s.connected true
      s.handed s.resp s.respShut _ s.now s.writer s.sent s.issued s.reqSt s.ended s.done

theorem Own.step {s s' : St} (h : Own s) (hi : Inv s) (hs : Step s s')
    (hg : ∀ t u op, s.pc t = .idle → s'.pc t = .call op → PC.connecting (.call op) = true →
      (s.pc u).connecting = false) : Own s' := by
  cases hs with
  | @call t op hpc _ =>
    refine h.move t _ (fun hc => .inr fun u => hg t u op hpc (by simp [upd]) hc) (by simp) (by simp [PC.req?]) s.connected s.connErr
      s.handed s.resp s.respShut s.rets s.now s.writer s.sent s.issued s.reqSt s.ended s.done
  | run hr => exact h.run hi _ hr
  | answer _ _ _ => exact ⟨h.uniq, h.bodies, h.unreq, h.same, h.unused, h.start, h.mine⟩
  | over => exact ⟨h.uniq, h.bodies, h.unreq, h.same, h.unused, h.start, h.mine⟩
  | tick => exact ⟨h.uniq, h.bodies, h.unreq, h.same, h.unused, h.start, h.mine⟩

theorem alone_own {c : Nat} {s : St} (h : Alone (St.init c) s) : Own s ∧ Inv s := by
  induction h with
  | refl => exact ⟨own_init c, inv_init c⟩
  | tail _ hs hg ih => exact ⟨ih.1.step ih.2 hs hg, ih.2.step hs⟩

theorem calm_snoc {s : St} (h : ∀ t x, x ∈ s.rets t → x.2 ≠ .panic) (t : Tid) (op : Op) (r : Ret)
    (hr : r ≠ .panic) : ∀ u x, x ∈ upd s.rets t (s.rets t ++ [(op, r)]) u → x.2 ≠ .panic := by
  intro u x hx
  by_cases e : u = t
  · subst e; simp only [upd, if_true, List.mem_append, List.mem_singleton] at hx
    rcases hx with hx | hx
    · exact h u x hx
    · rw [hx]; exact hr
  · exact h u x (by simpa [upd, e] using hx)

theorem Up.enter {s : St} (h : Up s) (t : Tid) (op : Op) : Up (s.enter t op) := by
  have hret : ∀ op r, r ≠ Ret.panic → Up (s.ret t op r) := fun op r hr => ⟨h.up, calm_snoc h.calm t op r hr⟩
  cases op with
  | read =>
    simp only [St.enter]
    split
    · exact hret _ _ (by simp)
    · split
      · exact hret _ _ (by simp)
      · rename_i h1 h2
        obtain ⟨r, g, e, -⟩ := h.up (by simpa using h2) (by simpa using h1)
        split
        · rename_i h'; rw [e] at h'; cases h'
        · exact ⟨h.up, h.calm⟩
  | write p =>
    simp only [St.enter]
    split
    · exact hret _ _ (by simp)
    · split
      · exact hret _ _ (by simp)
      · rename_i h1 h2
        obtain ⟨r, g, -, e, -⟩ := h.up (by simpa using h2) (by simpa using h1)
        split
        · rename_i h'; rw [e] at h'; cases h'
        · exact ⟨h.up, h.calm⟩
  | close =>
    simp only [St.enter]
    split
    · exact hret _ _ (by simp)
    · exact ⟨by simp [St.ret, St.cleanup], calm_snoc h.calm t _ _ (by simp)⟩
  | connect c =>
    simp only [St.enter]
    split
    · exact hret _ _ (by simp)
    · exact ⟨by simp [St.newGen, St.cleanup], h.calm⟩
  | query => exact hret _ _ (by simp)

theorem Up.run {s s' : St} (h : Up s) (ho : Own s) (hi : Inv s) (t : Tid) (hr : Run t s s') : Up s' := by
  cases hr with
  | enter hpc => exact h.enter t _
  | request hpc hg =>
    refine ⟨?_, h.calm⟩
    intro h1 h2
    obtain ⟨r, g, e1, e2, e3, e4, e5, e6⟩ := h.up h1 h2
    refine ⟨r, g, e1, e2, e3, Nat.lt_succ_of_lt e4, ?_, ?_⟩
    · simp only [St.request, upd, if_neg (Nat.ne_of_lt e4)]; exact e5
    · simp only [St.request, upd, if_neg (Nat.ne_of_lt e4)]; exact e6
  | select | ctxDone | reqFailed | reqRefused | reqOk | readFail | lock | late | take | putFail =>
    exact ⟨h.up, h.calm⟩
  | cleanDone hpc => exact ⟨by simp [St.cleanup], h.calm⟩
  | retDone hpc hg => exact ⟨h.up, calm_snoc h.calm t _ _ (by split <;> simp)⟩
  | cleanFail hpc => exact ⟨by simp [St.ret, St.cleanup], calm_snoc h.calm t _ _ (by simp)⟩
  | @set c r hpc =>
    refine ⟨?_, calm_snoc h.calm t _ _ (by simp)⟩
    intro _ hc
    obtain ⟨g, e1, e2, e3, e4, e5⟩ := ho.mine t r (by simp [hpc, PC.req?]) hc
    exact ⟨r, g, rfl, e1, e2, (hi.pcReq t).2.2 c r hpc, e4, e5⟩
  | readOk | readErr | putOk | writeErr => exact ⟨h.up, calm_snoc h.calm t _ _ (by simp)⟩

theorem alone_up {c : Nat} {s : St} (h : Alone (St.init c) s) : Up s := by
  induction h with
  | refl => exact ⟨by simp [St.init], by simp [St.init]⟩
  | tail ha hs _ ih =>
    cases hs with
    | run hr => exact ih.run (alone_own ha).1 (alone_own ha).2 _ hr
    | _ => exact ⟨ih.up, ih.calm⟩

end Claw.HttpClient
