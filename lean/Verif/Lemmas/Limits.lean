import Verif.Spec.Limits

/-! # The states of a session of synchronous calls -/

namespace Claw.Limits

open Claw

theorem sendMsg_tooLarge (e : End) (p : Bytes) (fin : Bool) : e.sendMsg p fin = .tooLarge ↔ Over e.send p.length := by
  unfold End.sendMsg Over
  by_cases h : e.send > 0 ∧ (p.length : Int) > e.send
  · rw [if_pos h]; exact ⟨fun _ => ⟨h.1, h.2⟩, fun _ => rfl⟩
  · rw [if_neg h]
    constructor
    · intro h'; split at h' <;> cases h'
    · intro h'; exact absurd ⟨h'.1, h'.2⟩ h

theorem sendMsg_frame {e : End} {p : Bytes} {fin : Bool} {f : Compress.Frame} (h : e.sendMsg p fin = .frame f) :
    ¬ Over e.send p.length ∧ Compress.sendPayload e.reg 0 e.alg p fin = some f := by
  constructor
  · intro h'; rw [(sendMsg_tooLarge e p fin).2 h'] at h; cases h
  · unfold End.sendMsg at h
    split at h
    · cases h
    · split at h
      · cases h
      · injection h with h; subst h; assumption

/-- A message that was sent is received as it is, if it is not over the limit of the receiver. -/
theorem recv_sent {e r : End} (ha : Compress.Agree e.reg r.reg e.alg) {p : Bytes} {fin : Bool} {f : Compress.Frame}
    (h : e.sendMsg p fin = .frame f) : r.recvMsg f = if Over r.recv p.length then none else some (p, fin) := by
  have := Compress.C44_end_to_end e.reg r.reg 0 0 e.alg p fin ha f (sendMsg_frame h).2
  unfold End.recvMsg
  rw [this]
  simp only [gt_iff_lt, Nat.lt_irrefl, false_and, if_false]
  rfl

def isFrame : Sent → Bool
  | .frame _ => true
  | _ => false

/-- The frame of a request. -/
def upOf (c : End) (x : Nat × Bytes) : Option (Nat × Compress.Frame) :=
  match c.sendMsg x.2 false with
  | .frame f => some (x.1, f)
  | _ => none

/-- The frame of a reply. -/
def dnOf (s : End) (x : Nat × Bytes) : Option Down :=
  match s.sendMsg x.2 false with
  | .frame f => some (.reply x.1 f)
  | _ => none

/-- The handler gave a reply that was sent. -/
def fine (s : End) : Nat × Bytes × Except ErrCode.Err Bytes → Bool
  | (_, _, .ok d) => isFrame (s.sendMsg d false)
  | _ => false

def replyOf (s : End) : Nat × Bytes × Except ErrCode.Err Bytes → Option (Nat × Bytes)
  | (i, _, .ok d) => if isFrame (s.sendMsg d false) then some (i, d) else none
  | _ => none

/-- The code the session is closed with after the handler gave this. -/
def codeOf (s : End) : Except ErrCode.Err Bytes → UInt16
  | .error e => ErrCode.errCode (some e)
  | .ok d => if Over s.send d.length then 8 else 13

def fits (l : Int) (x : Nat × Bytes) : Bool := !decide (Over l x.2.length)

structure Good (c s : End) (w : World) (A1 A2 G1 G2 : List (Nat × Bytes)) : Prop where
  asked : w.asked = A1 ++ A2
  up : w.up = A2.filterMap (upOf c)
  sent : ∀ x ∈ w.asked, isFrame (c.sendMsg x.2 false) = true
  refused : ∀ x ∈ w.refused, Over c.send x.2.length
  lt : ∀ x ∈ w.asked ++ w.refused, x.1 < w.next
  ord : ((w.asked ++ w.refused).map (·.1)).Nodup
  ran : w.ran.map (fun x => (x.1, x.2.1)) ++ w.inbox <+: A1.filter (fits s.recv)
  ranAll : w.closed = none → w.ran.map (fun x => (x.1, x.2.1)) ++ w.inbox = A1.filter (fits s.recv)
  open_ : w.closed = none → (∀ x ∈ w.ran, fine s x = true) ∧ w.ended = none ∧ w.down = G2.filterMap (dnOf s)
  shut : ∀ k, w.closed = some k → (∃ l x, w.ran = l ++ [x] ∧ (∀ y ∈ l, fine s y = true) ∧ fine s x = false ∧ k = codeOf s x.2.2) ∧
    ((w.ended = none ∧ w.down = G2.filterMap (dnOf s) ++ [.close k]) ∨ (w.ended = some k ∧ w.down = [] ∧ G2 = []))
  replies : w.ran.filterMap (replyOf s) = G1 ++ G2
  got : w.got = G1.filter (fits c.recv)

theorem good_init (c s : End) : Good c s {} [] [] [] [] where
  asked := rfl
  up := rfl
  sent := fun _ h => (by cases h)
  refused := fun _ h => (by cases h)
  lt := fun _ h => (by cases h)
  ord := List.nodup_nil
  ran := List.prefix_refl _
  ranAll := fun _ => rfl
  open_ := fun _ => ⟨fun _ h => (by cases h), rfl, rfl⟩
  shut := fun _ h => (by cases h)
  replies := rfl
  got := rfl

theorem upOf_of {c : End} {x : Nat × Bytes} (h : isFrame (c.sendMsg x.2 false) = true) :
    ∃ f, c.sendMsg x.2 false = .frame f ∧ upOf c x = some (x.1, f) := by
  unfold upOf
  cases hs : c.sendMsg x.2 false with
  | frame f => exact ⟨f, rfl, rfl⟩
  | _ => rw [hs] at h; cases h

theorem dnOf_of {s : End} {x : Nat × Bytes} (h : isFrame (s.sendMsg x.2 false) = true) :
    ∃ f, s.sendMsg x.2 false = .frame f ∧ dnOf s x = some (.reply x.1 f) := by
  unfold dnOf
  cases hs : s.sendMsg x.2 false with
  | frame f => exact ⟨f, rfl, rfl⟩
  | _ => rw [hs] at h; cases h

theorem replies_sent {s : End} {l : List (Nat × Bytes × Except ErrCode.Err Bytes)} {x : Nat × Bytes}
    (h : x ∈ l.filterMap (replyOf s)) : isFrame (s.sendMsg x.2 false) = true ∧ ∃ p, (x.1, p, Except.ok x.2) ∈ l := by
  obtain ⟨y, hy, he⟩ := List.mem_filterMap.1 h
  obtain ⟨i, p, r⟩ := y
  cases r with
  | error e => cases he
  | ok d =>
    simp only [replyOf] at he
    split at he
    · injection he with he
      subst he
      exact ⟨by assumption, p, hy⟩
    · cases he

theorem good_step {c s : End} (ha : Agreed c s) {w w' : World} {A1 A2 G1 G2 : List (Nat × Bytes)} (h : Good c s w A1 A2 G1 G2) {a : Act}
    (e : step c s w a = some w') : ∃ A1 A2 G1 G2, Good c s w' A1 A2 G1 G2 := by
  cases a with
  | call req =>
    simp only [step] at e
    split at e
    · injection e with e; subst e; exact ⟨_, _, _, _, h⟩
    · rename_i hend
      have hlt : ∀ x ∈ w.asked ++ w.refused, x.1 < w.next + 1 := fun x hx => Nat.lt_succ_of_lt (h.lt x hx)
      have hnew : w.next ∉ (w.asked ++ w.refused).map (·.1) := by
        intro hm
        obtain ⟨x, hx, he⟩ := List.mem_map.1 hm
        have := h.lt x hx
        omega
      cases hs : c.sendMsg req false with
      | tooLarge =>
        rw [hs] at e
        injection e with e; subst e
        refine ⟨A1, A2, G1, G2, { h with refused := ?_, lt := ?_, ord := ?_ }⟩
        · intro x hx
          rcases List.mem_append.1 hx with hx | hx
          · exact h.refused x hx
          · rw [List.mem_singleton] at hx; subst hx
            exact (sendMsg_tooLarge c req false).1 hs
        · intro x hx
          rw [← List.append_assoc] at hx
          rcases List.mem_append.1 hx with hx | hx
          · exact hlt x hx
          · rw [List.mem_singleton] at hx; subst hx; exact Nat.lt_succ_self _
        · show ((w.asked ++ (w.refused ++ [(w.next, req)])).map (·.1)).Nodup
          rw [← List.append_assoc, List.map_append]
          refine List.nodup_append.2 ⟨h.ord, List.nodup_cons.2 ⟨by simp, List.nodup_nil⟩, ?_⟩
          intro x hx y hy
          simp only [List.map_cons, List.map_nil, List.mem_singleton] at hy
          subst hy
          intro he; subst he; exact hnew hx
      | compression =>
        rw [hs] at e
        injection e with e; subst e
        exact ⟨A1, A2, G1, G2, { h with lt := hlt }⟩
      | frame f =>
        rw [hs] at e
        injection e with e; subst e
        refine ⟨A1, A2 ++ [(w.next, req)], G1, G2, { h with asked := ?_, up := ?_, sent := ?_, lt := ?_, ord := ?_ }⟩
        · show w.asked ++ _ = _
          rw [h.asked, List.append_assoc]
        · show w.up ++ _ = _
          rw [List.filterMap_append, h.up]
          simp [upOf, hs]
        · intro x hx
          rcases List.mem_append.1 hx with hx | hx
          · exact h.sent x hx
          · rw [List.mem_singleton] at hx; subst hx; show isFrame (c.sendMsg req false) = true; rw [hs]; rfl
        · intro x hx
          rcases List.mem_append.1 hx with hx | hx
          · rcases List.mem_append.1 hx with hx | hx
            · exact hlt x (List.mem_append_left _ hx)
            · rw [List.mem_singleton] at hx; subst hx; exact Nat.lt_succ_self _
          · exact hlt x (List.mem_append_right _ hx)
        · show (((w.asked ++ [(w.next, req)]) ++ w.refused).map (·.1)).Nodup
          have hp : ((w.asked ++ [(w.next, req)]) ++ w.refused).Perm ((w.next, req) :: (w.asked ++ w.refused)) := by
            rw [List.append_assoc]
            exact List.perm_middle
          refine (hp.map (·.1)).nodup_iff.2 ?_
          exact List.nodup_cons.2 ⟨hnew, h.ord⟩
  | arrive =>
    simp only [step] at e
    cases hu : w.up with
    | nil => rw [hu] at e; cases e
    | cons y up =>
      obtain ⟨i, f⟩ := y
      rw [hu] at e
      simp only at e
      -- the first request on its way
      cases A2 with
      | nil => have := h.up; rw [hu] at this; cases this
      | cons x A2 =>
        obtain ⟨f', hf', hx⟩ := upOf_of (h.sent x (by rw [h.asked]; simp))
        have hup := h.up
        rw [hu, List.filterMap_cons, hx] at hup
        injection hup with h1 h2
        injection h1 with h1 h3
        subst h1; subst h3
        have hasked : w.asked = (A1 ++ [x]) ++ A2 := by rw [h.asked]; simp
        have hfil : (A1 ++ [x]).filter (fits s.recv) = A1.filter (fits s.recv) ++ [x].filter (fits s.recv) := List.filter_append ..
        split at e
        · rename_i hcl
          injection e with e; subst e
          refine ⟨A1 ++ [x], A2, G1, G2, { h with asked := hasked, up := h2, ran := ?_, ranAll := ?_ }⟩
          · rw [hfil]; exact h.ran.trans (List.prefix_append _ _)
          · intro h0; rw [show w.closed = none from h0] at hcl; cases hcl
        · rename_i hcl
          have hcl : w.closed = none := by cases hc : w.closed with
            | none => rfl
            | some k => rw [hc] at hcl; exact absurd rfl hcl
          rw [recv_sent ha.up hf'] at e
          by_cases hov : Over s.recv x.2.length
          · rw [if_pos hov] at e
            injection e with e; subst e
            have hx0 : [x].filter (fits s.recv) = [] := by simp [fits, hov]
            refine ⟨A1 ++ [x], A2, G1, G2, { h with asked := hasked, up := h2, ran := ?_, ranAll := ?_ }⟩
            · rw [hfil, hx0, List.append_nil]; exact h.ran
            · intro h0; rw [hfil, hx0, List.append_nil]; exact h.ranAll h0
          · rw [if_neg hov] at e
            injection e with e; subst e
            have hx1 : [x].filter (fits s.recv) = [x] := by simp [fits, hov]
            have heq : w.ran.map (fun x => (x.1, x.2.1)) ++ (w.inbox ++ [(x.1, x.2)]) = (A1 ++ [x]).filter (fits s.recv) := by
              rw [hfil, hx1, ← List.append_assoc, h.ranAll hcl]
            refine ⟨A1 ++ [x], A2, G1, G2, { h with asked := hasked, up := h2, ran := ?_, ranAll := fun _ => heq }⟩
            exact heq ▸ List.prefix_refl _
  | serve r =>
    simp only [step] at e
    split at e
    · cases e
    · rename_i hcl
      have hcl : w.closed = none := by cases hc : w.closed with
        | none => rfl
        | some k => rw [hc] at hcl; exact absurd rfl hcl
      cases hin : w.inbox with
      | nil => rw [hin] at e; cases e
      | cons y inbox =>
        obtain ⟨i, req⟩ := y
        rw [hin] at e
        simp only at e
        have hall : (w.ran ++ [(i, req, r)]).map (fun x => (x.1, x.2.1)) ++ inbox = A1.filter (fits s.recv) := by
          rw [← h.ranAll hcl, hin]; simp
        obtain ⟨o1, o2, o3⟩ := h.open_ hcl
        -- the session ends
        have hshut : ∀ err : ErrCode.Err, fine s (i, req, r) = false → ErrCode.errCode (some err) = codeOf s r →
            Good c s ((({ w with inbox := inbox, ran := w.ran ++ [(i, req, r)] } : World)).shut err) A1 A2 G1 G2 := by
          intro err hf hk
          have hrep : replyOf s (i, req, r) = none := by
            cases r with
            | error e => rfl
            | ok d => simp only [fine] at hf; simp [replyOf, hf]
          refine { h with ran := hall ▸ List.prefix_refl _, ranAll := fun _ => hall, open_ := fun h0 => (by cases h0),
                          shut := ?_, replies := ?_ }
          · intro k hk'
            injection hk' with hk'; subst hk'
            exact ⟨⟨w.ran, (i, req, r), rfl, o1, hf, hk⟩, .inl ⟨o2, by show w.down ++ _ = _; rw [o3]⟩⟩
          · show (w.ran ++ [(i, req, r)]).filterMap (replyOf s) = _
            rw [List.filterMap_append, h.replies]
            simp [hrep]
        cases r with
        | error err =>
          injection e with e; subst e
          exact ⟨A1, A2, G1, G2, hshut err rfl rfl⟩
        | ok resp =>
          simp only at e
          cases hs : s.sendMsg resp false with
          | tooLarge =>
            rw [hs] at e
            injection e with e; subst e
            refine ⟨A1, A2, G1, G2, hshut _ (by simp [fine, hs, isFrame]) ?_⟩
            have := (sendMsg_tooLarge s resp false).1 hs
            simp only [codeOf, if_pos this]
            rfl
          | compression =>
            rw [hs] at e
            injection e with e; subst e
            refine ⟨A1, A2, G1, G2, hshut _ (by simp [fine, hs, isFrame]) ?_⟩
            have : ¬ Over s.send resp.length := fun h' => by rw [(sendMsg_tooLarge s resp false).2 h'] at hs; cases hs
            simp only [codeOf, if_neg this]
            rfl
          | frame f =>
            rw [hs] at e
            injection e with e; subst e
            refine ⟨A1, A2, G1, G2 ++ [(i, resp)], { h with ran := hall ▸ List.prefix_refl _, ranAll := fun _ => hall, open_ := fun _ => ?_,
                                                            shut := fun k hk => ?_, replies := ?_ }⟩
            · refine ⟨?_, o2, ?_⟩
              · intro x hx
                rcases List.mem_append.1 hx with hx | hx
                · exact o1 x hx
                · rw [List.mem_singleton] at hx; subst hx; simp [fine, hs, isFrame]
              · show w.down ++ _ = _
                rw [o3, List.filterMap_append]
                simp [dnOf, hs]
            · rw [show w.closed = some k from hk] at hcl; cases hcl
            · show (w.ran ++ [(i, req, Except.ok resp)]).filterMap (replyOf s) = _
              rw [List.filterMap_append, h.replies]
              simp [replyOf, hs, isFrame]
  | back =>
    simp only [step] at e
    -- the first reply on its way
    have hfirst : ∀ (i : Nat) (f : Compress.Frame) (down : List Down), (∃ tail, w.down = G2.filterMap (dnOf s) ++ tail ∧
        ∀ j g, Down.reply j g ∉ tail) → w.down = .reply i f :: down → ∃ x G2', G2 = x :: G2' ∧ x.1 = i ∧ s.sendMsg x.2 false = .frame f := by
      rintro i f down ⟨tail, ht, hno⟩ hd
      cases G2 with
      | nil =>
        simp only [List.filterMap_nil, List.nil_append] at ht
        rw [ht] at hd
        exact absurd (hd ▸ List.mem_cons_self) (hno i f)
      | cons x G2 =>
        have hm : x ∈ w.ran.filterMap (replyOf s) := by rw [h.replies]; simp
        obtain ⟨f', hf', hx⟩ := dnOf_of (replies_sent hm).1
        rw [hd, List.filterMap_cons, hx] at ht
        injection ht with h1 h2
        injection h1 with h1 h3
        subst h1; subst h3
        exact ⟨x, G2, rfl, rfl, hf'⟩
    have htail : ∃ tail, w.down = G2.filterMap (dnOf s) ++ tail ∧ ∀ j g, Down.reply j g ∉ tail := by
      cases hc : w.closed with
      | none => exact ⟨[], by rw [(h.open_ hc).2.2, List.append_nil], fun _ _ h => (by cases h)⟩
      | some k =>
        rcases (h.shut k hc).2 with ⟨_, h2⟩ | ⟨_, h2, h3⟩
        · exact ⟨_, h2, fun j g hm => by rw [List.mem_singleton] at hm; cases hm⟩
        · exact ⟨[], by rw [h2, h3]; rfl, fun _ _ h => (by cases h)⟩
    cases hd : w.down with
    | nil => rw [hd] at e; cases e
    | cons y down =>
      rw [hd] at e
      cases y with
      | close code =>
        injection e with e; subst e
        have hG : G2 = [] := by
          cases G2 with
          | nil => rfl
          | cons x G2 =>
            have hm : x ∈ w.ran.filterMap (replyOf s) := by rw [h.replies]; simp
            obtain ⟨f', hf', hx⟩ := dnOf_of (replies_sent hm).1
            obtain ⟨tail, ht, _⟩ := htail
            rw [hd, List.filterMap_cons, hx] at ht
            injection ht with h1 _
            cases h1
        subst hG
        refine ⟨A1, A2, G1, [], { h with open_ := ?_, shut := ?_ }⟩
        · intro h0
          have := (h.open_ h0).2.2
          rw [hd] at this; cases this
        · intro k hk
          refine ⟨(h.shut k hk).1, .inr ?_⟩
          rcases (h.shut k hk).2 with ⟨_, h2⟩ | ⟨_, h2, _⟩
          · rw [hd] at h2
            injection h2 with h2 h3
            injection h2 with h2
            exact ⟨congrArg some h2, h3, rfl⟩
          · rw [hd] at h2; cases h2
      | reply i f =>
        simp only at e
        obtain ⟨x, G2', hG, hi, hf⟩ := hfirst i f down htail hd
        subst hG; subst hi
        have hdn : dnOf s x = some (.reply x.1 f) := by simp [dnOf, hf]
        rw [recv_sent ha.down hf] at e
        have hopen : ∀ w' : World, w'.ran = w.ran → w'.ended = w.ended → w'.down = down → w'.closed = w.closed → w'.closed = none →
            (∀ y ∈ w'.ran, fine s y = true) ∧ w'.ended = none ∧ w'.down = G2'.filterMap (dnOf s) := by
          intro w' e1 e2 e3 e4 h0
          obtain ⟨o1, o2, o3⟩ := h.open_ (e4 ▸ h0)
          refine ⟨e1 ▸ o1, e2 ▸ o2, ?_⟩
          rw [hd, List.filterMap_cons, hdn] at o3
          injection o3 with _ o3
          rw [e3, o3]
        have hshut : ∀ w' : World, w'.ran = w.ran → w'.ended = w.ended → w'.down = down → w'.closed = w.closed → ∀ k, w'.closed = some k →
            (∃ l x, w'.ran = l ++ [x] ∧ (∀ y ∈ l, fine s y = true) ∧ fine s x = false ∧ k = codeOf s x.2.2) ∧
            ((w'.ended = none ∧ w'.down = G2'.filterMap (dnOf s) ++ [.close k]) ∨ (w'.ended = some k ∧ w'.down = [] ∧ G2' = [])) := by
          intro w' e1 e2 e3 e4 k hk
          obtain ⟨s1, s2⟩ := h.shut k (e4 ▸ hk)
          refine ⟨e1 ▸ s1, ?_⟩
          rcases s2 with ⟨t1, t2⟩ | ⟨_, t2, _⟩
          · rw [hd, List.filterMap_cons, hdn] at t2
            injection t2 with _ t2
            exact .inl ⟨e2 ▸ t1, by rw [e3]; exact t2⟩
          · rw [hd] at t2; cases t2
        have hrep : w.ran.filterMap (replyOf s) = (G1 ++ [x]) ++ G2' := by rw [h.replies]; simp
        have hfil : (G1 ++ [x]).filter (fits c.recv) = G1.filter (fits c.recv) ++ [x].filter (fits c.recv) := List.filter_append ..
        by_cases hov : Over c.recv x.2.length
        · rw [if_pos hov] at e
          injection e with e; subst e
          refine ⟨A1, A2, G1 ++ [x], G2', { h with open_ := hopen _ rfl rfl rfl rfl, shut := hshut _ rfl rfl rfl rfl, replies := hrep, got := ?_ }⟩
          rw [hfil, show [x].filter (fits c.recv) = [] by simp [fits, hov], List.append_nil]
          exact h.got
        · rw [if_neg hov] at e
          injection e with e; subst e
          refine ⟨A1, A2, G1 ++ [x], G2', { h with open_ := hopen _ rfl rfl rfl rfl, shut := hshut _ rfl rfl rfl rfl, replies := hrep, got := ?_ }⟩
          rw [hfil, show [x].filter (fits c.recv) = [x] by simp [fits, hov], ← h.got]

theorem good_run {c s : End} (ha : Agreed c s) (as : List Act) {w w' : World} {A1 A2 G1 G2 : List (Nat × Bytes)}
    (h : Good c s w A1 A2 G1 G2) (e : run c s as w = some w') : ∃ A1 A2 G1 G2, Good c s w' A1 A2 G1 G2 := by
  induction as generalizing w A1 A2 G1 G2 with
  | nil => injection e with e; subst e; exact ⟨_, _, _, _, h⟩
  | cons a as ih =>
    simp only [run] at e
    cases hs : step c s w a with
    | none => rw [hs] at e; cases e
    | some v =>
      rw [hs] at e
      obtain ⟨_, _, _, _, h'⟩ := good_step ha h hs
      exact ih h' e

end Claw.Limits
