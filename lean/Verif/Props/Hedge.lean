import Verif.Model.Hedge
import Verif.Lemmas.GoStr

/-!
# C29: the hedging interceptor
-/

namespace Claw.Hedge

open Claw Claw.Retry

variable {R E : Type}

def Att.isSent : Att R E → Bool
  | .sent _ => true
  | _ => false

def Outcome.nonFatal (fatal : E → Bool) : Outcome R E → Prop
  | .reply _ => False
  | .fail e => fatal e = false

/-- What is known about how the call ended. -/
def Ending (fatal : E → Bool) (n : Nat) (s : St R E) : Final R E → Prop
  | .reply r => (∃ pre, s.log = pre ++ [.reply r] ∧ ∀ o ∈ pre, Outcome.nonFatal fatal o) ∧
      ∃ i, (i, .reply r) ∈ s.outs
  | .fail e =>
      (fatal e = true ∧ (∃ i, (i, .fail e) ∈ s.outs)) ∨
      ((∀ i, i < n + 1 → ∃ e', (i, .fail e') ∈ s.outs ∧ fatal e' = false) ∧
        ∃ i, i < n + 1 ∧ (i, .fail e) ∈ s.outs)
  | .ctxErr => s.parentDone = true
  | .nilErr => False

structure Inv (fatal : E → Bool) (n : Nat) (s : St R E) : Prop where
  len : s.att.length = n + 1
  recvd : s.received = s.log.length
  count : s.log.length + s.queue.length = s.att.countP Att.isSent
  sentMem : ∀ (i : Nat) (o : Outcome R E), s.att[i]? = some (.sent o) → o ∈ s.log ++ s.queue
  src : ∀ o ∈ s.log ++ s.queue, ∃ i, (i, o) ∈ s.outs
  attOut : ∀ i o, s.att[i]? = some (.finished o) ∨ s.att[i]? = some (.sent o) → (i, o) ∈ s.outs
  outAtt : ∀ i o, (i, o) ∈ s.outs →
    s.att[i]? = some (.finished o) ∨ s.att[i]? = some (.sent o) ∨ s.att[i]? = some .gone
  outFun : ∀ i o o', (i, o) ∈ s.outs → (i, o') ∈ s.outs → o = o'
  outCall : ∀ i o, (i, o) ∈ s.outs → i ∈ s.calls
  callAtt : ∀ i ∈ s.calls, s.att[i]? ≠ some .ready ∧ s.att[i]? ≠ some .waiting ∧ i < n + 1
  nodup : s.calls.Nodup
  gone : ∀ i : Nat, s.att[i]? = some .gone → s.hedgeDone = true
  runCall : ∀ i : Nat, s.att[i]? = some .running → i ∈ s.calls
  open_ : s.result = none → (∀ o ∈ s.log, Outcome.nonFatal fatal o) ∧
    (∀ e, s.lastErr = some e → .fail e ∈ s.log) ∧ (s.lastErr = none → s.log = [])
  ended : ∀ f, s.result = some f → Ending fatal n s f

section
variable {fatal : E → Bool} {n : Nat}

theorem getElem?_set_cases {α : Type} (l : List α) (i j : Nat) (a b : α)
    (h : (l.set i a)[j]? = some b) : (j = i ∧ b = a) ∨ (j ≠ i ∧ l[j]? = some b) := by
  by_cases hji : j = i
  · subst hji
    rw [List.getElem?_set_self'] at h
    cases hl : l[j]? with
    | none => simp [hl] at h
    | some x => simp [hl] at h; exact Or.inl ⟨rfl, h.symm⟩
  · rw [List.getElem?_set_ne (fun e => hji e.symm)] at h
    exact Or.inr ⟨hji, h⟩

theorem countP_set_of {α : Type} (p : α → Bool) (l : List α) (i : Nat) (a b : α)
    (h : l[i]? = some b) :
    (l.set i a).countP p + (if p b then 1 else 0) = l.countP p + (if p a then 1 else 0) := by
  induction l generalizing i with
  | nil => simp at h
  | cons x l ih =>
    cases i with
    | zero =>
      simp at h
      subst h
      simp only [List.set_cons_zero, List.countP_cons]
      omega
    | succ i =>
      simp only [List.getElem?_cons_succ] at h
      have := ih i h
      simp only [List.set_cons_succ, List.countP_cons]
      omega

theorem Ending.mono {s t : St R E} {f : Final R E} (h : Ending fatal n s f)
    (hlog : t.log = s.log) (hout : ∀ x ∈ s.outs, x ∈ t.outs)
    (hd : s.parentDone = true → t.parentDone = true) : Ending fatal n t f := by
  cases f with
  | reply r =>
    obtain ⟨h1, i, hi⟩ := h
    exact ⟨by rw [hlog]; exact h1, i, hout _ hi⟩
  | fail e =>
    rcases h with ⟨he, i, hi⟩ | ⟨hall, i, hi, hio⟩
    · exact Or.inl ⟨he, i, hout _ hi⟩
    · refine Or.inr ⟨fun j hj => ?_, i, hi, hout _ hio⟩
      obtain ⟨e', h1, h2⟩ := hall j hj
      exact ⟨e', hout _ h1, h2⟩
  | ctxErr => exact hd h
  | nilErr => exact h

theorem inv_init : Inv fatal n (init (R := R) (E := E) n) := by
  constructor <;> simp [init, List.countP_replicate, Att.isSent]
  all_goals
    intro i
    first
      | (intro o; cases i <;> simp [List.getElem?_replicate])
      | (cases i <;> simp [List.getElem?_replicate])

/-- Moving one goroutine without touching the channel or the result keeps the invariant when
the new position is consistent with the history. -/
theorem Inv.move {s : St R E} (h : Inv fatal n s) (i : Nat) (a b : Att R E)
    (calls : List Nat) (outs : List (Nat × Outcome R E))
    (hi : s.att[i]? = some b) (hb : b.isSent = false) (ha : a.isSent = false)
    (hcalls : calls = s.calls ∨ (calls = s.calls ++ [i] ∧ (b = .ready ∨ b = .waiting)))
    (hready : a ≠ .ready ∧ a ≠ .waiting)
    (houts : (outs = s.outs ∧ (∀ o, a ≠ .finished o) ∧
        ((b = .ready ∨ b = .waiting) ∨ a = .gone)) ∨
      ∃ o, b = .running ∧ a = .finished o ∧ outs = s.outs ++ [(i, o)] ∧ i ∈ s.calls)
    (hgone : a = .gone → s.hedgeDone = true) (hrun : a = .running → i ∈ calls) :
    Inv fatal n { s with att := s.att.set i a, calls := calls, outs := outs } := by
  have hlt : i < n + 1 := by
    have := h.len
    have := (List.getElem?_eq_some_iff.mp hi).1
    omega
  have hsub : ∀ x ∈ s.outs, x ∈ outs := by
    intro x hx
    rcases houts with ⟨he, -⟩ | ⟨o, -, -, he, -⟩ <;> simp [he, hx]
  have hcsub : ∀ x ∈ s.calls, x ∈ calls := by
    intro x hx
    rcases hcalls with he | ⟨he, -⟩ <;> simp [he, hx]
  refine
    { len := by simpa using h.len
      recvd := h.recvd
      count := ?_, sentMem := ?_, src := ?_, attOut := ?_, outAtt := ?_, outFun := ?_, outCall := ?_,
      callAtt := ?_, nodup := ?_, gone := ?_, runCall := ?_
      open_ := h.open_
      ended := ?_ }
  · have := countP_set_of Att.isSent s.att i a b hi
    rw [ha, hb] at this
    have := h.count
    simp only at *
    omega
  · intro j o hj
    rcases getElem?_set_cases _ _ _ _ _ hj with ⟨-, he⟩ | ⟨-, hj⟩
    · subst he; cases ha
    · exact h.sentMem j o hj
  · intro o ho
    obtain ⟨j, hj⟩ := h.src o ho
    exact ⟨j, hsub _ hj⟩
  · intro j o hj
    have key : ∀ c, (s.att.set i a)[j]? = some c → (c = .finished o ∨ c = .sent o) →
        (j, o) ∈ outs := by
      intro c hc hco
      rcases getElem?_set_cases _ _ _ _ _ hc with ⟨hji, he⟩ | ⟨-, hc⟩
      · subst he
        rcases hco with hco | hco
        · rcases houts with ⟨-, hne, -⟩ | ⟨o', -, ha', he, -⟩
          · exact absurd hco (hne o)
          · rw [hco] at ha'; injection ha' with ha'; subst ha'
            simp [he, hji]
        · rw [hco] at ha; cases ha
      · refine hsub _ (h.attOut j o ?_)
        rcases hco with hco | hco <;> subst hco
        · exact Or.inl hc
        · exact Or.inr hc
    rcases hj with hj | hj
    · exact key _ hj (Or.inl rfl)
    · exact key _ hj (Or.inr rfl)
  · intro j o hj
    have hat : ∀ c, (j ≠ i → s.att[j]? = some c) → j ≠ i → (s.att.set i a)[j]? = some c := by
      intro c hc hne
      rw [List.getElem?_set_ne (fun e => hne e.symm)]
      exact hc hne
    have hself : (s.att.set i a)[i]? = some a := by
      rw [List.getElem?_set_self (by have := h.len; omega)]
    have old : (j, o) ∈ s.outs → j ≠ i →
        (s.att.set i a)[j]? = some (.finished o) ∨ (s.att.set i a)[j]? = some (.sent o) ∨
          (s.att.set i a)[j]? = some .gone := by
      intro hm hne
      rw [List.getElem?_set_ne (fun e => hne e.symm)]
      exact h.outAtt j o hm
    rcases houts with ⟨he, hne, hba⟩ | ⟨o', hb', ha', he, -⟩
    · replace hj : (j, o) ∈ outs := hj
      rw [he] at hj
      by_cases hji : j = i
      · subst hji
        rcases hba with hba | hba
        · exfalso
          have := h.outAtt j o hj
          rw [hi] at this
          rcases hba with hba | hba <;> subst hba <;> simp at this
        · exact Or.inr (Or.inr (by rw [hself, hba]))
      · exact old hj hji
    · have hj : (j, o) ∈ outs := hj
      rw [he] at hj
      rcases List.mem_append.mp hj with hm | hj
      · have hj := hm
        by_cases hji : j = i
        · subst hji
          have := h.outAtt j o hm
          rw [hi, hb'] at this
          simp at this
        · exact old hj hji
      · simp at hj
        obtain ⟨h1, h2⟩ := hj
        subst h1; subst h2
        exact Or.inl (by rw [hself, ha'])
  · intro j o o' h1 h2
    replace h1 : (j, o) ∈ outs := h1
    replace h2 : (j, o') ∈ outs := h2
    rcases houts with ⟨he, -, -⟩ | ⟨x, hb', -, he, -⟩
    · rw [he] at h1 h2
      exact h.outFun j o o' h1 h2
    · have fresh : ∀ y, (i, y) ∉ s.outs := by
        intro y hy
        have := h.outAtt i y hy
        rw [hi, hb'] at this
        simp at this
      rw [he] at h1 h2
      simp only [List.mem_append, List.mem_singleton, Prod.mk.injEq] at h1 h2
      rcases h1 with h1 | ⟨h1, k1⟩ <;> rcases h2 with h2 | ⟨h2, k2⟩
      · exact h.outFun j o o' h1 h2
      · subst h2; exact absurd h1 (fresh o)
      · subst h1; exact absurd h2 (fresh o')
      · rw [k1, k2]
  · intro j o hj
    have hj : (j, o) ∈ outs := hj
    rcases houts with ⟨he, -, -⟩ | ⟨o', -, -, he, hic⟩
    · rw [he] at hj
      exact hcsub _ (h.outCall j o hj)
    · rw [he] at hj
      rcases List.mem_append.mp hj with hj | hj
      · exact hcsub _ (h.outCall j o hj)
      · simp at hj
        rw [hj.1]
        exact hcsub _ hic
  · intro j hj
    have hj : j ∈ calls := hj
    have key : j ∈ s.calls ∨ j = i := by
      rcases hcalls with he | ⟨he, -⟩
      · rw [he] at hj; exact Or.inl hj
      · rw [he] at hj; simpa using hj
    by_cases hji : j = i
    · subst hji
      have hself : (s.att.set j a)[j]? = some a := by
        rw [List.getElem?_set_self (by have := h.len; omega)]
      simp only
      rw [hself]
      refine ⟨fun e => hready.1 (by injection e), fun e => hready.2 (by injection e), hlt⟩
    · have hjc : j ∈ s.calls := by
        rcases key with k | k
        · exact k
        · exact absurd k hji
      simp only
      rw [List.getElem?_set_ne (fun e => hji e.symm)]
      exact h.callAtt j hjc
  · rcases hcalls with he | ⟨he, hb'⟩
    · simp only [he]; exact h.nodup
    · simp only [he]
      have hni : i ∉ s.calls := by
        intro hm
        have := h.callAtt i hm
        rw [hi] at this
        rcases hb' with hb' | hb' <;> subst hb' <;> simp at this
      rw [List.nodup_append]
      refine ⟨h.nodup, by simp, ?_⟩
      intro x hx y hy
      simp at hy
      subst hy
      intro e
      subst e
      exact hni hx
  · intro j hj
    rcases getElem?_set_cases _ _ _ _ _ hj with ⟨-, he⟩ | ⟨-, hj⟩
    · exact hgone he.symm
    · exact h.gone j hj
  · intro j hj
    rcases getElem?_set_cases _ _ _ _ _ hj with ⟨hji, he⟩ | ⟨-, hj⟩
    · rw [hji]; exact hrun he.symm
    · exact hcsub _ (h.runCall j hj)
  · intro f hf
    exact (h.ended f hf).mono rfl hsub (fun x => x)

theorem Inv.sentCount_le {s : St R E} (h : Inv fatal n s) :
    s.log.length + s.queue.length ≤ n + 1 := by
  rw [h.count, ← h.len]
  exact List.countP_le_length

theorem all_of_countP {α : Type} (p : α → Bool) (l : List α) (h : l.countP p = l.length) :
    ∀ x ∈ l, p x = true := List.countP_eq_length.mp h

theorem inv_step {s t : St R E} (h : Inv fatal n s) (st : Step fatal n s t) : Inv fatal n t := by
  cases st with
  | begin hr =>
    exact h.move 0 .running .ready _ _ hr rfl rfl (Or.inr ⟨rfl, Or.inl rfl⟩) (by simp)
      (Or.inl ⟨rfl, by simp, Or.inl (Or.inl rfl)⟩) (by simp) (by simp)
  | fire i hw hd =>
    exact h.move i .running .waiting _ _ hw rfl rfl (Or.inr ⟨rfl, Or.inr rfl⟩) (by simp)
      (Or.inl ⟨rfl, by simp, Or.inl (Or.inr rfl)⟩) (by simp) (by simp)
  | quit i hw hd =>
    exact h.move i .gone .waiting _ _ hw rfl rfl (Or.inl rfl) (by simp)
      (Or.inl ⟨rfl, by simp, Or.inr rfl⟩) (fun _ => hd) (by simp)
  | finish i o hr =>
    exact h.move i (.finished o) .running _ _ hr rfl rfl (Or.inl rfl) (by simp)
      (Or.inr ⟨o, rfl, rfl, rfl, h.runCall i hr⟩) (by simp) (by simp)
  | drop i o hf hd =>
    exact h.move i .gone (.finished o) _ _ hf rfl rfl (Or.inl rfl) (by simp)
      (Or.inl ⟨rfl, by simp, Or.inr rfl⟩) (fun _ => hd) (by simp)
  | send i o hf hroom =>
    have hlt : i < s.att.length := (List.getElem?_eq_some_iff.mp hf).1
    refine
      { len := by simpa using h.len
        recvd := h.recvd
        count := ?_, sentMem := ?_, src := ?_, attOut := ?_, outAtt := ?_
        outFun := h.outFun
        outCall := h.outCall
        callAtt := ?_
        nodup := h.nodup
        gone := ?_, runCall := ?_
        open_ := h.open_
        ended := fun f hf' => (h.ended f hf').mono rfl (fun _ x => x) (fun x => x) }
    · have := countP_set_of Att.isSent s.att i (.sent o) _ hf
      simp [Att.isSent] at this
      have := h.count
      simp only [List.length_append, List.length_cons, List.length_nil]
      omega
    · intro j o' hj
      rcases getElem?_set_cases _ _ _ _ _ hj with ⟨-, he⟩ | ⟨-, hj⟩
      · injection he with he; subst he; simp
      · have := h.sentMem j o' hj
        simp only [List.mem_append] at this ⊢
        rcases this with k | k
        · exact Or.inl k
        · exact Or.inr (Or.inl k)
    · intro o' ho'
      simp only [List.mem_append, List.mem_singleton] at ho'
      rcases ho' with k | k | k
      · exact h.src o' (List.mem_append.mpr (Or.inl k))
      · exact h.src o' (List.mem_append.mpr (Or.inr k))
      · subst k; exact ⟨i, h.attOut i o' (Or.inl hf)⟩
    · intro j o' hj
      rcases hj with hj | hj
      · rcases getElem?_set_cases _ _ _ _ _ hj with ⟨-, he⟩ | ⟨-, hj⟩
        · cases he
        · exact h.attOut j o' (Or.inl hj)
      · rcases getElem?_set_cases _ _ _ _ _ hj with ⟨hji, he⟩ | ⟨-, hj⟩
        · injection he with he; subst he; subst hji
          exact h.attOut j o' (Or.inl hf)
        · exact h.attOut j o' (Or.inr hj)
    · intro j o' hj
      by_cases hji : j = i
      · subst hji
        have h1 := h.outAtt j o' hj
        rw [hf] at h1
        simp at h1
        subst h1
        refine Or.inr (Or.inl ?_)
        exact List.getElem?_set_self hlt
      · simp only
        rw [List.getElem?_set_ne (fun e => hji e.symm)]
        exact h.outAtt j o' hj
    · intro j hj
      by_cases hji : j = i
      · subst hji
        have h3 := (h.callAtt j hj).2.2
        simp only
        rw [List.getElem?_set_self hlt]
        exact ⟨by simp, by simp, h3⟩
      · simp only
        rw [List.getElem?_set_ne (fun e => hji e.symm)]
        exact h.callAtt j hj
    · intro j hj
      rcases getElem?_set_cases _ _ _ _ _ hj with ⟨-, he⟩ | ⟨-, hj⟩
      · cases he
      · exact h.gone j hj
    · intro j hj
      rcases getElem?_set_cases _ _ _ _ _ hj with ⟨-, he⟩ | ⟨-, hj⟩
      · cases he
      · exact h.runCall j hj
  | cancel =>
    exact
      { h with
        gone := fun j hj => by simp [St.hedgeDone]
        ended := fun f hf' => (h.ended f hf').mono rfl (fun _ x => x) (fun _ => rfl) }
  | ctxEnd hres hlt hd =>
    exact
      { h with
        gone := fun j hj => by simp [St.hedgeDone]
        open_ := fun k => by cases k
        ended := fun f hf' => by
          simp only [Option.some.injEq] at hf'
          subst hf'
          exact hd }
  | recv o q hres hlt hq =>
    have hopen := h.open_ hres
    have hmem : ∀ o', o' ∈ (s.log ++ [o]) ++ q ↔ o' ∈ s.log ++ s.queue := by
      intro o'; rw [hq]; simp
    obtain ⟨i, hi⟩ := h.src o (by rw [hq]; simp)
    have base : ∀ (le : Option E) (res : Option (Final R E)) ,
        ((res = none) → (∀ x ∈ s.log ++ [o], Outcome.nonFatal fatal x) ∧
          (∀ e, le = some e → .fail e ∈ s.log ++ [o]) ∧ (le = none → s.log ++ [o] = [])) →
        (∀ f, res = some f → Ending fatal n { s with queue := q, log := s.log ++ [o] } f) →
        Inv fatal n { s with queue := q, received := s.received + 1, log := s.log ++ [o],
                             lastErr := le, result := res } := by
      intro le res ho he
      refine
        { len := h.len
          recvd := by simp [h.recvd]
          count := ?_
          sentMem := fun j o' hj => (hmem o').mpr (h.sentMem j o' hj)
          src := fun o' ho' => h.src o' ((hmem o').mp ho')
          attOut := h.attOut
          outAtt := h.outAtt
          outFun := h.outFun
          outCall := h.outCall
          callAtt := h.callAtt
          nodup := h.nodup
          gone := ?_
          runCall := h.runCall
          open_ := ho
          ended := fun f hf' => (he f hf').mono rfl (fun _ x => x) (fun x => x) }
      · have := h.count
        rw [hq] at this
        simp at this ⊢
        omega
      · intro j hj
        have := h.gone j hj
        simp [St.hedgeDone, hres] at this
        simp [St.hedgeDone, this]
    cases o with
    | reply r =>
      refine base s.lastErr (some (.reply r)) (fun k => by cases k) ?_
      intro f hf'
      simp only [Option.some.injEq] at hf'
      subst hf'
      exact ⟨⟨s.log, rfl, hopen.1⟩, i, hi⟩
    | fail e =>
      cases hfe : fatal e with
      | true =>
        have e1 : handle fatal s (.fail e) q =
            { s with queue := q, received := s.received + 1, log := s.log ++ [.fail e],
                     lastErr := s.lastErr, result := some (.fail e) } := by simp [handle, hfe]
        rw [e1]
        refine base s.lastErr (some (.fail e)) (fun k => by cases k) ?_
        intro f hf'
        simp only [Option.some.injEq] at hf'
        subst hf'
        exact Or.inl ⟨hfe, i, hi⟩
      | false =>
        have e1 : handle fatal s (.fail e) q =
            { s with queue := q, received := s.received + 1, log := s.log ++ [.fail e],
                     lastErr := some e, result := s.result } := by simp [handle, hfe]
        rw [e1, hres]
        refine base (some e) none (fun _ => ⟨?_, ?_, ?_⟩) (fun f k => by cases k)
        · intro o' ho'
          simp only [List.mem_append, List.mem_singleton] at ho'
          rcases ho' with k | k
          · exact hopen.1 o' k
          · subst k; exact hfe
        · intro e' he'
          injection he' with he'
          subst he'
          simp
        · intro k; cases k
  | exhausted hres hlt =>
    have hopen := h.open_ hres
    have hle := h.sentCount_le
    have hr := h.recvd
    have hq0 : s.queue = [] := List.length_eq_zero_iff.mp (by omega)
    have hall : ∀ i, i < n + 1 → ∃ o, s.att[i]? = some (.sent o) := by
      intro i hi
      have hc : s.att.countP Att.isSent = s.att.length := by
        have := h.count; have := h.len; omega
      have hi' : i < s.att.length := by have := h.len; omega
      have := all_of_countP _ _ hc s.att[i] (List.getElem_mem hi')
      cases hx : s.att[i] with
      | sent o => exact ⟨o, by rw [List.getElem?_eq_getElem hi', hx]⟩
      | _ => rw [hx] at this; cases this
    have hfail : ∀ i, i < n + 1 → ∃ e', (i, .fail e') ∈ s.outs ∧ fatal e' = false := by
      intro i hi
      obtain ⟨o, ho⟩ := hall i hi
      have hm := h.sentMem i o ho
      rw [hq0, List.append_nil] at hm
      have hnf := hopen.1 o hm
      cases o with
      | reply r => exact absurd hnf (by simp [Outcome.nonFatal])
      | fail e => exact ⟨e, h.attOut i _ (Or.inr ho), hnf⟩
    refine
      { h with
        gone := fun j hj => by simp [St.hedgeDone]
        open_ := fun k => by cases k
        ended := ?_ }
    intro f hf'
    simp only [Option.some.injEq] at hf'
    cases hle : s.lastErr with
    | none =>
      exfalso
      have := hopen.2.2 hle
      rw [this] at hr
      simp at hr
      omega
    | some e =>
      rw [hle] at hf'
      subst hf'
      refine Or.inr ⟨hfail, ?_⟩
      obtain ⟨i, hi⟩ := h.src (.fail e) (List.mem_append.mpr (Or.inl (hopen.2.1 e hle)))
      exact ⟨i, (h.callAtt i (h.outCall i _ hi)).2.2, hi⟩

theorem inv_reach {s : St R E} (h : Reach fatal n s) : Inv fatal n s := by
  induction h with
  | start => exact inv_init
  | step _ st ih => exact inv_step ih st

end

/-! ## Specification -/

/-- Attempt `i` was started and the server's answer to it was `o`. -/
def Got (s : St R E) (i : Nat) (o : Outcome R E) : Prop := i ∈ s.calls ∧ (i, o) ∈ s.outs

theorem nodup_length_le {α : Type} [DecidableEq α] {l l' : List α} (h : l.Nodup) (hs : l ⊆ l') :
    l.length ≤ l'.length := by
  induction l generalizing l' with
  | nil => simp
  | cons a l ih =>
    rw [List.nodup_cons] at h
    have ha : a ∈ l' := hs (by simp)
    have hs' : l ⊆ l'.erase a := by
      intro x hx
      have hne : x ≠ a := by intro e; subst e; exact h.1 hx
      exact (List.mem_erase_of_ne hne).mpr (hs (by simp [hx]))
    have := ih h.2 hs'
    rw [List.length_erase_of_mem ha] at this
    have := List.length_pos_of_mem ha
    simp
    omega

/-- **C29**, the attempts: on every schedule, at most `MaxHedgedRequests + 1` calls are made
and no attempt is sent twice. -/
theorem C29_bounded_attempts (fatal : E → Bool) (n : Nat) (s : St R E)
    (h : Reach fatal n s) :
    s.calls.length ≤ n + 1 ∧ s.calls.Nodup := by
  have inv := inv_reach h
  refine ⟨?_, inv.nodup⟩
  have hsub : s.calls ⊆ List.range (n + 1) := by
    intro i hi
    simpa using (inv.callAtt i hi).2.2
  simpa using nodup_length_le inv.nodup hsub

/-- **C29**, the result: a returned response is the answer to one of the attempts, and it is
the first success the caller received, all earlier results being non-fatal failures. -/
theorem C29_success_is_first (fatal : E → Bool) (n : Nat) (s : St R E) (r : R)
    (h : Reach fatal n s) (hres : s.result = some (.reply r)) :
    (∃ i, Got s i (.reply r)) ∧
      ∃ pre, s.log = pre ++ [.reply r] ∧ ∀ o ∈ pre, ∃ e, o = .fail e ∧ fatal e = false := by
  have inv := inv_reach h
  obtain ⟨⟨pre, hl, hp⟩, i, hi⟩ := inv.ended _ hres
  refine ⟨⟨i, inv.outCall i _ hi, hi⟩, pre, hl, ?_⟩
  intro o ho
  have := hp o ho
  cases o with
  | reply r => exact absurd this (by simp [Outcome.nonFatal])
  | fail e => exact ⟨e, rfl, this⟩

/-- **C29**, failure: an error is returned only when the caller's context ended, when an
attempt failed with that very error and it is fatal, or when all `MaxHedgedRequests + 1`
attempts were made and failed, the error being one of theirs.  No nil error with a nil
response is returned. -/
theorem C29_error_only_when (fatal : E → Bool) (n : Nat) (s : St R E) (f : Final R E)
    (h : Reach fatal n s) (hres : s.result = some f) (hf : ∀ r, f ≠ .reply r) :
    (f = .ctxErr ∧ s.parentDone = true) ∨
    (∃ e i, f = .fail e ∧ fatal e = true ∧ Got s i (.fail e)) ∨
    (∃ e i, f = .fail e ∧ Got s i (.fail e) ∧
      ∀ j, j < n + 1 → ∃ e', Got s j (.fail e') ∧ fatal e' = false) := by
  have inv := inv_reach h
  have hend := inv.ended _ hres
  cases f with
  | reply r => exact absurd rfl (hf r)
  | nilErr => exact absurd hend (by simp [Ending])
  | ctxErr => exact Or.inl ⟨rfl, hend⟩
  | fail e =>
    rcases hend with ⟨he, i, hi⟩ | ⟨hall, i, -, hi⟩
    · exact Or.inr (Or.inl ⟨e, i, rfl, he, inv.outCall i _ hi, hi⟩)
    · refine Or.inr (Or.inr ⟨e, i, rfl, ⟨inv.outCall i _ hi, hi⟩, ?_⟩)
      intro j hj
      obtain ⟨e', h1, h2⟩ := hall j hj
      exact ⟨e', ⟨inv.outCall j _ h1, h1⟩, h2⟩

/-- **C29**, the title: when the call is over, the context did not end and no attempt failed
fatally, one attempt's success means the call succeeded. -/
theorem C29_success_if_any (fatal : E → Bool) (n : Nat) (s : St R E) (f : Final R E)
    (h : Reach fatal n s) (hres : s.result = some f)
    (hctx : s.parentDone = false)
    (hfatal : ∀ i e, Got s i (.fail e) → fatal e = false)
    (hsucc : ∃ i r, Got s i (.reply r)) :
    ∃ r, f = .reply r := by
  apply Classical.byContradiction
  intro hno
  have inv := inv_reach h
  have hf : ∀ r, f ≠ .reply r := fun r e => hno ⟨r, e⟩
  rcases C29_error_only_when fatal n s f h hres hf with ⟨-, hd⟩ | ⟨e, i, -, he, hg⟩ |
    ⟨e, i, -, -, hall⟩
  · rw [hctx] at hd; cases hd
  · rw [hfatal i e hg] at he; cases he
  · obtain ⟨j, r, hj, hjr⟩ := hsucc
    obtain ⟨e', ⟨-, hje⟩, -⟩ := hall j (inv.callAtt j hj).2.2
    cases inv.outFun j _ _ hjr hje

/-- The caller never deadlocks: while the call is open, either the caller can take a step or
some attempt has not reported yet. -/
theorem C29_no_deadlock (fatal : E → Bool) (n : Nat) (s : St R E)
    (h : Reach fatal n s) (hres : s.result = none)
    (hrest : ∀ a ∈ s.att, a = .gone ∨ ∃ o, a = .sent o) :
    ∃ t, Step fatal n s t ∧ s.received ≤ t.received ∧
      (t.result ≠ none ∨ t.received = s.received + 1) := by
  have inv := inv_reach h
  by_cases hlt : s.received < n + 1
  · cases hq : s.queue with
    | cons o q =>
      refine ⟨_, .recv s o q hres hlt hq, ?_, ?_⟩ <;>
        (unfold handle; split <;> (try split) <;> simp)
    | nil =>
      -- some attempt is missing, so it is gone, so the context ended
      have hd : s.parentDone = true := by
        apply Classical.byContradiction
        intro hd
        have hall : ∀ a ∈ s.att, a.isSent = true := by
          intro a ha
          rcases hrest a ha with k | ⟨o, k⟩
          · subst k
            obtain ⟨i, hi, he⟩ := List.getElem_of_mem ha
            have := inv.gone i (by rw [List.getElem?_eq_getElem hi, he])
            simp [St.hedgeDone, hres, hd] at this
          · subst k; rfl
        have hc : s.att.countP Att.isSent = s.att.length := List.countP_eq_length.mpr hall
        have h1 := inv.count
        have h2 := inv.len
        have h3 := inv.recvd
        rw [hq, List.length_nil] at h1
        omega
      exact ⟨_, .ctxEnd s hres hlt hd, Nat.le_refl _, Or.inl (by simp)⟩
  · exact ⟨_, .exhausted s hres hlt, Nat.le_refl _, Or.inl (by simp)⟩

/-- No attempt's goroutine is ever stuck on the result channel: whenever it has a result to
report there is room, even after the caller has returned. -/
theorem C29_no_leak (fatal : E → Bool) (n : Nat) (s : St R E) (i : Nat) (o : Outcome R E)
    (h : Reach fatal n s) (hf : s.att[i]? = some (.finished o)) :
    s.queue.length < n + 1 := by
  have inv := inv_reach h
  have hc := inv.count
  have hl := inv.len
  have : s.att.countP Att.isSent ≠ s.att.length := by
    intro he
    obtain ⟨hi, hx⟩ := List.getElem?_eq_some_iff.mp hf
    have := all_of_countP _ _ he s.att[i] (List.getElem_mem hi)
    rw [hx] at this
    cases this
  have := List.countP_le_length (p := Att.isSent) (l := s.att)
  omega

/-- Once the call has returned or the caller's context ended, no further hedge is sent: the only call
that can still begin is the original request. -/
theorem C29_no_hedge_afterwards (fatal : E → Bool) (n : Nat) (s t : St R E) (h : Step fatal n s t)
    (hd : s.result ≠ none ∨ s.parentDone = true) :
    t.calls = s.calls ∨ t.calls = s.calls ++ [0] := by
  cases h with
  | «begin» h0 => exact Or.inr rfl
  | fire i hi hl =>
    exfalso
    simp only [St.hedgeDone, Bool.or_eq_false_iff, Option.isSome_eq_false_iff, Option.isNone_iff_eq_none] at hl
    rcases hd with hd | hd
    · exact hd hl.2
    · rw [hl.1] at hd; cases hd
  | recv o q =>
    left
    unfold handle
    cases o with
    | reply r => rfl
    | fail e => simp only; split <;> rfl
  | _ => exact Or.inl rfl

/-- The caller returns with the first success or fatal failure it takes from an attempt: while the
call is open, everything it took was a failure that is not fatal. -/
theorem C29_returns_at_once (fatal : E → Bool) (n : Nat) (s : St R E)
    (h : Reach fatal n s) (hres : s.result = none) :
    ∀ o ∈ s.log, ∃ e, o = .fail e ∧ fatal e = false := by
  intro o ho
  have := ((inv_reach h).open_ hres).1 o ho
  cases o with
  | reply r => exact absurd this (by simp [Outcome.nonFatal])
  | fail e => exact ⟨e, rfl, this⟩

/-! ## Classification -/

/-- Which errors end the call at once, for every text: those that mention a context error or
one of the eight final codes, and, when the policy lists non-fatal codes, all those that
mention none of the listed codes. -/
theorem C29_fatal_classification (nonFatal : List Str) (s : Str) :
    isFatal nonFatal s = true ↔
      (Occurs (lit "context canceled") s ∨ Occurs (lit "context deadline exceeded") s) ∨
      (∃ n ∈ fatalNames, Occurs (lit n) s) ∨
      (nonFatal ≠ [] ∧ ∀ n ∈ nonFatal, ¬ Occurs n s) := by
  have h1 : (fatalNames.any fun n => Str.contains s (lit n)) = true ↔
      ∃ n ∈ fatalNames, Occurs (lit n) s := by
    simp only [List.any_eq_true, contains_iff]
  have h2 : (nonFatal.any fun n => Str.contains s n) = true ↔ ∃ n ∈ nonFatal, Occurs n s := by
    simp only [List.any_eq_true, contains_iff]
  have h3 : nonFatal.length > 0 ↔ nonFatal ≠ [] := by
    cases nonFatal <;> simp
  rw [← h1, ← contains_iff, ← contains_iff]
  unfold isFatal
  by_cases hf : (fatalNames.any fun n => Str.contains s (lit n)) = true
  · simp [hf]
  · by_cases hn : (nonFatal.any fun n => Str.contains s n) = true
    · have hex := h2.mp hn
      simp only [hf, hn]
      grind
    · have hex : ∀ n ∈ nonFatal, ¬ Occurs n s := fun n hm ho => hn (h2.mpr ⟨n, hm, ho⟩)
      simp only [hf, hn, h3]
      grind

/-! ## Concrete cases -/

section demo

abbrev DS := St Nat Str
def boom : Outcome Nat Str := .fail (lit "ErrInternal")
def d0 : DS := init 1
def d1 : DS := { d0 with att := d0.att.set 0 .running, calls := d0.calls ++ [0] }
def d2 : DS := { d1 with att := d1.att.set 1 .running, calls := d1.calls ++ [1] }
def d3 : DS := { d2 with att := d2.att.set 0 (.finished boom), outs := d2.outs ++ [(0, boom)] }
def d4 : DS := { d3 with att := d3.att.set 0 (.sent boom), queue := d3.queue ++ [boom] }
def d5 : DS := handle (isFatal []) d4 boom []
def d6 : DS :=
  { d5 with att := d5.att.set 1 (.finished (.reply 9)), outs := d5.outs ++ [(1, .reply 9)] }
def d7 : DS := { d6 with att := d6.att.set 1 (.sent (.reply 9)), queue := d6.queue ++ [.reply 9] }
def d8 : DS := handle (isFatal []) d7 (.reply 9) []

/-- One hedge: the original fails with a non-fatal error, the hedge succeeds. -/
theorem demo_reach : Reach (isFatal []) 1 d8 := by
  have h1 : Reach (isFatal []) 1 d1 := .step .start (.begin _ (by decide +kernel))
  have h2 : Reach (isFatal []) 1 d2 :=
    .step h1 (.fire _ 1 (by decide +kernel) (by decide +kernel))
  have h3 : Reach (isFatal []) 1 d3 := .step h2 (.finish _ 0 boom (by decide +kernel))
  have h4 : Reach (isFatal []) 1 d4 :=
    .step h3 (.send _ 0 boom (by decide +kernel) (by decide +kernel))
  have h5 : Reach (isFatal []) 1 d5 :=
    .step h4 (.recv _ boom [] (by decide +kernel) (by decide +kernel) (by decide +kernel))
  have h6 : Reach (isFatal []) 1 d6 := .step h5 (.finish _ 1 (.reply 9) (by decide +kernel))
  have h7 : Reach (isFatal []) 1 d7 :=
    .step h6 (.send _ 1 (.reply 9) (by decide +kernel) (by decide +kernel))
  exact .step h7 (.recv _ (.reply 9) [] (by decide +kernel) (by decide +kernel)
    (by decide +kernel))

example : d8.result = some (.reply 9) ∧ d8.calls = [0, 1] ∧ d8.parentDone = false ∧
    (0, boom) ∈ d8.outs ∧ (1, .reply 9) ∈ d8.outs := by decide +kernel

end demo

example : isFatal [] (lit "server error: ErrUnavailable") = false := by decide +kernel
example : isFatal [lit "ErrAborted"] (lit "server error: ErrUnavailable") = true := by
  decide +kernel

end Claw.Hedge
