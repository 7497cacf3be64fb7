import Verif.Model.CliSend
import Verif.Props.SrvStream

/-!
# C122 what is sent on a stream of the client
-/

namespace Claw.CliSend

open Claw

/-- The frames that call `i` has written. -/
def St.own (s : St) (i : Nat) : List Frame := (s.wire.filter fun x => x.1 == i).map (·.2)

/-- What a call may have written when it is at some place. -/
def Wrote (bidi : Bool) : Op → Pc → List Frame → Prop
  | .send p, .ret true, fs => fs = [.data p]
  | .closeSend, .ret true, fs => fs = [.fin] ∨ fs = []
  | .cancel, .ret true, fs => fs = [.cancel] ∨ fs = []
  | .close, .write, fs => bidi = false ∧ fs = []
  | .close, .shut, fs => fs = [] ∨ (bidi = false ∧ fs = [.fin])
  | .close, .bye, fs => fs = [] ∨ (bidi = false ∧ fs = [.fin])
  | .close, .ret _, fs =>
    fs = [] ∨ fs = [.close] ∨ (bidi = false ∧ (fs = [.fin] ∨ fs = [.fin, .close]))
  | .close, .sel, _ => False
  | .closeSend, .sel, _ => False
  | .cancel, .sel, _ => False
  | .send _, .shut, _ => False
  | .closeSend, .shut, _ => False
  | .cancel, .shut, _ => False
  | .send _, .bye, _ => False
  | .closeSend, .bye, _ => False
  | .cancel, .bye, _ => False
  | _, _, fs => fs = []

structure Inv (s : St) : Prop where
  known : ∀ x ∈ s.wire, x.1 < s.calls.length
  wrote : ∀ (i : Nat) (c : Call), s.calls[i]? = some c → Wrote s.bidi c.op c.pc (s.own i)
  closer : ∀ (i : Nat) (c : Call), s.calls[i]? = some c → c.op = .close → c.pc ≠ .start → s.closed = true
  ender : ∀ (i : Nat) (c : Call), s.calls[i]? = some c → c.op = .closeSend → c.pc ≠ .start → s.closed = true ∨ s.sendDone = true

theorem own_at (s : St) (i j : Nat) (op : Op) (pc : Pc) : (s.at i op pc).own j = s.own j := rfl

theorem own_append (s : St) (w : List (Nat × Frame)) (i j : Nat) (f : Frame) (h : s.wire = w ++ [(i, f)]) :
    s.own j = ({ s with wire := w } : St).own j ++ if i = j then [f] else [] := by
  by_cases e : i = j <;> simp [St.own, h, List.filter_append, e]

/-- What one action of call `i` does: its own place changes, it may write one frame, flags only rise. -/
structure Moves (s s' : St) (i : Nat) (op : Op) (pc' : Pc) (w : List Frame) : Prop where
  bidi : s'.bidi = s.bidi
  calls : s'.calls = s.calls.set i ⟨op, pc'⟩
  wire : s'.wire = s.wire ++ w.map fun f => (i, f)
  closed : s.closed = true → s'.closed = true
  sendDone : s.sendDone = true → s'.sendDone = true

theorem own_moves {s s' : St} {i : Nat} {op : Op} {pc' : Pc} {w : List Frame} (h : Moves s s' i op pc' w) (j : Nat) :
    s'.own j = s.own j ++ if i = j then w else [] := by
  simp only [St.own, h.wire, List.filter_append, List.map_append]
  congr 1
  by_cases e : i = j
  · subst e
    simp [List.filter_map, Function.comp_def]
  · simp [e, List.filter_map, Function.comp_def]

theorem inv_moves {s s' : St} (hi : Inv s) {i : Nat} {op : Op} {pc pc' : Pc} {w : List Frame}
    (hc : s.calls[i]? = some ⟨op, pc⟩) (h : Moves s s' i op pc' w)
    (hw : Wrote s.bidi op pc' (s.own i ++ w))
    (h1 : op = .close → pc' ≠ .start → s'.closed = true)
    (h2 : op = .closeSend → pc' ≠ .start → s'.closed = true ∨ s'.sendDone = true) : Inv s' := by
  have hlt : i < s.calls.length := (List.getElem?_eq_some_iff.1 hc).1
  have hget : ∀ (j : Nat) (c : Call), s'.calls[j]? = some c → (j = i ∧ c = ⟨op, pc'⟩) ∨ (j ≠ i ∧ s.calls[j]? = some c) := by
    intro j c hj
    rw [h.calls] at hj
    by_cases e : j = i
    · subst e
      rw [List.getElem?_set_self hlt] at hj
      exact .inl ⟨rfl, (Option.some.inj hj).symm⟩
    · rw [List.getElem?_set_ne (Ne.symm e)] at hj
      exact .inr ⟨e, hj⟩
  refine ⟨?_, ?_, ?_, ?_⟩
  · intro x hx
    rw [h.wire] at hx
    rw [h.calls, List.length_set]
    rcases List.mem_append.1 hx with hx | hx
    · exact hi.known x hx
    · obtain ⟨f, _, rfl⟩ := List.mem_map.1 hx
      exact hlt
  · intro j c hj
    rw [own_moves h j, h.bidi]
    rcases hget j c hj with ⟨rfl, rfl⟩ | ⟨e, hj⟩
    · simpa using hw
    · rw [if_neg (Ne.symm e), List.append_nil]
      exact hi.wrote j c hj
  · intro j c hj ho hp
    rcases hget j c hj with ⟨rfl, rfl⟩ | ⟨e, hj⟩
    · exact h1 ho hp
    · exact h.closed (hi.closer j c hj ho hp)
  · intro j c hj ho hp
    rcases hget j c hj with ⟨rfl, rfl⟩ | ⟨e, hj⟩
    · exact h2 ho hp
    · exact (hi.ender j c hj ho hp).imp h.closed h.sendDone

/-- `sendMsg` in terms of `Moves`. -/
theorem moves_sendMsg (s : St) (i : Nat) (op : Op) (f : Frame) (b : Bool) (pc' : Pc) :
    Moves s ((s.sendMsg i f b).1.at i op pc') i op pc' (if (s.sendMsg i f b).2 then [f] else []) := by
  simp only [St.sendMsg]
  by_cases h1 : s.connClosed = true
  · simp only [h1, if_true]; exact ⟨rfl, rfl, by simp [St.at], id, id⟩
  · cases b with
    | true => simp only [h1, St.connClose]; exact ⟨rfl, rfl, by simp [St.at], id, id⟩
    | false => simp only [h1]; exact ⟨rfl, rfl, by simp [St.at], id, id⟩

theorem sendMsg_flags (s : St) (i : Nat) (f : Frame) (b : Bool) :
    (s.sendMsg i f b).1.closed = s.closed ∧ (s.sendMsg i f b).1.sendDone = s.sendDone := by
  simp only [St.sendMsg, St.connClose]
  split
  · simp
  · split <;> simp

theorem inv_step {fits : Bytes → Bool} {s s' : St} (hi : Inv s) {a : Act} (e : s.step fits a = some s') : Inv s' := by
  cases a with
  | call op =>
    simp only [St.step] at e
    split at e
    · cases e
    · cases e
      have hown : ∀ j, ({ s with calls := s.calls ++ [⟨op, .start⟩] } : St).own j = s.own j := fun _ => rfl
      have hget : ∀ (j : Nat) (c : Call), (s.calls ++ [(⟨op, .start⟩ : Call)])[j]? = some c →
          s.calls[j]? = some c ∨ (j = s.calls.length ∧ c = ⟨op, .start⟩) := by
        intro j c hj
        by_cases hl : j < s.calls.length
        · rw [List.getElem?_append_left hl] at hj; exact .inl hj
        · rw [List.getElem?_append_right (by omega)] at hj
          by_cases h0 : j - s.calls.length = 0
          · rw [h0] at hj; simp at hj; exact .inr ⟨by omega, hj.symm⟩
          · rw [List.getElem?_eq_none (by simp; omega)] at hj; cases hj
      refine ⟨?_, ?_, ?_, ?_⟩
      · intro x hx; have := hi.known x hx; simp; omega
      · intro j c hj
        rw [hown]
        rcases hget j c hj with hj | ⟨rfl, rfl⟩
        · exact hi.wrote j c hj
        · have h0 : s.own s.calls.length = [] := by
            simp only [St.own, List.map_eq_nil_iff, List.filter_eq_nil_iff, beq_iff_eq]
            intro x hx; have := hi.known x hx; omega
          rw [h0]; cases op <;> simp [Wrote]
      · intro j c hj ho hp
        rcases hget j c hj with hj | ⟨rfl, rfl⟩
        · exact hi.closer j c hj ho hp
        · exact absurd rfl hp
      · intro j c hj ho hp
        rcases hget j c hj with hj | ⟨rfl, rfl⟩
        · exact hi.ender j c hj ho hp
        · exact absurd rfl hp
  | srvClose =>
    simp only [St.step] at e
    split at e
    · cases e
    · cases e; exact ⟨hi.known, hi.wrote, hi.closer, hi.ender⟩
  | connClose =>
    simp only [St.step, St.connClose] at e
    split at e
    · cases e; exact hi
    · cases e; exact ⟨hi.known, hi.wrote, hi.closer, hi.ender⟩
  | go i b =>
    simp only [St.step] at e
    cases hc : s.calls[i]? with
    | none => rw [hc] at e; cases e
    | some c =>
      obtain ⟨op, pc⟩ := c
      rw [hc] at e
      have hw := hi.wrote i _ hc
      have hcl := hi.closer i _ hc
      have hen := hi.ender i _ hc
      simp only at e hw hcl hen
      have still : ∀ pc', Moves s (s.at i op pc') i op pc' [] := fun _ => ⟨rfl, rfl, by simp [St.at], id, id⟩
      cases pc with
      | start =>
        simp only [Option.some.injEq] at e
        have h0 : s.own i = [] := by cases op <;> simpa [Wrote] using hw
        subst e
        cases op with
        | send p =>
          simp only [St.enter]
          split
          · exact inv_moves hi hc (still _) (by simp [Wrote, h0]) (by simp) (by simp)
          · exact inv_moves hi hc (still _) (by simp [Wrote, h0]) (by simp) (by simp)
        | closeSend =>
          simp only [St.enter]
          split
          · rename_i hf
            exact inv_moves hi hc (still _) (by simp [Wrote, h0]) (by simp) (fun _ _ => by simpa [St.at] using hf)
          · exact inv_moves hi hc (w := []) (pc' := .write) ⟨rfl, rfl, by simp [St.at], id, fun _ => rfl⟩
              (by simp [Wrote, h0]) (by simp) (fun _ _ => .inr rfl)
        | close =>
          simp only [St.enter]
          split
          · rename_i hf
            exact inv_moves hi hc (still _) (by simp [Wrote, h0]) (fun _ _ => hf) (by simp)
          · refine inv_moves hi hc (w := []) (pc' := if s.bidi then .shut else .write)
              ⟨rfl, rfl, by simp [St.at], fun _ => rfl, id⟩ ?_ (fun _ _ => rfl) (by simp)
            split <;> simp_all [Wrote]
        | cancel =>
          simp only [St.enter]
          split
          · exact inv_moves hi hc (still _) (by simp [Wrote, h0]) (by simp) (by simp)
          · exact inv_moves hi hc (still _) (by simp [Wrote, h0]) (by simp) (by simp)
      | sel =>
        have h0 : op = .close ∨ s.own i = [] := by cases op <;> simp_all [Wrote]
        simp only at e
        split at e
        · cases e
          refine inv_moves hi hc (still _) ?_ (fun ho _ => hcl ho (by simp)) (fun ho _ => hen ho (by simp))
          cases op <;> simp_all [Wrote]
        · cases e
          refine inv_moves hi hc (still _) ?_ (fun ho _ => hcl ho (by simp)) (fun ho _ => hen ho (by simp))
          cases op <;> simp_all [Wrote]
      | write =>
        simp only [Option.some.injEq] at e
        subst e
        cases op with
        | send p =>
          simp only [St.write]
          split
          · refine inv_moves hi hc (moves_sendMsg s i _ _ b _) ?_ (by simp) (by simp)
            cases (s.sendMsg i (.data p) b).2 <;> simp_all [Wrote]
          · exact inv_moves hi hc (still _) (by simp_all [Wrote]) (by simp) (by simp)
        | closeSend =>
          simp only [St.write]
          refine inv_moves hi hc (moves_sendMsg s i _ _ b _) ?_ (by simp) (fun ho _ => ?_)
          · cases (s.sendMsg i .fin b).2 <;> simp_all [Wrote]
          · have := hen ho (by simp); have h2 := sendMsg_flags s i .fin b
            simpa [St.at, h2.1, h2.2] using this
        | close =>
          simp only [St.write]
          refine inv_moves hi hc (moves_sendMsg s i _ _ b _) ?_ (fun ho _ => ?_) (by simp)
          · cases (s.sendMsg i .fin b).2 <;> simp_all [Wrote]
          · have := hcl ho (by simp); have h2 := sendMsg_flags s i .fin b
            simpa [St.at, h2.1] using this
        | cancel =>
          simp only [St.write]
          refine inv_moves hi hc (moves_sendMsg s i _ _ b _) ?_ (by simp) (by simp)
          cases (s.sendMsg i .cancel b).2 <;> simp_all [Wrote]
      | shut =>
        cases e
        refine inv_moves hi hc (w := []) (pc' := .bye) ⟨rfl, rfl, by simp [St.at], id, id⟩ ?_ (fun ho _ => hcl ho (by simp))
          (fun ho _ => hen ho (by simp))
        cases op <;> simp_all [Wrote]
      | bye =>
        simp only [Option.some.injEq] at e
        subst e
        have h2 := sendMsg_flags s i .close b
        refine inv_moves hi hc (moves_sendMsg s i _ _ b _) ?_ (fun ho _ => ?_) (fun ho _ => ?_)
        · cases op <;> cases (s.sendMsg i .close b).2 <;> simp_all [Wrote]
          all_goals grind
        · have := hcl ho (by simp); simpa [St.at, h2.1] using this
        · have := hen ho (by simp); simpa [St.at, h2.1, h2.2] using this
      | ret ok => cases e

theorem run_append {fits : Bytes → Bool} {s s' : St} {as bs : List Act} (h : s.run fits (as ++ bs) = some s') :
    ∃ m, s.run fits as = some m ∧ m.run fits bs = some s' := by
  induction as generalizing s with
  | nil => exact ⟨s, rfl, h⟩
  | cons a as ih =>
    simp only [List.cons_append, St.run] at h ⊢
    split at h
    · cases h
    · rename_i s1 h1; exact ih h

theorem inv_run {fits : Bytes → Bool} {s s' : St} (hi : Inv s) {as : List Act} (e : s.run fits as = some s') :
    Inv s' := by
  induction as generalizing s with
  | nil => cases e; exact hi
  | cons a as ih =>
    simp only [St.run] at e
    split at e
    · cases e
    · rename_i s1 h1; exact ih (inv_step hi h1) e

theorem inv_init (b : Bool) : Inv { bidi := b } := ⟨by simp, by simp, by simp, by simp⟩

/-- What every action keeps: what is on the wire, the calls there are and what they are, the flags that are set, and
calls that have returned. -/
structure Grows (s s' : St) : Prop where
  bidi : s'.bidi = s.bidi
  wire : s.wire <+: s'.wire
  closed : s.closed = true → s'.closed = true
  sendDone : s.sendDone = true → s'.sendDone = true
  op : ∀ (i : Nat) (c : Call), s.calls[i]? = some c → ∃ c' : Call, s'.calls[i]? = some c' ∧ c'.op = c.op
  ret : ∀ (i : Nat) (c : Call) b, s.calls[i]? = some c → c.pc = .ret b → s'.calls[i]? = some c
  len : s.calls.length ≤ s'.calls.length

theorem Grows.refl (s : St) : Grows s s :=
  ⟨rfl, List.prefix_refl _, id, id, fun _ c h => ⟨c, h, rfl⟩, fun _ _ _ h _ => h, Nat.le_refl _⟩

theorem Grows.trans {s t u : St} (h : Grows s t) (k : Grows t u) : Grows s u where
  bidi := k.bidi.trans h.bidi
  wire := h.wire.trans k.wire
  closed x := k.closed (h.closed x)
  sendDone x := k.sendDone (h.sendDone x)
  op i c x := by
    obtain ⟨c', h1, h2⟩ := h.op i c x
    obtain ⟨c'', h3, h4⟩ := k.op i c' h1
    exact ⟨c'', h3, h4.trans h2⟩
  ret i c b x y := k.ret i c b (h.ret i c b x y) y
  len := Nat.le_trans h.len k.len

theorem grows_moves {s s' : St} {i : Nat} {op : Op} {pc pc' : Pc} {w : List Frame}
    (hc : s.calls[i]? = some ⟨op, pc⟩) (hp : ∀ b, pc ≠ .ret b) (h : Moves s s' i op pc' w) : Grows s s' := by
  have hlt : i < s.calls.length := (List.getElem?_eq_some_iff.1 hc).1
  refine ⟨h.bidi, ⟨_, h.wire.symm⟩, h.closed, h.sendDone, ?_, ?_, by simp [h.calls]⟩
  · intro j c hj
    rw [h.calls]
    by_cases e : j = i
    · subst e; rw [hc] at hj; cases hj; exact ⟨_, List.getElem?_set_self hlt, rfl⟩
    · rw [List.getElem?_set_ne (Ne.symm e)]; exact ⟨c, hj, rfl⟩
  · intro j c b hj hr
    rw [h.calls]
    by_cases e : j = i
    · subst e; rw [hc] at hj; cases hj; exact absurd hr (hp b)
    · rw [List.getElem?_set_ne (Ne.symm e)]; exact hj

/-- An action of a call is a move of it. -/
theorem moves_go {fits : Bytes → Bool} {s s' : St} {i : Nat} {b : Bool} {op : Op} {pc : Pc}
    (hc : s.calls[i]? = some ⟨op, pc⟩) (e : s.step fits (.go i b) = some s') :
    (∀ b, pc ≠ .ret b) ∧ ∃ pc' w, Moves s s' i op pc' w := by
  simp only [St.step, hc] at e
  have still : ∀ pc', Moves s (s.at i op pc') i op pc' [] := fun _ => ⟨rfl, rfl, by simp [St.at], id, id⟩
  cases pc with
  | start =>
    simp only [Option.some.injEq] at e
    subst e
    refine ⟨by simp, ?_⟩
    cases op with
    | send p =>
      simp only [St.enter]
      split <;> exact ⟨_, _, still _⟩
    | closeSend =>
      simp only [St.enter]
      split
      · exact ⟨_, _, still _⟩
      · exact ⟨.write, [], rfl, rfl, by simp [St.at], id, fun _ => rfl⟩
    | close =>
      simp only [St.enter]
      split
      · exact ⟨_, _, still _⟩
      · exact ⟨if s.bidi then .shut else .write, [], rfl, rfl, by simp [St.at], fun _ => rfl, id⟩
    | cancel =>
      simp only [St.enter]
      split <;> exact ⟨_, _, still _⟩
  | sel =>
    simp only at e
    refine ⟨by simp, ?_⟩
    split at e <;> cases e <;> exact ⟨_, _, still _⟩
  | write =>
    simp only [Option.some.injEq] at e
    subst e
    refine ⟨by simp, ?_⟩
    cases op with
    | send p =>
      simp only [St.write]
      split
      · exact ⟨_, _, moves_sendMsg s i _ _ b _⟩
      · exact ⟨_, _, still _⟩
    | closeSend => exact ⟨_, _, moves_sendMsg s i _ _ b _⟩
    | close => exact ⟨_, _, moves_sendMsg s i _ _ b _⟩
    | cancel => exact ⟨_, _, moves_sendMsg s i _ _ b _⟩
  | shut =>
    cases e
    exact ⟨by simp, .bye, [], rfl, rfl, by simp [St.at], id, id⟩
  | bye =>
    simp only [Option.some.injEq] at e
    subst e
    exact ⟨by simp, _, _, moves_sendMsg s i _ _ b _⟩
  | ret ok => cases e

theorem grows_step {fits : Bytes → Bool} {s s' : St} {a : Act} (e : s.step fits a = some s') : Grows s s' := by
  cases a with
  | call op =>
    simp only [St.step] at e
    split at e
    · cases e
    · cases e
      have hg : ∀ (j : Nat) (c : Call), s.calls[j]? = some c → (s.calls ++ [(⟨op, .start⟩ : Call)])[j]? = some c := by
        intro j c hj
        rw [List.getElem?_append_left (List.getElem?_eq_some_iff.1 hj).1]; exact hj
      exact ⟨rfl, List.prefix_refl _, id, id, fun j c hj => ⟨c, hg j c hj, rfl⟩, fun j c _ hj _ => hg j c hj, by simp⟩
  | srvClose =>
    simp only [St.step] at e
    split at e
    · cases e
    · cases e; exact ⟨rfl, List.prefix_refl _, id, id, fun _ c h => ⟨c, h, rfl⟩, fun _ _ _ h _ => h, Nat.le_refl _⟩
  | connClose =>
    simp only [St.step, St.connClose] at e
    split at e <;> cases e
    · exact Grows.refl _
    · exact ⟨rfl, List.prefix_refl _, id, id, fun _ c h => ⟨c, h, rfl⟩, fun _ _ _ h _ => h, Nat.le_refl _⟩
  | go i b =>
    cases hc : s.calls[i]? with
    | none => simp [St.step, hc] at e
    | some c =>
      obtain ⟨op, pc⟩ := c
      obtain ⟨h1, pc', w, h2⟩ := moves_go hc e
      exact grows_moves hc h1 h2

theorem grows_run {fits : Bytes → Bool} {s s' : St} {as : List Act} (e : s.run fits as = some s') : Grows s s' := by
  induction as generalizing s with
  | nil => cases e; exact Grows.refl _
  | cons a as ih =>
    simp only [St.run] at e
    split at e
    · cases e
    · rename_i s1 h1; exact (grows_step h1).trans (ih e)

/-! ### What a call writes -/

/-- **C122 (a)** A `Send` that returns without an error has sent its message, once; one that returns an error, or has not
returned yet, has sent nothing. -/
theorem C122_sent (fits : Bytes → Bool) (b : Bool) (as : List Act) (s : St) (h : St.run fits { bidi := b } as = some s)
    (i : Nat) (p : Bytes) (pc : Pc) (hc : s.calls[i]? = some ⟨.send p, pc⟩) :
    (s.wire.filter fun x => x.1 == i) = if pc = .ret true then [(i, .data p)] else [] := by
  have hw := (inv_run (inv_init b) h).wrote i _ hc
  have key : ∀ fs, s.own i = fs → (s.wire.filter fun x => x.1 == i) = fs.map fun f => (i, f) := by
    intro fs hf
    rw [← hf, St.own, List.map_map]
    symm
    conv => rhs; rw [← List.map_id (List.filter _ _)]
    apply List.map_congr_left
    intro x hx
    have := (List.mem_filter.1 hx).2
    simp only [beq_iff_eq] at this
    simp [← this]
  by_cases e : pc = .ret true
  · subst e
    rw [if_pos rfl]
    exact key _ hw
  · rw [if_neg e]
    refine key [] ?_
    cases pc with
    | ret ok => cases ok <;> simp_all [Wrote]
    | _ => simpa [Wrote] using hw

theorem mem_own {s : St} {i : Nat} {f : Frame} : f ∈ s.own i ↔ (i, f) ∈ s.wire := by
  simp only [St.own, List.mem_map, List.mem_filter, beq_iff_eq]
  constructor
  · rintro ⟨⟨j, g⟩, ⟨h1, h2⟩, h3⟩; simp only at h2 h3; subst h2 h3; exact h1
  · intro h; exact ⟨(i, f), ⟨h, rfl⟩, rfl⟩

/-- **C122 (b)** If one `Send` returned without an error before another was called, its message comes first on the
wire. -/
theorem C122_order (fits : Bytes → Bool) (b : Bool) (as bs : List Act) (s t : St)
    (h : St.run fits { bidi := b } as = some s) (k : St.run fits s bs = some t) (i j : Nat) (p q : Bytes)
    (hi : s.calls[i]? = some ⟨.send p, .ret true⟩) (hj : s.calls.length ≤ j)
    (hj' : t.calls[j]? = some ⟨.send q, .ret true⟩) :
    ∃ u v w, t.wire = u ++ (i, .data p) :: v ++ (j, .data q) :: w := by
  have h1 := C122_sent fits b as s h i p _ hi
  rw [if_pos rfl] at h1
  have h1' : (i, Frame.data p) ∈ s.wire := (List.mem_filter.1 (h1 ▸ List.mem_singleton.2 rfl)).1
  have hr : St.run fits { bidi := b } (as ++ bs) = some t := by
    have : ∀ (as : List Act) (x : St), x.run fits as = some s → x.run fits (as ++ bs) = some t := by
      intro as
      induction as with
      | nil => intro x hx; cases hx; exact k
      | cons a as ih =>
        intro x hx
        simp only [List.cons_append, St.run] at hx ⊢
        split at hx
        · cases hx
        · exact ih _ hx
    exact this as _ h
  have h2 := C122_sent fits b _ t hr j q _ hj'
  rw [if_pos rfl] at h2
  have h2' : (j, Frame.data q) ∈ t.wire := (List.mem_filter.1 (h2 ▸ List.mem_singleton.2 rfl)).1
  obtain ⟨r, hr'⟩ := (grows_run k).wire
  have h3 : (j, Frame.data q) ∈ r := by
    rw [← hr'] at h2'
    rcases List.mem_append.1 h2' with hm | hm
    · have := (inv_run (inv_init b) h).known _ hm
      simp only at this; omega
    · exact hm
  obtain ⟨u, v, huv⟩ := List.append_of_mem h1'
  obtain ⟨v', w, hvw⟩ := List.append_of_mem h3
  exact ⟨u, v ++ v', w, by rw [← hr', huv, hvw]; simp⟩

/-! ### After the end -/

/-- A `Send` that has not looked at the flags when they are set never sends. -/
theorem late_run {fits : Bytes → Bool} {s t : St} {bs : List Act} (k : s.run fits bs = some t)
    (hf : s.closed = true ∨ s.sendDone = true) (j : Nat) (q : Bytes) (pc : Pc)
    (hs : ∀ (c : Call), s.calls[j]? = some c → c.pc = .start ∨ c.pc = .ret false)
    (ht : t.calls[j]? = some ⟨.send q, pc⟩) : pc = .start ∨ pc = .ret false := by
  induction bs generalizing s with
  | nil => cases k; exact hs _ ht
  | cons a bs ih =>
    simp only [St.run] at k
    split at k
    · cases k
    · rename_i s1 h1
      have hg := grows_step h1
      refine ih k (hf.imp hg.closed hg.sendDone) ?_
      intro c hc
      cases a with
      | call op =>
        simp only [St.step] at h1
        split at h1
        · cases h1
        · cases h1
          simp only at hc
          by_cases hl : j < s.calls.length
          · rw [List.getElem?_append_left hl] at hc; exact hs c hc
          · rw [List.getElem?_append_right (by omega)] at hc
            by_cases h0 : j - s.calls.length = 0
            · rw [h0] at hc; simp at hc; exact .inl (by rw [← hc])
            · rw [List.getElem?_eq_none (by simp; omega)] at hc; cases hc
      | srvClose =>
        simp only [St.step] at h1
        split at h1
        · cases h1
        · cases h1; exact hs c hc
      | connClose =>
        simp only [St.step, St.connClose] at h1
        split at h1 <;> cases h1 <;> exact hs c hc
      | go i b =>
        cases hci : s.calls[i]? with
        | none => simp [St.step, hci] at h1
        | some d =>
          obtain ⟨op, pc0⟩ := d
          obtain ⟨h2, pc', w, h3⟩ := moves_go hci h1
          have hlt : i < s.calls.length := (List.getElem?_eq_some_iff.1 hci).1
          by_cases e : j = i
          · subst e
            rcases hs _ hci with hp | hp
            · simp only at hp
              subst hp
              -- the flags are seen
              obtain ⟨c', hc1, hc2⟩ := (grows_run k).op j c hc
              rw [ht] at hc1
              cases hc1
              simp only at hc2
              have hop : op = .send q := by
                rw [h3.calls, List.getElem?_set_self hlt] at hc
                cases hc; exact hc2.symm
              subst hop
              simp only [St.step, hci, Option.some.injEq] at h1
              have hb : (s.closed || s.sendDone) = true := by simpa using hf
              simp only [St.enter, hb, if_true] at h1
              rw [← h1] at hc
              simp only [St.at, List.getElem?_set_self hlt, Option.some.injEq] at hc
              exact .inr (by rw [← hc])
            · exact absurd hp (h2 false)
          · rw [h3.calls, List.getElem?_set_ne (Ne.symm e)] at hc
            exact hs c hc

/-- **C122 (c)** A `Send` that is called after `CloseSend` or `Close` has begun (has taken the lock) sends nothing and, if it
returns, fails. -/
theorem C122_closed (fits : Bytes → Bool) (b : Bool) (as bs : List Act) (s t : St)
    (h : St.run fits { bidi := b } as = some s) (k : St.run fits s bs = some t) (i j : Nat) (c : Call) (q : Bytes) (pc : Pc)
    (hi : s.calls[i]? = some c) (hop : c.op = .closeSend ∨ c.op = .close) (hpc : c.pc ≠ .start)
    (hj : s.calls.length ≤ j) (hj' : t.calls[j]? = some ⟨.send q, pc⟩) :
    (pc = .start ∨ pc = .ret false) ∧ ∀ f, (j, f) ∉ t.wire := by
  have hinv := inv_run (inv_init b) h
  have hf : s.closed = true ∨ s.sendDone = true := by
    rcases hop with ho | ho
    · exact hinv.ender i c hi ho hpc
    · exact .inl (hinv.closer i c hi ho hpc)
  have hp := late_run k hf j q pc (fun d hd => by rw [List.getElem?_eq_none hj] at hd; cases hd) hj'
  refine ⟨hp, fun f hf' => ?_⟩
  have hw := (inv_run hinv k).wrote j _ hj'
  have h0 : t.own j = [] := by rcases hp with rfl | rfl <;> simpa [Wrote] using hw
  have := mem_own.2 hf'
  rw [h0] at this; cases this

/-! ### One end -/

/-- Call `i` has sent the end of the stream, or is about to. -/
def Fins (s : St) (i : Nat) : Prop :=
  .fin ∈ s.own i ∨ ∃ c : Call, s.calls[i]? = some c ∧ c.pc = .write ∧ (c.op = .closeSend ∨ c.op = .close)

/-- Call `i` has sent Close, or is about to. -/
def Closes (s : St) (i : Nat) : Prop :=
  .close ∈ s.own i ∨ ∃ c : Call, s.calls[i]? = some c ∧ c.op = .close ∧ (c.pc = .write ∨ c.pc = .shut ∨ c.pc = .bye)

/-- The flag that the call which sends the end of the stream sets. -/
def St.over (s : St) : Bool := if s.bidi then s.sendDone else s.closed

structure Once (s : St) : Prop where
  kind : ∀ (i : Nat) (c : Call), s.calls[i]? = some c → c.op = .closeSend → s.bidi = true
  fins : ∀ i j, Fins s i → Fins s j → i = j
  over : ∀ i, Fins s i → s.over = true
  closes : ∀ i j, Closes s i → Closes s j → i = j
  closed : ∀ i, Closes s i → s.closed = true

theorem once_go {fits : Bytes → Bool} {s s' : St} {i : Nat} {b : Bool} {op : Op} {pc : Pc} (hi : Inv s) (ho : Once s)
    (hc : s.calls[i]? = some ⟨op, pc⟩) (e : s.step fits (.go i b) = some s') :
    (Fins s' i → Fins s i ∨ (s.over = false ∧ s'.over = true)) ∧
    (Closes s' i → Closes s i ∨ (s.closed = false ∧ s'.closed = true)) := by
  have hlt : i < s.calls.length := (List.getElem?_eq_some_iff.1 hc).1
  have hw := hi.wrote i _ hc
  have hk := ho.kind i _ hc
  simp only [St.step, hc] at e
  simp only at hw hk
  have at_at : ∀ (t : St) pc', t.calls = s.calls → (t.at i op pc').calls[i]? = some ⟨op, pc'⟩ := by
    intro t pc' ht; simp only [St.at, ht]; exact List.getElem?_set_self hlt
  cases pc with
  | start =>
    simp only [Option.some.injEq] at e
    subst e
    have h0 : s.own i = [] := by cases op <;> simpa [Wrote] using hw
    cases op with
    | send p =>
      simp only [St.enter]
      split <;> simp [Fins, Closes, own_at, h0, at_at s _ rfl]
    | closeSend =>
      have hbi := hk rfl
      simp only [St.enter]
      split
      · simp [Fins, Closes, own_at, h0, at_at s _ rfl]
      · rename_i hf
        simp only [Bool.or_eq_true, not_or, Bool.not_eq_true] at hf
        have hown : ({ s with sendDone := true }.at i Op.closeSend .write).own i = [] := h0
        refine ⟨fun _ => .inr ⟨by simp [St.over, hbi, hf.2], by simp [St.over, St.at, hbi]⟩, ?_⟩
        simp [Closes, hown, at_at { s with sendDone := true } _ rfl]
    | close =>
      simp only [St.enter]
      split
      · simp [Fins, Closes, own_at, h0, at_at s _ rfl]
      · rename_i hf
        have hf' : s.closed = false := by simpa using hf
        refine ⟨?_, fun _ => .inr ⟨hf', rfl⟩⟩
        by_cases hb : s.bidi = true
        · have hown : ({ s with closed := true }.at i Op.close .shut).own i = [] := h0
          rw [if_pos hb]
          simp [Fins, hown, at_at { s with closed := true } _ rfl]
        · intro _
          exact .inr ⟨by simp [St.over, hb, hf'], by simp [St.over, St.at, hb]⟩
    | cancel =>
      simp only [St.enter]
      split <;> simp [Fins, Closes, own_at, h0, at_at s _ rfl]
  | sel =>
    simp only at e
    have hop : ∃ p, op = .send p := by cases op <;> simp_all [Wrote]
    obtain ⟨p, rfl⟩ := hop
    split at e <;> cases e <;> simp_all [Fins, Closes, own_at, Wrote, at_at s _ rfl]
  | write =>
    simp only [Option.some.injEq] at e
    subst e
    cases op with
    | send p =>
      have h0 : s.own i = [] := by simpa [Wrote] using hw
      simp only [St.write]
      split
      · have hm := moves_sendMsg s i (.send p) (.data p) b (.ret (s.sendMsg i (.data p) b).2)
        have hown := own_moves hm i
        rw [h0] at hown
        simp only [List.nil_append, if_true] at hown
        have hget : ((s.sendMsg i (.data p) b).1.at i (.send p) (.ret (s.sendMsg i (.data p) b).2)).calls[i]?
            = some ⟨.send p, .ret (s.sendMsg i (.data p) b).2⟩ := by
          rw [hm.calls]; exact List.getElem?_set_self hlt
        simp only [Fins, Closes, hown, hget]
        cases (s.sendMsg i (.data p) b).2 <;> simp
      · simp [Fins, Closes, own_at, h0, at_at s _ rfl]
    | closeSend =>
      refine ⟨fun _ => .inl (.inr ⟨_, hc, rfl, .inl rfl⟩), ?_⟩
      have h0 : s.own i = [] := by simpa [Wrote] using hw
      have hm := moves_sendMsg s i .closeSend .fin b (.ret (s.sendMsg i .fin b).2)
      have hown := own_moves hm i
      rw [h0] at hown
      simp only [List.nil_append, if_true] at hown
      have hget := hm.calls
      simp only [St.write, Closes, hown, hget, List.getElem?_set_self hlt]
      cases (s.sendMsg i .fin b).2 <;> simp
    | close =>
      exact ⟨fun _ => .inl (.inr ⟨_, hc, rfl, .inr rfl⟩), fun _ => .inl (.inr ⟨_, hc, rfl, .inl rfl⟩)⟩
    | cancel =>
      have h0 : s.own i = [] := by simpa [Wrote] using hw
      have hm := moves_sendMsg s i .cancel .cancel b (.ret (s.sendMsg i .cancel b).2)
      have hown := own_moves hm i
      rw [h0] at hown
      simp only [List.nil_append, if_true] at hown
      have hget := hm.calls
      simp only [St.write, Fins, Closes, hown, hget, List.getElem?_set_self hlt]
      cases (s.sendMsg i .cancel b).2 <;> simp
  | shut =>
    cases e
    have hop : op = .close := by cases op <;> simp_all [Wrote]
    subst hop
    have hown : ({ s with cancelClosed := true }.at i Op.close .bye).own i = s.own i := rfl
    refine ⟨?_, fun _ => .inl (.inr ⟨_, hc, rfl, .inr (.inl rfl)⟩)⟩
    simp only [Fins, hown, at_at { s with cancelClosed := true } _ rfl]
    rintro (h | ⟨c, h1, h2, _⟩)
    · exact .inl (.inl h)
    · cases h1; cases h2
  | bye =>
    simp only [Option.some.injEq] at e
    subst e
    have hop : op = .close := by cases op <;> simp_all [Wrote]
    subst hop
    refine ⟨?_, fun _ => .inl (.inr ⟨_, hc, rfl, .inr (.inr rfl)⟩)⟩
    have hm := moves_sendMsg s i .close .close b (.ret (s.sendMsg i .close b).2)
    have hown := own_moves hm i
    simp only [if_true] at hown
    have hget := hm.calls
    simp only [Fins, hown, hget, List.getElem?_set_self hlt]
    rintro (h | ⟨c, h1, h2, _⟩)
    · refine .inl (.inl ?_)
      rcases List.mem_append.1 h with h | h
      · exact h
      · split at h <;> simp at h
    · cases h1; cases h2
  | ret ok => cases e

theorem once_step {fits : Bytes → Bool} {s s' : St} (hi : Inv s) (ho : Once s) {a : Act} (e : s.step fits a = some s') :
    Once s' := by
  cases a with
  | call op =>
    simp only [St.step] at e
    split at e
    · cases e
    · rename_i hno
      cases e
      have hget : ∀ (j : Nat) (c : Call), (s.calls ++ [(⟨op, .start⟩ : Call)])[j]? = some c →
          s.calls[j]? = some c ∨ c = ⟨op, .start⟩ := by
        intro j c hj
        rw [List.getElem?_append] at hj
        split at hj
        · exact .inl hj
        · cases hq : j - s.calls.length with
          | zero => rw [hq] at hj; simp at hj; exact .inr hj.symm
          | succ n => rw [hq] at hj; simp at hj
      have hF : ∀ j, Fins { s with calls := s.calls ++ [⟨op, .start⟩] } j → Fins s j := by
        rintro j (h | ⟨c, h1, h2, h3⟩)
        · exact .inl h
        · rcases hget j c h1 with h | rfl
          · exact .inr ⟨c, h, h2, h3⟩
          · cases h2
      have hC : ∀ j, Closes { s with calls := s.calls ++ [⟨op, .start⟩] } j → Closes s j := by
        rintro j (h | ⟨c, h1, h2, h3⟩)
        · exact .inl h
        · rcases hget j c h1 with h | rfl
          · exact .inr ⟨c, h, h2, h3⟩
          · simp at h3
      refine ⟨?_, fun i j x y => ho.fins i j (hF i x) (hF j y), fun i x => ho.over i (hF i x),
        fun i j x y => ho.closes i j (hC i x) (hC j y), fun i x => ho.closed i (hC i x)⟩
      intro i c hc hop
      rcases hget i c hc with h | rfl
      · exact ho.kind i c h hop
      · simp only at hop
        subst hop
        simpa using hno
  | srvClose =>
    simp only [St.step] at e
    split at e
    · cases e
    · cases e; exact ⟨ho.kind, ho.fins, ho.over, ho.closes, ho.closed⟩
  | connClose =>
    simp only [St.step, St.connClose] at e
    split at e
    · cases e; exact ho
    · cases e; exact ⟨ho.kind, ho.fins, ho.over, ho.closes, ho.closed⟩
  | go i b =>
    cases hc : s.calls[i]? with
    | none => simp [St.step, hc] at e
    | some d =>
      obtain ⟨op, pc⟩ := d
      obtain ⟨hf, hcl⟩ := once_go hi ho hc e
      obtain ⟨_, pc', w, hm⟩ := moves_go hc e
      have hlt : i < s.calls.length := (List.getElem?_eq_some_iff.1 hc).1
      have hother : ∀ j, j ≠ i → (Fins s' j → Fins s j) ∧ (Closes s' j → Closes s j) := by
        intro j hj
        have h1 : s'.own j = s.own j := by rw [own_moves hm j, if_neg (Ne.symm hj), List.append_nil]
        have h2 : s'.calls[j]? = s.calls[j]? := by rw [hm.calls, List.getElem?_set_ne (Ne.symm hj)]
        simp only [Fins, Closes, h1, h2]
        exact ⟨id, id⟩
      have hov : s.over = true → s'.over = true := by
        simp only [St.over, hm.bidi]
        split
        · exact hm.sendDone
        · exact hm.closed
      refine ⟨?_, ?_, ?_, ?_, ?_⟩
      · intro j c hj hop
        rw [hm.bidi]
        by_cases e : j = i
        · subst e
          rw [hm.calls, List.getElem?_set_self hlt] at hj
          cases hj
          exact ho.kind j _ hc hop
        · rw [hm.calls, List.getElem?_set_ne (Ne.symm e)] at hj
          exact ho.kind j c hj hop
      · have key : ∀ j, j ≠ i → Fins s' i → Fins s' j → False := by
          intro j hj x y
          have y' := (hother j hj).1 y
          rcases hf x with x' | ⟨x', _⟩
          · exact hj (ho.fins j i y' x')
          · rw [ho.over j y'] at x'; cases x'
        intro j k x y
        by_cases e1 : j = i <;> by_cases e2 : k = i
        · rw [e1, e2]
        · subst e1; exact (key k e2 x y).elim
        · subst e2; exact (key j e1 y x).elim
        · exact ho.fins j k ((hother j e1).1 x) ((hother k e2).1 y)
      · intro j x
        by_cases e1 : j = i
        · subst e1
          rcases hf x with x' | ⟨_, x'⟩
          · exact hov (ho.over j x')
          · exact x'
        · exact hov (ho.over j ((hother j e1).1 x))
      · have key : ∀ j, j ≠ i → Closes s' i → Closes s' j → False := by
          intro j hj x y
          have y' := (hother j hj).2 y
          rcases hcl x with x' | ⟨x', _⟩
          · exact hj (ho.closes j i y' x')
          · rw [ho.closed j y'] at x'; cases x'
        intro j k x y
        by_cases e1 : j = i <;> by_cases e2 : k = i
        · rw [e1, e2]
        · subst e1; exact (key k e2 x y).elim
        · subst e2; exact (key j e1 y x).elim
        · exact ho.closes j k ((hother j e1).2 x) ((hother k e2).2 y)
      · intro j x
        by_cases e1 : j = i
        · subst e1
          rcases hcl x with x' | ⟨_, x'⟩
          · exact hm.closed (ho.closed j x')
          · exact x'
        · exact hm.closed (ho.closed j ((hother j e1).2 x))

theorem once_run {fits : Bytes → Bool} {s s' : St} (hi : Inv s) (ho : Once s) {as : List Act}
    (e : s.run fits as = some s') : Once s' := by
  induction as generalizing s with
  | nil => cases e; exact ho
  | cons a as ih =>
    simp only [St.run] at e
    split at e
    · cases e
    · rename_i s1 h1; exact ih (inv_step hi h1) (once_step hi ho h1) e

theorem once_init (b : Bool) : Once { bidi := b } := by
  have h1 : ∀ i, ¬ Fins { bidi := b } i := by intro i; simp [Fins, St.own]
  have h2 : ∀ i, ¬ Closes { bidi := b } i := by intro i; simp [Closes, St.own]
  exact ⟨by simp, fun i _ x => (h1 i x).elim, fun i x => (h1 i x).elim, fun i _ x => (h2 i x).elim,
    fun i x => (h2 i x).elim⟩

/-- If all frames of a kind come from one call, and no call sends two, there is at most one. -/
theorem count_le_one {s : St} (hi : Inv s) (f : Frame)
    (hu : ∀ i j, f ∈ s.own i → f ∈ s.own j → i = j) (hf : f = .fin ∨ f = .close) :
    (s.wire.map (·.2)).count f ≤ 1 := by
  by_cases hm : ∃ i, f ∈ s.own i
  · obtain ⟨i, him⟩ := hm
    have hlt := hi.known _ (mem_own.1 him)
    obtain ⟨c, hc⟩ : ∃ c, s.calls[i]? = some c := ⟨_, List.getElem?_eq_getElem hlt⟩
    have hw := hi.wrote i c hc
    have h1 : (s.own i).count f ≤ 1 := by
      obtain ⟨op, pc⟩ := c
      simp only at hw
      cases op <;> cases pc <;> simp only [Wrote] at hw
      all_goals first
        | (cases hf <;> simp_all <;> done)
        | (rename_i ok; cases ok <;> simp only at hw <;> rcases hf with rfl | rfl <;> grind)
        | (rcases hf with rfl | rfl <;> grind)
    have h2 : (s.wire.map (·.2)).count f = (s.own i).count f := by
      have : ∀ w : List (Nat × Frame), (∀ x ∈ w, x.2 = f → x.1 = i) →
          (w.map (·.2)).count f = ((w.filter fun x => x.1 == i).map (·.2)).count f := by
        intro w
        induction w with
        | nil => simp
        | cons x w ih =>
          intro hx
          have ih := ih fun y hy => hx y (by simp [hy])
          by_cases e : x.2 = f
          · have := hx x (by simp) e
            simp [this, e, ih]
          · by_cases e' : x.1 = i
            · simp [e', e, ih, List.count_cons]
            · simp [e', e, ih, List.count_cons]
      refine this s.wire fun x hx hxf => ?_
      refine hu _ _ (mem_own.2 ?_) him
      rw [← hxf]; exact hx
    omega
  · have : f ∉ s.wire.map (·.2) := by
      intro h
      obtain ⟨x, hx, rfl⟩ := List.mem_map.1 h
      exact hm ⟨x.1, mem_own.2 hx⟩
    rw [List.count_eq_zero_of_not_mem this]; omega

/-- **C122 (d)** However many calls of `CloseSend` and `Close` there are, the end of the stream is sent at most once, and so
is Close. -/
theorem C122_once (fits : Bytes → Bool) (b : Bool) (as : List Act) (s : St) (h : St.run fits { bidi := b } as = some s) :
    (s.wire.map (·.2)).count .fin ≤ 1 ∧ (s.wire.map (·.2)).count .close ≤ 1 := by
  have hi := inv_run (inv_init b) h
  have ho := once_run (inv_init b) (once_init b) h
  exact ⟨count_le_one hi _ (fun i j x y => ho.fins i j (.inl x) (.inl y)) (.inl rfl),
    count_le_one hi _ (fun i j x y => ho.closes i j (.inl x) (.inl y)) (.inr rfl)⟩

/-! ### From the calls to the handler -/

/-- The messages on the wire, in order. -/
def datas : List Frame → List Bytes
  | [] => []
  | .data p :: fs => p :: datas fs
  | _ :: fs => datas fs

/-- Frames up to the first that is not a message. -/
theorem arrivals_datas (fs gs : List Frame) (h : ∀ f ∈ fs, ∃ p, f = .data p) :
    datas fs <+: SrvStream.messages (arrivals (fs ++ gs)) := by
  induction fs with
  | nil => exact List.nil_prefix
  | cons f fs ih =>
    obtain ⟨p, rfl⟩ := h f (by simp)
    simp only [datas, List.cons_append, arrivals, SrvStream.messages]
    have := ih fun g hg => h g (by simp [hg])
    simpa [List.cons_prefix_cons] using this

/-- No call of `CloseSend`, `Close` or `Cancel` has begun (has taken the lock). -/
def Open (s : St) : Prop :=
  ∀ (i : Nat) (c : Call), s.calls[i]? = some c → c.op = .closeSend ∨ c.op = .close ∨ c.op = .cancel → c.pc = .start

/-- **C122 (e)** The messages that were sent before `CloseSend`, `Close` or `Cancel` began are what the handler receives
first, in their order and without a gap, whatever is called afterwards, if it reads to the end and neither its context
ends nor the connection is lost (all that is written arrives). With `C122_sent` this is every message whose `Send` had
returned without an error. -/
theorem C122_delivered (fits : Bytes → Bool) (b : Bool) (as bs : List Act) (s t : St)
    (h : St.run fits { bidi := b } as = some s) (k : St.run fits s bs = some t) (ho : Open s)
    (more : Nat → Bool) (hs : List SrvStream.Act) (r : SrvStream.St) (hr : SrvStream.St.run more {} hs = some r)
    (ha : SrvStream.pushes hs = arrivals (t.wire.map (·.2))) (hb : r.pc = .back) (hc : r.ctxDone = false)
    (hst : r.stopped = false) :
    (∀ x ∈ s.wire, ∃ p, x.2 = .data p) ∧ datas (s.wire.map (·.2)) <+: r.got := by
  have hi := inv_run (inv_init b) h
  have h1 : ∀ x ∈ s.wire, ∃ p, x.2 = .data p := by
    intro x hx
    have hlt := hi.known x hx
    obtain ⟨c, hcc⟩ : ∃ c, s.calls[x.1]? = some c := ⟨_, List.getElem?_eq_getElem hlt⟩
    have hw := hi.wrote _ c hcc
    have hm : x.2 ∈ s.own x.1 := mem_own.2 hx
    have hop := ho _ c hcc
    obtain ⟨op, pc⟩ := c
    simp only at hw hop
    cases op with
    | send p =>
      refine ⟨p, ?_⟩
      cases pc with
      | ret ok =>
        cases ok with
        | true => simp only [Wrote] at hw; rw [hw] at hm; simpa using hm
        | false => simp only [Wrote] at hw; rw [hw] at hm; cases hm
      | _ => simp only [Wrote] at hw <;> rw [hw] at hm <;> cases hm
    | closeSend => rw [hop (.inl rfl)] at hw; simp only [Wrote] at hw; rw [hw] at hm; cases hm
    | close => rw [hop (.inr (.inl rfl))] at hw; simp only [Wrote] at hw; rw [hw] at hm; cases hm
    | cancel => rw [hop (.inr (.inr rfl))] at hw; simp only [Wrote] at hw; rw [hw] at hm; cases hm
  refine ⟨h1, ?_⟩
  obtain ⟨w, hw⟩ := (grows_run k).wire
  rw [(SrvStream.C119_complete more hs r hr hb hc hst).1, ha, ← hw, List.map_append]
  refine arrivals_datas _ _ fun f hf => ?_
  obtain ⟨x, hx, rfl⟩ := List.mem_map.1 hf
  exact h1 x hx

/-- A connection that is closed stays closed, and nothing more is written. -/
theorem dead_step {fits : Bytes → Bool} {s s' : St} {a : Act} (hc : s.connClosed = true) (e : s.step fits a = some s') :
    s'.connClosed = true ∧ s'.wire = s.wire := by
  have hm : ∀ i f b, s.sendMsg i f b = (s, false) := fun i f b => by simp [St.sendMsg, hc]
  cases a with
  | call op =>
    simp only [St.step] at e
    split at e
    · cases e
    · cases e; exact ⟨hc, rfl⟩
  | srvClose => simp [St.step, hc] at e
  | connClose => simp only [St.step, St.connClose, hc, if_true] at e; cases e; exact ⟨hc, rfl⟩
  | go i b =>
    simp only [St.step] at e
    split at e
    · cases e
    · next op pc _ =>
      cases pc with
      | start =>
        cases e
        cases op <;> simp only [St.enter] <;> split <;> exact ⟨hc, rfl⟩
      | sel => simp only [hc, Bool.or_true, Bool.true_or, if_true] at e; cases e; exact ⟨hc, rfl⟩
      | write =>
        cases e
        cases op <;> simp only [St.write, hm]
        · split <;> exact ⟨hc, rfl⟩
        all_goals exact ⟨hc, rfl⟩
      | shut => cases e; exact ⟨hc, rfl⟩
      | bye => simp only [hm] at e; cases e; exact ⟨hc, rfl⟩
      | ret _ => cases e

theorem dead_run {fits : Bytes → Bool} {s t : St} {as : List Act} (hc : s.connClosed = true) (e : s.run fits as = some t) :
    t.wire = s.wire := by
  induction as generalizing s with
  | nil => cases e; rfl
  | cons a as ih =>
    simp only [St.run] at e
    split at e
    · cases e
    · next m hm => rw [ih (dead_step hc hm).1 e, (dead_step hc hm).2]

/-- **C122 (f)** A write that fails, which may have put half a message on the wire, is the last: nothing is sent after it, whatever is
called. -/
theorem C122_after_failure (fits : Bytes → Bool) (s m t : St) (i : Nat) (c : Call) (bs : List Act) (hi : s.calls[i]? = some c)
    (hp : c.pc = .bye ∨ (c.pc = .write ∧ ∀ p, c.op = .send p → fits p = true)) (e : s.step fits (.go i true) = some m)
    (k : m.run fits bs = some t) : t.wire = s.wire := by
  have key : ∀ f, (s.sendMsg i f true).1.connClosed = true ∧ (s.sendMsg i f true).1.wire = s.wire := by
    intro f
    simp only [St.sendMsg]
    by_cases h : s.connClosed = true
    · simp [h]
    · simp [h, St.connClose]
  have hm : m.connClosed = true ∧ m.wire = s.wire := by
    obtain ⟨op, pc⟩ := c
    simp only [St.step, hi] at e
    rcases hp with hp | ⟨hp, hf⟩
    · simp only at hp; subst hp
      simp only at e; cases e; exact key .close
    · simp only at hp; subst hp
      simp only at e; cases e
      cases op with
      | send p => simp only [St.write]; rw [if_pos (hf p rfl)]; exact key (.data p)
      | closeSend => exact key .fin
      | close => exact key .fin
      | cancel => exact key .cancel
  rw [dead_run hm.1 k, hm.2]

/-- The second of two messages fails, a third is not sent. -/
example : ∃ m t, St.run (fun _ => true) { bidi := true } [.call (.send [1]), .go 0, .go 0, .go 0, .call (.send [2]), .go 1, .go 1] = some m ∧
    m.calls[1]? = some ⟨.send [2], .write⟩ ∧
    m.run (fun _ => true) [.go 1 true, .call (.send [3]), .go 2, .go 2] = some t ∧
    t.wire = [(0, .data [1])] ∧ t.calls.map (·.pc) = [.ret true, .ret false, .ret false] :=
  ⟨_, _, rfl, rfl, rfl, rfl, rfl⟩

theorem messages_arrivals (fs : List Frame) : SrvStream.messages (arrivals fs) <+: datas fs := by
  induction fs with
  | nil => exact List.prefix_refl _
  | cons f fs ih =>
    cases f with
    | data p => simpa [arrivals, SrvStream.messages, datas, List.cons_prefix_cons] using ih
    | fin => simp [arrivals, SrvStream.messages]
    | close => simp [arrivals, SrvStream.messages]
    | cancel => simp [arrivals, SrvStream.messages]

theorem messages_mono {ps qs : List SrvStream.Pl} (h : ps <+: qs) : SrvStream.messages ps <+: SrvStream.messages qs := by
  obtain ⟨r, rfl⟩ := h
  exact SrvStream.messages_prefix _ _

/-- **C122 (f)** Whatever has arrived, the handler receives the first of the messages of `Send` calls, in the order in
which they were written, and nothing else; each of them is the message of a call that returned without an error. -/
theorem C122_nothing_else (fits : Bytes → Bool) (b : Bool) (as : List Act) (s : St)
    (h : St.run fits { bidi := b } as = some s)
    (more : Nat → Bool) (hs : List SrvStream.Act) (r : SrvStream.St) (hr : SrvStream.St.run more {} hs = some r)
    (ha : SrvStream.pushes hs <+: arrivals (s.wire.map (·.2))) :
    r.got <+: datas (s.wire.map (·.2)) ∧
    ∀ x ∈ s.wire, ∀ p, x.2 = .data p → s.calls[x.1]? = some ⟨.send p, .ret true⟩ := by
  refine ⟨((SrvStream.C119_in_order more hs r hr).trans (messages_mono ha)).trans (messages_arrivals _), ?_⟩
  intro x hx p hp
  have hi := inv_run (inv_init b) h
  have hlt := hi.known x hx
  obtain ⟨c, hcc⟩ : ∃ c, s.calls[x.1]? = some c := ⟨_, List.getElem?_eq_getElem hlt⟩
  have hw := hi.wrote _ c hcc
  have hm : Frame.data p ∈ s.own x.1 := mem_own.2 (hp ▸ hx)
  rw [hcc]
  obtain ⟨op, pc⟩ := c
  simp only at hw
  cases op <;> cases pc <;> simp only [Wrote] at hw
  all_goals first
    | (rw [hw] at hm; cases hm; done)
    | (rename_i ok; cases ok <;> simp only at hw <;> grind)
    | grind

/-- Two goroutines send, one closes the sending side; the handler gets both messages. -/
def demo : List Act :=
  [.call (.send [1]), .call (.send [2]), .go 0, .go 1, .go 1, .go 0, .go 1, .go 0, .call .closeSend, .go 2, .go 2]

example : ∃ s, St.run (fun _ => true) { bidi := true } demo = some s ∧
    s.wire = [(1, .data [2]), (0, .data [1]), (2, .fin)] ∧ s.calls[0]? = some ⟨.send [1], .ret true⟩ ∧
    arrivals (s.wire.map (·.2)) = [⟨[2], false⟩, ⟨[1], false⟩, ⟨[], true⟩] :=
  ⟨_, rfl, by decide, by decide, by decide⟩

example : ∃ s r, St.run (fun _ => true) { bidi := true } (demo.take 8) = some s ∧ Open s ∧
    SrvStream.St.run (fun _ => true) {} [.push ⟨[2], false⟩, .push ⟨[1], false⟩, .take, .push ⟨[], true⟩, .take, .take]
      = some r ∧ r.pc = .back ∧ r.got = [[2], [1]] :=
  ⟨_, _, rfl, (by
    intro i c hc ho
    match i with
    | 0 => cases hc; simp at ho
    | 1 => cases hc; simp at ho
    | n + 2 => cases hc), rfl, by decide, by decide⟩

/-! ### Disagreements -/

/-- Disagreement with C122: a `Send` that runs while another goroutine calls `CloseSend` can return without an error
though the handler never receives its message: the end of the stream is written between the check and the write. -/
theorem C122_racing : ∃ s, St.run (fun _ => true) { bidi := true }
      [.call (.send [1]), .go 0, .go 0, .call .closeSend, .go 1, .go 1, .go 0] = some s ∧
    s.calls = [⟨.send [1], .ret true⟩, ⟨.closeSend, .ret true⟩] ∧
    SrvStream.messages (arrivals (s.wire.map (·.2))) = [] :=
  ⟨_, rfl, by decide, by decide⟩

/-- The same with `Close` of a stream that only sends. -/
theorem C122_racing_close : ∃ s, St.run (fun _ => true) { bidi := false }
      [.call (.send [1]), .go 0, .go 0, .call .close, .go 1, .go 1, .go 0, .go 1, .go 1] = some s ∧
    s.calls = [⟨.send [1], .ret true⟩, ⟨.close, .ret true⟩] ∧
    SrvStream.messages (arrivals (s.wire.map (·.2))) = [] :=
  ⟨_, rfl, by decide, by decide⟩

/-- Disagreement with C122: after `Cancel` has returned, `Send` still sends and returns without an error; the server has
removed the session and drops the message. -/
theorem C122_after_cancel (fits : Bytes → Bool) (p : Bytes) (hp : fits p = true) (b : Bool) :
    ∃ s, St.run fits { bidi := b } [.call .cancel, .go 0, .go 0, .call (.send p), .go 1, .go 1, .go 1] = some s ∧
      s.calls = [⟨.cancel, .ret true⟩, ⟨.send p, .ret true⟩] ∧ arrivals (s.wire.map (·.2)) = [] := by
  refine ⟨{ bidi := b, calls := [⟨.cancel, .ret true⟩, ⟨.send p, .ret true⟩],
            wire := [(0, .cancel), (1, .data p)] }, ?_, rfl, rfl⟩
  simp [St.run, St.step, St.enter, St.at, St.write, St.sendMsg, hp]

/-- Disagreement with C122: once the server has ended the call, and the client has read its Close, `Send` still returns
without an error, in whatever state the stream was, if it was open: nothing tells the sender that nobody listens. -/
theorem C122_after_end (fits : Bytes → Bool) (s : St) (p : Bytes) (hp : fits p = true) (h1 : s.closed = false)
    (h2 : s.sendDone = false) (h3 : s.connClosed = false) (h4 : s.cancelClosed = false) (h5 : s.ended = false) :
    ∃ t, St.run fits s [.srvClose, .call (.send p), .go s.calls.length, .go s.calls.length, .go s.calls.length] = some t ∧
      t.calls = s.calls ++ [⟨.send p, .ret true⟩] ∧ t.ended = true ∧ t.wire = s.wire ++ [(s.calls.length, .data p)] := by
  refine ⟨{ s with
    ended := true
    calls := s.calls ++ [⟨.send p, .ret true⟩]
    wire := s.wire ++ [(s.calls.length, .data p)] }, ?_, rfl, rfl, rfl⟩
  simp [St.run, St.step, St.enter, St.at, St.write, St.sendMsg, hp, h1, h2, h3, h4, h5]

end Claw.CliSend
