import Verif.Lemmas.Conc

/-!
# C144 Goroutines may read a decoded struct at the same time

Any number of goroutines call getters of one decoded struct that nobody changes: each finds what it would find alone, and the program goes
on.
-/

namespace Claw.Conc

open Claw

theorem alone_ok {s s' : St} (h : s.ensure = .ok s') (f : Nat) :
    alone s f = some (match s'.idx[f]? with | none => (0, 0) | some e => (e.offset, e.size)) := by
  unfold alone St.fieldOffset
  rw [h]
  simp only [Bind.bind, Res.bind]
  cases s'.idx[f]? <;> rfl

theorem alone_val {s s' : St} (h : s.ensure = .ok s') (f : Nat) (hf : f < s'.idx.length) :
    alone s f = some (val s' (.off f), val s' (.size f)) := by
  rw [alone_ok h f]
  obtain ⟨e, he⟩ : ∃ e, s'.idx[f]? = some e := ⟨_, List.getElem?_eq_getElem hf⟩
  simp [val, List.getD_eq_getElem?_getD, he]

theorem alone_none {s s' : St} (h : s.ensure = .ok s') (f : Nat) (hf : ¬ f < s'.idx.length) : alone s f = some (0, 0) := by
  rw [alone_ok h f, List.getElem?_eq_none (by omega)]

theorem ensure_new {s s' : St} (h : s.ensure = .ok s') (h0 : s.parsed = false) :
    ∃ es, entries s.seg.data = .ok es ∧ s'.parsed = true ∧ s'.idx = fillIdx s.idx es := by
  unfold St.ensure at h
  rw [if_neg (by simp [h0])] at h
  simp only [Bind.bind, Res.bind, St.parseFieldIndex, Pure.pure] at h
  cases hp : parseLoop HeaderSize (s.seg.data.drop HeaderSize) s.idx with
  | ok r =>
    rw [hp] at h
    simp only [Res.ok.injEq] at h
    subst h
    obtain ⟨es, he, hr⟩ := parse_entries _ _ _ _ _ hp
    exact ⟨es, he, rfl, hr⟩
  | _ => rw [hp] at h; cases h

/-- A struct that is indexed before the goroutines start (a getter was called on it before): whatever the order of their steps and
whatever their reads may give, all getters of all goroutines find what they find alone. -/
theorem C144_indexed (sc : Bool) (s : St) (h : s.parsed = true) (w : List (Word × Nat)) (as : List Act) (t : State)
    (hr : run sc s.idx.length w as (init s) = some t) (i f o v : Nat) (ho : (f, o, v) ∈ (t.gs i).out) : alone s f = some (o, v) := by
  have he : s.ensure = .ok s := by unfold St.ensure; rw [if_pos h]; rfl
  have hi : Still s.idx.length s (init s) :=
    ⟨fun x => (by cases x <;> rfl), fun _ _ _ h => (by cases h), fun _ _ h => (by cases h), fun _ _ _ h => (by cases h),
      fun _ _ _ _ h => (by cases h)⟩
  obtain ⟨h1, h2⟩ := (still_run h as hi hr).out i f o v ho
  by_cases hf : f < s.idx.length
  · rw [alone_val he f hf, (h1 hf).1, (h1 hf).2]
  · rw [alone_none he f hf, (h2 hf).1, (h2 hf).2]

/-- A struct that is not indexed when the goroutines start, whose message has no field twice: if memory accesses happen one after the
other, in any order of the steps of the goroutines, all getters of all goroutines find what they find alone.
Partial: the memory model of Go gives more freedom to reads (`C144_field_missing`), and messages may have a field twice (`C144_twice`). -/
theorem C144_not_indexed_partial (s s' : St) (h : s.parsed = false) (he : s.ensure = .ok s') (es : List (Nat × Entry))
    (hes : entries s.seg.data = .ok es) (hu : Once s.idx.length es) (as : List Act) (t : State)
    (hr : run true s.idx.length (stores s.idx.length es) as (init s) = some t) (i f o v : Nat) (ho : (f, o, v) ∈ (t.gs i).out) :
    alone s f = some (o, v) := by
  obtain ⟨es', hes', hp, hidx⟩ := ensure_new he h
  rw [hes] at hes'
  cases hes'
  have hlen : s'.idx.length = s.idx.length := by rw [hidx, fillIdx_length]
  have hi := run_inv (change s s.idx.length rfl h es hu s' hp hidx) as (init_inv s s.idx.length _ _ h) hr
  obtain ⟨h1, h2⟩ := hi.out i f o v ho
  by_cases hf : f < s.idx.length
  · rw [alone_val he f (by omega), (h1 hf).1, (h1 hf).2]
  · rw [alone_none he f (by omega), (h2 hf).1, (h2 hf).2]

/-- Violation: with what the memory model of Go allows, a goroutine may find a field of the message absent. For every message and every
field in it: there is an execution in which one goroutine indexes the struct, and a second one sees that it is indexed but not the entry of
the field; its getter finds what was in the index before, that is, in a struct that was new, nothing. -/
theorem C144_field_missing (s : St) (h : s.parsed = false) (es : List (Nat × Entry)) (f : Nat) (hf : f < s.idx.length)
    (hz : s.idx[f]? = some .zero) :
    ∃ as t, run false s.idx.length (stores s.idx.length es) as (init s) = some t ∧ (t.gs 1).out = [(f, 0, 0)] := by
  have hz' : s.idx.getD f .zero = .zero := by rw [List.getD_eq_getElem?_getD, hz]; rfl
  -- goroutine 0 enters the getter and finds the struct not indexed
  let s1 : State := (init s).set 0 { (init s).gs 0 with pc := .check f }
  let s2 : State := s1.set 0 { note (s1.gs 0) .flag 0 with pc := .fill f (stores s.idx.length es) }
  have e1 : run false s.idx.length (stores s.idx.length es) [.call 0 f, .look 0 0] (init s) = some s2 := by
    simp only [run, step]
    have : (init s).gs 0 = ({} : Gor) := rfl
    rw [this]
    simp only [if_true, Option.bind_some, State.set, read]
    simp [init, h, s2, s1, State.set, note]
  obtain ⟨as, s3, hr3, hpc3, hoth, hmem, hval⟩ := run_stores (sc := false) (m := s.idx.length) (w := stores s.idx.length es) 0 f
    (stores s.idx.length es) s2 (by simp [s2, State.set])
  obtain ⟨p, -, hp⟩ := hval .flag 1 (flag_mem _ _)
  have hg1 : s3.gs 1 = {} := by rw [hoth 1 (by omega)]; rfl
  have hoff : (s3.mem (.off f))[0]? = some 0 := by
    obtain ⟨t, ht⟩ := hmem (.off f)
    rw [← ht]
    show ([(s.idx.getD f .zero).offset] ++ t)[0]? = some 0
    rw [hz']; rfl
  have hsize : (s3.mem (.size f))[0]? = some 0 := by
    obtain ⟨t, ht⟩ := hmem (.size f)
    rw [← ht]
    show ([(s.idx.getD f .zero).size] ++ t)[0]? = some 0
    rw [hz']; rfl
  -- goroutine 1 reads the flag after the store, the entry before
  have e2 : ∃ t, run false s.idx.length (stores s.idx.length es) [.call 1 f, .look 1 p, .off 1 0, .size 1 0] s3 = some t ∧
      (t.gs 1).out = [(f, 0, 0)] := by
    simp [run, step, hg1, State.set, read, hp, afterEnsure, hf, note, hoff, hsize]
  obtain ⟨t, ht, hout⟩ := e2
  exact ⟨_, t, run_append _ _ (run_append _ _ e1 hr3) ht, hout⟩

/-- A message with two bools, in the fields 0 and 1. -/
def two : Bytes := [0, 0, 14, 24, 0, 0, 0, 0, 0, 0, 1, 1, 0, 0, 0, 0, 1, 0, 1, 1, 0, 0, 0, 0]
/-- A message with field 0 twice. -/
def dup : Bytes := [0, 0, 14, 24, 0, 0, 0, 0, 0, 0, 1, 1, 0, 0, 0, 0, 0, 0, 1, 0, 0, 0, 0, 0]

/-- The struct that has just been decoded from a message. -/
def decoded (d : Bytes) : St := ⟨⟨d, []⟩, List.replicate 2 .zero, false, false, none, false, []⟩

def okEntries (d : Bytes) : List (Nat × Entry) := match entries d with | .ok es => es | _ => []

example : entries two = .ok [(0, ⟨8, 8, true⟩), (1, ⟨16, 8, true⟩)] ∧ Once 2 [(0, ⟨8, 8, true⟩), (1, ⟨16, 8, true⟩)] ∧
    alone (decoded two) 1 = some (16, 8) := by
  refine ⟨by rfl, by unfold Once; decide, by rfl⟩

/-- Field 1 is in this message, and may be missing for the second goroutine. -/
example : alone (decoded two) 1 = some (16, 8) ∧
    ∃ as t, run false 2 (stores 2 (okEntries two)) as (init (decoded two)) = some t ∧ (t.gs 1).out = [(1, 0, 0)] :=
  ⟨by rfl, C144_field_missing (decoded two) rfl (okEntries two) 1 (by decide) rfl⟩

/-- Two goroutines index the struct at the same time, and both find the field. -/
example : ((run true 2 (stores 2 (okEntries two))
      [.call 0 1, .call 1 1, .look 0 0, .look 1 0, .store 0, .store 0, .store 1, .store 0, .store 0, .store 0, .filled 0, .off 0 1, .store 1, .size 0 1,
        .store 1, .store 1, .store 1, .filled 1, .off 1 2, .size 1 2] (init (decoded two))).map
      fun t => ((t.gs 0).out, (t.gs 1).out)) = some ([(1, 16, 8)], [(1, 16, 8)]) := by
  decide +kernel

/-- Violation: of a message that has a field twice the last one counts; but while a second goroutine indexes the struct, a getter may find
the first one, after it found the last one before. -/
theorem C144_twice : alone (decoded dup) 0 = some (16, 8) ∧
    ((run true 2 (stores 2 (okEntries dup))
      [.call 0 0, .call 1 0, .look 0 0, .look 1 0, .store 0, .store 0, .store 0, .store 0, .store 0, .filled 0, .off 0 2, .size 0 2,
        .store 1, .call 0 0, .look 0 1, .off 0 3, .size 0 2] (init (decoded dup))).map
      fun t => (t.gs 0).out) = some [(0, 16, 8), (0, 8, 8)] := by
  constructor
  · rfl
  · decide +kernel

/-- Violation: two goroutines that read lists of a struct for the first time, the same one or different ones, may end the program, also
when the struct is indexed. -/
theorem C144_lists_fatal (f g : Nat) : ∃ as t, (∀ i h, LAct.call i h ∈ as → (i, h) = (0, f) ∨ (i, h) = (1, g)) ∧ lrun as {} = some t ∧
    t.fatal = true := by
  refine ⟨[.call 0 f, .call 1 g, .next 0, .next 0, .next 0, .next 0, .next 1], _, ?_, rfl, rfl⟩
  intro i h hm
  simpa using hm

/-- Violation: two goroutines may get two different objects for the same list; only one of them is the list that the struct keeps. -/
theorem C144_lists_differ (f : Nat) : ∃ as, (lrun as {}).map (fun t => (t.fatal, t.out)) = some (false, [(0, f, 0), (1, f, 1), (0, f, 1)]) := by
  refine ⟨[.call 0 f, .call 1 f, .next 0, .next 1, .next 0, .next 1, .next 0, .next 0, .next 0, .next 1, .next 1, .next 1, .call 0 f, .next 0],
    ?_⟩
  simp [lrun, lstep, LState.at]

/-- The list object kept for a field. -/
def LState.kept (s : LState) (f : Nat) : Option Nat :=
  match s.ptr with
  | none => none
  | some m => s.maps m f

/-- Lists that were read before the goroutines start: any number of goroutines may read them, in any order of steps; the program goes on
and all get the object that the struct keeps.
Partial: only lists that the struct keeps already (`C144_lists_fatal`). -/
theorem C144_lists_kept_partial (s0 : LState) (hf : s0.fatal = false) (hb : ∀ k, s0.busy k = false) (hpc : ∀ i, s0.pc i = .idle)
    (hout : s0.out = []) : ∀ (as : List LAct) (t : LState), (∀ i f, LAct.call i f ∈ as → (s0.kept f).isSome) → lrun as s0 = some t →
      t.fatal = false ∧ ∀ i f obj, (i, f, obj) ∈ t.out → s0.kept f = some obj := by
  have key : ∀ (as : List LAct) (s t : LState), (∀ i f, LAct.call i f ∈ as → (s0.kept f).isSome) → s.ptr = s0.ptr → s.maps = s0.maps →
      s.busy = s0.busy → s.fatal = false → (∀ i, s.pc i = .idle ∨ ∃ f, s.pc i = .lookup f ∧ (s0.kept f).isSome) →
      (∀ i f obj, (i, f, obj) ∈ s.out → s0.kept f = some obj) → lrun as s = some t →
      t.fatal = false ∧ ∀ i f obj, (i, f, obj) ∈ t.out → s0.kept f = some obj := by
    intro as
    induction as with
    | nil => intro s t _ _ _ _ h4 _ h6 h; cases h; exact ⟨h4, h6⟩
    | cons a as ih =>
      intro s t hc h1 h2 h3 h4 h5 h6 h
      simp only [lrun] at h
      have hc' : ∀ i f, LAct.call i f ∈ as → (s0.kept f).isSome := fun i f h => hc i f (List.mem_cons_of_mem _ h)
      cases a with
      | call i f =>
        simp only [lstep] at h
        split at h
        · simp only [Option.bind_some] at h
          refine ih (s.at i (.lookup f)) t hc' h1 h2 h3 h4 ?_ h6 h
          intro j
          simp only [LState.at]
          split
          · exact .inr ⟨f, rfl, hc i f (by simp)⟩
          · exact h5 j
        · cases h
      | next i =>
        simp only [lstep, h4] at h
        rcases h5 i with hi | ⟨f, hi, hk⟩
        · rw [hi] at h; cases h
        · rw [hi] at h
          simp only at h
          unfold LState.kept at hk
          cases hp : s0.ptr with
          | none => rw [hp] at hk; cases hk
          | some m =>
            rw [hp] at hk
            simp only at hk
            obtain ⟨obj, ho⟩ := Option.isSome_iff_exists.1 hk
            rw [h1, hp] at h
            simp only [h3, hb m, h2, ho] at h
            simp only [Bool.false_eq_true, if_false, Option.bind_some] at h
            refine ih _ t hc' ?_ ?_ ?_ ?_ ?_ ?_ h
            · exact h1
            · exact h2
            · exact h3
            · exact h4
            · intro j
              simp only [LState.at]
              split
              · exact .inl rfl
              · exact h5 j
            · intro j g o h'
              rcases List.mem_append.1 h' with h' | h'
              · exact h6 j g o h'
              · simp only [List.mem_singleton, Prod.mk.injEq] at h'
                obtain ⟨rfl, rfl, rfl⟩ := h'
                unfold LState.kept
                rw [hp]
                exact ho
  intro as t hc h
  exact key as s0 t hc rfl rfl rfl hf (fun i => .inl (hpc i)) (by rw [hout]; intro i f obj h; cases h) h

/-- A struct that keeps list 7 for field 3. -/
def keeps : LState := { ptr := some 0, maps := fun _ f => if f = 3 then some 7 else none, nextMap := 1, nextObj := 8 }

example : ((lrun [.call 0 3, .call 1 3, .next 1, .next 0] keeps).map fun t => (t.out, t.fatal)) = some ([(1, 3, 7), (0, 3, 7)], false) ∧
    keeps.kept 3 = some 7 := by decide +kernel

end Claw.Conc
