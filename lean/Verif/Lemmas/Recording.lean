import Verif.Model.Recording
import Verif.Lemmas.ApplyDiff

/-!
# Recording changes nothing but the recorder

`s.note b o` is `s` with another recording flag and other recorded operations.
-/

namespace Claw

set_option linter.unusedSimpArgs false

def St.note (s : St) (b : Bool) (o : List RecOp) : St := { s with recording := b, ops := o }
def LSt.note (L : LSt) (b : Bool) (o : List RecOp) : LSt := { L with st := L.st.note b o }

theorem St.note_self (s : St) : s.note s.recording s.ops = s := rfl
theorem St.note_note (s : St) (b b' o o') : (s.note b o).note b' o' = s.note b' o' := rfl

theorem Res.map_id {α : Type} (x : Res α) (f : α → α) (h : ∀ a, f a = a) : x.map f = x := by cases x <;> simp [Res.map, h]

section
variable (b : Bool) (o : List RecOp)

theorem ensure_note (s : St) : (s.note b o).ensure = s.ensure.map (·.note b o) := by
  obtain ⟨seg, idx, parsed, en, bits, r, op⟩ := s
  cases parsed
  · simp only [St.ensure, St.note, St.parseFieldIndex, Bool.false_eq_true, if_false]
    cases parseLoop HeaderSize (seg.data.drop HeaderSize) idx <;> rfl
  · rfl

theorem updateHeaderSize_note (s : St) : (s.note b o).updateHeaderSize = s.updateHeaderSize.map (·.note b o) := by
  simp only [St.updateHeaderSize, St.note]
  cases s.seg.putHeaderSize s.seg.data.length <;> rfl

theorem removeField_note (s : St) (fn : Nat) : (s.note b o).removeField fn = (s.removeField fn).map (·.note b o) := by
  simp only [St.removeField, ensure_note]
  cases s.ensure with
  | ok s =>
    simp only [Res.map_ok, Res.ok_bind]
    rw [show (s.note b o).idx = s.idx from rfl]
    cases s.idx[fn]? with
    | none => rfl
    | some e =>
      simp only
      by_cases h : e.size = 0
      · simp only [h, if_true]; rfl
      · simp only [h, if_false]
        rw [show (s.note b o).seg = s.seg from rfl]
        cases s.seg.removeAt e.offset e.size with
        | ok g =>
          simp only [Res.ok_bind]
          exact updateHeaderSize_note b o { s with seg := g, idx := _ }
        | panic => rfl
        | hang => rfl
  | panic => rfl
  | hang => rfl

theorem insertField_note (s : St) (fn : Nat) (d : Bytes) :
    (s.note b o).insertField fn d = (s.insertField fn d).map (·.note b o) := by
  simp only [St.insertField, ensure_note]
  cases s.ensure with
  | ok s =>
    simp only [Res.map_ok, Res.ok_bind]
    rw [show (s.note b o).idx = s.idx from rfl]
    cases s.idx[fn]? with
    | none => rfl
    | some e =>
      simp only
      rw [show (s.note b o).seg = s.seg from rfl, show (s.note b o).findInsertPosition fn = s.findInsertPosition fn from rfl]
      by_cases h : e.size > 0
      · simp only [h, if_true]
        by_cases h2 : d.length = e.size
        · simp only [h2, if_true]
          by_cases h3 : e.offset > s.seg.data.length
          · simp only [h3, if_true]; rfl
          · simp only [h3, if_false]
            exact updateHeaderSize_note b o { s with seg := _, idx := _ }
        · simp only [h2, if_false]
          cases s.seg.replaceAt e.offset e.size d with
          | ok g => exact updateHeaderSize_note b o { s with seg := g, idx := _ }
          | panic => rfl
          | hang => rfl
      · simp only [h, if_false]
        cases s.seg.insertAt (s.findInsertPosition fn) d with
        | ok g => exact updateHeaderSize_note b o { s with seg := g, idx := _ }
        | panic => rfl
        | hang => rfl
  | panic => rfl
  | hang => rfl

theorem markFieldSet_note (s : St) (fn : Nat) : (s.note b o).markFieldSet fn = (s.markFieldSet fn).note b o := by
  simp only [St.markFieldSet, St.note]
  split
  · rename_i h1 h2
    split <;> rfl
  · rfl

theorem fieldOffset_note (s : St) (fn : Nat) :
    (s.note b o).fieldOffset fn = (s.fieldOffset fn).map fun p => (p.1, p.2.note b o) := by
  simp only [St.fieldOffset, ensure_note]
  cases s.ensure with
  | ok s =>
    simp only [Res.map_ok, Res.ok_bind]
    rw [show (s.note b o).idx = s.idx from rfl]
    cases s.idx[fn]? <;> rfl
  | panic => rfl
  | hang => rfl

theorem fieldBytes_note (s : St) (fn : Nat) : fieldBytes (s.note b o) fn = fieldBytes s fn := by
  simp only [fieldBytes, fieldOffset_note]
  cases s.fieldOffset fn with
  | ok p => obtain ⟨⟨x, y⟩, s⟩ := p; rfl
  | panic => rfl
  | hang => rfl

theorem getList_note (t : STy) (s : St) (fn : Nat) : t.getList (s.note b o) fn = t.getList s fn := by
  cases t <;> simp only [STy.getList, getListBools, getListItems, fieldBytes_note]
  case lnum k =>
    simp only [getListNums, fieldOffset_note]
    cases s.fieldOffset fn with
    | ok p => obtain ⟨⟨x, y⟩, s⟩ := p; rfl
    | panic => rfl
    | hang => rfl

theorem access_note (L : LSt) (fn : Nat) (t : STy) :
    (L.note b o).access fn t = (L.access fn t).map fun p => (p.1, p.2.note b o) := by
  simp only [LSt.access]
  rw [show (L.note b o).lists = L.lists from rfl, show (L.note b o).st = L.st.note b o from rfl]
  cases L.lists fn with
  | some id => rfl
  | none =>
    simp only [ensure_note]
    cases L.st.ensure with
    | ok st =>
      simp only [Res.map_ok, Res.ok_bind, getList_note]
      cases t.getList st fn with
      | ok v => cases v <;> rfl
      | panic => rfl
      | hang => rfl
    | panic => rfl
    | hang => rfl

theorem edit_note (L : LSt) (fn : Nat) (t : STy) (g : t.Val → Option t.Val) :
    (L.note b o).edit fn t g = (L.edit fn t g).map (·.note b o) := by
  simp only [LSt.edit, access_note]
  cases L.access fn t with
  | ok p =>
    obtain ⟨id, L⟩ := p
    simp only [Res.map_ok, Res.ok_bind]
    rw [show (L.note b o).heap = L.heap from rfl]
    cases L.heap[id]? with
    | none => rfl
    | some x =>
      simp only
      by_cases h : x.t = t
      · simp only [h, dif_pos]
        cases g (h ▸ x.v) <;> rfl
      · simp only [h, dif_neg, not_false_eq_true]; rfl
  | panic => rfl
  | hang => rfl

theorem syncList_note (s : St) (fn : Nat) (e : Bool) (x : Option Bytes) :
    syncList (s.note b o) fn e x = (syncList s fn e x).map (·.note b o) := by
  simp only [syncList]
  cases e
  · cases x
    · rfl
    · simp only [Bool.false_eq_true, if_false, Res.ofOption_some, Res.ok_bind]
      exact insertField_note b o s fn _
  · simp only [if_true]; exact removeField_note b o s fn

theorem sync_note (t : STy) (s : St) (fn : Nat) (v : t.Val) : t.sync (s.note b o) fn v = (t.sync s fn v).map (·.note b o) := by
  cases t <;> simp only [STy.sync, syncList_note] <;> rfl

theorem syncObj_note (L : LSt) (id : Nat) : (L.note b o).syncObj id = (L.syncObj id).map (·.note b o) := by
  simp only [LSt.syncObj]
  rw [show (L.note b o).heap = L.heap from rfl, show (L.note b o).st = L.st.note b o from rfl]
  cases L.heap[id]? with
  | none => rfl
  | some x =>
    simp only
    cases x.dirty
    · rfl
    · simp only [if_true, sync_note]
      cases x.t.sync L.st x.fn x.v <;> rfl

theorem syncAll_note : ∀ (ds : List (Nat × Nat)) (L : LSt), (L.note b o).syncAll ds = (L.syncAll ds).map (·.note b o)
  | [], L => rfl
  | (_, id) :: ds, L => by
    simp only [LSt.syncAll, syncObj_note]
    cases L.syncObj id with
    | ok L => simp only [Res.map_ok, Res.ok_bind]; exact syncAll_note ds L
    | panic => rfl
    | hang => rfl

theorem stMarshal_note (s : St) : (s.note b o).marshal = s.marshal.map fun p => (p.1, p.2.note b o) := by
  obtain ⟨seg, idx, parsed, en, bits, r, op⟩ := s
  cases en
  · simp only [St.marshal, St.note, Bool.false_eq_true, false_and, if_false]
    cases seg.putHeaderSize seg.data.length <;> rfl
  · cases bits with
    | none =>
      simp only [St.marshal, St.note, ne_eq, not_true_eq_false, and_false, if_false]
      cases seg.putHeaderSize seg.data.length <;> rfl
    | some bits =>
      simp only [St.marshal, St.note, ne_eq, reduceCtorEq, not_false_eq_true, and_true, if_true, St.appendIsSetBitfield]
      by_cases h0 : (idx.length + 6) / 7 = 0 <;> simp only [h0, if_true, if_false]
      all_goals
        generalize St.setContinuation bits _ = q
        cases (seg.append q).putHeaderSize (seg.append q).data.length <;> rfl

theorem marshal_note (L : LSt) : (L.note b o).marshal = L.marshal.map fun p => (p.1, p.2.note b o) := by
  simp only [LSt.marshal]
  rw [show (L.note b o).dirtyLists = L.dirtyLists from rfl, syncAll_note]
  cases hs : L.syncAll L.dirtyLists with
  | ok L' =>
    simp only [Res.map_ok, Res.ok_bind]
    rw [show (L'.note b o).st = L'.st.note b o from rfl, stMarshal_note]
    cases L'.st.marshal <;> rfl
  | panic => rfl
  | hang => rfl

end

/-- The flag and the records stay as they are where nothing is recorded. -/
theorem kept {s : St} {f : St → Res St} (h : ∀ s b o, f (s.note b o) = (f s).map (·.note b o)) {s' : St}
    (e : f s = .ok s') : s'.recording = s.recording ∧ s'.ops = s.ops := by
  have := h s s.recording s.ops
  rw [St.note_self, e, Res.map_ok, Res.ok.injEq] at this
  rw [this]; exact ⟨rfl, rfl⟩

theorem recordOp_note_true (s : St) (o : List RecOp) (r : RecOp) :
    (s.note true o).recordOp r = s.note true (o ++ [r]) := rfl

theorem recordOp_off {s : St} (h : s.recording = false) (r : RecOp) : s.recordOp r = s := by simp [St.recordOp, h]

/-- A setter with recording on. -/
theorem setOrClear_note {s s' : St} {fn : Nat} {z : Bool} {x : Option Bytes} {rd : Bytes} (h : s.recording = false)
    (e : setOrClear s fn z x rd = .ok s') (o : List RecOp) :
    setOrClear (s.note true o) fn z x rd =
      .ok (s'.note true (o ++ [if z then ⟨fn, OpClear, -1, []⟩ else ⟨fn, OpSet, -1, rd⟩])) := by
  simp only [setOrClear] at e ⊢
  cases z
  · simp only [Bool.false_eq_true, if_false] at e ⊢
    cases x with
    | none => simp at e
    | some x =>
      simp only [Res.ofOption_some, Res.ok_bind, insertField_note] at e ⊢
      cases hi : s.insertField fn x with
      | ok s1 =>
        simp only [hi, Res.ok_bind, Res.pure_eq, Res.ok.injEq, Res.map_ok, markFieldSet_note] at e ⊢
        have := (kept (f := fun s => s.insertField fn x) (fun s b o => insertField_note b o s fn x) hi).1
        have hm : (s1.markFieldSet fn).recording = false := by
          rw [h] at this; rw [← this]
          simp only [St.markFieldSet]; repeat' split
          all_goals rfl
        rw [recordOp_off hm] at e
        subst e; rfl
      | panic => simp [hi] at e
      | hang => simp [hi] at e
  · simp only [if_true, removeField_note] at e ⊢
    cases hi : s.removeField fn with
    | ok s1 =>
      simp only [hi, Res.ok_bind, Res.pure_eq, Res.ok.injEq, Res.map_ok] at e ⊢
      have := (kept (f := fun s => s.removeField fn) (fun s b o => removeField_note b o s fn) hi).1
      rw [recordOp_off (by rw [this, h])] at e
      subst e; rfl
    | panic => simp [hi] at e
    | hang => simp [hi] at e

end Claw
