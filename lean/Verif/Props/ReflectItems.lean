import Verif.Model.ReflectItems
import Verif.Props.ReflectMore

/-!
# Changing lists through reflection (C137)
-/

namespace Claw.Refl

open Claw

/-- The slice is in the heap. -/
def In {α : Type} (h : Heap α) (s : Slice) : Prop := s.ptr < h.length ∧ s.len ≤ (arr h s).length

theorem arr_set {α : Type} {h : Heap α} {s : Slice} (hp : s.ptr < h.length) (l : List α) (t : Slice) :
    arr (h.set s.ptr l) t = if t.ptr = s.ptr then l else arr h t := by
  simp only [arr, List.getD_eq_getElem?_getD, List.getElem?_set]
  split
  · rename_i e
    rw [if_pos e.symm]
    simp [hp]
  · rename_i e
    rw [if_neg (fun q => e q.symm)]

/-- The floats of the item come back from their conversion. -/
def ExactItem (E : Env) : (k : Kind) → k.Item → Prop
  | .nums .f32, x => E.c.narrow (E.c.widen x) = x
  | _, _ => True

theorem any_assert (c : Conv) (t : STy) (ht : isScalar t = true) (hs : t ≠ .str) (x : t.Val) (he : Exact c t x) :
    ((ofScalar c t x).any c >>= fun a => assertTy t a) = .ok x := by
  rw [any_ofScalar c ht x he (fun e => absurd e hs)]
  simp [assertTy]

/-- A value with such an item is taken as this item. -/
theorem item_ofItem (E : Env) (hf : 0 < E.fuel) (k : Kind) (x : k.Item) (he : ExactItem E k x) : item E k (ofItem E k x) = .ok x := by
  cases k with
  | bools => simp [item, ofItem, ofScalar]
  | nums k =>
    cases k with
    | f32 => exact any_assert E.c .f32 rfl (by decide) x he
    | i8 => exact any_assert E.c .i8 rfl (by decide) x trivial
    | i16 => exact any_assert E.c .i16 rfl (by decide) x trivial
    | i32 => exact any_assert E.c .i32 rfl (by decide) x trivial
    | i64 => exact any_assert E.c .i64 rfl (by decide) x trivial
    | u8 => exact any_assert E.c .u8 rfl (by decide) x trivial
    | u16 => exact any_assert E.c .u16 rfl (by decide) x trivial
    | u32 => exact any_assert E.c .u32 rfl (by decide) x trivial
    | u64 => exact any_assert E.c .u64 rfl (by decide) x trivial
    | f64 => exact any_assert E.c .f64 rfl (by decide) x trivial
  | bytes => simp [item, ofItem, ofBytes]
  | strs =>
    obtain ⟨n, hn⟩ : ∃ n, E.fuel = n + 1 := ⟨E.fuel - 1, by omega⟩
    simp only [item, ofItem, hn, str, ofScalar]
    simp [FTString]
  | structs m => simp [item, ofItem, ofStruct]

/-- C137: an item that is set is read back through every copy of the list; the other items, and all other lists, stay as they are. -/
theorem C137_set (E : Env) (hf : 0 < E.fuel) (k : Kind) (h : Heap k.Item) (s : Slice) (hs : In h s) (i : Nat) (hi : i < s.len) (x : k.Item)
    (he : ExactItem E k x) :
    ∃ h', listSet E k h s i (ofItem E k x) = .ok h' ∧
      (∀ t, t.ptr = s.ptr → i < t.len → listGet E k h' t i = .ok (ofItem E k x)) ∧
      (∀ t j, t.ptr = s.ptr → j ≠ i → listGet E k h' t j = listGet E k h t j) ∧
      (∀ t, t.ptr ≠ s.ptr → view h' t = view h t) := by
  have hi' : i < (arr h s).length := Nat.lt_of_lt_of_le hi hs.2
  refine ⟨h.set s.ptr ((arr h s).set i x), ?_, ?_, ?_, ?_⟩
  · simp only [listSet, item_ofItem E hf k x he, Res.ok_bind, setAt]
    rw [if_pos hi]
  · intro t ht hl
    simp only [listGet, getAt, arr_set hs.1, if_pos ht, if_pos hl, List.getElem?_set, if_pos hi', if_true, Res.ofOption, Res.ok_bind]
  · intro t j ht hj
    have e : arr h t = arr h s := by simp [arr, ht]
    simp only [listGet, getAt, arr_set hs.1, if_pos ht, List.getElem?_set, if_neg (fun q => hj (Eq.symm q)), e]
  · intro t ht
    simp only [view, arr_set hs.1, if_neg ht]

/-- C137: an index outside of the list panics. -/
theorem C137_bounds (E : Env) (k : Kind) (h : Heap k.Item) (s : Slice) (i : Nat) (hi : s.len ≤ i) (v : Value) :
    listGet E k h s i = .panic ∧ ∀ h', listSet E k h s i v ≠ .ok h' := by
  constructor
  · simp only [listGet, getAt, if_neg (Nat.not_lt.2 hi)]
    rfl
  · intro h' e
    simp only [listSet, setAt, if_neg (Nat.not_lt.2 hi)] at e
    cases hx : item E k v <;> rw [hx] at e <;> cases e

/-- C137 is violated: a value that is appended is not in the list: nor in this copy of it, nor in another one. -/
theorem C137_append_lost (E : Env) (k : Kind) (room : List k.Item) (h h' : Heap k.Item) (s : Slice) (hs : In h s) (v : Value)
    (ha : listAppend E k room h s v = .ok h') (t : Slice) (ht : In h t) (hl : t.ptr = s.ptr → t.len ≤ s.len) : view h' t = view h t := by
  simp only [listAppend] at ha
  cases hx : item E k v with
  | ok x =>
    rw [hx] at ha
    simp only [Res.ok_bind, Res.ok.injEq] at ha
    subst ha
    simp only [append]
    split
    · rename_i hc
      by_cases hp : t.ptr = s.ptr
      · have e : arr h t = arr h s := by simp [arr, hp]
        simp only [view, arr_set hs.1, if_pos hp, e]
        rw [List.take_set_of_le (hl hp)]
      · simp only [view, arr_set hs.1, if_neg hp]
    · simp only [view, arr, List.getD_eq_getElem?_getD]
      rw [List.getElem?_append_left ht.1]
  | panic => rw [hx] at ha; cases ha
  | hang => rw [hx] at ha; cases ha

/-- What it drops is the list with the item. -/
theorem append_view {α : Type} (room : List α) (h : Heap α) (s : Slice) (hs : In h s) (x : α) :
    view (append room h s x).1 (append room h s x).2 = view h s ++ [x] := by
  simp only [append]
  split
  · rename_i hc
    simp only [view]
    rw [show arr (h.set s.ptr ((arr h s).set s.len x)) ⟨s.ptr, s.len + 1⟩ = (arr h s).set s.len x from by
      rw [arr_set hs.1]; simp]
    apply List.ext_getElem?
    intro j
    simp only [List.getElem?_take, List.getElem?_append, List.length_take, List.getElem?_set]
    have : min s.len (arr h s).length = s.len := by omega
    rw [this]
    by_cases h1 : j < s.len
    · simp [h1, Nat.lt_succ_of_lt h1, Nat.ne_of_gt h1]
    · by_cases h2 : j = s.len
      · subst h2; simp [hc]
      · have h3 : ¬ j < s.len + 1 := by omega
        have h4 : j - s.len ≠ 0 := by omega
        simp [h1, h3, h4]
  · rename_i hc
    have e : s.len = (arr h s).length := by have := hs.2; omega
    have hv : view h s = arr h s := by simp [view, e]
    simp only [view, arr, List.getD_eq_getElem?_getD, List.getElem?_concat_length, Option.getD_some]
    have hl : ((h[s.ptr]?.getD []).take s.len).length = s.len := by
      have : (h[s.ptr]?.getD []).length = s.len := by rw [e]; simp [arr]
      simp [this]
    rw [List.take_append, hl]
    simp [List.take_take]

/-- C137: lists of bools, numbers and bytes take no values of other types. -/
theorem C137_refused (E : Env) (t : STy) (ht : isScalar t = true) (v : t.Val) :
    (t ≠ .bool → item E .bools (ofScalar E.c t v) = .panic) ∧ (t ≠ .bytes → item E .bytes (ofScalar E.c t v) = .panic) ∧
      ∀ k, t ≠ elem k → item E (.nums k) (ofScalar E.c t v) = .panic := by
  refine ⟨fun hn => ?_, fun hn => ?_, fun k hn => ?_⟩
  · cases t <;> first | (exact absurd rfl hn) | (simp [isScalar] at ht; done) | rfl
  · cases t <;> first | (exact absurd rfl hn) | (simp [isScalar] at ht; done) | rfl
  · have key : ∃ a, (ofScalar E.c t v).any E.c = .ok a ∧ (a = .nil ∨ ∃ w, a = .scalar t w) := by
      cases t <;> first | (simp [isScalar] at ht; done) | exact ⟨_, rfl, Or.inr ⟨_, rfl⟩⟩ | skip
      cases v with
      | nil => exact ⟨_, rfl, Or.inl rfl⟩
      | cons b v => exact ⟨_, rfl, Or.inr ⟨_, rfl⟩⟩
    obtain ⟨a, ha, hc⟩ := key
    simp only [item, ha, Res.ok_bind]
    rcases hc with rfl | ⟨w, rfl⟩
    · cases k <;> rfl
    · cases k <;> simp only [assertNum, assertTy] <;> rw [dif_neg (by simpa [elem] using hn)]

/-- C137 is violated: a list of strings takes bools and numbers too, as the texts that are printed for them. -/
theorem C137_strings_take (E : Env) (n : Nat) (hf : E.fuel = n + 1) (t : STy) (ht : isScalar t = true) (h1 : t ≠ .str) (h2 : t ≠ .bytes) (v : t.Val)
    (he : Exact E.c t v) : item E .strs (ofScalar E.c t v) = .ok (E.sprint (.scalar t v)) := by
  have ha := any_ofScalar E.c ht v he (fun e => absurd e h1)
  simp only [item, hf, str]
  cases t <;> first
    | (exact absurd rfl h1)
    | (exact absurd rfl h2)
    | (simp [isScalar] at ht; done)
    | (simp only [ha]; simp [ofScalar, FTString, FTStruct, FTBool, FTInt8, FTInt16, FTInt32, FTInt64, FTUint8, FTUint16, FTUint32, FTUint64, FTFloat32, FTFloat64])

/-- C137 is violated: a list of structs takes structs of every type. -/
theorem C137_structs_take (E : Env) (m : Nat) (r : RStruct) : item E (.structs m) (ofStruct r) = .ok r.s := rfl

/-- C137 is violated: a value of an enum cannot be set in a list of the enum. -/
theorem C137_enums_refused (E : Env) (k : NTy) (g : Group) (a : UInt8) (b : UInt16) :
    item E (.nums k) (ofEnum8 a (some g)) = .panic ∧ item E (.nums k) (ofEnum16 b (some g)) = .panic := by
  constructor
  · have : ∃ x, (ofEnum8 a (some g)).any E.c = .ok x ∧ (x = .nil ∨ ∃ e, x = .enum e) := by
      simp only [Value.any, ofEnum8, Value.enum]
      cases byValue g (a.toUInt64).toUInt16 with
      | none => exact ⟨.nil, rfl, Or.inl rfl⟩
      | some e => exact ⟨.enum e, rfl, Or.inr ⟨e, rfl⟩⟩
    obtain ⟨x, hx, hc⟩ := this
    simp only [item, hx, Res.ok_bind]
    rcases hc with rfl | ⟨e, rfl⟩ <;> cases k <;> rfl
  · have : ∃ x, (ofEnum16 b (some g)).any E.c = .ok x ∧ (x = .nil ∨ ∃ e, x = .enum e) := by
      simp only [Value.any, ofEnum16, Value.enum]
      cases byValue g (b.toUInt64).toUInt16 with
      | none => exact ⟨.nil, rfl, Or.inl rfl⟩
      | some e => exact ⟨.enum e, rfl, Or.inr ⟨e, rfl⟩⟩
    obtain ⟨x, hx, hc⟩ := this
    simp only [item, hx, Res.ok_bind]
    rcases hc with rfl | ⟨e, rfl⟩ <;> cases k <;> rfl

/-- C137 is violated: the type of a number list is that of its items, not that of the field; the types of the other lists are as they
should be. -/
theorem C137_type (k : NTy) : (Kind.nums k).type ≠ k.ft ∧ (∀ c v, (ofNum c k v).ft = (Kind.nums k).type) ∧ Kind.bools.type = FTListBools ∧
    Kind.bytes.type = FTListBytes ∧ Kind.strs.type = FTListStrings ∧ ∀ m, (Kind.structs m).type = FTListStructs := by
  refine ⟨?_, ?_, rfl, rfl, rfl, fun _ => rfl⟩
  · cases k <;> decide
  · intro c v
    cases k <;> rfl

/-- C137 is violated: `Any` of a list panics. -/
theorem C137_any (c : Conv) (l : RList) : (ofList l).any c = .panic := by
  simp [Value.any, ofList, Value.anyOf, FTBool, FTInt8, FTInt16, FTInt32, FTInt64, FTUint8, FTUint16, FTUint32, FTUint64, FTFloat32, FTFloat64,
    FTString, FTBytes, FTListBools, FTListStructs]

/-! ### Cases -/

def exEnv : Env := ⟨noConv, exWorld, fun _ => txt "7", 1⟩

example : In (α := UInt16) [[1, 2, 9], [4]] ⟨0, 2⟩ := by unfold In; decide
example : listSet exEnv (.nums .u16) [[1, 2, 9], [4]] ⟨0, 2⟩ 1 (ofScalar noConv .u16 (7 : UInt16)) = .ok [[1, 7, 9], [4]] := rfl
/-- Room for one more, which no list has. -/
example : listAppend exEnv (.nums .u16) [] [[1, 2, 9], [4]] ⟨0, 2⟩ (ofScalar noConv .u16 (7 : UInt16)) = .ok [[1, 2, 7], [4]] := rfl
example : listAppend exEnv (.nums .u16) [0] [[1, 2], [4]] ⟨0, 2⟩ (ofScalar noConv .u16 (7 : UInt16)) = .ok [[1, 2], [4], [1, 2, 7, 0]] := rfl
example : view (α := UInt16) [[1, 2, 7], [4]] ⟨0, 2⟩ = [1, 2] := by decide
example : item exEnv .strs (ofScalar noConv .u16 (7 : UInt16)) = .ok (txt "7") := C137_strings_take exEnv 0 rfl .u16 rfl (by decide) (by decide) _ trivial

end Claw.Refl
