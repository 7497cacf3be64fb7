import Verif.Spec.Patch

/-!
# C152: a patch operation that does not fit its field is refused and changes nothing

The specification says when a `Set` fits a field (`SetFits`) and which fields have items (`HasItems`), in terms
of the types of the schema alone. Operations with patches inside are C23's; what the others do when they fit is C24's.
-/

namespace Claw.PatchRefuse

open Claw

/-! ### Specification -/

/-- How many bytes a single value has at least, `none` for types that cannot be set as a whole. -/
def width : STy → Option Nat
  | .bool | .i8 | .u8 => some 1
  | .i16 | .u16 => some 2
  | .i32 | .u32 | .f32 => some 4
  | .i64 | .u64 | .f64 => some 8
  | .bytes | .str => some 0
  | _ => none

/-- The data of a `Set` holds a value of the type. -/
def SetFits (t : STy) (d : Bytes) : Prop := ∃ n, width t = some n ∧ n ≤ d.length

/-- The type has items that can be set, inserted and removed. -/
def HasItems : Ty → Prop
  | .scalar t => t.isList = true
  | .struct _ => False
  | .structs _ => True

/-! ### Set -/

theorem num_fits (k : NTy) (d : Bytes) : (∃ v, NTy.ofPatch k d = some v) ↔ k.size ≤ d.length := by
  unfold NTy.ofPatch
  split
  · rename_i h; simp; omega
  · rename_i h; simp; omega

theorem set_fits (t : STy) (d : Bytes) : (∃ v, STy.ofPatch t d = some v) ↔ SetFits t d := by
  have hn := fun k => num_fits k d
  cases t <;> simp only [STy.ofPatch, SetFits, width, Option.some.injEq, exists_eq_left', reduceCtorEq, false_and,
    exists_false, Nat.zero_le, iff_true, exists_const]
  case bool =>
    cases d with
    | nil => simp [boolOf]
    | cons x d => simp [boolOf]
  case i8 => exact hn .i8
  case i16 => exact hn .i16
  case i32 => exact hn .i32
  case i64 => exact hn .i64
  case u8 => exact hn .u8
  case u16 => exact hn .u16
  case u32 => exact hn .u32
  case u64 => exact hn .u64
  case f32 => exact hn .f32
  case f64 => exact hn .f64
  case bytes => exact ⟨d, rfl⟩
  case str => exact ⟨d, rfl⟩

/-- **C152, Set.** For every struct, field and data: a `Set` of a single value is refused exactly if the data does not hold
a value of the type of the field, and then the struct is as it was. Lists, maps and Any cannot be set as a whole. -/
theorem C152_set (fuel : Nat) (tys : List Ty) (L : LSt) (op : POp) (t : STy) (hop : op.ty = PSet)
    (hfd : tys[op.fn.toNat]? = some (.scalar t)) :
    (¬ SetFits t op.data → applyOp fuel tys L op = .ok (L, true)) ∧
      (SetFits t op.data → ∀ L', applyOp fuel tys L op ≠ .ok (L', true)) := by
  unfold applyOp
  simp only [hop, if_true, applySet, hfd]
  rw [← set_fits]
  constructor
  · intro h
    rcases hv : t.ofPatch op.data with _ | v
    · rfl
    · exact absurd ⟨v, hv⟩ h
  · rintro ⟨v, hv⟩ L' he
    simp only [hv] at he
    obtain ⟨st, _, h2⟩ := Res.bind_eq_ok.mp he
    simp at h2

/-! ### Refused operations change nothing -/

/-- Nothing happened to the struct but what reading the field, or writing the pending edits of the field, does. -/
def Untouched (L : LSt) (fn : Nat) (L' : LSt) : Prop :=
  L' = L ∨ L.syncField fn = .ok L' ∨ ∃ t o, L.getL fn t = .ok (o, L')

/-- **C152, refused operations.** For every struct, schema and operation that has no patch inside: if it is refused, the
struct is as it was, up to what a getter or the writing of pending edits does. -/
theorem C152_refused_unchanged (fuel : Nat) (tys : List Ty) (L L' : LSt) (op : POp) (hn : ¬ op.nests)
    (he : applyOp fuel tys L op = .ok (L', true)) : Untouched L op.fn.toNat L' := by
  have hn1 : op.ty ≠ PStructPatch := fun h => hn (.inl h)
  have hn2 : op.ty ≠ PListStructPatch := fun h => hn (.inr h)
  revert he
  unfold applyOp
  simp only [hn1, hn2, if_false]
  generalize op.fn.toNat = fn
  generalize tys[fn]? = fd
  split
  · -- Set
    unfold applySet
    split
    · intro h; simp at h
    · split
      · intro h; simp at h; exact .inl h.symm
      · intro h
        obtain ⟨_, _, h⟩ := Res.bind_eq_ok.mp h
        simp at h
    · intro h
      obtain ⟨_, _, h⟩ := Res.bind_eq_ok.mp h
      split at h
      · simp at h; exact .inl h.symm
      · obtain ⟨_, _, h⟩ := Res.bind_eq_ok.mp h
        simp at h
    · intro h; simp at h; exact .inl h.symm
  · have hclear : ∀ fd, applyClear L fd fn ≠ .ok (L', true) := by
      intro fd h
      unfold applyClear at h
      split at h
      · simp at h
      · obtain ⟨_, _, h⟩ := Res.bind_eq_ok.mp h
        simp at h
    split
    · intro h; exact absurd h (hclear _)
    · split
      · -- ListReplace
        unfold applyListReplace
        split
        · intro h; simp at h
        · split
          · intro h; exact absurd h (hclear _)
          · split
            · intro h
              obtain ⟨_, _, h⟩ := Res.bind_eq_ok.mp h
              simp at h
            · split
              · intro h; simp at h; exact .inl h.symm
              · intro h; simp at h
            · intro h; simp at h; exact .inl h.symm
            · split
              · intro h; simp at h; exact .inl h.symm
              · intro h
                obtain ⟨_, _, h⟩ := Res.bind_eq_ok.mp h
                split at h
                · simp at h; exact .inl h.symm
                · obtain ⟨_, _, h⟩ := Res.bind_eq_ok.mp h
                  simp at h
      · split
        · -- ListSet
          split
          · intro h; simp at h; exact .inl h.symm
          · unfold applyListSet
            split
            · intro h; simp at h
            · intro h
              obtain ⟨L1, h1, h⟩ := Res.bind_eq_ok.mp h
              obtain ⟨_, _, h⟩ := Res.bind_eq_ok.mp h
              split at h
              · simp at h; exact .inr (.inl (h ▸ h1))
              · split at h
                · simp at h; exact .inr (.inl (h ▸ h1))
                · split at h
                  · simp at h; exact .inr (.inl (h ▸ h1))
                  · obtain ⟨_, _, h⟩ := Res.bind_eq_ok.mp h
                    simp at h
            · split
              · intro h
                obtain ⟨⟨o, L1⟩, h1, h⟩ := Res.bind_eq_ok.mp h
                dsimp only at h
                split at h
                · simp at h; exact .inr (.inr ⟨_, _, h ▸ h1⟩)
                · obtain ⟨_, _, h⟩ := Res.bind_eq_ok.mp h
                  split at h
                  · simp at h; exact .inr (.inr ⟨_, _, h ▸ h1⟩)
                  · split at h
                    · simp at h; exact .inr (.inr ⟨_, _, h ▸ h1⟩)
                    · simp at h
              · intro h; simp at h; exact .inl h.symm
            · intro h; simp at h; exact .inl h.symm
            · intro h
              obtain ⟨_, _, h⟩ := Res.bind_eq_ok.mp h
              split at h
              · simp at h; exact .inl h.symm
              · split at h
                · simp at h; exact .inl h.symm
                · obtain ⟨_, _, h⟩ := Res.bind_eq_ok.mp h
                  split at h
                  · simp at h; exact .inl h.symm
                  · obtain ⟨_, _, h⟩ := Res.bind_eq_ok.mp h
                    simp at h
        · split
          · -- ListInsert
            split
            · intro h; simp at h; exact .inl h.symm
            · unfold applyListInsert
              split
              · intro h; simp at h
              · intro h
                split at h
                · simp at h; exact .inl h.symm
                · obtain ⟨_, _, h⟩ := Res.bind_eq_ok.mp h
                  dsimp only at h
                  split at h
                  · simp at h; exact .inl h.symm
                  · obtain ⟨_, _, h⟩ := Res.bind_eq_ok.mp h
                    simp at h
              · split
                · intro h
                  obtain ⟨⟨o, L1⟩, h1, h⟩ := Res.bind_eq_ok.mp h
                  dsimp only at h
                  cases o
                  all_goals
                    obtain ⟨_, _, h⟩ := Res.bind_eq_ok.mp h
                    split at h
                    · simp at h; exact .inr (.inr ⟨_, _, h ▸ h1⟩)
                    · split at h
                      · simp at h; exact .inr (.inr ⟨_, _, h ▸ h1⟩)
                      · simp at h
                · intro h; simp at h; exact .inl h.symm
              · intro h; simp at h; exact .inl h.symm
              · intro h
                obtain ⟨_, _, h⟩ := Res.bind_eq_ok.mp h
                dsimp only at h
                split at h
                · simp at h; exact .inl h.symm
                · obtain ⟨_, _, h⟩ := Res.bind_eq_ok.mp h
                  split at h
                  · simp at h; exact .inl h.symm
                  · obtain ⟨_, _, h⟩ := Res.bind_eq_ok.mp h
                    simp at h
          · split
            · -- ListRemove
              split
              · intro h; simp at h; exact .inl h.symm
              · unfold applyListRemove
                split
                · intro h; simp at h
                · intro h
                  obtain ⟨L1, h1, h⟩ := Res.bind_eq_ok.mp h
                  obtain ⟨_, _, h⟩ := Res.bind_eq_ok.mp h
                  split at h
                  · simp at h; exact .inr (.inl (h ▸ h1))
                  · split at h
                    · simp at h; exact .inr (.inl (h ▸ h1))
                    · split at h
                      · obtain ⟨_, _, h⟩ := Res.bind_eq_ok.mp h
                        simp at h
                      · obtain ⟨_, _, h⟩ := Res.bind_eq_ok.mp h
                        simp at h
                · split
                  · intro h
                    obtain ⟨⟨o, L1⟩, h1, h⟩ := Res.bind_eq_ok.mp h
                    dsimp only at h
                    split at h
                    · simp at h; exact .inr (.inr ⟨_, _, h ▸ h1⟩)
                    · obtain ⟨_, _, h⟩ := Res.bind_eq_ok.mp h
                      split at h
                      · simp at h; exact .inr (.inr ⟨_, _, h ▸ h1⟩)
                      · split at h
                        · obtain ⟨_, _, h⟩ := Res.bind_eq_ok.mp h
                          simp at h
                        · simp at h
                  · intro h; simp at h; exact .inl h.symm
                · intro h; simp at h; exact .inl h.symm
                · intro h
                  obtain ⟨_, _, h⟩ := Res.bind_eq_ok.mp h
                  split at h
                  · simp at h; exact .inl h.symm
                  · split at h
                    · simp at h; exact .inl h.symm
                    · split at h
                      · obtain ⟨_, _, h⟩ := Res.bind_eq_ok.mp h
                        simp at h
                      · obtain ⟨_, _, h⟩ := Res.bind_eq_ok.mp h
                        simp at h
            · intro h; simp at h

/-- **C152, kinds.** Setting, inserting or removing an item of a field that is not a list is refused, whatever the index and
the data, and the struct is as it was. -/
theorem C152_no_items (fuel : Nat) (tys : List Ty) (L : LSt) (op : POp) (ty : Ty) (hfd : tys[op.fn.toNat]? = some ty)
    (hi : ¬ HasItems ty) (hop : op.ty = PListSet ∨ op.ty = PListInsert ∨ op.ty = PListRemove) :
    applyOp fuel tys L op = .ok (L, true) := by
  have hs : ∀ t, ty = .scalar t → t.isSlice = false ∧ ∀ k, t ≠ .lnum k := by
    rintro t rfl
    cases t <;> simp_all [HasItems, STy.isList, STy.isSlice]
  have h1 : ∀ i, applyListSet L (some ty) op.fn.toNat i op.data = .ok (L, true) := by
    intro i
    cases ty with
    | scalar t =>
      obtain ⟨k1, k2⟩ := hs t rfl
      cases t <;> simp_all [applyListSet]
    | struct tys => rfl
    | structs tys => exact absurd trivial hi
  have h2 : ∀ i, applyListInsert L (some ty) op.fn.toNat i op.data = .ok (L, true) := by
    intro i
    cases ty with
    | scalar t =>
      obtain ⟨k1, k2⟩ := hs t rfl
      cases t <;> simp_all [applyListInsert]
    | struct tys => rfl
    | structs tys => exact absurd trivial hi
  have h3 : ∀ i, applyListRemove L (some ty) op.fn.toNat i = .ok (L, true) := by
    intro i
    cases ty with
    | scalar t =>
      obtain ⟨k1, k2⟩ := hs t rfl
      cases t <;> simp_all [applyListRemove]
    | struct tys => rfl
    | structs tys => exact absurd trivial hi
  unfold applyOp
  rcases hop with h | h | h
  · simp only [h, hfd, h1, PListSet, PSet, PClear, PStructPatch, PListReplace]
    simp
  · simp only [h, hfd, h2, PListSet, PSet, PClear, PStructPatch, PListReplace, PListInsert]
    simp
  · simp only [h, hfd, h3, PListSet, PSet, PClear, PStructPatch, PListReplace, PListInsert, PListRemove]
    simp

/-! ### What is accepted though it does not fit -/

/-- **C152, Set of a list of structs.** For every struct: refused, and the struct is as it was. -/
theorem C152_set_structs (fuel : Nat) (tys ctys : List Ty) (L : LSt) (op : POp) (hop : op.ty = PSet)
    (hfd : tys[op.fn.toNat]? = some (.structs ctys)) : applyOp fuel tys L op = .ok (L, true) := by
  unfold applyOp
  simp only [hop, if_true, applySet, hfd]

/-- **C152, replacing what is no list.** For every struct and field that is no list: data that is not empty is refused. -/
theorem C152_replace_no_list (fuel : Nat) (tys : List Ty) (L : LSt) (op : POp) (ty : Ty)
    (hfd : tys[op.fn.toNat]? = some ty) (hi : ¬ HasItems ty) (hop : op.ty = PListReplace) (hd : op.data ≠ []) :
    applyOp fuel tys L op = .ok (L, true) := by
  have hl : op.data.length ≠ 0 := fun h => hd (List.length_eq_zero_iff.mp h)
  unfold applyOp
  simp only [hop, hfd]
  rw [if_neg (by decide), if_neg (by decide), if_neg (by decide), if_pos trivial]
  unfold applyListReplace
  dsimp only
  rw [if_neg hl]
  cases ty with
  | scalar t => cases t <;> simp_all [HasItems, STy.isList, STy.replItems]
  | struct _ => rfl
  | structs _ => exact absurd trivial hi

/-- **C152, items that are too short.** For every struct and list of numbers: setting or inserting an item with fewer
bytes than a number has is not taken for done. -/
theorem C152_short_item (fuel : Nat) (tys : List Ty) (L L' : LSt) (op : POp) (k : NTy)
    (hfd : tys[op.fn.toNat]? = some (.scalar (.lnum k))) (hop : op.ty = PListSet ∨ op.ty = PListInsert)
    (hd : op.data.length < k.size) : applyOp fuel tys L op ≠ .ok (L', false) := by
  intro h
  unfold applyOp at h
  rcases hop with hop | hop
  · simp only [hop, hfd] at h
    rw [if_neg (by decide), if_neg (by decide), if_neg (by decide), if_neg (by decide), if_pos trivial] at h
    split at h
    · simp at h
    · unfold applyListSet at h
      dsimp only at h
      obtain ⟨_, _, h⟩ := Res.bind_eq_ok.mp h
      obtain ⟨o, _, h⟩ := Res.bind_eq_ok.mp h
      cases o with
      | none => cases h
      | some items =>
        dsimp only at h
        rw [if_pos hd] at h
        split at h <;> cases h
  · simp only [hop, hfd] at h
    rw [if_neg (by decide), if_neg (by decide), if_neg (by decide), if_neg (by decide), if_neg (by decide),
      if_pos trivial] at h
    split at h
    · simp at h
    · unfold applyListInsert at h
      dsimp only at h
      rw [if_pos hd] at h
      cases h

/-- **C152, refuted (3): a replacement without data clears any field**, also one that is no list. -/
theorem C152_empty_replace_clears (fuel : Nat) (tys : List Ty) (L : LSt) (op : POp) (hop : op.ty = PListReplace)
    (hd : op.data = []) : applyOp fuel tys L op = applyOp fuel tys L { op with ty := PClear } := by
  unfold applyOp
  simp only [hop, hd]
  rw [if_neg (by decide), if_neg (by decide), if_neg (by decide), if_pos trivial, if_neg (by decide), if_pos trivial]
  unfold applyListReplace
  cases tys[op.fn.toNat]? <;> simp [applyClear]

/-- **C152, bools of a replacement.** For every struct, field of bools and data: the getter then has one item for each
byte, which is true exactly if the byte is not 0. -/
theorem C152_bools (fuel : Nat) (tys : List Ty) (L : LSt) (op : POp) (hop : op.ty = PListReplace)
    (hfd : tys[op.fn.toNat]? = some (.scalar .lbool)) (hd : op.data ≠ []) :
    ∃ (L' : LSt) (id : Nat) (v : List Bool), applyOp fuel tys L op = .ok (L', false) ∧ L'.getL op.fn.toNat .lbool = .ok (some id, L') ∧
      L'.items id .lbool = .ok v ∧ v.length = op.data.length ∧
      ∀ (i : Nat) (b : UInt8), op.data[i]? = some b → v[i]? = some (b != 0) := by
  have hl : op.data.length ≠ 0 := fun h => hd (List.length_eq_zero_iff.mp h)
  refine ⟨L.renew op.fn.toNat .lbool (op.data.map (· != 0)), L.heap.length, op.data.map (· != 0), ?_, ?_, ?_, by simp, ?_⟩
  · unfold applyOp
    simp only [hop, hfd]
    rw [if_neg (by decide), if_neg (by decide), if_neg (by decide), if_pos trivial]
    unfold applyListReplace
    dsimp only
    rw [if_neg hl]
    rfl
  · simp [LSt.getL, LSt.renew, LSt.register]
  · simp [LSt.items, LSt.renew, LSt.register]
  · intro i b hb
    simp [hb]

/-- **C152, refuted (1): bytes behind a number are ignored.** A `Set` with the data of a wider type is taken. -/
theorem C152_trailing_ignored (k : NTy) (d extra : Bytes) (h : k.size ≤ d.length) :
    NTy.ofPatch k (d ++ extra) = NTy.ofPatch k d := by
  unfold NTy.ofPatch
  rw [if_neg (by simp; omega), if_neg (by omega), List.take_append_of_le_length h]

/-- **C152, what is not known is skipped.** For every struct: an operation of a kind that is not known, and one without a
patch inside on a field the schema does not have, changes nothing and is no error. -/
theorem C152_unknown_skipped (fuel : Nat) (tys : List Ty) (L : LSt) (op : POp) :
    ((op.ty ≠ PSet ∧ op.ty ≠ PClear ∧ ¬ op.nests ∧ op.ty ≠ PListReplace ∧ op.ty ≠ PListSet ∧ op.ty ≠ PListInsert ∧
      op.ty ≠ PListRemove) → applyOp fuel tys L op = .ok (L, false)) ∧
    ((tys[op.fn.toNat]? = none ∧ ¬ op.nests) → applyOp fuel tys L op = .ok (L, false)) := by
  constructor
  · rintro ⟨h1, h2, h3, h4, h5, h6, h7⟩
    have hn1 : op.ty ≠ PStructPatch := fun h => h3 (.inl h)
    have hn2 : op.ty ≠ PListStructPatch := fun h => h3 (.inr h)
    unfold applyOp
    simp only [h1, h2, hn1, hn2, h4, h5, h6, h7, if_false]
  · rintro ⟨hf, h3⟩
    have hn1 : op.ty ≠ PStructPatch := fun h => h3 (.inl h)
    have hn2 : op.ty ≠ PListStructPatch := fun h => h3 (.inr h)
    unfold applyOp
    simp only [hn1, hn2, if_false, hf, applySet, applyClear, applyListReplace, applyListSet, applyListInsert,
      applyListRemove, Option.isSome_none, Bool.false_eq_true, false_and]
    repeat' split
    all_goals rfl

/-- **C152, refuted (2): replacing a list of numbers is never refused**, also if the bytes are no whole number of items. -/
theorem C152_ragged_replace (fuel : Nat) (tys : List Ty) (L L' : LSt) (op : POp) (k : NTy) (hop : op.ty = PListReplace)
    (hfd : tys[op.fn.toNat]? = some (.scalar (.lnum k))) : applyOp fuel tys L op ≠ .ok (L', true) := by
  unfold applyOp
  intro h
  simp only [hop, hfd] at h
  rw [if_neg (by decide), if_neg (by decide), if_neg (by decide), if_pos trivial] at h
  unfold applyListReplace applyClear at h
  dsimp only at h
  split at h <;> (obtain ⟨_, _, h⟩ := Res.bind_eq_ok.mp h; simp at h)

/-! ### The hypotheses are met -/

/-- An empty struct. -/
def demo : LSt := LSt.ofSt ⟨⟨[], []⟩, [], false, false, none, false, []⟩

/-- Three bytes for a `uint32`. -/
example : applyOp 100 [.scalar .u8, .scalar .u32] demo ⟨1, PSet, -1, [1, 2, 3]⟩ = .ok (demo, true) :=
  (C152_set 100 _ demo ⟨1, PSet, -1, [1, 2, 3]⟩ .u32 rfl rfl).1 (by rintro ⟨n, h1, h2⟩; cases h1; exact absurd h2 (by decide))

/-- Four bytes fit. -/
example : SetFits .u32 [1, 2, 3, 4] := ⟨4, rfl, by decide⟩

/-- A list cannot be set as a whole. -/
example : applyOp 100 [.scalar (.lnum .u32)] demo ⟨0, PSet, -1, [1, 2, 3, 4]⟩ = .ok (demo, true) :=
  (C152_set 100 _ demo ⟨0, PSet, -1, [1, 2, 3, 4]⟩ (.lnum .u32) rfl rfl).1 (by rintro ⟨n, h1, _⟩; cases h1)

example : Untouched demo 1 demo :=
  C152_refused_unchanged 100 [.scalar .u8, .scalar .u32] demo demo ⟨1, PSet, -1, [1]⟩ (by unfold POp.nests; decide) rfl

/-- An item of a string that is no list. -/
example := C152_no_items 100 [.scalar .str] demo ⟨0, PListInsert, 0, [1]⟩ (.scalar .str) rfl (by simp [HasItems, STy.isList])
  (.inr (.inl rfl))

/-- Eight bytes for a `uint16`. -/
example := C152_trailing_ignored .u16 [1, 2] [3, 4, 5, 6, 7, 8] (by decide)

example : applyOp 100 [.scalar .u8] demo ⟨0, 77, -1, [1]⟩ = .ok (demo, false) :=
  (C152_unknown_skipped 100 _ demo ⟨0, 77, -1, [1]⟩).1 (by unfold POp.nests; decide)

example : applyOp 100 [.scalar .u8] demo ⟨3, PSet, -1, [1]⟩ = .ok (demo, false) :=
  (C152_unknown_skipped 100 _ demo ⟨3, PSet, -1, [1]⟩).2 ⟨rfl, by unfold POp.nests; decide⟩

/-- Five bytes for a list of `uint32`. -/
example (L' : LSt) := C152_ragged_replace 100 [.scalar (.lnum .u32)] demo L' ⟨0, PListReplace, -1, [1, 2, 3, 4, 5]⟩ .u32 rfl rfl

/-- A list of structs cannot be set, a number has no list to replace, and two bytes are no `uint32`. -/
example : applyOp 100 [.structs [.scalar .u8]] demo ⟨0, PSet, -1, [1]⟩ = .ok (demo, true) :=
  C152_set_structs 100 _ [.scalar .u8] demo ⟨0, PSet, -1, [1]⟩ rfl rfl
example : applyOp 100 [.scalar .u8] demo ⟨0, PListReplace, -1, [1]⟩ = .ok (demo, true) :=
  C152_replace_no_list 100 _ demo ⟨0, PListReplace, -1, [1]⟩ _ rfl (by simp [HasItems, STy.isList]) rfl (by simp)
example (L' : LSt) : applyOp 100 [.scalar (.lnum .u32)] demo ⟨0, PListInsert, 0, [1, 2]⟩ ≠ .ok (L', false) :=
  C152_short_item 100 _ demo L' ⟨0, PListInsert, 0, [1, 2]⟩ .u32 rfl (.inr rfl) (by decide)
example : applyOp 100 [.scalar .u8] demo ⟨0, PListReplace, -1, []⟩ = applyOp 100 [.scalar .u8] demo ⟨0, PClear, -1, []⟩ :=
  C152_empty_replace_clears 100 _ demo ⟨0, PListReplace, -1, []⟩ rfl rfl

/-- The bytes 0, 1 and 7. -/
example : ∃ (L' : LSt) (id : Nat) (v : List Bool),
    applyOp 100 [.scalar .lbool] demo ⟨0, PListReplace, -1, [0, 1, 7]⟩ = .ok (L', false) ∧ L'.items id .lbool = .ok v ∧
      v[2]? = some true :=
  let ⟨L', id, v, h1, _, h3, _, h5⟩ := C152_bools 100 [.scalar .lbool] demo ⟨0, PListReplace, -1, [0, 1, 7]⟩ rfl rfl (by simp)
  ⟨L', id, v, h1, h3, h5 2 7 rfl⟩

end Claw.PatchRefuse
