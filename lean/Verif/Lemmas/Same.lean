import Verif.Lemmas.Wire

/-!
# Getters see nothing but the field
-/

namespace Claw


/-- Two structs show the same field `i`: same place, same bytes from there on. -/
structure SameField (s c : St) (i o z : Nat) (s1 c1 : St) : Prop where
  fs : s.fieldOffset i = .ok ((o, z), s1)
  fc : c.fieldOffset i = .ok ((o, z), c1)
  sub : z ≠ 0 → ∀ a b, o ≤ a → s1.seg.sub a b = c1.seg.sub a b
  drop : z ≠ 0 → ∀ a, o ≤ a → (s1.seg.data ++ s1.seg.spare).drop a = (c1.seg.data ++ c1.seg.spare).drop a
  ends : o + z ≤ s1.seg.data.length ∧ o + z ≤ c1.seg.data.length

theorem SameField.final40 {s c : St} {i o z : Nat} {s1 c1 : St} (h : SameField s c i o z s1 c1) :
    getFinal40 s i = getFinal40 c i := by
  simp only [getFinal40, h.fs, h.fc, Res.ok_bind]
  split
  · rfl
  · rename_i hz; rw [h.sub hz _ _ (by omega)]

theorem SameField.wide {s c : St} {i o z : Nat} {s1 c1 : St} (h : SameField s c i o z s1 c1)
    (hz : z = 0 ∨ 16 ≤ z) : getWide s i = getWide c i := by
  simp only [getWide, h.fs, h.fc, Res.ok_bind]
  split
  · rfl
  · rename_i hne
    have h1 := h.ends
    have h2 := h.drop hne (o + HeaderSize) (by omega)
    have e : ∀ (g : Seg), o + z ≤ g.data.length →
        ((g.data.drop (o + HeaderSize)).take 8) = ((g.data ++ g.spare).drop (o + HeaderSize)).take 8 := by
      intro g hg
      rw [List.drop_append_of_le_length (by simp [HeaderSize]; omega),
        List.take_append_of_le_length (by simp [HeaderSize]; omega)]
    simp only [HeaderSize] at *
    rw [if_neg (by omega), if_neg (by rw [List.length_drop]; omega), if_neg (by omega),
      if_neg (by rw [List.length_drop]; omega), e _ h1.1, e _ h1.2, h2]

theorem read_same {s c : St} {i o z : Nat} {s1 c1 : St} (h : SameField s c i o z s1 c1) (ty : Ty)
    (hw : ∀ t, ty = .scalar t → t = .i64 ∨ t = .u64 ∨ t = .f64 → z = 0 ∨ 16 ≤ z) :
    ty.read s i = ty.read c i := by
  have hla : listAnyField s i = listAnyField c i := by
    simp only [listAnyField, h.fs, h.fc, Res.ok_bind]
    split
    · rfl
    · rename_i hz; rw [h.sub (by omega) _ _ (by omega)]
  have hlf : ∀ n k, getListAnyFrom s i n k = getListAnyFrom c i n k := by
    intro n
    induction n with
    | zero => intro k; rfl
    | succ n ih => intro k; simp only [getListAnyFrom, getListAnyRaw, hla, ih]
  match ty with
  | .scalar t =>
    have hg : t.get s i = t.get c i := by
      cases t <;>
        simp only [STy.get, getBool, getInt8, getInt16, getInt32, getInt64, getUint8, getUint16, getUint32,
          getUint64, getFloat32, getFloat64, h.final40]
      all_goals first
        | (rw [h.wide (hw _ rfl (by simp))]; done)
        | (simp only [getListAnys, getListAnyLen, hla, hlf]; done)
        | (simp only [getBytes, getListBools, getListNums, getListItems, getAnyRaw, getMap, fieldBytes, h.fs, h.fc, Res.ok_bind]
           split
           · rfl
           · rename_i hz
             have hz' : z ≠ 0 := by omega
             try rw [h.sub hz' _ _ (by omega)]
             try simp only [h.sub hz' (o + HeaderSize) _ (by omega)])
    simp only [Ty.read, hg]
  | .struct tys =>
    have hg : getNestedStruct s i tys.length = getNestedStruct c i tys.length := by
      simp only [getNestedStruct, h.fs, h.fc, Res.ok_bind]
      split
      · rfl
      · rename_i hz; rw [h.sub hz _ _ (by omega), h.drop hz _ (by omega)]
    simp only [Ty.read, hg]
  | .structs tys =>
    have hg : getListStructs s i tys.length = getListStructs c i tys.length := by
      simp only [getListStructs, h.fs, h.fc, Res.ok_bind]
      split
      · rfl
      · rename_i hz; rw [h.sub hz _ _ (by omega), h.drop hz _ (by omega)]
    simp only [Ty.read, hg]

end Claw
