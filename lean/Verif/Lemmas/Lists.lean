import Verif.Lemmas.Bits
import Verif.Lemmas.Rep
import Verif.Model.Lists

/-!
# Lists: closed forms of the encoders, getters on represented structs
-/

namespace Claw

theorem paddingNeeded_lt (n : Nat) : paddingNeeded n < 8 := by
  simp only [paddingNeeded]; split <;> omega

theorem paddingNeeded_sum (n : Nat) : n + paddingNeeded n = (n + 7) / 8 * 8 := by
  simp only [paddingNeeded]; split <;> omega

theorem Rep.fieldOffset {r : Nat} {s : St} {fs : List Bytes} (h : Rep r s fs) (i : Nat) :
    s.fieldOffset i = .ok (if i < s.idx.length then ((entryOf fs i).offset, (entryOf fs i).size) else (0, 0),
      { s with idx := idxOf s.idx.length fs, parsed := true }) := by
  simp only [St.fieldOffset, h.ensure, Res.ok_bind, idxOf_getElem?]
  by_cases hi : i < s.idx.length <;> simp [hi]

theorem Rep.split {r : Nat} {s : St} {fs : List Bytes} (h : Rep r s fs) {i : Nat} (hi : i < fs.length) :
    ∃ A B, s.seg.data = A ++ blob fs i ++ B ∧ A.length = offsetOf fs i := by
  refine ⟨hdr r FTStruct (total fs) ++ (fs.take i).flatten, (fs.drop (i + 1)).flatten, ?_, ?_⟩
  · rw [h.data, (split_at fs i [] hi).1]; simp [List.append_assoc]
  · simp [offsetOf]


/-! ### Bools -/

/-- Closed form of `packBools` on the bytes behind the header. -/
def packBits : Bytes → Nat → List Bool → Bytes
  | d, _, [] => d
  | d, i, b :: bs =>
    packBits (if b then d.modify (i / 8) (· ||| (1 <<< UInt8.ofNat (i % 8))) else d) (i + 1) bs

@[simp] theorem packBits_length (bs : List Bool) : ∀ (d : Bytes) (i : Nat),
    (packBits d i bs).length = d.length := by
  induction bs with
  | nil => intro d i; rfl
  | cons b bs ih => intro d i; simp only [packBits, ih]; split <;> simp

theorem packBools_eq (bs : List Bool) : ∀ (h d : Bytes) (i : Nat), h.length = 8 →
    i + bs.length ≤ 8 * d.length → packBools (h ++ d) i bs = some (h ++ packBits d i bs) := by
  induction bs with
  | nil => intro h d i _ _; simp [packBools, packBits]
  | cons b bs ih =>
    intro h d i hh hl
    simp only [List.length_cons] at hl
    cases b with
    | false => simp only [packBools, packBits]; exact ih h d (i + 1) hh (by omega)
    | true =>
      have hi : i / 8 < d.length := by omega
      simp only [packBools, packBits, if_true]
      rw [List.getElem?_append_right (by omega), show 8 + i / 8 - h.length = i / 8 by omega,
        List.getElem?_eq_getElem hi]
      simp only
      rw [List.set_append_right _ _ (by omega), show 8 + i / 8 - h.length = i / 8 by omega,
        show d.modify (i / 8) (· ||| (1 <<< UInt8.ofNat (i % 8)))
          = d.set (i / 8) (d[i / 8] ||| (1 <<< UInt8.ofNat (i % 8))) by
            apply List.ext_getElem?
            intro j
            rw [List.getElem?_modify, List.getElem?_set]
            by_cases e : i / 8 = j
            · subst e; simp [hi]
            · simp [e]]
      exact ih h _ (i + 1) hh (by simp; omega)

/-- Bit `i` of a bit string, least significant bit of the first byte first. -/
def bitAt (d : Bytes) (i : Nat) : Bool := ((d.getD (i / 8) 0) &&& (1 <<< UInt8.ofNat (i % 8))) != 0

theorem bitAt_modify (d : Bytes) (i j : Nat) (hi : i / 8 < d.length) :
    bitAt (d.modify (i / 8) (· ||| (1 <<< UInt8.ofNat (i % 8)))) j = (bitAt d j || decide (i = j)) := by
  simp only [bitAt, List.getD_eq_getElem?_getD, List.getElem?_modify]
  by_cases h : i / 8 = j / 8
  · simp only [h, if_true]
    rw [← h, List.getElem?_eq_getElem hi]
    simp only [Option.map_eq_map, Option.map_some, Option.getD_some]
    rw [bit_or _ _ _ (Nat.mod_lt _ (by omega)) (Nat.mod_lt _ (by omega))]
    congr 1
    simp only [decide_eq_decide]; omega
  · have : decide (i = j) = false := by simp; intro e; exact h (by rw [e])
    simp [this, h]

theorem packBits_bitAt (bs : List Bool) : ∀ (d : Bytes) (i j : Nat), i + bs.length ≤ 8 * d.length →
    bitAt (packBits d i bs) j = (bitAt d j || (decide (i ≤ j) && bs.getD (j - i) false)) := by
  induction bs with
  | nil => intro d i j _; simp [packBits]
  | cons b bs ih =>
    intro d i j hl
    simp only [List.length_cons] at hl
    simp only [packBits]
    rw [ih _ _ _ (by split <;> (try simp only [List.length_modify]) <;> omega)]
    have hb : bitAt (if b then d.modify (i / 8) (· ||| (1 <<< UInt8.ofNat (i % 8))) else d) j
        = (bitAt d j || (b && decide (i = j))) := by
      cases b with
      | true => simpa using bitAt_modify d i j (by omega)
      | false => simp
    rw [hb]
    rcases Nat.lt_trichotomy i j with h | h | h
    · have h1 : decide (i = j) = false := by simp; omega
      have h2 : decide (i + 1 ≤ j) = true := by simp; omega
      have h3 : decide (i ≤ j) = true := by simp; omega
      rw [h1, h2, h3, show j - i = (j - (i + 1)) + 1 by omega, List.getD_cons_succ]
      simp
    · subst h
      have h2 : decide (i + 1 ≤ i) = false := by simp
      rw [h2]; simp
    · have h1 : decide (i = j) = false := by simp; omega
      have h2 : decide (i + 1 ≤ j) = false := by simp; omega
      have h3 : decide (i ≤ j) = false := by simp; omega
      rw [h1, h2, h3]; simp

theorem bitAt_zeros (n i : Nat) : bitAt (zeros n) i = false := by
  have h : (zeros n).getD (i / 8) 0 = 0 := by
    rw [List.getD_eq_getElem?_getD, zeros, List.getElem?_replicate]; split <;> rfl
  simp only [bitAt, h]
  simp

/-- The bytes behind the header of a bool list. -/
def boolsTail (v : List Bool) : Bytes := packBits (zeros (((v.length + 7) / 8 + 7) / 8 * 8)) 0 v

@[simp] theorem boolsTail_length (v : List Bool) :
    (boolsTail v).length = ((v.length + 7) / 8 + 7) / 8 * 8 := by simp [boolsTail]

theorem boolsTail_bit (v : List Bool) (i : Nat) : bitAt (boolsTail v) i = v.getD i false := by
  rw [boolsTail, packBits_bitAt _ _ _ _ (by simp; omega), bitAt_zeros]; simp

theorem boolsBlob_eq (fn : Nat) (v : List Bool) (h : v.length < 2 ^ 40) :
    boolsBlob fn v = some (hdr fn FTListBools v.length ++ boolsTail v) := by
  simp only [boolsBlob]
  rw [encodeHeaderAt_eq (by simp [HeaderSize]; omega) fn FTListBools h]
  simp only
  have hz : (zeros (HeaderSize + (v.length + 7) / 8 + paddingNeeded ((v.length + 7) / 8))).drop 8
      = zeros (((v.length + 7) / 8 + 7) / 8 * 8) := by
    rw [← paddingNeeded_sum, zeros, zeros, List.drop_replicate, HeaderSize]; congr 1; omega
  rw [hz, packBools_eq _ _ _ _ (by simp) (by simp; omega)]
  rfl

theorem unpackBools_eq (v : List Bool) (h d : Bytes) (hh : h.length = 8) : ∀ (n i : Nat),
    i + n = v.length → v.length ≤ 8 * d.length → (∀ j, j < v.length → bitAt d j = v.getD j false) →
    unpackBools (h ++ d) i n = .ok (v.drop i) := by
  intro n
  induction n with
  | zero => intro i hi _ _; rw [unpackBools, List.drop_of_length_le (by omega)]
  | succ n ih =>
    intro i hi hl hb
    have hlt : i / 8 < d.length := by omega
    simp only [unpackBools]
    rw [List.getElem?_append_right (by omega), show 8 + i / 8 - h.length = i / 8 by omega,
      List.getElem?_eq_getElem hlt]
    simp only [ih (i + 1) (by omega) hl hb, Res.ok_bind, Res.pure_eq]
    have := hb i (by omega)
    simp only [bitAt, List.getD_eq_getElem?_getD, List.getElem?_eq_getElem hlt,
      List.getElem?_eq_getElem (show i < v.length by omega), Option.getD_some] at this
    rw [this, ← List.drop_eq_getElem_cons]

/-! ### Numbers -/

theorem NTy.size_pos (k : NTy) : 0 < k.size := by cases k <;> decide

theorem NTy.bits_lt (k : NTy) (v : k.Val) : k.bits v < 256 ^ k.size := by
  cases k <;> simp only [NTy.bits, NTy.size]
  case i8 => exact v.toUInt8.toNat_lt
  case i16 => exact v.toUInt16.toNat_lt
  case i32 => exact v.toUInt32.toNat_lt
  case i64 => exact v.toUInt64.toNat_lt
  case u8 => exact UInt8.toNat_lt v
  case u16 => exact UInt16.toNat_lt v
  case u32 => exact UInt32.toNat_lt v
  case u64 => exact UInt64.toNat_lt v
  case f32 => exact v.bits.toNat_lt
  case f64 => exact v.bits.toNat_lt

theorem NTy.ofBits_bits (k : NTy) (v : k.Val) : k.ofBits (k.bits v) = v := by
  cases k <;> simp [NTy.ofBits, NTy.bits]

/-- The item bytes. -/
def numData (k : NTy) (vs : List k.Val) : Bytes := vs.flatMap fun v => putLE k.size (k.bits v)

@[simp] theorem numData_length (k : NTy) (vs : List k.Val) :
    (numData k vs).length = vs.length * k.size := by
  induction vs with
  | nil => simp [numData]
  | cons v vs ih =>
    simp only [numData, List.flatMap_cons, List.length_append, putLE_length, List.length_cons] at ih ⊢
    rw [ih, Nat.add_mul]; omega

theorem numData_append (k : NTy) (a b : List k.Val) : numData k (a ++ b) = numData k a ++ numData k b := by
  simp [numData]

theorem appendLoop_eq (k : NTy) (vs : List k.Val) : ∀ d, Nums.appendLoop k d vs = d ++ numData k vs := by
  induction vs with
  | nil => intro d; simp [Nums.appendLoop, numData]
  | cons v vs ih =>
    intro d
    simp only [Nums.appendLoop]
    have := goCopy_fit d (zeros k.size) [] (putLE k.size (k.bits v)) (by simp)
    rw [List.append_nil, List.append_nil] at this
    rw [this, ih]
    simp [numData]

theorem setAllLoop_eq (k : NTy) (vs : List k.Val) : ∀ (p : Bytes) (i : Nat), p.length = i * k.size →
    Nums.setAllLoop k (p ++ zeros (vs.length * k.size)) i vs = p ++ numData k vs := by
  induction vs with
  | nil => intro p i _; simp [Nums.setAllLoop, numData, zeros]
  | cons v vs ih =>
    intro p i hp
    simp only [Nums.setAllLoop, List.length_cons]
    have hz : zeros ((vs.length + 1) * k.size) = zeros k.size ++ zeros (vs.length * k.size) := by
      simp only [zeros, List.replicate_append_replicate]; congr 1; rw [Nat.add_mul]; omega
    have := goCopy_fit p (zeros k.size) (zeros (vs.length * k.size)) (putLE k.size (k.bits v)) (by simp)
    rw [hz, ← hp, ← List.append_assoc, this]
    rw [ih (p ++ putLE k.size (k.bits v)) (i + 1) (by simp [hp, Nat.add_mul])]
    simp [numData]

theorem setAll_eq (k : NTy) (vs : List k.Val) : Nums.setAll k vs = ⟨numData k vs, vs.length⟩ := by
  have := setAllLoop_eq k vs [] 0 (by simp)
  simp only [List.nil_append] at this
  simp [Nums.setAll, this]

theorem numData_split (k : NTy) (vs : List k.Val) (i : Nat) (h : i < vs.length) :
    numData k vs = numData k (vs.take i) ++ putLE k.size (k.bits vs[i]) ++ numData k (vs.drop (i + 1)) := by
  have e : vs = vs.take i ++ vs[i] :: vs.drop (i + 1) := by
    rw [← List.drop_eq_getElem_cons h, List.take_append_drop]
  conv => lhs; rw [e]
  simp only [numData, List.flatMap_append, List.flatMap_cons, List.append_assoc]

theorem nums_get (k : NTy) (vs : List k.Val) (i : Nat) (h : i < vs.length) :
    Nums.get k ⟨numData k vs, vs.length⟩ i = .ok vs[i] := by
  have hdrop : (numData k vs).drop (i * k.size)
      = putLE k.size (k.bits vs[i]) ++ numData k (vs.drop (i + 1)) := by
    rw [numData_split k vs i h, List.append_assoc]
    apply List.drop_left'
    simp [Nat.min_eq_left (Nat.le_of_lt h)]
  simp only [Nums.get, hdrop]
  rw [if_neg (by omega), if_neg (by simp), List.take_left' (by simp),
    getLE_putLE_of_lt (k.bits_lt _), k.ofBits_bits]

theorem nums_set (k : NTy) (vs : List k.Val) (i : Nat) (v : k.Val) (h : i < vs.length) :
    Nums.set k ⟨numData k vs, vs.length⟩ i v = .ok ⟨numData k (vs.set i v), (vs.set i v).length⟩ := by
  have hl : (numData k (vs.take i)).length = i * k.size := by simp [Nat.min_eq_left (Nat.le_of_lt h)]
  have hdrop : (numData k vs).drop (i * k.size)
      = putLE k.size (k.bits vs[i]) ++ numData k (vs.drop (i + 1)) := by
    rw [numData_split k vs i h, List.append_assoc]
    exact List.drop_left' hl
  simp only [Nums.set, hdrop]
  rw [if_neg (by omega), if_neg (by simp)]
  congr 1
  simp only [List.length_set, Nums.mk.injEq, and_true]
  have e1 := numData_split k vs i h
  have e2 := numData_split k (vs.set i v) i (by simpa using h)
  rw [e1, e2, ← hl, goCopy_fit _ _ _ _ (by simp), List.take_set_of_le (Nat.le_refl i),
    List.drop_set_of_lt (by omega)]
  simp

theorem nums_sliceFrom (k : NTy) (vs : List k.Val) : ∀ (c i : Nat), i + c = vs.length →
    Nums.sliceFrom k ⟨numData k vs, vs.length⟩ i c = .ok (vs.drop i) := by
  intro c
  induction c with
  | zero => intro i h; rw [Nums.sliceFrom, List.drop_of_length_le (by omega)]
  | succ c ih =>
    intro i h
    simp only [Nums.sliceFrom, nums_get k vs i (by omega), ih (i + 1) (by omega), Res.ok_bind,
      Res.pure_eq]
    rw [← List.drop_eq_getElem_cons]

theorem nums_slice (k : NTy) (vs : List k.Val) :
    Nums.slice k ⟨numData k vs, vs.length⟩ = .ok vs := by
  rw [Nums.slice, nums_sliceFrom k vs vs.length 0 (by simp)]; simp

theorem nums_blob_eq (k : NTy) (fn : Nat) (d : Bytes) (n : Nat) (h : 8 + d.length < 2 ^ 40) :
    Nums.blob k fn ⟨d, n⟩ = some (hdr fn k.ft (8 + d.length) ++ d) := by
  simp only [Nums.blob, HeaderSize]
  rw [encodeHeaderAt_eq (by simp) fn k.ft h]
  simp only
  rw [goCopy_fit' (hdr fn k.ft (8 + d.length)) ((zeros (8 + d.length)).drop 8) [] d (by simp)
    (by simp) (by simp [zeros])]
  simp

/-! ### Strings and byte slices -/

/-- The item bytes. -/
def itemsData (v : List Bytes) : Bytes := v.flatMap fun x => putLE 4 x.length ++ x

theorem itemsData_length (v : List Bytes) : (itemsData v).length = itemsSize v := by
  induction v with
  | nil => rfl
  | cons x xs ih =>
    simp only [itemsData, itemsSize, List.flatMap_cons, List.length_append, putLE_length,
      List.map_cons, List.sum_cons] at ih ⊢
    rw [ih]

theorem packItems_eq (v : List Bytes) : ∀ (p z : Bytes),
    packItems (p ++ zeros (itemsSize v) ++ z) p.length v = p ++ itemsData v ++ z := by
  induction v with
  | nil => intro p z; simp [packItems, itemsData, itemsSize, zeros]
  | cons x xs ih =>
    intro p z
    simp only [packItems]
    have hz : zeros (itemsSize (x :: xs)) = zeros 4 ++ (zeros x.length ++ zeros (itemsSize xs)) := by
      simp only [zeros, List.replicate_append_replicate, itemsSize, List.map_cons, List.sum_cons]
      congr 1; omega
    have h1 := goCopy_fit p (zeros 4) (zeros x.length ++ zeros (itemsSize xs) ++ z) (putLE 4 x.length)
      (by simp)
    have h2 := goCopy_fit (p ++ putLE 4 x.length) (zeros x.length) (zeros (itemsSize xs) ++ z) x
      (by simp)
    have h3 := ih (p ++ putLE 4 x.length ++ x) z
    simp only [List.append_assoc, List.length_append, putLE_length] at h1 h2 h3 hz ⊢
    rw [hz]
    simp only [List.append_assoc]
    rw [h1, h2, Nat.add_assoc, h3]
    simp [itemsData]

theorem itemsBlob_eq (fn ft : Nat) (v : List Bytes) (h : 8 + (itemsSize v + 7) / 8 * 8 < 2 ^ 40) :
    itemsBlob fn ft v = some (hdr fn ft (8 + (itemsSize v + 7) / 8 * 8) ++
      (itemsData v ++ zeros (paddingNeeded (itemsSize v)))) := by
  have hsum : HeaderSize + itemsSize v + paddingNeeded (itemsSize v) = 8 + (itemsSize v + 7) / 8 * 8 := by
    rw [Nat.add_assoc, paddingNeeded_sum]
  simp only [itemsBlob, hsum]
  rw [encodeHeaderAt_eq (by simp) fn ft h]
  simp only
  have hz : (zeros (8 + (itemsSize v + 7) / 8 * 8)).drop 8
      = zeros (itemsSize v) ++ zeros (paddingNeeded (itemsSize v)) := by
    rw [← paddingNeeded_sum]
    simp only [zeros, List.drop_replicate, List.replicate_append_replicate]
    congr 1; omega
  have := packItems_eq v (hdr fn ft (8 + (itemsSize v + 7) / 8 * 8)) (zeros (paddingNeeded (itemsSize v)))
  rw [hdr_length] at this
  rw [hz, ← List.append_assoc, this, List.append_assoc]

theorem patchItems_eq (v : List Bytes) : patchItems v = putLE 4 v.length ++ itemsData v := by
  have h0 : zeros (4 + itemsSize v) = [] ++ zeros 4 ++ zeros (itemsSize v) := by
    simp only [zeros, List.nil_append, List.replicate_append_replicate]
  have h1 := goCopy_fit [] (zeros 4) (zeros (itemsSize v)) (putLE 4 v.length) (by simp)
  have h2 := packItems_eq v (putLE 4 v.length) []
  simp only [List.length_nil, List.append_nil, putLE_length, List.nil_append] at h0 h1 h2
  simp only [patchItems]
  rw [h0, h1, h2]

theorem parseItemsF_fuel (rest : Bytes) : ∀ (n : Nat), rest.length ≤ n →
    parseItemsF n rest = parseItems rest := by
  suffices h : ∀ (n : Nat) (rest : Bytes), rest.length ≤ n → ∀ m, rest.length ≤ m →
      parseItemsF n rest = parseItemsF m rest from
    fun n hn => h n rest hn rest.length (Nat.le_refl _)
  intro n
  induction n with
  | zero =>
    intro rest h m _
    have : rest = [] := List.length_eq_zero_iff.mp (by omega)
    subst this
    cases m <;> simp [parseItemsF]
  | succ n ih =>
    intro rest h m hm
    cases m with
    | zero =>
      have : rest = [] := List.length_eq_zero_iff.mp (by omega)
      subst this
      simp [parseItemsF]
    | succ m =>
      simp only [parseItemsF]
      split
      · split
        · rw [ih _ (by simp; omega) m (by simp; omega)]
        · split
          · rw [ih _ (by simp; omega) m (by simp; omega)]
          · rfl
      · rfl

theorem parseItems_zeros (p : Nat) (hp : p < 8) : parseItems (zeros p) = List.replicate (p / 4) [] := by
  have : ∀ p : Fin 8, parseItems (zeros p.val) = List.replicate (p.val / 4) [] := by decide
  exact this ⟨p, hp⟩

theorem parseItems_short (rest : Bytes) (h : rest.length < 4) : parseItems rest = [] := by
  rw [← parseItemsF_fuel rest (rest.length + 1) (by omega), parseItemsF, if_neg (by omega)]

/-- What the decoder makes of encoded items followed by something else. -/
theorem parseItems_eq (v : List Bytes) (hv : ∀ x ∈ v, x.length < 2 ^ 32) (z : Bytes) :
    parseItems (itemsData v ++ z) = v ++ parseItems z := by
  induction v with
  | nil => simp [itemsData]
  | cons x xs ih =>
    have ih := ih (fun y hy => hv y (by simp [hy]))
    have hx := hv x (by simp)
    have e : itemsData (x :: xs) ++ z = putLE 4 x.length ++ (x ++ (itemsData xs ++ z)) := by
      simp [itemsData]
    rw [e]
    generalize itemsData xs ++ z = rest at *
    rw [← parseItemsF_fuel _ ((putLE 4 x.length ++ (x ++ rest)).length + 1) (by omega)]
    have ht : (putLE 4 x.length ++ (x ++ rest)).take 4 = putLE 4 x.length := List.take_left' (by simp)
    have hd : (putLE 4 x.length ++ (x ++ rest)).drop 4 = x ++ rest := List.drop_left' (by simp)
    rw [parseItemsF, if_pos (by simp)]
    simp only [ht, hd, getLE_putLE_of_lt (show x.length < 256 ^ 4 by omega)]
    by_cases h0 : x.length = 0
    · have hx0 := List.length_eq_zero_iff.mp h0
      subst hx0
      simp only [List.length_nil, if_true, List.nil_append]
      rw [parseItemsF_fuel _ _ (by simp), ih]; rfl
    · rw [if_neg h0, if_pos (by simp), List.take_left, List.drop_left,
        parseItemsF_fuel _ _ (by simp; omega), ih]; rfl

end Claw
