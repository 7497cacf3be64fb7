import Verif.Lemmas.Wire
import Verif.Props.Struct

/-!
# C09–C12: lists

In all round-trip theorems `ops` is an arbitrary earlier program on the same struct (`Fits`), the list
is written last, the struct is marshalled, and the message is unmarshalled into a fresh struct of the
same schema; `extra` is whatever lies behind the received slice.
-/

namespace Claw

/-- A list of scalars whose encoding is decoded faithfully, at the sender and at the receiver. -/
theorem list_round_trip (m : Nat) (ops : List Op) (hfit : Within m ops) (i : Nat) (hi : i < m) (t : STy)
    (v : t.Val) (hs : 8 + sizes ((specRun m ops).set i (specScalar t v)) < 2 ^ 32) (extra : Bytes)
    (hl : t.isList = true) (hc : t.Clean v) :
    ∃ s msg s1 fresh s', run m (ops ++ [.set i t v]) = .ok s ∧ t.get s i = .ok v ∧
      s.marshal = .ok (msg, s1) ∧ St.new m = .ok fresh ∧ fresh.unmarshal msg extra = some s' ∧
      t.get s' i = .ok v := by
  obtain ⟨s, h1, h2, h3, h4⟩ := run_set_last m ops hfit i hi t v (list_storable hl) hs
  obtain ⟨msg, fresh, s', e1, e2, e3, h5, h6⟩ := receive (m := m) h2 h4 extra
  have hvl : (specRun m ops).length = m := by simp [specRun, specOps_length]
  have hz0 : t.isZero v = true → v = t.zero := by
    intro hz
    rcases C03_zero_is_zero t v hz with h | ⟨h, _⟩ | ⟨h, _⟩
    · exact h
    · subst h; simp [STy.isList] at hl
    · subst h; simp [STy.isList] at hl
  have h16 : i < 2 ^ 16 := by have := hfit.1; omega
  have key : ∀ (s : St) (pad : Nat),
      Rep 0 s (padTo pad (encs ((specRun m ops).set i (specScalar t v)) 0)) → s.idx.length = m →
      t.get s i = .ok v := by
    intro s pad hr hlen
    have hb := blob_last (ops := ops) hi t v pad
    cases hz : t.isZero v with
    | true =>
      simp only [specScalar, hz, if_true, Val.enc] at hb
      rw [get_absent hr i (Or.inr (by simpa [specScalar, hz] using hb)) t, hz0 hz]
    | false =>
      have hsz := sizes_ge ((specRun m ops).set i (specScalar t v)) i
      simp only [List.getD_eq_getElem?_getD, List.getElem?_set_self (by omega : i < (specRun m ops).length),
        Option.getD_some, specScalar, hz, Bool.false_eq_true, if_false, Val.size] at hsz hs
      refine get_scalar hr t v (by omega) h16 hz (by omega) hc ?_
      rw [hb]; simp [specScalar, hz, Val.enc]
  refine ⟨s, msg, s, fresh, s', h1, key s 0 (by rw [padTo_self (by omega)]; exact h2) h3, e1, e2, e3,
    key s' m h5 h6⟩

/-! ### C09 bool lists -/

/-- **C09 (a)** A bool list written and read back, locally and through the wire, is the same list.
The other fields are arbitrary. Missing: messages of 4 GiB and more. -/
theorem C09_bool_list_round_trip_partial (m : Nat) (ops : List Op) (hfit : Within m ops) (i : Nat) (hi : i < m)
    (v : List Bool) (hs : 8 + sizes ((specRun m ops).set i (specScalar .lbool v)) < 2 ^ 32) (extra : Bytes) :
    ∃ s msg s1 fresh s', run m (ops ++ [.set i .lbool v]) = .ok s ∧ STy.lbool.get s i = .ok v ∧
      s.marshal = .ok (msg, s1) ∧ St.new m = .ok fresh ∧ fresh.unmarshal msg extra = some s' ∧
      STy.lbool.get s' i = .ok v :=
  list_round_trip m ops hfit i hi .lbool v hs extra rfl trivial

example := C09_bool_list_round_trip_partial 8 demoOps demo_fits.within 4 (by decide)
  [true, false, false, true, true, false, true, false, true] (by decide +kernel) [7, 7]

theorem bit_testBit (x : UInt8) : ∀ b, b < 8 →
    ((x &&& (1 <<< UInt8.ofNat b)) != 0) = x.toNat.testBit b := by
  have key : ∀ (b : Fin 8) (x : Fin 256), ((UInt8.ofNat x.val &&& (1 <<< UInt8.ofNat b.val)) != 0)
      = x.val.testBit b.val := by decide +kernel
  intro b hb
  have := key ⟨b, hb⟩ ⟨x.toNat, x.toNat_lt⟩
  simpa using this

/-- **C09 (b)** The layout: a header with the item count, then one bit per item, least significant
first, padded with zero bits to whole words. -/
theorem C09_layout (fn : Nat) (v : List Bool) (hf : fn < 65536) (hv : v.length < 2 ^ 40) :
    ∃ b, boolsBlob fn v = some b ∧ decodeHeader b = some (fn, 41, v.length) ∧
      b.length = 8 + (v.length + 63) / 64 * 8 ∧
      ∀ j x, b[8 + j / 8]? = some x → x.toNat.testBit (j % 8) = v.getD j false := by
  refine ⟨_, boolsBlob_eq fn v hv, ?_, by simp; omega, ?_⟩
  · rw [decodeHeader_hdr hf (by decide) hv]
  · intro j x hx
    rw [List.getElem?_append_right (by simp)] at hx
    have := boolsTail_bit v j
    simp only [bitAt, List.getD_eq_getElem?_getD] at this
    rw [show 8 + j / 8 - (hdr fn FTListBools v.length).length = j / 8 by simp] at hx
    rw [hx, Option.getD_some, bit_testBit _ _ (by omega)] at this
    simpa [List.getD_eq_getElem?_getD] using this

example : boolsBlob 3 [true, false, true] = some [3, 0, 41, 3, 0, 0, 0, 0, 5, 0, 0, 0, 0, 0, 0, 0] := by
  decide +kernel

/-! ### C10 number lists -/

/-- **C10 (a)** A number list of any item type, written and read back, is the same list bit for bit.
The other fields are arbitrary. Missing: messages of 4 GiB and more. -/
theorem C10_number_list_round_trip_partial (m : Nat) (ops : List Op) (hfit : Within m ops) (i : Nat) (hi : i < m)
    (k : NTy) (v : List k.Val)
    (hs : 8 + sizes ((specRun m ops).set i (specScalar (.lnum k) v)) < 2 ^ 32) (extra : Bytes) :
    ∃ s msg s1 fresh s', run m (ops ++ [.set i (.lnum k) v]) = .ok s ∧ (STy.lnum k).get s i = .ok v ∧
      s.marshal = .ok (msg, s1) ∧ St.new m = .ok fresh ∧ fresh.unmarshal msg extra = some s' ∧
      (STy.lnum k).get s' i = .ok v :=
  list_round_trip m ops hfit i hi (.lnum k) v hs extra rfl trivial

example := C10_number_list_round_trip_partial 8 demoOps demo_fits.within 5 (by decide) .f32
  [⟨0x80000000⟩, ⟨0x7fc00001⟩, ⟨5⟩] (by decide +kernel) []

/-- Calls on a number list. -/
inductive NumOp (k : NTy) where
  | append (vs : List k.Val)
  | set (i : Nat) (v : k.Val)
  | setAll (vs : List k.Val)

/-- The calls on the list of the package. -/
def NumOp.run {k : NTy} : NumOp k → Nums → Res Nums
  | .append vs, n => .ok (n.append k vs)
  | .set i v, n => n.set k i v
  | .setAll vs, _ => .ok (Nums.setAll k vs)

def runNumOps {k : NTy} : List (NumOp k) → Nums → Res Nums
  | [], n => .ok n
  | op :: ops, n => do
    let n ← op.run n
    runNumOps ops n

/-- The same on a Go slice; an index out of range panics (`none`). -/
def NumOp.slice {k : NTy} : NumOp k → List k.Val → Option (List k.Val)
  | .append vs, l => some (l ++ vs)
  | .set i v, l => if i < l.length then some (l.set i v) else none
  | .setAll vs, _ => some vs

def sliceOps {k : NTy} : List (NumOp k) → List k.Val → Option (List k.Val)
  | [], l => some l
  | op :: ops, l => (op.slice l).bind (sliceOps ops)

theorem numOp_run {k : NTy} (op : NumOp k) (l : List k.Val) :
    op.run ⟨numData k l, l.length⟩ = match op.slice l with
      | none => .panic
      | some l' => .ok ⟨numData k l', l'.length⟩ := by
  cases op with
  | append vs => simp [NumOp.run, NumOp.slice, Nums.append, appendLoop_eq, numData_append]
  | setAll vs => simp [NumOp.run, NumOp.slice, setAll_eq]
  | set i v =>
    by_cases h : i < l.length
    · simp only [NumOp.run, NumOp.slice, if_pos h]; exact nums_set k l i v h
    · simp only [NumOp.run, NumOp.slice, if_neg h, Nums.set]; rw [if_pos (by omega)]

/-- **C10 (b)** Any sequence of Append, Set and SetAll on a list with any contents does what it does on
a Go slice, including the panic on an index out of range; afterwards Len, Slice and Get agree with the
slice, and Get panics exactly on an index out of range. -/
theorem C10_list_is_slice (k : NTy) (start : List k.Val) (ops : List (NumOp k)) :
    match sliceOps ops start with
    | none => runNumOps ops (Nums.setAll k start) = .panic
    | some l => ∃ n, runNumOps ops (Nums.setAll k start) = .ok n ∧ n.len = l.length ∧
        n.slice k = .ok l ∧ (∀ i v, l[i]? = some v → n.get k i = .ok v) ∧
        (∀ i, l[i]? = none → n.get k i = .panic) := by
  rw [setAll_eq]
  have key : ∀ (ops : List (NumOp k)) (l : List k.Val), runNumOps ops ⟨numData k l, l.length⟩ =
      match sliceOps ops l with
      | none => .panic
      | some l' => .ok ⟨numData k l', l'.length⟩ := by
    intro ops
    induction ops with
    | nil => intro l; rfl
    | cons op ops ih =>
      intro l
      simp only [runNumOps, sliceOps, numOp_run]
      cases op.slice l with
      | none => rfl
      | some l' => simp only [Res.ok_bind, Option.bind_some]; exact ih l'
  rw [key]
  cases sliceOps ops start with
  | none => rfl
  | some l =>
    refine ⟨_, rfl, rfl, nums_slice k l, ?_, ?_⟩
    · intro i v hv
      obtain ⟨hlt, he⟩ := List.getElem?_eq_some_iff.mp hv
      rw [nums_get k l i hlt, he]
    · intro i hi
      rw [List.getElem?_eq_none_iff] at hi
      simp only [Nums.get]; rw [if_pos hi]

example : sliceOps (k := .i16) [.append [4, -5], .set 0 9, .append [7]] [1] = some [9, 4, -5, 7] ∧
    sliceOps (k := .i16) [.set 3 9] [1] = none := by decide

/-- **C10 (c)** The list a reader gets from a message is the same as one built locally, so (b) applies
to it too. -/
theorem C10_decoded_list (m : Nat) (ops : List Op) (hfit : Within m ops) (i : Nat) (hi : i < m)
    (k : NTy) (v : List k.Val) (hv : v ≠ [])
    (hs : 8 + sizes ((specRun m ops).set i (specScalar (.lnum k) v)) < 2 ^ 32) (extra : Bytes) :
    ∃ s msg s1 fresh s', run m (ops ++ [.set i (.lnum k) v]) = .ok s ∧
      s.marshal = .ok (msg, s1) ∧ St.new m = .ok fresh ∧ fresh.unmarshal msg extra = some s' ∧
      getListNums k s' i = .ok (some (Nums.setAll k v)) := by
  obtain ⟨s, h1, h2, h3, h4⟩ := run_set_last m ops hfit i hi (.lnum k) v (list_storable rfl) hs
  obtain ⟨msg, fresh, s', e1, e2, e3, h5, h6⟩ := receive (m := m) h2 h4 extra
  have hvl : (specRun m ops).length = m := by simp [specRun, specOps_length]
  have hz : (STy.lnum k).isZero v = false := by
    simp only [STy.isZero, beq_eq_false_iff_ne, ne_eq, List.length_eq_zero_iff]; exact hv
  refine ⟨s, msg, s, fresh, s', h1, e1, e2, e3, ?_⟩
  have hb := blob_last (ops := ops) hi (.lnum k) v m
  have hsz := sizes_ge ((specRun m ops).set i (specScalar (.lnum k) v)) i
  simp only [List.getD_eq_getElem?_getD, List.getElem?_set_self (by omega : i < (specRun m ops).length),
    Option.getD_some, specScalar, hz, Bool.false_eq_true, if_false, Val.size] at hsz hs
  have hg := getListNums_hdr h5 (i := i) (k := k) (v := v) (by omega) (by have := hfit.1; omega)
    (by rw [hb]; simp [specScalar, hz, Val.enc, scalarBlob, STy.ft, STy.f40, STy.tail])
    (by simp only [scalarSize] at hsz; omega)
  rw [hg, setAll_eq]

/-! ### C11 string and bytes lists -/

/-- **C11, refuted**: the zero padding behind the items can be read back as one more, empty, item. -/
theorem C11_padding_becomes_an_item :
    ∃ s msg s1 fresh s', run 1 [.set 0 .lstr [[97, 98, 99, 100, 101, 102, 103, 104]]] = .ok s ∧
      s.marshal = .ok (msg, s1) ∧ St.new 1 = .ok fresh ∧ fresh.unmarshal msg [] = some s' ∧
      STy.lstr.get s' 0 = .ok [[97, 98, 99, 100, 101, 102, 103, 104], []] := by
  refine ⟨_, _, _, _, _, rfl, rfl, rfl, rfl, ?_⟩
  decide +kernel

/-- **C11 (a)** Exactly what is read back, for every list: the items, followed by one empty item if and
only if the padding takes 4 bytes or more. -/
theorem C11_exact (m : Nat) (ops : List Op) (hfit : Within m ops) (i : Nat) (hi : i < m)
    (t : STy) (ht : t = .lstr ∨ t = .lbytes) (v : List Bytes) (w : t.Val) (hw : w ≍ v) (hv : v ≠ [])
    (hs : 8 + sizes ((specRun m ops).set i (specScalar t w)) < 2 ^ 32) (extra : Bytes) :
    ∃ s msg s1 fresh s' r, run m (ops ++ [.set i t w]) = .ok s ∧
      s.marshal = .ok (msg, s1) ∧ St.new m = .ok fresh ∧ fresh.unmarshal msg extra = some s' ∧
      t.get s' i = .ok r ∧
      r ≍ (if itemBytes v % 8 = 0 ∨ 4 < itemBytes v % 8 then v else v ++ [[]]) := by
  obtain ⟨s, h1, h2, h3, h4⟩ := run_set_last m ops hfit i hi t w (list_storable (by rcases ht with rfl | rfl <;> rfl)) hs
  obtain ⟨msg, fresh, s', e1, e2, e3, h5, h6⟩ := receive (m := m) h2 h4 extra
  have hvl : (specRun m ops).length = m := by simp [specRun, specOps_length]
  have hb := blob_last (ops := ops) hi t w m
  have hsz := sizes_ge ((specRun m ops).set i (specScalar t w)) i
  have hparse : 8 + (itemBytes v + 7) / 8 * 8 < 2 ^ 32 →
      parseItems (itemsData v ++ zeros (paddingNeeded (itemsSize v)))
      = (if itemBytes v % 8 = 0 ∨ 4 < itemBytes v % 8 then v else v ++ [[]]) := by
    intro hlt
    have hle : ∀ x ∈ v, x.length < 2 ^ 32 := by
      intro x hx; have := itemBytes_mem v x hx; omega
    rw [parseItems_eq v hle, parseItems_zeros _ (paddingNeeded_lt _), ← itemBytes_eq]
    split
    · rw [show paddingNeeded (itemBytes v) / 4 = 0 by simp only [paddingNeeded]; split <;> omega]; simp
    · rw [show paddingNeeded (itemBytes v) / 4 = 1 by simp only [paddingNeeded]; split <;> omega]; rfl
  have hne : v.length ≠ 0 := by rwa [ne_eq, List.length_eq_zero_iff]
  rcases ht with rfl | rfl <;>
  · cases eq_of_heq hw
    simp only [List.getD_eq_getElem?_getD, List.getElem?_set_self (by omega : i < (specRun m ops).length),
      Option.getD_some, specScalar, STy.isZero, beq_eq_false_iff_ne.mpr hne, Bool.false_eq_true, if_false,
      Val.size, scalarSize] at hsz hs
    refine ⟨s, msg, s, fresh, s', _, h1, e1, e2, e3, ?_, HEq.rfl⟩
    simp only [specScalar, STy.isZero, beq_eq_false_iff_ne.mpr hne, Bool.false_eq_true, if_false, Val.enc,
      scalarBlob, STy.tail] at hb
    simp only [STy.get]
    rw [getListItems_hdr h5 (by omega) (by simpa [specScalar, STy.isZero, beq_eq_false_iff_ne.mpr hne] using hb)]
    simp only [Res.ok_bind, Res.pure_eq]
    rw [hparse (by omega)]

example := C11_exact 8 demoOps demo_fits.within 6 (by decide) .lstr (Or.inl rfl) [[97], [98, 99]] [[97], [98, 99]]
  HEq.rfl (by decide) (by decide +kernel) []

/-- **C11 (b, partial)** Lists whose encoded items leave less than 4 bytes of padding survive. Missing:
all other lists, for which it is false (`C11_padding_becomes_an_item`, `C11_exact`). -/
theorem C11_round_trip_partial (m : Nat) (ops : List Op) (hfit : Within m ops) (i : Nat) (hi : i < m)
    (v : List Bytes) (hc : itemBytes v % 8 = 0 ∨ 4 < itemBytes v % 8)
    (hs : 8 + sizes ((specRun m ops).set i (specScalar .lstr v)) < 2 ^ 32) (extra : Bytes) :
    ∃ s msg s1 fresh s', run m (ops ++ [.set i .lstr v]) = .ok s ∧ STy.lstr.get s i = .ok v ∧
      s.marshal = .ok (msg, s1) ∧ St.new m = .ok fresh ∧ fresh.unmarshal msg extra = some s' ∧
      STy.lstr.get s' i = .ok v :=
  list_round_trip m ops hfit i hi .lstr v hs extra rfl hc

example := C11_round_trip_partial 8 demoOps demo_fits.within 6 (by decide) [[97, 98, 99], [98, 99]]
  (by decide) (by decide +kernel) []

/-! ### C12 struct lists -/

/-- The list of structs built by `progs`, each item read on its own before it is put into the list. -/
def ItemsRead (m : Nat) (tys : List Ty) : List (List Op) → List (List Val) → Prop
  | [], [] => True
  | p :: ps, vs :: items => (∃ c, run m p = .ok c ∧ readFields tys c 0 = .ok vs) ∧ ItemsRead m tys ps items
  | _, _ => False

theorem itemsRead_of_fits (m : Nat) (hm : m ≤ 65536) (tys : List Ty) (hlen : tys.length = m) :
    ∀ progs, WithinItems m progs → ItemsTidy (specItems m progs) → ItemsHaveTy (specItems m progs) tys →
      ItemsRead m tys progs ((specItems m progs).map fun vs => viewFields tys vs) := by
  intro progs
  induction progs with
  | nil => intro _ _ _; simp [specItems, ItemsRead]
  | cons p ps ih =>
    intro hf hd ht
    simp only [WithinItems] at hf
    simp only [specItems, ItemsTidy] at hd
    simp only [specItems, ItemsHaveTy] at ht
    simp only [specItems, List.map_cons, ItemsRead]
    exact ⟨C03_struct_is_record_partial m p tys ⟨hm, hf.1⟩ hd.1 hlen ht.1, ih hf.2 hd.2 ht.2⟩

/-- **C12** A list of structs, each built by any program, put into a struct after any program: the
receiver sees as many items, and every item reads as the sender's item read before.
The other fields are arbitrary. Missing: items whose final values are not clean, for which it is false (C11, C14), and messages of 4 GiB and more. -/
theorem C12_struct_list_round_trip_partial (m : Nat) (ops : List Op) (i m' : Nat) (progs : List (List Op))
    (tys : List Ty) (hne : progs ≠ []) (hfit : Within m (ops ++ [.nestList i m' progs]))
    (htidy : ItemsTidy (specItems m' progs))
    (hlen : tys.length = m') (hty : ItemsHaveTy (specItems m' progs) tys) (extra : Bytes) :
    ∃ s msg s1 fresh s' cs items, run m (ops ++ [.nestList i m' progs]) = .ok s ∧
      s.marshal = .ok (msg, s1) ∧ St.new m = .ok fresh ∧ fresh.unmarshal msg extra = some s' ∧
      getListStructs s' i m' = .ok (some cs) ∧ cs.length = progs.length ∧
      mapRes (fun c => readFields tys c 0) cs = .ok items ∧ ItemsRead m' tys progs items := by
  obtain ⟨s0, h0, hr, hl, he, _⟩ := new_rep m
  obtain ⟨s, h1, h2, h3⟩ := ops_within (ops ++ [.nestList i m' progs]) hr (by simp [hl])
    (by simpa using hfit.1) (by rw [hl]; exact hfit.2)
  obtain ⟨msg, fresh, s', e1, e2, e3, h5, h6⟩ := receive (m := m) h2 (by rw [h3.enabled, he]) extra
  have hlast : i < m ∧ m' ≤ 65536 ∧ WithinItems m' progs := by
    have happF : ∀ (a b : List Op) r, WithinFrom m (a ++ b) r → WithinFrom m b (specOps a r) := by
      intro a; induction a with
      | nil => intro b r h; exact h
      | cons x a ih => intro b r h; simp only [List.cons_append, WithinFrom] at h; exact ih b _ h.2.2
    have := happF ops _ _ hfit.2
    simp only [WithinFrom, Op.Within] at this
    exact this.1
  obtain ⟨hi, hm', hfi⟩ := hlast
  have hine : specItems m' progs ≠ [] := by
    cases progs with
    | nil => exact absurd rfl hne
    | cons p ps => simp [specItems]
  have hval : (specOps (ops ++ [.nestList i m' progs]) (List.replicate m .absent)).getD i .absent
      = .structs (specItems m' progs) := by
    rw [specOps_append]
    simp only [specOps, Op.spec]
    rw [List.getD_eq_getElem?_getD, List.getElem?_set_self (by rw [specOps_length]; simpa using hi)]
    simp [specStructs, hine]
  have hb : blob (padTo m (encs (specOps (ops ++ [.nestList i m' progs]) (List.replicate m .absent)) 0)) i
      = (Val.structs (specItems m' progs)).enc i := by
    rw [blob_padTo, blob_encs, hval, Nat.zero_add]
  have hcan := (items_sound m' hm' progs hfi).canon htidy
  obtain ⟨cs, hcs, hrep⟩ := getListStructs_present h5 m' (specItems m' progs) (by omega) hb hcan hine
  have hread := read_items tys (specItems m' progs) cs (by rw [hlen]; exact hrep) hcan hty (by
    intro r c vs hc hcl hcan hvl hvt
    have := read_fields tys hc hcan hvl 0 (by omega)
      (by intro j ty hj; rw [Nat.zero_add]; exact hvt.get j ty hj)
    rw [this, viewFields_eq_map]; simp)
  have hcount : ∀ (cs : List St) (items : List (List Val)), ItemsRep m' cs items → cs.length = items.length := by
    intro cs
    induction cs with
    | nil => intro items h; cases items <;> simp [ItemsRep] at h; rfl
    | cons c cs ih =>
      intro items h
      cases items with
      | nil => simp [ItemsRep] at h
      | cons vs items => simp only [ItemsRep] at h; simp [ih _ h.2]
  have hsl : ∀ ps, (specItems m' ps).length = ps.length := by
    intro ps; induction ps with
    | nil => rfl
    | cons p ps ih => simp [specItems, ih]
  refine ⟨s, msg, s, fresh, s', cs, _, by simp [run, h0, h1], e1, e2, e3, hcs, ?_, hread,
    itemsRead_of_fits m' hm' tys hlen progs hfi htidy hty⟩
  rw [hcount cs _ hrep, hsl]

/-- After the demo program and a list of strings whose padding is taken for one more string. -/
example := C12_struct_list_round_trip_partial 8 (demoOps.take 10 ++ [.set 6 .lstr [[]]]) 7 1 [[.set 0 .u8 1], [], [.set 0 .u8 3]]
  [.scalar .u8] (by simp) (by
    refine ⟨by decide, ?_⟩
    simp +decide [demoOps, WithinFrom, Op.Within, Op.spec, specOps, specScalar, specStruct, Val.isAbsent,
      STy.isZero, sizes, Val.size, scalarSize, List.replicate, STy.Storable, itemBytes,
      WithinItems, specItems, specStructs, itemSizes, NTy.size]) (by
    simp +decide [specItems, specOps, Op.spec, specScalar, STy.isZero, List.replicate, ItemsTidy, Tidies, Val.Tidy,
      STy.Clean, STy.Storable]) rfl (by
    simp +decide [specItems, specOps, Op.spec, specScalar, STy.isZero, List.replicate, ItemsHaveTy,
      FieldsHaveTy, Val.HasTy]) []

/-- The same list of strings is not clean: C11 and C14 exclude it, here it is another field. -/
example : ¬ STy.lstr.Clean [[]] := by simp +decide [STy.Clean, STy.Storable, itemBytes]

end Claw
