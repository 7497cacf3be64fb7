import Verif.Lemmas.Within
import Verif.Lemmas.Record

/-!
# C03–C07, C20: structs as records, marshalling, canonicity, schema evolution

`run m ops` is a client program: create a struct of an `m`-field schema and perform the calls `ops`
(setters of every scalar type, of lists of bools, numbers, strings and byte slices, of Any, `[]any` and
maps, clears, reads, children and lists of children built by their own programs, to any depth).
`specRun m ops` is the record one expects (`Verif.Spec.Record`; no bytes there).
`readFields tys s 0` reads all fields with the getters a schema `tys` generates.
-/

namespace Claw

set_option linter.unusedSimpArgs false

/-- A program used as a witness: int32, string, nested struct, float, bool list, number list, string
list and struct list fields, overwritten and cleared. -/
def demoOps : List Op :=
  [.set 0 .i32 (-7), .set 1 .str [104, 105], .nest 2 2 [.set 1 .u64 99, .set 0 .bool true],
   .peek, .set 1 .str [104, 101, 108, 108, 111, 33, 33, 33, 33], .set 0 .i32 0, .clear 3,
   .set 4 .lbool [true, false, true], .set 5 (.lnum .i16) [1, -2, 3], .set 6 .lstr [[104, 107], [105, 106, 107]],
   .nestList 7 1 [[.set 0 .u8 1], [], [.set 0 .u8 3]],
   .set 3 .f64 ⟨0x3ff0000000000000⟩, .set 0 .i32 5]

def demoTys : List Ty := [.scalar .i32, .scalar .str, .struct [.scalar .bool, .scalar .u64], .scalar .f64,
  .scalar .lbool, .scalar (.lnum .i16), .scalar .lstr, .structs [.scalar .u8]]

theorem demo_spec : specRun 8 demoOps = [.scalar .i32 5,
    .scalar .str [104, 101, 108, 108, 111, 33, 33, 33, 33],
    .struct [.scalar .bool true, .scalar .u64 99], .scalar .f64 ⟨0x3ff0000000000000⟩,
    .scalar .lbool [true, false, true], .scalar (.lnum .i16) [1, -2, 3], .scalar .lstr [[104, 107], [105, 106, 107]],
    .structs [[.scalar .u8 1], [.absent], [.scalar .u8 3]]] := rfl

theorem demo_fits : Fits 8 demoOps := by
  refine ⟨by decide, ?_⟩
  simp +decide [demoOps, FitsFrom, Op.Fits, Op.spec, specOps, specScalar, specStruct, Val.isAbsent,
    STy.isZero, sizes, Val.size, scalarSize, List.replicate, F64.isZero, STy.Clean, STy.Storable, itemBytes,
    FitsItems, specItems, specStructs, itemSizes, NTy.size]

theorem demo_typed : FieldsHaveTy (specRun 8 demoOps) demoTys := by
  rw [demo_spec]; simp [FieldsHaveTy, demoTys, Val.HasTy, ItemsHaveTy]

/-- **C03 (a)** Every program within its schema and below 4 GiB runs without panic or hang, and
reading all fields afterwards gives exactly the record of the specification.
Values stored on the way and then overwritten or cleared need not be clean.
Missing: final values that are not clean (`STy.Clean`; C11 and C14 show that they do not read back), messages of 4 GiB and more
(false there: `C03_four_gib_field_is_lost`), and minus zero, which reads as zero (`C03_minus_zero_is_lost`). -/
theorem C03_struct_is_record_partial (m : Nat) (ops : List Op) (tys : List Ty) (hfit : Within m ops) (htidy : Tidies (specRun m ops))
    (hlen : tys.length = m) (hty : FieldsHaveTy (specRun m ops) tys) :
    ∃ s, run m ops = .ok s ∧ readFields tys s 0 = .ok (viewFields tys (specRun m ops)) := by
  obtain ⟨s0, h0, hr, hl, _⟩ := new_rep m
  obtain ⟨s, h1, h2, h3, h4⟩ := tidy_rep m ops hfit htidy hr hl
  refine ⟨s, by simp [run, h0, h1], ?_⟩
  have hpad : Rep 0 s (padTo 0 (encs (specOps ops (List.replicate m .absent)) 0)) := by
    rw [padTo_self (by omega)]; exact h2
  have := read_fields tys hpad h4 (by rw [specOps_length]; simpa using hfit.1) 0
    (by rw [h3.len, hl]; omega) (by intro j ty hj; rw [Nat.zero_add]; exact hty.get j ty hj)
  rw [this, viewFields_eq_map]
  simp [specRun]

example : ∃ s, run 8 demoOps = .ok s ∧ readFields demoTys s 0 = .ok (viewFields demoTys (specRun 8 demoOps)) :=
  C03_struct_is_record_partial 8 demoOps demoTys demo_fits.within demo_fits.tidy rfl demo_typed

/-- Does the call write field `i`? -/
def Op.writes : Op → Nat → Bool
  | .set fn _ _, i => fn == i
  | .clear fn, i => fn == i
  | .nest fn _ _, i => fn == i
  | .nestNil fn, i => fn == i
  | .nestList fn _ _, i => fn == i
  | .peek, _ => false

/-- **C03 (b)** "Get returns the last set": whatever happened before and whatever is done to other
fields afterwards, the getter of field `i` returns the value last set (a value equal to zero reads
as zero).
Missing: a value `v` that is not clean, minus zero, and 4 GiB; the values of other fields are arbitrary. -/
theorem C03_get_returns_last_set_partial (m : Nat) (pre post : List Op) (i : Nat) (t : STy) (v : t.Val)
    (hfit : Within m (pre ++ .set i t v :: post)) (hclean : t.Clean v) (hpost : ∀ op ∈ post, op.writes i = false) :
    ∃ s, run m (pre ++ .set i t v :: post) = .ok s ∧
      t.get s i = .ok (if t.isZero v then t.zero else v) := by
  obtain ⟨s0, h0, hr, hl, _⟩ := new_rep m
  obtain ⟨s, h1, h2, h3⟩ := ops_within (pre ++ .set i t v :: post) hr (by simp [hl])
    (by simpa using hfit.1) (by rw [hl]; exact hfit.2)
  refine ⟨s, by simp [run, h0, h1], ?_⟩
  have happ : ∀ (a b : List Op) r, specOps (a ++ b) r = specOps b (specOps a r) := by
    intro a; induction a with
    | nil => intro b r; rfl
    | cons x a ih => intro b r; simp [specOps, ih]
  have hlim : i < m ∧ t.Storable v := by
    have happF : ∀ (a b : List Op) r, WithinFrom m (a ++ b) r → WithinFrom m b (specOps a r) := by
      intro a; induction a with
      | nil => intro b r h; exact h
      | cons x a ih => intro b r h; simp only [List.cons_append, WithinFrom] at h; exact ih b _ h.2.2
    have := happF pre _ _ hfit.2
    simp only [WithinFrom, Op.Within] at this
    exact this.1
  obtain ⟨hlim, _⟩ := hlim
  have hkeep : ∀ (l : List Op) (r : List Val), (∀ op ∈ l, op.writes i = false) →
      (specOps l r).getD i .absent = r.getD i .absent := by
    intro l; induction l with
    | nil => intro r _; rfl
    | cons x l ih =>
      intro r hx
      rw [specOps, ih _ (fun op ho => hx op (List.mem_cons_of_mem _ ho))]
      have := hx x (List.mem_cons_self ..)
      cases x <;> simp only [Op.writes, beq_eq_false_iff_ne, ne_eq] at this <;>
        simp only [Op.spec, List.getD_eq_getElem?_getD] <;> first | rw [List.getElem?_set_ne this] | rfl
  have hval : (specOps (pre ++ .set i t v :: post) (List.replicate m .absent)).getD i .absent
      = specScalar t v := by
    rw [happ, specOps, hkeep _ _ hpost, Op.spec, List.getD_eq_getElem?_getD, List.getElem?_set_self]
    · rfl
    · rw [specOps_length]; simpa using hlim
  generalize hvs : specOps (pre ++ .set i t v :: post) (List.replicate m .absent) = vs at *
  have hb : blob (encs vs 0) i = (specScalar t v).enc i := by rw [blob_encs, hval, Nat.zero_add]
  cases hz : t.isZero v with
  | true =>
    simp only [specScalar, hz, if_true, Val.enc] at hb
    simpa using get_absent h2 i (Or.inr hb) t
  | false =>
    simp only [specScalar, hz, Bool.false_eq_true, if_false, Val.enc] at hb
    have hsz := sizes_ge vs i
    rw [hval] at hsz
    simp only [specScalar, hz, Bool.false_eq_true, if_false, Val.size] at hsz
    have hsm := h2.small
    rw [total_encs] at hsm
    simpa using get_scalar h2 t v (by rw [h3.len, hl]; exact hlim)
      (by have := hfit.1; omega) hz (by omega) hclean hb

example : ∃ s, run 8 demoOps = .ok s ∧ getInt32 s 0 = .ok 5 :=
  C03_get_returns_last_set_partial 8 (demoOps.take 12) [] 0 .i32 5 demo_fits.within trivial (by simp)

/-- For every type but the two floats a value "equal to zero" is the zero value, so C03 (b) returns
exactly what was set; for floats the only exception is minus zero, read back as plus zero. -/
theorem C03_zero_is_zero (t : STy) (v : t.Val) (h : t.isZero v = true) :
    v = t.zero ∨ (t = .f32 ∧ v ≍ (⟨0x80000000⟩ : F32)) ∨
      (t = .f64 ∧ v ≍ (⟨0x8000000000000000⟩ : F64)) := by
  cases t
  case f32 =>
    obtain ⟨b⟩ := v
    simp only [STy.isZero, F32.isZero, Bool.or_eq_true, beq_iff_eq] at h
    rcases h with h | h
    · left; simp [STy.zero, h]
    · right; left; exact ⟨rfl, by simp [h]⟩
  case f64 =>
    obtain ⟨b⟩ := v
    simp only [STy.isZero, F64.isZero, Bool.or_eq_true, beq_iff_eq] at h
    rcases h with h | h
    · left; simp [STy.zero, h]
    · right; right; exact ⟨rfl, by simp [h]⟩
  all_goals (left; simp [STy.isZero] at h; simp [STy.zero, h])

example : STy.f64.isZero ⟨0x8000000000000000⟩ = true := by decide

/-- **C03 (minus zero)** C03 as stated is false: a float64 field set to minus zero reads back as plus zero. -/
theorem C03_minus_zero_is_lost : ∃ s, run 1 [.set 0 .f64 ⟨0x8000000000000000⟩] = .ok s ∧ STy.f64.get s 0 = .ok ⟨0⟩ := by
  obtain ⟨s, h1, h2⟩ := C03_get_returns_last_set_partial 1 [] [] 0 .f64 ⟨0x8000000000000000⟩
    (by simp +decide [Within, WithinFrom, Op.Within, Op.spec, specScalar, STy.isZero, STy.Storable, List.replicate, sizes, Val.size]) trivial (by simp)
  exact ⟨s, h1, by rw [h2]; rfl⟩

/-- **C03 (c)** Writing a field number outside the schema panics instead of corrupting the struct. -/
theorem C03_out_of_schema_panics {r : Nat} {s : St} {fs : List Bytes} (h : Rep r s fs) (n : Nat)
    (b : Bytes) (hn : s.idx.length ≤ n) : s.insertField n b = .panic := by
  simp only [St.insertField, h.ensure, Res.ok_bind, idxOf_getElem?]
  rw [if_neg (by omega)]

example : ∃ s, St.new 1 = .ok s ∧ s.insertField 1 [1] = .panic := by
  obtain ⟨s, h, hr, hl, _⟩ := new_rep 1
  exact ⟨s, h, C03_out_of_schema_panics hr 1 [1] (by omega)⟩

/-- **C04** What Marshal returns, unmarshalled into a fresh struct of the same schema (whatever
capacity bytes lie behind the received slice), reads back exactly as the sender reads its own
struct.
Missing: final values that are not clean, for which it is false (C11, C14), and messages of 4 GiB and more (false there as well:
`C04_four_gib_field_is_lost`). -/
theorem C04_marshal_unmarshal_partial (m : Nat) (ops : List Op) (tys : List Ty) (extra : Bytes)
    (hfit : Within m ops) (htidy : Tidies (specRun m ops)) (hlen : tys.length = m) (hty : FieldsHaveTy (specRun m ops) tys) :
    ∃ s msg s1 fresh s', run m ops = .ok s ∧ s.marshal = .ok (msg, s1) ∧ St.new m = .ok fresh ∧
      fresh.unmarshal msg extra = some s' ∧
      readFields tys s' 0 = readFields tys s 0 ∧
      readFields tys s' 0 = .ok (viewFields tys (specRun m ops)) := by
  obtain ⟨s0, h0, hr, hl, he, _⟩ := new_rep m
  obtain ⟨s, h1, h2, h3, h4⟩ := tidy_rep m ops hfit htidy hr hl
  have hm := marshal_rep h2 (by rw [h3.enabled, he])
  obtain ⟨s', hu, hr', hl', _⟩ := unmarshal_rep h2.wf h2.small 0 (by omega) s0 m hl
    (by intro i hi _; have e := new_eq m; rw [h0] at e; simp at e; rw [e]; simp [hi]) [] extra
  rw [List.append_nil] at hu
  have hvl : (specOps ops (List.replicate m .absent)).length ≤ 65536 := by
    rw [specOps_length]; simpa using hfit.1
  have hpad : Rep 0 s (padTo 0 (encs (specOps ops (List.replicate m .absent)) 0)) := by
    rw [padTo_self (by omega)]; exact h2
  have e1 := read_fields tys hpad h4 hvl 0
    (by rw [h3.len, hl]; omega) (by intro j ty hj; rw [Nat.zero_add]; exact hty.get j ty hj)
  have e2 := read_fields tys hr' h4 hvl 0
    (by rw [hl']; omega) (by intro j ty hj; rw [Nat.zero_add]; exact hty.get j ty hj)
  refine ⟨s, _, _, s0, s', by simp [run, h0, h1], hm, h0, hu, by rw [e1, e2], ?_⟩
  rw [e2, viewFields_eq_map]; simp [specRun]

example := C04_marshal_unmarshal_partial 8 demoOps demoTys [1, 2, 3] demo_fits.within demo_fits.tidy rfl demo_typed

/-- **C05 (a)** The bytes depend only on the field values: two programs, of any length and in any
order, that end in the same record marshal to the same bytes.
Missing: programs that reach 4 GiB, for which it is false (`C05_four_gib_not_canonical`). -/
theorem C05_canonical_partial (m : Nat) (ops ops' : List Op) (hfit : Within m ops) (hfit' : Within m ops')
    (heq : specRun m ops = specRun m ops') :
    ∃ s s' msg s1 s1', run m ops = .ok s ∧ run m ops' = .ok s' ∧
      s.marshal = .ok (msg, s1) ∧ s'.marshal = .ok (msg, s1') := by
  obtain ⟨s0, h0, hr, hl, he, _⟩ := new_rep m
  obtain ⟨s, h1, h2, h3⟩ := ops_within ops hr (by simp [hl]) (by simpa using hfit.1)
    (by rw [hl]; exact hfit.2)
  obtain ⟨s', h1', h2', h3'⟩ := ops_within ops' hr (by simp [hl]) (by simpa using hfit'.1)
    (by rw [hl]; exact hfit'.2)
  simp only [specRun] at heq
  rw [← heq] at h2'
  exact ⟨s, s', _, _, _, by simp [run, h0, h1], by simp [run, h0, h1'],
    marshal_rep h2 (by rw [h3.enabled, he]), marshal_rep h2' (by rw [h3'.enabled, he])⟩

example : specRun 2 [.set 1 .u8 3, .set 0 .u8 9, .set 0 .u8 4] = specRun 2 [.set 0 .u8 4, .peek, .set 1 .u8 3]
    ∧ Fits 2 [.set 1 .u8 3, .set 0 .u8 9, .set 0 .u8 4] ∧ Fits 2 [.set 0 .u8 4, .peek, .set 1 .u8 3] := by
  refine ⟨rfl, ⟨by decide, ?_⟩, ⟨by decide, ?_⟩⟩ <;>
  simp +decide [FitsFrom, Op.Fits, Op.spec, specScalar, STy.isZero, sizes, Val.size, scalarSize,
    List.replicate, STy.Clean, STy.Storable]

/-- **C05 (b)** The encoding is sparse and sorted: after the 8-byte root header come, in increasing
field number, exactly the fields that are set, each starting with a header carrying its number and
occupying its size; unset fields occupy no byte.
Missing: programs that reach 4 GiB. -/
theorem C05_sparse_sorted_partial (m : Nat) (ops : List Op) (hfit : Within m ops) :
    ∃ s msg s1 chunks, run m ops = .ok s ∧ s.marshal = .ok (msg, s1) ∧
      msg.drop 8 = List.flatten chunks ∧ chunks.length = m ∧
      ∀ i v, (specRun m ops)[i]? = some v → ∃ c, chunks[i]? = some c ∧ c.length = v.size ∧
        (v.isAbsent = true → c = []) ∧
        (v.isAbsent = false → ∃ ft f, decodeHeader c = some (i, ft, f)) := by
  obtain ⟨s0, h0, hr, hl, he, _⟩ := new_rep m
  obtain ⟨s, h1, h2, h3⟩ := ops_within ops hr (by simp [hl]) (by simpa using hfit.1)
    (by rw [hl]; exact hfit.2)
  refine ⟨s, _, _, encs (specOps ops (List.replicate m .absent)) 0, by simp [run, h0, h1],
    marshal_rep h2 (by rw [h3.enabled, he]), List.drop_left' (by simp),
    by rw [encs_length, specOps_length]; simp, ?_⟩
  intro i v hv
  simp only [specRun] at hv
  have hlt : i < (encs (specOps ops (List.replicate m .absent)) 0).length := by
    rw [encs_length]; exact (List.getElem?_eq_some_iff.mp hv).1
  have hb := blob_encs (specOps ops (List.replicate m .absent)) 0 i
  rw [List.getD_eq_getElem?_getD, hv, Nat.zero_add] at hb
  simp only [Option.getD_some] at hb
  refine ⟨v.enc i, ?_, enc_length v i, ?_, ?_⟩
  · rw [List.getElem?_eq_getElem hlt, ← blob_eq_getElem _ _ hlt, hb]
  · intro ha; cases v <;> simp [Val.isAbsent] at ha; simp [Val.enc]
  · intro ha
    have hw := h2.wf i
    rw [hb] at hw
    rcases hw with hw | hw
    · exact absurd hw (enc_ne_nil ha i)
    · obtain ⟨ft, f, _, hd, _⟩ := hw.hdr
      exact ⟨ft, f, by simpa using hd []⟩

example : ∃ s, run 3 [.set 2 .u8 7, .set 0 .bool true] = .ok s ∧ s.marshal =
    .ok ([0, 0, 14, 24, 0, 0, 0, 0,  0, 0, 1, 1, 0, 0, 0, 0,  2, 0, 6, 7, 0, 0, 0, 0], s) := by
  refine ⟨_, rfl, ?_⟩
  decide +kernel

/-- **C06 (a)** The root header holds the length of the message, and the length is 8 plus the sizes of
the fields that are set. -/
theorem C06_size (m : Nat) (ops : List Op) (hfit : Within m ops) :
    ∃ s msg s1, run m ops = .ok s ∧ s.marshal = .ok (msg, s1) ∧
      decodeHeader msg = some (0, 14, msg.length) ∧ msg.length = 8 + sizes (specRun m ops) := by
  obtain ⟨s0, h0, hr, hl, he, _⟩ := new_rep m
  obtain ⟨s, h1, h2, h3⟩ := ops_within ops hr (by simp [hl]) (by simpa using hfit.1) (by rw [hl]; exact hfit.2)
  have hlen : (hdr 0 FTStruct (total (encs (specOps ops (List.replicate m .absent)) 0)) ++
      (encs (specOps ops (List.replicate m .absent)) 0).flatten).length
      = 8 + sizes (specRun m ops) := by
    rw [List.length_append, hdr_length, encs_flatten_length]; rfl
  refine ⟨s, _, _, by simp [run, h0, h1], marshal_rep h2 (by rw [h3.enabled, he]), ?_, hlen⟩
  rw [hlen]
  have hs := h2.small
  rw [decodeHeader_hdr (by omega) (by decide) (by omega), total_encs]; rfl

example := C06_size 8 demoOps demo_fits.within

mutual
/-- Every number list, Any and list of Any has item bytes that fill whole words. -/
def Val.NoRagged : Val → Prop
  | .absent => True
  | .scalar (.lnum k) v => List.length v * k.size % 8 = 0
  | .scalar .any (some a) => a.data.length % 8 = 0
  | .scalar .lany v => (List.map (fun a : AnyVal => a.data.length) v).sum % 8 = 0
  | .scalar _ _ => True
  | .struct vs => NoRaggeds vs
  | .structs items => NoRaggedItems items
def NoRaggeds : List Val → Prop
  | [] => True
  | v :: vs => v.NoRagged ∧ NoRaggeds vs
def NoRaggedItems : List (List Val) → Prop
  | [] => True
  | vs :: items => NoRaggeds vs ∧ NoRaggedItems items
end

mutual
theorem size_mod8 (v : Val) (h : v.NoRagged) : v.size % 8 = 0 := by
  match v with
  | .absent => simp [Val.size]
  | .scalar t v =>
    rw [Val.size]
    cases t
    case lnum k => simp only [Val.NoRagged] at h; simp only [scalarSize]; omega
    case any =>
      cases v with
      | none => simp [scalarSize]
      | some a => simp only [Val.NoRagged] at h; simp only [scalarSize]; omega
    case lany =>
      simp only [Val.NoRagged] at h; simp only [scalarSize]
      have : (v.map fun a => 16 + a.data.length).sum = 16 * v.length + (v.map fun a => a.data.length).sum := by
        clear h
        induction v with
        | nil => rfl
        | cons a v ih => simp only [List.map_cons, List.sum_cons, List.length_cons, ih]; omega
      omega
    all_goals simp [scalarSize] <;> omega
  | .struct vs => have := sizes_mod8 vs (by simpa [Val.NoRagged] using h); rw [Val.size]; omega
  | .structs items =>
    have := itemSizes_mod8 items (by simpa [Val.NoRagged] using h); rw [Val.size]; omega
theorem sizes_mod8 (vs : List Val) (h : NoRaggeds vs) : sizes vs % 8 = 0 := by
  match vs with
  | [] => simp [sizes]
  | v :: vs =>
    simp only [NoRaggeds] at h
    have := size_mod8 v h.1; have := sizes_mod8 vs h.2; rw [sizes]; omega
theorem itemSizes_mod8 (items : List (List Val)) (h : NoRaggedItems items) : itemSizes items % 8 = 0 := by
  match items with
  | [] => simp [itemSizes]
  | vs :: items =>
    simp only [NoRaggedItems] at h
    have := sizes_mod8 vs h.1; have := itemSizes_mod8 items h.2; rw [itemSizes]; omega
end

/-- **C06, refuted**: messages are not always a multiple of 8 bytes long (so `pack.Pack` rejects them):
a list of three int16 makes a message of 22 bytes. -/
theorem C06_number_list_unaligned : ∃ s msg s1, run 1 [.set 0 (.lnum .i16) [1, 2, 3]] = .ok s ∧
    s.marshal = .ok (msg, s1) ∧ msg.length = 22 := by
  refine ⟨_, _, _, rfl, rfl, ?_⟩
  decide +kernel

/-- **C06 (b, partial)** The message length is a multiple of 8 if the items of every number list in
it, at any depth, fill whole words, and so do the structs in every Any and `[]any`. Without this it is
false: `C06_number_list_unaligned`. -/
theorem C06_alignment_partial (m : Nat) (ops : List Op) (hfit : Within m ops)
    (hr : NoRaggeds (specRun m ops)) :
    ∃ s msg s1, run m ops = .ok s ∧ s.marshal = .ok (msg, s1) ∧ msg.length % 8 = 0 := by
  obtain ⟨s, msg, s1, h1, h2, _, h4⟩ := C06_size m ops hfit
  exact ⟨s, msg, s1, h1, h2, by have := sizes_mod8 _ hr; omega⟩

example : Within 2 [.set 0 (.lnum .i16) [1, 2, 3, 4], .set 1 .str [104, 105]] ∧
    NoRaggeds (specRun 2 [.set 0 (.lnum .i16) [1, 2, 3, 4], .set 1 .str [104, 105]]) := by
  refine ⟨⟨by decide, ?_⟩, ?_⟩
  · simp +decide [WithinFrom, Op.Within, Op.spec, specScalar, STy.isZero, sizes, Val.size, scalarSize,
      List.replicate, STy.Storable, NTy.size]
  · simp +decide [specRun, specOps, Op.spec, specScalar, STy.isZero, List.replicate, NoRaggeds,
      Val.NoRagged, NTy.size]

/-- **C07 (a)** A reader with any other number of fields: common fields are read intact, fields the
writer did not know are unset. The reader also ignores bytes that follow the message.
Missing: final values that are not clean, for which it is false (C11, C14), and messages of 4 GiB and more (false there as well:
`C04_four_gib_field_is_lost`). -/
theorem C07_schema_evolution_partial (m : Nat) (ops : List Op) (tys : List Ty) (after extra : Bytes)
    (hfit : Within m ops) (htidy : Tidies (specRun m ops)) (hty : FieldsHaveTy (specRun m ops) tys) :
    ∃ s msg s1 reader s', run m ops = .ok s ∧ s.marshal = .ok (msg, s1) ∧
      St.new tys.length = .ok reader ∧ reader.unmarshal (msg ++ after) extra = some s' ∧
      (∀ (i : Nat) (ty : Ty), tys[i]? = some ty →
        ty.read s' i = .ok (ty.view (((specRun m ops)[i]?).getD .absent))) ∧
      (∀ (i : Nat) (ty : Ty), tys[i]? = some ty → m ≤ i → ty.read s' i = .ok .absent) := by
  obtain ⟨s0, h0, hr, hl, he, _⟩ := new_rep m
  obtain ⟨s, h1, h2, h3, h4⟩ := tidy_rep m ops hfit htidy hr hl
  have hm := marshal_rep h2 (by rw [h3.enabled, he])
  obtain ⟨t0, ht0, _, htl, _⟩ := new_rep tys.length
  obtain ⟨s', hu, hr', hl', _⟩ := unmarshal_rep h2.wf h2.small 0 (by omega) t0 tys.length htl
    (by intro i hi _; have e := new_eq tys.length; rw [ht0] at e; simp at e; rw [e]; simp [hi])
    after extra
  have hvl : (specOps ops (List.replicate m .absent)).length = m := by
    rw [specOps_length]; simp
  have key : ∀ (i : Nat) (ty : Ty), tys[i]? = some ty →
      ty.read s' i = .ok (ty.view (((specRun m ops)[i]?).getD .absent)) := by
    intro i ty hi
    have := read_val ty hr' h4 (by rw [hvl]; exact hfit.1) i
      (by rw [hl']; exact (List.getElem?_eq_some_iff.mp hi).1) (hty.get i ty hi)
    rw [this, List.getD_eq_getElem?_getD]; rfl
  refine ⟨s, _, _, t0, s', by simp [run, h0, h1], hm, ht0, hu, key, ?_⟩
  intro i ty hi hge
  rw [key i ty hi, List.getElem?_eq_none (by simp only [specRun, hvl]; exact hge)]
  simp [view_absent]

/-- Older reader (2 fields) and newer reader (10 fields) of the 8-field demo message. -/
example := C07_schema_evolution_partial 8 demoOps (demoTys.take 2) [] [] demo_fits.within demo_fits.tidy
  (by rw [demo_spec]; simp [FieldsHaveTy, demoTys, Val.HasTy, ItemsHaveTy])
example := C07_schema_evolution_partial 8 demoOps (demoTys ++ [.scalar .u8, .struct []]) [9] [] demo_fits.within demo_fits.tidy
  (by rw [demo_spec]; simp [FieldsHaveTy, demoTys, Val.HasTy, ItemsHaveTy])

/-- Fields of a longer record. -/
def padVals (m : Nat) (vs : List Val) : List Val := vs ++ List.replicate (m - vs.length) .absent

theorem padTo_encs (m : Nat) (vs : List Val) : padTo m (encs vs 0) = encs (padVals m vs) 0 := by
  have happ : ∀ (a b : List Val) k, encs (a ++ b) k = encs a k ++ encs b (k + a.length) := by
    intro a; induction a with
    | nil => intro b k; simp [encs]
    | cons x a ih => intro b k; simp only [List.cons_append, encs, ih, List.length_cons]; congr 3; omega
  simp [padTo, padVals, happ, encs_replicate]

theorem canons_padVals {vs : List Val} (h : Canons vs) (m : Nat) : Canons (padVals m vs) := by
  have happ : ∀ (a b : List Val), Canons a → Canons b → Canons (a ++ b) := by
    intro a; induction a with
    | nil => intro b _ hb; exact hb
    | cons x a ih => intro b ha hb; exact ⟨ha.1, ih b ha.2 hb⟩
  exact happ _ _ h (canons_replicate _)

theorem Sounds.padVals {vs : List Val} (h : Sounds vs) (m : Nat) : Sounds (padVals m vs) := by
  have happ : ∀ (a b : List Val), Sounds a → Sounds b → Sounds (a ++ b) := by
    intro a; induction a with
    | nil => intro b _ hb; exact hb
    | cons x a ih => intro b ha hb; exact ⟨ha.1, ih b ha.2 hb⟩
  exact happ _ _ h (sounds_replicate _)

/-- **C07 (b)** Forwarding: a reader with fewer (or more) fields decodes a message, edits it with any
program within its own schema, and marshals it again. A third party with the full schema then sees
the edits and, untouched, all the fields the middle party did not know. Values stored on the way by either
party and replaced by the end need not be clean.
Missing: final values that are not clean (C11, C14), and messages of 4 GiB and more. -/
theorem C07_forwarding_keeps_unknown_fields_partial (m m' : Nat) (ops ops' : List Op) (tys : List Ty)
    (extra extra' : Bytes) (hfit : Within m ops) (hm' : m' ≤ 65536)
    (hfit' : WithinFrom m' ops' (padVals m' (specRun m ops)))
    (htidy : Tidies (specOps ops' (padVals m' (specRun m ops))))
    (hty : FieldsHaveTy (specOps ops' (padVals m' (specRun m ops))) tys) :
    ∃ s msg s1 mid mid' mid'' msg' s2 rd s', run m ops = .ok s ∧ s.marshal = .ok (msg, s1) ∧
      St.new m' = .ok mid ∧ mid.unmarshal msg extra = some mid' ∧ runOps ops' mid' = .ok mid'' ∧
      mid''.marshal = .ok (msg', s2) ∧
      St.new tys.length = .ok rd ∧ rd.unmarshal msg' extra' = some s' ∧
      readFields tys s' 0 = .ok (viewFields tys (specOps ops' (padVals m' (specRun m ops)))) := by
  obtain ⟨s0, h0, hr, hl, he, _⟩ := new_rep m
  obtain ⟨s, h1, h2, h3⟩ := ops_within ops hr (by simp [hl]) (by simpa using hfit.1) (by rw [hl]; exact hfit.2)
  have hm := marshal_rep h2 (by rw [h3.enabled, he])
  have hvl : (specRun m ops).length = m := by rw [specRun, specOps_length]; simp
  obtain ⟨t0, ht0, _, htl, hte, _⟩ := new_rep m'
  obtain ⟨u, hu, hur, hul, hue⟩ := unmarshal_rep h2.wf h2.small 0 (by omega) t0 m' htl
    (by intro i hi _; have e := new_eq m'; rw [ht0] at e; simp at e; rw [e]; simp [hi]) [] extra
  rw [List.append_nil] at hu
  rw [padTo_encs] at hur
  have hplen : (padVals m' (specRun m ops)).length ≤ 65536 := by
    have := hfit.1
    simp only [padVals, List.length_append, List.length_replicate, hvl]; omega
  obtain ⟨w, g1, g2, g3⟩ := ops_within ops' hur
    (by rw [hul]; simp only [padVals, List.length_append, List.length_replicate]; omega) hplen
    (by rw [hul]; exact hfit')
  have g4 : Canons (specOps ops' (padVals m' (specRun m ops))) :=
    (ops_sound m' ops' _ ((ops_sound m ops _ (sounds_replicate m) hfit.2).padVals m') hfit').canon htidy
  have hm2 := marshal_rep g2 (by rw [g3.enabled, hue, hte])
  obtain ⟨r0, hr0, _, hrl, _⟩ := new_rep tys.length
  obtain ⟨z, hz, hzr, hzl, _⟩ := unmarshal_rep g2.wf g2.small 0 (by omega) r0 tys.length hrl
    (by intro i hi _; have e := new_eq tys.length; rw [hr0] at e; simp at e; rw [e]; simp [hi]) [] extra'
  rw [List.append_nil] at hz
  have hrd := read_fields tys hzr g4 (by rw [specOps_length]; exact hplen) 0 (by rw [hzl]; omega)
    (by intro j ty hj; rw [Nat.zero_add]; exact hty.get j ty hj)
  refine ⟨s, _, _, t0, u, w, _, _, r0, z, by simp [run, h0, h1], hm, ht0, hu, g1, hm2, hr0, hz, ?_⟩
  rw [hrd, viewFields_eq_map]; simp; rfl

/-- The middle party knows only fields 0 and 1 of the demo message and changes field 0. -/
example : WithinFrom 2 [.set 0 .i32 77] (padVals 2 (specRun 8 demoOps)) ∧
    Tidies (specOps [.set 0 .i32 77] (padVals 2 (specRun 8 demoOps))) ∧
    FieldsHaveTy (specOps [.set 0 .i32 77] (padVals 2 (specRun 8 demoOps))) demoTys := by
  rw [demo_spec]
  refine ⟨?_, ?_, ?_⟩
  · simp +decide [WithinFrom, Op.Within, Op.spec, padVals, specScalar, STy.isZero, sizes, Val.size, scalarSize, STy.Storable,
      itemBytes, itemSizes, NTy.size]
  · simp +decide [specOps, Op.spec, padVals, specScalar, STy.isZero, Tidies, Val.Tidy, ItemsTidy, STy.Clean, STy.Storable, itemBytes, NTy.size]
  · simp +decide [specOps, Op.spec, padVals, specScalar, STy.isZero, FieldsHaveTy, demoTys, Val.HasTy, ItemsHaveTy]

/-- **C20, refuted**: Unmarshal does not replace the contents of a struct that was used before. A
struct had field 0 set; it then receives a message in which only field 1 is set; field 0 should read
as unset but still reads as set (with a value taken from other bytes). -/
theorem C20_unmarshal_keeps_stale_fields :
    ∃ old new msg s1 s', run 2 [.set 0 .u8 5] = .ok old ∧ run 2 [.set 1 .u8 9] = .ok new ∧
      new.marshal = .ok (msg, s1) ∧ old.unmarshal msg [] = some s' ∧
      specRun 2 [.set 1 .u8 9] = [.absent, .scalar .u8 9] ∧
      getUint8 s' 0 = .ok 9 := by
  refine ⟨_, _, _, _, _, rfl, rfl, rfl, rfl, rfl, ?_⟩
  decide +kernel

/-- **C20 (partial)** Unmarshal yields exactly the new message's fields whatever bytes, flags and
IsSet state the struct held before, provided every field that was recorded as present in the old
struct's index is present in the new message (in particular for a new struct, one that was never
read or written, or one reset through the pool). What is missing is false:
`C20_unmarshal_keeps_stale_fields`. -/
theorem C20_unmarshal_replaces_partial (m : Nat) (ops : List Op) (tys : List Ty) (extra : Bytes)
    (hfit : Within m ops) (htidy : Tidies (specRun m ops)) (hlen : tys.length = m) (hty : FieldsHaveTy (specRun m ops) tys)
    (old : St) (hold : old.idx.length = m)
    (hsub : ∀ i : Nat, old.idx[i]? ≠ some Entry.zero → (specRun m ops)[i]? ≠ some .absent) :
    ∃ s msg s1 s', run m ops = .ok s ∧ s.marshal = .ok (msg, s1) ∧
      old.unmarshal msg extra = some s' ∧
      readFields tys s' 0 = .ok (viewFields tys (specRun m ops)) := by
  obtain ⟨s0, h0, hr, hl, he, _⟩ := new_rep m
  obtain ⟨s, h1, h2, h3, h4⟩ := tidy_rep m ops hfit htidy hr hl
  have hvl : (specRun m ops).length = m := by rw [specRun, specOps_length]; simp
  obtain ⟨s', hu, hr', hl', _⟩ := unmarshal_rep h2.wf h2.small 0 (by omega) old m hold
    (by
      intro i hi hb
      apply Classical.byContradiction
      intro hne
      apply hsub i hne
      have hlt : i < (specRun m ops).length := by omega
      rw [blob_encs, Nat.zero_add, List.getD_eq_getElem?_getD] at hb
      have hget : (specOps ops (List.replicate m Val.absent))[i]? = some ((specRun m ops)[i]) :=
        List.getElem?_eq_getElem hlt
      rw [hget] at hb
      simp only [Option.getD_some] at hb
      have : ((specRun m ops)[i]).isAbsent = true := by
        cases hx : ((specRun m ops)[i]).isAbsent with
        | true => rfl
        | false => exact absurd hb (enc_ne_nil hx i)
      rw [List.getElem?_eq_getElem hlt]
      generalize (specRun m ops)[i] = x at this
      cases x <;> simp [Val.isAbsent] at this
      rfl) [] extra
  rw [List.append_nil] at hu
  have e2 := read_fields tys hr' h4 (by simp only [specRun] at hvl; rw [hvl]; exact hfit.1) 0
    (by rw [hl']; omega) (by intro j ty hj; rw [Nat.zero_add]; exact hty.get j ty hj)
  refine ⟨s, _, _, s', by simp [run, h0, h1], marshal_rep h2 (by rw [h3.enabled, he]), hu, ?_⟩
  rw [e2, viewFields_eq_map]; simp [specRun]

/-- A used struct (field 1 present) receiving the demo message, which has field 1. -/
example : ∃ old, run 8 [.set 1 .str [1]] = .ok old ∧ old.idx.length = 8 ∧
    ∀ i : Nat, old.idx[i]? ≠ some Entry.zero → (specRun 8 demoOps)[i]? ≠ some .absent := by
  refine ⟨_, rfl, rfl, ?_⟩
  intro i _
  rw [demo_spec]
  rcases i with _ | _ | _ | _ | _ | _ | _ | _ | i <;> simp

end Claw
