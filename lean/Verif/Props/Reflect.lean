import Verif.Lemmas.Reflect

/-!
# Single values and copying through reflection (C96, C97)
-/

namespace Claw.Refl

open Claw

/-- A struct that a program made has the fields of its record. -/
theorem here_of_run {m : Nat} {ops : List Op} (hfit : Within m ops) (htidy : Tidies (specRun m ops)) :
    ∃ s, run m ops = .ok s ∧ Here 0 (LSt.ofSt s) (specRun m ops) := by
  obtain ⟨s0, h0, hr, hl, hen, _⟩ := new_rep m
  obtain ⟨s, h1, h2, h3, h4⟩ := tidy_rep m ops hfit htidy hr hl
  have hlen : (specRun m ops).length = m := by rw [specRun, specOps_length]; simp
  refine ⟨s, by simp [run, h0, h1], h2, ?_, by rw [hlen]; exact hfit.1, h4, ?_⟩
  · rw [hlen]; exact h3.len.trans hl
  · exact h3.enabled.trans hen

theorem Here.marshal {r : Nat} {L : LSt} {vs : List Val} (h : Here r L vs) :
    L.st.marshal = .ok (hdr r FTStruct (total (encs vs 0)) ++ (encs vs 0).flatten, L.st) := marshal_rep h.rep h.cfg

theorem within_size {m : Nat} : ∀ (ops : List Op) (r : List Val), WithinFrom m ops r → 8 + sizes r < 2 ^ 32 →
    8 + sizes (specOps ops r) < 2 ^ 32
  | [], _, _, h => h
  | _ :: ops, _, hw, _ => within_size ops _ hw.2.2 hw.2.1

theorem within_last {m : Nat} {op : Op} : ∀ (ops : List Op) (r : List Val), WithinFrom m (ops ++ [op]) r →
    WithinFrom m ops r ∧ op.Within m ∧ 8 + sizes (op.spec (specOps ops r)) < 2 ^ 32
  | [], _, h => ⟨trivial, h.1, h.2.1⟩
  | _ :: ops, _, ⟨h1, h2, h3⟩ =>
    let ⟨g1, g2, g3⟩ := within_last ops _ h3
    ⟨⟨h1, h2, g1⟩, g2, g3⟩

/-- What is modelled of Go's float conversions, for the examples. -/
def noConv : Conv := ⟨fun _ => ⟨0⟩, fun _ => ⟨0⟩⟩

/-- A package with an enum group, for the examples. -/
def colours : Group := [⟨txt "Red", 0, 8⟩, ⟨txt "Blue", 1, 8⟩]

/-- A struct type with a string, a number, an enum, a nested struct of another type, a list of strings, a map, an imported enum
of 16 bits, a list of bools; the other type has one number. -/
def exWorld : World where
  maps
    | 0 => [⟨txt "Name", FTString, false, [], [], none⟩, ⟨txt "Age", FTUint32, false, [], [], none⟩,
        ⟨txt "Colour", FTUint8, true, txt "Colours", txt "a/b", none⟩, ⟨txt "Pos", FTStruct, false, [], [], some 1⟩,
        ⟨txt "Tags", FTListStrings, false, [], [], none⟩, ⟨txt "Attrs", FTMap, false, [], [], none⟩,
        ⟨txt "Shade", FTUint16, true, txt "b.Colours", txt "a/b", none⟩, ⟨txt "Flags", FTListBools, false, [], [], none⟩]
    | 1 => [⟨txt "X", FTInt64, false, [], [], none⟩]
    | _ => []
  groups _ := some (fun n => if n = txt "Colours" then some colours else none)

/-! ### C96: single values -/

section

variable (c : Conv) (W : World) (k : Nat)

/-- C96 where it holds: setting a bool, a number, bytes or a string that is not empty through reflection does to the struct what the
generated setter does, whatever the struct. -/
theorem C96_set_partial {t : STy} (ht : isScalar t = true) {fd : RFD} (hft : fd.fd.ft = t.ft) (v : t.Val) (he : Exact c t v)
    (hz : t = .str → v ≠ t.zero) (L : LSt) (st : St) :
    set c L fd (some (ofScalar c t v)) = .ok { L with st := st } ↔ t.set L.st fd.num v = .ok st := by
  rw [set_ofScalar c ht L hft v he hz]
  cases h : t.set L.st fd.num v with
  | ok s =>
    simp only [Res.bind, Res.ok.injEq]
    constructor
    · intro h; injection h
    · rintro rfl; rfl
  | panic => simp [Res.bind]
  | hang => simp [Res.bind]

/-- C96 where it holds: a bool, a number, bytes or a string that a program has set, to a value other than the zero value, is read
through reflection as that value, and `Has` reports it; nothing changes by reading. -/
theorem C96_get_partial {m : Nat} {ops : List Op} (hfit : Within m ops) (htidy : Tidies (specRun m ops)) {fd : RFD}
    (hd : (W.maps k)[fd.num]? = some fd.fd) {t : STy} (ht : isScalar t = true) (hft : fd.fd.ft = t.ft) (hen : fd.fd.isEnum = false)
    {v : t.Val} (hv : (specRun m ops).getD fd.num .absent = .scalar t v) :
    ∃ s L, run m ops = .ok s ∧ getValue c W k (LSt.ofSt s) fd.num = .ok (some (ofScalar c t v), L) ∧
      has (LSt.ofSt s) fd = .ok (true, L) ∧ t.get s fd.num = .ok v ∧ t.get L.st fd.num = .ok v ∧
      (do let (b, _) ← L.marshal; return b) = (do let (b, _) ← s.marshal; return b) := by
  obtain ⟨s, hrun, h⟩ := here_of_run hfit htidy
  refine ⟨s, _, hrun, getValue_scalar c W k h hd ht hft hen hv, ?_, h.get hv, h.parsed.get hv, ?_⟩
  · rw [has_rep h, hv]; rfl
  · have hp := h.parsed.marshal
    have hs : s.marshal = _ := h.marshal
    have hds : (parsedL (LSt.ofSt s) (specRun m ops)).dirtyLists = [] := rfl
    rw [LSt.marshal, hds, LSt.syncAll]
    simp only [Res.ok_bind, hs]
    simp only [hp, Res.ok_bind, Res.pure_eq]

/-- C96 where it holds: a value that is set through reflection is read back, through reflection and with the generated getter. -/
theorem C96_set_get_partial {m : Nat} {ops : List Op} {fd : RFD} {t : STy} (ht : isScalar t = true) {v : t.Val}
    (hfit : Within m (ops ++ [.set fd.num t v])) (htidy : Tidies (specRun m ops)) (hd : (W.maps k)[fd.num]? = some fd.fd)
    (hft : fd.fd.ft = t.ft) (hen : fd.fd.isEnum = false) (he : Exact c t v) (hz : t.isZero v = false) :
    ∃ s L L', run m ops = .ok s ∧ set c (LSt.ofSt s) fd (some (ofScalar c t v)) = .ok L ∧
      getValue c W k L fd.num = .ok (some (ofScalar c t v), L') ∧ has L fd = .ok (true, L') ∧ t.get L.st fd.num = .ok v := by
  obtain ⟨hm, hw⟩ := hfit
  obtain ⟨hw1, hw2, hw3⟩ := within_last ops _ hw
  obtain ⟨s, hrun, h⟩ := here_of_run (ops := ops) ⟨hm, hw1⟩ htidy
  have hlen : (specRun m ops).length = m := by rw [specRun, specOps_length]; simp
  have hfn : fd.num < (specRun m ops).length := by rw [hlen]; exact hw2.1
  have hsp : specScalar t v = .scalar t v := by simp [specScalar, hz]
  have hw3' : 8 + sizes ((specRun m ops).set fd.num (.scalar t v)) < 2 ^ 32 := by
    have := hw3
    simp only [Op.spec, hsp] at this
    exact this
  obtain ⟨st, e1, e2⟩ := set_plain h hfn hz ht hw3'
  have hv : ((specRun m ops).set fd.num (.scalar t v)).getD fd.num .absent = .scalar t v := by
    rw [List.getD_eq_getElem?_getD, List.getElem?_set_self hfn]; rfl
  refine ⟨s, _, _, hrun, ?_, getValue_scalar c W k e2 hd ht hft hen hv, ?_, e2.get hv⟩
  · rw [set_ofScalar c ht _ hft v he ?_, e1]
    intro h1 h2
    subst h1
    rw [h2] at hz
    simp [STy.isZero, STy.zero] at hz
  · rw [has_rep e2, hv]; rfl

-- the name of a struct with an age
example : ∃ s L, run 8 [.set 1 .u32 7, .set 0 .str [66, 111]] = .ok s ∧
    getValue noConv exWorld 0 (LSt.ofSt s) 0 = .ok (some (ofScalar noConv .str [66, 111]), L) := by
  obtain ⟨s, L, h1, h2, -⟩ := C96_get_partial noConv exWorld 0 (m := 8) (ops := [.set 1 .u32 7, .set 0 .str [66, 111]])
    (fd := ⟨⟨txt "Name", FTString, false, [], [], none⟩, 0, none⟩) (t := .str) (v := [66, 111])
    ⟨by decide, ⟨by decide, trivial⟩, by decide, ⟨by decide, trivial⟩, by decide +kernel, trivial⟩
    (by simp [specRun, specOps, Op.spec, specScalar, STy.isZero, Tidies, Val.Tidy, STy.Clean, STy.Storable, List.replicate])
    rfl rfl rfl rfl rfl
  exact ⟨s, L, h1, h2⟩

/-- C96 is violated: `Get` of a field that is not populated is nil, not the default value, so calling a method of it panics. -/
theorem C96_unset_nil {m : Nat} {ops : List Op} (hfit : Within m ops) (htidy : Tidies (specRun m ops)) {i : Nat}
    (hv : (specRun m ops).getD i .absent = .absent) :
    ∃ s L, run m ops = .ok s ∧ getValue c W k (LSt.ofSt s) i = .ok (none, L) ∧ ∀ D fd, set c D fd none = .panic := by
  obtain ⟨s, hrun, h⟩ := here_of_run hfit htidy
  exact ⟨s, _, hrun, getValue_absent c W k h hv, fun _ _ => rfl⟩

-- an age of zero
example : ∃ s L, run 8 [.set 1 .u32 0] = .ok s ∧ getValue noConv exWorld 0 (LSt.ofSt s) 1 = .ok (none, L) := by
  obtain ⟨s, L, h1, h2, -⟩ := C96_unset_nil noConv exWorld 0 (m := 8) (ops := [.set 1 .u32 0]) (i := 1)
    ⟨by decide, ⟨by decide, trivial⟩, by decide, trivial⟩
    (by simp [specRun, specOps, Op.spec, specScalar, STy.isZero, Tidies, Val.Tidy, List.replicate]) rfl
  exact ⟨s, L, h1, h2⟩

/-- C96 is violated: an empty string, or nil bytes, cannot be set through reflection: `Set` panics. -/
theorem C96_empty_panics (L : LSt) (fd : RFD) :
    (fd.fd.ft = FTString → set c L fd (some (ofScalar c .str [])) = .panic) ∧
    (fd.fd.ft = FTBytes → set c L fd (some (ofBytes none)) = .panic) := by
  constructor
  · intro h
    simp [set, ofScalar, Value.any, h, setField, show scalarTy FTString = some .str from rfl, assertTy]
  · intro h
    simp [set, ofBytes, Value.any, h, setField, show scalarTy FTBytes = some .bytes from rfl, assertTy]

example (L : LSt) : set noConv L ⟨⟨txt "Name", FTString, false, [], [], none⟩, 0, none⟩ (some (ofScalar noConv .str [])) = .panic :=
  (C96_empty_panics noConv _ _).1 rfl

/-! ### Enums -/

/-- C96 where it holds: an enum of this package, or of 8 bits of any package, whose number has a name, is read with its name, and
setting what was read does what the generated setter does. -/
theorem C96_enum_partial {m : Nat} {ops : List Op} (hfit : Within m ops) (htidy : Tidies (specRun m ops)) {fd : RFD}
    (hd : (W.maps k)[fd.num]? = some fd.fd) (hen : fd.fd.isEnum = true) {G : Bytes → Option Group} {g : Group} {e : EnumVal}
    (hG : W.groups fd.fd.path = some G) :
    (∀ n : UInt8, fd.fd.ft = FTUint8 → (specRun m ops).getD fd.num .absent = .scalar .u8 n → G (groupName fd.fd.group) = some g →
      byValue g n.toUInt16 = some e → ∃ s v L, run m ops = .ok s ∧ getValue c W k (LSt.ofSt s) fd.num = .ok (some v, L) ∧
        v.enum = .ok (some e) ∧ e.number = n.toUInt16 ∧
        ∀ D st, set c D fd (some v) = .ok { D with st := st } ↔ setUint8 D.st fd.num n = .ok st) ∧
    (∀ n : UInt16, fd.fd.ft = FTUint16 → (specRun m ops).getD fd.num .absent = .scalar .u16 n → G fd.fd.group = some g →
      byValue g n = some e → ∃ s v L, run m ops = .ok s ∧ getValue c W k (LSt.ofSt s) fd.num = .ok (some v, L) ∧
        v.enum = .ok (some e) ∧ e.number = n ∧
        ∀ D st, set c D fd (some v) = .ok { D with st := st } ↔ setUint16 D.st fd.num n = .ok st) := by
  obtain ⟨s, hrun, h⟩ := here_of_run hfit htidy
  have hiff : ∀ (D : LSt) (st : St) (x : Res St), (x.bind fun st => Res.ok { D with st := st }) = .ok { D with st := st } ↔ x = .ok st := by
    intro D st x
    cases x with
    | ok s =>
      simp only [Res.bind, Res.ok.injEq]
      constructor
      · intro h; injection h
      · rintro rfl; rfl
    | panic => simp [Res.bind]
    | hang => simp [Res.bind]
  constructor
  · intro n hft hv hg hby
    refine ⟨s, _, _, hrun, getValue_enum8 c W k h hd hft hen hv hG, ?_, byValue_number hby, fun D st => ?_⟩
    · simp [Value.enum, ofEnum8, hg, hby]
    · rw [hg, set_enum8 c D hft hby]; exact hiff D st _
  · intro n hft hv hg hby
    refine ⟨s, _, _, hrun, getValue_enum16 c W k h hd hft hen hv hG, ?_, byValue_number hby, fun D st => ?_⟩
    · simp [Value.enum, ofEnum16, hg, hby]
    · rw [hg, set_enum16 c D hft hby]; exact hiff D st _

example : ∃ s v L, run 8 [.set 2 .u8 1] = .ok s ∧ getValue noConv exWorld 0 (LSt.ofSt s) 2 = .ok (some v, L) ∧
    v.enum = .ok (some ⟨txt "Blue", 1, 8⟩) := by
  obtain ⟨s, v, L, h1, h2, h3, -⟩ := (C96_enum_partial noConv exWorld 0 (m := 8) (ops := [.set 2 .u8 1])
    (fd := ⟨⟨txt "Colour", FTUint8, true, txt "Colours", txt "a/b", none⟩, 2, some colours⟩)
    (G := fun n => if n = txt "Colours" then some colours else none) (g := colours) (e := ⟨txt "Blue", 1, 8⟩)
    ⟨by decide, ⟨by decide, trivial⟩, by decide, trivial⟩
    (by simp [specRun, specOps, Op.spec, specScalar, STy.isZero, Tidies, Val.Tidy, List.replicate, STy.Clean, STy.Storable])
    rfl rfl rfl).1 1 rfl rfl (by decide +kernel) (by decide +kernel)
  exact ⟨s, v, L, h1, h2, h3⟩

/-- C96 is violated: an enum number without a name is read as a value whose `Enum` is nil and that cannot be set anywhere: `Set`
panics. -/
theorem C96_unnamed_panics {m : Nat} {ops : List Op} (hfit : Within m ops) (htidy : Tidies (specRun m ops)) {fd : RFD}
    (hd : (W.maps k)[fd.num]? = some fd.fd) (hen : fd.fd.isEnum = true) (hft : fd.fd.ft = FTUint8) {G : Bytes → Option Group} {g : Group}
    (hG : W.groups fd.fd.path = some G) (hg : G (groupName fd.fd.group) = some g) {n : UInt8}
    (hv : (specRun m ops).getD fd.num .absent = .scalar .u8 n) (hby : byValue g n.toUInt16 = none) :
    ∃ s v L, run m ops = .ok s ∧ getValue c W k (LSt.ofSt s) fd.num = .ok (some v, L) ∧ v.enum = .ok none ∧
      (∀ D, set c D fd (some v) = .panic) ∧ ∀ sprint fuel, str c W sprint (fuel + 1) v = .panic := by
  obtain ⟨s, hrun, h⟩ := here_of_run hfit htidy
  refine ⟨s, _, _, hrun, getValue_enum8 c W k h hd hft hen hv hG, ?_, fun D => ?_, fun sprint fuel => ?_⟩
  · simp [Value.enum, ofEnum8, hg, hby]
  · simp [set, Value.any, Value.enum, ofEnum8, hg, hby, setField, hft, show scalarTy FTUint8 = some .u8 from rfl, assertTy]
  · simp [str, ofEnum8, Value.enum, hg, hby]

example : ∃ s v L, run 8 [.set 2 .u8 9] = .ok s ∧ getValue noConv exWorld 0 (LSt.ofSt s) 2 = .ok (some v, L) ∧ v.enum = .ok none := by
  obtain ⟨s, v, L, h1, h2, h3, -⟩ := C96_unnamed_panics noConv exWorld 0 (m := 8) (ops := [.set 2 .u8 9])
    (fd := ⟨⟨txt "Colour", FTUint8, true, txt "Colours", txt "a/b", none⟩, 2, some colours⟩)
    (G := fun n => if n = txt "Colours" then some colours else none) (g := colours) (n := 9)
    ⟨by decide, ⟨by decide, trivial⟩, by decide, trivial⟩
    (by simp [specRun, specOps, Op.spec, specScalar, STy.isZero, Tidies, Val.Tidy, List.replicate, STy.Clean, STy.Storable])
    rfl rfl rfl rfl (by decide +kernel) rfl (by decide +kernel)
  exact ⟨s, v, L, h1, h2, h3⟩

/-- C96 is violated: a populated enum field of 16 bits whose group is of another package (`pkg.Group`) is read as a value without a
group: `Enum`, `String` and `Set` with it panic, whatever its number. The groups of a package have no dots in their names. -/
theorem C96_imported_panics {m : Nat} {ops : List Op} (hfit : Within m ops) (htidy : Tidies (specRun m ops)) {fd : RFD}
    (hd : (W.maps k)[fd.num]? = some fd.fd) (hen : fd.fd.isEnum = true) (hft : fd.fd.ft = FTUint16) {G : Bytes → Option Group}
    (hG : W.groups fd.fd.path = some G) (hno : ∀ name g, G name = some g → 46 ∉ name) (himp : 46 ∈ fd.fd.group) {n : UInt16}
    (hv : (specRun m ops).getD fd.num .absent = .scalar .u16 n) :
    ∃ s v L, run m ops = .ok s ∧ getValue c W k (LSt.ofSt s) fd.num = .ok (some v, L) ∧ v.enum = .panic ∧
      (∀ D, set c D fd (some v) = .panic) ∧ ∀ sprint fuel, str c W sprint (fuel + 1) v = .panic := by
  obtain ⟨s, hrun, h⟩ := here_of_run hfit htidy
  have hg : G fd.fd.group = none := by
    cases hg : G fd.fd.group with
    | none => rfl
    | some g => exact absurd himp (hno _ _ hg)
  refine ⟨s, _, _, hrun, getValue_enum16 c W k h hd hft hen hv hG, ?_, fun D => ?_, fun sprint fuel => ?_⟩
  · simp [Value.enum, ofEnum16, hg]
  · simp [set, Value.any, Value.enum, ofEnum16, hg]
  · simp [str, ofEnum16, Value.enum, hg]

example : ∃ s v L, run 8 [.set 6 .u16 1] = .ok s ∧ getValue noConv exWorld 0 (LSt.ofSt s) 6 = .ok (some v, L) ∧ v.enum = .panic := by
  obtain ⟨s, v, L, h1, h2, h3, -⟩ := C96_imported_panics noConv exWorld 0 (m := 8) (ops := [.set 6 .u16 1])
    (fd := ⟨⟨txt "Shade", FTUint16, true, txt "b.Colours", txt "a/b", none⟩, 6, some colours⟩)
    (G := fun n => if n = txt "Colours" then some colours else none) (n := 1)
    ⟨by decide, ⟨by decide, trivial⟩, by decide, trivial⟩
    (by simp [specRun, specOps, Op.spec, specScalar, STy.isZero, Tidies, Val.Tidy, List.replicate, STy.Clean, STy.Storable])
    rfl rfl rfl rfl (fun name g h => by
      split at h
      · rename_i hn; rw [hn]; decide +kernel
      · cases h) (by decide +kernel) rfl
  exact ⟨s, v, L, h1, h2, h3⟩

/-! ### C97: copying field by field -/

/-- C97 where it holds: a struct whose populated fields are plain values, enums that are read with their names and structs of any
content is copied by `New` and then, for every field that `Range` hands on, `Set`: the copy has the same bytes, and the bytes of the
source are what they were. -/
theorem C97_copy_partial {m : Nat} {ops : List Op} (hfit : Within m ops) (htidy : Tidies (specRun m ops)) (hm : m = (W.maps k).length)
    {fds : List RFD} (hds : Describes W k fds) (hcp : ∀ i d, (W.maps k)[i]? = some d → Copyable c W d ((specRun m ops).getD i .absent))
    (gen : Bool) :
    ∃ s n D rs', run m ops = .ok s ∧ newStruct W ⟨LSt.ofSt s, k, fds, gen⟩ = .ok n ∧
      range c W (copyField c) ⟨LSt.ofSt s, k, fds, gen⟩ fds n.s = .ok (D, rs') ∧
      (∃ b x y z, s.marshal = .ok (b, x) ∧ D.marshal = .ok (b, y) ∧ rs'.s.st.marshal = .ok (b, z)) ∧
      ∀ i t v, (specRun m ops).getD i .absent = .scalar t v → t.get D.st i = .ok v := by
  obtain ⟨s, hrun, h⟩ := here_of_run hfit htidy
  have hlen : (specRun m ops).length = m := by rw [specRun, specOps_length]; simp
  have hs : 8 + sizes (specRun m ops) < 2 ^ 32 := within_size ops _ hfit.2 (by rw [sizes_replicate]; decide)
  obtain ⟨s0, h0, hr, hl, hen, _⟩ := new_rep m
  have hD : Here 0 (LSt.ofSt s0) (firstFields (specRun m ops) 0) := by
    have e : firstFields (specRun m ops) 0 = List.replicate m .absent := by simp [firstFields, hlen]
    rw [e]
    refine ⟨hr, by simpa [LSt.ofSt] using hl, by simpa using hfit.1, ?_, hen⟩
    have hc : ∀ n, Canons (List.replicate n .absent) := by
      intro n
      induction n with
      | zero => trivial
      | succ n ih => exact ⟨trivial, ih⟩
    exact hc m
  obtain ⟨st, rs', e1, e2, e3⟩ := copy_all c W hds (hlen.trans hm) hcp hs 0 (Nat.zero_le _) ⟨LSt.ofSt s, k, fds, gen⟩ (LSt.ofSt s0) rfl h hD
  refine ⟨s, ⟨LSt.ofSt s0, k, fds, gen⟩, _, rs', hrun, ?_, e1, ⟨_, _, { LSt.ofSt s0 with st := st }, _, h.marshal, ?_, e3.marshal⟩,
    fun i t v hv => e2.get hv⟩
  · simp [newStruct, ← hm, h0]
  · have hds : ({ LSt.ofSt s0 with st := st } : LSt).dirtyLists = [] := rfl
    have := e2.marshal
    rw [LSt.marshal, hds, LSt.syncAll]
    simp only [Res.ok_bind]
    simp only [this, Res.ok_bind, Res.pure_eq]
    rfl

-- a number, a named enum and a nested struct with a number
example : ∃ s n D rs', run 8 [.set 1 .u32 7, .set 2 .u8 1, .nest 3 1 [.set 0 .i64 5]] = .ok s ∧
    newStruct exWorld ⟨LSt.ofSt s, 0, plainFields exWorld 0, true⟩ = .ok n ∧
    range noConv exWorld (copyField noConv) ⟨LSt.ofSt s, 0, plainFields exWorld 0, true⟩ (plainFields exWorld 0) n.s = .ok (D, rs') ∧
    STy.get .u32 D.st 1 = .ok (7 : UInt32) := by
  have e : specRun 8 [.set 1 .u32 7, .set 2 .u8 1, .nest 3 1 [.set 0 .i64 5]] =
      [.absent, .scalar .u32 (7 : UInt32), .scalar .u8 (1 : UInt8), .struct [.scalar .i64 (5 : Int64)], .absent, .absent, .absent,
        .absent] := by
    simp [specRun, specOps, Op.spec, specScalar, STy.isZero, List.replicate, specStruct, Val.isAbsent]
  obtain ⟨s, n, D, rs', h1, h2, h3, -, h4⟩ := C97_copy_partial noConv exWorld 0 (m := 8)
    (ops := [.set 1 .u32 7, .set 2 .u8 1, .nest 3 1 [.set 0 .i64 5]]) (fds := plainFields exWorld 0)
    ⟨by decide, ⟨by decide, trivial⟩, by decide, ⟨by decide, trivial⟩, by decide,
      ⟨by decide, by decide, ⟨by decide, trivial⟩, by decide, trivial⟩, by decide, trivial⟩
    (by rw [e]; simp [Tidies, Val.Tidy, STy.Clean, STy.Storable]) rfl
    ⟨by simp [plainFields], fun i fd h => by
      simp only [plainFields, List.getElem?_mapIdx, Option.map_eq_some_iff] at h
      obtain ⟨d, h1, rfl⟩ := h
      exact ⟨rfl, h1⟩⟩
    (fun i d h => by
      rw [e]
      match i, h with
      | 0, _ => trivial
      | 1, h =>
        cases h
        exact ⟨rfl, rfl, .inl ⟨rfl, trivial⟩⟩
      | 2, h =>
        cases h
        exact ⟨rfl, rfl, .inr ⟨rfl, _, colours, ⟨txt "Blue", 1, 8⟩, rfl, .inl ⟨1, rfl, by decide +kernel, by decide +kernel⟩⟩⟩
      | 3, h =>
        cases h
        exact ⟨rfl, by decide⟩
      | 4, _ => trivial
      | 5, _ => trivial
      | 6, _ => trivial
      | 7, _ => trivial
      | n + 8, h => cases h) true
  exact ⟨s, n, D, rs', h1, h2, h3, h4 1 .u32 7 (by rw [e]; rfl)⟩

/-- C97 is violated: a struct with a populated list, map or Any field is not copied, whatever the copy has so far: `Get` or `Set`
panics (or the struct itself cannot be read). -/
theorem C97_containers_refused {m : Nat} {ops : List Op} (hfit : Within m ops) (htidy : Tidies (specRun m ops)) {fd : RFD}
    (hd : (W.maps k)[fd.num]? = some fd.fd) (hv : (specRun m ops).getD fd.num .absent ≠ .absent)
    (hsc : scalarTy fd.fd.ft = none) (hst : fd.fd.ft ≠ FTStruct) :
    ∃ s, run m ops = .ok s ∧ ∀ D D',
      ((getValue c W k (LSt.ofSt s) fd.num).bind fun x => copyField c D fd x.1) ≠ .ok D' := by
  obtain ⟨s, hrun, h⟩ := here_of_run hfit htidy
  refine ⟨s, hrun, fun D D' => ?_⟩
  have hl : ∀ l, copyField c D fd (some (ofList l)) = .panic := by
    intro l
    simp [copyField, set, ofList, Value.any, Value.anyOf, FTBool, FTInt8, FTInt16, FTInt32, FTInt64, FTUint8, FTUint16, FTUint32,
      FTUint64, FTFloat32, FTFloat64, FTString, FTBytes, FTListBools]
  have hb : ((specRun m ops).getD fd.num .absent).isAbsent = false := by
    cases hx : (specRun m ops).getD fd.num .absent with
    | absent => exact absurd hx hv
    | _ => rfl
  simp only [getValue, h.hasField, hb, Bool.not_false, Bool.not_true, Res.ok_bind, hd, hsc]
  cases hn : numsTy fd.fd.ft with
  | some q =>
    simp only [Bool.false_eq_true, if_false]
    cases readNums q _ _ <;> simp [Res.bind, hl, Bind.bind]
  | none =>
    simp only [Bool.false_eq_true, if_false, hst]
    split
    · cases readBools _ _ <;> simp [Res.bind, hl, Bind.bind]
    · split
      · simp [Res.bind, hl]
      · split
        · simp [Res.bind, hl]
        · split
          · cases fd.fd.child with
            | none => simp [Res.bind]
            | some q => 
              cases hx : getListStructs (parsedSt (LSt.ofSt s).st (encs (specRun m ops) 0)) fd.num (W.maps q).length <;>
                simp [Res.bind, hl, Bind.bind, hx]
          · simp [Res.bind]

-- a list of strings with one item
example : ∃ s, run 8 [.set 4 .lstr [[66]]] = .ok s ∧ ∀ D D',
    ((getValue noConv exWorld 0 (LSt.ofSt s) 4).bind fun x =>
      copyField noConv D ⟨⟨txt "Tags", FTListStrings, false, [], [], none⟩, 4, none⟩ x.1) ≠ .ok D' :=
  C97_containers_refused noConv exWorld 0 (m := 8) (ops := [.set 4 .lstr [[66]]])
    (fd := ⟨⟨txt "Tags", FTListStrings, false, [], [], none⟩, 4, none⟩)
    ⟨by decide, ⟨by decide, by simp [STy.Storable]⟩, by decide +kernel, trivial⟩
    (by simp [specRun, specOps, Op.spec, specScalar, STy.isZero, Tidies, Val.Tidy, List.replicate, STy.Clean]; decide) rfl
    (by simp [specRun, specOps, Op.spec, specScalar, STy.isZero, List.replicate]) rfl (by decide)

end

end Claw.Refl
