import Verif.Props.ReflectList

/-!
# Clearing, making and printing values through reflection (C99, C100, C101)
-/

namespace Claw.Refl

open Claw

section

variable (c : Conv) (W : World) (k : Nat)

/-! ### C99: Clear -/

theorem scalarTy_isScalar {ft : Nat} {t : STy} (h : scalarTy ft = some t) : isScalar t = true := by
  grind (splits := 20) [scalarTy, isScalar]

theorem ok_of_bind {α β : Type} {x : Res α} {f : α → Res β} {y : β} (h : x.bind f = .ok y) : ∃ a, x = .ok a := by
  cases x with
  | ok a => exact ⟨a, rfl⟩
  | panic => cases h
  | hang => cases h

theorem op_here {r : Nat} {s : St} {vs : List Val} (h : Here r (LSt.ofSt s) vs) {i : Nat} (op : Op) (hw : op.Within vs.length)
    (hsp : op.spec vs = vs.set i .absent) (hs : 8 + sizes (vs.set i .absent) < 2 ^ 32) :
    ∃ s', op.run s = .ok s' ∧ Here r (LSt.ofSt s') (vs.set i .absent) := by
  have hl : s.idx.length = vs.length := h.len
  obtain ⟨s', h1, h2, h3⟩ := ops_within [op] h.rep (by simp [LSt.ofSt, hl]) h.max
    (by simp only [LSt.ofSt, hl]; exact ⟨hw, by rw [hsp]; exact hs, trivial⟩)
  simp only [specOps, hsp] at h2
  refine ⟨s', ?_, h2, ?_, by rw [List.length_set]; exact h.max, h.canon.set _ _ trivial, h3.enabled.trans h.cfg⟩
  · simp only [LSt.ofSt, runOps] at h1
    cases hr : op.run s with
    | ok x => rw [hr] at h1; simpa using h1
    | panic => rw [hr] at h1; cases h1
    | hang => rw [hr] at h1; cases h1
  · rw [List.length_set]; exact h3.len.trans hl

/-- C99 where it holds: `Clear` of a bool, number, enum, string, bytes or struct field gives the struct that the generated
`Clear` of the field gives: `Has` is false, `Get` is nil, the bytes are the same. -/
theorem C99_clear_partial {m : Nat} {ops : List Op} {fd : RFD} (hfit : Within m (ops ++ [.clear fd.num]))
    (htidy : Tidies (specRun m ops)) (hd : scalarTy fd.fd.ft ≠ none ∨ fd.fd.ft = FTStruct) :
    ∃ s L s' b x y, run m ops = .ok s ∧ clear (LSt.ofSt s) fd = .ok L ∧ (∃ L', has L fd = .ok (false, L')) ∧
      (∃ L', getValue c W k L fd.num = .ok (none, L')) ∧
      run m (ops ++ [.clear fd.num]) = .ok s' ∧ s'.marshal = .ok (b, x) ∧ L.marshal = .ok (b, y) := by
  obtain ⟨hw1, hw2, hw3⟩ := within_last ops _ hfit.2
  obtain ⟨s, hrun, h⟩ := here_of_run (ops := ops) ⟨hfit.1, hw1⟩ htidy
  have hlen : (specRun m ops).length = m := by rw [specRun, specOps_length]; simp
  replace hw3 : 8 + sizes ((specRun m ops).set fd.num .absent) < 2 ^ 32 := hw3
  have hw2' : fd.num < (specRun m ops).length := by rw [hlen]; exact hw2
  obtain ⟨s0, i0, i1, i2, i3, -⟩ := new_rep m
  obtain ⟨s1, j1, j2, j3⟩ := ops_within _ i1 (by simp [i2]) (by simpa using hfit.1) (by rw [i2]; exact hfit.2)
  have j4 := marshal_rep j2 (by rw [j3.enabled]; exact i3)
  have hspec : specOps (ops ++ [.clear fd.num]) (List.replicate m .absent) = (specRun m ops).set fd.num .absent := by
    rw [specOps_append]; rfl
  rw [hspec] at j4
  have key : ∃ st, clear (LSt.ofSt s) fd = .ok (LSt.ofSt st) ∧ Here 0 (LSt.ofSt st) ((specRun m ops).set fd.num .absent) := by
    rcases hd with hd | hd
    · cases ht : scalarTy fd.fd.ft with
      | none => exact absurd ht hd
      | some t =>
        have hsc := scalarTy_isScalar ht
        by_cases hstr : t = .str
        · subst hstr
          obtain ⟨st, e1, e2⟩ := op_here h (i := fd.num) (.set fd.num .bytes []) ⟨hw2', trivial⟩ rfl hw3
          refine ⟨st, ?_, e2⟩
          have e1' : setBytes s fd.num [] = .ok st := e1
          simp only [clear, ht]
          simp [LSt.ofSt, e1']
        · obtain ⟨st, e1, e2⟩ := op_here h (i := fd.num) (.set fd.num t t.zero) ⟨hw2', (zero_clean t).storable⟩
            (by simp only [Op.spec, specScalar, isZero_zero, if_true]) hw3
          refine ⟨st, ?_, e2⟩
          have e1' : t.set s fd.num t.zero = .ok st := e1
          have hcl : clear (LSt.ofSt s) fd = (t.set s fd.num t.zero).bind fun st => .ok { LSt.ofSt s with st := st } := by
            simp only [clear, ht]
            cases t <;> first | rfl | exact absurd rfl hstr
          rw [hcl, e1']; rfl
    · obtain ⟨st, e1, e2⟩ := op_here h (i := fd.num) (.nestNil fd.num) hw2' rfl hw3
      refine ⟨st, ?_, e2⟩
      have e1' : setNestedStruct s fd.num none = .ok st := e1
      simp only [clear, hd, show scalarTy FTStruct = none from rfl, if_true]
      simp [LSt.ofSt, e1']
  obtain ⟨st, k1, k2⟩ := key
  have habs : ((specRun m ops).set fd.num .absent).getD fd.num .absent = .absent := by
    rw [List.getD_eq_getElem?_getD, List.getElem?_set_self hw2']; rfl
  have hh := has_rep k2 fd
  rw [habs] at hh
  refine ⟨s, _, s1, _, _, LSt.ofSt st, hrun, k1, ⟨_, hh⟩, ⟨_, getValue_absent c W k k2 habs⟩, by simp [run, i0, j1], j4, ?_⟩
  have hm := k2.marshal
  have hdl : (LSt.ofSt st).dirtyLists = [] := rfl
  rw [LSt.marshal, hdl, LSt.syncAll]
  simp only [Res.ok_bind]
  simp only [hm, Res.ok_bind, Res.pure_eq]
  rfl

-- the age of a struct with a name
example : ∃ s L, run 8 [.set 0 .str [66, 111], .set 1 .u32 7] = .ok s ∧
    clear (LSt.ofSt s) ⟨⟨txt "Age", FTUint32, false, [], [], none⟩, 1, none⟩ = .ok L ∧
    ∃ L', has L ⟨⟨txt "Age", FTUint32, false, [], [], none⟩, 1, none⟩ = .ok (false, L') := by
  obtain ⟨s, L, _, _, _, _, h1, h2, h3, -⟩ := C99_clear_partial noConv exWorld 0 (m := 8) (ops := [.set 0 .str [66, 111], .set 1 .u32 7])
    (fd := ⟨⟨txt "Age", FTUint32, false, [], [], none⟩, 1, none⟩)
    ⟨by decide, ⟨by decide, trivial⟩, by decide +kernel, ⟨by decide, trivial⟩, by decide +kernel, (by decide : 1 < 8), by decide +kernel, trivial⟩
    (by simp [specRun, specOps, Op.spec, specScalar, STy.isZero, Tidies, Val.Tidy, List.replicate, STy.Clean, STy.Storable])
    (.inl (by decide))
  exact ⟨s, L, h1, h2, h3⟩

/-- C99 is violated: `Clear` of a populated list, map or Any field does nothing: the field is still there. -/
theorem C99_others_kept {m : Nat} {ops : List Op} (hfit : Within m ops) (htidy : Tidies (specRun m ops)) {fd : RFD}
    (hsc : scalarTy fd.fd.ft = none) (hst : fd.fd.ft ≠ FTStruct) (hv : (specRun m ops).getD fd.num .absent ≠ .absent) :
    ∃ s L', run m ops = .ok s ∧ clear (LSt.ofSt s) fd = .ok (LSt.ofSt s) ∧ has (LSt.ofSt s) fd = .ok (true, L') := by
  obtain ⟨s, hrun, h⟩ := here_of_run hfit htidy
  have hb : ((specRun m ops).getD fd.num .absent).isAbsent = false := by
    cases hx : (specRun m ops).getD fd.num .absent with
    | absent => exact absurd hx hv
    | _ => rfl
  have hh := has_rep h fd
  rw [hb] at hh
  exact ⟨s, _, hrun, by simp [clear, hsc, hst], hh⟩

example : ∃ s L', run 8 [.set 4 .lstr [[66]]] = .ok s ∧
    clear (LSt.ofSt s) ⟨⟨txt "Tags", FTListStrings, false, [], [], none⟩, 4, none⟩ = .ok (LSt.ofSt s) ∧
    has (LSt.ofSt s) ⟨⟨txt "Tags", FTListStrings, false, [], [], none⟩, 4, none⟩ = .ok (true, L') :=
  C99_others_kept (m := 8) (ops := [.set 4 .lstr [[66]]])
    ⟨by decide, ⟨by decide, by simp [STy.Storable]⟩, by decide +kernel, trivial⟩
    (by simp [specRun, specOps, Op.spec, specScalar, STy.isZero, Tidies, Val.Tidy, List.replicate, STy.Clean]; decide)
    rfl (by decide) (by simp [specRun, specOps, Op.spec, specScalar, STy.isZero, List.replicate])

/-! ### C100: NewField -/

/-- C100 where it holds: for a bool or number field, or an enum field described with its group, whose group has a value 0, the new
value can be set, and this does what the generated setter does with the zero value. -/
theorem C100_plain_partial (r : RStruct) {fd : RFD} {t : STy} (ht : isScalar t = true) (hft : fd.fd.ft = t.ft) (hs : t ≠ .str)
    (hb : t ≠ .bytes) (he : Exact c t t.zero)
    (hen : fd.fd.isEnum = false ∨ (t ≠ .u8 ∧ t ≠ .u16) ∨ ∃ g e, fd.eg = some g ∧ byValue g 0 = some e) :
    ∃ v, newField c W r fd = .ok v ∧ ∀ L st, set c L fd (some v) = .ok { L with st := st } ↔ t.set L.st fd.num t.zero = .ok st := by
  have hiff : ∀ (D : LSt) (st : St) (x : Res St), (x.bind fun st => Res.ok { D with st := st }) = .ok { D with st := st } ↔ x = .ok st := by
    intro D st x
    cases x with
    | ok s =>
      simp only [Res.bind, Res.ok.injEq]
      constructor
      · intro h; injection h
      · rintro rfl; rfl
    | panic => simp [Res.bind]
    | hang => simp [Res.bind]
  by_cases hpl : fd.fd.isEnum = false ∨ (t ≠ .u8 ∧ t ≠ .u16)
  · refine ⟨ofScalar c t t.zero, ?_, fun L st => ?_⟩
    · simp only [newField, hft, scalarTy_ft ht]
      cases t <;> simp only [isScalar, Bool.false_eq_true] at ht <;> first | rfl | exact absurd rfl hs | exact absurd rfl hb | skip
      all_goals
        rcases hpl with h | h
        · simp [h, STy.zero]
        · simp at h
    · rw [set_ofScalar c ht L hft t.zero he (fun h => absurd h hs)]
      exact hiff L st _
  · have hE : fd.fd.isEnum = true := by
      cases h : fd.fd.isEnum with
      | true => rfl
      | false => exact absurd (.inl h) hpl
    have hT : t = .u8 ∨ t = .u16 := by
      apply Classical.byContradiction
      intro hn
      exact hpl (.inr ⟨fun h => hn (.inl h), fun h => hn (.inr h)⟩)
    obtain ⟨g, e, hg, hz⟩ : ∃ g e, fd.eg = some g ∧ byValue g 0 = some e := by
      rcases hen with h | h | h
      · exact absurd (.inl h) hpl
      · exact absurd (.inr h) hpl
      · exact h
    rcases hT with rfl | rfl
    · refine ⟨ofEnum8 0 (some g), by simp [newField, hft, show scalarTy (STy.ft .u8) = some .u8 from rfl, hE, hg], fun L st => ?_⟩
      rw [set_enum8 c L hft (n := 0) hz]
      exact hiff L st _
    · refine ⟨ofEnum16 0 (some g), by simp [newField, hft, show scalarTy (STy.ft .u16) = some .u16 from rfl, hE, hg], fun L st => ?_⟩
      rw [set_enum16 c L hft (n := 0) hz]
      exact hiff L st _

example (r : RStruct) : ∃ v, newField noConv exWorld r ⟨⟨txt "Colour", FTUint8, true, txt "Colours", txt "a/b", none⟩, 2, some colours⟩ = .ok v ∧
    ∀ L st, set noConv L ⟨⟨txt "Colour", FTUint8, true, txt "Colours", txt "a/b", none⟩, 2, some colours⟩ (some v) = .ok { L with st := st } ↔
      STy.set .u8 L.st 2 (0 : UInt8) = .ok st :=
  C100_plain_partial noConv exWorld r (t := .u8) rfl rfl (by decide) (by decide) trivial
    (.inr (.inr ⟨colours, ⟨txt "Red", 0, 8⟩, rfl, by decide +kernel⟩))

/-- C100 is violated: the new value of a string, bytes or list field cannot be set: `Set` with it panics, whatever the struct. -/
theorem C100_unsettable (r : RStruct) {fd : RFD}
    (hft : fd.fd.ft = FTString ∨ fd.fd.ft = FTBytes ∨ (∃ n : NTy, fd.fd.ft = n.ft) ∨ fd.fd.ft = FTListBools ∨ fd.fd.ft = FTListBytes ∨
      fd.fd.ft = FTListStrings ∨ (fd.fd.ft = FTListStructs ∧ r.gen = false)) :
    ∃ v, newField c W r fd = .ok v ∧ ∀ L, set c L fd (some v) = .panic := by
  have hl : ∀ l L, set c L fd (some (ofList l)) = .panic := by
    intro l L
    simp [set, ofList, Value.any, Value.anyOf, FTBool, FTInt8, FTInt16, FTInt32, FTInt64, FTUint8, FTUint16, FTUint32,
      FTUint64, FTFloat32, FTFloat64, FTString, FTBytes, FTListBools]
  rcases hft with h | h | ⟨n, h⟩ | h | h | h | ⟨h, hg⟩
  · exact ⟨ofScalar c .str [], by simp only [newField, h]; rfl, fun L => (C96_empty_panics c L fd).1 h⟩
  · exact ⟨ofBytes none, by simp only [newField, h]; rfl, fun L => (C96_empty_panics c L fd).2 h⟩
  · exact ⟨ofList (.nums n []), by simp only [newField, h, scalarTy_nums, numsTy_ft], hl _⟩
  · exact ⟨_, by simp only [newField, h]; rfl, hl (.bools [])⟩
  · exact ⟨_, by simp only [newField, h]; rfl, hl (.bytes [])⟩
  · exact ⟨_, by simp only [newField, h]; rfl, hl (.strs [])⟩
  · exact ⟨_, by simp only [newField, h, hg]; rfl, hl (.structs r.m [])⟩

example (r : RStruct) : ∃ v, newField noConv exWorld r ⟨⟨txt "Name", FTString, false, [], [], none⟩, 0, none⟩ = .ok v ∧
    ∀ L, set noConv L ⟨⟨txt "Name", FTString, false, [], [], none⟩, 0, none⟩ (some v) = .panic := C100_unsettable noConv exWorld r (.inl rfl)

/-- C100 is violated: `NewField` panics for a map or Any field, for a struct list field of a generated struct, and for an
enum field of a struct that was reached through a field, as its description has no groups. -/
theorem C100_panics (r : RStruct) {fd : RFD}
    (hft : fd.fd.ft = FTMap ∨ fd.fd.ft = FTAny ∨ fd.fd.ft = FTListAny ∨ (fd.fd.ft = FTListStructs ∧ r.gen = true) ∨
      (fd ∈ plainFields W k ∧ fd.fd.isEnum = true ∧ (fd.fd.ft = FTUint8 ∨ fd.fd.ft = FTUint16))) :
    newField c W r fd = .panic := by
  rcases hft with h | h | h | ⟨h, hg⟩ | ⟨hm, he, h | h⟩
  · simp only [newField, h]; rfl
  · simp only [newField, h]; rfl
  · simp only [newField, h]; rfl
  · simp only [newField, h, hg]; rfl
  all_goals
    have hn : fd.eg = none := by
      rw [List.mem_iff_getElem?] at hm
      obtain ⟨i, hi⟩ := hm
      simp only [plainFields, List.getElem?_mapIdx, Option.map_eq_some_iff] at hi
      obtain ⟨d, -, rfl⟩ := hi
      rfl
    simp only [newField, h, he, hn]; rfl

example (r : RStruct) : newField noConv exWorld r ⟨⟨txt "Attrs", FTMap, false, [], [], none⟩, 5, none⟩ = .panic :=
  C100_panics noConv exWorld 0 r (.inl rfl)

/-- C100 is violated: the new value of a struct field is a struct of the type of the struct that has the field, not of the type of the
field. -/
theorem C100_wrong_type (r : RStruct) {fd : RFD} (hft : fd.fd.ft = FTStruct) {q : Nat}
    (_hq : fd.fd.child = some q) (hne : q ≠ r.m) :
    ∃ n, newField c W r fd = .ok (ofStruct n) ∧ n.m = r.m ∧ n.m ≠ q ∧ n.s.st.idx.length = (W.maps r.m).length := by
  obtain ⟨s, h0, hr, hl, _⟩ := new_rep (W.maps r.m).length
  refine ⟨{ r with s := LSt.ofSt s }, ?_, rfl, fun h => hne h.symm, hl⟩
  simp only [newField, hft, show scalarTy FTStruct = none from rfl, show numsTy FTStruct = none from rfl, if_true, newStruct, h0]
  rfl

example (s : LSt) : ∃ n, newField noConv exWorld ⟨s, 0, plainFields exWorld 0, true⟩ ⟨⟨txt "Pos", FTStruct, false, [], [], some 1⟩, 3, none⟩ =
    .ok (ofStruct n) ∧ n.m = 0 ∧ n.m ≠ 1 ∧ n.s.st.idx.length = 8 :=
  C100_wrong_type noConv exWorld ⟨s, 0, plainFields exWorld 0, true⟩ (fd := ⟨⟨txt "Pos", FTStruct, false, [], [], some 1⟩, 3, none⟩) rfl
    (q := 1) rfl (show 1 ≠ 0 by decide)

/-! ### C101: String -/

/-- C101 where it holds: bools, numbers, bytes that are not nil and strings print, a string as itself, an enum with a name as its
name, an invalid value as such. -/
theorem C101_plain_partial (sprint : GoAny → Bytes) (fuel : Nat) :
    (∀ (t : STy) (v : t.Val), isScalar t = true → Exact c t v → t ≠ .str → str c W sprint (fuel + 1) (ofScalar c t v) = .ok (sprint (.scalar t v))) ∧
    (∀ v, str c W sprint (fuel + 1) (ofScalar c .str v) = .ok v) ∧
    (∀ (n : UInt8) (g : Group) (e : EnumVal), byValue g n.toUInt16 = some e → str c W sprint (fuel + 1) (ofEnum8 n (some g)) = .ok e.name) ∧
    (∀ (n : UInt16) (g : Group) (e : EnumVal), byValue g n = some e → str c W sprint (fuel + 1) (ofEnum16 n (some g)) = .ok e.name) ∧
    str c W sprint (fuel + 1) {} = .ok (txt "<invalid Value>") := by
  refine ⟨fun t v ht he hs => ?_, fun v => ?_, fun n g e h => ?_, fun n g e h => ?_, rfl⟩
  · have ha := any_ofScalar c ht v he (fun h => absurd h hs)
    have hx : ∀ (x : Value) (a : GoAny), x.isEnum = false → x.ft ≠ 0 → x.ft ≠ FTString → x.ft ≠ FTStruct → x.any c = .ok a →
        str c W sprint (fuel + 1) x = .ok (sprint a) := by
      intro x a h1 h2 h3 h4 h5
      simp [str, h1, h2, h3, h4, h5]
    cases t <;> simp only [isScalar, Bool.false_eq_true] at ht <;>
      first
      | exact absurd rfl hs
      | exact hx _ _ rfl (show (_ : Nat) ≠ _ from by simp only [ofScalar, ofBytes]; decide) (by simp only [ofScalar, ofBytes]; decide)
          (by simp only [ofScalar, ofBytes]; decide) ha
  · simp [str, ofScalar, FTString]
  · simp [str, ofEnum8, Value.enum, h, FTUint8]
  · simp [str, ofEnum16, Value.enum, h, FTUint16]

example (sprint : GoAny → Bytes) : str noConv exWorld sprint 1 (ofEnum8 1 (some colours)) = .ok (txt "Blue") :=
  (C101_plain_partial noConv exWorld sprint 0).2.2.1 1 colours ⟨txt "Blue", 1, 8⟩ (by decide +kernel)

/-- C101 is violated: printing a list panics, whatever is in it. -/
theorem C101_list_panics (sprint : GoAny → Bytes) (fuel : Nat) (l : RList) : str c W sprint (fuel + 1) (ofList l) = .panic := by
  simp [str, ofList, Value.any, Value.anyOf, FTBool, FTInt8, FTInt16, FTInt32, FTInt64, FTUint8, FTUint16, FTUint32,
    FTUint64, FTFloat32, FTFloat64, FTString, FTBytes, FTListBools, FTStruct]

theorem getValue_here {r : Nat} {L L' : LSt} {vs : List Val} (h : Here r L vs) {i : Nat} {v : Option Value}
    (hg : getValue c W k L i = .ok (v, L')) : Here r L' vs := by
  have hp : ∀ q t x, Here r (newList (parsedL L vs) q t x) vs := fun q t x =>
    ⟨h.parsed.rep, h.parsed.len, h.parsed.max, h.parsed.canon, h.parsed.cfg⟩
  have hz := h.parsed
  have hb : ∀ {α : Type} (x : Res α) (f : α → Res (Option Value × LSt)), (x.bind f) = .ok (v, L') → ∃ a, f a = .ok (v, L') := by
    intro α x f hx
    cases x with
    | ok a => exact ⟨a, hx⟩
    | panic => cases hx
    | hang => cases hx
  have hend : ∀ w, (Res.ok (w, parsedL L vs) : Res (Option Value × LSt)) = .ok (v, L') → Here r L' vs := by
    intro w hx
    injection hx with hx
    injection hx with _ hx
    rw [← hx]; exact hz
  have henl : ∀ w q t x, (Res.ok (w, newList (parsedL L vs) q t x) : Res (Option Value × LSt)) = .ok (v, L') → Here r L' vs := by
    intro w q t x hx
    injection hx with hx
    injection hx with _ hx
    rw [← hx]; exact hp _ _ _
  simp only [getValue, h.hasField, Res.ok_bind] at hg
  split at hg
  · exact hend _ hg
  · split at hg
    · cases hg
    · rename_i d hd
      split at hg
      · obtain ⟨n, hg⟩ := hb _ _ hg
        split at hg
        · obtain ⟨g, hg⟩ := hb _ _ hg
          exact hend _ hg
        · exact hend _ hg
      · obtain ⟨n, hg⟩ := hb _ _ hg
        split at hg
        · obtain ⟨g, hg⟩ := hb _ _ hg
          exact hend _ hg
        · exact hend _ hg
      · obtain ⟨n, hg⟩ := hb _ _ hg
        exact hend _ hg
      · obtain ⟨n, hg⟩ := hb _ _ hg
        exact hend _ hg
      · split at hg
        · rename_i q _
          obtain ⟨⟨l, L1⟩, hg⟩ : ∃ a, readNums q (parsedL L vs) i = .ok a ∧ Res.ok (some (ofList (.nums q a.1)), a.2) = .ok (v, L') := by
            cases hx : readNums q (parsedL L vs) i with
            | ok a =>
              simp only [parsedL] at hx
              rw [hx] at hg
              exact ⟨a, rfl, hg⟩
            | panic => simp only [parsedL] at hx; rw [hx] at hg; cases hg
            | hang => simp only [parsedL] at hx; rw [hx] at hg; cases hg
          obtain ⟨h1, h2⟩ := hg
          injection h2 with h2
          injection h2 with _ h2
          simp only [readNums] at h1
          cases hy : STy.getList (.lnum q) (parsedL L vs).st i with
          | ok a =>
            rw [hy] at h1
            simp only [Res.ok_bind, Res.pure_eq] at h1
            injection h1 with h1
            injection h1 with _ h1
            rw [← h2, ← h1]
            exact hp _ _ _
          | panic => rw [hy] at h1; cases h1
          | hang => rw [hy] at h1; cases h1
        · split at hg
          · split at hg
            · cases hg
            · obtain ⟨n, hg⟩ := hb _ _ hg
              split at hg <;> exact hend _ hg
          · split at hg
            · obtain ⟨n, hg⟩ := hb _ _ hg
              exact hend _ hg
            · split at hg
              · exact henl _ _ _ _ hg
              · split at hg
                · exact henl _ _ _ _ hg
                · split at hg
                  · split at hg
                    · cases hg
                    · obtain ⟨n, hg⟩ := hb _ _ hg
                      exact hend _ hg
                  · cases hg

/-- C101 is violated: printing a struct with a field that is not populated never succeeds, in any order of the fields. -/
theorem C101_unset_fails {m : Nat} {ops : List Op} (hfit : Within m ops) (htidy : Tidies (specRun m ops)) {fds : List RFD} {fd : RFD}
    (hfd : fd ∈ fds) (hv : (specRun m ops).getD fd.num .absent = .absent) (sprint : GoAny → Bytes) (fuel : Nat) (gen : Bool) :
    ∃ s, run m ops = .ok s ∧ ∀ b, str c W sprint fuel (ofStruct ⟨LSt.ofSt s, k, fds, gen⟩) ≠ .ok b := by
  obtain ⟨s, hrun, h⟩ := here_of_run hfit htidy
  refine ⟨s, hrun, fun b => ?_⟩
  cases fuel with
  | zero => simp [str]
  | succ fuel =>
    have key : ∀ (f : Bytes → RFD → Option Value → Res Bytes), (∀ a d, f a d none = .panic) → ∀ (fds : List RFD), fd ∈ fds →
        ∀ (r : RStruct) (a : Bytes) (y : Bytes × RStruct), Here 0 r.s (specRun m ops) → range c W f r fds a ≠ .ok y := by
      intro f hf fds
      induction fds with
      | nil => intro h; cases h
      | cons d fds ih =>
        intro hmem r a y hr he
        simp only [range, get] at he
        cases hg : getValue c W r.m r.s d.num with
        | panic => rw [hg] at he; cases he
        | hang => rw [hg] at he; cases he
        | ok p =>
          obtain ⟨v, L'⟩ := p
          rw [hg] at he
          simp only [Res.ok_bind, Res.pure_eq] at he
          rcases List.mem_cons.mp hmem with rfl | hmem
          · rw [getValue_absent c W _ hr hv] at hg
            injection hg with hg
            injection hg with hg _
            rw [← hg, hf] at he
            cases he
          · cases hx : f a d v with
            | panic => rw [hx] at he; cases he
            | hang => rw [hx] at he; cases he
            | ok a' =>
              rw [hx] at he
              simp only [Res.ok_bind] at he
              exact ih hmem _ _ _ (getValue_here c W _ hr hg) he
    intro he
    simp only [str, ofStruct, show (FTStruct = FTString) = False from by decide, show (FTStruct = 0) = False from by decide] at he
    simp only [decide_false, Bool.false_and, Bool.false_eq_true, if_false, if_true] at he
    obtain ⟨p, hr⟩ := ok_of_bind he
    exact key _ (fun _ _ => rfl) fds hfd _ _ _ h hr

-- a struct with a name only
example (sprint : GoAny → Bytes) : ∃ s, run 8 [.set 0 .str [66, 111]] = .ok s ∧
    ∀ b, str noConv exWorld sprint 10 (ofStruct ⟨LSt.ofSt s, 0, plainFields exWorld 0, true⟩) ≠ .ok b :=
  C101_unset_fails noConv exWorld 0 (m := 8) (ops := [.set 0 .str [66, 111]])
    (fd := ⟨⟨txt "Age", FTUint32, false, [], [], none⟩, 1, none⟩)
    ⟨by decide, ⟨by decide, trivial⟩, by decide +kernel, trivial⟩
    (by simp [specRun, specOps, Op.spec, specScalar, STy.isZero, Tidies, Val.Tidy, List.replicate, STy.Clean, STy.Storable])
    (by simp [plainFields, exWorld, List.mapIdx, List.mapIdx.go]) (by simp [specRun, specOps, Op.spec, specScalar, STy.isZero, List.replicate])
    sprint 10 true

end

end Claw.Refl
