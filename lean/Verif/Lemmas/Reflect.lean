import Verif.Model.Reflect
import Verif.Lemmas.ListCache
import Verif.Lemmas.Within

/-!
# Lemmas on reflection
-/

namespace Claw.Refl

/-- The types of single values. -/
def isScalar : STy → Bool
  | .bool | .i8 | .i16 | .i32 | .i64 | .u8 | .u16 | .u32 | .u64 | .f32 | .f64 | .bytes | .str => true
  | _ => false

theorem scalarTy_ft {t : STy} (h : isScalar t = true) : scalarTy t.ft = some t := by
  cases t <;> first | rfl | simp [isScalar] at h

theorem scalarTy_of_list {t : STy} (h : isScalar t = false) : scalarTy t.ft = none := by
  cases t
  case lnum k => cases k <;> rfl
  all_goals first | rfl | simp [isScalar] at h

theorem clean_of_scalar {t : STy} (h : isScalar t = true) (v : t.Val) : t.Clean v := by
  cases t <;> first | exact trivial | simp [isScalar] at h

/-- float32 values go through float64 unharmed: true of all but NaN payloads. -/
def Exact (c : Conv) : (t : STy) → t.Val → Prop
  | .f32, v => c.narrow (c.widen v) = v
  | _, _ => True

/-- What `Any` makes of a value from a constructor. -/
theorem any_ofScalar (c : Conv) {t : STy} (hs : isScalar t = true) (v : t.Val) (he : Exact c t v)
    (hz : t = .str → v ≠ t.zero) : (ofScalar c t v).any c = .ok (.scalar t v) := by
  cases t <;> simp only [isScalar, Bool.false_eq_true] at hs
  case str =>
    have : (List.isEmpty v) = false := by
      cases v with
      | nil => exact absurd rfl (hz rfl)
      | cons a v => rfl
    simp [ofScalar, Value.any, Value.anyOf, this, FTBool, FTInt8, FTInt16, FTInt32, FTInt64, FTUint8, FTUint16, FTUint32, FTUint64,
      FTFloat32, FTFloat64, FTString]
  case f32 =>
    simp only [Exact] at he
    simp [ofScalar, Value.any, Value.anyOf, FTBool, FTInt8, FTInt16, FTInt32, FTInt64, FTUint8, FTUint16, FTUint32, FTUint64,
      FTFloat32, he]
  all_goals simp [ofScalar, ofBytes, Value.any, Value.anyOf, FTBool, FTInt8, FTInt16, FTInt32, FTInt64, FTUint8, FTUint16, FTUint32,
    FTUint64, FTFloat32, FTFloat64, FTString, FTBytes]

/-- `SetField` of a value of the type of the field is the setter. -/
theorem setField_scalar {t : STy} (hs : isScalar t = true) (s : St) (fn : Nat) (v : t.Val) :
    setField s fn t.ft (.scalar t v) = t.set s fn v := by
  cases t <;> simp only [isScalar, Bool.false_eq_true] at hs <;>
    simp [setField, assertTy, scalarTy, STy.ft, FTBool, FTInt8, FTInt16, FTInt32, FTInt64, FTUint8, FTUint16, FTUint32,
      FTUint64, FTFloat32, FTFloat64, FTString, FTBytes]

theorem set_ofScalar (c : Conv) {t : STy} (hs : isScalar t = true) (L : LSt) {fd : RFD} (hft : fd.fd.ft = t.ft) (v : t.Val)
    (he : Exact c t v) (hz : t = .str → v ≠ t.zero) :
    set c L fd (some (ofScalar c t v)) = (t.set L.st fd.num v).bind fun st => .ok { L with st := st } := by
  simp only [set, any_ofScalar c hs v he hz, Res.ok_bind, hft, setField_scalar hs]
  rfl

/-- A struct with the fields of a record. -/
structure Here (r : Nat) (L : LSt) (vs : List Val) : Prop where
  rep : Rep r L.st (encs vs 0)
  len : L.st.idx.length = vs.length
  max : vs.length ≤ 65536
  canon : Canons vs
  cfg : L.st.isSetEnabled = false

/-- The struct after lazy parsing. -/
def parsedSt (s : St) (fs : List Bytes) : St := { s with idx := idxOf s.idx.length fs, parsed := true }

def parsedL (L : LSt) (vs : List Val) : LSt := { L with st := parsedSt L.st (encs vs 0) }

theorem Here.parsed {r : Nat} {L : LSt} {vs : List Val} (h : Here r L vs) : Here r (parsedL L vs) vs :=
  ⟨h.rep.parsed, by simpa [parsedL, parsedSt] using h.len, h.max, h.canon, h.cfg⟩

theorem Here.size {r : Nat} {L : LSt} {vs : List Val} (h : Here r L vs) (i : Nat) : (vs.getD i .absent).size < 2 ^ 32 := by
  have h1 := sizes_ge vs i
  have h2 := h.rep.small
  rw [total_encs] at h2
  omega

theorem Here.blob {r : Nat} {L : LSt} {vs : List Val} (_ : Here r L vs) (i : Nat) :
    Claw.blob (encs vs 0) i = (vs.getD i .absent).enc i := by
  rw [blob_encs, Nat.zero_add]

theorem Here.hasField {r : Nat} {L : LSt} {vs : List Val} (h : Here r L vs) (i : Nat) :
    L.st.hasField i = .ok (!(vs.getD i .absent).isAbsent, parsedSt L.st (encs vs 0)) := by
  rw [St.hasField, h.rep.ensure]
  simp only [Res.ok_bind, idxOf_getElem?]
  have hb := h.blob i
  have hsz := h.size i
  by_cases hi : i < L.st.idx.length
  · simp only [hi, if_true]
    have hlen : (Claw.blob (encs vs 0) i).length = (vs.getD i .absent).size := by rw [hb, enc_length]
    cases hv : vs.getD i .absent with
    | absent =>
      rw [hv] at hb
      simp [entryOf, hb, Val.enc, Entry.zero, Val.isAbsent, parsedSt]
    | _ =>
      have hcan := h.canon.get i
      have hpos : 8 ≤ (vs.getD i .absent).size := by
        rw [hv] at hcan ⊢
        simp only [Val.size]
        first
        | omega
        | (rename_i t v; cases t <;> simp only [scalarSize] <;> first | omega | (cases v <;> simp only [scalarSize] <;> omega))
      have hne : Claw.blob (encs vs 0) i ≠ [] := by
        intro e
        rw [e] at hlen
        simp only [List.length_nil] at hlen
        omega
      simp only [Entry.size, entryOf, hne, if_false, hlen, Val.isAbsent, Bool.not_false, parsedSt]
      rw [show decide ((vs.getD i .absent).size > 0) = true from decide_eq_true (by omega)]
      rfl
  · have : vs.getD i .absent = .absent := by
      rw [List.getD_eq_getElem?_getD, List.getElem?_eq_none (by have := h.len; omega)]; rfl
    simp only [hi, this, Val.isAbsent, parsedSt, if_false, Bool.not_true]
    rfl

theorem has_rep {r : Nat} {L : LSt} {vs : List Val} (h : Here r L vs) (fd : RFD) :
    has L fd = .ok (!(vs.getD fd.num .absent).isAbsent, parsedL L vs) := by
  simp [has, h.hasField, parsedL]

/-- The getter of a field that is set. -/
theorem Here.get {r : Nat} {L : LSt} {vs : List Val} (h : Here r L vs) {i : Nat} {t : STy} {v : t.Val}
    (hv : vs.getD i .absent = .scalar t v) : t.get L.st i = .ok v := by
  have hcan := h.canon.get i
  have hsz := h.size i
  have hi : i < vs.length := by
    apply Classical.byContradiction
    intro hn
    rw [List.getD_eq_getElem?_getD, List.getElem?_eq_none (by omega)] at hv
    cases hv
  rw [hv] at hcan hsz
  have hm := h.max
  refine get_scalar h.rep t v (by rw [h.len]; exact hi) (by omega) hcan.1 hsz hcan.2 ?_
  rw [h.blob, hv]
  rfl

theorem getValue_absent (c : Conv) (W : World) (m : Nat) {r : Nat} {L : LSt} {vs : List Val} (h : Here r L vs) {i : Nat}
    (hv : vs.getD i .absent = .absent) : getValue c W m L i = .ok (none, parsedL L vs) := by
  simp only [getValue, h.hasField, hv, Val.isAbsent, parsedL, Res.ok_bind, Bool.not_true, Bool.not_false, if_true]
  rfl

/-- A plain field that is set. -/
theorem getValue_scalar (c : Conv) (W : World) (m : Nat) {r : Nat} {L : LSt} {vs : List Val} (h : Here r L vs) {i : Nat}
    {d : FD} (hd : (W.maps m)[i]? = some d) {t : STy} (ht : isScalar t = true) (hft : d.ft = t.ft) (hen : d.isEnum = false)
    {v : t.Val} (hv : vs.getD i .absent = .scalar t v) :
    getValue c W m L i = .ok (some (ofScalar c t v), parsedL L vs) := by
  have hg := h.parsed.get hv
  simp only [parsedL] at hg
  have hcan := h.canon.get i
  rw [hv] at hcan
  simp only [getValue, h.hasField, hv, Val.isAbsent, Bool.not_false, Bool.not_true, Res.ok_bind, hd, hft, scalarTy_ft ht, hen]
  have hz := hcan.1
  cases t <;> simp only [isScalar, Bool.false_eq_true] at ht <;> simp only [STy.get] at hg <;>
    simp [hg, parsedL, ofScalar, STy.get]
  case bytes =>
    simp [STy.isZero] at hz
    simp [hz]

/-! ### Enums -/

theorem byValue_number {g : Group} {n : UInt16} {e : EnumVal} (h : byValue g n = some e) : e.number = n := by
  induction g with
  | nil => cases h
  | cons a g ih =>
    rw [byValue] at h
    split at h
    · cases h; assumption
    · exact ih h

theorem getValue_enum8 (c : Conv) (W : World) (m : Nat) {r : Nat} {L : LSt} {vs : List Val} (h : Here r L vs) {i : Nat}
    {d : FD} (hd : (W.maps m)[i]? = some d) (hft : d.ft = FTUint8) (hen : d.isEnum = true) {n : UInt8}
    (hv : vs.getD i .absent = .scalar .u8 n) {G : Bytes → Option Group} (hG : W.groups d.path = some G) :
    getValue c W m L i = .ok (some (ofEnum8 n (G (groupName d.group))), parsedL L vs) := by
  have hg := h.parsed.get hv
  simp only [parsedL, STy.get] at hg
  simp only [getValue, h.hasField, hv, Val.isAbsent, Bool.not_false, Bool.not_true, Res.ok_bind, hd, hft,
    show scalarTy FTUint8 = some .u8 from rfl, hen]
  simp [hg, lookup, hG, parsedL]

theorem getValue_enum16 (c : Conv) (W : World) (m : Nat) {r : Nat} {L : LSt} {vs : List Val} (h : Here r L vs) {i : Nat}
    {d : FD} (hd : (W.maps m)[i]? = some d) (hft : d.ft = FTUint16) (hen : d.isEnum = true) {n : UInt16}
    (hv : vs.getD i .absent = .scalar .u16 n) {G : Bytes → Option Group} (hG : W.groups d.path = some G) :
    getValue c W m L i = .ok (some (ofEnum16 n (G d.group)), parsedL L vs) := by
  have hg := h.parsed.get hv
  simp only [parsedL, STy.get] at hg
  simp only [getValue, h.hasField, hv, Val.isAbsent, Bool.not_false, Bool.not_true, Res.ok_bind, hd, hft,
    show scalarTy FTUint16 = some .u16 from rfl, hen]
  simp [hg, lookup, hG, parsedL]

theorem set_enum8 (c : Conv) (L : LSt) {fd : RFD} (hft : fd.fd.ft = FTUint8) {n : UInt8} {g : Group} {e : EnumVal}
    (h : byValue g n.toUInt16 = some e) :
    set c L fd (some (ofEnum8 n (some g))) = (setUint8 L.st fd.num n).bind fun st => .ok { L with st := st } := by
  have hn := byValue_number h
  simp only [set, Value.any, Value.enum, ofEnum8]
  simp only [show n.toUInt64.toUInt16 = n.toUInt16 by simp, h, Bool.not_true, Bool.false_and, if_true, Res.ok_bind, hft, setField,
    show scalarTy FTUint8 = some .u8 from rfl, Bool.false_eq_true, if_false]
  simp [hn]
  rfl

theorem set_enum16 (c : Conv) (L : LSt) {fd : RFD} (hft : fd.fd.ft = FTUint16) {n : UInt16} {g : Group} {e : EnumVal}
    (h : byValue g n = some e) :
    set c L fd (some (ofEnum16 n (some g))) = (setUint16 L.st fd.num n).bind fun st => .ok { L with st := st } := by
  have hn := byValue_number h
  simp only [set, Value.any, Value.enum, ofEnum16]
  simp only [show n.toUInt64.toUInt16 = n by simp, h, Bool.not_true, Bool.false_and, if_true, Res.ok_bind, hft, setField,
    show scalarTy FTUint16 = some .u16 from rfl, Bool.false_eq_true, if_false]
  simp [hn]
  rfl

/-! ### Nested structs -/

theorem getValue_struct (c : Conv) (W : World) (m : Nat) {r : Nat} {L : LSt} {vs : List Val} (h : Here r L vs) {i : Nat}
    {d : FD} (hd : (W.maps m)[i]? = some d) (hft : d.ft = FTStruct) {k : Nat} (hk : d.child = some k) {ws : List Val}
    (hv : vs.getD i .absent = .struct ws) :
    ∃ ch, getValue c W m L i = .ok (some (ofStruct ⟨LSt.ofSt ch, k, plainFields W k, false⟩), parsedL L vs) ∧
      Rep i ch (padTo (W.maps k).length (encs ws 0)) ∧ ch.idx.length = (W.maps k).length := by
  have hcan := h.canon.get i
  have hsz := h.size i
  have hi : i < vs.length := by
    apply Classical.byContradiction
    intro hn
    rw [List.getD_eq_getElem?_getD, List.getElem?_eq_none (by omega)] at hv
    cases hv
  rw [hv] at hcan hsz
  simp only [Val.size] at hsz
  obtain ⟨ch, e1, e2, e3⟩ := getNested_present h.parsed.rep (i := i) (W.maps k).length (gs := encs ws 0)
    (by rw [h.parsed.len]; exact hi) (by rw [h.blob, hv]; rfl) (encs_wf ws hcan.1 (by omega) hcan.2.2)
  refine ⟨ch, ?_, e2, e3⟩
  simp only [parsedL] at e1
  simp only [getValue, h.hasField, hv, Val.isAbsent, Bool.not_false, Bool.not_true, Res.ok_bind, hd, hft,
    show scalarTy FTStruct = none from rfl, show numsTy FTStruct = none from rfl, hk, if_true, e1, parsedL, Bool.false_eq_true, if_false]
  rfl

theorem set_struct (c : Conv) {r : Nat} {D : LSt} {us : List Val} (h : Here r D us) {fd : RFD} (hft : fd.fd.ft = FTStruct)
    (hfn : fd.num < us.length) {q : Nat} {ch : St} {n : Nat} {ws : List Val} (hc : Rep q ch (padTo n (encs ws 0)))
    (hws : (Val.struct ws).Canon) (hs : 8 + sizes (us.set fd.num (.struct ws)) < 2 ^ 32) (k : Nat) (fds : List RFD) (b : Bool) :
    ∃ st, set c D fd (some (ofStruct ⟨LSt.ofSt ch, k, fds, b⟩)) = .ok { D with st := st } ∧
      Here r { D with st := st } (us.set fd.num (.struct ws)) := by
  have hd := hc.data
  rw [total_padTo, padTo_flatten] at hd
  have hsm := hc.small
  rw [total_padTo] at hsm
  obtain ⟨st, e1, e2, e3, -⟩ := store_rep h.rep (by rw [h.len]; exact Nat.le_refl _) h.max fd.num (by rw [h.len]; exact hfn) (.struct ws)
    hws.stored ch.seg.data hs _ (fun _ => rfl)
  refine ⟨st, ?_, e2, by rw [e3.len, List.length_set]; exact h.len, by rw [List.length_set]; exact h.max,
    h.canon.set _ _ hws, by rw [e3.enabled]; exact h.cfg⟩
  have hlen : decide (ch.seg.data.length ≤ HeaderSize) = (Val.struct ws).isAbsent := by
    have hne : sizes ws ≠ 0 := by
      intro h0
      rw [sizes_eq_zero] at h0
      rw [hws.2.1] at h0
      cases h0
    rw [hd]
    simp only [Val.isAbsent, HeaderSize, List.length_append, hdr_length, encs_flatten_length, decide_eq_false_iff_not]
    omega
  have hb : nestedBlob fd.num ch.seg.data = some ((Val.struct ws).enc fd.num) := by
    rw [hd, nestedBlob_eq _ _ _ _ (by simp only [total] at hsm; omega)]
    rfl
  have hset : setNestedStruct D.st fd.num (some ch) = .ok st := by
    rw [setNestedStruct, hlen, hb]
    exact e1
  simp only [set, Value.any, ofStruct, hft, setField, show scalarTy FTStruct = none from rfl, LSt.ofSt]
  simp [hset, LSt.syncAll]

/-! ### Copying -/

/-- The value of the field can be carried over: a plain value, a number with a name in an enum group that is found, a struct. -/
def Copyable (c : Conv) (W : World) (d : FD) : Val → Prop
  | .absent => True
  | .scalar t v => isScalar t = true ∧ d.ft = t.ft ∧
      ((d.isEnum = false ∧ Exact c t v) ∨
       (d.isEnum = true ∧ ∃ G g e, W.groups d.path = some G ∧
          ((∃ n : UInt8, Val.scalar t v = .scalar .u8 n ∧ G (groupName d.group) = some g ∧ byValue g n.toUInt16 = some e) ∨
           (∃ n : UInt16, Val.scalar t v = .scalar .u16 n ∧ G d.group = some g ∧ byValue g n = some e))))
  | .struct _ => d.ft = FTStruct ∧ d.child ≠ none
  | .structs _ => False

theorem set_plain {r : Nat} {D : LSt} {us : List Val} (h : Here r D us) {i : Nat} (hi : i < us.length) {t : STy} {v : t.Val}
    (hz : t.isZero v = false) (ht : isScalar t = true) (hs : 8 + sizes (us.set i (.scalar t v)) < 2 ^ 32) :
    ∃ st, ((t.set D.st i v).bind fun st => .ok { D with st := st }) = .ok { D with st := st } ∧
      Here r { D with st := st } (us.set i (.scalar t v)) := by
  have hc := clean_of_scalar ht v
  have hsp : specScalar t v = .scalar t v := by simp [specScalar, hz]
  obtain ⟨st, e1, e2, e3⟩ := set_rep h.rep (by rw [h.len]; exact Nat.le_refl _) h.max i (by rw [h.len]; exact hi) t v hc.storable
    (by rw [hsp]; exact hs)
  rw [hsp] at e2
  exact ⟨st, by rw [e1]; rfl, e2, by rw [e3.len, List.length_set]; exact h.len, by rw [List.length_set]; exact h.max,
    h.canon.set _ _ ⟨hz, hc⟩, by rw [e3.enabled]; exact h.cfg⟩

/-- What a client does with each field. -/
def copyField (c : Conv) (D : LSt) (fd : RFD) : Option Value → Res LSt
  | none => .ok D
  | some v => set c D fd (some v)

theorem copy_step (c : Conv) (W : World) (m : Nat) {r q : Nat} {L D : LSt} {vs us : List Val} (h : Here r L vs) (hD : Here q D us)
    {fd : RFD} (hd : (W.maps m)[fd.num]? = some fd.fd) (hfn : fd.num < us.length)
    (hcp : Copyable c W fd.fd (vs.getD fd.num .absent)) (hab : us.getD fd.num .absent = .absent)
    (hs : 8 + sizes (us.set fd.num (vs.getD fd.num .absent)) < 2 ^ 32) :
    ∃ v st, getValue c W m L fd.num = .ok (v, parsedL L vs) ∧ copyField c D fd v = .ok { D with st := st } ∧
      Here q { D with st := st } (us.set fd.num (vs.getD fd.num .absent)) := by
  have hcan := h.canon.get fd.num
  cases hv : vs.getD fd.num .absent with
  | absent =>
    refine ⟨none, D.st, getValue_absent c W m h hv, rfl, ?_⟩
    have : us.set fd.num .absent = us := by
      apply List.ext_getElem?
      intro j
      by_cases hj : j = fd.num
      · subst hj
        rw [List.getElem?_set_self hfn]
        rw [List.getD_eq_getElem?_getD, List.getElem?_eq_getElem hfn] at hab
        rw [List.getElem?_eq_getElem hfn]
        simpa using hab.symm
      · rw [List.getElem?_set_ne (Ne.symm hj)]
    rw [this]
    exact hD
  | scalar t v =>
    rw [hv] at hcp hs hcan
    obtain ⟨ht, hft, hk⟩ := hcp
    obtain ⟨st, e1, e2⟩ := set_plain hD hfn hcan.1 ht hs
    rcases hk with ⟨hen, hex⟩ | ⟨hen, G, g, e, hG, hk⟩
    · refine ⟨_, st, getValue_scalar c W m h hd ht hft hen hv, ?_, e2⟩
      rw [copyField, set_ofScalar c ht D hft v hex ?_, e1]
      intro h1 h2
      subst h1
      rw [h2] at hcan
      simp [STy.isZero, STy.zero, Val.Canon] at hcan
    · rcases hk with ⟨n, hn, hg, hby⟩ | ⟨n, hn, hg, hby⟩
      · cases hn
        refine ⟨_, st, getValue_enum8 c W m h hd hft hen hv hG, ?_, e2⟩
        rw [copyField, hg, set_enum8 c D hft hby]
        exact e1
      · cases hn
        refine ⟨_, st, getValue_enum16 c W m h hd hft hen hv hG, ?_, e2⟩
        rw [copyField, hg, set_enum16 c D hft hby]
        exact e1
  | struct ws =>
    rw [hv] at hcp hs hcan
    obtain ⟨hft, hk⟩ := hcp
    obtain ⟨k, hk⟩ := Option.ne_none_iff_exists'.1 hk
    obtain ⟨ch, e1, e2, e3⟩ := getValue_struct c W m h hd hft hk hv
    obtain ⟨st, f1, f2⟩ := set_struct c hD hft hfn e2 hcan hs k (plainFields W k) false
    exact ⟨_, st, e1, f1, f2⟩
  | structs items =>
    rw [hv] at hcp
    exact absurd hcp id

/-- The fields of a struct type as described: each once, in order. -/
def Describes (W : World) (m : Nat) (fds : List RFD) : Prop :=
  fds.length = (W.maps m).length ∧ ∀ (i : Nat) (fd : RFD), fds[i]? = some fd → fd.num = i ∧ (W.maps m)[i]? = some fd.fd

/-- The first `j` fields of a record. -/
def firstFields (vs : List Val) (j : Nat) : List Val := vs.take j ++ List.replicate (vs.length - j) .absent

theorem sizes_append (a b : List Val) : sizes (a ++ b) = sizes a + sizes b := by
  induction a with
  | nil => simp [sizes]
  | cons v a ih => simp only [List.cons_append, sizes, ih]; omega

theorem sizes_replicate (n : Nat) : sizes (List.replicate n .absent) = 0 := by
  induction n with
  | zero => rfl
  | succ n ih => simp [List.replicate_succ, sizes, Val.size, ih]

theorem firstFields_size (vs : List Val) (j : Nat) : sizes (firstFields vs j) ≤ sizes vs := by
  have := sizes_append (vs.take j) (vs.drop j)
  rw [List.take_append_drop] at this
  rw [firstFields, sizes_append, sizes_replicate]
  omega

theorem firstFields_succ (vs : List Val) {j : Nat} (hj : j < vs.length) :
    (firstFields vs j).set j (vs.getD j .absent) = firstFields vs (j + 1) := by
  have hlen : (vs.take j).length = j := by rw [List.length_take]; omega
  rw [firstFields, firstFields, List.set_append_right _ _ (by omega), hlen, Nat.sub_self,
    show vs.length - j = (vs.length - (j + 1)) + 1 by omega, List.replicate_succ, List.set_cons_zero,
    List.take_succ, List.append_assoc, List.getD_eq_getElem?_getD, List.getElem?_eq_getElem hj]
  rfl

theorem copy_all (c : Conv) (W : World) {r q : Nat} {vs : List Val} {fds : List RFD} {m : Nat} (hds : Describes W m fds)
    (hlen : vs.length = (W.maps m).length) (hcp : ∀ i d, (W.maps m)[i]? = some d → Copyable c W d (vs.getD i .absent))
    (hs : 8 + sizes vs < 2 ^ 32) :
    ∀ (j : Nat), j ≤ fds.length → ∀ (rs : RStruct) (D : LSt), rs.m = m → Here r rs.s vs → Here q D (firstFields vs j) →
    ∃ st rs', range c W (copyField c) rs (fds.drop j) D = .ok ({ D with st := st }, rs') ∧
      Here q { D with st := st } vs ∧ Here r rs'.s vs := by
  intro j hj
  generalize hn : fds.length - j = n
  induction n generalizing j with
  | zero =>
    intro rs D _ h hD
    have : firstFields vs j = vs := by
      have hl : vs.length ≤ j := by have := hds.1; omega
      simp [firstFields, List.take_of_length_le hl, Nat.sub_eq_zero_of_le hl]
    rw [this] at hD
    exact ⟨D.st, rs, by rw [List.drop_of_length_le (by omega)]; rfl, hD, h⟩
  | succ n ih =>
    intro rs D hm h hD
    have hj' : j < fds.length := by omega
    have hjv : j < vs.length := by rw [hlen, ← hds.1]; exact hj'
    obtain ⟨hnum, hfd⟩ := hds.2 j fds[j] (List.getElem?_eq_getElem hj')
    have hfl : (firstFields vs j).length = vs.length := by simp [firstFields]; omega
    have hab : (firstFields vs j).getD j .absent = .absent := by
      rw [firstFields, List.getD_eq_getElem?_getD, List.getElem?_append_right (by rw [List.length_take]; omega),
        List.getElem?_replicate]
      split <;> rfl
    have hsucc := firstFields_succ vs hjv
    rw [hm.symm] at hfd
    obtain ⟨v, st, e1, e2, e3⟩ := copy_step c W rs.m (fd := fds[j]) h hD (by rw [hnum]; exact hfd) (by rw [hnum, hfl]; exact hjv)
      (by rw [hnum]; exact hcp j _ (by rw [← hm]; exact hfd)) (by rw [hnum]; exact hab)
      (by
        rw [hnum, hsucc]
        have := firstFields_size vs (j + 1)
        omega)
    rw [hnum, hsucc] at e3
    obtain ⟨st', rs', f1, f2, f3⟩ := ih (j + 1) (by omega) (by omega) { rs with s := parsedL rs.s vs } { D with st := st } hm h.parsed e3
    refine ⟨st', rs', ?_, f2, f3⟩
    rw [List.drop_eq_getElem_cons hj', range, get, e1]
    simp only [Res.ok_bind, Res.pure_eq, e2]
    exact f1

end Claw.Refl
