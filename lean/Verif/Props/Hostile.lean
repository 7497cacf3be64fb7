import Verif.Lemmas.Hostile
import Verif.Lemmas.MapDecode
import Verif.Lemmas.Record

/-!
# C08: decoding arbitrary bytes

The property (never hangs, never panics) is false; the two refutations come first, then an exact
description of when decoding hangs and a sufficient condition, on the bytes alone, under which every
getter of every schema returns.
-/

namespace Claw

/-- 8 bytes of root header, then a struct-typed field that declares size 0. -/
def hangMsg : Bytes := [0, 0, 14, 16, 0, 0, 0, 0,  0, 0, 14, 0, 0, 0, 0, 0]

/-- **C08, refuted (hang)**: Unmarshal accepts these 16 bytes and the first getter called afterwards
never returns (it is iterated for ever, `parse_hang_iff`). -/
theorem C08_hangs : ∃ fresh s, St.new 1 = .ok fresh ∧ fresh.unmarshal hangMsg [] = some s ∧
    getBool s 0 = .hang ∧ ∀ n, ∃ st, parseIter hangMsg n (8, s.idx) = some st := by
  refine ⟨_, _, rfl, rfl, ?_, ?_⟩
  · decide +kernel
  · apply (parse_hang_iff hangMsg 8 _).mp
    decide +kernel

/-- A string field that declares 200 bytes of which none is there. -/
def panicMsg : Bytes := [0, 0, 14, 16, 0, 0, 0, 0,  0, 0, 12, 200, 0, 0, 0, 0]

/-- **C08, refuted (panic)**: Unmarshal accepts these 16 bytes and `GetString` panics. -/
theorem C08_panics : ∃ fresh s, St.new 1 = .ok fresh ∧ fresh.unmarshal panicMsg [] = some s ∧
    getBytes s 0 = .panic := by
  refine ⟨_, _, rfl, rfl, ?_⟩
  decide +kernel

/-- **C08, refuted (over-read)**: with spare capacity behind the received message the same field
returns bytes that are not part of the message (here the caller's bytes 7, 7, …). -/
theorem C08_reads_beyond_message : ∃ fresh s, St.new 1 = .ok fresh ∧
    fresh.unmarshal panicMsg (List.replicate 200 7) = some s ∧
    getBytes s 0 = .ok (List.replicate 200 7) := by
  refine ⟨_, _, rfl, rfl, ?_⟩
  decide +kernel

/-- Unmarshal never hangs or panics: it is a total function (`Option` is Go's error), and it accepts
exactly the byte strings whose first 8 bytes are a struct header with a size that is present. -/
theorem C08_unmarshal_accepts (s : St) (msg extra : Bytes) :
    (∃ s', s.unmarshal msg extra = some s') ↔
      ∃ fn f, decodeHeader msg = some (fn, 14, f) ∧ f ≤ msg.length := by
  unfold St.unmarshal
  by_cases h8 : msg.length < HeaderSize
  · rw [if_pos h8]
    constructor
    · rintro ⟨_, h⟩; simp at h
    · rintro ⟨fn, f, h, _⟩
      exfalso
      have : decodeHeader msg = none := by
        unfold decodeHeader
        rcases msg with _ | ⟨_, _ | ⟨_, _ | ⟨_, _ | ⟨_, _ | ⟨_, _ | ⟨_, _ | ⟨_, _ | ⟨_, _⟩⟩⟩⟩⟩⟩⟩⟩ <;>
          first | rfl | (simp only [List.length_cons, HeaderSize] at h8; omega)
      rw [this] at h; simp at h
  · rw [if_neg h8]
    simp only [HeaderSize, Nat.not_lt] at h8
    rw [HeaderSize, decodeHeader_take8 _ h8]
    cases hd : decodeHeader msg with
    | none => simp
    | some t =>
      obtain ⟨fn, ft, f⟩ := t
      simp only [Option.some.injEq, Prod.mk.injEq]
      by_cases hft : ft = 14
      · subst hft
        by_cases hf : f ≤ msg.length
        · rw [if_neg (by decide), if_neg (by omega)]
          exact ⟨fun _ => ⟨fn, f, ⟨rfl, rfl, rfl⟩, hf⟩, fun _ => ⟨_, rfl⟩⟩
        · rw [if_neg (by decide), if_pos (by omega)]
          constructor
          · rintro ⟨_, h⟩; simp at h
          · rintro ⟨_, _, ⟨_, _, rfl⟩, h⟩; exact absurd h hf
      · rw [if_pos hft]
        constructor
        · rintro ⟨_, h⟩; simp at h
        · rintro ⟨_, _, ⟨_, h, _⟩, _⟩; exact absurd h hft

example : (∃ s', St.unmarshal ⟨⟨[], []⟩, [], false, false, none, false, []⟩ hangMsg [] = some s') :=
  (C08_unmarshal_accepts _ _ _).mpr ⟨0, 16, by decide +kernel, by decide⟩

theorem unmarshal_decoded {fresh s : St} {m : Nat} {msg extra : Bytes} (hn : St.new m = .ok fresh)
    (h : fresh.unmarshal msg extra = some s) :
    ∃ fn f, decodeHeader msg = some (fn, 14, f) ∧ f ≤ msg.length ∧
      s.seg = ⟨msg.take f, msg.drop f ++ extra⟩ ∧ s.idx = List.replicate m Entry.zero ∧
      s.parsed = false ∧ Decoded (msg.take f) s := by
  obtain ⟨fn, f, hd, hf⟩ := (C08_unmarshal_accepts fresh msg extra).mp ⟨s, h⟩
  have h8 : 8 ≤ msg.length := by
    apply Classical.byContradiction
    intro hc
    unfold St.unmarshal at h
    rw [if_pos (by simp only [HeaderSize]; omega)] at h
    simp at h
  unfold St.unmarshal at h
  rw [if_neg (by simp only [HeaderSize]; omega), HeaderSize, decodeHeader_take8 _ h8, hd] at h
  simp only at h
  rw [if_neg (by decide), if_neg (by omega)] at h
  have e := new_eq m
  rw [hn] at e
  simp only [Res.ok.injEq] at e
  simp only [Option.some.injEq] at h
  subst h
  refine ⟨fn, f, hd, hf, rfl, by rw [e], rfl, rfl, ?_⟩
  rw [e]
  exact EntriesOK.replicate _ _

/-- **C08, exact**: after a successful Unmarshal, the first access hangs exactly when walking the
message field by field meets a struct, list or map header that declares size 0. -/
theorem C08_hangs_exactly (m : Nat) (msg extra : Bytes) (fresh s : St) (hn : St.new m = .ok fresh)
    (hu : fresh.unmarshal msg extra = some s) (fn f : Nat) (hd : decodeHeader msg = some (fn, 14, f)) :
    s.ensure = .hang ↔ ∃ p fn ft g, Reach (msg.take f) p ∧ FieldHdr (msg.take f) p fn ft g ∧
      DeclaresNothing ft g := by
  obtain ⟨fn', f', hd', _, hseg, hidx, hp, hdec⟩ := unmarshal_decoded hn hu
  rw [hd] at hd'
  simp only [Option.some.injEq, Prod.mk.injEq, true_and] at hd'
  obtain ⟨_, rfl⟩ := hd'
  have hst : Stuck (msg.take f) ↔ ∃ p fn ft g, Reach (msg.take f) p ∧ FieldHdr (msg.take f) p fn ft g ∧
      DeclaresNothing ft g := by
    constructor
    · rintro ⟨p, a, b, c, h1, h2, h3⟩; exact ⟨p, a, b, c, h1, h2, (extent_zero_iff _ _ _).mp h3⟩
    · rintro ⟨p, a, b, c, h1, h2, h3⟩; exact ⟨p, a, b, c, h1, h2, (extent_zero_iff _ _ _).mpr h3⟩
  rw [← hst]
  constructor
  · intro h
    apply Classical.byContradiction
    intro hns
    obtain ⟨s', h', _⟩ := hdec.ensure hns
    rw [h] at h'; simp at h'
  · exact hdec.ensure_hang hp

example : ∃ p fn ft g, Reach (hangMsg.take 16) p ∧ FieldHdr (hangMsg.take 16) p fn ft g ∧
    DeclaresNothing ft g :=
  ⟨8, 0, 14, 0, .start, ⟨by decide, by decide +kernel, by decide⟩, Or.inl ⟨Or.inl rfl, rfl⟩⟩

/-- The number of bytes of a map key at the start of `d`. -/
def KTy.keyLen : KTy → Bytes → Option Nat
  | .bool, d => if d.length < 1 then none else some 1
  | .num k, d => if d.length < k.size then none else some k.size
  | .str, d =>
    if d.length < 4 + getLE (d.take 4) then none else some (4 + getLE (d.take 4))

/-- `item` is a struct value met on the walk over the entries `d` of a map. -/
inductive MapStructAt (kt : KTy) : Bytes → Bytes → Prop
  | here {d : Bytes} {n fn ft sz : Nat} : kt.keyLen d = some n →
      decodeHeader (d.drop n) = some (fn, ft, sz) → 8 ≤ sz → sz ≤ (d.drop n).length →
      MapStructAt kt d ((d.drop n).take sz)
  | later {d item : Bytes} {n fn ft sz : Nat} : kt.keyLen d = some n →
      decodeHeader (d.drop n) = some (fn, ft, sz) → 8 ≤ sz → sz ≤ (d.drop n).length →
      MapStructAt kt (d.drop (n + sz)) item → MapStructAt kt d item

/-- The field at `p`, whose header declares type `ft` and value `f`, is all there as far as a getter
of type `t` looks: 64-bit numbers need a word; strings and bytes the declared length; lists, maps and
Any the extent of the field, and within it all declared items. Structs in a map are not stuck. -/
def STy.Inside (data : Bytes) (p ft f : Nat) : STy → Prop
  | .i64 | .u64 | .f64 => p + 16 ≤ data.length
  | .bytes | .str => p + 8 + f ≤ data.length
  | .lbool => p + extent (data.drop p) ft f ≤ data.length ∧
      (8 ≤ extent (data.drop p) ft f → 8 + (f + 7) / 8 ≤ extent (data.drop p) ft f)
  | .lnum _ => p + extent (data.drop p) ft f ≤ data.length ∧
      (8 ≤ extent (data.drop p) ft f → 8 ≤ f ∧ p + f ≤ data.length)
  | .lstr | .lbytes => p + extent (data.drop p) ft f ≤ data.length
  | .any | .lany => p + extent (data.drop p) ft f ≤ data.length
  | .map kt (.struct _) => p + extent (data.drop p) ft f ≤ data.length ∧
      ∀ item, MapStructAt kt (slice data (p + 8) (p + extent (data.drop p) ft f)) item → ¬ Stuck item
  | .map _ _ => p + extent (data.drop p) ft f ≤ data.length
  | _ => True

/-- `item` is one of the structs met when walking over the items of a struct list. -/
inductive ItemAt : Bytes → Bytes → Prop
  | here {rest : Bytes} {n f : Nat} : 8 ≤ rest.length → decodeHeader rest = some (n, 14, f) → 8 ≤ f →
      f ≤ rest.length → ItemAt rest (rest.take f)
  | later {rest item : Bytes} {n f : Nat} : 8 ≤ rest.length → decodeHeader rest = some (n, 14, f) →
      8 ≤ f → f ≤ rest.length → ItemAt (rest.drop f) item → ItemAt rest item

mutual
/-- The fields numbered `i` of `data` are all there, as far as a getter of type `ty` looks. -/
def Ty.Sane : Ty → Bytes → Nat → Prop
  | .scalar t, data, i => ∀ p ft f, Reach data p → FieldHdr data p i ft f → t.Inside data p ft f
  | .struct tys, data, i => ∀ p ft f, Reach data p → FieldHdr data p i ft f →
      p + extent (data.drop p) ft f ≤ data.length ∧
      ¬ Stuck (slice data p (p + extent (data.drop p) ft f)) ∧
      FieldsSane tys (slice data p (p + extent (data.drop p) ft f)) 0
  | .structs tys, data, i => ∀ p ft f, Reach data p → FieldHdr data p i ft f →
      p + extent (data.drop p) ft f ≤ data.length ∧
      ∀ item, ItemAt (slice data (p + 8) (p + extent (data.drop p) ft f)) item →
        ¬ Stuck item ∧ FieldsSane tys item 0
/-- The same for the fields numbered `i`, `i+1`, … -/
def FieldsSane : List Ty → Bytes → Nat → Prop
  | [], _, _ => True
  | ty :: tys, data, i => ty.Sane data i ∧ FieldsSane tys data (i + 1)
end

theorem unpackBools_returns (d : Bytes) : ∀ (n i : Nat), 8 + (i + n + 7) / 8 ≤ d.length →
    ∃ v, unpackBools d i n = .ok v := by
  intro n
  induction n with
  | zero => intro i _; exact ⟨[], rfl⟩
  | succ n ih =>
    intro i h
    obtain ⟨v, hv⟩ := ih (i + 1) (by rw [show i + 1 + n = i + (n + 1) by omega]; exact h)
    have hlt : 8 + i / 8 < d.length := by omega
    simp only [unpackBools, List.getElem?_eq_getElem hlt, hv, Res.ok_bind]
    exact ⟨_, rfl⟩

theorem nums_slice_returns (k : NTy) (n : Nums) (h : n.len * k.size ≤ n.data.length) :
    ∃ v, n.slice k = .ok v := by
  suffices H : ∀ c i, i + c = n.len → ∃ v, n.sliceFrom k i c = .ok v from H n.len 0 (by simp)
  intro c
  induction c with
  | zero => intro i _; exact ⟨[], rfl⟩
  | succ c ih =>
    intro i hi
    obtain ⟨v, hv⟩ := ih (i + 1) (by omega)
    have hmul : (i + 1) * k.size ≤ n.len * k.size := Nat.mul_le_mul_right _ (by omega)
    rw [Nat.add_mul] at hmul
    have hg : n.get k i = .ok (k.ofBits (getLE ((n.data.drop (i * k.size)).take k.size))) := by
      simp only [Nums.get]
      rw [if_neg (by omega), if_neg (by simp; omega)]
    simp only [Nums.sliceFrom, hg, hv, Res.ok_bind]
    exact ⟨_, rfl⟩

theorem parseStructs_returns (tys : List Ty) (m : Nat) (extra : Bytes)
    (hread : ∀ (d : Bytes) (s : St), Decoded d s → ¬ Stuck d → d.length < 2 ^ 32 → FieldsSane tys d 0 →
      ∃ vs, readFields tys s 0 = .ok vs) :
    ∀ (fuel : Nat) (rest : Bytes), rest.length < 2 ^ 32 →
      (∀ item, ItemAt rest item → ¬ Stuck item ∧ FieldsSane tys item 0) →
      ∃ cs, parseStructsF m extra fuel rest = .ok cs ∧
        ∃ vs, mapRes (fun c => readFields tys c 0) cs = .ok vs := by
  intro fuel
  induction fuel with
  | zero => intro rest _ _; exact ⟨[], rfl, [], rfl⟩
  | succ fuel ih =>
    intro rest hl hs
    simp only [parseStructsF, HeaderSize]
    split
    · rename_i h8
      cases hd : decodeHeader rest with
      | none => exact ⟨[], rfl, [], rfl⟩
      | some t =>
        obtain ⟨n, ft, f⟩ := t
        simp only
        split
        · exact ⟨[], rfl, [], rfl⟩
        · rename_i hft
          split
          · exact ⟨[], rfl, [], rfl⟩
          · rename_i hsz
            have hft' : ft = 14 := by
              apply Classical.byContradiction; intro h; exact hft h
            subst hft'
            have hf8 : 8 ≤ f := by omega
            have hfl : f ≤ rest.length := by omega
            obtain ⟨hst, hfs⟩ := hs _ (ItemAt.here h8 hd hf8 hfl)
            obtain ⟨cs, hcs, vs, hvs⟩ := ih (rest.drop f) (by simp; omega)
              (fun item hi => hs item (ItemAt.later h8 hd hf8 hfl hi))
            simp only [St.parseFieldIndex, HeaderSize]
            cases hp : parseLoop 8 ((rest.take f).drop 8) (List.replicate m Entry.zero) with
            | hang => exact absurd ((parse_hang_iff_stuck _ _).mp hp) hst
            | panic => exact absurd hp (parseLoop_ne_panic _ _ _)
            | ok out =>
              have hent := (parse_entries _ _ 8 _ out rfl .start (EntriesOK.replicate _ _) hp).1
              obtain ⟨ws, hws⟩ := hread (rest.take f)
                ⟨⟨rest.take f, rest.drop f ++ extra⟩, out, false, false, none, false, []⟩ ⟨rfl, hent⟩ hst
                (by simp; omega) hfs
              simp only [Res.ok_bind, Res.pure_eq, hcs]
              exact ⟨_, rfl, _, by simp only [mapRes, hws, hvs, Res.ok_bind]; rfl⟩
    · exact ⟨[], rfl, [], rfl⟩

theorem KTy.decode_keyLen (kt : KTy) {d : Bytes} {k : kt.Val} {n : Nat} (h : kt.decode d = some (k, n)) :
    kt.keyLen d = some n := by
  cases kt
  case bool => cases d <;> simp [KTy.decode, decodeBool] at h; simp [KTy.keyLen, h.2]
  case num w =>
    simp only [KTy.decode, decodeNum] at h
    simp only [KTy.keyLen]
    by_cases h1 : d.length = 0
    · rw [if_pos h1] at h; simp at h
    · by_cases h2 : d.length < w.size
      · rw [if_neg h1, if_pos h2] at h; simp at h
      · rw [if_neg h1, if_neg h2] at h
        rw [if_neg h2]
        simp only [Option.some.injEq, Prod.mk.injEq] at h
        rw [h.2]
  case str =>
    simp only [KTy.decode, decodeText] at h
    simp only [KTy.keyLen]
    by_cases h1 : d.length = 0
    · rw [if_pos h1] at h; simp at h
    · by_cases h2 : d.length < 4
      · rw [if_neg h1, if_pos h2] at h; simp at h
      · by_cases h3 : d.length < 4 + getLE (d.take 4)
        · rw [if_neg h1, if_neg h2, if_pos h3] at h; simp at h
        · rw [if_neg h1, if_neg h2, if_neg h3] at h
          rw [if_neg h3]
          simp only [Option.some.injEq, Prod.mk.injEq] at h
          rw [h.2]

theorem decodeHeader_some {d : Bytes} (h : 8 ≤ d.length) : ∃ x, decodeHeader d = some x := by
  simp only [decodeHeader, HeaderSize, if_neg (show ¬ d.length < 8 by omega)]
  exact ⟨_, rfl⟩

theorem VTy.decode_returns (vt : VTy) (hvt : ∀ m, vt ≠ .struct m) (d : Bytes) : ∃ o, vt.decode d = .ok o := by
  cases vt
  case struct m => exact absurd rfl (hvt m)
  case any =>
    simp only [VTy.decode]
    split
    · exact ⟨_, rfl⟩
    · rename_i h8
      obtain ⟨⟨fn, ft, sz⟩, hx⟩ := decodeHeader_some (d := slice d AnyHashSize (AnyHashSize + HeaderSize))
        (by rw [slice_length]; simp only [AnyHashSize, HeaderSize] at h8 ⊢; omega)
      simp only [hx]
      split <;> exact ⟨_, rfl⟩
  case listAny => simp only [VTy.decode]; split <;> exact ⟨_, rfl⟩
  all_goals exact ⟨_, rfl⟩

theorem parseMap_returns (kt : KTy) (vt : VTy) : ∀ (fuel : Nat) (d : Bytes),
    (∀ m, vt = .struct m → ∀ item, MapStructAt kt d item → ¬ Stuck item) →
    ∃ r, parseMapFuel kt vt fuel d = .ok r := by
  intro fuel
  induction fuel with
  | zero => intro d _; exact ⟨_, rfl⟩
  | succ fuel ih =>
    intro d hs
    simp only [parseMapFuel]
    split
    · cases hk : kt.decode d with
      | none => exact ⟨_, rfl⟩
      | some x =>
        obtain ⟨key, n⟩ := x
        have hkl := kt.decode_keyLen hk
        have next : ∀ (v : vt.Val) (n' : Nat), (∀ m, vt = .struct m → ∀ item,
            MapStructAt kt (d.drop (n + n')) item → ¬ Stuck item) →
            ∃ r, (do
              let (ks, vs) ← parseMapFuel kt vt fuel (d.drop (n + n'))
              return (key :: ks, v :: vs) : Res _) = .ok r := by
          intro v n' h'
          obtain ⟨r, hr⟩ := ih (d.drop (n + n')) h'
          rw [hr]; exact ⟨_, rfl⟩
        simp only
        by_cases hvt : ∃ m, vt = .struct m
        · obtain ⟨m, rfl⟩ := hvt
          simp only [VTy.decode, HeaderSize]
          split
          · exact ⟨_, rfl⟩
          · rename_i h8
            obtain ⟨⟨fn, ft, sz⟩, hx⟩ := decodeHeader_some (d := d.drop n) (by omega)
            simp only [decodeHeader_take8 _ (show 8 ≤ (d.drop n).length by omega), hx]
            split
            · exact ⟨_, rfl⟩
            · rename_i hsz
              have hst := hs m rfl _ (MapStructAt.here hkl hx (by omega) (by omega))
              obtain ⟨out, hout⟩ := parse_not_stuck _ (List.replicate m Entry.zero) hst
              rw [hout]
              simp only [Res.ok_bind, Res.pure_eq]
              exact next _ sz (fun m' _ item hi => hs m rfl item (MapStructAt.later hkl hx (by omega) (by omega) hi))
        · have hvt' : ∀ m, vt ≠ .struct m := fun m h => hvt ⟨m, h⟩
          obtain ⟨o, ho⟩ := VTy.decode_returns vt hvt' (d.drop n)
          rw [ho]
          cases o with
          | none => exact ⟨_, rfl⟩
          | some x =>
            obtain ⟨v, n'⟩ := x
            exact next v n' (fun m h => absurd h (hvt' m))
    · exact ⟨_, rfl⟩

theorem getListAnyFrom_returns (s : St) (i : Nat) (h : ∃ r, listAnyField s i = .ok r) : ∀ n j,
    ∃ r, getListAnyFrom s i n j = .ok r := by
  intro n
  obtain ⟨o, ho⟩ := h
  induction n with
  | zero => intro j; exact ⟨_, rfl⟩
  | succ n ih =>
    intro j
    obtain ⟨r, hr⟩ := ih (j + 1)
    simp only [getListAnyFrom, getListAnyRaw, ho, Res.ok_bind, hr]
    cases o with
    | none => exact ⟨_, rfl⟩
    | some x =>
      simp only
      split <;> exact ⟨_, rfl⟩

theorem get_returns {data : Bytes} {s : St} (h : Decoded data s) (hns : ¬ Stuck data)
    (hlen : data.length < 2 ^ 32) (i : Nat) (t : STy) (hs : (Ty.scalar t).Sane data i) :
    ∃ v, t.get s i = .ok v := by
  obtain ⟨o, sz, s', hfo, hseg, hcase⟩ := h.fieldOffset hns hlen i
  have hdata : s'.seg.data = data := by rw [hseg, h.data]
  have narrow : ∃ r, getFinal40 s i = .ok r := by
    unfold getFinal40
    simp only [hfo, Res.ok_bind]
    rcases hcase with hz | ⟨ft, f, hr, hh, _⟩
    · exact ⟨none, by rw [if_pos hz]; rfl⟩
    · by_cases hz : sz = 0
      · exact ⟨none, by rw [if_pos hz]; rfl⟩
      · rw [if_neg hz, HeaderSize, Seg.sub_inside _ (by omega) (by rw [hdata]; exact hh.1), hdata]
        simp only [Res.ok_bind, header_at hh, Res.ofOption_some]
        exact ⟨_, rfl⟩
  have wide8 : (∀ p ft f, t.Inside data p ft f → p + 16 ≤ data.length) → ∃ r, getWide s i = .ok r := by
    intro hw
    unfold getWide
    simp only [hfo, Res.ok_bind]
    by_cases hz : sz = 0
    · exact ⟨none, by rw [if_pos hz]; rfl⟩
    · rcases hcase with hz' | ⟨ft, f, hr, hh, _⟩
      · exact absurd hz' hz
      · have hn := hw _ _ _ (hs o ft f hr hh)
        rw [if_neg hz, hdata, if_neg (by simp only [HeaderSize]; omega), if_neg (by simp [HeaderSize]; omega)]
        exact ⟨_, rfl⟩
  have byt : (∀ p ft f, t.Inside data p ft f → p + 8 + f ≤ data.length) → ∃ r, getBytes s i = .ok r := by
    intro hw
    unfold getBytes
    simp only [hfo, Res.ok_bind]
    by_cases hz : sz = 0
    · exact ⟨[], by rw [if_pos hz]; rfl⟩
    · rcases hcase with hz' | ⟨ft, f, hr, hh, _⟩
      · exact absurd hz' hz
      · have hn := hw _ _ _ (hs o ft f hr hh)
        rw [if_neg hz, HeaderSize, Seg.sub_inside _ (by omega) (by rw [hdata]; exact hh.1), hdata]
        simp only [Res.ok_bind, header_at hh, Res.ofOption_some]
        split
        · exact ⟨_, rfl⟩
        · rw [Seg.sub_inside _ (by omega) (by rw [hdata]; omega)]
          exact ⟨_, rfl⟩
  have whole : (∀ p ft f, t.Inside data p ft f → p + extent (data.drop p) ft f ≤ data.length) →
      fieldBytes s i = .ok none ∨ ∃ p ft f d, Reach data p ∧ FieldHdr data p i ft f ∧
        fieldBytes s i = .ok (some d) ∧ d.length = extent (data.drop p) ft f ∧ 8 ≤ d.length ∧
        decodeHeader d = some (i, ft, f) ∧ t.Inside data p ft f := by
    intro hw
    unfold fieldBytes
    simp only [hfo, Res.ok_bind]
    by_cases hz : sz = 0
    · left; rw [if_pos hz]; rfl
    · rcases hcase with hz' | ⟨ft, f, hr, hh, he⟩
      · exact absurd hz' hz
      · have hin := hs o ft f hr hh
        have hn := hw _ _ _ hin
        have hsz : sz = extent (data.drop o) ft f := by rw [he]; exact Nat.mod_eq_of_lt (by omega)
        rw [if_neg hz, Seg.sub_inside _ (by omega) (by rw [hdata]; omega), hdata]
        simp only [Res.ok_bind]
        have hl : (slice data o (o + sz)).length = sz := by rw [slice_length]; omega
        by_cases h8 : (slice data o (o + sz)).length < HeaderSize
        · left; rw [if_pos h8]; rfl
        · right
          rw [if_neg h8]
          simp only [HeaderSize] at h8
          refine ⟨o, ft, f, _, hr, hh, rfl, by omega, by omega, ?_, hin⟩
          rw [← decodeHeader_take8 _ (by omega)]
          have : (slice data o (o + sz)).take 8 = slice data o (o + 8) := by
            simp only [slice, List.drop_take]
            rw [List.take_take]; congr 1; omega
          rw [this]; exact header_at hh
  cases t
  case i64 | u64 | f64 =>
    obtain ⟨r, hr⟩ := wide8 (fun _ _ _ h => h)
    simp only [STy.get, getInt64, getUint64, getFloat64, hr, Res.ok_bind]
    cases r <;> exact ⟨_, rfl⟩
  case bytes | str => exact byt (fun _ _ _ h => h)
  case lbool =>
    rcases whole (fun _ _ _ h => h.1) with h0 | ⟨p, ft, f, d, hr, hh, hb, hl, h8, hdec, hin⟩
    · simp only [STy.get, getListBools, h0, Res.ok_bind]; exact ⟨_, rfl⟩
    · have h2 := hin.2 (by omega)
      obtain ⟨v, hv⟩ := unpackBools_returns d f 0 (by rw [Nat.zero_add]; omega)
      simp only [STy.get, getListBools, hb, Res.ok_bind, hdec, Res.ofOption_some, hv]
      exact ⟨_, rfl⟩
  case lstr | lbytes =>
    rcases whole (fun _ _ _ h => h) with h0 | ⟨p, ft, f, d, hr, hh, hb, hl, h8, hdec, hin⟩
    · simp only [STy.get, getListItems, h0, Res.ok_bind]; exact ⟨_, rfl⟩
    · simp only [STy.get, getListItems, hb, Res.ok_bind]; exact ⟨_, rfl⟩
  case any =>
    simp only [STy.get, getAnyRaw, hfo, Res.ok_bind]
    by_cases hz : sz = 0 ∨ sz < HeaderSize + AnyHashSize
    · rw [if_pos hz]; exact ⟨_, rfl⟩
    · rw [if_neg hz]
      simp only [HeaderSize, AnyHashSize] at hz
      obtain ⟨ft, f, hr, hh, he⟩ := hcase.resolve_left (by omega)
      have hn := hs o ft f hr hh
      simp only [STy.Inside] at hn
      have hsz : sz = extent (data.drop o) ft f := by rw [he]; exact Nat.mod_eq_of_lt (by omega)
      rw [Seg.sub_inside _ (by omega) (by rw [hdata]; omega), hdata]
      obtain ⟨x, hx⟩ := decodeHeader_some (d := (slice data o (o + sz)).take HeaderSize)
        (by simp only [List.length_take, slice_length, HeaderSize]; omega)
      simp only [Res.ok_bind, hx, Res.ofOption_some]
      split <;> exact ⟨_, rfl⟩
  case lany =>
    have hfield : ∃ r, listAnyField s i = .ok r := by
      simp only [listAnyField, hfo, Res.ok_bind]
      by_cases hz : sz = 0 ∨ sz < HeaderSize
      · rw [if_pos hz]; exact ⟨_, rfl⟩
      · rw [if_neg hz]
        simp only [HeaderSize] at hz
        obtain ⟨ft, f, hr, hh, he⟩ := hcase.resolve_left (by omega)
        have hn := hs o ft f hr hh
        simp only [STy.Inside] at hn
        have hsz : sz = extent (data.drop o) ft f := by rw [he]; exact Nat.mod_eq_of_lt (by omega)
        rw [Seg.sub_inside _ (by omega) (by rw [hdata]; omega), hdata]
        obtain ⟨x, hx⟩ := decodeHeader_some (d := (slice data o (o + sz)).take HeaderSize)
          (by simp only [List.length_take, slice_length, HeaderSize]; omega)
        simp only [Res.ok_bind, hx, Res.ofOption_some]
        split <;> exact ⟨_, rfl⟩
    obtain ⟨r, hr⟩ := hfield
    simp only [STy.get, getListAnys, getListAnyLen, hr, Res.ok_bind]
    cases r with
    | none => exact getListAnyFrom_returns s i ⟨_, hr⟩ _ _
    | some x => exact getListAnyFrom_returns s i ⟨_, hr⟩ _ _
  case map kt vt =>
    have hin : ∀ p ft f, STy.Inside data p ft f (.map kt vt) → p + extent (data.drop p) ft f ≤ data.length ∧
        ∀ m, vt = .struct m → ∀ item,
          MapStructAt kt (slice data (p + 8) (p + extent (data.drop p) ft f)) item → ¬ Stuck item := by
      intro p ft f h
      cases vt
      case struct m => exact ⟨h.1, fun _ _ => h.2⟩
      all_goals exact ⟨h, fun m h => nomatch h⟩
    simp only [STy.get, getMap, hfo, Res.ok_bind]
    by_cases hz : sz = 0
    · simp only [if_pos hz, Res.pure_eq, Res.ok_bind]; exact ⟨_, rfl⟩
    · obtain ⟨ft, f, hr, hh, he⟩ := hcase.resolve_left hz
      obtain ⟨hn, hst⟩ := hin _ _ _ (hs o ft f hr hh)
      have hsz : sz = extent (data.drop o) ft f := by rw [he]; exact Nat.mod_eq_of_lt (by omega)
      rw [if_neg hz, Seg.sub_inside _ (by omega) (by rw [hdata]; omega), hdata]
      have hdrop : (slice data o (o + sz)).drop HeaderSize
          = slice data (o + 8) (o + extent (data.drop o) ft f) := by
        simp only [slice, HeaderSize, List.drop_drop]; rw [hsz]
      have hp : ∃ r, parseMap kt vt (slice data o (o + sz)) = .ok r := by
        simp only [parseMap, hdrop]
        split
        · exact ⟨_, rfl⟩
        · exact parseMap_returns kt vt _ _ hst
      obtain ⟨r, hr⟩ := hp
      simp only [Res.ok_bind, hr, Res.pure_eq]
      exact ⟨_, rfl⟩
  case lnum k =>
    simp only [STy.get, getListNums, hfo, Res.ok_bind]
    by_cases hz : sz = 0
    · simp only [if_pos hz, Res.pure_eq, Res.ok_bind]; exact ⟨_, rfl⟩
    · rcases hcase with hz' | ⟨ft, f, hr, hh, he⟩
      · exact absurd hz' hz
      · have hin := hs o ft f hr hh
        have hn := hin.1
        have hsz : sz = extent (data.drop o) ft f := by rw [he]; exact Nat.mod_eq_of_lt (by omega)
        rw [if_neg hz, Seg.sub_inside _ (by omega) (by rw [hdata]; omega), hdata]
        simp only [Res.ok_bind]
        have hl : (slice data o (o + sz)).length = sz := by rw [slice_length]; omega
        by_cases h8 : (slice data o (o + sz)).length < HeaderSize
        · simp only [if_pos h8, Res.pure_eq, Res.ok_bind]; exact ⟨_, rfl⟩
        · rw [if_neg h8]
          simp only [HeaderSize] at h8
          have hdec : decodeHeader (slice data o (o + sz)) = some (i, ft, f) := by
            rw [← decodeHeader_take8 _ (by omega)]
            have : (slice data o (o + sz)).take 8 = slice data o (o + 8) := by
              simp only [slice, List.drop_take]
              rw [List.take_take]; congr 1; omega
            rw [this]; exact header_at hh
          obtain ⟨hf8, hfl⟩ := hin.2 (by omega)
          simp only [hdec, Res.ofOption_some, Res.ok_bind, HeaderSize]
          have hdm := Nat.div_mul_le_self (f - 8) k.size
          rw [if_neg (by omega), Seg.sub_inside _ (by omega) (by rw [hdata]; omega), hdata]
          simp only [Res.ok_bind, Res.pure_eq]
          apply nums_slice_returns
          simp only [Nat.mul_div_cancel _ k.size_pos]
          rw [slice_length]
          omega
  all_goals
    obtain ⟨r, hr⟩ := narrow
    simp only [STy.get, getBool, getInt8, getInt16, getInt32, getUint8, getUint16, getUint32,
      getFloat32, hr, Res.ok_bind]
    cases r <;> exact ⟨_, rfl⟩

mutual
theorem read_returns (ty : Ty) {data : Bytes} {s : St} (h : Decoded data s) (hns : ¬ Stuck data)
    (hlen : data.length < 2 ^ 32) (i : Nat) (hs : ty.Sane data i) : ∃ v, ty.read s i = .ok v := by
  match ty with
  | .scalar t =>
    obtain ⟨v, hv⟩ := get_returns h hns hlen i t hs
    exact ⟨_, by simp only [Ty.read, hv, Res.ok_bind]; rfl⟩
  | .struct tys =>
    obtain ⟨o, sz, s', hfo, hseg, hcase⟩ := h.fieldOffset hns hlen i
    have hdata : s'.seg.data = data := by rw [hseg, h.data]
    simp only [Ty.read, getNestedStruct, hfo, Res.ok_bind]
    by_cases hz : sz = 0
    · exact ⟨.absent, by rw [if_pos hz]; rfl⟩
    · rcases hcase with hz' | ⟨ft, f, hr, hh, he⟩
      · exact absurd hz' hz
      · obtain ⟨h1, h2, h3⟩ := hs o ft f hr hh
        have hsz : sz = extent (data.drop o) ft f := by rw [he]; exact Nat.mod_eq_of_lt (by omega)
        rw [if_neg hz, Seg.sub_inside _ (by omega) (by rw [hdata]; omega), hdata, hsz]
        simp only [Res.ok_bind]
        generalize hdd : slice data o (o + extent (data.drop o) ft f) = d at *
        have hdl : d.length < 2 ^ 32 := by rw [← hdd]; simp only [slice, List.length_drop, List.length_take]; omega
        simp only [St.parseFieldIndex, HeaderSize]
        cases hp : parseLoop 8 (d.drop 8) (List.replicate tys.length Entry.zero) with
        | hang => exact absurd ((parse_hang_iff_stuck d _).mp hp) h2
        | panic => exact absurd hp (parseLoop_ne_panic _ _ _)
        | ok out =>
          have hent := (parse_entries d _ 8 _ out rfl .start (EntriesOK.replicate d _) hp).1
          simp only [Res.ok_bind, Res.pure_eq]
          obtain ⟨vs, hvs⟩ := readFields_return tys (data := d) (s := ⟨⟨d, _⟩, out, false, false, none, false, []⟩)
            ⟨rfl, hent⟩ h2 hdl 0 h3
          exact ⟨.struct vs, by rw [hvs]; rfl⟩
  | .structs tys =>
    obtain ⟨o, sz, s', hfo, hseg, hcase⟩ := h.fieldOffset hns hlen i
    have hdata : s'.seg.data = data := by rw [hseg, h.data]
    simp only [Ty.read, getListStructs, hfo, Res.ok_bind]
    by_cases hz : sz = 0
    · exact ⟨.absent, by rw [if_pos hz]; rfl⟩
    · rcases hcase with hz' | ⟨ft, f, hr, hh, he⟩
      · exact absurd hz' hz
      · obtain ⟨h1, h2⟩ := hs o ft f hr hh
        have hsz : sz = extent (data.drop o) ft f := by rw [he]; exact Nat.mod_eq_of_lt (by omega)
        rw [if_neg hz]
        by_cases h8 : sz > HeaderSize
        · simp only [HeaderSize] at h8
          rw [if_pos h8, Seg.sub_inside _ (by omega) (by rw [hdata]; omega), hdata]
          simp only [Res.ok_bind]
          have hdrop : (slice data o (o + sz)).drop HeaderSize
              = slice data (o + 8) (o + extent (data.drop o) ft f) := by
            simp only [slice, HeaderSize, List.drop_drop]; rw [hsz]
          rw [hdrop]
          obtain ⟨cs, hcs, vs, hvs⟩ := parseStructs_returns tys tys.length
            ((data ++ s'.seg.spare).drop (o + sz))
            (fun d s hd hn hl hf => readFields_return tys hd hn hl 0 hf)
            (slice data o (o + sz)).length _ (by
              rw [slice_length]; omega) h2
          rw [hcs]
          simp only [Res.ok_bind, Res.pure_eq, hvs]
          exact ⟨_, rfl⟩
        · simp only [if_neg h8, Res.pure_eq, Res.ok_bind, mapRes]
          exact ⟨_, rfl⟩
theorem readFields_return (tys : List Ty) {data : Bytes} {s : St} (h : Decoded data s)
    (hns : ¬ Stuck data) (hlen : data.length < 2 ^ 32) (i : Nat) (hs : FieldsSane tys data i) :
    ∃ vs, readFields tys s i = .ok vs := by
  match tys with
  | [] => exact ⟨[], rfl⟩
  | ty :: tys =>
    obtain ⟨v, hv⟩ := read_returns ty h hns hlen i hs.1
    obtain ⟨vs, hvs⟩ := readFields_return tys h hns hlen (i + 1) hs.2
    exact ⟨v :: vs, by simp only [readFields, hv, hvs, Res.ok_bind]; rfl⟩
end

/-- **C08 (partial)** For arbitrary received bytes below 4 GiB and any schema: if no field met on the
walk declares size 0 and every field extends no further than the message (both conditions on the
bytes alone), then every getter, at every nesting depth, returns. Without these conditions it is
false: `C08_hangs`, `C08_panics`. -/
theorem C08_sane_bytes_decode_partial (tys : List Ty) (msg extra : Bytes) (fresh s : St)
    (hn : St.new tys.length = .ok fresh) (hu : fresh.unmarshal msg extra = some s) (fn f : Nat)
    (hd : decodeHeader msg = some (fn, 14, f)) (hlen : msg.length < 2 ^ 32)
    (hns : ¬ Stuck (msg.take f)) (hs : FieldsSane tys (msg.take f) 0) :
    ∃ vs, readFields tys s 0 = .ok vs := by
  obtain ⟨fn', f', hd', _, _, _, _, hdec⟩ := unmarshal_decoded hn hu
  rw [hd] at hd'
  simp only [Option.some.injEq, Prod.mk.injEq, true_and] at hd'
  obtain ⟨_, rfl⟩ := hd'
  exact readFields_return tys hdec hns (by simp only [List.length_take]; omega) 0 hs

/-- **C08 (partial)** The getters of bool, 8-, 16-, 32-bit and float32 fields never panic: they return
whenever the walk does not get stuck, whatever the bytes. -/
theorem C08_narrow_getters_return_partial (m : Nat) (msg extra : Bytes) (fresh s : St)
    (hn : St.new m = .ok fresh) (hu : fresh.unmarshal msg extra = some s) (fn f : Nat)
    (hd : decodeHeader msg = some (fn, 14, f)) (hlen : msg.length < 2 ^ 32)
    (hns : ¬ Stuck (msg.take f)) (i : Nat) (t : STy)
    (ht : t = .bool ∨ t = .i8 ∨ t = .i16 ∨ t = .i32 ∨ t = .u8 ∨ t = .u16 ∨ t = .u32 ∨ t = .f32) :
    ∃ v, t.get s i = .ok v := by
  obtain ⟨fn', f', hd', _, _, _, _, hdec⟩ := unmarshal_decoded hn hu
  rw [hd] at hd'
  simp only [Option.some.injEq, Prod.mk.injEq, true_and] at hd'
  obtain ⟨_, rfl⟩ := hd'
  apply get_returns hdec hns (by simp only [List.length_take]; omega)
  intro p ft g _ hh
  rcases ht with rfl | rfl | rfl | rfl | rfl | rfl | rfl | rfl <;> trivial

/-- A malformed message that meets the conditions: duplicate field 0, unknown field 9, junk at the
end. -/
def oddMsg : Bytes := [0, 0, 14, 43, 0, 0, 0, 0,  0, 0, 6, 1, 0, 0, 0, 0,  9, 0, 12, 3, 0, 0, 0, 0,
  1, 2, 3, 4, 5, 6, 7, 8,  0, 0, 99, 2, 0, 0, 0, 0,  1, 1, 1]

theorem oddMsg_reach {p : Nat} (h : Reach oddMsg p) : p = 8 ∨ p = 16 ∨ p = 32 ∨ p = 40 := by
  induction h with
  | start => simp
  | next hr hh hpos ih =>
    rcases ih with rfl | rfl | rfl | rfl
    · have := hh.2.1.symm.trans (by decide +kernel : _ = some (0, 6, 1))
      simp only [Option.some.injEq, Prod.mk.injEq] at this
      obtain ⟨rfl, rfl, rfl⟩ := this
      right; left; decide +kernel
    · have := hh.2.1.symm.trans (by decide +kernel : _ = some (9, 12, 3))
      simp only [Option.some.injEq, Prod.mk.injEq] at this
      obtain ⟨rfl, rfl, rfl⟩ := this
      right; right; left; decide +kernel
    · have := hh.2.1.symm.trans (by decide +kernel : _ = some (0, 99, 2))
      simp only [Option.some.injEq, Prod.mk.injEq] at this
      obtain ⟨rfl, rfl, rfl⟩ := this
      right; right; right; decide +kernel
    · exact absurd hh.1 (by decide)

theorem oddMsg_not_stuck : ¬ Stuck oddMsg := by
  rintro ⟨p, fn, ft, f, hr, hh, hz⟩
  rcases oddMsg_reach hr with rfl | rfl | rfl | rfl
  · have := hh.2.1.symm.trans (by decide +kernel : _ = some (0, 6, 1))
    simp only [Option.some.injEq, Prod.mk.injEq] at this
    obtain ⟨rfl, rfl, rfl⟩ := this
    exact absurd hz (by decide +kernel)
  · have := hh.2.1.symm.trans (by decide +kernel : _ = some (9, 12, 3))
    simp only [Option.some.injEq, Prod.mk.injEq] at this
    obtain ⟨rfl, rfl, rfl⟩ := this
    exact absurd hz (by decide +kernel)
  · have := hh.2.1.symm.trans (by decide +kernel : _ = some (0, 99, 2))
    simp only [Option.some.injEq, Prod.mk.injEq] at this
    obtain ⟨rfl, rfl, rfl⟩ := this
    exact absurd hz (by decide +kernel)
  · exact absurd hh.1 (by decide)

example : ∃ fresh s vs, St.new 1 = .ok fresh ∧ fresh.unmarshal oddMsg [] = some s ∧
    readFields [.scalar .u8] s 0 = .ok vs := by
  obtain ⟨vs, h⟩ := C08_sane_bytes_decode_partial [.scalar .u8] oddMsg [] _ _ rfl rfl 0 43
    (by decide +kernel) (by decide) (by exact oddMsg_not_stuck)
    ⟨by intro p ft f _ _; trivial, trivial⟩
  exact ⟨_, _, vs, rfl, rfl, h⟩

end Claw
