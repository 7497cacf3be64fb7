import Verif.Lemmas.MapCodec

/-!
# Decoding of Any, lists of Any and maps
-/

namespace Claw

theorem decodeHeader_append (d rest : Bytes) (h : 8 ≤ d.length) : decodeHeader (d ++ rest) = decodeHeader d := by
  rw [← decodeHeader_take8 (d ++ rest) (by simp; omega), List.take_append_of_le_length h,
    decodeHeader_take8 d h]

theorem decodeHeader_len {d : Bytes} {x} (h : decodeHeader d = some x) : 8 ≤ d.length := by
  simp only [decodeHeader, HeaderSize] at h
  split at h
  · simp at h
  · omega

theorem IsSegment.len {d : Bytes} (h : IsSegment d) : 8 ≤ d.length := by
  obtain ⟨fn, ft, h⟩ := h
  exact decodeHeader_len h

theorem IsSegment.append {d : Bytes} (h : IsSegment d) (rest : Bytes) :
    ∃ fn ft, decodeHeader (d ++ rest) = some (fn, ft, d.length) := by
  have hl := h.len
  obtain ⟨fn, ft, h⟩ := h
  exact ⟨fn, ft, by rw [decodeHeader_append d rest hl, h]⟩

/-- A slice in the middle. -/
theorem slice_at (p x q : Bytes) {a b : Nat} (ha : a = p.length) (hb : b = p.length + x.length) :
    slice (p ++ x ++ q) a b = x := by
  subst ha hb; exact slice_mid p x q

/-! ### Keys and values -/

theorem decodeText_enc (v rest : Bytes) (h : v.length < 2 ^ 32) :
    decodeText (putLE 4 v.length ++ v ++ rest) = some (v, 4 + v.length) := by
  have ht : (putLE 4 v.length ++ v ++ rest).take 4 = putLE 4 v.length := by
    rw [List.append_assoc]; exact List.take_left' (by simp)
  simp only [decodeText, ht]
  rw [getLE_putLE_of_lt (by omega), if_neg (by simp), if_neg (by simp),
    slice_at _ _ _ (by simp) (by simp)]

theorem decodeNum_enc (k : NTy) (v : k.Val) (rest : Bytes) :
    decodeNum k (putLE k.size (k.bits v) ++ rest) = some (v, k.size) := by
  simp only [decodeNum]
  rw [if_neg (by simp), List.take_left' (by simp), getLE_putLE_of_lt (k.bits_lt v), k.ofBits_bits]

theorem KTy.decode_enc (kt : KTy) (v : kt.Val) (rest : Bytes) (h : kt.size v < 2 ^ 32) :
    kt.decode (kt.enc v ++ rest) = some (v, (kt.enc v).length) := by
  cases kt
  case str =>
    simp only [KTy.size] at h
    show (if (putLE 4 v.length ++ v ++ rest).length = 0 then none else decodeText (putLE 4 v.length ++ v ++ rest)) =
      some (v, (putLE 4 v.length ++ v).length)
    rw [if_neg (by simp), decodeText_enc v rest (by omega)]
    simp
  case bool => cases v <;> simp [KTy.decode, KTy.enc, decodeBool]
  case num k =>
    have := k.size_pos
    show (if (putLE k.size (k.bits v) ++ rest).length = 0 then none else decodeNum k (putLE k.size (k.bits v) ++ rest)) =
      some (v, (putLE k.size (k.bits v)).length)
    rw [if_neg (by simp; omega), decodeNum_enc k v rest]
    simp

theorem decodeAnys_enc (items : List AnyVal) : ∀ (d p rest : Bytes) (pos : Nat), d = p ++ (anysEnc items ++ rest) →
    pos = p.length → (∀ a ∈ items, a.Storable) →
    decodeAnys d items.length pos = (items, pos + (anysEnc items).length) := by
  induction items with
  | nil => intro d p rest pos _ _ _; simp [decodeAnys, anysEnc]
  | cons a items ih =>
    intro d p rest pos hd hp hs
    obtain ⟨ha, hseg⟩ := hs a (List.mem_cons_self ..)
    have h8 := hseg.len
    have hcons : anysEnc (a :: items) = a.enc ++ anysEnc items := by simp [anysEnc]
    have hl := AnyVal.enc_length a
    obtain ⟨fn, ft, hdec⟩ := hseg
    rw [hcons] at hd
    have hd1 : d = p ++ a.typeHash ++ (a.data ++ (anysEnc items ++ rest)) := by simp [hd, AnyVal.enc_eq ha]
    have hd2 : d = (p ++ a.typeHash) ++ a.data.take 8 ++ (a.data.drop 8 ++ (anysEnc items ++ rest)) := by
      rw [hd1]
      conv => lhs; rw [← List.take_append_drop 8 a.data]
      simp only [List.append_assoc]
    have hd3 : d = (p ++ a.typeHash) ++ a.data ++ (anysEnc items ++ rest) := by simp [hd1]
    have hdl : d.length = p.length + 16 + a.data.length + (anysEnc items).length + rest.length := by
      rw [hd1]; simp [ha]; omega
    have e1 : slice d pos (pos + AnyHashSize) = a.typeHash := by
      rw [hd1]; exact slice_at _ _ _ hp (by simp [ha, hp])
    have e2 : slice d (pos + AnyHashSize) (pos + AnyHashSize + HeaderSize) = a.data.take 8 := by
      rw [hd2]; exact slice_at _ _ _ (by simp [ha, hp]) (by simp [ha, hp, HeaderSize]; omega)
    have e3 : slice d (pos + AnyHashSize) (pos + AnyHashSize + a.data.length) = a.data := by
      rw [hd3]; exact slice_at _ _ _ (by simp [ha, hp]) (by simp [ha, hp])
    simp only [List.length_cons, decodeAnys, e1, e2, decodeHeader_take8 _ h8, hdec]
    rw [if_neg (by simp only [AnyHashSize, HeaderSize]; omega), if_neg (by simp only [AnyHashSize]; omega)]
    have := ih d (p ++ a.enc) rest (pos + AnyHashSize + a.data.length) (by rw [hd]; simp) (by simp [hl, hp, AnyHashSize]; omega)
      (fun b hb => hs b (List.mem_cons_of_mem _ hb))
    rw [this]
    simp only [e3, hcons, List.length_append, hl, AnyHashSize]
    congr 1; omega

theorem anysEnc_count (items : List AnyVal) (hs : ∀ a ∈ items, a.Storable) :
    24 * items.length ≤ (anysEnc items).length := by
  induction items with
  | nil => simp
  | cons a items ih =>
    obtain ⟨ha, hseg⟩ := hs a (List.mem_cons_self ..)
    have h8 := hseg.len
    have hcons : anysEnc (a :: items) = a.enc ++ anysEnc items := by simp [anysEnc]
    have hl := AnyVal.enc_length a
    have := ih (fun b hb => hs b (List.mem_cons_of_mem _ hb))
    rw [hcons]; simp only [List.length_append, List.length_cons]; omega

theorem parse_not_stuck (d : Bytes) (idx : List Entry) (h : ¬ Stuck d) :
    ∃ out, parseLoop 8 (d.drop 8) idx = .ok out := by
  cases hp : parseLoop 8 (d.drop 8) idx with
  | hang => exact absurd ((parse_hang_iff_stuck d idx).mp hp) h
  | panic => exact absurd hp (parseLoop_ne_panic _ _ _)
  | ok out => exact ⟨out, rfl⟩

theorem VTy.decode_enc (vt : VTy) (v : vt.Val) (rest : Bytes) (hs : vt.Storable v) (h : vt.size v < 2 ^ 32) :
    vt.decode (vt.enc v ++ rest) = .ok (some (v, (vt.enc v).length)) := by
  cases vt
  case str =>
    simp only [VTy.size] at h
    show Res.ok (if (putLE 4 v.length ++ v ++ rest).length = 0 then none else decodeText (putLE 4 v.length ++ v ++ rest)) =
      .ok (some (v, (putLE 4 v.length ++ v).length))
    rw [if_neg (by simp), decodeText_enc v rest (by omega)]
    simp
  case bytes =>
    simp only [VTy.size] at h
    show Res.ok (if (putLE 4 v.length ++ v ++ rest).length = 0 then none else decodeText (putLE 4 v.length ++ v ++ rest)) =
      .ok (some (v, (putLE 4 v.length ++ v).length))
    rw [if_neg (by simp), decodeText_enc v rest (by omega)]
    simp
  case bool => cases v <;> simp [VTy.decode, VTy.enc, decodeBool]
  case num k =>
    have := k.size_pos
    show Res.ok (if (putLE k.size (k.bits v) ++ rest).length = 0 then none else decodeNum k (putLE k.size (k.bits v) ++ rest)) =
      .ok (some (v, (putLE k.size (k.bits v)).length))
    rw [if_neg (by simp; omega), decodeNum_enc k v rest]
    simp
  case struct m =>
    obtain ⟨hseg, hst⟩ := hs
    have h8 := hseg.len
    obtain ⟨fn, ft, hdec⟩ := hseg.append rest
    obtain ⟨out, hp⟩ := parse_not_stuck v (List.replicate m Entry.zero) hst
    show VTy.decode (.struct m) (v ++ rest) = .ok (some (v, v.length))
    simp only [VTy.decode, HeaderSize]
    rw [if_neg (by simp; omega), decodeHeader_take8 _ (by simp; omega), hdec]
    simp only
    rw [if_neg (by simp; omega), List.take_left' rfl, hp]
    rfl
  case any =>
    cases v with
    | none => exact absurd hs id
    | some a =>
      obtain ⟨ha, hseg⟩ := hs
      have h8 := hseg.len
      obtain ⟨fn, ft, hdec⟩ := hseg
      have hl := AnyVal.enc_length a
      have hd2 : a.enc ++ rest = a.typeHash ++ a.data.take 8 ++ (a.data.drop 8 ++ rest) := by
        rw [AnyVal.enc_eq ha]
        conv => lhs; rw [← List.take_append_drop 8 a.data]
        simp only [List.append_assoc]
      have e2 : slice (a.enc ++ rest) AnyHashSize (AnyHashSize + HeaderSize) = a.data.take 8 := by
        rw [hd2]; exact slice_at _ _ _ (by simp [ha]) (by simp [ha, HeaderSize]; omega)
      have e3 : slice (a.enc ++ rest) AnyHashSize (AnyHashSize + a.data.length) = a.data := by
        rw [AnyVal.enc_eq ha]; exact slice_at _ _ _ (by simp [ha]) (by simp [ha])
      have e1 : (a.enc ++ rest).take AnyHashSize = a.typeHash := by
        rw [AnyVal.enc_eq ha, List.append_assoc]; exact List.take_left' (by simp [ha])
      simp only [VTy.decode, VTy.enc, e2, decodeHeader_take8 _ h8, hdec, e1, e3]
      rw [if_neg (by simp [hl, HeaderSize, AnyHashSize]; omega), if_neg (by simp [hl]), hl]
  case listAny =>
    have hc := anysEnc_count v hs
    have hl := VTy.enc_length .listAny v
    simp only [VTy.enc, List.length_append, putLE_length] at hl
    have ht : (putLE 4 v.length ++ anysEnc v ++ rest).take 4 = putLE 4 v.length := by
      rw [List.append_assoc]; exact List.take_left' (by simp)
    show VTy.decode .listAny (putLE 4 v.length ++ anysEnc v ++ rest) =
      .ok (some (v, (putLE 4 v.length ++ anysEnc v).length))
    simp only [VTy.decode]
    rw [if_neg (by simp), ht, getLE_putLE_of_lt (by omega),
      decodeAnys_enc v _ (putLE 4 v.length) rest 4 (by simp) (by simp) hs]
    simp

/-! ### Zero bytes -/

theorem NTy.ofBits_zero (k : NTy) : k.ofBits 0 = k.zero := by cases k <;> rfl

theorem zeros_take (p n : Nat) (h : n ≤ p) : (zeros p).take n = zeros n := by
  simp [zeros, List.take_replicate, Nat.min_eq_left h]

theorem zeros_drop (p n : Nat) : (zeros p).drop n = zeros (p - n) := by
  simp [zeros]

theorem decodeText_zeros (p : Nat) : decodeText (zeros p) = if p < 4 then none else some ([], 4) := by
  simp only [decodeText, zeros_length]
  split
  · rfl
  · rw [zeros_take _ _ (by omega), getLE_zeros, if_neg (by omega)]
    simp [slice]

theorem KTy.decode_zeros (kt : KTy) (p : Nat) :
    kt.decode (zeros p) = if p < kt.minSize then none else some (kt.zero, kt.minSize) := by
  cases kt
  case str =>
    simp only [KTy.decode, zeros_length, decodeText_zeros, KTy.minSize, KTy.zero]
    by_cases h : p = 0
    · simp [h]
    · rw [if_neg h]; rfl
  case bool => cases p <;> simp [KTy.decode, decodeBool, zeros, KTy.minSize, KTy.zero, List.replicate_succ]
  case num k =>
    have := k.size_pos
    simp only [KTy.decode, zeros_length, decodeNum, KTy.minSize, KTy.zero, ← NTy.ofBits_zero]
    by_cases h : p < k.size
    · simp [h]
    · rw [if_neg (by omega), if_neg h, if_neg h, zeros_take _ _ (by omega), getLE_zeros]

theorem VTy.decode_zeros (vt : VTy) (p : Nat) (hp : p < 8) :
    vt.decode (zeros p) = .ok (match vt.minSize with
      | none => none
      | some z => if p < z then none else some (vt.zero, z)) := by
  cases vt
  case str =>
    simp only [VTy.decode, zeros_length, decodeText_zeros, VTy.minSize, VTy.zero]
    congr 1
    repeat' split
    all_goals first | rfl | omega
  case bytes =>
    simp only [VTy.decode, zeros_length, decodeText_zeros, VTy.minSize, VTy.zero]
    congr 1
    repeat' split
    all_goals first | rfl | omega
  case bool => cases p <;> simp [VTy.decode, decodeBool, zeros, VTy.minSize, VTy.zero, List.replicate_succ]
  case num k =>
    have := k.size_pos
    simp only [VTy.decode, zeros_length, decodeNum, VTy.minSize, VTy.zero, ← NTy.ofBits_zero]
    congr 1
    by_cases h : p < k.size
    · simp [h]
    · rw [if_neg (by omega), if_neg h, if_neg h, zeros_take _ _ (by omega), getLE_zeros]
  case struct m => simp [VTy.decode, VTy.minSize, HeaderSize, hp]
  case any => simp [VTy.decode, VTy.minSize, HeaderSize, AnyHashSize, Nat.lt_of_lt_of_le hp]
  case listAny =>
    simp only [VTy.decode, zeros_length, VTy.minSize, VTy.zero]
    by_cases h : p < 4
    · simp [h]
    · rw [if_neg h, if_neg h, zeros_take _ _ (by omega), getLE_zeros]
      rfl

theorem KTy.minSize_pos (kt : KTy) : 0 < kt.minSize := by
  cases kt
  case num k => exact k.size_pos
  all_goals decide

/-- What the parser makes of padding. -/
theorem parseMapFuel_zeros (kt : KTy) (vt : VTy) (p : Nat) : p < 8 → ∀ fuel, p ≤ fuel →
    parseMapFuel kt vt fuel (zeros p) =
      .ok (List.replicate (phantoms kt vt p) kt.zero, List.replicate (phantoms kt vt p) vt.zero) := by
  induction p using Nat.strongRecOn with
  | _ p ih =>
    intro hp fuel hf
    have hk := kt.minSize_pos
    cases fuel with
    | zero =>
      have : p = 0 := by omega
      subst this
      simp only [parseMapFuel, phantoms]
      cases vt.minSize <;> simp
    | succ fuel =>
      simp only [parseMapFuel, zeros_length, KTy.decode_zeros]
      by_cases h0 : 0 < p
      · rw [if_pos h0]
        by_cases h1 : p < kt.minSize
        · rw [if_pos h1]
          have : phantoms kt vt p = 0 := by
            simp only [phantoms]; split
            · rfl
            · exact Nat.div_eq_of_lt (by omega)
          rw [this]; rfl
        · rw [if_neg h1]
          simp only [zeros_drop]
          rw [VTy.decode_zeros vt _ (by omega)]
          simp only [Res.ok_bind]
          cases hm : vt.minSize with
          | none => simp [phantoms, hm]
          | some z =>
            simp only
            by_cases h2 : p - kt.minSize < z
            · rw [if_pos h2]
              have : phantoms kt vt p = 0 := by
                simp only [phantoms, hm]; exact Nat.div_eq_of_lt (by omega)
              rw [this]; rfl
            · rw [if_neg h2]
              simp only [ih (p - (kt.minSize + z)) (by omega) (by omega) fuel (by omega), Res.ok_bind]
              have : phantoms kt vt p = phantoms kt vt (p - (kt.minSize + z)) + 1 := by
                simp only [phantoms, hm]
                exact Nat.div_eq_sub_div (by omega) (by omega)
              rw [this]
              simp [List.replicate_succ]
      · have : p = 0 := by omega
        subst this
        simp only [phantoms]
        cases vt.minSize <;> simp

theorem KTy.size_pos (kt : KTy) (k : kt.Val) : 0 < kt.size k := by
  cases kt
  case num k' => exact k'.size_pos
  case str => simp only [KTy.size]; omega
  case bool => simp [KTy.size]

theorem entryBytes_mem {kt : KTy} {vt : VTy} {es : List (kt.Val × vt.Val)} :
    ∀ e ∈ es, kt.size e.1 + vt.size e.2 ≤ entryBytes kt vt es := by
  induction es with
  | nil => simp
  | cons x es ih =>
    intro e he
    simp only [entryBytes, List.map_cons, List.sum_cons] at ih ⊢
    rcases List.mem_cons.mp he with h | h
    · subst h; omega
    · have := ih e h; omega

/-- What the parser makes of entries. -/
theorem parseMapFuel_entries (kt : KTy) (vt : VTy) (es : List (kt.Val × vt.Val)) (z : Bytes)
    (hs : ∀ e ∈ es, vt.Storable e.2) (hb : entryBytes kt vt es < 2 ^ 32) : ∀ fuel,
    (entriesEnc kt vt es ++ z).length ≤ fuel →
    ∃ fuel', z.length ≤ fuel' ∧ ∀ ks vs, parseMapFuel kt vt fuel' z = .ok (ks, vs) →
      parseMapFuel kt vt fuel (entriesEnc kt vt es ++ z)
        = .ok (es.map Prod.fst ++ ks, es.map Prod.snd ++ vs) := by
  induction es with
  | nil => intro fuel hf; exact ⟨fuel, by simpa [entriesEnc] using hf, fun ks vs h => by simpa [entriesEnc] using h⟩
  | cons e es ih =>
    intro fuel hf
    have hle := entryBytes_mem (kt := kt) (vt := vt) (es := e :: es) e (List.mem_cons_self ..)
    have hse := hs e (List.mem_cons_self ..)
    have hkp := kt.size_pos e.1
    have hkl := kt.enc_length e.1
    simp only [entriesEnc, List.length_append] at hf
    have hes : entryBytes kt vt es < 2 ^ 32 := by
      simp only [entryBytes, List.map_cons, List.sum_cons] at hb ⊢; omega
    cases fuel with
    | zero => omega
    | succ fuel =>
      obtain ⟨fuel', h1, h2⟩ := ih (fun x hx => hs x (List.mem_cons_of_mem _ hx)) hes fuel
        (by simp only [List.length_append]; omega)
      refine ⟨fuel', h1, fun ks vs hz => ?_⟩
      simp only [entriesEnc, List.append_assoc, parseMapFuel]
      rw [if_pos (by simp; omega), KTy.decode_enc kt e.1 _ (by omega)]
      simp only [List.drop_left' rfl]
      rw [VTy.decode_enc vt e.2 _ hse (by omega)]
      simp only [Res.ok_bind]
      rw [← List.append_assoc, List.drop_left' (by simp), h2 ks vs hz]
      simp

/-- What the parser makes of a written map. -/
theorem parseMap_blob (kt : KTy) (vt : VTy) (h : Bytes) (hh : h.length = 8) (es : List (kt.Val × vt.Val))
    (hs : ∀ e ∈ es, vt.Storable e.2) (hb : entryBytes kt vt es < 2 ^ 32) (pad : Nat) (hp : pad < 8) :
    parseMap kt vt (h ++ (entriesEnc kt vt es ++ zeros pad)) =
      .ok (es.map Prod.fst ++ List.replicate (phantoms kt vt pad) kt.zero,
        es.map Prod.snd ++ List.replicate (phantoms kt vt pad) vt.zero) := by
  simp only [parseMap, HeaderSize]
  rw [if_neg (by simp; omega), List.drop_left' hh]
  obtain ⟨fuel', h1, h2⟩ := parseMapFuel_entries kt vt es (zeros pad) hs hb
    ((h ++ (entriesEnc kt vt es ++ zeros pad)).length - 8) (by simp; omega)
  exact h2 _ _ (parseMapFuel_zeros kt vt pad hp fuel' (by simpa using h1))

/-! ### Lists of Any -/

theorem scanListAny_enc (items : List AnyVal) : ∀ (d p rest : Bytes) (pos : Nat), d = p ++ (anysEnc items ++ rest) →
    pos = p.length → (∀ a ∈ items, a.Storable) →
    scanListAny d items.length pos = pos + (anysEnc items).length := by
  induction items with
  | nil => intro d p rest pos _ _ _; simp [scanListAny, anysEnc]
  | cons a items ih =>
    intro d p rest pos hd hp hs
    obtain ⟨ha, hseg⟩ := hs a (List.mem_cons_self ..)
    have h8 := hseg.len
    have hcons : anysEnc (a :: items) = a.enc ++ anysEnc items := by simp [anysEnc]
    have hl := AnyVal.enc_length a
    rw [hcons] at hd
    obtain ⟨fn, ft, hdec⟩ := hseg.append (anysEnc items ++ rest)
    have hd3 : d = (p ++ a.typeHash) ++ (a.data ++ (anysEnc items ++ rest)) := by simp [hd, AnyVal.enc_eq ha]
    have hdl : d.length = p.length + 16 + a.data.length + (anysEnc items).length + rest.length := by
      rw [hd3]; simp [ha]; omega
    have e1 : d.drop (pos + AnyHashSize) = a.data ++ (anysEnc items ++ rest) := by
      rw [hd3]; exact List.drop_left' (by simp [ha, hp])
    simp only [List.length_cons, scanListAny, e1, hdec]
    rw [if_neg (by simp only [AnyHashSize, HeaderSize]; omega)]
    have := ih d (p ++ a.enc) rest (pos + AnyHashSize + a.data.length) (by rw [hd]; simp) (by simp [hl, hp, AnyHashSize]; omega)
      (fun b hb => hs b (List.mem_cons_of_mem _ hb))
    rw [this, hcons, List.length_append, hl, AnyHashSize]; omega

theorem findAny_enc (index : Nat) (items : List AnyVal) : ∀ (d p rest : Bytes) (pos i : Nat),
    d = p ++ (anysEnc items ++ rest) → pos = p.length → (∀ a ∈ items, a.Storable) → i ≤ index →
    findAny d index items.length i pos = items[index - i]? := by
  induction items with
  | nil => intro d p rest pos i _ _ _ _; simp [findAny]
  | cons a items ih =>
    intro d p rest pos i hd hp hs hi
    obtain ⟨ha, hseg⟩ := hs a (List.mem_cons_self ..)
    have h8 := hseg.len
    have hcons : anysEnc (a :: items) = a.enc ++ anysEnc items := by simp [anysEnc]
    have hl := AnyVal.enc_length a
    obtain ⟨fn, ft, hdec⟩ := hseg
    rw [hcons] at hd
    have hd1 : d = p ++ a.typeHash ++ (a.data ++ (anysEnc items ++ rest)) := by simp [hd, AnyVal.enc_eq ha]
    have hd2 : d = (p ++ a.typeHash) ++ a.data.take 8 ++ (a.data.drop 8 ++ (anysEnc items ++ rest)) := by
      rw [hd1]
      conv => lhs; rw [← List.take_append_drop 8 a.data]
      simp only [List.append_assoc]
    have hd3 : d = (p ++ a.typeHash) ++ a.data ++ (anysEnc items ++ rest) := by simp [hd1]
    have hdl : d.length = p.length + 16 + a.data.length + (anysEnc items).length + rest.length := by
      rw [hd1]; simp [ha]; omega
    have e1 : slice d pos (pos + AnyHashSize) = a.typeHash := by
      rw [hd1]; exact slice_at _ _ _ hp (by simp [ha, hp])
    have e2 : slice d (pos + AnyHashSize) (pos + AnyHashSize + HeaderSize) = a.data.take 8 := by
      rw [hd2]; exact slice_at _ _ _ (by simp [ha, hp]) (by simp [ha, hp, HeaderSize]; omega)
    have e3 : slice d (pos + AnyHashSize) (pos + AnyHashSize + a.data.length) = a.data := by
      rw [hd3]; exact slice_at _ _ _ (by simp [ha, hp]) (by simp [ha, hp])
    simp only [List.length_cons, findAny, e1, e2, decodeHeader_take8 _ h8, hdec, e3]
    rw [if_neg (by simp only [AnyHashSize]; omega), if_neg (by simp only [AnyHashSize, HeaderSize]; omega)]
    by_cases h : i = index
    · subst h
      rw [if_pos rfl, if_neg (by simp only [AnyHashSize]; omega)]
      simp
    · rw [if_neg h, ih d (p ++ a.enc) rest (pos + AnyHashSize + a.data.length) (i + 1) (by rw [hd]; simp)
        (by simp [hl, hp, AnyHashSize]; omega) (fun b hb => hs b (List.mem_cons_of_mem _ hb)) (by omega)]
      rw [show index - i = (index - (i + 1)) + 1 by omega, List.getElem?_cons_succ]

end Claw
