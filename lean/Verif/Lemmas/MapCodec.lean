import Verif.Lemmas.Lists
import Verif.Lemmas.Hostile
import Verif.Spec.Record

/-!
# Encoding and decoding of Any, lists of Any and maps
-/

namespace Claw

/-! ### Closed forms -/

/-- A type identity has 16 bytes. -/
def fit16 (h : Bytes) : Bytes := (h ++ zeros 16).take 16

@[simp] theorem fit16_length (h : Bytes) : (fit16 h).length = 16 := by simp [fit16]

theorem fit16_eq {h : Bytes} (hl : h.length = 16) : fit16 h = h := List.take_left' hl

def AnyVal.enc (a : AnyVal) : Bytes := fit16 a.typeHash ++ a.data

theorem AnyVal.enc_eq {a : AnyVal} (h : a.typeHash.length = 16) : a.enc = a.typeHash ++ a.data := by
  rw [AnyVal.enc, fit16_eq h]

def anysEnc (vs : List AnyVal) : Bytes := (vs.map AnyVal.enc).flatten

def KTy.enc : (t : KTy) → t.Val → Bytes
  | .str, v => putLE 4 v.length ++ v
  | .bool, v => [if v then 1 else 0]
  | .num k, v => putLE k.size (k.bits v)

def VTy.enc : (t : VTy) → t.Val → Bytes
  | .str, v => putLE 4 v.length ++ v
  | .bytes, v => putLE 4 v.length ++ v
  | .bool, v => [if v then 1 else 0]
  | .num k, v => putLE k.size (k.bits v)
  | .struct _, v => v
  | .any, none => []
  | .any, some a => a.enc
  | .listAny, items => putLE 4 items.length ++ anysEnc items

def entriesEnc (kt : KTy) (vt : VTy) : List (kt.Val × vt.Val) → Bytes
  | [] => []
  | e :: es => kt.enc e.1 ++ (vt.enc e.2 ++ entriesEnc kt vt es)

theorem AnyVal.enc_length (a : AnyVal) : a.enc.length = 16 + a.data.length := by
  simp [AnyVal.enc]

theorem anysEnc_length (vs : List AnyVal) :
    (anysEnc vs).length = (vs.map fun a => 16 + a.data.length).sum := by
  induction vs with
  | nil => rfl
  | cons a vs ih =>
    simp only [anysEnc] at ih
    simp only [anysEnc, List.map_cons, List.flatten_cons, List.length_append, List.sum_cons, ih,
      AnyVal.enc_length]

theorem KTy.enc_length (t : KTy) (v : t.Val) : (t.enc v).length = t.size v := by
  cases t <;> simp [KTy.enc, KTy.size]

theorem VTy.Storable.hashes {items : List AnyVal} (h : VTy.Storable .listAny items) :
    ∀ a ∈ items, a.typeHash.length = 16 := fun a ha => (h a ha).1

theorem VTy.enc_length (t : VTy) (v : t.Val) : (t.enc v).length = t.size v := by
  cases t
  case any =>
    cases v with
    | none => rfl
    | some a => exact AnyVal.enc_length a
  case listAny => simp only [VTy.enc, VTy.size, List.length_append, putLE_length, anysEnc_length v]
  all_goals simp [VTy.enc, VTy.size]

theorem entriesEnc_length (kt : KTy) (vt : VTy) (es : List (kt.Val × vt.Val)) :
    (entriesEnc kt vt es).length = entryBytes kt vt es := by
  induction es with
  | nil => rfl
  | cons e es ih =>
    simp only [entryBytes] at ih
    simp only [entriesEnc, entryBytes, List.length_append, KTy.enc_length, List.map_cons, List.sum_cons,
      VTy.enc_length, ih]
    omega

/-! ### Writing into a buffer -/

theorem storeAt_fit {buf : Bytes} {off : Nat} (p x q src : Bytes) (hb : buf = p ++ x ++ q) (ho : off = p.length)
    (h : src.length = x.length) : storeAt buf off src = some (p ++ src ++ q) := by
  subst hb ho
  simp only [storeAt]
  rw [if_pos (by simp; omega), goCopy_fit p x q src h]

theorem copyAt_fit {buf : Bytes} {off : Nat} (p x q src : Bytes) (hb : buf = p ++ x ++ q) (ho : off = p.length)
    (h : src.length = x.length) : copyAt buf off src = some (p ++ src ++ q) := by
  subst hb ho
  simp only [copyAt]
  rw [if_pos (by simp), goCopy_fit p x q src h]

theorem cut_at (x : Bytes) (n : Nat) (h : n ≤ x.length) :
    ∃ a b, x = a ++ b ∧ a.length = n ∧ b.length = x.length - n :=
  ⟨x.take n, x.drop n, (List.take_append_drop n x).symm, by simp; omega, by simp⟩

theorem encodeTextAt_fit {buf : Bytes} {off : Nat} (p x q v : Bytes) (hb : buf = p ++ x ++ q) (ho : off = p.length)
    (h : x.length = 4 + v.length) :
    encodeTextAt buf off v = some (p ++ (putLE 4 v.length ++ v) ++ q, 4 + v.length) := by
  obtain ⟨a, b, rfl, ha, hb'⟩ := cut_at x 4 (by omega)
  simp only [List.length_append] at h hb'
  simp only [encodeTextAt]
  rw [storeAt_fit p a (b ++ q) (putLE 4 v.length) (by simp [hb]) ho (by simp [ha])]
  simp only [Option.bind_eq_bind, Option.bind_some]
  rw [copyAt_fit (p ++ putLE 4 v.length) b q v (by simp) (by simp [ho]) (by omega)]
  simp

theorem encodeNumAt_fit {buf : Bytes} {off : Nat} (k : NTy) (p x q : Bytes) (v : k.Val) (hb : buf = p ++ x ++ q)
    (ho : off = p.length) (h : x.length = k.size) :
    encodeNumAt k buf off v = some (p ++ putLE k.size (k.bits v) ++ q, k.size) := by
  simp only [encodeNumAt]
  rw [storeAt_fit p x q _ hb ho (by simp [h])]
  simp

theorem encodeBoolAt_fit {buf : Bytes} {off : Nat} (p x q : Bytes) (v : Bool) (hb : buf = p ++ x ++ q)
    (ho : off = p.length) (h : x.length = 1) :
    encodeBoolAt buf off v = some (p ++ [if v then 1 else 0] ++ q, 1) := by
  simp only [encodeBoolAt]
  rw [storeAt_fit p x q _ hb ho (by simp [h])]
  simp

theorem encodeAnyAt_fit {buf : Bytes} {off : Nat} (p x q : Bytes) (a : AnyVal) (hb : buf = p ++ x ++ q)
    (ho : off = p.length) (h16 : a.typeHash.length = 16) (h : x.length = 16 + a.data.length) :
    encodeAnyAt buf off a = some (p ++ a.enc ++ q, off + 16 + a.data.length) := by
  obtain ⟨u, w, rfl, hu, hw⟩ := cut_at x 16 (by omega)
  simp only [List.length_append] at h hw
  simp only [encodeAnyAt, AnyHashSize]
  rw [List.take_of_length_le (by omega)]
  rw [storeAt_fit p u (w ++ q) a.typeHash (by simp [hb]) ho (by omega)]
  simp only [Option.bind_eq_bind, Option.bind_some]
  rw [copyAt_fit (p ++ a.typeHash) w q a.data (by simp) (by simp [ho, h16]) (by omega)]
  simp [AnyVal.enc_eq h16]

theorem encodeAnysAt_fit (items : List AnyVal) : ∀ {buf : Bytes} {off : Nat} (p x q : Bytes),
    buf = p ++ x ++ q → off = p.length → (∀ a ∈ items, a.typeHash.length = 16) →
    x.length = (anysEnc items).length →
    encodeAnysAt buf off items = some (p ++ anysEnc items ++ q, off + (anysEnc items).length) := by
  induction items with
  | nil =>
    intro buf off p x q hb ho _ hx
    have : x = [] := List.length_eq_zero_iff.mp (by simpa [anysEnc] using hx)
    subst this
    simp [encodeAnysAt, anysEnc, hb]
  | cons a items ih =>
    intro buf off p x q hb ho h16 hx
    have ha := h16 a (List.mem_cons_self ..)
    have hl := AnyVal.enc_length a
    have hcons : anysEnc (a :: items) = a.enc ++ anysEnc items := by simp [anysEnc]
    rw [hcons] at hx ⊢
    simp only [List.length_append] at hx
    obtain ⟨u, w, rfl, hu, hw⟩ := cut_at x a.enc.length (by omega)
    simp only [List.length_append] at hx hw
    simp only [encodeAnysAt]
    rw [encodeAnyAt_fit p u (w ++ q) a (by simp [hb]) ho ha (by omega)]
    simp only [Option.bind_eq_bind, Option.bind_some]
    rw [ih (p ++ a.enc) w q (by simp) (by simp [ho, hl]; omega)
      (fun b hb => h16 b (List.mem_cons_of_mem _ hb)) (by omega)]
    simp [hl]; omega

theorem KTy.encodeAt_fit (t : KTy) {buf : Bytes} {off : Nat} (p x q : Bytes) (v : t.Val) (hb : buf = p ++ x ++ q)
    (ho : off = p.length) (h : x.length = (t.enc v).length) :
    t.encodeAt buf off v = some (p ++ t.enc v ++ q, (t.enc v).length) := by
  cases t
  case str =>
    simp only [KTy.enc, List.length_append, putLE_length] at h ⊢
    exact encodeTextAt_fit p x q v hb ho h
  case bool => exact encodeBoolAt_fit p x q v hb ho h
  case num k =>
    simp only [KTy.enc, putLE_length] at h ⊢
    exact encodeNumAt_fit k p x q v hb ho h

theorem VTy.encodeAt_fit (t : VTy) {buf : Bytes} {off : Nat} (p x q : Bytes) (v : t.Val) (hs : t.Storable v)
    (hb : buf = p ++ x ++ q) (ho : off = p.length) (h : x.length = (t.enc v).length) :
    t.encodeAt buf off v = some (p ++ t.enc v ++ q, (t.enc v).length) := by
  cases t
  case str =>
    simp only [VTy.enc, List.length_append, putLE_length] at h ⊢
    exact encodeTextAt_fit p x q v hb ho h
  case bytes =>
    simp only [VTy.enc, List.length_append, putLE_length] at h ⊢
    exact encodeTextAt_fit p x q v hb ho h
  case bool => exact encodeBoolAt_fit p x q v hb ho h
  case num k =>
    simp only [VTy.enc, putLE_length] at h ⊢
    exact encodeNumAt_fit k p x q v hb ho h
  case struct m =>
    simp only [VTy.enc] at h ⊢
    simp only [VTy.encodeAt]
    rw [copyAt_fit p x q v hb ho h.symm]
    simp
  case any =>
    cases v with
    | none => exact absurd hs id
    | some a =>
      have hl := AnyVal.enc_length a
      simp only [VTy.enc] at h ⊢
      simp only [VTy.encodeAt]
      rw [encodeAnyAt_fit p x q a hb ho hs.1 (by omega)]
      simp [hl, AnyHashSize]
  case listAny =>
    simp only [VTy.enc, List.length_append, putLE_length] at h ⊢
    obtain ⟨u, w, rfl, hu, hw⟩ := cut_at x 4 (by omega)
    simp only [List.length_append] at h hw
    simp only [VTy.encodeAt]
    rw [storeAt_fit p u (w ++ q) (putLE 4 v.length) (by simp [hb]) ho (by simp [hu])]
    simp only [Option.bind_eq_bind, Option.bind_some]
    rw [encodeAnysAt_fit v (p ++ putLE 4 v.length) w q (by simp) (by simp [ho]) hs.hashes (by omega)]
    simp; omega

theorem encodeEntries_fit (kt : KTy) (vt : VTy) (es : List (kt.Val × vt.Val)) :
    ∀ {buf : Bytes} {off : Nat} (p x q : Bytes), buf = p ++ x ++ q → off = p.length →
    (∀ e ∈ es, vt.Storable e.2) → x.length = (entriesEnc kt vt es).length →
    encodeEntries kt vt buf off (es.map Prod.fst) (es.map Prod.snd) = some (p ++ entriesEnc kt vt es ++ q) := by
  induction es with
  | nil =>
    intro buf off p x q hb ho _ hx
    have : x = [] := List.length_eq_zero_iff.mp (by simpa [entriesEnc] using hx)
    subst this
    simp [encodeEntries, entriesEnc, hb]
  | cons e es ih =>
    intro buf off p x q hb ho hs hx
    simp only [entriesEnc, List.length_append] at hx ⊢
    obtain ⟨u, w, rfl, hu, hw⟩ := cut_at x (kt.enc e.1).length (by omega)
    simp only [List.length_append] at hx hw
    obtain ⟨u', w', rfl, hu', hw'⟩ := cut_at w (vt.enc e.2).length (by omega)
    simp only [List.length_append] at hx hw'
    simp only [List.map_cons, encodeEntries]
    rw [KTy.encodeAt_fit kt p u (u' ++ w' ++ q) e.1 (by simp [hb]) ho hu]
    simp only [Option.bind_eq_bind, Option.bind_some]
    rw [VTy.encodeAt_fit vt (p ++ kt.enc e.1) u' (w' ++ q) e.2 (hs e (List.mem_cons_self ..)) (by simp)
      (by simp [ho]) hu']
    simp only [Option.bind_some]
    rw [ih (p ++ kt.enc e.1 ++ vt.enc e.2) w' q (by simp) (by simp [ho, Nat.add_assoc])
      (fun x hx => hs x (List.mem_cons_of_mem _ hx)) (by omega)]
    simp

theorem keySize_eq (kt : KTy) (k : kt.Val) : kt.keySize k = kt.size k := by cases kt <;> rfl

theorem foldl_add_sum {α : Type} (f : α → Nat) (l : List α) : ∀ a, l.foldl (fun n x => n + f x) a = a + (l.map f).sum := by
  induction l with
  | nil => intro a; simp
  | cons x l ih => intro a; simp [ih]; omega

theorem valueSize_eq (vt : VTy) (v : vt.Val) : vt.valueSize v = vt.size v := by
  cases vt
  case any => cases v <;> rfl
  case listAny => simp only [VTy.valueSize, VTy.size]; exact foldl_add_sum _ v 4
  all_goals rfl

theorem mapDataSize_eq (kt : KTy) (vt : VTy) (es : List (kt.Val × vt.Val)) :
    mapDataSize kt vt (es.map Prod.fst) (es.map Prod.snd) = entryBytes kt vt es := by
  induction es with
  | nil => rfl
  | cons e es ih => simp [mapDataSize, entryBytes, keySize_eq, valueSize_eq, ih]

theorem KTy.ft_lt (kt : KTy) : kt.ft < 2 ^ 8 := by
  cases kt
  case num k => cases k <;> decide
  all_goals decide

theorem VTy.ft_lt (vt : VTy) : vt.ft < 2 ^ 8 := by
  cases vt
  case num k => cases k <;> decide
  case struct m => show 14 < 256; decide
  all_goals decide

theorem zeros_split (a b c : Nat) (h : a = b + c) : zeros a = zeros b ++ zeros c := by
  subst h; simp only [zeros, List.replicate_append_replicate]

theorem mapBlob_eq (kt : KTy) (vt : VTy) (fn : Nat) (es : List (kt.Val × vt.Val))
    (hs : ∀ e ∈ es, vt.Storable e.2) (hsz : 8 + (entryBytes kt vt es + 7) / 8 * 8 ≤ 2 ^ 24 - 1) :
    mapBlob kt vt fn (es.map Prod.fst) (es.map Prod.snd) =
      some (hdr fn FTMap (kt.ft + 256 * vt.ft + 65536 * (8 + (entryBytes kt vt es + 7) / 8 * 8)) ++
        (entriesEnc kt vt es ++ zeros (paddingNeeded (entryBytes kt vt es)))) := by
  have hp := paddingNeeded_sum (entryBytes kt vt es)
  simp only [mapBlob, mapDataSize_eq, HeaderSize]
  rw [Nat.add_assoc, hp, Nat.mod_eq_of_lt (by omega)]
  rw [encodeMapHeaderAt_eq (by simp) fn kt.ft_lt vt.ft_lt (by simp only [MaxMapSize]; omega)]
  simp only [Option.bind_eq_bind, Option.bind_some]
  have hz : (zeros (8 + (entryBytes kt vt es + 7) / 8 * 8)).drop 8 =
      zeros (entryBytes kt vt es) ++ zeros (paddingNeeded (entryBytes kt vt es)) := by
    rw [zeros_split _ 8 _ rfl, List.drop_left' (by simp), ← zeros_split _ _ _ hp.symm]
  rw [hz]
  rw [encodeEntries_fit kt vt es (hdr fn FTMap (kt.ft + 256 * vt.ft + 65536 * (8 + (entryBytes kt vt es + 7) / 8 * 8)))
    (zeros (entryBytes kt vt es)) (zeros (paddingNeeded (entryBytes kt vt es))) (by simp) (by simp) hs
    (by rw [entriesEnc_length kt vt es]; simp)]
  simp

theorem anyBlob_eq (fn : Nat) (a : AnyVal) (h16 : a.typeHash.length = 16) (hs : 16 + a.data.length < 2 ^ 32) :
    anyBlob fn a = some (hdr fn FTAny (14 + 256 * (16 + a.data.length)) ++ a.enc) := by
  simp only [anyBlob, AnyHashSize, HeaderSize]
  rw [Nat.mod_eq_of_lt hs]
  rw [encodeAnyHeaderAt_eq (by simp) fn (by decide) hs]
  simp only [Option.bind_eq_bind, Option.bind_some]
  have hz : (zeros (8 + (16 + a.data.length))).drop 8 = zeros 16 ++ zeros a.data.length := by
    rw [zeros_split _ 8 _ rfl, List.drop_left' (by simp), ← zeros_split _ _ _ rfl]
  rw [hz, List.take_of_length_le (by omega)]
  rw [storeAt_fit (hdr fn FTAny (14 + 256 * (16 + a.data.length))) (zeros 16) (zeros a.data.length) a.typeHash (by simp) (by simp) (by simp [h16])]
  simp only [Option.bind_some]
  rw [copyAt_fit (hdr fn FTAny (14 + 256 * (16 + a.data.length)) ++ a.typeHash) (zeros a.data.length) [] a.data (by simp) (by simp [h16]) (by simp)]
  simp [AnyVal.enc_eq h16]

theorem packAnys_fit (items : List AnyVal) : ∀ {buf : Bytes} {off : Nat} (p x q : Bytes),
    buf = p ++ x ++ q → off = p.length → (∀ a ∈ items, a.typeHash.length = 16) →
    x.length = (anysEnc items).length →
    packAnys buf off items = some (p ++ anysEnc items ++ q) := by
  induction items with
  | nil =>
    intro buf off p x q hb ho _ hx
    have : x = [] := List.length_eq_zero_iff.mp (by simpa [anysEnc] using hx)
    subst this
    simp [packAnys, anysEnc, hb]
  | cons a items ih =>
    intro buf off p x q hb ho h16 hx
    have ha := h16 a (List.mem_cons_self ..)
    have hl := AnyVal.enc_length a
    have hcons : anysEnc (a :: items) = a.enc ++ anysEnc items := by simp [anysEnc]
    rw [hcons] at hx ⊢
    simp only [List.length_append] at hx
    obtain ⟨u, w, rfl, hu, hw⟩ := cut_at x 16 (by omega)
    simp only [List.length_append] at hx hw
    obtain ⟨u', w', rfl, hu', hw'⟩ := cut_at w a.data.length (by omega)
    simp only [List.length_append] at hx hw'
    simp only [packAnys, AnyHashSize]
    rw [List.take_of_length_le (by omega)]
    rw [storeAt_fit p u (u' ++ w' ++ q) a.typeHash (by simp [hb]) ho (by omega)]
    simp only [Option.bind_eq_bind, Option.bind_some]
    rw [storeAt_fit (p ++ a.typeHash) u' (w' ++ q) a.data (by simp) (by simp [ho, ha]) (by omega)]
    simp only [Option.bind_some]
    rw [ih (p ++ a.typeHash ++ a.data) w' q (by simp) (by simp [ho, ha, Nat.add_assoc])
      (fun b hb => h16 b (List.mem_cons_of_mem _ hb)) (by omega)]
    simp [AnyVal.enc_eq ha]

theorem anysBlob_eq (fn : Nat) (vs : List AnyVal) (h16 : ∀ a ∈ vs, a.typeHash.length = 16)
    (hs : vs.length < 2 ^ 40) :
    anysBlob fn vs = some (hdr fn FTListAny vs.length ++ anysEnc vs) := by
  simp only [anysBlob, foldl_add_sum, HeaderSize, Nat.zero_add, AnyHashSize, ← anysEnc_length vs]
  rw [encodeHeaderAt_eq (by simp) fn FTListAny hs]
  simp only [Option.bind_eq_bind, Option.bind_some]
  have hz : (zeros (8 + (anysEnc vs).length)).drop 8 = zeros (anysEnc vs).length := by
    rw [zeros_split _ 8 _ rfl, List.drop_left' (by simp)]
  rw [hz, packAnys_fit vs (hdr fn FTListAny vs.length) (zeros (anysEnc vs).length) [] (by simp) (by simp) h16 (by simp)]
  simp

end Claw
