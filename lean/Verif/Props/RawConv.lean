import Verif.Lemmas.RawConv
import Verif.Lemmas.Maps
import Verif.Props.Struct

/-!
# C124 Conversion to and from Raw structs
-/

namespace Claw.RawConv

theorem sizes_within {m : Nat} : ∀ {ops : List Op} {r : List Val}, WithinFrom m ops r → 8 + sizes r < 2 ^ 32 →
    8 + sizes (specOps ops r) < 2 ^ 32
  | [], _, _, h => by simpa [specOps] using h
  | op :: ops, r, h, _ => by
    simp only [WithinFrom] at h
    simp only [specOps]
    exact sizes_within h.2.2 h.2.1

theorem noAnys_length : ∀ {vs : List Val} {tys : List Ty}, NoAnys vs tys → vs.length = tys.length
  | [], [], _ => rfl
  | [], _ :: _, h => by simp [NoAnys] at h
  | _ :: _, [], h => by simp [NoAnys] at h
  | _ :: vs, _ :: tys, h => by simp only [NoAnys] at h; simp [noAnys_length h.2]

/-- **C124** For every schema and every Raw struct of its types below 4 GiB, NewFooFromRaw succeeds and makes a struct whose
record is the one the Raw struct stands for, and ToRaw of it gives the Raw struct of that record.
Missing: values that are not clean (lists of strings and maps whose padding is taken for items, maps of 16 MiB), 4 GiB. -/
theorem C124_exact_partial (tys : List Ty) (raw : List RawField) (hty : RawsHaveTy raw tys) (hc : RawsClean raw)
    (hm : tys.length ≤ 65536) (hs : 8 + sizes (records raw) < 2 ^ 32) :
    specRun tys.length (fromRaw tys raw) = records raw ∧
      ∃ s, run tys.length (fromRaw tys raw) = .ok s ∧ toRaw tys s = .ok (raws tys (records raw)) := by
  have e := fromRaw_spec hty
  refine ⟨e, ?_⟩
  have := toRaw_run tys.length (fromRaw tys raw) tys (fromRaw_within hty hc hm hs)
    (by rw [e]; exact records_tidy raw hc) rfl (by rw [e]; exact records_ty raw tys hty)
  rwa [e] at this

/-- **C124** A Raw struct comes back from NewFooFromRaw and ToRaw as it was, if no value is one of those that are lost:
minus zero, slices and maps that are empty but not nil, anything in a field of type `any` or `[]any`, pointers to Raw structs
of zeros, items that are nil. -/
theorem C124_round_trip_partial (tys : List Ty) (raw : List RawField) (hty : RawsHaveTy raw tys) (hc : RawsClean raw)
    (hp : RawsPlain raw) (hm : tys.length ≤ 65536) (hs : 8 + sizes (records raw) < 2 ^ 32) :
    ∃ s, run tys.length (fromRaw tys raw) = .ok s ∧ toRaw tys s = .ok raw := by
  obtain ⟨_, s, h1, h2⟩ := C124_exact_partial tys raw hty hc hm hs
  exact ⟨s, h1, by rw [h2, plains_back raw tys hty hp]⟩

/-- **C124** A struct that is converted to its Raw struct and back marshals to the same bytes, if it has nothing in fields of
type `any` or `[]any`. The struct may have been built by any calls in any order. -/
theorem C124_back_partial (tys : List Ty) (ops : List Op) (hfit : Within tys.length ops)
    (htidy : Tidies (specRun tys.length ops)) (hn : NoAnys (specRun tys.length ops) tys) :
    ∃ s raw s' msg s1 s1', run tys.length ops = .ok s ∧ toRaw tys s = .ok raw ∧
      run tys.length (fromRaw tys raw) = .ok s' ∧ s.marshal = .ok (msg, s1) ∧ s'.marshal = .ok (msg, s1') := by
  obtain ⟨s, h1, h2⟩ := toRaw_run tys.length ops tys hfit htidy rfl (noAnys_ty _ tys hn)
  have hcan : Canons (specRun tys.length ops) :=
    (ops_sound tys.length ops _ (sounds_replicate _) hfit.2).canon (by simpa [specRun] using htidy)
  obtain ⟨e1, e2, e3⟩ := records_back (specRun tys.length ops) tys hn hcan
  have hsz : 8 + sizes (specRun tys.length ops) < 2 ^ 32 := sizes_within hfit.2 (by rw [sizes_absent]; decide)
  have hw := fromRaw_within e2 e3 hfit.1 (by rw [e1]; exact hsz)
  have hspec := fromRaw_spec e2
  rw [e1] at hspec
  obtain ⟨t, t', msg, u, u', g1, g2, g3, g4⟩ := C05_canonical_partial tys.length ops (fromRaw tys (raws tys _)) hfit hw hspec.symm
  rw [h1] at g1
  obtain rfl := Res.ok.inj g1
  exact ⟨s, _, t', msg, u, u', h1, h2, g2, g3, g4⟩

/-! ### The order in which a Go map is visited -/

theorem set_new {K V : Type} {cmp : K → K → Int} (hl : CmpLaws cmp) {m : GoMap K V} {E} (h : MRep cmp m E) (k : K) (v : V)
    (hk : ∀ p ∈ E, cmp p.1 k ≠ 0) : ∃ m' E', m.set cmp k v = .ok m' ∧ MRep cmp m' E' ∧ m'.dirty = true ∧ E'.Perm ((k, v) :: E) := by
  obtain ⟨A, B, rfl, hA, ⟨k0, v0, B', rfl, he, hB, hf⟩ | ⟨hB, hf, hp⟩⟩ := h.find hl k
  · exact absurd he (hk (k0, v0) (by simp))
  · refine ⟨⟨(A.map Prod.fst) ++ k :: B.map Prod.fst, (A.map Prod.snd) ++ v :: B.map Prod.snd, true⟩,
      A ++ (k, v) :: B, ?_, ⟨by simp, by simp, ?_⟩, rfl, List.perm_middle⟩
    · simp only [GoMap.set, hf, hp, Res.ok_bind, goInsert, h.keys, h.vals]
      simp
    · have := h.sorted
      rw [List.pairwise_append, List.pairwise_cons] at *
      refine ⟨this.1, ⟨fun b hb => (hl.swap _ _).mpr (hB b hb), this.2.1⟩, fun a ha b hb => ?_⟩
      rcases List.mem_cons.mp hb with rfl | hb
      · exact hA a ha
      · exact this.2.2 a ha b hb

theorem sets_rep {V : Type} (t : KTy) (l : List (t.Val × V)) : ∀ (m : GoMap t.Val V) E, MRep t.compare m E →
    (E ++ l).Pairwise (fun a b => ¬ t.Same a.1 b.1) → (l ≠ [] ∨ m.dirty = true) →
    ∃ m' E', runMOps t.compare (l.map fun p => .set p.1 p.2) m = .ok m' ∧ MRep t.compare m' E' ∧ m'.dirty = true ∧
      E'.Perm (E ++ l) := by
  induction l with
  | nil =>
    intro m E h _ hd
    exact ⟨m, E, rfl, h, by simpa using hd, by simp⟩
  | cons p l ih =>
    intro m E h hp hd
    have hk : ∀ q ∈ E, t.compare q.1 p.1 ≠ 0 := by
      intro q hq he
      rw [List.pairwise_append] at hp
      exact hp.2.2 q hq p (by simp) ((t.compare_same _ _).mp he)
    obtain ⟨m1, E1, h1, h2, h3, h4⟩ := set_new t.laws h p.1 p.2 hk
    have hperm : (E1 ++ l).Perm (E ++ p :: l) := (h4.append_right l).trans List.perm_middle.symm
    have hsym : ∀ {a b : t.Val × V}, ¬ t.Same a.1 b.1 → ¬ t.Same b.1 a.1 := by
      intro a b hab hba
      rw [← t.compare_same] at *
      exact hab (t.laws.symm _ _ hba)
    obtain ⟨m2, E2, g1, g2, g3, g4⟩ := ih m1 E1 h2 (hperm.symm.pairwise hp hsym) (.inr h3)
    exact ⟨m2, E2, by simp [runMOps, MOp.run, h1, g1], g2, g3, g4.trans hperm⟩

theorem sorted_perm {α : Type} {R : α → α → Prop} (hR : ∀ a b, R a b → R b a → False) :
    ∀ {a b : List α}, a.Pairwise R → b.Pairwise R → a.Perm b → a = b
  | [], b, _, _, h => by simpa using h.nil_eq
  | x :: a, b, ha, hb, h => by
    cases b with
    | nil => simpa using h.eq_nil
    | cons y b =>
      have hxy : x = y := by
        have h1 : x ∈ y :: b := h.subset (by simp)
        have h2 : y ∈ x :: a := h.symm.subset (by simp)
        rcases List.mem_cons.mp h1 with e | h1
        · exact e
        · rcases List.mem_cons.mp h2 with e | h2
          · exact e.symm
          · exact (hR x y ((List.pairwise_cons.mp ha).1 y h2) ((List.pairwise_cons.mp hb).1 x h1)).elim
      subst hxy
      rw [sorted_perm hR (List.pairwise_cons.mp ha).2 (List.pairwise_cons.mp hb).2 h.cons_inv]

/-- **C124** NewFooFromRaw visits the entries of a Go map in an order nobody knows. Whatever the order, the map it makes is
the same, with exactly the entries, if no two keys are the same (as in a Go map, but for NaN). -/
theorem C124_map_order {V : Type} (t : KTy) (l l' : List (t.Val × V)) (hp : l.Perm l')
    (hd : l.Pairwise fun a b => ¬ t.Same a.1 b.1) :
    ∃ m, runMOps t.compare (l.map fun p => .set p.1 p.2) GoMap.new = .ok m ∧
      runMOps t.compare (l'.map fun p => .set p.1 p.2) GoMap.new = .ok m ∧
      (m.keys.zip m.vals).Perm l ∧ m.keys.Pairwise t.Before := by
  have hsym : ∀ {a b : t.Val × V}, ¬ t.Same a.1 b.1 → ¬ t.Same b.1 a.1 := by
    intro a b hab hba
    rw [← t.compare_same] at *
    exact hab (t.laws.symm _ _ hba)
  by_cases hl : l = []
  · subst hl
    obtain rfl := hp.nil_eq
    exact ⟨GoMap.new, rfl, rfl, by simp [GoMap.new], by simp [GoMap.new]⟩
  · obtain ⟨m, E, h1, h2, h3, h4⟩ := sets_rep t l GoMap.new [] MRep.new (by simpa using hd) (.inl hl)
    obtain ⟨m', E', g1, g2, g3, g4⟩ := sets_rep t l' GoMap.new [] MRep.new (by simpa using hp.pairwise hd hsym)
      (.inl (fun e => hl (by rw [e] at hp; exact hp.eq_nil)))
    simp only [List.nil_append] at h4 g4
    have hE : E = E' := sorted_perm (fun a b hab hba => by have := (t.laws.swap _ _).mp hab; omega) h2.sorted g2.sorted
      (h4.trans (hp.trans g4.symm))
    subst hE
    have hm : m = m' := by
      obtain ⟨k1, v1, d1⟩ := m
      obtain ⟨k2, v2, d2⟩ := m'
      have a := h2.keys; have b := h2.vals; have c := g2.keys; have d := g2.vals
      simp only at a b c d h3 g3
      rw [a, b, c, d, h3, g3]
    subst hm
    refine ⟨m, h1, g1, ?_, ?_⟩
    · rw [h2.keys, h2.vals]
      have : (E.map Prod.fst).zip (E.map Prod.snd) = E := by
        clear h1 h2 h3 h4 g1 g2 g3 g4
        induction E with
        | nil => rfl
        | cons p E ih => simp [ih]
      rw [this]; exact h4
    · exact h2.sortedKeys.imp fun {a b} hab => (t.compare_before a b).mp hab

example : ([(3, 1), (1, 2), (2, 3)] : List (Int32 × Nat)).Perm [(1, 2), (2, 3), (3, 1)] ∧
    ([(3, 1), (1, 2), (2, 3)] : List ((KTy.num .i32).Val × Nat)).Pairwise fun a b => ¬ (KTy.num .i32).Same a.1 b.1 := by
  refine ⟨by decide, ?_⟩
  simp [KTy.Same]

/-- **C124, where the code falls short** A Go map may hold several NaN keys; the order in which they are visited decides which
value is kept. -/
theorem C124_nan_order : ∃ m m' : GoMap (KTy.num .f64).Val Nat,
    runMOps (KTy.num .f64).compare [.set ⟨0x7ff8000000000001⟩ 1, .set ⟨0x7ff8000000000001⟩ 2] GoMap.new = .ok m ∧
      runMOps (KTy.num .f64).compare [.set ⟨0x7ff8000000000001⟩ 2, .set ⟨0x7ff8000000000001⟩ 1] GoMap.new = .ok m' ∧
      m.vals = [2] ∧ m'.vals = [1] :=
  ⟨⟨[⟨0x7ff8000000000001⟩], [2], true⟩, ⟨[⟨0x7ff8000000000001⟩], [1], true⟩, by decide +kernel, by decide +kernel, rfl, rfl⟩

/-! ### What is lost -/

theorem raws_get : ∀ (tys : List Ty) (vs : List Val) (i : Nat) (ty : Ty), tys[i]? = some ty →
    (raws tys vs)[i]? = some (Ty.raw ty (vs.getD i .absent))
  | [], _, _, _, h => by simp at h
  | ty :: tys, [], 0, _, h => by simp at h; subst h; simp [raws]
  | ty :: tys, [], i + 1, _, h => by
    have := raws_get tys [] i _ (by simpa using h)
    simp only [raws, List.getElem?_cons_succ, this]
    simp
  | ty :: tys, v :: vs, 0, _, h => by simp at h; subst h; simp [raws]
  | ty :: tys, v :: vs, i + 1, _, h => by
    have := raws_get tys vs i _ (by simpa using h)
    simp only [raws, List.getElem?_cons_succ, this]
    simp

/-- **C124, where the code falls short** Whatever a Raw struct has in a field of type `any` or `[]any`, NewFooFromRaw does not
store it, and ToRaw has nil there. -/
theorem C124_any_lost (tys : List Ty) (raw : List RawField) (hty : RawsHaveTy raw tys) (hc : RawsClean raw)
    (hm : tys.length ≤ 65536) (hs : 8 + sizes (records raw) < 2 ^ 32) (i : Nat) (t : STy) (hi : tys[i]? = some (.scalar t))
    (ht : t = .any ∨ t = .lany) :
    (specRun tys.length (fromRaw tys raw)).getD i .absent = .absent ∧
      ∃ s raw', run tys.length (fromRaw tys raw) = .ok s ∧ toRaw tys s = .ok raw' ∧ raw'[i]? = some (.slice t none) := by
  obtain ⟨e, s, h1, h2⟩ := C124_exact_partial tys raw hty hc hm hs
  have key : ∀ (raw : List RawField) (tys : List Ty) (i : Nat), RawsHaveTy raw tys → tys[i]? = some (.scalar t) →
      (records raw).getD i .absent = .absent := by
    intro raw
    induction raw with
    | nil => intro tys i _ _; simp [records]
    | cons f raw ih =>
      intro tys i h hi
      cases tys with
      | nil => simp at hi
      | cons ty tys =>
        simp only [RawsHaveTy] at h
        cases i with
        | zero =>
          simp only [List.getElem?_cons_zero, Option.some.injEq] at hi
          subst hi
          simp only [records, List.getD_cons_zero]
          cases f with
          | scalar t' v =>
            obtain ⟨rfl, hp⟩ := h.1
            rcases ht with rfl | rfl <;> simp [plain] at hp
          | slice t' v =>
            obtain ⟨rfl, _⟩ := h.1
            cases v with
            | none => simp [RawField.record]
            | some v => rcases ht with rfl | rfl <;> simp [RawField.record]
          | _ => simp [RawField.HasTy] at h
        | succ i =>
          simp only [records, List.getD_cons_succ]
          exact ih tys i h.2 (by simpa using hi)
  have hk := key raw tys i hty hi
  refine ⟨by rw [e, hk], s, _, h1, h2, ?_⟩
  rw [raws_get tys (records raw) i _ hi, hk]
  rcases ht with rfl | rfl <;> simp [Ty.raw, scalarRaw, plain]

/-- A message in an Any is dropped, the number beside it is kept. -/
example : ∃ s, run 2 (fromRaw [.scalar .any, .scalar .i32]
      [.slice .any (some (some ⟨List.replicate 16 7, []⟩)), .scalar .i32 5]) = .ok s ∧
    toRaw [.scalar .any, .scalar .i32] s = .ok [.slice .any none, .scalar .i32 5] := by
  obtain ⟨_, s, h1, h2⟩ := C124_exact_partial [.scalar .any, .scalar .i32]
    [.slice .any (some (some ⟨List.replicate 16 7, []⟩)), .scalar .i32 5] (by simp [RawsHaveTy, RawField.HasTy, plain])
    (by simp [RawsClean, RawField.Clean, STy.Clean, STy.Storable]) (by decide)
    (by simp [records, RawField.record, specScalar, STy.isZero, sizes, Val.size]; decide)
  exact ⟨s, h1, by rw [h2]; rfl⟩

/-- **C124, where the code falls short** ToRaw never gives what a struct has in an `any` field, whatever its type or value: the
Any that the struct was built with is not in the Raw struct, and so the struct made from that has other bytes. -/
theorem C124_any_bytes : ∃ s raw s' msg msg' s1 s1',
    run 1 [.set 0 .any (some ⟨List.replicate 16 7, [16, 0, 0, 0, 0, 0, 0, 0]⟩)] = .ok s ∧ toRaw [.scalar .any] s = .ok raw ∧
      run 1 (fromRaw [.scalar .any] raw) = .ok s' ∧ s.marshal = .ok (msg, s1) ∧ s'.marshal = .ok (msg', s1') ∧
      msg.length = 40 ∧ msg'.length = 8 := by
  refine ⟨_, [.slice .any none], _, _, _, _, _, rfl, rfl, rfl, rfl, rfl, ?_, ?_⟩ <;> decide +kernel

/-- **C124, where the code falls short** A slice or map that is empty but not nil comes back nil, whatever its type. -/
theorem C124_empty_lost (t : STy) (v : t.Val) (ht : plain t = false) (hz : t.isZero v = true) (hc : t.Clean v) :
    ∃ s, run 1 (fromRaw [.scalar t] [.slice t (some v)]) = .ok s ∧ toRaw [.scalar t] s = .ok [.slice t none] := by
  have hr : (RawField.slice t (some v)).record = .absent := by
    by_cases h : t = .any ∨ t = .lany
    · rcases h with rfl | rfl <;> simp [RawField.record]
    · rw [slice_record (fun e => h (.inl e)) (fun e => h (.inr e))]; simp [specScalar, hz]
  obtain ⟨_, s, h1, h2⟩ := C124_exact_partial [.scalar t] [.slice t (some v)] (by simp [RawsHaveTy, RawField.HasTy, ht])
    (by
      simp only [RawsClean, RawField.Clean, Option.some.injEq, and_true]
      rintro x rfl _ _
      exact hc) (by simp) (by simp [records, hr, sizes, Val.size])
  exact ⟨s, h1, by rw [h2]; simp [records, hr, raws, Ty.raw, scalarRaw, ht]⟩

example : plain .lstr = false ∧ STy.lstr.isZero [] = true ∧ STy.lstr.Clean [] := by simp [plain, STy.isZero, STy.Clean, itemBytes]

/-- **C124, where the code falls short** A pointer to a Raw struct in which all is zero or nil comes back nil. -/
theorem C124_zero_struct (tys : List Ty) (fs : List RawField) (hty : RawsHaveTy fs tys) (hc : RawsClean fs)
    (hm : tys.length ≤ 65536) (hz : ∀ v ∈ records fs, v = .absent) :
    ∃ s, run 1 (fromRaw [.struct tys] [.struct fs]) = .ok s ∧ toRaw [.struct tys] s = .ok [.nilStruct] := by
  have hr : (RawField.struct fs).record = .absent := by
    simp only [RawField.record, specStruct]
    rw [if_pos]
    simp only [List.all_eq_true]
    intro v hv; rw [hz v hv]; rfl
  obtain ⟨_, s, h1, h2⟩ := C124_exact_partial [.struct tys] [.struct fs] (by simp [RawsHaveTy, RawField.HasTy, hm, hty])
    (by simp [RawsClean, RawField.Clean, hc]) (by simp) (by simp [records, hr, sizes, Val.size])
  exact ⟨s, h1, by rw [h2]; simp [records, hr, raws, Ty.raw]⟩

example : ∃ s, run 1 (fromRaw [.struct [.scalar .i32, .scalar .bytes]] [.struct [.scalar .i32 0, .slice .bytes none]]) = .ok s ∧
    toRaw [.struct [.scalar .i32, .scalar .bytes]] s = .ok [.nilStruct] :=
  C124_zero_struct _ _ (by simp [RawsHaveTy, RawField.HasTy, plain]) (by simp [RawsClean, RawField.Clean, STy.Clean, STy.Storable])
    (by decide) (by simp [records, RawField.record, specScalar, STy.isZero])

/-- The items that are not nil. -/
def kept : List RawField → List (List RawField)
  | [] => []
  | .struct fs :: items => fs :: kept items
  | _ :: items => kept items

theorem itemRecords_kept (items : List RawField) : itemRecords items = (kept items).map records := by
  induction items with
  | nil => simp [itemRecords, kept]
  | cons f items ih => cases f <;> simp [itemRecords, kept, ih]

/-- **C124, where the code falls short** Items of a list that are nil are left out: the list that comes back has only the
others, moved forward, and is nil if there are none. -/
theorem C124_nil_items (tys : List Ty) (items : List RawField) (hty : RawItemsHaveTy items tys) (hc : RawItemsClean items)
    (hm : tys.length ≤ 65536) (hs : 16 + itemSizes (itemRecords items) < 2 ^ 32)
    (hp : ∀ fs ∈ kept items, raws tys (records fs) = fs) :
    ∃ s, run 1 (fromRaw [.structs tys] [.structs items]) = .ok s ∧
      toRaw [.structs tys] s = .ok [if kept items = [] then .nilStructs else .structs ((kept items).map .struct)] := by
  obtain ⟨_, s, h1, h2⟩ := C124_exact_partial [.structs tys] [.structs items] (by simp [RawsHaveTy, RawField.HasTy, hm, hty])
    (by simp [RawsClean, RawField.Clean, hc]) (by simp) (by
      simp only [records, RawField.record, specStructs, sizes]
      split
      · simp [Val.size]
      · simp only [Val.size]; omega)
  refine ⟨s, h1, ?_⟩
  rw [h2]
  simp only [records, raws, RawField.record, specStructs, itemRecords_kept]
  by_cases hk : kept items = []
  · rw [if_pos hk, if_pos (by simp [hk])]
    simp only [Ty.raw]
  · rw [if_neg hk, if_neg (by simpa using hk)]
    simp only [Ty.raw, List.map_map]
    congr 3
    exact List.map_congr_left fun fs hfs => by simp [hp fs hfs]

example : ∃ s, run 1 (fromRaw [.structs [.scalar .u8]]
      [.structs [.nilStruct, .struct [.scalar .u8 1], .nilStruct, .struct [.scalar .u8 0]]]) = .ok s ∧
    toRaw [.structs [.scalar .u8]] s = .ok [.structs [.struct [.scalar .u8 1], .struct [.scalar .u8 0]]] := by
  have := C124_nil_items [.scalar .u8] [.nilStruct, .struct [.scalar .u8 1], .nilStruct, .struct [.scalar .u8 0]]
    (by simp [RawItemsHaveTy, RawsHaveTy, RawField.HasTy, plain])
    (by simp [RawItemsClean, RawsClean, RawField.Clean, STy.Clean, STy.Storable]) (by decide)
    (by simp [itemRecords, records, RawField.record, specScalar, STy.isZero, itemSizes, sizes, Val.size, scalarSize])
    (by simp [kept, records, RawField.record, specScalar, STy.isZero, raws, Ty.raw, scalarRaw, plain, STy.zero])
  simpa [kept] using this

/-- **C124, where the code falls short** Minus zero comes back as zero. -/
theorem C124_minus_zero : ∃ s, run 1 (fromRaw [.scalar .f64] [.scalar .f64 ⟨0x8000000000000000⟩]) = .ok s ∧
    toRaw [.scalar .f64] s = .ok [.scalar .f64 ⟨0⟩] := by
  obtain ⟨_, s, h1, h2⟩ := C124_exact_partial [.scalar .f64] [.scalar .f64 ⟨0x8000000000000000⟩]
    (by simp [RawsHaveTy, RawField.HasTy, plain]) (by simp [RawsClean, RawField.Clean, STy.Clean, STy.Storable]) (by decide)
    (by decide +kernel)
  exact ⟨s, h1, by rw [h2]; rfl⟩

/-! ### The hypotheses can be met -/

/-- A schema with a number, text, a list, a map, a nested struct and a list of structs. -/
def shopTys : List Ty :=
  [.scalar .i32, .scalar .str, .scalar (.lnum .u64), .scalar (.map .str (.num .i64)), .struct [.scalar .bool, .scalar .bytes],
    .structs [.scalar .f64], .scalar .any]

/-- A Raw struct of that schema. -/
def shopRaw : List RawField :=
  [.scalar .i32 5, .scalar .str [104, 105], .slice (.lnum .u64) (some [1, 2, 3]),
    .slice (.map .str (.num .i64)) (some [([97, 98, 99, 100], (7 : Int64))]), .struct [.scalar .bool false, .slice .bytes (some [1])],
    .structs [.struct [.scalar .f64 ⟨0⟩], .struct [.scalar .f64 ⟨1⟩]], .slice .any none]

theorem shop_ty : RawsHaveTy shopRaw shopTys := by
  simp [shopRaw, shopTys, RawsHaveTy, RawItemsHaveTy, RawField.HasTy, plain]

theorem shop_clean : RawsClean shopRaw := by
  simp only [shopRaw, RawsClean, RawItemsClean, RawField.Clean, STy.Clean, STy.Storable, Option.some.injEq, and_true, true_and]
  refine ⟨by simp, ?_, by simp, by simp⟩
  rintro x rfl _ _
  refine ⟨⟨by simp [VTy.Storable], by decide +kernel⟩, by decide +kernel⟩

theorem shop_plain : RawsPlain shopRaw := by
  simp [shopRaw, RawsPlain, RawItemsPlain, RawField.Plain, RawsSet, STy.isZero, F64.isZero, STy.zero]

example : ∃ s, run 7 (fromRaw shopTys shopRaw) = .ok s ∧ toRaw shopTys s = .ok shopRaw :=
  C124_round_trip_partial shopTys shopRaw shop_ty shop_clean shop_plain (by decide) (by decide +kernel)

example : Within shopTys.length (fromRaw shopTys shopRaw) ∧ Tidies (specRun shopTys.length (fromRaw shopTys shopRaw)) ∧
    NoAnys (specRun shopTys.length (fromRaw shopTys shopRaw)) shopTys := by
  refine ⟨fromRaw_within shop_ty shop_clean (by decide) (by decide +kernel), ?_, ?_⟩
  · rw [fromRaw_spec shop_ty]; exact records_tidy _ shop_clean
  · rw [fromRaw_spec shop_ty]
    simp [shopRaw, shopTys, records, itemRecords, RawField.record, specScalar, specStruct, specStructs, STy.isZero, F64.isZero,
      NoAnys, NoAny, NoAnyItems, Val.isAbsent]

end Claw.RawConv
