import Verif.Lemmas.Patch

/-!
# What Diff reads and when it finds nothing
-/

namespace Claw

set_option linter.unusedSimpArgs false

/-! ### Fields of a struct with list objects -/

/-- `x` holds the record `vs` of the schema `tys`. -/
def Child (tys : List Ty) (x : St) (vs : List Val) : Prop :=
  x.isSetEnabled = false ∧
  ∃ r pad, Rep r x (padTo pad (encs vs 0)) ∧ x.idx.length = tys.length ∧ Canons vs ∧ vs.length ≤ 65536 ∧
    FieldsHaveTy vs tys

/-- `xs` hold the records `items`. -/
def Children (tys : List Ty) : List St → List (List Val) → Prop
  | [], [] => True
  | x :: xs, vs :: items => Child tys x vs ∧ Children tys xs items
  | _, _ => False

/-- The getters of field `i`, of type `ty`, give `w`: a list that is nil gives `absent`, one that is there but
empty gives the empty list. -/
def Fld (L : LSt) (i : Nat) : Ty → Val → Prop
  | .scalar t, w =>
    if t.isList = true then
      (w = .absent ∧ L.look i t = .ok none) ∨ ∃ v, w = .scalar t v ∧ L.look i t = .ok (some v)
    else t.get L.st i = .ok (listIn t w)
  | .struct tys, w =>
    (w = .absent ∧ getNestedStruct L.st i tys.length = .ok none) ∨
      ∃ vs x, w = .struct vs ∧ getNestedStruct L.st i tys.length = .ok (some x) ∧ Child tys x vs
  | .structs tys, w =>
    (w = .absent ∧ getListStructs L.st i tys.length = .ok none) ∨
      ∃ items xs, w = .structs items ∧ items ≠ [] ∧ getListStructs L.st i tys.length = .ok (some xs) ∧
        Children tys xs items

theorem parseFieldIndex_isSet {s s' : St} (h : s.parseFieldIndex = .ok s') : s'.isSetEnabled = s.isSetEnabled := by
  obtain ⟨i, _, e⟩ := Res.bind_eq_ok.1 h
  simp at e
  rw [← e]

theorem nested_isSet {s c : St} {fn m : Nat} (h : getNestedStruct s fn m = .ok (some c)) :
    c.isSetEnabled = false := by
  obtain ⟨⟨⟨off, size⟩, s1⟩, _, e⟩ := Res.bind_eq_ok.1 h
  simp only at e
  split at e
  · simp at e
  · obtain ⟨d, _, e⟩ := Res.bind_eq_ok.1 e
    obtain ⟨c', e1, e⟩ := Res.bind_eq_ok.1 e
    simp at e
    subst e
    simpa using parseFieldIndex_isSet e1

theorem parseStructs_isSet (m : Nat) (extra : Bytes) (fuel : Nat) : ∀ (rest : Bytes) (xs : List St),
    parseStructsF m extra fuel rest = .ok xs → ∀ x ∈ xs, x.isSetEnabled = false := by
  induction fuel with
  | zero => intro rest xs h; simp [parseStructsF] at h; subst h; simp
  | succ fuel ih =>
    intro rest xs h
    rw [parseStructsF] at h
    split at h
    · split at h
      · simp at h; subst h; simp
      · split at h
        · simp at h; subst h; simp
        · split at h
          · simp at h; subst h; simp
          · obtain ⟨c, e1, e⟩ := Res.bind_eq_ok.1 h
            obtain ⟨cs, e2, e⟩ := Res.bind_eq_ok.1 e
            simp at e
            subst e
            intro x hx
            rcases List.mem_cons.1 hx with rfl | hx
            · simpa using parseFieldIndex_isSet e1
            · exact ih _ _ e2 x hx
    · simp at h; subst h; simp

theorem listStructs_isSet {s : St} {fn m : Nat} {xs : List St} (h : getListStructs s fn m = .ok (some xs)) :
    ∀ x ∈ xs, x.isSetEnabled = false := by
  obtain ⟨⟨⟨off, size⟩, s1⟩, _, e⟩ := Res.bind_eq_ok.1 h
  simp only at e
  split at e
  · simp at e
  · split at e
    · obtain ⟨d, _, e⟩ := Res.bind_eq_ok.1 e
      obtain ⟨c', e1, e⟩ := Res.bind_eq_ok.1 e
      simp at e
      subst e
      exact parseStructs_isSet _ _ _ _ _ e1
    · simp at e; subst e; simp

theorem items_children (tys : List Ty) (xs : List St) (items : List (List Val))
    (hf : ∀ x ∈ xs, x.isSetEnabled = false)
    (h : ItemsRep tys.length xs items) (hc : ItemsCanon items) (ht : ItemsHaveTy items tys) :
    Children tys xs items := by
  induction xs generalizing items with
  | nil =>
    cases items with
    | nil => trivial
    | cons _ _ => simp [ItemsRep] at h
  | cons x xs ih =>
    cases items with
    | nil => simp [ItemsRep] at h
    | cons vs items =>
      simp only [ItemsRep, ItemsCanon, ItemsHaveTy] at h hc ht
      obtain ⟨⟨r, h1, h2⟩, h3⟩ := h
      exact ⟨⟨hf x (by simp), r, _, h1, h2, hc.2.1, hc.1, ht.1⟩,
        ih items (fun y hy => hf y (by simp [hy])) h3 hc.2.2 ht.2⟩

theorem look_uncached {L : LSt} {i : Nat} (h : L.lists i = none) {r : Nat} {fs : List Bytes} (hr : Rep r L.st fs)
    {t : STy} {o : Option t.Val} (hg : ∀ s', Rep r s' fs → s'.idx.length = L.st.idx.length → t.getList s' i = .ok o) :
    L.look i t = .ok o := by
  have e := hg _ hr.parsed (by simp [idxOf])
  simp only [LSt.look, LSt.getL, h, hr.ensure, Res.ok_bind, e]
  cases o with
  | none => rfl
  | some v => simp [LSt.items]

/-- A field read from the segment. -/
theorem fld_segment {L : LSt} {i : Nat} {r pad : Nat} {vs : List Val} (h : Rep r L.st (padTo pad (encs vs 0)))
    (hi : i < L.st.idx.length) (hc : Canons vs) (hm : vs.length ≤ 65536) (ty : Ty)
    (ht : (vs.getD i .absent).HasTy ty) (hn : L.lists i = none) : Fld L i ty (vs.getD i .absent) := by
  have hblob : blob (padTo pad (encs vs 0)) i = (vs.getD i .absent).enc i := by
    rw [blob_padTo, blob_encs, Nat.zero_add]
  have hcan := hc.get i
  have hsz : (vs.getD i .absent).size < 2 ^ 32 := by
    have h1 := sizes_ge vs i
    have h2 := h.small
    rw [total_padTo, total_encs] at h2
    omega
  have hi16 : (vs.getD i .absent).isAbsent = false → i < 2 ^ 16 := by
    intro hp
    rcases Nat.lt_or_ge i vs.length with h' | h'
    · omega
    · rw [List.getD_eq_getElem?_getD, List.getElem?_eq_none h'] at hp; simp [Val.isAbsent] at hp
  generalize hv : vs.getD i .absent = v at *
  match ty, v with
  | .scalar t, .absent =>
    have hb : blob (padTo pad (encs vs 0)) i = [] := by rw [hblob]; simp [Val.enc]
    rw [Fld]
    split
    · exact .inl ⟨rfl, look_uncached hn h fun s' h' _ => getList_absent h' i hb t⟩
    · exact get_absent h i (.inr hb) t
  | .struct tys, .absent =>
    exact .inl ⟨rfl, getNested_absent h i _ (Or.inr (by rw [hblob]; simp [Val.enc]))⟩
  | .structs tys, .absent =>
    exact .inl ⟨rfl, getListStructs_absent h i _ (Or.inr (by rw [hblob]; simp [Val.enc]))⟩
  | .scalar t, .scalar t' x =>
    simp only [Val.HasTy] at ht
    subst ht
    simp only [Val.Canon] at hcan
    have hg : ∀ s', Rep r s' (padTo pad (encs vs 0)) → s'.idx.length = L.st.idx.length → t'.get s' i = .ok x :=
      fun s' h' hl => get_scalar h' t' x (by omega) (hi16 (by simp [Val.isAbsent])) hcan.1
        (by simpa [Val.size] using hsz) hcan.2 (by rw [hblob, Val.enc])
    simp only [Fld]
    split
    · rename_i hl
      exact .inr ⟨x, rfl, look_uncached hn h fun s' h' hs =>
        getList_of_get t' s' i x hl hcan.1 (hg s' h' hs)⟩
    · rw [hg _ h rfl]; simp [listIn]
  | .structs tys, .structs items =>
    simp only [Val.HasTy] at ht
    simp only [Val.Canon] at hcan
    obtain ⟨cs, h1, h2⟩ := getListStructs_present h tys.length items hi hblob hcan.2 hcan.1
    exact .inr ⟨items, cs, rfl, hcan.1, h1, items_children tys cs items (listStructs_isSet h1) h2 hcan.2 ht⟩
  | .struct tys, .struct ws =>
    simp only [Val.HasTy] at ht
    simp only [Val.Canon] at hcan
    simp only [Val.size] at hsz
    obtain ⟨c, h1, h2, h3⟩ := getNested_present h (gs := encs ws 0) tys.length hi
      (by rw [hblob, Val.enc]) (encs_wf ws hcan.1 (by omega) hcan.2.2)
    exact .inr ⟨ws, c, rfl, h1, nested_isSet h1, i, tys.length, h2, h3, hcan.2.2, hcan.1, ht⟩

theorem child_fld {tys : List Ty} {x : St} {vs : List Val} (h : Child tys x vs) (i : Nat) (ty : Ty)
    (hi : tys[i]? = some ty) : Fld (LSt.ofSt x) i ty (vs.getD i .absent) := by
  obtain ⟨_, r, pad, h1, h2, h3, h4, h5⟩ := h
  exact fld_segment (L := LSt.ofSt x) h1
    (by show i < x.idx.length; rw [h2]; exact (List.getElem?_eq_some_iff.1 hi).1) h3 h4 ty (h5.get i ty hi) rfl

/-! ### Comparing lists -/

section
variable {α : Type} {eqv : α → α → Bool} {E : α → α → Prop} (fn : UInt16) (enc : α → Bytes)

theorem setOps_nil (hE : ∀ x y, eqv x y = true ↔ E x y) (i : Nat) (xs ys : List α) :
    setOps fn eqv enc i xs ys = [] ↔ ∀ (j : Nat) (x y : α), xs[j]? = some x → ys[j]? = some y → E x y := by
  induction xs generalizing i ys with
  | nil => simp [setOps]
  | cons x xs ih =>
    cases ys with
    | nil => simp [setOps]
    | cons y ys =>
      rw [setOps]
      by_cases he : eqv x y = true
      · rw [if_pos he, ih]
        constructor
        · intro h j x' y' hx hy
          cases j with
          | zero => simp at hx hy; subst hx hy; exact (hE _ _).1 he
          | succ j => exact h j x' y' (by simpa using hx) (by simpa using hy)
        · intro h j x' y' hx hy
          exact h (j + 1) x' y' (by simpa using hx) (by simpa using hy)
      · rw [if_neg he]
        simp only [reduceCtorEq, false_iff]
        intro h
        exact he ((hE _ _).2 (h 0 x y rfl rfl))

theorem insOps_length (i : Nat) (ys : List α) : (insOps fn enc i ys).length = ys.length := by
  induction ys generalizing i with
  | nil => rfl
  | cons y ys ih => simp [insOps, ih]

theorem remOps_length (lo n : Nat) : (remOps fn lo n).length = n := by
  induction n with
  | zero => rfl
  | succ n ih => simp [remOps, ih]

theorem orReplace_nil (ops : List POp) (a b : Nat) (d : Bytes) : orReplace fn ops a b d = [] ↔ ops = [] := by
  unfold orReplace
  split
  · rename_i h
    constructor
    · intro e; simp at e
    · intro e; rw [e] at h; simp at h
  · rfl

theorem edits_nil (sets : List POp) (data : List α) (a b : Nat) (repl : Bytes) (hb : data.length = b) :
    orReplace fn (sets ++ insOps fn enc a (data.drop a) ++ remOps fn b (a - b)) a b repl = [] ↔
      sets = [] ∧ a = b := by
  rw [orReplace_nil, ← List.length_eq_zero_iff]
  simp only [List.length_append, insOps_length, remOps_length, List.length_drop]
  rw [← List.length_eq_zero_iff]
  omega

theorem diffList_nil (hE : ∀ x y, eqv x y = true ↔ E x y) (repl : List α → Bytes) (a b : List α) :
    diffList fn eqv enc repl a b = [] ↔ EqvLists E a b := by
  rw [diffList, edits_nil fn enc _ b _ _ _ rfl, setOps_nil fn enc hE, EqvLists]
  constructor <;> exact fun h => ⟨h.2, h.1⟩

end

theorem F32.same_iff (x y : F32) : F32.same x y = true ↔ NTy.Eqv .f32 x y := by
  simp only [F32.same, F32.eqv, NTy.Eqv, Bool.or_eq_true, Bool.and_eq_true, Bool.not_eq_true', beq_iff_eq]
  have hx : x.bits = y.bits ↔ x = y := by cases x; cases y; simp
  have hz : ∀ z : F32, z.isZero = true → z.isNaN = false := by
    intro z h
    simp only [F32.isZero, Bool.or_eq_true, beq_iff_eq] at h
    rcases h with h | h <;> simp [F32.isNaN, h]
  rw [hx]
  constructor
  · rintro (h | ⟨_, h | h⟩)
    · exact .inr (.inl h)
    · exact .inl h
    · exact .inr (.inr h)
  · rintro (rfl | h | h)
    · cases x.isNaN <;> simp
    · exact .inl h
    · exact .inr ⟨⟨hz x h.1, hz y h.2⟩, .inr h⟩

theorem F64.same_iff (x y : F64) : F64.same x y = true ↔ NTy.Eqv .f64 x y := by
  simp only [F64.same, F64.eqv, NTy.Eqv, Bool.or_eq_true, Bool.and_eq_true, Bool.not_eq_true', beq_iff_eq]
  have hx : x.bits = y.bits ↔ x = y := by cases x; cases y; simp
  have hz : ∀ z : F64, z.isZero = true → z.isNaN = false := by
    intro z h
    simp only [F64.isZero, Bool.or_eq_true, beq_iff_eq] at h
    rcases h with h | h <;> simp [F64.isNaN, h]
  rw [hx]
  constructor
  · rintro (h | ⟨_, h | h⟩)
    · exact .inr (.inl h)
    · exact .inl h
    · exact .inr (.inr h)
  · rintro (rfl | h | h)
    · cases x.isNaN <;> simp
    · exact .inl h
    · exact .inr ⟨⟨hz x h.1, hz y h.2⟩, .inr h⟩

theorem NTy.same_iff (k : NTy) (x y : k.Val) : k.same x y = true ↔ k.Eqv x y := by
  cases k
  case f32 => exact F32.same_iff x y
  case f64 => exact F64.same_iff x y
  all_goals simp only [NTy.same, NTy.Eqv]; exact beq_iff_eq

theorem STy.same_iff (t : STy) (x y : t.Val) (ht : t.plain = true) : t.same x y = true ↔ t.Eqv x y := by
  cases t <;> simp only [STy.plain, Bool.false_eq_true] at ht
  case f32 => exact F32.same_iff x y
  case f64 => exact F64.same_iff x y
  all_goals simp only [STy.same, STy.Eqv]; exact beq_iff_eq

theorem eqvLists_eq {α : Type} (xs ys : List α) : EqvLists (fun x y => x = y) xs ys ↔ xs = ys := by
  constructor
  · rintro ⟨h1, h2⟩
    apply List.ext_getElem? 
    intro i
    cases hx : xs[i]? with
    | none =>
      rw [List.getElem?_eq_none_iff] at hx
      rw [eq_comm, List.getElem?_eq_none_iff]; omega
    | some x =>
      have : i < ys.length := by have := (List.getElem?_eq_some_iff.1 hx).1; omega
      rw [List.getElem?_eq_getElem this, h2 i x ys[i] hx (List.getElem?_eq_getElem this)]
  · rintro rfl
    exact ⟨rfl, fun i x y hx hy => by rw [hx] at hy; exact Option.some.inj hy⟩

theorem children_length {tys : List Ty} {xs : List St} {items : List (List Val)} (h : Children tys xs items) :
    xs.length = items.length := by
  induction xs generalizing items with
  | nil => cases items <;> simp [Children] at h ⊢
  | cons x xs ih =>
    cases items with
    | nil => simp [Children] at h
    | cons vs items => simp only [Children] at h; simp [ih h.2]

theorem patchItemOps_nil (fn : UInt16) (d : St → St → Res (Option (List POp))) (tys : List Ty)
    (hd : ∀ x y vs ws, Child tys x vs → Child tys y ws →
      (∀ ops, d x y = .ok (some ops) → (ops = [] ↔ SameFields tys vs ws)) ∧
      (DiffableFields tys vs ws → SameFields tys vs ws → d x y = .ok (some [])))
    (xs ys : List St) (va vb : List (List Val)) (hx : Children tys xs va) (hy : Children tys ys vb) (i : Nat) :
    (∀ ops, patchItemOps fn d i xs ys = .ok (some ops) → (ops = [] ↔ ∀ p ∈ va.zip vb, SameFields tys p.1 p.2)) ∧
    ((∀ p ∈ va.zip vb, DiffableFields tys p.1 p.2) → (∀ p ∈ va.zip vb, SameFields tys p.1 p.2) →
      patchItemOps fn d i xs ys = .ok (some [])) := by
  induction xs generalizing ys va vb i with
  | nil =>
    cases va with
    | cons _ _ => simp [Children] at hx
    | nil => simp [patchItemOps]
  | cons x xs ih =>
    cases va with
    | nil => simp [Children] at hx
    | cons v va =>
      cases ys with
      | nil =>
        cases vb with
        | cons _ _ => simp [Children] at hy
        | nil => simp [patchItemOps]
      | cons y ys =>
        cases vb with
        | nil => simp [Children] at hy
        | cons w vb =>
          simp only [Children] at hx hy
          obtain ⟨h1, h2⟩ := hd x y v w hx.1 hy.1
          obtain ⟨h3, h4⟩ := ih ys va vb hx.2 hy.2 (i + 1)
          simp only [List.zip_cons_cons, List.mem_cons, forall_eq_or_imp, patchItemOps]
          constructor
          · intro ops h
            obtain ⟨o, e1, e⟩ := Res.bind_eq_ok.1 h
            cases o with
            | none => simp at e
            | some o =>
              obtain ⟨o2, e2, e⟩ := Res.bind_eq_ok.1 e
              cases o2 with
              | none => simp at e
              | some o2 =>
                simp only at e
                split at e
                · rename_i h0
                  have h0 := List.length_eq_zero_iff.1 h0
                  simp at e
                  subst e
                  rw [h3 _ e2]
                  exact ⟨fun h => ⟨(h1 _ e1).1 h0, h⟩, fun h => h.2⟩
                · rename_i h0
                  obtain ⟨b, _, e⟩ := Res.bind_eq_ok.1 e
                  simp at e
                  subst e
                  simp only [reduceCtorEq, false_iff]
                  intro h
                  exact h0 (List.length_eq_zero_iff.2 ((h1 _ e1).2 h.1))
          · intro hA hB
            rw [h2 hA.1 hB.1, h4 hA.2 hB.2]
            simp

theorem view_marshal {tys : List Ty} {y : St} {vs : List Val} (h : Child tys y vs) :
    ∃ b, viewBytes y = .ok b := by
  obtain ⟨he, r, pad, h1, _⟩ := h
  exact ⟨_, by simp only [viewBytes, marshal_rep h1 he, Res.ok_bind]; rfl⟩

theorem views_marshal {tys : List Ty} {ys : List St} {items : List (List Val)} (h : Children tys ys items) :
    ∃ bs, mapRes viewBytes ys = .ok bs ∧ bs.length = ys.length := by
  induction ys generalizing items with
  | nil => exact ⟨[], rfl, rfl⟩
  | cons y ys ih =>
    cases items with
    | nil => simp [Children] at h
    | cons vs items =>
      obtain ⟨b, e1⟩ := view_marshal h.1
      obtain ⟨bs, e2, e3⟩ := ih h.2
      exact ⟨b :: bs, by simp [mapRes, e1, e2], by simp [e3]⟩

theorem mapRes_length {α β : Type} {f : α → Res β} {xs : List α} {ys : List β} (h : mapRes f xs = .ok ys) :
    ys.length = xs.length := by
  induction xs generalizing ys with
  | nil => simp [mapRes] at h; subst h; rfl
  | cons x xs ih =>
    obtain ⟨y, _, e⟩ := Res.bind_eq_ok.1 h
    obtain ⟨zs, e2, e⟩ := Res.bind_eq_ok.1 e
    simp at e
    subst e
    simp [ih e2]

/-! ### The theorem -/

theorem diffList_field {α : Type} {eqv : α → α → Bool} {E : α → α → Prop} (hE : ∀ x y, eqv x y = true ↔ E x y)
    (fn : UInt16) (enc : α → Bytes) (repl : List α → Bytes) (a b : List α) :
    (∀ ops, (Res.ok (some (diffList fn eqv enc repl a b)) : Res (Option (List POp))) = .ok (some ops) →
      (ops = [] ↔ EqvLists E a b)) ∧
    (EqvLists E a b → (Res.ok (some (diffList fn eqv enc repl a b)) : Res (Option (List POp))) = .ok (some [])) := by
  constructor
  · intro ops h
    simp at h
    subst h
    exact diffList_nil fn enc hE repl a b
  · intro h
    rw [(diffList_nil fn enc hE repl a b).2 h]

/-- The items of a list field. -/
theorem fld_list {L : LSt} {i : Nat} {t : STy} {w : Val} (h : Fld L i (.scalar t) w) (hl : t.isList = true) :
    ∃ o, L.look i t = .ok o ∧ o.getD t.zero = listIn t w ∧ (o = none → w = .absent) ∧ (w = .absent → o = none) := by
  simp only [Fld, hl, if_true] at h
  rcases h with ⟨rfl, h⟩ | ⟨v, rfl, h⟩
  · exact ⟨none, h, rfl, by simp, by simp⟩
  · exact ⟨some v, h, by simp [listIn], by simp, by simp⟩

theorem diffField_plain (t : STy) (ht : t.plain = true) (a b : LSt) (i : Nat) : diffField (.scalar t) a b i = (do
    let x ← t.get a.st i
    let y ← t.get b.st i
    if t.same x y then return some []
    else if (t = .bytes ∨ t = .str) ∧ t.isZero y ∧ t.isZero x = false then
      return some [⟨UInt16.ofNat i, PClear, -1, []⟩]
    else return some [⟨UInt16.ofNat i, PSet, -1, t.patchData y⟩]) := by
  cases t <;> simp only [STy.plain, Bool.false_eq_true] at ht <;> rw [diffField] <;> simp

theorem diffPlain_nil (t : STy) (ht : t.plain = true) (La Lb : LSt) (i : Nat) (a b : Val)
    (ha : Fld La i (.scalar t) a) (hb : Fld Lb i (.scalar t) b) :
    (∀ ops, diffField (.scalar t) La Lb i = .ok (some ops) → (ops = [] ↔ (Ty.scalar t).Same a b)) ∧
    ((Ty.scalar t).Diffable a b → (Ty.scalar t).Same a b → diffField (.scalar t) La Lb i = .ok (some [])) := by
  have hl : t.isList = false := by cases t <;> first | rfl | simp [STy.plain] at ht
  simp only [Fld, hl, Bool.false_eq_true, if_false] at ha hb
  rw [diffField_plain t ht]
  simp only [ha, hb, Res.ok_bind, Ty.Same]
  by_cases h : t.same (listIn t a) (listIn t b) = true
  · have := (t.same_iff _ _ ht).1 h
    simp [h, this]
  · have hn : ¬ t.Eqv (listIn t a) (listIn t b) := fun e => h ((t.same_iff _ _ ht).2 e)
    have h' : t.same (listIn t a) (listIn t b) = false := by simpa using h
    simp only [h', Bool.false_eq_true, if_false, hn, iff_false]
    refine ⟨?_, fun _ h => h.elim⟩
    intro ops e
    split at e <;> rw [← Option.some.inj (Res.ok.inj e)] <;> simp

mutual
theorem diffField_nil (ty : Ty) (La Lb : LSt) (i : Nat) (a b : Val) (ha : Fld La i ty a) (hb : Fld Lb i ty b) :
    (∀ ops, diffField ty La Lb i = .ok (some ops) → (ops = [] ↔ ty.Same a b)) ∧
    (ty.Diffable a b → ty.Same a b → diffField ty La Lb i = .ok (some [])) := by
  match ty with
  | .scalar .lbool =>
    obtain ⟨x, x1, x2, _⟩ := fld_list ha rfl
    obtain ⟨y, y1, y2, _⟩ := fld_list hb rfl
    obtain ⟨h1, h2⟩ := diffList_field (E := fun x y => x = y) (eqv := fun p q : Bool => p == q) (by simp)
      (UInt16.ofNat i) boolData (fun l => l.map fun p => if p then 1 else 0) (x.getD []) (y.getD [])
    simp only [diffField, x1, y1, Res.ok_bind, Res.pure_eq, Ty.Same, STy.Eqv, ← x2, ← y2]
    rw [eqvLists_eq] at h1 h2
    exact ⟨h1, fun _ => h2⟩
  | .scalar (.lnum k) =>
    obtain ⟨x, x1, x2, _⟩ := fld_list ha rfl
    obtain ⟨y, y1, y2, _⟩ := fld_list hb rfl
    obtain ⟨h1, h2⟩ := diffList_field (E := k.Eqv) (eqv := k.same) (k.same_iff)
      (UInt16.ofNat i) k.patchData (fun l => (l.map k.patchData).flatten) (x.getD []) (y.getD [])
    simp only [diffField, x1, y1, Res.ok_bind, Res.pure_eq, Ty.Same, STy.Eqv, ← x2, ← y2]
    exact ⟨h1, fun _ => h2⟩
  | .scalar .lstr =>
    obtain ⟨x, x1, x2, _⟩ := fld_list ha rfl
    obtain ⟨y, y1, y2, _⟩ := fld_list hb rfl
    obtain ⟨h1, h2⟩ := diffList_field (E := fun x y => x = y) (eqv := fun p q : Bytes => p == q) (by simp)
      (UInt16.ofNat i) id replData (x.getD []) (y.getD [])
    simp only [diffField, x1, y1, Res.ok_bind, Res.pure_eq, Ty.Same, STy.Eqv, ← x2, ← y2]
    rw [eqvLists_eq] at h1 h2
    exact ⟨h1, fun _ => h2⟩
  | .scalar .lbytes =>
    obtain ⟨x, x1, x2, x3, x4⟩ := fld_list ha rfl
    obtain ⟨y, y1, y2, y3, y4⟩ := fld_list hb rfl
    simp only [diffField, x1, y1, Res.ok_bind, Res.pure_eq, Ty.Same, STy.Eqv, ← x2, ← y2, Ty.Diffable]
    cases x with
    | none => simp [x3 rfl]
    | some x =>
      cases y with
      | none => simp [y3 rfl]
      | some y =>
        obtain ⟨h1, h2⟩ := diffList_field (E := fun x y => x = y) (eqv := fun p q : Bytes => p == q) (by simp)
          (UInt16.ofNat i) id replData x y
        rw [eqvLists_eq] at h1 h2
        exact ⟨h1, fun _ => h2⟩
  | .scalar .any => simp [diffField, Ty.Diffable]
  | .scalar .lany => simp [diffField, Ty.Diffable]
  | .scalar (.map _ _) => simp [diffField, Ty.Diffable]
  | .scalar .bool | .scalar .i8 | .scalar .i16 | .scalar .i32 | .scalar .i64 | .scalar .u8 | .scalar .u16
  | .scalar .u32 | .scalar .u64 | .scalar .f32 | .scalar .f64 | .scalar .bytes | .scalar .str =>
    exact diffPlain_nil _ rfl La Lb i a b ha hb
  | .struct tys =>
    simp only [Fld] at ha hb
    rcases ha with ⟨rfl, ha⟩ | ⟨va, x, rfl, ha, hx⟩ <;> rcases hb with ⟨rfl, hb⟩ | ⟨vb, y, rfl, hb, hy⟩
    · simp [diffField, ha, hb, Ty.Same]
    · simp only [diffField, ha, hb, Res.ok_bind, Ty.Same]
      refine ⟨?_, by simp⟩
      intro ops h
      obtain ⟨d, _, e⟩ := Res.bind_eq_ok.1 h
      simp at e
      simp [← e]
    · simp [diffField, ha, hb, Ty.Same]
    · obtain ⟨h1, h2⟩ := diffFields_nil tys (LSt.ofSt x) (LSt.ofSt y) 0 va vb
        (fun j ty hj => by rw [Nat.zero_add]; exact child_fld hx j ty hj)
        (fun j ty hj => by rw [Nat.zero_add]; exact child_fld hy j ty hj)
      simp only [diffField, ha, hb, Res.ok_bind, Ty.Same, Ty.Diffable]
      constructor
      · intro ops h
        obtain ⟨o, e1, e⟩ := Res.bind_eq_ok.1 h
        cases o with
        | none => simp at e
        | some o =>
          simp only at e
          split at e
          · rename_i h0
            simp at e
            subst e
            rw [← h1 _ e1]
            simp [List.length_eq_zero_iff.1 h0]
          · rename_i h0
            obtain ⟨b, _, e⟩ := Res.bind_eq_ok.1 e
            simp at e
            subst e
            rw [← h1 _ e1]
            have : o ≠ [] := fun e => h0 (by rw [e]; rfl)
            simp [this]
      · intro hd hs
        rw [h2 hd hs]
        simp
  | .structs tys =>
    have hA : ∃ xs, (∃ o, getListStructs La.st i tys.length = .ok o ∧ o.getD [] = xs) ∧ Children tys xs (itemsIn a) := by
      rcases ha with ⟨rfl, ha⟩ | ⟨va, x, rfl, _, ha, hx⟩
      · exact ⟨[], ⟨none, ha, rfl⟩, trivial⟩
      · exact ⟨x, ⟨some x, ha, rfl⟩, hx⟩
    have hB : ∃ xs, (∃ o, getListStructs Lb.st i tys.length = .ok o ∧ o.getD [] = xs) ∧ Children tys xs (itemsIn b) := by
      rcases hb with ⟨rfl, ha⟩ | ⟨va, x, rfl, _, ha, hx⟩
      · exact ⟨[], ⟨none, ha, rfl⟩, trivial⟩
      · exact ⟨x, ⟨some x, ha, rfl⟩, hx⟩
    obtain ⟨xs, ⟨o, o1, rfl⟩, hx⟩ := hA
    obtain ⟨ys, ⟨p, p1, rfl⟩, hy⟩ := hB
    obtain ⟨h1, h2⟩ := patchItemOps_nil (UInt16.ofNat i) (fun p q => diffFields tys (LSt.ofSt p) (LSt.ofSt q) 0) tys
      (fun x y vs ws hx hy => diffFields_nil tys (LSt.ofSt x) (LSt.ofSt y) 0 vs ws
        (fun j ty hj => by rw [Nat.zero_add]; exact child_fld hx j ty hj)
        (fun j ty hj => by rw [Nat.zero_add]; exact child_fld hy j ty hj)) _ _ _ _ hx hy 0
    have lx := children_length hx
    have ly := children_length hy
    simp only [diffField, o1, p1, Res.ok_bind, Ty.Same, Ty.Diffable]
    constructor
    · intro ops h
      obtain ⟨sets, e1, e⟩ := Res.bind_eq_ok.1 h
      cases sets with
      | none => simp at e
      | some sets =>
        obtain ⟨data, e2, e⟩ := Res.bind_eq_ok.1 e
        simp only [Res.pure_eq] at e
        have e := Option.some.inj (Res.ok.inj e)
        rw [← e, edits_nil _ _ _ _ _ _ _ (mapRes_length e2), h1 _ e1, lx, ly]
        exact ⟨fun h => ⟨h.2, h.1⟩, fun h => ⟨h.2, h.1⟩⟩
    · intro hd hs
      obtain ⟨data, e1, e2⟩ := views_marshal hy
      rw [h2 hd hs.2, e1]
      simp only [Res.ok_bind, Res.pure_eq]
      rw [(edits_nil _ _ _ _ _ _ _ e2).2 ⟨rfl, by omega⟩]
theorem diffFields_nil (tys : List Ty) (La Lb : LSt) (i : Nat) (va vb : List Val)
    (ha : ∀ j ty, tys[j]? = some ty → Fld La (i + j) ty (va.getD j .absent))
    (hb : ∀ j ty, tys[j]? = some ty → Fld Lb (i + j) ty (vb.getD j .absent)) :
    (∀ ops, diffFields tys La Lb i = .ok (some ops) → (ops = [] ↔ SameFields tys va vb)) ∧
    (DiffableFields tys va vb → SameFields tys va vb → diffFields tys La Lb i = .ok (some [])) := by
  match tys with
  | [] => simp [diffFields, SameFields]
  | ty :: tys =>
    obtain ⟨h1, h2⟩ := diffField_nil ty La Lb i (va.headD .absent) (vb.headD .absent)
      (by have := ha 0 ty rfl; cases va <;> exact this) (by have := hb 0 ty rfl; cases vb <;> exact this)
    obtain ⟨h3, h4⟩ := diffFields_nil tys La Lb (i + 1) va.tail vb.tail
      (by
        intro j ty' hj
        have := ha (j + 1) ty' hj
        rw [show i + 1 + j = i + (j + 1) by omega]
        cases va <;> simpa using this)
      (by
        intro j ty' hj
        have := hb (j + 1) ty' hj
        rw [show i + 1 + j = i + (j + 1) by omega]
        cases vb <;> simpa using this)
    simp only [diffFields, SameFields, DiffableFields]
    constructor
    · intro ops h
      obtain ⟨o, e1, e⟩ := Res.bind_eq_ok.1 h
      cases o with
      | none => simp at e
      | some o =>
        obtain ⟨o2, e2, e⟩ := Res.bind_eq_ok.1 e
        cases o2 with
        | none => simp at e
        | some o2 =>
          simp at e
          subst e
          rw [List.append_eq_nil_iff, h1 _ e1, h3 _ e2]
    · intro hd hs
      rw [h2 hd.1 hs.1, h4 hd.2 hs.2]
      simp
end

end Claw
