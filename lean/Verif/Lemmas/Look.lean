import Verif.Model.Look
import Verif.Spec.Look
import Verif.Props.ListCache
import Verif.Props.Alias

/-!
# A struct and what was obtained from it
-/

namespace Claw

/-- Where the encoding of a field is in the array of a struct. -/
theorem field_place {r : Nat} {s : St} {vs : List Val} (h : Rep r s (encs vs 0)) {fn : Nat} (hi : fn < vs.length) :
    ∃ A B, s.seg.data ++ s.seg.spare = A ++ ((vs.getD fn .absent).enc fn ++ B) ∧ A.length = 8 + sizes (vs.take fn) := by
  obtain ⟨A, B, hd, hA⟩ := h.split (i := fn) (by rw [encs_length]; exact hi)
  refine ⟨A, B ++ s.seg.spare, ?_, ?_⟩
  · rw [hd, blob_encs, Nat.zero_add]; simp
  · rw [hA, offsetOf, encs_take, encs_flatten_length]

/-- The memory at the place of a field begins with its encoding. -/
theorem field_mem {r : Nat} {s : St} {vs : List Val} (h : Rep r s (encs vs 0)) {fn : Nat} (hi : fn < vs.length) :
    ∃ B, (s.seg.data ++ s.seg.spare).drop (8 + sizes (vs.take fn)) = (vs.getD fn .absent).enc fn ++ B := by
  obtain ⟨A, B, h1, h2⟩ := field_place h hi
  exact ⟨B, by rw [h1, List.drop_left' h2]⟩

/-- The state of a struct that began and was changed. -/
theorem begins_rep {m : Nat} {r : List Val} {s : St} (hb : Begins m r s) (hm : m ≤ 65536) :
    Rep 0 s (encs r 0) ∧ s.idx.length = m ∧ r.length = m ∧ Canons r ∧ s.isSetEnabled = false := by
  obtain ⟨h1, h2⟩ := begins_inv (lists := fun _ => none) hb hm (fun fn t h => by simp at h)
  have h3 := h1.rep
  simp only [LSt.ofSt] at h3
  refine ⟨h3, ?_, h2, h1.canon, h1.cfg.1⟩
  have := h1.len
  simp only [LSt.ofSt] at this
  omega

/-- What is kept while calls are made on the struct. -/
structure LookInv (fn : Nat) (vs : List Val) (b : Bytes) (l : Look) : Prop where
  rep : Rep 0 l.owner (encs vs 0)
  canon : Canons vs
  shows : l.shows = b
  off : l.shared = true → l.off = 8 + sizes (vs.take fn) + 8
  len : l.len = b.length
  val : l.shared = true → vs.getD fn .absent = .scalar .bytes b

theorem shown_bytes {s : St} {vs : List Val} (h : Rep 0 s (encs vs 0)) {fn : Nat} {b : Bytes}
    (hv : vs.getD fn .absent = .scalar .bytes b) (hi : fn < vs.length) :
    ((s.seg.data ++ s.seg.spare).drop (8 + sizes (vs.take fn) + 8)).take b.length = b := by
  obtain ⟨B, hB⟩ := field_mem h hi
  rw [← List.drop_drop, hB, hv]
  simp only [Val.enc, scalarBlob, STy.tail]
  rw [List.append_assoc, List.drop_left' (by simp), List.append_assoc, List.take_left' rfl]

theorem look_bytes {s : St} {vs : List Val} (h : Rep 0 s (encs vs 0)) (hc : Canons vs) {fn : Nat} {b : Bytes}
    (hi : fn < s.idx.length) (hl : s.idx.length = vs.length) (hm : vs.length ≤ 65536)
    (hv : vs.getD fn .absent = .scalar .bytes b) :
    ∃ l, Look.bytes s fn = .ok (some l) ∧ LookInv fn vs b l ∧ l.shared = true ∧
      l.owner = { s with idx := idxOf s.idx.length (encs vs 0), parsed := true } := by
  have hb : blob (encs vs 0) fn = hdr fn FTBytes b.length ++ (b ++ zeros (paddingNeeded b.length)) := by
    rw [blob_encs, hv, Nat.zero_add]; rfl
  obtain ⟨A, B, hd, hA⟩ := h.split (i := fn) (by have := h.len; omega)
  have hcv := hc.get fn
  rw [hv] at hcv
  have hne0 : b.length ≠ 0 := by
    intro e
    have := List.length_eq_zero_iff.mp e
    subst this
    simp [Val.Canon, STy.isZero] at hcv
  have hsmall : b.length < 2 ^ 40 := by
    have := h.small
    have h2 := offsetOf_le_total (encs vs 0) fn
    rw [hb] at h2
    simp only [List.length_append, hdr_length] at h2
    omega
  have hne : blob (encs vs 0) fn ≠ [] := by
    intro e; have : (blob (encs vs 0) fn).length = 0 := by rw [e]; rfl
    rw [hb] at this; simp at this
  have hoff : offsetOf (encs vs 0) fn = 8 + sizes (vs.take fn) := by
    rw [offsetOf, encs_take, encs_flatten_length]
  have h1 := Seg.sub_eq s.seg A (hdr fn FTBytes b.length) (b ++ zeros (paddingNeeded b.length) ++ B)
    (by rw [hd, hb]; simp) (A.length + HeaderSize) (by simp [HeaderSize])
  have h2 := Seg.sub_eq s.seg (A ++ hdr fn FTBytes b.length) b (zeros (paddingNeeded b.length) ++ B)
    (by rw [hd, hb]; simp) (A.length + HeaderSize + b.length) (by simp [HeaderSize])
  rw [hA] at h1 h2
  simp only [List.length_append, hdr_length, hA] at h2
  have hdec := decodeHeader_hdr (fn := fn) (by omega) (ft := FTBytes) (by decide) hsmall []
  rw [List.append_nil] at hdec
  refine ⟨⟨{ s with idx := idxOf s.idx.length (encs vs 0), parsed := true }, 8 + sizes (vs.take fn) + 8, b.length,
    (s.seg.data ++ s.seg.spare).drop (8 + sizes (vs.take fn) + 8), true⟩, ?_, ?_, rfl, rfl⟩
  · simp only [Look.bytes, h.fieldOffset, Res.ok_bind, hi, if_true, entryOf, hne, if_false]
    rw [if_neg (by intro e; exact hne (List.length_eq_zero_iff.mp e)), h1]
    simp only [Res.ok_bind, hdec, Res.ofOption_some]
    rw [if_neg hne0]
    simp only [HeaderSize] at h2 ⊢
    rw [h2]
    simp only [Res.ok_bind, Res.pure_eq, hoff]
  · refine ⟨h.parsed, hc, shown_bytes h hv (by omega), fun _ => rfl, rfl, fun _ => hv⟩

/-- A struct without spare room that grows moves. -/
theorem grows_moves {s s' : St} {vs vs' : List Val} (h : Rep 0 s (encs vs 0)) (h' : Rep 0 s' (encs vs' 0))
    (hc : s'.seg.cap = s.seg.cap) : ¬ (s.seg.spare = [] ∧ sizes vs < sizes vs') := by
  rintro ⟨h1, h2⟩
  have d1 := congrArg List.length h.data
  have d2 := congrArg List.length h'.data
  simp only [List.length_append, hdr_length, encs_flatten_length] at d1 d2
  simp only [Seg.cap, h1, List.length_nil] at hc
  omega

/-- One call on the struct that leaves the field and its place alone. -/
theorem look_step {fn : Nat} {vs : List Val} {b : Bytes} {l : Look} (inv : LookInv fn vs b l) (op : Op)
    (hl : l.owner.idx.length = vs.length) (hm : vs.length ≤ 65536) (hi : fn < vs.length)
    (hfit : op.Fits vs.length) (hs : 8 + sizes (op.spec vs) < 2 ^ 32)
    (hst : l.shared = true → ¬ (l.owner.seg.spare = [] ∧ sizes vs < sizes (op.spec vs)) → (op.spec vs).getD fn .absent = vs.getD fn .absent ∧
      sizes ((op.spec vs).take fn) = sizes (vs.take fn)) :
    ∃ l', l.step op = .ok l' ∧ LookInv fn (op.spec vs) b l' ∧ l'.owner.idx.length = (op.spec vs).length ∧
      l'.owner.isSetEnabled = l.owner.isSetEnabled ∧ (l.shared = false → l'.shared = false) ∧
      (l.owner.seg.spare = [] → sizes vs < sizes (op.spec vs) → l'.shared = false) := by
  obtain ⟨s, e1, e2, e3, e4⟩ := op_rep op inv.rep (by omega) hm inv.canon (by rw [hl]; exact hfit) hs
  by_cases hc : l.shared = true ∧ s.seg.cap = l.owner.seg.cap
  · obtain ⟨h1, h2⟩ := hst hc.1 (grows_moves inv.rep e2 hc.2)
    refine ⟨{ l with owner := s, mem := (s.seg.data ++ s.seg.spare).drop l.off }, ?_, ?_, ?_, e3.enabled, ?_, ?_⟩
    · simp only [Look.step, e1, Res.ok_bind]; rw [if_pos hc]; rfl
    · refine ⟨e2, e4, ?_, fun h => by rw [h2]; exact inv.off h, inv.len, fun h => by rw [h1]; exact inv.val h⟩
      simp only [Look.shows]
      rw [inv.off hc.1, inv.len, ← h2]
      exact shown_bytes e2 (by rw [h1]; exact inv.val hc.1) (by rw [spec_length]; exact hi)
    · show s.idx.length = _
      rw [e3.len, spec_length]; exact hl
    · intro h; rw [hc.1] at h; cases h
    · intro h1 h2
      exact absurd ⟨h1, h2⟩ (grows_moves inv.rep e2 hc.2)
  · refine ⟨{ l with owner := s, shared := false }, ?_, ?_, ?_, e3.enabled, fun _ => rfl, fun _ _ => rfl⟩
    · simp only [Look.step, e1, Res.ok_bind]; rw [if_neg hc]; rfl
    · exact ⟨e2, e4, inv.shows, fun h => by simp at h, inv.len, fun h => by simp at h⟩
    · show s.idx.length = _
      rw [e3.len, spec_length]; exact hl

/-- Calls on the struct, each of which leaves the field and its place alone unless the struct has moved. -/
theorem look_run (ops : List Op) : ∀ {fn : Nat} {vs : List Val} {b : Bytes} {l : Look}, LookInv fn vs b l →
    l.owner.idx.length = vs.length → vs.length ≤ 65536 → fn < vs.length → FitsFrom vs.length ops vs →
    (l.shared = true → Still fn ops vs) →
    ∃ l', l.run ops = .ok l' ∧ l'.shows = b ∧ Rep 0 l'.owner (encs (specOps ops vs) 0) ∧
      l'.owner.isSetEnabled = l.owner.isSetEnabled := by
  induction ops with
  | nil =>
    intro fn vs b l inv _ _ _ _ _
    exact ⟨l, rfl, inv.shows, by simpa [specOps] using inv.rep, rfl⟩
  | cons op ops ih =>
    intro fn vs b l inv hl hm hi hf hst
    simp only [FitsFrom] at hf
    simp only [Still] at hst
    obtain ⟨l1, h1, h2, h3, h4, h5, _⟩ := look_step inv op hl hm hi hf.1 hf.2.1 (fun h _ => ⟨(hst h).1, (hst h).2.1⟩)
    have hsh : l1.shared = true → Still fn ops (op.spec vs) := by
      intro h
      cases hl' : l.shared with
      | true => exact (hst hl').2.2
      | false => rw [h5 hl'] at h; cases h
    obtain ⟨l2, k1, k2, k3, k4⟩ := ih h2 h3 (by rw [spec_length]; exact hm) (by rw [spec_length]; exact hi)
      (by rw [spec_length]; exact hf.2.2) hsh
    refine ⟨l2, ?_, k2, by simpa [specOps] using k3, k4.trans h4⟩
    simp only [Look.run, h1, Res.ok_bind, k1]

/-- Calls on later fields leave a field and its place alone. -/
theorem later_still (fn : Nat) (ops : List Op) : ∀ (r : List Val), Later fn ops → Still fn ops r := by
  induction ops with
  | nil => intro r _; trivial
  | cons op ops ih =>
    intro r h
    have h0 := h op (by simp)
    have hset : ∀ n x, op.field = some n → (r.set n x).getD fn .absent = r.getD fn .absent ∧
        sizes ((r.set n x).take fn) = sizes (r.take fn) := by
      intro n x hn
      have := h0 n hn
      constructor
      · rw [List.getD_eq_getElem?_getD, List.getD_eq_getElem?_getD, List.getElem?_set_ne (by omega)]
      · rw [List.take_set_of_le (by omega)]
    have key : (op.spec r).getD fn .absent = r.getD fn .absent ∧ sizes ((op.spec r).take fn) = sizes (r.take fn) := by
      cases op with
      | peek => exact ⟨rfl, rfl⟩
      | set n t v => exact hset n _ rfl
      | clear n => exact hset n _ rfl
      | nest n m' o => exact hset n _ rfl
      | nestNil n => exact hset n _ rfl
      | nestList n m' o => exact hset n _ rfl
    exact ⟨key.1, key.2, ih _ fun op' h' => h op' (by simp [h'])⟩

/-- A struct decoded from a message that ends where its array ends. -/
theorem decoded_full {m : Nat} {pre : List Op} (hfit : Fits m pre) {w w' f p : St} {msg : Bytes}
    (hw : run m pre = .ok w) (hmar : w.marshal = .ok (msg, w')) (hf : St.new m = .ok f)
    (hu : f.unmarshal msg [] = some p) : p.seg.spare = [] := by
  obtain ⟨h1, _⟩ := begins_rep (.decoded hfit hw hmar hf hu) hfit.1
  obtain ⟨s0, h0, hr, hl, he⟩ := new_rep m
  obtain ⟨s, g1, g2, g3, _⟩ := ops_rep pre hr (by rw [hl]; simp) (by simpa using hfit.1)
    (canons_replicate m) (by rw [hl]; exact hfit.2)
  have hrun : run m pre = .ok s := by simp [run, h0, g1]
  rw [hw] at hrun
  have hrun := Res.ok.inj hrun
  subst hrun
  rw [marshal_rep g2 (by rw [g3.enabled]; exact he.1)] at hmar
  simp only [Res.ok.injEq, Prod.mk.injEq] at hmar
  have hall : p.seg.data ++ p.seg.spare = msg := by
    simp only [St.unmarshal] at hu
    split at hu
    · simp at hu
    · split at hu
      · simp at hu
      · split at hu
        · simp at hu
        · split at hu
          · simp at hu
          · rw [← Option.some.inj hu]
            simp
  rw [h1.data, ← hmar.1] at hall
  have := congrArg List.length hall
  simp only [List.length_append, specRun] at this
  exact List.length_eq_zero_iff.mp (by omega)

/-! ### A nested struct -/

/-- What is kept while calls are made on the parent of a nested struct. -/
structure OwnInv (fn : Nat) (vs cvs : List Val) (v : View) : Prop where
  rep : Rep 0 v.parent (encs vs 0)
  canon : Canons vs
  child : Rep fn v.child (encs cvs 0)
  ckept : v.child.idx.length = cvs.length
  off : v.shared = true → v.off = 8 + sizes (vs.take fn)
  val : v.shared = true → vs.getD fn .absent = .struct cvs

theorem child_mem {s : St} {vs cvs : List Val} (h : Rep 0 s (encs vs 0)) {fn : Nat} {c : St}
    (hc : Rep fn c (encs cvs 0)) (hv : vs.getD fn .absent = .struct cvs) (hi : fn < vs.length) :
    ((s.seg.data ++ s.seg.spare).drop (8 + sizes (vs.take fn))).take c.seg.data.length = c.seg.data := by
  obtain ⟨B, hB⟩ := field_mem h hi
  rw [hB, hv, hc.data]
  simp only [Val.enc]
  exact List.take_left' rfl

theorem own_step {fn : Nat} {vs cvs : List Val} {v : View} (inv : OwnInv fn vs cvs v) (op : Op)
    (hl : v.parent.idx.length = vs.length) (hm : vs.length ≤ 65536) (hi : fn < vs.length)
    (hfit : op.Fits vs.length) (hs : 8 + sizes (op.spec vs) < 2 ^ 32)
    (hst : v.shared = true → ¬ (v.parent.seg.spare = [] ∧ sizes vs < sizes (op.spec vs)) → (op.spec vs).getD fn .absent = vs.getD fn .absent ∧
      sizes ((op.spec vs).take fn) = sizes (vs.take fn)) :
    ∃ v', v.ownerStep op = .ok v' ∧ OwnInv fn (op.spec vs) cvs v' ∧ v'.parent.idx.length = (op.spec vs).length ∧
      v'.parent.isSetEnabled = v.parent.isSetEnabled ∧ (v.shared = false → v'.shared = false) ∧
      (v.parent.seg.spare = [] → sizes vs < sizes (op.spec vs) → v'.shared = false) := by
  obtain ⟨s, e1, e2, e3, e4⟩ := op_rep op inv.rep (by omega) hm inv.canon (by rw [hl]; exact hfit) hs
  by_cases hc : v.shared = true ∧ s.seg.cap = v.parent.seg.cap
  · obtain ⟨h1, h2⟩ := hst hc.1 (grows_moves inv.rep e2 hc.2)
    have hk := child_mem e2 inv.child (by rw [h1]; exact inv.val hc.1) (by rw [spec_length]; exact hi)
    refine ⟨_, by simp only [View.ownerStep, e1, Res.ok_bind]; rw [if_pos hc]; rfl, ?_, ?_, e3.enabled, ?_, ?_⟩
    · refine ⟨e2, e4, inv.child.of_eq ?_ rfl rfl, inv.ckept, fun h => by rw [h2]; exact inv.off h,
        fun h => by rw [h1]; exact inv.val h⟩
      simp only
      rw [inv.off hc.1, ← h2]; exact hk
    · show s.idx.length = _
      rw [e3.len, spec_length]; exact hl
    · intro h; rw [hc.1] at h; cases h
    · intro h1 h2
      exact absurd ⟨h1, h2⟩ (grows_moves inv.rep e2 hc.2)
  · refine ⟨{ v with parent := s, shared := false }, ?_, ?_, ?_, e3.enabled, fun _ => rfl, fun _ _ => rfl⟩
    · simp only [View.ownerStep, e1, Res.ok_bind]; rw [if_neg hc]; rfl
    · exact ⟨e2, e4, inv.child, inv.ckept, fun h => by simp at h, fun h => by simp at h⟩
    · show s.idx.length = _
      rw [e3.len, spec_length]; exact hl

theorem own_run (ops : List Op) : ∀ {fn : Nat} {vs cvs : List Val} {v : View}, OwnInv fn vs cvs v →
    v.parent.idx.length = vs.length → vs.length ≤ 65536 → fn < vs.length → FitsFrom vs.length ops vs →
    (v.shared = true → Still fn ops vs) →
    ∃ v', v.ownerRun ops = .ok v' ∧ Rep fn v'.child (encs cvs 0) ∧ v'.child.idx.length = cvs.length ∧
      Rep 0 v'.parent (encs (specOps ops vs) 0) ∧ v'.parent.isSetEnabled = v.parent.isSetEnabled ∧
      (v.shared = false → v'.shared = false) := by
  induction ops with
  | nil =>
    intro fn vs cvs v inv _ _ _ _ _
    exact ⟨v, rfl, inv.child, inv.ckept, by simpa [specOps] using inv.rep, rfl, id⟩
  | cons op ops ih =>
    intro fn vs cvs v inv hl hm hi hf hst
    simp only [FitsFrom] at hf
    simp only [Still] at hst
    obtain ⟨l1, h1, h2, h3, h4, h5, _⟩ := own_step inv op hl hm hi hf.1 hf.2.1 (fun h _ => ⟨(hst h).1, (hst h).2.1⟩)
    have hsh : l1.shared = true → Still fn ops (op.spec vs) := by
      intro h
      cases hl' : v.shared with
      | true => exact (hst hl').2.2
      | false => rw [h5 hl'] at h; cases h
    obtain ⟨l2, k1, k2, k2', k3, k4, k5⟩ := ih h2 h3 (by rw [spec_length]; exact hm) (by rw [spec_length]; exact hi)
      (by rw [spec_length]; exact hf.2.2) hsh
    refine ⟨l2, ?_, k2, k2', by simpa [specOps] using k3, k4.trans h4, fun h => k5 (h5 h)⟩
    simp only [View.ownerRun, h1, Res.ok_bind, k1]

/-- A struct with a nested struct in field `fn`. -/
theorem own_get {s : St} {vs cvs : List Val} (h : Rep 0 s (encs vs 0)) (hc : Canons vs) {fn : Nat}
    (hi : fn < s.idx.length) (hl : s.idx.length = vs.length) (hm : vs.length ≤ 65536)
    (hv : vs.getD fn .absent = .struct cvs) :
    ∃ v, View.get s fn cvs.length = .ok (some v) ∧ OwnInv fn vs cvs v ∧ v.shared = true ∧
      v.parent = { s with idx := idxOf s.idx.length (encs vs 0), parsed := true } ∧ Canons cvs ∧ cvs.length ≤ 65536 := by
  have hcv := hc.get fn
  rw [hv] at hcv
  obtain ⟨c1, _, c3⟩ := hcv
  have hb : blob (encs vs 0) fn = hdr fn FTStruct (total (encs cvs 0)) ++ (encs cvs 0).flatten := by
    rw [blob_encs, hv, Nat.zero_add]; rfl
  have hwf : WFs (encs cvs 0) := by
    intro i
    rw [blob_encs, Nat.zero_add]
    by_cases hi : i < cvs.length
    · refine enc_wf i (by omega) ?_ (c3.get i).stored
      have h5 := sizes_ge cvs i
      have h6 := h.small
      have h7 := offsetOf_le_total (encs vs 0) fn
      rw [hb] at h7
      simp only [List.length_append, hdr_length, encs_flatten_length] at h7
      omega
    · left; rw [List.getD_eq_getElem?_getD, List.getElem?_eq_none (by omega)]; rfl
  obtain ⟨v, v1, v2, v3, v4, v5, v6⟩ := view_get h cvs.length hi hb hwf
  rw [padTo_self (by rw [encs_length]; omega)] at v5
  have hoff : v.off = 8 + sizes (vs.take fn) := by
    rw [v2.at_off, offsetOf, encs_take, encs_flatten_length]
  have hpar : v.parent = { s with idx := idxOf s.idx.length (encs vs 0), parsed := true } := by
    have hfo := h.fieldOffset fn
    simp only [View.get, hfo, Res.ok_bind] at v1
    generalize getNestedStruct s fn cvs.length = g at v1
    cases g with
    | panic => simp at v1
    | hang => simp at v1
    | ok o =>
      cases o with
      | none => simp at v1
      | some c => simp only [Res.ok_bind, Res.pure_eq, Res.ok.injEq, Option.some.injEq] at v1; rw [← v1]
  exact ⟨v, v1, ⟨by rw [hpar]; exact h.parsed, hc, v5, v6, fun _ => hoff, fun _ => hv⟩, v3, hpar, c3, c1⟩

/-- Calls on a nested struct that lives in an array of its own. -/
theorem own_alone (ops : List Op) : ∀ {v : View} {fn : Nat} {cvs : List Val}, v.shared = false →
    Rep fn v.child (encs cvs 0) → v.child.idx.length = cvs.length → cvs.length ≤ 65536 → Canons cvs →
    FitsFrom cvs.length ops cvs →
    ∃ v', View.run ops v = .ok v' ∧ v'.parent = v.parent ∧ Rep fn v'.child (encs (specOps ops cvs) 0) ∧
      v'.child.idx.length = cvs.length ∧ Canons (specOps ops cvs) := by
  induction ops with
  | nil => intro v fn cvs _ h hl _ hc _; exact ⟨v, rfl, rfl, by simpa [specOps] using h, hl, by simpa [specOps] using hc⟩
  | cons op ops ih =>
    intro v fn cvs hs h hl hm hc hf
    simp only [FitsFrom] at hf
    obtain ⟨s, e1, e2, e3, e4⟩ := op_rep op h (by omega) hm hc (by rw [hl]; exact hf.1) hf.2.1
    have hstep : v.step op = .ok { v with child := s, shared := false } := by
      simp only [View.step, e1, Res.ok_bind]
      rw [if_neg (by rw [hs]; simp)]
      rfl
    obtain ⟨v', k1, k2, k3, k4, k5⟩ := ih (v := { v with child := s, shared := false }) rfl e2
      (by show s.idx.length = _; rw [e3.len, spec_length]; exact hl) (by rw [spec_length]; exact hm) e4
      (by rw [spec_length]; exact hf.2.2)
    refine ⟨v', ?_, k2, by simpa [specOps] using k3, by rw [k4, spec_length], by simpa [specOps] using k5⟩
    simp only [View.run, hstep, Res.ok_bind, k1]

end Claw
