import Verif.Lemmas.Patch

/-!
# C23: the limits of patches

`Deep n op` (Spec/Patch) says that `op` has at least `n` patches inside each other.
-/

namespace Claw

/-- C23: a patch with more than 10000 operations is rejected, and so is one of another version; the struct
is not touched. -/
theorem C23_too_many_ops (tys : List Ty) (L : LSt) (p : Patch) (h : 10000 < p.ops.length ∨ p.version ≠ 1) :
    applyPatch tys L p = .ok (L, true) := by
  unfold applyPatch
  split
  · rfl
  · rename_i hv
    have : p.ops.length > maxPatchOps := by
      rcases h with h | h
      · exact h
      · exact absurd h hv
    rw [if_pos this]

example : applyPatch [.scalar .u8] (LSt.ofSt ⟨⟨[], []⟩, [], false, false, none, false, []⟩)
    ⟨1, List.replicate 10001 ⟨0, PSet, -1, [1]⟩⟩ =
    .ok (LSt.ofSt ⟨⟨[], []⟩, [], false, false, none, false, []⟩, true) :=
  C23_too_many_ops _ _ _ (.inl (by show 10000 < (List.replicate 10001 _).length; rw [List.length_replicate]; omega))

/-- C23: up to 10000 operations are applied one after the other. -/
theorem C23_within_limit (tys : List Ty) (L L' : LSt) (ops : List POp) (h : ops.length ≤ 10000) :
    applyPatch tys L ⟨1, ops⟩ = .ok (L', false) ↔ AllApplied (applyOp 100 tys) L ops L' := by
  have hm : ¬ ops.length > maxPatchOps := by simp [maxPatchOps]; omega
  simp only [applyPatch, ne_eq, not_true_eq_false, if_false, if_neg hm, maxPatchDepth]
  have inv : ∀ (rs : List (Res POp)) (L : LSt) (w : Win) (e : Bool),
      patchLoop (applyOp 100 tys) ⟨L, [], false⟩ rs = .ok (w, e) → w = ⟨w.L, [], false⟩ := by
    intro rs
    induction rs with
    | nil => intro L w e h; simp [patchLoop] at h; rw [← h.1]
    | cons rd rs ih =>
      intro L w e h
      rw [patchLoop] at h
      cases rd with
      | panic => simp at h
      | hang => simp at h
      | ok op =>
        cases hf : applyOp 100 tys L op with
        | panic => simp [hf] at h
        | hang => simp [hf] at h
        | ok p =>
          obtain ⟨L1, err⟩ := p
          cases err with
          | true => simp [hf] at h; rw [← h.1]
          | false => simp [hf] at h; exact ih _ _ _ h
  rw [patchLoop_chain ops L L' []]
  constructor
  · intro e
    cases hl : patchLoop (applyOp 100 tys) ⟨L, [], false⟩ (ops.map .ok) with
    | panic => simp [hl] at e
    | hang => simp [hl] at e
    | ok q =>
      obtain ⟨w, err⟩ := q
      simp [hl] at e
      obtain ⟨rfl, rfl⟩ := e
      rw [inv _ _ _ _ hl]
  · intro e
    simp [e]

/-- C23: an operation with more than 100 patches inside each other is never applied, whatever the struct and
its schema. -/
theorem C23_too_deep (tys : List Ty) (L : LSt) (op : POp) (h : Deep 101 op) (L' : LSt) :
    applyOp maxPatchDepth tys L op ≠ .ok (L', false) :=
  deep_fails 100 op h tys L L'

/-- C23: a patch that contains such an operation is not applied. -/
theorem C23_deep_patch_rejected (tys : List Ty) (L : LSt) (ops : List POp) (op : POp) (hm : op ∈ ops)
    (h : Deep 101 op) (v : UInt8) (L' : LSt) : applyPatch tys L ⟨v, ops⟩ ≠ .ok (L', false) := by
  intro e
  unfold applyPatch at e
  split at e
  · simp at e
  · split at e
    · simp at e
    · cases hl : patchLoop (applyOp maxPatchDepth tys) ⟨L, [], false⟩ (ops.map .ok) with
      | panic => simp [hl] at e
      | hang => simp [hl] at e
      | ok q =>
        obtain ⟨w, err⟩ := q
        simp [hl] at e
        obtain ⟨_, rfl⟩ := e
        obtain ⟨L1, L2, h2⟩ := patchLoop_all _ _ _ hl op (List.mem_map_of_mem hm)
        exact deep_fails 100 op h _ _ _ h2

/-- C23: the limit is exact: for operations with at most 100 patches inside each other any larger limit has
the same effect. -/
theorem C23_limit_exact (tys : List Ty) (L : LSt) (op : POp) (h : ¬ Deep 101 op) (k : Nat) :
    applyOp (maxPatchDepth + k) tys L op = applyOp maxPatchDepth tys L op :=
  shallow_same 100 k op h tys L

/-- A schema in which field 0 is a struct of the same kind, `n` levels deep. -/
def towerTys : Nat → List Ty
  | 0 => [.scalar .u8, .scalar .u8]
  | n + 1 => [.struct (towerTys n), .scalar .u8]

theorem towerTys_length (n : Nat) : (towerTys n).length = 2 := by cases n <;> rfl

/-- There are operations of every depth, and on a struct with enough levels and an empty field 0 it is the
depth limit that rejects them. -/
theorem deep_exists (n : Nat) (h : n ≤ 1000) : ∃ op : POp, Deep (n + 1) op ∧ op.fn = 0 ∧ op.ty = PStructPatch ∧
    op.data.length ≤ 100 * n + 8 ∧
    ∀ (L : LSt) (vs : List Val), Rep 0 L.st (encs vs 0) → L.st.idx.length = 2 → vs.length = 2 → Canons vs →
      vs.getD 0 .absent = .absent → 8 + sizes vs < 2 ^ 32 →
      ∃ L', applyOp n (towerTys (n + 1)) L op = .ok (L', true) ∧ Rep 0 L'.st (encs vs 0) ∧
        L'.st.idx.length = 2 := by
  induction n with
  | zero =>
    refine ⟨⟨0, PStructPatch, -1, []⟩, .one (.inl rfl), rfl, rfl, by simp, ?_⟩
    intro L vs h1 h2 _ _ _ _
    exact ⟨L, by simp +decide [applyOp], h1, h2⟩
  | succ n ih =>
    obtain ⟨op, d1, d2, d3, d4, d5⟩ := ih (by omega)
    have hb : opsBytes [op] = 48 + op.data.length := by simp [opsBytes]
    obtain ⟨b, c1, c2, c3⟩ := patch_codec ⟨1, [op]⟩ (by show opsBytes [op] < _; omega)
    have c3 : b.length ≤ 24 + opsBytes [op] := c3
    refine ⟨⟨0, PStructPatch, -1, b⟩, .more (.inl rfl) c2 (by simp) d1, rfl, rfl, by simp only; omega, ?_⟩
    intro L vs hr hl hvl hc h0 hs
    obtain ⟨c, e1, e2, e3, e4, _⟩ := new_rep 2
    have hset : vs.set 0 .absent = vs := by
      match vs, h0 with
      | v :: vs, h0 => simp at h0; simp [h0]
    obtain ⟨s', f1, f2, f3, _⟩ := op_rep (.nest 0 2 []) hr (by omega) (by omega) hc
      ⟨by omega, by omega, trivial⟩ (by simpa [Op.spec, specOps, specStruct, Val.isAbsent, hset] using hs)
    simp only [Op.run, e1, Res.ok_bind, runOps] at f1
    simp only [Op.spec, specOps, specStruct, Val.isAbsent, List.all_replicate] at f2
    simp [hset] at f2
    have habs := blob_encs vs 0 0
    rw [h0] at habs
    have hget : View.get L.st 0 2 = .ok none := by
      simp only [View.get, hr.fieldOffset 0, Res.ok_bind, getNested_absent hr 0 2 (.inr habs)]
      rfl
    obtain ⟨L'', g1, _, _⟩ := d5 (LSt.ofSt c) (List.replicate 2 .absent) (by simpa [LSt.ofSt] using e2)
      (by simpa [LSt.ofSt] using e3) (by simp) (canons_replicate 2) (by simp) (by simp [sizes, List.replicate, Val.size])
    refine ⟨{ L with st := s' }, ?_, f2, by show s'.idx.length = 2; rw [f3.len, hl]⟩
    have hfd : (towerTys (n + 1 + 1))[0]? = some (.struct (towerTys (n + 1))) := rfl
    rw [applyOp.eq_def]
    simp only [show (0 : UInt16).toNat = 0 from rfl, hfd, towerTys_length]
    simp +decide only [if_false, if_true]
    simp only [hget, e1, f1, c2, Res.ok_bind, List.map_cons, List.map_nil, patchLoop, g1]
    simp

/-- Operations of depth 101 exist, and operations that carry no patch are not deep. -/
example : ∃ op : POp, Deep 101 op := (deep_exists 100 (by omega)).imp fun _ h => h.1

example : ¬ Deep 101 ⟨0, PSet, -1, [1]⟩ := by
  intro h
  cases h with
  | more h _ _ _ => simp +decide [POp.nests] at h

/-- C23 does not extend to atomicity: the depth limit is noticed when the deep operation is reached, so the
operations before it have already been applied when the error is returned. -/
theorem C23_depth_noticed_late : ∃ (tys : List Ty) (s : St) (op : POp) (L' : LSt), Deep 101 op ∧
    STy.u8.get s 1 = .ok 0 ∧
    applyPatch tys (LSt.ofSt s) ⟨1, [⟨1, PSet, -1, [7]⟩, op]⟩ = .ok (L', true) ∧ STy.u8.get L'.st 1 = .ok 7 := by
  obtain ⟨op, d1, d2, d3, d4, d5⟩ := deep_exists 100 (by omega)
  obtain ⟨s, e1, e2, e3, e4, e5⟩ := new_rep 2
  obtain ⟨s1, f1, f2, f3⟩ := set_rep e2 (by simp [e3]) (by simp) 1 (by omega) .u8 7 (by simp [STy.Storable])
    (by simp [List.replicate, specScalar, STy.isZero, sizes, Val.size, scalarSize])
  have hrec : (List.replicate 2 Val.absent).set 1 (specScalar .u8 7) = [.absent, .scalar .u8 7] := by
    simp [List.replicate, specScalar, STy.isZero]
  rw [hrec] at f2
  obtain ⟨L', g1, g2, g3⟩ := d5 { LSt.ofSt s with st := s1 } [.absent, .scalar .u8 7] f2
    (by show s1.idx.length = 2; rw [f3.len, e3]) rfl (by simp [Canons, Val.Canon, STy.isZero, STy.Clean, STy.Storable])
    rfl (by simp [sizes, Val.size, scalarSize])
  refine ⟨towerTys 101, s, op, L', d1, ?_, ?_, ?_⟩
  · exact get_absent e2 1 (.inr (by rw [encs_replicate]; rfl)) .u8
  · have h1 : applyOp maxPatchDepth (towerTys 101) (LSt.ofSt s) ⟨1, PSet, -1, [7]⟩
        = .ok ({ LSt.ofSt s with st := s1 }, false) := by
      have hfd : (towerTys 101)[1]? = some (.scalar .u8) := rfl
      rw [applyOp.eq_def]
      simp only [show (1 : UInt16).toNat = 1 from rfl, hfd, if_true, applySet]
      simp only [STy.ofPatch, NTy.ofPatch, NTy.size]
      have : STy.u8.set (LSt.ofSt s).st 1 (NTy.ofBits .u8 (getLE ([7].take 1))) = .ok s1 := f1
      simp
      simp at this
      rw [this]
      rfl
    have h2 : applyOp maxPatchDepth (towerTys 101) { LSt.ofSt s with st := s1 } op = .ok (L', true) := g1
    simp only [applyPatch, List.map_cons, List.map_nil, patchLoop, Res.ok_bind, h1, maxPatchOps]
    simp [h2]
  · have := get_spec (pad := 0) (t := .u8) (v := 7) (vs := [.absent, .scalar .u8 7])
      (by rw [padTo_self (by omega)]; exact g2) 1 (by omega) (by omega) (by simp [STy.isZero])
      (by simp [specScalar, STy.isZero]) (by simp [STy.Clean, STy.Storable])
    exact this

/-- The limit of 10000 operations is that of the outermost patch only: a patch inside an operation may have
any number of operations. -/
theorem C23_inner_ops_unlimited (k : Nat) (h : 48 * k < 2 ^ 31) : ∃ (b : Bytes) (ops : List POp) (tys : List Ty) (s : St)
    (L' : LSt), encodePatch ⟨1, ops⟩ = .ok b ∧ ops.length = k ∧
    applyPatch tys (LSt.ofSt s) ⟨1, [⟨0, PStructPatch, -1, b⟩]⟩ = .ok (L', false) := by
  let op : POp := ⟨9, PSet, -1, []⟩
  have hb : opsBytes (List.replicate k op) = 48 * k := by simp [opsBytes, op, Nat.mul_comm]
  obtain ⟨b, c1, c2, c3⟩ := patch_codec ⟨1, List.replicate k op⟩ (by show opsBytes (List.replicate k op) < _; omega)
  obtain ⟨s, e1, e2, e3, e4, e5⟩ := new_rep 1
  obtain ⟨s', f1, f2, f3, _⟩ := op_rep (.nest 0 1 []) e2 (by simp [e3]) (by simp) (canons_replicate 1)
    ⟨by omega, by omega, trivial⟩ (by simp [Op.spec, specOps, specStruct, Val.isAbsent, List.replicate, sizes, Val.size])
  simp only [Op.run, e1, Res.ok_bind, runOps] at f1
  refine ⟨b, List.replicate k op, [.struct [.scalar .u8]], s, { LSt.ofSt s with st := s' }, c1, by simp, ?_⟩
  have loop : ∀ (n : Nat) (w : Win), ∃ w', patchLoop (applyOp 99 [.scalar .u8]) w ((List.replicate n op).map .ok) = .ok (w', false) := by
    intro n
    induction n with
    | zero => intro w; exact ⟨w, rfl⟩
    | succ n ih =>
      intro w
      obtain ⟨w', hw⟩ := ih (if w.shared = true ∧ w.L.st.seg.cap = w.L.st.seg.cap then
        ⟨w.L, w.L.st.seg.data ++ w.L.st.seg.spare, true⟩ else ⟨w.L, w.mem, false⟩)
      have h1 : applyOp 99 [.scalar .u8] w.L op = .ok (w.L, false) := by
        rw [applyOp.eq_def]
        rfl
      refine ⟨w', ?_⟩
      rw [List.replicate_succ, List.map_cons, patchLoop]
      simp only [Res.ok_bind, h1, Bool.false_eq_true, if_false]
      simpa using hw
  have hget : View.get s 0 1 = .ok none := by
    simp only [View.get, e2.fieldOffset 0, Res.ok_bind,
      getNested_absent e2 0 1 (.inr (by rw [encs_replicate]; rfl))]
    rfl
  have hop : applyOp maxPatchDepth [.struct [.scalar .u8]] (LSt.ofSt s) ⟨0, PStructPatch, -1, b⟩
      = .ok ({ LSt.ofSt s with st := s' }, false) := by
    rw [applyOp.eq_def]
    simp only [show (0 : UInt16).toNat = 0 from rfl, maxPatchDepth]
    simp +decide only [if_false, if_true, List.getElem?_cons_zero, List.length_cons, List.length_nil]
    obtain ⟨w', hw⟩ := loop k ⟨LSt.ofSt s, [], false⟩
    simp only [LSt.ofSt] at hw ⊢
    simp only [hget, e1, f1, c2, Res.ok_bind, hw]
    rfl
  simp [applyPatch, maxPatchOps, patchLoop, hop]

end Claw
