import Verif.Spec.Patch
import Verif.Lemmas.ListCache
import Verif.Lemmas.View

/-!
# Patches as messages
-/

namespace Claw

/-- The record of an operation. -/
def POp.vals (op : POp) : List Val :=
  [specScalar .u16 op.fn, specScalar .u8 op.ty, specScalar .i32 op.index, specScalar .bytes op.data]

/-- An upper bound of the bytes of the operations in a message. -/
def opsBytes (ops : List POp) : Nat := (ops.map fun op => 48 + op.data.length).sum

theorem specScalar_size (t : STy) (v : t.Val) : (specScalar t v).size ≤ scalarSize t v := by
  unfold specScalar; split <;> simp [Val.size]

theorem prog_fits (op : POp) (h : 40 + op.data.length < 2 ^ 31) :
    FitsFrom 4 op.prog (List.replicate 4 .absent) := by
  have h0 := specScalar_size .u16 op.fn
  have h1 := specScalar_size .u8 op.ty
  have h2 := specScalar_size .i32 op.index
  have h3 := specScalar_size .bytes op.data
  simp only [scalarSize] at h0 h1 h2 h3
  simp only [POp.prog, FitsFrom, Op.Fits, Op.spec, List.replicate, List.set, sizes, Val.size]
  simp [STy.Clean, STy.Storable]
  omega

theorem prog_spec (op : POp) : specOps op.prog (List.replicate 4 .absent) = op.vals := by
  simp [POp.prog, specOps, Op.spec, POp.vals, List.replicate]

theorem progs_spec (ops : List POp) : specItems 4 (ops.map POp.prog) = ops.map POp.vals := by
  induction ops with
  | nil => rfl
  | cons op ops ih => simp only [List.map_cons, specItems, ih, prog_spec]

theorem progs_fit (ops : List POp) (h : opsBytes ops < 2 ^ 31) : FitsItems 4 (ops.map POp.prog) := by
  induction ops with
  | nil => simp [FitsItems]
  | cons op ops ih =>
    simp only [opsBytes, List.map_cons, List.sum_cons] at h
    exact ⟨prog_fits op (by omega), ih (by unfold opsBytes; omega)⟩

theorem rec_sizes (op : POp) : sizes op.vals ≤ 39 + op.data.length := by
  have h0 := specScalar_size .u16 op.fn
  have h1 := specScalar_size .u8 op.ty
  have h2 := specScalar_size .i32 op.index
  have h3 := specScalar_size .bytes op.data
  simp only [scalarSize] at h0 h1 h2 h3
  simp only [POp.vals, sizes]
  omega

theorem recs_sizes (ops : List POp) : itemSizes (ops.map POp.vals) ≤ opsBytes ops := by
  induction ops with
  | nil => simp [itemSizes]
  | cons op ops ih =>
    have := rec_sizes op
    simp only [opsBytes, List.map_cons, List.sum_cons, itemSizes] at ih ⊢
    omega

/-- A getter on a represented struct. -/
theorem get_spec {r : Nat} {s : St} {vs : List Val} {pad : Nat} (h : Rep r s (padTo pad (encs vs 0))) (i : Nat)
    (hi : i < s.idx.length) (hi' : i < 2 ^ 16) (t : STy) (v : t.Val) (hz : t.isZero v = true → v = t.zero)
    (hv : vs.getD i .absent = specScalar t v) (hc : t.Clean v) : t.get s i = .ok v := by
  have hb : blob (padTo pad (encs vs 0)) i = (specScalar t v).enc i := by
    rw [blob_padTo, blob_encs, Nat.zero_add, hv]
  cases hzv : t.isZero v with
  | true =>
    rw [get_absent h i (.inr (by rw [hb, specScalar, hzv]; rfl)) t, hz hzv]
  | false =>
    have e : (specScalar t v).enc i = scalarBlob i t v := by simp [specScalar, hzv, Val.enc]
    have hsm : scalarSize t v < 2 ^ 32 := by
      have := h.small
      rw [total_padTo, total_encs] at this
      have h2 := sizes_ge vs i
      rw [hv, specScalar, hzv] at h2
      simp only [Bool.false_eq_true, if_false, Val.size] at h2
      omega
    exact get_scalar h t v hi hi' hzv hsm hc (by rw [hb, e])

theorem readPOp_rec {r : Nat} {s : St} (op : POp) (h : Rep r s (padTo 4 (encs op.vals 0)))
    (hl : s.idx.length = 4) : readPOp s = .ok op := by
  have g0 : getUint16 s 0 = .ok op.fn :=
    get_spec h 0 (by omega) (by omega) .u16 op.fn (by simp [STy.isZero, STy.zero]) rfl (by simp [STy.Clean, STy.Storable])
  have g1 : getUint8 s 1 = .ok op.ty :=
    get_spec h 1 (by omega) (by omega) .u8 op.ty (by simp [STy.isZero, STy.zero]) rfl (by simp [STy.Clean, STy.Storable])
  have g2 : getInt32 s 2 = .ok op.index :=
    get_spec h 2 (by omega) (by omega) .i32 op.index (by simp [STy.isZero, STy.zero]) rfl (by simp [STy.Clean, STy.Storable])
  have g3 : getBytes s 3 = .ok op.data :=
    get_spec h 3 (by omega) (by omega) .bytes op.data (by simp [STy.isZero, STy.zero]) rfl (by simp [STy.Clean, STy.Storable])
  simp [readPOp, g0, g1, g2, g3]

theorem readPOps_rec : ∀ (cs : List St) (ops : List POp), ItemsRep 4 cs (ops.map POp.vals) →
    cs.map readPOp = ops.map .ok
  | [], [], _ => rfl
  | [], _ :: _, h => by simp [ItemsRep] at h
  | _ :: _, [], h => by simp [ItemsRep] at h
  | c :: cs, op :: ops, h => by
    simp only [List.map_cons, ItemsRep] at h
    obtain ⟨⟨r, hr, hl⟩, h⟩ := h
    simp only [List.map_cons, readPOp_rec op hr hl, readPOps_rec cs ops h]

/-- A patch that is marshalled and unmarshalled has the same operations. -/
theorem patch_codec (p : Patch) (h : opsBytes p.ops < 2 ^ 31) :
    ∃ b, encodePatch p = .ok b ∧ decodePatch b = .ok (some (p.ops.map .ok)) ∧ b.length ≤ 24 + opsBytes p.ops := by
  have hf : FitsFrom 2 [.set 0 .u8 p.version, .nestList 1 4 (p.ops.map POp.prog)] (List.replicate 2 .absent) := by
    have h1 := specScalar_size .u8 p.version
    simp only [scalarSize] at h1
    have h2 := recs_sizes p.ops
    have h3 : (specStructs (p.ops.map POp.vals)).size ≤ 8 + itemSizes (p.ops.map POp.vals) := by
      unfold specStructs; split <;> simp [Val.size]
    simp only [FitsFrom, Op.Fits, Op.spec, List.replicate, List.set, sizes, Val.size, progs_spec]
    refine ⟨⟨by omega, by simp [STy.Clean, STy.Storable]⟩, by omega, ⟨by omega, by omega, progs_fit _ h⟩, by omega, trivial⟩
  obtain ⟨s0, h0, hr, hl, he, _⟩ := new_rep 2
  obtain ⟨s1, h1, h2, h3, h4⟩ := ops_rep _ hr (by simp [hl]) (by simp) (canons_replicate 2) (by rw [hl]; exact hf)
  have hrec : specOps [.set 0 .u8 p.version, .nestList 1 4 (p.ops.map POp.prog)] (List.replicate 2 .absent)
      = [specScalar .u8 p.version, specStructs (p.ops.map POp.vals)] := by
    simp [specOps, Op.spec, List.replicate, progs_spec]
  rw [hrec] at h2 h4
  have hen : s1.isSetEnabled = false := by rw [h3.enabled, he]
  have hmar := marshal_rep h2 hen
  obtain ⟨msg, fresh, s', e1, e2, e3, e4, e5⟩ := receive (m := 2) h2 hen []
  rw [hmar] at e1
  simp only [Res.ok.injEq, Prod.mk.injEq, and_true] at e1
  refine ⟨msg, ?_, ?_, ?_⟩
  · simp [encodePatch, run, h0, h1, hmar, e1]
  · simp only [decodePatch, e2, Res.ok_bind, e3]
    cases hops : p.ops with
    | nil =>
      rw [getListStructs_absent e4 1 4 (.inr (by rw [blob_padTo, blob_encs, hops]; simp [specStructs, Val.enc]))]
      rfl
    | cons op ops =>
      have hne : (p.ops.map POp.vals) ≠ [] := by simp [hops]
      have hsp : specStructs (p.ops.map POp.vals) = .structs (p.ops.map POp.vals) := by simp [specStructs, hops]
      rw [hsp] at e4 h4
      obtain ⟨cs, g1, g2⟩ := getListStructs_present e4 (i := 1) 4 (p.ops.map POp.vals) (by omega)
        (by rw [blob_padTo, blob_encs]; simp) h4.2.1.2 hne
      rw [g1]
      simp only [Res.ok_bind]
      rw [readPOps_rec cs p.ops g2, hops]
      rfl
  · rw [← e1, List.length_append, hdr_length, encs_flatten_length]
    have h1 := specScalar_size .u8 p.version
    simp only [scalarSize] at h1
    have h2 := recs_sizes p.ops
    have h3 : (specStructs (p.ops.map POp.vals)).size ≤ 8 + itemSizes (p.ops.map POp.vals) := by
      unfold specStructs; split <;> simp [Val.size]
    simp only [sizes]
    omega

theorem patchLoop_all {f : LSt → POp → Res (LSt × Bool)} : ∀ (ops : List (Res POp)) (w w' : Win),
    patchLoop f w ops = .ok (w', false) → ∀ op, Res.ok op ∈ ops → ∃ L L', f L op = .ok (L', false)
  | [], _, _, _, _, h => by simp at h
  | rd :: ops, w, w', h, op, hm => by
    rw [patchLoop] at h
    cases rd with
    | panic => simp at h
    | hang => simp at h
    | ok op1 =>
      simp only [Res.ok_bind] at h
      cases hf : f w.L op1 with
      | panic => simp [hf] at h
      | hang => simp [hf] at h
      | ok p =>
        obtain ⟨L1, err⟩ := p
        simp only [hf, Res.ok_bind] at h
        cases err with
        | true => simp at h
        | false =>
          simp only [Bool.false_eq_true, if_false] at h
          rcases List.mem_cons.mp hm with e | e
          · obtain rfl := Res.ok.inj e
            exact ⟨_, _, hf⟩
          · exact patchLoop_all ops _ _ h op e

theorem patchLoop_congr {f g : LSt → POp → Res (LSt × Bool)} : ∀ (ops : List (Res POp)) (w : Win),
    (∀ op, Res.ok op ∈ ops → ∀ L, f L op = g L op) → patchLoop f w ops = patchLoop g w ops
  | [], _, _ => rfl
  | rd :: ops, w, h => by
    rw [patchLoop, patchLoop]
    cases rd with
    | panic => rfl
    | hang => rfl
    | ok op =>
      simp only [Res.ok_bind]
      rw [h op (by simp)]
      have ih := fun w => patchLoop_congr ops w (fun op' hm => h op' (by simp [hm]))
      simp only [ih]

theorem deep_fails : ∀ (n : Nat) (op : POp), Deep (n + 1) op → ∀ tys L L', applyOp n tys L op ≠ .ok (L', false) := by
  intro n
  induction n with
  | zero =>
    intro op h tys L L' e
    have hn : op.nests := by cases h with | one h => exact h | more h _ _ _ => exact h
    rcases hn with hn | hn <;> simp +decide [applyOp, hn] at e
  | succ n ih =>
    intro op h tys L L' e
    cases h with
    | @more _ _ op' ops hn hd hm hdeep =>
      rcases hn with hn | hn
      · rw [applyOp] at e
        simp only [hn] at e
        simp +decide only [if_false, if_true] at e
        split at e
        · rename_i ctys hfd
          cases hv : View.get L.st op.fn.toNat ctys.length with
          | panic => simp [hv] at e
          | hang => simp [hv] at e
          | ok o =>
            simp only [hv, Res.ok_bind] at e
            cases o with
            | none =>
              simp only at e
              cases hc : St.new ctys.length with
              | panic => simp [hc] at e
              | hang => simp [hc] at e
              | ok c =>
                simp only [hc, Res.ok_bind] at e
                cases hst : setNestedStruct L.st op.fn.toNat (some c) with
                | panic => simp [hst] at e
                | hang => simp [hst] at e
                | ok st =>
                  simp only [hst, Res.ok_bind, hd] at e
                  cases hl : patchLoop (applyOp n ctys) ⟨LSt.ofSt c, [], false⟩ ops with
                  | panic => simp [hl] at e
                  | hang => simp [hl] at e
                  | ok q =>
                    obtain ⟨w', err⟩ := q
                    simp [hl] at e
                    obtain ⟨_, rfl⟩ := e
                    obtain ⟨L1, L2, h2⟩ := patchLoop_all _ _ _ hl op' hm
                    exact ih op' hdeep _ _ _ h2
            | some v =>
              simp only [hd, Res.ok_bind] at e
              cases hl : patchLoop (applyOp n ctys) ⟨LSt.ofSt v.child, v.child.seg.data ++ v.child.seg.spare, true⟩ ops with
              | panic => simp [hl] at e
              | hang => simp [hl] at e
              | ok q =>
                obtain ⟨w', err⟩ := q
                simp [hl] at e
                obtain ⟨_, rfl⟩ := e
                obtain ⟨L1, L2, h2⟩ := patchLoop_all _ _ _ hl op' hm
                exact ih op' hdeep _ _ _ h2
        · simp at e
      · rw [applyOp] at e
        simp only [hn] at e
        simp +decide only [if_false, if_true] at e
        split at e
        · rename_i ctys hfd
          cases hv : getListStructs L.st op.fn.toNat ctys.length with
          | panic => simp [hv] at e
          | hang => simp [hv] at e
          | ok o =>
            simp only [hv, Res.ok_bind] at e
            cases o with
            | none => simp at e
            | some items =>
              simp only at e
              split at e
              · simp at e
              · split at e
                · simp at e
                · rename_i item hit
                  simp only [hd, Res.ok_bind] at e
                  cases hst : L.st.ensure with
                  | panic => simp [hst] at e
                  | hang => simp [hst] at e
                  | ok st =>
                    simp only [hst, Res.ok_bind] at e
                    cases hl : patchLoop (applyOp n ctys) ⟨LSt.ofSt item, item.seg.data ++ item.seg.spare, true⟩ ops with
                    | panic => simp [hl] at e
                    | hang => simp [hl] at e
                    | ok q =>
                      obtain ⟨w', err⟩ := q
                      simp [hl] at e
                      obtain ⟨_, rfl⟩ := e
                      obtain ⟨L1, L2, h2⟩ := patchLoop_all _ _ _ hl op' hm
                      exact ih op' hdeep _ _ _ h2
        · simp at e

theorem shallow_same : ∀ (n k : Nat) (op : POp), ¬ Deep (n + 1) op → ∀ tys L,
    applyOp (n + k) tys L op = applyOp n tys L op := by
  intro n k
  induction n with
  | zero =>
    intro op h tys L
    have hn : ¬ op.nests := fun hn => h (.one hn)
    have h3 : op.ty ≠ PStructPatch := fun e => hn (.inl e)
    have h8 : op.ty ≠ PListStructPatch := fun e => hn (.inr e)
    rw [applyOp.eq_def, applyOp.eq_def]
    simp only [if_neg h3, if_neg h8]
  | succ n ih =>
    intro op h tys L
    have key : ∀ ops, op.nests → decodePatch op.data = .ok (some ops) → ∀ w ctys,
        patchLoop (applyOp (n + k) ctys) w ops = patchLoop (applyOp n ctys) w ops := by
      intro ops hn hd w ctys
      apply patchLoop_congr
      intro op' hm L
      exact ih op' (fun hdeep => h (.more hn hd hm hdeep)) ctys L
    rw [Nat.succ_add, applyOp.eq_def, applyOp.eq_def (n + 1)]
    by_cases h3 : op.ty = PStructPatch
    · simp only [h3]
      simp +decide only [if_false, if_true]
      have key := fun ops hd => key ops (.inl h3) hd
      cases hd : decodePatch op.data with
      | panic => rfl
      | hang => rfl
      | ok o =>
        cases o with
        | none => rfl
        | some ops => simp only [Res.ok_bind, key ops hd]
    · by_cases h8 : op.ty = PListStructPatch
      · simp only [h8]
        simp +decide only [if_false, if_true]
        have key := fun ops hd => key ops (.inr h8) hd
        cases hd : decodePatch op.data with
        | panic => rfl
        | hang => rfl
        | ok o =>
          cases o with
          | none => rfl
          | some ops => simp only [Res.ok_bind, key ops hd]
      · simp only [if_neg h3, if_neg h8]

theorem patchLoop_chain {f : LSt → POp → Res (LSt × Bool)} : ∀ (ops : List POp) (L L' : LSt) (mem : Bytes),
    AllApplied f L ops L' ↔ patchLoop f ⟨L, mem, false⟩ (ops.map .ok) = .ok (⟨L', mem, false⟩, false)
  | [], L, L', mem => by
    constructor
    · intro h; cases h; rfl
    · intro h
      simp [patchLoop] at h
      subst h; exact .nil
  | op :: ops, L, L', mem => by
    constructor
    · intro h
      cases h with
      | cons h1 h2 =>
        have := (patchLoop_chain ops _ _ mem).mp h2
        simp [patchLoop, h1, this]
    · intro h
      simp only [List.map_cons, patchLoop, Res.ok_bind] at h
      cases hf : f L op with
      | panic => simp [hf] at h
      | hang => simp [hf] at h
      | ok p =>
        obtain ⟨L1, err⟩ := p
        cases err with
        | true => simp [hf] at h
        | false =>
          simp [hf] at h
          exact .cons hf ((patchLoop_chain ops _ _ mem).mpr h)

end Claw
