import Verif.Lemmas.Release
import Verif.Lemmas.RawConv
import Verif.Props.Alias
import Verif.Props.IsSet

/-!
# C142: released structs

`New` takes the memory of a struct from a pool, `Release` gives it back (Model/Release.lean). A program that keeps to the contract
(`Allowed`: a released struct is not used any more) should not be able to tell.
-/

set_option linter.unusedSimpArgs false

namespace Claw

namespace Release

theorem reaches_inv {fields : Nat → Nat} {s : State} (h : Reaches fields s) : Inv fields s := by
  induction h with
  | start => exact init_inv fields
  | next _ ha he ih =>
    obtain ⟨s1, e, hi⟩ := step_inv ih ha
    rw [he] at e
    cases e
    exact hi

/-- **C142 (calls succeed)** In every state a program reaches that keeps to the contract, whatever was released and handed out
again before, every call that keeps to it succeeds: no panic, no endless loop. -/
theorem C142_succeeds {fields : Nat → Nat} {s : State} (h : Reaches fields s) {act : Act} (ha : Allowed fields s act) :
    ∃ s', step fields s act = .ok s' := by
  obtain ⟨s', e, _⟩ := step_inv (reaches_inv h) ha
  exact ⟨s', e⟩

/-- **C142 (like new), partial** Every struct in use is what the calls made on it, in this order, make of a struct of fresh memory
that nobody else uses: the messages are equal byte for byte, and all getters return what they return there, namely the record of the
specification. Nothing of a released struct shows, and no struct changes when another one is made, changed, stored or released.
Missing: structs decoded with `Unmarshal` and nested structs obtained by a getter, which share memory with others (false there:
`C142_message_lost`, `C142_nested_release`); for the values read, those that do not read back at all (C11, C14). -/
theorem C142_like_new_partial {fields : Nat → Nat} {s : State} (h : Reaches fields s) {k : Nat} {o : Obj} (ho : s.objs k = some o) :
    ∃ t msg, run (fields o.kind) o.calls = .ok t ∧ t.marshal = .ok (msg, t) ∧ (s.st o).marshal = .ok (msg, s.st o) ∧
      ∀ tys : List Ty, tys.length = fields o.kind → Tidies (specRun (fields o.kind) o.calls) →
        FieldsHaveTy (specRun (fields o.kind) o.calls) tys →
        readFields tys (s.st o) 0 = readFields tys t 0 ∧
        readFields tys (s.st o) 0 = .ok (viewFields tys (specRun (fields o.kind) o.calls)) := by
  have hg := (reaches_inv h).good k o ho
  obtain ⟨s0, h0, hr, hl, he, _⟩ := new_rep (fields o.kind)
  obtain ⟨t, h1, h2, h3⟩ := ops_within o.calls hr (by simp [hl]) (by simpa using hg.within.1) (by rw [hl]; exact hg.within.2)
  refine ⟨t, _, by simp [run, h0, h1], marshal_rep h2 (by rw [h3.enabled, he]), marshal_rep hg.rep hg.off, ?_⟩
  intro tys hlen htidy hty
  have hc : Canons (specRun (fields o.kind) o.calls) := (ops_sound _ _ _ (sounds_replicate _) hg.within.2).canon htidy
  have hvl : (specRun (fields o.kind) o.calls).length ≤ 65536 := by
    rw [specRun, specOps_length]; simpa using hg.within.1
  have e1 := read_fields (pad := 0) tys (by rw [padTo_self (by omega)]; exact hg.rep) hc hvl 0
    (by have : (s.st o).idx.length = fields o.kind := hg.len
        omega) (by intro j ty hj; rw [Nat.zero_add]; exact hty.get j ty hj)
  have e2 := read_fields (pad := 0) (vs := specRun (fields o.kind) o.calls) tys (by rw [padTo_self (by omega)]; exact h2) hc hvl 0
    (by rw [h3.len, hl]; omega) (by intro j ty hj; rw [Nat.zero_add]; exact hty.get j ty hj)
  rw [e1, e2, viewFields_eq_map]
  exact ⟨rfl, by simp⟩

/-- Two schemas: three fields and one. -/
def demoFields : Nat → Nat := fun k => if k = 0 then 3 else 1

theorem first_new {fields : Nat → Nat} {s s' : State} {k : Nat} (h : step fields s (.new k none none) = .ok s') :
    ∃ o, s'.objs s.made = some o ∧ o.kind = k ∧ o.seg = s.nextSeg ∧ o.idx = s.nextIdx ∧ o.calls = [] ∧ s'.made = s.made + 1 := by
  simp only [step, State.takeSeg, State.takeIdx, set_same] at h
  cases hr : (Seg.new 64).renew with
  | ok g =>
    rw [hr] at h; cases h
    exact ⟨_, set_same _ _ _, rfl, rfl, rfl, rfl, rfl⟩
  | panic => rw [hr] at h; cases h
  | hang => rw [hr] at h; cases h

theorem next_new {fields : Nat → Nat} {s s' : State} {k a b : Nat} (h : step fields s (.new k (some a) (some b)) = .ok s') :
    ∃ o, s'.objs s.made = some o ∧ o.kind = k ∧ o.seg = a ∧ o.idx = b ∧ o.calls = [] := by
  simp only [step, State.takeSeg, State.takeIdx] at h
  cases hr : (s.segs a).renew with
  | ok g =>
    rw [hr] at h; cases h
    exact ⟨_, set_same _ _ _, rfl, rfl, rfl, rfl⟩
  | panic => rw [hr] at h; cases h
  | hang => rw [hr] at h; cases h

theorem after_call {fields : Nat → Nat} {s s' : State} {k : Nat} {op : Op} {o : Obj} (h : step fields s (.call k op) = .ok s')
    (ho : s.objs k = some o) :
    ∃ o', s'.objs k = some o' ∧ o'.kind = o.kind ∧ o'.seg = o.seg ∧ o'.idx = o.idx ∧ o'.calls = o.calls ++ [op] ∧ s'.made = s.made := by
  simp only [step, ho] at h
  cases hr : op.run (s.st o) with
  | ok t =>
    rw [hr] at h; cases h
    exact ⟨_, set_same _ _ _, rfl, rfl, rfl, rfl, rfl⟩
  | panic => rw [hr] at h; cases h
  | hang => rw [hr] at h; cases h

theorem after_release {fields : Nat → Nat} {s s' : State} {k : Nat} {o : Obj} (h : step fields s (.release k) = .ok s')
    (ho : s.objs k = some o) : (o.kind, o.seg) ∈ s'.freeSegs ∧ (o.kind, o.idx) ∈ s'.freeIdxs ∧ s'.made = s.made := by
  simp only [step, ho] at h
  cases hr : (s.segs o.seg).reset with
  | ok t => rw [hr] at h; cases h; exact ⟨List.mem_cons_self .., List.mem_cons_self .., rfl⟩
  | panic => rw [hr] at h; cases h
  | hang => rw [hr] at h; cases h

/-- A struct is filled and released, and its memory goes to the next one. -/
theorem demo_reused : ∃ s o, Reaches demoFields s ∧ s.objs 1 = some o ∧ o.seg = 0 ∧ o.idx = 0 ∧ o.kind = 0 ∧
    o.calls = [.set 1 .u8 7] := by
  have hw : ∀ op : Op, op.Within 3 → 8 + sizes (op.spec (List.replicate 3 .absent)) < 2 ^ 32 → Within (demoFields 0) ([] ++ [op]) :=
    fun op h1 h2 => ⟨by decide, h1, h2, trivial⟩
  have a1 : Allowed demoFields init (.new 0 none none) := ⟨by decide, by simp, by simp⟩
  obtain ⟨s1, e1⟩ := C142_succeeds (Reaches.start (fields := demoFields)) a1
  have r1 := Reaches.next .start a1 e1
  obtain ⟨o1, f1, k1, g1, i1, c1, m1⟩ := first_new e1
  have a2 : Allowed demoFields s1 (.call 0 (.set 0 .str [104, 105])) := ⟨o1, f1, by
    rw [k1, c1]
    exact hw _ (by simp +decide [Op.Within, STy.Storable])
      (by simp +decide [Op.spec, specScalar, STy.isZero, sizes, Val.size, scalarSize, List.replicate])⟩
  obtain ⟨s2, e2⟩ := C142_succeeds r1 a2
  have r2 := Reaches.next r1 a2 e2
  obtain ⟨o2, f2, k2, g2, i2, _, m2⟩ := after_call e2 f1
  have a3 : Allowed demoFields s2 (.release 0) := ⟨o2, f2⟩
  obtain ⟨s3, e3⟩ := C142_succeeds r2 a3
  have r3 := Reaches.next r2 a3 e3
  obtain ⟨x3, y3, m3⟩ := after_release e3 f2
  have hz : init.nextSeg = 0 ∧ init.nextIdx = 0 ∧ init.made = 0 := ⟨rfl, rfl, rfl⟩
  rw [k2, k1, g2, g1, hz.1] at x3
  rw [k2, k1, i2, i1, hz.2.1] at y3
  have a4 : Allowed demoFields s3 (.new 0 (some 0) (some 0)) :=
    ⟨by decide, by intro a e; cases e; exact x3, by intro a e; cases e; exact y3⟩
  obtain ⟨s4, e4⟩ := C142_succeeds r3 a4
  have r4 := Reaches.next r3 a4 e4
  obtain ⟨o4, f4, k4, g4, i4, c4⟩ := next_new e4
  rw [m3, m2, m1, hz.2.2] at f4
  have a5 : Allowed demoFields s4 (.call 1 (.set 1 .u8 7)) := ⟨o4, f4, by
    rw [k4, c4]
    exact hw _ (by simp +decide [Op.Within, STy.Storable])
      (by simp +decide [Op.spec, specScalar, STy.isZero, sizes, Val.size, scalarSize, List.replicate])⟩
  obtain ⟨s5, e5⟩ := C142_succeeds r4 a5
  obtain ⟨o5, f5, k5, g5, i5, c5, _⟩ := after_call e5 f4
  exact ⟨s5, o5, .next r4 a5 e5, f5, by rw [g5, g4], by rw [i5, i4], by rw [k5, k4], by rw [c5, c4]; rfl⟩

example : ∃ s act, Reaches demoFields s ∧ Allowed demoFields s act ∧ s.freeSegs = [] :=
  ⟨_, .new 0 none none, .start, ⟨by decide, by simp, by simp⟩, rfl⟩

example : ∃ s o, Reaches demoFields s ∧ s.objs 1 = some o ∧ o.seg = 0 ∧
    readFields [.scalar .str, .scalar .u8, .scalar .u64] (s.st o) 0
      = .ok (viewFields [.scalar .str, .scalar .u8, .scalar .u64] [.absent, .scalar .u8 7, .absent]) := by
  obtain ⟨s, o, h, ho, h1, _, hk, h2⟩ := demo_reused
  refine ⟨s, o, h, ho, h1, ?_⟩
  obtain ⟨_, _, _, _, _, hread⟩ := C142_like_new_partial h ho
  have hs : specRun (demoFields o.kind) o.calls = [.absent, .scalar .u8 7, .absent] := by
    rw [h2, hk]; rfl
  rw [hs] at hread
  exact (hread _ (by rw [hk]; rfl) (by simp +decide [Tidies, Val.Tidy, STy.Clean, STy.Storable]) (by simp [FieldsHaveTy, Val.HasTy])).2

end Release

/-! ### Decoded structs -/

/-- The array of a struct. -/
def St.array (s : St) : Bytes := s.seg.data ++ s.seg.spare

/-- **C142 (message lost)** `Release` of a struct decoded with `Unmarshal` destroys the message in the caller's slice: its first eight
bytes are zero and it cannot be decoded again. -/
theorem C142_message_lost (fresh : St) (msg extra : Bytes) {p : St} (h : fresh.unmarshal msg extra = some p) :
    p.array = msg ++ extra ∧
    ∃ g, p.seg.reset = .ok g ∧ (g.data ++ g.spare).take msg.length = zeros 8 ++ msg.drop 8 ∧
      ∀ fresh' extra', St.unmarshal fresh' ((g.data ++ g.spare).take msg.length) extra' = none := by
  have hall : p.array = msg ++ extra ∧ 8 ≤ msg.length ∧ 8 ≤ p.array.length := by
    simp only [St.unmarshal] at h
    split at h
    · cases h
    · rename_i hl
      simp only [HeaderSize] at hl
      split at h
      · cases h
      · split at h
        · cases h
        · split at h
          · cases h
          · cases h
            simp only [St.array]
            refine ⟨by rw [← List.append_assoc, List.take_append_drop], by omega, by simp; omega⟩
  obtain ⟨h1, h2, h3⟩ := hall
  refine ⟨h1, ⟨zeros 8, (p.seg.data ++ p.seg.spare).drop 8⟩, ?_, ?_⟩
  · simp only [Seg.reset]
    rw [if_neg (by simp only [Seg.cap]; simp only [St.array, List.length_append] at h3; omega)]
  · have e : ((zeros 8 ++ (p.seg.data ++ p.seg.spare).drop 8).take msg.length) = zeros 8 ++ msg.drop 8 := by
      simp only [St.array] at h1
      rw [h1, List.drop_append_of_le_length h2, List.take_append, zeros_length, List.take_append]
      rw [List.take_of_length_le (by simp [zeros_length]; omega), List.take_of_length_le (by simp)]
      simp
    refine ⟨e, ?_⟩
    intro fresh' extra'
    rw [e]
    have hd : (zeros 8 ++ msg.drop 8).take HeaderSize = zeros 8 := List.take_left' (zeros_length 8)
    have hz : decodeHeader (zeros 8) = some (0, 0, 0) := by decide +kernel
    simp only [St.unmarshal, hd, hz]
    split
    · rfl
    · simp [FTStruct]

example : ∃ fresh p, St.new 1 = .ok fresh ∧
    fresh.unmarshal [0, 0, 14, 16, 0, 0, 0, 0, 0, 0, 1, 1, 0, 0, 0, 0] [] = some p ∧ getBool p 0 = .ok true := by
  refine ⟨_, _, rfl, rfl, ?_⟩
  decide +kernel

/-- As long as everything fits the array of a struct, it stays there. -/
theorem ops_stay (ops : List Op) : ∀ {r : Nat} {s : St} {vs : List Val}, Rep r s (encs vs 0) → s.idx.length ≤ vs.length →
    vs.length ≤ 65536 → WithinFrom s.idx.length ops vs → (∀ k, 8 + sizes (specOps (ops.take k) vs) ≤ s.seg.cap) →
    ∃ s', runOps ops s = .ok s' ∧ Rep r s' (encs (specOps ops vs) 0) ∧ SameCfg s s' ∧ s'.seg.cap = s.seg.cap := by
  induction ops with
  | nil => intro r s vs h _ _ _ _; exact ⟨s, by simp [runOps], by simpa [specOps] using h, SameCfg.refl s, rfl⟩
  | cons op ops ih =>
    intro r s vs h hl hm hw hk
    simp only [WithinFrom] at hw
    obtain ⟨s1, e1, r1, c1⟩ := op_within op h hl hm hw.1 hw.2.1
    have hcap : s1.seg.cap = s.seg.cap := by
      refine (op_foot e1).stay ?_
      have := hk 1
      simp only [List.take_succ_cons, List.take_zero, specOps] at this
      rw [r1.data, List.length_append, encs_flatten_length, hdr_length]
      exact this
    obtain ⟨s2, e2, r2, c2, k2⟩ := ih r1 (by rw [spec_length, c1.len]; exact hl) (by rw [spec_length]; exact hm)
      (by rw [c1.len]; exact hw.2.2) (by intro k; rw [hcap]; simpa [specOps] using hk (k + 1))
    exact ⟨s2, by simp [runOps, e1, e2], by simpa [specOps] using r2, c1.trans c2, by rw [k2, hcap]⟩

/-- **C142 (message replaced)** After `Release` of a decoded struct the next struct is built in the slice of the caller, as long as it
fits: the caller who decodes the message again gets the other struct, without an error. -/
theorem C142_message_replaced (fresh : St) (msg extra : Bytes) {p : St} (h : fresh.unmarshal msg extra = some p) (m : Nat)
    (ops : List Op) (tys : List Ty) (hw : Within m ops) (ht : Tidies (specRun m ops)) (hlen : tys.length = m)
    (hty : FieldsHaveTy (specRun m ops) tys) (hfit : ∀ k, 8 + sizes (specRun m (ops.take k)) ≤ msg.length) (extra' : Bytes) :
    ∃ g s t fresh' q, p.seg.reset = .ok g ∧ St.renew m g = .ok s ∧ runOps ops s = .ok t ∧ t.array.length = (msg ++ extra).length ∧
      St.new m = .ok fresh' ∧ fresh'.unmarshal (t.array.take msg.length) extra' = some q ∧
      readFields tys q 0 = .ok (viewFields tys (specRun m ops)) := by
  obtain ⟨ha, g, hg, hgt, _⟩ := C142_message_lost fresh msg extra h
  have hgz : g.data = zeros 8 ∧ g.data.length + g.spare.length = (msg ++ extra).length := by
    simp only [Seg.reset] at hg
    split at hg
    · cases hg
    · rename_i hc
      cases hg
      refine ⟨rfl, ?_⟩
      simp only [St.array] at ha
      simp only [Seg.cap] at hc
      rw [← ha, zeros_length]
      simp only [List.length_drop, List.length_append]
      omega
  have hs : St.renew m g = .ok ⟨⟨hdr 0 FTStruct 8, g.spare⟩, List.replicate m Entry.zero, false, false, none, false, []⟩ := by
    simp only [St.renew, renew_eq hgz.1, Res.ok_bind, Res.pure_eq]
  have hcap : Seg.cap ⟨hdr 0 FTStruct 8, g.spare⟩ = (msg ++ extra).length := by
    have := hgz.2
    rw [hgz.1, zeros_length] at this
    simp only [Seg.cap, hdr_length]; exact this
  obtain ⟨t, e1, r1, c1, k1⟩ := ops_stay ops (renewed_rep m g.spare) (by simp) (by simpa using hw.1) (by simpa using hw.2)
    (by intro k
        have := hfit k
        simp only [specRun] at this
        rw [hcap, List.length_append]; omega)
  change Rep 0 t (encs (specRun m ops) 0) at r1
  have hal : t.array.length = (msg ++ extra).length := by
    simp only [St.array, List.length_append]
    have e := k1
    rw [hcap] at e
    simpa [Seg.cap] using e
  have hmsg : total (encs (specRun m ops) 0) ≤ msg.length := by
    have := hfit ops.length
    rw [List.take_length] at this
    rw [total_encs]; exact this
  have hdl : t.seg.data.length = total (encs (specRun m ops) 0) := by rw [r1.data]; simp [total]
  have htake : t.array.take msg.length = hdr 0 FTStruct (total (encs (specRun m ops) 0)) ++ (encs (specRun m ops) 0).flatten ++
      t.seg.spare.take (msg.length - total (encs (specRun m ops) 0)) := by
    rw [St.array, List.take_append, List.take_of_length_le (by omega), hdl, r1.data]
  obtain ⟨s0, h0, hr0, hl0, he0, _⟩ := new_rep m
  obtain ⟨q, hu, hr', hl', _⟩ := unmarshal_rep r1.wf r1.small 0 (by omega) s0 m hl0
    (by intro i hi _; have e := new_eq m; rw [h0] at e; simp at e; rw [e]; simp [hi])
    (t.seg.spare.take (msg.length - total (encs (specRun m ops) 0))) extra'
  refine ⟨g, _, t, s0, q, hg, hs, e1, hal, h0, by rw [htake]; exact hu, ?_⟩
  have hc : Canons (specRun m ops) := (ops_sound _ _ _ (sounds_replicate _) hw.2).canon ht
  have e2 := read_fields tys hr' hc (by rw [specRun, specOps_length]; simpa using hw.1) 0
    (by rw [hl']; omega) (by intro j ty hj; rw [Nat.zero_add]; exact hty.get j ty hj)
  rw [e2, viewFields_eq_map]; simp

example := C142_message_replaced ⟨⟨hdr 0 FTStruct 8, zeros 56⟩, [Entry.zero], false, false, none, false, []⟩
  [0, 0, 14, 16, 0, 0, 0, 0, 0, 0, 1, 1, 0, 0, 0, 0] [] rfl 1 [.set 0 .u8 7] [.scalar .u8]
  (by simp +decide [Within, WithinFrom, Op.Within, Op.spec, specScalar, STy.isZero, STy.Storable, List.replicate, sizes, Val.size, scalarSize])
  (by simp +decide [specRun, specOps, Op.spec, specScalar, STy.isZero, List.replicate, Tidies, Val.Tidy, STy.Clean, STy.Storable]) rfl
  (by simp +decide [specRun, specOps, Op.spec, specScalar, STy.isZero, List.replicate, FieldsHaveTy, Val.HasTy])
  (by intro k
      match k with
      | 0 | _ + 1 => simp +decide [specRun, specOps, Op.spec, specScalar, STy.isZero, List.replicate, sizes, Val.size, scalarSize]) []

/-! ### Nested structs -/

theorem release_view {q : St} {off z : Nat} {v : View} (inv : ViewInv q off z v) (hsh : v.shared = true)
    (h8 : 8 ≤ v.child.seg.data.length) :
    ∃ v', v.release = .ok v' ∧ ViewInv q off z v' ∧
      v'.parent.seg.all = v.parent.seg.all.take off ++ (zeros 8 ++ v.parent.seg.all.drop (off + 8)) := by
  obtain ⟨hmem, hle⟩ := inv.mem hsh
  have hoff := inv.at_off
  obtain ⟨g, hg, hz, hgl, hsp⟩ := reset_eq h8
  have hga : g.data ++ g.spare = zeros 8 ++ v.parent.seg.all.drop (off + 8) := by
    rw [hz, hsp]
    change zeros 8 ++ v.child.seg.all.drop 8 = _
    rw [hmem, List.drop_drop]
  have hlen : off + 8 ≤ v.parent.seg.all.length := by
    have h1 : v.child.seg.all.length = v.parent.seg.all.length - off := by rw [hmem, List.length_drop]
    have h2 : v.child.seg.data.length ≤ v.child.seg.all.length := by simp [Seg.all]
    omega
  refine ⟨{ v with child := { v.child with seg := g, idx := v.child.idx.map fun _ => Entry.zero },
                   parent := v.parent.overwrite v.off (g.data ++ g.spare) }, ?_, ?_, ?_⟩
  · simp only [View.release, hg, Res.ok_bind, hsh, if_true, Res.pure_eq]
  · have hall : (v.parent.overwrite v.off (g.data ++ g.spare)).seg.all = v.parent.seg.all.take off ++ (zeros 8 ++ v.parent.seg.all.drop (off + 8)) := by
      rw [overwrite_all, hoff, hga]
    have hsame := inv.same
    have h0 := inv.hdr
    have hl : (v.parent.seg.all.take off ++ (zeros 8 ++ v.parent.seg.all.drop (off + 8))).length = v.parent.seg.all.length := by
      simp only [List.length_append, List.length_take, zeros_length, List.length_drop]; omega
    refine ⟨hoff, ?_, ?_, ?_, ?_, ?_, inv.room, inv.hdr, fun _ => ⟨?_, ?_⟩⟩
    · rw [St.overwrite, hsame]
    · have : (v.parent.overwrite v.off (g.data ++ g.spare)).seg.data
          = (v.parent.overwrite v.off (g.data ++ g.spare)).seg.all.take v.parent.seg.data.length := by
        rw [overwrite_all]; rfl
      simp only [this, hall, List.length_take, hl]
      rw [← inv.len]
      simp only [Seg.all, List.length_append]; omega
    · rw [← inv.cap, hall, hl]
    · rw [hall, ← inv.before, List.take_left' (by rw [List.length_take]; omega)]
    · rw [hall, ← inv.after]
      rw [← List.append_assoc, List.drop_append]
      rw [List.drop_of_length_le (by simp only [List.length_append, List.length_take, zeros_length]; omega)]
      simp only [List.length_append, List.length_take, zeros_length, List.nil_append, List.drop_drop]
      congr 1
      omega
    · simp only [Seg.all] at hall ⊢
      rw [hall, List.drop_left' (by rw [List.length_take]; simp only [Seg.all] at hlen; omega), hga]
      rfl
    · simp only [hgl]; omega
  · simp only [overwrite_all, hoff, hga]

/-- **C142 (nested struct released)** A record was sent and decoded and the nested struct of field `fn` obtained. When that one is
released, the parent still reads all its other fields, but the message it sends no longer has any field from `fn` on: whoever decodes
it finds all of them absent, without an error. -/
theorem C142_nested_release (m : Nat) (ops : List Op) (tys : List Ty) (extra extra' : Bytes) (fn : Nat) (cvs : List Val)
    (hfit : Fits m ops) (hty : FieldsHaveTy (specRun m ops) tys) (hn : tys.length ≤ 65536) (hfn : fn < tys.length)
    (hv : (specRun m ops).getD fn .absent = .struct cvs) :
    ∃ s msg fresh p v v' msg' q, run m ops = .ok s ∧ s.marshal = .ok (msg, s) ∧ St.new tys.length = .ok fresh ∧
      fresh.unmarshal msg extra = some p ∧ View.get p fn cvs.length = .ok (some v) ∧ v.release = .ok v' ∧
      (∀ i ty, tys[i]? = some ty → i ≠ fn → ty.read v'.parent i = .ok (ty.view ((specRun m ops).getD i .absent))) ∧
      v'.parent.marshal = .ok (msg', v'.parent) ∧ msg'.length = msg.length ∧ fresh.unmarshal msg' extra' = some q ∧
      ∀ i, fn ≤ i → i < tys.length → ∃ q', q.hasField i = .ok (false, q') := by
  obtain ⟨s, msg, fresh, p, v, a1, a2, a3, a4, a5, a6, a7, a8, a9, a10, a11, a12, a13, a14, a15, a16, a17, _⟩ :=
    decoded_view m ops tys.length extra fn cvs hfit hfn hv
  have hcl : 8 ≤ v.child.seg.data.length := by rw [a12.data]; simp
  obtain ⟨v', b1, b2, b3⟩ := release_view a10 a11 hcl
  have hml : (specRun m ops).length = m := by simp [specRun, specOps_length]
  have hpl : (padVals tys.length (specRun m ops)).length ≤ 65536 := by
    simp only [padVals, List.length_append, List.length_replicate, hml]
    have := hfit.1; omega
  have hsib : ∀ i ty, tys[i]? = some ty → i ≠ fn → ty.read v'.parent i = .ok (ty.view ((specRun m ops).getD i .absent)) := by
    intro i ty hi hne
    have := siblings a6 (canons_padVals a7 _) hpl b2 (by rw [a8]; exact (List.getElem?_eq_some_iff.mp hi).1) hne (ty := ty)
      (by rw [padVals_getD]; exact hty.get i ty hi)
    rw [this, padVals_getD]
  have hmsg : msg.length = total (encs (padVals tys.length (specRun m ops)) 0) := by
    have h1 : p.seg.data.length = total (encs (padVals tys.length (specRun m ops)) 0) := by rw [a6.data]; simp [total]
    obtain ⟨s0, h0, hr, hl, he, _⟩ := new_rep m
    obtain ⟨t, e1, e2, e3, _⟩ := ops_rep ops hr (by rw [hl]; simp) (by simpa using hfit.1) (canons_replicate m) (by rw [hl]; exact hfit.2)
    have e4 : run m ops = .ok t := by simp [run, h0, e1]
    rw [a1] at e4
    cases e4
    have e5 := marshal_rep e2 (by rw [e3.enabled, he])
    rw [a2] at e5
    have e6 : msg.length = total (encs (specRun m ops) 0) := by
      have := congrArg (fun r => match r with | Res.ok (b, _) => List.length b | _ => 0) e5
      simpa [total, specRun] using this
    rw [e6, total_encs, total_encs]
    have hz : ∀ k, sizes (List.replicate k Val.absent) = 0 := by
      intro k; rw [sizes_eq_zero]; simp [Val.isAbsent]
    have happ : ∀ a b : List Val, sizes (a ++ b) = sizes a + sizes b := by
      intro a b; induction a with
      | nil => simp [sizes]
      | cons x a ih => simp only [List.cons_append, sizes, ih]; omega
    simp only [padVals, happ, hz, Nat.add_zero]
  generalize hfs : encs (padVals tys.length (specRun m ops)) 0 = fs at *
  have hoff : total (fs.take fn) = offsetOf fs fn := rfl
  have hlt := offsetOf_le_total fs fn
  have hdata : p.seg.data.length = total fs := by rw [a6.data]; simp [total]
  have hbefore : v.parent.seg.all.take (offsetOf fs fn) = hdr 0 FTStruct (total fs) ++ (fs.take fn).flatten := by
    have e := a10.before
    simp only [Seg.all] at e ⊢
    rw [e]
    have h1 : fs.flatten = (fs.take fn).flatten ++ (fs.drop fn).flatten := by
      rw [← List.flatten_append, List.take_append_drop]
    rw [a6.data, h1, ← List.append_assoc, List.append_assoc]
    exact List.take_left' (by simp [offsetOf])
  have hplen : v'.parent.seg.data.length = total fs := by rw [b2.len]; exact hdata
  have hcap : total fs ≤ v.parent.seg.all.length := by
    rw [a10.cap]; simp only [Seg.all, List.length_append, hdata]; omega
  obtain ⟨bits, hbits, hbl, hdat⟩ : ∃ rest : Bytes, (zeros 8 ++ rest).length = total fs - offsetOf fs fn ∧ True ∧
      v'.parent.seg.data = hdr 0 FTStruct (total fs) ++ (fs.take fn).flatten ++ (zeros 8 ++ rest) := by
    refine ⟨(v.parent.seg.all.drop (offsetOf fs fn + 8)).take (total fs - offsetOf fs fn - 8), ?_, trivial, ?_⟩
    · simp only [List.length_append, zeros_length, List.length_take, List.length_drop]; omega
    · have e1 : v'.parent.seg.data = v'.parent.seg.all.take (total fs) := by
        rw [← hplen]; simp [Seg.all]
      rw [e1, b3, hbefore, List.take_append]
      have hhl : (hdr 0 FTStruct (total fs) ++ (fs.take fn).flatten).length = offsetOf fs fn := by simp [offsetOf]
      rw [hhl, List.take_of_length_le (l := hdr 0 FTStruct (total fs) ++ (fs.take fn).flatten) (by omega), List.take_append, zeros_length,
        List.take_of_length_le (l := zeros 8) (by rw [zeros_length]; omega)]
  have hT : total (fs.take fn) + (zeros 8 ++ bits).length = total fs := by rw [hbits, hoff]; omega
  have hoffp : v'.parent.isSetEnabled = false := by rw [b2.same]; exact a9
  have hsm := a6.small
  have hmar : v'.parent.marshal = .ok (hdr 0 FTStruct (total fs) ++ (fs.take fn).flatten ++ (zeros 8 ++ bits), v'.parent) := by
    have hg := Seg.putHeaderSize_eq v'.parent.seg 0 FTStruct (total fs) ((fs.take fn).flatten ++ (zeros 8 ++ bits))
      (by rw [hdat, List.append_assoc]) (total fs) (by omega)
    simp only [St.marshal, hoffp, Bool.false_eq_true, false_and, if_false]
    rw [hplen, hg]
    simp only [Res.ok_bind, Res.pure_eq, ← List.append_assoc]
    rw [List.append_assoc _ (zeros 8) bits, ← hdat, ← hoffp]
  have hwf : WFs (fs.take fn) := by
    intro j
    by_cases hj : j < fn
    · have : blob (fs.take fn) j = blob fs j := by simp [blob, List.getD_eq_getElem?_getD, hj]
      rw [this]; exact a6.wf j
    · left; simp only [blob, List.getD_eq_getElem?_getD, List.getElem?_take, if_neg hj]; rfl
  obtain ⟨fresh', q, g1, g2, g3, g4, g5, g6⟩ := received (fs := fs.take fn) (bits := zeros 8 ++ bits) hwf (by omega) (by omega)
    tys.length false extra'
  rw [a3] at g1
  cases g1
  have hfr : fresh.setIsSetEnabled false = fresh := by
    have e := new_eq tys.length
    rw [a3] at e
    cases e
    simp [St.setIsSetEnabled]
  rw [hfr, hT] at g2
  have hp8 : parseLoop (8 + (fs.take fn).flatten.length) (zeros 8 ++ bits) (idxOf tys.length (fs.take fn)) = .ok (idxOf tys.length (fs.take fn)) := by
    have hd := decodeHeader_hdr (fn := 0) (ft := 0) (by omega) (by decide) (by omega : 0 < 2 ^ 40) bits
    rw [show hdr 0 0 0 = zeros 8 by decide +kernel] at hd
    rw [parseLoop_eq, hd]
    simp
  have hens : q.ensure = .ok { q with idx := idxOf tys.length (fs.take fn), parsed := true } := by
    simp only [St.ensure, g4, Bool.false_eq_true, if_false, St.parseFieldIndex, g6, hp8, Res.ok_bind, Res.pure_eq]
  refine ⟨s, msg, fresh, p, v, v', _, q, a1, a2, a3, a4, a5, b1, hsib, hmar, ?_, g2, ?_⟩
  · rw [hmsg, ← hT]
    simp only [total, List.length_append, hdr_length]
  · intro i h1 h2
    refine ⟨{ q with idx := idxOf tys.length (fs.take fn), parsed := true }, ?_⟩
    have hb : blob (fs.take fn) i = [] := by
      simp only [blob, List.getD_eq_getElem?_getD, List.getElem?_take, if_neg (by omega : ¬ i < fn)]; rfl
    rw [St.hasField, hens]
    simp only [Res.ok_bind, idxOf_getElem?, h2, if_true]
    simp [entryOf, hb, Entry.zero]

example := C142_nested_release 3 aliasOps aliasTys [1, 2, 3] [] 1 [.scalar .u8 7, .absent, .scalar .str [97, 98, 99]]
  aliasOps_fits (by rw [aliasOps_spec]; simp [FieldsHaveTy, aliasTys, Val.HasTy]) (by decide) (by decide)
  (by rw [aliasOps_spec]; rfl)

/-- **C142 (written into another struct)** After the nested struct was released, setting field 0 of the next struct of its type sets it
in the parent of the released one. -/
theorem C142_writes_into_parent :
    (match (do
        let s ← run 3 aliasOps
        let (msg, _) ← s.marshal
        let fresh ← St.new 3
        match fresh.unmarshal msg [] with
        | none => Res.panic
        | some p =>
          match ← View.get p 1 3 with
          | none => Res.panic
          | some v =>
            let v ← v.release
            let v ← v.renew 3
            let v ← v.step (.set 0 .u8 9)
            match ← View.get v.parent 1 3 with
            | none => Res.panic
            | some w => getUint8 w.child 0) with
      | .ok x => x == 9
      | _ => false) = true := by decide +kernel

/-- **C142 (made in another struct)** Already making the next struct changes the parent of the released one: where the nested struct
was released its message has eight zero bytes, and after `New` the header of an empty struct. -/
theorem C142_made_in_parent :
    (match (do
        let s ← run 3 aliasOps
        let (msg, _) ← s.marshal
        let fresh ← St.new 3
        match fresh.unmarshal msg [] with
        | none => Res.panic
        | some p =>
          match ← View.get p 1 3 with
          | none => Res.panic
          | some v =>
            let v ← v.release
            let (before, _) ← v.parent.marshal
            let v' ← v.renew 3
            let (after, _) ← v'.parent.marshal
            Res.ok ((before.drop v.off).take 8 == zeros 8 && (after.drop v.off).take 8 == hdr 0 FTStruct 8)) with
      | .ok x => x
      | _ => false) = true := by decide +kernel

/-! ### Reading from a connection -/

/-- **C142 (cut message)** A struct is built and released, and the next one of its type, in the same memory, reads a message from a
connection that breaks after the header of a message of the same length. An error is returned, and the struct has all the fields of
the released one. -/
theorem C142_cut_message (maxAlloc m : Nat) (ops : List Op) (tys : List Ty) (hw : Within m ops) (ht : Tidies (specRun m ops))
    (hlen : tys.length = m) (hty : FieldsHaveTy (specRun m ops) tys) (hset : (specRun m ops).all Val.isAbsent = false) :
    ∃ s g t out, run m ops = .ok s ∧ s.seg.reset = .ok g ∧ St.renew m g = .ok t ∧
      readFields tys t 0 = .ok (viewFields tys (List.replicate m .absent)) ∧
      Frame.unmarshalReader maxAlloc t [hdr 0 FTStruct s.seg.data.length] = .ok out ∧ out.err = some .eof ∧
      readFields tys out.st 0 = .ok (viewFields tys (specRun m ops)) := by
  obtain ⟨s0, h0, hr, hl, he, _⟩ := new_rep m
  obtain ⟨s, h1, h2, h3, h4⟩ := tidy_rep m ops hw ht hr hl
  change Rep 0 s (encs (specRun m ops) 0) at h2
  change Canons (specRun m ops) at h4
  obtain ⟨g, hg, hz, _, hsp⟩ := reset_eq (g := s.seg) (by rw [h2.data]; simp)
  have hs : St.renew m g = .ok ⟨⟨hdr 0 FTStruct 8, g.spare⟩, List.replicate m Entry.zero, false, false, none, false, []⟩ := by
    simp only [St.renew, renew_eq hz, Res.ok_bind, Res.pure_eq]
  have hvl : (specRun m ops).length = m := by rw [specRun, specOps_length]; simp
  have hdl : s.seg.data.length = total (encs (specRun m ops) 0) := by rw [h2.data]; simp [total]
  have hspare : g.spare = (encs (specRun m ops) 0).flatten ++ s.seg.spare := by
    rw [hsp, h2.data, List.append_assoc]; exact List.drop_left' (by simp)
  have hpos : 0 < (encs (specRun m ops) 0).flatten.length := by
    rw [encs_flatten_length]
    refine Nat.pos_of_ne_zero (fun hc => ?_)
    rw [sizes_eq_zero] at hc
    rw [hc] at hset; cases hset
  generalize hfs : encs (specRun m ops) 0 = fs at *
  have htot : total fs = 8 + fs.flatten.length := rfl
  have hsm := h2.small
  refine ⟨s, g, _, ⟨some .eof, ⟨⟨hdr 0 FTStruct (total fs) ++ fs.flatten, s.seg.spare⟩, List.replicate m Entry.zero, false, false, none, false, []⟩, [], 0⟩,
    by simp [run, h0, h1], hg, hs, ?_, ?_, rfl, ?_⟩
  · have hab : Canons (List.replicate m Val.absent) := canons_replicate m
    have e := read_fields (pad := 0) tys (by rw [padTo_self (by omega)]; exact renewed_rep m g.spare) hab (by simpa using hw.1) 0
      (by simp [hlen]) (by
        intro j ty hj
        have : (List.replicate m Val.absent).getD (0 + j) .absent = .absent := by
          simp only [List.getD_eq_getElem?_getD, List.getElem?_replicate]; split <;> rfl
        rw [this]; simp [Val.HasTy])
    rw [e, viewFields_eq_map]; simp
  · have hdec := decodeHeader_hdr (fn := 0) (ft := FTStruct) (by omega) (by decide) (by omega : total fs < 2 ^ 40) []
    rw [List.append_nil] at hdec
    have hf1 : Frame.fill [hdr 0 FTStruct (total fs)] HeaderSize [] = (none, hdr 0 FTStruct (total fs), []) := by
      simp [Frame.fill, HeaderSize]
    have hcap : total fs ≤ Seg.cap ⟨hdr 0 FTStruct 8, g.spare⟩ := by
      simp only [Seg.cap, hdr_length, hspare, List.length_append, htot]; omega
    have hall : hdr 0 FTStruct 8 ++ g.spare = (hdr 0 FTStruct 8 ++ fs.flatten) ++ s.seg.spare := by rw [hspare, List.append_assoc]
    have htk : (hdr 0 FTStruct 8 ++ g.spare).take (total fs) = hdr 0 FTStruct 8 ++ fs.flatten := by
      rw [hall]; exact List.take_left' (by simp [htot])
    have hdp : (hdr 0 FTStruct 8 ++ g.spare).drop (total fs) = s.seg.spare := by
      rw [hall]; exact List.drop_left' (by simp [htot])
    have hc1 : goCopy (hdr 0 FTStruct 8 ++ fs.flatten) 0 (hdr 0 FTStruct (total fs)) = hdr 0 FTStruct (total fs) ++ fs.flatten := by
      have hle : (hdr 0 FTStruct (total fs)).take ((hdr 0 FTStruct 8 ++ fs.flatten).length - 0) = hdr 0 FTStruct (total fs) :=
        List.take_of_length_le (by simp)
      simp only [goCopy, hle, List.take_zero, List.nil_append, Nat.zero_add, hdr_length]
      rw [List.drop_left' (by simp)]
    have hc2 : goCopy (hdr 0 FTStruct (total fs) ++ fs.flatten) HeaderSize [] = hdr 0 FTStruct (total fs) ++ fs.flatten := by
      simp [goCopy]
    have hf2 : Frame.fill [] (total fs - HeaderSize) [] = (some .eof, [], []) := by
      obtain ⟨k, hk⟩ : ∃ k, total fs - HeaderSize = k + 1 := ⟨total fs - HeaderSize - 1, by simp only [HeaderSize]; omega⟩
      rw [hk]; simp [Frame.fill]
    simp only [Frame.unmarshalReader, hdl, hf1, hdec]
    have hlt : HeaderSize < total fs := by simp only [HeaderSize]; omega
    simp only [hcap, decide_true, ne_eq, not_true_eq_false, if_false, if_true, Bool.not_true, Bool.false_and, Bool.false_eq_true, htk, hdp,
      hc1, hlt, hf2, hc2]
  · have hrep : Rep 0 ⟨⟨hdr 0 FTStruct (total fs) ++ fs.flatten, s.seg.spare⟩, List.replicate m Entry.zero, false, false, none, false, []⟩ fs := by
      refine ⟨rfl, by rw [← hfs]; simp [encs_length, hvl], h2.wf, h2.small, by simp, ?_⟩
      intro _ i hi _
      simp only [List.length_replicate] at hi
      simp [hi]
    rw [← hfs] at hrep
    have e := read_fields (pad := 0) tys (by rw [padTo_self (by omega)]; exact hrep) h4 (by rw [hvl]; exact hw.1) 0
      (by simp [hlen]) (by intro j ty hj; rw [Nat.zero_add]; exact hty.get j ty hj)
    rw [hfs] at e
    rw [e, viewFields_eq_map]; simp

example := C142_cut_message 1000 8 demoOps demoTys demo_fits.within demo_fits.tidy rfl demo_typed (by rw [demo_spec]; rfl)

end Claw
