import Verif.Lemmas.Look

/-!
# C146: what was read from a struct, while other fields of the struct are set

The struct is new or decoded (`Begins`) and may have been changed by any calls `pre` before the value is read;
`ops` are the calls made on it afterwards.
-/

set_option linter.unusedSimpArgs false

namespace Claw

/-- **C146, partial** A `[]byte` obtained from a field shows the same bytes after any calls that leave the field
alone and do not change the room the fields before it take. Missing: calls that change that room. -/
theorem C146_bytes_partial {m : Nat} {r : List Val} {s0 : St} (hb : Begins m r s0) (hm : m ≤ 65536)
    (pre ops : List Op) (hp : FitsFrom m pre r) (ho : FitsFrom m ops (specOps pre r)) (fn : Nat) (b : Bytes)
    (hv : (specOps pre r).getD fn .absent = .scalar .bytes b) (hs : Still fn ops (specOps pre r)) :
    ∃ s l l', runOps pre s0 = .ok s ∧ Look.bytes s fn = .ok (some l) ∧ l.shows = b ∧ l.run ops = .ok l' ∧
      l'.shows = b := by
  obtain ⟨h1, h2, h3, h4, _⟩ := begins_rep hb hm
  obtain ⟨s, e1, e2, e3, e4⟩ := ops_rep pre h1 (by omega) (by omega) h4 (by rw [h2]; exact hp)
  have hlen : (specOps pre r).length = m := by rw [specOps_length, h3]
  have hl : s.idx.length = (specOps pre r).length := by rw [e3.len, h2, hlen]
  have hi : fn < (specOps pre r).length := by
    rcases Nat.lt_or_ge fn (specOps pre r).length with h | h
    · exact h
    · rw [List.getD_eq_getElem?_getD, List.getElem?_eq_none h] at hv; simp at hv
  obtain ⟨l, k1, k2, k3, k4⟩ := look_bytes e2 e4 (by omega) hl (by omega) hv
  obtain ⟨l', j1, j2, _⟩ := look_run ops k2 (by rw [k4]; simpa [idxOf] using hl) (by omega) hi (by rw [hlen]; exact ho)
    (fun _ => hs)
  exact ⟨s, l, l', e1, k1, k2.shows, j1, j2⟩

/-- **C146, partial** A nested struct obtained from a field shows the same record after any calls on its parent
that leave the field alone and do not change the room the fields before it take. Missing: calls that change
that room. -/
theorem C146_nested_partial {m : Nat} {r : List Val} {s0 : St} (hb : Begins m r s0) (hm : m ≤ 65536)
    (pre ops : List Op) (hp : FitsFrom m pre r) (ho : FitsFrom m ops (specOps pre r)) (fn : Nat) (cvs : List Val)
    (hv : (specOps pre r).getD fn .absent = .struct cvs) (hs : Still fn ops (specOps pre r)) (tys : List Ty)
    (htl : tys.length = cvs.length) (hty : FieldsHaveTy cvs tys) :
    ∃ s v v', runOps pre s0 = .ok s ∧ View.get s fn cvs.length = .ok (some v) ∧
      readFields tys v.child 0 = .ok (viewFields tys cvs) ∧ v.ownerRun ops = .ok v' ∧
      readFields tys v'.child 0 = .ok (viewFields tys cvs) := by
  obtain ⟨h1, h2, h3, h4, _⟩ := begins_rep hb hm
  obtain ⟨s, e1, e2, e3, e4⟩ := ops_rep pre h1 (by omega) (by omega) h4 (by rw [h2]; exact hp)
  have hlen : (specOps pre r).length = m := by rw [specOps_length, h3]
  have hl : s.idx.length = (specOps pre r).length := by rw [e3.len, h2, hlen]
  have hi : fn < (specOps pre r).length := by
    rcases Nat.lt_or_ge fn (specOps pre r).length with h | h
    · exact h
    · rw [List.getD_eq_getElem?_getD, List.getElem?_eq_none h] at hv; simp at hv
  obtain ⟨v, k1, k2, k3, k4, k5, k6⟩ := own_get e2 e4 (by omega) hl (by omega) hv
  obtain ⟨v', j1, j2, j3, _⟩ := own_run ops k2 (by rw [k4]; simpa [idxOf] using hl) (by omega) hi (by rw [hlen]; exact ho)
    (fun _ => hs)
  have rd : ∀ c : St, Rep fn c (encs cvs 0) → c.idx.length = cvs.length → readFields tys c 0 = .ok (viewFields tys cvs) := by
    intro c hc hcl
    have := read_fields (pad := cvs.length) tys (by rw [padTo_self (by rw [encs_length]; omega)]; exact hc) k5 k6 0
      (by omega) (by intro j ty hj; rw [Nat.zero_add]; exact hty.get j ty hj)
    rw [this, viewFields_eq_map]
    simp
  exact ⟨s, v, v', e1, k1, rd _ k2.child k2.ckept, j1, rd _ j2 j3⟩

/-- **C146** In particular calls on fields with larger numbers change nothing in what was read: not in a
`[]byte`. -/
theorem C146_later_bytes {m : Nat} {r : List Val} {s0 : St} (hb : Begins m r s0) (hm : m ≤ 65536)
    (pre ops : List Op) (hp : FitsFrom m pre r) (ho : FitsFrom m ops (specOps pre r)) (fn : Nat) (b : Bytes)
    (hv : (specOps pre r).getD fn .absent = .scalar .bytes b) (hs : Later fn ops) :
    ∃ s l l', runOps pre s0 = .ok s ∧ Look.bytes s fn = .ok (some l) ∧ l.shows = b ∧ l.run ops = .ok l' ∧
      l'.shows = b :=
  C146_bytes_partial hb hm pre ops hp ho fn b hv (later_still fn ops _ hs)

/-- **C146** … and not in a nested struct. -/
theorem C146_later_nested {m : Nat} {r : List Val} {s0 : St} (hb : Begins m r s0) (hm : m ≤ 65536)
    (pre ops : List Op) (hp : FitsFrom m pre r) (ho : FitsFrom m ops (specOps pre r)) (fn : Nat) (cvs : List Val)
    (hv : (specOps pre r).getD fn .absent = .struct cvs) (hs : Later fn ops) (tys : List Ty)
    (htl : tys.length = cvs.length) (hty : FieldsHaveTy cvs tys) :
    ∃ s v v', runOps pre s0 = .ok s ∧ View.get s fn cvs.length = .ok (some v) ∧
      readFields tys v.child 0 = .ok (viewFields tys cvs) ∧ v.ownerRun ops = .ok v' ∧
      readFields tys v'.child 0 = .ok (viewFields tys cvs) :=
  C146_nested_partial hb hm pre ops hp ho fn cvs hv (later_still fn ops _ hs) tys htl hty

/-! ### A struct that moves -/

/-- **C146** A `[]byte` obtained from a struct that was decoded from a message with no room behind it is safe for
ever once a call makes the struct longer: the struct moves, and nothing is written to the old array any more. -/
theorem C146_moved_bytes {m : Nat} {pre : List Op} (hfit : Fits m pre) {w w' f p : St} {msg : Bytes}
    (hw : run m pre = .ok w) (hmar : w.marshal = .ok (msg, w')) (hf : St.new m = .ok f)
    (hu : f.unmarshal msg [] = some p) (op : Op) (ops : List Op) (ho : FitsFrom m (op :: ops) (specRun m pre))
    (hg : sizes (specRun m pre) < sizes (op.spec (specRun m pre))) (fn : Nat) (b : Bytes)
    (hv : (specRun m pre).getD fn .absent = .scalar .bytes b) :
    ∃ l l', Look.bytes p fn = .ok (some l) ∧ l.shows = b ∧ l.run (op :: ops) = .ok l' ∧ l'.shows = b := by
  obtain ⟨h1, h2, h3, h4, _⟩ := begins_rep (.decoded hfit hw hmar hf hu) hfit.1
  have hsp := decoded_full hfit hw hmar hf hu
  have hm := hfit.1
  have hi : fn < (specRun m pre).length := by
    rcases Nat.lt_or_ge fn (specRun m pre).length with h | h
    · exact h
    · rw [List.getD_eq_getElem?_getD, List.getElem?_eq_none h] at hv; simp at hv
  obtain ⟨l, k1, k2, k3, k4⟩ := look_bytes h1 h4 (by omega) (by omega) (by omega) hv
  have hl : l.owner.idx.length = (specRun m pre).length := by rw [k4]; simp [idxOf]; omega
  have hlsp : l.owner.seg.spare = [] := by rw [k4]; exact hsp
  rw [FitsFrom] at ho
  obtain ⟨l1, j1, j2, j3, j4, j5, j6⟩ := look_step k2 op hl (by omega) hi (by rw [h3]; exact ho.1) ho.2.1
    (fun _ h => absurd ⟨hlsp, hg⟩ h)
  obtain ⟨l', i1, i2, _⟩ := look_run ops j2 j3 (by rw [spec_length]; omega) (by rw [spec_length]; exact hi)
    (by rw [spec_length, h3]; exact ho.2.2) (fun h => by rw [j6 hlsp hg] at h; cases h)
  exact ⟨l, l', k1, k2.shows, by simp only [Look.run, j1, Res.ok_bind, i1], i2⟩

/-- **C146, where the code falls short** After the same call a nested struct obtained before has nothing to do
with its parent any more: whatever is then set in it shows when it is read, and never reaches the message,
which has what the nested struct held when it was obtained. -/
theorem C146_edit_lost {m : Nat} {pre : List Op} (hfit : Fits m pre) {w w' f p : St} {msg : Bytes}
    (hw : run m pre = .ok w) (hmar : w.marshal = .ok (msg, w')) (hf : St.new m = .ok f)
    (hu : f.unmarshal msg [] = some p) (op : Op) (ho : op.Fits m) (hs : 8 + sizes (op.spec (specRun m pre)) < 2 ^ 32)
    (hg : sizes (specRun m pre) < sizes (op.spec (specRun m pre))) (fn : Nat) (cvs : List Val)
    (hv : (specRun m pre).getD fn .absent = .struct cvs) (cops : List Op) (hc : FitsFrom cvs.length cops cvs)
    (tys ctys : List Ty) (hcl : ctys.length = cvs.length)
    (hty : FieldsHaveTy (op.spec (specRun m pre)) tys) (hcty : FieldsHaveTy (specOps cops cvs) ctys) :
    ∃ v v1 v2 msg', View.get p fn cvs.length = .ok (some v) ∧ v.ownerStep op = .ok v1 ∧ View.run cops v1 = .ok v2 ∧
      readFields ctys v2.child 0 = .ok (viewFields ctys (specOps cops cvs)) ∧
      v2.parent.marshal = .ok (msg', v2.parent) ∧ Decodes tys msg' (viewFields tys (op.spec (specRun m pre))) := by
  obtain ⟨h1, h2, h3, h4, h5⟩ := begins_rep (.decoded hfit hw hmar hf hu) hfit.1
  have hsp := decoded_full hfit hw hmar hf hu
  have hm := hfit.1
  have hi : fn < (specRun m pre).length := by
    rcases Nat.lt_or_ge fn (specRun m pre).length with h | h
    · exact h
    · rw [List.getD_eq_getElem?_getD, List.getElem?_eq_none h] at hv; simp at hv
  obtain ⟨v, k1, k2, k3, k4, k5, k6⟩ := own_get h1 h4 (by omega) (by omega) (by omega) hv
  have hl : v.parent.idx.length = (specRun m pre).length := by rw [k4]; simp [idxOf]; omega
  have hvsp : v.parent.seg.spare = [] := by rw [k4]; exact hsp
  obtain ⟨v1, j1, j2, j3, j4, j5, j6⟩ := own_step k2 op hl (by omega) hi (by rw [h3]; exact ho) hs
    (fun _ h => absurd ⟨hvsp, hg⟩ h)
  obtain ⟨v2, i1, i2, i3, i4, i5⟩ := own_alone cops (j6 hvsp hg) j2.child j2.ckept k6 k5 hc
  have hen : v2.parent.isSetEnabled = false := by rw [i2, j4, k4]; exact h5
  have hrp : Rep 0 v2.parent (encs (op.spec (specRun m pre)) 0) := by rw [i2]; exact j2.rep
  refine ⟨v, v1, v2, _, k1, j1, i1, ?_, marshal_rep hrp hen,
    decodes_of (by rw [spec_length]; omega) j2.canon hs hty⟩
  have := read_fields (pad := cvs.length) ctys
    (by rw [padTo_self (by rw [encs_length, specOps_length]; omega)]; exact i3) i5
    (by rw [specOps_length]; exact k6) 0 (by omega) (by intro j ty hj; rw [Nat.zero_add]; exact hcty.get j ty hj)
  rw [this, viewFields_eq_map]
  simp

/-! ### The property fails -/

/-- **C146, the property fails** A `[]byte` read from field 1, before field 0 is set: the holder of the slice
then reads the header of field 1 in it. -/
theorem C146_bytes_change : (do
    let s ← run 2 [.set 1 .bytes [1, 2, 3, 4, 5, 6, 7, 8]]
    let l ← Look.bytes s 1
    let l ← Res.ofOption l
    let l' ← l.run [.set 0 .u8 7]
    return (l.shows, l'.shows)) = .ok ([1, 2, 3, 4, 5, 6, 7, 8], [1, 0, 13, 8, 0, 0, 0, 0]) := by decide +kernel

/-- **C146, the property fails** A nested struct read from field 1, before field 0 is set: its field, which is 7,
then reads as 16, the length of the nested struct. -/
theorem C146_nested_change : (do
    let s ← run 2 [.nest 1 1 [.set 0 .u8 7]]
    let v ← View.get s 1 1
    let v ← Res.ofOption v
    let a ← getUint8 v.child 0
    let v' ← v.ownerRun [.set 0 .u8 3]
    let b ← getUint8 v'.child 0
    return (a, b)) = .ok (7, 16) := by decide +kernel

/-- **C146, the property fails for decoded structs** Clearing field 0 of a decoded struct changes a `[]byte` read
from field 1, although there is no room behind the message: a call that makes the struct shorter does not move it. -/
theorem C146_clear_changes : (do
    let w ← run 3 [.set 0 .u8 7, .set 1 .bytes [1, 2, 3, 4, 5, 6, 7, 8], .set 2 .u8 9]
    let (msg, _) ← w.marshal
    let f ← St.new 3
    let p ← Res.ofOption (f.unmarshal msg [])
    let l ← Look.bytes p 1
    let l ← Res.ofOption l
    let l' ← l.run [.clear 0]
    return (l.shows, l'.shows)) = .ok ([1, 2, 3, 4, 5, 6, 7, 8], [2, 0, 6, 9, 0, 0, 0, 0]) := by decide +kernel

/-! ### The hypotheses can be met -/

/-- A later field is set, and an earlier one that keeps its room. -/
example : ∃ f, St.new 3 = .ok f ∧ ∃ s l l', runOps [.set 0 .u8 7, .set 1 .bytes [1, 2, 3]] f = .ok s ∧
    Look.bytes s 1 = .ok (some l) ∧ l.shows = [1, 2, 3] ∧
    l.run [.set 0 .u8 9, .set 2 .str [65, 66]] = .ok l' ∧ l'.shows = [1, 2, 3] := by
  obtain ⟨f, hf, _⟩ := new_rep 3
  refine ⟨f, hf, C146_bytes_partial (.created hf) (by decide) [.set 0 .u8 7, .set 1 .bytes [1, 2, 3]]
    [.set 0 .u8 9, .set 2 .str [65, 66]] ?_ ?_ 1 [1, 2, 3] ?_ ?_⟩ <;>
  simp +decide [FitsFrom, Still, Op.Fits, Op.spec, specOps, specScalar, STy.isZero, List.replicate, sizes, Val.size,
    scalarSize, STy.Clean, STy.Storable]

/-- The same with a nested struct. -/
example : ∃ f, St.new 3 = .ok f ∧ ∃ s v v', runOps [.set 0 .u8 7, .nest 1 2 [.set 1 .u8 5]] f = .ok s ∧
    View.get s 1 2 = .ok (some v) ∧
    readFields [.scalar .u8, .scalar .u8] v.child 0 = .ok (viewFields [.scalar .u8, .scalar .u8] [.absent, .scalar .u8 5]) ∧
    v.ownerRun [.set 0 .u8 9, .set 2 .str [65, 66]] = .ok v' ∧
    readFields [.scalar .u8, .scalar .u8] v'.child 0 = .ok (viewFields [.scalar .u8, .scalar .u8] [.absent, .scalar .u8 5]) := by
  obtain ⟨f, hf, _⟩ := new_rep 3
  refine ⟨f, hf, C146_nested_partial (.created hf) (by decide) [.set 0 .u8 7, .nest 1 2 [.set 1 .u8 5]]
    [.set 0 .u8 9, .set 2 .str [65, 66]] ?_ ?_ 1 [.absent, .scalar .u8 5] ?_ ?_ [.scalar .u8, .scalar .u8] rfl ?_⟩ <;>
  simp +decide [FitsFrom, Still, Op.Fits, Op.spec, specOps, specScalar, specStruct, STy.isZero, List.replicate, sizes, Val.size,
    scalarSize, STy.Clean, STy.Storable, Val.isAbsent, FieldsHaveTy, Val.HasTy]

/-- Calls on later fields. -/
example : Later 1 [.set 2 .str [65, 66], .clear 3, .peek] := by
  intro op h n hn
  simp only [List.mem_cons, List.not_mem_nil, or_false] at h
  rcases h with rfl | rfl | rfl <;> simp [Op.field] at hn <;> omega

/-- A decoded struct grows; the number set afterwards in the nested struct obtained before is lost. -/
example : ∃ w w' f p msg, run 3 [.nest 1 2 [.set 1 .u8 5]] = .ok w ∧ w.marshal = .ok (msg, w') ∧ St.new 3 = .ok f ∧
    f.unmarshal msg [] = some p ∧
    ∃ v v1 v2 msg', View.get p 1 2 = .ok (some v) ∧ v.ownerStep (.set 2 .u8 9) = .ok v1 ∧
      View.run [.set 1 .u8 6] v1 = .ok v2 ∧
      readFields [.scalar .u8, .scalar .u8] v2.child 0 =
        .ok (viewFields [.scalar .u8, .scalar .u8] (specOps [.set 1 .u8 6] [.absent, .scalar .u8 5])) ∧
      v2.parent.marshal = .ok (msg', v2.parent) ∧
      Decodes [.scalar .u8, .struct [.scalar .u8, .scalar .u8], .scalar .u8] msg'
        (viewFields [.scalar .u8, .struct [.scalar .u8, .scalar .u8], .scalar .u8]
          ((Op.set 2 .u8 9).spec (specRun 3 [.nest 1 2 [.set 1 .u8 5]]))) := by
  have hfit : Fits 3 [.nest 1 2 [.set 1 .u8 5]] := by
    refine ⟨by omega, ?_⟩
    simp +decide [FitsFrom, Op.Fits, Op.spec, specOps, specScalar, specStruct, STy.isZero, List.replicate, sizes, Val.size,
      scalarSize, STy.Clean, STy.Storable, Val.isAbsent]
  have hsp : specRun 3 [.nest 1 2 [.set 1 .u8 5]] = [.absent, .struct [.absent, .scalar .u8 5], .absent] := by
    simp +decide [specRun, Op.spec, specOps, specScalar, specStruct, STy.isZero, List.replicate, Val.isAbsent]
  obtain ⟨w, msg, f, p, _, h1, h2, h3, h4, _⟩ := decoded_view 3 [.nest 1 2 [.set 1 .u8 5]] 3 [] 1
    [.absent, .scalar .u8 5] hfit (by omega) (by rw [hsp]; rfl)
  refine ⟨w, w, f, p, msg, h1, h2, h3, h4, C146_edit_lost hfit h1 h2 h3 h4 (.set 2 .u8 9) ?_ ?_ ?_ 1
    [.absent, .scalar .u8 5] ?_ [.set 1 .u8 6] ?_
    [.scalar .u8, .struct [.scalar .u8, .scalar .u8], .scalar .u8] [.scalar .u8, .scalar .u8] rfl ?_ ?_⟩ <;> (try rw [hsp]) <;>
  simp +decide [FitsFrom, Op.Fits, Op.spec, specOps, specScalar, specStruct, STy.isZero, List.replicate, sizes, Val.size,
    scalarSize, STy.Clean, STy.Storable, Val.isAbsent, FieldsHaveTy, Val.HasTy]

end Claw
