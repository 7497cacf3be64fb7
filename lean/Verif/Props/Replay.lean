import Verif.Lemmas.Replay

/-!
# C49: replaying recorded mutations

`session acts L` turns recording on, makes the calls `acts`, and drains the recorder. `RFits` (Spec/Replay) says
which calls: setters of numbers, bools, strings, byte slices and structs, all edits of lists of numbers, bools,
strings and byte slices, list getters, `Marshal`. Calls on Any, maps and lists of structs are not among them; for these
the property fails, see the theorems at the end.
-/

namespace Claw

set_option linter.unusedSimpArgs false

theorem ReplayInv.shows {tys base A M r c} (h : ReplayInv tys base A M r c) :
    ShowsAll tys M fun i => A.current.getD i .absent := by
  intro i ty hi
  have hf := h.pinv.fld i ty hi
  have ha := h.agree i ty hi
  refine ⟨?_, ?_⟩
  · intro t ht he
    subst ht
    simp only [Ty.Agree, editable_isList he, if_true] at ha
    simp only [Fld, editable_isList he, if_true] at hf
    rcases hf with ⟨a, b⟩ | ⟨v, a, b⟩
    · exact ⟨none, b, by rw [← ha, a]; rfl⟩
    · exact ⟨some v, b, by rw [← ha, a]; simp [listIn]⟩
  · intro hne
    have : obj r c i = A.current.getD i .absent := by
      cases ty with
      | scalar t =>
        have h1 := hne t rfl
        have h2 : t.isList = false := by
          cases hl : t.isList with
          | false => rfl
          | true => rw [isList_editable hl] at h1; simp at h1
        simpa [Ty.Agree, h2] using ha
      | struct => exact ha
      | structs => exact ha
    show Fld M i ty (A.current.getD i .absent)
    rw [← this]; exact hf

theorem LInv.shows {tys L A} (hv : LInv (listsOf tys) L A) (hl : A.fields.length = tys.length)
    (hty : ∀ i ty, tys[i]? = some ty → (A.fields.getD i .absent).HasTy ty) :
    ShowsAll tys L fun i => A.current.getD i .absent := by
  intro i ty hi
  have hf := linv_fld hv hl hty i ty hi
  refine ⟨?_, fun _ => hf⟩
  intro t ht he
  subst ht
  simp only [Fld, editable_isList he, if_true] at hf
  rcases hf with ⟨a, b⟩ | ⟨v, a, b⟩
  · exact ⟨none, b, by simp only [a]; rfl⟩
  · exact ⟨some v, b, by simp only [a]; simp [listIn]⟩

/-- C49 for the calls of `RFits`: recording never fails, and applying what was recorded to a struct that shows the same as
the original did at the start makes it show, in every field, what the original shows at the end. It is required that
at most 10000 operations were recorded, that the message stays below 4 GiB, and that a list of numbers of the copy has
not been edited without `Marshal`. Missing: Any, maps, lists of structs, where it is false. -/
theorem C49_replay_partial {tys : List Ty} {L M : LSt} {A B : LAbs} (ha : Reached tys L A) (hb : Reached tys M B)
    (hn : NumbersSettled B) (heq : ∀ i (ty : Ty), tys[i]? = some ty → ty.Agree (B.current.getD i .absent) (A.current.getD i .absent))
    (acts : List RAct) (hf : RFits tys B.fields A acts) :
    ∃ ops L', session acts L = .ok (ops, L') ∧
      ShowsAll tys L' (fun i => (A.steps (acts.map RAct.toLOp)).current.getD i .absent) ∧
      (ops.length ≤ 10000 → ∃ M', applyPatch tys M ⟨1, ops.map RecOp.toPOp⟩ = .ok (M', false) ∧
        ShowsAll tys M' (fun i => (A.steps (acts.map RAct.toLOp)).current.getD i .absent)) := by
  obtain ⟨hv, hl, hty⟩ := ha.inv
  obtain ⟨c, p1, p2, _⟩ := hb.pinv hn
  obtain ⟨L', recs, e1, e2, e3, e4, e5⟩ := acts_ok (base := B.fields) p1.sch acts L A hv hl
    (fun i ty hi => hty.get i ty hi) hf
  refine ⟨recs, L'.note false [], ?_, (e1.noted []).shows e2 e3, fun hmax => ?_⟩
  · have := e4 []
    simp only [session]
    rw [show ({ L with st := L.st.drainRecordedOps.2.setRecording true } : LSt) = L.note true [] from rfl, this]
    rfl
  · have hinv : ReplayInv tys B.fields A M B.fields c := by
      refine ⟨p1, fun i ty hi => by rw [p2]; exact heq i ty hi, fun i ty hi => ?_⟩
      unfold bound
      split
      · split <;> omega
      · omega
    obtain ⟨M', r', c', d1, d2⟩ := e5 100 M _ _ hinv
    exact ⟨M', (C23_within_limit tys M M' _ (by simpa using hmax)).2 d1, d2.shows⟩

/-- A schema with a number, a list of bools, a list of strings and a struct. -/
def recTys : List Ty := [.scalar .u8, .scalar .lbool, .scalar .lstr, .struct [.scalar .u16]]

/-- A session: a setter, edits of two lists, `Marshal` in between, and a struct. -/
def recActs : List RAct :=
  [.call (.set 0 .u8 7), .edit 1 .lbool (.append [true, false]), .marshal, .edit 1 .lbool (.set 0 false),
    .edit 2 .lstr (.setAll [[65], [66, 67, 68, 69]]), .call (.nest 3 1 [.set 0 .u16 5]), .call (.set 0 .u8 0), .access 2 .lstr]

/-- What it records. -/
example : ((St.new 4).bind fun s => (session recActs (LSt.ofSt s)).map (·.1)) = .ok
    [⟨0, OpSet, -1, [7]⟩, ⟨1, 6, 0, [1]⟩, ⟨1, 6, 1, [0]⟩, ⟨1, 5, 0, [0]⟩,
      ⟨2, OpListReplace, -1, [2, 0, 0, 0, 1, 0, 0, 0, 65, 4, 0, 0, 0, 66, 67, 68, 69]⟩,
      ⟨3, OpSet, -1, [0, 0, 14, 16, 0, 0, 0, 0, 0, 0, 7, 5, 0, 0, 0, 0]⟩, ⟨0, OpClear, -1, []⟩] := by decide +kernel

/-- The hypotheses of `C49_replay_partial` hold for it. -/
example (s : St) (e : St.new 4 = .ok s) : Reached recTys (LSt.ofSt s) ⟨List.replicate 4 .absent, fun _ => none⟩ ∧
    NumbersSettled ⟨List.replicate 4 .absent, fun _ => none⟩ ∧
    RFits recTys (List.replicate 4 .absent) ⟨List.replicate 4 .absent, fun _ => none⟩ recActs := by
  refine ⟨?_, ?_, ?_⟩
  · have hty : ListsTyped (listsOf recTys) (List.replicate 4 .absent) := by
      intro fn t _; left; rcases fn with _ | _ | _ | _ | fn <;> rfl
    exact .mk (ops := []) (by decide) (.created e) hty trivial rfl (by simp [LAbs.steps, recTys, FieldsHaveTy, Val.HasTy, List.replicate])
  · intro fn sh k v h; simp at h
  · simp +decide [RFits, recActs, RAct.Fits, LOp.Fits, recTys, LAbs.step, RAct.toLOp, LAbs.touch, LAbs.setShown, Op.spec, Op.Fits,
      Op.field, listsOf, Op.Replayable, LAbs.flushed, LAbs.encoded, sizes, Val.size, LAbs.current, List.mapIdx_cons, listIn,
      List.replicate, ListCall.apply, specScalar, STy.isZero, STy.Clean, STy.Storable, STy.zero, STy.itemsOf, STy.ofItems,
      scalarSize, specStruct, specOps, FieldsHaveTy, Val.HasTy, Val.isAbsent, itemBytes, stored]
    refine ⟨fun p => ?_, ?_⟩
    · cases p 1 <;> simp [Val.size, scalarSize]
    · simp [FitsFrom, Op.Fits, STy.Clean, STy.Storable, Op.spec, specScalar, STy.isZero, sizes, Val.size, scalarSize]

/-- C49 fails when more than 10000 operations were recorded: the patch is rejected and nothing is applied. -/
theorem C49_long_session_rejected (tys : List Ty) (M : LSt) (ops : List RecOp) (h : 10000 < ops.length) :
    applyPatch tys M ⟨1, ops.map RecOp.toPOp⟩ = .ok (M, true) := C23_too_many_ops _ _ _ (.inl (by simpa using h))

/-- One call is enough: `Append` of so many values records one operation for each. -/
theorem C49_append_rejected {tys : List Ty} {L : LSt} {A : LAbs} (ha : Reached tys L A) (fn : Nat) (vs : List Bool)
    (hvs : 10000 < vs.length) (hf : LOp.Fits (listsOf tys) A (.edit fn .lbool (ListCall.apply (.append vs)))) :
    ∃ ops L', session [.edit fn .lbool (.append vs)] L = .ok (ops, L') ∧
      ∀ M, applyPatch tys M ⟨1, ops.map RecOp.toPOp⟩ = .ok (M, true) := by
  obtain ⟨hv, hl, hty⟩ := ha.inv
  obtain ⟨L', _, e⟩ := edit_runs hv (t := .lbool) (e := .append vs) hf
  have hlen : ∀ (vs : List Bool) (n : Nat), (insRecs .lbool fn n vs).length = vs.length := by
    intro vs
    induction vs with
    | nil => intro n; rfl
    | cons v vs ih => intro n; simp [insRecs, ih]
  refine ⟨insRecs .lbool fn (STy.itemsOf .lbool (listIn .lbool (A.touch fn .lbool).items)).length vs, L'.note false [], ?_,
    fun M => C49_long_session_rejected _ _ _ ?_⟩
  · simp only [session]
    rw [show ({ L with st := L.st.drainRecordedOps.2.setRecording true } : LSt) = L.note true [] from rfl]
    simp only [runActs, e, Res.ok_bind, List.nil_append]
    rfl
  · rw [hlen]; exact hvs

/-- The hypotheses can be met: 10001 values in an empty list. -/
example (s : St) (e : St.new 1 = .ok s) (n : Nat) (hn : n < 2 ^ 30) :
    Reached [.scalar .lbool] (LSt.ofSt s) ⟨List.replicate 1 .absent, fun _ => none⟩ ∧
    RFits [.scalar .lbool] (List.replicate 1 .absent) ⟨List.replicate 1 .absent, fun _ => none⟩
      [.edit 0 .lbool (.append (List.replicate n true))] := by
  refine ⟨?_, ?_⟩
  · have hty : ListsTyped (listsOf [.scalar .lbool]) (List.replicate 1 .absent) := by
      intro fn t _; left; rcases fn with _ | fn <;> rfl
    exact .mk (ops := []) (by decide) (.created e) hty trivial rfl (by simp [LAbs.steps, FieldsHaveTy, Val.HasTy, List.replicate])
  · simp +decide [RFits, RAct.Fits, LOp.Fits, LAbs.step, RAct.toLOp, LAbs.touch, LAbs.setShown, listsOf, sizes, Val.size,
      LAbs.current, List.mapIdx_cons, listIn, ListCall.apply, STy.Clean, STy.Storable, STy.zero, STy.itemsOf, STy.ofItems,
      scalarSize]
    omega

/-- C49 fails for an Any: setting it is recorded, but `Apply` rejects the operation. -/
theorem C49_any_rejected {tys : List Ty} {L : LSt} {A : LAbs} (ha : Reached tys L A) {fn : Nat} {v : AnyVal}
    (hty : tys[fn]? = some (.scalar .any)) (hf : LOp.Fits (listsOf tys) A (.call (.set fn .any (some v)))) :
    ∃ ops L', session [.call (.set fn .any (some v))] L = .ok (ops, L') ∧ Fld L' fn (.scalar .any) (.scalar .any (some v)) ∧
      ∀ M, applyPatch tys M ⟨1, ops.map RecOp.toPOp⟩ = .ok (M, true) := by
  obtain ⟨hv, hl, hty'⟩ := ha.inv
  have hfit := hf.1
  simp only [Op.Fits] at hfit
  have hfn6 : fn < 65536 := by have := hv.max; omega
  have hfn' : (UInt16.ofNat fn).toNat = fn := by simp; omega
  have hsz : scalarSize .any (some v) < 2 ^ 32 := by
    have hs0 := hf.2.2
    have := sizes_ge (A.fields.set fn (specScalar .any (some v))) fn
    rw [PInv.getD_set_self hfit.1] at this
    simp only [Op.spec, specScalar, STy.isZero, Option.isNone_some, Bool.false_eq_true, if_false, Val.size] at this hs0
    omega
  obtain ⟨L', e1, e2⟩ := call_inv hv _ hf.1 hf.2.1 hf.2.2
  simp only [LOp.run] at e1
  obtain ⟨s', e3, e4⟩ := Res.bind_eq_ok.1 e1
  simp only [Res.pure_eq, Res.ok.injEq] at e4
  subst e4
  have hset := set_eq .any (L.st.note true []) fn (some v) hsz hfit.2.storable rfl rfl
  simp only [Op.run] at e3
  rw [set_eq .any L.st fn (some v) hsz hfit.2.storable rfl rfl] at e3
  have hn := setOrClear_note hv.cfg.2 e3 []
  simp only [STy.isZero, Option.isNone_some, Bool.false_eq_true, if_false, List.nil_append] at hn hset
  refine ⟨[⟨fn, OpSet, -1, STy.recData .any (some v)⟩], LSt.note { L with st := s' } false [], ?_, ?_, fun M => ?_⟩
  · simp only [session]
    rw [show ({ L with st := L.st.drainRecordedOps.2.setRecording true } : LSt) = L.note true [] from rfl]
    simp only [runActs, RAct.run, LOp.run, Op.run]
    rw [show (L.note true []).st = L.st.note true [] from rfl, hset, hn]
    rfl
  · have hh := linv_fld (e2.noted []) (by rw [step_length]; exact hl)
      (fun i ty hi => typed_fields_set (fun i ty hi => hty'.get i ty hi) hty (by omega) (x := specScalar .any (some v))
        (by simp [specScalar, STy.isZero, Val.HasTy]) i ty hi) fn _ hty
    have hnl : listsOf tys fn = none := by simp [listsOf, hty, STy.isList]
    have := (current_set hv hnl hfit.1 (specScalar .any (some v))).1
    rw [show A.step (.call (.set fn .any (some v))) = { A with fields := A.fields.set fn (specScalar .any (some v)) } from rfl,
      this] at hh
    simpa [specScalar, STy.isZero] using hh
  · simp only [applyPatch, List.map_cons, List.map_nil, RecOp.toPOp]
    rw [if_neg (by simp), if_neg (by simp [maxPatchOps])]
    have happ : applyOp maxPatchDepth tys M ⟨UInt16.ofNat fn, UInt8.ofNat OpSet, Int32.ofInt (-1), STy.recData .any (some v)⟩ =
        .ok (M, true) := by
      rw [applyOp.eq_def]
      simp +decide only [hfn', hty, applySet, STy.ofPatch, if_true]
    simp only [patchLoop, Res.ok_bind, happ, List.map_cons, List.map_nil]
    rfl

/-- There are such calls. -/
example : LOp.Fits (listsOf [.scalar .any]) ⟨[.absent], fun _ => none⟩
    (.call (.set 0 .any (some ⟨List.replicate 16 1, [0, 0, 14, 8, 0, 0, 0, 0]⟩))) := by
  simp +decide [LOp.Fits, Op.Fits, STy.Clean, STy.Storable, Op.field, listsOf, STy.isList, Op.spec, specScalar, STy.isZero, sizes,
    Val.size, scalarSize]

/-- C49 fails for a map: `Set` and `Delete` record operations that `Apply` does not know, and it skips them. -/
theorem C49_map_calls_skipped (tys : List Ty) (M : LSt) (recs : List RecOp) (hlen : recs.length ≤ 10000)
    (h : ∀ o ∈ recs, ∃ fn d, o = mapSetRec fn d ∨ o = mapDeleteRec fn d) :
    applyPatch tys M ⟨1, recs.map RecOp.toPOp⟩ = .ok (M, false) := by
  refine (C23_within_limit tys M M _ (by simpa using hlen)).2 ?_
  clear hlen
  induction recs with
  | nil => exact .nil
  | cons o recs ih =>
    refine .cons ?_ (ih fun x hx => h x (by simp [hx]))
    obtain ⟨fn, d, e⟩ := h o (by simp)
    rw [applyOp.eq_def]
    rcases e with e | e <;> subst e <;>
      simp +decide only [RecOp.toPOp, mapSetRec, mapDeleteRec, if_false]

/-- C49 fails for a list of structs: `Append` to a list that is not empty is replayed as an insert, which writes the items that
are there twice. -/
theorem C49_struct_append_duplicates {tys ctys : List Ty} {M : LSt} {B : LAbs} (h : Reached tys M B) (hn : NumbersSettled B) {fn : Nat}
    (hty : tys[fn]? = some (.structs ctys)) {d : Bytes} {vs : List Val} (hd : ItemOf ctys d vs) (old : List (List Val))
    (hold : old = itemsIn (B.current.getD fn .absent)) (hne : old ≠ []) (hlen : old.length < 2 ^ 31)
    (hs : 8 + sizes (B.fields.set fn (.structs (old ++ (old ++ [vs])))) < 2 ^ 32) :
    (∃ M', applyPatch tys M ⟨1, [(structAppendRec fn old.length d).toPOp]⟩ = .ok (M', false) ∧
      Rewritten tys M' B fn (.structs (old ++ (old ++ [vs])))) ∧ old ++ (old ++ [vs]) ≠ old ++ [vs] := by
  have hfn6 : fn < 65536 := by
    obtain ⟨hv, hl, _⟩ := h.inv
    have := hv.max
    have := (List.getElem?_eq_some_iff.1 hty).1
    omega
  have hfn' : (UInt16.ofNat fn).toNat = fn := by simp; omega
  have hidx : (Int32.ofInt (Int32.ofNat old.length).toInt).toInt = old.length := by
    rw [Int32.ofInt_toInt, Int32.toInt_ofNat_of_lt hlen]
  refine ⟨?_, ?_⟩
  · obtain ⟨M', e1, e2⟩ := C24_struct_insert_duplicates (op := (structAppendRec fn old.length d).toPOp) (vs := vs) (ctys := ctys) h hn rfl
      (by simp only [structAppendRec, RecOp.toPOp, hfn']; exact hty) hd
      (by simp only [structAppendRec, RecOp.toPOp, hfn', hidx, ← hold]; omega) 100 (old ++ (old ++ [vs]))
      (by simp only [structAppendRec, RecOp.toPOp, hfn', hidx, ← hold]; simp)
      (by simp only [structAppendRec, RecOp.toPOp, hfn']; exact hs)
    refine ⟨M', (C23_within_limit tys M M' _ (by simp)).2 (.cons e1 .nil), ?_⟩
    simpa only [structAppendRec, RecOp.toPOp, hfn'] using e2
  · intro e
    have := congrArg List.length e
    simp at this
    exact hne this

/-- The struct `editAbs` (Props/Apply) has a struct in its list, and can be reached. -/
example : (∃ L, Reached editTys L editAbs) ∧ NumbersSettled editAbs ∧ editTys[2]? = some (.structs [.scalar .u8]) ∧
    ItemOf [.scalar .u8] (hdr 0 FTStruct (total (encs [.scalar .u8 5] 0)) ++ (encs [.scalar .u8 5] 0).flatten) [.scalar .u8 5] ∧
    itemsIn (editAbs.current.getD 2 .absent) ≠ [] := by
  refine ⟨edit_demo, edit_demo_settled, rfl, ?_, ?_⟩
  · exact ⟨⟨0, by decide, rfl⟩, by simp [Canons, Val.Canon, STy.isZero, STy.Clean, STy.Storable, scalarSize], by decide,
      by simp [sizes, Val.size, scalarSize], by simp [FieldsHaveTy, Val.HasTy]⟩
  · rw [editAbs_current, editAbs_eq.1]; simp [itemsIn]

end Claw
