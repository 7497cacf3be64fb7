import Verif.Props.Reflect
import Verif.Lemmas.ListCache

/-!
# Lists through reflection (C98)
-/

namespace Claw.Refl

open Claw

theorem numsTy_ft (k : NTy) : numsTy k.ft = some k := by cases k <;> rfl

theorem scalarTy_nums (k : NTy) : scalarTy k.ft = none := by cases k <;> rfl

/-- The struct of a program, with recording off. -/
theorem here_run {m : Nat} {ops : List Op} (hfit : Within m ops) (htidy : Tidies (specRun m ops)) :
    ∃ s, run m ops = .ok s ∧ Here 0 (LSt.ofSt s) (specRun m ops) ∧ s.recording = false := by
  obtain ⟨s0, h0, hr, hl, hen, hrec, _⟩ := new_rep m
  obtain ⟨s, h1, h2, h3, h4⟩ := tidy_rep m ops hfit htidy hr hl
  obtain ⟨s', e1, e2⟩ := here_of_run hfit htidy
  have : run m ops = .ok s := by simp [run, h0, h1]
  rw [e1] at this
  injection this with this
  subst this
  exact ⟨_, e1, e2, h3.recording.trans hrec⟩

/-- What the generated accessor shows of a list in the bytes. -/
theorem shows_stored {r : Nat} {s : St} {vs : List Val} (h : Here r (LSt.ofSt s) vs) {i : Nat} {t : STy} (ht : t.isList = true)
    {v : t.Val} (hv : vs.getD i .absent = .scalar t v) : (LSt.ofSt s).shows i t = .ok v := by
  have hcan := h.canon.get i
  rw [hv] at hcan
  have hz := hcan.1
  have hp := h.parsed.get hv
  simp only [parsedL] at hp
  have hg := getList_of_get t _ i v ht hz hp
  have hen : s.ensure = .ok (parsedSt s (encs vs 0)) := h.rep.ensure
  simp only [LSt.shows, LSt.access]
  simp only [LSt.ofSt] at hg hen ⊢
  simp [hen, hg]

theorem shows_new (L : LSt) (fn : Nat) (t : STy) (v : t.Val) : (newList L fn t v).shows fn t = .ok v := by
  simp [newList, LSt.shows, LSt.access, LSt.register]

theorem edit_new (L : LSt) (fn : Nat) (t : STy) (v w : t.Val) (g : t.Val → Option t.Val) (hg : g v = some w) :
    (newList L fn t v).edit fn t g = .ok { newList L fn t v with heap := L.heap ++ [LObj.mk fn t w true] } := by
  simp [newList, LSt.edit, LSt.access, LSt.register, hg]

section

variable (c : Conv) (W : World) (k : Nat)

/-- C98 where it holds: a number list is read through reflection with its items, and the generated accessor shows the same items
before and after. -/
theorem C98_numbers_partial {m : Nat} {ops : List Op} (hfit : Within m ops) (htidy : Tidies (specRun m ops)) {fd : RFD}
    (hd : (W.maps k)[fd.num]? = some fd.fd) {n : NTy} (hft : fd.fd.ft = n.ft) {v : List n.Val}
    (hv : (specRun m ops).getD fd.num .absent = .scalar (.lnum n) v) :
    ∃ s L, run m ops = .ok s ∧ getValue c W k (LSt.ofSt s) fd.num = .ok (some (ofList (.nums n v)), L) ∧
      (RList.nums n v).len = v.length ∧ (LSt.ofSt s).shows fd.num (.lnum n) = .ok v ∧ L.shows fd.num (.lnum n) = .ok v := by
  obtain ⟨s, hrun, h, -⟩ := here_run hfit htidy
  have hcan := h.canon.get fd.num
  rw [hv] at hcan
  have hp := h.parsed.get hv
  simp only [parsedL] at hp
  have hg := getList_of_get (.lnum n) _ fd.num v rfl hcan.1 hp
  refine ⟨s, newList (parsedL (LSt.ofSt s) (specRun m ops)) fd.num (.lnum n) v, hrun, ?_, rfl, shows_stored h rfl hv, shows_new _ _ _ _⟩
  simp only [getValue, h.hasField, hv, Val.isAbsent, Bool.not_false, Bool.not_true, Res.ok_bind, hd, hft, scalarTy_nums, numsTy_ft,
    Bool.false_eq_true, if_false, readNums, hg]
  rfl

-- a list of two numbers
def numWorld : World where
  maps _ := [⟨txt "Ns", FTListUint16, false, [], [], none⟩, ⟨txt "Ss", FTListStrings, false, [], [], none⟩,
    ⟨txt "Bs", FTListBools, false, [], [], none⟩, ⟨txt "Cs", FTListStructs, false, [], [], some 0⟩]
  groups _ := none

example : ∃ s L, run 4 [.set 0 (.lnum .u16) [3, 4]] = .ok s ∧
    getValue noConv numWorld 0 (LSt.ofSt s) 0 = .ok (some (ofList (.nums .u16 [3, 4])), L) := by
  obtain ⟨s, L, h1, h2, -⟩ := C98_numbers_partial noConv numWorld 0 (m := 4) (ops := [.set 0 (.lnum .u16) [3, 4]])
    (fd := ⟨⟨txt "Ns", FTListUint16, false, [], [], none⟩, 0, none⟩) (n := .u16) (v := [3, 4])
    ⟨by decide, ⟨by decide, trivial⟩, by decide +kernel, trivial⟩
    (by simp [specRun, specOps, Op.spec, specScalar, STy.isZero, Tidies, Val.Tidy, List.replicate, STy.Clean, STy.Storable]) rfl rfl rfl
  exact ⟨s, L, h1, h2⟩

/-- C98 where it holds: a list of structs is read with as many items as there are, each with the fields that were written. -/
theorem C98_structs_partial {m : Nat} {ops : List Op} (hfit : Within m ops) (htidy : Tidies (specRun m ops)) {fd : RFD}
    (hd : (W.maps k)[fd.num]? = some fd.fd) (hft : fd.fd.ft = FTListStructs) {q : Nat} (hq : fd.fd.child = some q)
    {items : List (List Val)} (hv : (specRun m ops).getD fd.num .absent = .structs items) :
    ∃ s L l, run m ops = .ok s ∧ getValue c W k (LSt.ofSt s) fd.num = .ok (some (ofList (.structs q l)), L) ∧
      l.length = items.length ∧
      ∀ (j : Nat) (x : St) (ws : List Val), l[j]? = some x → items[j]? = some ws → ∀ (i : Nat) (t : STy) (v : t.Val), i < (W.maps q).length → ws.getD i .absent = .scalar t v →
        t.get x i = .ok v := by
  obtain ⟨s, hrun, h, -⟩ := here_run hfit htidy
  have hcan := h.canon.get fd.num
  rw [hv] at hcan
  have hi : fd.num < (specRun m ops).length := by
    apply Classical.byContradiction
    intro hn
    rw [List.getD_eq_getElem?_getD, List.getElem?_eq_none (by omega)] at hv
    cases hv
  obtain ⟨cs, e1, e2⟩ := getListStructs_present h.parsed.rep (i := fd.num) (W.maps q).length items (by rw [h.parsed.len]; exact hi)
    (by rw [h.blob, hv]) hcan.2 hcan.1
  have hrep : ∀ (cs : List St) (items : List (List Val)), ItemsRep (W.maps q).length cs items → ItemsCanon items →
      cs.length = items.length ∧ ∀ (j : Nat) (x : St) (ws : List Val), cs[j]? = some x → items[j]? = some ws → ∀ (i : Nat) (t : STy) (v : t.Val), i < (W.maps q).length →
        ws.getD i .absent = .scalar t v → t.get x i = .ok v := by
    intro cs items
    induction items generalizing cs with
    | nil =>
      intro h _
      cases cs with
      | nil => exact ⟨rfl, by simp⟩
      | cons a b => simp [ItemsRep] at h
    | cons ws items ih =>
      intro h hc
      cases cs with
      | nil => simp [ItemsRep] at h
      | cons x cs =>
        simp only [ItemsRep] at h
        obtain ⟨⟨r, h1, h2⟩, h3⟩ := h
        obtain ⟨g1, g2⟩ := ih cs h3 hc.2.2
        refine ⟨by simp [g1], ?_⟩
        intro j y us hy hu i t v hiq hws
        cases j with
        | succ j => exact g2 j y us (by simpa using hy) (by simpa using hu) i t v hiq hws
        | zero =>
          simp only [List.getElem?_cons_zero, Option.some.injEq] at hy hu
          subst hy hu
          have hcw := hc.2.1.get i
          rw [hws] at hcw
          have hlt : i < ws.length := by
            apply Classical.byContradiction
            intro hn
            rw [List.getD_eq_getElem?_getD, List.getElem?_eq_none (by omega)] at hws
            cases hws
          have hb : Claw.blob (padTo (W.maps q).length (encs ws 0)) i = scalarBlob i t v := by
            rw [blob_padTo, blob_encs, hws]
            simp [Val.enc]
          refine get_scalar h1 t v (by omega) (by have := hc.1; omega) hcw.1 ?_ hcw.2 hb
          have hs := h1.small
          have := sizes_ge ws i
          rw [hws] at this
          rw [total_padTo] at hs
          simp only [total, encs_flatten_length] at hs
          simp only [Val.size] at this
          omega
  obtain ⟨g1, g2⟩ := hrep cs items e2 hcan.2
  refine ⟨s, parsedL (LSt.ofSt s) (specRun m ops), cs, hrun, ?_, g1, g2⟩
  simp only [parsedL] at e1
  simp only [getValue, h.hasField, hv, Val.isAbsent, Bool.not_false, Bool.not_true, Res.ok_bind, hd, hft,
    show scalarTy FTListStructs = none from rfl, show numsTy FTListStructs = none from rfl, hq, e1, Bool.false_eq_true, if_false]
  rfl

/-- C98 is violated: a list of strings with items is read through reflection as an empty list. From then on the generated accessor
shows an empty list too, and if an item is appended with it and the struct is marshaled, the old items are gone from the message:
its bytes are those of a struct in which the list had only the new item. -/
theorem C98_strings_lost {m : Nat} {ops : List Op} {fd : RFD} {x : Bytes} (hx : Within m (ops ++ [.set fd.num .lstr [x]]))
    (htidy : Tidies (specRun m ops)) (hd : (W.maps k)[fd.num]? = some fd.fd) (hft : fd.fd.ft = FTListStrings) {v : List Bytes}
    (hv : (specRun m ops).getD fd.num .absent = .scalar .lstr v) :
    ∃ s L L2 msg L3 s1 s2, v ≠ [] ∧ run m ops = .ok s ∧ (LSt.ofSt s).shows fd.num .lstr = .ok v ∧
      getValue c W k (LSt.ofSt s) fd.num = .ok (some (ofList (.strs [])), L) ∧ L.shows fd.num .lstr = .ok [] ∧
      L.edit fd.num .lstr (fun l => some (l ++ [x])) = .ok L2 ∧ L2.marshal = .ok (msg, L3) ∧
      run m (ops ++ [.set fd.num .lstr [x]]) = .ok s1 ∧ s1.marshal = .ok (msg, s2) := by
  obtain ⟨hw1, -, hs⟩ := within_last ops _ hx.2
  have hfit : Within m ops := ⟨hx.1, hw1⟩
  have hspec : specRun m (ops ++ [.set fd.num .lstr [x]]) = (specRun m ops).set fd.num (.scalar .lstr [x]) := by
    simp [specRun, specOps_append, specOps, Op.spec, specScalar, STy.isZero]
  replace hs : 8 + sizes ((specRun m ops).set fd.num (.scalar .lstr [x])) < 2 ^ 32 := hs
  obtain ⟨s0, i0, i1, i2, i3, -⟩ := new_rep m
  obtain ⟨s1, j1, j2, j3⟩ := ops_within _ i1 (by simp [i2]) (by simpa using hx.1) (by rw [i2]; exact hx.2)
  have j4 := marshal_rep j2 (by rw [j3.enabled]; exact i3)
  rw [← specRun, hspec] at j4
  obtain ⟨s, hrun, h, hrec⟩ := here_run hfit htidy
  have hcan := h.canon.get fd.num
  rw [hv] at hcan
  have hne : v ≠ [] := by
    intro e
    have := hcan.1
    rw [e] at this
    simp [STy.isZero] at this
  have hi : fd.num < (specRun m ops).length := by
    apply Classical.byContradiction
    intro hn
    rw [List.getD_eq_getElem?_getD, List.getElem?_eq_none (by omega)] at hv
    cases hv
  have hget : getValue c W k (LSt.ofSt s) fd.num =
      .ok (some (ofList (.strs [])), newList (parsedL (LSt.ofSt s) (specRun m ops)) fd.num .lstr []) := by
    simp only [getValue, h.hasField, hv, Val.isAbsent, Bool.not_false, Bool.not_true, Res.ok_bind, hd, hft,
      show scalarTy FTListStrings = none from rfl, show numsTy FTListStrings = none from rfl, Bool.false_eq_true, if_false]
    rfl
  have hed := edit_new (parsedL (LSt.ofSt s) (specRun m ops)) fd.num .lstr [] [x] (fun l => some (l ++ [x])) rfl
  have hsp : specScalar .lstr [x] = .scalar .lstr [x] := rfl
  obtain ⟨s', e1, e2, e3⟩ := sync_rep h.parsed.rep h.parsed.len h.max hrec fd.num hi .lstr [x] rfl (by rw [hsp]; exact hs)
  rw [hsp] at e2
  have hm := marshal_rep e2 (by rw [e3.enabled]; exact h.parsed.cfg)
  refine ⟨s, _, _, _, ⟨s', [LObj.mk fd.num .lstr [x] false], (newList (parsedL (LSt.ofSt s) (specRun m ops)) fd.num .lstr []).lists, []⟩, s1, _, hne, hrun,
    shows_stored h rfl hv, hget, shows_new _ _ _ _, hed, ?_, by simp [run, i0, j1], j4⟩
  simp only [LSt.marshal, newList, LSt.register, parsedL, LSt.ofSt, List.nil_append, LSt.syncAll, LSt.syncObj, List.length_cons,
    List.length_nil, Nat.zero_add, Nat.sub_self, List.getElem?_cons_zero, if_true, Res.ok_bind, Res.pure_eq] at e1 ⊢
  simp only [e1, Res.ok_bind, hm, List.set_cons_zero]

/-- C98 is violated in the same way for lists of bytes: read as empty, and shown as empty afterwards. -/
theorem C98_bytes_empty {m : Nat} {ops : List Op} (hfit : Within m ops) (htidy : Tidies (specRun m ops)) {fd : RFD}
    (hd : (W.maps k)[fd.num]? = some fd.fd) (hft : fd.fd.ft = FTListBytes) {v : List Bytes}
    (hv : (specRun m ops).getD fd.num .absent = .scalar .lbytes v) :
    ∃ s L, v ≠ [] ∧ run m ops = .ok s ∧ (LSt.ofSt s).shows fd.num .lbytes = .ok v ∧
      getValue c W k (LSt.ofSt s) fd.num = .ok (some (ofList (.bytes [])), L) ∧ L.shows fd.num .lbytes = .ok [] := by
  obtain ⟨s, hrun, h, hrec⟩ := here_run hfit htidy
  have hcan := h.canon.get fd.num
  rw [hv] at hcan
  have hne : v ≠ [] := by
    intro e
    have := hcan.1
    rw [e] at this
    simp [STy.isZero] at this
  refine ⟨s, newList (parsedL (LSt.ofSt s) (specRun m ops)) fd.num .lbytes [], hne, hrun, shows_stored h rfl hv, ?_, shows_new _ _ _ _⟩
  simp only [getValue, h.hasField, hv, Val.isAbsent, Bool.not_false, Bool.not_true, Res.ok_bind, hd, hft,
    show scalarTy FTListBytes = none from rfl, show numsTy FTListBytes = none from rfl, Bool.false_eq_true, if_false]
  rfl

theorem allBits_eq (d : Bytes) : allBits d = (List.range (8 * d.length)).map (bitAt d) := by
  induction d with
  | nil => rfl
  | cons b d ih =>
    have e : 8 * (b :: d).length = 8 + 8 * d.length := by simp; omega
    rw [e, List.range_add, List.map_append, List.map_map]
    have h1 : allBits (b :: d) = (List.range 8).map (fun i => (b &&& (1 <<< UInt8.ofNat i)) != 0) ++ allBits d := rfl
    rw [h1, ih]
    congr 1
    apply List.map_congr_left
    intro i _
    simp only [Function.comp, bitAt]
    rw [show (8 + i) / 8 = i / 8 + 1 by omega, show (8 + i) % 8 = i % 8 by omega]
    rfl

/-- C98 is violated: a list of bools is read through reflection with its items and then false up to a multiple of 64 items. -/
theorem C98_bools_padded {m : Nat} {ops : List Op} (hfit : Within m ops) (htidy : Tidies (specRun m ops)) {fd : RFD}
    (hd : (W.maps k)[fd.num]? = some fd.fd) (hft : fd.fd.ft = FTListBools) {v : List Bool}
    (hv : (specRun m ops).getD fd.num .absent = .scalar .lbool v) :
    ∃ s L l, run m ops = .ok s ∧ (LSt.ofSt s).shows fd.num .lbool = .ok v ∧
      getValue c W k (LSt.ofSt s) fd.num = .ok (some (ofList (.bools l)), L) ∧
      l = v ++ List.replicate ((v.length + 63) / 64 * 64 - v.length) false ∧ (v.length % 64 ≠ 0 → l.length ≠ v.length) := by
  obtain ⟨s, hrun, h, -⟩ := here_run hfit htidy
  have hcan := h.canon.get fd.num
  rw [hv] at hcan
  have hz := hcan.1
  have hne : v ≠ [] := by
    intro e
    rw [e] at hz
    simp [STy.isZero] at hz
  have hvl : 0 < v.length := List.length_pos_iff.mpr hne
  have hi : fd.num < (specRun m ops).length := by
    apply Classical.byContradiction
    intro hn
    rw [List.getD_eq_getElem?_getD, List.getElem?_eq_none (by omega)] at hv
    cases hv
  have hb : Claw.blob (encs (specRun m ops) 0) fd.num = hdr fd.num FTListBools v.length ++ boolsTail v := by
    rw [h.blob, hv]; rfl
  have hp := h.parsed.rep
  have hrd : readBools (parsedSt (LSt.ofSt s).st (encs (specRun m ops) 0)) fd.num = .ok (allBits (boolsTail v)) := by
    obtain ⟨A, B, hd, hA⟩ := hp.split (i := fd.num) (by rw [encs_length]; exact hi)
    have h1 := Seg.sub_eq _ A _ B hd _ rfl
    rw [hA] at h1
    simp only [parsedL] at hp h1
    have hnb : Claw.blob (encs (specRun m ops) 0) fd.num ≠ [] := by
      rw [hb]; intro e
      have := congrArg List.length e
      simp at this
    have hlen : (Claw.blob (encs (specRun m ops) 0) fd.num).length = 8 + (boolsTail v).length := by rw [hb]; simp
    have hip : fd.num < (parsedSt (LSt.ofSt s).st (encs (specRun m ops) 0)).idx.length := by
      have := h.parsed.len; simp only [parsedL] at this; omega
    simp only [readBools, hp.fieldOffset, Res.ok_bind, hip, if_true, entryOf, hnb, if_false]
    rw [if_neg (by rw [hlen, boolsTail_length]; simp only [HeaderSize]; omega)]
    have hsg : ∀ (q : St) (n : Nat) (e : List Entry), ({ q with idx := e, parsed := true } : St).seg = q.seg := fun _ _ _ => rfl
    simp only [h1, Res.ok_bind, Res.pure_eq]
    rw [hb, List.drop_left' (by simp [HeaderSize])]
  have hl : allBits (boolsTail v) = v ++ List.replicate ((v.length + 63) / 64 * 64 - v.length) false := by
    rw [allBits_eq, boolsTail_length]
    apply List.ext_getElem?
    intro j
    rw [List.getElem?_map]
    by_cases hj : j < 8 * (((v.length + 7) / 8 + 7) / 8 * 8)
    · rw [List.getElem?_range hj]
      simp only [Option.map_some, boolsTail_bit]
      by_cases hjv : j < v.length
      · rw [List.getElem?_append_left hjv, List.getD_eq_getElem?_getD, List.getElem?_eq_getElem hjv]; rfl
      · rw [List.getElem?_append_right (by omega), List.getD_eq_getElem?_getD, List.getElem?_eq_none (by omega),
          List.getElem?_replicate, if_pos (by omega)]
        rfl
    · rw [List.getElem?_eq_none (by simp; omega), List.getElem?_eq_none (by simp; omega)]
      rfl
  refine ⟨s, parsedL (LSt.ofSt s) (specRun m ops), _, hrun, shows_stored h rfl hv, ?_, hl, ?_⟩
  · simp only [getValue, h.hasField, hv, Val.isAbsent, Bool.not_false, Bool.not_true, Res.ok_bind, hd, hft,
      show scalarTy FTListBools = none from rfl, show numsTy FTListBools = none from rfl, hrd, Bool.false_eq_true, if_false]
    rfl
  · intro hmod
    rw [hl]
    simp
    omega

/-- C98 is violated: items that were added to a list of a new struct with its generated accessor and not yet marshaled are not there
for reflection: `Has` is false and `Get` is nil. -/
theorem C98_pending_unseen {m fn : Nat} (hm : m ≤ 65536) {t : STy} (ht : t.isList = true) (g : t.Val → Option t.Val) {w : t.Val}
    (hg : g t.zero = some w) :
    ∃ s L, St.new m = .ok s ∧ (LSt.ofSt s).edit fn t g = .ok L ∧ L.shows fn t = .ok w ∧
      ∀ fd : RFD, (∃ L', has L fd = .ok (false, L')) ∧ ∃ L', getValue c W k L fd.num = .ok (none, L') := by
  obtain ⟨s, h0, hr, hl, hen, hrec, _⟩ := new_rep m
  have hH : Here 0 (LSt.ofSt s) (List.replicate m .absent) := by
    refine ⟨hr, by simpa [LSt.ofSt] using hl, by simpa using hm, ?_, hen⟩
    have hc : ∀ n, Canons (List.replicate n .absent) := by
      intro n
      induction n with
      | zero => trivial
      | succ n ih => exact ⟨trivial, ih⟩
    exact hc m
  have habs : ∀ i, (List.replicate m Val.absent).getD i .absent = .absent := by
    intro i
    rw [List.getD_eq_getElem?_getD, List.getElem?_replicate]
    split <;> rfl
  have hens : s.ensure = .ok (parsedSt s (encs (List.replicate m .absent) 0)) := hr.ensure
  have hgl : t.getList (parsedSt s (encs (List.replicate m .absent) 0)) fn = .ok none := by
    have hp := hH.parsed
    exact getList_absent hp.rep fn (by rw [hp.blob, habs]; rfl) t
  have hP := hH.parsed
  refine ⟨s, ⟨parsedSt s (encs (List.replicate m .absent) 0), [LObj.mk fn t w true], fun i => if i = fn then some 0 else none, [(fn, 0)]⟩,
    h0, ?_, ?_, fun fd => ?_⟩
  · simp [LSt.edit, LSt.access, LSt.ofSt, hens, hgl, LSt.register, hg]
  · simp [LSt.shows, LSt.access]
  · have hH2 : Here 0 ⟨parsedSt s (encs (List.replicate m .absent) 0), [LObj.mk fn t w true], fun i => if i = fn then some 0 else none,
        [(fn, 0)]⟩ (List.replicate m .absent) := ⟨hP.rep, hP.len, hP.max, hP.canon, hP.cfg⟩
    have h1 := has_rep hH2 fd
    rw [habs] at h1
    exact ⟨⟨_, h1⟩, ⟨_, getValue_absent c W k hH2 (habs fd.num)⟩⟩

end

-- two strings; three bools; a pending string
example : ∃ s L, run 4 [.set 1 .lstr [[66, 67, 68, 69]]] = .ok s ∧
    getValue noConv numWorld 0 (LSt.ofSt s) 1 = .ok (some (ofList (.strs [])), L) := by
  obtain ⟨s, L, _, _, _, _, _, -, h1, -, h2, -⟩ := C98_strings_lost noConv numWorld 0 (m := 4) (ops := [.set 1 .lstr [[66, 67, 68, 69]]])
    (fd := ⟨⟨txt "Ss", FTListStrings, false, [], [], none⟩, 1, none⟩) (v := [[66, 67, 68, 69]]) (x := [70])
    ⟨by decide, ⟨by decide, trivial⟩, by decide +kernel, ⟨by decide, trivial⟩, by decide +kernel, trivial⟩
    (by simp [specRun, specOps, Op.spec, specScalar, STy.isZero, Tidies, Val.Tidy, List.replicate, STy.Clean]; decide) rfl rfl rfl
  exact ⟨s, L, h1, h2⟩

example : ∃ s L l, run 4 [.set 2 .lbool [true, false, true]] = .ok s ∧
    getValue noConv numWorld 0 (LSt.ofSt s) 2 = .ok (some (ofList (.bools l)), L) ∧ l.length = 64 := by
  obtain ⟨s, L, l, h1, -, h2, h3, -⟩ := C98_bools_padded noConv numWorld 0 (m := 4) (ops := [.set 2 .lbool [true, false, true]])
    (fd := ⟨⟨txt "Bs", FTListBools, false, [], [], none⟩, 2, none⟩) (v := [true, false, true])
    ⟨by decide, ⟨by decide, trivial⟩, by decide +kernel, trivial⟩
    (by simp [specRun, specOps, Op.spec, specScalar, STy.isZero, Tidies, Val.Tidy, List.replicate, STy.Clean, STy.Storable]) rfl rfl rfl
  exact ⟨s, L, l, h1, h2, by rw [h3]; rfl⟩

example : ∃ s L, St.new 4 = .ok s ∧ (LSt.ofSt s).edit 1 .lstr (fun l => some (l ++ [[66]])) = .ok L ∧ L.shows 1 .lstr = .ok [[66]] := by
  obtain ⟨s, L, h1, h2, h3, -⟩ := C98_pending_unseen noConv numWorld 0 (m := 4) (fn := 1) (by decide) (t := .lstr) rfl
    (fun l => some (l ++ [[66]])) (w := [[66]]) rfl
  exact ⟨s, L, h1, h2, h3⟩

end Claw.Refl
