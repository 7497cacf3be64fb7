import Verif.Lemmas.Alias
import Verif.Props.Struct

/-!
# A parent and the nested struct obtained from it
-/

namespace Claw

/-- What holds while calls are made on a child that began with the `z` bytes at `off` of `q`'s array. -/
structure ViewInv (q : St) (off z : Nat) (v : View) : Prop where
  at_off : v.off = off
  same : v.parent = { q with seg := v.parent.seg }
  len : v.parent.seg.data.length = q.seg.data.length
  cap : v.parent.seg.all.length = q.seg.all.length
  before : v.parent.seg.all.take off = q.seg.all.take off
  after : v.parent.seg.all.drop (off + z) = q.seg.all.drop (off + z)
  room : off ≤ q.seg.all.length
  hdr : 8 ≤ z
  mem : v.shared = true → v.child.seg.all = v.parent.seg.all.drop off ∧ v.child.seg.data.length ≤ z

theorem overwrite_all (p : St) (off : Nat) (mem : Bytes) :
    (p.overwrite off mem).seg.all = p.seg.all.take off ++ mem := by
  simp [St.overwrite, Seg.all]

theorem view_step {q : St} {off z : Nat} {v : View} (inv : ViewInv q off z v) {op : Op} {c : St}
    (h : op.run v.child = .ok c) (hb : c.seg.data.length ≤ z ∨ (v.shared = true → v.child.seg.cap = z)) :
    ∃ v', v.step op = .ok v' ∧ v'.child = c ∧ ViewInv q off z v' ∧
      (v'.shared = true → v.shared = true ∧ v'.child.seg.cap = v.child.seg.cap) ∧
      (v.shared = true → c.seg.data.length ≤ v.child.seg.cap → v'.shared = true) := by
  have hf := op_foot h
  simp only [View.step, h, Res.ok_bind, Res.pure_eq]
  by_cases hs : v.shared = true ∧ c.seg.cap = v.child.seg.cap
  · rw [if_pos hs]
    refine ⟨_, rfl, rfl, ?_, fun _ => hs, fun _ _ => hs.1⟩
    obtain ⟨hm, hl⟩ := inv.mem hs.1
    have hcl : c.seg.data.length ≤ z := by
      rcases hb with hb | hb
      · exact hb
      · rw [← hb hs.1, ← hs.2]; simp [Seg.cap]
    have hroom := inv.room
    have hcap := inv.cap
    have hall : c.seg.all.length = q.seg.all.length - off := by
      rw [Seg.all_length, hs.2, ← Seg.all_length, hm, List.length_drop, hcap]
    have hw : c.seg.all.drop z = v.child.seg.all.drop z := by
      rcases hf.within z hl hcl inv.hdr with h | h
      · exact h.2
      · omega
    have hov : (v.parent.overwrite v.off (c.seg.data ++ c.seg.spare)).seg.all
        = v.parent.seg.all.take off ++ c.seg.all := by rw [overwrite_all, inv.at_off]; rfl
    have htl : (v.parent.seg.all.take off).length = off := by rw [List.length_take, hcap]; omega
    have hle : q.seg.data.length ≤ q.seg.all.length := by simp [Seg.all]
    refine ⟨inv.at_off, ?_, ?_, ?_, ?_, ?_, inv.room, inv.hdr, ?_⟩
    · show v.parent.overwrite v.off _ = { q with seg := (v.parent.overwrite v.off _).seg }
      have h2 := inv.same
      generalize v.parent = P at h2 ⊢
      subst_vars
      rw [h2]; rfl
    · show (List.take _ _).length = _
      rw [List.length_take, inv.len]
      have : (List.take v.off (v.parent.seg.data ++ v.parent.seg.spare) ++ (c.seg.data ++ c.seg.spare)).length
          = q.seg.all.length := by
        rw [inv.at_off]
        show (List.take off v.parent.seg.all ++ c.seg.all).length = _
        rw [List.length_append, htl, hall]; omega
      omega
    · simp only [hov]
      rw [List.length_append, htl, hall]; omega
    · simp only [hov]
      rw [List.take_left' htl, inv.before]
    · simp only [hov]
      rw [List.drop_append, List.drop_eq_nil_of_le (by rw [htl]; omega), htl, List.nil_append,
        show off + z - off = z by omega, hw, hm, List.drop_drop, inv.after]
    · intro _
      simp only [hov]
      exact ⟨by rw [List.drop_left' htl], hcl⟩
  · rw [if_neg hs]
    refine ⟨_, rfl, rfl, ⟨inv.at_off, inv.same, inv.len, inv.cap, inv.before, inv.after, inv.room, inv.hdr, by simp⟩,
      by simp, ?_⟩
    intro h1 h2
    exact absurd ⟨h1, hf.stay h2⟩ hs

/-- The calls on the child go through and the invariant holds after them: if the child is never longer
than it was at first, or if its array ends where the child ends. -/
theorem view_run (ops : List Op) : ∀ {q : St} {off z : Nat} {v : View} {r : Nat} {vs : List Val},
    ViewInv q off z v → Rep r v.child (encs vs 0) → v.child.idx.length ≤ vs.length → vs.length ≤ 65536 →
    Canons vs → FitsFrom v.child.idx.length ops vs →
    ((∀ k, 8 + sizes (specOps (ops.take k) vs) ≤ z) ∨ (v.shared = true → v.child.seg.cap = z)) →
    ∃ v', View.run ops v = .ok v' ∧ ViewInv q off z v' ∧ Rep r v'.child (encs (specOps ops vs) 0) ∧
      Canons (specOps ops vs) ∧
      ((∀ k, 8 + sizes (specOps (ops.take k) vs) = z) → v.shared = true → v'.shared = true) := by
  induction ops with
  | nil =>
    intro q off z v r vs inv h hl hm hc hfit hb
    exact ⟨v, rfl, inv, h, hc, fun _ h => h⟩
  | cons op ops ih =>
    intro q off z v r vs inv h hl hm hc hfit hb
    simp only [FitsFrom] at hfit
    obtain ⟨c, e1, r1, c1, k1⟩ := op_rep op h hl hm hc hfit.1 hfit.2.1
    have hcl : c.seg.data.length = 8 + sizes (op.spec vs) := by
      rw [r1.data, List.length_append, hdr_length, encs_flatten_length]
    have hvl : v.child.seg.data.length = 8 + sizes vs := by
      rw [h.data, List.length_append, hdr_length, encs_flatten_length]
    obtain ⟨v1, s1, s2, s3, s4, s5⟩ := view_step inv e1 (by
      rcases hb with hb | hb
      · left; rw [hcl]; simpa [specOps] using hb 1
      · right; exact hb)
    subst s2
    obtain ⟨v2, t1, t2, t3, t4, t5⟩ := ih s3 r1 (by rw [spec_length, c1.len]; exact hl)
      (by rw [spec_length]; exact hm) k1 (by rw [c1.len]; exact hfit.2.2) (by
      rcases hb with hb | hb
      · left; intro k; simpa [specOps] using hb (k + 1)
      · right; intro hsh; obtain ⟨a, b⟩ := s4 hsh; rw [b]; exact hb a)
    refine ⟨v2, ?_, t2, t3, t4, ?_⟩
    · simp only [View.run, s1, Res.ok_bind]; exact t1
    · intro hk hsh
      refine t5 (fun k => by simpa [specOps] using hk (k + 1)) (s5 hsh ?_)
      have h0 := hk 0
      have h1 := hk 1
      simp only [List.take_zero, specOps] at h0
      simp [specOps] at h1
      simp only [Seg.cap]
      omega

theorem getNested_seg {s s1 c : St} {fn m o z : Nat} {d : Bytes} (h : getNestedStruct s fn m = .ok (some c))
    (hf : s.fieldOffset fn = .ok ((o, z), s1)) (hd : s1.seg.sub o (o + z) = .ok d) :
    c.seg = ⟨d, (s1.seg.data ++ s1.seg.spare).drop (o + z)⟩ := by
  simp only [getNestedStruct, hf, Res.ok_bind] at h
  split at h
  · simp at h
  · rw [hd] at h
    simp only [Res.ok_bind, St.parseFieldIndex] at h
    generalize hp : parseLoop HeaderSize (d.drop HeaderSize) (List.replicate m Entry.zero) = p at h
    cases p with
    | panic => simp at h
    | hang => simp at h
    | ok i =>
      simp only [Res.ok_bind, Res.pure_eq] at h
      rw [← Option.some.inj (Res.ok.inj h)]

theorem view_get {r : Nat} {s : St} {fs gs : List Bytes} (h : Rep r s fs) {i : Nat} (m : Nat)
    (hi : i < s.idx.length) (hb : blob fs i = hdr i FTStruct (total gs) ++ gs.flatten) (wf : WFs gs) :
    ∃ v, View.get s i m = .ok (some v) ∧
      ViewInv { s with idx := idxOf s.idx.length fs, parsed := true } (offsetOf fs i) (blob fs i).length v ∧
      v.shared = true ∧
      v.child.seg = ⟨blob fs i, (s.seg.data ++ s.seg.spare).drop (offsetOf fs i + (blob fs i).length)⟩ ∧
      Rep i v.child (padTo m gs) ∧ v.child.idx.length = m := by
  obtain ⟨c, hc, hr, hl⟩ := getNested_present h m hi hb wf
  have hlen := h.len
  have hne : blob fs i ≠ [] := by intro e; rw [e] at hb; have := congrArg List.length hb; simp at this; omega
  have hfo := h.fieldOffset i
  simp only [hi, if_true, entryOf, hne, if_false] at hfo
  obtain ⟨A, B, hd, hA⟩ := h.split (i := i) (by omega)
  have hsub := Seg.sub_eq s.seg A (blob fs i) B hd (A.length + (blob fs i).length) rfl
  rw [hA] at hsub
  have hseg := getNested_seg hc hfo hsub
  simp only at hseg
  refine ⟨⟨{ s with idx := idxOf s.idx.length fs, parsed := true }, offsetOf fs i, c, true⟩, ?_, ?_, rfl, hseg, hr, hl⟩
  · simp only [View.get, hfo, Res.ok_bind, hc, Res.pure_eq]
  · refine ⟨rfl, rfl, rfl, rfl, rfl, rfl, ?_, ?_, fun _ => ⟨?_, ?_⟩⟩
    · simp only [Seg.all, hd, List.length_append]; omega
    · rw [hb]; simp
    · simp only [hseg, Seg.all, hd]
      rw [← hA, List.append_assoc, List.append_assoc, List.drop_left' (l₁ := A) rfl,
        ← List.append_assoc A, List.drop_left' (l₁ := A ++ blob fs i) (by simp)]
    · rw [hseg]; exact Nat.le_refl _

theorem encs_take (vs : List Val) : ∀ (n k : Nat), (encs vs k).take n = encs (vs.take n) k := by
  induction vs with
  | nil => intro n k; simp [encs]
  | cons v vs ih =>
    intro n k
    cases n with
    | zero => simp [encs]
    | succ n => simp [encs, ih]

theorem Canons.take {vs : List Val} (h : Canons vs) : ∀ n, Canons (vs.take n) := by
  induction vs with
  | nil => intro n; simpa using h
  | cons v vs ih =>
    intro n
    cases n with
    | zero => simp [Canons]
    | succ n => exact ⟨h.1, ih h.2 n⟩

/-- A stored 64-bit number occupies 16 bytes. -/
theorem wide_size {v : Val} {ty : Ty} (h : v.HasTy ty) (i : Nat) (t : STy) (ht : ty = .scalar t)
    (hw : t = .i64 ∨ t = .u64 ∨ t = .f64) : (v.enc i).length = 0 ∨ 16 ≤ (v.enc i).length := by
  subst ht
  match v with
  | .absent => left; simp [Val.enc]
  | .scalar t' v =>
    simp only [Val.HasTy] at h
    subst h
    right
    rcases hw with rfl | rfl | rfl <;> simp [Val.enc, scalarBlob_length, scalarSize]
  | .struct vs => simp [Val.HasTy] at h
  | .structs vs => simp [Val.HasTy] at h

theorem sub_same {g g' : Seg} {o : Nat} (hc : g'.all.length = g.all.length)
    (hd : ∀ a, o ≤ a → g'.all.drop a = g.all.drop a) (a b : Nat) (ha : o ≤ a) : g'.sub a b = g.sub a b := by
  have hcap : g'.cap = g.cap := by rw [← Seg.all_length, ← Seg.all_length, hc]
  have := hd a ha
  simp only [Seg.all] at this
  simp only [Seg.sub, hcap, slice]
  rw [List.drop_take, List.drop_take, this]

/-- The other fields of the parent read as before. -/
theorem siblings {r : Nat} {s : St} {vs : List Val} (h : Rep r s (encs vs 0)) (hc : Canons vs)
    (hm : vs.length ≤ 65536) {fn : Nat} {v : View}
    (inv : ViewInv { s with idx := idxOf s.idx.length (encs vs 0), parsed := true } (offsetOf (encs vs 0) fn)
      (blob (encs vs 0) fn).length v)
    {i : Nat} (hi : i < s.idx.length) (hne : i ≠ fn) {ty : Ty} (hty : (vs.getD i .absent).HasTy ty) :
    ty.read v.parent i = .ok (ty.view (vs.getD i .absent)) := by
  have hw : ∀ t, ty = .scalar t → t = .i64 ∨ t = .u64 ∨ t = .f64 →
      (blob (encs vs 0) i).length = 0 ∨ 16 ≤ (blob (encs vs 0) i).length := by
    intro t ht hw
    rw [blob_encs]; exact wide_size hty _ t ht hw
  have hoz : (entryOf (encs vs 0) i).size = (blob (encs vs 0) i).length := by
    simp only [entryOf]; split
    · rename_i h; simp [h, Entry.zero]
    · rfl
  have hoff : (entryOf (encs vs 0) i).size ≠ 0 → (entryOf (encs vs 0) i).offset = offsetOf (encs vs 0) i := by
    simp only [entryOf]; split
    · intro h; exact absurd rfl h
    · intro _; rfl
  have hP := inv.same
  have hlen := inv.len
  have hcap := inv.cap
  have hbef := inv.before
  have haft := inv.after
  have hroom := inv.room
  simp only at hlen hcap hbef haft hroom
  generalize v.parent.seg = g at hP hlen hcap hbef haft
  rw [hP]
  have htot : s.seg.data.length = total (encs vs 0) := by rw [h.data]; simp [total]
  have hends : (entryOf (encs vs 0) i).offset + (entryOf (encs vs 0) i).size ≤ total (encs vs 0) := by
    have h1 := offsetOf_le_total (encs vs 0) i
    simp only [entryOf]; split
    · simp [Entry.zero]
    · exact h1
  have hidx : (idxOf s.idx.length (encs vs 0))[i]? = some (entryOf (encs vs 0) i) := by
    rw [idxOf_getElem?, if_pos hi]
  rcases Nat.lt_or_gt_of_ne hne with hlt | hgt
  · -- a field before the child
    have hpre : (hdr r FTStruct (total (encs vs 0)) ++ ((encs vs 0).take fn).flatten).length
        = offsetOf (encs vs 0) fn := by simp [offsetOf]
    have hsall : s.seg.all = (hdr r FTStruct (total (encs vs 0)) ++ ((encs vs 0).take fn).flatten)
        ++ (((encs vs 0).drop fn).flatten ++ s.seg.spare) := by
      have hfl : (encs vs 0).flatten = ((encs vs 0).take fn).flatten ++ ((encs vs 0).drop fn).flatten := by
        rw [← List.flatten_append, List.take_append_drop]
      simp only [Seg.all, h.data]
      rw [hfl]
      simp only [List.append_assoc]
    have hgall : g.all = (hdr r FTStruct (total (encs vs 0)) ++ ((encs vs 0).take fn).flatten)
        ++ g.all.drop (offsetOf (encs vs 0) fn) := by
      conv => lhs; rw [← List.take_append_drop (offsetOf (encs vs 0) fn) g.all]
      rw [hbef]
      congr 1
      rw [hsall, List.take_left' hpre]
    have htk := encs_take vs fn 0
    have hblob : ∀ j, j < fn → blob (encs (vs.take fn) 0) j = blob (encs vs 0) j := by
      intro j hj
      rw [← htk]
      simp [blob, List.getD_eq_getElem?_getD, hj]
    have hoffs : ∀ j, j ≤ fn → offsetOf (encs (vs.take fn) 0) j = offsetOf (encs vs 0) j := by
      intro j hj
      rw [← htk]
      simp only [offsetOf, List.take_take, Nat.min_eq_left hj]
    have hwf : WFs (encs (vs.take fn) 0) := by
      intro j
      by_cases hj : j < fn
      · rw [hblob j hj]; exact h.wf j
      · left
        rw [← htk]
        simp only [blob, List.getD_eq_getElem?_getD, List.getElem?_take, if_neg hj]
        rfl
    have hsm : total (encs (vs.take fn) 0) < 2 ^ 32 := by
      have h1 := offsetOf_le_total (encs vs 0) fn
      have h2 := h.small
      have h3 : total (encs (vs.take fn) 0) = offsetOf (encs vs 0) fn := by rw [← htk]; rfl
      omega
    have hent : entryOf (padTo s.idx.length (encs (vs.take fn) 0)) i = entryOf (encs vs 0) i := by
      simp only [entryOf, blob_padTo, hblob i hlt]
      split
      · rfl
      · congr 1
        rw [← hoffs i (by omega)]
        simp only [offsetOf, padTo]
        rw [List.take_append, List.flatten_append, List.take_replicate]
        simp
    let c : St := { s with
      seg := ⟨hdr r FTStruct (total (encs (vs.take fn) 0)) ++ (encs (vs.take fn) 0).flatten,
        g.all.drop (offsetOf (encs vs 0) fn)⟩
      idx := idxOf s.idx.length (padTo s.idx.length (encs (vs.take fn) 0))
      parsed := true }
    have hcall : c.seg.all = (hdr r FTStruct (total (encs (vs.take fn) 0)) ++ ((encs vs 0).take fn).flatten)
        ++ g.all.drop (offsetOf (encs vs 0) fn) := by rw [htk]; rfl
    have hrep : Rep r c (padTo s.idx.length (encs (vs.take fn) 0)) := by
      refine ⟨?_, ?_, hwf.padTo _, by rw [total_padTo]; exact hsm, ?_, by simp [c]⟩
      · simp only [c, total_padTo, padTo_flatten]
      · simp only [c, idxOf_length]; exact padTo_length _ _
      · intro _; simp [c]
    have hdrop : ∀ a, 8 ≤ a → g.all.drop a = c.seg.all.drop a := by
      intro a ha
      rw [hcall]
      conv => lhs; rw [hgall]
      rw [List.append_assoc, List.append_assoc]
      have hd : ∀ (h x : Bytes), h.length = 8 → (h ++ x).drop a = x.drop (a - 8) := by
        intro h x hh
        rw [List.drop_append, List.drop_eq_nil_of_le (by omega), hh, List.nil_append]
      rw [hd _ _ (by simp), hd _ _ (by simp)]
    have hsf : SameField { s with seg := g, idx := idxOf s.idx.length (encs vs 0), parsed := true } c i
        (entryOf (encs vs 0) i).offset (entryOf (encs vs 0) i).size
        { s with seg := g, idx := idxOf s.idx.length (encs vs 0), parsed := true } c := by
      have h8 : (entryOf (encs vs 0) i).size ≠ 0 → 8 ≤ (entryOf (encs vs 0) i).offset := by
        intro hz; rw [hoff hz]; simp only [offsetOf]; omega
      have hcl : g.all.length = c.seg.all.length := by
        rw [hcall]; conv => lhs; rw [hgall]
        simp only [List.length_append, hdr_length]
      refine ⟨?_, ?_, ?_, ?_, ?_, ?_⟩
      · simp only [St.fieldOffset, St.ensure, if_true, Res.pure_eq, Res.ok_bind, hidx]
      · rw [hrep.fieldOffset]
        simp only [c, idxOf_length, hi, if_true, hent]
      · intro hz a b ha
        exact sub_same hcl (fun a ha => hdrop a (by have := h8 hz; omega)) a b ha
      · intro hz a ha
        exact hdrop a (by have := h8 hz; omega)
      · simp only; omega
      · have h1 := offsetOf_step (encs vs 0) hlt
        have h3 : total (encs (vs.take fn) 0) = offsetOf (encs vs 0) fn := by rw [← htk]; rfl
        have h4 : c.seg.data.length = total (encs (vs.take fn) 0) := by simp [c, total]
        rw [h4, h3]
        simp only [entryOf]; split
        · simp only [Entry.zero, offsetOf]; omega
        · exact h1
    have hgd : (vs.take fn).getD i .absent = vs.getD i .absent := by
      simp [List.getD_eq_getElem?_getD, hlt]
    have hread := read_val ty hrep (hc.take fn) (by rw [List.length_take]; omega) i (by simp [c, hi])
      (by rw [hgd]; exact hty)
    rw [read_same hsf ty (by rw [hoz]; exact hw), hread, hgd]
  · -- a field behind it
    have hrep : Rep r { s with idx := idxOf s.idx.length (encs vs 0), parsed := true } (padTo 0 (encs vs 0)) := by
      rw [padTo_self (by omega)]
      exact ⟨h.data, by simpa using h.len, h.wf, h.small, by simp, by simp⟩
    have hstep := offsetOf_step (encs vs 0) hgt
    have hdrop : ∀ a, offsetOf (encs vs 0) i ≤ a → g.all.drop a = s.seg.all.drop a := by
      intro a ha
      rw [show a = offsetOf (encs vs 0) fn + (blob (encs vs 0) fn).length +
        (a - (offsetOf (encs vs 0) fn + (blob (encs vs 0) fn).length)) by omega, ← List.drop_drop, haft, List.drop_drop]
    have hsf : SameField { s with seg := g, idx := idxOf s.idx.length (encs vs 0), parsed := true }
        { s with idx := idxOf s.idx.length (encs vs 0), parsed := true } i
        (entryOf (encs vs 0) i).offset (entryOf (encs vs 0) i).size
        { s with seg := g, idx := idxOf s.idx.length (encs vs 0), parsed := true }
        { s with idx := idxOf s.idx.length (encs vs 0), parsed := true } := by
      refine ⟨?_, ?_, ?_, ?_, ?_, ?_⟩
      · simp only [St.fieldOffset, St.ensure, if_true, Res.pure_eq, Res.ok_bind, hidx]
      · simp only [St.fieldOffset, St.ensure, if_true, Res.pure_eq, Res.ok_bind, hidx]
      · intro hz a b ha
        rw [hoff hz] at ha
        exact sub_same hcap hdrop a b ha
      · intro hz a ha
        rw [hoff hz] at ha
        exact hdrop a ha
      · simp only; omega
      · simp only; omega
    rw [read_same hsf ty (by rw [hoz]; exact hw)]
    exact read_val ty hrep hc hm i (by simp [hi]) hty

/-- The child kept its size and still lives in the parent: the parent holds the new record. -/
theorem view_rep {r : Nat} {s : St} {vs : List Val} (h : Rep r s (encs vs 0)) {fn : Nat}
    (hfn : fn < s.idx.length) (h16 : fn < 2 ^ 16) {v : View}
    (inv : ViewInv { s with idx := idxOf s.idx.length (encs vs 0), parsed := true } (offsetOf (encs vs 0) fn)
      (blob (encs vs 0) fn).length v)
    (hsh : v.shared = true) {cvs : List Val} (hch : Rep fn v.child (encs cvs 0))
    (hz : 8 + sizes cvs = (blob (encs vs 0) fn).length) :
    Rep r v.parent (encs (vs.set fn (.struct cvs)) 0) ∧ v.parent.idx.length = s.idx.length ∧
      v.parent.isSetEnabled = s.isSetEnabled := by
  have hlen := h.len
  have hset : (encs vs 0).set fn (Val.enc (.struct cvs) fn) = encs (vs.set fn (.struct cvs)) 0 := by
    have := encs_set vs 0 fn (.struct cvs); rwa [Nat.zero_add] at this
  have hbl : (Val.enc (.struct cvs) fn).length = (blob (encs vs 0) fn).length := by
    rw [enc_length]; simp only [Val.size]; exact hz
  have hne : blob (encs vs 0) fn ≠ [] := by intro e; rw [e] at hz; simp at hz
  have hcd : v.child.seg.data = Val.enc (.struct cvs) fn := hch.data
  obtain ⟨sp1, sp2⟩ := split_at (encs vs 0) fn (Val.enc (.struct cvs) fn) (by omega)
  have htot : total ((encs vs 0).set fn (Val.enc (.struct cvs) fn)) = total (encs vs 0) := by
    have := total_set (encs vs 0) fn (Val.enc (.struct cvs) fn) (by omega); omega
  have hpre : (hdr r FTStruct (total (encs vs 0)) ++ ((encs vs 0).take fn).flatten).length
      = offsetOf (encs vs 0) fn := by simp [offsetOf]
  have hsall : s.seg.all = (hdr r FTStruct (total (encs vs 0)) ++ ((encs vs 0).take fn).flatten)
      ++ (blob (encs vs 0) fn ++ (((encs vs 0).drop (fn + 1)).flatten ++ s.seg.spare)) := by
    simp only [Seg.all, h.data]
    rw [sp1]; simp only [List.append_assoc]
  obtain ⟨m1, m2⟩ := inv.mem hsh
  have hP := inv.same
  have hbef := inv.before
  have haft := inv.after
  have hl := inv.len
  simp only at hbef haft hl
  have hspare : v.child.seg.spare = ((encs vs 0).drop (fn + 1)).flatten ++ s.seg.spare := by
    have e1 : v.child.seg.all.drop (blob (encs vs 0) fn).length = v.child.seg.spare := by
      simp only [Seg.all]
      rw [List.drop_left' (by rw [hcd, hbl])]
    rw [← e1, m1, List.drop_drop, haft, hsall, ← List.append_assoc, List.drop_left' (by
      rw [List.length_append, hpre])]
  have hall : v.parent.seg.all = (hdr r FTStruct (total (encs vs 0)) ++ ((encs vs 0).take fn).flatten)
      ++ (Val.enc (.struct cvs) fn ++ (((encs vs 0).drop (fn + 1)).flatten ++ s.seg.spare)) := by
    rw [← List.take_append_drop (offsetOf (encs vs 0) fn) v.parent.seg.all, hbef, ← m1, hsall, List.take_left' hpre]
    simp only [Seg.all, hcd, hspare]
  have hdata : v.parent.seg.data = hdr r FTStruct (total ((encs vs 0).set fn (Val.enc (.struct cvs) fn)))
      ++ ((encs vs 0).set fn (Val.enc (.struct cvs) fn)).flatten := by
    have e1 : v.parent.seg.data = v.parent.seg.all.take v.parent.seg.data.length := by simp [Seg.all]
    rw [e1, hl, hall, htot, sp2]
    have e2 : (hdr r FTStruct (total (encs vs 0)) ++ ((encs vs 0).take fn).flatten)
        ++ (Val.enc (.struct cvs) fn ++ (((encs vs 0).drop (fn + 1)).flatten ++ s.seg.spare))
        = (hdr r FTStruct (total (encs vs 0)) ++ (((encs vs 0).take fn).flatten ++ Val.enc (.struct cvs) fn
          ++ ((encs vs 0).drop (fn + 1)).flatten)) ++ s.seg.spare := by simp only [List.append_assoc]
    rw [e2, List.take_left']
    rw [h.data, sp1]
    simp only [List.length_append, hbl]
  have hidx : idxOf s.idx.length ((encs vs 0).set fn (Val.enc (.struct cvs) fn)) = idxOf s.idx.length (encs vs 0) := by
    simp only [idxOf]
    apply List.map_congr_left
    intro j _
    have hnl : fn < (encs vs 0).length := by omega
    simp only [entryOf, blob_set _ _ _ hnl]
    by_cases hj : j = fn
    · subst hj
      have : Val.enc (.struct cvs) j ≠ [] := by
        intro e; rw [e] at hbl; simp at hbl; exact hne (List.length_eq_zero_iff.mp hbl.symm)
      simp only [if_true, this, if_false, hne, offsetOf_set_le _ _ _ (Nat.le_refl j), hbl]
    · simp only [hj, if_false]
      split
      · rfl
      · congr 1
        rcases Nat.lt_or_gt_of_ne hj with h1 | h1
        · exact offsetOf_set_le _ _ _ (by omega)
        · have := offsetOf_set_gt (encs vs 0) fn (Val.enc (.struct cvs) fn) hnl h1; omega
  have hil : v.parent.idx = idxOf s.idx.length (encs vs 0) := by rw [hP]
  have hpp : v.parent.parsed = true := by rw [hP]
  rw [← hset]
  refine ⟨⟨hdata, ?_, ?_, by rw [htot]; exact h.small, ?_, by simp [hpp]⟩, by rw [hil]; simp, by rw [hP]⟩
  · rw [hil]; simpa using hlen
  · refine h.wf.set fn _ (by omega) (Or.inr ?_)
    simp only [Val.enc]
    exact structBlob_wf fn h16 _ hch.small
  · intro _
    rw [hil, idxOf_length, hidx]

end Claw
