import Verif.Lemmas.Framing
import Verif.Lemmas.Wire
import Verif.Props.Pack
import Verif.Props.Struct

/-!
# Reading messages from a connection (C66, C67, and C42 on the level of bytes)
-/

namespace Claw.Frame

open Claw

/-- A message as `Marshal` returns it: a struct header with the length, then the fields. -/
def Whole (msg : Bytes) : Prop := ∃ body, msg = hdr 0 FTStruct (8 + body.length) ++ body ∧ msg.length < 2 ^ 40

theorem readPack_packed (k : Nat) (n : Nat) (out tail : Bytes) (hk : 16 + out.length ≤ k) (h62 : out.length < 2 ^ 62) (cs : List Bytes)
    (hcs : cs.flatten = putLE 8 n ++ putLE 8 out.length ++ out ++ tail) :
    ∃ rest, readPack k cs = .ok (none, putLE 8 n ++ putLE 8 out.length ++ out, rest, 16 + out.length) ∧ rest.flatten = tail := by
  obtain ⟨c1, e1, h1⟩ := fill_enough cs 16 [] (by rw [hcs]; simp; omega)
  have ht : cs.flatten.take 16 = putLE 8 n ++ putLE 8 out.length := by
    rw [hcs, List.append_assoc]; exact List.take_left' (by simp)
  have hd : cs.flatten.drop 16 = out ++ tail := by
    rw [hcs, List.append_assoc]; exact List.drop_left' (by simp)
  rw [ht, List.nil_append] at e1
  rw [hd] at h1
  have g2 : getLE (((putLE 8 n ++ putLE 8 out.length).drop 8).take 8) = out.length := by
    rw [List.drop_left' (by simp), List.take_of_length_le (by simp), getLE_putLE_of_lt (by omega)]
  have hadd : Pack.addInt 16 (Pack.toInt out.length) = ((16 + out.length : Nat) : Int) := by
    rw [Claw.toInt_small (by omega)]; simp only [Pack.addInt]; omega
  obtain ⟨c2, e2, h2⟩ := fill_enough c1 out.length [] (by rw [h1]; simp)
  rw [h1, List.nil_append, List.take_left] at e2
  rw [h1, List.drop_left] at h2
  simp only [readPack, e1, g2, hadd]
  rw [if_neg (by omega), if_neg (by omega)]
  have hn : ((16 + out.length : Nat) : Int).toNat - 16 = out.length := by omega
  simp only [hn, e2]
  refine ⟨c2, ?_, h2⟩
  rw [show ((16 + out.length : Nat) : Int).toNat = 16 + out.length by omega]

theorem unmarshal_whole (s : St) (body extra : Bytes) (h : 8 + body.length < 2 ^ 40) :
    s.unmarshal (hdr 0 FTStruct (8 + body.length) ++ body) extra =
      some { s with seg := ⟨hdr 0 FTStruct (8 + body.length) ++ body, extra⟩, parsed := false } := by
  have hmsg : (hdr 0 FTStruct (8 + body.length) ++ body).length = 8 + body.length := by simp
  have ht : (hdr 0 FTStruct (8 + body.length) ++ body).take HeaderSize = hdr 0 FTStruct (8 + body.length) :=
    List.take_left' (by simp [HeaderSize])
  have hdec := decodeHeader_hdr (fn := 0) (ft := FTStruct) (by omega) (by decide) h []
  rw [List.append_nil] at hdec
  simp only [St.unmarshal, ht, hdec]
  rw [if_neg (by rw [hmsg]; simp only [HeaderSize]; omega), if_neg (by decide), if_neg (by rw [hmsg]; omega)]
  rw [List.take_of_length_le (Nat.le_of_eq hmsg), List.drop_of_length_le (Nat.le_of_eq hmsg), List.nil_append]

/-- What a message needs to be written in the given form: packed messages must be whole words. -/
def Sendable (md : Mode) (maxAlloc : Nat) (msg : Bytes) : Prop :=
  Whole msg ∧ (md ≠ .plain → msg.length % 8 = 0) ∧ 32 + 2 * msg.length ≤ maxAlloc

theorem whole_length {msg : Bytes} (h : Whole msg) : 8 ≤ msg.length := by
  obtain ⟨body, rfl, _⟩ := h; simp

/-- The packed form of a message. -/
theorem packed_frame (k : Nat) (poolW poolR msg : Bytes) (hlen : 8 ≤ msg.length) (h8 : msg.length % 8 = 0) (h40 : msg.length < 2 ^ 40)
    (hk : 32 + 2 * msg.length ≤ k) :
    ∃ out, Pack.pack poolW msg = .ok (.buf (putLE 8 msg.length ++ putLE 8 out.length ++ out)) ∧ out ≠ [] ∧
      16 + out.length ≤ 32 + 2 * msg.length ∧
      Pack.unpack k poolR (putLE 8 msg.length ++ putLE 8 out.length ++ out) = .ok (some msg) := by
  obtain ⟨ws, out, e, hl, henc, hmax, hp⟩ := Claw.pack_words poolW msg h8 (by omega)
  obtain ⟨b, hp', hu⟩ := Claw.C25_pack_round_trip poolW poolR msg k h8 (by intro h; rw [h] at hlen; simp at hlen) (by omega) (by omega)
  have hb' : b = putLE 8 msg.length ++ putLE 8 out.length ++ out := by rw [hp] at hp'; cases hp'; rfl
  have := (Pack.enc_bound henc).1
  refine ⟨out, hp, ?_, by omega, by rw [← hb']; exact hu⟩
  intro ho
  subst ho
  cases henc
  have : msg.length = 0 := by simpa using hl
  omega

/-- One message. -/
theorem read_written (md : Mode) (k m : Nat) (poolW poolR msg : Bytes) (h : Sendable md k msg) :
    ∃ b, md.write poolW msg = .ok (some b) ∧ ∀ cs tail, cs.flatten = b ++ tail →
      ∃ out sp, md.read k poolR m cs = .ok out ∧ out.err = none ∧ out.rest.flatten = tail ∧
        out.st = ⟨⟨msg, sp⟩, List.replicate m Entry.zero, false, false, none, false, []⟩ := by
  obtain ⟨hw, h8, hk⟩ := h
  have hlen := whole_length hw
  obtain ⟨body, hb, h40⟩ := hw
  have hml : msg.length = 8 + body.length := by rw [hb]; simp
  cases md with
  | plain =>
    refine ⟨msg, rfl, ?_⟩
    intro cs tail hcs
    obtain ⟨sp, rest, e, hr⟩ := unmarshalReader_message k
      ⟨⟨hdr 0 FTStruct 8, zeros 56⟩, List.replicate m Entry.zero, false, false, none, false, []⟩ 0 (by omega) body tail
      (by omega) (by omega) cs (by rw [hcs, hb])
    rw [← hb] at e
    exact ⟨_, sp, by simp only [Mode.read, new_eq, Res.ok_bind]; exact e, rfl, hr, rfl⟩
  | packedClient =>
    obtain ⟨out, hp, _, hle, hu⟩ := packed_frame k poolW poolR msg hlen (h8 (by decide)) h40 hk
    refine ⟨_, by simp only [Mode.write, hp, Res.ok_bind]; rfl, ?_⟩
    intro cs tail hcs
    obtain ⟨rest, e, hr⟩ := readPack_packed k msg.length out tail (by omega) (by omega) cs hcs
    obtain ⟨sp, rest', e', hr'⟩ := unmarshalReader_message k
      ⟨⟨hdr 0 FTStruct 8, zeros 56⟩, List.replicate m Entry.zero, false, false, none, false, []⟩ 0 (by omega) body []
      (by omega) (by omega) [msg] (by simp [← hb])
    rw [← hb] at e'
    refine ⟨_, sp, by simp only [Mode.read, new_eq, Res.ok_bind, clientReadPacked, e, hu, e']; rfl, rfl, hr, rfl⟩
  | packedServer =>
    obtain ⟨out, hp, _, hle, hu⟩ := packed_frame k poolW poolR msg hlen (h8 (by decide)) h40 hk
    refine ⟨_, by simp only [Mode.write, hp, Res.ok_bind]; rfl, ?_⟩
    intro cs tail hcs
    obtain ⟨rest, e, hr⟩ := readPack_packed k msg.length out tail (by omega) (by omega) cs hcs
    have e' := unmarshal_whole ⟨⟨hdr 0 FTStruct 8, zeros 56⟩, List.replicate m Entry.zero, false, false, none, false, []⟩ body [] (by omega)
    rw [← hb] at e'
    refine ⟨_, [], by simp only [Mode.read, new_eq, Res.ok_bind, serverReadPacked, e, hu, e']; rfl, rfl, hr, rfl⟩

/-- **C66 (a)** Messages written one after the other, plain or packed, are read back one by one, the same bytes in the same order and
nothing of what follows, however the transport cuts the bytes into pieces, whatever the pooled buffers hold, on the client's and on the
server's side. -/
theorem C66_messages_one_by_one (md : Mode) (k m : Nat) (msgs poolsR : List Bytes) (poolsW : List Bytes)
    (hmsgs : ∀ msg ∈ msgs, Sendable md k msg) (hW : poolsW.length = msgs.length) (hR : poolsR.length = msgs.length) :
    ∃ bytes, writeAll md (poolsW.zip msgs) = .ok (some bytes) ∧ ∀ cs tail, cs.flatten = bytes ++ tail →
      ∃ ms rest, readAll md k m poolsR cs = .ok (ms, none, rest) ∧ ms.map (fun s => s.seg.data) = msgs ∧ rest.flatten = tail := by
  induction msgs generalizing poolsR poolsW with
  | nil =>
    have hW : poolsW = [] := List.length_eq_zero_iff.mp hW
    have hR : poolsR = [] := List.length_eq_zero_iff.mp hR
    subst hW hR
    exact ⟨[], rfl, fun cs tail h => ⟨[], cs, rfl, rfl, by simpa using h⟩⟩
  | cons msg msgs ih =>
    cases poolsW with
    | nil => simp at hW
    | cons pw poolsW =>
    cases poolsR with
    | nil => simp at hR
    | cons pr poolsR =>
    obtain ⟨b, hb, hread⟩ := read_written md k m pw pr msg (hmsgs msg (by simp))
    obtain ⟨bs, hbs, hrest⟩ := ih poolsR poolsW (fun x hx => hmsgs x (by simp [hx])) (by simpa using hW) (by simpa using hR)
    refine ⟨b ++ bs, ?_, ?_⟩
    · simp only [List.zip_cons_cons, writeAll, hb, hbs, Res.ok_bind]; rfl
    · intro cs tail hcs
      obtain ⟨out, sp, e1, e2, e3, e4⟩ := hread cs (bs ++ tail) (by rw [hcs, List.append_assoc])
      obtain ⟨ms, rest, f1, f2, f3⟩ := hrest out.rest tail e3
      refine ⟨out.st :: ms, rest, ?_, ?_, f3⟩
      · simp only [readAll, e1, Res.ok_bind, e2, f1]; rfl
      · rw [List.map_cons, f2, e4]

/-- A message of the RPC layer: its first field is a byte. -/
def demoMsg (t : Nat) : Bytes := hdr 0 FTStruct 16 ++ hdr 0 FTUint8 t

theorem demo_sendable (md : Mode) (t : Nat) : Sendable md (2 ^ 20) (demoMsg t) :=
  ⟨⟨hdr 0 FTUint8 t, by simp [demoMsg], by simp [demoMsg]⟩, fun _ => by simp [demoMsg], by simp [demoMsg]⟩

/-- Three messages in each form; the transport gives single bytes. -/
example (md : Mode) := C66_messages_one_by_one md (2 ^ 20) 3 [demoMsg 1, demoMsg 2, demoMsg 200] [[], [9], []] [[7, 7], [], []]
  (by intro msg h; simp only [List.mem_cons, List.not_mem_nil, or_false] at h; rcases h with rfl | rfl | rfl <;> exact demo_sendable md _) rfl rfl
example : ∃ ms, readAll .plain 100 1 [[], []] ((demoMsg 1 ++ demoMsg 2 ++ [5]).map fun b => [b]) = .ok (ms, none, [[5]]) ∧
    ms.map (fun s => s.seg.data) = [demoMsg 1, demoMsg 2] := ⟨_, rfl, by decide⟩

/-- The messages of structs built by programs. -/
def Marshalled (m : Nat) : List (List Op) → List Bytes → Prop
  | [], [] => True
  | p :: ps, msg :: msgs => (∃ s s1, run m p = .ok s ∧ s.marshal = .ok (msg, s1)) ∧ Marshalled m ps msgs
  | _, _ => False

theorem marshal_whole (m : Nat) (ops : List Op) (h : Within m ops) :
    ∃ s msg, run m ops = .ok s ∧ s.marshal = .ok (msg, s) ∧ Whole msg ∧ msg.length = 8 + sizes (specRun m ops) := by
  obtain ⟨s0, h0, hr, hl, he, _⟩ := new_rep m
  obtain ⟨s, h1, h2, h3⟩ := ops_within ops hr (by simp [hl]) (by simpa using h.1) (by rw [hl]; exact h.2)
  have hm := marshal_rep h2 (by rw [h3.enabled, he])
  have hlen : (hdr 0 FTStruct (total (encs (specOps ops (List.replicate m .absent)) 0)) ++
      (encs (specOps ops (List.replicate m .absent)) 0).flatten).length = 8 + sizes (specRun m ops) := by
    rw [List.length_append, encs_flatten_length]; simp [specRun]
  refine ⟨s, _, by simp [run, h0, h1], hm, ⟨_, rfl, ?_⟩, hlen⟩
  have := h2.small
  simp only [total, encs_flatten_length] at this
  rw [hlen]; simp only [specRun]; omega

/-- **C66 (e, partial)** The same with structs: the programs `progs` build structs, their messages are written one after the other, and
the receiver reads one struct after the other with the same field values. Missing, as in C04: final values that are not clean
and messages of 4 GiB and more; and messages that are not whole words are not written packed (C06). -/
theorem C66_structs_one_by_one_partial (md : Mode) (k m : Nat) (tys : List Ty) (hlen : tys.length = m) (progs : List (List Op))
    (poolsR poolsW : List Bytes) (hW : poolsW.length = progs.length) (hR : poolsR.length = progs.length)
    (hfit : ∀ p ∈ progs, Within m p ∧ Tidies (specRun m p) ∧ FieldsHaveTy (specRun m p) tys)
    (hword : ∀ p ∈ progs, md ≠ .plain → (8 + sizes (specRun m p)) % 8 = 0)
    (hmem : ∀ p ∈ progs, 32 + 2 * (8 + sizes (specRun m p)) ≤ k) :
    ∃ msgs bytes, Marshalled m progs msgs ∧ writeAll md (poolsW.zip msgs) = .ok (some bytes) ∧ ∀ cs tail, cs.flatten = bytes ++ tail →
      ∃ ms rest, readAll md k m poolsR cs = .ok (ms, none, rest) ∧ rest.flatten = tail ∧
        mapRes (fun s => readFields tys s 0) ms = .ok (progs.map fun p => viewFields tys (specRun m p)) := by
  induction progs generalizing poolsR poolsW with
  | nil =>
    have hW : poolsW = [] := List.length_eq_zero_iff.mp hW
    have hR : poolsR = [] := List.length_eq_zero_iff.mp hR
    subst hW hR
    exact ⟨[], [], trivial, rfl, fun cs tail h => ⟨[], cs, rfl, by simpa using h, rfl⟩⟩
  | cons p progs ih =>
    cases poolsW with
    | nil => simp at hW
    | cons pw poolsW =>
    cases poolsR with
    | nil => simp at hR
    | cons pr poolsR =>
    obtain ⟨s, msg, hrun, hmar, hwh, hml⟩ := marshal_whole m p (hfit p (by simp)).1
    have hS : Sendable md k msg := ⟨hwh, fun hmd => by rw [hml]; exact hword p (by simp) hmd, by rw [hml]; exact hmem p (by simp)⟩
    obtain ⟨b, hb, hread⟩ := read_written md k m pw pr msg hS
    obtain ⟨msgs, bs, hM, hbs, hrest⟩ := ih poolsR poolsW (by simpa using hW) (by simpa using hR)
      (fun x hx => hfit x (by simp [hx])) (fun x hx => hword x (by simp [hx])) (fun x hx => hmem x (by simp [hx]))
    refine ⟨msg :: msgs, b ++ bs, ⟨⟨s, s, hrun, hmar⟩, hM⟩, ?_, ?_⟩
    · simp only [List.zip_cons_cons, writeAll, hb, hbs, Res.ok_bind]; rfl
    · intro cs tail hcs
      obtain ⟨out, sp, e1, e2, e3, e4⟩ := hread cs (bs ++ tail) (by rw [hcs, List.append_assoc])
      obtain ⟨ms, rest, f1, f2, f3⟩ := hrest out.rest tail e3
      obtain ⟨hfp, htp, hyp⟩ := hfit p (by simp)
      obtain ⟨s', msg', s1', fresh, s'', g1, g2, g3, g4, _, g5⟩ := C04_marshal_unmarshal_partial m p tys sp hfp htp hlen hyp
      have hs' : s' = s := by rw [hrun] at g1; cases g1; rfl
      subst hs'
      have hm' : msg' = msg := by rw [hmar] at g2; cases g2; rfl
      subst hm'
      have hst : out.st = s'' := by
        obtain ⟨body, hbd, h40⟩ := hwh
        rw [new_eq] at g3; cases g3
        rw [hbd, unmarshal_whole _ body sp (by rw [hbd] at h40; simpa using h40), ← hbd] at g4
        cases g4; exact e4
      refine ⟨out.st :: ms, rest, ?_, f2, ?_⟩
      · simp only [readAll, e1, Res.ok_bind, e2, f1]; rfl
      · simp only [mapRes, List.map_cons, f3, hst, g5, Res.ok_bind]; rfl

example : 32 + 2 * (8 + sizes (specRun 8 demoOps)) ≤ 2 ^ 20 := by rw [demo_spec]; decide +kernel
example := C66_structs_one_by_one_partial .plain (2 ^ 20) 8 demoTys rfl [demoOps, demoOps] [[], []] [[], []] rfl rfl
  (by intro p hp; simp only [List.mem_cons, List.not_mem_nil, or_false, or_self] at hp; subst hp; exact ⟨demo_fits.within, demo_fits.tidy, demo_typed⟩)
  (by intro _ _ h; exact absurd rfl h)
  (by intro p hp; simp only [List.mem_cons, List.not_mem_nil, or_false, or_self] at hp; subst hp; rw [demo_spec]; decide +kernel)

/-- The length of the header the reader waits for first. -/
def Mode.headLen : Mode → Nat
  | .plain => 8
  | _ => 16

/-- **C66 (b)** At the end of the stream the reader says so. -/
theorem C66_end_of_stream (md : Mode) (k m : Nat) (pool : Bytes) (cs : List Bytes) (h : cs.flatten = []) :
    ∃ out, md.read k pool m cs = .ok out ∧ out.err = some .eof := by
  cases md with
  | plain =>
    have := fill_short cs HeaderSize [] (by rw [h]; decide)
    exact ⟨_, by simp only [Mode.read, new_eq, Res.ok_bind, unmarshalReader, this]; rfl, by simp [h]⟩
  | packedClient =>
    have := fill_short cs 16 [] (by rw [h]; decide)
    exact ⟨_, by simp only [Mode.read, new_eq, Res.ok_bind, clientReadPacked, readPack, this]; rfl, by simp [h]⟩
  | packedServer =>
    have := fill_short cs 16 [] (by rw [h]; decide)
    exact ⟨_, by simp only [Mode.read, new_eq, Res.ok_bind, serverReadPacked, readPack, this]; rfl, by simp [h]⟩

theorem plain_cut (k : Nat) (s : St) (body p q : Bytes) (h40 : 8 + body.length < 2 ^ 40) (hk : 8 + body.length ≤ k)
    (hp : p ≠ []) (hq : q ≠ []) (hpq : hdr 0 FTStruct (8 + body.length) ++ body = p ++ q) (cs : List Bytes) (hcs : cs.flatten = p) :
    ∃ out, unmarshalReader k s cs = .ok out ∧ out.err = some (if p.length = 8 then .eof else .unexpectedEof) := by
  have hlen : 8 + body.length = p.length + q.length := by
    have := congrArg List.length hpq; simpa using this
  have hql : 0 < q.length := List.length_pos_iff.mpr hq
  by_cases h8 : p.length < 8
  · have e1 := fill_short cs HeaderSize [] (by rw [hcs]; exact h8)
    rw [hcs, List.nil_append, if_neg hp] at e1
    exact ⟨_, by simp only [unmarshalReader, e1]; rfl, by rw [if_neg (by omega)]⟩
  · obtain ⟨c1, e1, h1⟩ := fill_enough cs HeaderSize [] (by rw [hcs]; simp only [HeaderSize]; omega)
    have ht : cs.flatten.take HeaderSize = hdr 0 FTStruct (8 + body.length) := by
      have := congrArg (List.take 8) hpq
      rw [List.take_left' (by simp), List.take_append_of_le_length (by omega)] at this
      rw [hcs, HeaderSize, ← this]
    rw [ht, List.nil_append] at e1
    rw [hcs] at h1
    have hdec := decodeHeader_hdr (fn := 0) (ft := FTStruct) (by omega) (by decide) h40 []
    rw [List.append_nil] at hdec
    have hl1 : c1.flatten.length = p.length - 8 := by rw [h1]; simp [HeaderSize]
    have e2 := fill_short c1 (8 + body.length - HeaderSize) [] (by simp only [HeaderSize]; omega)
    have hk' : (decide (k < 8 + body.length)) = false := by simpa using hk
    simp only [unmarshalReader, e1, hdec, ne_eq, not_true_eq_false, if_false, hk', Bool.and_false, Bool.false_eq_true]
    rw [if_pos (by simp only [HeaderSize]; omega)]
    simp only [e2]
    refine ⟨_, rfl, ?_⟩
    simp only [List.nil_append]
    by_cases hp8 : p.length = 8
    · rw [if_pos hp8, if_pos (List.length_eq_zero_iff.mp (by omega))]
    · rw [if_neg hp8, if_neg (by intro h; rw [h] at hl1; simp at hl1; omega)]

theorem packed_cut (k n : Nat) (out p q : Bytes) (hk : 16 + out.length ≤ k) (h62 : out.length < 2 ^ 62)
    (hp : p ≠ []) (hq : q ≠ []) (hpq : putLE 8 n ++ putLE 8 out.length ++ out = p ++ q) (cs : List Bytes) (hcs : cs.flatten = p) :
    ∃ got rest a, readPack k cs = .ok (some (if p.length = 16 then .eof else .unexpectedEof), got, rest, a) := by
  have hlen : 16 + out.length = p.length + q.length := by
    have := congrArg List.length hpq; simp only [List.length_append, putLE_length] at this; omega
  have hql : 0 < q.length := List.length_pos_iff.mpr hq
  by_cases h16 : p.length < 16
  · have e1 := fill_short cs 16 [] (by rw [hcs]; exact h16)
    rw [hcs, List.nil_append, if_neg hp] at e1
    rw [if_neg (by omega)]
    exact ⟨_, _, _, by simp only [readPack, e1]; rfl⟩
  · obtain ⟨c1, e1, h1⟩ := fill_enough cs 16 [] (by rw [hcs]; omega)
    have ht : cs.flatten.take 16 = putLE 8 n ++ putLE 8 out.length := by
      have := congrArg (List.take 16) hpq
      rw [List.take_left' (by simp), List.take_append_of_le_length (by omega)] at this
      rw [hcs, ← this]
    rw [ht, List.nil_append] at e1
    rw [hcs] at h1
    have g2 : getLE (((putLE 8 n ++ putLE 8 out.length).drop 8).take 8) = out.length := by
      rw [List.drop_left' (by simp), List.take_of_length_le (by simp), getLE_putLE_of_lt (by omega)]
    have hadd : Pack.addInt 16 (Pack.toInt out.length) = ((16 + out.length : Nat) : Int) := by
      rw [toInt_small (by omega)]; simp only [Pack.addInt]; omega
    have hl1 : c1.flatten.length = p.length - 16 := by rw [h1]; simp
    have e2 := fill_short c1 out.length [] (by omega)
    simp only [readPack, e1, g2, hadd]
    rw [if_neg (by omega), if_neg (by omega)]
    have hn : ((16 + out.length : Nat) : Int).toNat - 16 = out.length := by omega
    simp only [hn, e2, List.nil_append]
    by_cases hp8 : p.length = 16
    · rw [if_pos hp8, if_pos (List.length_eq_zero_iff.mp (by omega))]; exact ⟨_, _, _, rfl⟩
    · rw [if_neg hp8, if_neg (by intro h; rw [h] at hl1; simp at hl1; omega)]; exact ⟨_, _, _, rfl⟩

/-- What a reader reports when the stream ends inside a message, for every message and every place. -/
theorem cut (md : Mode) (k m : Nat) (poolW poolR msg : Bytes) (h : Sendable md k msg) :
    ∃ b, md.write poolW msg = .ok (some b) ∧ ∀ p q, b = p ++ q → p ≠ [] → q ≠ [] → ∀ cs, cs.flatten = p →
      ∃ out, md.read k poolR m cs = .ok out ∧ out.err = some (if p.length = md.headLen then .eof else .unexpectedEof) := by
  obtain ⟨hw, h8, hk⟩ := h
  have hlen := whole_length hw
  obtain ⟨body, hb, h40⟩ := hw
  have hml : msg.length = 8 + body.length := by rw [hb]; simp
  cases md with
  | plain =>
    refine ⟨msg, rfl, fun p q hpq hp hq cs hcs => ?_⟩
    obtain ⟨out, e, he⟩ := plain_cut k ⟨⟨hdr 0 FTStruct 8, zeros 56⟩, List.replicate m Entry.zero, false, false, none, false, []⟩
      body p q (by omega) (by omega) hp hq (by rw [← hb]; exact hpq) cs hcs
    exact ⟨out, by simp only [Mode.read, new_eq, Res.ok_bind]; exact e, he⟩
  | packedClient =>
    obtain ⟨out, hpk, _, hle, hu⟩ := packed_frame k poolW poolR msg hlen (h8 (by decide)) h40 hk
    refine ⟨_, by simp only [Mode.write, hpk, Res.ok_bind]; rfl, fun p q hpq hp hq cs hcs => ?_⟩
    obtain ⟨got, rest, a, e⟩ := packed_cut k msg.length out p q (by omega) (by omega) hp hq hpq cs hcs
    exact ⟨_, by simp only [Mode.read, new_eq, Res.ok_bind, clientReadPacked, e]; rfl, rfl⟩
  | packedServer =>
    obtain ⟨out, hpk, _, hle, hu⟩ := packed_frame k poolW poolR msg hlen (h8 (by decide)) h40 hk
    refine ⟨_, by simp only [Mode.write, hpk, Res.ok_bind]; rfl, fun p q hpq hp hq cs hcs => ?_⟩
    obtain ⟨got, rest, a, e⟩ := packed_cut k msg.length out p q (by omega) (by omega) hp hq hpq cs hcs
    exact ⟨_, by simp only [Mode.read, new_eq, Res.ok_bind, serverReadPacked, e]; rfl, rfl⟩

/-- **C66 (c, partial)** A stream that ends inside a message is reported as an error other than the end of the stream.
Missing: the place after the header, where it is false (`C66_cut_after_header_looks_like_the_end`). -/
theorem C66_cut_is_an_error_partial (md : Mode) (k m : Nat) (poolW poolR msg : Bytes) (h : Sendable md k msg) :
    ∃ b, md.write poolW msg = .ok (some b) ∧ ∀ p q, b = p ++ q → p ≠ [] → q ≠ [] → p.length ≠ md.headLen → ∀ cs, cs.flatten = p →
      ∃ out, md.read k poolR m cs = .ok out ∧ out.err = some .unexpectedEof := by
  obtain ⟨b, hb, hc⟩ := cut md k m poolW poolR msg h
  refine ⟨b, hb, fun p q hpq hp hq hne cs hcs => ?_⟩
  obtain ⟨out, e, he⟩ := hc p q hpq hp hq cs hcs
  exact ⟨out, e, by rw [he, if_neg hne]⟩

example (md : Mode) := C66_cut_is_an_error_partial md (2 ^ 20) 3 [] [] _ (demo_sendable md 7)
example : ∃ out, Mode.plain.read 100 [] 1 [(demoMsg 1).take 5, ((demoMsg 1).drop 5).take 8] = .ok out ∧ out.err = some .unexpectedEof := ⟨_, rfl, rfl⟩

/-- **C66, refuted** A stream that ends right after the header of a message (8 bytes, packed 16) looks like the regular end of the
stream: the reader reports `io.EOF` for every message longer than that, and both ends treat it as an orderly shutdown. -/
theorem C66_cut_after_header_looks_like_the_end (md : Mode) (k m : Nat) (poolW poolR msg : Bytes) (h : Sendable md k msg) (hlong : 8 < msg.length) :
    ∃ b p q, md.write poolW msg = .ok (some b) ∧ b = p ++ q ∧ p.length = md.headLen ∧ q ≠ [] ∧ ∀ cs, cs.flatten = p →
      ∃ out, md.read k poolR m cs = .ok out ∧ out.err = some .eof := by
  obtain ⟨b, hb, hc⟩ := cut md k m poolW poolR msg h
  have hbl : md.headLen < b.length := by
    obtain ⟨hw, h8, hk⟩ := h
    have hlen := whole_length hw
    obtain ⟨body, hbd, h40⟩ := hw
    cases md with
    | plain => simp only [Mode.write] at hb; cases hb; exact hlong
    | packedClient =>
      obtain ⟨out, hpk, hne, hle, hu⟩ := packed_frame k poolW poolR msg hlen (h8 (by decide)) h40 hk
      simp only [Mode.write, hpk, Res.ok_bind, Res.pure_eq] at hb; cases hb
      have := List.length_pos_iff.mpr hne
      simp [Mode.headLen]; omega
    | packedServer =>
      obtain ⟨out, hpk, hne, hle, hu⟩ := packed_frame k poolW poolR msg hlen (h8 (by decide)) h40 hk
      simp only [Mode.write, hpk, Res.ok_bind, Res.pure_eq] at hb; cases hb
      have := List.length_pos_iff.mpr hne
      simp [Mode.headLen]; omega
  have hpos : 0 < md.headLen := by cases md <;> decide
  refine ⟨b, b.take md.headLen, b.drop md.headLen, hb, by simp, by simp; omega, ?_, ?_⟩
  · intro h; have := congrArg List.length h; simp at this; omega
  · intro cs hcs
    obtain ⟨out, e, he⟩ := hc _ (b.drop md.headLen) (by simp)
      (by intro h; have := congrArg List.length h; rw [List.length_take, List.length_nil] at this; omega)
      (by intro h; have := congrArg List.length h; simp at this; omega) cs hcs
    exact ⟨out, e, by rw [he, if_pos (by simp; omega)]⟩

example (md : Mode) := C66_cut_after_header_looks_like_the_end md (2 ^ 20) 3 [] [] _ (demo_sendable md 7) (by simp [demoMsg])
example : ∃ out, Mode.plain.read 100 [] 1 [(demoMsg 1).take 8] = .ok out ∧ out.err = some .eof := ⟨_, rfl, rfl⟩

/-- **C66 (d)** What is read depends only on the bytes, not on how they are cut into pieces, for all bytes including those of a
hostile peer: the same error or the same message, the same bytes left, or a panic in both cases. -/
theorem C66_pieces_do_not_matter (md : Mode) (k m : Nat) (pool : Bytes) (cs ds : List Bytes) (h : cs.flatten = ds.flatten) :
    SameRes (md.read k pool m cs) (md.read k pool m ds) := by
  cases md with
  | plain => simp only [Mode.read, new_eq, Res.ok_bind]; exact unmarshalReader_congr k _ h
  | packedClient =>
    simp only [Mode.read, new_eq, Res.ok_bind, clientReadPacked]
    rcases readPack_congr k h with ⟨h1, h2⟩ | ⟨e, p, rc, rd, a, h1, h2, h3⟩
    · rw [h1, h2]; trivial
    · simp only [h1, h2, Res.ok_bind]
      cases e with
      | some e => exact ⟨rfl, rfl, h3, rfl⟩
      | none =>
        simp only
        cases hu : Pack.unpack k pool p with
        | panic => trivial
        | hang => trivial
        | ok x =>
          cases x with
          | none => exact ⟨rfl, rfl, h3, rfl⟩
          | some d =>
            simp only [Res.ok_bind]
            cases hr : unmarshalReader k _ [d] with
            | panic => trivial
            | hang => trivial
            | ok o => exact ⟨rfl, rfl, h3, rfl⟩
  | packedServer =>
    simp only [Mode.read, new_eq, Res.ok_bind, serverReadPacked]
    rcases readPack_congr k h with ⟨h1, h2⟩ | ⟨e, p, rc, rd, a, h1, h2, h3⟩
    · rw [h1, h2]; trivial
    · simp only [h1, h2, Res.ok_bind]
      cases e with
      | some e => exact ⟨rfl, rfl, h3, rfl⟩
      | none =>
        simp only
        cases hu : Pack.unpack k pool p with
        | panic => trivial
        | hang => trivial
        | ok x =>
          cases x with
          | none => exact ⟨rfl, rfl, h3, rfl⟩
          | some d =>
            simp only [Res.ok_bind]
            cases St.unmarshal _ d [] with
            | none => exact ⟨rfl, rfl, h3, rfl⟩
            | some s => exact ⟨rfl, rfl, h3, rfl⟩

example (md : Mode) (a b c : Bytes) := C66_pieces_do_not_matter md 100 3 [] [a ++ b, c] [a, [], b ++ c] (by simp)

/-! ### C67 memory -/

theorem fill_header (n : Nat) (cs : List Bytes) (b : Bytes) (hb : b.length = n) (hcs : cs.flatten = b) :
    ∃ c1, fill cs n [] = (none, b, c1) ∧ c1.flatten = [] := by
  obtain ⟨c1, e1, h1⟩ := fill_enough cs n [] (by rw [hcs, hb]; exact Nat.le_refl n)
  rw [hcs, List.nil_append, List.take_of_length_le (Nat.le_of_eq hb)] at e1
  rw [hcs, List.drop_of_length_le (Nat.le_of_eq hb)] at h1
  exact ⟨c1, e1, h1⟩

/-- **C67, refuted** Eight bytes make a reader ask for any amount of memory below 1 TiB, before any byte of the message has arrived: for
every limit there is such a header, whatever message sizes the receiver is configured for. If the memory is not to be had the reader panics. -/
theorem C67_eight_bytes_ask_for_anything (limit k m : Nat) (h64 : 64 ≤ limit) (h40 : limit + 1 < 2 ^ 40) :
    ∃ b : Bytes, b.length = 8 ∧ ∀ cs, cs.flatten = b → ∀ pool,
      (limit + 1 ≤ k → ∃ out, Mode.plain.read k pool m cs = .ok out ∧ limit < out.alloc ∧ out.err = some .eof) ∧
      (k < limit + 1 → Mode.plain.read k pool m cs = .panic) := by
  refine ⟨hdr 0 FTStruct (limit + 1), by simp, ?_⟩
  intro cs hcs pool
  obtain ⟨c1, e1, h1⟩ := fill_header HeaderSize cs _ (by simp [HeaderSize]) hcs
  have hdec := decodeHeader_hdr (fn := 0) (ft := FTStruct) (by omega) (by decide) h40 []
  rw [List.append_nil] at hdec
  have hcap : decide (limit + 1 ≤ (Seg.cap ⟨hdr 0 FTStruct 8, zeros 56⟩)) = false := by simp [Seg.cap]; omega
  have e2 := fill_short c1 (limit + 1 - HeaderSize) [] (by rw [h1]; simp only [HeaderSize, List.length_nil]; omega)
  simp only [Mode.read, new_eq, Res.ok_bind, unmarshalReader, e1, hdec, ne_eq, not_true_eq_false, if_false, hcap]
  constructor
  · intro hk
    have hkd : decide (k < limit + 1) = false := by simpa using hk
    simp only [hkd, Bool.and_false, Bool.false_eq_true, if_false]
    rw [if_pos (by simp only [HeaderSize]; omega)]
    simp only [e2]
    exact ⟨_, rfl, by simp, by simp [h1]⟩
  · intro hk
    have hkd : decide (k < limit + 1) = true := by simpa using hk
    simp [hkd]

/-- **C67, refuted (packed)** The same with the 16 bytes of a pack header, up to 2^62 bytes. -/
theorem C67_sixteen_bytes_ask_for_anything (md : Mode) (hmd : md ≠ .plain) (limit k m : Nat) (h16 : 16 ≤ limit) (h62 : limit < 2 ^ 62) :
    ∃ b : Bytes, b.length = 16 ∧ ∀ cs, cs.flatten = b → ∀ pool,
      (limit + 1 ≤ k → ∃ out, md.read k pool m cs = .ok out ∧ limit < out.alloc ∧ out.err = some .eof) ∧
      (k < limit + 1 → md.read k pool m cs = .panic) := by
  refine ⟨putLE 8 0 ++ putLE 8 (limit + 1 - 16), by simp, ?_⟩
  intro cs hcs pool
  obtain ⟨c1, e1, h1⟩ := fill_header 16 cs _ (by simp) hcs
  have g2 : getLE (((putLE 8 0 ++ putLE 8 (limit + 1 - 16)).drop 8).take 8) = limit + 1 - 16 := by
    rw [List.drop_left' (by simp), List.take_of_length_le (by simp), getLE_putLE_of_lt (by omega)]
  have hadd : Pack.addInt 16 (Pack.toInt (limit + 1 - 16)) = ((limit + 1 : Nat) : Int) := by
    rw [toInt_small (by omega)]; simp only [Pack.addInt]; omega
  have hrp : (limit + 1 ≤ k → readPack k cs = .ok (some .eof, putLE 8 0 ++ putLE 8 (limit + 1 - 16), [], limit + 1)) ∧
      (k < limit + 1 → readPack k cs = .panic) := by
    simp only [readPack, e1, g2, hadd]
    constructor
    · intro hk
      rw [if_neg (by omega), if_neg (by omega)]
      have hn : ((limit + 1 : Nat) : Int).toNat = limit + 1 := by omega
      have e2 := fill_short c1 (limit + 1 - 16) [] (by rw [h1]; simp only [List.length_nil]; omega)
      simp only [hn, e2, h1, List.append_nil, if_true]
    · intro hk
      rw [if_pos (by omega)]
  cases md with
  | plain => exact absurd rfl hmd
  | packedClient =>
    simp only [Mode.read, new_eq, Res.ok_bind, clientReadPacked]
    exact ⟨fun hk => ⟨_, by rw [hrp.1 hk]; rfl, by simp, rfl⟩, fun hk => by rw [hrp.2 hk]; rfl⟩
  | packedServer =>
    simp only [Mode.read, new_eq, Res.ok_bind, serverReadPacked]
    exact ⟨fun hk => ⟨_, by rw [hrp.1 hk]; rfl, by simp, rfl⟩, fun hk => by rw [hrp.2 hk]; rfl⟩

/-- **C67, refuted (packed, panic)** A pack header that declares 2^63 - 16 bytes or more panics whatever memory there is, on both ends: 16
bytes of a peer end the process. -/
theorem C67_sixteen_bytes_panic (md : Mode) (hmd : md ≠ .plain) (k m u p : Nat) (hp : 2 ^ 63 - 16 ≤ p) (hp64 : p < 2 ^ 64) (pool rest : Bytes)
    (cs : List Bytes) (hcs : cs.flatten = putLE 8 u ++ putLE 8 p ++ rest) : md.read k pool m cs = .panic := by
  obtain ⟨c1, e1, h1⟩ := fill_enough cs 16 [] (by rw [hcs]; simp; omega)
  rw [hcs, List.nil_append, List.take_left' (by simp)] at e1
  have g2 : getLE (((putLE 8 u ++ putLE 8 p).drop 8).take 8) = p := by
    rw [List.drop_left' (by simp), List.take_of_length_le (by simp), getLE_putLE_of_lt (by omega)]
  have hadd : Pack.addInt 16 (Pack.toInt p) < 16 := by
    simp only [Pack.addInt, Pack.toInt]; split <;> omega
  have hrp : readPack k cs = .panic := by
    simp only [readPack, e1, g2]
    split
    · rfl
    · first | rfl | rw [if_pos hadd]
  cases md with
  | plain => exact absurd rfl hmd
  | packedClient => simp [Mode.read, new_eq, clientReadPacked, hrp]
  | packedServer => simp [Mode.read, new_eq, serverReadPacked, hrp]

example := C67_eight_bytes_ask_for_anything (4 * 2 ^ 20) (2 ^ 30) 3 (by decide) (by decide)
example (md : Mode) (h : md ≠ .plain) := C67_sixteen_bytes_ask_for_anything md h (4 * 2 ^ 20) (2 ^ 30) 3 (by decide) (by decide)
example (md : Mode) (h : md ≠ .plain) := C67_sixteen_bytes_panic md h (2 ^ 40) 3 0 (2 ^ 64 - 1) (by decide) (by decide) [] [] [putLE 8 0 ++ putLE 8 (2 ^ 64 - 1)] (by simp)

/-- What a plain read asks for. -/
theorem unmarshalReader_alloc {k : Nat} {s : St} {cs : List Bytes} {out : Out} (h : unmarshalReader k s cs = .ok out) (hcap : 8 ≤ s.seg.cap) :
    out.alloc < 2 ^ 40 ∧ (out.err = none → out.alloc = 0 ∨ (out.alloc = out.st.seg.data.length ∧
      out.alloc + out.rest.flatten.length = cs.flatten.length)) ∧ out.rest.flatten.length ≤ cs.flatten.length := by
  by_cases h8 : HeaderSize ≤ cs.flatten.length
  · obtain ⟨c1, e1, h1⟩ := fill_enough cs HeaderSize [] h8
    have hl1 : c1.flatten.length = cs.flatten.length - 8 := by rw [h1]; simp [HeaderSize]
    obtain ⟨fn, ft, f, b1, b2, b3, hb⟩ := hdr_surj (b := cs.flatten.take HeaderSize) (by simp only [HeaderSize] at h8 ⊢; rw [List.length_take]; omega)
    have hdec := decodeHeader_hdr b1 b2 b3 []
    rw [List.append_nil, ← hb] at hdec
    simp only [unmarshalReader, e1, List.nil_append, hdec] at h
    have h8' : 8 ≤ cs.flatten.length := h8
    split at h
    · cases h; exact ⟨by simp, by simp, by simp only; omega⟩
    split at h
    · cases h
    rename_i hft hmem
    have halloc : (if decide (f ≤ s.seg.cap) = true then 0 else f) < 2 ^ 40 := by split <;> omega
    split at h
    · rename_i hbig
      by_cases hen : f - HeaderSize ≤ c1.flatten.length
      · obtain ⟨c2, e2, h2⟩ := fill_enough c1 (f - HeaderSize) [] hen
        simp only [e2] at h
        cases h
        have hl2 : c2.flatten.length = c1.flatten.length - (f - 8) := by rw [h2]; simp [HeaderSize]
        simp only [HeaderSize] at hbig hen
        refine ⟨halloc, fun _ => ?_, by simp only; omega⟩
        by_cases hc : f ≤ s.seg.cap
        · left; simp [hc]
        · right
          simp only [decide_eq_true_eq, hc, if_false]
          rw [goCopy_length _ _ _ (by rw [goCopy_length _ _ _ (by simp)]; simp [HeaderSize]; omega), goCopy_length _ _ _ (by simp)]
          exact ⟨by simp, by omega⟩
      · have e2 := fill_short c1 (f - HeaderSize) [] (by omega)
        simp only [e2] at h
        cases h
        exact ⟨halloc, by simp, by simp⟩
    · rename_i hsmall
      cases h
      simp only [HeaderSize] at hsmall
      refine ⟨halloc, fun _ => Or.inl ?_, by simp only; omega⟩
      simp only [decide_eq_true_eq]; rw [if_pos (by omega)]
  · have e1 := fill_short cs HeaderSize [] (by omega)
    simp only [unmarshalReader, e1] at h
    cases h; simp

/-- **C67 (partial)** What a read asks for is below 1 TiB for a plain message, and when the message has arrived no more than its bytes, packed
no more than its packed and unpacked bytes. Missing: a bound the receiver can set, and any bound before the message has arrived
(`C67_eight_bytes_ask_for_anything`). -/
theorem C67_received_message_partial (md : Mode) (k m : Nat) (pool : Bytes) (cs : List Bytes) (out : Out) (h : md.read k pool m cs = .ok out) :
    (md = .plain → out.alloc < 2 ^ 40) ∧
    (out.err = none → out.alloc + out.rest.flatten.length ≤ cs.flatten.length + if md = .plain then 0 else out.st.seg.data.length) := by
  have hpack : ∀ p rc a, readPack k cs = .ok (none, p, rc, a) → a + rc.flatten.length = cs.flatten.length := by
    intro p rc a hp
    by_cases h16 : 16 ≤ cs.flatten.length
    · obtain ⟨c1, e1, h1⟩ := fill_enough cs 16 [] h16
      have hl1 : c1.flatten.length = cs.flatten.length - 16 := by rw [h1]; simp
      simp only [readPack, e1] at hp
      generalize Pack.addInt 16 (Pack.toInt _) = sz at hp
      split at hp
      · cases hp
      split at hp
      · cases hp
      by_cases hen : sz.toNat - 16 ≤ c1.flatten.length
      · obtain ⟨c2, e2, h2⟩ := fill_enough c1 (sz.toNat - 16) [] hen
        simp only [e2] at hp
        cases hp
        have : rc.flatten.length = c1.flatten.length - (sz.toNat - 16) := by rw [h2]; simp
        omega
      · have e2 := fill_short c1 (sz.toNat - 16) [] (by omega)
        simp only [e2] at hp
        cases hp
    · have e1 := fill_short cs 16 [] (by omega)
      simp only [readPack, e1] at hp
      cases hp
  cases md with
  | plain =>
    simp only [Mode.read, new_eq, Res.ok_bind] at h
    obtain ⟨h1, h2, h3⟩ := unmarshalReader_alloc h (by simp [Seg.cap])
    refine ⟨fun _ => h1, fun he => ?_⟩
    rcases h2 he with h2 | ⟨_, h2⟩ <;> simp only [if_true] <;> omega
  | packedClient =>
    refine ⟨by simp, fun he => ?_⟩
    simp only [Mode.read, new_eq, Res.ok_bind, clientReadPacked] at h
    cases hr : readPack k cs with
    | panic => rw [hr] at h; cases h
    | hang => rw [hr] at h; cases h
    | ok x =>
      obtain ⟨e, p, rc, a⟩ := x
      rw [hr] at h
      simp only [Res.ok_bind] at h
      cases e with
      | some e => cases h; cases he
      | none =>
        have := hpack p rc a hr
        cases hu : Pack.unpack k pool p with
        | panic => rw [hu] at h; cases h
        | hang => rw [hu] at h; cases h
        | ok x =>
          rw [hu] at h
          simp only [Res.ok_bind] at h
          cases x with
          | none => cases h; cases he
          | some d =>
            simp only at h
            cases hm : unmarshalReader k ⟨⟨hdr 0 FTStruct 8, zeros 56⟩, List.replicate m Entry.zero, false, false, none, false, []⟩ [d] with
            | panic => rw [hm] at h; cases h
            | hang => rw [hm] at h; cases h
            | ok o =>
              rw [hm] at h
              simp only [Res.ok_bind, Res.pure_eq] at h
              cases h
              simp only at he
              obtain ⟨_, h2, _⟩ := unmarshalReader_alloc hm (by simp [Seg.cap])
              rcases h2 he with h2 | ⟨h2, _⟩
              · rw [if_neg (by decide)]; simp only; omega
              · rw [if_neg (by decide)]; simp only; omega
  | packedServer =>
    refine ⟨by simp, fun he => ?_⟩
    simp only [Mode.read, new_eq, Res.ok_bind, serverReadPacked] at h
    cases hr : readPack k cs with
    | panic => rw [hr] at h; cases h
    | hang => rw [hr] at h; cases h
    | ok x =>
      obtain ⟨e, p, rc, a⟩ := x
      rw [hr] at h
      simp only [Res.ok_bind] at h
      cases e with
      | some e => cases h; cases he
      | none =>
        have := hpack p rc a hr
        cases hu : Pack.unpack k pool p with
        | panic => rw [hu] at h; cases h
        | hang => rw [hu] at h; cases h
        | ok x =>
          rw [hu] at h
          simp only [Res.ok_bind] at h
          cases x with
          | none => cases h; cases he
          | some d =>
            simp only at h
            split at h
            · cases h; cases he
            · cases h; rw [if_neg (by decide)]; simp only; omega

/-- A message of 80 bytes: more than the 64 a new struct has room for. -/
example : ∃ out, Mode.plain.read 100 [] 1 [hdr 0 FTStruct 80, zeros 72] = .ok out ∧ out.err = none ∧ out.alloc = 80 ∧ out.rest.flatten = [] :=
  ⟨_, rfl, by decide⟩

/-! ### C42 frames read in the other form -/

/-- The first word of a packed message taken as a header. -/
theorem decodeHeader_length (n : Nat) :
    decodeHeader (putLE 8 n) = some (getLE (putLE 2 n), n / 65536 % 256, getLE (putLE 5 (n / 16777216))) := by
  rw [show putLE 8 n = _ from putLE_add 2 6 n, show putLE 6 (n / 256 ^ 2) = _ from putLE_add 1 5 _]
  obtain ⟨p, q, hpq⟩ : ∃ p q, putLE 2 n = [p, q] := ⟨_, _, rfl⟩
  obtain ⟨a0, a1, a2, a3, a4, ha⟩ : ∃ a b c d e, putLE 5 (n / 256 ^ 2 / 256 ^ 1) = [a, b, c, d, e] := ⟨_, _, _, _, _, rfl⟩
  obtain ⟨t, ht'⟩ : ∃ t, putLE 1 (n / 256 ^ 2) = [t] := ⟨_, rfl⟩
  have hdv : n / 256 ^ 2 / 256 ^ 1 = n / 16777216 := by omega
  have htn : t.toNat = n / 65536 % 256 := by
    have : t = UInt8.ofNat (n / 256 ^ 2) := by simpa [putLE] using ht'.symm
    rw [this]; simp
  rw [hpq, ht', ha]
  simp only [List.cons_append, List.nil_append]
  rw [decodeHeader_raw, htn, ← ha, hdv]

/-- **C42 (bytes, a)** A packed message that is read as a plain one is an error, unless bits 16 to 23 of its length happen to be the number
of the struct type. -/
theorem C42_packed_read_as_plain_fails (md : Mode) (hmd : md ≠ .plain) (k m : Nat) (poolW poolR msg : Bytes) (h : Sendable md k msg)
    (hne : msg.length / 65536 % 256 ≠ FTStruct) :
    ∃ b, md.write poolW msg = .ok (some b) ∧ ∀ cs tail, cs.flatten = b ++ tail →
      ∃ out, Mode.plain.read k poolR m cs = .ok out ∧ out.err = some .badType := by
  obtain ⟨hw, h8, hk⟩ := h
  have hlen := whole_length hw
  obtain ⟨body, hb, h40⟩ := hw
  obtain ⟨out, hp, _, hle, hu⟩ := packed_frame k poolW poolR msg hlen (h8 hmd) h40 hk
  refine ⟨putLE 8 msg.length ++ putLE 8 out.length ++ out, ?_, ?_⟩
  · cases md with
    | plain => exact absurd rfl hmd
    | packedClient => simp only [Mode.write, hp, Res.ok_bind]; rfl
    | packedServer => simp only [Mode.write, hp, Res.ok_bind]; rfl
  · intro cs tail hcs
    obtain ⟨c1, e1, h1⟩ := fill_enough cs HeaderSize [] (by rw [hcs]; simp [HeaderSize])
    have ht : cs.flatten.take HeaderSize = putLE 8 msg.length := by
      rw [hcs, List.append_assoc, List.append_assoc]; exact List.take_left' (by simp [HeaderSize])
    rw [ht, List.nil_append] at e1
    have hdec := decodeHeader_length msg.length
    simp only [Mode.read, new_eq, Res.ok_bind, unmarshalReader, e1, hdec]
    rw [if_pos hne]
    exact ⟨_, rfl, rfl⟩

example (md : Mode) (h : md ≠ .plain) := C42_packed_read_as_plain_fails md h (2 ^ 20) 3 [] [] _ (demo_sendable md 7) (by simp [demoMsg, FTStruct])

/-- **C42 (bytes, c)** A packed message of 896 to 960 KiB that is read as a plain one is taken for an empty message: no error, a struct
without its own header, and the rest of the packed bytes, from the second word of the pack header on, is read as the next message. -/
theorem C42_packed_read_as_empty (md : Mode) (hmd : md ≠ .plain) (k m : Nat) (poolW poolR msg : Bytes) (h : Sendable md k msg)
    (h1 : 14 * 65536 ≤ msg.length) (h2 : msg.length < 15 * 65536) :
    ∃ b, md.write poolW msg = .ok (some b) ∧ ∀ cs tail, cs.flatten = b ++ tail →
      ∃ out, Mode.plain.read k poolR m cs = .ok out ∧ out.err = none ∧ out.st.seg.data = [] ∧ out.rest.flatten = b.drop 8 ++ tail := by
  obtain ⟨hw, h8, hk⟩ := h
  have hlen := whole_length hw
  obtain ⟨body, hb, h40⟩ := hw
  obtain ⟨out, hp, _, hle, hu⟩ := packed_frame k poolW poolR msg hlen (h8 hmd) h40 hk
  refine ⟨putLE 8 msg.length ++ putLE 8 out.length ++ out, ?_, ?_⟩
  · cases md with
    | plain => exact absurd rfl hmd
    | packedClient => simp only [Mode.write, hp, Res.ok_bind]; rfl
    | packedServer => simp only [Mode.write, hp, Res.ok_bind]; rfl
  · intro cs tail hcs
    obtain ⟨c1, e1, h1'⟩ := fill_enough cs HeaderSize [] (by rw [hcs]; simp [HeaderSize])
    have ht : cs.flatten.take HeaderSize = putLE 8 msg.length := by
      rw [hcs, List.append_assoc, List.append_assoc]; exact List.take_left' (by simp [HeaderSize])
    have hd : cs.flatten.drop HeaderSize = putLE 8 out.length ++ out ++ tail := by
      rw [hcs, List.append_assoc, List.append_assoc, List.append_assoc]; exact List.drop_left' (by simp [HeaderSize])
    rw [ht, List.nil_append] at e1
    rw [hd] at h1'
    have hdec := decodeHeader_length msg.length
    rw [show msg.length / 65536 % 256 = FTStruct by simp only [FTStruct]; omega, show msg.length / 16777216 = 0 by omega,
      show getLE (putLE 5 0) = 0 by decide] at hdec
    simp only [Mode.read, new_eq, Res.ok_bind, unmarshalReader, e1, hdec, ne_eq, not_true_eq_false, if_false]
    refine ⟨_, rfl, rfl, ?_, ?_⟩
    · apply List.length_eq_zero_iff.mp
      simp only [Nat.zero_le, decide_true, if_true, List.take_zero]
      simp [goCopy]
    · simp only
      rw [h1', List.append_assoc (putLE 8 msg.length), List.drop_left' (by simp)]

/-- A message of 896 KiB. -/
example (md : Mode) (h : md ≠ .plain) (body : Bytes) (hb : body.length = 14 * 65536 - 8) :=
  C42_packed_read_as_empty md h (2 ^ 30) 3 [] [] (hdr 0 FTStruct (8 + body.length) ++ body)
    ⟨⟨body, rfl, by simp [hb]⟩, fun _ => by simp [hb], by simp [hb]⟩ (by simp [hb]) (by simp [hb])

/-- **C42 (bytes, b)** A plain message that is read as a packed one is not received until there are as many more bytes as its first field's
header says when taken as a number: with fewer, the reader waits, and if the stream ends it reports the end of the stream. For the
messages of the RPC layer, whose first field is the byte `t`, that is 6·2^16 + t·2^24 bytes. -/
theorem C42_plain_read_as_packed_fails (md : Mode) (hmd : md ≠ .plain) (k m fn ft f : Nat) (h1 : fn < 65536) (h2 : ft < 256) (h3 : f < 2 ^ 38)
    (body tail poolR : Bytes) (hk : 16 + (fn + ft * 2 ^ 16 + f * 2 ^ 24) ≤ k) (hshort : body.length + tail.length < fn + ft * 2 ^ 16 + f * 2 ^ 24) :
    ∀ cs, cs.flatten = hdr 0 FTStruct (16 + body.length) ++ (hdr fn ft f ++ body) ++ tail →
      ∃ out, md.read k poolR m cs = .ok out ∧ out.err = some (if body ++ tail = [] then .eof else .unexpectedEof) := by
  intro cs hcs
  obtain ⟨c1, e1, h1'⟩ := fill_enough cs 16 [] (by rw [hcs]; simp; omega)
  have ht : cs.flatten.take 16 = hdr 0 FTStruct (16 + body.length) ++ hdr fn ft f := by
    rw [hcs, List.append_assoc, List.append_assoc, ← List.append_assoc]; exact List.take_left' (by simp)
  have hd : cs.flatten.drop 16 = body ++ tail := by
    rw [hcs, List.append_assoc, List.append_assoc, ← List.append_assoc]; exact List.drop_left' (by simp)
  rw [ht, List.nil_append] at e1
  rw [hd] at h1'
  have hval : hdr fn ft f = putLE 8 (fn + ft * 2 ^ 16 + f * 2 ^ 24) := by
    rw [show putLE 8 (fn + ft * 2 ^ 16 + f * 2 ^ 24) = _ from putLE_add 2 6 _, show putLE 6 ((fn + ft * 2 ^ 16 + f * 2 ^ 24) / 256 ^ 2) = _ from putLE_add 1 5 _,
      show (fn + ft * 2 ^ 16 + f * 2 ^ 24) / 256 ^ 2 / 256 ^ 1 = f by omega]
    simp only [hdr, ← List.append_assoc]
    congr 2
    · rw [← putLE_mod 2 (fn + _ + _)]
      rw [show (fn + ft * 2 ^ 16 + f * 2 ^ 24) % 256 ^ 2 = fn by omega]
    · rw [← putLE_mod 1 ((fn + _ + _) / _)]
      rw [show (fn + ft * 2 ^ 16 + f * 2 ^ 24) / 256 ^ 2 % 256 ^ 1 = ft by omega]
  have g2 : getLE (((hdr 0 FTStruct (16 + body.length) ++ hdr fn ft f).drop 8).take 8) = fn + ft * 2 ^ 16 + f * 2 ^ 24 := by
    rw [List.drop_left' (by simp), List.take_of_length_le (by simp), hval, getLE_putLE_of_lt (by omega)]
  have hadd : Pack.addInt 16 (Pack.toInt (fn + ft * 2 ^ 16 + f * 2 ^ 24)) = ((16 + (fn + ft * 2 ^ 16 + f * 2 ^ 24) : Nat) : Int) := by
    rw [toInt_small (by omega)]; simp only [Pack.addInt]; omega
  have hn : ((16 + (fn + ft * 2 ^ 16 + f * 2 ^ 24) : Nat) : Int).toNat - 16 = fn + ft * 2 ^ 16 + f * 2 ^ 24 := by omega
  have e2 := fill_short c1 (fn + ft * 2 ^ 16 + f * 2 ^ 24) [] (by rw [h1', List.length_append]; omega)
  have hrp : readPack k cs = .ok (some (if body ++ tail = [] then .eof else .unexpectedEof),
      (hdr 0 FTStruct (16 + body.length) ++ hdr fn ft f) ++ (body ++ tail), [], 16 + (fn + ft * 2 ^ 16 + f * 2 ^ 24)) := by
    simp only [readPack, e1, g2, hadd]
    rw [if_neg (by omega), if_neg (by omega)]
    simp only [hn, e2, List.nil_append, h1']
    rw [show ((16 + (fn + ft * 2 ^ 16 + f * 2 ^ 24) : Nat) : Int).toNat = 16 + (fn + ft * 2 ^ 16 + f * 2 ^ 24) by omega]
  cases md with
  | plain => exact absurd rfl hmd
  | packedClient => exact ⟨_, by simp only [Mode.read, new_eq, Res.ok_bind, clientReadPacked, hrp]; rfl, rfl⟩
  | packedServer => exact ⟨_, by simp only [Mode.read, new_eq, Res.ok_bind, serverReadPacked, hrp]; rfl, rfl⟩

/-- Two RPC messages written plain, read packed: not received. -/
example (md : Mode) (h : md ≠ .plain) (cs : List Bytes) (hcs : cs.flatten = demoMsg 1 ++ demoMsg 2) :
    ∃ out, md.read (2 ^ 30) [] 3 cs = .ok out ∧ out.err = some .unexpectedEof :=
  C42_plain_read_as_packed_fails md h (2 ^ 30) 3 0 FTUint8 1 (by decide) (by decide) (by decide) [] (demoMsg 2) [] (by decide) (by simp [demoMsg, FTUint8]) cs
    (by rw [hcs]; simp [demoMsg])

end Claw.Frame
