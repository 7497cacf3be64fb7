import Verif.Lemmas.RpcReflect

/-!
# C102 Who may ask the reflection service
-/

namespace Claw.RpcReflect

open Claw Idl Spec.Range

/-! ## Specification -/

/-- The value of the header is that of the first metadata entry with its name in any case, and
empty if there is none. -/
def HeaderIs (low : Str → Str) (md : List (Str × Bytes)) (name : Str) (value : Bytes) : Prop :=
  (∃ pre key post, md = pre ++ (key, value) :: post ∧ low key = low name ∧
    ∀ e ∈ pre, low e.1 ≠ low name) ∨
  (value = [] ∧ ∀ e ∈ md, low e.1 ≠ low name)

/-- One of the configured ranges has the address, or none is configured. -/
def Covered (p6 : Str → Option (Bytes × Str)) (c : Config) (ip : Bytes) : Prop :=
  c.allowed = [] ∨ ∃ s ∈ c.allowed, ∃ a n, cidrParts p6 s = some (a, n) ∧ InRange a n ip

/-- The name of the header. -/
def headerName (c : Config) : Str := if c.header = [] then lit "authorization" else c.header

/-- The validator accepts the token, or none is configured. -/
def TokenOk (low : Str → Str) (c : Config) (md : List (Str × Bytes)) : Prop :=
  ∀ f, c.validator = some f → ∀ t, HeaderIs low md (headerName c) t → f t = true

/-- What is asked of the reader of IPv6 texts. -/
def Reads6 (p6 : Str → Option (Bytes × Str)) : Prop := ∀ s b z, p6 s = some (b, z) → b.length = 16

/-! ## Helpers -/

theorem parse4_length {s : Str} {b : Bytes} (h : parse4 s = some b) : b.length = 4 := by
  unfold parse4 at h
  split at h
  · rename_i w x y z _
    cases hw : octet w <;> cases hx : octet x <;> cases hy : octet y <;> cases hz : octet z <;>
      simp [hw, hx, hy, hz] at h
    rw [← h]; rfl
  · cases h

theorem parseAddr_isAddr {p6 : Str → Option (Bytes × Str)} (h6 : Reads6 p6) {s : Str} {b : Bytes}
    {z : Str} (h : parseAddr p6 s = some (b, z)) : IsAddr b := by
  unfold parseAddr at h
  split at h
  · cases hp : parse4 s with
    | none => simp [hp] at h
    | some x =>
      simp only [hp, Option.map_some, Option.some.injEq, Prod.mk.injEq] at h
      rw [← h.1]; exact Or.inl (parse4_length hp)
  · exact Or.inr (h6 _ _ _ h)
  · cases h

theorem cidrParts_ok {p6 : Str → Option (Bytes × Str)} (h6 : Reads6 p6) {s : Str} {a : Bytes}
    {n : Nat} (h : cidrParts p6 s = some (a, n)) : IsAddr a ∧ n ≤ 8 * a.length := by
  unfold cidrParts at h
  cases hc : cutSlash s with
  | none => simp [hc] at h
  | some p =>
    obtain ⟨addr, mask⟩ := p
    simp only [hc, Option.bind_eq_bind, Option.bind_some] at h
    cases hp : parseAddr p6 addr with
    | none => simp [hp] at h
    | some q =>
      obtain ⟨b, z⟩ := q
      simp only [hp, Option.bind_some] at h
      cases z with
      | cons => cases h
      | nil =>
        simp only at h
        cases hd : dtoi mask with
        | none => simp [hd] at h
        | some k =>
          simp only [hd, Option.bind_some] at h
          split at h
          · simp only [Option.some.injEq, Prod.mk.injEq] at h
            obtain ⟨rfl, rfl⟩ := h
            exact ⟨parseAddr_isAddr h6 hp, by assumption⟩
          · cases h

theorem mapM_some_iff {α β : Type} (f : α → Option β) (l : List α) (r : List β) :
    l.mapM f = some r ↔ l.map f = r.map some := by
  induction l generalizing r with
  | nil =>
    simp only [List.mapM_nil, List.map_nil]
    constructor
    · intro h; cases h; rfl
    · intro h
      cases r with
      | nil => rfl
      | cons => cases h
  | cons x l ih =>
    rw [List.mapM_cons]
    cases hx : f x with
    | none =>
      simp only [Option.bind_eq_bind, Option.bind_none, List.map_cons, hx]
      constructor
      · intro h; cases h
      · intro h
        cases r with
        | nil => cases h
        | cons y r => simp at h
    | some y =>
      simp only [Option.bind_eq_bind, Option.bind_some, List.map_cons, hx]
      cases hl : l.mapM f with
      | none =>
        constructor
        · intro h; simp at h
        · intro h
          cases r with
          | nil => cases h
          | cons z r =>
            simp only [List.map_cons, List.cons.injEq] at h
            rw [(ih r).2 h.2] at hl
            cases hl
      | some ys =>
        simp only [Option.bind_some]
        have h1 := (ih ys).1 hl
        constructor
        · intro h
          have : y :: ys = r := Option.some.inj h
          rw [← this, h1]; rfl
        · intro h
          cases r with
          | nil => cases h
          | cons z r =>
            simp only [List.map_cons, List.cons.injEq, Option.some.injEq] at h
            have h2 := (ih r).2 h.2
            rw [hl] at h2
            rw [h.1, Option.some.inj h2]; rfl

theorem findMetadata_is (low : Str → Str) (md : List (Str × Bytes)) (name : Str) (t : Bytes) :
    HeaderIs low md name t ↔ findMetadata low md name = t := by
  unfold findMetadata HeaderIs
  induction md with
  | nil =>
    simp only [List.find?_nil]
    constructor
    · rintro (⟨pre, key, post, h, _⟩ | ⟨h, _⟩)
      · simp at h
      · exact h.symm
    · intro h; exact Or.inr ⟨h.symm, by simp⟩
  | cons e md ih =>
    by_cases h : low e.1 = low name
    · simp only [List.find?_cons, h, beq_self_eq_true]
      constructor
      · rintro (⟨pre, key, post, h1, h2, h3⟩ | ⟨_, h3⟩)
        · cases pre with
          | nil => simp at h1; rw [h1.1]
          | cons x pre =>
            simp only [List.cons_append, List.cons.injEq] at h1
            exact absurd (h1.1 ▸ h) (h3 x (by simp))
        · exact absurd h (h3 e (by simp))
      · intro h1
        exact Or.inl ⟨[], e.1, md, by rw [← h1]; rfl, h, by simp⟩
    · have hb : (low e.1 == low name) = false := by simpa using h
      simp only [List.find?_cons, hb]
      rw [← ih]
      constructor
      · rintro (⟨pre, key, post, h1, h2, h3⟩ | ⟨h1, h3⟩)
        · cases pre with
          | nil =>
            simp only [List.nil_append, List.cons.injEq] at h1
            rw [h1.1] at h
            exact absurd h2 h
          | cons x pre =>
            simp only [List.cons_append, List.cons.injEq] at h1
            exact Or.inl ⟨pre, key, post, h1.2, h2, fun e he => h3 e (by simp [he])⟩
        · exact Or.inr ⟨h1, fun e he => h3 e (by simp [he])⟩
      · rintro (⟨pre, key, post, h1, h2, h3⟩ | ⟨h1, h3⟩)
        · refine Or.inl ⟨e :: pre, key, post, by rw [h1]; rfl, h2, ?_⟩
          intro x hx
          rcases List.mem_cons.1 hx with rfl | hx
          · exact h
          · exact h3 x hx
        · refine Or.inr ⟨h1, ?_⟩
          intro x hx
          rcases List.mem_cons.1 hx with rfl | hx
          · exact h
          · exact h3 x hx

theorem validate_some {p6 : Str → Option (Bytes × Str)} {c : Config} {v : Valid}
    (hv : c.validate p6 = some v) :
    c.allowed.map (parseCIDR p6) = v.nets.map some ∧ v.header = headerName c ∧
      v.validator = c.validator := by
  unfold Config.validate at hv
  cases hm : c.allowed.mapM (parseCIDR p6) with
  | none => simp [hm] at hv
  | some nets =>
    simp only [hm, Option.bind_eq_bind, Option.bind_some] at hv
    have hv := Option.some.inj hv
    rw [← hv]
    exact ⟨(mapM_some_iff _ _ _).1 hm, rfl, rfl⟩

theorem allowed_iff {p6 : Str → Option (Bytes × Str)} (h6 : Reads6 p6) {c : Config} {v : Valid}
    (hv : c.validate p6 = some v) {ip : Bytes} (hip : IsAddr ip) :
    v.isIPAllowed ip = true ↔ Covered p6 c ip := by
  obtain ⟨hn, _, _⟩ := validate_some hv
  unfold Valid.isIPAllowed Covered
  cases ha : c.allowed with
  | nil =>
    rw [ha] at hn
    cases hvn : v.nets with
    | nil => simp
    | cons => rw [hvn] at hn; cases hn
  | cons s0 ss =>
    have hne : v.nets.isEmpty = false := by
      rw [ha] at hn
      cases hvn : v.nets with
      | nil => rw [hvn] at hn; cases hn
      | cons => rfl
    rw [← ha, hne]
    simp only [Bool.false_eq_true, if_false, List.any_eq_true]
    have hmem : ∀ n, n ∈ v.nets ↔ ∃ s ∈ c.allowed, parseCIDR p6 s = some n := by
      intro n
      have : some n ∈ c.allowed.map (parseCIDR p6) ↔ n ∈ v.nets := by rw [hn]; simp
      rw [← this, List.mem_map]
    constructor
    · rintro ⟨n, hn, hc⟩
      obtain ⟨s, hs, hp⟩ := (hmem n).1 hn
      unfold parseCIDR at hp
      cases hq : cidrParts p6 s with
      | none => simp [hq] at hp
      | some q =>
        obtain ⟨a, k⟩ := q
        simp only [hq, Option.map_some, Option.some.injEq] at hp
        obtain ⟨h1, h2⟩ := cidrParts_ok h6 hq
        exact Or.inr ⟨s, hs, a, k, hq, (contains_iff h1 h2 hip).1 (hp ▸ hc)⟩
    · rintro (h | ⟨s, hs, a, k, hq, hr⟩)
      · rw [ha] at h; cases h
      · obtain ⟨h1, h2⟩ := cidrParts_ok h6 hq
        exact ⟨_, (hmem _).2 ⟨s, hs, by unfold parseCIDR; rw [hq]; rfl⟩, (contains_iff h1 h2 hip).2 hr⟩

/-! ## Properties -/

/-- C102, configuration: it is accepted exactly when every range can be read. -/
theorem C102_config (p6 : Str → Option (Bytes × Str)) (c : Config) :
    (∃ v, c.validate p6 = some v) ↔ ∀ s ∈ c.allowed, ∃ a n, cidrParts p6 s = some (a, n) := by
  constructor
  · rintro ⟨v, hv⟩ s hs
    obtain ⟨hn, _, _⟩ := validate_some hv
    have : parseCIDR p6 s ∈ v.nets.map some := by rw [← hn]; exact List.mem_map_of_mem hs
    obtain ⟨n, _, hn⟩ := List.mem_map.1 this
    unfold parseCIDR at hn
    cases hq : cidrParts p6 s with
    | none => simp [hq] at hn
    | some q => exact ⟨q.1, q.2, rfl⟩
  · intro h
    have : ∃ nets, c.allowed.mapM (parseCIDR p6) = some nets := by
      generalize c.allowed = l at h
      induction l with
      | nil => exact ⟨[], rfl⟩
      | cons s l ih =>
        obtain ⟨nets, hn⟩ := ih fun x hx => h x (by simp [hx])
        obtain ⟨a, n, hq⟩ := h s (by simp)
        refine ⟨⟨andBytes a (cidrMask n a.length), cidrMask n a.length⟩ :: nets, ?_⟩
        rw [mapM_some_iff] at hn ⊢
        simp only [List.map_cons, hn, parseCIDR, hq, Option.map_some]
    obtain ⟨nets, hn⟩ := this
    unfold Config.validate
    rw [hn]
    exact ⟨_, rfl⟩

theorem access_known {p6 : Str → Option (Bytes × Str)} (h6 : Reads6 p6) {low : Str → Str}
    {c : Config} {v : Valid} (hv : c.validate p6 = some v) {remote : Addr} {ip : Bytes}
    (he : extractIP p6 remote = some ip) (hip : IsAddr ip) (md : List (Str × Bytes)) :
    (checkAccess p6 low v (some remote) md = .granted ↔ Covered p6 c ip ∧ TokenOk low c md) ∧
    (checkAccess p6 low v (some remote) md = .ipNotAllowed ↔ ¬ Covered p6 c ip) := by
  obtain ⟨_, hh, hval⟩ := validate_some hv
  have hc := allowed_iff h6 hv hip
  unfold checkAccess refusedIP
  simp only [he]
  have htok : TokenOk low c md ↔
      ∀ f, v.validator = some f → f (findMetadata low md v.header) = true := by
    unfold TokenOk
    rw [hval, hh]
    constructor
    · intro h f hf
      exact h f hf _ ((findMetadata_is low md _ _).2 rfl)
    · intro h f hf t ht
      rw [← (findMetadata_is low md _ _).1 ht]
      exact h f hf
  rw [htok, ← hc]
  cases hb : v.isIPAllowed ip with
  | false => simp
  | true =>
    cases hf : v.validator with
    | none => simp
    | some f => cases ht : f (findMetadata low md v.header) <;> simp [ht]

/-- C102 over TCP: a call is let in exactly when the peer's address is in a configured range (or
none is configured) and the token is accepted (or no validator is configured); an address
outside every range is refused as such.

Partial: the address the service checks must be the peer's own, as it is on a TCP connection. -/
theorem C102_tcp_partial {p6 : Str → Option (Bytes × Str)} (h6 : Reads6 p6) {low : Str → Str}
    {c : Config} {v : Valid} (hv : c.validate p6 = some v) {ip : Bytes} (hip : IsAddr ip)
    (md : List (Str × Bytes)) :
    (checkAccess p6 low v (some (.ip (some ip))) md = .granted ↔
      Covered p6 c ip ∧ TokenOk low c md) ∧
    (checkAccess p6 low v (some (.ip (some ip))) md = .ipNotAllowed ↔ ¬ Covered p6 c ip) :=
  access_known h6 hv rfl hip md

/-- C102, the token: whatever the address, a call whose token the validator refuses is refused. -/
theorem C102_token (p6 : Str → Option (Bytes × Str)) (low : Str → Str) {c : Config} {v : Valid}
    (hv : c.validate p6 = some v) (remote : Option Addr) (md : List (Str × Bytes))
    (ht : ¬ TokenOk low c md) : checkAccess p6 low v remote md ≠ .granted := by
  obtain ⟨_, hh, hval⟩ := validate_some hv
  intro hg
  apply ht
  intro f hf t htk
  rw [← (findMetadata_is low md _ _).1 htk]
  unfold checkAccess at hg
  rw [hval, hf, hh] at hg
  cases hq : refusedIP p6 v remote with
  | true => simp [hq] at hg
  | false =>
    cases hx : f (findMetadata low md (headerName c)) with
    | true => rfl
    | false => simp [hq, hx] at hg

theorem lastIndex_none {c : UInt8} {s : Str} (h : c ∉ s) : lastIndex c s = none := by
  induction s with
  | nil => rfl
  | cons x s ih =>
    simp only [List.mem_cons, not_or] at h
    rw [lastIndex, ih h.2]
    simp only
    rw [if_neg fun e => h.1 e.symm]

theorem lastIndex_append {c : UInt8} (a : Str) {b : Str} (h : c ∉ b) :
    lastIndex c (a ++ c :: b) = some a.length := by
  induction a with
  | nil => simp [lastIndex, lastIndex_none h]
  | cons x a ih => rw [List.cons_append, lastIndex, ih]; rfl

/-- A host text as an address without a port reads: no colon, or at least two. -/
theorem splitHost_bare {s : Str} (h : 58 ∉ s ∨ ∃ a b, 58 ∈ a ∧ 58 ∉ b ∧ s = a ++ 58 :: b)
    (hb : s.head? ≠ some 91) : splitHost s = none := by
  unfold splitHost
  rcases h with h | ⟨a, b, ha, hnb, rfl⟩
  · rw [lastIndex_none h]
  · rw [lastIndex_append a hnb]
    simp only
    rw [if_neg hb, if_pos (by simpa using ha)]

theorem splitHost_port {h p : Str} (hh : 58 ∉ h) (h1 : 91 ∉ h) (h2 : 93 ∉ h) (hp : 58 ∉ p)
    (p1 : 91 ∉ p) (p2 : 93 ∉ p) : splitHost (h ++ 58 :: p) = some h := by
  unfold splitHost
  rw [lastIndex_append h hp]
  simp only
  have hhead : (h ++ 58 :: p).head? ≠ some 91 := by
    cases h with
    | nil => simp
    | cons x h => simp at h1 ⊢; exact fun e => h1.1 e.symm
  rw [if_neg hhead, if_neg (by simpa using hh), if_neg (by simp [h1, p1]), if_neg (by simp [h2, p2])]
  simp

theorem findIdx_append {h : Str} (h2 : 93 ∉ h) (p : Str) :
    (h ++ 93 :: p).findIdx? (· == 93) = some h.length := by
  induction h with
  | nil => simp [List.findIdx?_cons]
  | cons x h ih =>
    simp only [List.mem_cons, not_or] at h2
    have hx : (x == 93) = false := by
      simp only [beq_eq_false_iff_ne, ne_eq]; exact fun e => h2.1 e.symm
    rw [List.cons_append, List.findIdx?_cons, hx, ih h2.2]
    simp

theorem splitHost_bracket {h p : Str} (h1 : 91 ∉ h) (h2 : 93 ∉ h) (hp : 58 ∉ p)
    (p1 : 91 ∉ p) (p2 : 93 ∉ p) : splitHost (91 :: h ++ 93 :: 58 :: p) = some h := by
  unfold splitHost
  have e : 91 :: h ++ 93 :: 58 :: p = (91 :: h ++ [93]) ++ 58 :: p := by simp
  have hl : lastIndex 58 (91 :: h ++ 93 :: 58 :: p) = some (h.length + 2) := by
    rw [e, lastIndex_append _ hp]; simp
  have hf : (91 :: h ++ 93 :: 58 :: p).findIdx? (· == 93) = some (h.length + 1) := by
    have := findIdx_append (h := 91 :: h) (by simp [h2]) (58 :: p)
    simpa using this
  rw [hl]
  simp only [hf]
  rw [if_pos (by simp), if_neg (by simp), if_neg (by omega), if_neg, if_neg]
  · simp
  · have : (91 :: h ++ 93 :: 58 :: p).drop (h.length + 1 + 1) = 58 :: p := by
      rw [e, show h.length + 1 + 1 = (91 :: h ++ [93]).length by simp, List.drop_left]
    rw [this]; simp [p2]
  · simp [h1, p1]

/-- A peer address as the HTTP server gives it: host and port, an IPv6 host in brackets. -/
inductive Peer : Str → Str → Prop
  | v4 {h p : Str} : 58 ∉ h → 91 ∉ h → 93 ∉ h → 58 ∉ p → 91 ∉ p → 93 ∉ p → Peer (h ++ 58 :: p) h
  | v6 {a b p : Str} : 58 ∈ a → 58 ∉ b → 91 ∉ a → 93 ∉ a → 91 ∉ b → 93 ∉ b → 58 ∉ p → 91 ∉ p →
      93 ∉ p → Peer (91 :: (a ++ 58 :: b) ++ 93 :: 58 :: p) (a ++ 58 :: b)

theorem peer_remote {peer host : Str} (hp : Peer peer host) :
    httpRemote [] peer = .other host ∧ splitHost host = none := by
  cases hp with
  | v4 a b c d e f =>
    unfold httpRemote
    rw [splitHost_port a b c d e f]
    refine ⟨rfl, splitHost_bare (Or.inl a) ?_⟩
    intro hh
    exact b (List.mem_of_mem_head? hh)
  | @v6 a b p ha hb a1 a2 b1 b2 hp p1 p2 =>
    unfold httpRemote
    rw [splitHost_bracket (h := a ++ 58 :: b) (by simp [a1, b1]) (by simp [a2, b2]) hp p1 p2]
    refine ⟨rfl, splitHost_bare (Or.inr ⟨a, b, ha, hb, rfl⟩) ?_⟩
    intro hh
    have := List.mem_of_mem_head? hh
    simp [a1, b1] at this

/-- C102 over HTTP without a forwarding header: the decision is about the peer's address.

Partial: the request has no `X-Forwarded-For` header, and the peer's address has no zone. -/
theorem C102_http_partial {p6 : Str → Option (Bytes × Str)} (h6 : Reads6 p6) {low : Str → Str}
    {c : Config} {v : Valid} (hv : c.validate p6 = some v) {peer host : Str} {ip : Bytes}
    (hp : Peer peer host) (hr : parseIP p6 host = some ip) (md : List (Str × Bytes)) :
    (checkAccess p6 low v (some (httpRemote [] peer)) md = .granted ↔
      Covered p6 c ip ∧ TokenOk low c md) ∧
    (checkAccess p6 low v (some (httpRemote [] peer)) md = .ipNotAllowed ↔ ¬ Covered p6 c ip) := by
  obtain ⟨h1, h2⟩ := peer_remote hp
  rw [h1]
  refine access_known h6 hv (by unfold extractIP; simp only [h2]; exact hr) ?_ md
  unfold parseIP at hr
  split at hr
  · rename_i b hb
    have := parseAddr_isAddr h6 hb
    cases hr
    rw [as16_eq]
    exact Or.inr (wide_length this)
  · cases hr

/-- C102 fails over HTTP: the address checked is the one the caller writes in
`X-Forwarded-For`, whoever the peer is.  Any address of an allowed range will do. -/
theorem C102_forwarded {p6 : Str → Option (Bytes × Str)} (h6 : Reads6 p6) {low : Str → Str}
    {c : Config} {v : Valid} (hv : c.validate p6 = some v) {text : Str} {ip : Bytes}
    (hb : splitHost text = none) (hr : parseIP p6 text = some ip) (hc : Covered p6 c ip)
    (md : List (Str × Bytes)) (ht : TokenOk low c md) (peer : Str) :
    checkAccess p6 low v (some (httpRemote text peer)) md = .granted := by
  have hne : text ≠ [] := by
    rintro rfl
    simp [parseIP, parseAddr] at hr
  have e : httpRemote text peer = .other text := by simp [httpRemote, hne]
  rw [e]
  refine ((access_known h6 hv (by unfold extractIP; simp only [hb]; exact hr) ?_ md).1).2 ⟨hc, ht⟩
  unfold parseIP at hr
  split at hr
  · rename_i b hb
    have := parseAddr_isAddr h6 hb
    cases hr
    rw [as16_eq]
    exact Or.inr (wide_length this)
  · cases hr

/-- C102 fails when no address can be read: the ranges are then not looked at. -/
theorem C102_unread (p6 : Str → Option (Bytes × Str)) (low : Str → Str) {c : Config} {v : Valid}
    (hv : c.validate p6 = some v) (remote : Option Addr)
    (hr : ∀ a, remote = some a → extractIP p6 a = none) (md : List (Str × Bytes)) :
    checkAccess p6 low v remote md = .granted ↔ TokenOk low c md := by
  obtain ⟨_, hh, hval⟩ := validate_some hv
  have htok : TokenOk low c md ↔
      ∀ f, v.validator = some f → f (findMetadata low md v.header) = true := by
    unfold TokenOk
    rw [hval, hh]
    constructor
    · intro h f hf
      exact h f hf _ ((findMetadata_is low md _ _).2 rfl)
    · intro h f hf t ht
      rw [← (findMetadata_is low md _ _).1 ht]
      exact h f hf
  rw [htok]
  unfold checkAccess
  have hfalse : refusedIP p6 v remote = false := by
    unfold refusedIP
    cases remote with
    | none => rfl
    | some a => simp only [hr a rfl]
  simp only [hfalse]
  cases hf : v.validator with
  | none => simp
  | some f => cases ht : f (findMetadata low md v.header) <;> simp [ht]

/-- C102 fails for a link-local peer over HTTP, whose address has a zone: no range is applied. -/
theorem C102_zone (p6 : Str → Option (Bytes × Str)) (low : Str → Str) {c : Config} {v : Valid}
    (hv : c.validate p6 = some v) {peer host : Str} {b : Bytes} {z : Str} (hp : Peer peer host)
    (hr : parseAddr p6 host = some (b, z)) (hz : z ≠ []) (md : List (Str × Bytes)) :
    checkAccess p6 low v (some (httpRemote [] peer)) md = .granted ↔ TokenOk low c md := by
  obtain ⟨h1, h2⟩ := peer_remote hp
  refine C102_unread p6 low hv _ ?_ md
  intro a ha
  rw [← Option.some.inj ha, h1]
  unfold extractIP
  simp only [h2]
  unfold parseIP
  rw [hr]
  cases z with
  | nil => exact absurd rfl hz
  | cons => rfl

/-! ## The hypotheses are met -/

section demo

private def none6 : Str → Option (Bytes × Str) := fun _ => none

private def cfg : Config := ⟨[lit "10.0.0.0/8", lit "192.168.1.0/25"], [], some fun t => t == lit "s3cret"⟩

private def tok : List (Str × Bytes) := [(lit "trace", lit "1"), (lit "Authorization", lit "s3cret")]

/-- What the configuration becomes. -/
private def val : Valid :=
  ⟨[⟨[10, 0, 0, 0], [255, 0, 0, 0]⟩, ⟨[192, 168, 1, 0], [255, 255, 255, 128]⟩],
    lit "authorization", some fun t => t == lit "s3cret"⟩

private theorem cfg_ok : cfg.validate none6 = some val := by
  have : [lit "10.0.0.0/8", lit "192.168.1.0/25"].mapM (parseCIDR none6) =
      some [⟨[10, 0, 0, 0], [255, 0, 0, 0]⟩, ⟨[192, 168, 1, 0], [255, 255, 255, 128]⟩] := by
    decide +kernel
  unfold Config.validate cfg
  rw [this]; rfl

/-- In range and with the token; outside; just outside; without the token. -/
example : checkAccess none6 Str.lower val (some (.ip (some [10, 7, 7, 7]))) tok = .granted ∧
    checkAccess none6 Str.lower val (some (.ip (some [192, 168, 1, 127]))) tok = .granted ∧
    checkAccess none6 Str.lower val (some (.ip (some [192, 168, 1, 128]))) tok = .ipNotAllowed ∧
    checkAccess none6 Str.lower val (some (.ip (some [10, 7, 7, 7]))) [] = .invalidToken ∧
    Reads6 none6 := by
  refine ⟨by decide +kernel, by decide +kernel, by decide +kernel, by decide +kernel, ?_⟩
  intro s b z h; cases h

/-- The same peer is refused, and let in with a forwarding header of its own making, with one
that is no address, and over a path with no address. -/
example : checkAccess none6 Str.lower val (some (httpRemote [] (lit "203.0.113.9:5000"))) tok =
      .ipNotAllowed ∧
    checkAccess none6 Str.lower val
      (some (httpRemote (lit "10.0.0.1") (lit "203.0.113.9:5000"))) tok = .granted ∧
    checkAccess none6 Str.lower val
      (some (httpRemote (lit "10.0.0.1, 8.8.8.8") (lit "203.0.113.9:5000"))) tok = .granted ∧
    checkAccess none6 Str.lower val
      (some (httpRemote (lit "unknown") (lit "203.0.113.9:5000"))) tok = .granted ∧
    checkAccess none6 Str.lower val (some (.other (lit "@"))) tok = .granted ∧
    splitHost (lit "10.0.0.1") = none ∧ parseIP none6 (lit "10.0.0.1") =
      some [0, 0, 0, 0, 0, 0, 0, 0, 0, 0, 255, 255, 10, 0, 0, 1] := by
  decide +kernel

/-- An ordinary peer address, and one with a zone. -/
example : Peer (lit "203.0.113.9:5000") (lit "203.0.113.9") ∧
    Peer (lit "[fe80::1%eth0]:443") (lit "fe80::1%eth0") := by
  constructor
  · exact Peer.v4 (h := lit "203.0.113.9") (p := lit "5000") (by decide +kernel) (by decide +kernel)
      (by decide +kernel) (by decide +kernel) (by decide +kernel) (by decide +kernel)
  · exact Peer.v6 (a := lit "fe80:") (b := lit "1%eth0") (p := lit "443") (by decide +kernel)
      (by decide +kernel) (by decide +kernel) (by decide +kernel) (by decide +kernel)
      (by decide +kernel) (by decide +kernel) (by decide +kernel) (by decide +kernel)

end demo

end Claw.RpcReflect
