import Verif.Props.Resolver
import Verif.Model.Resolve
import Verif.Props.Balancer
import Verif.Lemmas.GoStr

/-!
# C116 the addresses of a DNS target, C117 dialling a target
-/

namespace Claw.Resolve

open Claw Claw.Resolver

/-! ### Hosts and ports -/

/-- The string contains none of the bytes that hold a host and a port together. -/
def Plain (s : Str) : Prop := colon ∉ s ∧ lb ∉ s ∧ rb ∉ s

/-- The endpoint names a host and a port: `host:port`, or `[host]:port` where the host may have colons. -/
inductive Names : Str → Str → Str → Prop
  | plain {h p} : Plain h → Plain p → Names (h ++ colon :: p) h p
  | bracketed {h p} : lb ∉ h → rb ∉ h → Plain p → Names (lb :: h ++ rb :: colon :: p) h p

theorem lastIdx_none {c : UInt8} {s : Str} : lastIdx c s = none ↔ c ∉ s := by
  induction s with
  | nil => simp [lastIdx]
  | cons x s ih =>
    simp only [lastIdx]
    cases h : lastIdx c s with
    | none =>
      have := ih.1 h
      by_cases e : x = c
      · simp [e]
      · simp [e, this, Ne.symm e]
    | some i =>
      have : c ∈ s := by
        refine Classical.byContradiction fun hn => ?_
        rw [ih.2 hn] at h; cases h
      simp [this]

theorem lastIdx_append {c : UInt8} (a b : Str) (h : c ∉ b) : lastIdx c (a ++ c :: b) = some a.length := by
  induction a with
  | nil => simp [lastIdx, lastIdx_none.2 h]
  | cons x a ih => simp [lastIdx, ih]

theorem lastIdx_some {c : UInt8} {s : Str} {i : Nat} (h : lastIdx c s = some i) :
    ∃ a b, s = a ++ c :: b ∧ c ∉ b ∧ a.length = i := by
  induction s generalizing i with
  | nil => simp [lastIdx] at h
  | cons x s ih =>
    simp only [lastIdx] at h
    cases h' : lastIdx c s with
    | none =>
      rw [h'] at h
      by_cases e : x = c
      · simp [e] at h
        exact ⟨[], s, by simp [e], lastIdx_none.1 h', by simp [h]⟩
      · simp [e] at h
    | some j =>
      rw [h'] at h
      obtain ⟨a, b, h1, h2, h3⟩ := ih h'
      simp at h
      exact ⟨x :: a, b, by simp [h1], h2, by simp [h3, h]⟩

theorem idx_append {c : UInt8} (a b : Str) (h : c ∉ a) : idx c (a ++ c :: b) = some a.length := by
  induction a with
  | nil => simp [idx]
  | cons x a ih =>
    have h1 : x ≠ c := fun e => h (by simp [e])
    simp [idx, h1, ih fun hm => h (List.mem_cons_of_mem _ hm)]

theorem idx_some {c : UInt8} {s : Str} {i : Nat} (h : idx c s = some i) :
    ∃ a b, s = a ++ c :: b ∧ c ∉ a ∧ a.length = i := by
  induction s generalizing i with
  | nil => simp [idx] at h
  | cons x s ih =>
    simp only [idx] at h
    by_cases e : x = c
    · simp [e] at h
      exact ⟨[], s, by simp [e], by simp, by simp [h]⟩
    · simp only [e, if_false, Option.map_eq_some_iff] at h
      obtain ⟨j, hj, rfl⟩ := h
      obtain ⟨a, b, h1, h2, h3⟩ := ih hj
      exact ⟨x :: a, b, by simp [h1], by simp [h2, Ne.symm e], by simp [h3]⟩

theorem split_names {s h p : Str} (hs : Names s h p) : splitHostPort s = some (h, p) := by
  cases hs with
  | plain hh hp =>
    have hd : (h ++ colon :: p).head? ≠ some lb := by
      cases h with
      | nil => simp +decide
      | cons x h =>
        intro e
        simp at e
        exact hh.2.1 (by simp [e])
    simp only [splitHostPort, lastIdx_append _ _ hp.1]
    rw [if_neg hd]
    simp +decide [hh.1, hh.2.1, hh.2.2, hp.2.1, hp.2.2]
  | bracketed h1 h2 hp =>
    have e1 : lb :: h ++ rb :: colon :: p = (lb :: h ++ [rb]) ++ colon :: p := by simp
    have e2 : idx rb (lb :: h ++ rb :: colon :: p) = some (lb :: h).length :=
      idx_append _ _ (by simp +decide [h2])
    simp only [splitHostPort]
    rw [e2, e1, lastIdx_append _ _ hp.1]
    simp only [List.length_append, List.length_cons, List.length_nil]
    have e3 : ((lb :: h ++ [rb]) ++ colon :: p).head? = some lb := by simp
    have e4 : ((lb :: h ++ [rb]) ++ colon :: p).drop 1 = h ++ rb :: colon :: p := by simp
    have e5 : ((lb :: h ++ [rb]) ++ colon :: p).drop (h.length + 1 + 1) = colon :: p := by
      rw [List.drop_append_of_le_length (by simp)]; simp
    have e6 : ((lb :: h ++ [rb]) ++ colon :: p).drop (h.length + 1 + 1 + 1) = p := by
      rw [show h.length + 1 + 1 + 1 = 1 + (h.length + 1 + 1) by omega, Nat.add_comm,
        ← List.drop_drop, e5]; rfl
    have e7 : (((lb :: h ++ [rb]) ++ colon :: p).take (h.length + 1)).drop 1 = h := by
      rw [show (lb :: h ++ [rb]) ++ colon :: p = (lb :: h) ++ (rb :: colon :: p) by simp,
        List.take_append_of_le_length (by simp)]; simp
    simp only [Nat.zero_add] at *
    rw [if_pos e3, if_pos trivial, e4, e5, e6, e7, if_neg]
    simp +decide [h1, hp.2.1, hp.2.2]

theorem names_split {s h p : Str} (hs : splitHostPort s = some (h, p)) : Names s h p := by
  simp only [splitHostPort] at hs
  split at hs
  · cases hs
  · rename_i i hi
    obtain ⟨a, b, rfl, hb, rfl⟩ := lastIdx_some hi
    have ed : (a ++ colon :: b).drop (a.length + 1) = b := by simp
    have et : (a ++ colon :: b).take a.length = a := by simp
    rw [ed, et] at hs
    by_cases hl : (a ++ colon :: b).head? = some lb
    · rw [if_pos hl] at hs
      split at hs
      · cases hs
      · rename_i e he
        by_cases h1 : e + 1 = a.length
        · rw [if_pos h1] at hs
          by_cases h2 : lb ∈ (a ++ colon :: b).drop 1 ∨ rb ∈ (a ++ colon :: b).drop (e + 1)
          · rw [if_pos h2] at hs; cases hs
          · rw [if_neg h2] at hs
            obtain ⟨x, y, hxy, hx, rfl⟩ := idx_some he
            -- `a` is `[`, the host and `]`
            have ha : a = x ++ [rb] := by
              have e1 : (a ++ colon :: b).take a.length = (x ++ rb :: y).take a.length := by rw [hxy]
              rw [et, ← h1, List.take_append] at e1
              simpa [List.take_of_length_le] using e1
            subst ha
            simp only [List.append_assoc, List.cons_append, List.nil_append, List.append_cancel_left_eq,
              List.cons.injEq, true_and] at hxy
            cases x with
            | nil => simp +decide at hl
            | cons z x =>
              simp at hl
              subst hl
              simp only [Option.some.injEq, Prod.mk.injEq] at hs
              obtain ⟨hh, rfl⟩ := hs
              have : x = h := by simpa using hh
              subst this
              simp only [not_or] at h2
              have n1 := h2.1
              have n2 := h2.2
              simp +decide [List.drop_append] at n1 n2 hx
              have := Names.bracketed (h := x) (p := b) n1.1 hx ⟨hb, n1.2, n2.2⟩
              simpa using this
        · rw [if_neg h1] at hs; cases hs
    · rw [if_neg hl] at hs
      by_cases h1 : colon ∈ a
      · rw [if_pos h1] at hs; cases hs
      · rw [if_neg h1] at hs
        by_cases h2 : lb ∈ a ++ colon :: b ∨ rb ∈ a ++ colon :: b
        · rw [if_pos h2] at hs; cases hs
        · rw [if_neg h2] at hs
          simp only [Option.some.injEq, Prod.mk.injEq] at hs
          obtain ⟨rfl, rfl⟩ := hs
          simp +decide [not_or] at h2
          exact .plain ⟨h1, h2.1.1, h2.2.1⟩ ⟨hb, h2.1.2, h2.2.2⟩

/-- An address made from a host and a port names them. -/
theorem join_names {h p : Str} (h1 : lb ∉ h) (h2 : rb ∉ h) (hp : Plain p) : Names (joinHostPort h p) h p := by
  unfold joinHostPort
  split
  · have := Names.bracketed h1 h2 hp
    simpa using this
  · rename_i hc
    exact .plain ⟨hc, h1, h2⟩ hp

/-! ### C116 -/

/-- What is assumed of `net.ParseIP` and of a name server: an address in text form has no brackets, and an
IP literal does not have exactly one colon. -/
structure Net.Ok (n : Net) : Prop where
  ip : ∀ s, n.isIP s = true → lb ∉ s ∧ rb ∉ s ∧ s.count colon ≠ 1
  ans : ∀ h ips, n.lookupIP h = some ips → ∀ ip ∈ ips, lb ∉ ip ∧ rb ∉ ip

/-- The endpoint means host `h` and port `p`: it names both, or it is a name or an IP literal alone, and the
port is 443. -/
def Means (n : Net) (e h p : Str) : Prop :=
  Names e h p ∨ (h = e ∧ p = lit "443" ∧ (Plain e ∨ n.isIP e = true))

theorem resolve_eq (n : Net) (e : Str) : resolve n defaultConfig e = resolveHost n defaultConfig e := by
  simp [resolve, defaultConfig]

/-- The host and the port the resolver uses are those the endpoint means. -/
theorem split_means {n : Net} (hn : n.Ok) {e h p : Str} (hm : Means n e h p) :
    (match splitHostPort e with | some hp => hp | none => (e, defaultConfig.defaultPort)) = (h, p) := by
  rcases hm with hm | ⟨rfl, rfl, hm⟩
  · rw [split_names hm]
  · have : splitHostPort h = none := by
      cases hs : splitHostPort h with
      | none => rfl
      | some hp =>
        exfalso
        obtain ⟨h', p'⟩ := hp
        have hs := names_split hs
        rcases hm with hm | hm
        · cases hs with
          | plain => exact hm.1 (by simp)
          | bracketed => exact hm.2.1 (by simp)
        · obtain ⟨k1, _, k3⟩ := hn.ip h hm
          cases hs with
          | plain a b =>
            rw [List.count_append, List.count_cons, List.count_eq_zero.2 a.1, List.count_eq_zero.2 b.1] at k3
            simp at k3
          | bracketed => exact k1 (by simp)
    rw [this]; rfl

/-- **C116 (a)** For an endpoint that means host `h` and port `p`: an IP literal is used as it is; a name
gives one address for each address of the name server, in its order, with the port; and without an answer
the resolver fails. -/
theorem C116_addresses (n : Net) (hn : n.Ok) (e h p : Str) (hm : Means n e h p) :
    (n.isIP h = true → resolve n defaultConfig e = some [⟨joinHostPort h p, 0, 0⟩]) ∧
    (n.isIP h = false → ∀ ips, ips ≠ [] → n.lookupIP h = some ips →
      resolve n defaultConfig e = some (ips.map fun ip => ⟨joinHostPort ip p, 0, 0⟩)) ∧
    (n.isIP h = false → (n.lookupIP h = none ∨ n.lookupIP h = some []) → resolve n defaultConfig e = none) := by
  have key : resolve n defaultConfig e = if n.isIP h then some [⟨joinHostPort h p, 0, 0⟩]
      else match n.lookupIP h with
        | none => none
        | some [] => none
        | some ips => some (ips.map fun ip => ⟨joinHostPort ip p, 0, 0⟩) := by
    have := split_means hn hm
    rw [resolve_eq]
    unfold resolveHost
    cases hs : splitHostPort e with
    | none => rw [hs] at this; cases this; rfl
    | some hp => rw [hs] at this; cases this; rfl
  rw [key]
  refine ⟨fun h => by simp [h], fun h ips hi hl => ?_, fun h hl => ?_⟩
  · rw [hl]; simp only [h, Bool.false_eq_true, if_false]
  · rcases hl with hl | hl <;> simp [h, hl]

theorem means_port {n : Net} {e h p : Str} (hm : Means n e h p) : Plain p := by
  rcases hm with hm | ⟨_, rfl, _⟩
  · cases hm <;> assumption
  · unfold Plain; decide +kernel

/-- **C116 (b)** Every address the resolver gives names one IP address, of the endpoint or of the answer, and
the port of the endpoint: whoever splits it again gets exactly these. -/
theorem C116_dialable (n : Net) (hn : n.Ok) (e h p : Str) (hm : Means n e h p) (as : List Addr)
    (hr : resolve n defaultConfig e = some as) (a : Addr) (ha : a ∈ as) :
    ∃ ip, (ip = h ∨ ∃ ips, n.lookupIP h = some ips ∧ ip ∈ ips) ∧ Names a.addr ip p ∧
      splitHostPort a.addr = some (ip, p) := by
  obtain ⟨k1, k2, k3⟩ := C116_addresses n hn e h p hm
  have hp := means_port hm
  cases hip : n.isIP h with
  | true =>
    rw [k1 hip] at hr
    cases hr
    simp only [List.mem_singleton] at ha
    subst ha
    have := join_names (hn.ip h hip).1 (hn.ip h hip).2.1 hp
    exact ⟨h, .inl rfl, this, split_names this⟩
  | false =>
    cases hl : n.lookupIP h with
    | none => rw [k3 hip (.inl hl)] at hr; cases hr
    | some ips =>
      by_cases hi : ips = []
      · rw [k3 hip (.inr (by rw [hl, hi]))] at hr; cases hr
      · rw [k2 hip ips hi hl] at hr
        cases hr
        simp only [List.mem_map] at ha
        obtain ⟨ip, hm', rfl⟩ := ha
        obtain ⟨b1, b2⟩ := hn.ans h ips hl ip hm'
        have := join_names b1 b2 hp
        exact ⟨ip, .inr ⟨ips, rfl, hm'⟩, this, split_names this⟩

/-- A name server for the examples: two addresses for `db`, and the literal `::1`. -/
def demoNet : Net where
  isIP s := s == lit "::1"
  lookupIP h := if h = lit "db" then some [lit "10.0.0.1", lit "fe80::1"] else none
  lookupSRV _ _ _ := some [⟨lit "db-1", lit "5432", 1, 1⟩]

theorem demo_ok : demoNet.Ok := by
  refine ⟨fun s h => ?_, fun h ips hl ip hm => ?_⟩
  · have : s = lit "::1" := by simpa [demoNet] using h
    subst this
    refine ⟨?_, ?_, ?_⟩ <;> decide +kernel
  · simp only [demoNet] at hl
    split at hl
    · cases hl
      have h3 : ∀ ip ∈ [lit "10.0.0.1", lit "fe80::1"], lb ∉ ip ∧ rb ∉ ip := by decide +kernel
      exact h3 ip hm
    · cases hl

/-- Non-trivial cases: a name with a port, an IPv6 address with a port, a name alone, an IPv6 address
alone. -/
example : Means demoNet (lit "db:5432") (lit "db") (lit "5432") ∧
    resolve demoNet defaultConfig (lit "db:5432")
      = some [⟨lit "10.0.0.1:5432", 0, 0⟩, ⟨lit "[fe80::1]:5432", 0, 0⟩] :=
  ⟨.inl (names_split (by decide +kernel)), by decide +kernel⟩
example : Means demoNet (lit "[::1]:80") (lit "::1") (lit "80") ∧
    resolve demoNet defaultConfig (lit "[::1]:80") = some [⟨lit "[::1]:80", 0, 0⟩] :=
  ⟨.inl (names_split (by decide +kernel)), by decide +kernel⟩
example : Means demoNet (lit "db") (lit "db") (lit "443") ∧
    resolve demoNet defaultConfig (lit "db") = some [⟨lit "10.0.0.1:443", 0, 0⟩, ⟨lit "[fe80::1]:443", 0, 0⟩] :=
  ⟨.inr ⟨rfl, rfl, .inl ⟨by decide +kernel, by decide +kernel, by decide +kernel⟩⟩, by decide +kernel⟩
example : Means demoNet (lit "::1") (lit "::1") (lit "443") ∧
    resolve demoNet defaultConfig (lit "::1") = some [⟨lit "[::1]:443", 0, 0⟩] :=
  ⟨.inr ⟨rfl, rfl, .inr (by decide +kernel)⟩, by decide +kernel⟩

/-- **C116 (c)** A target with an authority asks the name server of the authority and no other. -/
theorem C116_authority (s s' : Str → Net) (t : Target) (h : s t.authority = s' t.authority) :
    buildDns s t = buildDns s' t := by
  simp [buildDns, h]

/-- Disagreement with C116: SRV records are never used, whatever they are: there is no way to turn them
on. -/
theorem C116_no_srv (servers : Str → Net) (t : Target)
    (srv : Str → Str → Str → Option (List Srv)) :
    buildDns (fun a => { servers a with lookupSRV := srv }) t = buildDns servers t := by
  simp [buildDns, resolve, defaultConfig, resolveHost]

/-- Disagreement with C116: an IPv6 address in brackets without a port is not taken for one; it is looked
up as a name, brackets and all, and fails with every name server that knows no such names. -/
theorem C116_bracketed (n : Net) (hn : n.Ok) (hl : ∀ s, lb ∈ s → n.lookupIP s = none) (ip : Str) :
    resolve n defaultConfig (lb :: ip ++ [rb]) = none := by
  have hs : splitHostPort (lb :: ip ++ [rb]) = none := by
    cases hs : splitHostPort (lb :: ip ++ [rb]) with
    | none => rfl
    | some hp =>
      exfalso
      obtain ⟨h, p⟩ := hp
      have hs := names_split hs
      generalize he : lb :: ip ++ [rb] = e at hs
      have hlast : e.getLast? = some rb := by rw [← he, List.getLast?_append]; rfl
      have last : ∀ (a : Str) (x : UInt8) (p : Str), (a ++ x :: p).getLast? = (x :: p).getLast? := by
        intro a x p
        rw [List.getLast?_append, List.getLast?_cons]; rfl
      have key : ∀ (x : UInt8) (p : Str), (x :: p).getLast? = some rb → x ≠ rb → rb ∈ p := by
        intro x p h hx
        have := List.mem_of_getLast? h
        simp at this
        rcases this with h | h
        · exact absurd h.symm hx
        · exact h
      cases hs with
      | plain a b =>
        have : (colon :: p).getLast? = some rb := by
          rwa [last] at hlast
        exact b.2.2 (key _ _ this (by decide))
      | @bracketed h p _ _ b =>
        have : (colon :: p).getLast? = some rb := by
          rw [show lb :: h ++ rb :: colon :: p = (lb :: h ++ [rb]) ++ colon :: p by simp, last] at hlast
          exact hlast
        exact b.2.2 (key _ _ this (by decide))
  rw [resolve_eq]
  unfold resolveHost
  rw [hs]
  have hip : n.isIP (lb :: ip ++ [rb]) = false := by
    cases h : n.isIP (lb :: ip ++ [rb]) with
    | false => rfl
    | true => exact absurd (by simp) (hn.ip _ h).1
  simp only [hip, Bool.false_eq_true, if_false]
  rw [hl _ (by simp)]

example : resolve demoNet defaultConfig (lit "[::1]") = none :=
  C116_bracketed demoNet demo_ok (fun s h => by
    simp only [demoNet]
    split
    · rename_i e; rw [e] at h; exact absurd h (by decide +kernel)
    · rfl) (lit "::1")

/-- Disagreement with C116: an endpoint with a colon and no port after it gives addresses without a port,
not port 443. -/
theorem C116_empty_port : resolve demoNet defaultConfig (lit "db:")
    = some [⟨lit "10.0.0.1:", 0, 0⟩, ⟨lit "[fe80::1]:", 0, 0⟩] := by decide +kernel

/-! ### C117 -/

/-- **C117 (a)** Whatever was dialled, and whatever a connection was made to, is an address the resolver gave;
a connection was made only to an address that takes one. -/
theorem C117_only_its_addresses (d : Dialer) (up : Str → Bool) (c : Nat) :
    (∀ x ∈ (d.dial up c).2.tried, ∃ as a, d.resolver d.parsed = some as ∧ a ∈ as ∧ a.addr = x) ∧
    ∀ x, (d.dial up c).2.conn = some x → x ∈ (d.dial up c).2.tried ∧ up x = true := by
  have hmem : ∀ as : List Addr, ∀ a, (d.picker.pick c as).2 = some a → a ∈ as := by
    intro as a h
    cases hp : d.picker with
    | roundRobin =>
      rw [hp] at h
      simp only [Picker.pick, Balancer.rrPicker] at h
      split at h
      · cases h
      · exact List.mem_of_getElem? h
    | first =>
      rw [hp] at h
      simp only [Picker.pick, Balancer.first] at h
      split at h
      · cases h
      · exact List.mem_of_getElem? h
    | priority =>
      rw [hp] at h
      simp only [Picker.pick, Balancer.priorityPicker] at h
      split at h
      · cases h
      · exact (List.mem_filter.1 (List.mem_of_getElem? h)).1
  simp only [Dialer.dial]
  cases hr : d.resolver d.parsed with
  | none => simp
  | some as =>
    have hm := hmem as
    cases hp : d.picker.pick c as with
    | mk c' r =>
      rw [hp] at hm
      simp only [hp]
      cases r with
      | none => simp
      | some a =>
        refine ⟨fun x hx => ⟨as, a, rfl, hm a rfl, (List.mem_singleton.1 hx).symm⟩, ?_⟩
        intro x hx
        cases hu : up a.addr with
        | false => simp [hu] at hx
        | true =>
          simp only [hu, if_true, Option.some.injEq] at hx
          subst hx
          exact ⟨by simp, hu⟩

/-- **C117 (b)** A target without a scheme is dialled as it stands, if the pass-through resolver is
registered. -/
theorem C117_bare (low : Str → Str) (bs : Builders) (target : Str) (p : Picker) (up : Str → Bool) (c : Nat)
    (h : target ≠ []) (hs : ¬ Occurs (lit "://") target) (hb : bs (lit "passthrough") = some buildPassthrough) :
    ∃ d, newDialer low bs target p = some d ∧ (d.dial up c).2.tried = [target] ∧
      ((d.dial up c).2.conn = if up target then some target else none) := by
  have hi : Str.index (lit "://") target = none := by
    cases h : Str.index (lit "://") target with
    | none => rfl
    | some i => exact absurd ((index_isSome _ _).1 (by simp [h])) hs
  have hparse : parse low target = some ⟨defaultScheme, [], target⟩ := by
    simp [parse, h, hi]
  have hb' : bs defaultScheme = some buildPassthrough := hb
  refine ⟨⟨target, ⟨defaultScheme, [], target⟩, buildPassthrough, p⟩, by simp only [newDialer, hparse, hb'], ?_⟩
  simp only [Dialer.dial, buildPassthrough]
  cases p <;> simp [Picker.pick, Balancer.rrPicker, Balancer.first, Balancer.priorityPicker,
    Balancer.minPriority, Nat.mod_one]

/-- **C117 (d)** Of a target for the pass-through resolver the endpoint alone is dialled, whatever the authority. -/
theorem C117_passthrough (low : Str → Str) (hl : LowOk low) (bs : Builders) (sch auth ep : Str) (p : Picker)
    (up : Str → Bool) (c : Nat) (hs : low sch = lit "passthrough") (h2 : ¬ Occurs sep sch)
    (h3 : (47 : UInt8) ∉ auth) (h4 : ep ≠ []) (hb : bs (lit "passthrough") = some buildPassthrough) :
    ∃ d, newDialer low bs (sch ++ lit "://" ++ auth ++ lit "/" ++ ep) p = some d ∧
      (d.dial up c).2.tried = [ep] ∧ ((d.dial up c).2.conn = if up ep then some ep else none) := by
  have h1 : sch ≠ [] := by
    rintro rfl
    rw [hl.lowNil] at hs
    exact absurd hs (by decide +kernel)
  have hp : parse low (sch ++ lit "://" ++ auth ++ lit "/" ++ ep) = some ⟨lit "passthrough", auth, ep⟩ := by
    have := parse_full hl h1 h2 h3 h4
    rw [hs] at this
    rw [lit_sep, lit_slash]
    simpa using this
  refine ⟨⟨sch ++ lit "://" ++ auth ++ lit "/" ++ ep, ⟨lit "passthrough", auth, ep⟩, buildPassthrough, p⟩,
     by simp only [newDialer, hp, hb], ?_⟩
  simp only [Dialer.dial, buildPassthrough]
  cases p <;> simp [Picker.pick, Balancer.rrPicker, Balancer.first, Balancer.priorityPicker,
    Balancer.minPriority, Nat.mod_one]

/-- `PassThrough://ignored/h:1` dials `h:1`. -/
example : ∃ d, newDialer Str.lower (fun s => if s = lit "passthrough" then some buildPassthrough else none)
    (lit "PassThrough" ++ lit "://" ++ lit "ignored" ++ lit "/" ++ lit "h:1") .first = some d ∧
      (d.dial (fun _ => true) 0).2.tried = [lit "h:1"] ∧ (d.dial (fun _ => true) 0).2.conn = some (lit "h:1") :=
  C117_passthrough Str.lower lower_ok _ _ _ _ _ _ _ (by decide +kernel) (by
    rw [← index_isSome]; decide +kernel) (by decide +kernel) (by decide +kernel) (if_pos rfl)

/-- **C117 (c)** With the round-robin picker as many calls of `Dial` as the target has addresses dial every
address once, so one of them succeeds if any address takes connections.
Missing: one call of `Dial` should succeed (`C117_one_try`), and the list of addresses must stay the same and
the counter not wrap around meanwhile. -/
theorem C117_all_tried_partial (d : Dialer) (hd : d.picker = .roundRobin) (as : List Addr) (hne : as ≠ [])
    (hr : d.resolver d.parsed = some as) (up : Str → Bool) (c : Nat)
    (hc : c + 1 + as.length ≤ 2 ^ 64) :
    ((d.dials up c as.length).map (·.tried)).Perm (as.map fun a => [a.addr]) ∧
    ((∃ a ∈ as, up a.addr = true) → ∃ r ∈ d.dials up c as.length, r.conn ≠ none) := by
  have hpicks : ∀ k c, d.dials up c k = (Balancer.picks (Balancer.rrPicker · as) c k).map
      fun r => match r with
        | none => ⟨[], none⟩
        | some a => ⟨[a.addr], if up a.addr then some a.addr else none⟩ := by
    intro k
    induction k with
    | zero => intro c; rfl
    | succ k ih =>
      intro c
      have hstep : d.dial up c = ((Balancer.rrPicker c as).1, match (Balancer.rrPicker c as).2 with
        | none => ⟨[], none⟩
        | some a => ⟨[a.addr], if up a.addr then some a.addr else none⟩) := by
        simp only [Dialer.dial, hr, hd, Picker.pick]
        cases h : Balancer.rrPicker c as with
        | mk c' r => cases r <;> rfl
      simp only [Dialer.dials, Balancer.picks, List.map_cons, hstep, ih]
  have hfair := (Balancer.C33_round_robin_fair_partial as hne c 1 (by omega) (.inl (by omega))).1
  simp only [Nat.one_mul, List.replicate_one, List.flatten_cons, List.flatten_nil, List.append_nil] at hfair
  rw [hpicks]
  constructor
  · rw [List.map_map]
    refine (hfair.map _).trans ?_
    rw [List.map_map]
    exact List.Perm.of_eq (List.map_congr_left fun a _ => rfl)
  · rintro ⟨a, ha, hu⟩
    have : some a ∈ Balancer.picks (Balancer.rrPicker · as) c as.length :=
      hfair.mem_iff.2 (List.mem_map_of_mem ha)
    exact ⟨_, List.mem_map_of_mem this, by simp [hu]⟩

/-- Three addresses, one of which takes connections. -/
example : ∃ d : Dialer, d.picker = .roundRobin ∧
    d.resolver d.parsed = some [⟨lit "a:1", 0, 0⟩, ⟨lit "b:1", 0, 0⟩, ⟨lit "c:1", 0, 0⟩] ∧
    ∃ r ∈ d.dials (fun x => x == lit "c:1") 7 3, r.conn = some (lit "c:1") :=
  ⟨⟨lit "dns:///x:1", ⟨lit "dns", [], lit "x:1"⟩,
      fun _ => some [⟨lit "a:1", 0, 0⟩, ⟨lit "b:1", 0, 0⟩, ⟨lit "c:1", 0, 0⟩], .roundRobin⟩, rfl, rfl,
    ⟨[lit "c:1"], some (lit "c:1")⟩, by decide +kernel, rfl⟩

/-- Disagreement with C117: `Dial` tries one address and fails if it does not answer, with the others
answering. -/
theorem C117_one_try : ∃ (d : Dialer) (up : Str → Bool), d.picker = .roundRobin ∧
    d.resolver d.parsed = some [⟨lit "a:1", 0, 0⟩, ⟨lit "b:1", 0, 0⟩] ∧ up (lit "a:1") = true ∧
    (d.dial up 0).2 = ⟨[lit "b:1"], none⟩ :=
  ⟨⟨lit "dns:///x:1", ⟨lit "dns", [], lit "x:1"⟩,
      fun _ => some [⟨lit "a:1", 0, 0⟩, ⟨lit "b:1", 0, 0⟩], .roundRobin⟩, fun x => x == lit "a:1", rfl, rfl,
    by decide +kernel, by decide +kernel⟩

/-- Disagreement with C117: with the picker for addresses sorted by priority, and with the one that looks at
the priorities, no number of calls ever reaches another address when the preferred one is down. -/
theorem C117_no_fallback (d : Dialer) (a b : Addr) (hp : d.picker = .first ∨ d.picker = .priority)
    (hab : a.priority < b.priority) (hr : d.resolver d.parsed = some [a, b]) (up : Str → Bool)
    (hu : up a.addr = false) (k c : Nat) : ∀ r ∈ d.dials up c k, r = ⟨[a.addr], none⟩ := by
  have key : ∀ c, (d.dial up c).2 = ⟨[a.addr], none⟩ := by
    intro c
    rcases hp with hp | hp
    · simp [Dialer.dial, hr, hp, Picker.pick, Balancer.first, hu]
    · have h1 : ¬ b.priority < a.priority := by omega
      have h2 : ¬ b.priority = a.priority := by omega
      simp [Dialer.dial, hr, hp, Picker.pick, Balancer.priorityPicker, Balancer.minPriority, h1, h2, Nat.mod_one, hu]
  induction k generalizing c with
  | zero => simp [Dialer.dials]
  | succ k ih =>
    intro r hr'
    simp only [Dialer.dials, List.mem_cons] at hr'
    rcases hr' with rfl | hr'
    · exact key c
    · exact ih _ r hr'

end Claw.Resolve
