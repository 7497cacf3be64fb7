import Verif.Model.Health
import Verif.Props.Struct

/-!
# C118 the health service
-/

namespace Claw.HealthService

open Claw

/-- A message with one field of type `t`, sent and read back. -/
theorem one_field (t : STy) (v : t.Val) (ht : t.Storable v) (hc : t.Clean v)
    (hs : 8 + scalarSize t v < 2 ^ 32) (extra : Bytes) :
    ∃ fresh s msg s1 s', St.new 1 = .ok fresh ∧ t.set fresh 0 v = .ok s ∧ s.marshal = .ok (msg, s1) ∧
      fresh.unmarshal msg extra = some s' ∧ ∃ w, t.get s' 0 = .ok w ∧
        (if t.isZero w then Val.absent else .scalar t w) = if t.isZero v then .absent else .scalar t v := by
  have hspec : specRun 1 [.set 0 t v] = [specScalar t v] := rfl
  have hw : Within 1 [.set 0 t v] := by
    refine ⟨by decide, ⟨by decide, ht⟩, ?_, trivial⟩
    show 8 + sizes [specScalar t v] < 2 ^ 32
    simp only [sizes, specScalar]
    split
    · simp [Val.size]
    · simpa [Val.size] using hs
  have htidy : Tidies (specRun 1 [.set 0 t v]) := by
    rw [hspec]
    refine ⟨?_, trivial⟩
    simp only [specScalar]
    split
    · trivial
    · exact hc
  have hty : FieldsHaveTy (specRun 1 [.set 0 t v]) [.scalar t] := by
    rw [hspec]
    refine ⟨?_, trivial⟩
    simp only [specScalar]
    split
    · trivial
    · rfl
  obtain ⟨s, msg, s1, fresh, s', h1, h2, h3, h4, _, h6⟩ :=
    C04_marshal_unmarshal_partial 1 [.set 0 t v] [.scalar t] extra hw htidy rfl hty
  have h1' : t.set fresh 0 v = .ok s := by
    simp only [run, h3, Res.ok_bind, runOps, Op.run] at h1
    cases hx : t.set fresh 0 v with
    | ok y => rw [hx] at h1; simpa using h1
    | _ => rw [hx] at h1; simp at h1
  refine ⟨fresh, s, msg, s1, s', h3, h1', h2, h4, ?_⟩
  rw [hspec] at h6
  simp only [readFields, Ty.read, viewFields] at h6
  cases hx : t.get s' 0 with
  | ok w =>
    rw [hx] at h6
    simp [Ty.view] at h6
    exact ⟨w, rfl, h6⟩
  | _ => rw [hx] at h6; simp at h6

theorem zero_inj {t : STy} {v w : t.Val} (hz : ∀ x : t.Val, t.isZero x = true → x = t.zero)
    (h : (if t.isZero w then Val.absent else .scalar t w) = if t.isZero v then .absent else .scalar t v) :
    w = v := by
  cases hw : t.isZero w <;> cases hv : t.isZero v <;> simp [hw, hv] at h
  · exact h
  · rw [hz w hw, hz v hv]

theorem request_eq (service : Str) (h : service.length < 2 ^ 32 - 32) :
    ∃ msg, request service = .ok msg ∧ ∀ extra, ∃ fresh m, St.new 1 = .ok fresh ∧
      fresh.unmarshal msg extra = some m ∧ STy.str.get m 0 = .ok service := by
  have hsz : 8 + scalarSize .str service < 2 ^ 32 := by
    simp only [scalarSize]
    omega
  have key := one_field .str service trivial trivial hsz
  obtain ⟨fresh, s, msg, s1, s', h1, h2, h3, h4, w, h5, h6⟩ := key []
  refine ⟨msg, by simp [request, h1, h2, h3], fun extra => ?_⟩
  obtain ⟨fresh', s2, msg', s3, s4, g1, g2, g3, g4, w', g5, g6⟩ := key extra
  obtain rfl : fresh = fresh' := by rw [h1] at g1; cases g1; rfl
  obtain rfl : s = s2 := by rw [h2] at g2; cases g2; rfl
  obtain rfl : msg = msg' := by rw [h3] at g3; cases g3; rfl
  have : w' = service := zero_inj (t := .str) (fun x hx => by simpa [STy.isZero, STy.zero] using hx) g6
  subst this
  exact ⟨fresh, s4, h1, g4, g5⟩

theorem response_eq (status : Status) (extra : Bytes) :
    ∃ fresh s msg s1, St.new 1 = .ok fresh ∧ STy.u8.set fresh 0 status = .ok s ∧ s.marshal = .ok (msg, s1) ∧
      response msg extra = .ok (some status) := by
  obtain ⟨fresh, s, msg, s1, s', h1, h2, h3, h4, w, h5, h6⟩ :=
    one_field .u8 status trivial trivial (by simp [scalarSize]) extra
  have : w = status := zero_inj (t := .u8) (fun x hx => by simpa [STy.isZero, STy.zero] using hx) h6
  subst this
  exact ⟨fresh, s, msg, s1, h1, h2, h3, by simp [response, h1, h4, h5]⟩

/-- **C118 (a)** `Check` gives, over the wire, what the server has for the name, for every server, name and
status. -/
theorem C118_check (s : Server) (service : Str) (h : service.length < 2 ^ 32 - 32) (extra extra' : Bytes) :
    check s service extra extra' = .ok (some (s.servingStatus service)) := by
  obtain ⟨msg, h1, h2⟩ := request_eq service h
  obtain ⟨fresh, m, h3, h4, h5⟩ := h2 extra
  obtain ⟨fresh', r, bytes, r1, g1, g2, g3, g4⟩ := response_eq (s.servingStatus service) extra'
  obtain rfl : fresh = fresh' := by rw [h3] at g1; cases g1; rfl
  have hc : s.check msg extra = .ok (some bytes) := by
    simp only [Server.check, h3, Res.ok_bind, h4, h5]
    unfold Server.servingStatus at g2
    cases hs : s service with
    | none => rw [hs] at g2; simp only [g2, Res.ok_bind, g3]; rfl
    | some x => rw [hs] at g2; simp only [g2, Res.ok_bind, g3]; rfl
  simp only [check, h1, Res.ok_bind, hc, g4]

/-- What a history of calls, newest first, says about a service: the status set last; without one, `Serving`
for the whole server and `ServiceUnknown` for any other. -/
def told (history : List (Str × Status)) (service : Str) : Status :=
  match history.find? fun x => x.1 == service with
  | some x => x.2
  | none => if service = [] then 1 else 3

/-- **C118 (b)** After any history of `SetServingStatus` calls, `ServingStatus` and `Check` give the status
set last for this name; for the empty name `Serving` until it is set, for every other name
`ServiceUnknown` until it is set. -/
theorem C118_history (history : List (Str × Status)) (service : Str) :
    (Server.after history).servingStatus service = told history service ∧
    ∀ (_ : service.length < 2 ^ 32 - 32) (extra extra' : Bytes),
      check (Server.after history) service extra extra' = .ok (some (told history service)) := by
  have key : (Server.after history).servingStatus service = told history service := by
    induction history with
    | nil =>
      simp only [Server.after, newServer, Server.servingStatus, Dict.set, Dict.empty, told, List.find?_nil]
      by_cases e : service = [] <;> simp [e]
    | cons x xs ih =>
      simp only [Server.after, Server.servingStatus, Server.setServingStatus, Dict.set, told,
        List.find?_cons] at *
      by_cases e : service = x.1
      · simp [e]
      · have e' : (x.1 == service) = false := by simpa using Ne.symm e
        simp only [e, if_false, e']
        exact ih
  exact ⟨key, fun h extra extra' => by rw [C118_check _ _ h, key]⟩

/-- A server with two services: one set twice, one never, and the whole. -/
example : told [(lit "db", NotServing), (lit "web", Unknown), (lit "db", Serving)] (lit "db") = NotServing ∧
    told [(lit "db", NotServing), (lit "web", Unknown), (lit "db", Serving)] (lit "web") = Unknown ∧
    told [(lit "db", NotServing), (lit "web", Unknown), (lit "db", Serving)] (lit "x") = ServiceUnknown ∧
    told [(lit "db", NotServing), (lit "web", Unknown), (lit "db", Serving)] [] = Serving := by decide +kernel

end Claw.HealthService
