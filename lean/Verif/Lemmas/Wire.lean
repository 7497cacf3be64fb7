import Verif.Lemmas.Within

/-!
# A struct and its copy at the receiver
-/

namespace Claw

theorem specOps_append (a b : List Op) : ∀ r, specOps (a ++ b) r = specOps b (specOps a r) := by
  induction a with
  | nil => intro r; rfl
  | cons x a ih => intro r; simp [specOps, ih]

theorem runOps_append (a b : List Op) : ∀ s, runOps (a ++ b) s = (runOps a s).bind (runOps b) := by
  induction a with
  | nil => intro s; rfl
  | cons x a ih =>
    intro s
    simp only [List.cons_append, runOps]
    cases x.run s <;> simp [Res.bind, ih, bind, Bind.bind]

/-- What the receiver gets for a represented struct. -/
theorem receive {s : St} {vs : List Val} {m : Nat} (h : Rep 0 s (encs vs 0)) (he : s.isSetEnabled = false)
    (extra : Bytes) :
    ∃ msg fresh s', s.marshal = .ok (msg, s) ∧ St.new m = .ok fresh ∧ fresh.unmarshal msg extra = some s' ∧
      Rep 0 s' (padTo m (encs vs 0)) ∧ s'.idx.length = m := by
  obtain ⟨s0, h0, hr, hl, _⟩ := new_rep m
  obtain ⟨s', hu, hr', hl', _⟩ := unmarshal_rep h.wf h.small 0 (by omega) s0 m hl
    (by intro i hi _; have e := new_eq m; rw [h0] at e; simp at e; rw [e]; simp [hi]) [] extra
  rw [List.append_nil] at hu
  exact ⟨_, s0, s', marshal_rep h he, h0, hu, hr', hl'⟩

/-- The last call of a program writes a value that is not a struct or a list of structs: only the size
matters, the padding may be taken for data. -/
theorem run_set_last (m : Nat) (ops : List Op) (hfit : Within m ops) (i : Nat) (hi : i < m) (t : STy)
    (v : t.Val) (hst : t.Storable v) (hs : 8 + sizes ((specRun m ops).set i (specScalar t v)) < 2 ^ 32) :
    ∃ s, run m (ops ++ [.set i t v]) = .ok s ∧
      Rep 0 s (encs ((specRun m ops).set i (specScalar t v)) 0) ∧ s.idx.length = m ∧
      s.isSetEnabled = false := by
  obtain ⟨s0, h0, hr, hl, he, _⟩ := new_rep m
  obtain ⟨s, h1, h2, h3⟩ := ops_within ops hr (by simp [hl]) (by simpa using hfit.1)
    (by rw [hl]; exact hfit.2)
  have hvl : (specRun m ops).length = m := by simp [specRun, specOps_length]
  have hlen : s.idx.length = m := by rw [h3.len, hl]
  obtain ⟨s', e, hr', hc'⟩ := set_rep h2 (by rw [hlen]; show m ≤ (specRun m ops).length; omega)
    (by show (specRun m ops).length ≤ _; have := hfit.1; omega) i (by omega) t v hst hs
  refine ⟨s', ?_, hr', by rw [hc'.len, hlen], by rw [hc'.enabled, h3.enabled, he]⟩
  simp only [run, h0, Res.ok_bind, runOps_append, h1]
  show (do let s ← Op.run (.set i t v) s; runOps [] s) = _
  simp [Op.run, e, runOps]

theorem blob_last {m : Nat} {ops : List Op} {i : Nat} (hi : i < m) (t : STy) (v : t.Val) (pad : Nat) :
    blob (padTo pad (encs ((specRun m ops).set i (specScalar t v)) 0)) i = (specScalar t v).enc i := by
  rw [blob_padTo, blob_encs, Nat.zero_add, List.getD_eq_getElem?_getD, List.getElem?_set_self]
  · rfl
  · simpa [specRun, specOps_length] using hi

theorem list_storable {t : STy} {v : t.Val} (h : t.isList = true) : t.Storable v := by
  cases t <;> simp [STy.isList] at h <;> simp [STy.Storable]

end Claw
