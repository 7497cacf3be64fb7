import Verif.Spec.Writer
import Verif.Props.Locate
import Verif.Props.Idl

/-!
# C128: what is generated is written, and failures are reported
-/

namespace Claw.Writer

/-! ### Paths -/

theorem split_slash : ∀ (a a' b b' : Str), 47 ∉ b → 47 ∉ b' → a ++ 47 :: b = a' ++ 47 :: b' → a = a' ∧ b = b'
  | [], [], b, b', _, _, h => by simpa using h
  | [], x :: a', b, b', hb, _, h => by
    simp only [List.nil_append, List.cons_append, List.cons.injEq] at h
    exact absurd (by rw [h.2]; simp) hb
  | x :: a, [], b, b', _, hb', h => by
    simp only [List.nil_append, List.cons_append, List.cons.injEq] at h
    exact absurd (by rw [← h.2]; simp) hb'
  | x :: a, x' :: a', b, b', hb, hb', h => by
    simp only [List.cons_append, List.cons.injEq] at h
    obtain ⟨h1, h2⟩ := split_slash a a' b b' hb hb' h.2
    exact ⟨by rw [h.1, h1], h2⟩

theorem join_inj {d d' n n' : Str} (hn : Leaf n) (hn' : Leaf n') (h : join d n = join d' n') : d = d' ∧ n = n' := by
  simp only [join, if_neg hn.1, if_neg hn'.1, List.append_assoc] at h
  exact split_slash d d' n n' hn.2 hn'.2 h

theorem dir_inj {cfg : Cfg} : ∀ {rs : List Rendered} (_ : (rs.filterMap (dirOf cfg)).Nodup) {i j : Nat} {r q : Rendered} {d : Str},
    rs[i]? = some r → rs[j]? = some q → dirOf cfg r = some d → dirOf cfg q = some d → i = j
  | [], _, i, j, r, q, d, h, _, _, _ => by simp at h
  | x :: rs, hnd, i, j, r, q, d, hi, hj, hr, hq => by
    have hmem : ∀ {k : Nat} {y : Rendered}, rs[k]? = some y → dirOf cfg y = some d → d ∈ rs.filterMap (dirOf cfg) := by
      intro k y hk hy
      exact List.mem_filterMap.2 ⟨y, List.mem_of_getElem? hk, hy⟩
    have hnd' : (rs.filterMap (dirOf cfg)).Nodup := by
      rw [List.filterMap_cons] at hnd
      split at hnd
      · exact hnd
      · exact (List.nodup_cons.1 hnd).2
    have hnot : dirOf cfg x = some d → d ∉ rs.filterMap (dirOf cfg) := by
      intro hx
      rw [List.filterMap_cons, hx] at hnd
      exact (List.nodup_cons.1 hnd).1
    cases i with
    | zero =>
      cases j with
      | zero => rfl
      | succ j =>
        simp only [List.getElem?_cons_zero, Option.some.injEq, List.getElem?_cons_succ] at hi hj
        subst hi
        exact absurd (hmem hj hq) (hnot hr)
    | succ i =>
      cases j with
      | zero =>
        simp only [List.getElem?_cons_zero, Option.some.injEq, List.getElem?_cons_succ] at hi hj
        subst hj
        exact absurd (hmem hi hr) (hnot hq)
      | succ j =>
        simp only [List.getElem?_cons_succ] at hi hj
        rw [dir_inj hnd' hi hj hr hq]

/-! ### Where the goroutines are -/

/-- A goroutine writes to the directory of its package, and only files of it. -/
def Place (cfg : Cfg) (r : Rendered) : Pc → Prop
  | .start => True
  | .main d => dirOf cfg r = some d
  | .extra d left => dirOf cfg r = some d ∧ ∀ x ∈ left, x ∈ r.files
  | .done => True

structure Inv (cfg : Cfg) (rs : List Rendered) (s : St) : Prop where
  len : s.pcs.length = rs.length
  place : ∀ (i : Nat) (r : Rendered) (pc : Pc), rs[i]? = some r → s.pcs[i]? = some pc → Place cfg r pc

theorem inv_init (cfg : Cfg) (fs : Dict Str Bytes) (rs : List Rendered) : Inv cfg rs (.init fs rs) := by
  refine ⟨by simp [St.init], ?_⟩
  intro i r pc hr hp
  simp only [St.init, List.getElem?_map, hr, Option.map_some, Option.some.injEq] at hp
  subst hp; trivial

/-- The ways a step can go. -/
inductive Kind (cfg : Cfg) (r : Rendered) (s : St) (a : Act) : Pc → St → Prop
  | abs : a.w = .ok → cfg.should r.path = true → cfg.abs r.path = none → Kind cfg r s a .start (s.fail a.i)
  | main (d : Str) : a.w = .ok → dirOf cfg r = some d → Kind cfg r s a .start (s.at a.i (.main d))
  | skip : a.w = .ok → cfg.should r.path = false → Kind cfg r s a .start (s.at a.i .done)
  | native (d : Str) : Kind cfg r s a (.main d) (s.write a.i (join d (mainName r)) r.native a.w (.extra d r.files))
  | end (d : Str) : a.w = .ok → Kind cfg r s a (.extra d []) (s.at a.i .done)
  | file (d : Str) (left : List (Str × Bytes)) (x : Str × Bytes) : left[a.pick]? = some x →
      Kind cfg r s a (.extra d left) (s.write a.i (join d x.1) x.2 a.w (.extra d (left.eraseIdx a.pick)))

theorem step_kind {cfg : Cfg} {rs : List Rendered} {s s' : St} {a : Act} (e : s.step cfg rs a = some s') :
    ∃ r pc, rs[a.i]? = some r ∧ s.pcs[a.i]? = some pc ∧ Kind cfg r s a pc s' := by
  simp only [St.step] at e
  split at e
  · next r hr hp =>
    refine ⟨r, .start, hr, hp, ?_⟩
    split at e
    · cases e
    · next hw =>
      have hw : a.w = .ok := by simpa using hw
      split at e
      · next hs =>
        split at e
        · next ha => cases e; exact .abs hw hs ha
        · next d ha => cases e; exact .main d hw (by simp [dirOf, hs, ha])
      · next hs => cases e; exact .skip hw (by simpa using hs)
  · next r d hr hp => cases e; exact ⟨r, .main d, hr, hp, .native d⟩
  · next r d hr hp =>
    refine ⟨r, .extra d [], hr, hp, ?_⟩
    split at e
    · cases e
    · next hw => cases e; exact .end d (by simpa using hw)
  · next r d x left hr hp =>
    refine ⟨r, .extra d (x :: left), hr, hp, ?_⟩
    split at e
    · cases e
    · next n c hx => cases e; exact .file d _ (n, c) hx
  · cases e

/-- Nothing but the place of the goroutine, one file and the error changes. -/
structure Moves (s s' : St) (i : Nat) (pc' : Pc) (w : Option (Str × Bytes)) : Prop where
  pcs : s'.pcs = s.pcs.set i pc'
  fs : s'.fs = match w with
    | none => s.fs
    | some x => s.fs.set x.1 x.2

theorem moves_write (s : St) (i : Nat) (f : Str) (c : Bytes) (w : Wr) (next : Pc) :
    (w = .ok ∧ Moves s (s.write i f c w next) i next (some (f, c)) ∧ (s.write i f c w next).err = s.err) ∨
    (w ≠ .ok ∧ (∃ x, Moves s (s.write i f c w next) i .done x ∧ ∀ y, x = some y → y.1 = f) ∧ (s.write i f c w next).err ≠ none) := by
  cases w with
  | ok => exact .inl ⟨rfl, ⟨rfl, rfl⟩, rfl⟩
  | fails j =>
    refine .inr ⟨by simp, ?_, ?_⟩
    · cases j with
      | none => exact ⟨none, ⟨rfl, rfl⟩, by simp⟩
      | some j => exact ⟨some (f, j), ⟨rfl, rfl⟩, by simp⟩
    · cases j <;> simp [St.write, St.fail, St.at]

theorem moves_fail (s : St) (i : Nat) : Moves s (s.fail i) i .done none ∧ (s.fail i).err ≠ none :=
  ⟨⟨rfl, rfl⟩, by simp [St.fail, St.at]⟩

/-- What a step does: where its goroutine is afterwards, the file written and whether there is an error. -/
theorem step_moves {cfg : Cfg} {rs : List Rendered} {s s' : St} {a : Act} (hi : Inv cfg rs s) (e : s.step cfg rs a = some s') :
    ∃ r pc pc' w, rs[a.i]? = some r ∧ s.pcs[a.i]? = some pc ∧ Moves s s' a.i pc' w ∧ Place cfg r pc' ∧
      ∀ y, w = some y → ∃ d, dirOf cfg r = some d ∧ ∃ n ∈ mainName r :: r.files.map (·.1), y.1 = join d n := by
  obtain ⟨r, pc, hr, hp, hk⟩ := step_kind e
  have hpl := hi.place _ _ _ hr hp
  cases hk with
  | abs => exact ⟨r, _, .done, none, hr, hp, (moves_fail s a.i).1, trivial, by simp⟩
  | main d _ hd => exact ⟨r, _, .main d, none, hr, hp, ⟨rfl, rfl⟩, hd, by simp⟩
  | skip => exact ⟨r, _, .done, none, hr, hp, ⟨rfl, rfl⟩, trivial, by simp⟩
  | native d =>
    rcases moves_write s a.i (join d (mainName r)) r.native a.w (.extra d r.files) with ⟨_, h, _⟩ | ⟨_, ⟨x, h, hx⟩, _⟩
    · exact ⟨r, _, _, _, hr, hp, h, ⟨hpl, fun _ h => h⟩, fun y hy => ⟨d, hpl, mainName r, by simp, by cases hy; rfl⟩⟩
    · exact ⟨r, _, _, _, hr, hp, h, trivial, fun y hy => ⟨d, hpl, mainName r, by simp, hx y hy⟩⟩
  | «end» d => exact ⟨r, _, .done, none, hr, hp, ⟨rfl, rfl⟩, trivial, by simp⟩
  | file d left x hx =>
    have hm : x.1 ∈ mainName r :: r.files.map (·.1) :=
      List.mem_cons_of_mem _ (List.mem_map.2 ⟨x, hpl.2 x (List.mem_of_getElem? hx), rfl⟩)
    rcases moves_write s a.i (join d x.1) x.2 a.w (.extra d (left.eraseIdx a.pick)) with ⟨_, h, _⟩ | ⟨_, ⟨z, h, hz⟩, _⟩
    · exact ⟨r, _, _, _, hr, hp, h, ⟨hpl.1, fun y hy => hpl.2 y (List.mem_of_mem_eraseIdx hy)⟩,
        fun y hy => ⟨d, hpl.1, x.1, hm, by cases hy; rfl⟩⟩
    · exact ⟨r, _, _, _, hr, hp, h, trivial, fun y hy => ⟨d, hpl.1, x.1, hm, hz y hy⟩⟩

theorem inv_step {cfg : Cfg} {rs : List Rendered} {s s' : St} {a : Act} (hi : Inv cfg rs s) (e : s.step cfg rs a = some s') : Inv cfg rs s' := by
  obtain ⟨r, pc, pc', w, hr, hp, hm, hpl, _⟩ := step_moves hi e
  refine ⟨by rw [hm.pcs, List.length_set, hi.len], ?_⟩
  intro j q pcj hq hj
  rw [hm.pcs, List.getElem?_set] at hj
  split at hj
  · next hij =>
    subst hij
    split at hj
    · cases hj
      rw [hr] at hq; cases hq; exact hpl
    · cases hj
  · exact hi.place j q pcj hq hj

theorem inv_run {cfg : Cfg} {rs : List Rendered} {s s' : St} {as : List Act} (hi : Inv cfg rs s) (e : s.run cfg rs as = some s') :
    Inv cfg rs s' := by
  induction as generalizing s with
  | nil => cases e; exact hi
  | cons a as ih =>
    simp only [St.run] at e
    split at e
    · cases e
    · next m hm => exact ih (inv_step hi hm) e

/-! ### (a) nothing else is touched -/

theorem frame_run {cfg : Cfg} {rs : List Rendered} {s s' : St} {as : List Act} (hi : Inv cfg rs s) (e : s.run cfg rs as = some s')
    (f : Str) (hf : ¬ Ours cfg rs f) : s'.fs f = s.fs f := by
  induction as generalizing s with
  | nil => cases e; rfl
  | cons a as ih =>
    simp only [St.run] at e
    split at e
    · cases e
    · next m hm =>
      rw [ih (inv_step hi hm) e]
      obtain ⟨r, pc, pc', w, hr, _, hmv, _, hw⟩ := step_moves hi hm
      rw [hmv.fs]
      cases w with
      | none => rfl
      | some y =>
        obtain ⟨d, hd, n, hn, hy⟩ := hw y rfl
        simp only [Dict.set]
        rw [if_neg]
        rintro rfl
        exact hf ⟨r, List.mem_of_getElem? hr, d, hd, n, hn, hy⟩

/-- **C128 (a)** No file is touched but those generated for the packages, whether there are errors or not and however far it gets. -/
theorem C128_nothing_else (cfg : Cfg) (rs : List Rendered) (fs : Dict Str Bytes) (as : List Act) (s : St)
    (h : (St.init fs rs).run cfg rs as = some s) (f : Str) (hf : ¬ Ours cfg rs f) : s.fs f = fs f :=
  frame_run (inv_init cfg fs rs) h f hf

/-! ### (b) errors -/

theorem step_err {cfg : Cfg} {rs : List Rendered} {s s' : St} {a : Act} (e : s.step cfg rs a = some s') :
    s'.err = none → s.err = none ∧ a.w = .ok := by
  intro h
  have hat : ∀ pc, (s.at a.i pc).err = s.err := fun _ => rfl
  obtain ⟨r, pc, _, _, hk⟩ := step_kind e
  cases hk with
  | abs => exact absurd h (moves_fail s a.i).2
  | main d hw => exact ⟨h, hw⟩
  | skip hw => exact ⟨h, hw⟩
  | native d =>
    rcases moves_write s a.i (join d (mainName r)) r.native a.w (.extra d r.files) with ⟨hw, _, he⟩ | ⟨_, _, he⟩
    · exact ⟨he ▸ h, hw⟩
    · exact absurd h he
  | «end» d hw => exact ⟨h, hw⟩
  | file d left x _ =>
    rcases moves_write s a.i (join d x.1) x.2 a.w (.extra d (left.eraseIdx a.pick)) with ⟨hw, _, he⟩ | ⟨_, _, he⟩
    · exact ⟨he ▸ h, hw⟩
    · exact absurd h he

theorem step_no_err {cfg : Cfg} {rs : List Rendered} {s s' : St} {a : Act} (e : s.step cfg rs a = some s') (h : s.err = none)
    (hw : a.w = .ok) (ha : ∀ r ∈ rs, cfg.should r.path = true → cfg.abs r.path ≠ none) : s'.err = none := by
  obtain ⟨r, pc, hr, _, hk⟩ := step_kind e
  cases hk with
  | abs _ h1 h2 => exact absurd h2 (ha r (List.mem_of_getElem? hr) h1)
  | main d => exact h
  | skip => exact h
  | native d => rw [hw]; exact h
  | «end» d => exact h
  | file d left x _ => rw [hw]; exact h

/-- A goroutine that has returned with no error knew where to write, if it was to. -/
def Knew (cfg : Cfg) (r : Rendered) : Pc → Prop
  | .start => True
  | _ => cfg.should r.path = true → cfg.abs r.path ≠ none

theorem knew_of_dir {cfg : Cfg} {r : Rendered} {d : Str} (h : dirOf cfg r = some d) : cfg.should r.path = true → cfg.abs r.path ≠ none := by
  intro hs; simp only [dirOf, hs, if_true] at h; rw [h]; simp

theorem knew_run {cfg : Cfg} {rs : List Rendered} {s s' : St} {as : List Act} (hi : Inv cfg rs s) (e : s.run cfg rs as = some s')
    (hk : ∀ (i : Nat) (r : Rendered) (pc : Pc), rs[i]? = some r → s.pcs[i]? = some pc → Knew cfg r pc) (he : s'.err = none) :
    (s.err = none ∧ ∀ a ∈ as, a.w = .ok) ∧
    ∀ (i : Nat) (r : Rendered) (pc : Pc), rs[i]? = some r → s'.pcs[i]? = some pc → Knew cfg r pc := by
  induction as generalizing s with
  | nil => cases e; exact ⟨⟨he, by simp⟩, hk⟩
  | cons a as ih =>
    simp only [St.run] at e
    split at e
    · cases e
    · next m hm =>
      have hkm : m.err = none → ∀ (i : Nat) (r : Rendered) (pc : Pc), rs[i]? = some r → m.pcs[i]? = some pc → Knew cfg r pc := by
        intro hme i q pcj hq hj
        obtain ⟨r, pc, hr, hp, hkind⟩ := step_kind hm
        have hpl := hi.place _ _ _ hr hp
        have key : ∀ pc', m.pcs = s.pcs.set a.i pc' → Knew cfg r pc' → Knew cfg q pcj := by
          intro pc' h1 h2
          rw [h1, List.getElem?_set] at hj
          split at hj
          · next hij =>
            subst hij
            split at hj
            · cases hj; rw [hr] at hq; cases hq; exact h2
            · cases hj
          · exact hk i q pcj hq hj
        cases hkind with
        | abs => exact absurd hme (moves_fail s a.i).2
        | main d _ hd => exact key _ rfl (knew_of_dir hd)
        | skip _ h => exact key .done rfl (fun h' => by rw [h] at h'; cases h')
        | native d =>
          rcases moves_write s a.i (join d (mainName r)) r.native a.w (.extra d r.files) with ⟨_, h, _⟩ | ⟨_, _, h⟩
          · exact key _ h.pcs (knew_of_dir hpl)
          · exact absurd hme h
        | «end» d => exact key .done rfl (knew_of_dir hpl.1)
        | file d left x _ =>
          rcases moves_write s a.i (join d x.1) x.2 a.w (.extra d (left.eraseIdx a.pick)) with ⟨_, h, _⟩ | ⟨_, _, h⟩
          · exact key _ h.pcs (knew_of_dir hpl.1)
          · exact absurd hme h
      have hme : m.err = none := by
        have : ∀ (bs : List Act) (u v : St), u.run cfg rs bs = some v → v.err = none → u.err = none := by
          intro bs
          induction bs with
          | nil => intro u v h h'; cases h; exact h'
          | cons b bs ihb =>
            intro u v h h'
            simp only [St.run] at h
            split at h
            · cases h
            · next w hw => exact (step_err hw (ihb w v h h')).1
        exact this as m s' e he
      obtain ⟨⟨h1, h2⟩, h3⟩ := ih (inv_step hi hm) e (hkm hme)
      obtain ⟨h4, h5⟩ := step_err hm hme
      refine ⟨⟨h4, ?_⟩, h3⟩
      intro b hb
      rcases List.mem_cons.1 hb with rfl | hb
      · exact h5
      · exact h2 b hb

theorem no_err_run {cfg : Cfg} {rs : List Rendered} {s s' : St} {as : List Act} (e : s.run cfg rs as = some s') (h : s.err = none)
    (hw : ∀ a ∈ as, a.w = .ok) (ha : ∀ r ∈ rs, cfg.should r.path = true → cfg.abs r.path ≠ none) : s'.err = none := by
  induction as generalizing s with
  | nil => cases e; exact h
  | cons a as ih =>
    simp only [St.run] at e
    split at e
    · cases e
    · next m hm => exact ih e (step_no_err hm h (hw a (by simp)) ha) (fun b hb => hw b (List.mem_cons_of_mem _ hb))

theorem finished_at {cfg : Cfg} {rs : List Rendered} {s : St} (hi : Inv cfg rs s) (hf : s.finished) {i : Nat} {r : Rendered}
    (hr : rs[i]? = some r) : s.pcs[i]? = some .done := by
  have hlt : i < s.pcs.length := by rw [hi.len]; exact (List.getElem?_eq_some_iff.1 hr).1
  rw [List.getElem?_eq_getElem hlt, hf _ (List.getElem_mem hlt)]

/-- **C128 (b)** An error is returned exactly if a write failed or the directory of a package that is to be written is not known, in
every interleaving. -/
theorem C128_reported (cfg : Cfg) (rs : List Rendered) (fs : Dict Str Bytes) (as : List Act) (s : St)
    (h : (St.init fs rs).run cfg rs as = some s) (hf : s.finished) :
    s.err = none ↔ (∀ a ∈ as, a.w = .ok) ∧ ∀ r ∈ rs, cfg.should r.path = true → cfg.abs r.path ≠ none := by
  have hi := inv_init cfg fs rs
  constructor
  · intro he
    obtain ⟨⟨_, h1⟩, h2⟩ := knew_run hi h (by
      intro i r pc hr hp
      simp only [St.init, List.getElem?_map, hr, Option.map_some, Option.some.injEq] at hp
      subst hp; trivial) he
    refine ⟨h1, ?_⟩
    intro r hr
    obtain ⟨i, hlt, hi'⟩ := List.mem_iff_getElem.1 hr
    have hr' : rs[i]? = some r := by rw [List.getElem?_eq_getElem hlt, hi']
    exact h2 i r .done hr' (finished_at (inv_run hi h) hf hr')
  · rintro ⟨h1, h2⟩
    exact no_err_run h rfl h1 h2

/-! ### (c) contents -/

/-- What a goroutine has done. -/
def Good (cfg : Cfg) (r : Rendered) (fs : Dict Str Bytes) : Pc → Prop
  | .start => True
  | .main _ => True
  | .extra d left => (∀ x ∈ r.files, x ∈ left ∨ fs (join d x.1) = some x.2) ∧
      (mainName r ∉ r.files.map (·.1) → fs (join d (mainName r)) = some r.native)
  | .done => ∀ d, dirOf cfg r = some d → (∀ x ∈ r.files, fs (join d x.1) = some x.2) ∧
      (mainName r ∉ r.files.map (·.1) → fs (join d (mainName r)) = some r.native)

/-- Writing elsewhere changes nothing. -/
theorem good_frame {cfg : Cfg} {r : Rendered} {fs : Dict Str Bytes} {f : Str} {c : Bytes} {pc : Pc} (hpl : Place cfg r pc)
    (hf : ∀ d, dirOf cfg r = some d → ∀ n ∈ mainName r :: r.files.map (·.1), f ≠ join d n) (h : Good cfg r fs pc) :
    Good cfg r (fs.set f c) pc := by
  have key : ∀ d, dirOf cfg r = some d → ∀ n ∈ mainName r :: r.files.map (·.1), (fs.set f c) (join d n) = fs (join d n) := by
    intro d hd n hn
    simp only [Dict.set]
    rw [if_neg (fun h => hf d hd n hn h.symm)]
  have hmem : ∀ x ∈ r.files, x.1 ∈ mainName r :: r.files.map (·.1) :=
    fun x hx => List.mem_cons_of_mem _ (List.mem_map.2 ⟨x, hx, rfl⟩)
  cases pc with
  | start => trivial
  | main d => trivial
  | extra d left =>
    obtain ⟨h1, h2⟩ := h
    refine ⟨fun x hx => ?_, fun hn => ?_⟩
    · rw [key d hpl.1 _ (hmem x hx)]; exact h1 x hx
    · rw [key d hpl.1 _ (by simp)]; exact h2 hn
  | done =>
    intro d hd
    obtain ⟨h1, h2⟩ := h d hd
    refine ⟨fun x hx => ?_, fun hn => ?_⟩
    · rw [key d hd _ (hmem x hx)]; exact h1 x hx
    · rw [key d hd _ (by simp)]; exact h2 hn

theorem name_inj {l : List (Str × Bytes)} (h : (l.map (·.1)).Nodup) {x y : Str × Bytes} (hx : x ∈ l) (hy : y ∈ l) (e : x.1 = y.1) : x = y := by
  induction l with
  | nil => simp at hx
  | cons z l ih =>
    simp only [List.map_cons, List.nodup_cons, List.mem_map, not_exists, not_and] at h
    rcases List.mem_cons.1 hx with hx | hx <;> rcases List.mem_cons.1 hy with hy | hy
    · rw [hx, hy]
    · exact absurd (by rw [← e, hx]) (h.1 y hy)
    · exact absurd (by rw [e, hy]) (h.1 x hx)
    · exact ih h.2 hx hy

theorem mem_eraseIdx_or {α : Type} {l : List α} {k : Nat} {x y : α} (hk : l[k]? = some x) (hy : y ∈ l) : y = x ∨ y ∈ l.eraseIdx k := by
  induction l generalizing k with
  | nil => simp at hy
  | cons z l ih =>
    cases k with
    | zero =>
      simp only [List.getElem?_cons_zero, Option.some.injEq] at hk; subst hk
      rcases List.mem_cons.1 hy with rfl | hy
      · exact .inl rfl
      · exact .inr (by simpa using hy)
    | succ k =>
      simp only [List.getElem?_cons_succ] at hk
      rcases List.mem_cons.1 hy with rfl | hy
      · exact .inr (by simp)
      · rcases ih hk hy with h | h
        · exact .inl h
        · exact .inr (by simp [h])

theorem good_step {cfg : Cfg} {rs : List Rendered} (hs : Sane cfg rs) {s s' : St} {a : Act} (hi : Inv cfg rs s)
    (hg : ∀ (i : Nat) (r : Rendered) (pc : Pc), rs[i]? = some r → s.pcs[i]? = some pc → Good cfg r s.fs pc)
    (e : s.step cfg rs a = some s') (he : s'.err = none) :
    ∀ (i : Nat) (r : Rendered) (pc : Pc), rs[i]? = some r → s'.pcs[i]? = some pc → Good cfg r s'.fs pc := by
  intro j q pcj hq hj
  obtain ⟨r, pc, hr, hp, hkind⟩ := step_kind e
  have hpl := hi.place _ _ _ hr hp
  have hgr := hg _ _ _ hr hp
  have hrm := List.mem_of_getElem? hr
  -- no file is written
  have quiet : ∀ pc', s'.pcs = s.pcs.set a.i pc' → s'.fs = s.fs → Good cfg r s.fs pc' → Good cfg q s'.fs pcj := by
    intro pc' h1 h2 h3
    rw [h1, List.getElem?_set] at hj
    rw [h2]
    split at hj
    · next hij =>
      subst hij
      split at hj
      · cases hj; rw [hr] at hq; cases hq; exact h3
      · cases hj
    · exact hg j q pcj hq hj
  -- a file is written
  have writes : ∀ pc' d n c, s'.pcs = s.pcs.set a.i pc' → s'.fs = s.fs.set (join d n) c → dirOf cfg r = some d →
      n ∈ mainName r :: r.files.map (·.1) → Good cfg r (s.fs.set (join d n) c) pc' → Good cfg q s'.fs pcj := by
    intro pc' d n c h1 h2 hd hn h3
    rw [h1, List.getElem?_set] at hj
    rw [h2]
    split at hj
    · next hij =>
      subst hij
      split at hj
      · cases hj; rw [hr] at hq; cases hq; exact h3
      · cases hj
    · next hij =>
      refine good_frame (hi.place j q pcj hq hj) ?_ (hg j q pcj hq hj)
      intro d' hd' n' hn' heq
      obtain ⟨rfl, _⟩ := join_inj (hs.leaf r hrm n hn) (hs.leaf q (List.mem_of_getElem? hq) n' hn') heq
      exact hij (dir_inj hs.dirs hr hq hd hd')
  cases hkind with
  | abs => exact absurd he (moves_fail s a.i).2
  | main d => exact quiet _ rfl rfl trivial
  | skip _ h => exact quiet .done rfl rfl (fun d hd => by simp [dirOf, h] at hd)
  | native d =>
    rcases moves_write s a.i (join d (mainName r)) r.native a.w (.extra d r.files) with ⟨_, h, _⟩ | ⟨_, _, h⟩
    · exact writes _ d (mainName r) r.native h.pcs h.fs hpl (by simp) ⟨fun x hx => .inl hx, fun _ => by simp [Dict.set]⟩
    · exact absurd he h
  | «end» d =>
    refine quiet .done rfl rfl ?_
    intro d' hd'
    rw [hpl.1] at hd'; cases hd'
    exact ⟨fun x hx => (hgr.1 x hx).resolve_left (by simp), hgr.2⟩
  | file d left x hx =>
    rcases moves_write s a.i (join d x.1) x.2 a.w (.extra d (left.eraseIdx a.pick)) with ⟨_, h, _⟩ | ⟨_, _, h⟩
    · have hxf := hpl.2 x (List.mem_of_getElem? hx)
      have hxn : x.1 ∈ mainName r :: r.files.map (·.1) := List.mem_cons_of_mem _ (List.mem_map.2 ⟨x, hxf, rfl⟩)
      refine writes _ d x.1 x.2 h.pcs h.fs hpl.1 hxn ⟨?_, ?_⟩
      · intro y hy
        by_cases hxy : y = x
        · subst hxy; exact .inr (by simp [Dict.set])
        · rcases hgr.1 y hy with hl | hl
          · exact .inl ((mem_eraseIdx_or hx hl).resolve_left hxy)
          · right
            simp only [Dict.set]
            rw [if_neg]
            · exact hl
            · intro heq
              have := (join_inj (hs.leaf r hrm _ (List.mem_cons_of_mem _ (List.mem_map.2 ⟨y, hy, rfl⟩))) (hs.leaf r hrm _ hxn) heq).2
              exact hxy (name_inj (hs.names r hrm) hy hxf this)
      · intro hn
        simp only [Dict.set]
        rw [if_neg]
        · exact hgr.2 hn
        · intro heq
          have := (join_inj (hs.leaf r hrm _ (by simp)) (hs.leaf r hrm _ hxn) heq).2
          exact hn (this ▸ List.mem_map.2 ⟨x, hxf, rfl⟩)
    · exact absurd he h

theorem good_run {cfg : Cfg} {rs : List Rendered} (hs : Sane cfg rs) {s s' : St} {as : List Act} (hi : Inv cfg rs s)
    (hg : ∀ (i : Nat) (r : Rendered) (pc : Pc), rs[i]? = some r → s.pcs[i]? = some pc → Good cfg r s.fs pc)
    (e : s.run cfg rs as = some s') (hw : ∀ a ∈ as, a.w = .ok) (h0 : s.err = none)
    (ha : ∀ r ∈ rs, cfg.should r.path = true → cfg.abs r.path ≠ none) :
    ∀ (i : Nat) (r : Rendered) (pc : Pc), rs[i]? = some r → s'.pcs[i]? = some pc → Good cfg r s'.fs pc := by
  induction as generalizing s with
  | nil => cases e; exact hg
  | cons a as ih =>
    simp only [St.run] at e
    split at e
    · cases e
    · next m hm =>
      have hme := step_no_err hm h0 (hw a (by simp)) ha
      exact ih (inv_step hi hm) (good_step hs hi hg hm hme) e (fun b hb => hw b (List.mem_cons_of_mem _ hb)) hme

theorem contents (cfg : Cfg) (rs : List Rendered) (hs : Sane cfg rs) (fs : Dict Str Bytes) (as : List Act) (s : St)
    (h : (St.init fs rs).run cfg rs as = some s) (hf : s.finished) (he : s.err = none) (r : Rendered) (hr : r ∈ rs) (d : Str)
    (hd : dirOf cfg r = some d) :
    (∀ x ∈ r.files, s.fs (join d x.1) = some x.2) ∧
    (mainName r ∉ r.files.map (·.1) → s.fs (join d (mainName r)) = some r.native) := by
  obtain ⟨h1, h2⟩ := (C128_reported cfg rs fs as s h hf).1 he
  obtain ⟨i, hlt, hi'⟩ := List.mem_iff_getElem.1 hr
  have hr' : rs[i]? = some r := by rw [List.getElem?_eq_getElem hlt, hi']
  refine good_run hs (inv_init cfg fs rs) ?_ h h1 rfl h2 i r .done hr' (finished_at (inv_run (inv_init cfg fs rs) h) hf hr') d hd
  intro i r pc hr hp
  simp only [St.init, List.getElem?_map, hr, Option.map_some, Option.some.injEq] at hp
  subst hp; trivial

/-- **C128 (c)** If no error is returned, every package that is to be written and whose name is not that of an additional file has its
main file and its additional files in its directory, with what was generated for it, in every interleaving. Missing for the full
statement: packages named like an additional file (`C128_lost`) and packages that are not to be written (`C128_skipped`). -/
theorem C128_written_partial (cfg : Cfg) (rs : List Rendered) (hs : Sane cfg rs) (fs : Dict Str Bytes) (as : List Act) (s : St)
    (h : (St.init fs rs).run cfg rs as = some s) (hf : s.finished) (he : s.err = none) (r : Rendered) (hr : r ∈ rs)
    (hsh : cfg.should r.path = true) (hn : mainName r ∉ r.files.map (·.1)) :
    ∃ d, cfg.abs r.path = some d ∧ s.fs (d ++ lit "/" ++ r.pkg ++ lit ".go") = some r.native ∧
      ∀ x ∈ r.files, s.fs (d ++ lit "/" ++ x.1) = some x.2 := by
  obtain ⟨_, h2⟩ := (C128_reported cfg rs fs as s h hf).1 he
  cases hd : cfg.abs r.path with
  | none => exact absurd hd (h2 r hr hsh)
  | some d =>
    obtain ⟨h3, h4⟩ := contents cfg rs hs fs as s h hf he r hr d (by simp [dirOf, hsh, hd])
    refine ⟨d, rfl, ?_, ?_⟩
    · have := h4 hn
      have hne := (hs.leaf r hr (mainName r) (by simp)).1
      rw [join, if_neg hne, mainName, ← List.append_assoc] at this
      exact this
    · intro x hx
      have := h3 x hx
      rwa [join, if_neg (hs.leaf r hr x.1 (List.mem_cons_of_mem _ (List.mem_map.2 ⟨x, hx, rfl⟩))).1] at this

/-! ### Where it fails -/

/-- **C128 is violated** A package named `clawiter` or `clawingest` that has structs loses its main file: the iterators or the decoder are
written over it, and there is no error, in every interleaving and whatever other packages there are. -/
theorem C128_lost (cfg : Cfg) (rs : List Rendered) (hs : Sane cfg rs) (fs : Dict Str Bytes) (as : List Act) (s : St)
    (h : (St.init fs rs).run cfg rs as = some s) (hf : s.finished) (he : s.err = none) (path native iter ingest d : Str)
    (hsh : cfg.should path = true) (hd : cfg.abs path = some d) :
    (rendered (lit "clawiter") path native true iter ingest ∈ rs → s.fs (d ++ lit "/clawiter.go") = some iter) ∧
    (rendered (lit "clawingest") path native true iter ingest ∈ rs → s.fs (d ++ lit "/clawingest.go") = some ingest) := by
  constructor
  · intro hr
    have := (contents cfg rs hs fs as s h hf he _ hr d (by simp [dirOf, rendered, hsh, hd])).1 (lit "clawiter.go", iter) (by simp [rendered])
    rw [join, if_neg (by simp [lit]), List.append_assoc] at this
    exact this
  · intro hr
    have := (contents cfg rs hs fs as s h hf he _ hr d (by simp [dirOf, rendered, hsh, hd])).1 (lit "clawingest.go", ingest) (by simp [rendered])
    rw [join, if_neg (by simp [lit]), List.append_assoc] at this
    exact this

/-- **C128 is violated** Without claw.work, nothing is written for packages whose path does not begin with the origin of the git
repository, such as the package being compiled in a fork of the repository that claw.mod names; and there is no error. -/
theorem C128_skipped (origin root : Str) (rs : List Rendered) (hout : ∀ r ∈ rs, Vendor.inRepo origin r.path = false) (fs : Dict Str Bytes)
    (as : List Act) (s : St) (h : (St.init fs rs).run (plainCfg origin root) rs as = some s) (hf : s.finished) : s.err = none ∧ s.fs = fs := by
  have hall : ∀ r ∈ rs, dirOf (plainCfg origin root) r = none := by
    intro r hr; simp [dirOf, plainCfg, hout r hr]
  have hq : ∀ (bs : List Act) (u v : St), Inv (plainCfg origin root) rs u → u.run (plainCfg origin root) rs bs = some v → ∀ a ∈ bs, a.w = .ok := by
    intro bs
    induction bs with
    | nil => simp
    | cons b bs ih =>
      intro u v hu hv a ha
      simp only [St.run] at hv
      split at hv
      · cases hv
      · next m hm =>
        rcases List.mem_cons.1 ha with rfl | ha
        · obtain ⟨r, pc, hr, hp, hk⟩ := step_kind hm
          have hpl := hu.place _ _ _ hr hp
          have hno := hall r (List.mem_of_getElem? hr)
          cases hk with
          | abs hw => exact hw
          | main d hw => exact hw
          | skip hw => exact hw
          | native d => simp only [Place, hno] at hpl; cases hpl
          | «end» d hw => exact hw
          | file d left x _ => simp only [Place, hno] at hpl; exact absurd hpl.1 (by simp)
        · exact ih m v (inv_step hu hm) hv a ha
  refine ⟨(C128_reported _ rs fs as s h hf).2 ⟨hq as _ s (inv_init _ fs rs) h, fun r hr => by simp [plainCfg]⟩, ?_⟩
  funext f
  refine C128_nothing_else _ rs fs as s h f ?_
  rintro ⟨r, hr, d, hd, _⟩
  rw [hall r hr] at hd; cases hd

/-- **C128 is violated** With claw.work, in such a repository, the package being compiled goes to the directory of vendored packages, not
beside its schema. -/
theorem C128_misplaced (origin root vendorDir path : Str) (hout : Vendor.inRepo origin path = false) (hp : path ≠ []) :
    (vendoredCfg origin root vendorDir).should path = true ∧
    (vendoredCfg origin root vendorDir).abs path = some (vendorDir ++ lit "/" ++ path) := by
  refine ⟨rfl, ?_⟩
  simp only [vendoredCfg, hout, join, if_neg hp]
  rfl

/-- **C128 (e)** Packages of the repository go beside their schemas. -/
theorem C128_beside (origin root vendorDir rel : Str) (ho : origin ≠ []) (hr : rel ≠ [])
    (hc : Str.contains (lit "/" ++ rel) origin = false) :
    (plainCfg origin root).should (origin ++ lit "/" ++ rel) = true ∧
    (plainCfg origin root).abs (origin ++ lit "/" ++ rel) = some (root ++ lit "/" ++ rel) ∧
    (vendoredCfg origin root vendorDir).abs (origin ++ lit "/" ++ rel) = some (root ++ lit "/" ++ rel) := by
  obtain ⟨_, _, _, h1, h2, _⟩ := Vendor.C94_inside_partial ho vendorDir hc
  refine ⟨h1, ?_, ?_⟩
  · simp only [plainCfg, h2, join, if_neg hr]
  · simp only [vendoredCfg, h1, h2, join, if_neg hr, if_true]

/-- **C128 is violated** A package may have a name that ends in `_test`: its main file is then one that the Go tools leave out of the
package. -/
theorem C128_test_file (r : Rendered) (stem : Str) (h : r.pkg = stem ++ lit "_test") : isTestFile (mainName r) :=
  ⟨stem, by rw [mainName, h, List.append_assoc]; rfl⟩

example : Claw.Mod.validPackage Claw.Idl.ascii (lit "unit_test") = .ok () := by decide
example : Claw.Mod.validPackage Claw.Idl.ascii (lit "clawiter") = .ok () := by decide

/-! ### It ends -/

/-- How many actions a goroutine has left at most. -/
def weight (r : Rendered) : Pc → Nat
  | .start => r.files.length + 3
  | .main _ => r.files.length + 2
  | .extra _ left => left.length + 1
  | .done => 0

def total : List Rendered → List Pc → Nat
  | r :: rs, pc :: pcs => weight r pc + total rs pcs
  | _, _ => 0

theorem total_set : ∀ (rs : List Rendered) (pcs : List Pc) (i : Nat) (r : Rendered) (pc pc' : Pc), rs[i]? = some r → pcs[i]? = some pc →
    weight r pc' < weight r pc → total rs (pcs.set i pc') < total rs pcs
  | [], _, i, r, pc, pc', h, _, _ => by simp at h
  | _ :: _, [], i, r, pc, pc', _, h, _ => by simp at h
  | x :: rs, y :: pcs, 0, r, pc, pc', h, h', hw => by
    simp only [List.getElem?_cons_zero, Option.some.injEq] at h h'
    subst h h'
    simp only [List.set_cons_zero, total]; omega
  | x :: rs, y :: pcs, i + 1, r, pc, pc', h, h', hw => by
    simp only [List.getElem?_cons_succ] at h h'
    have := total_set rs pcs i r pc pc' h h' hw
    simp only [List.set_cons_succ, total]; omega

theorem step_total {cfg : Cfg} {rs : List Rendered} {s s' : St} {a : Act} (e : s.step cfg rs a = some s') : total rs s'.pcs < total rs s.pcs := by
  obtain ⟨r, pc, hr, hp, hk⟩ := step_kind e
  have key : ∀ pc', s'.pcs = s.pcs.set a.i pc' → weight r pc' < weight r pc → total rs s'.pcs < total rs s.pcs := by
    intro pc' h1 h2; rw [h1]; exact total_set rs s.pcs a.i r pc pc' hr hp h2
  cases hk with
  | abs => exact key .done rfl (by simp [weight])
  | main d => exact key (.main d) rfl (by simp [weight])
  | skip => exact key .done rfl (by simp [weight])
  | native d =>
    rcases moves_write s a.i (join d (mainName r)) r.native a.w (.extra d r.files) with ⟨_, h, _⟩ | ⟨_, ⟨x, h, _⟩, _⟩
    · exact key _ h.pcs (by simp [weight])
    · exact key _ h.pcs (by simp [weight])
  | «end» d => exact key .done rfl (by simp [weight])
  | file d left x hx =>
    have hlt : a.pick < left.length := (List.getElem?_eq_some_iff.1 hx).1
    rcases moves_write s a.i (join d x.1) x.2 a.w (.extra d (left.eraseIdx a.pick)) with ⟨_, h, _⟩ | ⟨_, ⟨x, h, _⟩, _⟩
    · exact key _ h.pcs (by simp only [weight, List.length_eraseIdx, if_pos hlt]; omega)
    · exact key _ h.pcs (by simp [weight])

/-- **C128 (d)** It ends: no execution has more than three actions and one for each additional file per package, and while a goroutine
has not returned one can go on, whatever failed. -/
theorem C128_ends (cfg : Cfg) (rs : List Rendered) (fs : Dict Str Bytes) (as : List Act) (s : St)
    (h : (St.init fs rs).run cfg rs as = some s) :
    as.length ≤ (rs.map fun r => r.files.length + 3).sum ∧ (¬ s.finished → ∃ a, (s.step cfg rs a).isSome = true) := by
  constructor
  · have h1 : ∀ (bs : List Act) (u v : St), u.run cfg rs bs = some v → bs.length + total rs v.pcs ≤ total rs u.pcs := by
      intro bs
      induction bs with
      | nil => intro u v h; cases h; simp
      | cons b bs ih =>
        intro u v h
        simp only [St.run] at h
        split at h
        · cases h
        · next m hm =>
          have := ih m v h
          have := step_total hm
          simp only [List.length_cons]; omega
    have h2 : ∀ l : List Rendered, total l (l.map fun _ => .start) = (l.map fun r => r.files.length + 3).sum := by
      intro l
      induction l with
      | nil => rfl
      | cons r l ih => simp only [List.map_cons, total, weight, List.sum_cons, ih]
    have := h1 as _ s h
    rw [St.init, h2] at this
    omega
  · intro hnf
    have hi := inv_run (inv_init cfg fs rs) h
    obtain ⟨pc, hm, hne⟩ : ∃ pc ∈ s.pcs, pc ≠ .done := by
      simpa [St.finished] using hnf
    obtain ⟨i, hlt, hpc⟩ := List.mem_iff_getElem.1 hm
    have hp : s.pcs[i]? = some pc := by rw [List.getElem?_eq_getElem hlt, hpc]
    have hlt' : i < rs.length := hi.len ▸ hlt
    have hr : rs[i]? = some rs[i] := List.getElem?_eq_getElem hlt'
    refine ⟨⟨i, 0, .ok⟩, ?_⟩
    cases pc with
    | start =>
      simp only [St.step, hr, hp]
      simp only [ne_eq, not_true_eq_false, if_false]
      split
      · split <;> rfl
      · rfl
    | main d => simp [St.step, hr, hp]
    | extra d left => cases left <;> simp [St.step, hr, hp]
    | done => exact absurd rfl hne

/-! ### An execution -/

def demoCfg : Cfg := vendoredCfg (lit "m.n/o") (lit "/r") (lit "/v")
def demoRs : List Rendered := [rendered (lit "x") (lit "a.b/c/x") [1] true [2] [3], rendered (lit "y") (lit "a.b/c/y") [4] false [] []]

theorem demo_sane : Sane demoCfg demoRs := ⟨by unfold Leaf; decide, by decide, by decide⟩

/-- Two packages, interleaved, the additional files in the order of neither. -/
def demoActs : List Act := [⟨0, 0, .ok⟩, ⟨1, 0, .ok⟩, ⟨1, 0, .ok⟩, ⟨0, 0, .ok⟩, ⟨0, 1, .ok⟩, ⟨1, 0, .ok⟩, ⟨0, 0, .ok⟩, ⟨0, 0, .ok⟩]

example : ∃ s, (St.init Dict.empty demoRs).run demoCfg demoRs demoActs = some s ∧ s.finished ∧ s.err = none ∧
    s.fs (lit "/v/a.b/c/x/x.go") = some [1] ∧ s.fs (lit "/v/a.b/c/x/clawiter.go") = some [2] ∧ s.fs (lit "/v/a.b/c/x/clawingest.go") = some [3] ∧
    s.fs (lit "/v/a.b/c/y/y.go") = some [4] :=
  ⟨_, rfl, by unfold St.finished; decide, by decide, by decide, by decide, by decide, by decide⟩

/-- One write fails: the error of package 0 is returned, the other package is written. -/
example : ∃ s, (St.init Dict.empty demoRs).run demoCfg demoRs
      [⟨0, 0, .ok⟩, ⟨1, 0, .ok⟩, ⟨1, 0, .ok⟩, ⟨0, 0, .fails none⟩, ⟨1, 0, .ok⟩] = some s ∧ s.finished ∧ s.err = some 0 ∧
    s.fs (lit "/v/a.b/c/x/x.go") = none ∧ s.fs (lit "/v/a.b/c/y/y.go") = some [4] :=
  ⟨_, rfl, by unfold St.finished; decide, by decide, by decide, by decide⟩

/-- A package named `clawiter`. -/
def lostRs : List Rendered := [rendered (lit "clawiter") (lit "a.b/c/clawiter") [1] true [2] [3]]

example : Sane demoCfg lostRs := ⟨by unfold Leaf; decide, by decide, by decide⟩

example : ∃ s, (St.init Dict.empty lostRs).run demoCfg lostRs [⟨0, 0, .ok⟩, ⟨0, 0, .ok⟩, ⟨0, 1, .ok⟩, ⟨0, 0, .ok⟩, ⟨0, 0, .ok⟩] = some s ∧
    s.finished ∧ s.err = none ∧ s.fs (lit "/v/a.b/c/clawiter/clawiter.go") = some [2] :=
  ⟨_, rfl, by unfold St.finished; decide, by decide, by decide⟩

/-- A fork. -/
example : ∃ s, (St.init Dict.empty demoRs).run (plainCfg (lit "f.k/c") (lit "/r")) demoRs [⟨0, 0, .ok⟩, ⟨1, 0, .ok⟩] = some s ∧ s.finished :=
  ⟨_, rfl, by unfold St.finished; decide⟩

end Claw.Writer
