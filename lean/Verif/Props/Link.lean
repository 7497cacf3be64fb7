import Verif.Spec.Link
import Verif.Props.Locate
import Verif.Props.Idl

/-!
# C127: generated packages in one program
-/

namespace Claw.Link

open Claw.Idl (Out Uni validateIdent)
open Claw.Vendor (transformImportPath)

/-- **C127 (a)** A name that the compiler takes for a struct has no dot. -/
theorem C127_names {u : Uni} (hu : DotOk u) {name : Str} (h : validateIdent u name = .ok ()) : Plain name := by
  intro hd
  have hr := hu.rune name hd
  unfold validateIdent at h
  split at h
  · simp at h
  · next r rs e =>
    rw [e] at hr
    simp only [Out.guard] at h
    split at h
    · simp only [Out.ok_bind] at h
      split at h
      · next hl =>
        simp only [Out.ok_bind] at h
        split at h
        · next ha =>
          rcases List.mem_cons.1 hr with h46 | h46
          · rw [← h46, hu.letter] at hl; simp at hl
          · have := List.all_eq_true.1 ha 46 h46
            rw [hu.letter, hu.number] at this; simp at this
        · simp at h
      · simp at h
    · simp at h

theorem dot_ascii : DotOk Claw.Idl.ascii := by
  constructor
  · intro s h
    simp only [Claw.Idl.ascii]
    exact List.mem_map.2 ⟨46, h, rfl⟩
  · decide
  · decide

theorem split_last : ∀ (a a' b b' : Str), Plain b → Plain b' → a ++ 46 :: b = a' ++ 46 :: b' → a = a' ∧ b = b'
  | [], [], b, b', _, _, h => by simpa using h
  | [], x :: a', b, b', hb, _, h => by
    simp only [List.nil_append, List.cons_append, List.cons.injEq] at h
    exact absurd (by rw [h.2]; simp) hb
  | x :: a, [], b, b', _, hb', h => by
    simp only [List.nil_append, List.cons_append, List.cons.injEq] at h
    exact absurd (by rw [← h.2]; simp) hb'
  | x :: a, x' :: a', b, b', hb, hb', h => by
    simp only [List.cons_append, List.cons.injEq] at h
    obtain ⟨h1, h2⟩ := split_last a a' b b' hb hb' h.2
    exact ⟨by rw [h.1, h1], h2⟩

/-- **C127 (a)** What is hashed for a struct type tells the package and the struct: no two struct types of different packages or of
different names have the same, whatever the paths are. -/
theorem C127_identity {path path' name name' : Str} (h : Plain name) (h' : Plain name') :
    identity path name = identity path' name' ↔ path = path' ∧ name = name' := by
  constructor
  · intro e
    simp only [identity, List.append_assoc] at e
    exact split_last path path' name name' h h' e
  · rintro ⟨rfl, rfl⟩; rfl

example : identity (lit "a.b/c") (lit "D") ≠ identity (lit "a") (lit "D") ∧ Plain (lit "D") ∧ validateIdent Claw.Idl.ascii (lit "D") = .ok () := by
  unfold Plain; decide

variable {H : Type} [DecidableEq H]

theorem registerTypes_pkgs (hash : Str → H) (p : Pkg) : ∀ (ns : List Str) (r : Reg H),
    (ns.foldl (fun r n => r.registerTypeHash (hash (identity p.path n)) (p.entry n)) r).pkgs = r.pkgs := by
  intro ns
  induction ns with
  | nil => intro r; rfl
  | cons n ns ih =>
    intro r
    rw [List.foldl_cons, ih]
    simp only [Reg.registerTypeHash]; split <;> rfl

theorem init_eq (hash : Str → H) (r : Reg H) (p : Pkg) :
    ((r.pkgs p.path).isSome = true ∧ r.init hash p = .panic) ∨
    ((r.pkgs p.path).isSome = false ∧ ∃ r', r.init hash p = .ok r' ∧ r'.pkgs = r.pkgs.set p.path p ∧
      r'.types = (p.structs.foldl (fun r n => r.registerTypeHash (hash (identity p.path n)) (p.entry n)) r).types) := by
  cases h : (r.pkgs p.path).isSome with
  | true => exact .inl ⟨rfl, by simp [Reg.init, Reg.registerPackage, h]⟩
  | false =>
    refine .inr ⟨rfl, _, by simp only [Reg.init, Reg.registerPackage, h]; rfl, registerTypes_pkgs .., ?_⟩
    have key : ∀ (ns : List Str) (a b : Reg H), a.types = b.types →
        (ns.foldl (fun r n => r.registerTypeHash (hash (identity p.path n)) (p.entry n)) a).types
        = (ns.foldl (fun r n => r.registerTypeHash (hash (identity p.path n)) (p.entry n)) b).types := by
      intro ns
      induction ns with
      | nil => intro a b h; exact h
      | cons n ns ih =>
        intro a b h
        simp only [List.foldl_cons]
        apply ih
        simp only [Reg.registerTypeHash, h]
        split <;> simp [h]
    exact key _ _ _ rfl

theorem start_iff (hash : Str → H) : ∀ (ps : List Pkg) (r : Reg H),
    (∃ r', start hash ps r = .ok r') ↔ (ps.map (·.path)).Nodup ∧ ∀ p ∈ ps, r.pkgs p.path = none := by
  intro ps
  induction ps with
  | nil => intro r; simp [start]
  | cons p ps ih =>
    intro r
    rcases init_eq hash r p with ⟨h, e⟩ | ⟨h, r', e, e1, _⟩
    · simp only [start, e, Out.panic_bind]
      constructor
      · rintro ⟨_, h'⟩; simp at h'
      · rintro ⟨_, h'⟩
        rw [h' p (by simp)] at h; simp at h
    · simp only [start, e, Out.ok_bind, ih r', e1, List.map_cons, List.nodup_cons, List.mem_map]
      constructor
      · rintro ⟨h1, h2⟩
        refine ⟨⟨?_, h1⟩, ?_⟩
        · rintro ⟨q, hq, hp⟩
          have := h2 q hq
          simp [Dict.set, hp] at this
        · intro q hq
          rcases List.mem_cons.1 hq with rfl | hq
          · simpa using h
          · have := h2 q hq
            simp only [Dict.set] at this
            split at this
            · simp at this
            · exact this
      · rintro ⟨⟨h1, h2⟩, h3⟩
        refine ⟨h2, ?_⟩
        intro q hq
        simp only [Dict.set]
        split
        · next hp => exact absurd ⟨q, hq, hp⟩ h1
        · exact h3 q (List.mem_cons_of_mem _ hq)

/-- **C127 (b)** A program starts exactly if no two of its generated packages were given the same path, in whatever order they are
initialised; otherwise it panics before `main`. -/
theorem C127_starts_iff (hash : Str → H) (ps : List Pkg) :
    (∃ r, start hash ps Reg.empty = .ok r) ↔ (ps.map (·.path)).Nodup := by
  rw [start_iff]; simp [Reg.empty, Dict.empty]

theorem start_ne_err (hash : Str → H) : ∀ (ps : List Pkg) (r : Reg H), start hash ps r ≠ .err := by
  intro ps
  induction ps with
  | nil => intro r; simp [start]
  | cons p ps ih =>
    intro r
    rcases init_eq hash r p with ⟨h, e⟩ | ⟨h, r', e, _, _⟩
    · simp [start, e]
    · simp only [start, e, Out.ok_bind]; exact ih r'

/-! ### Finding types -/

theorem registerTypes_keeps (hash : Str → H) (p : Pkg) (h : H) : ∀ (ns : List Str) (r : Reg H) (e : Entry), r.types h = some e →
    (ns.foldl (fun r n => r.registerTypeHash (hash (identity p.path n)) (p.entry n)) r).types h = some e := by
  intro ns
  induction ns with
  | nil => intro r e he; exact he
  | cons n ns ih =>
    intro r e he
    rw [List.foldl_cons]
    apply ih
    simp only [Reg.registerTypeHash]
    split
    · exact he
    · next hn =>
      simp only [Dict.set]
      split
      · next h' => rw [← h', he] at hn; simp at hn
      · exact he

/-- What registering the structs of a package does to the entry of a hash that nothing has yet. -/
theorem registerTypes_new (hash : Str → H) (p : Pkg) (path name : Str) (hn : Plain name) (hp : ∀ n ∈ p.structs, Plain n)
    (hc : ∀ n ∈ p.structs, hash (identity p.path n) = hash (identity path name) → identity p.path n = identity path name) :
    ∀ (ns : List Str), (∀ n ∈ ns, n ∈ p.structs) → ∀ (r : Reg H), r.types (hash (identity path name)) = none →
    (ns.foldl (fun r n => r.registerTypeHash (hash (identity p.path n)) (p.entry n)) r).types (hash (identity path name))
    = if p.path = path ∧ name ∈ ns then some (p.entry name) else none := by
  intro ns
  induction ns with
  | nil => intro _ r hr; simpa using hr
  | cons n ns ih =>
    intro hs r hr
    rw [List.foldl_cons]
    by_cases he : hash (identity p.path n) = hash (identity path name)
    · obtain ⟨h1, h2⟩ := (C127_identity (hp n (hs n (by simp))) hn).1 (hc n (hs n (by simp)) he)
      subst h2
      rw [registerTypes_keeps hash p _ ns _ (p.entry n)]
      · simp [h1]
      · simp only [Reg.registerTypeHash]
        rw [he, hr]; simp [Dict.set]
    · rw [ih (fun m hm => hs m (List.mem_cons_of_mem _ hm))]
      · have hne : p.path = path → name ≠ n := by
          intro h1 h2; subst h1; subst h2; exact he rfl
        by_cases h1 : p.path = path
        · simp [h1, hne h1]
        · simp [h1]
      · simp only [Reg.registerTypeHash]
        split
        · exact hr
        · simp only [Dict.set]
          rw [if_neg (fun h => he h.symm)]; exact hr

theorem start_types (hash : Str → H) (path name : Str) (hn : Plain name) : ∀ (ps : List Pkg) (r r' : Reg H),
    (∀ p ∈ ps, ∀ n ∈ p.structs, Plain n) → NoCollision hash ps (path, name) → start hash ps r = .ok r' →
    r'.types (hash (identity path name)) = match r.types (hash (identity path name)) with
      | some e => some e
      | none => (ps.find? fun p => decide (p.path = path ∧ name ∈ p.structs)).map fun p => p.entry name := by
  intro ps
  induction ps with
  | nil =>
    intro r r' _ _ h
    simp only [start] at h
    obtain rfl := Out.ok.inj h
    cases r.types (hash (identity path name)) <;> rfl
  | cons p ps ih =>
    intro r r' hp hc h
    rcases init_eq hash r p with ⟨_, e⟩ | ⟨_, r1, e, _, e2⟩
    · simp [start, e] at h
    · simp only [start, e, Out.ok_bind] at h
      rw [ih r1 r' (fun q hq => hp q (List.mem_cons_of_mem _ hq))
        (fun t ht he => hc t (by obtain ⟨q, hq, h1⟩ := ht; exact ⟨q, List.mem_cons_of_mem _ hq, h1⟩) he) h, e2]
      cases hr : r.types (hash (identity path name)) with
      | some x => rw [registerTypes_keeps hash p _ _ _ x hr]
      | none =>
        rw [registerTypes_new hash p path name hn (hp p (by simp))
          (fun n hn' he => hc (p.path, n) ⟨p, by simp, rfl, hn'⟩ he) p.structs (fun _ h => h) r hr]
        by_cases hm : p.path = path ∧ name ∈ p.structs
        · simp [hm]
        · rw [if_neg hm, List.find?_cons_of_neg (by simpa using hm)]

/-- **C127 (c)** In a program that starts, a struct type is found by its hash exactly if one of the packages has it, and what is
found makes structs of that type. SHAKE128 is assumed to have no collision among the types. -/
theorem C127_found (hash : Str → H) (ps : List Pkg) (r : Reg H) (h : start hash ps Reg.empty = .ok r)
    (hp : ∀ p ∈ ps, ∀ n ∈ p.structs, Plain n) (path name : Str) (hn : Plain name) (hc : NoCollision hash ps (path, name)) (e : Entry) :
    r.lookup (hash (identity path name)) = some e ↔
      ∃ p ∈ ps, p.path = path ∧ name ∈ p.structs ∧ e = ⟨name, path, p.goPath⟩ := by
  have hnd := (C127_starts_iff hash ps).1 ⟨r, h⟩
  rw [Reg.lookup, start_types hash path name hn ps _ r hp hc h]
  simp only [Reg.empty, Dict.empty]
  constructor
  · intro he
    cases hf : ps.find? (fun p => decide (p.path = path ∧ name ∈ p.structs)) with
    | none => rw [hf] at he; simp at he
    | some p =>
      rw [hf] at he
      simp only [Option.map_some, Option.some.injEq] at he
      have := List.find?_some hf
      simp only [decide_eq_true_eq] at this
      exact ⟨p, List.mem_of_find?_eq_some hf, this.1, this.2, by rw [← he, Pkg.entry, this.1]⟩
  · rintro ⟨p, hm, h1, h2, h3⟩
    have hsome : (ps.find? (fun p => decide (p.path = path ∧ name ∈ p.structs))).isSome = true := by
      rw [List.find?_isSome]; exact ⟨p, hm, by simp [h1, h2]⟩
    obtain ⟨q, hq⟩ := Option.isSome_iff_exists.1 hsome
    have hq2 := List.find?_some hq
    simp only [decide_eq_true_eq] at hq2
    have hqp : q = p := by
      have hqm := List.mem_of_find?_eq_some hq
      obtain ⟨i, hi, hi'⟩ := List.mem_iff_getElem.1 hqm
      obtain ⟨j, hj, hj'⟩ := List.mem_iff_getElem.1 hm
      have : i = j := by
        refine (List.getElem_inj (h₀ := by simpa using hi) (h₁ := by simpa using hj) hnd).1 ?_
        simp [hi', hj', h1, hq2.1]
      subst this; rw [← hi', ← hj']
    rw [hq, hqp]; simp [Pkg.entry, h1, h3]

/-- **C127 (d)** The order in which the packages are initialised makes no difference to what is found. -/
theorem C127_order (hash : Str → H) (ps qs : List Pkg) (hperm : ps.Perm qs) (r r' : Reg H) (h : start hash ps Reg.empty = .ok r)
    (h' : start hash qs Reg.empty = .ok r') (hp : ∀ p ∈ ps, ∀ n ∈ p.structs, Plain n) (path name : Str) (hn : Plain name)
    (hc : NoCollision hash ps (path, name)) :
    r.lookup (hash (identity path name)) = r'.lookup (hash (identity path name)) := by
  have hc' : NoCollision hash qs (path, name) := by
    intro t ⟨q, hq, ht⟩ he; exact hc t ⟨q, hperm.mem_iff.2 hq, ht⟩ he
  apply Option.ext
  intro e
  rw [C127_found hash ps r h hp path name hn hc, C127_found hash qs r' h' (fun p hq => hp p (hperm.mem_iff.2 hq)) path name hn hc']
  constructor <;> rintro ⟨p, hm, hr⟩
  · exact ⟨p, hperm.mem_iff.1 hm, hr⟩
  · exact ⟨p, hperm.mem_iff.2 hm, hr⟩

/-- **C127 is violated** A package `p` that two repositories vendor becomes two Go packages with one path: a program that has both,
directly or through libraries, panics before `main`. For all repositories, vendor directories and packages. -/
theorem C127_vendored_twice (hash : Str → H) {repo dir repo' dir' p : Str} (hr : repo ≠ []) (hd : dir ≠ []) (hr' : repo' ≠ []) (hd' : dir' ≠ [])
    (hp : Str.hasPrefix repo p = false) (hp' : Str.hasPrefix repo' p = false)
    (hne : repo ++ lit "/" ++ dir ≠ repo' ++ lit "/" ++ dir') (structs : List Str) (ps : List Pkg)
    (h : ⟨transformImportPath repo dir p, p, structs⟩ ∈ ps) (h' : ⟨transformImportPath repo' dir' p, p, structs⟩ ∈ ps) :
    transformImportPath repo dir p ≠ transformImportPath repo' dir' p ∧ start hash ps Reg.empty = .panic := by
  have e := (Claw.Vendor.C94_outside_partial hr hd hp).1
  have e' := (Claw.Vendor.C94_outside_partial hr' hd' hp').1
  have hg : transformImportPath repo dir p ≠ transformImportPath repo' dir' p := by
    rw [e, e']
    intro heq
    simp only [List.append_assoc] at heq
    apply hne
    have h1 : (repo ++ lit "/" ++ dir) ++ (lit "/" ++ p) = (repo' ++ lit "/" ++ dir') ++ (lit "/" ++ p) := by
      simpa only [List.append_assoc] using heq
    exact List.append_cancel_right h1
  refine ⟨hg, ?_⟩
  cases hs : start hash ps (Reg.empty : Reg H) with
  | panic => rfl
  | err => exact absurd hs (start_ne_err hash ps _)
  | ok r =>
    exfalso
    have hnd := (C127_starts_iff hash ps).1 ⟨r, hs⟩
    obtain ⟨i, hi, hi'⟩ := List.mem_iff_getElem.1 h
    obtain ⟨j, hj, hj'⟩ := List.mem_iff_getElem.1 h'
    have : i = j := by
      refine (List.getElem_inj (h₀ := by simpa using hi) (h₁ := by simpa using hj) hnd).1 ?_
      simp [hi', hj']
    subst this
    rw [hi'] at hj'
    exact hg (Pkg.mk.inj hj').1

/-- **C127 is violated** The same for a program that uses a package and a library that vendors it. -/
theorem C127_vendored_and_direct (hash : Str → H) {repo dir p : Str} (hr : repo ≠ []) (hd : dir ≠ [])
    (hp : Str.hasPrefix repo p = false) (structs : List Str) (ps : List Pkg)
    (h : ⟨transformImportPath repo dir p, p, structs⟩ ∈ ps) (h' : ⟨p, p, structs⟩ ∈ ps) :
    transformImportPath repo dir p ≠ p ∧ start hash ps Reg.empty = .panic := by
  have e := (Claw.Vendor.C94_outside_partial hr hd hp).1
  have hg : transformImportPath repo dir p ≠ p := by
    rw [e]
    intro heq
    have := congrArg List.length heq
    simp only [List.length_append] at this
    have h1 : 0 < (lit "/").length := by decide
    omega
  refine ⟨hg, ?_⟩
  cases hs : start hash ps (Reg.empty : Reg H) with
  | panic => rfl
  | err => exact absurd hs (start_ne_err hash ps _)
  | ok r =>
    exfalso
    have hnd := (C127_starts_iff hash ps).1 ⟨r, hs⟩
    obtain ⟨i, hi, hi'⟩ := List.mem_iff_getElem.1 h
    obtain ⟨j, hj, hj'⟩ := List.mem_iff_getElem.1 h'
    have : i = j := by
      refine (List.getElem_inj (h₀ := by simpa using hi) (h₁ := by simpa using hj) hnd).1 ?_
      simp [hi', hj']
    subst this
    rw [hi'] at hj'
    exact hg (Pkg.mk.inj hj').1

/-! ### A program of two packages -/

/-- Two packages with a struct of the same name. -/
def demoPkgs : List Pkg :=
  [⟨lit "a.b/c", lit "a.b/c", [lit "D", lit "E"]⟩, ⟨lit "x.y/v/q.r/s", lit "q.r/s", [lit "D"]⟩]

theorem demo_starts : ∃ r, start (fun s => s) demoPkgs Reg.empty = .ok r := (C127_starts_iff _ demoPkgs).2 (by decide)

example : ∃ r : Reg Str, start (fun s => s) demoPkgs Reg.empty = .ok r ∧
    r.lookup (identity (lit "q.r/s") (lit "D")) = some ⟨lit "D", lit "q.r/s", lit "x.y/v/q.r/s"⟩ ∧
    r.lookup (identity (lit "q.r/s") (lit "E")) = none := by
  obtain ⟨r, h⟩ := demo_starts
  have hp : ∀ p ∈ demoPkgs, ∀ n ∈ p.structs, Plain n := by unfold Plain; decide
  have hc : ∀ t, NoCollision (fun s => s) demoPkgs t := fun t t' _ h => h
  refine ⟨r, h, ?_, ?_⟩
  · exact (C127_found _ demoPkgs r h hp _ _ (by unfold Plain; decide) (hc _) _).2
      ⟨⟨lit "x.y/v/q.r/s", lit "q.r/s", [lit "D"]⟩, by decide, rfl, by decide, rfl⟩
  · apply Option.eq_none_iff_forall_not_mem.2
    intro e he
    obtain ⟨p, hm, h1, h2, _⟩ := (C127_found _ demoPkgs r h hp _ _ (by unfold Plain; decide) (hc _) e).1 he
    have : ∀ p ∈ demoPkgs, p.path = lit "q.r/s" → lit "E" ∉ p.structs := by decide
    exact this p hm h1 h2

example : start (fun s => s) [⟨transformImportPath (lit "m.e/r") (lit "v") (lit "q.r/s"), lit "q.r/s", [lit "D"]⟩,
    ⟨lit "q.r/s", lit "q.r/s", [lit "D"]⟩] Reg.empty = .panic :=
  (C127_vendored_and_direct _ (repo := lit "m.e/r") (dir := lit "v") (p := lit "q.r/s") (by decide) (by decide) (by decide)
    [lit "D"] _ (by simp) (by simp)).2

example : start (fun s => s) [⟨transformImportPath (lit "m.e/r") (lit "v") (lit "q.r/s"), lit "q.r/s", [lit "D"]⟩,
    ⟨transformImportPath (lit "n.e/t") (lit "v") (lit "q.r/s"), lit "q.r/s", [lit "D"]⟩] Reg.empty = .panic :=
  (C127_vendored_twice _ (repo := lit "m.e/r") (dir := lit "v") (repo' := lit "n.e/t") (dir' := lit "v") (p := lit "q.r/s")
    (by decide) (by decide) (by decide) (by decide) (by decide) (by decide) (by decide) [lit "D"] _ (by simp) (by simp)).2

end Claw.Link
