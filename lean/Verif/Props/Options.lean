import Verif.Spec.Options

/-!
# C125 Options lines, C126 Lines at the head of a file
-/

namespace Claw.Options

variable {u : Uni}

/-! ### Inside the parentheses -/

theorem Uni.Ok.mark (hu : u.Ok) {r : Rune} (h : r ∈ [lbrack, rbrack, lparen, rparen, comma, quote, slash]) :
    u.space r = false ∧ u.letter r = false := hu.marks r h

theorem args_spaces (sp : List Rune) (hs : Spaces u sp) (rest : List Rune) : ∀ (s : ASt), s.inQuote = false →
    s.foundRight = false → ∃ l', parseArgs u (sp ++ rest) s = parseArgs u rest { s with last := l' } := by
  induction sp with
  | nil => intro s _ _; exact ⟨s.last, rfl⟩
  | cons r sp ih =>
    intro s hq hf
    obtain ⟨ar, bf, q, la, ln, fr⟩ := s
    simp only at hq hf
    subst hq hf
    have hr : u.space r = true := hs r (by simp)
    obtain ⟨l', h⟩ := ih (fun x hx => hs x (by simp [hx])) ⟨ar, bf, false, r, ln, false⟩ rfl rfl
    refine ⟨l', ?_⟩
    simp only [List.cons_append, parseArgs, Bool.false_eq_true, if_false, ASt.step, hr, if_true, ASt.note]
    exact h

theorem args_text (hu : u.Ok) (tx : List Rune) (ht : ArgText u tx) (rest : List Rune) : ∀ (s : ASt), s.inQuote = true →
    s.foundRight = false → ∃ l' n', parseArgs u (tx ++ rest) s =
      parseArgs u rest { s with buff := s.buff ++ tx, last := l', lastNS := n' } := by
  induction tx with
  | nil => intro s _ _; exact ⟨s.last, s.lastNS, by simp⟩
  | cons r tx ih =>
    intro s hq hf
    obtain ⟨ar, bf, q, la, ln, fr⟩ := s
    simp only at hq hf
    subst hq hf
    have hstep : ∃ n, ASt.step u ⟨ar, bf, true, la, ln, false⟩ r = some ⟨ar, bf ++ [r], true, r, n, false⟩ := by
      rcases ht r (by simp) with h | h | h
      · have hsp : u.space r = false := by
          cases e : u.space r with
          | false => rfl
          | true => rw [hu.disjoint r e] at h; cases h
        have h1 : r ≠ comma := fun e => by rw [e, (hu.mark (by simp)).2] at h; cases h
        have h2 : r ≠ quote := fun e => by rw [e, (hu.mark (by simp)).2] at h; cases h
        exact ⟨r, by simp [ASt.step, hsp, h1, h2, h, ASt.note]⟩
      · exact ⟨ln, by simp [ASt.step, h, ASt.note]⟩
      · subst h
        exact ⟨comma, by simp [ASt.step, (hu.mark (r := comma) (by simp)).1, ASt.note]⟩
    obtain ⟨n, hn⟩ := hstep
    obtain ⟨l', n', h⟩ := ih (fun x hx => ht x (by simp [hx])) ⟨ar, bf ++ [r], true, r, n, false⟩ rfl rfl
    refine ⟨l', n', ?_⟩
    simp only [List.cons_append, parseArgs, Bool.false_eq_true, if_false, hn]
    rw [h]
    simp

theorem args_arg (hu : u.Ok) (a : ArgL) (ha : a.Ok u) (rest : List Rune) (s : ASt) (hq : s.inQuote = false)
    (hb : s.buff = []) (hf : s.foundRight = false) : ∃ l', parseArgs u (a.text' ++ rest) s =
      parseArgs u rest { s with args := s.args ++ [a.text], last := l', lastNS := quote } := by
  obtain ⟨ar, bf, q, la, ln, fr⟩ := s
  simp only at hq hb hf
  subst hq hb hf
  obtain ⟨h1, h2, h3⟩ := ha
  have hsq := (hu.mark (r := quote) (by simp)).1
  have hcq : quote ≠ comma := by decide
  obtain ⟨l1, e1⟩ := args_spaces a.pre h1 (quote :: (a.text ++ quote :: a.post) ++ rest) ⟨ar, [], false, la, ln, false⟩ rfl rfl
  obtain ⟨l2, n2, e2⟩ := args_text hu a.text h2 (quote :: (a.post ++ rest)) ⟨ar, [], true, quote, quote, false⟩ rfl rfl
  obtain ⟨l3, e3⟩ := args_spaces a.post h3 rest ⟨ar ++ [a.text], [], false, quote, quote, false⟩ rfl rfl
  refine ⟨l3, ?_⟩
  rw [show a.text' ++ rest = a.pre ++ (quote :: (a.text ++ quote :: a.post) ++ rest) by simp [ArgL.text'], e1]
  rw [show quote :: (a.text ++ quote :: a.post) ++ rest = quote :: (a.text ++ quote :: (a.post ++ rest)) by simp]
  rw [parseArgs]
  simp only [Bool.false_eq_true, if_false, ASt.step, hsq, hcq, ASt.note, if_true]
  rw [e2, parseArgs]
  simp only [Bool.false_eq_true, if_false, ASt.step, hsq, hcq, ASt.note, if_true, List.nil_append]
  rw [← e3]

theorem args_commas (hu : u.Ok) (as : List ArgL) : as ≠ [] → (∀ a ∈ as, a.Ok u) → ∀ (rest : List Rune) (s : ASt),
    s.inQuote = false → s.buff = [] → s.foundRight = false → ∃ l', parseArgs u (commas (as.map ArgL.text') ++ rest) s =
      parseArgs u rest { s with args := s.args ++ as.map ArgL.text, last := l', lastNS := quote } := by
  induction as with
  | nil => intro h; exact absurd rfl h
  | cons a as ih =>
    intro _ ha rest s hq hb hf
    obtain ⟨ar, bf, q, la, ln, fr⟩ := s
    simp only at hq hb hf
    subst hq hb hf
    cases as with
    | nil =>
      obtain ⟨l', h⟩ := args_arg hu a (ha a (by simp)) rest ⟨ar, [], false, la, ln, false⟩ rfl rfl rfl
      exact ⟨l', by simpa [commas] using h⟩
    | cons b as =>
      obtain ⟨l1, h1⟩ := args_arg hu a (ha a (by simp)) (comma :: commas ((b :: as).map ArgL.text') ++ rest)
        ⟨ar, [], false, la, ln, false⟩ rfl rfl rfl
      obtain ⟨l2, h2⟩ := ih (by simp) (fun x hx => ha x (by simp [hx])) rest
        ⟨ar ++ [a.text], [], false, comma, comma, false⟩ rfl rfl rfl
      refine ⟨l2, ?_⟩
      simp only [List.map_cons, commas, List.append_assoc, List.cons_append] at h1 h2 ⊢
      rw [h1, parseArgs]
      simp only [Bool.false_eq_true, if_false, ASt.step, (hu.mark (r := comma) (by simp)).1, if_true, ASt.note]
      rw [if_neg (by simp), if_neg (by simp)]
      simp only []
      rw [h2]
      simp

/-- The arguments of an option, up to the closing parenthesis, when something follows it. -/
theorem args_ok (hu : u.Ok) (o : OptL) (ho : o.Ok u) (x : Rune) (rest : List Rune) :
    parseArgs u (o.inside ++ rparen :: x :: rest) {} = some (o.args.map ArgL.text, rparen, rparen, x :: rest) := by
  obtain ⟨_, _, _, h1, h2, _⟩ := ho
  have close : ∀ s : ASt, s.inQuote = false → s.foundRight = false →
      parseArgs u (rparen :: x :: rest) s = some (s.args, rparen, rparen, x :: rest) := by
    intro s hq hf
    have hm := hu.mark (r := rparen) (by simp)
    have h1 : rparen ≠ comma := by decide
    have h2 : rparen ≠ quote := by decide
    simp only [parseArgs, hf, ASt.step, hm.1, hm.2, h1, h2, hq, ASt.note, Bool.false_eq_true, if_false, if_true]
  by_cases ha : o.args = []
  · obtain ⟨l', e⟩ := args_spaces o.inner h1 (rparen :: x :: rest) {} rfl rfl
    simp only [OptL.inside, ha, if_true, e, List.map_nil]
    exact close _ rfl rfl
  · obtain ⟨l', e⟩ := args_commas hu o.args ha h2 (rparen :: x :: rest) {} rfl rfl rfl
    simp only [OptL.inside, ha, if_false, e]
    exact close _ rfl rfl

/-! ### The loop -/

/-- Turns of the loop. -/
inductive Steps (u : Uni) : OSt → List Rune → OSt → List Rune → Prop
  | refl (s : OSt) (l : List Rune) : Steps u s l s l
  | step {s s1 s2 : OSt} {r : Rune} {rest rest1 l : List Rune} : s.foundRight = false →
      s.step u r rest = some (s1, rest1) → rest1.length ≤ rest.length → Steps u s1 rest1 s2 l → Steps u s (r :: rest) s2 l

theorem Steps.trans {s1 s2 s3 : OSt} {l1 l2 l3 : List Rune} (h : Steps u s1 l1 s2 l2) (k : Steps u s2 l2 s3 l3) :
    Steps u s1 l1 s3 l3 := by
  induction h with
  | refl => exact k
  | step a b c _ ih => exact .step a b c (ih k)

theorem Steps.one {s s1 : OSt} {r : Rune} {rest rest1 : List Rune} (h : s.foundRight = false)
    (e : s.step u r rest = some (s1, rest1)) (hl : rest1.length ≤ rest.length) : Steps u s (r :: rest) s1 rest1 :=
  .step h e hl (.refl _ _)

theorem Steps.loop {s s' : OSt} {l l' : List Rune} (h : Steps u s l s' l') : ∀ fuel, l.length < fuel →
    ∃ fuel', l'.length < fuel' ∧ Options.loop u fuel l s = Options.loop u fuel' l' s' := by
  induction h with
  | refl => intro fuel hf; exact ⟨fuel, hf, rfl⟩
  | step a b c _ ih =>
    rename_i s s1 s2 r rest rest1 l _
    intro fuel hf
    cases fuel with
    | zero => simp at hf
    | succ fuel =>
      obtain ⟨f', h1, h2⟩ := ih fuel (by simp at hf; omega)
      refine ⟨f', h1, ?_⟩
      rw [← h2]
      simp [Options.loop, a, b]

/-- Spaces may stand here. -/
def OSt.Gap (u : Uni) (s : OSt) : Prop := u.space s.last = true ∨ s.last = comma ∨ s.last = rparen ∨ s.lastNS = lbrack

theorem steps_spaces (hu : u.Ok) (sp : List Rune) (hs : Spaces u sp) (rest : List Rune) : ∀ (s : OSt), s.foundRight = false →
    s.foundLeft = true → s.Gap u → ∃ s', Steps u s (sp ++ rest) s' rest ∧ s'.foundRight = false ∧ s'.foundLeft = true ∧
      s'.Gap u ∧ s'.opts = s.opts ∧ s'.buff = s.buff ∧ s'.lastNS = s.lastNS := by
  induction sp with
  | nil => intro s h1 h2 h3; exact ⟨s, .refl _ _, h1, h2, h3, rfl, rfl, rfl⟩
  | cons r sp ih =>
    intro s h1 h2 h3
    have hr : u.space r = true := hs r (by simp)
    have hne : ∀ x ∈ [lbrack, rbrack, lparen, rparen, comma, quote, slash], r ≠ x := by
      intro x hx e; rw [e, (hu.mark hx).1] at hr; cases hr
    have hstep : s.step u r (sp ++ rest) = some (s.note u r, sp ++ rest) := by
      have e1 := hne lbrack (by simp)
      have e2 := hne rbrack (by simp)
      have e3 := hne lparen (by simp)
      have e4 := hne comma (by simp)
      simp only [OSt.step, h2, e1, e2, e3, e4, hr, Bool.not_true, Bool.and_false, Bool.false_eq_true, if_false, if_true]
      rcases h3 with h | h | h | h
      · simp [h]
      · simp [h]
      · simp [h]
      · simp [h]
    obtain ⟨s', k1, k2, k3, k4, k5, k6, k7⟩ := ih (fun x hx => hs x (by simp [hx])) (s.note u r) h1 h2
      (by simp [OSt.Gap, OSt.note, hr])
    refine ⟨s', .step h1 hstep (Nat.le_refl _) k1, k2, k3, k4, k5, k6, ?_⟩
    rw [k7]; simp [OSt.note, hr]

theorem steps_letters (hu : u.Ok) (w : List Rune) (hw : Letters u w) (rest : List Rune) : ∀ (s : OSt), s.foundRight = false →
    s.foundLeft = true → ∃ s', Steps u s (w ++ rest) s' rest ∧ s'.foundRight = false ∧ s'.foundLeft = true ∧
      s'.opts = s.opts ∧ s'.buff = s.buff ++ w := by
  induction w with
  | nil => intro s h1 h2; exact ⟨s, .refl _ _, h1, h2, rfl, by simp⟩
  | cons r w ih =>
    intro s h1 h2
    have hr : u.letter r = true := hw r (by simp)
    have hsp : u.space r = false := by
      cases e : u.space r with
      | false => rfl
      | true => rw [hu.disjoint r e] at hr; cases hr
    have hne : ∀ x ∈ [lbrack, rbrack, lparen, rparen, comma, quote, slash], r ≠ x := by
      intro x hx e; rw [e, (hu.mark hx).2] at hr; cases hr
    have hstep : s.step u r (w ++ rest) = some ({ s with buff := s.buff ++ [r] }.note u r, w ++ rest) := by
      have e1 := hne lbrack (by simp)
      have e2 := hne rbrack (by simp)
      have e3 := hne lparen (by simp)
      have e4 := hne comma (by simp)
      simp [OSt.step, h2, e1, e2, e3, e4, hr, hsp]
    obtain ⟨s', k1, k2, k3, k4, k5⟩ := ih (fun x hx => hw x (by simp [hx])) ({ s with buff := s.buff ++ [r] }.note u r) h1 h2
    exact ⟨s', .step h1 hstep (Nat.le_refl _) k1, k2, k3, k4, by rw [k5]; simp [OSt.note]⟩

/-- One option, when something follows it. -/
theorem steps_opt (hu : u.Ok) (o : OptL) (ho : o.Ok u) (x : Rune) (rest : List Rune) (s : OSt) (h1 : s.foundRight = false)
    (h2 : s.foundLeft = true) (h3 : s.Gap u) (hb : s.buff = []) : ∃ s', Steps u s (o.text ++ x :: rest) s' (x :: rest) ∧
      s'.foundRight = false ∧ s'.foundLeft = true ∧ s'.Gap u ∧ s'.opts = s.opts ++ [o.opt] ∧ s'.buff = [] ∧
      s'.lastNS = rparen := by
  obtain ⟨g1, g2, g3, g4, g5, g6⟩ := ho
  obtain ⟨sa, a1, a2, a3, a4, a5, a6, a7⟩ := steps_spaces hu o.pre g1 (o.name ++ lparen :: (o.inside ++ rparen :: o.post) ++ x :: rest)
    s h1 h2 h3
  obtain ⟨sb, b1, b2, b3, b4, b5⟩ := steps_letters hu o.name g3 (lparen :: (o.inside ++ rparen :: (o.post ++ x :: rest))) sa a2 a3
  have hbuf : sb.buff = o.name := by rw [b5, a6, hb]; simp
  obtain ⟨y, tl, hy⟩ : ∃ y tl, o.post ++ x :: rest = y :: tl := by
    cases hp : o.post with
    | nil => exact ⟨x, rest, rfl⟩
    | cons y p => exact ⟨y, p ++ x :: rest, rfl⟩
  let sc : OSt := { sb with
    opts := sb.opts ++ [o.opt]
    buff := []
    read := sb.read + 1
    last := rparen
    lastNS := rparen }
  have hstep : sb.step u lparen (o.inside ++ rparen :: (o.post ++ x :: rest)) = some (sc, o.post ++ x :: rest) := by
    have e1 : lparen ≠ lbrack := by decide
    have e2 : lparen ≠ rbrack := by decide
    have := args_ok hu o ⟨g1, g2, g3, g4, g5, g6⟩ y tl
    rw [← hy] at this
    simp only [OSt.step, b3, e1, e2, Bool.not_true, Bool.and_false, Bool.false_eq_true, if_false, if_true, this]
    rw [if_neg (by rw [hbuf]; exact g2)]
    simp [sc, OptL.opt, hbuf, b3]
  obtain ⟨sd, d1, d2, d3, d4, d5, d6, d7⟩ := steps_spaces hu o.post g6 (x :: rest) sc b2 b3 (by simp [OSt.Gap, sc])
  refine ⟨sd, ?_, d2, d3, d4, ?_, d6, by rw [d7]⟩
  · have hs := Steps.step (u := u) b2 hstep (by simp; omega) d1
    have e : o.text ++ x :: rest = o.pre ++ (o.name ++ lparen :: (o.inside ++ rparen :: o.post) ++ x :: rest) := by simp [OptL.text]
    rw [e]
    refine a1.trans ?_
    have e' : o.name ++ lparen :: (o.inside ++ rparen :: o.post) ++ x :: rest =
        o.name ++ (lparen :: (o.inside ++ rparen :: (o.post ++ x :: rest))) := by simp
    rw [e']
    exact b1.trans hs
  · rw [d5]; simp [sc, b4, a5]

theorem steps_opts (hu : u.Ok) (os : List OptL) : os ≠ [] → (∀ o ∈ os, o.Ok u) → ∀ (rest : List Rune) (s : OSt),
    s.foundRight = false → s.foundLeft = true → s.Gap u → s.buff = [] →
    ∃ s', Steps u s (commas (os.map OptL.text) ++ rbrack :: rest) s' (rbrack :: rest) ∧ s'.foundRight = false ∧
      s'.foundLeft = true ∧ s'.opts = s.opts ++ os.map OptL.opt := by
  induction os with
  | nil => intro h; exact absurd rfl h
  | cons o os ih =>
    intro _ ho rest s h1 h2 h3 hb
    cases os with
    | nil =>
      obtain ⟨s', k1, k2, k3, _, k5, _⟩ := steps_opt hu o (ho o (by simp)) rbrack rest s h1 h2 h3 hb
      exact ⟨s', by simpa [commas] using k1, k2, k3, by simpa using k5⟩
    | cons p os =>
      obtain ⟨sa, a1, a2, a3, a4, a5, a6, a7⟩ := steps_opt hu o (ho o (by simp)) comma
        (commas ((p :: os).map OptL.text) ++ rbrack :: rest) s h1 h2 h3 hb
      have hstep : sa.step u comma (commas ((p :: os).map OptL.text) ++ rbrack :: rest) =
          some (sa.note u comma, commas ((p :: os).map OptL.text) ++ rbrack :: rest) := by
        have e1 : comma ≠ lbrack := by decide
        have e2 : comma ≠ rbrack := by decide
        have e3 : comma ≠ lparen := by decide
        simp only [OSt.step, a3, e1, e2, e3, a7, Bool.not_true, Bool.and_false, Bool.false_eq_true, if_false, if_true]
        rw [if_neg (by rw [a5]; simp)]
        simp
      obtain ⟨sb, b1, b2, b3, b4⟩ := ih (by simp) (fun x hx => ho x (by simp [hx])) rest (sa.note u comma) a2 a3
        (by simp [OSt.Gap, OSt.note]) (by simp [OSt.note, a6])
      refine ⟨sb, ?_, b2, b3, by rw [b4]; simp [OSt.note, a5]⟩
      have := a1.trans (.step a2 hstep (Nat.le_refl _) b1)
      simpa [commas] using this

theorem tailOk_of (hu : u.Ok) {tail : List Rune} (h : TailOk u tail) : tailOk u tail = true := by
  rcases h with h | ⟨sp, c, rfl, h⟩
  · induction tail with
    | nil => rfl
    | cons r tail ih => simp [tailOk, h r (by simp), ih fun x hx => h x (by simp [hx])]
  · induction sp with
    | nil => simp [tailOk, (hu.mark (r := slash) (by simp)).1]
    | cons r sp ih => simp [tailOk, h r (by simp), ih fun x hx => h x (by simp [hx])]

theorem loop_end (s : OSt) (hf : s.foundRight = true) (tail : List Rune) (fuel : Nat) (h : tail.length < fuel) :
    loop u fuel tail s = if tailOk u tail then some s.opts else none := by
  cases tail with
  | nil => simp [loop, hf, tailOk]
  | cons r tail =>
    cases fuel with
    | zero => simp at h
    | succ fuel => simp [loop, hf]

/-- From the opening bracket to the closing one. -/
theorem parse_steps (hu : u.Ok) {mid tail : List Rune} {s : OSt}
    (h : Steps u { foundLeft := true, read := 1, last := lbrack, lastNS := lbrack } (mid ++ rbrack :: tail) s (rbrack :: tail))
    (h1 : s.foundRight = false) (h2 : s.foundLeft = true) (h3 : s.opts ≠ []) :
    parse u (lbrack :: (mid ++ rbrack :: tail)) = if tailOk u tail then some s.opts else none := by
  have hm := (hu.mark (r := lbrack) (by simp)).1
  have hstart : ({} : OSt).step u lbrack (mid ++ rbrack :: tail) =
      some ({ foundLeft := true, read := 1, last := lbrack, lastNS := lbrack }, mid ++ rbrack :: tail) := by
    simp [OSt.step, OSt.note, hm]
  have hclose : s.step u rbrack tail = some ({ s with foundRight := true }.note u rbrack, tail) := by
    have e : rbrack ≠ lbrack := by decide
    simp only [OSt.step, h2, e, Bool.not_true, Bool.and_false, Bool.false_eq_true, if_false, if_true]
    rw [if_neg h3]
  have hs : Steps u {} (lbrack :: (mid ++ rbrack :: tail)) ({ s with foundRight := true }.note u rbrack) tail :=
    (Steps.step rfl hstart (Nat.le_refl _) h).trans (.one h1 hclose (Nat.le_refl _))
  obtain ⟨f, k1, k2⟩ := hs.loop ((lbrack :: (mid ++ rbrack :: tail)).length + 1) (by omega)
  simp only [parse, ne_eq, not_true_eq_false, if_false]
  rw [k2, loop_end _ rfl tail f k1]
  rfl

/-! ### The theorems -/

/-- **C125** Every well-formed options line, with any number of options and arguments and any layout, gives exactly the options
it says. -/
theorem C125_read_back (hu : u.Ok) (os : List OptL) (hne : os ≠ []) (ho : ∀ o ∈ os, o.Ok u) (tail : List Rune)
    (ht : TailOk u tail) : parse u (lineText os tail) = some (os.map OptL.opt) := by
  obtain ⟨s, k1, k2, k3, k4⟩ := steps_opts hu os hne ho tail { foundLeft := true, read := 1, last := lbrack, lastNS := lbrack }
    rfl rfl (by simp [OSt.Gap]) rfl
  rw [lineText, parse_steps hu k1 k2 k3 (by rw [k4]; simpa using hne), tailOk_of hu ht]
  simp [k4]

/-! ### What is accepted -/

theorem step_sound {s s' : ASt} {r : Rune} (h : s.step u r = some s') (ha : ∀ a ∈ s.args, ArgText u a) (hb : ArgText u s.buff) :
    (∀ a ∈ s'.args, ArgText u a) ∧ ArgText u s'.buff := by
  have app : ∀ (l : List Rune) (r : Rune), ArgText u l → (u.letter r = true ∨ u.space r = true ∨ r = comma) →
      ArgText u (l ++ [r]) := by
    intro l r hl hr x hx
    rcases List.mem_append.1 hx with hx | hx
    · exact hl x hx
    · rw [List.mem_singleton.1 hx]; exact hr
  simp only [ASt.step] at h
  split at h
  · rename_i hs
    obtain rfl := Option.some.inj h
    refine ⟨ha, ?_⟩
    simp only [ASt.note]
    split
    · exact app _ _ hb (.inr (.inl hs))
    · exact hb
  split at h
  · rename_i hc
    split at h
    · obtain rfl := Option.some.inj h
      exact ⟨ha, app _ _ hb (.inr (.inr hc))⟩
    split at h
    · cases h
    split at h
    · cases h
    · obtain rfl := Option.some.inj h; exact ⟨ha, hb⟩
  split at h
  · split at h
    · obtain rfl := Option.some.inj h
      refine ⟨?_, by simp [ASt.note, ArgText]⟩
      intro a h'
      rcases List.mem_append.1 h' with h' | h'
      · exact ha a h'
      · rw [List.mem_singleton.1 h']; exact hb
    · obtain rfl := Option.some.inj h; exact ⟨ha, hb⟩
  split at h
  · rename_i hl
    obtain rfl := Option.some.inj h
    exact ⟨ha, app _ _ hb (.inl hl)⟩
  split at h
  · split at h
    · cases h
    · obtain rfl := Option.some.inj h; exact ⟨ha, hb⟩
  · cases h

theorem parseArgs_sound : ∀ (l : List Rune) (s : ASt) {args : List (List Rune)} {a b : Rune} {rest : List Rune},
    parseArgs u l s = some (args, a, b, rest) → (∀ a ∈ s.args, ArgText u a) → ArgText u s.buff →
    (∀ a ∈ args, ArgText u a) ∧ rest <:+ l
  | [], s, _, _, _, _, h, _, _ => by simp [parseArgs] at h
  | r :: l, s, _, _, _, _, h, ha, hb => by
    simp only [parseArgs] at h
    split at h
    · simp only [Option.some.injEq, Prod.mk.injEq] at h
      obtain ⟨rfl, _, _, rfl⟩ := h
      exact ⟨ha, List.suffix_refl _⟩
    · split at h
      · cases h
      · rename_i s' hs
        obtain ⟨k1, k2⟩ := step_sound hs ha hb
        obtain ⟨g1, g2⟩ := parseArgs_sound l s' h k1 k2
        exact ⟨g1, g2.trans (List.suffix_cons r l)⟩

/-- Names are words, arguments are texts. -/
def OptOk (u : Uni) (o : Opt) : Prop := o.name ≠ [] ∧ Letters u o.name ∧ ∀ a ∈ o.args, ArgText u a

theorem ostep_sound {s s' : OSt} {r : Rune} {l l' : List Rune} (h : s.step u r l = some (s', l'))
    (ho : ∀ o ∈ s.opts, OptOk u o) (hb : Letters u s.buff) (hf : s.foundRight = true → s.opts ≠ []) :
    ((∀ o ∈ s'.opts, OptOk u o) ∧ Letters u s'.buff ∧ (s'.foundRight = true → s'.opts ≠ [])) ∧ l' <:+ l ∧
      (s.foundRight = false → s'.foundRight = true → r = rbrack ∧ l' = l) := by
  simp only [OSt.step] at h
  split at h
  · cases h
  split at h
  · split at h
    · cases h
    · obtain ⟨rfl, rfl⟩ := Prod.mk.inj (Option.some.inj h)
      refine ⟨⟨ho, hb, hf⟩, List.suffix_refl _, ?_⟩
      intro a b; simp only [OSt.note] at b; rw [a] at b; cases b
  split at h
  · rename_i hr
    split at h
    · cases h
    split at h
    · cases h
    · rename_i hne
      obtain ⟨rfl, rfl⟩ := Prod.mk.inj (Option.some.inj h)
      exact ⟨⟨ho, hb, fun _ => hne⟩, List.suffix_refl _, fun _ _ => ⟨hr, rfl⟩⟩
  split at h
  · split at h
    · cases h
    · rename_i hbn
      split at h
      · cases h
      · rename_i args la ln rest' hp
        obtain ⟨rfl, rfl⟩ := Prod.mk.inj (Option.some.inj h)
        obtain ⟨g1, g2⟩ := parseArgs_sound l {} hp (by simp) (by simp [ArgText])
        refine ⟨⟨?_, by simp [Letters], by simp⟩, g2, ?_⟩
        · intro o h'
          rcases List.mem_append.1 h' with h' | h'
          · exact ho o h'
          · rw [List.mem_singleton.1 h']; exact ⟨hbn, hb, g1⟩
        · intro a b; simp only at b; rw [a] at b; cases b
  split at h
  · split at h
    · cases h
    split at h
    · cases h
    · obtain ⟨rfl, rfl⟩ := Prod.mk.inj (Option.some.inj h)
      refine ⟨⟨ho, hb, hf⟩, List.suffix_refl _, ?_⟩
      intro a b; simp only [OSt.note] at b; rw [a] at b; cases b
  have same : ∀ {s'' : OSt} {l'' : List Rune}, some (s.note u r, l) = some (s'', l'') →
      ((∀ o ∈ s''.opts, OptOk u o) ∧ Letters u s''.buff ∧ (s''.foundRight = true → s''.opts ≠ [])) ∧ l'' <:+ l ∧
      (s.foundRight = false → s''.foundRight = true → r = rbrack ∧ l'' = l) := by
    intro s'' l'' e
    obtain ⟨rfl, rfl⟩ := Prod.mk.inj (Option.some.inj e)
    refine ⟨⟨ho, hb, hf⟩, List.suffix_refl _, ?_⟩
    intro a b; simp only [OSt.note] at b; rw [a] at b; cases b
  split at h
  · split at h
    · exact same h
    split at h
    · exact same h
    split at h
    · exact same h
    · cases h
  split at h
  · rename_i hl
    obtain ⟨rfl, rfl⟩ := Prod.mk.inj (Option.some.inj h)
    refine ⟨⟨ho, ?_, hf⟩, List.suffix_refl _, ?_⟩
    · intro x hx
      rcases List.mem_append.1 hx with hx | hx
      · exact hb x hx
      · rw [List.mem_singleton.1 hx]; exact hl
    · intro a b; simp only [OSt.note] at b; rw [a] at b; cases b
  · cases h

theorem tailOk_to {tail : List Rune} (h : tailOk u tail = true) : TailOk u tail := by
  induction tail with
  | nil => exact .inl (by simp [Spaces])
  | cons r tail ih =>
    simp only [tailOk] at h
    split at h
    · rename_i hr
      rcases ih h with k | ⟨sp, c, rfl, k⟩
      · exact .inl fun x hx => by
          rcases List.mem_cons.1 hx with rfl | hx
          · exact hr
          · exact k x hx
      · refine .inr ⟨r :: sp, c, rfl, fun x hx => ?_⟩
        rcases List.mem_cons.1 hx with rfl | hx
        · exact hr
        · exact k x hx
    split at h
    · rename_i hr
      split at h
      · cases h
      · simp only [decide_eq_true_eq] at h
        subst hr h
        exact .inr ⟨[], _, rfl, by simp [Spaces]⟩
    · cases h

theorem loop_sound : ∀ (fuel : Nat) (l : List Rune) (s : OSt) {os : List Opt}, loop u fuel l s = some os →
    (∀ o ∈ s.opts, OptOk u o) → Letters u s.buff → (s.foundRight = true → s.opts ≠ []) →
    (os ≠ [] ∧ ∀ o ∈ os, OptOk u o) ∧
      (s.foundRight = false → ∃ pre tail, l = pre ++ rbrack :: tail ∧ TailOk u tail) ∧
      (s.foundRight = true → TailOk u l) := by
  intro fuel
  induction fuel with
  | zero =>
    intro l s os h ho hb hf
    cases l with
    | nil =>
      simp only [loop] at h
      split at h
      · rename_i hr
        obtain rfl := Option.some.inj h
        exact ⟨⟨hf hr, ho⟩, (fun a => by rw [a] at hr; cases hr), fun _ => .inl (by simp [Spaces])⟩
      · cases h
    | cons r l => simp [loop] at h
  | succ fuel ih =>
    intro l s os h ho hb hf
    cases l with
    | nil =>
      simp only [loop] at h
      split at h
      · rename_i hr
        obtain rfl := Option.some.inj h
        exact ⟨⟨hf hr, ho⟩, (fun a => by rw [a] at hr; cases hr), fun _ => .inl (by simp [Spaces])⟩
      · cases h
    | cons r l =>
      simp only [loop] at h
      split at h
      · rename_i hr
        split at h
        · rename_i ht
          obtain rfl := Option.some.inj h
          exact ⟨⟨hf hr, ho⟩, (fun a => by rw [a] at hr; cases hr), fun _ => tailOk_to ht⟩
        · cases h
      · rename_i hr
        simp only [Bool.not_eq_true] at hr
        split at h
        · cases h
        · rename_i s' l' hs
          obtain ⟨⟨k1, k2, k3⟩, k4, k5⟩ := ostep_sound hs ho hb hf
          obtain ⟨g1, g2, g3⟩ := ih l' s' h k1 k2 k3
          refine ⟨g1, fun _ => ?_, fun a => by rw [a] at hr; cases hr⟩
          cases hfr : s'.foundRight with
          | false =>
            obtain ⟨pre, tail, e, ht⟩ := g2 hfr
            obtain ⟨q, hq⟩ := k4
            exact ⟨r :: q ++ pre, tail, by rw [← hq, e]; simp, ht⟩
          | true =>
            obtain ⟨rfl, rfl⟩ := k5 hr hfr
            exact ⟨[], l', rfl, g3 hfr⟩

/-- **C125** Every line that is accepted starts with a bracket, ends with a bracket and perhaps spaces and a comment, and gives at
least one option; all names are words of letters and numbers; all arguments consist of letters, numbers, spaces and commas.
Missing: that the line says these options and nothing else (false: `C125_not_exact`). -/
theorem C125_sound_partial (line : List Rune) (os : List Opt) (h : parse u line = some os) :
    (os ≠ [] ∧ ∀ o ∈ os, OptOk u o) ∧ ∃ mid tail, line = lbrack :: (mid ++ rbrack :: tail) ∧ TailOk u tail := by
  cases line with
  | nil => simp [parse] at h
  | cons r rest =>
    simp only [parse] at h
    split at h
    · cases h
    · rename_i hr
      simp only [ne_eq, Decidable.not_not] at hr
      subst hr
      obtain ⟨g1, g2, _⟩ := loop_sound _ _ _ h (by simp) (by simp [Letters]) (by simp)
      obtain ⟨pre, tail, e, ht⟩ := g2 rfl
      refine ⟨g1, ?_⟩
      cases pre with
      | nil =>
        simp only [List.nil_append, List.cons.injEq] at e
        exact absurd e.1 (by decide)
      | cons p pre =>
        simp only [List.cons_append, List.cons.injEq] at e
        exact ⟨pre, tail, by rw [e.2], ht⟩

/-- **C125** A file with an options line is valid exactly if the line gives the one option `IsSet()`, and then the option is on. -/
theorem C125_file_iff (line : List Rune) (b : Bool) :
    fileOptions u line = some b ↔ b = true ∧ parse u line = some [⟨isSetName, []⟩] := by
  constructor
  · intro h
    simp only [fileOptions] at h
    split at h
    · cases h
    · rename_i os hp
      split at h
      · rename_i hc
        simp only [Bool.and_eq_true, List.all_eq_true] at hc
        obtain ⟨⟨hne, _⟩, _⟩ := C125_sound_partial line os hp
        have hk : ∀ o ∈ os, o = ⟨isSetName, []⟩ := by
          intro o ho
          have := hc.2 o ho
          simp only [known, Bool.and_eq_true, decide_eq_true_eq, List.isEmpty_iff] at this
          obtain ⟨n, a⟩ := o
          simp only at this
          rw [this.1, this.2]
        have hos : os = [⟨isSetName, []⟩] := by
          cases os with
          | nil => exact absurd rfl hne
          | cons o os =>
            cases os with
            | nil => rw [hk o (by simp)]
            | cons p os =>
              have := hc.1
              simp only [noDup, List.all_cons, Bool.and_eq_true, decide_eq_true_eq] at this
              rw [hk o (by simp), hk p (by simp)] at this
              exact absurd rfl this.1.1
        subst hos
        refine ⟨?_, hp⟩
        simpa using h.symm
      · cases h
  · rintro ⟨rfl, h⟩
    simp [fileOptions, h, noDup, known]

/-! ### What is accepted and should not be -/

theorem isSet_letters (hu : u.Ok) : Letters u isSetName := by
  intro r hr
  refine hu.ascii r ?_
  simp [isSetName] at hr
  rcases hr with rfl | rfl | rfl | rfl | rfl <;> decide

theorem args_junk (hu : u.Ok) (w : List Rune) (hw : Letters u w) (rest : List Rune) : ∀ (s : ASt), s.foundRight = false →
    ∃ b l' n', parseArgs u (w ++ rest) s = parseArgs u rest { s with buff := b, last := l', lastNS := n' } := by
  induction w with
  | nil => intro s _; exact ⟨s.buff, s.last, s.lastNS, rfl⟩
  | cons r w ih =>
    intro s hf
    obtain ⟨ar, bf, q, la, ln, fr⟩ := s
    simp only at hf
    subst hf
    have hr := hw r (by simp)
    have hsp : u.space r = false := by
      cases e : u.space r with
      | false => rfl
      | true => rw [hu.disjoint r e] at hr; cases hr
    have h1 : r ≠ comma := fun e => by rw [e, (hu.mark (by simp)).2] at hr; cases hr
    have h2 : r ≠ quote := fun e => by rw [e, (hu.mark (by simp)).2] at hr; cases hr
    obtain ⟨b, l', n', h⟩ := ih (fun x hx => hw x (by simp [hx])) ⟨ar, bf ++ [r], q, r, r, false⟩ rfl
    refine ⟨b, l', n', ?_⟩
    simp only [List.cons_append, parseArgs, ASt.step, hsp, h1, h2, hr, ASt.note, Bool.false_eq_true, if_false, if_true]
    exact h

/-- **C125, where the code falls short** Letters between the parentheses that are in no quotes are dropped: `IsSet(false)` turns
IsSet on, as does `IsSet(w)` for every word `w`. -/
theorem C125_junk_args (hu : u.Ok) (w : List Rune) (hw : Letters u w) :
    fileOptions u (lbrack :: (isSetName ++ lparen :: (w ++ [rparen, rbrack]))) = some true := by
  rw [C125_file_iff]
  refine ⟨rfl, ?_⟩
  obtain ⟨sb, b1, b2, b3, b4, b5⟩ := steps_letters hu isSetName (isSet_letters hu) (lparen :: (w ++ [rparen, rbrack]))
    { foundLeft := true, read := 1, last := lbrack, lastNS := lbrack } rfl rfl
  simp only [List.nil_append] at b5
  have hp : parseArgs u (w ++ [rparen, rbrack]) {} = some ([], rparen, rparen, [rbrack]) := by
    obtain ⟨b, l', n', e⟩ := args_junk hu w hw [rparen, rbrack] {} rfl
    have hm := hu.mark (r := rparen) (by simp)
    have h1 : rparen ≠ comma := by decide
    have h2 : rparen ≠ quote := by decide
    rw [e]
    simp only [parseArgs, ASt.step, hm.1, hm.2, h1, h2, ASt.note, Bool.false_eq_true, if_false, if_true]
  let sc : OSt := { sb with
    opts := sb.opts ++ [⟨isSetName, []⟩]
    buff := []
    read := sb.read + 1
    last := rparen
    lastNS := rparen }
  have hstep : sb.step u lparen (w ++ [rparen, rbrack]) = some (sc, [rbrack]) := by
    have e1 : lparen ≠ lbrack := by decide
    have e2 : lparen ≠ rbrack := by decide
    simp only [OSt.step, b3, e1, e2, Bool.not_true, Bool.and_false, Bool.false_eq_true, if_false, if_true, hp]
    rw [if_neg (by rw [b5]; decide)]
    simp [sc, b5, b3]
  have := parse_steps hu (mid := isSetName ++ lparen :: (w ++ [rparen])) (tail := []) (s := sc)
    (by simpa using b1.trans (.one b2 hstep (by simp))) b2 b3 (by simp [sc])
  simpa [tailOk, sc, b4] using this

/-- The layout of `IsSet()`. -/
def plainIsSet : OptL := ⟨[], isSetName, [], [], []⟩

theorem plainIsSet_ok (hu : u.Ok) : plainIsSet.Ok u :=
  ⟨by simp [Spaces, plainIsSet], by decide, isSet_letters hu, by simp [Spaces, plainIsSet], by simp [plainIsSet],
    by simp [Spaces, plainIsSet]⟩

/-- **C125, where the code falls short** A word behind the last option is dropped: `[IsSet() and]` is `[IsSet()]`. -/
theorem C125_junk_tail (hu : u.Ok) (o : OptL) (ho : o.Ok u) (w : List Rune) (hw : Letters u w) :
    parse u (lbrack :: (o.text ++ (w ++ [rbrack]))) = some [o.opt] := by
  obtain ⟨x, rest, e⟩ : ∃ x rest, w ++ [rbrack] = x :: rest := by cases w <;> exact ⟨_, _, rfl⟩
  obtain ⟨s, k1, k2, k3, _, k5, k6, _⟩ := steps_opt hu o ho x rest { foundLeft := true, read := 1, last := lbrack, lastNS := lbrack }
    rfl rfl (by simp [OSt.Gap]) rfl
  rw [← e] at k1
  obtain ⟨t, g1, g2, g3, g4, _⟩ := steps_letters hu w hw [rbrack] s k2 k3
  have := parse_steps hu (mid := o.text ++ w) (tail := []) (s := t) (by simpa using k1.trans g1) g2 g3 (by rw [g4, k5]; simp)
  simpa [tailOk, g4, k5] using this

/-- **C125, where the code falls short** The comma between options may be left out. -/
theorem C125_no_comma (hu : u.Ok) (o p : OptL) (ho : o.Ok u) (hp : p.Ok u) :
    parse u (lbrack :: (o.text ++ (p.text ++ [rbrack]))) = some [o.opt, p.opt] := by
  obtain ⟨x, rest, e⟩ : ∃ x rest, p.text ++ [rbrack] = x :: rest := by
    cases h : p.text <;> exact ⟨_, _, rfl⟩
  obtain ⟨s, k1, k2, k3, k4, k5, k6, _⟩ := steps_opt hu o ho x rest { foundLeft := true, read := 1, last := lbrack, lastNS := lbrack }
    rfl rfl (by simp [OSt.Gap]) rfl
  rw [← e] at k1
  obtain ⟨t, g1, g2, g3, _, g5, _⟩ := steps_opt hu p hp rbrack [] s k2 k3 k4 k6
  have := parse_steps hu (mid := o.text ++ p.text) (tail := []) (s := t) (by simpa using k1.trans g1) g2 g3 (by rw [g5]; simp)
  simpa [tailOk, g5, k5] using this

/-- **C125, where the code falls short** A bracket within a name is dropped: `[Is[Set()]` turns IsSet on. -/
theorem C125_bracket (hu : u.Ok) (a : List Rune) (ha : Letters u a) (o : OptL) (ho : o.Ok u) :
    parse u (lbrack :: (a ++ (lbrack :: (o.name ++ [lparen, rparen, rbrack])))) = some [⟨a ++ o.name, []⟩] := by
  obtain ⟨_, hn, hl, _⟩ := ho
  obtain ⟨s, k1, k2, k3, k4, k5⟩ := steps_letters hu a ha (lbrack :: (o.name ++ [lparen, rparen, rbrack]))
    { foundLeft := true, read := 1, last := lbrack, lastNS := lbrack } rfl rfl
  have hb : s.step u lbrack (o.name ++ [lparen, rparen, rbrack]) =
      some ({ s with foundLeft := true }.note u lbrack, o.name ++ [lparen, rparen, rbrack]) := by
    simp [OSt.step, k2, k3]
  obtain ⟨t, g1, g2, g3, g4, g5⟩ := steps_letters hu o.name hl [lparen, rparen, rbrack] ({ s with foundLeft := true }.note u lbrack)
    k2 rfl
  have hbuf : t.buff = a ++ o.name := by rw [g5]; simp [OSt.note, k5]
  let sc : OSt := { t with
    opts := t.opts ++ [⟨a ++ o.name, []⟩]
    buff := []
    read := t.read + 1
    last := rparen
    lastNS := rparen }
  have hp : parseArgs u [rparen, rbrack] {} = some ([], rparen, rparen, [rbrack]) := by
    have hm := hu.mark (r := rparen) (by simp)
    have h1 : rparen ≠ comma := by decide
    have h2 : rparen ≠ quote := by decide
    simp only [parseArgs, ASt.step, hm.1, hm.2, h1, h2, ASt.note, Bool.false_eq_true, if_false, if_true]
  have hstep : t.step u lparen [rparen, rbrack] = some (sc, [rbrack]) := by
    have e1 : lparen ≠ lbrack := by decide
    have e2 : lparen ≠ rbrack := by decide
    simp only [OSt.step, g3, e1, e2, Bool.not_true, Bool.and_false, Bool.false_eq_true, if_false, if_true, hp]
    rw [if_neg (by rw [hbuf]; simp [hn])]
    simp [sc, hbuf, g3]
  have := parse_steps hu (mid := a ++ (lbrack :: (o.name ++ [lparen, rparen]))) (tail := []) (s := sc)
    (by simpa using k1.trans (.step k2 hb (Nat.le_refl _) (g1.trans (.one g2 hstep (by simp))))) g2 g3 (by simp [sc])
  simpa [tailOk, sc, g4, OSt.note, k4] using this

/-- Before the first parenthesis of a well-formed line, behind its bracket, stand only spaces, letters and numbers. -/
theorem before_paren (hu : u.Ok) (os : List OptL) (hne : os ≠ []) (ho : ∀ o ∈ os, o.Ok u) (tail : List Rune) :
    ∀ r ∈ (lineText os tail).tail.takeWhile (· ≠ lparen), u.space r = true ∨ u.letter r = true := by
  obtain ⟨q, rest, e, hq⟩ : ∃ q rest, (lineText os tail).tail = q ++ lparen :: rest ∧
      ∀ r ∈ q, u.space r = true ∨ u.letter r = true := by
    cases os with
    | nil => exact absurd rfl hne
    | cons o os =>
      obtain ⟨h1, _, h3, _⟩ := ho o (by simp)
      have hq : ∀ r ∈ o.pre ++ o.name, u.space r = true ∨ u.letter r = true := by
        intro r hr
        rcases List.mem_append.1 hr with hr | hr
        · exact .inl (h1 r hr)
        · exact .inr (h3 r hr)
      cases os with
      | nil => exact ⟨o.pre ++ o.name, o.inside ++ rparen :: o.post ++ rbrack :: tail, by simp [lineText, commas, OptL.text], hq⟩
      | cons p os =>
        exact ⟨o.pre ++ o.name, o.inside ++ rparen :: o.post ++ comma :: commas ((p :: os).map OptL.text) ++ rbrack :: tail,
          by simp [lineText, commas, OptL.text], hq⟩
  rw [e]
  have hm := hu.mark (r := lparen) (by simp)
  have htw : (q ++ lparen :: rest).takeWhile (· ≠ lparen) = q := by
    clear e
    induction q with
    | nil => simp
    | cons r q ih =>
      have : r ≠ lparen := by
        intro e
        rcases hq r (by simp) with h | h
        · rw [e, hm.1] at h; cases h
        · rw [e, hm.2] at h; cases h
      simp only [List.cons_append, List.takeWhile_cons, this, decide_not, decide_false, Bool.not_false, if_true]
      congr 1
      simpa using ih fun x hx => hq x (by simp [hx])
  rw [htw]
  exact hq

/-- **C125, where the code falls short** A line that is no options line of any layout is accepted, and turns IsSet on. -/
theorem C125_not_exact (hu : u.Ok) : ∃ line, fileOptions u line = some true ∧
    ∀ os tail, os ≠ [] → (∀ o ∈ os, o.Ok u) → lineText os tail ≠ line := by
  have hl := isSet_letters hu
  refine ⟨lbrack :: (isSetName.take 2 ++ (lbrack :: (isSetName.drop 2 ++ [lparen, rparen, rbrack]))), ?_, ?_⟩
  · rw [C125_file_iff]
    refine ⟨rfl, ?_⟩
    have := C125_bracket hu (isSetName.take 2) (fun r hr => hl r (List.mem_of_mem_take hr)) ⟨[], isSetName.drop 2, [], [], []⟩
      ⟨by simp [Spaces], by decide, fun r hr => hl r (List.mem_of_mem_drop hr), by simp [Spaces], by simp, by simp [Spaces]⟩
    rw [this]
    simp
  · intro os tail hne ho e
    have := before_paren hu os hne ho tail lbrack (by rw [e]; decide)
    have hm := hu.mark (r := lbrack) (by simp)
    rw [hm.1, hm.2] at this
    simp at this

/-- The ASCII part of the tables. -/
def asciiUni : Uni :=
  ⟨fun r => r = 32 || (9 ≤ r && r ≤ 13), fun r => (65 ≤ r && r ≤ 90) || (97 ≤ r && r ≤ 122) || (48 ≤ r && r ≤ 57)⟩

theorem asciiUni_disjoint (r : Nat) (h : (decide (r = 32) || (decide (9 ≤ r) && decide (r ≤ 13))) = true) :
    ((decide (65 ≤ r) && decide (r ≤ 90)) || (decide (97 ≤ r) && decide (r ≤ 122)) || (decide (48 ≤ r) && decide (r ≤ 57))) = false := by
  simp only [Bool.or_eq_true, Bool.and_eq_true, decide_eq_true_eq] at h
  have h1 : ¬ 65 ≤ r := by omega
  have h2 : ¬ 97 ≤ r := by omega
  have h3 : ¬ 48 ≤ r := by omega
  simp [h1, h2, h3]

theorem asciiUni_ok : asciiUni.Ok := by
  refine ⟨fun r h => asciiUni_disjoint r h, by decide, ?_⟩
  intro r h
  simp only [asciiUni, Bool.or_eq_true, Bool.and_eq_true, decide_eq_true_eq]
  exact .inl h

/-- `options [ doNotDisturb( "arg1" , "arg 2" ), none() ] // comment` -/
example : parse asciiUni ("[ doNotDisturb( \"arg1\" , \"arg 2\" ), none() ] // comment".toList.map Char.toNat) =
    some [⟨"doNotDisturb".toList.map Char.toNat, ["arg1".toList.map Char.toNat, "arg 2".toList.map Char.toNat]⟩,
      ⟨"none".toList.map Char.toNat, []⟩] := by decide +kernel

example : ∀ o ∈ [plainIsSet, ⟨[32], [97], [32, 32], [⟨[32], [98, 32, 99], []⟩, ⟨[], [], [32]⟩], [32]⟩], o.Ok asciiUni := by
  intro o ho
  simp only [List.mem_cons, List.not_mem_nil, or_false] at ho
  rcases ho with rfl | rfl
  · exact plainIsSet_ok asciiUni_ok
  · simp [OptL.Ok, ArgL.Ok, Spaces, Letters, ArgText, asciiUni, comma]

example : fileOptions asciiUni ("[IsSet(false)]".toList.map Char.toNat) = some true := by decide +kernel
example : fileOptions asciiUni ("[IsSet() IsSet()]".toList.map Char.toNat) = none := by decide +kernel
example : fileOptions asciiUni ("[isSet()]".toList.map Char.toNat) = none := by decide +kernel

/-! ### C126 -/

/-- What the file keeps is what stood in the lines before. -/
structure Kept (h : Head) (is : List Item) : Prop where
  opts : ∀ os, Item.options os ∈ is → h.options = os
  noOpts : (∀ os, Item.options os ∉ is) → h.options = []
  imports : h.imports = true ↔ Item.imports ∈ is
  decls : h.decls = true ↔ Item.decl ∈ is
  ver : ∀ n, Item.version n ∈ is → h.version = n
  noVer : (∀ n, Item.version n ∉ is) → h.version = -1

theorem kept_step {h : Head} {is : List Item} (k : Kept h is) (hp : ∀ i ∈ is, i.Proper) (x : Item) (hx : x.Proper) :
    (ItemOk is x → ∃ h', h.step x = some h' ∧ Kept h' (is ++ [x])) ∧ (¬ ItemOk is x → h.step x = none) := by
  cases x with
  | version n =>
    constructor
    · intro ok
      simp only [ItemOk] at ok
      have hv := k.noVer ok
      refine ⟨{ h with version := n }, by simp [Head.step, hv], ⟨?_, ?_, ?_, ?_, ?_, ?_⟩⟩
      · intro os; simpa using k.opts os
      · intro h'; exact k.noOpts fun os => by simpa using h' os
      · simpa using k.imports
      · simpa using k.decls
      · intro m hm
        simp only [List.mem_append, List.mem_singleton, Item.version.injEq] at hm
        rcases hm with hm | hm
        · exact absurd hm (ok m)
        · exact hm.symm
      · intro h'; exact absurd (List.mem_append_right _ (List.mem_singleton.2 rfl)) (h' n)
    · intro no
      simp only [ItemOk, Classical.not_forall, Decidable.not_not] at no
      obtain ⟨m, hm⟩ := no
      have h0 : 0 ≤ m := hp _ hm
      simp [Head.step, k.ver m hm, h0]
  | options os =>
    constructor
    · rintro ⟨h1, h2, h3⟩
      have e := k.noOpts h2
      have hd : h.decls = false := by
        cases e : h.decls with
        | false => rfl
        | true => exact absurd (k.decls.1 e) h3
      refine ⟨{ h with options := os }, by simp [Head.step, e, hd, h1], ⟨?_, ?_, ?_, ?_, ?_, ?_⟩⟩
      · intro os' hm
        simp only [List.mem_append, List.mem_singleton, Item.options.injEq] at hm
        rcases hm with hm | hm
        · exact absurd hm (h2 os')
        · exact hm.symm
      · intro h'; exact absurd (List.mem_append_right _ (List.mem_singleton.2 rfl)) (h' os)
      · simpa using k.imports
      · simpa using k.decls
      · intro n; simpa using k.ver n
      · intro h'; exact k.noVer fun n => by simpa using h' n
    · intro no
      simp only [Head.step]
      by_cases h2 : ∀ os', Item.options os' ∉ is
      · rw [if_neg (by simp [k.noOpts h2])]
        by_cases h3 : Item.decl ∈ is
        · rw [if_pos (k.decls.2 h3)]
        · by_cases h1 : noDup os = true
          · exact absurd ⟨h1, h2, h3⟩ no
          · split
            · rfl
            · simp [h1]
      · simp only [Classical.not_forall, Decidable.not_not] at h2
        obtain ⟨os', hm⟩ := h2
        have : os' ≠ [] := hp _ hm
        rw [if_pos (by rw [k.opts os' hm]; exact this)]
  | imports =>
    constructor
    · rintro ⟨h1, h2⟩
      have e : h.imports = false := by
        cases e : h.imports with
        | false => rfl
        | true => exact absurd (k.imports.1 e) h1
      have hd : h.decls = false := by
        cases e : h.decls with
        | false => rfl
        | true => exact absurd (k.decls.1 e) h2
      refine ⟨{ h with imports := true }, by simp [Head.step, e, hd], ⟨?_, ?_, by simp, ?_, ?_, ?_⟩⟩
      · intro os; simpa using k.opts os
      · intro h'; exact k.noOpts fun os => by simpa using h' os
      · simpa using k.decls
      · intro n; simpa using k.ver n
      · intro h'; exact k.noVer fun n => by simpa using h' n
    · intro no
      simp only [Head.step]
      by_cases h1 : Item.imports ∈ is
      · rw [if_pos (k.imports.2 h1)]
      · by_cases h2 : Item.decl ∈ is
        · split
          · rfl
          · rw [if_pos (k.decls.2 h2)]
        · exact absurd ⟨h1, h2⟩ no
  | decl =>
    constructor
    · intro _
      refine ⟨{ h with decls := true }, rfl, ⟨?_, ?_, ?_, by simp, ?_, ?_⟩⟩
      · intro os; simpa using k.opts os
      · intro h'; exact k.noOpts fun os => by simpa using h' os
      · simpa using k.imports
      · intro n; simpa using k.ver n
      · intro h'; exact k.noVer fun n => by simpa using h' n
    · intro no; exact absurd trivial no

theorem kept_run : ∀ (is before : List Item) {h : Head}, Kept h before → (∀ i ∈ before ++ is, i.Proper) →
    ((∀ b x c, is = b ++ x :: c → ItemOk (before ++ b) x) → ∃ h', h.run is = some h' ∧ Kept h' (before ++ is)) ∧
      ((¬ ∀ b x c, is = b ++ x :: c → ItemOk (before ++ b) x) → h.run is = none)
  | [], before, h, k, _ => ⟨fun _ => ⟨h, rfl, by simpa using k⟩, fun no => absurd (by simp) no⟩
  | x :: is, before, h, k, hp => by
    have hstep := kept_step k (fun i hi => hp i (by simp [hi])) x (hp x (by simp))
    have hsplit : (∀ b y c, x :: is = b ++ y :: c → ItemOk (before ++ b) y) ↔
        ItemOk before x ∧ ∀ b y c, is = b ++ y :: c → ItemOk (before ++ [x] ++ b) y := by
      constructor
      · intro h
        refine ⟨by simpa using h [] x is rfl, fun b y c e => ?_⟩
        have := h (x :: b) y c (by simp [e])
        simpa using this
      · rintro ⟨h1, h2⟩ b y c e
        cases b with
        | nil =>
          simp only [List.nil_append, List.cons.injEq] at e
          simpa [← e.1] using h1
        | cons z b =>
          simp only [List.cons_append, List.cons.injEq] at e
          obtain ⟨rfl, e⟩ := e
          have := h2 b y c e
          simpa using this
    rw [hsplit]
    constructor
    · rintro ⟨h1, h2⟩
      obtain ⟨h', e, k'⟩ := hstep.1 h1
      obtain ⟨h'', e', k''⟩ := (kept_run is (before ++ [x]) k' (by simpa using hp)).1 h2
      exact ⟨h'', by simp [Head.run, e, e'], by simpa using k''⟩
    · intro no
      by_cases h1 : ItemOk before x
      · obtain ⟨h', e, k'⟩ := hstep.1 h1
        have := (kept_run is (before ++ [x]) k' (by simpa using hp)).2 fun h2 => no ⟨h1, h2⟩
        simp [Head.run, e, this]
      · simp [Head.run, hstep.2 h1]

theorem kept_new : Kept {} [] := ⟨by simp, by simp, by simp, by simp, by simp, by simp⟩

/-- **C126** The lines and blocks of a file are accepted and the file is valid exactly if there is at most one version line, one
options line and one import block, the latter two stand before all declarations, no option is given twice, the version is 0 and
all options are known. Missing: versions that are negative (`C126_negative`). -/
theorem C126_valid_iff_partial (is : List Item) (hp : ∀ i ∈ is, i.Proper) :
    (∃ h, Head.run {} is = some h ∧ h.validate = some 0) ↔
      HeadOk is ∧ (∀ n, Item.version n ∈ is → n = 0) ∧ ∀ os, Item.options os ∈ is → ∀ o ∈ os, known o = true := by
  have hk := kept_run is [] kept_new (by simpa using hp)
  simp only [List.nil_append] at hk
  constructor
  · rintro ⟨h, e, hv⟩
    by_cases ok : HeadOk is
    · obtain ⟨h', e', k⟩ := hk.1 ok
      rw [e] at e'
      obtain rfl := Option.some.inj e'
      simp only [Head.validate] at hv
      split at hv
      · rename_i hc
        refine ⟨ok, fun n hn => ?_, fun os ho => ?_⟩
        · have h0 : 0 ≤ n := hp _ hn
          have := k.ver n hn
          omega
        · have := k.opts os ho
          rw [this] at hc
          exact List.all_eq_true.1 hc.2
      · cases hv
    · have := hk.2 ok
      rw [e] at this
      cases this
  · rintro ⟨ok, h1, h2⟩
    obtain ⟨h, e, k⟩ := hk.1 ok
    refine ⟨h, e, ?_⟩
    have hver : h.version = -1 ∨ h.version = 0 := by
      by_cases hn : ∀ n, Item.version n ∉ is
      · exact .inl (k.noVer hn)
      · simp only [Classical.not_forall, Decidable.not_not] at hn
        obtain ⟨n, hn⟩ := hn
        exact .inr (by rw [k.ver n hn, h1 n hn])
    have hopt : h.options.all known = true := by
      by_cases hn : ∀ os, Item.options os ∉ is
      · rw [k.noOpts hn]; rfl
      · simp only [Classical.not_forall, Decidable.not_not] at hn
        obtain ⟨os, hn⟩ := hn
        rw [k.opts os hn]
        exact List.all_eq_true.2 (h2 os hn)
    simp [Head.validate, hver, hopt]

example : (∀ i ∈ [Item.version 0, .imports, .options [⟨isSetName, []⟩], .decl, .decl], i.Proper) ∧
    Head.run {} [Item.version 0, .imports, .options [⟨isSetName, []⟩], .decl, .decl] = some ⟨0, [⟨isSetName, []⟩], true, true⟩ := by
  refine ⟨?_, by decide⟩
  intro i hi
  simp only [List.mem_cons, List.not_mem_nil, or_false] at hi
  rcases hi with rfl | rfl | rfl | rfl | rfl <;> simp [Item.Proper]

example : Head.run {} [.decl, .options [⟨isSetName, []⟩]] = none := by decide

/-- **C126, where the code falls short** Version -1 counts as no version: any number of such lines, anywhere in the file, is
accepted, and the version of the file is 0. -/
theorem C126_negative (n : Nat) : ∃ h, Head.run {} (.decl :: List.replicate n (.version (-1))) = some h ∧ h.validate = some 0 := by
  refine ⟨{ decls := true }, ?_, by decide⟩
  simp only [Head.run, Head.step]
  induction n with
  | zero => rfl
  | succ n ih =>
    simp only [List.replicate_succ, Head.run, Head.step]
    exact ih

end Claw.Options
