import Verif.Lemmas.Comments
import Verif.Props.Idl

/-!
# C136: the comments of a schema
-/

namespace Claw.Comments

open Claw.Idl

/-! ## Comments become comments -/

/-- Whatever stands in comment lines, each of the lines that are written for them is a Go comment, with a blank behind the slashes. -/
theorem C136_comment (ls : List Line) (h : ∀ l ∈ ls, ∀ i ∈ l.items, i ≠ lit "\n" → (10 : UInt8) ∉ i) : OnlyComments (emit (blockText ls)) := by
  unfold emit
  split
  · intro l hl; simp [textLines] at hl
  · rename_i hne
    cases ls with
    | nil => exact absurd rfl hne
    | cons x xs =>
      have hl : ∀ y ∈ (x :: xs).map lineText, (10 : UInt8) ∉ y := by
        intro y hy
        obtain ⟨l, hl, rfl⟩ := List.mem_map.1 hy
        refine join_no10 (by decide) _ fun w hw => ?_
        simp only [commentText, List.mem_filter, decide_eq_true_eq] at hw
        exact h l hl w (List.mem_of_mem_drop hw.1) hw.2
      intro l hl'
      rw [blockText, List.map_cons, textLines_block _ _ (by simpa using hl)] at hl'
      obtain ⟨y, _, rfl⟩ := List.mem_map.1 hl'
      exact List.prefix_append _ _

example : emit (blockText [⟨[lit "//go:build", lit "//go:embed", lit "x", lit "\n"], false⟩, ⟨[lit "//", lit "*/", lit "func", lit "f()", lit "\n"], false⟩]) =
    lit "// //go:embed x\n// */ func f()\n" := by decide +kernel

/-- A comment of lines `// word word`, none of them empty, is written as it stands in the schema. -/
theorem C136_same (wss : List (List Str)) (h : ∀ ws ∈ wss, ws ≠ [] ∧ Words ws) :
    emit (blockText (wss.map commentLine)) = wss.flatMap commentLineText := by
  have text : ∀ ws, Words ws → lineText (commentLine ws) = join (lit " ") ws := by
    intro ws hw
    have h1 : ws.filter (fun x => decide (x ≠ lit "\n")) = ws := by
      refine List.filter_eq_self.2 fun w hm => ?_
      have := (hw w hm).2
      simp only [ne_eq, decide_eq_true_eq]
      rintro rfl
      exact this (by decide)
    simp only [lineText, commentText, commentLine, List.cons_append, List.drop_succ_cons, List.drop_zero, List.filter_append, h1]
    simp
  cases wss with
  | nil => rfl
  | cons x xs =>
    have go : ∀ (xs : List (List Str)) (x : List Str), (∀ ws ∈ x :: xs, ws ≠ [] ∧ Words ws) →
        lit "// " ++ blockText ((x :: xs).map commentLine) ++ lit "\n" = (x :: xs).flatMap commentLineText := by
      intro xs
      induction xs with
      | nil =>
        intro x h
        obtain ⟨h1, h2⟩ := h x (by simp)
        simp only [blockText, List.map_cons, List.map_nil, join, text x h2, List.flatMap_cons, List.flatMap_nil, commentLineText, ← join_flat x h1]
        rw [show lit "// " = lit "//" ++ [32] from by decide]
        simp
      | cons y ys ih =>
        intro x h
        obtain ⟨h1, h2⟩ := h x (by simp)
        have := ih y fun ws hw => h ws (List.mem_cons_of_mem _ hw)
        rw [List.flatMap_cons, ← this]
        simp only [blockText, List.map_cons, join, text x h2, commentLineText, ← join_flat x h1]
        rw [show lit "// " = lit "//" ++ [32] from by decide, show lit "\n// " = lit "\n" ++ lit "//" ++ [32] from by decide]
        simp
    rw [← go xs x h, emit, if_neg]
    obtain ⟨h1, h2⟩ := h x (by simp)
    obtain ⟨w, ws, rfl⟩ := List.exists_cons_of_ne_nil h1
    have hw := (h2 w (by simp)).1
    intro e
    have hj : join (lit " ") (w :: ws) ≠ [] := by
      cases ws <;> simp [join, hw]
    cases xs with
    | nil => simp only [blockText, List.map_cons, List.map_nil, join, text _ h2] at e; exact hj e
    | cons y ys => simp only [blockText, List.map_cons, join, text _ h2, List.append_eq_nil_iff] at e; exact hj e.1.1

example : Words [lit "one", lit "two"] ∧ emit (blockText ([[lit "one", lit "two"], [lit "three"]].map commentLine)) = lit "// one two\n// three\n" :=
  ⟨by unfold Words; decide +kernel, by decide +kernel⟩

/-- A word written right behind the slashes is lost. -/
theorem C136_glued (w : Str) (ws : List Str) (hw : Words ws) :
    emit (blockText [⟨(lit "//" ++ w) :: ws ++ [lit "\n"], false⟩]) = if ws = [] then [] else commentLineText ws := by
  have e : blockText [⟨(lit "//" ++ w) :: ws ++ [lit "\n"], false⟩] = blockText [commentLine ws] := rfl
  rw [e]
  split
  · rename_i h; subst h; decide
  · rename_i h
    have := C136_same [ws] (by simpa using ⟨h, hw⟩)
    simpa using this

example : emit (blockText [⟨[lit "//Deprecated:", lit "use", lit "B", lit "\n"], false⟩]) = lit "// use B\n" := by decide +kernel

/-- An empty comment is lost, and inside a block a blank is added to it. -/
theorem C136_empty : emit (blockText [commentLine []]) = [] ∧
    emit (blockText [commentLine [lit "a"], commentLine [], commentLine [lit "b"]]) = lit "// a\n// \n// b\n" := by decide +kernel

/-! ## Comments stand with what follows them -/

/-- Lines that are comments. -/
def AllComments (cs : List Line) : Prop := ∀ l ∈ cs, l.eof = false ∧ ∃ first rest, l.items = first :: rest ∧ isComment first = true

theorem brace_noComment {first : Str} (h : isComment first = true) : first ≠ lit "}" := by
  rintro rfl
  exact absurd h (by decide)

/-- The comment lines before a declaration are its comment, and are taken off the lines. -/
theorem C136_collect (cs : List Line) (l : Line) (ls : List Line) (hc : AllComments cs) (he : l.eof = false)
    (hl : ∃ first rest, l.items = first :: rest ∧ isComment first = false) : collect [] (cs ++ l :: ls) = (blockText cs, l :: ls) := by
  have go : ∀ (cs seen : List Line), AllComments cs → collect seen (cs ++ l :: ls) = (blockText (seen ++ cs), l :: ls) := by
    intro cs
    induction cs with
    | nil =>
      intro seen _
      obtain ⟨first, rest, h1, h2⟩ := hl
      simp [collect, he, h1, h2]
    | cons c cs ih =>
      intro seen h
      obtain ⟨h0, first, rest, h1, h2⟩ := h c (by simp)
      have := ih (seen ++ [c]) fun x hx => h x (List.mem_cons_of_mem _ hx)
      simp only [List.cons_append, collect, h0, h1, h2, Bool.false_eq_true, if_false, if_true]
      rw [this]
      simp
  simpa using go cs [] hc

example : AllComments [commentLine [lit "A", lit "car."]] ∧
    collect [] [commentLine [lit "A", lit "car."], ⟨[lit "Struct", lit "Car", lit "{", lit "\n"], false⟩] =
      (lit "A car.", [⟨[lit "Struct", lit "Car", lit "{", lit "\n"], false⟩]) := by
  refine ⟨?_, by decide +kernel⟩
  intro l hl
  simp only [List.mem_singleton] at hl
  subst hl
  exact ⟨rfl, _, _, rfl, by decide⟩

/-- The words of the comment lines before a field are the comment of that field and of no other one. -/
theorem C136_field (u : Uni) (self : Str) (c : Ctx) (fs : List Field) (cs : List Line) (l : Line) (ls : List Line) (first : Str) (rest : List Str)
    (hc : AllComments cs) (hl : l.items = first :: rest) (h1 : isComment first = false) (h2 : first ≠ lit "}") (he : l.eof = false) :
    fieldsLoop u self c [] fs (cs ++ l :: ls) =
      (parseField u self c (cs.flatMap commentText) l >>= fun p => fieldsLoop u self p.2 [] (fs ++ [p.1]) ls) := by
  have go : ∀ (cs : List Line) (pend : List Str), AllComments cs → fieldsLoop u self c pend fs (cs ++ l :: ls) =
      (parseField u self c (pend ++ cs.flatMap commentText) l >>= fun p => fieldsLoop u self p.2 [] (fs ++ [p.1]) ls) := by
    intro cs
    induction cs with
    | nil =>
      intro pend _
      simp [fieldsLoop, Line.item, hl, h1, h2, he]
    | cons x cs ih =>
      intro pend h
      obtain ⟨k0, f, r, k1, k2⟩ := h x (by simp)
      have := ih (pend ++ commentText x) fun y hy => h y (List.mem_cons_of_mem _ hy)
      simp [fieldsLoop, Line.item, k0, k1, k2, brace_noComment k2, this]
  simpa using go cs [] hc

/-- The words of the comment lines before an enumerator are the comment of that enumerator and of no other one. -/
theorem C136_enumerator (u : Uni) (e : Enum) (cs : List Line) (l : Line) (ls : List Line) (first : Str) (rest : List Str)
    (hc : AllComments cs) (hl : l.items = first :: rest) (h1 : isComment first = false) (h2 : first ≠ lit "}") (he : l.eof = false) :
    enumLoop u [] e (cs ++ l :: ls) = (enumEntry u (cs.flatMap commentText) e l >>= fun e => enumLoop u [] e ls) := by
  have go : ∀ (cs : List Line) (pend : List Str), AllComments cs → enumLoop u pend e (cs ++ l :: ls) =
      (enumEntry u (pend ++ cs.flatMap commentText) e l >>= fun e => enumLoop u [] e ls) := by
    intro cs
    induction cs with
    | nil =>
      intro pend _
      simp [enumLoop, Line.item, hl, h1, h2, he]
    | cons x cs ih =>
      intro pend h
      obtain ⟨k0, f, r, k1, k2⟩ := h x (by simp)
      have := ih (pend ++ commentText x) fun y hy => h y (List.mem_cons_of_mem _ hy)
      simp [enumLoop, Line.item, k0, k1, k2, brace_noComment k2, this]
  simpa using go cs [] hc

/-! ## Comments change nothing else -/

/-- A file parses to the same blocks, apart from their comments, and to the same errors and panics, when its comment lines are taken out. -/
theorem C136_ignored (u : Uni) (imports : List Str) (ls : List Line) :
    parseFile u imports (ls.filter keep) = mapOk stripFile (parseFile u imports ls) :=
  fileLoop_strip u ls.length _ ls ⟨⟨[], imports, []⟩, [], []⟩ (Nat.le_refl _) (Nat.le_refl _)

/-- The lines of a file with comments before a struct, before a field and before its end. -/
def commented : List Line :=
  [commentLine [lit "A", lit "car."], ⟨[lit "Struct", lit "Car", lit "{", lit "\n"], false⟩, commentLine [lit "Its", lit "name."],
   ⟨[lit "Name", lit "string", lit "@0", lit "//", lit "here", lit "\n"], false⟩, commentLine [], ⟨[lit "}", lit "\n"], false⟩, ⟨[[]], true⟩]

example : commented.filter keep = [⟨[lit "Struct", lit "Car", lit "{", lit "\n"], false⟩, ⟨[lit "Name", lit "string", lit "@0", lit "//", lit "here", lit "\n"], false⟩,
    ⟨[lit "}", lit "\n"], false⟩, ⟨[[]], true⟩] := by decide +kernel

/-- The field has its comment before the lines are taken out, and none afterwards. -/
example : (∃ f, parseFile ascii [] commented = .ok f ∧ f.structs.map (fun p => (p.1, p.2.map (·.comment))) = [(lit "Car", [[lit "Its", lit "name."]])]) ∧
    ∃ f, parseFile ascii [] (commented.filter keep) = .ok f ∧ f.structs.map (fun p => (p.1, p.2.map (·.comment))) = [(lit "Car", [[]])] :=
  ⟨⟨⟨⟨[(lit "Car", .struct)], [], []⟩, [(lit "Car", [⟨[lit "Its", lit "name."], lit "Name", 0, .string, false, false, [], false, none⟩])], []⟩, by decide +kernel, by decide +kernel⟩,
   ⟨⟨⟨[(lit "Car", .struct)], [], []⟩, [(lit "Car", [⟨[], lit "Name", 0, .string, false, false, [], false, none⟩])], []⟩, by decide +kernel, by decide +kernel⟩⟩

end Claw.Comments
