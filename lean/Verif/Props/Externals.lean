import Verif.Lemmas.Externals
import Verif.Props.Idl

/-!
# C69: the types of imported packages
-/

namespace Claw.Externals

open Claw.Idl

/-- What is found for a name of a package: `files` are the files that were read. -/
theorem externs_two {imports : List Import.Entry} {files : Str → Option (List (Str × Ident))} {ext : List Str} {a b : Str}
    (ha : (46 : UInt8) ∉ a) (hb : (46 : UInt8) ∉ b) (hx : (a ++ 46 :: b) ∈ ext) {e : Import.Entry} (he : Import.byName imports a = some e)
    {ids : List (Str × Ident)} (hf : files e.path = some ids) : externs imports files ext (a ++ 46 :: b) = .ok ids := by
  unfold externs
  rw [splitDot_two ha hb]
  simp only [List.headD_cons, he, if_pos hx, hf]

theorem enumType_meaning (size : Nat) (l : Bool) : meaning (some (.enum size)) l = (enumType size l).map fun t => (t, true) := by
  unfold enumType
  by_cases h8 : size = 8
  · subst h8; cases l <;> rfl
  · by_cases h16 : size = 16
    · subst h16; cases l <;> rfl
    · simp only [h8, h16, if_false, Option.map_none]
      unfold meaning
      split <;> simp_all

/-- C69, for types of imported packages: in an accepted file, whatever its text, every field of every struct comes from a line
that gives its name, its type and its number. If the type is `pkg.Name` or `[]pkg.Name`, then the file has an import with
that name. If the files of all its imports were read, what is compiled is what `Name` means in **the file at the path of that
import**, wherever it is declared there: an enum of its width or a struct, or a list of those. If that file does not declare the
name, compilation fails with an error. It never panics. (No two imports of an accepted file have the same name: C130.) -/
theorem C69_imported {u : Uni} (hu : ∀ s, u.Ident s → (46 : UInt8) ∉ s) {imports : List Import.Entry} {ls : List Line} {file : File}
    (h : parseFile u (imports.map (·.name)) ls = .ok file) (files : Str → Option (List (Str × Ident)))
    (hr : ∀ e ∈ imports, (files e.path).isSome) :
    ∀ p ∈ file.structs, ∀ f ∈ p.2, ∃ l ∈ ls, ∃ ty num, l.items[0]? = some f.name ∧ l.items[1]? = some ty ∧ l.items[2]? = some num ∧
      (∃ i, atNumber num = .ok i ∧ f.index = (i % 65536).toNat) ∧
      ∀ isList pkg name, Part pkg → Part name → ty = (if isList then lit "[]" else []) ++ pkg ++ [46] ++ name →
        ∃ e ids, e ∈ imports ∧ e.name = pkg ∧ files e.path = some ids ∧
          match meaning (assocGet name ids) isList with
          | some (t, en) => ∃ g, resolve file.ctx.idents (externs imports files file.ctx.external) f = .ok g ∧ g.type = t ∧
              g.isEnum = en ∧ g.map = none ∧ g.name = f.name ∧ g.index = f.index
          | none => resolve file.ctx.idents (externs imports files file.ctx.external) f = .err := by
  intro p hp f hf
  obtain ⟨hfs, himp⟩ := parseFile_pkg hu h
  obtain ⟨l, hl, ty, num, i, h1, h2, h3, h4, h5, h6⟩ := hfs p hp f hf
  refine ⟨l, hl, ty, num, h1, h2, h3, ⟨i, h4, h5⟩, ?_⟩
  intro isList pkg name p1 p2 hty
  obtain ⟨k1, k2, k3, k4, k5, k6, k7⟩ := h6 isList pkg name p1 p2 (by rw [hty, text]; simp)
  rw [himp] at k1
  obtain ⟨e0, he0, hn0⟩ := List.mem_map.1 k1
  cases hb : Import.byName imports pkg with
  | none =>
    exfalso
    have := List.find?_eq_none.1 hb e0 he0
    simp [hn0] at this
  | some e =>
    have he := List.mem_of_find?_eq_some hb
    have hn := List.find?_some hb
    simp only [decide_eq_true_eq] at hn
    obtain ⟨ids, hids⟩ := Option.isSome_iff_exists.1 (hr e he)
    refine ⟨e, ids, he, hn, hids, ?_⟩
    have hx := externs_two p1.dot p2.dot k2 hb hids
    have hres : resolve file.ctx.idents (externs imports files file.ctx.external) f =
        match assocGet name ids with
        | some (.enum size) =>
          match enumType size f.isList with
          | some t => .ok { f with isEnum := true, type := t }
          | none => .err
        | some .struct => .ok { f with type := structType f.isList }
        | none => .err := by
      unfold resolve
      rw [if_neg (by simp [k4])]
      simp only [k3]
      rw [if_neg (by simp), splitDot_two p1.dot p2.dot]
      simp only [hx, Out.ok_bind]
      cases assocGet name ids with
      | none => rfl
      | some id => cases id <;> rfl
    rw [hres]
    cases hg : assocGet name ids with
    | none => simp [meaning_none]
    | some id =>
      cases id with
      | enum size =>
        rw [enumType_meaning]
        simp only [k5]
        cases enumType size isList with
        | none => rfl
        | some t => exact ⟨_, rfl, rfl, rfl, k6, rfl, rfl⟩
      | struct =>
        simp only [k5]
        cases isList <;> exact ⟨_, rfl, rfl, k7, k6, rfl, rfl⟩

/-- A type whose package is not imported is refused at its line. -/
theorem C69_not_imported {c : Ctx} {self pkg name : Str} (f : Field) (isList : Bool) (h1 : Part pkg) (h2 : Part name)
    (hs : (46 : UInt8) ∉ self) (hc : ∀ p ∈ c.idents, (46 : UInt8) ∉ p.1) (hn : pkg ∉ c.imports) :
    fieldType c self f ((if isList then lit "[]" else []) ++ (pkg ++ 46 :: name)) = .err := by
  rw [fieldType_dotted isList (text_dot pkg name) (text_bracket h1 h2), refType_dotted (text_dot pkg name) hs hc,
    noteExternal_two h1 h2, if_neg hn]
  rfl

theorem dropWhile_none {s : Str} (h : (46 : UInt8) ∉ s) : s.dropWhile (· = 46) = s := by
  cases s with
  | nil => rfl
  | cons c s =>
    simp only [List.mem_cons, not_or] at h
    rw [List.dropWhile_cons_of_neg]
    simp only [decide_eq_true_eq]
    exact fun e => h.1 e.symm

theorem trim_first {n : Str} (h : (46 : UInt8) ∉ n) : trimDots (46 :: n) = n := by
  unfold trimDots
  rw [List.dropWhile_cons_of_pos (by simp), dropWhile_none h, dropWhile_none (by simpa using h), List.reverse_reverse]

theorem trim_last {n : Str} (h : (46 : UInt8) ∉ n) : trimDots (n ++ [46]) = n := by
  cases n with
  | nil => decide
  | cons c n =>
    unfold trimDots
    rw [dropDots (by simp) h]
    have : ((c :: n) ++ [46]).reverse = 46 :: (c :: n).reverse := by simp
    rw [this, List.dropWhile_cons_of_pos (by simp), dropWhile_none (by rw [List.mem_reverse]; exact h), List.reverse_reverse]

/-- C69 fails for a name with a dot before or after it, `.Name` or `pkg.`: the parser accepts it as the type of a field, whatever
is imported and declared. When the code is generated, clawc panics, whatever files were read (unless the same text also is
the value of a map of the file, and `pkg` is imported: then it is an error). -/
theorem C69_edge_dots {c : Ctx} {self n ty : Str} (f : Field) (hn : (46 : UInt8) ∉ n) (hb : (91 : UInt8) ∉ n)
    (hty : ty = 46 :: n ∨ ty = n ++ [46]) (hs : (46 : UInt8) ∉ self) (hc : ∀ p ∈ c.idents, (46 : UInt8) ∉ p.1) :
    ∃ g, fieldType c self f ty = .ok (g, c) ∧
      ∀ locals imports files ext, ty ∉ ext → resolve locals (externs imports files ext) g = .panic := by
  have h46 : (46 : UInt8) ∈ ty := by rcases hty with rfl | rfl <;> simp
  have h91 : (91 : UInt8) ∉ ty := by rcases hty with rfl | rfl <;> simp [hb]
  have htrim : trimDots ty = n := by rcases hty with rfl | rfl; exact trim_first hn; exact trim_last hn
  have hsplit : ∃ a b, splitDot ty = [a, b] := by
    rcases hty with rfl | rfl
    · exact ⟨_, _, splitDot_two (a := []) (by simp) hn⟩
    · exact ⟨_, _, splitDot_two (b := []) hn (by simp)⟩
  have h0 : fieldType c self f ty = refType c self f false ty := by
    have := fieldType_dotted (c := c) (self := self) (f := f) false h46 h91
    simpa using this
  refine ⟨{ f with identName := ty, type := .unknown, isList := false }, ?_, ?_⟩
  · rw [h0, refType_dotted h46 hs hc]
    unfold noteExternal
    rw [htrim, List.count_eq_zero_of_not_mem hn]
    rfl
  · intro locals imports files ext hx
    obtain ⟨a, b, hab⟩ := hsplit
    unfold resolve
    rw [if_neg (by simp)]
    simp only
    rw [if_neg (by simpa using h46), hab]
    have : externs imports files ext ty = .panic := by
      unfold externs
      split
      · rfl
      · rw [if_neg hx]
    simp only [this]
    rfl

/-! ## Cases -/

/-- A file that uses a struct, lists and enums of two packages. -/
def userFile : List Line :=
  [⟨[lit "Struct", lit "A", lit "{", lit "\n"], false⟩,
   ⟨[lit "E", lit "cars.Color", lit "@0", lit "\n"], false⟩,
   ⟨[lit "Bs", lit "[]cars.Car", lit "@1", lit "\n"], false⟩,
   ⟨[lit "W", lit "[]other.Color", lit "@2", lit "\n"], false⟩,
   ⟨[lit "N", lit "cars.None", lit "@3", lit "\n"], false⟩,
   ⟨[lit "}", []], true⟩]

def twoImports : List Import.Entry := [⟨lit "x/cars", lit "cars"⟩, ⟨lit "y/z", lit "other"⟩]

def twoFiles (p : Str) : Option (List (Str × Ident)) :=
  if p = lit "x/cars" then some [(lit "Color", .enum 8), (lit "Car", .struct)]
  else if p = lit "y/z" then some [(lit "Color", .enum 16)]
  else none

/-- Identifiers of ASCII letters and digits have no dots. -/
theorem ascii_dotless : ∀ s, ascii.Ident s → (46 : UInt8) ∉ s := by
  rintro s ⟨r, rs, h1, _, h3, h4⟩ hm
  have : (46 : Nat) ∈ ascii.runes s := List.mem_map.2 ⟨46, hm, rfl⟩
  rw [h1, List.mem_cons] at this
  rcases this with rfl | h
  · simp [ascii] at h3
  · rcases h4 _ h with h | h <;> simp [ascii] at h

example : (match parseFile ascii (twoImports.map (·.name)) userFile with
    | .ok file => file.structs.map fun p => p.2.map fun f =>
        match resolve file.ctx.idents (externs twoImports twoFiles file.ctx.external) f with
        | .ok g => some (g.type, g.isEnum)
        | _ => none
    | _ => []) = [[some (.uint8, true), some (.listStructs, false), some (.listUint16, true), none]] := by
  decide +kernel

example : (∃ file, parseFile ascii (twoImports.map (·.name)) userFile = .ok file ∧ file.structs.length = 1) ∧
    (∀ e ∈ twoImports, (twoFiles e.path).isSome) ∧ Part (lit "cars") ∧ Part (lit "Car") := by
  refine ⟨?_, by decide, ⟨by decide, by decide, by decide⟩, ⟨by decide, by decide, by decide⟩⟩
  have h : (match parseFile ascii (twoImports.map (·.name)) userFile with
    | .ok file => decide (file.structs.length = 1)
    | _ => false) = true := by decide +kernel
  split at h
  · rename_i file hf; exact ⟨file, hf, by simpa using h⟩
  · simp at h

/-- The same file without its second import is refused. -/
example : parseFile ascii [lit "cars"] userFile = .err := by decide +kernel

/-- `.Car` is accepted, and clawc panics. -/
example : (match parseFile ascii (twoImports.map (·.name)) [⟨[lit "Struct", lit "A", lit "{", lit "\n"], false⟩,
      ⟨[lit "E", lit ".Car", lit "@0", lit "\n"], false⟩, ⟨[lit "}", []], true⟩] with
    | .ok file => file.structs.map fun p => p.2.map fun f =>
        decide (resolve file.ctx.idents (externs twoImports twoFiles file.ctx.external) f = .panic)
    | _ => []) = [[true]] := by
  decide +kernel

end Claw.Externals
