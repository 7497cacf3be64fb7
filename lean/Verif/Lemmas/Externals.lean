import Verif.Model.Externals
import Verif.Lemmas.IdlTypes

namespace Claw.Externals

open Claw.Idl

/-- One part of a name with a package: not empty, without dots and brackets. -/
structure Part (s : Str) : Prop where
  ne : s ≠ []
  dot : (46 : UInt8) ∉ s
  bracket : (91 : UInt8) ∉ s

theorem splitDot_two {a b : Str} (ha : (46 : UInt8) ∉ a) (hb : (46 : UInt8) ∉ b) : splitDot (a ++ 46 :: b) = [a, b] := by
  induction a with
  | nil => simp [splitDot, splitDot_none hb]
  | cons c a ih =>
    simp only [List.mem_cons, not_or] at ha
    simp only [List.cons_append, splitDot, ih ha.2]
    rw [if_neg fun e => ha.1 e.symm]

theorem dropDots {s t : Str} (h : s ≠ []) (hd : (46 : UInt8) ∉ s) : (s ++ t).dropWhile (· = 46) = s ++ t := by
  cases s with
  | nil => exact absurd rfl h
  | cons c s =>
    simp only [List.mem_cons, not_or] at hd
    simp only [List.cons_append]
    rw [List.dropWhile_cons_of_neg]
    simp only [decide_eq_true_eq]
    exact fun e => hd.1 e.symm

theorem trimDots_id {a b : Str} (ha : Part a) (hb : Part b) : trimDots (a ++ 46 :: b) = a ++ 46 :: b := by
  unfold trimDots
  rw [dropDots ha.ne ha.dot]
  have : (a ++ 46 :: b).reverse = b.reverse ++ 46 :: a.reverse := by simp
  rw [this, dropDots (by simpa using hb.ne) (by simpa using hb.dot), ← this, List.reverse_reverse]

theorem count_one {a b : Str} (ha : (46 : UInt8) ∉ a) (hb : (46 : UInt8) ∉ b) : (a ++ 46 :: b).count 46 = 1 := by
  simp [List.count_append, List.count_eq_zero_of_not_mem ha, List.count_eq_zero_of_not_mem hb]

theorem noteExternal_two {c : Ctx} {a b : Str} (ha : Part a) (hb : Part b) :
    noteExternal c (a ++ 46 :: b) = if a ∈ c.imports then .ok { c with external := (a ++ 46 :: b) :: c.external } else .err := by
  unfold noteExternal
  rw [trimDots_id ha hb, count_one ha.dot hb.dot, splitDot_two ha.dot hb.dot]
  by_cases h : a ∈ c.imports <;> simp [h, Out.guard]

/-- How a type with a package is written. -/
def text (isList : Bool) (pkg name : Str) : Str := (if isList then lit "[]" else []) ++ (pkg ++ 46 :: name)

theorem scalar_dotless (t : FT) : (46 : UInt8) ∉ scalarText t := by cases t <;> decide

/-- A text with a dot and without brackets goes to `refType`, with or without `[]` before it. -/
theorem fieldType_dotted {c : Ctx} {self n : Str} {f : Field} (l : Bool) (h46 : (46 : UInt8) ∈ n) (h91 : (91 : UInt8) ∉ n) :
    fieldType c self f ((if l then lit "[]" else []) ++ n) = refType c self f l n := by
  have ok : (46 : UInt8) ∈ ((if l then lit "[]" else []) ++ n) := List.mem_append_right _ h46
  have h0 : plainType ((if l then lit "[]" else []) ++ n) = none := by
    cases hp : plainType ((if l then lit "[]" else []) ++ n) with
    | none => rfl
    | some t =>
      exfalso
      rcases plainType_iff.1 hp with ⟨_, h2⟩ | ⟨x, _, h2, _⟩
      · rw [h2] at ok; exact scalar_dotless t ok
      · rw [h2, List.mem_append] at ok
        rcases ok with ok | ok
        · exact absurd ok (by decide)
        · exact scalar_dotless x ok
  have h1 : Str.hasPrefix (lit "map[") ((if l then lit "[]" else []) ++ n) = false := by
    rw [Bool.eq_false_iff]
    intro hp
    obtain ⟨z, hz⟩ := hasPrefix_iff.1 hp
    cases l with
    | false => exact h91 (by simp at hz; rw [← hz]; simp [lit])
    | true =>
      have := congrArg List.head? hz
      simp [lit] at this
  unfold fieldType
  rw [h0]
  simp only [h1, if_false, Bool.false_eq_true]
  cases l with
  | true =>
    have h2 : Str.hasPrefix (lit "[]") (lit "[]" ++ n) = true := by rw [hasPrefix_iff]; exact List.prefix_append _ _
    have h3 : (lit "[]" ++ n).drop 2 = n := List.drop_left' (by decide)
    simp only [if_true]
    rw [if_pos h2, h3, afterBrackets_id h91]
  | false =>
    have h2 : ¬ Str.hasPrefix (lit "[]") n = true := by
      rw [hasPrefix_iff]
      rintro ⟨z, hz⟩
      exact h91 (by rw [← hz]; simp [lit])
    simp only [if_false, Bool.false_eq_true, List.nil_append]
    rw [if_neg h2]

theorem refType_dotted {c : Ctx} {self n : Str} {f : Field} {l : Bool} (h46 : (46 : UInt8) ∈ n) (hs : (46 : UInt8) ∉ self)
    (hc : ∀ p ∈ c.idents, (46 : UInt8) ∉ p.1) :
    refType c self f l n = (noteExternal c n).bind fun c => .ok ({ f with identName := n, type := .unknown, isList := l }, c) := by
  unfold refType
  have hne : self ≠ n := by rintro rfl; exact hs h46
  rw [if_neg hne]
  have : assocGet n c.idents = none := by
    rw [← Option.isNone_iff_eq_none, assocGet_none]
    intro hm
    obtain ⟨p, hp, rfl⟩ := List.mem_map.1 hm
    exact hc p hp h46
  rw [this]
  rfl

theorem text_dot (pkg name : Str) : (46 : UInt8) ∈ pkg ++ 46 :: name := by simp
theorem text_bracket {pkg name : Str} (h1 : Part pkg) (h2 : Part name) : (91 : UInt8) ∉ pkg ++ 46 :: name := by
  simp [h1.bracket, h2.bracket]

/-! ## Contexts only grow -/

structure Grows (c d : Ctx) : Prop where
  same : c.Same d
  ext : ∀ x ∈ c.external, x ∈ d.external

theorem Grows.refl (c : Ctx) : Grows c c := ⟨.refl c, fun _ h => h⟩
theorem Grows.trans {a b c : Ctx} (h : Grows a b) (k : Grows b c) : Grows a c := ⟨h.1.trans k.1, fun x hx => k.2 x (h.2 x hx)⟩

theorem after_ext (c : Ctx) (t : MapTy) : ∀ x ∈ c.external, x ∈ (t.after c).external := by
  intro x hx
  induction t with
  | scalar k v => exact hx
  | anys k => exact hx
  | named k n =>
    simp only [MapTy.after]
    split
    · exact List.mem_cons_of_mem _ hx
    · exact hx
  | map k i ih => exact ih

theorem noteExternal_ext {c c' : Ctx} {n : Str} (h : noteExternal c n = .ok c') : ∀ x ∈ c.external, x ∈ c'.external := by
  intro x hx
  unfold noteExternal at h
  split at h
  · simp only [Out.bind_eq_ok, Out.ok.injEq] at h
    obtain ⟨_, _, rfl⟩ := h
    exact List.mem_cons_of_mem _ hx
  · simp only [Out.ok.injEq] at h; subst h; exact hx

theorem refType_ext {c c' : Ctx} {self n : Str} {f g : Field} {l : Bool} (h : refType c self f l n = .ok (g, c')) :
    ∀ x ∈ c.external, x ∈ c'.external := by
  intro x hx
  unfold refType at h
  split at h
  · simp only [Out.bind_eq_ok, Out.pure_eq, Out.ok.injEq, Prod.mk.injEq] at h
    obtain ⟨_, _, _, rfl⟩ := h; exact hx
  · split at h
    · split at h
      · simp only [Out.ok.injEq, Prod.mk.injEq] at h
        obtain ⟨_, rfl⟩ := h; exact hx
      · simp at h
    · simp only [Out.ok.injEq, Prod.mk.injEq] at h
      obtain ⟨_, rfl⟩ := h; exact hx
    · simp only [Out.bind_eq_ok, Out.pure_eq, Out.ok.injEq, Prod.mk.injEq] at h
      obtain ⟨c1, h1, _, rfl⟩ := h
      exact noteExternal_ext h1 x hx

theorem fieldType_grows {c c' : Ctx} {self ty : Str} {f g : Field} (h : fieldType c self f ty = .ok (g, c')) : Grows c c' := by
  refine ⟨(fieldType_same (.refl c) h).1, ?_⟩
  unfold fieldType at h
  split at h
  · simp only [Out.ok.injEq, Prod.mk.injEq] at h
    obtain ⟨_, rfl⟩ := h; exact fun x hx => hx
  · split at h
    · simp only [Out.bind_eq_ok, Out.pure_eq, Out.ok.injEq, Prod.mk.injEq] at h
      obtain ⟨⟨m, c1⟩, h1, _, rfl⟩ := h
      obtain ⟨t, _, _, _, rfl⟩ := parseMapType_text h1
      exact after_ext c t
    · split at h
      · exact refType_ext h
      · exact refType_ext h

/-! ## What is known of a field whose type has a package -/

/-- The line of a field, and what the parser leaves if its type has a package: `imports` and `external` are those of the file. -/
def FromPkg (imports external : List Str) (l : Line) (f : Field) : Prop :=
  ∃ ty num i, l.items[0]? = some f.name ∧ l.items[1]? = some ty ∧ l.items[2]? = some num ∧ atNumber num = .ok i ∧ f.index = toUint16 i ∧
    ∀ isList pkg name, Part pkg → Part name → ty = text isList pkg name →
      pkg ∈ imports ∧ (pkg ++ 46 :: name) ∈ external ∧ f.identName = pkg ++ 46 :: name ∧ f.type = .unknown ∧ f.isList = isList ∧
        f.map = none ∧ f.isEnum = false

theorem FromPkg.mono {imports ext ext' : List Str} {l : Line} {f : Field} (h : FromPkg imports ext l f) (he : ∀ x ∈ ext, x ∈ ext') :
    FromPkg imports ext' l f := by
  obtain ⟨ty, num, i, h1, h2, h3, h4, h5, h6⟩ := h
  exact ⟨ty, num, i, h1, h2, h3, h4, h5, fun a b c d e g => by
    obtain ⟨k1, k2, k3⟩ := h6 a b c d e g
    exact ⟨k1, he _ k2, k3⟩⟩

def Dotless (c : Ctx) : Prop := ∀ p ∈ c.idents, (46 : UInt8) ∉ p.1

theorem parseField_pkg {u : Uni} {self : Str} {c c' : Ctx} {cm : List Str} {l : Line} {f : Field} (hs : (46 : UInt8) ∉ self)
    (hc : Dotless c) (h : parseField u self c cm l = .ok (f, c')) : FromPkg c.imports c'.external l f ∧ Grows c c' := by
  simp only [parseField, Out.bind_eq_ok, guard_ok, Out.pure_eq, Out.ok.injEq, Prod.mk.injEq, item_ok] at h
  obtain ⟨_, _, _, _, name, h1, _, _, ty, h2, ⟨g, c1⟩, h3, num, h4, i, h5, _, _, _, _, rfl, rfl⟩ := h
  obtain ⟨_, _, k2, _⟩ := fieldType_same (.refl c) h3
  refine ⟨⟨ty, num, i, ?_, h2, h4, h5, rfl, ?_⟩, fieldType_grows h3⟩
  · simp only at k2 ⊢; rw [k2]; exact h1
  · rintro isList pkg nm p1 p2 rfl
    rw [text, fieldType_dotted isList (text_dot pkg nm) (text_bracket p1 p2), refType_dotted (text_dot pkg nm) hs hc,
      noteExternal_two p1 p2] at h3
    split at h3
    · rename_i hi
      simp only [Out.bind, Out.ok.injEq, Prod.mk.injEq] at h3
      obtain ⟨rfl, rfl⟩ := h3
      exact ⟨hi, by simp, rfl, rfl, rfl, rfl, rfl⟩
    · simp [Out.bind] at h3

theorem Grows.dotless {c d : Ctx} (h : Grows c d) (hc : Dotless c) : Dotless d := by
  unfold Dotless; rw [← h.same.1]; exact hc

theorem fieldsLoop_pkg {u : Uni} {self : Str} (hs : (46 : UInt8) ∉ self) : ∀ (ls : List Line) {c : Ctx} {pend : List Str}
    {fs gs : List Field} {c' : Ctx} {rest : List Line}, Dotless c → fieldsLoop u self c pend fs ls = .ok (gs, c', rest) →
    Grows c c' ∧ ∀ f ∈ gs, f ∈ fs ∨ ∃ l ∈ ls, FromPkg c'.imports c'.external l f := by
  intro ls
  induction ls with
  | nil => intro c pend fs gs c' rest _ h; simp [fieldsLoop] at h
  | cons l ls ih =>
    intro c pend fs gs c' rest hc h
    unfold fieldsLoop at h
    simp only [Out.bind_eq_ok] at h
    obtain ⟨first, _, h⟩ := h
    split at h
    · simp only [Out.bind_eq_ok, Out.pure_eq, Out.ok.injEq, Prod.mk.injEq] at h
      obtain ⟨_, _, _, _, _, _, rfl, rfl, rfl⟩ := h
      exact ⟨.refl c, fun f hf => Or.inl hf⟩
    · split at h
      · simp at h
      · split at h
        · obtain ⟨k1, k4⟩ := ih hc h
          refine ⟨k1, fun f hf => (k4 f hf).imp id ?_⟩
          rintro ⟨l', h1, h2⟩; exact ⟨l', List.mem_cons_of_mem _ h1, h2⟩
        · simp only [Out.bind_eq_ok] at h
          obtain ⟨⟨f1, c1⟩, h1, h⟩ := h
          obtain ⟨q1, q2⟩ := parseField_pkg hs hc h1
          obtain ⟨k1, k4⟩ := ih (q2.dotless hc) h
          refine ⟨q2.trans k1, fun f hf => ?_⟩
          rcases k4 f hf with h2 | ⟨l', h2, h3⟩
          · simp only [List.mem_append, List.mem_singleton] at h2
            rcases h2 with h2 | rfl
            · exact Or.inl h2
            · refine Or.inr ⟨l, by simp, ?_⟩
              rw [q2.same.2.trans k1.same.2] at q1
              exact q1.mono k1.ext
          · exact Or.inr ⟨l', List.mem_cons_of_mem _ h2, h3⟩

theorem parseStruct_pkg {u : Uni} (hu : ∀ s, u.Ident s → (46 : UInt8) ∉ s) {c c' : Ctx} {ls rest : List Line} {name : Str}
    {fs : List Field} (hc : Dotless c) (h : parseStruct u c ls = .ok (name, fs, c', rest)) :
    Grows c c' ∧ ∀ f ∈ fs, ∃ l ∈ ls, FromPkg c'.imports c'.external l f := by
  have hs := (parseStruct_from h).2.2.2.1
  cases ls with
  | nil => simp [parseStruct] at h
  | cons l ls =>
    simp only [parseStruct, Out.bind_eq_ok, Out.pure_eq, Out.ok.injEq, Prod.mk.injEq] at h
    obtain ⟨_, _, n, _, _, hn, b, _, _, _, _, _, ⟨gs, c1, r1⟩, h1, rfl, rfl, rfl, rfl⟩ := h
    obtain ⟨hs', k1, k2, k3⟩ := parseFields_ok h1
    obtain ⟨q1, q4⟩ := fieldsLoop_pkg (hu _ hs) _ hc k1
    refine ⟨q1, fun f hf => ?_⟩
    rcases q4 f (k2.mem_iff.1 hf) with h2 | ⟨l', h2, h3⟩
    · simp at h2
    · exact ⟨l', List.mem_cons_of_mem _ h2, h3⟩

/-- The fields of the structs read so far. -/
def Fields (all : List Line) (f : File) : Prop :=
  ∀ p ∈ f.structs, ∀ fld ∈ p.2, ∃ l ∈ all, FromPkg f.ctx.imports f.ctx.external l fld

theorem dotless_set {m : List (Str × Ident)} {k : Str} {v : Ident} (h : ∀ p ∈ m, (46 : UInt8) ∉ p.1) (hk : (46 : UInt8) ∉ k)
    (hn : k ∉ m.map (·.1)) : ∀ p ∈ assocSet k v m, (46 : UInt8) ∉ p.1 := by
  intro p hp
  rw [assocSet_new hn] at hp
  simp only [List.mem_append, List.mem_singleton] at hp
  rcases hp with hp | rfl
  · exact h p hp
  · exact hk

theorem fileLoop_pkg {u : Uni} (hu : ∀ s, u.Ident s → (46 : UInt8) ∉ s) {all : List Line} : ∀ (fuel : Nat) {f f' : File} {ls : List Line},
    Fields all f → Dotless f.ctx → ls <:+ all → fileLoop u fuel f ls = .ok f' → Fields all f' ∧ f'.ctx.imports = f.ctx.imports := by
  intro fuel
  induction fuel with
  | zero =>
    intro f f' ls hi _ _ h
    unfold fileLoop at h
    split at h
    · simp only [Out.ok.injEq] at h; exact h ▸ ⟨hi, rfl⟩
    · simp at h
  | succ fuel ih =>
    intro f f' ls hi hd hls h
    cases ls with
    | nil => simp only [fileLoop, Out.ok.injEq] at h; exact h ▸ ⟨hi, rfl⟩
    | cons l ls =>
      unfold fileLoop at h
      split at h
      · simp only [Out.ok.injEq] at h; exact h ▸ ⟨hi, rfl⟩
      · simp only [Out.bind_eq_ok] at h
        obtain ⟨first, _, h⟩ := h
        split at h
        · exact ih hi hd ((List.suffix_cons _ _).trans hls) h
        · split at h
          · simp only [Out.bind_eq_ok, guard_ok, assocGet_none] at h
            obtain ⟨⟨e, rest⟩, h1, _, hn, h⟩ := h
            obtain ⟨q1, _, q2, _⟩ := parseEnum_facts h1
            exact ih (f := { f with ctx := { f.ctx with idents := assocSet e.name (.enum e.size) f.ctx.idents }, enums := f.enums ++ [e] })
              hi (dotless_set hd (hu _ q2) hn) (q1.trans hls) h
          · split at h
            · simp only [Out.bind_eq_ok, guard_ok, assocGet_none] at h
              obtain ⟨⟨name, fs, c, rest⟩, h1, _, hn, h⟩ := h
              obtain ⟨_, q1, _, q2, _⟩ := parseStruct_from h1
              obtain ⟨g1, g2⟩ := parseStruct_pkg hu hd h1
              have := ih (f := { f with ctx := { c with idents := assocSet name .struct c.idents }, structs := f.structs ++ [(name, fs)] })
                ?_ (dotless_set (g1.dotless hd) (hu _ q2) hn) (q1.trans hls) h
              · exact ⟨this.1, this.2.trans g1.same.2.symm⟩
              · intro p hp fld hf
                simp only [List.mem_append, List.mem_singleton] at hp
                rcases hp with hp | rfl
                · obtain ⟨l', h1, h2⟩ := hi p hp fld hf
                  rw [g1.same.2] at h2
                  exact ⟨l', h1, h2.mono g1.ext⟩
                · obtain ⟨l', h1, h2⟩ := g2 fld hf
                  exact ⟨l', hls.subset h1, h2⟩
            · simp at h

theorem parseFile_pkg {u : Uni} (hu : ∀ s, u.Ident s → (46 : UInt8) ∉ s) {imports : List Str} {ls : List Line} {f : File}
    (h : parseFile u imports ls = .ok f) : Fields ls f ∧ f.ctx.imports = imports :=
  fileLoop_pkg hu _ (by intro p hp; simp at hp) (by intro p hp; simp at hp) (List.suffix_refl _) h

end Claw.Externals
