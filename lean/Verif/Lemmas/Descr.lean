import Verif.Model.Descr
import Verif.Lemmas.GenGo
import Verif.Props.IdlTypes

/-!
# Lemmas on descriptions
-/

namespace Claw.Descr

open Claw.Idl
open Claw.GenGo (mapOut isExternal)

/-- Where the enums and structs of a file come from. -/
theorem fileLoop_from {u : Uni} : ∀ (fuel : Nat) {f f' : File} {ls : List Line}, fileLoop u fuel f ls = .ok f' →
    (∀ e ∈ f'.enums, e ∈ f.enums ∨ ∃ l r, parseEnum u l = .ok (e, r)) ∧
    (∀ s ∈ f'.structs, s ∈ f.structs ∨ ∃ c l c' r, parseStruct u c l = .ok (s.1, s.2, c', r)) := by
  intro fuel
  induction fuel with
  | zero =>
    intro f f' ls h
    unfold fileLoop at h
    split at h
    · simp only [Out.ok.injEq] at h; subst h; exact ⟨fun _ h => Or.inl h, fun _ h => Or.inl h⟩
    · simp at h
  | succ fuel ih =>
    intro f f' ls h
    cases ls with
    | nil => simp only [fileLoop, Out.ok.injEq] at h; subst h; exact ⟨fun _ h => Or.inl h, fun _ h => Or.inl h⟩
    | cons l ls =>
      unfold fileLoop at h
      split at h
      · simp only [Out.ok.injEq] at h; subst h; exact ⟨fun _ h => Or.inl h, fun _ h => Or.inl h⟩
      · simp only [Out.bind_eq_ok] at h
        obtain ⟨first, _, h⟩ := h
        split at h
        · exact ih h
        · split at h
          · simp only [Out.bind_eq_ok] at h
            obtain ⟨⟨e, rest⟩, h1, _, hn, h⟩ := h
            obtain ⟨k1, k2⟩ := ih h
            refine ⟨fun x hx => ?_, k2⟩
            rcases k1 x hx with hx | hx
            · simp only [List.mem_append, List.mem_singleton] at hx
              rcases hx with hx | rfl
              · exact Or.inl hx
              · exact Or.inr ⟨_, _, h1⟩
            · exact Or.inr hx
          · split at h
            · simp only [Out.bind_eq_ok] at h
              obtain ⟨⟨name, fs, c, rest⟩, h1, _, hn, h⟩ := h
              obtain ⟨k1, k2⟩ := ih h
              refine ⟨k1, fun x hx => ?_⟩
              rcases k2 x hx with hx | hx
              · simp only [List.mem_append, List.mem_singleton] at hx
                rcases hx with hx | rfl
                · exact Or.inl hx
                · exact Or.inr ⟨_, _, _, _, h1⟩
              · exact Or.inr hx
            · simp at h

theorem file_enum {u : Uni} {imports : List Str} {ls : List Line} {file : File} (h : parseFile u imports ls = .ok file) {e : Enum}
    (he : e ∈ file.enums) : ∃ l r, parseEnum u l = .ok (e, r) := by
  rcases (fileLoop_from _ h).1 e he with h | h
  · simp at h
  · exact h

theorem file_struct {u : Uni} {imports : List Str} {ls : List Line} {file : File} (h : parseFile u imports ls = .ok file) {s : Str × List Field}
    (hs : s ∈ file.structs) : ∃ c l c' r, parseStruct u c l = .ok (s.1, s.2, c', r) := by
  rcases (fileLoop_from _ h).2 s hs with h | h
  · simp at h
  · exact h

theorem mapOut_get {α β : Type} {f : α → Out β} : ∀ {l : List α} {m : List β}, mapOut f l = .ok m →
    m.length = l.length ∧ ∀ (k : Nat) a, l[k]? = some a → ∃ b, m[k]? = some b ∧ f a = .ok b := by
  intro l
  induction l with
  | nil => intro m h; simp only [mapOut, Out.ok.injEq] at h; subst h; simp
  | cons a l ih =>
    intro m h
    simp only [mapOut, Out.bind_eq_ok, Out.pure_eq, Out.ok.injEq] at h
    obtain ⟨b, h1, bs, h2, rfl⟩ := h
    obtain ⟨i1, i2⟩ := ih h2
    refine ⟨by simp [i1], ?_⟩
    intro k x hx
    cases k with
    | zero => simp only [List.getElem?_cons_zero, Option.some.injEq] at hx; subst hx; exact ⟨b, by simp, h1⟩
    | succ k => simp only [List.getElem?_cons_succ] at hx ⊢; exact i2 k x hx

theorem fieldDs_get : ∀ {fs : List Field} {i : Nat} {ds : List FieldD}, fieldDs i fs = .ok ds →
    ds.length = fs.length ∧ ∀ (k : Nat) f, fs[k]? = some f → ∃ d, ds[k]? = some d ∧ fieldD (i + k) f = .ok d := by
  intro fs
  induction fs with
  | nil => intro i ds h; simp only [fieldDs, Out.ok.injEq] at h; subst h; simp
  | cons a l ih =>
    intro i ds h
    simp only [fieldDs, Out.bind_eq_ok, Out.pure_eq, Out.ok.injEq] at h
    obtain ⟨b, h1, bs, h2, rfl⟩ := h
    obtain ⟨i1, i2⟩ := ih h2
    refine ⟨by simp [i1], ?_⟩
    intro k x hx
    cases k with
    | zero => simp only [List.getElem?_cons_zero, Option.some.injEq] at hx; subst hx; exact ⟨b, by simp, h1⟩
    | succ k =>
      simp only [List.getElem?_cons_succ] at hx ⊢
      rw [show i + (k + 1) = i + 1 + k by omega]
      exact i2 k x hx

theorem resolve_kept {ids : List (Str × Ident)} {ex : Str → Out (List (Str × Ident))} {f g : Field} (h : resolve ids ex f = .ok g) :
    g.name = f.name ∧ g.identName = f.identName ∧ g.index = f.index ∧ g.map = f.map := by
  have fin : ∀ {o : Option Ident}, (match o with
      | some (.enum size) =>
        match enumType size f.isList with
        | some t => Out.ok { f with isEnum := true, type := t }
        | none => .err
      | some .struct => .ok { f with type := structType f.isList }
      | none => .err) = .ok g → g.name = f.name ∧ g.identName = f.identName ∧ g.index = f.index ∧ g.map = f.map := by
    intro o h
    split at h
    · split at h
      · simp only [Out.ok.injEq] at h; subst h; exact ⟨rfl, rfl, rfl, rfl⟩
      · simp at h
    · simp only [Out.ok.injEq] at h; subst h; exact ⟨rfl, rfl, rfl, rfl⟩
    · simp at h
  unfold resolve at h
  split at h
  · simp only [Out.ok.injEq] at h; subst h; exact ⟨rfl, rfl, rfl, rfl⟩
  · simp only at h
    split at h
    · exact fin h
    · split at h
      · simp only [Out.bind_eq_ok] at h
        obtain ⟨ids', _, h⟩ := h
        exact fin h
      · simp at h

/-- What a description says, field by field. -/
theorem fieldD_ok {i : Nat} {f : Field} {d : FieldD} (h : fieldD i f = .ok d) :
    d.name = f.name ∧ d.type = f.type ∧ d.num = i ∧ d.isEnum = f.isEnum ∧ d.key = (keyValue f).1 ∧ d.value = (keyValue f).2 ∧
    (f.isEnum = true → ∃ r, ref f = .ok r ∧ d.eg = some r ∧ d.sd = none) ∧
    (f.isEnum = false → d.eg = none) ∧
    (f.isEnum = false → f.identName ≠ [] → ∃ r, ref f = .ok r ∧ d.sd = some r) := by
  unfold fieldD at h
  simp only at h
  split at h
  · rename_i he
    simp only [Out.bind_eq_ok, Out.pure_eq, Out.ok.injEq] at h
    obtain ⟨r, h1, rfl⟩ := h
    exact ⟨rfl, rfl, rfl, rfl, rfl, rfl, fun _ => ⟨r, h1, rfl, rfl⟩, (fun hf => by rw [he] at hf; cases hf), (fun hf => by rw [he] at hf; cases hf)⟩
  · rename_i he
    have he' : f.isEnum = false := by simpa using he
    split at h
    · simp only [Out.bind_eq_ok, Out.pure_eq, Out.ok.injEq] at h
      obtain ⟨r, h1, rfl⟩ := h
      exact ⟨rfl, rfl, rfl, rfl, rfl, rfl, fun hf => absurd hf he, fun _ => rfl, fun _ _ => ⟨r, h1, rfl⟩⟩
    · rename_i hn
      simp only [Out.pure_eq, Out.ok.injEq] at h
      subst h
      exact ⟨rfl, rfl, rfl, rfl, rfl, rfl, fun hf => absurd hf he, fun _ => rfl, fun _ h => absurd h hn⟩

theorem structD_ok {pkg path : Str} {ids : List (Str × Ident)} {ex : Str → Out (List (Str × Ident))} {s : Str × List Field} {d : StructD}
    (h : structD pkg path ids ex s = .ok d) : d.name = s.1 ∧ d.pkg = pkg ∧ d.path = path ∧ d.fields.length = s.2.length ∧
    ∀ (k : Nat) f, s.2[k]? = some f → ∃ g fd, resolve ids ex f = .ok g ∧ fieldD k g = .ok fd ∧ d.fields[k]? = some fd := by
  simp only [structD, Out.bind_eq_ok, Out.pure_eq, Out.ok.injEq] at h
  obtain ⟨fs, h1, ds, h2, rfl⟩ := h
  obtain ⟨a1, a2⟩ := mapOut_get h1
  obtain ⟨b1, b2⟩ := fieldDs_get h2
  refine ⟨rfl, rfl, rfl, by simp only; omega, ?_⟩
  intro k f hf
  obtain ⟨g, h3, h4⟩ := a2 k f hf
  obtain ⟨fd, h5, h6⟩ := b2 k g h3
  rw [Nat.zero_add] at h6
  exact ⟨g, fd, h4, h6, h5⟩

theorem find_name {α : Type} (nm : α → Str) : ∀ {l : List α} {x : α}, (l.map nm).Nodup → x ∈ l → l.find? (fun y => nm y = nm x) = some x
  | a :: l, x, hn, hx => by
    simp only [List.map_cons, List.nodup_cons, List.mem_map, not_exists, not_and] at hn
    rcases List.mem_cons.1 hx with rfl | hx
    · simp
    · have : nm a ≠ nm x := fun e => hn.1 x hx e.symm
      rw [List.find?_cons_of_neg (by simpa using this)]
      exact find_name nm hn.2 hx

theorem find_none {α : Type} (nm : α → Str) {l : List α} {n : Str} (h : n ∉ l.map nm) : l.find? (fun y => nm y = n) = none := by
  rw [List.find?_eq_none]
  intro x hx hf
  simp only [decide_eq_true_eq] at hf
  exact h (List.mem_map.2 ⟨x, hx, hf⟩)

theorem unlessEmpty_some {α : Type} {l : List α} (h : l ≠ []) : unlessEmpty l = some l := by
  cases l with
  | nil => exact absurd rfl h
  | cons a l => rfl

/-- The parts of a description. -/
theorem describe_ok {pkg path : Str} {imports : List Str} {ex : Str → Out (List (Str × Ident))} {file : File} {p : PkgD}
    (h : describe pkg path imports ex file = .ok p) : ∃ gs ss, p = ⟨pkg, path, imports, unlessEmpty gs, unlessEmpty ss⟩ ∧
      mapOut group (sortBy (fun a b => strLe a.name b.name) file.enums) = .ok gs ∧
      mapOut (structD pkg path file.ctx.idents ex) (sortBy (fun a b => strLe a.1 b.1) file.structs) = .ok ss := by
  simp only [describe, Out.bind_eq_ok, Out.pure_eq, Out.ok.injEq] at h
  obtain ⟨gs, h1, ss, h2, rfl⟩ := h
  exact ⟨gs, ss, rfl, h1, h2⟩

theorem group_ok {e : Enum} {g : Group} (h : group e = .ok g) : ∃ vs, orderByValues e.values = .ok vs ∧
    g = ⟨e.name, e.names.length, e.size, vs.map fun v => ⟨v.name, v.value, e.size⟩⟩ := by
  simp only [group, Out.bind_eq_ok, Out.pure_eq, Out.ok.injEq] at h
  obtain ⟨vs, h1, rfl⟩ := h
  exact ⟨vs, h1, rfl⟩

end Claw.Descr
