import Verif.Model.VendorDir

namespace Claw.VendorDir

open Claw.Idl (Out)
open Claw.Mod (splitBy)
open Claw.Vendor (hasSuffix)

/-! ### Files -/

theorem find_filter {α : Type} {p q : α → Bool} (h : ∀ x, p x = true → q x = true) : ∀ l : List α, (l.filter q).find? p = l.find? p
  | [] => rfl
  | a :: l => by
    by_cases hq : q a = true
    · simp only [List.filter_cons, hq, if_true, List.find?_cons, find_filter h l]
    · have hp : p a = false := by
        cases hp : p a
        · rfl
        · exact absurd (h a hp) hq
      simp only [List.filter_cons, hq, List.find?_cons, hp]
      exact find_filter h l

theorem get_put (fs : FS) (d : Dir) (n : Str) (x : Entry) (e : Dir) (m : Str) :
    get (put fs d n x) e m = if (e, m) = (d, n) then some x else get fs e m := by
  unfold get put
  by_cases h : (e, m) = (d, n)
  · rw [if_pos h, List.find?_cons_of_pos (by simp [h])]
    rfl
  · rw [if_neg h, List.find?_cons_of_neg (by simp only [decide_eq_true_eq]; exact fun q => h q.symm), find_filter]
    intro y hy
    simp only [decide_eq_true_eq] at hy
    simp only [ne_eq, decide_not, Bool.not_eq_true', decide_eq_false_iff_not, hy]
    exact h

theorem get_put_same (fs : FS) (d : Dir) (n : Str) (x : Entry) : get (put fs d n x) d n = some x := by rw [get_put, if_pos rfl]

theorem get_put_other (fs : FS) {d : Dir} {n : Str} (x : Entry) {e : Dir} {m : Str} (h : (e, m) ≠ (d, n)) :
    get (put fs d n x) e m = get fs e m := by rw [get_put, if_neg h]

/-- No path is there twice. -/
def Once (fs : FS) : Prop := (fs.map (·.1)).Nodup

theorem once_put {fs : FS} (h : Once fs) (d : Dir) (n : Str) (x : Entry) : Once (put fs d n x) := by
  unfold Once put at *
  simp only [List.map_cons, List.nodup_cons, List.mem_map, List.mem_filter, not_exists, not_and]
  refine ⟨fun y hy => by simpa using hy.2, ?_⟩
  exact h.sublist (List.Sublist.map _ List.filter_sublist)

theorem once_mkdirAll : ∀ {d : Dir} {fs fs' : FS}, Once fs → mkdirAll fs d = .ok fs' → Once fs'
  | [], fs, fs', h, e => by cases e; exact h
  | n :: d, fs, fs', h, e => by
    simp only [mkdirAll, Out.bind_eq_ok] at e
    obtain ⟨f1, h1, h2⟩ := e
    have o := once_mkdirAll h h1
    split at h2
    · cases h2; exact once_put o _ _ _
    · cases h2; exact o
    · cases h2

theorem once_writeFile {d : Dir} {fs fs' : FS} {n : Str} {t : Bytes} (h : Once fs) (e : writeFile fs d n t = .ok fs') : Once fs' := by
  unfold writeFile at e
  split at e
  · cases e
  · cases e; exact once_put h _ _ _

theorem once_vendorPackage {v : Dir} {fs fs' : FS} {p : Pkg} (h : Once fs) (e : vendorPackage v fs p = .ok fs') : Once fs' := by
  simp only [vendorPackage, Out.bind_eq_ok] at e
  obtain ⟨f1, h1, f2, h2, h3⟩ := e
  have o := once_writeFile (once_mkdirAll h h1) h2
  split at h3
  · cases h3; exact o
  · exact once_writeFile o h3

theorem once_vendorAll {v : Dir} : ∀ {ps : List Pkg} {fs fs' : FS}, Once fs → vendorAll v fs ps = .ok fs' → Once fs'
  | [], fs, fs', h, e => by cases e; exact h
  | p :: ps, fs, fs', h, e => by
    simp only [vendorAll, Out.bind_eq_ok] at e
    obtain ⟨f1, h1, h2⟩ := e
    exact once_vendorAll (once_vendorPackage h h1) h2

theorem once_create {v : Dir} {ps : List Pkg} {fs fs' : FS} (h : Once fs) (e : create v fs ps = .ok fs') : Once fs' := by
  unfold create at e
  split at e
  · simp only [Out.bind_eq_ok] at e
    obtain ⟨f1, h1, h2⟩ := e
    exact once_vendorAll (once_mkdirAll h h1) h2
  · cases e; exact h

/-- The directory may be made. -/
def Room (fs : FS) (d : Dir) : Prop := ∀ n e, n :: e <:+ d → get fs e n = none ∨ get fs e n = some .dir

theorem suffix_cons_iff' {n m : Str} {e d : Dir} : n :: e <:+ m :: d ↔ (e, n) = (d, m) ∨ n :: e <:+ d := by
  rw [List.suffix_cons_iff]
  simp only [List.cons.injEq, Prod.mk.injEq]
  constructor
  · rintro (⟨h1, h2⟩ | h)
    · exact Or.inl ⟨h2, h1⟩
    · exact Or.inr h
  · rintro (⟨h1, h2⟩ | h)
    · exact Or.inl ⟨h2, h1⟩
    · exact Or.inr h

open Classical in
theorem mkdirAll_get : ∀ {d : Dir} {fs : FS}, Room fs d →
    ∃ fs', mkdirAll fs d = .ok fs' ∧ ∀ e n, get fs' e n = if n :: e <:+ d then some .dir else get fs e n
  | [], fs, _ => ⟨fs, rfl, fun e n => by rw [if_neg (by simp)]⟩
  | m :: d, fs, h => by
    obtain ⟨f1, h1, h2⟩ := mkdirAll_get (d := d) (fs := fs) (fun n e hs => h n e (hs.trans (List.suffix_cons m d)))
    have hd : ¬ m :: d <:+ d := fun hs => by have := hs.length_le; simp at this; omega
    have hg : get f1 d m = get fs d m := by rw [h2, if_neg hd]
    have hm := h m d (List.suffix_refl _)
    rcases hm with hm | hm
    · refine ⟨put f1 d m .dir, by simp only [mkdirAll, h1, Out.ok_bind, hg, hm], fun e n => ?_⟩
      rw [get_put, h2]
      by_cases hx : (e, n) = (d, m)
      · rw [if_pos hx, if_pos (suffix_cons_iff'.2 (Or.inl hx))]
      · rw [if_neg hx]
        by_cases hs : n :: e <:+ d
        · rw [if_pos hs, if_pos (suffix_cons_iff'.2 (Or.inr hs))]
        · rw [if_neg hs, if_neg (fun q => (suffix_cons_iff'.1 q).elim hx hs)]
    · refine ⟨f1, by simp only [mkdirAll, h1, Out.ok_bind, hg, hm], fun e n => ?_⟩
      rw [h2]
      by_cases hs : n :: e <:+ d
      · rw [if_pos hs, if_pos (suffix_cons_iff'.2 (Or.inr hs))]
      · rw [if_neg hs]
        by_cases hx : (e, n) = (d, m)
        · rw [if_pos (suffix_cons_iff'.2 (Or.inl hx))]
          simp only [Prod.mk.injEq] at hx
          rw [hx.1, hx.2, hm]
        · rw [if_neg (fun q => (suffix_cons_iff'.1 q).elim hx hs)]

/-! ### Names in a directory -/

theorem mem_names {fs : FS} {d : Dir} {n : Str} : n ∈ (fs.filter fun e => e.1.1 = d).map (·.1.2) ↔ get fs d n ≠ none := by
  simp only [List.mem_map, List.mem_filter, decide_eq_true_eq, get, ne_eq, Option.map_eq_none_iff, List.find?_eq_none, decide_eq_true_eq]
  constructor
  · rintro ⟨x, ⟨h1, h2⟩, h3⟩ h
    exact h x h1 (by rw [← h2, ← h3])
  · intro h
    obtain ⟨x, h⟩ := Classical.not_forall.1 h
    obtain ⟨h1, h2⟩ := Classical.not_forall.1 h
    have h3 : x.1 = (d, n) := Classical.not_not.1 h2
    exact ⟨x, ⟨h1, by rw [h3]⟩, by rw [h3]⟩

theorem names_nodup {fs : FS} (h : Once fs) (d : Dir) : ((fs.filter fun e => e.1.1 = d).map (·.1.2)).Nodup := by
  unfold Once at h
  induction fs with
  | nil => simp
  | cons a fs ih =>
    simp only [List.map_cons, List.nodup_cons] at h
    simp only [List.filter_cons]
    split
    · rename_i hd
      simp only [decide_eq_true_eq] at hd
      simp only [List.map_cons, List.nodup_cons]
      refine ⟨fun hm => h.1 ?_, ih h.2⟩
      simp only [List.mem_map, List.mem_filter, decide_eq_true_eq] at hm
      obtain ⟨x, ⟨h1, h2⟩, h3⟩ := hm
      exact List.mem_map.2 ⟨x, h1, Prod.ext (h2.trans hd.symm) h3⟩
    · exact ih h.2

theorem nodup_single {α : Type} {l : List α} {x : α} (h : l.Nodup) (hx : ∀ y, y ∈ l ↔ y = x) : l = [x] := by
  cases l with
  | nil => exact absurd ((hx x).2 rfl) (by simp)
  | cons a l =>
    have ha : a = x := (hx a).1 (by simp)
    subst ha
    cases l with
    | nil => rfl
    | cons b l =>
      have hb : b = a := (hx b).1 (by simp)
      subst hb
      simp at h

/-- findClawFileInDir finds the file that is the only one. -/
theorem findClaw_iff {fs : FS} (h : Once fs) (d : Dir) (x : Str) :
    findClaw fs d = .ok x ↔ isDir fs d = true ∧ ∀ n, hasSuffix (lit ".claw") n = true → (get fs d n ≠ none ↔ n = x) ∧ hasSuffix (lit ".claw") x = true ∧ get fs d x ≠ none := by
  unfold findClaw readDir
  by_cases hd : isDir fs d = true
  · simp only [hd, if_true, Out.ok_bind, true_and]
    have nd := (names_nodup h d).filter (hasSuffix (lit ".claw"))
    constructor
    · intro e
      split at e
      · rename_i y hy
        cases e
        have hx : x ∈ ((fs.filter fun e => e.1.1 = d).map (·.1.2)).filter (hasSuffix (lit ".claw")) := by rw [hy]; simp
        obtain ⟨h1, h2⟩ := List.mem_filter.1 hx
        intro n hn
        refine ⟨⟨fun hg => ?_, fun hg => hg ▸ mem_names.1 h1⟩, h2, mem_names.1 h1⟩
        have : n ∈ ((fs.filter fun e => e.1.1 = d).map (·.1.2)).filter (hasSuffix (lit ".claw")) :=
          List.mem_filter.2 ⟨mem_names.2 hg, hn⟩
        rw [hy] at this
        simpa using this
      · cases e
    · intro e
      have hx := e (lit ".claw") (by decide)
      have : ((fs.filter fun e => e.1.1 = d).map (·.1.2)).filter (hasSuffix (lit ".claw")) = [x] := by
        refine nodup_single nd fun y => ?_
        rw [List.mem_filter, mem_names]
        constructor
        · rintro ⟨h1, h2⟩
          exact ((e y h2).1).1 h1
        · rintro rfl
          exact ⟨hx.2.2, hx.2.1⟩
      rw [this]
  · simp only [hd, Bool.false_eq_true, if_false, false_and, iff_false]
    intro e
    cases e

/-! ### Paths -/

def unsplit : List Str → Str
  | [] => []
  | [x] => x
  | x :: l => x ++ 47 :: unsplit l

theorem splitBy_ne (s : Str) : splitBy 47 s ≠ [] := by
  cases s with
  | nil => simp [splitBy]
  | cons c s =>
    simp only [splitBy]
    split
    · simp
    · split <;> simp

theorem unsplit_splitBy : ∀ s : Str, unsplit (splitBy 47 s) = s
  | [] => rfl
  | c :: s => by
    have ih := unsplit_splitBy s
    simp only [splitBy]
    cases h : splitBy 47 s with
    | nil => exact absurd h (splitBy_ne s)
    | cons p ps =>
      rw [h] at ih
      simp only []
      split
      · rename_i hc
        subst hc
        simp only [unsplit, ih, List.nil_append]
      · cases ps with
        | nil => simp only [unsplit] at ih ⊢; rw [ih]
        | cons q ps => simp only [unsplit] at ih ⊢; rw [List.cons_append, ih]

theorem splitBy_inj {a b : Str} (h : splitBy 47 a = splitBy 47 b) : a = b := by
  rw [← unsplit_splitBy a, h, unsplit_splitBy]

/-- Elements that are plain names. -/
def Names (l : List Str) : Prop := ∀ x ∈ l, x ≠ [] ∧ x ≠ lit "." ∧ x ≠ lit ".."

theorem down_names : ∀ {l : List Str} (d : Dir), Names l → down d l = l.reverse ++ d
  | [], _, _ => rfl
  | x :: l, d, h => by
    obtain ⟨h1, h2, h3⟩ := h x (by simp)
    rw [down, if_neg (by simp [h1, h2]), if_neg h3, down_names (x :: d) (fun y hy => h y (by simp [hy]))]
    simp

end Claw.VendorDir
