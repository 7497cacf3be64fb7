import Verif.Spec.Comments
import Verif.Lemmas.IdlTypes

/-!
# Lemmas on comments
-/

namespace Claw.Comments

open Claw.Idl

theorem mapOk_bind {α β γ : Type} (f : β → γ) (x : Out α) (g : α → Out β) : mapOk f (x >>= g) = x >>= fun a => mapOk f (g a) := by
  cases x <;> rfl

theorem bind_mapOk {α β γ : Type} (f : α → β) (x : Out α) (g : β → Out γ) : (mapOk f x >>= g) = x >>= fun a => g (f a) := by
  cases x <;> rfl

theorem bind_congr {α β : Type} {x : Out α} {g g' : α → Out β} (h : ∀ a, x = .ok a → g a = g' a) : (x >>= g) = (x >>= g') := by
  cases x with
  | ok a => exact h a rfl
  | err => rfl
  | panic => rfl

theorem mapOk_ite {α β : Type} (f : α → β) (c : Prop) [Decidable c] (x y : Out α) :
    mapOk f (if c then x else y) = if c then mapOk f x else mapOk f y := by split <;> rfl

/-! ### Fields -/

def stripPair (p : Field × Ctx) : Field × Ctx := (stripField p.1, p.2)

theorem refType_strip (c : Ctx) (self : Str) (f : Field) (isList : Bool) (ft : Str) :
    refType c self (stripField f) isList ft = mapOk stripPair (refType c self f isList ft) := by
  unfold refType
  repeat' first
    | rfl
    | rw [mapOk_bind]
    | refine bind_congr fun a _ => ?_
    | split

theorem fieldType_strip (c : Ctx) (self : Str) (f : Field) (ft : Str) :
    fieldType c self (stripField f) ft = mapOk stripPair (fieldType c self f ft) := by
  unfold fieldType
  repeat' first
    | rfl
    | exact refType_strip _ _ _ _ _
    | rw [mapOk_bind]
    | refine bind_congr fun a _ => ?_
    | split

theorem parseField_strip (u : Uni) (self : Str) (c : Ctx) (cm : List Str) (l : Line) :
    parseField u self c [] l = mapOk stripPair (parseField u self c cm l) := by
  unfold parseField
  simp only [mapOk_bind]
  refine bind_congr fun _ _ => bind_congr fun _ _ => bind_congr fun _ _ => bind_congr fun _ _ => bind_congr fun _ _ => ?_
  rename_i name _ _ _ ty _
  have := fieldType_strip c self ⟨cm, name, 0, .unknown, false, false, [], false, none⟩ ty
  simp only [stripField] at this
  rw [this, bind_mapOk]
  refine bind_congr fun p _ => ?_
  obtain ⟨f, c'⟩ := p
  simp only [stripPair, mapOk_bind]
  refine bind_congr fun _ _ => bind_congr fun _ _ => bind_congr fun _ _ => bind_congr fun _ _ => ?_
  rfl

def stripLoop (p : List Field × Ctx × List Line) : List Field × Ctx × List Line := (p.1.map stripField, p.2.1, p.2.2.filter keep)

theorem close_keep {l : Line} {first : Str} (h : l.item 0 = .ok first) (hc : isComment first = false) : keep l = true := by
  obtain ⟨items, eof⟩ := l
  cases items with
  | nil => simp [Line.item] at h
  | cons x xs =>
    simp [Line.item] at h
    subst h
    simp [keep, hc]

theorem comment_drop {l : Line} {first : Str} (h : l.item 0 = .ok first) (hc : isComment first = true) (he : l.eof = false) : keep l = false := by
  obtain ⟨items, eof⟩ := l
  cases items with
  | nil => simp [Line.item] at h
  | cons x xs =>
    simp [Line.item] at h
    subst h
    simp only at he
    simp [keep, hc, he]

theorem noItem_keep {l : Line} (h : ∀ f, l.item 0 ≠ .ok f) : keep l = true := by
  obtain ⟨items, eof⟩ := l
  cases items with
  | nil => simp [keep]
  | cons x xs => exact absurd rfl (h x)

theorem eof_keep {l : Line} (h : l.eof = true) : keep l = true := by simp [keep, h]

theorem fieldsLoop_strip (u : Uni) (self : Str) : ∀ (ls : List Line) (c : Ctx) (pend : List Str) (fs : List Field),
    fieldsLoop u self c [] (fs.map stripField) (ls.filter keep) = mapOk stripLoop (fieldsLoop u self c pend fs ls) := by
  intro ls
  induction ls with
  | nil => intro c pend fs; rfl
  | cons l ls ih =>
    intro c pend fs
    rcases hf : l.item 0 with first | _ | _
    · by_cases hb : first = lit "}"
      · have hk : keep l = true := close_keep hf (by subst hb; decide)
        rw [List.filter_cons_of_pos hk]
        unfold fieldsLoop
        rw [hf, Out.ok_bind, Out.ok_bind, if_pos hb, if_pos hb]
        simp only [mapOk_bind, List.isEmpty_map]
        refine bind_congr fun _ _ => bind_congr fun _ _ => bind_congr fun _ _ => ?_
        rfl
      · by_cases he : l.eof = true
        · rw [List.filter_cons_of_pos (eof_keep he)]
          unfold fieldsLoop
          rw [hf, Out.ok_bind, Out.ok_bind, if_neg hb, if_neg hb, if_pos he, if_pos he]
          rfl
        · by_cases hc : isComment first = true
          · have hk : keep l = false := comment_drop hf hc (by simpa using he)
            rw [List.filter_cons_of_neg (by simp [hk])]
            conv => rhs; unfold fieldsLoop
            rw [hf, Out.ok_bind, if_neg hb, if_neg he, if_pos hc]
            exact ih c _ fs
          · have hk : keep l = true := close_keep hf (by simpa using hc)
            rw [List.filter_cons_of_pos hk]
            unfold fieldsLoop
            rw [hf, Out.ok_bind, Out.ok_bind, if_neg hb, if_neg hb, if_neg he, if_neg he, if_neg hc, if_neg hc,
              parseField_strip u self c pend l, bind_mapOk, mapOk_bind]
            refine bind_congr fun p _ => ?_
            obtain ⟨f, c'⟩ := p
            have := ih c' [] (fs ++ [f])
            simpa [stripPair] using this
    · rw [List.filter_cons_of_pos (noItem_keep (by simp [hf]))]
      unfold fieldsLoop
      simp [hf, mapOk]
    · rw [List.filter_cons_of_pos (noItem_keep (by simp [hf]))]
      unfold fieldsLoop
      simp [hf, mapOk]

theorem checkIds_strip : ∀ (fs : List Field) (ids : List Bool), checkIds ids (fs.map stripField) = checkIds ids fs := by
  intro fs
  induction fs with
  | nil => intro ids; rfl
  | cons f fs ih => intro ids; simp only [List.map_cons, checkIds, ih]; rfl

theorem insertBy_strip (f : Field) : ∀ fs : List Field,
    insertBy (fun a b : Field => decide (a.index ≤ b.index)) (stripField f) (fs.map stripField) =
      (insertBy (fun a b : Field => decide (a.index ≤ b.index)) f fs).map stripField := by
  intro fs
  induction fs with
  | nil => rfl
  | cons g fs ih =>
    simp only [List.map_cons, insertBy, ih]
    by_cases h : f.index ≤ g.index
    · have h' : (stripField f).index ≤ (stripField g).index := h
      simp [h, h']
    · have h' : ¬ (stripField f).index ≤ (stripField g).index := h
      simp [h, h']

theorem sortBy_strip (fs : List Field) :
    sortBy (fun a b : Field => decide (a.index ≤ b.index)) (fs.map stripField) =
      (sortBy (fun a b : Field => decide (a.index ≤ b.index)) fs).map stripField := by
  induction fs with
  | nil => rfl
  | cons f fs ih => simp only [List.map_cons, sortBy, ih, insertBy_strip]

theorem parseFields_strip (u : Uni) (self : Str) (c : Ctx) (ls : List Line) :
    parseFields u self c (ls.filter keep) = mapOk stripLoop (parseFields u self c ls) := by
  unfold parseFields
  have := fieldsLoop_strip u self ls c [] []
  simp only [List.map_nil] at this
  rw [this, bind_mapOk, mapOk_bind]
  refine bind_congr fun p _ => ?_
  obtain ⟨fs, c', rest⟩ := p
  simp only [stripLoop, List.length_map, checkIds_strip, mapOk_bind]
  refine bind_congr fun _ _ => ?_
  simp only [Out.pure_eq, mapOk, stripLoop, sortBy_strip]

def stripStruct (p : Str × List Field × Ctx × List Line) : Str × List Field × Ctx × List Line :=
  (p.1, p.2.1.map stripField, p.2.2.1, p.2.2.2.filter keep)

theorem parseStruct_strip (u : Uni) (c : Ctx) (l : Line) (ls : List Line) :
    parseStruct u c (l :: ls.filter keep) = mapOk stripStruct (parseStruct u c (l :: ls)) := by
  unfold parseStruct
  simp only [mapOk_bind]
  refine bind_congr fun _ _ => bind_congr fun _ _ => bind_congr fun _ _ => bind_congr fun _ _ => bind_congr fun _ _ => bind_congr fun _ _ => ?_
  rw [parseFields_strip, bind_mapOk]
  rfl

/-! ### Enums -/

theorem assocGet_map {κ α β : Type} [DecidableEq κ] (f : α → β) (k : κ) (m : List (κ × α)) :
    assocGet k (m.map fun p => (p.1, f p.2)) = (assocGet k m).map f := by
  induction m with
  | nil => rfl
  | cons p m ih =>
    simp only [assocGet, List.map_cons, List.find?_cons] at ih ⊢
    by_cases h : p.1 = k <;> simp [h] at ih ⊢
    exact ih

theorem assocSet_map {κ α β : Type} [DecidableEq κ] (f : α → β) (k : κ) (v : α) (m : List (κ × α)) :
    assocSet k (f v) (m.map fun p => (p.1, f p.2)) = (assocSet k v m).map fun p => (p.1, f p.2) := by
  simp [assocSet, List.filter_map, Function.comp_def]

theorem enumEntry_strip (u : Uni) (cm : List Str) (e : Enum) (l : Line) :
    enumEntry u [] (stripEnum e) l = mapOk stripEnum (enumEntry u cm e l) := by
  unfold enumEntry
  simp only [mapOk_bind, stripEnum, assocGet_map, Option.isNone_map]
  refine bind_congr fun _ _ => bind_congr fun _ _ => bind_congr fun _ _ => bind_congr fun _ _ => bind_congr fun _ _ => bind_congr fun _ _ => bind_congr fun _ _ => bind_congr fun _ _ => bind_congr fun _ _ => ?_
  simp only [Out.pure_eq, mapOk, stripEnum, ← assocSet_map]
  rfl

def stripEnumLoop (p : Enum × List Line) : Enum × List Line := (stripEnum p.1, p.2.filter keep)

theorem enumLoop_strip (u : Uni) : ∀ (ls : List Line) (pend : List Str) (e : Enum),
    enumLoop u [] (stripEnum e) (ls.filter keep) = mapOk stripEnumLoop (enumLoop u pend e ls) := by
  intro ls
  induction ls with
  | nil => intro pend e; rfl
  | cons l ls ih =>
    intro pend e
    rcases hf : l.item 0 with first | _ | _
    · by_cases hb : first = lit "}"
      · have hk : keep l = true := close_keep hf (by subst hb; decide)
        rw [List.filter_cons_of_pos hk]
        unfold enumLoop
        rw [hf, Out.ok_bind, Out.ok_bind, if_pos hb, if_pos hb]
        simp only [mapOk_bind, stripEnum, List.isEmpty_map]
        refine bind_congr fun _ _ => bind_congr fun _ _ => bind_congr fun _ _ => ?_
        rfl
      · by_cases he : l.eof = true
        · rw [List.filter_cons_of_pos (eof_keep he)]
          unfold enumLoop
          rw [hf, Out.ok_bind, Out.ok_bind, if_neg hb, if_neg hb, if_pos he, if_pos he]
          rfl
        · by_cases hc : isComment first = true
          · have hk : keep l = false := comment_drop hf hc (by simpa using he)
            rw [List.filter_cons_of_neg (by simp [hk])]
            conv => rhs; unfold enumLoop
            rw [hf, Out.ok_bind, if_neg hb, if_neg he, if_pos hc]
            exact ih _ e
          · have hk : keep l = true := close_keep hf (by simpa using hc)
            rw [List.filter_cons_of_pos hk]
            unfold enumLoop
            rw [hf, Out.ok_bind, Out.ok_bind, if_neg hb, if_neg hb, if_neg he, if_neg he, if_neg hc, if_neg hc,
              enumEntry_strip u pend e l, bind_mapOk, mapOk_bind]
            exact bind_congr fun p _ => ih [] p
    · rw [List.filter_cons_of_pos (noItem_keep (by simp [hf]))]
      unfold enumLoop
      simp [hf, mapOk]
    · rw [List.filter_cons_of_pos (noItem_keep (by simp [hf]))]
      unfold enumLoop
      simp [hf, mapOk]

theorem parseEnum_strip (u : Uni) (l : Line) (ls : List Line) :
    parseEnum u (l :: ls.filter keep) = mapOk stripEnumLoop (parseEnum u (l :: ls)) := by
  unfold parseEnum
  simp only [mapOk_bind]
  refine bind_congr fun _ _ => bind_congr fun name _ => bind_congr fun _ _ => bind_congr fun _ _ => bind_congr fun size _ => bind_congr fun _ _ => bind_congr fun _ _ => bind_congr fun _ _ => ?_
  exact enumLoop_strip u ls [] ⟨name, size, [], []⟩

/-! ### Files -/

theorem rest_length {l : Line} {ls rest : List Line} (h1 : rest <:+ l :: ls) (h2 : rest ≠ l :: ls) : rest.length ≤ ls.length := by
  rcases List.suffix_cons_iff.1 h1 with h | h
  · exact absurd h h2
  · exact h.length_le

theorem rest_filter {l : Line} {ls rest : List Line} (h1 : rest <:+ l :: ls) (h2 : rest ≠ l :: ls) :
    (rest.filter keep).length ≤ (ls.filter keep).length := by
  rcases List.suffix_cons_iff.1 h1 with h | h
  · exact absurd h h2
  · exact (h.sublist.filter keep).length_le

theorem fileLoop_strip (u : Uni) : ∀ (n m : Nat) (ls : List Line) (f : File), ls.length ≤ n → (ls.filter keep).length ≤ m →
    fileLoop u m (stripFile f) (ls.filter keep) = mapOk stripFile (fileLoop u n f ls) := by
  intro n
  induction n with
  | zero =>
    intro m ls f h1 _
    have : ls = [] := List.length_eq_zero_iff.1 (by omega)
    subst this
    cases m <;> rfl
  | succ n ih =>
    intro m ls f h1 h2
    cases ls with
    | nil => cases m <;> rfl
    | cons l ls =>
      by_cases he : l.eof = true
      · rw [List.filter_cons_of_pos (eof_keep he)] at h2 ⊢
        cases m with
        | zero => simp at h2
        | succ m => simp [fileLoop, he, mapOk]
      · rcases hf : l.item 0 with first | _ | _
        · by_cases hc : isComment first = true
          · have hk : keep l = false := comment_drop hf hc (by simpa using he)
            rw [List.filter_cons_of_neg (by simp [hk])] at h2 ⊢
            have := ih m ls f (by simpa using h1) h2
            rw [this]
            conv => rhs; unfold fileLoop
            rw [if_neg he, hf, Out.ok_bind, if_pos hc]
          · have hk : keep l = true := close_keep hf (by simpa using hc)
            rw [List.filter_cons_of_pos hk] at h2 ⊢
            cases m with
            | zero => simp at h2
            | succ m =>
              simp only [List.length_cons, Nat.add_le_add_iff_right] at h1 h2
              unfold fileLoop
              rw [if_neg he, if_neg he, hf, Out.ok_bind, Out.ok_bind, if_neg hc, if_neg hc]
              by_cases h3 : lower first = lit "enum"
              · rw [if_pos h3, if_pos h3, parseEnum_strip, bind_mapOk, mapOk_bind]
                refine bind_congr fun p hp => ?_
                obtain ⟨e, rest⟩ := p
                obtain ⟨k1, k2, _⟩ := parseEnum_facts hp
                simp only [mapOk_bind, stripEnumLoop]
                refine bind_congr fun _ _ => ?_
                rw [← ih m rest _ (Nat.le_trans (rest_length k1 k2) h1) (Nat.le_trans (rest_filter k1 k2) h2)]
                simp [stripFile, stripEnum]
              · rw [if_neg h3, if_neg h3]
                by_cases h4 : lower first = lit "struct"
                · rw [if_pos h4, if_pos h4, show (stripFile f).ctx = f.ctx from rfl, parseStruct_strip, bind_mapOk, mapOk_bind]
                  refine bind_congr fun p hp => ?_
                  obtain ⟨name, fs, c, rest⟩ := p
                  obtain ⟨_, k1, k2, _⟩ := parseStruct_from hp
                  simp only [mapOk_bind, stripStruct]
                  refine bind_congr fun _ _ => ?_
                  rw [← ih m rest _ (Nat.le_trans (rest_length k1 k2) h1) (Nat.le_trans (rest_filter k1 k2) h2)]
                  simp [stripFile]
                · rw [if_neg h4, if_neg h4]; rfl
        · rw [List.filter_cons_of_pos (noItem_keep (by simp [hf]))] at h2 ⊢
          cases m with
          | zero => simp at h2
          | succ m => unfold fileLoop; simp [hf, mapOk, he]
        · rw [List.filter_cons_of_pos (noItem_keep (by simp [hf]))] at h2 ⊢
          cases m with
          | zero => simp at h2
          | succ m => unfold fileLoop; simp [hf, mapOk, he]

/-! ### Text -/

theorem textLines_line (a : Str) (s : Str) (h : (10 : UInt8) ∉ a) : textLines (a ++ 10 :: s) = a :: textLines s := by
  induction a with
  | nil => simp [textLines]
  | cons c a ih =>
    simp only [List.mem_cons, not_or] at h
    simp only [List.cons_append, textLines, ih h.2]
    rw [if_neg (fun e => h.1 e.symm)]

theorem textLines_block : ∀ (x : Str) (xs : List Str), (∀ y ∈ x :: xs, (10 : UInt8) ∉ y) →
    textLines (lit "// " ++ join (lit "\n// ") (x :: xs) ++ lit "\n") = (x :: xs).map (lit "// " ++ ·) := by
  intro x xs
  induction xs generalizing x with
  | nil =>
    intro h
    have := textLines_line (lit "// " ++ x) [] (by
      have := h x (by simp)
      simp only [List.mem_append, not_or]
      exact ⟨by decide, this⟩)
    simp only [join, List.map_cons, List.map_nil]
    rw [show lit "\n" = [10] from by decide, this]
    rfl
  | cons y ys ih =>
    intro h
    have h1 := h x (by simp)
    have := ih y (fun z hz => h z (List.mem_cons_of_mem _ hz))
    have e : lit "// " ++ join (lit "\n// ") (x :: y :: ys) ++ lit "\n" =
        (lit "// " ++ x) ++ 10 :: (lit "// " ++ join (lit "\n// ") (y :: ys) ++ lit "\n") := by
      simp only [join]
      rw [show lit "\n// " = 10 :: lit "// " from by decide]
      simp
    rw [e, textLines_line _ _ (by
      simp only [List.mem_append, not_or]
      exact ⟨by decide, h1⟩), this]
    rfl

theorem join_no10 {sep : Str} (hs : (10 : UInt8) ∉ sep) : ∀ (l : List Str), (∀ y ∈ l, (10 : UInt8) ∉ y) → (10 : UInt8) ∉ join sep l := by
  intro l
  induction l with
  | nil => intro _; simp [join]
  | cons x l ih =>
    intro h
    cases l with
    | nil => simpa [join] using h
    | cons y l =>
      simp only [join, List.mem_append, not_or]
      exact ⟨⟨h x (by simp), hs⟩, ih fun z hz => h z (List.mem_cons_of_mem _ hz)⟩

theorem join_flat (ws : List Str) (h : ws ≠ []) : 32 :: join (lit " ") ws = ws.flatMap (fun w => 32 :: w) := by
  induction ws with
  | nil => exact absurd rfl h
  | cons w ws ih =>
    cases ws with
    | nil => simp [join]
    | cons v ws =>
      have := ih (by simp)
      simp only [join, List.flatMap_cons] at this ⊢
      rw [← this, show lit " " = [32] from by decide]
      simp

end Claw.Comments
