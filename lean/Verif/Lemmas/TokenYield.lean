import Verif.Model.TokenYield
import Verif.Lemmas.TokenSkip

/-!
# The calls of a callback
-/

namespace Claw.Tok

open Claw.Idl (FT)

mutual

/-- The tokens of a statement. -/
def Item.flat : Item → List Token
  | .tok t => [t]
  | .sub l => flatten l

/-- The tokens of statements. -/
def flatten : List Item → List Token
  | [] => []
  | i :: is => i.flat ++ flatten is

end

theorem flatten_append (a b : List Item) : flatten (a ++ b) = flatten a ++ flatten b := by
  induction a with
  | nil => simp [flatten]
  | cons i a ih => simp [flatten, ih]

theorem flatten_toks (l : List Token) : flatten (l.map .tok) = l := by
  induction l with
  | nil => simp [flatten]
  | cons t l ih => simp [flatten, Item.flat, ih]

mutual

theorem flatten_script (env : Env) (s : Nat) (v : Val) : flatten (script env s v) = walk env s v := by
  cases v <;> simp only [script, walk, flatten]
  case obj fs => simp [flatten, flatten_append, Item.flat, flatten_fields env (env s) fs]

theorem flatten_fields (env : Env) (ds : List Decl) (vs : List Val) :
    flatten (scriptFields env ds vs) = walkFields env ds vs := by
  cases ds with
  | nil => simp [scriptFields, walkFields, flatten]
  | cons d ds =>
    cases vs with
    | nil => simp [scriptFields, walkFields, flatten]
    | cons v vs =>
      simp only [scriptFields, walkFields, flatten_append]
      rw [flatten_field env _ _ v, flatten_fields env ds vs]

theorem flatten_field (env : Env) (name : Str) (ty : Ty) (v : Val) :
    flatten (scriptField env name ty v) = walkField env name ty v := by
  cases v
  case obj fs =>
    cases ty <;> simp [scriptField, walkField, flatten, flatten_append, Item.flat]
    rw [flatten_fields env _ fs]
  case list l =>
    cases ty <;> simp only [scriptField, walkField, flatten]
    split
    · rename_i h; subst h; simp [flatten, Item.flat, listToks]
    · rename_i h
      have : l.length ≠ 0 := by simpa using h
      simp [flatten, flatten_append, Item.flat, listToks, h, flatten_items env _ l]
  case map ks vs =>
    cases ty <;> simp only [scriptField] <;> try exact flatten_toks _
    rename_i k v
    cases v <;> simp only [] <;> try exact flatten_toks _
    simp only [walkField, MTy.ft]
    split <;> simp [flatten, flatten_append, Item.flat, flatten_entries env name k _ ks vs]
  all_goals simp only [scriptField]; exact flatten_toks _

theorem flatten_items (env : Env) (s : Nat) (l : List Val) :
    flatten (scriptItems env s l) = walkItems env s l := by
  cases l with
  | nil => simp [scriptItems, walkItems, flatten]
  | cons v l =>
    simp only [scriptItems, walkItems, flatten, Item.flat]
    rw [flatten_script env s v, flatten_items env s l]

theorem flatten_entries (env : Env) (name : Str) (k : FT) (s : Nat) (ks : List Key) (vs : List Val) :
    flatten (scriptEntries env name k s ks vs) = walkEntries env name k (.struct s) ks vs := by
  cases ks with
  | nil => simp [scriptEntries, walkEntries, flatten]
  | cons key ks =>
    cases vs with
    | nil => simp [scriptEntries, walkEntries, flatten]
    | cons v vs =>
      simp only [scriptEntries, walkEntries, flatten, Item.flat]
      rw [flatten_script env s v, flatten_entries env name k s ks vs]
      cases v <;> simp [walk, walkEntry, MTy.ft]

end

/-- The calls up to the first false. -/
def upTo (more : List Token → Bool) (h : List Token) : List Token → List Token × Bool
  | [] => (h, true)
  | t :: ts => if more (h ++ [t]) then upTo more (h ++ [t]) ts else (h ++ [t], false)

theorem upTo_append (more : List Token → Bool) (a b : List Token) : ∀ h,
    upTo more h (a ++ b) = if (upTo more h a).2 then upTo more (upTo more h a).1 b else upTo more h a := by
  induction a with
  | nil => intro h; simp [upTo]
  | cons t a ih =>
    intro h
    simp only [List.cons_append, upTo]
    split
    · exact ih _
    · simp

theorem upTo_true {more : List Token → Bool} : ∀ {ts h : List Token}, (upTo more h ts).2 = true →
    (upTo more h ts).1 = h ++ ts := by
  intro ts
  induction ts with
  | nil => intro h _; simp [upTo]
  | cons t ts ih =>
    intro h
    simp only [upTo]
    split
    · intro h'; rw [ih h']; simp
    · simp

mutual

theorem runItem_prefix (more : List Token → Bool) (i : Item) (h : List Token) :
    h <+: (runItem more h i).1 := by
  cases i with
  | tok t => simp [runItem]
  | sub l => simp only [runItem]; exact runItems_prefix more l h

theorem runItems_prefix (more : List Token → Bool) (l : List Item) (h : List Token) :
    h <+: (runItems more h l).1 := by
  cases l with
  | nil => simp [runItems]
  | cons i l =>
    have h1 := runItem_prefix more i h
    simp only [runItems]
    split
    · rename_i c e
      rw [e] at h1
      exact h1.trans (runItems_prefix more l c)
    · rename_i c e
      rw [e] at h1
      exact h1

end

mutual

theorem runItem_upTo (more : List Token → Bool) (i : Item) (h : List Token) :
    ((upTo more h i.flat).2 = true → runItem more h i = ((upTo more h i.flat).1, true)) ∧
    (upTo more h i.flat).1 <+: (runItem more h i).1 := by
  cases i with
  | tok t =>
    simp only [runItem, Item.flat, upTo]
    split
    · rename_i hm; simp [hm]
    · simp
  | sub l =>
    have ih := runItems_upTo more l h
    simp only [runItem, Item.flat]
    exact ⟨fun ht => by rw [ih.1 ht], ih.2⟩

theorem runItems_upTo (more : List Token → Bool) (l : List Item) (h : List Token) :
    ((upTo more h (flatten l)).2 = true → runItems more h l = ((upTo more h (flatten l)).1, true)) ∧
    (upTo more h (flatten l)).1 <+: (runItems more h l).1 := by
  cases l with
  | nil => simp [runItems, flatten, upTo]
  | cons i l =>
    have h1 := runItem_upTo more i h
    have h2 := runItems_upTo more l (upTo more h i.flat).1
    have h3 := runItems_prefix more (i :: l) h
    simp only [flatten, upTo_append]
    cases hf : (upTo more h i.flat).2 with
    | true =>
      simp only [if_true, runItems]
      rw [h1.1 hf]
      exact h2
    | false =>
      simp only [if_neg (show ¬ (false = true) by simp)]
      refine ⟨by simp [hf], ?_⟩
      simp only [runItems]
      split
      · rename_i c e
        rw [e] at h1
        exact h1.2.trans (runItems_prefix more l c)
      · rename_i c e
        rw [e] at h1
        exact h1.2

end

/-- Checked calls only. -/
theorem runItems_toks (more : List Token → Bool) : ∀ (ts h : List Token),
    runItems more h (ts.map .tok) = upTo more h ts := by
  intro ts
  induction ts with
  | nil => intro h; simp [runItems, upTo]
  | cons t ts ih =>
    intro h
    simp only [List.map_cons, runItems, runItem, upTo]
    cases hm : more (h ++ [t])
    · simp
    · simp [ih]

theorem upTo_obeys (more : List Token → Bool) : ∀ (ts h : List Token),
    (upTo more h ts).1 <+: h ++ ts ∧
    (∀ a, h <+: a → a ≠ h → a <+: (upTo more h ts).1 → more a = false → a = (upTo more h ts).1) ∧
    ((upTo more h ts).1 = h ++ ts ∨ (h ≠ (upTo more h ts).1 ∧ more (upTo more h ts).1 = false)) := by
  intro ts
  induction ts with
  | nil =>
    intro h
    simp only [upTo, List.append_nil]
    refine ⟨List.prefix_rfl, fun a h1 h2 h3 _ => ?_, .inl trivial⟩
    exact h3.eq_of_length_le h1.length_le
  | cons t ts ih =>
    intro h
    simp only [upTo]
    split
    · rename_i hm
      obtain ⟨i1, i2, i3⟩ := ih (h ++ [t])
      simp only [List.append_assoc, List.singleton_append] at i1 i3
      refine ⟨i1, fun a h1 h2 h3 h4 => ?_, ?_⟩
      · apply i2 a _ _ h3 h4
        · have hl : h.length < a.length := by
            rcases Nat.lt_or_ge h.length a.length with h' | h'
            · exact h'
            · exact absurd (h1.eq_of_length_le h').symm h2
          have hx := h3.trans i1
          apply List.prefix_of_prefix_length_le (l₃ := h ++ t :: ts) _ hx (by simp; omega)
          exact ⟨ts, by simp⟩
        · rintro rfl
          rw [hm] at h4; simp at h4
      · rcases i3 with i3 | ⟨_, i3⟩
        · exact .inl i3
        · refine .inr ⟨fun he => ?_, i3⟩
          have hp : h ++ [t] <+: (upTo more (h ++ [t]) ts).1 := by
            have := runItems_prefix more (ts.map .tok) (h ++ [t])
            rwa [runItems_toks] at this
          rw [← he] at hp
          have := hp.length_le
          simp at this
          omega

    · rename_i hm
      refine ⟨⟨ts, by simp⟩, fun a h1 h2 h3 _ => ?_, .inr ⟨by simp, by simpa using hm⟩⟩
      have hl : h.length < a.length := by
        rcases Nat.lt_or_ge h.length a.length with h' | h'
        · exact h'
        · exact absurd (h1.eq_of_length_le h').symm h2
      exact h3.eq_of_length_le (by simp; omega)

theorem scriptField_plain {env : Env} {name : Str} {ty : Ty} {v : Val} (h : Fits env ty v)
    (hp : Plain v) : scriptField env name ty v = (walkField env name ty v).map .tok := by
  cases h <;> simp only [scriptField]
  case obj => exact absurd hp (by simp [Plain])
  case list s l hl =>
    simp only [Plain] at hp
    subst hp
    simp [walkField, listToks]
  case map k mv ks vs hk hr hv =>
    cases mv <;> simp only []
    cases hv with
    | nil => simp [walkField, MTy.ft]
    | cons hx hvs =>
      cases hx
      simp only [Plain] at hp
      exact absurd rfl (hp _ (List.mem_cons_self ..) _)

theorem scriptFields_plain {env : Env} : ∀ {ds : List Decl} {vs : List Val}, FitsAll env ds vs →
    (∀ v ∈ vs, Plain v) → scriptFields env ds vs = (walkFields env ds vs).map .tok := by
  intro ds
  induction ds with
  | nil => intro vs h _; cases h; simp [scriptFields, walkFields]
  | cons d ds ih =>
    intro vs h hp
    cases h with
    | cons hv hvs =>
      simp only [scriptFields, walkFields, List.map_append]
      rw [scriptField_plain hv (hp _ (by simp)), ih hvs fun v hm => hp v (by simp [hm])]

end Claw.Tok
