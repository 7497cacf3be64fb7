import Verif.Spec.Idl

/-!
# Lemmas on the schema compiler front end
-/

namespace Claw.Idl

theorem insertBy_perm {α : Type} (le : α → α → Bool) (a : α) (l : List α) : (insertBy le a l).Perm (a :: l) := by
  induction l with
  | nil => exact .refl _
  | cons b l ih =>
    unfold insertBy
    split
    · exact .refl _
    · exact (ih.cons b).trans (.swap a b l)

theorem sortBy_perm {α : Type} (l : List α) (le : α → α → Bool) : (sortBy le l).Perm l := by
  induction l with
  | nil => exact .refl _
  | cons a l ih => exact (insertBy_perm le a _).trans (ih.cons a)

theorem sortBy_pairwise {α : Type} {le : α → α → Bool} (trans : ∀ a b c, le a b = true → le b c = true → le a c = true)
    (total : ∀ a b, (le a b || le b a) = true) (l : List α) : (sortBy le l).Pairwise fun a b => le a b = true := by
  induction l with
  | nil => exact .nil
  | cons a l ih =>
    show (insertBy le a (sortBy le l)).Pairwise _
    revert ih
    generalize sortBy le l = m
    intro ih
    induction m with
    | nil => simp [insertBy]
    | cons b m ih2 =>
      rw [List.pairwise_cons] at ih
      unfold insertBy
      split
      · rename_i hab
        refine List.pairwise_cons.2 ⟨?_, List.pairwise_cons.2 ih⟩
        intro x hx
        rcases List.mem_cons.1 hx with rfl | hx
        · exact hab
        · exact trans _ _ _ hab (ih.1 x hx)
      · rename_i hab
        refine List.pairwise_cons.2 ⟨?_, ih2 ih.2⟩
        intro x hx
        rcases List.mem_cons.1 ((insertBy_perm le a m).mem_iff.1 hx) with rfl | hx
        · have := total x b
          simp only [Bool.or_eq_true] at this
          exact this.resolve_left hab
        · exact ih.1 x hx

set_option linter.unusedSimpArgs false

/-! ## Numerals -/

theorem digitsFrom_append (s t : Str) : ∀ acc, digitsFrom acc (s ++ t) = (digitsFrom acc s).bind fun a => digitsFrom a t := by
  induction s with
  | nil => intro acc; rfl
  | cons c s ih =>
    intro acc
    simp only [List.cons_append, digitsFrom]
    split
    · exact ih _
    · rfl

theorem digitChar_byte {d : Nat} (h : d < 10) : (d.digitChar.toNat.toUInt8) = UInt8.ofNat (48 + d) := by
  match d with
  | 0 | 1 | 2 | 3 | 4 | 5 | 6 | 7 | 8 | 9 => rfl
  | _ + 10 => omega

theorem digitsFrom_digit {d : Nat} (h : d < 10) (acc : Nat) : digitsFrom acc [UInt8.ofNat (48 + d)] = some (acc * 10 + d) := by
  match d with
  | 0 | 1 | 2 | 3 | 4 | 5 | 6 | 7 | 8 | 9 => rfl
  | _ + 10 => omega

theorem decimal_eq (n : Nat) : decimal n = if n < 10 then [UInt8.ofNat (48 + n)] else decimal (n / 10) ++ [UInt8.ofNat (48 + n % 10)] := by
  unfold decimal
  rw [Nat.toDigits_eq_if (by decide)]
  split
  · rename_i h; simp only [List.map_cons, List.map_nil, digitChar_byte h]
  · simp only [List.map_append, List.map_cons, List.map_nil, digitChar_byte (Nat.mod_lt n (by decide : 0 < 10))]

theorem digitsFrom_decimal (n : Nat) : digitsFrom 0 (decimal n) = some n := by
  induction n using Nat.strongRecOn with
  | ind n ih =>
    rw [decimal_eq]
    split
    · rename_i h; simpa using digitsFrom_digit h 0
    · rename_i h
      rw [digitsFrom_append, ih (n / 10) (by omega)]
      simp only [Option.bind_some]
      rw [digitsFrom_digit (Nat.mod_lt n (by decide : 0 < 10))]
      congr 1; omega

theorem decimal_digit (n : Nat) : ∀ c ∈ decimal n, 48 ≤ c ∧ c ≤ 57 := by
  induction n using Nat.strongRecOn with
  | ind n ih =>
    rw [decimal_eq]
    split
    · rename_i h
      intro c hc
      simp only [List.mem_singleton] at hc
      subst hc
      match n with
      | 0 | 1 | 2 | 3 | 4 | 5 | 6 | 7 | 8 | 9 => decide
      | _ + 10 => omega
    · rename_i h
      intro c hc
      simp only [List.mem_append, List.mem_singleton] at hc
      rcases hc with hc | hc
      · exact ih (n / 10) (by omega) c hc
      · subst hc
        have := Nat.mod_lt n (by decide : 0 < 10)
        generalize n % 10 = m at this
        match m with
        | 0 | 1 | 2 | 3 | 4 | 5 | 6 | 7 | 8 | 9 => decide
        | _ + 10 => omega

theorem decimal_ne_nil (n : Nat) : decimal n ≠ [] := by
  simp [decimal]

theorem digits_decimal (n : Nat) : digits (decimal n) = some n := by
  have h := digitsFrom_decimal n
  cases hd : decimal n with
  | nil => exact absurd hd (decimal_ne_nil n)
  | cons c s => rw [hd] at h; exact h

theorem atoi_decimal (n : Nat) : atoi (decimal n) = if n < 2 ^ 63 then some (n : Int) else none := by
  have hd := digits_decimal n
  have hr := decimal_digit n
  cases hs : decimal n with
  | nil => exact absurd hs (decimal_ne_nil n)
  | cons c s =>
    rw [hs] at hd hr
    have h1 := hr c (by simp)
    unfold atoi
    split
    · rename_i e; obtain ⟨rfl, _⟩ := List.cons.inj e; exact absurd h1 (by decide)
    · rename_i e; obtain ⟨rfl, _⟩ := List.cons.inj e; exact absurd h1 (by decide)
    · rw [hd]; rfl

theorem atoi_numeral (n : Int) : atoi (numeral n) = if -2 ^ 63 ≤ n ∧ n < 2 ^ 63 then some n else none := by
  cases n with
  | ofNat n =>
    simp only [numeral, atoi_decimal]
    by_cases h : n < 2 ^ 63
    · rw [if_pos h, if_pos (by simp only [Int.ofNat_eq_natCast]; omega)]; rfl
    · rw [if_neg h, if_neg (by simp only [Int.ofNat_eq_natCast]; omega)]
  | negSucc n =>
    simp only [numeral, atoi, digits_decimal, Option.bind_some]
    by_cases h : n + 1 ≤ 2 ^ 63
    · rw [if_pos h, if_pos (by omega)]; rfl
    · rw [if_neg h, if_neg (by omega)]

theorem numeral_no_at (n : Int) : ∀ c ∈ numeral n, c ≠ 64 := by
  have hd : ∀ m, ∀ c ∈ decimal m, c ≠ 64 := by
    intro m c hc e
    have := decimal_digit m c hc
    subst e
    exact absurd this (by decide)
  cases n with
  | ofNat n => exact hd n
  | negSucc n =>
    intro c hc
    simp only [numeral, List.mem_cons] at hc
    rcases hc with rfl | hc
    · decide
    · exact hd _ c hc

theorem takeWhile_all {α : Type} {p : α → Bool} {l : List α} (h : ∀ x ∈ l, p x = true) : l.takeWhile p = l := by
  induction l with
  | nil => rfl
  | cons a l ih =>
    simp only [List.takeWhile, h a (by simp)]
    rw [ih fun x hx => h x (by simp [hx])]

theorem atNumber_numeral (n : Int) :
    atNumber (64 :: numeral n) = if -2 ^ 63 ≤ n ∧ n < 2 ^ 63 then .ok n else .err := by
  have h1 : Str.hasPrefix (lit "@") (64 :: numeral n) = true := rfl
  have h2 : afterAt (64 :: numeral n) = numeral n := by
    simp only [afterAt, List.drop_succ_cons, List.drop_zero]
    exact takeWhile_all fun x hx => by simpa using numeral_no_at n x hx
  simp only [atNumber, h1, h2, atoi_numeral, Out.guard, if_true, Out.ok_bind]
  split <;> rfl

/-! ## Lines -/

theorem isComment_iff (s : Str) : isComment s = true ↔ lit "//" <+: s := by
  simp [isComment, Str.hasPrefix, List.isPrefixOf_iff_prefix]

theorem item_append {a : List Str} {t : List Str} {e : Bool} {i : Nat} (h : i < a.length) :
    (⟨a ++ t, e⟩ : Line).item i = .ok a[i] := by
  simp [Line.item, List.getElem?_append_left h, h]

theorem commentOrEOL_trailer {a t : List Str} {e : Bool} (h : Trailer t) : commentOrEOL ⟨a ++ t, e⟩ a.length = .ok () := by
  match t, h with
  | [x], _ => simp [commentOrEOL, Line.item, Out.guard]
  | x :: y :: r, h =>
    have : isComment x = true := (isComment_iff x).2 h
    simp [commentOrEOL, Line.item, this]

theorem validateIdent_ok {u : Uni} {s : Str} : validateIdent u s = .ok () ↔ u.Ident s := by
  unfold validateIdent Uni.Ident
  cases hr : u.runes s with
  | nil => simp
  | cons r rs =>
    have hall : (rs.all fun r => u.isLetter r || u.isNumber r) = true ↔ ∀ x ∈ rs, u.isLetter x = true ∨ u.isNumber x = true := by
      simp only [List.all_eq_true, Bool.or_eq_true]
    constructor
    · intro h
      simp only [Out.bind_eq_ok, Out.guard] at h
      obtain ⟨_, h1, _, h2, h3⟩ := h
      refine ⟨r, rs, rfl, ?_, ?_, hall.1 ?_⟩
      · cases hb : u.isLower r <;> simp_all
      · cases hb : u.isLetter r <;> simp_all
      · cases hb : (rs.all fun r => u.isLetter r || u.isNumber r) <;> simp_all
    · rintro ⟨r', rs', e, h1, h2, h3⟩
      obtain ⟨rfl, rfl⟩ := List.cons.inj e
      simp only [h1, h2, hall.2 h3, Out.guard, Bool.not_false, if_true, Out.ok_bind]

/-! ## Struct fields -/

/-- Two contexts that differ in the external names at most. -/
def Ctx.Same (c d : Ctx) : Prop := c.idents = d.idents ∧ c.imports = d.imports

theorem Ctx.Same.refl (c : Ctx) : c.Same c := ⟨rfl, rfl⟩
theorem Ctx.Same.trans {a b c : Ctx} (h : a.Same b) (k : b.Same c) : a.Same c := ⟨h.1.trans k.1, h.2.trans k.2⟩
theorem Ctx.Same.symm {a b : Ctx} (h : a.Same b) : b.Same a := ⟨h.1.symm, h.2.symm⟩

theorem guard_ok {b : Bool} {a : Unit} : Out.guard b = .ok a ↔ b = true := by
  cases b <;> simp [Out.guard]

theorem ofOption_ok {α : Type} {o : Option α} {a : α} : Out.ofOption o = .ok a ↔ o = some a := by
  cases o <;> simp [Out.ofOption]

theorem noteMapExternal_same {c d : Ctx} {s : Str} {c' : Ctx} (hs : c.Same d) (h : noteMapExternal c s = .ok c') :
    c.Same c' ∧ ∃ d', noteMapExternal d s = .ok d' := by
  unfold noteMapExternal at h ⊢
  split at h
  · simp only [Out.bind_eq_ok, guard_ok, Out.ok.injEq] at h ⊢
    obtain ⟨_, h1, rfl⟩ := h
    exact ⟨⟨rfl, rfl⟩, _, (), by rw [← hs.2]; exact h1, rfl⟩
  · simp only [Out.ok.injEq] at h
    subst h
    exact ⟨.refl _, d, rfl⟩

theorem noteExternal_same {c d : Ctx} {s : Str} {c' : Ctx} (hs : c.Same d) (h : noteExternal c s = .ok c') :
    c.Same c' ∧ ∃ d', noteExternal d s = .ok d' := by
  unfold noteExternal at h ⊢
  split at h
  · rename_i hc
    simp only [if_pos hc, Out.bind_eq_ok, guard_ok, Out.ok.injEq] at h ⊢
    obtain ⟨_, h1, rfl⟩ := h
    exact ⟨⟨rfl, rfl⟩, _, (), by rw [← hs.2]; exact h1, rfl⟩
  · rename_i hc
    simp only [Out.ok.injEq] at h
    subst h
    exact ⟨.refl _, d, by rw [if_neg hc]⟩

theorem parseMapType_same : ∀ (fuel : Nat) {c d : Ctx} {s : Str} {m : MapInfo} {c' : Ctx}, c.Same d →
    parseMapType fuel c s = .ok (m, c') → c.Same c' ∧ ∃ d', parseMapType fuel d s = .ok (m, d') := by
  intro fuel
  induction fuel with
  | zero => intro c d s m c' _ h; simp [parseMapType] at h
  | succ fuel ih =>
    intro c d s m c' hs h
    simp only [parseMapType, Out.bind_eq_ok, guard_ok, ofOption_ok] at h
    obtain ⟨_, hp, ⟨ks, vs⟩, hk, key, hkey, _, hkk, h⟩ := h
    simp only [parseMapType, hp, hk, hkey, hkk, Out.guard, if_true, Out.ofOption, Out.ok_bind]
    simp only at h
    split at h
    · rename_i hm
      rw [if_pos hm]
      simp only [Out.bind_eq_ok, Out.pure_eq, Out.ok.injEq, Prod.mk.injEq] at h
      obtain ⟨⟨inner, c1⟩, h1, h2, h3⟩ := h
      obtain ⟨k1, d1, k2⟩ := ih hs h1
      subst h2 h3
      exact ⟨k1, d1, by rw [k2]; rfl⟩
    · rename_i hm
      rw [if_neg hm]
      split at h
      · rename_i ha
        rw [if_pos ha]
        simp only [Out.pure_eq, Out.ok.injEq, Prod.mk.injEq] at h
        obtain ⟨rfl, rfl⟩ := h
        exact ⟨.refl _, d, rfl⟩
      · rename_i ha
        rw [if_neg ha]
        split at h
        · rename_i v hv
          try simp only [hv]
          simp only [Out.bind_eq_ok, Out.pure_eq, Out.ok.injEq, Prod.mk.injEq, guard_ok] at h ⊢
          obtain ⟨_, h1, rfl, rfl⟩ := h
          exact ⟨.refl _, d, (), by rw [if_pos h1], rfl, rfl⟩
        · rename_i hv
          try simp only [hv]
          simp only [Out.bind_eq_ok, Out.pure_eq, Out.ok.injEq, Prod.mk.injEq] at h ⊢
          obtain ⟨c1, h1, rfl, rfl⟩ := h
          obtain ⟨k1, d1, k2⟩ := noteMapExternal_same hs h1
          exact ⟨k1, d1, d1, k2, rfl, rfl⟩

theorem refType_same {c d : Ctx} {self ft : Str} {isList : Bool} {f g : Field} {c' : Ctx} (hs : c.Same d)
    (h : refType c self f isList ft = .ok (g, c')) :
    c.Same c' ∧ (∃ d', refType d self f isList ft = .ok (g, d')) ∧ g.name = f.name ∧ g.comment = f.comment ∧ g.index = f.index := by
  unfold refType at h ⊢
  split at h
  · rename_i hself
    rw [if_pos hself]
    simp only [Out.bind_eq_ok, Out.pure_eq, Out.ok.injEq, Prod.mk.injEq, guard_ok] at h
    obtain ⟨_, h1, rfl, rfl⟩ := h
    rw [← hs.1, h1]
    exact ⟨.refl _, ⟨d, rfl⟩, rfl, rfl, rfl⟩
  · rename_i hself
    rw [if_neg hself, ← hs.1]
    split at h
    · rename_i size hi
      try simp only [hi]
      split at h
      · rename_i t he
        simp only [Out.ok.injEq, Prod.mk.injEq] at h
        obtain ⟨rfl, rfl⟩ := h
        exact ⟨.refl _, ⟨d, by simp only [he]⟩, rfl, rfl, rfl⟩
      · simp at h
    · rename_i hi
      simp only [Out.ok.injEq, Prod.mk.injEq] at h
      obtain ⟨rfl, rfl⟩ := h
      exact ⟨.refl _, ⟨d, rfl⟩, by simp⟩
    · rename_i hi
      try simp only [hi]
      simp only [Out.bind_eq_ok, Out.pure_eq, Out.ok.injEq, Prod.mk.injEq] at h ⊢
      obtain ⟨c1, h1, rfl, rfl⟩ := h
      obtain ⟨k1, d1, k2⟩ := noteExternal_same hs h1
      exact ⟨k1, ⟨d1, d1, k2, rfl, rfl⟩, by simp⟩

theorem fieldType_same {c d : Ctx} {self ty : Str} {f g : Field} {c' : Ctx} (hs : c.Same d)
    (h : fieldType c self f ty = .ok (g, c')) :
    c.Same c' ∧ (∃ d', fieldType d self f ty = .ok (g, d')) ∧ g.name = f.name ∧ g.comment = f.comment ∧ g.index = f.index := by
  unfold fieldType at h ⊢
  split at h
  · rename_i t ht
    simp only [Out.ok.injEq, Prod.mk.injEq] at h
    obtain ⟨rfl, rfl⟩ := h
    simp only [ht]
    exact ⟨.refl _, ⟨d, rfl⟩, by simp⟩
  · rename_i ht
    simp only [ht]
    split at h
    · rename_i hm
      rw [if_pos hm]
      simp only [Out.bind_eq_ok, Out.pure_eq, Out.ok.injEq, Prod.mk.injEq] at h
      obtain ⟨⟨m, c1⟩, h1, rfl, rfl⟩ := h
      obtain ⟨k1, d1, k2⟩ := parseMapType_same _ hs h1
      exact ⟨k1, ⟨d1, by rw [k2]; rfl⟩, rfl, rfl, rfl⟩
    · rename_i hm
      rw [if_neg hm]
      split at h
      · rename_i hl
        rw [if_pos hl]
        exact refType_same hs h
      · rename_i hl
        rw [if_neg hl]
        exact refType_same hs h

/-- The type of a field does not depend on its comment. -/
theorem fieldType_comment {c : Ctx} {self ty : Str} {f g : Field} {c' : Ctx} (cm : List Str)
    (h : fieldType c self f ty = .ok (g, c')) :
    fieldType c self { f with comment := cm } ty = .ok ({ g with comment := cm }, c') := by
  have href : ∀ {isList ft}, refType c self f isList ft = .ok (g, c') →
      refType c self { f with comment := cm } isList ft = .ok ({ g with comment := cm }, c') := by
    intro isList ft h
    unfold refType at h ⊢
    split at h
    · rename_i hself
      rw [if_pos hself]
      simp only [Out.bind_eq_ok, Out.pure_eq, Out.ok.injEq, Prod.mk.injEq] at h ⊢
      obtain ⟨u, h1, rfl, rfl⟩ := h
      exact ⟨u, h1, rfl, rfl⟩
    · rename_i hself
      rw [if_neg hself]
      split at h
      · split at h
        · simp only [Out.ok.injEq, Prod.mk.injEq] at h
          obtain ⟨rfl, rfl⟩ := h
          rfl
        · simp at h
      · simp only [Out.ok.injEq, Prod.mk.injEq] at h
        obtain ⟨rfl, rfl⟩ := h
        rfl
      · simp only [Out.bind_eq_ok, Out.pure_eq, Out.ok.injEq, Prod.mk.injEq] at h ⊢
        obtain ⟨c1, h1, rfl, rfl⟩ := h
        exact ⟨c1, h1, rfl, rfl⟩
  unfold fieldType at h ⊢
  split at h
  · simp only [Out.ok.injEq, Prod.mk.injEq] at h
    obtain ⟨rfl, rfl⟩ := h
    rfl
  · split at h
    · rename_i hm
      rw [if_pos hm]
      simp only [Out.bind_eq_ok, Out.pure_eq, Out.ok.injEq, Prod.mk.injEq] at h ⊢
      obtain ⟨m, h1, rfl, rfl⟩ := h
      exact ⟨m, h1, rfl, rfl⟩
    · rename_i hm
      rw [if_neg hm]
      split at h
      · rename_i hl
        rw [if_pos hl]
        exact href h
      · rename_i hl
        rw [if_neg hl]
        exact href h

/-- The field a declaration starts from. -/
def blank (comment : List Str) (name : Str) : Field := ⟨comment, name, 0, .unknown, false, false, [], false, none⟩

/-- A declaration that is well formed but for its number. -/
structure Decl.OK (u : Uni) (c : Ctx) (sname : Str) (d : Decl) : Prop where
  ident : u.Ident d.name
  plain : Plain d.name
  typed : ∃ f c', fieldType c sname (blank [] d.name) d.ty = .ok (f, c')
  trail : Trailer d.trail

/-- Numbers the parser lets through to the check of the whole struct. -/
def NumOK (n : Int) : Prop := -2 ^ 63 ≤ n ∧ n ≤ 65535

instance (n : Int) : Decidable (NumOK n) := inferInstanceAs (Decidable (_ ∧ _))

theorem parseField_decl {u : Uni} {self : Str} {c0 c : Ctx} {d : Decl} (cm : List Str) (hd : d.OK u c0 self) (hs : c0.Same c) :
    if NumOK d.num then
      ∃ f c', parseField u self c cm d.line = .ok (f, c') ∧ c0.Same c' ∧ f.name = d.name ∧ f.index = toUint16 d.num
    else parseField u self c cm d.line = .err := by
  obtain ⟨hi, _, ⟨f, c', hf⟩, ht⟩ := hd
  have hlen : 3 ≤ d.line.items.length := by simp [Decl.line]
  have h0 : d.line.item 0 = .ok d.name := rfl
  have h1 : d.line.item 1 = .ok d.ty := rfl
  have h2 : d.line.item 2 = .ok (64 :: numeral d.num) := rfl
  have h3 : commentOrEOL d.line 3 = .ok () := commentOrEOL_trailer (a := [d.name, d.ty, 64 :: numeral d.num]) ht
  obtain ⟨k1, ⟨c1, k2⟩, k3, k4, k5⟩ := fieldType_same hs (fieldType_comment cm hf)
  have k6 := (fieldType_same hs.symm k2).1
  have hb : fieldType c self ⟨cm, d.name, 0, .unknown, false, false, [], false, none⟩ d.ty = .ok ({ f with comment := cm }, c1) := k2
  have hg : Out.guard (!d.line.eof) = .ok () := rfl
  have hg2 : Out.guard (decide (3 ≤ d.line.items.length)) = .ok () := guard_ok.2 (by simpa using hlen)
  have base : parseField u self c cm d.line = (atNumber (64 :: numeral d.num) >>= fun i => Out.guard (decide (i ≤ 65535)) >>= fun _ =>
      Out.ok ({ { f with comment := cm } with index := toUint16 i }, c1)) := by
    simp only [parseField, hg, hg2, h0, h1, h2, h3, validateIdent_ok.2 hi, hb, Out.ok_bind, Out.pure_eq]
  rw [base, atNumber_numeral]
  split
  · rename_i hn
    refine ⟨{ { f with comment := cm } with index := toUint16 d.num }, c1, ?_, hs.trans k6, k3, rfl⟩
    rw [if_pos ⟨hn.1, by have := hn.2; omega⟩]
    simp [Out.guard, hn.2]
  · rename_i hn
    split
    · rename_i hr
      have : ¬ d.num ≤ 65535 := fun h => hn ⟨hr.1, h⟩
      simp [Out.guard, this]
    · rfl

theorem fieldsLoop_body {u : Uni} {self : Str} {c0 : Ctx} {ds : List Decl} {ls : List Line} {trail : List Str} {eof : Bool}
    {rest : List Line} (hb : Body Decl.line ds ls) (ht : Trailer trail) (hd : ∀ d ∈ ds, d.OK u c0 self) :
    ∀ (c : Ctx) (pend : List Str) (fs : List Field), c0.Same c →
    if (∀ d ∈ ds, NumOK d.num) ∧ (fs ≠ [] ∨ ds ≠ []) then
      ∃ gs c', fieldsLoop u self c pend fs (ls ++ closing trail eof :: rest) = .ok (fs ++ gs, c', rest) ∧ c0.Same c' ∧
        gs.map (fun f => (f.name, f.index)) = ds.map (fun d => (d.name, toUint16 d.num))
    else fieldsLoop u self c pend fs (ls ++ closing trail eof :: rest) = .err := by
  induction hb with
  | nil =>
    intro c pend fs hs
    have h0 : (closing trail eof).item 0 = .ok (lit "}") := rfl
    have h1 : commentOrEOL (closing trail eof) 1 = .ok () := commentOrEOL_trailer (a := [lit "}"]) ht
    simp only [List.nil_append, fieldsLoop, h0, h1, Out.ok_bind, if_true, Out.pure_eq]
    cases fs with
    | nil => simp [Out.guard]
    | cons f fs => exact ⟨[], c, by simp [Out.guard], hs, rfl⟩
  | @comment ds ls s r h hb ih =>
    intro c pend fs hs
    have h0 : (⟨s :: r, false⟩ : Line).item 0 = .ok s := rfl
    have hne : s ≠ lit "}" := by rintro rfl; exact absurd h (by decide)
    have hc : isComment s = true := (isComment_iff s).2 h
    have := ih hd c (pend ++ commentText ⟨s :: r, false⟩) fs hs
    simp only [List.cons_append, fieldsLoop, h0, Out.ok_bind, if_neg hne, hc, if_true, Bool.false_eq_true, if_false]
    exact this
  | @decl ds ls d hb ih =>
    intro c pend fs hs
    have hok := hd d (by simp)
    have h0 : d.line.item 0 = .ok d.name := rfl
    have hne : d.name ≠ lit "}" := hok.plain.2
    have hc : isComment d.name = false := by
      cases hx : isComment d.name with
      | false => rfl
      | true => exact absurd ((isComment_iff _).1 hx) hok.plain.1
    have he : d.line.eof = false := rfl
    have hp := parseField_decl pend hok hs
    simp only [List.cons_append, fieldsLoop, h0, Out.ok_bind, if_neg hne, hc, he, Bool.false_eq_true, if_false]
    by_cases hn : NumOK d.num
    · rw [if_pos hn] at hp
      obtain ⟨f, c1, e1, e2, e3, e4⟩ := hp
      have := ih (fun x hx => hd x (by simp [hx])) c1 [] (fs ++ [f]) e2
      simp only [e1, Out.ok_bind]
      by_cases hall : ∀ x ∈ ds, NumOK x.num
      · rw [if_pos ⟨hall, Or.inl (by simp)⟩] at this
        obtain ⟨gs, c', k1, k2, k3⟩ := this
        rw [if_pos ⟨by simpa [hn] using hall, Or.inr (by simp)⟩]
        exact ⟨f :: gs, c', by rw [k1]; simp, k2, by simp [k3, e3, e4]⟩
      · rw [if_neg fun h => hall h.1] at this
        rw [if_neg fun h => hall fun x hx => h.1 x (by simp [hx])]
        exact this
    · rw [if_neg hn] at hp
      rw [if_neg fun h => hn (h.1 d (by simp)), hp]
      rfl

/-! ## The numbers of a struct -/

theorem checkIds_ok : ∀ (fs : List Field) (ids : List Bool), checkIds ids fs = .ok () ↔
    (∀ f ∈ fs, ids[f.index]? = some false) ∧ (fs.map (·.index)).Nodup := by
  intro fs
  induction fs with
  | nil => intro ids; simp [checkIds]
  | cons f fs ih =>
    intro ids
    simp only [checkIds]
    by_cases h1 : f.index ≥ ids.length
    · rw [if_pos h1]
      simp only [reduceCtorEq, false_iff]
      intro h
      have := h.1 f (by simp)
      rw [List.getElem?_eq_none h1] at this
      simp at this
    · rw [if_neg h1]
      have hlt : f.index < ids.length := by omega
      by_cases h2 : ids[f.index]? = some true
      · rw [if_pos h2]
        simp only [reduceCtorEq, false_iff]
        intro h
        have := h.1 f (by simp)
        rw [h2] at this
        simp at this
      · rw [if_neg h2, ih]
        have h3 : ids[f.index]? = some false := by
          rw [List.getElem?_eq_getElem hlt] at h2 ⊢
          cases hb : ids[f.index] <;> simp_all
        constructor
        · rintro ⟨ha, hb⟩
          have hnot : ∀ g ∈ fs, g.index ≠ f.index ∧ ids[g.index]? = some false := by
            intro g hg
            have := ha g hg
            by_cases he : g.index = f.index
            · rw [he, List.getElem?_set_self hlt] at this
              simp at this
            · rw [List.getElem?_set_ne (Ne.symm he)] at this
              exact ⟨he, this⟩
          refine ⟨?_, ?_⟩
          · intro g hg
            simp only [List.mem_cons] at hg
            rcases hg with rfl | hg
            · exact h3
            · exact (hnot g hg).2
          · simp only [List.map_cons, List.nodup_cons, List.mem_map, not_exists, not_and]
            exact ⟨fun g hg => (hnot g hg).1, hb⟩
        · rintro ⟨ha, hb⟩
          simp only [List.map_cons, List.nodup_cons, List.mem_map, not_exists, not_and] at hb
          refine ⟨?_, hb.2⟩
          intro g hg
          rw [List.getElem?_set_ne (Ne.symm (hb.1 g hg))]
          exact ha g (by simp [hg])

theorem checkIds_total : ∀ (fs : List Field) (ids : List Bool), checkIds ids fs ≠ .panic := by
  intro fs
  induction fs with
  | nil => intro ids; simp [checkIds]
  | cons f fs ih =>
    intro ids
    simp only [checkIds]
    split
    · simp
    · split
      · simp
      · exact ih _

/-- Distinct numbers below `n`, `n` of them, are the numbers `0..n-1`. -/
theorem perm_range {l : List Nat} {n : Nat} (hl : l.length = n) : (∀ x ∈ l, x < n) ∧ l.Nodup ↔ l.Perm (List.range n) := by
  constructor
  · rintro ⟨hlt, hnd⟩
    refine (List.perm_ext_iff_of_nodup hnd List.nodup_range).2 fun a => ⟨fun h => List.mem_range.2 (hlt a h), fun ha => ?_⟩
    apply Classical.byContradiction
    intro hna
    have h1 : (a :: l).Nodup := List.nodup_cons.2 ⟨hna, hnd⟩
    have h2 : (a :: l) ⊆ List.range n := by
      intro x hx
      simp only [List.mem_cons] at hx
      rcases hx with rfl | hx
      · exact ha
      · exact List.mem_range.2 (hlt x hx)
    have := List.Nodup.length_le_of_subset h1 h2
    simp at this
    omega
  · intro h
    exact ⟨fun x hx => List.mem_range.1 (h.mem_iff.1 hx), h.nodup_iff.2 List.nodup_range⟩

theorem checkIds_perm (fs : List Field) : checkIds (List.replicate fs.length false) fs = .ok () ↔
    (fs.map (·.index)).Perm (List.range fs.length) := by
  rw [checkIds_ok, ← perm_range (by simp)]
  constructor
  · rintro ⟨h1, h2⟩
    refine ⟨?_, h2⟩
    intro x hx
    obtain ⟨f, hf, rfl⟩ := List.mem_map.1 hx
    have := h1 f hf
    rw [List.getElem?_replicate] at this
    split at this
    · assumption
    · simp at this
  · rintro ⟨h1, h2⟩
    refine ⟨fun f hf => ?_, h2⟩
    rw [List.getElem?_replicate, if_pos (h1 _ (List.mem_map.2 ⟨f, hf, rfl⟩))]

theorem sort_index (fs : List Field) (h : (fs.map (·.index)).Perm (List.range fs.length)) :
    ((sortBy (fun a b => a.index ≤ b.index) fs).map (·.index)) = List.range fs.length := by
  have hp := sortBy_perm fs (fun a b => decide (a.index ≤ b.index))
  have hs := sortBy_pairwise (le := fun a b : Field => decide (a.index ≤ b.index))
    (by intro a b c; simp only [decide_eq_true_eq]; omega)
    (by intro a b; simp only [Bool.or_eq_true, decide_eq_true_eq]; omega) fs
  refine List.Perm.eq_of_pairwise (le := fun a b : Nat => a ≤ b) (by intro a b _ _ h1 h2; omega) ?_ ?_ ((hp.map _).trans h)
  · rw [List.pairwise_map]
    exact hs.imp (by intro a b; simp)
  · exact List.pairwise_le_range

/-! ## Accepted structs, whatever their lines -/

theorem parseFields_ok {u : Uni} {self : Str} {c : Ctx} {ls : List Line} {fs : List Field} {c' : Ctx} {rest : List Line}
    (h : parseFields u self c ls = .ok (fs, c', rest)) :
    ∃ gs, fieldsLoop u self c [] [] ls = .ok (gs, c', rest) ∧ fs.Perm gs ∧ fs.map (·.index) = List.range fs.length := by
  simp only [parseFields, Out.bind_eq_ok, Out.pure_eq, Out.ok.injEq, Prod.mk.injEq] at h
  obtain ⟨⟨gs, c1, r1⟩, h1, _, h2, rfl, rfl, rfl⟩ := h
  refine ⟨gs, h1, sortBy_perm _ _, ?_⟩
  rw [sort_index gs ((checkIds_perm gs).1 h2), (sortBy_perm gs _).length_eq]

theorem fieldsLoop_nonempty {u : Uni} {self : Str} : ∀ (ls : List Line) {c : Ctx} {pend : List Str} {fs gs : List Field} {c' : Ctx} {rest : List Line},
    fieldsLoop u self c pend fs ls = .ok (gs, c', rest) → gs ≠ [] := by
  intro ls
  induction ls with
  | nil => intro c pend fs gs c' rest h; simp [fieldsLoop] at h
  | cons l ls ih =>
    intro c pend fs gs c' rest h
    simp only [fieldsLoop, Out.bind_eq_ok] at h
    obtain ⟨first, _, h⟩ := h
    split at h
    · simp only [Out.bind_eq_ok, Out.pure_eq, Out.ok.injEq, Prod.mk.injEq, guard_ok] at h
      obtain ⟨_, _, _, hne, _, _, rfl, _⟩ := h
      cases fs <;> simp_all
    · split at h
      · simp at h
      · split at h
        · exact ih h
        · simp only [Out.bind_eq_ok] at h
          obtain ⟨_, _, h⟩ := h
          exact ih h

/-! ## Enums -/

theorem assocGet_none {κ α : Type} [DecidableEq κ] {k : κ} {m : List (κ × α)} :
    (assocGet k m).isNone = true ↔ k ∉ m.map (·.1) := by
  simp only [assocGet, Option.isNone_map, Option.isNone_iff_eq_none, List.find?_eq_none, decide_eq_true_eq, List.mem_map, not_exists,
    not_and]

theorem assocSet_new {κ α : Type} [DecidableEq κ] {k : κ} {v : α} {m : List (κ × α)} (h : k ∉ m.map (·.1)) :
    assocSet k v m = m ++ [(k, v)] := by
  unfold assocSet
  rw [List.filter_eq_self.2]
  intro p hp
  simp only [ne_eq, decide_not, Bool.not_eq_eq_eq_not, Bool.not_true, decide_eq_false_iff_not]
  rintro rfl
  exact h (List.mem_map.2 ⟨p, hp, rfl⟩)

/-- What the two maps of an enum hold: the same enumerators, each under its own name and its own value, none twice. -/
structure EnumInv (e : Enum) (vs : List EnumVal) : Prop where
  names : e.names = vs.map fun v => (v.name, v)
  values : e.values = vs.map fun v => (v.value, v)
  nodupNames : (vs.map (·.name)).Nodup
  nodupValues : (vs.map (·.value)).Nodup
  small : ∀ v ∈ vs, v.value < 65536

theorem toUint16_lt (n : Int) : toUint16 n < 65536 := by
  unfold toUint16
  have h1 := Int.emod_nonneg n (by decide : (65536 : Int) ≠ 0)
  have h2 := Int.emod_lt_of_pos n (by decide : (0 : Int) < 65536)
  omega

theorem toUint16_small {n : Int} (h0 : 0 ≤ n) (h1 : n < 65536) : (toUint16 n : Int) = n := by
  unfold toUint16
  rw [Int.emod_eq_of_lt h0 h1]
  omega

theorem EnumInv.add {e : Enum} {vs : List EnumVal} (h : EnumInv e vs) (v : EnumVal) (hv : v.value < 65536)
    (h1 : v.name ∉ e.names.map (·.1)) (h2 : v.value ∉ e.values.map (·.1)) :
    EnumInv { e with names := assocSet v.name v e.names, values := assocSet v.value v e.values } (vs ++ [v]) := by
  have k1 : v.name ∉ vs.map (·.name) := by
    have := h1; rw [h.names] at this; simpa using this
  have k2 : v.value ∉ vs.map (·.value) := by
    have := h2; rw [h.values] at this; simpa using this
  refine ⟨?_, ?_, ?_, ?_, ?_⟩
  · rw [assocSet_new h1, h.names]; simp
  · rw [assocSet_new h2, h.values]; simp
  · rw [List.map_append, List.nodup_append]
    refine ⟨h.nodupNames, by simp, ?_⟩
    intro a ha b hb e
    simp only [List.map_cons, List.map_nil, List.mem_singleton] at hb
    subst hb; subst e; exact k1 ha
  · rw [List.map_append, List.nodup_append]
    refine ⟨h.nodupValues, by simp, ?_⟩
    intro a ha b hb e
    simp only [List.map_cons, List.map_nil, List.mem_singleton] at hb
    subst hb; subst e; exact k2 ha
  · intro w hw
    simp only [List.mem_append, List.mem_singleton] at hw
    rcases hw with hw | rfl
    · exact h.small w hw
    · exact hv

theorem enumEntry_ok {u : Uni} {cm : List Str} {e e' : Enum} {l : Line} (h : enumEntry u cm e l = .ok e') :
    ∃ v : EnumVal, v.value < 65536 ∧ v.name ∉ e.names.map (·.1) ∧ v.value ∉ e.values.map (·.1) ∧ u.Ident v.name ∧
      l.items[0]? = some v.name ∧ v.comment = cm ∧
      e' = { e with names := assocSet v.name v e.names, values := assocSet v.value v e.values } := by
  simp only [enumEntry, Out.bind_eq_ok, guard_ok, Out.pure_eq, Out.ok.injEq, assocGet_none] at h
  obtain ⟨_, _, name, hname, _, hid, _, h1, num, _, n, _, _, _, _, h2, _, _, rfl⟩ := h
  refine ⟨⟨cm, name, toUint16 n⟩, toUint16_lt n, h1, h2, validateIdent_ok.1 hid, ?_, rfl, rfl⟩
  simp only [Line.item] at hname
  split at hname
  · rename_i s hs
    simp only [Out.ok.injEq] at hname
    rw [hs, hname]
  · simp at hname

theorem enumLoop_inv {u : Uni} : ∀ (ls : List Line) {pend : List Str} {e e' : Enum} {vs : List EnumVal} {rest : List Line},
    EnumInv e vs → enumLoop u pend e ls = .ok (e', rest) →
    ∃ ws, EnumInv e' (vs ++ ws) ∧ vs ++ ws ≠ [] ∧ e'.name = e.name ∧ e'.size = e.size ∧ ∀ w ∈ ws, u.Ident w.name := by
  intro ls
  induction ls with
  | nil => intro pend e e' vs rest _ h; simp [enumLoop] at h
  | cons l ls ih =>
    intro pend e e' vs rest hi h
    simp only [enumLoop, Out.bind_eq_ok] at h
    obtain ⟨first, _, h⟩ := h
    split at h
    · simp only [Out.bind_eq_ok, Out.pure_eq, Out.ok.injEq, Prod.mk.injEq, guard_ok] at h
      obtain ⟨_, _, _, hne, _, _, rfl, _⟩ := h
      refine ⟨[], by simpa using hi, ?_, rfl, rfl, by simp⟩
      rintro hv
      simp only [List.append_nil] at hv
      rw [hi.names, hv] at hne
      simp at hne
    · split at h
      · simp at h
      · split at h
        · exact ih hi h
        · simp only [Out.bind_eq_ok] at h
          obtain ⟨e1, h1, h⟩ := h
          obtain ⟨v, a1, a2, a3, a4, _, _, rfl⟩ := enumEntry_ok h1
          obtain ⟨ws, b1, b2, b3, b4, b5⟩ := ih (hi.add v a1 a2 a3) h
          refine ⟨v :: ws, by simpa using b1, by simp, b3, b4, ?_⟩
          intro w hw
          simp only [List.mem_cons] at hw
          rcases hw with rfl | hw
          · exact a4
          · exact b5 w hw

/-- An enumerator that is well formed but for its number. -/
structure Enumerator.OK (u : Uni) (d : Enumerator) : Prop where
  ident : u.Ident d.name
  plain : Plain d.name
  trail : Trailer d.trail

theorem enumEntry_decl {u : Uni} {cm : List Str} {e : Enum} {d : Enumerator} (hd : d.OK u) :
    enumEntry u cm e d.line =
      if d.name ∉ e.names.map (·.1) ∧ 0 ≤ d.num ∧ d.num < 2 ^ 63 ∧ toUint16 d.num ∉ e.values.map (·.1) then
        .ok { e with names := assocSet d.name ⟨cm, d.name, toUint16 d.num⟩ e.names,
                     values := assocSet (toUint16 d.num) ⟨cm, d.name, toUint16 d.num⟩ e.values }
      else .err := by
  obtain ⟨hi, _, ht⟩ := hd
  have hlen : 3 ≤ d.line.items.length := by
    simp only [Enumerator.line, List.length_append, List.length_cons, List.length_nil]
    cases htt : d.trail with
    | nil => rw [htt] at ht; exact absurd ht (by simp [Trailer])
    | cons a b => simp only [List.length_cons]; omega
  have h0 : d.line.item 0 = .ok d.name := rfl
  have h1 : d.line.item 1 = .ok (64 :: numeral d.num) := rfl
  have h2 : commentOrEOL d.line 2 = .ok () := commentOrEOL_trailer (a := [d.name, 64 :: numeral d.num]) ht
  have hg : Out.guard (decide (3 ≤ d.line.items.length)) = .ok () := guard_ok.2 (by simpa using hlen)
  simp only [enumEntry, hg, h0, h1, h2, validateIdent_ok.2 hi, Out.ok_bind, Out.pure_eq]
  by_cases c1 : d.name ∈ e.names.map (·.1)
  · have : (assocGet d.name e.names).isNone = false := by
      cases hx : (assocGet d.name e.names).isNone with
      | false => rfl
      | true => exact absurd c1 (assocGet_none.1 hx)
    rw [if_neg fun h => h.1 c1, this]
    rfl
  · have g1 : Out.guard (assocGet d.name e.names).isNone = .ok () := guard_ok.2 (assocGet_none.2 c1)
    rw [g1, atNumber_numeral]
    simp only [Out.ok_bind]
    by_cases c2 : 0 ≤ d.num
    · by_cases c3 : d.num < 2 ^ 63
      · have g2 : Out.guard (decide (0 ≤ d.num)) = .ok () := guard_ok.2 (by simpa using c2)
        have g3 : (if -2 ^ 63 ≤ d.num ∧ d.num < 2 ^ 63 then Out.ok d.num else Out.err) = Out.ok d.num := if_pos ⟨by omega, c3⟩
        rw [g3]
        simp only [Out.ok_bind]
        rw [g2]
        simp only [Out.ok_bind]
        by_cases c4 : toUint16 d.num ∈ e.values.map (·.1)
        · have : (assocGet (toUint16 d.num) e.values).isNone = false := by
            cases hx : (assocGet (toUint16 d.num) e.values).isNone with
            | false => rfl
            | true => exact absurd c4 (assocGet_none.1 hx)
          rw [this, if_neg fun h => h.2.2.2 c4]
          rfl
        · have g4 : Out.guard (assocGet (toUint16 d.num) e.values).isNone = .ok () := guard_ok.2 (assocGet_none.2 c4)
          rw [g4, if_pos ⟨c1, c2, c3, c4⟩]
          rfl
      · have g3 : (if -2 ^ 63 ≤ d.num ∧ d.num < 2 ^ 63 then Out.ok d.num else Out.err) = Out.err := if_neg fun h => c3 h.2
        rw [g3, if_neg fun h => c3 h.2.2.1]
        rfl
    · rw [if_neg (c := d.name ∉ _ ∧ _) fun h => c2 h.2.1]
      have g2 : Out.guard (decide (0 ≤ d.num)) = .err := by simp [Out.guard, c2]
      by_cases c3 : -2 ^ 63 ≤ d.num ∧ d.num < 2 ^ 63
      · rw [if_pos c3]
        simp only [Out.ok_bind]
        rw [g2]
        rfl
      · rw [if_neg c3]
        rfl

theorem enumLoop_body {u : Uni} {ds : List Enumerator} {ls : List Line} {trail : List Str} {eof : Bool} {rest : List Line}
    (hb : Body Enumerator.line ds ls) (ht : Trailer trail) (hd : ∀ d ∈ ds, d.OK u) :
    ∀ (pend : List Str) (e : Enum) (vs : List EnumVal), EnumInv e vs →
    if ((∀ d ∈ ds, 0 ≤ d.num ∧ d.num < 2 ^ 63) ∧ (vs.map (·.name) ++ ds.map (·.name)).Nodup ∧
        (vs.map (·.value) ++ ds.map (fun d => toUint16 d.num)).Nodup) ∧ (vs ≠ [] ∨ ds ≠ []) then
      ∃ ws e', enumLoop u pend e (ls ++ closing trail eof :: rest) = .ok (e', rest) ∧ EnumInv e' (vs ++ ws) ∧
        e'.name = e.name ∧ e'.size = e.size ∧
        ws.map (fun w => (w.name, w.value)) = ds.map (fun d => (d.name, toUint16 d.num))
    else enumLoop u pend e (ls ++ closing trail eof :: rest) = .err := by
  induction hb with
  | nil =>
    intro pend e vs hi
    have h0 : (closing trail eof).item 0 = .ok (lit "}") := rfl
    have h1 : commentOrEOL (closing trail eof) 1 = .ok () := commentOrEOL_trailer (a := [lit "}"]) ht
    simp only [List.nil_append, enumLoop, h0, h1, Out.ok_bind, if_true, Out.pure_eq]
    cases vs with
    | nil =>
      have : e.names = [] := hi.names
      simp [this, Out.guard]
    | cons v vs =>
      have : e.names.isEmpty = false := by rw [hi.names]; rfl
      rw [this]
      split
      · exact ⟨[], e, rfl, by simpa using hi, rfl, rfl, rfl⟩
      · rename_i hn
        refine absurd ⟨⟨by simp, ?_, ?_⟩, Or.inl (by simp)⟩ hn
        · simpa using hi.nodupNames
        · simpa using hi.nodupValues
  | @comment ds ls s r h hb ih =>
    intro pend e vs hi
    have h0 : (⟨s :: r, false⟩ : Line).item 0 = .ok s := rfl
    have hne : s ≠ lit "}" := by rintro rfl; exact absurd h (by decide)
    have hc : isComment s = true := (isComment_iff s).2 h
    have := ih hd (pend ++ commentText ⟨s :: r, false⟩) e vs hi
    simp only [List.cons_append, enumLoop, h0, Out.ok_bind, if_neg hne, hc, if_true, Bool.false_eq_true, if_false]
    exact this
  | @decl ds ls d hb ih =>
    intro pend e vs hi
    have hok := hd d (by simp)
    have h0 : d.line.item 0 = .ok d.name := rfl
    have hne : d.name ≠ lit "}" := hok.plain.2
    have hc : isComment d.name = false := by
      cases hx : isComment d.name with
      | false => rfl
      | true => exact absurd ((isComment_iff _).1 hx) hok.plain.1
    have he : d.line.eof = false := rfl
    simp only [List.cons_append, enumLoop, h0, Out.ok_bind, if_neg hne, hc, he, Bool.false_eq_true, if_false,
      enumEntry_decl hok]
    have hnames : e.names.map (·.1) = vs.map (·.name) := by rw [hi.names]; simp
    have hvalues : e.values.map (·.1) = vs.map (·.value) := by rw [hi.values]; simp
    by_cases hn : d.name ∉ e.names.map (·.1) ∧ 0 ≤ d.num ∧ d.num < 2 ^ 63 ∧ toUint16 d.num ∉ e.values.map (·.1)
    · rw [if_pos hn]
      simp only [Out.ok_bind]
      have hi' := hi.add ⟨pend, d.name, toUint16 d.num⟩ (toUint16_lt _) hn.1 hn.2.2.2
      have := ih (fun x hx => hd x (by simp [hx])) [] _ _ hi'
      have cnd : ((∀ x ∈ ds, 0 ≤ x.num ∧ x.num < 2 ^ 63) ∧
            ((vs ++ [(⟨pend, d.name, toUint16 d.num⟩ : EnumVal)]).map (·.name) ++ ds.map (·.name)).Nodup ∧
            ((vs ++ [(⟨pend, d.name, toUint16 d.num⟩ : EnumVal)]).map (·.value) ++ ds.map (fun d => toUint16 d.num)).Nodup) ↔
          ((∀ x ∈ d :: ds, 0 ≤ x.num ∧ x.num < 2 ^ 63) ∧ (vs.map (·.name) ++ (d :: ds).map (·.name)).Nodup ∧
            (vs.map (·.value) ++ (d :: ds).map (fun d => toUint16 d.num)).Nodup) := by
        rw [List.forall_mem_cons]
        simp only [List.map_append, List.map_cons, List.map_nil, List.append_assoc, List.cons_append, List.nil_append, hn.2.1,
          hn.2.2.1, true_and, and_true]
      by_cases hall : (∀ x ∈ d :: ds, 0 ≤ x.num ∧ x.num < 2 ^ 63) ∧ (vs.map (·.name) ++ (d :: ds).map (·.name)).Nodup ∧
            (vs.map (·.value) ++ (d :: ds).map (fun d => toUint16 d.num)).Nodup
      · rw [if_pos ⟨cnd.2 hall, Or.inl (by simp)⟩] at this
        rw [if_pos ⟨hall, Or.inr (by simp)⟩]
        obtain ⟨ws, e', k1, k2, k3, k4, k5⟩ := this
        exact ⟨⟨pend, d.name, toUint16 d.num⟩ :: ws, e', k1, by simpa using k2, k3, k4, by simp [k5]⟩
      · rw [if_neg fun h => hall (cnd.1 h.1)] at this
        rw [if_neg fun h => hall h.1]
        exact this
    · rw [if_neg hn]
      rw [if_neg]
      · rfl
      · rintro ⟨⟨h1, h2, h3⟩, _⟩
        apply hn
        rw [hnames, hvalues]
        rw [List.nodup_append] at h2 h3
        refine ⟨fun hm => h2.2.2 _ hm d.name (by simp) rfl, (h1 d (by simp)).1, (h1 d (by simp)).2,
          fun hm => h3.2.2 _ hm (toUint16 d.num) (by simp) rfl⟩

/-! ## Ordering the enumerators -/

theorem fill_fold (pairs : List (Nat × EnumVal)) : ∀ (acc : List EnumVal), (∀ p ∈ pairs, p.1 < acc.length) → (pairs.map (·.1)).Nodup →
    ∃ l, pairs.foldlM (fun l p => if p.1 < l.length then Out.ok (l.set p.1 p.2) else .panic) acc = .ok l ∧ l.length = acc.length ∧
      (∀ p ∈ pairs, l[p.1]? = some p.2) ∧ ∀ i, i ∉ pairs.map (·.1) → l[i]? = acc[i]? := by
  induction pairs with
  | nil => intro acc _ _; exact ⟨acc, rfl, rfl, by simp, fun _ _ => rfl⟩
  | cons p ps ih =>
    intro acc hlt hnd
    have hp := hlt p (by simp)
    simp only [List.map_cons, List.nodup_cons] at hnd
    obtain ⟨l, e1, e2, e3, e4⟩ := ih (acc.set p.1 p.2) (fun q hq => by simpa using hlt q (by simp [hq])) hnd.2
    refine ⟨l, ?_, by simpa using e2, ?_, ?_⟩
    · rw [List.foldlM_cons, if_pos hp]; exact e1
    · intro q hq
      simp only [List.mem_cons] at hq
      rcases hq with rfl | hq
      · rw [e4 _ hnd.1, List.getElem?_set_self hp]
      · exact e3 q hq
    · intro i hi
      simp only [List.map_cons, List.mem_cons, not_or] at hi
      rw [e4 i hi.2, List.getElem?_set_ne (Ne.symm hi.1)]

theorem fill_panic (pairs : List (Nat × EnumVal)) : ∀ (acc : List EnumVal), (∃ p ∈ pairs, acc.length ≤ p.1) →
    pairs.foldlM (fun l p => if p.1 < l.length then Out.ok (l.set p.1 p.2) else .panic) acc = .panic := by
  induction pairs with
  | nil => rintro acc ⟨p, hp, _⟩; simp at hp
  | cons p ps ih =>
    rintro acc ⟨q, hq, hge⟩
    rw [List.foldlM_cons]
    by_cases hp : p.1 < acc.length
    · rw [if_pos hp]
      simp only [List.mem_cons] at hq
      rcases hq with rfl | hq
      · omega
      · exact ih _ ⟨q, hq, by simpa using hge⟩
    · rw [if_neg hp]; rfl

theorem fill_ok {pairs : List (Nat × EnumVal)} (h : (pairs.map (·.1)).Perm (List.range pairs.length)) :
    ∃ l, fill pairs = .ok l ∧ l.Perm (pairs.map (·.2)) := by
  obtain ⟨hlt, hnd⟩ := (perm_range (by simp)).2 h
  obtain ⟨l, e1, e2, e3, _⟩ := fill_fold pairs (List.replicate pairs.length ⟨[], [], 0⟩)
    (fun p hp => by simpa using hlt p.1 (List.mem_map.2 ⟨p, hp, rfl⟩)) hnd
  refine ⟨l, e1, ?_⟩
  have hl : l.length = pairs.length := by simpa using e2
  have h1 : l.map some = (List.range pairs.length).map fun i => l[i]? := by
    apply List.ext_getElem
    · simp [hl]
    · intro i a b; simp at a; simp [a]
  have h2 : (pairs.map (·.1)).map (fun i => l[i]?) = (pairs.map (·.2)).map some := by
    rw [List.map_map, List.map_map]
    apply List.map_congr_left
    intro p hp
    exact e3 p hp
  have h3 : (l.map some).Perm ((pairs.map (·.2)).map some) := by
    rw [h1, ← h2]; exact (h.map _).symm
  have h4 := h3.filterMap id
  simpa using h4

theorem fill_fails {pairs : List (Nat × EnumVal)} (hnd : (pairs.map (·.1)).Nodup)
    (h : ¬ (pairs.map (·.1)).Perm (List.range pairs.length)) : fill pairs = .panic := by
  unfold fill
  apply fill_panic
  apply Classical.byContradiction
  intro hno
  apply h
  refine (perm_range (by simp)).1 ⟨?_, hnd⟩
  intro x hx
  obtain ⟨p, hp, rfl⟩ := List.mem_map.1 hx
  apply Classical.byContradiction
  intro hge
  exact hno ⟨p, hp, by simp; omega⟩

theorem strLe_total : ∀ a b : Str, (strLe a b || strLe b a) = true
  | [], _ => rfl
  | _ :: _, [] => rfl
  | a :: s, b :: t => by
    have ih := strLe_total s t
    simp only [strLe, Bool.or_eq_true, decide_eq_true_eq, Bool.and_eq_true, beq_iff_eq] at ih ⊢
    rcases Nat.lt_trichotomy a.toNat b.toNat with h | h | h
    · exact Or.inl (Or.inl h)
    · have : a = b := UInt8.toNat_inj.1 h
      subst this
      rcases ih with ih | ih
      · exact Or.inl (Or.inr ⟨rfl, ih⟩)
      · exact Or.inr (Or.inr ⟨rfl, ih⟩)
    · exact Or.inr (Or.inl h)

theorem strLe_trans : ∀ a b c : Str, strLe a b = true → strLe b c = true → strLe a c = true
  | [], _, _, _, _ => rfl
  | _ :: _, [], _, h, _ => by simp [strLe] at h
  | _ :: _, _ :: _, [], _, h => by simp [strLe] at h
  | a :: s, b :: t, c :: r, h1, h2 => by
    simp only [strLe, Bool.or_eq_true, decide_eq_true_eq, Bool.and_eq_true, beq_iff_eq] at h1 h2 ⊢
    rcases h1 with h1 | ⟨rfl, h1⟩
    · rcases h2 with h2 | ⟨rfl, h2⟩
      · exact Or.inl (UInt8.lt_trans h1 h2)
      · exact Or.inl h1
    · rcases h2 with h2 | ⟨rfl, h2⟩
      · exact Or.inl h2
      · exact Or.inr ⟨rfl, strLe_trans s t r h1 h2⟩

theorem strLe_antisymm : ∀ a b : Str, strLe a b = true → strLe b a = true → a = b
  | [], [], _, _ => rfl
  | [], _ :: _, _, h => by simp [strLe] at h
  | _ :: _, [], h, _ => by simp [strLe] at h
  | a :: s, b :: t, h1, h2 => by
    simp only [strLe, Bool.or_eq_true, decide_eq_true_eq, Bool.and_eq_true, beq_iff_eq] at h1 h2
    rcases h1 with h1 | ⟨rfl, h1⟩
    · rcases h2 with h2 | ⟨rfl, h2⟩
      · exact absurd h1 (UInt8.lt_asymm h2)
      · exact absurd h1 (UInt8.lt_irrefl _)
    · rcases h2 with h2 | ⟨_, h2⟩
      · exact absurd h2 (UInt8.lt_irrefl _)
      · rw [strLe_antisymm s t h1 h2]

end Claw.Idl
