import Verif.Spec.GenGo
import Verif.Lemmas.IdlTypes

/-! # Lemmas on generated names -/

namespace Claw.GenGo

open Claw.Idl

/-- The check on lists of affixes under which names that are `Free` keep apart. -/
def affixesOk (pres sufs : List String) : Bool :=
  (("" :: pres).all fun p => ("" :: pres).all fun p' =>
    (p == p') || !((lit p).isPrefixOf (lit p')) ||
      (let q := (lit p').drop (lit p).length
       (pres.any fun x => (lit x).isPrefixOf q) &&
        (List.range q.length).all fun k => (k == 0) || ("" :: sufs).all fun s =>
          !((q.drop k).isPrefixOf (lit s)) ||
            (let r := (lit s).drop (q.drop k).length
             ("" :: sufs).all fun s' => !((lit s').isSuffixOf r) ||
              (let m := r.take (r.length - (lit s').length)
               (m == []) || sufs.any fun y => (lit y).isSuffixOf m)))) &&
  (("" :: sufs).all fun s => ("" :: sufs).all fun s' =>
    (s == s') || !((lit s').isSuffixOf (lit s)) ||
      (sufs.any fun y => (lit y).isSuffixOf ((lit s).take ((lit s).length - (lit s').length))))

theorem append_eq_cases {a b c d : Str} (h : a ++ b = c ++ d) :
    (∃ e, c = a ++ e ∧ b = e ++ d) ∨ (∃ e, a = c ++ e ∧ d = e ++ b) := by
  rcases List.append_eq_append_iff.1 h with ⟨e, h1, h2⟩ | ⟨e, h1, h2⟩
  · exact Or.inl ⟨e, h1, h2⟩
  · exact Or.inr ⟨e, h1, h2⟩

theorem suffix_apart {pres sufs : List String} {r r' : List Str} {n n' : Str} (ok : affixesOk pres sufs = true)
    (hn : Free pres sufs r n) (hn' : Free pres sufs r' n') {s s' : String} (hs : s ∈ "" :: sufs) (hs' : s' ∈ "" :: sufs)
    (h : n ++ lit s = n' ++ lit s') : n = n' ∧ s = s' := by
  have main : ∀ {n n' : Str} {r'} {s s' : String}, Free pres sufs r' n' → s ∈ "" :: sufs → s' ∈ "" :: sufs → ∀ e, n' = n ++ e →
      lit s = e ++ lit s' → s = s' := by
    intro n n' r' s s' hn' hs hs' e h1 h2
    simp only [affixesOk, Bool.and_eq_true, List.all_eq_true] at ok
    have := ok.2 s hs s' hs'
    simp only [Bool.or_eq_true, beq_iff_eq, Bool.not_eq_true'] at this
    rcases this with (this | this) | this
    · exact this
    · exfalso
      have : lit s' <:+ lit s := ⟨e, h2.symm⟩
      rw [← List.isSuffixOf_iff_suffix] at this
      simp_all
    · exfalso
      simp only [List.any_eq_true, List.isSuffixOf_iff_suffix] at this
      obtain ⟨y, hy, hy2⟩ := this
      have he : (lit s).take ((lit s).length - (lit s').length) = e := by
        rw [h2, List.length_append]
        simp
      rw [he] at hy2
      exact hn'.suf y hy (h1 ▸ hy2.trans (List.suffix_append n e))
  rcases append_eq_cases h with ⟨e, h1, h2⟩ | ⟨e, h1, h2⟩
  · have := main hn' hs hs' e h1 h2
    subst this
    have : e = [] := by
      have := congrArg List.length h2; simp at this; exact this
    subst this; simp at h1; exact ⟨h1.symm, rfl⟩
  · have := main hn hs' hs e h1 h2
    subst this
    have : e = [] := by
      have := congrArg List.length h2; simp at this; exact this
    subst this; simp at h1; exact ⟨h1, rfl⟩

theorem affix_apart {pres sufs : List String} {r r' : List Str} {n n' : Str} (ok : affixesOk pres sufs = true)
    (hn : Free pres sufs r n) (hn' : Free pres sufs r' n') {p p' s s' : String} (hp : p ∈ "" :: pres) (hp' : p' ∈ "" :: pres)
    (hs : s ∈ "" :: sufs) (hs' : s' ∈ "" :: sufs) (h : lit p ++ (n ++ lit s) = lit p' ++ (n' ++ lit s')) :
    p = p' ∧ n = n' ∧ s = s' := by
  have main : ∀ {n n' : Str} {r r'} {p p' s s' : String}, Free pres sufs r n → Free pres sufs r' n' → p ∈ "" :: pres →
      p' ∈ "" :: pres → s ∈ "" :: sufs → s' ∈ "" :: sufs → ∀ e, lit p' = lit p ++ e → n ++ lit s = e ++ (n' ++ lit s') → p = p' := by
    intro n n' r r' p p' s s' hn hn' hp hp' hs hs' e h1 h2
    have hok := ok
    simp only [affixesOk, Bool.and_eq_true, List.all_eq_true] at hok
    have := hok.1 p hp p' hp'
    simp only [Bool.or_eq_true, beq_iff_eq, Bool.not_eq_true'] at this
    rcases this with (this | this) | this
    · exact this
    · exfalso
      have : lit p <+: lit p' := ⟨e, h1.symm⟩
      rw [← List.isPrefixOf_iff_prefix] at this
      simp_all
    · exfalso
      have he : (lit p').drop (lit p).length = e := by rw [h1]; simp
      rw [he] at this
      simp only [Bool.and_eq_true, List.any_eq_true, List.isPrefixOf_iff_prefix, List.all_eq_true, List.mem_range,
        Bool.or_eq_true, beq_iff_eq, Bool.not_eq_true'] at this
      obtain ⟨⟨x, hx, hx2⟩, hk⟩ := this
      rcases append_eq_cases h2 with ⟨g, g1, g2⟩ | ⟨g, g1, g2⟩
      · -- the name ends inside the prefix
        have hlen : n.length < e.length ∨ g = [] := by
          rw [g1]; cases g <;> simp
        rcases hlen with hlen | hg
        · have h0 : n.length ≠ 0 := by
            have := hn.ne
            cases n <;> simp_all
          rcases hk n.length hlen with hz | hz
          · exact h0 hz
          · have hd : e.drop n.length = g := by rw [g1]; simp
            rw [hd] at hz
            rcases hz s hs with hz | hz
            · have : g <+: lit s := ⟨_, g2.symm⟩
              rw [← List.isPrefixOf_iff_prefix] at this
              simp_all
            · have hr : (lit s).drop g.length = n' ++ lit s' := by rw [g2]; simp
              have hm := hz s' hs'
              rw [hr] at hm
              have ht : (n' ++ lit s').take ((n' ++ lit s').length - (lit s').length) = n' := by simp
              rw [ht] at hm
              rcases hm with hm | hm | ⟨y, hy, hm⟩
              · have : lit s' <:+ n' ++ lit s' := List.suffix_append _ _
                rw [← List.isSuffixOf_iff_suffix] at this
                simp_all
              · exact hn'.ne hm
              · exact hn'.suf y hy (List.isSuffixOf_iff_suffix.1 hm)
        · subst hg
          simp at g1
          exact hn.pre x hx (g1 ▸ hx2)
      · exact hn.pre x hx (g1 ▸ hx2.trans (List.prefix_append e g))
  rcases append_eq_cases h with ⟨e, h1, h2⟩ | ⟨e, h1, h2⟩
  · have := main hn hn' hp hp' hs hs' e h1 h2
    subst this
    simp only [List.append_cancel_left_eq] at h
    have := suffix_apart ok hn hn' hs hs' h
    exact ⟨rfl, this⟩
  · have := main hn' hn hp' hp hs' hs e h1 h2
    subst this
    simp only [List.append_cancel_left_eq] at h
    have := suffix_apart ok hn hn' hs hs' h
    exact ⟨rfl, this⟩

/-! ## Methods -/

def fieldPres : List String := ["Set", "IsSet", "SafeGet"]
def fieldSufs : List String :=
  ["List", "Len", "Get", "Append", "AppendRaw", "Map", "Set", "GetRaw", "ListLen", "Delete", "Has", "Raw"]

theorem field_affixes : affixesOk fieldPres fieldSufs = true := by decide +kernel

theorem fieldForms_ok (f : Field) : (fieldForms f).Nodup ∧ ("IsSet", "") ∉ fieldForms f ∧
    ∀ p ∈ fieldForms f, p.1 ∈ "" :: fieldPres ∧ p.2 ∈ "" :: fieldSufs := by
  have hm : ∀ l : List (String × String), l ∈ [[], [("", ""), ("SafeGet", ""), ("Set", "")],
      [("", "List"), ("", "Len"), ("", "Get"), ("", "Append"), ("", "AppendRaw")],
      [("", "Map"), ("", "Get"), ("", "Set"), ("", "Delete"), ("", "Has"), ("", "Len")],
      [("", "Map"), ("", "Get"), ("", "GetRaw"), ("", "Set"), ("", "Delete"), ("", "Has"), ("", "Len")],
      [("", "Map"), ("", "Get"), ("", "GetRaw"), ("", "ListLen"), ("", "Set"), ("", "Delete"), ("", "Has"), ("", "Len")],
      [("", ""), ("", "Raw"), ("Set", ""), ("Set", "Raw")], [("", "Len"), ("", "Get"), ("", "GetRaw"), ("Set", ""), ("Set", "Raw")],
      [("", ""), ("Set", "")]] →
      l.Nodup ∧ ("IsSet", "") ∉ l ∧ ∀ p ∈ l, p.1 ∈ "" :: fieldPres ∧ p.2 ∈ "" :: fieldSufs := by
    decide +kernel
  apply hm
  unfold fieldForms
  cases f.type <;> try (simp; done)
  rcases f.map with _ | (⟨k, v, i⟩ | ⟨k, m⟩)
  · simp
  · by_cases h1 : i = []
    · by_cases h2 : v = .any
      · simp [h1, h2]
      · by_cases h3 : v = .listAny <;> simp [h1, h2, h3]
    · simp [h1]
  · simp

/-- The forms of the methods of a field with that of IsSet. -/
def allForms (isSet : Bool) (f : Field) : List (String × String) :=
  fieldForms f ++ if isSet && decide (f.type ≠ .unknown) then [("IsSet", "")] else []

theorem allForms_ok (isSet : Bool) (f : Field) : (allForms isSet f).Nodup ∧
    ∀ p ∈ allForms isSet f, p.1 ∈ "" :: fieldPres ∧ p.2 ∈ "" :: fieldSufs := by
  obtain ⟨h1, h2, h3⟩ := fieldForms_ok f
  unfold allForms
  split
  · refine ⟨?_, ?_⟩
    · rw [List.nodup_append]
      refine ⟨h1, by simp, ?_⟩
      intro a ha b hb
      simp at hb; subst hb
      rintro rfl; exact h2 ha
    · intro p hp
      rcases List.mem_append.1 hp with hp | hp
      · exact h3 p hp
      · simp at hp; subst hp; decide
  · rw [List.append_nil]; exact ⟨h1, h3⟩

theorem fieldMethods_eq {isSet : Bool} {sname : Str} {f : Field} (h : isSet = true → f.type ≠ .int8) :
    fieldMethods isSet sname f = (allForms isSet f).map fun p => ⟨some sname, withAffixes f.name p⟩ := by
  unfold fieldMethods allForms
  rw [List.map_append]
  congr 1
  split
  · rename_i hc
    simp only [Bool.and_eq_true, decide_eq_true_eq] at hc
    simp only [isSetRecv, if_neg (h hc.1), List.map_cons, List.map_nil, withAffixes]
    have : lit "" = [] := by decide
    rw [this]; simp
  · rfl

theorem structMethods_nodup {isSet : Bool} {s : Str × List Field} (hd : (s.2.map (·.name)).Nodup)
    (hf : ∀ f ∈ s.2, FreeField f.name) (h8 : isSet = true → ∀ f ∈ s.2, f.type ≠ .int8) :
    (structMethods isSet s).Nodup ∧ ∀ d ∈ structMethods isSet s, d.recv = some s.1 := by
  have e : ∀ f ∈ s.2, fieldMethods isSet s.1 f = (allForms isSet f).map fun p => ⟨some s.1, withAffixes f.name p⟩ :=
    fun f hm => fieldMethods_eq fun hi => h8 hi f hm
  have e2 : ∀ f ∈ s.2, ∀ d ∈ fieldMethods isSet s.1 f, ∃ p ∈ allForms isSet f, d = ⟨some s.1, withAffixes f.name p⟩ := by
    intro f hm d hd
    rw [e f hm] at hd
    obtain ⟨p, h1, h2⟩ := List.mem_map.1 hd
    exact ⟨p, h1, h2.symm⟩
  refine ⟨?_, ?_⟩
  · unfold structMethods
    rw [List.nodup_append]
    refine ⟨?_, ?_, ?_⟩
    · simp only [List.Nodup, List.pairwise_map]
      exact (show fixedMethods.Nodup by decide +kernel).imp fun hne he => hne (Decl.mk.inj he).2
    · unfold List.Nodup
      rw [List.pairwise_flatMap]
      refine ⟨?_, ?_⟩
      · intro f hm
        rw [e f hm, List.pairwise_map]
        refine (allForms_ok isSet f).1.imp_of_mem ?_
        intro p q hp hq hne he
        obtain ⟨p1, p2⟩ := (allForms_ok isSet f).2 p hp
        obtain ⟨q1, q2⟩ := (allForms_ok isSet f).2 q hq
        obtain ⟨a, _, c⟩ := affix_apart field_affixes (hf f hm) (hf f hm) p1 q1 p2 q2 (Decl.mk.inj he).2
        exact hne (Prod.ext a c)
      · rw [List.nodup_iff_pairwise_ne, List.pairwise_map] at hd
        refine hd.imp_of_mem ?_
        intro f g hfm hgm hne x hx y hy hxy
        obtain ⟨p, hp, rfl⟩ := e2 f hfm x hx
        obtain ⟨q, hq, rfl⟩ := e2 g hgm y hy
        obtain ⟨p1, p2⟩ := (allForms_ok isSet f).2 p hp
        obtain ⟨q1, q2⟩ := (allForms_ok isSet g).2 q hq
        exact hne (affix_apart field_affixes (hf f hfm) (hf g hgm) p1 q1 p2 q2 (Decl.mk.inj hxy).2).2.1
    · intro a ha b hb hab
      obtain ⟨m, hm, rfl⟩ := List.mem_map.1 ha
      obtain ⟨f, hfm, hb⟩ := List.mem_flatMap.1 hb
      obtain ⟨p, hp, rfl⟩ := e2 f hfm b hb
      obtain ⟨p1, p2⟩ := (allForms_ok isSet f).2 p hp
      have := (hf f hfm).reserved p.1 p1 p.2 p2
      apply this
      have h := (Decl.mk.inj hab).2
      simp only [withAffixes] at h
      rw [← h]
      exact hm
  · intro d hd
    rcases List.mem_append.1 hd with hd | hd
    · obtain ⟨m, _, rfl⟩ := List.mem_map.1 hd; rfl
    · obtain ⟨f, hfm, hb⟩ := List.mem_flatMap.1 hd
      obtain ⟨p, hp, rfl⟩ := e2 f hfm d hb
      rfl

/-! ## Names at package level -/

def namePres : List String := ["New", "XXXNew", "XXXTypeHash", "XXXMapping", "XXXStructDescr", "XXXEnumGroup"]
def nameSufs : List String := ["From", "Raw", "FromRaw", "ByName", "ByValue"]

theorem name_affixes : affixesOk namePres nameSufs = true := by decide +kernel

/-- The names of a schema. -/
def userNames (i : Input) : List Str := i.enums.map (·.1) ++ i.enums.flatMap (·.2) ++ i.structs.map (·.1)

/-- The names at package level that depend on the schema, before the affixes are put on. -/
def nameForms (i : Input) : List (Str × (String × String)) :=
  (i.enums.flatMap fun e => enumForms.map (fun p => (e.1, p)) ++ e.2.map fun n => (n, ("", ""))) ++
  i.structs.flatMap fun s => structForms.map fun p => (s.1, p)

theorem lit_empty : lit "" = [] := by decide

theorem packageNames_eq (i : Input) :
    packageNames i = fixedNames (!i.enums.isEmpty) ++ (nameForms i).map fun t => withAffixes t.1 t.2 := by
  unfold packageNames nameForms
  rw [List.append_assoc, List.map_append, List.map_flatMap, List.map_flatMap]
  congr 2
  apply congrArg (fun g => List.flatMap g i.enums)
  funext e
  rw [List.map_append, List.map_map, List.map_map]
  have h : ((fun t : Str × (String × String) => withAffixes t.1 t.2) ∘ fun n => (n, ("", ""))) = id := by
    funext n; simp [withAffixes, lit_empty]
  rw [h]
  simp [Function.comp_def]

theorem nameForms_mem {i : Input} {t : Str × (String × String)} (h : t ∈ nameForms i) :
    t.1 ∈ userNames i ∧ t.2.1 ∈ "" :: namePres ∧ t.2.2 ∈ "" :: nameSufs := by
  have hs : ∀ p ∈ structForms, p.1 ∈ "" :: namePres ∧ p.2 ∈ "" :: nameSufs := by decide +kernel
  have he : ∀ p ∈ enumForms, p.1 ∈ "" :: namePres ∧ p.2 ∈ "" :: nameSufs := by decide +kernel
  unfold nameForms at h
  unfold userNames
  rcases List.mem_append.1 h with h | h
  · obtain ⟨e, h1, h2⟩ := List.mem_flatMap.1 h
    rcases List.mem_append.1 h2 with h2 | h2
    · obtain ⟨p, hp, rfl⟩ := List.mem_map.1 h2
      exact ⟨List.mem_append_left _ (List.mem_append_left _ (List.mem_map.2 ⟨e, h1, rfl⟩)), he p hp⟩
    · obtain ⟨n, hn, rfl⟩ := List.mem_map.1 h2
      exact ⟨List.mem_append_left _ (List.mem_append_right _ (List.mem_flatMap.2 ⟨e, h1, hn⟩)), by simp⟩
  · obtain ⟨s, h1, h2⟩ := List.mem_flatMap.1 h
    obtain ⟨p, hp, rfl⟩ := List.mem_map.1 h2
    exact ⟨List.mem_append_right _ (List.mem_map.2 ⟨s, h1, rfl⟩), hs p hp⟩

theorem map_pair_nodup {n : Str} {l : List (String × String)} (h : l.Nodup) : (l.map fun p => (n, p)).Nodup := by
  simp only [List.Nodup, List.pairwise_map]
  exact h.imp fun hne he => hne (Prod.mk.inj he).2

theorem nameForms_nodup {i : Input} (h : (userNames i).Nodup) : (nameForms i).Nodup := by
  unfold userNames at h
  rw [List.nodup_append, List.nodup_append] at h
  obtain ⟨⟨h1, h2, h3⟩, h4, h5⟩ := h
  unfold nameForms
  rw [List.nodup_append]
  have h2' := h2
  simp only [List.Nodup] at h2'
  rw [List.pairwise_flatMap] at h2'
  have hpair : i.enums.Pairwise fun a b => a.1 ≠ b.1 := by
    rw [List.nodup_iff_pairwise_ne, List.pairwise_map] at h1
    exact h1
  refine ⟨?_, ?_, ?_⟩
  · unfold List.Nodup
    rw [List.pairwise_flatMap]
    refine ⟨?_, ?_⟩
    · intro e he
      show List.Nodup _
      rw [List.nodup_append]
      refine ⟨map_pair_nodup (by decide +kernel), ?_, ?_⟩
      · simp only [List.Nodup, List.pairwise_map]
        exact (h2'.1 e he).imp fun hne hh => hne (Prod.mk.inj hh).1
      · intro a ha b hb hab
        obtain ⟨p, _, rfl⟩ := List.mem_map.1 ha
        obtain ⟨n, hn, rfl⟩ := List.mem_map.1 hb
        exact h3 e.1 (List.mem_map.2 ⟨e, he, rfl⟩) n (List.mem_flatMap.2 ⟨e, he, hn⟩) (Prod.mk.inj hab).1
    · have := hpair.and h2'.2
      refine this.imp_of_mem ?_
      intro a b ha hb hne x hx y hy hxy
      subst hxy
      have n1 : x.1 = a.1 ∨ x.1 ∈ a.2 := by
        rcases List.mem_append.1 hx with h | h
        · obtain ⟨p, _, rfl⟩ := List.mem_map.1 h; exact Or.inl rfl
        · obtain ⟨p, hp, rfl⟩ := List.mem_map.1 h; exact Or.inr hp
      have n2 : x.1 = b.1 ∨ x.1 ∈ b.2 := by
        rcases List.mem_append.1 hy with h | h
        · obtain ⟨p, _, rfl⟩ := List.mem_map.1 h; exact Or.inl rfl
        · obtain ⟨p, hp, rfl⟩ := List.mem_map.1 h; exact Or.inr hp
      rcases n1 with n1 | n1 <;> rcases n2 with n2 | n2
      · exact hne.1 (n1.symm.trans n2)
      · exact h3 a.1 (List.mem_map.2 ⟨a, ha, rfl⟩) x.1 (List.mem_flatMap.2 ⟨b, hb, n2⟩) n1.symm
      · exact h3 b.1 (List.mem_map.2 ⟨b, hb, rfl⟩) x.1 (List.mem_flatMap.2 ⟨a, ha, n1⟩) n2.symm
      · exact hne.2 x.1 n1 x.1 n2 rfl
  · unfold List.Nodup
    rw [List.pairwise_flatMap]
    refine ⟨fun s _ => map_pair_nodup (by decide +kernel), ?_⟩
    rw [List.nodup_iff_pairwise_ne, List.pairwise_map] at h4
    refine h4.imp ?_
    intro a b hne x hx y hy hxy
    subst hxy
    obtain ⟨p, _, rfl⟩ := List.mem_map.1 hx
    obtain ⟨q, _, hq⟩ := List.mem_map.1 hy
    exact hne (Prod.mk.inj hq).1.symm
  · intro a ha b hb hab
    subst hab
    obtain ⟨e, he, ha⟩ := List.mem_flatMap.1 ha
    obtain ⟨s, hs, hb⟩ := List.mem_flatMap.1 hb
    obtain ⟨p, _, rfl⟩ := List.mem_map.1 hb
    refine h5 s.1 ?_ s.1 (List.mem_map.2 ⟨s, hs, rfl⟩) rfl
    rcases List.mem_append.1 ha with h | h
    · obtain ⟨q, _, hq⟩ := List.mem_map.1 h
      rw [← (Prod.mk.inj hq).1]
      exact List.mem_append_left _ (List.mem_map.2 ⟨e, he, rfl⟩)
    · obtain ⟨n, hn, hq⟩ := List.mem_map.1 h
      rw [← (Prod.mk.inj hq).1]
      exact List.mem_append_right _ (List.mem_flatMap.2 ⟨e, he, hn⟩)

theorem packageNames_nodup {i : Input} (h : (userNames i).Nodup) (hf : ∀ n ∈ userNames i, FreeName n) :
    (packageNames i).Nodup := by
  rw [packageNames_eq, List.nodup_append]
  refine ⟨?_, ?_, ?_⟩
  · cases (!i.enums.isEmpty) <;> decide +kernel
  · simp only [List.Nodup, List.pairwise_map]
    refine (nameForms_nodup h).imp_of_mem ?_
    intro a b ha hb hne he
    obtain ⟨a1, a2, a3⟩ := nameForms_mem ha
    obtain ⟨b1, b2, b3⟩ := nameForms_mem hb
    obtain ⟨x, y, z⟩ := affix_apart name_affixes (hf _ a1) (hf _ b1) a2 b2 a3 b3 he
    exact hne (Prod.ext y (Prod.ext x z))
  · intro a ha b hb hab
    subst hab
    obtain ⟨t, ht, rfl⟩ := List.mem_map.1 hb
    obtain ⟨b1, b2, b3⟩ := nameForms_mem ht
    refine (hf _ b1).reserved _ b2 _ b3 ?_
    have hsub : ∀ b : Bool, ∀ x ∈ fixedNames b, x ∈ [lit "SyntaxVersion", lit "_package", lit "_packagePath",
        lit "XXXStructDescrs", lit "XXXPackageDescr", lit "PackageDescr", lit "XXXEnumGroups"] := by
      decide +kernel
    exact hsub _ _ ha

theorem mem_names_enum {i : Input} {e : Str × List Str} (h : e ∈ i.enums) : e.1 ∈ packageNames i := by
  unfold packageNames
  refine List.mem_append_left _ (List.mem_append_right _ (List.mem_flatMap.2 ⟨e, h, List.mem_append_left _ ?_⟩))
  exact List.mem_map.2 ⟨("", ""), by decide, by simp [withAffixes, lit_empty]⟩

theorem mem_names_group {i : Input} {e : Str × List Str} (h : e ∈ i.enums) : groupVar e.1 ∈ packageNames i := by
  unfold packageNames
  refine List.mem_append_left _ (List.mem_append_right _ (List.mem_flatMap.2 ⟨e, h, List.mem_append_left _ ?_⟩))
  exact List.mem_map.2 ⟨("XXXEnumGroup", ""), by decide, by simp [withAffixes, lit_empty, groupVar]⟩

theorem mem_names_struct {i : Input} {s : Str × List Field} (h : s ∈ i.structs) :
    s.1 ∈ packageNames i ∧ mappingVar s.1 ∈ packageNames i ∧ descrVar s.1 ∈ packageNames i := by
  unfold packageNames
  have key : ∀ p ∈ structForms, withAffixes s.1 p ∈ fixedNames (!i.enums.isEmpty) ++
      (i.enums.flatMap fun e => enumForms.map (withAffixes e.1) ++ e.2) ++
      i.structs.flatMap fun s => structForms.map (withAffixes s.1) := by
    intro p hp
    exact List.mem_append_right _ (List.mem_flatMap.2 ⟨s, h, List.mem_map.2 ⟨p, hp, rfl⟩⟩)
  refine ⟨?_, ?_, ?_⟩
  · have := key ("", "") (by decide)
    simpa [withAffixes, lit_empty] using this
  · have := key ("XXXMapping", "") (by decide)
    simpa [withAffixes, lit_empty, mappingVar] using this
  · have := key ("XXXStructDescr", "") (by decide)
    simpa [withAffixes, lit_empty, descrVar] using this

theorem decl_none {i : Input} {n : Str} : (⟨none, n⟩ : Decl) ∈ (generate i).decls ↔ n ∈ packageNames i := by
  unfold generate
  simp only [List.mem_append, List.mem_map, List.mem_flatMap]
  constructor
  · rintro ((⟨m, hm, h⟩ | ⟨e, _, m, _, h⟩) | ⟨s, _, hs⟩)
    · rw [← (Decl.mk.inj h).2]; exact hm
    · exact absurd (Decl.mk.inj h).1 (by simp)
    · exfalso
      unfold structMethods fieldMethods at hs
      simp only [List.mem_append, List.mem_map, List.mem_flatMap] at hs
      rcases hs with ⟨m, _, h⟩ | ⟨f, _, ⟨p, _, h⟩ | h⟩
      · exact absurd (Decl.mk.inj h).1 (by simp)
      · exact absurd (Decl.mk.inj h).1 (by simp)
      · split at h
        · simp at h
        · simp at h
  · intro h; exact Or.inl (Or.inl ⟨n, h, rfl⟩)

/-! ## Initialisation -/

/-- A field as it is after its type was settled: it names nothing, or an enum or a struct, and these are of the schema
unless they have a dot. -/
def Settled (i : Input) (f : Field) : Prop :=
  (f.identName = [] ∧ f.isEnum = false ∧ f.type ≠ .struct ∧ f.type ≠ .listStructs) ∨
  (f.isEnum = true ∧ f.type ≠ .struct ∧ f.type ≠ .listStructs ∧ ((46 : UInt8) ∈ f.identName ∨ f.identName ∈ i.enums.map (·.1))) ∨
  (f.isEnum = false ∧ (f.type = .struct ∨ f.type = .listStructs) ∧
    ((46 : UInt8) ∈ f.identName ∨ f.identName ∈ i.structs.map (·.1)))

theorem mem_fieldMappingRefs {f : Field} {r : Str} : r ∈ fieldMappingRefs f ↔ ∃ b, HasStruct f b ∧ r = mappingVar b := by
  unfold fieldMappingRefs HasStruct isExternal
  cases ht : f.type <;> simp
  · by_cases hd : (46 : UInt8) ∈ f.identName
    · simp [hd]
    · simp [hd]
      constructor
      · rintro rfl; exact ⟨f.identName, ⟨rfl, hd⟩, rfl⟩
      · rintro ⟨b, ⟨rfl, _⟩, rfl⟩; rfl
  · by_cases hd : (46 : UInt8) ∈ f.identName
    · simp [hd]
    · simp [hd]
      constructor
      · rintro rfl; exact ⟨f.identName, ⟨rfl, hd⟩, rfl⟩
      · rintro ⟨b, ⟨rfl, _⟩, rfl⟩; rfl
  · rcases hm : f.map with _ | (⟨k, v, i⟩ | ⟨k, m⟩)
    · simp
    · by_cases hi : i = []
      · simp [hi]
      · simp [hi]
        constructor
        · rintro rfl; exact ⟨i, ⟨hi, rfl⟩, rfl⟩
        · rintro ⟨b, ⟨_, rfl⟩, rfl⟩; rfl
    · simp

def tag (x : Str) : Option UInt8 := x[3]?

theorem tag_mapping (n : Str) : tag (mappingVar n) = some 77 := rfl
theorem tag_descr (n : Str) : tag (descrVar n) = some 83 := rfl
theorem tag_group (n : Str) : tag (groupVar n) = some 69 := rfl
theorem tag_structs : tag (lit "XXXStructDescrs") = some 83 := rfl
theorem tag_groups : tag (lit "XXXEnumGroups") = some 69 := rfl
theorem tag_pkg : tag (lit "XXXPackageDescr") = some 80 := rfl

theorem mappingVar_inj {a b : Str} (h : mappingVar a = mappingVar b) : a = b := by
  simpa [mappingVar] using h
theorem descrVar_inj {a b : Str} (h : descrVar a = descrVar b) : a = b := by
  simpa [descrVar] using h
theorem groupVar_inj {a b : Str} (h : groupVar a = groupVar b) : a = b := by
  simpa [groupVar] using h

theorem structs_eq : lit "XXXStructDescrs" = descrVar (lit "s") := by decide
theorem groups_eq : lit "XXXEnumGroups" = groupVar (lit "s") := by decide

/-- What an initialiser can refer to. -/
theorem refers_iff {i : Input} {a b : Str} : (generate i).Refers a b ↔
    (∃ s ∈ i.structs, a = mappingVar s.1 ∧ ∃ f ∈ s.2, ∃ x, HasStruct f x ∧ b = mappingVar x) ∨
    (∃ s ∈ i.structs, a = descrVar s.1 ∧ (b = mappingVar s.1 ∨ ∃ f ∈ s.2, b ∈ fieldDescrRefs f)) ∨
    (a = lit "XXXStructDescrs" ∧ ∃ s ∈ i.structs, b = descrVar s.1) ∨
    (a = lit "XXXPackageDescr" ∧ ((i.enums ≠ [] ∧ b = lit "XXXEnumGroups") ∨ ∃ s ∈ i.structs, b = descrVar s.1)) ∨
    (a = lit "XXXEnumGroups" ∧ ∃ e ∈ i.enums, b = groupVar e.1) := by
  unfold GoPkg.Refers generate packageVars
  simp only [List.mem_append, List.mem_map, List.mem_cons, List.not_mem_nil, or_false, Prod.mk.injEq]
  constructor
  · rintro ⟨refs, ((⟨s, hs, rfl, rfl⟩ | ⟨s, hs, rfl, rfl⟩) | ⟨rfl, rfl⟩ | ⟨rfl, rfl⟩) | h, hb⟩
    · obtain ⟨f, hf, hb⟩ := List.mem_flatMap.1 hb
      exact Or.inl ⟨s, hs, rfl, f, hf, mem_fieldMappingRefs.1 hb⟩
    · rcases List.mem_cons.1 hb with hb | hb
      · exact Or.inr (Or.inl ⟨s, hs, rfl, Or.inl hb⟩)
      · exact Or.inr (Or.inl ⟨s, hs, rfl, Or.inr (List.mem_flatMap.1 hb)⟩)
    · obtain ⟨s, hs, rfl⟩ := List.mem_map.1 hb
      exact Or.inr (Or.inr (Or.inl ⟨rfl, s, hs, rfl⟩))
    · refine Or.inr (Or.inr (Or.inr (Or.inl ⟨rfl, ?_⟩)))
      rcases List.mem_append.1 hb with hb | hb
      · split at hb
        · simp at hb
        · rename_i hne
          simp at hb
          exact Or.inl ⟨by simpa using hne, hb⟩
      · obtain ⟨s, hs, rfl⟩ := List.mem_map.1 hb
        exact Or.inr ⟨s, hs, rfl⟩
    · split at h
      · simp at h
      · simp only [List.mem_cons, Prod.mk.injEq, List.not_mem_nil, or_false] at h
        obtain ⟨rfl, rfl⟩ := h
        obtain ⟨e, he, rfl⟩ := List.mem_map.1 hb
        exact Or.inr (Or.inr (Or.inr (Or.inr ⟨rfl, e, he, rfl⟩)))
  · rintro (⟨s, hs, rfl, f, hf, x, hx, rfl⟩ | ⟨s, hs, rfl, hb⟩ | ⟨rfl, s, hs, rfl⟩ | ⟨rfl, hb⟩ | ⟨rfl, e, he, rfl⟩)
    · exact ⟨_, Or.inl (Or.inl (Or.inl ⟨s, hs, rfl, rfl⟩)), List.mem_flatMap.2 ⟨f, hf, mem_fieldMappingRefs.2 ⟨x, hx, rfl⟩⟩⟩
    · refine ⟨_, Or.inl (Or.inl (Or.inr ⟨s, hs, rfl, rfl⟩)), ?_⟩
      rcases hb with hb | hb
      · exact List.mem_cons.2 (Or.inl hb)
      · exact List.mem_cons.2 (Or.inr (List.mem_flatMap.2 hb))
    · exact ⟨_, Or.inl (Or.inr (Or.inl ⟨rfl, rfl⟩)), List.mem_map.2 ⟨s, hs, rfl⟩⟩
    · refine ⟨_, Or.inl (Or.inr (Or.inr ⟨rfl, rfl⟩)), ?_⟩
      rcases hb with ⟨hne, rfl⟩ | ⟨s, hs, rfl⟩
      · refine List.mem_append_left _ ?_
        rw [if_neg (by simpa using hne)]; simp
      · exact List.mem_append_right _ (List.mem_map.2 ⟨s, hs, rfl⟩)
    · refine ⟨i.enums.map fun e => groupVar e.1, Or.inr ?_, List.mem_map.2 ⟨e, he, rfl⟩⟩
      rw [if_neg (by cases hh : i.enums <;> simp_all)]
      simp

section
variable {i : Input}

theorem edge_mapping {a b : Str} (h : (generate i).Refers (mappingVar a) b) : ∃ c, b = mappingVar c ∧ Holds i.structs a c := by
  rcases refers_iff.1 h with ⟨s, hs, h1, f, hf, x, hx, rfl⟩ | ⟨s, hs, h1, _⟩ | ⟨h1, _⟩ | ⟨h1, _⟩ | ⟨h1, _⟩
  · exact ⟨x, rfl, s.2, mappingVar_inj h1 ▸ hs, f, hf, hx⟩
  all_goals
    have := congrArg tag h1
    simp [tag_mapping, tag_descr, tag_structs, tag_pkg, tag_groups] at this

theorem edge_group {a b : Str} (ha : a ≠ lit "s") : ¬ (generate i).Refers (groupVar a) b := by
  intro h
  rcases refers_iff.1 h with ⟨s, hs, h1, f, hf, x, hx, rfl⟩ | ⟨s, hs, h1, _⟩ | ⟨h1, _⟩ | ⟨h1, _⟩ | ⟨h1, _⟩
  case inr.inr.inr.inr => exact ha (groupVar_inj (h1.trans groups_eq))
  all_goals
    have := congrArg tag h1
    simp [tag_mapping, tag_descr, tag_structs, tag_pkg, tag_group] at this

variable (hs : ∀ s ∈ i.structs, s.1 ≠ lit "s") (he : ∀ e ∈ i.enums, e.1 ≠ lit "s")
  (hset : ∀ s ∈ i.structs, ∀ f ∈ s.2, Settled i f)
include hs he hset

theorem edge_descr {a b : Str} (ha : a ≠ lit "s") (h : (generate i).Refers (descrVar a) b) :
    (∃ c, b = mappingVar c) ∨ (∃ c, c ≠ lit "s" ∧ b = groupVar c) ∨ ∃ c, c ≠ lit "s" ∧ b = descrVar c ∧ Holds i.structs a c := by
  rcases refers_iff.1 h with ⟨s, hs, h1, f, hf, x, hx, rfl⟩ | ⟨s, hms, h1, hb⟩ | ⟨h1, _⟩ | ⟨h1, _⟩ | ⟨h1, _⟩
  case inr.inr.inl => exact absurd (descrVar_inj (h1.trans structs_eq)) ha
  case inr.inl =>
    rcases hb with rfl | ⟨f, hf, hb⟩
    · exact Or.inl ⟨_, rfl⟩
    · unfold fieldDescrRefs isExternal at hb
      have hst := hset s hms f hf
      by_cases hd : (46 : UInt8) ∈ f.identName
      · simp [hd] at hb
      · simp only [hd, decide_false, Bool.false_eq_true, if_false] at hb
        rcases hst with ⟨h2, h3, _⟩ | ⟨h2, h3, h4, h5⟩ | ⟨h2, h3, h4⟩
        · simp [h2, h3] at hb
        · simp [h2] at hb
          rcases h5 with h5 | h5
          · exact absurd h5 hd
          · obtain ⟨e, hem, h6⟩ := List.mem_map.1 h5
            exact Or.inr (Or.inl ⟨f.identName, h6 ▸ he e hem, hb⟩)
        · rcases h4 with h4 | h4
          · exact absurd h4 hd
          · obtain ⟨t, htm, h6⟩ := List.mem_map.1 h4
            simp only [h2, Bool.false_eq_true, if_false] at hb
            split at hb
            · simp at hb
              refine Or.inr (Or.inr ⟨f.identName, h6 ▸ hs t htm, hb, s.2, descrVar_inj h1 ▸ hms, f, hf, Or.inl ⟨h3, rfl, hd⟩⟩)
            · simp at hb
  all_goals
    have := congrArg tag h1
    simp [tag_mapping, tag_descr, tag_structs, tag_pkg, tag_groups] at this

theorem edge_groups {b : Str} (h : (generate i).Refers (lit "XXXEnumGroups") b) : ∃ c, c ≠ lit "s" ∧ b = groupVar c := by
  rcases refers_iff.1 h with ⟨s, hs, h1, f, hf, x, hx, rfl⟩ | ⟨s, hms, h1, hb⟩ | ⟨h1, _⟩ | ⟨h1, _⟩ | ⟨_, e, hem, rfl⟩
  case inr.inr.inr.inr => exact ⟨e.1, he e hem, rfl⟩
  all_goals
    have := congrArg tag h1
    simp [tag_mapping, tag_descr, tag_structs, tag_pkg, tag_groups] at this

theorem edge_structs {b : Str} (h : (generate i).Refers (lit "XXXStructDescrs") b) : ∃ c, c ≠ lit "s" ∧ b = descrVar c := by
  rcases refers_iff.1 h with ⟨s, hs, h1, f, hf, x, hx, rfl⟩ | ⟨s, hms, h1, hb⟩ | ⟨_, s, hms, rfl⟩ | ⟨h1, _⟩ | ⟨h1, _⟩
  case inr.inr.inl => exact ⟨s.1, hs s hms, rfl⟩
  case inr.inl => exact absurd (descrVar_inj (structs_eq.symm.trans h1)).symm (hs s hms)
  all_goals
    have := congrArg tag h1
    simp [tag_mapping, tag_structs, tag_pkg, tag_groups] at this

theorem edge_pkg {b : Str} (h : (generate i).Refers (lit "XXXPackageDescr") b) :
    b = lit "XXXEnumGroups" ∨ ∃ c, c ≠ lit "s" ∧ b = descrVar c := by
  rcases refers_iff.1 h with ⟨s, hs, h1, f, hf, x, hx, rfl⟩ | ⟨s, hms, h1, hb⟩ | ⟨h1, _⟩ | ⟨_, hb⟩ | ⟨h1, _⟩
  case inr.inr.inr.inl =>
    rcases hb with ⟨_, rfl⟩ | ⟨s, hms, rfl⟩
    · exact Or.inl rfl
    · exact Or.inr ⟨s.1, hs s hms, rfl⟩
  all_goals
    have := congrArg tag h1
    simp [tag_mapping, tag_descr, tag_structs, tag_pkg, tag_groups] at this

/-- What a variable depends on, by its kind. -/
theorem depends {a b : Str} (h : Relation.TransGen (generate i).Refers a b) :
    (∀ x, a = mappingVar x → ∃ y, b = mappingVar y ∧ Relation.TransGen (Holds i.structs) x y) ∧
    (∀ x, x ≠ lit "s" → a = descrVar x → (∃ y, b = mappingVar y) ∨ (∃ y, y ≠ lit "s" ∧ b = groupVar y) ∨
      ∃ y, y ≠ lit "s" ∧ b = descrVar y ∧ Relation.TransGen (Holds i.structs) x y) ∧
    (∀ x, x ≠ lit "s" → a ≠ groupVar x) ∧
    (a = lit "XXXEnumGroups" → ∃ y, y ≠ lit "s" ∧ b = groupVar y) ∧
    (a = lit "XXXStructDescrs" ∨ a = lit "XXXPackageDescr" → (∃ y, b = mappingVar y) ∨ (∃ y, b = groupVar y) ∨
      ∃ y, y ≠ lit "s" ∧ b = descrVar y) := by
  induction h with
  | single h =>
    refine ⟨?_, ?_, ?_, ?_, ?_⟩
    · rintro x rfl
      obtain ⟨y, h1, h2⟩ := edge_mapping h
      exact ⟨y, h1, .single h2⟩
    · rintro x hx rfl
      rcases edge_descr hs he hset hx h with h | h | ⟨y, h1, h2, h3⟩
      · exact Or.inl h
      · exact Or.inr (Or.inl h)
      · exact Or.inr (Or.inr ⟨y, h1, h2, .single h3⟩)
    · rintro x hx rfl
      exact edge_group hx h
    · rintro rfl
      exact edge_groups hs he hset h
    · rintro (rfl | rfl)
      · exact Or.inr (Or.inr (edge_structs hs he hset h))
      · rcases edge_pkg hs he hset h with rfl | h
        · exact Or.inr (Or.inl ⟨_, groups_eq⟩)
        · exact Or.inr (Or.inr h)
  | tail hab hbc ih =>
    obtain ⟨i1, i2, i3, i4, i5⟩ := ih
    refine ⟨?_, ?_, i3, ?_, ?_⟩
    · intro x hx
      obtain ⟨y, rfl, h2⟩ := i1 x hx
      obtain ⟨z, h3, h4⟩ := edge_mapping hbc
      exact ⟨z, h3, h2.tail h4⟩
    · intro x hx hax
      rcases i2 x hx hax with ⟨y, rfl⟩ | ⟨y, h1, rfl⟩ | ⟨y, h1, rfl, h3⟩
      · obtain ⟨z, h3, _⟩ := edge_mapping hbc
        exact Or.inl ⟨z, h3⟩
      · exact absurd hbc (edge_group h1)
      · rcases edge_descr hs he hset h1 hbc with h | h | ⟨z, h4, h5, h6⟩
        · exact Or.inl h
        · exact Or.inr (Or.inl h)
        · exact Or.inr (Or.inr ⟨z, h4, h5, h3.tail h6⟩)
    · intro ha
      obtain ⟨y, h1, rfl⟩ := i4 ha
      exact absurd hbc (edge_group h1)
    · intro ha
      rcases i5 ha with ⟨y, rfl⟩ | ⟨y, rfl⟩ | ⟨y, h1, rfl⟩
      · obtain ⟨z, h3, _⟩ := edge_mapping hbc
        exact Or.inl ⟨z, h3⟩
      · by_cases hy : y = lit "s"
        · subst hy
          rw [← groups_eq] at hbc
          obtain ⟨z, _, h3⟩ := edge_groups hs he hset hbc
          exact Or.inr (Or.inl ⟨z, h3⟩)
        · exact absurd hbc (edge_group hy)
      · rcases edge_descr hs he hset h1 hbc with h | ⟨z, _, h⟩ | ⟨z, h4, h5, h6⟩
        · exact Or.inl h
        · exact Or.inr (Or.inl ⟨z, h⟩)
        · exact Or.inr (Or.inr ⟨z, h4, h5⟩)

theorem cycle_iff : (generate i).NoInitCycle ↔ NotRecursive i.structs := by
  constructor
  · intro h a ha
    have lift : ∀ {x y : Str}, Relation.TransGen (Holds i.structs) x y →
        Relation.TransGen (generate i).Refers (mappingVar x) (mappingVar y) := by
      intro x y hxy
      have step : ∀ {x y : Str}, Holds i.structs x y → (generate i).Refers (mappingVar x) (mappingVar y) := by
        rintro x y ⟨fs, h1, f, h2, h3⟩
        exact refers_iff.2 (Or.inl ⟨(x, fs), h1, rfl, f, h2, y, h3, rfl⟩)
      induction hxy with
      | single h => exact .single (step h)
      | tail _ h ih => exact ih.tail (step h)
    exact h _ (lift ha)
  · intro h a ha
    obtain ⟨d1, d2, d3, d4, d5⟩ := depends hs he hset ha
    have hsrc : ∃ b, (generate i).Refers a b := by
      have : ∀ {x y : Str}, Relation.TransGen (generate i).Refers x y → ∃ b, (generate i).Refers x b := by
        intro x y hxy
        induction hxy with
        | single h => exact ⟨_, h⟩
        | tail _ _ ih => exact ih
      exact this ha
    obtain ⟨b, hb⟩ := hsrc
    rcases refers_iff.1 hb with ⟨s, hms, rfl, _⟩ | ⟨s, hms, rfl, _⟩ | ⟨rfl, _⟩ | ⟨rfl, _⟩ | ⟨rfl, _⟩
    · obtain ⟨y, h1, h2⟩ := d1 _ rfl
      exact h _ (mappingVar_inj h1 ▸ h2)
    · rcases d2 _ (hs s hms) rfl with ⟨y, h1⟩ | ⟨y, _, h1⟩ | ⟨y, _, h1, h2⟩
      · have := congrArg tag h1; simp [tag_mapping, tag_descr] at this
      · have := congrArg tag h1; simp [tag_group, tag_descr] at this
      · exact h _ (descrVar_inj h1 ▸ h2)
    · rcases d5 (Or.inl rfl) with ⟨y, h1⟩ | ⟨y, h1⟩ | ⟨y, hy, h1⟩
      · have := congrArg tag h1; simp [tag_mapping, tag_structs] at this
      · have := congrArg tag h1; simp [tag_group, tag_structs] at this
      · exact hy (descrVar_inj (structs_eq.symm.trans h1)).symm
    · rcases d5 (Or.inr rfl) with ⟨y, h1⟩ | ⟨y, h1⟩ | ⟨y, hy, h1⟩
      · have := congrArg tag h1; simp [tag_mapping, tag_pkg] at this
      · have := congrArg tag h1; simp [tag_group, tag_pkg] at this
      · have := congrArg tag h1; simp [tag_descr, tag_pkg] at this
    · obtain ⟨y, hy, h1⟩ := d4 rfl
      exact hy (groupVar_inj (groups_eq.symm.trans h1)).symm

end

/-! ## From the text of a schema -/

theorem mapOut_ok {α β : Type} {f : α → Out β} : ∀ {l : List α} {m : List β}, mapOut f l = .ok m →
    (∀ b ∈ m, ∃ a ∈ l, f a = .ok b) ∧ (∀ a ∈ l, ∃ b ∈ m, f a = .ok b) := by
  intro l
  induction l with
  | nil => intro m h; simp only [mapOut, Out.ok.injEq] at h; subst h; simp
  | cons a l ih =>
    intro m h
    simp only [mapOut, Out.bind_eq_ok, Out.pure_eq, Out.ok.injEq] at h
    obtain ⟨b, h1, bs, h2, rfl⟩ := h
    obtain ⟨i1, i2⟩ := ih h2
    refine ⟨?_, ?_⟩
    · intro x hx
      rcases List.mem_cons.1 hx with rfl | hx
      · exact ⟨a, by simp, h1⟩
      · obtain ⟨y, hy, hf⟩ := i1 x hx
        exact ⟨y, List.mem_cons_of_mem _ hy, hf⟩
    · intro x hx
      rcases List.mem_cons.1 hx with rfl | hx
      · exact ⟨b, by simp, h1⟩
      · obtain ⟨y, hy, hf⟩ := i2 x hx
        exact ⟨y, List.mem_cons_of_mem _ hy, hf⟩

theorem mapOut_map {α β γ : Type} {f : α → Out β} {g : α → γ} {g' : β → γ} (hf : ∀ a b, f a = .ok b → g' b = g a) :
    ∀ {l : List α} {m : List β}, mapOut f l = .ok m → m.map g' = l.map g := by
  intro l
  induction l with
  | nil => intro m h; simp only [mapOut, Out.ok.injEq] at h; subst h; rfl
  | cons a l ih =>
    intro m h
    simp only [mapOut, Out.bind_eq_ok, Out.pure_eq, Out.ok.injEq] at h
    obtain ⟨b, h1, bs, h2, rfl⟩ := h
    simp [ih h2, hf a b h1]

theorem resolve_settled {ids : List (Str × Ident)} {ex : Str → Out (List (Str × Ident))} {f g : Field} (hsh : Shaped ids f)
    (h : resolve ids ex f = .ok g) :
    ((g.identName = [] ∧ g.isEnum = false ∧ g.type ≠ .struct ∧ g.type ≠ .listStructs) ∨
    (g.isEnum = true ∧ g.type ≠ .struct ∧ g.type ≠ .listStructs ∧
      ((46 : UInt8) ∈ g.identName ∨ ∃ size, assocGet g.identName ids = some (.enum size))) ∨
    (g.isEnum = false ∧ (g.type = .struct ∨ g.type = .listStructs) ∧
      ((46 : UInt8) ∈ g.identName ∨ assocGet g.identName ids = some .struct))) ∧ g.type ≠ .unknown ∧ g.name = f.name := by
  unfold resolve at h
  split at h
  · rename_i hne
    simp only [Out.ok.injEq] at h
    subst h
    refine ⟨?_, hne, rfl⟩
    rcases hsh with ⟨h1, h2, h3, h4, h5⟩ | ⟨h1, h2, h3, h4, z, h5⟩ | ⟨h1, h2, h3⟩ | ⟨_, h2⟩
    · exact Or.inl ⟨h1, h2, h3, h4⟩
    · exact Or.inr (Or.inl ⟨h1, h2, h3, Or.inr ⟨z, h5⟩⟩)
    · exact Or.inr (Or.inr ⟨h1, h2, Or.inr h3⟩)
    · exact absurd h2 hne
  · rename_i hu
    have hu : f.type = .unknown := by simpa using hu
    have hen : f.isEnum = false := by
      rcases hsh with ⟨_, _, _, _, h5⟩ | ⟨_, _, _, h4, _⟩ | ⟨_, h2, _⟩ | ⟨h1, _⟩
      · exact absurd hu h5
      · exact absurd hu h4
      · rcases h2 with h2 | h2 <;> rw [hu] at h2 <;> cases h2
      · exact h1
    have fin : ∀ {o : Option Ident} {g : Field}, (match o with
        | some (.enum size) =>
          match enumType size f.isList with
          | some t => Out.ok { f with isEnum := true, type := t }
          | none => .err
        | some .struct => .ok { f with type := structType f.isList }
        | none => .err) = .ok g →
        (∃ size t, o = some (.enum size) ∧ enumType size f.isList = some t ∧ g = { f with isEnum := true, type := t }) ∨
        (o = some .struct ∧ g = { f with type := structType f.isList }) := by
      intro o g h
      split at h
      · rename_i size
        split at h
        · rename_i t ht
          simp only [Out.ok.injEq] at h
          exact Or.inl ⟨size, t, rfl, ht, h.symm⟩
        · simp at h
      · simp only [Out.ok.injEq] at h
        exact Or.inr ⟨rfl, h.symm⟩
      · simp at h
    have enumT : ∀ {size : Nat} {t : FT}, enumType size f.isList = some t → t ≠ .struct ∧ t ≠ .listStructs ∧ t ≠ .unknown := by
      intro size t ht
      unfold enumType at ht
      by_cases e8 : size = 8
      · subst e8; cases hl : f.isList <;> simp [hl] at ht <;> subst ht <;> simp
      · by_cases e16 : size = 16
        · subst e16; cases hl : f.isList <;> simp [hl] at ht <;> subst ht <;> simp
        · simp [e8, e16] at ht
    have conc : ∀ {o : Option Ident}, ((46 : UInt8) ∈ f.identName ∨ o = assocGet f.identName ids) →
        ((∃ size t, o = some (.enum size) ∧ enumType size f.isList = some t ∧ g = { f with isEnum := true, type := t }) ∨
        (o = some .struct ∧ g = { f with type := structType f.isList })) →
        ((g.identName = [] ∧ g.isEnum = false ∧ g.type ≠ .struct ∧ g.type ≠ .listStructs) ∨
        (g.isEnum = true ∧ g.type ≠ .struct ∧ g.type ≠ .listStructs ∧
          ((46 : UInt8) ∈ g.identName ∨ ∃ size, assocGet g.identName ids = some (.enum size))) ∨
        (g.isEnum = false ∧ (g.type = .struct ∨ g.type = .listStructs) ∧
          ((46 : UInt8) ∈ g.identName ∨ assocGet g.identName ids = some .struct))) ∧ g.type ≠ .unknown ∧ g.name = f.name := by
      rintro o ho (⟨size, t, h1, h2, rfl⟩ | ⟨h1, rfl⟩)
      · obtain ⟨t1, t2, t3⟩ := enumT h2
        refine ⟨Or.inr (Or.inl ⟨rfl, t1, t2, ?_⟩), t3, rfl⟩
        rcases ho with ho | ho
        · exact Or.inl ho
        · exact Or.inr ⟨size, ho ▸ h1⟩
      · refine ⟨Or.inr (Or.inr ⟨hen, by cases f.isList <;> simp [structType], ?_⟩), by cases f.isList <;> simp [structType], rfl⟩
        rcases ho with ho | ho
        · exact Or.inl ho
        · exact Or.inr (ho ▸ h1)
    simp only at h
    split at h
    · exact conc (Or.inr rfl) (fin h)
    · rename_i hd
      have hd : (46 : UInt8) ∈ f.identName := by simpa using hd
      split at h
      · simp only [Out.bind_eq_ok] at h
        obtain ⟨idl, _, h⟩ := h
        exact conc (Or.inl hd) (fin h)
      · simp at h

end Claw.GenGo
