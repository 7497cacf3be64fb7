import Verif.Lemmas.RpcReflect
import Verif.Props.Registry

/-!
# C103 What the reflection service lists
-/

namespace Claw.RpcReflect

open Claw Idl

/-! ## Maps -/

theorem nodup_map_inj {α β : Type} {f : α → β} : ∀ {l : List α}, (l.map f).Nodup →
    ∀ {a b : α}, a ∈ l → b ∈ l → f a = f b → a = b
  | [], _, _, _, h, _, _ => by cases h
  | x :: l, hn, a, b, ha, hb, e => by
    rw [List.map_cons, List.nodup_cons] at hn
    rcases List.mem_cons.1 ha with h1 | h1
    · rcases List.mem_cons.1 hb with h2 | h2
      · rw [h1, h2]
      · exact absurd (List.mem_map.2 ⟨b, h2, by rw [← e, h1]⟩) hn.1
    · rcases List.mem_cons.1 hb with h2 | h2
      · exact absurd (List.mem_map.2 ⟨a, h1, by rw [e, h2]⟩) hn.1
      · exact nodup_map_inj hn.2 h1 h2 e

theorem assocGet_set {κ α : Type} [DecidableEq κ] (k k' : κ) (v : α) (m : List (κ × α)) :
    assocGet k' (assocSet k v m) = if k' = k then some v else assocGet k' m := by
  unfold assocGet assocSet
  rw [List.find?_append]
  by_cases h : k' = k
  · subst h
    have : (m.filter fun p => decide (p.1 ≠ k')).find? (fun p => decide (p.1 = k')) = none := by
      rw [List.find?_eq_none]
      intro x hx
      have := (List.mem_filter.1 hx).2
      simpa using this
    rw [this]; simp
  · rw [if_neg h]
    have hk : ¬ k = k' := fun e => h e.symm
    have e : (m.filter fun p => decide (p.1 ≠ k)).find? (fun p => decide (p.1 = k')) =
        m.find? fun p => decide (p.1 = k') := by
      rw [List.find?_filter]
      congr 1
      funext p
      by_cases hp : p.1 = k'
      · simp [hp, h]
      · simp [hp]
    rw [e]
    cases m.find? (fun p => decide (p.1 = k')) <;> simp [hk]

theorem keys_set {κ α : Type} [DecidableEq κ] (k : κ) (v : α) (m : List (κ × α)) :
    (assocSet k v m).map (·.1) = (m.map (·.1)).filter (fun x => decide (x ≠ k)) ++ [k] := by
  unfold assocSet
  rw [List.map_append, List.filter_map]
  rfl

theorem keys_nodup {κ α : Type} [DecidableEq κ] {k : κ} {v : α} {m : List (κ × α)}
    (h : (m.map (·.1)).Nodup) : ((assocSet k v m).map (·.1)).Nodup := by
  rw [keys_set, List.nodup_append]
  refine ⟨h.filter _, by simp, ?_⟩
  intro a ha b hb
  have := (List.mem_filter.1 ha).2
  rw [List.mem_singleton.1 hb]
  simpa using this

theorem mem_keys_set {κ α : Type} [DecidableEq κ] {k x : κ} {v : α} {m : List (κ × α)} :
    x ∈ (assocSet k v m).map (·.1) ↔ x = k ∨ x ∈ m.map (·.1) := by
  rw [keys_set, List.mem_append, List.mem_filter, List.mem_singleton]
  by_cases h : x = k <;> simp [h]

/-! ## What is collected -/

/-- The methods registered for a service. -/
def methodsOf (hs : List Info) (p s : Str) : List Method :=
  (hs.filter fun i => i.pkg == p && i.service == s).map fun i => ⟨i.call, i.type⟩

structure Collected (m : PkgMap) (hs : List Info) : Prop where
  pkgs : (m.map (·.1)).Nodup
  pkg : ∀ p, p ∈ m.map (·.1) ↔ ∃ i ∈ hs, i.pkg = p
  svcs : ∀ p, (((assocGet p m).getD []).map (·.1)).Nodup
  svc : ∀ p s, s ∈ ((assocGet p m).getD []).map (·.1) ↔ ∃ i ∈ hs, i.pkg = p ∧ i.service = s
  meths : ∀ p s, (assocGet s ((assocGet p m).getD [])).getD [] = methodsOf hs p s

theorem collected_add {m : PkgMap} {hs : List Info} (h : Collected m hs) (i : Info) :
    Collected (addInfo m i) (hs ++ [i]) := by
  have e : ∀ p, (assocGet p (addInfo m i)).getD [] = if p = i.pkg then
      assocSet i.service ((assocGet i.service ((assocGet i.pkg m).getD [])).getD [] ++
        [⟨i.call, i.type⟩]) ((assocGet i.pkg m).getD [])
      else (assocGet p m).getD [] := by
    intro p
    unfold addInfo
    rw [assocGet_set]
    split <;> rfl
  refine ⟨keys_nodup h.pkgs, ?_, ?_, ?_, ?_⟩
  · intro p
    unfold addInfo
    rw [mem_keys_set, h.pkg]
    simp only [List.mem_append, List.mem_singleton]
    constructor
    · rintro (rfl | ⟨j, hj, rfl⟩)
      · exact ⟨i, Or.inr rfl, rfl⟩
      · exact ⟨j, Or.inl hj, rfl⟩
    · rintro ⟨j, hj | rfl, rfl⟩
      · exact Or.inr ⟨j, hj, rfl⟩
      · exact Or.inl rfl
  · intro p
    rw [e]
    split
    · exact keys_nodup (h.svcs i.pkg)
    · exact h.svcs p
  · intro p s
    rw [e]
    simp only [List.mem_append, List.mem_singleton]
    split
    · rename_i hp
      subst hp
      rw [mem_keys_set, h.svc]
      constructor
      · rintro (rfl | ⟨j, hj, h1, h2⟩)
        · exact ⟨i, Or.inr rfl, rfl, rfl⟩
        · exact ⟨j, Or.inl hj, h1, h2⟩
      · rintro ⟨j, hj | rfl, h1, h2⟩
        · exact Or.inr ⟨j, hj, h1, h2⟩
        · exact Or.inl h2.symm
    · rename_i hp
      rw [h.svc]
      constructor
      · rintro ⟨j, hj, h1, h2⟩; exact ⟨j, Or.inl hj, h1, h2⟩
      · rintro ⟨j, hj | rfl, h1, h2⟩
        · exact ⟨j, hj, h1, h2⟩
        · exact absurd h1.symm hp
  · intro p s
    rw [e]
    unfold methodsOf
    rw [List.filter_append, List.map_append]
    by_cases hp : p = i.pkg
    · subst hp
      rw [if_pos rfl, assocGet_set]
      by_cases hs : s = i.service
      · subst hs
        rw [if_pos rfl, Option.getD_some, h.meths]
        simp [methodsOf]
      · have : (i.service == s) = false := by simpa using fun e => hs e.symm
        rw [if_neg hs, h.meths]
        simp [methodsOf, this]
    · have : (i.pkg == p) = false := by simpa using fun e => hp e.symm
      rw [if_neg hp, h.meths]
      simp [methodsOf, this]

theorem collected_foldl (xs : List Info) {m : PkgMap} {hs : List Info} (h : Collected m hs) :
    Collected (xs.foldl addInfo m) (hs ++ xs) := by
  induction xs generalizing m hs with
  | nil => simpa using h
  | cons x xs ih =>
    have := ih (collected_add h x)
    simpa using this

theorem collected (hs : List Info) : Collected (collect hs) hs := by
  have h0 : Collected [] [] := by
    refine ⟨by simp, by simp, ?_, ?_, ?_⟩ <;> intros <;> simp [assocGet, methodsOf]
  have := collected_foldl hs h0
  rw [List.nil_append] at this
  exact this

/-! ## Sorting -/

/-- Strictly before, as Go compares strings. -/
def Before (a b : Str) : Prop := strLe a b = true ∧ a ≠ b

theorem sort_names (l : List Str) (h : l.Nodup) : (sortBy strLe l).Pairwise Before := by
  have h1 := sortBy_pairwise (le := strLe) strLe_trans strLe_total l
  have h2 : (sortBy strLe l).Nodup := (sortBy_perm l strLe).nodup_iff.2 h
  unfold Before
  exact List.pairwise_and_iff.2 ⟨h1, h2⟩

theorem sort_methods (l : List Method) (h : (l.map (·.name)).Nodup) :
    (sortMethods l).Pairwise fun a b => Before a.name b.name := by
  have h1 := sortBy_pairwise (le := fun a b : Method => strLe a.name b.name)
    (fun a b c => strLe_trans _ _ _) (fun a b => strLe_total _ _) l
  have h2 : ((sortMethods l).map (·.name)).Nodup :=
    ((sortBy_perm l _).map (·.name)).nodup_iff.2 h
  rw [List.Nodup, List.pairwise_map] at h2
  unfold Before
  exact List.pairwise_and_iff.2 ⟨h1, h2⟩

theorem before_asymm {a b : Str} (h1 : Before a b) (h2 : Before b a) : False :=
  h1.2 (strLe_antisymm a b h1.1 h2.1)

/-- Two orderly lists with the same members are the same. -/
theorem ordered_eq {α : Type} {r : α → α → Prop} (asymm : ∀ a b, r a b → r b a → False) :
    ∀ {l l' : List α}, l.Perm l' → l.Pairwise r → l'.Pairwise r → l = l'
  | [], l', hp, _, _ => (List.nil_perm.1 hp).symm
  | a :: l, [], hp, _, _ => by simp at hp
  | a :: l, b :: l', hp, h1, h2 => by
    rw [List.pairwise_cons] at h1 h2
    have hab : a = b := by
      have ha : a ∈ b :: l' := hp.subset (by simp)
      have hb : b ∈ a :: l := hp.symm.subset (by simp)
      rcases List.mem_cons.1 ha with h | ha
      · exact h
      · rcases List.mem_cons.1 hb with h | hb
        · exact h.symm
        · exact (asymm a b (h1.1 b hb) (h2.1 a ha)).elim
    subst hab
    rw [ordered_eq asymm (List.Perm.cons_inv hp) h1.2 h2.2]

theorem sort_names_eq {l l' : List Str} (h : l.Nodup) (h' : l'.Nodup)
    (hm : ∀ x, x ∈ l ↔ x ∈ l') : sortBy strLe l = sortBy strLe l' := by
  have hp : l.Perm l' := (List.perm_ext_iff_of_nodup h h').2 hm
  exact ordered_eq (r := Before) (fun _ _ => before_asymm)
    ((sortBy_perm l _).trans (hp.trans (sortBy_perm l' _).symm)) (sort_names l h) (sort_names l' h')

theorem sort_methods_eq {l l' : List Method} (hp : l.Perm l') (h : (l.map (·.name)).Nodup) :
    sortMethods l = sortMethods l' :=
  ordered_eq (r := fun a b => Before a.name b.name) (fun _ _ => before_asymm)
    ((sortBy_perm l _).trans (hp.trans (sortBy_perm l' _).symm)) (sort_methods l h)
    (sort_methods l' ((hp.map _).nodup_iff.1 h))

/-- The names under which handlers are known. -/
def Info.names (i : Info) : Str × Str × Str := (i.pkg, i.service, i.call)

theorem methods_nodup {hs : List Info} (h : (hs.map Info.names).Nodup) (p s : Str) :
    ((methodsOf hs p s).map (·.name)).Nodup := by
  unfold methodsOf
  rw [List.map_map, List.Nodup, List.pairwise_map, List.pairwise_filter]
  rw [List.Nodup, List.pairwise_map] at h
  refine h.imp ?_
  intro a b hab ha hb
  simp only [Bool.and_eq_true, beq_iff_eq] at ha hb
  intro hc
  apply hab
  simp only [Function.comp] at hc
  simp [Info.names, ha.1, ha.2, hb.1, hb.2, hc]

/-! ## Properties of the listing -/

/-- C103, exact: the packages listed are those with a handler, the services of a package those
with a handler in it, and the methods of a service its handlers, each as often as it is there. -/
theorem C103_exact (hs : List Info) :
    (∀ p, (∃ P ∈ listServices hs, P.name = p) ↔ ∃ i ∈ hs, i.pkg = p) ∧
    (∀ P ∈ listServices hs, ∀ s, (∃ S ∈ P.services, S.name = s) ↔
      ∃ i ∈ hs, i.pkg = P.name ∧ i.service = s) ∧
    (∀ P ∈ listServices hs, ∀ S ∈ P.services, S.methods.Perm
      ((hs.filter fun i => i.pkg == P.name && i.service == S.name).map
        fun i => ⟨i.call, i.type⟩)) := by
  have hc := collected hs
  unfold listServices
  refine ⟨?_, ?_, ?_⟩
  · intro p
    rw [← hc.pkg]
    simp only [List.mem_map]
    constructor
    · rintro ⟨P, ⟨n, hn, rfl⟩, rfl⟩
      exact List.mem_map.1 ((sortBy_perm _ _).subset hn)
    · intro h
      exact ⟨_, ⟨p, (sortBy_perm _ _).symm.subset (List.mem_map.2 h), rfl⟩, rfl⟩
  · intro P hP s
    obtain ⟨n, hn, rfl⟩ := List.mem_map.1 hP
    simp only
    rw [← hc.svc]
    unfold buildServices
    constructor
    · rintro ⟨S, hS, rfl⟩
      obtain ⟨k, hk, rfl⟩ := List.mem_map.1 hS
      exact (sortBy_perm _ _).subset hk
    · intro h
      exact ⟨_, List.mem_map.2 ⟨s, (sortBy_perm _ _).symm.subset h, rfl⟩, rfl⟩
  · intro P hP S hS
    obtain ⟨n, hn, rfl⟩ := List.mem_map.1 hP
    unfold buildServices at hS
    obtain ⟨k, hk, rfl⟩ := List.mem_map.1 hS
    simp only
    rw [hc.meths]
    exact sortBy_perm _ _

/-- C103, sorted: packages, services and methods are each in strictly ascending order of name. -/
theorem C103_sorted (hs : List Info) (hn : (hs.map Info.names).Nodup) :
    (listServices hs).Pairwise (fun a b => Before a.name b.name) ∧
    ∀ P ∈ listServices hs, P.services.Pairwise (fun a b => Before a.name b.name) ∧
      ∀ S ∈ P.services, S.methods.Pairwise fun a b => Before a.name b.name := by
  have hc := collected hs
  unfold listServices
  refine ⟨?_, ?_⟩
  · rw [List.pairwise_map]
    exact sort_names _ hc.pkgs
  · intro P hP
    obtain ⟨n, hn', rfl⟩ := List.mem_map.1 hP
    unfold buildServices
    refine ⟨?_, ?_⟩
    · rw [List.pairwise_map]
      exact sort_names _ (hc.svcs n)
    · intro S hS
      obtain ⟨k, hk, rfl⟩ := List.mem_map.1 hS
      simp only
      rw [hc.meths]
      exact sort_methods _ (methods_nodup hn n k)

/-- C103, deterministic: the order in which the registry's map is visited does not show. -/
theorem C103_deterministic {hs hs' : List Info} (hp : hs.Perm hs')
    (hn : (hs.map Info.names).Nodup) :
    listServices hs = listServices hs' ∧
    (∀ p s, getServiceInfo hs p s = getServiceInfo hs' p s) ∧
    (∀ p s c, getMethodInfo hs p s c = getMethodInfo hs' p s c) := by
  have hc := collected hs
  have hc' := collected hs'
  have hmeth : ∀ p s, sortMethods (methodsOf hs p s) = sortMethods (methodsOf hs' p s) := by
    intro p s
    exact sort_methods_eq ((hp.filter _).map _) (methods_nodup hn p s)
  refine ⟨?_, ?_, ?_⟩
  · unfold listServices
    have h1 : sortBy strLe ((collect hs).map (·.1)) = sortBy strLe ((collect hs').map (·.1)) := by
      apply sort_names_eq hc.pkgs hc'.pkgs
      intro x
      rw [hc.pkg, hc'.pkg]
      simp only [hp.mem_iff]
    simp only
    rw [h1]
    apply List.map_congr_left
    intro p _
    congr 1
    unfold buildServices
    have h2 : sortBy strLe (((assocGet p (collect hs)).getD []).map (·.1)) =
        sortBy strLe (((assocGet p (collect hs')).getD []).map (·.1)) := by
      apply sort_names_eq (hc.svcs p) (hc'.svcs p)
      intro x
      rw [hc.svc, hc'.svc]
      simp only [hp.mem_iff]
    rw [h2]
    apply List.map_congr_left
    intro s _
    rw [hc.meths, hc'.meths, hmeth]
  · intro p s
    have e : ∀ l, getServiceInfo l p s =
        if (methodsOf l p s).isEmpty then none else some ⟨s, sortMethods (methodsOf l p s)⟩ :=
      fun _ => rfl
    rw [e, e, hmeth]
    have hl : (methodsOf hs p s).isEmpty = (methodsOf hs' p s).isEmpty := by
      have := (((hp.filter fun i => i.pkg == p && i.service == s).map
        fun i => (⟨i.call, i.type⟩ : Method))).length_eq
      unfold methodsOf
      rw [Bool.eq_iff_iff]
      simp only [List.isEmpty_iff, ← List.length_eq_zero_iff, this]
    rw [hl]
  · intro p s c
    unfold getMethodInfo
    have key : ∀ {l l' : List Info}, l.Perm l' → (l.map Info.names).Nodup →
        ∀ i, l.find? (fun i => i.pkg == p && i.service == s && i.call == c) = some i →
        l'.find? (fun i => i.pkg == p && i.service == s && i.call == c) = some i := by
      intro l l' hp hn i hi
      have him := List.mem_of_find?_eq_some hi
      have hip := List.find?_some hi
      cases hj : l'.find? (fun i => i.pkg == p && i.service == s && i.call == c) with
      | none =>
        exact absurd hip (List.find?_eq_none.1 hj i (hp.subset him))
      | some j =>
        have hjm := hp.symm.subset (List.mem_of_find?_eq_some hj)
        have hjp := List.find?_some hj
        simp only [Bool.and_eq_true, beq_iff_eq] at hip hjp
        have hnames : i.names = j.names := by
          simp [Info.names, hip.1.1, hip.1.2, hip.2, hjp.1.1, hjp.1.2, hjp.2]
        rw [nodup_map_inj hn him hjm hnames]
    cases h1 : hs.find? (fun i => i.pkg == p && i.service == s && i.call == c) with
    | some i => rw [key hp hn i h1]
    | none =>
      cases h2 : hs'.find? (fun i => i.pkg == p && i.service == s && i.call == c) with
      | none => rfl
      | some i =>
        rw [key hp.symm ((hp.map _).nodup_iff.1 hn) i h2] at h1
        cases h1

/-- C103, one service: it is found exactly when it is listed, and then with the entry listed. -/
theorem C103_service (hs : List Info) (p s : Str) (S : Service) :
    getServiceInfo hs p s = some S ↔
      ∃ P ∈ listServices hs, P.name = p ∧ S ∈ P.services ∧ S.name = s := by
  have hc := collected hs
  have e : getServiceInfo hs p s =
      if (methodsOf hs p s).isEmpty then none else some ⟨s, sortMethods (methodsOf hs p s)⟩ := rfl
  have hem : (methodsOf hs p s).isEmpty = false ↔ ∃ i ∈ hs, i.pkg = p ∧ i.service = s := by
    rw [Bool.eq_false_iff, ne_eq, List.isEmpty_iff]
    unfold methodsOf
    rw [List.map_eq_nil_iff, List.filter_eq_nil_iff]
    simp
  rw [e]
  constructor
  · intro h
    cases hb : (methodsOf hs p s).isEmpty with
    | true => rw [hb] at h; cases h
    | false =>
      rw [hb] at h
      have h := Option.some.inj h
      have hi := hem.1 hb
      refine ⟨⟨p, buildServices ((assocGet p (collect hs)).getD [])⟩, ?_, rfl, ?_, by rw [← h]⟩
      · unfold listServices
        obtain ⟨i, hi, h1, _⟩ := hi
        exact List.mem_map.2 ⟨p, (sortBy_perm _ _).symm.subset ((hc.pkg p).2 ⟨i, hi, h1⟩), rfl⟩
      · rw [← h]
        unfold buildServices
        refine List.mem_map.2 ⟨s, (sortBy_perm _ _).symm.subset ((hc.svc p s).2 hi), ?_⟩
        rw [hc.meths]
  · rintro ⟨P, hP, rfl, hS, rfl⟩
    unfold listServices at hP
    obtain ⟨n, _, rfl⟩ := List.mem_map.1 hP
    unfold buildServices at hS
    obtain ⟨k, hk, rfl⟩ := List.mem_map.1 hS
    simp only at hem ⊢
    have := hem.2 ((hc.svc n k).1 ((sortBy_perm _ _).subset hk))
    rw [this, hc.meths]
    simp

/-- C103, one method: it is found exactly when there is a handler of these names, and then with
its name and type. -/
theorem C103_method (hs : List Info) (hn : (hs.map Info.names).Nodup) (p s c : Str) (m : Method) :
    getMethodInfo hs p s c = some m ↔ m.name = c ∧ ⟨p, s, c, m.type⟩ ∈ hs := by
  unfold getMethodInfo
  constructor
  · intro h
    cases hf : hs.find? (fun i => i.pkg == p && i.service == s && i.call == c) with
    | none => simp [hf] at h
    | some i =>
      simp only [hf, Option.map_some, Option.some.injEq] at h
      have hp := List.find?_some hf
      simp only [Bool.and_eq_true, beq_iff_eq] at hp
      rw [← h]
      refine ⟨hp.2, ?_⟩
      have := List.mem_of_find?_eq_some hf
      obtain ⟨a, b, d, t⟩ := i
      obtain ⟨⟨rfl, rfl⟩, rfl⟩ := hp
      exact this
  · rintro ⟨rfl, hm⟩
    cases hf : hs.find? (fun i => i.pkg == p && i.service == s && i.call == m.name) with
    | none =>
      have := List.find?_eq_none.1 hf _ hm
      simp at this
    | some i =>
      have hp := List.find?_some hf
      simp only [Bool.and_eq_true, beq_iff_eq] at hp
      have him := List.mem_of_find?_eq_some hf
      have := nodup_map_inj hn him hm (by simp [Info.names, hp.1.1, hp.1.2, hp.2])
      rw [this]; rfl

/-! ## The registry -/

open Registry

theorem cut_of_splitN : ∀ (n : Nat) (x a : Str) (r : List Str), r ≠ [] →
    splitN (n + 1) x = a :: r → Str.slash ∉ a ∧ ∃ y, x = a ++ Str.slash :: y ∧ splitN n y = r
  | n, [], a, r, hr, h => by
    simp [splitN] at h; exact absurd h.2 hr
  | n, c :: x, a, r, hr, h => by
    rw [splitN] at h
    split at h
    · rename_i hc
      simp only [List.cons.injEq] at h
      rw [← h.1]
      exact ⟨by simp, x, by rw [hc]; rfl, h.2⟩
    · rename_i hc
      cases hs : splitN (n + 1) x with
      | nil =>
        rw [hs] at h
        simp only [List.cons.injEq] at h
        exact absurd h.2.symm hr
      | cons p ps =>
        rw [hs] at h
        simp only [List.cons.injEq] at h
        obtain ⟨h1, h2⟩ := h
        subst h2
        obtain ⟨h3, y, h4, h5⟩ := cut_of_splitN n x p ps hr hs
        rw [← h1]
        refine ⟨?_, y, by rw [h4]; rfl, h5⟩
        simp only [List.mem_cons, not_or]
        exact ⟨fun e => hc e.symm, h3⟩

theorem splitN_iff (key a b c : Str) :
    splitN 2 key = [a, b, c] ↔ Plain a b ∧ key = makeKey a b c := by
  constructor
  · intro h
    obtain ⟨ha, y, rfl, h1⟩ := cut_of_splitN 1 key a [b, c] (by simp) h
    obtain ⟨hb, z, rfl, h2⟩ := cut_of_splitN 0 y b [c] (by simp) h1
    simp only [splitN, List.cons.injEq, and_true] at h2
    exact ⟨⟨ha, hb⟩, by rw [makeKey_eq, path3_eq, h2]⟩
  · rintro ⟨h, rfl⟩
    exact splitN_key a b c h

theorem mem_infos {H : Type} (type : H → Nat) (s : State H) (i : Info) :
    i ∈ infos type s ↔ Plain i.pkg i.service ∧
      ∃ h, (makeKey i.pkg i.service i.call, h) ∈ s.handlers ∧ type h = i.type := by
  unfold infos handlers
  simp only [List.mem_map, List.mem_filterMap]
  constructor
  · rintro ⟨e, ⟨kh, hk, he⟩, rfl⟩
    split at he
    · rename_i a b c hs
      obtain ⟨h1, h2⟩ := (splitN_iff _ _ _ _).1 hs
      cases he
      exact ⟨h1, kh.2, by rw [← h2]; exact hk, rfl⟩
    · cases he
  · rintro ⟨hp, h, hm, ht⟩
    refine ⟨((i.pkg, i.service, i.call), h), ⟨_, hm, ?_⟩, by rw [ht]⟩
    simp only [splitN_key _ _ _ hp]

theorem runAll_keys {H : Type} (rs : List (Reg H)) (s : State H)
    (h : (s.handlers.map (·.1)).Nodup) : ((runAll s rs).1.handlers.map (·.1)).Nodup := by
  induction rs generalizing s with
  | nil => exact h
  | cons r rs ih =>
    simp only [runAll]
    apply ih
    unfold register
    simp only
    cases hf : s.find (makeKey r.pkg r.service r.call) with
    | some => exact h
    | none =>
      simp only [List.map_append, List.map_cons, List.map_nil]
      rw [List.nodup_append]
      refine ⟨h, by simp, ?_⟩
      intro a ha b hb e
      rw [List.mem_singleton.1 hb] at e
      obtain ⟨x, hx, rfl⟩ := List.mem_map.1 ha
      unfold State.find at hf
      rw [Option.map_eq_none_iff, List.find?_eq_none] at hf
      exact absurd e (by simpa using hf x hx)

theorem find_iff {H : Type} {s : State H} (h : (s.handlers.map (·.1)).Nodup) (k : Str) (x : H) :
    s.find k = some x ↔ (k, x) ∈ s.handlers := by
  unfold State.find
  constructor
  · intro hf
    cases he : s.handlers.find? (fun e => decide (e.1 = k)) with
    | none => simp [he] at hf
    | some e =>
      simp only [he, Option.map_some, Option.some.injEq] at hf
      have := List.find?_some he
      have hm := List.mem_of_find?_eq_some he
      simp only [decide_eq_true_eq] at this
      rw [← this, ← hf]; exact hm
  · intro hm
    cases he : s.handlers.find? (fun e => decide (e.1 = k)) with
    | none =>
      have := List.find?_eq_none.1 he _ hm
      simp at this
    | some e =>
      have h1 := List.find?_some he
      have h2 := List.mem_of_find?_eq_some he
      simp only [decide_eq_true_eq] at h1
      rw [nodup_map_inj h h2 hm h1]; rfl

/-- The names listed are all different, whatever was registered. -/
theorem infos_nodup {H : Type} (type : H → Nat) (rs : List (Reg H)) :
    ((infos type (runAll new rs).1).map Info.names).Nodup := by
  have h := runAll_keys rs new (by simp [new])
  generalize (runAll new rs).1 = s at h
  unfold infos handlers
  rw [List.map_map, List.Nodup, List.pairwise_map, List.pairwise_filterMap]
  rw [List.Nodup, List.pairwise_map] at h
  refine h.imp ?_
  intro a b hab x hx y hy e
  split at hx
  · rename_i a1 a2 a3 ha
    split at hy
    · rename_i b1 b2 b3 hb
      have h1 := Option.some.inj hx
      have h2 := Option.some.inj hy
      subst h1; subst h2
      simp only [Function.comp, Info.names, Prod.mk.injEq] at e
      apply hab
      rw [((splitN_iff _ _ _ _).1 ha).2, ((splitN_iff _ _ _ _).1 hb).2, e.1, e.2.1, e.2.2]
    · cases hy
  · cases hx

/-- C103, what is registered: after any registrations, a method is listed under a package and a
service exactly when their names have no `/` and a call of that name would find a handler, and
then with that handler's type. -/
theorem C103_registered {H : Type} (type : H → Nat) (rs : List (Reg H)) (p s c : Str) (t : Nat) :
    ⟨p, s, c, t⟩ ∈ infos type (runAll new rs).1 ↔
      Plain p s ∧ ∃ h, lookup (runAll new rs).1 p s c = some h ∧ type h = t := by
  rw [mem_infos]
  unfold lookup
  simp only [find_iff (runAll_keys rs new (by simp [new]))]

/-- C103 for names without `/`: a method is found exactly when it was registered, with the type
of the handler first registered.

Partial: no package or service was registered with a `/` in its name. -/
theorem C103_found_partial {H : Type} (type : H → Nat) (rs : List (Reg H))
    (hs : ∀ r ∈ rs, Plain r.pkg r.service) (p s c : Str) :
    getMethodInfo (infos type (runAll new rs).1) p s c =
      (firstFor rs p s c).map fun h => ⟨c, type h⟩ := by
  have hn := infos_nodup type rs
  have hno : ¬ Plain p s → firstFor rs p s c = none := by
    intro hpl
    clear hn
    induction rs with
    | nil => rfl
    | cons r rs ih =>
      simp only [firstFor]
      rw [if_neg, ih fun r hr => hs r (by simp [hr])]
      rintro ⟨h1, h2, _⟩
      exact hpl (h1 ▸ h2 ▸ hs r (by simp))
  cases hm : getMethodInfo (infos type (runAll new rs).1) p s c with
  | some m =>
    obtain ⟨h1, h2⟩ := (C103_method _ hn p s c m).1 hm
    obtain ⟨hp, h, hl, ht⟩ := (C103_registered type rs p s c m.type).1 h2
    rw [runAll_lookup rs new p s c hs hp] at hl
    have : lookup (new : State H) p s c = none := rfl
    rw [this] at hl
    simp only at hl
    rw [hl]
    simp only [Option.map_some, Option.some.injEq]
    rw [← h1, ht]
  | none =>
    cases hf : firstFor rs p s c with
    | none => rfl
    | some h =>
      exfalso
      have hp : Plain p s := by
        apply Classical.byContradiction
        intro hpl
        rw [hno hpl] at hf; cases hf
      have hl : lookup (runAll new rs).1 p s c = some h := by
        rw [runAll_lookup rs new p s c hs hp]
        have : lookup (new : State H) p s c = none := rfl
        rw [this]; exact hf
      have := (C103_method _ hn p s c ⟨c, type h⟩).2
        ⟨rfl, (C103_registered type rs p s c (type h)).2 ⟨hp, h, hl, rfl⟩⟩
      rw [this] at hm; cases hm

/-- C103 fails for a package or service with a `/` in its name: it is never found, though its
methods can be called. -/
theorem C103_slash {H : Type} (type : H → Nat) (s : State H) (pkg service : Str)
    (h : ¬ Plain pkg service) :
    getServiceInfo (infos type s) pkg service = none ∧
    (∀ c, getMethodInfo (infos type s) pkg service c = none) ∧
    (∀ c x, lookup (register s pkg service c x).1 pkg service c ≠ none) := by
  refine ⟨?_, ?_, ?_⟩
  · have : (methodsOf (infos type s) pkg service).isEmpty = true := by
      rw [List.isEmpty_iff]
      unfold methodsOf
      rw [List.map_eq_nil_iff, List.filter_eq_nil_iff]
      intro i hi
      have := ((mem_infos type s i).1 hi).1
      simp only [Bool.and_eq_true, beq_iff_eq]
      rintro ⟨rfl, rfl⟩
      exact h this
    have e : getServiceInfo (infos type s) pkg service =
      if (methodsOf (infos type s) pkg service).isEmpty then none
      else some ⟨service, sortMethods (methodsOf (infos type s) pkg service)⟩ := rfl
    rw [e, this]; rfl
  · intro c
    unfold getMethodInfo
    rw [Option.map_eq_none_iff, List.find?_eq_none]
    intro i hi
    have := ((mem_infos type s i).1 hi).1
    simp only [Bool.and_eq_true, beq_iff_eq]
    rintro ⟨⟨rfl, rfl⟩, _⟩
    exact h this
  · intro c x
    unfold lookup
    rw [register_find]
    cases s.find (makeKey pkg service c) <;> simp

/-! ## The hypotheses are met -/

section demo

private def regs : List (Reg Nat) :=
  [⟨lit "shop", lit "Cart", lit "Put", 1⟩, ⟨lit "bank", lit "Pay", lit "Send", 2⟩,
   ⟨lit "shop", lit "Cart", lit "Add", 3⟩, ⟨lit "shop", lit "Admin", lit "Stop", 1⟩,
   ⟨lit "shop", lit "Cart", lit "Put", 4⟩]

example : listServices (infos id (runAll new regs).1) =
    [⟨lit "bank", [⟨lit "Pay", [⟨lit "Send", 2⟩]⟩]⟩,
     ⟨lit "shop", [⟨lit "Admin", [⟨lit "Stop", 1⟩]⟩,
       ⟨lit "Cart", [⟨lit "Add", 3⟩, ⟨lit "Put", 1⟩]⟩]⟩] ∧
    getServiceInfo (infos id (runAll new regs).1) (lit "shop") (lit "Cart") =
      some ⟨lit "Cart", [⟨lit "Add", 3⟩, ⟨lit "Put", 1⟩]⟩ ∧
    getMethodInfo (infos id (runAll new regs).1) (lit "shop") (lit "Cart") (lit "Del") = none := by
  decide +kernel

/-- A package with a `/`: its method is listed under another package and service. -/
example : listServices (infos id (register new (lit "a/b") (lit "S") (lit "M") 1).1) =
    [⟨lit "a", [⟨lit "b", [⟨lit "S/M", 1⟩]⟩]⟩] ∧
    ¬ Plain (lit "a/b") (lit "S") := by
  refine ⟨by decide +kernel, ?_⟩
  rintro ⟨h, _⟩
  exact h (by decide +kernel)

end demo

end Claw.RpcReflect
