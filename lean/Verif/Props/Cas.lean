import Verif.Model.Cas

/-!
# C50 Type registration in pools is lost-update free
-/

namespace Claw.Cas

open Claw Claw.ErrCode

/-- What is true of a goroutine. -/
def ThOk (s : Shared) (t : Table) : Th → Prop
  | .cas m old new _ => ∃ o p, s.heap[old]? = some o ∧ o.look m = none ∧
      s.heap[new]? = some (o ++ [(m, p)]) ∧ o <+: t ∧ (old = s.cur ∨ o.length < t.length)
  | .registered m => ∃ p, t.look m = some p
  | .reget m => ∃ p, t.look m = some p
  | .got m p => t.look m = some p
  | .panicked => False
  | .load _ _ => True
  | .get _ => True

structure Inv (s : St) : Prop where
  cur : ∃ t, s.sh.heap[s.sh.cur]? = some t ∧ ∀ th ∈ s.ths, ThOk s.sh t th

theorem look_prefix {a b : Table} (h : a <+: b) (m p : Nat) (hl : a.look m = some p) :
    b.look m = some p := by
  obtain ⟨c, rfl⟩ := h
  unfold Table.look at *
  rw [List.find?_append]
  cases hf : List.find? (fun e => e.1 == m) a with
  | none => rw [hf] at hl; cases hl
  | some e => rw [hf] at hl; simpa using hl

theorem look_append_new (a : Table) (m p : Nat) (h : a.look m = none) :
    (a ++ [(m, p)]).look m = some p := by
  unfold Table.look at *
  rw [List.find?_append]
  cases hf : List.find? (fun e => e.1 == m) a with
  | none => simp
  | some e => rw [hf] at h; cases h

theorem get_append {α : Type} (l : List α) (x : α) (i : Nat) (a : α) (h : l[i]? = some a) :
    (l ++ [x])[i]? = some a := by
  have := (List.getElem?_eq_some_iff.mp h).1
  rw [List.getElem?_append_left this, h]

/-- A goroutine keeps its property when the table grows and the heap grows. -/
theorem ThOk.mono {s s' : Shared} {t t' : Table} (hh : ∀ (i : Nat) (x : Table), s.heap[i]? = some x → s'.heap[i]? = some x)
    (ht : t <+: t') (hc : s'.cur = s.cur ∧ t' = t ∨ t.length < t'.length) {th : Th}
    (h : ThOk s t th) : ThOk s' t' th := by
  cases th with
  | load m a => trivial
  | get m => trivial
  | panicked => exact h
  | registered m => obtain ⟨p, hp⟩ := h; exact ⟨p, look_prefix ht m p hp⟩
  | reget m => obtain ⟨p, hp⟩ := h; exact ⟨p, look_prefix ht m p hp⟩
  | got m p => exact look_prefix ht m p h
  | cas m old new a =>
    obtain ⟨o, p, h1, h2, h3, h4, h5⟩ := h
    refine ⟨o, p, hh _ _ h1, h2, hh _ _ h3, h4.trans ht, ?_⟩
    rcases hc with ⟨hc, rfl⟩ | hc
    · rw [hc]; exact h5
    · have := h4.length_le
      exact Or.inr (by omega)

/-- What one step does to the shared state and to the goroutine that takes it. -/
theorem advance_ok (s : Shared) (t : Table) (th : Th) (hcur : s.heap[s.cur]? = some t)
    (h : ThOk s t th) : ∃ t', (advance s th).1.heap[(advance s th).1.cur]? = some t' ∧
      t <+: t' ∧ (((advance s th).1.cur = s.cur ∧ t' = t) ∨ t.length < t'.length) ∧
      (∀ (i : Nat) (x : Table), s.heap[i]? = some x → (advance s th).1.heap[i]? = some x) ∧
      ThOk (advance s th).1 t' (advance s th).2 := by
  have same : ∀ th', ThOk s t th' → ∃ t', s.heap[s.cur]? = some t' ∧ t <+: t' ∧
      ((s.cur = s.cur ∧ t' = t) ∨ t.length < t'.length) ∧ (∀ (i : Nat) (x : Table), s.heap[i]? = some x → s.heap[i]? = some x) ∧
      ThOk s t' th' := fun th' h' =>
    ⟨t, hcur, List.prefix_refl t, Or.inl ⟨rfl, rfl⟩, fun _ _ hx => hx, h'⟩
  have ret : ∀ m again, (∃ p, t.look m = some p) → ThOk s t (.ret m again) := by
    intro m again hp
    cases again <;> exact hp
  cases th with
  | registered m => exact same _ h
  | got m p => exact same _ h
  | panicked => exact h.elim
  | get m =>
    simp only [advance, hcur, Option.getD_some]
    cases hl : t.look m with
    | some p => exact same _ hl
    | none => exact same _ trivial
  | reget m =>
    obtain ⟨p, hp⟩ := h
    have e : advance s (.reget m) = (s, .got m p) := by
      simp only [advance, hcur, Option.getD_some, hp]
    rw [e]
    exact same (.got m p) hp
  | load m again =>
    simp only [advance, hcur, Option.getD_some]
    cases hl : t.look m with
    | some p => exact same _ (ret m again ⟨p, hl⟩)
    | none =>
      simp only
      refine ⟨t, get_append _ _ _ _ hcur, List.prefix_refl t, Or.inl ⟨trivial, rfl⟩,
        fun i x hx => get_append _ _ _ _ hx, t, s.heap.length, get_append _ _ _ _ hcur, hl, ?_,
        List.prefix_refl t, Or.inl rfl⟩
      simp
  | cas m old new again =>
    obtain ⟨o, p, h1, h2, h3, h4, h5⟩ := h
    simp only [advance]
    by_cases hc : s.cur = old
    · rw [if_pos hc]
      have ho : o = t := by rw [← hc, hcur] at h1; exact (Option.some.inj h1).symm
      subst ho
      refine ⟨o ++ [(m, p)], h3, List.prefix_append _ _, Or.inr (by simp), fun i x hx => hx, ?_⟩
      have := look_append_new o m p h2
      cases again <;> exact ⟨p, this⟩
    · rw [if_neg hc]
      exact same _ trivial

theorem inv_step {s s' : St} (h : Inv s) (hs : Step s s') : Inv s' := by
  obtain ⟨t, hcur, hth⟩ := h.cur
  cases hs with
  | register m =>
    refine ⟨t, hcur, fun th hm => ?_⟩
    rcases List.mem_append.mp hm with hm | hm
    · exact hth th hm
    · simp at hm; subst hm; trivial
  | get m =>
    refine ⟨t, hcur, fun th hm => ?_⟩
    rcases List.mem_append.mp hm with hm | hm
    · exact hth th hm
    · simp at hm; subst hm; trivial
  | run i th hi =>
    have hmem : th ∈ s.ths := List.mem_of_getElem? hi
    obtain ⟨t', g1, g2, g3, g4, g5⟩ := advance_ok s.sh t th hcur (hth th hmem)
    refine ⟨t', g1, fun th' hm => ?_⟩
    rcases List.mem_or_eq_of_mem_set hm with hm | hm
    · exact (hth th' hm).mono g4 g2 g3
    · subst hm; exact g5

theorem inv_init : Inv init := ⟨[], rfl, fun th h => by simp [init] at h⟩

theorem inv_reach {s : St} (h : Reach s) : Inv s := by
  unfold Reach at h
  generalize hi : init = a at h
  induction h with
  | refl => subst hi; exact inv_init
  | tail _ hs ih => exact inv_step ih hs

theorem pool_step {s s' : St} (h : Inv s) (hs : Step s s') (m p : Nat) (hp : s.pool m = some p) :
    s'.pool m = some p := by
  obtain ⟨t, hcur, hth⟩ := h.cur
  cases hs with
  | register _ => exact hp
  | get _ => exact hp
  | run i th hi =>
    obtain ⟨t', g1, g2, -, -, -⟩ :=
      advance_ok s.sh t th hcur (hth th (List.mem_of_getElem? hi))
    unfold St.pool at hp ⊢
    rw [hcur] at hp
    simp only [g1, Option.getD_some] at hp ⊢
    exact look_prefix g2 m p hp

/-- C50: in every execution, once a mapping has a pool it keeps that very pool for ever, whatever
other registrations run at the same time. -/
theorem C50_never_lost {s s' : St} (h : Reach s) (hs : Steps Step s s') (m p : Nat)
    (hp : s.pool m = some p) : s'.pool m = some p := by
  induction hs with
  | refl => exact hp
  | tail h1 h2 ih =>
    refine pool_step (inv_reach ?_) h2 m p ih
    have : ∀ {a b c : St}, Steps Step a b → Steps Step b c → Steps Step a c := by
      intro a b c hab hbc
      induction hbc with
      | refl => exact hab
      | tail _ h ih => exact .tail ih h
    exact this h h1

/-- C50: when a registration has returned, its mapping has a pool. -/
theorem C50_registered {s : St} (h : Reach s) (m : Nat) (hm : Th.registered m ∈ s.ths) :
    ∃ p, s.pool m = some p := by
  obtain ⟨t, hcur, hth⟩ := (inv_reach h).cur
  obtain ⟨p, hp⟩ := hth _ hm
  exact ⟨p, by simp [St.pool, hcur, hp]⟩

/-- C50: `Get` never works on a missing pool, and all goroutines that ask for the same mapping get the
same pool, the one that is registered. -/
theorem C50_get {s : St} (h : Reach s) :
    Th.panicked ∉ s.ths ∧
    (∀ m p, Th.got m p ∈ s.ths → s.pool m = some p) ∧
    ∀ m p p', Th.got m p ∈ s.ths → Th.got m p' ∈ s.ths → p = p' := by
  obtain ⟨t, hcur, hth⟩ := (inv_reach h).cur
  refine ⟨fun hm => hth _ hm, fun m p hm => by simp [St.pool, hcur]; exact hth _ hm, ?_⟩
  intro m p p' h1 h2
  have a : t.look m = some p := hth _ h1
  have b : t.look m = some p' := hth _ h2
  rw [a] at b
  exact Option.some.inj b

/-- C50, progress: a compare-and-swap fails only if another registration succeeded since this
goroutine looked: the table is larger than the one it saw.  So a call repeats at most once for every
mapping that somebody else registered. -/
theorem C50_retry_means_progress {s : St} (h : Reach s) (m old new : Nat) (again : Bool)
    (hm : Th.cas m old new again ∈ s.ths)
    (hfail : (advance s.sh (.cas m old new again)).2 = .load m again) :
    ∃ seen now, s.sh.heap[old]? = some seen ∧ s.sh.heap[s.sh.cur]? = some now ∧
      seen <+: now ∧ seen.length < now.length := by
  obtain ⟨t, hcur, hth⟩ := (inv_reach h).cur
  obtain ⟨o, p, h1, h2, h3, h4, h5⟩ := hth _ hm
  refine ⟨o, t, h1, hcur, h4, ?_⟩
  rcases h5 with h5 | h5
  · exfalso
    simp only [advance] at hfail
    rw [if_pos h5.symm] at hfail
    cases again <;> cases hfail
  · exact h5

/-- The program of the example: two goroutines register two mappings at the same time and one of
them has to repeat; a third one gets a pool. -/
def demo (is : List Nat) (s : St) : St :=
  is.foldl (fun s i => match s.ths[i]? with
    | some th => ⟨(advance s.sh th).1, s.ths.set i (advance s.sh th).2⟩
    | none => s) s

theorem demo_reach (is : List Nat) (s : St) (h : Reach s) : Reach (demo is s) := by
  induction is generalizing s with
  | nil => exact h
  | cons i is ih =>
    simp only [demo, List.foldl_cons]
    apply ih
    cases hi : s.ths[i]? with
    | none => exact h
    | some th => exact .tail h (.run s i th hi)

def demo0 : St := { init with ths := [.load 7 false, .load 8 false, .get 7] }

theorem demo0_reach : Reach demo0 :=
  .tail (.tail (.tail (.refl _) (.register _ 7)) (.register _ 8)) (.get _ 7)

/-- Both load, the first one swaps, the second one fails, repeats and succeeds. -/
example : Reach (demo [0, 1, 0, 1, 1, 1, 2] demo0) ∧
    (demo [0, 1, 0, 1] demo0).ths[1]? = some (.load 8 false) ∧
    (demo [0, 1, 0, 1, 1, 1, 2] demo0).ths = [.registered 7, .registered 8, .got 7 1] ∧
    (demo [0, 1, 0, 1, 1, 1, 2] demo0).pool 8 = some 3 :=
  ⟨demo_reach _ _ demo0_reach, by decide, by decide, by decide⟩

end Claw.Cas
