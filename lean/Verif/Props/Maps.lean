import Verif.Lemmas.Maps

/-!
# C13: map objects are finite maps
-/

namespace Claw

/-- C13: any sequence of `Set`, `Delete` and `Clear` calls on a new map, with keys of any key type,
succeeds and leaves a map that shows exactly the mathematical map the calls describe: `Get` and `Has`
agree with it on every key, the iteration order is strictly increasing, no key is listed twice, the
values are at the positions of their keys, and the length is the number of keys. -/
theorem C13_map_refines (t : KTy) {V : Type} (ops : List (MOp t.Val V)) :
    ∃ m, runMOps t.compare ops GoMap.new = .ok m ∧ ShowsMap t m (specMOps t ops fun _ => none) := by
  obtain ⟨m, E, h1, h2, h3⟩ := mops_rep t ops GoMap.new [] MRep.new
  refine ⟨m, h1, ?_⟩
  have : lookE t.compare ([] : List (t.Val × V)) = fun _ => none := by funext k; simp [lookE]
  rw [this] at h3
  rw [← h3]; exact h2.shows

/-- What C13 says on a concrete run: strings, overwriting, deletion, order. -/
example : runMOps KTy.str.compare
    [.set [98] 1, .set [97, 122] 2, .set [97] 3, .set [98] 4, .delete [97], .set [] 5, .delete [99]]
    (GoMap.new : GoMap Bytes Nat) = .ok ⟨[[], [97, 122], [98]], [5, 2, 4], true⟩ := by decide

/-- Floats: -1.0, NaN, two zeros (one key), another NaN (the same key). -/
example : runMOps (KTy.num .f32).compare
    [.set ⟨0xBF800000⟩ 1, .set ⟨0x7FC00000⟩ 2, .set ⟨0⟩ 3, .set ⟨0x80000000⟩ 4, .set ⟨0x7FC00001⟩ 5]
    (GoMap.new : GoMap F32 Nat) =
      .ok ⟨[⟨0x7FC00000⟩, ⟨0xBF800000⟩, ⟨0⟩], [5, 1, 4], true⟩ := by decide +kernel

/-- C13, the case a user thinks of: what was set last and not deleted since is what `Get` returns. -/
theorem C13_get_after_set (t : KTy) {V : Type} (pre post : List (MOp t.Val V)) (k : t.Val) (v : V)
    (hpost : ∀ op ∈ post, (∀ k' v', op = .set k' v' → ¬ t.Same k' k) ∧
      (∀ k', op = .delete k' → ¬ t.Same k' k) ∧ op ≠ .clear) :
    ∃ m, runMOps t.compare (pre ++ .set k v :: post) GoMap.new = .ok m ∧
      m.get t.compare k = .ok (some v) ∧ m.has t.compare k = .ok true := by
  obtain ⟨m, h1, h2⟩ := C13_map_refines t (pre ++ .set k v :: post)
  have happ : ∀ (a b : List (MOp t.Val V)) f, specMOps t (a ++ b) f = specMOps t b (specMOps t a f) := by
    intro a
    induction a with
    | nil => intro b f; rfl
    | cons o a ih => intro b f; simp only [List.cons_append, specMOps]; exact ih b _
  have hkeep : ∀ (b : List (MOp t.Val V)) f, f k = some v →
      (∀ op ∈ b, (∀ k' v', op = .set k' v' → ¬ t.Same k' k) ∧
        (∀ k', op = .delete k' → ¬ t.Same k' k) ∧ op ≠ .clear) → specMOps t b f k = some v := by
    intro b
    induction b with
    | nil => intro f hf _; exact hf
    | cons o b ih =>
      intro f hf hb
      simp only [specMOps]
      refine ih _ ?_ (fun op hop => hb op (List.mem_cons_of_mem _ hop))
      have ho := hb o (List.mem_cons_self ..)
      cases o with
      | set k' v' => simp only [MOp.spec]; rw [if_neg (ho.1 k' v' rfl)]; exact hf
      | delete k' => simp only [MOp.spec]; rw [if_neg (ho.2.1 k' rfl)]; exact hf
      | clear => exact absurd rfl ho.2.2
  have hsame : t.Same k k := by
    rw [← t.compare_same]; exact t.laws.refl k
  have hk : specMOps t (pre ++ .set k v :: post) (fun _ => none) k = some v := by
    rw [happ]
    simp only [specMOps]
    refine hkeep post _ ?_ hpost
    simp only [MOp.spec]; rw [if_pos hsame]
  exact ⟨m, h1, by rw [h2.get, hk], by rw [h2.has, hk]; rfl⟩

example : ∀ op ∈ [MOp.set (1 : Int32) 10, .delete 2], (∀ k' v', op = .set k' v' → ¬ (KTy.num .i32).Same k' 5) ∧
    (∀ k', op = MOp.delete k' → ¬ (KTy.num .i32).Same k' 5) ∧ op ≠ (MOp.clear : MOp Int32 Nat) := by
  intro op hop
  simp only [List.mem_cons, List.not_mem_nil, or_false] at hop
  rcases hop with rfl | rfl <;> simp [KTy.Same] <;> intros <;> subst_vars <;> decide

end Claw
