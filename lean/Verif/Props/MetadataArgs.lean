import Verif.Model.MetadataArgs
import Verif.Lemmas.Metadata

/-!
# C153: metadata made from values holds these values

What `Pairs` has to do is said on the arguments alone: when they are pairs (`Pairings`), and where the value of a key comes
from (`source`).
-/

namespace Claw.MetadataArgs

open Claw Claw.Metadata

/-! ### Specification -/

/-- The arguments are pairs of a string and a string or byte slice. -/
inductive Pairings : List Arg → Prop
  | nil : Pairings []
  | text (k v r) : Pairings r → Pairings (.str k :: .str v :: r)
  | bytes (k b r) : Pairings r → Pairings (.str k :: .slice b :: r)

/-- The argument that gives a folded key its value: the one behind the last spelling of the key. -/
def source (low : Str → Str) : List Arg → Str → Option Arg
  | .str k :: v :: r, x =>
    match source low r x with
    | some s => some s
    | none => if x = low k then some v else none
  | _, _ => none

/-- The bytes an argument has in a memory. -/
def bytesOf (bufs : List Bytes) : Arg → Option Bytes
  | .str v => some v
  | .slice b => bufs[b]?
  | .other => none

/-! ### Pairs -/

theorem look_share (h : Heap) (m m' : Nat) (k k' : Str) (b : Nat) (hm : m < h.maps.length) :
    (h.share m k b).look m' k' = if m' = m ∧ k' = k then some b else h.look m' k' := by
  unfold Heap.look Heap.share
  by_cases e : m' = m
  · subst e
    simp [List.getElem?_modify, hm, AMap.look_put]
  · have e' : ¬ m = m' := fun x => e x.symm
    simp [List.getElem?_modify, e, e']

/-- What the loop leaves behind: old buffers are as they were, and every key of the map leads to its source. -/
theorem loop_spec (low : Str → Str) (m : Nat) : ∀ (args : List Arg), Pairings args → ∀ (h : Heap), m < h.maps.length →
    ∃ h' more, h.pairsLoop low m args = .ok h' ∧ h'.bufs = h.bufs ++ more ∧
      (∀ x, match source low args x with
        | none => h'.look m x = h.look m x
        | some (.str v) => ∃ b, h'.look m x = some b ∧ h.bufs.length ≤ b ∧ h'.bufs[b]? = some v
        | some (.slice b) => h'.look m x = some b
        | some .other => False) ∧
      ∀ m', m' ≠ m → ∀ x, h'.look m' x = h.look m' x := by
  intro args hp
  induction hp with
  | nil => exact fun h _ => ⟨h, [], rfl, by simp, fun x => by simp [source], fun _ _ _ => rfl⟩
  | text k v r _ ih =>
    intro h hm
    obtain ⟨h', more, h1, h2, h3, h4⟩ := ih (h.put m (low k) v) (by simpa [Heap.put] using hm)
    have hb : (h.put m (low k) v).bufs = h.bufs ++ [v] := rfl
    refine ⟨h', v :: more, by simpa [Heap.pairsLoop] using h1, by simp [h2, hb], fun x => ?_, fun m' hm' x => ?_⟩
    · have := h3 x
      simp only [source]
      cases hs : source low r x with
      | none =>
        rw [hs] at this
        dsimp only at this ⊢
        rw [Heap.look_put h m m (low k) x v hm] at this
        by_cases e : x = low k
        · simp only [e, and_self, if_true] at this ⊢
          exact ⟨_, this, Nat.le_refl _, by simp [h2, hb]⟩
        · simpa [e] using this
      | some a =>
        rw [hs] at this
        cases a with
        | str w =>
          obtain ⟨b, b1, b2, b3⟩ := this
          exact ⟨b, b1, by rw [hb] at b2; simp at b2; omega, b3⟩
        | slice b => exact this
        | other => exact this
    · rw [h4 m' hm' x, Heap.look_put h m m' (low k) x v hm]
      simp [hm']
  | bytes k b r _ ih =>
    intro h hm
    obtain ⟨h', more, h1, h2, h3, h4⟩ := ih (h.share m (low k) b) (by simpa [Heap.share] using hm)
    have hb : (h.share m (low k) b).bufs = h.bufs := rfl
    refine ⟨h', more, by simpa [Heap.pairsLoop] using h1, by simp [h2, hb], fun x => ?_, fun m' hm' x => ?_⟩
    · have := h3 x
      simp only [source]
      cases hs : source low r x with
      | none =>
        rw [hs] at this
        dsimp only at this ⊢
        rw [look_share h m m (low k) x b hm] at this
        by_cases e : x = low k
        · simpa [e] using this
        · simpa [e] using this
      | some a =>
        rw [hs] at this
        cases a with
        | str w => exact this
        | slice b => exact this
        | other => exact this
    · rw [h4 m' hm' x, look_share h m m' (low k) x b hm]
      simp [hm']

/-- **C153, when Pairs panics.** For all arguments: exactly if they are not pairs of a string and a string or byte slice. -/
theorem C153_panics (low : Str → Str) (h : Heap) (args : List Arg) :
    (h.pairs low args = .panic ↔ ¬ Pairings args) := by
  constructor
  · intro hp hq
    obtain ⟨h', _, h1, _⟩ := loop_spec low h.maps.length args hq h.newMap (by simp [Heap.newMap])
    simp [Heap.pairs, h1] at hp
  · intro hq
    have : ∀ (n : Nat) (args : List Arg), args.length ≤ n → ¬ Pairings args → ∀ (g : Heap) (m : Nat),
        g.pairsLoop low m args = .panic := by
      intro n
      induction n with
      | zero =>
        intro args hl hq
        cases args with
        | nil => exact absurd .nil hq
        | cons => simp at hl
      | succ n ih =>
        intro args hl hq g m
        unfold Heap.pairsLoop
        split
        · exact absurd .nil hq
        · exact ih _ (by simp at hl; omega) (fun h => hq (.text _ _ _ h)) _ _
        · exact ih _ (by simp at hl; omega) (fun h => hq (.bytes _ _ _ h)) _ _
        · rfl
    simp [Heap.pairs, this _ args (Nat.le_refl _) hq]

/-- **C153, what Pairs gives.** For all arguments that are pairs, with slices that exist: `Get` of every key, in any
capitalisation, has the bytes of the last argument for it; keys that are not there have none; other metadata is as it
was.  After the caller writes into a buffer they had before, `Get` has the bytes that the argument has *then*: strings are
kept, slices are not. -/
theorem C153_pairs (low : Str → Str) (h : Heap) (args : List Arg) (hp : Pairings args)
    (hs : ∀ b, .slice b ∈ args → b < h.bufs.length) :
    ∃ h' m, h.pairs low args = .ok (h', m) ∧
      (∀ key, h'.get low m key = (source low args (low key)).bind (bytesOf h.bufs)) ∧
      (∀ b w, b < h.bufs.length → ∀ key,
        (h'.write b w).get low m key = (source low args (low key)).bind (bytesOf (h.bufs.set b w))) ∧
      (∀ m' x, m' < h.maps.length → h'.look m' x = h.look m' x) := by
  obtain ⟨h', more, h1, h2, h3, h4⟩ := loop_spec low h.maps.length args hp h.newMap (by simp [Heap.newMap])
  have hb : h.newMap.bufs = h.bufs := rfl
  have hn : ∀ x, h.newMap.look h.maps.length x = none := by
    intro x; simp [Heap.look, Heap.newMap, AMap.look]
  have hsrc : ∀ x b, source low args x = some (.slice b) → .slice b ∈ args := by
    clear h1 h3 hs
    have step : ∀ (k : Bytes) (v : Arg) (r : List Arg), (∀ x b, source low r x = some (.slice b) → .slice b ∈ r) →
        ∀ x b, source low (.str k :: v :: r) x = some (.slice b) → .slice b ∈ (.str k :: v :: r : List Arg) := by
      intro k v r ih x b hx
      simp only [source] at hx
      cases hr : source low r x with
      | some s =>
        rw [hr] at hx
        dsimp only at hx
        simp only [List.mem_cons]
        exact .inr (.inr (ih x b (hr.trans hx)))
      | none =>
        rw [hr] at hx
        dsimp only at hx
        split at hx
        · cases hx; simp
        · cases hx
    induction hp with
    | nil => intro x b hx; simp [source] at hx
    | text k v r _ ih => exact step _ _ _ ih
    | bytes k b r _ ih => exact step _ _ _ ih
  refine ⟨h', h.maps.length, by simp [Heap.pairs, h1], fun key => ?_, fun b w hbw key => ?_, fun m' x hm' => ?_⟩
  · have := h3 (low key)
    unfold Heap.get Heap.view
    cases e : source low args (low key) with
    | none => rw [e] at this; simp [this, hn]
    | some a =>
      rw [e] at this
      cases a with
      | str v =>
        obtain ⟨c, c1, -, c3⟩ := this
        simp [c1, c3, bytesOf]
      | slice c =>
        have hc := hs c (hsrc _ _ e)
        simp only at this
        simp [this, bytesOf, h2, hb, List.getElem?_append_left hc]
      | other => exact this.elim
  · have := h3 (low key)
    unfold Heap.get Heap.view
    have hl : (h'.write b w).look h.maps.length (low key) = h'.look h.maps.length (low key) := rfl
    have hw : (h'.write b w).bufs = h.bufs.set b w ++ more := by
      simp [Heap.write, h2, hb, List.set_append_left _ _ hbw]
    rw [hl, hw]
    cases e : source low args (low key) with
    | none => rw [e] at this; simp [this, hn]
    | some a =>
      rw [e] at this
      cases a with
      | str v =>
        obtain ⟨c, c1, c2, c3⟩ := this
        rw [hb] at c2
        rw [h2, hb, List.getElem?_append_right c2] at c3
        simp only [c1, Option.bind_some, bytesOf]
        rw [List.getElem?_append_right (by simpa using c2)]
        simpa using c3
      | slice c =>
        have hc := hs c (hsrc _ _ e)
        simp only at this
        simp only [this, Option.bind_some, bytesOf]
        rw [List.getElem?_append_left (by simpa using hc)]
      | other => exact this.elim
  · rw [h4 m' (by omega) x]
    exact Heap.look_newMap h m' x

/-- **C153, refuted: metadata shares byte slices with the caller.** For every heap, key and buffer: `Set` with a slice
makes later writes of the caller show in `Get`. -/
theorem C153_set_shares (low : Str → Str) (h : Heap) (m b : Nat) (key : Str) (w : Bytes) (hm : m < h.maps.length)
    (hb : b < h.bufs.length) :
    (h.setSlice low m key b).get low m key = h.bufs[b]? ∧
      ((h.setSlice low m key b).write b w).get low m key = some w := by
  have hl := look_share h m m (low key) (low key) b hm
  simp only [and_self, if_true] at hl
  constructor
  · unfold Heap.get Heap.view Heap.setSlice
    rw [hl]
    rfl
  · unfold Heap.get Heap.view Heap.setSlice
    have : ((h.share m (low key) b).write b w).look m (low key) = some b := hl
    rw [this]
    simp [Heap.write, Heap.share, hb]

/-! ### Concrete cases -/

/-- One buffer `[7]`, one other metadata. -/
def demo : Heap := ⟨[[]], [[7]]⟩

/-- `Pairs("A", "x", "B", buf)`. -/
def demoArgs : List Arg := [.str [65], .str [120], .str [66], .slice 0]

example : Pairings demoArgs := .text _ _ _ (.bytes _ _ _ .nil)
example : ∀ b, Arg.slice b ∈ demoArgs → b < demo.bufs.length := by simp [demoArgs, demo]

/-- The string stays, the slice changes under the metadata. -/
example : (do let (h, m) ← demo.pairs Str.lower demoArgs
              return ((h.write 0 [9]).get Str.lower m [97], (h.write 0 [9]).get Str.lower m [98])) =
    Res.ok (some [120], some [9]) := by decide +kernel

/-- A number as a value, a key without value. -/
example : ¬ Pairings [.str [65], .other] := by rintro ⟨⟩
example : ¬ Pairings [.str [65]] := by rintro ⟨⟩

example : demo.pairs Str.lower [.str [65]] = .panic := (C153_panics Str.lower demo _).mpr (by rintro ⟨⟩)
example : ((demo.setSlice Str.lower 0 [65] 0).write 0 [9]).get Str.lower 0 [65] = some [9] :=
  (C153_set_shares Str.lower demo 0 0 [65] [9] (by decide) (by decide)).2

end Claw.MetadataArgs
