import Verif.Lemmas.JsonForm
import Verif.Lemmas.JsonStr
import Verif.Props.Token

/-!
# C76: Marshal writes JSON
-/

namespace Claw.Json

open Claw.Idl (FT Out)
open Claw.Tok

set_option linter.unusedSimpArgs false

/-! ## C76 -/

/-- C76 for structs in which no list of structs has more than one item, at any depth, Any values included: Marshal
succeeds, and what it writes is the text of the JSON object that has the fields as members, in order. For every
declaration, recursive ones included, every such value, every depth of Any. -/
theorem C76_marshal_json_partial {env : Env} (hd : Named env) {u : Bool} {dec : AnyDec} (hdec : DecFits env dec)
    (hany : ∀ hash data s fs name, dec hash data = some (s, fs, name) → singles fs = true) (n : Nat)
    {s : Nat} {fs : List Val} (hf : FitsAll env (env s) fs) (hs : singles fs = true) :
    marshal env u dec n s fs = .ok (render (.obj (treeFields env u (anyTree env u dec n) (env s) fs))) := by
  unfold marshal
  rw [marshal_out (anyLex_tree hd hdec hany n) hd hf, outFields_tree (fun _ _ => rfl) fs hf hs]
  rfl

/-- C76 is violated: a list of two or more structs, at any depth, makes Marshal succeed with a text that is not JSON. -/
theorem C76_struct_list_broken {env : Env} (hd : Named env) {u : Bool} {dec : AnyDec} (hdec : DecFits env dec) (n : Nat)
    {s : Nat} {fs : List Val} (hf : FitsAll env (env s) fs) (hs : singles fs = false) :
    ∃ ls, marshal env u dec n s fs = .ok ls ∧ ¬ WellFormed ls := by
  obtain ⟨al, hal, _⟩ := anyLex_ok (u := u) hd hdec n
  refine ⟨_, marshal_out hal hd hf, fun h => ?_⟩
  have h1 := wellFormed_apart h
  rw [glued_of_cons (glued_left _ (outFields_glued fs hf hs true))] at h1
  exact absurd h1 (by decide)

/-- C76: Marshal never fails on a struct; what it writes is JSON exactly if no list of structs has more than one item. -/
theorem C76_json_iff_partial {env : Env} (hd : Named env) {u : Bool} {dec : AnyDec} (hdec : DecFits env dec)
    (hany : ∀ hash data s fs name, dec hash data = some (s, fs, name) → singles fs = true) (n : Nat)
    {s : Nat} {fs : List Val} (hf : FitsAll env (env s) fs) :
    ∃ ls, marshal env u dec n s fs = .ok ls ∧ (WellFormed ls ↔ singles fs = true) := by
  cases hs : singles fs with
  | true => exact ⟨_, C76_marshal_json_partial hd hdec hany n hf hs, fun _ => rfl, fun _ => ⟨_, rfl⟩⟩
  | false =>
    obtain ⟨ls, h1, h2⟩ := C76_struct_list_broken hd hdec n hf hs
    exact ⟨ls, h1, by simp [h2]⟩

/-- The JSON of the structs written to an Array. -/
def arrayTree (env : Env) (u : Bool) (anyJ : Bytes → Bytes → J) (l : List (Nat × List Val)) : J :=
  .arr (Js.ofList (fun p => .obj (treeFields env u anyJ (env p.1) p.2)) l)

/-- C76 for Array: any number of structs, of any types, written one after the other and closed, are one JSON array with one
object for each, in order; none at all is the empty array. -/
theorem C76_array_partial {env : Env} (hd : Named env) {u : Bool} {dec : AnyDec} (hdec : DecFits env dec)
    (hany : ∀ hash data s fs name, dec hash data = some (s, fs, name) → singles fs = true) (n : Nat)
    (l : List (Nat × List Val)) (hl : ∀ p ∈ l, FitsAll env (env p.1) p.2 ∧ singles p.2 = true) :
    arrayLex env u dec n false l = .ok (render (arrayTree env u (anyTree env u dec n) l)) := by
  have key : ∀ l : List (Nat × List Val), (∀ p ∈ l, FitsAll env (env p.1) p.2 ∧ singles p.2 = true) →
      arrayLex env u dec n true l = .ok (renderJs false
        (Js.ofList (fun p : Nat × List Val => .obj (treeFields env u (anyTree env u dec n) (env p.1) p.2)) l) ++ [.rbrack]) := by
    intro l
    induction l with
    | nil => intro _; rfl
    | cons p l ih =>
      intro h
      obtain ⟨s, fs⟩ := p
      have h1 := h (s, fs) (by simp)
      simp only [arrayLex, C76_marshal_json_partial hd hdec hany n h1.1 h1.2, ih fun p hp => h p (by simp [hp]), prepend,
        Js.ofList, renderJs]
      simp
  cases l with
  | nil => rfl
  | cons p l =>
    obtain ⟨s, fs⟩ := p
    have h1 := hl (s, fs) (by simp)
    simp only [arrayTree, render, arrayLex, C76_marshal_json_partial hd hdec hany n h1.1 h1.2,
      key l fun p hp => hl p (by simp [hp]), prepend, Js.ofList, renderJs]
    simp

theorem ascii_utf8 (s : Bytes) (h : ∀ c ∈ s, c.toNat < 128) : Utf8 s := by
  have := utf8_repaired s
  rwa [repaired_ascii h] at this

theorem exEnv_named : Named exEnv := by
  intro s d hd
  match s with
  | 0 =>
    simp only [exEnv, List.mem_cons, List.not_mem_nil, or_false] at hd
    rcases hd with rfl | rfl | rfl | rfl | rfl | rfl <;> exact ⟨by decide, ascii_utf8 _ (by decide)⟩
  | 1 =>
    simp only [exEnv, List.mem_cons, List.not_mem_nil, or_false] at hd
    rcases hd with rfl | rfl <;> exact ⟨by decide, ascii_utf8 _ (by decide)⟩
  | _ + 2 => simp [exEnv] at hd

/-- A struct with another in it, with an Any. -/
def exOne : List Val :=
  [.num 0xfffffffffffffffe, .num 1, .list [.obj exLeaf],
   .map [.str (lit "a"), .str (lit "b")] [.obj [.bin (lit "x"), .bins [lit "t"]], .obj [.bin [], .bins []]],
   .obj exLeaf, .any (List.replicate 16 7) [1, 2]]

theorem exOne_fits : FitsAll exEnv (exEnv 0) exOne :=
  .cons (.num ⟨-2, rfl⟩) (.cons (.num ⟨1, rfl⟩) (.cons (.list (.cons exLeaf_fits .nil))
    (.cons (.map (by simp [KeyFits]) (by simp [Rising, keyCmp]; decide)
      (.cons (.struct (.cons .str (.cons .strs .nil))) (.cons (.struct (.cons .str (.cons .strs .nil))) .nil)))
      (.cons (.obj exLeaf_fits) (.cons (.any ⟨rfl, by simp⟩) .nil)))))

/-- One registered type: every Any is a leaf. -/
def exDec : AnyDec := fun hash _ => if hash = List.replicate 16 7 then some (0, exLeaf, lit "Leaf") else none

theorem exDec_fits : DecFits exEnv exDec := by
  intro hash data s fs name h
  unfold exDec at h
  split at h
  · cases h; exact exLeaf_fits
  · cases h

theorem exDec_singles : ∀ hash data s fs name, exDec hash data = some (s, fs, name) → singles fs = true := by
  intro hash data s fs name h
  unfold exDec at h
  split at h
  · cases h; rfl
  · cases h

example : ∃ ls, marshal exEnv false exDec 3 0 exOne = .ok ls ∧ WellFormed ls :=
  ⟨_, C76_marshal_json_partial exEnv_named exDec_fits exDec_singles 3 exOne_fits (by decide), _, rfl⟩

-- `exVal` has a list of two structs
example : ∃ ls, marshal exEnv true exDec 3 0 exVal = .ok ls ∧ ¬ WellFormed ls :=
  C76_struct_list_broken exEnv_named exDec_fits 3 exVal_fits (by decide)

example : ∃ ls, arrayLex exEnv true exDec 3 false [(0, exOne), (0, exLeaf)] = .ok ls ∧ WellFormed ls :=
  ⟨_, C76_array_partial exEnv_named exDec_fits exDec_singles 3 _ (by
    intro p hp
    simp only [List.mem_cons, List.not_mem_nil, or_false] at hp
    rcases hp with rfl | rfl
    · exact ⟨exOne_fits, by decide⟩
    · exact ⟨exLeaf_fits, by decide⟩), _, rfl⟩

end Claw.Json
