import Verif.Model.Get
import Verif.Lemmas.Compile
import Verif.Lemmas.VendorGraph

/-! # Lemmas for `clawc get` -/

namespace Claw.Vendor

open Claw.Idl (Out Uni)
open Claw.Mod (Module Replace)
open Claw.Graph

/-- claw.mod as if it required the version of the package. -/
def pinned (root : Module) (p v : Str) : Module := { root with required := ⟨p, ⟨0, 0, 0⟩, v⟩ :: root.required }

theorem resolve_pinned (root : Module) (p v d : Str) : resolveVersion d (pinned root p v) = if d = p then v else resolveVersion d root := by
  by_cases h : d = p
  · subst h
    simp [resolveVersion, pinned]
  · rw [if_neg h]
    have : (p == d) = false := by simpa using fun e : p = d => h e.symm
    simp only [resolveVersion, pinned, List.find?_cons, this]

theorem walk_congr {σ : Type} {f f' : Str → σ → Out σ} (h : ∀ d s, f d s = f' d s) : ∀ (l : List Str) (s : σ), walk f l s = walk f' l s
  | [], _ => rfl
  | d :: l, s => by
    simp only [walk, h d s]
    congr 1
    funext x
    exact walk_congr h l x

variable {w : World} {u : Uni} {single : Bool} {root : Module} {loc : List Replace}

/-- Below the package its version makes no difference. -/
theorem process_below {p v : Str} : ∀ (n : Nat) (visited : List Str) (d ver : Str) (g : Graph), p ∈ visited →
    process w u single root loc n visited d ver g = process w u single (pinned root p v) loc n visited d ver g
  | 0, _, _, _, _, _ => rfl
  | n + 1, visited, d, ver, g, h => by
    rw [process, process]
    split
    · rfl
    · split
      · rfl
      · rw [show applyReplace d (pinned root p v) loc = applyReplace d root loc from rfl]
        simp only []
        congr 1
        funext x
        obtain ⟨deps, vend⟩ := x
        simp only []
        refine walk_congr (fun e s => ?_) _ _
        rw [resolve_pinned]
        by_cases he : e = p
        · subst he
          cases n with
          | zero => rfl
          | succ n =>
            rw [process, process, if_pos (by simp [h]), if_pos (by simp [h])]
        · rw [if_neg he]
          exact process_below n (d :: visited) e _ s (by simp [h])

theorem process_top (n : Nat) (p v : Str) :
    process w u single root loc n [] p v [] = process w u single (pinned root p v) loc n [] p (resolveVersion p (pinned root p v)) [] := by
  rw [resolve_pinned, if_pos rfl]
  cases n with
  | zero => rfl
  | succ n =>
    rw [process, process, if_neg (by simp), if_neg (by simp), if_neg (by simp), if_neg (by simp)]
    rw [show applyReplace p (pinned root p v) loc = applyReplace p root loc from rfl]
    simp only []
    congr 1
    funext x
    obtain ⟨deps, vend⟩ := x
    simp only []
    refine walk_congr (fun e s => ?_) _ _
    rw [resolve_pinned]
    by_cases he : e = p
    · subst he
      cases n with
      | zero => rfl
      | succ n => rw [process, process, if_pos (by simp), if_pos (by simp)]
    · rw [if_neg he]
      exact process_below n [p] e _ s (by simp)

end Claw.Vendor

namespace Claw.Compile

open Claw.Idl (Out Uni)
open Claw.Mod (Module splitBy)
open Claw.VendorDir
open Claw.Graph
open Claw.Vendor (World Graph hasSuffix inRepo absRel applyReplace resolveVersion fetch isLocalPath)

theorem schemaIn_text (schema : Bytes → Option (List Str)) (fs : FS) (d : Dir) : schemaIn schema fs d = (textIn fs d).bind schema := by
  unfold schemaIn textIn
  cases findClaw fs d <;> rfl

theorem claw_text (b : Box) (p : Str) : b.claw p = (b.text p).bind b.schema := by
  unfold Box.claw Box.text
  split
  · cases b.locate p <;> rfl
  · exact schemaIn_text _ _ _

/-- In a git repository, what is collected for a package is what its content imports. -/
theorem fetch_content {b : Box} {o : Str} {r : Dir} (hgit : b.git = some (o, r)) (p v : Str) :
    fetch b.world true p v = match (b.content p v).bind b.schema with | some deps => .ok (deps, true) | none => .err := by
  have hw : b.world.git = some (inRepo o, fun p => some (pathOf (down r (splitBy 47 (absRel o p))))) := by simp [Box.world, hgit]
  unfold fetch Box.content
  rw [hw, hgit, show b.world.claw = b.claw from rfl, show b.world.remote p v = (b.remote p v).bind b.schema from rfl]
  simp only [claw_text]
  by_cases h : isLocalPath p = true
  · simp only [h, if_true]
    cases (b.text p).bind b.schema <;> rfl
  · simp only [h, Bool.false_eq_true, if_false]
    by_cases hi : inRepo o p = true
    · simp only [hi, if_true]
      generalize (b.text _).bind b.schema = x
      cases x <;> rfl
    · simp only [hi, Bool.false_eq_true, if_false]
      generalize (b.remote p v).bind b.schema = x
      cases x <;> rfl

/-- What is neither below the directory nor on the way to it is as it was. -/
structure Kept (v : Dir) (fs fs' : FS) : Prop where
  same : ∀ e n, ¬ v <:+ e → ¬ n :: e <:+ v → get fs' e n = get fs e n
  dirs : ∀ e n, n :: e <:+ v → get fs e n = some .dir → get fs' e n = some .dir
  once : Once fs'

theorem kept {v : Dir} {fs fs' : FS} {ps : List Pkg} (ho : Once fs) (hc : ∀ p ∈ ps, Clean p.path) (hn : (ps.map (·.path)).Nodup)
    (h : vendorAll v fs ps = .ok fs') : Kept v fs fs' := by
  obtain ⟨h1, h2, -⟩ := all_ok hc hn h
  refine ⟨fun e n a b => h2 e n fun p hp => not_touched (hc p hp) a b, fun e n hv hd => ?_, once_vendorAll ho h⟩
  by_cases ht : ∃ p ∈ ps, Touches v p e n
  · obtain ⟨p, hp, ht⟩ := ht
    have hd := pkgDir_clean v (hc p hp)
    have hlen := hv.length_le
    simp only [List.length_cons] at hlen
    have hlong : ¬ e = pkgDir v p.path := by
      intro he
      rw [he, hd, List.length_append] at hlen
      omega
    rcases ht with ht | ⟨ht, -⟩ | ht
    · exact absurd (Prod.ext_iff.1 ht).1 hlong
    · exact absurd (Prod.ext_iff.1 ht).1 hlong
    · exact (h1 p hp).dirs n e ht
  · rw [h2 e n fun p hp q => ht ⟨p, hp, q⟩, hd]

theorem Kept.isDir {v : Dir} {fs fs' : FS} (k : Kept v fs fs') {d : Dir} (hd : ¬ v <:+ d) (h : VendorDir.isDir fs d = true) :
    VendorDir.isDir fs' d = true := by
  cases d with
  | nil => rfl
  | cons n e =>
    simp only [VendorDir.isDir, decide_eq_true_eq] at h ⊢
    by_cases hv : n :: e <:+ v
    · exact k.dirs e n hv h
    · rw [k.same e n (fun q => hd (q.trans (List.suffix_cons _ _))) hv]
      exact h

theorem Kept.text {v : Dir} {fs fs' : FS} (k : Kept v fs fs') (ho : Once fs) (hv : ∀ n ∈ v, hasSuffix (lit ".claw") n = false) {d : Dir}
    (hd : ¬ v <:+ d) {t : Bytes} (h : textIn fs d = some t) : textIn fs' d = some t := by
  unfold textIn at h ⊢
  have hsame : ∀ n, hasSuffix (lit ".claw") n = true → get fs' d n = get fs d n := by
    intro n hn
    refine k.same d n hd fun q => ?_
    have := hv n (q.subset (by simp))
    rw [hn] at this
    cases this
  cases hf : findClaw fs d with
  | err => rw [hf] at h; cases h
  | panic => rw [hf] at h; cases h
  | ok n =>
    rw [hf] at h
    obtain ⟨h1, h2⟩ := (findClaw_iff ho d n).1 hf
    have hn : hasSuffix (lit ".claw") n = true := (h2 (lit ".claw") (by decide)).2.1
    have hf' : findClaw fs' d = .ok n := by
      rw [findClaw_iff k.once]
      refine ⟨k.isDir hd h1, fun x hx => ?_⟩
      rw [hsame x hx, hsame n hn]
      exact h2 x hx
    rw [hf']
    simp only [fileAt, hsame n hn] at h ⊢
    exact h

/-- A package in the vendor directory that has a schema there has the one that was vendored. -/
theorem text_of_has {v : Dir} {fs : FS} (ho : Once fs) {p : Pkg} (hh : Has v fs p) {t : Bytes} (h : textIn fs (pkgDir v p.path) = some t) :
    t = p.content := by
  unfold textIn at h
  cases hf : findClaw fs (pkgDir v p.path) with
  | err => rw [hf] at h; cases h
  | panic => rw [hf] at h; cases h
  | ok n =>
    have hn : clawName p.path = n := ((((findClaw_iff ho _ n).1 hf).2 (clawName p.path) (clawName_suffix _)).1).1 (by rw [hh.schema]; simp)
    rw [hf] at h
    simp only [← hn, fileAt, hh.schema] at h
    cases h
    rfl

end Claw.Compile
