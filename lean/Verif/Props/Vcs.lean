import Verif.Model.Vcs
import Verif.Spec.Vcs
import Verif.Lemmas.Idl
import Verif.Props.Fetch
import Verif.Props.Locate
import Verif.Props.Vendor

/-!
# C132: what the compiler learns from git
-/

namespace Claw.Vcs

open Claw.Idl (Out atoi decimal decimal_digit decimal_ne_nil atoi_decimal)
open Claw.Mod (splitBy isDigit)
open Claw.Fetch (splitBy_none' splitBy_cons)
open Claw.Vendor (splitStr split_not trimSuffix trimSuffix_append inRepo absRel)
open Claw.VcsSpec

/-! ### Versions -/

theorem digit_iff (c : UInt8) : isDigit c = true ↔ 48 ≤ c ∧ c ≤ 57 := by
  rw [isDigit, Bool.and_eq_true, decide_eq_true_iff, decide_eq_true_iff]

theorem takeWhile_run {p : UInt8 → Bool} {t : Str} (ht : ∀ c, t.head? = some c → p c = false) :
    ∀ {s : Str}, (∀ c ∈ s, p c = true) → (s ++ t).takeWhile p = s ∧ (s ++ t).dropWhile p = t := by
  intro s
  induction s with
  | nil =>
    intro _
    cases t with
    | nil => simp
    | cons c t =>
      have := ht c rfl
      simp [this]
  | cons c s ih =>
    intro h
    have hc := h c (by simp)
    have := ih fun d hd => h d (by simp [hd])
    simp [hc, this]

theorem decimal_isDigit (n : Nat) : ∀ c ∈ decimal n, isDigit c = true := fun c hc => (digit_iff c).2 (decimal_digit n c hc)

theorem decimal_no_dot (n : Nat) : (46 : UInt8) ∉ decimal n := fun h => absurd (decimal_digit n 46 h).1 (by decide)

/-- The text of a version. -/
def verText (a b c : Nat) : Str := decimal a ++ 46 :: (decimal b ++ 46 :: decimal c)

theorem matchVer_text (a b c : Nat) {rest : Str} (hr : ∀ x, rest.head? = some x → isDigit x = false) :
    matchVer (verText a b c ++ rest) = some (verText a b c) := by
  have e : verText a b c ++ rest = decimal a ++ (46 :: (decimal b ++ (46 :: (decimal c ++ rest)))) := by simp [verText]
  have h46 : ∀ t : Str, ∀ x, (46 :: t).head? = some x → isDigit x = false := by
    intro t x hx
    simp only [List.head?_cons, Option.some.injEq] at hx
    subst hx
    decide
  obtain ⟨a1, a2⟩ := takeWhile_run (h46 (decimal b ++ (46 :: (decimal c ++ rest)))) (decimal_isDigit a)
  obtain ⟨b1, b2⟩ := takeWhile_run (h46 (decimal c ++ rest)) (decimal_isDigit b)
  obtain ⟨c1, _⟩ := takeWhile_run hr (decimal_isDigit c)
  rw [e, matchVer]
  simp only [a1, a2]
  cases ha : decimal a with
  | nil => exact absurd ha (decimal_ne_nil a)
  | cons x xs =>
    simp only [b1, b2]
    cases hb : decimal b with
    | nil => exact absurd hb (decimal_ne_nil b)
    | cons y ys =>
      simp only [c1]
      cases hc : decimal c with
      | nil => exact absurd hc (decimal_ne_nil c)
      | cons z zs => simp [verText, ha, hb, hc]

theorem matchVer_none {c : UInt8} (h : isDigit c = false) (s : Str) : matchVer (c :: s) = none := by
  rw [matchVer]
  simp [h]

theorem findVer_text (a b c : Nat) {rest : Str} (hr : ∀ x, rest.head? = some x → isDigit x = false) :
    ∀ {pre : Str}, (∀ x ∈ pre, isDigit x = false) → findVer (pre ++ (verText a b c ++ rest)) = some (verText a b c) := by
  intro pre
  induction pre with
  | nil =>
    intro _
    have h := matchVer_text a b c hr
    rw [List.nil_append]
    cases hs : verText a b c ++ rest with
    | nil =>
      rw [hs] at h
      simp [matchVer] at h
    | cons x xs =>
      rw [hs] at h
      rw [findVer, h]
  | cons x pre ih =>
    intro h
    rw [List.cons_append, findVer, matchVer_none (h x (by simp))]
    exact ih fun y hy => h y (by simp [hy])

theorem fromString_text {a b c : Nat} (ha : a < 2 ^ 63) (hb : b < 2 ^ 63) (hc : c < 2 ^ 63) :
    fromString (verText a b c) = .ok ⟨a, b, c⟩ := by
  rw [fromString, verText, splitBy_cons _ (decimal_no_dot a), splitBy_cons _ (decimal_no_dot b), splitBy_none' (decimal_no_dot c)]
  simp [atoi_decimal, ha, hb, hc, Out.ofOption]

/-- C132: the version of git is the first thing that looks like one in what `git version` prints, whatever comes after it. -/
theorem C132_version {a b c : Nat} (ha : a < 2 ^ 63) (hb : b < 2 ^ 63) (hc : c < 2 ^ 63) {pre rest : Str}
    (hp : ∀ x ∈ pre, isDigit x = false) (hr : ∀ x, rest.head? = some x → isDigit x = false) :
    version (some (pre ++ (verText a b c ++ rest))) = .ok ⟨a, b, c⟩ := by
  rw [version]
  simp only [findVer_text a b c hr hp]
  exact fromString_text ha hb hc

example : version (some (lit "git version 2.39.5 (Apple Git-154)\n")) = .ok ⟨2, 39, 5⟩ := by decide +kernel
example : version (some (lit "git version 2.40.1.windows.1\n")) = .ok ⟨2, 40, 1⟩ := by decide +kernel
/-- Without a third number the version is not found: the compiler goes on as if there were no git. -/
example : version (some (lit "git version 2.40-rc1\n")) = .err := by decide +kernel

theorem meets_iff (a b c : Nat) : meetsMin ⟨a, b, c⟩ = true ↔ 2 ≤ a ∧ 18 ≤ b := by
  rw [meetsMin]
  by_cases h1 : (a : Int) < 2
  · simp only [h1, if_true]
    constructor
    · intro h; cases h
    · intro h; omega
  · by_cases h2 : (b : Int) < 18
    · simp only [h1, h2, if_false, if_true]
      constructor
      · intro h; cases h
      · intro h; omega
    · simp only [h1, h2, if_false]
      constructor
      · intro _; omega
      · intro _; trivial

theorem newGit_eq {a b c : Nat} (ha : a < 2 ^ 63) (hb : b < 2 ^ 63) (hc : c < 2 ^ 63) {pre rest : Str}
    (hp : ∀ x ∈ pre, isDigit x = false) (hr : ∀ x, rest.head? = some x → isDigit x = false) :
    newGit (some (lit "true\n")) (some (pre ++ (verText a b c ++ rest))) =
      if 2 ≤ a ∧ 18 ≤ b then .ok ⟨a, b, c⟩ else .err := by
  have h1 : checkInRepo (some (lit "true\n")) = .ok () := by decide
  rw [newGit, h1]
  simp only [Out.ok_bind, C132_version ha hb hc hp hr]
  by_cases h : 2 ≤ a ∧ 18 ≤ b
  · rw [if_pos h, if_pos ((meets_iff a b c).2 h)]
  · rw [if_neg h, if_neg]
    exact fun hm => h ((meets_iff a b c).1 hm)

/-- C132 (partial): inside a work tree git is used just if it is 2.18.0 or newer, for git 1, git 2 and those later ones whose second
number is at least 18. Missing: the other later ones, see `C132_git3`. -/
theorem C132_min_partial {a b c : Nat} (ha : a < 2 ^ 63) (hb : b < 2 ^ 63) (hc : c < 2 ^ 63) {pre rest : Str}
    (hp : ∀ x ∈ pre, isDigit x = false) (hr : ∀ x, rest.head? = some x → isDigit x = false) (h2 : a ≤ 2 ∨ 18 ≤ b) :
    (NewEnough a b c → newGit (some (lit "true\n")) (some (pre ++ (verText a b c ++ rest))) = .ok ⟨a, b, c⟩) ∧
    (¬ NewEnough a b c → newGit (some (lit "true\n")) (some (pre ++ (verText a b c ++ rest))) = .err) := by
  rw [newGit_eq ha hb hc hp hr]
  unfold NewEnough
  constructor
  · intro h
    rw [if_pos (by omega)]
  · intro h
    rw [if_neg (by omega)]

/-- C132 is violated: git 3.0 to 3.17, and so on, are refused as older than 2.18.0. -/
theorem C132_git3 {a b c : Nat} (ha : a < 2 ^ 63) (hb : b < 2 ^ 63) (hc : c < 2 ^ 63) {pre rest : Str}
    (hp : ∀ x ∈ pre, isDigit x = false) (hr : ∀ x, rest.head? = some x → isDigit x = false) (h3 : 2 < a) (h17 : b < 18) :
    NewEnough a b c ∧ newGit (some (lit "true\n")) (some (pre ++ (verText a b c ++ rest))) = .err := by
  rw [newGit_eq ha hb hc hp hr, if_neg (by omega)]
  exact ⟨.inl h3, rfl⟩

example : newGit (some (lit "true\n")) (some (lit "git version 2.18.0\n")) = .ok ⟨2, 18, 0⟩ := by decide +kernel
example : newGit (some (lit "true\n")) (some (lit "git version 2.17.9\n")) = .err := by decide +kernel
example : newGit (some (lit "true\n")) (some (lit "git version 1.99.0\n")) = .err := by decide +kernel
example : newGit (some (lit "true\n")) (some (lit "git version 3.0.0\n")) = .err := by decide +kernel

/-- C132: outside a work tree — where the command fails, in a bare repository and in a `.git` directory — git is not used. -/
theorem C132_outside (ver : Option Str) : newGit none ver = .err ∧ newGit (some (lit "false\n")) ver = .err := by
  constructor
  · rfl
  · have h1 : checkInRepo (some (lit "false\n")) = .err := by decide
    rw [newGit, h1]
    rfl

theorem trimSpace_line {s : Str} (h : ∀ c ∈ s, isSpace c = false) : trimSpace (s ++ lit "\n") = s := by
  have h1 : (s ++ lit "\n").dropWhile isSpace = (if s = [] then [] else s ++ lit "\n") := by
    cases s with
    | nil => decide
    | cons c s => simp [h c (by simp)]
  rw [trimSpace, h1]
  split
  · rename_i e; subst e; rfl
  · rename_i hs
    have : (s ++ lit "\n").reverse = 10 :: s.reverse := by simp [lit]
    rw [this, List.dropWhile_cons, if_pos (by decide)]
    have h2 : ∀ c ∈ s.reverse, isSpace c = false := fun c hc => h c (by simpa using hc)
    cases hr : s.reverse with
    | nil => exact absurd (by simpa using hr) hs
    | cons c t =>
      have := h2 c (by rw [hr]; simp)
      rw [List.dropWhile_cons, if_neg (by simp [this]), ← hr]
      simp

theorem every_byte {p : UInt8 → Prop} (h : ∀ x : Fin 256, p (UInt8.ofNat x.val)) (c : UInt8) : p c := by
  have := h ⟨c.toNat, c.toNat_lt⟩
  simpa using this

theorem space_of {c : UInt8} (h : 32 < c) : isSpace c = false := by
  have : ∀ x : Fin 256, 32 < UInt8.ofNat x.val → isSpace (UInt8.ofNat x.val) = false := by decide +kernel
  exact every_byte (p := fun c => 32 < c → isSpace c = false) this c h

/-- C132: git is not used whatever else the command prints but `true`. -/
theorem C132_not_inside {w : Str} (h : ∀ c ∈ w, 32 < c) (hw : w ≠ lit "true") (ver : Option Str) : newGit (some (w ++ lit "\n")) ver = .err := by
  have e : trimSpace (w ++ lit "\n") = w := trimSpace_line fun c hc => space_of (h c hc)
  have h1 : checkInRepo (some (w ++ lit "\n")) = .err := by
    simp only [checkInRepo, e]
    rw [if_neg hw]
  rw [newGit, h1]
  rfl

example : newGit (some (lit "warning\n")) (some (lit "git version 2.40.1\n")) = .err := C132_not_inside (w := lit "warning") (by decide) (by decide) _

/-! ### The root -/

theorem isPrefixOf_sep {x y : Str} {m : UInt8} : ∀ {sep : Str}, m ∉ sep → sep.isPrefixOf (x ++ m :: y) = sep.isPrefixOf x := by
  induction x with
  | nil =>
    intro sep h
    cases sep with
    | nil => rfl
    | cons a sep =>
      have : ¬ a = m := fun e => h (by simp [e])
      simp [List.isPrefixOf, this]
  | cons c x ih =>
    intro sep h
    cases sep with
    | nil => rfl
    | cons a sep =>
      rw [List.cons_append, List.isPrefixOf, List.isPrefixOf, ih fun hm => h (by simp [hm])]

theorem index_after {sep d t : Str} {m : UInt8} (hs : sep ≠ []) (hm : m ∉ sep) (h : Str.contains d sep = false) :
    Str.index sep (d ++ m :: (sep ++ t)) = some (d.length + 1) := by
  induction d with
  | nil =>
    have h0 : sep.isPrefixOf (m :: (sep ++ t)) = false := by
      cases sep with
      | nil => exact absurd rfl hs
      | cons a sep =>
        have : ¬ a = m := fun e => hm (by simp [e])
        simp [List.isPrefixOf, this]
    rw [List.nil_append, Str.index, if_neg (by simp [h0])]
    cases sep with
    | nil => exact absurd rfl hs
    | cons a b =>
      rw [List.cons_append, Str.index, if_pos]
      · rfl
      · rw [List.isPrefixOf_iff_prefix]
        exact ⟨t, by simp⟩
  | cons c d ih =>
    rw [Str.contains, Str.index] at h
    split at h
    · cases h
    · rename_i hp
      have hd : Str.contains d sep = false := by
        rw [Str.contains]
        cases hx : Str.index sep d with
        | none => rfl
        | some i =>
          rw [hx] at h
          cases h
      have hp2 : ¬ sep.isPrefixOf (c :: (d ++ m :: (sep ++ t))) = true := by
        have := @isPrefixOf_sep (c :: d) (sep ++ t) m sep hm
        rw [List.cons_append] at this
        rw [this]
        exact hp
      rw [List.cons_append, Str.index, if_neg hp2, ih hd]
      simp

theorem split_at {sep s : Str} {i : Nat} (hs : sep ≠ []) (h : Str.index sep s = some i) :
    splitStr sep s = s.take i :: splitStr sep (s.drop (i + sep.length)) := by
  rw [splitStr]
  split
  · rename_i h2
    rw [h] at h2
    cases h2
  · rename_i j h2
    rw [h] at h2
    cases h2
    rw [dif_neg hs]

theorem split_after {sep d t : Str} {m : UInt8} (hs : sep ≠ []) (hm : m ∉ sep) (h : Str.contains d sep = false) :
    splitStr sep (d ++ m :: (sep ++ t)) = (d ++ [m]) :: splitStr sep t := by
  rw [split_at hs (index_after hs hm h)]
  congr 1
  · have : d ++ m :: (sep ++ t) = (d ++ [m]) ++ (sep ++ t) := by simp
    rw [this, List.take_left' (by simp)]
  · have : d ++ m :: (sep ++ t) = ((d ++ [m]) ++ sep) ++ t := by simp
    rw [this, List.drop_left' (by simp; omega)]

theorem index_le {sep x y : Str} (hs : sep ≠ []) : ∃ i, Str.index sep (x ++ (sep ++ y)) = some i ∧ i ≤ x.length := by
  induction x with
  | nil =>
    cases sep with
    | nil => exact absurd rfl hs
    | cons a b =>
      refine ⟨0, ?_, by simp⟩
      rw [List.nil_append, List.cons_append, Str.index, if_pos]
      rw [List.isPrefixOf_iff_prefix]
      exact ⟨y, by simp⟩
  | cons c x ih =>
    obtain ⟨i, h1, h2⟩ := ih
    rw [List.cons_append, Str.index]
    split
    · exact ⟨0, rfl, by simp⟩
    · rw [h1]
      exact ⟨i + 1, rfl, by simpa using h2⟩

/-- The directory of the repository is `d ++ "/.git"`. -/
def gitDir (d : Str) : Str := d ++ lit "/.git"

theorem gitDir_eq (d t : Str) : gitDir d ++ t = d ++ 47 :: (lit ".git" ++ t) := by simp [gitDir, lit]

/-- C132 (partial): below the top of the work tree, where git prints the whole name of its directory, the root is the directory of the
work tree, if `.git` does not occur in its name. Missing: the other names, see `C132_root_name`. -/
theorem C132_root_partial {d : Str} (h : Str.contains d (lit ".git") = false) : root (some (gitDir d ++ lit "\n")) = .ok (d ++ [47]) := by
  rw [root, gitDir_eq]
  simp only [split_after (sep := lit ".git") (m := 47) (by decide) (by decide) h, split_not (show Str.contains (lit "\n") (lit ".git") = false by decide)]

/-- C132 is violated: if `.git` occurs in the name of the directory, as in `me.github.io`, the compiler panics. -/
theorem C132_root_name {d : Str} (h : Str.contains d (lit ".git") = true) : root (some (gitDir d ++ lit "\n")) = .panic := by
  have hs : lit ".git" ≠ [] := by decide
  obtain ⟨x, y, rfl⟩ : ∃ x y, d = x ++ (lit ".git" ++ y) := by
    clear hs
    induction d with
    | nil => exact absurd h (by decide)
    | cons c d ih =>
      rw [Str.contains, Str.index] at h
      split at h
      · rename_i hp
        rw [List.isPrefixOf_iff_prefix] at hp
        obtain ⟨y, hy⟩ := hp
        exact ⟨[], y, by simp [hy]⟩
      · cases hx : Str.index (lit ".git") d with
        | none => rw [hx] at h; cases h
        | some i =>
          obtain ⟨x, y, he⟩ := ih (by rw [Str.contains, hx]; rfl)
          exact ⟨c :: x, y, by simp [← he]⟩
  have e : gitDir (x ++ (lit ".git" ++ y)) ++ lit "\n" = x ++ (lit ".git" ++ ((y ++ [47]) ++ (lit ".git" ++ [10]))) := by simp [gitDir, lit]
  obtain ⟨i, h1, h2⟩ := @index_le (lit ".git") x ((y ++ [47]) ++ (lit ".git" ++ [10])) hs
  have e2 : (x ++ (lit ".git" ++ ((y ++ [47]) ++ (lit ".git" ++ [10])))).drop (i + (lit ".git").length) =
      ((x ++ lit ".git").drop (i + (lit ".git").length) ++ (y ++ [47])) ++ (lit ".git" ++ [10]) := by
    have : x ++ (lit ".git" ++ ((y ++ [47]) ++ (lit ".git" ++ [10]))) = (x ++ lit ".git") ++ ((y ++ [47]) ++ (lit ".git" ++ [10])) := by simp
    rw [this, List.drop_append_of_le_length (by simp; omega)]
    simp
  obtain ⟨j, h3, _⟩ := @index_le (lit ".git") ((x ++ lit ".git").drop (i + (lit ".git").length) ++ (y ++ [47])) [10] hs
  rw [root, e]
  simp only [split_at hs h1, e2, split_at hs h3]
  split
  · rename_i hl
    simp only [List.cons.injEq] at hl
    obtain ⟨_, _, hl⟩ := hl
    exact absurd hl (by rw [splitStr]; split <;> simp; split <;> simp)
  · rfl

/-- C132 is violated: in a linked worktree the root is that of the main work tree, so packages of the repository are read from there. -/
theorem C132_worktree {main w : Str} (h : Str.contains main (lit ".git") = false)
    (hw : Str.contains (lit "/worktrees/" ++ w ++ lit "\n") (lit ".git") = false) :
    root (some (worktreeDir main w ++ lit "\n")) = .ok (main ++ [47]) := by
  have e : worktreeDir main w ++ lit "\n" = main ++ 47 :: (lit ".git" ++ (lit "/worktrees/" ++ w ++ lit "\n")) := by
    simp [worktreeDir, lit]
  rw [root, e]
  simp only [split_after (sep := lit ".git") (m := 47) (by decide) (by decide) h, split_not hw]

/-- C132: at the top of the work tree the root is the empty name, which stands for the directory that the compiler runs in. -/
theorem C132_top : root (some (lit ".git\n")) = .ok [] := by
  rw [root]
  have h := @split_at (lit ".git") (lit ".git\n") 0 (by decide) (by decide)
  simp only [h]
  rw [show (lit ".git\n").drop (0 + (lit ".git").length) = lit "\n" by decide,
    split_not (show Str.contains (lit "\n") (lit ".git") = false by decide)]
  rfl

example : root (some (lit "/home/me/claw/.git\n")) = .ok (lit "/home/me/claw/") := C132_root_partial (d := lit "/home/me/claw") (by decide)
example : root (some (lit "/home/me/me.github.io/.git\n")) = .panic := C132_root_name (d := lit "/home/me/me.github.io") (by decide)
example : root (some (lit "/home/me/claw/.git/worktrees/fix\n")) = .ok (lit "/home/me/claw/") :=
  C132_worktree (main := lit "/home/me/claw") (w := lit "fix") (by decide) (by decide)

/-! ### The origin -/

theorem letter_isLetter (c : UInt8) : letter c = isLetter c := by
  have : ∀ x : Fin 256, letter (UInt8.ofNat x.val) = isLetter (UInt8.ofNat x.val) := by decide +kernel
  exact every_byte (p := fun c => letter c = isLetter c) this c

theorem getScheme_letters (whole t : Str) : ∀ {s seen : Str}, (∀ c ∈ s, letter c = true) → seen ++ s ≠ [] →
    getScheme whole seen (s ++ 58 :: t) = some (seen ++ s, t) := by
  intro s
  induction s with
  | nil =>
    intro seen _ hne
    rw [List.nil_append, getScheme, if_neg (by decide), if_neg (by decide), if_pos rfl, if_neg (by simpa using hne)]
    simp
  | cons c s ih =>
    intro seen h _
    rw [List.cons_append, getScheme, if_pos (by rw [← letter_isLetter]; exact h c (by simp)),
      ih (fun d hd => h d (by simp [hd])) (by simp)]
    simp

/-- What may be in the parts of an address. -/
structure Byte (c : UInt8) : Prop where
  printable : 32 < c ∧ c ≠ 127
  ne : c ≠ 35 ∧ c ≠ 37 ∧ c ≠ 63 ∧ c ≠ 47 ∧ c ≠ 58 ∧ c ≠ 64
  user : userByte c = true
  host : hostByte c = true

theorem byte_of {c : UInt8} (h : plain c = true) : Byte c := by
  let q (c : UInt8) : Bool := !plain c || (decide ((32 < c ∧ c ≠ 127) ∧ (c ≠ 35 ∧ c ≠ 37 ∧ c ≠ 63 ∧ c ≠ 47 ∧ c ≠ 58 ∧ c ≠ 64)) &&
      userByte c && hostByte c)
  have : ∀ x : Fin 256, q (UInt8.ofNat x.val) = true := by decide +kernel
  have := every_byte (p := fun c => q c = true) this c
  simp only [q, h, Bool.not_true, Bool.false_or, Bool.and_eq_true, decide_eq_true_eq] at this
  obtain ⟨⟨⟨h1, h2⟩, h3⟩, h4⟩ := this
  exact ⟨h1, h2, h3, h4⟩

theorem letter_plain {c : UInt8} (h : letter c = true) : plain c = true := by
  rw [plain, h]; rfl

theorem takeWhile_ne {m : UInt8} {s : Str} (h : ∀ c ∈ s, c ≠ m) : s.takeWhile (· ≠ m) = s := by
  have := (takeWhile_run (p := fun c => decide (c ≠ m)) (t := []) (by simp) (s := s) (by simpa using h)).1
  simpa using this

theorem takeWhile_to {m : UInt8} {s : Str} (t : Str) (h : ∀ c ∈ s, c ≠ m) :
    (s ++ m :: t).takeWhile (· ≠ m) = s ∧ (s ++ m :: t).dropWhile (· ≠ m) = m :: t :=
  takeWhile_run (p := fun c => decide (c ≠ m)) (by simp) (by simpa using h)

theorem cutLast_none {m : UInt8} {s : Str} (h : ∀ c ∈ s, c ≠ m) : cutLast m s = none := by
  rw [cutLast, if_neg]
  exact fun hm => h m hm rfl

theorem cutLast_some {m : UInt8} {a b : Str} (h : ∀ c ∈ b, c ≠ m) : cutLast m (a ++ m :: b) = some (a, b) := by
  have e : (a ++ m :: b).reverse = b.reverse ++ m :: a.reverse := by simp
  have := takeWhile_to (m := m) (s := b.reverse) a.reverse (by simpa using h)
  rw [cutLast, if_pos (by simp), e, this.1, this.2]
  simp

theorem parseHost_plain {s : Str} (h : ∀ c ∈ s, Byte c) : parseHost s = some s := by
  rw [parseHost, cutLast_none fun c hc => (h c hc).ne.2.2.2.2.1]
  simp only
  rw [if_pos]
  simpa using fun c hc => (h c hc).host

/-- `user@` -/
def at_ (user : Str) : Str := if user = [] then [] else user ++ [64]

theorem parseAuthority_plain {user host : Str} (hu : ∀ c ∈ user, Byte c) (hh : ∀ c ∈ host, Byte c) :
    parseAuthority (at_ user ++ host) = some host := by
  have hn : ∀ c ∈ host, c ≠ 64 := fun c hc => (hh c hc).ne.2.2.2.2.2
  rw [at_]
  split
  · rw [List.nil_append, parseAuthority, cutLast_none hn]
    exact parseHost_plain hh
  · rw [List.append_assoc, List.singleton_append, parseAuthority, cutLast_some hn]
    simp only [parseHost_plain hh]
    rw [if_pos]
    simpa using fun c hc => (hu c hc).user

theorem urlParse_auth {scheme auth path : Str} (hs : scheme ≠ []) (hsl : ∀ c ∈ scheme, letter c = true)
    (ha : ∀ c ∈ auth, 32 < c ∧ c ≠ 127 ∧ c ≠ 35 ∧ c ≠ 63 ∧ c ≠ 47)
    (hp : ∀ c ∈ path, 32 < c ∧ c ≠ 127 ∧ c ≠ 35 ∧ c ≠ 63) :
    urlParse (scheme ++ 58 :: 47 :: 47 :: (auth ++ 47 :: path)) = (parseAuthority auth).map fun h => (h, 47 :: path) := by
  have hah : ∀ c ∈ auth, c ≠ 47 := fun c hc => (ha c hc).2.2.2.2
  have hall : ∀ c ∈ auth ++ 47 :: path, 32 < c ∧ c ≠ 127 ∧ c ≠ 35 ∧ c ≠ 63 := by
    intro c hc
    simp only [List.mem_append, List.mem_cons] at hc
    rcases hc with hc | rfl | hc
    · exact ⟨(ha c hc).1, (ha c hc).2.1, (ha c hc).2.2.1, (ha c hc).2.2.2.1⟩
    · decide
    · exact hp c hc
  have hurl : ∀ c ∈ scheme ++ 58 :: 47 :: 47 :: (auth ++ 47 :: path), 32 < c ∧ c ≠ 127 ∧ c ≠ 35 ∧ c ≠ 63 := by
    intro c hc
    rcases List.mem_append.1 hc with hc | hc
    · have := byte_of (letter_plain (hsl c hc))
      exact ⟨this.printable.1, this.printable.2, this.ne.1, this.ne.2.2.1⟩
    · rcases List.mem_cons.1 hc with rfl | hc
      · decide
      · rcases List.mem_cons.1 hc with rfl | hc
        · decide
        · rcases List.mem_cons.1 hc with rfl | hc
          · decide
          · exact hall c hc
  rw [urlParse]
  simp only [takeWhile_ne fun c hc => (hurl c hc).2.2.1]
  rw [if_neg, if_neg, getScheme_letters _ _ hsl (by simpa using hs)]
  · simp only [List.nil_append]
    have hq : (47 :: 47 :: (auth ++ 47 :: path)).takeWhile (· ≠ 63) = 47 :: 47 :: (auth ++ 47 :: path) := by
      apply takeWhile_ne
      intro c hc
      rcases List.mem_cons.1 hc with rfl | hc
      · decide
      · rcases List.mem_cons.1 hc with rfl | hc
        · decide
        · exact (hall c hc).2.2.2
    simp only [hq]
    have ht := takeWhile_to (m := 47) path hah
    rw [if_neg (by simp [Str.hasPrefix, lit]), if_pos (by simp [Str.hasPrefix, lit, hs])]
    simp only [List.drop_succ_cons, List.drop_zero, ht.1, ht.2]
    cases parseAuthority auth <;> rfl
  · intro e
    have := congrArg List.length e
    cases scheme with
    | nil => exact hs rfl
    | cons a b => simp [lit] at this
  · simp only [List.any_eq_true, not_exists, not_and, Bool.or_eq_true, decide_eq_true_eq, beq_iff_eq, not_or]
    intro c hc
    refine ⟨?_, (hurl c hc).2.1⟩
    intro hlt
    exact absurd (UInt8.lt_trans hlt (hurl c hc).1) (by simp)

theorem at_bytes {user : Str} (hu : ∀ c ∈ user, Byte c) : ∀ c ∈ at_ user, 32 < c ∧ c ≠ 127 ∧ c ≠ 35 ∧ c ≠ 63 ∧ c ≠ 47 := by
  intro c hc
  rw [at_] at hc
  split at hc
  · cases hc
  · simp only [List.mem_append, List.mem_singleton] at hc
    rcases hc with hc | rfl
    · have := hu c hc
      exact ⟨this.printable.1, this.printable.2, this.ne.1, this.ne.2.2.1, this.ne.2.2.2.1⟩
    · decide

theorem Byte.auth {c : UInt8} (h : Byte c) : 32 < c ∧ c ≠ 127 ∧ c ≠ 35 ∧ c ≠ 63 ∧ c ≠ 47 :=
  ⟨h.printable.1, h.printable.2, h.ne.1, h.ne.2.2.1, h.ne.2.2.2.1⟩

theorem urlParse_plain {scheme user host path : Str} (hs : scheme ≠ []) (hsl : ∀ c ∈ scheme, letter c = true)
    (hu : ∀ c ∈ user, Byte c) (hh : ∀ c ∈ host, Byte c)
    (hp : ∀ c ∈ path, 32 < c ∧ c ≠ 127 ∧ c ≠ 35 ∧ c ≠ 63) :
    urlParse (scheme ++ 58 :: 47 :: 47 :: (at_ user ++ host ++ 47 :: path)) = some (host, 47 :: path) := by
  rw [urlParse_auth hs hsl ?_ hp, parseAuthority_plain hu hh]
  · rfl
  · intro c hc
    rcases List.mem_append.1 hc with hc | hc
    · exact at_bytes hu c hc
    · exact (hh c hc).auth

theorem parseHost_port {host port : Str} (hh : ∀ c ∈ host, Byte c) (hp : ∀ c ∈ port, Byte c) :
    parseHost (host ++ 58 :: port) = if port.all isDigit then some (host ++ 58 :: port) else none := by
  rw [parseHost, cutLast_some fun c hc => (hp c hc).ne.2.2.2.2.1]
  have h1 : (host ++ 58 :: port).all hostByte = true := by
    simp only [List.all_append, List.all_cons, Bool.and_eq_true, List.all_eq_true]
    exact ⟨fun c hc => (hh c hc).host, by decide, fun c hc => (hp c hc).host⟩
  simp [h1]

theorem url_eq (r : Remote) (e : Str) :
    r.url ++ e = r.scheme ++ 58 :: 47 :: 47 :: (at_ r.user ++ r.host ++ 47 :: (r.path ++ e)) := by
  simp [Remote.url, at_, lit]

theorem origin_plain {r : Remote} (h : r.Plain) {e : Str} (he : ∀ c ∈ e, 32 < c ∧ c ≠ 127 ∧ c ≠ 35 ∧ c ≠ 63) :
    origin (some (r.url ++ e ++ lit "\n")) = .ok (r.host ++ trimSuffix (lit ".git") (47 :: (r.path ++ e))) := by
  have hu : ∀ c ∈ r.user, Byte c := fun c hc => byte_of (h.user c hc)
  have hh : ∀ c ∈ r.host, Byte c := fun c hc => byte_of (h.host.2 c hc)
  have hp : ∀ c ∈ r.path ++ e, 32 < c ∧ c ≠ 127 ∧ c ≠ 35 ∧ c ≠ 63 := by
    intro c hc
    rcases List.mem_append.1 hc with hc | hc
    · have := h.path c hc
      exact ⟨this.1, this.2.1, this.2.2.1, this.2.2.2.2⟩
    · exact he c hc
  have hsp : ∀ c ∈ r.url ++ e, isSpace c = false := by
    intro c hc
    apply space_of
    rw [url_eq] at hc
    simp only [List.mem_append, List.mem_cons, at_] at hc
    rcases hc with hc | rfl | rfl | rfl | (hc | hc) | rfl | hc | hc
    · exact (byte_of (letter_plain (h.scheme.2 c hc))).printable.1
    · decide
    · decide
    · decide
    · split at hc
      · cases hc
      · simp only [List.mem_append, List.mem_singleton] at hc
        rcases hc with hc | rfl
        · exact (hu c hc).printable.1
        · decide
    · exact (hh c hc).printable.1
    · decide
    · exact (h.path c hc).1
    · exact (he c hc).1
  rw [origin]
  simp only [trimSpace_line hsp]
  rw [url_eq, urlParse_plain h.scheme.1 h.scheme.2 hu hh hp]

/-- C132 (partial): for a remote given as `scheme://user@host/path`, with or without `.git` at the end, the origin is `host/path`.
Missing: the other ways to write a remote, see `C132_scp`, and characters that must be escaped. -/
theorem C132_origin_partial {r : Remote} (h : r.Plain) :
    origin (some (r.url ++ lit ".git" ++ lit "\n")) = .ok r.name ∧
    (¬ lit ".git" <:+ r.path → origin (some (r.url ++ lit "\n")) = .ok r.name) := by
  constructor
  · rw [origin_plain h (by decide)]
    have : (47 : UInt8) :: (r.path ++ lit ".git") = (47 :: r.path) ++ lit ".git" := by simp
    rw [this, trimSuffix_append]
    rfl
  · intro hg
    have := origin_plain h (e := []) (by simp)
    simp only [List.append_nil] at this
    rw [this, trimSuffix, if_neg]
    · rfl
    · rw [Vendor.hasSuffix, List.isSuffixOf_iff_suffix, List.suffix_cons_iff]
      rintro (he | he)
      · exact absurd (congrArg List.head? he) (by simp [lit])
      · exact hg he

/-- C132 is violated: with `user@host:path` for a remote, which git itself proposes for ssh, the compiler panics. -/
theorem C132_scp {r : Remote} (h : r.Plain) (hu : r.user ≠ []) : origin (some (r.scp ++ lit "\n")) = .panic := by
  have e : r.scp = r.user ++ 64 :: (r.host ++ 58 :: r.path) := by simp [Remote.scp, hu]
  have bu : ∀ c ∈ r.user, Byte c := fun c hc => byte_of (h.user c hc)
  have bh : ∀ c ∈ r.host, Byte c := fun c hc => byte_of (h.host.2 c hc)
  have hall : ∀ c ∈ r.scp, 32 < c ∧ c ≠ 127 ∧ c ≠ 35 ∧ c ≠ 63 := by
    intro c hc
    rw [e] at hc
    simp only [List.mem_append, List.mem_cons] at hc
    rcases hc with hc | rfl | hc | rfl | hc
    · exact ⟨(bu c hc).printable.1, (bu c hc).printable.2, (bu c hc).ne.1, (bu c hc).ne.2.2.1⟩
    · decide
    · exact ⟨(bh c hc).printable.1, (bh c hc).printable.2, (bh c hc).ne.1, (bh c hc).ne.2.2.1⟩
    · decide
    · exact ⟨(h.path c hc).1, (h.path c hc).2.1, (h.path c hc).2.2.1, (h.path c hc).2.2.2.2⟩
  have hsch : ∀ (whole t : Str) {s seen : Str}, (∀ c ∈ s, Byte c) → getScheme whole seen (s ++ 64 :: t) = some ([], whole) := by
    intro whole t s
    induction s with
    | nil =>
      intro seen _
      rw [List.nil_append, getScheme, if_neg (by decide), if_neg (by decide), if_neg (by decide)]
    | cons c s ih =>
      intro seen hs
      have ih2 : ∀ seen, getScheme whole seen (s ++ 64 :: t) = some ([], whole) := fun seen => ih fun d hd => hs d (by simp [hd])
      rw [List.cons_append, getScheme]
      split
      · exact ih2 _
      · split
        · split
          · rfl
          · exact ih2 _
        · rw [if_neg (hs c (by simp)).ne.2.2.2.2.1]
  have hparse : urlParse r.scp = none := by
    rw [urlParse]
    simp only [takeWhile_ne fun c hc => (hall c hc).2.2.1]
    rw [if_neg, if_neg]
    · have : getScheme r.scp [] r.scp = some ([], r.scp) := by
        have := hsch r.scp (r.host ++ 58 :: r.path) (seen := []) bu
        rw [← e] at this
        exact this
      simp only [this, takeWhile_ne fun c hc => (hall c hc).2.2.2]
      rw [if_pos, if_neg (by simp), if_pos]
      · rw [e]
        have : (r.user ++ 64 :: (r.host ++ 58 :: r.path)).takeWhile (· ≠ 47) =
            r.user ++ 64 :: (r.host ++ 58 :: r.path.takeWhile (· ≠ 47)) := by
          rw [List.takeWhile_append_of_pos (by intro c hc; simpa using (bu c hc).ne.2.2.2.1)]
          rw [List.takeWhile_cons, if_pos (by decide), List.takeWhile_append_of_pos (by intro c hc; simpa using (bh c hc).ne.2.2.2.1),
            List.takeWhile_cons, if_pos (by decide)]
        rw [this]
        simp
      · rw [e]
        cases hc : r.user with
        | nil => exact absurd hc hu
        | cons c s =>
          have := (bu c (by rw [hc]; simp)).ne.2.2.2.1
          simp [Str.hasPrefix, lit, Ne.symm this]
    · rw [e]
      intro he
      have := congrArg List.length he
      cases hc : r.user with
      | nil => exact absurd hc hu
      | cons c s =>
        rw [hc] at this
        simp [lit] at this
    · simp only [List.any_eq_true, not_exists, not_and, Bool.or_eq_true, decide_eq_true_eq, beq_iff_eq, not_or]
      intro c hc
      exact ⟨fun hlt => absurd (UInt8.lt_trans hlt (hall c hc).1) (by simp), (hall c hc).2.1⟩
  rw [origin]
  simp only [trimSpace_line fun c hc => space_of (hall c hc).1, hparse]

/-- C132 is violated: with `host:path` for a remote the origin is empty, and every package counts as one of the repository. -/
theorem C132_scp_host {r : Remote} (h : r.Plain) (hu : r.user = []) (hl : ∀ c ∈ r.host, letter c = true) (hs : ¬ lit "/" <+: r.path) :
    origin (some (r.scp ++ lit "\n")) = .ok [] ∧ ∀ pkg, inRepo [] pkg = true := by
  have e : r.scp = r.host ++ 58 :: r.path := by simp [Remote.scp, hu]
  have bh : ∀ c ∈ r.host, Byte c := fun c hc => byte_of (h.host.2 c hc)
  have hall : ∀ c ∈ r.scp, 32 < c ∧ c ≠ 127 ∧ c ≠ 35 ∧ c ≠ 63 := by
    intro c hc
    rw [e] at hc
    simp only [List.mem_append, List.mem_cons] at hc
    rcases hc with hc | rfl | hc
    · exact ⟨(bh c hc).printable.1, (bh c hc).printable.2, (bh c hc).ne.1, (bh c hc).ne.2.2.1⟩
    · decide
    · exact ⟨(h.path c hc).1, (h.path c hc).2.1, (h.path c hc).2.2.1, (h.path c hc).2.2.2.2⟩
  have hparse : urlParse r.scp = some ([], []) := by
    rw [urlParse]
    simp only [takeWhile_ne fun c hc => (hall c hc).2.2.1]
    rw [if_neg, if_neg]
    · have : getScheme r.scp [] r.scp = some (r.host, r.path) := by
        have := getScheme_letters r.scp r.path (seen := []) hl (by simpa using h.host.1)
        rw [← e] at this
        exact this
      simp only [this]
      have hp : ∀ c ∈ r.path, c ≠ 63 := fun c hc => (h.path c hc).2.2.2.2
      rw [takeWhile_ne hp, if_pos, if_pos h.host.1]
      rw [Str.hasPrefix, List.isPrefixOf_iff_prefix]
      exact hs
    · rw [e]
      intro he
      have := congrArg List.length he
      cases hc : r.host with
      | nil => exact absurd hc h.host.1
      | cons c s =>
        rw [hc] at this
        simp [lit] at this
    · simp only [List.any_eq_true, not_exists, not_and, Bool.or_eq_true, decide_eq_true_eq, beq_iff_eq, not_or]
      intro c hc
      exact ⟨fun hlt => absurd (UInt8.lt_trans hlt (hall c hc).1) (by simp), (hall c hc).2.1⟩
  constructor
  · rw [origin]
    simp only [trimSpace_line fun c hc => space_of (hall c hc).1, hparse]
    rfl
  · intro pkg
    simp [inRepo, Str.hasPrefix]

/-- C132: with `scheme://user@host:port/path` the origin has the port in it if the port is a number; if it is not, as where the two ways to
write a remote are mixed up, the compiler panics. -/
theorem C132_port {r : Remote} (h : r.Plain) {port : Str} (hp : ∀ c ∈ port, plain c = true) (hg : ¬ lit ".git" <:+ r.path) :
    origin (some (r.scheme ++ lit "://" ++ (if r.user = [] then [] else r.user ++ [64]) ++ r.host ++ 58 :: (port ++ 47 :: r.path) ++ lit "\n")) =
      if ∀ c ∈ port, 48 ≤ c ∧ c ≤ 57 then .ok (r.host ++ 58 :: port ++ 47 :: r.path) else .panic := by
  have bu : ∀ c ∈ r.user, Byte c := fun c hc => byte_of (h.user c hc)
  have bh : ∀ c ∈ r.host, Byte c := fun c hc => byte_of (h.host.2 c hc)
  have bp : ∀ c ∈ port, Byte c := fun c hc => byte_of (hp c hc)
  have e : r.scheme ++ lit "://" ++ (if r.user = [] then [] else r.user ++ [64]) ++ r.host ++ 58 :: (port ++ 47 :: r.path) =
      r.scheme ++ 58 :: 47 :: 47 :: ((at_ r.user ++ (r.host ++ 58 :: port)) ++ 47 :: r.path) := by
    simp [at_, lit]
  have ha : ∀ c ∈ at_ r.user ++ (r.host ++ 58 :: port), 32 < c ∧ c ≠ 127 ∧ c ≠ 35 ∧ c ≠ 63 ∧ c ≠ 47 := by
    intro c hc
    simp only [List.mem_append, List.mem_cons] at hc
    rcases hc with hc | hc | rfl | hc
    · exact at_bytes bu c hc
    · exact (bh c hc).auth
    · decide
    · exact (bp c hc).auth
  have hpath : ∀ c ∈ r.path, 32 < c ∧ c ≠ 127 ∧ c ≠ 35 ∧ c ≠ 63 := fun c hc =>
    ⟨(h.path c hc).1, (h.path c hc).2.1, (h.path c hc).2.2.1, (h.path c hc).2.2.2.2⟩
  have hsp : ∀ c ∈ r.scheme ++ 58 :: 47 :: 47 :: ((at_ r.user ++ (r.host ++ 58 :: port)) ++ 47 :: r.path), isSpace c = false := by
    intro c hc
    apply space_of
    rcases List.mem_append.1 hc with hc | hc
    · exact (byte_of (letter_plain (h.scheme.2 c hc))).printable.1
    · simp only [List.mem_cons] at hc
      rcases hc with rfl | rfl | rfl | hc
      · decide
      · decide
      · decide
      · rcases List.mem_append.1 hc with hc | hc
        · exact (ha c hc).1
        · rcases List.mem_cons.1 hc with rfl | hc
          · decide
          · exact (hpath c hc).1
  have hauth : parseAuthority (at_ r.user ++ (r.host ++ 58 :: port)) = parseHost (r.host ++ 58 :: port) := by
    have hn : ∀ c ∈ r.host ++ 58 :: port, c ≠ 64 := by
      intro c hc
      simp only [List.mem_append, List.mem_cons] at hc
      rcases hc with hc | rfl | hc
      · exact (bh c hc).ne.2.2.2.2.2
      · decide
      · exact (bp c hc).ne.2.2.2.2.2
    rw [at_]
    split
    · rw [List.nil_append, parseAuthority, cutLast_none hn]
    · rw [List.append_assoc, List.singleton_append, parseAuthority, cutLast_some hn]
      have hall : r.user.all userByte = true := by simpa using fun c hc => (bu c hc).user
      simp only [hall, if_true]
      cases parseHost (r.host ++ 58 :: port) <;> rfl
  rw [e, origin]
  simp only [trimSpace_line hsp]
  rw [urlParse_auth h.scheme.1 h.scheme.2 ha hpath, hauth, parseHost_port bh bp]
  have hd : port.all isDigit = true ↔ ∀ c ∈ port, 48 ≤ c ∧ c ≤ 57 := by
    rw [List.all_eq_true]
    exact forall_congr' fun c => imp_congr_right fun _ => digit_iff c
  by_cases hc : ∀ c ∈ port, 48 ≤ c ∧ c ≤ 57
  · rw [if_pos (hd.2 hc), if_pos hc]
    simp only [Option.map_some]
    rw [trimSuffix, if_neg]
    · rw [Vendor.hasSuffix, List.isSuffixOf_iff_suffix, List.suffix_cons_iff]
      rintro (he | he)
      · exact absurd (congrArg List.head? he) (by simp [lit])
      · exact hg he
  · rw [if_neg (fun q => hc (hd.1 q)), if_neg hc]
    rfl

example : origin (some (lit "ssh://git@github.com:bearlytools/claw\n")) = .panic := by decide +kernel

/-- C132 is violated: a repository without a remote called origin makes the compiler panic. -/
theorem C132_no_remote : origin none = .panic := rfl

example : origin (some (lit "https://github.com/bearlytools/claw.git\n")) = .ok (lit "github.com/bearlytools/claw") := by decide +kernel
example : origin (some (lit "ssh://git@github.com/bearlytools/claw\n")) = .ok (lit "github.com/bearlytools/claw") := by decide +kernel
example : origin (some (lit "git@github.com:bearlytools/claw.git\n")) = .panic := by decide +kernel
example : origin (some (lit "work:bearlytools/claw.git\n")) = .ok [] := by decide +kernel
/-- The port and a slash at the end stay. -/
example : origin (some (lit "https://example.com:8443/a/b/\n")) = .ok (lit "example.com:8443/a/b/") := by decide +kernel

example : Remote.Plain ⟨lit "ssh", lit "git", lit "github.com", lit "bearlytools/claw"⟩ :=
  ⟨⟨by decide, by decide⟩, by decide, ⟨by decide, by decide⟩, by decide⟩

end Claw.Vcs
