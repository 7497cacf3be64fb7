import Verif.Spec.Fetch
import Verif.Props.Locate

/-!
# C131: fetching schema files
-/

namespace Claw.Fetch

open Claw.Idl (Out)
open Claw.Mod (splitBy parseGlobal)
open Claw.Vendor (hasSuffix versionCheckout gitVersion C95_hash_partial C95_tags_never splitBy_ne)
open Claw.Json (hexOf hexDigit)

/-! ### Paths -/

theorem splitBy_none' {sep : UInt8} : ∀ {s : Str}, sep ∉ s → splitBy sep s = [s] := by
  intro s
  induction s with
  | nil => intro _; rfl
  | cons c s ih =>
    intro h
    simp only [List.mem_cons, not_or] at h
    rw [splitBy, ih h.2]
    simp [Ne.symm h.1]

theorem splitBy_cons {sep : UInt8} (t : Str) : ∀ {s : Str}, sep ∉ s → splitBy sep (s ++ sep :: t) = s :: splitBy sep t := by
  intro s
  induction s with
  | nil =>
    intro _
    rw [List.nil_append, splitBy]
    cases h : splitBy sep t with
    | nil => exact absurd h (splitBy_ne t)
    | cons p ps => simp
  | cons c s ih =>
    intro h
    simp only [List.mem_cons, not_or] at h
    rw [List.cons_append, splitBy, ih h.2]
    simp [Ne.symm h.1]

theorem splitBy_slash : ∀ {l : List Str}, l ≠ [] → Elems l → splitBy 47 (slash l) = l
  | [x], _, h => by rw [slash]; exact splitBy_none' (h x (by simp))
  | x :: y :: l, _, h => by
    rw [slash, splitBy_cons _ (h x (by simp)), splitBy_slash (by simp) fun z hz => h z (List.mem_cons_of_mem _ hz)]

theorem splitBy_path {a b c : Str} {inside : List Str} (h : Elems (a :: b :: c :: inside)) :
    splitBy 47 (path a b c inside) = a :: b :: c :: inside := splitBy_slash (by simp) h

/-! ### Hashes -/

theorem hexVal_digit (n : Nat) (h : n < 16) : hexVal (hexDigit n) = some n.toUInt8 := by
  have : ∀ n : Fin 16, hexVal (hexDigit n.val) = some n.val.toUInt8 := by decide
  exact this ⟨n, h⟩

theorem hexDecode_hexOf : ∀ (h : List UInt8), hexDecode (hexOf h) = h
  | [] => rfl
  | x :: h => by
    have e : hexOf (x :: h) = hexDigit (x.toNat / 16) :: hexDigit (x.toNat % 16) :: hexOf h := by simp [hexOf]
    have hx := x.toNat_lt
    rw [e, hexDecode, hexVal_digit _ (by omega), hexVal_digit _ (by omega)]
    simp only
    rw [hexDecode_hexOf h]
    congr 1
    apply UInt8.toNat_inj.1
    simp only [UInt8.toNat_add, UInt8.toNat_mul, Nat.toUInt8, UInt8.toNat_ofNat']
    simp
    omega

theorem newHash_hexOf {h : Hash} (hl : h.length = 20) : newHash (hexOf h) = h := by
  rw [newHash, hexDecode_hexOf, ← hl, List.take_left']
  rfl

theorem hexDigit_ne (n : Nat) (h : n < 16) : hexDigit n ≠ 46 ∧ hexDigit n ≠ 118 := by
  have : ∀ n : Fin 16, hexDigit n.val ≠ 46 ∧ hexDigit n.val ≠ 118 := by decide
  exact this ⟨n, h⟩

theorem hexOf_mem {h : Hash} {c : UInt8} (hc : c ∈ hexOf h) : c ≠ 46 ∧ c ≠ 118 := by
  simp only [hexOf, List.mem_flatMap, List.mem_cons, List.not_mem_nil, or_false] at hc
  obtain ⟨x, -, hc⟩ := hc
  have hx := x.toNat_lt
  rcases hc with rfl | rfl
  · exact hexDigit_ne _ (by omega)
  · exact hexDigit_ne _ (by omega)

theorem hexOf_ne_nil {h : Hash} (hl : h.length = 20) : hexOf h ≠ [] := by
  cases h with
  | nil => simp at hl
  | cons x h => simp [hexOf]

/-- A hash that is written out is taken for that hash. -/
theorem checkout_hexOf {r : Repo} {h : Hash} (hl : h.length = 20) : checkout r (hexOf h) = .ofOption (r.commits h) := by
  rw [checkout, C95_hash_partial _ (fun hc => (hexOf_mem hc).1 rfl) (hexOf_ne_nil hl)]
  · simp only [newHash_hexOf hl]
  · intro e
    have : (118 : UInt8) ∈ hexOf h := by rw [e]; decide
    exact (hexOf_mem this).2 rfl

theorem checkout_empty (r : Repo) : checkout r [] = .ofOption (r.commits r.head) := by
  rw [checkout, versionCheckout, if_pos rfl]

/-! ### Directories -/

theorem suffix_iff (f : Str) : hasSuffix (lit ".claw") f = true ↔ lit ".claw" <:+ f := by
  rw [hasSuffix, List.isSuffixOf_iff_suffix]

theorem filter_one {d : Dir} (hd : d.Ok) (q : Str × Option Bytes → Bool) {x : Str × Option Bytes} (hx : x ∈ d) (hq : q x = true)
    (h : ∀ y ∈ d, q y = true → y.1 = x.1) : d.filter q = [x] := by
  induction d with
  | nil => simp at hx
  | cons y d ih =>
    have hd' := hd
    rw [Dir.Ok, List.map_cons, List.nodup_cons] at hd
    rcases List.mem_cons.1 hx with rfl | hx
    · rw [List.filter_cons, if_pos hq]
      congr 1
      rw [List.filter_eq_nil_iff]
      intro z hz hqz
      exact hd.1 (List.mem_map.2 ⟨z, hz, h z (List.mem_cons_of_mem _ hz) hqz⟩)
    · have hne : q y = false := by
        cases hqy : q y with
        | false => rfl
        | true =>
          have := h y (List.mem_cons_self ..) hqy
          exact absurd (List.mem_map.2 ⟨x, hx, this.symm⟩) hd.1
      rw [List.filter_cons, hne]
      exact ih hd.2 hx fun z hz => h z (List.mem_cons_of_mem _ hz)

theorem find_holds {d : Dir} {content : Bytes} (h : Holds d content) : find d = .ok content := by
  obtain ⟨hd, -, f, hf, hs, hall⟩ := h
  rw [find, filter_one hd _ hf ((suffix_iff f).2 hs) (fun y hy hq => hall y hy ((suffix_iff _).1 hq))]

theorem find?_none {d : Dir} {n : Str} (h : n ∉ d.map (·.1)) : (d.find? fun x => x.1 = n) = none := by
  rw [List.find?_eq_none]
  intro x hx
  simp only [decide_eq_true_eq]
  intro e
  exact h (List.mem_map.2 ⟨x, hx, e⟩)

theorem find?_some {d : Dir} (hd : d.Ok) {n : Str} {c : Option Bytes} (h : (n, c) ∈ d) : (d.find? fun x => x.1 = n) = some (n, c) := by
  induction d with
  | nil => simp at h
  | cons y d ih =>
    rw [Dir.Ok, List.map_cons, List.nodup_cons] at hd
    rw [List.find?_cons]
    rcases List.mem_cons.1 h with rfl | h
    · simp
    · have : y.1 ≠ n := fun e => hd.1 (List.mem_map.2 ⟨_, h, e.symm⟩)
      simp only [this, decide_false]
      exact ih hd.2 h

/-! ### One step -/

theorem get_here (sha : Bytes → Str) {w : World} {a b c : Str} {inside : List Str} (he : Elems (a :: b :: c :: inside)) {r : Repo}
    (hw : w a b c = some r) {version : Str} {t : Tree} (hc : checkout r version = .ok t) {d : Dir} (ht : t inside = some d)
    {content : Bytes} (hd : Holds d content) (n : Nat) :
    get sha w (n + 1) (path a b c inside) version =
      .ok ⟨content, if version = [] then hexOf r.head else version, sha content⟩ := by
  rw [get, splitBy_path he]
  simp only [hw, hc, ht, Out.ofOption, Out.ok_bind, find?_none hd.2.1, find_holds hd]

theorem get_there (sha : Bytes → Str) {w : World} {a b c : Str} {inside : List Str} (he : Elems (a :: b :: c :: inside)) {r : Repo}
    (hw : w a b c = some r) {version : Str} {t : Tree} (hc : checkout r version = .ok t) {d : Dir} (ht : t inside = some d)
    {p : Str} (hd : Leads d p) (n : Nat) :
    get sha w (n + 1) (path a b c inside) version = get sha w n p (if version = [] then hexOf r.head else version) := by
  obtain ⟨hok, text, hm, hp⟩ := hd
  rw [get, splitBy_path he]
  simp only [hw, hc, ht, Out.ofOption, Out.ok_bind, find?_some hok hm, hp]

/-! ### C131 -/

/-- **C131 (a)** The schema file of a package at a commit, over at most four directories of the same repository that lead elsewhere; the version
is the one asked for. Missing for the full statement: packages of other repositories (`C131_other`) and tags (`C131_tags`). -/
theorem C131_commit_partial (sha : Bytes → Str) {w : World} {a b c : Str} {inside : List Str} (he : Elems (a :: b :: c :: inside)) {r : Repo}
    (hw : w a b c = some r) {h : Hash} (hl : h.length = 20) {t : Tree} (hc : r.commits h = some t) {k : Nat} {content : Bytes}
    (hk : Chain a b c t k inside content) :
    getClawFile sha w (path a b c inside) (hexOf h) = if k < 5 then .ok ⟨content, hexOf h, sha content⟩ else .err := by
  have hco : checkout r (hexOf h) = .ok t := by rw [checkout_hexOf hl, hc]; rfl
  have key : ∀ n k inside, Elems (a :: b :: c :: inside) → Chain a b c t k inside content →
      get sha w n (path a b c inside) (hexOf h) = if k < n then .ok ⟨content, hexOf h, sha content⟩ else .err := by
    intro n
    induction n with
    | zero => intro k inside _ _; rw [if_neg (by omega)]; rfl
    | succ n ih =>
      intro k inside he hk
      cases hk with
      | here ht hd => rw [get_here sha he hw hco ht hd, if_neg (hexOf_ne_nil hl), if_pos (by omega)]
      | there ht hd he' hk =>
        rw [get_there sha he hw hco ht hd, if_neg (hexOf_ne_nil hl), ih _ _ (fun x hx => ?_) hk]
        · simp
        · simp only [List.mem_cons] at hx
          rcases hx with rfl | rfl | rfl | hx
          · exact he _ (by simp)
          · exact he _ (by simp)
          · exact he _ (by simp)
          · exact he' x hx
  exact key 5 k inside he hk

/-- With no version it is the head, and the version is that of the head. -/
theorem get_empty (sha : Bytes → Str) {w : World} {pkg : Str} (n : Nat) {v : Str} (h : latest w pkg = .ok v)
    (hl : ∀ a b c r, w a b c = some r → r.head.length = 20) : get sha w n pkg [] = get sha w n pkg v := by
  cases n with
  | zero => rfl
  | succ n =>
    rw [get, get]
    rw [latest] at h
    split at h
    · next a b c l e =>
      cases hw : w a b c with
      | none => rfl
      | some r =>
        simp only [hw, Out.ofOption, Out.ok_bind] at h ⊢
        have hlr := hl _ _ _ _ hw
        rw [checkout_empty] at h ⊢
        have hv : v = hexOf r.head := by
          cases hc : r.commits r.head with
          | none => rw [hc] at h; cases h
          | some t => rw [hc] at h; cases h; rfl
        subst hv
        rw [checkout_hexOf hlr]
        simp [hexOf_ne_nil hlr]
    · cases h

/-- **C131 (a')** A directory without a schema file, or with more than one, is an error, and so is one whose schema file is a directory. -/
theorem C131_one (sha : Bytes → Str) {w : World} {a b c : Str} {inside : List Str} (he : Elems (a :: b :: c :: inside)) {r : Repo}
    (hw : w a b c = some r) {h : Hash} (hl : h.length = 20) {t : Tree} (hc : r.commits h = some t) {d : Dir} (ht : t inside = some d)
    (hok : d.Ok) (hg : lit "global.replace" ∉ d.map (·.1)) (hn : ∀ content, ¬ Holds d content) :
    getClawFile sha w (path a b c inside) (hexOf h) = .err := by
  have hco : checkout r (hexOf h) = .ok t := by rw [checkout_hexOf hl, hc]; rfl
  have hfind : (d.find? fun x => x.1 = lit "global.replace") = none := by
    rw [List.find?_eq_none]
    intro x hx
    simp only [decide_eq_true_eq]
    intro e
    exact hg (e ▸ List.mem_map.2 ⟨x, hx, rfl⟩)
  have hf : find d = .err := by
    rw [find]
    split
    · next f c' e =>
      have hm : (f, some c') ∈ d.filter fun x => hasSuffix (lit ".claw") x.1 := by rw [e]; simp
      rw [List.mem_filter] at hm
      refine absurd ⟨hok, hg, f, hm.1, ?_, ?_⟩ (hn c')
      · simpa [hasSuffix] using hm.2
      · intro x hx hs
        have : x ∈ d.filter fun x => hasSuffix (lit ".claw") x.1 := List.mem_filter.2 ⟨hx, by simpa [hasSuffix] using hs⟩
        rw [e, List.mem_singleton] at this
        rw [this]
    · rfl
  rw [getClawFile, get, splitBy_path he]
  simp only [hw, Out.ofOption, Out.ok_bind, hco, ht, hfind, hf]
  rfl

/-- Two schema files. -/
example : ∀ content, ¬ Holds [(lit "a.claw", some [1]), (lit "b.claw", some [2])] content := by
  rintro content ⟨_, _, f, hf, _, h⟩
  have h1 := h (lit "a.claw", some [1]) (by simp) ⟨lit "a", by decide⟩
  have h2 := h (lit "b.claw", some [2]) (by simp) ⟨lit "b", by decide⟩
  exact absurd (h1.trans h2.symm) (by decide)

/-- **C131 (b)** With no version, the file is that of the latest version. -/
theorem C131_latest (sha : Bytes → Str) {w : World} (hl : ∀ a b c r, w a b c = some r → r.head.length = 20) {pkg v : Str}
    (h : latest w pkg = .ok v) : getClawFile sha w pkg [] = getClawFile sha w pkg v := get_empty sha 5 h hl

theorem get_version (sha : Bytes → Str) {w : World} : ∀ (n : Nat) {pkg version : Str} {f : ClawFile},
    version ≠ [] → get sha w n pkg version = .ok f → f.version = version := by
  intro n
  induction n with
  | zero => intro pkg version f _ h; cases h
  | succ n ih =>
    intro pkg version f hv h
    rw [get] at h
    split at h
    · next a b c l e =>
      cases hw : w a b c with
      | none => rw [hw] at h; cases h
      | some r =>
        simp only [hw, Out.ofOption, Out.ok_bind, if_neg hv] at h
        cases hc : checkout r version with
        | err => rw [hc] at h; cases h
        | panic => rw [hc] at h; cases h
        | ok t =>
          simp only [hc, Out.ok_bind] at h
          cases ht : t l with
          | none => rw [ht] at h; cases h
          | some d =>
            simp only [ht, Out.ok_bind] at h
            split at h
            · next text _ =>
              cases hp : parseGlobal text with
              | err => rw [hp] at h; cases h
              | panic => rw [hp] at h; cases h
              | ok p =>
                rw [hp, Out.ok_bind] at h
                exact ih hv h
            · cases h
            · cases hf : find d with
              | err => rw [hf] at h; cases h
              | panic => rw [hf] at h; cases h
              | ok x =>
                rw [hf, Out.ok_bind] at h
                cases h; rfl
    · cases h

/-- **C131 (c)** The version that comes with a file gives the same file again. -/
theorem C131_pinned (sha : Bytes → Str) {w : World} (hl : ∀ a b c r, w a b c = some r → r.head.length = 20) {pkg version : Str} {f : ClawFile}
    (h : getClawFile sha w pkg version = .ok f) : getClawFile sha w pkg f.version = .ok f := by
  by_cases hv : version = []
  · subst hv
    cases hla : latest w pkg with
    | ok v =>
      rw [C131_latest sha hl hla] at h
      have hne : v ≠ [] := by
        rw [latest] at hla
        split at hla
        · next a b c l e =>
          cases hw : w a b c with
          | none => rw [hw] at hla; cases hla
          | some r =>
            simp only [hw, Out.ofOption, Out.ok_bind, checkout_empty] at hla
            cases hc : r.commits r.head with
            | none => rw [hc] at hla; cases hla
            | some t => rw [hc] at hla; cases hla; exact hexOf_ne_nil (hl _ _ _ _ hw)
        · cases hla
      rw [get_version sha 5 hne h]; exact h
    | err =>
      exfalso
      rw [getClawFile, get] at h
      rw [latest] at hla
      split at hla
      · next a b c l e =>
        rw [e] at h
        simp only at h
        cases hw : w a b c with
        | none => rw [hw] at h; cases h
        | some r =>
          simp only [hw, Out.ofOption, Out.ok_bind, checkout_empty] at hla h
          cases hc : r.commits r.head with
          | none => rw [hc] at h; cases h
          | some t => rw [hc] at hla; cases hla
      · cases hla
    | panic =>
      exfalso
      rw [getClawFile, get] at h
      rw [latest] at hla
      split at hla
      · next a b c l e =>
        rw [e] at h
        simp only at h
        cases hw : w a b c with
        | none => rw [hw] at h; cases h
        | some r =>
          simp only [hw, Out.ofOption, Out.ok_bind, checkout_empty] at hla h
          cases hc : r.commits r.head with
          | none => rw [hc] at h; cases h
          | some t => rw [hc] at hla; cases hla
      · next hno =>
        split at h
        · next a b c l e => exact hno a b c l e
        · cases h
  · rw [get_version sha 5 hv h]; exact h

/-! ### Panics -/

theorem gitVersion_panic {v : Str} (h : gitVersion v = .panic) : v = [] ∨ v = lit "v" := by
  rw [gitVersion, Claw.Text.trimPrefix] at h
  by_cases hp : Str.hasPrefix (lit "v") v = true
  · rw [if_pos hp] at h
    rw [Str.hasPrefix, List.isPrefixOf_iff_prefix] at hp
    obtain ⟨t, rfl⟩ := hp
    rw [List.drop_left] at h
    cases t with
    | nil => right; simp
    | cons c t =>
      exfalso
      rw [Claw.Mod.versionFrom] at h
      split at h
      · next x y z e =>
        cases ha : Claw.Idl.atoi x <;> cases hb : Claw.Idl.atoi y <;> cases hc : Claw.Idl.atoi z <;>
          simp [ha, hb, hc, Out.ofOption] at h <;> cases h
      · cases h
  · rw [if_neg hp] at h
    cases v with
    | nil => exact .inl rfl
    | cons c t =>
      exfalso
      rw [Claw.Mod.versionFrom] at h
      split at h
      · next x y z e =>
        cases ha : Claw.Idl.atoi x <;> cases hb : Claw.Idl.atoi y <;> cases hc : Claw.Idl.atoi z <;>
          simp [ha, hb, hc, Out.ofOption] at h <;> cases h
      · cases h

theorem checkout_panic {r : Repo} {v : Str} (h : checkout r v = .panic) : v = lit "v" := by
  rw [checkout, versionCheckout] at h
  by_cases hv : v = []
  · rw [if_pos hv] at h
    cases hc : r.commits r.head <;> simp [hc, Out.ofOption] at h
  · rw [if_neg hv] at h
    cases hg : gitVersion v with
    | panic => rcases gitVersion_panic hg with h | h
               · exact absurd h hv
               · exact h
    | err =>
      rw [hg] at h
      simp only at h
      cases hc : r.commits (newHash v) <;> simp [hc, Out.ofOption] at h
    | ok x =>
      rw [hg] at h
      simp only at h
      by_cases hm : v ∈ r.tags.map (·.1)
      · rw [if_pos hm] at h
        simp only at h
        cases hf : (r.tags.find? fun t => decide (t.1 = v)).map (·.2) with
        | none => simp [hf, Out.ofOption] at h
        | some y =>
          simp only [hf, Out.ofOption, Out.ok_bind] at h
          cases hc : r.commits y <;> simp [hc] at h
      · rw [if_neg hm] at h; cases h

theorem checkout_commit {r : Repo} {v : Str} {t : Tree} (h : checkout r v = .ok t) : ∃ x, r.commits x = some t := by
  rw [checkout] at h
  split at h
  · cases h
  · cases h
  · cases hc : r.commits r.head with
    | none => rw [hc] at h; cases h
    | some t' => rw [hc] at h; cases h; exact ⟨_, hc⟩
  · next n _ =>
    cases hf : (r.tags.find? fun t => decide (t.1 = n)).map (·.2) with
    | none => rw [hf] at h; cases h
    | some y =>
      simp only [hf, Out.ofOption, Out.ok_bind] at h
      cases hc : r.commits y with
      | none => rw [hc] at h; cases h
      | some t' => rw [hc] at h; cases h; exact ⟨_, hc⟩
  · next s _ =>
    cases hc : r.commits (newHash s) with
    | none => rw [hc] at h; cases h
    | some t' => rw [hc] at h; cases h; exact ⟨_, hc⟩

theorem parseGlobal_panic (text : Bytes) : parseGlobal text ≠ .panic := by
  have hrest : ∀ ls : List Claw.Mod.Line, (∀ l ∈ ls, l ≠ []) → Claw.Mod.globalRest ls ≠ .panic := by
    intro ls
    induction ls with
    | nil => intro _ h; cases h
    | cons l ls ih =>
      intro hl h
      rw [Claw.Mod.globalRest] at h
      cases l with
      | nil => exact hl [] (by simp) rfl
      | cons x l =>
        rw [Claw.Mod.item_zero, Out.ok_bind] at h
        split at h
        · exact ih (fun l hl' => hl l (List.mem_cons_of_mem _ hl')) h
        · cases h
  have hlines : ∀ l ∈ Claw.Mod.fileLines text, l ≠ [] := by
    intro l hl
    rw [Claw.Mod.fileLines, List.mem_filter] at hl
    intro e; subst e; simp at hl
  intro h
  rw [parseGlobal] at h
  cases hf : Claw.Mod.fileLines text with
  | nil => rw [hf] at h; cases h
  | cons l ls =>
    rw [hf] at h
    simp only at h
    have hr := hrest ls fun l' hl' => hlines l' (by rw [hf]; exact List.mem_cons_of_mem _ hl')
    match l, h with
    | [], h => simp [Claw.Mod.itemCount, Out.guard] at h
    | [x], h => simp [Claw.Mod.itemCount, Out.guard] at h
    | x :: y :: l, h =>
      simp only [Claw.Mod.itemCount, List.length_cons, Claw.Mod.item_zero, Claw.Mod.item_one, Out.ok_bind] at h
      have h3 : 3 ≤ l.length + 1 + 1 + 1 := by omega
      simp only [h3, decide_true, Out.guard, if_true, Out.ok_bind] at h
      by_cases hx : x = lit "with"
      · simp only [hx, decide_true, if_true, Out.ok_bind] at h
        have hc : Claw.Mod.commentOrEOL (lit "with" :: y :: l) 2 ≠ .panic := by
          intro hc
          rw [Claw.Mod.commentOrEOL] at hc
          have : ∃ s, Claw.Mod.item (lit "with" :: y :: l) 2 = .ok s := by
            cases l with
            | nil => exact ⟨_, rfl⟩
            | cons z l => exact ⟨z, Claw.Mod.item_two _ _ _ _⟩
          obtain ⟨s, hs⟩ := this
          rw [hs, Out.ok_bind] at hc
          split at hc
          · cases hc
          · rw [Out.guard] at hc; split at hc <;> cases hc
        cases hco : Claw.Mod.commentOrEOL (lit "with" :: y :: l) 2 with
        | panic => exact hc hco
        | err => rw [hco] at h; cases h
        | ok _ =>
          rw [hco, Out.ok_bind] at h
          cases hg : Claw.Mod.globalRest ls with
          | panic => exact hr hg
          | err => rw [hg] at h; cases h
          | ok _ => rw [hg] at h; cases h
      · simp only [hx, decide_false, Bool.false_eq_true, if_false] at h
        cases h

/-- **C131 (d)** There is no panic if the path has at least three elements, as have all paths that directories lead to, and the version is
not `v`. Missing for the full statement: other paths (`C131_short`), and `v` (C95). -/
theorem C131_no_panic_partial (sha : Bytes → Str) {w : World} (hw : Points w) (hl : ∀ a b c r, w a b c = some r → r.head.length = 20)
    {pkg version : Str} (hp : 3 ≤ (splitBy 47 pkg).length) (hv : version ≠ lit "v") : getClawFile sha w pkg version ≠ .panic := by
  have key : ∀ n pkg version, 3 ≤ (splitBy 47 pkg).length → version ≠ lit "v" → get sha w n pkg version ≠ .panic := by
    intro n
    induction n with
    | zero => intro _ _ _ _ h; cases h
    | succ n ih =>
      intro pkg version hp hv h
      rw [get] at h
      split at h
      · next a b c l e =>
        cases hr : w a b c with
        | none => rw [hr] at h; cases h
        | some r =>
          simp only [hr, Out.ofOption, Out.ok_bind] at h
          cases hc : checkout r version with
          | err => rw [hc] at h; cases h
          | panic => exact hv (checkout_panic hc)
          | ok t =>
            simp only [hc, Out.ok_bind] at h
            cases ht : t l with
            | none => rw [ht] at h; cases h
            | some d =>
              simp only [ht, Out.ok_bind] at h
              split at h
              · next nm text hfind =>
                cases hp : parseGlobal text with
                | err => rw [hp] at h; cases h
                | panic => exact parseGlobal_panic text hp
                | ok p =>
                  rw [hp, Out.ok_bind] at h
                  obtain ⟨x, hx⟩ := checkout_commit hc
                  have hm := List.mem_of_find?_eq_some hfind
                  have hnm := List.find?_some hfind
                  simp only [decide_eq_true_eq] at hnm
                  refine ih p _ (hw _ _ _ _ _ _ _ _ _ hr hx ht text (hnm ▸ hm) hp) ?_ h
                  split
                  · intro e
                    have : (118 : UInt8) ∈ hexOf r.head := by rw [e]; decide
                    exact (hexOf_mem this).2 rfl
                  · exact hv
              · cases h
              · cases hf : find d with
                | err => rw [hf] at h; cases h
                | panic =>
                  rw [find] at hf
                  split at hf <;> cases hf
                | ok x => rw [hf, Out.ok_bind] at h; cases h
      · next hno =>
        match hs : splitBy 47 pkg with
        | [] => rw [hs] at hp; simp at hp
        | [_] => rw [hs] at hp; simp at hp
        | [_, _] => rw [hs] at hp; simp at hp
        | a :: b :: c :: l => exact hno a b c l hs
  exact key 5 pkg version hp hv

/-! ### Where it fails -/

/-- **C131 is violated** A path of fewer than three elements makes the compiler panic. -/
theorem C131_short (sha : Bytes → Str) (w : World) {pkg : Str} (h : (splitBy 47 pkg).length < 3) (version : Str) :
    getClawFile sha w pkg version = .panic := by
  rw [getClawFile, get]
  split
  · next e => rw [e] at h; simp at h; omega
  · rfl

/-- **C131 is violated** A directory that leads to a package of another repository is an error, whether a version is asked for or not: the
version of the first repository is looked for in the other. -/
theorem C131_other (sha : Bytes → Str) {w : World} {a b c : Str} {inside : List Str} (he : Elems (a :: b :: c :: inside)) {r : Repo}
    (hw : w a b c = some r) {h : Hash} (hl : h.length = 20) {version : Str} (hv : version = hexOf h ∨ version = [] ∧ h = r.head)
    {t : Tree} (hc : r.commits h = some t) {d : Dir} (ht : t inside = some d)
    {a' b' c' : Str} {inside' : List Str} (hd : Leads d (path a' b' c' inside')) (he' : Elems (a' :: b' :: c' :: inside'))
    (hother : ∀ r', w a' b' c' = some r' → r'.commits h = none) :
    getClawFile sha w (path a b c inside) version = .err := by
  have hco : checkout r version = .ok t := by
    rcases hv with rfl | ⟨rfl, rfl⟩
    · rw [checkout_hexOf hl, hc]; rfl
    · rw [checkout_empty, hc]; rfl
  have hver : (if version = [] then hexOf r.head else version) = hexOf h := by
    rcases hv with rfl | ⟨rfl, rfl⟩
    · rw [if_neg (hexOf_ne_nil hl)]
    · rw [if_pos rfl]
  rw [getClawFile, get_there sha he hw hco ht hd, hver, get, splitBy_path he']
  simp only
  cases hw' : w a' b' c' with
  | none => rfl
  | some r' =>
    simp only [Out.ofOption, Out.ok_bind, checkout_hexOf hl, hother r' hw']
    rfl

/-- **C131 is violated** No tag can be fetched: a version that does not begin with two hexadecimal digits is looked for as a hash of zeros,
whatever tags there are. -/
theorem C131_tags (sha : Bytes → Str) {w : World} {a b c : Str} {inside : List Str} (he : Elems (a :: b :: c :: inside)) {r : Repo}
    (hw : w a b c = some r) (htags : ∀ t ∈ r.tags, lit "refs/tags/" <+: t.1) (hz : r.commits (List.replicate 20 0) = none)
    {version : Str} (hne : version ≠ []) (hx : hexDecode version = []) :
    ∀ f, getClawFile sha w (path a b c inside) version ≠ .ok f := by
  intro f h
  rw [getClawFile, get, splitBy_path he] at h
  simp only [hw, Out.ofOption, Out.ok_bind] at h
  have hno : ∀ t, checkout r version ≠ .ok t := by
    intro t hc
    rw [checkout] at hc
    have ht := C95_tags_never (r.tags.map (·.1)) (by
      intro x hx
      obtain ⟨y, hy, rfl⟩ := List.mem_map.1 hx
      obtain ⟨z, hz⟩ := htags y hy
      exact ⟨z, hz.symm⟩) version
    split at hc
    · cases hc
    · cases hc
    · next e =>
      rw [versionCheckout, if_neg hne] at e
      split at e
      · cases e
      · cases e
      · split at e <;> cases e
    · next n e => exact ht n e
    · next s e =>
      have : s = version := by
        rw [versionCheckout, if_neg hne] at e
        split at e
        · cases e
        · cases e; rfl
        · split at e <;> cases e
      subst this
      have : newHash s = List.replicate 20 0 := by rw [newHash, hx]; rfl
      rw [this, hz] at hc
      cases hc
  cases hc : checkout r version with
  | ok t => exact hno t hc
  | err => rw [hc] at h; cases h
  | panic => rw [hc] at h; cases h

/-! ### Cases -/

def demoHash : Hash := List.replicate 20 171

def demoDir : Dir := [(lit "README.md", some []), (lit "cars.claw", some (lit "package cars\n")), (lit "old", none)]

def demoLead : Dir := [(lit "global.replace", some (lit "with g.h/u/r/cars\n"))]

def demoAway : Dir := [(lit "global.replace", some (lit "with g.h/u/other/cars\n"))]

def demoTree : Tree := fun p =>
  if p = [lit "cars"] then some demoDir
  else if p = [lit "autos"] then some demoLead
  else if p = [lit "away"] then some demoAway
  else none

def demoRepo : Repo := ⟨demoHash, fun h => if h = demoHash then some demoTree else none, [(lit "refs/tags/v1.2.3", demoHash)]⟩

def otherHash : Hash := List.replicate 20 1

def otherRepo : Repo := ⟨otherHash, fun h => if h = otherHash then some demoTree else none, []⟩

def demoWorld : World := fun a b c =>
  if a = lit "g.h" ∧ b = lit "u" ∧ c = lit "r" then some demoRepo
  else if a = lit "g.h" ∧ b = lit "u" ∧ c = lit "other" then some otherRepo
  else none

theorem demo_holds : Holds demoDir (lit "package cars\n") :=
  ⟨by unfold Dir.Ok; decide, by decide, lit "cars.claw", by decide, by decide, by decide⟩

theorem demo_leads : Leads demoLead (path (lit "g.h") (lit "u") (lit "r") [lit "cars"]) :=
  ⟨by unfold Dir.Ok; decide, lit "with g.h/u/r/cars\n", by decide, by decide +kernel⟩

theorem demo_away : Leads demoAway (path (lit "g.h") (lit "u") (lit "other") [lit "cars"]) :=
  ⟨by unfold Dir.Ok; decide, lit "with g.h/u/other/cars\n", by decide, by decide +kernel⟩

/-- Over one directory that leads elsewhere. -/
example : getClawFile (fun _ => []) demoWorld (path (lit "g.h") (lit "u") (lit "r") [lit "autos"]) (hexOf demoHash) =
    .ok ⟨lit "package cars\n", hexOf demoHash, []⟩ := by
  have := C131_commit_partial (fun _ => []) (w := demoWorld) (a := lit "g.h") (b := lit "u") (c := lit "r") (inside := [lit "autos"])
    (by unfold Elems; decide) (r := demoRepo) rfl (h := demoHash) rfl (t := demoTree) rfl
    (.there (d := demoLead) (inside' := [lit "cars"]) rfl demo_leads (by unfold Elems; decide) (.here (d := demoDir) rfl demo_holds))
  rw [this, if_pos (by decide)]

example : getClawFile (fun _ => []) demoWorld (path (lit "g.h") (lit "u") (lit "r") [lit "away"]) [] = .err :=
  C131_other (fun _ => []) (by unfold Elems; decide) (r := demoRepo) rfl (h := demoHash) rfl (.inr ⟨rfl, rfl⟩) (t := demoTree) rfl
    (d := demoAway) rfl demo_away (by unfold Elems; decide) (by
      intro r' hr
      have : r' = otherRepo := (Option.some.inj hr).symm
      subst this
      decide +kernel)

example : ∀ f, getClawFile (fun _ => []) demoWorld (path (lit "g.h") (lit "u") (lit "r") [lit "cars"]) (lit "v1.2.3") ≠ .ok f :=
  C131_tags (fun _ => []) (by unfold Elems; decide) (r := demoRepo) rfl (by decide) (by decide +kernel) (by decide) (by decide)

example : getClawFile (fun _ => []) demoWorld (lit "gopkg.in/yaml") [] = .panic := C131_short _ _ (by decide) _

end Claw.Fetch
