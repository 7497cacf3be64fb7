import Verif.Lemmas.VendorGraph

/-!
# The readers of imports
-/

namespace Claw.Vendor

open Claw.Graph
open Claw.Idl (Out)

/-- What a file imports; nothing if it cannot be read. -/
def edgesOf (file : Str → Option (List Str)) (p : Str) : List Str := (file p).getD []

/-! ### Config.read -/

/-- What a call of `read` does. -/
structure ReadDone (file : Str → Option (List Str)) (flow : List Str) (p : Str) (g g' : List Str) : Prop where
  mem : ∀ x, Reach (edgesOf file) p x → x ∈ g' ∧ x ∉ flow
  more : ∀ x ∈ g, x ∈ g'
  reach : ∀ x ∈ g', x ∈ g ∨ Reach (edgesOf file) p x
  readable : ∀ x, Reach (edgesOf file) p x → (file x).isSome = true
  acc : Acc (fun d p => d ∈ edgesOf file p) p

theorem read_ok {file : Str → Option (List Str)} : ∀ (n : Nat) (flow : List Str) (p : Str) (g g' : List Str),
    read file n flow p g = .ok g' → ReadDone file flow p g g' := by
  intro n
  induction n with
  | zero => intro flow p g g' h; cases h
  | succ n ih =>
    intro flow p g g' h
    rw [read] at h
    split at h
    · cases h
    · rename_i hf
      split at h
      · cases h
      · rename_i deps hdeps
        have he : edgesOf file p = deps := by simp [edgesOf, hdeps]
        have hw := walk_ok h (fun done x => (∀ y ∈ g ++ [p], y ∈ x) ∧ (∀ y ∈ x, y ∈ g ∨ Reach (edgesOf file) p y) ∧
            ∀ d ∈ done, (∀ y, Reach (edgesOf file) d y → y ∈ x ∧ y ∉ flow ∧ (file y).isSome = true) ∧
              Acc (fun d p => d ∈ edgesOf file p) d)
          ⟨fun y hy => hy, by
            intro y hy
            rcases List.mem_append.1 hy with hy | hy
            · exact .inl hy
            · simp only [List.mem_singleton] at hy
              subst hy
              exact .inr .refl, by simp⟩ (by
            rintro d hd done x1 x2 ⟨k, r, m⟩ hx
            have hr := ih (flow ++ [p]) d x1 x2 hx
            refine ⟨fun y hy => hr.more y (k y hy), ?_, ?_⟩
            · intro y hy
              rcases hr.reach y hy with hy | hy
              · exact r y hy
              · exact .inr (hy.head (by rw [he]; exact hd))
            · intro q hq
              rcases List.mem_append.1 hq with hq | hq
              · refine ⟨fun y hy => ?_, (m q hq).2⟩
                obtain ⟨a, b⟩ := (m q hq).1 y hy
                exact ⟨hr.more y a, b⟩
              · simp only [List.mem_singleton] at hq
                subst hq
                refine ⟨fun y hy => ?_, hr.acc⟩
                obtain ⟨a, b⟩ := hr.mem y hy
                exact ⟨a, fun hx => b (List.mem_append.2 (.inl hx)), hr.readable y hy⟩)
        obtain ⟨k, r, m⟩ := hw
        refine ⟨?_, fun x hx => k x (List.mem_append.2 (.inl hx)), r, ?_, ⟨p, fun d hd => (m d (by rw [← he]; exact hd)).2⟩⟩
        · intro x hx
          rcases hx.cases_head with rfl | ⟨d, hd, hr⟩
          · exact ⟨k p (by simp), hf⟩
          · obtain ⟨a, b, -⟩ := (m d (by rw [← he]; exact hd)).1 x hr
            exact ⟨a, b⟩
        · intro x hx
          rcases hx.cases_head with rfl | ⟨d, hd, hr⟩
          · simp [hdeps]
          · exact ((m d (by rw [← he]; exact hd)).1 x hr).2.2

theorem read_err {file : Str → Option (List Str)} : ∀ (n : Nat) (flow : List Str) (p : Str) (g : List Str),
    (∀ v ∈ flow, ∃ d ∈ edgesOf file v, Reach (edgesOf file) d p) → read file n flow p g = .err →
    ∃ q, Reach (edgesOf file) p q ∧ (Cyclic (edgesOf file) q ∨ file q = none) := by
  intro n
  induction n with
  | zero => intro flow p g _ h; cases h
  | succ n ih =>
    intro flow p g hpath h
    rw [read] at h
    split at h
    · rename_i hf
      exact ⟨p, .refl, .inl (hpath p hf)⟩
    · rename_i hf
      split at h
      · rename_i hn
        exact ⟨p, .refl, .inr hn⟩
      · rename_i deps hdeps
        have he : edgesOf file p = deps := by simp [edgesOf, hdeps]
        obtain ⟨d, hd, x1, -, h1⟩ := walk_err h (fun _ => True) trivial (fun _ _ _ _ _ _ => trivial)
        rw [← he] at hd
        obtain ⟨q, hq, hc⟩ := ih (flow ++ [p]) d x1 (by
          intro v hv
          rcases List.mem_append.1 hv with hv | hv
          · obtain ⟨y, hy, hr⟩ := hpath v hv
            exact ⟨y, hy, .step hr hd⟩
          · simp only [List.mem_singleton] at hv
            subst hv
            exact ⟨d, hd, .refl⟩) h1
        exact ⟨q, hq.head hd, hc⟩

theorem read_depth {file : Str → Option (List Str)} {all : List Str} (hall : ∀ p ∈ all, ∀ d ∈ edgesOf file p, d ∈ all) :
    ∀ (n : Nat) (flow : List Str) (p : Str) (g : List Str), flow.Nodup → (∀ v ∈ flow, v ∈ all) → p ∈ all →
    all.length < n + flow.length → read file n flow p g ≠ .panic := by
  intro n
  induction n with
  | zero =>
    intro flow p g hn hv _ hl _
    have := length_le_of_nodup hn hv
    omega
  | succ n ih =>
    intro flow p g hn hv hp hl h
    rw [read] at h
    split at h
    · cases h
    · rename_i hf
      split at h
      · cases h
      · rename_i deps hdeps
        have he : edgesOf file p = deps := by simp [edgesOf, hdeps]
        obtain ⟨d, hd, x1, -, h1⟩ := walk_panic h (fun _ => True) trivial (fun _ _ _ _ _ _ => trivial)
        rw [← he] at hd
        refine ih (flow ++ [p]) d x1 ?_ ?_ (hall p hp d hd) ?_ h1
        · rw [List.nodup_append]
          refine ⟨hn, by simp, ?_⟩
          intro a ha b hb
          simp only [List.mem_singleton] at hb
          subst hb
          rintro rfl
          exact hf ha
        · intro v hv'
          rcases List.mem_append.1 hv' with hv' | hv'
          · exact hv v hv'
          · simp only [List.mem_singleton] at hv'
            subst hv'
            exact hp
        · simp only [List.length_append, List.length_singleton]
          omega

/-! ### VendoredConfig.readVendored -/

/-- What holds of the packages read so far: the imports of all but those on the way are there. -/
structure VRead (file : Str → Option (List Str)) (top : Str) (path g : List Str) : Prop where
  nodup : g.Nodup
  sub : ∀ x ∈ path, x ∈ g
  closed : ∀ x ∈ g, x ∉ path → ∀ d ∈ edgesOf file x, d ∈ g
  readable : ∀ x ∈ g, (file x).isSome = true
  notTop : top ∉ g

theorem vread_start {file : Str → Option (List Str)} {top : Str} {path g : List Str} (hg : VRead file top path g) {p : Str} (hp : p ∉ g)
    (hf : p ∉ top :: path) (hs : (file p).isSome = true) : VRead file top (path ++ [p]) (g ++ [p]) := by
  refine ⟨?_, ?_, ?_, ?_, ?_⟩
  · rw [List.nodup_append]
    refine ⟨hg.nodup, by simp, ?_⟩
    intro a ha b hb
    simp only [List.mem_singleton] at hb
    subst hb
    rintro rfl
    exact hp ha
  · intro x hx
    rcases List.mem_append.1 hx with hx | hx
    · exact List.mem_append.2 (.inl (hg.sub x hx))
    · exact List.mem_append.2 (.inr hx)
  · intro x hx hnp d hd
    simp only [List.mem_append, List.mem_singleton, not_or] at hx hnp
    rcases hx with hx | hx
    · exact List.mem_append.2 (.inl (hg.closed x hx hnp.1 d hd))
    · exact absurd hx hnp.2
  · intro x hx
    rcases List.mem_append.1 hx with hx | hx
    · exact hg.readable x hx
    · simp only [List.mem_singleton] at hx
      subst hx
      exact hs
  · simp only [List.mem_append, List.mem_singleton, not_or]
    refine ⟨hg.notTop, ?_⟩
    rintro rfl
    exact hf (by simp)

theorem vread_ok {file : Str → Option (List Str)} {top : Str} : ∀ (n : Nat) (path : List Str) (p : Str) (g g' : List Str),
    VRead file top path g → readVendored file n (top :: path) p g = .ok g' →
    VRead file top path g' ∧ p ∈ g' ∧ (∀ x ∈ g, x ∈ g') ∧ ∀ x ∈ g', x ∈ g ∨ Reach (edgesOf file) p x := by
  intro n
  induction n with
  | zero => intro path p g g' _ h; cases h
  | succ n ih =>
    intro path p g g' hg h
    rw [readVendored] at h
    split at h
    · rename_i hin
      cases h
      exact ⟨hg, hin, fun x hx => hx, fun x hx => .inl hx⟩
    · rename_i hin
      split at h
      · cases h
      · rename_i hf
        split at h
        · cases h
        · rename_i deps hdeps
          have he : edgesOf file p = deps := by simp [edgesOf, hdeps]
          have hw := walk_ok h (fun done x => VRead file top (path ++ [p]) x ∧ (∀ y ∈ g ++ [p], y ∈ x) ∧ (∀ d ∈ done, d ∈ x) ∧
              ∀ y ∈ x, y ∈ g ∨ Reach (edgesOf file) p y)
            ⟨vread_start hg hin hf (by simp [hdeps]), fun y hy => hy, by simp, by
              intro y hy
              rcases List.mem_append.1 hy with hy | hy
              · exact .inl hy
              · simp only [List.mem_singleton] at hy
                subst hy
                exact .inr .refl⟩ (by
              rintro d hd done x1 x2 ⟨g1, k, m, r⟩ hx
              obtain ⟨g2, m2, k2, r2⟩ := ih (path ++ [p]) d x1 x2 g1 hx
              refine ⟨g2, fun y hy => k2 y (k y hy), ?_, ?_⟩
              · intro y hy
                rcases List.mem_append.1 hy with hy | hy
                · exact k2 y (m y hy)
                · simp only [List.mem_singleton] at hy
                  subst hy
                  exact m2
              · intro y hy
                rcases r2 y hy with hy | hy
                · exact r y hy
                · exact .inr (hy.head (by rw [he]; exact hd)))
          obtain ⟨g1, k, m, r⟩ := hw
          refine ⟨⟨g1.nodup, fun x hx => g1.sub x (List.mem_append.2 (.inl hx)), ?_, g1.readable, g1.notTop⟩, k p (by simp),
            fun x hx => k x (List.mem_append.2 (.inl hx)), r⟩
          intro x hx hnp d hd
          by_cases hxp : x = p
          · subst hxp
            exact m d (by rw [← he]; exact hd)
          · exact g1.closed x hx (by simp [hnp, hxp]) d hd

/-- `readVendored` fails only if a package that is reached cannot be read or is the one to be compiled. -/
theorem vread_err {file : Str → Option (List Str)} {top : Str} : ∀ (n : Nat) (path : List Str) (p : Str) (g : List Str),
    VRead file top path g → readVendored file n (top :: path) p g = .err →
    ∃ q, Reach (edgesOf file) p q ∧ (q = top ∨ file q = none) := by
  intro n
  induction n with
  | zero => intro path p g _ h; cases h
  | succ n ih =>
    intro path p g hg h
    rw [readVendored] at h
    split at h
    · cases h
    · rename_i hin
      split at h
      · rename_i hf
        rcases List.mem_cons.1 hf with rfl | hf
        · exact ⟨p, .refl, .inl rfl⟩
        · exact absurd (hg.sub p hf) hin
      · rename_i hf
        split at h
        · rename_i hn
          exact ⟨p, .refl, .inr hn⟩
        · rename_i deps hdeps
          have he : edgesOf file p = deps := by simp [edgesOf, hdeps]
          obtain ⟨d, hd, x1, g1, h1⟩ := walk_err h (fun x => VRead file top (path ++ [p]) x)
            (vread_start hg hin hf (by simp [hdeps])) (fun d _ x1 x2 g1 hx => (vread_ok n (path ++ [p]) d x1 x2 g1 hx).1)
          rw [← he] at hd
          obtain ⟨q, hq, hc⟩ := ih (path ++ [p]) d x1 g1 h1
          exact ⟨q, hq.head hd, hc⟩

theorem vread_depth {file : Str → Option (List Str)} {top : Str} {all : List Str} (hall : ∀ p ∈ all, ∀ d ∈ edgesOf file p, d ∈ all) :
    ∀ (n : Nat) (path : List Str) (p : Str) (g : List Str), VRead file top path g → path.Nodup → (∀ v ∈ path, v ∈ all) → p ∈ all →
    all.length < n + path.length → readVendored file n (top :: path) p g ≠ .panic := by
  intro n
  induction n with
  | zero =>
    intro path p g _ hn hv _ hl _
    have := length_le_of_nodup hn hv
    omega
  | succ n ih =>
    intro path p g hg hn hv hp hl h
    rw [readVendored] at h
    split at h
    · cases h
    · rename_i hin
      split at h
      · cases h
      · rename_i hf
        split at h
        · cases h
        · rename_i deps hdeps
          have he : edgesOf file p = deps := by simp [edgesOf, hdeps]
          obtain ⟨d, hd, x1, g1, h1⟩ := walk_panic h (fun x => VRead file top (path ++ [p]) x)
            (vread_start hg hin hf (by simp [hdeps])) (fun d _ x1 x2 g1 hx => (vread_ok n (path ++ [p]) d x1 x2 g1 hx).1)
          rw [← he] at hd
          refine ih (path ++ [p]) d x1 g1 ?_ ?_ (hall p hp d hd) ?_ h1
          · rw [List.nodup_append]
            refine ⟨hn, by simp, ?_⟩
            intro a ha b hb
            simp only [List.mem_singleton] at hb
            subst hb
            rintro rfl
            exact hf (by simp [ha])
          · intro v hv'
            rcases List.mem_append.1 hv' with hv' | hv'
            · exact hv v hv'
            · simp only [List.mem_singleton] at hv'
              subst hv'
              exact hp
          · simp only [List.length_append, List.length_singleton]
            omega

end Claw.Vendor
