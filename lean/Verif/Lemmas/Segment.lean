import Verif.Model.Struct
import Verif.Lemmas.Header

/-!
# Closed forms of the segment operations
-/

namespace Claw

theorem goCopy_fit' {dst : Bytes} {off : Nat} (p x q src : Bytes) (hd : dst = p ++ x ++ q)
    (ho : off = p.length) (h : src.length = x.length) : goCopy dst off src = p ++ src ++ q := by
  subst hd ho; exact goCopy_fit p x q src h

/-- Copy of a string of the right length given by positions only. -/
theorem goCopy_take_drop (dst : Bytes) (off : Nat) (src : Bytes) (h : off + src.length ≤ dst.length) :
    goCopy dst off src = dst.take off ++ src ++ dst.drop (off + src.length) := by
  apply goCopy_fit' (dst.take off) ((dst.drop off).take src.length) (dst.drop (off + src.length))
  · rw [List.append_assoc, ← List.drop_drop, List.take_append_drop, List.take_append_drop]
  · simp; omega
  · simp; omega

theorem split3 (X : Bytes) (a n : Nat) :
    X = X.take a ++ (X.drop a).take n ++ X.drop (a + n) := by
  rw [List.append_assoc, ← List.drop_drop, List.take_append_drop, List.take_append_drop]

namespace Seg

@[simp] theorem ensureCapacity_data (g : Seg) (n : Nat) : (g.ensureCapacity n).data = g.data := by
  simp only [ensureCapacity]; split <;> rfl

theorem ensureCapacity_spare (g : Seg) (n : Nat) : n ≤ (g.ensureCapacity n).spare.length := by
  simp only [ensureCapacity]
  split
  · rename_i h; simp [cap] at h; omega
  · simp; omega

theorem append_data (g : Seg) (d : Bytes) : (g.append d).data = g.data ++ d := by
  have hs := ensureCapacity_spare g d.length
  simp only [append, grow, ensureCapacity_data]
  rw [goCopy_fit' g.data ((g.ensureCapacity d.length).spare.take d.length) [] d]
  · simp
  · simp
  · rfl
  · simp; omega

theorem insertAt_eq (g : Seg) (A B d : Bytes) (hg : g.data = A ++ B) :
    ∃ g', g.insertAt A.length d = .ok g' ∧ g'.data = A ++ d ++ B := by
  have h1 : ¬ A.length > g.data.length := by rw [hg]; simp
  simp only [insertAt, h1, if_false]
  by_cases hd : d.length = 0
  · have : d = [] := List.length_eq_zero_iff.mp hd
    subst this
    exact ⟨g, by simp, by simp [hg]⟩
  · simp only [hd, if_false, grow, ensureCapacity_data]
    have hs := ensureCapacity_spare g d.length
    refine ⟨_, rfl, ?_⟩
    simp only
    have hsp : ((g.ensureCapacity d.length).spare.take d.length).length = d.length := by simp; omega
    generalize (g.ensureCapacity d.length).spare.take d.length = sp at hsp
    rw [hg]
    by_cases hB : A.length < (A ++ B).length
    · rw [if_pos hB]
      have e1 : slice (A ++ B ++ sp) A.length (A ++ B).length = B := by
        have := slice_mid A B sp
        simpa [slice] using this
      rw [e1]
      rw [goCopy_take_drop (A ++ B ++ sp) _ B (by simp; omega)]
      rw [goCopy_fit' A (((A ++ B ++ sp).take (A.length + d.length)).drop A.length)
        (B ++ (A ++ B ++ sp).drop (A.length + d.length + B.length)) d]
      · rw [List.drop_of_length_le (by simp; omega)]; simp
      · rw [← List.append_assoc]
        congr 1
        congr 1
        conv => lhs; rw [← List.take_append_drop A.length (List.take (A.length + d.length) (A ++ B ++ sp))]
        congr 1
        rw [List.take_take]
        simp
      · rfl
      · simp; omega
    · rw [if_neg hB]
      have hB' : B = [] := by
        apply List.length_eq_zero_iff.mp; rw [List.length_append] at hB; omega
      subst hB'
      rw [goCopy_fit' A sp [] d (by simp) rfl (by omega)]

theorem removeAt_eq (g : Seg) (A X B : Bytes) (hg : g.data = A ++ X ++ B) :
    ∃ g', g.removeAt A.length X.length = .ok g' ∧ g'.data = A ++ B := by
  have h1 : ¬ A.length + X.length > g.data.length := by rw [hg]; simp
  simp only [removeAt, h1, if_false]
  by_cases hx : X.length = 0
  · have : X = [] := List.length_eq_zero_iff.mp hx
    subst this
    exact ⟨g, by simp, by simp [hg]⟩
  · simp only [hx, if_false, shrink]
    refine ⟨_, rfl, ?_⟩
    simp only [hg]
    have e1 : (A ++ X ++ B).drop (A.length + X.length) = B := by
      rw [← List.length_append]; exact List.drop_left
    rw [e1, goCopy_take_drop _ _ _ (by simp)]
    have e2 : (A ++ X ++ B).take A.length = A := by simp
    rw [e2]
    have : (A ++ B ++ (A ++ X ++ B).drop (A.length + B.length)).length - X.length = (A ++ B).length := by
      simp; omega
    rw [this]; exact List.take_left' rfl

theorem replaceAt_eq (g : Seg) (A X B d : Bytes) (hg : g.data = A ++ X ++ B) :
    ∃ g', g.replaceAt A.length X.length d = .ok g' ∧ g'.data = A ++ d ++ B := by
  have h1 : ¬ A.length + X.length > g.data.length := by rw [hg]; simp
  simp only [replaceAt, h1, if_false]
  by_cases hx : d.length = X.length
  · simp only [hx, if_true]
    exact ⟨_, rfl, goCopy_fit' A X B d hg rfl hx⟩
  · simp only [hx, if_false]
    by_cases hlt : X.length < d.length
    · simp only [hlt, if_true, grow, ensureCapacity_data]
      refine ⟨_, rfl, ?_⟩
      have hs := ensureCapacity_spare g (d.length - X.length)
      have hsp : ((g.ensureCapacity (d.length - X.length)).spare.take (d.length - X.length)).length
        = d.length - X.length := by simp; omega
      generalize (g.ensureCapacity (d.length - X.length)).spare.take (d.length - X.length) = sp at hsp
      rw [hg]
      have e1 : slice (A ++ X ++ B ++ sp) (A.length + X.length) (A ++ X ++ B).length = B := by
        have := slice_mid (A ++ X) B sp
        simpa [slice, Nat.add_assoc] using this
      rw [e1, goCopy_take_drop (A ++ X ++ B ++ sp) _ B (by simp; omega)]
      rw [goCopy_take_drop _ _ d (by simp; omega)]
      have e2 : ((A ++ X ++ B ++ sp).take (A.length + d.length) ++ B ++
          (A ++ X ++ B ++ sp).drop (A.length + d.length + B.length)).take A.length = A := by
        rw [List.append_assoc, List.take_append_of_le_length (by simp), List.take_take]
        simp
      have e3 : ((A ++ X ++ B ++ sp).take (A.length + d.length) ++ B ++
          (A ++ X ++ B ++ sp).drop (A.length + d.length + B.length)).drop (A.length + d.length) = B := by
        rw [List.drop_of_length_le (i := A.length + d.length + B.length) (by simp; omega)]
        rw [List.append_nil, List.drop_append_of_le_length (by simp; omega)]
        rw [List.drop_of_length_le (by simp; omega)]; rfl
      rw [e2, e3]
    · simp only [hlt, if_false, shrink]
      refine ⟨_, rfl, ?_⟩
      simp only [hg]
      have e1 : (A ++ X ++ B).drop (A.length + X.length) = B := by
        rw [← List.length_append]; exact List.drop_left
      rw [e1, goCopy_take_drop (A ++ X ++ B) (A.length + d.length) B (by simp; omega)]
      have e4 : ((A ++ X ++ B).take (A.length + d.length) ++ B ++
          (A ++ X ++ B).drop (A.length + d.length + B.length)).length - (X.length - d.length)
          = ((A ++ X ++ B).take (A.length + d.length) ++ B).length := by simp; omega
      rw [e4, List.take_left']
      · rw [goCopy_take_drop _ _ d (by simp; omega)]
        congr 1
        · congr 1
          rw [List.take_append_of_le_length (by simp), List.take_take]
          simp
        · rw [List.drop_append_of_le_length (by simp; omega), List.drop_of_length_le (by simp; omega)]
          rfl
      · rfl

theorem putHeaderSize_eq (g : Seg) (r t f : Nat) (body : Bytes) (hg : g.data = hdr r t f ++ body)
    (n : Nat) (hn : n < 2 ^ 40) : g.putHeaderSize n = .ok ⟨hdr r t n ++ body, g.spare⟩ := by
  have h1 : ¬ g.cap < 8 := by simp [cap, hg]; omega
  simp only [putHeaderSize, h1, if_false, hg]
  have h2 : ¬ n > MaxFinal40 := by simp [MaxFinal40]; omega
  have h3 : ¬ (hdr r t f ++ body ++ g.spare).length < 8 := by simp
  have : encodeHeaderFinal40 (hdr r t f ++ body ++ g.spare) n
      = some (hdr r t n ++ body ++ g.spare) := by
    simp only [encodeHeaderFinal40, h2, h3, if_false]
    obtain ⟨p, q, hpq⟩ : ∃ p q, putLE 2 r = [p, q] := ⟨_, _, rfl⟩
    obtain ⟨tt, ht⟩ : ∃ t', putLE 1 t = [t'] := ⟨_, rfl⟩
    obtain ⟨a0, a1, a2, a3, a4, ha⟩ : ∃ a b c d e, putLE 5 f = [a, b, c, d, e] :=
      ⟨_, _, _, _, _, rfl⟩
    simp only [hdr, hpq, ht, ha, List.cons_append, List.nil_append]
    rw [storeFinal40_eq _ _ _ _ _ _ _ _ _ hn]; simp
  rw [this]
  simp only [Res.ok.injEq, Seg.mk.injEq]
  have hl : (hdr r t f ++ body).length = (hdr r t n ++ body).length := by simp
  rw [hl]
  exact ⟨List.take_left, List.drop_left⟩

theorem sub_eq (g : Seg) (A X B : Bytes) (hg : g.data = A ++ X ++ B) (b : Nat)
    (hb : b = A.length + X.length) : g.sub A.length b = .ok X := by
  subst hb
  have : A.length ≤ A.length + X.length ∧ A.length + X.length ≤ g.cap := by
    simp [cap, hg]; omega
  simp only [sub, this, and_self, if_true, hg]
  have := slice_mid A X (B ++ g.spare)
  simp only [List.append_assoc] at *
  rw [this]

end Seg
end Claw
