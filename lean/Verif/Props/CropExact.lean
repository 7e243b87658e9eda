import Verif.Props.Wireframe

/-!
C174: exactly which key points are inside the cropped image.
-/

namespace Verif.Wireframe

/-! ## Specification -/

/-- Along an axis with `len` pixels: not before the pixel in which the box begins, and before the pixel in which it ends and the last
pixel; if the box ends more than a pixel before the image, the end counts from the end of the image. -/
def Kept (len : ℕ) (center size margin p : ℚ) : Prop :=
  0 ≤ p ∧ (⌊center - (1 + margin) * size / 2⌋ : ℚ) ≤ p ∧
    p < if -1 < center + (1 + margin) * size / 2 then ((min ((len : ℤ) - 1) ⌊center + (1 + margin) * size / 2⌋ : ℤ) : ℚ)
      else ((len + ⌈center + (1 + margin) * size / 2⌉ : ℤ) : ℚ)

/-! ## Proofs -/

theorem low_le_iff (center size margin p : ℚ) :
    (low center size margin : ℚ) ≤ p ↔ 0 ≤ p ∧ (⌊center - (1 + margin) * size / 2⌋ : ℚ) ≤ p := by
  unfold low trunc
  generalize center - (1 + margin) * size / 2 = a
  have e : ((max 0 (if 0 ≤ a then ⌊a⌋ else ⌈a⌉)).toNat : ℤ) = max 0 ⌊a⌋ := by
    rw [Int.toNat_of_nonneg (le_max_left _ _)]
    split_ifs with h
    · rfl
    · have h1 : ⌈a⌉ ≤ 0 := Int.ceil_le.2 (by push_cast; linarith)
      have h2 : ⌊a⌋ ≤ 0 := Int.floor_le_ceil a |>.trans h1
      rw [max_eq_left h1, max_eq_left h2]
  have : ((max 0 (if 0 ≤ a then ⌊a⌋ else ⌈a⌉)).toNat : ℚ) = ((max 0 ⌊a⌋ : ℤ) : ℚ) := by rw [← e, Int.cast_natCast]
  rw [this]
  push_cast
  exact max_le_iff

theorem toNat_lt_iff (z : ℤ) {p : ℚ} (hp : 0 ≤ p) : p < (z.toNat : ℚ) ↔ p < (z : ℚ) := by
  by_cases hz : 0 ≤ z
  · have : (z.toNat : ℚ) = ((z.toNat : ℤ) : ℚ) := (Int.cast_natCast _).symm
    rw [this, Int.toNat_of_nonneg hz]
  · have h1 : z.toNat = 0 := by omega
    have h2 : (z : ℚ) ≤ 0 := by exact_mod_cast (by omega : z ≤ 0)
    rw [h1]
    constructor <;> intro h
    · simp at h; linarith
    · linarith

theorem end_iff (len : ℕ) (center size margin : ℚ) {p : ℚ} (hp : 0 ≤ p) :
    p < (sliceEnd len (high len center size margin) : ℚ) ↔
      p < if -1 < center + (1 + margin) * size / 2 then ((min ((len : ℤ) - 1) ⌊center + (1 + margin) * size / 2⌋ : ℤ) : ℚ)
        else ((len + ⌈center + (1 + margin) * size / 2⌉ : ℤ) : ℚ) := by
  unfold high trunc
  generalize center + (1 + margin) * size / 2 = b
  by_cases hb : -1 < b
  · rw [if_pos hb]
    by_cases h0 : 0 ≤ b
    · rw [if_pos h0]
      have hf : 0 ≤ ⌊b⌋ := Int.floor_nonneg.2 h0
      have : sliceEnd len (min ((len : ℤ) - 1) ⌊b⌋) = (min ((len : ℤ) - 1) ⌊b⌋).toNat := by
        unfold sliceEnd; split_ifs <;> omega
      rw [this, toNat_lt_iff _ hp]
    · have h1 : ⌈b⌉ = 0 := by rw [Int.ceil_eq_iff]; constructor <;> push_cast <;> linarith
      have h2 : ⌊b⌋ = -1 := by rw [Int.floor_eq_iff]; constructor <;> push_cast <;> linarith
      rw [if_neg h0, h1, h2]
      have : sliceEnd len (min ((len : ℤ) - 1) 0) = 0 := by unfold sliceEnd; split_ifs <;> omega
      have h3 : ((min ((len : ℤ) - 1) (-1) : ℤ) : ℚ) ≤ 0 := by exact_mod_cast (by omega : min ((len : ℤ) - 1) (-1) ≤ 0)
      rw [this]
      constructor <;> intro h
      · simp at h; linarith
      · linarith
  · rw [if_neg hb, if_neg (by linarith)]
    have h1 : ⌈b⌉ ≤ -1 := Int.ceil_le.2 (by push_cast; linarith)
    have : sliceEnd len (min ((len : ℤ) - 1) ⌈b⌉) = ((len : ℤ) + ⌈b⌉).toNat := by
      unfold sliceEnd; split_ifs <;> omega
    rw [this, toNat_lt_iff _ hp]

theorem axis_iff (len : ℕ) (center size margin p : ℚ) :
    (0 ≤ p - (low center size margin : ℕ) ∧
      p - (low center size margin : ℕ) < ((sliceEnd len (high len center size margin) - low center size margin : ℕ) : ℚ)) ↔
      Kept len center size margin p := by
  unfold Kept
  rw [sub_nonneg, ← and_assoc, ← low_le_iff]
  apply and_congr_right
  intro hl
  have hp : 0 ≤ p := ((low_le_iff _ _ _ _).1 hl).1
  rw [← end_iff len center size margin hp]
  generalize low center size margin = m at *
  generalize sliceEnd len (high len center size margin) = k
  by_cases hk : m ≤ k
  · rw [Nat.cast_sub hk]; constructor <;> intro h <;> linarith
  · have h1 : k - m = 0 := by omega
    have h2 : (k : ℚ) < m := by exact_mod_cast (by omega : k < m)
    rw [h1]
    constructor <;> intro h
    · simp at h; linarith
    · linarith

/-- C174: a key point is inside the cropped image exactly if it is kept along both axes. -/
theorem crop_iff {P : Type} (image : Image P) (keypoints : List (ℚ × ℚ)) (b : Box) (margin : ℚ) :
    List.Forall₂ (fun p q => (pixelAt (crop image keypoints b margin).1 q).isSome ↔
        Kept image.w b.cx b.length margin p.1 ∧ Kept image.h b.cy b.width margin p.2)
      keypoints (crop image keypoints b margin).2 := by
  unfold crop
  simp only [List.forall₂_map_right_iff, List.forall₂_same]
  intro p _
  rw [← axis_iff, ← axis_iff]
  unfold pixelAt
  simp only
  split_ifs with h
  · simp only [Option.isSome_some, true_iff]
    exact ⟨⟨h.1, h.2.2.1⟩, h.2.1, h.2.2.2⟩
  · simp only [Option.isSome_none, Bool.false_eq_true, false_iff]
    exact fun g => h ⟨g.1.1, g.2.1, g.1.2, g.2.2⟩

/-- A box left of the image keeps the key point 7 of ten pixels and not 8. -/
theorem crop_iff_case : Kept 10 (-3) 2 0 7 ∧ ¬ Kept 10 (-3) 2 0 8 := by
  unfold Kept; decide +kernel

end Verif.Wireframe
