import Verif.Props.DeltaEncoder

/-! Exactly when compressing leaves the array of the caller as it is (C57). -/

namespace Verif.DeltaEncoder

/-- **Exactly when the input is unchanged** (C57): every value is the integer that it is rounded to. -/
theorem compress_unchanged_iff (x : Image ℚ) (p : Precision) (hx : x.Encodable) (hp : p.Legal x.c) :
    (compress x p).2 = x ↔ ∀ i j ch, x.px i j ch = (roundHalfEven (x.px i j ch / p.prec ch) : ℚ) := by
  rw [compress_overwrites_input x p hx hp]
  cases x with
  | mk h w c px =>
    simp only [Image.mk.injEq, heq_eq_eq, true_and]
    constructor
    · intro e i j ch
      exact (congrFun (congrFun (congrFun e i) j) ch).symm
    · intro e
      funext i j ch
      exact (e i j ch).symm

/-- An array with a value that is not an integer is always changed. -/
theorem compress_fraction (x : Image ℚ) (p : Precision) (hx : x.Encodable) (hp : p.Legal x.c) {i j ch}
    (h : ∀ k : ℤ, x.px i j ch ≠ k) : (compress x p).2 ≠ x := by
  intro e
  exact h _ ((compress_unchanged_iff x p hx hp).1 e i j ch)

/-- With a precision of at most a half, an array is unchanged only if it is zero. -/
theorem compress_fine_iff (x : Image ℚ) (p : Precision) (hx : x.Encodable) (hp : p.Legal x.c)
    (hq : ∀ ch : Fin x.c, 0 < p.prec ch ∧ p.prec ch ≤ 1 / 2) :
    (compress x p).2 = x ↔ ∀ i j ch, x.px i j ch = 0 := by
  rw [compress_unchanged_iff x p hx hp]
  refine forall_congr' fun i => forall_congr' fun j => forall_congr' fun ch => ?_
  obtain ⟨h0, h1⟩ := hq ch
  constructor
  · intro e
    by_contra hne
    have hn : |x.px i j ch / p.prec ch - x.px i j ch| ≤ 1 / 2 := by
      have := (roundHalfEven_spec (x.px i j ch / p.prec ch) _).1 rfl
      rw [← e] at this
      rcases this with h | h
      · exact h.le
      · exact h.1.le
    have hk : (1 : ℚ) ≤ |x.px i j ch| := by
      rw [e] at hne ⊢
      rw [← Int.cast_abs]
      exact_mod_cast Int.one_le_abs (by exact_mod_cast hne)
    have h2 : 2 * |x.px i j ch| ≤ |x.px i j ch / p.prec ch| := by
      rw [abs_div, abs_of_pos h0, le_div_iff₀ h0]
      nlinarith
    have h3 : |x.px i j ch / p.prec ch| ≤ |x.px i j ch / p.prec ch - x.px i j ch| + |x.px i j ch| := by
      have := abs_add_le (x.px i j ch / p.prec ch - x.px i j ch) (x.px i j ch)
      rwa [sub_add_cancel] at this
    linarith
  · intro e
    rw [e, zero_div]
    have := roundHalfEven_intCast 0
    simp only [Int.cast_zero] at this
    rw [this]; simp

/-- The image that holds 5 is changed by a precision of a half, the image that holds 0 is not. -/
theorem compress_fine_case :
    (compress five (.scalar (1 / 2))).2 ≠ five ∧
      (compress ⟨1, 1, 1, fun _ _ _ => 0⟩ (.scalar (1 / 2))).2 = ⟨1, 1, 1, fun _ _ _ => (0 : ℚ)⟩ := by
  constructor
  · rw [Ne, compress_fine_iff _ _ (by simp [five, Image.Encodable]) (by simp [Precision.Legal])
      (fun _ => by norm_num [Precision.prec])]
    intro h
    have := h ⟨0, by decide⟩ ⟨0, by decide⟩ ⟨0, by decide⟩
    exact absurd this (by show ¬ ((5 : ℚ) = 0); norm_num)
  · rw [compress_fine_iff _ _ (by simp [Image.Encodable]) (by simp [Precision.Legal]) (fun _ => by norm_num [Precision.prec])]
    intro _ _ _
    rfl

end Verif.DeltaEncoder
