import Verif.Props.ExactFloat

/-! Exactly which integers are converted (C105). -/

namespace Verif.ExactFloat

open EF

/-- What the least `int` becomes. -/
theorem ofInt_least : Represents (ofInt (-2147483648)) (-1) (-(2 ^ 64 - 2147483648)) := by
  have key := canonicalize_spec (a := ⟨-1, 0, 2 ^ 64 - 2147483648⟩) (.inr rfl) (by decide)
  have e : EF.val ⟨-1, 0, 2 ^ 64 - 2147483648⟩ = -(2 ^ 64 - 2147483648) := by unfold EF.val; norm_num
  rw [e] at key
  exact key

/-- **Exactly which integers are converted** (C105): all but the least `int`. -/
theorem ofInt_iff (v : ℤ) : Represents (ofInt v) (if v ≥ 0 then 1 else -1) v ↔ v ≠ -2147483648 := by
  refine ⟨fun h1 hv => ?_, ofInt_spec_partial v⟩
  subst hv
  have e1 := (h1.exact (small_inRange (by norm_num) (by norm_num)) (small_precise (2 ^ 31) 0 (by norm_num) (by norm_num))).2.2
  have e2 := (ofInt_least.exact (small_inRange (by norm_num) (by norm_num)) (small_precise (2 ^ 64 - 2147483648) 0 (by norm_num) (by norm_num))).2.2
  rw [e1] at e2
  norm_num at e2

end Verif.ExactFloat
