import Verif.Props.SubmitCreate

/-! Exactly which predictions are kept, whatever their score is (C133). -/

namespace Verif.Submit

open Verif.Wire

/-- **Exactly which predictions are kept** (C133): those with a box of numbers and a score that is not a number, plus infinity, or at least
0.03. -/
theorem kept_score_iff (o : Object) :
    Kept o ↔
      (single (o.score.getD oneFloat) = .nan ∨ single (o.score.getD oneFloat) = .inf false ∨
        ∃ q, single (o.score.getD oneFloat) = .fin q ∧ nearest ≤ q) ∧
      ∀ x ∈ [(boxOf o).centerX, (boxOf o).centerY, (boxOf o).centerZ, (boxOf o).length, (boxOf o).width,
        (boxOf o).height, (boxOf o).heading], double (x.getD zeroDouble) ≠ .nan := by
  have e : lowest = .fin nearest := by decide +kernel
  unfold Kept Below
  rw [e]
  apply and_congr_left'
  cases single (o.score.getD oneFloat) with
  | nan => simp [Fl.lt]
  | inf b => cases b <;> simp [Fl.lt]
  | fin q => simp [Fl.lt]

/-- The property as intended holds exactly for the predictions with a score that is a number. -/
theorem kept_intended_iff (o : Object)
    (hb : ∀ x ∈ [(boxOf o).centerX, (boxOf o).centerY, (boxOf o).centerZ, (boxOf o).length, (boxOf o).width,
        (boxOf o).height, (boxOf o).heading], double (x.getD zeroDouble) ≠ .nan) :
    (Kept o ↔ Below lowest (single (o.score.getD oneFloat)) ∨ single (o.score.getD oneFloat) = lowest) ↔
      single (o.score.getD oneFloat) ≠ .nan := by
  have e : lowest = .fin nearest := by decide +kernel
  rw [kept_score_iff, e, and_iff_left hb]
  unfold Below
  cases single (o.score.getD oneFloat) with
  | nan => simp [Fl.lt]
  | inf b => cases b <;> simp [Fl.lt]
  | fin q => simp [Fl.lt, le_iff_lt_or_eq, eq_comm]

end Verif.Submit
