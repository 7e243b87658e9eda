import Verif.Lemmas.PolyTurned2

/-! The orders of the sides of two rectangles, the second read from corner 3 (for C222). -/

namespace Verif.Polygon

theorem turned3_0 : ∀ y ∈ orders, CorrectTurned 3 orders[0] y := by decide +kernel
theorem turned3_1 : ∀ y ∈ orders, CorrectTurned 3 orders[1] y := by decide +kernel
theorem turned3_2 : ∀ y ∈ orders, CorrectTurned 3 orders[2] y := by decide +kernel
theorem turned3_3 : ∀ y ∈ orders, CorrectTurned 3 orders[3] y := by decide +kernel
theorem turned3_4 : ∀ y ∈ orders, CorrectTurned 3 orders[4] y := by decide +kernel
theorem turned3_5 : ∀ y ∈ orders, CorrectTurned 3 orders[5] y := by decide +kernel
theorem turned3_6 : ∀ y ∈ orders, CorrectTurned 3 orders[6] y := by decide +kernel
theorem turned3_7 : ∀ y ∈ orders, CorrectTurned 3 orders[7] y := by decide +kernel
theorem turned3_8 : ∀ y ∈ orders, CorrectTurned 3 orders[8] y := by decide +kernel
theorem turned3_9 : ∀ y ∈ orders, CorrectTurned 3 orders[9] y := by decide +kernel
theorem turned3_10 : ∀ y ∈ orders, CorrectTurned 3 orders[10] y := by decide +kernel
theorem turned3_11 : ∀ y ∈ orders, CorrectTurned 3 orders[11] y := by decide +kernel
theorem turned3_12 : ∀ y ∈ orders, CorrectTurned 3 orders[12] y := by decide +kernel

end Verif.Polygon
