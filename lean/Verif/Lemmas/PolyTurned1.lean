import Verif.Lemmas.PolyTurned0

/-! The orders of the sides of two rectangles, the second read from corner 1 (for C222). -/

namespace Verif.Polygon

theorem turned1_0 : ∀ y ∈ orders, CorrectTurned 1 orders[0] y := by decide +kernel
theorem turned1_1 : ∀ y ∈ orders, CorrectTurned 1 orders[1] y := by decide +kernel
theorem turned1_2 : ∀ y ∈ orders, CorrectTurned 1 orders[2] y := by decide +kernel
theorem turned1_3 : ∀ y ∈ orders, CorrectTurned 1 orders[3] y := by decide +kernel
theorem turned1_4 : ∀ y ∈ orders, CorrectTurned 1 orders[4] y := by decide +kernel
theorem turned1_5 : ∀ y ∈ orders, CorrectTurned 1 orders[5] y := by decide +kernel
theorem turned1_6 : ∀ y ∈ orders, CorrectTurned 1 orders[6] y := by decide +kernel
theorem turned1_7 : ∀ y ∈ orders, CorrectTurned 1 orders[7] y := by decide +kernel
theorem turned1_8 : ∀ y ∈ orders, CorrectTurned 1 orders[8] y := by decide +kernel
theorem turned1_9 : ∀ y ∈ orders, CorrectTurned 1 orders[9] y := by decide +kernel
theorem turned1_10 : ∀ y ∈ orders, CorrectTurned 1 orders[10] y := by decide +kernel
theorem turned1_11 : ∀ y ∈ orders, CorrectTurned 1 orders[11] y := by decide +kernel
theorem turned1_12 : ∀ y ∈ orders, CorrectTurned 1 orders[12] y := by decide +kernel

end Verif.Polygon
