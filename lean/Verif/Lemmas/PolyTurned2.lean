import Verif.Lemmas.PolyTurned1

/-! The orders of the sides of two rectangles, the second read from corner 2 (for C222). -/

namespace Verif.Polygon

theorem turned2_0 : ∀ y ∈ orders, CorrectTurned 2 orders[0] y := by decide +kernel
theorem turned2_1 : ∀ y ∈ orders, CorrectTurned 2 orders[1] y := by decide +kernel
theorem turned2_2 : ∀ y ∈ orders, CorrectTurned 2 orders[2] y := by decide +kernel
theorem turned2_3 : ∀ y ∈ orders, CorrectTurned 2 orders[3] y := by decide +kernel
theorem turned2_4 : ∀ y ∈ orders, CorrectTurned 2 orders[4] y := by decide +kernel
theorem turned2_5 : ∀ y ∈ orders, CorrectTurned 2 orders[5] y := by decide +kernel
theorem turned2_6 : ∀ y ∈ orders, CorrectTurned 2 orders[6] y := by decide +kernel
theorem turned2_7 : ∀ y ∈ orders, CorrectTurned 2 orders[7] y := by decide +kernel
theorem turned2_8 : ∀ y ∈ orders, CorrectTurned 2 orders[8] y := by decide +kernel
theorem turned2_9 : ∀ y ∈ orders, CorrectTurned 2 orders[9] y := by decide +kernel
theorem turned2_10 : ∀ y ∈ orders, CorrectTurned 2 orders[10] y := by decide +kernel
theorem turned2_11 : ∀ y ∈ orders, CorrectTurned 2 orders[11] y := by decide +kernel
theorem turned2_12 : ∀ y ∈ orders, CorrectTurned 2 orders[12] y := by decide +kernel

end Verif.Polygon
