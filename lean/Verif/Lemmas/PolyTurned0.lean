import Verif.Props.PolygonAligned

/-! The orders of the sides of two rectangles, the second read from corner 0 (for C222). -/

namespace Verif.Polygon

open Real MeasureTheory Set

/-- A rectangle read from another corner. -/
def turnedPoly {K : Type*} (q : ℕ) (i j k l : K) : Poly K := ⟨(sides i j k l).rotate q, 4, (i, k), (j, l)⟩

/-- The one kind of position that is missed. -/
def missed {K : Type*} [LinearOrder K] (q : ℕ) (i j l i' j' l' : K) : Prop := 2 ≤ q ∧ l = l' ∧ i' < i ∧ j ≤ j'

instance {K : Type*} [LinearOrder K] (q : ℕ) (i j l i' j' l' : K) : Decidable (missed q i j l i' j' l') := by
  unfold missed; infer_instance

/-- The result for one pair of orders, when the second rectangle is read from the corner `q`. -/
def CorrectTurned (q : ℕ) (x y : ℚ × ℚ × ℚ × ℚ) : Prop :=
  let E := core (rectPoly x.1 x.2.1 y.1 y.2.1) (turnedPoly q x.2.2.1 x.2.2.2 y.2.2.1 y.2.2.2)
  if missed q x.1 x.2.1 y.2.1 x.2.2.1 x.2.2.2 y.2.2.2 then E.length < 3
  else if max x.1 x.2.2.1 < min x.2.1 x.2.2.2 ∧ max y.1 y.2.2.1 < min y.2.1 y.2.2.2 then
    ∃ k ∈ List.range 4, E = (sides (max x.1 x.2.2.1) (min x.2.1 x.2.2.2) (max y.1 y.2.2.1) (min y.2.1 y.2.2.2)).rotate k
  else E.length < 3

instance (q : ℕ) (x y : ℚ × ℚ × ℚ × ℚ) : Decidable (CorrectTurned q x y) := by unfold CorrectTurned; infer_instance

/-! The cases are decided one order of the first axis at a time, and the turns in modules that are built one after the other, to keep the memory of each
build small. -/

theorem turned0_0 : ∀ y ∈ orders, CorrectTurned 0 orders[0] y := by decide +kernel
theorem turned0_1 : ∀ y ∈ orders, CorrectTurned 0 orders[1] y := by decide +kernel
theorem turned0_2 : ∀ y ∈ orders, CorrectTurned 0 orders[2] y := by decide +kernel
theorem turned0_3 : ∀ y ∈ orders, CorrectTurned 0 orders[3] y := by decide +kernel
theorem turned0_4 : ∀ y ∈ orders, CorrectTurned 0 orders[4] y := by decide +kernel
theorem turned0_5 : ∀ y ∈ orders, CorrectTurned 0 orders[5] y := by decide +kernel
theorem turned0_6 : ∀ y ∈ orders, CorrectTurned 0 orders[6] y := by decide +kernel
theorem turned0_7 : ∀ y ∈ orders, CorrectTurned 0 orders[7] y := by decide +kernel
theorem turned0_8 : ∀ y ∈ orders, CorrectTurned 0 orders[8] y := by decide +kernel
theorem turned0_9 : ∀ y ∈ orders, CorrectTurned 0 orders[9] y := by decide +kernel
theorem turned0_10 : ∀ y ∈ orders, CorrectTurned 0 orders[10] y := by decide +kernel
theorem turned0_11 : ∀ y ∈ orders, CorrectTurned 0 orders[11] y := by decide +kernel
theorem turned0_12 : ∀ y ∈ orders, CorrectTurned 0 orders[12] y := by decide +kernel

end Verif.Polygon
