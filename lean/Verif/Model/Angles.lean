import Mathlib.Analysis.SpecialFunctions.Trigonometric.Basic
import Mathlib.Algebra.Order.Floor.Ring

/-!
Model of the modular arithmetic and angle helpers: math/math_util.h:41-87, metrics/metrics_utils.cc:39-61 and
101-116, wdl_limited/sim_agents_metrics/trajectory_features.py:170-172.  Floating point numbers are real numbers and
`M_PI` is π.
-/

namespace Verif.Angles

/-- A signed or unsigned integer type is an interval `[lo, hi]`; `none` is an overflow. -/
def inType (lo hi v : ℤ) : Option ℤ := if lo ≤ v ∧ v ≤ hi then some v else none

/-- `PositiveModulo` for integral types, math/math_util.h:46-53.  Every intermediate value has to fit into
the type; `%` truncates (`Int.tmod`). -/
def positiveModuloInt (lo hi x y : ℤ) : Option ℤ :=
  if 0 ≤ x then do
    let y2 ← inType lo hi (y + y)
    if x < y2 then
      if x < y then some x else inType lo hi (x - y)
    else some (x.tmod y)
  else do
    let my ← inType lo hi (-y)
    if my ≤ x then inType lo hi (x + y)
    else do
      let a ← inType lo hi (x + 1)
      let b ← inType lo hi (-a)
      let c ← inType lo hi (y - b.tmod y)
      inType lo hi (c - 1)

/-- `std::trunc`. -/
noncomputable def trunc (x : ℝ) : ℤ := if 0 ≤ x then ⌊x⌋ else ⌈x⌉

/-- `PositiveModulo` for floating point types, math/math_util.h:55-65 and metrics_utils.cc:39-49. -/
noncomputable def positiveModulo (x y : ℝ) : ℝ :=
  let xDivY := x * (1 / y)
  let truncated : ℝ := trunc xDivY
  let modulo := x - truncated * y
  let shifted := y + modulo
  if 0 ≤ modulo then modulo else if y ≤ shifted then 0 else shifted

/-- `WrapToRange`, math/math_util.h:68-71, metrics_utils.cc:52-55. -/
noncomputable def wrapToRange (lo hi v : ℝ) : ℝ := positiveModulo (v - lo) (hi - lo) + lo

/-- `NormalizeAngle`, math/math_util.h:74-77, metrics_utils.cc:58-61. -/
noncomputable def normalizeAngle (a : ℝ) : ℝ := wrapToRange (-Real.pi) Real.pi a

/-- `BoundToRange`, math/math_util.h:82-87 (with `Min` and `Max`, 31-39). -/
noncomputable def boundToRange (lo hi v : ℝ) : ℝ :=
  let m := if hi < v then hi else v
  if lo < m then m else lo

/-- Floored modulo, the `%` of `tf.Tensor`. -/
noncomputable def floorMod (x y : ℝ) : ℝ := x - y * ⌊x / y⌋

/-- `_wrap_angle`, trajectory_features.py:170-172. -/
noncomputable def wrapAngle (a : ℝ) : ℝ := floorMod (a + Real.pi) (2 * Real.pi) - Real.pi

/-- `ComputeHeadingAccuracy`, metrics_utils.cc:101-116, as a function of the two headings. -/
noncomputable def headingAccuracy (pd gt : ℝ) : ℝ :=
  let d := |normalizeAngle pd - normalizeAngle gt|
  let d := if Real.pi < d then 2 * Real.pi - d else d
  min 1 (max 0 (1 - d / Real.pi))

end Verif.Angles
