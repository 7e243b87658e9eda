import Mathlib.Algebra.Order.Floor.Ring
import Mathlib.Data.Rat.Floor
import Mathlib.Data.Int.Log

/-!
Shared vocabulary of the models: exceptions as values, and the two numeric conversions the
Python code relies on (round half to even, narrowing to a 32 bit float).
-/

namespace Verif

/-- The ways a modelled function can fail.  Python exceptions and C++ `CHECK`s are values. -/
inductive Exc where
  | valueError
  | indexError
  | keyError
  | assertionError
  | checkFailed
  deriving DecidableEq, Repr

/-- `np.round` / `np.rint`: nearest integer, ties to even.
Used e.g. in utils/compression/delta_encoder.py:65. Exact rationals stand for floats. -/
def roundHalfEven (x : ℚ) : ℤ :=
  let f := ⌊x⌋
  let d := x - f
  if d < 1 / 2 then f
  else if 1 / 2 < d then f + 1
  else if f % 2 = 0 then f else f + 1

/-- `std::round` / `std::lround`: nearest integer, ties away from zero.
Used e.g. in metrics/matcher.h:224. -/
def roundHalfAway (x : ℚ) : ℤ :=
  if 0 ≤ x then ⌊x + 1 / 2⌋ else -⌊-x + 1 / 2⌋

/-- Conversion of a number to IEEE binary32 (24 bit significand, ties to even).
Simplification: overflow to infinity and subnormal underflow are not modelled. -/
def toF32 (q : ℚ) : ℚ :=
  if q = 0 then 0
  else
    let ulp : ℚ := (2 : ℚ) ^ (Int.log 2 |q| - 23)
    roundHalfEven (q / ulp) * ulp

end Verif
