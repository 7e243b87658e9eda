import Mathlib.Data.Real.Basic
import Mathlib.Data.Real.Archimedean
import Mathlib.Algebra.Order.Round
import Mathlib.Algebra.Order.Field.Power
import Mathlib.Data.Int.Log

/-!
The exact sign of a cross product, math/polygon2d.cc:41-151, in floating point arithmetic.

A `double` is a number `m * 2 ^ e` with `|m| < 2 ^ 53` and `-1074 ≤ e`: overflow, infinities and NaN are not modelled, underflow is.  An operation rounds
the exact result to a nearest `double`; which one of two equally near ones is left open.
-/

namespace Verif.AccSum

/-- The finite values of a `double`, without an upper bound. -/
def IsFloat (x : ℝ) : Prop := ∃ m e : ℤ, |m| < 2 ^ 53 ∧ -1074 ≤ e ∧ x = m * 2 ^ e

/-- Rounding to a nearest `double`. -/
structure Rounding (rn : ℝ → ℝ) : Prop where
  float : ∀ x, IsFloat (rn x)
  nearest : ∀ x y, IsFloat y → |rn x - x| ≤ |y - x|

/-- What is assumed of `std::ceil(std::log2(d))`, polygon2d.cc:71: the power of two is at least `d` up to the rounding of the logarithm, and not much
larger. -/
def Next (next : ℝ → ℤ) : Prop := ∀ d, 0 < d → d ≤ 3 / 2 * 2 ^ next d ∧ (2 : ℝ) ^ next d ≤ 3 * d

/-- `mu`, polygon2d.cc:75-78. -/
noncomputable def maxAbs (p : List ℝ) : ℝ := p.foldl (fun mu pe => max mu |pe|) |p.headD 0|

/-- The inner loop, polygon2d.cc:90-95: `tau`, `sum_p` and the new values of `p`. -/
noncomputable def pass (rn : ℝ → ℝ) (sigma : ℝ) : List ℝ → ℝ → ℝ → ℝ × ℝ × List ℝ
  | [], tau, sum => (tau, sum, [])
  | p :: ps, tau, sum =>
    let q := rn (rn (sigma + p) - sigma)
    let p' := rn (p - q)
    let r := pass rn sigma ps (rn (tau + q)) (rn (sum + p'))
    (r.1, r.2.1, p' :: r.2.2)

/-- `kAccSum`, polygon2d.cc:68. -/
noncomputable def kAccSum : ℝ := 2 ^ (-53 : ℤ)
/-- `ms`, polygon2d.cc:80. -/
noncomputable def ms : ℝ := 32
/-- `phi`, polygon2d.cc:81. -/
noncomputable def phi : ℝ := kAccSum * ms
/-- `factor`, polygon2d.cc:82. -/
noncomputable def factor : ℝ := kAccSum * ms * ms
/-- `std::numeric_limits<double>::min()`, polygon2d.cc:98. -/
noncomputable def minDouble : ℝ := 2 ^ (-1022 : ℤ)

/-- The outer loop of `AccSum`, polygon2d.cc:86-107, with the beginning of the recursive call, polygon2d.cc:74-85; `none` if the number of iterations
exceeds the first argument. -/
noncomputable def loop (rn : ℝ → ℝ) (next : ℝ → ℤ) : ℕ → ℝ → ℝ → List ℝ → Option ℝ
  | 0, _, _, _ => none
  | n + 1, t, sigma, p =>
    let r := pass rn sigma p 0 0
    let tau1 := rn (t + r.1)
    if rn (factor * sigma) ≤ |tau1| ∨ sigma ≤ minDouble then
      let tau2 := rn (r.1 - rn (tau1 - t))
      some (rn (tau1 + rn (tau2 + r.2.1)))
    else if tau1 = 0 then
      if maxAbs r.2.2 = 0 then some 0 else loop rn next n 0 (rn (ms * 2 ^ next (maxAbs r.2.2))) r.2.2
    else loop rn next n tau1 (rn (phi * sigma)) r.2.2

/-- `AccSum`, polygon2d.cc:67-108. -/
noncomputable def accSum (rn : ℝ → ℝ) (next : ℝ → ℤ) (fuel : ℕ) (p : List ℝ) : Option ℝ :=
  if maxAbs p = 0 then some 0 else loop rn next fuel 0 (rn (ms * 2 ^ next (maxAbs p))) p

/-- `Vec2d`. -/
abbrev Pt := ℝ × ℝ

/-- `Cross` of four points, polygon2d.cc:48-51, with `Vec2d::CrossProd` and `operator-`. -/
def cross (rn : ℝ → ℝ) (v0 v1 v2 v3 : Pt) : ℝ :=
  rn (rn (rn (v1.1 - v0.1) * rn (v3.2 - v2.2)) - rn (rn (v1.2 - v0.2) * rn (v3.1 - v2.1)))

/-- `kCrossExactEpsilon`, polygon2d.cc:58. -/
noncomputable def kCrossExactEpsilon : ℝ := 2 ^ (-50 : ℤ)

/-- The products of polygon2d.cc:130-137: the signed factors. -/
def factors (v0 v1 v2 v3 : Pt) : List (ℝ × ℝ) :=
  [(v1.1, v3.2), (-v0.1, v3.2), (-v1.1, v2.2), (v0.1, v2.2), (-v1.2, v3.1), (v0.2, v3.1), (v1.2, v2.1), (-v0.2, v2.1)]

/-- `term`, polygon2d.cc:127-147: the products and what their rounding loses. -/
def terms (rn : ℝ → ℝ) (v0 v1 v2 v3 : Pt) : List ℝ :=
  (factors v0 v1 v2 v3).map (fun f => rn (f.1 * f.2)) ++ (factors v0 v1 v2 v3).map (fun f => rn (f.1 * f.2 - rn (f.1 * f.2)))

/-- `CrossMaybeExact`, polygon2d.cc:114-151. -/
noncomputable def crossMaybeExact (rn : ℝ → ℝ) (next : ℝ → ℤ) (fuel : ℕ) (v0 v1 v2 v3 : Pt) : Option ℝ :=
  open scoped Classical in
  if v0 = v1 ∨ v2 = v3 then some 0
  else
    let c := cross rn v0 v1 v2 v3
    if kCrossExactEpsilon < |c| then some c else accSum rn next fuel (terms rn v0 v1 v2 v3)

end Verif.AccSum
