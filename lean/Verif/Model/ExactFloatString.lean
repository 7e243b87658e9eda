import Verif.Model.ExactFloat
import Mathlib.Data.Nat.Digits.Defs
import Mathlib.Data.Nat.Log

/-!
Decimal strings of exact numbers: math/exactfloat.cc:262-425.  Lists of digits hold the least significant digit first, as
`Nat.digits`, except where said otherwise; strings are lists of characters.  `ceil(prec * (M_LN2 / M_LN10))` is computed exactly.
-/

namespace Verif.ExactFloat

/-- `NumSignificantDigitsForPrec`, exactfloat.cc:262-275: one plus `prec * log10(2)` rounded up. -/
def numSignificantDigits (prec : ℕ) : ℕ := 1 + Nat.clog 10 (2 ^ prec)

/-- `kMinSignificantDigits`, exactfloat.cc:282. -/
def kMinSignificantDigits : ℕ := 10

/-- `IncrementDecimalDigits`, exactfloat.cc:344-355. -/
def incDigits : List ℕ → List ℕ
  | [] => [1]
  | d :: ds => if d < 9 then (d + 1) :: ds else 0 :: incDigits ds

/-- The removal of trailing zeros, exactfloat.cc:406-413. -/
def strip (ds : List ℕ) : List ℕ := ds.dropWhile (fun d => d == 0)

/-- The digits kept, and the number of those removed, exactfloat.cc:384-403. -/
def roundDigits (maxDigits : ℕ) (all : List ℕ) : List ℕ × ℕ :=
  if all.length ≤ maxDigits then (all, 0)
  else
    let t := all.length - maxDigits
    let kept := all.drop t
    if 5 ≤ all.getD (t - 1) 0 ∧ (all.getD t 0 % 2 = 1 ∨ (all.take (t - 1)).any (fun d => d != 0) = true) then (incDigits kept, t) else (kept, t)

namespace EF

/-- The number as an integer and a power of ten, exactfloat.cc:359-379. -/
def decimal (a : EF) : ℕ × ℤ :=
  if a.exp ≥ 0 then (a.bn * 2 ^ a.exp.toNat, 0) else (5 ^ (-a.exp).toNat * a.bn, a.exp)

/-- `GetDecimalDigits`, exactfloat.cc:357-419: the digits, most significant first, and the exponent. -/
def decimalDigits (a : EF) (maxDigits : ℕ) : List ℕ × ℤ :=
  let r := roundDigits maxDigits (Nat.digits 10 a.decimal.1)
  let s := strip r.1
  (s.reverse, a.decimal.2 + r.2 + (r.1.length - s.length : ℕ) + s.length)

end EF

/-- The character of a digit. -/
def digitChar (d : ℕ) : Char := Char.ofNat (48 + d)

/-- `%d` for a natural number. -/
def natChars (n : ℕ) : List Char := if n = 0 then ['0'] else (Nat.digits 10 n).reverse.map digitChar

/-- `e%+02d`, exactfloat.cc:316-318: the width includes the sign. -/
def expChars (e : ℤ) : List Char := 'e' :: (if e < 0 then '-' else '+') :: natChars e.natAbs

/-- The format of the digits, exactfloat.cc:300-341. -/
def format (neg : Bool) (digits : List Char) (exp10 : ℤ) (maxDigits : ℕ) : List Char :=
  (if neg then ['-'] else []) ++
  (if exp10 ≤ -4 ∨ exp10 > maxDigits then
    digits.take 1 ++ (if digits.length > 1 then '.' :: digits.drop 1 else []) ++ expChars (exp10 - 1)
  else if exp10 > 0 then
    if exp10 ≥ digits.length then digits ++ List.replicate (exp10 - digits.length).toNat '0'
    else digits.take exp10.toNat ++ '.' :: digits.drop exp10.toNat
  else '0' :: '.' :: List.replicate (-exp10).toNat '0' ++ digits)

namespace EF

/-- `ToStringWithMaxDigits`, exactfloat.cc:290-342. -/
def toStringWithMaxDigits (a : EF) (maxDigits : ℕ) : List Char :=
  if a.isNormal = false then
    if a.isNan then ['n', 'a', 'n']
    else if a.isZero then (if a.sign < 0 then ['-', '0'] else ['0'])
    else if a.sign < 0 then ['-', 'i', 'n', 'f'] else ['i', 'n', 'f']
  else
    let d := a.decimalDigits maxDigits
    format (decide (a.sign < 0)) (d.1.map digitChar) d.2 maxDigits

/-- `ToString`, exactfloat.cc:284-288. -/
def toString (a : EF) : List Char := a.toStringWithMaxDigits (max kMinSignificantDigits (numSignificantDigits a.prec))

/-- `ToUniqueString`, exactfloat.cc:421-425. -/
def toUniqueString (a : EF) : List Char := a.toString ++ '<' :: natChars a.prec ++ ['>']

end EF

end Verif.ExactFloat
