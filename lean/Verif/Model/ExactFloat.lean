import Mathlib.Data.Nat.Size
import Mathlib.Data.Rat.Floor
import Mathlib.Analysis.SpecialFunctions.Log.Base

/-!
Exact binary floating-point numbers, math/exactfloat.{h,cc}.

A `BIGNUM` that is not negative is a natural number, and the functions of OpenSSL on it are the ones of the comments below.
`int` is an integer: `Props/ExactFloat.lean` shows that no exponent leaves the range of `int`.  `DCHECK` is not
modelled.
-/

namespace Verif.ExactFloat

/-- `kMaxExp`, exactfloat.h:131. -/
def kMaxExp : ℤ := 200000000
/-- `kMinExp`, exactfloat.h:135. -/
def kMinExp : ℤ := -kMaxExp
/-- `kMaxPrec`, exactfloat.h:140: `64 << 20`. -/
def kMaxPrec : ℕ := 67108864
/-- `kExpNaN`, exactfloat.h:521. -/
def kExpNaN : ℤ := 2147483647
/-- `kExpInfinity`, exactfloat.h:522. -/
def kExpInfinity : ℤ := kExpNaN - 1
/-- `kExpZero`, exactfloat.h:523. -/
def kExpZero : ℤ := kExpNaN - 2
/-- `kDoubleMantissaBits`, exactfloat.h:535. -/
def kDoubleMantissaBits : ℕ := 53

/-- `ExactFloat`, exactfloat.h:529-531. -/
@[ext]
structure EF where
  sign : ℤ
  exp : ℤ
  bn : ℕ
  deriving DecidableEq

namespace EF

/-! ## Functions of OpenSSL -/

end EF

/-- `BN_num_bits`. -/
def numBits (n : ℕ) : ℕ := n.size

/-- `BN_count_low_zero_bits`: 0 for zero. -/
def lowZeros (n : ℕ) : ℕ := if n = 0 then 0 else padicValNat 2 n

namespace EF

/-! ## Accessors -/

/-- `is_zero`, exactfloat.h:593. -/
def isZero (a : EF) : Bool := a.exp = kExpZero
/-- `is_inf`, exactfloat.h:594. -/
def isInf (a : EF) : Bool := a.exp = kExpInfinity
/-- `is_nan`, exactfloat.h:595. -/
def isNan (a : EF) : Bool := a.exp = kExpNaN
/-- `is_normal`, exactfloat.h:596. -/
def isNormal (a : EF) : Bool := a.exp < kExpZero
/-- `is_finite`, exactfloat.h:597. -/
def isFinite (a : EF) : Bool := a.exp ≤ kExpZero
/-- `sign_bit`, exactfloat.h:598. -/
def signBit (a : EF) : Bool := a.sign < 0
/-- `sgn`, exactfloat.h:600-602. -/
def sgn (a : EF) : ℤ := if a.isNan || a.isZero then 0 else a.sign
/-- `prec`, exactfloat.cc:139. -/
def prec (a : EF) : ℕ := numBits a.bn
/-- `exp`, exactfloat.cc:141-144. -/
def fullExp (a : EF) : ℤ := a.exp + numBits a.bn

/-- `SignedZero`, exactfloat.cc:121-125, and `set_zero`, exactfloat.cc:146-150. -/
def zero (sign : ℤ) : EF := ⟨sign, kExpZero, 0⟩
/-- `Infinity`, exactfloat.cc:127-131, and `set_inf`, exactfloat.cc:152-156. -/
def inf (sign : ℤ) : EF := ⟨sign, kExpInfinity, 0⟩
/-- `NaN`, exactfloat.cc:133-137, and `set_nan`, exactfloat.cc:158-162. -/
def nan : EF := ⟨1, kExpNaN, 0⟩

/-- `Canonicalize`, exactfloat.cc:504-528. -/
def canonicalize (a : EF) : EF :=
  if a.isNormal = false then a
  else
    let r :=
      if a.fullExp < kMinExp ∨ a.bn = 0 then zero a.sign
      else if a.fullExp > kMaxExp then inf a.sign
      else if a.bn % 2 = 1 then a
      else ⟨a.sign, a.exp + lowZeros a.bn, a.bn / 2 ^ lowZeros a.bn⟩
    if r.prec > kMaxPrec then nan else r

/-! ## Constructors -/

end EF

/-- A finite `double`: its sign bit, and its absolute value as a natural number less than `2 ^ 53` times a power of two.
`std::frexp` and `std::ldexp` at exactfloat.cc:99-100 give the mantissa scaled to 53 bits; only the value matters. -/
structure FinDouble where
  neg : Bool
  m : ℕ
  e : ℤ

namespace EF

/-- The constructor from a finite `double`, exactfloat.cc:85-105: the fraction of `std::frexp` times `2 ^ 53` and the
exponent less 53.  For zero, `std::frexp` gives 0 and 0. -/
def ofDouble (v : FinDouble) : EF :=
  let sign := if v.neg then -1 else 1
  if v.m = 0 then canonicalize ⟨sign, -53, 0⟩
  else canonicalize ⟨sign, v.e + numBits v.m - 53, v.m * 2 ^ (53 - numBits v.m)⟩

/-- The constructor from an `int`, exactfloat.cc:107-114.  `std::abs(INT_MIN)` is undefined; on the usual machines it is
`INT_MIN`, which the conversion to the unsigned 64-bit word of `BN_set_word` extends by its sign. -/
def ofInt (v : ℤ) : EF :=
  canonicalize ⟨if v ≥ 0 then 1 else -1, 0, if v = -2147483648 then 2 ^ 64 - 2147483648 else v.natAbs⟩

/-- `CopyWithSign`, exactfloat.h:622-626. -/
def withSign (a : EF) (sign : ℤ) : EF := ⟨sign, a.exp, a.bn⟩

/-! ## Arithmetic -/

/-- `operator-`, exactfloat.cc:436. -/
def neg (a : EF) : EF := a.withSign (-a.sign)

/-- The part of `SignedSum` for numbers that are zero, infinite or not numbers, exactfloat.cc:448-467. -/
def specialSum (aSign : ℤ) (a : EF) (bSign : ℤ) (b : EF) : EF :=
  if a.isNan then a
  else if b.isNan then b
  else if a.isInf then
    if b.isInf && aSign ≠ bSign then nan else inf aSign
  else if b.isInf then inf bSign
  else if a.isZero then
    if b.isZero = false then b.withSign bSign
    else if aSign = bSign then zero aSign
    else zero 1
  else a.withSign aSign

/-- `SignedSum` of normal numbers once the first one has the larger exponent, exactfloat.cc:474-501. -/
def normalSum (aSign : ℤ) (a : EF) (bSign : ℤ) (b : EF) : EF :=
  let an := if a.exp > b.exp then a.bn * 2 ^ (a.exp - b.exp).toNat else a.bn
  if aSign = bSign then canonicalize ⟨aSign, b.exp, an + b.bn⟩
  else
    let d : ℤ := an - b.bn
    if d = 0 then canonicalize ⟨1, b.exp, 0⟩
    else if d < 0 then canonicalize ⟨bSign, b.exp, d.natAbs⟩
    else canonicalize ⟨aSign, b.exp, d.natAbs⟩

/-- `SignedSum`, exactfloat.cc:446-502. -/
def signedSum (aSign : ℤ) (a : EF) (bSign : ℤ) (b : EF) : EF :=
  if a.isNormal = false || b.isNormal = false then specialSum aSign a bSign b
  else if a.exp < b.exp then normalSum bSign b aSign a
  else normalSum aSign a bSign b

/-- `operator+`, exactfloat.cc:438-440. -/
def add (a b : EF) : EF := signedSum a.sign a b.sign b
/-- `operator-`, exactfloat.cc:442-444. -/
def sub (a b : EF) : EF := signedSum a.sign a (-b.sign) b

/-- `operator*`, exactfloat.cc:530-556. -/
def mul (a b : EF) : EF :=
  if a.isNormal = false || b.isNormal = false then
    if a.isNan then a
    else if b.isNan then b
    else if a.isInf then if b.isZero then nan else inf (a.sign * b.sign)
    else if b.isInf then if a.isZero then nan else inf (a.sign * b.sign)
    else zero (a.sign * b.sign)
  else canonicalize ⟨a.sign * b.sign, a.exp + b.exp, a.bn * b.bn⟩

/-! ## Comparisons -/

/-- `operator==`, exactfloat.cc:558-572. -/
def eq (a b : EF) : Bool :=
  if a.isNan || b.isNan then false
  else if a.exp ≠ b.exp then false
  else if a.isZero && b.isZero then true
  else decide (a.sign = b.sign) && decide (a.bn = b.bn)

/-- The first operand of the comparison of `ScaleAndCompare`, exactfloat.cc:574-579. -/
def scaled (a b : EF) : ℕ := a.bn * 2 ^ (a.exp - b.exp).toNat

/-- `UnsignedLess`, exactfloat.cc:581-592. -/
def unsignedLess (a b : EF) : Bool :=
  if a.isInf || b.isZero then false
  else if a.isZero || b.isInf then true
  else if a.fullExp - b.fullExp ≠ 0 then decide (a.fullExp - b.fullExp < 0)
  else if a.exp ≥ b.exp then decide (a.scaled b < b.bn)
  else decide (b.scaled a > a.bn)

/-- `operator<`, exactfloat.cc:594-603. -/
def lt (a b : EF) : Bool :=
  if a.isNan || b.isNan then false
  else if a.isZero && b.isZero then false
  else if a.sign ≠ b.sign then decide (a.sign < b.sign)
  else if a.sign > 0 then a.unsignedLess b else b.unsignedLess a

/-- `operator<=`, exactfloat.h:608-612. -/
def le (a b : EF) : Bool := if a.isNan || b.isNan then false else !(b.lt a)
/-- `operator>`, exactfloat.h:614-616. -/
def gt (a b : EF) : Bool := b.lt a
/-- `operator>=`, exactfloat.h:618-620. -/
def ge (a b : EF) : Bool := b.le a

/-- `abs` and `fabs`, exactfloat.cc:605-607. -/
def abs (a : EF) : EF := a.withSign 1

/-- `fmax`, exactfloat.cc:609-618. -/
def fmax (a b : EF) : EF :=
  if a.isNan then b
  else if b.isNan then a
  else if a.sign ≠ b.sign then (if a.sign < b.sign then b else a)
  else if a.lt b then b else a

/-- `fmin`, exactfloat.cc:620-629. -/
def fmin (a b : EF) : EF :=
  if a.isNan then b
  else if b.isNan then a
  else if a.sign ≠ b.sign then (if a.sign < b.sign then a else b)
  else if a.lt b then a else b

/-- `fdim`, exactfloat.cc:631-634. -/
def fdim (a b : EF) : EF := if a.le b then ofInt 0 else a.sub b

/-! ## Rounding -/

end EF

/-- `RoundingMode`, exactfloat.h:146-153. -/
inductive Mode where
  | tiesToEven
  | tiesAwayFromZero
  | towardZero
  | awayFromZero
  | towardPositive
  | towardNegative
  deriving DecidableEq

namespace EF

/-- The change of the mode, exactfloat.cc:218-222. -/
def absMode (sign : ℤ) : Mode → Mode
  | .towardPositive => if sign > 0 then .awayFromZero else .towardZero
  | .towardNegative => if sign > 0 then .towardZero else .awayFromZero
  | m => m

/-- `increment`, exactfloat.cc:229-251. -/
def increment (mode : Mode) (bn shift : ℕ) : Bool :=
  match mode with
  | .towardZero => false
  | .tiesAwayFromZero => bn.testBit (shift - 1)
  | .awayFromZero => decide (lowZeros bn < shift)
  | _ => bn.testBit (shift - 1) && (bn.testBit shift || decide (lowZeros bn < shift - 1))

/-- `RoundToPowerOf2`, exactfloat.cc:206-260. -/
def roundToPowerOf2 (a : EF) (bitExp : ℤ) (mode : Mode) : EF :=
  let shift := bitExp - a.exp
  if shift ≤ 0 then a
  else
    let k := shift.toNat
    canonicalize ⟨a.sign, a.exp + shift, a.bn / 2 ^ k + (if increment (absMode a.sign mode) a.bn k then 1 else 0)⟩

/-- `RoundToMaxPrec`, exactfloat.cc:189-204. -/
def roundToMaxPrec (a : EF) (maxPrec : ℕ) (mode : Mode) : EF :=
  let shift : ℤ := a.prec - maxPrec
  if shift ≤ 0 then a else a.roundToPowerOf2 (a.exp + shift) mode

/-- `ceil`, exactfloat.cc:636-638. -/
def ceil (a : EF) : EF := a.roundToPowerOf2 0 .towardPositive
/-- `floor`, exactfloat.cc:640-642. -/
def floor (a : EF) : EF := a.roundToPowerOf2 0 .towardNegative
/-- `trunc`, exactfloat.cc:644-646. -/
def trunc (a : EF) : EF := a.roundToPowerOf2 0 .towardZero
/-- `round`, exactfloat.cc:648-650. -/
def round (a : EF) : EF := a.roundToPowerOf2 0 .tiesAwayFromZero
/-- `rint`, exactfloat.cc:652-654. -/
def rint (a : EF) : EF := a.roundToPowerOf2 0 .tiesToEven

/-- `ToInteger`, exactfloat.cc:657-676, for a type with the given bounds. -/
def toInteger (lo hi : ℤ) (a : EF) (mode : Mode) : ℤ :=
  let r := a.roundToPowerOf2 0 mode
  if r.isNan then hi
  else if r.isZero then 0
  else if r.isInf = false && decide (r.fullExp < 64) then
    let v : ℤ := r.bn * 2 ^ r.exp.toNat
    max lo (min hi (if r.sign < 0 then -v else v))
  else if r.sign < 0 then lo else hi

/-! ## Changing exponents -/

/-- `copysign`, exactfloat.cc:694-696. -/
def copysign (a b : EF) : EF := a.withSign b.sign

/-- `ldexp`, exactfloat.cc:709-723. -/
def ldexp (a : EF) (e : ℤ) : EF :=
  if a.isNormal = false then a
  else canonicalize ⟨a.sign, a.exp + min (kMaxExp + 1 - a.fullExp) (max (kMinExp - 1 + a.fullExp) e), a.bn⟩

/-- `frexp`, exactfloat.cc:698-707: the fraction and the exponent. -/
def frexp (a : EF) : EF × ℤ := if a.isNormal = false then (a, 0) else (a.ldexp (-a.fullExp), a.fullExp)

/-- `scalbln`, exactfloat.cc:725-729. -/
def scalbln (a : EF) (e : ℤ) : EF := a.ldexp (max (-2147483648) (min 2147483647 e))

/-- `ilogb`, exactfloat.cc:731-737; the constants are those of the C library. -/
def ilogb (fpIlogb0 fpIlogbNan : ℤ) (a : EF) : ℤ :=
  if a.isZero then fpIlogb0
  else if a.isInf then 2147483647
  else if a.isNan then fpIlogbNan
  else a.fullExp - 1

/-- `logb`, exactfloat.cc:739-745. -/
def logb (a : EF) : EF :=
  if a.isZero then inf (-1)
  else if a.isInf then inf 1
  else if a.isNan then a
  else ofInt (a.fullExp - 1)

end EF

/-! ## Conversion to `double` -/

/-- A `double`: its sign and its absolute value. -/
inductive Dbl where
  | fin (sign : ℤ) (mag : ℚ)
  | inf (sign : ℤ)
  | nan
  deriving DecidableEq

/-- The quotient of a mantissa by a power of two, rounded to the nearest integer, ties to even. -/
def halfEven (m k : ℕ) : ℕ :=
  m / 2 ^ k + (if 2 ^ k < 2 * (m % 2 ^ k) ∨ (2 * (m % 2 ^ k) = 2 ^ k ∧ m / 2 ^ k % 2 = 1) then 1 else 0)

/-- The absolute value of `std::ldexp` of a positive integer: 53 bits, or fewer if the result is subnormal, rounded in the default mode. -/
def stdLdexp (m : ℕ) (e : ℤ) : ℚ :=
  let q := max (e + numBits m - kDoubleMantissaBits) (-1074)
  if q ≤ e then m * 2 ^ e else halfEven m (q - e).toNat * 2 ^ q

namespace EF

/-- `ToDoubleHelper`, exactfloat.cc:174-187. -/
def toDoubleHelper (a : EF) : Dbl :=
  if a.isNormal = false then
    if a.isZero then .fin a.sign 0
    else if a.isInf then .inf a.sign
    else .nan
  else if stdLdexp a.bn a.exp < 2 ^ 1024 then .fin a.sign (stdLdexp a.bn a.exp) else .inf a.sign

/-- `ToDouble`, exactfloat.cc:164-172. -/
def toDouble (a : EF) : Dbl :=
  if a.prec ≤ kDoubleMantissaBits then a.toDoubleHelper
  else (a.roundToMaxPrec kDoubleMantissaBits .tiesToEven).toDoubleHelper

end EF

end Verif.ExactFloat
