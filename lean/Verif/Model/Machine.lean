import Verif.Model.Scalar
import Mathlib.Data.Int.Log
import Mathlib.Data.Rat.Floor
/-!
# Scalar arithmetic with machine numbers: `ico2/math1.py:14-136` and `dode2/math1.py:15-142`

The same functions as in `Model/Scalar.lean`, with numpy's int64 wrap-around in every product and sum and with the
float64 division by the gcd that the Python code performs.
-/
namespace PyQC
namespace Machine

/-- The int64 that numpy stores for the integer `z`: two's complement wrap-around. -/
def wrap64 (z : Int) : Int := Int.bmod z (2 ^ 64)

/-- An integer that an int64 can hold. -/
def IsInt64 (z : Int) : Prop := -2 ^ 63 ≤ z ∧ z < 2 ^ 63

/-- Round to the nearest integer, ties to even (IEEE 754). -/
def roundHalfEven (q : ℚ) : Int :=
  let f := ⌊q⌋
  if q - f < 1 / 2 then f
  else if 1 / 2 < q - f then f + 1
  else if f % 2 = 0 then f else f + 1

/-- The float64 nearest to `q`: 53 significant bits, ties to even. Simplification: the exponent range is unbounded; the
values below are zero or between `2^-63` and `2^64` in size, where float64 has neither overflow nor subnormal
numbers. -/
def toFloat64 (q : ℚ) : ℚ :=
  if q = 0 then 0
  else
    let e := Int.log 2 |q| - 52
    roundHalfEven (q / 2 ^ e) * 2 ^ e

/-- `int(x)` of a Python float: rounds towards zero. -/
def trunc (q : ℚ) : Int := if 0 ≤ q then ⌊q⌋ else ⌈q⌉

/-- `c/g` on numpy int64 scalars: both are converted to float64, then divided in float64. -/
def trueDiv (c g : Int) : ℚ := toFloat64 (toFloat64 c / toFloat64 g)

/-- `np.gcd.reduce(x)` on an int64 array, ico2/math1.py:32: the gcd of absolute values, stored as int64 each time. -/
def gcd3 (c1 c2 c3 : Int) : Int := wrap64 (Int.gcd (wrap64 (Int.gcd c1 c2)) c3)

/-- Common tail of `add` and `mul`, ico2/math1.py:32-40 and 60-68, dode2/math1.py:33-41 and 61-69; `0/0` is nan and
`int(nan)` raises ValueError. Simplification: a component `2^63` of the result, which numpy would store as uint64, is
kept as is; dode2 truncates before it tests the sign of `c3`, which is the same since a non-zero `c3/g` is at least 1 in
size and truncation is odd. -/
def reduce3 (c1 c2 c3 : Int) : Py Num3 :=
  let g := gcd3 c1 c2 c3
  if g = 0 then .error .valueError
  else
    let q1 := trueDiv c1 g
    let q2 := trueDiv c2 g
    let q3 := trueDiv c3 g
    if q3 < 0 then .ok ⟨trunc (-q1), trunc (-q2), trunc (-q3)⟩
    else .ok ⟨trunc q1, trunc q2, trunc q3⟩

/-- Tail of `div`, ico2/math1.py:121-136 and dode2/math1.py:127-142. -/
def reduceDiv (c1 c2 c3 : Int) : Option Num3 :=
  let g := gcd3 c1 c2 c3
  if g ≠ 0 then
    let q1 := trueDiv c1 g
    let q2 := trueDiv c2 g
    let q3 := trueDiv c3 g
    if q3 < 0 then some ⟨trunc (-q1), trunc (-q2), trunc (-q3)⟩
    else some ⟨trunc q1, trunc q2, trunc q3⟩
  else none

/-- int64 product. -/
def imul (x y : Int) : Int := wrap64 (x * y)
/-- int64 sum. -/
def iadd (x y : Int) : Int := wrap64 (x + y)
/-- int64 difference. -/
def isub (x y : Int) : Int := wrap64 (x - y)
/-- int64 negation. -/
def ineg (x : Int) : Int := wrap64 (-x)

/-- `add`, ico2/math1.py:14-40 and dode2/math1.py:15-41 (same text). -/
def add (x y : Num3) : Py Num3 :=
  reduce3 (iadd (imul x.a y.c) (imul y.a x.c)) (iadd (imul x.b y.c) (imul y.b x.c)) (imul x.c y.c)

namespace Ico

/-- `mul`, ico2/math1.py:42-68. -/
def mul (x y : Num3) : Py Num3 :=
  reduce3 (iadd (imul x.a y.a) (imul x.b y.b))
    (iadd (iadd (imul x.a y.b) (imul x.b y.a)) (imul x.b y.b)) (imul x.c y.c)

/-- `sub`, ico2/math1.py:70-87. -/
def sub (x y : Num3) : Py Num3 :=
  (mul ⟨-1, 0, 1⟩ y).bind (add x)

/-- `div`, ico2/math1.py:89-136. -/
def div (x y : Num3) : Option Num3 :=
  if y.a = 0 ∧ y.b = 0 then none
  else if x.a = 0 ∧ x.b = 0 then some ⟨0, 0, 1⟩
  else if y.b ≠ 0 then
    if y.a ≠ 0 then
      reduceDiv (imul (isub (iadd (imul x.a y.a) (imul x.a y.b)) (imul x.b y.b)) y.c)
        (imul (isub (imul x.b y.a) (imul x.a y.b)) y.c)
        (imul (iadd (isub (imul y.a y.a) (imul y.b y.b)) (imul y.a y.b)) x.c)
    else
      reduceDiv (imul (iadd (ineg x.a) x.b) y.c) (imul x.a y.c) (imul y.b x.c)
  else
    reduceDiv (imul x.a y.c) (imul x.b y.c) (imul y.a x.c)

end Ico

namespace Dode

/-- `mul`, dode2/math1.py:43-69. -/
def mul (x y : Num3) : Py Num3 :=
  reduce3 (iadd (imul (imul 4 x.a) y.a) (imul (imul 3 x.b) y.b))
    (imul 4 (iadd (imul x.a y.b) (imul x.b y.a))) (imul (imul 4 x.c) y.c)

/-- `sub`, dode2/math1.py:71-88. -/
def sub (x y : Num3) : Py Num3 :=
  (mul ⟨-1, 0, 1⟩ y).bind (add x)

/-- `4*b[0]**2-3*b[1]**2`, dode2/math1.py:112-118. -/
def norm4 (y : Num3) : Int := isub (imul 4 (imul y.a y.a)) (imul 3 (imul y.b y.b))

/-- `div`, dode2/math1.py:90-142. -/
def div (x y : Num3) : Option Num3 :=
  if y.a = 0 ∧ y.b = 0 then none
  else if x.a = 0 ∧ x.b = 0 then some ⟨0, 0, 1⟩
  else if y.b ≠ 0 then
    if y.a ≠ 0 then
      if norm4 y ≠ 0 then
        reduceDiv (imul y.c (isub (imul (imul 4 x.a) y.a) (imul (imul 3 x.b) y.b)))
          (imul (imul (-4) y.c) (isub (imul x.a y.b) (imul x.b y.a)))
          (imul x.c (norm4 y))
      else
        reduceDiv (imul (imul 3 x.b) y.c) (imul (imul 4 x.a) y.c) (imul (imul 6 x.c) y.b)
    else
      reduceDiv (imul (imul 3 x.b) y.c) (imul (imul 4 x.a) y.c) (imul (imul 3 x.c) y.b)
  else
    reduceDiv (imul x.a y.c) (imul x.b y.c) (imul y.a x.c)

end Dode
end Machine
end PyQC
