import Verif.Model.Basic
/-!
# Scalar arithmetic: `ico2/math1.py:14-136` and `dode2/math1.py:15-142`
-/
namespace PyQC

/-- `np.gcd.reduce(np.array([c1,c2,c3]))`, ico2/math1.py:31-32: left fold of the non-negative gcd. -/
def gcd3 (c1 c2 c3 : Int) : Int := (Int.gcd (Int.gcd c1 c2 : Int) c3 : Int)

/-- Common tail of `add` and `mul`, ico2/math1.py:32-40 and 60-68, dode2/math1.py:33-41 and 61-69:
divide by the gcd, make the denominator non-negative. When the gcd is 0 the Python code computes
`0/0 = nan` and `int(nan)` raises ValueError. Simplification: the float64 division `c/g` is exact
integer division (see `Model/Machine.lean`). -/
def reduce3 (c1 c2 c3 : Int) : Py Num3 :=
  let g := gcd3 c1 c2 c3
  if g = 0 then .error .valueError
  else if c3 / g < 0 then .ok ⟨-(c1 / g), -(c2 / g), -(c3 / g)⟩
  else .ok ⟨c1 / g, c2 / g, c3 / g⟩

/-- Tail of `div`, ico2/math1.py:121-136 and dode2/math1.py:127-142: as `reduce3` but `g = 0` prints an
error and returns `None`. -/
def reduceDiv (c1 c2 c3 : Int) : Option Num3 :=
  let g := gcd3 c1 c2 c3
  if g ≠ 0 then
    if c3 / g < 0 then some ⟨-(c1 / g), -(c2 / g), -(c3 / g)⟩
    else some ⟨c1 / g, c2 / g, c3 / g⟩
  else none

namespace Ico

/-- `add`, ico2/math1.py:14-40. -/
def add (x y : Num3) : Py Num3 :=
  reduce3 (x.a * y.c + y.a * x.c) (x.b * y.c + y.b * x.c) (x.c * y.c)

/-- `mul`, ico2/math1.py:42-68. -/
def mul (x y : Num3) : Py Num3 :=
  reduce3 (x.a * y.a + x.b * y.b) (x.a * y.b + x.b * y.a + x.b * y.b) (x.c * y.c)

/-- `sub`, ico2/math1.py:70-87: `add(a, mul([-1,0,1], b))`. -/
def sub (x y : Num3) : Py Num3 :=
  match mul ⟨-1, 0, 1⟩ y with
  | .error e => .error e
  | .ok y' => add x y'

/-- `div`, ico2/math1.py:89-136. -/
def div (x y : Num3) : Option Num3 :=
  if y.a = 0 ∧ y.b = 0 then none
  else if x.a = 0 ∧ x.b = 0 then some ⟨0, 0, 1⟩
  else if y.b ≠ 0 then
    if y.a ≠ 0 then
      reduceDiv ((x.a * y.a + x.a * y.b - x.b * y.b) * y.c)
        ((x.b * y.a - x.a * y.b) * y.c)
        ((y.a * y.a - y.b * y.b + y.a * y.b) * x.c)
    else
      reduceDiv ((-x.a + x.b) * y.c) (x.a * y.c) (y.b * x.c)
  else
    reduceDiv (x.a * y.c) (x.b * y.c) (y.a * x.c)

/-- The ico2 scalar functions bundled. -/
def arith : Arith := ⟨add, mul, sub, div⟩

end Ico

namespace Dode

/-- `add`, dode2/math1.py:15-41. -/
def add (x y : Num3) : Py Num3 :=
  reduce3 (x.a * y.c + y.a * x.c) (x.b * y.c + y.b * x.c) (x.c * y.c)

/-- `mul`, dode2/math1.py:43-69. -/
def mul (x y : Num3) : Py Num3 :=
  reduce3 (4 * x.a * y.a + 3 * x.b * y.b) (4 * (x.a * y.b + x.b * y.a)) (4 * x.c * y.c)

/-- `sub`, dode2/math1.py:71-88: `add(a, mul([-1,0,1], b))`. -/
def sub (x y : Num3) : Py Num3 :=
  match mul ⟨-1, 0, 1⟩ y with
  | .error e => .error e
  | .ok y' => add x y'

/-- `div`, dode2/math1.py:90-142, including the branch guarded by `4*b0**2-3*b1**2 == 0`. -/
def div (x y : Num3) : Option Num3 :=
  if y.a = 0 ∧ y.b = 0 then none
  else if x.a = 0 ∧ x.b = 0 then some ⟨0, 0, 1⟩
  else if y.b ≠ 0 then
    if y.a ≠ 0 then
      if 4 * y.a ^ 2 - 3 * y.b ^ 2 ≠ 0 then
        reduceDiv (y.c * (4 * x.a * y.a - 3 * x.b * y.b))
          (-4 * y.c * (x.a * y.b - x.b * y.a))
          (x.c * (4 * y.a ^ 2 - 3 * y.b ^ 2))
      else
        reduceDiv (3 * x.b * y.c) (4 * x.a * y.c) (6 * x.c * y.b)
    else
      reduceDiv (3 * x.b * y.c) (4 * x.a * y.c) (3 * x.c * y.b)
  else
    reduceDiv (x.a * y.c) (x.b * y.c) (y.a * x.c)

/-- The dode2 scalar functions bundled. -/
def arith : Arith := ⟨add, mul, sub, div⟩

end Dode
end PyQC
