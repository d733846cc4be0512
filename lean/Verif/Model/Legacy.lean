import Verif.Model.Intersect
/-!
# The Cython packages: generation of structures, reciprocal space, scalar arithmetic

Cited files are relative to `/repo/src_cython/`. `double` is modelled by real numbers. These sources are in the repository but
`setup.py` does not compile them any more (setup.py:44-104 is commented out).
-/
namespace PyQC.Legacy
open Matrix

/-! ## Numerical projections of the dodecagonal package -/

/-- `(vec6d[i][0]+SIN*vec6d[i][1])/vec6d[i][2]` for the six components, dode/numericalc12.pyx:111-116 (and 74-79, 191-196). -/
noncomputable def numbers (v : Vec 6) : Fin 6 → ℝ := fun i => (((v i).a : ℝ) + sin60 * (v i).b) / (v i).c

/-- `projection_1_numerical`, dode/numericalc12.pyx:123-139: parallel components first. -/
noncomputable def projection1 (h : Fin 6 → ℝ) : Fin 6 → ℝ :=
  ![sin60 * h 0 + h 1 - 0.5 * h 3, -0.5 * h 0 + h 2 + sin60 * h 3, h 4,
    -sin60 * h 0 + h 1 - 0.5 * h 3, -0.5 * h 0 + h 2 - sin60 * h 3, h 5]

/-- `projection_2_numerical`, dode/numericalc12.pyx:143-159: with the entries `u11, u12, u21, u22` of a phason matrix. -/
noncomputable def projection2 (h : Fin 6 → ℝ) (u11 u12 u21 u22 : ℝ) : Fin 6 → ℝ :=
  ![sin60 * h 0 + h 1 - 0.5 * h 3, -0.5 * h 0 + h 2 + sin60 * h 3, h 4,
    (-sin60 + u11 * sin60 - 0.5 * u21) * h 0 + (1 + u11) * h 1 + u21 * h 2 + (-0.5 - 0.5 * u11 + sin60 * u21) * h 3,
    (-0.5 + sin60 * u12 - 0.5 * u22) * h 0 + u12 * h 1 + (1 + u22) * h 2 + (-sin60 - 0.5 * u12 + sin60 * u22) * h 3,
    h 5]

/-- `projection3_numerical`, dode/numericalc12.pyx:205-221. -/
noncomputable def projection3 (h : Fin 6 → ℝ) : Fin 3 → ℝ :=
  ![-sin60 * h 0 + h 1 - 0.5 * h 3, -0.5 * h 0 + h 2 - sin60 * h 3, h 5]

/-- The argument `pmatrx` of `strc`, dode/strc12.pyx:36-41: `[[0.0]]` (no strain) or a 2×2 matrix. -/
inductive Phason where
  | absent
  | strain (u : Fin 2 → Fin 2 → ℝ)

/-- The projection used by `strc`, dode/strc12.pyx:36-41, 56-60 and 71-74: `projection_1_numerical` without strain, else
`projection_2_numerical` with the four entries (also through `projection_numerical` and `projection_numerical_phason_1`). -/
noncomputable def project : Phason → (Fin 6 → ℝ) → Fin 6 → ℝ
  | .absent, h => projection1 h
  | .strain u, h => projection2 h (u 0 0) (u 0 1) (u 1 0) (u 1 1)

/-! ## The window -/

/-- `triangle_area`, dode/numericalc12.pyx:415-425. -/
noncomputable def triangleArea (t : Fin 3 → Fin 3 → ℝ) : ℝ := norm3 ((t 2 - t 0) ⨯₃ (t 1 - t 0)) / 2

open Classical in
/-- `inside_outside_triangle_numerical`, dode/numericalc12.pyx:302-345: `true` for the answer 0 (inside). The tolerance EPS is
absolute, line 342. -/
noncomputable def insideTriangle (pt : Fin 3 → ℝ) (t : Fin 3 → Fin 3 → ℝ) : Bool :=
  let area0 := triangleArea ![t 0, t 1, t 2]
  let area1 := triangleArea ![pt, t 1, t 2]
  let area2 := triangleArea ![pt, t 0, t 2]
  let area3 := triangleArea ![pt, t 0, t 1]
  if |area0 - area1 - area2 - area3| < EPS then true else false

/-- `inout_occupation_domain_numerical`, dode/numericalc12.pyx:242-267: `true` for the answer 0 (inside); stops at the first
triangle that contains the point. -/
noncomputable def insideDomain (obj : Obj 3) (pt : Fin 3 → ℝ) : Bool :=
  obj.any fun t => insideTriangle pt fun i => projection3 (numbers (t i))

/-! ## Structures -/

/-- The entries with the same number of `objlst`, `poslst` and `eshift`, dode/strc12.pyx:51-54. Simplification: the three lists
have the same length (the code reads them with `boundscheck(False)`). -/
structure Domain where
  obj : Obj 3
  pos : Vec 6
  eshift : Vec 6

/-- One row of the answer of `strc`, dode/strc12.pyx:65 and 83. -/
structure Atom where
  place : Fin 3 → ℝ
  domain : Nat
  index : Fin 4 → Int

/-- `range(-nmax,nmax+1)`, dode/strc12.pyx:43-50. -/
def indices (nmax : Int) : List Int := (List.range (2 * nmax + 1).toNat).map fun (k : Nat) => (k : Int) - nmax

/-- Body of the loops of `strc`, dode/strc12.pyx:51-85, for the domain `d` with number `i`. -/
noncomputable def site (ph : Phason) (shift : Fin 6 → ℝ) (d : Domain) (i : Nat) (h : Fin 4 → Int) : List Atom :=
  let shft := project ph shift
  let w := project ph (numbers d.pos)
  let shfte := project ph (numbers d.eshift)
  let v := project ph ![(h 0 : ℝ), (h 1 : ℝ), (h 2 : ℝ), (h 3 : ℝ), 0, 0]
  if insideDomain d.obj (![v 3, v 4, v 5] - ![shft 3, shft 4, shft 5]) then
    [⟨![v 0 - w 0 - shfte 0, v 1 - w 1 - shfte 1, v 2 - w 2 - shfte 2], i, h⟩]
  else []

/-- `strc`, dode/strc12.pyx:20-94. -/
noncomputable def strc (doms : List Domain) (ph : Phason) (nmax : Int) (shift : Fin 6 → ℝ) : List Atom :=
  (indices nmax).flatMap fun h1 => (indices nmax).flatMap fun h2 => (indices nmax).flatMap fun h3 =>
    (indices nmax).flatMap fun h4 => doms.zipIdx.flatMap fun d => site ph shift d.1 d.2 ![h1, h2, h3, h4]

/-- All denominators are non-zero. -/
def Domain.Ok (d : Domain) : Prop :=
  (∀ t ∈ d.obj, ∀ i k, (t i k).c ≠ 0) ∧ (∀ k, (d.pos k).c ≠ 0) ∧ ∀ k, (d.eshift k).c ≠ 0

open Classical in
/-- `strc` where the model over the real numbers applies. A zero denominator makes the quotients of NumPy scalars in
dode/numericalc12.pyx:74-79, 111-116 and 191-196 infinite or NaN, with a warning: `none`, nothing is said about this case. -/
noncomputable def strcApi (doms : List Domain) (ph : Phason) (nmax : Int) (shift : Fin 6 → ℝ) : Option (List Atom) :=
  if 0 ≤ nmax ∧ ¬∀ d ∈ doms, d.Ok then none else some (strc doms ph nmax shift)

/-! ## Reciprocal space of the icosahedral package -/

/-- `CONST1=1/np.sqrt(2*(2+TAU))`, ico/reciprocal.pyx:14. -/
noncomputable def const1 : ℝ := 1 / Real.sqrt (2 * (2 + tau))

/-- `CONST2=CONST1*np.sqrt(2)`, ico/reciprocal.pyx:15. -/
noncomputable def const2 : ℝ := const1 * Real.sqrt 2

/-- `projection_qpar_ico_elser`, ico/reciprocal.pyx:17-27. -/
noncomputable def qparElser (h : Fin 6 → Int) : Fin 3 → ℝ :=
  ![(((h 0 - h 4 : Int) : ℝ) + tau * ((h 1 + h 2 : Int) : ℝ)) * const2,
    (((h 3 + h 5 : Int) : ℝ) + tau * ((h 0 + h 4 : Int) : ℝ)) * const2,
    (((h 1 - h 2 : Int) : ℝ) + tau * ((-h 3 + h 5 : Int) : ℝ)) * const2]

/-- `projection_qperp_ico_elser`, ico/reciprocal.pyx:29-39. -/
noncomputable def qperpElser (h : Fin 6 → Int) : Fin 3 → ℝ :=
  ![(((-h 1 - h 2 : Int) : ℝ) + tau * ((h 0 - h 4 : Int) : ℝ)) * const2,
    (((-h 0 - h 4 : Int) : ℝ) + tau * ((h 3 + h 5 : Int) : ℝ)) * const2,
    (((h 3 - h 5 : Int) : ℝ) + tau * ((h 1 - h 2 : Int) : ℝ)) * const2]

/-- `projection_qpar_ico_csg`, ico/reciprocal.pyx:41-51. -/
noncomputable def qparCsg (h : Fin 6 → Int) : Fin 3 → ℝ :=
  ![(((h 0 - h 3 : Int) : ℝ) + tau * ((h 1 + h 4 : Int) : ℝ)) * const1,
    (((h 2 - h 5 : Int) : ℝ) + tau * ((h 0 + h 3 : Int) : ℝ)) * const1,
    (((h 1 - h 4 : Int) : ℝ) + tau * ((h 2 + h 5 : Int) : ℝ)) * const1]

/-- `projection_qperp_ico_csg`, ico/reciprocal.pyx:53-63. -/
noncomputable def qperpCsg (h : Fin 6 → Int) : Fin 3 → ℝ :=
  ![(((h 1 + h 4 : Int) : ℝ) + tau * ((-h 0 + h 3 : Int) : ℝ)) * const1,
    (((h 0 + h 3 : Int) : ℝ) + tau * ((-h 2 + h 5 : Int) : ℝ)) * const1,
    (((h 2 + h 5 : Int) : ℝ) + tau * ((h 1 + h 4 : Int) : ℝ)) * const1]

/-- `lphason`, ico/reciprocal.pyx:68-73. -/
noncomputable def lphason (p : Fin 3 → Fin 3 → ℝ) (q : Fin 3 → ℝ) : Fin 3 → ℝ :=
  ![p 0 0 * q 0 + p 0 1 * q 1 + p 0 2 * q 2,
    p 1 0 * q 1 + p 0 1 * q 1 + p 1 2 * q 2,
    p 2 0 * q 2 + p 0 1 * q 1 + p 2 2 * q 2]

/-! ## Scalar arithmetic of the three Cython packages -/

/-- Tail of `add`, `sub` and `mul`, ico/math1.pyx:362-367, dode/math12.pyx:92-97, deca/math10.pyx:28-33. `c3/gcd` with
`gcd = 0` raises ZeroDivisionError, `none` here. Simplification: no wrap-around of `long`, and the
quotients, which are whole, are exact. -/
def reduced (c1 c2 c3 : Int) : Option Num3 :=
  let g := gcd3 c1 c2 c3
  if g = 0 then none
  else if c3 / g < 0 then some ⟨-c1 / g, -c2 / g, -c3 / g⟩
  else some ⟨c1 / g, c2 / g, c3 / g⟩

/-- `add`, ico/math1.pyx:356-367, dode/math12.pyx:86-97, deca/math10.pyx:22-33. -/
def add (x y : Num3) : Option Num3 :=
  reduced (x.a * y.c + y.a * x.c) (x.b * y.c + y.b * x.c) (x.c * y.c)

/-- `sub`, ico/math1.pyx:371-382, dode/math12.pyx:99-110, deca/math10.pyx:35-46. -/
def sub (x y : Num3) : Option Num3 :=
  reduced (x.a * y.c - y.a * x.c) (x.b * y.c - y.b * x.c) (x.c * y.c)

/-- `mul` of the icosahedral package, ico/math1.pyx:386-397. -/
def mulIco (x y : Num3) : Option Num3 :=
  reduced (x.a * y.a + x.b * y.b) (x.a * y.b + x.b * y.a + x.b * y.b) (x.c * y.c)

/-- `mul`, dode/math12.pyx:112-124, deca/math10.pyx:48-60. -/
def mulDode (x y : Num3) : Option Num3 :=
  reduced (4 * x.a * y.a + 3 * x.b * y.b) (4 * (x.a * y.b + x.b * y.a)) (4 * x.c * y.c)

/-- `div` of the icosahedral package, ico/math1.pyx:401-433. In the error cases it returns 1 from a function declared to return a
list, which raises TypeError: `none`. -/
def divIco (x y : Num3) : Option Num3 :=
  if y.a = 0 ∧ y.b = 0 then none
  else if x.a = 0 ∧ x.b = 0 then some ⟨0, 0, 1⟩
  else if y.b ≠ 0 then
    if y.a ≠ 0 then
      reduced ((x.a * y.a + x.a * y.b - x.b * y.b) * y.c) ((x.b * y.a - x.a * y.b) * y.c)
        ((y.a * y.a - y.b * y.b + y.a * y.b) * x.c)
    else reduced ((-x.a + x.b) * y.c) (x.a * y.c) (y.b * x.c)
  else reduced (x.a * y.c) (x.b * y.c) (y.a * x.c)

/-- `div`, dode/math12.pyx:126-163, deca/math10.pyx:62-99. -/
def divDode (x y : Num3) : Option Num3 :=
  if y.a = 0 ∧ y.b = 0 then none
  else if x.a = 0 ∧ x.b = 0 then some ⟨0, 0, 1⟩
  else if y.a ≠ 0 ∧ y.b ≠ 0 then
    if 4 * y.a ^ 2 - 3 * y.b ^ 2 ≠ 0 then
      reduced (y.c * (4 * x.a * y.a - 3 * x.b * y.b)) (-4 * y.c * (x.a * y.b - x.b * y.a))
        (x.c * (4 * y.a ^ 2 - 3 * y.b ^ 2))
    else reduced (3 * x.b * y.c) (4 * x.a * y.c) (6 * x.c * y.b)
  else if y.a = 0 ∧ y.b ≠ 0 then reduced (3 * x.b * y.c) (4 * x.a * y.c) (3 * x.c * y.b)
  else reduced (x.a * y.c) (x.b * y.c) (x.c * y.a)

end PyQC.Legacy
