import Verif.Model.Symmetry
import Verif.Model.Numeric
import Mathlib.Data.List.Sort
/-!
# `dode2/symmetry.py`: similarity, translations, site symmetry, cosets

The real comparison `length_numerical(tmp) < EPS` is over the real numbers (idealisation of float64).
-/
namespace PyQC
namespace Dode

/-- First matrix of `similarity`, dode2/symmetry.py:496-501. -/
def simUp : IMat 6 6 :=
  ![![1, 0, 0, -1, 0, 0], ![1, 1, 0, 0, 0, 0], ![0, 1, 1, 1, 0, 0], ![0, 0, 1, 1, 0, 0],
    ![0, 0, 0, 0, 1, 0], ![0, 0, 0, 0, 0, 1]]

/-- Second matrix of `similarity`, dode2/symmetry.py:504-509. -/
def simDown : IMat 6 6 :=
  ![![0, 1, -1, 1, 0, 0], ![0, 0, 1, -1, 0, 0], ![1, -1, 1, 0, 0, 0], ![-1, 1, -1, 1, 0, 0],
    ![0, 0, 0, 0, 1, 0], ![0, 0, 0, 0, 0, 1]]

/-- `similarity`, dode2/symmetry.py:492-518: `matrixpow(m1.T, |m|)`. The float entries of the result
are integers and modelled as such; `matrixpow` with a positive exponent is `npPow`. -/
def similarity (m : Int) : IMat 6 6 :=
  if 0 < m then npPow (fun i j => simUp j i) m.toNat
  else if m < 0 then npPow (fun i j => simDown j i) (-m).toNat
  else npIdentity Int 6

/-- `similarity_vec`, dode2/symmetry.py:485-490. -/
def similarityVec (vt : Vec 6) (m : Int) : Py (Vec 6) := dotProduct1 Dode.arith (similarity m) vt

/-- `similarity_triangle`, dode2/symmetry.py:477-483 (any number of vertices). -/
def similarityTriangle {k : Nat} (s : Simplex k) (m : Int) : Py (Simplex k) :=
  fillFin k fun i => similarityVec (s i) m

/-- `similarity_obj`, dode2/symmetry.py:469-475, and `similarity` of
dode2/occupation_domain.py:1317. -/
def similarityObj {k : Nat} (o : Obj k) (m : Int) : Py (Obj k) :=
  fillList (fun s => similarityTriangle s m) o

/-- An integer translation in TAU-style. -/
def intVec (i1 i2 i3 i4 i5 : Int) : Vec 6 :=
  ![⟨i1, 0, 1⟩, ⟨i2, 0, 1⟩, ⟨i3, 0, 1⟩, ⟨i4, 0, 1⟩, ⟨i5, 0, 1⟩, ⟨0, 0, 1⟩]

/-- `translation`, dode2/symmetry.py:167-189. -/
def translation (ndim : Int) : List (Vec 6) :=
  let lst : List Int := [-1, 0, 1]
  intVec 0 0 0 0 0 ::
    if ndim = 4 then
      lst.flatMap fun i1 => lst.flatMap fun i2 => lst.flatMap fun i3 => lst.map fun i4 =>
        intVec i1 i2 i3 i4 0
    else
      lst.flatMap fun i1 => lst.flatMap fun i2 => lst.flatMap fun i3 => lst.flatMap fun i4 =>
        lst.map fun i5 => intVec i1 i2 i3 i4 i5

/-- `V0`, dode2/symmetry.py:26. -/
def V0 : Vec 6 := fun _ => ⟨0, 0, 1⟩

/-- `length_numerical`, dode2/numericalc.py:213-226: Euclidean norm of the numerical vector. -/
noncomputable def lengthNumerical {n : Nat} (vt : Vec n) : ℝ :=
  Real.sqrt ((List.finRange n).foldl (fun acc i => acc + numericalVector sin60 vt i ^ 2) 0)

open Classical in
/-- The inner loop of `site_symmetry` for one operation, dode2/symmetry.py:217-224: scan the
translations, stop at the first one that brings the image back to the site. -/
noncomputable def bringsBack (site site1 : Vec 6) : List (Vec 6) → Py Bool
  | [] => .ok false
  | top :: rest => do
    let site2 ← addVectors Dode.arith site1 top
    let tmp ← subVectors Dode.arith site site2
    if lengthNumerical tmp < EPS then .ok true else bringsBack site site1 rest

/-- The outer loop of `site_symmetry`, dode2/symmetry.py:213-224 (`list1`), and of
`site_symmetry_and_coset`, 346-360. `i2` is the running index of `enumerate`. -/
noncomputable def siteLoop (site : Vec 6) (traop : List (Vec 6)) : Nat → List (IMat 6 6) →
    Py (List Nat)
  | _, [] => .ok []
  | i2, op :: ops => do
    let site1 ← symopVec .dode op site V0
    let hit ← bringsBack site site1 traop
    let rest ← siteLoop site traop (i2 + 1) ops
    .ok (if hit then i2 :: rest else rest)

/-- `remove_overlaps`, dode2/symmetry.py:434-447: `set`, `list`, `sort`
(any sorting method gives the same list). -/
def removeOverlaps (l1 : List Nat) : List Nat := l1.dedup.insertionSort (· ≤ ·)

/-- `find_overlaps`, dode2/symmetry.py:449-464. -/
def findOverlaps (l1 l2 : List Nat) : Bool :=
  !decide (l1.length + l2.length = (removeOverlaps (l1 ++ l2)).length)

/-- `site_symmetry`, dode2/symmetry.py:194-225. -/
noncomputable def siteSymmetry (site : Vec 6) (ndim : Int) : Py (List Nat) := do
  let list1 ← siteLoop site (translation ndim) 0 dodesymop
  .ok (removeOverlaps list1)

/-- `list3` for one `i2`, dode2/symmetry.py:250-259: for every `i1` in `list1` the first index whose
operation equals `symop[i2]·symop[i1]` (nothing is appended when there is none). An index of `list1` or
`i2` outside the table raises IndexError. -/
def cosetOf (symop : List (IMat 6 6)) (i2 : Nat) : List Nat → Py (List Nat)
  | [] => .ok []
  | i1 :: rest =>
    match symop[i2]?, symop[i1]? with
    | some a, some b => do
      let tl ← cosetOf symop i2 rest
      match symop.findIdx? (fun op => decide (op = npDot a b)) with
      | some i3 => .ok (i3 :: tl)
      | none => .ok tl
    | _, _ => .error .indexError

/-- The `while i3<len(list4)` loop, dode2/symmetry.py:269-283: `a` is fixed, `d` accumulates,
`list5` collects representatives. Each entry is `(list2_new[i3], list4[i3])`. -/
def greedy (a : List Nat) : List Nat → List Nat → List (Nat × List Nat) → List Nat
  | _, list5, [] => list5
  | d, list5, (r, b) :: rest =>
    if d.length = 0 then
      if findOverlaps a b then greedy a d list5 rest
      else greedy a (a ++ b) (list5 ++ [r]) rest
    else
      if findOverlaps d b then greedy a d list5 rest
      else greedy a (d ++ b) (list5 ++ [r]) rest

/-- The loop `for i2 in range(len(list4)-1)` with its `break`, dode2/symmetry.py:262-287. `last` is the
value of `list5` from the previous round (`none`: not yet assigned, the `return` raises
UnboundLocalError). The recursion stops with one entry left because the range ends at
`len(list4)-1`. -/
def cosetLoop (nsym nlist1 : Nat) : Option (List Nat) → List (Nat × List Nat) → Py (List Nat)
  | last, [] | last, [_] =>
    match last with
    | some l => .ok l
    | none => .error .unboundLocalError
  | _, (r, a) :: x :: rest =>
    let list5 := greedy a [] [0, r] (x :: rest)
    if nsym = list5.length * nlist1 then .ok list5
    else cosetLoop nsym nlist1 (some list5) (x :: rest)

/-- `coset` after `list1` has been computed, dode2/symmetry.py:233-287; the same text is in
`site_symmetry_and_coset`, 374-429. -/
def cosetFrom (list1 : List Nat) : Py (List Nat) := do
  let symop := dodesymop
  let list2 := removeOverlaps ((List.range symop.length).filter fun i => decide (i ∉ list1))
  if symop.length = list1.length then .ok [0]
  else do
    let list4 ← fillList (fun i2 => cosetOf symop i2 list1) list2
    cosetLoop symop.length list1.length none (list2.zip list4)

/-- `coset`, dode2/symmetry.py:227-287. -/
noncomputable def coset (site : Vec 6) (ndim : Int) : Py (List Nat) := do
  let list1 ← siteSymmetry site ndim
  cosetFrom list1

/-- `site_symmetry_and_coset`, dode2/symmetry.py:289-429 with `verbose = 0`: `list2` collects the
indices not in `list1` directly. -/
noncomputable def siteSymmetryAndCoset (site : Vec 6) (ndim : Int) : Py (List Nat × List Nat) := do
  let list1 ← siteSymmetry site ndim
  let list5 ← cosetFrom list1
  .ok (list1, list5)

end Dode
end PyQC
