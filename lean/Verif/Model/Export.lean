import Verif.Model.Xyz
import Verif.Model.Intersect
/-!
# Export of occupation domains: VESTA files, `.pod` and `.atm` files, simplification by hand

A file is modelled by the records written into it (atoms, bonds, vectors, index lists), not by its characters. Not
modelled: directories, fixed headers, rounding of the printed numbers, the colour.
-/
namespace PyQC

/-- `s[k]` of an array of shape (m,6,3). -/
def rowAt {m : Nat} (s : Simplex m) (k : Nat) : Py (Vec 6) :=
  if h : k < m then .ok (s ⟨k, h⟩) else .error .indexError

/-- `l[i]` of a Python list, counting from the end for a negative `i`. -/
def pyItem {α : Type} (l : List α) (i : Int) : Py α :=
  let j := if i < 0 then i + l.length else i
  if j < 0 then .error .indexError
  else
    match l[j.toNat]? with
    | some x => .ok x
    | none => .error .indexError

/-! ## VESTA -/

/-- One line of the section SBOND between two atoms given by their positions in the section STRUC, counted from 0
(the file adds 1), with the shortest and longest distance. -/
structure BondLine where
  first : Nat
  second : Nat
  lo : ℝ
  hi : ℝ

/-- One section MOLECULE: the coordinates of its atoms in order, its bond lines, and, if there is a bond line for all
pairs of atoms, its shortest and longest distance. -/
structure VestaMol where
  atoms : List (Fin 3 → ℝ)
  bonds : List BondLine
  allPairs : Option (ℝ × ℝ)

/-- What `write_vesta` returns and the molecules of the file. -/
structure VestaOut where
  ret : Int
  file : List VestaMol

/-- The argument `select`; `edges` stands for the text 'egdes' of the code. -/
inductive VestaSelect where
  | simple | edges | normal | podatm | other
  deriving DecidableEq

/-- The search for the number of a vertex, ico2/occupation_domain.py:212-220, dode2/occupation_domain.py:233-241: the
first entry that `remove_doubling_in_perp_space` merges with it. -/
def findVertex (p : Package) (v : Vec 6) : Nat → List (Vec 6) → Py (Option Nat)
  | _, [] => .ok none
  | i3, w :: ws => do
    let tmp ← removeDoublingPerp p [v, w]
    if tmp.length = 1 then .ok (some i3) else findVertex p v (i3 + 1) ws

/-- One entry of `pairs`, ico2/occupation_domain.py:209-221, dode2/occupation_domain.py:229-242: the distance of the
first two vertices, and the numbers found for them (an unfound vertex adds nothing). -/
noncomputable def bondPair (p : Package) (vertices : List (Vec 6)) {m : Nat} (edge : Simplex m) : Py (ℝ × List Nat) := do
  let e0 ← rowAt edge 0
  let e1 ← rowAt edge 1
  let dist ← distanceInPerpSpace p e0 e1
  let n0 ← findVertex p e0 0 vertices
  let n1 ← findVertex p e1 0 vertices
  .ok (dist, n0.toList ++ n1.toList)

/-- The line printed for one entry of `pairs`, ico2/occupation_domain.py:277-280, dode2/occupation_domain.py:292-295. -/
noncomputable def bondLine (pair : ℝ × List Nat) : Py BondLine :=
  match pair.2 with
  | i :: j :: _ => .ok ⟨i, j, pair.1 - 0.01, pair.1 + 0.01⟩
  | _ => .error .indexError

/-- The coordinates printed for a vertex, ico2/occupation_domain.py:252-257, dode2/occupation_domain.py:268-273. -/
noncomputable def atomXyz (p : Package) (v : Vec 6) : Py (Fin 3 → ℝ) := do
  let xyz ← p.projection3 v
  .ok (p.numericalVector3 xyz)

/-- The single molecule drawn for a set of edges, ico2/occupation_domain.py:203-283, dode2/occupation_domain.py:211-298. -/
noncomputable def vestaEdges (p : Package) {m : Nat} (edges : Obj m) : Py VestaMol := do
  let vertices ← removeDoublingPerp p (flattenObj edges)
  let pairs ← fillList (bondPair p vertices) edges
  let atoms ← fillList (atomXyz p) vertices
  let bonds ← fillList bondLine pairs
  .ok ⟨atoms, bonds, none⟩

/-- The molecule drawn for one piece with `select='normal'`, dode2/occupation_domain.py:476-495, with the one bond line
from 0 to `dmax` = 10. -/
noncomputable def vestaPiece (p : Package) {m : Nat} (s : Simplex m) : Py VestaMol := do
  let atoms ← fillList (atomXyz p) (List.ofFn s)
  .ok ⟨atoms, [], some (0, 10)⟩

/-- `write_vesta`, ico2/occupation_domain.py:133-845, of an object with 4 dimensions. The first test
`select=='simple' or 'egdes'` is always true, so the branches after it are never reached.
`utils.generator_obj_edge` does not exist. -/
noncomputable def Ico.writeVesta (select : VestaSelect) {m : Nat} (obj : Option (Obj m)) : Py VestaOut :=
  if isNoneOrEmpty (obj.map NdArr.d4) then .ok ⟨0, []⟩
  else
    match select with
    | .simple => .error .attributeError
    | _ => do
      let mol ← vestaEdges .ico (obj.getD [])
      .ok ⟨0, [mol]⟩

/-- `write_vesta`, dode2/occupation_domain.py:142-859, of an object with 4 dimensions. -/
noncomputable def Dode.writeVesta (select : VestaSelect) {m : Nat} (obj : Option (Obj m)) : Py VestaOut :=
  match select with
  | .other => .ok ⟨1, []⟩
  | _ =>
    if isNoneOrEmpty (obj.map NdArr.d4) then .ok ⟨0, []⟩
    else
      match select with
      | .normal => do
        let mols ← fillList (vestaPiece .dode) (obj.getD [])
        .ok ⟨0, mols⟩
      | .edges => do
        let mol ← vestaEdges .dode (obj.getD [])
        .ok ⟨0, [mol]⟩
      | _ => .error .attributeError

/-! ## `obj2podatm` -/

/-- The inner loop of `find_common_vertex`, ico2/occupation_domain.py:1184-1190, dode2/occupation_domain.py:1164-1170:
is there a vertex of the piece with the projection `xyz1`? -/
def hasVertex (p : Package) (xyz1 : Vec 3) : List (Vec 6) → Py Bool
  | [] => .ok false
  | w :: ws => do
    let xyz2 ← p.projection3 w
    if xyz1 = xyz2 then .ok true else hasVertex p xyz1 ws

/-- The loop over the other pieces, ico2/occupation_domain.py:1183-1194, dode2/occupation_domain.py:1163-1174: it stops
at the first piece without such a vertex. -/
def inAllPieces (p : Package) (xyz1 : Vec 3) {m : Nat} : Obj m → Py Bool
  | [] => .ok true
  | s :: rest => do
    let c ← hasVertex p xyz1 (List.ofFn s)
    if c then inAllPieces p xyz1 rest else .ok false

/-- The loop over the vertices of the first piece, ico2/occupation_domain.py:1178-1203,
dode2/occupation_domain.py:1158-1183. -/
def commonAmong (p : Package) {m : Nat} (rest : Obj m) : List (Vec 6) → Py (Option (Vec 6))
  | [] => .ok none
  | vtx1 :: vs => do
    let xyz1 ← p.projection3 vtx1
    let c ← inAllPieces p xyz1 rest
    if c then .ok (some vtx1) else commonAmong p rest vs

/-- `find_common_vertex`, ico2/occupation_domain.py:1176-1203, dode2/occupation_domain.py:1156-1183. The loops run over
4 (ico2) or 3 (dode2) vertices, the number of vertices of a piece. -/
def findCommonVertex (p : Package) {m : Nat} (obj : Obj m) : Py (Option (Vec 6)) :=
  match obj with
  | [] => .error .indexError
  | s :: rest => commonAmong p rest (List.ofFn s)

/-- The records of the `.atm` and `.pod` files: the point `x=`, the vectors `ej=`, the number `nth=` and the indices
after it. The number of vectors is also written in the first line of the `.pod` file. -/
structure PodAtm where
  x : Fin 6 → ℝ
  ej : List (Fin 6 → ℝ)
  nth : Nat
  index : List Nat

/-- `numerical_vector` of a 6D vector, ico2/numericalc.py:177-193, dode2/numericalc.py:177-193. -/
noncomputable def Package.numericalVector6 (p : Package) (v : Vec 6) : Fin 6 → ℝ :=
  match p with
  | .ico => numericalVector tau v
  | .dode => numericalVector sin60 v

/-- The search for the number of a vertex, ico2/occupation_domain.py:1239-1246, dode2/occupation_domain.py:1219-1226:
the first equal array, counted from 1; a vertex that is not found adds nothing. -/
def indexOfVertex (v : Vec 6) : Nat → List (Vec 6) → List Nat
  | _, [] => []
  | i1, w :: ws => if v = w then [i1 + 1] else indexOfVertex v (i1 + 1) ws

/-- `obj2podatm`, ico2/occupation_domain.py:1174-1256, dode2/occupation_domain.py:1154-1236; `none`: it returns 1 and
writes no file; `some f`: it returns 0. The arguments `serial_number` (only printed) and `shift` (never used) are left
out. -/
noncomputable def obj2podatm (p : Package) {m : Nat} (obj : Obj m) : Py (Option PodAtm) := do
  let vrtx0 ← findCommonVertex p obj
  match vrtx0 with
  | none => .ok none
  | some vrtx0 => do
    let vtxs ← removeDoublingPerp p (flattenObj obj)
    let vtxs := removeVector vtxs vrtx0
    .ok (some ⟨p.numericalVector6 vrtx0, vtxs.map p.numericalVector6, vtxs.length,
      obj.flatMap fun s => (List.ofFn s).flatMap fun v => indexOfVertex v 0 vtxs⟩)

/-! ## `write_podatm` (ico2) -/

/-- The argument `obj` of `write_podatm`: `None`, a Python list of vertices, an array of vertices, or a number. -/
inductive PodObj where
  | none
  | list (l : List (Vec 6))
  | array (l : List (Vec 6))
  | num (n : Int)

/-- One entry of the `.atm` file: the lines `x=` and `xi=`. -/
structure AtmEntry where
  x : Fin 6 → ℝ
  xi : Fin 6 → ℝ

/-- One entry of the `.pod` file: the lines `ej=` (their number is written first), `nth=` and its indices. -/
structure PodEntry where
  ej : List (Fin 6 → ℝ)
  nth : Nat
  index : List Nat

/-- `v[i]` for the argument `obj`. -/
def podItem (v : PodObj) (i : Int) : Py (Vec 6) :=
  match v with
  | .list l => pyItem l i
  | .array l => pyItem l i
  | _ => .error .typeError

/-- The loop that collects the distinct numbers, ico2/occupation_domain.py:1598-1610. -/
def distinctNumbers : List Int → List Int → List Int
  | tmp2, [] => tmp2
  | tmp2, i :: rest => if i ∈ tmp2 then distinctNumbers tmp2 rest else distinctNumbers (tmp2 ++ [i]) rest

/-- The search of the second loop, ico2/occupation_domain.py:1611-1618; the file gets the position plus 1. -/
def positionOf (i : Int) : Nat → List Int → List Nat
  | _, [] => []
  | i3, j :: rest => if i = j then [i3 + 1] else positionOf i (i3 + 1) rest

/-- The `.atm` entry of one list of numbers, ico2/occupation_domain.py:1566-1587. -/
noncomputable def atmEntry (v : PodObj) (position : Vec 6) (shift : Fin 6 → ℝ) (g : List Int) : Py AtmEntry := do
  let g0 ← pyItem g 0
  let a ← podItem v (g0 - 1)
  .ok ⟨fun k => Package.ico.numericValue (position k), fun k => Package.ico.numericValue (a k) + shift k⟩

/-- The `.pod` entry of one list of numbers, ico2/occupation_domain.py:1596-1635. -/
noncomputable def podEntry (v : PodObj) (g : List Int) : Py PodEntry := do
  let g0 ← pyItem g 0
  let a ← podItem v (g0 - 1)
  let g1 ← pyItem g 1
  let tmp2 := distinctNumbers [g1 - 1] ((g.drop 2).map (· - 1))
  let ej ← fillList (fun i => do
    let b ← podItem v i
    .ok (fun k => Package.ico.numericValue (b k) - Package.ico.numericValue (a k) : Fin 6 → ℝ)) tmp2
  .ok ⟨ej, (g.length - 1) / 3, (g.drop 1).flatMap fun i => positionOf (i - 1) 0 tmp2⟩

/-- `write_podatm`, ico2/occupation_domain.py:1532-1638; `none`: it returns 0 without writing. For an array `obj==None`
is an array of truth values, which `if` refuses (ValueError) when it has more than one element. Simplification: an array
without elements is treated the same way. -/
noncomputable def Ico.writePodatm (obj : PodObj) (position : Vec 6) (vlist : List (List Int)) (shift : Fin 6 → ℝ) :
    Py (Option (List AtmEntry × List PodEntry)) :=
  match obj with
  | .none => .ok none
  | .array _ => .error .valueError
  | v => do
    let atm ← fillList (atmEntry v position shift) vlist
    let pod ← fillList (podEntry v) vlist
    .ok (some (atm, pod))

/-! ## Simplification by hand -/

/-- `simple_hand_step1`, ico2/occupation_domain.py:1261-1301, dode2/occupation_domain.py:1241-1281. The line of a vertex
formats `numeric_value(xyz)` of an array of shape (3,3), itself an array, with '%8.6f' (TypeError). -/
def simpleHandStep1 (p : Package) {m : Nat} (obj : Obj m) : Py (List (Vec 6)) := do
  let od1a ← removeDoublingPerp p (flattenObj obj)
  let _ ← fillList (fun v => do
    let _ ← p.projection3 v
    (.error .typeError : Py Unit)) od1a
  .ok od1a

/-- `merge` of `simple_hand_step2`, ico2/occupation_domain.py:1321-1326, dode2/occupation_domain.py:1301-1306. -/
def handMerge (obj : List (Vec 6)) (mylist : List Int) : Py (List (Vec 6)) := do
  let _ ← pyItem mylist 0
  fillList (fun i => pyItem obj (i - 1)) mylist

/-- The loop of `simple_hand_step2`, ico2/occupation_domain.py:1328-1334; `od1` is the result so far, `none` standing for
an array of `None`s. `np.vstack` refuses to stack `None` on tetrahedra or tetrahedra on `None`. -/
noncomputable def Ico.handLoop (delaunay : Ico.Delaunay) (obj : List (Vec 6)) :
    Option (Obj 4) → List (List Int) → Py (Option (Obj 4))
  | od1, [] => .ok od1
  | od1, l :: rest => do
    let tmp1 ← handMerge obj l
    let od2 ← tetrahedralizationPoints delaunay tmp1
    match od1, od2 with
    | some a, some b => Ico.handLoop delaunay obj (some (a ++ b)) rest
    | none, none => Ico.handLoop delaunay obj none rest
    | _, _ => .error .valueError

/-- `simple_hand_step2`, ico2/occupation_domain.py:1303-1335; `none`: an array of `None`s, when no list gives a
tetrahedron. -/
noncomputable def Ico.simpleHandStep2 (delaunay : Ico.Delaunay) (obj : List (Vec 6)) (mergeList : List (List Int)) :
    Py (Option (Obj 4)) :=
  match mergeList with
  | [] => .error .unboundLocalError
  | l :: rest => do
    let tmp1 ← handMerge obj l
    let od2 ← tetrahedralizationPoints delaunay tmp1
    Ico.handLoop delaunay obj od2 rest

/-- `simple_hand_step2`, dode2/occupation_domain.py:1283-1315: `intsct.tetrahedralization_points` does not exist. -/
def Dode.simpleHandStep2 (obj : List (Vec 6)) (mergeList : List (List Int)) : Py (Option (Obj 3)) :=
  match mergeList with
  | [] => .error .unboundLocalError
  | l :: _ => do
    let _ ← handMerge obj l
    .error .attributeError

end PyQC
