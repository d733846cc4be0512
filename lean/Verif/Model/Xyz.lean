import Verif.Model.Volume
import Verif.Model.Unique
import Mathlib.Data.Nat.Digits.Defs
/-!
# `.xyz` files: `write`, `write_xyz`, `read_xyz` of both packages

A file is the list of its characters. The text `'%8.6f' % x` is a parameter `fl` of the model (any text for
any number), since nothing read back depends on it. Not modelled: directories, encodings, buffering,
and what is left on disk when a call raises.
-/
namespace PyQC

/-! ## Python text primitives -/

/-- The characters `str.split()` treats as white space. -/
def isSpace (c : Char) : Bool :=
  decide (c.toNat ∈ [9, 10, 11, 12, 13, 28, 29, 30, 31, 32, 133, 160, 5760, 8192, 8193, 8194, 8195, 8196, 8197, 8198,
    8199, 8200, 8201, 8202, 8232, 8233, 8239, 8287, 12288])

/-- `str.split()`; `cur` is the word being read, reversed. -/
def splitWords : List Char → List Char → List (List Char)
  | cur, [] => if cur.isEmpty then [] else [cur.reverse]
  | cur, c :: cs =>
    if isSpace c then
      if cur.isEmpty then splitWords [] cs else cur.reverse :: splitWords [] cs
    else splitWords (c :: cur) cs

/-- The character of a decimal digit. -/
def digitChar (d : Nat) : Char := Char.ofNat (48 + d)

/-- `'%d' % n` for a natural number. -/
def decNat (n : Nat) : List Char := if n = 0 then ['0'] else ((Nat.digits 10 n).reverse.map digitChar)

/-- `'%d' % z`. -/
def decInt (z : Int) : List Char := if z < 0 then '-' :: decNat z.natAbs else decNat z.natAbs

/-- `'%3d' % n`. -/
def decPad3 (n : Nat) : List Char := List.replicate (3 - (decNat n).length) ' ' ++ decNat n

/-- The digits of `int(s)`: single underscores are allowed between digits. Simplification: ASCII digits
only. -/
def parseDigits : Nat → Bool → List Char → Option Nat
  | acc, afterDigit, [] => if afterDigit then some acc else none
  | acc, afterDigit, c :: cs =>
    if 48 ≤ c.toNat ∧ c.toNat ≤ 57 then parseDigits (acc * 10 + (c.toNat - 48)) true cs
    else if c = '_' ∧ afterDigit = true then parseDigits acc false cs
    else none

/-- `int(s)` for a word without white space: ValueError when it is not a number. -/
def parseInt (s : List Char) : Py Int :=
  let r : Option Int :=
    match s with
    | '-' :: r => (parseDigits 0 false r).map fun n : Nat => -(n : Int)
    | '+' :: r => (parseDigits 0 false r).map fun n : Nat => (n : Int)
    | r => (parseDigits 0 false r).map fun n : Nat => (n : Int)
  match r with
  | some z => .ok z
  | none => .error .valueError

/-- `l[i]` of a list of words. -/
def wordAt (l : List (List Char)) (i : Nat) : Py (List Char) :=
  match l[i]? with
  | some x => .ok x
  | none => .error .indexError

/-- Reading in text mode turns `\r\n` and `\r` into `\n`. -/
def universalNewlines : List Char → List Char
  | [] => []
  | '\r' :: '\n' :: cs => '\n' :: universalNewlines cs
  | '\r' :: cs => '\n' :: universalNewlines cs
  | c :: cs => c :: universalNewlines cs

/-- The loop of `read_file`, ico2/occupation_domain.py:1069-1081, dode2/occupation_domain.py:1035-1047: lines with
their last character cut off, which is the newline except possibly on the last line. -/
def readLines : List Char → List Char → List (List Char)
  | cur, [] => if cur.isEmpty then [] else [cur.reverse.dropLast]
  | cur, c :: cs => if c = '\n' then cur.reverse :: readLines [] cs else readLines (c :: cur) cs

/-! ## Writing -/

/-- The 18 integers of a vertex. -/
def vertexInts (v : Vec 6) : List Int := rowKey v

/-- Words separated by one blank. -/
def joinBlank : List (List Char) → List Char
  | [] => []
  | [w] => w
  | w :: ws => w ++ ' ' :: joinBlank ws

/-- `numeric_value`, ico2/numericalc.py:163-175, dode2/numericalc.py:163-175. -/
noncomputable def Package.numericValue (p : Package) (t : Num3) : ℝ :=
  match p with
  | .ico => (t.a + t.b * tau) / t.c
  | .dode => (t.a + t.b * sin60) / t.c

/-- One vertex line, ico2/occupation_domain.py:889-901, 931-943, 971-983, dode2/occupation_domain.py:901-913;
`label` is "tetrahedron", "triangle" or "edge". -/
noncomputable def vertexLine (p : Package) (fl : ℝ → List Char) (label : List Char) (i1 i2 : Nat) (vt : Vec 6) :
    Py (List Char) := do
  let v ← p.projection3 vt
  .ok ("Xx ".toList ++ fl (p.numericValue (v 0)) ++ " ".toList ++ fl (p.numericValue (v 1)) ++ " ".toList ++
    fl (p.numericValue (v 2)) ++ " # ".toList ++ decPad3 i1 ++ "-the ".toList ++ label ++ " ".toList ++ decNat i2 ++
    "-th vertex # ".toList ++ joinBlank ((vertexInts vt).map decInt) ++ ['\n'])

/-- The lines of one piece: vertices number 0 to k-1 (`tetrahedron[i2]` for `i2` in `range(k)`: IndexError when the
piece has fewer vertices). -/
noncomputable def pieceLines (p : Package) (fl : ℝ → List Char) (label : List Char) (k i1 : Nat) {m : Nat}
    (s : Simplex m) : Py (List (List Char)) :=
  fillList (fun i2 => if h : i2 < m then vertexLine p fl label i1 i2 (s ⟨i2, h⟩) else .error .indexError) (List.range k)

/-- The lines of all pieces, with the running number `i1`. -/
noncomputable def objLines (p : Package) (fl : ℝ → List Char) (label : List Char) (k : Nat) {m : Nat} :
    Nat → Obj m → Py (List (List Char))
  | _, [] => .ok []
  | i1, s :: rest => do
    let a ← pieceLines p fl label k i1 s
    let b ← objLines p fl label k (i1 + 1) rest
    .ok (a ++ b)

/-- The text `%d %d %d (%8.6f)` of a volume. -/
noncomputable def volumeText (fl : ℝ → List Char) (v : Num3) : List Char :=
  decInt v.a ++ " ".toList ++ decInt v.b ++ " ".toList ++ decInt v.c ++ " (".toList ++
    fl (Package.ico.numericValue v) ++ ")\n".toList

/-- The count line and the file name line. -/
def headLines (count : Nat) (filename : List Char) : List (List Char) :=
  [decNat count ++ ['\n'], filename ++ ['\n']]

/-- The lines after the vertices, ico2/occupation_domain.py:903-908: the volume of the object, then for each number
`i1` the volume of the loop variable `tetrahedron`, which is the last piece. -/
noncomputable def volumeLines (fl : ℝ → List Char) {m : Nat} (o : Obj m) : Py (List (List Char)) := do
  let vol ← Ico.objVolume6d (.d4 o)
  let vol ← needSome vol
  let l ← fillList (fun i1 =>
    match o.getLast? with
    | none => .error .unboundLocalError
    | some last => do
      let t ← Ico.asTetra last
      let v ← Ico.tetrahedronVolume6d t
      .ok (decPad3 i1 ++ "-the tetrahedron, ".toList ++ volumeText fl v)) (List.range o.length)
  .ok (("volume = ".toList ++ volumeText fl vol) :: l)

/-- `generator_xyz_dim4_tetrahedron`, ico2/occupation_domain.py:868-910. -/
noncomputable def Ico.xyzTetrahedra (fl : ℝ → List Char) (filename : List Char) {m : Nat} (o : Obj m) : Py (List Char) := do
  let l ← objLines .ico fl "tetrahedron".toList 4 0 o
  let v ← volumeLines fl o
  .ok (headLines (o.length * 4) filename ++ l ++ v).flatten

/-- `generator_xyz_dim4_triangle` (k = 3) and `generator_xyz_dim4_edge` (k = 2), ico2/occupation_domain.py:912-990. -/
noncomputable def Ico.xyzPieces (fl : ℝ → List Char) (filename : List Char) (label : List Char) (k : Nat) {m : Nat}
    (o : Obj m) : Py (List Char) := do
  let l ← objLines .ico fl label k 0 o
  .ok (headLines (o.length * k) filename ++ l).flatten

/-- `generator_xyz_dim4_triangle`, dode2/occupation_domain.py:880-916: all vertices of every piece, but the count line
says three per piece. -/
noncomputable def Dode.xyzTriangles (fl : ℝ → List Char) (filename : List Char) {m : Nat} (o : Obj m) : Py (List Char) := do
  let l ← objLines .dode fl "triangle".toList m 0 o
  .ok (headLines (o.length * 3) filename ++ l).flatten

/-- The `select` argument. -/
inductive Select
  | tetrahedron
  | triangle
  | edge
  | vertex
  | other
  deriving DecidableEq

/-- `np.all(obj==None)`: true for `None` and for an array without elements. -/
def isNoneOrEmpty : Option NdArr → Bool
  | none => true
  | some (.d1 _) => false
  | some (@NdArr.d2 n _) => decide (n = 0)
  | some (@NdArr.d3 m _) => decide (m = 0)
  | some (@NdArr.d4 m o) => decide (m = 0) || o.isEmpty
  | some (@NdArr.d5 m os) => decide (m = 0) || os.all List.isEmpty
  | some (.other _) => false

/-- Outcome of a writing function: the returned value and the text of the file written, if any. -/
structure Written where
  status : Option Int
  file : Option (List Char)

/-- `write_xyz`, ico2/occupation_domain.py:847-1044. For `select='vertex'` the loop runs over the pieces of a
4-dimensional array and `projection3` of a whole piece raises ValueError (comparison of an array in `mul`). -/
noncomputable def Ico.writeXyz (fl : ℝ → List Char) (filename : List Char) (select : Select) (obj : Option NdArr) :
    Py Written :=
  if isNoneOrEmpty obj then .ok ⟨none, none⟩
  else
    match obj with
    | some (.d4 o) =>
      match select with
      | .tetrahedron => do
        let f ← Ico.xyzTetrahedra fl filename o
        .ok ⟨some 0, some f⟩
      | .triangle => do
        let f ← Ico.xyzPieces fl filename "triangle".toList 3 o
        .ok ⟨some 0, some f⟩
      | .edge => do
        let f ← Ico.xyzPieces fl filename "edge".toList 2 o
        .ok ⟨some 0, some f⟩
      | .vertex => .error .valueError
      | .other => .ok ⟨none, none⟩
    | _ => .ok ⟨none, none⟩

/-- `write_xyz`, dode2/occupation_domain.py:861-1010: `select == 'triangle' or 't'` is always true. -/
noncomputable def Dode.writeXyz (fl : ℝ → List Char) (filename : List Char) (_select : Select) (obj : Option NdArr) :
    Py Written :=
  if isNoneOrEmpty obj then .ok ⟨none, none⟩
  else
    match obj with
    | some (.d4 o) => do
      let f ← Dode.xyzTriangles fl filename o
      .ok ⟨some 0, some f⟩
    | _ => .ok ⟨none, none⟩

/-- The `format` argument. -/
inductive Format
  | vesta
  | xyz
  | other
  deriving DecidableEq

/-- `write`, ico2/occupation_domain.py:95-131. `vesta` is the text written by `write_vesta` (not modelled). -/
noncomputable def Ico.write (fl : ℝ → List Char) (vesta : Option NdArr → Py (List Char)) (filename : List Char)
    (format : Format) (select : Select) (obj : Option NdArr) : Py Written :=
  if isNoneOrEmpty obj then .ok ⟨some 1, none⟩
  else
    match format with
    | .vesta => do
      let f ← vesta obj
      .ok ⟨some 0, some f⟩
    | .xyz => do
      let r ← Ico.writeXyz fl filename select obj
      .ok ⟨some 0, r.file⟩
    | .other => .ok ⟨some 0, none⟩

/-- `write`, dode2/occupation_domain.py:94-140. -/
noncomputable def Dode.write (fl : ℝ → List Char) (vesta : Option NdArr → Py (List Char)) (filename : List Char)
    (format : Format) (select : Select) (obj : Option NdArr) : Py Written :=
  if isNoneOrEmpty obj then .ok ⟨some 0, none⟩
  else
    match format with
    | .vesta => do
      let f ← vesta obj
      .ok ⟨some 0, some f⟩
    | .xyz => do
      let r ← Dode.writeXyz fl filename select obj
      .ok ⟨some 0, r.file⟩
    | .other => .ok ⟨some 1, none⟩

/-! ## Reading -/

/-- One vertex line, ico2/occupation_domain.py:1089-1109, dode2/occupation_domain.py:1055-1075: words 10 to 27. -/
def readVertex (line : List Char) : Py (List Int) :=
  fillList (fun k => do
    let w ← wordAt (splitWords [] line) (10 + k)
    parseInt w) (List.range 18)

/-- The integers read, ico2/occupation_domain.py:1083-1109, dode2/occupation_domain.py:1049-1075. When the count is
not positive `tmp` is unassigned. -/
def readInts (text : List Char) : Py (Nat × List Int) := do
  let f1 := readLines [] (universalNewlines text)
  let l0 ← wordAt f1 0
  let w0 ← wordAt (splitWords [] l0) 0
  let num ← parseInt w0
  if num ≤ 0 then .error .unboundLocalError
  else do
    let rows ← fillList (fun i => do
      let fi ← wordAt f1 (i + 2)
      readVertex fi) (List.range num.toNat)
    .ok (num.toNat, rows.flatten)

/-- A flat list of integers as 6D vertices (`reshape(...,6,3)`); `none` when the number of integers does not fit. -/
def toVertices : Nat → List Int → Option (List (Vec 6))
  | 0, [] => some []
  | 0, _ :: _ => none
  | n + 1, l =>
    if 18 ≤ l.length then
      (toVertices n (l.drop 18)).map fun r =>
        (fun i : Fin 6 => (⟨l.getD (3 * i) 0, l.getD (3 * i + 1) 0, l.getD (3 * i + 2) 0⟩ : Num3)) :: r
    else none

/-- Groups of `k` vertices. -/
def toPieces (k : Nat) : Nat → List (Vec 6) → Option (Obj k)
  | 0, [] => some []
  | 0, _ :: _ => none
  | n + 1, l =>
    if h : k ≤ l.length then
      (toPieces k n (l.drop k)).map fun r => (fun i : Fin k => l.get ⟨i, lt_of_lt_of_le i.2 h⟩) :: r
    else none

/-- `read_xyz(...,select='tetrahedron')` (k = 4, ico2/occupation_domain.py:1113-1114) and
`read_xyz(...,select='triangle')` (k = 3, dode2/occupation_domain.py:1079-1080): `tmp.reshape(int(num/k),k,6,3)`. -/
def readPieces (k : Nat) (text : List Char) : Py (Obj k) := do
  let (num, ints) ← readInts text
  match (toVertices num ints).bind (toPieces k (num / k)) with
  | some o => .ok o
  | none => .error .valueError

/-- `read_xyz(...,select='vertex')`, ico2/occupation_domain.py:1115-1116, dode2/occupation_domain.py:1081-1082. -/
def readVertices (text : List Char) : Py (List (Vec 6)) := do
  let (num, ints) ← readInts text
  match toVertices num ints with
  | some o => .ok o
  | none => .error .valueError

end PyQC
