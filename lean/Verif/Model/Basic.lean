import Mathlib.Data.Fin.Tuple.Basic
import Mathlib.Data.Fin.VecNotation
/-!
# Common carrier types of the model

`Num3` is the "TAU-style" triple `[a,b,c]` used everywhere in `ico2` (meaning `(a+b*TAU)/c`) and in
`dode2` (meaning `(a+b*SIN)/c`, `SIN = sqrt(3)/2`).  Cited files are relative to
`/repo/src/pyqcstrc/`.
-/
namespace PyQC

/-- Python exceptions the modelled code can raise. -/
inductive PyErr where
  | valueError
  | typeError
  | indexError
  | nameError
  | unboundLocalError
  | linAlgError
  | attributeError
  deriving DecidableEq, Repr

/-- Result of a Python call: a value or an exception. A Python `None` result is modelled by an
`Option` inside. -/
abbrev Py (α : Type) := Except PyErr α

/-- One TAU-style number: an array of shape `(3,)` and dtype int64, e.g. ico2/math1.py:14-40.
Simplification: unbounded integers (int64 wrap-around is modelled in `Model/Machine.lean`). -/
structure Num3 where
  a : Int
  b : Int
  c : Int
  deriving DecidableEq, Repr

/-- A vector of `n` TAU-style numbers: an array of shape `(n,3)`. -/
abbrev Vec (n : Nat) := Fin n → Num3

/-- A piece with `m` vertices in 6D: an array of shape `(m,6,3)`; `m = 4` tetrahedron, `m = 3`
triangle, `m = 2` edge. -/
abbrev Simplex (m : Nat) := Fin m → Vec 6

/-- An object: array of shape `(n,m,6,3)`. -/
abbrev Obj (m : Nat) := List (Simplex m)

/-- `for i in range(n): a[i] = f(i)` filling a new array, stopping at the first exception
(e.g. ico2/math1.py:153-155, ico2/utils.py:100-101). -/
def fillFin {α : Type} : (n : Nat) → (Fin n → Py α) → Py (Fin n → α)
  | 0, _ => .ok (fun i => i.elim0)
  | n + 1, f =>
    match f 0 with
    | .error e => .error e
    | .ok x =>
      match fillFin n (fun i => f i.succ) with
      | .error e => .error e
      | .ok xs => .ok (Fin.cons x xs)

/-- `for x in l: out.append(f(x))`, stopping at the first exception. -/
def fillList {α β : Type} (f : α → Py β) : List α → Py (List β)
  | [] => .ok []
  | x :: xs =>
    match f x with
    | .error e => .error e
    | .ok y =>
      match fillList f xs with
      | .error e => .error e
      | .ok ys => .ok (y :: ys)

/-- `acc = init; for x in l: acc = f(acc, x)`, stopping at the first exception. -/
def foldPy {α β : Type} (f : β → α → Py β) : β → List α → Py β
  | b, [] => .ok b
  | b, x :: xs =>
    match f b x with
    | .error e => .error e
    | .ok b' => foldPy f b' xs

/-- The scalar operations a package provides; the vector level of `ico2/math1.py` and
`dode2/math1.py` is textually the same code over different scalar functions. `div` returns Python
`None` on a division error, hence `Option`. -/
structure Arith where
  add : Num3 → Num3 → Py Num3
  mul : Num3 → Num3 → Py Num3
  sub : Num3 → Num3 → Py Num3
  div : Num3 → Num3 → Option Num3

end PyQC
