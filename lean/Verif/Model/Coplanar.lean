import Verif.Model.Unique
import Mathlib.LinearAlgebra.CrossProduct
/-!
# Coplanar groups, border edges, merging of collinear edges

`utils.py` (surface_cleaner and its helpers) and the tests of `numericalc.py` they use, over the real
numbers.
-/
namespace PyQC
open Matrix

/-- `np.linalg.norm` of a vector with three components. -/
noncomputable def norm3 (v : Fin 3 → ℝ) : ℝ := Real.sqrt (v ⬝ᵥ v)

open Classical in
/-- `point_on_segment` on perp coordinates, ico2/numericalc.py:108-120, dode2/numericalc.py:108-120. -/
noncomputable def pointOnSegmentNumerical (P A B : Fin 3 → ℝ) : Bool :=
  let vecPA := P - A
  let vecBA := B - A
  let lPA := norm3 vecPA
  let lBA := norm3 vecBA
  if lBA > 0 ∧ |vecPA ⬝ᵥ vecBA - lPA * lBA| < EPS then
    let s := lPA / lBA
    if s ≥ 0 ∧ s ≤ 1 then true else false
  else false

/-- `point_on_segment`, ico2/numericalc.py:84-120, dode2/numericalc.py:84-120. -/
noncomputable def pointOnSegment (p : Package) (point : Vec 6) (ln : Simplex 2) : Bool :=
  pointOnSegmentNumerical (p.internalNumerical point) (p.internalNumerical (ln 0)) (p.internalNumerical (ln 1))

/-- The combinations of `two_segment_into_one`, ico2/utils.py:1021-1025. -/
def segCombs : List (Fin 2 × Fin 2 × Fin 2 × Fin 2) :=
  [(0, 1, 0, 1), (0, 1, 1, 0), (1, 0, 0, 1), (1, 0, 1, 0)]

/-- The loop of `two_segment_into_one`, ico2/utils.py:1028-1043. -/
noncomputable def twoSegmentLoop (p : Package) (s t : Simplex 2) :
    List (Fin 2 × Fin 2 × Fin 2 × Fin 2) → Py (Option (Simplex 2))
  | [] => .ok none
  | (a, b, c, d) :: rest => do
    let eq ← equivalentVertices p (s a) (t c)
    if eq then
      let edgeNew : Simplex 2 := ![s b, t d]
      if pointOnSegment p (s a) edgeNew then .ok (some edgeNew) else twoSegmentLoop p s t rest
    else twoSegmentLoop p s t rest

/-- `two_segment_into_one`, ico2/utils.py:1019-1047, dode2/utils.py:742-770. -/
noncomputable def twoSegmentIntoOne (p : Package) (s t : Simplex 2) : Py (Option (Simplex 2)) :=
  twoSegmentLoop p s t segCombs

/-! ## Coplanarity -/

/-- Outcomes of the successive calls of `random.sample(lst0, 3)` for `n` points. -/
abbrev Draws (n : Nat) := List (Fin n × Fin n × Fin n)

open Classical in
/-- `coplanar_check_numeric`, ico2/numericalc.py:31-82, dode2/numericalc.py:31-82. `draws` are the triples
drawn, at most `num_iteration` of them; the first with a cross product not smaller than EPS in all
components is used; `none` models the returned `None`. -/
noncomputable def coplanarCheckNumeric (pns : List (Fin 3 → ℝ)) (draws : Draws pns.length) : Option Bool :=
  if pns.length > 3 then
    match draws.find? (fun d => !decide (∀ c, |((pns.get d.2.1 - pns.get d.1) ⨯₃ (pns.get d.2.2 - pns.get d.1)) c| < EPS)) with
    | none => none
    | some d =>
      let vec := (pns.get d.2.1 - pns.get d.1) ⨯₃ (pns.get d.2.2 - pns.get d.1)
      if ∀ i, i ≠ d.1 → i ≠ d.2.1 → i ≠ d.2.2 → |vec ⬝ᵥ (pns.get i - pns.get d.1)| < 1 / 10 ^ 10 then some true
      else some false
  else some true

/-- `coplanar_check_two_triangles`, ico2/utils.py:1049-1066, dode2/utils.py:772-789, with
`coplanar_check_numeric_tau`, ico2/numericalc.py:13-29. The draws may depend on the number of points left.
`None` counts as not coplanar. -/
noncomputable def coplanarCheckTwoTriangles (p : Package) (draws : (n : Nat) → Draws n) (s t : Simplex 3) :
    Py Bool := do
  let vtx ← removeDoublingPerp p (List.ofFn s ++ List.ofFn t)
  .ok (decide (coplanarCheckNumeric (vtx.map p.internalNumerical) (draws _) = some true))

/-- First group leader judged coplanar with triangle `i1`, ico2/utils.py:620-627. -/
def findLeader (cop : Nat → Nat → Py Bool) (i1 : Nat) : List Nat → Py (Option Nat)
  | [] => .ok none
  | i2 :: rest => do
    let b ← cop i1 i2
    if b then .ok (some i2) else findLeader cop i1 rest

/-- One pass of the loop over `i1`, ico2/utils.py:618-631: state is (lst_indx_group,
lst_indx_triangle). -/
def groupStep (cop : Nat → Nat → Py Bool) (st : List Nat × List Nat) (i1 : Nat) :
    Py (List Nat × List Nat) := do
  match ← findLeader cop i1 st.1 with
  | none => .ok (st.1 ++ [i1], st.2 ++ [i1])
  | some i2 => .ok (st.1, st.2 ++ [i2])

/-- `get_sets_of_coplanar_triangles`, ico2/utils.py:607-642, dode2/utils.py:394-429. The coplanarity test
of the triangles number `i1` and `i2` is a parameter, so that each of the calls, made at most once per
pair, may use its own random samples. -/
def setsOfCoplanar {α : Type} (cop : Nat → Nat → Py Bool) (surface : List α) : Py (List (List α)) := do
  let (lstGroup, lstTriangle) ←
    foldPy (groupStep cop) ([0], [0]) ((List.range surface.length).drop 1)
  .ok (lstGroup.map fun i1 =>
    (surface.zip lstTriangle).filterMap fun x => if i1 = x.2 then some x.1 else none)

/-- The test made by the code for the triangles number `i` and `j`, each call with its own random draws,
ico2/utils.py:620-624, dode2/utils.py:407-411. -/
noncomputable def surfaceCop (p : Package) (draws : Nat → Nat → (n : Nat) → Draws n) (surface : Obj 3)
    (i j : Nat) : Py Bool :=
  coplanarCheckTwoTriangles p (draws i j) (surface.getD i fun _ => zeroVec 6) (surface.getD j fun _ => zeroVec 6)

/-! ## Border edges -/

/-- The counting loop of `gen_border_edges_of_coplanar_triangles`, ico2/utils.py:655-662: number of edges
equal to the given one, at most 2. -/
def countEqual (p : Package) (e : Simplex 2) : Nat → Obj 2 → Py Nat
  | counter, [] => .ok counter
  | counter, f :: rest => do
    let b ← equivalentEdges p e f
    if b then
      if counter + 1 = 2 then .ok 2 else countEqual p e (counter + 1) rest
    else countEqual p e counter rest

/-- `gen_border_edges_of_coplanar_triangles`, ico2/utils.py:644-666, dode2/utils.py:431-453. -/
noncomputable def borderEdges (p : Package) (tri : Obj 3) : Py (Obj 2) := do
  let uniqueEdges ← generatorUniqueEdges p tri
  let edges := tri.flatMap triangleEdges
  let counts ← fillList (fun e => countEqual p e 0 edges) uniqueEdges
  .ok ((uniqueEdges.zip counts).filterMap fun x => if x.2 = 1 then some x.1 else none)

/-! ## The merging loop of `surface_cleaner` -/

/-- State of the loop, ico2/utils.py:570-573: all edges so far, indices still alive, next index. -/
structure MState (α : Type) where
  edges : List α
  lst : List Nat
  num : Nat

/-- `itertools.combinations(lst, 2)`. -/
def combos : List Nat → List (Nat × Nat)
  | [] => []
  | x :: xs => (xs.map fun y => (x, y)) ++ combos xs

/-- `edges_new[i]`. -/
def getIdx {α : Type} (l : List α) (i : Nat) : Py α :=
  match l[i]? with
  | some x => .ok x
  | none => .error .indexError

/-- The `for comb` loop, ico2/utils.py:580-586: the first pair that can be merged. -/
def findMerge {α : Type} (merge : α → α → Py (Option α)) (edges : List α) :
    List (Nat × Nat) → Py (Option (Nat × Nat × α))
  | [] => .ok none
  | (i, j) :: rest => do
    let a ← getIdx edges i
    let b ← getIdx edges j
    match ← merge a b with
    | none => findMerge merge edges rest
    | some c => .ok (some (i, j, c))

/-- Update after a merge, ico2/utils.py:587-595. -/
def MState.merged {α : Type} (s : MState α) (i j : Nat) (c : α) : MState α :=
  { edges := s.edges ++ [c], lst := (s.lst.filter fun x => !(x == i || x == j)) ++ [s.num], num := s.num + 1 }

theorem mem_combos_length {l : List Nat} {i j : Nat} (h : (i, j) ∈ combos l) :
    (l.filter fun x => !(x == i || x == j)).length + 2 ≤ l.length := by
  induction l with
  | nil => simp [combos] at h
  | cons x xs ih =>
    simp only [combos, List.mem_append, List.mem_map] at h
    rcases h with ⟨y, hy, e⟩ | h
    · obtain ⟨rfl, rfl⟩ := Prod.mk.inj e
      have h1 : (xs.filter fun z => !(z == x || z == y)).length < xs.length := by
        refine lt_of_le_of_ne (List.length_filter_le _ _) fun h => ?_
        have := (List.length_filter_eq_length_iff.mp h) y hy
        simp at this
      simp only [List.filter_cons, beq_self_eq_true, Bool.true_or, Bool.not_true, Bool.false_eq_true, if_false,
        List.length_cons]
      omega
    · have := ih h
      simp only [List.filter_cons, List.length_cons]
      split
      · simp only [List.length_cons]; omega
      · omega

theorem findMerge_mem {α : Type} {merge : α → α → Py (Option α)} {edges : List α} {l : List (Nat × Nat)}
    {i j : Nat} {c : α} (h : findMerge merge edges l = .ok (some (i, j, c))) : (i, j) ∈ l := by
  induction l with
  | nil => cases h
  | cons x rest ih =>
    obtain ⟨a, b⟩ := x
    unfold findMerge at h
    cases ha : getIdx edges a with
    | error e => rw [ha] at h; cases h
    | ok u =>
      rw [ha] at h
      cases hb : getIdx edges b with
      | error e => rw [hb] at h; cases h
      | ok v =>
        rw [hb] at h
        change (merge u v >>= _) = _ at h
        cases hm : merge u v with
        | error e => rw [hm] at h; cases h
        | ok r =>
          rw [hm] at h
          cases r with
          | none => exact List.mem_cons_of_mem _ (ih h)
          | some c' =>
            have h' : (Except.ok (some (a, b, c')) : Py _) = .ok (some (i, j, c)) := h
            injection h' with h'
            injection h' with h'
            obtain ⟨rfl, h2⟩ := Prod.mk.inj h'
            obtain ⟨rfl, -⟩ := Prod.mk.inj h2
            exact List.mem_cons_self

/-- The `while flag>0` loop, ico2/utils.py:574-597, dode2/utils.py:361-384. -/
def mergeLoop {α : Type} (merge : α → α → Py (Option α)) (s : MState α) : Py (MState α) :=
  match _h : findMerge merge s.edges (combos s.lst) with
  | .error e => .error e
  | .ok none => .ok s
  | .ok (some (i, j, c)) => mergeLoop merge (s.merged i j c)
termination_by s.lst.length
decreasing_by
  have := mem_combos_length (findMerge_mem _h)
  simp only [MState.merged, List.length_append, List.length_singleton]
  omega

/-- The merging part of `surface_cleaner`, ico2/utils.py:569-603, dode2/utils.py:356-390. -/
def mergeAll {α : Type} (merge : α → α → Py (Option α)) (edges : List α) : Py (List α) := do
  let s ← mergeLoop merge ⟨edges, List.range edges.length, edges.length⟩
  fillList (getIdx s.edges) s.lst

/-- `surface_cleaner`, ico2/utils.py:540-605, dode2/utils.py:327-392. If a group has no border edge,
`np.array([])` has the wrong number of dimensions and `np.vstack` or the unpacking of the shape raises
ValueError; here that is raised after all borders have been computed. -/
noncomputable def surfaceCleaner (p : Package) (cop : Nat → Nat → Py Bool) (surface : Obj 3) : Py (Obj 2) := do
  let lstSets ← setsOfCoplanar cop surface
  let borders ← fillList (borderEdges p) lstSets
  if borders.any List.isEmpty then .error .valueError
  else
    let edges ← generatorUniqueEdges p borders.flatten
    mergeAll (twoSegmentIntoOne p) edges

end PyQC
