import Verif.Lemmas.MachineVolume
import Verif.Lemmas.Lapack
/-!
# C90, C91: symmetric copies, shifts, centroids and volumes with machine numbers

The functions run with int64 integers that wrap around, with true division and truncation in floating point, and with
comparisons of rounded numbers. For objects whose coordinates have a common denominator `d` and numerators up to `N`
(`Spec/Machine.lean`), in a stated range of `d` and `N`, they return exactly what they return with unbounded integers and
real numbers.
-/
namespace PyQC
open Machine

section
variable {d N : Int}

theorem sizes_linear (hd : 0 < d) (hd2 : d ≤ 2 ^ 25) (h : N * d ≤ 2 ^ 49) : 13 * N * d ≤ top ∧ 4 * d * d ≤ top := by
  have etop : (top : Int) = 2 ^ 53 := rfl
  rw [etop]
  constructor
  · norm_num at h ⊢; linarith
  · norm_num at hd2 ⊢; nlinarith

/-- C90, `symmetric`: with machine numbers the same pieces are returned as with unbounded integers. -/
theorem C90_symmetric (p : Package) {m : Nat} (o : Obj m) (c : Vec 6) (hd : 0 < d) (hd2 : d ≤ 2 ^ 25) (h : N * d ≤ 2 ^ 49)
    (ho : ObjOnGrid d N o) (hc : VecOnGrid d N c) : Machine.symmetricApi p (.d4 o) c = PyQC.symmetricApi p (.d4 o) c := by
  obtain ⟨h1, h2⟩ := sizes_linear hd hd2 h
  have key : Same (fillList (fun op => Machine.symopObj p op o c) p.symops)
      (fillList (fun op => PyQC.symopObj p op o c) p.symops) _ :=
    Same.fillList fun op hop => Same.fillList fun s hs => grid_symopVecs p (symops_small p op hop) (ho s hs) hc hd h1 h2
  obtain ⟨r, e1, e2, -⟩ := key
  simp only [Machine.symmetricApi, PyQC.symmetricApi, PyQC.symmetricObj, e1, e2, bind_ok']

/-- C90, `symmetric` on a single piece. -/
theorem C90_symmetric_piece (p : Package) {m : Nat} (s : Simplex m) (c : Vec 6) (hd : 0 < d) (hd2 : d ≤ 2 ^ 25)
    (h : N * d ≤ 2 ^ 49) (hs : ∀ i, VecOnGrid d N (s i)) (hc : VecOnGrid d N c) :
    Machine.symmetricApi p (.d3 s) c = PyQC.symmetricApi p (.d3 s) c := by
  obtain ⟨h1, h2⟩ := sizes_linear hd hd2 h
  have key : Same (fillList (fun op => Machine.symopVecs p op s c) p.symops)
      (fillList (fun op => PyQC.symopVecs p op s c) p.symops) _ :=
    Same.fillList fun op hop => grid_symopVecs p (symops_small p op hop) hs hc hd h1 h2
  obtain ⟨r, e1, e2, -⟩ := key
  simp only [Machine.symmetricApi, PyQC.symmetricApi, PyQC.symmetricPiece, e1, e2, bind_ok']

/-- C90, `shift`. -/
theorem C90_shift (p : Package) {m : Nat} (o : Obj m) (t : Vec 6) (hd : 0 < d) (hd2 : d ≤ 2 ^ 25) (h : N * d ≤ 2 ^ 49)
    (ho : ObjOnGrid d N o) (ht : VecOnGrid d N t) : Machine.shiftApi p (.d4 o) t = PyQC.shiftApi p (.d4 o) t := by
  obtain ⟨-, h2⟩ := sizes_linear hd hd2 h
  have etop : (top : Int) = 9007199254740992 := by norm_num [top]
  norm_num at h hd2
  have key : Same (fillList (fun s : Simplex m => fillFin m fun i => addVectors (Machine.arith p) (s i) t) o)
      (PyQC.shiftObj p o t) _ :=
    Same.fillList fun s hs => Same.fillFin fun i => grid_addVectors p (ho s hs i) ht hd (by rw [etop]; linarith)
      (by rw [etop]; linarith) (by nlinarith)
  obtain ⟨r, e1, e2, -⟩ := key
  simp only [Machine.shiftApi, PyQC.shiftApi, e1, e2, bind_ok']

/-- C90, the projection to internal space. -/
theorem C90_projection (p : Package) (v : Vec 6) (hd : 0 < d) (hd2 : d ≤ 2 ^ 24) (h : N * d ≤ 2 ^ 47) (hv : VecOnGrid d N v) :
    Machine.projection3 p v = p.projection3 v := by
  have etop : (top : Int) = 9007199254740992 := by norm_num [top]
  norm_num at h hd2
  have hN : 0 ≤ N * d := mul_nonneg ((hv 0).bounds hd).2.2.2.2.1 hd.le
  cases p
  · exact (grid_projection_ico hv hd (by rw [etop]; linarith) (by rw [etop]; nlinarith)).eq
  · exact (grid_projection_dode hv hd (by rw [etop]; linarith) (by rw [etop]; nlinarith)).eq

/-- C90, `centroid` of a non-empty list of points. -/
theorem C90_centroid (p : Package) (l : List (Vec 6)) (hl : l ≠ []) (hd : 0 < d) (hd2 : d ≤ 2 ^ 25)
    (h : l.length * (N * d) ≤ 2 ^ 51) (h2 : l.length * d ≤ 2 ^ 51) (hv : ∀ v ∈ l, VecOnGrid d N v) :
    centroid (Machine.arith p) l = centroid p.arith l := by
  have etop : (top : Int) = 9007199254740992 := by norm_num [top]
  obtain ⟨v0, hv0⟩ := List.exists_mem_of_ne_nil l hl
  have hN : 0 ≤ N := ((hv v0 hv0 0).bounds hd).2.2.2.2.1
  have hlen : (0 : Int) ≤ l.length := by positivity
  have hlN : 0 ≤ l.length * N := mul_nonneg hlen hN
  norm_num at h h2 hd2
  exact (grid_centroid p hl hv hd (by rw [etop]; linarith) (by rw [etop]; nlinarith) (by rw [etop]; linarith)
    (by rw [etop]; nlinarith)).eq

/-- C90, `centroid_obj` of a non-empty object of pieces with `m` corners. -/
theorem C90_centroid_obj (p : Package) {m : Nat} (hm : 0 < m) (o : Obj m) (ho : o ≠ []) (hd : 0 < d)
    (hd2 : m * d ≤ 2 ^ 25) (h : o.length * (m * m) * (N * d) ≤ 2 ^ 51) (h2 : o.length * (m * d) ≤ 2 ^ 51) (hv : ObjOnGrid d N o) :
    centroidObj (Machine.arith p) o = centroidObj p.arith o := by
  have etop : (top : Int) = 9007199254740992 := by norm_num [top]
  obtain ⟨s0, hs0⟩ := List.exists_mem_of_ne_nil o ho
  have hN : 0 ≤ N := ((hv s0 hs0 ⟨0, hm⟩ 0).bounds hd).2.2.2.2.1
  have hm1 : (1 : Int) ≤ m := by exact_mod_cast hm
  have hlen : (0 : Int) ≤ o.length := by positivity
  have hmd : 0 < m * d := by positivity
  have hlN : 0 ≤ o.length * m * N := by positivity
  have hk : 1 ≤ m * d := hmd
  norm_num at h h2 hd2
  refine (grid_centroidObj p ho hm hv hd ?_ ?_ ?_ ?_).eq
  · rw [etop]; linarith
  · rw [etop]; nlinarith
  · rw [etop]; linarith
  · rw [etop]
    have : (o.length : Int) * m * N ≤ o.length * m * N * (m * d) := le_mul_of_one_le_right hlN hk
    linarith

/-- C91, `volume` of ico2, with the sign test in rounded arithmetic: machine numbers give the exact volume, when the
coordinates are small (`N ≤ 6`), or when every tetrahedron is flat or has a volume of at least `1 / (4 · 10^10)` of the cube
of the size `N / d`. -/
theorem C91_volume (F : Float64) (o : Obj 4) (hd : 0 < d) (hdN : d ≤ N) (hn : o.length * (N * d) ^ 3 ≤ 10 ^ 10)
    (ho : ObjOnGrid d N o)
    (hgap : N ≤ 6 ∨ ∀ s ∈ o, tetVol (Package.ico.perps s) = 0 ∨ ((N : ℝ) / d) ^ 3 / (4 * 10 ^ 10) ≤ tetVol (Package.ico.perps s)) :
    F.objVolume6d (.d4 o) = PyQC.Ico.objVolume6d (.d4 o) ∧
    ∃ w : Num3, F.objVolume6d (.d4 o) = .ok (some w) ∧ w.val tau = (o.map fun s => tetVol (Package.ico.perps s)).sum := by
  obtain ⟨w, e1, e2, -⟩ := grid_sumVolumes F hd hdN hn ho hgap
  have m : F.objVolume6d (.d4 o) = .ok (some w) := by simp only [Float64.objVolume6d, e1, bind_ok']
  have x : PyQC.Ico.objVolume6d (.d4 o) = .ok (some w) := by simp only [PyQC.Ico.objVolume6d, e2, bind_ok']
  refine ⟨m.trans x.symm, w, m, ?_⟩
  have hok : ∀ s ∈ o, Simplex.Ok s := fun s hs i => (ho s hs i).ok hd
  have hs := sumVolumes_ok hok 0
  rw [norm_zero] at hs
  rw [hs] at e2
  cases e2
  refine (val_norm _).trans ?_
  rw [zero_add]
  clear hs m x e1 hok hgap ho hn
  induction o with
  | nil => rfl
  | cons s o ih => rw [List.map_cons, List.sum_cons, List.map_cons, List.sum_cons, ← ih, ← coe_kvol]; rfl

/-- C91, `volume` of dode2: machine numbers give the exact area, when the coordinates are small (`N ≤ 34`), or when every
triangle is degenerate or has an area of at least `1 / (8 · 10^12)` of the square of the size `N / d`. -/
theorem C91_area (F : Float64) (o : Obj 3) (hd : 0 < d) (hdN : d ≤ N) (hn : o.length * (N * d) ^ 2 ≤ 6 * 10 ^ 9)
    (ho : ObjOnGrid d N o)
    (hgap : N ≤ 34 ∨ ∀ s ∈ o, triAreaXY (Package.dode.perps s) = 0 ∨
      ((N : ℝ) / d) ^ 2 / (8 * 10 ^ 12) ≤ triAreaXY (Package.dode.perps s)) :
    F.objArea6d (.d4 o) = PyQC.Dode.objArea6d (.d4 o) ∧
    ∃ w : Num3, F.objArea6d (.d4 o) = .ok (some w) ∧ w.val sin60 = (o.map fun s => triAreaXY (Package.dode.perps s)).sum := by
  obtain ⟨w, e1, e2, -⟩ := grid_sumAreas F hd hdN hn ho hgap
  have m : F.objArea6d (.d4 o) = .ok (some w) := by simp only [Float64.objArea6d, e1, bind_ok']
  have x : PyQC.Dode.objArea6d (.d4 o) = .ok (some w) := by simp only [PyQC.Dode.objArea6d, e2, bind_ok']
  refine ⟨m.trans x.symm, w, m, ?_⟩
  have hok : ∀ s ∈ o, Simplex.Ok s := fun s hs i => (ho s hs i).ok hd
  have hs := sumAreas_ok hok 0
  rw [norm_zero] at hs
  rw [hs] at e2
  cases e2
  refine (val_norm _).trans ?_
  rw [zero_add]
  clear hs m x e1 hok hgap ho hn
  induction o with
  | nil => rfl
  | cons s o ih => rw [List.map_cons, List.sum_cons, List.map_cons, List.sum_cons, ← ih, ← coe_karea]; rfl

end

/-! ## Outside the range -/

/-- A corner of a large tetrahedron: `k` times a lattice vector. -/
def axisPoint (k : Int) (s : Fin 6 → Int) : Vec 6 := fun i => ⟨k * s i, 0, 1⟩

/-- A tetrahedron with three edges of length about `2^22` along the axes of internal space. -/
def bigTetra : Simplex 4 :=
  ![axisPoint 0 ![0, 0, 0, 0, 0, 0], axisPoint (2 ^ 21) ![0, 1, 1, 0, 0, 0], axisPoint (2 ^ 21) ![1, 0, 0, 0, 1, 0],
    axisPoint (2 ^ 21) ![0, 0, 0, 1, 0, -1]]

/-- The projections of its corners. -/
def bigPerp : Fin 4 → Vec 3 :=
  ![![⟨0, 0, 1⟩, ⟨0, 0, 1⟩, ⟨0, 0, 1⟩], ![⟨-2 ^ 22, 0, 1⟩, ⟨0, 0, 1⟩, ⟨0, 0, 1⟩], ![⟨0, 0, 1⟩, ⟨-2 ^ 22, 0, 1⟩, ⟨0, 0, 1⟩],
    ![⟨0, 0, 1⟩, ⟨0, 0, 1⟩, ⟨2 ^ 22, 0, 1⟩]]

theorem bind_to {α β : Type} {m : Py α} {f : α → Py β} {r : α} {x : Py β} (h : m = .ok r) (h2 : f r = x) : (m >>= f) = x := by
  rw [h]; exact h2

/-- C91 beyond the range: with coordinates of size `2^21` the triple product `2^66` wraps around to 0. The computed volume of
this tetrahedron is zero; with unbounded integers `volume` returns `2^66 / 6`. -/
theorem C91_wrap (F : Float64) : F.objVolume6d (.d4 [bigTetra]) = .ok (some ⟨0, 0, 1⟩) ∧
    PyQC.Ico.objVolume6d (.d4 [bigTetra]) = .ok (some ⟨2 ^ 65, 0, 3⟩) := by
  have hv : F.icoVolume6d bigTetra = .ok ⟨0, 0, 1⟩ := by
    unfold Float64.icoVolume6d Float64.icoVolume
    refine bind_to (r := bigPerp) (by decide +kernel) ?_
    refine bind_to (r := bigPerp 1) (by decide +kernel) ?_
    refine bind_to (r := bigPerp 2) (by decide +kernel) ?_
    refine bind_to (r := bigPerp 3) (by decide +kernel) ?_
    refine bind_to (r := ![⟨0, 0, 1⟩, ⟨0, 0, 1⟩, ⟨2 ^ 44, 0, 1⟩]) (by decide +kernel) ?_
    refine bind_to (r := some ⟨0, 0, 1⟩) (by decide +kernel) ?_
    refine bind_to (r := ⟨0, 0, 1⟩) rfl ?_
    have m1 : Machine.Ico.mul ⟨0, 0, 1⟩ ⟨-1, 0, 6⟩ = .ok ⟨0, 0, 1⟩ := by decide +kernel
    have m2 : Machine.Ico.mul ⟨0, 0, 1⟩ ⟨1, 0, 6⟩ = .ok ⟨0, 0, 1⟩ := by decide +kernel
    rw [m1, m2, ite_self]
  have ht : PyQC.Ico.asTetra bigTetra = .ok bigTetra := by simp [PyQC.Ico.asTetra]
  constructor
  · have hs : F.sumVolumes ⟨0, 0, 1⟩ [bigTetra] = .ok ⟨0, 0, 1⟩ := by
      have h1 : ∀ f : Num3 → Simplex 4 → Py Num3, f ⟨0, 0, 1⟩ bigTetra = .ok ⟨0, 0, 1⟩ →
          foldPy f ⟨0, 0, 1⟩ [bigTetra] = .ok ⟨0, 0, 1⟩ := by
        intro f hf
        simp only [foldPy, hf]
      exact h1 _ (bind_to ht (bind_to hv (by decide +kernel)))
    exact bind_to hs rfl
  · have : PyQC.Ico.sumVolumes ⟨0, 0, 1⟩ [bigTetra] = .ok ⟨2 ^ 65, 0, 3⟩ := by decide +kernel
    exact bind_to this rfl

/-- C90 beyond the range: shifting a point by itself can turn it to the other side of the origin. -/
theorem C90_wrap : Machine.shiftApi .ico (.d4 [fun _ : Fin 1 => fun _ => ⟨2 ^ 62, 0, 1⟩]) (fun _ => ⟨2 ^ 62, 0, 1⟩) =
      .ok (some (.d4 [fun _ : Fin 1 => fun _ => ⟨-2 ^ 63, 0, 1⟩])) ∧
    PyQC.shiftApi .ico (.d4 [fun _ : Fin 1 => fun _ => ⟨2 ^ 62, 0, 1⟩]) (fun _ => ⟨2 ^ 62, 0, 1⟩) =
      .ok (some (.d4 [fun _ : Fin 1 => fun _ => ⟨2 ^ 63, 0, 1⟩])) := by
  have e1 : (Machine.arith .ico).add ⟨2 ^ 62, 0, 1⟩ ⟨2 ^ 62, 0, 1⟩ = .ok ⟨-2 ^ 63, 0, 1⟩ := by decide +kernel
  have e2 : Package.ico.arith.add ⟨2 ^ 62, 0, 1⟩ ⟨2 ^ 62, 0, 1⟩ = .ok ⟨2 ^ 63, 0, 1⟩ := by decide +kernel
  have h1 : ∀ (f : Simplex 1 → Py (Simplex 1)) {x y : Simplex 1}, f x = .ok y → fillList f [x] = .ok [y] := by
    intro f x y hf
    simp only [fillList, hf]
  constructor
  · exact bind_to (h1 _ (fillFin_ok (g := fun _ => fun _ => ⟨-2 ^ 63, 0, 1⟩) fun _ => fillFin_ok fun _ => e1)) rfl
  · exact bind_to (h1 _ (fillFin_ok (g := fun _ => fun _ => ⟨2 ^ 63, 0, 1⟩) fun _ => fillFin_ok fun _ => e2)) rfl

/-! ## Examples -/

/-- A tetrahedron with half-integer and golden coordinates. -/
def smallTetra : Simplex 4 :=
  ![fun _ => ⟨0, 0, 1⟩, ![⟨1, 0, 2⟩, ⟨0, 0, 1⟩, ⟨0, 1, 2⟩, ⟨0, 0, 1⟩, ⟨0, 0, 1⟩, ⟨-1, 0, 1⟩],
    ![⟨0, 0, 1⟩, ⟨1, 1, 2⟩, ⟨0, 0, 1⟩, ⟨1, -1, 1⟩, ⟨0, 0, 1⟩, ⟨0, 0, 1⟩], ![⟨0, 0, 1⟩, ⟨0, 0, 1⟩, ⟨1, 0, 1⟩, ⟨0, 0, 1⟩, ⟨2, 0, 1⟩, ⟨1, 0, 2⟩]]

theorem smallTetra_grid : ObjOnGrid 2 4 [smallTetra, smallTetra] := by
  have key : ∀ i j, OnGrid 2 4 4 (smallTetra i j) := by
    intro i j
    have : ∀ i j, (smallTetra i j).c * (2 / (smallTetra i j).c) = 2 ∧
      |(smallTetra i j).a * (2 / (smallTetra i j).c)| ≤ 4 ∧ |(smallTetra i j).b * (2 / (smallTetra i j).c)| ≤ 4 := by decide +kernel
    exact ⟨_, this i j⟩
  intro s hs i j
  simp only [List.mem_cons, List.not_mem_nil, or_false, or_self] at hs
  rw [hs]
  exact key i j

/-- C90 and C91 apply to it, in the unconditional range `N ≤ 6`. -/
example (p : Package) : Machine.symmetricApi p (.d4 [smallTetra, smallTetra]) (smallTetra 1) =
    PyQC.symmetricApi p (.d4 [smallTetra, smallTetra]) (smallTetra 1) :=
  C90_symmetric p _ _ (d := 2) (N := 4) (by norm_num) (by norm_num) (by norm_num) smallTetra_grid
    (smallTetra_grid smallTetra (by simp) 1)
example (F : Float64) : F.objVolume6d (.d4 [smallTetra, smallTetra]) = PyQC.Ico.objVolume6d (.d4 [smallTetra, smallTetra]) :=
  (C91_volume F _ (d := 2) (N := 4) (by norm_num) (by norm_num) (by norm_num) smallTetra_grid (Or.inl (by norm_num))).1
example : PyQC.Ico.tetrahedronVolume6d smallTetra ≠ .ok ⟨0, 0, 1⟩ := by decide +kernel

/-- In the range of larger coordinates the condition on the volume is weak: with half-integer coordinates up to 500 every
tetrahedron of volume at least 1/100 is covered. -/
example (F : Float64) (t : Simplex 4) (ht : ObjOnGrid 2 1000 [t]) (hv : 1 / 100 ≤ tetVol (Package.ico.perps t)) :
    F.objVolume6d (.d4 [t]) = PyQC.Ico.objVolume6d (.d4 [t]) := by
  refine (C91_volume F [t] (d := 2) (N := 1000) (by norm_num) (by norm_num) (by norm_num) ht (Or.inr fun s hs => Or.inr ?_)).1
  rw [List.mem_singleton] at hs
  rw [hs]
  refine le_trans ?_ hv
  norm_num

example (p : Package) : Machine.shiftApi p (.d4 [smallTetra, smallTetra]) (smallTetra 2) =
    PyQC.shiftApi p (.d4 [smallTetra, smallTetra]) (smallTetra 2) :=
  C90_shift p _ _ (d := 2) (N := 4) (by norm_num) (by norm_num) (by norm_num) smallTetra_grid (smallTetra_grid smallTetra (by simp) 2)
example (p : Package) : Machine.projection3 p (smallTetra 1) = p.projection3 (smallTetra 1) :=
  C90_projection p _ (d := 2) (N := 4) (by norm_num) (by norm_num) (by norm_num) (smallTetra_grid smallTetra (by simp) 1)
example (p : Package) : centroid (Machine.arith p) [smallTetra 1, smallTetra 2, smallTetra 3] =
    centroid p.arith [smallTetra 1, smallTetra 2, smallTetra 3] :=
  C90_centroid p _ (by simp) (d := 2) (N := 4) (by norm_num) (by norm_num) (by norm_num) (by norm_num) fun v hv => by
    simp only [List.mem_cons, List.not_mem_nil, or_false] at hv
    rcases hv with rfl | rfl | rfl <;> exact smallTetra_grid smallTetra (by simp) _
example (p : Package) : centroidObj (Machine.arith p) [smallTetra, smallTetra] = centroidObj p.arith [smallTetra, smallTetra] :=
  C90_centroid_obj p (by norm_num) _ (by simp) (d := 2) (N := 4) (by norm_num) (by norm_num) (by norm_num) (by norm_num) smallTetra_grid

/-- A triangle of the dodecagonal package. -/
def smallTri : Simplex 3 := ![smallTetra 0, smallTetra 1, smallTetra 2]

theorem smallTri_grid : ObjOnGrid 2 4 [smallTri] := by
  intro s hs i
  rw [List.mem_singleton] at hs
  rw [hs]
  fin_cases i
  · exact smallTetra_grid smallTetra (by simp) 0
  · exact smallTetra_grid smallTetra (by simp) 1
  · exact smallTetra_grid smallTetra (by simp) 2
example (F : Float64) : F.objArea6d (.d4 [smallTri]) = PyQC.Dode.objArea6d (.d4 [smallTri]) :=
  (C91_area F _ (d := 2) (N := 4) (by norm_num) (by norm_num) (by norm_num) smallTri_grid (Or.inl (by norm_num))).1
example : PyQC.Dode.triangleArea6d smallTri ≠ .ok ⟨0, 0, 1⟩ := by decide +kernel

/-- Rounding with the bounds required of `Float64` exists. -/
noncomputable example : Float64 := Rounding.binary64.float64

end PyQC
