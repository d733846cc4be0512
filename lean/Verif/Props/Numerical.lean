import Verif.Model.Rest
import Verif.Props.OnSurface
import Verif.Props.Projection
import Verif.Props.Symmetry
import Verif.Props.Vector
import Verif.Props.Volume
import Verif.Props.Hull
/-!
# C81: the numerical helpers compute the same quantities as the exact ones (in real arithmetic)
-/
namespace PyQC
open Matrix

theorem foldl_add_sum {α : Type} (f : α → ℝ) (l : List α) : l.foldl (fun v t => v + f t) 0 = (l.map f).sum := by
  rw [← List.foldl_map (f := f) (g := fun a b => a + b), ← List.sum_eq_foldl]

theorem tetrahedronVolumeNumerical_eq (q : Fin 4 → Fin 3 → ℝ) : Ico.tetrahedronVolumeNumerical q = tetVol q := by
  unfold Ico.tetrahedronVolumeNumerical tetVol
  congr 3
  ext i j
  fin_cases i <;> rfl

/-- C81: `obj_volume_numerical` adds up the volumes of the tetrahedra it is given. -/
theorem C81_volume (o : List (Fin 4 → Fin 3 → ℝ)) : Ico.objVolumeNumerical o = (o.map tetVol).sum := by
  unfold Ico.objVolumeNumerical
  rw [foldl_add_sum, funext tetrahedronVolumeNumerical_eq]

/-- C81: on the perp points of an object it is the value of the exact volume. -/
theorem C81_volume_exact (o : Obj 4) (h : Obj.Ok o) :
    ∃ w, Ico.objVolume6d (.d4 o) = .ok (some w) ∧
      Ico.objVolumeNumerical (o.map fun t i => Package.ico.internalNumerical (t i)) = w.val tau := by
  obtain ⟨w, hw, -, hv⟩ := C17_volume o h
  refine ⟨w, hw, ?_⟩
  rw [C81_volume, List.map_map, hv]
  congr 1
  apply List.map_congr_left
  intro t _
  simp only [Function.comp, Package.internalNumerical_eq]
  rfl

/-- C81: `triangle_area` of three exact points is the area of the triangle. -/
theorem C81_triangle_area (p : Package) (a : Fin 3 → Vec 3) :
    triangleAreaTau p a = triArea fun i => p.val (a i) := by
  have e : ∀ v : Vec 3, p.numericalVector3 v = p.val v := by intro v; cases p <;> rfl
  have := areaNum_eq fun i => p.val (a i)
  rw [← this]
  unfold triangleAreaTau Ico.triangleAreaNumerical
  simp only [e]

/-- C81: dode2 `obj_volume_6d_numerical` is the sum of the areas of the perp triangles. -/
theorem C81_dode_area (o : Obj 3) :
    Dode.objVolume6dNumerical o = (o.map fun t => triArea (Package.dode.perps t)).sum := by
  unfold Dode.objVolume6dNumerical
  rw [foldl_add_sum]
  congr 1
  apply List.map_congr_left
  intro t _
  unfold Dode.triangleVolume6dNumerical
  rw [areaNum_eq]
  simp only [Package.internalNumerical_eq]
  rfl

/-- C81: if the corners of each triangle have the same last coordinate, as in every occupation domain of the package,
it is the value of the exact area. -/
theorem C81_dode_area_exact (o : Obj 3) (h : Obj.Ok o)
    (hz : ∀ t ∈ o, ∀ i, (t i 5).val sin60 = (t 0 5).val sin60) :
    ∃ w, Dode.objArea6d (.d4 o) = .ok (some w) ∧ Dode.objVolume6dNumerical o = w.val sin60 := by
  obtain ⟨⟨w, hw, -, hv⟩, -⟩ := C43_object o h
  refine ⟨w, hw, ?_⟩
  rw [C81_dode_area, hv]
  congr 1
  apply List.map_congr_left
  intro t ht
  obtain ⟨u, -, -, hu, -, hu'⟩ := C43_area t (h t ht)
  rw [← hu, hu' (hz t ht 1) (hz t ht 2)]

/-- C81: without that condition the numerical function never reports less than the exact one. -/
theorem C81_dode_area_le (o : Obj 3) (h : Obj.Ok o) :
    ∃ w, Dode.objArea6d (.d4 o) = .ok (some w) ∧ w.val sin60 ≤ Dode.objVolume6dNumerical o := by
  obtain ⟨⟨w, hw, -, hv⟩, -⟩ := C43_object o h
  refine ⟨w, hw, ?_⟩
  rw [C81_dode_area, hv]
  apply List.sum_le_sum
  intro t _
  generalize Package.dode.perps t = q
  unfold triAreaXY triArea
  gcongr
  rw [← Real.sqrt_sq_eq_abs]
  apply Real.sqrt_le_sqrt
  rw [cross_apply]
  simp only [dotProduct, Fin.sum_univ_three, Pi.sub_apply, Matrix.cons_val]
  nlinarith [sq_nonneg ((q 1 1 - q 0 1) * (q 2 2 - q 0 2) - (q 1 2 - q 0 2) * (q 2 1 - q 0 1)),
    sq_nonneg ((q 1 2 - q 0 2) * (q 2 0 - q 0 0) - (q 1 0 - q 0 0) * (q 2 2 - q 0 2))]

/-- C81: the set versions of the projections give for each row, in order, the parallel and perpendicular coordinates. -/
theorem C81_projection_sets (p : Package) (vts : List (Vec 6)) :
    projection3SetsNumerical p (vts.map (numericalVector p.theta)) = vts.map p.perp ∧
    projectionSetsNumerical p (vts.map (numericalVector p.theta)) =
      vts.map (fun v => Fin.append (p.par v) (p.perp v) : Vec 6 → Fin (3 + 3) → ℝ) := by
  constructor
  · unfold projection3SetsNumerical
    rw [List.map_map]
    apply List.map_congr_left
    intro v _
    rw [← (C11_numerical p v).1]
    cases p <;> rfl
  · unfold projectionSetsNumerical
    rw [List.map_map]
    apply List.map_congr_left
    intro v _
    obtain ⟨-, h1, h2⟩ := C11_numerical p v
    have e : ∀ x, p.projNumerical x = p.projectionNumerical x := by intro x; cases p <;> rfl
    funext i
    refine Fin.addCases (m := 3) (n := 3) (fun i => ?_) (fun i => ?_) i
    · rw [Fin.append_left, ← h1 i, Function.comp, e]; rfl
    · rw [Fin.append_right, ← h2 i, Function.comp, e]

/-- C81: `inner_product_numerical` of the real coordinates is the value of the exact `inner_product`. -/
theorem C81_inner (p : Package) {n : Nat} (v w : Vec n) (hv : Vec.Ok v) (hw : Vec.Ok w) :
    ∃ r, innerProduct p.arith v w = .ok (some r) ∧
      innerProductNumerical (numericalVector p.theta v) (numericalVector p.theta w) = r.val p.theta := by
  obtain ⟨r, hr, h, -⟩ := C09_inner p v w hv hw
  exact ⟨r, hr, h.symm⟩

/-- C81: `matrix_dot` is the matrix product: applying the product to a vector is applying the second matrix and then the
first. -/
theorem C81_matrix_dot {k m n : Nat} (a : Matrix (Fin k) (Fin m) ℝ) (b : Matrix (Fin m) (Fin n) ℝ) :
    matrixDot a b = a * b ∧ ∀ x, (matrixDot a b).mulVec x = a.mulVec (b.mulVec x) := by
  have : matrixDot a b = a * b := by ext i j; rfl
  exact ⟨this, fun x => by rw [this, Matrix.mulVec_mulVec]⟩

/-- The corner tetrahedron of the examples has numerical volume 1/6, and the example triangle meets the condition on
the last coordinate. -/
example : Ico.objVolumeNumerical [![![0, 0, 0], ![1, 0, 0], ![0, 1, 0], ![0, 0, 1]], ![![0, 0, 0], ![2, 0, 0],
    ![0, 1, 0], ![0, 0, 1]]] = 1 / 2 := by
  rw [C81_volume]
  simp [tetVol, Matrix.det_fin_three]
  norm_num

example : Obj.Ok [exTri] ∧ ∀ t ∈ [exTri], ∀ i, (t i 5).val sin60 = (t 0 5).val sin60 := by
  constructor
  · intro s hs
    rw [List.mem_singleton] at hs
    subst hs
    intro i j
    fin_cases i <;> fin_cases j <;> decide
  · intro t ht i
    rw [List.mem_singleton] at ht
    subst ht
    fin_cases i <;> rfl

end PyQC
