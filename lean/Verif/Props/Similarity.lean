import Verif.Lemmas.Similarity
import Verif.Props.Symmetry
/-!
# C44: similarity transformations of dode2
-/
namespace PyQC
open Matrix

/-- C44: similarity by `n` followed by similarity by `m` is similarity by `m+n`, as exact equality of
the returned triples, for all integers of either sign. -/
theorem C44_compose (v : Vec 6) (m n : Int) (hv : Vec.Ok v) :
    ∃ w, Dode.similarityVec v n = .ok w ∧ Dode.similarityVec w m = Dode.similarityVec v (m + n) := by
  refine ⟨_, similarityVec_ok hv n, ?_⟩
  rw [similarityVec_ok (nvec_ok _), similarityVec_ok hv, kvec_nvec, ksim_add]

/-- C44: the same for whole objects (any number of pieces and of vertices per piece). -/
theorem C44_compose_obj {k : Nat} (o : Obj k) (m n : Int) (ho : Obj.Ok o) :
    ∃ r, Dode.similarityObj o n = .ok r ∧ r.length = o.length ∧
      Dode.similarityObj r m = Dode.similarityObj o (m + n) := by
  refine ⟨_, similarityObj_ok ho n, by simp, ?_⟩
  rw [similarityObj_ok ho, similarityObj_ok]
  · rw [List.map_map]
    congr 2
    funext s i
    simp only [Function.comp, kvec_nvec, ksim_add]
  · intro s hs
    obtain ⟨t, -, rfl⟩ := List.mem_map.mp hs
    exact fun i => nvec_ok _

/-- C44: similarity by 0 changes no value, and similarity by `-m` undoes similarity by `m`: the result
has the coordinates of the input in lowest terms (so it is the input when that is in lowest terms). -/
theorem C44_inverse (v : Vec 6) (m : Int) (hv : Vec.Ok v) :
    (∃ w, Dode.similarityVec v 0 = .ok w ∧ Vec.Canon w ∧ Package.dode.val w = Package.dode.val v) ∧
    ∃ w u, Dode.similarityVec v m = .ok w ∧ Dode.similarityVec w (-m) = .ok u ∧ Vec.Canon u ∧
      Package.dode.val u = Package.dode.val v ∧ (Vec.Canon v → u = v) := by
  refine ⟨⟨_, similarityVec_ok hv 0, nvec_canon _, ?_⟩, _, nvec (kvec Package.dode.theta v), similarityVec_ok hv m, ?_,
    nvec_canon _, ?_, fun h => nvec_kvec h⟩
  · rw [ksim_zero]; unfold Package.val; rw [val_nvec, coe_kvec]
  · rw [similarityVec_ok (nvec_ok _), kvec_nvec, ksim_add, neg_add_cancel, ksim_zero]
  · unfold Package.val; rw [val_nvec, coe_kvec]

/-- C44: linearity, as exact equality of triples: the image of a sum is the sum of the images and the
image of a multiple is the multiple of the image. -/
theorem C44_linear (v w : Vec 6) (k : Num3) (m : Int) (hv : Vec.Ok v) (hw : Vec.Ok w) (hk : k.c ≠ 0) :
    (∃ s v' w', addVectors Dode.arith v w = .ok s ∧ Dode.similarityVec v m = .ok v' ∧
      Dode.similarityVec w m = .ok w' ∧
      Dode.similarityVec s m = addVectors Dode.arith v' w') ∧
    (∃ s v', mulVector Dode.arith v k = .ok s ∧ Dode.similarityVec v m = .ok v' ∧
      Dode.similarityVec s m = mulVector Dode.arith v' k) := by
  constructor
  · refine ⟨_, _, _, addVectors_ok Package.dode.lawful hv hw, similarityVec_ok hv m,
      similarityVec_ok hw m, ?_⟩
    rw [similarityVec_ok (nvec_ok _)]
    refine Eq.trans ?_ (addVectors_ok Package.dode.lawful (nvec_ok _) (nvec_ok _)).symm
    congr 2
    simp only [kvec_nvec]
    exact Matrix.mulVec_add _ _ _
  · refine ⟨_, _, mulVector_ok Package.dode.lawful hv hk, similarityVec_ok hv m, ?_⟩
    rw [similarityVec_ok (nvec_ok _)]
    refine Eq.trans ?_ (mulVector_ok Package.dode.lawful (nvec_ok _) hk).symm
    congr 2
    simp only [kvec_nvec]
    funext i
    simp only [ksim, Matrix.mulVec, dotProduct, Finset.sum_mul]
    apply Finset.sum_congr rfl
    intro j _
    ring

theorem perp_ksim (m : Int) (v : Vec 6) :
    (fun i => ((ksim m (kvec Package.dode.theta v) i : K _) : ℝ)) =
      (realMat (Dode.similarity m)).mulVec (Vec.val Package.dode.theta v) := by
  funext i
  simp only [ksim]
  rw [coe_mulVec]
  congr 1

theorem plane_scale {P : Matrix (Fin 3) (Fin 6) ℝ} {m : Int} {k : ℝ}
    (h : Scales P (Dode.similarity m) k) (x y : Fin 6 → ℝ) :
    ∃ a b : ℝ, a ^ 2 + b ^ 2 = k ∧
      P.mulVec ((realMat (Dode.similarity m)).mulVec x) =
        (!![a, b, 0; -b, a, 0; 0, 0, 1] : Matrix (Fin 3) (Fin 3) ℝ).mulVec (P.mulVec x) ∧
      P.mulVec ((realMat (Dode.similarity m)).mulVec y) =
        (!![a, b, 0; -b, a, 0; 0, 0, 1] : Matrix (Fin 3) (Fin 3) ℝ).mulVec (P.mulVec y) := by
  obtain ⟨a, b, h1, h2⟩ := h
  exact ⟨a, b, h1, by rw [Matrix.mulVec_mulVec, h2, Matrix.mulVec_mulVec],
    by rw [Matrix.mulVec_mulVec, h2, Matrix.mulVec_mulVec]⟩

/-- C44: each step multiplies squared in-plane distances of perpendicular space by `2-√3`, those of
parallel space by `2+√3`, and leaves the third coordinates unchanged. -/
theorem C44_scale (v w : Vec 6) (m : Int) (hv : Vec.Ok v) (hw : Vec.Ok w) :
    ∃ v' w', Dode.similarityVec v m = .ok v' ∧ Dode.similarityVec w m = .ok w' ∧
      (Package.dode.perp v' 0 - Package.dode.perp w' 0) ^ 2 +
          (Package.dode.perp v' 1 - Package.dode.perp w' 1) ^ 2 =
        (2 - Real.sqrt 3) ^ m * ((Package.dode.perp v 0 - Package.dode.perp w 0) ^ 2 +
          (Package.dode.perp v 1 - Package.dode.perp w 1) ^ 2) ∧
      (Package.dode.par v' 0 - Package.dode.par w' 0) ^ 2 +
          (Package.dode.par v' 1 - Package.dode.par w' 1) ^ 2 =
        (2 + Real.sqrt 3) ^ m * ((Package.dode.par v 0 - Package.dode.par w 0) ^ 2 +
          (Package.dode.par v 1 - Package.dode.par w 1) ^ 2) ∧
      Package.dode.perp v' 2 = Package.dode.perp v 2 ∧
      Package.dode.par v' 2 = Package.dode.par v 2 := by
  refine ⟨_, _, similarityVec_ok hv m, similarityVec_ok hw m, ?_⟩
  obtain ⟨a, b, h1, h2, h3⟩ := plane_scale (scales_perp m) (Vec.val Package.dode.theta v)
    (Vec.val Package.dode.theta w)
  obtain ⟨c, d, k1, k2, k3⟩ := plane_scale (scales_par m) (Vec.val Package.dode.theta v)
    (Vec.val Package.dode.theta w)
  unfold Package.perp Package.par
  simp only [val_nvec, perp_ksim, h2, h3, k2, k3]
  generalize Package.dode.perpMat.mulVec (Vec.val Package.dode.theta v) = x
  generalize Package.dode.perpMat.mulVec (Vec.val Package.dode.theta w) = y
  generalize Package.dode.parMat.mulVec (Vec.val Package.dode.theta v) = z
  generalize Package.dode.parMat.mulVec (Vec.val Package.dode.theta w) = u
  simp only [← h1, ← k1]
  refine ⟨?_, ?_, ?_, ?_⟩ <;> simp [Matrix.mulVec, dotProduct, Fin.sum_univ_three] <;> ring

/-- C44: the area of an object of triangles is multiplied by exactly `(2-√3)^m`. -/
theorem C44_area (o : Obj 3) (m : Int) (ho : Obj.Ok o) :
    ∃ r a a', Dode.similarityObj o m = .ok r ∧ Dode.objArea6d (.d4 o) = .ok (some a) ∧
      Dode.objArea6d (.d4 r) = .ok (some a') ∧
      a'.val sin60 = (2 - Real.sqrt 3) ^ m * a.val sin60 := by
  have hr : Obj.Ok (o.map fun (s : Simplex 3) i => nvec (ksim m (kvec Package.dode.theta (s i)))) := by
    intro s hs
    obtain ⟨t, -, rfl⟩ := List.mem_map.mp hs
    exact fun i => nvec_ok _
  refine ⟨_, _, _, similarityObj_ok ho m, objArea_ok ho, objArea_ok hr, ?_⟩
  have one : ∀ t : Simplex 3,
      ((karea (fun i => nvec (ksim m (kvec Package.dode.theta (t i)))) : K _) : ℝ) =
        (2 - Real.sqrt 3) ^ m * (karea t : K _) := by
    intro t
    obtain ⟨a, b, h1, h2⟩ := scales_perp m
    rw [coe_karea, coe_karea]
    have : Package.dode.perps (fun i => nvec (ksim m (kvec Package.dode.theta (t i)))) =
        fun i => (!![a, b, 0; -b, a, 0; 0, 0, 1] : Matrix (Fin 3) (Fin 3) ℝ).mulVec
          (Package.dode.perps t i) + 0 := by
      funext i
      unfold Package.perps Package.perp
      rw [val_nvec, perp_ksim, Matrix.mulVec_mulVec, h2, Matrix.mulVec_mulVec, add_zero]
    rw [this, triAreaXY_affine _ (by simp [Block]), ← h1]
    congr 1
    simp only [Matrix.of_apply, Matrix.cons_val', Matrix.cons_val_zero, Matrix.cons_val_one]
    rw [abs_of_nonneg (by nlinarith [sq_nonneg a, sq_nonneg b])]
    simp; ring
  rw [show sin60 = Package.dode.theta from rfl, val_norm, val_norm]
  clear hr ho
  induction o with
  | nil => simp
  | cons t ts ih =>
    simp only [List.map_cons, List.sum_cons]
    rw [Subfield.coe_add, Subfield.coe_add, ih, one, mul_add]

example : Vec.Ok exV₀ ∧ Obj.Ok [exTri] := by decide
example : Dode.similarityVec (exTri 1) 1 =
    .ok ![⟨1, 0, 1⟩, ⟨0, 0, 1⟩, ⟨0, 0, 1⟩, ⟨-1, 0, 1⟩, ⟨0, 0, 1⟩, ⟨1, 0, 2⟩] := by
  unfold Dode.similarityVec
  rw [similarity_one]
  decide +kernel

end PyQC
