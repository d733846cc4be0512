import Verif.Lemmas.Position
import Verif.Lemmas.Surface
import Verif.Lemmas.Volume
/-!
# Exact intersection points and bounding balls
-/
namespace PyQC
open Matrix

section
variable {θ : ℝ} [Quad θ]

/-- Real coordinates of a vector over the field. -/
noncomputable def rvec {n : Nat} (x : Fin n → K θ) : Fin n → ℝ := fun i => (x i : ℝ)

theorem rvec_sub {n : Nat} (x y : Fin n → K θ) : rvec (x - y) = rvec x - rvec y := by
  funext i; simp [rvec]

theorem rvec_add {n : Nat} (x y : Fin n → K θ) : rvec (x + y) = rvec x + rvec y := by
  funext i; simp [rvec]

theorem rvec_smul {n : Nat} (k : K θ) (x : Fin n → K θ) : rvec (k • x) = (k : ℝ) • rvec x := by
  funext i; simp [rvec]

theorem rvec_cross (x y : Fin 3 → K θ) : rvec (x ⨯₃ y) = rvec x ⨯₃ rvec y := by
  funext i
  fin_cases i <;> simp [rvec, cross_apply]

theorem coe_dot {n : Nat} (x y : Fin n → K θ) : ((x ⬝ᵥ y : K θ) : ℝ) = rvec x ⬝ᵥ rvec y := by
  simp [dotProduct, rvec]

theorem rvec_kvec {n : Nat} (v : Vec n) : rvec (kvec θ v) = Vec.val θ v := rfl

theorem val_nvec' {n : Nat} (x : Fin n → K θ) : Vec.val θ (nvec x) = rvec x := val_nvec x

end

theorem Package.rvec_kperp (p : Package) (v : Vec 6) : rvec (p.kperp.mulVec (kvec p.theta v)) = p.perp v :=
  p.coe_kperp_mulVec v

theorem Package.perp_nvec (p : Package) (x : Fin 6 → K p.theta) : p.perp (nvec x) = rvec (p.kperp.mulVec x) := by
  rw [← p.rvec_kperp, kvec_nvec]

/-- Projection of a difference. -/
theorem Package.projSub_ok (p : Package) {v w : Vec 6} (hv : Vec.Ok v) (hw : Vec.Ok w) :
    (do let a ← subVectors p.arith v w; p.projection3 a) =
      .ok (nvec (p.kperp.mulVec (kvec p.theta v) - p.kperp.mulVec (kvec p.theta w))) := by
  rw [subVectors_ok p.lawful hv hw, bind_ok', p.projection3_ok (nvec_ok _), kvec_nvec, Matrix.mulVec_sub]

theorem internalSets_eq {m : Nat} (s : Simplex m) : Ico.internalSetsNumerical s = Package.ico.perps s := by
  funext i
  exact Package.ico.internalNumerical_eq (s i)

theorem insideTau_eq (v : Vec 6) (t : Simplex 4) :
    Ico.insideTau v t = Ico.insideTetrahedron (Package.ico.perp v) (Package.ico.perps t) := by
  unfold Ico.insideTau
  rw [internalSets_eq]
  congr 1
  exact Package.ico.internalNumerical_eq v

theorem innerProduct_ok {A : Arith} {θ : ℝ} [Quad θ] (hA : Lawful A θ) {n : Nat} {x y : Vec n} (hx : Vec.Ok x)
    (hy : Vec.Ok y) : innerProduct A x y = .ok (some (norm (kvec θ x ⬝ᵥ kvec θ y))) := by
  unfold innerProduct
  rw [dif_pos rfl]
  rw [sumProducts_ok hA hx (fun i => hy _)]
  rfl

/-- The exact intersection point, once the numerical test has accepted. -/
theorem segSurf_ok {sg : Simplex 2} {tr : Simplex 3} (hs : Simplex.Ok sg) (ht : Simplex.Ok tr)
    (h : Ico.segmentMeetsTriangleTau sg tr = true) :
    ∃ (t : ℝ) (r : Vec 6), Ico.intersectionSegmentSurface sg tr = .ok (some r) ∧ Vec.Canon r ∧
      Package.ico.val r = Package.ico.val (sg 0) + t • (Package.ico.val (sg 1) - Package.ico.val (sg 0)) ∧
      Package.ico.perp r =
        Package.ico.perp (sg 0) + t • (Package.ico.perp (sg 1) - Package.ico.perp (sg 0)) ∧
      ∃ u v, Meets (Package.ico.perp (sg 0)) (Package.ico.perp (sg 1)) (Package.ico.perp (tr 0))
        (Package.ico.perp (tr 1)) (Package.ico.perp (tr 2)) t u v ∧ -EPS ≤ t ∧ t ≤ 1 + EPS ∧
        -EPS ≤ u ∧ u ≤ 1 + EPS ∧ -EPS ≤ v ∧ u + v ≤ 1 + EPS := by
  have hA : Lawful Ico.arith Package.ico.theta := Package.ico.lawful
  have hP : ∀ {v w : Vec 6}, Vec.Ok v → Vec.Ok w → _ := fun {v w} a b => Package.ico.projSub_ok (v := v) (w := w) a b
  have htest := h
  unfold Ico.segmentMeetsTriangleTau at h
  rw [internalSets_eq, internalSets_eq, segTri_iff, ← bunbo_det] at h
  obtain ⟨hb, t, u, v, hm, hr⟩ := h
  change EPS ≤ |((Package.ico.perp (sg 1) - Package.ico.perp (sg 0)) ⨯₃
    (Package.ico.perp (tr 2) - Package.ico.perp (tr 0))) ⬝ᵥ
    (Package.ico.perp (tr 1) - Package.ico.perp (tr 0))| at hb
  set k : Vec 6 → Fin 3 → K Package.ico.theta := fun v => Package.ico.kperp.mulVec (kvec Package.ico.theta v)
    with hk
  have hrk : ∀ v, rvec (k v) = Package.ico.perp v := fun v => Package.ico.rvec_kperp v
  have hb0 : ((k (sg 1) - k (sg 0)) ⨯₃ (k (tr 2) - k (tr 0))) ⬝ᵥ (k (tr 1) - k (tr 0)) ≠ 0 := by
    intro h0
    have := congrArg (fun x : K Package.ico.theta => (x : ℝ)) h0
    simp only [coe_dot, rvec_cross, rvec_sub, hrk, ZeroMemClass.coe_zero] at this
    rw [this, abs_zero] at hb
    norm_num [EPS] at hb
  set kt := ((k (sg 0) - k (tr 0)) ⨯₃ (k (tr 1) - k (tr 0))) ⬝ᵥ (k (tr 2) - k (tr 0)) /
    ((k (sg 1) - k (sg 0)) ⨯₃ (k (tr 2) - k (tr 0))) ⬝ᵥ (k (tr 1) - k (tr 0)) with hkt
  have hbr : ((Package.ico.perp (sg 1) - Package.ico.perp (sg 0)) ⨯₃
      (Package.ico.perp (tr 2) - Package.ico.perp (tr 0))) ⬝ᵥ
      (Package.ico.perp (tr 1) - Package.ico.perp (tr 0)) ≠ 0 := by
    intro h0; rw [h0, abs_zero] at hb; norm_num [EPS] at hb
  have htk : t = (kt : ℝ) := by
    have := ((moller hbr t u v).1 hm).2.2
    rw [this, hkt]
    push_cast
    simp only [coe_dot, rvec_cross, rvec_sub, hrk]
  have hres : Ico.intersectionSegmentSurface sg tr =
      .ok (some (nvec (kvec Package.ico.theta (sg 0) + kt •
        (kvec Package.ico.theta (sg 1) - kvec Package.ico.theta (sg 0))))) := by
    unfold Ico.intersectionSegmentSurface
    rw [if_pos htest]
    have e : ∀ v, Ico.projection3 v = Package.ico.projection3 v := fun _ => rfl
    simp only [subVectors_ok hA (hs 1) (hs 0), subVectors_ok hA (ht 1) (ht 0), subVectors_ok hA (ht 2) (ht 0),
      subVectors_ok hA (hs 0) (ht 0), bind_ok', e, Package.ico.projection3_ok (nvec_ok _), kvec_nvec,
      Matrix.mulVec_sub, outerProduct_ok hA (nvec_ok _) (nvec_ok _), innerProduct_ok hA (nvec_ok _) (nvec_ok _),
      needSome]
    have e2 : Ico.div (norm (((k (sg 0) - k (tr 0)) ⨯₃ (k (tr 1) - k (tr 0))) ⬝ᵥ (k (tr 2) - k (tr 0))))
        (norm (((k (sg 1) - k (sg 0)) ⨯₃ (k (tr 2) - k (tr 0))) ⬝ᵥ (k (tr 1) - k (tr 0)))) = some (norm kt) := by
      have := hA.div_ok (norm_c (((k (sg 0) - k (tr 0)) ⨯₃ (k (tr 1) - k (tr 0))) ⬝ᵥ (k (tr 2) - k (tr 0))))
        (norm_c (((k (sg 1) - k (sg 0)) ⨯₃ (k (tr 2) - k (tr 0))) ⬝ᵥ (k (tr 1) - k (tr 0))))
        (by rw [kval_norm]; exact hb0)
      rw [kval_norm, kval_norm] at this
      exact this
    simp only [hk] at e2
    rw [e2]
    simp only [bind_ok', mulVector_ok hA (nvec_ok _) (norm_c _), addVectors_ok hA (hs 0) (nvec_ok _), kvec_nvec,
      kval_norm]
    congr 3
    funext i
    simp [mul_comm]
  refine ⟨t, _, hres, nvec_canon _, ?_, ?_, u, v, hm, hr⟩
  · unfold Package.val
    rw [val_nvec', rvec_add, rvec_smul, rvec_sub, htk]
    rfl
  · rw [Package.ico.perp_nvec, Matrix.mulVec_add, Matrix.mulVec_smul, Matrix.mulVec_sub, rvec_add, rvec_smul,
      rvec_sub, htk, Package.ico.rvec_kperp, Package.ico.rvec_kperp]

theorem segSurf_none {sg : Simplex 2} {tr : Simplex 3} (h : Ico.segmentMeetsTriangleTau sg tr = false) :
    Ico.intersectionSegmentSurface sg tr = .ok none := by
  unfold Ico.intersectionSegmentSurface
  rw [h]
  rfl

end PyQC
