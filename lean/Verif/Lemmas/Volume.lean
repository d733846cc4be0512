import Verif.Lemmas.Space
import Verif.Model.Volume
import Verif.Spec.Geometry
/-!
# Volumes and areas compute in the field
-/
namespace PyQC

theorem negSqrt_iff (d : Nat) (u w : Int) :
    negSqrt d u w = true ↔ (u : ℝ) + w * Real.sqrt d < 0 := by
  have hs0 := Real.sqrt_nonneg (d : ℝ)
  have hsq : Real.sqrt (d : ℝ) ^ 2 = d := Real.sq_sqrt (Nat.cast_nonneg d)
  generalize Real.sqrt (d : ℝ) = s at *
  unfold negSqrt
  split_ifs with hu
  · have huR : (u : ℝ) < 0 := by exact_mod_cast hu
    rw [Bool.or_eq_true, decide_eq_true_eq, decide_eq_true_eq]
    constructor
    · rintro (h | h)
      · have : (w : ℝ) ≤ 0 := by exact_mod_cast h
        nlinarith
      · have h' : (w : ℝ) ^ 2 * d < u ^ 2 := by exact_mod_cast h
        rw [← hsq, ← mul_pow] at h'
        have h2 : ((w : ℝ) * s) ^ 2 < (-u) ^ 2 := by simpa using h'
        have := lt_of_pow_lt_pow_left₀ 2 (by linarith) h2
        linarith
    · intro h
      by_cases hw : w ≤ 0
      · exact .inl hw
      · right
        have hw' : (0 : ℝ) < w := by exact_mod_cast not_le.mp hw
        have : (w * s) ^ 2 < (-u : ℝ) ^ 2 := pow_lt_pow_left₀ (by linarith) (by positivity) (by norm_num)
        have h2 : (w : ℝ) ^ 2 * d < u ^ 2 := by rw [← hsq]; nlinarith
        exact_mod_cast h2
  · have huR : (0 : ℝ) ≤ u := by exact_mod_cast not_lt.mp hu
    rw [Bool.and_eq_true, decide_eq_true_eq, decide_eq_true_eq]
    constructor
    · rintro ⟨hw, h⟩
      have h' : (u : ℝ) ^ 2 < w ^ 2 * d := by exact_mod_cast h
      have hw' : (w : ℝ) < 0 := by exact_mod_cast hw
      have h2 : (u : ℝ) ^ 2 < (-w * s) ^ 2 := by rw [mul_pow, hsq]; simpa using h'
      have := lt_of_pow_lt_pow_left₀ 2 (by nlinarith) h2
      linarith
    · intro h
      have hw : (w : ℝ) < 0 := by
        by_contra hc
        push Not at hc
        have : 0 ≤ (w : ℝ) * s := mul_nonneg hc hs0
        linarith
      refine ⟨by exact_mod_cast hw, ?_⟩
      have : (u : ℝ) ^ 2 < (-w * s) ^ 2 := pow_lt_pow_left₀ (by linarith) huR (by norm_num)
      rw [mul_pow, hsq] at this
      have h2 : (u : ℝ) ^ 2 < w ^ 2 * d := by simpa using this
      exact_mod_cast h2

theorem Package.negNum_iff (p : Package) (a b : Int) :
    p.negNum a b = true ↔ (a : ℝ) + b * p.theta < 0 := by
  cases p
  · rw [negNum, negSqrt_iff]
    simp only [theta, tau]
    push_cast
    constructor <;> intro h <;> linarith
  · rw [negNum, negSqrt_iff]
    simp only [theta, sin60]
    push_cast
    constructor <;> intro h <;> linarith

theorem Package.isNeg_iff (p : Package) {t : Num3} (h : t.c ≠ 0) :
    p.isNeg t = true ↔ t.val p.theta < 0 := by
  unfold isNeg Num3.val
  rcases lt_or_gt_of_ne h with hc | hc
  · have hcR : (t.c : ℝ) < 0 := by exact_mod_cast hc
    rw [if_neg (by omega), if_pos hc, negNum_iff, div_neg_iff]
    push_cast
    constructor
    · intro h; left; exact ⟨by linarith, hcR⟩
    · rintro (⟨h1, _⟩ | ⟨_, h2⟩) <;> linarith
  · have hcR : (0 : ℝ) < t.c := by exact_mod_cast hc
    rw [if_pos hc, negNum_iff, div_neg_iff]
    constructor
    · intro h; right; exact ⟨h, hcR⟩
    · rintro (⟨_, h1⟩ | ⟨h2, _⟩) <;> linarith

section
variable {θ : ℝ} [Quad θ]

/-- Triple product of the edge vectors. -/
noncomputable def ktriple (q : Fin 4 → Fin 3 → K θ) : K θ :=
  ∑ i, (crossProduct (q 1 - q 0) (q 2 - q 0)) i * (q 3 - q 0) i

/-- Absolute value divided by `k`, inside the field. -/
noncomputable def kabsDiv (k : K θ) (x : K θ) : K θ := if (x : ℝ) < 0 then x * (-k) else x * k

theorem coe_kabsDiv (k x : K θ) : ((kabsDiv k x : K θ) : ℝ) = |(x : ℝ)| * k := by
  unfold kabsDiv
  split_ifs with h
  · rw [abs_of_neg h]; push_cast; ring
  · rw [abs_of_nonneg (not_lt.mp h)]; push_cast; rfl

theorem coe_ktriple (q : Fin 4 → Fin 3 → K θ) :
    ((ktriple q : K θ) : ℝ) =
      Matrix.det (Matrix.of ![(fun i => (q 1 i : ℝ)) - (fun i => (q 0 i : ℝ)),
        (fun i => (q 2 i : ℝ)) - (fun i => (q 0 i : ℝ)),
        (fun i => (q 3 i : ℝ)) - (fun i => (q 0 i : ℝ))]) := by
  rw [Matrix.det_fin_three]
  simp only [ktriple, Fin.sum_univ_three, cross_apply]
  simp
  ring

theorem tetrahedronVolume_ok {vts : Fin 4 → Vec 3} (h : ∀ i, Vec.Ok (vts i)) :
    Ico.tetrahedronVolume vts = .ok (norm (θ := Package.ico.theta) (kabsDiv (6 : K _)⁻¹
      (ktriple fun i => kvec Package.ico.theta (vts i)))) := by
  have hA : Lawful Ico.arith Package.ico.theta := Package.ico.lawful
  unfold Ico.tetrahedronVolume
  rw [subVectors_ok hA (h 1) (h 0), subVectors_ok hA (h 2) (h 0), subVectors_ok hA (h 3) (h 0)]
  simp only [bind_ok']
  rw [outerProduct_ok hA (nvec_ok _) (nvec_ok _)]
  simp only [bind_ok', kvec_nvec, innerProduct, Fin.cast_refl, id_eq, dite_true]
  rw [sumProducts_ok hA (nvec_ok _) (nvec_ok _)]
  simp only [bind_ok', kvec_nvec, needSome]
  have hm : ∀ x : K Package.ico.theta, ∀ k : Int, k ≠ 0 → ∀ j : Int,
      Ico.mul (norm x) ⟨j, 0, k⟩ = .ok (norm (x * (j / k : K _))) := by
    intro x k hk j
    have := hA.mul_ok (x := norm x) (y := ⟨j, 0, k⟩) (norm_c _) hk
    rw [kval_norm] at this
    rw [show Ico.mul = Ico.arith.mul from rfl, this]
    congr 3
    apply Subtype.ext
    simp [Num3.val]
  have e : (Package.ico.isNeg (norm (ktriple fun i => kvec Package.ico.theta (vts i))) = true) ↔
      ((ktriple fun i => kvec Package.ico.theta (vts i) : K _) : ℝ) < 0 := by
    rw [Package.isNeg_iff _ (norm_c _), val_norm]
  change (if Package.ico.isNeg (norm (ktriple fun i => kvec Package.ico.theta (vts i))) = true then
    Ico.mul (norm (ktriple fun i => kvec Package.ico.theta (vts i))) ⟨-1, 0, 6⟩ else
    Ico.mul (norm (ktriple fun i => kvec Package.ico.theta (vts i))) ⟨1, 0, 6⟩) = _
  unfold kabsDiv
  rw [hm _ 6 (by decide), hm _ 6 (by decide)]
  by_cases hneg : ((ktriple fun i => kvec Package.ico.theta (vts i) : K _) : ℝ) < 0
  · rw [if_pos (e.mpr hneg), if_pos hneg]
    congr 2
    push_cast
    ring
  · rw [if_neg (fun hh => hneg (e.mp hh)), if_neg hneg]
    congr 2
    push_cast
    ring

end

/-- Perp coordinates of the vertices in the field. -/
noncomputable def Package.kperps (p : Package) {m : Nat} (s : Simplex m) : Fin m → Fin 3 → K p.theta :=
  fun i => p.kperp.mulVec (kvec p.theta (s i))

theorem Package.coe_kperps (p : Package) {m : Nat} (s : Simplex m) (i : Fin m) :
    (fun j => ((p.kperps s i j : K p.theta) : ℝ)) = p.perps s i := p.coe_kperp_mulVec (s i)

/-- Volume of a tetrahedron in the field. -/
noncomputable def kvol (t : Simplex 4) : K Package.ico.theta :=
  kabsDiv (6 : K _)⁻¹ (ktriple (Package.ico.kperps t))

theorem coe_kvol (t : Simplex 4) : ((kvol t : K _) : ℝ) = tetVol (Package.ico.perps t) := by
  unfold kvol tetVol
  rw [coe_kabsDiv, coe_ktriple]
  simp only [Package.coe_kperps]
  push_cast
  rfl

theorem tetrahedronVolume6d_ok {t : Simplex 4} (h : Simplex.Ok t) :
    Ico.tetrahedronVolume6d t = .ok (norm (kvol t)) := by
  unfold Ico.tetrahedronVolume6d
  rw [show (fillFin 4 fun i => Ico.projection3 (t i)) = _ from
    fillFin_ok (fun i => Package.ico.projection3_ok (h i)), bind_ok',
    tetrahedronVolume_ok (fun i => nvec_ok _)]
  simp only [kvec_nvec]
  rfl

theorem sumVolumes_ok {o : Obj 4} (h : Obj.Ok o) (w : K Package.ico.theta) :
    Ico.sumVolumes (norm w) o = .ok (norm (w + (o.map kvol).sum)) := by
  unfold Ico.sumVolumes
  have hf : ∀ s ∈ o, (do let t ← Ico.asTetra s; Ico.tetrahedronVolume6d t) = .ok (norm (kvol s)) := by
    intro s hs
    have : Ico.asTetra s = .ok s := rfl
    rw [this, bind_ok', tetrahedronVolume6d_ok (h s hs)]
  have := foldAdd_ok Package.ico.lawful hf w
  rw [← this]
  congr 1

theorem mul_frac {A : Arith} {θ : ℝ} [Quad θ] (hA : Lawful A θ) (x : K θ) (j : Int) {k : Int}
    (hk : k ≠ 0) : A.mul (norm x) ⟨j, 0, k⟩ = .ok (norm (x * (j / k : K θ))) := by
  rw [hA.mul_ok (norm_c _) hk, kval_norm]
  congr 3
  apply Subtype.ext
  simp [Num3.val]

/-- z component of the cross product of two sides. -/
noncomputable def kcrossz {θ : ℝ} [Quad θ] (q : Fin 3 → Fin 3 → K θ) : K θ :=
  crossProduct (q 1 - q 0) (q 2 - q 0) 2

theorem coe_kcrossz {θ : ℝ} [Quad θ] (q : Fin 3 → Fin 3 → K θ) : ((kcrossz q : K θ) : ℝ) =
    ((q 1 0 : ℝ) - q 0 0) * ((q 2 1 : ℝ) - q 0 1) - ((q 1 1 : ℝ) - q 0 1) * ((q 2 0 : ℝ) - q 0 0) := by
  simp [kcrossz, cross_apply]
  ring

/-- Projected area in the field. -/
noncomputable def karea (t : Simplex 3) : K Package.dode.theta :=
  kabsDiv (2 : K _)⁻¹ (kcrossz (Package.dode.kperps t))

theorem coe_karea (t : Simplex 3) : ((karea t : K _) : ℝ) = triAreaXY (Package.dode.perps t) := by
  unfold karea triAreaXY
  rw [coe_kabsDiv, coe_kcrossz]
  have h : ∀ i j, ((Package.dode.kperps t i j : K _) : ℝ) = Package.dode.perps t i j :=
    fun i j => congrFun (Package.dode.coe_kperps t i) j
  simp only [h]
  push_cast
  rfl

theorem triangleArea_ok {vts : Fin 3 → Vec 3} (h : ∀ i, Vec.Ok (vts i)) :
    Dode.triangleArea vts = .ok (norm (θ := Package.dode.theta) (kabsDiv (2 : K _)⁻¹
      (kcrossz fun i => kvec Package.dode.theta (vts i)))) := by
  have hA : Lawful Dode.arith Package.dode.theta := Package.dode.lawful
  unfold Dode.triangleArea
  rw [subVectors_ok hA (h 1) (h 0), subVectors_ok hA (h 2) (h 0)]
  simp only [bind_ok']
  rw [outerProduct_ok hA (nvec_ok _) (nvec_ok _)]
  simp only [bind_ok', kvec_nvec]
  have e : ∀ x : K Package.dode.theta,
      (Package.dode.negNum (norm x).a (norm x).b = true ↔ (x : ℝ) < 0) := by
    intro x
    rw [Package.negNum_iff]
    have h1 := val_norm x
    have h2 : (0 : ℝ) < (norm x).c := by exact_mod_cast (norm_canon x).1
    rw [← h1, Num3.val, div_neg_iff]
    constructor
    · intro h; right; exact ⟨h, h2⟩
    · rintro (⟨_, h1⟩ | ⟨h2, _⟩) <;> linarith
  have hm : ∀ (x : K Package.dode.theta) (j k : Int), k ≠ 0 →
      Dode.mul (norm x) ⟨j, 0, k⟩ = .ok (norm (x * (j / k : K _))) :=
    fun x j k hk => mul_frac hA x j hk
  simp only [nvec]
  rw [hm _ _ 2 (by decide), hm _ _ 2 (by decide)]
  unfold kabsDiv
  change (if Package.dode.negNum (norm (kcrossz fun i => kvec Package.dode.theta (vts i))).a
    (norm (kcrossz fun i => kvec Package.dode.theta (vts i))).b = true then _ else _) = _
  by_cases hneg : ((kcrossz fun i => kvec Package.dode.theta (vts i) : K _) : ℝ) < 0
  · rw [if_pos ((e _).mpr hneg), if_pos hneg]
    congr 2
    push_cast
    rw [neg_div, one_div]
    rfl
  · rw [if_neg (fun hh => hneg ((e _).mp hh)), if_neg hneg]
    congr 2
    push_cast
    rw [one_div]
    rfl

theorem triangleArea6d_ok {t : Simplex 3} (h : Simplex.Ok t) :
    Dode.triangleArea6d t = .ok (norm (karea t)) := by
  unfold Dode.triangleArea6d
  rw [show (fillFin 3 fun i => Dode.projection3 (t i)) = _ from
    fillFin_ok (fun i => Package.dode.projection3_ok (h i)), bind_ok',
    triangleArea_ok (fun i => nvec_ok _)]
  simp only [kvec_nvec]
  rfl

theorem sumAreas_ok {o : Obj 3} (h : Obj.Ok o) (w : K Package.dode.theta) :
    Dode.sumAreas (norm w) o = .ok (norm (w + (o.map karea).sum)) := by
  unfold Dode.sumAreas
  have hf : ∀ s ∈ o, (do let t ← Dode.asTriangle s; Dode.triangleArea6d t) = .ok (norm (karea s)) := by
    intro s hs
    have : Dode.asTriangle s = .ok s := rfl
    rw [this, bind_ok', triangleArea6d_ok (h s hs)]
  have := foldAdd_ok Package.dode.lawful hf w
  rw [← this]
  congr 1

theorem shiftObj_ok (p : Package) {m : Nat} {o : Obj m} {t : Vec 6} (ho : Obj.Ok o) (ht : Vec.Ok t) :
    shiftObj p o t = .ok (o.map fun s i => nvec (kvec p.theta (s i) + kvec p.theta t)) :=
  fillList_ok fun s hs => fillFin_ok fun i => addVectors_ok p.lawful (ho s hs i) ht

end PyQC
