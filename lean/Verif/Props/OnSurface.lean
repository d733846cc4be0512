import Verif.Props.Convex
/-!
# C60: point-on-triangle test by areas
-/
namespace PyQC
open Matrix Ico

theorem norm3_neg (v : Fin 3 → ℝ) : norm3 (-v) = norm3 v := by
  unfold norm3; simp

/-- The (unnormalised) normal vector of a triangle. -/
def triNormal (q : Fin 3 → Fin 3 → ℝ) : Fin 3 → ℝ := (q 1 - q 0) ⨯₃ (q 2 - q 0)

theorem triArea_norm3 (q : Fin 3 → Fin 3 → ℝ) : triArea q = norm3 (triNormal q) / 2 := rfl

theorem areaNum_eq (q : Fin 3 → Fin 3 → ℝ) : triangleAreaNumerical q = triArea q := by
  unfold triangleAreaNumerical
  rw [← cross_anticomm, norm3_neg]
  rfl

/-- Twice the oriented area, as a vector, of the triangle with corner `i` replaced by `x`. -/
theorem small_cross {q : Fin 3 → Fin 3 → ℝ} {w : Fin 3 → ℝ} {x n : Fin 3 → ℝ} (h1 : ∑ i, w i = 1)
    (hx : x = ∑ i, w i • q i + n) (i : Fin 3) :
    triNormal (smallTriangle i x q) = w i • triNormal q + n ⨯₃ (q (i + 1) - q (i + 2)) := by
  rw [Fin.sum_univ_three] at h1 hx
  have e0 : w 0 = 1 - w 1 - w 2 := by linarith
  subst hx
  unfold triNormal
  fin_cases i <;> funext j <;> fin_cases j <;>
    simp [smallTriangle, cross_apply, e0] <;> ring

theorem norm3_eq_sqrt (v : Fin 3 → ℝ) : norm3 v = Real.sqrt (v 0 ^ 2 + v 1 ^ 2 + v 2 ^ 2) := by
  unfold norm3
  congr 1
  rw [vec3_dotProduct]
  ring

theorem norm3_sq' (v : Fin 3 → ℝ) : norm3 v ^ 2 = v 0 ^ 2 + v 1 ^ 2 + v 2 ^ 2 := by
  rw [norm3_eq_sqrt, Real.sq_sqrt (by positivity)]

/-- Area of the triangle with corner `i` replaced by the point with plane coordinates `w` at height `h` (in units of the
length of the normal). -/
theorem small_area {q : Fin 3 → Fin 3 → ℝ} {w : Fin 3 → ℝ} {x : Fin 3 → ℝ} {h : ℝ} (h1 : ∑ i, w i = 1)
    (hx : x = ∑ i, w i • q i + h • triNormal q) (i : Fin 3) :
    triArea (smallTriangle i x q) = norm3 ![|w i| * norm3 (triNormal q),
      |h| * norm3 (triNormal q) * norm3 (q (i + 1) - q (i + 2)), 0] / 2 := by
  rw [triArea_norm3, small_cross h1 hx i, norm3_eq_sqrt, norm3_eq_sqrt ![_, _, _]]
  congr 2
  have e : ∀ i : Fin 3, triNormal q ⬝ᵥ (q (i + 1) - q (i + 2)) = 0 := by
    intro i
    rw [vec3_dotProduct]
    unfold triNormal
    fin_cases i <;> simp [cross_apply] <;> ring
  have e' := e i
  rw [vec3_dotProduct] at e'
  generalize q (i + 1) - q (i + 2) = d at e'
  generalize triNormal q = N at e'
  simp only [Matrix.cons_val_zero, Matrix.cons_val_one, Matrix.cons_val, mul_pow, sq_abs, norm3_sq']
  simp only [Pi.add_apply, Pi.smul_apply, smul_eq_mul, cross_apply, Matrix.cons_val_zero, Matrix.cons_val_one,
    Matrix.cons_val]
  linear_combination (-h ^ 2 * (N 0 * d 0 + N 1 * d 1 + N 2 * d 2)) * e'

theorem onOut_iff (p : Package) (v : Vec 6) (t : Simplex 3) : onOutSurface p v t = true ↔
    |triArea (p.perps t) - ∑ i, triArea (smallTriangle i (p.perp v) (p.perps t))| < 1 / 10 ^ 6 := by
  unfold onOutSurface
  simp only [areaNum_eq, p.internalNumerical_eq, Fin.sum_univ_three]
  rw [← eps_eq]
  by_cases h : |triArea (p.perps t) - (triArea (smallTriangle 0 (p.perp v) (p.perps t)) +
    triArea (smallTriangle 1 (p.perp v) (p.perps t)) + triArea (smallTriangle 2 (p.perp v) (p.perps t)))| < EPS
  · rw [iff_true_right h]
    exact if_pos h
  · rw [iff_false_right h]
    simp only [Bool.not_eq_true]
    exact if_neg h

/-- C60: for a point in the plane of the triangle the test accepts exactly when the area of the triangle times the excess of
the absolute barycentric coordinates is below 10⁻⁶. -/
theorem C60_plane (p : Package) (v : Vec 6) (t : Simplex 3) (w : Fin 3 → ℝ) (hw : IsBary (p.perps t) w (p.perp v)) :
    onOutSurface p v t = true ↔ triArea (p.perps t) * (∑ i, |w i| - 1) < 1 / 10 ^ 6 := by
  have hx : p.perp v = ∑ i, w i • p.perps t i + (0 : ℝ) • triNormal (p.perps t) := by rw [zero_smul, add_zero]; exact hw.2
  have hs : (1 : ℝ) ≤ ∑ i, |w i| := by
    rw [← hw.1]
    exact Finset.sum_le_sum fun i _ => le_abs_self _
  have hA : 0 ≤ triArea (p.perps t) := by rw [triArea_norm3]; exact div_nonneg (norm3_nonneg _) (by norm_num)
  have h2 : ∀ i, triArea (smallTriangle i (p.perp v) (p.perps t)) = |w i| * triArea (p.perps t) := by
    intro i
    rw [small_area hw.1 hx i, norm3_eq_sqrt, triArea_norm3]
    simp only [abs_zero, zero_mul, Matrix.cons_val_zero, Matrix.cons_val_one, Matrix.cons_val]
    rw [zero_pow (by norm_num), add_zero, add_zero, Real.sqrt_sq (mul_nonneg (abs_nonneg _) (norm3_nonneg _))]
    ring
  rw [onOut_iff]
  simp only [h2]
  rw [← Finset.sum_mul, abs_sub_comm, abs_of_nonneg (by nlinarith)]
  constructor <;> intro h <;> linarith

/-- C60: every point of the closed triangle is accepted. -/
theorem C60_complete (p : Package) (v : Vec 6) (t : Simplex 3) (h : p.perp v ∈ convexHull ℝ (Set.range (p.perps t))) :
    onOutSurface p v t = true := by
  obtain ⟨w, hw, h0⟩ := mem_solid_iff.1 h
  rw [C60_plane p v t w hw]
  simp only [abs_of_nonneg (h0 _)]
  rw [hw.1]
  norm_num

/-- Plane coordinates and height of any point with respect to a triangle that is not degenerate. -/
theorem exists_height {q : Fin 3 → Fin 3 → ℝ} (hq : triArea q ≠ 0) (x : Fin 3 → ℝ) :
    ∃ (w : Fin 3 → ℝ) (h : ℝ), ∑ i, w i = 1 ∧ x = ∑ i, w i • q i + h • triNormal q := by
  have hM : norm3 (triNormal q) ^ 2 ≠ 0 := by
    intro h
    rw [triArea_norm3, pow_eq_zero_iff (by norm_num) |>.1 h] at hq
    simp at hq
  set M := norm3 (triNormal q) ^ 2 with hMd
  let a := ((x - q 0) ⨯₃ (q 2 - q 0)) ⬝ᵥ triNormal q / M
  let b := ((q 1 - q 0) ⨯₃ (x - q 0)) ⬝ᵥ triNormal q / M
  let h := (x - q 0) ⬝ᵥ triNormal q / M
  refine ⟨![1 - a - b, a, b], h, by rw [Fin.sum_univ_three]; simp; ring, ?_⟩
  rw [Fin.sum_univ_three]
  have key : ∀ j, M * (x j - q 0 j) = ((x - q 0) ⨯₃ (q 2 - q 0)) ⬝ᵥ triNormal q * (q 1 j - q 0 j) +
      ((q 1 - q 0) ⨯₃ (x - q 0)) ⬝ᵥ triNormal q * (q 2 j - q 0 j) + (x - q 0) ⬝ᵥ triNormal q * triNormal q j := by
    intro j
    rw [hMd, norm3_sq']
    unfold triNormal
    rw [vec3_dotProduct, vec3_dotProduct, vec3_dotProduct]
    fin_cases j <;> simp [cross_apply] <;> ring
  funext j
  have hj : x j - q 0 j = a * (q 1 j - q 0 j) + b * (q 2 j - q 0 j) + h * triNormal q j := by
    have := key j
    simp only [a, b, h]
    field_simp
    linarith
  simp
  linarith

/-- C60: an accepted point is near the triangle. In terms of its plane coordinates `w` and its height over the plane, the
plane coordinates exceed the triangle by less than 10⁻⁶ in area and the height `H` times the perimeter `P` satisfies
`(H P)² < 8·10⁻⁶·area + 4·10⁻¹²`. -/
theorem C60_sound (p : Package) (v : Vec 6) (t : Simplex 3) (hq : triArea (p.perps t) ≠ 0)
    (h : onOutSurface p v t = true) :
    ∃ (w : Fin 3 → ℝ) (k : ℝ), ∑ i, w i = 1 ∧ p.perp v = ∑ i, w i • p.perps t i + k • triNormal (p.perps t) ∧
      triArea (p.perps t) * (∑ i, |w i| - 1) < 1 / 10 ^ 6 ∧
      (norm3 (k • triNormal (p.perps t)) * ∑ i : Fin 3, norm3 (p.perps t (i + 1) - p.perps t (i + 2))) ^ 2 <
        8 / 10 ^ 6 * triArea (p.perps t) + 4 / 10 ^ 12 := by
  obtain ⟨w, k, h1, hx⟩ := exists_height hq (p.perp v)
  refine ⟨w, k, h1, hx, ?_⟩
  rw [onOut_iff] at h
  have hs : (1 : ℝ) ≤ ∑ i, |w i| := by
    rw [← h1]
    exact Finset.sum_le_sum fun i _ => le_abs_self _
  rw [triArea_norm3] at h ⊢
  simp only [small_area h1 hx] at h
  have hk : norm3 (k • triNormal (p.perps t)) = |k| * norm3 (triNormal (p.perps t)) := by
    rcases le_total 0 k with h | h
    · rw [norm3_smul h, abs_of_nonneg h]
    · rw [← norm3_neg, ← neg_smul, norm3_smul (by linarith), abs_of_nonpos h]
  rw [hk]
  generalize triNormal (p.perps t) = N at *
  set M := norm3 N
  have hM : 0 ≤ M := norm3_nonneg _
  rw [Fin.sum_univ_three] at h hs ⊢
  rw [Fin.sum_univ_three]
  set L := fun i : Fin 3 => norm3 (p.perps t (i + 1) - p.perps t (i + 2)) with hL
  have hL0 : ∀ i, 0 ≤ L i := fun i => norm3_nonneg _
  change |M / 2 - (norm3 ![|w 0| * M, |k| * M * L 0, 0] / 2 + norm3 ![|w 1| * M, |k| * M * L 1, 0] / 2 +
    norm3 ![|w 2| * M, |k| * M * L 2, 0] / 2)| < _ at h
  have hsum : norm3 ![(|w 0| + |w 1| + |w 2|) * M, |k| * M * (L 0 + L 1 + L 2), 0] ≤
      norm3 ![|w 0| * M, |k| * M * L 0, 0] + norm3 ![|w 1| * M, |k| * M * L 1, 0] + norm3 ![|w 2| * M, |k| * M * L 2, 0] := by
    refine le_trans (le_of_eq ?_) ((norm3_add_le _ _).trans (add_le_add_left (norm3_add_le _ _) _))
    congr 1
    funext j
    fin_cases j <;> simp <;> ring
  have hlt : norm3 ![(|w 0| + |w 1| + |w 2|) * M, |k| * M * (L 0 + L 1 + L 2), 0] < M + 2 / 10 ^ 6 := by
    have := (abs_lt.1 h).1
    linarith
  set S := |w 0| + |w 1| + |w 2|
  have hsq := norm3_sq' ![S * M, |k| * M * (L 0 + L 1 + L 2), 0]
  simp only [Matrix.cons_val_zero, Matrix.cons_val_one, Matrix.cons_val] at hsq
  set R := norm3 ![S * M, |k| * M * (L 0 + L 1 + L 2), 0]
  have hR : 0 ≤ R := norm3_nonneg _
  have hR2 : R ^ 2 < (M + 2 / 10 ^ 6) ^ 2 := pow_lt_pow_left₀ hlt hR (by norm_num)
  constructor
  · have : S * M ≤ R := by
      refine le_of_sq_le_sq ?_ hR
      nlinarith [sq_nonneg (|k| * M * (L 0 + L 1 + L 2))]
    linarith
  · have : M ^ 2 ≤ (S * M) ^ 2 := pow_le_pow_left₀ hM (by nlinarith) 2
    change (|k| * M * (L 0 + L 1 + L 2)) ^ 2 < _
    nlinarith

example : onOutSurface .ico (cart 1 1 0 3) exFace = true := by
  refine C60_complete _ _ _ (mem_solid_iff.2 ⟨![1 / 3, 1 / 3, 1 / 3], ⟨?_, ?_⟩, ?_⟩)
  · rw [Fin.sum_univ_three]; simp; norm_num
  · rw [Fin.sum_univ_three, perp_cart]
    funext j
    fin_cases j <;> simp [Package.perps, exFace, perp_cart]
  · intro i; fin_cases i <;> simp

/-- A point 1/2000 above the middle of the unit triangle `exFace`. -/
def exAbove : Vec 6 := cart 500 500 1 2000

/-- C60, disagreement with an exact test: a point at height 5·10⁻⁴ over the triangle is reported as lying on it. -/
theorem C60_off_plane : Package.ico.perp exAbove = ![1 / 4, 1 / 4, 1 / 2000] ∧
    Package.ico.perps exFace = ![![0, 0, 0], ![1, 0, 0], ![0, 1, 0]] ∧ onOutSurface .ico exAbove exFace = true := by
  have e1 : Package.ico.perp exAbove = ![1 / 4, 1 / 4, 1 / 2000] := by
    unfold exAbove
    rw [perp_cart]
    norm_num
  have e2 : Package.ico.perps exFace = ![![0, 0, 0], ![1, 0, 0], ![0, 1, 0]] := by
    funext i
    fin_cases i <;> simp [Package.perps, exFace, perp_cart]
  refine ⟨e1, e2, ?_⟩
  have hN : triNormal (![![0, 0, 0], ![1, 0, 0], ![0, 1, 0]] : Fin 3 → Fin 3 → ℝ) = ![0, 0, 1] := by
    funext j; fin_cases j <;> simp [triNormal, cross_apply]
  have hM : norm3 (![0, 0, 1] : Fin 3 → ℝ) = 1 := by rw [norm3_eq_sqrt]; simp
  rw [onOut_iff, e1, e2]
  have h1 : ∑ i, (![1 / 2, 1 / 4, 1 / 4] : Fin 3 → ℝ) i = 1 := by rw [Fin.sum_univ_three]; simp; norm_num
  have hx : (![1 / 4, 1 / 4, 1 / 2000] : Fin 3 → ℝ) = ∑ i, (![1 / 2, 1 / 4, 1 / 4] : Fin 3 → ℝ) i •
      (![![0, 0, 0], ![1, 0, 0], ![0, 1, 0]] : Fin 3 → Fin 3 → ℝ) i +
      (1 / 2000 : ℝ) • triNormal (![![0, 0, 0], ![1, 0, 0], ![0, 1, 0]] : Fin 3 → Fin 3 → ℝ) := by
    rw [hN, Fin.sum_univ_three]
    funext j; fin_cases j <;> simp
  simp only [small_area h1 hx]
  rw [triArea_norm3, hN, hM, Fin.sum_univ_three]
  simp only [norm3_eq_sqrt]
  simp
  rw [mul_pow, Real.sq_sqrt (by norm_num)]
  have hA : Real.sqrt ((2 ^ 2)⁻¹ + 2000⁻¹ ^ 2 * (1 + 1)) ≤ 1 / 2 + 6 / 10 ^ 7 :=
    Real.sqrt_le_iff.2 ⟨by norm_num, by norm_num⟩
  have hA' : 1 / 2 ≤ Real.sqrt ((2 ^ 2)⁻¹ + 2000⁻¹ ^ 2 * (1 + 1)) := Real.le_sqrt_of_sq_le (by norm_num)
  have hB : Real.sqrt ((4 ^ 2)⁻¹ + (2000 ^ 2)⁻¹) ≤ 1 / 4 + 6 / 10 ^ 7 :=
    Real.sqrt_le_iff.2 ⟨by norm_num, by norm_num⟩
  have hB' : 1 / 4 ≤ Real.sqrt ((4 ^ 2)⁻¹ + (2000 ^ 2)⁻¹) := Real.le_sqrt_of_sq_le (by norm_num)
  rw [abs_lt]
  constructor <;> norm_num at * <;> linarith

/-- The hypotheses of `C59_shape` and `C59_volume_partial` are met: `exCorner` minus its half `exHalfA` gives the other half. -/
example : tetrahedronNotObj List.reverse (.ok (some [exHalfA])) exCorner [exHalfA] (tetrahedronSurface exHalfA) =
    .ok (some [cone (cart 1 0 0 1) ![cart 1 0 0 2, cart 0 1 0 1, cart 0 0 1 1]]) := by
  have hcorner : ∀ f ∈ tetrahedronSurface exHalfA, ∀ k, onOutSurface .ico (f k) f = true := by
    intro f _ k
    exact C60_complete .ico _ f (subset_convexHull ℝ _ ⟨k, rfl⟩)
  have hfaces : ((tetrahedronSurface exHalfA).filter fun tr => (List.ofFn tr).all fun v =>
      (tetrahedronSurface exHalfA).any fun s => onOutSurface .ico v s) = tetrahedronSurface exHalfA := by
    rw [List.filter_eq_self]
    intro f hf
    rw [List.all_eq_true]
    intro v hv
    obtain ⟨k, rfl⟩ := (List.mem_ofFn' _ _).mp hv
    exact List.any_eq_true.2 ⟨f, hf, hcorner f hf k⟩
  have hin : ∀ v i, exHalfA i = v → insideTau v exHalfA = true := by
    rintro v i rfl
    rw [C32_perp, ← C32_exact]
    refine C32_complete _ _ ?_ (subset_convexHull ℝ _ ⟨i, rfl⟩)
    rw [← det4_ne_iff, det4_eq, perps_exHalfA]
    simp
  have hout : insideTau (exCorner 1) exHalfA = false := by
    have h := C32_reject (Package.ico.perp (exCorner 1)) (Package.ico.perps exHalfA) ![-1, 2, 0, 0] ?_ 0 (by simp; norm_num)
    · rw [Bool.eq_false_iff] at h ⊢
      rw [ne_eq, C32_exact] at h
      rwa [ne_eq, C32_perp]
    · rw [isBary_four, perps_exHalfA, show Package.ico.perp (exCorner 1) = Package.ico.perps exCorner 1 from rfl, perps_exCorner]
      refine ⟨by simp; norm_num, fun j => ?_⟩
      fin_cases j <;> simp
  have hfil : ((List.ofFn exCorner).filter fun v => !([exHalfA].any fun u => insideTau v u)) = [exCorner 1] := by
    have e : List.ofFn exCorner = [exCorner 0, exCorner 1, exCorner 2, exCorner 3] := by simp [List.ofFn_succ]
    rw [e]
    simp [hout, hin (exCorner 0) 0 (by decide), hin (exCorner 2) 2 (by decide), hin (exCorner 3) 3 (by decide)]
  have hv0 : objVolume6d (.d4 [exCorner]) = .ok (some ⟨1, 0, 6⟩) := by decide +kernel
  have hv1 : objVolume6d (.d4 [exHalfA]) = .ok (some ⟨1, 0, 12⟩) := by decide +kernel
  have hsub : arith.sub ⟨1, 0, 6⟩ ⟨1, 0, 12⟩ = .ok ⟨1, 0, 12⟩ := by decide +kernel
  have hsurf : generatorSurface1 [exHalfA] = .ok (tetrahedronSurface exHalfA) := by simp [generatorSurface1]
  unfold tetrahedronNotObj
  rw [bind_ok']
  simp only
  rw [hsurf, bind_ok', hv0, bind_ok', needSome, bind_ok', hv1, bind_ok', needSome, bind_ok', hsub, bind_ok', hfaces, hfil,
    if_neg (by decide)]
  simp only
  decide +kernel

/-- The hypotheses of `C59_disjoint` are met by two tetrahedra ten units apart, so their difference raises AttributeError. -/
example (order : Obj 3 → Obj 3) (draws : Simplex 4 → Simplex 4 → (n : Nat) → Draws n)
    (delaunay : Simplex 4 → Simplex 4 → Delaunay) :
    intersectionTwoObj1 .standard draws delaunay [exCorner] [exFar] = .ok none ∧
      subtractionTwoObj order draws delaunay [exCorner] [exFar] = .error .attributeError := by
  have hfar : Obj.Ok [exFar] := by
    intro t ht
    rw [List.mem_singleton.1 ht]
    intro i
    fin_cases i <;> exact cart_ok (by decide)
  have key : intersectionTwoObj1 .standard draws delaunay [exCorner] [exFar] = .ok none := by
    obtain ⟨c, d, hc, hcen, hd, he⟩ := intersectionTwoObj1_eq .standard draws delaunay (obj1 := [exCorner]) hfar (by simp)
    have e0 : centroidObj arith [exFar] = .ok (cart 41 1 1 4) := by decide +kernel
    rw [e0] at hcen
    have hcc := Except.ok.inj hcen
    subst hcc
    obtain ⟨R, hR, -, ⟨s, hs, i, hi⟩⟩ := C35_radius_obj .ico (by decide) [exFar] (by simp) _ hfar hc
    rw [hd] at hR
    have hdd := Except.ok.inj hR
    subst hdd
    have hd2 : d ≤ 2 := by
      rw [← hi, List.mem_singleton.1 hs, perp_cart]
      unfold dist3
      refine Real.sqrt_le_iff.2 ⟨by norm_num, ?_⟩
      fin_cases i <;> simp [exFar, perp_cart] <;> norm_num
    have hr : roughCheck .ico exCorner (cart 41 1 1 4) d = .ok false := by
      obtain ⟨b, hb, h⟩ := C35_exact .ico (by decide) exCorner _ exCorner_ok hc d
      rw [hb]
      cases b
      · rfl
      · exfalso
        obtain ⟨i, hi⟩ := h.1 rfl
        have hcp : Package.ico.centroidPerp exCorner = ![1 / 4, 1 / 4, 1 / 4] := by
          funext j
          have := fun i => congrFun perps_exCorner i
          simp only [Package.perps] at this
          simp only [Package.centroidPerp, this, Fin.sum_univ_four]
          fin_cases j <;> simp
        rw [hcp, perp_cart] at hi
        have h1 : (9 : ℝ) ≤ dist3 ![1 / 4, 1 / 4, 1 / 4] ![((41 : ℤ) : ℝ) / (4 : ℤ), ((1 : ℤ) : ℝ) / (4 : ℤ), ((1 : ℤ) : ℝ) / (4 : ℤ)] := by
          unfold dist3
          refine Real.le_sqrt_of_sq_le ?_
          simp
          norm_num
        have h2 : dist3 (Package.ico.perp (exCorner i)) ![1 / 4, 1 / 4, 1 / 4] ≤ 2 := by
          unfold dist3
          refine Real.sqrt_le_iff.2 ⟨by norm_num, ?_⟩
          have := congrFun perps_exCorner i
          simp only [Package.perps] at this
          rw [this]
          fin_cases i <;> simp <;> norm_num
        linarith
    rw [he]
    simp [intersectionTwoObj, fillList, onePiece, hr, bind_ok']
  exact ⟨key, C59_disjoint order draws delaunay exCorner [] [exFar] hfar (by simp) key⟩

end PyQC
