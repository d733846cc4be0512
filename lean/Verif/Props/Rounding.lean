import Verif.Lemmas.RoundingCommon
import Verif.Lemmas.RoundingDistance
import Verif.Lemmas.RoundingBall
import Verif.Lemmas.RoundingGrid
import Verif.Lemmas.Lapack
/-!
# C83–C89: the numerical tests with floating-point rounding

`F : Float64` is any arithmetic whose operations are accurate to one unit roundoff (`Verif/Model/Float.lean`). The
theorems hold for each of them, whatever the individual roundings are. `Rounding.float64` shows that the assumptions on
the dot product and the determinant follow from the roundings of the elementary operations, and `Rounding.binary64` is
rounding to nearest, so that the theorems speak about an arithmetic that exists.
-/
namespace PyQC
open Matrix Ico MeasureTheory

section
variable (F : Float64) {R : ℝ} (hR : 1 ≤ R) (hR2 : R ≤ 2 ^ 10)
include hR hR2

/-! ## C83: conversion to floating-point numbers -/

/-- C83: the floating-point value of a number `(a + bτ)/c` of moderate size is off by less than 9 unit roundoffs of the
scale. -/
theorem C83_number (t : Num3) (h : SmallNum R t) : |F.numericValue t - t.val tau| ≤ 9 * R / 2 ^ 53 := by
  have h1 := (numericValue_approx F hR hR2 h.den h.int64 h.size).err
  have e : 9 * R / 2 ^ 53 = 9 * ulp * R := by unfold ulp; ring
  rw [e]
  have := mul_nonneg ulp_pos.le (by linarith : (0 : ℝ) ≤ R)
  linarith

/-- C83: the floating-point coordinates of a point of internal space are off by at most 75 unit roundoffs of the scale. -/
theorem C83_internal (v : Vec 6) (h : Small .ico R v) (j : Fin 3) :
    |F.internal v j - Package.ico.perp v j| ≤ 75 * R / 2 ^ 53 := by
  have h1 := (internal_approx F hR hR2 h j).err
  have e : 75 * R / 2 ^ 53 = 75 * ulp * R := by unfold ulp; ring
  rw [e]
  exact h1

/-- C83: the floating-point distance of two points of internal space is off by at most 32 unit roundoffs of the
scale, and no exception is raised. -/
theorem C83_distance (v w : Vec 6) (hv : Vec.Ok v) (hw : Vec.Ok w) (h : DistanceSmall R v w) :
    ∃ d, F.distanceInPerpSpace v w = .ok d ∧ |d - dist3 (Package.ico.perp v) (Package.ico.perp w)| ≤ 32 * R / 2 ^ 53 := by
  obtain ⟨d, h1, h2, -⟩ := distance_rounded F hR hR2 hv hw h
  refine ⟨d, h1, ?_⟩
  have e : 32 * R / 2 ^ 53 = 32 * ulp * R := by unfold ulp; ring
  rw [e]
  exact h2

/-! ## C84: numerical volumes -/

/-- C84: the floating-point volume of a tetrahedron is off by at most 7224 unit roundoffs of the cube of the scale. -/
theorem C84_volume (t : Simplex 4) (h : ∀ i, Small .ico R (t i)) :
    |F.tetrahedronVolume (fun i => F.internal (t i)) - tetVol (Package.ico.perps t)| ≤ 7224 * R ^ 3 / 2 ^ 53 := by
  have h1 := (volume_approx F hR hR2 (t := Package.ico.perps t) fun i j => internal_approx F hR hR2 (h i) j).err
  have e : 7224 * R ^ 3 / 2 ^ 53 = 903 * ulp * (8 * R ^ 3) := by unfold ulp; ring
  have e2 : tetVol (Package.ico.perps t) = tetrahedronVolumeNumerical (Package.ico.perps t) := (volNum_eq _).symm
  rw [e, e2]
  exact h1

/-- C84: a tetrahedron whose exact volume is larger than the error never gets the numerical volume 0. -/
theorem C84_positive (t : Simplex 4) (h : ∀ i, Small .ico R (t i)) (hv : 7224 * R ^ 3 / 2 ^ 53 < tetVol (Package.ico.perps t)) :
    0 < F.tetrahedronVolume (fun i => F.internal (t i)) := by
  have := abs_le.1 (C84_volume F hR hR2 t h)
  linarith

omit hR hR2 in
/-- C84: a determinant of a 3×3 matrix computed by Gaussian elimination with partial pivoting, as the exponential of the
sum of the logarithms of the pivots, is off by at most 4000 unit roundoffs of the cube of the largest entry, whatever the
roundings of the elementary operations are. -/
theorem C84_determinant (r : Rounding) (A : Matrix (Fin 3) (Fin 3) ℝ) (M : ℝ) (hM : 1 ≤ M) (hM2 : M ≤ 2 ^ 12)
    (h : ∀ i j, |A i j| ≤ M ∧ ∃ x, A i j = r.fl x) : |r.det A - A.det| ≤ 4000 * M ^ 3 / 2 ^ 53 := by
  have e : 4000 * M ^ 3 / 2 ^ 53 = 4000 * ulp * M ^ 3 := by unfold ulp; ring
  rw [e]
  exact r.det_bound A M hM hM2 h

/-! ## C85: the inside test -/

/-- C85: when the compared numbers are apart by the margin, the test computed with rounding accepts exactly the points
that it accepts over the real numbers. -/
theorem C85_inside (v : Vec 6) (t : Simplex 4) (hv : Small .ico R v) (ht : ∀ i, Small .ico R (t i))
    (h : InsideApart (margin R) (Package.ico.perps t) (Package.ico.perp v)) :
    F.insideTau v t = true ↔ Accepts (Package.ico.perps t) (Package.ico.perp v) := by
  rw [inside_rounded F hR hR2 hv ht h, C32_perp]

/-- C85: no point of a closed tetrahedron is lost, if the volume of the tetrahedron is more than 10⁶ margins. -/
theorem C85_complete (v : Vec 6) (t : Simplex 4) (hv : Small .ico R v) (ht : ∀ i, Small .ico R (t i))
    (hvol : 10 ^ 6 * margin R < tetVol (Package.ico.perps t))
    (hx : Package.ico.perp v ∈ convexHull ℝ (Set.range (Package.ico.perps t))) : F.insideTau v t = true := by
  obtain ⟨w, hw, h0⟩ := mem_solid_iff.1 hx
  have hm : 0 < margin R := by unfold margin; positivity
  have hsum : ∑ i, |w i| = 1 := by
    simp only [abs_of_nonneg (h0 _)]
    exact hw.1
  rw [C85_inside F hR hR2 v t hv ht ⟨w, hw, ?_⟩]
  · exact ⟨by intro h; rw [h] at hvol; linarith, w, hw, by rw [hsum]; norm_num⟩
  · rw [hsum, sub_self, zero_sub, abs_neg, abs_of_pos (by norm_num)]
    linarith

/-- C85: no point that is further outside than the tolerance and the margin is accepted: one with a barycentric
coordinate below `-10⁻⁶/2` by the margin, relative to the volume. -/
theorem C85_reject (v : Vec 6) (t : Simplex 4) (hv : Small .ico R v) (ht : ∀ i, Small .ico R (t i)) (w : Fin 4 → ℝ)
    (hw : IsBary (Package.ico.perps t) w (Package.ico.perp v)) (i : Fin 4)
    (hi : tetVol (Package.ico.perps t) * w i < -(tetVol (Package.ico.perps t) * (1 / 10 ^ 6 / 2)) - margin R) :
    F.insideTau v t = false := by
  have hm : 0 < margin R := by unfold margin; positivity
  have hV : 0 ≤ tetVol (Package.ico.perps t) := by rw [tetVol_det4]; positivity
  have hs : 1 - 2 * w i ≤ ∑ k, |w k| := by
    have h1 : ∑ k, (w k + (if k = i then -2 * w i else 0)) ≤ ∑ k, |w k| := by
      refine Finset.sum_le_sum fun k _ => ?_
      by_cases hk : k = i
      · rw [if_pos hk, hk]
        have := neg_abs_le (w i)
        linarith
      · rw [if_neg hk, add_zero]; exact le_abs_self _
    rw [Finset.sum_add_distrib, hw.1, Finset.sum_ite_eq' Finset.univ i, if_pos (Finset.mem_univ i)] at h1
    linarith
  have h2 : tetVol (Package.ico.perps t) * (1 - 2 * w i) ≤ tetVol (Package.ico.perps t) * ∑ k, |w k| :=
    mul_le_mul_of_nonneg_left hs hV
  have key : margin R < tetVol (Package.ico.perps t) * (∑ k, |w k| - 1 - 1 / 10 ^ 6) := by linarith
  have hpos : 0 < ∑ k, |w k| - 1 - 1 / 10 ^ 6 := by
    by_contra hneg
    have := mul_nonpos_of_nonneg_of_nonpos hV (not_lt.1 hneg)
    linarith
  by_contra h
  rw [Bool.not_eq_false, C85_inside F hR hR2 v t hv ht ⟨w, hw, by rw [abs_of_pos hpos]; exact key⟩] at h
  obtain ⟨h0, w', hw', hlt⟩ := h
  rw [bary_unique (det4_ne_iff.2 h0) hw' hw] at hlt
  linarith

/-! ## C86: the segment–triangle test -/

/-- C86: when the compared numbers are apart by the margin, the test computed with rounding reports exactly the
intersections that it reports over the real numbers. -/
theorem C86_segment (sg : Simplex 2) (tr : Simplex 3) (hs : ∀ i, Small .ico R (sg i)) (ht : ∀ i, Small .ico R (tr i))
    (h : SegmentApart (margin R) (Package.ico.perp (sg 0)) (Package.ico.perp (sg 1)) (Package.ico.perp (tr 0))
      (Package.ico.perp (tr 1)) (Package.ico.perp (tr 2))) :
    F.segmentMeetsTriangleTau sg tr = true ↔ Hits (Package.ico.perp (sg 0)) (Package.ico.perp (sg 1))
      (Package.ico.perp (tr 0)) (Package.ico.perp (tr 1)) (Package.ico.perp (tr 2)) := by
  rw [segment_rounded F hR hR2 hs ht h, C33_perp]

/-- C86: a genuine intersection is reported, when the three directions span more than 10⁶ margins (and more than the
tolerance). -/
theorem C86_complete (sg : Simplex 2) (tr : Simplex 3) (hs : ∀ i, Small .ico R (sg i)) (ht : ∀ i, Small .ico R (tr i))
    (hb : 10 ^ 6 * margin R < |Matrix.det (Matrix.of ![Package.ico.perp (sg 1) - Package.ico.perp (sg 0),
      Package.ico.perp (tr 2) - Package.ico.perp (tr 0), Package.ico.perp (tr 1) - Package.ico.perp (tr 0)])|)
    (hb2 : 1 / 10 ^ 6 + margin R < |Matrix.det (Matrix.of ![Package.ico.perp (sg 1) - Package.ico.perp (sg 0),
      Package.ico.perp (tr 2) - Package.ico.perp (tr 0), Package.ico.perp (tr 1) - Package.ico.perp (tr 0)])|)
    (x : Fin 3 → ℝ) (h1 : x ∈ segment ℝ (Package.ico.perp (sg 0)) (Package.ico.perp (sg 1)))
    (h2 : x ∈ convexHull ℝ (Set.range fun i => Package.ico.perp (tr i))) : F.segmentMeetsTriangleTau sg tr = true := by
  have hm : 0 < margin R := by unfold margin; positivity
  obtain ⟨hl, t, u, v, hmeet, -⟩ := (C33_exact ![Package.ico.perp (sg 0), Package.ico.perp (sg 1)]
    (fun i => Package.ico.perp (tr i))).1 (C33_complete _ _ x (by
      show 1 / 10 ^ 6 ≤ _
      exact le_trans (by linarith) hb2.le) h1 h2)
  obtain ⟨a, b, ha, hb', hab, hx⟩ := h1
  obtain ⟨w, ⟨hw1, hw2⟩, hw0⟩ := mem_solid_iff.1 h2
  rw [Fin.sum_univ_three] at hw1 hw2
  have hM : Meets (Package.ico.perp (sg 0)) (Package.ico.perp (sg 1)) (Package.ico.perp (tr 0)) (Package.ico.perp (tr 1))
      (Package.ico.perp (tr 2)) b (w 1) (w 2) := by
    unfold Meets
    have e1 : Package.ico.perp (sg 0) + b • (Package.ico.perp (sg 1) - Package.ico.perp (sg 0)) = x := by
      rw [← hx, show a = 1 - b by linarith, sub_smul, one_smul, smul_sub]; abel
    rw [e1, hw2, show w 0 = 1 - w 1 - w 2 by linarith, sub_smul, sub_smul, one_smul, smul_sub, smul_sub]
    abel
  have h0 : ((Package.ico.perp (sg 1) - Package.ico.perp (sg 0)) ⨯₃ (Package.ico.perp (tr 2) - Package.ico.perp (tr 0))) ⬝ᵥ
      (Package.ico.perp (tr 1) - Package.ico.perp (tr 0)) ≠ 0 := by
    rw [bunbo_det]
    intro h0
    rw [h0, abs_zero] at hb
    linarith
  have p0 := hw0 0
  have p1 := hw0 1
  have p2 := hw0 2
  rw [C86_segment F hR hR2 sg tr hs ht ⟨?_, ?_⟩]
  · exact ⟨by linarith, b, w 1, w 2, hM, by linarith, by linarith, by linarith, by linarith, by linarith, by linarith⟩
  · rw [abs_of_pos (by linarith)]; linarith
  · intro t' u' v' hM' _ y hy
    obtain ⟨e1, e2, e3⟩ := (moller h0 t' u' v').1 hM'
    obtain ⟨f1, f2, f3⟩ := (moller h0 b (w 1) (w 2)).1 hM
    have et : t' = b := by rw [e3, f3]
    have eu : u' = w 1 := by rw [e1, f1]
    have ev : v' = w 2 := by rw [e2, f2]
    have hy' : 1 / 10 ^ 6 ≤ |y| := by
      rw [et, eu, ev] at hy
      simp only [List.mem_cons, List.not_mem_nil, or_false] at hy
      rcases hy with rfl | rfl | rfl | rfl | rfl | rfl
      · exact le_trans (by linarith) (le_abs_self _)
      · exact le_trans (by linarith) (neg_le_abs _)
      · exact le_trans (by linarith) (le_abs_self _)
      · exact le_trans (by linarith) (neg_le_abs _)
      · exact le_trans (by linarith) (le_abs_self _)
      · exact le_trans (by linarith) (neg_le_abs _)
    have := mul_le_mul hb.le hy' (by norm_num) (abs_nonneg _)
    have h3 := mul_lt_mul_of_pos_right hb (lt_of_lt_of_le (by norm_num : (0 : ℝ) < 1 / 10 ^ 6) hy')
    have h4 : 10 ^ 6 * margin R * (1 / 10 ^ 6) ≤ 10 ^ 6 * margin R * |y| := mul_le_mul_of_nonneg_left hy' (by positivity)
    linarith

/-! ## C87: the coplanarity test -/

/-- C87: the three possible outcomes of the coplanarity test on four or more points, for any draws of triples. `none` (no
triple was found to span a plane): all drawn triples are almost collinear. `True`: a drawn triple spans a plane, and all
points are in it up to 10⁻¹⁰ and a quarter of the margin. `False`: a drawn triple spans a plane, and some point is further
from it than 10⁻¹⁰ less a quarter of the margin. -/
theorem C87_coplanar (pts : List (Vec 6)) (hp : ∀ v ∈ pts, Small .ico R v) (hlen : 3 < pts.length)
    (draws : (n : Nat) → Draws n) :
    let off := fun a b c x : Fin 3 → ℝ => |crossProduct (b - a) (c - a) ⬝ᵥ (x - a)|
    (F.coplanarCheck draws pts = none ∧ ∀ d ∈ draws (pts.map F.internal).length, ∃ a ∈ pts, ∃ b ∈ pts, ∃ c ∈ pts,
        pts[d.1.val]? = some a ∧ pts[d.2.1.val]? = some b ∧ pts[d.2.2.val]? = some c ∧ ∀ k,
        |crossProduct (Package.ico.perp b - Package.ico.perp a) (Package.ico.perp c - Package.ico.perp a) k| <
          1 / 10 ^ 6 + R ^ 2 / 2 ^ 41) ∨
    ∃ a ∈ pts, ∃ b ∈ pts, ∃ c ∈ pts, (∃ k, 1 / 10 ^ 6 - R ^ 2 / 2 ^ 41 ≤
        |crossProduct (Package.ico.perp b - Package.ico.perp a) (Package.ico.perp c - Package.ico.perp a) k|) ∧
      ((F.coplanarCheck draws pts = some true ∧ ∀ x ∈ pts,
          off (Package.ico.perp a) (Package.ico.perp b) (Package.ico.perp c) (Package.ico.perp x) < 1 / 10 ^ 10 + margin R / 4) ∨
        (F.coplanarCheck draws pts = some false ∧ ∃ x ∈ pts, 1 / 10 ^ 10 - margin R / 4 <
          off (Package.ico.perp a) (Package.ico.perp b) (Package.ico.perp c) (Package.ico.perp x))) := by
  have hlen' : (pts.map F.internal).length = (pts.map Package.ico.perp).length := by simp
  have hget : ∀ i : Fin (pts.map F.internal).length, ∃ a ∈ pts, pts[i.val]? = some a ∧
      (pts.map Package.ico.perp).get (i.cast hlen') = Package.ico.perp a := by
    intro i
    have hi : i.val < pts.length := by simpa using i.2
    exact ⟨pts[i.val], List.getElem_mem _, List.getElem?_eq_getElem hi, by simp⟩
  have hE : EPS = 1 / 10 ^ 6 := eps_eq
  rcases coplanar_rounded F hR hR2 hlen' (fun i j => by
      simp only [List.get_eq_getElem, List.getElem_map, Fin.val_cast]
      exact internal_approx F hR hR2 (hp _ (List.getElem_mem _)) j) (by simpa using hlen) (draws _) with
    ⟨h1, h2⟩ | ⟨d, -, ⟨k, hk⟩, h⟩
  · left
    refine ⟨h1, fun d hd => ?_⟩
    obtain ⟨a, ha, ea, pa⟩ := hget d.1
    obtain ⟨b, hb, eb, pb⟩ := hget d.2.1
    obtain ⟨c, hc, ec, pc⟩ := hget d.2.2
    refine ⟨a, ha, b, hb, c, hc, ea, eb, ec, fun k => ?_⟩
    have := h2 d hd k
    rwa [pa, pb, pc, hE] at this
  · right
    obtain ⟨a, ha, ea, pa⟩ := hget d.1
    obtain ⟨b, hb, eb, pb⟩ := hget d.2.1
    obtain ⟨c, hc, ec, pc⟩ := hget d.2.2
    rw [pa, pb, pc] at hk h
    rw [hE] at hk
    refine ⟨a, ha, b, hb, c, hc, ⟨k, hk⟩, ?_⟩
    rcases h with ⟨h1, h2⟩ | ⟨h1, x, hx, h2⟩
    · exact .inl ⟨h1, fun x hx => h2 _ (List.mem_map_of_mem hx)⟩
    · obtain ⟨v, hv, rfl⟩ := List.mem_map.1 hx
      exact .inr ⟨h1, v, hv, h2⟩

/-! ## C88: two tetrahedra -/

/-- C88: for a pair resolved in spite of rounding, the code computed with rounding is 1 if the first tetrahedron lies in
the second, else 2 if the second lies in the first, else 3 if they have a point in common, else 0. -/
theorem C88_codes (s t : Simplex 4) (ss : ∀ i, Small .ico R (s i)) (st : ∀ i, Small .ico R (t i))
    (h : ResolvedRounded R (Package.ico.perps s) (Package.ico.perps t)) :
    let A := solid (Package.ico.perps s)
    let B := solid (Package.ico.perps t)
    (F.checkTwoTetrahedra s t = 1 ↔ A ⊆ B) ∧ (F.checkTwoTetrahedra s t = 2 ↔ ¬ A ⊆ B ∧ B ⊆ A) ∧
      (F.checkTwoTetrahedra s t = 3 ↔ ¬ A ⊆ B ∧ ¬ B ⊆ A ∧ (A ∩ B).Nonempty) ∧
      (F.checkTwoTetrahedra s t = 0 ↔ A ∩ B = ∅) := by
  rw [(pair_rounded F hR hR2 ss st h.apartST h.apartTS).1]
  exact C58_codes s t h.resolved

/-- C88: for such a pair whose common part is not flat, the pieces computed with rounding are exactly the common part,
whatever triples the coplanarity test draws, if the tetrahedralisation of the rounded corners fills the hull of the
corners. -/
theorem C88_two (draws : (n : Nat) → Draws n) (delaunay : Delaunay) (s t : Simplex 4)
    (hD : ∀ r pns, (∀ v ∈ r, Vec.Ok v ∧ Candidate (Package.ico.perps s) (Package.ico.perps t) (Package.ico.perp v)) →
      F.delaunayInput r = .ok pns → ¬ InPlane (r.map Package.ico.perp) → FillsHullOf (r.map Package.ico.perp) (delaunay pns))
    (hs : Simplex.Ok s) (ht : Simplex.Ok t) (ss : ∀ i, Small .ico R (s i)) (st : ∀ i, Small .ico R (t i))
    (sc : ∀ pts, crossingPoints s t = .ok pts → ∀ v ∈ pts, Small .ico R v)
    (h : ResolvedRounded R (Package.ico.perps s) (Package.ico.perps t))
    (hsolid : (interior (solid (Package.ico.perps s) ∩ solid (Package.ico.perps t))).Nonempty) :
    ∃ o, F.intersectionTwoTetrahedra draws delaunay s t = .ok (some o) ∧
      Package.ico.region o = solid (Package.ico.perps s) ∩ solid (Package.ico.perps t) := by
  rw [intersection_rounded_eq F hR hR2 hs ht ss st h.apartST h.apartTS]
  have hull := commonPts_hull hs ht h.resolved
  have hsmall : ∀ v ∈ commonPts s t, Small .ico R v := by
    intro v hv
    unfold commonPts at hv
    rw [List.mem_append, List.mem_append, List.mem_filter, List.mem_filter] at hv
    rcases hv with (hv | ⟨hv, -⟩) | ⟨hv, -⟩
    · exact sc _ (crossingPoints_ok hs ht) v hv
    · obtain ⟨i, rfl⟩ := (List.mem_ofFn' _ _).mp hv; exact ss i
    · obtain ⟨i, rfl⟩ := (List.mem_ofFn' _ _).mp hv; exact st i
  obtain ⟨o, ho, hmem, hcov⟩ := common_fills_rounded F (draws := draws) (delaunay := delaunay) (pts := commonPts s t)
    (fun v hv => (commonPts_near hs ht hv).1) (by
      intro hpl
      rw [← hull, map_perp_set] at hsolid
      exact hull_flat hpl hsolid)
    (fun r pns hr hi hn => hD r pns (fun v hv => ⟨(commonPts_near hs ht (hr v hv)).1,
      (commonPts_exact hs ht h.resolved (hr v hv)).1⟩) hi hn)
    (fun r hr hc => coplanar_true_rounded F hR hR2 (fun v hv => hsmall v (hr v hv))
      (fun v hv => (commonPts_exact hs ht h.resolved (hr v hv)).1) h.flat hc)
  exact ⟨o, ho, by rw [← hull]; exact Set.Subset.antisymm (region_subset_hull hmem) hcov⟩

/-- C88: whether or not the common part is flat, what is returned lies in it and covers it up to volume zero. -/
theorem C88_two_outcome (draws : (n : Nat) → Draws n) (delaunay : Delaunay) (s t : Simplex 4)
    (hD : ∀ r pns, (∀ v ∈ r, Vec.Ok v ∧ Candidate (Package.ico.perps s) (Package.ico.perps t) (Package.ico.perp v)) →
      F.delaunayInput r = .ok pns → ¬ InPlane (r.map Package.ico.perp) → FillsHullOf (r.map Package.ico.perp) (delaunay pns))
    (hs : Simplex.Ok s) (ht : Simplex.Ok t) (ss : ∀ i, Small .ico R (s i)) (st : ∀ i, Small .ico R (t i))
    (sc : ∀ pts, crossingPoints s t = .ok pts → ∀ v ∈ pts, Small .ico R v)
    (h : ResolvedRounded R (Package.ico.perps s) (Package.ico.perps t)) (r : Option (Obj 4))
    (hr : F.intersectionTwoTetrahedra draws delaunay s t = .ok r) :
    Package.ico.region (r.getD []) ⊆ solid (Package.ico.perps s) ∩ solid (Package.ico.perps t) ∧
      volume ((solid (Package.ico.perps s) ∩ solid (Package.ico.perps t)) \ Package.ico.region (r.getD [])) = 0 := by
  by_cases hi : (interior (solid (Package.ico.perps s) ∩ solid (Package.ico.perps t))).Nonempty
  · obtain ⟨o, ho, e⟩ := C88_two F hR hR2 draws delaunay s t hD hs ht ss st sc h hi
    rw [hr] at ho
    cases ho
    rw [Option.getD_some, e, Set.sdiff_self, measure_empty]
    exact ⟨subset_rfl, rfl⟩
  · refine ⟨?_, measure_mono_null Set.sdiff_subset (common_null hi)⟩
    cases r with
    | none => rintro x ⟨a, ha, -⟩; simp at ha
    | some o =>
      rw [intersection_rounded_eq F hR hR2 hs ht ss st h.apartST h.apartTS] at hr
      have hm := (common_mem_rounded F (fun v hv => (commonPts_near hs ht hv).1) hr).2
      rw [← commonPts_hull hs ht h.resolved]
      exact region_subset_hull hm

/-! ## C89: two objects -/

theorem objects_rounded_rough (kind : Kind) (draws : Simplex 4 → Simplex 4 → (n : Nat) → Draws n)
    (delaunay : Simplex 4 → Simplex 4 → Delaunay) {obj1 obj2 : Obj 4} (h0 : obj2 ≠ []) (ok1 : Obj.Ok obj1) (ok2 : Obj.Ok obj2)
    (h : ObjectsRounded R obj1 obj2) : ∃ c dd, centroidObj arith obj2 = .ok c ∧
      F.ballRadiusObj obj2 c = .ok dd ∧
      F.intersectionApi kind draws delaunay (.d4 obj1) (.d4 obj2) = intersectionTwoObj kind (fun s => F.roughCheck s c dd)
        (fun s t => .ok (F.checkTwoTetrahedra s t)) (fun s t => F.intersectionTwoTetrahedra (draws s t) (delaunay s t) s t)
        obj1 obj2 ∧
      ∀ s ∈ obj1, ∃ b, F.roughCheck s c dd = .ok b ∧ (b = false → ∀ t ∈ obj2,
        ¬ (interior (solid (Package.ico.perps s) ∩ solid (Package.ico.perps t))).Nonempty) := by
  obtain ⟨c, hc, hok⟩ : ∃ c, centroidObj arith obj2 = .ok c ∧ Vec.Ok c :=
    ⟨_, centroidObj_ok Package.ico.lawful h0 (by decide) ok2, nvec_ok _⟩
  have hmem : ∀ v, v ∈ flattenObj obj2 ↔ ∃ s ∈ obj2, ∃ i, s i = v := by
    intro v; simp only [flattenObj, List.mem_flatMap, List.mem_ofFn]
  obtain ⟨d, hd, d1, d2, -⟩ := ballList_rounded F hR hR2 hok (l := flattenObj obj2)
    (by intro v hv; obtain ⟨t, ht, i, rfl⟩ := (hmem v).1 hv; exact ⟨ok2 t ht i, h.dist2 c hc t ht i⟩)
    (by
      obtain ⟨t, ht⟩ := List.exists_mem_of_ne_nil obj2 h0
      exact List.ne_nil_of_mem ((hmem (t 0)).2 ⟨t, ht, _, rfl⟩))
  refine ⟨c, d, hc, hd, ?_, fun s hs => ?_⟩
  · show F.intersectionTwoObj1 kind draws delaunay obj1 obj2 = _
    unfold Float64.intersectionTwoObj1
    rw [hc, bind_ok', show F.ballRadiusObj obj2 c = .ok d from hd, bind_ok']
  · obtain ⟨c1, hc1⟩ : ∃ c1, centroid arith (List.ofFn s) = .ok c1 :=
      ⟨_, centroid_ok Package.ico.lawful (by simp) (by
        intro v hv; obtain ⟨i, rfl⟩ := (List.mem_ofFn' _ _).mp hv; exact ok1 s hs i)⟩
    have hball : ∀ t ∈ obj2, ∀ y ∈ solid (Package.ico.perps t), dist3 y (Package.ico.perp c) ≤ d + 32 * ulp * R :=
      fun t ht y hy => solid_ball (q := Package.ico.perps t) (fun i => d2 _ ((hmem _).2 ⟨t, ht, i, rfl⟩)) hy
    obtain ⟨t0, ht0⟩ := List.exists_mem_of_ne_nil obj2 h0
    have hr0 : 0 ≤ d + 32 * ulp * R :=
      (dist3_nonneg _ _).trans (hball t0 ht0 _ (subset_convexHull ℝ _ ⟨0, rfl⟩))
    obtain ⟨b, hb, hfalse⟩ := rough_rounded F hR hR2 (ok1 s hs) hok hc1 (h.dist1 s hs c1 hc1) (h.dist0 c hc s hs c1 hc1)
      hr0 le_rfl (d1.trans (by linarith))
    exact ⟨b, hb, fun hb0 t ht hi => hfalse hb0 _ (hball t ht)
      (common_ball hR (ok1 s hs) (ok2 t ht) (fun i j => (h.small1 s hs i).perp j) (h.pairs s hs t ht) hi)⟩

theorem objects_rounded_eq (kind : Kind) (draws : Simplex 4 → Simplex 4 → (n : Nat) → Draws n)
    (delaunay : Simplex 4 → Simplex 4 → Delaunay) {obj1 obj2 : Obj 4} (h0 : obj2 ≠ []) (ok1 : Obj.Ok obj1) (ok2 : Obj.Ok obj2)
    (h : ObjectsRounded R obj1 obj2) : ∃ rough : Simplex 4 → Py Bool,
      F.intersectionApi kind draws delaunay (.d4 obj1) (.d4 obj2) = intersectionTwoObj kind rough
        (fun s t => .ok (F.checkTwoTetrahedra s t)) (fun s t => F.intersectionTwoTetrahedra (draws s t) (delaunay s t) s t)
        obj1 obj2 ∧
      ∀ s ∈ obj1, ∃ b, rough s = .ok b ∧ (b = false → ∀ t ∈ obj2,
        ¬ (interior (solid (Package.ico.perps s) ∩ solid (Package.ico.perps t))).Nonempty) := by
  obtain ⟨c, dd, -, -, e, h⟩ := objects_rounded_rough F hR hR2 kind draws delaunay h0 ok1 ok2 h
  exact ⟨_, e, h⟩

/-- C89: for two objects that are resolved in spite of rounding, nothing of the common part is lost, for both kinds of
result: the pieces returned when all numerical tests are computed with rounding cover the intersection of the two objects
up to a set of volume zero. -/
theorem C89_objects (kind : Kind) (draws : Simplex 4 → Simplex 4 → (n : Nat) → Draws n)
    (delaunay : Simplex 4 → Simplex 4 → Delaunay) (obj1 obj2 : Obj 4)
    (hD : ∀ s ∈ obj1, ∀ t ∈ obj2, ∀ r pns,
      (∀ v ∈ r, Vec.Ok v ∧ Candidate (Package.ico.perps s) (Package.ico.perps t) (Package.ico.perp v)) →
      F.delaunayInput r = .ok pns → ¬ InPlane (r.map Package.ico.perp) →
      FillsHullOf (r.map Package.ico.perp) (delaunay s t pns))
    (ok1 : Obj.Ok obj1) (ok2 : Obj.Ok obj2) (h : ObjectsRounded R obj1 obj2) (r : Option (Obj 4))
    (hr : F.intersectionApi kind draws delaunay (.d4 obj1) (.d4 obj2) = .ok r) :
    volume ((Package.ico.region obj1 ∩ Package.ico.region obj2) \ Package.ico.region (r.getD [])) = 0 := by
  by_cases h0 : obj2 = []
  · subst h0
    refine measure_mono_null (t := ∅) ?_ measure_empty
    rintro x ⟨⟨-, ⟨a, ha, -⟩⟩, -⟩
    simp at ha
  · obtain ⟨rough, e, hro⟩ := objects_rounded_eq F hR hR2 kind draws delaunay h0 ok1 ok2 h
    rw [e] at hr
    refine intersectionTwoObj_cover ?_ ?_ ?_ hr
    · intro s hs hf t ht
      obtain ⟨b, hb, hfalse⟩ := hro s hs
      rw [hf] at hb
      exact common_null (hfalse (Except.ok.inj hb).symm t ht)
    · intro s hs t ht f hf f1 f2 f3
      have hf := Except.ok.inj hf
      obtain ⟨c1, c2, c3, c0⟩ := C58_codes s t (h.pairs s hs t ht).resolved
      rw [← c0]
      rw [(pair_rounded F hR hR2 (h.small1 s hs) (h.small2 t ht) (h.pairs s hs t ht).apartST (h.pairs s hs t ht).apartTS).1] at hf
      have : checkTwoTetrahedra s t = 0 ∨ checkTwoTetrahedra s t = 1 ∨ checkTwoTetrahedra s t = 2 ∨
          checkTwoTetrahedra s t = 3 := by
        unfold checkTwoTetrahedra
        split
        · simp
        · split
          · simp
          · split <;> simp
      omega
    · intro s hs t ht r' _ hr'
      exact (C88_two_outcome F hR hR2 _ _ s t (hD s hs t ht) (ok1 s hs) (ok2 t ht) (h.small1 s hs) (h.small2 t ht)
        (h.crossing s hs t ht) (h.pairs s hs t ht) r' hr').2

/-- C89, the converse: with kind 'standard' the returned pieces lie in the intersection of the two objects. -/
theorem C89_inside (draws : Simplex 4 → Simplex 4 → (n : Nat) → Draws n)
    (delaunay : Simplex 4 → Simplex 4 → Delaunay) (obj1 obj2 : Obj 4)
    (hD : ∀ s ∈ obj1, ∀ t ∈ obj2, ∀ r pns,
      (∀ v ∈ r, Vec.Ok v ∧ Candidate (Package.ico.perps s) (Package.ico.perps t) (Package.ico.perp v)) →
      F.delaunayInput r = .ok pns → ¬ InPlane (r.map Package.ico.perp) →
      FillsHullOf (r.map Package.ico.perp) (delaunay s t pns))
    (h0 : obj2 ≠ []) (ok1 : Obj.Ok obj1) (ok2 : Obj.Ok obj2) (h : ObjectsRounded R obj1 obj2) (r : Option (Obj 4))
    (hr : F.intersectionApi .standard draws delaunay (.d4 obj1) (.d4 obj2) = .ok r) :
    Package.ico.region (r.getD []) ⊆ Package.ico.region obj1 ∩ Package.ico.region obj2 := by
  obtain ⟨rough, e, -⟩ := objects_rounded_eq F hR hR2 .standard draws delaunay h0 ok1 ok2 h
  rw [e] at hr
  have hcode := fun s hs t ht => C88_codes F hR hR2 s t (h.small1 s hs) (h.small2 t ht) (h.pairs s hs t ht)
  cases r with
  | none => rintro x ⟨a, ha, -⟩; simp at ha
  | some r =>
    obtain ⟨-, h2⟩ := intersectionTwoObj_mem
      (Q := fun s a => ∃ t ∈ obj2, solid (Package.ico.perps a) ⊆ solid (Package.ico.perps s) ∩ solid (Package.ico.perps t))
      (fun s hs t ht hf => ⟨t, ht, fun x hx => ⟨hx, (hcode s hs t ht).1.1 (Except.ok.inj hf) hx⟩⟩)
      (fun s hs t ht hf => ⟨t, ht, fun x hx => ⟨((hcode s hs t ht).2.1.1 (Except.ok.inj hf)).2 hx, hx⟩⟩)
      (fun s hs t ht o _ hi a ha => ⟨t, ht, fun x hx =>
        (C88_two_outcome F hR hR2 _ _ s t (hD s hs t ht) (ok1 s hs) (ok2 t ht) (h.small1 s hs) (h.small2 t ht)
          (h.crossing s hs t ht) (h.pairs s hs t ht) _ hi).1 ⟨a, ha, hx⟩⟩) hr
    rintro x ⟨a, ha, hx⟩
    obtain ⟨s, hs, ⟨t, ht, hsub⟩ | ⟨hk, -⟩⟩ := h2 a ha
    · exact ⟨⟨s, hs, (hsub hx).1⟩, ⟨t, ht, (hsub hx).2⟩⟩
    · cases hk

end

/-! ## Cases that meet the hypotheses -/

/-- Entries of moderate size, decidably. -/
def smallEntry (R : ℕ) (t : Num3) : Bool := decide (t.c ≠ 0 ∧ |t.c| ≤ 2 ^ 63 ∧ |t.a| + 2 * |t.b| ≤ R * |t.c|)

theorem smallNum_of {R : ℕ} {t : Num3} (h : smallEntry R t = true) : SmallNum R t := by
  obtain ⟨h1, h2, h3⟩ := of_decide_eq_true h
  exact ⟨h1, by exact_mod_cast h2, by exact_mod_cast h3⟩

theorem small_of {R : ℕ} {v : Vec 6} (h : ∀ i, smallEntry R (v i) = true) (hp : ∀ j, |Package.ico.perp v j| ≤ R) :
    Small .ico R v :=
  ⟨fun i => (smallNum_of (h i)).den, fun i => (smallNum_of (h i)).int64, fun i => (smallNum_of (h i)).size, hp⟩

/-- The exact part of `intersection_segment_surface`. -/
def exactCrossing (segment : Simplex 2) (surface : Simplex 3) : Py (Vec 6) := do
  let vec6AB ← subVectors arith (segment 1) (segment 0)
  let vecAB ← projection3 vec6AB
  let tmp ← subVectors arith (surface 1) (surface 0)
  let vecCD ← projection3 tmp
  let tmp ← subVectors arith (surface 2) (surface 0)
  let vecCE ← projection3 tmp
  let tmp ← subVectors arith (segment 0) (surface 0)
  let vecCA ← projection3 tmp
  let vecP ← outerProduct arith vecAB vecCE
  let vecQ ← outerProduct arith vecCA vecCD
  let bunbo ← innerProduct arith vecP vecCD
  let bunbo ← needSome bunbo
  let bunshi ← innerProduct arith vecQ vecCE
  let bunshi ← needSome bunshi
  let t ← needSome (div bunshi bunbo)
  let tmp ← mulVector arith vec6AB t
  addVectors arith (segment 0) tmp

def smallCrossing (R : ℕ) (s t : Simplex 4) : Bool :=
  combEF.all fun c => match exactCrossing (segmentOf s c.1) (surfaceOf t c.2) with
    | .ok v => (List.finRange 6).all fun i => smallEntry R (v i)
    | .error _ => true

def smallDistance (R : ℕ) (v w : Vec 6) : Bool :=
  match (do let a ← subVectors arith v w; projection3 a : Py (Vec 3)) with
  | .ok b => (List.finRange 3).all fun i => smallEntry R (b i)
  | .error _ => true

theorem distanceSmall_of {R : ℕ} {v w : Vec 6} (h : smallDistance R v w = true) : DistanceSmall R v w := by
  intro a b ha hb j
  unfold smallDistance at h
  rw [ha, bind_ok', hb] at h
  exact smallNum_of (List.all_eq_true.1 h j (List.mem_finRange j))

theorem crossing_entry {R : ℕ} {s t : Simplex 4} (h : smallCrossing R s t = true) {c} (hc : c ∈ combEF) {v : Vec 6}
    (hv : v ∈ crossPt s t c) (i : Fin 6) : smallEntry R (v i) = true := by
  have h1 := List.all_eq_true.1 h c hc
  have h2 : exactCrossing (segmentOf s c.1) (surfaceOf t c.2) = .ok v := by
    unfold crossPt at hv
    have e : intersectionSegmentSurface (segmentOf s c.1) (surfaceOf t c.2) =
        if segmentMeetsTriangleTau (segmentOf s c.1) (surfaceOf t c.2) then
          (exactCrossing (segmentOf s c.1) (surfaceOf t c.2)).map some else .ok none := by
      unfold intersectionSegmentSurface exactCrossing
      split
      · simp only [bind, Except.bind, Except.map]
        repeat' split <;> try rfl
        all_goals simp_all
      · rfl
    rw [e] at hv
    by_cases hm : segmentMeetsTriangleTau (segmentOf s c.1) (surfaceOf t c.2) = true
    · rw [if_pos hm] at hv
      cases hx : exactCrossing (segmentOf s c.1) (surfaceOf t c.2) with
      | error e => rw [hx] at hv; simp [Except.map] at hv
      | ok w => rw [hx] at hv; simp [Except.map] at hv; rw [hv]
    · rw [if_neg hm] at hv
      simp at hv
  rw [h2] at h1
  exact List.all_eq_true.1 h1 i (List.mem_finRange i)

theorem exBig_coord (i : Fin 4) (j : Fin 3) : |Package.ico.perps exBig i j| ≤ (2 : ℕ) := by
  rw [perps_exBig]
  fin_cases i <;> fin_cases j <;> norm_num

theorem exInv_coord (i : Fin 4) (j : Fin 3) : |Package.ico.perps exInv i j| ≤ (2 : ℕ) := by
  rw [perps_exInv]
  fin_cases i <;> fin_cases j <;> norm_num

theorem exBig_small (i : Fin 4) : Small .ico (2 : ℕ) (exBig i) :=
  small_of (by revert i; decide +kernel) (exBig_coord i)

theorem exInv_small (i : Fin 4) : Small .ico (2 : ℕ) (exInv i) :=
  small_of (by revert i; decide +kernel) (exInv_coord i)

theorem exBigInv_rounded : ResolvedRounded (2 : ℕ) (Package.ico.perps exBig) (Package.ico.perps exInv) := by
  refine resolvedRounded_int (a := ![![0, 0, 0], ![2, 0, 0], ![0, 2, 0], ![0, 0, 2]])
    (b := ![![1, 1, 1], ![-1, 1, 1], ![1, -1, 1], ![1, 1, -1]]) (n := 1) (D := 8) (by norm_num) (by norm_num) ?_ ?_
    (by decide) (by decide) (by decide) (by decide) (by norm_num) (by unfold margin; norm_num) (by unfold margin; positivity)
    (by unfold margin; norm_num) (by decide +kernel) (by decide +kernel)
  · rw [perps_exBig]
    intro i j
    fin_cases i <;> fin_cases j <;> simp
  · rw [perps_exInv]
    intro i j
    fin_cases i <;> fin_cases j <;> simp

theorem exBigInv_crossing (pts : List (Vec 6)) (hp : crossingPoints exBig exInv = .ok pts) (v : Vec 6) (hv : v ∈ pts) :
    Small .ico (2 : ℕ) v := by
  rw [crossingPoints_ok exBig_ok exInv_ok] at hp
  cases hp
  have hv' : v ∈ commonPts exBig exInv := by
    unfold commonPts
    exact List.mem_append_left _ (List.mem_append_left _ hv)
  refine small_of (fun i => ?_) fun j => solid_coord exBig_coord (commonPts_exact exBig_ok exInv_ok exBigInv_resolved hv').2.1 j
  obtain ⟨c, hc, hv⟩ := List.mem_flatMap.1 hv
  rcases List.mem_append.1 hv with hv | hv
  · exact crossing_entry (by decide +kernel : smallCrossing 2 exBig exInv = true) hc hv i
  · exact crossing_entry (by decide +kernel : smallCrossing 2 exInv exBig = true) hc hv i

/-- Decidable form of the conditions on the distances. -/
def smallDistances (R : ℕ) (s t : Simplex 4) : Bool :=
  match centroidObj arith [t], centroid arith (List.ofFn s) with
  | .ok c, .ok c' => ((List.finRange 4).all fun i => smallDistance R (t i) c && smallDistance R (s i) c') && smallDistance R c' c
  | _, _ => false

theorem exBigInv_distances : smallDistances 2 exBig exInv = true := by decide +kernel

/-- The hypotheses of `C89_objects` and `C89_inside` are met. -/
theorem exBigInv_objects : ObjectsRounded (2 : ℕ) [exBig] [exInv] := by
  obtain ⟨c, hc⟩ : ∃ c, centroidObj arith [exInv] = .ok c :=
    ⟨_, centroidObj_ok Package.ico.lawful (by simp) (by decide) (by
      intro t ht; rw [List.mem_singleton.1 ht]; exact exInv_ok)⟩
  obtain ⟨c', hc'⟩ : ∃ c', centroid arith (List.ofFn exBig) = .ok c' :=
    ⟨_, centroid_ok Package.ico.lawful (by simp) (by
      intro v hv; obtain ⟨i, rfl⟩ := (List.mem_ofFn' _ _).mp hv; exact exBig_ok i)⟩
  have hd := exBigInv_distances
  unfold smallDistances at hd
  rw [hc, hc'] at hd
  simp only [Bool.and_eq_true, List.all_eq_true] at hd
  refine ⟨?_, ?_, ?_, ?_, ?_, ?_, ?_⟩
  · intro s hs; rw [List.mem_singleton.1 hs]; exact exBig_small
  · intro s hs; rw [List.mem_singleton.1 hs]; exact exInv_small
  · intro s hs t ht; rw [List.mem_singleton.1 hs, List.mem_singleton.1 ht]; exact exBigInv_crossing
  · intro s hs t ht; rw [List.mem_singleton.1 hs, List.mem_singleton.1 ht]; exact exBigInv_rounded
  · intro d hd' t ht i
    rw [hc] at hd'; cases hd'
    rw [List.mem_singleton.1 ht]
    exact distanceSmall_of (hd.1 i (List.mem_finRange i)).1
  · intro s hs d hd' i
    rw [List.mem_singleton.1 hs] at hd' ⊢
    rw [hc'] at hd'; cases hd'
    exact distanceSmall_of (hd.1 i (List.mem_finRange i)).2
  · intro d hd' s hs e he
    rw [hc] at hd'; cases hd'
    rw [List.mem_singleton.1 hs] at he
    rw [hc'] at he; cases he
    exact distanceSmall_of hd.2

/-- A library that answers with all quadruples meets the assumption on the tetrahedralisation, with any rounding. -/
theorem quads_fill (F : Float64) (r : List (Vec 6)) (pns : List (Fin 3 → ℝ)) 
    (hi : F.delaunayInput r = .ok pns) (hn : ¬ InPlane (r.map Package.ico.perp)) :
    FillsHullOf (r.map Package.ico.perp) (some (allQuads pns.length)) := by
  have hl : pns.length = (r.map Package.ico.perp).length := by
    have := (fillList_eq_ok hi).length_eq
    simp [this]
  refine ⟨_, rfl, fun i hi => by rw [← hl]; exact mem_allQuads.1 hi, fun x hx => ?_⟩
  obtain ⟨q, hq, hv, hx⟩ := hull_simplex hn hx
  choose i hi using fun k => List.get_of_mem (hq k)
  refine ⟨fun k => i k, mem_allQuads.2 fun k => by rw [hl]; exact (i k).2, ?_⟩
  have e : (fun k => (r.map Package.ico.perp)[(i k : Nat)]'((i k).2)) = q := funext hi
  exact ⟨by rw [e]; exact hv, by rw [e]; exact hx⟩

/-- The hypotheses of `C83_distance` are met. -/
example : ∃ d, Rounding.binary64.float64.distanceInPerpSpace (exBig 0) (exBig 1) = .ok d ∧
    |d - dist3 (Package.ico.perp (exBig 0)) (Package.ico.perp (exBig 1))| ≤ 32 * (2 : ℕ) / 2 ^ 53 :=
  C83_distance _ (R := (2 : ℕ)) (by norm_num) (by norm_num) _ _ (exBig_ok 0) (exBig_ok 1)
    (distanceSmall_of (by decide +kernel))

/-- The hypotheses of `C84_determinant` are met by every matrix of rounded numbers of moderate size, for example this one. -/
example : ∀ i j, |(fun i j => Rounding.binary64.fl (if i = j then 1 / 3 else 1 / 10) : Matrix (Fin 3) (Fin 3) ℝ) i j| ≤ 1 ∧
    ∃ x, (fun i j => Rounding.binary64.fl (if i = j then 1 / 3 else 1 / 10) : Matrix (Fin 3) (Fin 3) ℝ) i j =
      Rounding.binary64.fl x := by
  intro i j
  refine ⟨?_, _, rfl⟩
  have hb : |(if i = j then 1 / 3 else 1 / 10 : ℝ)| ≤ 1 / 3 := by split <;> norm_num
  have h := Rounding.nearest_err (if i = j then 1 / 3 else 1 / 10 : ℝ)
  have h2 := abs_sub_abs_le_abs_sub (Rounding.nearest (if i = j then 1 / 3 else 1 / 10 : ℝ)) (if i = j then 1 / 3 else 1 / 10 : ℝ)
  have u1 : ulp ≤ 1 / 2 ^ 53 := le_rfl
  have t1 : tiny ≤ ulp / 1000 := ulp_small.2
  have h3 : ulp * |(if i = j then 1 / 3 else 1 / 10 : ℝ)| ≤ ulp * (1 / 3) := mul_le_mul_of_nonneg_left hb ulp_pos.le
  have h4 : (1 : ℝ) / 2 ^ 53 ≤ 1 / 10 := by norm_num
  show |Rounding.nearest _| ≤ 1
  linarith

/-- The hypotheses of `C83_number`, `C83_internal` and `C84_volume` are met, in binary64 arithmetic. -/
example : |Rounding.binary64.float64.internal (exBig 1) 0 - 2| ≤ 75 * (2 : ℕ) / 2 ^ 53 := by
  have h := C83_internal Rounding.binary64.float64 (R := (2 : ℕ)) (by norm_num) (by norm_num) _ (exBig_small 1) 0
  have e : Package.ico.perp (exBig 1) 0 = 2 := by
    rw [show Package.ico.perp (exBig 1) = Package.ico.perps exBig 1 from rfl, perps_exBig]; simp
  rwa [e] at h

example : |Rounding.binary64.float64.numericValue ⟨1, 1, 2⟩ - (1 + tau) / 2| ≤ 9 * (2 : ℕ) / 2 ^ 53 := by
  have h := C83_number Rounding.binary64.float64 (R := (2 : ℕ)) (by norm_num) (by norm_num) ⟨1, 1, 2⟩
    (smallNum_of (by decide))
  have e : Num3.val tau ⟨1, 1, 2⟩ = (1 + tau) / 2 := by simp [Num3.val]
  rwa [e] at h

theorem exBig_vol : tetVol (Package.ico.perps exBig) = 4 / 3 := by
  rw [tetVol_det4, perps_exBig, det4_eq]
  simp
  norm_num

/-- The hypothesis of `C84_positive` is met. -/
example : 0 < Rounding.binary64.float64.tetrahedronVolume (fun i => Rounding.binary64.float64.internal (exBig i)) :=
  C84_positive _ (R := (2 : ℕ)) (by norm_num) (by norm_num) _ exBig_small (by rw [exBig_vol]; norm_num)

/-- The hypotheses of `C85_complete` (and of `C85_inside`) are met: a corner is accepted. -/
example : Rounding.binary64.float64.insideTau (exBig 1) exBig = true :=
  C85_complete _ (R := (2 : ℕ)) (by norm_num) (by norm_num) _ _ (exBig_small 1) exBig_small
    (by rw [exBig_vol]; unfold margin; norm_num) (subset_convexHull ℝ _ ⟨1, rfl⟩)

/-- The hypotheses of `C85_reject` are met: the corner (1,1,1) of the other tetrahedron is rejected. -/
example : Rounding.binary64.float64.insideTau (exInv 0) exBig = false := by
  refine C85_reject _ (R := (2 : ℕ)) (by norm_num) (by norm_num) _ _ (exInv_small 0) exBig_small
    ![-1 / 2, 1 / 2, 1 / 2, 1 / 2] ?_ 0 ?_
  · rw [show Package.ico.perp (exInv 0) = Package.ico.perps exInv 0 from rfl, perps_exInv, perps_exBig, isBary_four]
    refine ⟨by simp; norm_num, fun j => ?_⟩
    fin_cases j <;> simp
  · rw [exBig_vol]; unfold margin; norm_num

/-- The hypothesis of `C86_segment` is met by an edge and a face of the two tetrahedra. -/
example : SegmentApart (margin (2 : ℕ)) (Package.ico.perp (exBig 0)) (Package.ico.perp (exBig 1)) (Package.ico.perp (exInv 1))
    (Package.ico.perp (exInv 2)) (Package.ico.perp (exInv 3)) :=
  exBigInv_rounded.apartST.edge 0 1 1 2 3 (by decide) (by decide) (by decide)

/-- The hypotheses of `C86_complete` are met: the edge from the origin crosses the face x + y + z = 1. -/
example : Rounding.binary64.float64.segmentMeetsTriangleTau ![exBig 0, exBig 1] ![exInv 1, exInv 2, exInv 3] = true := by
  have e0 : Package.ico.perp (exBig 0) = ![0, 0, 0] := congrFun perps_exBig 0
  have e1 : Package.ico.perp (exBig 1) = ![2, 0, 0] := congrFun perps_exBig 1
  have f1 : Package.ico.perp (exInv 1) = ![-1, 1, 1] := congrFun perps_exInv 1
  have f2 : Package.ico.perp (exInv 2) = ![1, -1, 1] := congrFun perps_exInv 2
  have f3 : Package.ico.perp (exInv 3) = ![1, 1, -1] := congrFun perps_exInv 3
  have hdet : Matrix.det (Matrix.of ![(![2, 0, 0] : Fin 3 → ℝ) - ![0, 0, 0], ![1, 1, -1] - ![-1, 1, 1], ![1, -1, 1] - ![-1, 1, 1]]) =
      -8 := by
    rw [Matrix.det_fin_three]
    simp
    norm_num
  refine C86_complete _ (R := (2 : ℕ)) (by norm_num) (by norm_num) _ _ ?_ ?_ ?_ ?_ ![1, 0, 0] ?_ ?_
  · intro i; fin_cases i
    exacts [exBig_small 0, exBig_small 1]
  · intro i; fin_cases i
    exacts [exInv_small 1, exInv_small 2, exInv_small 3]
  · simp only [cons_val_zero, cons_val_one, cons_val, e0, e1, f1, f2, f3, hdet]; unfold margin; norm_num
  · simp only [cons_val_zero, cons_val_one, cons_val, e0, e1, f1, f2, f3, hdet]; unfold margin; norm_num
  · refine ⟨1 / 2, 1 / 2, by norm_num, by norm_num, by norm_num, ?_⟩
    simp only [cons_val_zero, cons_val_one, e0, e1]
    funext j; fin_cases j <;> simp
  · refine mem_solid_iff.2 ⟨![0, 1 / 2, 1 / 2], ⟨by simp [Fin.sum_univ_three]; norm_num, ?_⟩, ?_⟩
    · rw [Fin.sum_univ_three]
      simp only [cons_val_zero, cons_val_one, cons_val, f1, f2, f3]
      funext j; fin_cases j <;> simp <;> norm_num
    · intro i; fin_cases i <;> simp

/-- The hypotheses of `C87_coplanar` are met by the corners of a tetrahedron. -/
example : (∀ v ∈ List.ofFn exBig, Small .ico (2 : ℕ) v) ∧ 3 < (List.ofFn exBig).length := by
  refine ⟨fun v hv => ?_, by simp⟩
  obtain ⟨i, rfl⟩ := (List.mem_ofFn' _ _).mp hv
  exact exBig_small i

/-- The hypotheses of `C88_codes`, `C88_two` and `C88_two_outcome` are met, in binary64 arithmetic. -/
example : Rounding.binary64.float64.checkTwoTetrahedra exBig exInv = 3 ∧ ∀ draws, ∃ o,
    Rounding.binary64.float64.intersectionTwoTetrahedra draws (fun pns => some (allQuads pns.length)) exBig exInv = .ok (some o) ∧
    Package.ico.region o = solid (Package.ico.perps exBig) ∩ solid (Package.ico.perps exInv) := by
  refine ⟨?_, fun draws => ?_⟩
  · rw [(C88_codes _ (R := (2 : ℕ)) (by norm_num) (by norm_num) _ _ exBig_small exInv_small exBigInv_rounded).2.2.1,
      ← (C58_codes _ _ exBigInv_resolved).2.2.1]
    exact exBigInv_code
  · exact C88_two _ (R := (2 : ℕ)) (by norm_num) (by norm_num) draws _ _ _
      (fun r pns _ hi hn => quads_fill _ r pns hi hn) exBig_ok exInv_ok exBig_small exInv_small
      exBigInv_crossing exBigInv_rounded exBigInv_solid

/-- C89 applied: in binary64 arithmetic the result covers the common part and lies in it. -/
example (draws) (r : Option (Obj 4)) (hr : Rounding.binary64.float64.intersectionApi .standard draws
    (fun _ _ pns => some (allQuads pns.length)) (.d4 [exBig]) (.d4 [exInv]) = .ok r) :
    volume ((Package.ico.region [exBig] ∩ Package.ico.region [exInv]) \ Package.ico.region (r.getD [])) = 0 ∧
      Package.ico.region (r.getD []) ⊆ Package.ico.region [exBig] ∩ Package.ico.region [exInv] := by
  have ok1 : Obj.Ok [exBig] := by intro t ht; rw [List.mem_singleton.1 ht]; exact exBig_ok
  have ok2 : Obj.Ok [exInv] := by intro t ht; rw [List.mem_singleton.1 ht]; exact exInv_ok
  exact ⟨C89_objects _ (R := (2 : ℕ)) (by norm_num) (by norm_num) _ _ _ _ _ (fun s _ t _ r pns _ hi hn => quads_fill _ r pns hi hn) ok1 ok2 exBigInv_objects r hr,
    C89_inside _ (R := (2 : ℕ)) (by norm_num) (by norm_num) _ _ _ _ (fun s _ t _ r pns _ hi hn => quads_fill _ r pns hi hn)
      (by simp) ok1 ok2 exBigInv_objects r hr⟩

/-- Such a result exists: the pieces returned are the common part. -/
example (draws) : ∃ o, Rounding.binary64.float64.intersectionApi .standard draws
    (fun _ _ pns => some (allQuads pns.length)) (.d4 [exBig]) (.d4 [exInv]) = .ok (some o) ∧
    Package.ico.region o = solid (Package.ico.perps exBig) ∩ solid (Package.ico.perps exInv) := by
  have ok1 : Obj.Ok [exBig] := by intro t ht; rw [List.mem_singleton.1 ht]; exact exBig_ok
  have ok2 : Obj.Ok [exInv] := by intro t ht; rw [List.mem_singleton.1 ht]; exact exInv_ok
  obtain ⟨o, ho, e⟩ := C88_two Rounding.binary64.float64 (R := (2 : ℕ)) (by norm_num) (by norm_num) (draws exBig exInv)
    (fun pns => some (allQuads pns.length)) _ _
    (fun r pns _ hi hn => quads_fill _ r pns hi hn) exBig_ok exInv_ok exBig_small exInv_small
    exBigInv_crossing exBigInv_rounded exBigInv_solid
  obtain ⟨rough, e2, hro⟩ := objects_rounded_eq Rounding.binary64.float64 (R := (2 : ℕ)) (by norm_num) (by norm_num) .standard draws
    (fun _ _ pns => some (allQuads pns.length)) (by simp) ok1 ok2 exBigInv_objects
  refine ⟨o, ?_, e⟩
  rw [e2]
  obtain ⟨b, hb, hf⟩ := hro exBig (by simp)
  cases b with
  | false => exact absurd exBigInv_solid (hf rfl exInv (by simp))
  | true =>
    refine one_crossing hb ?_ ho ?_
    · rw [(C88_codes _ (R := (2 : ℕ)) (by norm_num) (by norm_num) _ _ exBig_small exInv_small exBigInv_rounded).2.2.1.2
        ((C58_codes _ _ exBigInv_resolved).2.2.1.1 exBigInv_code)]
    · rintro rfl
      obtain ⟨x, hx⟩ := exBigInv_solid.mono interior_subset
      rw [← e] at hx
      obtain ⟨a, ha, -⟩ := hx
      simp at ha

end PyQC
