import Verif.Lemmas.RoundingDiscs
import Verif.Lemmas.RoundingGrid2
import Verif.Props.Rounding
import Verif.Props.Triangles
/-!
# C92–C96: the planar tests of dode2 with floating-point rounding

As in `Props/Rounding.lean`, `F : Float64` is any arithmetic whose operations are accurate to one unit roundoff. The
triangles are at one height `z` of internal space, as in every object of the package.
-/
namespace PyQC
open Matrix MeasureTheory Dode

section
variable (F : Float64) {R : ℝ} (hR : 1 ≤ R)
include hR

/-! ## C92: conversion to floating-point numbers -/

section
variable (hR2 : R ≤ 2 ^ 10)
include hR2

/-- C92: the floating-point value of a number `(a + b√3/2)/c` of moderate size is off by less than 9 unit roundoffs of
the scale. -/
theorem C92_number (t : Num3) (h : SmallNum R t) : |F.dodeValue t - t.val (Real.sqrt 3 / 2)| ≤ 9 * R / 2 ^ 53 := by
  have h1 := (dodeValue_approx' F hR (hR2.trans (by norm_num)) h.den h.int64 h.size).err
  have e : 9 * R / 2 ^ 53 = 9 * ulp * R := by unfold ulp; ring
  rw [e]
  have := mul_nonneg ulp_pos.le (by linarith : (0 : ℝ) ≤ R)
  change |F.dodeValue t - t.val sin60| ≤ _
  linarith

/-- C92: the floating-point coordinates of a point of internal space are off by at most 75 unit roundoffs of the scale. -/
theorem C92_internal (v : Vec 6) (h : Small .dode R v) (j : Fin 3) :
    |F.dodeInternal v j - Package.dode.perp v j| ≤ 75 * R / 2 ^ 53 := by
  have h1 := (dodeInternal_approx F hR hR2 h j).err
  have e : 75 * R / 2 ^ 53 = 75 * ulp * R := by unfold ulp; ring
  rw [e]
  exact h1

/-- C92: the floating-point distance of two points of internal space is off by at most 32 unit roundoffs of the scale,
and no exception is raised. -/
theorem C92_distance (v w : Vec 6) (hv : Vec.Ok v) (hw : Vec.Ok w) (h : DistanceSmall2 R v w) :
    ∃ d, F.dodeDistance v w = .ok d ∧ |d - dist3 (Package.dode.perp v) (Package.dode.perp w)| ≤ 32 * R / 2 ^ 53 := by
  obtain ⟨d, h1, h2, -⟩ := distance2_rounded F hR hR2 hv hw h
  refine ⟨d, h1, ?_⟩
  have e : 32 * R / 2 ^ 53 = 32 * ulp * R := by unfold ulp; ring
  rw [e]
  exact h2

/-- C92: the floating-point area of a triangle is off by at most 1260 unit roundoffs of the square of the scale. -/
theorem C92_area (t : Simplex 3) (h : ∀ i, Small .dode R (t i)) :
    |F.triangleArea (fun i => F.dodeInternal (t i)) - triArea (Package.dode.perps t)| ≤ 1260 * R ^ 2 / 2 ^ 53 := by
  have h1 := (area_approx F hR hR2 (t := Package.dode.perps t) fun i j => dodeInternal_approx F hR hR2 (h i) j).err
  have e : 1260 * R ^ 2 / 2 ^ 53 = 180 * ulp * (7 * R ^ 2) := by unfold ulp; ring
  rw [e, ← areaNum_eq]
  exact h1

/-- C92: a triangle whose exact area is larger than the error never gets the numerical area 0. -/
theorem C92_positive (t : Simplex 3) (h : ∀ i, Small .dode R (t i)) (ha : 1260 * R ^ 2 / 2 ^ 53 < triArea (Package.dode.perps t)) :
    0 < F.triangleArea (fun i => F.dodeInternal (t i)) := by
  have := abs_le.1 (C92_area F hR hR2 t h)
  linarith

end

variable (hR8 : R ≤ 8)
include hR8

/-! ## C93: the inside test -/

/-- C93: when the compared numbers are apart by the margin, the test computed with rounding accepts exactly the points
that it accepts over the real numbers. -/
theorem C93_inside (v : Vec 6) (t : Simplex 3) (z : ℝ) (hz : Package.dode.perp v 2 = z) (zt : ∀ i, Package.dode.perp (t i) 2 = z)
    (hv : Small .dode R v) (ht : ∀ i, Small .dode R (t i))
    (h : InsideApartTri (margin2 R) (Package.dode.perps t) (Package.dode.perp v)) :
    F.dodeInsideTau v t = true ↔ AcceptsTri (Package.dode.perps t) (Package.dode.perp v) := by
  rw [inside2_rounded F hR hR8 hv ht h, inside_iff_accepts zt hz]

/-- C93: no point of a closed triangle is lost, if the area of the triangle is more than 10⁶ margins. -/
theorem C93_complete (v : Vec 6) (t : Simplex 3) (z : ℝ) (hz : Package.dode.perp v 2 = z) (zt : ∀ i, Package.dode.perp (t i) 2 = z)
    (hv : Small .dode R v) (ht : ∀ i, Small .dode R (t i)) (harea : 10 ^ 6 * margin2 R < triArea (Package.dode.perps t))
    (hx : Package.dode.perp v ∈ convexHull ℝ (Set.range (Package.dode.perps t))) : F.dodeInsideTau v t = true := by
  obtain ⟨w, hw, h0⟩ := mem_solid_iff.1 hx
  have hm : 0 < margin2 R := by unfold margin2; positivity
  have hsum : ∑ i, |w i| = 1 := by
    simp only [abs_of_nonneg (h0 _)]
    exact hw.1
  rw [C93_inside F hR hR8 v t z hz zt hv ht ⟨w, hw, ?_⟩]
  · exact ⟨by intro h; rw [h] at harea; linarith, w, hw, by rw [hsum]; norm_num⟩
  · rw [hsum, sub_self, zero_sub, abs_neg, abs_of_pos (by norm_num)]
    linarith

/-- C93: no point that is further outside than the tolerance and the margin is accepted: one with a barycentric
coordinate below `-10⁻⁶/2` by the margin, relative to the area. -/
theorem C93_reject (v : Vec 6) (t : Simplex 3) (z : ℝ) (hz : Package.dode.perp v 2 = z) (zt : ∀ i, Package.dode.perp (t i) 2 = z)
    (hv : Small .dode R v) (ht : ∀ i, Small .dode R (t i)) (w : Fin 3 → ℝ)
    (hw : IsBary (Package.dode.perps t) w (Package.dode.perp v)) (i : Fin 3)
    (hi : triArea (Package.dode.perps t) * w i < -(triArea (Package.dode.perps t) * (1 / 10 ^ 6 / 2)) - margin2 R) :
    F.dodeInsideTau v t = false := by
  have hm : 0 < margin2 R := by unfold margin2; positivity
  have hV : 0 ≤ triArea (Package.dode.perps t) := by rw [triArea_norm3]; exact div_nonneg (norm3_nonneg _) (by norm_num)
  have hs : 1 - 2 * w i ≤ ∑ k, |w k| := by
    have h1 : ∑ k, (w k + (if k = i then -2 * w i else 0)) ≤ ∑ k, |w k| := by
      refine Finset.sum_le_sum fun k _ => ?_
      by_cases hk : k = i
      · rw [if_pos hk, hk]
        have := neg_abs_le (w i)
        linarith
      · rw [if_neg hk, add_zero]; exact le_abs_self _
    rw [Finset.sum_add_distrib, hw.1, Finset.sum_ite_eq' Finset.univ i, if_pos (Finset.mem_univ i)] at h1
    linarith
  have h2 : triArea (Package.dode.perps t) * (1 - 2 * w i) ≤ triArea (Package.dode.perps t) * ∑ k, |w k| :=
    mul_le_mul_of_nonneg_left hs hV
  have key : margin2 R < triArea (Package.dode.perps t) * (∑ k, |w k| - 1 - 1 / 10 ^ 6) := by linarith
  have hpos : 0 < ∑ k, |w k| - 1 - 1 / 10 ^ 6 := by
    by_contra hneg
    have := mul_nonpos_of_nonneg_of_nonpos hV (not_lt.1 hneg)
    linarith
  by_contra h
  rw [Bool.not_eq_false, C93_inside F hR hR8 v t z hz zt hv ht ⟨w, hw, by rw [abs_of_pos hpos]; exact key⟩] at h
  obtain ⟨h0, w', hw', hlt⟩ := h
  rw [flat_bary_unique (z := z) zt h0 hw' hw] at hlt
  linarith

/-! ## C94: the crossing test of two segments -/

/-- C94: parallel segments are never reported to cross, whatever the roundings are. -/
theorem C94_parallel (s1 s2 : Simplex 2) (h1 : ∀ i, Small .dode R (s1 i)) (h2 : ∀ i, Small .dode R (s2 i))
    (h : crossProduct (Package.dode.perp (s1 1) - Package.dode.perp (s1 0)) (Package.dode.perp (s2 1) - Package.dode.perp (s2 0)) = 0) :
    F.segmentsMeetTau s1 s2 = false := by
  have hR2 : R ≤ 2 ^ 10 := hR8.trans (by norm_num)
  exact segment_parallel F hR hR8 (l := fun i => Package.dode.perp (s1 i)) (m := fun i => Package.dode.perp (s2 i))
    (fun i j => dodeInternal_approx F hR hR2 (h1 i) j) (fun i j => dodeInternal_approx F hR hR2 (h2 i) j) h

/-- C94: what the test reports for two clear segments at one height is a crossing: the segments are not parallel and
have a point in common. -/
theorem C94_sound (s1 s2 : Simplex 2) (z : ℝ) (z1 : ∀ i, Package.dode.perp (s1 i) 2 = z) (z2 : ∀ i, Package.dode.perp (s2 i) 2 = z)
    (h1 : ∀ i, Small .dode R (s1 i)) (h2 : ∀ i, Small .dode R (s2 i))
    (h : CrossApart R (Package.dode.perp (s1 0)) (Package.dode.perp (s1 1)) (Package.dode.perp (s2 0)) (Package.dode.perp (s2 1)))
    (hm : F.segmentsMeetTau s1 s2 = true) :
    crossProduct (Package.dode.perp (s1 1) - Package.dode.perp (s1 0)) (Package.dode.perp (s2 1) - Package.dode.perp (s2 0)) ≠ 0 ∧
    ∃ x, x ∈ segment ℝ (Package.dode.perp (s1 0)) (Package.dode.perp (s1 1)) ∧
      x ∈ segment ℝ (Package.dode.perp (s2 0)) (Package.dode.perp (s2 1)) := by
  have hR2 : R ≤ 2 ^ 10 := hR8.trans (by norm_num)
  by_cases h0 : crossProduct (Package.dode.perp (s1 1) - Package.dode.perp (s1 0)) (Package.dode.perp (s2 1) - Package.dode.perp (s2 0)) = 0
  · rw [C94_parallel F hR hR8 s1 s2 h1 h2 h0] at hm
    cases hm
  · obtain ⟨a, b, e⟩ := lines_cross (z1 0) (z1 1) (z2 0) (z2 1) h0
    obtain ⟨a0, a1, b0, b1⟩ := (segment_outcome F hR hR8 (l := fun i => Package.dode.perp (s1 i)) (m := fun i => Package.dode.perp (s2 i))
      (fun i j => dodeInternal_approx F hR hR2 (h1 i) j) (fun i j => dodeInternal_approx F hR hR2 (h2 i) j) h0 h e).1 hm
    rw [segment_eq_image']
    refine ⟨h0, _, ⟨a, ⟨a0, a1⟩, rfl⟩, ?_⟩
    rw [segment_eq_image']
    exact ⟨b, ⟨b0, b1⟩, e.symm⟩

omit hR hR8 in
/-- C94: a crossing of two clear segments at a point inside both is reported. Crossings at an end of a segment are not
covered: the code compares the parameters with 0 and 1 without a tolerance, so that rounding decides them. -/
theorem C94_complete (hR : 1 ≤ R) (hR8 : R ≤ 8) (s1 s2 : Simplex 2) (h1 : ∀ i, Small .dode R (s1 i)) (h2 : ∀ i, Small .dode R (s2 i))
    (h : CrossApart R (Package.dode.perp (s1 0)) (Package.dode.perp (s1 1)) (Package.dode.perp (s2 0)) (Package.dode.perp (s2 1)))
    (h0 : crossProduct (Package.dode.perp (s1 1) - Package.dode.perp (s1 0)) (Package.dode.perp (s2 1) - Package.dode.perp (s2 0)) ≠ 0)
    (x : Fin 3 → ℝ) (hx1 : x ∈ openSegment ℝ (Package.dode.perp (s1 0)) (Package.dode.perp (s1 1)))
    (hx2 : x ∈ openSegment ℝ (Package.dode.perp (s2 0)) (Package.dode.perp (s2 1))) : F.segmentsMeetTau s1 s2 = true := by
  have hR2 : R ≤ 2 ^ 10 := hR8.trans (by norm_num)
  rw [openSegment_eq_image'] at hx1 hx2
  obtain ⟨a, ⟨a0, a1⟩, rfl⟩ := hx1
  obtain ⟨b, ⟨b0, b1⟩, e⟩ := hx2
  exact (segment_outcome F hR hR8 (l := fun i => Package.dode.perp (s1 i)) (m := fun i => Package.dode.perp (s2 i))
    (fun i j => dodeInternal_approx F hR hR2 (h1 i) j) (fun i j => dodeInternal_approx F hR hR2 (h2 i) j) h0 h e.symm).2 a0 a1 b0 b1

/-! ## C95: two triangles -/

/-- C95: for a pair resolved in spite of rounding, the code computed with rounding is 1 exactly when the first triangle
lies in the second, 2 exactly when that fails and the second lies in the first; 3 is given only to triangles that have a
point in common; 0 is given only if neither lies in the other and no two edges cross inside both. -/
theorem C95_codes (s t : Simplex 3) (z : ℝ) (zs : ∀ i, Package.dode.perp (s i) 2 = z) (zt : ∀ i, Package.dode.perp (t i) 2 = z)
    (ss : ∀ i, Small .dode R (s i)) (st : ∀ i, Small .dode R (t i))
    (h : ResolvedTriRounded R (Package.dode.perps s) (Package.dode.perps t)) :
    let A := solid (Package.dode.perps s)
    let B := solid (Package.dode.perps t)
    (F.checkTwoTriangles s t = 1 ↔ A ⊆ B) ∧ (F.checkTwoTriangles s t = 2 ↔ ¬ A ⊆ B ∧ B ⊆ A) ∧
      (F.checkTwoTriangles s t = 3 → ¬ A ⊆ B ∧ ¬ B ⊆ A ∧ (A ∩ B).Nonempty) ∧
      (F.checkTwoTriangles s t = 0 → ¬ A ⊆ B ∧ ¬ B ⊆ A ∧ ¬ ProperCrossing (Package.dode.perps s) (Package.dode.perps t)) ∧
      F.checkTwoTriangles s t ∈ [0, 1, 2, 3] := by
  intro A B
  have hall : ∀ {s t : Simplex 3}, Flat z (Package.dode.perps s) → Flat z (Package.dode.perps t) →
      (∀ i, Small .dode R (s i)) → (∀ i, Small .dode R (t i)) →
      ResolvedTriRounded R (Package.dode.perps s) (Package.dode.perps t) →
      (((List.ofFn s).all fun v => F.dodeInsideTau v t) = true ↔ solid (Package.dode.perps s) ⊆ solid (Package.dode.perps t)) := by
    intro s t zs zt ss st h
    rw [List.all_eq_true]
    constructor
    · intro ha
      refine convexHull_min ?_ (solid_convex _)
      rintro x ⟨i, rfl⟩
      exact (insideF_iff F hR hR8 zs zt ss st h i).1 (ha (s i) ((List.mem_ofFn' _ _).mpr ⟨i, rfl⟩))
    · intro hsub v hv
      obtain ⟨i, rfl⟩ := (List.mem_ofFn' _ _).mp hv
      exact (insideF_iff F hR hR8 zs zt ss st h i).2 (hsub (subset_convexHull ℝ _ ⟨i, rfl⟩))
  have h1 := hall zs zt ss st h
  have h2 := hall zt zs st ss h.symm
  have hmeet : ∀ {s t : Simplex 3}, Flat z (Package.dode.perps s) → Flat z (Package.dode.perps t) →
      (∀ i, Small .dode R (s i)) → (∀ i, Small .dode R (t i)) →
      ResolvedTriRounded R (Package.dode.perps s) (Package.dode.perps t) → ∀ c ∈ combE, ∀ e ∈ combE,
      F.segmentsMeetTau (segmentOf s c) (segmentOf t e) = true →
      (solid (Package.dode.perps s) ∩ solid (Package.dode.perps t)).Nonempty := by
    intro s t zs zt ss st h c hc e he hm
    obtain ⟨-, a, b, a0, a1, b0, b1, e'⟩ := meets_sound F hR hR8 zs zt ss st
      (h.cross c.1 c.2 e.1 e.2 (mem_combE.1 hc) (mem_combE.1 he)) hm
    exact ⟨_, edge_mem a0 a1, e' ▸ edge_mem b0 b1⟩
  unfold Float64.checkTwoTriangles
  by_cases c1 : ((List.ofFn s).all fun v => F.dodeInsideTau v t) = true
  · rw [if_pos c1]
    rw [h1] at c1
    exact ⟨by simpa using c1, by simpa using fun h => absurd c1 h, by simp, by simp, by simp⟩
  · rw [if_neg c1]
    rw [h1] at c1
    by_cases c2 : ((List.ofFn t).all fun v => F.dodeInsideTau v s) = true
    · rw [if_pos c2]
      rw [h2] at c2
      exact ⟨by simpa using c1, by simpa using ⟨c1, c2⟩, by simp, by simp, by simp⟩
    · rw [if_neg c2]
      rw [h2] at c2
      by_cases c3 : (combE.any fun c => F.segmentMeetsEdgesTau (segmentOf s c) t || F.segmentMeetsEdgesTau (segmentOf t c) s) = true
      · rw [if_pos c3]
        refine ⟨by simpa using c1, by simpa using fun _ => c2, fun _ => ⟨c1, c2, ?_⟩, by simp, by simp⟩
        simp only [meetsTauF_iff, List.any_eq_true, Bool.or_eq_true] at c3
        obtain ⟨c, hc, ⟨e, he, hm⟩ | ⟨e, he, hm⟩⟩ := c3
        · exact hmeet zs zt ss st h c hc e he hm
        · obtain ⟨x, hx⟩ := hmeet zt zs st ss h.symm c hc e he hm
          exact ⟨x, hx.2, hx.1⟩
      · rw [if_neg c3]
        refine ⟨by simpa using c1, by simpa using fun _ => c2, by simp, fun _ => ⟨c1, c2, ?_⟩, by simp⟩
        rintro ⟨i, j, k, l, hij, hkl, h0, a, b, a0, a1, b0, b1, e⟩
        apply c3
        simp only [meetsTauF_iff, List.any_eq_true, Bool.or_eq_true]
        exact ⟨(i, j), mem_combE.2 hij, .inl ⟨(k, l), mem_combE.2 hkl,
          meets_complete F hR hR8 ss st (h.cross i j k l hij hkl) h0 a0 a1 b0 b1 e⟩⟩

/-- C95: for such a pair with code 3 whose common part has an interior, the pieces computed with rounding are exactly
the common part, if the triangulation of the rounded corners fills the hull of the corners. -/
theorem C95_two (delaunay : Delaunay2) (s t : Simplex 3)
    (hD : ∀ r pns, (∀ v ∈ r, Vec.Ok v ∧ Candidate2 (Package.dode.perps s) (Package.dode.perps t) (Package.dode.perp v)) →
      F.delaunayInput2 r = .ok pns → ¬ InLine (r.map plane) → FillsHullOf2 (r.map plane) (delaunay pns))
    (hs : Simplex.Ok s) (ht : Simplex.Ok t) (z : ℝ) (zs : ∀ i, Package.dode.perp (s i) 2 = z)
    (zt : ∀ i, Package.dode.perp (t i) 2 = z) (ss : ∀ i, Small .dode R (s i)) (st : ∀ i, Small .dode R (t i))
    (h : ResolvedTriRounded R (Package.dode.perps s) (Package.dode.perps t)) (h3 : F.checkTwoTriangles s t = 3)
    (hsolid : (interior (slice z (solid (Package.dode.perps s) ∩ solid (Package.dode.perps t)))).Nonempty) :
    ∃ o, F.intersectionTwoTriangles delaunay s t = .ok (some o) ∧ Obj.Ok o ∧ Level z o ∧
      Package.dode.region o = solid (Package.dode.perps s) ∩ solid (Package.dode.perps t) := by
  have zs : Flat z (Package.dode.perps s) := zs
  have zt : Flat z (Package.dode.perps t) := zt
  have hull := commonPtsF_hull F hR hR8 hs ht zs zt ss st h
  have s1 := soundMeets F hR hR8 zs zt ss st h
  have s2 := soundMeets F hR hR8 zt zs st ss h.symm
  have hcount : hitF F s t + hitF F t s ≠ 0 := by
    intro h0
    have n1 := (hitF_zero hs ht s1).1 (by omega)
    have n2 := (hitF_zero ht hs s2).1 (by omega)
    unfold Float64.checkTwoTriangles at h3
    split at h3
    · cases h3
    · split at h3
      · cases h3
      · split at h3
        · rename_i c3
          simp only [meetsTauF_iff, List.any_eq_true, Bool.or_eq_true] at c3
          obtain ⟨c, hc, ⟨e, he, hm⟩ | ⟨e, he, hm⟩⟩ := c3
          · rw [n1 c hc e he] at hm; cases hm
          · rw [n2 c hc e he] at hm; cases hm
        · cases h3
  have hp : ∀ v ∈ commonPtsF F s t, Vec.Ok v := fun v hv => (commonPtsF_candidate F hR hR8 hs ht zs zt ss st h hv).1
  have hz : ∀ v ∈ commonPtsF F s t, Package.dode.perp v 2 = z :=
    fun v hv => (commonPtsF_candidate F hR hR8 hs ht zs zt ss st h hv).2.1
  have hline : ¬ InLine ((commonPtsF F s t).map plane) := by
    apply not_inLine
    have hlev : ∀ y ∈ {x | ∃ v ∈ commonPtsF F s t, Package.dode.perp v = x}, y 2 = z := by
      rintro y ⟨v, hv, rfl⟩; exact hz v hv
    rw [← hull, slice_hull hlev] at hsolid
    have hset : xy '' {x | ∃ v ∈ commonPtsF F s t, Package.dode.perp v = x} = {y | y ∈ (commonPtsF F s t).map plane} := by
      ext y
      constructor
      · rintro ⟨x, ⟨v, hv, rfl⟩, rfl⟩; exact List.mem_map.2 ⟨v, hv, rfl⟩
      · intro hy
        obtain ⟨v, hv, rfl⟩ := List.mem_map.1 hy
        exact ⟨_, ⟨v, hv, rfl⟩, rfl⟩
    rw [hset] at hsolid
    exact hsolid
  obtain ⟨o, ho, hcov⟩ := triCommonF_fills F (delaunay := delaunay) hp hz (countF_line F hR hR8 hs ht zs zt ss st h) hline
    (fun r pns hr hi hn => hD r pns (fun v hv =>
      ⟨hp v (hr v hv), (commonPtsF_candidate F hR hR8 hs ht zs zt ss st h (hr v hv)).2.2⟩) hi hn)
  have hm := (triCommonF_mem F hp ho).1
  refine ⟨o, ?_, fun a ha k => hp _ (hm a ha k), fun a ha k => hz _ (hm a ha k), ?_⟩
  · rw [twoTrianglesF_eq F delaunay hs ht s1 s2, if_neg hcount, ho]
  · rw [← hull]
    exact Set.Subset.antisymm (dode_region_hull hm) hcov

/-- C95: whether or not the common part has an interior, what is returned lies in it and covers it up to area zero. -/
theorem C95_two_outcome (delaunay : Delaunay2) (s t : Simplex 3)
    (hD : ∀ r pns, (∀ v ∈ r, Vec.Ok v ∧ Candidate2 (Package.dode.perps s) (Package.dode.perps t) (Package.dode.perp v)) →
      F.delaunayInput2 r = .ok pns → ¬ InLine (r.map plane) → FillsHullOf2 (r.map plane) (delaunay pns))
    (hs : Simplex.Ok s) (ht : Simplex.Ok t) (z : ℝ) (zs : ∀ i, Package.dode.perp (s i) 2 = z)
    (zt : ∀ i, Package.dode.perp (t i) 2 = z) (ss : ∀ i, Small .dode R (s i)) (st : ∀ i, Small .dode R (t i))
    (h : ResolvedTriRounded R (Package.dode.perps s) (Package.dode.perps t)) (h3 : F.checkTwoTriangles s t = 3)
    (r : Option (Obj 3)) (hr : F.intersectionTwoTriangles delaunay s t = .ok r) :
    Package.dode.region (r.getD []) ⊆ solid (Package.dode.perps s) ∩ solid (Package.dode.perps t) ∧
      volume (slice z ((solid (Package.dode.perps s) ∩ solid (Package.dode.perps t)) \ Package.dode.region (r.getD []))) = 0 := by
  by_cases hi : (interior (slice z (solid (Package.dode.perps s) ∩ solid (Package.dode.perps t)))).Nonempty
  · obtain ⟨o, ho, -, -, e⟩ := C95_two F hR hR8 delaunay s t hD hs ht z zs zt ss st h h3 hi
    rw [hr] at ho
    cases ho
    rw [Option.getD_some, e, Set.sdiff_self]
    exact ⟨subset_rfl, measure_empty⟩
  · refine ⟨?_, measure_mono_null (slice_mono Set.sdiff_subset) (slice_null ((solid_convex _).inter (solid_convex _)) hi)⟩
    have zs : Flat z (Package.dode.perps s) := zs
    have zt : Flat z (Package.dode.perps t) := zt
    rw [twoTrianglesF_eq F delaunay hs ht (soundMeets F hR hR8 zs zt ss st h) (soundMeets F hR hR8 zt zs st ss h.symm)] at hr
    split at hr
    · cases hr
    · rw [← commonPtsF_hull F hR hR8 hs ht zs zt ss st h]
      exact dode_region_hull (triCommonF_mem F
        (fun v hv => (commonPtsF_candidate F hR hR8 hs ht zs zt ss st h hv).1) hr).1

/-- C95: called directly on clear triangles whose edges have no point in common, the function raises
UnboundLocalError. -/
theorem C95_raises (delaunay : Delaunay2) (s t : Simplex 3) (hs : Simplex.Ok s) (ht : Simplex.Ok t) (z : ℝ)
    (zs : ∀ i, Package.dode.perp (s i) 2 = z) (zt : ∀ i, Package.dode.perp (t i) 2 = z)
    (ss : ∀ i, Small .dode R (s i)) (st : ∀ i, Small .dode R (t i))
    (h : ResolvedTriRounded R (Package.dode.perps s) (Package.dode.perps t))
    (hno : ∀ i j k l, Disjoint (segment ℝ (Package.dode.perps s i) (Package.dode.perps s j))
      (segment ℝ (Package.dode.perps t k) (Package.dode.perps t l))) :
    F.intersectionTwoTriangles delaunay s t = .error .unboundLocalError := by
  have zs : Flat z (Package.dode.perps s) := zs
  have zt : Flat z (Package.dode.perps t) := zt
  have s1 := soundMeets F hR hR8 zs zt ss st h
  have s2 := soundMeets F hR hR8 zt zs st ss h.symm
  have key : ∀ {s t : Simplex 3}, Flat z (Package.dode.perps s) → Flat z (Package.dode.perps t) →
      (∀ i, Small .dode R (s i)) → (∀ i, Small .dode R (t i)) →
      ResolvedTriRounded R (Package.dode.perps s) (Package.dode.perps t) →
      (∀ i j k l, Disjoint (segment ℝ (Package.dode.perps s i) (Package.dode.perps s j))
        (segment ℝ (Package.dode.perps t k) (Package.dode.perps t l))) → ∀ c ∈ combE, ∀ e ∈ combE,
      F.segmentsMeetTau (segmentOf s c) (segmentOf t e) = false := by
    intro s t zs zt ss st h hno c hc e he
    by_contra hm
    rw [Bool.not_eq_false] at hm
    obtain ⟨-, a, b, a0, a1, b0, b1, e'⟩ := meets_sound F hR hR8 zs zt ss st
      (h.cross c.1 c.2 e.1 e.2 (mem_combE.1 hc) (mem_combE.1 he)) hm
    refine Set.disjoint_left.1 (hno c.1 c.2 e.1 e.2) (show Package.dode.perps s c.1 + a • (Package.dode.perps s c.2 - Package.dode.perps s c.1) ∈ _ from ?_) ?_
    · rw [segment_eq_image']; exact ⟨a, ⟨a0, a1⟩, rfl⟩
    · rw [e', segment_eq_image']; exact ⟨b, ⟨b0, b1⟩, rfl⟩
  rw [twoTrianglesF_eq F delaunay hs ht s1 s2, (hitF_zero hs ht s1).2 (key zs zt ss st h hno),
    (hitF_zero ht hs s2).2 (key zt zs st ss h.symm fun i j k l => (hno k l i j).symm), if_pos rfl]

/-! ## C96: two objects -/

theorem objects2_rounded_eq (kind : Ico.Kind) (delaunay : Simplex 3 → Simplex 3 → Delaunay2) {obj1 obj2 : Obj 3} {z : ℝ}
    (h0 : obj2 ≠ []) (ok1 : Obj.Ok obj1) (ok2 : Obj.Ok obj2) (z1 : Level z obj1) (z2 : Level z obj2)
    (thick : ∀ s ∈ obj1, ∀ t ∈ obj2,
      (interior (slice z (solid (Package.dode.perps s) ∩ solid (Package.dode.perps t)))).Nonempty →
      CommonDisc z (R / 2 ^ 47) (solid (Package.dode.perps s)) (solid (Package.dode.perps t)))
    (dist2 : ∀ c, centroidObj Dode.arith obj2 = .ok c → ∀ t ∈ obj2, ∀ i, DistanceSmall2 R (t i) c)
    (dist1 : ∀ s ∈ obj1, ∀ c, centroid Dode.arith (List.ofFn s) = .ok c → ∀ i, DistanceSmall2 R (s i) c)
    (dist0 : ∀ c, centroidObj Dode.arith obj2 = .ok c → ∀ s ∈ obj1, ∀ c', centroid Dode.arith (List.ofFn s) = .ok c' →
      DistanceSmall2 R c' c) : ∃ rough : Simplex 3 → Py Bool,
      F.dodeIntersectionApi kind delaunay (.d4 obj1) (.d4 obj2) = intersectionTwoObj kind rough
        (fun s t => .ok (F.checkTwoTriangles s t)) (fun s t => F.intersectionTwoTriangles (delaunay s t) s t) obj1 obj2 ∧
      ∀ s ∈ obj1, ∃ b, rough s = .ok b ∧ (b = false → ∀ t ∈ obj2,
        ¬ (interior (slice z (solid (Package.dode.perps s) ∩ solid (Package.dode.perps t)))).Nonempty) := by
  have hR2 : R ≤ 2 ^ 10 := hR8.trans (by norm_num)
  obtain ⟨c, hc, hok⟩ : ∃ c, centroidObj arith obj2 = .ok c ∧ Vec.Ok c :=
    ⟨_, centroidObj_ok Package.dode.lawful h0 (by decide) ok2, nvec_ok _⟩
  have zc : Package.dode.perp c 2 = z := centroidObj_level (p := .dode) h0 ok2 z2 hc
  have hmem : ∀ v, v ∈ flattenObj obj2 ↔ ∃ s ∈ obj2, ∃ i, s i = v := by
    intro v; simp only [flattenObj, List.mem_flatMap, List.mem_ofFn]
  obtain ⟨d, hd, d1, d2, -⟩ := ballList2_rounded F hR hR2 hok (l := flattenObj obj2)
    (by intro v hv; obtain ⟨t, ht, i, rfl⟩ := (hmem v).1 hv; exact ⟨ok2 t ht i, dist2 c hc t ht i⟩)
    (by
      obtain ⟨t, ht⟩ := List.exists_mem_of_ne_nil obj2 h0
      exact List.ne_nil_of_mem ((hmem (t 0)).2 ⟨t, ht, _, rfl⟩))
  refine ⟨fun s => F.dodeRoughCheck s c d, ?_, fun s hs => ?_⟩
  · show F.dodeIntersectionTwoObj1 kind delaunay obj1 obj2 = _
    unfold Float64.dodeIntersectionTwoObj1
    rw [hc, bind_ok', show F.dodeBallRadiusObj obj2 c = .ok d from hd, bind_ok']
  · obtain ⟨c1, hc1⟩ : ∃ c1, centroid arith (List.ofFn s) = .ok c1 :=
      ⟨_, centroid_ok Package.dode.lawful (by simp) (by
        intro v hv; obtain ⟨i, rfl⟩ := (List.mem_ofFn' _ _).mp hv; exact ok1 s hs i)⟩
    have hball : ∀ t ∈ obj2, ∀ y ∈ solid (Package.dode.perps t), dist3 y (Package.dode.perp c) ≤ d + 32 * ulp * R :=
      fun t ht y hy => solid_ball (q := Package.dode.perps t) (fun i => d2 _ ((hmem _).2 ⟨t, ht, i, rfl⟩)) hy
    obtain ⟨t0, ht0⟩ := List.exists_mem_of_ne_nil obj2 h0
    have hr0 : 0 ≤ d + 32 * ulp * R :=
      (dist3_nonneg _ _).trans (hball t0 ht0 _ (subset_convexHull ℝ _ ⟨0, rfl⟩))
    obtain ⟨b, hb, hfalse⟩ := rough2_rounded F hR hR2 (ok1 s hs) hok (z1 s hs) zc hc1 (dist1 s hs c1 hc1)
      (dist0 c hc s hs c1 hc1) hr0 le_rfl (d1.trans (by linarith))
    exact ⟨b, hb, fun hb0 t ht hi => hfalse hb0 _ (hball t ht) (thick s hs t ht hi)⟩

/-- C96: for two objects that are resolved in spite of rounding, nothing of the common part is lost, for both kinds of
result: the pieces returned when all numerical tests are computed with rounding cover the intersection of the two objects
up to a set of area zero. -/
theorem C96_objects (kind : Ico.Kind) (delaunay : Simplex 3 → Simplex 3 → Delaunay2) (obj1 obj2 : Obj 3) (z : ℝ)
    (hD : ∀ s ∈ obj1, ∀ t ∈ obj2, ∀ r pns,
      (∀ v ∈ r, Vec.Ok v ∧ Candidate2 (Package.dode.perps s) (Package.dode.perps t) (Package.dode.perp v)) →
      F.delaunayInput2 r = .ok pns → ¬ InLine (r.map plane) → FillsHullOf2 (r.map plane) (delaunay s t pns))
    (ok1 : Obj.Ok obj1) (ok2 : Obj.Ok obj2) (z1 : Level z obj1) (z2 : Level z obj2) (h : ObjectsRounded2 R z obj1 obj2)
    (r : Option (Obj 3)) (hr : F.dodeIntersectionApi kind delaunay (.d4 obj1) (.d4 obj2) = .ok r) :
    volume (slice z ((Package.dode.region obj1 ∩ Package.dode.region obj2) \ Package.dode.region (r.getD []))) = 0 := by
  by_cases h0 : obj2 = []
  · subst h0
    refine measure_mono_null (t := ∅) ?_ measure_empty
    rintro x ⟨⟨-, ⟨a, ha, -⟩⟩, -⟩
    simp at ha
  · obtain ⟨rough, e, hro⟩ := objects2_rounded_eq F hR hR8 kind delaunay h0 ok1 ok2 z1 z2 h.thick h.dist2 h.dist1 h.dist0
    rw [e] at hr
    refine Planar.intersectionTwoObj_cover (z := z) ?_ ?_ ?_ hr
    · intro s hs hf t ht
      obtain ⟨b, hb, hfalse⟩ := hro s hs
      rw [hf] at hb
      exact slice_null ((solid_convex _).inter (solid_convex _)) (hfalse (Except.ok.inj hb).symm t ht)
    · intro s hs t ht f hf f1 f2 f3
      have hf := Except.ok.inj hf
      obtain ⟨c1, c2, c3, c0, cm⟩ := C95_codes F hR hR8 s t z (z1 s hs) (z2 t ht) (h.small1 s hs) (h.small2 t ht) (h.pairs s hs t ht)
      refine slice_null ((solid_convex _).inter (solid_convex _)) fun hi => ?_
      have hzero : F.checkTwoTriangles s t = 0 := by
        simp only [List.mem_cons, List.not_mem_nil, or_false] at cm
        omega
      obtain ⟨n1, n2, n3⟩ := c0 hzero
      rcases h.clear s hs t ht hi with hA | hB | hP
      · exact n1 hA
      · exact n2 hB
      · exact n3 hP
    · intro s hs t ht r' hf hr'
      exact (C95_two_outcome F hR hR8 _ s t (hD s hs t ht) (ok1 s hs) (ok2 t ht) z (z1 s hs) (z2 t ht) (h.small1 s hs)
        (h.small2 t ht) (h.pairs s hs t ht) (Except.ok.inj hf) r' hr').2

/-- C96, the converse: with kind 'standard' the returned pieces lie in the intersection of the two objects. -/
theorem C96_inside (delaunay : Simplex 3 → Simplex 3 → Delaunay2) (obj1 obj2 : Obj 3) (z : ℝ)
    (hD : ∀ s ∈ obj1, ∀ t ∈ obj2, ∀ r pns,
      (∀ v ∈ r, Vec.Ok v ∧ Candidate2 (Package.dode.perps s) (Package.dode.perps t) (Package.dode.perp v)) →
      F.delaunayInput2 r = .ok pns → ¬ InLine (r.map plane) → FillsHullOf2 (r.map plane) (delaunay s t pns))
    (h0 : obj2 ≠ []) (ok1 : Obj.Ok obj1) (ok2 : Obj.Ok obj2) (z1 : Level z obj1) (z2 : Level z obj2)
    (h : ObjectsRounded2 R z obj1 obj2) (r : Option (Obj 3))
    (hr : F.dodeIntersectionApi .standard delaunay (.d4 obj1) (.d4 obj2) = .ok r) :
    Package.dode.region (r.getD []) ⊆ Package.dode.region obj1 ∩ Package.dode.region obj2 := by
  obtain ⟨rough, e, -⟩ := objects2_rounded_eq F hR hR8 .standard delaunay h0 ok1 ok2 z1 z2 h.thick h.dist2 h.dist1 h.dist0
  rw [e] at hr
  have hcode := fun s hs t ht =>
    C95_codes F hR hR8 s t z (z1 s hs) (z2 t ht) (h.small1 s hs) (h.small2 t ht) (h.pairs s hs t ht)
  cases r with
  | none => rintro x ⟨a, ha, -⟩; simp at ha
  | some r =>
    obtain ⟨-, h2⟩ := Planar.intersectionTwoObj_mem
      (Q := fun s a => ∃ t ∈ obj2, solid (Package.dode.perps a) ⊆ solid (Package.dode.perps s) ∩ solid (Package.dode.perps t))
      (fun s hs t ht hf => ⟨t, ht, fun x hx => ⟨hx, (hcode s hs t ht).1.1 (Except.ok.inj hf) hx⟩⟩)
      (fun s hs t ht hf => ⟨t, ht, fun x hx => ⟨((hcode s hs t ht).2.1.1 (Except.ok.inj hf)).2 hx, hx⟩⟩)
      (fun s hs t ht o hf hi a ha => ⟨t, ht, fun x hx =>
        (C95_two_outcome F hR hR8 _ s t (hD s hs t ht) (ok1 s hs) (ok2 t ht) z (z1 s hs) (z2 t ht) (h.small1 s hs)
          (h.small2 t ht) (h.pairs s hs t ht) (Except.ok.inj hf) _ hi).1 ⟨a, ha, hx⟩⟩) hr
    rintro x ⟨a, ha, hx⟩
    obtain ⟨s, hs, ⟨t, ht, hsub⟩ | ⟨hk, -⟩⟩ := h2 a ha
    · exact ⟨⟨s, hs, (hsub hx).1⟩, ⟨t, ht, (hsub hx).2⟩⟩
    · cases hk

end

/-- A sufficient condition for a pair to be resolved at the scale `R`: corners on a grid of spacing `1/n` that is coarse
compared with the margins, and areas below half a million grid cells. -/
theorem C95_grid {R : ℝ} (s t : Simplex 3) (z : ℝ) (a b : Fin 3 → Fin 2 → ℤ) (n : ℕ) (hn : 0 < n)
    (h4 : n ^ 4 * (1 / 10 ^ 6 + R ^ 5 / 2 ^ 20) ≤ 1) (h6 : n ^ 6 * (R ^ 6 / 2 ^ 30) < 1) (hm : margin2 R * (2 * n ^ 2 * 10 ^ 6) < 1)
    (hs : ∀ i, Package.dode.perp (s i) = ![(a i 0 : ℝ) / n, a i 1 / n, z])
    (ht : ∀ i, Package.dode.perp (t i) = ![(b i 0 : ℝ) / n, b i 1 / n, z])
    (ha0 : triZ (a 0) (a 1) (a 2) ≠ 0) (hb0 : triZ (b 0) (b 1) (b 2) ≠ 0)
    (ha : |triZ (a 0) (a 1) (a 2)| < 10 ^ 6) (hb : |triZ (b 0) (b 1) (b 2)| < 10 ^ 6) :
    ResolvedTriRounded R (Package.dode.perps s) (Package.dode.perps t) :=
  resolvedTriRounded_int hn h4 h6 hm hs ht ha0 hb0 ha hb

/-! ## Cases that meet the hypotheses -/

theorem dode_small_of {R : ℕ} {v : Vec 6} (h : ∀ i, smallEntry R (v i) = true) (hp : ∀ j, |Package.dode.perp v j| ≤ R) :
    Small .dode R v :=
  ⟨fun i => (smallNum_of (h i)).den, fun i => (smallNum_of (h i)).int64, fun i => (smallNum_of (h i)).size, hp⟩

theorem exLevel_small (i : Fin 3) : Small .dode (2 : ℕ) (exLevel i) := by
  refine dode_small_of (by revert i; decide +kernel) fun j => ?_
  change |Package.dode.perps exLevel i j| ≤ _
  rw [perps_exLevel]
  fin_cases i <;> fin_cases j <;> norm_num

theorem exLevelInv_small (i : Fin 3) : Small .dode (2 : ℕ) (exLevelInv i) := by
  refine dode_small_of (by revert i; decide +kernel) fun j => ?_
  change |Package.dode.perps exLevelInv i j| ≤ _
  rw [perps_exLevelInv]
  fin_cases i <;> fin_cases j <;> norm_num

theorem exLevel_rounded : ResolvedTriRounded (2 : ℕ) (Package.dode.perps exLevel) (Package.dode.perps exLevelInv) := by
  refine C95_grid exLevel exLevelInv 0 ![![0, 0], ![2, 0], ![0, 2]] ![![1, 1], ![-1, 1], ![1, -1]] 1 (by norm_num)
    (by norm_num) (by norm_num) (by unfold margin2; norm_num)
    (fun i => ?_) (fun i => ?_) (by decide) (by decide) (by decide) (by decide)
  · change Package.dode.perps exLevel i = _
    rw [perps_exLevel]; fin_cases i <;> simp
  · change Package.dode.perps exLevelInv i = _
    rw [perps_exLevelInv]; fin_cases i <;> simp

theorem exLevel_proper : ProperCrossing (Package.dode.perps exLevel) (Package.dode.perps exLevelInv) := by
  refine ⟨0, 1, 0, 2, by decide, by decide, ?_, 1 / 2, 1 / 2, by norm_num, by norm_num, by norm_num, by norm_num, ?_⟩
  · rw [perps_exLevel, perps_exLevelInv]
    intro h
    have := congrFun h 2
    simp [cross_apply] at this
    norm_num at this
  · rw [perps_exLevel, perps_exLevelInv]
    funext j; fin_cases j <;> simp <;> norm_num

theorem exLevel_notSub : ¬ solid (Package.dode.perps exLevel) ⊆ solid (Package.dode.perps exLevelInv) ∧
    ¬ solid (Package.dode.perps exLevelInv) ⊆ solid (Package.dode.perps exLevel) := by
  have := (C68_codes _ _ 0 exLevel_flat exLevelInv_flat exLevel_resolved).2.2.1.1 exLevel_code
  exact ⟨this.1, this.2.1⟩

/-- Decidable form of the conditions on the distances. -/
def smallDistance2 (R : ℕ) (v w : Vec 6) : Bool :=
  match (do let a ← subVectors Dode.arith v w; Dode.projection3 a : Py (Vec 3)) with
  | .ok b => (List.finRange 3).all fun i => smallEntry R (b i)
  | .error _ => true

theorem distanceSmall2_of {R : ℕ} {v w : Vec 6} (h : smallDistance2 R v w = true) : DistanceSmall2 R v w := by
  intro a b ha hb j
  unfold smallDistance2 at h
  rw [ha, bind_ok', hb] at h
  exact smallNum_of (List.all_eq_true.1 h j (List.mem_finRange j))

def smallDistances2 (R : ℕ) (s t : Simplex 3) : Bool :=
  match centroidObj Dode.arith [t], centroid Dode.arith (List.ofFn s) with
  | .ok c, .ok c' => ((List.finRange 3).all fun i => smallDistance2 R (t i) c && smallDistance2 R (s i) c') && smallDistance2 R c' c
  | _, _ => false

theorem exLevel_distances : smallDistances2 2 exLevel exLevelInv = true := by decide +kernel

theorem exLevel_disc : CommonDisc 0 ((2 : ℕ) / 2 ^ 47) (solid (Package.dode.perps exLevel)) (solid (Package.dode.perps exLevelInv)) := by
  refine ⟨![1 / 2, 1 / 2, 0], rfl, fun x hz hx => ?_⟩
  have hd : ∀ j : Fin 3, |x j - ![1 / 2, 1 / 2, 0] j| ≤ 1 / 10 := by
    intro j
    have h1 : |x j - ![1 / 2, 1 / 2, 0] j| ≤ dist3 x ![1 / 2, 1 / 2, 0] := by
      unfold dist3
      apply Real.abs_le_sqrt
      have h0 := sq_nonneg (x 0 - ![1 / 2, 1 / 2, 0] 0)
      have h1 := sq_nonneg (x 1 - ![1 / 2, 1 / 2, 0] 1)
      have h2 := sq_nonneg (x 2 - ![1 / 2, 1 / 2, 0] 2)
      fin_cases j <;> simp only [Fin.zero_eta, Fin.mk_one, Fin.reduceFinMk] <;> linarith
    refine h1.trans (hx.trans ?_)
    norm_num
  have h0 := abs_le.1 (hd 0)
  have h1 := abs_le.1 (hd 1)
  simp only [cons_val_zero, cons_val_one] at h0 h1
  have e : ![x 0, x 1] ∈ slice 0 (solid (Package.dode.perps exLevel) ∩ solid (Package.dode.perps exLevelInv)) := by
    rw [exLevel_common, Set.mem_Icc, Pi.le_def, Pi.le_def, Fin.forall_fin_two, Fin.forall_fin_two]
    simp
    exact ⟨⟨by linarith, by linarith⟩, by linarith, by linarith⟩
  have e2 : x = ![![x 0, x 1] 0, ![x 0, x 1] 1, 0] := by
    funext j; fin_cases j <;> simp [hz]
  rw [e2]
  exact e

/-- The hypotheses of `C96_objects` and `C96_inside` are met. -/
theorem exLevel_objects : ObjectsRounded2 (2 : ℕ) 0 [exLevel] [exLevelInv] := by
  obtain ⟨c, hc⟩ : ∃ c, centroidObj Dode.arith [exLevelInv] = .ok c :=
    ⟨_, centroidObj_ok Package.dode.lawful (by simp) (by decide) (by
      intro t ht; rw [List.mem_singleton.1 ht]; exact exLevelInv_ok)⟩
  obtain ⟨c', hc'⟩ : ∃ c', centroid Dode.arith (List.ofFn exLevel) = .ok c' :=
    ⟨_, centroid_ok Package.dode.lawful (by simp) (by
      intro v hv; obtain ⟨i, rfl⟩ := (List.mem_ofFn' _ _).mp hv; exact exLevel_ok i)⟩
  have hd := exLevel_distances
  unfold smallDistances2 at hd
  rw [hc, hc'] at hd
  simp only [Bool.and_eq_true, List.all_eq_true] at hd
  refine ⟨?_, ?_, ?_, ?_, ?_, ?_, ?_, ?_⟩
  · intro s hs; rw [List.mem_singleton.1 hs]; exact exLevel_small
  · intro s hs; rw [List.mem_singleton.1 hs]; exact exLevelInv_small
  · intro s hs t ht; rw [List.mem_singleton.1 hs, List.mem_singleton.1 ht]; exact exLevel_rounded
  · intro s hs t ht _; rw [List.mem_singleton.1 hs, List.mem_singleton.1 ht]; exact .inr (.inr exLevel_proper)
  · intro s hs t ht _; rw [List.mem_singleton.1 hs, List.mem_singleton.1 ht]; exact exLevel_disc
  · intro d hd' t ht i
    rw [hc] at hd'; cases hd'
    rw [List.mem_singleton.1 ht]
    exact distanceSmall2_of (hd.1 i (List.mem_finRange i)).1
  · intro s hs d hd' i
    rw [List.mem_singleton.1 hs] at hd' ⊢
    rw [hc'] at hd'; cases hd'
    exact distanceSmall2_of (hd.1 i (List.mem_finRange i)).2
  · intro d hd' s hs e he
    rw [hc] at hd'; cases hd'
    rw [List.mem_singleton.1 hs] at he
    rw [hc'] at he; cases he
    exact distanceSmall2_of hd.2

/-- All triples of indices. -/
def allTriples (n : Nat) : List (Fin 3 → Nat) :=
  (List.range n).flatMap fun a => (List.range n).flatMap fun b => (List.range n).map fun c => ![a, b, c]

theorem mem_allTriples {n : Nat} {i : Fin 3 → Nat} : i ∈ allTriples n ↔ ∀ k, i k < n := by
  simp only [allTriples, List.mem_flatMap, List.mem_map, List.mem_range]
  constructor
  · rintro ⟨a, ha, b, hb, c, hc, rfl⟩ k
    fin_cases k <;> assumption
  · intro h
    refine ⟨i 0, h 0, i 1, h 1, i 2, h 2, ?_⟩
    funext k
    fin_cases k <;> rfl

/-- A library that answers with all triples meets the assumption on the triangulation, with any rounding. -/
theorem triples_fill (F : Float64) (r : List (Vec 6)) (pns : List (Fin 2 → ℝ))
    (hi : F.delaunayInput2 r = .ok pns) (hn : ¬ InLine (r.map plane)) :
    FillsHullOf2 (r.map plane) (some (allTriples pns.length)) := by
  have hl : pns.length = (r.map plane).length := by
    have := (fillList_eq_ok hi).length_eq
    simp [this]
  obtain ⟨delaunay, hD⟩ := exists_tiles2
  obtain ⟨l, h1, h2⟩ := hD.fills _ hn
  refine ⟨_, rfl, fun i hi => by rw [← hl]; exact mem_allTriples.1 hi, fun x hx => ?_⟩
  obtain ⟨i, hi, hc, hx⟩ := h2 (hD.index _ _ h1) x hx
  exact ⟨i, mem_allTriples.2 fun k => by rw [hl]; exact hD.index _ _ h1 i hi k, hc, hx⟩

/-- The hypotheses of `C92_number` and `C92_internal` are met, in binary64 arithmetic. -/
example : |Rounding.binary64.float64.dodeValue ⟨1, 1, 2⟩ - (1 + Real.sqrt 3 / 2) / 2| ≤ 9 * (2 : ℕ) / 2 ^ 53 := by
  have h := C92_number Rounding.binary64.float64 (R := (2 : ℕ)) (by norm_num) (by norm_num) ⟨1, 1, 2⟩
    (smallNum_of (by decide))
  have e : Num3.val (Real.sqrt 3 / 2) ⟨1, 1, 2⟩ = (1 + Real.sqrt 3 / 2) / 2 := by simp [Num3.val]
  rwa [e] at h

example : |Rounding.binary64.float64.dodeInternal (exLevel 1) 0 - 2| ≤ 75 * (2 : ℕ) / 2 ^ 53 := by
  have h := C92_internal Rounding.binary64.float64 (R := (2 : ℕ)) (by norm_num) (by norm_num) _ (exLevel_small 1) 0
  have e : Package.dode.perp (exLevel 1) 0 = 2 := by
    rw [show Package.dode.perp (exLevel 1) = Package.dode.perps exLevel 1 from rfl, perps_exLevel]; simp
  rwa [e] at h

/-- The hypotheses of `C92_distance` are met. -/
example : ∃ d, Rounding.binary64.float64.dodeDistance (exLevel 1) (exLevel 2) = .ok d ∧
    |d - dist3 (Package.dode.perp (exLevel 1)) (Package.dode.perp (exLevel 2))| ≤ 32 * (2 : ℕ) / 2 ^ 53 :=
  C92_distance _ (R := (2 : ℕ)) (by norm_num) (by norm_num) _ _ (exLevel_ok 1) (exLevel_ok 2)
    (distanceSmall2_of (by decide +kernel))

theorem exLevel_triArea : triArea (Package.dode.perps exLevel) = 2 := by
  rw [triArea_flat (z := 0) (q := Package.dode.perps exLevel) exLevel_flat, triAreaXY_crossZ, perps_exLevel]
  unfold crossZ
  simp

/-- The hypotheses of `C92_area` and `C92_positive` are met. -/
example : 0 < Rounding.binary64.float64.triangleArea (fun i => Rounding.binary64.float64.dodeInternal (exLevel i)) :=
  C92_positive _ (R := (2 : ℕ)) (by norm_num) (by norm_num) _ exLevel_small (by rw [exLevel_triArea]; norm_num)

/-- The hypotheses of `C93_complete` (and of `C93_inside`) are met: the corner (1,1) of the other triangle, on an edge of
this one, is accepted. -/
example : Rounding.binary64.float64.dodeInsideTau (exLevelInv 0) exLevel = true := by
  refine C93_complete _ (R := (2 : ℕ)) (by norm_num) (by norm_num) _ _ 0 (exLevelInv_flat 0) exLevel_flat (exLevelInv_small 0)
    exLevel_small (by rw [exLevel_triArea]; unfold margin2; norm_num) (mem_solid_iff.2 ⟨![0, 1 / 2, 1 / 2], ?_, ?_⟩)
  · rw [show Package.dode.perp (exLevelInv 0) = Package.dode.perps exLevelInv 0 from rfl, perps_exLevelInv, perps_exLevel, isBary_three]
    refine ⟨by simp; norm_num, fun j => ?_⟩
    fin_cases j <;> simp
  · intro i; fin_cases i <;> simp

/-- The hypotheses of `C93_reject` are met: the corner (-1,1) of the other triangle is rejected. -/
example : Rounding.binary64.float64.dodeInsideTau (exLevelInv 1) exLevel = false := by
  refine C93_reject _ (R := (2 : ℕ)) (by norm_num) (by norm_num) _ _ 0 (exLevelInv_flat 1) exLevel_flat (exLevelInv_small 1)
    exLevel_small ![1, -1 / 2, 1 / 2] ?_ 1 ?_
  · rw [show Package.dode.perp (exLevelInv 1) = Package.dode.perps exLevelInv 1 from rfl, perps_exLevelInv, perps_exLevel, isBary_three]
    refine ⟨by simp; norm_num, fun j => ?_⟩
    fin_cases j <;> simp
  · rw [exLevel_triArea]; unfold margin2; norm_num

/-- The hypotheses of `C94_complete` are met, so the crossing is reported, and then those of `C94_sound` are met too. -/
example : Rounding.binary64.float64.segmentsMeetTau ![exLevel 0, exLevel 1] ![exLevelInv 0, exLevelInv 2] = true := by
  have h := exLevel_rounded.cross 0 1 0 2 (by decide) (by decide)
  refine C94_complete _ (R := (2 : ℕ)) (by norm_num) (by norm_num) _ _ ?_ ?_ h ?_ ![1, 0, 0] ?_ ?_
  · intro i; fin_cases i
    exacts [exLevel_small 0, exLevel_small 1]
  · intro i; fin_cases i
    exacts [exLevelInv_small 0, exLevelInv_small 2]
  · change crossProduct (Package.dode.perps exLevel 1 - Package.dode.perps exLevel 0)
      (Package.dode.perps exLevelInv 2 - Package.dode.perps exLevelInv 0) ≠ 0
    rw [perps_exLevel, perps_exLevelInv]
    intro h
    have := congrFun h 2
    simp [cross_apply] at this
    norm_num at this
  · change _ ∈ openSegment ℝ (Package.dode.perps exLevel 0) (Package.dode.perps exLevel 1)
    rw [perps_exLevel]
    refine ⟨1 / 2, 1 / 2, by norm_num, by norm_num, by norm_num, ?_⟩
    funext j; fin_cases j <;> simp
  · change _ ∈ openSegment ℝ (Package.dode.perps exLevelInv 0) (Package.dode.perps exLevelInv 2)
    rw [perps_exLevelInv]
    refine ⟨1 / 2, 1 / 2, by norm_num, by norm_num, by norm_num, ?_⟩
    funext j; fin_cases j <;> simp <;> norm_num

/-- The hypothesis of `C94_parallel` is met by an edge and itself. -/
example : Rounding.binary64.float64.segmentsMeetTau ![exLevel 0, exLevel 1] ![exLevel 0, exLevel 1] = false := by
  have hs : ∀ i, Small .dode (2 : ℕ) ((![exLevel 0, exLevel 1] : Simplex 2) i) := by
    intro i; fin_cases i
    exacts [exLevel_small 0, exLevel_small 1]
  exact C94_parallel _ (R := (2 : ℕ)) (by norm_num) (by norm_num) _ _ hs hs (cross_self _)

theorem exLevel_codeF (F : Float64) : F.checkTwoTriangles exLevel exLevelInv = 3 := by
  obtain ⟨c1, c2, -, c0, cm⟩ := C95_codes F (R := (2 : ℕ)) (by norm_num) (by norm_num) _ _ 0 exLevel_flat exLevelInv_flat
    exLevel_small exLevelInv_small exLevel_rounded
  simp only [List.mem_cons, List.not_mem_nil, or_false] at cm
  rcases cm with h | h | h | h
  · exact absurd exLevel_proper (c0 h).2.2
  · exact absurd (c1.1 h) exLevel_notSub.1
  · exact absurd (c2.1 h).2 exLevel_notSub.2
  · exact h

/-- The hypotheses of `C95_codes`, `C95_two` and `C95_two_outcome` are met, in binary64 arithmetic. -/
theorem exLevel_two : ∃ o,
    Rounding.binary64.float64.intersectionTwoTriangles (fun pns => some (allTriples pns.length)) exLevel exLevelInv = .ok (some o) ∧
    Package.dode.region o = solid (Package.dode.perps exLevel) ∩ solid (Package.dode.perps exLevelInv) := by
  obtain ⟨o, h, -, -, e⟩ := C95_two Rounding.binary64.float64 (R := (2 : ℕ)) (by norm_num) (by norm_num)
    (fun pns => some (allTriples pns.length)) _ _
    (fun r pns _ hi hn => triples_fill _ r pns hi hn) exLevel_ok exLevelInv_ok 0 exLevel_flat exLevelInv_flat exLevel_small
    exLevelInv_small exLevel_rounded (exLevel_codeF _) exLevel_interior
  exact ⟨o, h, e⟩

/-- A triangle on the other side of the origin. -/
def exLevelFar : Simplex 3 := ![flatFrac (-1) (-1) 1, flatFrac (-2) (-1) 1, flatFrac (-1) (-2) 1]

theorem perps_exLevelFar : Package.dode.perps exLevelFar = ![![-1, -1, 0], ![-2, -1, 0], ![-1, -2, 0]] := by
  funext i
  fin_cases i <;> refine (perp_flatFrac _ _ _).trans ?_ <;> funext j <;> fin_cases j <;> norm_num

/-- The hypotheses of `C95_raises` are met. -/
example (delaunay : Delaunay2) :
    Rounding.binary64.float64.intersectionTwoTriangles delaunay exLevel exLevelFar = .error .unboundLocalError := by
  refine C95_raises _ (R := (2 : ℕ)) (by norm_num) (by norm_num) delaunay _ _ exLevel_ok ?_ 0 exLevel_flat ?_ exLevel_small ?_ ?_ ?_
  · intro i; fin_cases i <;> exact flatFrac_ok (by decide)
  · intro i
    change Package.dode.perps exLevelFar i 2 = 0
    rw [perps_exLevelFar]; fin_cases i <;> rfl
  · intro i
    refine dode_small_of (by revert i; decide +kernel) fun j => ?_
    change |Package.dode.perps exLevelFar i j| ≤ _
    rw [perps_exLevelFar]
    fin_cases i <;> fin_cases j <;> norm_num
  · refine C95_grid exLevel exLevelFar 0 ![![0, 0], ![2, 0], ![0, 2]] ![![-1, -1], ![-2, -1], ![-1, -2]] 1 (by norm_num)
      (by norm_num) (by norm_num) (by unfold margin2; norm_num)
      (fun i => ?_) (fun i => ?_) (by decide) (by decide) (by decide) (by decide)
    · change Package.dode.perps exLevel i = _
      rw [perps_exLevel]; fin_cases i <;> simp
    · change Package.dode.perps exLevelFar i = _
      rw [perps_exLevelFar]; fin_cases i <;> simp
  · intro i j k l
    have ha : ∀ i, 0 ≤ Package.dode.perps exLevel i 0 := by intro i; rw [perps_exLevel]; fin_cases i <;> simp
    have hb : ∀ i, Package.dode.perps exLevelFar i 0 < 0 := by intro i; rw [perps_exLevelFar]; fin_cases i <;> simp
    rw [Set.disjoint_left]
    rintro x ⟨a, b, a0, b0, ab, rfl⟩ ⟨c, d, c0, d0, cd, e⟩
    have e0 := congrFun e 0
    simp only [Pi.add_apply, Pi.smul_apply, smul_eq_mul] at e0
    have := mul_nonneg a0 (ha i)
    have := mul_nonneg b0 (ha j)
    have h1 := mul_nonpos_of_nonneg_of_nonpos c0 (hb k).le
    have h2 := mul_nonpos_of_nonneg_of_nonpos d0 (hb l).le
    have h3 : c * Package.dode.perps exLevelFar k 0 = 0 := by linarith
    have h4 : d * Package.dode.perps exLevelFar l 0 = 0 := by linarith
    have := (mul_eq_zero.1 h3).resolve_right (hb k).ne
    have := (mul_eq_zero.1 h4).resolve_right (hb l).ne
    linarith

/-- C96 applied: in binary64 arithmetic there is a result, which covers the common part and lies in it. -/
theorem exLevel_binary64 : ∃ o, Rounding.binary64.float64.dodeIntersectionApi .standard
    (fun _ _ pns => some (allTriples pns.length)) (.d4 [exLevel]) (.d4 [exLevelInv]) = .ok (some o) ∧
    volume (slice 0 ((Package.dode.region [exLevel] ∩ Package.dode.region [exLevelInv]) \ Package.dode.region o)) = 0 ∧
      Package.dode.region o ⊆ Package.dode.region [exLevel] ∩ Package.dode.region [exLevelInv] := by
  have ok1 : Obj.Ok [exLevel] := by intro t ht; rw [List.mem_singleton.1 ht]; exact exLevel_ok
  have ok2 : Obj.Ok [exLevelInv] := by intro t ht; rw [List.mem_singleton.1 ht]; exact exLevelInv_ok
  have z1 : Level 0 [exLevel] := by intro t ht; rw [List.mem_singleton.1 ht]; exact exLevel_flat
  have z2 : Level 0 [exLevelInv] := by intro t ht; rw [List.mem_singleton.1 ht]; exact exLevelInv_flat
  obtain ⟨o, ho, e⟩ := exLevel_two
  obtain ⟨rough, e2, hro⟩ := objects2_rounded_eq Rounding.binary64.float64 (R := (2 : ℕ)) (by norm_num) (by norm_num) .standard
    (fun _ _ pns => some (allTriples pns.length)) (by simp) ok1 ok2 z1 z2 exLevel_objects.thick
    exLevel_objects.dist2 exLevel_objects.dist1 exLevel_objects.dist0
  have hres : Rounding.binary64.float64.dodeIntersectionApi .standard
      (fun _ _ pns => some (allTriples pns.length)) (.d4 [exLevel]) (.d4 [exLevelInv]) = .ok (some o) := by
    rw [e2]
    obtain ⟨b, hb, hf⟩ := hro exLevel (by simp)
    have h0 : o ≠ [] := by
      rintro rfl
      obtain ⟨x, hx⟩ := exLevel_interior.mono interior_subset
      rw [← e] at hx
      obtain ⟨a, ha, -⟩ := hx
      simp at ha
    cases b with
    | false => exact absurd exLevel_interior (hf rfl exLevelInv (by simp))
    | true => simp [intersectionTwoObj, fillList, onePiece, innerLoop, hb, exLevel_codeF, ho, h0, bind_ok']
  refine ⟨o, hres, ?_, ?_⟩
  · exact C96_objects _ (R := (2 : ℕ)) (by norm_num) (by norm_num) _ _ _ _ 0 (fun s _ t _ r pns _ hi hn => triples_fill _ r pns hi hn)
      ok1 ok2 z1 z2 exLevel_objects _ hres
  · exact C96_inside _ (R := (2 : ℕ)) (by norm_num) (by norm_num) _ _ _ 0 (fun s _ t _ r pns _ hi hn => triples_fill _ r pns hi hn)
      (by simp) ok1 ok2 z1 z2 exLevel_objects _ hres

end PyQC
