import Verif.Lemmas.PlanarObj
/-!
# Triangles of the dodecagonal package: crossings (C66), inside test (C67), intersection (C68)
-/
namespace PyQC
open Matrix MeasureTheory Dode

/-! ## C66: where two segments cross -/

/-- C66: the segment test accepts exactly when the directions span an area of at least 10⁻³ and the common
perpendicular of the two lines meets both segments and is shorter than 10⁻³. -/
theorem C66_test (s1 s2 : Simplex 2) : segmentsMeetTau s1 s2 = true ↔
    SegmentsClose (Package.dode.perp (s1 0)) (Package.dode.perp (s1 1)) (Package.dode.perp (s2 0)) (Package.dode.perp (s2 1)) :=
  dode_meet_iff s1 s2

/-- C66: for segments at the same height the test accepts exactly when the directions span an area of at least 10⁻³ and
the segments have a point in common. -/
theorem C66_level (s1 s2 : Simplex 2) (z : ℝ) (h1 : ∀ i, Package.dode.perp (s1 i) 2 = z) (h2 : ∀ i, Package.dode.perp (s2 i) 2 = z) :
    let d1 := Package.dode.perp (s1 1) - Package.dode.perp (s1 0)
    let d2 := Package.dode.perp (s2 1) - Package.dode.perp (s2 0)
    segmentsMeetTau s1 s2 = true ↔ 1 / 10 ^ 3 ≤ |d1 0 * d2 1 - d1 1 * d2 0| ∧
      (segment ℝ (Package.dode.perp (s1 0)) (Package.dode.perp (s1 1)) ∩
        segment ℝ (Package.dode.perp (s2 0)) (Package.dode.perp (s2 1))).Nonempty := by
  intro d1 d2
  rw [dode_meet_iff, close_planar (h1 0) (h1 1) (h2 0) (h2 1)]
  have hz1 : d1 2 = 0 := by simp [d1, h1]
  have hz2 : d2 2 = 0 := by simp [d2, h2]
  have hsq : d1 ⨯₃ d2 ⬝ᵥ d1 ⨯₃ d2 = (d1 0 * d2 1 - d1 1 * d2 0) ^ 2 := by
    rw [vec3_dotProduct, cross_apply]
    simp [hz1, hz2]
    ring
  refine and_congr ?_ ?_
  · change 1 / 10 ^ 6 ≤ d1 ⨯₃ d2 ⬝ᵥ d1 ⨯₃ d2 ↔ _
    rw [hsq, show (1 / 10 ^ 6 : ℝ) = (1 / 10 ^ 3) ^ 2 by norm_num, sq_le_sq, abs_of_pos (by norm_num : (0 : ℝ) < 1 / 10 ^ 3)]
  · rw [segment_eq_image', segment_eq_image']
    constructor
    · rintro ⟨a, b, a0, a1, b0, b1, e⟩
      exact ⟨_, ⟨a, ⟨a0, a1⟩, rfl⟩, ⟨b, ⟨b0, b1⟩, e.symm⟩⟩
    · rintro ⟨x, ⟨a, ⟨a0, a1⟩, rfl⟩, ⟨b, ⟨b0, b1⟩, e⟩⟩
      exact ⟨a, b, a0, a1, b0, b1, e.symm⟩

/-- C66: `intersection_two_segment` never raises on vectors with non-zero denominators. It returns `None` exactly when
the test rejects. Otherwise it returns a canonical 6D vector on the first segment, at the foot of the common
perpendicular: within 10⁻³ of a point of the second segment. -/
theorem C66_point (s1 s2 : Simplex 2) (h1 : Simplex.Ok s1) (h2 : Simplex.Ok s2) :
    (segmentsMeetTau s1 s2 = false ∧ intersectionTwoSegment s1 s2 = .ok none) ∨
    segmentsMeetTau s1 s2 = true ∧ ∃ (a b : ℝ) (r : Vec 6), intersectionTwoSegment s1 s2 = .ok (some r) ∧ Vec.Canon r ∧
      0 ≤ a ∧ a ≤ 1 ∧ 0 ≤ b ∧ b ≤ 1 ∧
      Package.dode.val r = Package.dode.val (s1 0) + a • (Package.dode.val (s1 1) - Package.dode.val (s1 0)) ∧
      (let gap := Package.dode.perp (s2 0) + b • (Package.dode.perp (s2 1) - Package.dode.perp (s2 0)) - Package.dode.perp r
       gap ⬝ᵥ (Package.dode.perp (s1 1) - Package.dode.perp (s1 0)) = 0 ∧
       gap ⬝ᵥ (Package.dode.perp (s2 1) - Package.dode.perp (s2 0)) = 0 ∧ gap ⬝ᵥ gap < 1 / 10 ^ 6) := by
  cases h : segmentsMeetTau s1 s2 with
  | false => exact .inl ⟨rfl, twoSegment_none h⟩
  | true =>
    obtain ⟨a, b, r, hr, hc, a0, a1, b0, b1, hv, -, f1, f2, f3⟩ := twoSegment_ok h1 h2 h
    exact .inr ⟨rfl, a, b, r, hr, hc, a0, a1, b0, b1, hv, f1, f2, f3⟩

/-- C66: for segments at the same height the returned point is the only common point of the two segments. -/
theorem C66_level_point (s1 s2 : Simplex 2) (h1 : Simplex.Ok s1) (h2 : Simplex.Ok s2) (z : ℝ)
    (z1 : ∀ i, Package.dode.perp (s1 i) 2 = z) (z2 : ∀ i, Package.dode.perp (s2 i) 2 = z) (r : Vec 6)
    (hr : intersectionTwoSegment s1 s2 = .ok (some r)) :
    segment ℝ (Package.dode.perp (s1 0)) (Package.dode.perp (s1 1)) ∩
      segment ℝ (Package.dode.perp (s2 0)) (Package.dode.perp (s2 1)) = {Package.dode.perp r} := by
  cases h : segmentsMeetTau s1 s2 with
  | false => rw [twoSegment_none h] at hr; cases hr
  | true =>
    obtain ⟨a, b, r', hr', -, a0, a1, b0, b1, -, hp, f1, f2, -⟩ := twoSegment_ok h1 h2 h
    rw [hr] at hr'
    cases hr'
    have hne := close_not_parallel ((dode_meet_iff _ _).1 h)
    have e := feet_level (z := z) (z1 0) (z1 1) (z2 0) (z2 1) hne hp f1 f2
    rw [segment_eq_image', segment_eq_image']
    ext x
    rw [Set.mem_singleton_iff]
    constructor
    · rintro ⟨⟨a', ⟨-, -⟩, ha⟩, ⟨b', ⟨-, -⟩, hb⟩⟩
      simp only at ha hb
      obtain ⟨ea, -⟩ := crossing_unique hne ((ha.trans hb.symm) : _) (hp.symm.trans e.symm)
      rw [← ha, hp, ea]
    · rintro rfl
      exact ⟨⟨a, ⟨a0, a1⟩, hp.symm⟩, ⟨b, ⟨b0, b1⟩, e⟩⟩

/-- The point (x/n, y/n) of the plane of height zero. -/
def flatFrac (x y n : Int) : Vec 6 := ![⟨0, 0, 1⟩, ⟨x, 0, n⟩, ⟨y, 0, n⟩, ⟨0, 0, 1⟩, ⟨0, 0, 1⟩, ⟨0, 0, 1⟩]

theorem perp_flatFrac (x y n : Int) : Package.dode.perp (flatFrac x y n) = ![(x : ℝ) / n, (y : ℝ) / n, 0] := by
  funext i
  fin_cases i <;>
    simp [Package.perp, Package.perpMat, Package.theta, Matrix.mulVec, dotProduct, Fin.sum_univ_six, Vec.val, Num3.val, flatFrac]

/-- C66: short segments that cross are missed: two perpendicular segments of length 1/40 through one point. -/
theorem C66_short_missed :
    let s1 : Simplex 2 := ![flatFrac (-1) 0 80, flatFrac 1 0 80]
    let s2 : Simplex 2 := ![flatFrac 0 (-1) 80, flatFrac 0 1 80]
    (0 : Fin 3 → ℝ) ∈ segment ℝ (Package.dode.perp (s1 0)) (Package.dode.perp (s1 1)) ∩
      segment ℝ (Package.dode.perp (s2 0)) (Package.dode.perp (s2 1)) ∧ intersectionTwoSegment s1 s2 = .ok none := by
  intro s1 s2
  have e0 : Package.dode.perp (s1 0) = ![(-1 : ℝ) / 80, 0, 0] := (perp_flatFrac _ _ _).trans (by norm_num)
  have e1 : Package.dode.perp (s1 1) = ![(1 : ℝ) / 80, 0, 0] := (perp_flatFrac _ _ _).trans (by norm_num)
  have e2 : Package.dode.perp (s2 0) = ![0, (-1 : ℝ) / 80, 0] := (perp_flatFrac _ _ _).trans (by norm_num)
  have e3 : Package.dode.perp (s2 1) = ![0, (1 : ℝ) / 80, 0] := (perp_flatFrac _ _ _).trans (by norm_num)
  constructor
  · rw [e0, e1, e2, e3]
    constructor
    · refine ⟨1 / 2, 1 / 2, by norm_num, by norm_num, by norm_num, ?_⟩
      funext j; fin_cases j <;> norm_num
    · refine ⟨1 / 2, 1 / 2, by norm_num, by norm_num, by norm_num, ?_⟩
      funext j; fin_cases j <;> norm_num
  · apply twoSegment_none
    rw [← Bool.not_eq_true, dode_meet_iff]
    intro h
    have := h.1
    rw [e0, e1, e2, e3, vec3_dotProduct, cross_apply] at this
    simp at this
    norm_num at this

/-- Two segments that are accepted: the diagonals of the unit square. -/
example : ∃ r, intersectionTwoSegment ![flatFrac 0 0 1, flatFrac 1 1 1] ![flatFrac 1 0 1, flatFrac 0 1 1] = .ok (some r) ∧
    Package.dode.perp r = ![1 / 2, 1 / 2, 0] := by
  set s1 : Simplex 2 := ![flatFrac 0 0 1, flatFrac 1 1 1] with hs1
  set s2 : Simplex 2 := ![flatFrac 1 0 1, flatFrac 0 1 1] with hs2
  have e0 : Package.dode.perp (s1 0) = ![0, 0, 0] := (perp_flatFrac _ _ _).trans (by norm_num)
  have e1 : Package.dode.perp (s1 1) = ![1, 1, 0] := (perp_flatFrac _ _ _).trans (by norm_num)
  have e2 : Package.dode.perp (s2 0) = ![1, 0, 0] := (perp_flatFrac _ _ _).trans (by norm_num)
  have e3 : Package.dode.perp (s2 1) = ![0, 1, 0] := (perp_flatFrac _ _ _).trans (by norm_num)
  have z1 : ∀ i, Package.dode.perp (s1 i) 2 = 0 := by
    intro i; fin_cases i
    · exact (congrFun e0 2).trans rfl
    · exact (congrFun e1 2).trans rfl
  have z2 : ∀ i, Package.dode.perp (s2 i) 2 = 0 := by
    intro i; fin_cases i
    · exact (congrFun e2 2).trans rfl
    · exact (congrFun e3 2).trans rfl
  have h1 : Simplex.Ok s1 := by intro i; fin_cases i <;> decide
  have h2 : Simplex.Ok s2 := by intro i; fin_cases i <;> decide
  have hm : (![1 / 2, 1 / 2, 0] : Fin 3 → ℝ) ∈ segment ℝ (Package.dode.perp (s1 0)) (Package.dode.perp (s1 1)) ∩
      segment ℝ (Package.dode.perp (s2 0)) (Package.dode.perp (s2 1)) := by
    rw [e0, e1, e2, e3]
    constructor
    · refine ⟨1 / 2, 1 / 2, by norm_num, by norm_num, by norm_num, ?_⟩
      funext j; fin_cases j <;> norm_num
    · refine ⟨1 / 2, 1 / 2, by norm_num, by norm_num, by norm_num, ?_⟩
      funext j; fin_cases j <;> norm_num
  have ht : segmentsMeetTau s1 s2 = true := by
    refine (C66_level s1 s2 0 z1 z2).2 ⟨?_, _, hm⟩
    rw [e0, e1, e2, e3]
    norm_num
  rcases C66_point s1 s2 h1 h2 with ⟨h, -⟩ | ⟨-, a, b, r, hr, -⟩
  · rw [ht] at h; cases h
  · refine ⟨r, hr, ?_⟩
    have := C66_level_point s1 s2 h1 h2 0 z1 z2 r hr
    rw [this] at hm
    exact hm.symm

/-! ## C67: the inside test -/

/-- C67: for a point of the plane of the triangle, the test accepts exactly when the triangle is not degenerate and the
absolute values of the barycentric coordinates of the point add up to less than 1 + 10⁻⁶. -/
theorem C67_plane (v : Vec 6) (t : Simplex 3) (w : Fin 3 → ℝ) (hw : IsBary (Package.dode.perps t) w (Package.dode.perp v)) :
    insideTau v t = true ↔ triArea (Package.dode.perps t) ≠ 0 ∧ ∑ i, |w i| < 1 + 1 / 10 ^ 6 := by
  rw [dode_insideTau, insideTriangle_plane hw]

/-- C67: for a level triangle and a point at the same height. -/
theorem C67_level (v : Vec 6) (t : Simplex 3) (z : ℝ) (hv : Package.dode.perp v 2 = z) (ht : ∀ i, Package.dode.perp (t i) 2 = z) :
    insideTau v t = true ↔ AcceptsTri (Package.dode.perps t) (Package.dode.perp v) :=
  inside_iff_accepts ht hv

/-- C67: no point of a triangle is rejected, however small the triangle, unless it is degenerate. -/
theorem C67_complete (v : Vec 6) (t : Simplex 3) (h0 : triArea (Package.dode.perps t) ≠ 0)
    (h : Package.dode.perp v ∈ convexHull ℝ (Set.range (Package.dode.perps t))) : insideTau v t = true := by
  obtain ⟨w, hw, hn⟩ := mem_solid_iff.1 h
  rw [C67_plane v t w hw]
  refine ⟨h0, ?_⟩
  simp only [abs_of_nonneg (hn _)]
  rw [hw.1]; norm_num

/-- C67: an accepted point at the height of a level triangle is at most 10⁻⁶/2 outside: no barycentric coordinate is
below −10⁻⁶/2. -/
theorem C67_sound (v : Vec 6) (t : Simplex 3) (z : ℝ) (hv : Package.dode.perp v 2 = z) (ht : ∀ i, Package.dode.perp (t i) 2 = z)
    (h : insideTau v t = true) : NearSolid (1 / 10 ^ 6 / 2) (Package.dode.perps t) (Package.dode.perp v) := by
  obtain ⟨-, w, hw, hs⟩ := (C67_level v t z hv ht).1 h
  refine ⟨w, hw, fun i => ?_⟩
  have h1 := hw.1
  rw [Fin.sum_univ_three] at h1 hs
  have a0 := le_abs_self (w 0); have a1 := le_abs_self (w 1); have a2 := le_abs_self (w 2)
  have b0 := neg_abs_le (w 0); have b1 := neg_abs_le (w 1); have b2 := neg_abs_le (w 2)
  fin_cases i <;> simp only [Fin.zero_eta, Fin.mk_one, Fin.reduceFinMk] <;> linarith

/-- C67: a degenerate triangle contains no point, not even its own corners. -/
theorem C67_degenerate (v : Vec 6) (t : Simplex 3) (h : triArea (Package.dode.perps t) = 0) : insideTau v t = false := by
  rw [← Bool.not_eq_true, dode_insideTau, insideTriangle_iff, h, mul_zero]
  exact not_lt.2 (abs_nonneg _)

/-- The triangle x, y ≥ 0, x + y ≤ 2. -/
def exLevel : Simplex 3 := ![flatFrac 0 0 1, flatFrac 2 0 1, flatFrac 0 2 1]

theorem perps_exLevel : Package.dode.perps exLevel = ![![0, 0, 0], ![2, 0, 0], ![0, 2, 0]] := by
  funext i
  fin_cases i <;> refine (perp_flatFrac _ _ _).trans ?_ <;> funext j <;> fin_cases j <;> norm_num

theorem exLevel_flat (i : Fin 3) : Package.dode.perp (exLevel i) 2 = 0 := by
  change Package.dode.perps exLevel i 2 = 0
  rw [perps_exLevel]; fin_cases i <;> rfl

theorem isBary_three {q : Fin 3 → Fin 3 → ℝ} {w : Fin 3 → ℝ} {x : Fin 3 → ℝ} :
    IsBary q w x ↔ w 0 + w 1 + w 2 = 1 ∧ ∀ j, x j = w 0 * q 0 j + w 1 * q 1 j + w 2 * q 2 j := by
  unfold IsBary
  rw [Fin.sum_univ_three, funext_iff]
  simp [Fin.sum_univ_three]


theorem exLevel_area : triArea (Package.dode.perps exLevel) ≠ 0 := by
  rw [triArea_flat_ne (z := 0) (q := Package.dode.perps exLevel) exLevel_flat, perps_exLevel]
  simp [crossZ]

/-- The hypotheses of `C67_complete` and `C67_sound` are met by a point on the border of a triangle. -/
example : insideTau (flatFrac 1 1 1) exLevel = true ∧
    NearSolid (1 / 10 ^ 6 / 2) (Package.dode.perps exLevel) (Package.dode.perp (flatFrac 1 1 1)) := by
  have h : insideTau (flatFrac 1 1 1) exLevel = true := by
    refine C67_complete _ _ exLevel_area ?_
    refine mem_solid_iff.2 ⟨![0, 1 / 2, 1 / 2], ?_, fun i => by fin_cases i <;> simp⟩
    rw [isBary_three, perps_exLevel, perp_flatFrac]
    refine ⟨by simp; norm_num, fun j => ?_⟩
    fin_cases j <;> simp
  exact ⟨h, C67_sound _ _ 0 (by rw [perp_flatFrac]; rfl) exLevel_flat h⟩

/-- `C67_level` and `C67_plane` reject a point at distance 1 from the triangle. -/
example : insideTau (flatFrac 2 1 1) exLevel = false := by
  rw [← Bool.not_eq_true, C67_plane _ _ ![-1 / 2, 1, 1 / 2] (by
    rw [isBary_three, perps_exLevel, perp_flatFrac]
    refine ⟨by simp; norm_num, fun j => ?_⟩
    fin_cases j <;> simp)]
  rintro ⟨-, h⟩
  rw [Fin.sum_univ_three] at h
  norm_num [abs_of_neg, abs_of_pos] at h
  have := abs_nonneg ((![-(1 / 2), 1, 1 / 2] : Fin 3 → ℝ) 2)
  linarith

/-- `C67_degenerate`: three equal corners. -/
example : insideTau (flatFrac 0 0 1) ![flatFrac 0 0 1, flatFrac 0 0 1, flatFrac 0 0 1] = false := by
  refine C67_degenerate _ _ ?_
  by_contra h
  rw [← ne_eq, triArea_flat_ne (z := 0) (fun i => by
    fin_cases i <;> exact congrFun (perp_flatFrac 0 0 1) 2)] at h
  apply h
  simp [crossZ, Package.perps]

end PyQC
