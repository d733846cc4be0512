import Verif.Lemmas.Ball
/-!
# C32–C35: inside test, segment-triangle test, exact intersection point, bounding-ball rejection
-/
namespace PyQC
open Matrix

/-! ## Rational points of perpendicular space -/

/-- A 6D vector of the icosahedral lattice over the rationals whose perp point is `(x/n, y/n, z/n)`. -/
def cart (x y z n : Int) : Vec 6 :=
  ![⟨-y, 0, 2 * n⟩, ⟨-x, 0, 2 * n⟩, ⟨-x, 0, 2 * n⟩, ⟨z, 0, 2 * n⟩, ⟨-y, 0, 2 * n⟩, ⟨-z, 0, 2 * n⟩]

theorem perp_cart (x y z n : Int) : Package.ico.perp (cart x y z n) = ![(x : ℝ) / n, (y : ℝ) / n, (z : ℝ) / n] := by
  by_cases h : (n : ℝ) = 0
  · funext i
    fin_cases i <;>
      simp [Package.perp, Package.perpMat, Package.theta, Matrix.mulVec, dotProduct, Fin.sum_univ_six, Vec.val,
        Num3.val, cart, h]
  · funext i
    fin_cases i <;>
      simp [Package.perp, Package.perpMat, Package.theta, Matrix.mulVec, dotProduct, Fin.sum_univ_six, Vec.val,
        Num3.val, cart] <;> field_simp <;> ring

theorem cart_ok {x y z n : Int} (h : n ≠ 0) : Vec.Ok (cart x y z n) := by
  intro i
  fin_cases i <;> simp [cart, h]

/-! ## C32 -/

theorem eps_eq : EPS = 1 / 10 ^ 6 := rfl

theorem det4_ne_iff {q : Fin 4 → Fin 3 → ℝ} : det4 q ≠ 0 ↔ tetVol q ≠ 0 := by
  rw [tetVol_det4]
  simp

/-- C32: `inside_outside_tetrahedron` accepts exactly the points whose barycentric coordinates have
absolute values adding up to less than 1 + 10⁻⁶. -/
theorem C32_exact (x : Fin 3 → ℝ) (q : Fin 4 → Fin 3 → ℝ) :
    Ico.insideTetrahedron x q = true ↔ Accepts q x := by
  rw [inside_iff, det4_ne_iff, eps_eq]
  rfl

/-- C32: every point of the closed tetrahedron is accepted when the tetrahedron is not flat. -/
theorem C32_complete (x : Fin 3 → ℝ) (q : Fin 4 → Fin 3 → ℝ) (hq : tetVol q ≠ 0)
    (h : x ∈ convexHull ℝ (Set.range q)) : Ico.insideTetrahedron x q = true := by
  obtain ⟨w, hw, h0⟩ := mem_solid_iff.1 h
  refine (C32_exact x q).2 ⟨hq, w, hw, ?_⟩
  simp only [abs_of_nonneg (h0 _)]
  rw [hw.1]
  norm_num

/-- C32: every accepted point has all four barycentric coordinates greater than -10⁻⁶/2. -/
theorem C32_sound (x : Fin 3 → ℝ) (q : Fin 4 → Fin 3 → ℝ) (h : Ico.insideTetrahedron x q = true) (w : Fin 4 → ℝ)
    (hw : IsBary q w x) (i : Fin 4) : -(1 / 10 ^ 6 / 2) < w i :=
  neg_part_lt hw.1 ((inside_bary hw).1 h).2 i

/-- C32: such coordinates exist, so an accepted point lies in the tetrahedron up to 10⁻⁶/2. -/
theorem C32_near (x : Fin 3 → ℝ) (q : Fin 4 → Fin 3 → ℝ) (h : Ico.insideTetrahedron x q = true) :
    NearSolid (1 / 10 ^ 6 / 2) q x := inside_near h

/-- C32: a point with a barycentric coordinate at most -10⁻⁶/2 is rejected. -/
theorem C32_reject (x : Fin 3 → ℝ) (q : Fin 4 → Fin 3 → ℝ) (w : Fin 4 → ℝ) (hw : IsBary q w x) (i : Fin 4)
    (hi : w i ≤ -(1 / 10 ^ 6 / 2)) : Ico.insideTetrahedron x q = false := by
  by_contra h
  exact absurd (C32_sound x q (by simpa using h) w hw i) (not_lt.2 hi)

/-- C32: a flat tetrahedron accepts no point, not even its own corners. -/
theorem C32_degenerate (x : Fin 3 → ℝ) (q : Fin 4 → Fin 3 → ℝ) (hq : tetVol q = 0) :
    Ico.insideTetrahedron x q = false :=
  inside_degenerate (by by_contra h; exact (det4_ne_iff.1 h) hq) x

/-- C32: the 6D function is the test on the perp points. -/
theorem C32_perp (v : Vec 6) (t : Simplex 4) :
    Ico.insideTau v t = true ↔ Accepts (Package.ico.perps t) (Package.ico.perp v) := by
  rw [insideTau_eq, C32_exact]

/-- C32, disagreement: `inside_outside_obj` answers `True` ("inside") exactly for the points accepted by
no tetrahedron of the object. -/
theorem C32_object_inverted (x : Fin 3 → ℝ) (o : List (Fin 4 → Fin 3 → ℝ)) :
    Ico.insideOutsideObj x o = true ↔ ∀ q ∈ o, ¬ Accepts q x := by
  unfold Ico.insideOutsideObj
  by_cases h : (o.any fun t => Ico.insideTetrahedron x t) = true
  · rw [if_pos h]
    simp only [Bool.false_eq_true, false_iff]
    obtain ⟨t, ht, h⟩ := List.any_eq_true.1 h
    exact fun h' => h' t ht ((C32_exact x t).1 h)
  · rw [if_neg h]
    simp only [true_iff]
    intro q hq hx
    exact h (List.any_eq_true.2 ⟨q, hq, (C32_exact x q).2 hx⟩)

/-- The unit corner tetrahedron. -/
def exCorner : Simplex 4 := ![cart 0 0 0 1, cart 1 0 0 1, cart 0 1 0 1, cart 0 0 1 1]

theorem exCorner_ok : Simplex.Ok exCorner := by
  intro i
  fin_cases i <;> exact cart_ok (by decide)

theorem perps_exCorner : Package.ico.perps exCorner = ![![0, 0, 0], ![1, 0, 0], ![0, 1, 0], ![0, 0, 1]] := by
  funext i
  fin_cases i <;> exact (perp_cart _ _ _ _).trans (by simp)

theorem tetVol_exCorner : tetVol (Package.ico.perps exCorner) = 1 / 6 := by
  rw [perps_exCorner, tetVol_det4, det4_eq]
  simp

/-- A point strictly inside, a point just outside but within the tolerance, and a point outside. -/
example : Ico.insideTau (cart 1 1 1 10) exCorner = true ∧ Ico.insideTau (cart 1 1 (-1) 10000000) exCorner = true ∧
    Ico.insideTau (cart 1 1 (-1) 10) exCorner = false := by
  have hb : ∀ x y z : ℝ, IsBary (Package.ico.perps exCorner) ![1 - x - y - z, x, y, z] ![x, y, z] := by
    intro x y z
    rw [isBary_four, perps_exCorner]
    refine ⟨by simp; ring, fun j => ?_⟩
    fin_cases j <;> simp
  have hd : det4 (Package.ico.perps exCorner) ≠ 0 := by
    rw [det4_ne_iff, tetVol_exCorner]; norm_num
  refine ⟨?_, ?_, ?_⟩
  · rw [insideTau_eq, perp_cart, inside_bary (hb _ _ _), Fin.sum_univ_four]
    refine ⟨hd, ?_⟩
    simp [EPS]
    norm_num
  · rw [insideTau_eq, perp_cart, inside_bary (hb _ _ _), Fin.sum_univ_four]
    refine ⟨hd, ?_⟩
    simp [EPS]
    norm_num [abs_of_pos, abs_of_neg]
  · rw [insideTau_eq, perp_cart]
    refine C32_reject _ _ _ (hb _ _ _) 3 ?_
    simp
    norm_num

/-! ## C33 -/

/-- C33: the test returns `True` exactly for the pairs described by `Hits`. -/
theorem C33_exact (ln : Fin 2 → Fin 3 → ℝ) (tr : Fin 3 → Fin 3 → ℝ) :
    Ico.segmentMeetsTriangle ln tr = true ↔ Hits (ln 0) (ln 1) (tr 0) (tr 1) (tr 2) := segTri_iff ln tr

/-- C33: a genuine intersection is reported when the three directions span at least 10⁻⁶. -/
theorem C33_complete (ln : Fin 2 → Fin 3 → ℝ) (tr : Fin 3 → Fin 3 → ℝ) (x : Fin 3 → ℝ)
    (hb : 1 / 10 ^ 6 ≤ |Matrix.det (Matrix.of ![ln 1 - ln 0, tr 2 - tr 0, tr 1 - tr 0])|)
    (h1 : x ∈ segment ℝ (ln 0) (ln 1)) (h2 : x ∈ convexHull ℝ (Set.range tr)) :
    Ico.segmentMeetsTriangle ln tr = true := by
  obtain ⟨w, ⟨hw1, hw2⟩, hw0⟩ := mem_solid_iff.1 h2
  obtain ⟨a, b, ha, hb', hab, rfl⟩ := h1
  rw [Fin.sum_univ_three] at hw1 hw2
  refine (C33_exact ln tr).2 ⟨hb, b, w 1, w 2, ?_, by linarith, by linarith, ?_, ?_, ?_, ?_⟩
  · unfold Meets
    have e1 : ln 0 + b • (ln 1 - ln 0) = a • ln 0 + b • ln 1 := by
      rw [show a = 1 - b by linarith, sub_smul, one_smul, smul_sub]; abel
    rw [e1, hw2, show w 0 = 1 - w 1 - w 2 by linarith, sub_smul, sub_smul, one_smul, smul_sub, smul_sub]
    abel
  all_goals have := hw0 0; have := hw0 1; have := hw0 2; linarith

/-- C33: nothing is reported when the three directions span less than 10⁻⁶, even for a genuine
intersection. -/
theorem C33_parallel (ln : Fin 2 → Fin 3 → ℝ) (tr : Fin 3 → Fin 3 → ℝ)
    (hb : |Matrix.det (Matrix.of ![ln 1 - ln 0, tr 2 - tr 0, tr 1 - tr 0])| < 1 / 10 ^ 6) :
    Ico.segmentMeetsTriangle ln tr = false := by
  by_contra h
  have := ((C33_exact ln tr).1 (by simpa using h)).1
  linarith

/-- C33: the parameters are unique, so the accepted range is that of the actual meeting point. -/
theorem C33_sound (ln : Fin 2 → Fin 3 → ℝ) (tr : Fin 3 → Fin 3 → ℝ) (h : Ico.segmentMeetsTriangle ln tr = true)
    (t u v : ℝ) (hm : Meets (ln 0) (ln 1) (tr 0) (tr 1) (tr 2) t u v) :
    -(1 / 10 ^ 6) ≤ t ∧ t ≤ 1 + 1 / 10 ^ 6 ∧ -(1 / 10 ^ 6) ≤ u ∧ u ≤ 1 + 1 / 10 ^ 6 ∧ -(1 / 10 ^ 6) ≤ v ∧
      u + v ≤ 1 + 1 / 10 ^ 6 := by
  obtain ⟨hb, t', u', v', hm', hr⟩ := (C33_exact ln tr).1 h
  have h0 : ((ln 1 - ln 0) ⨯₃ (tr 2 - tr 0)) ⬝ᵥ (tr 1 - tr 0) ≠ 0 := by
    rw [bunbo_det]
    intro h0
    rw [h0, abs_zero] at hb
    norm_num at hb
  obtain ⟨rfl, rfl, rfl⟩ := (moller h0 t u v).1 hm
  obtain ⟨rfl, rfl, rfl⟩ := (moller h0 t' u' v').1 hm'
  exact hr

/-- C33: the 6D function is the test on the perp points. -/
theorem C33_perp (sg : Simplex 2) (tr : Simplex 3) :
    Ico.segmentMeetsTriangleTau sg tr = true ↔ Hits (Package.ico.perp (sg 0)) (Package.ico.perp (sg 1))
      (Package.ico.perp (tr 0)) (Package.ico.perp (tr 1)) (Package.ico.perp (tr 2)) := by
  unfold Ico.segmentMeetsTriangleTau
  rw [internalSets_eq, internalSets_eq]
  exact C33_exact _ _

/-- A segment through the interior of a triangle. -/
def exSeg : Simplex 2 := ![cart 1 1 (-1) 4, cart 1 1 3 4]
/-- The triangle with two unit sides along the axes. -/
def exFace : Simplex 3 := ![cart 0 0 0 1, cart 1 0 0 1, cart 0 1 0 1]

theorem exSeg_meets : Ico.segmentMeetsTriangleTau exSeg exFace = true := by
  rw [C33_perp]
  have h0 : Package.ico.perp (exSeg 0) = ![1 / 4, 1 / 4, -1 / 4] := (perp_cart _ _ _ _).trans (by norm_num)
  have h1 : Package.ico.perp (exSeg 1) = ![1 / 4, 1 / 4, 3 / 4] := (perp_cart _ _ _ _).trans (by norm_num)
  have h2 : Package.ico.perp (exFace 0) = ![0, 0, 0] := (perp_cart _ _ _ _).trans (by norm_num)
  have h3 : Package.ico.perp (exFace 1) = ![1, 0, 0] := (perp_cart _ _ _ _).trans (by norm_num)
  have h4 : Package.ico.perp (exFace 2) = ![0, 1, 0] := (perp_cart _ _ _ _).trans (by norm_num)
  rw [h0, h1, h2, h3, h4]
  refine ⟨?_, 1 / 4, 1 / 4, 1 / 4, ?_, ?_⟩
  · rw [Matrix.det_fin_three]
    simp
    norm_num
  · rw [meets_iff]
    intro j
    fin_cases j <;> simp
    norm_num
  · norm_num

example : Ico.segmentMeetsTriangleTau exSeg exFace = true := exSeg_meets

/-! ## C34 -/

/-- C34: once the test has accepted, `intersection_segment_surface` returns a point without raising. The
point is exactly on the line of the segment, also in 6D, and exactly in the plane of the triangle, with
parameters in the accepted range. -/
theorem C34_point (sg : Simplex 2) (tr : Simplex 3) (hs : Simplex.Ok sg) (ht : Simplex.Ok tr)
    (h : Ico.segmentMeetsTriangleTau sg tr = true) :
    ∃ (r : Vec 6) (t u v : ℝ), Ico.intersectionSegmentSurface sg tr = .ok (some r) ∧ Vec.Canon r ∧
      Package.ico.val r = Package.ico.val (sg 0) + t • (Package.ico.val (sg 1) - Package.ico.val (sg 0)) ∧
      Package.ico.perp r = Package.ico.perp (sg 0) + t • (Package.ico.perp (sg 1) - Package.ico.perp (sg 0)) ∧
      Package.ico.perp r = Package.ico.perp (tr 0) + u • (Package.ico.perp (tr 1) - Package.ico.perp (tr 0)) +
        v • (Package.ico.perp (tr 2) - Package.ico.perp (tr 0)) ∧
      -(1 / 10 ^ 6) ≤ t ∧ t ≤ 1 + 1 / 10 ^ 6 ∧ -(1 / 10 ^ 6) ≤ u ∧ u ≤ 1 + 1 / 10 ^ 6 ∧ -(1 / 10 ^ 6) ≤ v ∧
      u + v ≤ 1 + 1 / 10 ^ 6 := by
  obtain ⟨t, r, h1, h2, h3, h4, u, v, hm, hr⟩ := segSurf_ok hs ht h
  exact ⟨r, t, u, v, h1, h2, h3, h4, h4.trans hm, hr⟩

/-- C34: a point is returned exactly when the test accepts, otherwise `None`, and nothing else happens. -/
theorem C34_iff (sg : Simplex 2) (tr : Simplex 3) (hs : Simplex.Ok sg) (ht : Simplex.Ok tr) :
    (∃ r, Ico.intersectionSegmentSurface sg tr = .ok (some r)) ∧ Ico.segmentMeetsTriangleTau sg tr = true ∨
      Ico.intersectionSegmentSurface sg tr = .ok none ∧ Ico.segmentMeetsTriangleTau sg tr = false := by
  cases h : Ico.segmentMeetsTriangleTau sg tr with
  | true =>
    obtain ⟨t, r, h1, -⟩ := segSurf_ok hs ht h
    exact .inl ⟨⟨r, h1⟩, rfl⟩
  | false => exact .inr ⟨segSurf_none h, rfl⟩

example : ∃ r, Ico.intersectionSegmentSurface exSeg exFace = .ok (some r) ∧
    Package.ico.perp r 2 = 0 := by
  obtain ⟨r, t, u, v, h1, -, -, -, h5, -⟩ := C34_point exSeg exFace
    (by intro i; fin_cases i <;> exact cart_ok (by decide)) (by intro i; fin_cases i <;> exact cart_ok (by decide))
    exSeg_meets
  refine ⟨r, h1, ?_⟩
  have h2 : Package.ico.perp (exFace 0) = ![0, 0, 0] := (perp_cart _ _ _ _).trans (by norm_num)
  have h3 : Package.ico.perp (exFace 1) = ![1, 0, 0] := (perp_cart _ _ _ _).trans (by norm_num)
  have h4 : Package.ico.perp (exFace 2) = ![0, 1, 0] := (perp_cart _ _ _ _).trans (by norm_num)
  rw [h5, h2, h3, h4]
  simp

/-! ## C35 -/

section
variable (p : Package)

/-- C35: `ball_radius` of a piece is the largest distance of one of its corners to the given centre. -/
theorem C35_radius {m : Nat} (hm : 0 < m) (s : Simplex m) (c : Vec 6) (hs : Simplex.Ok s) (hc : Vec.Ok c) :
    ∃ R, ballRadius p s c = .ok R ∧ (∀ i, dist3 (p.perp (s i)) (p.perp c) ≤ R) ∧
      ∃ i, dist3 (p.perp (s i)) (p.perp c) = R := by
  obtain ⟨R, hR, h1, v, hv, h2⟩ := ballRadius_list p hc (l := List.ofFn s)
    (by intro v hv; obtain ⟨i, rfl⟩ := (List.mem_ofFn' _ _).mp hv; exact hs i)
    (by intro h; have := congrArg List.length h; simp at this; omega)
  obtain ⟨i, rfl⟩ := (List.mem_ofFn' _ _).mp hv
  exact ⟨R, hR, fun i => h1 _ ((List.mem_ofFn' _ _).mpr ⟨i, rfl⟩), i, h2⟩

/-- C35: `ball_radius_obj` is the largest distance of a corner of the object to the given centre. -/
theorem C35_radius_obj {m : Nat} (hm : 0 < m) (o : Obj m) (h0 : o ≠ []) (c : Vec 6) (ho : Obj.Ok o)
    (hc : Vec.Ok c) :
    ∃ R, ballRadiusObj p o c = .ok R ∧ (∀ s ∈ o, ∀ i, dist3 (p.perp (s i)) (p.perp c) ≤ R) ∧
      ∃ s ∈ o, ∃ i, dist3 (p.perp (s i)) (p.perp c) = R := by
  have hmem : ∀ v, v ∈ flattenObj o ↔ ∃ s ∈ o, ∃ i, s i = v := by
    intro v; simp [flattenObj, List.mem_flatMap, List.mem_ofFn]
  obtain ⟨R, hR, h1, v, hv, h2⟩ := ballRadius_list p hc (l := flattenObj o)
    (by intro v hv; obtain ⟨s, hs, i, rfl⟩ := (hmem v).1 hv; exact ho s hs i)
    (by
      obtain ⟨s, hs⟩ := List.exists_mem_of_ne_nil o h0
      exact List.ne_nil_of_mem ((hmem (s ⟨0, hm⟩)).2 ⟨s, hs, _, rfl⟩))
  obtain ⟨s, hs, i, rfl⟩ := (hmem v).1 hv
  exact ⟨R, hR, fun s hs i => h1 _ ((hmem _).2 ⟨s, hs, i, rfl⟩), s, hs, i, h2⟩

theorem roughCheck_ok {m : Nat} (hm : 0 < m) (s : Simplex m) (c : Vec 6) (hs : Simplex.Ok s) (hc : Vec.Ok c)
    (d : ℝ) : ∃ R, (∀ i, dist3 (p.perp (s i)) (p.centroidPerp s) ≤ R) ∧
      (∃ i, dist3 (p.perp (s i)) (p.centroidPerp s) = R) ∧ ∃ b, roughCheck p s c d = .ok b ∧
      (b = true ↔ dist3 (p.centroidPerp s) (p.perp c) ≤ R + d) := by
  obtain ⟨r, hr, hp⟩ := perp_centroid p hm hs
  have hrok : Vec.Ok r := by
    have h0 : List.ofFn s ≠ [] := by
      intro h; have := congrArg List.length h; simp at this; omega
    rw [centroid_ok p.lawful h0 (by
      intro v hv; obtain ⟨i, rfl⟩ := (List.mem_ofFn' _ _).mp hv; exact hs i)] at hr
    cases hr
    exact nvec_ok _
  obtain ⟨R, hR, h1, h2⟩ := C35_radius p hm s r hs hrok
  rw [hp] at h1 h2
  have e : roughCheck p s c d = roughCheck p s c d := rfl
  conv at e => rhs; unfold roughCheck
  rw [hr, bind_ok', hR, bind_ok', distance_ok p hrok hc, bind_ok', hp] at e
  by_cases h : dist3 (p.centroidPerp s) (p.perp c) ≤ R + d
  · rw [if_pos h] at e
    exact ⟨R, h1, h2, true, e, by simp [h]⟩
  · rw [if_neg h] at e
    exact ⟨R, h1, h2, false, e, by simp [h]⟩

/-- C35: the rough check never raises, and says `True` exactly when the ball around the centroid of the
piece through its farthest corner meets the given ball. -/
theorem C35_exact {m : Nat} (hm : 0 < m) (s : Simplex m) (c : Vec 6) (hs : Simplex.Ok s) (hc : Vec.Ok c) (d : ℝ) :
    ∃ b, roughCheck p s c d = .ok b ∧
      (b = true ↔ ∃ i, dist3 (p.centroidPerp s) (p.perp c) ≤ dist3 (p.perp (s i)) (p.centroidPerp s) + d) := by
  obtain ⟨R, h1, ⟨i, h2⟩, b, hb, h3⟩ := roughCheck_ok p hm s c hs hc d
  refine ⟨b, hb, h3.trans ⟨fun h => ⟨i, by rw [h2]; exact h⟩, fun ⟨j, h⟩ => ?_⟩⟩
  have := h1 j
  linarith

/-- C35: a piece sharing a point with the given ball is never rejected. -/
theorem C35_sound {m : Nat} (hm : 0 < m) (s : Simplex m) (c : Vec 6) (hs : Simplex.Ok s) (hc : Vec.Ok c) (d : ℝ)
    (x : Fin 3 → ℝ) (hx : x ∈ convexHull ℝ (Set.range (p.perps s))) (hd : dist3 x (p.perp c) ≤ d) :
    roughCheck p s c d = .ok true := by
  obtain ⟨R, h1, -, b, hb, h3⟩ := roughCheck_ok p hm s c hs hc d
  have hxR : dist3 x (p.centroidPerp s) ≤ R := solid_ball (q := p.perps s) h1 hx
  have := dist3_triangle (p.centroidPerp s) x (p.perp c)
  rw [dist3_comm (p.centroidPerp s) x] at this
  rw [hb, h3.2 (by linarith)]

/-- C35: with the centre and radius computed from an object, a piece sharing any point with any piece of
the object is never rejected. This is how `intersection` uses the check. -/
theorem C35_object {m : Nat} (hm : 0 < m) (s : Simplex m) (o : Obj m) (hs : Simplex.Ok s) (ho : Obj.Ok o)
    (t : Simplex m) (ht : t ∈ o) (x : Fin 3 → ℝ) (hx : x ∈ convexHull ℝ (Set.range (p.perps s)))
    (hx' : x ∈ convexHull ℝ (Set.range (p.perps t))) :
    (do
      let cent ← centroidObj p.arith o
      let dd ← ballRadiusObj p o cent
      roughCheck p s cent dd) = .ok true := by
  have h0 : o ≠ [] := List.ne_nil_of_mem ht
  obtain ⟨c, hc, hok⟩ : ∃ c, centroidObj p.arith o = .ok c ∧ Vec.Ok c :=
    ⟨_, centroidObj_ok p.lawful h0 hm ho, nvec_ok _⟩
  rw [hc, bind_ok']
  obtain ⟨R, hR, h1, -⟩ := C35_radius_obj p hm o h0 c ho hok
  rw [hR, bind_ok']
  exact C35_sound p hm s c hs hok R x hx (solid_ball (q := p.perps t) (fun i => h1 t ht i) hx')

/-- The same corner tetrahedron moved far away is rejected, the corner itself is not. -/
example : roughCheck .ico exCorner (cart 100 0 0 1) 1 = .ok false ∧
    roughCheck .ico exCorner (cart 1 1 1 2) 1 = .ok true := by
  constructor
  · obtain ⟨b, hb, h⟩ := C35_exact .ico (by decide) exCorner (cart 100 0 0 1) exCorner_ok (cart_ok (by decide)) 1
    rw [hb]
    cases b
    · rfl
    · exfalso
      obtain ⟨i, hi⟩ := h.1 rfl
      have hc : Package.ico.centroidPerp exCorner = ![1 / 4, 1 / 4, 1 / 4] := by
        funext j
        have := fun i => congrFun perps_exCorner i
        simp only [Package.perps] at this
        simp only [Package.centroidPerp, this, Fin.sum_univ_four]
        fin_cases j <;> simp
      rw [hc, perp_cart] at hi
      have h1 : (50 : ℝ) ≤ dist3 ![1 / 4, 1 / 4, 1 / 4] ![((100 : ℤ) : ℝ) / (1 : ℤ), ((0 : ℤ) : ℝ) / (1 : ℤ), ((0 : ℤ) : ℝ) / (1 : ℤ)] := by
        unfold dist3
        refine Real.le_sqrt_of_sq_le ?_
        simp
        norm_num
      have h2 : dist3 (Package.ico.perp (exCorner i)) ![1 / 4, 1 / 4, 1 / 4] ≤ 2 := by
        unfold dist3
        refine Real.sqrt_le_iff.2 ⟨by norm_num, ?_⟩
        have := congrFun perps_exCorner i
        simp only [Package.perps] at this
        rw [this]
        fin_cases i <;> simp <;> norm_num
      linarith
  · refine C35_sound .ico (by decide) exCorner (cart 1 1 1 2) exCorner_ok (cart_ok (by decide)) 1
      (Package.ico.perp (exCorner 1)) (subset_convexHull ℝ _ ⟨1, rfl⟩) ?_
    have := congrFun perps_exCorner 1
    simp only [Package.perps] at this
    rw [this, perp_cart]
    unfold dist3
    refine Real.sqrt_le_iff.2 ⟨by norm_num, ?_⟩
    simp
    norm_num

end
end PyQC
