import Verif.Lemmas.Binary64Plane
import Verif.Props.RoundingPlanar
/-!
# C96: a common part that is lost by rounding

The crossing test of dode2 has no tolerance for the parameters on the two segments. For the two triangles below, given
in thirds, every crossing of two edges is at a corner of one of the triangles, and in binary64 arithmetic every one of
them is missed.
-/
namespace PyQC
open Matrix MeasureTheory Dode Rounding

def lostA : Fin 3 → Fin 2 → ℤ := ![![-3, -1], ![1, 1], ![3, -2]]
def lostB : Fin 3 → Fin 2 → ℤ := ![![7, 4], ![-1, 0], ![7, -4]]

/-- The triangle (-1, -1/3), (1/3, 1/3), (1, -2/3). -/
def exLostA : Simplex 3 := fun i => flatFrac (lostA i 0) (lostA i 1) 3
/-- The triangle (7/3, 4/3), (-1/3, 0), (7/3, -4/3). -/
def exLostB : Simplex 3 := fun i => flatFrac (lostB i 0) (lostB i 1) 3

theorem perps_exLostA : Package.dode.perps exLostA = ![![-1, -1 / 3, 0], ![1 / 3, 1 / 3, 0], ![1, -2 / 3, 0]] := by
  funext i
  fin_cases i <;> refine (perp_flatFrac _ _ _).trans ?_ <;> funext j <;> fin_cases j <;> norm_num [lostA]

theorem perps_exLostB : Package.dode.perps exLostB = ![![7 / 3, 4 / 3, 0], ![-1 / 3, 0, 0], ![7 / 3, -4 / 3, 0]] := by
  funext i
  fin_cases i <;> refine (perp_flatFrac _ _ _).trans ?_ <;> funext j <;> fin_cases j <;> norm_num [lostB]

theorem exLostA_ok : Simplex.Ok exLostA := fun i => flatFrac_ok (by decide)
theorem exLostB_ok : Simplex.Ok exLostB := fun i => flatFrac_ok (by decide)

theorem exLostA_flat (i : Fin 3) : Package.dode.perp (exLostA i) 2 = 0 := congrFun (perp_flatFrac _ _ _) 2
theorem exLostB_flat (i : Fin 3) : Package.dode.perp (exLostB i) 2 = 0 := congrFun (perp_flatFrac _ _ _) 2

theorem exLostA_small (i : Fin 3) : Small .dode (3 : ℕ) (exLostA i) := by
  refine dode_small_of (by revert i; decide +kernel) fun j => ?_
  change |Package.dode.perps exLostA i j| ≤ _
  rw [perps_exLostA]
  fin_cases i <;> fin_cases j <;> norm_num [abs_div]

theorem exLostB_small (i : Fin 3) : Small .dode (3 : ℕ) (exLostB i) := by
  refine dode_small_of (by revert i; decide +kernel) fun j => ?_
  change |Package.dode.perps exLostB i j| ≤ _
  rw [perps_exLostB]
  fin_cases i <;> fin_cases j <;> norm_num [abs_div]

theorem exLost_rounded : ResolvedTriRounded (3 : ℕ) (Package.dode.perps exLostA) (Package.dode.perps exLostB) :=
  C95_grid exLostA exLostB 0 lostA lostB 3 (by norm_num) (by norm_num) (by norm_num) (by unfold margin2; norm_num)
    (fun i => (perp_flatFrac _ _ _).trans (by push_cast; rfl)) (fun i => (perp_flatFrac _ _ _).trans (by push_cast; rfl))
    (by decide) (by decide) (by decide) (by decide)

theorem exLost_disc : CommonDisc 0 (1 / 10) (solid (Package.dode.perps exLostA)) (solid (Package.dode.perps exLostB)) := by
  refine ⟨![1 / 3, -1 / 9, 0], rfl, fun x hz hx => ?_⟩
  have hd : ∀ j : Fin 3, |x j - ![1 / 3, -1 / 9, 0] j| ≤ 1 / 10 := by
    intro j
    refine le_trans ?_ hx
    unfold dist3
    apply Real.abs_le_sqrt
    have h0 := sq_nonneg (x 0 - ![1 / 3, -1 / 9, 0] 0)
    have h1 := sq_nonneg (x 1 - ![1 / 3, -1 / 9, 0] 1)
    have h2 := sq_nonneg (x 2 - ![1 / 3, -1 / 9, 0] 2)
    fin_cases j <;> simp only [Fin.zero_eta, Fin.mk_one, Fin.reduceFinMk] <;> linarith
  have h0 := abs_le.1 (hd 0)
  have h1 := abs_le.1 (hd 1)
  simp only [cons_val_zero, cons_val_one] at h0 h1
  constructor
  · rw [mem_solid_iff, perps_exLostA]
    refine ⟨![1 - 9 / 16 * ((x 0 + 1) / 3 + 2 * (x 1 + 1 / 3)) + 9 / 16 * (4 / 3 * (x 1 + 1 / 3) - 2 / 3 * (x 0 + 1)),
      9 / 16 * ((x 0 + 1) / 3 + 2 * (x 1 + 1 / 3)), -(9 / 16) * (4 / 3 * (x 1 + 1 / 3) - 2 / 3 * (x 0 + 1))],
      isBary_three.2 ⟨by simp; ring, fun j => ?_⟩, fun i => ?_⟩
    · fin_cases j <;> simp [hz] <;> ring
    · fin_cases i <;> simp <;> linarith
  · rw [mem_solid_iff, perps_exLostB]
    refine ⟨![((3 * x 0 + 1) / 8 + 3 * x 1 / 4) / 2, 1 - (3 * x 0 + 1) / 8, ((3 * x 0 + 1) / 8 - 3 * x 1 / 4) / 2],
      isBary_three.2 ⟨by simp; ring, fun j => ?_⟩, fun i => ?_⟩
    · fin_cases j <;> simp [hz] <;> ring
    · fin_cases i <;> simp <;> linarith

theorem exLost_noCross : noCrossq lostA lostB 3 = true := by decide +kernel

theorem exLost_meets (c e : Fin 3 × Fin 3) (hc : c ∈ combE) (he : e ∈ combE) :
    binary64.float64.segmentsMeet (fun i => binary64.float64.dodeInternal (segmentOf exLostA c i))
      (fun i => binary64.float64.dodeInternal (segmentOf exLostB e i)) = false ∧
    binary64.float64.segmentsMeet (fun i => binary64.float64.dodeInternal (segmentOf exLostB e i))
      (fun i => binary64.float64.dodeInternal (segmentOf exLostA c i)) = false := by
  have h := List.all_eq_true.1 (List.all_eq_true.1 exLost_noCross c hc) e he
  rw [Bool.and_eq_true] at h
  have ea : (fun i => binary64.float64.dodeInternal (segmentOf exLostA c i)) =
      fun i j => (((![triq lostA 3 c.1, triq lostA 3 c.2] : Fin 2 → Fin 3 → ℚ) i j : ℚ) : ℝ) := by
    funext i
    fin_cases i
    · exact internal64 _ _ _
    · exact internal64 _ _ _
  have eb : (fun i => binary64.float64.dodeInternal (segmentOf exLostB e i)) =
      fun i j => (((![triq lostB 3 e.1, triq lostB 3 e.2] : Fin 2 → Fin 3 → ℚ) i j : ℚ) : ℝ) := by
    funext i
    fin_cases i
    · exact internal64 _ _ _
    · exact internal64 _ _ _
  rw [ea, eb]
  exact ⟨reject64 h.1, reject64 h.2⟩

theorem exLost_areaA : triArea (Package.dode.perps exLostA) = 8 / 9 := by
  rw [triArea_flat (z := 0) (q := Package.dode.perps exLostA) exLostA_flat, triAreaXY_crossZ, perps_exLostA]
  unfold crossZ
  simp
  norm_num [abs_div, abs_of_pos, abs_of_neg]

theorem exLost_areaB : triArea (Package.dode.perps exLostB) = 32 / 9 := by
  rw [triArea_flat (z := 0) (q := Package.dode.perps exLostB) exLostB_flat, triAreaXY_crossZ, perps_exLostB]
  unfold crossZ
  simp
  norm_num [abs_div, abs_of_pos, abs_of_neg]

theorem exLost_code : binary64.float64.checkTwoTriangles exLostA exLostB = 0 := by
  have r1 : binary64.float64.dodeInsideTau (exLostA 0) exLostB = false := by
    refine C93_reject _ (R := (3 : ℕ)) (by norm_num) (by norm_num) _ _ 0 (exLostA_flat 0) exLostB_flat (exLostA_small 0)
      exLostB_small ![-1 / 4, 5 / 4, 0] ?_ 0 ?_
    · rw [show Package.dode.perp (exLostA 0) = Package.dode.perps exLostA 0 from rfl, perps_exLostA, perps_exLostB, isBary_three]
      refine ⟨by simp; norm_num, fun j => ?_⟩
      fin_cases j <;> simp <;> norm_num
    · rw [exLost_areaB]; unfold margin2; norm_num
  have r2 : binary64.float64.dodeInsideTau (exLostB 0) exLostA = false := by
    refine C93_reject _ (R := (3 : ℕ)) (by norm_num) (by norm_num) _ _ 0 (exLostB_flat 0) exLostA_flat (exLostB_small 0)
      exLostA_small ![-3 / 2, 5 / 2, 0] ?_ 0 ?_
    · rw [show Package.dode.perp (exLostB 0) = Package.dode.perps exLostB 0 from rfl, perps_exLostB, perps_exLostA, isBary_three]
      refine ⟨by simp; norm_num, fun j => ?_⟩
      fin_cases j <;> simp <;> norm_num
    · rw [exLost_areaA]; unfold margin2; norm_num
  unfold Float64.checkTwoTriangles
  rw [if_neg, if_neg, if_neg]
  · rw [Bool.not_eq_true, List.any_eq_false]
    intro c hc
    rw [Bool.not_eq_true, Bool.or_eq_false_iff]
    constructor
    · rw [meetsTauF_iff, List.any_eq_false]
      intro e he
      rw [Bool.not_eq_true]
      exact (exLost_meets c e hc he).1
    · rw [meetsTauF_iff, List.any_eq_false]
      intro e he
      rw [Bool.not_eq_true]
      exact (exLost_meets e c he hc).2
  · rw [List.all_eq_true]
    intro h
    have := h (exLostB 0) ((List.mem_ofFn' _ _).mpr ⟨0, rfl⟩)
    rw [r2] at this
    cases this
  · rw [List.all_eq_true]
    intro h
    have := h (exLostA 0) ((List.mem_ofFn' _ _).mpr ⟨0, rfl⟩)
    rw [r1] at this
    cases this

theorem exLost_distances : smallDistances2 3 exLostA exLostB = true := by decide +kernel

/-- C96: without the condition on the crossings the claim is false. In binary64 arithmetic the intersection of two
triangles with a common disc of radius 1/10 is returned as None, for both kinds of result and whatever the triangulation
library does. -/
theorem C96_lost : ∃ s t : Simplex 3, Simplex.Ok s ∧ Simplex.Ok t ∧
    (∀ i, Package.dode.perp (s i) 2 = 0 ∧ Package.dode.perp (t i) 2 = 0) ∧
    (∀ i, Small .dode 3 (s i) ∧ Small .dode 3 (t i)) ∧
    ResolvedTriRounded 3 (Package.dode.perps s) (Package.dode.perps t) ∧
    CommonDisc 0 (1 / 10) (solid (Package.dode.perps s)) (solid (Package.dode.perps t)) ∧
    ∀ kind delaunay, binary64.float64.dodeIntersectionApi kind delaunay (.d4 [s]) (.d4 [t]) = .ok none := by
  have ok1 : Obj.Ok [exLostA] := by intro t ht; rw [List.mem_singleton.1 ht]; exact exLostA_ok
  have ok2 : Obj.Ok [exLostB] := by intro t ht; rw [List.mem_singleton.1 ht]; exact exLostB_ok
  have z1 : Level 0 [exLostA] := by intro t ht; rw [List.mem_singleton.1 ht]; exact exLostA_flat
  have z2 : Level 0 [exLostB] := by intro t ht; rw [List.mem_singleton.1 ht]; exact exLostB_flat
  refine ⟨exLostA, exLostB, exLostA_ok, exLostB_ok, fun i => ⟨exLostA_flat i, exLostB_flat i⟩,
    fun i => ⟨by exact_mod_cast exLostA_small i, by exact_mod_cast exLostB_small i⟩, by exact_mod_cast exLost_rounded, exLost_disc,
    fun kind delaunay => ?_⟩
  obtain ⟨c, hc⟩ : ∃ c, centroidObj Dode.arith [exLostB] = .ok c :=
    ⟨_, centroidObj_ok Package.dode.lawful (by simp) (by decide) ok2⟩
  obtain ⟨c', hc'⟩ : ∃ c', centroid Dode.arith (List.ofFn exLostA) = .ok c' :=
    ⟨_, centroid_ok Package.dode.lawful (by simp) (by
      intro v hv; obtain ⟨i, rfl⟩ := (List.mem_ofFn' _ _).mp hv; exact exLostA_ok i)⟩
  have hd := exLost_distances
  unfold smallDistances2 at hd
  rw [hc, hc'] at hd
  simp only [Bool.and_eq_true, List.all_eq_true] at hd
  obtain ⟨rough, e2, hro⟩ := objects2_rounded_eq binary64.float64 (R := (3 : ℕ)) (by norm_num) (by norm_num) kind
    delaunay (by simp) ok1 ok2 z1 z2
    (by
      intro s hs t ht _
      rw [List.mem_singleton.1 hs, List.mem_singleton.1 ht]
      obtain ⟨x, h1, h2⟩ := exLost_disc
      exact ⟨x, h1, fun y hy hd => h2 y hy (hd.trans (by norm_num))⟩)
    (by
      intro d hd' t ht i
      rw [hc] at hd'; cases hd'
      rw [List.mem_singleton.1 ht]
      exact distanceSmall2_of (hd.1 i (List.mem_finRange i)).1)
    (by
      intro s hs d hd' i
      rw [List.mem_singleton.1 hs] at hd' ⊢
      rw [hc'] at hd'; cases hd'
      exact distanceSmall2_of (hd.1 i (List.mem_finRange i)).2)
    (by
      intro d hd' s hs e he
      rw [hc] at hd'; cases hd'
      rw [List.mem_singleton.1 hs] at he
      rw [hc'] at he; cases he
      exact distanceSmall2_of hd.2)
  rw [e2]
  obtain ⟨b, hb, -⟩ := hro exLostA (by simp)
  cases b <;> simp [intersectionTwoObj, fillList, onePiece, innerLoop, hb, exLost_code, bind_ok']

/-- Over the real numbers the same call returns the common part, up to area zero. -/
example : ∃ delaunay : Simplex 3 → Simplex 3 → Delaunay2, ∃ o,
    intersectionApi .standard delaunay (.d4 [exLostA]) (.d4 [exLostB]) = .ok (some o) := by
  obtain ⟨delaunay, hD⟩ := exists_tiles2
  have ok1 : Obj.Ok [exLostA] := by intro t ht; rw [List.mem_singleton.1 ht]; exact exLostA_ok
  have ok2 : Obj.Ok [exLostB] := by intro t ht; rw [List.mem_singleton.1 ht]; exact exLostB_ok
  have z1 : Level 0 [exLostA] := by intro t ht; rw [List.mem_singleton.1 ht]; exact exLostA_flat
  have z2 : Level 0 [exLostB] := by intro t ht; rw [List.mem_singleton.1 ht]; exact exLostB_flat
  have hres : ∀ s ∈ [exLostA], ∀ t ∈ [exLostB], ResolvedTri (Package.dode.perps s) (Package.dode.perps t) := by
    simpa using exLost_rounded.resolved (by norm_num)
  obtain ⟨r, hr, -, hv⟩ := C68_objects .standard (fun _ _ => delaunay) [exLostA] [exLostB] 0 (fun _ _ _ _ => hD.toFillsHull2) (by simp)
    ok1 ok2 z1 z2 hres
  cases r with
  | some o => exact ⟨_, o, hr⟩
  | none =>
    exfalso
    obtain ⟨x, h1, h2⟩ := exLost_disc
    have hball : Metric.ball (xy x) (1 / 20) ⊆ slice 0 ((Package.dode.region [exLostA] ∩ Package.dode.region [exLostB]) \
        Package.dode.region ([] : Obj 3)) := by
      intro p hp
      have hp0 : ∀ j, |p j - xy x j| ≤ 1 / 20 := fun j => (dist_le_pi_dist p (xy x) j).trans (Metric.mem_ball.1 hp).le
      have hq := h2 ![p 0, p 1, 0] rfl (by
        unfold dist3
        rw [Real.sqrt_le_left (by norm_num)]
        have a0 := abs_le.1 (hp0 0)
        have a1 := abs_le.1 (hp0 1)
        simp [xy] at a0 a1 ⊢
        rw [h1]
        nlinarith)
      refine ⟨⟨⟨_, by simp, hq.1⟩, ⟨_, by simp, hq.2⟩⟩, ?_⟩
      rintro ⟨a, ha, -⟩
      simp at ha
    have := measure_mono_null hball (by simpa using hv)
    exact (Metric.measure_ball_pos volume (xy x) (by norm_num : (0 : ℝ) < 1 / 20)).ne' this

end PyQC
