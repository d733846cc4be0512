import Verif.Lemmas.RoundingPairs
import Verif.Lemmas.RoundingGrid2
import Mathlib.Analysis.Convex.Between
/-!
# The candidate points of two triangles are corners of the common part
-/
namespace PyQC
open Matrix

/-- Between two points of a triangle, both ends lie on every side through an inner point of the segment. -/
theorem tri_side {z : ℝ} {q : Fin 3 → Fin 3 → ℝ} (hq : Flat z q) (h0 : triArea q ≠ 0) {x y y' : Fin 3 → ℝ} {w wy wz : Fin 3 → ℝ}
    (hwy : IsBary q wy y) (hy0 : ∀ i, 0 ≤ wy i) (hwz : IsBary q wz y') (hz0 : ∀ i, 0 ≤ wz i) (hx : x ∈ openSegment ℝ y y')
    (hw : IsBary q w x) (i : Fin 3) (hi : w i = 0) : wy i = 0 ∧ wz i = 0 := by
  obtain ⟨a, b, ha, hb, hab, rfl⟩ := hx
  have hb' : IsBary q (a • wy + b • wz) (a • y + b • y') := by
    constructor
    · simp only [Pi.add_apply, Pi.smul_apply, smul_eq_mul, Finset.sum_add_distrib, ← Finset.mul_sum, hwy.1, hwz.1]
      linarith
    · simp only [Pi.add_apply, Pi.smul_apply, smul_eq_mul, add_smul, Finset.sum_add_distrib, mul_smul, ← Finset.smul_sum]
      rw [← hwy.2, ← hwz.2]
  have e := congrFun (flat_bary_unique hq h0 hw hb') i
  simp only [Pi.add_apply, Pi.smul_apply, smul_eq_mul, hi] at e
  have h1 := mul_nonneg ha.le (hy0 i)
  have h2 := mul_nonneg hb.le (hz0 i)
  exact ⟨(mul_eq_zero.1 (by linarith : a * wy i = 0)).resolve_left ha.ne',
    (mul_eq_zero.1 (by linarith : b * wz i = 0)).resolve_left hb.ne'⟩

theorem isBary_corner3 (q : Fin 3 → Fin 3 → ℝ) (i : Fin 3) : IsBary q (Pi.single i 1) (q i) := by
  constructor
  · simp
  · simp [Pi.single_apply]

theorem isBary_edge3 (q : Fin 3 → Fin 3 → ℝ) (i j : Fin 3) (t : ℝ) :
    IsBary q (Pi.single i (1 - t) + Pi.single j t) (q i + t • (q j - q i)) := by
  constructor
  · simp [Finset.sum_add_distrib]
  · simp only [Pi.add_apply, add_smul, Finset.sum_add_distrib]
    simp only [Pi.single_apply, ite_smul, zero_smul, Finset.sum_ite_eq', Finset.mem_univ, if_true]
    module

theorem tri_edge {z : ℝ} {q : Fin 3 → Fin 3 → ℝ} (hq : Flat z q) (h0 : triArea q ≠ 0) {x y y' : Fin 3 → ℝ}
    (hy : y ∈ solid q) (hy' : y' ∈ solid q) (hx : x ∈ openSegment ℝ y y') {i j : Fin 3} (hij : i ≠ j) {a : ℝ}
    (e : x = q i + a • (q j - q i)) : ∃ c : ℝ, y - y' = c • (q j - q i) := by
  obtain ⟨wy, hwy, hy0⟩ := mem_solid_iff.1 hy
  obtain ⟨wz, hwz, hz0⟩ := mem_solid_iff.1 hy'
  have hs : ∀ k, k ≠ i → k ≠ j → wy k = 0 ∧ wz k = 0 := fun k ki kj =>
    tri_side hq h0 hwy hy0 hwz hz0 hx (e ▸ isBary_edge3 q i j a) k (by simp [ki, kj])
  have key : ∀ {w y}, IsBary q w y → (∀ k, k ≠ i → k ≠ j → w k = 0) → y = q i + w j • (q j - q i) := by
    intro w y hw h
    have hc : w = Pi.single i (w i) + Pi.single j (w j) := by
      funext k
      by_cases hi : k = i
      · subst hi; simp [hij]
      · by_cases hj : k = j
        · subst hj; simp [hi]
        · rw [h k hi hj]; simp [hi, hj]
    obtain ⟨e1, e2⟩ := hw
    rw [hc] at e1 e2
    simp only [Pi.add_apply, add_smul, Finset.sum_add_distrib] at e1 e2
    simp only [Pi.single_apply, ite_smul, zero_smul, Finset.sum_ite_eq', Finset.mem_univ, if_true] at e1 e2
    rw [show w i = 1 - w j by linarith] at e2
    refine e2.trans ?_
    module
  refine ⟨wy j - wz j, ?_⟩
  rw [key hwy fun k ki kj => (hs k ki kj).1, key hwz fun k ki kj => (hs k ki kj).2]
  module

theorem corner_extreme3 {z : ℝ} {q : Fin 3 → Fin 3 → ℝ} (hq : Flat z q) (h0 : triArea q ≠ 0) {A : Set (Fin 3 → ℝ)} {i : Fin 3}
    (hm : q i ∈ solid q ∩ A) : q i ∈ (solid q ∩ A).extremePoints ℝ := by
  rw [mem_extremePoints_iff_left]
  refine ⟨hm, fun y hy y' hy' hs => ?_⟩
  obtain ⟨wy, hwy, hy0⟩ := mem_solid_iff.1 hy.1
  obtain ⟨wz, hwz, hz0⟩ := mem_solid_iff.1 hy'.1
  have h1 : ∀ k, k ≠ i → wy k = 0 := fun k ki =>
    (tri_side hq h0 hwy hy0 hwz hz0 hs (isBary_corner3 q i) k (by simp [ki])).1
  have h2 : wy i = 1 := by
    have := hwy.1
    rwa [Finset.sum_eq_single i (fun k _ hk => h1 k hk) (by simp)] at this
  rw [hwy.2, Finset.sum_eq_single i (fun k _ hk => by rw [h1 k hk, zero_smul]) (by simp), h2, one_smul]

/-- A candidate point of two triangles at one height is a corner of the common part. -/
theorem candidate2_extreme {z : ℝ} {S T : Fin 3 → Fin 3 → ℝ} (hS : Flat z S) (hT : Flat z T) (aS : triArea S ≠ 0)
    (aT : triArea T ≠ 0) {x : Fin 3 → ℝ} (hx : Candidate2 S T x) : x ∈ (solid S ∩ solid T).extremePoints ℝ := by
  rcases hx with ⟨i, rfl, hm⟩ | ⟨i, rfl, hm⟩ | h
  · exact corner_extreme3 hS aS ⟨subset_convexHull ℝ _ ⟨i, rfl⟩, hm⟩
  · rw [Set.inter_comm]
    exact corner_extreme3 hT aT ⟨subset_convexHull ℝ _ ⟨i, rfl⟩, hm⟩
  · have hmem := edgeEdge_mem h
    obtain ⟨i, j, k, l, hij, hkl, hc, a, b, -, -, -, -, e1, e2⟩ := h
    rw [mem_extremePoints_iff_left]
    refine ⟨hmem, fun y hy y' hy' hs => ?_⟩
    obtain ⟨c, h1⟩ := tri_edge hS aS hy.1 hy'.1 hs hij.ne e1
    obtain ⟨d, h2⟩ := tri_edge hT aT hy.2 hy'.2 hs hkl.ne e2
    have h3 : c • crossProduct (S j - S i) (T l - T k) = 0 := by
      rw [← LinearMap.smul_apply, ← map_smul, ← h1, h2, map_smul, LinearMap.smul_apply, cross_self, smul_zero]
    rw [(smul_eq_zero.1 h3).resolve_right hc, zero_smul] at h1
    have hyy := sub_eq_zero.1 h1
    subst hyy
    rw [openSegment_same] at hs
    exact hs.symm

/-- Three points of the plane that are not on a line span a set with interior. -/
theorem interior_three {A : Set (Fin 2 → ℝ)} (hA : Convex ℝ A) {a b c : Fin 2 → ℝ} (ha : a ∈ A) (hb : b ∈ A) (hc : c ∈ A)
    (h : cross2 (b - a) (c - a) ≠ 0) : (interior A).Nonempty := by
  rw [hA.interior_nonempty_iff_affineSpan_eq_top, eq_top_iff]
  intro x _
  have ma := subset_affineSpan ℝ A ha
  have mb := subset_affineSpan ℝ A hb
  have mc := subset_affineSpan ℝ A hc
  have m1 := AffineSubspace.smul_vsub_vadd_mem _ (cross2 (x - a) (c - a) / cross2 (b - a) (c - a)) mb ma ma
  have m2 := AffineSubspace.smul_vsub_vadd_mem _ (cross2 (b - a) (x - a) / cross2 (b - a) (c - a)) mc ma m1
  convert m2 using 1
  unfold cross2 at h ⊢
  simp only [Pi.sub_apply] at h ⊢
  funext k
  simp only [vsub_eq_sub, vadd_eq_add, Pi.add_apply, Pi.smul_apply, Pi.sub_apply, smul_eq_mul]
  fin_cases k <;> simp only [Fin.zero_eta, Fin.mk_one] <;> field_simp <;> ring

/-- Points of a convex set of the plane without interior lie on a line. -/
theorem inLine_of_flat {A : Set (Fin 2 → ℝ)} (hA : Convex ℝ A) (h : ¬ (interior A).Nonempty) {pts : List (Fin 2 → ℝ)}
    (hp : ∀ x ∈ pts, x ∈ A) : InLine pts := by
  have h0 : ∀ a ∈ pts, ∀ b ∈ pts, ∀ c ∈ pts, cross2 (b - a) (c - a) = 0 := fun a ha b hb c hc => by
    by_contra hn
    exact h (interior_three hA (hp a ha) (hp b hb) (hp c hc) hn)
  by_cases hall : ∃ a ∈ pts, ∃ b ∈ pts, a ≠ b
  · obtain ⟨a, ha, b, hb, hab⟩ := hall
    refine ⟨![-(b 1 - a 1), b 0 - a 0], fun e => hab ?_, -(b 1 - a 1) * a 0 + (b 0 - a 0) * a 1, fun x hx => ?_⟩
    · have e0 := congrFun e 0
      have e1 := congrFun e 1
      simp at e0 e1
      funext k; fin_cases k
      · exact (sub_eq_zero.1 e1).symm
      · exact sub_eq_zero.1 e0
    · have := h0 a ha b hb x hx
      unfold cross2 at this
      simp only [Pi.sub_apply] at this
      rw [vec2_dotProduct]
      simp only [cons_val_zero, cons_val_one]
      linarith
  · push Not at hall
    cases pts with
    | nil => exact inLine_few (by simp)
    | cons a l =>
      refine ⟨![1, 0], fun e => ?_, a 0, fun x hx => ?_⟩
      · have := congrFun e 0; simp at this
      · rw [← hall a (by simp) x hx, vec2_dotProduct]; simp

/-- A set has at most two extreme points on a line. -/
theorem extreme_line {A : Set (Fin 3 → ℝ)} {z : ℝ} {a b c : Fin 3 → ℝ} (ha : a ∈ A.extremePoints ℝ) (hb : b ∈ A.extremePoints ℝ)
    (hc : c ∈ A.extremePoints ℝ) (za : a 2 = z) (zb : b 2 = z) (zc : c 2 = z) (hl : InLine [xy a, xy b, xy c])
    (hab : a ≠ b) (hac : a ≠ c) (hbc : b ≠ c) : False := by
  obtain ⟨n, hn, d, hd⟩ := hl
  have da := hd _ (by simp : xy a ∈ _)
  have db := hd _ (by simp : xy b ∈ _)
  have dc := hd _ (by simp : xy c ∈ _)
  rw [vec2_dotProduct] at da db dc
  simp only [xy, cons_val_zero, cons_val_one] at da db dc
  have hnn : n 0 ^ 2 + n 1 ^ 2 ≠ 0 := by
    intro e
    apply hn
    have h0 := sq_nonneg (n 0)
    have h1 := sq_nonneg (n 1)
    funext k; fin_cases k
    · exact pow_eq_zero_iff (two_ne_zero) |>.1 (by linarith : n 0 ^ 2 = 0)
    · exact pow_eq_zero_iff (two_ne_zero) |>.1 (by linarith : n 1 ^ 2 = 0)
  have hcol : Collinear ℝ ({a, b, c} : Set (Fin 3 → ℝ)) := by
    rw [collinear_iff_of_mem (p₀ := a) (by simp)]
    refine ⟨![-n 1, n 0, 0], fun p hp => ⟨(-n 1 * (p 0 - a 0) + n 0 * (p 1 - a 1)) / (n 0 ^ 2 + n 1 ^ 2), ?_⟩⟩
    have hp' : n 0 * p 0 + n 1 * p 1 = d ∧ p 2 = z := by
      rcases hp with rfl | rfl | rfl
      · exact ⟨da, za⟩
      · exact ⟨db, zb⟩
      · exact ⟨dc, zc⟩
    funext k
    simp only [vadd_eq_add, Pi.add_apply, Pi.smul_apply, smul_eq_mul]
    fin_cases k
    · simp
      field_simp
      linear_combination n 0 * (hp'.1 - da)
    · simp
      field_simp
      linear_combination n 1 * (hp'.1 - da)
    · simp [hp'.2, za]
  have key : ∀ {p q r : Fin 3 → ℝ}, p ∈ A.extremePoints ℝ → q ∈ A.extremePoints ℝ → r ∈ A.extremePoints ℝ →
      p ≠ q → q ≠ r → Wbtw ℝ p q r → False := by
    intro p q r hp hq hr hpq hqr hw
    have := (mem_extremePoints_iff_left.1 hq).2 p hp.1 r hr.1
    refine hpq (this ?_)
    obtain ⟨t, ⟨t0, t1⟩, e⟩ := hw
    rw [AffineMap.lineMap_apply_module] at e
    refine ⟨1 - t, t, ?_, ?_, by ring, e⟩
    · rcases t1.lt_or_eq with h | h
      · linarith
      · subst h; exact absurd (by simpa using e.symm) hqr
    · rcases t0.lt_or_eq with h | h
      · exact h
      · subst h; exact absurd (by simpa using e) hpq
  rcases hcol.wbtw_or_wbtw_or_wbtw with h | h | h
  · exact key ha hb hc hab hbc h
  · exact key hb hc ha hbc hac.symm h
  · exact key hc ha hb hac.symm hab h

end PyQC
