import Verif.Lemmas.Extreme
import Verif.Props.OnSurface
import Verif.Spec.Planar
import Verif.Model.DodeIntersect
/-!
# Triangles in a horizontal plane
-/
namespace PyQC
open Matrix

/-- All corners at height `z`. -/
def Flat (z : ℝ) {m : Nat} (q : Fin m → Fin 3 → ℝ) : Prop := ∀ i, q i 2 = z

/-- Twice the signed area of the projection to the horizontal plane. -/
def crossZ (q : Fin 3 → Fin 3 → ℝ) : ℝ :=
  (q 1 0 - q 0 0) * (q 2 1 - q 0 1) - (q 1 1 - q 0 1) * (q 2 0 - q 0 0)

theorem triAreaXY_crossZ (q : Fin 3 → Fin 3 → ℝ) : triAreaXY q = |crossZ q| / 2 := rfl

theorem triNormal_flat {z : ℝ} {q : Fin 3 → Fin 3 → ℝ} (h : Flat z q) : triNormal q = ![0, 0, crossZ q] := by
  funext j
  fin_cases j <;> simp [triNormal, cross_apply, h 0, h 1, h 2, crossZ]
  ring

theorem triArea_flat {z : ℝ} {q : Fin 3 → Fin 3 → ℝ} (h : Flat z q) : triArea q = triAreaXY q := by
  rw [triArea_norm3, triNormal_flat h, norm3_eq_sqrt, triAreaXY_crossZ]
  congr 1
  simp [Real.sqrt_sq_eq_abs]

theorem triArea_flat_ne {z : ℝ} {q : Fin 3 → Fin 3 → ℝ} (h : Flat z q) : triArea q ≠ 0 ↔ crossZ q ≠ 0 := by
  rw [triArea_flat h, triAreaXY_crossZ]
  simp

/-- The triangle with a fourth corner above the first. -/
def lift (q : Fin 3 → Fin 3 → ℝ) : Fin 4 → Fin 3 → ℝ := ![q 0, q 1, q 2, fun j => q 0 j + (![0, 0, 1] : Fin 3 → ℝ) j]

theorem det4_lift (q : Fin 3 → Fin 3 → ℝ) : det4 (lift q) = crossZ q := by
  rw [det4_eq]
  simp [lift, crossZ]

theorem lift_castSucc (q : Fin 3 → Fin 3 → ℝ) (i : Fin 3) : lift q i.castSucc = q i := by
  fin_cases i <;> rfl

theorem solid_flat {z : ℝ} {m : Nat} {q : Fin m → Fin 3 → ℝ} (h : Flat z q) {x : Fin 3 → ℝ} (hx : x ∈ solid q) : x 2 = z := by
  obtain ⟨w, hw, -⟩ := mem_solid_iff.1 hx
  rw [hw.2, Finset.sum_apply]
  simp only [Pi.smul_apply, smul_eq_mul, h _]
  rw [← Finset.sum_mul, hw.1, one_mul]

theorem mem_lift {z : ℝ} {q : Fin 3 → Fin 3 → ℝ} (h : Flat z q) {x : Fin 3 → ℝ} :
    x ∈ solid q ↔ x ∈ solid (lift q) ∧ x 2 = z := by
  constructor
  · intro hx
    refine ⟨convexHull_mono ?_ hx, solid_flat h hx⟩
    rintro _ ⟨i, rfl⟩
    exact ⟨i.castSucc, lift_castSucc q i⟩
  · rintro ⟨hx, hz⟩
    obtain ⟨w, hw, h0⟩ := mem_solid_iff.1 hx
    rw [isBary_four] at hw
    obtain ⟨h1, h2⟩ := hw
    have h3 := h2 2
    simp [lift, h _, hz] at h3
    have hw3 : w 3 = 0 := by linear_combination -z * h1 - h3
    refine mem_solid_iff.2 ⟨![w 0, w 1, w 2], ⟨?_, ?_⟩, ?_⟩
    · rw [Fin.sum_univ_three]; simp; linarith
    · rw [Fin.sum_univ_three]
      funext j
      have := h2 j
      simp [lift, hw3] at this
      simp [this]
    · intro i; fin_cases i
      · exact h0 0
      · exact h0 1
      · exact h0 2

/-- The common part of two level triangles is a face of the common part of the lifted tetrahedra. -/
theorem extreme_lift {z : ℝ} {S T : Fin 3 → Fin 3 → ℝ} (hS : Flat z S) (hT : Flat z T) {x : Fin 3 → ℝ}
    (hx : x ∈ (solid S ∩ solid T).extremePoints ℝ) : x ∈ (solid (lift S) ∩ solid (lift T)).extremePoints ℝ := by
  rw [mem_extremePoints] at hx ⊢
  obtain ⟨⟨h1, h2⟩, h3⟩ := hx
  have hle : ∀ {q : Fin 3 → Fin 3 → ℝ}, Flat z q → ∀ y ∈ solid (lift q), z ≤ y 2 := by
    intro q hq y hy
    obtain ⟨w, hw, h0⟩ := mem_solid_iff.1 hy
    rw [isBary_four] at hw
    have h3 := hw.2 2
    simp [lift, hq _] at h3
    have := h0 3
    have : y 2 = z + w 3 := by linear_combination h3 + z * hw.1
    linarith
  refine ⟨⟨((mem_lift hS).1 h1).1, ((mem_lift hT).1 h2).1⟩, ?_⟩
  rintro y ⟨hy1, hy2⟩ y' ⟨hy1', hy2'⟩ hseg
  obtain ⟨a, b, ha, hb, hab, e⟩ := hseg
  have hz : x 2 = z := solid_flat hS h1
  have e2 := congrFun e 2
  simp only [Pi.add_apply, Pi.smul_apply, smul_eq_mul] at e2
  have l1 := hle hS y hy1
  have l2 := hle hS y' hy1'
  have k1 : y 2 = z := by
    by_contra hne
    have : 0 < a * (y 2 - z) := mul_pos ha (sub_pos.2 (lt_of_le_of_ne l1 (Ne.symm hne)))
    have h5 : 0 ≤ b * (y' 2 - z) := mul_nonneg hb.le (sub_nonneg.2 l2)
    have h6 : a * (y 2 - z) + b * (y' 2 - z) = 0 := by linear_combination e2 - z * hab + hz
    linarith
  have k2 : y' 2 = z := by
    by_contra hne
    have : 0 < b * (y' 2 - z) := mul_pos hb (sub_pos.2 (lt_of_le_of_ne l2 (Ne.symm hne)))
    have h5 : 0 ≤ a * (y 2 - z) := mul_nonneg ha.le (sub_nonneg.2 l1)
    have h6 : a * (y 2 - z) + b * (y' 2 - z) = 0 := by linear_combination e2 - z * hab + hz
    linarith
  exact h3 y ⟨(mem_lift hS).2 ⟨hy1, k1⟩, (mem_lift hT).2 ⟨hy2, k1⟩⟩ y' ⟨(mem_lift hS).2 ⟨hy1', k2⟩, (mem_lift hT).2 ⟨hy2', k2⟩⟩
    ⟨a, b, ha, hb, hab, e⟩

theorem three_of_four (m : Fin 4) : m = 3 ∨ ∃ k : Fin 3, m = k.castSucc := by
  revert m; decide

/-- A level segment and a face of the lifted triangle. -/
theorem face_to_edge {z : ℝ} {T : Fin 3 → Fin 3 → ℝ} (hT : Flat z T) {A B : Fin 3 → ℝ} (hA : A 2 = z) (hB : B 2 = z)
    {k l m : Fin 4} (hkl : k < l) (hlm : l < m)
    (hd : Matrix.det (Matrix.of ![B - A, lift T m - lift T k, lift T l - lift T k]) ≠ 0) {t u v : ℝ}
    (hm : Meets A B (lift T k) (lift T l) (lift T m) t u v) (u0 : 0 ≤ u) (v0 : 0 ≤ v) (uv : u + v ≤ 1) :
    ∃ k l : Fin 3, k < l ∧ (B - A) ⨯₃ (T l - T k) ≠ 0 ∧ ∃ b : ℝ, 0 ≤ b ∧ b ≤ 1 ∧ A + t • (B - A) = T k + b • (T l - T k) := by
  have key : ∀ k : Fin 3, lift T k.castSucc 2 = z := fun k => by rw [lift_castSucc]; exact hT k
  rcases three_of_four m with rfl | ⟨m, rfl⟩
  · obtain ⟨l, rfl⟩ := (three_of_four l).resolve_left (ne_of_lt hlm)
    obtain ⟨k, rfl⟩ := (three_of_four k).resolve_left (ne_of_lt (hkl.trans hlm))
    rw [lift_castSucc, lift_castSucc] at hd hm
    have hv : v = 0 := by
      have := congrFun hm 2
      simp [hA, hB, hT _, lift] at this
      exact this
    refine ⟨k, l, Fin.castSucc_lt_castSucc_iff.1 hkl, ?_, u, u0, by linarith, ?_⟩
    · intro h0
      apply hd
      have : Matrix.det (Matrix.of ![B - A, lift T 3 - T k, T l - T k]) =
          - ((B - A) ⨯₃ (T l - T k)) ⬝ᵥ (lift T 3 - T k) := by
        rw [Matrix.det_fin_three, vec3_dotProduct]
        simp [cross_apply]
        ring
      rw [this, h0]
      simp
    · have := hm
      unfold Meets at this
      rw [hv] at this
      rw [this]; simp
  · exfalso
    obtain ⟨l, rfl⟩ := (three_of_four l).resolve_left (fun h => by
      rw [h] at hlm; exact absurd hlm (not_lt.2 (Fin.le_last _)))
    obtain ⟨k, rfl⟩ := (three_of_four k).resolve_left (fun h => by
      rw [h] at hkl; exact absurd hkl (not_lt.2 (Fin.le_last _)))
    apply hd
    rw [Matrix.det_fin_three]
    simp [hA, hB, key]

/-- Every extreme point of the common part of two level triangles is a corner of one of them or the crossing of two edges
that are not parallel. -/
theorem extreme_planar {z : ℝ} {S T : Fin 3 → Fin 3 → ℝ} (hS : Flat z S) (hT : Flat z T) (aS : crossZ S ≠ 0) (aT : crossZ T ≠ 0)
    {x : Fin 3 → ℝ} (hx : x ∈ (solid S ∩ solid T).extremePoints ℝ) :
    (∃ i, x = S i ∧ x ∈ solid T) ∨ (∃ i, x = T i ∧ x ∈ solid S) ∨ EdgeEdge S T x := by
  have hm := (mem_extremePoints.1 hx).1
  have hz : x 2 = z := solid_flat hS hm.1
  have corner : ∀ {q : Fin 3 → Fin 3 → ℝ}, Flat z q → ∀ i : Fin 4, x = lift q i → ∃ i, x = q i := by
    intro q hq i e
    rcases three_of_four i with rfl | ⟨k, rfl⟩
    · rw [e] at hz
      simp [lift, hq _] at hz
    · exact ⟨k, e.trans (lift_castSucc q k)⟩
  have edge : ∀ {P Q : Fin 3 → Fin 3 → ℝ}, Flat z P → Flat z Q → EdgeFace (lift P) (lift Q) x → (∃ i, x = P i) ∨ EdgeEdge P Q x := by
    rintro P Q hP hQ ⟨i, j, k, l, m, hij, hkl, hlm, hd, t, u, v, hmt, hxt, t0, t1, u0, v0, uv⟩
    rcases three_of_four j with rfl | ⟨j, rfl⟩
    · left
      obtain ⟨i, rfl⟩ := (three_of_four i).resolve_left (ne_of_lt hij)
      refine ⟨i, ?_⟩
      have h2 := congrFun hxt 2
      rw [lift_castSucc] at h2 hxt
      simp [hz, hP _, lift] at h2
      rw [hxt, h2, zero_smul, add_zero]
    · right
      obtain ⟨i, rfl⟩ := (three_of_four i).resolve_left (fun h => by
        rw [h] at hij; exact absurd hij (not_lt.2 (Fin.le_last _)))
      rw [lift_castSucc, lift_castSucc] at hd hxt hmt
      obtain ⟨k, l, hkl, hc, b, b0, b1, e⟩ := face_to_edge hQ (hP i) (hP j) hkl hlm hd hmt u0 v0 uv
      exact ⟨i, j, k, l, Fin.castSucc_lt_castSucc_iff.1 hij, hkl, hc, t, b, t0, t1, b0, b1, hxt, hxt.trans e⟩
  rcases extreme_classify (by rw [det4_lift]; exact aS) (by rw [det4_lift]; exact aT) (extreme_lift hS hT hx) with
    ⟨i, e, -⟩ | ⟨i, e, -⟩ | he | he
  · obtain ⟨i, e⟩ := corner hS i e
    exact .inl ⟨i, e, hm.2⟩
  · obtain ⟨i, e⟩ := corner hT i e
    exact .inr (.inl ⟨i, e, hm.1⟩)
  · rcases edge hS hT he with ⟨i, e⟩ | h
    · exact .inl ⟨i, e, hm.2⟩
    · exact .inr (.inr h)
  · rcases edge hT hS he with ⟨i, e⟩ | ⟨i, j, k, l, hij, hkl, hc, a, b, a0, a1, b0, b1, e1, e2⟩
    · exact .inr (.inl ⟨i, e, hm.1⟩)
    · exact .inr (.inr ⟨k, l, i, j, hkl, hij, fun h0 => hc (by rw [← cross_anticomm, h0, neg_zero]), b, a, b0, b1, a0, a1, e2, e1⟩)

/-- An edge that leaves a level triangle crosses one of its edges. -/
theorem exit_planar {z : ℝ} {S T : Fin 3 → Fin 3 → ℝ} (hS : Flat z S) (hT : Flat z T) (aT : crossZ T ≠ 0) {i j : Fin 3}
    (hij : i < j) (h : (S i ∈ solid T ∧ S j ∉ solid T) ∨ (S j ∈ solid T ∧ S i ∉ solid T)) :
    ∃ x, EdgeEdge S T x := by
  rw [mem_lift hT, mem_lift hT] at h
  simp only [hS _, and_true] at h
  obtain ⟨k, l, m, hkl, hlm, hd, t, u, v, hm, t0, t1, u0, v0, uv⟩ := exit_face (S := S) (by rw [det4_lift]; exact aT) h
  obtain ⟨k, l, hkl, hc, b, b0, b1, e⟩ := face_to_edge hT (hS i) (hS j) hkl hlm hd hm u0 v0 uv
  exact ⟨_, i, j, k, l, hij, hkl, hc, t, b, t0, t1, b0, b1, rfl, e⟩

theorem edge_mem {m : Nat} {q : Fin m → Fin 3 → ℝ} {i j : Fin m} {a : ℝ} (h0 : 0 ≤ a) (h1 : a ≤ 1) : q i + a • (q j - q i) ∈ solid q := by
  have := (convex_convexHull ℝ (Set.range q)) (subset_convexHull ℝ _ ⟨i, rfl⟩) (subset_convexHull ℝ _ ⟨j, rfl⟩)
    (sub_nonneg.2 h1) h0 (by ring)
  rw [show q i + a • (q j - q i) = (1 - a) • q i + a • q j by module]
  exact this

theorem edgeEdge_mem {S T : Fin 3 → Fin 3 → ℝ} {x : Fin 3 → ℝ} (h : EdgeEdge S T x) : x ∈ solid S ∧ x ∈ solid T := by
  obtain ⟨i, j, k, l, -, -, -, a, b, a0, a1, b0, b1, e1, e2⟩ := h
  exact ⟨e1 ▸ edge_mem a0 a1, e2 ▸ edge_mem b0 b1⟩

theorem edgeEdge_symm {S T : Fin 3 → Fin 3 → ℝ} {x : Fin 3 → ℝ} (h : EdgeEdge S T x) : EdgeEdge T S x := by
  obtain ⟨i, j, k, l, hij, hkl, hc, a, b, a0, a1, b0, b1, e1, e2⟩ := h
  exact ⟨k, l, i, j, hkl, hij, fun h0 => hc (by rw [← cross_anticomm, h0, neg_zero]), b, a, b0, b1, a0, a1, e2, e1⟩

/-! ## The segment test -/

theorem cross_lagrange (a b : Fin 3 → ℝ) : (a ⨯₃ b) ⬝ᵥ (a ⨯₃ b) = a ⬝ᵥ a * b ⬝ᵥ b - (a ⬝ᵥ b) ^ 2 := by
  simp only [vec3_dotProduct, cross_apply]
  simp
  ring

/-- Feet of the common perpendicular of two lines that are not parallel. -/
theorem feet_iff {a c d : Fin 3 → ℝ} (h : (a ⨯₃ d) ⬝ᵥ (a ⨯₃ d) ≠ 0) (s t : ℝ) :
    ((c + t • d - s • a) ⬝ᵥ a = 0 ∧ (c + t • d - s • a) ⬝ᵥ d = 0) ↔
      s = (c ⬝ᵥ d * d ⬝ᵥ a - d ⬝ᵥ d * c ⬝ᵥ a) / (a ⬝ᵥ d * d ⬝ᵥ a - a ⬝ᵥ a * d ⬝ᵥ d) ∧
      t = (-(c ⬝ᵥ d) + s * a ⬝ᵥ d) / d ⬝ᵥ d := by
  rw [cross_lagrange] at h
  have e : d ⬝ᵥ a = a ⬝ᵥ d := dotProduct_comm _ _
  have hdd : d ⬝ᵥ d ≠ 0 := by
    intro h0
    have : d = 0 := dotProduct_self_eq_zero.1 h0
    rw [this] at h
    simp at h
  simp only [add_dotProduct, sub_dotProduct, smul_dotProduct, smul_eq_mul, e]
  generalize a ⬝ᵥ a = A at *
  generalize d ⬝ᵥ d = D at *
  generalize a ⬝ᵥ d = E at *
  generalize c ⬝ᵥ d = X at *
  generalize c ⬝ᵥ a = Y at *
  have hne : E * E - A * D ≠ 0 := fun h0 => h (by linarith)
  rw [eq_div_iff hne, eq_div_iff hdd]
  constructor
  · rintro ⟨h1, h2⟩
    exact ⟨by linear_combination D * h1 - E * h2, by linear_combination h2⟩
  · rintro ⟨h1, h2⟩
    refine ⟨?_, by linear_combination h2⟩
    have : D * (Y + t * E - s * A) = 0 := by linear_combination E * h2 + h1
    exact (mul_eq_zero.1 this).resolve_left hdd

theorem segmentsMeet_iff (l m : Fin 2 → Fin 3 → ℝ) :
    Dode.segmentsMeet l m = true ↔ SegmentsClose (l 0) (l 1) (m 0) (m 1) := by
  unfold Dode.segmentsMeet SegmentsClose
  rw [← eps_eq]
  set a := l 1 - l 0 with ha
  set d := m 1 - m 0 with hd
  set c := m 0 - l 0 with hc
  have e2 : a ⬝ᵥ d * d ⬝ᵥ a - a ⬝ᵥ a * d ⬝ᵥ d = -((a ⨯₃ d) ⬝ᵥ (a ⨯₃ d)) := by
    rw [cross_lagrange, dotProduct_comm d a]; ring
  have hv : ∀ s t : ℝ, m 0 + t • d - (l 0 + s • a) = c + t • d - s • a := by intro s t; rw [hc]; abel
  have hnn : 0 ≤ (a ⨯₃ d) ⬝ᵥ (a ⨯₃ d) := by
    rw [vec3_dotProduct]; nlinarith [sq_nonneg ((a ⨯₃ d) 0), sq_nonneg ((a ⨯₃ d) 1), sq_nonneg ((a ⨯₃ d) 2)]
  simp only [hv]
  have habs : |a ⬝ᵥ d * d ⬝ᵥ a - a ⬝ᵥ a * d ⬝ᵥ d| = (a ⨯₃ d) ⬝ᵥ (a ⨯₃ d) := by rw [e2, abs_neg, abs_of_nonneg hnn]
  by_cases hlt : |a ⬝ᵥ d * d ⬝ᵥ a - a ⬝ᵥ a * d ⬝ᵥ d| < EPS
  · rw [if_pos hlt]
    rw [habs] at hlt
    constructor
    · intro h; cases h
    · rintro ⟨h, -⟩; exact absurd h (not_le.2 hlt)
  · rw [if_neg hlt]
    rw [habs, not_lt] at hlt
    have h0 : (a ⨯₃ d) ⬝ᵥ (a ⨯₃ d) ≠ 0 := by
      intro h; rw [h, eps_eq] at hlt; norm_num at hlt
    set s := (c ⬝ᵥ d * d ⬝ᵥ a - d ⬝ᵥ d * c ⬝ᵥ a) / (a ⬝ᵥ d * d ⬝ᵥ a - a ⬝ᵥ a * d ⬝ᵥ d) with hs
    set t := (-(c ⬝ᵥ d) + s * a ⬝ᵥ d) / d ⬝ᵥ d with ht
    have hdd : ∑ i, ((m 0 i - l 0 i) - s * (l 1 i - l 0 i) + t * (m 1 i - m 0 i)) ^ 2 =
        (c + t • d - s • a) ⬝ᵥ (c + t • d - s • a) := by
      rw [dotProduct]
      refine Finset.sum_congr rfl fun i _ => ?_
      simp only [Pi.add_apply, Pi.sub_apply, Pi.smul_apply, smul_eq_mul, hc, hd, ha]
      ring
    rw [hdd]
    constructor
    · intro h
      split at h
      · split at h
        · rename_i h1 h2
          obtain ⟨f1, f2⟩ := (feet_iff (c := c) h0 s t).2 ⟨hs, ht⟩
          exact ⟨hlt, s, t, h1.1, h1.2.1, h1.2.2.1, h1.2.2.2, f1, f2, h2⟩
        · cases h
      · cases h
    · rintro ⟨-, s', t', s0, s1, t0, t1, f1, f2, f3⟩
      obtain ⟨e1, e2⟩ := (feet_iff (c := c) h0 s' t').1 ⟨f1, f2⟩
      have e1 : s' = s := e1
      rw [e1] at e2 s0 s1 f3
      have e2 : t' = t := e2
      rw [e2] at t0 t1 f3
      rw [if_pos ⟨s0, s1, t0, t1⟩, if_pos f3]

/-- In a plane the segments have to cross. -/
theorem close_planar {z : ℝ} {A B C D : Fin 3 → ℝ} (hA : A 2 = z) (hB : B 2 = z) (hC : C 2 = z) (hD : D 2 = z) :
    SegmentsClose A B C D ↔ 1 / 10 ^ 6 ≤ (B - A) ⨯₃ (D - C) ⬝ᵥ (B - A) ⨯₃ (D - C) ∧
      ∃ a b : ℝ, 0 ≤ a ∧ a ≤ 1 ∧ 0 ≤ b ∧ b ≤ 1 ∧ A + a • (B - A) = C + b • (D - C) := by
  unfold SegmentsClose
  refine and_congr_right fun h => ?_
  constructor
  · rintro ⟨s, t, s0, s1, t0, t1, f1, f2, -⟩
    refine ⟨s, t, s0, s1, t0, t1, (sub_eq_zero.1 ?_).symm⟩
    have g2 : (C + t • (D - C) - (A + s • (B - A))) 2 = 0 := by simp [hA, hB, hC, hD]
    generalize C + t • (D - C) - (A + s • (B - A)) = v at *
    have ga : (B - A) 2 = 0 := by simp [hA, hB]
    have gd : (D - C) 2 = 0 := by simp [hC, hD]
    generalize B - A = a at *
    generalize D - C = d at *
    simp only [vec3_dotProduct, cross_apply] at f1 f2 h
    simp [ga, gd] at h
    simp only [g2, ga, gd, mul_zero, add_zero] at f1 f2
    have hK : a 0 * d 1 - a 1 * d 0 ≠ 0 := by
      intro h0; rw [h0] at h; norm_num at h
    funext j
    fin_cases j
    · refine (mul_eq_zero.1 (?_ : (a 0 * d 1 - a 1 * d 0) * v 0 = 0)).resolve_left hK
      linear_combination d 1 * f1 - a 1 * f2
    · refine (mul_eq_zero.1 (?_ : (a 0 * d 1 - a 1 * d 0) * v 1 = 0)).resolve_left hK
      linear_combination a 0 * f2 - d 0 * f1
    · exact g2
  · rintro ⟨a, b, a0, a1, b0, b1, e⟩
    refine ⟨a, b, a0, a1, b0, b1, ?_⟩
    rw [e, sub_self]
    simp

/-- Two descriptions of the crossing of two lines that are not parallel agree. -/
theorem crossing_unique {A C a d : Fin 3 → ℝ} (h : a ⨯₃ d ≠ 0) {s t s' t' : ℝ} (h1 : A + s • a = C + t • d)
    (h2 : A + s' • a = C + t' • d) : s = s' ∧ t = t' := by
  have e : (s - s') • a = (t - t') • d := by
    have e3 : (s - s') • a = (A + s • a) - (A + s' • a) := by module
    rw [e3, h1, h2]; module
  have k1 : (s - s') • (a ⨯₃ d) = 0 := by
    rw [← LinearMap.map_smul₂, e, LinearMap.map_smul₂, cross_self, smul_zero]
  have k2 : (t - t') • (a ⨯₃ d) = 0 := by
    rw [← LinearMap.map_smul, ← e, LinearMap.map_smul, cross_self, smul_zero]
  exact ⟨sub_eq_zero.1 ((smul_eq_zero.1 k1).resolve_right h), sub_eq_zero.1 ((smul_eq_zero.1 k2).resolve_right h)⟩

/-! ## The inside test -/

theorem insideTriangle_iff (x : Fin 3 → ℝ) (q : Fin 3 → Fin 3 → ℝ) : Dode.insideTriangle x q = true ↔
    |triArea q - ∑ i, triArea (Ico.smallTriangle i x q)| < 1 / 10 ^ 6 * triArea q := by
  unfold Dode.insideTriangle
  simp only [areaNum_eq, Fin.sum_univ_three]
  rw [← eps_eq, ← sub_sub, ← sub_sub]
  split <;> rename_i h <;> simp [h]

theorem insideTriangle_plane {x : Fin 3 → ℝ} {q : Fin 3 → Fin 3 → ℝ} {w : Fin 3 → ℝ} (hw : IsBary q w x) :
    Dode.insideTriangle x q = true ↔ triArea q ≠ 0 ∧ ∑ i, |w i| < 1 + 1 / 10 ^ 6 := by
  have hx : x = ∑ i, w i • q i + (0 : ℝ) • triNormal q := by rw [zero_smul, add_zero]; exact hw.2
  have hs : (1 : ℝ) ≤ ∑ i, |w i| := by
    rw [← hw.1]
    exact Finset.sum_le_sum fun i _ => le_abs_self _
  have hA : 0 ≤ triArea q := by rw [triArea_norm3]; exact div_nonneg (norm3_nonneg _) (by norm_num)
  have h2 : ∀ i, triArea (Ico.smallTriangle i x q) = |w i| * triArea q := by
    intro i
    rw [small_area hw.1 hx i, norm3_eq_sqrt, triArea_norm3]
    simp only [abs_zero, zero_mul, Matrix.cons_val_zero, Matrix.cons_val_one, Matrix.cons_val]
    rw [zero_pow (by norm_num), add_zero, add_zero, Real.sqrt_sq (mul_nonneg (abs_nonneg _) (norm3_nonneg _))]
    ring
  rw [insideTriangle_iff]
  simp only [h2]
  rw [← Finset.sum_mul, abs_sub_comm, abs_of_nonneg (by nlinarith)]
  constructor
  · intro h
    have hne : triArea q ≠ 0 := by
      intro h0; rw [h0] at h; simp at h
    refine ⟨hne, ?_⟩
    have hpos : 0 < triArea q := lt_of_le_of_ne hA (Ne.symm hne)
    nlinarith
  · rintro ⟨hne, h⟩
    have hpos : 0 < triArea q := lt_of_le_of_ne hA (Ne.symm hne)
    nlinarith

/-- Barycentric coordinates in a level plane. -/
theorem flat_bary {z : ℝ} {q : Fin 3 → Fin 3 → ℝ} (hq : Flat z q) (h : crossZ q ≠ 0) {x : Fin 3 → ℝ} (hx : x 2 = z) :
    ∃ w, IsBary q w x := by
  have hb := exists_bary (q := lift q) (by rw [det4_lift]; exact h) x
  obtain ⟨w, hw⟩ : ∃ w, IsBary (lift q) w x := ⟨_, hb⟩
  obtain ⟨h1, h2⟩ := isBary_four.1 hw
  have h3 := h2 2
  simp [lift, hq _, hx] at h3
  have hw3 : w 3 = 0 := by linear_combination -z * h1 - h3
  refine ⟨![w 0, w 1, w 2], ?_, ?_⟩
  · rw [Fin.sum_univ_three]; simp; linarith
  · rw [Fin.sum_univ_three]
    funext j
    have := h2 j
    simp [lift, hw3] at this
    simp [this]

theorem insideTriangle_flat {z : ℝ} {q : Fin 3 → Fin 3 → ℝ} (hq : Flat z q) {x : Fin 3 → ℝ} (hx : x 2 = z) :
    Dode.insideTriangle x q = true ↔ AcceptsTri q x := by
  constructor
  · intro h
    have hne : triArea q ≠ 0 := by
      intro h0
      rw [insideTriangle_iff, h0, mul_zero] at h
      exact absurd h (not_lt.2 (abs_nonneg _))
    obtain ⟨w, hw⟩ := flat_bary hq ((triArea_flat_ne hq).1 hne) hx
    exact ⟨hne, w, hw, ((insideTriangle_plane hw).1 h).2⟩
  · rintro ⟨hne, w, hw, hs⟩
    exact (insideTriangle_plane hw).2 ⟨hne, hs⟩

theorem acceptsTri_of_mem {q : Fin 3 → Fin 3 → ℝ} {x : Fin 3 → ℝ} (hq : triArea q ≠ 0) (h : x ∈ solid q) : AcceptsTri q x := by
  obtain ⟨w, hw, h0⟩ := mem_solid_iff.1 h
  refine ⟨hq, w, hw, ?_⟩
  simp only [abs_of_nonneg (h0 _)]
  rw [hw.1]; norm_num

end PyQC
