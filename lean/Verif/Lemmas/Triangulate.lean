import Verif.Lemmas.Hull
import Mathlib.MeasureTheory.Measure.Lebesgue.EqHaar
import Mathlib.Analysis.Convex.Topology
import Mathlib.Analysis.Convex.Join
/-!
# A tetrahedralisation without overlaps exists

Points are added one at a time: a point outside the hull of the earlier ones is joined to the boundary faces it sees.
-/
namespace PyQC
open MeasureTheory Topology Ico

/-- Barycentric coordinates by Cramer's rule. -/
noncomputable def bc (q : Fin 4 → Fin 3 → ℝ) (x : Fin 3 → ℝ) (i : Fin 4) : ℝ := det4 (smallTetrahedron i x q) / det4 q

variable {q : Fin 4 → Fin 3 → ℝ}

theorem bc_spec (h : det4 q ≠ 0) (x : Fin 3 → ℝ) : IsBary q (bc q x) x := exists_bary h x

theorem bc_eq (h : det4 q ≠ 0) {w : Fin 4 → ℝ} {x : Fin 3 → ℝ} (hw : IsBary q w x) : bc q x = w :=
  bary_unique h (bc_spec h x) hw

theorem bc_corner (h : det4 q ≠ 0) (j : Fin 4) : bc q (q j) = Pi.single j 1 := by
  refine bc_eq h ⟨by simp, ?_⟩
  simp [Pi.single_apply]

theorem bc_comb (h : det4 q ≠ 0) (x y : Fin 3 → ℝ) (r : ℝ) (i : Fin 4) :
    bc q ((1 - r) • x + r • y) i = (1 - r) * bc q x i + r * bc q y i := by
  have hx := bc_spec h x
  have hy := bc_spec h y
  refine congrFun (bc_eq h (w := fun i => (1 - r) * bc q x i + r * bc q y i) ⟨?_, ?_⟩) i
  · rw [Finset.sum_add_distrib, ← Finset.mul_sum, ← Finset.mul_sum, hx.1, hy.1]; ring
  · simp only [add_smul, Finset.sum_add_distrib, mul_smul]
    rw [← Finset.smul_sum, ← Finset.smul_sum, ← hx.2, ← hy.2]

theorem bc_sum (h : det4 q ≠ 0) {t : Fin 4 → Fin 3 → ℝ} {w : Fin 4 → ℝ} {x : Fin 3 → ℝ} (hw : IsBary t w x) (i : Fin 4) :
    bc q x i = ∑ j, w j * bc q (t j) i := by
  refine congrFun (bc_eq h (w := fun i => ∑ j, w j * bc q (t j) i) ⟨?_, ?_⟩) i
  · rw [Finset.sum_comm]
    simp only [← Finset.mul_sum, (bc_spec h _).1, mul_one]
    exact hw.1
  · simp only [Finset.sum_smul, mul_smul]
    rw [Finset.sum_comm]
    simp only [← Finset.smul_sum, ← (bc_spec h _).2]
    exact hw.2

theorem mem_solid_bc (h : det4 q ≠ 0) {x : Fin 3 → ℝ} : x ∈ solid q ↔ ∀ i, 0 ≤ bc q x i := by
  rw [mem_solid_iff]
  constructor
  · rintro ⟨w, hw, h0⟩; rw [bc_eq h hw]; exact h0
  · intro h0; exact ⟨_, bc_spec h x, h0⟩

theorem bc_continuous (i : Fin 4) : Continuous fun x => bc q x i := by
  unfold bc
  refine Continuous.div_const ?_ _
  simp only [det4_eq, smallTetrahedron]
  fin_cases i <;> simp <;> fun_prop

theorem interior_bc (h : det4 q ≠ 0) {x : Fin 3 → ℝ} : x ∈ interior (solid q) ↔ ∀ i, 0 < bc q x i := by
  constructor
  · intro hx i
    have h0 := (mem_solid_bc h).1 (interior_subset hx)
    refine lt_of_le_of_ne (h0 i) fun e => ?_
    have hc : Filter.Tendsto (fun r : ℝ => (1 - r) • x + r • q i) (𝓝 0) (𝓝 ((1 - (0 : ℝ)) • x + (0 : ℝ) • q i)) := by
      apply Continuous.tendsto; fun_prop
    simp only [sub_zero, one_smul, zero_smul, add_zero] at hc
    have hev := hc.eventually (mem_interior_iff_mem_nhds.1 hx)
    obtain ⟨ε, hε, hb⟩ := Metric.eventually_nhds_iff.1 hev
    have hm : (1 - (-(ε / 2))) • x + (-(ε / 2)) • q i ∈ solid q := hb (by
      rw [dist_zero_right, Real.norm_eq_abs, abs_neg, abs_of_pos (by linarith)]; linarith)
    have := (mem_solid_bc h).1 hm i
    rw [bc_comb h, ← e, bc_corner h] at this
    simp at this
    linarith
  · intro hx
    rw [mem_interior]
    refine ⟨⋂ i, {x | 0 < bc q x i}, ?_, isOpen_iInter_of_finite fun i => isOpen_lt continuous_const (bc_continuous i), by simpa using hx⟩
    intro y hy
    rw [mem_solid_bc h]
    simp only [Set.mem_iInter] at hy
    exact fun i => le_of_lt (hy i)

theorem halfspace (h : det4 q ≠ 0) {A : Set (Fin 3 → ℝ)} {f : Fin 4} (hA : ∀ a ∈ A, 0 ≤ bc q a f) :
    ∀ x ∈ convexHull ℝ A, 0 ≤ bc q x f := by
  intro x hx
  have hc : Convex ℝ {x | 0 ≤ bc q x f} := by
    intro x hx y hy a b ha hb hab
    have e : a = 1 - b := by linarith
    subst e
    change 0 ≤ bc q ((1 - b) • x + b • y) f
    rw [bc_comb h]
    exact add_nonneg (mul_nonneg ha hx) (mul_nonneg hb hy)
  exact convexHull_min hA hc hx

/-- Moving from `y` towards `p` a little stays in the tetrahedron if every coordinate that is zero does not decrease. -/
theorem move_towards (h : det4 q ≠ 0) {y p : Fin 3 → ℝ} (h0 : ∀ i, 0 ≤ bc q y i)
    (h1 : ∀ i, 0 < bc q y i ∨ 0 ≤ bc q p i) : ∀ᶠ r : ℝ in 𝓝[>] 0, (1 - r) • y + r • p ∈ solid q := by
  have key : ∀ i, ∀ᶠ r : ℝ in 𝓝[>] 0, 0 ≤ (1 - r) * bc q y i + r * bc q p i := by
    intro i
    rcases h1 i with hi | hi
    · have hc : Filter.Tendsto (fun r : ℝ => (1 - r) * bc q y i + r * bc q p i) (𝓝 0)
          (𝓝 ((1 - (0 : ℝ)) * bc q y i + (0 : ℝ) * bc q p i)) := by
        apply Continuous.tendsto; fun_prop
      simp only [sub_zero, one_mul, zero_mul, add_zero] at hc
      exact ((hc.eventually (lt_mem_nhds hi)).mono fun r hr => le_of_lt hr).filter_mono nhdsWithin_le_nhds
    · have h01 : ∀ᶠ r : ℝ in 𝓝[>] 0, r < 1 := (gt_mem_nhds (by norm_num : (0 : ℝ) < 1)).filter_mono nhdsWithin_le_nhds
      filter_upwards [h01, self_mem_nhdsWithin] with r hr1 hr0
      exact add_nonneg (mul_nonneg (by linarith) (h0 i)) (mul_nonneg (le_of_lt hr0) hi)
  refine (Filter.eventually_all.2 key).mono fun r hr => ?_
  rw [mem_solid_bc h]
  intro i
  rw [bc_comb h]
  exact hr i

theorem move_inside (h : det4 q ≠ 0) {y p : Fin 3 → ℝ} (h0 : ∀ i, 0 ≤ bc q y i)
    (h1 : ∀ i, 0 < bc q y i ∨ 0 < bc q p i) : ∀ᶠ r : ℝ in 𝓝[>] 0, (1 - r) • y + r • p ∈ interior (solid q) := by
  have key : ∀ i, ∀ᶠ r : ℝ in 𝓝[>] 0, 0 < (1 - r) * bc q y i + r * bc q p i := by
    intro i
    rcases h1 i with hi | hi
    · have hc : Filter.Tendsto (fun r : ℝ => (1 - r) * bc q y i + r * bc q p i) (𝓝 0)
          (𝓝 ((1 - (0 : ℝ)) * bc q y i + (0 : ℝ) * bc q p i)) := by
        apply Continuous.tendsto; fun_prop
      simp only [sub_zero, one_mul, zero_mul, add_zero] at hc
      exact (hc.eventually (lt_mem_nhds hi)).filter_mono nhdsWithin_le_nhds
    · have h01 : ∀ᶠ r : ℝ in 𝓝[>] 0, r < 1 := (gt_mem_nhds (by norm_num : (0 : ℝ) < 1)).filter_mono nhdsWithin_le_nhds
      filter_upwards [h01, self_mem_nhdsWithin] with r hr1 hr0
      exact add_pos_of_nonneg_of_pos (mul_nonneg (by linarith) (h0 i)) (mul_pos hr0 hi)
  refine (Filter.eventually_all.2 key).mono fun r hr => ?_
  rw [interior_bc h]
  intro i
  rw [bc_comb h]
  exact hr i

/-! ## Replacing a corner -/

theorem smallTet_det (_ : det4 q ≠ 0) {f : Fin 4} {p : Fin 3 → ℝ} (hp : bc q p f ≠ 0) : det4 (smallTetrahedron f p q) ≠ 0 := by
  intro h0; apply hp; unfold bc; rw [h0, zero_div]

theorem smallTet_bc (h : det4 q ≠ 0) {f : Fin 4} {p : Fin 3 → ℝ} (hp : bc q p f ≠ 0) (x : Fin 3 → ℝ) (i : Fin 4) :
    bc (smallTetrahedron f p q) x i =
      if i = f then bc q x f / bc q p f else bc q x i - bc q p i * (bc q x f / bc q p f) := by
  have hs := bc_sum h (t := smallTetrahedron f p q) (bc_spec (smallTet_det h hp) x)
  have e : ∀ k, bc q x k = bc (smallTetrahedron f p q) x f * bc q p k + if k = f then 0 else
      bc (smallTetrahedron f p q) x k := by
    intro k
    rw [hs k, ← Finset.add_sum_erase _ _ (Finset.mem_univ f)]
    congr 1
    · simp [smallTetrahedron]
    · have : ∀ j ∈ Finset.univ.erase f, bc (smallTetrahedron f p q) x j * bc q (smallTetrahedron f p q j) k =
          if j = k then bc (smallTetrahedron f p q) x k else 0 := by
        intro j hj
        have hj := Finset.ne_of_mem_erase hj
        simp only [smallTetrahedron, if_neg hj, bc_corner h, Pi.single_apply]
        by_cases hk : j = k
        · subst hk; simp
        · rw [if_neg (Ne.symm hk), if_neg hk, mul_zero]
      rw [Finset.sum_congr rfl this]
      simp only [Finset.sum_ite_eq', Finset.mem_erase, Finset.mem_univ, and_true]
      by_cases hk : k = f <;> simp [hk]
  have ef : bc (smallTetrahedron f p q) x f = bc q x f / bc q p f := by
    have := e f
    simp only [if_true, add_zero] at this
    rw [this, mul_div_assoc, div_self hp, mul_one]
  by_cases hi : i = f
  · subst hi; rw [if_pos rfl, ef]
  · rw [if_neg hi]
    have := e i
    rw [if_neg hi, ef] at this
    linarith

/-- Corners of the new tetrahedron. -/
theorem smallTet_mem {A : Set (Fin 3 → ℝ)} {f : Fin 4} {p : Fin 3 → ℝ} (hA : ∀ i, q i ∈ A) :
    ∀ i, smallTetrahedron f p q i ∈ insert p A := by
  intro i
  unfold smallTetrahedron
  by_cases hi : i = f
  · rw [if_pos hi]; exact Set.mem_insert _ _
  · rw [if_neg hi]; exact Set.mem_insert_of_mem _ (hA i)

/-! ## Adding a point -/

/-- Tetrahedra with corners in `A`, none flat, that fill the hull of `A` without overlaps. -/
structure Tiling (A : Set (Fin 3 → ℝ)) (T : List (Fin 4 → Fin 3 → ℝ)) : Prop where
  corner : ∀ q ∈ T, ∀ i, q i ∈ A
  det : ∀ q ∈ T, det4 q ≠ 0
  cover : ∀ x ∈ convexHull ℝ A, ∃ q ∈ T, x ∈ solid q
  disj : T.Pairwise fun a b => interior (solid a) ∩ interior (solid b) = ∅

/-- The face opposite corner `f` of `q` is a boundary face of the hull of `A` seen from `p`. -/
def Sees (A : Set (Fin 3 → ℝ)) (p : Fin 3 → ℝ) (q : Fin 4 → Fin 3 → ℝ) (f : Fin 4) : Prop :=
  bc q p f < 0 ∧ ∀ a ∈ A, 0 ≤ bc q a f

theorem solid_hull {A : Set (Fin 3 → ℝ)} (h : ∀ i, q i ∈ A) : solid q ⊆ convexHull ℝ A :=
  convexHull_mono (by rintro _ ⟨i, rfl⟩; exact h i)

/-- A generic point of the hull of `A` and `p` outside the hull of `A` lies in a tetrahedron over a visible face. -/
theorem generic_cover {A : Set (Fin 3 → ℝ)} (hfin : A.Finite) {T : List (Fin 4 → Fin 3 → ℝ)} (hT : Tiling A T)
    {p : Fin 3 → ℝ} (hp : p ∉ convexHull ℝ A) {x : Fin 3 → ℝ} (hx : x ∈ convexHull ℝ (insert p A))
    (hxA : x ∉ convexHull ℝ A) (hne : A.Nonempty) (hgen : ∀ a ∈ A, ∀ b ∈ A, x ∉ affineSpan ℝ {p, a, b}) :
    ∃ q ∈ T, ∃ f, Sees A p q f ∧ x ∈ solid (smallTetrahedron f p q) := by
  rw [convexHull_insert hne, mem_convexJoin] at hx
  obtain ⟨p', hp', z, hz, hseg⟩ := hx
  rw [Set.mem_singleton_iff] at hp'
  subst hp'
  rw [segment_eq_image] at hseg
  obtain ⟨l, ⟨hl0, hl1⟩, rfl⟩ := hseg
  have hclosed : IsClosed (convexHull ℝ A) := hfin.isClosed_convexHull (𝕜 := ℝ)
  -- the first point of the segment in the hull
  let I : Set ℝ := Set.Icc 0 1 ∩ (fun r : ℝ => (1 - r) • p' + r • z) ⁻¹' convexHull ℝ A
  have hI : IsCompact I := isCompact_Icc.inter_right (hclosed.preimage (by fun_prop))
  have hI1 : I.Nonempty := ⟨1, ⟨by norm_num, le_refl _⟩, by simpa using hz⟩
  obtain ⟨s, hs⟩ := hI.exists_isLeast hI1
  obtain ⟨⟨⟨hs0, hs1⟩, hy⟩, hmin⟩ := hs
  simp only [Set.mem_preimage] at hy
  set y := (1 - s) • p' + s • z with hydef
  have hspos : 0 < s := by
    refine lt_of_le_of_ne hs0 fun e => hp ?_
    rw [← e] at hydef
    simp at hydef
    rw [← hydef]; exact hy
  have hbefore : ∀ r : ℝ, 0 < r → r ≤ 1 → (1 - r) • y + r • p' ∉ convexHull ℝ A := by
    intro r hr hr1 hm
    have e : (1 - r) • y + r • p' = (1 - (1 - r) * s) • p' + ((1 - r) * s) • z := by
      rw [hydef]; module
    rw [e] at hm
    have hle := hmin ⟨⟨by nlinarith, by nlinarith⟩, hm⟩
    nlinarith
  obtain ⟨q, hq, hyq⟩ := hT.cover y hy
  have hdet := hT.det q hq
  have hcor := hT.corner q hq
  have hy0 := (mem_solid_bc hdet).1 hyq
  have hno : ∀ {u : Fin 4 → Fin 3 → ℝ}, (∀ i, u i ∈ A) → ¬ ∀ᶠ r : ℝ in 𝓝[>] 0, (1 - r) • y + r • p' ∈ solid u := by
    intro u hu hev
    have h01 : ∀ᶠ r : ℝ in 𝓝[>] 0, r < 1 := (gt_mem_nhds (by norm_num : (0 : ℝ) < 1)).filter_mono nhdsWithin_le_nhds
    obtain ⟨r, ⟨hm, hr1⟩, hr0⟩ := ((hev.and h01).and self_mem_nhdsWithin).exists
    exact hbefore r hr0 (le_of_lt hr1) (solid_hull hu hm)
  obtain ⟨f, hf0, hfp⟩ : ∃ f, bc q y f = 0 ∧ bc q p' f < 0 := by
    by_contra hcon
    push Not at hcon
    refine hno hcor (move_towards hdet hy0 fun i => ?_)
    rcases (hy0 i).eq_or_lt with e | e
    · exact .inr (hcon i e.symm)
    · exact .inl e
  -- the point in terms of the first point
  have hls : l < s := by
    by_contra hcon
    push Not at hcon
    apply hxA
    have hconv := convex_convexHull ℝ A
    by_cases h1 : s = 1
    · have : l = 1 := by linarith
      subst this
      simpa using hz
    · have hd : 0 < 1 - s := by
        have := lt_of_le_of_ne hs1 h1
        linarith
      have e : (1 - l) • p' + l • z = ((1 - l) / (1 - s)) • y + ((l - s) / (1 - s)) • z := by
        rw [hydef, smul_add, smul_smul, smul_smul, add_assoc, ← add_smul]
        congr 2
        · field_simp
        · field_simp; ring
      change (1 - l) • p' + l • z ∈ _
      rw [e]
      refine hconv hy hz (div_nonneg (by linarith) hd.le) (div_nonneg (by linarith) hd.le) ?_
      field_simp; ring
  set m := l / s with hm
  have hm0 : 0 ≤ m := div_nonneg hl0 hs0
  have hm1 : m < 1 := (div_lt_one hspos).2 hls
  have ex : (1 - l) • p' + l • z = (1 - m) • p' + m • y := by
    have : l = m * s := by rw [hm]; field_simp
    rw [hydef, this]; module
  change ¬ (1 - l) • p' + l • z ∈ _ at hxA
  simp only at hgen ⊢
  rw [ex] at hxA hgen ⊢
  have hpos : ∀ i, i ≠ f → 0 < bc q y i := by
    intro i hi
    refine lt_of_le_of_ne (hy0 i) fun e => ?_
    have hj : ∃ j k : Fin 4, y = bc q y j • q j + bc q y k • q k ∧ bc q y j + bc q y k = 1 := by
      have hsp := bc_spec hdet y
      have h1 := hsp.1
      have h2 := hsp.2
      rw [Fin.sum_univ_four] at h1 h2
      fin_cases i <;> fin_cases f <;> simp at hi e hf0 <;> simp only [← e, hf0] at h1 h2 <;> simp at h1 h2
      all_goals first
        | exact ⟨2, 3, by simpa using h2, by simpa using h1⟩
        | exact ⟨1, 3, by simpa using h2, by simpa using h1⟩
        | exact ⟨1, 2, by simpa using h2, by simpa using h1⟩
        | exact ⟨0, 3, by simpa using h2, by simpa using h1⟩
        | exact ⟨0, 2, by simpa using h2, by simpa using h1⟩
        | exact ⟨0, 1, by simpa using h2, by simpa using h1⟩
    obtain ⟨j, k, hy2, hsum⟩ := hj
    apply hgen (q j) (hcor j) (q k) (hcor k)
    have mp : p' ∈ affineSpan ℝ {p', q j, q k} := subset_affineSpan ℝ _ (by simp)
    have mj : q j ∈ affineSpan ℝ {p', q j, q k} := subset_affineSpan ℝ _ (by simp)
    have mk : q k ∈ affineSpan ℝ {p', q j, q k} := subset_affineSpan ℝ _ (by simp)
    have my : y ∈ affineSpan ℝ {p', q j, q k} := by
      have := AffineMap.lineMap_mem (bc q y k) mj mk
      rw [AffineMap.lineMap_apply_module] at this
      have e1 : 1 - bc q y k = bc q y j := by linarith
      rw [e1, ← hy2] at this
      exact this
    have := AffineMap.lineMap_mem m mp my
    rwa [AffineMap.lineMap_apply_module] at this
  have hsees : Sees A p' q f := by
    refine ⟨hfp, fun a ha => ?_⟩
    by_contra hcon
    push Not at hcon
    have hne' : bc q a f ≠ 0 := hcon.ne
    have hd' := smallTet_det hdet hne'
    refine hno (u := smallTetrahedron f a q) ?_ (move_towards hd' ?_ ?_)
    · intro i
      have := smallTet_mem (f := f) (p := a) hcor i
      rwa [Set.insert_eq_of_mem ha] at this
    · intro i
      rw [smallTet_bc hdet hne', hf0]
      by_cases hi : i = f
      · rw [if_pos hi]; simp
      · rw [if_neg hi]; simpa using hy0 i
    · intro i
      rw [smallTet_bc hdet hne', smallTet_bc hdet hne', hf0]
      by_cases hi : i = f
      · rw [if_pos hi, if_pos hi]
        exact .inr (div_nonneg_of_nonpos hfp.le hcon.le)
      · rw [if_neg hi]
        exact .inl (by simpa using hpos i hi)
  refine ⟨q, hq, f, hsees, ?_⟩
  rw [mem_solid_bc (smallTet_det hdet hfp.ne)]
  intro i
  rw [smallTet_bc hdet hfp.ne, bc_comb hdet, hf0, mul_zero, add_zero, mul_div_assoc, div_self hfp.ne, mul_one]
  by_cases hi : i = f
  · rw [if_pos hi]; linarith
  · rw [if_neg hi, bc_comb hdet]
    have := mul_nonneg hm0 (hy0 i)
    linarith

/-- Almost every point avoids the planes through `p` and two points of a finite set. -/
theorem generic_exists {A : Set (Fin 3 → ℝ)} (hfin : A.Finite) (p : Fin 3 → ℝ) {U : Set (Fin 3 → ℝ)} (hU : IsOpen U)
    (hne : U.Nonempty) : ∃ x ∈ U, ∀ a ∈ A, ∀ b ∈ A, x ∉ affineSpan ℝ {p, a, b} := by
  have hnull : volume (⋃ a ∈ A, ⋃ b ∈ A, (affineSpan ℝ {p, a, b} : Set (Fin 3 → ℝ))) = 0 := by
    rw [measure_biUnion_null_iff hfin.countable]
    intro a _
    rw [measure_biUnion_null_iff hfin.countable]
    intro b _
    refine Measure.addHaar_affineSubspace _ _ fun htop => ?_
    have hc : Coplanar ℝ ({p, a, b} : Set (Fin 3 → ℝ)) := coplanar_triple ℝ p a b
    unfold Coplanar at hc
    rw [← direction_affineSpan, htop, AffineSubspace.direction_top, rank_top] at hc
    simp at hc
    exact absurd (by exact_mod_cast hc : (3 : ℕ) ≤ 2) (by norm_num)
  have hpos := hU.measure_pos volume hne
  by_contra hcon
  push Not at hcon
  refine hpos.ne' (measure_mono_null ?_ hnull)
  intro x hx
  obtain ⟨a, ha, b, hb, hm⟩ := hcon x hx
  simp only [Set.mem_iUnion]
  exact ⟨a, ha, b, hb, hm⟩

open Classical in
/-- The tetrahedra over the visible faces of one tetrahedron. -/
noncomputable def seenFrom (A : Set (Fin 3 → ℝ)) (p : Fin 3 → ℝ) (q : Fin 4 → Fin 3 → ℝ) : List (Fin 4 → Fin 3 → ℝ) :=
  ((List.finRange 4).filter fun f => Sees A p q f).map fun f => smallTetrahedron f p q

theorem mem_seenFrom {A : Set (Fin 3 → ℝ)} {p : Fin 3 → ℝ} {u : Fin 4 → Fin 3 → ℝ} :
    u ∈ seenFrom A p q ↔ ∃ f, Sees A p q f ∧ u = smallTetrahedron f p q := by
  classical
  simp only [seenFrom, List.mem_map, List.mem_filter, List.mem_finRange, true_and, decide_eq_true_eq]
  exact ⟨fun ⟨f, h, e⟩ => ⟨f, h, e.symm⟩, fun ⟨f, h, e⟩ => ⟨f, h, e.symm⟩⟩

/-- An interior point of the tetrahedron over a visible face, seen from `p`: the foot in the face. -/
theorem foot {A : Set (Fin 3 → ℝ)} {p : Fin 3 → ℝ} {f : Fin 4} (h : det4 q ≠ 0) (hcor : ∀ i, q i ∈ A)
    (hs : Sees A p q f) {x : Fin 3 → ℝ} (hx : x ∈ interior (solid (smallTetrahedron f p q))) :
    ∃ m : ℝ, 0 < m ∧ m < 1 ∧ ∃ y ∈ convexHull ℝ A, x = (1 - m) • p + m • y ∧ bc q y f = 0 ∧ ∀ i, i ≠ f → 0 < bc q y i := by
  have hd := smallTet_det h hs.1.ne
  have hb := (interior_bc hd).1 hx
  set w := bc (smallTetrahedron f p q) x with hw
  have hsp := bc_spec hd x
  rw [← hw] at hsp
  have hsum : w f + ∑ i ∈ Finset.univ.erase f, w i = 1 := by rw [Finset.add_sum_erase _ _ (Finset.mem_univ f)]; exact hsp.1
  have hpos : 0 < ∑ i ∈ Finset.univ.erase f, w i := by
    refine Finset.sum_pos (fun i _ => hb i) ?_
    obtain ⟨j, hj⟩ := exists_ne f
    exact ⟨j, by simp [hj]⟩
  have hm1 : 0 < 1 - w f := by linarith
  refine ⟨1 - w f, hm1, by linarith [hb f], (1 / (1 - w f)) • (x - w f • p), ?_⟩
  have hy : IsBary q (fun i => if i = f then 0 else w i / (1 - w f)) ((1 / (1 - w f)) • (x - w f • p)) := by
    constructor
    · rw [← Finset.add_sum_erase _ _ (Finset.mem_univ f), if_pos rfl, zero_add,
        Finset.sum_congr rfl (fun i hi => if_neg (Finset.ne_of_mem_erase hi)), ← Finset.sum_div, div_eq_one_iff_eq hm1.ne']
      linarith
    · have e : x - w f • p = ∑ i ∈ Finset.univ.erase f, w i • q i := by
        conv_lhs => rw [hsp.2, ← Finset.add_sum_erase _ _ (Finset.mem_univ f)]
        rw [show smallTetrahedron f p q f = p by simp [smallTetrahedron], add_sub_cancel_left]
        refine Finset.sum_congr rfl fun i hi => ?_
        rw [show smallTetrahedron f p q i = q i by simp [smallTetrahedron, Finset.ne_of_mem_erase hi]]
      rw [e, ← Finset.add_sum_erase _ _ (Finset.mem_univ f)]
      dsimp only
      rw [if_pos rfl, zero_smul, zero_add, Finset.smul_sum]
      refine Finset.sum_congr rfl fun i hi => ?_
      rw [if_neg (Finset.ne_of_mem_erase hi), smul_smul]
      congr 1
      field_simp
  have hbc := bc_eq h hy
  refine ⟨solid_hull hcor ((mem_solid_bc h).2 fun i => ?_), ?_, ?_, ?_⟩
  · rw [hbc]
    dsimp only
    split
    · exact le_rfl
    · exact div_nonneg (hb i).le hm1.le
  · rw [smul_smul, mul_one_div_cancel hm1.ne', one_smul, sub_sub_cancel]
    abel
  · rw [hbc]; simp
  · intro i hi
    rw [hbc]
    simp only [if_neg hi]
    exact div_pos (hb i) hm1

/-- Two tetrahedra over visible faces that overlap stand on the same face. -/
theorem seen_disjoint {A : Set (Fin 3 → ℝ)} {p : Fin 3 → ℝ} {q q' : Fin 4 → Fin 3 → ℝ} {f f' : Fin 4} (h : det4 q ≠ 0)
    (h' : det4 q' ≠ 0) (hcor : ∀ i, q i ∈ A) (hcor' : ∀ i, q' i ∈ A) (hs : Sees A p q f) (hs' : Sees A p q' f')
    {x : Fin 3 → ℝ} (hx : x ∈ interior (solid (smallTetrahedron f p q)))
    (hx' : x ∈ interior (solid (smallTetrahedron f' p q'))) :
    (interior (solid q) ∩ interior (solid q')).Nonempty ∧ (q = q' → f = f') := by
  obtain ⟨m, hm0, hm1, y, hyA, ex, hy0, hypos⟩ := foot h hcor hs hx
  obtain ⟨m', hm0', hm1', y', hyA', ex', hy0', hypos'⟩ := foot h' hcor' hs' hx'
  have hle : ∀ {q : Fin 4 → Fin 3 → ℝ} {f : Fin 4} {m m' : ℝ} {y y' : Fin 3 → ℝ}, det4 q ≠ 0 → Sees A p q f → 0 < m' →
      y' ∈ convexHull ℝ A → bc q y f = 0 → (1 - m) • p + m • y = (1 - m') • p + m' • y' → m' ≤ m := by
    intro q f m m' y y' h hs hm' hy' hy0 e
    have h1 := congrArg (fun z => bc q z f) e
    simp only [bc_comb h, hy0, mul_zero, add_zero] at h1
    have h2 := mul_nonneg hm'.le (halfspace h hs.2 y' hy')
    have h3 := hs.1
    nlinarith
  have em : m = m' := le_antisymm (hle h' hs' hm0 hyA hy0' (ex'.symm.trans ex)) (hle h hs hm0' hyA' hy0 (ex.symm.trans ex'))
  subst em
  have ey : y = y' := by
    have := ex.symm.trans ex'
    have := add_left_cancel this
    exact smul_right_injective _ hm0.ne' this
  subst ey
  refine ⟨?_, ?_⟩
  · -- move from the foot towards the opposite corner of `q`
    have hbar := bc_spec h y
    have hu : 0 < bc q' (q f) f' := by
      refine lt_of_le_of_ne (hs'.2 _ (hcor f)) fun e => ?_
      have hz : ∀ i, bc q' (q i) f' = 0 := by
        have hsum := bc_sum h' hbar f'
        rw [hy0'] at hsum
        have hnn : ∀ j ∈ Finset.univ, 0 ≤ bc q y j * bc q' (q j) f' := by
          intro j _
          refine mul_nonneg ?_ (hs'.2 _ (hcor j))
          by_cases hj : j = f
          · rw [hj, hy0]
          · exact (hypos j hj).le
        have := (Finset.sum_eq_zero_iff_of_nonneg hnn).1 hsum.symm
        intro i
        by_cases hi : i = f
        · rw [hi]; exact e.symm
        · exact (mul_eq_zero.1 (this i (Finset.mem_univ i))).resolve_left (hypos i hi).ne'
      have h1 := bc_sum h' (bc_spec h (q' f')) f'
      rw [bc_corner h'] at h1
      simp [hz] at h1
    have h1 : ∀ᶠ r : ℝ in 𝓝[>] 0, (1 - r) • y + r • q f ∈ interior (solid q) := by
      refine move_inside h (fun i => ?_) fun i => ?_
      · by_cases hi : i = f
        · rw [hi, hy0]
        · exact (hypos i hi).le
      · by_cases hi : i = f
        · right; rw [hi, bc_corner h]; simp
        · exact .inl (hypos i hi)
    have h2 : ∀ᶠ r : ℝ in 𝓝[>] 0, (1 - r) • y + r • q f ∈ interior (solid q') := by
      refine move_inside h' (fun i => ?_) fun i => ?_
      · by_cases hi : i = f'
        · rw [hi, hy0']
        · exact (hypos' i hi).le
      · by_cases hi : i = f'
        · right; rw [hi]; exact hu
        · exact .inl (hypos' i hi)
    obtain ⟨r, hr⟩ := (h1.and h2).exists
    exact ⟨_, hr⟩
  · intro e
    subst e
    by_contra hne
    exact (hypos f' (Ne.symm hne)).ne' hy0'

/-- Adding one point. -/
theorem tiling_insert {A : Set (Fin 3 → ℝ)} (hfin : A.Finite) {T : List (Fin 4 → Fin 3 → ℝ)} (hT : Tiling A T)
    (hne : A.Nonempty) (p : Fin 3 → ℝ) : ∃ T', Tiling (insert p A) T' := by
  classical
  by_cases hp : p ∈ convexHull ℝ A
  · refine ⟨T, fun q hq i => Set.mem_insert_of_mem _ (hT.corner q hq i), hT.det, fun x hx => hT.cover x ?_, hT.disj⟩
    refine convexHull_min ?_ (convex_convexHull ℝ A) hx
    rintro a (rfl | ha)
    · exact hp
    · exact subset_convexHull ℝ A ha
  refine ⟨T ++ T.flatMap (seenFrom A p), ?_, ?_, ?_, ?_⟩
  · intro q hq
    rcases List.mem_append.1 hq with hq | hq
    · exact fun i => Set.mem_insert_of_mem _ (hT.corner q hq i)
    · obtain ⟨u, hu, hq⟩ := List.mem_flatMap.1 hq
      obtain ⟨f, -, rfl⟩ := mem_seenFrom.1 hq
      exact smallTet_mem (hT.corner u hu)
  · intro q hq
    rcases List.mem_append.1 hq with hq | hq
    · exact hT.det q hq
    · obtain ⟨u, hu, hq⟩ := List.mem_flatMap.1 hq
      obtain ⟨f, hs, rfl⟩ := mem_seenFrom.1 hq
      exact smallTet_det (hT.det u hu) hs.1.ne
  · intro x hx
    by_contra hcon
    push Not at hcon
    let N : Set (Fin 3 → ℝ) := ⋃ q ∈ {q | q ∈ T ++ T.flatMap (seenFrom A p)}, solid q
    have hN : IsClosed N := by
      refine Set.Finite.isClosed_biUnion (List.finite_toSet _) fun q _ => ?_
      exact (Set.finite_range q).isClosed_convexHull (𝕜 := ℝ)
    have hxN : x ∈ Nᶜ := by
      intro hm
      obtain ⟨q, hq, hxq⟩ := Set.mem_iUnion₂.1 hm
      exact hcon q hq hxq
    have hcl : x ∈ closure (interior (convexHull ℝ (insert p A))) := by
      have hint : (interior (convexHull ℝ (insert p A))).Nonempty := by
        obtain ⟨a, ha⟩ := hne
        obtain ⟨q, hq, -⟩ := hT.cover a (subset_convexHull ℝ A ha)
        refine Set.Nonempty.mono (interior_mono ((solid_hull (hT.corner q hq)).trans
          (convexHull_mono (Set.subset_insert p A)))) ⟨∑ i, (1 / 4 : ℝ) • q i, ?_⟩
        rw [interior_bc (hT.det q hq), bc_eq (hT.det q hq) (w := fun _ => 1 / 4) ⟨by simp, rfl⟩]
        intro i; norm_num
      rw [(convex_convexHull ℝ _).closure_interior_eq_closure_of_nonempty_interior hint]
      exact subset_closure hx
    obtain ⟨x1, hx1, hx1'⟩ := mem_closure_iff.1 hcl Nᶜ hN.isOpen_compl hxN
    obtain ⟨x2, ⟨hx2, hx2'⟩, hgen⟩ := generic_exists hfin p (hN.isOpen_compl.inter isOpen_interior) ⟨x1, hx1, hx1'⟩
    have hnotA : x2 ∉ convexHull ℝ A := by
      intro hm
      obtain ⟨q, hq, hxq⟩ := hT.cover x2 hm
      exact hx2 (Set.mem_iUnion₂.2 ⟨q, List.mem_append_left _ hq, hxq⟩)
    obtain ⟨q, hq, f, hs, hxq⟩ := generic_cover hfin hT hp (interior_subset hx2') hnotA hne hgen
    refine hx2 (Set.mem_iUnion₂.2 ⟨_, List.mem_append_right _ (List.mem_flatMap.2 ⟨q, hq, mem_seenFrom.2 ⟨f, hs, rfl⟩⟩), hxq⟩)
  · rw [List.pairwise_append]
    refine ⟨hT.disj, ?_, ?_⟩
    · rw [List.pairwise_flatMap]
      constructor
      · intro q hq
        unfold seenFrom
        rw [List.pairwise_map]
        have hnd : ((List.finRange 4).filter fun f => decide (Sees A p q f)).Nodup := (List.nodup_finRange 4).filter _
        refine List.Pairwise.imp_of_mem ?_ hnd
        intro f f' hf hf' hne'
        simp only [List.mem_filter, decide_eq_true_eq] at hf hf'
        rw [Set.eq_empty_iff_forall_notMem]
        rintro x ⟨hx, hx'⟩
        exact hne' ((seen_disjoint (hT.det q hq) (hT.det q hq) (hT.corner q hq) (hT.corner q hq) hf.2 hf'.2 hx hx').2 rfl)
      · refine List.Pairwise.imp_of_mem ?_ hT.disj
        intro q q' hq hq' hd u hu u' hu'
        obtain ⟨f, hs, rfl⟩ := mem_seenFrom.1 hu
        obtain ⟨f', hs', rfl⟩ := mem_seenFrom.1 hu'
        rw [Set.eq_empty_iff_forall_notMem]
        rintro x ⟨hx, hx'⟩
        have := (seen_disjoint (hT.det q hq) (hT.det q' hq') (hT.corner q hq) (hT.corner q' hq') hs hs' hx hx').1
        rw [hd] at this
        simp at this
    · intro t ht u hu
      obtain ⟨q, hq, hu⟩ := List.mem_flatMap.1 hu
      obtain ⟨f, hs, rfl⟩ := mem_seenFrom.1 hu
      rw [Set.eq_empty_iff_forall_notMem]
      rintro x ⟨hx, hx'⟩
      have h1 := halfspace (hT.det q hq) hs.2 x (solid_hull (hT.corner t ht) (interior_subset hx))
      have h2 := (interior_bc (smallTet_det (hT.det q hq) hs.1.ne)).1 hx' f
      rw [smallTet_bc (hT.det q hq) hs.1.ne, if_pos rfl] at h2
      have := div_nonpos_of_nonneg_of_nonpos h1 hs.1.le
      linarith

/-- Every finite set of points with four points not in one plane has a tiling. -/
theorem tiling_exists {q : Fin 4 → Fin 3 → ℝ} (hq : det4 q ≠ 0) (l : List (Fin 3 → ℝ)) :
    ∃ T, Tiling ({x | x ∈ l} ∪ Set.range q) T := by
  induction l with
  | nil =>
    refine ⟨[q], ?_, ?_, ?_, List.pairwise_singleton _ _⟩
    · simp
    · simpa using hq
    · intro x hx; simpa [solid] using hx
  | cons a l ih =>
    obtain ⟨T, hT⟩ := ih
    obtain ⟨T', hT'⟩ := tiling_insert ((List.finite_toSet l).union (Set.finite_range q)) hT ⟨q 0, .inr ⟨0, rfl⟩⟩ a
    refine ⟨T', ?_⟩
    convert hT' using 1
    ext x
    simp [or_assoc]

/-- There is a library behaviour that fills the hull without overlaps. -/
theorem exists_tiles : ∃ delaunay, TilesHull delaunay := by
  classical
  have key : ∀ pts : List (Fin 3 → ℝ), ¬ InPlane pts → ∃ l : List (Fin 4 → Nat), ∃ h : ∀ i ∈ l, ∀ k, i k < pts.length,
      (∀ x ∈ convexHull ℝ {y | y ∈ pts}, ∃ i, ∃ hi : i ∈ l,
        tetVol (fun k => pts[i k]'(h i hi k)) ≠ 0 ∧ x ∈ solid (fun k => pts[i k]'(h i hi k))) ∧
      (l.attach.map fun i k => pts[i.1 k]'(h i.1 i.2 k)).Pairwise
        fun a b => interior (solid a) ∩ interior (solid b) = ∅ := by
    intro pts hn
    obtain ⟨x0, hx0⟩ : ∃ x, x ∈ pts := by
      refine List.exists_mem_of_ne_nil pts fun e => hn ?_
      subst e; exact inPlane_few (by simp)
    obtain ⟨q, hq, hv, -⟩ := hull_simplex hn (subset_convexHull ℝ _ hx0)
    have hd : det4 q ≠ 0 := by
      intro h0; apply hv; rw [tetVol_det4, h0]; simp
    obtain ⟨T, hT⟩ := tiling_exists hd pts
    have hA : ({x | x ∈ pts} ∪ Set.range q : Set (Fin 3 → ℝ)) = {x | x ∈ pts} := by
      refine Set.union_eq_self_of_subset_right ?_
      rintro _ ⟨k, rfl⟩; exact hq k
    rw [hA] at hT
    have hidx : ∀ t : Fin 4 → Fin 3 → ℝ, ∃ i : Fin 4 → Nat, (∀ k, t k ∈ pts) → ∀ k, ∃ h : i k < pts.length, pts[i k] = t k := by
      intro t
      by_cases ht : ∀ k, t k ∈ pts
      · choose i hi using fun k => List.get_of_mem (ht k)
        exact ⟨fun k => i k, fun _ k => ⟨(i k).2, hi k⟩⟩
      · exact ⟨fun _ => 0, fun h => absurd h ht⟩
    choose idx hidx using hidx
    have hlt : ∀ i ∈ T.map idx, ∀ k, i k < pts.length := by
      intro i hi k
      obtain ⟨t, ht, rfl⟩ := List.mem_map.1 hi
      exact (hidx t (hT.corner t ht) k).1
    have htet : ∀ t (ht : t ∈ T), (fun k => pts[idx t k]'(hlt _ (List.mem_map.2 ⟨t, ht, rfl⟩) k)) = t := by
      intro t ht
      funext k
      exact (hidx t (hT.corner t ht) k).2
    refine ⟨T.map idx, hlt, ?_, ?_⟩
    · intro x hx
      obtain ⟨t, ht, hxt⟩ := hT.cover x hx
      refine ⟨idx t, List.mem_map.2 ⟨t, ht, rfl⟩, ?_, ?_⟩
      · rw [htet t ht, tetVol_det4]
        have := hT.det t ht
        positivity
      · rw [htet t ht]; exact hxt
    · have e : ((T.map idx).attach.map fun i k => pts[i.1 k]'(hlt i.1 i.2 k)) = T := by
        refine List.ext_getElem (by simp) ?_
        intro n h1 h2
        simp only [List.getElem_map, List.getElem_attach]
        exact htet _ (List.getElem_mem _)
      rw [e]
      exact hT.disj
  choose l hl h1 h2 using key
  refine ⟨fun pts => if hn : ¬ InPlane pts then some (l pts hn) else none, fun pts hn => ?_, ?_⟩
  · refine ⟨l pts hn, dif_pos hn, hl pts hn, h1 pts hn⟩
  · intro pts l' he h
    by_cases hn : ¬ InPlane pts
    · simp only [dif_pos hn, Option.some.injEq] at he
      subst he
      exact h2 pts hn
    · simp only [dif_neg hn] at he
      cases he

end PyQC
