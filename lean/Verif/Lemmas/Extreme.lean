import Verif.Lemmas.Position
import Verif.Spec.Resolve
import Mathlib.Analysis.Convex.KreinMilman
import Mathlib.LinearAlgebra.Dimension.Constructions
/-!
# Corners of the common part of two tetrahedra
-/
namespace PyQC
open Matrix Topology

variable {S T : Fin 4 → Fin 3 → ℝ}

/-- Total weight and weighted sum of corners. -/
noncomputable def baryMap (q : Fin 4 → Fin 3 → ℝ) : (Fin 4 → ℝ) →ₗ[ℝ] ℝ × (Fin 3 → ℝ) where
  toFun a := (∑ i, a i, ∑ i, a i • q i)
  map_add' a b := by
    ext1
    · simp [Finset.sum_add_distrib]
    · simp [Finset.sum_add_distrib, add_smul]
  map_smul' k a := by
    ext1
    · simp [Finset.mul_sum]
    · simp [Finset.smul_sum, smul_smul]

theorem baryMap_injective {q : Fin 4 → Fin 3 → ℝ} (h : det4 q ≠ 0) : Function.Injective (baryMap q) := by
  rw [← LinearMap.ker_eq_bot, LinearMap.ker_eq_bot']
  intro a ha
  have h1 : ∑ i, a i = 0 := congrArg Prod.fst ha
  have h2 : ∑ i, a i • q i = 0 := congrArg Prod.snd ha
  have hb := exists_bary h (0 : Fin 3 → ℝ)
  have hb' : IsBary q ((fun i => det4 (Ico.smallTetrahedron i 0 q) / det4 q) + a) 0 := by
    constructor
    · rw [← add_zero (1 : ℝ), ← hb.1, ← h1, ← Finset.sum_add_distrib]; rfl
    · simp only [Pi.add_apply, add_smul, Finset.sum_add_distrib]
      rw [h2, add_zero]
      exact hb.2
  have := bary_unique h hb hb'
  funext i
  have := congrFun this i
  simp only [Pi.add_apply] at this
  simpa using this

/-- The coordinates of a direction: weights of total 0 whose weighted sum of corners is the direction. -/
noncomputable def dirCoord {q : Fin 4 → Fin 3 → ℝ} (h : det4 q ≠ 0) : (Fin 3 → ℝ) →ₗ[ℝ] (Fin 4 → ℝ) :=
  (LinearMap.linearEquivOfInjective (baryMap q) (baryMap_injective h) (by simp)).symm.toLinearMap ∘ₗ
    LinearMap.inr ℝ ℝ (Fin 3 → ℝ)

theorem dirCoord_spec {q : Fin 4 → Fin 3 → ℝ} (h : det4 q ≠ 0) (d : Fin 3 → ℝ) :
    ∑ i, dirCoord h d i = 0 ∧ ∑ i, dirCoord h d i • q i = d := by
  have : baryMap q (dirCoord h d) = (0, d) := by
    unfold dirCoord
    simp only [LinearMap.comp_apply, LinearMap.inr_apply]
    exact LinearEquiv.apply_symm_apply (LinearMap.linearEquivOfInjective (baryMap q) (baryMap_injective h) (by simp)) _
  exact ⟨congrArg Prod.fst this, congrArg Prod.snd this⟩

theorem dirCoord_unique {q : Fin 4 → Fin 3 → ℝ} (h : det4 q ≠ 0) {d : Fin 3 → ℝ} {a : Fin 4 → ℝ} (h1 : ∑ i, a i = 0)
    (h2 : ∑ i, a i • q i = d) : dirCoord h d = a := by
  apply baryMap_injective h
  obtain ⟨e1, e2⟩ := dirCoord_spec h d
  exact Prod.ext (e1.trans h1.symm) (e2.trans h2.symm)

/-- From a point of the solid one can move a little along a direction that is parallel to all faces containing it. -/
theorem move_in_solid {q : Fin 4 → Fin 3 → ℝ} (h : det4 q ≠ 0) {w : Fin 4 → ℝ} {x d : Fin 3 → ℝ} (hw : IsBary q w x)
    (h0 : ∀ i, 0 ≤ w i) (hd : ∀ i, w i = 0 → dirCoord h d i = 0) : ∀ᶠ r : ℝ in 𝓝 0, x + r • d ∈ solid q := by
  have key : ∀ i, ∀ᶠ r : ℝ in 𝓝 0, 0 ≤ w i + r * dirCoord h d i := by
    intro i
    by_cases hi : w i = 0
    · refine Filter.Eventually.of_forall fun r => ?_
      rw [hd i hi, hi]; simp
    · have hpos : 0 < w i := lt_of_le_of_ne (h0 i) (Ne.symm hi)
      have hc : Filter.Tendsto (fun r : ℝ => w i + r * dirCoord h d i) (𝓝 0) (𝓝 (w i + 0 * dirCoord h d i)) :=
        tendsto_const_nhds.add (Filter.tendsto_id.mul tendsto_const_nhds)
      rw [zero_mul, add_zero] at hc
      exact (hc.eventually (lt_mem_nhds hpos)).mono fun r hr => le_of_lt hr
  refine (Filter.eventually_all.2 key).mono fun r hr => ?_
  rw [mem_solid_iff]
  obtain ⟨e1, e2⟩ := dirCoord_spec h d
  refine ⟨fun i => w i + r * dirCoord h d i, ⟨?_, ?_⟩, hr⟩
  · rw [Finset.sum_add_distrib, hw.1, ← Finset.mul_sum, e1]; ring
  · simp only [add_smul, Finset.sum_add_distrib, mul_smul]
    rw [← Finset.smul_sum, e2, ← hw.2]

/-- An extreme point cannot be moved both ways. -/
theorem extreme_no_move {P : Set (Fin 3 → ℝ)} {x d : Fin 3 → ℝ} (hx : x ∈ P.extremePoints ℝ)
    (h : ∀ᶠ r : ℝ in 𝓝 0, x + r • d ∈ P) : d = 0 := by
  obtain ⟨ε, hε, hb⟩ := Metric.eventually_nhds_iff.1 h
  have h1 : x + (ε / 2) • d ∈ P := hb (by rw [dist_zero_right, Real.norm_eq_abs, abs_of_pos (by linarith)]; linarith)
  have h2 : x + (-(ε / 2)) • d ∈ P := hb (by
    rw [dist_zero_right, Real.norm_eq_abs, abs_neg, abs_of_pos (by linarith)]; linarith)
  have h3 := (mem_extremePoints.1 hx).2 _ h1 _ h2 ⟨1 / 2, 1 / 2, by norm_num, by norm_num, by norm_num, by
    rw [smul_add, smul_add, smul_smul, smul_smul, add_add_add_comm, ← add_smul, ← add_smul]; norm_num⟩
  have h4 : (ε / 2) • d = 0 := by
    have := h3.1
    simpa using this
  exact (smul_eq_zero.1 h4).resolve_left (by linarith)

/-- An extreme point of the common part: a direction parallel to all faces through it, of either tetrahedron, is zero. -/
theorem extreme_common {x : Fin 3 → ℝ} (hS : det4 S ≠ 0) (hT : det4 T ≠ 0)
    (hx : x ∈ (solid S ∩ solid T).extremePoints ℝ) {w v : Fin 4 → ℝ} (hw : IsBary S w x) (hv : IsBary T v x)
    (hw0 : ∀ i, 0 ≤ w i) (hv0 : ∀ i, 0 ≤ v i) {d : Fin 3 → ℝ} (h1 : ∀ i, w i = 0 → dirCoord hS d i = 0)
    (h2 : ∀ i, v i = 0 → dirCoord hT d i = 0) : d = 0 :=
  extreme_no_move hx ((move_in_solid hS hw hw0 h1).and (move_in_solid hT hv hv0 h2))

/-- Two linear conditions leave a direction. -/
theorem exists_dir (f g : (Fin 3 → ℝ) →ₗ[ℝ] ℝ) : ∃ d, d ≠ 0 ∧ f d = 0 ∧ g d = 0 := by
  have : LinearMap.ker (f.prod g) ≠ ⊥ := LinearMap.ker_ne_bot_of_finrank_lt (by simp)
  obtain ⟨d, hd, h0⟩ := Submodule.exists_mem_ne_zero_of_ne_bot this
  rw [LinearMap.mem_ker] at hd
  exact ⟨d, h0, congrArg Prod.fst hd, congrArg Prod.snd hd⟩

/-- The three other corners in increasing order. -/
def otherThree : Fin 4 → Fin 4 × Fin 4 × Fin 4 := ![(1, 2, 3), (0, 2, 3), (0, 1, 3), (0, 1, 2)]

theorem otherThree_lt (k : Fin 4) : (otherThree k).1 < (otherThree k).2.1 ∧ (otherThree k).2.1 < (otherThree k).2.2 := by
  revert k; decide

/-- A direction that leaves the plane of the face opposite to corner `k` is transversal to that face. -/
theorem face_transversal {q : Fin 4 → Fin 3 → ℝ} (h : det4 q ≠ 0) {d : Fin 3 → ℝ} {k : Fin 4} (hk : dirCoord h d k ≠ 0) :
    Matrix.det (Matrix.of ![d, q (otherThree k).2.2 - q (otherThree k).1, q (otherThree k).2.1 - q (otherThree k).1]) ≠ 0 := by
  obtain ⟨e1, e2⟩ := dirCoord_spec h d
  set a := dirCoord h d
  have key : Matrix.det (Matrix.of ![d, q (otherThree k).2.2 - q (otherThree k).1, q (otherThree k).2.1 - q (otherThree k).1]) =
      a k * det4 q ∨ Matrix.det (Matrix.of ![d, q (otherThree k).2.2 - q (otherThree k).1, q (otherThree k).2.1 - q (otherThree k).1]) =
      -(a k * det4 q) := by
    have e0 : a 0 = - a 1 - a 2 - a 3 := by rw [Fin.sum_univ_four] at e1; linarith
    have hd : ∀ j, d j = a 0 * q 0 j + a 1 * q 1 j + a 2 * q 2 j + a 3 * q 3 j := by
      intro j
      rw [← e2]
      simp [Fin.sum_univ_four]
    rw [Matrix.det_fin_three, det4_eq]
    clear_value a
    fin_cases k
    · left
      simp [otherThree, hd, e0]
      ring
    · right
      simp [otherThree, hd, e0]
      ring
    · left
      simp [otherThree, hd, e0]
      ring
    · right
      simp [otherThree, hd, e0]
      ring
  rcases key with e | e <;> rw [e]
  · exact mul_ne_zero hk h
  · exact neg_ne_zero.2 (mul_ne_zero hk h)

theorem zero_pattern (z : Fin 4 → Bool) : (∀ i, z i = true) ∨ (∃ i, ∀ j, j ≠ i → z j = true) ∨
    (∃ i j, i < j ∧ z i = false ∧ z j = false ∧ ∀ k, k ≠ i → k ≠ j → z k = true) ∨ (∃ k, ∀ i, z i = true → i = k) := by
  revert z; decide

open Classical in
theorem support_cases {w : Fin 4 → ℝ} (h1 : ∑ i, w i = 1) : (∃ i, ∀ j, j ≠ i → w j = 0) ∨
    (∃ i j, i < j ∧ w i ≠ 0 ∧ w j ≠ 0 ∧ ∀ k, k ≠ i → k ≠ j → w k = 0) ∨ (∃ k, ∀ i, w i = 0 → i = k) := by
  rcases zero_pattern (fun i => decide (w i = 0)) with h | h | h | h
  · simp only [decide_eq_true_eq] at h
    simp [h] at h1
  · simp only [decide_eq_true_eq] at h
    exact Or.inl h
  · simp only [decide_eq_true_eq, decide_eq_false_iff_not] at h
    exact Or.inr (Or.inl h)
  · simp only [decide_eq_true_eq] at h
    exact Or.inr (Or.inr h)

theorem corner_case {q : Fin 4 → Fin 3 → ℝ} {w : Fin 4 → ℝ} {x : Fin 3 → ℝ} (hw : IsBary q w x) {i : Fin 4}
    (h : ∀ j, j ≠ i → w j = 0) : x = q i := by
  have h1 : w i = 1 := by rw [← hw.1]; exact (Finset.sum_eq_single i (fun j _ hj => h j hj) (by simp)).symm
  rw [hw.2, Finset.sum_eq_single i (fun j _ hj => by rw [h j hj, zero_smul]) (by simp), h1, one_smul]

theorem face_form {x : Fin 3 → ℝ} {v : Fin 4 → ℝ} (hv : IsBary T v x) {k : Fin 4} (hk : v k = 0) :
    x = T (otherThree k).1 + v (otherThree k).2.1 • (T (otherThree k).2.1 - T (otherThree k).1) +
      v (otherThree k).2.2 • (T (otherThree k).2.2 - T (otherThree k).1) ∧
      v (otherThree k).1 + v (otherThree k).2.1 + v (otherThree k).2.2 = 1 := by
  have e1 := hv.1
  have e2 := hv.2
  rw [Fin.sum_univ_four] at e1 e2
  fin_cases k
  · simp only [otherThree] at *
    simp only [Fin.zero_eta, Matrix.cons_val_zero] at *
    refine ⟨?_, by rw [hk] at e1; linarith⟩
    rw [e2, show v 1 = 1 - v 2 - v 3 by rw [hk] at e1; linarith, hk]
    module
  · simp only [otherThree] at *
    simp only [Fin.mk_one, Matrix.cons_val_one, Matrix.cons_val_zero] at *
    refine ⟨?_, by rw [hk] at e1; linarith⟩
    rw [e2, show v 0 = 1 - v 2 - v 3 by rw [hk] at e1; linarith, hk]
    module
  · simp only [otherThree] at *
    simp only [Fin.reduceFinMk, Matrix.cons_val] at *
    refine ⟨?_, by rw [hk] at e1; linarith⟩
    rw [e2, show v 0 = 1 - v 1 - v 3 by rw [hk] at e1; linarith, hk]
    module
  · simp only [otherThree] at *
    simp only [Fin.reduceFinMk, Matrix.cons_val] at *
    refine ⟨?_, by rw [hk] at e1; linarith⟩
    rw [e2, show v 0 = 1 - v 1 - v 2 by rw [hk] at e1; linarith, hk]
    module

theorem edge_case {x : Fin 3 → ℝ} (hS : det4 S ≠ 0) (hT : det4 T ≠ 0)
    (hx : x ∈ (solid S ∩ solid T).extremePoints ℝ) {w v : Fin 4 → ℝ} (hw : IsBary S w x) (hv : IsBary T v x)
    (hw0 : ∀ i, 0 ≤ w i) (hv0 : ∀ i, 0 ≤ v i) {i j : Fin 4} (hij : i < j) (hi : w i ≠ 0) (hj : w j ≠ 0)
    (h : ∀ k, k ≠ i → k ≠ j → w k = 0) : EdgeFace S T x := by
  have hne : i ≠ j := ne_of_lt hij
  have hd : dirCoord hS (S j - S i) = Pi.single j 1 - Pi.single i 1 := by
    apply dirCoord_unique
    · simp
    · simp [sub_smul, Finset.sum_sub_distrib, Pi.single_apply, ite_smul]
  have hd0 : S j - S i ≠ 0 := by
    intro h0
    rw [h0, map_zero] at hd
    have := congrFun hd j
    simp [hne.symm] at this
  have hex : ∃ k, v k = 0 ∧ dirCoord hT (S j - S i) k ≠ 0 := by
    by_contra hcon
    push Not at hcon
    refine hd0 (extreme_common hS hT hx hw hv hw0 hv0 ?_ hcon)
    intro k hk
    rw [hd]
    have h1 : k ≠ i := fun e => hi (e ▸ hk)
    have h2 : k ≠ j := fun e => hj (e ▸ hk)
    simp [h1, h2]
  obtain ⟨k, hk, hdk⟩ := hex
  have hsum : w i + w j = 1 := by
    rw [← hw.1, ← Finset.sum_pair hne]
    refine Finset.sum_subset (Finset.subset_univ _) fun a _ ha => h a ?_ ?_
    · intro e; simp [e] at ha
    · intro e; simp [e] at ha
  have hxs : x = S i + w j • (S j - S i) := by
    have : x = w i • S i + w j • S j := by
      rw [hw.2, ← Finset.sum_pair (f := fun i => w i • S i) hne]
      refine (Finset.sum_subset (Finset.subset_univ _) fun a _ ha => ?_).symm
      rw [h a, zero_smul]
      · intro e; simp [e] at ha
      · intro e; simp [e] at ha
    rw [this, show w i = 1 - w j by linarith]
    module
  have hxt := face_form hv hk
  refine ⟨i, j, (otherThree k).1, (otherThree k).2.1, (otherThree k).2.2, hij, (otherThree_lt k).1, (otherThree_lt k).2,
    face_transversal hT hdk, w j, v (otherThree k).2.1, v (otherThree k).2.2, ?_, hxs, hw0 j, ?_, hv0 _, hv0 _, ?_⟩
  · rw [Meets, ← hxs, ← hxt.1]
  · have := hw0 i; linarith
  · have := hv0 (otherThree k).1; linarith [hxt.2]

/-- Every extreme point of the common part of two tetrahedra is a corner of one of them or the crossing of an edge
of one with a face of the other. -/
theorem extreme_classify {x : Fin 3 → ℝ} (hS : det4 S ≠ 0) (hT : det4 T ≠ 0)
    (hx : x ∈ (solid S ∩ solid T).extremePoints ℝ) :
    (∃ i, x = S i ∧ x ∈ solid T) ∨ (∃ i, x = T i ∧ x ∈ solid S) ∨ EdgeFace S T x ∨ EdgeFace T S x := by
  have hm := (mem_extremePoints.1 hx).1
  obtain ⟨w, hw, hw0⟩ := mem_solid_iff.1 hm.1
  obtain ⟨v, hv, hv0⟩ := mem_solid_iff.1 hm.2
  have hx' : x ∈ (solid T ∩ solid S).extremePoints ℝ := by rw [Set.inter_comm]; exact hx
  rcases support_cases hw.1 with ⟨i, h⟩ | ⟨i, j, hij, hi, hj, h⟩ | ⟨k, h⟩
  · exact Or.inl ⟨i, corner_case hw h, hm.2⟩
  · exact Or.inr (Or.inr (Or.inl (edge_case hS hT hx hw hv hw0 hv0 hij hi hj h)))
  · rcases support_cases hv.1 with ⟨i, h'⟩ | ⟨i, j, hij, hi, hj, h'⟩ | ⟨k', h'⟩
    · exact Or.inr (Or.inl ⟨i, corner_case hv h', hm.1⟩)
    · exact Or.inr (Or.inr (Or.inr (edge_case hT hS hx' hv hw hv0 hw0 hij hi hj h')))
    · obtain ⟨d, hd0, h1, h2⟩ := exists_dir (LinearMap.proj k ∘ₗ dirCoord hS) (LinearMap.proj k' ∘ₗ dirCoord hT)
      exact absurd (extreme_common hS hT hx hw hv hw0 hv0 (d := d) (fun i hi => by rw [h i hi]; exact h1)
        (fun i hi => by rw [h' i hi]; exact h2)) hd0

theorem solid_compact {m : Nat} (q : Fin m → Fin 3 → ℝ) : IsCompact (solid q) := by
  unfold solid
  exact (Set.finite_range q).isCompact_convexHull (𝕜 := ℝ)

/-- A finite set containing every extreme point of the common part spans it. -/
theorem common_subset_hull {m n : Nat} {S : Fin m → Fin 3 → ℝ} {T : Fin n → Fin 3 → ℝ} {P : Set (Fin 3 → ℝ)} (hP : P.Finite)
    (h : (solid S ∩ solid T).extremePoints ℝ ⊆ P) : solid S ∩ solid T ⊆ convexHull ℝ P := by
  have hc : IsCompact (solid S ∩ solid T) := (solid_compact S).inter (solid_compact T)
  have hconv : Convex ℝ (solid S ∩ solid T) := (solid_convex S).inter (solid_convex T)
  rw [← closure_convexHull_extremePoints hc hconv]
  exact closure_minimal (convexHull_mono h) (hP.isClosed_convexHull (𝕜 := ℝ))

/-- A segment that leaves a tetrahedron crosses one of its faces. -/
theorem exit_face (hT : det4 T ≠ 0) {m : Nat} {S : Fin m → Fin 3 → ℝ} {i j : Fin m}
    (h : (S i ∈ solid T ∧ S j ∉ solid T) ∨ (S j ∈ solid T ∧ S i ∉ solid T)) :
    ∃ k l m : Fin 4, k < l ∧ l < m ∧ Matrix.det (Matrix.of ![S j - S i, T m - T k, T l - T k]) ≠ 0 ∧
      ∃ t u v : ℝ, Meets (S i) (S j) (T k) (T l) (T m) t u v ∧ 0 ≤ t ∧ t ≤ 1 ∧ 0 ≤ u ∧ 0 ≤ v ∧ u + v ≤ 1 := by
  obtain ⟨w, hw⟩ : ∃ w, IsBary T w (S i) := ⟨_, exists_bary hT _⟩
  obtain ⟨v, hv⟩ : ∃ v, IsBary T v (S j) := ⟨_, exists_bary hT _⟩
  have hmem : ∀ {x u}, IsBary T u x → (x ∈ solid T ↔ ∀ k, 0 ≤ u k) := by
    intro x u hu
    rw [mem_solid_iff]
    exact ⟨fun ⟨u', h1, h2⟩ => by rw [bary_unique hT hu h1]; exact h2, fun h => ⟨u, hu, h⟩⟩
  have hbary : ∀ r : ℝ, IsBary T (fun k => w k + r * (v k - w k)) (S i + r • (S j - S i)) := by
    intro r
    constructor
    · rw [Finset.sum_add_distrib, ← Finset.mul_sum, Finset.sum_sub_distrib, hw.1, hv.1]; ring
    · rw [hw.2, hv.2, ← Finset.sum_sub_distrib, Finset.smul_sum, ← Finset.sum_add_distrib]
      exact Finset.sum_congr rfl fun k _ => by module
  have hdir : dirCoord hT (S j - S i) = v - w := by
    apply dirCoord_unique
    · simp only [Pi.sub_apply]; rw [Finset.sum_sub_distrib, hw.1, hv.1]; ring
    · simp only [Pi.sub_apply, sub_smul]; rw [Finset.sum_sub_distrib, ← hw.2, ← hv.2]
  -- a face crossed within the edge, all coordinates there being non-negative
  obtain ⟨k, r, h0, h1, hk, hne, hall⟩ : ∃ k r, 0 ≤ r ∧ r ≤ 1 ∧ w k + r * (v k - w k) = 0 ∧ v k - w k ≠ 0 ∧
      ∀ m, 0 ≤ w m + r * (v m - w m) := by
    rw [hmem hw, hmem hv] at h
    rcases h with ⟨ha, hb⟩ | ⟨ha, hb⟩
    · push Not at hb
      have hne : (Finset.univ.filter fun k => v k < 0).Nonempty := by
        obtain ⟨k, hk⟩ := hb; exact ⟨k, by simpa using hk⟩
      obtain ⟨k, hk, hmin⟩ := Finset.exists_min_image _ (fun k => w k / (w k - v k)) hne
      simp only [Finset.mem_filter, Finset.mem_univ, true_and] at hk hmin
      have hd : 0 < w k - v k := by have := ha k; linarith
      refine ⟨k, w k / (w k - v k), div_nonneg (ha k) hd.le, (div_le_one hd).2 (by linarith), ?_, by linarith, fun m => ?_⟩
      · field_simp; ring
      · by_cases hm : v m < 0
        · have hdm : 0 < w m - v m := by have := ha m; linarith
          have := (le_div_iff₀ hdm).1 (hmin m hm)
          nlinarith
        · have h2 : w k / (w k - v k) ≤ 1 := (div_le_one hd).2 (by linarith)
          have h3 : 0 ≤ w k / (w k - v k) := div_nonneg (ha k) hd.le
          nlinarith [ha m, mul_nonneg (sub_nonneg.2 h2) (ha m), mul_nonneg h3 (not_lt.1 hm)]
    · push Not at hb
      have hne : (Finset.univ.filter fun k => w k < 0).Nonempty := by
        obtain ⟨k, hk⟩ := hb; exact ⟨k, by simpa using hk⟩
      obtain ⟨k, hk, hmin⟩ := Finset.exists_min_image _ (fun k => v k / (v k - w k)) hne
      simp only [Finset.mem_filter, Finset.mem_univ, true_and] at hk hmin
      have hd : 0 < v k - w k := by have := ha k; linarith
      have h3 : 0 ≤ v k / (v k - w k) := div_nonneg (ha k) hd.le
      have h2 : v k / (v k - w k) ≤ 1 := (div_le_one hd).2 (by linarith)
      refine ⟨k, 1 - v k / (v k - w k), by linarith, by linarith, ?_, by linarith, fun m => ?_⟩
      · field_simp; ring
      · by_cases hm : w m < 0
        · have hdm : 0 < v m - w m := by have := ha m; linarith
          have := (le_div_iff₀ hdm).1 (hmin m hm)
          nlinarith
        · nlinarith [ha m, mul_nonneg (sub_nonneg.2 h2) (ha m), mul_nonneg h3 (not_lt.1 hm)]
  have hx := face_form (hbary r) hk
  refine ⟨(otherThree k).1, (otherThree k).2.1, (otherThree k).2.2, (otherThree_lt k).1, (otherThree_lt k).2,
    face_transversal hT (by rw [hdir]; exact hne), r, _, _, hx.1, h0, h1, hall _, hall _, ?_⟩
  have := hall (otherThree k).1
  linarith [hx.2]

/-- An edge that leaves a tetrahedron crosses one of its faces. -/
theorem exit_edge (hT : det4 T ≠ 0) {i j : Fin 4} (hij : i < j) (h : (S i ∈ solid T ∧ S j ∉ solid T) ∨ (S j ∈ solid T ∧ S i ∉ solid T)) :
    ∃ x, EdgeFace S T x := by
  obtain ⟨k, l, m, h1, h2, hd, t, u, v, hm, h0⟩ := exit_face hT h
  exact ⟨_, i, j, k, l, m, hij, h1, h2, hd, t, u, v, hm, rfl, h0⟩

end PyQC
