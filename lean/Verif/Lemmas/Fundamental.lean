import Verif.Lemmas.Chamber
import Verif.Spec.Planar
import Verif.Lemmas.PlanarArea
import Verif.Lemmas.PlanarTri
import Mathlib.MeasureTheory.Measure.Lebesgue.EqHaar
import Mathlib.LinearAlgebra.Matrix.ToLin
/-!
# Fundamental domains: images of the cone do not overlap and cover space
-/
namespace PyQC
open Matrix MeasureTheory Pointwise

/-! ## Finite groups of orthogonal matrices with a fundamental cone, in any dimension -/

/-- Rotation about a centre. -/
def spin {n : Nat} (R : Matrix (Fin n) (Fin n) ℝ) (c x : Fin n → ℝ) : Fin n → ℝ := R.mulVec (x - c) + c

/-- The cone on the positive side of the walls, moved to a centre. -/
def coneAt {n : Nat} (α : Fin 3 → Fin n → ℝ) (c : Fin n → ℝ) : Set (Fin n → ℝ) := {x | ∀ i, 0 ≤ α i ⬝ᵥ (x - c)}

/-- The images of the cone under the matrices cover space and do not overlap. -/
structure Fund {n : Nat} {ι : Type} (S : Finset ι) (R : ι → Matrix (Fin n) (Fin n) ℝ) (α : Fin 3 → Fin n → ℝ) : Prop where
  orth : ∀ g ∈ S, (R g)ᵀ * R g = 1
  cover : ∀ x, ∃ g ∈ S, ∀ i, 0 ≤ α i ⬝ᵥ (R g)ᵀ.mulVec x
  sep : ∀ g ∈ S, ∀ h ∈ S, g ≠ h → ∀ x, (∀ i, 0 < α i ⬝ᵥ (R g)ᵀ.mulVec x) → ¬ ∀ i, 0 ≤ α i ⬝ᵥ (R h)ᵀ.mulVec x
  nz : ∀ i, α i ≠ 0
  inv : ∀ g ∈ S, ∃ h ∈ S, R h = (R g)ᵀ

section
variable {n : Nat} {ι : Type} {S : Finset ι} {R : ι → Matrix (Fin n) (Fin n) ℝ} {α : Fin 3 → Fin n → ℝ}

theorem spin_left {M : Matrix (Fin n) (Fin n) ℝ} (h : Mᵀ * M = 1) (c x : Fin n → ℝ) : spin Mᵀ c (spin M c x) = x := by
  simp [spin, h]

theorem spin_right {M : Matrix (Fin n) (Fin n) ℝ} (h : Mᵀ * M = 1) (c x : Fin n → ℝ) : spin M c (spin Mᵀ c x) = x := by
  have h' : M * Mᵀ = 1 := mul_eq_one_comm.mp h
  simp [spin, h']

theorem spin_image {M : Matrix (Fin n) (Fin n) ℝ} (h : Mᵀ * M = 1) (c : Fin n → ℝ) (A : Set (Fin n → ℝ)) :
    spin M c '' A = spin Mᵀ c ⁻¹' A := by
  ext x
  constructor
  · rintro ⟨y, hy, rfl⟩
    show spin Mᵀ c (spin M c y) ∈ A
    rwa [spin_left h]
  · intro hx
    exact ⟨_, hx, spin_right h c x⟩

theorem spin_continuous (M : Matrix (Fin n) (Fin n) ℝ) (c : Fin n → ℝ) : Continuous (spin M c) := by
  unfold spin
  exact (Continuous.matrix_mulVec continuous_const (continuous_id.sub continuous_const)).add continuous_const

theorem spin_interior {M : Matrix (Fin n) (Fin n) ℝ} (h : Mᵀ * M = 1) (c : Fin n → ℝ) (A : Set (Fin n → ℝ)) :
    interior (spin M c '' A) ⊆ spin M c '' interior A := by
  intro x hx
  refine ⟨spin Mᵀ c x, ?_, spin_right h c x⟩
  have h1 := preimage_interior_subset_interior_preimage (spin_continuous M c) (t := spin M c '' A)
  have h2 : spin M c ⁻¹' (spin M c '' A) = A := by
    refine Set.preimage_image_eq A fun a b hab => ?_
    rw [← spin_left h c a, hab, spin_left h c b]
  rw [h2] at h1
  apply h1
  show spin M c (spin Mᵀ c x) ∈ interior (spin M c '' A)
  rwa [spin_right h]

theorem volume_spin {M : Matrix (Fin n) (Fin n) ℝ} (h : Mᵀ * M = 1) (c : Fin n → ℝ) (A : Set (Fin n → ℝ)) :
    volume (spin M c '' A) = volume A := by
  have e : spin M c '' A = (fun x => (c - M.mulVec c) + x) '' (Matrix.toLin' M '' A) := by
    rw [Set.image_image]
    refine Set.image_congr fun x _ => ?_
    simp only [spin, Matrix.toLin'_apply, Matrix.mulVec_sub]
    abel
  have hd : |LinearMap.det (Matrix.toLin' M)| = 1 := by
    rw [LinearMap.det_toLin']
    have := congrArg Matrix.det h
    rw [det_mul, det_transpose, det_one] at this
    have h2 : |M.det| * |M.det| = 1 := by rw [← abs_mul, this, abs_one]
    nlinarith [abs_nonneg M.det]
  rw [e, Set.image_add_left, measure_preimage_add, Measure.addHaar_image_linearMap, hd]
  simp

/-- A form that is not negative on a set is positive in its interior. -/
theorem form_pos {u : Fin n → ℝ} (hu : u ≠ 0) {d : ℝ} {A : Set (Fin n → ℝ)} (h : ∀ y ∈ A, 0 ≤ u ⬝ᵥ y + d) {x : Fin n → ℝ}
    (hx : x ∈ interior A) : 0 < u ⬝ᵥ x + d := by
  have hc : Continuous fun t : ℝ => x - t • u := by fun_prop
  have h0 : (fun t : ℝ => x - t • u) ⁻¹' interior A ∈ nhds 0 :=
    (isOpen_interior.preimage hc).mem_nhds (by simpa using hx)
  obtain ⟨ε, he, hb⟩ := Metric.mem_nhds_iff.mp h0
  have h1 : ε / 2 ∈ Metric.ball (0 : ℝ) ε := by
    rw [Metric.mem_ball, dist_zero_right, Real.norm_eq_abs, abs_of_pos (by linarith)]; linarith
  have h2 := h _ (interior_subset (hb h1))
  rw [dotProduct_sub, dotProduct_smul, smul_eq_mul] at h2
  have h3 : 0 < u ⬝ᵥ u := by
    refine lt_of_le_of_ne (Finset.sum_nonneg fun i _ => mul_self_nonneg (u i)) fun h => hu (dotProduct_self_eq_zero.mp h.symm)
  nlinarith

theorem Fund.wall_ne (F : Fund S R α) {g : ι} (hg : g ∈ S) (i : Fin 3) : (R g).mulVec (α i) ≠ 0 := by
  intro h
  apply F.nz i
  have := congrArg (R g)ᵀ.mulVec h
  rwa [mulVec_mulVec, F.orth g hg, one_mulVec, mulVec_zero] at this

theorem wall_form (M : Matrix (Fin n) (Fin n) ℝ) (u c x : Fin n → ℝ) :
    u ⬝ᵥ Mᵀ.mulVec (x - c) = M.mulVec u ⬝ᵥ x + -(M.mulVec u ⬝ᵥ c) := by
  rw [dotProduct_mulVec, vecMul_transpose, dotProduct_sub, sub_eq_add_neg]

theorem mem_spin_cone {M : Matrix (Fin n) (Fin n) ℝ} (h : Mᵀ * M = 1) (c : Fin n → ℝ) {x : Fin n → ℝ} :
    x ∈ spin M c '' coneAt α c ↔ ∀ i, 0 ≤ α i ⬝ᵥ Mᵀ.mulVec (x - c) := by
  rw [spin_image h]
  simp [coneAt, spin]

/-- Images of parts of the cone under different matrices do not overlap. -/
theorem Fund.apart (F : Fund S R α) {g h : ι} (hg : g ∈ S) (hh : h ∈ S) (hne : g ≠ h) {c : Fin n → ℝ}
    {A B : Set (Fin n → ℝ)} (hA : A ⊆ coneAt α c) (hB : B ⊆ coneAt α c) :
    interior (spin (R g) c '' A) ∩ interior (spin (R h) c '' B) = ∅ := by
  rw [Set.eq_empty_iff_forall_notMem]
  rintro x ⟨hx, hy⟩
  refine F.sep g hg h hh hne (x - c) (fun i => ?_) ?_
  · rw [wall_form]
    refine form_pos (F.wall_ne hg i) (A := spin (R g) c '' A) (fun y hy => ?_) hx
    rw [← wall_form]
    exact (mem_spin_cone (F.orth g hg) c).mp (Set.image_mono hA hy) i
  · exact (mem_spin_cone (F.orth h hh) c).mp (Set.image_mono hB (interior_subset hy))

/-- Images of sets that do not overlap under the same matrix do not overlap. -/
theorem Fund.together (F : Fund S R α) {g : ι} (hg : g ∈ S) (c : Fin n → ℝ) {A B : Set (Fin n → ℝ)}
    (h : interior A ∩ interior B = ∅) : interior (spin (R g) c '' A) ∩ interior (spin (R g) c '' B) = ∅ := by
  rw [Set.eq_empty_iff_forall_notMem] at h ⊢
  rintro x ⟨hx, hy⟩
  obtain ⟨a, ha, rfl⟩ := spin_interior (F.orth g hg) c A hx
  obtain ⟨b, hb, e⟩ := spin_interior (F.orth g hg) c B hy
  have : b = a := by rw [← spin_left (F.orth g hg) c b, e, spin_left (F.orth g hg)]
  exact h a ⟨ha, this ▸ hb⟩

/-- Every point is in the image of the cone. -/
theorem Fund.exists_image (F : Fund S R α) (c x : Fin n → ℝ) : ∃ g ∈ S, ∃ y ∈ coneAt α c, spin (R g) c y = x := by
  obtain ⟨g, hg, h⟩ := F.cover (x - c)
  obtain ⟨y, hy, e⟩ := (mem_spin_cone (F.orth g hg) c).mpr h
  exact ⟨g, hg, y, hy, e⟩

theorem hyperplane_null {u : Fin n → ℝ} (hu : u ≠ 0) (d : ℝ) : volume {x : Fin n → ℝ | u ⬝ᵥ x + d = 0} = 0 := by
  have h3 : u ⬝ᵥ u ≠ 0 := fun h => hu (dotProduct_self_eq_zero.mp h)
  set L : Submodule ℝ (Fin n → ℝ) := LinearMap.ker (dotProductBilin ℝ ℝ u) with hL
  have hne : L ≠ ⊤ := by
    intro h
    have : u ∈ L := h ▸ Submodule.mem_top
    rw [hL, LinearMap.mem_ker] at this
    exact h3 this
  have e : {x : Fin n → ℝ | u ⬝ᵥ x + d = 0} = (fun x => (d / (u ⬝ᵥ u)) • u + x) ⁻¹' (L : Set (Fin n → ℝ)) := by
    ext x
    rw [Set.mem_preimage, SetLike.mem_coe, hL, LinearMap.mem_ker]
    show _ ↔ u ⬝ᵥ _ = 0
    rw [dotProduct_add, dotProduct_smul, smul_eq_mul, div_mul_cancel₀ _ h3, add_comm]
    rfl
  rw [e, measure_preimage_add, Measure.addHaar_submodule volume L hne]

/-- A set with the symmetry of the group is measured by its part in the cone. -/
theorem Fund.measure (F : Fund S R α) (c : Fin n → ℝ) {X : Set (Fin n → ℝ)} (hX : MeasurableSet X)
    (hS : ∀ g ∈ S, spin (R g) c '' X ⊆ X) : volume X = S.card * volume (X ∩ coneAt α c) := by
  have hC : MeasurableSet (coneAt α c) := by
    have : coneAt α c = ⋂ i, {x | 0 ≤ α i ⬝ᵥ (x - c)} := by ext; simp [coneAt]
    rw [this]
    refine MeasurableSet.iInter fun i => (isClosed_le continuous_const ?_).measurableSet
    exact continuous_const.dotProduct (continuous_id.sub continuous_const)
  have hinv : ∀ g ∈ S, spin (R g)ᵀ c '' X ⊆ X := by
    intro g hg
    obtain ⟨h, hh, e⟩ := F.inv g hg
    rw [← e]
    exact hS h hh
  have e : X = ⋃ g ∈ S, spin (R g) c '' (X ∩ coneAt α c) := by
    ext x
    simp only [Set.mem_iUnion]
    constructor
    · intro hx
      obtain ⟨g, hg, y, hy, e⟩ := F.exists_image c x
      refine ⟨g, hg, y, ⟨?_, hy⟩, e⟩
      have : y = spin (R g)ᵀ c x := by rw [← e, spin_left (F.orth g hg)]
      rw [this]
      exact hinv g hg ⟨x, hx, rfl⟩
    · rintro ⟨g, hg, y, hy, rfl⟩
      exact hS g hg ⟨y, hy.1, rfl⟩
  conv_lhs => rw [e]
  rw [measure_biUnion_finset₀]
  · rw [Finset.sum_congr rfl (fun g hg => volume_spin (F.orth g hg) c _), Finset.sum_const, nsmul_eq_mul]
  · intro g hg h hh hne
    have hsub : spin (R g) c '' (X ∩ coneAt α c) ∩ spin (R h) c '' (X ∩ coneAt α c) ⊆
        ⋃ i, {x | (R g).mulVec (α i) ⬝ᵥ x + -((R g).mulVec (α i) ⬝ᵥ c) = 0} := by
      rintro x ⟨hx, hy⟩
      have h1 := (mem_spin_cone (F.orth g hg) c).mp (Set.image_mono Set.inter_subset_right hx)
      have h2 := (mem_spin_cone (F.orth h hh) c).mp (Set.image_mono Set.inter_subset_right hy)
      by_contra hno
      simp only [Set.mem_iUnion, not_exists] at hno
      refine F.sep g hg h hh hne (x - c) (fun i => ?_) h2
      refine lt_of_le_of_ne (h1 i) fun h0 => hno i ?_
      show _ = _
      rw [← wall_form, ← h0]
    exact measure_mono_null hsub (measure_iUnion_null fun i => hyperplane_null (F.wall_ne hg i) _)
  · intro g hg
    rw [spin_image (F.orth g hg)]
    exact ((spin_continuous _ c).measurable (hX.inter hC)).nullMeasurableSet
end

/-! ## The two point groups -/

theorem wall_lattice (p : Package) (i : Fin 3) (u : Fin 6 → ℤ) :
    p.wall i ⬝ᵥ p.perpMat.mulVec (fun k => (u k : ℝ)) =
      ((∑ k, (p.form i k).1 * u k : ℤ) : ℝ) + ((∑ k, (p.form i k).2 * u k : ℤ) : ℝ) * p.theta := by
  cases p
  · have h := tau_sq
    show _ = _ + _ * tau
    simp only [Package.wall, Package.form, Package.perpMat]
    generalize tau = t at *
    fin_cases i <;> simp [mulVec, dotProduct, Fin.sum_univ_succ] <;> ring_nf
    rw [h]
    ring
  · have h := sin60_sq
    show _ = _ + _ * sin60
    simp only [Package.wall, Package.form, Package.perpMat]
    generalize sin60 = t at *
    fin_cases i <;> simp [mulVec, dotProduct, Fin.sum_univ_succ] <;> ring_nf
    all_goals
      try rw [h]
      try ring

theorem rot_inv {p : Package} {a b : IMat 6 6} (ha : a ∈ p.symops) (hb : b ∈ p.symops) (h : npDot b a = npIdentity Int 6) :
    p.rot b = (p.rot a)ᵀ := by
  have h1 : p.rot b * p.rot a = 1 := by rw [← rot_mul hb ha, h, rot_one]
  have h2 : p.rot a * (p.rot a)ᵀ = 1 := mul_eq_one_comm.mp (rot_spec ha).2
  calc p.rot b = p.rot b * (p.rot a * (p.rot a)ᵀ) := by rw [h2, Matrix.mul_one]
    _ = (p.rot a)ᵀ := by rw [← Matrix.mul_assoc, h1, Matrix.one_mul]

/-- Points of the cone are non-negative combinations of the axes, up to directions the walls do not see. -/
theorem chamber_axes {p : Package} {x : Fin 3 → ℝ} (hx : x ∈ p.chamber) :
    ∃ (a : Fin 3 → ℝ) (z : Fin 3 → ℝ), (∀ j, 0 ≤ a j) ∧
      (∀ op ∈ p.symops, ∀ i, p.wall i ⬝ᵥ (p.rot op).mulVec z = 0) ∧
      x = ∑ j, a j • p.perpMat.mulVec (fun k => (p.axis6 j k : ℝ)) + z := by
  cases p
  · obtain ⟨a, b, c, ha, hb, hc, rfl⟩ := hx
    refine ⟨![a / 2, b / 2, c / 2], 0, ?_, by simp, ?_⟩
    · intro j; fin_cases j <;> simp <;> linarith
    · simp only [Package.perpMat, Package.axis6]
      generalize tau = t
      ext i
      fin_cases i <;> simp [mulVec, dotProduct, Fin.sum_univ_succ] <;> ring
  · obtain ⟨a, b, h, ha, hb, rfl⟩ := hx
    refine ⟨![a, b, 0], h • ![0, 0, 1], ?_, ?_, ?_⟩
    · intro j; fin_cases j <;> simp <;> assumption
    · intro op hop i
      obtain ⟨R, hB, h22, -, e⟩ := isoZ_symops hop
      rw [rot_unique e]
      obtain ⟨b1, b2, b3, b4⟩ := hB
      fin_cases i <;> simp [Package.wall, mulVec, dotProduct, Fin.sum_univ_succ, b1, b2, b3, b4]
    · simp only [Package.perpMat, Package.axis6]
      generalize sin60 = t
      ext i
      fin_cases i <;> simp [mulVec, dotProduct, Fin.sum_univ_succ] <;> ring_nf <;> simp

/-- An operation other than the identity moves the cone to the other side of one of its walls. -/
theorem chamber_sep {p : Package} {op : IMat 6 6} (h : op ∈ p.symops) (h1 : op ≠ npIdentity Int 6) :
    ∃ i, ∀ x ∈ p.chamber, p.wall i ⬝ᵥ (p.rot op).mulVec x ≤ 0 := by
  obtain ⟨i, hi⟩ := sep_symops h h1
  refine ⟨i, fun x hx => ?_⟩
  obtain ⟨a, z, ha, hz, rfl⟩ := chamber_axes hx
  rw [mulVec_add, dotProduct_add, hz op h i, add_zero, mulVec_sum, dotProduct_sum]
  refine Finset.sum_nonpos fun j _ => ?_
  rw [mulVec_smul, dotProduct_smul, smul_eq_mul]
  refine mul_nonpos_of_nonneg_of_nonpos (ha j) ?_
  rw [rot_lattice h]
  have e : (realMat op).mulVec (fun k => (p.axis6 j k : ℝ)) = fun k => ((∑ l, op k l * p.axis6 j l : ℤ) : ℝ) := by
    funext k
    simp [mulVec, dotProduct, realMat]
  rw [e, wall_lattice]
  exact negTest_le (hi j)

theorem exists_interior (p : Package) : ∃ v, ∀ i, 0 < p.wall i ⬝ᵥ v := by
  cases p
  · have := tau_near
    refine ⟨![10, -1, 1], fun i => ?_⟩
    fin_cases i <;> simp [Package.wall] <;> linarith
  · have := sin60_near
    refine ⟨![10, 1, 0], fun i => ?_⟩
    fin_cases i <;> simp [Package.wall] <;> linarith

/-- The point group of the package and its fundamental cone. -/
theorem fund3 (p : Package) : Fund p.symops.toFinset p.rot p.wall where
  orth g hg := (rot_spec (List.mem_toFinset.mp hg)).2
  cover x := by
    obtain ⟨v, hv⟩ := exists_interior p
    obtain ⟨op, hop, h⟩ := exists_positive (wall_mirror p) hv x
    obtain ⟨b, hb, h1, h2⟩ := symops_inv hop
    refine ⟨b, List.mem_toFinset.mpr hb, ?_⟩
    rw [← rot_inv hb hop h1]
    exact h
  sep g hg h hh hne x hx hy := by
    rw [List.mem_toFinset] at hg hh
    obtain ⟨b, hb, h1, h2⟩ := symops_inv hg
    have hk := symops_mul hb hh
    have hk1 : npDot b h ≠ npIdentity Int 6 := by
      intro e
      apply hne
      have := congrArg (npDot g) e
      rw [← npDot_assoc, h1, one_npDot, npDot_one] at this
      exact this.symm
    obtain ⟨i, hi⟩ := chamber_sep hk hk1
    have := hi _ ((chamber_iff p _).mpr hy)
    rw [rot_mul hb hh, rot_inv hg hb h2, mulVec_mulVec, Matrix.mul_assoc,
      mul_eq_one_comm.mp (rot_spec hh).2, Matrix.mul_one] at this
    exact absurd (hx i) (not_lt.mpr this)
  nz i := by
    obtain ⟨v, hv⟩ := exists_interior p
    intro h
    have := hv i
    rw [h, zero_dotProduct] at this
    exact lt_irrefl _ this
  inv g hg := by
    rw [List.mem_toFinset] at hg
    obtain ⟨b, hb, h1, h2⟩ := symops_inv hg
    exact ⟨b, List.mem_toFinset.mpr hb, rot_inv hg hb h2⟩

theorem card_symops (p : Package) : p.symops.toFinset.card = p.order := by
  rw [List.toFinset_card_of_nodup (symops_nodup p), symops_length]

/-! ## The dodecagonal group in a horizontal plane -/

/-- The action of an operation on the plane. -/
noncomputable def rot2 (op : IMat 6 6) : Matrix (Fin 2) (Fin 2) ℝ := fun i j => Package.dode.rot op i.castSucc j.castSucc

/-- The walls in the plane. -/
noncomputable def wall2 (i : Fin 3) : Fin 2 → ℝ := xy (Package.dode.wall i)

theorem rot_block {op : IMat 6 6} (h : op ∈ Package.dode.symops) :
    Block (Package.dode.rot op) ∧ Package.dode.rot op 2 2 = 1 := by
  obtain ⟨R, hB, h22, -, e⟩ := isoZ_symops h
  rw [rot_unique e]
  exact ⟨hB, h22⟩

theorem spin_atHeight {op : IMat 6 6} (h : op ∈ Package.dode.symops) (z : ℝ) (c : Fin 3 → ℝ) (q : Fin 2 → ℝ) :
    spin (Package.dode.rot op) c (atHeight z q) = atHeight z (spin (rot2 op) (xy c) q) := by
  obtain ⟨⟨b1, b2, b3, b4⟩, h22⟩ := rot_block h
  funext i
  fin_cases i
  · simp [spin, rot2, atHeight, xy, mulVec, dotProduct, Fin.sum_univ_succ, b1, vecHead, vecTail]
  · simp [spin, rot2, atHeight, xy, mulVec, dotProduct, Fin.sum_univ_succ, b2, vecHead, vecTail]
  · simp [spin, atHeight, mulVec, dotProduct, Fin.sum_univ_succ, b3, b4, h22, vecHead, vecTail]

theorem rotT_atHeight {op : IMat 6 6} (h : op ∈ Package.dode.symops) (z : ℝ) (q : Fin 2 → ℝ) :
    (Package.dode.rot op)ᵀ.mulVec (atHeight z q) = atHeight z ((rot2 op)ᵀ.mulVec q) := by
  obtain ⟨⟨b1, b2, b3, b4⟩, h22⟩ := rot_block h
  funext i
  fin_cases i
  · simp [rot2, atHeight, mulVec, dotProduct, Fin.sum_univ_succ, b3]
  · simp [rot2, atHeight, mulVec, dotProduct, Fin.sum_univ_succ, b4]
  · simp [atHeight, mulVec, dotProduct, Fin.sum_univ_succ, b1, b2, h22]

theorem wall_atHeight (i : Fin 3) (z : ℝ) (q : Fin 2 → ℝ) : Package.dode.wall i ⬝ᵥ atHeight z q = wall2 i ⬝ᵥ q := by
  fin_cases i <;> simp [Package.wall, wall2, atHeight, xy, dotProduct, Fin.sum_univ_succ]

theorem fund2 : Fund Package.dode.symops.toFinset rot2 wall2 where
  orth g hg := by
    have h := (fund3 .dode).orth g hg
    obtain ⟨⟨b1, b2, b3, b4⟩, h22⟩ := rot_block (List.mem_toFinset.mp hg)
    ext i j
    have hij := congrFun (congrFun h i.castSucc) j.castSucc
    rw [Matrix.mul_apply, Fin.sum_univ_three] at hij
    rw [Matrix.mul_apply, Fin.sum_univ_two]
    have e : (1 : Matrix (Fin 2) (Fin 2) ℝ) i j = (1 : Matrix (Fin 3) (Fin 3) ℝ) i.castSucc j.castSucc := by
      simp [Matrix.one_apply]
    rw [e, ← hij]
    have h2 : Package.dode.rot g 2 i.castSucc = 0 := by fin_cases i <;> simp [b3, b4]
    simp [rot2, h2]
  cover q := by
    obtain ⟨g, hg, h⟩ := (fund3 .dode).cover (atHeight 0 q)
    refine ⟨g, hg, fun i => ?_⟩
    have := h i
    rwa [rotT_atHeight (List.mem_toFinset.mp hg), wall_atHeight] at this
  sep g hg h hh hne q hx hy := by
    refine (fund3 .dode).sep g hg h hh hne (atHeight 0 q) (fun i => ?_) (fun i => ?_)
    · rw [rotT_atHeight (List.mem_toFinset.mp hg), wall_atHeight]; exact hx i
    · rw [rotT_atHeight (List.mem_toFinset.mp hh), wall_atHeight]; exact hy i
  nz i h := by
    have h0 := congrFun h 0
    have h1 := congrFun h 1
    fin_cases i <;> simp [wall2, Package.wall, xy] at h0 h1
  inv g hg := by
    obtain ⟨h, hh, e⟩ := (fund3 .dode).inv g hg
    refine ⟨h, hh, ?_⟩
    ext i j
    exact congrFun (congrFun e i.castSucc) j.castSucc

theorem slice_spin {op : IMat 6 6} (h : op ∈ Package.dode.symops) (z : ℝ) (c : Fin 3 → ℝ) (A : Set (Fin 3 → ℝ)) :
    slice z (spin (Package.dode.rot op) c '' A) = spin (rot2 op) (xy c) '' slice z A := by
  rw [spin_image (rot_spec h).2, spin_image (fund2.orth op (List.mem_toFinset.mpr h))]
  ext q
  rw [mem_slice, Set.mem_preimage, Set.mem_preimage, mem_slice]
  have e : spin (Package.dode.rot op)ᵀ c (atHeight z q) = atHeight z (spin (rot2 op)ᵀ (xy c) q) := by
    obtain ⟨b, hb, e⟩ := (fund3 .dode).inv op (List.mem_toFinset.mpr h)
    have e2 : rot2 b = (rot2 op)ᵀ := by
      ext i j
      exact congrFun (congrFun e i.castSucc) j.castSucc
    rw [← e, ← e2]
    exact spin_atHeight (List.mem_toFinset.mp hb) z c q
  rw [e]

theorem slice_cone (z : ℝ) (c : Fin 3 → ℝ) : slice z (coneAt Package.dode.wall c) = coneAt wall2 (xy c) := by
  ext q
  rw [mem_slice]
  refine forall_congr' fun i => ?_
  have : atHeight z q - c = atHeight (z - c 2) (q - xy c) := by
    funext j; fin_cases j <;> simp [atHeight, xy]
  rw [this, wall_atHeight]

/-! ## Objects -/

theorem cone_iff (p : Package) (c x : Fin 3 → ℝ) : x ∈ coneAt p.wall c ↔ x - c ∈ p.chamber := (chamber_iff p _).symm

theorem cone_convex (p : Package) (c : Fin 3 → ℝ) : Convex ℝ (coneAt p.wall c) := by
  have : coneAt p.wall c = ⋂ i, {x | p.wall i ⬝ᵥ c ≤ p.wall i ⬝ᵥ x} := by
    ext x; simp [coneAt, dotProduct_sub]
  rw [this]
  refine convex_iInter fun i => ?_
  exact convex_halfSpace_ge (f := fun x => p.wall i ⬝ᵥ x)
    ⟨fun a b => dotProduct_add _ _ _, fun a b => by rw [dotProduct_smul]⟩ _

theorem perps_symS {p : Package} {op : IMat 6 6} (h : op ∈ p.symops) {m : Nat} (c : Vec 6) (s : Simplex m) (i : Fin m) :
    p.perps (symS p op c s) i = spin (p.rot op) (p.perp c) (p.perps s i) := perp_symV' h c (s i)

theorem solid_symS {p : Package} {op : IMat 6 6} (h : op ∈ p.symops) {m : Nat} (c : Vec 6) (s : Simplex m) :
    solid (p.perps (symS p op c s)) = spin (p.rot op) (p.perp c) '' solid (p.perps s) := by
  have e1 : ∀ A : Set (Fin 3 → ℝ), spin (p.rot op) (p.perp c) '' A =
      (p.perp c - (p.rot op).mulVec (p.perp c)) +ᵥ (Matrix.toLin' (p.rot op) '' A) := by
    intro A
    rw [← Set.image_vadd, Set.image_image]
    refine Set.image_congr fun x _ => ?_
    simp only [spin, Matrix.toLin'_apply, Matrix.mulVec_sub, vadd_eq_add]
    abel
  have e2 : Set.range (p.perps (symS p op c s)) = spin (p.rot op) (p.perp c) '' Set.range (p.perps s) := by
    rw [← Set.range_comp]
    congr 1
    funext i
    exact perps_symS h c s i
  unfold solid
  rw [e2, e1, e1, LinearMap.image_convexHull, convexHull_vadd]

theorem region_orbit {p : Package} {m : Nat} (o : Obj m) (c : Vec 6) {x : Fin 3 → ℝ} :
    x ∈ p.region (orbit p o c) ↔ ∃ op ∈ p.symops, ∃ y ∈ p.region o, spin (p.rot op) (p.perp c) y = x := by
  constructor
  · rintro ⟨a, ha, hx⟩
    obtain ⟨op, hop, h⟩ := List.mem_flatMap.mp ha
    obtain ⟨s, hs, rfl⟩ := List.mem_map.mp h
    rw [solid_symS hop] at hx
    obtain ⟨y, hy, e⟩ := hx
    exact ⟨op, hop, y, ⟨s, hs, hy⟩, e⟩
  · rintro ⟨op, hop, y, ⟨s, hs, hy⟩, e⟩
    refine ⟨symS p op c s, List.mem_flatMap.mpr ⟨op, hop, List.mem_map_of_mem hs⟩, ?_⟩
    rw [solid_symS hop]
    exact ⟨y, hy, e⟩

theorem symops_perm_right {p : Package} {g : IMat 6 6} (hg : g ∈ p.symops) :
    (p.symops.map fun op => npDot op g).Perm p.symops := by
  obtain ⟨b, -, hb, -⟩ := symops_inv hg
  have inj : Function.Injective (fun op : IMat 6 6 => npDot op g) := by
    intro x y h
    have := congrArg (fun z => npDot z b) h
    simp only [npDot_assoc, hb, npDot_one] at this
    exact this
  apply List.Subperm.perm_of_length_le
  · apply List.subperm_of_subset ((symops_nodup p).map inj)
    intro x hx
    obtain ⟨op, hop, rfl⟩ := List.mem_map.mp hx
    exact symops_mul hop hg
  · simp

/-- Any image of the unit generates the same object. -/
theorem orbit_unit {p : Package} {m : Nat} (o : Obj m) (c : Vec 6) {g : IMat 6 6} (hg : g ∈ p.symops) :
    (orbit p (o.map (symS p g c)) c).Perm (orbit p o c) := by
  have : orbit p (o.map (symS p g c)) c = (p.symops.map fun op => npDot op g).flatMap fun op => o.map (symS p op c) := by
    unfold orbit
    rw [List.flatMap_map]
    congr 1
    funext op
    rw [List.map_map]
    congr 1
    funext s
    exact symS_mul op g c s
  rw [this]
  exact (symops_perm_right hg).flatMap_right _

/-- A relation between pieces holds in the orbit if it holds between images under different operations, and between
images of different pieces under the same operation. -/
theorem orbit_pairwise {p : Package} {m : Nat} {o : Obj m} {c : Vec 6} {P : Simplex m → Simplex m → Prop}
    (same : ∀ op ∈ p.symops, o.Pairwise fun a b => P (symS p op c a) (symS p op c b))
    (diff : ∀ op ∈ p.symops, ∀ op' ∈ p.symops, op ≠ op' → ∀ a ∈ o, ∀ b ∈ o, P (symS p op c a) (symS p op' c b)) :
    (orbit p o c).Pairwise P := by
  unfold orbit
  rw [List.pairwise_flatMap]
  refine ⟨fun op hop => List.pairwise_map.mpr (same op hop), ?_⟩
  refine List.Pairwise.imp_of_mem ?_ (symops_nodup p)
  intro op op' hop hop' hne x hx y hy
  obtain ⟨a, ha, rfl⟩ := List.mem_map.mp hx
  obtain ⟨b, hb, rfl⟩ := List.mem_map.mp hy
  exact diff op hop op' hop' hne a ha b hb

theorem solid_cone {p : Package} {m : Nat} {c : Vec 6} {s : Simplex m} (h : ∀ i, p.perps s i ∈ coneAt p.wall (p.perp c)) :
    solid (p.perps s) ⊆ coneAt p.wall (p.perp c) :=
  convexHull_min (by rintro _ ⟨i, rfl⟩; exact h i) (cone_convex p _)

theorem orbit_noOverlap {p : Package} {m : Nat} {o : Obj m} {c : Vec 6} (hno : p.NoOverlap o)
    (h : ∀ s ∈ o, ∀ i, p.perps s i ∈ coneAt p.wall (p.perp c)) : p.NoOverlap (orbit p o c) := by
  refine orbit_pairwise (fun op hop => ?_) (fun op hop op' hop' hne a ha b hb => ?_)
  · refine List.Pairwise.imp ?_ hno
    intro a b hab
    rw [solid_symS hop, solid_symS hop]
    exact (fund3 p).together (List.mem_toFinset.mpr hop) _ hab
  · rw [solid_symS hop, solid_symS hop']
    exact (fund3 p).apart (List.mem_toFinset.mpr hop) (List.mem_toFinset.mpr hop') hne (solid_cone (h a ha)) (solid_cone (h b hb))

theorem orbit_noOverlap2 {z : ℝ} {o : Obj 3} {c : Vec 6} (hno : NoOverlap2 z o)
    (h : ∀ s ∈ o, ∀ i, Package.dode.perps s i ∈ coneAt Package.dode.wall (Package.dode.perp c)) :
    NoOverlap2 z (orbit .dode o c) := by
  have hs : ∀ s ∈ o, slice z (solid (Package.dode.perps s)) ⊆ coneAt wall2 (xy (Package.dode.perp c)) := by
    intro s hs
    rw [← slice_cone z]
    exact slice_mono (solid_cone (h s hs))
  refine orbit_pairwise (fun op hop => ?_) (fun op hop op' hop' hne a ha b hb => ?_)
  · refine List.Pairwise.imp ?_ hno
    intro a b hab
    rw [solid_symS hop, solid_symS hop, slice_spin hop, slice_spin hop]
    exact fund2.together (List.mem_toFinset.mpr hop) _ hab
  · rw [solid_symS hop, solid_symS hop', slice_spin hop, slice_spin hop']
    exact fund2.apart (List.mem_toFinset.mpr hop) (List.mem_toFinset.mpr hop') hne (hs a ha) (hs b hb)

/-- The image of an object under an operation about a centre. -/
theorem region_map {p : Package} {m : Nat} {op : IMat 6 6} (h : op ∈ p.symops) (o : Obj m) (c : Vec 6) :
    p.region (o.map (symS p op c)) = spin (p.rot op) (p.perp c) '' p.region o := by
  ext x
  constructor
  · rintro ⟨a, ha, hx⟩
    obtain ⟨s, hs, rfl⟩ := List.mem_map.mp ha
    rw [solid_symS h] at hx
    obtain ⟨y, hy, e⟩ := hx
    exact ⟨y, ⟨s, hs, hy⟩, e⟩
  · rintro ⟨y, ⟨s, hs, hy⟩, rfl⟩
    refine ⟨_, List.mem_map_of_mem hs, ?_⟩
    rw [solid_symS h]
    exact ⟨y, hy, rfl⟩

theorem symV_level {op : IMat 6 6} (h : op ∈ Package.dode.symops) (c v : Vec 6) :
    Package.dode.perp (symV .dode op c v) 2 = Package.dode.perp v 2 := by
  rw [perp_symV' h]
  obtain ⟨⟨b1, b2, b3, b4⟩, h22⟩ := rot_block h
  simp [mulVec, dotProduct, Fin.sum_univ_three, b3, b4, h22]

end PyQC
