import Verif.Lemmas.ConvexCommon
/-!
# The boundary of a union of tetrahedra that fit face to face
-/
namespace PyQC
open Topology

variable {ι : Type} [Finite ι] {q : ι → Fin 4 → Fin 3 → ℝ}

/-- A small ball around a point only meets the tetrahedra that contain the point. -/
theorem ball_solids (x : Fin 3 → ℝ) : ∃ ε > 0, ∀ a, (∃ z ∈ Metric.ball x ε, z ∈ solid (q a)) → x ∈ solid (q a) := by
  have h : ∀ a, ∀ᶠ z in 𝓝 x, z ∈ solid (q a) → x ∈ solid (q a) := by
    intro a
    by_cases hk : x ∈ solid (q a)
    · exact Filter.Eventually.of_forall fun _ _ => hk
    · filter_upwards [(solid_compact (q a)).isClosed.isOpen_compl.mem_nhds hk] with z hz hz'
      exact absurd hz' hz
  obtain ⟨ε, hε, hb⟩ := Metric.eventually_nhds_iff.1 (Filter.eventually_all.2 h)
  exact ⟨ε, hε, fun a ⟨z, hz, hz'⟩ => hb hz a hz'⟩

/-- Two faces of one tetrahedron do not lie in one plane with a face of another. -/
theorem one_face_in_plane {q p : Fin 4 → Fin 3 → ℝ} (hq : det4 q ≠ 0) (hp : det4 p ≠ 0) {l m m' : Fin 4} (hne : m ≠ m')
    (h : ∀ i, i ≠ l → bc p (q i) m = 0) (h' : ∀ i, i ≠ l → bc p (q i) m' = 0) : False := by
  obtain ⟨j, hj⟩ : ∃ j, j ≠ l := exists_ne l
  have main : ∀ k, (∀ i, i ≠ l → bc p (q i) k = 0) → ∀ v, dirCoord hq v l = 0 → dirCoord hp v k = 0 := by
    intro k hk v hv
    refine sides_span hq (i := j) (l := l) (faceFun hp k) (fun i hi => ?_) hv
    rw [faceFun_apply, dirCoord_sub, hk i hi, hk j hj, sub_zero]
  have prop : ∀ k, (∀ i, i ≠ l → bc p (q i) k = 0) → ∃ c, ∀ v, dirCoord hp v k = dirCoord hq v l * c := by
    intro k hk
    refine ⟨dirCoord hp (q l - q j) k, fun v => ?_⟩
    have hd : dirCoord hq (q l - q j) l = 1 := by rw [dirCoord_edge hq]; simp [hj.symm]
    have := main k hk (v - dirCoord hq v l • (q l - q j)) (by
      rw [map_sub, map_smul, Pi.sub_apply, Pi.smul_apply, hd, smul_eq_mul, mul_one, sub_self])
    rw [map_sub, map_smul, Pi.sub_apply, Pi.smul_apply, smul_eq_mul] at this
    linarith
  obtain ⟨c, hc⟩ := prop m h
  obtain ⟨c', hc'⟩ := prop m' h'
  have third : ∀ m m' : Fin 4, ∃ k, k ≠ m ∧ k ≠ m' := by decide
  obtain ⟨k, hk, hk'⟩ := third m m'
  have e1 := hc (p k - p m')
  have e2 := hc' (p k - p m')
  have e3 := hc (p m - p k)
  rw [dirCoord_edge hp] at e1 e2 e3
  simp [hk.symm, hne, hk'.symm] at e1 e2 e3
  rcases e1 with e1 | e1
  · rw [e1] at e2; simp at e2
  · rw [e1] at e3; simp at e3

/-- The projection to the plane of a face along an edge. -/
noncomputable def toPlane (q : Fin 4 → Fin 3 → ℝ) (l j : Fin 4) (y : Fin 3 → ℝ) : Fin 3 → ℝ := y + bc q y l • (q j - q l)

theorem toPlane_bc {q : Fin 4 → Fin 3 → ℝ} (h : det4 q ≠ 0) {l j : Fin 4} (hj : j ≠ l) (y : Fin 3 → ℝ) :
    bc q (toPlane q l j y) l = 0 := by
  unfold toPlane
  rw [bc_move h, dirCoord_edge h]
  simp [hj.symm]

theorem toPlane_of_mem {q : Fin 4 → Fin 3 → ℝ} {l j : Fin 4} {y : Fin 3 → ℝ} (h : bc q y l = 0) : toPlane q l j y = y := by
  unfold toPlane
  rw [h, zero_smul, add_zero]

theorem toPlane_continuous {q : Fin 4 → Fin 3 → ℝ} (l j : Fin 4) : Continuous (toPlane q l j) :=
  continuous_id.add ((bc_continuous l).smul continuous_const)

theorem toPlane_affine {q : Fin 4 → Fin 3 → ℝ} (h : det4 q ≠ 0) (l j : Fin 4) (x y : Fin 3 → ℝ) (r : ℝ) :
    toPlane q l j ((1 - r) • x + r • y) = (1 - r) • toPlane q l j x + r • toPlane q l j y := by
  unfold toPlane
  rw [bc_comb h]
  module

/-- A face that no other tetrahedron touches from the other side has no point inside the union. -/
theorem face_not_interior (hq : ∀ a, det4 (q a) ≠ 0)
    (dq : ∀ a b, a ≠ b → interior (solid (q a)) ∩ interior (solid (q b)) = ∅) {a : ι} {l : Fin 4}
    (hfree : ∀ b m z, b ≠ a → (∀ i, i ≠ l → bc (q b) (q a i) m = 0) → bc (q a) z l = 0 → (∀ j, j ≠ l → 0 < bc (q a) z j) →
      bc (q b) z m = 0 → (∀ j, j ≠ m → 0 < bc (q b) z j) → False)
    {x : Fin 3 → ℝ} (hx : x ∈ faceSet q a l) : x ∉ interior (covered q) := by
  intro hi
  obtain ⟨j0, hj0⟩ : ∃ j, j ≠ l := exists_ne l
  -- a point of the face in general position inside the union
  obtain ⟨z, hzi, hzl, hzp, hgen⟩ : ∃ z, z ∈ interior (covered q) ∧ bc (q a) z l = 0 ∧ (∀ j, j ≠ l → 0 < bc (q a) z j) ∧
      ∀ b m, bc (q b) z m = 0 → ∀ i, i ≠ l → bc (q b) (q a i) m = 0 := by
    let K := {k : ι × Fin 4 // ∃ i, i ≠ l ∧ bc (q k.1) (q a i) k.2 ≠ 0}
    have hdense : Dense (⋂ k : K, {y | bc (q k.1.1) (toPlane (q a) l j0 y) k.1.2 ≠ 0}) := by
      refine dense_iInter_of_isOpen (fun k => isOpen_ne_fun ((bc_continuous _).comp (toPlane_continuous _ _)) continuous_const) ?_
      rintro ⟨⟨b, m⟩, i, hil, hi⟩
      refine affine_dense (fun x y r => ?_) (p := q a i) ?_
      · rw [toPlane_affine (hq a)]; exact bc_comb (hq b) _ _ _ _
      · rw [toPlane_of_mem (by rw [bc_corner (hq a)]; simp [hil.symm])]
        exact hi
    have hopen : IsOpen {y | toPlane (q a) l j0 y ∈ interior (covered q) ∧
        ∀ j : {j // j ≠ l}, 0 < bc (q a) (toPlane (q a) l j0 y) j.1} := by
      refine (isOpen_interior.preimage (toPlane_continuous _ _)).inter ?_
      have : {y | ∀ j : {j // j ≠ l}, 0 < bc (q a) (toPlane (q a) l j0 y) j.1} =
          ⋂ j : {j // j ≠ l}, {y | 0 < bc (q a) (toPlane (q a) l j0 y) j.1} := by ext; simp
      change IsOpen {y | ∀ j : {j // j ≠ l}, 0 < bc (q a) (toPlane (q a) l j0 y) j.1}
      rw [this]
      exact isOpen_iInter_of_finite fun j => isOpen_lt continuous_const ((bc_continuous _).comp (toPlane_continuous _ _))
    have hne : {y | toPlane (q a) l j0 y ∈ interior (covered q) ∧
        ∀ j : {j // j ≠ l}, 0 < bc (q a) (toPlane (q a) l j0 y) j.1}.Nonempty := by
      have hcen : ∀ i, bc (q a) ((1 / 4 : ℝ) • ∑ j, q a j) i = 1 / 4 := by
        have : IsBary (q a) (fun _ => 1 / 4) ((1 / 4 : ℝ) • ∑ j, q a j) := ⟨by norm_num, by rw [Finset.smul_sum]⟩
        intro i
        rw [bc_eq (hq a) this]
      have hcp : ∀ j, j ≠ l → 0 < bc (q a) (toPlane (q a) l j0 ((1 / 4 : ℝ) • ∑ j, q a j)) j := by
        intro j hj
        unfold toPlane
        rw [bc_move (hq a), dirCoord_edge (hq a), hcen, hcen]
        by_cases h : j = j0
        · subst h; simp [hj]
        · simp [h, hj]
      have hxp := (mem_solid_bc (hq a)).1 hx.1
      have hcont : Filter.Tendsto (fun r : ℝ => (1 - r) • x + r • (1 / 4 : ℝ) • ∑ j, q a j) (𝓝[>] 0) (𝓝 x) := by
        have : Filter.Tendsto (fun r : ℝ => (1 - r) • x + r • (1 / 4 : ℝ) • ∑ j, q a j) (𝓝 0)
            (𝓝 ((1 - (0 : ℝ)) • x + (0 : ℝ) • (1 / 4 : ℝ) • ∑ j, q a j)) := by
          apply Continuous.tendsto; fun_prop
        simp only [sub_zero, one_smul, zero_smul, add_zero] at this
        exact this.mono_left nhdsWithin_le_nhds
      have hev := ((toPlane_continuous (q := q a) l j0).tendsto x).comp hcont
      rw [toPlane_of_mem hx.2] at hev
      have h1 := hev.eventually (isOpen_interior.mem_nhds hi)
      have h2 : ∀ᶠ r : ℝ in 𝓝[>] 0, r < 1 := (Filter.Tendsto.mono_left Filter.tendsto_id nhdsWithin_le_nhds).eventually
        (gt_mem_nhds (by norm_num : (0 : ℝ) < 1))
      obtain ⟨r, ⟨hr1, hr2⟩, hr0⟩ := ((h1.and h2).and self_mem_nhdsWithin).exists
      have hr0 : 0 < r := hr0
      refine ⟨(1 - r) • x + r • (1 / 4 : ℝ) • ∑ j, q a j, hr1, fun j => ?_⟩
      rw [toPlane_affine (hq a), bc_comb (hq a), toPlane_of_mem hx.2]
      have := mul_pos hr0 (hcp j.1 j.2)
      have := mul_nonneg (by linarith : 0 ≤ 1 - r) (hxp j.1)
      linarith
    obtain ⟨y, hy1, hy2⟩ := hdense.inter_open_nonempty _ hopen hne
    refine ⟨toPlane (q a) l j0 y, hy1.1, toPlane_bc (hq a) hj0 y, fun j hj => hy1.2 ⟨j, hj⟩, fun b m h0 i hil => ?_⟩
    by_contra hcon
    exact (Set.mem_iInter.1 hy2 ⟨(b, m), i, hil, hcon⟩) h0
  -- a tetrahedron on the other side
  obtain ⟨ε, hε, hb⟩ := ball_solids (q := q) z
  obtain ⟨b, hba, hzb⟩ : ∃ b, b ≠ a ∧ z ∈ solid (q b) := by
    have hcont : Filter.Tendsto (fun r : ℝ => z + r • (q a j0 - q a l)) (𝓝[>] 0) (𝓝 z) := by
      have : Filter.Tendsto (fun r : ℝ => z + r • (q a j0 - q a l)) (𝓝 0) (𝓝 (z + (0 : ℝ) • (q a j0 - q a l))) := by
        apply Continuous.tendsto; fun_prop
      rw [zero_smul, add_zero] at this
      exact this.mono_left nhdsWithin_le_nhds
    have h1 := hcont.eventually (isOpen_interior.mem_nhds hzi)
    have h2 := hcont.eventually (Metric.ball_mem_nhds z hε)
    obtain ⟨r, ⟨hr1, hr2⟩, hr0⟩ := ((h1.and h2).and self_mem_nhdsWithin).exists
    have hr0 : 0 < r := hr0
    obtain ⟨b, hr3⟩ := interior_subset hr1
    refine ⟨b, ?_, hb b ⟨_, hr2, hr3⟩⟩
    rintro rfl
    have := (mem_solid_bc (hq b)).1 hr3 l
    rw [bc_move (hq b), hzl, dirCoord_edge (hq b)] at this
    simp [hj0.symm] at this
    linarith
  have hzp' := (mem_solid_bc (hq b)).1 hzb
  obtain ⟨m, hm⟩ : ∃ m, bc (q b) z m = 0 := by
    by_contra hcon
    push Not at hcon
    have hin : z ∈ interior (solid (q b)) := (interior_bc (hq b)).2 fun i => lt_of_le_of_ne (hzp' i) (hcon i).symm
    have hcl : z ∈ closure (interior (solid (q a))) := by
      have hcont : Filter.Tendsto (fun r : ℝ => z + r • (q a l - q a j0)) (𝓝[>] 0) (𝓝 z) := by
        have : Filter.Tendsto (fun r : ℝ => z + r • (q a l - q a j0)) (𝓝 0) (𝓝 (z + (0 : ℝ) • (q a l - q a j0))) := by
          apply Continuous.tendsto; fun_prop
        rw [zero_smul, add_zero] at this
        exact this.mono_left nhdsWithin_le_nhds
      refine mem_closure_of_tendsto hcont ?_
      have h2 : ∀ᶠ r : ℝ in 𝓝[>] 0, r < bc (q a) z j0 :=
        (Filter.Tendsto.mono_left Filter.tendsto_id nhdsWithin_le_nhds).eventually (gt_mem_nhds (hzp j0 hj0))
      filter_upwards [h2, self_mem_nhdsWithin] with r hr hr0
      have hr0 : 0 < r := hr0
      refine (interior_bc (hq a)).2 fun i => ?_
      rw [bc_move (hq a), dirCoord_edge (hq a)]
      by_cases hil : i = l
      · subst hil
        rw [hzl]
        simp [hj0.symm, hr0]
      · by_cases hij : i = j0
        · subst hij
          simp [hil]
          linarith
        · simp [hil, hij, hzp i hil]
    obtain ⟨w, hw1, hw2⟩ := mem_closure_iff.1 hcl _ isOpen_interior hin
    exact (Set.eq_empty_iff_forall_notMem.1 (dq a b (Ne.symm hba))) w ⟨hw2, hw1⟩
  refine hfree b m z hba (hgen b m hm) hzl hzp hm fun j hj => lt_of_le_of_ne (hzp' j) fun h0 => ?_
  exact one_face_in_plane (hq a) (hq b) hj.symm (hgen b m hm) (hgen b j h0.symm)

end PyQC
