import Verif.Lemmas.ConvexCommon
/-!
# Convex unions whose surfaces do not cross: one contains the other, or they have no common interior point
-/
namespace PyQC
open Topology

theorem ray_tendsto (w u : Fin 3 → ℝ) (r : ℝ) : Filter.Tendsto (fun s : ℝ => w + s • u) (𝓝 r) (𝓝 (w + r • u)) := by
  apply Continuous.tendsto; fun_prop

theorem ray_inside {A : Set (Fin 3 → ℝ)} (hA : Convex ℝ A) {w u : Fin 3 → ℝ} (hw : w ∈ interior A) {r s : ℝ} (h0 : 0 ≤ s)
    (hs : s < r) (hr : w + r • u ∈ A) : w + s • u ∈ interior A := by
  have hr0 : 0 < r := lt_of_le_of_lt h0 hs
  rcases h0.eq_or_lt with h | h
  · rw [← h, zero_smul, add_zero]; exact hw
  refine hA.openSegment_interior_self_subset_interior hw hr ⟨1 - s / r, s / r, ?_, by positivity, by ring, ?_⟩
  · have := (div_lt_one hr0).2 hs
    linarith
  · funext i
    simp only [Pi.add_apply, Pi.smul_apply, smul_eq_mul]
    field_simp
    ring

theorem ray_mem {A : Set (Fin 3 → ℝ)} (hA : Convex ℝ A) {w u : Fin 3 → ℝ} (hw : w ∈ interior A) {r s : ℝ} (h0 : 0 ≤ s)
    (hs : s ≤ r) (hr : w + r • u ∈ A) : w + s • u ∈ A := by
  rcases hs.eq_or_lt with h | h
  · rw [h]; exact hr
  · exact interior_subset (ray_inside hA hw h0 h hr)

/-- The directions in which one leaves `B` before `A` form an open set. -/
theorem ray_open {A B : Set (Fin 3 → ℝ)} (hA : Convex ℝ A) (hB : IsClosed B) {w : Fin 3 → ℝ} (hw : w ∈ interior A) :
    IsOpen {u : Fin 3 → ℝ | ∃ r : ℝ, 0 < r ∧ w + r • u ∈ A ∧ w + r • u ∉ B} := by
  have : {u : Fin 3 → ℝ | ∃ r : ℝ, 0 < r ∧ w + r • u ∈ A ∧ w + r • u ∉ B} =
      ⋃ r : {r : ℝ // 0 < r}, {u | w + r.1 • u ∈ interior A ∩ Bᶜ} := by
    ext u
    simp only [Set.mem_setOf_eq, Set.mem_iUnion, Set.mem_inter_iff, Set.mem_compl_iff, Subtype.exists, exists_prop]
    constructor
    · rintro ⟨r, h0, h1, h2⟩
      have ev := (ray_tendsto w u r).eventually (hB.isOpen_compl.mem_nhds h2)
      have ev2 : ∀ᶠ s in 𝓝 r, 0 < s := lt_mem_nhds h0
      obtain ⟨s, ⟨hs1, hs2⟩, hs3⟩ := (((ev.and ev2).filter_mono (nhdsWithin_le_nhds (s := Set.Iio r))).and
        self_mem_nhdsWithin).exists
      exact ⟨s, hs2, ray_inside hA hw hs2.le hs3 h1, hs1⟩
    · rintro ⟨r, h0, h1, h2⟩
      exact ⟨r, h0, interior_subset h1, h2⟩
  rw [this]
  refine isOpen_iUnion fun r => ?_
  have hcont : Continuous fun u : Fin 3 → ℝ => w + r.1 • u := by fun_prop
  exact (isOpen_interior.inter hB.isOpen_compl).preimage hcont

/-- If every common border point has a neighbourhood in which both sets agree, the directions in which one leaves both
at the same point form an open set. -/
theorem ray_equal_open {A B : Set (Fin 3 → ℝ)} (hA : Convex ℝ A) (hB : Convex ℝ B) (kA : IsCompact A) (kB : IsCompact B)
    {w : Fin 3 → ℝ} (wA : w ∈ interior A) (wB : w ∈ interior B)
    (hloc : ∀ z, z ∈ A → z ∈ B → z ∉ interior A → z ∉ interior B → ∃ ε > 0, ∀ y ∈ Metric.ball z ε, y ∈ A ↔ y ∈ B) :
    IsOpen {u : Fin 3 → ℝ | u ≠ 0 ∧ ∀ r : ℝ, 0 < r → (w + r • u ∈ A ↔ w + r • u ∈ B)} := by
  rw [isOpen_iff_mem_nhds]
  rintro u ⟨hu, hAB⟩
  -- the last point of the ray in `A`
  obtain ⟨R, hR⟩ := kA.isBounded.subset_closedBall w
  have hT : IsCompact {s : ℝ | s ∈ Set.Icc (0 : ℝ) (R / ‖u‖) ∧ w + s • u ∈ A} := by
    have hcont : Continuous fun s : ℝ => w + s • u := by fun_prop
    exact isCompact_Icc.inter_right (kA.isClosed.preimage hcont)
  have hn : 0 < ‖u‖ := norm_pos_iff.2 hu
  have hle : ∀ s : ℝ, 0 ≤ s → w + s • u ∈ A → s ≤ R / ‖u‖ := by
    intro s hs h
    have := hR h
    rw [Metric.mem_closedBall, dist_self_add_left, norm_smul, Real.norm_eq_abs, abs_of_nonneg hs] at this
    exact (le_div_iff₀ hn).2 this
  obtain ⟨r, ⟨⟨hr0, -⟩, hrA⟩, hmax⟩ := hT.exists_isGreatest ⟨0, ⟨⟨le_rfl, hle 0 le_rfl (by
    rw [zero_smul, add_zero]; exact interior_subset wA)⟩, by rw [zero_smul, add_zero]; exact interior_subset wA⟩⟩
  have hout : ∀ s, r < s → w + s • u ∉ A := fun s hs h =>
    absurd (hmax ⟨⟨hr0.trans hs.le, hle s (hr0.trans hs.le) h⟩, h⟩) (not_le.2 hs)
  have notint : ∀ {C : Set (Fin 3 → ℝ)}, (∀ s, r < s → w + s • u ∉ C) → w + r • u ∉ interior C := by
    intro C hC h
    have ev := (ray_tendsto w u r).eventually (mem_interior_iff_mem_nhds.1 h)
    obtain ⟨s, hs1, hs2⟩ := ((ev.filter_mono (nhdsWithin_le_nhds (s := Set.Ioi r))).and self_mem_nhdsWithin).exists
    exact hC s hs2 hs1
  have hrpos : 0 < r := by
    refine lt_of_le_of_ne hr0 fun e => notint hout ?_
    rw [← e, zero_smul, add_zero]
    exact wA
  have houtB : ∀ s, r < s → w + s • u ∉ B := fun s hs h => hout s hs ((hAB s (hrpos.trans hs)).2 h)
  have hrB := (hAB r hrpos).1 hrA
  obtain ⟨ε, hε, hb⟩ := hloc _ hrA hrB (notint hout) (notint houtB)
  have ev := (ray_tendsto w u r).eventually (Metric.ball_mem_nhds (w + r • u) hε)
  obtain ⟨r1, ⟨hr1, hr1'⟩, hr1''⟩ := (((ev.and (lt_mem_nhds hrpos)).filter_mono
    (nhdsWithin_le_nhds (s := Set.Iio r))).and self_mem_nhdsWithin).exists
  obtain ⟨r2, hr2, hr2'⟩ := ((ev.filter_mono (nhdsWithin_le_nhds (s := Set.Ioi r))).and self_mem_nhdsWithin).exists
  have hr1'' : r1 < r := hr1''
  have hr2' : r < r2 := hr2'
  have c1 : Filter.Tendsto (fun v : Fin 3 → ℝ => w + r1 • v) (𝓝 u) (𝓝 (w + r1 • u)) := by apply Continuous.tendsto; fun_prop
  have c2 : Filter.Tendsto (fun v : Fin 3 → ℝ => w + r2 • v) (𝓝 u) (𝓝 (w + r2 • u)) := by apply Continuous.tendsto; fun_prop
  filter_upwards [c1.eventually (Metric.isOpen_ball.mem_nhds hr1), c2.eventually (Metric.isOpen_ball.mem_nhds hr2),
    c1.eventually (isOpen_interior.mem_nhds (ray_inside hA wA hr1'.le hr1'' hrA)),
    c1.eventually (isOpen_interior.mem_nhds (ray_inside hB wB hr1'.le hr1'' hrB)),
    c2.eventually (kA.isClosed.isOpen_compl.mem_nhds (hout r2 hr2')),
    c2.eventually (kB.isClosed.isOpen_compl.mem_nhds (houtB r2 hr2')), isOpen_ne.mem_nhds hu] with v v1 v2 v3 v4 v5 v6 v7
  refine ⟨v7, fun s hs => ?_⟩
  by_cases h1 : s ≤ r1
  · exact ⟨fun _ => ray_mem hB wB hs.le h1 (interior_subset v4), fun _ => ray_mem hA wA hs.le h1 (interior_subset v3)⟩
  · push Not at h1
    by_cases h2 : r2 ≤ s
    · exact ⟨fun h => absurd (ray_mem hA wA (hrpos.trans hr2').le h2 h) v5,
        fun h => absurd (ray_mem hB wB (hrpos.trans hr2').le h2 h) v6⟩
    · push Not at h2
      refine hb _ ?_
      have hlt : 0 < r2 - r1 := by linarith
      have e : w + s • v = ((r2 - s) / (r2 - r1)) • (w + r1 • v) + ((s - r1) / (r2 - r1)) • (w + r2 • v) := by
        funext i
        simp only [Pi.add_apply, Pi.smul_apply, smul_eq_mul]
        field_simp
        ring
      rw [e]
      exact convex_ball _ _ v1 v2 (div_nonneg (by linarith) hlt.le) (div_nonneg (by linarith) hlt.le) (by field_simp; ring)

/-- Two compact convex sets with a common interior point whose borders agree near common border points are nested. -/
theorem nested_of_local {A B : Set (Fin 3 → ℝ)} (hA : Convex ℝ A) (hB : Convex ℝ B) (kA : IsCompact A) (kB : IsCompact B)
    {w : Fin 3 → ℝ} (wA : w ∈ interior A) (wB : w ∈ interior B)
    (hloc : ∀ z, z ∈ A → z ∈ B → z ∉ interior A → z ∉ interior B → ∃ ε > 0, ∀ y ∈ Metric.ball z ε, y ∈ A ↔ y ∈ B) :
    A ⊆ B ∨ B ⊆ A := by
  by_contra hcon
  push Not at hcon
  obtain ⟨⟨a, ha, ha'⟩, ⟨b, hb, hb'⟩⟩ := And.intro (Set.not_subset.1 hcon.1) (Set.not_subset.1 hcon.2)
  have hpre : IsPreconnected ({0}ᶜ : Set (Fin 3 → ℝ)) := by
    refine (isConnected_compl_singleton_of_one_lt_rank ?_ 0).isPreconnected
    rw [rank_fin_fun]
    norm_num
  have oA := ray_open hA kB.isClosed wA
  have oB := ray_open hB kA.isClosed wB
  have oE := ray_equal_open hA hB kA kB wA wB hloc
  have ne : ∀ {C : Set (Fin 3 → ℝ)} {x}, w ∈ interior C → x ∉ C → x - w ≠ 0 := by
    intro C x hC hx h
    rw [sub_eq_zero] at h
    exact hx (h ▸ interior_subset hC)
  obtain ⟨u, hu, ⟨r1, h1, h1', h1''⟩, h2⟩ := hpre _ _ oA (oB.union oE) (by
    intro u hu
    have hu : u ≠ 0 := hu
    by_cases hE : ∀ r : ℝ, 0 < r → (w + r • u ∈ A ↔ w + r • u ∈ B)
    · exact .inr (.inr ⟨hu, hE⟩)
    · push Not at hE
      obtain ⟨r, hr, h | h⟩ := hE
      · exact .inl ⟨r, hr, h.1, h.2⟩
      · exact .inr (.inl ⟨r, hr, h.2, h.1⟩))
    ⟨a - w, ne wB ha', 1, one_pos, by simpa using ha, by simpa using ha'⟩
    ⟨b - w, ne wA hb', .inl ⟨1, one_pos, by simpa using hb, by simpa using hb'⟩⟩
  rcases h2 with ⟨r2, h2, h2', h2''⟩ | ⟨-, hE⟩
  · rcases le_total r1 r2 with h | h
    · exact h1'' (ray_mem hB wB h1.le h h2')
    · exact h2'' (ray_mem hA wA h2.le h h1')
  · exact h1'' ((hE r1 h1).1 h1')

variable {ι κ : Type} [Finite ι] [Finite κ] {q : ι → Fin 4 → Fin 3 → ℝ} {p : κ → Fin 4 → Fin 3 → ℝ}

/-- Two convex unions of tetrahedra with a common interior point whose surfaces do not cross: one contains the other. -/
theorem nested_of_no_cross (hq : ∀ a, det4 (q a) ≠ 0) (hp : ∀ b, det4 (p b) ≠ 0)
    (dq : ∀ a b, a ≠ b → interior (solid (q a)) ∩ interior (solid (q b)) = ∅)
    (dp : ∀ a b, a ≠ b → interior (solid (p a)) ∩ interior (solid (p b)) = ∅)
    (cq : Convex ℝ (covered q)) (cp : Convex ℝ (covered p)) (n1 : ∀ x, ¬ FreeCross q hp x) (n2 : ∀ x, ¬ FreeCross p hq x)
    {w : Fin 3 → ℝ} (wq : w ∈ interior (covered q)) (wp : w ∈ interior (covered p)) :
    covered q ⊆ covered p ∨ covered p ⊆ covered q := by
  refine nested_of_local cq cp covered_compact covered_compact wq wp fun z zq zp iq ip => ?_
  obtain ⟨a0, l0, hf0, hz0⟩ := free_through hq dq zq iq
  obtain ⟨b0, m0, hg0, hy0⟩ := free_through hp dp zp ip
  have par : ∀ a l, FreeFace q a l → z ∈ faceSet q a l → ∀ b m, FreeFace p b m → z ∈ faceSet p b m →
      LinearMap.ker (faceFun (hq a) l) = LinearMap.ker (faceFun (hp b) m) := by
    intro a l hf hz b m hg hy
    by_contra hne
    obtain ⟨x, h | h⟩ := cross_of_faces hq hp hf hg hz hy hne
    · exact n1 x h
    · exact n2 x h
  have e1 := half_space hq dq cq zq iq (faceFun_ne (hp b0) m0) (fun a l hf hz => par a l hf hz b0 m0 hg0 hy0) wq
  have e2 := half_space hp dp cp zp ip (faceFun_ne (hp b0) m0) (fun b m hg hy =>
    (par a0 l0 hf0 hz0 b m hg hy).symm.trans (par a0 l0 hf0 hz0 b0 m0 hg0 hy0)) wp
  have fin : ∀ g : (Fin 3 → ℝ) →ₗ[ℝ] ℝ, (∃ ε > 0, ∀ y ∈ Metric.ball z ε, y ∈ covered q ↔ 0 ≤ g (y - z)) →
      (∃ ε > 0, ∀ y ∈ Metric.ball z ε, y ∈ covered p ↔ 0 ≤ g (y - z)) →
      ∃ ε > 0, ∀ y ∈ Metric.ball z ε, y ∈ covered q ↔ y ∈ covered p := by
    rintro g ⟨ε1, h1, k1⟩ ⟨ε2, h2, k2⟩
    refine ⟨min ε1 ε2, lt_min h1 h2, fun y hy => ?_⟩
    rw [k1 y (Metric.ball_subset_ball (min_le_left _ _) hy), k2 y (Metric.ball_subset_ball (min_le_right _ _) hy)]
  rcases e1 with ⟨s1, k1⟩ | ⟨s1, k1⟩ <;> rcases e2 with ⟨s2, k2⟩ | ⟨s2, k2⟩
  · exact fin _ k1 k2
  · rw [LinearMap.neg_apply] at s2; linarith
  · rw [LinearMap.neg_apply] at s1; linarith
  · exact fin _ k1 k2

end PyQC
