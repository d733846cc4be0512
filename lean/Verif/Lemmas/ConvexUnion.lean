import Verif.Lemmas.Triangulate
import Verif.Lemmas.Extreme
import Mathlib.Topology.Baire.Lemmas
import Mathlib.Topology.Baire.CompleteMetrizable
import Mathlib.Analysis.Normed.Module.Connected
/-!
# Unions of tetrahedra: where a line leaves the union, and the corners of the common part of two unions

Only faces that belong to one tetrahedron matter.
-/
namespace PyQC
open Topology

theorem bc_move {q : Fin 4 → Fin 3 → ℝ} (h : det4 q ≠ 0) (x d : Fin 3 → ℝ) (r : ℝ) (i : Fin 4) :
    bc q (x + r • d) i = bc q x i + r * dirCoord h d i := by
  obtain ⟨e1, e2⟩ := dirCoord_spec h d
  obtain ⟨f1, f2⟩ := bc_spec h x
  refine congrFun (bc_eq h (w := fun i => bc q x i + r * dirCoord h d i) ⟨?_, ?_⟩) i
  · rw [Finset.sum_add_distrib, f1, ← Finset.mul_sum, e1]; ring
  · simp only [add_smul, Finset.sum_add_distrib, mul_smul]
    rw [← Finset.smul_sum, e2, ← f2]

theorem dirCoord_sub {q : Fin 4 → Fin 3 → ℝ} (h : det4 q ≠ 0) (x y : Fin 3 → ℝ) (i : Fin 4) :
    dirCoord h (y - x) i = bc q y i - bc q x i := by
  have := bc_move h x (y - x) 1 i
  rw [one_smul, add_sub_cancel, one_mul] at this
  linarith

/-- An affine function that is somewhere non-zero is non-zero on a dense set. -/
theorem affine_dense {f : (Fin 3 → ℝ) → ℝ} (hf : ∀ x y (r : ℝ), f ((1 - r) • x + r • y) = (1 - r) * f x + r * f y)
    {p : Fin 3 → ℝ} (hp : f p ≠ 0) : Dense {x | f x ≠ 0} := by
  intro x
  by_cases hx : f x = 0
  · have hc : Filter.Tendsto (fun r : ℝ => (1 - r) • x + r • p) (𝓝[≠] 0) (𝓝 x) := by
      have : Filter.Tendsto (fun r : ℝ => (1 - r) • x + r • p) (𝓝 0) (𝓝 ((1 - (0 : ℝ)) • x + (0 : ℝ) • p)) := by
        apply Continuous.tendsto; fun_prop
      simp only [sub_zero, one_smul, zero_smul, add_zero] at this
      exact this.mono_left nhdsWithin_le_nhds
    refine mem_closure_of_tendsto hc ?_
    filter_upwards [self_mem_nhdsWithin] with r hr
    rw [hf, hx, mul_zero, zero_add]
    exact mul_ne_zero hr hp
  · exact subset_closure hx

/-- The points covered by a family of tetrahedra. -/
def covered {ι : Type} (q : ι → Fin 4 → Fin 3 → ℝ) : Set (Fin 3 → ℝ) := {x | ∃ a, x ∈ solid (q a)}

/-- The points of the face of tetrahedron `a` opposite to its corner `l`. -/
def faceSet {ι : Type} (q : ι → Fin 4 → Fin 3 → ℝ) (a : ι) (l : Fin 4) : Set (Fin 3 → ℝ) :=
  {x | x ∈ solid (q a) ∧ bc (q a) x l = 0}

/-- No other face has the same corners. -/
def FreeFace {ι : Type} (q : ι → Fin 4 → Fin 3 → ℝ) (a : ι) (l : Fin 4) : Prop :=
  ∀ b m, (b, m) ≠ (a, l) → q b '' {j | j ≠ m} ≠ q a '' {j | j ≠ l}

variable {ι : Type} [Finite ι] {q : ι → Fin 4 → Fin 3 → ℝ}

theorem covered_compact : IsCompact (covered q) := by
  have : covered q = ⋃ a, solid (q a) := by ext; simp [covered]
  rw [this]
  exact isCompact_iUnion fun a => solid_compact _

omit [Finite ι] in
theorem faceSet_closed (a : ι) (l : Fin 4) : IsClosed (faceSet q a l) :=
  (solid_compact (q a)).isClosed.inter (isClosed_eq (bc_continuous l) continuous_const)

omit [Finite ι] in
theorem corner_inj (h : ∀ a, det4 (q a) ≠ 0) (a : ι) {i j : Fin 4} (e : q a i = q a j) : i = j := by
  have := congrFun (bc_corner (h a) i) i
  rw [e, bc_corner (h a) j] at this
  by_contra hne
  simp [hne] at this

/-- A small ball around a point only meets those faces of a kind that contain the point. -/
theorem ball_faces (x : Fin 3 → ℝ) : ∃ ε > 0, ∀ a l, (∃ z ∈ Metric.ball x ε, z ∈ faceSet q a l) → x ∈ faceSet q a l := by
  have h : ∀ k : ι × Fin 4, ∀ᶠ z in 𝓝 x, z ∈ faceSet q k.1 k.2 → x ∈ faceSet q k.1 k.2 := by
    intro k
    by_cases hk : x ∈ faceSet q k.1 k.2
    · exact Filter.Eventually.of_forall fun _ _ => hk
    · filter_upwards [(faceSet_closed k.1 k.2).isOpen_compl.mem_nhds hk] with z hz hz'
      exact absurd hz' hz
  obtain ⟨ε, hε, hb⟩ := Metric.eventually_nhds_iff.1 (Filter.eventually_all.2 h)
  exact ⟨ε, hε, fun a l ⟨z, hz, hz'⟩ => hb hz (a, l) hz'⟩

/-- Points in general position for a direction: the line through one of them meets no edge and no corner. -/
theorem generic_dense (h : ∀ a, det4 (q a) ≠ 0) (e : Fin 3 → ℝ) :
    Dense {y | ∀ a (s : ℝ) i j, i ≠ j → bc (q a) (y + s • e) i = 0 → bc (q a) (y + s • e) j ≠ 0} := by
  have d1 : Dense (⋂ k : ι × Fin 4, {y | bc (q k.1) y k.2 ≠ 0}) := by
    refine dense_iInter_of_isOpen (fun k => isOpen_ne_fun (bc_continuous _) continuous_const) fun k => ?_
    refine affine_dense (fun x y r => bc_comb (h _) x y r _) (p := q k.1 k.2) ?_
    rw [bc_corner (h _)]; simp
  have o1 : IsOpen (⋂ k : ι × Fin 4, {y | bc (q k.1) y k.2 ≠ 0}) :=
    isOpen_iInter_of_finite fun k => isOpen_ne_fun (bc_continuous _) continuous_const
  have d2 : Dense (⋂ k : {k : ι × Fin 4 × Fin 4 // k.2.1 ≠ k.2.2 ∧
      (dirCoord (h k.1) e k.2.1 ≠ 0 ∨ dirCoord (h k.1) e k.2.2 ≠ 0)},
      {y | dirCoord (h k.1.1) e k.1.2.2 * bc (q k.1.1) y k.1.2.1 - dirCoord (h k.1.1) e k.1.2.1 * bc (q k.1.1) y k.1.2.2 ≠ 0}) := by
    refine dense_iInter_of_isOpen (fun k => isOpen_ne_fun (Continuous.sub (continuous_const.mul (bc_continuous _))
      (continuous_const.mul (bc_continuous _))) continuous_const) ?_
    rintro ⟨⟨a, i, j⟩, hne, hor⟩
    dsimp only at hne hor ⊢
    have aff : ∀ x y (r : ℝ), dirCoord (h a) e j * bc (q a) ((1 - r) • x + r • y) i -
        dirCoord (h a) e i * bc (q a) ((1 - r) • x + r • y) j =
        (1 - r) * (dirCoord (h a) e j * bc (q a) x i - dirCoord (h a) e i * bc (q a) x j) +
        r * (dirCoord (h a) e j * bc (q a) y i - dirCoord (h a) e i * bc (q a) y j) := by
      intro x y r
      rw [bc_comb (h a), bc_comb (h a)]; ring
    rcases hor with hi | hj
    · refine affine_dense aff (p := q a j) ?_
      rw [bc_corner (h a)]
      simp [hne, hi]
    · refine affine_dense aff (p := q a i) ?_
      rw [bc_corner (h a)]
      simp [hne.symm, hj]
  refine (d1.inter_of_isOpen_left d2 o1).mono ?_
  rintro y ⟨h1, h2⟩ a s i j hij hi hj
  simp only [Set.mem_iInter, Set.mem_ofPred_eq] at h1 h2
  rw [bc_move (h a)] at hi hj
  by_cases hor : dirCoord (h a) e i ≠ 0 ∨ dirCoord (h a) e j ≠ 0
  · refine h2 ⟨(a, i, j), hij, hor⟩ ?_
    dsimp only
    rw [show bc (q a) y i = - (s * dirCoord (h a) e i) by linarith, show bc (q a) y j = - (s * dirCoord (h a) e j) by linarith]
    ring
  · push Not at hor
    refine h1 (a, i) ?_
    rw [hor.1] at hi
    simpa using hi

omit [Finite ι] in
/-- Two tetrahedra with a common face: the coordinates of one that vanish on it are a multiple of the other's, and a point
with only this coordinate zero has the same property in the other. -/
theorem shared_face (h : ∀ a, det4 (q a) ≠ 0) {a b : ι} {l m : Fin 4} (e : q b '' {j | j ≠ m} = q a '' {j | j ≠ l}) :
    ∃ c : ℝ, c ≠ 0 ∧ (∀ x, bc (q b) x m = c * bc (q a) x l) ∧
      ∀ x, bc (q a) x l = 0 → (∀ j, j ≠ l → 0 < bc (q a) x j) → ∀ i, i ≠ m → 0 < bc (q b) x i := by
  have hk : ∀ j, j ≠ l → ∃ i, i ≠ m ∧ q b i = q a j := by
    intro j hj
    have : q a j ∈ q b '' {j | j ≠ m} := by rw [e]; exact ⟨j, hj, rfl⟩
    obtain ⟨i, hi, hi'⟩ := this
    exact ⟨i, hi, hi'⟩
  have hk' : ∀ i, i ≠ m → ∃ j, j ≠ l ∧ q a j = q b i := by
    intro i hi
    have : q b i ∈ q a '' {j | j ≠ l} := by rw [← e]; exact ⟨i, hi, rfl⟩
    obtain ⟨j, hj, hj'⟩ := this
    exact ⟨j, hj, hj'⟩
  have hm : ∀ x, bc (q b) x m = bc (q b) (q a l) m * bc (q a) x l := by
    intro x
    rw [bc_sum (h b) (bc_spec (h a) x), Finset.sum_eq_single l, mul_comm]
    · intro j _ hj
      obtain ⟨i, hi, hi'⟩ := hk j hj
      rw [← hi', bc_corner (h b)]
      simp [hi.symm]
    · simp
  refine ⟨bc (q b) (q a l) m, ?_, hm, ?_⟩
  · intro h0
    have := hm (q b m)
    rw [h0, bc_corner (h b)] at this
    simp at this
  · intro x hl hpos i hi
    rw [bc_sum (h b) (bc_spec (h a) x)]
    have hterm : ∀ j, j ≠ l → bc (q b) (q a j) i = 0 ∨ bc (q b) (q a j) i = 1 := by
      intro j hj
      obtain ⟨i', -, hi'⟩ := hk j hj
      rw [← hi', bc_corner (h b), Pi.single_apply]
      split <;> simp
    obtain ⟨j0, hj0, hj0'⟩ := hk' i hi
    refine Finset.sum_pos' ?_ ⟨j0, Finset.mem_univ _, ?_⟩
    · intro j _
      by_cases hj : j = l
      · rw [hj, hl, zero_mul]
      · rcases hterm j hj with h0 | h0 <;> rw [h0]
        · simp
        · rw [mul_one]; exact (hpos j hj).le
    · rw [hj0', bc_corner (h b)]
      simp
      exact hpos j0 hj0

/-- Where a segment leaves the union, inside any convex neighbourhood of the segment, there is a face that belongs to one
tetrahedron only and is not parallel to the segment. -/
theorem exit_free (h : ∀ a, det4 (q a) ≠ 0) (hd : ∀ a b, a ≠ b → interior (solid (q a)) ∩ interior (solid (q b)) = ∅)
    {N : Set (Fin 3 → ℝ)} (hN : IsOpen N) (hc : Convex ℝ N) {x e : Fin 3 → ℝ} (hx : x ∈ covered q) (he : x + e ∉ covered q)
    (hxN : x ∈ N) (heN : x + e ∈ N) :
    ∃ a l, FreeFace q a l ∧ dirCoord (h a) e l ≠ 0 ∧ ∃ z ∈ N, z ∈ faceSet q a l := by
  obtain ⟨a0, ha0⟩ := hx
  have hcl : IsClosed (covered q) := covered_compact.isClosed
  -- a starting point in general position
  obtain ⟨y, ⟨hyi, hyN, hyeN, hye⟩, hgen⟩ : ∃ y, (y ∈ interior (solid (q a0)) ∧ y ∈ N ∧ y + e ∈ N ∧ y + e ∉ covered q) ∧
      ∀ a (s : ℝ) i j, i ≠ j → bc (q a) (y + s • e) i = 0 → bc (q a) (y + s • e) j ≠ 0 := by
    have hO : IsOpen {y | y ∈ N ∧ y + e ∈ N ∧ y + e ∉ covered q} := by
      have hcont : Continuous fun y : Fin 3 → ℝ => y + e := by fun_prop
      exact hN.inter ((hN.preimage hcont).inter (hcl.isOpen_compl.preimage hcont))
    have hne : (interior (solid (q a0)) ∩ {y | y ∈ N ∧ y + e ∈ N ∧ y + e ∉ covered q}).Nonempty := by
      have hcen : ∀ i, 0 < bc (q a0) ((1 / 4 : ℝ) • ∑ j, q a0 j) i := by
        have : IsBary (q a0) (fun _ => 1 / 4) ((1 / 4 : ℝ) • ∑ j, q a0 j) := by
          constructor
          · simp
          · rw [Finset.smul_sum]
        rw [bc_eq (h a0) this]
        intro i; norm_num
      have ev := move_inside (h a0) ((mem_solid_bc (h a0)).1 ha0) (p := (1 / 4 : ℝ) • ∑ j, q a0 j) (fun i => .inr (hcen i))
      have hc2 : Filter.Tendsto (fun r : ℝ => (1 - r) • x + r • ((1 / 4 : ℝ) • ∑ j, q a0 j)) (𝓝[>] 0) (𝓝 x) := by
        have : Filter.Tendsto (fun r : ℝ => (1 - r) • x + r • ((1 / 4 : ℝ) • ∑ j, q a0 j)) (𝓝 0)
            (𝓝 ((1 - (0 : ℝ)) • x + (0 : ℝ) • ((1 / 4 : ℝ) • ∑ j, q a0 j))) := by
          apply Continuous.tendsto; fun_prop
        simp only [sub_zero, one_smul, zero_smul, add_zero] at this
        exact this.mono_left nhdsWithin_le_nhds
      obtain ⟨r, hr1, hr2⟩ := (ev.and (hc2.eventually (hO.mem_nhds ⟨hxN, heN, he⟩))).exists
      exact ⟨_, hr1, hr2⟩
    obtain ⟨y, hy1, hy2⟩ := (generic_dense h e).inter_open_nonempty _ (isOpen_interior.inter hO) hne
    exact ⟨y, hy1, hy2⟩
  -- the last time in the union
  have hT : IsCompact {s : ℝ | s ∈ Set.Icc (0 : ℝ) 1 ∧ y + s • e ∈ covered q} := by
    have hcont : Continuous fun s : ℝ => y + s • e := by fun_prop
    exact isCompact_Icc.inter_right (hcl.preimage hcont)
  obtain ⟨s, ⟨⟨hs0, hs1⟩, a, ha⟩, hmax⟩ := hT.exists_isGreatest ⟨0, ⟨⟨le_rfl, zero_le_one⟩, ⟨a0, by
    rw [zero_smul, add_zero]; exact interior_subset hyi⟩⟩⟩
  have hs1' : s < 1 := by
    refine lt_of_le_of_ne hs1 fun e1 => hye ⟨a, ?_⟩
    rw [e1, one_smul] at ha
    exact ha
  set z := y + s • e with hz
  have hzN : z ∈ N := by
    have : z = (1 - s) • y + s • (y + e) := by rw [hz]; module
    rw [this]
    exact hc hyN hyeN (by linarith) hs0 (by ring)
  have hlast : ∀ b, ¬ ∀ᶠ r : ℝ in 𝓝[>] 0, z + r • e ∈ solid (q b) := by
    intro b hev
    have h2 : ∀ᶠ r : ℝ in 𝓝[>] 0, s + r < 1 := by
      have : Filter.Tendsto (fun r : ℝ => s + r) (𝓝 0) (𝓝 (s + 0)) := by apply Continuous.tendsto; fun_prop
      rw [add_zero] at this
      exact (this.eventually (gt_mem_nhds hs1')).filter_mono nhdsWithin_le_nhds
    obtain ⟨r, ⟨hr1, hr2⟩, hr3⟩ := ((hev.and h2).and self_mem_nhdsWithin).exists
    have hr3 : 0 < r := hr3
    have := hmax (a := s + r) ⟨⟨by linarith, by linarith⟩, b, by rw [add_smul, ← add_assoc]; exact hr1⟩
    linarith
  -- moving on inside a tetrahedron
  have hmove : ∀ b, (∀ i, 0 < bc (q b) z i ∨ (0 ≤ bc (q b) z i ∧ 0 ≤ dirCoord (h b) e i)) →
      ∀ᶠ r : ℝ in 𝓝[>] 0, z + r • e ∈ solid (q b) := by
    intro b hb
    have := move_towards (h b) (y := z) (p := z + (1 : ℝ) • e) (fun i => (hb i).elim le_of_lt fun h => h.1) (fun i => by
      rcases hb i with h1 | ⟨h1, h2⟩
      · exact .inl h1
      · right
        rw [bc_move (h b)]
        linarith)
    refine this.mono fun r hr => ?_
    have e1 : (1 - r) • z + r • (z + (1 : ℝ) • e) = z + r • e := by module
    rwa [e1] at hr
  have h0 := (mem_solid_bc (h a)).1 ha
  obtain ⟨l, hl, hneg⟩ : ∃ l, bc (q a) z l = 0 ∧ dirCoord (h a) e l < 0 := by
    by_contra hcon
    push Not at hcon
    refine hlast a (hmove a fun i => ?_)
    rcases (h0 i).lt_or_eq with h1 | h1
    · exact .inl h1
    · exact .inr ⟨h0 i, hcon i h1.symm⟩
  have hpos : ∀ j, j ≠ l → 0 < bc (q a) z j := fun j hj =>
    lt_of_le_of_ne (h0 j) fun e1 => hgen a s l j (Ne.symm hj) hl e1.symm
  refine ⟨a, l, ?_, hneg.ne, z, hzN, ha, hl⟩
  rintro b m hbm heq
  by_cases hab : b = a
  · subst hab
    refine hbm (Prod.ext rfl ?_)
    by_contra hml
    have hml : m ≠ l := hml
    have : q b m ∈ q b '' {j | j ≠ m} := by rw [heq]; exact ⟨m, hml, rfl⟩
    obtain ⟨j, hj, hj'⟩ := this
    exact hj (corner_inj h b hj')
  · obtain ⟨c, hc0, hcm, hcpos⟩ := shared_face h heq
    have hposb := hcpos z hl hpos
    have hzb : bc (q b) z m = 0 := by rw [hcm, hl, mul_zero]
    rcases lt_or_gt_of_ne hc0 with hcn | hcp
    · refine hlast b (hmove b fun i => ?_)
      by_cases hi : i = m
      · subst hi
        refine .inr ⟨hzb.ge, ?_⟩
        have h1 := bc_move (h b) z e 1 i
        have h2 := bc_move (h a) z e 1 l
        rw [hcm, h2, hzb, hl] at h1
        have : dirCoord (h b) e i = c * dirCoord (h a) e l := by linarith
        rw [this]
        exact (mul_pos_of_neg_of_neg hcn hneg).le
      · exact .inl (hposb i hi)
    · have hal : ∀ i, 0 < bc (q a) z i ∨ 0 < bc (q a) (q a l) i := by
        intro i
        by_cases hi : i = l
        · right; rw [hi, bc_corner (h a)]; simp
        · exact .inl (hpos i hi)
      have hbl : ∀ i, 0 < bc (q b) z i ∨ 0 < bc (q b) (q a l) i := by
        intro i
        by_cases hi : i = m
        · right; rw [hi, hcm, bc_corner (h a)]; simpa using hcp
        · exact .inl (hposb i hi)
      have e1 := move_inside (h a) h0 (p := q a l) hal
      have e2 := move_inside (h b) (y := z) (p := q a l) (fun i => by
        by_cases hi : i = m
        · rw [hi, hzb]
        · exact (hposb i hi).le) hbl
      obtain ⟨r, hr1, hr2⟩ := (e1.and e2).exists
      have := hd b a hab
      rw [Set.eq_empty_iff_forall_notMem] at this
      exact this _ ⟨hr2, hr1⟩

/-- From a point of the union, a direction that cannot be followed both ways crosses a face through the point that belongs to
one tetrahedron only. -/
theorem exit_surface (h : ∀ a, det4 (q a) ≠ 0) (hd : ∀ a b, a ≠ b → interior (solid (q a)) ∩ interior (solid (q b)) = ∅)
    {x d : Fin 3 → ℝ} (hx : x ∈ covered q) (hn : ¬ ∀ᶠ r : ℝ in 𝓝 0, x + r • d ∈ covered q) :
    ∃ a l, FreeFace q a l ∧ x ∈ faceSet q a l ∧ dirCoord (h a) d l ≠ 0 := by
  obtain ⟨ε, hε, hb⟩ := ball_faces (q := q) x
  have hcont : Filter.Tendsto (fun r : ℝ => x + r • d) (𝓝 0) (𝓝 x) := by
    have : Filter.Tendsto (fun r : ℝ => x + r • d) (𝓝 0) (𝓝 (x + (0 : ℝ) • d)) := by apply Continuous.tendsto; fun_prop
    rwa [zero_smul, add_zero] at this
  have hfr : ∃ᶠ r : ℝ in 𝓝 0, x + r • d ∉ covered q := Filter.not_eventually.1 hn
  obtain ⟨r, hr1, hr2⟩ := (hfr.and_eventually (hcont.eventually (Metric.ball_mem_nhds x hε))).exists
  obtain ⟨a, l, hf, hne, z, hz, hz'⟩ := exit_free h hd Metric.isOpen_ball (convex_ball x ε) hx hr1 (Metric.mem_ball_self hε) hr2
  refine ⟨a, l, hf, hb a l ⟨z, hz, hz'⟩, fun h0 => hne ?_⟩
  rw [map_smul, Pi.smul_apply, h0, smul_zero]

end PyQC
