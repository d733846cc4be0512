import Verif.Lemmas.PlanarTri
import Verif.Lemmas.Triangulate
import Verif.Lemmas.Grid
/-!
# A triangulation exists for every list of points not on a line; triangles on a coarse grid are resolved
-/
namespace PyQC
open Matrix MeasureTheory Topology

/-! ## Triangulations from cones -/

def apex : Fin 3 → ℝ := ![0, 0, 1]

/-- Base triangle of a tetrahedron below corner `f`. -/
def under (q : Fin 4 → Fin 3 → ℝ) (f : Fin 4) : Fin 3 → Fin 3 → ℝ := fun k => q (f.succAbove k)

theorem under_solid (q : Fin 4 → Fin 3 → ℝ) (f : Fin 4) : solid (under q f) ⊆ solid q :=
  convexHull_mono (by rintro _ ⟨k, rfl⟩; exact ⟨_, rfl⟩)

theorem cone_not_plane {pts : List (Fin 2 → ℝ)} (h : ¬ InLine pts) : ¬ InPlane (apex :: pts.map (atHeight 0)) := by
  rintro ⟨n, hn, d, hd⟩
  have ha := hd apex (by simp)
  have hp : ∀ p ∈ pts, n 0 * p 0 + n 1 * p 1 = d := by
    intro p hp
    have := hd (atHeight 0 p) (List.mem_cons_of_mem _ (List.mem_map.2 ⟨p, hp, rfl⟩))
    rw [vec3_dotProduct] at this
    have e : atHeight 0 p = ![p 0, p 1, 0] := rfl
    rw [e] at this
    simp only [cons_val_zero, cons_val_one, cons_val, mul_zero, add_zero] at this
    exact this
  rw [vec3_dotProduct] at ha
  simp [apex] at ha
  by_cases h0 : n 0 = 0 ∧ n 1 = 0
  · have hd0 : ∀ p ∈ pts, False := by
      intro p hp'
      have := hp p hp'
      rw [h0.1, h0.2] at this
      simp at this
      apply hn
      funext j
      fin_cases j
      · exact h0.1
      · exact h0.2
      · exact ha.trans this.symm
    refine h ⟨![1, 0], ?_, 0, fun p hp' => (hd0 p hp').elim⟩
    intro e
    have := congrFun e 0
    simp at this
  · refine h ⟨![n 0, n 1], ?_, d, fun p hp' => ?_⟩
    · intro e
      exact h0 ⟨by simpa using congrFun e 0, by simpa using congrFun e 1⟩
    · rw [vec2_dotProduct]; exact hp p hp'

theorem cone_apex {pts : List (Fin 2 → ℝ)} {q : Fin 4 → Fin 3 → ℝ} (hd : det4 q ≠ 0)
    (hq : ∀ i, q i ∈ apex :: pts.map (atHeight 0)) : ∃ f, q f = apex ∧ ∀ k, ∃ p ∈ pts, under q f k = atHeight 0 p := by
  have hf : ∃ f, q f = apex := by
    by_contra hno
    push Not at hno
    apply hd
    have hz : ∀ i, q i 2 = 0 := by
      intro i
      rcases List.mem_cons.1 (hq i) with h | h
      · exact absurd h (hno i)
      · obtain ⟨p, -, e⟩ := List.mem_map.1 h
        rw [← e]; rfl
    rw [det4_eq]
    simp [hz]
  obtain ⟨f, hf⟩ := hf
  refine ⟨f, hf, fun k => ?_⟩
  rcases List.mem_cons.1 (hq (f.succAbove k)) with h | h
  · exfalso
    have hne : f.succAbove k ≠ f := Fin.succAbove_ne f k
    have h1 := bc_corner hd f
    have h2 := bc_corner hd (f.succAbove k)
    rw [h, ← hf, h1] at h2
    have := congrFun h2 f
    simp [hne.symm] at this
  · obtain ⟨p, hp, e⟩ := List.mem_map.1 h
    exact ⟨p, hp, e.symm⟩

theorem cone_cross {q : Fin 4 → Fin 3 → ℝ} (hd : det4 q ≠ 0) {f : Fin 4} (hf : q f = apex) (hz : Flat 0 (under q f)) :
    crossZ (under q f) ≠ 0 := by
  intro h0
  apply hd
  have z0 := hz 0; have z1 := hz 1; have z2 := hz 2
  rw [det4_eq]
  fin_cases f <;> simp [under, crossZ, Fin.succAbove, Fin.lt_def] at hf h0 z0 z1 z2 <;>
    simp [hf, z0, z1, z2, apex] <;> linarith

theorem cone_base {q : Fin 4 → Fin 3 → ℝ} {f : Fin 4} (hf : q f = apex) (hz : Flat 0 (under q f)) {p : Fin 2 → ℝ}
    (h : atHeight 0 p ∈ solid q) : atHeight 0 p ∈ solid (under q f) := by
  obtain ⟨w, hw, h0⟩ := mem_solid_iff.1 h
  have e := congrFun hw.2 2
  rw [Finset.sum_apply, Fin.sum_univ_succAbove _ f] at e
  have hz' : ∀ k, q (f.succAbove k) 2 = 0 := hz
  simp only [Pi.smul_apply, smul_eq_mul, hz', hf, mul_zero, Finset.sum_const_zero, add_zero] at e
  have hwf : w f = 0 := by
    have : (0 : ℝ) = w f * 1 := e
    linarith
  refine mem_solid_iff.2 ⟨fun k => w (f.succAbove k), ⟨?_, ?_⟩, fun k => h0 _⟩
  · have := hw.1
    rw [Fin.sum_univ_succAbove _ f, hwf, zero_add] at this
    exact this
  · have := hw.2
    rw [Fin.sum_univ_succAbove _ f, hwf, zero_smul, zero_add] at this
    exact this

theorem cone_interior {q : Fin 4 → Fin 3 → ℝ} {f : Fin 4} (hf : q f = apex) (hz : Flat 0 (under q f)) {p : Fin 2 → ℝ}
    (hp : p ∈ interior (slice 0 (solid (under q f)))) :
    (![p 0 / 2, p 1 / 2, 1 / 2] : Fin 3 → ℝ) ∈ interior (solid q) := by
  rw [mem_interior_iff_mem_nhds]
  set x0 : Fin 3 → ℝ := ![p 0 / 2, p 1 / 2, 1 / 2] with hx0
  let g : (Fin 3 → ℝ) → Fin 2 → ℝ := fun x => (1 - x 2)⁻¹ • xy x
  have hg0 : g x0 = p := by
    funext j
    fin_cases j <;> simp [g, hx0, xy] <;> norm_num <;> ring
  have hg : ContinuousAt g x0 := by
    change ContinuousAt ((fun x : Fin 3 → ℝ => (1 - x 2)⁻¹) • xy) x0
    refine ContinuousAt.smul ?_ ?_
    · refine ContinuousAt.inv₀ (continuousAt_const.sub (continuous_apply 2).continuousAt) ?_
      simp [hx0]; norm_num
    · apply Continuous.continuousAt
      unfold xy
      fun_prop
  have h1 : ∀ᶠ x in 𝓝 x0, g x ∈ interior (slice 0 (solid (under q f))) := by
    apply hg.eventually
    rw [hg0]
    exact isOpen_interior.mem_nhds hp
  have hc2 : ContinuousAt (fun x : Fin 3 → ℝ => x 2) x0 := (continuous_apply 2).continuousAt
  have h2 : ∀ᶠ x in 𝓝 x0, 0 < x 2 := hc2.eventually (lt_mem_nhds (by simp [hx0]))
  have h3 : ∀ᶠ x in 𝓝 x0, x 2 < 1 := hc2.eventually (gt_mem_nhds (by simp [hx0]; norm_num))
  filter_upwards [h1, h2, h3] with x e1 e2 e3
  have hm : atHeight 0 (g x) ∈ solid q := under_solid q f (mem_slice.1 (interior_subset e1))
  have ha : apex ∈ solid q := hf ▸ subset_convexHull ℝ _ ⟨f, rfl⟩
  have := solid_convex q hm ha (a := 1 - x 2) (b := x 2) (by linarith) e2.le (by ring)
  convert this using 1
  have hne : (1 : ℝ) - x 2 ≠ 0 := by linarith
  funext j
  fin_cases j <;> simp [g, atHeight, apex, xy] <;> field_simp

/-- There is a library behaviour that fills the hull without overlaps. -/
theorem exists_tiles2 : ∃ delaunay, TilesHull2 delaunay := by
  classical
  have key : ∀ pts : List (Fin 2 → ℝ), ¬ InLine pts → ∃ l : List (Fin 3 → Nat), ∃ h : ∀ i ∈ l, ∀ k, i k < pts.length,
      (∀ x ∈ convexHull ℝ {y | y ∈ pts}, ∃ i, ∃ hi : i ∈ l,
        cross2 (pts[i 1]'(h i hi 1) - pts[i 0]'(h i hi 0)) (pts[i 2]'(h i hi 2) - pts[i 0]'(h i hi 0)) ≠ 0 ∧
        x ∈ convexHull ℝ (Set.range fun k => pts[i k]'(h i hi k))) ∧
      (l.attach.map fun i k => pts[i.1 k]'(h i.1 i.2 k)).Pairwise fun a b : Fin 3 → Fin 2 → ℝ =>
        interior (convexHull ℝ (Set.range a)) ∩ interior (convexHull ℝ (Set.range b)) = ∅ := by
    intro pts hn
    have hn3 := cone_not_plane hn
    obtain ⟨q, hq, hv, -⟩ := hull_simplex hn3 (x := apex) (subset_convexHull ℝ _ (by simp))
    have hd : det4 q ≠ 0 := by
      intro h0; apply hv; rw [tetVol_det4, h0]; simp
    obtain ⟨T, hT⟩ := tiling_exists hd (apex :: pts.map (atHeight 0))
    have hA : ({x | x ∈ apex :: pts.map (atHeight 0)} ∪ Set.range q : Set (Fin 3 → ℝ)) =
        {x | x ∈ apex :: pts.map (atHeight 0)} := by
      refine Set.union_eq_self_of_subset_right ?_
      rintro _ ⟨k, rfl⟩; exact hq k
    rw [hA] at hT
    have hidx : ∀ t : Fin 4 → Fin 3 → ℝ, ∃ (f : Fin 4) (i : Fin 3 → Nat), t ∈ T → t f = apex ∧ Flat 0 (under t f) ∧
        ∀ k, ∃ h : i k < pts.length, pts[i k] = xy (under t f k) := by
      intro t
      by_cases ht : t ∈ T
      · obtain ⟨f, hf, hk⟩ := cone_apex (hT.det t ht) (hT.corner t ht)
        choose p hp e using hk
        choose i hi using fun k => List.get_of_mem (hp k)
        refine ⟨f, fun k => i k, fun _ => ⟨hf, fun k => by rw [e]; rfl, fun k => ⟨(i k).2, ?_⟩⟩⟩
        rw [e, xy_atHeight]; exact hi k
      · exact ⟨0, fun _ => 0, fun h => absurd h ht⟩
    choose f idx hidx using hidx
    have hlt : ∀ i ∈ T.map idx, ∀ k, i k < pts.length := by
      intro i hi k
      obtain ⟨t, ht, rfl⟩ := List.mem_map.1 hi
      exact ((hidx t ht).2.2 k).1
    have htri : ∀ t (ht : t ∈ T), (fun k => pts[idx t k]'(hlt _ (List.mem_map.2 ⟨t, ht, rfl⟩) k)) =
        fun k => xy (under t (f t) k) := by
      intro t ht
      funext k
      exact ((hidx t ht).2.2 k).2
    refine ⟨T.map idx, hlt, ?_, ?_⟩
    · intro x hx
      have hx3 : atHeight 0 x ∈ convexHull ℝ {y | y ∈ apex :: pts.map (atHeight 0)} := by
        have hlev : ∀ y ∈ {y | y ∈ pts.map (atHeight 0)}, y 2 = (0 : ℝ) := by
          intro y hy
          obtain ⟨p, -, rfl⟩ := List.mem_map.1 hy
          rfl
        have hm : x ∈ slice 0 (convexHull ℝ {y | y ∈ pts.map (atHeight 0)}) := by
          rw [slice_hull hlev]
          refine convexHull_mono ?_ hx
          intro y hy
          exact ⟨atHeight 0 y, List.mem_map.2 ⟨y, hy, rfl⟩, xy_atHeight ..⟩
        exact convexHull_mono (fun y hy => List.mem_cons_of_mem _ hy) (mem_slice.1 hm)
      obtain ⟨t, ht, hxt⟩ := hT.cover _ hx3
      obtain ⟨hf, hz, -⟩ := hidx t ht
      refine ⟨idx t, List.mem_map.2 ⟨t, ht, rfl⟩, ?_, ?_⟩
      · have e := htri t ht
        rw [show pts[idx t 1]'_ = xy (under t (f t) 1) from congrFun e 1,
          show pts[idx t 0]'_ = xy (under t (f t) 0) from congrFun e 0,
          show pts[idx t 2]'_ = xy (under t (f t) 2) from congrFun e 2, cross2_crossZ]
        exact cone_cross (hT.det t ht) hf hz
      · rw [htri t ht, ← slice_solid hz]
        exact mem_slice.2 (cone_base hf hz hxt)
    · have e : ((T.map idx).attach.map fun i k => pts[i.1 k]'(hlt i.1 i.2 k)) = T.map fun t k => xy (under t (f t) k) := by
        refine List.ext_getElem (by simp) ?_
        intro n h1 h2
        simp only [List.getElem_map, List.getElem_attach]
        exact htri _ (List.getElem_mem _)
      rw [e, List.pairwise_map]
      refine List.Pairwise.imp_of_mem (fun {a b} ha hb hab => ?_) hT.disj
      obtain ⟨fa, za, -⟩ := hidx a ha
      obtain ⟨fb, zb, -⟩ := hidx b hb
      rw [← slice_solid za, ← slice_solid zb, Set.eq_empty_iff_forall_notMem]
      rintro p ⟨h1, h2⟩
      exact Set.eq_empty_iff_forall_notMem.1 hab _ ⟨cone_interior fa za h1, cone_interior fb zb h2⟩
  choose l hl h1 h2 using key
  refine ⟨fun pts => if hn : ¬ InLine pts then some (l pts hn) else none, ⟨?_, fun pts hn => ?_⟩, ?_⟩
  · intro pts l' he
    by_cases hn : ¬ InLine pts
    · simp only [dif_pos hn, Option.some.injEq] at he
      subst he
      exact hl pts hn
    · simp only [dif_neg hn] at he
      cases he
  · exact ⟨l pts hn, dif_pos hn, fun h => h1 pts hn⟩
  · intro pts l' he h
    by_cases hn : ¬ InLine pts
    · simp only [dif_pos hn, Option.some.injEq] at he
      subst he
      exact h2 pts hn
    · simp only [dif_neg hn] at he
      cases he

/-! ## Grids -/

/-- Twice the signed area of three integer points of the plane. -/
def triZ (p q r : Fin 2 → ℤ) : ℤ := (q 0 - p 0) * (r 1 - p 1) - (q 1 - p 1) * (r 0 - p 0)

section
variable {S T : Fin 3 → Fin 3 → ℝ} {a b : Fin 3 → Fin 2 → ℤ} {n : ℕ} {z : ℝ}

theorem crossZ_int (h0 : ∀ i, S i 0 = a i 0 / n) (h1 : ∀ i, S i 1 = a i 1 / n) :
    crossZ S = (triZ (a 0) (a 1) (a 2) : ℝ) / n ^ 2 := by
  unfold crossZ triZ
  simp only [h0, h1]
  push_cast
  ring

theorem acceptTri_int (hn : 0 < n) (h0 : ∀ i, T i 0 = b i 0 / n) (h1 : ∀ i, T i 1 = b i 1 / n)
    (hb0 : triZ (b 0) (b 1) (b 2) ≠ 0) (hb : |triZ (b 0) (b 1) (b 2)| < 10 ^ 6) {x : Fin 3 → ℝ} {p : Fin 2 → ℤ}
    (x0 : x 0 = p 0 / n) (x1 : x 1 = p 1 / n) (h : AcceptsTri T x) : x ∈ solid T := by
  obtain ⟨-, w, hw, hs⟩ := h
  have hpart := neg_part_lt hw.1 hs
  refine mem_solid_iff.2 ⟨w, hw, ?_⟩
  have hn' : (n : ℝ) ≠ 0 := by exact_mod_cast hn.ne'
  have hd : (triZ (b 0) (b 1) (b 2) : ℝ) ≠ 0 := by exact_mod_cast hb0
  have e1 := hw.1
  have e2 := congrFun hw.2 0
  have e3 := congrFun hw.2 1
  rw [Fin.sum_univ_three] at e1
  rw [Finset.sum_apply, Fin.sum_univ_three] at e2 e3
  simp only [Pi.smul_apply, smul_eq_mul, h0, h1, x0, x1] at e2 e3
  have f2 : (p 0 : ℝ) = w 0 * b 0 0 + w 1 * b 1 0 + w 2 * b 2 0 := by field_simp at e2; linarith
  have f3 : (p 1 : ℝ) = w 0 * b 0 1 + w 1 * b 1 1 + w 2 * b 2 1 := by field_simp at e3; linarith
  have ew : w 0 = 1 - w 1 - w 2 := by linarith
  have q0 : w 0 = (triZ p (b 1) (b 2) : ℝ) / triZ (b 0) (b 1) (b 2) := by
    rw [eq_div_iff hd]
    unfold triZ
    push_cast
    rw [f2, f3, ew]
    ring
  have q1 : w 1 = (triZ (b 0) p (b 2) : ℝ) / triZ (b 0) (b 1) (b 2) := by
    rw [eq_div_iff hd]
    unfold triZ
    push_cast
    rw [f2, f3, ew]
    ring
  have q2 : w 2 = (triZ (b 0) (b 1) p : ℝ) / triZ (b 0) (b 1) (b 2) := by
    rw [eq_div_iff hd]
    unfold triZ
    push_cast
    rw [f2, f3, ew]
    ring
  have fin : ∀ (i : Fin 3) (c : ℤ), w i = (c : ℝ) / triZ (b 0) (b 1) (b 2) → 0 ≤ w i := by
    intro i c hc
    have := hpart i
    rw [hc] at this ⊢
    exact quot_nonneg hb (by linarith)
  intro i
  fin_cases i
  · exact fin 0 _ q0
  · exact fin 1 _ q1
  · exact fin 2 _ q2

theorem resolvedTri_int (hn : 0 < n) (hn2 : n ^ 4 ≤ 10 ^ 6) (zS : Flat z S) (zT : Flat z T)
    (s0 : ∀ i, S i 0 = a i 0 / n) (s1 : ∀ i, S i 1 = a i 1 / n) (t0 : ∀ i, T i 0 = b i 0 / n) (t1 : ∀ i, T i 1 = b i 1 / n)
    (ha0 : triZ (a 0) (a 1) (a 2) ≠ 0) (hb0 : triZ (b 0) (b 1) (b 2) ≠ 0)
    (ha : |triZ (a 0) (a 1) (a 2)| < 10 ^ 6) (hb : |triZ (b 0) (b 1) (b 2)| < 10 ^ 6) : ResolvedTri S T := by
  have hn' : (n : ℝ) ≠ 0 := by exact_mod_cast hn.ne'
  refine ⟨?_, ?_, fun i h => acceptTri_int hn t0 t1 hb0 hb (s0 i) (s1 i) h,
    fun i h => acceptTri_int hn s0 s1 ha0 ha (t0 i) (t1 i) h, ?_⟩
  · rw [triArea_flat_ne zS, crossZ_int s0 s1]
    exact div_ne_zero (by exact_mod_cast ha0) (pow_ne_zero _ hn')
  · rw [triArea_flat_ne zT, crossZ_int t0 t1]
    exact div_ne_zero (by exact_mod_cast hb0) (pow_ne_zero _ hn')
  · intro i j k l _ _ hc
    set c : ℤ := (a j 0 - a i 0) * (b l 1 - b k 1) - (a j 1 - a i 1) * (b l 0 - b k 0) with hcdef
    have e : crossProduct (S j - S i) (T l - T k) = ![0, 0, (c : ℝ) / n ^ 2] := by
      funext m
      fin_cases m
      · simp [cross_apply, zS i, zS j, zT k, zT l]
      · simp [cross_apply, zS i, zS j, zT k, zT l]
      · simp [cross_apply, s0, s1, t0, t1, hcdef]
        field_simp
        try ring
    rw [e] at hc ⊢
    have hc0 : c ≠ 0 := by
      intro h0
      apply hc
      rw [h0]
      funext m
      fin_cases m <;> simp
    have h1 : (1 : ℝ) ≤ (c : ℝ) ^ 2 := by
      have : 1 ≤ c ^ 2 := by
        have := Int.one_le_abs hc0
        nlinarith [sq_abs c]
      exact_mod_cast this
    have h2 : (n : ℝ) ^ 4 ≤ 10 ^ 6 := by exact_mod_cast hn2
    have h3 : (0 : ℝ) < (n : ℝ) ^ 4 := by positivity
    have e2 : (![0, 0, (c : ℝ) / n ^ 2] : Fin 3 → ℝ) ⬝ᵥ ![0, 0, (c : ℝ) / n ^ 2] = (c : ℝ) ^ 2 / n ^ 4 := by
      simp [vec3_dotProduct]; field_simp
    rw [e2, div_le_div_iff₀ (by norm_num) h3]
    nlinarith

end
end PyQC
