import Verif.Lemmas.Triangulate
/-!
# Around an extreme corner of a set of tetrahedra there is a face that belongs to one tetrahedron only

`flag_face`: let tetrahedra without common interior points be given and let `V` be a corner where a linear function
has a strict minimum among all corners. Then some tetrahedron has a face `V, W, X` such that no other tetrahedron has
`V`, `W` and a point of the plane of the face among its corners.
-/
namespace PyQC
open Filter Topology

variable {q : Fin 4 → Fin 3 → ℝ}

theorem lin_bc (h : det4 q ≠ 0) (φ : (Fin 3 → ℝ) →ₗ[ℝ] ℝ) (x : Fin 3 → ℝ) : φ x = ∑ i, bc q x i * φ (q i) := by
  conv_lhs => rw [(bc_spec h x).2]
  simp [map_sum]

/-- A linear function that is constant on the corners of a tetrahedron is zero. -/
theorem lin_const (h : det4 q ≠ 0) {φ : (Fin 3 → ℝ) →ₗ[ℝ] ℝ} {c : ℝ} (hc : ∀ i, φ (q i) = c) : φ = 0 := by
  have key : ∀ x, φ x = c := by
    intro x
    rw [lin_bc h φ x]
    simp only [hc, ← Finset.sum_mul, (bc_spec h x).1, one_mul]
  have h0 : c = 0 := by rw [← key 0, map_zero]
  ext x
  simp [key, h0]

theorem perm_cover {i j k l : Fin 4} (hij : i ≠ j) (hik : i ≠ k) (hjk : j ≠ k) (hil : i ≠ l) (hjl : j ≠ l) (hkl : k ≠ l)
    (m : Fin 4) : m = i ∨ m = j ∨ m = k ∨ m = l := by
  revert i j k l m; decide

theorem exists_fourth (i j k : Fin 4) : ∃ l, i ≠ l ∧ j ≠ l ∧ k ≠ l := by
  revert i j k; decide

theorem exists_other_two {i j : Fin 4} (h : i ≠ j) : ∃ k l, i ≠ k ∧ j ≠ k ∧ i ≠ l ∧ j ≠ l ∧ k ≠ l := by
  revert i j; decide

theorem sum_perm {i j k l : Fin 4} (hij : i ≠ j) (hik : i ≠ k) (hjk : j ≠ k) (hil : i ≠ l) (hjl : j ≠ l) (hkl : k ≠ l)
    (g : Fin 4 → ℝ) : ∑ m, g m = g i + g j + g k + g l := by
  have hu : (Finset.univ : Finset (Fin 4)) = {i, j, k, l} := by
    ext m
    simp only [Finset.mem_univ, Finset.mem_insert, Finset.mem_singleton, true_iff]
    exact perm_cover hij hik hjk hil hjl hkl m
  rw [hu, Finset.sum_insert (by simp [hij, hik, hil]), Finset.sum_insert (by simp [hjk, hjl]),
    Finset.sum_insert (by simp [hkl]), Finset.sum_singleton]
  ring

/-- Two tetrahedra with a common edge, whose next corners lie in one half plane bounded by the line of the edge and
whose last corners lie on one side of that plane, have a common interior point. -/
theorem overlap {q q' : Fin 4 → Fin 3 → ℝ} (h : det4 q ≠ 0) (h' : det4 q' ≠ 0) {i j k l i' j' k' l' : Fin 4}
    (hij : i ≠ j) (hik : i ≠ k) (hjk : j ≠ k) (hil : i ≠ l) (hjl : j ≠ l) (hkl : k ≠ l)
    (hij' : i' ≠ j') (hik' : i' ≠ k') (hjk' : j' ≠ k') (hil' : i' ≠ l') (hjl' : j' ≠ l') (hkl' : k' ≠ l')
    (hV : q' i' = q i) (hW : q' j' = q j) (r p : (Fin 3 → ℝ) →ₗ[ℝ] ℝ)
    (rW : r (q j) = r (q i)) (rX : r (q k) = r (q i)) (rX' : r (q' k') = r (q i)) (rY : r (q i) < r (q l))
    (rY' : r (q i) < r (q' l')) (pW : p (q j) = p (q i)) (pX : p (q i) < p (q k)) (pX' : p (q i) < p (q' k')) :
    (interior (solid q) ∩ interior (solid q')).Nonempty := by
  have lin : ∀ (φ : (Fin 3 → ℝ) →ₗ[ℝ] ℝ) (x : Fin 3 → ℝ), φ x - φ (q i) = bc q' x i' * (φ (q' i') - φ (q i)) +
      bc q' x j' * (φ (q' j') - φ (q i)) + bc q' x k' * (φ (q' k') - φ (q i)) + bc q' x l' * (φ (q' l') - φ (q i)) := by
    intro φ x
    have h1 := lin_bc h' φ x
    have h2 := (bc_spec h' x).1
    rw [sum_perm hij' hik' hjk' hil' hjl' hkl'] at h1 h2
    linear_combination h1 + φ (q i) * h2
  -- coordinates of the third and fourth corner of `q` with respect to `q'`
  have eXl : bc q' (q k) l' = 0 := by
    have := lin r (q k)
    rw [hV, hW, rW, rX, rX', sub_self] at this
    have h0 : bc q' (q k) l' * (r (q' l') - r (q i)) = 0 := by linarith
    rcases mul_eq_zero.1 h0 with h0 | h0
    · exact h0
    · linarith
  have eXk : 0 < bc q' (q k) k' := by
    have := lin p (q k)
    rw [hV, hW, pW, eXl, sub_self] at this
    have h0 : bc q' (q k) k' * (p (q' k') - p (q i)) = p (q k) - p (q i) := by linarith
    by_contra hc
    push Not at hc
    nlinarith
  have eYl : 0 < bc q' (q l) l' := by
    have := lin r (q l)
    rw [hV, hW, rW, rX', sub_self] at this
    have h0 : bc q' (q l) l' * (r (q' l') - r (q i)) = r (q l) - r (q i) := by linarith
    by_contra hc
    push Not at hc
    nlinarith
  have cov := perm_cover hij hik hjk hil hjl hkl
  have cov' := perm_cover hij' hik' hjk' hil' hjl' hkl'
  -- midpoint of the edge
  set y1 : Fin 3 → ℝ := (1 - (1 / 2 : ℝ)) • q i + (1 / 2 : ℝ) • q j with hy1
  have b1 : ∀ m, bc q y1 m = (1 / 2) * (Pi.single i 1 : Fin 4 → ℝ) m + (1 / 2) * (Pi.single j 1 : Fin 4 → ℝ) m := by
    intro m; rw [hy1, bc_comb h, bc_corner h, bc_corner h]; norm_num
  have b1' : ∀ m, bc q' y1 m = (1 / 2) * (Pi.single i' 1 : Fin 4 → ℝ) m + (1 / 2) * (Pi.single j' 1 : Fin 4 → ℝ) m := by
    intro m; rw [hy1, ← hV, ← hW, bc_comb h', bc_corner h', bc_corner h']; norm_num
  have c1i : bc q y1 i = 1 / 2 := by rw [b1]; simp [hij]
  have c1j : bc q y1 j = 1 / 2 := by rw [b1]; simp [hij.symm]
  have c1k : bc q y1 k = 0 := by rw [b1]; simp [hik.symm, hjk.symm]
  have c1l : bc q y1 l = 0 := by rw [b1]; simp [hil.symm, hjl.symm]
  have c1i' : bc q' y1 i' = 1 / 2 := by rw [b1']; simp [hij']
  have c1j' : bc q' y1 j' = 1 / 2 := by rw [b1']; simp [hij'.symm]
  have c1k' : bc q' y1 k' = 0 := by rw [b1']; simp [hik'.symm, hjk'.symm]
  have c1l' : bc q' y1 l' = 0 := by rw [b1']; simp [hil'.symm, hjl'.symm]
  -- towards the third corner
  have small : ∀ a b : ℝ, 0 < a → ∀ᶠ s : ℝ in 𝓝[>] 0, 0 < (1 - s) * a + s * b := by
    intro a b ha
    have : Tendsto (fun s : ℝ => (1 - s) * a + s * b) (𝓝 0) (𝓝 ((1 - 0) * a + 0 * b)) := by
      apply Continuous.tendsto; fun_prop
    exact ((this.eventually (lt_mem_nhds (by simpa using ha))).filter_mono nhdsWithin_le_nhds)
  have hpos : ∀ᶠ s : ℝ in 𝓝[>] 0, 0 < s := eventually_mem_nhdsWithin
  have hone : ∀ᶠ s : ℝ in 𝓝[>] 0, s < 1 :=
    (Filter.Tendsto.eventually (tendsto_id (x := 𝓝 (0 : ℝ))) (gt_mem_nhds (by norm_num : (0 : ℝ) < 1))).filter_mono nhdsWithin_le_nhds
  obtain ⟨s, hs0, hs1, e1, e2, e3, e4⟩ := (hpos.and (hone.and ((small _ (bc q (q k) i) (by rw [c1i]; norm_num : 0 < bc q y1 i)).and
    ((small _ (bc q (q k) j) (by rw [c1j]; norm_num : 0 < bc q y1 j)).and
    ((small _ (bc q' (q k) i') (by rw [c1i']; norm_num : 0 < bc q' y1 i')).and
    (small _ (bc q' (q k) j') (by rw [c1j']; norm_num : 0 < bc q' y1 j'))))))).exists
  set y2 : Fin 3 → ℝ := (1 - s) • y1 + s • q k with hy2
  have b2 : ∀ m, bc q y2 m = (1 - s) * bc q y1 m + s * bc q (q k) m := fun m => bc_comb h y1 (q k) s m
  have b2' : ∀ m, bc q' y2 m = (1 - s) * bc q' y1 m + s * bc q' (q k) m := fun m => bc_comb h' y1 (q k) s m
  have hck : bc q (q k) k = 1 := by rw [bc_corner h]; simp
  have hcl : bc q (q k) l = 0 := by rw [bc_corner h]; simp [hkl.symm]
  have d2k : 0 < bc q y2 k := by rw [b2, c1k, hck]; linarith
  have d2l : bc q y2 l = 0 := by rw [b2, c1l, hcl]; ring
  have d2k' : 0 < bc q' y2 k' := by rw [b2', c1k', mul_zero, zero_add]; positivity
  have d2l' : bc q' y2 l' = 0 := by rw [b2', c1l', eXl]; ring
  rw [← b2] at e1 e2
  rw [← b2'] at e3 e4
  -- towards the fourth corner
  have hdl : bc q (q l) l = 1 := by rw [bc_corner h]; simp
  obtain ⟨t, ht1, ht2⟩ := ((move_inside h (y := y2) (p := q l) (by
      intro m
      rcases cov m with rfl | rfl | rfl | rfl
      · exact e1.le
      · exact e2.le
      · exact d2k.le
      · exact d2l.ge) (by
      intro m
      rcases cov m with rfl | rfl | rfl | rfl
      · exact .inl e1
      · exact .inl e2
      · exact .inl d2k
      · right; rw [hdl]; norm_num)).and (move_inside h' (y := y2) (p := q l) (by
      intro m
      rcases cov' m with rfl | rfl | rfl | rfl
      · exact e3.le
      · exact e4.le
      · exact d2k'.le
      · exact d2l'.ge) (by
      intro m
      rcases cov' m with rfl | rfl | rfl | rfl
      · exact .inl e3
      · exact .inl e4
      · exact .inl d2k'
      · exact .inr eYl))).exists
  exact ⟨_, ht1, ht2⟩

/-- Two more linear functions that determine a vector together with a given non-zero one. -/
theorem complete_functional {f : (Fin 3 → ℝ) →ₗ[ℝ] ℝ} (hf : f ≠ 0) :
    ∃ g h : (Fin 3 → ℝ) →ₗ[ℝ] ℝ, ∀ u, f u = 0 → g u = 0 → h u = 0 → u = 0 := by
  have hc : ∃ c, f (Pi.single c 1) ≠ 0 := by
    by_contra hn
    push Not at hn
    apply hf
    apply LinearMap.pi_ext'
    intro c
    ext
    simpa using hn c
  obtain ⟨c, hc⟩ := hc
  let P : Fin 3 → (Fin 3 → ℝ) →ₗ[ℝ] ℝ := fun a => LinearMap.proj (R := ℝ) (φ := fun _ : Fin 3 => ℝ) a
  have fe : ∀ u : Fin 3 → ℝ, f u = ∑ a, u a * f (Pi.single a 1) := by
    intro u
    conv_lhs => rw [pi_eq_sum_univ' u]
    rw [map_sum]
    refine Finset.sum_congr rfl fun a _ => ?_
    rw [map_smul, smul_eq_mul]
  refine ⟨P (c + 1), P (c + 2), fun u h0 h1 h2 => ?_⟩
  change u (c + 1) = 0 at h1
  change u (c + 2) = 0 at h2
  rw [fe] at h0
  have e : ∑ a, u a * f (Pi.single a 1) = u c * f (Pi.single c 1) + u (c + 1) * f (Pi.single (c + 1) 1) +
      u (c + 2) * f (Pi.single (c + 2) 1) := by
    rw [Fin.sum_univ_three]
    fin_cases c <;> simp <;> ring
  rw [e, h1, h2] at h0
  have h3 : u c = 0 := by
    rcases mul_eq_zero.1 (by linarith : u c * f (Pi.single c 1) = 0) with h | h
    · exact h
    · exact absurd h hc
  funext a
  fin_cases c <;> fin_cases a <;> assumption

/-- The corner, the edge and the face: the selection. -/
theorem flag_choice {ι : Type} [Finite ι] {q : ι → Fin 4 → Fin 3 → ℝ} (hdet : ∀ a, det4 (q a) ≠ 0) {V : Fin 3 → ℝ}
    {f : (Fin 3 → ℝ) →ₗ[ℝ] ℝ} (hf : ∀ a i, q a i ≠ V → f V < f (q a i)) {a0 : ι} {i0 : Fin 4} (h0 : q a0 i0 = V) :
    ∃ a, ∃ i j k : Fin 4, i ≠ j ∧ i ≠ k ∧ j ≠ k ∧ q a i = V ∧ ∃ r p : (Fin 3 → ℝ) →ₗ[ℝ] ℝ, r ≠ 0 ∧
      r (q a j) = r V ∧ p (q a j) = p V ∧ r (q a k) = r V ∧ p V < p (q a k) ∧
      ∀ b i' j' m, q b i' = V → q b j' = q a j → m ≠ i' → m ≠ j' →
        r V ≤ r (q b m) ∧ (r (q b m) = r V → p V < p (q b m)) := by
  classical
  have inj : ∀ a, Function.Injective (q a) := by
    intro a m n hmn
    by_contra hne
    have h1 : bc (q a) (q a m) m = 1 := by rw [bc_corner (hdet a)]; simp
    rw [hmn, bc_corner (hdet a)] at h1
    simp [hne] at h1
  have hdiff : ∀ (φ : (Fin 3 → ℝ) →ₗ[ℝ] ℝ) x, φ (x - V) = φ x - φ V := fun φ x => map_sub φ x V
  obtain ⟨k0, l0, n1, -, -⟩ := exists_other_two (show i0 ≠ i0 + 1 by clear h0; revert i0; decide)
  have hf0 : f ≠ 0 := by
    rintro rfl
    have := hf a0 k0 (fun e => n1 (inj a0 (h0.trans e.symm)))
    simp at this
  obtain ⟨g, h, hgh⟩ := complete_functional hf0
  -- the edge
  let D : Set (Fin 3 → ℝ) := {x | ∃ a i m, q a i = V ∧ q a m = x ∧ x ≠ V}
  have hDfin : D.Finite := (Set.finite_range fun am : ι × Fin 4 => q am.1 am.2).subset (by
    rintro x ⟨a, i, m, -, rfl, -⟩; exact ⟨(a, m), rfl⟩)
  have hDne : D.Nonempty := ⟨q a0 k0, a0, i0, k0, h0, rfl, fun e => n1 (inj a0 (h0.trans e.symm))⟩
  have hDpos : ∀ x ∈ D, 0 < f (x - V) := by
    rintro x ⟨a, i, m, -, rfl, hx⟩
    rw [hdiff]; linarith [hf a m hx]
  obtain ⟨W1, hW1, hmin1⟩ := Set.exists_min_image D (fun x => g (x - V) / f (x - V)) hDfin hDne
  set m1 := g (W1 - V) / f (W1 - V) with hm1
  obtain ⟨W, ⟨hW, hWm1⟩, hmin2⟩ := Set.exists_min_image {x ∈ D | g (x - V) / f (x - V) = m1}
    (fun x => h (x - V) / f (x - V)) (hDfin.subset (Set.sep_subset _ _)) ⟨W1, hW1, rfl⟩
  set m2 := h (W - V) / f (W - V) with hm2
  let p : (Fin 3 → ℝ) →ₗ[ℝ] ℝ := g - m1 • f
  let s : (Fin 3 → ℝ) →ₗ[ℝ] ℝ := h - m2 • f
  have pe : ∀ u, p u = g u - m1 * f u := fun u => rfl
  have se : ∀ u, s u = h u - m2 * f u := fun u => rfl
  have fW := hDpos W hW
  have pW : p (W - V) = 0 := by
    rw [pe, ← hWm1, div_mul_cancel₀ _ fW.ne', sub_self]
  have sW : s (W - V) = 0 := by
    rw [se, hm2, div_mul_cancel₀ _ fW.ne', sub_self]
  have pD : ∀ x ∈ D, 0 ≤ p (x - V) := by
    intro x hx
    have := hmin1 x hx
    rw [le_div_iff₀ (hDpos x hx)] at this
    rw [pe]; linarith
  have sD : ∀ x ∈ D, p (x - V) = 0 → 0 ≤ s (x - V) := by
    intro x hx hp
    have h1 : g (x - V) / f (x - V) = m1 := by
      rw [div_eq_iff (hDpos x hx).ne']; rw [pe] at hp; linarith
    have := hmin2 x ⟨hx, h1⟩
    rw [le_div_iff₀ (hDpos x hx)] at this
    rw [se]; linarith
  -- independence
  have ind : ∀ u, p u = 0 → s u = 0 → u = (f u / f (W - V)) • (W - V) := by
    intro u h1 h2
    rw [← sub_eq_zero]
    have e1 : f (u - (f u / f (W - V)) • (W - V)) = 0 := by
      rw [map_sub, map_smul, smul_eq_mul, div_mul_cancel₀ _ fW.ne', sub_self]
    have e2 : p (u - (f u / f (W - V)) • (W - V)) = 0 := by
      rw [map_sub, map_smul, pW, h1]; simp
    have e3 : s (u - (f u / f (W - V)) • (W - V)) = 0 := by
      rw [map_sub, map_smul, sW, h2]; simp
    apply hgh _ e1
    · rw [pe, e1] at e2; linarith
    · rw [se, e1] at e3; linarith
  have p0 : p ≠ 0 := by
    intro e
    obtain ⟨d, hd, h1, h2⟩ := exists_dir f h
    have : p d = 0 := by rw [e]; rfl
    rw [pe, h1] at this
    exact hd (hgh d h1 (by linarith) h2)
  -- the link of the edge
  let E : Set (Fin 3 → ℝ) := {x | ∃ b i j m, q b i = V ∧ q b j = W ∧ m ≠ i ∧ m ≠ j ∧ q b m = x}
  have hVW : W ≠ V := by obtain ⟨_, _, _, _, _, h⟩ := hW; exact h
  have hED : E ⊆ D := by
    rintro x ⟨b, i, j, m, hi, hj, hmi, hmj, rfl⟩
    exact ⟨b, i, m, hi, rfl, fun e => hmi (inj b (e.trans hi.symm))⟩
  have hEnz : ∀ x ∈ E, ¬ (p (x - V) = 0 ∧ s (x - V) = 0) := by
    rintro x ⟨b, i, j, m, hi, hj, hmi, hmj, rfl⟩ ⟨h1, h2⟩
    have e := ind _ h1 h2
    set c := f (q b m - V) / f (W - V)
    have e' : q b m = (1 - c) • q b i + c • q b j := by
      rw [hi, hj]
      have : q b m = V + c • (W - V) := by rw [← e]; abel
      rw [this]; module
    have h3 : bc (q b) (q b m) m = 1 := by rw [bc_corner (hdet b)]; simp
    rw [e', bc_comb (hdet b), bc_corner (hdet b), bc_corner (hdet b)] at h3
    simp [hmi, hmj] at h3
  have hEfin : {x ∈ E | 0 < p (x - V)}.Finite := hDfin.subset ((Set.sep_subset _ _).trans hED)
  have hEne : {x ∈ E | 0 < p (x - V)}.Nonempty := by
    obtain ⟨b, i, j, hi, hj, hne⟩ := hW
    have hij : i ≠ j := by rintro rfl; exact hne (hj.symm.trans hi)
    obtain ⟨k, l, hik, hjk, hil, hjl, hkl⟩ := exists_other_two hij
    have hk : q b k ∈ E := ⟨b, i, j, k, hi, hj, hik.symm, hjk.symm, rfl⟩
    have hl : q b l ∈ E := ⟨b, i, j, l, hi, hj, hil.symm, hjl.symm, rfl⟩
    by_contra hemp
    rw [Set.not_nonempty_iff_eq_empty] at hemp
    have z : ∀ x ∈ E, p (x - V) = 0 := by
      intro x hx
      refine le_antisymm (not_lt.1 fun hlt => ?_) (pD x (hED hx))
      have : x ∈ {x ∈ E | 0 < p (x - V)} := ⟨hx, hlt⟩
      rw [hemp] at this
      exact this
    apply p0
    apply lin_const (hdet b) (c := p V)
    intro m
    rcases perm_cover hij hik hjk hil hjl hkl m with rfl | rfl | rfl | rfl
    · rw [hi]
    · rw [hj]; rw [hdiff] at pW; linarith
    · have := z _ hk; rw [hdiff] at this; linarith
    · have := z _ hl; rw [hdiff] at this; linarith
  obtain ⟨X, ⟨hX, hXp⟩, hmin3⟩ := Set.exists_min_image _ (fun x => s (x - V) / p (x - V)) hEfin hEne
  set m3 := s (X - V) / p (X - V) with hm3
  let r : (Fin 3 → ℝ) →ₗ[ℝ] ℝ := s - m3 • p
  have re : ∀ u, r u = s u - m3 * p u := fun u => rfl
  have rX : r (X - V) = 0 := by rw [re, hm3, div_mul_cancel₀ _ hXp.ne', sub_self]
  have rW : r (W - V) = 0 := by rw [re, sW, pW]; ring
  have rE : ∀ x ∈ E, 0 ≤ r (x - V) ∧ (r (x - V) = 0 → 0 < p (x - V)) := by
    intro x hx
    rcases (pD x (hED hx)).lt_or_eq with hp | hp
    · refine ⟨?_, fun _ => hp⟩
      have := hmin3 x ⟨hx, hp⟩
      rw [le_div_iff₀ hp] at this
      rw [re]; linarith
    · have h1 := sD x (hED hx) hp.symm
      have h2 : s (x - V) ≠ 0 := fun e => hEnz x hx ⟨hp.symm, e⟩
      have h3 : r (x - V) = s (x - V) := by rw [re, ← hp]; ring
      rw [h3]
      exact ⟨h1, fun e => absurd e h2⟩
  have r0 : r ≠ 0 := by
    intro e
    obtain ⟨d, hd, h1, h2⟩ := exists_dir f g
    have h3 : r d = 0 := by rw [e]; rfl
    rw [re, se, pe, h1, h2] at h3
    exact hd (hgh d h1 h2 (by linarith))
  obtain ⟨b, i, j, k, hi, hj, hki, hkj, hk⟩ := hX
  refine ⟨b, i, j, k, ?_, hki.symm, hkj.symm, hi, r, p, r0, ?_, ?_, ?_, ?_, ?_⟩
  · rintro rfl; exact hVW (hj.symm.trans hi)
  · rw [hj]; rw [hdiff] at rW; linarith
  · rw [hj]; rw [hdiff] at pW; linarith
  · rw [hk]; rw [hdiff] at rX; linarith
  · rw [hk]; rw [hdiff] at hXp; linarith
  · intro b' i' j' m hi' hj' hm1 hm2
    have := rE (q b' m) ⟨b', i', j', m, hi', hj'.trans hj, hm1, hm2, rfl⟩
    rw [hdiff, hdiff] at this
    exact ⟨by linarith [this.1], fun e => by linarith [this.2 (by rw [e, sub_self])]⟩

/-- At a corner `V` where a linear function has a strict minimum there is a face `V, W, X` of one tetrahedron such that
no other tetrahedron, and no other face of this one, has the corners `V`, `W` and a third corner in the plane of the
face. -/
theorem flag_face {ι : Type} [Finite ι] {q : ι → Fin 4 → Fin 3 → ℝ} (hdet : ∀ a, det4 (q a) ≠ 0)
    (hno : ∀ a b, a ≠ b → interior (solid (q a)) ∩ interior (solid (q b)) = ∅) {V : Fin 3 → ℝ}
    {f : (Fin 3 → ℝ) →ₗ[ℝ] ℝ} (hf : ∀ a i, q a i ≠ V → f V < f (q a i)) {a0 : ι} {i0 : Fin 4} (h0 : q a0 i0 = V) :
    ∃ a, ∃ i j k : Fin 4, i ≠ j ∧ i ≠ k ∧ j ≠ k ∧ q a i = V ∧
      ∀ b i' j' k', i' ≠ j' → i' ≠ k' → j' ≠ k' → q b i' = V → q b j' = q a j →
        (∃ s t : ℝ, q b k' = V + s • (q a j - V) + t • (q a k - V)) → b = a ∧ k' = k := by
  obtain ⟨a, i, j, k, hij, hik, hjk, hi, r, p, r0, rW, pW, rX, pX, hE⟩ := flag_choice hdet hf h0
  refine ⟨a, i, j, k, hij, hik, hjk, hi, fun b i' j' k' hij' hik' hjk' hi' hj' ⟨s, t, hst⟩ => ?_⟩
  obtain ⟨l, hil, hjl, hkl⟩ := exists_fourth i j k
  obtain ⟨l', hil', hjl', hkl'⟩ := exists_fourth i' j' k'
  have rX' : r (q b k') = r V := by
    rw [hst]; simp only [map_add, map_smul, map_sub, rW, rX]; simp
  have rpos : ∀ (c : ι) (i' j' k' l' : Fin 4), i' ≠ j' → i' ≠ k' → j' ≠ k' → i' ≠ l' → j' ≠ l' → k' ≠ l' →
      q c i' = V → q c j' = q a j → r (q c k') = r V → r V < r (q c l') := by
    intro c i' j' k' l' hij hik hjk hil hjl hkl hi hj hk
    refine lt_of_le_of_ne (hE c i' j' l' hi hj hil.symm hjl.symm).1 fun e => r0 ?_
    apply lin_const (hdet c) (c := r V)
    intro m
    rcases perm_cover hij hik hjk hil hjl hkl m with rfl | rfl | rfl | rfl
    · rw [hi]
    · rw [hj, rW]
    · exact hk
    · exact e.symm
  have hY := rpos a i j k l hij hik hjk hil hjl hkl hi rfl rX
  have hY' := rpos b i' j' k' l' hij' hik' hjk' hil' hjl' hkl' hi' hj' rX'
  have hba : b = a := by
    by_contra hne
    have hov := overlap (hdet a) (hdet b) hij hik hjk hil hjl hkl hij' hik' hjk' hil' hjl' hkl' (hi'.trans hi.symm) hj' r p
      (by rw [rW, hi]) (by rw [rX, hi]) (by rw [rX', hi]) (by rw [hi]; exact hY) (by rw [hi]; exact hY') (by rw [pW, hi])
      (by rw [hi]; exact pX) (by rw [hi]; exact (hE b i' j' k' hi' hj' hik'.symm hjk'.symm).2 rX')
    rw [hno a b (Ne.symm hne)] at hov
    exact hov.ne_empty rfl
  refine ⟨hba, ?_⟩
  subst hba
  have inj : Function.Injective (q b) := by
    intro m n hmn
    by_contra hne
    have h1 : bc (q b) (q b m) m = 1 := by rw [bc_corner (hdet b)]; simp
    rw [hmn, bc_corner (hdet b)] at h1
    simp [hne] at h1
  have ei : i' = i := inj (hi'.trans hi.symm)
  have ej : j' = j := inj hj'
  subst ei ej
  rcases perm_cover hij hik hjk hil hjl hkl k' with e | e | e | e
  · exact absurd e hik'.symm
  · exact absurd e hjk'.symm
  · exact e
  · rw [e] at rX'; exact absurd rX' hY.ne'

end PyQC
