import Verif.Lemmas.Surd
/-!
# Separated triangles, and discs in triangles with exact coordinates
-/
namespace PyQC
open Matrix

/-- Twice the signed area of the triangle p, q, x in the horizontal plane. -/
def sideZ (p q x : Fin 3 → ℝ) : ℝ := (q 0 - p 0) * (x 1 - p 1) - (q 1 - p 1) * (x 0 - p 0)

theorem sideZ_bary {T : Fin 3 → Fin 3 → ℝ} {w x : Fin 3 → ℝ} (h : IsBary T w x) (p q : Fin 3 → ℝ) :
    sideZ p q x = w 0 * sideZ p q (T 0) + w 1 * sideZ p q (T 1) + w 2 * sideZ p q (T 2) := by
  obtain ⟨h1, h2⟩ := isBary_three.1 h
  have e0 := h2 0
  have e1 := h2 1
  have ew : w 0 = 1 - w 1 - w 2 := by linarith
  unfold sideZ
  rw [e0, e1, ew]
  ring

theorem sideZ_solid {T : Fin 3 → Fin 3 → ℝ} {x p q : Fin 3 → ℝ} (c : ℝ) (h : ∀ i, 0 ≤ c * sideZ p q (T i)) (hx : x ∈ solid T) :
    0 ≤ c * sideZ p q x := by
  obtain ⟨w, hw, h0⟩ := mem_solid_iff.1 hx
  rw [sideZ_bary hw]
  have := mul_nonneg (h0 0) (h 0)
  have := mul_nonneg (h0 1) (h 1)
  have := mul_nonneg (h0 2) (h 2)
  linarith

theorem sideZ_self {S : Fin 3 → Fin 3 → ℝ} {k : Fin 3 × Fin 3} (hk : k ∈ Surd.sides3) (i : Fin 3) :
    sideZ (S k.1) (S k.2) (S i) = 0 ∨ sideZ (S k.1) (S k.2) (S i) = crossZ S := by
  simp only [Surd.sides3, List.mem_cons, List.not_mem_nil, or_false] at hk
  unfold sideZ crossZ
  have hi : i = 0 ∨ i = 1 ∨ i = 2 := by revert i; decide
  rcases hk with rfl | rfl | rfl <;> rcases hi with rfl | rfl | rfl <;>
    first
      | exact Or.inl (by ring1)
      | exact Or.inr (by ring1)

/-- A triangle is the common part of the half planes of its sides. -/
theorem solid_of_sides {S : Fin 3 → Fin 3 → ℝ} {z : ℝ} (hS : Flat z S) (h0 : crossZ S ≠ 0) {y : Fin 3 → ℝ} (hy : y 2 = z)
    (h : ∀ k ∈ Surd.sides3, 0 ≤ sideZ (S k.1) (S k.2) y / crossZ S) : y ∈ solid S := by
  refine mem_solid_iff.2 ⟨![sideZ (S 1) (S 2) y / crossZ S, sideZ (S 2) (S 0) y / crossZ S, sideZ (S 0) (S 1) y / crossZ S],
    isBary_three.2 ?_, ?_⟩
  · have hs : sideZ (S 1) (S 2) y / crossZ S + sideZ (S 2) (S 0) y / crossZ S + sideZ (S 0) (S 1) y / crossZ S = 1 := by
      rw [← add_div, ← add_div, div_eq_one_iff_eq h0]
      unfold sideZ crossZ
      ring
    refine ⟨hs, fun j => ?_⟩
    simp only [cons_val_zero, cons_val_one, cons_val]
    fin_cases j
    · simp only [Fin.zero_eta]
      field_simp
      unfold sideZ crossZ
      ring
    · simp only [Fin.mk_one]
      field_simp
      unfold sideZ crossZ
      ring
    · simp only [Fin.reduceFinMk]
      rw [hy, hS 0, hS 1, hS 2, ← add_mul, ← add_mul, hs, one_mul]
  · intro i
    fin_cases i
    · exact h (1, 2) (by decide)
    · exact h (2, 0) (by decide)
    · exact h (0, 1) (by decide)

namespace Surd

variable {n m R : ℕ} {z : ℝ} {S T : Fin 3 → Fin 3 → ℝ} {a b : Fin 3 → P2}

theorem sideZ_grid (hn : 0 < n) {p q x : Fin 3 → ℝ} {pp pq px : P2} (hp : PAt n z p pp) (hq : PAt n z q pq) (hx : PAt n z x px) :
    sideZ p q x = (pp.tri pq px).val / n ^ 2 := by
  have hn' : (n : ℝ) ≠ 0 := by exact_mod_cast hn.ne'
  unfold sideZ
  rw [hp, hq, hx, val_tri]
  simp only [cons_val_zero, cons_val_one]
  field_simp

theorem signed_mul (s g : Surd) : 0 ≤ (s.signed g).val → 0 ≤ s.val * g.val := by
  rw [val_signed]
  split_ifs with h
  · exact fun h' => mul_nonneg h h'
  · exact fun h' => by nlinarith [not_le.1 h]

/-- If all corners of one triangle lie beyond a side of the other, they have no inner points in common. -/
theorem beyondTri_spec (hn : 0 < n) (hS : PGrid n z S a) (hT : PGrid n z T b) (h0 : (area a).val ≠ 0) (h : beyondTri a b = true) :
    ¬ (interior (slice z (solid S ∩ solid T))).Nonempty := by
  have hn0 : (0 : ℝ) < n := by exact_mod_cast hn
  unfold beyondTri at h
  rw [List.any_eq_true] at h
  obtain ⟨k, hk, h⟩ := h
  rw [all3_iff] at h
  have hc0 : crossZ S ≠ 0 := by
    rw [crossZ_grid hn hS]
    exact div_ne_zero h0 (pow_ne_zero _ hn0.ne')
  have h1 : ∀ i, 0 ≤ -crossZ S * sideZ (S k.1) (S k.2) (T i) := by
    intro i
    have := h i
    rw [nonneg_iff, val_neg] at this
    have h2 : (area a).val * ((a k.1).tri (a k.2) (b i)).val ≤ 0 := by
      rw [val_signed] at this
      split_ifs at this with hs
      · nlinarith
      · nlinarith [not_le.1 hs]
    rw [crossZ_grid hn hS, sideZ_grid hn (hS k.1) (hS k.2) (hT i), neg_mul, div_mul_div_comm, ← neg_div]
    exact div_nonneg (by linarith) (by positivity)
  have h2 : ∀ i, 0 ≤ crossZ S * sideZ (S k.1) (S k.2) (S i) := by
    intro i
    rcases sideZ_self hk i (S := S) with e | e <;> rw [e]
    · simp
    · exact mul_self_nonneg _
  have hz : ∀ p ∈ slice z (solid S ∩ solid T), sideZ (S k.1) (S k.2) ![p 0, p 1, z] = 0 := by
    rintro p ⟨hp1, hp2⟩
    have e1 := sideZ_solid _ h2 hp1
    have e2 := sideZ_solid _ h1 hp2
    have : crossZ S * sideZ (S k.1) (S k.2) ![p 0, p 1, z] = 0 := by linarith
    exact (mul_eq_zero.1 this).resolve_left hc0
  rintro ⟨u, hu⟩
  set d : Fin 2 → ℝ := ![-(S k.2 1 - S k.1 1), S k.2 0 - S k.1 0] with hd
  have hcont : Continuous fun ε : ℝ => u + ε • d := by fun_prop
  have hev : ∀ᶠ ε in nhds (0 : ℝ), u + ε • d ∈ interior (slice z (solid S ∩ solid T)) :=
    hcont.continuousAt.eventually_mem (isOpen_interior.mem_nhds (by simpa using hu))
  obtain ⟨ε, hε, hpos⟩ := ((hev.filter_mono nhdsWithin_le_nhds).and (self_mem_nhdsWithin (s := Set.Ioi (0 : ℝ)))).exists
  have e1 := hz _ (interior_subset hu)
  have e2 := hz _ (interior_subset hε)
  have hpos : 0 < ε := hpos
  have e3 : ε * ((S k.2 1 - S k.1 1) ^ 2 + (S k.2 0 - S k.1 0) ^ 2) = 0 := by
    rw [hd] at e2
    unfold sideZ at e1 e2
    simp at e1 e2
    linear_combination e2 - e1
  have e4 := (mul_eq_zero.1 e3).resolve_left hpos.ne'
  have f1 : S k.2 1 - S k.1 1 = 0 := by nlinarith [sq_nonneg (S k.2 1 - S k.1 1), sq_nonneg (S k.2 0 - S k.1 0)]
  have f0 : S k.2 0 - S k.1 0 = 0 := by nlinarith [sq_nonneg (S k.2 1 - S k.1 1), sq_nonneg (S k.2 0 - S k.1 0)]
  apply hc0
  simp only [sides3, List.mem_cons, List.not_mem_nil, or_false] at hk
  unfold crossZ
  rcases hk with rfl | rfl | rfl <;> simp only at f0 f1
  · rw [f0, f1]; ring
  · linear_combination (S 1 0 - S 0 0) * f1 - (S 1 1 - S 0 1) * f0
  · linear_combination -(S 1 0 - S 0 0) * f1 + (S 1 1 - S 0 1) * f0

/-- The disc about a point that is far from all sides is in the triangle. -/
theorem farSides_spec (hn : 0 < n) (hm : 0 < m) (hS : PGrid n z S a) (h0 : (area a).val ≠ 0) {x : Fin 3 → ℝ} {p : P2}
    (hx : PAt (n * m) z x p) (h : ∀ k ∈ sides3, farSide n m R a p k = true) {y : Fin 3 → ℝ} (hy : y 2 = z)
    (hyx : dist3 y x ≤ R / 2 ^ 47) : y ∈ solid S := by
  have hn0 : (0 : ℝ) < n := by exact_mod_cast hn
  have hm0 : (0 : ℝ) < m := by exact_mod_cast hm
  have hnm : 0 < n * m := Nat.mul_pos hn hm
  have hc0 : crossZ S ≠ 0 := by
    rw [crossZ_grid hn hS]
    exact div_ne_zero h0 (pow_ne_zero _ hn0.ne')
  refine solid_of_sides hS.flat hc0 hy fun k hk => ?_
  have hg : ∀ i, PAt (n * m) z (S i) ((a i).scale m) := by
    intro i
    unfold PAt
    rw [hS i]
    simp only [P2.scale, val_scale]
    push_cast
    rw [mul_comm (n : ℝ) m, mul_div_mul_left _ _ hm0.ne', mul_div_mul_left _ _ hm0.ne']
  have hk' := h k hk
  unfold farSide at hk'
  simp only [Bool.and_eq_true, nonneg_iff, le_iff, val_scale, val_mul] at hk'
  obtain ⟨h1, h2⟩ := hk'
  set G := ((area a).signed (((a k.1).scale m).tri ((a k.2).scale m) p)).val with hG
  set e0 := S k.2 0 - S k.1 0 with he0
  set e1 := S k.2 1 - S k.1 1 with he1
  have hside := sideZ_grid hnm (hg k.1) (hg k.2) hx
  have hsq : (((a k.2).scale m).sub ((a k.1).scale m)).square.val = (e0 ^ 2 + e1 ^ 2) * ((n * m : ℕ) : ℝ) ^ 2 := by
    have q1 : e0 = ((((a k.2).scale m).x.val - ((a k.1).scale m).x.val)) / ((n * m : ℕ) : ℝ) := by
      rw [he0, hg k.1, hg k.2]; simp only [cons_val_zero]; ring
    have q2 : e1 = ((((a k.2).scale m).y.val - ((a k.1).scale m).y.val)) / ((n * m : ℕ) : ℝ) := by
      rw [he1, hg k.1, hg k.2]; simp only [cons_val_one, cons_val_zero]; ring
    have : ((n * m : ℕ) : ℝ) ≠ 0 := by exact_mod_cast hnm.ne'
    rw [q1, q2]
    simp only [P2.square, P2.sub, val_add, val_mul, val_sub]
    field_simp
  rw [hsq] at h2
  have hN : (0 : ℝ) < ((n * m : ℕ) : ℝ) := by exact_mod_cast hnm
  push_cast at h2
  set N : ℝ := ((n * m : ℕ) : ℝ) with hNdef
  have hNe : (n : ℝ) * m = N := by rw [hNdef]; push_cast; rfl
  rw [hNe] at h2
  -- the signed distance of the middle
  obtain ⟨σ, hσ, hσs, hσc⟩ : ∃ σ : ℝ, σ ^ 2 = 1 ∧ σ * sideZ (S k.1) (S k.2) x = G / N ^ 2 ∧ 0 < σ * crossZ S := by
    rw [crossZ_grid hn hS, hside, hG, val_signed]
    by_cases hs : 0 ≤ (area a).val
    · refine ⟨1, by norm_num, by rw [if_pos hs, one_mul], ?_⟩
      rw [one_mul]
      exact div_pos (lt_of_le_of_ne hs (Ne.symm h0)) (by positivity)
    · refine ⟨-1, by norm_num, by rw [if_neg hs]; ring, ?_⟩
      rw [neg_one_mul, ← neg_div]
      exact div_pos (by linarith [not_le.1 hs]) (by positivity)
  have hd2 : (y 0 - x 0) ^ 2 + (y 1 - x 1) ^ 2 ≤ (R / 2 ^ 47 : ℝ) ^ 2 := by
    have hx2 : x 2 = z := by rw [hx]; rfl
    have := (Real.sqrt_le_left (by positivity)).1 hyx
    rw [hy, hx2] at this
    linarith
  set c := e0 * (y 1 - x 1) - e1 * (y 0 - x 0) with hc
  have hsplit : sideZ (S k.1) (S k.2) y = sideZ (S k.1) (S k.2) x + c := by
    rw [hc, he0, he1]
    unfold sideZ
    ring
  have hcs : c ^ 2 ≤ (e0 ^ 2 + e1 ^ 2) * (R / 2 ^ 47 : ℝ) ^ 2 := by
    have l1 : c ^ 2 ≤ (e0 ^ 2 + e1 ^ 2) * ((y 0 - x 0) ^ 2 + (y 1 - x 1) ^ 2) := by
      rw [hc]
      nlinarith [sq_nonneg (e0 * (y 0 - x 0) + e1 * (y 1 - x 1))]
    exact l1.trans (mul_le_mul_of_nonneg_left hd2 (by positivity))
  have hG2 : c ^ 2 ≤ (G / N ^ 2) ^ 2 := by
    refine hcs.trans ?_
    rw [div_pow, div_pow, ← pow_mul, ← pow_mul, mul_div_assoc', div_le_div_iff₀ (by positivity) (by positivity)]
    norm_num at h2 ⊢
    have : (e0 ^ 2 + e1 ^ 2) * (R : ℝ) ^ 2 * N ^ 4 = R ^ 2 * N ^ 2 * ((e0 ^ 2 + e1 ^ 2) * N ^ 2) := by ring
    rw [this]
    linarith
  have habs : |σ * c| ≤ G / N ^ 2 := by
    refine abs_le_of_sq_le_sq ?_ (div_nonneg h1 (by positivity))
    rw [mul_pow, hσ, one_mul]
    exact hG2
  have hfin : 0 ≤ σ * sideZ (S k.1) (S k.2) y := by
    rw [hsplit, mul_add, hσs]
    linarith [(abs_le.1 habs).1]
  have hσ0 : σ ≠ 0 := by rintro rfl; norm_num at hσ
  rw [← mul_div_mul_left _ _ hσ0]
  exact div_nonneg hfin hσc.le

theorem discTri_spec (hn : 0 < n) (hm : 0 < m) (hS : PGrid n z S a) (hT : PGrid n z T b) (hA : (area a).val ≠ 0)
    (hB : (area b).val ≠ 0) {p : P2} (h : discTri n m R a b p = true) : CommonDisc z (R / 2 ^ 47) (solid S) (solid T) := by
  unfold discTri at h
  simp only [List.all_eq_true, Bool.and_eq_true] at h
  exact ⟨![p.x.val / (n * m : ℕ), p.y.val / (n * m : ℕ), z], rfl, fun y hy hyx =>
    ⟨farSides_spec hn hm hS hA rfl (fun k hk => (h k hk).1) hy hyx, farSides_spec hn hm hT hB rfl (fun k hk => (h k hk).2) hy hyx⟩⟩

theorem middle_pos (a b : Fin 3 → P2) : 0 < (middle a b).1 := by
  simp only [middle]
  rcases Nat.eq_zero_or_pos (sample a b).length with h | h
  · rw [h]; norm_num
  · have : min (sample a b).length 1 = 1 := by omega
    rw [this, Nat.add_sub_cancel]
    positivity

theorem clearTri_spec (hn : 0 < n) (hS : PGrid n z S a) (hT : PGrid n z T b) (hA : (area a).val ≠ 0)
    (hB : (area b).val ≠ 0) (h : clearTri n R a b = true) (hi : (interior (slice z (solid S ∩ solid T))).Nonempty) :
    (solid S ⊆ solid T ∨ solid T ⊆ solid S ∨ ProperCrossing S T) ∧ CommonDisc z (R / 2 ^ 47) (solid S) (solid T) := by
  unfold clearTri at h
  rw [Bool.or_eq_true, Bool.or_eq_true, Bool.and_eq_true, Bool.or_eq_true, Bool.or_eq_true] at h
  rcases h with (h | h) | ⟨h, h'⟩
  · exact absurd hi (beyondTri_spec hn hS hT hA h)
  · rw [Set.inter_comm] at hi
    exact absurd hi (beyondTri_spec hn hT hS hB h)
  · refine ⟨?_, discTri_spec hn (middle_pos a b) hS hT hA hB h'⟩
    rcases h with (h | h) | h
    · exact Or.inl ((containedTri_iff hn hS hT hB).1 h)
    · exact Or.inr (Or.inl ((containedTri_iff hn hT hS hA).1 h))
    · exact Or.inr (Or.inr (properTri_spec hn hS hT h))

end Surd

/-! ### From the integers of the package to exact coordinates -/

theorem surd_val {n : ℕ} {t : Num3} (h0 : t.c ≠ 0) (h : t.c.natAbs ∣ n) : (t.surd n).val = 2 * n * t.val sin60 := by
  obtain ⟨k, hk⟩ := Int.natAbs_dvd_natAbs.mp (show t.c.natAbs ∣ (n : ℤ).natAbs from h)
  have : (n : ℤ) / t.c = k := by rw [hk, Int.mul_ediv_cancel_left _ h0]
  have hc : (t.c : ℝ) ≠ 0 := by exact_mod_cast h0
  have hn : (n : ℝ) = t.c * k := by exact_mod_cast hk
  simp only [Num3.surd, this, Surd.val, Num3.val, hn, sin60]
  push_cast
  field_simp

theorem Simplex.dvd_den3 (s : Simplex 3) (i : Fin 3) : Vec.den (s i) ∣ Simplex.den3 s := by
  unfold Simplex.den3
  fin_cases i
  · exact Nat.dvd_lcm_left _ _
  · exact (Nat.dvd_lcm_left _ _).trans (Nat.dvd_lcm_right _ _)
  · exact (Nat.dvd_lcm_right _ _).trans (Nat.dvd_lcm_right _ _)

theorem Simplex.den3_pos {s : Simplex 3} (h : Simplex.Ok s) : 0 < Simplex.den3 s := by
  have : ∀ i, 0 < Vec.den (s i) := fun i => Vec.den_pos (h i)
  exact Nat.lcm_pos (this 0) (Nat.lcm_pos (this 1) (this 2))

theorem perp_surd {n : ℕ} {v : Vec 6} (hn : 0 < n) (h : Vec.Ok v) (hd : Vec.den v ∣ n) :
    Package.dode.perp v 0 = (Vec.surd n v).x.val / (4 * n : ℕ) ∧ Package.dode.perp v 1 = (Vec.surd n v).y.val / (4 * n : ℕ) ∧
      Package.dode.perp v 2 = (((v 5).surd n).scale 2).val / (4 * n : ℕ) := by
  have hn' : (n : ℝ) ≠ 0 := by exact_mod_cast hn.ne'
  have hg : ∀ i, ((v i).surd n).val = 2 * n * (v i).val sin60 := fun i => surd_val (h i) ((Vec.dvd_den v i).trans hd)
  have ht : (⟨0, 1⟩ : Surd).val = 2 * sin60 := by simp [Surd.val, sin60]; ring
  unfold Package.perp
  simp only [Package.perpMat, Package.theta, Vec.surd, Surd.val_sub, Surd.val_mul, Surd.val_scale, hg, ht]
  push_cast
  refine ⟨?_, ?_, ?_⟩ <;> rw [eq_div_iff (by positivity)] <;>
    simp [Vec.val, dotProduct, Fin.sum_univ_succ, mulVec] <;> ring

theorem simplex_pgrid {n : ℕ} {z : ℝ} {s : Simplex 3} (hn : 0 < n) (h : Simplex.Ok s) (hd : Simplex.den3 s ∣ n)
    (hz : ∀ i, Package.dode.perp (s i) 2 = z) : Surd.PGrid (4 * n) z (Package.dode.perps s) (Simplex.surd n s) := by
  have key : ∀ i, Package.dode.perp (s i) = ![(Vec.surd n (s i)).x.val / (4 * n : ℕ), (Vec.surd n (s i)).y.val / (4 * n : ℕ), z] := by
    intro i
    obtain ⟨h0, h1, -⟩ := perp_surd hn (h i) ((Simplex.dvd_den3 s i).trans hd)
    funext j
    fin_cases j
    exacts [h0, h1, hz i]
  intro i
  fin_cases i
  exacts [key 0, key 1, key 2]

section
variable {R : ℕ} {z : ℝ} {s t : Simplex 3} (hs : Simplex.Ok s) (ht : Simplex.Ok t) (zs : ∀ i, Package.dode.perp (s i) 2 = z)
  (zt : ∀ i, Package.dode.perp (t i) 2 = z)
include hs ht zs zt

theorem roundedTest2_iff : roundedTest2 R s t = true ↔ ResolvedTriRounded R (Package.dode.perps s) (Package.dode.perps t) := by
  have hn : 0 < Nat.lcm (Simplex.den3 s) (Simplex.den3 t) := Nat.lcm_pos (Simplex.den3_pos hs) (Simplex.den3_pos ht)
  exact Surd.roundedTri_iff (by omega) (simplex_pgrid hn hs (Nat.dvd_lcm_left _ _) zs) (simplex_pgrid hn ht (Nat.dvd_lcm_right _ _) zt)

theorem clearTest2_spec (hA : triArea (Package.dode.perps s) ≠ 0) (hB : triArea (Package.dode.perps t) ≠ 0)
    (h : clearTest2 R s t = true)
    (hi : (interior (slice z (solid (Package.dode.perps s) ∩ solid (Package.dode.perps t)))).Nonempty) :
    (solid (Package.dode.perps s) ⊆ solid (Package.dode.perps t) ∨ solid (Package.dode.perps t) ⊆ solid (Package.dode.perps s) ∨
      ProperCrossing (Package.dode.perps s) (Package.dode.perps t)) ∧
    CommonDisc z (R / 2 ^ 47) (solid (Package.dode.perps s)) (solid (Package.dode.perps t)) := by
  have hn : 0 < Nat.lcm (Simplex.den3 s) (Simplex.den3 t) := Nat.lcm_pos (Simplex.den3_pos hs) (Simplex.den3_pos ht)
  have gs := simplex_pgrid hn hs (Nat.dvd_lcm_left _ _) zs
  have gt := simplex_pgrid hn ht (Nat.dvd_lcm_right _ _) zt
  exact Surd.clearTri_spec (by omega) gs gt ((Surd.area_ne (by omega) gs).1 hA) ((Surd.area_ne (by omega) gt).1 hB) h hi

end

theorem smallTest2_iff {R : ℕ} {v : Vec 6} (hv : Vec.Ok v) : smallTest2 R v = true ↔ Small .dode R v := by
  have hn := Vec.den_pos hv
  have hnp : (0 : ℝ) < (4 * Vec.den v : ℕ) := by exact_mod_cast (by omega : 0 < 4 * Vec.den v)
  obtain ⟨g0, g1, g2⟩ := perp_surd hn hv dvd_rfl
  unfold smallTest2
  simp only
  rw [Bool.and_eq_true, List.all_eq_true, List.all_eq_true]
  have h2 : (∀ x ∈ [(Vec.surd (Vec.den v) v).x, (Vec.surd (Vec.den v) v).y, ((v 5).surd (Vec.den v)).scale 2],
      x.abs.le ⟨R * (4 * (Vec.den v : ℤ)), 0⟩ = true) ↔ ∀ j, |Package.dode.perp v j| ≤ R := by
    rw [Fin.forall_fin_succ, Fin.forall_fin_succ, Fin.forall_fin_succ]
    simp only [List.forall_mem_cons, List.not_mem_nil, Surd.le_iff, Surd.val_abs, Surd.val_int, IsEmpty.forall_iff, and_true,
      implies_true]
    change _ ↔ |Package.dode.perp v 0| ≤ R ∧ |Package.dode.perp v 1| ≤ R ∧ |Package.dode.perp v 2| ≤ R
    rw [g0, g1, g2, abs_div, abs_div, abs_div, abs_of_pos hnp, div_le_iff₀ hnp, div_le_iff₀ hnp, div_le_iff₀ hnp]
    push_cast
    rfl
  rw [h2]
  constructor
  · rintro ⟨h1, h3⟩
    have h4 : ∀ i, (v i).c ≠ 0 ∧ |(v i).c| ≤ 2 ^ 63 ∧ |(v i).a| + 2 * |(v i).b| ≤ R * |(v i).c| := fun i =>
      of_decide_eq_true (h1 i (List.mem_finRange i))
    exact ⟨fun i => (h4 i).1, fun i => by exact_mod_cast (h4 i).2.1, fun i => by exact_mod_cast (h4 i).2.2, h3⟩
  · rintro ⟨h1, h3, h4, h5⟩
    exact ⟨fun i _ => decide_eq_true ⟨h1 i, by exact_mod_cast h3 i, by exact_mod_cast h4 i⟩, h5⟩

theorem levelTest_iff {h : Num3} {o : Obj 3} (h0 : h.c ≠ 0) (ho : Obj.Ok o) : levelTest h o = true ↔ Level (h.val sin60) o := by
  have key : ∀ v : Vec 6, Vec.Ok v → ((v 5).a * h.c = h.a * (v 5).c ∧ (v 5).b * h.c = h.b * (v 5).c ↔
      Package.dode.perp v 2 = h.val sin60) := by
    intro v hv
    have e : Package.dode.perp v 2 = (v 5).val sin60 := by
      simp [Package.perp, Package.perpMat, Package.theta, Vec.val, mulVec, dotProduct, Fin.sum_univ_succ]
    have hc : ((v 5).c : ℝ) ≠ 0 := by exact_mod_cast hv 5
    have hh : (h.c : ℝ) ≠ 0 := by exact_mod_cast h0
    rw [e, Num3.val, Num3.val, div_eq_div_iff hc hh]
    constructor
    · rintro ⟨h1, h2⟩
      have h1' : ((v 5).a : ℝ) * h.c = h.a * (v 5).c := by exact_mod_cast h1
      have h2' : ((v 5).b : ℝ) * h.c = h.b * (v 5).c := by exact_mod_cast h2
      linear_combination h1' + sin60 * h2'
    · intro he
      have := irr_zero_int sin60 (p := (v 5).a * h.c - h.a * (v 5).c) (q := (v 5).b * h.c - h.b * (v 5).c) (by
        push_cast
        linear_combination he)
      omega
  unfold levelTest Level
  simp only [List.all_eq_true, List.forall_mem_ofFn_iff, Bool.and_eq_true, decide_eq_true_eq]
  exact forall₃_congr fun t ht i => key _ (ho t ht i)

end PyQC
