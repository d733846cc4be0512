import Verif.Lemmas.SharpGrid
import Verif.Spec.OutlineRounded
/-!
# Triangles and tetrahedra with corners on a grid, with the margins for rounding
-/
namespace PyQC
namespace Rounding
open Matrix

theorem margin_small {R : ℝ} (h0 : 0 ≤ R) (h : R ≤ 4) : margin R ≤ 1 / 10 ^ 9 := by
  unfold margin
  have : R ^ 3 ≤ 4 ^ 3 := pow_le_pow_left₀ h0 h 3
  rw [div_le_div_iff₀ (by norm_num) (by norm_num)]
  linarith

/-- Four grid points that are coplanar up to the tolerance and the margin are coplanar. -/
theorem flat_grid_rounded {a b c d : Fin 3 → ℝ} {a' b' c' d' : Fin 3 → ℤ} {n : ℕ} (hn : 0 < n) (hn3 : n ^ 3 ≤ 10 ^ 8)
    {R : ℝ} (h0 : 0 ≤ R) (hR : R ≤ 4)
    (ha : ∀ j, a j = a' j / n) (hb : ∀ j, b j = b' j / n) (hc : ∀ j, c j = c' j / n) (hd : ∀ j, d j = d' j / n)
    (h : |((b - a) ⨯₃ (c - a)) ⬝ᵥ (d - a)| < 1 / 10 ^ 10 + margin R) : ((b - a) ⨯₃ (c - a)) ⬝ᵥ (d - a) = 0 := by
  have hn0 : (0 : ℝ) < n := by exact_mod_cast hn
  have hn3' : (n : ℝ) ^ 3 ≤ 10 ^ 8 := by exact_mod_cast hn3
  have hs : ∀ {u v : Fin 3 → ℝ} {p q : Fin 3 → ℤ}, (∀ j, u j = p j / n) → (∀ j, v j = q j / n) →
      ∀ j, (u - v) j = ((fun j => p j - q j : Fin 3 → ℤ) j : ℝ) / n := by
    intro u v p q hu hv j
    rw [Pi.sub_apply, hu, hv]
    push_cast
    ring
  rw [trip_int (hs hb ha) (hs hc ha) (hs hd ha)] at h ⊢
  by_contra hne
  have e : (n : ℝ) * n * n = n ^ 3 := by ring
  have := quot_large (m := (n : ℝ) * n * n) (B := 10 ^ 8) (by positivity) (by rw [e, abs_of_pos (by positivity)]; exact hn3') hne
  have := margin_small h0 hR
  linarith

/-- A grid point close to a segment between grid points lies on it. -/
theorem line_grid_rounded {a b c : Fin 3 → ℝ} {a' b' c' : Fin 3 → ℤ} {n M : ℕ} (hn : 0 < n) (ha : ∀ j, a j = a' j / n)
    (hb : ∀ j, b j = b' j / n) (hc : ∀ j, c j = c' j / n) (ha' : ∀ j, |a' j| ≤ M) (hb' : ∀ j, |b' j| ≤ M)
    (hM : 36 * M ^ 2 * n ^ 2 ≤ 10 ^ 6) (hn2 : 3 * n ^ 2 ≤ 10 ^ 6)
    {x : Fin 3 → ℝ} (hx : x ∈ segment ℝ a b) (hd : dist3 c x ^ 2 < 3 / 10 ^ 6) : c ∈ segment ℝ a b := by
  have hn0 : (0 : ℝ) < n := by exact_mod_cast hn
  have hM' : 36 * (M : ℝ) ^ 2 * n ^ 2 ≤ 10 ^ 6 := by exact_mod_cast hM
  have hn2' : 3 * (n : ℝ) ^ 2 ≤ 10 ^ 6 := by exact_mod_cast hn2
  rw [segment_eq_image'] at hx ⊢
  obtain ⟨t, ⟨t0, t1⟩, rfl⟩ := hx
  have hd' : (c 0 - (a 0 + t * (b 0 - a 0))) ^ 2 + (c 1 - (a 1 + t * (b 1 - a 1))) ^ 2 +
      (c 2 - (a 2 + t * (b 2 - a 2))) ^ 2 < 3 / 10 ^ 6 := by
    unfold dist3 at hd
    rw [Real.sq_sqrt (by positivity)] at hd
    exact hd
  clear hd
  obtain ⟨u, hu⟩ : ∃ u : Fin 3 → ℤ, ∀ j, u j = b' j - a' j := ⟨_, fun _ => rfl⟩
  obtain ⟨w, hw⟩ : ∃ w : Fin 3 → ℤ, ∀ j, w j = c' j - a' j := ⟨_, fun _ => rfl⟩
  have ej : ∀ j, c j - (a j + t * (b j - a j)) = ((w j : ℝ) - t * u j) / n := by
    intro j
    rw [ha, hb, hc, hu, hw]
    push_cast
    ring
  have hd2 : ((w 0 : ℝ) - t * u 0) ^ 2 + ((w 1 : ℝ) - t * u 1) ^ 2 + ((w 2 : ℝ) - t * u 2) ^ 2 < 3 / 10 ^ 6 * (n : ℝ) ^ 2 := by
    rw [ej, ej, ej, div_pow, div_pow, div_pow, ← add_div, ← add_div, div_lt_iff₀ (by positivity)] at hd'
    exact hd'
  have husq : ∀ j, (u j : ℝ) ^ 2 ≤ (2 * (M : ℝ)) ^ 2 := by
    intro j
    have h1 : |u j| ≤ 2 * (M : ℤ) := by
      rw [hu]
      have h1 := abs_le.1 (ha' j)
      have h2 := abs_le.1 (hb' j)
      rw [abs_le]
      constructor <;> linarith [h1.1, h1.2, h2.1, h2.2]
    have h2 : |(u j : ℝ)| ≤ 2 * M := by exact_mod_cast h1
    rw [← sq_abs]
    exact pow_le_pow_left₀ (abs_nonneg _) h2 2
  obtain ⟨s, s0, s1, hs⟩ := int_line t0 t1 (show 3 / 10 ^ 6 * (n : ℝ) ^ 2 ≤ 1 by linarith)
    (show 3 * (2 * (M : ℝ)) ^ 2 * (3 / 10 ^ 6 * (n : ℝ) ^ 2) ≤ 1 by linarith) husq hd2
  refine ⟨s, ⟨s0, s1⟩, funext fun j => ?_⟩
  have := hs j
  rw [hu, hw] at this
  push_cast at this
  change a j + s * (b j - a j) = c j
  rw [ha, hb, hc, show (c' j : ℝ) = a' j + s * (b' j - a' j) by linarith]
  ring

/-- Edges between grid points whose midpoints agree within the margin have the same midpoint. -/
theorem mid_grid_rounded (p : Package) {m : Nat} {s t : Simplex m} {a b : Fin m → Fin 3 → ℤ} {n : ℕ} (hn : 0 < n) (hn8 : n ≤ 10 ^ 8)
    {R : ℝ} (h0 : 0 ≤ R) (hR : R ≤ 4)
    (hs : ∀ i j, p.perp (s i) j = a i j / n) (ht : ∀ i j, p.perp (t i) j = b i j / n) {i j k l : Fin m}
    (hmid : ∀ c, |p.centroidPerp (edge s i j) c - p.centroidPerp (edge t k l) c| ≤ margin R) :
    p.centroidPerp (edge s i j) = p.centroidPerp (edge t k l) := by
  have hn0 : (0 : ℝ) < n := by exact_mod_cast hn
  have hn8' : (n : ℝ) ≤ 10 ^ 8 := by exact_mod_cast hn8
  have h2 : ∀ {s : Simplex m} {a : Fin m → Fin 3 → ℤ}, (∀ i j, p.perp (s i) j = a i j / n) → ∀ i j c,
      p.centroidPerp (edge s i j) c = ((a i c + a j c : ℤ) : ℝ) / (2 * n) := by
    intro s a hs i j c
    change (((2 : ℕ) : ℝ)⁻¹ • ∑ x, p.perps (edge s i j) x) c = _
    have e0 : p.perps (edge s i j) 0 c = (a i c : ℝ) / n := hs i c
    have e1 : p.perps (edge s i j) 1 c = (a j c : ℝ) / n := hs j c
    rw [Pi.smul_apply, Finset.sum_apply, Fin.sum_univ_two, e0, e1, smul_eq_mul]
    push_cast
    field_simp
  funext c
  have hm := (hmid c).trans (margin_small h0 hR)
  rw [h2 hs, h2 ht] at hm ⊢
  by_contra hne
  have hne' : a i c + a j c ≠ b k c + b l c := fun e => hne (by rw [e])
  have hone : (1 : ℝ) ≤ |((a i c + a j c : ℤ) : ℝ) - ((b k c + b l c : ℤ) : ℝ)| := by
    exact_mod_cast Int.one_le_abs (sub_ne_zero.2 hne')
  rw [← sub_div, abs_div, abs_of_pos (show (0 : ℝ) < 2 * n by positivity), div_le_iff₀ (by positivity)] at hm
  linarith

/-- Faces with nearly the same centroid have close centroids. -/
theorem near_grid {o : Obj 4} {A : Fin o.length → Fin 4 → Fin 3 → ℤ} {n M : ℕ} (hn : 0 < n)
    (hA : ∀ a i j, Package.ico.perp (o.get a i) j = A a i j / n) (hM : ∀ a i j, |A a i j| ≤ M) (hC : 6 * n + 6000 * M < 10 ^ 8)
    {i j : Fin o.length × Fin 4}
    (hclose : Near (Package.ico.centroidPerp (face o i)) (Package.ico.centroidPerp (face o j))) :
    Close (Package.ico.centroidPerp (face o i)) (Package.ico.centroidPerp (face o j)) := by
  have hn0 : (0 : ℝ) < n := by exact_mod_cast hn
  have hface : ∀ (i : Fin o.length × Fin 4) k c, Package.ico.perps (face o i) k c = A i.1 (i.2.succAbove k) c / n :=
    fun i k c => hA i.1 (i.2.succAbove k) c
  have hcent : ∀ (i : Fin o.length × Fin 4) c, Package.ico.centroidPerp (face o i) c = ((∑ k, A i.1 (i.2.succAbove k) c : ℤ) : ℝ) / (3 * n) := by
    intro i c
    change ((((3 : ℕ) : ℝ)⁻¹) • ∑ k, Package.ico.perps (face o i) k) c = _
    rw [Pi.smul_apply, Finset.sum_apply, Finset.sum_congr rfl fun k _ => hface i k c, ← Finset.sum_div, smul_eq_mul]
    push_cast
    field_simp
  intro c
  have h := hclose c
  rw [hcent, hcent] at h ⊢
  by_cases he : ∑ k, A i.1 (i.2.succAbove k) c = ∑ k, A j.1 (j.2.succAbove k) c
  · rw [he, sub_self, abs_zero]
    positivity
  exfalso
  have hbound : |((∑ k, A j.1 (j.2.succAbove k) c : ℤ) : ℝ)| ≤ 3 * M := by
    have h1 : |∑ k, A j.1 (j.2.succAbove k) c| ≤ 3 * (M : ℤ) := by
      refine (Finset.abs_sum_le_sum_abs _ _).trans ?_
      refine (Finset.sum_le_sum fun k _ => hM j.1 (j.2.succAbove k) c).trans ?_
      simp
    exact_mod_cast h1
  have hone : (1 : ℝ) ≤ |((∑ k, A i.1 (i.2.succAbove k) c : ℤ) : ℝ) - ((∑ k, A j.1 (j.2.succAbove k) c : ℤ) : ℝ)| := by
    exact_mod_cast Int.one_le_abs (sub_ne_zero.2 he)
  have hC' : 6 * (n : ℝ) + 6000 * M < 10 ^ 8 := by exact_mod_cast hC
  generalize ((∑ k, A i.1 (i.2.succAbove k) c : ℤ) : ℝ) = x at *
  generalize ((∑ k, A j.1 (j.2.succAbove k) c : ℤ) : ℝ) = y at *
  rw [← sub_div, abs_div, abs_div, abs_of_pos (show (0 : ℝ) < 3 * n by positivity), div_le_iff₀ (by positivity), add_mul,
    mul_assoc, div_mul_cancel₀ _ (show (3 * (n : ℝ)) ≠ 0 by positivity)] at h
  linarith

/-- Corners on a grid inside the unit cube, with small denominators, have moderate size. -/
theorem moderate_grid (p : Package) {m : Nat} (o : Obj m) (A : Fin o.length → Fin m → Fin 3 → ℤ) (n : ℕ) (hn : 0 < n)
    (hA : ∀ a i j, p.perp (o.get a i) j = A a i j / n) (hM : ∀ a i j, |A a i j| ≤ n)
    (h : ∀ a i k, (o.get a i k).c ≠ 0 ∧ |(o.get a i k).c| ≤ 2 ^ 16 ∧ |(o.get a i k).a| + 2 * |(o.get a i k).b| ≤ |(o.get a i k).c|) :
    Moderate p 1 o := by
  have hn0 : (0 : ℝ) < n := by exact_mod_cast hn
  intro s hs i
  obtain ⟨a, rfl⟩ := List.get_of_mem hs
  refine ⟨⟨fun k => (h a i k).1, fun k => ?_, fun k => ?_, fun j => ?_⟩, fun k => (h a i k).2.1⟩
  · have : |((o.get a i k).c : ℝ)| ≤ 2 ^ 16 := by exact_mod_cast (h a i k).2.1
    exact this.trans (by norm_num)
  · rw [one_mul]
    exact_mod_cast (h a i k).2.2
  · rw [hA, abs_div, abs_of_pos hn0, div_le_one hn0]
    exact_mod_cast hM a i j

/-- Triangles with corners on a grid meet the conditions of `SharpRounded`. -/
theorem sharpRounded_grid {p : Package} {o : Obj 3} (h : SharpTriangles p o) {R : ℝ} (h0 : 0 ≤ R) (hR : R ≤ 4) (hm : Moderate p R o)
    (A : Fin o.length → Fin 3 → Fin 3 → ℤ) (n M : ℕ) (hn : 0 < n) (hA : ∀ a i j, p.perp (o.get a i) j = A a i j / n)
    (hM : ∀ a i j, |A a i j| ≤ M) (hn3 : n ^ 3 ≤ 10 ^ 8) (hn2 : 3 * n ^ 2 ≤ 10 ^ 6) (hMn : 36 * M ^ 2 * n ^ 2 ≤ 10 ^ 6)
    (hn8 : n ≤ 10 ^ 8) : SharpRounded p R o := by
  have corner : ∀ x ∈ p.corners o, ∃ a i, ∀ j, x j = A a i j / n := by
    rintro x ⟨s, hs, i, rfl⟩
    obtain ⟨a, rfl⟩ := List.get_of_mem hs
    exact ⟨a, i, hA a i⟩
  refine ⟨h, hm, ?_, ?_, ?_⟩
  · intro a ha b hb c hc d hd
    obtain ⟨a1, a2, ha⟩ := corner a ha
    obtain ⟨b1, b2, hb⟩ := corner b hb
    obtain ⟨c1, c2, hc⟩ := corner c hc
    obtain ⟨d1, d2, hd⟩ := corner d hd
    exact flat_grid_rounded hn hn3 h0 hR ha hb hc hd
  · intro a ha b hb c hc x hx
    obtain ⟨a1, a2, ha⟩ := corner a ha
    obtain ⟨b1, b2, hb⟩ := corner b hb
    obtain ⟨c1, c2, hc⟩ := corner c hc
    exact line_grid_rounded hn ha hb hc (hM a1 a2) (hM b1 b2) hMn hn2 hx
  · intro s hs t ht i j k l hij hkl hmid
    refine h.edges s hs t ht i j k l hij hkl ?_
    obtain ⟨a, rfl⟩ := List.get_of_mem hs
    obtain ⟨b, rfl⟩ := List.get_of_mem ht
    exact mid_grid_rounded p (a := A a) (b := A b) hn hn8 h0 hR (hA a) (hA b) hmid

/-- Tetrahedra with corners on a grid meet the conditions of `SharpObject`. -/
theorem sharpObject_grid {o : Obj 4} (h : Sharp o) {R : ℝ} (h0 : 0 ≤ R) (hR : R ≤ 4) (hm : Moderate .ico R o) (hname : OneName .ico o)
    (A : Fin o.length → Fin 4 → Fin 3 → ℤ) (n M : ℕ) (hn : 0 < n) (hA : ∀ a i j, Package.ico.perp (o.get a i) j = A a i j / n)
    (hM : ∀ a i j, |A a i j| ≤ M) (hn3 : n ^ 3 ≤ 10 ^ 8) (hn2 : 3 * n ^ 2 ≤ 10 ^ 6) (hMn : 36 * M ^ 2 * n ^ 2 ≤ 10 ^ 6)
    (hn8 : n ≤ 10 ^ 8) (hC : 6 * n + 6000 * M < 10 ^ 8) : SharpObject R o := by
  have corner : ∀ x ∈ Package.ico.corners o, ∃ a i, ∀ j, x j = A a i j / n := by
    rintro x ⟨s, hs, i, rfl⟩
    obtain ⟨a, rfl⟩ := List.get_of_mem hs
    exact ⟨a, i, hA a i⟩
  refine ⟨h, hm, hname, ?_, ?_, ?_, ?_⟩
  · intro a ha b hb c hc d hd
    obtain ⟨a1, a2, ha⟩ := corner a ha
    obtain ⟨b1, b2, hb⟩ := corner b hb
    obtain ⟨c1, c2, hc⟩ := corner c hc
    obtain ⟨d1, d2, hd⟩ := corner d hd
    exact flat_grid_rounded hn hn3 h0 hR ha hb hc hd
  · intro a ha b hb c hc x hx
    obtain ⟨a1, a2, ha⟩ := corner a ha
    obtain ⟨b1, b2, hb⟩ := corner b hb
    obtain ⟨c1, c2, hc⟩ := corner c hc
    exact line_grid_rounded hn ha hb hc (hM a1 a2) (hM b1 b2) hMn hn2 hx
  · exact fun i j hij => h.faces i j (near_grid hn hA hM hC hij)
  · intro s hs t ht i j k l hij hkl hmid
    refine h.edges s hs t ht i j k l hij hkl ?_
    obtain ⟨a, rfl⟩ := List.get_of_mem hs
    obtain ⟨b, rfl⟩ := List.get_of_mem ht
    exact mid_grid_rounded .ico (a := A a) (b := A b) hn hn8 h0 hR (hA a) (hA b) hmid

end Rounding
end PyQC
