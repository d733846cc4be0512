import Verif.Lemmas.RoundingPlane
import Verif.Lemmas.RoundingFlat
import Verif.Lemmas.Border
import Verif.Model.FloatSurface
import Verif.Spec.OutlineRounded
/-!
# Surfaces, border edges and outlines with rounding
-/
namespace PyQC
open Matrix

/-! ## Stored points and segments -/

theorem internalOf_approx (F : Float64) {R : ℝ} (hR : 1 ≤ R) (hR2 : R ≤ 2 ^ 10) {p : Package} {v : Vec 6} (h : Small p R v)
    (j : Fin 3) : Approx R 75 (F.internalOf p v j) (p.perp v j) := by
  cases p
  · exact internal_approx F hR hR2 h j
  · exact dodeInternal_approx F hR hR2 h j

/-- A point whose projection on a segment is as long as the way to it, up to small errors, is near the segment. -/
theorem near_segment {P A B : Fin 3 → ℝ} (h1 : |(P - A) ⬝ᵥ (B - A) - norm3 (P - A) * norm3 (B - A)| < 11 / 10 ^ 7)
    (h2 : norm3 (P - A) ≤ norm3 (B - A) + 1 / 10 ^ 11) : ∃ x ∈ segment ℝ A B, dist3 P x ^ 2 < 3 / 10 ^ 6 := by
  have a0 := norm3_nonneg (P - A)
  have b0 := norm3_nonneg (B - A)
  by_cases hb : norm3 (B - A) ≤ 1 / 10 ^ 4
  · refine ⟨A, left_mem_segment .., ?_⟩
    rw [dist3_eq]
    nlinarith
  have hb := not_le.1 hb
  have bp : 0 < norm3 (B - A) := by linarith [show (0 : ℝ) < 1 / 10 ^ 4 by norm_num]
  generalize hu : P - A = u at h1 h2 a0
  generalize hv : B - A = v at h1 h2 b0 hb bp
  obtain ⟨κ, hκ⟩ : ∃ κ, κ = norm3 u / norm3 v := ⟨_, rfl⟩
  have hκv : κ * norm3 v = norm3 u := by rw [hκ]; field_simp
  have hκ0 : 0 ≤ κ := by rw [hκ]; positivity
  have hκ1 : κ ≤ 1 + 1 / 10 ^ 7 := by
    rw [hκ, div_le_iff₀ bp]
    nlinarith
  have hw : norm3 (u - κ • v) * norm3 (u - κ • v) = 2 * κ * (norm3 u * norm3 v - u ⬝ᵥ v) := by
    have e1 := norm3_sq u
    have e2 := norm3_sq v
    have e3 : v ⬝ᵥ u = u ⬝ᵥ v := dotProduct_comm _ _
    rw [norm3_sq]
    simp only [sub_dotProduct, dotProduct_sub, smul_dotProduct, dotProduct_smul, smul_eq_mul]
    rw [← e1, ← e2, e3]
    linear_combination (-(norm3 u) + κ * norm3 v) * hκv
  rw [abs_lt] at h1
  have hw2 : norm3 (u - κ • v) * norm3 (u - κ • v) < 225 / 10 ^ 8 := by
    rw [hw]
    have : norm3 u * norm3 v - u ⬝ᵥ v ≤ 11 / 10 ^ 7 := by linarith
    nlinarith
  have hw3 : norm3 (u - κ • v) < 15 / 10 ^ 4 := by nlinarith [norm3_nonneg (u - κ • v)]
  by_cases hk : κ ≤ 1
  · refine ⟨A + κ • v, ⟨1 - κ, κ, by linarith, hκ0, by ring, ?_⟩, ?_⟩
    · rw [← hv]; module
    · rw [dist3_eq, show P - (A + κ • v) = u - κ • v by rw [← hu]; module]
      nlinarith
  · refine ⟨B, right_mem_segment .., ?_⟩
    have hk := not_le.1 hk
    have e : P - B = (u - κ • v) + (κ - 1) • v := by rw [← hu, ← hv]; module
    have h4 := norm3_add_le (u - κ • v) ((κ - 1) • v)
    rw [norm3_smul (by linarith), ← e] at h4
    have h5 : (κ - 1) * norm3 v ≤ 1 / 10 ^ 11 := by nlinarith
    have h6 : norm3 (P - B) ≤ 16 / 10 ^ 4 := by linarith [show (1 : ℝ) / 10 ^ 11 ≤ 1 / 10 ^ 4 by norm_num]
    rw [dist3_eq]
    nlinarith [norm3_nonneg (P - B)]

theorem segment_sizes {R : ℝ} (hR : 1 ≤ R) (hR2 : R ≤ 32) {a a' : ℝ} (nu : |a' - a| ≤ 640 * ulp * R) (ca : a ≤ 112)
    (u1 : 0 ≤ a) : |a' - a| ≤ 3 / 10 ^ 12 ∧ |a'| ≤ 113 := by
  have up := ulp_pos
  have us : ulp ≤ 12 / 10 ^ 17 := ulp_small.1.trans (by norm_num)
  have uR : ulp * R ≤ 4 / 10 ^ 15 := by nlinarith
  have na : |a' - a| ≤ 3 / 10 ^ 12 := nu.trans (by linarith)
  refine ⟨na, ?_⟩
  rw [abs_le] at na ⊢
  constructor <;> linarith

theorem segment_product (F : Float64) {R : ℝ} (hR : 1 ≤ R) (hR2 : R ≤ 32) {a a' b b' d d' : ℝ}
    (nu : |a' - a| ≤ 640 * ulp * R) (nv : |b' - b| ≤ 640 * ulp * R) (ca : a ≤ 112) (cb : b ≤ 112) (u1 : 0 ≤ a) (v1 : 0 ≤ b)
    (dabs : |d| ≤ 48 * R ^ 3) (hd : |d' - d| ≤ 241 * ulp * (48 * R ^ 3)) (h2 : |F.fl (d' - F.fl (a' * b'))| < F.eps) :
    |d - a * b| < 11 / 10 ^ 7 := by
  have up := ulp_pos
  have us : ulp ≤ 12 / 10 ^ 17 := ulp_small.1.trans (by norm_num)
  have hE := (eps_approx F).err
  obtain ⟨na, a0⟩ := segment_sizes hR hR2 nu ca u1
  obtain ⟨nb, b0⟩ := segment_sizes hR hR2 nv cb v1
  have r3 : R ^ 3 ≤ 32768 := by
    calc R ^ 3 ≤ 32 ^ 3 := by gcongr
      _ = 32768 := by norm_num
  have uR3 : ulp * R ^ 3 ≤ 12 / 10 ^ 17 * 32768 := mul_le_mul us r3 (by positivity) (by norm_num)
  have hd' : |d' - d| ≤ 5 / 10 ^ 8 := hd.trans (by linarith)
  have ab0 : |a' * b'| ≤ 113 * 113 := by
    rw [abs_mul]
    exact mul_le_mul a0 b0 (abs_nonneg _) (by norm_num)
  have hab : |a' * b' - a * b| ≤ 1 / 10 ^ 9 := by
    have e : a' * b' - a * b = a' * (b' - b) + (a' - a) * b := by ring
    rw [e]
    refine (abs_add_le _ _).trans ?_
    rw [abs_mul, abs_mul]
    have m1 := mul_le_mul a0 nb (abs_nonneg _) (by norm_num)
    have m2 := mul_le_mul na (show |b| ≤ 112 by rwa [abs_of_nonneg v1]) (abs_nonneg _) (by norm_num)
    linarith
  have hf := fl_err' F (x := a' * b') (ab0.trans (by norm_num))
  have m3 := mul_le_mul us ab0 (abs_nonneg _) (by norm_num)
  have hf' : |F.fl (a' * b') - a' * b'| ≤ 1 / 10 ^ 11 := hf.trans (by linarith)
  rw [abs_le] at hf' hab hd' ab0
  have dd : |d| ≤ 1572864 := dabs.trans (by linarith)
  rw [abs_le] at dd
  have hx : |d' - F.fl (a' * b')| ≤ 1600000 := by
    rw [abs_le]; constructor <;> linarith
  have hz := fl_err' F (x := d' - F.fl (a' * b')) (hx.trans (by norm_num))
  have m4 := mul_le_mul us hx (abs_nonneg _) (by norm_num)
  have hz' : |F.fl (d' - F.fl (a' * b')) - (d' - F.fl (a' * b'))| ≤ 3 / 10 ^ 10 := hz.trans (by linarith)
  have hE' : F.eps ≤ 1 / 10 ^ 6 + 1 / 10 ^ 10 := by
    rw [abs_le] at hE
    unfold EPS at hE
    linarith
  rw [abs_le] at hz'
  rw [abs_lt] at h2 ⊢
  constructor <;> linarith

theorem segment_quotient (F : Float64) (hF : KeepsHuge F) {R : ℝ} (hR : 1 ≤ R) (hR2 : R ≤ 32) {a a' b b' : ℝ}
    (nu : |a' - a| ≤ 640 * ulp * R) (nv : |b' - b| ≤ 640 * ulp * R) (ca : a ≤ 112) (cb : b ≤ 112) (u1 : 0 ≤ a) (v1 : 0 ≤ b)
    (h1 : 0 < b') (h3 : F.fl (a' / b') ≤ 1) : a ≤ b + 1 / 10 ^ 11 := by
  have up := ulp_pos
  have us : ulp ≤ 12 / 10 ^ 17 := ulp_small.1.trans (by norm_num)
  obtain ⟨na, a0⟩ := segment_sizes hR hR2 nu ca u1
  obtain ⟨nb, b0⟩ := segment_sizes hR hR2 nv cb v1
  rw [abs_le] at na nb
  by_cases hq : a' / b' ≤ 2 ^ 1000
  · by_cases hq0 : a' / b' ≤ 1
    · rw [div_le_one h1] at hq0
      linarith
    · have hq0 := not_le.1 hq0
      have := F.fl_err (a' / b') (by rwa [abs_of_pos (by linarith)])
      rw [abs_of_pos (by linarith : 0 < a' / b'), abs_le] at this
      have ht := ulp_small.2
      have h4 : a' / b' ≤ 1 + 3 * ulp := by
        obtain ⟨this, -⟩ := this
        generalize a' / b' = q at *
        clear na nb nu nv a0 b0 hq
        by_contra hc
        have hc := not_le.1 hc
        have : (1 + 3 * ulp) * (1 - ulp) < q * (1 - ulp) := mul_lt_mul_of_pos_right hc (by linarith)
        nlinarith
      rw [div_le_iff₀ h1] at h4
      have b1 : b' ≤ 113 := (le_abs_self _).trans b0
      have m := mul_le_mul us b1 h1.le (by norm_num)
      linarith
  · exact absurd h3 (not_le.2 (hF _ (not_le.1 hq)))

/-- A point found on a segment with rounding is near the segment. -/
theorem onSegment_rounded (F : Float64) (hF : KeepsHuge F) {R : ℝ} (hR : 1 ≤ R) (hR2 : R ≤ 32) {P A B P' A' B' : Fin 3 → ℝ}
    (hP : ∀ j, Approx R 75 (P' j) (P j)) (hA : ∀ j, Approx R 75 (A' j) (A j)) (hB : ∀ j, Approx R 75 (B' j) (B j))
    (h : F.pointOnSegmentNumerical P' A' B' = true) : ∃ x ∈ segment ℝ A B, dist3 P x ^ 2 < 3 / 10 ^ 6 := by
  have up := ulp_pos
  have hR10 : R ≤ 2 ^ 10 := hR2.trans (by norm_num)
  have hu : ∀ j, Approx (2 * R) 77 (F.sub P' A' j) ((P - A) j) := fun j => diff_approx F hR10 (hP j) (hA j)
  have hv : ∀ j, Approx (2 * R) 77 (F.sub B' A' j) ((B - A) j) := fun j => diff_approx F hR10 (hB j) (hA j)
  have e0 : (1 : ℝ) / 2 ^ 100 ≤ 1 := by norm_num
  have n20 : ∀ {x' x : Fin 3 → ℝ}, (∀ j, Approx (2 * R) 77 (x' j) (x j)) → |F.norm3 x' - norm3 x| ≤ 640 * ulp * R ∧
      norm3 x ≤ 174 / 100 * (2 * R) := by
    intro x' x hx
    refine ⟨?_, norm3_le (by linarith) fun i => (hx i).abs⟩
    have := (norm_rounded F (R := 20 * R) (by linarith) (by linarith) (x' := x') (x := x) fun j =>
      (hx j).of (by linarith) ((hx j).abs.trans (by linarith)) (by linarith) (by norm_num)).1
    linarith
  obtain ⟨nu, nu'⟩ := n20 hu
  obtain ⟨nv, nv'⟩ := n20 hv
  have hd := (dot_approx F hR hR10 (x := P - A) (y := B - A) (x' := F.sub P' A') (y' := F.sub B' A')
    (fun i => ((hu i).monoM (N := 8 * R ^ 2) (by nlinarith)).mono (by norm_num) (by norm_num)) hv)
  have dabs := hd.abs
  replace hd := hd.err
  unfold Float64.pointOnSegmentNumerical at h
  simp only [] at h
  split at h
  case isFalse => cases h
  rename_i h1
  obtain ⟨h1, h2⟩ := h1
  split at h
  case isFalse => cases h
  rename_i h3
  have h3 := h3.2
  have u1 := norm3_nonneg (P - A)
  have v1 := norm3_nonneg (B - A)
  have hE := (eps_approx F).err
  refine near_segment ?_ ?_
  · exact segment_product F hR hR2 nu nv (by linarith) (by linarith) u1 v1 dabs hd h2
  · exact segment_quotient F hF hR hR2 nu nv (by linarith) (by linarith) u1 v1 h1 h3

/-! ## Centroids -/

theorem reduce_size {c1 c2 c3 : Int} (h3 : c3 ≠ 0) : ∃ r, reduce3 c1 c2 c3 = .ok r ∧ r.c ≠ 0 ∧ |r.c| ≤ |c3| ∧
    ∀ θ : ℝ, r.val θ = ((c1 : ℝ) + c2 * θ) / c3 := by
  obtain ⟨r, h1, -, h2, h⟩ := reduce_aux c1 c2 c3 h3
  exact ⟨r, h1, h2.1.ne', (Machine.reduce3_le h1).2.2, h⟩

theorem add_size (p : Package) {x y : Num3} (hx : x.c ≠ 0) (hy : y.c ≠ 0) : ∃ r, p.arith.add x y = .ok r ∧ r.c ≠ 0 ∧
    |r.c| ≤ |x.c| * |y.c| ∧ ∀ θ : ℝ, r.val θ = x.val θ + y.val θ := by
  have e : p.arith.add x y = reduce3 (x.a * y.c + y.a * x.c) (x.b * y.c + y.b * x.c) (x.c * y.c) := by cases p <;> rfl
  obtain ⟨r, h1, h2, h3, h⟩ := reduce_size (c1 := x.a * y.c + y.a * x.c) (c2 := x.b * y.c + y.b * x.c) (mul_ne_zero hx hy)
  refine ⟨r, e.trans h1, h2, by rwa [abs_mul] at h3, fun θ => ?_⟩
  rw [h θ]
  have : (x.c : ℝ) ≠ 0 := by exact_mod_cast hx
  have : (y.c : ℝ) ≠ 0 := by exact_mod_cast hy
  unfold Num3.val
  push_cast
  field_simp
  ring

theorem nth_size (p : Package) {x : Num3} {n : Nat} (hx : x.c ≠ 0) (hn : n ≠ 0) : ∃ r, p.arith.mul x ⟨1, 0, n⟩ = .ok r ∧
    r.c ≠ 0 ∧ |r.c| ≤ 4 * |x.c| * n ∧ ∀ θ : ℝ, r.val θ = x.val θ / n := by
  have hc : (x.c : ℝ) ≠ 0 := by exact_mod_cast hx
  have hn' : (n : ℝ) ≠ 0 := by exact_mod_cast hn
  have hz : (n : Int) ≠ 0 := by exact_mod_cast hn
  cases p
  · obtain ⟨r, h1, h2, h3, h⟩ := reduce_size (c1 := x.a * 1 + x.b * 0) (c2 := x.a * 0 + x.b * 1 + x.b * 0) (mul_ne_zero hx hz)
    refine ⟨r, h1, h2, ?_, fun θ => ?_⟩
    · rw [abs_mul, Nat.abs_cast] at h3
      have : 0 ≤ |x.c| * (n : Int) := by positivity
      linarith
    · rw [h θ]
      unfold Num3.val
      push_cast
      field_simp
      ring
  · obtain ⟨r, h1, h2, h3, h⟩ := reduce_size (c1 := 4 * x.a * 1 + 3 * x.b * 0) (c2 := 4 * (x.a * 0 + x.b * 1))
      (mul_ne_zero (mul_ne_zero (show (4 : Int) ≠ 0 by norm_num) hx) hz)
    refine ⟨r, h1, h2, ?_, fun θ => ?_⟩
    · rwa [abs_mul, abs_mul, Nat.abs_cast] at h3
    · rw [h θ]
      unfold Num3.val
      push_cast
      field_simp
      ring

theorem foldAdd_size (p : Package) {D : Int} (hD : 0 ≤ D) {α : Type} {f : α → Num3} (l : List α)
    (hl : ∀ x ∈ l, (f x).c ≠ 0 ∧ |(f x).c| ≤ D) {a : Num3} (ha : a.c ≠ 0) :
    ∃ r, foldPy (fun acc x => p.arith.add acc (f x)) a l = .ok r ∧ r.c ≠ 0 ∧ |r.c| ≤ |a.c| * D ^ l.length ∧
      ∀ θ : ℝ, r.val θ = a.val θ + (l.map fun x => (f x).val θ).sum := by
  induction l generalizing a with
  | nil => exact ⟨a, rfl, ha, by simp, by simp⟩
  | cons x l ih =>
    obtain ⟨hx, hx'⟩ := hl x (by simp)
    obtain ⟨r, h1, h2, h3, h4⟩ := add_size p ha hx
    obtain ⟨q, g1, g2, g3, g4⟩ := ih (fun y hy => hl y (by simp [hy])) h2
    refine ⟨q, ?_, g2, ?_, fun θ => ?_⟩
    · rw [foldPy, h1]; exact g1
    · rw [List.length_cons, pow_succ]
      calc |q.c| ≤ |r.c| * D ^ l.length := g3
        _ ≤ (|a.c| * |(f x).c|) * D ^ l.length := by gcongr
        _ ≤ (|a.c| * D) * D ^ l.length := by gcongr
        _ = |a.c| * (D ^ l.length * D) := by ring
    · rw [g4, h4, List.map_cons, List.sum_cons, add_assoc]

theorem size_iff {R : ℝ} {t : Num3} (hc : t.c ≠ 0) :
    |(t.a : ℝ)| + 2 * |(t.b : ℝ)| ≤ R * |(t.c : ℝ)| ↔ |t.val 2| ≤ R ∧ |t.val (-2)| ≤ R := by
  have hc' : (0 : ℝ) < |(t.c : ℝ)| := abs_pos.2 (by exact_mod_cast hc)
  unfold Num3.val
  rw [abs_div, abs_div, div_le_iff₀ hc', div_le_iff₀ hc']
  generalize (t.a : ℝ) = a
  generalize (t.b : ℝ) = b
  rw [abs_le, abs_le]
  rcases abs_cases a with ⟨h1, h1'⟩ | ⟨h1, h1'⟩ <;> rcases abs_cases b with ⟨h2, h2'⟩ | ⟨h2, h2'⟩ <;> rw [h1, h2] <;>
    exact ⟨fun h => ⟨⟨by linarith, by linarith⟩, ⟨by linarith, by linarith⟩⟩, fun ⟨⟨_, _⟩, _, _⟩ => by linarith⟩

theorem abs_sum_le_card {n : Nat} {f : Fin n → ℝ} {R : ℝ} (h : ∀ i, |f i| ≤ R) : |∑ i, f i| ≤ n * R := by
  refine (Finset.abs_sum_le_sum_abs _ _).trans ((Finset.sum_le_sum fun i _ => h i).trans ?_)
  simp

/-- The centroid of corners of moderate size with small denominators has moderate size. -/
theorem centroid_small (p : Package) {R : ℝ} {m : Nat} (hm : 0 < m) (hm3 : m ≤ 3) {s : Simplex m}
    (hs : ∀ i, Small p R (s i) ∧ ∀ k, |(s i k).c| ≤ 2 ^ 16) :
    ∃ r, centroid p.arith (List.ofFn s) = .ok r ∧ p.perp r = p.centroidPerp s ∧ Small p R r := by
  have hm0 : (0 : ℝ) < m := by exact_mod_cast hm
  obtain ⟨r, hr, hp⟩ := perp_centroid p hm (s := s) fun i k => (hs i).1.den k
  have key : ∀ k, ∃ q : Num3, (foldPy (fun acc (v : Vec 6) => p.arith.add acc (v k)) ⟨0, 0, 1⟩ (List.ofFn s) >>= fun v2 : Num3 =>
      p.arith.mul v2 ⟨1, 0, ((List.ofFn s).length : Int)⟩) = .ok q ∧ q.c ≠ 0 ∧ |q.c| ≤ 2 ^ 63 ∧
        ∀ θ : ℝ, q.val θ = (∑ i, (s i k).val θ) / m := by
    intro k
    obtain ⟨r, h1, h2, h3, h4⟩ := foldAdd_size p (D := 2 ^ 16) (by norm_num) (f := fun v : Vec 6 => v k) (List.ofFn s)
      (by
        intro v hv
        obtain ⟨i, rfl⟩ := List.mem_ofFn.1 hv
        exact ⟨(hs i).1.den k, (hs i).2 k⟩) (a := ⟨0, 0, 1⟩) (by simp)
    obtain ⟨q, g1, g2, g3, g4⟩ := nth_size p (n := (List.ofFn s).length) h2 (by simp; omega)
    refine ⟨q, by rw [h1, bind_ok', g1], g2, g3.trans ?_, fun θ => ?_⟩
    · rw [List.length_ofFn] at h3 ⊢
      have e : |r.c| ≤ 2 ^ 48 := h3.trans (by
        interval_cases m <;> norm_num)
      have : (m : Int) ≤ 3 := by exact_mod_cast hm3
      calc 4 * |r.c| * (m : Int) ≤ 4 * 2 ^ 48 * 3 := by gcongr
        _ ≤ 2 ^ 63 := by norm_num
    · rw [g4, h4, List.length_ofFn, List.map_ofFn, List.sum_ofFn]
      simp [Num3.val]
  choose q h1 h2 h3 h4 using key
  have e : centroid p.arith (List.ofFn s) = .ok q := fillFin_ok h1
  rw [hr] at e
  cases e
  have avg : ∀ {f : Fin m → ℝ}, (∀ i, |f i| ≤ R) → |(∑ i, f i) / m| ≤ R := by
    intro f hf
    rw [abs_div, Nat.abs_cast, div_le_iff₀ hm0, mul_comm]
    exact abs_sum_le_card hf
  refine ⟨r, hr, hp, ⟨h2, fun i => by exact_mod_cast h3 i, fun i => ?_, fun j => ?_⟩⟩
  · rw [size_iff (h2 i), h4, h4]
    exact ⟨avg fun k => ((size_iff ((hs k).1.den i)).1 ((hs k).1.size i)).1,
      avg fun k => ((size_iff ((hs k).1.den i)).1 ((hs k).1.size i)).2⟩
  · rw [hp]
    have e : p.centroidPerp s j = (∑ i, p.perp (s i) j) / m := by
      unfold Package.centroidPerp
      simp [div_eq_inv_mul, Finset.sum_apply]
    rw [e]
    exact avg fun k => (hs k).1.perp j

/-! ## Doubles and border edges -/

/-- All corners have moderate size and small denominators. -/
def ModerateSimplex (p : Package) (R : ℝ) {m : Nat} (s : Simplex m) : Prop :=
  ∀ i, Small p R (s i) ∧ ∀ k, |(s i k).c| ≤ 2 ^ 16

theorem ModerateSimplex.ok {p : Package} {R : ℝ} {m : Nat} {s : Simplex m} (h : ModerateSimplex p R s) : Simplex.Ok s :=
  fun i k => (h i).1.den k

theorem ModerateSimplex.edge {p : Package} {R : ℝ} {m : Nat} {s : Simplex m} (h : ModerateSimplex p R s) (i j : Fin m) :
    ModerateSimplex p R (PyQC.edge s i j) := by
  intro k; fin_cases k
  · exact h i
  · exact h j

/-- The stored perp coordinates of the centroid. -/
noncomputable def storedKey (F : Float64) (p : Package) {m : Nat} (s : Simplex m) : List ℝ :=
  match F.centroidKey p s with
  | .ok k => k
  | .error _ => []

section
variable (F : Float64) {R : ℝ} (hR : 1 ≤ R) (hR2 : R ≤ 2 ^ 10) (p : Package) {m : Nat} (hm : 0 < m) (hm3 : m ≤ 3)
include hR hR2 hm hm3

theorem centroidKey_rounded {s : Simplex m} (hs : ModerateSimplex p R s) : ∃ k : Fin 3 → ℝ,
    F.centroidKey p s = .ok (List.ofFn k) ∧ ∀ j, |k j - p.centroidPerp s j| ≤ 75 * ulp * R := by
  obtain ⟨r, h1, h2, h3⟩ := centroid_small p hm hm3 hs
  refine ⟨F.internalOf p r, ?_, fun j => ?_⟩
  · unfold Float64.centroidKey
    rw [h1, bind_ok']
  · rw [← h2]
    exact (internalOf_approx F hR hR2 h3 j).err

theorem storedKey_ok {s : Simplex m} (hs : ModerateSimplex p R s) : F.centroidKey p s = .ok (storedKey F p s) := by
  obtain ⟨k, h, -⟩ := centroidKey_rounded F hR hR2 p hm hm3 hs
  unfold storedKey
  rw [h]

theorem storedKey_close {s t : Simplex m} (hs : ModerateSimplex p R s) (ht : ModerateSimplex p R t)
    (h : storedKey F p s = storedKey F p t) (j : Fin 3) : |p.centroidPerp s j - p.centroidPerp t j| ≤ margin R := by
  obtain ⟨k, h1, h2⟩ := centroidKey_rounded F hR hR2 p hm hm3 hs
  obtain ⟨l, h3, h4⟩ := centroidKey_rounded F hR hR2 p hm hm3 ht
  rw [storedKey_ok F hR hR2 p hm hm3 hs] at h1
  rw [storedKey_ok F hR hR2 p hm hm3 ht] at h3
  have e : k = l := List.ofFn_injective ((Except.ok.inj h1).symm.trans (h.trans (Except.ok.inj h3)))
  subst e
  have g1 := h2 j
  have g2 := h4 j
  have up := ulp_pos
  have : ulp * R ≤ ulp * R ^ 3 := mul_le_mul_of_nonneg_left (by nlinarith [mul_self_nonneg R]) up.le
  have : 0 < ulp * R := by positivity
  rw [margin_ulp]
  rw [abs_le] at g1 g2 ⊢
  constructor <;> nlinarith

theorem uniqueByCentroid_rounded {o : Obj m} (ho : ∀ s ∈ o, ModerateSimplex p R s) :
    F.uniqueByCentroid p o = .ok (uniqueBy (storedKey F p) o) := by
  unfold Float64.uniqueByCentroid
  rw [fillList_ok (fun s hs => storedKey_ok F hR hR2 p hm hm3 (ho s hs)), bind_ok',
    uniqueBy_zip (fun x => x) (storedKey F p)]

end

theorem moderate_sides {p : Package} {R : ℝ} {o : Obj 3} (ho : ∀ t ∈ o, ModerateSimplex p R t) :
    ∀ e ∈ o.flatMap triangleEdges, ModerateSimplex p R e := by
  intro e he
  obtain ⟨t, ht, he⟩ := List.mem_flatMap.mp he
  have := ho t ht
  simp only [triangleEdges, List.mem_cons, List.not_mem_nil, or_false] at he
  rcases he with rfl | rfl | rfl <;> intro i <;> fin_cases i <;> exact this _

/-- The border edges with rounding, if sides whose midpoints agree within the margin have the same ends. -/
theorem borderEdges_rounded (F : Float64) {R : ℝ} (hR : 1 ≤ R) (hR2 : R ≤ 2 ^ 10) (p : Package) {o : Obj 3}
    (ho : ∀ t ∈ o, ModerateSimplex p R t) (hd : ∀ t ∈ o, Function.Injective (p.perps t))
    (hmid : ∀ i j, (∀ c, |p.centroidPerp (side o i) c - p.centroidPerp (side o j) c| ≤ margin R) → sideSet p o i = sideSet p o j) :
    ∃ out, F.borderEdges p o = .ok out ∧
      ∀ e, e ∈ out ↔ ∃ j, e = side o j ∧ ∀ k, sideSet p o k = sideSet p o j → k = j := by
  classical
  have hok : Obj.Ok o := fun t ht => (ho t ht).ok
  have hside : ∀ j, side o j ∈ o.flatMap triangleEdges := fun j => by
    rw [sides_eq]; exact List.mem_map.mpr ⟨j, mem_sideIdx j, rfl⟩
  refine ⟨(uniqueBy (storedKey F p) (o.flatMap triangleEdges)).filter
    fun e => decide (∃! j, sideSet p o j = Set.range (p.perps e)), ?_, fun e => ?_⟩
  · unfold Float64.borderEdges Float64.generatorUniqueEdges
    simp only []
    rw [uniqueByCentroid_rounded F hR hR2 p (by norm_num) (by norm_num) (moderate_sides ho), bind_ok']
    exact borderCount_ok p hok hd fun e he => mem_of_mem_uniqueBy he
  rw [List.mem_filter, decide_eq_true_iff]
  constructor
  · rintro ⟨h1, h2⟩
    have := mem_of_mem_uniqueBy h1
    rw [sides_eq] at this
    obtain ⟨j, -, rfl⟩ := List.mem_map.mp this
    rw [range_side] at h2
    exact ⟨j, rfl, fun k hk => h2.unique hk rfl⟩
  · rintro ⟨j, rfl, hj⟩
    rw [range_side]
    refine ⟨?_, j, rfl, hj⟩
    obtain ⟨f, hf, e⟩ := exists_uniqueBy (key := storedKey F p) (hside j)
    have := mem_of_mem_uniqueBy hf
    rw [sides_eq] at this
    obtain ⟨k, -, rfl⟩ := List.mem_map.mp this
    have hk := hj k (hmid k j (storedKey_close F hR hR2 p (by norm_num) (by norm_num) (moderate_sides ho _ (hside k))
      (moderate_sides ho _ (hside j)) e))
    rw [hk] at hf
    exact hf

/-! ## Joining segments -/

theorem twoSegmentLoop_rounded (F : Float64) (p : Package) {s t : Simplex 2} (hs : Simplex.Ok s) (ht : Simplex.Ok t)
    (L : List (Fin 2 × Fin 2 × Fin 2 × Fin 2)) :
    ∃ r, F.twoSegmentLoop p s t L = .ok r ∧
      ∀ e, r = some e → ∃ a b c d, (a, b, c, d) ∈ L ∧ e = ![s b, t d] ∧ p.perp (s a) = p.perp (t c) ∧
        F.pointOnSegment p (s a) ![s b, t d] = true := by
  induction L with
  | nil => exact ⟨none, rfl, by simp⟩
  | cons x L ih =>
    obtain ⟨a, b, c, d⟩ := x
    obtain ⟨r, hr, h1⟩ := ih
    have hrec : ∃ r', (F.twoSegmentLoop p s t L = .ok r') ∧
      ∀ e, r' = some e → ∃ a' b' c' d', (a', b', c', d') ∈ (a, b, c, d) :: L ∧ e = ![s b', t d'] ∧
        p.perp (s a') = p.perp (t c') ∧ F.pointOnSegment p (s a') ![s b', t d'] = true :=
      ⟨r, hr, fun e he => by
        obtain ⟨a', b', c', d', hm, h⟩ := h1 e he
        exact ⟨a', b', c', d', List.mem_cons_of_mem _ hm, h⟩⟩
    obtain ⟨q, hq, hq'⟩ := C25_vertices p (s a) (t c) (hs a) (ht c)
    unfold Float64.twoSegmentLoop
    rw [hq, bind_ok']
    by_cases hqt : q = true
    · simp only [hqt, if_true]
      cases hp : F.pointOnSegment p (s a) ![s b, t d] with
      | true =>
        refine ⟨_, rfl, ?_⟩
        rintro e he
        injection he with he
        exact ⟨a, b, c, d, by simp, he.symm, hq'.mp hqt, hp⟩
      | false => exact hrec
    · simp only [hqt]
      exact hrec

/-- The result of joining two segments with rounding. -/
noncomputable def joinRounded (F : Float64) (p : Package) (s t : Simplex 2) : Option (Simplex 2) :=
  match F.twoSegmentIntoOne p s t with
  | .ok r => r
  | .error _ => none

theorem joinRounded_ok (F : Float64) (p : Package) {s t : Simplex 2} (hs : Simplex.Ok s) (ht : Simplex.Ok t) :
    F.twoSegmentIntoOne p s t = .ok (joinRounded F p s t) := by
  obtain ⟨r, hr, -⟩ := twoSegmentLoop_rounded F p hs ht segCombs
  have hr' : F.twoSegmentIntoOne p s t = .ok r := hr
  unfold joinRounded
  rw [hr']

theorem joinRounded_joins (F : Float64) (hF : KeepsHuge F) {R : ℝ} (hR : 1 ≤ R) (hR2 : R ≤ 32) {p : Package} {D : Set (Vec 6)}
    {C : Set (Fin 3 → ℝ)} (hD : ∀ v ∈ D, p.perp v ∈ C ∧ Small p R v)
    (hline : ∀ a ∈ C, ∀ b ∈ C, ∀ c ∈ C, ∀ x ∈ segment ℝ a b, dist3 c x ^ 2 < 3 / 10 ^ 6 → c ∈ segment ℝ a b) :
    Joins p D (joinRounded F p) := by
  intro s t e hs ht hsD htD hm
  obtain ⟨r, hr, h⟩ := twoSegmentLoop_rounded F p hs ht segCombs
  have hr' : F.twoSegmentIntoOne p s t = .ok r := hr
  rw [joinRounded_ok F p hs ht] at hr'
  obtain ⟨a, b, c, d, hmem, he, h2, h3⟩ := h e ((Except.ok.inj hr').symm.trans hm)
  have hab : b = 1 - a ∧ d = 1 - c := by
    have : ∀ x ∈ segCombs, x.2.1 = 1 - x.1 ∧ x.2.2.2 = 1 - x.2.2.1 := by decide
    exact this _ hmem
  obtain ⟨rfl, rfl⟩ := hab
  have hR10 : R ≤ 2 ^ 10 := hR2.trans (by norm_num)
  have ap : ∀ v ∈ D, ∀ j, Approx R 75 (F.internalOf p v j) (p.perp v j) := fun v hv => internalOf_approx F hR hR10 (hD v hv).2
  obtain ⟨x, hx, hd⟩ := onSegment_rounded F hF hR hR2 (ap _ (hsD a)) (ap _ (hsD (1 - a))) (ap _ (htD (1 - c))) h3
  exact ⟨a, c, he, h2, hline _ (hD _ (hsD _)).1 _ (hD _ (htD _)).1 _ (hD _ (hsD a)).1 x hx hd⟩

/-! ## Coplanar triangles -/

theorem coplanarNumeric_rounded (F : Float64) {R : ℝ} (hR : 1 ≤ R) (hR2 : R ≤ 32) {pns pns' : List (Fin 3 → ℝ)}
    {C : Set (Fin 3 → ℝ)} (hl : pns'.length = pns.length)
    (hp : ∀ i j, Approx R 75 (pns'.get i j) (pns.get (i.cast hl) j)) (hC : ∀ x ∈ pns, x ∈ C)
    (hf : ∀ a ∈ C, ∀ b ∈ C, ∀ c ∈ C, ∀ d ∈ C,
      |crossProduct (b - a) (c - a) ⬝ᵥ (d - a)| < 1 / 10 ^ 10 + margin R → crossProduct (b - a) (c - a) ⬝ᵥ (d - a) = 0)
    {draws : Draws pns'.length} (h : F.coplanarCheckNumeric pns' draws = some true) : InPlane pns := by
  by_cases hlen : 3 < pns.length
  · have hg : ∀ i, pns.get i ∈ C := fun i => hC _ (List.get_mem _ _)
    have hm : 0 < margin R := by rw [margin_ulp]; have := ulp_pos; positivity
    rcases coplanar_rounded F hR (hR2.trans (by norm_num)) hl hp hlen draws with ⟨h1, -⟩ | ⟨d, -, ⟨c, hcc⟩, ⟨-, hi⟩ | ⟨h1, -⟩⟩
    · rw [h1] at h; cases h
    · refine ⟨((pns.get (d.2.1.cast hl) - pns.get (d.1.cast hl)) ⨯₃ (pns.get (d.2.2.cast hl) - pns.get (d.1.cast hl))), fun h0 => ?_,
        ((pns.get (d.2.1.cast hl) - pns.get (d.1.cast hl)) ⨯₃ (pns.get (d.2.2.cast hl) - pns.get (d.1.cast hl))) ⬝ᵥ
          pns.get (d.1.cast hl), fun x hx => ?_⟩
      · rw [h0, Pi.zero_apply, abs_zero] at hcc
        unfold EPS at hcc
        have : R ^ 2 ≤ 32 ^ 2 := by gcongr
        have : R ^ 2 / 2 ^ 41 ≤ 32 ^ 2 / 2 ^ 41 := by gcongr
        norm_num at this hcc
        linarith
      · have := hf _ (hg (d.1.cast hl)) _ (hg (d.2.1.cast hl)) _ (hg (d.2.2.cast hl)) _ (hC x hx) ((hi x hx).trans (by linarith))
        rw [dotProduct_sub] at this
        linarith
    · rw [h1] at h; cases h
  · exact inPlane_few (by omega)

theorem coplanarNumeric_complete (F : Float64) {R : ℝ} (hR : 1 ≤ R) (hR2 : R ≤ 3) {pns pns' : List (Fin 3 → ℝ)}
    (hl : pns'.length = pns.length)
    (hp : ∀ i j, Approx R 75 (pns'.get i j) (pns.get (i.cast hl) j)) {draws : Draws pns'.length}
    (hd : 3 < pns.length → ∃ d ∈ draws, ∃ k,
      2 / 10 ^ 6 ≤ |((pns.get (d.2.1.cast hl) - pns.get (d.1.cast hl)) ⨯₃ (pns.get (d.2.2.cast hl) - pns.get (d.1.cast hl))) k|)
    (h : InPlane pns) : F.coplanarCheckNumeric pns' draws = some true := by
  by_cases hlen : 3 < pns.length
  · have r2 : R ^ 2 / 2 ^ 41 ≤ 3 ^ 2 / 2 ^ 41 := by gcongr
    have r3 : R ^ 3 / 2 ^ 37 ≤ 3 ^ 3 / 2 ^ 37 := by gcongr
    rcases coplanar_rounded F hR (hR2.trans (by norm_num)) hl hp hlen draws with ⟨-, h1⟩ | ⟨d, -, ⟨k, hk⟩, ⟨h1, -⟩ | ⟨-, x, hx, h1⟩⟩
    · obtain ⟨d, hdm, k, hk⟩ := hd hlen
      have := h1 d hdm k
      unfold EPS at this
      norm_num at r2 this hk
      linarith
    · exact h1
    · exfalso
      obtain ⟨n, hn, e, hpl⟩ := h
      have : ((pns.get (d.2.1.cast hl) - pns.get (d.1.cast hl)) ⨯₃ (pns.get (d.2.2.cast hl) - pns.get (d.1.cast hl))) ⬝ᵥ
          (x - pns.get (d.1.cast hl)) = 0 :=
        plane_unique (T := ![pns.get (d.1.cast hl), pns.get (d.2.1.cast hl), pns.get (d.2.2.cast hl)]) hn
          (fun i => by fin_cases i <;> exact hpl _ (List.get_mem _ _)) (hpl x hx)
      rw [this, abs_zero] at h1
      unfold margin at h1
      norm_num at r3 h1
      linarith
  · unfold Float64.coplanarCheckNumeric
    simp only []
    rw [if_neg (by rw [hl]; omega)]

section
variable (F : Float64) {R : ℝ} (hR : 1 ≤ R) (p : Package) {s t : Simplex 3} (hs : ModerateSimplex p R s)
  (ht : ModerateSimplex p R t)
include hR hs ht

/-- What the test does with the corners of two triangles. -/
theorem twoTriangles_corners (hR2 : R ≤ 2 ^ 10) : ∃ vtx, removeDoublingPerp p (List.ofFn s ++ List.ofFn t) = .ok vtx ∧
    (vtx.map p.perp).Nodup ∧ (∀ x, x ∈ vtx.map p.perp ↔ ∃ i, x = p.perp (s i) ∨ x = p.perp (t i)) ∧
    ∃ hl : (vtx.map (F.internalOf p)).length = (vtx.map p.perp).length,
      ∀ i j, Approx R 75 ((vtx.map (F.internalOf p)).get i j) ((vtx.map p.perp).get (i.cast hl) j) := by
  have hmem' : ∀ v ∈ List.ofFn s ++ List.ofFn t, (∃ i, v = s i ∨ v = t i) ∧ Small p R v := by
    intro v hv
    rcases List.mem_append.mp hv with h | h
    · obtain ⟨i, rfl⟩ := List.mem_ofFn.mp h; exact ⟨⟨i, .inl rfl⟩, (hs i).1⟩
    · obtain ⟨i, rfl⟩ := List.mem_ofFn.mp h; exact ⟨⟨i, .inr rfl⟩, (ht i).1⟩
  obtain ⟨r, hr, hmem, hpw, hall⟩ := C24_one_per_point p (List.ofFn s ++ List.ofFn t) fun v hv k => (hmem' v hv).2.den k
  refine ⟨r, hr, List.pairwise_map.2 hpw, fun x => ⟨fun hx => ?_, ?_⟩, by simp, fun i j => ?_⟩
  · obtain ⟨v, hv, rfl⟩ := List.mem_map.1 hx
    obtain ⟨⟨i, rfl | rfl⟩, -⟩ := hmem' v (hmem v hv)
    · exact ⟨i, .inl rfl⟩
    · exact ⟨i, .inr rfl⟩
  · rintro ⟨i, rfl | rfl⟩
    · obtain ⟨y, ⟨hy, e⟩, -⟩ := hall (s i) (List.mem_append_left _ (List.mem_ofFn.2 ⟨i, rfl⟩))
      exact List.mem_map.2 ⟨y, hy, e⟩
    · obtain ⟨y, ⟨hy, e⟩, -⟩ := hall (t i) (List.mem_append_right _ (List.mem_ofFn.2 ⟨i, rfl⟩))
      exact List.mem_map.2 ⟨y, hy, e⟩
  · simp only [List.get_eq_getElem, List.getElem_map, Fin.val_cast]
    exact internalOf_approx F hR hR2 (hmem' _ (hmem _ (List.getElem_mem _))).2 j

theorem twoTriangles_rounded (hR2 : R ≤ 32) {C : Set (Fin 3 → ℝ)}
    (hf : ∀ a ∈ C, ∀ b ∈ C, ∀ c ∈ C, ∀ d ∈ C,
      |crossProduct (b - a) (c - a) ⬝ᵥ (d - a)| < 1 / 10 ^ 10 + margin R → crossProduct (b - a) (c - a) ⬝ᵥ (d - a) = 0)
    (hsC : ∀ i, p.perp (s i) ∈ C) (htC : ∀ i, p.perp (t i) ∈ C) (draws : (n : Nat) → Draws n) :
    ∃ b, F.coplanarCheckTwoTriangles p draws s t = .ok b ∧ (b = true → OnePlane (p.perps s) (p.perps t)) ∧
      (R ≤ 3 → FindsClearTriple p draws s t → OnePlane (p.perps s) (p.perps t) → b = true) := by
  obtain ⟨vtx, h1, h2, h3, hl, h4⟩ := twoTriangles_corners F hR p hs ht (hR2.trans (by norm_num))
  unfold Float64.coplanarCheckTwoTriangles
  rw [h1, bind_ok']
  refine ⟨_, rfl, fun h => ?_, fun hR3 hd h => ?_⟩
  · obtain ⟨n, hn, d, hd⟩ := coplanarNumeric_rounded F hR hR2 hl h4 (C := C) (by
      intro x hx
      obtain ⟨i, rfl | rfl⟩ := (h3 x).1 hx
      · exact hsC i
      · exact htC i) hf (of_decide_eq_true h)
    exact ⟨n, hn, d, fun k => ⟨hd _ ((h3 _).2 ⟨k, .inl rfl⟩), hd _ ((h3 _).2 ⟨k, .inr rfl⟩)⟩⟩
  · refine decide_eq_true (coplanarNumeric_complete F hR hR3 hl h4 (fun hlen => ?_) ?_)
    · obtain ⟨d, hdm, a, b, c, ha, hb, hc, k, hk⟩ := hd _ h2 h3 hlen
      have hdm' : (d.1.cast hl.symm, d.2.1.cast hl.symm, d.2.2.cast hl.symm) ∈ draws (vtx.map (F.internalOf p)).length := by
        have aux : ∀ {m n : Nat} (e : m = n) (d : Fin n × Fin n × Fin n), d ∈ draws n →
            (d.1.cast e.symm, d.2.1.cast e.symm, d.2.2.cast e.symm) ∈ draws m := by
          rintro m n rfl d hd; exact hd
        exact aux hl d hdm
      refine ⟨_, hdm', k, ?_⟩
      have get : ∀ {i : Fin (vtx.map p.perp).length} {x}, (vtx.map p.perp)[(i : Nat)]? = some x → (vtx.map p.perp).get i = x := by
        intro i x h
        rw [List.getElem?_eq_getElem i.2] at h
        exact Option.some_injective _ h
      have e1 := get ha
      have e2 := get hb
      have e3 := get hc
      simp only [Fin.cast_cast, Fin.cast_eq_self]
      rw [e1, e2, e3]
      exact hk
    · obtain ⟨n, hn, e, h⟩ := h
      exact ⟨n, hn, e, fun x hx => by
        obtain ⟨i, rfl | rfl⟩ := (h3 x).1 hx
        · exact (h i).1
        · exact (h i).2⟩

end

end PyQC
