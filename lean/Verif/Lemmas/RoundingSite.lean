import Verif.Model.FloatSite
import Verif.Lemmas.RoundingPlane
import Verif.Props.Sites
import Mathlib.Analysis.InnerProductSpace.PiL2
/-!
# Rounding errors in the search for site symmetries
-/
namespace PyQC
open Matrix

section
variable {S y s a b : ℝ}

/-- One step of a sum of squares from the left. -/
theorem leftSquares_step (F : Float64) {x : ℝ} (hS : 0 ≤ S) (hS2 : S ≤ 2 ^ 810) (hx : |x| ≤ 2 ^ 400) (ha : 0 ≤ a) (ha2 : a ≤ 13)
    (hb : 0 ≤ b) (hb2 : b ≤ 26) (h : |s - S| ≤ a * ulp * S + b * tiny) :
    |F.fl (s + F.fl (x * x)) - (S + x * x)| ≤ (a + 5 / 2) * ulp * (S + x * x) + (b + 4) * tiny := by
  have up := ulp_pos
  have us : ulp ≤ 1 / 10 ^ 6 := ulp_small.1.trans (by norm_num)
  have tp := tiny_pos
  have ts : tiny ≤ 1 := ulp_small.2.trans (by linarith)
  have y0 : 0 ≤ x * x := mul_self_nonneg x
  have y1 : x * x ≤ 2 ^ 800 := by
    rw [← abs_mul_abs_self x, show 800 = 400 + 400 from rfl, pow_add]
    exact mul_le_mul hx hx (abs_nonneg _) (by positivity)
  generalize x * x = y at *
  have big : ∀ n : ℕ, 990 = n → (2 : ℝ) ^ 810 * 100 ≤ 2 ^ n ∧ (2 : ℝ) ^ 800 * 100 ≤ 2 ^ n ∧ (100 : ℝ) ≤ 2 ^ n := by
    rintro n rfl
    have e : (100 : ℝ) ≤ 2 ^ 100 := by norm_num
    refine ⟨?_, ?_, ?_⟩
    · calc (2 : ℝ) ^ 810 * 100 ≤ 2 ^ 810 * 2 ^ 100 := by gcongr
        _ = 2 ^ 910 := by rw [← pow_add]
        _ ≤ 2 ^ 990 := pow_le_pow_right₀ (by norm_num) (by norm_num)
    · calc (2 : ℝ) ^ 800 * 100 ≤ 2 ^ 800 * 2 ^ 100 := by gcongr
        _ = 2 ^ 900 := by rw [← pow_add]
        _ ≤ 2 ^ 990 := pow_le_pow_right₀ (by norm_num) (by norm_num)
    · exact e.trans (pow_le_pow_right₀ (by norm_num) (by norm_num))
  have c1000 : (2 : ℝ) ^ 1000 = 2 ^ 990 * 1024 := by
    rw [show 1000 = 990 + 10 from rfl, pow_add]; congr 1; norm_num
  obtain ⟨b1, b2, b3⟩ := big 990 rfl
  have fe := F.fl_err
  clear hx big
  generalize (2 : ℝ) ^ 1000 = B0 at *
  generalize (2 : ℝ) ^ 810 = B1 at *
  generalize (2 : ℝ) ^ 800 = B2 at *
  generalize (2 : ℝ) ^ 990 = B3 at *
  have hp := fe y (by rw [abs_of_nonneg y0]; linarith)
  rw [abs_of_nonneg y0] at hp
  generalize F.fl y = p at *
  have aS : a * ulp * S ≤ 13 * (ulp * S) := by
    rw [mul_assoc]; exact mul_le_mul_of_nonneg_right ha2 (by positivity)
  have uS : ulp * S ≤ 1 / 10 ^ 6 * S := mul_le_mul_of_nonneg_right us hS
  have uy : ulp * y ≤ 1 / 10 ^ 6 * y := mul_le_mul_of_nonneg_right us y0
  have bt : b * tiny ≤ 26 * tiny := mul_le_mul_of_nonneg_right hb2 tp.le
  have uSy0 : 0 ≤ ulp * S := by positivity
  have uy0 : 0 ≤ ulp * y := by positivity
  rw [abs_le] at h hp
  have hsp : |s + p| ≤ 11 / 10 * (S + y) + 27 * tiny := by
    rw [abs_le]; constructor <;> linarith [h.1, h.2, hp.1, hp.2]
  have hf := fe (s + p) (hsp.trans (by linarith))
  have hu := mul_le_mul_of_nonneg_left hsp up.le
  have ut : ulp * (27 * tiny) ≤ tiny := by nlinarith
  have e1 : ulp * (11 / 10 * (S + y) + 27 * tiny) ≤ 11 / 10 * (ulp * S) + 11 / 10 * (ulp * y) + tiny := by linarith
  have ay : 0 ≤ a * (ulp * y) := by positivity
  rw [abs_le] at hf
  rw [abs_le]
  constructor <;> nlinarith [hf.1, hf.2, h.1, h.2, hp.1, hp.2]

/-- Plain summation from the left, every product and every sum rounded. -/
noncomputable def Float64.leftSquares (F : Float64) : Squares where
  sum x := F.fl (F.fl (F.fl (F.fl (F.fl (F.fl (0 + F.fl (x 0 * x 0)) + F.fl (x 1 * x 1)) + F.fl (x 2 * x 2)) +
    F.fl (x 3 * x 3)) + F.fl (x 4 * x 4)) + F.fl (x 5 * x 5))
  err x hx := by
    have sq : ∀ i, 0 ≤ x i * x i ∧ x i * x i ≤ 2 ^ 800 := by
      intro i
      refine ⟨mul_self_nonneg _, ?_⟩
      rw [← abs_mul_abs_self (x i), show 800 = 400 + 400 from rfl, pow_add]
      exact mul_le_mul (hx i) (hx i) (abs_nonneg _) (by positivity)
    have c810 : (2 : ℝ) ^ 810 = 2 ^ 800 * 1024 := by
      rw [show 810 = 800 + 10 from rfl, pow_add]; congr 1; norm_num
    have P : (0 : ℝ) < 2 ^ 800 := by positivity
    have st := @leftSquares_step
    generalize (2 : ℝ) ^ 810 = B1 at *
    generalize (2 : ℝ) ^ 800 = B2 at *
    obtain ⟨p0, q0⟩ := sq 0
    obtain ⟨p1, q1⟩ := sq 1
    obtain ⟨p2, q2⟩ := sq 2
    obtain ⟨p3, q3⟩ := sq 3
    obtain ⟨p4, q4⟩ := sq 4
    obtain ⟨p5, q5⟩ := sq 5
    have h0 := st (S := 0) (s := 0) (a := 0) (b := 0) F le_rfl (by linarith) (hx 0) le_rfl (by norm_num) le_rfl
      (by norm_num) (by simp)
    have h1 := st F (by linarith) (by linarith) (hx 1) (by norm_num) (by norm_num) (by norm_num)
      (by norm_num) h0
    have h2 := st F (by linarith) (by linarith) (hx 2) (by norm_num) (by norm_num) (by norm_num)
      (by norm_num) h1
    have h3 := st F (by linarith) (by linarith) (hx 3) (by norm_num) (by norm_num) (by norm_num)
      (by norm_num) h2
    have h4 := st F (by linarith) (by linarith) (hx 4) (by norm_num) (by norm_num) (by norm_num)
      (by norm_num) h3
    have h5 := st F (by linarith) (by linarith) (hx 5) (by norm_num) (by norm_num) (by norm_num)
      (by norm_num) h4
    rw [Fin.sum_univ_six]
    refine (le_of_eq ?_).trans (h5.trans ?_)
    · congr 1; ring
    · have up := ulp_pos
      have tp := tiny_pos
      have : 0 ≤ ulp * (x 0 * x 0 + x 1 * x 1 + x 2 * x 2 + x 3 * x 3 + x 4 * x 4 + x 5 * x 5) := by positivity
      nlinarith
end

/-- The threshold as a stored number. -/
theorem eps_bounds (F : Float64) : 999999 / 10 ^ 12 ≤ F.eps ∧ F.eps ≤ 1000001 / 10 ^ 12 := by
  have h := (eps_approx F).err
  have u : ulp ≤ 1 / 10 ^ 12 := ulp_small.1.trans (by norm_num)
  have up := ulp_pos
  unfold EPS at h
  rw [abs_le] at h
  constructor <;> nlinarith [h.1, h.2]

section
variable (F : Float64) (S : Squares)

/-- The computed length of a vector that is zero is below the threshold. -/
theorem length_zero {v : Vec 6} (h : ∀ k, |F.dodeVector v k| ≤ 1 / 10 ^ 12) : F.lengthNumerical S v < F.eps := by
  have up := ulp_pos
  have us : ulp ≤ 1 / 10 ^ 12 := ulp_small.1.trans (by norm_num)
  have ts : tiny ≤ 1 / 10 ^ 30 := tiny_le.trans (by norm_num)
  have tp := tiny_pos
  unfold Float64.lengthNumerical
  generalize F.dodeVector v = x at *
  have h2 : ∀ k, x k * x k ≤ 1 / 10 ^ 24 := by
    intro k
    rw [← abs_mul_abs_self]
    calc |x k| * |x k| ≤ 1 / 10 ^ 12 * (1 / 10 ^ 12) := mul_le_mul (h k) (h k) (abs_nonneg _) (by norm_num)
      _ = _ := by norm_num
  have e1 : ∑ k, x k * x k ≤ 6 / 10 ^ 24 := by
    rw [Fin.sum_univ_six]
    linarith [h2 0, h2 1, h2 2, h2 3, h2 4, h2 5]
  have e0 : 0 ≤ ∑ k, x k * x k := Finset.sum_nonneg fun k _ => mul_self_nonneg _
  have hs := S.err x fun k => (h k).trans ((by norm_num : (1 : ℝ) / 10 ^ 12 ≤ 1).trans (one_le_pow₀ (by norm_num)))
  generalize ∑ k, x k * x k = d at *
  have hs' : S.sum x ≤ 1 / 10 ^ 22 := by
    rw [abs_le] at hs
    nlinarith [hs.2]
  have hr : Real.sqrt (S.sum x) ≤ 1 / 10 ^ 11 := by
    refine Real.sqrt_le_iff.2 ⟨by norm_num, hs'.trans (by norm_num)⟩
  have r0 := Real.sqrt_nonneg (S.sum x)
  have hf := F.fl_err (Real.sqrt (S.sum x)) (by
    rw [abs_of_nonneg r0]
    exact hr.trans ((by norm_num : (1 : ℝ) / 10 ^ 11 ≤ 1).trans (one_le_pow₀ (by norm_num))))
  rw [abs_of_nonneg r0, abs_le] at hf
  have := (eps_bounds F).1
  nlinarith [hf.2]

/-- The computed length of a vector with a component of at least 1/999990, up to the error of its value, is not below
the threshold. -/
theorem length_apart {v : Vec 6} (hb : ∀ k, |F.dodeVector v k| ≤ 2 ^ 11) {k : Fin 6}
    (h : 1 / 999990 - 1 / 10 ^ 12 ≤ |F.dodeVector v k|) : ¬ F.lengthNumerical S v < F.eps := by
  have up := ulp_pos
  have us : ulp ≤ 1 / 10 ^ 15 := ulp_small.1.trans (by norm_num)
  have ts : tiny ≤ 1 / 10 ^ 30 := tiny_le.trans (by norm_num)
  have tp := tiny_pos
  unfold Float64.lengthNumerical
  generalize F.dodeVector v = x at *
  have hx2 : ∀ k, x k * x k ≤ 2 ^ 22 := by
    intro k
    rw [← abs_mul_abs_self]
    calc |x k| * |x k| ≤ 2 ^ 11 * 2 ^ 11 := mul_le_mul (hb k) (hb k) (abs_nonneg _) (by norm_num)
      _ = _ := by norm_num
  have e1 : ∑ k, x k * x k ≤ 2 ^ 25 := by
    rw [Fin.sum_univ_six]
    have := hx2 0
    have := hx2 1
    have := hx2 2
    have := hx2 3
    have := hx2 4
    have := hx2 5
    norm_num at *
    linarith
  have e2 : x k * x k ≤ ∑ k, x k * x k :=
    Finset.single_le_sum (f := fun k => x k * x k) (fun i _ => mul_self_nonneg _) (Finset.mem_univ k)
  have e3 : (1000008 / 10 ^ 12) * (1000008 / 10 ^ 12) ≤ x k * x k := by
    rw [← abs_mul_abs_self (x k)]
    have : (1000008 : ℝ) / 10 ^ 12 ≤ |x k| := le_trans (by norm_num) h
    exact mul_le_mul this this (by norm_num) (abs_nonneg _)
  have hs := S.err x fun k => (hb k).trans (pow_le_pow_right₀ (by norm_num) (by norm_num))
  generalize ∑ k, x k * x k = d at *
  have hs1 : (1000007 / 10 ^ 12) * (1000007 / 10 ^ 12) ≤ S.sum x := by
    rw [abs_le] at hs
    nlinarith [hs.1]
  have hs2 : S.sum x ≤ 2 ^ 13 * 2 ^ 13 := by
    rw [abs_le] at hs
    nlinarith [hs.2]
  have hr1 : 1000007 / 10 ^ 12 ≤ Real.sqrt (S.sum x) := Real.le_sqrt_of_sq_le (by rw [sq]; exact hs1)
  have hr2 : Real.sqrt (S.sum x) ≤ 2 ^ 13 := Real.sqrt_le_iff.2 ⟨by norm_num, by rw [sq]; exact hs2⟩
  have r0 := Real.sqrt_nonneg (S.sum x)
  have hf := F.fl_err (Real.sqrt (S.sum x)) (by
    rw [abs_of_nonneg r0]
    exact hr2.trans (pow_le_pow_right₀ (by norm_num) (by norm_num)))
  rw [abs_of_nonneg r0, abs_le] at hf
  have := (eps_bounds F).2
  rw [not_lt]
  nlinarith [hf.1]

/-- A canonical number with a rational value. -/
theorem canon_rational_site {t : Num3} (ht : t.Canon) {z : Int} {D : Nat} (hD : 0 < D) (h : t.val sin60 = z / D) :
    t.b = 0 ∧ 0 < t.c ∧ t.c ≤ D := by
  have hDi : (0 : Int) < D := by exact_mod_cast hD
  have hDr : (D : ℝ) ≠ 0 := by exact_mod_cast hD.ne'
  have ht' := (canon_iff t).1 ht
  have hc : (t.c : ℝ) ≠ 0 := by exact_mod_cast ht'.1.ne'
  have e : ((t.a * D - z * t.c : Int) : ℝ) + ((t.b * D : Int) : ℝ) * sin60 = 0 := by
    unfold Num3.val at h
    rw [div_eq_div_iff hc hDr] at h
    push_cast
    linarith
  obtain ⟨e1, e2⟩ := irr_zero_int sin60 e
  have hb : t.b = 0 := by
    rcases mul_eq_zero.1 e2 with h | h
    · exact h
    · omega
  refine ⟨hb, ht'.1, ?_⟩
  have hg := ht.2
  rw [hb, Int.natAbs_zero, Nat.gcd_zero_right] at hg
  have hcop : IsCoprime t.c t.a := (Int.isCoprime_iff_gcd_eq_one.2 hg).symm
  exact Int.le_of_dvd hDi (hcop.dvd_of_dvd_mul_left ⟨z, by linarith⟩)

/-- The test of a rational vector with rounding is the test without. -/
theorem length_same {v : Vec 6} (hv : Vec.Canon v) {z : Fin 6 → Int} {D : Nat} (hD : 0 < D) (hD' : D ≤ 999990)
    (hz : ∀ k, (v k).val sin60 = z k / D) (hb : ∀ k, |((z k : ℝ)) / D| ≤ 1024) :
    F.lengthNumerical S v < F.eps ↔ Dode.lengthNumerical v < EPS := by
  have hDr : (0 : ℝ) < D := by exact_mod_cast hD
  have hDr' : (D : ℝ) ≤ 999990 := by exact_mod_cast hD'
  have happ : ∀ k, Approx 1024 (812 / 100) (F.dodeVector v k) (z k / D) := by
    intro k
    obtain ⟨b0, c0, c1⟩ := canon_rational_site (hv k) hD (hz k)
    have c0r : (0 : ℝ) < (v k).c := by exact_mod_cast c0
    have c1r : ((v k).c : ℝ) ≤ D := by exact_mod_cast c1
    have hb' := hb k
    rw [← hz k]
    refine dodeValue_approx' F (by norm_num) (by norm_num) c0.ne' ?_ ?_
    · rw [abs_of_pos c0r]; linarith
    · rw [← hz k] at hb'
      unfold Num3.val at hb'
      rw [b0, Int.cast_zero, zero_mul, add_zero, abs_div, div_le_iff₀ (abs_pos.2 c0r.ne')] at hb'
      rw [b0, Int.cast_zero, abs_zero, mul_zero, add_zero]
      exact hb'
  have herr : ∀ k, |F.dodeVector v k - z k / D| ≤ 1 / 10 ^ 12 := by
    intro k
    refine (happ k).err.trans ?_
    unfold ulp; norm_num
  have e : Dode.lengthNumerical v = dist6 (Vec.val sin60 v) 0 := by
    rw [lengthNumerical_eq]; simp [dist6]
  rw [e, dist6_lt_eps (z := z) hD (by omega) fun k => by rw [Pi.zero_apply, sub_zero]; exact hz k]
  constructor
  · intro h
    by_contra hne
    rw [not_forall] at hne
    obtain ⟨k, hk⟩ := hne
    refine length_apart F S (k := k) (fun k => (happ k).abs'.trans (by norm_num)) ?_ h
    have h1 : (1 : ℝ) ≤ |(z k : ℝ)| := by exact_mod_cast Int.one_le_abs hk
    have h2 : (1 : ℝ) / 999990 ≤ |(z k : ℝ) / D| := by
      rw [abs_div, abs_of_pos hDr, div_le_div_iff₀ (by norm_num) hDr]
      nlinarith
    have h3 := abs_sub_abs_le_abs_sub ((z k : ℝ) / D) (F.dodeVector v k)
    rw [abs_sub_comm] at h3
    linarith [herr k]
  · intro h
    refine length_zero F S fun k => ?_
    have := herr k
    rwa [h k, Int.cast_zero, zero_div, sub_zero] at this

/-- If all tests agree, so do the searches. -/
theorem bringsBack_same {site site1 : Vec 6} (h : Vec.Ok site) (h1 : Vec.Ok site1) {l : List (Vec 6)}
    (hl : ∀ t ∈ l, Vec.Ok t)
    (ht : ∀ t ∈ l, ∀ v : Vec 6, Vec.Canon v →
      (∀ k, (v k).val sin60 = Package.dode.val site k - (Package.dode.val site1 k + Package.dode.val t k)) →
      (F.lengthNumerical S v < F.eps ↔ Dode.lengthNumerical v < EPS)) :
    F.bringsBack S site site1 l = Dode.bringsBack site site1 l := by
  induction l with
  | nil => rfl
  | cons t ts ih =>
    rw [Dode.bringsBack, Float64.bringsBack, show Dode.arith = Package.dode.arith from rfl,
      addVectors_ok Package.dode.lawful h1 (hl t (by simp)), bind_ok', bind_ok',
      subVectors_ok Package.dode.lawful h (nvec_ok _), bind_ok', bind_ok',
      ih (fun t ht => hl t (by simp [ht])) (fun t h => ht t (by simp [h]))]
    have e := ht t (by simp) (nvec (kvec Package.dode.theta site -
        kvec Package.dode.theta (nvec (kvec Package.dode.theta site1 + kvec Package.dode.theta t)))) (nvec_canon _) (by
      intro k
      rw [kvec_nvec]
      have := congrFun (val_nvec (kvec Package.dode.theta site - (kvec Package.dode.theta site1 + kvec Package.dode.theta t))) k
      exact this)
    simp only [e]

theorem siteLoop_same {site : Vec 6} (h : Vec.Ok site) {tra : List (Vec 6)} (hl : ∀ t ∈ tra, Vec.Ok t)
    (ops : List (IMat 6 6)) (k : Nat)
    (ht : ∀ op ∈ ops, ∀ t ∈ tra, ∀ v : Vec 6, Vec.Canon v →
      (∀ k, (v k).val sin60 = Package.dode.val site k - (applyMat op (Package.dode.val site) k + Package.dode.val t k)) →
      (F.lengthNumerical S v < F.eps ↔ Dode.lengthNumerical v < EPS)) :
    F.siteLoop S site tra k ops = Dode.siteLoop site tra k ops := by
  induction ops generalizing k with
  | nil => rfl
  | cons op ops ih =>
    rw [Float64.siteLoop, Dode.siteLoop, symopVec_ok op h (by decide), bind_ok', bind_ok',
      bringsBack_same F S h (symV_ok _ _ _) hl (by rw [val_symV_zero]; exact ht op (by simp)),
      ih (k + 1) fun op' h => ht op' (by simp [h])]

/-- `site_symmetry` with rounding is `site_symmetry` without, for rational sites of moderate size. -/
theorem siteSymmetry_same {site : Vec 6} (h : Vec.Ok site) (ndim : Int) {n : Fin 6 → Int} {D : Nat} (hD : 0 < D)
    (hD' : D ≤ 999990) (hn : ∀ k, Package.dode.val site k = n k / D)
    (hb : ∀ k : Fin 6, k.val < 4 → |Package.dode.val site k| ≤ 340) :
    F.siteSymmetry S site ndim = Dode.siteSymmetry site ndim := by
  have hDr : (0 : ℝ) < D := by exact_mod_cast hD
  have hok : ∀ t ∈ Dode.translation ndim, Vec.Ok t := by
    intro t ht
    obtain ⟨u, -, rfl⟩ := mem_translation.mp ht
    intro i; simp
  unfold Float64.siteSymmetry Dode.siteSymmetry
  rw [siteLoop_same F S h hok]
  intro op hop t htm v hv hval
  obtain ⟨i, hi⟩ := List.mem_iff_getElem?.mp hop
  have hi24 := get_lt hi
  rw [← opAt_of_get hi] at hval
  obtain ⟨u, hu, rfl⟩ := mem_translation.mp htm
  obtain ⟨r1, r2⟩ := rows_opAt hi24 n
  have e : ∀ k, applyMat (opAt i) (Package.dode.val site) k = ((∑ j, opAt i k j * n j : Int) : ℝ) / D := by
    intro k
    simp only [applyMat, hn]
    push_cast
    rw [Finset.sum_div]
    exact Finset.sum_congr rfl fun j _ => by ring
  have ev : ∀ k, (v k).val sin60 = ((n k - ((∑ j, opAt i k j * n j) + D * u k) : Int) : ℝ) / D := by
    intro k
    rw [hval, e, hn]
    have : Package.dode.val (fun i => (⟨u i, 0, 1⟩ : Num3)) k = u k := by simp [Package.val, Vec.val, Num3.val]
    rw [this]
    push_cast
    field_simp
  refine length_same F S hv hD hD' ev fun k => ?_
  have hu1 : |u k| ≤ 1 := by rcases hu.1 k with h | h | h <;> rw [h] <;> decide
  rw [abs_div, abs_of_pos hDr, div_le_iff₀ hDr]
  have hDi : (0 : Int) < D := by exact_mod_cast hD
  have hDu : |(D : Int) * u k| ≤ D := by
    rw [abs_mul, abs_of_pos hDi]; nlinarith
  have hN : ∀ k : Fin 6, k.val < 4 → |n k| ≤ 340 * D := by
    intro k hk
    have := hb k hk
    rw [hn, abs_div, abs_of_pos hDr, div_le_iff₀ hDr] at this
    exact_mod_cast this
  have goal : |n k - ((∑ j, opAt i k j * n j) + D * u k)| ≤ 1024 * D := by
    rw [abs_le] at hDu
    by_cases hk : k.val < 4
    · obtain ⟨j, l, hj, hl, hs⟩ := r1 k hk
      have a1 := abs_le.1 (hN k hk)
      have a2 := abs_le.1 (hN j hj)
      have a3 := abs_le.1 (hN l hl)
      rw [abs_le]
      rcases hs with hs | hs | hs <;> rw [hs] <;> constructor <;> omega
    · rw [r2 k (by omega), abs_le]
      constructor <;> omega
  exact_mod_cast goal

/-! ## Sites with irrational coordinates -/

theorem norm6_triangle {x y : Fin 6 → ℝ} {m : ℝ} (hm : 0 ≤ m) (h : ∀ k, |x k - y k| ≤ m) :
    |Real.sqrt (∑ k, x k * x k) - Real.sqrt (∑ k, y k ^ 2)| ≤ 5 / 2 * m := by
  have e : ∀ z : Fin 6 → ℝ, Real.sqrt (∑ k, z k ^ 2) = ‖WithLp.toLp 2 z‖ := by
    intro z
    rw [EuclideanSpace.norm_eq]
    simp
  have e1 : ∑ k, x k * x k = ∑ k, x k ^ 2 := Finset.sum_congr rfl fun k _ => (sq _).symm
  rw [e1, e, e]
  refine (abs_norm_sub_norm_le _ _).trans ?_
  rw [← WithLp.toLp_sub, ← e]
  refine Real.sqrt_le_iff.2 ⟨by positivity, ?_⟩
  have h2 : ∀ k, (x - y) k ^ 2 ≤ m ^ 2 := by
    intro k
    rw [← sq_abs]
    exact pow_le_pow_left₀ (abs_nonneg _) (h k) 2
  rw [Fin.sum_univ_six]
  nlinarith [h2 0, h2 1, h2 2, h2 3, h2 4, h2 5, sq_nonneg m]

/-- The computed length against the true one. -/
theorem length_close {v : Vec 6} (h : ∀ k, |F.dodeVector v k - (v k).val sin60| ≤ 1 / 10 ^ 12)
    (hb : ∀ k, |F.dodeVector v k| ≤ 2 ^ 11) :
    (Dode.lengthNumerical v < EPS - 1 / 10 ^ 11 → F.lengthNumerical S v < F.eps) ∧
    (F.lengthNumerical S v < F.eps → Dode.lengthNumerical v < EPS + 1 / 10 ^ 11) := by
  have up := ulp_pos
  have us : ulp ≤ 1 / 10 ^ 15 := ulp_small.1.trans (by norm_num)
  have ts : tiny ≤ 1 / 10 ^ 50 := tiny_le.trans (by norm_num)
  have tp := tiny_pos
  have ht := norm6_triangle (by norm_num) h
  rw [lengthNumerical_eq]
  change |_ - Real.sqrt (∑ k, Vec.val sin60 v k ^ 2)| ≤ _ at ht
  unfold Float64.lengthNumerical
  generalize Real.sqrt (∑ k, Vec.val sin60 v k ^ 2) = L at *
  generalize F.dodeVector v = x at *
  have e0 : 0 ≤ ∑ k, x k * x k := Finset.sum_nonneg fun k _ => mul_self_nonneg _
  have hx2 : ∀ k, x k * x k ≤ 2 ^ 22 := by
    intro k
    rw [← abs_mul_abs_self]
    calc |x k| * |x k| ≤ 2 ^ 11 * 2 ^ 11 := mul_le_mul (hb k) (hb k) (abs_nonneg _) (by norm_num)
      _ = _ := by norm_num
  have e1 : ∑ k, x k * x k ≤ 2 ^ 25 := by
    rw [Fin.sum_univ_six]
    have := hx2 0
    have := hx2 1
    have := hx2 2
    have := hx2 3
    have := hx2 4
    have := hx2 5
    norm_num at *
    linarith
  have hs := S.err x fun k => (hb k).trans (pow_le_pow_right₀ (by norm_num) (by norm_num))
  generalize ∑ k, x k * x k = d at *
  generalize S.sum x = d' at *
  have q0 := Real.sqrt_nonneg d
  have qq : Real.sqrt d * Real.sqrt d = d := Real.mul_self_sqrt e0
  generalize Real.sqrt d = q at *
  have hf := F.fl_err (Real.sqrt d') (by
    have : Real.sqrt d' ≤ 2 ^ 13 := Real.sqrt_le_iff.2 ⟨by norm_num, by
      rw [abs_le] at hs
      nlinarith [hs.2]⟩
    rw [abs_of_nonneg (Real.sqrt_nonneg _)]
    exact this.trans (pow_le_pow_right₀ (by norm_num) (by norm_num)))
  rw [abs_of_nonneg (Real.sqrt_nonneg _)] at hf
  generalize F.fl (Real.sqrt d') = f at *
  rw [abs_le] at hs ht hf
  have hE : |F.eps - 1 / 10 ^ 6| ≤ 1 / 10 ^ 20 := by
    refine (eps_approx F).err.trans ?_
    unfold EPS ulp; norm_num
  rw [abs_le] at hE
  unfold EPS
  constructor
  · intro hL
    have hq : q ≤ 1 / 10 ^ 6 - 7 / 10 ^ 12 := by linarith [ht.2]
    have hq2 : q * q ≤ (1 / 10 ^ 6 - 7 / 10 ^ 12) * (1 / 10 ^ 6 - 7 / 10 ^ 12) := mul_le_mul hq hq q0 (by norm_num)
    have hd : d' ≤ (1 / 10 ^ 6 - 6 / 10 ^ 12) ^ 2 := by
      rw [qq] at hq2
      nlinarith [hs.2]
    have hr : Real.sqrt d' ≤ 1 / 10 ^ 6 - 6 / 10 ^ 12 := Real.sqrt_le_iff.2 ⟨by norm_num, hd⟩
    nlinarith [hf.2, hE.1]
  · intro hl
    by_contra hL
    rw [not_lt] at hL
    have hq : 1 / 10 ^ 6 + 7 / 10 ^ 12 ≤ q := by linarith [ht.1]
    have hq2 : (1 / 10 ^ 6 + 7 / 10 ^ 12) * (1 / 10 ^ 6 + 7 / 10 ^ 12) ≤ q * q := mul_le_mul hq hq (by norm_num) q0
    have hd : (1 / 10 ^ 6 + 6 / 10 ^ 12) ^ 2 ≤ d' := by
      rw [qq] at hq2
      nlinarith [hs.1]
    have hr : 1 / 10 ^ 6 + 6 / 10 ^ 12 ≤ Real.sqrt d' := Real.le_sqrt_of_sq_le hd
    nlinarith [hf.1, hE.2]

/-- A canonical number of known value. -/
theorem canon_size {t : Num3} (ht : t.Canon) {z w D : Int} (hD : 0 < D) (h : t.val sin60 = (z + w * sin60) / D)
    {R : Int} (hR : |z| + 2 * |w| ≤ R * D) : 0 < t.c ∧ t.c ≤ D ∧ |t.a| + 2 * |t.b| ≤ R * t.c := by
  have hDr : (D : ℝ) ≠ 0 := by exact_mod_cast hD.ne'
  have ht' := (canon_iff t).1 ht
  have hc : (t.c : ℝ) ≠ 0 := by exact_mod_cast ht'.1.ne'
  have e : ((t.a * D - z * t.c : Int) : ℝ) + ((t.b * D - w * t.c : Int) : ℝ) * sin60 = 0 := by
    unfold Num3.val at h
    rw [div_eq_div_iff hc hDr] at h
    push_cast
    linarith
  obtain ⟨e1, e2⟩ := irr_zero_int sin60 e
  have hdvd : t.c ∣ D := by
    have h1 := gcd3_comm_scale D hD.le _ _ _ ht'.2
    have ea : D * t.a = t.c * z := by linarith
    have eb : D * t.b = t.c * w := by linarith
    rw [ea, eb, mul_comm D t.c, gcd3_scale ht'.1.le] at h1
    exact ⟨_, h1.symm⟩
  refine ⟨ht'.1, Int.le_of_dvd hD hdvd, ?_⟩
  have h1 : D * (|t.a| + 2 * |t.b|) = t.c * (|z| + 2 * |w|) := by
    have ea : D * |t.a| = t.c * |z| := by
      have : |D * t.a| = |t.c * z| := by congr 1; linarith
      rwa [abs_mul, abs_mul, abs_of_pos hD, abs_of_pos ht'.1] at this
    have eb : D * |t.b| = t.c * |w| := by
      have : |D * t.b| = |t.c * w| := by congr 1; linarith
      rwa [abs_mul, abs_mul, abs_of_pos hD, abs_of_pos ht'.1] at this
    linarith
  have h2 := mul_le_mul_of_nonneg_left hR ht'.1.le
  refine le_of_mul_le_mul_left ?_ hD
  rw [h1]
  linarith

/-- The test of `site_symmetry` for one image and one translation with rounding. -/
def RoundedHit (site site1 top : Vec 6) : Prop :=
  F.lengthNumerical S (nvec (kvec Package.dode.theta site -
    kvec Package.dode.theta (nvec (kvec Package.dode.theta site1 + kvec Package.dode.theta top)))) < F.eps

open Classical in
theorem bringsBack_rounded {site site1 : Vec 6} (h : Vec.Ok site) (h1 : Vec.Ok site1) {l : List (Vec 6)}
    (hl : ∀ t ∈ l, Vec.Ok t) :
    F.bringsBack S site site1 l = .ok (decide (∃ t ∈ l, RoundedHit F S site site1 t)) := by
  induction l with
  | nil => simp [Float64.bringsBack]
  | cons t ts ih =>
    rw [Float64.bringsBack, show Dode.arith = Package.dode.arith from rfl,
      addVectors_ok Package.dode.lawful h1 (hl t (by simp)), bind_ok',
      subVectors_ok Package.dode.lawful h (nvec_ok _), bind_ok', ih (fun t ht => hl t (by simp [ht]))]
    by_cases hh : RoundedHit F S site site1 t
    · rw [if_pos (show _ < F.eps from hh)]
      congr 1
      symm
      rw [decide_eq_true_iff]
      exact ⟨t, by simp, hh⟩
    · rw [if_neg (show ¬ _ < F.eps from hh)]
      congr 2
      apply propext
      simp [hh]

theorem siteLoop_rounded {site : Vec 6} (h : Vec.Ok site) {tra : List (Vec 6)} (ht : ∀ t ∈ tra, Vec.Ok t)
    (ops : List (IMat 6 6)) (k : Nat) :
    ∃ l, F.siteLoop S site tra k ops = .ok l ∧ l.Pairwise (· < ·) ∧
      ∀ i, i ∈ l ↔ ∃ j op, ops[j]? = some op ∧ i = k + j ∧
        ∃ t ∈ tra, RoundedHit F S site (symV .dode op Dode.V0 site) t := by
  induction ops generalizing k with
  | nil => exact ⟨[], rfl, by simp, by simp⟩
  | cons op ops ih =>
    obtain ⟨l, h1, h2, h3⟩ := ih (k + 1)
    rw [Float64.siteLoop, symopVec_ok op h (by decide), bind_ok', bringsBack_rounded F S h (symV_ok _ _ _) ht,
      bind_ok', h1, bind_ok']
    have hk : ∀ i ∈ l, k < i := by
      intro i hi
      obtain ⟨j, op', -, rfl, -⟩ := (h3 i).mp hi
      omega
    by_cases hh : ∃ t ∈ tra, RoundedHit F S site (symV .dode op Dode.V0 site) t
    · refine ⟨k :: l, by simp only [hh, decide_true, if_true], List.pairwise_cons.mpr ⟨hk, h2⟩, ?_⟩
      intro i
      rw [List.mem_cons, h3]
      constructor
      · rintro (rfl | ⟨j, op', a, rfl, c⟩)
        · exact ⟨0, op, by simp, rfl, hh⟩
        · exact ⟨j + 1, op', by simpa using a, by omega, c⟩
      · rintro ⟨j, op', a, b, c⟩
        cases j with
        | zero => left; omega
        | succ j => right; exact ⟨j, op', by simpa using a, by omega, c⟩
    · refine ⟨l, by simp only [hh, decide_false]; rfl, h2, ?_⟩
      intro i
      rw [h3]
      constructor
      · rintro ⟨j, op', a, rfl, c⟩
        exact ⟨j + 1, op', by simpa using a, by omega, c⟩
      · rintro ⟨j, op', a, b, c⟩
        cases j with
        | zero =>
          simp only [List.getElem?_cons_zero, Option.some.injEq] at a
          subst a
          exact absurd c hh
        | succ j => exact ⟨j, op', by simpa using a, by omega, c⟩

/-- The test with rounding against the true distance. -/
theorem roundedHit_close {site : Vec 6} {p q : Fin 6 → Int} {D : Nat} (hD : 0 < D) (hD' : D ≤ 2 ^ 62)
    (hn : ∀ k, Package.dode.val site k = (p k + q k * sin60) / D)
    (hb : ∀ k : Fin 6, k.val < 4 → |p k| + 2 * |q k| ≤ 200 * D) {i : Nat} (hi : i < 24) {ndim : Int} {u : Fin 6 → Int}
    (hu : Listed ndim u) :
    (dist6 (Package.dode.val site) (fun k => applyMat (opAt i) (Package.dode.val site) k + u k) < EPS - 1 / 10 ^ 11 →
      RoundedHit F S site (symV .dode (opAt i) Dode.V0 site) fun i => ⟨u i, 0, 1⟩) ∧
    (RoundedHit F S site (symV .dode (opAt i) Dode.V0 site) (fun i => ⟨u i, 0, 1⟩) →
      dist6 (Package.dode.val site) (fun k => applyMat (opAt i) (Package.dode.val site) k + u k) < EPS + 1 / 10 ^ 11) := by
  have hDr : (0 : ℝ) < D := by exact_mod_cast hD
  have hDi : (0 : Int) < D := by exact_mod_cast hD
  unfold RoundedHit
  rw [kvec_nvec]
  have hc := nvec_canon (kvec Package.dode.theta site - (kvec Package.dode.theta (symV .dode (opAt i) Dode.V0 site) +
    kvec Package.dode.theta (fun i => (⟨u i, 0, 1⟩ : Num3))))
  have hv : ∀ k, (nvec (kvec Package.dode.theta site - (kvec Package.dode.theta (symV .dode (opAt i) Dode.V0 site) +
    kvec Package.dode.theta (fun i => (⟨u i, 0, 1⟩ : Num3)))) k).val sin60 =
      Package.dode.val site k - (applyMat (opAt i) (Package.dode.val site) k + u k) := by
    intro k
    have h1 := congrFun (val_nvec (kvec Package.dode.theta site -
      (kvec Package.dode.theta (symV .dode (opAt i) Dode.V0 site) +
      kvec Package.dode.theta (fun i => (⟨u i, 0, 1⟩ : Num3))))) k
    have h2 : Package.dode.val (fun i => (⟨u i, 0, 1⟩ : Num3)) k = u k := by simp [Package.val, Vec.val, Num3.val]
    rw [← val_symV_zero, ← h2]
    exact h1
  generalize nvec (kvec Package.dode.theta site - (kvec Package.dode.theta (symV .dode (opAt i) Dode.V0 site) +
    kvec Package.dode.theta (fun i => (⟨u i, 0, 1⟩ : Num3)))) = v at *
  have hlen : dist6 (Package.dode.val site) (fun k => applyMat (opAt i) (Package.dode.val site) k + u k) =
      Dode.lengthNumerical v := by
    rw [lengthNumerical_eq]
    unfold dist6
    congr 1
    exact Finset.sum_congr rfl fun k _ => by rw [← hv k]; rfl
  rw [hlen]
  have happ : ∀ k, Approx 1024 (812 / 100) (F.dodeVector v k) ((v k).val sin60) := by
    intro k
    obtain ⟨r1, r2⟩ := rows_opAt hi p
    obtain ⟨s1, s2⟩ := rows_opAt hi q
    have e : (v k).val sin60 = (((p k - ((∑ j, opAt i k j * p j) + D * u k) : Int) : ℝ) +
        ((q k - ∑ j, opAt i k j * q j : Int) : ℝ) * sin60) / ((D : Int) : ℝ) := by
      rw [hv, hn]
      have : applyMat (opAt i) (Package.dode.val site) k =
          ((∑ j, (opAt i k j : ℝ) * p j) + (∑ j, (opAt i k j : ℝ) * q j) * sin60) / D := by
        simp only [applyMat, hn]
        rw [Finset.sum_mul, ← Finset.sum_add_distrib, Finset.sum_div]
        exact Finset.sum_congr rfl fun j _ => by ring
      rw [this]
      push_cast
      field_simp
      ring
    have hu1 : |u k| ≤ 1 := by rcases hu.1 k with h | h | h <;> rw [h] <;> decide
    have hDu : |(D : Int) * u k| ≤ D := by
      rw [abs_mul, abs_of_pos hDi]; nlinarith
    have hsz : |p k - ((∑ j, opAt i k j * p j) + D * u k)| + 2 * |q k - ∑ j, opAt i k j * q j| ≤ 1024 * (D : Int) := by
      have d1 := abs_le.1 hDu
      by_cases hk : k.val < 4
      · obtain ⟨j, l, hj, hl, hs⟩ := r1 k hk
        obtain ⟨j', l', hj', hl', hs'⟩ := s1 k hk
        have b0 := hb k hk
        have b1 := hb j hj
        have b2 := hb l hl
        have b3 := hb j' hj'
        have b4 := hb l' hl'
        have h1 : |p k - ((∑ j, opAt i k j * p j) + D * u k)| ≤ |p k| + |p j| + |p l| + D := by
          have a1 := le_abs_self (p k)
          have a2 := neg_abs_le (p k)
          have a3 := le_abs_self (p j)
          have a4 := neg_abs_le (p j)
          have a5 := le_abs_self (p l)
          have a6 := neg_abs_le (p l)
          rw [abs_le]
          rcases hs with hs | hs | hs <;> rw [hs] <;> constructor <;> linarith [d1.1, d1.2]
        have h2 : |q k - ∑ j, opAt i k j * q j| ≤ |q k| + |q j'| + |q l'| := by
          have a1 := le_abs_self (q k)
          have a2 := neg_abs_le (q k)
          have a3 := le_abs_self (q j')
          have a4 := neg_abs_le (q j')
          have a5 := le_abs_self (q l')
          have a6 := neg_abs_le (q l')
          rw [abs_le]
          rcases hs' with hs | hs | hs <;> rw [hs] <;> constructor <;> linarith
        linarith [abs_nonneg (p j'), abs_nonneg (p l'), abs_nonneg (q j), abs_nonneg (q l)]
      · rw [r2 k (by omega), s2 k (by omega), sub_self, abs_zero, mul_zero, add_zero,
          show p k - (p k + D * u k) = -(D * u k) by ring, abs_neg]
        linarith
    obtain ⟨c0, c1, c2⟩ := canon_size (hc k) hDi e hsz
    have c0r : (0 : ℝ) < (v k).c := by exact_mod_cast c0
    refine dodeValue_approx' F (by norm_num) (by norm_num) c0.ne' ?_ ?_
    · rw [abs_of_pos c0r]
      have : (v k).c ≤ 2 ^ 63 := by
        have : (D : Int) ≤ 2 ^ 62 := by exact_mod_cast hD'
        linarith
      exact_mod_cast this
    · rw [abs_of_pos c0r]
      exact_mod_cast c2
  refine length_close F S (fun k => (happ k).err.trans ?_) fun k => (happ k).abs'.trans (by norm_num)
  unfold ulp; norm_num

end
end PyQC
