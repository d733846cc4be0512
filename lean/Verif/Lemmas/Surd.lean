import Verif.Spec.Surd
import Verif.Lemmas.Golden
import Verif.Lemmas.RoundingGrid2
/-!
# The tests for triangles with exact coordinates are right
-/
namespace PyQC
open Matrix

namespace Surd

theorem val_add (g h : Surd) : (g.add h).val = g.val + h.val := by simp only [val, add]; push_cast; ring
theorem val_sub (g h : Surd) : (g.sub h).val = g.val - h.val := by simp only [val, sub]; push_cast; ring
theorem val_neg (g : Surd) : g.neg.val = -g.val := by simp only [val, neg]; push_cast; ring
theorem val_mul (g h : Surd) : (g.mul h).val = g.val * h.val := by
  have h3 : Real.sqrt 3 ^ 2 = 3 := Real.sq_sqrt (by norm_num)
  simp only [val, mul]
  push_cast
  linear_combination -(g.b * h.b : ℝ) * h3
theorem val_scale (k : ℤ) (g : Surd) : (scale k g).val = k * g.val := by simp only [val, scale]; push_cast; ring
theorem val_int (k : ℤ) : (⟨k, 0⟩ : Surd).val = k := by simp [val]

theorem isZero_iff (g : Surd) : g.isZero = true ↔ g.val = 0 := by
  simp only [isZero, Bool.and_eq_true, decide_eq_true_eq]
  constructor
  · rintro ⟨h1, h2⟩
    simp [val, h1, h2]
  · intro h
    have e : (g.a : ℝ) + ((2 * g.b : ℤ) : ℝ) * sin60 = 0 := by
      rw [← h, val, sin60]
      push_cast
      ring
    obtain ⟨h1, h2⟩ := irr_zero_int sin60 e
    exact ⟨h1, by omega⟩

theorem nonneg_iff (g : Surd) : g.nonneg = true ↔ 0 ≤ g.val := by
  have h5 : Real.sqrt 3 ^ 2 = 3 := Real.sq_sqrt (by norm_num)
  have p5 : 0 < Real.sqrt 3 := Real.sqrt_pos.mpr (by norm_num)
  unfold nonneg val
  generalize g.a = p
  generalize g.b = q
  split_ifs with hq
  · have hq' : (0 : ℝ) ≤ q := by exact_mod_cast hq
    simp only [Bool.or_eq_true, decide_eq_true_eq]
    constructor
    · rintro (h | h)
      · have : (0 : ℝ) ≤ p := by exact_mod_cast h
        positivity
      · have h' : (p * p : ℝ) ≤ 3 * (q * q) := by exact_mod_cast h
        have : (-(p : ℝ)) ≤ q * Real.sqrt 3 := by
          refine le_of_sq_le_sq ?_ (by positivity)
          nlinarith
        linarith
    · intro h
      by_cases hp : 0 ≤ p
      · exact Or.inl hp
      · right
        have hp' : (p : ℝ) < 0 := by exact_mod_cast not_le.mp hp
        have h1 : (-(p : ℝ)) ^ 2 ≤ (q * Real.sqrt 3) ^ 2 := pow_le_pow_left₀ (by linarith) (by linarith) 2
        have : (p * p : ℝ) ≤ 3 * (q * q) := by nlinarith
        exact_mod_cast this
  · have hq' : (q : ℝ) < 0 := by exact_mod_cast not_le.mp hq
    simp only [Bool.and_eq_true, decide_eq_true_eq]
    constructor
    · rintro ⟨h1, h2⟩
      have h1' : (0 : ℝ) ≤ p := by exact_mod_cast h1
      have h2' : (3 * (q * q) : ℝ) ≤ p * p := by exact_mod_cast h2
      have : (-(q : ℝ)) * Real.sqrt 3 ≤ p := by
        refine le_of_sq_le_sq ?_ h1'
        nlinarith
      linarith
    · intro h
      have hp : (0 : ℝ) < p := by nlinarith
      have h1 : (-(q : ℝ) * Real.sqrt 3) ^ 2 ≤ (p : ℝ) ^ 2 := pow_le_pow_left₀ (by nlinarith) (by linarith) 2
      have h2 : (3 * (q * q) : ℝ) ≤ p * p := by nlinarith
      exact ⟨by exact_mod_cast hp.le, by exact_mod_cast h2⟩

theorem le_iff (g h : Surd) : g.le h = true ↔ g.val ≤ h.val := by
  rw [le, nonneg_iff, val_sub, sub_nonneg]

theorem notLe_iff (g h : Surd) : (!g.le h) = true ↔ h.val < g.val := by
  rw [Bool.not_eq_true', ← Bool.not_eq_true, le_iff, not_le]

theorem notNonneg_iff (g : Surd) : (!g.nonneg) = true ↔ g.val < 0 := by
  rw [Bool.not_eq_true', ← Bool.not_eq_true, nonneg_iff, not_le]

theorem notZero_iff (g : Surd) : (!g.isZero) = true ↔ g.val ≠ 0 := by
  rw [Bool.not_eq_true', ← Bool.not_eq_true, isZero_iff]

theorem val_signed (s g : Surd) : (s.signed g).val = if 0 ≤ s.val then g.val else -g.val := by
  unfold signed
  by_cases h : s.nonneg = true
  · rw [if_pos h, if_pos ((nonneg_iff s).mp h)]
  · rw [if_neg h, if_neg (fun h' => h ((nonneg_iff s).mpr h')), val_neg]

theorem val_abs (g : Surd) : g.abs.val = |g.val| := by
  rw [abs, val_signed]
  split_ifs with h
  · rw [abs_of_nonneg h]
  · rw [abs_of_neg (not_le.mp h)]

/-- A quotient, with numerator and denominator multiplied by the sign of the denominator. -/
theorem quot_signed (s g : Surd) : g.val / s.val = (s.signed g).val / |s.val| := by
  rw [val_signed]
  split_ifs with h
  · rw [abs_of_nonneg h]
  · rw [abs_of_neg (not_le.mp h), neg_div_neg_eq]

theorem signed_nonneg {s g : Surd} (h : s.val ≠ 0) : 0 ≤ (s.signed g).val ↔ 0 ≤ g.val / s.val := by
  rw [quot_signed, le_div_iff₀ (abs_pos.2 h), zero_mul]

/-- The corners of `S` are `a i / n`, at height `z`. -/
def PGrid (n : ℕ) (z : ℝ) (S : Fin 3 → Fin 3 → ℝ) (a : Fin 3 → P2) : Prop :=
  ∀ i, S i = ![(a i).x.val / n, (a i).y.val / n, z]

/-- The point `x` is `p / n`, at height `z`. -/
def PAt (n : ℕ) (z : ℝ) (x : Fin 3 → ℝ) (p : P2) : Prop := x = ![p.x.val / n, p.y.val / n, z]

theorem val_tri (p q r : P2) : (p.tri q r).val =
    (q.x.val - p.x.val) * (r.y.val - p.y.val) - (q.y.val - p.y.val) * (r.x.val - p.x.val) := by
  simp only [P2.tri, P2.cross, P2.sub, val_sub, val_mul]

theorem val_cross (p q : P2) : (p.cross q).val = p.x.val * q.y.val - p.y.val * q.x.val := by
  simp only [P2.cross, val_sub, val_mul]

variable {n R : ℕ} {z : ℝ} {S T : Fin 3 → Fin 3 → ℝ} {a b : Fin 3 → P2}

theorem PGrid.flat (h : PGrid n z S a) : Flat z S := fun i => congrFun (h i) 2

theorem crossZ_grid (hn : 0 < n) (h : PGrid n z S a) : crossZ S = (area a).val / n ^ 2 := by
  have hn' : (n : ℝ) ≠ 0 := by exact_mod_cast hn.ne'
  unfold crossZ area
  rw [h 0, h 1, h 2, val_tri]
  simp only [cons_val_zero, cons_val_one]
  field_simp

theorem area_ne (hn : 0 < n) (h : PGrid n z S a) : triArea S ≠ 0 ↔ (area a).val ≠ 0 := by
  have hn' : (n : ℝ) ≠ 0 := by exact_mod_cast hn.ne'
  rw [triArea_flat_ne h.flat, crossZ_grid hn h, ne_eq, div_eq_zero_iff, not_or]
  exact ⟨fun h => h.1, fun h => ⟨h, pow_ne_zero _ hn'⟩⟩

/-- The barycentric coordinates of a point. -/
noncomputable def weights (b : Fin 3 → P2) (x : P2) : Fin 3 → ℝ :=
  ![(parts b x).1.val / (area b).val, (parts b x).2.1.val / (area b).val, (parts b x).2.2.val / (area b).val]

theorem weights_bary (hn : 0 < n) (h : PGrid n z T b) (h0 : (area b).val ≠ 0) {x : Fin 3 → ℝ} {p : P2} (hx : PAt n z x p) :
    IsBary T (weights b p) x := by
  have hn' : (n : ℝ) ≠ 0 := by exact_mod_cast hn.ne'
  have hs : weights b p 0 + weights b p 1 + weights b p 2 = 1 := by
    simp only [weights, cons_val_zero, cons_val_one, cons_val]
    rw [← add_div, ← add_div, div_eq_one_iff_eq h0]
    simp only [parts, area, val_tri]
    ring
  rw [isBary_three]
  refine ⟨hs, fun j => ?_⟩
  have key : ∀ c : P2 → Surd, (c = P2.x ∨ c = P2.y) →
      (c p).val / n = weights b p 0 * ((c (b 0)).val / n) + weights b p 1 * ((c (b 1)).val / n) + weights b p 2 * ((c (b 2)).val / n) := by
    intro c hc
    have e : (c p).val * (area b).val = (parts b p).1.val * (c (b 0)).val + (parts b p).2.1.val * (c (b 1)).val +
        (parts b p).2.2.val * (c (b 2)).val := by
      simp only [parts, area, val_tri]
      rcases hc with rfl | rfl <;> ring
    simp only [weights, cons_val_zero, cons_val_one, cons_val]
    field_simp
    linarith
  have hw : z = weights b p 0 * z + weights b p 1 * z + weights b p 2 * z := by rw [← add_mul, ← add_mul, hs, one_mul]
  rw [hx, h 0, h 1, h 2]
  fin_cases j
  · exact key P2.x (Or.inl rfl)
  · exact key P2.y (Or.inr rfl)
  · exact hw

theorem inTri_iff (hn : 0 < n) (h : PGrid n z T b) (h0 : (area b).val ≠ 0) {x : Fin 3 → ℝ} {p : P2} (hx : PAt n z x p) :
    inTri b p = true ↔ x ∈ solid T := by
  have hw := weights_bary hn h h0 hx
  have e : inTri b p = true ↔ ∀ k, 0 ≤ weights b p k := by
    unfold inTri
    simp only [Bool.and_eq_true, nonneg_iff, signed_nonneg h0]
    rw [Fin.forall_fin_succ, Fin.forall_fin_succ, Fin.forall_fin_succ]
    simp only [IsEmpty.forall_iff, and_true]
    exact and_assoc
  rw [e, mem_solid_iff]
  constructor
  · exact fun h => ⟨_, hw, h⟩
  · rintro ⟨w, hw', h'⟩ k
    rw [flat_bary_unique h.flat ((area_ne hn h).2 h0) hw hw']
    exact h' k

theorem sum_weights (b : Fin 3 → P2) (x : P2) : ∑ k, |weights b x k| = (total b x).val / |(area b).val| := by
  rw [Fin.sum_univ_three]
  simp only [weights, total, val_add, val_abs, cons_val_zero, cons_val_one, cons_val, abs_div]
  ring

theorem accepts_tri_iff (hn : 0 < n) (h : PGrid n z T b) (h0 : (area b).val ≠ 0) {x : Fin 3 → ℝ} {p : P2} (hx : PAt n z x p) :
    AcceptsTri T x ↔ 1000000 * (total b p).val < 1000001 * |(area b).val| := by
  have hD : 0 < |(area b).val| := abs_pos.2 h0
  have hw := weights_bary hn h h0 hx
  have e : AcceptsTri T x ↔ ∑ k, |weights b p k| < 1 + 1 / 10 ^ 6 := by
    constructor
    · rintro ⟨h1, w, hw', hlt⟩
      rwa [flat_bary_unique h.flat h1 hw hw']
    · exact fun hlt => ⟨(area_ne hn h).2 h0, _, hw, hlt⟩
  rw [e, sum_weights, div_lt_iff₀ hD]
  constructor <;> intro h <;> linarith

theorem cornerOkTri_iff (hn : 0 < n) (h : PGrid n z T b) (h0 : (area b).val ≠ 0) {x : Fin 3 → ℝ} {p : P2} (hx : PAt n z x p) :
    cornerOkTri b p = true ↔ (AcceptsTri T x → x ∈ solid T) := by
  rw [cornerOkTri, Bool.or_eq_true, inTri_iff hn h h0 hx, accepts_tri_iff hn h h0 hx, le_iff, val_scale, val_scale, val_abs,
    ← not_lt]
  push_cast
  tauto

theorem insideApartTri_iff (hn : 0 < n) (h : PGrid n z T b) (h0 : (area b).val ≠ 0) {x : Fin 3 → ℝ} {p : P2} (hx : PAt n z x p) :
    insideApartTri n R b p = true ↔ InsideApartTri (margin2 R) T x := by
  have hn0 : (0 : ℝ) < n := by exact_mod_cast hn
  have hD : 0 < |(area b).val| := abs_pos.2 h0
  have hw := weights_bary hn h h0 hx
  have hV : triArea T = |(area b).val| / (2 * n ^ 2) := by
    rw [triArea_flat h.flat, triAreaXY_crossZ, crossZ_grid hn h, abs_div, abs_of_pos (by positivity : (0 : ℝ) < (n : ℝ) ^ 2)]
    field_simp
  have key : InsideApartTri (margin2 R) T x ↔ margin2 R < triArea T * |∑ k, |weights b p k| - 1 - 1 / 10 ^ 6| := by
    constructor
    · rintro ⟨w, hw', hlt⟩
      rwa [flat_bary_unique h.flat ((area_ne hn h).2 h0) hw hw']
    · exact fun hlt => ⟨_, hw, hlt⟩
  have e : triArea T * |∑ k, |weights b p k| - 1 - 1 / 10 ^ 6| =
      |(1000000 * (total b p).val - 1000001 * |(area b).val|)| / (2 * 10 ^ 6 * n ^ 2) := by
    rw [hV, sum_weights]
    have e1 : (total b p).val / |(area b).val| - 1 - 1 / 10 ^ 6 =
        (1000000 * (total b p).val - 1000001 * |(area b).val|) / (10 ^ 6 * |(area b).val|) := by
      field_simp
      ring
    rw [e1, abs_div, abs_of_pos (by positivity : 0 < 10 ^ 6 * |(area b).val|)]
    field_simp
  rw [key, e]
  unfold insideApartTri margin2
  rw [notLe_iff, val_scale, val_abs, val_int, lt_div_iff₀ (by positivity)]
  simp only [val_sub, val_scale, val_abs]
  rw [div_mul_eq_mul_div, div_lt_iff₀ (by positivity)]
  push_cast
  constructor <;> intro h <;> linarith

section
variable {A B C D : Fin 3 → ℝ} {pA pB pC pD : P2} (hn : 0 < n) (hA : PAt n z A pA) (hB : PAt n z B pB) (hC : PAt n z C pC)
  (hD : PAt n z D pD)
include hn hA hB hC hD

theorem lines_cross : crossProduct (B - A) (D - C) = ![0, 0, (lines pA pB pC pD).e.val / n ^ 2] := by
  have hn' : (n : ℝ) ≠ 0 := by exact_mod_cast hn.ne'
  rw [hA, hB, hC, hD]
  simp only [lines, val_cross, P2.sub, val_sub]
  funext m
  fin_cases m
  · simp [cross_apply]
  · simp [cross_apply]
  · simp [cross_apply]
    field_simp

theorem lines_ne : crossProduct (B - A) (D - C) ≠ 0 ↔ (lines pA pB pC pD).e.val ≠ 0 := by
  have hn' : (n : ℝ) ≠ 0 := by exact_mod_cast hn.ne'
  rw [lines_cross hn hA hB hC hD, not_iff_not]
  constructor
  · intro h
    have := congrFun h 2
    simp at this
    exact this.resolve_right hn.ne'
  · intro h
    rw [h, zero_div]
    funext m
    fin_cases m <;> rfl

theorem lines_area : parallelogram (B - A) (D - C) = |(lines pA pB pC pD).e.val| / n ^ 2 := by
  have hn0 : (0 : ℝ) < n := by exact_mod_cast hn
  unfold parallelogram
  rw [lines_cross hn hA hB hC hD]
  have : ∀ c : ℝ, (![0, 0, c] : Fin 3 → ℝ) ⬝ᵥ ![0, 0, c] = c ^ 2 := by
    intro c; simp; ring
  rw [this, Real.sqrt_sq_eq_abs, abs_div, abs_of_pos (by positivity : (0 : ℝ) < (n : ℝ) ^ 2)]

theorem lines_meet (h0 : (lines pA pB pC pD).e.val ≠ 0) (s t : ℝ) : A + s • (B - A) = C + t • (D - C) ↔
    s = (lines pA pB pC pD).s.val / (lines pA pB pC pD).e.val ∧ t = (lines pA pB pC pD).t.val / (lines pA pB pC pD).e.val := by
  have hn' : (n : ℝ) ≠ 0 := by exact_mod_cast hn.ne'
  have e : A + s • (B - A) = C + t • (D - C) ↔
      pA.x.val + s * (pB.x.val - pA.x.val) = pC.x.val + t * (pD.x.val - pC.x.val) ∧
      pA.y.val + s * (pB.y.val - pA.y.val) = pC.y.val + t * (pD.y.val - pC.y.val) := by
    rw [funext_iff, Fin.forall_fin_succ, Fin.forall_fin_succ, Fin.forall_fin_succ, hA, hB, hC, hD]
    simp
    have : ∀ α β γ δ : ℝ, α / n + s * (β / n - α / n) = γ / n + t * (δ / n - γ / n) ↔ α + s * (β - α) = γ + t * (δ - γ) := by
      intro α β γ δ
      field_simp
    rw [this, this]
  rw [e, eq_div_iff h0, eq_div_iff h0]
  rw [show (lines pA pB pC pD).e.val ≠ 0 ↔ _ from Iff.rfl] at h0
  simp only [lines, val_cross, P2.sub, val_sub] at h0 ⊢
  constructor
  · rintro ⟨h1, h2⟩
    constructor
    · linear_combination (pD.y.val - pC.y.val) * h1 - (pD.x.val - pC.x.val) * h2
    · linear_combination (pB.y.val - pA.y.val) * h1 - (pB.x.val - pA.x.val) * h2
  · rintro ⟨h1, h2⟩
    constructor
    · refine mul_right_cancel₀ h0 ?_
      linear_combination (pB.x.val - pA.x.val) * h1 - (pD.x.val - pC.x.val) * h2
    · refine mul_right_cancel₀ h0 ?_
      linear_combination (pB.y.val - pA.y.val) * h1 - (pD.y.val - pC.y.val) * h2

theorem posOk_iff (h0 : (lines pA pB pC pD).e.val ≠ 0) (x : Surd) : posOk n R (lines pA pB pC pD).e x = true ↔
    (x.val / (lines pA pB pC pD).e.val = 0 ∨
      (R : ℝ) ^ 6 / 2 ^ 30 < parallelogram (B - A) (D - C) ^ 3 * |x.val / (lines pA pB pC pD).e.val|) := by
  have hn0 : (0 : ℝ) < n := by exact_mod_cast hn
  rw [lines_area hn hA hB hC hD]
  generalize (lines pA pB pC pD).e = e at *
  unfold posOk
  have hp : 0 < |e.val| := abs_pos.2 h0
  have e1 : (|e.val| / (n : ℝ) ^ 2) ^ 3 * |x.val / e.val| = e.val ^ 2 * |x.val| / n ^ 6 := by
    rw [abs_div, ← sq_abs e.val]
    field_simp
  rw [Bool.or_eq_true, isZero_iff, notLe_iff, val_scale, val_int, val_mul, val_mul, val_abs, e1, div_eq_zero_iff, or_iff_left h0,
    div_lt_iff₀ (by positivity), div_mul_eq_mul_div, lt_div_iff₀ (by positivity)]
  push_cast
  refine or_congr Iff.rfl ?_
  constructor <;> intro h <;> nlinarith

theorem crossOk2_iff : crossOk2 n R (lines pA pB pC pD) = true ↔ CrossApart R A B C D := by
  have hn0 : (0 : ℝ) < n := by exact_mod_cast hn
  have hne := lines_ne hn hA hB hC hD
  unfold crossOk2
  rw [Bool.or_eq_true, isZero_iff]
  by_cases h0 : (lines pA pB pC pD).e.val = 0
  · refine ⟨fun _ => ⟨fun h => absurd h0 (hne.1 h), fun h => absurd h0 (hne.1 h)⟩, fun _ => Or.inl h0⟩
  rw [or_iff_right h0]
  have hm := lines_meet hn hA hB hC hD h0
  have hpos := posOk_iff (R := R) hn hA hB hC hD h0
  simp only [Bool.and_eq_true, hpos, val_sub, sub_div, div_self h0]
  have hspan : le ⟨(n : ℤ) ^ 4 * (2 ^ 20 + 10 ^ 6 * (R : ℤ) ^ 5), 0⟩ (scale (10 ^ 6 * 2 ^ 20)
      ((lines pA pB pC pD).e.mul (lines pA pB pC pD).e)) = true ↔
      1 / 10 ^ 6 + (R : ℝ) ^ 5 / 2 ^ 20 ≤ parallelogram (B - A) (D - C) ^ 2 := by
    rw [le_iff, val_int, val_scale, val_mul, lines_area hn hA hB hC hD, div_pow, sq_abs, ← pow_mul, le_div_iff₀ (by positivity)]
    push_cast
    constructor <;> intro h <;> nlinarith
  rw [hspan]
  constructor
  · rintro ⟨⟨⟨⟨h1, h2⟩, h3⟩, h4⟩, h5⟩
    refine ⟨fun _ => h1, fun _ s t hst x hx => ?_⟩
    obtain ⟨rfl, rfl⟩ := (hm s t).1 hst
    simp only [List.mem_cons, List.not_mem_nil, or_false] at hx
    rcases hx with rfl | rfl | rfl | rfl <;> assumption
  · rintro ⟨h1, h2⟩
    have h2 := h2 (hne.2 h0) _ _ ((hm _ _).2 ⟨rfl, rfl⟩)
    exact ⟨⟨⟨⟨h1 (hne.2 h0), h2 _ (by simp)⟩, h2 _ (by simp)⟩, h2 _ (by simp)⟩, h2 _ (by simp)⟩

theorem proper_iff (h : (lines pA pB pC pD).proper = true) : crossProduct (B - A) (D - C) ≠ 0 ∧
    ∃ a b : ℝ, 0 < a ∧ a < 1 ∧ 0 < b ∧ b < 1 ∧ A + a • (B - A) = C + b • (D - C) := by
  simp only [Cross2.proper, Bool.and_eq_true, notZero_iff, notNonneg_iff, val_neg, val_sub, val_abs] at h
  obtain ⟨⟨⟨⟨h0, h1⟩, h2⟩, h3⟩, h4⟩ := h
  have hp : 0 < |(lines pA pB pC pD).e.val| := abs_pos.2 h0
  refine ⟨(lines_ne hn hA hB hC hD).2 h0, _, _, ?_, ?_, ?_, ?_, (lines_meet hn hA hB hC hD h0 _ _).2 ⟨rfl, rfl⟩⟩
  · rw [quot_signed]; exact div_pos (by linarith) hp
  · rw [quot_signed, div_lt_one hp]; linarith
  · rw [quot_signed]; exact div_pos (by linarith) hp
  · rw [quot_signed, div_lt_one hp]; linarith

end

theorem all3_iff {P : Fin 3 → Bool} : [(0 : Fin 3), 1, 2].all P = true ↔ ∀ i, P i = true := by
  simp only [List.all_cons, List.all_nil, Bool.and_true, Bool.and_eq_true]
  constructor
  · rintro ⟨h0, h1, h2⟩ i
    fin_cases i <;> assumption
  · exact fun h => ⟨h 0, h 1, h 2⟩

theorem mem_edges3 {c : Fin 3 × Fin 3} : c ∈ edges3 ↔ c.1 < c.2 := by
  revert c; decide

theorem roundedTri_iff (hn : 0 < n) (hS : PGrid n z S a) (hT : PGrid n z T b) :
    roundedTri n R a b = true ↔ ResolvedTriRounded R S T := by
  have aS := area_ne hn hS
  have aT := area_ne hn hT
  unfold roundedTri
  rw [Bool.and_eq_true, Bool.and_eq_true, Bool.and_eq_true, notZero_iff, notZero_iff, all3_iff, List.all_eq_true]
  simp only [Bool.and_eq_true, List.all_eq_true, mem_edges3]
  constructor
  · rintro ⟨⟨⟨h1, h2⟩, h3⟩, h4⟩
    refine ⟨aS.2 h1, aT.2 h2, fun i => (cornerOkTri_iff hn hT h2 (hS i)).1 (h3 i).1.1.1,
      fun i => (cornerOkTri_iff hn hS h1 (hT i)).1 (h3 i).1.1.2, fun i => (insideApartTri_iff hn hT h2 (hS i)).1 (h3 i).1.2,
      fun i => (insideApartTri_iff hn hS h1 (hT i)).1 (h3 i).2, fun i j k l hij hkl => ?_⟩
    exact (crossOk2_iff hn (hS i) (hS j) (hT k) (hT l)).1 (h4 (i, j) hij (k, l) hkl)
  · intro h
    have h1 := aS.1 h.areaS
    have h2 := aT.1 h.areaT
    refine ⟨⟨⟨h1, h2⟩, fun i => ⟨⟨⟨(cornerOkTri_iff hn hT h2 (hS i)).2 (h.cornerS i), (cornerOkTri_iff hn hS h1 (hT i)).2 (h.cornerT i)⟩,
      (insideApartTri_iff hn hT h2 (hS i)).2 (h.insideS i)⟩, (insideApartTri_iff hn hS h1 (hT i)).2 (h.insideT i)⟩⟩, ?_⟩
    rintro ⟨i, j⟩ hij ⟨k, l⟩ hkl
    exact (crossOk2_iff hn (hS i) (hS j) (hT k) (hT l)).2 (h.cross i j k l hij hkl)

theorem containedTri_iff (hn : 0 < n) (hS : PGrid n z S a) (hT : PGrid n z T b) (h0 : (area b).val ≠ 0) :
    containedTri a b = true ↔ solid S ⊆ solid T := by
  unfold containedTri
  rw [all3_iff]
  constructor
  · intro h
    refine convexHull_min ?_ (solid_convex _)
    rintro x ⟨i, rfl⟩
    exact (inTri_iff hn hT h0 (hS i)).1 (h i)
  · intro h i
    exact (inTri_iff hn hT h0 (hS i)).2 (h (subset_convexHull ℝ _ ⟨i, rfl⟩))

theorem properTri_spec (hn : 0 < n) (hS : PGrid n z S a) (hT : PGrid n z T b) (h : properTri a b = true) : ProperCrossing S T := by
  unfold properTri at h
  rw [List.any_eq_true] at h
  obtain ⟨⟨i, j⟩, hij, h⟩ := h
  rw [List.any_eq_true] at h
  obtain ⟨⟨k, l⟩, hkl, h⟩ := h
  obtain ⟨h1, h2⟩ := proper_iff hn (hS i) (hS j) (hT k) (hT l) h
  exact ⟨i, j, k, l, mem_edges3.1 hij, mem_edges3.1 hkl, h1, h2⟩

end Surd
end PyQC
