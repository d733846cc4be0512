import Verif.Spec.GoldenRounded
import Verif.Lemmas.Golden
import Verif.Lemmas.RoundingCommon
/-!
# The test for pairs resolved in spite of rounding is right
-/
namespace PyQC
open Matrix
namespace Gold

variable {n R : ℕ} {S T : Fin 4 → Fin 3 → ℝ} {a b : Fin 4 → G3}

theorem far_iff (hn : 0 < n) (g : Gold) : far n R g = true ↔ margin R < |g.val| / (10 ^ 6 * n ^ 3) := by
  have hn0 : (0 : ℝ) < n := by exact_mod_cast hn
  unfold far margin
  rw [Bool.not_eq_true', ← Bool.not_eq_true, le_iff, val_scale, val_abs, val_int, not_le, lt_div_iff₀ (by positivity)]
  push_cast
  constructor <;> intro h <;> [skip; skip]
  · rw [div_mul_eq_mul_div, div_lt_iff₀ (by positivity)]
    linarith
  · rw [div_mul_eq_mul_div, div_lt_iff₀ (by positivity)] at h
    linarith

theorem insideApart_iff (hn : 0 < n) (h : Grid n T b) (h0 : tetVol T ≠ 0) {x : Fin 3 → ℝ} {y : G3}
    (hx : x = (n : ℝ)⁻¹ • y.val) : insideApart n R b y = true ↔ InsideApart (margin R) T x := by
  have hn0 : (0 : ℝ) < n := by exact_mod_cast hn
  have hn' : (n : ℝ)⁻¹ ≠ 0 := inv_ne_zero hn0.ne'
  have hd := det4_ne_iff.mpr h0
  have hD : 0 < |(det b).val| := by
    rw [abs_pos]
    intro e
    rw [det4_grid h, e, mul_zero] at hd
    exact hd rfl
  have hsum : ∑ k, |det4 (Ico.smallTetrahedron k x T) / det4 T| = (∑ k, |(det (replace b k y)).val|) / |(det b).val| := by
    rw [div_eq_mul_inv _ |(det b).val|, Finset.sum_mul]
    refine Finset.sum_congr rfl fun k _ => ?_
    rw [det4_grid h, det4_grid (grid_replace h hx k), mul_div_mul_left _ _ (pow_ne_zero _ hn'), abs_div, div_eq_mul_inv]
  have hV : tetVol T = |(det b).val| / (6 * n ^ 3) := by
    rw [tetVol_det4, det4_grid h, abs_mul, abs_of_pos (by positivity : (0 : ℝ) < (n : ℝ)⁻¹ ^ 3), inv_pow]
    field_simp
  have key : InsideApart (margin R) T x ↔ margin R < tetVol T *
      |(∑ k, |(det (replace b k y)).val|) / |(det b).val| - 1 - 1 / 10 ^ 6| := by
    constructor
    · rintro ⟨w, hw, hlt⟩
      rw [bary_unique hd hw (exists_bary hd x)] at hlt
      rwa [hsum] at hlt
    · intro hlt
      exact ⟨_, exists_bary hd x, by rwa [hsum]⟩
  have e : tetVol T * |(∑ k, |(det (replace b k y)).val|) / |(det b).val| - 1 - 1 / 10 ^ 6| =
      |(1000000 * (∑ k, |(det (replace b k y)).val|) - 1000001 * |(det b).val|)| / (6 * 10 ^ 6 * n ^ 3) := by
    rw [hV]
    have e1 : (∑ k, |(det (replace b k y)).val|) / |(det b).val| - 1 - 1 / 10 ^ 6 =
        (1000000 * (∑ k, |(det (replace b k y)).val|) - 1000001 * |(det b).val|) / (10 ^ 6 * |(det b).val|) := by
      field_simp
      ring
    rw [e1, abs_div, abs_of_pos (by positivity : 0 < 10 ^ 6 * |(det b).val|)]
    field_simp
  rw [key, e]
  unfold insideApart margin
  simp only
  rw [Bool.not_eq_true', ← Bool.not_eq_true, le_iff, val_scale, val_abs, val_int, not_le, lt_div_iff₀ (by positivity)]
  simp only [val_sub, val_scale, val_add, val_abs]
  rw [Fin.sum_univ_four, div_mul_eq_mul_div, div_lt_iff₀ (by positivity)]
  push_cast
  constructor <;> intro h <;> linarith

theorem segmentApart_iff {A B C D E : Fin 3 → ℝ} {pA pB pC pD pE : G3} (hn : 0 < n) (hA : A = (n : ℝ)⁻¹ • pA.val)
    (hB : B = (n : ℝ)⁻¹ • pB.val) (hC : C = (n : ℝ)⁻¹ • pC.val) (hD : D = (n : ℝ)⁻¹ • pD.val) (hE : E = (n : ℝ)⁻¹ • pE.val) :
    segmentApart n R (cross pA pB pC pD pE) = true ↔ SegmentApart (margin R) A B C D E := by
  have hnp : (0 : ℝ) < n := by exact_mod_cast hn
  have hdet := cross_det hA hB hC hD hE
  have hm := cross_meets hn hA hB hC hD hE _ rfl
  have hp := cross_pos (cross pA pB pC pD pE) rfl
  generalize cross pA pB pC pD pE = c at *
  rw [inv_pow, inv_mul_eq_div] at hdet
  have hspan : le ⟨(n : ℤ) ^ 3, 0⟩ (scale 1000000 c.e) = true ↔
      1 / 10 ^ 6 ≤ |Matrix.det (Matrix.of ![B - A, E - C, D - C])| := by
    rw [le_iff, val_scale, val_int, hdet, le_div_iff₀ (by positivity)]
    push_cast
    constructor <;> intro h <;> linarith
  have h1 : far n R ((scale 1000000 c.e).sub ⟨(n : ℤ) ^ 3, 0⟩) = true ↔
      margin R < |(|Matrix.det (Matrix.of ![B - A, E - C, D - C])| - 1 / 10 ^ 6)| := by
    rw [far_iff hn, hdet, val_sub, val_scale, val_int]
    have : c.e.val / (n : ℝ) ^ 3 - 1 / 10 ^ 6 = (1000000 * c.e.val - n ^ 3) / (10 ^ 6 * n ^ 3) := by
      field_simp
      ring
    rw [this, abs_div, abs_of_pos (by positivity : (0 : ℝ) < 10 ^ 6 * n ^ 3)]
    push_cast
    rfl
  unfold segmentApart
  rw [Bool.and_eq_true, h1, Bool.or_eq_true, Bool.not_eq_true', ← Bool.not_eq_true, hspan]
  by_cases hsp : 1 / 10 ^ 6 ≤ |Matrix.det (Matrix.of ![B - A, E - C, D - C])|
  · have hpos : 0 < c.e.val := by
      refine lt_of_le_of_ne hp fun h0 => ?_
      rw [hdet, ← h0, zero_div] at hsp
      norm_num at hsp
    have e1 : ∀ g : Gold, far n R ((scale 1000000 g).add c.e) = true ↔
        margin R < |Matrix.det (Matrix.of ![B - A, E - C, D - C])| * |g.val / c.e.val + 1 / 10 ^ 6| := by
      intro g
      rw [far_iff hn, hdet, val_add, val_scale]
      have : g.val / c.e.val + 1 / 10 ^ 6 = (1000000 * g.val + c.e.val) / (10 ^ 6 * c.e.val) := by
        field_simp
        ring
      rw [this, abs_div, abs_of_pos (by positivity : (0 : ℝ) < 10 ^ 6 * c.e.val)]
      have e : c.e.val / (n : ℝ) ^ 3 * (|1000000 * g.val + c.e.val| / (10 ^ 6 * c.e.val)) =
          |1000000 * g.val + c.e.val| / (10 ^ 6 * n ^ 3) := by field_simp
      rw [e]
      push_cast
      rfl
    have e2 : ∀ g : Gold, far n R ((scale 1000000 g).sub (scale 1000001 c.e)) = true ↔
        margin R < |Matrix.det (Matrix.of ![B - A, E - C, D - C])| * |g.val / c.e.val - (1 + 1 / 10 ^ 6)| := by
      intro g
      rw [far_iff hn, hdet, val_sub, val_scale, val_scale]
      have : g.val / c.e.val - (1 + 1 / 10 ^ 6) = (1000000 * g.val - 1000001 * c.e.val) / (10 ^ 6 * c.e.val) := by
        field_simp
        ring
      rw [this, abs_div, abs_of_pos (by positivity : (0 : ℝ) < 10 ^ 6 * c.e.val)]
      have e : c.e.val / (n : ℝ) ^ 3 * (|1000000 * g.val - 1000001 * c.e.val| / (10 ^ 6 * c.e.val)) =
          |1000000 * g.val - 1000001 * c.e.val| / (10 ^ 6 * n ^ 3) := by field_simp
      rw [e]
      push_cast
      rfl
    rw [Bool.and_eq_true, Bool.and_eq_true, Bool.and_eq_true, Bool.and_eq_true, Bool.and_eq_true, e1, e1, e1, e2, e2, e2, val_add,
      add_div]
    constructor
    · rintro ⟨h, h' | ⟨⟨⟨⟨⟨a1, a2⟩, a3⟩, a4⟩, a5⟩, a6⟩⟩
      · exact absurd hsp h'
      · refine ⟨h, fun t u v hmt _ => ?_⟩
        obtain ⟨rfl, rfl, rfl⟩ := (hm hpos.ne' t u v).mp hmt
        intro x hx
        simp only [List.mem_cons, List.not_mem_nil, or_false] at hx
        rcases hx with rfl | rfl | rfl | rfl | rfl | rfl <;> assumption
    · rintro ⟨h, h'⟩
      have := h' _ _ _ ((hm hpos.ne' _ _ _).mpr ⟨rfl, rfl, rfl⟩) hsp
      simp only [List.forall_mem_cons, List.not_mem_nil] at this
      obtain ⟨a1, a2, a3, a4, a5, a6, -⟩ := this
      exact ⟨h, Or.inr ⟨⟨⟨⟨⟨a1, a2⟩, a3⟩, a4⟩, a5⟩, a6⟩⟩
  · constructor
    · rintro ⟨h, -⟩
      exact ⟨h, fun _ _ _ _ h' => absurd h' hsp⟩
    · rintro ⟨h, -⟩
      exact ⟨h, Or.inl hsp⟩

theorem apart_iff (hn : 0 < n) (hS : Grid n S a) (hT : Grid n T b) (h0 : tetVol T ≠ 0) :
    apart n R a b = true ↔ Apart (margin R) S T := by
  unfold apart
  rw [Bool.and_eq_true, List.all_eq_true, List.all_eq_true]
  constructor
  · rintro ⟨h1, h2⟩
    refine ⟨fun i => (insideApart_iff hn hT h0 (hS i)).mp (h1 i (by fin_cases i <;> simp)), fun i j k l m hij hkl hlm => ?_⟩
    have := h2 (i, j) ((mem_edges i j).mpr hij)
    rw [List.all_eq_true] at this
    exact (segmentApart_iff hn (hS i) (hS j) (hT k) (hT l) (hT m)).mp (this (k, l, m) ((mem_faces k l m).mpr ⟨hkl, hlm⟩))
  · rintro ⟨h1, h2⟩
    refine ⟨fun i _ => (insideApart_iff hn hT h0 (hS i)).mpr (h1 i), ?_⟩
    rintro ⟨i, j⟩ hij
    rw [List.all_eq_true]
    rintro ⟨k, l, m⟩ hklm
    rw [mem_edges] at hij
    rw [mem_faces] at hklm
    exact (segmentApart_iff hn (hS i) (hS j) (hT k) (hT l) (hT m)).mpr (h2 i j k l m hij hklm.1 hklm.2)

/-- Coplanarity up to 10⁻¹⁰ and a quarter of the margin is coplanarity. -/
def FlatApart (R : ℕ) (x y z w : Fin 3 → ℝ) : Prop :=
  |((y - x) ⨯₃ (z - x)) ⬝ᵥ (w - x)| < 1 / 10 ^ 10 + margin R / 4 → ((y - x) ⨯₃ (z - x)) ⬝ᵥ (w - x) = 0

theorem flatApart_iff (hn : 0 < n) {f g h k : Frac} (hf : 0 < f.q.val) (hg : 0 < g.q.val) (hh : 0 < h.q.val) (hk : 0 < k.q.val) :
    flatApart n R f g h k = true ↔ FlatApart R (f.pt n) (g.pt n) (h.pt n) (k.pt n) := by
  have hn0 : (0 : ℝ) < n := by exact_mod_cast hn
  have e : ((g.pt n - f.pt n) ⨯₃ (h.pt n - f.pt n)) ⬝ᵥ (k.pt n - f.pt n) =
      ((((f.q.mul (g.p.trip h.p k.p)).sub (g.q.mul (f.p.trip h.p k.p))).add (h.q.mul (f.p.trip g.p k.p))).sub
        (k.q.mul (f.p.trip g.p h.p))).val / (n ^ 3 * (f.q.val * g.q.val * h.q.val * k.q.val)) := by
    have f' := hf.ne'
    have g' := hg.ne'
    have h' := hh.ne'
    have k' := hk.ne'
    have n' := hn0.ne'
    simp only [val_add, val_sub, val_mul, G3.val_trip, Frac.pt]
    simp only [cross_apply, vec3_dotProduct, cons_val_zero, cons_val_one, cons_val, Pi.smul_apply, Pi.sub_apply, smul_eq_mul]
    generalize f.p.val = P
    generalize g.p.val = Q
    generalize h.p.val = R
    generalize k.p.val = U
    field_simp
    ring
  unfold FlatApart
  rw [e]
  unfold flatApart
  simp only
  generalize (((f.q.mul (g.p.trip h.p k.p)).sub (g.q.mul (f.p.trip h.p k.p))).add (h.q.mul (f.p.trip g.p k.p))).sub
        (k.q.mul (f.p.trip g.p h.p)) = d
  have hden : (0 : ℝ) < n ^ 3 * (f.q.val * g.q.val * h.q.val * k.q.val) := by positivity
  rw [Bool.or_eq_true, isZero_iff, le_iff, val_scale, val_scale, val_abs, val_mul, val_mul, val_mul, abs_div, abs_of_pos hden,
    div_lt_iff₀ hden, div_eq_zero_iff]
  unfold margin
  push_cast
  generalize hq : f.q.val * g.q.val * h.q.val * k.q.val = q at hden ⊢
  have em : (1 / 10 ^ 10 + (R : ℝ) ^ 3 / 2 ^ 37 / 4) * ((n : ℝ) ^ 3 * q) =
      ((n : ℝ) ^ 3 * (2 ^ 39 + 10 ^ 10 * R ^ 3) * q) / (10 ^ 10 * 2 ^ 39) := by
    field_simp
    ring
  rw [em, lt_div_iff₀ (by positivity)]
  constructor
  · rintro (h1 | h1) h2
    · exact Or.inl h1
    · exfalso
      linarith
  · intro h1
    by_cases h2 : |d.val| * (10 ^ 10 * 2 ^ 39) < (n : ℝ) ^ 3 * (2 ^ 39 + 10 ^ 10 * R ^ 3) * q
    · exact Or.inl ((h1 h2).resolve_right hden.ne')
    · right
      linarith

theorem flatApart_swap {x y z w x' y' z' w' : Fin 3 → ℝ}
    (e : ((y' - x') ⨯₃ (z' - x')) ⬝ᵥ (w' - x') = -(((y - x) ⨯₃ (z - x)) ⬝ᵥ (w - x))) (h : FlatApart R x y z w) :
    FlatApart R x' y' z' w' := by
  unfold FlatApart at *
  rw [e, abs_neg, neg_eq_zero]
  exact h

theorem flatApart_all (hn : 0 < n) (L : List Frac)
    (Q : Frac → Frac → Frac → Frac → Prop) (hQ : Q = fun f g h k => FlatApart R (f.pt n) (g.pt n) (h.pt n) (k.pt n))
    (hpos : ∀ f ∈ L, 0 < f.q.val) : all4 (flatApart n R) L = true ↔
    ∀ f ∈ L, ∀ g ∈ L, ∀ h ∈ L, ∀ k ∈ L, Q f g h k := by
  refine all4_iff ?_ ?_ ?_ ?_ L ?_
  · intro f g h k e
    rw [hQ] at e ⊢
    refine flatApart_swap ?_ e
    simp only [cross_apply, vec3_dotProduct, cons_val_zero, cons_val_one, cons_val, Pi.sub_apply]
    ring
  · intro f g h k e
    rw [hQ] at e ⊢
    refine flatApart_swap ?_ e
    simp only [cross_apply, vec3_dotProduct, cons_val_zero, cons_val_one, cons_val, Pi.sub_apply]
    ring
  · intro f g h k e
    rw [hQ] at e ⊢
    refine flatApart_swap ?_ e
    simp only [cross_apply, vec3_dotProduct, cons_val_zero, cons_val_one, cons_val, Pi.sub_apply]
    ring
  · intro f h k
    rw [hQ]
    intro _
    simp
  · intro x hx y hy z hz w hw
    rw [hQ]
    exact flatApart_iff hn (hpos x hx) (hpos y hy) (hpos z hz) (hpos w hw)

/-- The test decides whether the pair is resolved in spite of rounding. -/
theorem rounded_iff (hn : 0 < n) (hS : Grid n S a) (hT : Grid n T b) : rounded n R a b = true ↔ ResolvedRounded R S T := by
  have e1 : (!(det a).isZero) = true ↔ tetVol S ≠ 0 := by
    rw [ne_eq, ← det_zero hn hS, Bool.not_eq_true', Bool.not_eq_true]
  have e2 : (!(det b).isZero) = true ↔ tetVol T ≠ 0 := by
    rw [ne_eq, ← det_zero hn hT, Bool.not_eq_true', Bool.not_eq_true]
  unfold rounded
  rw [Bool.and_eq_true, Bool.and_eq_true, Bool.and_eq_true, Bool.and_eq_true, Bool.and_eq_true, Bool.and_eq_true, e1, e2]
  obtain ⟨hpos, hc⟩ := mem_candidates hn hS hT
  generalize candidates a b = L at hpos hc ⊢
  obtain ⟨Q, hQ⟩ : ∃ Q : Frac → Frac → Frac → Frac → Prop, Q = fun f g h k => FlatApart R (f.pt n) (g.pt n) (h.pt n) (k.pt n) :=
    ⟨_, rfl⟩
  rw [flatApart_all hn L Q hQ hpos]
  have hm : (0 : ℝ) ≤ margin R := by unfold margin; positivity
  constructor
  · rintro ⟨⟨⟨⟨⟨⟨h1, h2⟩, h3⟩, h3'⟩, h4⟩, h4'⟩, h5⟩
    have hf : ∀ x y z w, Candidate S T x → Candidate S T y → Candidate S T z → Candidate S T w → FlatApart R x y z w := by
      intro x y z w hx hy hz hw
      obtain ⟨f, hf, rfl⟩ := (hc x).mp hx
      obtain ⟨g, hg, rfl⟩ := (hc y).mp hy
      obtain ⟨h, hh, rfl⟩ := (hc z).mp hz
      obtain ⟨k, hk, rfl⟩ := (hc w).mp hw
      have := h5 f hf g hg h hh k hk
      rw [hQ] at this
      exact this
    refine ⟨⟨h1, h2, (clear_iff hn hS hT h2).mp h3, (clear_iff hn hT hS h1).mp h3', ?_⟩, (apart_iff hn hS hT h2).mp h4,
      (apart_iff hn hT hS h1).mp h4', hf⟩
    intro x y z w hx hy hz hw h
    exact hf x y z w hx hy hz hw (h.trans_le (by linarith))
  · rintro ⟨⟨h1, h2, h3, h3', -⟩, h4, h4', h5⟩
    refine ⟨⟨⟨⟨⟨⟨h1, h2⟩, (clear_iff hn hS hT h2).mpr h3⟩, (clear_iff hn hT hS h1).mpr h3'⟩, (apart_iff hn hS hT h2).mpr h4⟩,
      (apart_iff hn hT hS h1).mpr h4'⟩, ?_⟩
    intro f hf g hg h hh k hk
    rw [hQ]
    exact h5 _ _ _ _ ((hc _).mpr ⟨f, hf, rfl⟩) ((hc _).mpr ⟨g, hg, rfl⟩) ((hc _).mpr ⟨h, hh, rfl⟩) ((hc _).mpr ⟨k, hk, rfl⟩)

theorem accepts_iff (hn : 0 < n) (h : Grid n T b) {x : Fin 3 → ℝ} {y : G3} (hx : x = (n : ℝ)⁻¹ • y.val) :
    accepts b y = true ↔ Accepts T x := by
  have hn' : (n : ℝ)⁻¹ ≠ 0 := inv_ne_zero (by exact_mod_cast hn.ne')
  unfold accepts
  simp only
  have e1 : (!(det b).isZero) = true ↔ tetVol T ≠ 0 := by
    rw [ne_eq, ← det_zero hn h, Bool.not_eq_true', Bool.not_eq_true]
  rw [Bool.and_eq_true, e1]
  by_cases h0 : tetVol T = 0
  · exact ⟨fun h => absurd h0 h.1, fun h => absurd h0 h.1⟩
  · have hd := det4_ne_iff.mpr h0
    have hD : 0 < |(det b).val| := by
      rw [abs_pos]
      intro e
      rw [det4_grid h, e, mul_zero] at hd
      exact hd rfl
    have hsum : ∑ k, |det4 (Ico.smallTetrahedron k x T) / det4 T| = (∑ k, |(det (replace b k y)).val|) / |(det b).val| := by
      rw [div_eq_mul_inv _ |(det b).val|, Finset.sum_mul]
      refine Finset.sum_congr rfl fun k _ => ?_
      rw [det4_grid h, det4_grid (grid_replace h hx k), mul_div_mul_left _ _ (pow_ne_zero _ hn'), abs_div,
        div_eq_mul_inv]
    have ha : Accepts T x ↔ ∑ k, |(det (replace b k y)).val| < (1 + 1 / 10 ^ 6) * |(det b).val| := by
      rw [← div_lt_iff₀ hD, ← hsum]
      constructor
      · rintro ⟨-, w, hw, hlt⟩
        rwa [bary_unique hd hw (exists_bary hd x)] at hlt
      · intro hlt
        exact ⟨h0, _, exists_bary hd x, hlt⟩
    rw [ha, Fin.sum_univ_four, Bool.not_eq_true', ← Bool.not_eq_true, le_iff, not_le]
    simp only [val_scale, val_add, val_abs]
    push_cast
    constructor
    · rintro ⟨-, h'⟩
      linarith
    · intro h'
      exact ⟨h0, by linarith⟩

theorem hits_iff {A B C D E : Fin 3 → ℝ} {pA pB pC pD pE : G3} (hn : 0 < n) (hA : A = (n : ℝ)⁻¹ • pA.val)
    (hB : B = (n : ℝ)⁻¹ • pB.val) (hC : C = (n : ℝ)⁻¹ • pC.val) (hD : D = (n : ℝ)⁻¹ • pD.val) (hE : E = (n : ℝ)⁻¹ • pE.val) :
    hits n (cross pA pB pC pD pE) = true ↔ Hits A B C D E := by
  have hnp : (0 : ℝ) < n := by exact_mod_cast hn
  have hdet := cross_det hA hB hC hD hE
  have hm := cross_meets hn hA hB hC hD hE _ rfl
  have hp := cross_pos (cross pA pB pC pD pE) rfl
  generalize cross pA pB pC pD pE = c at *
  have hspan : le ⟨(n : ℤ) ^ 3, 0⟩ (scale 1000000 c.e) = true ↔
      1 / 10 ^ 6 ≤ |Matrix.det (Matrix.of ![B - A, E - C, D - C])| := by
    rw [le_iff, val_scale, val_int, hdet, inv_pow, inv_mul_eq_div, le_div_iff₀ (by positivity)]
    push_cast
    constructor <;> intro h <;> linarith
  unfold hits
  rw [Bool.and_eq_true, hspan]
  have hpos : 1 / 10 ^ 6 ≤ |Matrix.det (Matrix.of ![B - A, E - C, D - C])| → 0 < c.e.val := by
    intro hsp
    refine lt_of_le_of_ne hp fun h0 => ?_
    rw [hdet, ← h0, mul_zero] at hsp
    norm_num at hsp
  constructor
  · rintro ⟨h1, h2⟩
    exact ⟨h1, _, _, _, (hm (hpos h1).ne' _ _ _).mpr ⟨rfl, rfl, rfl⟩, (near_iff c (hpos h1)).mp h2⟩
  · rintro ⟨h1, t, u, v, h2, h3⟩
    obtain ⟨rfl, rfl, rfl⟩ := (hm (hpos h1).ne' t u v).mp h2
    exact ⟨h1, (near_iff c (hpos h1)).mpr h3⟩

end Gold

theorem vec_grid {n : ℕ} {v : Vec 6} (hn : 0 < n) (h : Vec.Ok v) (hd : Vec.den v ∣ n) :
    Package.ico.perp v = (n : ℝ)⁻¹ • (Vec.gold n v).val := by
  have hn' : (n : ℝ) ≠ 0 := by exact_mod_cast hn.ne'
  rw [vec_gold h hd, smul_smul, inv_mul_cancel₀ hn', one_smul]

theorem roundedTest_iff {R : ℕ} {s t : Simplex 4} (hs : Simplex.Ok s) (ht : Simplex.Ok t) :
    roundedTest R s t = true ↔ ResolvedRounded R (Package.ico.perps s) (Package.ico.perps t) := by
  have hn : 0 < Nat.lcm (Simplex.den s) (Simplex.den t) := Nat.lcm_pos (Simplex.den_pos hs) (Simplex.den_pos ht)
  exact Gold.rounded_iff hn (simplex_grid hn hs (Nat.dvd_lcm_left _ _)) (simplex_grid hn ht (Nat.dvd_lcm_right _ _))

theorem insideTest_iff {v : Vec 6} {t : Simplex 4} (hv : Vec.Ok v) (ht : Simplex.Ok t) :
    insideTest v t = true ↔ Accepts (Package.ico.perps t) (Package.ico.perp v) := by
  have hn : 0 < Nat.lcm (Vec.den v) (Simplex.den t) := Nat.lcm_pos (Vec.den_pos hv) (Simplex.den_pos ht)
  exact Gold.accepts_iff hn (simplex_grid hn ht (Nat.dvd_lcm_right _ _)) (vec_grid hn hv (Nat.dvd_lcm_left _ _))

theorem meetsTest_iff {sg : Simplex 2} {tr : Simplex 3} (hs : Simplex.Ok sg) (ht : Simplex.Ok tr) :
    meetsTest sg tr = true ↔ Hits (Package.ico.perp (sg 0)) (Package.ico.perp (sg 1)) (Package.ico.perp (tr 0))
      (Package.ico.perp (tr 1)) (Package.ico.perp (tr 2)) := by
  unfold meetsTest
  generalize hN : Nat.lcm (Vec.den (sg 0)) (Nat.lcm (Vec.den (sg 1)) (Nat.lcm (Vec.den (tr 0)) (Nat.lcm (Vec.den (tr 1)) (Vec.den (tr 2))))) = n
  have hn : 0 < n := by
    rw [← hN]
    exact Nat.lcm_pos (Vec.den_pos (hs 0)) (Nat.lcm_pos (Vec.den_pos (hs 1)) (Nat.lcm_pos (Vec.den_pos (ht 0))
      (Nat.lcm_pos (Vec.den_pos (ht 1)) (Vec.den_pos (ht 2)))))
  have d0 : Vec.den (sg 0) ∣ n := by rw [← hN]; exact Nat.dvd_lcm_left _ _
  have d1 : Vec.den (sg 1) ∣ n := by rw [← hN]; exact (Nat.dvd_lcm_left _ _).trans (Nat.dvd_lcm_right _ _)
  have d2 : Vec.den (tr 0) ∣ n := by
    rw [← hN]; exact ((Nat.dvd_lcm_left _ _).trans (Nat.dvd_lcm_right _ _)).trans (Nat.dvd_lcm_right _ _)
  have d3 : Vec.den (tr 1) ∣ n := by
    rw [← hN]; exact (((Nat.dvd_lcm_left _ _).trans (Nat.dvd_lcm_right _ _)).trans (Nat.dvd_lcm_right _ _)).trans (Nat.dvd_lcm_right _ _)
  have d4 : Vec.den (tr 2) ∣ n := by
    rw [← hN]; exact (((Nat.dvd_lcm_right _ _).trans (Nat.dvd_lcm_right _ _)).trans (Nat.dvd_lcm_right _ _)).trans (Nat.dvd_lcm_right _ _)
  exact Gold.hits_iff hn (vec_grid hn (hs 0) d0) (vec_grid hn (hs 1) d1) (vec_grid hn (ht 0) d2) (vec_grid hn (ht 1) d3)
    (vec_grid hn (ht 2) d4)

theorem smallTest_iff {R : ℕ} {v : Vec 6} (hv : Vec.Ok v) : smallTest R v = true ↔ Small .ico R v := by
  have hn := Vec.den_pos hv
  have hnp : (0 : ℝ) < Vec.den v := by exact_mod_cast hn
  have hg := vec_grid hn hv dvd_rfl
  have hj : ∀ j, |Package.ico.perp v j| ≤ R ↔ |(Vec.gold (Vec.den v) v).val j| ≤ R * Vec.den v := by
    intro j
    rw [hg, Pi.smul_apply, smul_eq_mul, abs_mul, abs_of_pos (inv_pos.mpr hnp), inv_mul_le_iff₀ hnp, mul_comm (R : ℝ)]
  unfold smallTest
  simp only
  rw [Bool.and_eq_true, List.all_eq_true, List.all_eq_true]
  have h2 : (∀ x ∈ [(Vec.gold (Vec.den v) v).x, (Vec.gold (Vec.den v) v).y, (Vec.gold (Vec.den v) v).z],
      x.abs.le ⟨R * (Vec.den v : ℤ), 0⟩ = true) ↔ ∀ j, |Package.ico.perp v j| ≤ R := by
    simp only [hj, List.forall_mem_cons, List.not_mem_nil, Gold.le_iff, Gold.val_abs, Gold.val_int]
    push_cast
    rw [Fin.forall_fin_succ, Fin.forall_fin_succ, Fin.forall_fin_succ]
    simp [G3.val]
  rw [h2]
  constructor
  · rintro ⟨h1, h3⟩
    have h4 : ∀ i, (v i).c ≠ 0 ∧ |(v i).c| ≤ 2 ^ 63 ∧ |(v i).a| + 2 * |(v i).b| ≤ R * |(v i).c| := fun i =>
      of_decide_eq_true (h1 i (List.mem_finRange i))
    exact ⟨fun i => (h4 i).1, fun i => by exact_mod_cast (h4 i).2.1, fun i => by exact_mod_cast (h4 i).2.2, h3⟩
  · rintro ⟨h1, h3, h4, h5⟩
    exact ⟨fun i _ => decide_eq_true ⟨h1 i, by exact_mod_cast h3 i, by exact_mod_cast h4 i⟩, h5⟩

end PyQC
