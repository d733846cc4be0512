import Verif.Spec.Chamber
import Verif.Lemmas.Symmetry
import Verif.Lemmas.Groups
import Mathlib.Topology.Algebra.Group.Basic
/-!
# The point groups act simply transitively on the fundamental cones
-/
namespace PyQC
open Matrix

theorem tau_near : 1.618 < tau ∧ tau < 1.619 := by
  have h := tau_sq
  have h0 : 0 ≤ tau := by unfold tau; positivity
  constructor
  · nlinarith
  · nlinarith

theorem sin60_near : 0.866 < sin60 ∧ sin60 < 0.867 := by
  have h := sin60_sq
  have h0 : 0 ≤ sin60 := by unfold sin60; positivity
  constructor
  · nlinarith
  · nlinarith

/-! ## The action on perp space -/

/-- A right inverse of the projection to perp space. -/
noncomputable def Package.lift : Package → Matrix (Fin 6) (Fin 3) ℝ
  | .ico => (1 / (2 * tau + 4)) • (Package.ico.perpMat)ᵀ
  | .dode => !![0, 0, 0; 1, 0, 0; 0, 1, 0; 0, 0, 0; 0, 0, 0; 0, 0, 1]

theorem perp_lift (p : Package) : p.perpMat * p.lift = 1 := by
  cases p
  · have h := tau_sq
    have h0 : 2 * tau + 4 ≠ 0 := by have := tau_near; linarith
    simp only [Package.lift, Matrix.mul_smul]
    have e : Package.ico.perpMat * (Package.ico.perpMat)ᵀ = (2 * tau + 4) • (1 : Matrix (Fin 3) (Fin 3) ℝ) := by
      simp only [Package.perpMat]
      generalize tau = t at *
      ext i j
      fin_cases i <;> fin_cases j <;> simp [Matrix.mul_apply, Fin.sum_univ_succ] <;> linarith
    rw [e, smul_smul, one_div, inv_mul_cancel₀ h0, one_smul]
  · simp only [Package.lift, Package.perpMat]
    ext i j
    fin_cases i <;> fin_cases j <;> simp [Matrix.mul_apply, Fin.sum_univ_succ]

/-- The matrix by which an operation acts on perp space. -/
noncomputable def Package.rot (p : Package) (op : IMat 6 6) : Matrix (Fin 3) (Fin 3) ℝ :=
  p.perpMat * realMat op * p.lift

theorem rot_unique {p : Package} {op : IMat 6 6} {R : Matrix (Fin 3) (Fin 3) ℝ}
    (h : p.perpMat * realMat op = R * p.perpMat) : p.rot op = R := by
  unfold Package.rot
  rw [h, Matrix.mul_assoc, perp_lift, Matrix.mul_one]

theorem rot_spec {p : Package} {op : IMat 6 6} (h : op ∈ p.symops) :
    p.perpMat * realMat op = p.rot op * p.perpMat ∧ (p.rot op)ᵀ * p.rot op = 1 := by
  obtain ⟨R, S, h1, -, h3, -⟩ := iso_symops h
  rw [rot_unique h3]
  exact ⟨h3, h1⟩

theorem rot_mul {p : Package} {a b : IMat 6 6} (ha : a ∈ p.symops) (hb : b ∈ p.symops) :
    p.rot (npDot a b) = p.rot a * p.rot b := by
  refine rot_unique ?_
  rw [realMat_mul, ← Matrix.mul_assoc, (rot_spec ha).1, Matrix.mul_assoc, (rot_spec hb).1, Matrix.mul_assoc]

theorem rot_one (p : Package) : p.rot (npIdentity Int 6) = 1 := by
  refine rot_unique ?_
  rw [realMat_one, Matrix.mul_one, Matrix.one_mul]

theorem rot_isometry {p : Package} {op : IMat 6 6} (h : op ∈ p.symops) (x y : Fin 3 → ℝ) :
    (p.rot op).mulVec x ⬝ᵥ (p.rot op).mulVec y = x ⬝ᵥ y := by
  rw [dotProduct_mulVec, ← mulVec_transpose, mulVec_mulVec, (rot_spec h).2, one_mulVec]

/-- Lattice vectors are moved as in 6D. -/
theorem rot_lattice {p : Package} {op : IMat 6 6} (h : op ∈ p.symops) (u : Fin 6 → ℝ) :
    (p.rot op).mulVec (p.perpMat.mulVec u) = p.perpMat.mulVec ((realMat op).mulVec u) := by
  rw [mulVec_mulVec, mulVec_mulVec, (rot_spec h).1]

theorem perp_symV' {p : Package} {op : IMat 6 6} (h : op ∈ p.symops) (c v : Vec 6) :
    p.perp (symV p op c v) = (p.rot op).mulVec (p.perp v - p.perp c) + p.perp c := perp_symV op c v (rot_spec h).1

/-! ## Walls -/

/-- `α` is normal to a mirror plane of the group. -/
def Mirror (p : Package) (α : Fin 3 → ℝ) : Prop :=
  ∃ k : ℝ, 0 < k ∧ ∃ op ∈ p.symops, ∀ x, (p.rot op).mulVec x = x - (k * (α ⬝ᵥ x)) • α

/-- Every point can be moved to the positive side of given mirrors that have a common positive side. -/
theorem exists_positive {p : Package} {n : Nat} {α : Fin n → Fin 3 → ℝ} (hα : ∀ i, Mirror p (α i)) {v : Fin 3 → ℝ}
    (hv : ∀ i, 0 < α i ⬝ᵥ v) (x : Fin 3 → ℝ) : ∃ op ∈ p.symops, ∀ i, 0 ≤ α i ⬝ᵥ (p.rot op).mulVec x := by
  obtain ⟨g, hg, hmax⟩ := Set.exists_max_image {op | op ∈ p.symops} (fun op => (p.rot op).mulVec x ⬝ᵥ v)
    (List.finite_toSet _) ⟨_, symops_one p⟩
  refine ⟨g, hg, fun i => ?_⟩
  obtain ⟨k, h0, r, hr, e⟩ := hα i
  have h1 : (p.rot (npDot r g)).mulVec x ⬝ᵥ v ≤ (p.rot g).mulVec x ⬝ᵥ v := hmax (npDot r g) (symops_mul hr hg)
  rw [rot_mul hr hg, ← mulVec_mulVec, e, sub_dotProduct, smul_dotProduct, smul_eq_mul] at h1
  have h2 : 0 ≤ k * (α i ⬝ᵥ (p.rot g).mulVec x) * (α i ⬝ᵥ v) := by linarith
  by_contra hneg
  push Not at hneg
  have : k * (α i ⬝ᵥ (p.rot g).mulVec x) * (α i ⬝ᵥ v) < 0 :=
    mul_neg_of_neg_of_pos (mul_neg_of_pos_of_neg h0 hneg) (hv i)
  linarith

/-- Inward normals of the walls of the fundamental cone (dode2 has two, the second is listed twice). -/
noncomputable def Package.wall : Package → Fin 3 → Fin 3 → ℝ
  | .ico => ![![0, -1, 0], ![0, 0, 1], ![1, tau, -(tau + 1)]]
  | .dode => ![![0, 2, 0], ![1, -(2 + 2 * sin60), 0], ![1, -(2 + 2 * sin60), 0]]

theorem chamber_iff (p : Package) (x : Fin 3 → ℝ) : x ∈ p.chamber ↔ ∀ i, 0 ≤ p.wall i ⬝ᵥ x := by
  cases p
  · have h := tau_sq
    have hb := tau_near
    simp only [Package.wall, Package.chamber, Set.mem_ofPred_eq]
    generalize tau = t at *
    have ht : 0 < t := by linarith
    constructor
    · rintro ⟨a, b, c, ha, hb', hc, rfl⟩ i
      have h1 : 0 ≤ a * t := by positivity
      have h2 : 0 ≤ c * (t + 1) := by positivity
      fin_cases i <;> simp [dotProduct, Fin.sum_univ_three] <;> nlinarith
    · intro hw
      have w0 := hw 0
      have w1 := hw 1
      have w2 := hw 2
      simp [dotProduct, Fin.sum_univ_three] at w0 w1 w2
      refine ⟨-x 1 * (t - 1), x 2, (x 0 + t * x 1 - (t + 1) * x 2) * (2 - t), ?_, w1, ?_, ?_⟩
      · exact mul_nonneg (by linarith) (by linarith)
      · exact mul_nonneg (by linarith) (by linarith)
      · ext i
        fin_cases i
        · simp; linear_combination (x 0 + t * x 1 - (t + 1) * x 2 + x 1) * h
        · simp; linear_combination (-x 1) * h
        · simp
  · have h := sin60_sq
    have hb := sin60_near
    simp only [Package.wall, Package.chamber, Set.mem_ofPred_eq]
    generalize sin60 = t at *
    constructor
    · rintro ⟨a, b, c, ha, hb', rfl⟩ i
      fin_cases i <;> simp [dotProduct, Fin.sum_univ_three] <;> nlinarith
    · intro hw
      have w0 := hw 0
      have w1 := hw 1
      simp [dotProduct, Fin.sum_univ_three] at w0 w1
      refine ⟨x 0 - (2 + 2 * t) * x 1, 2 * x 1, x 2, by linarith, by linarith, ?_⟩
      ext i
      fin_cases i
      · simp; ring
      · simp; ring
      · simp

theorem mirror_of {p : Package} {op : IMat 6 6} {R : Matrix (Fin 3) (Fin 3) ℝ} {α : Fin 3 → ℝ} {k : ℝ}
    (h : op ∈ p.symops) (hR : p.perpMat * realMat op = R * p.perpMat) (hk : 0 < k)
    (e : R = 1 - k • vecMulVec α α) : Mirror p α := by
  refine ⟨k, hk, op, h, fun x => ?_⟩
  rw [rot_unique hR, e, sub_mulVec, one_mulVec, smul_mulVec, vecMulVec_mulVec]
  simp [smul_smul]

theorem mem_ico {c : List Nat} (h : c ∈ icoCodes) : spC c ∈ Package.ico.symops := by
  show spC c ∈ Ico.icosasymop
  rw [icosasymop_eq]; exact List.mem_map_of_mem h

theorem mem_dode {c : List (List Int)} (h : c ∈ dodeTable) : matOf c ∈ Package.dode.symops := by
  show matOf c ∈ Dode.dodesymop
  rw [dodesymop_eq]; exact List.mem_map_of_mem h

local macro "mir_tac" : tactic => `(tactic| (
  have h := tau_sq
  simp only [Package.perpMat]
  generalize tau = t at *
  ext i j
  fin_cases i <;> fin_cases j <;>
    simp [Matrix.mul_apply, Fin.sum_univ_succ, realMat, spC, csgn] <;> linarith))

local macro "mir_tac2" : tactic => `(tactic| (
  have h := sin60_sq
  simp only [Package.perpMat]
  generalize sin60 = t at *
  ext i j
  fin_cases i <;> fin_cases j <;>
    simp [Matrix.mul_apply, Fin.sum_univ_succ, realMat, matOf] <;> linarith))

theorem wall_ico (i : Fin 3) : Mirror .ico (Package.ico.wall i) := by
  fin_cases i
  · refine mirror_of (p := .ico) (R := !![1, 0, 0; 0, -1, 0; 0, 0, 1]) (k := 2)
      (mem_ico (c := [9, 2, 4, 11, 1, 7]) (by decide)) ?_ (by norm_num) ?_
    · mir_tac
    · ext i j
      fin_cases i <;> fin_cases j <;> simp [Package.wall] <;> norm_num
  · refine mirror_of (p := .ico) (R := !![1, 0, 0; 0, 1, 0; 0, 0, -1]) (k := 2)
      (mem_ico (c := [0, 4, 2, 10, 8, 6]) (by decide)) ?_ (by norm_num) ?_
    · mir_tac
    · ext i j
      fin_cases i <;> fin_cases j <;> simp [Package.wall] <;> norm_num
  · refine mirror_of (p := .ico) (R := !![tau / 2, (1 - tau) / 2, 1 / 2; (1 - tau) / 2, 1 / 2, tau / 2;
        1 / 2, tau / 2, (1 - tau) / 2]) (k := (2 - tau) / 2)
      (mem_ico (c := [0, 10, 8, 6, 4, 2]) (by decide)) ?_ (by have := tau_near; linarith) ?_
    · mir_tac
    · have h := tau_sq
      simp only [Package.wall]
      generalize tau = t at *
      have h3 : t ^ 3 = 2 * t + 1 := by linear_combination (t + 1) * h
      ext i j
      fin_cases i <;> fin_cases j <;> simp <;> nlinarith

theorem wall_dode0 : Mirror .dode (![0, 2, 0] : Fin 3 → ℝ) := by
  refine mirror_of (p := .dode) (R := !![1, 0, 0; 0, -1, 0; 0, 0, 1]) (k := 1 / 2)
    (mem_dode (c := [[1, 0, 0, 0, 0, 0], [0, 1, 0, -1, 0, 0], [1, 0, -1, 0, 0, 0], [0, 0, 0, -1, 0, 0],
      [0, 0, 0, 0, 1, 0], [0, 0, 0, 0, 0, 1]]) (by decide)) ?_ (by norm_num) ?_
  · mir_tac2
  · ext i j
    fin_cases i <;> fin_cases j <;> simp <;> norm_num

theorem wall_dode1 : Mirror .dode (![1, -(2 + 2 * sin60), 0] : Fin 3 → ℝ) := by
  refine mirror_of (p := .dode) (R := !![sin60, 1 / 2, 0; 1 / 2, -sin60, 0; 0, 0, 1]) (k := 1 - sin60)
    (mem_dode (c := [[0, -1, 0, 1, 0, 0], [-1, 0, 1, 0, 0, 0], [0, 0, 0, 1, 0, 0], [0, 0, 1, 0, 0, 0],
      [0, 0, 0, 0, 1, 0], [0, 0, 0, 0, 0, 1]]) (by decide)) ?_ (by have := sin60_near; linarith) ?_
  · mir_tac2
  · have h := sin60_sq
    generalize sin60 = t at *
    have h3 : t ^ 3 = 3 / 4 * t := by linear_combination t * h
    ext i j
    fin_cases i <;> fin_cases j <;> simp <;> nlinarith

theorem wall_mirror (p : Package) (i : Fin 3) : Mirror p (p.wall i) := by
  cases p
  · exact wall_ico i
  · fin_cases i
    · exact wall_dode0
    · exact wall_dode1
    · exact wall_dode1

/-! ## The walls on lattice vectors -/

/-- The walls as integer forms on 6D lattice vectors: the value is `a + b θ`. -/
def Package.form : Package → Fin 3 → Fin 6 → ℤ × ℤ
  | .ico => ![![(1, 0), (0, 0), (0, 0), (0, -1), (1, 0), (0, -1)],
      ![(0, 0), (0, 1), (0, -1), (1, 0), (0, 0), (-1, 0)],
      ![(0, 0), (-2, -2), (0, 2), (0, 0), (0, -2), (2, 2)]]
  | .dode => ![![(-1, 0), (0, 0), (2, 0), (0, -2), (0, 0), (0, 0)],
      ![(1, 0), (1, 0), (-2, -2), (1, 2), (0, 0), (0, 0)],
      ![(1, 0), (1, 0), (-2, -2), (1, 2), (0, 0), (0, 0)]]

/-- Twice the axes spanning the fundamental cone (dode2: the two axes; the second is listed twice). -/
def Package.axis6 : Package → Fin 3 → Fin 6 → ℤ
  | .ico => ![![1, -1, -1, -1, -1, -1], ![1, -1, -1, 1, -1, -1], ![1, -1, -1, 0, -1, 0]]
  | .dode => ![![0, 1, 0, 0, 0, 0], ![-1, 1, 0, 0, 0, 0], ![-1, 1, 0, 0, 0, 0]]

/-- Integer value of a wall on a transformed axis. -/
def Package.form6 (p : Package) (op : IMat 6 6) (i j : Fin 3) : ℤ × ℤ :=
  (∑ k, (p.form i k).1 * ∑ l, op k l * p.axis6 j l, ∑ k, (p.form i k).2 * ∑ l, op k l * p.axis6 j l)

/-- Integer test for `a + b θ ≤ 0`. -/
def Package.negTest : Package → ℤ × ℤ → Bool
  | .ico, x => (0 ≤ x.2 && 1000 * x.1 + 1619 * x.2 ≤ 0) || (x.2 ≤ 0 && 1000 * x.1 + 1618 * x.2 ≤ 0)
  | .dode, x => (0 ≤ x.2 && 1000 * x.1 + 867 * x.2 ≤ 0) || (x.2 ≤ 0 && 1000 * x.1 + 866 * x.2 ≤ 0)

theorem negTest_le {p : Package} {x : ℤ × ℤ} (h : p.negTest x = true) : (x.1 : ℝ) + x.2 * p.theta ≤ 0 := by
  cases p
  · have hb := tau_near
    simp only [Package.negTest, Bool.or_eq_true, Bool.and_eq_true, decide_eq_true_eq] at h
    show (x.1 : ℝ) + x.2 * tau ≤ 0
    rcases h with ⟨h1, h2⟩ | ⟨h1, h2⟩
    · have h1' : (0 : ℝ) ≤ x.2 := by exact_mod_cast h1
      have h2' : (1000 * x.1 + 1619 * x.2 : ℝ) ≤ 0 := by exact_mod_cast h2
      nlinarith
    · have h1' : (x.2 : ℝ) ≤ 0 := by exact_mod_cast h1
      have h2' : (1000 * x.1 + 1618 * x.2 : ℝ) ≤ 0 := by exact_mod_cast h2
      nlinarith
  · have hb := sin60_near
    simp only [Package.negTest, Bool.or_eq_true, Bool.and_eq_true, decide_eq_true_eq] at h
    show (x.1 : ℝ) + x.2 * sin60 ≤ 0
    rcases h with ⟨h1, h2⟩ | ⟨h1, h2⟩
    · have h1' : (0 : ℝ) ≤ x.2 := by exact_mod_cast h1
      have h2' : (1000 * x.1 + 867 * x.2 : ℝ) ≤ 0 := by exact_mod_cast h2
      nlinarith
    · have h1' : (x.2 : ℝ) ≤ 0 := by exact_mod_cast h1
      have h2' : (1000 * x.1 + 866 * x.2 : ℝ) ≤ 0 := by exact_mod_cast h2
      nlinarith

theorem sep_ico : ∀ c ∈ icoCodes, c ≠ [0, 2, 4, 6, 8, 10] →
    ∃ i, ∀ j, Package.ico.negTest (Package.ico.form6 (spC c) i j) = true := by decide +kernel

theorem sep_dode : ∀ c ∈ dodeTable, c ≠ lid →
    ∃ i, ∀ j, Package.dode.negTest (Package.dode.form6 (matOf c) i j) = true := by decide +kernel

theorem sep_symops {p : Package} {op : IMat 6 6} (h : op ∈ p.symops) (h1 : op ≠ npIdentity Int 6) :
    ∃ i, ∀ j, p.negTest (p.form6 op i j) = true := by
  cases p
  · rw [Package.symops, icosasymop_eq] at h
    obtain ⟨c, hc, rfl⟩ := List.mem_map.mp h
    refine sep_ico c hc ?_
    rintro rfl
    exact h1 spC_one
  · rw [Package.symops, dodesymop_eq] at h
    obtain ⟨c, hc, rfl⟩ := List.mem_map.mp h
    refine sep_dode c hc ?_
    rintro rfl
    exact h1 matOf_lid

end PyQC
