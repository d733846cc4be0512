import Verif.Lemmas.Binary64
import Verif.Model.DodeFloat
import Verif.Props.Planar
/-!
# The planar crossing test in binary64 arithmetic, on rational numbers
-/
namespace PyQC
namespace Rounding
open Dode

def dotq (x y : Fin 3 → ℚ) : ℚ := flq (flq (flq (x 0 * y 0) + flq (x 1 * y 1)) + flq (x 2 * y 2))
def subq (x y : Fin 3 → ℚ) : Fin 3 → ℚ := fun i => flq (x i - y i)

/-- The part of the crossing test that can reject: the denominator and the two parameters. -/
def rejectq (l m : Fin 2 → Fin 3 → ℚ) : Bool :=
  let ab := subq (l 1) (l 0)
  let ac := subq (m 0) (l 0)
  let cd := subq (m 1) (m 0)
  let t1 := flq (flq (dotq ac cd * dotq cd ab) - flq (dotq cd cd * dotq ac ab))
  let t2 := flq (flq (dotq ab cd * dotq cd ab) - flq (dotq ab ab * dotq cd cd))
  let s := flq (t1 / t2)
  let t := flq (flq (-dotq ac cd + flq (s * dotq ab cd)) / dotq cd cd)
  decide (|t2| < flq (1 / 10 ^ 6)) || !decide (s ≥ 0 ∧ s ≤ 1 ∧ t ≥ 0 ∧ t ≤ 1)

theorem fl64 (q : ℚ) : binary64.float64.fl (q : ℝ) = (flq q : ℝ) := nearest_cast q

theorem dot64 (x y : Fin 3 → ℚ) : binary64.float64.dot (fun i => (x i : ℝ)) (fun i => (y i : ℝ)) = (dotq x y : ℝ) := by
  have e : binary64.float64.dot (fun i => (x i : ℝ)) (fun i => (y i : ℝ)) =
      nearest (nearest (nearest (x 0 * y 0 : ℝ) + nearest (x 1 * y 1 : ℝ)) + nearest (x 2 * y 2 : ℝ)) := rfl
  rw [e, dotq]
  simp only [← Rat.cast_mul, nearest_cast, ← Rat.cast_add]

theorem sub64 (x y : Fin 3 → ℚ) : binary64.float64.sub (fun i => (x i : ℝ)) (fun i => (y i : ℝ)) = fun i => (subq x y i : ℝ) := by
  funext i
  unfold Float64.sub subq
  rw [← Rat.cast_sub, fl64]

theorem eps64 : binary64.float64.eps = (flq (1 / 10 ^ 6) : ℝ) := by
  unfold Float64.eps
  rw [← fl64]
  congr 1
  unfold EPS
  push_cast
  norm_num

theorem reject64 {l m : Fin 2 → Fin 3 → ℚ} (h : rejectq l m = true) :
    binary64.float64.segmentsMeet (fun i j => (l i j : ℝ)) (fun i j => (m i j : ℝ)) = false := by
  unfold rejectq at h
  unfold Float64.segmentsMeet
  dsimp only at h ⊢
  simp only [sub64, dot64, eps64, ← Rat.cast_mul, ← Rat.cast_sub, ← Rat.cast_neg, ← Rat.cast_div, ← Rat.cast_add, fl64, ← Rat.cast_abs,
    Rat.cast_lt]
  split
  · rfl
  · rename_i h1
    rw [Bool.or_eq_true, decide_eq_true_eq] at h
    have h2 := h.resolve_left h1
    rw [Bool.not_eq_true', decide_eq_false_iff_not] at h2
    rw [if_neg]
    intro h3
    apply h2
    obtain ⟨a, b, c, d⟩ := h3
    exact ⟨by exact_mod_cast a, by exact_mod_cast b, by exact_mod_cast c, by exact_mod_cast d⟩

/-- The coordinates computed for a point of the plane. -/
def flatq (x y n : Int) : Fin 3 → ℚ :=
  ![flq (flq (flq (flq (flq x) / flq n))), flq (flq (flq (flq (flq y) / flq n))), 0]

theorem fl64_zero : binary64.float64.fl 0 = 0 := by
  have := fl64 0
  rwa [Rat.cast_zero, flq, if_pos rfl, Rat.cast_zero] at this

theorem value64 (x n : Int) : binary64.float64.dodeValue ⟨x, 0, n⟩ = (flq (flq (flq x) / flq n) : ℝ) := by
  unfold Float64.dodeValue
  dsimp only
  rw [Int.cast_zero, fl64_zero, zero_mul, fl64_zero, add_zero]
  have e : ∀ z : ℤ, (z : ℝ) = ((z : ℚ) : ℝ) := fun z => by push_cast; rfl
  simp only [e, fl64, ← Rat.cast_div]

theorem internal64 (x y n : Int) : binary64.float64.dodeInternal (flatFrac x y n) = fun j => (flatq x y n j : ℝ) := by
  have h0 : binary64.float64.dodeValue ⟨0, 0, 1⟩ = 0 := by
    rw [value64]
    have : flq 0 = 0 := by rw [flq, if_pos rfl]
    simp [this]
  funext j
  fin_cases j
  · show binary64.float64.fl (binary64.float64.fl (binary64.float64.fl (-_ * binary64.float64.dodeValue ⟨0, 0, 1⟩) +
      binary64.float64.dodeValue ⟨x, 0, n⟩) - binary64.float64.fl (1 / 2 * binary64.float64.dodeValue ⟨0, 0, 1⟩)) = _
    rw [h0, mul_zero, mul_zero, fl64_zero, zero_add, sub_zero, value64, fl64, fl64]
    rfl
  · show binary64.float64.fl (binary64.float64.fl (binary64.float64.fl (-(1 / 2) * binary64.float64.dodeValue ⟨0, 0, 1⟩) +
      binary64.float64.dodeValue ⟨y, 0, n⟩) - binary64.float64.fl (_ * binary64.float64.dodeValue ⟨0, 0, 1⟩)) = _
    rw [h0, mul_zero, mul_zero, fl64_zero, zero_add, sub_zero, value64, fl64, fl64]
    rfl
  · show binary64.float64.dodeValue ⟨0, 0, 1⟩ = _
    rw [h0]
    simp [flatq]

/-- Corners of a triangle with rational coordinates, as computed. -/
def triq (a : Fin 3 → Fin 2 → ℤ) (n : ℤ) : Fin 3 → Fin 3 → ℚ := fun i => flatq (a i 0) (a i 1) n

/-- All crossing tests of two triangles reject. -/
def noCrossq (a b : Fin 3 → Fin 2 → ℤ) (n : ℤ) : Bool :=
  combE.all fun c => combE.all fun e =>
    rejectq ![triq a n c.1, triq a n c.2] ![triq b n e.1, triq b n e.2] &&
    rejectq ![triq b n e.1, triq b n e.2] ![triq a n c.1, triq a n c.2]

end Rounding
end PyQC
