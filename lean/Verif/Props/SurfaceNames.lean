import Verif.Props.OutlineRounded
import Verif.Lemmas.SurfaceLost

/-!
C104, what goes wrong otherwise: an object whose shared corner has two different 6D names keeps an inner face in its surface.
-/

namespace PyQC
open Matrix Topology Ico Rounding

/-- The origin of perp space under another 6D name. -/
def exOrigin : Vec 6 := ![⟨0, 0, 1⟩, ⟨1, 0, 1⟩, ⟨-1, 0, 1⟩, ⟨0, -1, 1⟩, ⟨0, 0, 1⟩, ⟨0, 1, 1⟩]

/-- Two tetrahedra with a common face. One corner of that face has a different name in each of them. -/
def exNames : Obj 4 :=
  [![cart 1 0 0 1, cart 0 1 0 1, cart 0 0 0 1, cart 0 0 1 1], ![cart 1 0 0 1, cart 0 1 0 1, exOrigin, cart 0 0 (-1) 1]]

def exNamesZ : Fin 2 → Fin 4 → Fin 3 → ℤ :=
  ![![![1, 0, 0], ![0, 1, 0], ![0, 0, 0], ![0, 0, 1]], ![![1, 0, 0], ![0, 1, 0], ![0, 0, 0], ![0, 0, -1]]]

theorem perp_exOrigin : Package.ico.perp exOrigin = ![0, 0, 0] := by
  funext i
  fin_cases i <;>
    simp [Package.perp, Package.perpMat, Package.theta, Matrix.mulVec, dotProduct, Fin.sum_univ_six, Vec.val,
      Num3.val, exOrigin]
  ring

theorem exNames_perp (a : Fin 2) (i : Fin 4) (j : Fin 3) : Package.ico.perp (exNames.get a i) j = (exNamesZ a i j : ℝ) / (1 : ℕ) := by
  by_cases h : a = 1 ∧ i = 2
  · obtain ⟨rfl, rfl⟩ := h
    refine (congrFun perp_exOrigin j).trans ?_
    fin_cases j <;> simp [exNamesZ]
  · fin_cases a <;> fin_cases i <;>
      first
      | (exfalso; exact h ⟨rfl, rfl⟩)
      | (refine (congrFun (perp_cart _ _ _ _) j).trans ?_; fin_cases j <;> simp [exNamesZ])

theorem exNames_wf : WellFormed exNames := by
  refine wellFormed_grid exNames exNamesZ 1 (by norm_num) (by simp [exNames]) (by decide +kernel) exNames_perp (by decide) ?_
  have : ∀ a b : Fin 2, a < b → SepZ (exNamesZ a) (exNamesZ b) ![0, 0, -1] := by decide +kernel
  exact fun a b hab => ⟨_, this a b hab⟩

theorem exNames_sharp : Sharp exNames := by
  refine sharp_grid exNames exNamesZ 1 1 (by norm_num) exNames_perp (by decide) (by norm_num) (by norm_num) (by norm_num) (by norm_num)
    (by decide +kernel) ?_ (by decide +kernel)
  have : ∀ i j : Fin 2 × Fin 4, SameZ (fun k => exNamesZ i.1 (i.2.succAbove k)) (fun k => exNamesZ j.1 (j.2.succAbove k)) ∨
      (∃ k, detZ ![exNamesZ i.1 (i.2.succAbove 0), exNamesZ i.1 (i.2.succAbove 1), exNamesZ i.1 (i.2.succAbove 2),
        exNamesZ j.1 (j.2.succAbove k)] ≠ 0) ∨
      ∃ m ∈ [(![0, 0, -1] : Fin 3 → ℤ), ![0, 0, 1]],
        SepZ (fun k => exNamesZ i.1 (i.2.succAbove k)) (fun k => exNamesZ j.1 (j.2.succAbove k)) m := by
    decide +kernel
  intro i j
  rcases this i j with h | h | ⟨m, -, h⟩
  exacts [.inl h, .inr (.inl h), .inr (.inr ⟨m, h⟩)]

theorem exNames_moderate : Moderate .ico 3 exNames := by
  have hc : ∀ (a : Fin 2) (i : Fin 4) (k : Fin 6), (exNames.get a i k).c ≠ 0 ∧ |(exNames.get a i k).c| ≤ 2 ∧
      |(exNames.get a i k).a| + 2 * |(exNames.get a i k).b| ≤ 3 * |(exNames.get a i k).c| := by decide +kernel
  have hM : ∀ (a : Fin 2) (i : Fin 4) (j : Fin 3), |exNamesZ a i j| ≤ 3 := by decide +kernel
  intro s hs i
  obtain ⟨a, rfl⟩ := List.get_of_mem hs
  refine ⟨⟨fun k => (hc a i k).1, fun k => ?_, fun k => ?_, fun j => ?_⟩, fun k => (hc a i k).2.1.trans (by norm_num)⟩
  · have : |((exNames.get a i k).c : ℝ)| ≤ 2 := by exact_mod_cast (hc a i k).2.1
    exact this.trans (by norm_num)
  · exact_mod_cast (hc a i k).2.2
  · refine (congrArg abs (exNames_perp a i j)).trans_le ?_
    rw [Nat.cast_one, div_one]
    exact_mod_cast hM a i j

theorem exNames_near (i j : Fin exNames.length × Fin 4)
    (h : Near (Package.ico.centroidPerp (face exNames i)) (Package.ico.centroidPerp (face exNames j))) :
    Set.range (Package.ico.perps (face exNames i)) = Set.range (Package.ico.perps (face exNames j)) :=
  exNames_sharp.faces i j (near_grid (o := exNames) (A := exNamesZ) (n := 1) (M := 1) (by norm_num) exNames_perp (by decide) (by norm_num) h)

/-- The stored centroid of a face whose centroid is the vector `r`. -/
theorem key64 {i : Fin exNames.length × Fin 4} {r : Vec 6} (h : centroid Ico.arith (List.ofFn (face exNames i)) = .ok r) :
    faceStored binary64.float64 exNames i = List.ofFn (binary64.float64.internal r) := by
  unfold faceStored storedKey Float64.centroidKey
  have : centroid Package.ico.arith (List.ofFn (face exNames i)) = .ok r := h
  rw [this]
  rfl

theorem fl64_tau_zero : binary64.float64.fl (binary64.float64.TAU * binary64.float64.fl 0) = 0 := by
  rw [fl64_zero, mul_zero, fl64_zero]

/-- First coordinate, when the first and the fifth entry agree and the next two have no τ in them. -/
theorem first64 {r : Vec 6} {x y n m : Int} (h0 : r 0 = r 4) (h1 : r 1 = ⟨x, 0, n⟩) (h2 : r 2 = ⟨y, 0, m⟩) :
    binary64.float64.internal r 0 = (flq (-flq (numq x n + numq y m)) : ℝ) := by
  show binary64.float64.fl (-binary64.float64.fl (binary64.float64.numericValue (r 1) + binary64.float64.numericValue (r 2)) +
    binary64.float64.fl (binary64.float64.TAU * binary64.float64.fl
      (binary64.float64.numericValue (r 0) - binary64.float64.numericValue (r 4)))) = _
  rw [h0, sub_self, fl64_tau_zero, add_zero, h1, h2, numeric64, numeric64, ← Rat.cast_add, fl64, ← Rat.cast_neg, fl64]

/-- Second coordinate, when the fourth and the sixth entry are opposite and the first and the fifth have no τ in them. -/
theorem second64 {r : Vec 6} {x y n m : Int} (h0 : r 0 = ⟨x, 0, n⟩) (h4 : r 4 = ⟨y, 0, m⟩) (h3 : r 3 = ⟨0, 0, 1⟩) (h5 : r 5 = ⟨0, 0, 1⟩) :
    binary64.float64.internal r 1 = (flq (-flq (numq x n + numq y m)) : ℝ) := by
  show binary64.float64.fl (-binary64.float64.fl (binary64.float64.numericValue (r 0) + binary64.float64.numericValue (r 4)) +
    binary64.float64.fl (binary64.float64.TAU * binary64.float64.fl
      (binary64.float64.numericValue (r 3) + binary64.float64.numericValue (r 5)))) = _
  have hz : numq 0 1 + numq 0 1 = 0 := by decide +kernel
  rw [h0, h4, h3, h5, numeric64, numeric64, numeric64, ← Rat.cast_add, ← Rat.cast_add, hz, Rat.cast_zero, fl64_tau_zero, add_zero,
    fl64, ← Rat.cast_neg, fl64]

theorem second64' {r : Vec 6} {x y n m : Int} (h0 : r 0 = ⟨x, 0, n⟩) (h4 : r 4 = ⟨y, 0, m⟩) (h3 : r 3 = ⟨1, 0, 6⟩) (h5 : r 5 = ⟨-1, 0, 6⟩) :
    binary64.float64.internal r 1 = (flq (-flq (numq x n + numq y m)) : ℝ) := by
  show binary64.float64.fl (-binary64.float64.fl (binary64.float64.numericValue (r 0) + binary64.float64.numericValue (r 4)) +
    binary64.float64.fl (binary64.float64.TAU * binary64.float64.fl
      (binary64.float64.numericValue (r 3) + binary64.float64.numericValue (r 5)))) = _
  have hz : numq 1 6 + numq (-1) 6 = 0 := by decide +kernel
  rw [h0, h4, h3, h5, numeric64, numeric64, numeric64, numeric64, ← Rat.cast_add, ← Rat.cast_add, hz, Rat.cast_zero, fl64_tau_zero,
    add_zero, fl64, ← Rat.cast_neg, fl64]

/-- Third coordinate, when the second and the third entry agree. -/
theorem third64 {r : Vec 6} {x y n m : Int} (h : r 1 = r 2) (h3 : r 3 = ⟨x, 0, n⟩) (h5 : r 5 = ⟨y, 0, m⟩) :
    binary64.float64.internal r 2 = (flq (flq (numq x n - numq y m)) : ℝ) := by
  show binary64.float64.fl (binary64.float64.fl (binary64.float64.numericValue (r 3) - binary64.float64.numericValue (r 5)) +
    binary64.float64.fl (binary64.float64.TAU * binary64.float64.fl
      (binary64.float64.numericValue (r 1) - binary64.float64.numericValue (r 2)))) = _
  rw [h, sub_self, fl64_tau_zero, add_zero, h3, h5, numeric64, numeric64, ← Rat.cast_sub, fl64, fl64]

/-- In the sorted list a face with other corners comes between the two copies of the common face. -/
theorem names_order :
    faceStored binary64.float64 exNames ((0 : Fin 2), 3) < faceStored binary64.float64 exNames ((0 : Fin 2), 2) ∧
      faceStored binary64.float64 exNames ((0 : Fin 2), 2) < faceStored binary64.float64 exNames ((1 : Fin 2), 3) := by
  have c0 : centroid Ico.arith (List.ofFn (face exNames ((0 : Fin 2), 3))) =
      .ok ![⟨-1, 0, 6⟩, ⟨-1, 0, 6⟩, ⟨-1, 0, 6⟩, ⟨0, 0, 1⟩, ⟨-1, 0, 6⟩, ⟨0, 0, 1⟩] := by decide +kernel
  have c1 : centroid Ico.arith (List.ofFn (face exNames ((0 : Fin 2), 2))) =
      .ok ![⟨-1, 0, 6⟩, ⟨-1, 0, 6⟩, ⟨-1, 0, 6⟩, ⟨1, 0, 6⟩, ⟨-1, 0, 6⟩, ⟨-1, 0, 6⟩] := by decide +kernel
  have c2 : centroid Ico.arith (List.ofFn (face exNames ((1 : Fin 2), 3))) =
      .ok ![⟨-1, 0, 6⟩, ⟨1, 0, 6⟩, ⟨-1, 0, 2⟩, ⟨0, -1, 3⟩, ⟨-1, 0, 6⟩, ⟨0, 1, 3⟩] := by decide +kernel
  rw [key64 c0, key64 c1, key64 c2]
  simp only [List.ofFn_succ, List.ofFn_zero, List.cons_lt_cons_iff]
  constructor
  · refine .inr ⟨?_, .inr ⟨?_, .inl ?_⟩⟩
    · exact (first64 rfl rfl rfl).trans (first64 rfl rfl rfl).symm
    · exact (second64 rfl rfl rfl rfl).trans (second64' rfl rfl rfl rfl).symm
    · exact (third64 rfl rfl rfl).trans_lt (lt_of_lt_of_eq (Rat.cast_lt.2 (by decide +kernel)) (third64 rfl rfl rfl).symm)
  · exact .inl ((first64 rfl rfl rfl).trans_lt (lt_of_lt_of_eq (Rat.cast_lt.2 (by decide +kernel)) (first64 rfl rfl rfl).symm))

theorem exNames_partner (i m : Fin 2 × Fin 4) (h : (i = (0, 3) ∧ m = (1, 3)) ∨ (i = (1, 3) ∧ m = (0, 3))) (j : Fin 2 × Fin 4) (hj : j ≠ i)
    (hr : Set.range (Package.ico.perps (face exNames i)) = Set.range (Package.ico.perps (face exNames j))) : j = m := by
  have hz : ∀ k, ∃ l, exNamesZ j.1 (j.2.succAbove k) = exNamesZ i.1 (i.2.succAbove l) := by
    intro k
    have : Package.ico.perps (face exNames j) k ∈ Set.range (Package.ico.perps (face exNames i)) := by rw [hr]; exact ⟨k, rfl⟩
    obtain ⟨l, hl⟩ := this
    refine ⟨l, ?_⟩
    funext c
    have hc : Package.ico.perp (exNames.get i.1 (i.2.succAbove l)) c = Package.ico.perp (exNames.get j.1 (j.2.succAbove k)) c := congrFun hl c
    have := ((exNames_perp _ _ c).symm.trans hc).trans (exNames_perp _ _ c)
    rw [Nat.cast_one, div_one, div_one] at this
    exact_mod_cast this.symm
  have key : ∀ i m : Fin 2 × Fin 4, ((i = (0, 3) ∧ m = (1, 3)) ∨ (i = (1, 3) ∧ m = (0, 3))) → ∀ j, j ≠ i →
      (∀ k, ∃ l, exNamesZ j.1 (j.2.succAbove k) = exNamesZ i.1 (i.2.succAbove l)) → j = m := by decide +kernel
  exact key i m h j hj hz

/-- The middle of the common face is inside the object. -/
theorem exNames_inside : ![1 / 4, 1 / 4, 0] ∈ interior (Package.ico.region exNames) := by
  rw [mem_interior]
  refine ⟨{x | 0 < x 0} ∩ {x | 0 < x 1} ∩ {x | x 0 + x 1 + |x 2| < 1}, ?_, ?_, ?_⟩
  · rintro x ⟨⟨h0, h1⟩, h2⟩
    have h0 : 0 < x 0 := h0
    have h1 : 0 < x 1 := h1
    have h2 : x 0 + x 1 + |x 2| < 1 := h2
    have hx := abs_nonneg (x 2)
    have hq : ∀ (a : Fin 2) (i : Fin 4), Package.ico.perps (exNames.get a) i = fun j => (exNamesZ a i j : ℝ) := fun a i => by
      funext j
      exact (exNames_perp a i j).trans (by simp)
    rcases le_total 0 (x 2) with hs | hs
    · rw [abs_of_nonneg hs] at h2
      refine ⟨exNames.get (0 : Fin 2), List.get_mem _ _, mem_solid_iff.2 ⟨![x 0, x 1, 1 - x 0 - x 1 - x 2, x 2], ⟨?_, ?_⟩, ?_⟩⟩
      · simp [Fin.sum_univ_four]; ring
      · funext c
        simp only [Fin.sum_univ_four, hq]
        fin_cases c <;> simp [exNamesZ]
      · intro i
        fin_cases i <;> simp <;> linarith
    · rw [abs_of_nonpos hs] at h2
      refine ⟨exNames.get (1 : Fin 2), List.get_mem _ _, mem_solid_iff.2 ⟨![x 0, x 1, 1 - x 0 - x 1 + x 2, -x 2], ⟨?_, ?_⟩, ?_⟩⟩
      · simp [Fin.sum_univ_four]; ring
      · funext c
        simp only [Fin.sum_univ_four, hq]
        fin_cases c <;> simp [exNamesZ]
      · intro i
        fin_cases i <;> simp <;> linarith
  · refine ((isOpen_lt continuous_const (continuous_apply 0)).inter (isOpen_lt continuous_const (continuous_apply 1))).inter
      (isOpen_lt ?_ continuous_const)
    exact ((continuous_apply 0).add (continuous_apply 1)).add (continuous_apply 2).abs
  · refine ⟨⟨?_, ?_⟩, ?_⟩ <;> norm_num [show (![1 / 4, 1 / 4, 0] : Fin 3 → ℝ) 2 = 0 from rfl]

/-- C104, negative: the condition that a corner has only one 6D name is needed. There are two tetrahedra with a common face, far
from every tolerance and of moderate size, whose surface is exactly the boundary when nothing is rounded, while in binary64
arithmetic `generator_surface_1` also returns the common face, in the inside of the object. One corner of the common face
is given by different 6D vectors with the same perp components in the two tetrahedra. The two copies of the common face are
then stored with different last digits, another face comes between them in the sorted list, and the test, which only looks
at neighbours in that list, does not find the pair. -/
theorem C104_two_names : ∃ o : Obj 4, WellFormed o ∧ Sharp o ∧ Moderate .ico 3 o ∧
    (∀ i j, Near (Package.ico.centroidPerp (face o i)) (Package.ico.centroidPerp (face o j)) →
      Set.range (Package.ico.perps (face o i)) = Set.range (Package.ico.perps (face o j))) ∧
    (∃ s, generatorSurface1 o = .ok s ∧ Package.ico.region s = frontier (Package.ico.region o)) ∧
    ∃ s, binary64.float64.generatorSurface1 o = .ok s ∧ ∃ x ∈ Package.ico.region s, x ∈ interior (Package.ico.region o) := by
  refine ⟨exNames, exNames_wf, exNames_sharp, exNames_moderate, exNames_near, C101_boundary _ exNames_wf exNames_sharp.faceToFace, ?_⟩
  obtain ⟨s, hs, hmem⟩ := face_between binary64.float64 (by norm_num) (by norm_num) exNames_moderate (by simp [exNames]) exNames_near
    (i := ((0 : Fin 2), 3)) (m := ((1 : Fin 2), 3)) (exNames_partner _ _ (.inl ⟨rfl, rfl⟩)) (b := ((0 : Fin 2), 2)) (.inl names_order)
  refine ⟨s, hs, _, ⟨_, hmem, mem_solid_iff.2 ⟨![1 / 4, 1 / 4, 1 / 2], ⟨?_, ?_⟩, ?_⟩⟩, exNames_inside⟩
  · simp [Fin.sum_univ_three]; norm_num
  · have hq : ∀ i : Fin 3, Package.ico.perps (face exNames ((0 : Fin 2), 3)) i = fun j => (exNamesZ 0 ((3 : Fin 4).succAbove i) j : ℝ) := fun i => by
      funext j
      exact (exNames_perp 0 _ j).trans (by simp)
    funext c
    simp only [Fin.sum_univ_three, hq]
    fin_cases c <;> simp [exNamesZ, Fin.succAbove]
  · intro i
    fin_cases i <;> norm_num

end PyQC
