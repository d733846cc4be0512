import Verif.Lemmas.RoundingSite
import Verif.Lemmas.Lapack
/-!
# C115 site symmetry and cosets with rounding (dode2)
-/
namespace PyQC

/-- C115, every site: in every arithmetic `site_symmetry` returns, and the returned indices are increasing. An operation
that brings the site back to a distance less than 1e-6 - 1e-11 after a listed translation is returned, and every returned
operation brings it back to a distance less than 1e-6 + 1e-11. The coordinates are `(p + q·√3/2)/D` with a common
denominator; the first four are of moderate size, the last two arbitrary. -/
theorem C115_membership (F : Float64) (S : Squares) (site : Vec 6) (ndim : Int) (h : Vec.Ok site) (p q : Fin 6 → Int) (D : Nat)
    (hD : 0 < D) (hD' : D ≤ 2 ^ 62) (hn : ∀ k, Package.dode.val site k = (p k + q k * sin60) / D)
    (hb : ∀ k : Fin 6, k.val < 4 → |p k| + 2 * |q k| ≤ 200 * D) :
    ∃ l, F.siteSymmetry S site ndim = .ok l ∧ l.Pairwise (· < ·) ∧
      (∀ i < 24, ∀ t : Fin 6 → Int, Listed ndim t →
        dist6 (Package.dode.val site) (fun k => applyMat (opAt i) (Package.dode.val site) k + t k) < 1 / 10 ^ 6 - 1 / 10 ^ 11 →
        i ∈ l) ∧
      ∀ i ∈ l, i < 24 ∧ ∃ t : Fin 6 → Int, Listed ndim t ∧
        dist6 (Package.dode.val site) (fun k => applyMat (opAt i) (Package.dode.val site) k + t k) < 1 / 10 ^ 6 + 1 / 10 ^ 11 := by
  have ht : ∀ t ∈ Dode.translation ndim, Vec.Ok t := by
    intro t ht
    obtain ⟨u, -, rfl⟩ := mem_translation.mp ht
    intro i; simp
  obtain ⟨l, h1, h2, h3⟩ := siteLoop_rounded F S h ht Dode.dodesymop 0
  refine ⟨l, ?_, h2, ?_, ?_⟩
  · unfold Float64.siteSymmetry
    rw [h1, bind_ok', removeOverlaps_eq h2]
  · intro i hi t hl hd
    exact (h3 i).2 ⟨i, opAt i, get_opAt hi, (zero_add i).symm, _, mem_translation.mpr ⟨t, hl, rfl⟩,
      (roundedHit_close F S hD hD' hn hb hi hl).1 hd⟩
  · intro i hi
    obtain ⟨j, op, a, rfl, t, htm, hh⟩ := (h3 i).1 hi
    rw [zero_add]
    obtain ⟨u, hu, rfl⟩ := mem_translation.mp htm
    have := opAt_of_get a
    subst this
    exact ⟨get_lt a, u, hu, (roundedHit_close F S hD hD' hn hb (get_lt a) hu).2 hh⟩

/-- C115, the identity is returned for every site of moderate size. -/
theorem C115_identity (F : Float64) (S : Squares) (site : Vec 6) (ndim : Int) (h : Vec.Ok site) (p q : Fin 6 → Int) (D : Nat)
    (hD : 0 < D) (hD' : D ≤ 2 ^ 62) (hn : ∀ k, Package.dode.val site k = (p k + q k * sin60) / D)
    (hb : ∀ k : Fin 6, k.val < 4 → |p k| + 2 * |q k| ≤ 200 * D) :
    ∃ l, F.siteSymmetry S site ndim = .ok l ∧ 0 ∈ l := by
  obtain ⟨l, h1, -, h2, -⟩ := C115_membership F S site ndim h p q D hD hD' hn hb
  refine ⟨l, h1, h2 0 (by norm_num) (fun _ => 0) ⟨by simp, rfl, fun _ => rfl⟩ ?_⟩
  rw [opAt_zero, applyMat_one]
  have : dist6 (Package.dode.val site) (fun k => Package.dode.val site k + ((0 : Int) : ℝ)) = 0 := by simp [dist6]
  rw [this]
  norm_num

/-- C115, rational sites: when the site has a common denominator of at most 999990, the returned indices are in every
arithmetic exactly those of the operations that map the site to itself, without any error, after a listed translation. -/
theorem C115_rational (F : Float64) (S : Squares) (site : Vec 6) (ndim : Int) (h : Vec.Ok site) (n : Fin 6 → Int) (D : Nat)
    (hD : 0 < D) (hD' : D ≤ 999990) (hn : ∀ k, Package.dode.val site k = n k / D)
    (hb : ∀ k : Fin 6, k.val < 4 → |Package.dode.val site k| ≤ 340) :
    ∃ l, F.siteSymmetry S site ndim = .ok l ∧ l.Pairwise (· < ·) ∧
      ∀ i, i ∈ l ↔ i < 24 ∧ ∃ t : Fin 6 → Int, Listed ndim t ∧
        Package.dode.val site = fun k => applyMat (opAt i) (Package.dode.val site) k + t k := by
  obtain ⟨l, h1, h2, h3⟩ := siteSymmetry_rational h ndim hD (by omega) hn
  refine ⟨l, (siteSymmetry_same F S h ndim hD hD' hn hb).trans h1, h2, fun i => (h3 i).trans ?_⟩
  refine and_congr_right fun _ => exists_congr fun t => and_congr_right fun _ => ?_
  have hDr : (D : ℝ) ≠ 0 := by exact_mod_cast hD.ne'
  rw [funext_iff]
  refine forall_congr' fun k => ?_
  rw [← Int.cast_inj (α := ℝ)]
  have e : applyMat (opAt i) (Package.dode.val site) k = (∑ j, (opAt i k j : ℝ) * n j) / D := by
    simp only [applyMat, hn]
    rw [Finset.sum_div]
    exact Finset.sum_congr rfl fun j _ => by ring
  rw [e, hn, div_add' _ _ _ hDr, div_left_inj' hDr]
  push_cast
  rw [mul_comm (t k : ℝ)]

/-- C115, independence of the arithmetic: two computations in different arithmetics return the same site symmetries and
the same cosets. -/
theorem C115_agree (F F' : Float64) (S S' : Squares) (site : Vec 6) (ndim : Int) (h : Vec.Ok site) (n : Fin 6 → Int) (D : Nat)
    (hD : 0 < D) (hD' : D ≤ 999990) (hn : ∀ k, Package.dode.val site k = n k / D)
    (hb : ∀ k : Fin 6, k.val < 4 → |Package.dode.val site k| ≤ 340) :
    F.siteSymmetry S site ndim = F'.siteSymmetry S' site ndim ∧ F.coset S site ndim = F'.coset S' site ndim ∧
      F.siteSymmetryAndCoset S site ndim = F'.siteSymmetryAndCoset S' site ndim := by
  have e := (siteSymmetry_same F S h ndim hD hD' hn hb).trans (siteSymmetry_same F' S' h ndim hD hD' hn hb).symm
  refine ⟨e, ?_, ?_⟩
  · unfold Float64.coset; rw [e]
  · unfold Float64.siteSymmetryAndCoset; rw [e]

/-- C115, reduced rational sites: the returned indices are exactly the operations that fix the site modulo the lattice,
they form a subgroup, and the representatives returned with them meet every coset once. -/
theorem C115_site (F : Float64) (S : Squares) (site : Vec 6) (ndim : Int) (h : Vec.Ok site) (n : Fin 6 → Int) (D : Nat)
    (hD : 0 < D) (hD' : D ≤ 999990) (hn : ∀ k, Package.dode.val site k = n k / D)
    (hcell : ∀ i : Fin 6, i.val < 4 → |Package.dode.val site i| < 1)
    (hdiff : ∀ i j : Fin 6, i.val < 4 → j.val < 4 → |Package.dode.val site i - Package.dode.val site j| ≤ 1) :
    ∃ l r, F.siteSymmetry S site ndim = .ok l ∧ F.coset S site ndim = .ok r ∧
      F.siteSymmetryAndCoset S site ndim = .ok (l, r) ∧
      (∀ i, i ∈ l ↔ i < 24 ∧ FixesModLattice (opAt i) (Package.dode.val site)) ∧ IsSubgroup l ∧
      r.head? = some 0 ∧ r.Nodup ∧ (∀ q ∈ r, q < 24) ∧ r.length * l.length = 24 ∧
      ∀ g ∈ Dode.dodesymop, ∃! q, q ∈ r ∧ ∃ h ∈ l, g = npDot (opAt q) (opAt h) := by
  have e := siteSymmetry_same F S h ndim hD hD' hn fun k hk => (hcell k hk).le.trans (by norm_num)
  obtain ⟨l, h1, h2, h3⟩ := C45_full_partial site ndim h n D hD (by omega) hn hcell hdiff
  obtain ⟨r, k1, k2, k3, k4, k5, k6⟩ := C46_coset l h3
  rw [h1] at e
  refine ⟨l, r, e, ?_, ?_, h2, h3, k2, k3, k4, k5, k6⟩
  · unfold Float64.coset; rw [e, bind_ok', k1]
  · unfold Float64.siteSymmetryAndCoset; rw [e, bind_ok', k1, bind_ok']

/-! ## Witnesses -/

/-- A site with irrational coordinates: (√3/2, 1/3, 0, 0, 0, 5√3/4). -/
def exIrrational : Vec 6 := ![⟨0, 1, 1⟩, ⟨1, 0, 3⟩, ⟨0, 0, 1⟩, ⟨0, 0, 1⟩, ⟨0, 0, 1⟩, ⟨0, 5, 2⟩]

example (F : Float64) (S : Squares) : ∃ l, F.siteSymmetry S exIrrational 5 = .ok l ∧ 0 ∈ l :=
  C115_identity F S exIrrational 5 (by decide) ![0, 2, 0, 0, 0, 0] ![6, 0, 0, 0, 0, 15] 6 (by norm_num) (by norm_num)
    (by
      intro k
      fin_cases k <;> simp [Package.val, Vec.val, exIrrational, Num3.val, Package.theta] <;> ring)
    (by decide)

/-- The site (1/2,0,0,0,0,0) in binary64 arithmetic with plain summation meets the hypotheses of `C115_site`; four operations
are returned. -/
example : Rounding.binary64.float64.siteSymmetry Rounding.binary64.float64.leftSquares exHalf 5 = .ok [0, 6, 13, 19] ∧
    ∃ l r, Rounding.binary64.float64.siteSymmetryAndCoset Rounding.binary64.float64.leftSquares exHalf 5 = .ok (l, r) ∧
      r.length * l.length = 24 ∧ IsSubgroup l := by
  constructor
  · rw [siteSymmetry_same _ _ (by decide) 5 (n := ![1, 0, 0, 0, 0, 0]) (D := 2) (by norm_num) (by norm_num) exHalf_val,
      siteSymmetry_compute (D := 2) (by decide) 5 (by norm_num) (by norm_num) exHalf_val]
    · decide +kernel
    · intro k _
      rw [exHalf_val]
      fin_cases k <;> norm_num
  · obtain ⟨l, r, -, -, h3, -, h5, -, -, -, h9, -⟩ := C115_site Rounding.binary64.float64
      Rounding.binary64.float64.leftSquares exHalf 5 (by decide) ![1, 0, 0, 0, 0, 0] 2 (by norm_num) (by norm_num) exHalf_val
      (by intro i _; rw [exHalf_val]; fin_cases i <;> norm_num)
      (by intro i j _ _; rw [exHalf_val, exHalf_val]; fin_cases i <;> fin_cases j <;> norm_num)
    exact ⟨l, r, h3, h9, h5⟩

/-- The failure on unreduced sites (`C45_fails_unreduced`) is there in every arithmetic. -/
theorem C115_fails_unreduced (F : Float64) (S : Squares) : ∃ l, F.siteSymmetry S exLattice 5 = .ok l ∧
    FixesModLattice (opAt 6) (Package.dode.val exLattice) ∧ 6 ∉ l := by
  obtain ⟨-, l, h1, h2, h3⟩ := C45_fails_unreduced
  refine ⟨l, ?_, h2, h3⟩
  rw [siteSymmetry_same F S (by decide) 5 (n := ![1, 0, 0, 0, 0, 0]) (D := 1) (by norm_num) (by norm_num) exLattice_val, h1]
  intro k _
  rw [exLattice_val]
  fin_cases k <;> norm_num

end PyQC
