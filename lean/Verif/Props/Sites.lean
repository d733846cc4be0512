import Verif.Lemmas.Coset
import Verif.Props.Symmetry
import Mathlib.Algebra.BigOperators.Field
/-!
# C45 site symmetry, C46 cosets, C47 overlap helpers (dode2)
-/
namespace PyQC
open Matrix

/-! ## C47 -/

/-- C47: `remove_overlaps` returns the elements of the list, each once, in increasing order; there is
only one such list. -/
theorem C47_removeOverlaps (l : List Nat) :
    (∀ x, x ∈ Dode.removeOverlaps l ↔ x ∈ l) ∧ (Dode.removeOverlaps l).Pairwise (· < ·) ∧
      ∀ m : List Nat, m.Pairwise (· < ·) → (∀ x, x ∈ m ↔ x ∈ l) → m = Dode.removeOverlaps l :=
  ⟨fun _ => mem_removeOverlaps, removeOverlaps_sorted l, fun _ hm h =>
    sorted_ext hm (removeOverlaps_sorted l) fun x => (h x).trans mem_removeOverlaps.symm⟩

/-- C47: for duplicate-free lists `find_overlaps` is true exactly when they share an element. -/
theorem C47_findOverlaps (l₁ l₂ : List Nat) (h₁ : l₁.Nodup) (h₂ : l₂.Nodup) :
    Dode.findOverlaps l₁ l₂ = true ↔ ∃ x, x ∈ l₁ ∧ x ∈ l₂ := by
  rw [← Bool.not_eq_false, findOverlaps_false, List.nodup_append]
  constructor
  · intro h
    by_contra hne
    exact h ⟨h₁, h₂, by rintro x hx y hy rfl; exact hne ⟨x, hx, hy⟩⟩
  · rintro ⟨x, hx, hy⟩ ⟨-, -, h⟩
    exact h x hx x hy rfl

/-- C47: for arbitrary lists it is true exactly when the concatenation has a repeated element. -/
theorem C47_findOverlaps_any (l₁ l₂ : List Nat) :
    Dode.findOverlaps l₁ l₂ = true ↔ ¬ (l₁ ++ l₂).Nodup := by
  rw [← Bool.not_eq_false, findOverlaps_false]

example : Dode.removeOverlaps [3, 1, 3, 2, 1] = [1, 2, 3] := by decide +kernel
example : Dode.findOverlaps [3, 1] [2, 1] = true ∧ Dode.findOverlaps [3, 1] [2, 0] = false := by
  decide +kernel

/-! ## C45 -/

/-- C45: `site_symmetry` never raises; the returned indices are increasing and are exactly those of the
operations that bring the site back, up to distance 1e-6, after one of the listed translations. -/
theorem C45_membership (site : Vec 6) (ndim : Int) (h : Vec.Ok site) :
    ∃ l, Dode.siteSymmetry site ndim = .ok l ∧ l.Pairwise (· < ·) ∧
      ∀ i, i ∈ l ↔ i < 24 ∧ ∃ t : Fin 6 → Int, Listed ndim t ∧
        dist6 (Package.dode.val site)
          (fun k => applyMat (opAt i) (Package.dode.val site) k + t k) < 1 / 10 ^ 6 :=
  siteSymmetry_ok h ndim

theorem applyMat_one (x : Fin 6 → ℝ) : applyMat (npIdentity Int 6) x = x := by
  funext i
  simp [applyMat, npIdentity]

/-- C45: the identity (index 0) is always returned. -/
theorem C45_identity (site : Vec 6) (ndim : Int) (h : Vec.Ok site) :
    ∃ l, Dode.siteSymmetry site ndim = .ok l ∧ 0 ∈ l ∧ opAt 0 = npIdentity Int 6 := by
  obtain ⟨l, h1, -, h3⟩ := siteSymmetry_ok h ndim
  refine ⟨l, h1, (h3 0).mpr ⟨by norm_num, fun _ => 0, ⟨by simp, rfl, fun _ => rfl⟩, ?_⟩, opAt_zero⟩
  rw [opAt_zero, applyMat_one]
  simp [dist6, EPS]

theorem dist6_lt_eps {x y : Fin 6 → ℝ} {z : Fin 6 → Int} {D : Nat} (hD : 0 < D) (hD' : D ≤ 10 ^ 6)
    (h : ∀ k, x k - y k = z k / D) : dist6 x y < EPS ↔ ∀ k, z k = 0 := by
  have hDr : (0 : ℝ) < D := by exact_mod_cast hD
  have hDr' : (D : ℝ) ≤ 10 ^ 6 := by exact_mod_cast hD'
  constructor
  · intro hd k
    by_contra hz
    have h1 : (1 : ℝ) ≤ |(z k : ℝ)| := by exact_mod_cast Int.one_le_abs hz
    have h2 : |x k - y k| ≤ dist6 x y := by
      unfold dist6
      rw [← Real.sqrt_sq_eq_abs]
      apply Real.sqrt_le_sqrt
      exact Finset.single_le_sum (f := fun i => (x i - y i) ^ 2) (fun i _ => sq_nonneg _) (Finset.mem_univ k)
    rw [h, abs_div, abs_of_pos hDr] at h2
    have h3 : (1 : ℝ) / 10 ^ 6 ≤ |(z k : ℝ)| / D := by
      rw [div_le_div_iff₀ (by norm_num) hDr]
      nlinarith
    unfold EPS at hd
    linarith
  · intro hz
    have : dist6 x y = 0 := by
      unfold dist6
      simp [h, hz]
    rw [this]; norm_num [EPS]

/-- Rational sites with common denominator at most 10^6: membership in exact terms. -/
theorem siteSymmetry_rational {site : Vec 6} (h : Vec.Ok site) (ndim : Int) {n : Fin 6 → Int} {D : Nat}
    (hD : 0 < D) (hD' : D ≤ 10 ^ 6) (hn : ∀ k, Package.dode.val site k = n k / D) :
    ∃ l, Dode.siteSymmetry site ndim = .ok l ∧ l.Pairwise (· < ·) ∧
      ∀ i, i ∈ l ↔ i < 24 ∧ ∃ t : Fin 6 → Int, Listed ndim t ∧
        ∀ k, n k = (∑ j, opAt i k j * n j) + D * t k := by
  obtain ⟨l, h1, h2, h3⟩ := siteSymmetry_ok h ndim
  refine ⟨l, h1, h2, fun i => (h3 i).trans ?_⟩
  have hDr : (D : ℝ) ≠ 0 := by exact_mod_cast hD.ne'
  have key : ∀ t : Fin 6 → Int, dist6 (Package.dode.val site)
      (fun k => applyMat (opAt i) (Package.dode.val site) k + t k) < EPS ↔
        ∀ k, n k = (∑ j, opAt i k j * n j) + D * t k := by
    intro t
    rw [dist6_lt_eps (z := fun k => n k - ((∑ j, opAt i k j * n j) + D * t k)) hD hD']
    · exact forall_congr' fun k => sub_eq_zero
    · intro k
      simp only [applyMat, hn]
      push_cast
      rw [sub_div, add_div, mul_div_cancel_left₀ _ hDr, Finset.sum_div]
      congr 2
      apply Finset.sum_congr rfl
      intro j _
      ring
  exact and_congr_right fun _ => exists_congr fun t => and_congr_right fun _ => key t

theorem fixes_rational {site : Vec 6} {n : Fin 6 → Int} {D : Nat} (hD : 0 < D)
    (hn : ∀ k, Package.dode.val site k = n k / D) (M : IMat 6 6) :
    FixesModLattice M (Package.dode.val site) ↔
      ∃ t : Fin 6 → Int, ∀ k, n k = (∑ j, M k j * n j) + D * t k := by
  have hDr : (D : ℝ) ≠ 0 := by exact_mod_cast hD.ne'
  refine exists_congr fun t => funext_iff.trans (forall_congr' fun k => ?_)
  simp only [applyMat, hn]
  rw [show (n k = (∑ j, M k j * n j) + D * t k) ↔
    ((n k : ℝ) = (∑ j, (M k j : ℝ) * n j) + D * t k) by exact_mod_cast Iff.rfl]
  have e : ∑ j, (M k j : ℝ) * (n j / D) = (∑ j, (M k j : ℝ) * n j) / D := by
    rw [Finset.sum_div]; exact Finset.sum_congr rfl fun j _ => by ring
  rw [e, div_eq_iff hDr, add_mul, div_mul_cancel₀ _ hDr, mul_comm (t k : ℝ)]

/-- C45, soundness for rational sites with common denominator at most 10^6: every returned operation
fixes the site modulo the lattice exactly. -/
theorem C45_sound (site : Vec 6) (ndim : Int) (h : Vec.Ok site) (n : Fin 6 → Int) (D : Nat)
    (hD : 0 < D) (hD' : D ≤ 10 ^ 6) (hn : ∀ k, Package.dode.val site k = n k / D) :
    ∃ l, Dode.siteSymmetry site ndim = .ok l ∧
      ∀ i ∈ l, FixesModLattice (opAt i) (Package.dode.val site) := by
  obtain ⟨l, h1, -, h3⟩ := siteSymmetry_rational h ndim hD hD' hn
  refine ⟨l, h1, fun i hi => ?_⟩
  obtain ⟨-, t, -, ht⟩ := (h3 i).mp hi
  exact (fixes_rational hD hn _).mpr ⟨t, ht⟩

/-- Shape of the rows of the operations. -/
theorem rows_table : ∀ a ∈ dodeTable,
    (∀ i : Fin 6, i.val < 4 → ∃ j k : Fin 6, j.val < 4 ∧ k.val < 4 ∧
      ((∀ c, matOf a i c = if c = j then 1 else 0) ∨ (∀ c, matOf a i c = if c = j then -1 else 0) ∨
        (j ≠ k ∧ ∀ c, matOf a i c = if c = j then 1 else if c = k then -1 else 0))) ∧
    (∀ i : Fin 6, 4 ≤ i.val → ∀ c, matOf a i c = if c = i then 1 else 0) := by decide +kernel

theorem rows_opAt {i : Nat} (hi : i < 24) (n : Fin 6 → Int) :
    (∀ r : Fin 6, r.val < 4 → ∃ j k : Fin 6, j.val < 4 ∧ k.val < 4 ∧
      (∑ c, opAt i r c * n c = n j ∨ ∑ c, opAt i r c * n c = -n j ∨ ∑ c, opAt i r c * n c = n j - n k)) ∧
    (∀ r : Fin 6, 4 ≤ r.val → ∑ c, opAt i r c * n c = n r) := by
  have hl : i < dodeTable.length := hi
  obtain ⟨h1, h2⟩ := rows_table (dodeTable.getD i []) (by
    rw [List.getD_eq_getElem _ _ hl]; exact List.getElem_mem hl)
  rw [opAt_table hi]
  generalize matOf (dodeTable.getD i []) = A at h1 h2
  constructor
  · intro r hr
    obtain ⟨j, k, hj, hk, h⟩ := h1 r hr
    refine ⟨j, k, hj, hk, ?_⟩
    rcases h with h | h | ⟨hjk, h⟩
    · left; simp [h]
    · right; left; simp [h]
    · right; right
      have : ∀ c, A r c * n c =
          (if c = j then n c else 0) - (if c = k then n c else 0) := by
        intro c
        rw [h]
        by_cases h1 : c = j
        · subst h1; simp [hjk]
        · by_cases h2 : c = k
          · subst h2; simp [h1]
          · simp [h1, h2]
      simp only [this, Finset.sum_sub_distrib]
      simp
  · intro r hr
    simp [h2 r hr]

/-- C45, the full statement for reduced rational sites: if the site is rational with common denominator
at most 10^6, its first four coordinates are less than 1 in absolute value and differ by at most 1 from
one another (every site of the cells [0,1)^4 and [-1/2,1/2]^4 qualifies), the returned indices are
exactly the operations fixing the site modulo the 6D lattice, and they form a subgroup. Missing from the
full property: unreduced sites, for which it is false (`C45_fails_unreduced`), and irrational sites,
where only closeness is tested (`C45_membership`). -/
theorem C45_full_partial (site : Vec 6) (ndim : Int) (h : Vec.Ok site) (n : Fin 6 → Int) (D : Nat)
    (hD : 0 < D) (hD' : D ≤ 10 ^ 6) (hn : ∀ k, Package.dode.val site k = n k / D)
    (hcell : ∀ i : Fin 6, i.val < 4 → |Package.dode.val site i| < 1)
    (hdiff : ∀ i j : Fin 6, i.val < 4 → j.val < 4 →
      |Package.dode.val site i - Package.dode.val site j| ≤ 1) :
    ∃ l, Dode.siteSymmetry site ndim = .ok l ∧
      (∀ i, i ∈ l ↔ i < 24 ∧ FixesModLattice (opAt i) (Package.dode.val site)) ∧ IsSubgroup l := by
  obtain ⟨l, h1, h2, h3⟩ := siteSymmetry_rational h ndim hD hD' hn
  have hDr : (0 : ℝ) < D := by exact_mod_cast hD
  have hc : ∀ i : Fin 6, i.val < 4 → |n i| < D := by
    intro i hi
    have := hcell i hi
    rw [hn, abs_div, abs_of_pos hDr, div_lt_one hDr] at this
    exact_mod_cast this
  have hd : ∀ i j : Fin 6, i.val < 4 → j.val < 4 → |n i - n j| ≤ D := by
    intro i j hi hj
    have := hdiff i j hi hj
    rw [hn, hn, ← sub_div, abs_div, abs_of_pos hDr, div_le_one hDr] at this
    exact_mod_cast this
  have hmem : ∀ i, i ∈ l ↔ i < 24 ∧ FixesModLattice (opAt i) (Package.dode.val site) := by
    intro i
    rw [h3]
    refine and_congr_right fun hi => ?_
    rw [fixes_rational hD hn]
    constructor
    · rintro ⟨t, -, ht⟩
      exact ⟨t, ht⟩
    · rintro ⟨t, ht⟩
      refine ⟨t, ?_, ht⟩
      obtain ⟨r1, r2⟩ := rows_opAt hi n
      have hDi : (0 : Int) < D := by exact_mod_cast hD
      have hz : ∀ r : Fin 6, 4 ≤ r.val → t r = 0 := by
        intro r hr
        have := ht r
        rw [r2 r hr] at this
        have : (D : Int) * t r = 0 := by omega
        rcases mul_eq_zero.mp this with h | h
        · omega
        · exact h
      refine ⟨?_, hz 5 (by decide), fun _ => hz 4 (by decide)⟩
      intro r
      by_cases hr : r.val < 4
      · have hlt : |(D : Int) * t r| < D * 2 := by
          have e := ht r
          obtain ⟨j, k, hj, hk, hs⟩ := r1 r hr
          have a1 := abs_lt.mp (hc r hr)
          have a2 := abs_lt.mp (hc j hj)
          have a3 := abs_lt.mp (hc k hk)
          have b1 := abs_le.mp (hd r j hr hj)
          rw [abs_lt]
          rcases hs with hs | hs | hs <;> rw [hs] at e <;> constructor <;> omega
        rw [abs_mul, abs_of_pos hDi] at hlt
        have := abs_lt.mp (lt_of_mul_lt_mul_left hlt hDi.le)
        omega
      · right; left; exact hz r (by omega)
  refine ⟨l, h1, hmem, ?_, fun i hi => ((h3 i).mp hi).1, ?_, ?_⟩
  · exact h2.imp fun h => ne_of_lt h
  · refine (hmem 0).mpr ⟨by norm_num, fun _ => 0, ?_⟩
    rw [opAt_zero, applyMat_one]; simp
  · intro i hi j hj
    obtain ⟨vi, ti, ei⟩ := (hmem i).mp hi
    obtain ⟨vj, tj, ej⟩ := (hmem j).mp hj
    refine ⟨dmul i j, (hmem _).mpr ⟨dmul_lt i j, fun k => (∑ c, opAt i k c * tj c) + ti k, ?_⟩,
      opAt_mul vi vj⟩
    generalize Package.dode.val site = x at ei ej
    funext k
    have e1 := congrFun ei k
    have e2 : applyMat (opAt i) x k =
        applyMat (opAt (dmul i j)) x k + ∑ c, (opAt i k c : ℝ) * tj c := by
      conv_lhs => rw [ej]
      rw [← opAt_mul vi vj]
      simp only [applyMat, mul_add, Finset.sum_add_distrib]
      congr 1
      simp only [npDot_apply, Finset.mul_sum]
      push_cast
      simp only [Finset.sum_mul]
      rw [Finset.sum_comm]
      exact Finset.sum_congr rfl fun a _ => Finset.sum_congr rfl fun b _ => by ring
    rw [e1]
    show applyMat (opAt i) x k + ti k = _
    rw [e2]
    push_cast
    ring

/-! ## C46 -/

/-- C46: for every subgroup, given as a list of distinct indices in any order, the representatives are
distinct valid indices, start with the identity, every operation lies in exactly one coset
`representative · subgroup`, and the numbers multiply to 24. -/
theorem C46_coset (H : List Nat) (hH : IsSubgroup H) :
    ∃ l, Dode.cosetFrom H = .ok l ∧ l.head? = some 0 ∧ l.Nodup ∧ (∀ r ∈ l, r < 24) ∧
      l.length * H.length = 24 ∧
      ∀ g ∈ Dode.dodesymop, ∃! r, r ∈ l ∧ ∃ h ∈ H, g = npDot (opAt r) (opAt h) := by
  have hS := hH.sub
  obtain ⟨R, h1, h2, h3⟩ := hS.cosetFrom_ok
  have hn : ((0 :: R).flatMap fun r => H.map (dmul r)).Nodup := h2.nodup_iff.mpr List.nodup_range
  have hlt : ∀ r ∈ 0 :: R, r < 24 := by
    intro r hr
    rw [List.mem_cons] at hr
    rcases hr with rfl | hr
    · norm_num
    · exact (h3 r hr).1
  have hl := h2.length_eq
  rw [length_cosets, List.length_range] at hl
  rw [List.nodup_flatMap] at hn
  refine ⟨0 :: R, h1, rfl, ?_, hlt, hl, ?_⟩
  · refine List.Pairwise.imp_of_mem ?_ hn.2
    rintro a b ha - hd rfl
    exact hd (hS.mem_cos (hlt a ha)) (hS.mem_cos (hlt a ha))
  · intro g hg
    obtain ⟨k, hk⟩ := List.mem_iff_getElem?.mp hg
    have vk := get_lt hk
    have hgk : g = opAt k := (opAt_of_get hk).symm
    have hmem := h2.mem_iff.mpr (List.mem_range.mpr vk)
    obtain ⟨r, hr, hkr⟩ := List.mem_flatMap.mp hmem
    have conv : ∀ s ∈ 0 :: R, (∃ h ∈ H, g = npDot (opAt s) (opAt h)) ↔ k ∈ H.map (dmul s) := by
      intro s hs
      rw [List.mem_map]
      refine exists_congr fun h => and_congr_right fun hh => ?_
      rw [opAt_mul (hlt s hs) (hH.valid h hh), hgk]
      exact ⟨fun e => (opAt_inj vk (dmul_lt _ _) e).symm, fun e => by rw [e]⟩
    refine ⟨r, ⟨hr, (conv r hr).mpr hkr⟩, ?_⟩
    rintro s ⟨hs, hgs⟩
    rw [conv s hs] at hgs
    by_contra hne
    have hd : (0 :: R).Pairwise fun a b => a ≠ b →
        List.Disjoint (H.map (dmul a)) (H.map (dmul b)) :=
      List.Pairwise.imp (fun {a b} h (_ : a ≠ b) => h) hn.2
    have hd' : (0 :: R).Pairwise (flip fun a b => a ≠ b →
        List.Disjoint (H.map (dmul a)) (H.map (dmul b))) :=
      List.Pairwise.imp (fun {a b} h (_ : b ≠ a) => List.Disjoint.symm h) hn.2
    exact hd.forall_of_forall_of_flip (fun a _ h => absurd rfl h) hd' hs hr hne hgs hkr

/-- C46: consequently `coset` and `site_symmetry_and_coset` are correct on every reduced rational site:
representatives times site symmetries is 24 and the images of the site under the representatives are all
its images. -/
theorem C46_site (site : Vec 6) (ndim : Int) (h : Vec.Ok site) (n : Fin 6 → Int) (D : Nat)
    (hD : 0 < D) (hD' : D ≤ 10 ^ 6) (hn : ∀ k, Package.dode.val site k = n k / D)
    (hcell : ∀ i : Fin 6, i.val < 4 → |Package.dode.val site i| < 1)
    (hdiff : ∀ i j : Fin 6, i.val < 4 → j.val < 4 →
      |Package.dode.val site i - Package.dode.val site j| ≤ 1) :
    ∃ l r, Dode.siteSymmetryAndCoset site ndim = .ok (l, r) ∧ Dode.coset site ndim = .ok r ∧
      Dode.siteSymmetry site ndim = .ok l ∧ r.length * l.length = 24 ∧
      ∀ g ∈ Dode.dodesymop, ∃! q, q ∈ r ∧ ∃ h ∈ l, g = npDot (opAt q) (opAt h) := by
  obtain ⟨l, h1, -, h3⟩ := C45_full_partial site ndim h n D hD hD' hn hcell hdiff
  obtain ⟨r, k1, -, -, -, k5, k6⟩ := C46_coset l h3
  refine ⟨l, r, ?_, ?_, h1, k5, k6⟩
  · unfold Dode.siteSymmetryAndCoset; rw [h1, bind_ok', k1, bind_ok']
  · unfold Dode.coset; rw [h1, bind_ok', k1]

/-! ## Witnesses -/

/-- Computable form of the exact test for integer data. -/
def hitZ (ndim : Int) (n : Fin 6 → Int) (D : Int) (i : Nat) : Bool :=
  (List.finRange 6).all fun k =>
    let d := n k - ((List.finRange 6).map fun j => matOf (dodeTable.getD i []) k j * n j).sum
    d = 0 || (k ≠ 5 && !(ndim = 4 && k = 4) && (d = D || d = -D))

theorem siteSymmetry_compute {site : Vec 6} (h : Vec.Ok site) (ndim : Int) {n : Fin 6 → Int} {D : Nat}
    (hD : 0 < D) (hD' : D ≤ 10 ^ 6) (hn : ∀ k, Package.dode.val site k = n k / D) :
    Dode.siteSymmetry site ndim = .ok ((List.range 24).filter (hitZ ndim n D)) := by
  obtain ⟨l, h1, h2, h3⟩ := siteSymmetry_rational h ndim hD hD' hn
  rw [h1]
  congr 1
  apply sorted_ext h2 (List.pairwise_lt_range.filter _)
  intro i
  rw [h3, List.mem_filter, List.mem_range]
  refine and_congr_right fun hi => ?_
  have hDi : (0 : Int) < D := by exact_mod_cast hD
  have hs : ∀ k, ((List.finRange 6).map fun j => matOf (dodeTable.getD i []) k j * n j).sum =
      ∑ j, opAt i k j * n j := by
    intro k; rw [opAt_table hi, Fin.sum_univ_def]
  unfold hitZ
  simp only [List.all_eq_true, List.mem_finRange, true_implies, hs, Bool.or_eq_true, Bool.and_eq_true,
    decide_eq_true_eq, Bool.not_eq_true', Bool.and_eq_false_iff, decide_eq_false_iff_not]
  constructor
  · rintro ⟨t, ⟨t1, t2, t3⟩, ht⟩ k
    have e : n k - ∑ j, opAt i k j * n j = D * t k := by rw [ht k]; ring
    rw [e]
    rcases t1 k with h | h | h
    · right
      refine ⟨⟨?_, ?_⟩, .inr (by rw [h]; ring)⟩
      · rintro rfl; omega
      · by_cases hd : ndim = 4
        · right; rintro rfl; have := t3 hd; omega
        · left; exact hd
    · left; rw [h]; ring
    · right
      refine ⟨⟨?_, ?_⟩, .inl (by rw [h]; ring)⟩
      · rintro rfl; omega
      · by_cases hd : ndim = 4
        · right; rintro rfl; have := t3 hd; omega
        · left; exact hd
  · intro hk
    refine ⟨fun k => if n k - ∑ j, opAt i k j * n j = 0 then 0
      else if n k - ∑ j, opAt i k j * n j = D then 1 else -1, ⟨?_, ?_, ?_⟩, ?_⟩
    · intro k; simp only; split_ifs <;> simp
    · rcases hk 5 with h | h
      · simp only [h, if_true]
      · exact absurd rfl h.1.1
    · intro hd
      rcases hk 4 with h | h
      · simp only [h, if_true]
      · rcases h.1.2 with h | h
        · exact absurd hd h
        · exact absurd rfl h
    · intro k
      rcases hk k with h | ⟨-, h | h⟩
      · simp only [h, if_true]; omega
      · have : (D : Int) ≠ 0 := by omega
        simp only [h, this, if_false, if_true]; omega
      · have h0 : ¬ (-(D : Int) = 0) := by omega
        have h1 : ¬ (-(D : Int) = D) := by omega
        simp only [h, h0, h1, if_false]; omega

/-- The site (1,0,0,0,0,0), a lattice point. -/
def exLattice : Vec 6 := ![⟨1, 0, 1⟩, ⟨0, 0, 1⟩, ⟨0, 0, 1⟩, ⟨0, 0, 1⟩, ⟨0, 0, 1⟩, ⟨0, 0, 1⟩]
/-- The site (1/2,0,0,0,0,0). -/
def exHalf : Vec 6 := ![⟨1, 0, 2⟩, ⟨0, 0, 1⟩, ⟨0, 0, 1⟩, ⟨0, 0, 1⟩, ⟨0, 0, 1⟩, ⟨0, 0, 1⟩]

theorem exHalf_val (k : Fin 6) : Package.dode.val exHalf k = ((![1, 0, 0, 0, 0, 0] : Fin 6 → Int) k : ℝ) / (2 : Nat) := by
  fin_cases k <;> simp [Package.val, Vec.val, exHalf, Num3.val]

theorem exLattice_val (k : Fin 6) : Package.dode.val exLattice k = ((![1, 0, 0, 0, 0, 0] : Fin 6 → Int) k : ℝ) / (1 : Nat) := by
  fin_cases k <;> simp [Package.val, Vec.val, exLattice, Num3.val]

theorem siteSymmetry_exLattice : Dode.siteSymmetry exLattice 5 =
    .ok [0, 1, 2, 3, 5, 7, 8, 9, 10, 11, 12, 14, 16, 17, 18, 19, 20, 21, 22, 23] := by
  rw [siteSymmetry_compute (D := 1) (by decide) 5 (by norm_num) (by norm_num) exLattice_val]
  decide +kernel

/-- C45 is false without the reduction to a cell: for the lattice point (1,0,0,0,0,0) the inversion
(index 6) fixes the site modulo the lattice but is not returned. -/
theorem C45_fails_unreduced : Vec.Ok exLattice ∧
    ∃ l, Dode.siteSymmetry exLattice 5 = .ok l ∧
      FixesModLattice (opAt 6) (Package.dode.val exLattice) ∧ 6 ∉ l := by
  refine ⟨by decide, _, siteSymmetry_exLattice, ?_, by decide⟩
  rw [fixes_rational (D := 1) (by norm_num) exLattice_val]
  refine ⟨fun k => ![1, 0, 0, 0, 0, 0] k - ∑ j, opAt 6 k j * ![1, 0, 0, 0, 0, 0] j, fun k => ?_⟩
  push_cast; ring

theorem cosetFrom_table {H : List Nat} (hv : ∀ i ∈ H, i < 24) (L : List Nat)
    (hL : L = (List.range 24).filter fun i => decide (i ∉ H)) (hne : 24 ≠ H.length) :
    Dode.cosetFrom H = Dode.cosetLoop 24 H.length none (L.zip (L.map fun r => H.map (dmul r))) := by
  unfold Dode.cosetFrom
  simp only [show Dode.dodesymop.length = 24 from symops_length .dode]
  rw [if_neg hne, removeOverlaps_eq (List.pairwise_lt_range.filter _), ← hL,
    fillList_ok (g := fun r => H.map (dmul r)) (fun r hr => cosetOf_ok (by
      rw [hL] at hr; exact List.mem_range.mp (List.mem_filter.mp hr).1) hv), bind_ok']

/-- C46 is false for unreduced sites: for the lattice point (1,0,0,0,0,0) `site_symmetry_and_coset`
returns 20 operations and 2 representatives. -/
theorem C46_fails_unreduced : Vec.Ok exLattice ∧
    ∃ l r, Dode.siteSymmetryAndCoset exLattice 5 = .ok (l, r) ∧ r.length * l.length ≠ 24 := by
  refine ⟨by decide, [0, 1, 2, 3, 5, 7, 8, 9, 10, 11, 12, 14, 16, 17, 18, 19, 20, 21, 22, 23], [0, 13], ?_,
    by decide⟩
  unfold Dode.siteSymmetryAndCoset
  rw [siteSymmetry_exLattice, bind_ok', cosetFrom_table (by decide) [4, 6, 13, 15] (by decide) (by decide)]
  decide +kernel

example : Dode.siteSymmetry exHalf 5 = .ok [0, 6, 13, 19] := by
  rw [siteSymmetry_compute (D := 2) (by decide) 5 (by norm_num) (by norm_num) exHalf_val]
  decide +kernel

/-- The hypotheses of `C45_full_partial` and `C46_site` hold for (1/2,0,0,0,0,0). -/
example : Vec.Ok exHalf ∧ (∀ k, Package.dode.val exHalf k = ((![1, 0, 0, 0, 0, 0] : Fin 6 → Int) k : ℝ) / (2 : Nat)) ∧
    (∀ i : Fin 6, i.val < 4 → |Package.dode.val exHalf i| < 1) ∧
    (∀ i j : Fin 6, i.val < 4 → j.val < 4 → |Package.dode.val exHalf i - Package.dode.val exHalf j| ≤ 1) := by
  refine ⟨by decide, exHalf_val, ?_, ?_⟩
  · intro i hi
    rw [exHalf_val]
    fin_cases i <;> norm_num
  · intro i j hi hj
    rw [exHalf_val, exHalf_val]
    fin_cases i <;> fin_cases j <;> norm_num

/-- A subgroup of order 4 listed out of order. -/
example : IsSubgroup [19, 0, 13, 6] ∧ ∃ l, Dode.cosetFrom [19, 0, 13, 6] = .ok l ∧ l = [0, 1, 2, 3, 4, 5] := by
  refine ⟨⟨by decide, by decide, by decide, ?_⟩, _, ?_, rfl⟩
  · have h : ∀ i ∈ [19, 0, 13, 6], ∀ j ∈ [19, 0, 13, 6], dmul i j ∈ [19, 0, 13, 6] := by decide
    have hv : ∀ i ∈ [19, 0, 13, 6], i < 24 := by decide
    exact fun i hi j hj => ⟨_, h i hi j hj, opAt_mul (hv i hi) (hv j hj)⟩
  · rw [cosetFrom_table (by decide) [1, 2, 3, 4, 5, 7, 8, 9, 10, 11, 12, 14, 15, 16, 17, 18, 20, 21, 22, 23]
      (by decide) (by decide)]
    decide +kernel

end PyQC
