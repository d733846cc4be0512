import Verif.Lemmas.MachineVec
/-!
# Machine arithmetic on volumes
-/
namespace PyQC
open Machine

section
variable {d e A B A' B' N : Int}

theorem grid_outer_ico {v w : Vec 3} (hv : ∀ i, OnGrid d A B (v i)) (hw : ∀ i, OnGrid e A' B' (w i)) (hd : 0 < d) (he : 0 < e)
    (h1 : 8 * (A * A' + B * B') * (d * e) ≤ top) (h2 : 8 * (A * B' + B * A' + B * B') * (d * e) ≤ top)
    (h3 : 4 * (d * e) * (d * e) ≤ top) :
    Same (outerProduct (Machine.arith .ico) v w) (outerProduct PyQC.Ico.arith v w) fun r =>
      ∀ i, OnGrid (d * e) (2 * (A * A' + B * B')) (2 * (A * B' + B * A' + B * B')) (r i) := by
  obtain ⟨-, -, -, -, hA, hB⟩ := (hv 0).bounds hd
  obtain ⟨-, -, -, -, hA', hB'⟩ := (hw 0).bounds he
  have hde : 0 < d * e := mul_pos hd he
  have p1 : 0 ≤ A * A' + B * B' := by positivity
  have p2 : 0 ≤ A * B' + B * A' + B * B' := by positivity
  have hm : ∀ i j, Same ((Machine.arith .ico).mul (v i) (w j)) (PyQC.Ico.arith.mul (v i) (w j))
      (OnGrid (d * e) (A * A' + B * B') (A * B' + B * A' + B * B')) := by
    intro i j
    simp only [Machine.arith, PyQC.Ico.arith]
    exact grid_mul_ico (hv i) (hw j) hd he (by nlinarith) (by nlinarith) (by nlinarith)
  have hs : ∀ {x y : Num3}, OnGrid (d * e) (A * A' + B * B') (A * B' + B * A' + B * B') x →
      OnGrid (d * e) (A * A' + B * B') (A * B' + B * A' + B * B') y →
      Same ((Machine.arith .ico).sub x y) (PyQC.Ico.arith.sub x y)
        (OnGrid (d * e) (2 * (A * A' + B * B')) (2 * (A * B' + B * A' + B * B'))) := by
    intro x y hx hy
    have := grid_sub .ico hx hy hde (by linarith) (by linarith) h3
    exact this.mono fun r hr => hr.mono (by linarith) (by linarith)
  unfold outerProduct
  refine (hm 1 2).bind fun a _ ha => (hm 2 1).bind fun b _ hb => (hs ha hb).bind fun c1 _ g1 => ?_
  refine (hm 2 0).bind fun a _ ha => (hm 0 2).bind fun b _ hb => (hs ha hb).bind fun c2 _ g2 => ?_
  refine (hm 0 1).bind fun a _ ha => (hm 1 0).bind fun b _ hb => (hs ha hb).bind fun c3 _ g3 => ?_
  refine Same.pure' fun j => ?_
  fin_cases j
  exacts [g1, g2, g3]

theorem grid_inner_ico {v w : Vec 3} (hv : ∀ i, OnGrid d A B (v i)) (hw : ∀ i, OnGrid e A' B' (w i)) (hd : 0 < d) (he : 0 < e)
    (h1 : 3 * (A * A' + B * B') * (d * e) ≤ top) (h2 : 3 * (A * B' + B * A' + B * B') * (d * e) ≤ top)
    (h3 : d * e * (d * e) ≤ top) :
    Same (sumProducts (Machine.arith .ico) v w) (sumProducts PyQC.Ico.arith v w)
      (OnGrid (d * e) (3 * (A * A' + B * B')) (3 * (A * B' + B * A' + B * B'))) := by
  obtain ⟨-, -, -, -, hA, hB⟩ := (hv 0).bounds hd
  obtain ⟨-, -, -, -, hA', hB'⟩ := (hw 0).bounds he
  have hde : 0 < d * e := mul_pos hd he
  have p1 : 0 ≤ (A * A' + B * B') * (d * e) := by positivity
  have p2 : 0 ≤ (A * B' + B * A' + B * B') * (d * e) := by positivity
  have p3 : 0 ≤ A * A' + B * B' := by positivity
  have p4 : 0 ≤ A * B' + B * A' + B * B' := by positivity
  unfold sumProducts
  refine (Same.foldPy (l := List.finRange 3)
    (R := fun n b => OnGrid (d * e) (n * (A * A' + B * B')) (n * (A * B' + B * A' + B * B')) b) ?_
    (by simpa using zero_grid hde)).mono fun r hr => by simpa using hr
  intro n b hn hb j _
  have hn' : (n : Int) + 1 ≤ 3 := by rw [List.length_finRange] at hn; exact_mod_cast hn
  have hm : Same ((Machine.arith .ico).mul (v j) (w j)) (PyQC.Ico.arith.mul (v j) (w j))
      (OnGrid (d * e) (A * A' + B * B') (A * B' + B * A' + B * B')) := by
    simp only [Machine.arith, PyQC.Ico.arith]
    exact grid_mul_ico (hv j) (hw j) hd he (by nlinarith) (by nlinarith) (by nlinarith)
  refine hm.bind fun r _ hr => ?_
  refine (grid_add .ico hb hr hde ?_ ?_ h3).mono fun r hr => ?_
  · nlinarith
  · nlinarith
  · push_cast
    exact hr.mono (by linarith) (by linarith)

/-- Sizes that all steps of a volume need. -/
structure VolSizes (d N : Int) : Prop where
  d0 : 0 < d
  dN : d ≤ N
  cube : (N * d) ^ 3 ≤ 10 ^ 10

namespace VolSizes
variable (h : VolSizes d N)
include h

theorem x_le : N * d ≤ 2154 := by
  have h0 : 0 ≤ N * d := mul_nonneg (h.d0.le.trans h.dN) h.d0.le
  by_contra hc
  have : 2155 ≤ N * d := by omega
  have := pow_le_pow_left₀ (by norm_num) this 3
  have := h.cube
  norm_num at *
  linarith

theorem d_le : d ≤ 46 := by
  have h1 := h.x_le
  have := h.dN
  have := h.d0
  nlinarith

theorem N_le : N ≤ 2154 := by
  have h1 := h.x_le
  have := h.dN
  have := h.d0
  nlinarith

theorem sq_le : N * N * (d * d) ≤ 4640000 := by
  have h1 := h.x_le
  have h0 : 0 ≤ N * d := mul_nonneg (h.d0.le.trans h.dN) h.d0.le
  nlinarith

theorem cube_le : N * N * N * (d * d * d) ≤ 10000000000 := by
  have := h.cube
  norm_num at this
  linarith

end VolSizes

/-- A number `a + b τ` that is not zero is not small: its product with its conjugate is an integer. -/
theorem golden_gap {a b : Int} (h : (a : ℝ) + b * tau ≠ 0) : 1 ≤ |(a : ℝ) + b * tau| * (|(a : ℝ)| + 62 / 100 * |(b : ℝ)|) := by
  have hn : a * a + a * b - b * b ≠ 0 := by
    intro h0
    apply h
    have h1 : ((a : ℝ) + b * tau) * (a + b * (1 - tau)) = 0 := by
      have : ((a * a + a * b - b * b : Int) : ℝ) = 0 := by rw [h0]; simp
      push_cast at this
      linear_combination this - (b * b : ℝ) * tau_sq
    rcases mul_eq_zero.1 h1 with h2 | h2
    · exact h2
    · obtain ⟨e1, e2⟩ := irr_zero_int tau (p := a + b) (q := -b) (by push_cast; linear_combination h2)
      have hb : b = 0 := by omega
      have ha : a = 0 := by omega
      simp [ha, hb]
  have h1 : (1 : ℝ) ≤ |((a : ℝ) + b * tau) * (a + b * (1 - tau))| := by
    have e : ((a : ℝ) + b * tau) * (a + b * (1 - tau)) = ((a * a + a * b - b * b : Int) : ℝ) := by
      push_cast
      linear_combination -(b * b : ℝ) * tau_sq
    rw [e]
    exact_mod_cast Int.one_le_abs hn
  rw [abs_mul] at h1
  refine h1.trans (mul_le_mul_of_nonneg_left ?_ (abs_nonneg _))
  refine (abs_add_le _ _).trans (add_le_add_right ?_ _)
  rw [abs_mul, mul_comm]
  refine mul_le_mul_of_nonneg_right ?_ (abs_nonneg _)
  have t1 : tau ≤ 162 / 100 := by have := sqrt5_le; unfold tau; linarith
  have t2 : 1 ≤ tau := by
    have : (1 : ℝ) ≤ Real.sqrt 5 := by rw [Real.one_le_sqrt]; norm_num
    unfold tau; linarith
  rw [abs_le]
  constructor <;> linarith

open Classical in
theorem grid_volume (F : Float64) (hz : VolSizes d N) {vts : Fin 4 → Vec 3} (hv : ∀ i j, OnGrid d (4 * N) (6 * N) (vts i j))
    (hgap : N ≤ 6 ∨ ∀ r, PyQC.Ico.tetrahedronVolume vts = .ok r → r.val tau = 0 ∨ ((N : ℝ) / d) ^ 3 / (4 * 10 ^ 10) ≤ r.val tau) :
    Same (F.icoVolume vts) (PyQC.Ico.tetrahedronVolume vts) (OnGrid (6 * (d * d * d)) (55296 * (N * N * N)) (55296 * (N * N * N))) := by
  have hd := hz.d0
  have hN : 0 < N := hd.trans_le hz.dN
  have x1 := hz.x_le
  have x2 := hz.sq_le
  have x3 := hz.cube_le
  have x4 := hz.d_le
  have x5 := hz.N_le
  have etop : (top : Int) = 9007199254740992 := by norm_num [top]
  have d2 : d * d ≤ 2116 := by nlinarith
  have d3 : d * d * d ≤ 97336 := by nlinarith
  have d20 : 0 < d * d := by positivity
  have d30 : 0 < d * d * d := by positivity
  have N2 : N * N ≤ 4640000 := by nlinarith
  have N20 : 0 < N * N := by positivity
  have N30 : 0 < N * N * N := by positivity
  have N3 : N * N * N ≤ 10000000000 := by nlinarith
  have hsub : ∀ i j, Same (subVectors (Machine.arith .ico) (vts i) (vts j)) (subVectors PyQC.Ico.arith (vts i) (vts j)) fun r =>
      ∀ i, OnGrid d (8 * N) (12 * N) (r i) := by
    intro i j
    have := grid_subVectors .ico (hv i) (hv j) hd (by linarith) (by linarith) (by linarith) (by linarith)
      (by rw [etop]; linarith) (by rw [etop]; linarith) (by rw [etop]; linarith)
    exact this.mono fun r hr i => (hr i).mono (by linarith) (by linarith)
  unfold Float64.icoVolume
  have hex : PyQC.Ico.tetrahedronVolume vts = PyQC.Ico.tetrahedronVolume vts := rfl
  conv_rhs at hex => unfold PyQC.Ico.tetrahedronVolume
  rw [hex] at hgap ⊢
  clear hex
  refine (hsub 1 0).bind fun v1 e1 h1 => ?_
  simp only [e1, bind_ok'] at hgap
  refine (hsub 2 0).bind fun v2 e2 h2 => ?_
  simp only [e2, bind_ok'] at hgap
  refine (hsub 3 0).bind fun v3 e3 h3 => ?_
  simp only [e3, bind_ok'] at hgap
  refine (grid_outer_ico h1 h2 hd hd (by rw [etop]; linarith) (by rw [etop]; linarith) (by rw [etop]; nlinarith)).bind fun v e4 h4 => ?_
  simp only [e4, bind_ok'] at hgap
  have h4' : ∀ i, OnGrid (d * d) (416 * (N * N)) (672 * (N * N)) (v i) := fun i => (h4 i).mono (by linarith) (by linarith)
  have hin := grid_inner_ico h4' h3 d20 hd (by rw [etop]; linarith) (by rw [etop]; linarith) (by rw [etop]; nlinarith)
  obtain ⟨z, m1, m2, hz'⟩ := hin
  simp only [innerProduct, Fin.cast_refl, id_eq, dite_true, m1, m2, bind_ok', needSome] at hgap ⊢
  have hzg : OnGrid (d * d * d) (34176 * (N * N * N)) (55296 * (N * N * N)) z := hz'.mono (by linarith) (by linarith)
  clear hz' m1 m2
  obtain ⟨-, -, zc, zc0, -, -⟩ := hzg.bounds d30
  have fin : ∀ j : Int, |j| = 1 → Same (Machine.Ico.mul z ⟨j, 0, 6⟩) (PyQC.Ico.mul z ⟨j, 0, 6⟩)
      (OnGrid (6 * (d * d * d)) (55296 * (N * N * N)) (55296 * (N * N * N))) := by
    intro j hj
    have := (grid_mul_frac .ico hzg d30 (j := j) (k := 6) (by norm_num) (by rw [etop, hj]; linarith) (by rw [etop, hj]; linarith)
      (by rw [etop]; linarith)).1
    simp only [Machine.arith, Package.arith, PyQC.Ico.arith] at this
    refine this.mono fun r hr => ?_
    rw [hj, mul_comm (d * d * d)] at hr
    exact hr.mono (by linarith) (by linarith)
  by_cases hzero : z.val tau = 0
  · have hab : z.a = 0 ∧ z.b = 0 := by
      have hc' : (z.c : ℝ) ≠ 0 := by exact_mod_cast zc0
      unfold Num3.val at hzero
      rw [div_eq_zero_iff, or_iff_left hc'] at hzero
      exact irr_zero_int tau (p := z.a) (q := z.b) (by exact_mod_cast hzero)
    have hsame : PyQC.Ico.mul z ⟨-1, 0, 6⟩ = PyQC.Ico.mul z ⟨1, 0, 6⟩ := by
      simp [PyQC.Ico.mul, hab.1, hab.2]
    have f1 := fin 1 (by norm_num)
    have f2 := fin (-1) (by norm_num)
    rw [hsame] at f2
    rw [show (if Package.ico.isNeg z = true then PyQC.Ico.mul z ⟨-1, 0, 6⟩ else PyQC.Ico.mul z ⟨1, 0, 6⟩) =
      PyQC.Ico.mul z ⟨1, 0, 6⟩ by rw [hsame, ite_self]]
    split_ifs
    exacts [f2, f1]
  · have hdR : (0 : ℝ) < d := by exact_mod_cast hd
    have hNR : (0 : ℝ) < N := by exact_mod_cast hN
    have hr1 : 1 ≤ (N : ℝ) / d := by rw [le_div_iff₀ hdR, one_mul]; exact_mod_cast hz.dN
    have hr13 : 1 ≤ ((N : ℝ) / d) ^ 3 := one_le_pow₀ hr1
    have hgap' : 6 * (((N : ℝ) / d) ^ 3 / (4 * 10 ^ 10)) ≤ |z.val tau| := by
      have hL : Lawful PyQC.Ico.arith tau := Package.ico.lawful
      have hmul : ∀ j : Int, |j| = 1 → ∃ r, PyQC.Ico.mul z ⟨j, 0, 6⟩ = .ok r ∧ r.val tau = z.val tau * (j / 6) := by
        intro j hj
        refine ⟨_, hL.mul_ok zc0 (by norm_num), ?_⟩
        rw [val_norm]
        simp [kval, Num3.val]
      have hex : ∃ r, (if Package.ico.isNeg z = true then PyQC.Ico.mul z ⟨-1, 0, 6⟩ else PyQC.Ico.mul z ⟨1, 0, 6⟩) = .ok r ∧
          |r.val tau| = |z.val tau| / 6 := by
        split_ifs
        · obtain ⟨r, e, g⟩ := hmul (-1) (by norm_num)
          refine ⟨r, e, ?_⟩
          rw [g, abs_mul]; norm_num; ring
        · obtain ⟨r, e, g⟩ := hmul 1 (by norm_num)
          refine ⟨r, e, ?_⟩
          rw [g, abs_mul]; norm_num; ring
      obtain ⟨r, e, g⟩ := hex
      rcases hgap with hN6 | hgap
      · obtain ⟨a, b, ha, hb, hv⟩ := hzg.val d30 tau
        rw [hv] at hzero ⊢
        have hD : (0 : ℝ) < ((d * d * d : Int) : ℝ) := by exact_mod_cast d30
        have hne : (a : ℝ) + b * tau ≠ 0 := fun h0 => hzero (by rw [h0, zero_div])
        have hlow := golden_gap hne
        have haR : |(a : ℝ)| ≤ 34176 * (N * N * N) := by exact_mod_cast ha
        have hbR : |(b : ℝ)| ≤ 55296 * (N * N * N) := by exact_mod_cast hb
        have hN6R : (N : ℝ) ≤ 6 := by exact_mod_cast hN6
        have hN3 : (N : ℝ) * N * N ≤ 216 := by nlinarith [mul_pos hNR hNR]
        have hN30 : (0 : ℝ) < (N : ℝ) * N * N := by positivity
        rw [abs_div, abs_of_pos hD, le_div_iff₀ hD]
        have e : 6 * (((N : ℝ) / d) ^ 3 / (4 * 10 ^ 10)) * ((d * d * d : Int) : ℝ) = 6 * (N * N * N) / (4 * 10 ^ 10) := by
          push_cast; field_simp
        rw [e]
        have h0 : (0 : ℝ) < |(a : ℝ) + b * tau| := abs_pos.2 hne
        have h1 : 1 ≤ |(a : ℝ) + b * tau| * (68460 * (N * N * N)) :=
          hlow.trans (mul_le_mul_of_nonneg_left (by linarith) h0.le)
        rw [div_le_iff₀ (by norm_num)]
        by_contra hc
        rw [not_le] at hc
        have h2 : |(a : ℝ) + b * tau| * (68460 * (N * N * N)) * (4 * 10 ^ 10) < 6 * (N * N * N) * (68460 * (N * N * N)) := by
          have := mul_lt_mul_of_pos_right hc (show (0 : ℝ) < 68460 * (N * N * N) by positivity)
          linarith
        have h3 : (N : ℝ) * N * N * (N * N * N) ≤ 46656 := by nlinarith
        linarith
      rcases hgap r e with h | h
      · rw [h] at g
        have : |z.val tau| = 0 := by simp at g; linarith
        exact absurd (abs_eq_zero.1 this) hzero
      · have := h.trans (le_abs_self _)
        linarith
    have happ : Approx (144768 * ((N : ℝ) / d) ^ 3) (812 / 100) (F.numericValue z) (z.val tau) := by
      refine numericValue_approx' F (by linarith) ?_ zc0 ?_ ?_
      · have : (N : ℝ) / d ≤ 2154 := by
          rw [div_le_iff₀ hdR]
          have h1 : (N : ℝ) ≤ 2154 := by exact_mod_cast x5
          have h2 : (1 : ℝ) ≤ d := by exact_mod_cast hd
          nlinarith
        have := pow_le_pow_left₀ (by linarith) this 3
        linarith
      · have : |z.c| ≤ 97336 := zc.trans d3
        have : |(z.c : ℝ)| ≤ 97336 := by exact_mod_cast this
        linarith
      · obtain ⟨k, k1, k2, k3⟩ := hzg
        have hk0 : k ≠ 0 := by rintro rfl; simp at k1; omega
        have hk : (0 : ℝ) < |(k : ℝ)| := abs_pos.2 (by exact_mod_cast hk0)
        have k2' : |(z.a : ℝ)| * |(k : ℝ)| ≤ 34176 * (N * N * N) := by rw [← abs_mul]; exact_mod_cast k2
        have k3' : |(z.b : ℝ)| * |(k : ℝ)| ≤ 55296 * (N * N * N) := by rw [← abs_mul]; exact_mod_cast k3
        have k1' : |(z.c : ℝ)| * |(k : ℝ)| = d * d * d := by
          rw [← abs_mul, ← abs_of_pos (show (0 : ℝ) < d * d * d by positivity)]
          congr 1
          exact_mod_cast k1
        have e : ((N : ℝ) / d) ^ 3 * (d * d * d) = N * N * N := by field_simp
        refine le_of_mul_le_mul_right ?_ hk
        calc (|(z.a : ℝ)| + 2 * |(z.b : ℝ)|) * |(k : ℝ)| ≤ 144768 * (N * N * N) := by linarith
          _ = 144768 * ((N : ℝ) / d) ^ 3 * |(z.c : ℝ)| * |(k : ℝ)| := by rw [mul_assoc (144768 * _), k1', ← e]; ring
    have herr := happ.err
    have hu : 812 / 100 * ulp * (144768 * ((N : ℝ) / d) ^ 3) < 6 * (((N : ℝ) / d) ^ 3 / (4 * 10 ^ 10)) := by
      have : 812 / 100 * ulp * 144768 < 6 / (4 * 10 ^ 10) := by unfold ulp; norm_num
      have := mul_lt_mul_of_pos_right this (show 0 < ((N : ℝ) / d) ^ 3 by positivity)
      linarith
    have hiff : F.numericValue z < 0 ↔ Package.ico.isNeg z = true := by
      rw [Package.isNeg_iff .ico zc0]
      change _ ↔ z.val tau < 0
      have hlt := lt_of_le_of_lt herr (lt_of_lt_of_le hu hgap')
      constructor
      · intro h
        by_contra hc
        rw [abs_of_nonneg (not_lt.1 hc), abs_lt] at hlt
        linarith [hlt.1]
      · intro h
        rw [abs_of_neg h, abs_lt] at hlt
        linarith [hlt.2]
    by_cases hn : F.numericValue z < 0
    · rw [if_pos hn, if_pos (hiff.1 hn)]
      exact fin (-1) (by norm_num)
    · rw [if_neg hn, if_neg (fun h => hn (hiff.2 h))]
      exact fin 1 (by norm_num)

theorem VecOnGrid.ok {n : Nat} {v : Vec n} (h : VecOnGrid d N v) (hd : 0 < d) : Vec.Ok v := fun i => ((h i).bounds hd).2.2.2.1

theorem grid_volume6d (F : Float64) (hz : VolSizes d N) {t : Simplex 4} (ht : ∀ i, VecOnGrid d N (t i))
    (hgap : N ≤ 6 ∨ tetVol (Package.ico.perps t) = 0 ∨ ((N : ℝ) / d) ^ 3 / (4 * 10 ^ 10) ≤ tetVol (Package.ico.perps t)) :
    Same (F.icoVolume6d t) (PyQC.Ico.tetrahedronVolume6d t)
      (OnGrid (6 * (d * d * d)) (55296 * (N * N * N)) (55296 * (N * N * N))) := by
  have hd := hz.d0
  have hex : ∀ r, PyQC.Ico.tetrahedronVolume6d t = .ok r → r.val tau = tetVol (Package.ico.perps t) := by
    intro r hr
    rw [tetrahedronVolume6d_ok fun i => (ht i).ok hd] at hr
    cases hr
    rw [← coe_kvol]
    exact val_norm _
  have x1 := hz.x_le
  have x4 := hz.d_le
  have etop : (top : Int) = 9007199254740992 := by norm_num [top]
  unfold Float64.icoVolume6d
  unfold PyQC.Ico.tetrahedronVolume6d at hex ⊢
  refine (Same.fillFin fun i => grid_projection_ico (ht i) hd (by rw [etop]; linarith) (by rw [etop]; nlinarith)).bind fun vts e hv => ?_
  rw [e, bind_ok'] at hex
  refine grid_volume F hz hv ?_
  rcases hgap with h | h
  · exact Or.inl h
  · refine Or.inr fun r hr => ?_
    rw [hex r hr]
    exact h

theorem grid_sumVolumes (F : Float64) {o : Obj 4} (hd : 0 < d) (hdN : d ≤ N) (hn : o.length * (N * d) ^ 3 ≤ 10 ^ 10)
    (ho : ObjOnGrid d N o)
    (hgap : N ≤ 6 ∨ ∀ s ∈ o, tetVol (Package.ico.perps s) = 0 ∨ ((N : ℝ) / d) ^ 3 / (4 * 10 ^ 10) ≤ tetVol (Package.ico.perps s)) :
    Same (F.sumVolumes ⟨0, 0, 1⟩ o) (PyQC.Ico.sumVolumes ⟨0, 0, 1⟩ o) fun _ => True := by
  have d30 : 0 < 6 * (d * d * d) := by positivity
  have hN : 0 < N := hd.trans_le hdN
  have hx : 0 < (N * d) ^ 3 := by positivity
  have etop : (top : Int) = 9007199254740992 := by norm_num [top]
  unfold Float64.sumVolumes PyQC.Ico.sumVolumes
  refine (Same.foldPy (l := o)
    (R := fun n b => OnGrid (6 * (d * d * d)) (n * (55296 * (N * N * N))) (n * (55296 * (N * N * N))) b) ?_
    (by simpa using zero_grid d30)).mono fun _ _ => trivial
  intro n b hnl hb s hs
  have hn1 : (n : Int) + 1 ≤ o.length := by exact_mod_cast hnl
  have hz : VolSizes d N := ⟨hd, hdN, by nlinarith⟩
  have e : PyQC.Ico.asTetra s = .ok s := by simp [PyQC.Ico.asTetra]
  refine Same.bind (P := fun t => t = s) ⟨s, e, e, rfl⟩ fun t _ ht => ?_
  rw [ht]
  refine (grid_volume6d F hz (ho s hs) (hgap.imp_right fun h => h s hs)).bind fun v _ hv => ?_
  have x4 := hz.d_le
  have d2 : d * d ≤ 2116 := by nlinarith
  have d20 : 0 < d * d := by positivity
  have d3 : d * d * d ≤ 97336 := by nlinarith
  have key : (n * (55296 * (N * N * N)) + 55296 * (N * N * N)) * (6 * (d * d * d)) ≤ top := by
    have : (n * (55296 * (N * N * N)) + 55296 * (N * N * N)) * (6 * (d * d * d)) = 331776 * ((n + 1) * (N * d) ^ 3) := by ring
    rw [this, etop]
    have := mul_le_mul_of_nonneg_right hn1 hx.le
    linarith
  have := grid_add .ico hb hv d30 key key (by rw [etop]; nlinarith)
  simp only [Machine.arith, Package.arith, PyQC.Ico.arith] at this
  refine this.mono fun r hr => ?_
  push_cast
  exact hr.mono (by linarith) (by linarith)

/-! ## Areas -/

theorem grid_crossz_dode {v w : Vec 3} (hv : ∀ i, OnGrid d A B (v i)) (hw : ∀ i, OnGrid e A' B' (w i)) (hd : 0 < d) (he : 0 < e)
    (h1 : 8 * (4 * A * A' + 3 * B * B') * (4 * d * e) ≤ top) (h2 : 8 * (4 * (A * B' + B * A')) * (4 * d * e) ≤ top)
    (h3 : 4 * (4 * d * e) * (4 * d * e) ≤ top) :
    Same (outerProduct (Machine.arith .dode) v w) (outerProduct PyQC.Dode.arith v w) fun r =>
      ∀ i, OnGrid (4 * d * e) (2 * (4 * A * A' + 3 * B * B')) (2 * (4 * (A * B' + B * A'))) (r i) := by
  obtain ⟨-, -, -, -, hA, hB⟩ := (hv 0).bounds hd
  obtain ⟨-, -, -, -, hA', hB'⟩ := (hw 0).bounds he
  have hde : 0 < 4 * d * e := by positivity
  have p1 : 0 ≤ 4 * A * A' + 3 * B * B' := by positivity
  have p2 : 0 ≤ 4 * (A * B' + B * A') := by positivity
  have hm : ∀ i j, Same ((Machine.arith .dode).mul (v i) (w j)) (PyQC.Dode.arith.mul (v i) (w j))
      (OnGrid (4 * d * e) (4 * A * A' + 3 * B * B') (4 * (A * B' + B * A'))) := by
    intro i j
    simp only [Machine.arith, PyQC.Dode.arith]
    exact grid_mul_dode (hv i) (hw j) hd he (by nlinarith) (by nlinarith) (by nlinarith)
  have hs : ∀ {x y : Num3}, OnGrid (4 * d * e) (4 * A * A' + 3 * B * B') (4 * (A * B' + B * A')) x →
      OnGrid (4 * d * e) (4 * A * A' + 3 * B * B') (4 * (A * B' + B * A')) y →
      Same ((Machine.arith .dode).sub x y) (PyQC.Dode.arith.sub x y)
        (OnGrid (4 * d * e) (2 * (4 * A * A' + 3 * B * B')) (2 * (4 * (A * B' + B * A')))) := by
    intro x y hx hy
    have := grid_sub .dode hx hy hde (by linarith) (by linarith) h3
    exact this.mono fun r hr => hr.mono (by linarith) (by linarith)
  unfold outerProduct
  refine (hm 1 2).bind fun a _ ha => (hm 2 1).bind fun b _ hb => (hs ha hb).bind fun c1 _ g1 => ?_
  refine (hm 2 0).bind fun a _ ha => (hm 0 2).bind fun b _ hb => (hs ha hb).bind fun c2 _ g2 => ?_
  refine (hm 0 1).bind fun a _ ha => (hm 1 0).bind fun b _ hb => (hs ha hb).bind fun c3 _ g3 => ?_
  refine Same.pure' fun j => ?_
  fin_cases j
  exacts [g1, g2, g3]

theorem sqrt3_le : Real.sqrt 3 ≤ 174 / 100 := by
  rw [Real.sqrt_le_left (by norm_num)]; norm_num

theorem SIN_approx (F : Float64) : Approx (87 / 100) (203 / 100) F.SIN sin60 := by
  have h1 : Approx (174 / 100) 0 (Real.sqrt 3) (Real.sqrt 3) :=
    .exact (by rw [abs_of_nonneg (Real.sqrt_nonneg _)]; exact sqrt3_le) (by norm_num)
  have h2 := h1.fl F (le_900' (by norm_num)) (by norm_num)
  have h3 := (h2.divConst 2 (by norm_num) (by norm_num)).fl F (le_900' (by norm_num)) (by norm_num)
  have e : sin60 = Real.sqrt 3 / 2 := rfl
  rw [e]
  refine h3.of (by norm_num) ?_ (by norm_num) (by norm_num)
  rw [abs_of_nonneg (by positivity)]
  have := sqrt3_le
  linarith

/-- The computed `a + b sin 60°`. -/
theorem sinValue_approx (F : Float64) {R : ℝ} (hR : 1 ≤ R) (hR2 : R ≤ 2 ^ 60) {a b : Int}
    (ha : |(a : ℝ)| + |(b : ℝ)| ≤ R) :
    Approx (2 * R) 6 (F.fl (F.fl a + F.fl (F.fl b * F.SIN))) (a + b * sin60) := by
  have a0 := abs_nonneg (a : ℝ)
  have b0 := abs_nonneg (b : ℝ)
  have ha1 : Approx R (0 + 101 / 100) (F.fl a) a :=
    (Approx.exact (by linarith) (by linarith)).fl F (le_900' (hR2.trans (by norm_num))) (by norm_num)
  have hb1 : Approx R (0 + 101 / 100) (F.fl b) b :=
    (Approx.exact (by linarith) (by linarith)).fl F (le_900' (hR2.trans (by norm_num))) (by norm_num)
  have hp := (hb1.mul (SIN_approx F) (by linarith) (by norm_num)).fl F (le_900' (by linarith)) (by norm_num)
  have hs := ((ha1.mono (l := 0 + 101 / 100 + 203 / 100 + 1 / 100 + 101 / 100) (by norm_num) (by norm_num)).add hp).fl F
    (le_900' (by linarith)) (by norm_num)
  refine hs.of (by linarith) ?_ (by linarith) (by norm_num)
  exact hs.abs.trans (by linarith)

/-- A number `a + b sin 60°` that is not zero is not small. -/
theorem sin_gap {a b : Int} (h : (a : ℝ) + b * sin60 ≠ 0) : 1 ≤ 4 * (|(a : ℝ) + b * sin60| * (|(a : ℝ)| + |(b : ℝ)|)) := by
  have hn : 4 * (a * a) - 3 * (b * b) ≠ 0 := by
    intro h0
    apply h
    have h1 : ((a : ℝ) + b * sin60) * (a - b * sin60) = 0 := by
      have : ((4 * (a * a) - 3 * (b * b) : Int) : ℝ) = 0 := by rw [h0]; simp
      push_cast at this
      linear_combination this / 4 - (b * b : ℝ) * sin60_sq
    rcases mul_eq_zero.1 h1 with h2 | h2
    · exact h2
    · obtain ⟨e1, e2⟩ := irr_zero_int sin60 (p := a) (q := -b) (by push_cast; linear_combination h2)
      have hb : b = 0 := by omega
      simp [e1, hb]
  have h1 : (1 : ℝ) ≤ |4 * (((a : ℝ) + b * sin60) * (a - b * sin60))| := by
    have e : 4 * (((a : ℝ) + b * sin60) * (a - b * sin60)) = ((4 * (a * a) - 3 * (b * b) : Int) : ℝ) := by
      push_cast
      linear_combination -(4 * b * b : ℝ) * sin60_sq
    rw [e]
    exact_mod_cast Int.one_le_abs hn
  rw [abs_mul, abs_mul, abs_of_pos (show (0 : ℝ) < 4 by norm_num)] at h1
  refine h1.trans (mul_le_mul_of_nonneg_left (mul_le_mul_of_nonneg_left ?_ (abs_nonneg _)) (by norm_num))
  refine (abs_sub _ _).trans (add_le_add_right ?_ _)
  rw [abs_mul]
  have t1 : |sin60| ≤ 1 := by
    have e : sin60 = Real.sqrt 3 / 2 := rfl
    rw [e, abs_of_nonneg (by positivity)]
    have := sqrt3_le
    linarith
  nlinarith [abs_nonneg (b : ℝ)]

/-- Sizes that all steps of an area need. -/
structure AreaSizes (d N : Int) : Prop where
  d0 : 0 < d
  dN : d ≤ N
  square : (N * d) ^ 2 ≤ 6 * 10 ^ 9

namespace AreaSizes
variable (h : AreaSizes d N)
include h

theorem x_le : N * d ≤ 77459 := by
  have h0 : 0 ≤ N * d := mul_nonneg (h.d0.le.trans h.dN) h.d0.le
  by_contra hc
  have : 77460 ≤ N * d := by omega
  have := pow_le_pow_left₀ (by norm_num) this 2
  have := h.square
  norm_num at *
  linarith

theorem d_le : d ≤ 278 := by
  have h1 := h.x_le
  have := h.dN
  have := h.d0
  nlinarith

theorem N_le : N ≤ 77459 := by
  have h1 := h.x_le
  have := h.dN
  have := h.d0
  nlinarith

theorem sq_le : N * N * (d * d) ≤ 6000000000 := by
  have := h.square
  norm_num at this
  linarith

end AreaSizes

open Classical in
theorem grid_area (F : Float64) (hz : AreaSizes d N) {vts : Fin 3 → Vec 3} (hv : ∀ i j, OnGrid (4 * d) (9 * N) (10 * N) (vts i j))
    (hgap : N ≤ 34 ∨ ∀ r, PyQC.Dode.triangleArea vts = .ok r → r.val sin60 = 0 ∨ ((N : ℝ) / d) ^ 2 / (8 * 10 ^ 12) ≤ r.val sin60) :
    Same (F.dodeArea vts) (PyQC.Dode.triangleArea vts) (OnGrid (128 * (d * d)) (5760 * (N * N)) (5760 * (N * N))) := by
  have hd := hz.d0
  have hN : 0 < N := hd.trans_le hz.dN
  have x1 := hz.x_le
  have x2 := hz.sq_le
  have x4 := hz.d_le
  have x5 := hz.N_le
  have etop : (top : Int) = 9007199254740992 := by norm_num [top]
  have d2 : d * d ≤ 77284 := by nlinarith
  have d20 : 0 < d * d := by positivity
  have d30 : 0 < 64 * (d * d) := by positivity
  have d40 : 0 < 4 * d := by positivity
  have N2 : N * N ≤ 6000000000 := by nlinarith
  have N20 : 0 < N * N := by positivity
  have hsub : ∀ i j, Same (subVectors (Machine.arith .dode) (vts i) (vts j)) (subVectors PyQC.Dode.arith (vts i) (vts j)) fun r =>
      ∀ i, OnGrid (4 * d) (18 * N) (20 * N) (r i) := by
    intro i j
    have := grid_subVectors .dode (hv i) (hv j) d40 (by linarith) (by linarith) (by linarith) (by linarith)
      (by rw [etop]; linarith) (by rw [etop]; linarith) (by rw [etop]; linarith)
    exact this.mono fun r hr i => (hr i).mono (by linarith) (by linarith)
  unfold Float64.dodeArea
  have hex : PyQC.Dode.triangleArea vts = PyQC.Dode.triangleArea vts := rfl
  conv_rhs at hex => unfold PyQC.Dode.triangleArea
  rw [hex] at hgap ⊢
  clear hex
  refine (hsub 1 0).bind fun v1 e1 h1 => ?_
  simp only [e1, bind_ok'] at hgap
  refine (hsub 2 0).bind fun v2 e2 h2 => ?_
  simp only [e2, bind_ok'] at hgap
  refine (grid_crossz_dode h1 h2 d40 d40 (by rw [etop]; linarith) (by rw [etop]; linarith) (by rw [etop]; nlinarith)).bind fun v e4 h4 => ?_
  simp only [e4, bind_ok'] at hgap
  have hzg : OnGrid (64 * (d * d)) (4992 * (N * N)) (5760 * (N * N)) (v 2) := by
    have := (h4 2).mono (A' := 4992 * (N * N)) (B' := 5760 * (N * N)) (by linarith) (by linarith)
    rwa [show 4 * (4 * d) * (4 * d) = 64 * (d * d) by ring] at this
  clear h4 e4
  generalize v 2 = z at hzg hgap ⊢
  obtain ⟨-, -, zc, zc0, -, -⟩ := hzg.bounds d30
  have fin : ∀ j : Int, |j| = 1 → Same (Machine.Dode.mul z ⟨j, 0, 2⟩) (PyQC.Dode.mul z ⟨j, 0, 2⟩)
      (OnGrid (128 * (d * d)) (5760 * (N * N)) (5760 * (N * N))) := by
    intro j hj
    have := (grid_mul_frac .dode hzg d30 (j := j) (k := 2) (by norm_num) (by rw [etop, hj]; linarith) (by rw [etop, hj]; linarith)
      (by rw [etop]; linarith)).1
    simp only [Machine.arith, Package.arith, PyQC.Dode.arith] at this
    refine this.mono fun r hr => ?_
    rw [hj, show 64 * (d * d) * 2 = 128 * (d * d) by ring] at hr
    exact hr.mono (by linarith) (by linarith)
  have hc' : (z.c : ℝ) ≠ 0 := by exact_mod_cast zc0
  have hc0 : (0 : ℝ) < |(z.c : ℝ)| := abs_pos.2 hc'
  have hc1 : (1 : ℝ) ≤ |(z.c : ℝ)| := by exact_mod_cast Int.one_le_abs zc0
  by_cases hzero : (z.a : ℝ) + z.b * sin60 = 0
  · have hab : z.a = 0 ∧ z.b = 0 := irr_zero_int sin60 (p := z.a) (q := z.b) (by exact_mod_cast hzero)
    have hsame : PyQC.Dode.mul z ⟨-1, 0, 2⟩ = PyQC.Dode.mul z ⟨1, 0, 2⟩ := by
      simp [PyQC.Dode.mul, hab.1, hab.2]
    have f1 := fin 1 (by norm_num)
    have f2 := fin (-1) (by norm_num)
    rw [hsame] at f2
    rw [show (if Package.dode.negNum z.a z.b = true then PyQC.Dode.mul z ⟨-1, 0, 2⟩ else PyQC.Dode.mul z ⟨1, 0, 2⟩) =
      PyQC.Dode.mul z ⟨1, 0, 2⟩ by rw [hsame, ite_self]]
    split_ifs
    exacts [f2, f1]
  · have hdR : (0 : ℝ) < d := by exact_mod_cast hd
    have hNR : (0 : ℝ) < N := by exact_mod_cast hN
    have hr1 : 1 ≤ (N : ℝ) / d := by rw [le_div_iff₀ hdR, one_mul]; exact_mod_cast hz.dN
    have hr12 : 1 ≤ ((N : ℝ) / d) ^ 2 := one_le_pow₀ hr1
    obtain ⟨k, k1, k2, k3⟩ := id hzg
    have hk0 : k ≠ 0 := by rintro rfl; simp at k1; omega
    have hk : (0 : ℝ) < |(k : ℝ)| := abs_pos.2 (by exact_mod_cast hk0)
    have k2' : |(z.a : ℝ)| * |(k : ℝ)| ≤ 4992 * (N * N) := by rw [← abs_mul]; exact_mod_cast k2
    have k3' : |(z.b : ℝ)| * |(k : ℝ)| ≤ 5760 * (N * N) := by rw [← abs_mul]; exact_mod_cast k3
    have k1' : |(z.c : ℝ)| * |(k : ℝ)| = 64 * (d * d) := by
      rw [← abs_mul, ← abs_of_pos (show (0 : ℝ) < 64 * (d * d) by positivity)]
      congr 1
      exact_mod_cast k1
    have er : ((N : ℝ) / d) ^ 2 * (d * d) = N * N := by field_simp
    have hsum : |(z.a : ℝ)| + |(z.b : ℝ)| ≤ 168 * ((N : ℝ) / d) ^ 2 * |(z.c : ℝ)| := by
      refine le_of_mul_le_mul_right ?_ hk
      calc (|(z.a : ℝ)| + |(z.b : ℝ)|) * |(k : ℝ)| ≤ 10752 * (N * N) := by linarith
        _ = 168 * ((N : ℝ) / d) ^ 2 * |(z.c : ℝ)| * |(k : ℝ)| := by rw [mul_assoc (168 * _), k1', ← er]; ring
    have hgap' : 2 * (((N : ℝ) / d) ^ 2 / (8 * 10 ^ 12)) * |(z.c : ℝ)| ≤ |(z.a : ℝ) + z.b * sin60| := by
      rcases hgap with hN6 | hgap
      · have hlow := sin_gap hzero
        have h0 : (0 : ℝ) < |(z.a : ℝ) + z.b * sin60| := abs_pos.2 hzero
        have hN6R : (N : ℝ) ≤ 34 := by exact_mod_cast hN6
        have hN2 : (N : ℝ) * N ≤ 1156 := by nlinarith
        have hN20 : (0 : ℝ) < (N : ℝ) * N := by positivity
        have hk1 : (1 : ℝ) ≤ |(k : ℝ)| := by exact_mod_cast Int.one_le_abs hk0
        refine le_of_mul_le_mul_right ?_ hk
        have e1 : 2 * (((N : ℝ) / d) ^ 2 / (8 * 10 ^ 12)) * |(z.c : ℝ)| * |(k : ℝ)| = 128 * (N * N) / (8 * 10 ^ 12) := by
          rw [mul_assoc, k1', ← er]; ring
        rw [e1, div_le_iff₀ (by norm_num)]
        have hp : |(z.a : ℝ) + z.b * sin60| * (|(z.a : ℝ)| + |(z.b : ℝ)|) * |(k : ℝ)| ≤
            |(z.a : ℝ) + z.b * sin60| * (10752 * (N * N)) := by
          rw [mul_assoc]
          exact mul_le_mul_of_nonneg_left (by linarith) h0.le
        have h1 : |(k : ℝ)| ≤ 4 * (|(z.a : ℝ) + z.b * sin60| * (10752 * (N * N))) := by
          have := mul_le_mul_of_nonneg_right hlow hk.le
          linarith
        by_contra hc
        rw [not_le] at hc
        have h3 : (N : ℝ) * N * (N * N) ≤ 1336336 := by nlinarith
        have h4 : |(z.a : ℝ) + z.b * sin60| * |(k : ℝ)| * (8 * 10 ^ 12) * (43008 * (N * N)) <
            128 * (N * N) * (43008 * (N * N)) := mul_lt_mul_of_pos_right hc (by positivity)
        have h5 : |(k : ℝ)| * |(k : ℝ)| * (8 * 10 ^ 12) ≤
            4 * (|(z.a : ℝ) + z.b * sin60| * (10752 * (N * N))) * |(k : ℝ)| * (8 * 10 ^ 12) :=
          mul_le_mul_of_nonneg_right (mul_le_mul_of_nonneg_right h1 hk.le) (by norm_num)
        nlinarith
      · have hL : Lawful PyQC.Dode.arith sin60 := Package.dode.lawful
        have hmul : ∀ j : Int, |j| = 1 → ∃ r, PyQC.Dode.mul z ⟨j, 0, 2⟩ = .ok r ∧ r.val sin60 = z.val sin60 * (j / 2) := by
          intro j hj
          refine ⟨_, hL.mul_ok zc0 (by norm_num), ?_⟩
          rw [val_norm]
          simp [kval, Num3.val]
        have hex : ∃ r, (if Package.dode.negNum z.a z.b = true then PyQC.Dode.mul z ⟨-1, 0, 2⟩ else PyQC.Dode.mul z ⟨1, 0, 2⟩) = .ok r ∧
            |r.val sin60| = |z.val sin60| / 2 := by
          split_ifs
          · obtain ⟨r, e, g⟩ := hmul (-1) (by norm_num)
            refine ⟨r, e, ?_⟩
            rw [g, abs_mul]; norm_num; ring
          · obtain ⟨r, e, g⟩ := hmul 1 (by norm_num)
            refine ⟨r, e, ?_⟩
            rw [g, abs_mul]; norm_num; ring
        obtain ⟨r, e, g⟩ := hex
        have hval : |z.val sin60| * |(z.c : ℝ)| = |(z.a : ℝ) + z.b * sin60| := by
          unfold Num3.val
          rw [abs_div]
          field_simp
        rcases hgap r e with h | h
        · rw [h] at g
          have : |z.val sin60| = 0 := by simp at g; linarith
          rw [this, zero_mul] at hval
          exact absurd (abs_eq_zero.1 hval.symm) hzero
        · have := h.trans (le_abs_self _)
          rw [← hval]
          exact mul_le_mul_of_nonneg_right (by linarith) hc0.le
    have hR1 : 1 ≤ 168 * ((N : ℝ) / d) ^ 2 * |(z.c : ℝ)| := by nlinarith
    have happ := sinValue_approx F hR1 (by
      have hNd : ((N : ℝ) / d) ^ 2 * |(z.c : ℝ)| ≤ 64 * (N * N) := by
        have : |(z.c : ℝ)| ≤ 64 * (d * d) := by exact_mod_cast zc
        have := mul_le_mul_of_nonneg_left this (show 0 ≤ ((N : ℝ) / d) ^ 2 by positivity)
        linarith
      have : (N : ℝ) * N ≤ 6000000000 := by exact_mod_cast N2
      linarith) hsum
    have herr := happ.err
    have hu : 6 * ulp * (2 * (168 * ((N : ℝ) / d) ^ 2 * |(z.c : ℝ)|)) < 2 * (((N : ℝ) / d) ^ 2 / (8 * 10 ^ 12)) * |(z.c : ℝ)| := by
      have : 6 * ulp * 336 < 2 / (8 * 10 ^ 12) := by unfold ulp; norm_num
      have := mul_lt_mul_of_pos_right this (show 0 < ((N : ℝ) / d) ^ 2 * |(z.c : ℝ)| by positivity)
      linarith
    have hiff : F.fl (F.fl z.a + F.fl (F.fl z.b * F.SIN)) < 0 ↔ Package.dode.negNum z.a z.b = true := by
      rw [Package.negNum_iff]
      change _ ↔ (z.a : ℝ) + z.b * sin60 < 0
      have hlt := lt_of_le_of_lt herr (lt_of_lt_of_le hu hgap')
      constructor
      · intro h
        by_contra hc
        rw [abs_of_nonneg (not_lt.1 hc), abs_lt] at hlt
        linarith [hlt.1]
      · intro h
        rw [abs_of_neg h, abs_lt] at hlt
        linarith [hlt.2]
    by_cases hn : F.fl (F.fl z.a + F.fl (F.fl z.b * F.SIN)) < 0
    · rw [if_pos hn, if_pos (hiff.1 hn)]
      exact fin (-1) (by norm_num)
    · rw [if_neg hn, if_neg (fun h => hn (hiff.2 h))]
      exact fin 1 (by norm_num)

theorem grid_area6d (F : Float64) (hz : AreaSizes d N) {t : Simplex 3} (ht : ∀ i, VecOnGrid d N (t i))
    (hgap : N ≤ 34 ∨ triAreaXY (Package.dode.perps t) = 0 ∨ ((N : ℝ) / d) ^ 2 / (8 * 10 ^ 12) ≤ triAreaXY (Package.dode.perps t)) :
    Same (F.dodeArea6d t) (PyQC.Dode.triangleArea6d t) (OnGrid (128 * (d * d)) (5760 * (N * N)) (5760 * (N * N))) := by
  have hd := hz.d0
  have hex : ∀ r, PyQC.Dode.triangleArea6d t = .ok r → r.val sin60 = triAreaXY (Package.dode.perps t) := by
    intro r hr
    rw [triangleArea6d_ok fun i => (ht i).ok hd] at hr
    cases hr
    rw [← coe_karea]
    exact val_norm _
  have x1 := hz.x_le
  have x4 := hz.d_le
  have etop : (top : Int) = 9007199254740992 := by norm_num [top]
  unfold Float64.dodeArea6d
  unfold PyQC.Dode.triangleArea6d at hex ⊢
  refine (Same.fillFin fun i => grid_projection_dode (ht i) hd (by rw [etop]; linarith) (by rw [etop]; nlinarith)).bind fun vts e hv => ?_
  rw [e, bind_ok'] at hex
  refine grid_area F hz hv ?_
  rcases hgap with h | h
  · exact Or.inl h
  · refine Or.inr fun r hr => ?_
    rw [hex r hr]
    exact h

theorem grid_sumAreas (F : Float64) {o : Obj 3} (hd : 0 < d) (hdN : d ≤ N) (hn : o.length * (N * d) ^ 2 ≤ 6 * 10 ^ 9)
    (ho : ObjOnGrid d N o)
    (hgap : N ≤ 34 ∨ ∀ s ∈ o, triAreaXY (Package.dode.perps s) = 0 ∨
      ((N : ℝ) / d) ^ 2 / (8 * 10 ^ 12) ≤ triAreaXY (Package.dode.perps s)) :
    Same (F.sumAreas ⟨0, 0, 1⟩ o) (PyQC.Dode.sumAreas ⟨0, 0, 1⟩ o) fun _ => True := by
  have d30 : 0 < 128 * (d * d) := by positivity
  have hN : 0 < N := hd.trans_le hdN
  have hx : 0 < (N * d) ^ 2 := by positivity
  have etop : (top : Int) = 9007199254740992 := by norm_num [top]
  unfold Float64.sumAreas PyQC.Dode.sumAreas
  refine (Same.foldPy (l := o)
    (R := fun n b => OnGrid (128 * (d * d)) (n * (5760 * (N * N))) (n * (5760 * (N * N))) b) ?_
    (by simpa using zero_grid d30)).mono fun _ _ => trivial
  intro n b hnl hb s hs
  have hn1 : (n : Int) + 1 ≤ o.length := by exact_mod_cast hnl
  have hz : AreaSizes d N := ⟨hd, hdN, by nlinarith⟩
  have e : PyQC.Dode.asTriangle s = .ok s := by simp [PyQC.Dode.asTriangle]
  refine Same.bind (P := fun t => t = s) ⟨s, e, e, rfl⟩ fun t _ ht => ?_
  rw [ht]
  refine (grid_area6d F hz (ho s hs) (hgap.imp_right fun h => h s hs)).bind fun v _ hv => ?_
  have x4 := hz.d_le
  have d2 : d * d ≤ 77284 := by nlinarith
  have d20 : 0 < d * d := by positivity
  have key : (n * (5760 * (N * N)) + 5760 * (N * N)) * (128 * (d * d)) ≤ top := by
    have : (n * (5760 * (N * N)) + 5760 * (N * N)) * (128 * (d * d)) = 737280 * ((n + 1) * (N * d) ^ 2) := by ring
    rw [this, etop]
    have := mul_le_mul_of_nonneg_right hn1 hx.le
    linarith
  have := grid_add .dode hb hv d30 key key (by rw [etop]; nlinarith)
  simp only [Machine.arith, Package.arith, PyQC.Dode.arith] at this
  refine this.mono fun r hr => ?_
  push_cast
  exact hr.mono (by linarith) (by linarith)

end
end PyQC
