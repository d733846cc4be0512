import Verif.Lemmas.MachineGrid
import Verif.Lemmas.RoundingPoints
/-!
# Machine arithmetic on vectors, projections and volumes
-/
namespace PyQC
open Machine

section
variable {d A B A' B' N : Int} {n : Nat}

theorem grid_addVectors (p : Package) {v w : Vec n} (hv : ∀ i, OnGrid d A B (v i)) (hw : ∀ i, OnGrid d A' B' (w i))
    (hd : 0 < d) (h1 : (A + A') * d ≤ top) (h2 : (B + B') * d ≤ top) (h3 : d * d ≤ top) :
    Same (addVectors (Machine.arith p) v w) (addVectors p.arith v w) fun r => ∀ i, OnGrid d (A + A') (B + B') (r i) :=
  Same.fillFin fun i => grid_add p (hv i) (hw i) hd h1 h2 h3

theorem grid_subVectors (p : Package) {v w : Vec n} (hv : ∀ i, OnGrid d A B (v i)) (hw : ∀ i, OnGrid d A' B' (w i))
    (hd : 0 < d) (hA : 0 ≤ A) (hB : 0 ≤ B) (hA' : 0 ≤ A') (hB' : 0 ≤ B') (h1 : 4 * (A + A') * d ≤ top)
    (h2 : 4 * (B + B') * d ≤ top) (h3 : 4 * d * d ≤ top) :
    Same (subVectors (Machine.arith p) v w) (subVectors p.arith v w) fun r => ∀ i, OnGrid d (A + A') (B + B') (r i) := by
  have hd1 : 1 ≤ d := hd
  have b1 : 0 ≤ (A + A') * d := mul_nonneg (by linarith) hd.le
  have b2 : 0 ≤ (B + B') * d := mul_nonneg (by linarith) hd.le
  refine Same.bind (P := fun r : Vec n => ∀ i, OnGrid d A' B' (r i))
    (Same.fillFin fun i => (grid_neg p (hw i) hd ?_ ?_ ?_).1) fun r _ hr => grid_addVectors p hv hr hd ?_ ?_ ?_
  · nlinarith
  · nlinarith
  · nlinarith
  · linarith
  · linarith
  · nlinarith

/-! ## Projection -/

theorem m_grid : OnGrid 1 0 0 Ico.m0 ∧ OnGrid 1 1 0 Ico.m1 ∧ OnGrid 1 1 0 Ico.m2 ∧ OnGrid 1 0 1 Ico.m3 ∧
    OnGrid 1 0 1 Ico.m4 := by
  refine ⟨⟨1, ?_⟩, ⟨1, ?_⟩, ⟨1, ?_⟩, ⟨1, ?_⟩, ⟨1, ?_⟩⟩ <;> decide

/-- A row of the projection: six products and five sums. -/
theorem grid_row (p : Package) {m1 m2 m3 m4 m5 m6 : Num3} {v : Vec 6} {e T U a1 a2 a3 a4 a5 a6 b1 b2 b3 b4 b5 b6 : Int}
    (h1 : Same ((Machine.arith p).mul m1 (v 0)) (p.arith.mul m1 (v 0)) (OnGrid e a1 b1))
    (h2 : Same ((Machine.arith p).mul m2 (v 1)) (p.arith.mul m2 (v 1)) (OnGrid e a2 b2))
    (h3 : Same ((Machine.arith p).mul m3 (v 2)) (p.arith.mul m3 (v 2)) (OnGrid e a3 b3))
    (h4 : Same ((Machine.arith p).mul m4 (v 3)) (p.arith.mul m4 (v 3)) (OnGrid e a4 b4))
    (h5 : Same ((Machine.arith p).mul m5 (v 4)) (p.arith.mul m5 (v 4)) (OnGrid e a5 b5))
    (h6 : Same ((Machine.arith p).mul m6 (v 5)) (p.arith.mul m6 (v 5)) (OnGrid e a6 b6))
    (he : 0 < e) (hT : a1 + a2 + a3 + a4 + a5 + a6 ≤ T) (hU : b1 + b2 + b3 + b4 + b5 + b6 ≤ U)
    (hTe : T * e ≤ top) (hUe : U * e ≤ top) (hee : e * e ≤ top) :
    Same (mtrixcal (Machine.arith p) m1 m2 m3 m4 m5 m6 v) (mtrixcal p.arith m1 m2 m3 m4 m5 m6 v) (OnGrid e T U) := by
  unfold mtrixcal
  refine h1.bind fun x1 _ g1 => h2.bind fun x2 _ g2 => h3.bind fun x3 _ g3 => h4.bind fun x4 _ g4 =>
    h5.bind fun x5 _ g5 => h6.bind fun x6 _ g6 => ?_
  obtain ⟨-, -, -, -, p1, q1⟩ := g1.bounds he
  obtain ⟨-, -, -, -, p2, q2⟩ := g2.bounds he
  obtain ⟨-, -, -, -, p3, q3⟩ := g3.bounds he
  obtain ⟨-, -, -, -, p4, q4⟩ := g4.bounds he
  obtain ⟨-, -, -, -, p5, q5⟩ := g5.bounds he
  obtain ⟨-, -, -, -, p6, q6⟩ := g6.bounds he
  have key : ∀ {x y : Int}, x ≤ y → y * e ≤ top → x * e ≤ top := fun h g =>
    (mul_le_mul_of_nonneg_right h he.le).trans g
  refine (grid_add p g1 g2 he (key (by linarith) hTe) (key (by linarith) hUe) hee).bind fun y2 _ s2 => ?_
  refine (grid_add p s2 g3 he (key (by linarith) hTe) (key (by linarith) hUe) hee).bind fun y3 _ s3 => ?_
  refine (grid_add p s3 g4 he (key (by linarith) hTe) (key (by linarith) hUe) hee).bind fun y4 _ s4 => ?_
  refine (grid_add p s4 g5 he (key (by linarith) hTe) (key (by linarith) hUe) hee).bind fun y5 _ s5 => ?_
  exact (grid_add p s5 g6 he (key (by linarith) hTe) (key (by linarith) hUe) hee).mono fun r hr => hr.mono hT hU

theorem grid_projection_ico {v : Vec 6} (hv : VecOnGrid d N v) (hd : 0 < d) (h1 : 6 * N * d ≤ top) (h2 : d * d ≤ top) :
    Same (Machine.projection3 .ico v) (PyQC.Ico.projection3 v) fun r => ∀ j, OnGrid d (4 * N) (6 * N) (r j) := by
  have hN : 0 ≤ N := ((hv 0).bounds hd).2.2.2.2.1
  have hd1 : 1 ≤ d := hd
  have hNd : 0 ≤ N * d := mul_nonneg hN hd.le
  have c1 : 6 * N ≤ top := by nlinarith
  have c2 : d ≤ top := by nlinarith
  have c3 : 4 * N * d ≤ top := by linarith
  have hmul : ∀ {m : Num3} {a b : Int} (i : Fin 6), OnGrid 1 a b m → a * N + b * N ≤ top → a * N + b * N + b * N ≤ top →
      Same ((Machine.arith .ico).mul m (v i)) (Package.ico.arith.mul m (v i)) (OnGrid d (a * N + b * N) (a * N + b * N + b * N)) := by
    intro m a b i hm h1 h2
    have := grid_mul_ico hm (hv i) one_pos hd h1 h2 (by rw [one_mul]; exact c2)
    rw [one_mul] at this
    simp only [Machine.arith, Package.arith, PyQC.Ico.arith]
    exact this
  obtain ⟨g0, g1, g2, g3, g4⟩ := m_grid
  have k0 := fun i => hmul i g0 (by linarith) (by linarith)
  have k1 := fun i => hmul i g1 (by linarith) (by linarith)
  have k2 := fun i => hmul i g2 (by linarith) (by linarith)
  have k3 := fun i => hmul i g3 (by linarith) (by linarith)
  have k4 := fun i => hmul i g4 (by linarith) (by linarith)
  refine (grid_row .ico (k3 0) (k2 1) (k2 2) (k0 3) (k4 4) (k0 5) hd (T := 4 * N) (U := 6 * N) (by linarith) (by linarith)
    c3 h1 h2).bind fun x1 _ s1 => ?_
  refine (grid_row .ico (k2 0) (k0 1) (k0 2) (k3 3) (k2 4) (k3 5) hd (T := 4 * N) (U := 6 * N) (by linarith) (by linarith)
    c3 h1 h2).bind fun x2 _ s2 => ?_
  refine (grid_row .ico (k0 0) (k3 1) (k4 2) (k1 3) (k0 4) (k2 5) hd (T := 4 * N) (U := 6 * N) (by linarith) (by linarith)
    c3 h1 h2).bind fun x3 _ s3 => ?_
  refine Same.pure' fun j => ?_
  fin_cases j
  exacts [s1, s2, s3]

theorem M_grid : OnGrid 1 0 1 Dode.M6 := ⟨1, by decide⟩

theorem grid_projection_dode {v : Vec 6} (hv : VecOnGrid d N v) (hd : 0 < d) (h1 : 40 * N * d ≤ top) (h2 : 16 * d * d ≤ top) :
    Same (Machine.projection3 .dode v) (PyQC.Dode.projection3 v) fun r => ∀ j, OnGrid (4 * d) (9 * N) (10 * N) (r j) := by
  have hN : 0 ≤ N := ((hv 0).bounds hd).2.2.2.2.1
  have hd1 : 1 ≤ d := hd
  have hNd : 0 ≤ N * d := mul_nonneg hN hd.le
  have c1 : 40 * N ≤ top := by nlinarith
  have c2 : 16 * d ≤ top := by nlinarith
  have he : 0 < 4 * d := by linarith
  have k6 : ∀ i, Same ((Machine.arith .dode).mul Dode.M6 (v i)) (Package.dode.arith.mul Dode.M6 (v i)) (OnGrid (4 * d) (3 * N) (4 * N)) := by
    intro i
    have := grid_mul_dode M_grid (hv i) one_pos hd (by linarith) (by linarith) (by linarith)
    simp only [Machine.arith, Package.arith, PyQC.Dode.arith]
    refine this.mono fun r hr => ?_
    rw [mul_one] at hr
    exact hr.mono (by linarith) (by linarith)
  have frac : ∀ (j k : Int) (i : Fin 6), |j| ≤ 1 → (k = 1 ∨ k = 2) →
      Same ((Machine.arith .dode).mul ⟨j, 0, k⟩ (v i)) (Package.dode.arith.mul ⟨j, 0, k⟩ (v i))
        (OnGrid (d * k) (N * |j|) (N * |j|)) := by
    intro j k i hj hk
    have hj0 := abs_nonneg j
    refine (grid_mul_frac .dode (hv i) hd (by omega) ?_ ?_ ?_).2
    · nlinarith
    · nlinarith
    · rcases hk with rfl | rfl <;> linarith
  have k0 : ∀ i, Same ((Machine.arith .dode).mul Dode.M0 (v i)) (Package.dode.arith.mul Dode.M0 (v i)) (OnGrid (4 * d) 0 0) := by
    intro i
    refine (frac 0 1 i (by norm_num) (Or.inl rfl)).mono fun r hr => ?_
    have := hr.expand (n := 4) (by norm_num)
    simpa [mul_comm] using this
  have k1 : ∀ i, Same ((Machine.arith .dode).mul Dode.M1 (v i)) (Package.dode.arith.mul Dode.M1 (v i)) (OnGrid (4 * d) (4 * N) (4 * N)) := by
    intro i
    refine (frac 1 1 i (by norm_num) (Or.inl rfl)).mono fun r hr => ?_
    have := hr.expand (n := 4) (by norm_num)
    simpa [mul_comm] using this
  have k4 : ∀ i, Same ((Machine.arith .dode).mul Dode.M4 (v i)) (Package.dode.arith.mul Dode.M4 (v i)) (OnGrid (4 * d) (2 * N) (2 * N)) := by
    intro i
    refine (frac (-1) 2 i (by norm_num) (Or.inr rfl)).mono fun r hr => ?_
    have := hr.expand (n := 2) (by norm_num)
    have e : d * 2 * 2 = 4 * d := by ring
    rw [e] at this
    exact this.mono (by norm_num; linarith) (by norm_num; linarith)
  have c3 : 9 * N * (4 * d) ≤ top := by linarith
  have c4 : 10 * N * (4 * d) ≤ top := by linarith
  have c5 : 4 * d * (4 * d) ≤ top := by linarith
  refine (grid_row .dode (k6 0) (k1 1) (k0 2) (k4 3) (k0 4) (k0 5) he (T := 9 * N) (U := 10 * N) (by linarith) (by linarith)
    c3 c4 c5).bind fun x1 _ s1 => ?_
  refine (grid_row .dode (k4 0) (k0 1) (k1 2) (k6 3) (k0 4) (k0 5) he (T := 9 * N) (U := 10 * N) (by linarith) (by linarith)
    c3 c4 c5).bind fun x2 _ s2 => ?_
  refine (grid_row .dode (k0 0) (k0 1) (k0 2) (k0 3) (k0 4) (k1 5) he (T := 9 * N) (U := 10 * N) (by linarith) (by linarith)
    c3 c4 c5).bind fun x3 _ s3 => ?_
  refine Same.pure' fun j => ?_
  fin_cases j
  exacts [s1, s2, s3]

/-! ## Symmetry operations -/

theorem reduceFloat_eq {c1 c2 c3 : Int} (h1 : |c1| ≤ 2 ^ 53) (h2 : |c2| ≤ 2 ^ 53) (h3 : |c3| ≤ 2 ^ 53) :
    reduceFloat c1 c2 c3 = PyQC.reduce3 c1 c2 c3 := by
  rw [← reduce3_eq h1 h2 h3]
  unfold reduceFloat Machine.reduce3 trueDiv
  simp only [trunc_int, wrap64_small (isInt64_of_abs h1), wrap64_small (isInt64_of_abs h2), wrap64_small (isInt64_of_abs h3),
    toFloat64_int h1, toFloat64_int h2, toFloat64_int h3]

theorem fmul_int {z y : Int} (hy : |y| ≤ 2 ^ 53) (h : |z * y| ≤ 2 ^ 53) : fmul z y = ((z * y : Int) : ℚ) := by
  unfold fmul
  rw [toFloat64_int hy, ← toFloat64_int h]
  push_cast
  rfl

theorem mulFloat_same (p : Package) {x : Num3} (hx : OnGrid d A B x) (hd : 0 < d) {z : Int} (hz : |z| ≤ 1) (h1 : 4 * A ≤ top)
    (h2 : 4 * B ≤ top) (h3 : 4 * d ≤ top) :
    Same (mulFloat p z x) (p.arith.mul ⟨z, 0, 1⟩ x) (OnGrid d A B) := by
  obtain ⟨xa, xb, xc, xc0, hA, hB⟩ := hx.bounds hd
  have hz0 := abs_nonneg z
  have key : mulFloat p z x = p.arith.mul ⟨z, 0, 1⟩ x := by
    have t : ∀ {y M : Int}, |y| ≤ M → 4 * M ≤ top → |y| ≤ 2 ^ 53 ∧ |z * y| ≤ 2 ^ 53 ∧ |4 * (z * y)| ≤ 2 ^ 53 ∧ |4 * y| ≤ 2 ^ 53 := by
      intro y M hy hM
      have hy0 := abs_nonneg y
      have e : |z * y| ≤ |y| := by rw [abs_mul]; nlinarith
      have e4 : ∀ w : Int, |4 * w| = 4 * |w| := fun w => by rw [abs_mul]; norm_num
      have : (top : Int) = 2 ^ 53 := rfl
      refine ⟨by linarith, by linarith, by rw [e4]; linarith, by rw [e4]; linarith⟩
    obtain ⟨a1, a2, a3, -⟩ := t xa h1
    obtain ⟨b1, b2, b3, -⟩ := t xb h2
    obtain ⟨c1, -, -, c4⟩ := t xc h3
    have f0 : ∀ {y : Int}, |y| ≤ 2 ^ 53 → fmul 0 y = 0 := by
      intro y hy
      have := fmul_int (z := 0) hy (by simp)
      simpa using this
    have f1 : fmul 1 x.c = (x.c : ℚ) := by
      have := fmul_int (z := 1) c1 (by simpa using c1)
      simpa using this
    cases p
    · simp only [mulFloat, Package.arith, PyQC.Ico.arith, PyQC.Ico.mul, fmul_int a1 a2, fmul_int b1 b2, f0 a1, f0 b1, f1, add_zero,
        toFloat64_int a2, toFloat64_int b2]
      rw [reduceFloat_eq a2 b2 c1]
      congr 1 <;> ring
    · have g4 : toFloat64 (4 * 1) = ((4 : Int) : ℚ) := by
        have := toFloat64_int (z := 4) (by norm_num)
        simpa using this
      have g4z : toFloat64 (4 * (z : ℚ)) = ((4 * z : Int) : ℚ) := by
        have := toFloat64_int (z := 4 * z) (by rw [abs_mul]; norm_num; linarith)
        push_cast at this ⊢
        exact this
      have g0 : toFloat64 (3 * 0) = 0 := by
        have := toFloat64_int (z := 0) (by norm_num)
        simpa using this
      have a3' : |4 * z * x.a| ≤ 2 ^ 53 := by rw [mul_assoc]; exact a3
      have gb : toFloat64 (4 * ((z * x.b : Int) : ℚ)) = ((4 * (z * x.b) : Int) : ℚ) := by
        have := toFloat64_int b3
        push_cast at this ⊢
        exact this
      simp only [mulFloat, Package.arith, PyQC.Dode.arith, PyQC.Dode.mul, g4, g4z, g0, fmul_int a1 a3', fmul_int b1 b2, f0 a1, f0 b1,
        fmul_int c1 c4, add_zero, toFloat64_int a3', toFloat64_int b2, gb]
      rw [reduceFloat_eq a3' b3 c4]
      congr 1 <;> ring
  rw [key]
  have := (grid_mul_frac p hx hd (j := z) (k := 1) one_pos (by nlinarith) (by nlinarith) (by linarith)).2
  obtain ⟨r, -, e, hr⟩ := this
  refine ⟨r, e, e, ?_⟩
  rw [mul_one] at hr
  exact hr.mono (by nlinarith) (by nlinarith)

theorem zero_grid (_hd : 0 < d) : OnGrid d 0 0 ⟨0, 0, 1⟩ := ⟨d, by simp⟩

theorem grid_dotProduct1 (p : Package) {s t : Nat} {M : IMat s t} {v : Vec t} (hM : ∀ i j, |M i j| ≤ 1)
    (hv : ∀ i, OnGrid d A B (v i)) (hd : 0 < d) (ht : 4 ≤ t) (h1 : t * A * d ≤ top) (h2 : t * B * d ≤ top) (h3 : 4 * d * d ≤ top) :
    Same (Machine.dotProduct1 p M v) (PyQC.dotProduct1 p.arith M v) fun r => ∀ i, OnGrid d (t * A) (t * B) (r i) := by
  have hA : 0 ≤ A := ((hv ⟨0, by omega⟩).bounds hd).2.2.2.2.1
  have hB : 0 ≤ B := ((hv ⟨0, by omega⟩).bounds hd).2.2.2.2.2
  have hd1 : 1 ≤ d := hd
  have ht' : (4 : Int) ≤ t := by exact_mod_cast ht
  have hAd : 0 ≤ A * d := mul_nonneg hA hd.le
  have hBd : 0 ≤ B * d := mul_nonneg hB hd.le
  refine Same.fillFin fun k => ?_
  unfold sumProducts
  have := Same.foldPy (f := fun a j => mulFloat p (M k j) (v j) >>= fun b => (Machine.arith p).add a b)
    (g := fun a j => p.arith.mul ⟨M k j, 0, 1⟩ (v j) >>= fun b => p.arith.add a b)
    (R := fun n b => OnGrid d (n * A) (n * B) b) (l := List.finRange t) ?_ (b := ⟨0, 0, 1⟩) (by simpa using zero_grid hd)
  · simpa using this
  · intro n b hn hb j _
    have hn' : ((n + 1 : Nat) : Int) ≤ t := by rw [List.length_finRange] at hn; exact_mod_cast hn
    push_cast at hn'
    refine (mulFloat_same p (hv j) hd (hM k j) ?_ ?_ ?_).bind fun r _ hr => ?_
    · nlinarith
    · nlinarith
    · nlinarith
    · have := grid_add p hb hr hd (by nlinarith) (by nlinarith) (by nlinarith)
      refine this.mono fun r hr => ?_
      push_cast
      exact hr.mono (by linarith) (by linarith)

theorem symops_small (p : Package) : ∀ op ∈ p.symops, ∀ i j, |op i j| ≤ 1 := by
  cases p <;> decide +kernel

theorem grid_symopVec (p : Package) {op : IMat 6 6} (hM : ∀ i j, |op i j| ≤ 1) {v c : Vec 6} (hv : VecOnGrid d N v)
    (hc : VecOnGrid d N c) (hd : 0 < d) (h1 : 13 * N * d ≤ top) (h2 : 4 * d * d ≤ top) :
    Same (Machine.symopVec p op v c) (PyQC.symopVec p op v c) fun r => VecOnGrid d (13 * N) r := by
  have hN : 0 ≤ N := ((hv 0).bounds hd).2.2.2.2.1
  have hNd : 0 ≤ N * d := mul_nonneg hN hd.le
  refine (grid_subVectors p hv hc hd hN hN hN hN (by linarith) (by linarith) h2).bind fun x _ hx => ?_
  refine (grid_dotProduct1 p hM hx hd (by norm_num) (by push_cast; linarith) (by push_cast; linarith) h2).bind fun y _ hy => ?_
  refine (grid_addVectors p hy hc hd (by push_cast; linarith) (by push_cast; linarith) (by nlinarith)).mono fun r hr i => ?_
  exact (hr i).mono (by push_cast; linarith) (by push_cast; linarith)

theorem grid_symopVecs (p : Package) {m : Nat} {op : IMat 6 6} (hM : ∀ i j, |op i j| ≤ 1) {s : Simplex m} {c : Vec 6}
    (hs : ∀ i, VecOnGrid d N (s i)) (hc : VecOnGrid d N c) (hd : 0 < d) (h1 : 13 * N * d ≤ top) (h2 : 4 * d * d ≤ top) :
    Same (Machine.symopVecs p op s c) (PyQC.symopVecs p op s c) fun r => ∀ i, VecOnGrid d (13 * N) (r i) :=
  Same.fillFin fun i => grid_symopVec p hM (hs i) hc hd h1 h2

/-! ## Centroids -/

theorem grid_centroid (p : Package) {l : List (Vec 6)} (hl : l ≠ []) (hv : ∀ v ∈ l, VecOnGrid d N v) (hd : 0 < d)
    (h1 : l.length * N * d ≤ top) (h2 : 4 * d * d ≤ top) (h3 : 4 * d * l.length ≤ top) (h4 : 4 * (l.length * N) ≤ top) :
    Same (centroid (Machine.arith p) l) (centroid p.arith l) fun r => VecOnGrid (d * l.length) (l.length * N) r := by
  have hlen : 0 < l.length := List.length_pos_iff.2 hl
  have hlen' : (1 : Int) ≤ l.length := by exact_mod_cast hlen
  obtain ⟨v0, hv0⟩ := List.exists_mem_of_ne_nil l hl
  have hN : 0 ≤ N := ((hv v0 hv0 0).bounds hd).2.2.2.2.1
  have hNd : 0 ≤ N * d := mul_nonneg hN hd.le
  unfold centroid
  refine Same.fillFin fun i => ?_
  refine Same.bind (P := OnGrid d (l.length * N) (l.length * N)) ?_ fun r _ hr => ?_
  · refine Same.foldPy (R := fun n b => OnGrid d (n * N) (n * N) b) ?_ (by simpa using zero_grid hd)
    intro n b hn hb v hvl
    have hn' : ((n + 1 : Nat) : Int) ≤ l.length := by exact_mod_cast hn
    push_cast at hn'
    refine (grid_add p hb (hv v hvl i) hd (by nlinarith) (by nlinarith) (by nlinarith)).mono fun r hr => ?_
    push_cast
    exact hr.mono (by linarith) (by linarith)
  · have := (grid_mul_frac p hr hd (j := 1) (k := l.length) (by linarith) (by rw [abs_one]; linarith) (by rw [abs_one]; linarith) h3).1
    simpa using this

theorem grid_centroidObj (p : Package) {m : Nat} {o : Obj m} (ho : o ≠ []) (hm : 0 < m) (hv : ObjOnGrid d N o) (hd : 0 < d)
    (h1 : o.length * (m * m) * N * d ≤ top) (h2 : 4 * d * d * (m * m) ≤ top) (h3 : 4 * d * m * o.length ≤ top)
    (h4 : 4 * (o.length * m * N) ≤ top) :
    Same (centroidObj (Machine.arith p) o) (centroidObj p.arith o) fun r =>
      VecOnGrid (d * m * o.length) (o.length * (m * N)) r := by
  have hlen : 0 < o.length := List.length_pos_iff.2 ho
  have hlen' : (1 : Int) ≤ o.length := by exact_mod_cast hlen
  have hm' : (1 : Int) ≤ m := by exact_mod_cast hm
  obtain ⟨s0, hs0⟩ := List.exists_mem_of_ne_nil o ho
  have hN : 0 ≤ N := ((hv s0 hs0 ⟨0, hm⟩ 0).bounds hd).2.2.2.2.1
  have hNd : 0 ≤ N * d := mul_nonneg hN hd.le
  have hmm : (m : Int) ≤ m * m := by nlinarith
  have hdm : 0 < d * m := by positivity
  have hdd : 0 ≤ 4 * d * d := by positivity
  have hmN : 0 ≤ m * N := by positivity
  have hmNd : 0 ≤ m * N * d := by positivity
  have k1 : (m : Int) * N * d ≤ o.length * (m * m) * N * d := by
    have : (m : Int) ≤ o.length * (m * m) := by nlinarith
    have := mul_le_mul_of_nonneg_right this hNd
    linarith
  have k2 : (o.length : Int) * (m * N) * (d * m) = o.length * (m * m) * N * d := by ring
  unfold centroidObj
  refine Same.bind (P := fun r : Vec 6 => ∀ i, OnGrid (d * m) (o.length * (m * N)) (o.length * (m * N)) (r i)) ?_ fun r _ hr => ?_
  · refine Same.foldPy (R := fun n (b : Vec 6) => ∀ i, OnGrid (d * m) (n * (m * N)) (n * (m * N)) (b i)) ?_
      (fun i => by simpa [zeroVec] using zero_grid hdm)
    intro n b hn hb s hs
    have hn' : ((n + 1 : Nat) : Int) ≤ o.length := by exact_mod_cast hn
    push_cast at hn'
    have hl : (List.ofFn s).length = m := List.length_ofFn
    have hc := grid_centroid p (l := List.ofFn s) (d := d) (N := N) (by rw [← List.length_pos_iff, hl]; exact hm)
      (fun v hvs => by obtain ⟨i, rfl⟩ := (List.mem_ofFn' _ _).1 hvs; exact hv s hs i) hd (by rw [hl]; linarith)
      (by nlinarith) (by rw [hl]; nlinarith [mul_pos hd (show (0 : Int) < m by linarith)]) (by rw [hl]; nlinarith)
    rw [hl] at hc
    refine hc.bind fun x _ hx => ?_
    refine (grid_addVectors p hb hx hdm ?_ ?_ ?_).mono fun r hr i => ?_
    · have : (n * (m * N) + m * N) * (d * m) = (n + 1) * (m * N) * (d * m) := by ring
      rw [this, ]
      refine le_trans ?_ (k2.le.trans h1)
      have : 0 ≤ m * N * (d * m) := by positivity
      nlinarith
    · have : (n * (m * N) + m * N) * (d * m) = (n + 1) * (m * N) * (d * m) := by ring
      rw [this, ]
      refine le_trans ?_ (k2.le.trans h1)
      have : 0 ≤ m * N * (d * m) := by positivity
      nlinarith
    · nlinarith [mul_pos hdm hdm]
    · push_cast
      exact (hr i).mono (by linarith) (by linarith)
  · refine Same.fillFin fun i => ?_
    have := (grid_mul_frac p (hr i) hdm (j := 1) (k := o.length) (by linarith) (by rw [abs_one]; linarith) (by rw [abs_one]; linarith)
      (by linarith)).1
    simpa using this

end
end PyQC
