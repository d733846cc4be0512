import Verif.Lemmas.MachinePlanar
import Verif.Lemmas.Quick
import Verif.Props.Planar
/-!
# Whole numbers in the planar package

For points with whole coordinates in the plane of height zero, the areas with 64-bit integers are exact.
-/
namespace PyQC

/-- A whole number as a triple. -/
def whole (n : Int) : Num3 := ⟨n, 0, 1⟩

/-- The operations on whole numbers up to `B` are as expected, and zero is absorbing for the constants of the projection. -/
structure WholeArith (A : Arith) (B : Int) : Prop where
  add : ∀ m n, |m| ≤ B → |n| ≤ B → A.add (whole m) (whole n) = .ok (whole (m + n))
  mul : ∀ m n, |m| ≤ B → |n| ≤ B → A.mul (whole m) (whole n) = .ok (whole (m * n))
  sub : ∀ m n, |m| ≤ B → |n| ≤ B → A.sub (whole m) (whole n) = .ok (whole (m - n))
  zero : A.mul Dode.M6 (whole 0) = .ok (whole 0) ∧ A.mul Dode.M4 (whole 0) = .ok (whole 0)

theorem whole_add (m n : Int) : Dode.add (whole m) (whole n) = .ok (whole (m + n)) := by
  simp [Dode.add, reduce3, gcd3, whole]

theorem whole_mul (m n : Int) : Dode.mul (whole m) (whole n) = .ok (whole (m * n)) := by
  have e : gcd3 (4 * m * n) 0 4 = 4 := by
    simp only [gcd3, Int.gcd_zero_right]
    rw [mul_assoc]
    simp [Int.gcd, Int.natAbs_mul]
  have e' : 4 * m * n / 4 = m * n := by rw [mul_assoc, Int.mul_ediv_cancel_left _ (by norm_num)]
  simp [Dode.mul, reduce3, whole, e, e']

theorem whole_sub (m n : Int) : Dode.sub (whole m) (whole n) = .ok (whole (m - n)) := by
  have e : Dode.mul ⟨-1, 0, 1⟩ (whole n) = .ok (whole (-1 * n)) := whole_mul (-1) n
  rw [Dode.sub, e]
  simp only
  rw [whole_add]
  congr 2; ring

theorem whole_exact (B : Int) : WholeArith Dode.arith B where
  add m n _ _ := whole_add m n
  mul m n _ _ := whole_mul m n
  sub m n _ _ := whole_sub m n
  zero := by decide +kernel

theorem whole_within {B n : Int} (hB : 1 ≤ B) (h : |n| ≤ B) : Machine.Within B (whole n) :=
  ⟨h, by simp [whole]; omega, by simp [whole]; omega⟩

theorem whole_machine : WholeArith (Machine.arith .dode) (2 ^ 25) := by
  have w : ∀ {n : Int}, |n| ≤ 2 ^ 25 → Machine.Within (2 ^ 25) (whole n) := fun h => whole_within (by norm_num) h
  have w6 : Machine.Within (2 ^ 25) Dode.M6 := by unfold Machine.Within Dode.M6; norm_num
  have w4 : Machine.Within (2 ^ 25) Dode.M4 := by unfold Machine.Within Dode.M4; norm_num
  simp only [Machine.arith]
  refine ⟨fun m n hm hn => ?_, fun m n hm hn => ?_, fun m n hm hn => ?_, ?_⟩
  · dsimp only; rw [(Machine.C07_dode _ _ (w hm) (w hn)).1, whole_add]
  · dsimp only; rw [(Machine.C07_dode _ _ (w hm) (w hn)).2.2, whole_mul]
  · dsimp only; rw [(Machine.C07_dode _ _ (w hm) (w hn)).2.1, whole_sub]
  · have w0 : Machine.Within (2 ^ 25) (whole 0) := w (by norm_num)
    dsimp only
    rw [(Machine.C07_dode _ _ w6 w0).2.2, (Machine.C07_dode _ _ w4 w0).2.2]
    exact (whole_exact 0).zero

section
variable {A : Arith} (hA : WholeArith A (2 ^ 25))
include hA

theorem whole_mtrixcal (m1 m4 : Num3) (h1 : m1 = Dode.M6 ∨ m1 = Dode.M4 ∨ m1 = Dode.M0)
    (h4 : m4 = Dode.M6 ∨ m4 = Dode.M4 ∨ m4 = Dode.M0) (p q r x y : Int) (hp : |p| ≤ 1) (hq : |q| ≤ 1) (hr : |r| ≤ 1)
    (hx : |x| ≤ 1000) (hy : |y| ≤ 1000) :
    mtrixcal A m1 (whole p) (whole q) m4 Dode.M0 (whole r) (flatFrac x y 1) = .ok (whole (p * x + q * y)) := by
  have z : ∀ m, m = Dode.M6 ∨ m = Dode.M4 ∨ m = Dode.M0 → A.mul m (whole 0) = .ok (whole 0) := by
    rintro m (rfl | rfl | rfl)
    · exact hA.zero.1
    · exact hA.zero.2
    · exact hA.mul 0 0 (by norm_num) (by norm_num)
  have b1 : |p * x| ≤ 1000 := by rw [abs_mul]; nlinarith [abs_nonneg p, abs_nonneg x]
  have b2 : |q * y| ≤ 1000 := by rw [abs_mul]; nlinarith [abs_nonneg q, abs_nonneg y]
  have b3 : |p * x + q * y| ≤ 2000 := (abs_add_le _ _).trans (by linarith)
  have e0 : flatFrac x y 1 0 = whole 0 := rfl
  have e1 : flatFrac x y 1 1 = whole x := rfl
  have e2 : flatFrac x y 1 2 = whole y := rfl
  have e3 : flatFrac x y 1 3 = whole 0 := rfl
  have e4 : flatFrac x y 1 4 = whole 0 := rfl
  have e5 : flatFrac x y 1 5 = whole 0 := rfl
  unfold mtrixcal
  rw [e0, e1, e2, e3, e4, e5, z m1 h1, z m4 h4, z Dode.M0 (by simp), hA.mul p x (by linarith) (by linarith),
    hA.mul q y (by linarith) (by linarith), hA.mul r 0 (by linarith) (by norm_num)]
  simp only [bind_ok', mul_zero]
  rw [hA.add 0 (p * x) (by norm_num) (by linarith), bind_ok', zero_add, hA.add _ _ (by linarith) (by linarith), bind_ok',
    hA.add _ 0 (by linarith) (by norm_num), bind_ok', add_zero, hA.add _ 0 (by linarith) (by norm_num), bind_ok', add_zero,
    hA.add _ 0 (by linarith) (by norm_num), add_zero]

theorem whole_projection (x y : Int) (hx : |x| ≤ 1000) (hy : |y| ≤ 1000) :
    Quick.projection .dode A (flatFrac x y 1) = .ok ![whole x, whole y, whole 0] := by
  have n0 : |(0 : Int)| ≤ 1 := by norm_num
  have n1 : |(1 : Int)| ≤ 1 := by norm_num
  have c1 := whole_mtrixcal hA Dode.M6 Dode.M4 (by simp) (by simp) 1 0 0 x y n1 n0 n0 hx hy
  have c2 := whole_mtrixcal hA Dode.M4 Dode.M6 (by simp) (by simp) 0 1 0 x y n0 n1 n0 hx hy
  have c3 := whole_mtrixcal hA Dode.M0 Dode.M0 (by simp) (by simp) 0 0 1 x y n0 n0 n1 hx hy
  have w0 : whole 0 = Dode.M0 := rfl
  have w1 : whole 1 = Dode.M1 := rfl
  rw [w0, w1] at c1 c2 c3
  unfold Quick.projection
  rw [c1, bind_ok', c2, bind_ok', c3, bind_ok']
  norm_num

theorem whole_subVectors (p q r s : Int) (hp : |p| ≤ 1000) (hq : |q| ≤ 1000) (hr : |r| ≤ 1000) (hs : |s| ≤ 1000) :
    subVectors A ![whole p, whole q, whole 0] ![whole r, whole s, whole 0] = .ok ![whole (p - r), whole (q - s), whole 0] := by
  have n0 : |(0 : Int)| ≤ 2 ^ 25 := by norm_num
  have n1 : |(-1 : Int)| ≤ 2 ^ 25 := by norm_num
  have br : |r * -1| ≤ 1000 := by rw [abs_mul]; norm_num; exact hr
  have bs : |s * -1| ≤ 1000 := by rw [abs_mul]; norm_num; exact hs
  have m : mulVector A ![whole r, whole s, whole 0] ⟨-1, 0, 1⟩ = .ok ![whole (r * -1), whole (s * -1), whole (0 * -1)] := by
    unfold mulVector
    change fillFin 3 (fun i => A.mul _ (whole (-1))) = _
    simp only [fillFin, Matrix.cons_val_zero, Fin.succ_zero_eq_one, Matrix.cons_val_one]
    rw [hA.mul r (-1) (by linarith) n1]
    simp only
    rw [hA.mul s (-1) (by linarith) n1]
    simp only
    have : (![whole r, whole s, whole 0] : Fin 3 → Num3) (Fin.succ 1) = whole 0 := rfl
    rw [this, hA.mul 0 (-1) n0 n1]
    simp only
    congr 1
  have a : addVectors A ![whole p, whole q, whole 0] ![whole (r * -1), whole (s * -1), whole (0 * -1)] =
      .ok ![whole (p - r), whole (q - s), whole 0] := by
    unfold addVectors
    simp only [fillFin, Matrix.cons_val_zero, Fin.succ_zero_eq_one, Matrix.cons_val_one]
    rw [hA.add p (r * -1) (by linarith) (by linarith)]
    simp only
    rw [hA.add q (s * -1) (by linarith) (by linarith)]
    simp only
    have e1 : (![whole p, whole q, whole 0] : Fin 3 → Num3) (Fin.succ 1) = whole 0 := rfl
    have e2 : (![whole (r * -1), whole (s * -1), whole (0 * -1)] : Fin 3 → Num3) (Fin.succ 1) = whole 0 := rfl
    rw [e1, e2, hA.add 0 0 n0 n0]
    simp only
    congr 1
    funext i; fin_cases i
    · change whole (p + r * -1) = whole (p - r); congr 1; ring
    · change whole (q + s * -1) = whole (q - s); congr 1; ring
    · rfl
  unfold subVectors
  rw [m, bind_ok', a]

theorem whole_outer (p q r s : Int) (hp : |p| ≤ 2000) (hq : |q| ≤ 2000) (hr : |r| ≤ 2000) (hs : |s| ≤ 2000) :
    outerProduct A ![whole p, whole q, whole 0] ![whole r, whole s, whole 0] = .ok ![whole 0, whole 0, whole (p * s - q * r)] := by
  have n0 : |(0 : Int)| ≤ 2 ^ 25 := by norm_num
  have b1 : |p * s| ≤ 4000000 := by rw [abs_mul]; nlinarith [abs_nonneg p, abs_nonneg s]
  have b2 : |q * r| ≤ 4000000 := by rw [abs_mul]; nlinarith [abs_nonneg q, abs_nonneg r]
  have v0 : ∀ a b : Int, (![whole a, whole b, whole 0] : Fin 3 → Num3) 0 = whole a := fun _ _ => rfl
  have v1 : ∀ a b : Int, (![whole a, whole b, whole 0] : Fin 3 → Num3) 1 = whole b := fun _ _ => rfl
  have v2 : ∀ a b : Int, (![whole a, whole b, whole 0] : Fin 3 → Num3) 2 = whole 0 := fun _ _ => rfl
  unfold outerProduct
  rw [v0, v0, v1, v1, v2, v2, hA.mul q 0 (by linarith) n0, bind_ok', hA.mul 0 s n0 (by linarith), bind_ok', mul_zero, zero_mul,
    hA.sub 0 0 n0 n0, bind_ok', hA.mul 0 r n0 (by linarith), bind_ok', hA.mul p 0 (by linarith) n0, bind_ok', mul_zero, zero_mul,
    hA.sub 0 0 n0 n0, bind_ok', hA.mul p s (by linarith) (by linarith), bind_ok', hA.mul q r (by linarith) (by linarith), bind_ok',
    hA.sub _ _ (by linarith) (by linarith), bind_ok', sub_zero]

theorem whole_double {x y : Fin 3 → Int} (hx : ∀ i, |x i| ≤ 1000) (hy : ∀ i, |y i| ≤ 1000) :
    doubleWith A (Quick.projection .dode A) (fun i => flatFrac (x i) (y i) 1) =
      .ok (whole ((x 1 - x 0) * (y 2 - y 0) - (y 1 - y 0) * (x 2 - x 0))) := by
  have hp : (fillFin 3 fun i => Quick.projection .dode A (flatFrac (x i) (y i) 1)) =
      .ok fun i => ![whole (x i), whole (y i), whole 0] :=
    fillFin_ok fun i => whole_projection hA (x i) (y i) (hx i) (hy i)
  have b : ∀ {z : Fin 3 → Int}, (∀ i, |z i| ≤ 1000) → ∀ i j, |z i - z j| ≤ 2000 := fun hz i j =>
    (abs_sub _ _).trans (by linarith [hz i, hz j])
  unfold doubleWith
  rw [hp, bind_ok', whole_subVectors hA _ _ _ _ (hx 1) (hy 1) (hx 0) (hy 0), bind_ok',
    whole_subVectors hA _ _ _ _ (hx 2) (hy 2) (hx 0) (hy 0), bind_ok', whole_outer hA _ _ _ _ (b hx _ _) (b hy _ _) (b hx _ _) (b hy _ _),
    bind_ok']
  rfl

end

theorem whole_half (d e : Int) (he : e = 1 ∨ e = -1) : ∃ p, Dode.mul (whole d) ⟨e, 0, 2⟩ = .ok p ∧ isZero3 p = decide (d = 0) := by
  have hm : Dode.mul (whole d) ⟨e, 0, 2⟩ = reduce3 (4 * d * e) 0 8 := by simp [Dode.mul, whole]
  obtain ⟨d1, -, d3⟩ := Machine.gcd3_dvd (4 * d * e) 0 8
  have hz : 4 * d * e / gcd3 (4 * d * e) 0 8 = 0 ↔ d = 0 := by
    have := Int.ediv_mul_cancel d1
    constructor
    · intro h
      rw [h, zero_mul] at this
      rcases he with rfl | rfl <;> omega
    · rintro rfl
      simp
  have hg : gcd3 (4 * d * e) 0 8 ≠ 0 := by
    intro h; rw [h] at d3; norm_num at d3
  rw [hm]
  unfold reduce3
  rw [if_neg hg]
  split
  · exact ⟨_, rfl, by simp [isZero3, hz]⟩
  · exact ⟨_, rfl, by simp [isZero3, hz]⟩

theorem area6d_double (t : Simplex 3) : Dode.triangleArea6d t = doubleWith Dode.arith Dode.projection3 t >>= fun v =>
    if Package.dode.negNum v.a v.b then Dode.mul v ⟨-1, 0, 2⟩ else Dode.mul v ⟨1, 0, 2⟩ := by
  unfold Dode.triangleArea6d Dode.triangleArea doubleWith
  simp only [bind_assoc, bind_ok']

theorem zeroAlike2_intro {m : Num3 → Num3 → Py Num3} {x y p q : Num3} {b : Bool} (h1 : m x ⟨-1, 0, 2⟩ = .ok p)
    (h2 : m x ⟨1, 0, 2⟩ = .ok q) (zp : isZero3 p = b) (zq : isZero3 q = b) (zy : isZero3 y = b) :
    zeroAlike2 m (.ok x) (.ok y) = true := by
  unfold zeroAlike2
  simp only [h1, h2, zp, zq, zy, beq_self_eq_true, Bool.and_self]

theorem machine_dode_projection : Machine.projection3 .dode = Quick.projection .dode (Machine.arith .dode) := by
  funext v
  simp only [Machine.projection3, Quick.projection]

/-- For whole coordinates up to 1000 the area of any triangle is found zero exactly if it is, also with 64-bit integers. -/
theorem whole_zero {x y : Fin 3 → Int} (hx : ∀ i, |x i| ≤ 1000) (hy : ∀ i, |y i| ≤ 1000) :
    sameZero2 (fun i => flatFrac (x i) (y i) 1) = true := by
  have h1 := whole_double whole_machine hx hy
  have h2 := whole_double (whole_exact (2 ^ 25)) hx hy
  have e2 : Dode.projection3 = Quick.projection .dode Dode.arith := by
    funext v; simp only [Dode.projection3, Quick.projection]
  rw [← machine_dode_projection] at h1
  rw [← e2] at h2
  have hd : |(x 1 - x 0) * (y 2 - y 0) - (y 1 - y 0) * (x 2 - x 0)| ≤ 2 ^ 25 := by
    have b : ∀ {z : Fin 3 → Int}, (∀ i, |z i| ≤ 1000) → ∀ i j, |z i - z j| ≤ 2000 := fun hz i j =>
      (abs_sub _ _).trans (by linarith [hz i, hz j])
    have c : ∀ p q : Int, |p| ≤ 2000 → |q| ≤ 2000 → |p * q| ≤ 4000000 := fun p q hp hq => by
      rw [abs_mul]; nlinarith [abs_nonneg p, abs_nonneg q]
    exact (abs_sub _ _).trans (by linarith [c _ _ (b hx 1 0) (b hy 2 0), c _ _ (b hy 1 0) (b hx 2 0)])
  generalize (x 1 - x 0) * (y 2 - y 0) - (y 1 - y 0) * (x 2 - x 0) = d at *
  have hw := whole_within (by norm_num) hd
  have hn : ∀ e : Int, e = 1 ∨ e = -1 → Machine.Within (2 ^ 25) ⟨e, 0, 2⟩ := by
    rintro e (rfl | rfl) <;> unfold Machine.Within <;> norm_num
  obtain ⟨p, hp, zp⟩ := whole_half d (-1) (.inr rfl)
  obtain ⟨q, hq, zq⟩ := whole_half d 1 (.inl rfl)
  have hr : ∃ r, Dode.triangleArea6d (fun i => flatFrac (x i) (y i) 1) = .ok r ∧ isZero3 r = decide (d = 0) := by
    rw [area6d_double, h2, bind_ok']
    split
    · exact ⟨p, hp, zp⟩
    · exact ⟨q, hq, zq⟩
  obtain ⟨r, hr, zr⟩ := hr
  unfold sameZero2
  rw [h1, hr]
  have k1 := (Machine.C07_dode _ _ hw (hn (-1) (.inr rfl))).2.2
  have k2 := (Machine.C07_dode _ _ hw (hn 1 (.inl rfl))).2.2
  rw [hp] at k1
  rw [hq] at k2
  exact zeroAlike2_intro k1 k2 zp zq zr

end PyQC
