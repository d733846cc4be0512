import Verif.Lemmas.MachineVolume
import Verif.Model.MachineIntersect
/-!
# Machine arithmetic on the crossing of a segment and a triangle
-/
namespace PyQC
open Machine

theorem Same.bind_eq {α β : Type} {m m' : Py α} {P : α → Prop} {f g : α → Py β} (h : Same m m' P) (hf : ∀ r, P r → f r = g r) :
    (m >>= f) = (m' >>= g) := by
  obtain ⟨r, h1, h2, h3⟩ := h
  rw [h1, h2]
  exact hf r h3

section
variable {d e A B : Int} {x y : Num3}

/-- Division is exact if the products of three factors are at most `2^53`. -/
theorem ico_div_eq (xa : |x.a| ≤ A) (xb : |x.b| ≤ B) (xc : |x.c| ≤ d) (ya : |y.a| ≤ A) (yb : |y.b| ≤ B) (yc : |y.c| ≤ d)
    (hA : 1 ≤ A) (hB : 1 ≤ B) (h : (A * A + A * B + B * B) * d ≤ top) : Machine.Ico.div x y = PyQC.Ico.div x y := by
  have xa' : |-x.a| ≤ A := by rw [abs_neg]; exact xa
  have hd : 0 ≤ d := (abs_nonneg _).trans xc
  have key : ∀ {c1 c2 c3 : Int}, |c1| ≤ 2 ^ 53 → |c2| ≤ 2 ^ 53 → |c3| ≤ 2 ^ 53 →
      Machine.reduceDiv (wrap64 c1) (wrap64 c2) (wrap64 c3) = PyQC.reduceDiv c1 c2 c3 := by
    intro c1 c2 c3 h1 h2 h3
    rw [wrap64_le h1 le_rfl, wrap64_le h2 le_rfl, wrap64_le h3 le_rfl]
    exact reduceDiv_eq h1 h2 h3
  have up : ∀ {k : Int}, k ≤ A * A + A * B + B * B → k * d ≤ 2 ^ 53 := fun hk => (mul_le_mul_of_nonneg_right hk hd).trans h
  have a1 : A ≤ A * A + A * B + B * B := by nlinarith
  have a2 : B ≤ A * A + A * B + B * B := by nlinarith
  have a3 : A + B ≤ A * A + A * B + B * B := by nlinarith
  have a4 : A * A + B * B + A * B ≤ A * A + A * B + B * B := by linarith
  have a5 : B * A + A * B ≤ A * A + A * B + B * B := by nlinarith [sq_nonneg (A - B)]
  unfold Machine.Ico.div PyQC.Ico.div
  rw [div_arg1, div_arg2, div_arg3, div_arg4, imul_eq x.a y.c, imul_eq x.b y.c, imul_eq y.b x.c, imul_eq y.a x.c]
  rw [key ((mul_le xa yc).trans (up a1)) ((mul_le xb yc).trans (up a2)) ((mul_le ya xc).trans (up a1)),
    key ((mul_le (add_le xa' xb) yc).trans (up a3)) ((mul_le xa yc).trans (up a1)) ((mul_le yb xc).trans (up a2)),
    key ((mul_le (sub_le (add_le (mul_le xa ya) (mul_le xa yb)) (mul_le xb yb)) yc).trans (up le_rfl))
      ((mul_le (sub_le (mul_le xb ya) (mul_le xa yb)) yc).trans (up a5))
      ((mul_le (add_le (sub_le (mul_le ya ya) (mul_le yb yb)) (mul_le ya yb)) xc).trans (up a4))]

/-- The quotient of two numbers with the same denominator. -/
theorem grid_div_ico {t : Num3} (hx : OnGrid d A B x) (hy : OnGrid d A B y) (hd : 0 < d) (ht : PyQC.Ico.div x y = some t) :
    ∃ D, 0 < D ∧ D ≤ A * A + A * B + B * B ∧ OnGrid D (A * A + A * B + B * B) (A * A + A * B + B * B) t := by
  obtain ⟨xa, xb, xc, xc0, hA, hB⟩ := hx.bounds hd
  obtain ⟨ya, yb, yc, yc0, -, -⟩ := hy.bounds hd
  obtain ⟨a, b, ha, hb, e1⟩ := hx.val hd tau
  obtain ⟨a', b', ha', hb', e2⟩ := hy.val hd tau
  have hAB : 0 ≤ A * B := mul_nonneg hA hB
  by_cases h0 : kval tau y = 0
  · exfalso
    have : y.a = 0 ∧ y.b = 0 := (kval_eq_zero yc0).1 h0
    unfold PyQC.Ico.div at ht
    rw [if_pos this] at ht
    cases ht
  rw [PyQC.Ico.div_ok xc0 yc0 h0] at ht
  cases ht
  have hd' : (d : ℝ) ≠ 0 := by exact_mod_cast hd.ne'
  have hy0 : (a' + b' * tau : ℝ) ≠ 0 := by
    intro h
    apply h0
    apply Subtype.ext
    show (kval tau y : ℝ) = _
    rw [coe_kval, e2, h]
    simp
  set n := a' * a' + a' * b' - b' * b' with hn
  have nval : (n : ℝ) = (a' + b' * tau) * (a' + b' - b' * tau) := by
    rw [hn]; push_cast; linear_combination (b' * b' : ℝ) * tau_sq
  have hy1 : (a' + b' - b' * tau : ℝ) ≠ 0 := by
    intro h
    have := irr_zero_int tau (p := a' + b') (q := -b') (by push_cast; linear_combination h)
    obtain ⟨h1, h2⟩ := this
    apply hy0
    have hb0 : b' = 0 := by linarith
    have ha0 : a' = 0 := by linarith
    rw [ha0, hb0]; simp
  have hn0 : n ≠ 0 := by
    intro h
    rw [h] at nval
    push_cast at nval
    exact mul_ne_zero hy0 hy1 nval.symm
  have hn1 : (n : ℝ) ≠ 0 := by exact_mod_cast hn0
  have hs : |n.sign| = 1 := by
    rcases lt_or_gt_of_ne hn0 with h | h
    · rw [Int.sign_eq_neg_one_of_neg h]; rfl
    · rw [Int.sign_eq_one_of_pos h]; rfl
  have hs0 : (n.sign : ℝ) ≠ 0 := by
    have : n.sign ≠ 0 := by intro h; rw [h] at hs; simp at hs
    exact_mod_cast this
  have hD : |n| ≤ A * A + A * B + B * B := (sub_le (add_le (mul_le ha' ha') (mul_le ha' hb')) (mul_le hb' hb'))
  refine ⟨|n|, abs_pos.2 hn0, hD, OnGrid.of_val (θ := tau) (norm_canon _) (abs_pos.2 hn0)
    (a := n.sign * (a * a' + a * b' - b * b')) (b := n.sign * (b * a' - a * b')) ?_ ?_ ?_⟩
  · rw [abs_mul, hs, one_mul]
    exact sub_le (add_le (mul_le ha ha') (mul_le ha hb')) (mul_le hb hb')
  · rw [abs_mul, hs, one_mul]
    refine (sub_le (mul_le hb ha') (mul_le ha hb')).trans ?_
    nlinarith [sq_nonneg (A - B)]
  · rw [val_norm]
    push_cast
    rw [coe_kval, coe_kval, e1, e2]
    have en : ((|n| : Int) : ℝ) = n.sign * n := by
      have := Int.sign_mul_self_eq_abs n
      rw [← this]; push_cast; rfl
    rw [show |(n : ℝ)| = ((|n| : Int) : ℝ) by push_cast; rfl, en]
    rw [div_div_div_cancel_right₀ hd', div_eq_div_iff hy0 (mul_ne_zero hs0 hn1)]
    rw [nval]
    linear_combination -(n.sign * (a' + b' * tau) * b * b' : ℝ) * tau_sq

end

section
variable {d N : Int}

/-- Sizes for which every step of the crossing of a segment and a triangle fits. -/
structure CrossSizes (d N : Int) : Prop where
  d1 : 1 ≤ d
  N1 : 1 ≤ N
  seven : N ^ 7 * d ≤ 2 * 10 ^ 5
  six : N ^ 6 * d ^ 3 ≤ 10 ^ 6

namespace CrossSizes
variable (h : CrossSizes d N)
include h

theorem npow {k : Nat} : 1 ≤ N ^ k := one_le_pow₀ h.N1
theorem dpow {k : Nat} : 1 ≤ d ^ k := one_le_pow₀ h.d1

theorem three : N ^ 3 * d ^ 3 ≤ 10 ^ 6 := by
  have h1 := h.npow (k := 3)
  have h2 := h.dpow (k := 3)
  have : N ^ 6 * d ^ 3 = N ^ 3 * (N ^ 3 * d ^ 3) := by ring
  have h3 := h.six
  nlinarith [mul_pos (by linarith : 0 < N ^ 3) (by linarith : 0 < d ^ 3)]

theorem d_le : d ≤ 100 := by
  have h1 := h.npow (k := 6)
  have h2 := h.six
  have h3 := h.d1
  by_contra hc
  push Not at hc
  have h4 : 101 ^ 3 ≤ d ^ 3 := pow_le_pow_left₀ (by norm_num) (by linarith) 3
  nlinarith

theorem N_le : N ≤ 5 := by
  have h1 := h.d1
  have h2 := h.seven
  by_contra hc
  push Not at hc
  have h4 : 6 ^ 7 ≤ N ^ 7 := pow_le_pow_left₀ (by norm_num) (by linarith) 7
  nlinarith

theorem mon (i j : Nat) : N ^ i * d ^ j ≤ 5 ^ i * 100 ^ j :=
  mul_le_mul (pow_le_pow_left₀ (by linarith [h.N1]) h.N_le i) (pow_le_pow_left₀ (by linarith [h.d1]) h.d_le j)
    (by linarith [h.dpow (k := j)]) (by positivity)

end CrossSizes

/-- A difference of two vectors, projected. -/
theorem grid_diff_projection (hz : CrossSizes d N) {v w : Vec 6} (hv : VecOnGrid d N v) (hw : VecOnGrid d N w) :
    Same (subVectors (Machine.arith .ico) v w) (subVectors PyQC.Ico.arith v w) (VecOnGrid d (2 * N)) ∧
    ∀ r, VecOnGrid d (2 * N) r →
      Same (Machine.projection3 .ico r) (PyQC.Ico.projection3 r) fun q => ∀ j, OnGrid d (8 * N) (12 * N) (q j) := by
  have hd : 0 < d := hz.d1
  have hN := hz.N1
  have etop : (top : Int) = 9007199254740992 := by norm_num [top]
  have m1 := hz.mon 1 1
  have m2 := hz.mon 0 2
  norm_num at m1 m2
  constructor
  · refine (grid_subVectors .ico hv hw hd (by linarith) (by linarith) (by linarith) (by linarith) ?_ ?_ ?_).mono fun r hr i =>
      (hr i).mono (by linarith) (by linarith)
    · rw [etop]; linarith
    · rw [etop]; linarith
    · rw [etop]; nlinarith
  · intro r hr
    refine (grid_projection_ico hr hd ?_ ?_).mono fun q hq j => (hq j).mono (by linarith) (by linarith)
    · rw [etop]; linarith
    · rw [etop]; nlinarith

theorem grid_triple (hz : CrossSizes d N) {u v w : Vec 3} (hu : ∀ j, OnGrid d (8 * N) (12 * N) (u j))
    (hv : ∀ j, OnGrid d (8 * N) (12 * N) (v j)) (hw : ∀ j, OnGrid d (8 * N) (12 * N) (w j)) :
    Same (outerProduct (Machine.arith .ico) u v) (outerProduct PyQC.Ico.arith u v)
      (fun r => ∀ j, OnGrid (d * d) (416 * N ^ 2) (672 * N ^ 2) (r j)) ∧
    ∀ r : Vec 3, (∀ j, OnGrid (d * d) (416 * N ^ 2) (672 * N ^ 2) (r j)) →
      Same (innerProduct (Machine.arith .ico) r w) (innerProduct PyQC.Ico.arith r w)
        fun q => ∃ x, q = some x ∧ OnGrid (d ^ 3) (34176 * N ^ 3) (55296 * N ^ 3) x := by
  have hd : 0 < d := hz.d1
  have hN := hz.N1
  have etop : (top : Int) = 9007199254740992 := by norm_num [top]
  constructor
  · have m := hz.mon 2 2
    have m2 := hz.mon 0 4
    norm_num at m m2
    refine (grid_outer_ico hu hv hd hd ?_ ?_ ?_).mono fun r hr j => (hr j).mono (by nlinarith) (by nlinarith)
    · rw [etop]; nlinarith
    · rw [etop]; nlinarith
    · rw [etop]; nlinarith
  · intro r hr
    have m := hz.mon 3 3
    have m2 := hz.mon 0 6
    norm_num at m m2
    have key := grid_inner_ico hr hw (mul_pos hd hd) hd
      (by rw [etop]; linarith [show 3 * (416 * N ^ 2 * (8 * N) + 672 * N ^ 2 * (12 * N)) * (d * d * d) = 34176 * (N ^ 3 * d ^ 3) by ring])
      (by rw [etop]; linarith [show 3 * (416 * N ^ 2 * (12 * N) + 672 * N ^ 2 * (8 * N) + 672 * N ^ 2 * (12 * N)) * (d * d * d) = 55296 * (N ^ 3 * d ^ 3) by ring])
      (by rw [etop]; linarith [show d * d * d * (d * d * d) = d ^ 6 by ring])
    unfold innerProduct
    simp only [dif_pos]
    refine key.bind fun x _ hx => Same.pure' ⟨x, rfl, ?_⟩
    rw [show d ^ 3 = d * d * d by ring]
    exact hx.mono (by nlinarith) (by nlinarith)

/-- `intersection_segment_surface` with machine integers returns what it returns with unbounded ones. -/
theorem segmentSurface64_eq (F : Float64) (hz : CrossSizes d N) {sg : Simplex 2} {tr : Simplex 3} (hs : ∀ i, VecOnGrid d N (sg i))
    (ht : ∀ i, VecOnGrid d N (tr i)) : F.intersectionSegmentSurface64 sg tr = F.intersectionSegmentSurface sg tr := by
  have hd : 0 < d := hz.d1
  have hN := hz.N1
  have etop : (top : Int) = 9007199254740992 := by norm_num [top]
  unfold Float64.intersectionSegmentSurface64 Float64.intersectionSegmentSurface
  split_ifs with hm
  swap
  · rfl
  refine (grid_diff_projection hz (hs 1) (hs 0)).1.bind_eq fun v6 hv6 => ?_
  refine ((grid_diff_projection hz (hs 1) (hs 0)).2 v6 hv6).bind_eq fun AB hAB => ?_
  refine (grid_diff_projection hz (ht 1) (ht 0)).1.bind_eq fun t1 ht1 => ?_
  refine ((grid_diff_projection hz (ht 1) (ht 0)).2 t1 ht1).bind_eq fun CD hCD => ?_
  refine (grid_diff_projection hz (ht 2) (ht 0)).1.bind_eq fun t2 ht2 => ?_
  refine ((grid_diff_projection hz (ht 2) (ht 0)).2 t2 ht2).bind_eq fun CE hCE => ?_
  refine (grid_diff_projection hz (hs 0) (ht 0)).1.bind_eq fun t3 ht3 => ?_
  refine ((grid_diff_projection hz (hs 0) (ht 0)).2 t3 ht3).bind_eq fun CA hCA => ?_
  refine (grid_triple hz hAB hCE hCD).1.bind_eq fun P hP => ?_
  refine (grid_triple hz hCA hCD hCE).1.bind_eq fun Q hQ => ?_
  refine ((grid_triple hz hAB hCE hCD).2 P hP).bind_eq fun b hb => ?_
  obtain ⟨b, rfl, hb⟩ := hb
  refine (show Same (needSome (some b)) (needSome (some b)) (OnGrid (d ^ 3) (34176 * N ^ 3) (55296 * N ^ 3)) from
    Same.pure' hb).bind_eq fun b hb => ?_
  refine ((grid_triple hz hCA hCD hCE).2 Q hQ).bind_eq fun c hc => ?_
  obtain ⟨c, rfl, hc⟩ := hc
  refine (show Same (needSome (some c)) (needSome (some c)) (OnGrid (d ^ 3) (34176 * N ^ 3) (55296 * N ^ 3)) from
    Same.pure' hc).bind_eq fun c hc => ?_
  have hd3 : 0 < d ^ 3 := by positivity
  obtain ⟨ba, bb, bc, -, -, -⟩ := hb.bounds hd3
  obtain ⟨ca, cb, cc, -, -, -⟩ := hc.bounds hd3
  have n3 := hz.npow (k := 3)
  have s6 := hz.six
  obtain ⟨T, hTdef⟩ : ∃ T : Int, T = 6115442688 * N ^ 6 := ⟨_, rfl⟩
  have eT : 34176 * N ^ 3 * (34176 * N ^ 3) + 34176 * N ^ 3 * (55296 * N ^ 3) + 55296 * N ^ 3 * (55296 * N ^ 3) = T := by
    rw [hTdef]; ring
  rw [ico_div_eq ca cb cc ba bb bc (by linarith) (by linarith) (by
    rw [eT, etop, show T * d ^ 3 = 6115442688 * (N ^ 6 * d ^ 3) by rw [hTdef]; ring]; linarith)]
  cases hq : PyQC.Ico.div c b with
  | none =>
    have : ∀ f g : Num3 → Py (Option (Vec 6)), (needSome (none : Option Num3) >>= f) = (needSome none >>= g) := fun _ _ => rfl
    exact this _ _
  | some t =>
    obtain ⟨D, hD0, hD, hT⟩ := grid_div_ico hc hb hd3 hq
    rw [eT] at hD hT
    refine (show Same (needSome (some t)) (needSome (some t)) (OnGrid D T T) from Same.pure' hT).bind_eq
      fun t hT => ?_
    have T0 : 0 ≤ T := by linarith
    have b7 : 6 * (N * T) ≤ top := by
      have m := hz.seven
      have : 0 < N ^ 7 := by positivity
      rw [etop, show 6 * (N * T) = 36692656128 * N ^ 7 by rw [hTdef]; ring]
      nlinarith [hz.d1]
    have b8 : 7 * (N * T * d) ≤ top := by
      have m := hz.seven
      rw [etop, show 7 * (N * T * d) = 42808098816 * (N ^ 7 * d) by rw [hTdef]; ring]
      linarith
    have b9 : d * D ≤ top := by nlinarith [mul_nonneg T0 hd.le]
    have NT : 0 ≤ N * T := by positivity
    have hmul : Same (mulVector (Machine.arith .ico) v6 t) (mulVector PyQC.Ico.arith v6 t)
        fun r => ∀ i, OnGrid (d * D) (4 * (N * T)) (6 * (N * T)) (r i) := by
      refine Same.fillFin fun i => ?_
      simp only [Machine.arith, PyQC.Ico.arith]
      refine Same.mono (grid_mul_ico (hv6 i) hT hd hD0 ?_ ?_ b9) fun r hr => hr.mono (by linarith) (by linarith)
      · linarith
      · linarith
    refine hmul.bind_eq fun r hr => ?_
    have hadd : addVectors (Machine.arith .ico) (sg 0) r = addVectors PyQC.Ico.arith (sg 0) r := by
      have hf : ∀ f g : Fin 6 → Py Num3, (∀ i, f i = g i) → fillFin 6 f = fillFin 6 g := fun _ _ h => by rw [funext h]
      refine hf _ _ fun i => ?_
      obtain ⟨xa, xb, xc, -, -, -⟩ := (hs 0 i).bounds hd
      obtain ⟨ya, yb, yc, -, -, -⟩ := (hr i).bounds (mul_pos hd hD0)
      have k1 : N * (d * D) ≤ N * T * d := by nlinarith [mul_pos (by linarith : 0 < N) hd]
      simp only [Machine.arith, PyQC.Ico.arith]
      apply add_eq
      · refine (add_le (mul_le xa yc) (mul_le ya xc)).trans ?_
        have : (2 : Int) ^ 53 = top := rfl
        rw [this]; nlinarith
      · refine (add_le (mul_le xb yc) (mul_le yb xc)).trans ?_
        have : (2 : Int) ^ 53 = top := rfl
        rw [this]; nlinarith
      · refine (mul_le xc yc).trans ?_
        have : (2 : Int) ^ 53 = top := rfl
        rw [this]
        have k2 : d ^ 2 * T ≤ top := by
          rw [etop, show d ^ 2 * T = 6115442688 * (N ^ 6 * d ^ 2) by rw [hTdef]; ring]
          have : N ^ 6 * d ^ 2 ≤ N ^ 6 * d ^ 3 :=
            mul_le_mul_of_nonneg_left (pow_le_pow_right₀ hz.d1 (by norm_num)) (by positivity)
          linarith
        nlinarith [sq_nonneg d]
    rw [hadd]

end
end PyQC
