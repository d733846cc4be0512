import Verif.Spec.Machine
import Verif.Model.MachineVec
import Verif.Props.Machine
import Verif.Lemmas.Volume
/-!
# Machine arithmetic on numbers with a common denominator
-/
namespace PyQC
open Machine

/-! ## Two computations with the same result -/

/-- Two computations return the same result, and it has the property `P`. -/
def Same {α : Type} (m m' : Py α) (P : α → Prop) : Prop := ∃ r, m = .ok r ∧ m' = .ok r ∧ P r

namespace Same
variable {α β : Type} {m m' : Py α} {P Q : α → Prop}

theorem pure' {r : α} (h : P r) : Same (.ok r) (.ok r) P := ⟨r, rfl, rfl, h⟩

theorem mono (h : Same m m' P) (hPQ : ∀ r, P r → Q r) : Same m m' Q := by
  obtain ⟨r, h1, h2, h3⟩ := h
  exact ⟨r, h1, h2, hPQ r h3⟩

theorem bind {f g : α → Py β} {R : β → Prop} (h : Same m m' P) (hf : ∀ r, m' = .ok r → P r → Same (f r) (g r) R) :
    Same (m >>= f) (m' >>= g) R := by
  obtain ⟨r, h1, h2, h3⟩ := h
  rw [h1]
  have := hf r h2 h3
  rw [h2]
  exact this

theorem eq (h : Same m m' P) : m = m' := by
  obtain ⟨r, h1, h2, -⟩ := h
  rw [h1, h2]

theorem fillFin {n : Nat} {f g : Fin n → Py α} {P : Fin n → α → Prop} (h : ∀ i, Same (f i) (g i) (P i)) :
    Same (PyQC.fillFin n f) (PyQC.fillFin n g) fun r => ∀ i, P i (r i) := by
  choose r h1 h2 h3 using h
  exact ⟨r, fillFin_ok h1, fillFin_ok h2, h3⟩

theorem fillList {f g : α → Py β} {R : β → Prop} {l : List α} (h : ∀ x ∈ l, Same (f x) (g x) R) :
    Same (PyQC.fillList f l) (PyQC.fillList g l) fun r => r.length = l.length ∧ ∀ y ∈ r, R y := by
  induction l with
  | nil => exact pure' ⟨rfl, by simp⟩
  | cons x l ih =>
    obtain ⟨y, h1, h2, h3⟩ := h x List.mem_cons_self
    obtain ⟨r, g1, g2, g3, g4⟩ := ih fun z hz => h z (List.mem_cons_of_mem _ hz)
    refine ⟨y :: r, ?_, ?_, by simp [g3], ?_⟩
    · simp only [PyQC.fillList, h1, g1]
    · simp only [PyQC.fillList, h2, g2]
    · intro z hz
      rcases List.mem_cons.1 hz with rfl | hz
      exacts [h3, g4 z hz]

/-- A loop: the property may depend on the number of turns. -/
theorem foldPy {f g : β → α → Py β} {R : Nat → β → Prop} {l : List α}
    (h : ∀ k b, k < l.length → R k b → ∀ x ∈ l, Same (f b x) (g b x) (R (k + 1))) {b : β} (hb : R 0 b) :
    Same (PyQC.foldPy f b l) (PyQC.foldPy g b l) (R l.length) := by
  have key : ∀ (l' : List α) (k : Nat) (b : β), k + l'.length = l.length → (∀ x ∈ l', x ∈ l) → R k b →
      Same (PyQC.foldPy f b l') (PyQC.foldPy g b l') (R l.length) := by
    intro l'
    induction l' with
    | nil =>
      intro k b hk _ hb
      have : k = l.length := by simpa using hk
      exact pure' (this ▸ hb)
    | cons x l' ih =>
      intro k b hk hl hb
      obtain ⟨r, h1, h2, h3⟩ := h k b (by simp only [List.length_cons] at hk; omega) hb x (hl x List.mem_cons_self)
      simp only [PyQC.foldPy, h1, h2]
      exact ih (k + 1) r (by simp only [List.length_cons] at hk; omega) (fun y hy => hl y (List.mem_cons_of_mem _ hy)) h3
  exact key l 0 b (by simp) (fun _ h => h) hb

end Same

/-! ## Numbers on a grid -/

namespace OnGrid
variable {d A B A' B' : Int} {x y : Num3}

theorem mono (h : OnGrid d A B x) (hA : A ≤ A') (hB : B ≤ B') : OnGrid d A' B' x := by
  obtain ⟨k, h1, h2, h3⟩ := h
  exact ⟨k, h1, h2.trans hA, h3.trans hB⟩

theorem expand (h : OnGrid d A B x) {n : Int} (hn : 0 ≤ n) : OnGrid (d * n) (A * n) (B * n) x := by
  obtain ⟨k, h1, h2, h3⟩ := h
  refine ⟨k * n, by rw [← h1]; ring, ?_, ?_⟩
  · rw [← mul_assoc, abs_mul, abs_of_nonneg hn]; exact mul_le_mul_of_nonneg_right h2 hn
  · rw [← mul_assoc, abs_mul, abs_of_nonneg hn]; exact mul_le_mul_of_nonneg_right h3 hn

theorem bounds (h : OnGrid d A B x) (hd : 0 < d) : |x.a| ≤ A ∧ |x.b| ≤ B ∧ |x.c| ≤ d ∧ x.c ≠ 0 ∧ 0 ≤ A ∧ 0 ≤ B := by
  obtain ⟨k, h1, h2, h3⟩ := h
  have hk : k ≠ 0 := by rintro rfl; simp at h1; omega
  have hk1 : 1 ≤ |k| := Int.one_le_abs hk
  rw [abs_mul] at h2 h3
  refine ⟨?_, ?_, ?_, ?_, ?_, ?_⟩
  · nlinarith [abs_nonneg x.a]
  · nlinarith [abs_nonneg x.b]
  · have : |x.c| * |k| = d := by rw [← abs_mul, h1, abs_of_pos hd]
    nlinarith [abs_nonneg x.c]
  · rintro hc; rw [hc] at h1; simp at h1; omega
  · nlinarith [abs_nonneg x.a]
  · nlinarith [abs_nonneg x.b]

theorem val (h : OnGrid d A B x) (hd : 0 < d) (θ : ℝ) :
    ∃ a b : Int, |a| ≤ A ∧ |b| ≤ B ∧ x.val θ = (a + b * θ) / d := by
  have hc := (h.bounds hd).2.2.2.1
  obtain ⟨k, h1, h2, h3⟩ := h
  have hk : k ≠ 0 := by rintro rfl; simp at h1; omega
  refine ⟨x.a * k, x.b * k, h2, h3, ?_⟩
  have hc' : (x.c : ℝ) ≠ 0 := by exact_mod_cast hc
  have hk' : (k : ℝ) ≠ 0 := by exact_mod_cast hk
  unfold Num3.val
  rw [← h1]
  push_cast
  field_simp

theorem of_val {θ : ℝ} [Quad θ] (hx : x.Canon) (hd : 0 < d) {a b : Int} (ha : |a| ≤ A) (hb : |b| ≤ B)
    (h : x.val θ = (a + b * θ) / d) : OnGrid d A B x := by
  obtain ⟨hc, hg⟩ := (canon_iff x).1 hx
  have hc' : (x.c : ℝ) ≠ 0 := by exact_mod_cast hc.ne'
  have hd' : (d : ℝ) ≠ 0 := by exact_mod_cast hd.ne'
  unfold Num3.val at h
  rw [div_eq_div_iff hc' hd'] at h
  obtain ⟨e1, e2⟩ := irr_zero_int θ (p := x.a * d - a * x.c) (q := x.b * d - b * x.c) (by push_cast; linear_combination h)
  have hdvd : x.c ∣ d := by
    have h1 : x.c ∣ gcd3 (d * x.a) (d * x.b) (d * x.c) := by
      unfold PyQC.gcd3
      apply Int.dvd_coe_gcd
      · apply Int.dvd_coe_gcd
        · exact ⟨a, by linarith⟩
        · exact ⟨b, by linarith⟩
      · exact ⟨d, by ring⟩
    rw [gcd3_scale hd.le, hg, mul_one] at h1
    exact h1
  obtain ⟨k, hk⟩ := hdvd
  refine ⟨k, hk.symm, ?_, ?_⟩
  · have : x.a * k = a := by
      apply mul_right_cancel₀ hc.ne'
      rw [hk] at e1
      linarith
    rw [this]; exact ha
  · have : x.b * k = b := by
      apply mul_right_cancel₀ hc.ne'
      rw [hk] at e2
      linarith
    rw [this]; exact hb

end OnGrid

/-! ## Operations -/

section
variable {d e A B A' B' : Int} {x y : Num3}

/-- The largest integer up to which float64 represents all integers. -/
abbrev top : Int := 2 ^ 53

theorem grid_add (p : Package) (hx : OnGrid d A B x) (hy : OnGrid d A' B' y) (hd : 0 < d) (h1 : (A + A') * d ≤ top)
    (h2 : (B + B') * d ≤ top) (h3 : d * d ≤ top) :
    Same ((Machine.arith p).add x y) (p.arith.add x y) (OnGrid d (A + A') (B + B')) := by
  obtain ⟨xa, xb, xc, xc0, -, -⟩ := hx.bounds hd
  obtain ⟨ya, yb, yc, yc0, -, -⟩ := hy.bounds hd
  obtain ⟨a, b, ha, hb, e1⟩ := hx.val hd p.theta
  obtain ⟨a', b', ha', hb', e2⟩ := hy.val hd p.theta
  have hm : (Machine.arith p).add x y = p.arith.add x y := by
    have : Machine.add x y = PyQC.Ico.add x y := by
      apply add_eq
      · exact (add_le (mul_le xa yc) (mul_le ya xc)).trans (by linarith)
      · exact (add_le (mul_le xb yc) (mul_le yb xc)).trans (by linarith)
      · exact (mul_le xc yc).trans h3
    cases p
    · simp only [Machine.arith, Package.arith, PyQC.Ico.arith]
      exact this
    · simp only [Machine.arith, Package.arith, PyQC.Dode.arith]
      rw [this]
      rfl
  have hr := p.lawful.add_ok xc0 yc0
  rw [hm, hr]
  refine Same.pure' (OnGrid.of_val (θ := p.theta) (norm_canon _) hd (a := a + a') (b := b + b') ((abs_add_le _ _).trans (by linarith))
    ((abs_add_le _ _).trans (by linarith)) ?_)
  rw [val_norm]
  push_cast
  rw [coe_kval, coe_kval, e1, e2]
  ring

theorem grid_mul_ico (hx : OnGrid d A B x) (hy : OnGrid e A' B' y) (hd : 0 < d) (he : 0 < e)
    (h1 : A * A' + B * B' ≤ top) (h2 : A * B' + B * A' + B * B' ≤ top) (h3 : d * e ≤ top) :
    Same (Machine.Ico.mul x y) (PyQC.Ico.mul x y) (OnGrid (d * e) (A * A' + B * B') (A * B' + B * A' + B * B')) := by
  obtain ⟨xa, xb, xc, xc0, -, -⟩ := hx.bounds hd
  obtain ⟨ya, yb, yc, yc0, -, -⟩ := hy.bounds he
  obtain ⟨a, b, ha, hb, e1⟩ := hx.val hd tau
  obtain ⟨a', b', ha', hb', e2⟩ := hy.val he tau
  have hm : Machine.Ico.mul x y = PyQC.Ico.mul x y := by
    apply ico_mul_eq
    · exact (add_le (mul_le xa ya) (mul_le xb yb)).trans h1
    · exact (add_le (add_le (mul_le xa yb) (mul_le xb ya)) (mul_le xb yb)).trans h2
    · exact (mul_le xc yc).trans h3
  rw [hm, PyQC.Ico.mul_ok xc0 yc0]
  have hd' : (d : ℝ) ≠ 0 := by exact_mod_cast hd.ne'
  have he' : (e : ℝ) ≠ 0 := by exact_mod_cast he.ne'
  refine Same.pure' (OnGrid.of_val (θ := tau) (norm_canon _) (mul_pos hd he) (a := a * a' + b * b')
    (b := a * b' + b * a' + b * b') (add_le (mul_le ha ha') (mul_le hb hb'))
    (add_le (add_le (mul_le ha hb') (mul_le hb ha')) (mul_le hb hb')) ?_)
  rw [val_norm]
  push_cast
  rw [coe_kval, coe_kval, e1, e2]
  rw [div_mul_div_comm, div_eq_div_iff (by positivity) (by positivity)]
  linear_combination (b * b' * d * e : ℝ) * tau_sq

theorem grid_mul_dode (hx : OnGrid d A B x) (hy : OnGrid e A' B' y) (hd : 0 < d) (he : 0 < e)
    (h1 : 4 * A * A' + 3 * B * B' ≤ top) (h2 : 4 * (A * B' + B * A') ≤ top) (h3 : 4 * d * e ≤ top) :
    Same (Machine.Dode.mul x y) (PyQC.Dode.mul x y)
      (OnGrid (4 * d * e) (4 * A * A' + 3 * B * B') (4 * (A * B' + B * A'))) := by
  obtain ⟨xa, xb, xc, xc0, -, -⟩ := hx.bounds hd
  obtain ⟨ya, yb, yc, yc0, -, -⟩ := hy.bounds he
  obtain ⟨a, b, ha, hb, e1⟩ := hx.val hd sin60
  obtain ⟨a', b', ha', hb', e2⟩ := hy.val he sin60
  have h4 : |(4 : Int)| ≤ 4 := by norm_num
  have h3' : |(3 : Int)| ≤ 3 := by norm_num
  have hm : Machine.Dode.mul x y = PyQC.Dode.mul x y := by
    apply dode_mul_eq
    · exact (add_le (mul_le (mul_le h4 xa) ya) (mul_le (mul_le h3' xb) yb)).trans h1
    · exact (mul_le h4 (add_le (mul_le xa yb) (mul_le xb ya))).trans h2
    · exact (mul_le (mul_le h4 xc) yc).trans h3
  rw [hm, PyQC.Dode.mul_ok xc0 yc0]
  have hd' : (d : ℝ) ≠ 0 := by exact_mod_cast hd.ne'
  have he' : (e : ℝ) ≠ 0 := by exact_mod_cast he.ne'
  refine Same.pure' (OnGrid.of_val (θ := sin60) (norm_canon _) (by positivity) (a := 4 * a * a' + 3 * b * b')
    (b := 4 * (a * b' + b * a')) (add_le (mul_le (mul_le h4 ha) ha') (mul_le (mul_le h3' hb) hb'))
    (mul_le h4 (add_le (mul_le ha hb') (mul_le hb ha'))) ?_)
  rw [val_norm]
  push_cast
  rw [coe_kval, coe_kval, e1, e2]
  rw [div_mul_div_comm, div_eq_div_iff (by positivity) (by positivity)]
  linear_combination (4 * b * b' * d * e : ℝ) * sin60_sq

/-- The product with a fraction `j/k`. -/
theorem grid_mul_frac (p : Package) (hx : OnGrid d A B x) (hd : 0 < d) {j k : Int} (hk : 0 < k) (h1 : 4 * A * |j| ≤ top)
    (h2 : 4 * B * |j| ≤ top) (h3 : 4 * d * k ≤ top) :
    Same ((Machine.arith p).mul x ⟨j, 0, k⟩) (p.arith.mul x ⟨j, 0, k⟩) (OnGrid (d * k) (A * |j|) (B * |j|)) ∧
    Same ((Machine.arith p).mul ⟨j, 0, k⟩ x) (p.arith.mul ⟨j, 0, k⟩ x) (OnGrid (d * k) (A * |j|) (B * |j|)) := by
  obtain ⟨xa, xb, xc, xc0, hA, hB⟩ := hx.bounds hd
  obtain ⟨a, b, ha, hb, e1⟩ := hx.val hd p.theta
  have h4 : |(4 : Int)| ≤ 4 := by norm_num
  have hkk : |k| ≤ k := (abs_of_pos hk).le
  have h0A : 0 ≤ A * |j| := mul_nonneg hA (abs_nonneg _)
  have h0B : 0 ≤ B * |j| := mul_nonneg hB (abs_nonneg _)
  have h0d : 0 ≤ d * k := (mul_pos hd hk).le
  have ba := mul_le xa (le_refl |j|)
  have bb := mul_le xb (le_refl |j|)
  have bc := mul_le xc hkk
  have hm : (Machine.arith p).mul x ⟨j, 0, k⟩ = p.arith.mul x ⟨j, 0, k⟩ ∧
      (Machine.arith p).mul ⟨j, 0, k⟩ x = p.arith.mul ⟨j, 0, k⟩ x := by
    cases p <;> simp only [Machine.arith, Package.arith, PyQC.Ico.arith, PyQC.Dode.arith]
    · constructor
      · apply ico_mul_eq
        · simp only [mul_zero, add_zero]; linarith
        · simp only [mul_zero, add_zero, zero_add]; linarith
        · show |x.c * k| ≤ _; linarith
      · apply ico_mul_eq
        · simp only [zero_mul, add_zero]; rw [mul_comm]; linarith
        · simp only [zero_mul, add_zero]; rw [mul_comm]; linarith
        · show |k * x.c| ≤ _; rw [mul_comm]; linarith
    · constructor
      · apply dode_mul_eq
        · simp only [mul_zero, add_zero]
          have := mul_le h4 ba
          rw [← mul_assoc] at this; linarith
        · simp only [mul_zero, zero_add]
          have := mul_le h4 bb
          linarith
        · show |4 * x.c * k| ≤ _
          have := mul_le h4 bc
          rw [← mul_assoc] at this; linarith
      · apply dode_mul_eq
        · simp only [mul_zero, zero_mul, add_zero]
          have := mul_le h4 ba
          rw [show 4 * j * x.a = 4 * (x.a * j) by ring]; linarith
        · simp only [zero_mul, add_zero]
          have := mul_le h4 bb
          rw [show 4 * (j * x.b) = 4 * (x.b * j) by ring]; linarith
        · show |4 * k * x.c| ≤ _
          have := mul_le h4 bc
          rw [show 4 * k * x.c = 4 * (x.c * k) by ring]; linarith
  have hk0 : (⟨j, 0, k⟩ : Num3).c ≠ 0 := hk.ne'
  have hd' : (d : ℝ) ≠ 0 := by exact_mod_cast hd.ne'
  have hk' : (k : ℝ) ≠ 0 := by exact_mod_cast hk.ne'
  have ev : (⟨j, 0, k⟩ : Num3).val p.theta = j / k := by unfold Num3.val; simp
  rw [hm.1, hm.2, p.lawful.mul_ok xc0 hk0, p.lawful.mul_ok hk0 xc0]
  constructor
  · refine Same.pure' (OnGrid.of_val (θ := p.theta) (norm_canon _) (mul_pos hd hk) (a := a * j) (b := b * j)
      (mul_le ha le_rfl) (mul_le hb le_rfl) ?_)
    rw [val_norm]
    push_cast
    rw [coe_kval, coe_kval, e1, ev]
    field_simp
  · refine Same.pure' (OnGrid.of_val (θ := p.theta) (norm_canon _) (mul_pos hd hk) (a := a * j) (b := b * j)
      (mul_le ha le_rfl) (mul_le hb le_rfl) ?_)
    rw [val_norm]
    push_cast
    rw [coe_kval, coe_kval, e1, ev]
    field_simp

/-- The negative. -/
theorem grid_neg (p : Package) (hx : OnGrid d A B x) (hd : 0 < d) (h1 : 4 * A ≤ top) (h2 : 4 * B ≤ top) (h3 : 4 * d ≤ top) :
    Same ((Machine.arith p).mul x ⟨-1, 0, 1⟩) (p.arith.mul x ⟨-1, 0, 1⟩) (OnGrid d A B) ∧
    Same ((Machine.arith p).mul ⟨-1, 0, 1⟩ x) (p.arith.mul ⟨-1, 0, 1⟩ x) (OnGrid d A B) := by
  have := grid_mul_frac p hx hd (j := -1) (k := 1) one_pos (by simpa using h1) (by simpa using h2) (by simpa using h3)
  simpa using this

theorem grid_sub (p : Package) (hx : OnGrid d A B x) (hy : OnGrid d A' B' y) (hd : 0 < d) (h1 : 4 * (A + A') * d ≤ top)
    (h2 : 4 * (B + B') * d ≤ top) (h3 : 4 * d * d ≤ top) :
    Same ((Machine.arith p).sub x y) (p.arith.sub x y) (OnGrid d (A + A') (B + B')) := by
  obtain ⟨-, -, -, -, hA, hB⟩ := hx.bounds hd
  obtain ⟨-, -, -, -, hA', hB'⟩ := hy.bounds hd
  have e1 : (Machine.arith p).sub x y = (Machine.arith p).mul ⟨-1, 0, 1⟩ y >>= fun y' => (Machine.arith p).add x y' := by
    cases p <;> simp only [Machine.arith] <;> rfl
  have e2 : p.arith.sub x y = p.arith.mul ⟨-1, 0, 1⟩ y >>= fun y' => p.arith.add x y' := by
    cases p
    · exact ico_sub_bind x y
    · exact dode_sub_bind x y
  rw [e1, e2]
  have hd1 : 1 ≤ d := hd
  have b1 : 0 ≤ (A + A') * d := mul_nonneg (by linarith) hd.le
  have b2 : 0 ≤ (B + B') * d := mul_nonneg (by linarith) hd.le
  refine Same.bind (grid_neg p hy hd ?_ ?_ ?_).2 fun r _ hr => grid_add p hx hr hd ?_ ?_ ?_
  · nlinarith
  · nlinarith
  · nlinarith
  · linarith
  · linarith
  · nlinarith

end
end PyQC
