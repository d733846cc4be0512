import Verif.Lemmas.Cone
import Verif.Lemmas.Grid
/-!
# Objects with corners on an integer grid: the tolerances of the code do not matter
-/
namespace PyQC
open Matrix

theorem dot_bary {m : Nat} {q : Fin m → Fin 3 → ℝ} {w : Fin m → ℝ} {x : Fin 3 → ℝ} (h : IsBary q w x) (n : Fin 3 → ℝ) :
    n ⬝ᵥ x = ∑ i, w i * (n ⬝ᵥ q i) := by
  rw [h.2, dotProduct_sum]
  exact Finset.sum_congr rfl fun i _ => dotProduct_smul _ _ _

/-- Two pieces on two sides of a plane, not both in the plane, have no common inside point. -/
theorem inside_sep {k l : Nat} {P : Fin k → Fin 3 → ℝ} {Q : Fin l → Fin 3 → ℝ} (n : Fin 3 → ℝ)
    (hle : ∀ i j, n ⬝ᵥ P i ≤ n ⬝ᵥ Q j) (hlt : ∃ i j, n ⬝ᵥ P i < n ⬝ᵥ Q j) : inside P ∩ inside Q = ∅ := by
  rw [Set.eq_empty_iff_forall_notMem]
  rintro x ⟨⟨v, hv, pv⟩, ⟨w, hw, pw⟩⟩
  have e1 := dot_bary hv n
  have e2 := dot_bary hw n
  have key : ∑ i, ∑ j, v i * w j * (n ⬝ᵥ Q j - n ⬝ᵥ P i) = 0 := by
    have : ∀ i, ∑ j, v i * w j * (n ⬝ᵥ Q j - n ⬝ᵥ P i) = v i * (n ⬝ᵥ x) - v i * (n ⬝ᵥ P i) := by
      intro i
      have h1 : ∑ j, v i * w j * (n ⬝ᵥ Q j - n ⬝ᵥ P i) =
          v i * (∑ j, w j * (n ⬝ᵥ Q j)) - v i * (n ⬝ᵥ P i) * ∑ j, w j := by
        rw [Finset.mul_sum, Finset.mul_sum, ← Finset.sum_sub_distrib]
        exact Finset.sum_congr rfl fun j _ => by ring
      rw [h1, ← e2, hw.1, mul_one]
    rw [Finset.sum_congr rfl fun i _ => this i, Finset.sum_sub_distrib, ← Finset.sum_mul, hv.1, one_mul, ← e1, sub_self]
  obtain ⟨i, j, hij⟩ := hlt
  have h2 : 0 < ∑ i, ∑ j, v i * w j * (n ⬝ᵥ Q j - n ⬝ᵥ P i) := by
    refine Finset.sum_pos' (fun a _ => Finset.sum_nonneg fun b _ =>
      mul_nonneg (mul_pos (pv a) (pw b)).le (sub_nonneg.2 (hle a b))) ⟨i, Finset.mem_univ _, ?_⟩
    exact Finset.sum_pos' (fun b _ => mul_nonneg (mul_pos (pv i) (pw b)).le (sub_nonneg.2 (hle i b)))
      ⟨j, Finset.mem_univ _, mul_pos (mul_pos (pv i) (pw j)) (sub_pos.2 hij)⟩
  exact h2.ne' key

theorem interior_inside {q : Fin 4 → Fin 3 → ℝ} (h : det4 q ≠ 0) {x : Fin 3 → ℝ} (hx : x ∈ interior (solid q)) :
    x ∈ inside q := ⟨bc q x, bc_spec h x, (interior_bc h).1 hx⟩

/-- A short integer vector is zero. -/
theorem int_short {w : Fin 3 → ℤ} {r : ℝ} (hr : r ≤ 1) (h : (w 0 : ℝ) ^ 2 + (w 1 : ℝ) ^ 2 + (w 2 : ℝ) ^ 2 < r) : w = 0 := by
  have h1 : w 0 ^ 2 + w 1 ^ 2 + w 2 ^ 2 < 1 := by
    have : (w 0 : ℝ) ^ 2 + (w 1 : ℝ) ^ 2 + (w 2 : ℝ) ^ 2 < 1 := lt_of_lt_of_le h hr
    exact_mod_cast this
  have h0 := sq_nonneg (w 0)
  have h2 := sq_nonneg (w 1)
  have h3 := sq_nonneg (w 2)
  funext j
  fin_cases j
  · exact pow_eq_zero_iff (two_ne_zero) |>.1 (show w 0 ^ 2 = 0 by omega)
  · exact pow_eq_zero_iff (two_ne_zero) |>.1 (show w 1 ^ 2 = 0 by omega)
  · exact pow_eq_zero_iff (two_ne_zero) |>.1 (show w 2 ^ 2 = 0 by omega)

theorem lagrange3 (u0 u1 u2 p0 p1 p2 : ℝ) : (u0 * p1 - u1 * p0) ^ 2 + (u0 * p2 - u2 * p0) ^ 2 + (u1 * p2 - u2 * p1) ^ 2 ≤
    (u0 ^ 2 + u1 ^ 2 + u2 ^ 2) * (p0 ^ 2 + p1 ^ 2 + p2 ^ 2) := by
  have := sq_nonneg (u0 * p0 + u1 * p1 + u2 * p2)
  have e : (u0 ^ 2 + u1 ^ 2 + u2 ^ 2) * (p0 ^ 2 + p1 ^ 2 + p2 ^ 2) = (u0 * p1 - u1 * p0) ^ 2 + (u0 * p2 - u2 * p0) ^ 2 +
    (u1 * p2 - u2 * p1) ^ 2 + (u0 * p0 + u1 * p1 + u2 * p2) ^ 2 := by ring
  linarith

/-- Close to a multiple `t * u`, `0 ≤ t ≤ 1`, of a short integer vector `u`: an integer vector is itself such a multiple. -/
theorem int_line {u w : Fin 3 → ℤ} {t r M : ℝ} (t0 : 0 ≤ t) (t1 : t ≤ 1) (hr : r ≤ 1) (hM : 3 * M ^ 2 * r ≤ 1)
    (hu : ∀ j, (u j : ℝ) ^ 2 ≤ M ^ 2)
    (hd : ((w 0 : ℝ) - t * u 0) ^ 2 + ((w 1 : ℝ) - t * u 1) ^ 2 + ((w 2 : ℝ) - t * u 2) ^ 2 < r) :
    ∃ s : ℝ, 0 ≤ s ∧ s ≤ 1 ∧ ∀ j, (w j : ℝ) = s * u j := by
  by_cases hu0 : u = 0
  · have : w = 0 := by
      subst hu0
      refine int_short hr ?_
      simpa using hd
    exact ⟨0, le_rfl, zero_le_one, fun j => by simp [this]⟩
  have hUpos : 0 < (u 0 : ℝ) ^ 2 + (u 1 : ℝ) ^ 2 + (u 2 : ℝ) ^ 2 := by
    by_contra hn
    exact hu0 (int_short (r := 1) le_rfl (by linarith))
  have hMpos : 0 < 3 * M ^ 2 := by linarith [hu 0, hu 1, hu 2]
  have hc : (fun k : Fin 3 => (![u 0 * w 1 - u 1 * w 0, u 0 * w 2 - u 2 * w 0, u 1 * w 2 - u 2 * w 1] : Fin 3 → ℤ) k) = 0 := by
    refine int_short (r := 1) le_rfl ?_
    have lag := lagrange3 (u 0) (u 1) (u 2) ((w 0 : ℝ) - t * u 0) ((w 1 : ℝ) - t * u 1) ((w 2 : ℝ) - t * u 2)
    have h1 : ((u 0 : ℝ) ^ 2 + (u 1 : ℝ) ^ 2 + (u 2 : ℝ) ^ 2) *
        (((w 0 : ℝ) - t * u 0) ^ 2 + ((w 1 : ℝ) - t * u 1) ^ 2 + ((w 2 : ℝ) - t * u 2) ^ 2) ≤ 3 * M ^ 2 *
        (((w 0 : ℝ) - t * u 0) ^ 2 + ((w 1 : ℝ) - t * u 1) ^ 2 + ((w 2 : ℝ) - t * u 2) ^ 2) :=
      mul_le_mul_of_nonneg_right (by linarith [hu 0, hu 1, hu 2]) (by positivity)
    have h2 := mul_lt_mul_of_pos_left hd hMpos
    have e : ∀ a b : Fin 3, (u a : ℝ) * ((w b : ℝ) - t * u b) - u b * ((w a : ℝ) - t * u a) = u a * w b - u b * w a :=
      fun a b => by ring
    rw [e, e, e] at lag
    simp only [cons_val_zero, cons_val_one, cons_val]
    push_cast
    linarith
  have c01 : (u 0 : ℝ) * w 1 - u 1 * w 0 = 0 := by exact_mod_cast congrFun hc 0
  have c02 : (u 0 : ℝ) * w 2 - u 2 * w 0 = 0 := by exact_mod_cast congrFun hc 1
  have c12 : (u 1 : ℝ) * w 2 - u 2 * w 1 = 0 := by exact_mod_cast congrFun hc 2
  obtain ⟨s, hs⟩ : ∃ s : ℝ, ∀ j, (w j : ℝ) = s * u j := by
    refine ⟨((u 0 : ℝ) * w 0 + u 1 * w 1 + u 2 * w 2) / ((u 0 : ℝ) ^ 2 + (u 1 : ℝ) ^ 2 + (u 2 : ℝ) ^ 2), fun j => ?_⟩
    rw [div_mul_eq_mul_div, eq_div_iff hUpos.ne']
    fin_cases j
    · change (w 0 : ℝ) * _ = _ * (u 0 : ℝ)
      linear_combination -(u 1 : ℝ) * c01 - (u 2 : ℝ) * c02
    · change (w 1 : ℝ) * _ = _ * (u 1 : ℝ)
      linear_combination (u 0 : ℝ) * c01 - (u 2 : ℝ) * c12
    · change (w 2 : ℝ) * _ = _ * (u 2 : ℝ)
      linear_combination (u 0 : ℝ) * c02 + (u 1 : ℝ) * c12
  have hd' : (s - t) ^ 2 * ((u 0 : ℝ) ^ 2 + (u 1 : ℝ) ^ 2 + (u 2 : ℝ) ^ 2) < r := by
    rw [hs, hs, hs] at hd
    have : (s - t) ^ 2 * ((u 0 : ℝ) ^ 2 + (u 1 : ℝ) ^ 2 + (u 2 : ℝ) ^ 2) =
      (s * (u 0 : ℝ) - t * u 0) ^ 2 + (s * (u 1 : ℝ) - t * u 1) ^ 2 + (s * (u 2 : ℝ) - t * u 2) ^ 2 := by ring
    rw [this]; exact hd
  by_cases h0 : 0 ≤ s
  · by_cases h1 : s ≤ 1
    · exact ⟨s, h0, h1, hs⟩
    · push Not at h1
      have hz : (fun j => w j - u j) = 0 := by
        refine int_short hr (lt_of_le_of_lt ?_ hd')
        push_cast
        rw [hs, hs, hs]
        have : (s - 1) ^ 2 ≤ (s - t) ^ 2 := pow_le_pow_left₀ (by linarith) (by linarith) 2
        calc _ = (s - 1) ^ 2 * ((u 0 : ℝ) ^ 2 + (u 1 : ℝ) ^ 2 + (u 2 : ℝ) ^ 2) := by ring
          _ ≤ _ := mul_le_mul_of_nonneg_right this hUpos.le
      refine ⟨1, zero_le_one, le_rfl, fun j => ?_⟩
      have : w j = u j := sub_eq_zero.1 (congrFun hz j)
      rw [this, one_mul]
  · push Not at h0
    have hz : w = 0 := by
      refine int_short hr (lt_of_le_of_lt ?_ hd')
      rw [hs, hs, hs]
      have : s ^ 2 ≤ (s - t) ^ 2 := by nlinarith
      calc _ = s ^ 2 * ((u 0 : ℝ) ^ 2 + (u 1 : ℝ) ^ 2 + (u 2 : ℝ) ^ 2) := by ring
        _ ≤ _ := mul_le_mul_of_nonneg_right this hUpos.le
    exact ⟨0, le_rfl, zero_le_one, fun j => by simp [hz]⟩

/-- A grid point close to a segment between grid points lies on it. -/
theorem grid_line {a b c : Fin 3 → ℝ} {a' b' c' : Fin 3 → ℤ} {n M : ℕ} (hn : 0 < n) (ha : ∀ j, a j = a' j / n)
    (hb : ∀ j, b j = b' j / n) (hc : ∀ j, c j = c' j / n) (hab : ∀ j, |b' j - a' j| ≤ M) (hM : 6 * M ^ 2 * n ^ 2 ≤ 10 ^ 6)
    (hn2 : 2 * n ^ 2 ≤ 10 ^ 6)
    {x : Fin 3 → ℝ} (hx : x ∈ segment ℝ a b) (hd : dist3 c x ^ 2 < 2 / 10 ^ 6) : c ∈ segment ℝ a b := by
  have hn0 : (0 : ℝ) < n := by exact_mod_cast hn
  have hM' : 6 * (M : ℝ) ^ 2 * n ^ 2 ≤ 10 ^ 6 := by exact_mod_cast hM
  have hn2' : 2 * (n : ℝ) ^ 2 ≤ 10 ^ 6 := by exact_mod_cast hn2
  rw [segment_eq_image'] at hx ⊢
  obtain ⟨t, ⟨t0, t1⟩, rfl⟩ := hx
  have hd' : (c 0 - (a 0 + t * (b 0 - a 0))) ^ 2 + (c 1 - (a 1 + t * (b 1 - a 1))) ^ 2 +
      (c 2 - (a 2 + t * (b 2 - a 2))) ^ 2 < 2 / 10 ^ 6 := by
    unfold dist3 at hd
    rw [Real.sq_sqrt (by positivity)] at hd
    exact hd
  clear hd
  obtain ⟨u, hu⟩ : ∃ u : Fin 3 → ℤ, ∀ j, u j = b' j - a' j := ⟨_, fun _ => rfl⟩
  obtain ⟨w, hw⟩ : ∃ w : Fin 3 → ℤ, ∀ j, w j = c' j - a' j := ⟨_, fun _ => rfl⟩
  have ej : ∀ j, c j - (a j + t * (b j - a j)) = ((w j : ℝ) - t * u j) / n := by
    intro j
    rw [ha, hb, hc, hu, hw]
    push_cast
    ring
  have hd2 : ((w 0 : ℝ) - t * u 0) ^ 2 + ((w 1 : ℝ) - t * u 1) ^ 2 + ((w 2 : ℝ) - t * u 2) ^ 2 < 2 / 10 ^ 6 * (n : ℝ) ^ 2 := by
    rw [ej, ej, ej, div_pow, div_pow, div_pow, ← add_div, ← add_div, div_lt_iff₀ (by positivity)] at hd'
    exact hd'
  have husq : ∀ j, (u j : ℝ) ^ 2 ≤ (M : ℝ) ^ 2 := by
    intro j
    have h1 : |u j| ≤ (M : ℤ) := by rw [hu]; exact hab j
    have h2 : |(u j : ℝ)| ≤ M := by exact_mod_cast h1
    rw [← sq_abs]
    exact pow_le_pow_left₀ (abs_nonneg _) h2 2
  obtain ⟨s, s0, s1, hs⟩ := int_line t0 t1 (show 2 / 10 ^ 6 * (n : ℝ) ^ 2 ≤ 1 by linarith)
    (show 3 * (M : ℝ) ^ 2 * (2 / 10 ^ 6 * (n : ℝ) ^ 2) ≤ 1 by linarith) husq hd2
  refine ⟨s, ⟨s0, s1⟩, funext fun j => ?_⟩
  have := hs j
  rw [hu, hw] at this
  push_cast at this
  change a j + s * (b j - a j) = c j
  rw [ha, hb, hc, show (c' j : ℝ) = a' j + s * (b' j - a' j) by linarith]
  ring

/-- Integer dot product. -/
def dotZ (m p : Fin 3 → ℤ) : ℤ := m 0 * p 0 + m 1 * p 1 + m 2 * p 2

theorem dot_int {m p : Fin 3 → ℤ} {x : Fin 3 → ℝ} {n : ℕ} (hx : ∀ j, x j = p j / n) :
    (fun j => (m j : ℝ)) ⬝ᵥ x = (dotZ m p : ℝ) / n := by
  rw [vec3_dotProduct, hx, hx, hx, dotZ]
  push_cast
  ring

/-- Two lists of grid points lie on two sides of a plane, not both in it. -/
def SepZ {k l : Nat} (P : Fin k → Fin 3 → ℤ) (Q : Fin l → Fin 3 → ℤ) (m : Fin 3 → ℤ) : Prop :=
  (∀ i j, dotZ m (P i) ≤ dotZ m (Q j)) ∧ ∃ i j, dotZ m (P i) < dotZ m (Q j)

instance {k l : Nat} (P : Fin k → Fin 3 → ℤ) (Q : Fin l → Fin 3 → ℤ) (m : Fin 3 → ℤ) : Decidable (SepZ P Q m) := by
  unfold SepZ; infer_instance

theorem SepZ.inside {k l : Nat} {P : Fin k → Fin 3 → ℝ} {Q : Fin l → Fin 3 → ℝ} {a : Fin k → Fin 3 → ℤ} {b : Fin l → Fin 3 → ℤ}
    {n : ℕ} (hn : 0 < n) (hP : ∀ i j, P i j = a i j / n) (hQ : ∀ i j, Q i j = b i j / n) {m : Fin 3 → ℤ} (h : SepZ a b m) :
    inside P ∩ inside Q = ∅ := by
  have hn0 : (0 : ℝ) < n := by exact_mod_cast hn
  refine inside_sep (fun j => (m j : ℝ)) (fun i j => ?_) ?_
  · rw [dot_int (hP i), dot_int (hQ j)]
    have := h.1 i j
    gcongr
  · obtain ⟨i, j, hij⟩ := h.2
    refine ⟨i, j, ?_⟩
    rw [dot_int (hP i), dot_int (hQ j)]
    gcongr

/-- Well-formedness of an object with corners on a grid. -/
theorem wellFormed_grid (o : Obj 4) (A : Fin o.length → Fin 4 → Fin 3 → ℤ) (n : ℕ) (hn : 0 < n) (hne : o ≠ []) (hok : Obj.Ok o)
    (hA : ∀ a i j, Package.ico.perp (o.get a i) j = A a i j / n) (hvol : ∀ a, detZ (A a) ≠ 0)
    (hsep : ∀ a b, a < b → ∃ m, SepZ (A a) (A b) m) : WellFormed o := by
  have hn0 : (0 : ℝ) < n := by exact_mod_cast hn
  have hdet : ∀ a, det4 (Package.ico.perps (o.get a)) ≠ 0 := by
    intro a
    refine (det4_int (hA a)).trans_ne ?_
    exact div_ne_zero (by exact_mod_cast hvol a) (by positivity)
  refine ⟨hne, hok, ?_, ?_⟩
  · intro s hs
    obtain ⟨a, rfl⟩ := List.get_of_mem hs
    rw [tetVol_det4]
    exact div_ne_zero (abs_ne_zero.2 (hdet a)) (by norm_num)
  · refine List.pairwise_iff_get.2 fun a b hab => ?_
    obtain ⟨m, hm⟩ := hsep a b hab
    rw [Set.eq_empty_iff_forall_notMem]
    rintro x ⟨h1, h2⟩
    have := SepZ.inside hn (hA a) (hA b) hm
    exact (Set.eq_empty_iff_forall_notMem.1 this) x ⟨interior_inside (hdet a) h1, interior_inside (hdet b) h2⟩

/-- Same set of grid points. -/
def SameZ {k l : Nat} (P : Fin k → Fin 3 → ℤ) (Q : Fin l → Fin 3 → ℤ) : Prop :=
  (∀ i, ∃ j, P i = Q j) ∧ ∀ j, ∃ i, P i = Q j

instance {k l : Nat} (P : Fin k → Fin 3 → ℤ) (Q : Fin l → Fin 3 → ℤ) : Decidable (SameZ P Q) := by
  unfold SameZ; infer_instance

theorem SameZ.range {k l : Nat} {P : Fin k → Fin 3 → ℝ} {Q : Fin l → Fin 3 → ℝ} {a : Fin k → Fin 3 → ℤ} {b : Fin l → Fin 3 → ℤ}
    {n : ℕ} (hP : ∀ i j, P i j = a i j / n) (hQ : ∀ i j, Q i j = b i j / n) (h : SameZ a b) : Set.range P = Set.range Q := by
  ext x
  constructor
  · rintro ⟨i, rfl⟩
    obtain ⟨j, hj⟩ := h.1 i
    exact ⟨j, funext fun c => by rw [hP, hQ, hj]⟩
  · rintro ⟨j, rfl⟩
    obtain ⟨i, hi⟩ := h.2 j
    exact ⟨i, funext fun c => by rw [hP, hQ, hi]⟩

theorem flat_grid {a b c d : Fin 3 → ℝ} {a' b' c' d' : Fin 3 → ℤ} {n : ℕ} (hn : 0 < n) (hn3 : n ^ 3 ≤ 10 ^ 10)
    (ha : ∀ j, a j = a' j / n) (hb : ∀ j, b j = b' j / n) (hc : ∀ j, c j = c' j / n) (hd : ∀ j, d j = d' j / n)
    (h : |((b - a) ⨯₃ (c - a)) ⬝ᵥ (d - a)| < 1 / 10 ^ 10) : ((b - a) ⨯₃ (c - a)) ⬝ᵥ (d - a) = 0 := by
  have hn0 : (0 : ℝ) < n := by exact_mod_cast hn
  have hn3' : (n : ℝ) ^ 3 ≤ 10 ^ 10 := by exact_mod_cast hn3
  have hs : ∀ {u v : Fin 3 → ℝ} {p q : Fin 3 → ℤ}, (∀ j, u j = p j / n) → (∀ j, v j = q j / n) →
      ∀ j, (u - v) j = ((fun j => p j - q j : Fin 3 → ℤ) j : ℝ) / n := by
    intro u v p q hu hv j
    rw [Pi.sub_apply, hu, hv]
    push_cast
    ring
  rw [trip_int (hs hb ha) (hs hc ha) (hs hd ha)] at h ⊢
  by_contra hne
  have e : (n : ℝ) * n * n = n ^ 3 := by ring
  have := quot_large (m := (n : ℝ) * n * n) (B := 10 ^ 10) (by positivity) (by rw [e, abs_of_pos (by positivity)]; exact hn3') hne
  linarith

/-- Four points in one plane have determinant zero. -/
theorem det4_flat {q : Fin 4 → Fin 3 → ℝ} {v : Fin 3 → ℝ} (hv : v ≠ 0) {d : ℝ} (h : ∀ x, v ⬝ᵥ q x = d) : det4 q = 0 := by
  by_contra hne
  have hb := bc_spec hne (q 0 + v)
  have h1 := dot_bary hb v
  rw [dotProduct_add, h 0, Finset.sum_congr rfl fun i _ => by rw [h i], ← Finset.sum_mul, hb.1, one_mul] at h1
  exact hv (dotProduct_self_eq_zero.1 (by linarith))

theorem det_grid {T : Fin 3 → Fin 3 → ℝ} {x : Fin 3 → ℝ} {a : Fin 3 → Fin 3 → ℤ} {b : Fin 3 → ℤ} {n : ℕ} (hn : 0 < n)
    {v : Fin 3 → ℝ} (hv : v ≠ 0) {d : ℝ} (hT : ∀ k, v ⬝ᵥ T k = d) (hx : v ⬝ᵥ x = d) (ha : ∀ k c, T k c = a k c / n)
    (hb : ∀ c, x c = b c / n) : detZ ![a 0, a 1, a 2, b] = 0 := by
  have hn0 : (0 : ℝ) < n := by exact_mod_cast hn
  have hS : ∀ y c, (![T 0, T 1, T 2, x] : Fin 4 → Fin 3 → ℝ) y c = (![a 0, a 1, a 2, b] : Fin 4 → Fin 3 → ℤ) y c / n := by
    intro y c
    fin_cases y
    · exact ha 0 c
    · exact ha 1 c
    · exact ha 2 c
    · exact hb c
  have hdet := det4_int hS
  have h0 := det4_flat (q := ![T 0, T 1, T 2, x]) hv (d := d) fun x => by
    fin_cases x
    · exact hT 0
    · exact hT 1
    · exact hT 2
    · exact hx
  rw [h0, eq_comm, div_eq_zero_iff] at hdet
  rcases hdet with h1 | h1
  · exact_mod_cast h1
  · exact absurd h1 (by positivity)

theorem edge_grid (p : Package) {m : Nat} {s t : Simplex m} {a b : Fin m → Fin 3 → ℤ} {n : ℕ} (hn : 0 < n)
    (hs : ∀ i j, p.perp (s i) j = a i j / n) (ht : ∀ i j, p.perp (t i) j = b i j / n) {i j k l : Fin m}
    (h : (∀ c, a i c + a j c = b k c + b l c) → SameZ ![a i, a j] ![b k, b l])
    (hmid : p.centroidPerp (edge s i j) = p.centroidPerp (edge t k l)) :
    Set.range (p.perps (edge s i j)) = Set.range (p.perps (edge t k l)) := by
  have hn0 : (0 : ℝ) < n := by exact_mod_cast hn
  have h2 : ∀ {s : Simplex m} {a : Fin m → Fin 3 → ℤ}, (∀ i j, p.perp (s i) j = a i j / n) → ∀ i j x c,
      p.perps (edge s i j) x c = (![a i, a j] : Fin 2 → Fin 3 → ℤ) x c / n := by
    intro s a hs i j x c
    fin_cases x
    · exact hs i c
    · exact hs j c
  refine SameZ.range (h2 hs i j) (h2 ht k l) (h fun c => ?_)
  have hm := congrFun hmid c
  change (((2 : ℕ) : ℝ)⁻¹ • ∑ x, p.perps (edge s i j) x) c = (((2 : ℕ) : ℝ)⁻¹ • ∑ x, p.perps (edge t k l) x) c at hm
  rw [Pi.smul_apply, Pi.smul_apply, Finset.sum_apply, Finset.sum_apply, Fin.sum_univ_two, Fin.sum_univ_two, h2 hs, h2 hs,
    h2 ht, h2 ht, smul_eq_mul, smul_eq_mul] at hm
  have h3 := mul_left_cancel₀ (inv_ne_zero (by norm_num)) hm
  rw [← add_div, ← add_div, div_left_inj' hn0.ne'] at h3
  exact_mod_cast h3

/-- Faces with close centroids have the same corners, for tetrahedra with corners on a grid, from integer checks. -/
theorem faces_grid (o : Obj 4) (A : Fin o.length → Fin 4 → Fin 3 → ℤ) (n M : ℕ) (hn : 0 < n)
    (hA : ∀ a i j, Package.ico.perp (o.get a i) j = A a i j / n) (hM : ∀ a i j, |A a i j| ≤ M) (hC : 3 * n + 3000 * M < 10 ^ 8)
    (hfaces : ∀ i j : Fin o.length × Fin 4, (∀ c, ∑ k, A i.1 (i.2.succAbove k) c = ∑ k, A j.1 (j.2.succAbove k) c) →
      SameZ (fun k => A i.1 (i.2.succAbove k)) (fun k => A j.1 (j.2.succAbove k))) (i j : Fin o.length × Fin 4)
    (hclose : Close (Package.ico.centroidPerp (face o i)) (Package.ico.centroidPerp (face o j))) :
    Set.range (Package.ico.perps (face o i)) = Set.range (Package.ico.perps (face o j)) := by
  have hn0 : (0 : ℝ) < n := by exact_mod_cast hn
  have hface : ∀ (i : Fin o.length × Fin 4) k c, Package.ico.perps (face o i) k c = A i.1 (i.2.succAbove k) c / n :=
    fun i k c => hA i.1 (i.2.succAbove k) c
  have hcent : ∀ (i : Fin o.length × Fin 4) c, Package.ico.centroidPerp (face o i) c = ((∑ k, A i.1 (i.2.succAbove k) c : ℤ) : ℝ) / (3 * n) := by
    intro i c
    change ((((3 : ℕ) : ℝ)⁻¹) • ∑ k, Package.ico.perps (face o i) k) c = _
    rw [Pi.smul_apply, Finset.sum_apply, Finset.sum_congr rfl fun k _ => hface i k c, ← Finset.sum_div, smul_eq_mul]
    push_cast
    field_simp
  refine SameZ.range (hface i) (hface j) (hfaces i j fun c => ?_)
  have h := hclose c
  rw [hcent, hcent] at h
  by_contra hne
  have hbound : |((∑ k, A j.1 (j.2.succAbove k) c : ℤ) : ℝ)| ≤ 3 * M := by
    have h1 : |∑ k, A j.1 (j.2.succAbove k) c| ≤ 3 * (M : ℤ) := by
      refine (Finset.abs_sum_le_sum_abs _ _).trans ?_
      refine (Finset.sum_le_sum fun k _ => hM j.1 (j.2.succAbove k) c).trans ?_
      simp
    exact_mod_cast h1
  have hone : (1 : ℝ) ≤ |((∑ k, A i.1 (i.2.succAbove k) c : ℤ) : ℝ) - ((∑ k, A j.1 (j.2.succAbove k) c : ℤ) : ℝ)| := by
    exact_mod_cast Int.one_le_abs (sub_ne_zero.2 hne)
  have hC' : 3 * (n : ℝ) + 3000 * M < 10 ^ 8 := by exact_mod_cast hC
  generalize ((∑ k, A i.1 (i.2.succAbove k) c : ℤ) : ℝ) = x at *
  generalize ((∑ k, A j.1 (j.2.succAbove k) c : ℤ) : ℝ) = y at *
  rw [← sub_div, abs_div, abs_div, abs_of_pos (show (0 : ℝ) < 3 * n by positivity), div_le_iff₀ (by positivity), add_mul,
    mul_assoc, div_mul_cancel₀ _ (show (3 * (n : ℝ)) ≠ 0 by positivity)] at h
  linarith

/-- Sharpness of an object with corners on a grid, from integer checks. -/
theorem sharp_grid (o : Obj 4) (A : Fin o.length → Fin 4 → Fin 3 → ℤ) (n M : ℕ) (hn : 0 < n)
    (hA : ∀ a i j, Package.ico.perp (o.get a i) j = A a i j / n) (hM : ∀ a i j, |A a i j| ≤ M)
    (hn3 : n ^ 3 ≤ 10 ^ 10) (hn2 : 2 * n ^ 2 ≤ 10 ^ 6) (hMn : 24 * M ^ 2 * n ^ 2 ≤ 10 ^ 6) (hC : 3 * n + 3000 * M < 10 ^ 8)
    (hfaces : ∀ i j : Fin o.length × Fin 4, (∀ c, ∑ k, A i.1 (i.2.succAbove k) c = ∑ k, A j.1 (j.2.succAbove k) c) →
      SameZ (fun k => A i.1 (i.2.succAbove k)) (fun k => A j.1 (j.2.succAbove k)))
    (hmeet : ∀ i j : Fin o.length × Fin 4, SameZ (fun k => A i.1 (i.2.succAbove k)) (fun k => A j.1 (j.2.succAbove k)) ∨
      (∃ k, detZ ![A i.1 (i.2.succAbove 0), A i.1 (i.2.succAbove 1), A i.1 (i.2.succAbove 2), A j.1 (j.2.succAbove k)] ≠ 0) ∨
      ∃ m, SepZ (fun k => A i.1 (i.2.succAbove k)) (fun k => A j.1 (j.2.succAbove k)) m)
    (hedges : ∀ a b, ∀ i j k l : Fin 4, i ≠ j → k ≠ l → (∀ c, A a i c + A a j c = A b k c + A b l c) →
      SameZ ![A a i, A a j] ![A b k, A b l]) : Sharp o := by
  have hn0 : (0 : ℝ) < n := by exact_mod_cast hn
  have corner : ∀ x ∈ Package.ico.corners o, ∃ a i, ∀ j, x j = A a i j / n := by
    rintro x ⟨s, hs, i, rfl⟩
    obtain ⟨a, rfl⟩ := List.get_of_mem hs
    exact ⟨a, i, hA a i⟩
  have hface : ∀ (i : Fin o.length × Fin 4) k c, Package.ico.perps (face o i) k c = A i.1 (i.2.succAbove k) c / n :=
    fun i k c => hA i.1 (i.2.succAbove k) c
  refine ⟨?_, ?_, ?_, ?_, ?_⟩
  · intro a ha b hb c hc d hd h
    obtain ⟨a1, a2, ha⟩ := corner a ha
    obtain ⟨b1, b2, hb⟩ := corner b hb
    obtain ⟨c1, c2, hc⟩ := corner c hc
    obtain ⟨d1, d2, hd⟩ := corner d hd
    exact flat_grid hn hn3 ha hb hc hd h
  · intro a ha b hb c hc x hx h
    obtain ⟨a1, a2, ha⟩ := corner a ha
    obtain ⟨b1, b2, hb⟩ := corner b hb
    obtain ⟨c1, c2, hc⟩ := corner c hc
    refine grid_line hn ha hb hc (M := 2 * M) (fun j => ?_) (le_trans (le_of_eq (by ring)) hMn) hn2 hx h
    have h1 := hM b1 b2 j
    have h2 := hM a1 a2 j
    push_cast
    rw [abs_le] at h1 h2 ⊢
    constructor <;> linarith [h1.1, h1.2, h2.1, h2.2]
  · exact faces_grid o A n M hn hA hM hC hfaces
  · intro i j hco hin
    rcases hmeet i j with h | ⟨k, h⟩ | ⟨m, h⟩
    · exact SameZ.range (hface i) (hface j) h
    · exfalso
      obtain ⟨v, hv, d, hd⟩ := hco
      exact h (det_grid (a := fun k => A i.1 (i.2.succAbove k)) (b := A j.1 (j.2.succAbove k)) hn hv (fun x => (hd x).1) (hd k).2
        (hface i) (hface j k))
    · rw [SepZ.inside hn (hface i) (hface j) h] at hin
      exact absurd hin Set.not_nonempty_empty
  · intro s hs t ht i j k l hij hkl hmid
    obtain ⟨a, rfl⟩ := List.get_of_mem hs
    obtain ⟨b, rfl⟩ := List.get_of_mem ht
    exact edge_grid .ico (a := A a) (b := A b) hn (hA a) (hA b) (hedges a b i j k l hij hkl) hmid

/-- Sharpness of triangles with corners on a grid, from integer checks. -/
theorem sharpTriangles_grid (p : Package) (o : Obj 3) (A : Fin o.length → Fin 3 → Fin 3 → ℤ) (n M : ℕ) (hn : 0 < n) (hne : o ≠ [])
    (hok : Obj.Ok o) (hA : ∀ a i j, p.perp (o.get a i) j = A a i j / n) (hM : ∀ a i j, |A a i j| ≤ M)
    (hn3 : n ^ 3 ≤ 10 ^ 10) (hn2 : 2 * n ^ 2 ≤ 10 ^ 6) (hMn : 24 * M ^ 2 * n ^ 2 ≤ 10 ^ 6)
    (hproper : ∀ a, (fun c => A a 1 c - A a 0 c) ⨯₃ (fun c => A a 2 c - A a 0 c) ≠ 0)
    (hmeet : ∀ i j : Fin o.length, i ≠ j →
      (∃ k, detZ ![A i 0, A i 1, A i 2, A j k] ≠ 0) ∨ ∃ m, SepZ (A i) (A j) m)
    (hedges : ∀ a b, ∀ i j k l : Fin 3, i ≠ j → k ≠ l → (∀ c, A a i c + A a j c = A b k c + A b l c) →
      SameZ ![A a i, A a j] ![A b k, A b l]) : SharpTriangles p o := by
  have hn0 : (0 : ℝ) < n := by exact_mod_cast hn
  have corner : ∀ x ∈ p.corners o, ∃ a i, ∀ j, x j = A a i j / n := by
    rintro x ⟨s, hs, i, rfl⟩
    obtain ⟨a, rfl⟩ := List.get_of_mem hs
    exact ⟨a, i, hA a i⟩
  refine ⟨hne, hok, ?_, ?_, ?_, ?_, ?_⟩
  · intro t ht h0
    obtain ⟨a, rfl⟩ := List.get_of_mem ht
    refine hproper a (funext fun c => ?_)
    have h1 := congrFun h0 c
    simp only [cross_apply, Pi.sub_apply, hA, Pi.zero_apply] at h1 ⊢
    rw [← Int.cast_inj (α := ℝ)]
    fin_cases c <;> simp only [Fin.zero_eta, Fin.mk_one, Fin.reduceFinMk, cons_val_zero, cons_val_one, cons_val] at h1 ⊢ <;>
    · push_cast
      field_simp at h1
      linarith
  · intro i j hij hco
    rcases hmeet i j hij with ⟨k, h⟩ | ⟨m, h⟩
    · exfalso
      obtain ⟨v, hv, d, hd⟩ := hco
      exact h (det_grid hn hv (fun x => (hd x).1) (hd k).2 (hA i) (hA j k))
    · exact SepZ.inside hn (hA i) (hA j) h
  · intro a ha b hb c hc d hd h
    obtain ⟨a1, a2, ha⟩ := corner a ha
    obtain ⟨b1, b2, hb⟩ := corner b hb
    obtain ⟨c1, c2, hc⟩ := corner c hc
    obtain ⟨d1, d2, hd⟩ := corner d hd
    exact flat_grid hn hn3 ha hb hc hd h
  · intro a ha b hb c hc x hx h
    obtain ⟨a1, a2, ha⟩ := corner a ha
    obtain ⟨b1, b2, hb⟩ := corner b hb
    obtain ⟨c1, c2, hc⟩ := corner c hc
    refine grid_line hn ha hb hc (M := 2 * M) (fun j => ?_) (le_trans (le_of_eq (by ring)) hMn) hn2 hx h
    have h1 := hM b1 b2 j
    have h2 := hM a1 a2 j
    push_cast
    rw [abs_le] at h1 h2 ⊢
    constructor <;> linarith [h1.1, h1.2, h2.1, h2.2]
  · intro s hs t ht i j k l hij hkl hmid
    obtain ⟨a, rfl⟩ := List.get_of_mem hs
    obtain ⟨b, rfl⟩ := List.get_of_mem ht
    exact edge_grid p (a := A a) (b := A b) hn (hA a) (hA b) (hedges a b i j k l hij hkl) hmid

end PyQC
