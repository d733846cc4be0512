import Verif.Lemmas.RoundingTests
import Verif.Props.Coplanar
/-!
# The coplanarity test with rounding
-/
namespace PyQC
open Matrix

theorem flat_thr (F : Float64) {R : ℝ} (hR : 1 ≤ R) : |F.fl (1 / 10 ^ 10) - 1 / 10 ^ 10| ≤ 1 / 100 * margin R := by
  have h : Approx (1 / 10 ^ 10) 0 (1 / 10 ^ 10) (1 / 10 ^ 10) := Approx.exact (by norm_num [abs_of_pos]) (by norm_num)
  have := (h.fl F (le_900' (by norm_num)) (by norm_num)).err
  refine this.trans ?_
  rw [margin_ulp]
  have up := ulp_pos
  have h4 : ulp ≤ ulp * R ^ 3 := le_mul_of_one_le_right up.le (one_le_pow₀ hR)
  linarith

theorem normal_err (F : Float64) {R : ℝ} (hR : 1 ≤ R) (hR2 : R ≤ 2 ^ 10) {a b c a' b' c' : Fin 3 → ℝ}
    (ha : ∀ j, Approx R 75 (a' j) (a j)) (hb : ∀ j, Approx R 75 (b' j) (b j)) (hc : ∀ j, Approx R 75 (c' j) (c j)) (k : Fin 3) :
    |F.cross (F.sub b' a') (F.sub c' a') k - ((b - a) ⨯₃ (c - a)) k| ≤ R ^ 2 / 2 ^ 42 := by
  have h := (cross_approx F hR hR2 (fun i => diff_approx F hR2 (hb i) (ha i)) (fun i => diff_approx F hR2 (hc i) (ha i)) k).err
  refine h.trans ?_
  have e : R ^ 2 / 2 ^ 42 = 2048 * ulp * R ^ 2 := by unfold ulp; ring
  rw [e]
  have : 0 ≤ ulp * R ^ 2 := by have := ulp_pos; positivity
  linarith

theorem coplanar_rounded (F : Float64) {R : ℝ} (hR : 1 ≤ R) (hR2 : R ≤ 2 ^ 10) {pns pns' : List (Fin 3 → ℝ)}
    (hl : pns'.length = pns.length)
    (hp : ∀ i j, Approx R 75 (pns'.get i j) (pns.get (i.cast hl) j)) (hlen : 3 < pns.length) (draws : Draws pns'.length) :
    (F.coplanarCheckNumeric pns' draws = none ∧ ∀ d ∈ draws, ∀ k,
        |((pns.get (d.2.1.cast hl) - pns.get (d.1.cast hl)) ⨯₃ (pns.get (d.2.2.cast hl) - pns.get (d.1.cast hl))) k| <
          EPS + R ^ 2 / 2 ^ 41) ∨
    ∃ d ∈ draws, (∃ k, EPS - R ^ 2 / 2 ^ 41 ≤
        |((pns.get (d.2.1.cast hl) - pns.get (d.1.cast hl)) ⨯₃ (pns.get (d.2.2.cast hl) - pns.get (d.1.cast hl))) k|) ∧
      ((F.coplanarCheckNumeric pns' draws = some true ∧ ∀ x ∈ pns,
          |((pns.get (d.2.1.cast hl) - pns.get (d.1.cast hl)) ⨯₃ (pns.get (d.2.2.cast hl) - pns.get (d.1.cast hl))) ⬝ᵥ
            (x - pns.get (d.1.cast hl))| < 1 / 10 ^ 10 + margin R / 4) ∨
        (F.coplanarCheckNumeric pns' draws = some false ∧ ∃ x ∈ pns, 1 / 10 ^ 10 - margin R / 4 <
          |((pns.get (d.2.1.cast hl) - pns.get (d.1.cast hl)) ⨯₃ (pns.get (d.2.2.cast hl) - pns.get (d.1.cast hl))) ⬝ᵥ
            (x - pns.get (d.1.cast hl))|)) := by
  have up := ulp_pos
  have hm : 0 < margin R := by rw [margin_ulp]; positivity
  have hE : |F.eps - EPS| ≤ R ^ 2 / 2 ^ 42 := by
    refine (eps_approx F).err.trans ?_
    have e : R ^ 2 / 2 ^ 42 = 2048 * ulp * R ^ 2 := by unfold ulp; ring
    rw [e]
    have h4 : ulp ≤ ulp * R ^ 2 := le_mul_of_one_le_right up.le (one_le_pow₀ hR)
    unfold EPS; linarith
  have e41 : R ^ 2 / 2 ^ 41 = R ^ 2 / 2 ^ 42 + R ^ 2 / 2 ^ 42 := by ring
  have hft := flat_thr F hR
  have hn : ∀ d : Fin pns'.length × Fin pns'.length × Fin pns'.length, ∀ k, _ := fun d k =>
    normal_err F hR hR2 (hp d.1) (hp d.2.1) (hp d.2.2) k
  have hd : ∀ (d : Fin pns'.length × Fin pns'.length × Fin pns'.length) (i : Fin pns'.length), _ := fun d i =>
    (product_err hR (bunbo_approx F hR hR2 (hp d.2.1) (hp d.1) (hp d.2.2) (hp d.1) (hp i) (hp d.1))).1
  rw [abs_le] at hE hft
  unfold Float64.coplanarCheckNumeric
  simp only [if_pos (show pns'.length > 3 by omega)]
  split
  · rename_i hf
    refine .inl ⟨rfl, fun d hd' k => ?_⟩
    have h1 := List.find?_eq_none.mp hf d hd'
    simp only [Bool.not_eq_true', decide_eq_false_iff_not, not_not] at h1
    have h2 := abs_sub_abs_le_abs_sub (((pns.get (d.2.1.cast hl) - pns.get (d.1.cast hl)) ⨯₃ (pns.get (d.2.2.cast hl) - pns.get (d.1.cast hl))) k)
      (F.cross (F.sub (pns'.get d.2.1) (pns'.get d.1)) (F.sub (pns'.get d.2.2) (pns'.get d.1)) k)
    rw [abs_sub_comm] at h2
    have h3 := hn d k
    have h4 := h1 k
    linarith
  · rename_i d hf
    refine .inr ⟨d, List.mem_of_find?_eq_some hf, ?_, ?_⟩
    · have h1 := List.find?_some hf
      simp only [Bool.not_eq_true', decide_eq_false_iff_not, not_forall, not_lt] at h1
      obtain ⟨k, hk⟩ := h1
      refine ⟨k, ?_⟩
      have h2 := abs_sub_abs_le_abs_sub (F.cross (F.sub (pns'.get d.2.1) (pns'.get d.1)) (F.sub (pns'.get d.2.2) (pns'.get d.1)) k)
        (((pns.get (d.2.1.cast hl) - pns.get (d.1.cast hl)) ⨯₃ (pns.get (d.2.2.cast hl) - pns.get (d.1.cast hl))) k)
      have h3 := hn d k
      linarith
    · split_ifs with hall
      · refine .inl ⟨rfl, fun x hx => ?_⟩
        obtain ⟨i, rfl⟩ := List.get_of_mem hx
        obtain ⟨i, rfl⟩ : ∃ i' : Fin pns'.length, i = i'.cast hl := ⟨i.cast hl.symm, rfl⟩
        by_cases h0 : i = d.1
        · rw [h0, sub_self, dotProduct_zero, abs_zero]; positivity
        by_cases h1 : i = d.2.1
        · rw [h1, dotProduct_comm, dot_self_cross, abs_zero]; positivity
        by_cases h2 : i = d.2.2
        · rw [h2, dotProduct_comm, dot_cross_self, abs_zero]; positivity
        have h3 := hall i h0 h1 h2
        have h4 := hd d i
        have h5 := abs_sub_abs_le_abs_sub (((pns.get (d.2.1.cast hl) - pns.get (d.1.cast hl)) ⨯₃ (pns.get (d.2.2.cast hl) - pns.get (d.1.cast hl))) ⬝ᵥ
          (pns.get (i.cast hl) - pns.get (d.1.cast hl)))
          (F.dot (F.cross (F.sub (pns'.get d.2.1) (pns'.get d.1)) (F.sub (pns'.get d.2.2) (pns'.get d.1))) (F.sub (pns'.get i) (pns'.get d.1)))
        rw [abs_sub_comm] at h5
        linarith
      · refine .inr ⟨rfl, ?_⟩
        push Not at hall
        obtain ⟨i, -, -, -, h3⟩ := hall
        refine ⟨_, List.get_mem pns (i.cast hl), ?_⟩
        have h4 := hd d i
        have h5 := abs_sub_abs_le_abs_sub 
          (F.dot (F.cross (F.sub (pns'.get d.2.1) (pns'.get d.1)) (F.sub (pns'.get d.2.2) (pns'.get d.1))) (F.sub (pns'.get i) (pns'.get d.1)))
          (((pns.get (d.2.1.cast hl) - pns.get (d.1.cast hl)) ⨯₃ (pns.get (d.2.2.cast hl) - pns.get (d.1.cast hl))) ⬝ᵥ
          (pns.get (i.cast hl) - pns.get (d.1.cast hl)))
        linarith

end PyQC
