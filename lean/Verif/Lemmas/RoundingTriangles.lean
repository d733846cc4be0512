import Verif.Lemmas.RoundingSegment
import Verif.Lemmas.PlanarTri
/-!
# Two triangles with rounding (dode2)
-/
namespace PyQC
open Matrix

/-! ## The crossing of two level lines -/

theorem lines_cross {z : ℝ} {A B C D : Fin 3 → ℝ} (hA : A 2 = z) (hB : B 2 = z) (hC : C 2 = z) (hD : D 2 = z)
    (h : (B - A) ⨯₃ (D - C) ≠ 0) : ∃ a b : ℝ, A + a • (B - A) = C + b • (D - C) := by
  have h0 : ((B - A) ⨯₃ (D - C)) ⬝ᵥ ((B - A) ⨯₃ (D - C)) ≠ 0 := fun e => h (dotProduct_self_eq_zero.1 e)
  have key : ∀ s t : ℝ, C + t • (D - C) - (A + s • (B - A)) = C - A + t • (D - C) - s • (B - A) := by intro s t; abel
  have hex : ∃ a b : ℝ, (C - A + b • (D - C) - a • (B - A)) ⬝ᵥ (B - A) = 0 ∧ (C - A + b • (D - C) - a • (B - A)) ⬝ᵥ (D - C) = 0 :=
    ⟨_, _, (feet_iff (c := C - A) h0 _ _).2 ⟨rfl, rfl⟩⟩
  obtain ⟨a, b, f1, f2⟩ := hex
  rw [← key] at f1 f2
  exact ⟨a, b, (feet_level (z := z) hA hB hC hD h rfl f1 f2).symm⟩

theorem CrossApart.symm {R : ℝ} {A B C D : Fin 3 → ℝ} (h : CrossApart R A B C D) : CrossApart R C D A B := by
  have e : ∀ a b : Fin 3 → ℝ, parallelogram a b = parallelogram b a := by
    intro a b
    unfold parallelogram
    rw [← cross_anticomm, neg_dotProduct, dotProduct_neg, neg_neg]
  have hn : (D - C) ⨯₃ (B - A) ≠ 0 → (B - A) ⨯₃ (D - C) ≠ 0 := by
    intro h0 h1; rw [← cross_anticomm, h1, neg_zero] at h0; exact h0 rfl
  refine ⟨fun h0 => ?_, fun h0 s t hst x hx => ?_⟩
  · rw [e]; exact h.span (hn h0)
  · rw [e]
    refine h.params (hn h0) t s hst.symm x ?_
    simp only [List.mem_cons, List.not_mem_nil, or_false] at hx ⊢
    tauto

section
variable (F : Float64) {R : ℝ} (hR : 1 ≤ R) (hR8 : R ≤ 8)
include hR hR8

/-! ## The tests -/

theorem inside2_rounded {v : Vec 6} {t : Simplex 3} (hv : Small .dode R v) (ht : ∀ i, Small .dode R (t i))
    (h : InsideApartTri (margin2 R) (Package.dode.perps t) (Package.dode.perp v)) :
    F.dodeInsideTau v t = Dode.insideTau v t := by
  have hR2 : R ≤ 2 ^ 10 := hR8.trans (by norm_num)
  obtain ⟨w, hw, hm⟩ := h
  rw [dode_insideTau]
  unfold Float64.dodeInsideTau
  have hx : Package.dode.perp v = ∑ i, w i • Package.dode.perps t i + (0 : ℝ) • triNormal (Package.dode.perps t) := by
    rw [zero_smul, add_zero]; exact hw.2
  have hA : 0 ≤ triArea (Package.dode.perps t) := by rw [triArea_norm3]; exact div_nonneg (norm3_nonneg _) (by norm_num)
  have h2 : ∀ i, Ico.triangleAreaNumerical (Ico.smallTriangle i (Package.dode.perp v) (Package.dode.perps t)) =
      |w i| * triArea (Package.dode.perps t) := by
    intro i
    rw [areaNum_eq, small_area hw.1 hx i, norm3_eq_sqrt, triArea_norm3]
    simp only [abs_zero, zero_mul, Matrix.cons_val_zero, Matrix.cons_val_one, Matrix.cons_val]
    rw [zero_pow (by norm_num), add_zero, add_zero, Real.sqrt_sq (mul_nonneg (abs_nonneg _) (norm3_nonneg _))]
    ring
  have hs : (1 : ℝ) ≤ ∑ i, |w i| := by
    rw [← hw.1]
    exact Finset.sum_le_sum fun i _ => le_abs_self _
  have hsum : ∑ i, Ico.triangleAreaNumerical (Ico.smallTriangle i (Package.dode.perp v) (Package.dode.perps t)) =
      (∑ i, |w i|) * triArea (Package.dode.perps t) := by
    simp only [h2]
    rw [Finset.sum_mul]
  refine insideTri_approx F hR hR2 (fun j => dodeInternal_approx F hR hR2 hv j)
    (fun i j => dodeInternal_approx F hR hR2 (ht i) j) ?_ ?_
  · rw [hsum, areaNum_eq]
    have e : (∑ i, |w i|) * triArea (Package.dode.perps t) - triArea (Package.dode.perps t) - EPS * triArea (Package.dode.perps t) =
        triArea (Package.dode.perps t) * (∑ i, |w i| - 1 - 1 / 10 ^ 6) := by rw [eps_eq]; ring
    rw [e, abs_mul, abs_of_nonneg hA]
    exact hm
  · rw [hsum, areaNum_eq]
    exact le_mul_of_one_le_left hA hs

section
variable {z : ℝ} {s t : Simplex 3} (zs : Flat z (Package.dode.perps s)) (zt : Flat z (Package.dode.perps t))
  (ss : ∀ i, Small .dode R (s i)) (st : ∀ i, Small .dode R (t i)) {i j k l : Fin 3}
  (h : CrossApart R (Package.dode.perps s i) (Package.dode.perps s j) (Package.dode.perps t k) (Package.dode.perps t l))
include zs zt ss st h

/-- What the crossing test accepts is a crossing of the two edges. -/
theorem meets_sound (hm : F.segmentsMeetTau (Dode.segmentOf s (i, j)) (Dode.segmentOf t (k, l)) = true) :
    (Package.dode.perps s j - Package.dode.perps s i) ⨯₃ (Package.dode.perps t l - Package.dode.perps t k) ≠ 0 ∧
    ∃ a b : ℝ, 0 ≤ a ∧ a ≤ 1 ∧ 0 ≤ b ∧ b ≤ 1 ∧
      Package.dode.perps s i + a • (Package.dode.perps s j - Package.dode.perps s i) =
        Package.dode.perps t k + b • (Package.dode.perps t l - Package.dode.perps t k) := by
  have hR2 : R ≤ 2 ^ 10 := hR8.trans (by norm_num)
  have hl : ∀ i' j', Approx R 75 (F.dodeInternal (Dode.segmentOf s (i, j) i') j') (![Package.dode.perps s i, Package.dode.perps s j] i' j') := by
    intro i' j'
    fin_cases i'
    · exact dodeInternal_approx F hR hR2 (ss i) j'
    · exact dodeInternal_approx F hR hR2 (ss j) j'
  have hl' : ∀ i' j', Approx R 75 (F.dodeInternal (Dode.segmentOf t (k, l) i') j') (![Package.dode.perps t k, Package.dode.perps t l] i' j') := by
    intro i' j'
    fin_cases i'
    · exact dodeInternal_approx F hR hR2 (st k) j'
    · exact dodeInternal_approx F hR hR2 (st l) j'
  unfold Float64.segmentsMeetTau at hm
  by_cases h0 : (Package.dode.perps s j - Package.dode.perps s i) ⨯₃ (Package.dode.perps t l - Package.dode.perps t k) = 0
  · rw [segment_parallel F hR hR8 hl hl' h0] at hm
    cases hm
  · obtain ⟨a, b, e⟩ := lines_cross (zs i) (zs j) (zt k) (zt l) h0
    obtain ⟨a0, a1, b0, b1⟩ := (segment_outcome F hR hR8 hl hl' h0 h e).1 hm
    exact ⟨h0, a, b, a0, a1, b0, b1, e⟩

omit zs zt in
/-- A crossing inside both edges is found. -/
theorem meets_complete
    (h0 : (Package.dode.perps s j - Package.dode.perps s i) ⨯₃ (Package.dode.perps t l - Package.dode.perps t k) ≠ 0) {a b : ℝ}
    (a0 : 0 < a) (a1 : a < 1) (b0 : 0 < b) (b1 : b < 1)
    (e : Package.dode.perps s i + a • (Package.dode.perps s j - Package.dode.perps s i) =
        Package.dode.perps t k + b • (Package.dode.perps t l - Package.dode.perps t k)) :
    F.segmentsMeetTau (Dode.segmentOf s (i, j)) (Dode.segmentOf t (k, l)) = true := by
  have hR2 : R ≤ 2 ^ 10 := hR8.trans (by norm_num)
  have hl : ∀ i' j', Approx R 75 (F.dodeInternal (Dode.segmentOf s (i, j) i') j') (![Package.dode.perps s i, Package.dode.perps s j] i' j') := by
    intro i' j'
    fin_cases i'
    · exact dodeInternal_approx F hR hR2 (ss i) j'
    · exact dodeInternal_approx F hR hR2 (ss j) j'
  have hl' : ∀ i' j', Approx R 75 (F.dodeInternal (Dode.segmentOf t (k, l) i') j') (![Package.dode.perps t k, Package.dode.perps t l] i' j') := by
    intro i' j'
    fin_cases i'
    · exact dodeInternal_approx F hR hR2 (st k) j'
    · exact dodeInternal_approx F hR hR2 (st l) j'
  exact (segment_outcome F hR hR8 hl hl' h0 h e).2 a0 a1 b0 b1

omit ss st h hR hR8 in
theorem exact_meets (hsp : (Package.dode.perps s j - Package.dode.perps s i) ⨯₃ (Package.dode.perps t l - Package.dode.perps t k) ≠ 0 →
      1 / 10 ^ 6 + R ^ 5 / 2 ^ 20 ≤ parallelogram (Package.dode.perps s j - Package.dode.perps s i)
        (Package.dode.perps t l - Package.dode.perps t k) ^ 2) (R0 : 0 ≤ R)
    (h0 : (Package.dode.perps s j - Package.dode.perps s i) ⨯₃ (Package.dode.perps t l - Package.dode.perps t k) ≠ 0) {a b : ℝ}
    (a0 : 0 ≤ a) (a1 : a ≤ 1) (b0 : 0 ≤ b) (b1 : b ≤ 1)
    (e : Package.dode.perps s i + a • (Package.dode.perps s j - Package.dode.perps s i) =
        Package.dode.perps t k + b • (Package.dode.perps t l - Package.dode.perps t k)) :
    Dode.segmentsMeetTau (Dode.segmentOf s (i, j)) (Dode.segmentOf t (k, l)) = true := by
  rw [dode_meet_iff]
  refine (close_planar (z := z) (zs i) (zs j) (zt k) (zt l)).2 ⟨?_, a, b, a0, a1, b0, b1, e⟩
  have h1 := hsp h0
  have hnn : ∀ c : Fin 3 → ℝ, 0 ≤ c ⬝ᵥ c := by
    intro c; rw [vec3_dotProduct]; nlinarith [mul_self_nonneg (c 0), mul_self_nonneg (c 1), mul_self_nonneg (c 2)]
  unfold parallelogram at h1
  rw [Real.sq_sqrt (hnn _)] at h1
  have : 0 ≤ R ^ 5 / 2 ^ 20 := by positivity
  change 1 / 10 ^ 6 ≤ ((Package.dode.perps s j - Package.dode.perps s i) ⨯₃ (Package.dode.perps t l - Package.dode.perps t k)) ⬝ᵥ
    ((Package.dode.perps s j - Package.dode.perps s i) ⨯₃ (Package.dode.perps t l - Package.dode.perps t k))
  linarith

end
end

theorem ResolvedTriRounded.symm {R : ℝ} {S T : Fin 3 → Fin 3 → ℝ} (h : ResolvedTriRounded R S T) : ResolvedTriRounded R T S :=
  ⟨h.areaT, h.areaS, h.cornerT, h.cornerS, h.insideT, h.insideS, fun i j k l hij hkl => (h.cross k l i j hkl hij).symm⟩

theorem ResolvedTriRounded.resolved {R : ℝ} (R0 : 0 ≤ R) {S T : Fin 3 → Fin 3 → ℝ} (h : ResolvedTriRounded R S T) : ResolvedTri S T := by
  refine ⟨h.areaS, h.areaT, h.cornerS, h.cornerT, fun i j k l hij hkl h0 => ?_⟩
  have h1 := (h.cross i j k l hij hkl).span h0
  have hnn : ∀ c : Fin 3 → ℝ, 0 ≤ c ⬝ᵥ c := by
    intro c; rw [vec3_dotProduct]; nlinarith [mul_self_nonneg (c 0), mul_self_nonneg (c 1), mul_self_nonneg (c 2)]
  unfold parallelogram at h1
  rw [Real.sq_sqrt (hnn _)] at h1
  have : 0 ≤ R ^ 5 / 2 ^ 20 := by positivity
  linarith

/-! ## The collected points -/

/-- What `intersection_two_segment` gives, with the test computed with rounding. -/
noncomputable def crossPtF (F : Float64) (s1 s2 : Simplex 2) : Option (Vec 6) :=
  if F.segmentsMeetTau s1 s2 then crossPt2 s1 s2 else none

theorem twoSegmentF_eq (F : Float64) {s1 s2 : Simplex 2} (h1 : Simplex.Ok s1) (h2 : Simplex.Ok s2)
    (h : F.segmentsMeetTau s1 s2 = true → Dode.segmentsMeetTau s1 s2 = true) :
    F.intersectionTwoSegment s1 s2 = .ok (crossPtF F s1 s2) ∧ (crossPtF F s1 s2).isSome = F.segmentsMeetTau s1 s2 := by
  unfold crossPtF
  cases hf : F.segmentsMeetTau s1 s2 with
  | false =>
    refine ⟨?_, rfl⟩
    unfold Float64.intersectionTwoSegment
    rw [hf]; rfl
  | true =>
    obtain ⟨e1, e2⟩ := crossPt2_eq h1 h2
    have hd := h hf
    rw [hd] at e2
    refine ⟨?_, e2⟩
    rw [if_pos rfl, ← e1]
    unfold Float64.intersectionTwoSegment Dode.intersectionTwoSegment
    rw [if_pos hf, if_pos hd]

noncomputable def edgeCrossingsF (F : Float64) (sg : Simplex 2) (t : Simplex 3) : List (Vec 6) :=
  Dode.combE.flatMap fun j => (crossPtF F sg (Dode.segmentOf t j)).toList

theorem meetsTauF_iff (F : Float64) (sg : Simplex 2) (t : Simplex 3) :
    F.segmentMeetsEdgesTau sg t = Dode.combE.any fun j => F.segmentsMeetTau sg (Dode.segmentOf t j) := by
  unfold Float64.segmentMeetsEdgesTau Float64.segmentMeetsEdges Float64.segmentsMeetTau
  rfl

theorem segmentEdgesF_eq (F : Float64) {sg : Simplex 2} {t : Simplex 3} (h1 : Simplex.Ok sg) (ht : Simplex.Ok t)
    (h : ∀ j ∈ Dode.combE, F.segmentsMeetTau sg (Dode.segmentOf t j) = true → Dode.segmentsMeetTau sg (Dode.segmentOf t j) = true) :
    F.intersectionSegmentEdges sg t = .ok (edgeCrossingsF F sg t) := by
  unfold Float64.intersectionSegmentEdges
  split
  · have := foldPy_collect (fun j => do let v ← F.intersectionTwoSegment sg (Dode.segmentOf t j); (.ok v.toList : Py _))
      (fun j => (crossPtF F sg (Dode.segmentOf t j)).toList) Dode.combE
      (fun j hj => by simp only [(twoSegmentF_eq F h1 (segOf_ok ht j) (h j hj)).1, bind_ok']) []
    rw [List.nil_append] at this
    rw [edgeCrossingsF, ← this]
    congr 1
    funext acc j
    cases F.intersectionTwoSegment sg (Dode.segmentOf t j) with
    | ok o => rw [bind_ok', bind_ok', bind_ok']
    | error e => rw [bind_error', bind_error', bind_error']
  · rename_i h'
    rw [meetsTauF_iff, List.any_eq_true] at h'
    push Not at h'
    have : edgeCrossingsF F sg t = [] := by
      unfold edgeCrossingsF
      rw [List.flatMap_eq_nil_iff]
      intro j hj
      unfold crossPtF
      rw [if_neg (h' j hj)]; rfl
    rw [this]

noncomputable def crossingsF (F : Float64) (s t : Simplex 3) : List (Vec 6) :=
  Dode.combE.flatMap fun c => edgeCrossingsF F (Dode.segmentOf s c) t ++ edgeCrossingsF F (Dode.segmentOf t c) s

noncomputable def hitF (F : Float64) (s t : Simplex 3) : Nat :=
  (Dode.combE.filter fun c => !(edgeCrossingsF F (Dode.segmentOf s c) t).isEmpty).length

noncomputable def commonPtsF (F : Float64) (s t : Simplex 3) : List (Vec 6) :=
  crossingsF F s t ++ (List.ofFn s).filter (fun v => F.dodeInsideTau v t) ++ (List.ofFn t).filter (fun v => F.dodeInsideTau v s)

noncomputable def commonCountF (F : Float64) (s t : Simplex 3) : Nat :=
  hitF F s t + hitF F t s + ((List.ofFn s).filter (fun v => F.dodeInsideTau v t)).length +
    ((List.ofFn t).filter (fun v => F.dodeInsideTau v s)).length

/-- Every accepted crossing is accepted over the real numbers. -/
def SoundMeets (F : Float64) (s t : Simplex 3) : Prop := ∀ c ∈ Dode.combE, ∀ e ∈ Dode.combE,
  F.segmentsMeetTau (Dode.segmentOf s c) (Dode.segmentOf t e) = true → Dode.segmentsMeetTau (Dode.segmentOf s c) (Dode.segmentOf t e) = true

theorem twoTrianglesF_eq (F : Float64) (delaunay : Dode.Delaunay2) {s t : Simplex 3} (hs : Simplex.Ok s) (ht : Simplex.Ok t)
    (h1 : SoundMeets F s t) (h2 : SoundMeets F t s) :
    F.intersectionTwoTriangles delaunay s t = if hitF F s t + hitF F t s = 0 then .error .unboundLocalError
      else F.triangulateCommon delaunay (commonPtsF F s t) (commonCountF F s t) := by
  have e : F.dodeCrossingPoints s t = .ok (crossingsF F s t, hitF F s t + hitF F t s) := by
    unfold Float64.dodeCrossingPoints
    rw [show crossingsF F s t = _ from rfl]
    have := crossing_fold (fun c => edgeCrossingsF F (Dode.segmentOf s c) t) (fun c => edgeCrossingsF F (Dode.segmentOf t c) s)
    rw [show (.ok (crossingsF F s t, hitF F s t + hitF F t s) : Py (List (Vec 6) × Nat)) = _ from this.symm]
    have h01 : ((0, 1) : Fin 3 × Fin 3) ∈ Dode.combE := by decide
    have h02 : ((0, 2) : Fin 3 × Fin 3) ∈ Dode.combE := by decide
    have h12 : ((1, 2) : Fin 3 × Fin 3) ∈ Dode.combE := by decide
    have k1 : ∀ c ∈ Dode.combE, F.intersectionSegmentEdges (Dode.segmentOf s c) t = .ok (edgeCrossingsF F (Dode.segmentOf s c) t) :=
      fun c hc => segmentEdgesF_eq F (segOf_ok hs c) ht (h1 c hc)
    have k2 : ∀ c ∈ Dode.combE, F.intersectionSegmentEdges (Dode.segmentOf t c) s = .ok (edgeCrossingsF F (Dode.segmentOf t c) s) :=
      fun c hc => segmentEdgesF_eq F (segOf_ok ht c) hs (h2 c hc)
    simp only [Dode.combE, foldPy, k1 _ h01, k1 _ h02, k1 _ h12, k2 _ h01, k2 _ h02, k2 _ h12]
  unfold Float64.intersectionTwoTriangles
  rw [e, bind_ok']
  rfl

theorem mem_edgeCrossingsF {F : Float64} {sg : Simplex 2} {t : Simplex 3} {v : Vec 6} :
    v ∈ edgeCrossingsF F sg t ↔ ∃ k l : Fin 3, k < l ∧ F.segmentsMeetTau sg (Dode.segmentOf t (k, l)) = true ∧
      crossPt2 sg (Dode.segmentOf t (k, l)) = some v := by
  unfold edgeCrossingsF
  rw [List.mem_flatMap]
  have key : ∀ c, v ∈ (crossPtF F sg (Dode.segmentOf t c)).toList ↔ F.segmentsMeetTau sg (Dode.segmentOf t c) = true ∧
      crossPt2 sg (Dode.segmentOf t c) = some v := by
    intro c
    unfold crossPtF
    cases F.segmentsMeetTau sg (Dode.segmentOf t c) with
    | false => simp
    | true => simp
  constructor
  · rintro ⟨c, hc, hv⟩
    exact ⟨c.1, c.2, mem_combE.1 hc, (key c).1 hv⟩
  · rintro ⟨k, l, h, hv⟩
    exact ⟨(k, l), mem_combE.2 h, (key _).2 hv⟩

theorem mem_crossingsF {F : Float64} {s t : Simplex 3} {v : Vec 6} : v ∈ crossingsF F s t ↔ ∃ i j k l : Fin 3, i < j ∧ k < l ∧
    (F.segmentsMeetTau (Dode.segmentOf s (i, j)) (Dode.segmentOf t (k, l)) = true ∧
        crossPt2 (Dode.segmentOf s (i, j)) (Dode.segmentOf t (k, l)) = some v ∨
      F.segmentsMeetTau (Dode.segmentOf t (i, j)) (Dode.segmentOf s (k, l)) = true ∧
        crossPt2 (Dode.segmentOf t (i, j)) (Dode.segmentOf s (k, l)) = some v) := by
  unfold crossingsF
  rw [List.mem_flatMap]
  constructor
  · rintro ⟨c, hc, hv⟩
    rcases List.mem_append.1 hv with h | h
    · obtain ⟨k, l, h1, h2⟩ := mem_edgeCrossingsF.1 h
      exact ⟨c.1, c.2, k, l, mem_combE.1 hc, h1, .inl h2⟩
    · obtain ⟨k, l, h1, h2⟩ := mem_edgeCrossingsF.1 h
      exact ⟨c.1, c.2, k, l, mem_combE.1 hc, h1, .inr h2⟩
  · rintro ⟨i, j, k, l, h1, h2, h | h⟩
    · exact ⟨(i, j), mem_combE.2 h1, List.mem_append_left _ (mem_edgeCrossingsF.2 ⟨k, l, h2, h⟩)⟩
    · exact ⟨(i, j), mem_combE.2 h1, List.mem_append_right _ (mem_edgeCrossingsF.2 ⟨k, l, h2, h⟩)⟩

theorem hitF_zero {F : Float64} {s t : Simplex 3} (hs : Simplex.Ok s) (ht : Simplex.Ok t) (h1 : SoundMeets F s t) :
    hitF F s t = 0 ↔ ∀ c ∈ Dode.combE, ∀ e ∈ Dode.combE, F.segmentsMeetTau (Dode.segmentOf s c) (Dode.segmentOf t e) = false := by
  unfold hitF
  rw [List.length_eq_zero_iff, List.filter_eq_nil_iff]
  have key : ∀ c ∈ Dode.combE, (¬ (!(edgeCrossingsF F (Dode.segmentOf s c) t).isEmpty) = true) ↔
      ∀ e ∈ Dode.combE, F.segmentsMeetTau (Dode.segmentOf s c) (Dode.segmentOf t e) = false := by
    intro c hc
    rw [Bool.not_eq_true, Bool.not_eq_false', List.isEmpty_iff, edgeCrossingsF, List.flatMap_eq_nil_iff]
    refine forall_congr' fun e => forall_congr' fun he => ?_
    rw [← (twoSegmentF_eq F (segOf_ok hs c) (segOf_ok ht e) (h1 c hc e he)).2, Option.toList_eq_nil_iff]
    cases crossPtF F (Dode.segmentOf s c) (Dode.segmentOf t e) <;> simp
  exact forall_congr' fun c => forall_congr' fun hc => key c hc

/-- An edge that is hit is counted; if only one is counted, it is the one. -/
theorem hitF_one {F : Float64} {s t : Simplex 3} (hs : Simplex.Ok s) (ht : Simplex.Ok t) (h1 : SoundMeets F s t)
    (hle : hitF F s t ≤ 1) {c c' e e' : Fin 3 × Fin 3} (hc : c ∈ Dode.combE) (hc' : c' ∈ Dode.combE) (he : e ∈ Dode.combE)
    (he' : e' ∈ Dode.combE) (h : F.segmentsMeetTau (Dode.segmentOf s c) (Dode.segmentOf t e) = true)
    (h' : F.segmentsMeetTau (Dode.segmentOf s c') (Dode.segmentOf t e') = true) : c = c' := by
  by_contra hne
  have key : ∀ c ∈ Dode.combE, ∀ e ∈ Dode.combE, F.segmentsMeetTau (Dode.segmentOf s c) (Dode.segmentOf t e) = true →
      (!(edgeCrossingsF F (Dode.segmentOf s c) t).isEmpty) = true := by
    intro c hc e he h
    have h3 := (twoSegmentF_eq F (segOf_ok hs c) (segOf_ok ht e) (h1 c hc e he)).2
    rw [h] at h3
    obtain ⟨v, hv⟩ := Option.isSome_iff_exists.1 h3
    have : v ∈ edgeCrossingsF F (Dode.segmentOf s c) t := List.mem_flatMap.2 ⟨e, he, by rw [hv]; simp⟩
    rw [Bool.not_eq_true', Bool.eq_false_iff]
    intro h4
    rw [List.isEmpty_iff] at h4
    rw [h4] at this
    cases this
  have a := key c hc e he h
  have b := key c' hc' e' he' h'
  unfold hitF at hle
  rw [combE_count] at hle
  revert hle hne a b
  generalize hf : (fun c => !(edgeCrossingsF F (Dode.segmentOf s c) t).isEmpty) = f
  have hf' : ∀ c, (!(edgeCrossingsF F (Dode.segmentOf s c) t).isEmpty) = f c := fun c => congrFun hf c
  simp only [hf']
  have hmem : ∀ c ∈ Dode.combE, c = (0, 1) ∨ c = (0, 2) ∨ c = (1, 2) := by decide
  rcases hmem c hc with rfl | rfl | rfl <;> rcases hmem c' hc' with rfl | rfl | rfl <;> intro hle hne a b <;>
    first
      | exact hne rfl
      | (simp only [a, b, if_true] at hle; omega)

end PyQC
