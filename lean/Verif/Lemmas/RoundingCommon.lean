import Verif.Lemmas.RoundingFlat
import Verif.Props.Complete
/-!
# The intersection of two tetrahedra with rounding
-/
namespace PyQC
open Matrix Ico

section
variable (F : Float64) {R : ℝ} (hR : 1 ≤ R) (hR2 : R ≤ 2 ^ 10)
include hR hR2

theorem inside_rounded {v : Vec 6} {t : Simplex 4} (hv : Small .ico R v) (ht : ∀ i, Small .ico R (t i))
    (h : InsideApart (margin R) (Package.ico.perps t) (Package.ico.perp v)) : F.insideTau v t = insideTau v t := by
  rw [insideTau_eq]
  obtain ⟨w, hw, h⟩ := h
  have e : ∀ i, tetrahedronVolumeNumerical (smallTetrahedron i (Package.ico.perp v) (Package.ico.perps t)) =
      |w i| * tetrahedronVolumeNumerical (Package.ico.perps t) := by
    intro i
    rw [volNum_eq, volNum_eq, det4_small hw, abs_mul]; ring
  have hs : (1 : ℝ) ≤ ∑ i, |w i| := by
    rw [← hw.1]
    exact Finset.sum_le_sum fun i _ => le_abs_self _
  have h0 : 0 ≤ tetrahedronVolumeNumerical (Package.ico.perps t) := by unfold tetrahedronVolumeNumerical; positivity
  have hvol : tetrahedronVolumeNumerical (Package.ico.perps t) = tetVol (Package.ico.perps t) := by
    rw [volNum_eq]; rfl
  refine inside_approx F hR hR2 (fun j => internal_approx F hR hR2 hv j) (fun i j => internal_approx F hR hR2 (ht i) j) ?_ ?_
  · simp only [e]
    rw [← Finset.sum_mul]
    have e2 : (∑ i, |w i|) * tetrahedronVolumeNumerical (Package.ico.perps t) - tetrahedronVolumeNumerical (Package.ico.perps t) -
        EPS * tetrahedronVolumeNumerical (Package.ico.perps t) =
        tetrahedronVolumeNumerical (Package.ico.perps t) * (∑ i, |w i| - 1 - 1 / 10 ^ 6) := by
      rw [show EPS = 1 / 10 ^ 6 from rfl]; ring
    rw [e2, abs_mul, abs_of_nonneg h0, hvol]
    exact h
  · simp only [e]
    rw [← Finset.sum_mul]
    exact le_mul_of_one_le_left h0 hs

theorem segment_rounded {sg : Simplex 2} {tr : Simplex 3} (hs : ∀ i, Small .ico R (sg i)) (ht : ∀ i, Small .ico R (tr i))
    (h : SegmentApart (margin R) (Package.ico.perp (sg 0)) (Package.ico.perp (sg 1)) (Package.ico.perp (tr 0)) (Package.ico.perp (tr 1))
      (Package.ico.perp (tr 2))) : F.segmentMeetsTriangleTau sg tr = segmentMeetsTriangleTau sg tr := by
  unfold segmentMeetsTriangleTau
  rw [internalSets_eq, internalSets_eq]
  refine seg_approx F hR hR2 (fun i j => internal_approx F hR hR2 (hs i) j) (fun i j => internal_approx F hR hR2 (ht i) j) ?_
  change SegOk _ (((Package.ico.perp (sg 1) - Package.ico.perp (sg 0)) ⨯₃ (Package.ico.perp (tr 2) - Package.ico.perp (tr 0))) ⬝ᵥ
    (Package.ico.perp (tr 1) - Package.ico.perp (tr 0))) (((Package.ico.perp (sg 1) - Package.ico.perp (sg 0)) ⨯₃
    (Package.ico.perp (tr 2) - Package.ico.perp (tr 0))) ⬝ᵥ (Package.ico.perp (sg 0) - Package.ico.perp (tr 0)))
    (((Package.ico.perp (sg 0) - Package.ico.perp (tr 0)) ⨯₃ (Package.ico.perp (tr 1) - Package.ico.perp (tr 0))) ⬝ᵥ
    (Package.ico.perp (sg 1) - Package.ico.perp (sg 0))) (((Package.ico.perp (sg 0) - Package.ico.perp (tr 0)) ⨯₃
    (Package.ico.perp (tr 1) - Package.ico.perp (tr 0))) ⬝ᵥ (Package.ico.perp (tr 2) - Package.ico.perp (tr 0)))
  obtain ⟨h1, h2⟩ := h
  rw [← bunbo_det] at h1 h2
  have hE : (1 : ℝ) / 10 ^ 6 = EPS := rfl
  rw [hE] at h1 h2
  set b := ((Package.ico.perp (sg 1) - Package.ico.perp (sg 0)) ⨯₃ (Package.ico.perp (tr 2) - Package.ico.perp (tr 0))) ⬝ᵥ
    (Package.ico.perp (tr 1) - Package.ico.perp (tr 0)) with hb
  set nu := ((Package.ico.perp (sg 1) - Package.ico.perp (sg 0)) ⨯₃ (Package.ico.perp (tr 2) - Package.ico.perp (tr 0))) ⬝ᵥ
    (Package.ico.perp (sg 0) - Package.ico.perp (tr 0)) with hnu
  set nv := ((Package.ico.perp (sg 0) - Package.ico.perp (tr 0)) ⨯₃ (Package.ico.perp (tr 1) - Package.ico.perp (tr 0))) ⬝ᵥ
    (Package.ico.perp (sg 1) - Package.ico.perp (sg 0)) with hnv
  set nt := ((Package.ico.perp (sg 0) - Package.ico.perp (tr 0)) ⨯₃ (Package.ico.perp (tr 1) - Package.ico.perp (tr 0))) ⬝ᵥ
    (Package.ico.perp (tr 2) - Package.ico.perp (tr 0)) with hnt
  have key : ∀ (_ : EPS ≤ |b|) (n c : ℝ), n / b - c ∈ [nu / b + EPS, nu / b - (1 + EPS), nv / b + EPS, nu / b + nv / b - (1 + EPS),
      nt / b + EPS, nt / b - (1 + EPS)] → margin R < |n - c * b| := by
    intro hbE n c hx
    have hb0 : b ≠ 0 := fun e => by rw [e, abs_zero] at hbE; exact absurd hbE (by unfold EPS; norm_num)
    have := h2 (nt / b) (nu / b) (nv / b) ((moller hb0 _ _ _).2 ⟨rfl, rfl, rfl⟩) hbE _ hx
    rw [← abs_mul] at this
    have e : b * (n / b - c) = n - c * b := by field_simp
    rwa [e] at this
  refine ⟨h1, fun hbE => key hbE _ _ ?_, fun hbE => key hbE _ _ ?_, fun hbE => key hbE _ _ ?_, fun hbE => key hbE _ _ ?_,
    fun hbE => key hbE _ _ ?_, fun hbE => key hbE _ _ ?_⟩ <;> simp [add_div]

/-- Every test of the pair has the same outcome with rounding. -/
theorem tests_rounded {s t : Simplex 4} (hs : ∀ i, Small .ico R (s i)) (ht : ∀ i, Small .ico R (t i))
    (h : Apart (margin R) (Package.ico.perps s) (Package.ico.perps t)) :
    (∀ i, F.insideTau (s i) t = insideTau (s i) t) ∧
      ∀ c ∈ combEF, F.segmentMeetsTriangleTau (segmentOf s c.1) (surfaceOf t c.2) =
        segmentMeetsTriangleTau (segmentOf s c.1) (surfaceOf t c.2) := by
  refine ⟨fun i => inside_rounded F hR hR2 (hs i) ht (h.corner i), fun c hc => ?_⟩
  have hlt : ∀ c ∈ combEF, c.1.1 < c.1.2 ∧ c.2.1 < c.2.2.1 ∧ c.2.2.1 < c.2.2.2 := by decide +kernel
  obtain ⟨h1, h2, h3⟩ := hlt c hc
  refine segment_rounded F hR hR2 (fun i => ?_) (fun i => ?_) (h.edge _ _ _ _ _ h1 h2 h3)
  · fin_cases i <;> exact hs _
  · fin_cases i <;> exact ht _

end

theorem foldPy_congr {α β : Type} {f g : α → β → Py α} {l : List β} (h : ∀ a, ∀ b ∈ l, f a b = g a b) (a : α) :
    foldPy f a l = foldPy g a l := by
  induction l generalizing a with
  | nil => rfl
  | cons b l ih =>
    unfold foldPy
    rw [h a b List.mem_cons_self]
    congr 1
    funext x
    exact ih (fun a b hb => h a b (List.mem_cons_of_mem _ hb)) x

theorem filter_rounded {s t : Simplex 4} {F : Float64} (h : ∀ i, F.insideTau (s i) t = insideTau (s i) t) :
    ((List.ofFn s).filter fun v => F.insideTau v t) = (List.ofFn s).filter fun v => insideTau v t := by
  refine List.filter_congr fun v hv => ?_
  obtain ⟨i, rfl⟩ := List.mem_ofFn.1 hv
  exact h i

theorem all_rounded {s t : Simplex 4} {F : Float64} (h : ∀ i, F.insideTau (s i) t = insideTau (s i) t) :
    ((List.ofFn s).all fun v => F.insideTau v t) = (List.ofFn s).all fun v => insideTau v t := by
  rw [Bool.eq_iff_iff, List.all_eq_true, List.all_eq_true]
  refine forall₂_congr fun v hv => ?_
  obtain ⟨i, rfl⟩ := List.mem_ofFn.1 hv
  rw [h i]

theorem segSurf_rounded {F : Float64} {sg : Simplex 2} {tr : Simplex 3} (h : F.segmentMeetsTriangleTau sg tr = segmentMeetsTriangleTau sg tr) :
    F.intersectionSegmentSurface sg tr = intersectionSegmentSurface sg tr := by
  unfold Float64.intersectionSegmentSurface intersectionSegmentSurface
  rw [h]

theorem pair_rounded (F : Float64) {R : ℝ} (hR : 1 ≤ R) (hR2 : R ≤ 2 ^ 10) {s t : Simplex 4} (hs : ∀ i, Small .ico R (s i))
    (ht : ∀ i, Small .ico R (t i)) (h : Apart (margin R) (Package.ico.perps s) (Package.ico.perps t))
    (h' : Apart (margin R) (Package.ico.perps t) (Package.ico.perps s)) :
    F.checkTwoTetrahedra s t = checkTwoTetrahedra s t ∧ F.crossingPoints s t = crossingPoints s t ∧
      ((List.ofFn s).filter fun v => F.insideTau v t) = ((List.ofFn s).filter fun v => insideTau v t) ∧
      ((List.ofFn t).filter fun v => F.insideTau v s) = ((List.ofFn t).filter fun v => insideTau v s) := by
  obtain ⟨i1, c1⟩ := tests_rounded F hR hR2 hs ht h
  obtain ⟨i2, c2⟩ := tests_rounded F hR hR2 ht hs h'
  refine ⟨?_, ?_, filter_rounded i1, filter_rounded i2⟩
  · unfold Float64.checkTwoTetrahedra checkTwoTetrahedra
    rw [all_rounded i1, all_rounded i2]
    have : (combEF.any fun c => F.segmentMeetsTriangleTau (segmentOf s c.1) (surfaceOf t c.2) ||
        F.segmentMeetsTriangleTau (segmentOf t c.1) (surfaceOf s c.2)) =
        combEF.any fun c => segmentMeetsTriangleTau (segmentOf s c.1) (surfaceOf t c.2) ||
        segmentMeetsTriangleTau (segmentOf t c.1) (surfaceOf s c.2) := by
      rw [Bool.eq_iff_iff, List.any_eq_true, List.any_eq_true]
      refine exists_congr fun c => and_congr_right fun hc => ?_
      rw [c1 c hc, c2 c hc]
    rw [this]
  · unfold Float64.crossingPoints crossingPoints
    refine foldPy_congr (fun acc c hc => ?_) _
    rw [segSurf_rounded (c1 c hc), segSurf_rounded (c2 c hc)]

theorem tetrahedralization_rounded (F : Float64) (delaunay : Delaunay) {r : List (Vec 6)} (hr : ∀ v ∈ r, Vec.Ok v) :
    ∃ pts, F.delaunayInput r = .ok pts ∧
      F.tetrahedralizationPoints delaunay r = tetrahedralizationPoints (fun _ => delaunay pts) r := by
  have h1 : F.delaunayInput r = .ok (r.map fun v => F.numericalVector (nvec (Package.ico.kperp.mulVec (kvec Package.ico.theta v)))) :=
    fillList_ok fun v hv => by
      rw [show Ico.projection3 v = Package.ico.projection3 v from rfl, Package.ico.projection3_ok (hr v hv), bind_ok']
  refine ⟨_, h1, ?_⟩
  match r, hr with
  | [], _ => rfl
  | v :: vs, hr =>
    unfold Float64.tetrahedralizationPoints tetrahedralizationPoints
    simp only
    rw [h1, bind_ok', fillList_ok (g := Package.ico.perp) (fun v hv => by
        rw [show Ico.projection3 v = Package.ico.projection3 v from rfl, Package.ico.projection3_ok (hr v hv), bind_ok']
        exact congrArg Except.ok Package.ico.val_projection3), bind_ok']
    rfl

/-- What the coplanarity test with rounding says about candidate corners. -/
theorem coplanar_true_rounded (F : Float64) {R : ℝ} (hR : 1 ≤ R) (hR2 : R ≤ 2 ^ 10) {S T : Fin 4 → Fin 3 → ℝ} {pts : List (Vec 6)}
    (hsm : ∀ v ∈ pts, Small .ico R v) (hc : ∀ v ∈ pts, Candidate S T (Package.ico.perp v))
    (hf : ∀ a b c d, Candidate S T a → Candidate S T b → Candidate S T c → Candidate S T d →
      |crossProduct (b - a) (c - a) ⬝ᵥ (d - a)| < 1 / 10 ^ 10 + margin R / 4 → crossProduct (b - a) (c - a) ⬝ᵥ (d - a) = 0)
    {draws : (n : Nat) → Draws n} (h : F.coplanarCheck draws pts = some true) : InPlane (pts.map Package.ico.perp) := by
  by_cases hl : 3 < (pts.map Package.ico.perp).length
  · have hlen : (pts.map F.internal).length = (pts.map Package.ico.perp).length := by simp
    rcases coplanar_rounded F hR (hR2.trans (by norm_num)) hlen (fun i j => by
        simp only [List.get_eq_getElem, List.getElem_map, Fin.val_cast]
        exact internal_approx F hR (hR2.trans (by norm_num)) (hsm _ (List.getElem_mem _)) j) hl (draws _) with
      ⟨h1, -⟩ | ⟨d, -, ⟨k, hk⟩, ⟨-, h2⟩ | ⟨h1, -⟩⟩
    · unfold Float64.coplanarCheck at h; rw [h1] at h; cases h
    · refine ⟨((pts.map Package.ico.perp).get (d.2.1.cast hlen) - (pts.map Package.ico.perp).get (d.1.cast hlen)) ⨯₃
        ((pts.map Package.ico.perp).get (d.2.2.cast hlen) - (pts.map Package.ico.perp).get (d.1.cast hlen)), ?_,
        (((pts.map Package.ico.perp).get (d.2.1.cast hlen) - (pts.map Package.ico.perp).get (d.1.cast hlen)) ⨯₃
        ((pts.map Package.ico.perp).get (d.2.2.cast hlen) - (pts.map Package.ico.perp).get (d.1.cast hlen))) ⬝ᵥ
        (pts.map Package.ico.perp).get (d.1.cast hlen), fun x hx => ?_⟩
      rotate_left
      · have hC : ∀ y ∈ pts.map Package.ico.perp, Candidate S T y := by
          intro y hy
          obtain ⟨v, hv, rfl⟩ := List.mem_map.1 hy
          exact hc v hv
        have := hf _ _ _ _ (hC _ (List.get_mem _ _)) (hC _ (List.get_mem _ _)) (hC _ (List.get_mem _ _)) (hC x hx) (h2 x hx)
        rw [dotProduct_sub, sub_eq_zero] at this
        exact this
      · intro h0
        rw [h0, Pi.zero_apply, abs_zero] at hk
        have : R ^ 2 ≤ (2 ^ 10) ^ 2 := pow_le_pow_left₀ (by linarith) hR2 2
        unfold EPS at hk
        norm_num at this hk
        linarith
    · unfold Float64.coplanarCheck at h; rw [h1] at h; cases h
  · refine inPlane_few ?_
    omega


/-- As `tetrahedralizeCommon_fills`, with rounding. -/
theorem common_fills_rounded (F : Float64) {draws : (n : Nat) → Draws n} {delaunay : Delaunay}
    {pts : List (Vec 6)} (hp : ∀ v ∈ pts, Vec.Ok v) (hn : ¬ InPlane (pts.map Package.ico.perp))
    (hD : ∀ r pns, (∀ x ∈ r, x ∈ pts) → F.delaunayInput r = .ok pns → ¬ InPlane (r.map Package.ico.perp) →
      FillsHullOf (r.map Package.ico.perp) (delaunay pns))
    (hcop : ∀ r, (∀ x ∈ r, x ∈ pts) → F.coplanarCheck draws r = some true → InPlane (r.map Package.ico.perp)) :
    ∃ o, F.tetrahedralizeCommon draws delaunay pts = .ok (some o) ∧ (∀ a ∈ o, ∀ k, a k ∈ pts) ∧
      convexHull ℝ {x | ∃ v ∈ pts, Package.ico.perp v = x} ⊆ Package.ico.region o := by
  obtain ⟨r, hr, hsub, hpw, huniq⟩ := C24_one_per_point .ico pts hp
  have hset : ∀ x, x ∈ r.map Package.ico.perp ↔ x ∈ pts.map Package.ico.perp := by
    intro x
    rw [List.mem_map, List.mem_map]
    constructor
    · rintro ⟨v, hv, e⟩; exact ⟨v, hsub v hv, e⟩
    · rintro ⟨v, hv, e⟩
      obtain ⟨y, ⟨hy, e2⟩, -⟩ := huniq v hv
      exact ⟨y, hy, e2.trans e⟩
  have hnr : ¬ InPlane (r.map Package.ico.perp) := fun hi => hn (inPlane_of_subset hi fun x hx => (hset x).2 hx)
  have hrl : r.length ≥ 4 := by
    by_contra hlt
    exact hnr (inPlane_few (by rw [List.length_map]; omega))
  have hpl : pts.length ≥ 4 := by
    by_contra hlt
    exact hn (inPlane_few (by rw [List.length_map]; omega))
  have hhull : {x | ∃ v ∈ pts, Package.ico.perp v = x} = {x | x ∈ r.map Package.ico.perp} := by
    rw [map_perp_set]; ext x; exact (hset x).symm
  have hrok : ∀ v ∈ r, Vec.Ok v := fun v hv => hp v (hsub v hv)
  unfold Float64.tetrahedralizeCommon
  rw [if_pos hpl, hr, bind_ok', if_pos hrl, if_neg (fun h => hnr (hcop r hsub h))]
  simp only
  by_cases h4 : r.length = 4
  · rw [if_pos h4]
    unfold reshape4
    rw [dif_pos h4, bind_ok', bind_ok']
    simp only
    rw [objVolume_ok (by
      intro t ht k
      rw [List.mem_singleton] at ht
      subst ht
      exact hrok _ (List.get_mem _ _)), bind_ok']
    refine ⟨_, rfl, ?_, ?_⟩
    · intro a ha k
      rw [List.mem_singleton] at ha
      subst ha
      exact hsub _ (List.get_mem _ _)
    · rw [hhull]
      intro x hx
      refine ⟨_, List.mem_singleton.2 rfl, ?_⟩
      refine convexHull_mono ?_ hx
      intro y hy
      obtain ⟨v, hv, rfl⟩ := List.mem_map.1 hy
      obtain ⟨i, rfl⟩ := List.get_of_mem hv
      exact ⟨Fin.cast h4 i, rfl⟩
  · rw [if_neg h4]
    obtain ⟨pns, hpns, hT⟩ := tetrahedralization_rounded F delaunay hrok
    rw [hT]
    obtain ⟨l, hl, hidx, hcov⟩ := hD r pns hsub hpns hnr
    have hidx' : ∀ i ∈ l, ∀ k, i k < r.length := fun i hi k => by simpa using hidx i hi k
    have hget : ∀ i (hi : i ∈ l), (fun k => (r.map Package.ico.perp)[i k]'(hidx i hi k)) =
        Package.ico.perps (fun k => r[i k]'(hidx' i hi k)) := by
      intro i hi
      funext k
      rw [List.getElem_map]
      rfl
    rcases C50_tetrahedralization (fun _ => delaunay pns) r (by intro h; rw [h] at hrl; simp at hrl) hrok l hl hidx' with
      ⟨o, ho, -, -, hmem, -⟩ | ⟨-, h0⟩
    · have hall : ∀ a ∈ o, ∀ k, a k ∈ r := by
        intro a ha k
        obtain ⟨ha, -⟩ := (hmem a).1 ha
        rw [List.mem_map] at ha
        obtain ⟨i, -, rfl⟩ := ha
        exact List.getElem_mem _
      rw [ho, bind_ok']
      simp only
      rw [objVolume_ok (fun a ha k => hrok _ (hall a ha k)), bind_ok']
      refine ⟨o, rfl, fun a ha k => hsub _ (hall a ha k), ?_⟩
      rw [hhull]
      intro x hx
      obtain ⟨i, hi, hv, hx⟩ := hcov x hx
      rw [hget i hi] at hv hx
      refine ⟨_, (hmem _).2 ⟨?_, hv⟩, hx⟩
      rw [List.mem_map]
      exact ⟨⟨i, hi⟩, List.mem_attach _ _, rfl⟩
    · exfalso
      obtain ⟨v, hv⟩ : ∃ v, v ∈ r.map Package.ico.perp :=
        ⟨(r.map Package.ico.perp)[0]'(by rw [List.length_map]; omega), List.getElem_mem _⟩
      obtain ⟨i, hi, hv, -⟩ := hcov v (subset_convexHull ℝ _ hv)
      rw [hget i hi] at hv
      refine hv (h0 _ ?_)
      rw [List.mem_map]
      exact ⟨⟨i, hi⟩, List.mem_attach _ _, rfl⟩

theorem intersection_rounded_eq (F : Float64) {R : ℝ} (hR : 1 ≤ R) (hR2 : R ≤ 2 ^ 10) {s t : Simplex 4} (os : Simplex.Ok s)
    (ot : Simplex.Ok t) (hs : ∀ i, Small .ico R (s i)) (ht : ∀ i, Small .ico R (t i))
    (h : Apart (margin R) (Package.ico.perps s) (Package.ico.perps t))
    (h' : Apart (margin R) (Package.ico.perps t) (Package.ico.perps s)) (draws : (n : Nat) → Draws n) (delaunay : Delaunay) :
    F.intersectionTwoTetrahedra draws delaunay s t = F.tetrahedralizeCommon draws delaunay (commonPts s t) := by
  obtain ⟨-, h2, h3, h4⟩ := pair_rounded F hR hR2 hs ht h h'
  unfold Float64.intersectionTwoTetrahedra
  rw [h2, h3, h4, crossingPoints_ok os ot, bind_ok']
  rfl

/-- As `tetrahedralizeCommon_mem`, with rounding. -/
theorem common_mem_rounded (F : Float64) {draws : (n : Nat) → Draws n} {delaunay : Delaunay} {pts : List (Vec 6)}
    (hp : ∀ v ∈ pts, Vec.Ok v) {o : Obj 4} (h : F.tetrahedralizeCommon draws delaunay pts = .ok (some o)) :
    o ≠ [] ∧ ∀ t ∈ o, ∀ k, t k ∈ pts := by
  unfold Float64.tetrahedralizeCommon at h
  by_cases h4 : pts.length ≥ 4
  · rw [if_pos h4] at h
    obtain ⟨r, hr, hsub, -⟩ := C24_one_per_point .ico pts hp
    rw [hr, bind_ok'] at h
    by_cases hr4 : r.length ≥ 4
    · rw [if_pos hr4] at h
      by_cases hc : F.coplanarCheck draws r = some true
      · rw [if_pos hc] at h; cases h
      · rw [if_neg hc] at h
        have hfin : ∀ {x : Option (Obj 4)}, (match x with
            | none => .error .attributeError
            | some o => do
              let _ ← objVolume6d (.d4 o)
              .ok (some o) : Py (Option (Obj 4))) = .ok (some o) → x = some o := by
          intro x hx
          cases x with
          | none => cases hx
          | some o' =>
            simp only at hx
            cases hv : objVolume6d (.d4 o') with
            | error e => rw [hv, bind_error'] at hx; cases hx
            | ok v => rw [hv, bind_ok'] at hx; cases hx; rfl
        simp only at h
        by_cases hl : r.length = 4
        · rw [if_pos hl] at h
          cases ho : reshape4 r with
          | error e => rw [ho, bind_error', bind_error'] at h; cases h
          | ok o' =>
            rw [ho, bind_ok', bind_ok'] at h
            cases hfin (x := some o') h
            obtain ⟨a, b⟩ := reshape4_mem ho
            exact ⟨a, fun t ht k => hsub _ (b t ht k)⟩
        · rw [if_neg hl] at h
          obtain ⟨pns, -, hT⟩ := tetrahedralization_rounded F delaunay (r := r) (fun v hv => hp v (hsub v hv))
          rw [hT] at h
          cases ho : tetrahedralizationPoints (fun _ => delaunay pns) r with
          | error e => rw [ho, bind_error'] at h; cases h
          | ok o' =>
            rw [ho, bind_ok'] at h
            have := hfin (x := o') h
            subst this
            obtain ⟨a, b⟩ := C50_sound (fun _ => delaunay pns) r (fun v hv => hp v (hsub v hv)) o ho
            exact ⟨a, fun t ht k => hsub _ ((b t ht).1 k)⟩
    · rw [if_neg hr4] at h; cases h
  · rw [if_neg h4] at h; cases h

end PyQC
