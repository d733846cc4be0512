import Verif.Model.FloatUnit
import Verif.Spec.UnitRounded
import Verif.Props.Asymmetric
import Verif.Props.LawsRounded
import Verif.Props.ReturnsTested
/-!
# C116: the asymmetric part of an object computed with rounding (ico2)
-/
namespace PyQC
open Matrix MeasureTheory Ico

namespace CuttingTetrahedron
variable {position : Vec 6} {w : Simplex 3} {U : Simplex 4}

theorem ok (h : CuttingTetrahedron position w U) : Obj.Ok [U] := by
  intro s hs i j
  rw [List.mem_singleton] at hs
  subst hs
  exact (h.canon i j).1.ne'

theorem perps (h : CuttingTetrahedron position w U) : Package.ico.perps U = unitCorners position w := by
  funext i
  refine Fin.cases ?_ (fun j => ?_) i
  · change Package.ico.perp (U 0) = Package.ico.perp position
    have := h.apex
    unfold Package.val at this
    unfold Package.perp
    rw [this]
  · change Package.ico.perp (U j.succ) = Package.ico.perp position + (5 : ℝ) • Package.ico.perp (w j)
    have := h.edge j
    unfold Package.val at this
    unfold Package.perp
    rw [this, mulVec_add, mulVec_smul]

theorem region (h : CuttingTetrahedron position w U) : Package.ico.region [U] = solid (unitCorners position w) := by
  rw [← h.perps]
  ext x
  exact ⟨fun ⟨a, ha, hx⟩ => by rw [List.mem_singleton] at ha; exact ha ▸ hx, fun hx => ⟨U, List.mem_singleton.mpr rfl, hx⟩⟩

end CuttingTetrahedron

/-- What `asymmetric` does with the cutting tetrahedron. -/
theorem asymmetric_rounded_eq (F : Float64) {position : Vec 6} {w : Simplex 3} {U : Simplex 4} (hp : Vec.Ok position)
    (hw : Simplex.Ok w) (hU : CuttingTetrahedron position w U) (draws delaunay obj) :
    F.asymmetricApi draws delaunay obj position (.d3 w) = F.intersectionApi .standard draws delaunay (.d4 obj) (.d4 [U]) := by
  obtain ⟨r, hr, h1⟩ := C08_mul_vectors_some .ico w ⟨5, 0, 1⟩ hw (by decide)
  have hok : Obj.Ok [(Fin.cons unitOrigin r : Simplex 4)] := by
    intro s hs i
    rw [List.mem_singleton] at hs
    subst hs
    refine Fin.cases ?_ (fun j => ?_) i
    · change Vec.Ok unitOrigin
      decide
    · exact (h1 j).2.ok
  have e : (fun i => nvec (kvec Package.ico.theta ((Fin.cons unitOrigin r : Simplex 4) i) + kvec Package.ico.theta position)) = U := by
    funext i
    rw [← nvec_kvec (θ := Package.ico.theta) (hU.canon i)]
    congr 1
    have hval : ∀ k, ((Fin.cons unitOrigin r : Simplex 4) i k).val tau + (position k).val tau = (U i k).val tau := by
      intro k
      refine Fin.cases ?_ (fun j => ?_) i
      · have : (unitOrigin k).val tau + (position k).val tau = (position k).val tau := by simp [unitOrigin, Num3.val]
        exact this.trans (congrFun hU.apex k).symm
      · have a1 := congrFun (h1 j).1 k
        have a2 := congrFun (hU.edge j) k
        have a3 : (r j k).val tau = 5 * (w j k).val tau := by
          refine a1.trans ?_
          change (⟨5, 0, 1⟩ : Num3).val tau * (w j k).val tau = _
          congr 1
          simp [Num3.val]
        change (r j k).val tau + _ = _
        rw [a3]
        refine Eq.trans ?_ a2.symm
        exact add_comm _ _
    funext k
    exact Subtype.ext (hval k)
  have hs := shiftObj_ok .ico hok hp
  have hr' : mulVectorsApi arith (.d3 w) ⟨5, 0, 1⟩ = .ok (some (.d3 r)) := hr
  unfold Float64.asymmetricApi
  rw [hr', bind_ok']
  simp only [dif_pos]
  change (do
    let aum ← shiftObj .ico [(Fin.cons unitOrigin r : Simplex 4)] position
    F.intersectionTwoObj1 .standard draws delaunay obj aum) = _
  rw [hs, bind_ok', List.map_singleton, e]
  rfl

/-- C116: when the object and the cutting tetrahedron are resolved in spite of rounding, the asymmetric part is their
common part: it lies in both, misses a set of measure zero, has no overlaps, and its exact volume is that of the common
part. -/
theorem C116_asymmetric (F : Float64) (R : ℝ) (draws : Simplex 4 → Simplex 4 → (n : Nat) → Draws n)
    (delaunay : Simplex 4 → Simplex 4 → Delaunay) (obj : Obj 4) (position : Vec 6) (w : Simplex 3) (U : Simplex 4)
    (hp : Vec.Ok position) (hw : Simplex.Ok w) (hU : CuttingTetrahedron position w U)
    (h : RoundedObjects F R delaunay obj [U]) (r : Option (Obj 4))
    (hr : F.asymmetricApi draws delaunay obj position (.d3 w) = .ok r) :
    let C := Package.ico.region obj ∩ solid (unitCorners position w)
    Package.ico.region (r.getD []) ⊆ C ∧ volume (C \ Package.ico.region (r.getD [])) = 0 ∧ (r = none → volume C = 0) ∧
      ∀ o, r = some o → Obj.Ok o ∧ Package.ico.NoOverlap o ∧
        ∃ v, objVolume6d (.d4 o) = .ok (some v) ∧ volume C = ENNReal.ofReal (v.val tau) := by
  intro C
  rw [asymmetric_rounded_eq F hp hw hU] at hr
  have hC : C = Package.ico.region obj ∩ Package.ico.region [U] := by rw [hU.region]
  rw [hC]
  have hD : ∀ s ∈ obj, ∀ t ∈ [U], ∀ r pns,
      (∀ v ∈ r, Vec.Ok v ∧ Candidate (Package.ico.perps s) (Package.ico.perps t) (Package.ico.perp v)) →
      F.delaunayInput r = .ok pns → ¬ InPlane (r.map Package.ico.perp) →
      FillsHullOf (r.map Package.ico.perp) (delaunay s t pns) := fun s hs t ht r pns a b c => (h.tiles s hs t ht r pns a b c).1
  refine ⟨C89_inside F h.scale1 h.scale2 draws delaunay obj [U] hD (by simp) h.ok1 h.ok2 h.rounded r hr,
    C89_objects F h.scale1 h.scale2 .standard draws delaunay obj [U] hD h.ok1 h.ok2 h.rounded r hr, ?_, ?_⟩
  · exact (objects_volume_rounded F h.scale1 h.scale2 .standard h.tiles h.ok1 h.ok2 h.apart1 h.apart2 h.rounded hr).1
  · rintro o rfl
    obtain ⟨ok, v, hv, ev⟩ :=
      (objects_volume_rounded F h.scale1 h.scale2 .standard h.tiles h.ok1 h.ok2 h.apart1 h.apart2 h.rounded hr).2 o rfl
    exact ⟨ok, (C112_exact F h.scale1 h.scale2 .standard draws delaunay obj [U] h.tiles h.ok1 h.ok2 h.apart1 h.apart2 h.rounded
      o hr).1, v, hv, ev⟩

/-- C116: the call returns if moreover the coordinates are small enough for the margin and the contacts are wide. -/
theorem C116_returns (F : Float64) (R : ℝ) (hR : margin R ≤ 4 / 10 ^ 10)
    (draws : Simplex 4 → Simplex 4 → (n : Nat) → Draws n) (hd : ∀ s t, Sampled (draws s t))
    (delaunay : Simplex 4 → Simplex 4 → Delaunay) (obj : Obj 4) (position : Vec 6) (w : Simplex 3) (U : Simplex 4)
    (hp : Vec.Ok position) (hw : Simplex.Ok w) (hU : CuttingTetrahedron position w U)
    (h : RoundedObjects F R delaunay obj [U]) (hc : WideContacts (1 / 10 ^ 6 + R ^ 2 / 2 ^ 41) .ico obj [U]) :
    ∃ r, F.asymmetricApi draws delaunay obj position (.d3 w) = .ok r := by
  rw [asymmetric_rounded_eq F hp hw hU]
  obtain ⟨r, hr, -⟩ := C110_objects_rounded F h.scale1 h.scale2 hR .standard draws delaunay hd obj [U]
    (fun s hs t ht r pns a b c => (h.tiles s hs t ht r pns a b c).1) (by simp) h.ok1 h.ok2 h.rounded hc
  exact ⟨r, hr⟩

/-- C116: the exact volume of the asymmetric part, and what it covers up to volume zero, do not depend on the
floating-point arithmetic, on what is drawn, or on how the library tiles convex hulls. -/
theorem C116_choices (F F' : Float64) (R R' : ℝ) (draws draws' : Simplex 4 → Simplex 4 → (n : Nat) → Draws n)
    (delaunay delaunay' : Simplex 4 → Simplex 4 → Delaunay) (obj : Obj 4) (position : Vec 6) (w : Simplex 3) (U : Simplex 4)
    (hp : Vec.Ok position) (hw : Simplex.Ok w) (hU : CuttingTetrahedron position w U)
    (h : RoundedObjects F R delaunay obj [U]) (h' : RoundedObjects F' R' delaunay' obj [U]) (r r' : Option (Obj 4))
    (hr : F.asymmetricApi draws delaunay obj position (.d3 w) = .ok r)
    (hr' : F'.asymmetricApi draws' delaunay' obj position (.d3 w) = .ok r') :
    exactVolume r = exactVolume r' ∧ Almost (content r) (content r') := by
  rw [asymmetric_rounded_eq _ hp hw hU] at hr hr'
  exact C114_choices obj [U] r r' ⟨F, R, _, draws, delaunay, h, hr⟩ ⟨F', R', _, draws', delaunay', h', hr'⟩

/-- C116: rounding does not change the asymmetric part: the exact volume is the one found, and the points covered are up
to volume zero those covered, when all tests are computed with real numbers. -/
theorem C116_ideal (F : Float64) (R : ℝ) (draws draws' : Simplex 4 → Simplex 4 → (n : Nat) → Draws n)
    (delaunay delaunay' : Simplex 4 → Simplex 4 → Delaunay) (hD : ∀ s t, TilesHull (delaunay' s t)) (obj : Obj 4)
    (position : Vec 6) (w : Simplex 3) (U : Simplex 4) (hp : Vec.Ok position) (hw : Simplex.Ok w)
    (hU : CuttingTetrahedron position w U) (h : RoundedObjects F R delaunay obj [U]) (r r' : Option (Obj 4))
    (hr : F.asymmetricApi draws delaunay obj position (.d3 w) = .ok r)
    (hr' : Ico.asymmetricApi draws' delaunay' obj position (.d3 w) = .ok r') :
    exactVolume r = exactVolume r' ∧ Almost (content r) (content r') := by
  rw [asymmetric_rounded_eq _ hp hw hU] at hr
  obtain ⟨U', ok', hU', e⟩ := asymmetric_eq position w hp hw
  rw [e] at hr'
  obtain ⟨o1, -, c, v, hv, ev⟩ := RoundedRun.spec ⟨F, R, _, draws, delaunay, h, hr⟩
  have hreg : Package.ico.region [U'] = Package.ico.region [U] := by
    ext x
    simp only [Package.region, List.mem_singleton, exists_eq_left, Set.mem_ofPred_eq, hU', hU.perps]
  obtain ⟨o2, -, c', v', hv', ev'⟩ := intersection_result hD (a := obj) (b := [U'])
    ⟨h.ok1, fun s hs => by rw [List.mem_singleton] at hs; exact hs ▸ ok', h.apart1, by simp [Package.NoOverlap],
      fun s hs t ht => by
        rw [List.mem_singleton] at ht
        rw [ht, hU', ← hU.perps]
        exact (h.rounded.pairs s hs U (by simp)).resolved⟩ hr'
  rw [hreg] at c' ev'
  exact ⟨exact_triple o1 o2 hv hv' (by rw [ev, ev']), c.trans c'.symm⟩

/-- C116: for a symmetric object and vectors that span the fundamental cone, the asymmetric part has at most 1/120 of the
exact volume, and exactly 1/120 when the five-fold vectors reach over the whole part in the cone, up to measure zero. -/
theorem C116_count (F : Float64) (R : ℝ) (draws : Simplex 4 → Simplex 4 → (n : Nat) → Draws n)
    (delaunay : Simplex 4 → Simplex 4 → Delaunay) (obj : Obj 4) (position : Vec 6) (w : Simplex 3) (U : Simplex 4)
    (hp : Vec.Ok position) (hw : Simplex.Ok w) (hU : CuttingTetrahedron position w U)
    (h : RoundedObjects F R delaunay obj [U]) (hs : HasSymmetry .ico obj position)
    (hcone : spannedCone w = Package.ico.chamber) (o : Obj 4)
    (hr : F.asymmetricApi draws delaunay obj position (.d3 w) = .ok (some o)) :
    ∃ V v, objVolume6d (.d4 obj) = .ok (some V) ∧ objVolume6d (.d4 o) = .ok (some v) ∧
      120 * v.val tau ≤ V.val tau ∧
      (V.val tau = 120 * v.val tau ↔ volume ({x | x ∈ Package.ico.region obj ∧
        x - Package.ico.perp position ∈ Package.ico.chamber} \ solid (unitCorners position w)) = 0) := by
  obtain ⟨-, -, -, h4⟩ := C116_asymmetric F R draws delaunay obj position w U hp hw hU h _ hr
  obtain ⟨oo, -, v, hv, ev⟩ := h4 o rfl
  obtain ⟨V, hV, h1, h2⟩ := common_count h.ok1 hp h.apart1 hs hcone oo hv ev
  exact ⟨V, v, hV, hv, h1, h2⟩

/-- C116: in the second case `symmetric` turns the asymmetric part into the object again, up to measure zero. -/
theorem C116_generates (F : Float64) (R : ℝ) (draws : Simplex 4 → Simplex 4 → (n : Nat) → Draws n)
    (delaunay : Simplex 4 → Simplex 4 → Delaunay) (obj : Obj 4) (position : Vec 6) (w : Simplex 3) (U : Simplex 4)
    (hp : Vec.Ok position) (hw : Simplex.Ok w) (hU : CuttingTetrahedron position w U)
    (h : RoundedObjects F R delaunay obj [U]) (hs : HasSymmetry .ico obj position)
    (hcone : spannedCone w = Package.ico.chamber)
    (reach : volume ({x | x ∈ Package.ico.region obj ∧ x - Package.ico.perp position ∈ Package.ico.chamber} \
      solid (unitCorners position w)) = 0) (r : Option (Obj 4))
    (hr : F.asymmetricApi draws delaunay obj position (.d3 w) = .ok r) :
    (r = none → volume (Package.ico.region obj) = 0) ∧
    ∀ o, r = some o → ∃ q : Obj 4, ∃ V W, symmetricApi .ico (.d4 o) position = .ok (some (.d4 q)) ∧
      objVolume6d (.d4 obj) = .ok (some V) ∧ objVolume6d (.d4 q) = .ok (some W) ∧ W.val tau = V.val tau ∧
      Package.ico.region q ⊆ Package.ico.region obj ∧ volume (Package.ico.region obj \ Package.ico.region q) = 0 := by
  obtain ⟨h1, h2, h3, h4⟩ := C116_asymmetric F R draws delaunay obj position w U hp hw hU h r hr
  exact common_generates h.ok1 hp h.apart1 hs hcone reach h1 h2 h3 fun o e => ⟨(h4 o e).1, (h4 o e).2.1⟩

/-- C116: `ValueError` unless exactly three vectors are given, whatever the arithmetic. -/
theorem C116_refuse (F : Float64) (draws : Simplex 4 → Simplex 4 → (n : Nat) → Draws n)
    (delaunay : Simplex 4 → Simplex 4 → Delaunay) (obj : Obj 4) (position : Vec 6) :
    (∀ (m : Nat) (w : Simplex m), m ≠ 3 → Simplex.Ok w →
      F.asymmetricApi draws delaunay obj position (.d3 w) = .error .valueError) ∧
    (∀ (m : Nat) (w : Obj m), Obj.Ok w → F.asymmetricApi draws delaunay obj position (.d4 w) = .error .valueError) := by
  constructor
  · intro m w hm hw
    obtain ⟨r, hr, -⟩ := C08_mul_vectors_some .ico w ⟨5, 0, 1⟩ hw (by decide)
    have hr' : mulVectorsApi arith (.d3 w) ⟨5, 0, 1⟩ = .ok (some (.d3 r)) := hr
    unfold Float64.asymmetricApi
    rw [hr', bind_ok']
    simp only [dif_neg hm]
  · intro m w hw
    have hr' : mulVectorsApi arith (.d4 w) ⟨5, 0, 1⟩ = .ok none := C08_mul_vectors_ndim4_is_none .ico w _ hw (by decide)
    unfold Float64.asymmetricApi
    rw [hr', bind_ok']

/-- C116: outside the error cases the outcome does not depend on how the vectors are written: equal positions and equal
vectors give the same call, even if the fractions are not in lowest terms. -/
theorem C116_values (F : Float64) (draws : Simplex 4 → Simplex 4 → (n : Nat) → Draws n)
    (delaunay : Simplex 4 → Simplex 4 → Delaunay) (obj : Obj 4) (position position' : Vec 6) (w w' : Simplex 3)
    (hp : Vec.Ok position) (hp' : Vec.Ok position') (hw : Simplex.Ok w) (hw' : Simplex.Ok w')
    (e : Package.ico.val position = Package.ico.val position') (ew : ∀ i, Package.ico.val (w i) = Package.ico.val (w' i)) :
    F.asymmetricApi draws delaunay obj position (.d3 w) = F.asymmetricApi draws delaunay obj position' (.d3 w') := by
  have key : ∀ {position w}, Vec.Ok position → Simplex.Ok w →
      CuttingTetrahedron position w (fun i => nvec (Fin.cases (kvec Package.ico.theta position)
        (fun j => kvec Package.ico.theta position + 5 • kvec Package.ico.theta (w j)) i)) := by
    intro position w hp hw
    refine ⟨fun i => nvec_canon _, ?_, fun i => ?_⟩
    · change Vec.val _ (nvec _) = _
      rw [val_nvec]
      rfl
    · change Vec.val _ (nvec _) = _
      rw [val_nvec]
      funext k
      simp [Package.val, Vec.val]
      rfl
  have key' := key hp' hw'
  rw [asymmetric_rounded_eq F hp hw (key hp hw), asymmetric_rounded_eq F (U := _) hp' hw' ⟨key'.canon, key'.apex, key'.edge⟩]
  have h1 : kvec Package.ico.theta position = kvec Package.ico.theta position' := kvec_eq_iff.2 e
  have h2 : ∀ j, kvec Package.ico.theta (w j) = kvec Package.ico.theta (w' j) := fun j => kvec_eq_iff.2 (ew j)
  simp only [h1, h2]

/-! ### A concrete case in binary64 arithmetic -/

/-- Three vectors that point from (1, 1, 1) against the axes. -/
def exBack : Simplex 3 := ![cart (-2) 0 0 5, cart 0 (-2) 0 5, cart 0 0 (-2) 5]

theorem exBack_cutting : CuttingTetrahedron (exInv 0) exBack exInv := by
  refine ⟨by unfold Vec.Canon; decide, rfl, fun i => ?_⟩
  funext k
  fin_cases i <;> fin_cases k <;> simp [Package.val, Vec.val, Num3.val, exInv, exBack, cart] <;> norm_num

theorem exBack_test : returnsTestRounded 2 [exBig] [exInv] = true := by decide +kernel

theorem exBack_objects : ∃ delaunay : Simplex 4 → Simplex 4 → Delaunay,
    RoundedObjects Rounding.binary64.float64 (2 : ℕ) delaunay [exBig] [exInv] := by
  obtain ⟨D, hD⟩ := exBigInv_tiles
  refine ⟨fun _ _ => D, by norm_num, by norm_num, by unfold Obj.Ok; decide, by unfold Obj.Ok; decide,
    List.pairwise_singleton _ _, List.pairwise_singleton _ _, exBigInv_objects, fun s hs t ht => ?_⟩
  rw [List.mem_singleton] at hs ht
  subst hs ht
  exact hD

/-- In binary64 arithmetic the call returns for the tetrahedron `exBig` cut with the vectors `exBack`, whatever is drawn, and
its outcome has the exact volume of the common part. -/
example : ∃ delaunay, ∀ draws : Simplex 4 → Simplex 4 → (n : Nat) → Draws n, (∀ s t, Sampled (draws s t)) →
    ∃ r, Rounding.binary64.float64.asymmetricApi draws delaunay [exBig] (exInv 0) (.d3 exBack) = .ok r ∧
      Package.ico.region (r.getD []) ⊆ Package.ico.region [exBig] ∩ solid (unitCorners (exInv 0) exBack) ∧
      ∃ o v, r = some o ∧ objVolume6d (.d4 o) = .ok (some v) ∧
        volume (Package.ico.region [exBig] ∩ solid (unitCorners (exInv 0) exBack)) = ENNReal.ofReal (v.val tau) := by
  obtain ⟨delaunay, h⟩ := exBack_objects
  refine ⟨delaunay, fun draws hd => ?_⟩
  have hp : Vec.Ok (exInv 0) := by decide
  have hw : Simplex.Ok exBack := by decide
  obtain ⟨-, hc⟩ := returnsTestRounded_spec h.ok1 h.ok2 (by simp) exBack_test
  obtain ⟨r, hr⟩ := C116_returns _ _ (by unfold margin; norm_num) draws hd delaunay _ _ _ _ hp hw exBack_cutting h hc
  obtain ⟨h1, h2, h3, h4⟩ := C116_asymmetric _ _ draws delaunay _ _ _ _ hp hw exBack_cutting h r hr
  refine ⟨r, hr, h1, ?_⟩
  cases r with
  | none =>
    have h0 := h3 rfl
    rw [← exBack_cutting.region] at h0
    have hpos := isOpen_interior.measure_pos volume exBigInv_solid
    refine absurd (measure_mono_null (fun x hx => ?_) h0) hpos.ne'
    exact ⟨⟨_, List.mem_singleton.2 rfl, (interior_subset hx).1⟩, ⟨_, List.mem_singleton.2 rfl, (interior_subset hx).2⟩⟩
  | some o =>
    obtain ⟨-, -, v, hv, ev⟩ := h4 o rfl
    exact ⟨o, v, rfl, hv, ev⟩

/-- The hypotheses of `C116_choices` and `C116_ideal` are met in this case: all calls return, in binary64 arithmetic and with
real numbers, whatever is drawn, and all have the same exact volume. -/
example : ∃ delaunay delaunay' : Simplex 4 → Simplex 4 → Delaunay, (∀ s t, TilesHull (delaunay' s t)) ∧
    ∀ draws draws' : Simplex 4 → Simplex 4 → (n : Nat) → Draws n, (∀ s t, Sampled (draws s t)) → (∀ s t, Sampled (draws' s t)) →
    ∃ r r' r'', Rounding.binary64.float64.asymmetricApi draws delaunay [exBig] (exInv 0) (.d3 exBack) = .ok r ∧
      Rounding.binary64.float64.asymmetricApi draws' delaunay [exBig] (exInv 0) (.d3 exBack) = .ok r' ∧
      Ico.asymmetricApi draws delaunay' [exBig] (exInv 0) (.d3 exBack) = .ok r'' ∧
      exactVolume r = exactVolume r' ∧ exactVolume r = exactVolume r'' := by
  obtain ⟨delaunay, h⟩ := exBack_objects
  obtain ⟨D, hD⟩ := exists_tiles
  refine ⟨delaunay, fun _ _ => D, fun _ _ => hD, fun draws draws' hd hd' => ?_⟩
  have hp : Vec.Ok (exInv 0) := by decide
  have hw : Simplex.Ok exBack := by decide
  obtain ⟨-, hc⟩ := returnsTestRounded_spec h.ok1 h.ok2 (by simp) exBack_test
  obtain ⟨r, hr⟩ := C116_returns _ _ (by unfold margin; norm_num) draws hd delaunay _ _ _ _ hp hw exBack_cutting h hc
  obtain ⟨r', hr'⟩ := C116_returns _ _ (by unfold margin; norm_num) draws' hd' delaunay _ _ _ _ hp hw exBack_cutting h hc
  obtain ⟨U, ok, hU, e⟩ := asymmetric_eq (exInv 0) exBack hp hw
  have hU' : Package.ico.perps U = Package.ico.perps exInv := hU.trans exBack_cutting.perps.symm
  obtain ⟨r'', hr'', -⟩ := C110_objects .standard draws (fun _ _ => D) hd (fun _ _ => hD.1) [exBig] [U] (by simp) h.ok1
    (fun s hs => by rw [List.mem_singleton] at hs; exact hs ▸ ok)
    (fun s hs t ht => by
      rw [List.mem_singleton] at ht
      rw [ht, hU']
      exact (h.rounded.pairs s hs exInv (by simp)).resolved)
    (fun s hs t ht hn => by
      rw [List.mem_singleton] at hs ht
      rw [hs, ht, hU'] at hn
      exact absurd exBigInv_solid hn)
  rw [← e] at hr''
  exact ⟨r, r', r'', hr, hr', hr'',
    (C116_choices _ _ _ _ draws draws' delaunay delaunay _ _ _ _ hp hw exBack_cutting h h r r' hr hr').1,
    (C116_ideal _ _ draws draws delaunay _ (fun _ _ => hD) _ _ _ _ hp hw exBack_cutting h r r'' hr hr'').1⟩

/-- The hypotheses of `C116_refuse` are met. -/
example : Simplex.Ok (![exInv 0, exInv 1] : Simplex 2) ∧ (2 : Nat) ≠ 3 := by decide

/-- The hypotheses of `C116_values` are met by vectors that are not in lowest terms. -/
example : Package.ico.val (cart (-2) 0 0 5) = Package.ico.val (cart (-4) 0 0 10) ∧ cart (-2) 0 0 5 ≠ cart (-4) 0 0 10 := by
  constructor
  · funext k
    fin_cases k <;> simp [Package.val, Vec.val, Num3.val, cart] <;> norm_num
  · decide

/-! ### The symmetric object of the asymmetric unit of examples/example1.py -/

/-- Five times the asymmetric unit, in lowest terms. -/
def exCut : Simplex 4 :=
  ![fun _ => ⟨0, 0, 1⟩,
    ![⟨5, 0, 2⟩, ⟨-5, 0, 2⟩, ⟨-5, 0, 2⟩, ⟨-5, 0, 2⟩, ⟨-5, 0, 2⟩, ⟨-5, 0, 2⟩],
    ![⟨5, 0, 2⟩, ⟨-5, 0, 2⟩, ⟨-5, 0, 2⟩, ⟨5, 0, 2⟩, ⟨-5, 0, 2⟩, ⟨-5, 0, 2⟩],
    ![⟨5, 0, 2⟩, ⟨-5, 0, 2⟩, ⟨-5, 0, 2⟩, ⟨0, 0, 1⟩, ⟨-5, 0, 2⟩, ⟨0, 0, 1⟩]]

theorem exCut_cutting : CuttingTetrahedron (fun _ => ⟨0, 0, 1⟩) exAxes exCut := by
  refine ⟨by unfold Vec.Canon; decide, rfl, fun i => ?_⟩
  funext k
  fin_cases i <;> fin_cases k <;> simp [Package.val, Vec.val, Num3.val, exCut, exAxes, exUnit] <;> norm_num

/-- The unit itself and the tetrahedron with which it is cut pass the exact test for the scale 16. -/
theorem exCut_test : objectsTest 16 [exUnit] [exCut] = true := by decide +kernel

/-- The symmetry, the cone and the reach that `C116_count` and `C116_generates` ask for hold for the symmetric object with
120 tetrahedra. What is left is that the 120 pairs are resolved in spite of rounding, which `exCut_test` shows for one of
them; the exact test of all of them takes the kernel too long to be kept here. -/
example (F : Float64) (draws : Simplex 4 → Simplex 4 → (n : Nat) → Draws n) (delaunay : Simplex 4 → Simplex 4 → Delaunay)
    (h : RoundedObjects F 16 delaunay (orbit .ico [exUnit] (fun _ => ⟨0, 0, 1⟩)) [exCut]) (o : Obj 4)
    (hr : F.asymmetricApi draws delaunay (orbit .ico [exUnit] (fun _ => ⟨0, 0, 1⟩)) (fun _ => ⟨0, 0, 1⟩) (.d3 exAxes) =
      .ok (some o)) :
    ∃ V v W, ∃ q : Obj 4, objVolume6d (.d4 (orbit .ico [exUnit] (fun _ => ⟨0, 0, 1⟩))) = .ok (some V) ∧
      objVolume6d (.d4 o) = .ok (some v) ∧ V.val tau = 120 * v.val tau ∧
      symmetricApi .ico (.d4 o) (fun _ => ⟨0, 0, 1⟩) = .ok (some (.d4 q)) ∧ objVolume6d (.d4 q) = .ok (some W) ∧
      W.val tau = V.val tau := by
  have hc : Vec.Ok (fun _ => ⟨0, 0, 1⟩ : Vec 6) := by decide
  have hw : Simplex.Ok exAxes := by decide
  have hq := symmetricApi_orbit (p := .ico) exUnit_ok hc
  obtain ⟨q', hq', sy⟩ := C72_has_symmetry .ico [exUnit] _ exUnit_ok hc
  rw [hq] at hq'
  cases hq'
  obtain ⟨V, v, hV, hv, -, hi⟩ := C116_count F 16 draws delaunay _ _ exAxes exCut hc hw exCut_cutting h sy exAxes_cone o hr
  obtain ⟨-, hg⟩ := C116_generates F 16 draws delaunay _ _ exAxes exCut hc hw exCut_cutting h sy exAxes_cone exReach _ hr
  obtain ⟨q, V', W, h1, h2, h3, h4, -⟩ := hg o rfl
  rw [hV] at h2
  cases h2
  exact ⟨V, v, W, q, hV, hv, hi.2 exReach, h1, h3, h4⟩

end PyQC
