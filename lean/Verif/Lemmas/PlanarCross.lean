import Verif.Lemmas.Planar
import Verif.Lemmas.Complete
/-!
# Crossing points of dode2 triangles
-/
namespace PyQC
open Matrix

theorem dode_internalSets {m : Nat} (s : Simplex m) : Dode.internalSetsNumerical s = Package.dode.perps s := by
  funext i
  exact Package.dode.internalNumerical_eq (s i)

theorem dode_insideTau (v : Vec 6) (t : Simplex 3) :
    Dode.insideTau v t = Dode.insideTriangle (Package.dode.perp v) (Package.dode.perps t) := by
  unfold Dode.insideTau
  rw [dode_internalSets]
  congr 1
  exact Package.dode.internalNumerical_eq v

theorem dode_meet_iff (s1 s2 : Simplex 2) : Dode.segmentsMeetTau s1 s2 = true ↔
    SegmentsClose (Package.dode.perp (s1 0)) (Package.dode.perp (s1 1)) (Package.dode.perp (s2 0)) (Package.dode.perp (s2 1)) := by
  unfold Dode.segmentsMeetTau
  rw [dode_internalSets, dode_internalSets, segmentsMeet_iff]
  rfl

/-- The arithmetic of `intersection_two_segment` on given directions. -/
theorem seg_chain (a d c : Fin 3 → K Package.dode.theta) {AB6 P : Vec 6} (h6 : Vec.Ok AB6) (hP : Vec.Ok P)
    (hb : a ⬝ᵥ d * d ⬝ᵥ a - a ⬝ᵥ a * d ⬝ᵥ d ≠ 0) : (do
    let tmp1 ← innerProduct Dode.arith (nvec a) (nvec d)
    let tmp1 ← needSome tmp1
    let tmp2 ← innerProduct Dode.arith (nvec d) (nvec a)
    let tmp2 ← needSome tmp2
    let tmp3 ← Dode.mul tmp1 tmp2
    let tmp1 ← innerProduct Dode.arith (nvec a) (nvec a)
    let tmp1 ← needSome tmp1
    let tmp2 ← innerProduct Dode.arith (nvec d) (nvec d)
    let tmp2 ← needSome tmp2
    let tmp4 ← Dode.mul tmp1 tmp2
    let bunbo ← Dode.sub tmp3 tmp4
    let tmp1 ← innerProduct Dode.arith (nvec c) (nvec d)
    let tmp1 ← needSome tmp1
    let tmp2 ← innerProduct Dode.arith (nvec d) (nvec a)
    let tmp2 ← needSome tmp2
    let tmp3 ← Dode.mul tmp1 tmp2
    let tmp1 ← innerProduct Dode.arith (nvec d) (nvec d)
    let tmp1 ← needSome tmp1
    let tmp2 ← innerProduct Dode.arith (nvec c) (nvec a)
    let tmp2 ← needSome tmp2
    let tmp4 ← Dode.mul tmp1 tmp2
    let bunshi ← Dode.sub tmp3 tmp4
    let s ← needSome (Dode.div bunshi bunbo)
    let tmp ← mulVector Dode.arith AB6 s
    let r ← addVectors Dode.arith P tmp
    .ok (some r) : Py (Option (Vec 6))) =
    .ok (some (nvec (kvec Package.dode.theta P + ((c ⬝ᵥ d * d ⬝ᵥ a - d ⬝ᵥ d * c ⬝ᵥ a) / (a ⬝ᵥ d * d ⬝ᵥ a - a ⬝ᵥ a * d ⬝ᵥ d)) •
      kvec Package.dode.theta AB6))) := by
  have hA : Lawful Dode.arith Package.dode.theta := Package.dode.lawful
  have em : ∀ x y : K Package.dode.theta, Dode.mul (norm x) (norm y) = .ok (norm (x * y)) := by
    intro x y
    have := hA.mul_ok (norm_c x) (norm_c y)
    rw [kval_norm, kval_norm] at this
    exact this
  have es : ∀ x y : K Package.dode.theta, Dode.sub (norm x) (norm y) = .ok (norm (x - y)) := by
    intro x y
    have := hA.sub_ok (norm_c x) (norm_c y)
    rw [kval_norm, kval_norm] at this
    exact this
  have ed : ∀ x y : K Package.dode.theta, y ≠ 0 → Dode.div (norm x) (norm y) = some (norm (x / y)) := by
    intro x y hy
    have := hA.div_ok (norm_c x) (norm_c y) (by rw [kval_norm]; exact hy)
    rw [kval_norm, kval_norm] at this
    exact this
  have ei : ∀ x y : Fin 3 → K Package.dode.theta, innerProduct Dode.arith (nvec x) (nvec y) = .ok (some (norm (x ⬝ᵥ y))) := by
    intro x y
    rw [innerProduct_ok hA (nvec_ok _) (nvec_ok _), kvec_nvec, kvec_nvec]
  simp only [ei, bind_ok', needSome, em, es, ed _ _ hb]
  rw [mulVector_ok hA h6 (norm_c _), bind_ok', addVectors_ok hA hP (nvec_ok _), bind_ok', kvec_nvec, kval_norm]
  congr 3
  funext i
  simp only [Pi.add_apply, Pi.smul_apply, smul_eq_mul]
  rw [mul_comm]

/-- The exact crossing point, once the numerical test has accepted. -/
theorem twoSegment_ok {s1 s2 : Simplex 2} (h1 : Simplex.Ok s1) (h2 : Simplex.Ok s2) (h : Dode.segmentsMeetTau s1 s2 = true) :
    ∃ (s t : ℝ) (r : Vec 6), Dode.intersectionTwoSegment s1 s2 = .ok (some r) ∧ Vec.Canon r ∧ 0 ≤ s ∧ s ≤ 1 ∧ 0 ≤ t ∧ t ≤ 1 ∧
      Package.dode.val r = Package.dode.val (s1 0) + s • (Package.dode.val (s1 1) - Package.dode.val (s1 0)) ∧
      Package.dode.perp r = Package.dode.perp (s1 0) + s • (Package.dode.perp (s1 1) - Package.dode.perp (s1 0)) ∧
      (Package.dode.perp (s2 0) + t • (Package.dode.perp (s2 1) - Package.dode.perp (s2 0)) - Package.dode.perp r) ⬝ᵥ
        (Package.dode.perp (s1 1) - Package.dode.perp (s1 0)) = 0 ∧
      (Package.dode.perp (s2 0) + t • (Package.dode.perp (s2 1) - Package.dode.perp (s2 0)) - Package.dode.perp r) ⬝ᵥ
        (Package.dode.perp (s2 1) - Package.dode.perp (s2 0)) = 0 ∧
      (Package.dode.perp (s2 0) + t • (Package.dode.perp (s2 1) - Package.dode.perp (s2 0)) - Package.dode.perp r) ⬝ᵥ
        (Package.dode.perp (s2 0) + t • (Package.dode.perp (s2 1) - Package.dode.perp (s2 0)) - Package.dode.perp r) < 1 / 10 ^ 6 := by
  have hA : Lawful Dode.arith Package.dode.theta := Package.dode.lawful
  have htest := h
  rw [dode_meet_iff] at h
  obtain ⟨hb, s, t, s0, s1', t0, t1, f1, f2, f3⟩ := h
  set k : Vec 6 → Fin 3 → K Package.dode.theta := fun v => Package.dode.kperp.mulVec (kvec Package.dode.theta v) with hk
  have hrk : ∀ v, rvec (k v) = Package.dode.perp v := fun v => Package.dode.rvec_kperp v
  set kt := ((k (s2 0) - k (s1 0)) ⬝ᵥ (k (s2 1) - k (s2 0)) * (k (s2 1) - k (s2 0)) ⬝ᵥ (k (s1 1) - k (s1 0)) -
      (k (s2 1) - k (s2 0)) ⬝ᵥ (k (s2 1) - k (s2 0)) * (k (s2 0) - k (s1 0)) ⬝ᵥ (k (s1 1) - k (s1 0))) /
      ((k (s1 1) - k (s1 0)) ⬝ᵥ (k (s2 1) - k (s2 0)) * (k (s2 1) - k (s2 0)) ⬝ᵥ (k (s1 1) - k (s1 0)) -
      (k (s1 1) - k (s1 0)) ⬝ᵥ (k (s1 1) - k (s1 0)) * (k (s2 1) - k (s2 0)) ⬝ᵥ (k (s2 1) - k (s2 0))) with hkt
  have hc0 : ((Package.dode.perp (s1 1) - Package.dode.perp (s1 0)) ⨯₃ (Package.dode.perp (s2 1) - Package.dode.perp (s2 0))) ⬝ᵥ
      ((Package.dode.perp (s1 1) - Package.dode.perp (s1 0)) ⨯₃ (Package.dode.perp (s2 1) - Package.dode.perp (s2 0))) ≠ 0 := by
    intro h0; rw [h0] at hb; norm_num at hb
  have hstk : s = (kt : ℝ) := by
    have hv : ∀ A C a d : Fin 3 → ℝ, C + t • d - (A + s • a) = (C - A) + t • d - s • a := by intro A C a d; abel
    rw [hv] at f1 f2
    rw [((feet_iff hc0 s t).1 ⟨f1, f2⟩).1, hkt]
    push_cast
    simp only [coe_dot, rvec_sub, hrk]
  have hb0 : (k (s1 1) - k (s1 0)) ⬝ᵥ (k (s2 1) - k (s2 0)) * (k (s2 1) - k (s2 0)) ⬝ᵥ (k (s1 1) - k (s1 0)) -
      (k (s1 1) - k (s1 0)) ⬝ᵥ (k (s1 1) - k (s1 0)) * (k (s2 1) - k (s2 0)) ⬝ᵥ (k (s2 1) - k (s2 0)) ≠ 0 := by
    intro h0
    have := congrArg (fun x : K Package.dode.theta => (x : ℝ)) h0
    push_cast at this
    simp only [coe_dot, rvec_sub, hrk] at this
    apply hc0
    rw [cross_lagrange]
    rw [dotProduct_comm (Package.dode.perp (s2 1) - Package.dode.perp (s2 0)) (Package.dode.perp (s1 1) - Package.dode.perp (s1 0))] at this
    linarith
  have hres : Dode.intersectionTwoSegment s1 s2 = .ok (some (nvec (kvec Package.dode.theta (s1 0) + kt •
        (kvec Package.dode.theta (s1 1) - kvec Package.dode.theta (s1 0))))) := by
    unfold Dode.intersectionTwoSegment
    rw [if_pos htest]
    have e : ∀ v, Dode.projection3 v = Package.dode.projection3 v := fun _ => rfl
    rw [subVectors_ok hA (h1 1) (h1 0), bind_ok', e, Package.dode.projection3_ok (nvec_ok _), bind_ok',
      subVectors_ok hA (h2 1) (h2 0), bind_ok', e, Package.dode.projection3_ok (nvec_ok _), bind_ok',
      subVectors_ok hA (h2 0) (h1 0), bind_ok', e, Package.dode.projection3_ok (nvec_ok _), bind_ok']
    simp only [kvec_nvec, Matrix.mulVec_sub]
    refine (seg_chain _ _ _ (nvec_ok _) (h1 0) hb0).trans ?_
    rw [kvec_nvec]
  have hperp : Package.dode.perp (nvec (kvec Package.dode.theta (s1 0) + kt •
        (kvec Package.dode.theta (s1 1) - kvec Package.dode.theta (s1 0)))) =
      Package.dode.perp (s1 0) + s • (Package.dode.perp (s1 1) - Package.dode.perp (s1 0)) := by
    rw [Package.dode.perp_nvec, Matrix.mulVec_add, Matrix.mulVec_smul, Matrix.mulVec_sub, rvec_add, rvec_smul,
      rvec_sub, hstk, Package.dode.rvec_kperp, Package.dode.rvec_kperp]
  refine ⟨s, t, _, hres, nvec_canon _, s0, s1', t0, t1, ?_, hperp, ?_⟩
  · unfold Package.val
    rw [val_nvec', rvec_add, rvec_smul, rvec_sub, hstk]
    rfl
  · rw [hperp]
    exact ⟨f1, f2, f3⟩

theorem twoSegment_none {s1 s2 : Simplex 2} (h : Dode.segmentsMeetTau s1 s2 = false) :
    Dode.intersectionTwoSegment s1 s2 = .ok none := by
  unfold Dode.intersectionTwoSegment
  rw [h]; rfl

/-- What `intersection_two_segment` gives. -/
noncomputable def crossPt2 (s1 s2 : Simplex 2) : Option (Vec 6) :=
  match Dode.intersectionTwoSegment s1 s2 with
  | .ok o => o
  | .error _ => none

theorem crossPt2_eq {s1 s2 : Simplex 2} (h1 : Simplex.Ok s1) (h2 : Simplex.Ok s2) :
    Dode.intersectionTwoSegment s1 s2 = .ok (crossPt2 s1 s2) ∧ ((crossPt2 s1 s2).isSome = Dode.segmentsMeetTau s1 s2) := by
  unfold crossPt2
  cases h : Dode.segmentsMeetTau s1 s2 with
  | false => rw [twoSegment_none h]; exact ⟨rfl, rfl⟩
  | true =>
    obtain ⟨s, t, r, hr, -⟩ := twoSegment_ok h1 h2 h
    rw [hr]
    exact ⟨rfl, rfl⟩

theorem segOf_ok {t : Simplex 3} (ht : Simplex.Ok t) (e : Fin 3 × Fin 3) : Simplex.Ok (Dode.segmentOf t e) := by
  intro i; fin_cases i <;> exact ht _

/-- The crossings of a segment with the three edges of a triangle. -/
noncomputable def edgeCrossings (sg : Simplex 2) (t : Simplex 3) : List (Vec 6) :=
  Dode.combE.flatMap fun j => (crossPt2 sg (Dode.segmentOf t j)).toList

theorem foldPy_collect {α β : Type} (f : α → Py (List β)) (g : α → List β) (l : List α) (hf : ∀ a ∈ l, f a = .ok (g a)) (acc : List β) :
    foldPy (fun acc a => do let v ← f a; .ok (acc ++ v)) acc l = .ok (acc ++ l.flatMap g) := by
  induction l generalizing acc with
  | nil => simp [foldPy]
  | cons a l ih =>
    simp only [foldPy]
    rw [hf a (by simp), bind_ok']
    simp only
    rw [ih (fun a ha => hf a (by simp [ha]))]
    simp

theorem internalSets_segment (t : Simplex 3) (j : Fin 3 × Fin 3) : Dode.internalSetsNumerical (Dode.segmentOf t j) =
    ![Dode.internalSetsNumerical t j.1, Dode.internalSetsNumerical t j.2] := by
  rw [dode_internalSets, dode_internalSets]
  funext i
  fin_cases i <;> rfl

theorem meetsTau_iff (sg : Simplex 2) (t : Simplex 3) :
    Dode.segmentMeetsTriangleTau sg t = Dode.combE.any fun j => Dode.segmentsMeetTau sg (Dode.segmentOf t j) := by
  unfold Dode.segmentMeetsTriangleTau Dode.segmentMeetsTriangle Dode.segmentsMeetTau
  simp only [internalSets_segment]

theorem segmentSurface_eq {sg : Simplex 2} {t : Simplex 3} (h1 : Simplex.Ok sg) (ht : Simplex.Ok t) :
    Dode.intersectionSegmentSurface sg t = .ok (edgeCrossings sg t) := by
  unfold Dode.intersectionSegmentSurface
  split
  · have := foldPy_collect (fun j => do let v ← Dode.intersectionTwoSegment sg (Dode.segmentOf t j); (.ok v.toList : Py _))
      (fun j => (crossPt2 sg (Dode.segmentOf t j)).toList) Dode.combE
      (fun j _ => by simp only [(crossPt2_eq h1 (segOf_ok ht j)).1, bind_ok']) []
    rw [List.nil_append] at this
    rw [edgeCrossings, ← this]
    congr 1
    funext acc j
    rw [(crossPt2_eq h1 (segOf_ok ht j)).1, bind_ok', bind_ok', bind_ok']
  · rename_i h
    rw [meetsTau_iff, List.any_eq_true] at h
    push Not at h
    have : edgeCrossings sg t = [] := by
      unfold edgeCrossings
      rw [List.flatMap_eq_nil_iff]
      intro j hj
      have h2 := (crossPt2_eq h1 (segOf_ok ht j)).2
      rw [Bool.eq_false_iff.2 (h j hj)] at h2
      rw [Option.isSome_eq_false_iff, Option.isNone_iff_eq_none] at h2
      rw [h2]; rfl
    rw [this]

/-- The points collected by the loop over the edges. -/
noncomputable def crossings (s t : Simplex 3) : List (Vec 6) :=
  Dode.combE.flatMap fun c => edgeCrossings (Dode.segmentOf s c) t ++ edgeCrossings (Dode.segmentOf t c) s

/-- The number of edges of `s` that have a crossing with an edge of `t`. -/
noncomputable def hitEdges (s t : Simplex 3) : Nat :=
  (Dode.combE.filter fun c => !(edgeCrossings (Dode.segmentOf s c) t).isEmpty).length

theorem combE_count (f : Fin 3 × Fin 3 → Bool) : (Dode.combE.filter f).length =
    (if f (0, 1) = true then 1 else 0) + (if f (0, 2) = true then 1 else 0) + (if f (1, 2) = true then 1 else 0) := by
  unfold Dode.combE
  simp only [List.filter_cons, List.filter_nil]
  generalize f (0, 1) = a
  generalize f (0, 2) = b
  generalize f (1, 2) = c
  revert a b c
  decide

theorem crossing_fold {V : Type} (A B : Fin 3 × Fin 3 → List V) [DecidableEq (List V)] :
    foldPy (fun acc c => do
      let v ← (.ok (A c) : Py (List V))
      let acc := (acc.1 ++ v, if v = [] then acc.2 else acc.2 + 1)
      let w ← (.ok (B c) : Py (List V))
      .ok (acc.1 ++ w, if w = [] then acc.2 else acc.2 + 1)) ([], 0) Dode.combE =
    .ok (Dode.combE.flatMap fun c => A c ++ B c,
      (Dode.combE.filter fun c => !(A c).isEmpty).length + (Dode.combE.filter fun c => !(B c).isEmpty).length) := by
  have key : ∀ (n : Nat) (l : List V), (if l = [] then n else n + 1) = n + if (!l.isEmpty) = true then 1 else 0 := by
    intro n l; cases l <;> simp
  rw [combE_count, combE_count]
  simp only [Dode.combE, foldPy, bind_ok', key, List.flatMap_cons, List.flatMap_nil]
  congr 2
  · simp
  · omega

theorem crossingPoints_eq {s t : Simplex 3} (hs : Simplex.Ok s) (ht : Simplex.Ok t) :
    Dode.crossingPoints s t = .ok (crossings s t, hitEdges s t + hitEdges t s) := by
  unfold Dode.crossingPoints
  simp only [segmentSurface_eq (segOf_ok hs _) ht, segmentSurface_eq (segOf_ok ht _) hs]
  exact crossing_fold (fun c => edgeCrossings (Dode.segmentOf s c) t) (fun c => edgeCrossings (Dode.segmentOf t c) s)

/-- The points the intersection is made of. -/
noncomputable def commonPts2 (s t : Simplex 3) : List (Vec 6) :=
  crossings s t ++ (List.ofFn s).filter (fun v => Dode.insideTau v t) ++ (List.ofFn t).filter (fun v => Dode.insideTau v s)

/-- The value of `counter`. -/
noncomputable def commonCount (s t : Simplex 3) : Nat :=
  hitEdges s t + hitEdges t s + ((List.ofFn s).filter (fun v => Dode.insideTau v t)).length +
    ((List.ofFn t).filter (fun v => Dode.insideTau v s)).length

theorem intersectionTwoTriangles_eq (delaunay : Dode.Delaunay2) {s t : Simplex 3} (hs : Simplex.Ok s) (ht : Simplex.Ok t) :
    Dode.intersectionTwoTriangles delaunay s t = if hitEdges s t + hitEdges t s = 0 then .error .unboundLocalError
      else Dode.triangulateCommon delaunay (commonPts2 s t) (commonCount s t) := by
  unfold Dode.intersectionTwoTriangles
  rw [crossingPoints_eq hs ht, bind_ok']
  rfl

end PyQC
