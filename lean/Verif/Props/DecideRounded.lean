import Verif.Lemmas.GoldenRounded
import Verif.Props.Decide
import Verif.Props.Rounding
/-!
# C97: whether the floating-point tests of a pair of tetrahedra are decided as over the real numbers can be computed exactly
-/
namespace PyQC
open Matrix Ico MeasureTheory

/-- C97: for a whole number R, `roundedTest` answers True exactly when the pair is resolved in spite of rounding. -/
theorem C97_decidable (R : ℕ) (s t : Simplex 4) (hs : Simplex.Ok s) (ht : Simplex.Ok t) :
    roundedTest R s t = true ↔ ResolvedRounded R (Package.ico.perps s) (Package.ico.perps t) := roundedTest_iff hs ht

/-- C97: `smallTest` answers True exactly for vectors of moderate size. -/
theorem C97_small (R : ℕ) (v : Vec 6) (hv : Vec.Ok v) : smallTest R v = true ↔ Small .ico R v := smallTest_iff hv

/-- The code of a pair of tetrahedra, computed exactly. -/
def codeTest (s t : Simplex 4) : Nat :=
  if (List.ofFn s).all fun v => insideTest v t then 1
  else if (List.ofFn t).all fun v => insideTest v s then 2
  else if combEF.any fun c => meetsTest (segmentOf s c.1) (surfaceOf t c.2) || meetsTest (segmentOf t c.1) (surfaceOf s c.2) then 3
  else 0

/-- The corners of both and the crossings of edges of `s` with faces of `t` have moderate size. -/
def crossingTest (R : ℕ) (s t : Simplex 4) : Bool :=
  ((List.ofFn s).all fun v => smallTest R v) &&
  combEF.all fun c => !meetsTest (segmentOf s c.1) (surfaceOf t c.2) ||
    match exactCrossing (segmentOf s c.1) (surfaceOf t c.2) with
    | .ok v => smallTest R v
    | .error _ => true

/-- All hypotheses on a pair, computed exactly. -/
def pairTest (R : ℕ) (s t : Simplex 4) : Bool := crossingTest R s t && crossingTest R t s && roundedTest R s t

theorem meetsTest_eq {sg : Simplex 2} {tr : Simplex 3} (hs : Simplex.Ok sg) (ht : Simplex.Ok tr) :
    meetsTest sg tr = segmentMeetsTriangleTau sg tr := by
  rw [Bool.eq_iff_iff, meetsTest_iff hs ht, C33_perp]

theorem insideTest_eq {v : Vec 6} {t : Simplex 4} (hv : Vec.Ok v) (ht : Simplex.Ok t) : insideTest v t = insideTau v t := by
  rw [Bool.eq_iff_iff, insideTest_iff hv ht, C32_perp]

theorem all_eq {s : Simplex 4} {f g : Vec 6 → Bool} (h : ∀ i, f (s i) = g (s i)) : (List.ofFn s).all f = (List.ofFn s).all g := by
  rw [Bool.eq_iff_iff, List.all_eq_true, List.all_eq_true]
  simp only [List.forall_mem_ofFn_iff, h]

/-- Over the real numbers the code is the computed one, for every pair. -/
theorem codeTest_eq {s t : Simplex 4} (hs : Simplex.Ok s) (ht : Simplex.Ok t) : codeTest s t = checkTwoTetrahedra s t := by
  unfold codeTest checkTwoTetrahedra
  rw [all_eq (g := fun v => insideTau v t) fun i => insideTest_eq (hs i) ht,
    all_eq (s := t) (g := fun v => insideTau v s) fun i => insideTest_eq (ht i) hs]
  have : (fun c : (Fin 4 × Fin 4) × (Fin 4 × Fin 4 × Fin 4) =>
      meetsTest (segmentOf s c.1) (surfaceOf t c.2) || meetsTest (segmentOf t c.1) (surfaceOf s c.2)) =
      fun c => segmentMeetsTriangleTau (segmentOf s c.1) (surfaceOf t c.2) ||
        segmentMeetsTriangleTau (segmentOf t c.1) (surfaceOf s c.2) := by
    funext c
    rw [meetsTest_eq (segmentOf_ok hs _) (surfaceOf_ok ht _), meetsTest_eq (segmentOf_ok ht _) (surfaceOf_ok hs _)]
  rw [this]

/-- The crossing point is the one of the exact part of the function. -/
theorem crossPt_computed {s t : Simplex 4} {c} {v : Vec 6} (hv : v ∈ crossPt s t c) :
    segmentMeetsTriangleTau (segmentOf s c.1) (surfaceOf t c.2) = true ∧
      exactCrossing (segmentOf s c.1) (surfaceOf t c.2) = .ok v := by
  unfold crossPt at hv
  have e : intersectionSegmentSurface (segmentOf s c.1) (surfaceOf t c.2) =
      if segmentMeetsTriangleTau (segmentOf s c.1) (surfaceOf t c.2) then
        (exactCrossing (segmentOf s c.1) (surfaceOf t c.2)).map some else .ok none := by
    unfold intersectionSegmentSurface exactCrossing
    split
    · simp only [bind, Except.bind, Except.map]
      repeat' split <;> try rfl
      all_goals simp_all
    · rfl
  rw [e] at hv
  by_cases hm : segmentMeetsTriangleTau (segmentOf s c.1) (surfaceOf t c.2) = true
  · rw [if_pos hm] at hv
    cases hx : exactCrossing (segmentOf s c.1) (surfaceOf t c.2) with
    | error e => rw [hx] at hv; simp [Except.map] at hv
    | ok w => rw [hx] at hv; simp [Except.map] at hv; rw [hv]; exact ⟨hm, rfl⟩
  · rw [if_neg hm] at hv
    simp at hv

theorem crossingTest_iff {R : ℕ} {s t : Simplex 4} (hs : Simplex.Ok s) (ht : Simplex.Ok t) (h : crossingTest R s t = true) :
    (∀ i, Small .ico R (s i)) ∧ ∀ c ∈ combEF, ∀ v ∈ crossPt s t c, Vec.Ok v → Small .ico R v := by
  unfold crossingTest at h
  rw [Bool.and_eq_true, List.all_eq_true, List.all_eq_true] at h
  refine ⟨fun i => (smallTest_iff (hs i)).mp (h.1 _ ((List.mem_ofFn' _ _).mpr ⟨i, rfl⟩)), fun c hc v hv hok => ?_⟩
  obtain ⟨h1, h2⟩ := crossPt_computed hv
  have h3 := h.2 c hc
  rw [meetsTest_eq (segmentOf_ok hs _) (surfaceOf_ok ht _), h1, h2] at h3
  exact (smallTest_iff hok).mp (by simpa using h3)

theorem pairTest_spec {R : ℕ} {s t : Simplex 4} (hs : Simplex.Ok s) (ht : Simplex.Ok t) (h : pairTest R s t = true) :
    (∀ i, Small .ico R (s i)) ∧ (∀ i, Small .ico R (t i)) ∧
      (∀ pts, crossingPoints s t = .ok pts → ∀ v ∈ pts, Small .ico R v) ∧
      ResolvedRounded R (Package.ico.perps s) (Package.ico.perps t) := by
  unfold pairTest at h
  rw [Bool.and_eq_true, Bool.and_eq_true] at h
  obtain ⟨⟨h1, h2⟩, h3⟩ := h
  obtain ⟨s1, c1⟩ := crossingTest_iff hs ht h1
  obtain ⟨s2, c2⟩ := crossingTest_iff ht hs h2
  refine ⟨s1, s2, fun pts hp v hv => ?_, (roundedTest_iff hs ht).mp h3⟩
  rw [crossingPoints_ok hs ht] at hp
  cases hp
  have hok : Vec.Ok v := by
    refine (commonPts_near hs ht ?_).1
    unfold commonPts
    exact List.mem_append_left _ (List.mem_append_left _ hv)
  obtain ⟨c, hc, hv⟩ := List.mem_flatMap.1 hv
  rcases List.mem_append.1 hv with hv | hv
  · exact c1 c hc v hv hok
  · exact c2 c hc v hv hok

section
variable (F : Float64) (R : ℕ) (hR : 1 ≤ R) (hR2 : R ≤ 2 ^ 10) (s t : Simplex 4) (hs : Simplex.Ok s) (ht : Simplex.Ok t)
  (h : pairTest R s t = true)
include hR hR2 hs ht h

/-- C97: if the computed condition holds, the code found with rounding is the one computed with integers, and it is right:
1 if the first is contained in the second, else 2 if the second is contained in the first, else 3 if they meet, else 0. -/
theorem C97_codes :
    let A := solid (Package.ico.perps s)
    let B := solid (Package.ico.perps t)
    F.checkTwoTetrahedra s t = codeTest s t ∧
    (codeTest s t = 1 ↔ A ⊆ B) ∧ (codeTest s t = 2 ↔ ¬ A ⊆ B ∧ B ⊆ A) ∧
      (codeTest s t = 3 ↔ ¬ A ⊆ B ∧ ¬ B ⊆ A ∧ (A ∩ B).Nonempty) ∧ (codeTest s t = 0 ↔ A ∩ B = ∅) := by
  obtain ⟨h1, h2, -, h3⟩ := pairTest_spec hs ht h
  have e := (pair_rounded F (R := R) (by exact_mod_cast hR) (by exact_mod_cast hR2) h1 h2 h3.apartST h3.apartTS).1
  refine ⟨by rw [e, codeTest_eq hs ht], ?_⟩
  rw [codeTest_eq hs ht]
  exact C58_codes s t h3.resolved

/-- C97: if the computed condition holds, the pieces found with rounding are inside both tetrahedra and nothing but a null
set of the common part is lost. -/
theorem C97_two (draws : (n : Nat) → Draws n) (delaunay : Delaunay)
    (hD : ∀ r pns, (∀ v ∈ r, Vec.Ok v ∧ Candidate (Package.ico.perps s) (Package.ico.perps t) (Package.ico.perp v)) →
      F.delaunayInput r = .ok pns → ¬ InPlane (r.map Package.ico.perp) → FillsHullOf (r.map Package.ico.perp) (delaunay pns))
    (r : Option (Obj 4)) (hr : F.intersectionTwoTetrahedra draws delaunay s t = .ok r) :
    Package.ico.region (r.getD []) ⊆ solid (Package.ico.perps s) ∩ solid (Package.ico.perps t) ∧
      volume ((solid (Package.ico.perps s) ∩ solid (Package.ico.perps t)) \ Package.ico.region (r.getD [])) = 0 := by
  obtain ⟨h1, h2, h3, h4⟩ := pairTest_spec hs ht h
  exact C88_two_outcome F (R := R) (by exact_mod_cast hR) (by exact_mod_cast hR2) draws delaunay s t hD hs ht h1 h2 h3 h4 r hr

end

/-- The distances compared in the rough check have moderate size, computed exactly. -/
def distancesTest (R : ℕ) (a b : Obj 4) : Bool :=
  match centroidObj arith b with
  | .error _ => true
  | .ok c => (b.all fun t => (List.ofFn t).all fun v => smallDistance R v c) &&
      a.all fun s => match centroid arith (List.ofFn s) with
        | .error _ => true
        | .ok c' => ((List.ofFn s).all fun v => smallDistance R v c') && smallDistance R c' c

/-- All hypotheses on two objects, computed exactly. -/
def objectsTest (R : ℕ) (a b : Obj 4) : Bool :=
  (a.all fun s => (List.ofFn s).all fun v => smallTest R v) && (b.all fun t => (List.ofFn t).all fun v => smallTest R v) &&
    (a.all fun s => b.all fun t => pairTest R s t) && distancesTest R a b

theorem objectsTest_spec {R : ℕ} {a b : Obj 4} (ha : Obj.Ok a) (hb : Obj.Ok b) (h0 : b ≠ []) (h : objectsTest R a b = true) :
    ObjectsRounded R a b := by
  unfold objectsTest at h
  rw [Bool.and_eq_true, Bool.and_eq_true, Bool.and_eq_true] at h
  obtain ⟨⟨⟨h1, h2⟩, h3⟩, h4⟩ := h
  simp only [List.all_eq_true, List.forall_mem_ofFn_iff] at h1 h2 h3
  have hp : ∀ s ∈ a, ∀ t ∈ b, _ := fun s hs t ht => pairTest_spec (ha s hs) (hb t ht) (h3 s hs t ht)
  obtain ⟨c, hc⟩ : ∃ c, centroidObj arith b = .ok c := ⟨_, centroidObj_ok Package.ico.lawful h0 (by decide) hb⟩
  unfold distancesTest at h4
  rw [hc] at h4
  simp only [Bool.and_eq_true, List.all_eq_true, List.forall_mem_ofFn_iff] at h4
  obtain ⟨h5, h6⟩ := h4
  refine ⟨fun s hs i => (smallTest_iff (ha s hs i)).mp (h1 s hs i), fun t ht i => (smallTest_iff (hb t ht i)).mp (h2 t ht i),
    fun s hs t ht => (hp s hs t ht).2.2.1, fun s hs t ht => (hp s hs t ht).2.2.2, ?_, ?_, ?_⟩
  · intro d hd t ht i
    rw [hc] at hd
    cases hd
    exact distanceSmall_of (h5 t ht i)
  · intro s hs d hd i
    have := h6 s hs
    rw [hd] at this
    simp only [Bool.and_eq_true, List.all_eq_true, List.forall_mem_ofFn_iff] at this
    exact distanceSmall_of (this.1 i)
  · intro d hd s hs e he
    rw [hc] at hd
    cases hd
    have := h6 s hs
    rw [he] at this
    simp only [Bool.and_eq_true] at this
    exact distanceSmall_of this.2

/-- C97: `intersection` of two objects for which the computed condition holds: with rounding, nothing but a null set of
the common part is lost, whichever kind of result is asked for; and of the standard kind nothing else is returned. -/
theorem C97_objects (F : Float64) (R : ℕ) (hR : 1 ≤ R) (hR2 : R ≤ 2 ^ 10) (kind : Kind)
    (draws : Simplex 4 → Simplex 4 → (n : Nat) → Draws n) (delaunay : Simplex 4 → Simplex 4 → Delaunay) (a b : Obj 4)
    (hD : ∀ s ∈ a, ∀ t ∈ b, ∀ r pns,
      (∀ v ∈ r, Vec.Ok v ∧ Candidate (Package.ico.perps s) (Package.ico.perps t) (Package.ico.perp v)) →
      F.delaunayInput r = .ok pns → ¬ InPlane (r.map Package.ico.perp) →
      FillsHullOf (r.map Package.ico.perp) (delaunay s t pns))
    (ha : Obj.Ok a) (hb : Obj.Ok b) (h0 : b ≠ []) (h : objectsTest R a b = true) (r : Option (Obj 4))
    (hr : F.intersectionApi kind draws delaunay (.d4 a) (.d4 b) = .ok r) :
    volume ((Package.ico.region a ∩ Package.ico.region b) \ Package.ico.region (r.getD [])) = 0 ∧
      (kind = .standard → Package.ico.region (r.getD []) ⊆ Package.ico.region a ∩ Package.ico.region b) := by
  have h' := objectsTest_spec ha hb h0 h
  refine ⟨C89_objects F (R := R) (by exact_mod_cast hR) (by exact_mod_cast hR2) kind draws delaunay a b hD ha hb h' r hr, ?_⟩
  rintro rfl
  exact C89_inside F (R := R) (by exact_mod_cast hR) (by exact_mod_cast hR2) draws delaunay a b hD h0 ha hb h' r hr

/-- The pair with irrational coordinates passes the test, so the hypotheses of `C97_codes` and `C97_two` are met. -/
theorem exAxes_pair : pairTest 5 exAxesTet exMovedTet = true := by decide +kernel

/-- The floating-point code of the pair, in any arithmetic: they overlap. -/
example (F : Float64) : F.checkTwoTetrahedra exAxesTet exMovedTet = 3 := by
  rw [(C97_codes F 5 (by norm_num) (by norm_num) _ _ (by decide) (by decide) exAxes_pair).1]
  decide +kernel

/-- The pair is resolved in spite of rounding. -/
example : ResolvedRounded (5 : ℕ) (Package.ico.perps exAxesTet) (Package.ico.perps exMovedTet) :=
  (C97_decidable 5 _ _ (by decide) (by decide)).mp (by decide +kernel)

/-- Its corners have moderate size. -/
example : Small .ico (5 : ℕ) (exMovedTet 1) := (C97_small 5 _ (by decide)).mp (by decide +kernel)

/-- Objects with irrational coordinates that pass the test, so the hypotheses of `C97_objects` are met. -/
example : objectsTest 5 [exAxesTet] [exMovedTet] = true := by decide +kernel

end PyQC
