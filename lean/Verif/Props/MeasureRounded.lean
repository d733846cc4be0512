import Verif.Lemmas.TilesRounded
/-!
# C112: the volume of an intersection computed with rounding

The geometric tests are made with floating-point numbers, the corners and volumes with integers. If the tests are
decided in spite of rounding, the exact volume of the result is the Lebesgue measure of the common part.
-/
namespace PyQC
open Matrix Ico MeasureTheory

/-- C112: whatever the floating-point arithmetic, the draws and the tetrahedralisation library do, the two kinds of
intersection either both raise the same exception, or both return `None`, or return objects of exactly equal volume. -/
theorem C112_kinds (F : Float64) (draws : Simplex 4 → Simplex 4 → (n : Nat) → Draws n)
    (delaunay : Simplex 4 → Simplex 4 → Delaunay) (obj1 obj2 : Obj 4) (ok1 : Obj.Ok obj1) (ok2 : Obj.Ok obj2) :
    let std := F.intersectionApi .standard draws delaunay (.d4 obj1) (.d4 obj2)
    let simple := F.intersectionApi .simple draws delaunay (.d4 obj1) (.d4 obj2)
    (∃ e, std = .error e ∧ simple = .error e) ∨ (std = .ok none ∧ simple = .ok none) ∨
      ∃ a b v, std = .ok (some a) ∧ simple = .ok (some b) ∧ objVolume6d (.d4 a) = .ok (some v) ∧
        objVolume6d (.d4 b) = .ok (some v) := by
  intro std simple
  have hs : ∀ kind, F.intersectionApi kind draws delaunay (.d4 obj1) (.d4 obj2) =
    F.intersectionTwoObj1 kind draws delaunay obj1 obj2 := fun _ => rfl
  simp only [std, simple, hs]
  unfold Float64.intersectionTwoObj1
  cases hc : centroidObj arith obj2 with
  | error e => exact .inl ⟨e, by rw [bind_error'], by rw [bind_error']⟩
  | ok c =>
  simp only [bind_ok']
  cases hd : F.ballRadiusObj obj2 c with
  | error e => exact .inl ⟨e, by rw [bind_error'], by rw [bind_error']⟩
  | ok d =>
  simp only [bind_ok']
  rcases intersectionTwoObj_kinds (rough := fun s => F.roughCheck s c d) (flag := fun s t => .ok (F.checkTwoTetrahedra s t))
    (inter := fun s t => F.intersectionTwoTetrahedra (draws s t) (delaunay s t) s t) ok1 ok2
    (fun s hs t ht o ho => intersectionTwoF_valid F (ok1 s hs) (ok2 t ht) ho) with h | h | ⟨a, b, v, h1, h2, -, -, h3, h4⟩
  · exact .inl h
  · exact .inr (.inl h)
  · exact .inr (.inr ⟨a, b, v, h1, h2, h3, h4⟩)

section
variable (F : Float64) {R : ℝ} (hR : 1 ≤ R) (hR2 : R ≤ 2 ^ 10)
include hR hR2

/-- C112 for two tetrahedra resolved in spite of rounding: if the tetrahedralisation of the rounded corners tiles the hull
of the corners, the exact volume of the returned pieces is the Lebesgue measure of the common part; `None` is returned
only when that measure is zero. -/
theorem C112_two (draws : (n : Nat) → Draws n) (delaunay : Delaunay) (s t : Simplex 4)
    (hD : ∀ r pns, (∀ v ∈ r, Vec.Ok v ∧ Candidate (Package.ico.perps s) (Package.ico.perps t) (Package.ico.perp v)) →
      F.delaunayInput r = .ok pns → ¬ InPlane (r.map Package.ico.perp) → TilesHullOf (r.map Package.ico.perp) (delaunay pns))
    (hs : Simplex.Ok s) (ht : Simplex.Ok t) (ss : ∀ i, Small .ico R (s i)) (st : ∀ i, Small .ico R (t i))
    (sc : ∀ pts, crossingPoints s t = .ok pts → ∀ v ∈ pts, Small .ico R v)
    (h : ResolvedRounded R (Package.ico.perps s) (Package.ico.perps t)) (r : Option (Obj 4))
    (hr : F.intersectionTwoTetrahedra draws delaunay s t = .ok r) :
    (r = none → volume (solid (Package.ico.perps s) ∩ solid (Package.ico.perps t)) = 0) ∧
    ∀ o, r = some o → ∃ w, objVolume6d (.d4 o) = .ok (some w) ∧
      volume (solid (Package.ico.perps s) ∩ solid (Package.ico.perps t)) = ENNReal.ofReal (w.val tau) := by
  have hm := two_msum_rounded F hR hR2 hD hs ht ss st sc h hr
  constructor
  · rintro rfl
    exact hm.symm
  · rintro o rfl
    obtain ⟨w, hw, -, hval⟩ := C17_volume o (intersectionTwoF_valid F hs ht hr)
    exact ⟨w, hw, by rw [hval, ← hm, ← msum_val]; rfl⟩

theorem objects_volume_rounded (kind : Kind) {draws : Simplex 4 → Simplex 4 → (n : Nat) → Draws n}
    {delaunay : Simplex 4 → Simplex 4 → Delaunay} {obj1 obj2 : Obj 4}
    (hD : ∀ s ∈ obj1, ∀ t ∈ obj2, ∀ r pns,
      (∀ v ∈ r, Vec.Ok v ∧ Candidate (Package.ico.perps s) (Package.ico.perps t) (Package.ico.perp v)) →
      F.delaunayInput r = .ok pns → ¬ InPlane (r.map Package.ico.perp) →
      TilesHullOf (r.map Package.ico.perp) (delaunay s t pns))
    (ok1 : Obj.Ok obj1) (ok2 : Obj.Ok obj2) (no1 : Package.ico.NoOverlap obj1) (no2 : Package.ico.NoOverlap obj2)
    (h : ObjectsRounded R obj1 obj2) {r : Option (Obj 4)}
    (hr : F.intersectionApi kind draws delaunay (.d4 obj1) (.d4 obj2) = .ok r) :
    (r = none → volume (Package.ico.region obj1 ∩ Package.ico.region obj2) = 0) ∧
    ∀ o, r = some o → Obj.Ok o ∧ ∃ w, objVolume6d (.d4 o) = .ok (some w) ∧
      volume (Package.ico.region obj1 ∩ Package.ico.region obj2) = ENNReal.ofReal (w.val tau) := by
  by_cases h0 : obj2 = []
  · subst h0
    change F.intersectionTwoObj1 kind draws delaunay obj1 [] = _ at hr
    unfold Float64.intersectionTwoObj1 at hr
    cases hc : centroidObj arith ([] : Obj 4) with
    | error e => rw [hc, bind_error'] at hr; cases hr
    | ok c =>
    rw [hc, bind_ok'] at hr
    cases hd : F.ballRadiusObj ([] : Obj 4) c with
    | error e => rw [hd, bind_error'] at hr; cases hr
    | ok d =>
    rw [hd, bind_ok'] at hr
    exact intersectionTwoObj_volume ok1 ok2 no1 no2 (by simp) (by simp) (by simp) (by simp) (by simp) (by simp) hr
  · obtain ⟨rough, e, hro⟩ := objects_rounded_eq F hR hR2 kind draws delaunay h0 ok1 ok2 h
    rw [e] at hr
    have hcode := fun s hs t ht => C88_codes F hR hR2 s t (h.small1 s hs) (h.small2 t ht) (h.pairs s hs t ht)
    refine intersectionTwoObj_volume ok1 ok2 no1 no2 ?_ ?_ ?_ ?_ ?_ ?_ hr
    · exact fun s hs t ht o ho => intersectionTwoF_valid F (ok1 s hs) (ok2 t ht) ho
    · intro s hs hf t ht
      obtain ⟨b, hb, hfalse⟩ := hro s hs
      rw [hf] at hb
      exact common_null (hfalse (Except.ok.inj hb).symm t ht)
    · exact fun s hs t ht hf => (hcode s hs t ht).1.1 (Except.ok.inj hf)
    · exact fun s hs t ht hf => ((hcode s hs t ht).2.1.1 (Except.ok.inj hf)).2
    · intro s hs t ht f hf f1 f2 f3
      have hf := Except.ok.inj hf
      refine (congrArg volume ((hcode s hs t ht).2.2.2.1 ?_)).trans measure_empty
      have : F.checkTwoTetrahedra s t = 0 ∨ F.checkTwoTetrahedra s t = 1 ∨ F.checkTwoTetrahedra s t = 2 ∨
          F.checkTwoTetrahedra s t = 3 := by
        unfold Float64.checkTwoTetrahedra
        split
        · simp
        · split
          · simp
          · split <;> simp
      omega
    · exact fun s hs t ht r' _ hr' => two_msum_rounded F hR hR2 (hD s hs t ht) (ok1 s hs) (ok2 t ht) (h.small1 s hs)
        (h.small2 t ht) (h.crossing s hs t ht) (h.pairs s hs t ht) hr'

/-- C112 for objects, both kinds: when the pieces of each object do not overlap, every pair of pieces is resolved in
spite of rounding and the tetrahedralisations of rounded corners tile the hulls of the corners, then the exact volume of
the object returned when all numerical tests are computed with rounding is the Lebesgue measure of the common part of the
two objects; nothing is returned only when that measure is zero. -/
theorem C112_objects (kind : Kind) (draws : Simplex 4 → Simplex 4 → (n : Nat) → Draws n)
    (delaunay : Simplex 4 → Simplex 4 → Delaunay) (obj1 obj2 : Obj 4)
    (hD : ∀ s ∈ obj1, ∀ t ∈ obj2, ∀ r pns,
      (∀ v ∈ r, Vec.Ok v ∧ Candidate (Package.ico.perps s) (Package.ico.perps t) (Package.ico.perp v)) →
      F.delaunayInput r = .ok pns → ¬ InPlane (r.map Package.ico.perp) →
      TilesHullOf (r.map Package.ico.perp) (delaunay s t pns))
    (ok1 : Obj.Ok obj1) (ok2 : Obj.Ok obj2) (no1 : Package.ico.NoOverlap obj1) (no2 : Package.ico.NoOverlap obj2)
    (h : ObjectsRounded R obj1 obj2) (r : Option (Obj 4))
    (hr : F.intersectionApi kind draws delaunay (.d4 obj1) (.d4 obj2) = .ok r) :
    (r = none → volume (Package.ico.region obj1 ∩ Package.ico.region obj2) = 0) ∧
    ∀ o, r = some o → ∃ w, objVolume6d (.d4 o) = .ok (some w) ∧
      volume (Package.ico.region obj1 ∩ Package.ico.region obj2) = ENNReal.ofReal (w.val tau) := by
  obtain ⟨h1, h2⟩ := objects_volume_rounded F hR hR2 kind hD ok1 ok2 no1 no2 h hr
  exact ⟨h1, fun o ho => (h2 o ho).2⟩

/-- C112 for objects, both kinds: under the same hypotheses the returned pieces do not overlap, and they cover the common
part of the two objects and nothing else, up to sets of volume zero. -/
theorem C112_exact (kind : Kind) (draws : Simplex 4 → Simplex 4 → (n : Nat) → Draws n)
    (delaunay : Simplex 4 → Simplex 4 → Delaunay) (obj1 obj2 : Obj 4)
    (hD : ∀ s ∈ obj1, ∀ t ∈ obj2, ∀ r pns,
      (∀ v ∈ r, Vec.Ok v ∧ Candidate (Package.ico.perps s) (Package.ico.perps t) (Package.ico.perp v)) →
      F.delaunayInput r = .ok pns → ¬ InPlane (r.map Package.ico.perp) →
      TilesHullOf (r.map Package.ico.perp) (delaunay s t pns))
    (ok1 : Obj.Ok obj1) (ok2 : Obj.Ok obj2) (no1 : Package.ico.NoOverlap obj1) (no2 : Package.ico.NoOverlap obj2)
    (h : ObjectsRounded R obj1 obj2) (o : Obj 4)
    (hr : F.intersectionApi kind draws delaunay (.d4 obj1) (.d4 obj2) = .ok (some o)) :
    Package.ico.NoOverlap o ∧
    volume ((Package.ico.region obj1 ∩ Package.ico.region obj2) \ Package.ico.region o) = 0 ∧
    volume (Package.ico.region o \ (Package.ico.region obj1 ∩ Package.ico.region obj2)) = 0 := by
  obtain ⟨oko, w, hw, hv⟩ := (objects_volume_rounded F hR hR2 kind hD ok1 ok2 no1 no2 h hr).2 o rfl
  have hz := C89_objects F hR hR2 kind draws delaunay obj1 obj2 (fun s hs t ht r pns a b c => (hD s hs t ht r pns a b c).1)
    ok1 ok2 h _ hr
  obtain ⟨h1, h2⟩ := exact_of_volume oko ((region_measurable obj1).inter (region_measurable obj2)) hz hw hv
  exact ⟨h1, hz, h2⟩

end

/-- The hypotheses of `C112_two`, `C112_objects` and `C112_exact` are met by two crossing tetrahedra in binary64
arithmetic, and a result is returned. -/
example : ∃ delaunay : Delaunay, ∀ draws, ∃ o, Rounding.binary64.float64.intersectionApi .standard draws
    (fun _ _ => delaunay) (.d4 [exBig]) (.d4 [exInv]) = .ok (some o) ∧ Package.ico.NoOverlap o ∧
    ∃ w, objVolume6d (.d4 o) = .ok (some w) ∧ 0 < w.val tau ∧
      volume (Package.ico.region [exBig] ∩ Package.ico.region [exInv]) = ENNReal.ofReal (w.val tau) := by
  obtain ⟨delaunay, hD⟩ := exBigInv_tiles
  refine ⟨delaunay, fun draws => ?_⟩
  have ok1 : Obj.Ok [exBig] := by intro t ht; rw [List.mem_singleton.1 ht]; exact exBig_ok
  have ok2 : Obj.Ok [exInv] := by intro t ht; rw [List.mem_singleton.1 ht]; exact exInv_ok
  obtain ⟨o, ho, e⟩ := C88_two Rounding.binary64.float64 (R := (2 : ℕ)) (by norm_num) (by norm_num) (draws exBig exInv)
    delaunay _ _ (fun r pns a b c => (hD r pns a b c).1) exBig_ok exInv_ok exBig_small exInv_small
    exBigInv_crossing exBigInv_rounded exBigInv_solid
  obtain ⟨rough, e2, hro⟩ := objects_rounded_eq Rounding.binary64.float64 (R := (2 : ℕ)) (by norm_num) (by norm_num) .standard draws
    (fun _ _ => delaunay) (by simp) ok1 ok2 exBigInv_objects
  have hres : Rounding.binary64.float64.intersectionApi .standard draws
      (fun _ _ => delaunay) (.d4 [exBig]) (.d4 [exInv]) = .ok (some o) := by
    rw [e2]
    obtain ⟨b, hb, hf⟩ := hro exBig (by simp)
    cases b with
    | false => exact absurd exBigInv_solid (hf rfl exInv (by simp))
    | true =>
      refine one_crossing hb ?_ ho ?_
      · rw [(C88_codes _ (R := (2 : ℕ)) (by norm_num) (by norm_num) _ _ exBig_small exInv_small exBigInv_rounded).2.2.1.2
          ((C58_codes _ _ exBigInv_resolved).2.2.1.1 exBigInv_code)]
      · rintro rfl
        obtain ⟨x, hx⟩ := exBigInv_solid.mono interior_subset
        rw [← e] at hx
        obtain ⟨a, ha, -⟩ := hx
        simp at ha
  have hD' : ∀ s ∈ [exBig], ∀ t ∈ [exInv], ∀ r pns,
      (∀ v ∈ r, Vec.Ok v ∧ Candidate (Package.ico.perps s) (Package.ico.perps t) (Package.ico.perp v)) →
      Rounding.binary64.float64.delaunayInput r = .ok pns → ¬ InPlane (r.map Package.ico.perp) →
      TilesHullOf (r.map Package.ico.perp) (delaunay pns) := by
    intro s hs t ht
    rw [List.mem_singleton.1 hs, List.mem_singleton.1 ht]
    exact hD
  obtain ⟨w, hw, hv⟩ := (C112_objects _ (R := (2 : ℕ)) (by norm_num) (by norm_num) .standard draws _ _ _ hD' ok1 ok2
    (List.pairwise_singleton _ _) (List.pairwise_singleton _ _) exBigInv_objects _ hres).2 o rfl
  refine ⟨o, hres, (C112_exact _ (R := (2 : ℕ)) (by norm_num) (by norm_num) .standard draws _ _ _ hD' ok1 ok2
    (List.pairwise_singleton _ _) (List.pairwise_singleton _ _) exBigInv_objects _ hres).1, w, hw, ?_, hv⟩
  by_contra hneg
  rw [ENNReal.ofReal_of_nonpos (not_lt.1 hneg)] at hv
  have h1 := isOpen_interior.measure_pos volume exBigInv_solid
  have h2 : interior (solid (Package.ico.perps exBig) ∩ solid (Package.ico.perps exInv)) ⊆
      Package.ico.region [exBig] ∩ Package.ico.region [exInv] := fun x hx =>
    ⟨⟨_, List.mem_singleton.2 rfl, (interior_subset hx).1⟩, ⟨_, List.mem_singleton.2 rfl, (interior_subset hx).2⟩⟩
  exact absurd (measure_mono_null h2 hv) h1.ne'

/-- The hypotheses of `C112_kinds` are met by any two valid objects, with the arithmetic that rounds to binary64. -/
example : Obj.Ok [exBig] ∧ Obj.Ok [exInv] :=
  ⟨by intro t ht; rw [List.mem_singleton.1 ht]; exact exBig_ok, by intro t ht; rw [List.mem_singleton.1 ht]; exact exInv_ok⟩

end PyQC
