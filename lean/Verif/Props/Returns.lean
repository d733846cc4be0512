import Verif.Spec.Returns
import Verif.Lemmas.Corners
import Verif.Lemmas.Hull
import Verif.Props.Laws
import Verif.Props.Rounding
import Verif.Props.ConvexExact
/-!
# C110 The intersection returns, also for pieces that only touch
-/
namespace PyQC
open Matrix MeasureTheory Ico

/-- Points of a set without interior lie in a plane. -/
theorem inPlane_of_flat {A : Set (Fin 3 → ℝ)} (hc : Convex ℝ A) (h : ¬ (interior A).Nonempty) {pts : List (Fin 3 → ℝ)}
    (hp : ∀ x ∈ pts, x ∈ A) : InPlane pts := by
  by_contra hn
  cases pts with
  | nil => exact hn (inPlane_few (by simp))
  | cons x l =>
    obtain ⟨q, hq, hv, -⟩ := hull_simplex hn (x := x) (subset_convexHull ℝ _ (by simp))
    obtain ⟨y, hy⟩ := solid_interior (det4_ne_iff.2 hv)
    refine h ⟨y, interior_mono (convexHull_min ?_ hc) hy⟩
    rintro z ⟨k, rfl⟩
    exact hp _ (hq k)

/-- The collected points are corners of the common part. -/
theorem commonPts_extreme {s t : Simplex 4} (hs : Simplex.Ok s) (ht : Simplex.Ok t)
    (h : Resolved (Package.ico.perps s) (Package.ico.perps t)) {v : Vec 6} (hv : v ∈ commonPts s t) :
    Package.ico.perp v ∈ (solid (Package.ico.perps s) ∩ solid (Package.ico.perps t)).extremePoints ℝ :=
  candidate_extreme (det4_ne_iff.2 h.volS) (det4_ne_iff.2 h.volT) (commonPts_exact hs ht h hv).1 (commonPts_exact hs ht h hv).2

/-- C110: the corners of the returned pieces are corners of the common part of the two tetrahedra, and if the common part
is solid, all its corners occur: the call introduces no other points. -/
theorem C110_corners (draws : (n : Nat) → Draws n) (delaunay : Delaunay) (s t : Simplex 4)
    (hs : Simplex.Ok s) (ht : Simplex.Ok t) (h : Resolved (Package.ico.perps s) (Package.ico.perps t)) (o : Obj 4)
    (ho : intersectionTwoTetrahedra draws delaunay s t = .ok (some o)) :
    (∀ a ∈ o, ∀ k, Package.ico.perp (a k) ∈ (solid (Package.ico.perps s) ∩ solid (Package.ico.perps t)).extremePoints ℝ) ∧
    (FillsHull delaunay → (interior (solid (Package.ico.perps s) ∩ solid (Package.ico.perps t))).Nonempty →
      ∀ x ∈ (solid (Package.ico.perps s) ∩ solid (Package.ico.perps t)).extremePoints ℝ, ∃ a ∈ o, ∃ k, Package.ico.perp (a k) = x) := by
  have ho' := ho
  rw [intersectionTwo_eq hs ht] at ho
  have hm := (tetrahedralizeCommon_mem (fun v hv => (commonPts_near hs ht hv).1) ho).2
  refine ⟨fun a ha k => commonPts_extreme hs ht h (hm a ha k), fun hD hi x hx => ?_⟩
  obtain ⟨o', h1, h2⟩ := C58_two draws delaunay hD s t hs ht h hi
  rw [ho'] at h1
  cases h1
  obtain ⟨a, ha, hxa⟩ : x ∈ Package.ico.region o := by rw [h2]; exact hx.1
  have hsub : solid (Package.ico.perps a) ⊆ solid (Package.ico.perps s) ∩ solid (Package.ico.perps t) := by
    rw [← h2]; exact fun y hy => ⟨a, ha, hy⟩
  obtain ⟨k, hk⟩ := extremePoints_convexHull_subset (𝕜 := ℝ) (inter_extremePoints_subset_extremePoints_of_subset hsub ⟨hxa, hx⟩)
  exact ⟨a, ha, k, hk⟩

/-- Three different positions of a list of points that differ pairwise. -/
theorem pairwise_get {pts : List (Vec 6)} {p : Package} (h : pts.Pairwise fun x y => p.perp x ≠ p.perp y) {i j : Nat}
    (hi : i < pts.length) (hj : j < pts.length) (hij : i ≠ j) : p.perp pts[i] ≠ p.perp pts[j] := by
  rw [List.pairwise_iff_getElem] at h
  rcases Nat.lt_or_gt_of_ne hij with h1 | h1
  · exact h i j hi hj h1
  · exact fun e => h j i hj hi h1 e.symm

/-- Points that are different wide corners and lie in a plane are recognised, whatever is drawn. -/
theorem coplanar_wide {draws : (n : Nat) → Draws n} (hd : Sampled draws) {A : Set (Fin 3 → ℝ)} (hw : WideCorners (1 / 10 ^ 6) A)
    {r : List (Vec 6)} (hr : ∀ v ∈ r, Package.ico.perp v ∈ A.extremePoints ℝ)
    (hpw : r.Pairwise fun x y => Package.ico.perp x ≠ Package.ico.perp y) (hl : 4 ≤ r.length)
    (hp : InPlane (r.map Package.ico.perp)) : coplanarCheck draws r = some true := by
  have e : r.map internalNumerical = r.map Package.ico.perp :=
    List.map_congr_left fun v _ => Package.ico.internalNumerical_eq v
  unfold coplanarCheck
  have hlen : (r.map internalNumerical).length = r.length := by simp
  obtain ⟨h0, h1⟩ := hd (r.map internalNumerical).length (by omega)
  obtain ⟨d, hdm⟩ := List.exists_mem_of_ne_nil _ h0
  refine (C49_coplanar_partial _ (draws _) (e ▸ hp)).2 ⟨d, hdm, ?_⟩
  obtain ⟨h2, h3, h4⟩ := h1 d hdm
  have l1 : d.1.1 < r.length := hlen ▸ d.1.2
  have l2 : d.2.1.1 < r.length := hlen ▸ d.2.1.2
  have l3 : d.2.2.1 < r.length := hlen ▸ d.2.2.2
  have g : ∀ i : Fin (r.map internalNumerical).length, ∀ hi : i.1 < r.length,
      (r.map internalNumerical).get i = Package.ico.perp r[i.1] := by
    intro i hi
    rw [List.get_eq_getElem, List.getElem_map]
    exact Package.ico.internalNumerical_eq _
  obtain ⟨k, hk⟩ := hw _ (hr _ (List.getElem_mem l1)) _ (hr _ (List.getElem_mem l2)) _ (hr _ (List.getElem_mem l3))
    (pairwise_get hpw l1 l2 fun h => h2 (Fin.ext h)) (pairwise_get hpw l1 l3 fun h => h3 (Fin.ext h))
    (pairwise_get hpw l2 l3 fun h => h4 (Fin.ext h))
  refine ⟨k, ?_⟩
  unfold tripleNormal
  rw [g _ l1, g _ l2, g _ l3]
  exact hk

/-- What the final part of the intersection does with points it recognises as coplanar. -/
theorem tetrahedralizeCommon_flat {draws : (n : Nat) → Draws n} {delaunay : Delaunay} {pts : List (Vec 6)}
    (hp : ∀ v ∈ pts, Vec.Ok v)
    (hcop : ∀ r, (∀ x ∈ r, x ∈ pts) → r.Pairwise (fun x y => Package.ico.perp x ≠ Package.ico.perp y) → 4 ≤ r.length →
      coplanarCheck draws r = some true) : tetrahedralizeCommon draws delaunay pts = .ok none := by
  unfold tetrahedralizeCommon
  by_cases h4 : pts.length ≥ 4
  · rw [if_pos h4]
    obtain ⟨r, hr, hsub, hpw, -⟩ := C24_one_per_point .ico pts hp
    rw [hr, bind_ok']
    by_cases h4 : r.length ≥ 4
    · rw [if_pos h4, if_pos (hcop r hsub hpw h4)]
    · rw [if_neg h4]
  · rw [if_neg h4]

/-- C110: two tetrahedra that touch without common interior point, at wide corners: `None`, whatever the library would
answer. -/
theorem C110_touching (draws : (n : Nat) → Draws n) (delaunay : Delaunay) (hd : Sampled draws) (s t : Simplex 4)
    (hs : Simplex.Ok s) (ht : Simplex.Ok t) (h : Resolved (Package.ico.perps s) (Package.ico.perps t))
    (hflat : ¬ (interior (solid (Package.ico.perps s) ∩ solid (Package.ico.perps t))).Nonempty)
    (hw : WideCorners (1 / 10 ^ 6) (solid (Package.ico.perps s) ∩ solid (Package.ico.perps t))) :
    intersectionTwoTetrahedra draws delaunay s t = .ok none := by
  rw [intersectionTwo_eq hs ht]
  refine tetrahedralizeCommon_flat (fun v hv => (commonPts_near hs ht hv).1) fun r hr hpw hl => ?_
  refine coplanar_wide hd hw (fun v hv => commonPts_extreme hs ht h (hr v hv)) hpw hl ?_
  refine inPlane_of_flat ((solid_convex _).inter (solid_convex _)) hflat fun x hx => ?_
  obtain ⟨v, hv, rfl⟩ := List.mem_map.1 hx
  exact (commonPts_exact hs ht h (hr v hv)).2

/-- C110, two tetrahedra, every case: the call returns, `None` exactly when the common part is flat, and otherwise pieces
that cover exactly the common part. -/
theorem C110_two (draws : (n : Nat) → Draws n) (delaunay : Delaunay) (hd : Sampled draws) (hD : FillsHull delaunay)
    (s t : Simplex 4) (hs : Simplex.Ok s) (ht : Simplex.Ok t) (h : Resolved (Package.ico.perps s) (Package.ico.perps t))
    (hw : WideContacts (1 / 10 ^ 6) .ico [s] [t]) :
    ∃ r, intersectionTwoTetrahedra draws delaunay s t = .ok r ∧
      (r = none ↔ interior (solid (Package.ico.perps s) ∩ solid (Package.ico.perps t)) = ∅) ∧
      ∀ o, r = some o → Package.ico.region o = solid (Package.ico.perps s) ∩ solid (Package.ico.perps t) := by
  by_cases hi : (interior (solid (Package.ico.perps s) ∩ solid (Package.ico.perps t))).Nonempty
  · obtain ⟨o, ho, e⟩ := C58_two draws delaunay hD s t hs ht h hi
    exact ⟨some o, ho, ⟨fun h => (by cases h), fun h => absurd h hi.ne_empty⟩, fun o' h' => by cases h'; exact e⟩
  · exact ⟨none, C110_touching draws delaunay hd s t hs ht h hi (hw s (by simp) t (by simp) hi),
      ⟨fun _ => Set.not_nonempty_iff_eq_empty.1 hi, fun _ => rfl⟩, fun o' h' => by cases h'⟩

/-- C110, two objects: the call returns, and what it returns covers the intersection of the objects up to volume zero;
with kind 'standard' it covers nothing else. Pieces may touch. -/
theorem C110_objects (kind : Kind) (draws : Simplex 4 → Simplex 4 → (n : Nat) → Draws n)
    (delaunay : Simplex 4 → Simplex 4 → Delaunay) (hd : ∀ s t, Sampled (draws s t)) (hD : ∀ s t, FillsHull (delaunay s t))
    (a b : Obj 4) (h0 : b ≠ []) (ok1 : Obj.Ok a) (ok2 : Obj.Ok b)
    (h : ∀ s ∈ a, ∀ t ∈ b, Resolved (Package.ico.perps s) (Package.ico.perps t)) (hw : WideContacts (1 / 10 ^ 6) .ico a b) :
    ∃ r, intersectionApi kind draws delaunay (.d4 a) (.d4 b) = .ok r ∧
      volume ((Package.ico.region a ∩ Package.ico.region b) \ Package.ico.region (r.getD [])) = 0 ∧
      (kind = .standard → Package.ico.region (r.getD []) ⊆ Package.ico.region a ∩ Package.ico.region b) := by
  suffices hret : ∃ r, intersectionApi kind draws delaunay (.d4 a) (.d4 b) = .ok r by
    obtain ⟨r, hr⟩ := hret
    refine ⟨r, hr, C58_objects kind draws delaunay a b (fun s _ t _ => hD s t) ok1 ok2 h r hr, ?_⟩
    rintro rfl
    exact C58_objects_inside draws delaunay a b (fun s _ t _ => hD s t) h0 ok1 ok2 h r hr
  obtain ⟨c, d, hcok, hcc, hdd, e⟩ := intersectionTwoObj1_eq kind draws delaunay (obj1 := a) ok2 h0
  change ∃ r, intersectionTwoObj1 kind draws delaunay a b = .ok r
  rw [e]
  refine intersectionTwoObj_total ok1 ok2 (fun s hs => ?_) (fun s hs t ht => ⟨_, rfl⟩) (fun s hs t ht h3 => ?_)
  · obtain ⟨R, -, -, b, hb, -⟩ := roughCheck_ok .ico (by decide) s c (ok1 s hs) hcok d
    exact ⟨b, hb⟩
  · obtain ⟨r, hr, -⟩ := C110_two (draws s t) (delaunay s t) (hd s t) (hD s t) s t (ok1 s hs) (ok2 t ht) (h s hs t ht)
      (fun s' hs' t' ht' => by
        rw [List.mem_singleton] at hs' ht'
        subst hs' ht'
        exact hw _ hs _ ht)
    refine ⟨r, hr, ?_⟩
    cases r with
    | none => trivial
    | some o => exact (intersectionTwo_ok (ok1 s hs) (ok2 t ht) hr).2

/-! ## The same with rounding -/

/-- As `coplanar_wide`, with rounding: coordinates must be so small that rounding does not reach the tolerance 10⁻¹⁰. -/
theorem coplanar_wide_rounded (F : Float64) {R : ℝ} (hR : 1 ≤ R) (hR2 : R ≤ 2 ^ 10) (hR3 : margin R ≤ 4 / 10 ^ 10)
    {draws : (n : Nat) → Draws n} (hd : Sampled draws) {A : Set (Fin 3 → ℝ)}
    (hw : WideCorners (1 / 10 ^ 6 + R ^ 2 / 2 ^ 41) A) {r : List (Vec 6)} (hsm : ∀ v ∈ r, Small .ico R v)
    (hr : ∀ v ∈ r, Package.ico.perp v ∈ A.extremePoints ℝ)
    (hpw : r.Pairwise fun x y => Package.ico.perp x ≠ Package.ico.perp y) (hl : 4 ≤ r.length)
    (hp : InPlane (r.map Package.ico.perp)) : F.coplanarCheck draws r = some true := by
  have hlen : (r.map F.internal).length = (r.map Package.ico.perp).length := by simp
  have hlen' : (r.map F.internal).length = r.length := by simp
  have g : ∀ i : Fin (r.map F.internal).length, ∀ hi : i.1 < r.length,
      (r.map Package.ico.perp).get (i.cast hlen) = Package.ico.perp r[i.1] := by
    intro i hi
    rw [List.get_eq_getElem, List.getElem_map]
    rfl
  unfold Float64.coplanarCheck
  rcases coplanar_rounded F hR (hR2.trans (by norm_num)) hlen (fun i j => by
      simp only [List.get_eq_getElem, List.getElem_map, Fin.val_cast]
      exact internal_approx F hR (hR2.trans (by norm_num)) (hsm _ (List.getElem_mem _)) j) (by rw [List.length_map]; omega) (draws _) with
    ⟨-, h1⟩ | ⟨d, -, -, ⟨h1, -⟩ | ⟨-, x, hx, h1⟩⟩
  · exfalso
    obtain ⟨h0, h5⟩ := hd (r.map F.internal).length (by omega)
    obtain ⟨d, hdm⟩ := List.exists_mem_of_ne_nil _ h0
    obtain ⟨h2, h3, h4⟩ := h5 d hdm
    have l1 : d.1.1 < r.length := hlen' ▸ d.1.2
    have l2 : d.2.1.1 < r.length := hlen' ▸ d.2.1.2
    have l3 : d.2.2.1 < r.length := hlen' ▸ d.2.2.2
    obtain ⟨k, hk⟩ := hw _ (hr _ (List.getElem_mem l1)) _ (hr _ (List.getElem_mem l2)) _ (hr _ (List.getElem_mem l3))
      (pairwise_get hpw l1 l2 fun h => h2 (Fin.ext h)) (pairwise_get hpw l1 l3 fun h => h3 (Fin.ext h))
      (pairwise_get hpw l2 l3 fun h => h4 (Fin.ext h))
    have := h1 d hdm k
    rw [g _ l1, g _ l2, g _ l3, eps_eq] at this
    exact absurd (lt_of_le_of_lt hk this) (lt_irrefl _)
  · exact h1
  · exfalso
    obtain ⟨n, n0, c, hc⟩ := hp
    have hz : ∀ a b c' x : Fin 3 → ℝ, n ⬝ᵥ a = c → n ⬝ᵥ b = c → n ⬝ᵥ c' = c → n ⬝ᵥ x = c →
        crossProduct (b - a) (c' - a) ⬝ᵥ (x - a) = 0 := by
      intro a b c' x ha hb hc' hx
      have hip : InPlane [a, b, c', x] := ⟨n, n0, c, by simp [ha, hb, hc', hx]⟩
      exact tripleNormal_inPlane hip (0, 1, 2) 3
    rw [hz _ _ _ _ (hc _ (List.get_mem _ _)) (hc _ (List.get_mem _ _)) (hc _ (List.get_mem _ _)) (hc _ hx), abs_zero] at h1
    linarith

/-- As `tetrahedralizeCommon_flat`, with rounding. -/
theorem common_flat_rounded (F : Float64) {draws : (n : Nat) → Draws n} {delaunay : Delaunay} {pts : List (Vec 6)}
    (hp : ∀ v ∈ pts, Vec.Ok v)
    (hcop : ∀ r, (∀ x ∈ r, x ∈ pts) → r.Pairwise (fun x y => Package.ico.perp x ≠ Package.ico.perp y) → 4 ≤ r.length →
      F.coplanarCheck draws r = some true) : F.tetrahedralizeCommon draws delaunay pts = .ok none := by
  unfold Float64.tetrahedralizeCommon
  by_cases h4 : pts.length ≥ 4
  · rw [if_pos h4]
    obtain ⟨r, hr, hsub, hpw, -⟩ := C24_one_per_point .ico pts hp
    rw [hr, bind_ok']
    by_cases h4 : r.length ≥ 4
    · rw [if_pos h4, if_pos (hcop r hsub hpw h4)]
    · rw [if_neg h4]
  · rw [if_neg h4]

theorem commonPts_small {R : ℝ} {s t : Simplex 4} (hs : Simplex.Ok s) (ht : Simplex.Ok t) (ss : ∀ i, Small .ico R (s i))
    (st : ∀ i, Small .ico R (t i)) (sc : ∀ pts, crossingPoints s t = .ok pts → ∀ v ∈ pts, Small .ico R v) {v : Vec 6}
    (hv : v ∈ commonPts s t) : Small .ico R v := by
  unfold commonPts at hv
  rw [List.mem_append, List.mem_append, List.mem_filter, List.mem_filter] at hv
  rcases hv with (hv | ⟨hv, -⟩) | ⟨hv, -⟩
  · exact sc _ (crossingPoints_ok hs ht) v hv
  · obtain ⟨i, rfl⟩ := (List.mem_ofFn' _ _).mp hv; exact ss i
  · obtain ⟨i, rfl⟩ := (List.mem_ofFn' _ _).mp hv; exact st i

/-- C110 with rounding, two tetrahedra that touch: `None`, whatever the library would answer. -/
theorem C110_touching_rounded (F : Float64) {R : ℝ} (hR : 1 ≤ R) (hR2 : R ≤ 2 ^ 10) (hR3 : margin R ≤ 4 / 10 ^ 10)
    (draws : (n : Nat) → Draws n) (delaunay : Delaunay) (hd : Sampled draws) (s t : Simplex 4)
    (hs : Simplex.Ok s) (ht : Simplex.Ok t) (ss : ∀ i, Small .ico R (s i)) (st : ∀ i, Small .ico R (t i))
    (sc : ∀ pts, crossingPoints s t = .ok pts → ∀ v ∈ pts, Small .ico R v)
    (h : ResolvedRounded R (Package.ico.perps s) (Package.ico.perps t))
    (hflat : ¬ (interior (solid (Package.ico.perps s) ∩ solid (Package.ico.perps t))).Nonempty)
    (hw : WideCorners (1 / 10 ^ 6 + R ^ 2 / 2 ^ 41) (solid (Package.ico.perps s) ∩ solid (Package.ico.perps t))) :
    F.intersectionTwoTetrahedra draws delaunay s t = .ok none := by
  rw [intersection_rounded_eq F hR hR2 hs ht ss st h.apartST h.apartTS]
  refine common_flat_rounded F (fun v hv => (commonPts_near hs ht hv).1) fun r hr hpw hl => ?_
  refine coplanar_wide_rounded F hR hR2 hR3 hd hw (fun v hv => commonPts_small hs ht ss st sc (hr v hv))
    (fun v hv => commonPts_extreme hs ht h.resolved (hr v hv)) hpw hl ?_
  refine inPlane_of_flat ((solid_convex _).inter (solid_convex _)) hflat fun x hx => ?_
  obtain ⟨v, hv, rfl⟩ := List.mem_map.1 hx
  exact (commonPts_exact hs ht h.resolved (hr v hv)).2

/-- C110 with rounding, two objects: the call returns, and what it returns covers the intersection of the objects up to
volume zero; with kind 'standard' it covers nothing else. Pieces may touch. -/
theorem C110_objects_rounded (F : Float64) {R : ℝ} (hR : 1 ≤ R) (hR2 : R ≤ 2 ^ 10) (hR3 : margin R ≤ 4 / 10 ^ 10) (kind : Kind)
    (draws : Simplex 4 → Simplex 4 → (n : Nat) → Draws n) (delaunay : Simplex 4 → Simplex 4 → Delaunay)
    (hd : ∀ s t, Sampled (draws s t)) (a b : Obj 4)
    (hD : ∀ s ∈ a, ∀ t ∈ b, ∀ r pns,
      (∀ v ∈ r, Vec.Ok v ∧ Candidate (Package.ico.perps s) (Package.ico.perps t) (Package.ico.perp v)) →
      F.delaunayInput r = .ok pns → ¬ InPlane (r.map Package.ico.perp) →
      FillsHullOf (r.map Package.ico.perp) (delaunay s t pns))
    (h0 : b ≠ []) (ok1 : Obj.Ok a) (ok2 : Obj.Ok b) (h : ObjectsRounded R a b)
    (hw : WideContacts (1 / 10 ^ 6 + R ^ 2 / 2 ^ 41) .ico a b) :
    ∃ r, F.intersectionApi kind draws delaunay (.d4 a) (.d4 b) = .ok r ∧
      volume ((Package.ico.region a ∩ Package.ico.region b) \ Package.ico.region (r.getD [])) = 0 ∧
      (kind = .standard → Package.ico.region (r.getD []) ⊆ Package.ico.region a ∩ Package.ico.region b) := by
  suffices hret : ∃ r, F.intersectionApi kind draws delaunay (.d4 a) (.d4 b) = .ok r by
    obtain ⟨r, hr⟩ := hret
    refine ⟨r, hr, C89_objects F hR hR2 kind draws delaunay a b hD ok1 ok2 h r hr, ?_⟩
    rintro rfl
    exact C89_inside F hR hR2 draws delaunay a b hD h0 ok1 ok2 h r hr
  obtain ⟨rough, e, hro⟩ := objects_rounded_eq F hR hR2 kind draws delaunay h0 ok1 ok2 h
  rw [e]
  refine intersectionTwoObj_total ok1 ok2 (fun s hs => ?_) (fun s hs t ht => ⟨_, rfl⟩) (fun s hs t ht h3 => ?_)
  · obtain ⟨b, hb, -⟩ := hro s hs
    exact ⟨b, hb⟩
  · have hok : ∀ o, F.intersectionTwoTetrahedra (draws s t) (delaunay s t) s t = .ok (some o) → Obj.Ok o := by
      intro o ho
      rw [intersection_rounded_eq F hR hR2 (ok1 s hs) (ok2 t ht) (h.small1 s hs) (h.small2 t ht) (h.pairs s hs t ht).apartST
        (h.pairs s hs t ht).apartTS] at ho
      have hm := common_mem_rounded F (fun v hv => (commonPts_near (ok1 s hs) (ok2 t ht) hv).1) ho
      exact fun a ha i => (commonPts_near (ok1 s hs) (ok2 t ht) (hm.2 a ha i)).1
    by_cases hi : (interior (solid (Package.ico.perps s) ∩ solid (Package.ico.perps t))).Nonempty
    · obtain ⟨o, ho, -⟩ := C88_two F hR hR2 (draws s t) (delaunay s t) s t (hD s hs t ht) (ok1 s hs) (ok2 t ht)
        (h.small1 s hs) (h.small2 t ht) (h.crossing s hs t ht) (h.pairs s hs t ht) hi
      exact ⟨_, ho, hok o ho⟩
    · exact ⟨none, C110_touching_rounded F hR hR2 hR3 (draws s t) (delaunay s t) (hd s t) s t (ok1 s hs) (ok2 t ht)
        (h.small1 s hs) (h.small2 t ht) (h.crossing s hs t ht) (h.pairs s hs t ht) hi (hw s hs t ht hi),
        fun x hx => by cases hx⟩

end PyQC
