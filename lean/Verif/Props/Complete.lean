import Verif.Lemmas.Hull
import Verif.Lemmas.Grid
import Mathlib.MeasureTheory.Measure.Lebesgue.EqHaar
import Mathlib.Analysis.Convex.Measure
/-!
# C58: nothing of the common part is lost
-/
namespace PyQC
open Matrix Ico MeasureTheory

/-! ## Classification of resolved pairs -/

/-- C58 for two tetrahedra of a resolved pair: the code is 1 exactly when the first lies in the second, 2 exactly when
that fails and the second lies in the first, 0 exactly when they have no point in common, and 3 otherwise. -/
theorem C58_codes (s t : Simplex 4) (h : Resolved (Package.ico.perps s) (Package.ico.perps t)) :
    let A := solid (Package.ico.perps s)
    let B := solid (Package.ico.perps t)
    (checkTwoTetrahedra s t = 1 ↔ A ⊆ B) ∧ (checkTwoTetrahedra s t = 2 ↔ ¬ A ⊆ B ∧ B ⊆ A) ∧
      (checkTwoTetrahedra s t = 3 ↔ ¬ A ⊆ B ∧ ¬ B ⊆ A ∧ (A ∩ B).Nonempty) ∧
      (checkTwoTetrahedra s t = 0 ↔ A ∩ B = ∅) := by
  intro A B
  have hall : ∀ {P Q : Fin 4 → Fin 3 → ℝ}, Clear P Q → tetVol Q ≠ 0 → (AllAccepted P Q ↔ solid P ⊆ solid Q) := by
    intro P Q hc hv
    constructor
    · intro ha
      refine convexHull_min ?_ (solid_convex Q)
      rintro x ⟨i, rfl⟩
      exact hc.corner i (ha i)
    · intro hsub i
      exact accepts_of_mem hv (hsub (subset_convexHull ℝ _ ⟨i, rfl⟩))
  have hef : ∀ {P Q : Fin 4 → Fin 3 → ℝ}, Clear P Q → (EdgeHitsFace P Q ↔ ∃ x, EdgeFace P Q x) := by
    intro P Q hc
    constructor
    · rintro ⟨i, j, k, l, m, hij, hkl, hlm, hh⟩
      exact edgeFace_of_hits hc hij hkl hlm hh
    · rintro ⟨x, i, j, k, l, m, hij, hkl, hlm, hd, a, u, w, hm, hx, t0, t1, u0, v0, uv⟩
      exact ⟨i, j, k, l, m, hij, hkl, hlm, hits_of_edgeFace hc hij hkl hlm hd hm t0 t1 u0 v0 uv⟩
  have hS := det4_ne_iff.2 h.volS
  have hT := det4_ne_iff.2 h.volT
  -- without a crossing either all corners of a tetrahedron are inside the other or none
  have hnone : ∀ {P Q : Fin 4 → Fin 3 → ℝ}, det4 Q ≠ 0 → (¬ ∃ x, EdgeFace P Q x) → ¬ solid P ⊆ solid Q →
      ∀ i, P i ∉ solid Q := by
    intro P Q hQ hno hsub i hi
    apply hsub
    refine convexHull_min ?_ (solid_convex Q)
    rintro x ⟨j, rfl⟩
    by_contra hj
    rcases lt_trichotomy i j with hij | rfl | hij
    · exact hno (exit_edge hQ hij (.inl ⟨hi, hj⟩))
    · exact hj hi
    · exact hno (exit_edge hQ hij (.inr ⟨hi, hj⟩))
  obtain ⟨c1, c2, c3, c0⟩ := C36_codes s t
  rw [hall h.clearST h.volT] at c1 c2 c3 c0
  rw [hall h.clearTS h.volS] at c2 c3 c0
  rw [hef h.clearST, hef h.clearTS] at c3 c0
  have hempty : ¬ A ⊆ B → ¬ B ⊆ A → (¬ ((∃ x, EdgeFace (Package.ico.perps s) (Package.ico.perps t) x) ∨
      ∃ x, EdgeFace (Package.ico.perps t) (Package.ico.perps s) x) ↔ A ∩ B = ∅) := by
    intro h1 h2
    constructor
    · intro hno
      push Not at hno
      have n1 : ¬ ∃ x, EdgeFace (Package.ico.perps s) (Package.ico.perps t) x := fun ⟨x, hx⟩ => hno.1 x hx
      have n2 : ¬ ∃ x, EdgeFace (Package.ico.perps t) (Package.ico.perps s) x := fun ⟨x, hx⟩ => hno.2 x hx
      rw [← Set.subset_empty_iff]
      have := common_subset_hull (S := Package.ico.perps s) (T := Package.ico.perps t) (P := ∅) Set.finite_empty (by
        intro x hx
        rcases extreme_classify hS hT hx with ⟨i, rfl, hm⟩ | ⟨i, rfl, hm⟩ | he | he
        · exact absurd hm (hnone hT n1 h1 i)
        · exact absurd hm (hnone hS n2 h2 i)
        · exact absurd ⟨x, he⟩ n1
        · exact absurd ⟨x, he⟩ n2)
      rwa [convexHull_empty] at this
    · rintro he (⟨x, hx⟩ | ⟨x, hx⟩)
      · exact (Set.eq_empty_iff_forall_notMem.1 he) x (edgeFace_mem hx)
      · exact (Set.eq_empty_iff_forall_notMem.1 he) x (edgeFace_mem hx).symm
  have hAne : A.Nonempty := ⟨_, subset_convexHull ℝ _ ⟨0, rfl⟩⟩
  have hBne : B.Nonempty := ⟨_, subset_convexHull ℝ _ ⟨0, rfl⟩⟩
  refine ⟨c1, c2, ?_, ?_⟩
  · rw [c3]
    refine and_congr_right fun h1 => and_congr_right fun h2 => ?_
    rw [← not_iff_not, hempty h1 h2, Set.not_nonempty_iff_eq_empty]
  · rw [c0]
    constructor
    · rintro ⟨h1, h2, h3⟩
      exact (hempty h1 h2).1 (not_or.2 h3)
    · intro he
      have h1 : ¬ A ⊆ B := fun hsub => by
        rw [Set.inter_eq_left.2 hsub] at he
        exact hAne.ne_empty he
      have h2 : ¬ B ⊆ A := fun hsub => by
        rw [Set.inter_eq_right.2 hsub] at he
        exact hBne.ne_empty he
      exact ⟨h1, h2, not_or.1 ((hempty h1 h2).2 he)⟩

/-! ## Two tetrahedra -/

theorem map_perp_set {l : List (Vec 6)} : {x | ∃ v ∈ l, Package.ico.perp v = x} = {x | x ∈ l.map Package.ico.perp} := by
  ext x
  exact List.mem_map.symm

/-- What the final part of the intersection does with points spanning a solid. -/
theorem tetrahedralizeCommon_fills {draws : (n : Nat) → Draws n} {delaunay : Delaunay} (hD : FillsHull delaunay)
    {pts : List (Vec 6)} (hp : ∀ v ∈ pts, Vec.Ok v) (hn : ¬ InPlane (pts.map Package.ico.perp))
    (hcop : ∀ r, (∀ x ∈ r, x ∈ pts) → coplanarCheck draws r = some true → InPlane (r.map Package.ico.perp)) :
    ∃ o, tetrahedralizeCommon draws delaunay pts = .ok (some o) ∧ (∀ a ∈ o, ∀ k, a k ∈ pts) ∧
      convexHull ℝ {x | ∃ v ∈ pts, Package.ico.perp v = x} ⊆ Package.ico.region o := by
  obtain ⟨r, hr, hsub, hpw, huniq⟩ := C24_one_per_point .ico pts hp
  have hset : ∀ x, x ∈ r.map Package.ico.perp ↔ x ∈ pts.map Package.ico.perp := by
    intro x
    rw [List.mem_map, List.mem_map]
    constructor
    · rintro ⟨v, hv, e⟩; exact ⟨v, hsub v hv, e⟩
    · rintro ⟨v, hv, e⟩
      obtain ⟨y, ⟨hy, e2⟩, -⟩ := huniq v hv
      exact ⟨y, hy, e2.trans e⟩
  have hnr : ¬ InPlane (r.map Package.ico.perp) := fun hi => hn (inPlane_of_subset hi fun x hx => (hset x).2 hx)
  have hrl : r.length ≥ 4 := by
    by_contra hlt
    exact hnr (inPlane_few (by rw [List.length_map]; omega))
  have hpl : pts.length ≥ 4 := by
    by_contra hlt
    exact hn (inPlane_few (by rw [List.length_map]; omega))
  have hhull : {x | ∃ v ∈ pts, Package.ico.perp v = x} = {x | x ∈ r.map Package.ico.perp} := by
    rw [map_perp_set]; ext x; exact (hset x).symm
  have hrok : ∀ v ∈ r, Vec.Ok v := fun v hv => hp v (hsub v hv)
  unfold tetrahedralizeCommon
  rw [if_pos hpl, hr, bind_ok', if_pos hrl, if_neg (fun h => hnr (hcop r hsub h))]
  simp only
  by_cases h4 : r.length = 4
  · rw [if_pos h4]
    unfold reshape4
    rw [dif_pos h4, bind_ok', bind_ok']
    simp only
    rw [objVolume_ok (by
      intro t ht k
      rw [List.mem_singleton] at ht
      subst ht
      exact hrok _ (List.get_mem _ _)), bind_ok']
    refine ⟨_, rfl, ?_, ?_⟩
    · intro a ha k
      rw [List.mem_singleton] at ha
      subst ha
      exact hsub _ (List.get_mem _ _)
    · rw [hhull]
      intro x hx
      refine ⟨_, List.mem_singleton.2 rfl, ?_⟩
      refine convexHull_mono ?_ hx
      intro y hy
      obtain ⟨v, hv, rfl⟩ := List.mem_map.1 hy
      obtain ⟨i, rfl⟩ := List.get_of_mem hv
      exact ⟨Fin.cast h4 i, rfl⟩
  · rw [if_neg h4]
    obtain ⟨l, hl, hidx, hcov⟩ := hD _ hnr
    have hidx' : ∀ i ∈ l, ∀ k, i k < r.length := fun i hi k => by simpa using hidx i hi k
    have hget : ∀ i (hi : i ∈ l), (fun k => (r.map Package.ico.perp)[i k]'(hidx i hi k)) =
        Package.ico.perps (fun k => r[i k]'(hidx' i hi k)) := by
      intro i hi
      funext k
      rw [List.getElem_map]
      rfl
    rcases C50_tetrahedralization delaunay r (by intro h; rw [h] at hrl; simp at hrl) hrok l hl hidx' with
      ⟨o, ho, -, -, hmem, -⟩ | ⟨-, h0⟩
    · have hall : ∀ a ∈ o, ∀ k, a k ∈ r := by
        intro a ha k
        obtain ⟨ha, -⟩ := (hmem a).1 ha
        rw [List.mem_map] at ha
        obtain ⟨i, -, rfl⟩ := ha
        exact List.getElem_mem _
      rw [ho, bind_ok']
      simp only
      rw [objVolume_ok (fun a ha k => hrok _ (hall a ha k)), bind_ok']
      refine ⟨o, rfl, fun a ha k => hsub _ (hall a ha k), ?_⟩
      rw [hhull]
      intro x hx
      obtain ⟨i, hi, hv, hx⟩ := hcov x hx
      rw [hget i hi] at hv hx
      refine ⟨_, (hmem _).2 ⟨?_, hv⟩, hx⟩
      rw [List.mem_map]
      exact ⟨⟨i, hi⟩, List.mem_attach _ _, rfl⟩
    · exfalso
      obtain ⟨v, hv⟩ : ∃ v, v ∈ r.map Package.ico.perp :=
        ⟨(r.map Package.ico.perp)[0]'(by rw [List.length_map]; omega), List.getElem_mem _⟩
      obtain ⟨i, hi, hv, -⟩ := hcov v (subset_convexHull ℝ _ hv)
      rw [hget i hi] at hv
      refine hv (h0 _ ?_)
      rw [List.mem_map]
      exact ⟨⟨i, hi⟩, List.mem_attach _ _, rfl⟩

theorem region_subset_hull {pts : List (Vec 6)} {o : Obj 4} (h : ∀ a ∈ o, ∀ k, a k ∈ pts) :
    Package.ico.region o ⊆ convexHull ℝ {x | ∃ v ∈ pts, Package.ico.perp v = x} := by
  rintro x ⟨a, ha, hx⟩
  refine convexHull_mono ?_ hx
  rintro y ⟨k, rfl⟩
  exact ⟨a k, h a ha k, rfl⟩

/-- The convex hull of points of a plane has no interior point. -/
theorem hull_flat {pts : List (Fin 3 → ℝ)} (h : InPlane pts) : ¬ (interior (convexHull ℝ {x | x ∈ pts})).Nonempty := by
  obtain ⟨n, h0, d, hd⟩ := h
  rintro ⟨x, hx⟩
  have hpl := hull_inPlane (P := {x | x ∈ pts}) hd
  rw [mem_interior_iff_mem_nhds, Metric.mem_nhds_iff] at hx
  obtain ⟨ε, hε, hb⟩ := hx
  have hnn : n ⬝ᵥ n ≠ 0 := fun e => h0 (dotProduct_self_eq_zero.1 e)
  have hn : 0 < ‖n‖ := norm_pos_iff.2 h0
  have h1 := hpl x (hb (Metric.mem_ball_self hε))
  have h2 := hpl (x + (ε / (2 * ‖n‖)) • n) (hb (by
    rw [Metric.mem_ball, dist_eq_norm, add_sub_cancel_left, norm_smul, Real.norm_eq_abs, abs_of_pos (by positivity)]
    field_simp; linarith))
  rw [dotProduct_add, h1, dotProduct_smul, smul_eq_mul] at h2
  have h3 : ε / (2 * ‖n‖) * n ⬝ᵥ n = 0 := by linarith
  rcases mul_eq_zero.1 h3 with h4 | h4
  · exact absurd h4 (ne_of_gt (by positivity))
  · exact hnn h4

/-- C58 for two tetrahedra: for a resolved pair whose common part is not flat, whatever triples the coplanarity test
draws, and for a tetrahedralisation that fills the convex hull, a result is returned and its pieces cover exactly the
common part. -/
theorem C58_two (draws : (n : Nat) → Draws n) (delaunay : Delaunay) (hD : FillsHull delaunay) (s t : Simplex 4)
    (hs : Simplex.Ok s) (ht : Simplex.Ok t) (h : Resolved (Package.ico.perps s) (Package.ico.perps t))
    (hsolid : (interior (solid (Package.ico.perps s) ∩ solid (Package.ico.perps t))).Nonempty) :
    ∃ o, intersectionTwoTetrahedra draws delaunay s t = .ok (some o) ∧
      Package.ico.region o = solid (Package.ico.perps s) ∩ solid (Package.ico.perps t) := by
  rw [intersectionTwo_eq hs ht]
  have hull := commonPts_hull hs ht h
  obtain ⟨o, ho, hmem, hcov⟩ := tetrahedralizeCommon_fills (draws := draws) hD (pts := commonPts s t)
    (fun v hv => (commonPts_near hs ht hv).1) (by
      intro hpl
      rw [← hull, map_perp_set] at hsolid
      exact hull_flat hpl hsolid)
    (fun r hr hc => coplanar_true (fun v hv => (commonPts_exact hs ht h (hr v hv)).1) h.flat hc)
  exact ⟨o, ho, by rw [← hull]; exact Set.Subset.antisymm (region_subset_hull hmem) hcov⟩

/-- A pair without solid common part loses nothing. -/
theorem common_null {S T : Fin 4 → Fin 3 → ℝ} (h : ¬ (interior (solid S ∩ solid T)).Nonempty) :
    volume (solid S ∩ solid T) = 0 := by
  have hc : Convex ℝ (solid S ∩ solid T) := (solid_convex S).inter (solid_convex T)
  have hf := hc.addHaar_frontier volume
  refine measure_mono_null ?_ hf
  intro x hx
  refine ⟨subset_closure hx, fun hi => h ⟨x, hi⟩⟩

/-- C58 for two tetrahedra, every outcome: whatever is returned for a resolved pair lies in the common part and covers
it up to a set of volume zero. -/
theorem C58_two_outcome (draws : (n : Nat) → Draws n) (delaunay : Delaunay) (hD : FillsHull delaunay) (s t : Simplex 4)
    (hs : Simplex.Ok s) (ht : Simplex.Ok t) (h : Resolved (Package.ico.perps s) (Package.ico.perps t)) (r : Option (Obj 4))
    (hr : intersectionTwoTetrahedra draws delaunay s t = .ok r) :
    Package.ico.region (r.getD []) ⊆ solid (Package.ico.perps s) ∩ solid (Package.ico.perps t) ∧
      volume ((solid (Package.ico.perps s) ∩ solid (Package.ico.perps t)) \ Package.ico.region (r.getD [])) = 0 := by
  by_cases hi : (interior (solid (Package.ico.perps s) ∩ solid (Package.ico.perps t))).Nonempty
  · obtain ⟨o, ho, e⟩ := C58_two draws delaunay hD s t hs ht h hi
    rw [hr] at ho
    cases ho
    rw [Option.getD_some, e, Set.sdiff_self, measure_empty]
    exact ⟨subset_rfl, rfl⟩
  · refine ⟨?_, measure_mono_null Set.sdiff_subset (common_null hi)⟩
    cases r with
    | none => rintro x ⟨a, ha, -⟩; simp at ha
    | some o =>
      rw [intersectionTwo_eq hs ht] at hr
      have hm := (tetrahedralizeCommon_mem (fun v hv => (commonPts_near hs ht hv).1) hr).2
      rw [← commonPts_hull hs ht h]
      exact region_subset_hull hm

/-! ## Two objects -/

theorem region_mono {o o' : Obj 4} (h : ∀ a ∈ o, a ∈ o') : Package.ico.region o ⊆ Package.ico.region o' :=
  fun _ ⟨a, ha, hx⟩ => ⟨a, h a ha, hx⟩

/-- The part of `A` in a piece of the second object is covered by the collected pieces, up to volume zero. -/
def Covered (A : Set (Fin 3 → ℝ)) (t : Simplex 4) (acc : Obj 4) : Prop :=
  volume ((A ∩ solid (Package.ico.perps t)) \ Package.ico.region acc) = 0

theorem Covered.mono {A : Set (Fin 3 → ℝ)} {t : Simplex 4} {acc acc' : Obj 4} (h : Covered A t acc)
    (hs : ∀ a ∈ acc, a ∈ acc') : Covered A t acc' :=
  measure_mono_null (Set.sdiff_subset_sdiff_right (region_mono hs)) h

theorem innerLoop_cover {flag : Simplex 4 → Simplex 4 → Py Nat} {inter : Simplex 4 → Simplex 4 → Py (Option (Obj 4))}
    {t1 : Simplex 4} {A : Set (Fin 3 → ℝ)} (l : Obj 4)
    (h0 : ∀ t ∈ l, ∀ f, flag t1 t = .ok f → f ≠ 1 → f ≠ 2 → f ≠ 3 → A ∩ solid (Package.ico.perps t) = ∅)
    (h3 : ∀ t ∈ l, ∀ r, flag t1 t = .ok 3 → inter t1 t = .ok r → Covered A t (r.getD [])) (acc : Obj 4)
    (r : Bool × Obj 4) (hr : innerLoop flag inter t1 acc l = .ok r) :
    (∀ a ∈ acc, a ∈ r.2) ∧ (r.1 = true ∨ ∀ t ∈ l, Covered A t r.2) := by
  induction l generalizing acc with
  | nil => cases hr; exact ⟨fun a h => h, .inr (by simp)⟩
  | cons t l ih =>
    have ih' := ih (fun t ht => h0 t (by simp [ht])) (fun t ht => h3 t (by simp [ht]))
    have fin : ∀ acc', (∀ a ∈ acc, a ∈ acc') → Covered A t acc' → innerLoop flag inter t1 acc' l = .ok r →
        (∀ a ∈ acc, a ∈ r.2) ∧ (r.1 = true ∨ ∀ u ∈ t :: l, Covered A u r.2) := by
      intro acc' ha hc hr'
      obtain ⟨p, q⟩ := ih' acc' hr'
      refine ⟨fun a h => p a (ha a h), q.imp id fun q => ?_⟩
      intro u hu
      rcases List.mem_cons.1 hu with rfl | hu
      · exact hc.mono p
      · exact q u hu
    unfold innerLoop at hr
    cases hf : flag t1 t with
    | error e => rw [hf, bind_error'] at hr; cases hr
    | ok f =>
      rw [hf, bind_ok'] at hr
      by_cases f1 : f = 1
      · rw [if_pos f1] at hr
        cases hr
        exact ⟨fun a h => h, .inl rfl⟩
      · rw [if_neg f1] at hr
        by_cases f2 : f = 2
        · rw [if_pos f2] at hr
          refine fin _ (fun a h => List.mem_append_left _ h) ?_ hr
          refine measure_mono_null (t := ∅) ?_ measure_empty
          rintro x ⟨⟨-, hx⟩, hn⟩
          exact hn ⟨t, by simp, hx⟩
        · rw [if_neg f2] at hr
          by_cases f3 : f = 3
          · rw [if_pos f3] at hr
            cases hi : inter t1 t with
            | error e => rw [hi, bind_error'] at hr; cases hr
            | ok o =>
              rw [hi, bind_ok'] at hr
              have hc := h3 t (by simp) o (by rw [hf, f3]) hi
              cases o with
              | none => exact fin _ (fun a h => h) (hc.mono (by simp)) hr
              | some o =>
                exact fin _ (fun a h => List.mem_append_left _ h) (hc.mono (fun a h => List.mem_append_right _ h)) hr
          · rw [if_neg f3] at hr
            refine fin _ (fun a h => h) ?_ hr
            refine measure_mono_null Set.sdiff_subset ?_
            rw [h0 t (by simp) f hf f1 f2 f3, measure_empty]

/-- What one piece contributes covers its part in the second object. -/
theorem onePiece_cover {kind : Kind} {rough : Simplex 4 → Py Bool} {flag : Simplex 4 → Simplex 4 → Py Nat}
    {inter : Simplex 4 → Simplex 4 → Py (Option (Obj 4))} {obj2 : Obj 4} {t1 : Simplex 4}
    (hrough : rough t1 = .ok false → ∀ t ∈ obj2, volume (solid (Package.ico.perps t1) ∩ solid (Package.ico.perps t)) = 0)
    (h0 : ∀ t ∈ obj2, ∀ f, flag t1 t = .ok f → f ≠ 1 → f ≠ 2 → f ≠ 3 →
      solid (Package.ico.perps t1) ∩ solid (Package.ico.perps t) = ∅)
    (h3 : ∀ t ∈ obj2, ∀ r, flag t1 t = .ok 3 → inter t1 t = .ok r → Covered (solid (Package.ico.perps t1)) t (r.getD []))
    {r : Obj 4} (hr : onePiece kind rough flag inter obj2 t1 = .ok r) :
    ∀ t ∈ obj2, Covered (solid (Package.ico.perps t1)) t r := by
  have hself : ∀ {o : Obj 4}, t1 ∈ o → ∀ t, Covered (solid (Package.ico.perps t1)) t o := by
    intro o ho t
    refine measure_mono_null (t := ∅) ?_ measure_empty
    rintro x ⟨⟨hx, -⟩, hn⟩
    exact hn ⟨t1, ho, hx⟩
  unfold onePiece at hr
  cases hro : rough t1 with
  | error e => rw [hro, bind_error'] at hr; cases hr
  | ok b =>
    rw [hro, bind_ok'] at hr
    cases b with
    | false =>
      rw [if_neg (by simp)] at hr
      intro t ht
      exact measure_mono_null Set.sdiff_subset (hrough hro t ht)
    | true =>
      rw [if_pos rfl] at hr
      cases hi : innerLoop flag inter t1 [] obj2 with
      | error e => rw [hi, bind_error'] at hr; cases hr
      | ok p =>
        rw [hi, bind_ok'] at hr
        obtain ⟨inside, tmp⟩ := p
        obtain ⟨-, hc⟩ := innerLoop_cover (A := solid (Package.ico.perps t1)) obj2 h0 h3 [] _ hi
        simp only at hr hc
        by_cases hn : tmp.length ≠ 0
        · rw [if_pos hn] at hr
          have std : ∀ t ∈ obj2, Covered (solid (Package.ico.perps t1)) t ((if inside = true then [t1] else []) ++ tmp) := by
            intro t ht
            rcases hc with hc | hc
            · exact hself (by simp [hc]) t
            · exact (hc t ht).mono fun a ha => List.mem_append_right _ ha
          cases kind with
          | standard =>
            simp only at hr
            cases hr
            exact std
          | simple =>
            simp only at hr
            cases hv1 : tetrahedronVolume6d t1 with
            | error e => rw [hv1, bind_error'] at hr; cases hr
            | ok v1 =>
              rw [hv1, bind_ok'] at hr
              cases hv2 : objVolume6d (.d4 tmp) with
              | error e => rw [hv2, bind_error'] at hr; cases hr
              | ok v2 =>
                rw [hv2, bind_ok'] at hr
                by_cases hv : some v1 = v2
                · rw [if_pos hv] at hr
                  cases hr
                  exact fun t _ => hself (by simp) t
                · rw [if_neg hv] at hr
                  cases hr
                  exact std
        · rw [if_neg hn] at hr
          cases hr
          intro t ht
          rcases hc with hc | hc
          · exact hself (by simp [hc]) t
          · have : tmp = [] := by simpa using hn
            subst this
            exact (hc t ht).mono (by simp)

theorem intersectionTwoObj_cover {kind : Kind} {rough : Simplex 4 → Py Bool} {flag : Simplex 4 → Simplex 4 → Py Nat}
    {inter : Simplex 4 → Simplex 4 → Py (Option (Obj 4))} {obj1 obj2 : Obj 4}
    (hrough : ∀ s ∈ obj1, rough s = .ok false → ∀ t ∈ obj2,
      volume (solid (Package.ico.perps s) ∩ solid (Package.ico.perps t)) = 0)
    (h0 : ∀ s ∈ obj1, ∀ t ∈ obj2, ∀ f, flag s t = .ok f → f ≠ 1 → f ≠ 2 → f ≠ 3 →
      solid (Package.ico.perps s) ∩ solid (Package.ico.perps t) = ∅)
    (h3 : ∀ s ∈ obj1, ∀ t ∈ obj2, ∀ r, flag s t = .ok 3 → inter s t = .ok r →
      Covered (solid (Package.ico.perps s)) t (r.getD []))
    {r : Option (Obj 4)} (hr : intersectionTwoObj kind rough flag inter obj1 obj2 = .ok r) :
    volume ((Package.ico.region obj1 ∩ Package.ico.region obj2) \ Package.ico.region (r.getD [])) = 0 := by
  unfold intersectionTwoObj at hr
  cases hf : fillList (onePiece kind rough flag inter obj2) obj1 with
  | error e => rw [hf, bind_error'] at hr; cases hr
  | ok parts =>
    rw [hf, bind_ok'] at hr
    have hres : r.getD [] = parts.flatten := by
      by_cases hn : parts.flatten.length ≠ 0
      · rw [if_pos hn] at hr; cases hr; rfl
      · rw [if_neg hn] at hr
        cases hr
        have : parts.flatten = [] := List.length_eq_zero_iff.1 (not_not.1 hn)
        rw [this]; rfl
    rw [hres]
    have hall : ∀ s ∈ obj1, ∀ t ∈ obj2, Covered (solid (Package.ico.perps s)) t parts.flatten := by
      have h2 := fillList_eq_ok hf
      clear hf hr hres
      induction h2 with
      | nil => simp
      | @cons s p obj1 parts hx hrest ih =>
        intro s' hs' t ht
        rcases List.mem_cons.1 hs' with rfl | hs'
        · exact (onePiece_cover (hrough _ (by simp)) (h0 _ (by simp)) (h3 _ (by simp)) hx t ht).mono
            fun a ha => by rw [List.flatten_cons]; exact List.mem_append_left _ ha
        · exact (ih (fun s hs => hrough s (by simp [hs])) (fun s hs => h0 s (by simp [hs]))
            (fun s hs => h3 s (by simp [hs])) s' hs' t ht).mono
            fun a ha => by rw [List.flatten_cons]; exact List.mem_append_right _ ha
    refine measure_mono_null (t := ⋃ s ∈ {s | s ∈ obj1}, ⋃ t ∈ {t | t ∈ obj2},
      (solid (Package.ico.perps s) ∩ solid (Package.ico.perps t)) \ Package.ico.region parts.flatten) ?_ ?_
    · rintro x ⟨⟨⟨s, hs, hx⟩, ⟨t, ht, hx'⟩⟩, hn⟩
      simp only [Set.mem_iUnion]
      exact ⟨s, hs, t, ht, ⟨hx, hx'⟩, hn⟩
    · rw [measure_biUnion_null_iff obj1.finite_toSet.countable]
      intro s hs
      rw [measure_biUnion_null_iff obj2.finite_toSet.countable]
      exact fun t ht => hall s hs t ht

/-- C58 for objects: when every pair of pieces is resolved, nothing of the common part is lost, for both kinds of
result: the returned pieces cover the intersection of the two objects up to a set of volume zero (the contacts along
faces, edges and corners). -/
theorem C58_objects (kind : Kind) (draws : Simplex 4 → Simplex 4 → (n : Nat) → Draws n)
    (delaunay : Simplex 4 → Simplex 4 → Delaunay) (obj1 obj2 : Obj 4) (hD : ∀ s ∈ obj1, ∀ t ∈ obj2, FillsHull (delaunay s t))
    (ok1 : Obj.Ok obj1) (ok2 : Obj.Ok obj2)
    (h : ∀ s ∈ obj1, ∀ t ∈ obj2, Resolved (Package.ico.perps s) (Package.ico.perps t)) (r : Option (Obj 4))
    (hr : intersectionApi kind draws delaunay (.d4 obj1) (.d4 obj2) = .ok r) :
    volume ((Package.ico.region obj1 ∩ Package.ico.region obj2) \ Package.ico.region (r.getD [])) = 0 := by
  change intersectionTwoObj1 kind draws delaunay obj1 obj2 = _ at hr
  by_cases h0 : obj2 = []
  · subst h0
    refine measure_mono_null (t := ∅) ?_ measure_empty
    rintro x ⟨⟨-, ⟨a, ha, -⟩⟩, -⟩
    simp at ha
  · obtain ⟨c, d, -, hc, hd, e⟩ := intersectionTwoObj1_eq kind draws delaunay (obj1 := obj1) ok2 h0
    rw [e] at hr
    refine intersectionTwoObj_cover ?_ ?_ ?_ hr
    · intro s hs hro t ht
      refine measure_mono_null (t := ∅) ?_ measure_empty
      rintro x ⟨hx, hx'⟩
      exfalso
      have := C35_object .ico (by decide) s obj2 (ok1 s hs) ok2 t ht x hx hx'
      rw [show Package.ico.arith = arith from rfl, hc, bind_ok', hd, bind_ok', hro] at this
      cases this
    · intro s hs t ht f hf f1 f2 f3
      have hf := Except.ok.inj hf
      obtain ⟨c1, c2, c3, c0⟩ := C58_codes s t (h s hs t ht)
      rw [← c0]
      have : checkTwoTetrahedra s t = 0 ∨ checkTwoTetrahedra s t = 1 ∨ checkTwoTetrahedra s t = 2 ∨
          checkTwoTetrahedra s t = 3 := by
        unfold checkTwoTetrahedra
        split
        · simp
        · split
          · simp
          · split <;> simp
      omega
    · intro s hs t ht r' _ hr'
      exact (C58_two_outcome _ _ (hD s hs t ht) s t (ok1 s hs) (ok2 t ht) (h s hs t ht) r' hr').2

/-- C58 for objects, the converse: with kind 'standard' the returned pieces lie in the intersection of the two
objects. -/
theorem C58_objects_inside (draws : Simplex 4 → Simplex 4 → (n : Nat) → Draws n)
    (delaunay : Simplex 4 → Simplex 4 → Delaunay) (obj1 obj2 : Obj 4) (hD : ∀ s ∈ obj1, ∀ t ∈ obj2, FillsHull (delaunay s t))
    (h0 : obj2 ≠ []) (ok1 : Obj.Ok obj1) (ok2 : Obj.Ok obj2)
    (h : ∀ s ∈ obj1, ∀ t ∈ obj2, Resolved (Package.ico.perps s) (Package.ico.perps t)) (r : Option (Obj 4))
    (hr : intersectionApi .standard draws delaunay (.d4 obj1) (.d4 obj2) = .ok r) :
    Package.ico.region (r.getD []) ⊆ Package.ico.region obj1 ∩ Package.ico.region obj2 := by
  change intersectionTwoObj1 .standard draws delaunay obj1 obj2 = _ at hr
  obtain ⟨c, d, -, -, -, e⟩ := intersectionTwoObj1_eq .standard draws delaunay (obj1 := obj1) ok2 h0
  rw [e] at hr
  cases r with
  | none => rintro x ⟨a, ha, -⟩; simp at ha
  | some r =>
    obtain ⟨-, h2⟩ := intersectionTwoObj_mem
      (Q := fun s a => ∃ t ∈ obj2, solid (Package.ico.perps a) ⊆ solid (Package.ico.perps s) ∩ solid (Package.ico.perps t))
      (fun s hs t ht hf => ⟨t, ht, fun x hx => ⟨hx, (C58_codes s t (h s hs t ht)).1.1 (Except.ok.inj hf) hx⟩⟩)
      (fun s hs t ht hf => ⟨t, ht, fun x hx => ⟨((C58_codes s t (h s hs t ht)).2.1.1 (Except.ok.inj hf)).2 hx, hx⟩⟩)
      (fun s hs t ht o _ hi a ha => ⟨t, ht, fun x hx =>
        (C58_two_outcome _ _ (hD s hs t ht) s t (ok1 s hs) (ok2 t ht) (h s hs t ht) _ hi).1 ⟨a, ha, hx⟩⟩) hr
    rintro x ⟨a, ha, hx⟩
    obtain ⟨s, hs, ⟨t, ht, hsub⟩ | ⟨hk, -⟩⟩ := h2 a ha
    · exact ⟨⟨s, hs, (hsub hx).1⟩, ⟨t, ht, (hsub hx).2⟩⟩
    · cases hk

/-! ## Cases that meet the hypotheses -/

/-- A sufficient condition for a pair to be resolved: perp coordinates on the grid of spacing `1/n`, and moderate
determinants in grid units. -/
theorem C58_grid (s t : Simplex 4) (a b : Fin 4 → Fin 3 → ℤ) (n D : ℕ) (hn : 0 < n) (hn2 : n ^ 3 ≤ 10 ^ 6)
    (hs : ∀ i j, Package.ico.perps s i j = a i j / n) (ht : ∀ i j, Package.ico.perps t i j = b i j / n)
    (ha0 : detZ a ≠ 0) (hb0 : detZ b ≠ 0) (ha : |detZ a| < 10 ^ 6) (hb : |detZ b| < 10 ^ 6) (hD1 : 1 ≤ D)
    (hD2 : n ^ 3 * D ^ 6 ≤ 10 ^ 10)
    (hD : ∀ i j k l m : Fin 4, i < j → k < l → l < m → |edgeFaceZ a b i j k l m| ≤ D ∧ |edgeFaceZ b a i j k l m| ≤ D) :
    Resolved (Package.ico.perps s) (Package.ico.perps t) :=
  resolved_int hn hn2 hs ht ha0 hb0 ha hb hD1 hD2 (fun i j k l m h1 h2 h3 => (hD i j k l m h1 h2 h3).1)
    (fun i j k l m h1 h2 h3 => (hD i j k l m h1 h2 h3).2)

/-- The tetrahedron x, y, z ≥ 0, x + y + z ≤ 2. -/
def exBig : Simplex 4 := ![cart 0 0 0 1, cart 2 0 0 1, cart 0 2 0 1, cart 0 0 2 1]
/-- The tetrahedron x, y, z ≤ 1, x + y + z ≥ 1. -/
def exInv : Simplex 4 := ![cart 1 1 1 1, cart (-1) 1 1 1, cart 1 (-1) 1 1, cart 1 1 (-1) 1]

theorem perps_exBig : Package.ico.perps exBig = ![![0, 0, 0], ![2, 0, 0], ![0, 2, 0], ![0, 0, 2]] := by
  funext i
  fin_cases i <;> refine (perp_cart _ _ _ _).trans ?_ <;> funext j <;> fin_cases j <;> norm_num

theorem perps_exInv : Package.ico.perps exInv = ![![1, 1, 1], ![-1, 1, 1], ![1, -1, 1], ![1, 1, -1]] := by
  funext i
  fin_cases i <;> refine (perp_cart _ _ _ _).trans ?_ <;> funext j <;> fin_cases j <;> norm_num

theorem exBigInv_resolved : Resolved (Package.ico.perps exBig) (Package.ico.perps exInv) := by
  refine C58_grid exBig exInv ![![0, 0, 0], ![2, 0, 0], ![0, 2, 0], ![0, 0, 2]]
    ![![1, 1, 1], ![-1, 1, 1], ![1, -1, 1], ![1, 1, -1]] 1 8 (by norm_num) (by norm_num) ?_ ?_ (by decide) (by decide)
    (by decide) (by decide) (by norm_num) (by norm_num) (by decide +kernel)
  · rw [perps_exBig]
    intro i j
    fin_cases i <;> fin_cases j <;> simp
  · rw [perps_exInv]
    intro i j
    fin_cases i <;> fin_cases j <;> simp

theorem exBigInv_solid : (interior (solid (Package.ico.perps exBig) ∩ solid (Package.ico.perps exInv))).Nonempty := by
  refine ⟨![1 / 2, 1 / 2, 1 / 2], ?_⟩
  rw [mem_interior_iff_mem_nhds, Metric.mem_nhds_iff]
  refine ⟨1 / 10, by norm_num, fun x hx => ?_⟩
  rw [Metric.mem_ball, dist_pi_lt_iff (by norm_num)] at hx
  have h0 := abs_lt.1 (hx 0)
  have h1 := abs_lt.1 (hx 1)
  have h2 := abs_lt.1 (hx 2)
  simp only [cons_val_zero, cons_val_one, cons_val] at h0 h1 h2
  constructor
  · rw [mem_solid_iff, perps_exBig]
    refine ⟨![1 - x 0 / 2 - x 1 / 2 - x 2 / 2, x 0 / 2, x 1 / 2, x 2 / 2], ?_, ?_⟩
    · rw [isBary_four]
      refine ⟨by simp; ring, fun j => ?_⟩
      fin_cases j <;> simp
    · intro i
      fin_cases i <;> simp <;> linarith
  · rw [mem_solid_iff, perps_exInv]
    refine ⟨![1 - (1 - x 0) / 2 - (1 - x 1) / 2 - (1 - x 2) / 2, (1 - x 0) / 2, (1 - x 1) / 2, (1 - x 2) / 2], ?_, ?_⟩
    · rw [isBary_four]
      refine ⟨by simp; ring, fun j => ?_⟩
      fin_cases j <;> simp <;> ring
    · intro i
      fin_cases i <;> simp <;> linarith

theorem exBig_ok : Simplex.Ok exBig := by intro i; fin_cases i <;> exact cart_ok (by decide)
theorem exInv_ok : Simplex.Ok exInv := by intro i; fin_cases i <;> exact cart_ok (by decide)

/-- The hypotheses of `C58_two`, `C58_two_outcome` and `C58_codes` are met by a crossing pair. -/
example : ∃ delaunay, ∀ draws, ∃ o, intersectionTwoTetrahedra draws delaunay exBig exInv = .ok (some o) ∧
    Package.ico.region o = solid (Package.ico.perps exBig) ∩ solid (Package.ico.perps exInv) := by
  obtain ⟨delaunay, hD⟩ := exists_fills
  exact ⟨delaunay, fun draws => C58_two draws delaunay hD _ _ exBig_ok exInv_ok exBigInv_resolved exBigInv_solid⟩

theorem exBigInv_code : checkTwoTetrahedra exBig exInv = 3 := by
  rw [(C58_codes _ _ exBigInv_resolved).2.2.1]
  refine ⟨?_, ?_, exBigInv_solid.mono interior_subset⟩
  · intro h
    obtain ⟨w, hw, h0⟩ := mem_solid_iff.1 (h (subset_convexHull ℝ _ ⟨0, rfl⟩))
    rw [perps_exBig, perps_exInv, isBary_four] at hw
    obtain ⟨e, hj⟩ := hw
    have h1 := hj 0
    have h2 := hj 1
    have h3 := hj 2
    simp at h1 h2 h3
    have := h0 0
    linarith
  · intro h
    obtain ⟨w, hw, h0⟩ := mem_solid_iff.1 (h (subset_convexHull ℝ _ ⟨1, rfl⟩))
    rw [perps_exBig, perps_exInv, isBary_four] at hw
    obtain ⟨e, hj⟩ := hw
    have h1 := hj 0
    simp at h1
    have := h0 1
    linarith

theorem one_crossing {rough : Simplex 4 → Py Bool} {flag : Simplex 4 → Simplex 4 → Py Nat}
    {inter : Simplex 4 → Simplex 4 → Py (Option (Obj 4))} {s t : Simplex 4} {o : Obj 4} (hr : rough s = .ok true)
    (hf : flag s t = .ok 3) (hi : inter s t = .ok (some o)) (h0 : o ≠ []) :
    intersectionTwoObj .standard rough flag inter [s] [t] = .ok (some o) := by
  simp [intersectionTwoObj, fillList, onePiece, innerLoop, hr, hf, hi, h0, bind_ok']

/-- The hypotheses of `C58_objects` and `C58_objects_inside` are met by a crossing pair, for which a result is
returned. -/
example : ∃ delaunay : Simplex 4 → Simplex 4 → Delaunay, (∀ s t, FillsHull (delaunay s t)) ∧ ∀ draws, ∃ o,
    intersectionApi .standard draws delaunay (.d4 [exBig]) (.d4 [exInv]) = .ok (some o) ∧
    (∀ s ∈ [exBig], ∀ t ∈ [exInv], Resolved (Package.ico.perps s) (Package.ico.perps t)) ∧
    Package.ico.region o = Package.ico.region [exBig] ∩ Package.ico.region [exInv] := by
  obtain ⟨delaunay, hD⟩ := exists_fills
  refine ⟨fun _ _ => delaunay, fun _ _ => hD, fun draws => ?_⟩
  obtain ⟨o, ho, e⟩ := C58_two (draws exBig exInv) delaunay hD _ _ exBig_ok exInv_ok exBigInv_resolved exBigInv_solid
  have ok2 : Obj.Ok [exInv] := by intro t ht; rw [List.mem_singleton.1 ht]; exact exInv_ok
  obtain ⟨c, d, -, hc, hd, e2⟩ := intersectionTwoObj1_eq .standard draws (fun _ _ => delaunay) (obj1 := [exBig]) ok2 (by simp)
  obtain ⟨x, hx, hx'⟩ := exBigInv_solid.mono interior_subset
  have hr := C35_object .ico (by decide) exBig [exInv] exBig_ok ok2 exInv (by simp) x hx hx'
  rw [show Package.ico.arith = arith from rfl, hc, bind_ok', hd, bind_ok'] at hr
  refine ⟨o, ?_, by simpa using exBigInv_resolved, ?_⟩
  · change intersectionTwoObj1 .standard draws (fun _ _ => delaunay) [exBig] [exInv] = _
    rw [e2]
    exact one_crossing hr (by rw [exBigInv_code]) ho (intersectionTwo_ok exBig_ok exInv_ok ho).1
  · rw [e]
    ext y
    constructor
    · rintro ⟨h1, h2⟩; exact ⟨⟨_, by simp, h1⟩, ⟨_, by simp, h2⟩⟩
    · rintro ⟨⟨a, ha, h1⟩, ⟨b, hb, h2⟩⟩
      rw [List.mem_singleton.1 ha] at h1
      rw [List.mem_singleton.1 hb] at h2
      exact ⟨h1, h2⟩

end PyQC
