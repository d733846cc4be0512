import Verif.Lemmas.PlanarCommon
import Verif.Props.Measure
/-!
# Slices of level sets, and the triangulation of planar points (dode2)
-/
namespace PyQC
open Matrix MeasureTheory Dode

/-! ## Slices -/

/-- The point of height `z` above a point of the plane. -/
def atHeight (z : ℝ) (p : Fin 2 → ℝ) : Fin 3 → ℝ := ![p 0, p 1, z]

theorem atHeight_xy {z : ℝ} {x : Fin 3 → ℝ} (h : x 2 = z) : atHeight z (xy x) = x := by
  funext j
  fin_cases j <;> simp [atHeight, xy, h]

theorem xy_atHeight (z : ℝ) (p : Fin 2 → ℝ) : xy (atHeight z p) = p := by
  funext j
  fin_cases j <;> simp [atHeight, xy]

theorem mem_slice {z : ℝ} {A : Set (Fin 3 → ℝ)} {p : Fin 2 → ℝ} : p ∈ slice z A ↔ atHeight z p ∈ A := Iff.rfl

theorem xy_mem_slice {z : ℝ} {A : Set (Fin 3 → ℝ)} {x : Fin 3 → ℝ} (h : x 2 = z) : xy x ∈ slice z A ↔ x ∈ A := by
  rw [mem_slice, atHeight_xy h]

/-- `xy` as a linear map. -/
def xyLin : (Fin 3 → ℝ) →ₗ[ℝ] (Fin 2 → ℝ) where
  toFun := xy
  map_add' a b := by funext j; fin_cases j <;> simp [xy]
  map_smul' r a := by funext j; fin_cases j <;> simp [xy]

theorem hull_level {z : ℝ} {P : Set (Fin 3 → ℝ)} (h : ∀ x ∈ P, x 2 = z) {x : Fin 3 → ℝ} (hx : x ∈ convexHull ℝ P) :
    x 2 = z := by
  have hc : Convex ℝ {x : Fin 3 → ℝ | x 2 = z} := by
    intro a ha b hb s t _ _ hst
    simp only [Set.mem_ofPred_eq] at ha hb ⊢
    simp only [Pi.add_apply, Pi.smul_apply, smul_eq_mul, ha, hb]
    rw [← add_mul, hst, one_mul]
  exact convexHull_min (fun x hx => h x hx) hc hx

/-- The slice of the hull of level points is the hull of the points of the plane. -/
theorem slice_hull {z : ℝ} {P : Set (Fin 3 → ℝ)} (h : ∀ x ∈ P, x 2 = z) :
    slice z (convexHull ℝ P) = convexHull ℝ (xy '' P) := by
  have e := LinearMap.image_convexHull xyLin P
  change xy '' convexHull ℝ P = convexHull ℝ (xy '' P) at e
  rw [← e]
  ext p
  constructor
  · intro hp
    exact ⟨atHeight z p, hp, xy_atHeight z p⟩
  · rintro ⟨x, hx, rfl⟩
    exact (xy_mem_slice (hull_level h hx)).2 hx

theorem slice_solid {z : ℝ} {m : Nat} {q : Fin m → Fin 3 → ℝ} (h : Flat z q) :
    slice z (solid q) = convexHull ℝ (Set.range fun k => xy (q k)) := by
  have : xy '' Set.range q = Set.range fun k => xy (q k) := (Set.range_comp xy q).symm
  rw [← this]
  exact slice_hull (by rintro x ⟨k, rfl⟩; exact h k)

theorem slice_inter {z : ℝ} {A B : Set (Fin 3 → ℝ)} : slice z (A ∩ B) = slice z A ∩ slice z B := rfl

theorem slice_sdiff {z : ℝ} {A B : Set (Fin 3 → ℝ)} : slice z (A \ B) = slice z A \ slice z B := rfl

theorem slice_mono {z : ℝ} {A B : Set (Fin 3 → ℝ)} (h : A ⊆ B) : slice z A ⊆ slice z B := fun _ hp => h hp

theorem atHeight_continuous (z : ℝ) : Continuous (atHeight z) := by
  unfold atHeight
  refine continuous_pi fun j => ?_
  fin_cases j <;> simp <;> fun_prop

theorem slice_convex {z : ℝ} {A : Set (Fin 3 → ℝ)} (h : Convex ℝ A) : Convex ℝ (slice z A) := by
  intro a ha b hb s t hs ht hst
  have := h ha hb hs ht hst
  refine (congrArg (· ∈ A) ?_).mp this
  funext j
  fin_cases j <;> simp
  rw [← add_mul, hst, one_mul]

/-- A level convex set whose slice has no interior has area zero. -/
theorem slice_null {z : ℝ} {A : Set (Fin 3 → ℝ)} (hc : Convex ℝ A) (h : ¬ (interior (slice z A)).Nonempty) :
    volume (slice z A) = 0 := by
  have hf := (slice_convex (z := z) hc).addHaar_frontier volume
  refine measure_mono_null ?_ hf
  intro x hx
  exact ⟨subset_closure hx, fun hi => h ⟨x, hi⟩⟩

/-! ## Points on a line -/

theorem inLine_of_subset {a b : List (Fin 2 → ℝ)} (h : InLine a) (hs : ∀ x ∈ b, x ∈ a) : InLine b := by
  obtain ⟨n, h0, d, hd⟩ := h
  exact ⟨n, h0, d, fun x hx => hd x (hs x hx)⟩

theorem inLine_few {pts : List (Fin 2 → ℝ)} (h : pts.length ≤ 2) : InLine pts := by
  have key : ∀ a b : Fin 2 → ℝ, InLine [a, b] := by
    intro a b
    by_cases hab : a = b
    · subst hab
      refine ⟨![1, 0], fun e => ?_, a 0, ?_⟩
      · have := congrFun e 0; simp at this
      · intro x hx
        have : x = a := by simpa using hx
        subst this
        simp [dotProduct, Fin.sum_univ_two]
    · refine ⟨![a 1 - b 1, b 0 - a 0], fun e => hab ?_, a 1 * b 0 - b 1 * a 0, ?_⟩
      · have e0 := congrFun e 0
        have e1 := congrFun e 1
        simp at e0 e1
        funext j
        fin_cases j
        · change a 0 = b 0; linarith
        · change a 1 = b 1; linarith
      · intro x hx
        rw [List.mem_cons, List.mem_singleton] at hx
        rcases hx with rfl | rfl <;> simp [dotProduct, Fin.sum_univ_two] <;> ring
  match pts, h with
  | [], _ => exact inLine_of_subset (key 0 0) (by simp)
  | [a], _ => exact inLine_of_subset (key a a) (by simp)
  | [a, b], _ => exact key a b

/-- A set with interior is not spanned by points of one line. -/
theorem not_inLine {pts : List (Fin 2 → ℝ)} (h : (interior (convexHull ℝ {x | x ∈ pts})).Nonempty) : ¬ InLine pts := by
  rintro ⟨n, h0, d, hd⟩
  obtain ⟨x, hx⟩ := h
  have hpl : ∀ y ∈ convexHull ℝ {x | x ∈ pts}, n ⬝ᵥ y = d := by
    intro y hy
    have hc : Convex ℝ {y | n ⬝ᵥ y = d} := by
      intro a ha b hb s t _ _ hst
      simp only [Set.mem_ofPred_eq] at ha hb ⊢
      rw [dotProduct_add, dotProduct_smul, dotProduct_smul, ha, hb, smul_eq_mul, smul_eq_mul, ← add_mul, hst, one_mul]
    exact convexHull_min (fun x hx => hd x hx) hc hy
  rw [mem_interior_iff_mem_nhds, Metric.mem_nhds_iff] at hx
  obtain ⟨ε, hε, hb⟩ := hx
  have hnn : n ⬝ᵥ n ≠ 0 := fun e => h0 (dotProduct_self_eq_zero.1 e)
  have hn : 0 < ‖n‖ := norm_pos_iff.2 h0
  have h1 := hpl x (hb (Metric.mem_ball_self hε))
  have h2 := hpl (x + (ε / (2 * ‖n‖)) • n) (hb (by
    rw [Metric.mem_ball, dist_eq_norm, add_sub_cancel_left, norm_smul, Real.norm_eq_abs, abs_of_pos (by positivity)]
    field_simp; linarith))
  rw [dotProduct_add, h1, dotProduct_smul, smul_eq_mul] at h2
  have h3 : ε / (2 * ‖n‖) * n ⬝ᵥ n = 0 := by linarith
  rcases mul_eq_zero.1 h3 with h4 | h4
  · exact absurd h4 (ne_of_gt (by positivity))
  · exact hnn h4

/-! ## The loop over the proposed triangles -/

theorem pickSimplex2_eq_ok {pts : List (Vec 6)} {i : Fin 3 → Nat} {t : Simplex 3} :
    Dode.pickSimplex pts i = .ok t ↔ ∀ k, pts[i k]? = some (t k) := by
  unfold Dode.pickSimplex
  rw [fillFin_eq_ok]
  exact forall_congr' fun k => getIdx_iff

/-- The simplices proposed by the library, as triangles on the given points. -/
def proposed2 (pts : List (Vec 6)) (l : List (Fin 3 → Nat)) (h : ∀ i ∈ l, ∀ k, i k < pts.length) : Obj 3 :=
  l.attach.map fun i => fun k => pts[i.1 k]'(h i.1 i.2 k)

theorem keepSimplices2_ok {pts : List (Vec 6)} (hp : ∀ v ∈ pts, Vec.Ok v) (l : List (Fin 3 → Nat))
    (h : ∀ i ∈ l, ∀ k, i k < pts.length) : ∃ r, Dode.keepSimplices pts l = .ok r ∧
      (∀ t, t ∈ r ↔ t ∈ proposed2 pts l h ∧ triAreaXY (Package.dode.perps t) ≠ 0) ∧ r.Sublist (proposed2 pts l h) ∧
      (r.map karea).sum = ((proposed2 pts l h).map karea).sum := by
  induction l with
  | nil => exact ⟨[], rfl, by simp [proposed2], by simp [proposed2], by simp [proposed2]⟩
  | cons i l ih =>
    obtain ⟨r, hr, h1, h2, h3⟩ := ih fun j hj => h j (by simp [hj])
    have hk : ∀ k, i k < pts.length := h i (by simp)
    set t : Simplex 3 := fun k => pts[i k]'(hk k) with ht
    have hpick : Dode.pickSimplex pts i = .ok t := pickSimplex2_eq_ok.2 fun k => List.getElem?_eq_getElem (hk k)
    have hok : Simplex.Ok t := fun k => hp _ (List.getElem_mem _)
    have hprop : proposed2 pts (i :: l) h = t :: proposed2 pts l fun j hj => h j (by simp [hj]) := by
      unfold proposed2
      rw [List.attach_cons, List.map_cons, List.map_map]
      rfl
    have hz : (norm (karea t)).a = 0 ∧ (norm (karea t)).b = 0 ↔ karea t = 0 := by
      rw [← kval_eq_zero (θ := Package.dode.theta) (norm_c _), kval_norm]
    have hv : karea t = 0 ↔ triAreaXY (Package.dode.perps t) = 0 := by
      rw [← coe_karea]; exact ZeroMemClass.coe_eq_zero.symm
    simp only [Dode.keepSimplices, hpick, bind_ok', triangleArea6d_ok hok, hr]
    rw [hprop]
    by_cases h0 : karea t = 0
    · rw [if_pos (hz.2 h0)]
      refine ⟨r, rfl, fun x => ?_, h2.cons _, ?_⟩
      · rw [h1, List.mem_cons]
        constructor
        · rintro ⟨a, b⟩; exact ⟨.inr a, b⟩
        · rintro ⟨rfl | a, b⟩
          · exact absurd (hv.1 h0) b
          · exact ⟨a, b⟩
      · rw [List.map_cons, List.sum_cons, h0, zero_add, h3]
    · rw [if_neg (fun h => h0 (hz.1 h))]
      refine ⟨t :: r, rfl, fun x => ?_, h2.cons_cons _, ?_⟩
      · rw [List.mem_cons, List.mem_cons, h1]
        constructor
        · rintro (rfl | ⟨a, b⟩)
          · exact ⟨.inl rfl, fun h => h0 (hv.2 h)⟩
          · exact ⟨.inr a, b⟩
        · rintro ⟨rfl | a, b⟩
          · exact .inl rfl
          · exact .inr ⟨a, b⟩
      · rw [List.map_cons, List.sum_cons, List.map_cons, List.sum_cons, h3]

theorem triangulation_input {pts : List (Vec 6)} (hp : ∀ v ∈ pts, Vec.Ok v) :
    fillList (fun v => do
      let w ← Dode.projection3 v
      let n := numericalVector sin60 w
      .ok (![n 0, n 1] : Fin 2 → ℝ)) pts = .ok (pts.map plane) := by
  refine fillList_ok (g := plane) fun v hv => ?_
  rw [show Dode.projection3 v = Package.dode.projection3 v from rfl, Package.dode.projection3_ok (hp v hv), bind_ok']
  have e : numericalVector sin60 (nvec (Package.dode.kperp *ᵥ kvec Package.dode.theta v)) = Package.dode.perp v :=
    Package.dode.val_projection3
  simp only [e]
  rfl

/-- What `triangulation_points` returns for each answer of the library. -/
theorem triangulationPoints_eq {delaunay : Delaunay2} {pts : List (Vec 6)} (hp : ∀ v ∈ pts, Vec.Ok v) :
    (delaunay (pts.map plane) = none → triangulationPoints delaunay pts = .ok none) ∧
    ∀ l, delaunay (pts.map plane) = some l → ∀ h : ∀ i ∈ l, ∀ k, i k < pts.length,
      ∃ r, triangulationPoints delaunay pts = (if r.length ≠ 0 then .ok (some r) else .ok none) ∧
      (∀ t, t ∈ r ↔ t ∈ proposed2 pts l h ∧ triAreaXY (Package.dode.perps t) ≠ 0) ∧ r.Sublist (proposed2 pts l h) ∧
      (r.map karea).sum = ((proposed2 pts l h).map karea).sum := by
  unfold triangulationPoints
  rw [triangulation_input hp, bind_ok']
  constructor
  · intro h
    rw [h]
  · intro l hl h
    obtain ⟨r, hr, h1, h2, h3⟩ := keepSimplices2_ok hp l h
    refine ⟨r, ?_, h1, h2, h3⟩
    rw [hl]
    simp only [hr, bind_ok']

theorem cross2_crossZ (q : Fin 3 → Fin 3 → ℝ) : cross2 (xy (q 1) - xy (q 0)) (xy (q 2) - xy (q 0)) = crossZ q := by
  simp [cross2, xy, crossZ]

/-- Triangulating points of height `z` never raises, whatever the library answers with valid numbers; the pieces have
their corners among the points and are not degenerate; for points not on a line the pieces fill the hull. -/
theorem triangulation_fills {delaunay : Delaunay2} (hD : FillsHull2 delaunay) {pts : List (Vec 6)}
    (hp : ∀ v ∈ pts, Vec.Ok v) {z : ℝ} (hz : ∀ v ∈ pts, Package.dode.perp v 2 = z) :
    ∃ r, triangulationPoints delaunay pts = .ok r ∧
      (∀ a ∈ r.getD [], (∀ k, a k ∈ pts) ∧ triAreaXY (Package.dode.perps a) ≠ 0) ∧ r ≠ some [] ∧
      (¬ InLine (pts.map plane) →
        convexHull ℝ {x | ∃ v ∈ pts, Package.dode.perp v = x} ⊆ Package.dode.region (r.getD [])) := by
  obtain ⟨hn, hs⟩ := triangulationPoints_eq (delaunay := delaunay) hp
  cases hd : delaunay (pts.map plane) with
  | none =>
    refine ⟨none, hn hd, by simp, by simp, fun hl => ?_⟩
    obtain ⟨l, h, -⟩ := hD.fills _ hl
    rw [hd] at h; cases h
  | some l =>
    have hidx := hD.index _ l hd
    have hidx' : ∀ i ∈ l, ∀ k, i k < pts.length := fun i hi k => by simpa using hidx i hi k
    obtain ⟨r, hr, h1, h2, -⟩ := hs l hd hidx'
    have hcor : ∀ a ∈ r, (∀ k, a k ∈ pts) ∧ triAreaXY (Package.dode.perps a) ≠ 0 := by
      intro a ha
      obtain ⟨ha, hv⟩ := (h1 a).1 ha
      refine ⟨?_, hv⟩
      unfold proposed2 at ha
      rw [List.mem_map] at ha
      obtain ⟨i, -, rfl⟩ := ha
      exact fun k => List.getElem_mem _
    have hcov : ¬ InLine (pts.map plane) →
        convexHull ℝ {x | ∃ v ∈ pts, Package.dode.perp v = x} ⊆ Package.dode.region r := by
      intro hl x hx
      obtain ⟨l', hl', hc⟩ := hD.fills _ hl
      rw [hd] at hl'
      cases hl'
      have hlev : ∀ y ∈ {x | ∃ v ∈ pts, Package.dode.perp v = x}, y 2 = z := by
        rintro y ⟨v, hv, rfl⟩; exact hz v hv
      have hxz := hull_level hlev hx
      have hset : xy '' {x | ∃ v ∈ pts, Package.dode.perp v = x} = {y | y ∈ pts.map plane} := by
        ext y
        constructor
        · rintro ⟨x, ⟨v, hv, rfl⟩, rfl⟩; exact List.mem_map.2 ⟨v, hv, rfl⟩
        · intro hy
          obtain ⟨v, hv, rfl⟩ := List.mem_map.1 hy
          exact ⟨_, ⟨v, hv, rfl⟩, rfl⟩
      have hxy : xy x ∈ convexHull ℝ {y | y ∈ pts.map plane} := by
        rw [← hset, ← slice_hull hlev]
        exact (xy_mem_slice hxz).2 hx
      obtain ⟨i, hi, hne, hm⟩ := hc hidx _ hxy
      set a : Simplex 3 := fun k => pts[i k]'(hidx' i hi k) with ha
      have hget : ∀ k, (pts.map plane)[i k]'(hidx i hi k) = xy (Package.dode.perps a k) := by
        intro k
        rw [List.getElem_map]
        rfl
      have hne' : crossZ (Package.dode.perps a) ≠ 0 := by
        rw [← cross2_crossZ, ← hget, ← hget, ← hget]
        exact hne
      have hm' : xy x ∈ convexHull ℝ (Set.range fun k => xy (Package.dode.perps a k)) := by
        have : (fun k => (pts.map plane)[i k]'(hidx i hi k)) = fun k => xy (Package.dode.perps a k) := funext hget
        rw [← this]
        exact hm
      have hflat : Flat z (Package.dode.perps a) := fun k => hz _ (List.getElem_mem _)
      rw [← slice_solid hflat, xy_mem_slice hxz] at hm'
      refine ⟨a, (h1 a).2 ⟨?_, ?_⟩, hm'⟩
      · unfold proposed2
        rw [List.mem_map]
        exact ⟨⟨i, hi⟩, List.mem_attach _ _, rfl⟩
      · rw [triAreaXY_crossZ]
        simpa using hne'
    by_cases h0 : r.length ≠ 0
    · rw [if_pos h0] at hr
      refine ⟨some r, hr, hcor, ?_, hcov⟩
      intro e
      rw [Option.some.inj e] at h0
      simp at h0
    · rw [if_neg h0] at hr
      have : r = [] := by simpa using h0
      subst this
      exact ⟨none, hr, by simp, by simp, hcov⟩

/-! ## The final part of the intersection of two triangles -/

theorem inLine_of_count {pts : List (Vec 6)} (h : pts.length ≤ 2) : InLine (pts.map plane) :=
  inLine_few (by rw [List.length_map]; exact h)

/-- The final part never raises; its pieces have corners among the points; for points not on a line they fill the
hull. -/
theorem triangulateCommon_fills {delaunay : Delaunay2} (hD : FillsHull2 delaunay) {pts : List (Vec 6)}
    (hp : ∀ v ∈ pts, Vec.Ok v) {z : ℝ} (hz : ∀ v ∈ pts, Package.dode.perp v 2 = z) {count : Nat}
    (hc : count ≤ 2 → pts.length ≤ 2) :
    ∃ r, triangulateCommon delaunay pts count = .ok r ∧ (∀ a ∈ r.getD [], ∀ k, a k ∈ pts) ∧ r ≠ some [] ∧
      (¬ InLine (pts.map plane) →
        convexHull ℝ {x | ∃ v ∈ pts, Package.dode.perp v = x} ⊆ Package.dode.region (r.getD [])) := by
  obtain ⟨r, hr, hsub, hpw, huniq⟩ := C24_one_per_point .dode pts hp
  have hperp : ∀ x, (∃ v ∈ r, Package.dode.perp v = x) ↔ ∃ v ∈ pts, Package.dode.perp v = x := by
    intro x
    constructor
    · rintro ⟨v, hv, e⟩; exact ⟨v, hsub v hv, e⟩
    · rintro ⟨v, hv, e⟩
      obtain ⟨y, ⟨hy, e2⟩, -⟩ := huniq v hv
      exact ⟨y, hy, e2.trans e⟩
  have hhull : {x | ∃ v ∈ pts, Package.dode.perp v = x} = {x | ∃ v ∈ r, Package.dode.perp v = x} := by
    ext x; exact (hperp x).symm
  have hline : ¬ InLine (pts.map plane) → ¬ InLine (r.map plane) := by
    intro h hl
    refine h (inLine_of_subset hl ?_)
    intro y hy
    obtain ⟨v, hv, rfl⟩ := List.mem_map.1 hy
    obtain ⟨w, hw, e⟩ := (hperp _).2 ⟨v, hv, rfl⟩
    exact List.mem_map.2 ⟨w, hw, congrArg xy e⟩
  have hrok : ∀ v ∈ r, Vec.Ok v := fun v hv => hp v (hsub v hv)
  have hrz : ∀ v ∈ r, Package.dode.perp v 2 = z := fun v hv => hz v (hsub v hv)
  unfold triangulateCommon
  by_cases h3 : count ≥ 3
  · rw [if_pos h3, hr, bind_ok']
    by_cases hl : r.length > 3
    · rw [if_pos hl]
      obtain ⟨o, ho, h1, hne, h2⟩ := triangulation_fills hD hrok hrz
      refine ⟨o, ho, fun a ha k => hsub _ ((h1 a ha).1 k), hne, fun h => ?_⟩
      rw [hhull]
      exact h2 (hline h)
    · rw [if_neg hl]
      by_cases he : r.length = 3
      · rw [if_pos he]
        unfold Dode.reshape3
        rw [dif_pos he, bind_ok']
        refine ⟨_, rfl, ?_, by simp, fun _ => ?_⟩
        · intro a ha k
          simp only [Option.getD_some, List.mem_singleton] at ha
          subst ha
          exact hsub _ (List.get_mem _ _)
        · rw [hhull]
          intro x hx
          refine ⟨_, List.mem_singleton.2 rfl, ?_⟩
          refine convexHull_mono ?_ hx
          rintro y ⟨v, hv, rfl⟩
          obtain ⟨i, rfl⟩ := List.get_of_mem hv
          exact ⟨Fin.cast he i, rfl⟩
      · rw [if_neg he]
        refine ⟨none, rfl, by simp, by simp, fun h => ?_⟩
        exact absurd (inLine_of_count (by omega)) (hline h)
  · rw [if_neg h3]
    refine ⟨none, rfl, by simp, by simp, fun h => ?_⟩
    exact absurd (inLine_of_count (hc (by omega))) h

end PyQC
