import Verif.Lemmas.RoundingTriangles
/-!
# The points collected for two triangles with rounding (dode2)
-/
set_option linter.unusedSectionVars false
namespace PyQC
open Matrix Dode

/-! ## The triangulation -/

theorem keepSimplices2_mem {pts : List (Vec 6)} {l : List (Fin 3 → Nat)} {r : Obj 3} (h : keepSimplices pts l = .ok r) :
    ∀ a ∈ r, ∀ k, a k ∈ pts := by
  induction l generalizing r with
  | nil => cases h; simp
  | cons i l ih =>
    simp only [keepSimplices] at h
    cases hp : pickSimplex pts i with
    | error e => rw [hp, bind_error'] at h; cases h
    | ok t =>
      rw [hp, bind_ok'] at h
      cases hv : triangleArea6d t with
      | error e => rw [hv, bind_error'] at h; cases h
      | ok v =>
        rw [hv, bind_ok'] at h
        cases hr : keepSimplices pts l with
        | error e => rw [hr, bind_error'] at h; cases h
        | ok r' =>
          rw [hr, bind_ok'] at h
          have ht : ∀ k, t k ∈ pts := fun k => List.mem_of_getElem? (pickSimplex2_eq_ok.1 hp k)
          split at h
          · cases h; exact ih hr
          · cases h
            intro a ha k
            rcases List.mem_cons.1 ha with rfl | ha
            · exact ht k
            · exact ih hr a ha k

/-- Whatever the library answers: if pieces are returned, their corners are among the points. -/
theorem triCommonF_mem (F : Float64) {delaunay : Delaunay2} {pts : List (Vec 6)} (hp : ∀ v ∈ pts, Vec.Ok v) {count : Nat}
    {r : Option (Obj 3)} (h : F.triangulateCommon delaunay pts count = .ok r) :
    (∀ a ∈ r.getD [], ∀ k, a k ∈ pts) ∧ r ≠ some [] := by
  obtain ⟨q, hq, hsub, -, -⟩ := C24_one_per_point .dode pts hp
  unfold Float64.triangulateCommon at h
  split at h
  · rw [hq, bind_ok'] at h
    split at h
    · unfold Float64.triangulationPoints at h
      cases hi : F.delaunayInput2 q with
      | error e => rw [hi, bind_error'] at h; cases h
      | ok pns =>
        rw [hi, bind_ok'] at h
        cases hd : delaunay pns with
        | none => rw [hd] at h; cases h; simp
        | some l =>
          rw [hd] at h
          simp only at h
          cases hk : keepSimplices q l with
          | error e => rw [hk, bind_error'] at h; cases h
          | ok o =>
            rw [hk, bind_ok'] at h
            split at h
            · rename_i hn
              cases h
              exact ⟨fun a ha k => hsub _ (keepSimplices2_mem hk a ha k), fun e => hn (by rw [Option.some.inj e]; rfl)⟩
            · cases h; simp
    · split at h
      · rename_i he
        unfold Dode.reshape3 at h
        rw [dif_pos he, bind_ok'] at h
        cases h
        refine ⟨?_, by simp⟩
        intro a ha k
        simp only [Option.getD_some, List.mem_singleton] at ha
        subst ha
        exact hsub _ (List.get_mem _ _)
      · cases h; simp
  · cases h; simp

theorem delaunayInput2_ok (F : Float64) {pts : List (Vec 6)} (hp : ∀ v ∈ pts, Vec.Ok v) : ∃ pns, F.delaunayInput2 pts = .ok pns := by
  refine ⟨_, fillList_ok (g := fun v => ![F.dodeVector (nvec (Package.dode.kperp *ᵥ kvec Package.dode.theta v)) 0,
    F.dodeVector (nvec (Package.dode.kperp *ᵥ kvec Package.dode.theta v)) 1]) fun v hv => ?_⟩
  rw [show Dode.projection3 v = Package.dode.projection3 v from rfl, Package.dode.projection3_ok (hp v hv), bind_ok']

/-- For points not on a line, a library that fills the hull of the points gives pieces that fill it. -/
theorem triCommonF_fills (F : Float64) {delaunay : Delaunay2} {pts : List (Vec 6)} (hp : ∀ v ∈ pts, Vec.Ok v) {z : ℝ}
    (hz : ∀ v ∈ pts, Package.dode.perp v 2 = z) {count : Nat} (hc : count ≤ 2 → InLine (pts.map plane))
    (hl : ¬ InLine (pts.map plane))
    (hD : ∀ r pns, (∀ v ∈ r, v ∈ pts) → F.delaunayInput2 r = .ok pns → ¬ InLine (r.map plane) →
      FillsHullOf2 (r.map plane) (delaunay pns)) :
    ∃ r, F.triangulateCommon delaunay pts count = .ok (some r) ∧
      convexHull ℝ {x | ∃ v ∈ pts, Package.dode.perp v = x} ⊆ Package.dode.region r := by
  obtain ⟨q, hq, hsub, -, huniq⟩ := C24_one_per_point .dode pts hp
  have hperp : ∀ x, (∃ v ∈ q, Package.dode.perp v = x) ↔ ∃ v ∈ pts, Package.dode.perp v = x := by
    intro x
    constructor
    · rintro ⟨v, hv, e⟩; exact ⟨v, hsub v hv, e⟩
    · rintro ⟨v, hv, e⟩
      obtain ⟨y, ⟨hy, e2⟩, -⟩ := huniq v hv
      exact ⟨y, hy, e2.trans e⟩
  have hhull : {x | ∃ v ∈ pts, Package.dode.perp v = x} = {x | ∃ v ∈ q, Package.dode.perp v = x} := by
    ext x; exact (hperp x).symm
  have hline : ¬ InLine (q.map plane) := by
    intro h
    refine hl (inLine_of_subset h ?_)
    intro y hy
    obtain ⟨v, hv, rfl⟩ := List.mem_map.1 hy
    obtain ⟨w, hw, e⟩ := (hperp _).2 ⟨v, hv, rfl⟩
    exact List.mem_map.2 ⟨w, hw, congrArg xy e⟩
  have hqok : ∀ v ∈ q, Vec.Ok v := fun v hv => hp v (hsub v hv)
  have hqz : ∀ v ∈ q, Package.dode.perp v 2 = z := fun v hv => hz v (hsub v hv)
  unfold Float64.triangulateCommon
  by_cases h3 : count ≥ 3
  · rw [if_pos h3, hq, bind_ok', hhull]
    by_cases hlen : q.length > 3
    · rw [if_pos hlen]
      obtain ⟨pns, hpns⟩ := delaunayInput2_ok F hqok
      obtain ⟨l, hd, hidx, hcov⟩ := hD q pns hsub hpns hline
      have hidx' : ∀ i ∈ l, ∀ k, i k < q.length := fun i hi k => by simpa using hidx i hi k
      obtain ⟨r, hr, h1, -, -⟩ := keepSimplices2_ok hqok l hidx'
      have hcov' : convexHull ℝ {x | ∃ v ∈ q, Package.dode.perp v = x} ⊆ Package.dode.region r := by
        intro x hx
        have hlev : ∀ y ∈ {x | ∃ v ∈ q, Package.dode.perp v = x}, y 2 = z := by
          rintro y ⟨v, hv, rfl⟩; exact hqz v hv
        have hxz := hull_level hlev hx
        have hset : xy '' {x | ∃ v ∈ q, Package.dode.perp v = x} = {y | y ∈ q.map plane} := by
          ext y
          constructor
          · rintro ⟨x, ⟨v, hv, rfl⟩, rfl⟩; exact List.mem_map.2 ⟨v, hv, rfl⟩
          · intro hy
            obtain ⟨v, hv, rfl⟩ := List.mem_map.1 hy
            exact ⟨_, ⟨v, hv, rfl⟩, rfl⟩
        have hxy : xy x ∈ convexHull ℝ {y | y ∈ q.map plane} := by
          rw [← hset, ← slice_hull hlev]
          exact (xy_mem_slice hxz).2 hx
        obtain ⟨i, hi, hne, hm⟩ := hcov _ hxy
        set a : Simplex 3 := fun k => q[i k]'(hidx' i hi k) with ha
        have hget : ∀ k, (q.map plane)[i k]'(hidx i hi k) = xy (Package.dode.perps a k) := by
          intro k
          rw [List.getElem_map]
          rfl
        have hne' : crossZ (Package.dode.perps a) ≠ 0 := by
          rw [← cross2_crossZ, ← hget, ← hget, ← hget]
          exact hne
        have hm' : xy x ∈ convexHull ℝ (Set.range fun k => xy (Package.dode.perps a k)) := by
          have : (fun k => (q.map plane)[i k]'(hidx i hi k)) = fun k => xy (Package.dode.perps a k) := funext hget
          rw [← this]
          exact hm
        have hflat : Flat z (Package.dode.perps a) := fun k => hqz _ (List.getElem_mem _)
        rw [← slice_solid hflat, xy_mem_slice hxz] at hm'
        refine ⟨a, (h1 a).2 ⟨?_, ?_⟩, hm'⟩
        · unfold proposed2
          rw [List.mem_map]
          exact ⟨⟨i, hi⟩, List.mem_attach _ _, rfl⟩
        · rw [triAreaXY_crossZ]
          simpa using hne'
      have h0 : r.length ≠ 0 := by
        intro h0
        have : r = [] := by simpa using h0
        subst this
        have hne : ∃ v, v ∈ q := List.exists_mem_of_length_pos (by omega)
        obtain ⟨v, hv⟩ := hne
        obtain ⟨a, ha, -⟩ := hcov' (subset_convexHull ℝ _ ⟨v, hv, rfl⟩)
        cases ha
      refine ⟨r, ?_, hcov'⟩
      unfold Float64.triangulationPoints
      rw [hpns, bind_ok', hd]
      simp only [hr, bind_ok']
      rw [if_pos h0]
    · rw [if_neg hlen]
      by_cases he : q.length = 3
      · rw [if_pos he]
        unfold Dode.reshape3
        rw [dif_pos he, bind_ok']
        refine ⟨_, rfl, ?_⟩
        intro x hx
        refine ⟨_, List.mem_singleton.2 rfl, ?_⟩
        refine convexHull_mono ?_ hx
        rintro y ⟨v, hv, rfl⟩
        obtain ⟨i, rfl⟩ := List.get_of_mem hv
        exact ⟨Fin.cast he i, rfl⟩
      · exact absurd (inLine_of_count (by omega)) hline
  · exact absurd (hc (by omega)) hl

/-! ## The collected points -/

section
variable (F : Float64) {R : ℝ} (hR : 1 ≤ R) (hR8 : R ≤ 8) {z : ℝ} {s t : Simplex 3} (hs : Simplex.Ok s) (ht : Simplex.Ok t)
  (zs : Flat z (Package.dode.perps s)) (zt : Flat z (Package.dode.perps t))
  (ss : ∀ i, Small .dode R (s i)) (st : ∀ i, Small .dode R (t i))
  (h : ResolvedTriRounded R (Package.dode.perps s) (Package.dode.perps t))
include hR hR8 zs zt ss st h

theorem soundMeets : SoundMeets F s t := by
  intro c hc e he hm
  have hap := h.cross c.1 c.2 e.1 e.2 (mem_combE.1 hc) (mem_combE.1 he)
  obtain ⟨h0, a, b, a0, a1, b0, b1, eq⟩ := meets_sound F hR hR8 zs zt ss st hap hm
  exact exact_meets zs zt hap.span (zero_le_one.trans hR) h0 a0 a1 b0 b1 eq

omit hR8 zs zt in
include hR8 in
theorem insideF_eq (i : Fin 3) : F.dodeInsideTau (s i) t = insideTau (s i) t :=
  inside2_rounded F hR hR8 (ss i) st (h.insideS i)

theorem insideF_iff (i : Fin 3) : F.dodeInsideTau (s i) t = true ↔ Package.dode.perps s i ∈ solid (Package.dode.perps t) := by
  rw [insideF_eq F hR hR8 ss st h, inside_iff_accepts zt (zs i)]
  exact ⟨h.cornerS i, acceptsTri_of_mem h.areaT⟩

omit hR8 zs zt in
include hR8 in
theorem filterF_eq : (List.ofFn s).filter (fun v => F.dodeInsideTau v t) = (List.ofFn s).filter (fun v => insideTau v t) := by
  refine List.filter_congr fun v hv => ?_
  obtain ⟨i, rfl⟩ := (List.mem_ofFn' _ _).mp hv
  exact insideF_eq F hR hR8 ss st h i

/-- A crossing found over the real numbers is found with rounding, in both orders, or it is a corner of one triangle
that lies in the other. -/
theorem crossing_cases {i j k l : Fin 3} (hij : i < j) (hkl : k < l) {x : Fin 3 → ℝ}
    (h0 : (Package.dode.perps s j - Package.dode.perps s i) ⨯₃ (Package.dode.perps t l - Package.dode.perps t k) ≠ 0) {a b : ℝ}
    (a0 : 0 ≤ a) (a1 : a ≤ 1) (b0 : 0 ≤ b) (b1 : b ≤ 1)
    (e1 : x = Package.dode.perps s i + a • (Package.dode.perps s j - Package.dode.perps s i))
    (e2 : x = Package.dode.perps t k + b • (Package.dode.perps t l - Package.dode.perps t k)) :
    (F.segmentsMeetTau (segmentOf s (i, j)) (segmentOf t (k, l)) = true ∧
        F.segmentsMeetTau (segmentOf t (k, l)) (segmentOf s (i, j)) = true ∧ 0 < a ∧ a < 1 ∧ 0 < b ∧ b < 1) ∨
      (∃ i, F.dodeInsideTau (s i) t = true ∧ Package.dode.perp (s i) = x) ∨
      (∃ k, F.dodeInsideTau (t k) s = true ∧ Package.dode.perp (t k) = x) := by
  have hap := h.cross i j k l hij hkl
  have in_t : x ∈ solid (Package.dode.perps t) := e2 ▸ edge_mem b0 b1
  have in_s : x ∈ solid (Package.dode.perps s) := e1 ▸ edge_mem a0 a1
  have cs : ∀ i, Package.dode.perps s i = x → _ := fun i (e : Package.dode.perps s i = x) =>
    (⟨i, (insideF_iff F hR hR8 zs zt ss st h i).2 (e ▸ in_t), e⟩ : ∃ i, F.dodeInsideTau (s i) t = true ∧ Package.dode.perp (s i) = x)
  have ct : ∀ i, Package.dode.perps t i = x → _ := fun i (e : Package.dode.perps t i = x) =>
    (⟨i, (insideF_iff F hR hR8 zt zs st ss h.symm i).2 (e ▸ in_s), e⟩ : ∃ k, F.dodeInsideTau (t k) s = true ∧ Package.dode.perp (t k) = x)
  rcases a0.eq_or_lt with rfl | a0
  · exact .inr (.inl (cs i (by rw [e1]; simp)))
  rcases a1.eq_or_lt with rfl | a1
  · exact .inr (.inl (cs j (by rw [e1]; simp)))
  rcases b0.eq_or_lt with rfl | b0
  · exact .inr (.inr (ct k (by rw [e2]; simp)))
  rcases b1.eq_or_lt with rfl | b1
  · exact .inr (.inr (ct l (by rw [e2]; simp)))
  refine .inl ⟨meets_complete F hR hR8 ss st hap h0 a0 a1 b0 b1 (e1.symm.trans e2),
    meets_complete F hR hR8 st ss hap.symm ?_ b0 b1 a0 a1 (e2.symm.trans e1), a0, a1, b0, b1⟩
  intro h1
  rw [← cross_anticomm, h1, neg_zero] at h0
  exact h0 rfl

include hs ht

theorem commonPtsF_sub {v : Vec 6} (hv : v ∈ commonPtsF F s t) : v ∈ commonPts2 s t := by
  unfold commonPtsF at hv
  unfold commonPts2
  rw [filterF_eq F hR hR8 ss st h, filterF_eq F hR hR8 st ss h.symm, List.mem_append, List.mem_append] at hv
  rw [List.mem_append, List.mem_append]
  rcases hv with (hv | hv) | hv
  · refine .inl (.inl ?_)
    obtain ⟨i, j, k, l, hij, hkl, ⟨-, h2⟩ | ⟨-, h2⟩⟩ := mem_crossingsF.1 hv
    · exact mem_crossings.2 ⟨i, j, k, l, hij, hkl, .inl h2⟩
    · exact mem_crossings.2 ⟨i, j, k, l, hij, hkl, .inr h2⟩
  · exact .inl (.inr hv)
  · exact .inr hv

theorem mem_insideF_s {i : Fin 3} (hi : F.dodeInsideTau (s i) t = true) : s i ∈ commonPtsF F s t :=
  List.mem_append_left _ (List.mem_append_right _ (List.mem_filter.2 ⟨(List.mem_ofFn' _ _).mpr ⟨i, rfl⟩, hi⟩))

theorem mem_insideF_t {i : Fin 3} (hi : F.dodeInsideTau (t i) s = true) : t i ∈ commonPtsF F s t :=
  List.mem_append_right _ (List.mem_filter.2 ⟨(List.mem_ofFn' _ _).mpr ⟨i, rfl⟩, hi⟩)

theorem commonPtsF_perp {v : Vec 6} (hv : v ∈ commonPts2 s t) : ∃ w ∈ commonPtsF F s t, Package.dode.perp w = Package.dode.perp v := by
  unfold commonPts2 at hv
  rw [List.mem_append, List.mem_append] at hv
  rcases hv with (hv | hv) | hv
  · obtain ⟨i, j, k, l, hij, hkl, h2 | h2⟩ := mem_crossings.1 hv
    · obtain ⟨-, a, b, a0, a1, b0, b1, e1, e2, h0⟩ := crossPt2_exact hs ht zs zt h2
      rcases crossing_cases F hR hR8 zs zt ss st h hij hkl h0 a0 a1 b0 b1 e1 e2 with ⟨hm, -⟩ | ⟨i, hi, e⟩ | ⟨i, hi, e⟩
      · exact ⟨v, List.mem_append_left _ (List.mem_append_left _ (mem_crossingsF.2 ⟨i, j, k, l, hij, hkl, .inl ⟨hm, h2⟩⟩)), rfl⟩
      · exact ⟨_, mem_insideF_s F hR hR8 hs ht zs zt ss st h hi, e⟩
      · exact ⟨_, mem_insideF_t F hR hR8 hs ht zs zt ss st h hi, e⟩
    · obtain ⟨-, a, b, a0, a1, b0, b1, e1, e2, h0⟩ := crossPt2_exact ht hs zt zs h2
      rcases crossing_cases F hR hR8 zt zs st ss h.symm hij hkl h0 a0 a1 b0 b1 e1 e2 with ⟨hm, -⟩ | ⟨i, hi, e⟩ | ⟨i, hi, e⟩
      · exact ⟨v, List.mem_append_left _ (List.mem_append_left _ (mem_crossingsF.2 ⟨i, j, k, l, hij, hkl, .inr ⟨hm, h2⟩⟩)), rfl⟩
      · exact ⟨_, mem_insideF_t F hR hR8 hs ht zs zt ss st h hi, e⟩
      · exact ⟨_, mem_insideF_s F hR hR8 hs ht zs zt ss st h hi, e⟩
  · rw [← filterF_eq F hR hR8 ss st h] at hv
    exact ⟨v, List.mem_append_left _ (List.mem_append_right _ hv), rfl⟩
  · rw [← filterF_eq F hR hR8 st ss h.symm] at hv
    exact ⟨v, List.mem_append_right _ hv, rfl⟩

theorem commonPtsF_hull : convexHull ℝ {x | ∃ v ∈ commonPtsF F s t, Package.dode.perp v = x} =
    solid (Package.dode.perps s) ∩ solid (Package.dode.perps t) := by
  rw [← commonPts2_hull hs ht zs zt (h.resolved (zero_le_one.trans hR))]
  congr 1
  ext x
  constructor
  · rintro ⟨v, hv, e⟩
    exact ⟨v, commonPtsF_sub F hR hR8 hs ht zs zt ss st h hv, e⟩
  · rintro ⟨v, hv, e⟩
    obtain ⟨w, hw, e2⟩ := commonPtsF_perp F hR hR8 hs ht zs zt ss st h hv
    exact ⟨w, hw, e2.trans e⟩

theorem commonPtsF_candidate {v : Vec 6} (hv : v ∈ commonPtsF F s t) : Vec.Ok v ∧ Package.dode.perp v 2 = z ∧
    Candidate2 (Package.dode.perps s) (Package.dode.perps t) (Package.dode.perp v) := by
  have hv' := commonPtsF_sub F hR hR8 hs ht zs zt ss st h hv
  obtain ⟨h1, h2⟩ := commonPts2_ok hs ht zs zt hv'
  have hm := commonPts2_mem hs ht zs zt (h.resolved (zero_le_one.trans hR)) hv'
  refine ⟨h1, h2, ?_⟩
  unfold commonPts2 at hv'
  rw [List.mem_append, List.mem_append, List.mem_filter, List.mem_filter] at hv'
  rcases hv' with (hv | ⟨hv, -⟩) | ⟨hv, -⟩
  · obtain ⟨i, j, k, l, hij, hkl, h2 | h2⟩ := mem_crossings.1 hv
    · obtain ⟨-, a, b, a0, a1, b0, b1, e1, e2, h0⟩ := crossPt2_exact hs ht zs zt h2
      exact .inr (.inr ⟨i, j, k, l, hij, hkl, h0, a, b, a0, a1, b0, b1, e1, e2⟩)
    · obtain ⟨-, a, b, a0, a1, b0, b1, e1, e2, h0⟩ := crossPt2_exact ht hs zt zs h2
      exact .inr (.inr (edgeEdge_symm ⟨i, j, k, l, hij, hkl, h0, a, b, a0, a1, b0, b1, e1, e2⟩))
  · obtain ⟨i, rfl⟩ := (List.mem_ofFn' _ _).mp hv
    exact .inl ⟨i, rfl, hm.2⟩
  · obtain ⟨i, rfl⟩ := (List.mem_ofFn' _ _).mp hv
    exact .inr (.inl ⟨i, rfl, hm.1⟩)

/-- A pair of edges that cross inside both, as counted. -/
def ProperHit (F : Float64) (s t : Simplex 3) (c e : Fin 3 × Fin 3) (x : Fin 3 → ℝ) : Prop :=
  c ∈ combE ∧ e ∈ combE ∧ F.segmentsMeetTau (segmentOf s c) (segmentOf t e) = true ∧
    F.segmentsMeetTau (segmentOf t e) (segmentOf s c) = true ∧
    (Package.dode.perps s c.2 - Package.dode.perps s c.1) ⨯₃ (Package.dode.perps t e.2 - Package.dode.perps t e.1) ≠ 0 ∧
    ∃ a b : ℝ, x = Package.dode.perps s c.1 + a • (Package.dode.perps s c.2 - Package.dode.perps s c.1) ∧
      x = Package.dode.perps t e.1 + b • (Package.dode.perps t e.2 - Package.dode.perps t e.1)

theorem commonPtsF_cases {v : Vec 6} (hv : v ∈ commonPtsF F s t) : (∃ c e, ProperHit F s t c e (Package.dode.perp v)) ∨
    ∃ w ∈ (List.ofFn s).filter (fun v => F.dodeInsideTau v t) ++ (List.ofFn t).filter (fun v => F.dodeInsideTau v s),
      Package.dode.perp w = Package.dode.perp v := by
  have ins : ∀ i, F.dodeInsideTau (s i) t = true →
      s i ∈ (List.ofFn s).filter (fun v => F.dodeInsideTau v t) ++ (List.ofFn t).filter (fun v => F.dodeInsideTau v s) :=
    fun i hi => List.mem_append_left _ (List.mem_filter.2 ⟨(List.mem_ofFn' _ _).mpr ⟨i, rfl⟩, hi⟩)
  have int : ∀ i, F.dodeInsideTau (t i) s = true →
      t i ∈ (List.ofFn s).filter (fun v => F.dodeInsideTau v t) ++ (List.ofFn t).filter (fun v => F.dodeInsideTau v s) :=
    fun i hi => List.mem_append_right _ (List.mem_filter.2 ⟨(List.mem_ofFn' _ _).mpr ⟨i, rfl⟩, hi⟩)
  unfold commonPtsF at hv
  rw [List.append_assoc, List.mem_append] at hv
  rcases hv with hv | hv
  · obtain ⟨i, j, k, l, hij, hkl, ⟨-, h2⟩ | ⟨-, h2⟩⟩ := mem_crossingsF.1 hv
    · obtain ⟨-, a, b, a0, a1, b0, b1, e1, e2, h0⟩ := crossPt2_exact hs ht zs zt h2
      rcases crossing_cases F hR hR8 zs zt ss st h hij hkl h0 a0 a1 b0 b1 e1 e2 with ⟨m1, m2, -⟩ | ⟨i, hi, e⟩ | ⟨i, hi, e⟩
      · exact .inl ⟨(i, j), (k, l), mem_combE.2 hij, mem_combE.2 hkl, m1, m2, h0, a, b, e1, e2⟩
      · exact .inr ⟨_, ins i hi, e⟩
      · exact .inr ⟨_, int i hi, e⟩
    · obtain ⟨-, a, b, a0, a1, b0, b1, e1, e2, h0⟩ := crossPt2_exact ht hs zt zs h2
      rcases crossing_cases F hR hR8 zt zs st ss h.symm hij hkl h0 a0 a1 b0 b1 e1 e2 with ⟨m1, m2, -⟩ | ⟨i, hi, e⟩ | ⟨i, hi, e⟩
      · refine .inl ⟨(k, l), (i, j), mem_combE.2 hkl, mem_combE.2 hij, m2, m1, ?_, b, a, e2, e1⟩
        intro h1
        rw [← cross_anticomm, h1, neg_zero] at h0
        exact h0 rfl
      · exact .inr ⟨_, int i hi, e⟩
      · exact .inr ⟨_, ins i hi, e⟩
  · exact .inr ⟨v, hv, rfl⟩

/-- If at most two were counted, the collected points are in a line. -/
theorem countF_line (hc : commonCountF F s t ≤ 2) : InLine ((commonPtsF F s t).map plane) := by
  unfold commonCountF at hc
  have s1 := soundMeets F hR hR8 zs zt ss st h
  have s2 := soundMeets F hR hR8 zt zs st ss h.symm
  by_cases hex : ∃ v ∈ commonPtsF F s t, ∃ c e, ProperHit F s t c e (Package.dode.perp v)
  · obtain ⟨v, hv, c, e, hc1, he1, m1, m2, h0, a, b, e1, e2⟩ := hex
    have p1 : hitF F s t ≠ 0 := fun h0 => by
      have := (hitF_zero hs ht s1).1 h0 c hc1 e he1
      rw [m1] at this; cases this
    have p2 : hitF F t s ≠ 0 := fun h0 => by
      have := (hitF_zero ht hs s2).1 h0 e he1 c hc1
      rw [m2] at this; cases this
    refine inLine_of_subset (inLine_few (pts := [plane v]) (by simp)) ?_
    intro y hy
    obtain ⟨w, hw, rfl⟩ := List.mem_map.1 hy
    rw [List.mem_singleton]
    rcases commonPtsF_cases F hR hR8 hs ht zs zt ss st h hw with ⟨c', e', hc1', he1', m1', m2', -, a', b', e1', e2'⟩ | ⟨u, hu, -⟩
    · have := hitF_one hs ht s1 (by omega) hc1 hc1' he1 he1' m1 m1'
      subst this
      have := hitF_one ht hs s2 (by omega) he1 he1' hc1 hc1' m2 m2'
      subst this
      have hu := crossing_unique h0 (e1.symm.trans e2) (e1'.symm.trans e2')
      change xy _ = xy _
      rw [e1', e1, hu.1]
    · have := List.length_pos_of_mem hu
      rw [List.length_append] at this
      omega
  · refine inLine_of_subset (inLine_few (pts := ((List.ofFn s).filter (fun v => F.dodeInsideTau v t) ++
      (List.ofFn t).filter (fun v => F.dodeInsideTau v s)).map plane) ?_) ?_
    · rw [List.length_map, List.length_append]; omega
    · intro y hy
      obtain ⟨w, hw, rfl⟩ := List.mem_map.1 hy
      rcases commonPtsF_cases F hR hR8 hs ht zs zt ss st h hw with hx | ⟨u, hu, e⟩
      · exact absurd ⟨w, hw, hx⟩ hex
      · exact List.mem_map.2 ⟨u, hu, congrArg xy e⟩

end

end PyQC
