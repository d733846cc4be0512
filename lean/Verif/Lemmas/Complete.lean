import Verif.Lemmas.Extreme
import Verif.Props.IntersectObj
import Verif.Props.Coplanar
/-!
# Completeness of the collected points
-/
namespace PyQC
open Matrix Ico

variable {S T : Fin 4 → Fin 3 → ℝ}

theorem edgeFace_mem {x : Fin 3 → ℝ} (h : EdgeFace S T x) : x ∈ solid S ∧ x ∈ solid T := by
  obtain ⟨i, j, k, l, m, hij, hkl, hlm, -, t, u, v, hm, hx, t0, t1, u0, v0, uv⟩ := h
  constructor
  · rw [mem_solid_iff]
    obtain ⟨w, hw, h0⟩ := near_edge (q := S) (δ := 0) le_rfl hij.ne (by linarith) (by linarith) hx
    exact ⟨w, hw, fun i => by simpa using h0 i⟩
  · rw [mem_solid_iff]
    obtain ⟨w, hw, h0⟩ := near_face (q := T) (δ := 0) le_rfl hkl hlm (by linarith) (by linarith) (by linarith) (hx.trans hm)
    exact ⟨w, hw, fun i => by simpa using h0 i⟩

/-- Two descriptions of the crossing of a line and a plane that is not parallel to it agree. -/
theorem meets_unique {A B C D E : Fin 3 → ℝ} (hd : Matrix.det (Matrix.of ![B - A, E - C, D - C]) ≠ 0) {t u v t' u' v' : ℝ}
    (h : Meets A B C D E t u v) (h' : Meets A B C D E t' u' v') : t = t' ∧ u = u' ∧ v = v' := by
  rw [← bunbo_det] at hd
  obtain ⟨a, b, c⟩ := (moller hd t u v).1 h
  obtain ⟨a', b', c'⟩ := (moller hd t' u' v').1 h'
  exact ⟨c.trans c'.symm, a.trans a'.symm, b.trans b'.symm⟩

theorem hits_of_edgeFace (hc : Clear S T) {i j k l m : Fin 4} (hij : i < j) (hkl : k < l) (hlm : l < m)
    (hd : Matrix.det (Matrix.of ![S j - S i, T m - T k, T l - T k]) ≠ 0) {t u v : ℝ}
    (hm : Meets (S i) (S j) (T k) (T l) (T m) t u v) (t0 : 0 ≤ t) (t1 : t ≤ 1) (u0 : 0 ≤ u) (v0 : 0 ≤ v) (uv : u + v ≤ 1) :
    Hits (S i) (S j) (T k) (T l) (T m) :=
  ⟨hc.span i j k l m hij hkl hlm hd, t, u, v, hm, by linarith, by linarith, by linarith, by linarith, by linarith, by linarith⟩

theorem edgeFace_of_hits (hc : Clear S T) {i j k l m : Fin 4} (hij : i < j) (hkl : k < l) (hlm : l < m)
    (h : Hits (S i) (S j) (T k) (T l) (T m)) : ∃ x, EdgeFace S T x := by
  obtain ⟨t, u, v, hm, t0, t1, u0, v0, uv⟩ := hc.hit i j k l m hij hkl hlm h
  have hd : Matrix.det (Matrix.of ![S j - S i, T m - T k, T l - T k]) ≠ 0 := by
    intro h0
    have := h.1
    rw [h0, abs_zero] at this
    norm_num at this
  exact ⟨_, i, j, k, l, m, hij, hkl, hlm, hd, t, u, v, hm, rfl, t0, t1, u0, v0, uv⟩

variable {s t : Simplex 4}

theorem crossPt_exact (hs : Simplex.Ok s) (ht : Simplex.Ok t) (hc : Clear (Package.ico.perps s) (Package.ico.perps t))
    {i j k l m : Fin 4} (hij : i < j) (hkl : k < l) (hlm : l < m) {v : Vec 6} (hv : v ∈ crossPt s t ((i, j), (k, l, m))) :
    EdgeFace (Package.ico.perps s) (Package.ico.perps t) (Package.ico.perp v) := by
  obtain ⟨o, ho, e⟩ := crossPt_eq hs ht ((i, j), (k, l, m))
  rw [e] at hv
  cases h : segmentMeetsTriangleTau (segmentOf s (i, j)) (surfaceOf t (k, l, m)) with
  | false =>
    have := segSurf_none h
    rw [ho] at this
    cases this
    simp at hv
  | true =>
    obtain ⟨r, a, u, w, hr, -, -, h1, h2, -⟩ := C34_point _ _ (segmentOf_ok hs (i, j)) (surfaceOf_ok ht (k, l, m)) h
    rw [ho] at hr
    cases hr
    simp only [Option.toList_some, List.mem_singleton] at hv
    subst hv
    have hh := (hits_iff s t i j k l m).1 h
    have hd : Matrix.det (Matrix.of ![Package.ico.perps s j - Package.ico.perps s i, Package.ico.perps t m - Package.ico.perps t k,
        Package.ico.perps t l - Package.ico.perps t k]) ≠ 0 := by
      intro h0
      have := hh.1
      rw [h0, abs_zero] at this
      norm_num at this
    obtain ⟨t', u', v', hm, t0, t1, u0, v0, uv⟩ := hc.hit i j k l m hij hkl hlm hh
    have hm2 : Meets (Package.ico.perps s i) (Package.ico.perps s j) (Package.ico.perps t k) (Package.ico.perps t l)
        (Package.ico.perps t m) a u w := h1.symm.trans h2
    obtain ⟨rfl, rfl, rfl⟩ := meets_unique hd hm2 hm
    exact ⟨i, j, k, l, m, hij, hkl, hlm, hd, a, u, w, hm, h1, t0, t1, u0, v0, uv⟩

theorem crossPt_complete (hs : Simplex.Ok s) (ht : Simplex.Ok t) (hc : Clear (Package.ico.perps s) (Package.ico.perps t))
    {x : Fin 3 → ℝ} (hx : EdgeFace (Package.ico.perps s) (Package.ico.perps t) x) :
    ∃ i j k l m : Fin 4, i < j ∧ k < l ∧ l < m ∧ ∃ v ∈ crossPt s t ((i, j), (k, l, m)), Package.ico.perp v = x := by
  obtain ⟨i, j, k, l, m, hij, hkl, hlm, hd, a, u, w, hm, hx, t0, t1, u0, v0, uv⟩ := hx
  refine ⟨i, j, k, l, m, hij, hkl, hlm, ?_⟩
  have h := (hits_iff s t i j k l m).2 (hits_of_edgeFace hc hij hkl hlm hd hm t0 t1 u0 v0 uv)
  obtain ⟨r, a', u', w', hr, -, -, h1, h2, -⟩ := C34_point _ _ (segmentOf_ok hs (i, j)) (surfaceOf_ok ht (k, l, m)) h
  obtain ⟨o, ho, e⟩ := crossPt_eq hs ht ((i, j), (k, l, m))
  refine ⟨r, ?_, ?_⟩
  · rw [e]
    have := ho.symm.trans hr
    rw [Except.ok.inj this]
    simp
  · have hm2 : Meets (Package.ico.perps s i) (Package.ico.perps s j) (Package.ico.perps t k) (Package.ico.perps t l)
        (Package.ico.perps t m) a' u' w' := h1.symm.trans h2
    obtain ⟨rfl, rfl, rfl⟩ := meets_unique hd hm2 hm
    rw [hx]
    exact h1

/-- The collected points are candidates and lie in both tetrahedra. -/
theorem commonPts_exact (hs : Simplex.Ok s) (ht : Simplex.Ok t)
    (h : Resolved (Package.ico.perps s) (Package.ico.perps t)) {v : Vec 6} (hv : v ∈ commonPts s t) :
    Candidate (Package.ico.perps s) (Package.ico.perps t) (Package.ico.perp v) ∧
      Package.ico.perp v ∈ solid (Package.ico.perps s) ∧ Package.ico.perp v ∈ solid (Package.ico.perps t) := by
  unfold commonPts at hv
  rw [List.mem_append, List.mem_append, mem_crossing, List.mem_filter, List.mem_filter] at hv
  rcases hv with (⟨i, j, k, l, m, h1, h2, h3, hv | hv⟩ | ⟨hv, ha⟩) | ⟨hv, ha⟩
  · have := crossPt_exact hs ht h.clearST h1 h2 h3 hv
    exact ⟨.inr (.inr (.inl this)), edgeFace_mem this⟩
  · have := crossPt_exact ht hs h.clearTS h1 h2 h3 hv
    exact ⟨.inr (.inr (.inr this)), (edgeFace_mem this).symm⟩
  · obtain ⟨i, rfl⟩ := (List.mem_ofFn' _ _).mp hv
    exact ⟨.inl ⟨i, rfl⟩, subset_convexHull ℝ _ ⟨i, rfl⟩, h.clearST.corner i ((C32_perp _ _).1 ha)⟩
  · obtain ⟨i, rfl⟩ := (List.mem_ofFn' _ _).mp hv
    exact ⟨.inr (.inl ⟨i, rfl⟩), h.clearTS.corner i ((C32_perp _ _).1 ha), subset_convexHull ℝ _ ⟨i, rfl⟩⟩

theorem accepts_of_mem {q : Fin 4 → Fin 3 → ℝ} {x : Fin 3 → ℝ} (hq : tetVol q ≠ 0) (h : x ∈ solid q) : Accepts q x :=
  (C32_exact _ _).1 (C32_complete x q hq h)

/-- The collected points span exactly the common part. -/
theorem commonPts_hull (hs : Simplex.Ok s) (ht : Simplex.Ok t)
    (h : Resolved (Package.ico.perps s) (Package.ico.perps t)) :
    convexHull ℝ {x | ∃ v ∈ commonPts s t, Package.ico.perp v = x} =
      solid (Package.ico.perps s) ∩ solid (Package.ico.perps t) := by
  apply Set.Subset.antisymm
  · refine convexHull_min ?_ ((solid_convex _).inter (solid_convex _))
    rintro x ⟨v, hv, rfl⟩
    exact (commonPts_exact hs ht h hv).2
  · refine common_subset_hull ?_ ?_
    · exact ((commonPts s t).map Package.ico.perp).finite_toSet.subset fun x ⟨v, hv, e⟩ => List.mem_map.2 ⟨v, hv, e⟩
    · intro x hx
      rcases extreme_classify (det4_ne_iff.2 h.volS) (det4_ne_iff.2 h.volT) hx with ⟨i, rfl, hm⟩ | ⟨i, rfl, hm⟩ | he | he
      · refine ⟨s i, ?_, rfl⟩
        exact List.mem_append_left _ (List.mem_append_right _ (List.mem_filter.2 ⟨(List.mem_ofFn' _ _).mpr ⟨i, rfl⟩,
          (C32_perp _ _).2 (accepts_of_mem h.volT hm)⟩))
      · refine ⟨t i, ?_, rfl⟩
        exact List.mem_append_right _ (List.mem_filter.2 ⟨(List.mem_ofFn' _ _).mpr ⟨i, rfl⟩,
          (C32_perp _ _).2 (accepts_of_mem h.volS hm)⟩)
      · obtain ⟨i, j, k, l, m, h1, h2, h3, v, hv, e⟩ := crossPt_complete hs ht h.clearST he
        exact ⟨v, List.mem_append_left _ (List.mem_append_left _ (mem_crossing.2 ⟨i, j, k, l, m, h1, h2, h3, .inl hv⟩)), e⟩
      · obtain ⟨i, j, k, l, m, h1, h2, h3, v, hv, e⟩ := crossPt_complete ht hs h.clearTS he
        exact ⟨v, List.mem_append_left _ (List.mem_append_left _ (mem_crossing.2 ⟨i, j, k, l, m, h1, h2, h3, .inr hv⟩)), e⟩

/-! ## Points in a plane -/

theorem inPlane_few {pts : List (Fin 3 → ℝ)} (h : pts.length ≤ 3) : InPlane pts := by
  have key : ∀ a b c : Fin 3 → ℝ, ∃ n : Fin 3 → ℝ, n ≠ 0 ∧ ∃ d, n ⬝ᵥ a = d ∧ n ⬝ᵥ b = d ∧ n ⬝ᵥ c = d := by
    intro a b c
    have lin : ∀ y : Fin 3 → ℝ, ∃ f : (Fin 3 → ℝ) →ₗ[ℝ] ℝ, ∀ n, f n = n ⬝ᵥ y := fun y =>
      ⟨{ toFun := fun n => n ⬝ᵥ y, map_add' := fun _ _ => add_dotProduct _ _ _, map_smul' := fun _ _ => smul_dotProduct _ _ _ },
        fun _ => rfl⟩
    obtain ⟨f, hf⟩ := lin (b - a)
    obtain ⟨g, hg⟩ := lin (c - a)
    obtain ⟨n, h0, h1, h2⟩ := exists_dir f g
    rw [hf, dotProduct_sub] at h1
    rw [hg, dotProduct_sub] at h2
    exact ⟨n, h0, n ⬝ᵥ a, rfl, by linarith, by linarith⟩
  match pts, h with
  | [], _ =>
    obtain ⟨n, h0, d, -⟩ := key 0 0 0
    exact ⟨n, h0, d, by simp⟩
  | [a], _ =>
    obtain ⟨n, h0, d, h1, -⟩ := key a a a
    exact ⟨n, h0, d, by simpa using h1⟩
  | [a, b], _ =>
    obtain ⟨n, h0, d, h1, h2, -⟩ := key a b b
    exact ⟨n, h0, d, by simpa using ⟨h1, h2⟩⟩
  | [a, b, c], _ =>
    obtain ⟨n, h0, d, h1, h2, h3⟩ := key a b c
    exact ⟨n, h0, d, by simpa using ⟨h1, h2, h3⟩⟩
  | _ :: _ :: _ :: _ :: _, h => simp only [List.length_cons] at h; omega

theorem inPlane_of_subset {l l' : List (Fin 3 → ℝ)} (h : InPlane l') (hs : ∀ x ∈ l, x ∈ l') : InPlane l := by
  obtain ⟨n, h0, d, hd⟩ := h
  exact ⟨n, h0, d, fun x hx => hd x (hs x hx)⟩

theorem hull_inPlane {P : Set (Fin 3 → ℝ)} {n : Fin 3 → ℝ} {d : ℝ} (h : ∀ x ∈ P, n ⬝ᵥ x = d) :
    ∀ x ∈ convexHull ℝ P, n ⬝ᵥ x = d := by
  have hc : Convex ℝ {x | n ⬝ᵥ x = d} := by
    intro x hx y hy a b _ _ hab
    change n ⬝ᵥ x = d at hx
    change n ⬝ᵥ y = d at hy
    change n ⬝ᵥ (a • x + b • y) = d
    rw [dotProduct_add, dotProduct_smul, dotProduct_smul, hx, hy, smul_eq_mul, smul_eq_mul, ← add_mul, hab, one_mul]
  exact fun x hx => convexHull_min (s := P) (t := {x | n ⬝ᵥ x = d}) h hc hx

/-- When the points are candidates of a resolved pair, a coplanar verdict is right. -/
theorem coplanar_true {pts : List (Vec 6)}
    (hc : ∀ v ∈ pts, Candidate S T (Package.ico.perp v))
    (hf : ∀ a b c d, Candidate S T a → Candidate S T b → Candidate S T c → Candidate S T d →
      |crossProduct (b - a) (c - a) ⬝ᵥ (d - a)| < 1 / 10 ^ 10 → crossProduct (b - a) (c - a) ⬝ᵥ (d - a) = 0)
    {draws : (n : Nat) → Draws n} (h : coplanarCheck draws pts = some true) : InPlane (pts.map Package.ico.perp) := by
  have e : pts.map internalNumerical = pts.map Package.ico.perp :=
    List.map_congr_left fun v _ => Package.ico.internalNumerical_eq v
  unfold coplanarCheck at h
  by_cases hl : 3 < (pts.map internalNumerical).length
  · have hg : ∀ i, Candidate S T ((pts.map internalNumerical).get i) := by
      intro i
      obtain ⟨v, hv, e2⟩ := List.mem_map.1 (List.get_mem (pts.map internalNumerical) i)
      rw [← e2, show internalNumerical v = _ from Package.ico.internalNumerical_eq v]
      exact hc v hv
    rcases coplanarCheckNumeric_eq _ (draws _) hl with ⟨h1, -⟩ | ⟨d, -, ⟨c, hcc⟩, b, hb, hi⟩
    · rw [h1] at h; cases h
    · rw [hb] at h
      have hi := hi.1 (Option.some_injective _ h)
      refine ⟨tripleNormal _ d, ?_, tripleNormal _ d ⬝ᵥ (pts.map internalNumerical).get d.1, ?_⟩
      · intro h0
        rw [h0, eps_eq] at hcc
        norm_num at hcc
      · intro x hx
        rw [← e] at hx
        obtain ⟨i, rfl⟩ := List.get_of_mem hx
        have := hf _ _ _ _ (hg d.1) (hg d.2.1) (hg d.2.2) (hg i) (hi i)
        change tripleNormal _ d ⬝ᵥ _ = 0 at this
        rw [dotProduct_sub] at this
        linarith
  · refine inPlane_few ?_
    simp only [List.length_map] at hl ⊢
    omega

end PyQC
