import Verif.Spec.GoldenWide
import Verif.Lemmas.Golden
import Verif.Lemmas.Hull
import Verif.Props.Returns
/-!
# The test for wide contacts is right
-/
namespace PyQC
open Matrix
namespace Gold

variable {n : ℕ} {S T : Fin 4 → Fin 3 → ℝ} {a b : Fin 4 → G3}

theorem inSolid_iff (hn : 0 < n) (h : Grid n T b) (h0 : tetVol T ≠ 0) {x : Fin 3 → ℝ} {y : G3}
    (hx : x = (n : ℝ)⁻¹ • y.val) : inSolid b y = true ↔ x ∈ solid T := by
  have hn' : (n : ℝ)⁻¹ ≠ 0 := inv_ne_zero (by exact_mod_cast hn.ne')
  have hd := det4_ne_iff.mpr h0
  have hq : ∀ k, det4 (Ico.smallTetrahedron k x T) / det4 T = ((det b).signed (det (replace b k y))).val / |(det b).val| := by
    intro k
    rw [det4_grid h, det4_grid (grid_replace h hx k), mul_div_mul_left _ _ (pow_ne_zero _ hn'), quot_signed, val_abs]
  have hD : 0 < |(det b).val| := by
    rw [abs_pos]
    intro e
    rw [det4_grid h, e, mul_zero] at hd
    exact hd rfl
  have hs : x ∈ solid T ↔ ∀ k, 0 ≤ ((det b).signed (det (replace b k y))).val := by
    rw [mem_solid_iff]
    constructor
    · rintro ⟨w, hw, hw0⟩ k
      have := hw0 k
      rw [bary_unique hd hw (exists_bary hd x)] at this
      simp only [hq] at this
      by_contra hneg
      exact absurd this (not_le.mpr (div_neg_of_neg_of_pos (not_le.mp hneg) hD))
    · intro hk
      refine ⟨_, exists_bary hd x, fun k => ?_⟩
      simp only [hq]
      exact div_nonneg (hk k) hD.le
  rw [hs]
  simp only [inSolid, Bool.and_eq_true, nonneg_iff]
  rw [Fin.forall_fin_succ, Fin.forall_fin_succ, Fin.forall_fin_succ, Fin.forall_fin_succ]
  simp only [IsEmpty.forall_iff, and_true]
  constructor
  · rintro ⟨⟨⟨h1, h2⟩, h3⟩, h4⟩
    exact ⟨h1, h2, h3, h4⟩
  · rintro ⟨h1, h2, h3, h4⟩
    exact ⟨⟨⟨h1, h2⟩, h3⟩, h4⟩

theorem mem_cornersIn {f : Frac} : f ∈ cornersIn a b ↔ ∃ i, inSolid b (a i) = true ∧ f = ⟨a i, ⟨1, 0⟩⟩ := by
  unfold cornersIn
  rw [List.mem_map]
  constructor
  · rintro ⟨i, hi, rfl⟩
    exact ⟨i, (List.mem_filter.1 hi).2, rfl⟩
  · rintro ⟨i, hi, rfl⟩
    exact ⟨i, List.mem_filter.2 ⟨by fin_cases i <;> simp, hi⟩, rfl⟩

/-- The computed corners are the corners of the common part. -/
theorem mem_corners (hn : 0 < n) (hS : Grid n S a) (hT : Grid n T b) (h1 : tetVol S ≠ 0) (h2 : tetVol T ≠ 0) :
    (∀ f ∈ corners a b, 0 < f.q.val) ∧
      ∀ x, x ∈ (solid S ∩ solid T).extremePoints ℝ ↔ ∃ f ∈ corners a b, f.pt n = x := by
  have e1 : (⟨1, 0⟩ : Gold).val = 1 := by simp [val]
  have hpt : ∀ y : G3, Frac.pt n ⟨y, ⟨1, 0⟩⟩ = (n : ℝ)⁻¹ • y.val := by
    intro y
    unfold Frac.pt
    rw [e1, inv_one, mul_one]
  have hS' := det4_ne_iff.2 h1
  have hT' := det4_ne_iff.2 h2
  set l := cornersIn a b ++ cornersIn b a ++ crossings a b ++ crossings b a with hl
  have hmem : ∀ f, f ∈ l ↔ f ∈ cornersIn a b ∨ f ∈ cornersIn b a ∨ f ∈ crossings a b ∨ f ∈ crossings b a := by
    intro f
    rw [hl, List.mem_append, List.mem_append, List.mem_append, or_assoc, or_assoc]
  have hpos : ∀ f ∈ l, 0 < f.q.val := by
    intro f hf
    rcases (hmem f).mp hf with hf | hf | hf | hf
    · obtain ⟨i, -, rfl⟩ := mem_cornersIn.1 hf; rw [e1]; norm_num
    · obtain ⟨i, -, rfl⟩ := mem_cornersIn.1 hf; rw [e1]; norm_num
    · exact crossings_pos hf
    · exact crossings_pos hf
  have hl' : ∀ x, x ∈ (solid S ∩ solid T).extremePoints ℝ ↔ ∃ f ∈ l, f.pt n = x := by
    intro x
    constructor
    · intro hx
      rcases extreme_classify hS' hT' hx with ⟨i, rfl, hm⟩ | ⟨i, rfl, hm⟩ | h | h
      · exact ⟨_, (hmem _).2 (.inl (mem_cornersIn.2 ⟨i, (inSolid_iff hn hT h2 (hS i)).2 hm, rfl⟩)), (hpt _).trans (hS i).symm⟩
      · exact ⟨_, (hmem _).2 (.inr (.inl (mem_cornersIn.2 ⟨i, (inSolid_iff hn hS h1 (hT i)).2 hm, rfl⟩))),
          (hpt _).trans (hT i).symm⟩
      · obtain ⟨f, hf, e⟩ := (mem_crossings hn hS hT x).mp h
        exact ⟨f, (hmem _).2 (.inr (.inr (.inl hf))), e⟩
      · obtain ⟨f, hf, e⟩ := (mem_crossings hn hT hS x).mp h
        exact ⟨f, (hmem _).2 (.inr (.inr (.inr hf))), e⟩
    · rintro ⟨f, hf, rfl⟩
      rcases (hmem f).mp hf with hf | hf | hf | hf
      · obtain ⟨i, hi, rfl⟩ := mem_cornersIn.1 hf
        rw [hpt, ← hS i]
        exact corner_extreme hS' ⟨subset_convexHull ℝ _ ⟨i, rfl⟩, (inSolid_iff hn hT h2 (hS i)).1 hi⟩
      · obtain ⟨i, hi, rfl⟩ := mem_cornersIn.1 hf
        rw [hpt, ← hT i, Set.inter_comm]
        exact corner_extreme hT' ⟨subset_convexHull ℝ _ ⟨i, rfl⟩, (inSolid_iff hn hS h1 (hT i)).1 hi⟩
      · have := (mem_crossings hn hS hT (f.pt n)).mpr ⟨f, hf, rfl⟩
        exact edgeFace_extreme hS' hT' this (edgeFace_mem this)
      · have := (mem_crossings hn hT hS (f.pt n)).mpr ⟨f, hf, rfl⟩
        rw [Set.inter_comm]
        exact edgeFace_extreme hT' hS' this (edgeFace_mem this)
  obtain ⟨d1, d2⟩ := dedup_pts (n := n) hpos
  refine ⟨fun f hf => hpos f (d1 f hf), fun x => (hl' x).trans ⟨?_, ?_⟩⟩
  · rintro ⟨f, hf, rfl⟩
    exact d2 f hf
  · rintro ⟨f, hf, rfl⟩
    exact ⟨f, d1 f hf, rfl⟩

theorem same_iff (hn : 0 < n) {f g : Frac} (hf : 0 < f.q.val) (hg : 0 < g.q.val) : f.same g = true ↔ f.pt n = g.pt n := by
  refine ⟨same_pt hf hg, fun h => ?_⟩
  have hn0 : (n : ℝ) ≠ 0 := by exact_mod_cast hn.ne'
  simp only [Frac.same, Bool.and_eq_true, isZero_iff, val_sub, val_mul, sub_eq_zero]
  have key : ∀ u v : ℝ, (n : ℝ)⁻¹ * f.q.val⁻¹ * u = (n : ℝ)⁻¹ * g.q.val⁻¹ * v → g.q.val * u = f.q.val * v := by
    intro u v e
    have hf' := hf.ne'
    have hg' := hg.ne'
    field_simp at e
    linarith
  have h3 := fun j => congrFun h j
  simp only [Frac.pt, Pi.smul_apply, smul_eq_mul, G3.val] at h3
  exact ⟨⟨key _ _ (h3 0), key _ _ (h3 1)⟩, key _ _ (h3 2)⟩

/-- Four points in a plane. -/
def Coplanar4 (x y z w : Fin 3 → ℝ) : Prop := ((y - x) ⨯₃ (z - x)) ⬝ᵥ (w - x) = 0

theorem coplanar_iff (hn : 0 < n) {f g h k : Frac} (hf : 0 < f.q.val) (hg : 0 < g.q.val) (hh : 0 < h.q.val)
    (hk : 0 < k.q.val) : coplanar f g h k = true ↔ Coplanar4 (f.pt n) (g.pt n) (h.pt n) (k.pt n) := by
  have hn0 : (0 : ℝ) < n := by exact_mod_cast hn
  have e : ((g.pt n - f.pt n) ⨯₃ (h.pt n - f.pt n)) ⬝ᵥ (k.pt n - f.pt n) =
      ((((f.q.mul (g.p.trip h.p k.p)).sub (g.q.mul (f.p.trip h.p k.p))).add (h.q.mul (f.p.trip g.p k.p))).sub
        (k.q.mul (f.p.trip g.p h.p))).val * ((n : ℝ)⁻¹ ^ 3 * (f.q.val⁻¹ * g.q.val⁻¹ * h.q.val⁻¹ * k.q.val⁻¹)) := by
    simp only [val_add, val_sub, val_mul, G3.val_trip, Frac.pt]
    have hf' := hf.ne'
    have hg' := hg.ne'
    have hh' := hh.ne'
    have hk' := hk.ne'
    generalize f.p.val = P
    generalize g.p.val = Q
    generalize h.p.val = W
    generalize k.p.val = K
    simp only [cross_apply, vec3_dotProduct, cons_val_zero, cons_val_one, cons_val, Pi.smul_apply, Pi.sub_apply, smul_eq_mul]
    field_simp
    ring
  unfold coplanar Coplanar4
  rw [isZero_iff, e, mul_eq_zero]
  have : (n : ℝ)⁻¹ ^ 3 * (f.q.val⁻¹ * g.q.val⁻¹ * h.q.val⁻¹ * k.q.val⁻¹) ≠ 0 := by positivity
  exact ⟨fun h => .inl h, fun h => h.resolve_right this⟩

theorem coplanar_all (hn : 0 < n) (L : List Frac) (hpos : ∀ f ∈ L, 0 < f.q.val) : all4 coplanar L = true ↔
    ∀ f ∈ L, ∀ g ∈ L, ∀ h ∈ L, ∀ k ∈ L, Coplanar4 (f.pt n) (g.pt n) (h.pt n) (k.pt n) := by
  have sw : ∀ x y z w : Fin 3 → ℝ, ((x - y) ⨯₃ (z - y)) ⬝ᵥ (w - y) = -(((y - x) ⨯₃ (z - x)) ⬝ᵥ (w - x)) ∧
      ((z - x) ⨯₃ (y - x)) ⬝ᵥ (w - x) = -(((y - x) ⨯₃ (z - x)) ⬝ᵥ (w - x)) ∧
      ((y - x) ⨯₃ (w - x)) ⬝ᵥ (z - x) = -(((y - x) ⨯₃ (z - x)) ⬝ᵥ (w - x)) := by
    intro x y z w
    simp only [cross_apply, vec3_dotProduct, cons_val_zero, cons_val_one, cons_val, Pi.sub_apply]
    refine ⟨?_, ?_, ?_⟩ <;> ring
  obtain ⟨Q, hQ⟩ : ∃ Q : Frac → Frac → Frac → Frac → Prop, Q = fun f g h k => Coplanar4 (f.pt n) (g.pt n) (h.pt n) (k.pt n) :=
    ⟨_, rfl⟩
  have := all4_iff (P := coplanar) (Q := Q) (fun x y z w h => by
      rw [hQ] at h ⊢; exact ((sw _ _ _ _).1).trans (neg_eq_zero.2 h))
    (fun x y z w h => by rw [hQ] at h ⊢; exact ((sw _ _ _ _).2.1).trans (neg_eq_zero.2 h))
    (fun x y z w h => by rw [hQ] at h ⊢; exact ((sw _ _ _ _).2.2).trans (neg_eq_zero.2 h))
    (fun x z w => by rw [hQ]; simp [Coplanar4]) L
    (fun x hx y hy z hz w hw => by rw [hQ]; exact coplanar_iff hn (hpos x hx) (hpos y hy) (hpos z hz) (hpos w hw))
  rw [this, hQ]

theorem coplanar4_inPlane {L : List (Fin 3 → ℝ)} :
    InPlane L ↔ ∀ x ∈ L, ∀ y ∈ L, ∀ z ∈ L, ∀ w ∈ L, Coplanar4 x y z w := by
  constructor
  · rintro ⟨m, m0, c, hc⟩ x hx y hy z hz w hw
    have hip : InPlane [x, y, z, w] := ⟨m, m0, c, by simp [hc _ hx, hc _ hy, hc _ hz, hc _ hw]⟩
    exact tripleNormal_inPlane hip (0, 1, 2) 3
  · intro h
    by_contra hn
    cases L with
    | nil => exact hn (inPlane_few (by simp))
    | cons x l =>
      obtain ⟨q, hq, hv, -⟩ := hull_simplex hn (x := x) (subset_convexHull ℝ _ (by simp))
      refine det4_ne_iff.2 hv ?_
      have := h _ (hq 0) _ (hq 1) _ (hq 2) _ (hq 3)
      unfold Coplanar4 at this
      rw [← this, det4_eq]
      simp only [cross_apply, vec3_dotProduct, Pi.sub_apply, cons_val_zero, cons_val_one, cons_val]
      ring

/-- The common part is flat when its corners are coplanar. -/
theorem flat_iff (hn : 0 < n) (hS : Grid n S a) (hT : Grid n T b) (h1 : tetVol S ≠ 0) (h2 : tetVol T ≠ 0) :
    all4 coplanar (corners a b) = true ↔ ¬ (interior (solid S ∩ solid T)).Nonempty := by
  obtain ⟨hpos, hc⟩ := mem_corners hn hS hT h1 h2
  rw [coplanar_all hn _ hpos]
  have e : (∀ f ∈ corners a b, ∀ g ∈ corners a b, ∀ h ∈ corners a b, ∀ k ∈ corners a b,
      Coplanar4 (f.pt n) (g.pt n) (h.pt n) (k.pt n)) ↔ InPlane ((corners a b).map (Frac.pt n)) := by
    rw [coplanar4_inPlane]
    simp only [List.forall_mem_map]
  rw [e]
  constructor
  · intro hp hi
    refine hull_flat hp (hi.mono (interior_mono (common_subset_hull (List.finite_toSet _) fun x hx => ?_)))
    obtain ⟨f, hf, rfl⟩ := (hc x).1 hx
    exact List.mem_map.2 ⟨f, hf, rfl⟩
  · intro hi
    refine inPlane_of_flat ((solid_convex _).inter (solid_convex _)) hi fun x hx => ?_
    obtain ⟨f, hf, rfl⟩ := List.mem_map.1 hx
    exact ((hc _).2 ⟨f, hf, rfl⟩).1

theorem wide_iff (hn : 0 < n) {p q : ℕ} (hq : 0 < q) {f g h : Frac} (hf : 0 < f.q.val) (hg : 0 < g.q.val)
    (hh : 0 < h.q.val) : wide n p q f g h = true ↔
      ∃ k, (p : ℝ) / q ≤ |crossProduct (g.pt n - f.pt n) (h.pt n - f.pt n) k| := by
  have hn0 : (0 : ℝ) < n := by exact_mod_cast hn
  have hq0 : (0 : ℝ) < q := by exact_mod_cast hq
  obtain ⟨m, hm⟩ : ∃ m, m = ((G3.smul h.q (times f.p g.p)).add (G3.smul f.q (times g.p h.p))).add (G3.smul g.q (times h.p f.p)) :=
    ⟨_, rfl⟩
  have e : ∀ k, crossProduct (g.pt n - f.pt n) (h.pt n - f.pt n) k =
      m.val k * ((n : ℝ)⁻¹ ^ 2 * (f.q.val⁻¹ * g.q.val⁻¹ * h.q.val⁻¹)) := by
    intro k
    have hf' := hf.ne'
    have hg' := hg.ne'
    have hh' := hh.ne'
    have hn' := hn0.ne'
    rw [hm]
    fin_cases k <;>
      simp [cross_apply, Frac.pt, times, G3.val, G3.add, G3.smul, val_add, val_sub, val_mul] <;> field_simp <;> ring
  have key : ∀ y : Gold, ((scale (p * n ^ 2) ((f.q.mul g.q).mul h.q)).le (scale q y.abs) = true) ↔
      (p : ℝ) / q ≤ |y.val * ((n : ℝ)⁻¹ ^ 2 * (f.q.val⁻¹ * g.q.val⁻¹ * h.q.val⁻¹))| := by
    intro y
    rw [le_iff, val_scale, val_scale, val_mul, val_mul, val_abs, abs_mul,
      abs_of_pos (show 0 < (n : ℝ)⁻¹ ^ 2 * (f.q.val⁻¹ * g.q.val⁻¹ * h.q.val⁻¹) by positivity), div_le_iff₀ hq0]
    push_cast
    have e2 : |y.val| * ((n : ℝ)⁻¹ ^ 2 * (f.q.val⁻¹ * g.q.val⁻¹ * h.q.val⁻¹)) * q =
        (q * |y.val|) / (n ^ 2 * (f.q.val * g.q.val * h.q.val)) := by
      field_simp
    rw [e2, le_div_iff₀ (by positivity)]
    constructor <;> intro h <;> linarith
  have ex : wide n p q f g h = ((scale (p * n ^ 2) ((f.q.mul g.q).mul h.q)).le (scale q m.x.abs) ||
      (scale (p * n ^ 2) ((f.q.mul g.q).mul h.q)).le (scale q m.y.abs) ||
      (scale (p * n ^ 2) ((f.q.mul g.q).mul h.q)).le (scale q m.z.abs)) := by rw [hm]; rfl
  rw [ex, Bool.or_eq_true, Bool.or_eq_true, key, key, key]
  simp only [e]
  constructor
  · rintro ((h | h) | h)
    · exact ⟨0, h⟩
    · exact ⟨1, h⟩
    · exact ⟨2, h⟩
  · rintro ⟨k, h⟩
    fin_cases k
    · exact .inl (.inl h)
    · exact .inl (.inr h)
    · exact .inr h

theorem wideContact_iff (hn : 0 < n) {p q : ℕ} (hq : 0 < q) (hS : Grid n S a) (hT : Grid n T b) (h1 : tetVol S ≠ 0)
    (h2 : tetVol T ≠ 0) : wideContact n p q a b = true ↔
      (¬ (interior (solid S ∩ solid T)).Nonempty → WideCorners ((p : ℝ) / q) (solid S ∩ solid T)) := by
  obtain ⟨hpos, hc⟩ := mem_corners hn hS hT h1 h2
  have ex : wideContact n p q a b = (!all4 coplanar (corners a b) || (corners a b).all fun f => (corners a b).all fun g =>
      (corners a b).all fun h => f.same g || f.same h || g.same h || wide n p q f g h) := rfl
  rw [ex, Bool.or_eq_true, Bool.not_eq_true', ← Bool.not_eq_true, flat_iff hn hS hT h1 h2, ← imp_iff_not_or]
  refine imp_congr_right fun _ => ?_
  simp only [List.all_eq_true, Bool.or_eq_true]
  constructor
  · intro H x hx y hy z hz hxy hxz hyz
    obtain ⟨f, hf, rfl⟩ := (hc x).1 hx
    obtain ⟨g, hg, rfl⟩ := (hc y).1 hy
    obtain ⟨h, hh, rfl⟩ := (hc z).1 hz
    rcases H f hf g hg h hh with ((h' | h') | h') | h'
    · exact absurd (same_pt (hpos f hf) (hpos g hg) h') hxy
    · exact absurd (same_pt (hpos f hf) (hpos h hh) h') hxz
    · exact absurd (same_pt (hpos g hg) (hpos h hh) h') hyz
    · exact (wide_iff hn hq (hpos f hf) (hpos g hg) (hpos h hh)).1 h'
  · intro H f hf g hg h hh
    by_cases e1 : f.pt n = g.pt n
    · exact .inl (.inl (.inl ((same_iff hn (hpos f hf) (hpos g hg)).2 e1)))
    · by_cases e2 : f.pt n = h.pt n
      · exact .inl (.inl (.inr ((same_iff hn (hpos f hf) (hpos h hh)).2 e2)))
      · by_cases e3 : g.pt n = h.pt n
        · exact .inl (.inr ((same_iff hn (hpos g hg) (hpos h hh)).2 e3))
        · exact .inr ((wide_iff hn hq (hpos f hf) (hpos g hg) (hpos h hh)).2
            (H _ ((hc _).2 ⟨f, hf, rfl⟩) _ ((hc _).2 ⟨g, hg, rfl⟩) _ ((hc _).2 ⟨h, hh, rfl⟩) e1 e2 e3))

end Gold

/-- The test on the integers of two tetrahedra that are not flat. -/
theorem wideTest_iff {p q : ℕ} (hq : 0 < q) {s t : Simplex 4} (hs : Simplex.Ok s) (ht : Simplex.Ok t)
    (h1 : tetVol (Package.ico.perps s) ≠ 0) (h2 : tetVol (Package.ico.perps t) ≠ 0) :
    wideTest p q s t = true ↔ WideContacts ((p : ℝ) / q) .ico [s] [t] := by
  have hn : 0 < Nat.lcm (Simplex.den s) (Simplex.den t) := Nat.lcm_pos (Simplex.den_pos hs) (Simplex.den_pos ht)
  refine (Gold.wideContact_iff hn hq (simplex_grid hn hs (Nat.dvd_lcm_left _ _)) (simplex_grid hn ht (Nat.dvd_lcm_right _ _))
    h1 h2).trans ?_
  simp [WideContacts]

end PyQC
