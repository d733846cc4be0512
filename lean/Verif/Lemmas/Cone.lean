import Verif.Spec.Hull
import Verif.Lemmas.Flag
import Mathlib.Analysis.Convex.KreinMilman
/-!
# Lone sides: a set of coplanar triangles that do not overlap has a side that belongs to one of them only
-/
namespace PyQC
open Matrix

/-- An extreme point of the hull of finitely many points is the strict minimum of a linear function. -/
theorem exists_min {C : Set (Fin 3 → ℝ)} (hC : C.Finite) {V : Fin 3 → ℝ} (hV : V ∈ (convexHull ℝ C).extremePoints ℝ) :
    V ∈ C ∧ ∃ f : (Fin 3 → ℝ) →ₗ[ℝ] ℝ, ∀ x ∈ C, x ≠ V → f V < f x := by
  have hVC : V ∈ C := extremePoints_convexHull_subset hV
  refine ⟨hVC, ?_⟩
  have h1 := ((convex_convexHull ℝ C).mem_extremePoints_iff_mem_sdiff_convexHull_sdiff.1 hV).2
  have h2 : V ∉ convexHull ℝ (C \ {V}) := fun h => h1 (convexHull_mono
    (Set.sdiff_subset_sdiff_left (subset_convexHull ℝ C)) h)
  obtain ⟨f, u, hu, hf⟩ := geometric_hahn_banach_point_closed (convex_convexHull ℝ (C \ {V}))
    (Set.Finite.isClosed_convexHull (𝕜 := ℝ) (hC.subset Set.sdiff_subset)) h2
  exact ⟨f.toLinearMap, fun x hx hne => lt_trans hu (hf x (subset_convexHull ℝ _ ⟨hx, hne⟩))⟩

/-- A plane that contains three corners of a tetrahedron that is not flat is spanned by them. -/
theorem plane_span {q : Fin 4 → Fin 3 → ℝ} (h : det4 q ≠ 0) {i j k : Fin 4} (hij : i ≠ j) (hik : i ≠ k) (hjk : j ≠ k)
    {n : Fin 3 → ℝ} (hn : n ≠ 0) {d : ℝ} (hi : n ⬝ᵥ q i = d) (hj : n ⬝ᵥ q j = d) (hk : n ⬝ᵥ q k = d)
    {Z : Fin 3 → ℝ} (hZ : n ⬝ᵥ Z = d) : ∃ s t : ℝ, Z = q i + s • (q j - q i) + t • (q k - q i) := by
  obtain ⟨l, hil, hjl, hkl⟩ := exists_fourth i j k
  let φ : (Fin 3 → ℝ) →ₗ[ℝ] ℝ := dotProductBilin ℝ ℝ n
  have hφ : ∀ x, φ x = n ⬝ᵥ x := fun x => rfl
  have hl : φ (q l) ≠ d := by
    intro hl
    have : φ = 0 := lin_const h (c := d) fun m => by
      rcases perm_cover hij hik hjk hil hjl hkl m with rfl | rfl | rfl | rfl
      · exact hi
      · exact hj
      · exact hk
      · exact hl
    apply hn
    rw [← dotProduct_self_eq_zero, ← hφ, this, LinearMap.zero_apply]
  have e1 := lin_bc h φ Z
  have s1 := (bc_spec h Z).1
  rw [sum_perm hij hik hjk hil hjl hkl] at e1 s1
  rw [hφ Z, hZ, hφ (q i), hi, hφ (q j), hj, hφ (q k), hk] at e1
  have hz : bc q Z l = 0 := by
    have : bc q Z l * (φ (q l) - d) = 0 := by linear_combination -d * s1 - e1
    exact (mul_eq_zero.1 this).resolve_right (sub_ne_zero.2 hl)
  refine ⟨bc q Z j, bc q Z k, ?_⟩
  ext c
  have e2 := congrFun (bc_spec h Z).2 c
  rw [Finset.sum_apply, sum_perm hij hik hjk hil hjl hkl] at e2
  simp only [Pi.smul_apply, smul_eq_mul, Pi.add_apply, Pi.sub_apply] at e2 ⊢
  rw [e2]
  rw [hz] at s1 ⊢
  linear_combination (q i c) * s1

theorem det4_injective {q : Fin 4 → Fin 3 → ℝ} (h : det4 q ≠ 0) : Function.Injective q := by
  intro i j hij
  by_contra hne
  have e := congrArg (fun x => bc q x i) hij
  simp only [bc_corner h, Pi.single_eq_same, Pi.single_eq_of_ne hne] at e
  exact one_ne_zero e

/-- The flag of an extreme corner, with planes: no other tetrahedron has `V`, `W` and a point of the plane of the face
among its corners. -/
theorem flag_plane {ι : Type} [Finite ι] {q : ι → Fin 4 → Fin 3 → ℝ} (hdet : ∀ a, det4 (q a) ≠ 0)
    (hno : ∀ a b, a ≠ b → interior (solid (q a)) ∩ interior (solid (q b)) = ∅) {V : Fin 3 → ℝ}
    {f : (Fin 3 → ℝ) →ₗ[ℝ] ℝ} (hf : ∀ a i, q a i ≠ V → f V < f (q a i)) {a0 : ι} {i0 : Fin 4} (h0 : q a0 i0 = V) :
    ∃ a, ∃ i j k : Fin 4, i ≠ j ∧ i ≠ k ∧ j ≠ k ∧ q a i = V ∧
      ∀ b i' j' k', i' ≠ j' → i' ≠ k' → j' ≠ k' → q b i' = V → q b j' = q a j →
        ∀ n : Fin 3 → ℝ, n ≠ 0 → ∀ d, n ⬝ᵥ q a i = d → n ⬝ᵥ q a j = d → n ⬝ᵥ q a k = d → n ⬝ᵥ q b k' = d →
        b = a ∧ i' = i ∧ j' = j ∧ k' = k := by
  obtain ⟨a, i, j, k, hij, hik, hjk, hV, huniq⟩ := flag_face hdet hno hf h0
  refine ⟨a, i, j, k, hij, hik, hjk, hV, fun b i' j' k' h1 h2 h3 hb1 hb2 n hn d e1 e2 e3 e4 => ?_⟩
  have hs := plane_span (hdet a) hij hik hjk hn e1 e2 e3 e4
  rw [hV] at hs
  obtain ⟨rfl, rfl⟩ := huniq b i' j' k' h1 h2 h3 hb1 hb2 hs
  exact ⟨rfl, det4_injective (hdet b) (hb1.trans hV.symm), det4_injective (hdet b) hb2, rfl⟩

/-- A plane through three points. -/
theorem exists_plane (a b c : Fin 3 → ℝ) : ∃ n : Fin 3 → ℝ, n ≠ 0 ∧ ∃ d, n ⬝ᵥ a = d ∧ n ⬝ᵥ b = d ∧ n ⬝ᵥ c = d := by
  obtain ⟨n, hn, h1, h2⟩ := exists_dir (dotProductBilin ℝ ℝ (b - a)) (dotProductBilin ℝ ℝ (c - a))
  change (b - a) ⬝ᵥ n = 0 at h1
  change (c - a) ⬝ᵥ n = 0 at h2
  rw [sub_dotProduct] at h1 h2
  refine ⟨n, hn, n ⬝ᵥ a, rfl, ?_, ?_⟩
  · rw [dotProduct_comm n b, dotProduct_comm n a]; linarith
  · rw [dotProduct_comm n c, dotProduct_comm n a]; linarith

/-- The tetrahedron over a triangle with apex `P`. -/
def cone (P : Fin 3 → ℝ) (T : Fin 3 → Fin 3 → ℝ) : Fin 4 → Fin 3 → ℝ := ![P, T 0, T 1, T 2]

theorem cone_zero (P : Fin 3 → ℝ) (T : Fin 3 → Fin 3 → ℝ) : cone P T 0 = P := rfl
theorem cone_succ (P : Fin 3 → ℝ) (T : Fin 3 → Fin 3 → ℝ) (i : Fin 3) : cone P T i.succ = T i := by
  fin_cases i <;> rfl

/-- A triangle that is not degenerate. -/
def Proper (T : Fin 3 → Fin 3 → ℝ) : Prop := crossProduct (T 1 - T 0) (T 2 - T 0) ≠ 0

theorem det4_cone {T : Fin 3 → Fin 3 → ℝ} (hT : Proper T) {n : Fin 3 → ℝ} {d : ℝ}
    (hd : ∀ i, n ⬝ᵥ T i = d) {P : Fin 3 → ℝ} (hP : n ⬝ᵥ P ≠ d) : det4 (cone P T) ≠ 0 := by
  intro h0
  apply hT
  set u := T 1 - T 0 with hu
  set v := T 2 - T 0 with hv
  set w := P - T 0 with hw
  have nu : n ⬝ᵥ u = 0 := by rw [hu, dotProduct_sub, hd, hd, sub_self]
  have nv : n ⬝ᵥ v = 0 := by rw [hv, dotProduct_sub, hd, hd, sub_self]
  have nw : n ⬝ᵥ w ≠ 0 := by rw [hw, dotProduct_sub, hd]; exact sub_ne_zero.2 hP
  have hc : crossProduct u v ⬝ᵥ w = 0 := by
    have : crossProduct u v ⬝ᵥ w = -det4 (cone P T) := by
      rw [det4_eq]
      simp only [hu, hv, hw, cone, cross_apply, vec3_dotProduct, Pi.sub_apply, Matrix.cons_val_zero, Matrix.cons_val_one,
        Matrix.cons_val]
      ring
    rw [this, h0, neg_zero]
  clear_value u v w
  have key : (n ⬝ᵥ w) • crossProduct u v = 0 := by
    have e : (n ⬝ᵥ w) • crossProduct u v = (crossProduct u v ⬝ᵥ w) • n + (n ⬝ᵥ u) • crossProduct w v
        - (n ⬝ᵥ v) • crossProduct w u := by
      ext c
      fin_cases c <;>
      · simp only [cross_apply, vec3_dotProduct, Pi.sub_apply, Pi.add_apply, Pi.smul_apply, smul_eq_mul, Fin.zero_eta, Fin.mk_one,
          Fin.reduceFinMk, Matrix.cons_val_zero, Matrix.cons_val_one, Matrix.cons_val]
        ring
    rw [e, hc, nu, nv]
    simp
  exact (smul_eq_zero.1 key).resolve_left nw

/-- Triangles in one plane that do not overlap have cones that do not overlap. -/
theorem cone_disjoint {S T : Fin 3 → Fin 3 → ℝ} (hS : Proper S) (hT : Proper T) {n : Fin 3 → ℝ} {d : ℝ}
    (hdS : ∀ i, n ⬝ᵥ S i = d) (hdT : ∀ i, n ⬝ᵥ T i = d) {P : Fin 3 → ℝ} (hP : n ⬝ᵥ P ≠ d)
    (hno : inside S ∩ inside T = ∅) : interior (solid (cone P S)) ∩ interior (solid (cone P T)) = ∅ := by
  rw [Set.eq_empty_iff_forall_notMem] at hno ⊢
  rintro x ⟨h1, h2⟩
  have dS := det4_cone hS hdS hP
  have dT := det4_cone hT hdT hP
  have p1 := (interior_bc dS).1 h1
  have p2 := (interior_bc dT).1 h2
  have b1 := bc_spec dS x
  have b2 := bc_spec dT x
  revert p1 p2 b1 b2
  generalize bc (cone P S) x = a
  generalize bc (cone P T) x = b
  intro p1 p2 b1 b2
  obtain ⟨s1, e1⟩ := b1
  obtain ⟨s2, e2⟩ := b2
  have split : ∀ {T : Fin 3 → Fin 3 → ℝ} {a : Fin 4 → ℝ}, ∑ i, a i • cone P T i = a 0 • P + ∑ i : Fin 3, a i.succ • T i := by
    intro T a
    rw [Fin.sum_univ_succ]
    simp only [cone_zero, cone_succ]
  rw [split] at e1 e2
  rw [Fin.sum_univ_succ] at s1 s2
  have height : ∀ {T : Fin 3 → Fin 3 → ℝ} {a : Fin 4 → ℝ}, (∀ i, n ⬝ᵥ T i = d) → a 0 + ∑ i : Fin 3, a i.succ = 1 →
      x = a 0 • P + ∑ i : Fin 3, a i.succ • T i → n ⬝ᵥ x = d + a 0 * (n ⬝ᵥ P - d) := by
    intro T a hd hs he
    rw [he, dotProduct_add, dotProduct_smul, Fin.sum_univ_three, dotProduct_add, dotProduct_add, dotProduct_smul,
      dotProduct_smul, dotProduct_smul, hd, hd, hd]
    rw [Fin.sum_univ_three] at hs
    simp only [smul_eq_mul]
    linear_combination d * hs
  have hab : a 0 = b 0 := by
    have := (height hdS s1 e1).symm.trans (height hdT s2 e2)
    have : (a 0 - b 0) * (n ⬝ᵥ P - d) = 0 := by linear_combination this
    exact sub_eq_zero.1 ((mul_eq_zero.1 this).resolve_right (sub_ne_zero.2 hP))
  have hlt : 0 < 1 - a 0 := by
    rw [← s1, add_sub_cancel_left]
    exact Finset.sum_pos (fun i _ => p1 _) Finset.univ_nonempty
  have member : ∀ {T : Fin 3 → Fin 3 → ℝ} {b : Fin 4 → ℝ}, b 0 = a 0 → (∀ i, 0 < b i) → b 0 + ∑ i : Fin 3, b i.succ = 1 →
      x = b 0 • P + ∑ i : Fin 3, b i.succ • T i → (1 - a 0)⁻¹ • (x - a 0 • P) ∈ inside T := by
    intro T b h0 hp hs he
    refine ⟨fun i => (1 - a 0)⁻¹ * b i.succ, ⟨?_, ?_⟩, fun i => mul_pos (inv_pos.2 hlt) (hp _)⟩
    · rw [← Finset.mul_sum, ← h0, eq_sub_of_add_eq' hs, h0]
      exact inv_mul_cancel₀ hlt.ne'
    · rw [he, h0, add_sub_cancel_left, Finset.smul_sum]
      exact Finset.sum_congr rfl fun i _ => smul_smul _ _ _
  exact hno _ ⟨member rfl p1 s1 e1, member hab.symm p2 s2 e2⟩

theorem corners_finite {ι : Type} [Finite ι] (T : ι → Fin 3 → Fin 3 → ℝ) : {x | ∃ a i, T a i = x}.Finite := by
  have : {x | ∃ a i, T a i = x} = Set.range fun y : ι × Fin 3 => T y.1 y.2 := by
    ext x; simp
  rw [this]
  exact Set.finite_range _

/-- Coplanar triangles that do not overlap: at every extreme corner there is a side that belongs to one of them only. -/
theorem lone_side_at {ι : Type} [Finite ι] {T : ι → Fin 3 → Fin 3 → ℝ} (hT : ∀ a, Proper (T a))
    {n : Fin 3 → ℝ} (hn : n ≠ 0) {d : ℝ} (hd : ∀ a i, n ⬝ᵥ T a i = d)
    (hno : ∀ a b, a ≠ b → inside (T a) ∩ inside (T b) = ∅) {V : Fin 3 → ℝ}
    {f : (Fin 3 → ℝ) →ₗ[ℝ] ℝ} (hf : ∀ a i, T a i ≠ V → f V < f (T a i)) {a0 : ι} {i0 : Fin 3} (h0 : T a0 i0 = V) :
    ∃ a, ∃ x y : Fin 3, x ≠ y ∧ T a x = V ∧ ∀ b x' y', T b x' = T a x → T b y' = T a y → b = a := by
  have hnn : n ⬝ᵥ n ≠ 0 := fun h => hn (dotProduct_self_eq_zero.1 h)
  set P := V + n with hPdef
  have hVd : n ⬝ᵥ V = d := by rw [← h0]; exact hd _ _
  have hPd : n ⬝ᵥ P = d + n ⬝ᵥ n := by rw [hPdef, dotProduct_add, hVd]
  have hP : n ⬝ᵥ P ≠ d := by rw [hPd]; simpa using hnn
  set t := (f V - f P) / (n ⬝ᵥ n) + 1 with ht
  have hnp : 0 < n ⬝ᵥ n := lt_of_le_of_ne (Finset.sum_nonneg fun i _ => mul_self_nonneg _) (Ne.symm hnn)
  have hVP : f V + t * d < f P + t * (d + n ⬝ᵥ n) := by
    have : t * (n ⬝ᵥ n) = f V - f P + n ⬝ᵥ n := by rw [ht]; field_simp
    nlinarith
  obtain ⟨a, i, j, k, hij, hik, hjk, hiV, huniq⟩ := flag_plane (q := fun a => cone P (T a))
    (fun a => det4_cone (hT a) (hd a) hP) (fun a b hab => cone_disjoint (hT a) (hT b) (hd a) (hd b) hP (hno a b hab))
    (V := V) (f := f + t • dotProductBilin ℝ ℝ n) (by
      intro a i hne
      change f V + t * (n ⬝ᵥ V) < f _ + t * (n ⬝ᵥ _)
      rw [hVd]
      refine Fin.cases ?_ (fun i => ?_) i (motive := fun i => cone P (T a) i ≠ V →
        f V + t * d < f (cone P (T a) i) + t * (n ⬝ᵥ cone P (T a) i)) hne
      · intro _
        rw [cone_zero, hPd]
        exact hVP
      · intro hne
        rw [cone_succ] at hne ⊢
        rw [hd]
        have := hf a i hne
        linarith) (a0 := a0) (i0 := i0.succ) ((cone_succ _ _ _).trans h0)
  have hinj : ∀ b, Function.Injective (T b) := by
    intro b x y hxy
    have := det4_injective (det4_cone (hT b) (hd b) hP) (((cone_succ P (T b) x).trans hxy).trans (cone_succ P (T b) y).symm)
    exact Fin.succ_injective _ this
  have hi0 : i ≠ 0 := by
    rintro rfl
    rw [cone_zero] at hiV
    exact hP (hiV ▸ hVd)
  obtain ⟨x, rfl⟩ := Fin.exists_succ_eq.2 hi0
  rw [cone_succ] at hiV
  have nez : ∀ x : Fin 3, x.succ ≠ 0 := fun x => Fin.succ_ne_zero x
  have ne : ∀ {b : ι} {x' y' : Fin 3} {x y : Fin 3}, x.succ ≠ y.succ → T b x' = T a x → T b y' = T a y → x' ≠ y' := by
    rintro b x' y' x y hxy h1 h2 rfl
    exact hxy (congrArg Fin.succ (hinj a (h1.symm.trans h2)))
  by_cases hj0 : j = 0
  · subst hj0
    obtain ⟨y, rfl⟩ := Fin.exists_succ_eq.2 hjk.symm
    refine ⟨a, x, y, fun h => hik (h ▸ rfl), hiV, fun b x' y' h1 h2 => ?_⟩
    obtain ⟨m, hm, e, h3, h4, h5⟩ := exists_plane (T a x) P (T a y)
    have hne := ne hik h1 h2
    refine (huniq b x'.succ 0 y'.succ (nez _) (fun h => hne (Fin.succ_injective _ h)) (nez _).symm
      ((cone_succ _ _ _).trans (h1.trans hiV)) rfl m hm e ?_ h4 ?_ ?_).1
    · rw [cone_succ]; exact h3
    · rw [cone_succ]; exact h5
    · rw [cone_succ, h2]; exact h5
  · obtain ⟨y, rfl⟩ := Fin.exists_succ_eq.2 hj0
    refine ⟨a, x, y, fun h => hij (h ▸ rfl), hiV, fun b x' y' h1 h2 => ?_⟩
    have hne := ne hij h1 h2
    by_cases hk0 : k = 0
    · subst hk0
      obtain ⟨m, hm, e, h3, h4, h5⟩ := exists_plane (T a x) (T a y) P
      refine (huniq b x'.succ y'.succ 0 (fun h => hne (Fin.succ_injective _ h)) (nez _) (nez _)
        ((cone_succ _ _ _).trans (h1.trans hiV)) ((cone_succ _ _ _).trans (h2.trans (cone_succ _ _ _).symm)) m hm e ?_ ?_ h5 h5).1
      · rw [cone_succ]; exact h3
      · rw [cone_succ]; exact h4
    · obtain ⟨u, rfl⟩ := Fin.exists_succ_eq.2 hk0
      obtain ⟨u', h3, h4⟩ : ∃ u', x' ≠ u' ∧ y' ≠ u' := by clear h1 h2 hne; revert x' y'; decide
      refine (huniq b x'.succ y'.succ u'.succ (fun h => hne (Fin.succ_injective _ h))
        (fun h => h3 (Fin.succ_injective _ h)) (fun h => h4 (Fin.succ_injective _ h))
        ((cone_succ _ _ _).trans (h1.trans hiV)) ((cone_succ _ _ _).trans (h2.trans (cone_succ _ _ _).symm)) n hn d
        ?_ ?_ ?_ ?_).1 <;> rw [cone_succ] <;> exact hd _ _

/-- Coplanar triangles that do not overlap have a side that belongs to one of them only. -/
theorem lone_side {ι : Type} [Finite ι] [Nonempty ι] {T : ι → Fin 3 → Fin 3 → ℝ} (hT : ∀ a, Proper (T a))
    {n : Fin 3 → ℝ} (hn : n ≠ 0) {d : ℝ} (hd : ∀ a i, n ⬝ᵥ T a i = d)
    (hno : ∀ a b, a ≠ b → inside (T a) ∩ inside (T b) = ∅) :
    ∃ a, ∃ x y : Fin 3, x ≠ y ∧ ∀ b x' y', T b x' = T a x → T b y' = T a y → b = a := by
  obtain ⟨z⟩ := ‹Nonempty ι›
  obtain ⟨V, hV⟩ := (Set.Finite.isCompact_convexHull (𝕜 := ℝ) (corners_finite T)).extremePoints_nonempty
    ((convexHull_nonempty_iff (𝕜 := ℝ)).2 ⟨_, z, 0, rfl⟩)
  obtain ⟨⟨a0, i0, h0⟩, f, hf⟩ := exists_min (corners_finite T) hV
  obtain ⟨a, x, y, h1, -, h2⟩ := lone_side_at hT hn hd hno (fun a i hne => hf _ ⟨a, i, rfl⟩ hne) h0
  exact ⟨a, x, y, h1, h2⟩

/-- Two planes through a triangle are equal. -/
theorem plane_unique {T : Fin 3 → Fin 3 → ℝ} {n : Fin 3 → ℝ} (hn : n ≠ 0) {d : ℝ} (hd : ∀ i, n ⬝ᵥ T i = d)
    {x : Fin 3 → ℝ} (hx : n ⬝ᵥ x = d) : crossProduct (T 1 - T 0) (T 2 - T 0) ⬝ᵥ (x - T 0) = 0 := by
  set u := T 1 - T 0 with hu
  set v := T 2 - T 0 with hv
  set w := x - T 0 with hw
  have nu : n ⬝ᵥ u = 0 := by rw [hu, dotProduct_sub, hd, hd, sub_self]
  have nv : n ⬝ᵥ v = 0 := by rw [hv, dotProduct_sub, hd, hd, sub_self]
  have nw : n ⬝ᵥ w = 0 := by rw [hw, dotProduct_sub, hd, hx, sub_self]
  clear_value u v w
  have e : (crossProduct u v ⬝ᵥ w) • n = (n ⬝ᵥ w) • crossProduct u v - (n ⬝ᵥ u) • crossProduct w v
      + (n ⬝ᵥ v) • crossProduct w u := by
    ext c
    fin_cases c <;>
    · simp only [cross_apply, vec3_dotProduct, Pi.sub_apply, Pi.add_apply, Pi.smul_apply, smul_eq_mul, Fin.zero_eta, Fin.mk_one,
        Fin.reduceFinMk, Matrix.cons_val_zero, Matrix.cons_val_one, Matrix.cons_val]
      ring
  rw [nu, nv, nw] at e
  simp only [zero_smul, sub_zero, add_zero] at e
  exact (smul_eq_zero.1 e).resolve_right hn

/-- A face of a tetrahedron that is not flat is not degenerate. -/
theorem proper_face {q : Fin 4 → Fin 3 → ℝ} (h : det4 q ≠ 0) (l : Fin 4) : Proper fun i => q (l.succAbove i) := by
  intro h0
  apply h
  have key : det4 q = crossProduct (q (l.succAbove 1) - q (l.succAbove 0)) (q (l.succAbove 2) - q (l.succAbove 0)) ⬝ᵥ
      (q l - q (l.succAbove 0)) * ![-1, 1, -1, 1] l := by
    have sa : ((0 : Fin 4).succAbove 0 = 1 ∧ (0 : Fin 4).succAbove 1 = 2 ∧ (0 : Fin 4).succAbove 2 = 3) ∧
        ((1 : Fin 4).succAbove 0 = 0 ∧ (1 : Fin 4).succAbove 1 = 2 ∧ (1 : Fin 4).succAbove 2 = 3) ∧
        ((2 : Fin 4).succAbove 0 = 0 ∧ (2 : Fin 4).succAbove 1 = 1 ∧ (2 : Fin 4).succAbove 2 = 3) ∧
        ((3 : Fin 4).succAbove 0 = 0 ∧ (3 : Fin 4).succAbove 1 = 1 ∧ (3 : Fin 4).succAbove 2 = 2) := by decide
    rw [det4_eq]
    fin_cases l <;>
    · simp only [cross_apply, vec3_dotProduct, Pi.sub_apply, Fin.zero_eta, Fin.mk_one, Fin.reduceFinMk,
        Matrix.cons_val_zero, Matrix.cons_val_one, Matrix.cons_val, sa]
      ring
  rw [key]
  change crossProduct _ _ = 0 at h0
  rw [h0, zero_dotProduct, zero_mul]

theorem Proper.injective {T : Fin 3 → Fin 3 → ℝ} (h : Proper T) : Function.Injective T := by
  have key : ∀ i j, i < j → T i ≠ T j := by
    intro i j hij e
    apply h
    fin_cases i <;> fin_cases j <;> first | exact absurd hij (by decide) | skip
    · change T 0 = T 1 at e
      rw [e, sub_self]; simp
    · change T 0 = T 2 at e
      rw [e, sub_self]; simp
    · change T 1 = T 2 at e
      rw [e, cross_self]
  intro i j e
  rcases lt_trichotomy i j with h1 | h1 | h1
  · exact absurd e (key i j h1)
  · exact h1
  · exact absurd e.symm (key j i h1)

end PyQC
