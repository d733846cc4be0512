import Verif.Props.Position
/-!
# C36–C38, C50: intersection of tetrahedra and objects, tetrahedralisation
-/
namespace PyQC
open Matrix Ico

/-! ## C36 -/

theorem combEF_mem (i j k l m : Fin 4) : ((i, j), (k, l, m)) ∈ combEF ↔ i < j ∧ k < l ∧ l < m := by
  revert i j k l m
  decide +kernel

theorem all_ofFn {n : Nat} (s : Simplex n) (f : Vec 6 → Bool) : (List.ofFn s).all f = true ↔ ∀ i, f (s i) = true := by
  rw [List.all_eq_true]
  constructor
  · intro h i; exact h _ ((List.mem_ofFn' _ _).mpr ⟨i, rfl⟩)
  · intro h v hv
    obtain ⟨i, rfl⟩ := (List.mem_ofFn' _ _).mp hv
    exact h i

theorem allInside_iff (s t : Simplex 4) : ((List.ofFn s).all fun v => insideTau v t) = true ↔
    AllAccepted (Package.ico.perps s) (Package.ico.perps t) := by
  rw [all_ofFn]
  exact forall_congr' fun i => C32_perp _ _

theorem hits_iff (s t : Simplex 4) (i j k l m : Fin 4) :
    segmentMeetsTriangleTau (segmentOf s (i, j)) (surfaceOf t (k, l, m)) = true ↔
      Hits (Package.ico.perps s i) (Package.ico.perps s j) (Package.ico.perps t k) (Package.ico.perps t l)
        (Package.ico.perps t m) := C33_perp (segmentOf s (i, j)) (surfaceOf t (k, l, m))

theorem anyCross_iff (s t : Simplex 4) : (combEF.any fun c => segmentMeetsTriangleTau (segmentOf s c.1) (surfaceOf t c.2) ||
      segmentMeetsTriangleTau (segmentOf t c.1) (surfaceOf s c.2)) = true ↔
    EdgeHitsFace (Package.ico.perps s) (Package.ico.perps t) ∨ EdgeHitsFace (Package.ico.perps t) (Package.ico.perps s) := by
  have hm := combEF_mem
  generalize combEF = L at hm
  rw [List.any_eq_true]
  constructor
  · rintro ⟨⟨⟨i, j⟩, ⟨k, l, m⟩⟩, hc, h⟩
    obtain ⟨h1, h2, h3⟩ := (hm i j k l m).1 hc
    rcases (Bool.or_eq_true _ _).mp h with h | h
    · exact .inl ⟨i, j, k, l, m, h1, h2, h3, (hits_iff s t i j k l m).1 h⟩
    · exact .inr ⟨i, j, k, l, m, h1, h2, h3, (hits_iff t s i j k l m).1 h⟩
  · rintro (⟨i, j, k, l, m, h1, h2, h3, h⟩ | ⟨i, j, k, l, m, h1, h2, h3, h⟩)
    · exact ⟨((i, j), (k, l, m)), (hm i j k l m).2 ⟨h1, h2, h3⟩,
        (Bool.or_eq_true _ _).mpr (.inl ((hits_iff s t i j k l m).2 h))⟩
    · exact ⟨((i, j), (k, l, m)), (hm i j k l m).2 ⟨h1, h2, h3⟩,
        (Bool.or_eq_true _ _).mpr (.inr ((hits_iff t s i j k l m).2 h))⟩

theorem code_cases {b1 b2 b3 : Bool} {P1 P2 P3 P4 : Prop} (h1 : b1 = true ↔ P1) (h2 : b2 = true ↔ P2)
    (h3 : b3 = true ↔ P3 ∨ P4) :
    let r := if b1 then 1 else if b2 then 2 else if b3 then 3 else 0
    (r = 1 ↔ P1) ∧ (r = 2 ↔ ¬ P1 ∧ P2) ∧ (r = 3 ↔ ¬ P1 ∧ ¬ P2 ∧ (P3 ∨ P4)) ∧
      (r = 0 ↔ ¬ P1 ∧ ¬ P2 ∧ ¬ P3 ∧ ¬ P4) := by
  rw [← h1, ← h2, ← h3, ← not_or, ← h3]
  cases b1 <;> cases b2 <;> cases b3 <;> simp

/-- C36: the code is 1 exactly when every corner of the first tetrahedron is accepted by the second, 2 exactly when that
fails and the converse holds, 3 exactly when both fail and some edge of one hits some face of the other, and 0 exactly
in the remaining case. -/
theorem C36_codes (s t : Simplex 4) :
    let S := Package.ico.perps s
    let T := Package.ico.perps t
    (checkTwoTetrahedra s t = 1 ↔ AllAccepted S T) ∧
    (checkTwoTetrahedra s t = 2 ↔ ¬ AllAccepted S T ∧ AllAccepted T S) ∧
    (checkTwoTetrahedra s t = 3 ↔ ¬ AllAccepted S T ∧ ¬ AllAccepted T S ∧ (EdgeHitsFace S T ∨ EdgeHitsFace T S)) ∧
    (checkTwoTetrahedra s t = 0 ↔ ¬ AllAccepted S T ∧ ¬ AllAccepted T S ∧ ¬ EdgeHitsFace S T ∧ ¬ EdgeHitsFace T S) := by
  exact code_cases (allInside_iff s t) (allInside_iff t s) (anyCross_iff s t)

/-- C36: when the code is 1 every point of the first tetrahedron is in the second up to 10⁻⁶/2; when it is 2 the converse
holds. -/
theorem C36_contained (s t : Simplex 4) (x : Fin 3 → ℝ) :
    (checkTwoTetrahedra s t = 1 → x ∈ convexHull ℝ (Set.range (Package.ico.perps s)) →
      NearSolid (1 / 10 ^ 6 / 2) (Package.ico.perps t) x) ∧
    (checkTwoTetrahedra s t = 2 → x ∈ convexHull ℝ (Set.range (Package.ico.perps t)) →
      NearSolid (1 / 10 ^ 6 / 2) (Package.ico.perps s) x) := by
  obtain ⟨h1, h2, -, -⟩ := C36_codes s t
  constructor
  · intro h hx
    exact solid_near (fun i => C32_near _ _ ((C32_exact _ _).2 (h1.1 h i))) hx
  · intro h hx
    exact solid_near (fun i => C32_near _ _ ((C32_exact _ _).2 ((h2.1 h).2 i))) hx

/-- C36: a tetrahedron contained in a tetrahedron of non-zero volume gets the code 1. -/
theorem C36_subset (s t : Simplex 4) (ht : tetVol (Package.ico.perps t) ≠ 0)
    (h : convexHull ℝ (Set.range (Package.ico.perps s)) ⊆ convexHull ℝ (Set.range (Package.ico.perps t))) :
    checkTwoTetrahedra s t = 1 :=
  (C36_codes s t).1.2 fun i => (C32_exact _ _).1 (C32_complete _ _ ht (h (subset_convexHull ℝ _ ⟨i, rfl⟩)))

/-- Two crossing tetrahedra inscribed in the cube with half side `1/n`. -/
def exStarA (n : Int) : Simplex 4 := ![cart 1 1 1 n, cart 1 (-1) (-1) n, cart (-1) 1 (-1) n, cart (-1) (-1) 1 n]
/-- The opposite tetrahedron. -/
def exStarB (n : Int) : Simplex 4 :=
  ![cart (-1) (-1) (-1) n, cart (-1) 1 1 n, cart 1 (-1) 1 n, cart 1 1 (-1) n]

theorem perps_starA (n : Int) : Package.ico.perps (exStarA n) =
    ![![1 / (n : ℝ), 1 / n, 1 / n], ![1 / n, -1 / n, -1 / n], ![-1 / n, 1 / n, -1 / n], ![-1 / n, -1 / n, 1 / n]] := by
  funext i
  fin_cases i <;> exact (perp_cart _ _ _ _).trans (by simp)

theorem perps_starB (n : Int) : Package.ico.perps (exStarB n) =
    ![![-1 / (n : ℝ), -1 / n, -1 / n], ![-1 / n, 1 / n, 1 / n], ![1 / n, -1 / n, 1 / n], ![1 / n, 1 / n, -1 / n]] := by
  funext i
  fin_cases i <;> exact (perp_cart _ _ _ _).trans (by simp)

theorem bary_starA (n : Int) : IsBary (Package.ico.perps (exStarA n)) ![-1 / 2, 1 / 2, 1 / 2, 1 / 2]
    (Package.ico.perps (exStarB n) 0) := by
  rw [isBary_four, perps_starA, perps_starB]
  refine ⟨by simp; norm_num, fun j => ?_⟩
  fin_cases j <;> simp <;> ring

theorem bary_starB (n : Int) : IsBary (Package.ico.perps (exStarB n)) ![-1 / 2, 1 / 2, 1 / 2, 1 / 2]
    (Package.ico.perps (exStarA n) 0) := by
  rw [isBary_four, perps_starA, perps_starB]
  refine ⟨by simp; norm_num, fun j => ?_⟩
  fin_cases j <;> simp <;> ring

theorem not_allAccepted {s t : Fin 4 → Fin 3 → ℝ} (h : IsBary t ![-1 / 2, 1 / 2, 1 / 2, 1 / 2] (s 0)) :
    ¬ AllAccepted s t := by
  intro ha
  have h1 := C32_sound _ _ ((C32_exact _ _).2 (ha 0)) _ h 0
  simp at h1
  norm_num at h1

theorem small_det {a b c d e : Fin 3 → ℝ} (ha : ∀ i, |a i| ≤ 1 / 1000) (hb : ∀ i, |b i| ≤ 1 / 1000)
    (hc : ∀ i, |c i| ≤ 1 / 1000) (hd : ∀ i, |d i| ≤ 1 / 1000) (he : ∀ i, |e i| ≤ 1 / 1000) : ¬ Hits a b c d e := by
  rintro ⟨h, -⟩
  rw [Matrix.det_fin_three] at h
  simp only [Matrix.of_apply, Matrix.cons_val_zero, Matrix.cons_val_one, Matrix.cons_val, Pi.sub_apply] at h
  have key : ∀ {x y : Fin 3 → ℝ}, (∀ i, |x i| ≤ 1 / 1000) → (∀ i, |y i| ≤ 1 / 1000) → ∀ i, |x i - y i| ≤ 1 / 500 := by
    intro x y hx hy i
    have h1 := abs_le.1 (hx i)
    have h2 := abs_le.1 (hy i)
    rw [abs_le]
    constructor <;> linarith [h1.1, h1.2, h2.1, h2.2]
  have kab := key hb ha
  have kec := key he hc
  have kdc := key hd hc
  have prod : ∀ {x y z : ℝ}, |x| ≤ 1 / 500 → |y| ≤ 1 / 500 → |z| ≤ 1 / 500 → |x * y * z| ≤ 1 / 500 ^ 3 := by
    intro x y z hx hy hz
    rw [abs_mul, abs_mul]
    have := mul_le_mul hx hy (abs_nonneg _) (by norm_num)
    have := mul_le_mul this hz (abs_nonneg _) (by norm_num)
    refine this.trans ?_
    norm_num
  have p1 := abs_le.1 (prod (kab 0) (kec 1) (kdc 2))
  have p2 := abs_le.1 (prod (kab 0) (kec 2) (kdc 1))
  have p3 := abs_le.1 (prod (kab 1) (kec 0) (kdc 2))
  have p4 := abs_le.1 (prod (kab 1) (kec 2) (kdc 0))
  have p5 := abs_le.1 (prod (kab 2) (kec 0) (kdc 1))
  have p6 := abs_le.1 (prod (kab 2) (kec 1) (kdc 0))
  have : (1 : ℝ) / 10 ^ 6 ≤ 6 / 500 ^ 3 := by
    refine h.trans (abs_le.2 ⟨?_, ?_⟩) <;> linarith [p1.1, p1.2, p2.1, p2.2, p3.1, p3.2, p4.1, p4.2, p5.1, p5.2, p6.1, p6.2]
  norm_num at this

theorem star_small (i : Fin 4) (j : Fin 3) : |Package.ico.perps (exStarA 1000) i j| ≤ 1 / 1000 ∧
    |Package.ico.perps (exStarB 1000) i j| ≤ 1 / 1000 := by
  rw [perps_starA, perps_starB]
  fin_cases i <;> fin_cases j <;> simp [abs_div]

/-- C36, limit of the test: two tetrahedra of size 10⁻³ that both contain the origin in their interior get the code 0
("no intersection"), because every determinant is below the absolute tolerance. -/
theorem C36_zero_overlap : Simplex.Ok (exStarA 1000) ∧ Simplex.Ok (exStarB 1000) ∧
    IsBary (Package.ico.perps (exStarA 1000)) (fun _ => 1 / 4) 0 ∧
    IsBary (Package.ico.perps (exStarB 1000)) (fun _ => 1 / 4) 0 ∧ tetVol (Package.ico.perps (exStarA 1000)) ≠ 0 ∧
    tetVol (Package.ico.perps (exStarB 1000)) ≠ 0 ∧ checkTwoTetrahedra (exStarA 1000) (exStarB 1000) = 0 := by
  refine ⟨?_, ?_, ?_, ?_, ?_, ?_, ?_⟩
  · intro i; fin_cases i <;> exact cart_ok (by decide)
  · intro i; fin_cases i <;> exact cart_ok (by decide)
  · rw [isBary_four, perps_starA]
    refine ⟨by norm_num, fun j => ?_⟩
    fin_cases j <;> simp <;> norm_num
  · rw [isBary_four, perps_starB]
    refine ⟨by norm_num, fun j => ?_⟩
    fin_cases j <;> simp <;> norm_num
  · rw [tetVol_det4, det4_eq, perps_starA]
    simp
    norm_num
  · rw [tetVol_det4, det4_eq, perps_starB]
    simp
    norm_num
  · refine (C36_codes _ _).2.2.2.2 ⟨not_allAccepted (bary_starB 1000), not_allAccepted (bary_starA 1000), ?_, ?_⟩
    · rintro ⟨i, j, k, l, m, -, -, -, h⟩
      exact small_det (fun a => (star_small i a).1) (fun a => (star_small j a).1) (fun a => (star_small k a).2)
        (fun a => (star_small l a).2) (fun a => (star_small m a).2) h
    · rintro ⟨i, j, k, l, m, -, -, -, h⟩
      exact small_det (fun a => (star_small i a).2) (fun a => (star_small j a).2) (fun a => (star_small k a).1)
        (fun a => (star_small l a).1) (fun a => (star_small m a).1) h

/-- The same two tetrahedra of size 1 get the code 3. -/
theorem star_code : checkTwoTetrahedra (exStarA 1) (exStarB 1) = 3 := by
  refine (C36_codes _ _).2.2.1.2 ⟨not_allAccepted (bary_starB 1), not_allAccepted (bary_starA 1), .inl ?_⟩
  refine ⟨0, 1, 1, 2, 3, by decide, by decide, by decide, ?_⟩
  rw [perps_starA, perps_starB]
  refine ⟨?_, 1 / 2, 1 / 2, 1 / 2, ?_, ?_⟩
  · rw [Matrix.det_fin_three]
    simp
    norm_num
  · rw [meets_iff]
    intro j
    fin_cases j <;> simp
    norm_num
  · norm_num

example : checkTwoTetrahedra (exStarA 1) (exStarB 1) = 3 := star_code

/-! ## Points collected for two tetrahedra -/

/-- The crossing point of an edge of `s` with a face of `t`, as a list of at most one point. -/
noncomputable def crossPt (s t : Simplex 4) (c : (Fin 4 × Fin 4) × (Fin 4 × Fin 4 × Fin 4)) : List (Vec 6) :=
  match intersectionSegmentSurface (segmentOf s c.1) (surfaceOf t c.2) with
  | .ok v => v.toList
  | .error _ => []

theorem segmentOf_ok {s : Simplex 4} (hs : Simplex.Ok s) (e) : Simplex.Ok (segmentOf s e) := by
  intro i; fin_cases i <;> exact hs _

theorem surfaceOf_ok {s : Simplex 4} (hs : Simplex.Ok s) (f) : Simplex.Ok (surfaceOf s f) := by
  intro i; fin_cases i <;> exact hs _

theorem crossPt_eq {s t : Simplex 4} (hs : Simplex.Ok s) (ht : Simplex.Ok t) (c) :
    ∃ v, intersectionSegmentSurface (segmentOf s c.1) (surfaceOf t c.2) = .ok v ∧ crossPt s t c = v.toList := by
  unfold crossPt
  rcases C34_iff _ _ (segmentOf_ok hs c.1) (surfaceOf_ok ht c.2) with ⟨⟨r, h⟩, -⟩ | ⟨h, -⟩ <;>
    exact ⟨_, h, by rw [h]⟩

theorem crossingPoints_ok {s t : Simplex 4} (hs : Simplex.Ok s) (ht : Simplex.Ok t) :
    crossingPoints s t = .ok (combEF.flatMap fun c => crossPt s t c ++ crossPt t s c) := by
  unfold crossingPoints
  have : ∀ (l : List ((Fin 4 × Fin 4) × (Fin 4 × Fin 4 × Fin 4))) (acc : List (Vec 6)), foldPy (fun acc c => do
      let v ← intersectionSegmentSurface (segmentOf s c.1) (surfaceOf t c.2)
      let acc := acc ++ v.toList
      let w ← intersectionSegmentSurface (segmentOf t c.1) (surfaceOf s c.2)
      .ok (acc ++ w.toList)) acc l = .ok (acc ++ l.flatMap fun c => crossPt s t c ++ crossPt t s c) := by
    intro l
    induction l with
    | nil => intro acc; simp [foldPy]
    | cons c cs ih =>
      intro acc
      obtain ⟨v, hv, ev⟩ := crossPt_eq hs ht c
      obtain ⟨w, hw, ew⟩ := crossPt_eq ht hs c
      rw [foldPy]
      simp only [hv, hw, bind_ok']
      rw [ih, ← ev, ← ew, List.flatMap_cons, List.append_assoc, List.append_assoc, List.append_assoc]
  rw [this, List.nil_append]

theorem near_edge {q : Fin 4 → Fin 3 → ℝ} {δ : ℝ} (hδ : 0 ≤ δ) {i j : Fin 4} (hij : i ≠ j) {t : ℝ} (h1 : -δ ≤ t)
    (h2 : t ≤ 1 + δ) {x : Fin 3 → ℝ} (hx : x = q i + t • (q j - q i)) : NearSolid δ q x := by
  refine ⟨fun k => if k = i then 1 - t else if k = j then t else 0, ?_, ?_⟩
  · constructor
    · rw [Finset.sum_ite, Finset.filter_eq' _ i, if_pos (Finset.mem_univ i), Finset.sum_singleton, Finset.sum_ite,
        Finset.sum_const_zero, add_zero, Finset.filter_filter]
      rw [show (Finset.univ.filter fun k : Fin 4 => ¬ k = i ∧ k = j) = {j} from by
        ext k; simp only [Finset.mem_filter, Finset.mem_univ, true_and, Finset.mem_singleton]
        exact ⟨fun h => h.2, fun h => ⟨by rw [h]; exact hij.symm, h⟩⟩]
      simp
    · rw [hx]
      simp only [ite_smul, zero_smul]
      rw [Finset.sum_ite, Finset.filter_eq' _ i, if_pos (Finset.mem_univ i), Finset.sum_singleton, Finset.sum_ite,
        Finset.sum_const_zero, add_zero, Finset.filter_filter]
      rw [show (Finset.univ.filter fun k : Fin 4 => ¬ k = i ∧ k = j) = {j} from by
        ext k; simp only [Finset.mem_filter, Finset.mem_univ, true_and, Finset.mem_singleton]
        exact ⟨fun h => h.2, fun h => ⟨by rw [h]; exact hij.symm, h⟩⟩]
      rw [Finset.sum_singleton, sub_smul, one_smul, smul_sub]
      abel
  · intro k
    dsimp only
    split
    · linarith
    · split <;> linarith

theorem near_face {q : Fin 4 → Fin 3 → ℝ} {δ : ℝ} (hδ : 0 ≤ δ) {k l m : Fin 4} (hkl : k < l) (hlm : l < m) {u v : ℝ}
    (h1 : -δ ≤ u) (h2 : -δ ≤ v) (h3 : u + v ≤ 1 + δ) {x : Fin 3 → ℝ}
    (hx : x = q k + u • (q l - q k) + v • (q m - q k)) : NearSolid δ q x := by
  have hkl' := hkl.ne
  have hlm' := hlm.ne
  have hkm' := (hkl.trans hlm).ne
  refine ⟨Pi.single k (1 - u - v) + Pi.single l u + Pi.single m v, ⟨?_, ?_⟩, ?_⟩
  · simp [Finset.sum_add_distrib]
    ring
  · rw [hx]
    simp only [Pi.add_apply, add_smul, Finset.sum_add_distrib, Pi.single_apply, ite_smul, zero_smul, Finset.sum_ite_eq',
      Finset.mem_univ, if_true]
    rw [sub_smul, sub_smul, one_smul, smul_sub, smul_sub]
    abel
  · intro i
    simp only [Pi.add_apply, Pi.single_apply]
    by_cases a : i = k
    · subst a; rw [if_pos rfl, if_neg hkl', if_neg hkm']; linarith
    · by_cases b : i = l
      · subst b; rw [if_neg a, if_pos rfl, if_neg hlm']; linarith
      · by_cases c : i = m
        · subst c; rw [if_neg a, if_neg b, if_pos rfl]; linarith
        · rw [if_neg a, if_neg b, if_neg c]; linarith

theorem crossPt_near {s t : Simplex 4} (hs : Simplex.Ok s) (ht : Simplex.Ok t) {i j k l m : Fin 4} (hij : i < j)
    (hkl : k < l) (hlm : l < m) {v : Vec 6} (hv : v ∈ crossPt s t ((i, j), (k, l, m))) :
    Vec.Ok v ∧ NearSolid (1 / 10 ^ 6) (Package.ico.perps s) (Package.ico.perp v) ∧
      NearSolid (1 / 10 ^ 6) (Package.ico.perps t) (Package.ico.perp v) := by
  obtain ⟨o, ho, e⟩ := crossPt_eq hs ht ((i, j), (k, l, m))
  rw [e] at hv
  cases h : segmentMeetsTriangleTau (segmentOf s (i, j)) (surfaceOf t (k, l, m)) with
  | false =>
    have := segSurf_none h
    rw [ho] at this
    cases this
    simp at hv
  | true =>
    obtain ⟨r, a, u, w, hr, hc, -, h1, h2, ha1, ha2, hu1, -, hw1, huw⟩ := C34_point _ _ (segmentOf_ok hs (i, j))
      (surfaceOf_ok ht (k, l, m)) h
    rw [ho] at hr
    cases hr
    simp only [Option.toList_some, List.mem_singleton] at hv
    subst hv
    exact ⟨hc.ok, near_edge (by norm_num) hij.ne ha1 ha2 h1, near_face (by norm_num) hkl hlm hu1 hw1 huw h2⟩

theorem mem_crossing {s t : Simplex 4} {v : Vec 6} :
    (v ∈ combEF.flatMap fun c => crossPt s t c ++ crossPt t s c) ↔
      ∃ i j k l m : Fin 4, i < j ∧ k < l ∧ l < m ∧
        (v ∈ crossPt s t ((i, j), (k, l, m)) ∨ v ∈ crossPt t s ((i, j), (k, l, m))) := by
  have hm := combEF_mem
  generalize combEF = L at hm
  rw [List.mem_flatMap]
  constructor
  · rintro ⟨⟨⟨i, j⟩, ⟨k, l, m⟩⟩, hc, hv⟩
    obtain ⟨h1, h2, h3⟩ := (hm i j k l m).1 hc
    exact ⟨i, j, k, l, m, h1, h2, h3, List.mem_append.1 hv⟩
  · rintro ⟨i, j, k, l, m, h1, h2, h3, hv⟩
    exact ⟨((i, j), (k, l, m)), (hm i j k l m).2 ⟨h1, h2, h3⟩, List.mem_append.2 hv⟩

/-- The points collected by `intersection_two_tetrahedron_4`. -/
noncomputable def commonPts (s t : Simplex 4) : List (Vec 6) :=
  (combEF.flatMap fun c => crossPt s t c ++ crossPt t s c) ++ ((List.ofFn s).filter fun v => insideTau v t) ++
    ((List.ofFn t).filter fun v => insideTau v s)

theorem intersectionTwo_eq {s t : Simplex 4} (hs : Simplex.Ok s) (ht : Simplex.Ok t) (draws delaunay) :
    intersectionTwoTetrahedra draws delaunay s t = tetrahedralizeCommon draws delaunay (commonPts s t) := by
  unfold intersectionTwoTetrahedra
  rw [crossingPoints_ok hs ht, bind_ok']
  rfl

theorem near_corner {q : Fin 4 → Fin 3 → ℝ} {δ : ℝ} (hδ : 0 ≤ δ) (i : Fin 4) : NearSolid δ q (q i) := by
  refine ⟨Pi.single i 1, ⟨by simp, ?_⟩, fun k => ?_⟩
  · simp [Pi.single_apply, ite_smul]
  · rw [Pi.single_apply]; split <;> linarith

theorem near_mono {m : Nat} {q : Fin m → Fin 3 → ℝ} {δ δ' : ℝ} (h : δ ≤ δ') {x : Fin 3 → ℝ} (hx : NearSolid δ q x) :
    NearSolid δ' q x := by
  obtain ⟨w, hw, h0⟩ := hx
  exact ⟨w, hw, fun i => by have := h0 i; linarith⟩

theorem commonPts_near {s t : Simplex 4} (hs : Simplex.Ok s) (ht : Simplex.Ok t) {v : Vec 6} (hv : v ∈ commonPts s t) :
    Vec.Ok v ∧ NearSolid (1 / 10 ^ 6) (Package.ico.perps s) (Package.ico.perp v) ∧
      NearSolid (1 / 10 ^ 6) (Package.ico.perps t) (Package.ico.perp v) := by
  unfold commonPts at hv
  rw [List.mem_append, List.mem_append, mem_crossing, List.mem_filter, List.mem_filter] at hv
  rcases hv with (⟨i, j, k, l, m, h1, h2, h3, hv | hv⟩ | ⟨hv, h⟩) | ⟨hv, h⟩
  · exact crossPt_near hs ht h1 h2 h3 hv
  · obtain ⟨a, b, c⟩ := crossPt_near ht hs h1 h2 h3 hv
    exact ⟨a, c, b⟩
  · obtain ⟨i, rfl⟩ := (List.mem_ofFn' _ _).mp hv
    exact ⟨hs i, near_corner (q := Package.ico.perps s) (by norm_num) i,
      near_mono (by norm_num) (C32_near _ _ ((C32_exact _ _).2 ((C32_perp _ _).1 h)))⟩
  · obtain ⟨i, rfl⟩ := (List.mem_ofFn' _ _).mp hv
    exact ⟨ht i, near_mono (by norm_num) (C32_near _ _ ((C32_exact _ _).2 ((C32_perp _ _).1 h))),
      near_corner (q := Package.ico.perps t) (by norm_num) i⟩

/-! ## C50 -/

theorem getIdx_iff {α : Type} {l : List α} {i : Nat} {x : α} : getIdx l i = .ok x ↔ l[i]? = some x := by
  unfold getIdx
  cases h : l[i]? <;> simp

theorem pickSimplex_eq_ok {pts : List (Vec 6)} {i : Fin 4 → Nat} {t : Simplex 4} :
    pickSimplex pts i = .ok t ↔ ∀ k, pts[i k]? = some (t k) := by
  unfold pickSimplex
  rw [fillFin_eq_ok]
  exact forall_congr' fun k => getIdx_iff

/-- The simplices proposed by the library, as tetrahedra on the given points. -/
def proposed (pts : List (Vec 6)) (l : List (Fin 4 → Nat)) (h : ∀ i ∈ l, ∀ k, i k < pts.length) : Obj 4 :=
  l.attach.map fun i => fun k => pts[i.1 k]'(h i.1 i.2 k)

theorem keepSimplices_ok {pts : List (Vec 6)} (hp : ∀ v ∈ pts, Vec.Ok v) (l : List (Fin 4 → Nat))
    (h : ∀ i ∈ l, ∀ k, i k < pts.length) : ∃ r, keepSimplices pts l = .ok r ∧
      (∀ t, t ∈ r ↔ t ∈ proposed pts l h ∧ tetVol (Package.ico.perps t) ≠ 0) ∧ r.Sublist (proposed pts l h) ∧
      (r.map kvol).sum = ((proposed pts l h).map kvol).sum := by
  induction l with
  | nil => exact ⟨[], rfl, by simp [proposed], by simp [proposed], by simp [proposed]⟩
  | cons i l ih =>
    obtain ⟨r, hr, h1, h2, h3⟩ := ih fun j hj => h j (by simp [hj])
    have hk : ∀ k, i k < pts.length := h i (by simp)
    set t : Simplex 4 := fun k => pts[i k]'(hk k) with ht
    have hpick : pickSimplex pts i = .ok t := pickSimplex_eq_ok.2 fun k => List.getElem?_eq_getElem (hk k)
    have hok : Simplex.Ok t := fun k => hp _ (List.getElem_mem _)
    have hprop : proposed pts (i :: l) h = t :: proposed pts l fun j hj => h j (by simp [hj]) := by
      unfold proposed
      rw [List.attach_cons, List.map_cons, List.map_map]
      rfl
    have hz : (norm (kvol t)).a = 0 ∧ (norm (kvol t)).b = 0 ↔ kvol t = 0 := by
      rw [← kval_eq_zero (θ := Package.ico.theta) (norm_c _), kval_norm]
    have hv : kvol t = 0 ↔ tetVol (Package.ico.perps t) = 0 := by
      rw [← coe_kvol]; exact ZeroMemClass.coe_eq_zero.symm
    simp only [keepSimplices, hpick, bind_ok', tetrahedronVolume6d_ok hok, hr]
    rw [hprop]
    by_cases h0 : kvol t = 0
    · rw [if_pos (hz.2 h0)]
      refine ⟨r, rfl, fun x => ?_, h2.cons _, ?_⟩
      · rw [h1, List.mem_cons]
        constructor
        · rintro ⟨a, b⟩; exact ⟨.inr a, b⟩
        · rintro ⟨rfl | a, b⟩
          · exact absurd (hv.1 h0) b
          · exact ⟨a, b⟩
      · rw [List.map_cons, List.sum_cons, h0, zero_add, h3]
    · rw [if_neg (fun h => h0 (hz.1 h))]
      refine ⟨t :: r, rfl, fun x => ?_, h2.cons_cons _, ?_⟩
      · rw [List.mem_cons, List.mem_cons, h1]
        constructor
        · rintro (rfl | ⟨a, b⟩)
          · exact ⟨.inl rfl, fun h => h0 (hv.2 h)⟩
          · exact ⟨.inr a, b⟩
        · rintro ⟨rfl | a, b⟩
          · exact .inl rfl
          · exact .inr ⟨a, b⟩
      · rw [List.map_cons, List.sum_cons, List.map_cons, List.sum_cons, h3]

theorem kvol_sum_coe (o : Obj 4) : (((o.map kvol).sum : K Package.ico.theta) : ℝ) =
    (o.map fun t => tetVol (Package.ico.perps t)).sum := by
  induction o with
  | nil => simp
  | cons t o ih => rw [List.map_cons, List.sum_cons, List.map_cons, List.sum_cons, ← ih, ← coe_kvol]; rfl

/-- C50: for points with non-zero denominators and a library answer `l` whose vertex numbers are in range,
`tetrahedralization_points` returns the proposed tetrahedra of non-zero volume and no others, in order; their total volume
is that of all proposed simplices; it returns `None` exactly when all proposed simplices are flat. -/
theorem C50_tetrahedralization (delaunay : Delaunay) (pts : List (Vec 6)) (h0 : pts ≠ []) (hp : ∀ v ∈ pts, Vec.Ok v)
    (l : List (Fin 4 → Nat)) (hl : delaunay (pts.map Package.ico.perp) = some l)
    (h : ∀ i ∈ l, ∀ k, i k < pts.length) :
    let all : Obj 4 := l.attach.map fun i => fun k => pts[i.1 k]'(h i.1 i.2 k)
    (∃ r, tetrahedralizationPoints delaunay pts = .ok (some r) ∧ r ≠ [] ∧ r.Sublist all ∧
      (∀ t, t ∈ r ↔ t ∈ all ∧ tetVol (Package.ico.perps t) ≠ 0) ∧
      (r.map fun t => tetVol (Package.ico.perps t)).sum = (all.map fun t => tetVol (Package.ico.perps t)).sum) ∨
    tetrahedralizationPoints delaunay pts = .ok none ∧ ∀ t ∈ all, tetVol (Package.ico.perps t) = 0 := by
  intro all
  obtain ⟨r, hr, h1, h2, h3⟩ := keepSimplices_ok hp l h
  have e : tetrahedralizationPoints delaunay pts = if r.length ≠ 0 then .ok (some r) else .ok none := by
    unfold tetrahedralizationPoints
    match pts, h0 with
    | v :: vs, _ =>
      simp only
      rw [fillList_ok (g := Package.ico.perp) (fun v hv => by
        rw [show Ico.projection3 v = Package.ico.projection3 v from rfl, Package.ico.projection3_ok (hp v hv), bind_ok']
        exact congrArg Except.ok Package.ico.val_projection3), bind_ok', hl]
      simp only [hr, bind_ok']
  by_cases hr0 : r = []
  · right
    subst hr0
    refine ⟨by rw [e]; rfl, fun t ht => ?_⟩
    by_contra hv
    exact absurd ((h1 t).2 ⟨ht, hv⟩) (by simp)
  · left
    refine ⟨r, ?_, hr0, h2, h1, ?_⟩
    · rw [e, if_pos (by simpa using hr0)]
    · rw [← kvol_sum_coe, ← kvol_sum_coe, h3]
      rfl

/-- C50: when the library fails (it raises), the caller gets TypeError; an empty list of points raises
UnboundLocalError. -/
theorem C50_library_failure (delaunay : Delaunay) (pts : List (Vec 6)) (hp : ∀ v ∈ pts, Vec.Ok v) :
    (pts ≠ [] → delaunay (pts.map Package.ico.perp) = none → tetrahedralizationPoints delaunay pts = .error .typeError) ∧
    (pts = [] → tetrahedralizationPoints delaunay pts = .error .unboundLocalError) := by
  constructor
  · intro h0 hd
    unfold tetrahedralizationPoints
    match pts, h0 with
    | v :: vs, _ =>
      simp only
      rw [fillList_ok (g := Package.ico.perp) (fun v hv => by
        rw [show Ico.projection3 v = Package.ico.projection3 v from rfl, Package.ico.projection3_ok (hp v hv), bind_ok']
        exact congrArg Except.ok Package.ico.val_projection3), bind_ok', hd]
  · rintro rfl
    rfl

/-- C50, for every answer of the library whatsoever: returned pieces have their corners among the given points and
non-zero volume. -/
theorem C50_sound (delaunay : Delaunay) (pts : List (Vec 6)) (hp : ∀ v ∈ pts, Vec.Ok v) (r : Obj 4)
    (hr : tetrahedralizationPoints delaunay pts = .ok (some r)) :
    r ≠ [] ∧ ∀ t ∈ r, (∀ k, t k ∈ pts) ∧ tetVol (Package.ico.perps t) ≠ 0 := by
  have key : ∀ l r, keepSimplices pts l = .ok r → ∀ t ∈ r, (∀ k, t k ∈ pts) ∧ tetVol (Package.ico.perps t) ≠ 0 := by
    intro l
    induction l with
    | nil => intro r hr; cases hr; simp
    | cons i l ih =>
      intro r hr
      unfold keepSimplices at hr
      cases hpick : pickSimplex pts i with
      | error e => rw [hpick, bind_error'] at hr; cases hr
      | ok t =>
        have hmem : ∀ k, t k ∈ pts := fun k => List.mem_of_getElem? (pickSimplex_eq_ok.1 hpick k)
        have hok : Simplex.Ok t := fun k => hp _ (hmem k)
        rw [hpick, bind_ok', tetrahedronVolume6d_ok hok, bind_ok'] at hr
        cases hrest : keepSimplices pts l with
        | error e => rw [hrest, bind_error'] at hr; cases hr
        | ok r' =>
          rw [hrest, bind_ok'] at hr
          by_cases h0 : (norm (kvol t)).a = 0 ∧ (norm (kvol t)).b = 0
          · rw [if_pos h0] at hr
            cases hr
            exact ih _ hrest
          · rw [if_neg h0] at hr
            cases hr
            intro x hx
            rcases List.mem_cons.1 hx with rfl | hx
            · refine ⟨hmem, fun hv => h0 ?_⟩
              rw [← kval_eq_zero (θ := Package.ico.theta) (norm_c _), kval_norm]
              rw [← coe_kvol] at hv
              exact ZeroMemClass.coe_eq_zero.1 hv
            · exact ih _ hrest x hx
  unfold tetrahedralizationPoints at hr
  match pts, hp with
  | [], _ => cases hr
  | v :: vs, hp =>
    simp only at hr
    rw [fillList_ok (g := Package.ico.perp) (fun v hv => by
        rw [show Ico.projection3 v = Package.ico.projection3 v from rfl, Package.ico.projection3_ok (hp v hv), bind_ok']
        exact congrArg Except.ok Package.ico.val_projection3), bind_ok'] at hr
    cases hd : delaunay ((v :: vs).map Package.ico.perp) with
    | none => rw [hd] at hr; cases hr
    | some l =>
      rw [hd] at hr
      simp only at hr
      cases hk : keepSimplices (v :: vs) l with
      | error e => rw [hk, bind_error'] at hr; cases hr
      | ok r' =>
        rw [hk, bind_ok'] at hr
        by_cases h0 : r'.length ≠ 0
        · rw [if_pos h0] at hr
          cases hr
          exact ⟨by simpa using h0, key l r hk⟩
        · rw [if_neg h0] at hr
          cases hr

/-- Five points, two proposed simplices of which one is flat: one piece is returned. -/
example : ∃ r, tetrahedralizationPoints (fun _ => some [![0, 1, 2, 3], ![0, 1, 2, 4]])
      [cart 0 0 0 1, cart 1 0 0 1, cart 0 1 0 1, cart 0 0 1 1, cart 1 1 0 1] = .ok (some r) ∧ r = [exCorner] := by
  refine ⟨_, ?_, rfl⟩
  have hp : ∀ v ∈ [cart 0 0 0 1, cart 1 0 0 1, cart 0 1 0 1, cart 0 0 1 1, cart 1 1 0 1], Vec.Ok v := by
    decide
  unfold tetrahedralizationPoints
  simp only
  rw [fillList_ok (g := Package.ico.perp) (fun v hv => by
    rw [show Ico.projection3 v = Package.ico.projection3 v from rfl, Package.ico.projection3_ok (hp v hv), bind_ok']
    exact congrArg Except.ok Package.ico.val_projection3), bind_ok']
  decide +kernel

end PyQC
