import Verif.Spec.LawsRounded
import Verif.Props.LawsPlanar
import Verif.Props.HullRoundedPlanar
import Verif.Props.PlanarMeasureRounded
import Verif.Props.ReturnsPlanar
/-!
# C114 for flat objects (dode2): laws of the intersection computed with rounding
-/
namespace PyQC
open Matrix MeasureTheory Dode Planar Rounding

/-- What the results so far say about one run. -/
theorem RoundedRun2.spec {z : ℝ} {a b : Obj 3} {r : Option (Obj 3)} (h : RoundedRun2 z a b r) :
    Obj.Ok (r.getD []) ∧ Level z (r.getD []) ∧ NoOverlap2 z (r.getD []) ∧
      Almost (content2 z r) (slice z (Package.dode.region a ∩ Package.dode.region b)) ∧
      ∃ w, exactArea r = .ok (some w) ∧
        ENNReal.ofReal (w.val sin60) = volume (slice z (Package.dode.region a ∩ Package.dode.region b)) := by
  obtain ⟨F, R, kind, delaunay, h, hr⟩ := h
  obtain ⟨h1, h2⟩ := objects_area_rounded F h.scale1 h.scale2 kind h.tiles h.ok1 h.ok2 h.level1 h.level2 h.apart1 h.apart2 h.rounded hr
  cases r with
  | none =>
    have hz := h1 rfl
    refine ⟨fun s hs => by simp at hs, fun s hs => by simp at hs, List.Pairwise.nil, ⟨?_, ?_⟩, ⟨0, 0, 1⟩, ?_, ?_⟩
    · have : content2 z none = ∅ := Planar.region_nil
      simp [this]
    · exact measure_mono_null Set.sdiff_subset hz
    · rfl
    · rw [hz]; simp [Num3.val]
  | some o =>
    obtain ⟨ok, lv, w, hw, hv⟩ := h2 o rfl
    obtain ⟨h3, h4, h5⟩ := C112_exact_planar F h.scale1 h.scale2 kind delaunay a b z h.tiles h.ok1 h.ok2 h.level1 h.level2 h.apart1
      h.apart2 h.rounded o hr
    exact ⟨ok, lv, h3, ⟨h5, h4⟩, w, hw, hv.symm⟩

/-- Two runs whose arguments have almost the same common part. -/
theorem RoundedRun2.same {z z' : ℝ} {a b a' b' : Obj 3} {r r' : Option (Obj 3)} (h : RoundedRun2 z a b r) (h' : RoundedRun2 z' a' b' r')
    (e : volume (slice z (Package.dode.region a ∩ Package.dode.region b)) =
      volume (slice z' (Package.dode.region a' ∩ Package.dode.region b'))) : exactArea r = exactArea r' := by
  obtain ⟨o1, -, -, -, w, hw, hv⟩ := h.spec
  obtain ⟨o2, -, -, -, w', hw', hv'⟩ := h'.spec
  exact exact_area o1 o2 hw hw' (by rw [hv, hv', e])

/-- C114 (dode2): when every pair of triangles is resolved in spite of rounding, the call returns. -/
theorem C114_returns_planar (F : Float64) (R z : ℝ) (kind : Ico.Kind) (delaunay : Simplex 3 → Simplex 3 → Delaunay2) (a b : Obj 3)
    (h0 : b ≠ []) (h : RoundedObjects2 F R z delaunay a b) :
    ∃ r, F.dodeIntersectionApi kind delaunay (.d4 a) (.d4 b) = .ok r ∧ RoundedRun2 z a b r := by
  obtain ⟨r, hr, -⟩ := C111_objects F h.scale1 h.scale2 kind delaunay a b z
    (fun s hs t ht r pns x y w => (h.tiles s hs t ht r pns x y w).1) h0 h.ok1 h.ok2 h.level1 h.level2 h.rounded
  exact ⟨r, hr, F, R, kind, delaunay, h, hr⟩

/-- C114 (dode2): the exact area of an intersection, and what it covers up to area zero, do not depend on the
floating-point arithmetic, on the `kind`, or on how the library tiles convex hulls. -/
theorem C114_choices_planar (z : ℝ) (a b : Obj 3) (r r' : Option (Obj 3)) (h : RoundedRun2 z a b r) (h' : RoundedRun2 z a b r') :
    exactArea r = exactArea r' ∧ Almost (content2 z r) (content2 z r') :=
  ⟨h.same h' rfl, h.spec.2.2.2.1.trans h'.spec.2.2.2.1.symm⟩

/-- C114 (dode2): rounding does not change the outcome: when the tolerances do not matter for exact tests either, the
exact area and, up to area zero, the points covered are those found when all tests are computed with real numbers. -/
theorem C114_ideal_planar (z : ℝ) (a b : Obj 3) (r : Option (Obj 3)) (h : RoundedRun2 z a b r) (hx : ResolvedObjects2 z a b)
    (kind : Ico.Kind) (delaunay : Simplex 3 → Simplex 3 → Delaunay2) (hD : ∀ s t, TilesHull2 (delaunay s t)) :
    ∃ r', intersectionApi kind delaunay (.d4 a) (.d4 b) = .ok r' ∧ exactArea r = exactArea r' ∧
      Almost (content2 z r) (content2 z r') := by
  obtain ⟨o1, -, -, c, w, hw, hv⟩ := h.spec
  obtain ⟨r', hr', o2, -, -, c', w', hw', hv'⟩ := planar_result kind hD hx
  exact ⟨r', hr', exact_area o1 o2 hw hw' (by rw [hv, hv']), c.trans c'.symm⟩

/-- C114 (dode2): exchanging the two objects changes neither the exact area nor, up to area zero, what is covered. -/
theorem C114_exchange_planar (z : ℝ) (a b : Obj 3) (r r' : Option (Obj 3)) (h : RoundedRun2 z a b r) (h' : RoundedRun2 z b a r') :
    exactArea r = exactArea r' ∧ Almost (content2 z r) (content2 z r') := by
  have c := h'.spec.2.2.2.1
  rw [Set.inter_comm] at c
  exact ⟨h.same h' (by rw [Set.inter_comm]), h.spec.2.2.2.1.trans c.symm⟩

theorem RoundedRun2.motion {f : (Fin 3 → ℝ) → Fin 3 → ℝ} {g : (Fin 2 → ℝ) → Fin 2 → ℝ} {z z' : ℝ}
    (hf : FlatMotion f g z z') {φ : Simplex 3 → Simplex 3}
    (hφ : ∀ s i, Package.dode.perps (φ s) i = f (Package.dode.perps s i)) {a b : Obj 3} {r r' : Option (Obj 3)}
    (h : RoundedRun2 z a b r) (h' : RoundedRun2 z' (a.map φ) (b.map φ) r') :
    exactArea r = exactArea r' ∧ Almost (content2 z' r') (slice z' (Package.dode.region ((r.getD []).map φ))) := by
  have e : slice z' (Package.dode.region (a.map φ) ∩ Package.dode.region (b.map φ)) =
      g '' slice z (Package.dode.region a ∩ Package.dode.region b) := by
    rw [region_motion hf.motion hφ, region_motion hf.motion hφ, ← Set.image_inter hf.motion.injective, hf.slice]
  refine ⟨h.same h' (by rw [e, hf.volume]), ?_⟩
  have c' := h'.spec.2.2.2.1
  rw [e] at c'
  rw [region_motion hf.motion hφ, hf.slice]
  exact c'.trans (h.spec.2.2.2.1.symm.flat hf)

/-- C114 (dode2): applying a symmetry operation of the dodecagonal group about a centre to both objects applies it to their
intersection. -/
theorem C114_symmetry_planar (z : ℝ) (a b : Obj 3) (r : Option (Obj 3)) (h : RoundedRun2 z a b r) (op : IMat 6 6)
    (hop : op ∈ Package.dode.symops) (c : Vec 6) (hc : Vec.Ok c) :
    ∃ a' b' q, symopObj .dode op a c = .ok a' ∧ symopObj .dode op b c = .ok b' ∧ symopObj .dode op (r.getD []) c = .ok q ∧
      ∀ r', RoundedRun2 z a' b' r' → exactArea r = exactArea r' ∧ Almost (content2 z r') (slice z (Package.dode.region q)) := by
  have hf := flatMotion_spin hop z (Package.dode.perp c)
  have hφ : ∀ (s : Simplex 3) i, Package.dode.perps (symS .dode op c s) i =
    spin (Package.dode.rot op) (Package.dode.perp c) (Package.dode.perps s i) := fun s i => perps_symS hop c s i
  have ok := h.spec.1
  obtain ⟨F, R, kind, delaunay, h0, hr⟩ := h
  exact ⟨_, _, _, symopObj_ok op h0.ok1 hc, symopObj_ok op h0.ok2 hc, symopObj_ok op ok hc, fun r' h' =>
    RoundedRun2.motion hf hφ ⟨F, R, kind, delaunay, h0, hr⟩ h'⟩

/-- C114 (dode2): moving both objects by the same vector moves their intersection. -/
theorem C114_shift_planar (z : ℝ) (a b : Obj 3) (r : Option (Obj 3)) (h : RoundedRun2 z a b r) (v : Vec 6) (hv : Vec.Ok v) :
    ∃ a' b' q : Obj 3, shiftApi .dode (.d4 a) v = .ok (some (.d4 a')) ∧ shiftApi .dode (.d4 b) v = .ok (some (.d4 b')) ∧
      shiftApi .dode (.d4 (r.getD [])) v = .ok (some (.d4 q)) ∧
      ∀ r', RoundedRun2 (z + Package.dode.perp v 2) a' b' r' → exactArea r = exactArea r' ∧
        Almost (content2 (z + Package.dode.perp v 2) r') (slice (z + Package.dode.perp v 2) (Package.dode.region q)) := by
  have hf := flatMotion_shift z (Package.dode.perp v)
  have hφ : ∀ (s : Simplex 3) i, Package.dode.perps (fun i => nvec (kvec Package.dode.theta (s i) + kvec Package.dode.theta v)) i =
    Package.dode.perps s i + Package.dode.perp v := fun s i => perp_nvec_add (p := .dode) (s i) v
  have hs : ∀ o : Obj 3, Obj.Ok o → shiftApi .dode (.d4 o) v =
      .ok (some (.d4 (o.map fun s i => nvec (kvec Package.dode.theta (s i) + kvec Package.dode.theta v)))) := fun o ho => by
    simp only [shiftApi, shiftObj_ok .dode ho hv, bind_ok']
  have ok := h.spec.1
  obtain ⟨F, R, kind, delaunay, h0, hr⟩ := h
  exact ⟨_, _, _, hs a h0.ok1, hs b h0.ok2, hs _ ok, fun r' h' =>
    RoundedRun2.motion hf hφ ⟨F, R, kind, delaunay, h0, hr⟩ h'⟩

/-- C114 (dode2): an object inside another one is its intersection with it. -/
theorem C114_inside_planar (z : ℝ) (a b : Obj 3) (hin : Package.dode.region a ⊆ Package.dode.region b) (r : Option (Obj 3))
    (h : RoundedRun2 z a b r) : exactArea r = objArea6d (.d4 a) ∧ Almost (content2 z r) (slice z (Package.dode.region a)) := by
  obtain ⟨h1, -, -, h2, w, hw, hv⟩ := h.spec
  obtain ⟨_, _, _, _, h, _⟩ := h
  rw [Set.inter_eq_left.2 hin] at h2 hv
  obtain ⟨u, hu, -, he⟩ := C69_object a h.ok1 z h.level1
  exact ⟨exact_area h1 h.ok1 hw hu (by rw [hv, he.2 h.apart1]), h2⟩

/-- C114 (dode2): the intersection with an object made of two parts is as large as the intersections with the parts
together. -/
theorem C114_parts_planar (z : ℝ) (a b1 b2 : Obj 3) (r r1 r2 : Option (Obj 3)) (h : RoundedRun2 z a (b1 ++ b2) r)
    (h1 : RoundedRun2 z a b1 r1) (h2 : RoundedRun2 z a b2 r2) :
    exactArea r = objArea6d (.d4 (r1.getD [] ++ r2.getD [])) ∧ Almost (content2 z r) (content2 z r1 ∪ content2 z r2) := by
  obtain ⟨o, -, -, c, w, hw, hv⟩ := h.spec
  obtain ⟨o1, -, -, c1, w1, hw1, hv1⟩ := h1.spec
  obtain ⟨o2, -, -, c2, w2, hw2, hv2⟩ := h2.spec
  obtain ⟨_, _, _, _, h, _⟩ := h
  have n := List.pairwise_append.1 h.apart2
  have oo : Obj.Ok (r1.getD [] ++ r2.getD []) := fun s hs => (List.mem_append.1 hs).elim (o1 s) (o2 s)
  constructor
  · obtain ⟨⟨u, hu, -, eu⟩, -⟩ := C43_object _ oo
    obtain ⟨⟨u1, hu1, -, eu1⟩, -⟩ := C43_object _ o1
    obtain ⟨⟨u2, hu2, -, eu2⟩, -⟩ := C43_object _ o2
    have p1 := area_nonneg o1 hw1
    have p2 := area_nonneg o2 hw2
    rw [show objArea6d _ = _ from hw1] at hu1
    rw [show objArea6d _ = _ from hw2] at hu2
    cases hu1
    cases hu2
    have hm := Planar.region_measurable (z := z) a
    refine exact_area o oo hw hu ?_
    rw [slice_inter] at hv hv1 hv2
    change _ = volume (Planar.cover z a ∩ Planar.cover z _) at hv hv1 hv2
    rw [eu, List.map_append, List.sum_append, ← eu1, ← eu2, ENNReal.ofReal_add p1 p2, hv, hv1, hv2,
      Planar.inter_region_sum hm h.apart2, Planar.inter_region_sum hm n.1,
      Planar.inter_region_sum hm n.2.1, List.map_append, List.sum_append]
  · rw [slice_inter, show slice z (Package.dode.region (b1 ++ b2)) = slice z (Package.dode.region b1) ∪ slice z (Package.dode.region b2)
      from Planar.region_append b1 b2, Set.inter_union_distrib_left] at c
    exact c.trans (c1.symm.union c2.symm)

/-- C114 (dode2): the order in which three objects are intersected does not matter. -/
theorem C114_grouping_planar (z : ℝ) (a b c : Obj 3) (ab bc r r' : Option (Obj 3)) (hab : RoundedRun2 z a b ab)
    (hbc : RoundedRun2 z b c bc) (h : RoundedRun2 z (ab.getD []) c r) (h' : RoundedRun2 z a (bc.getD []) r') :
    exactArea r = exactArea r' ∧ Almost (content2 z r) (content2 z r') := by
  have f1 := hab.spec.2.2.2.1.inter (Almost.refl (slice z (Package.dode.region c)))
  have f2 := (Almost.refl (slice z (Package.dode.region a))).inter hbc.spec.2.2.2.1
  rw [slice_inter, Set.inter_assoc] at f1
  have f := f1.trans f2.symm
  exact ⟨h.same h' f.volume_eq, (h.spec.2.2.2.1.trans f).trans h'.spec.2.2.2.1.symm⟩

/-! ## Triangles on a grid -/

/-- The corners of the triangle are grid points with coordinates at most 2. -/
def GridTri (s : Simplex 3) : Prop := ∀ k, ∃ x y : ℤ, |x| ≤ 2 ∧ |y| ≤ 2 ∧ s k = flat2 x y

/-- A tiling library for the pairs of such triangles. -/
theorem grid_pairs (F : Float64) : ∃ delaunay : Simplex 3 → Simplex 3 → Delaunay2,
    ∀ s t : Simplex 3, GridTri s → GridTri t → ∀ r pns,
      (∀ v ∈ r, Vec.Ok v ∧ Candidate2 (Package.dode.perps s) (Package.dode.perps t) (Package.dode.perp v)) →
      F.delaunayInput2 r = .ok pns → ¬ InLine (r.map plane) → TilesHullOf2 (r.map plane) (delaunay s t pns) := by
  have key : ∀ s t : Simplex 3, ∃ D : Delaunay2, GridTri s → GridTri t → ∀ r pns,
      (∀ v ∈ r, Vec.Ok v ∧ Candidate2 (Package.dode.perps s) (Package.dode.perps t) (Package.dode.perp v)) →
      F.delaunayInput2 r = .ok pns → ¬ InLine (r.map plane) → TilesHullOf2 (r.map plane) (D pns) := by
    intro s t
    by_cases hst : GridTri s ∧ GridTri t
    swap
    · exact ⟨fun _ => none, fun h1 h2 => absurd ⟨h1, h2⟩ hst⟩
    have hb : ∀ {u : Simplex 3}, GridTri u → ∀ i c, |Package.dode.perps u i c| ≤ (2 : ℝ) := by
      intro u hu i c
      obtain ⟨x, y, hx, hy, e⟩ := hu i
      have hx' : |(x : ℝ)| ≤ 2 := by exact_mod_cast hx
      have hy' : |(y : ℝ)| ≤ 2 := by exact_mod_cast hy
      rw [show Package.dode.perps u i = ![(x : ℝ), y, 0] from (congrArg Package.dode.perp e).trans (perp_flat2 x y)]
      fin_cases c
      · exact hx'
      · exact hy'
      · simp
    have hb1 := hb hst.1
    have hb2 := hb hst.2
    choose x y hx hy e using hst.1
    choose x' y' hx' hy' e' using hst.2
    have hS : ∀ i, Package.dode.perps s i = ![((![x i, y i] : Fin 2 → ℤ) 0 : ℝ), ((![x i, y i] : Fin 2 → ℤ) 1 : ℝ), 0] := fun i =>
      (congrArg Package.dode.perp (e i)).trans (perp_flat2 _ _)
    have hT : ∀ i, Package.dode.perps t i = ![((![x' i, y' i] : Fin 2 → ℤ) 0 : ℝ), ((![x' i, y' i] : Fin 2 → ℤ) 1 : ℝ), 0] := fun i =>
      (congrArg Package.dode.perp (e' i)).trans (perp_flat2 _ _)
    have hdet : ∀ i j k l : Fin 3, i < j → k < l → |(x j - x i) * (y' l - y' k) - (y j - y i) * (x' l - x' k)| ≤ (32 : ℕ) := by
      intro i j k l _ _
      have b : ∀ u v : ℤ, |u| ≤ 2 → |v| ≤ 2 → |v - u| ≤ 4 := fun u v hu hv => by rw [abs_le] at *; omega
      calc _ ≤ |(x j - x i) * (y' l - y' k)| + |(y j - y i) * (x' l - x' k)| := abs_sub _ _
        _ = |x j - x i| * |y' l - y' k| + |y j - y i| * |x' l - x' k| := by rw [abs_mul, abs_mul]
        _ ≤ 4 * 4 + 4 * 4 := add_le_add (mul_le_mul (b _ _ (hx i) (hx j)) (b _ _ (hy' k) (hy' l)) (abs_nonneg _) (by norm_num))
          (mul_le_mul (b _ _ (hy i) (hy j)) (b _ _ (hx' k) (hx' l)) (abs_nonneg _) (by norm_num))
        _ ≤ _ := by norm_num
    have hq : ∀ {x}, Candidate2 (Package.dode.perps s) (Package.dode.perps t) x → ∀ c : Fin 3, c ≠ 2 →
        ∃ p q : ℤ, q ≠ 0 ∧ |q| ≤ (32 : ℕ) ∧ x c = (p : ℝ) / q := fun h c hc =>
      candidate2_quot (z := 0) hS hT (by norm_num) hdet h c hc
    obtain ⟨D, hD⟩ := tiles_rounded2 F (fun v => Vec.Ok v ∧ Candidate2 (Package.dode.perps s) (Package.dode.perps t) (Package.dode.perp v))
      (fun v h => h.1) fun v w hv hw => plane_eq_of_rounded F (R := 2) (by norm_num) (by norm_num) (N := 32) (by norm_num) (by norm_num)
        (hq hv.2) (hq hw.2) (fun c _ => candidate2_bound hb1 hb2 hv.2 c) (fun c _ => candidate2_bound hb1 hb2 hw.2 c)
    exact ⟨D, fun _ _ => hD⟩
  choose D hD using key
  exact ⟨D, hD⟩

theorem gridTri_ok {s : Simplex 3} (h : GridTri s) : Simplex.Ok s := by
  intro k
  obtain ⟨x, y, -, -, e⟩ := h k
  rw [e]
  intro j
  fin_cases j <;> exact one_ne_zero

theorem grid_objects (F : Float64) : ∃ delaunay : Simplex 3 → Simplex 3 → Delaunay2, ∀ a b : Obj 3, b ≠ [] →
    (∀ s ∈ a, GridTri s) → (∀ s ∈ b, GridTri s) → NoOverlap2 0 a → NoOverlap2 0 b → objectsTest2 2 ⟨0, 0, 1⟩ a b = true →
    RoundedObjects2 F 2 0 delaunay a b := by
  obtain ⟨D, hD⟩ := grid_pairs F
  refine ⟨D, fun a b h0 ha hb na nb ht => ?_⟩
  have oa : Obj.Ok a := fun s hs => gridTri_ok (ha s hs)
  have ob : Obj.Ok b := fun s hs => gridTri_ok (hb s hs)
  obtain ⟨z1, z2, g⟩ := objectsTest2_spec (h := ⟨0, 0, 1⟩) oa ob h0 ht
  have e0 : (⟨0, 0, 1⟩ : Num3).val sin60 = 0 := by simp [Num3.val]
  rw [e0] at z1 z2 g
  exact ⟨by norm_num, by norm_num, oa, ob, z1, z2, na, nb, by exact_mod_cast g, fun s hs t ht => hD s t (ha s hs) (hb t ht)⟩

/-- A triangle that contains the square `exSquare`. -/
def exTriBig : Simplex 3 := ![flat2 0 0, flat2 2 0, flat2 0 2]
/-- The two halves of the square. -/
def exQ1 : Simplex 3 := ![flat2 0 0, flat2 1 0, flat2 1 1]
def exQ2 : Simplex 3 := ![flat2 0 0, flat2 1 1, flat2 0 1]
/-- `exTriBig` and `exQ1` moved by one unit to the left. -/
def exTriBigMoved : Simplex 3 := ![flat2 (-1) 0, flat2 1 0, flat2 (-1) 2]
def exQ1Moved : Simplex 3 := ![flat2 (-1) 0, flat2 0 0, flat2 0 1]
/-- `exTriBig` and `exQ1` turned by a half turn. -/
def exTriBigTurned : Simplex 3 := ![flat2 0 0, flat2 (-2) 0, flat2 0 (-2)]
def exQ1Turned : Simplex 3 := ![flat2 0 0, flat2 (-1) 0, flat2 (-1) (-1)]
/-- The half turn. -/
def halfTurn : IMat 6 6 := fun i j => if i = j then if i.val < 4 then -1 else 1 else 0

theorem exGrid_all : ∀ s ∈ [exTriBig, exQ1, exQ2, exTriBigMoved, exQ1Moved, exTriBigTurned, exQ1Turned], GridTri s := by
  intro s hs k
  simp only [List.mem_cons, List.not_mem_nil, or_false] at hs
  rcases hs with rfl | rfl | rfl | rfl | rfl | rfl | rfl <;> fin_cases k <;> exact ⟨_, _, by decide, by decide, rfl⟩

theorem exGrid_tests : objectsTest2 2 ⟨0, 0, 1⟩ [exTriBig] exSquare = true ∧ objectsTest2 2 ⟨0, 0, 1⟩ exSquare [exTriBig] = true ∧
    objectsTest2 2 ⟨0, 0, 1⟩ [exTriBig] [exQ1] = true ∧ objectsTest2 2 ⟨0, 0, 1⟩ [exTriBig] [exQ2] = true ∧
    objectsTest2 2 ⟨0, 0, 1⟩ [exTriBigMoved] [exQ1Moved] = true ∧ objectsTest2 2 ⟨0, 0, 1⟩ [exTriBigTurned] [exQ1Turned] = true := by
  decide +kernel

theorem exGrid_shift : shiftObj .dode [exTriBig] (flat2 (-1) 0) = .ok [exTriBigMoved] ∧
    shiftObj .dode [exQ1] (flat2 (-1) 0) = .ok [exQ1Moved] := by decide +kernel

theorem exGrid_turn : halfTurn ∈ Package.dode.symops ∧
    symopObj .dode halfTurn [exTriBig] (fun _ => ⟨0, 0, 1⟩) = .ok [exTriBigTurned] ∧
    symopObj .dode halfTurn [exQ1] (fun _ => ⟨0, 0, 1⟩) = .ok [exQ1Turned] := by decide +kernel

theorem exSquare_mem {t : Simplex 3} (h : t ∈ exSquare) : t = exQ1 ∨ t = exQ2 := by
  simpa [exSquare, exQ1, exQ2] using h

theorem exSquare_grid : ∀ s ∈ exSquare, GridTri s := fun s hs => by
  rcases exSquare_mem hs with rfl | rfl
  · exact exGrid_all _ (by simp)
  · exact exGrid_all _ (by simp)

theorem exSquare_apart : NoOverlap2 0 exSquare := sharp_noOverlap exSquare_sharp exSquare_level

/-- The halves of the square are inside the triangle, not conversely, and they are not degenerate. -/
theorem exSquare_inside : ∀ t ∈ exSquare, ¬ solid (Package.dode.perps exTriBig) ⊆ solid (Package.dode.perps t) ∧
    solid (Package.dode.perps t) ⊆ solid (Package.dode.perps exTriBig) ∧
    (interior (slice 0 (solid (Package.dode.perps t)))).Nonempty := by
  intro t ht
  have hc : ∀ k, Package.dode.perps exTriBig k ∈ solid (Package.dode.perps exTriBig) := fun k => subset_convexHull ℝ _ ⟨k, rfl⟩
  have p0 : Package.dode.perps exTriBig 0 = ![0, 0, 0] := (perp_flat2 0 0).trans (by simp)
  have p1 : Package.dode.perps exTriBig 1 = ![2, 0, 0] := (perp_flat2 2 0).trans (by simp)
  have p2 : Package.dode.perps exTriBig 2 = ![0, 2, 0] := (perp_flat2 0 2).trans (by simp)
  have hm : ∀ i j, (1 / 2 : ℝ) • Package.dode.perps exTriBig i + (1 / 2 : ℝ) • Package.dode.perps exTriBig j ∈
      solid (Package.dode.perps exTriBig) := fun i j =>
    solid_convex _ (hc i) (hc j) (by norm_num) (by norm_num) (by norm_num)
  have c0 : Package.dode.perp (flat2 0 0) ∈ solid (Package.dode.perps exTriBig) := hc 0
  have c1 : Package.dode.perp (flat2 1 0) ∈ solid (Package.dode.perps exTriBig) := by
    have := hm 0 1
    rw [p0, p1] at this
    rw [perp_flat2]
    refine (congrArg (· ∈ _) ?_).mp this
    funext j; fin_cases j <;> norm_num
  have c2 : Package.dode.perp (flat2 0 1) ∈ solid (Package.dode.perps exTriBig) := by
    have := hm 0 2
    rw [p0, p2] at this
    rw [perp_flat2]
    refine (congrArg (· ∈ _) ?_).mp this
    funext j; fin_cases j <;> norm_num
  have c3 : Package.dode.perp (flat2 1 1) ∈ solid (Package.dode.perps exTriBig) := by
    have := hm 1 2
    rw [p1, p2] at this
    rw [perp_flat2]
    refine (congrArg (· ∈ _) ?_).mp this
    funext j; fin_cases j <;> norm_num
  refine ⟨fun h => ?_, ?_, ?_⟩
  · have hr : Package.dode.perps exTriBig 1 ∈ Package.dode.region exSquare := ⟨t, ht, h (hc 1)⟩
    rw [exSquare_region, p1] at hr
    have := hr.2 0
    norm_num at this
  · refine convexHull_min ?_ (solid_convex _)
    rintro _ ⟨k, rfl⟩
    rcases exSquare_mem ht with rfl | rfl <;> fin_cases k
    exacts [c0, c1, c3, c0, c3, c2]
  · by_contra hn
    have hz : ∀ i, Package.dode.perp (t i) 2 = 0 := exSquare_level t ht
    obtain ⟨w, hw, hv⟩ := C69_triangle t (exSquare_sharp.ok t ht) 0 hz
    rw [slice_null (solid_convex _) hn] at hv
    have e : triangleArea6d t = .ok ⟨1, 0, 2⟩ := by
      rcases exSquare_mem ht with rfl | rfl <;> decide +kernel
    rw [e] at hw
    cases hw
    rw [ENNReal.ofReal_eq_zero] at hv
    norm_num [Num3.val] at hv

section
variable {rough : Simplex 3 → Py Bool} {flag : Simplex 3 → Simplex 3 → Nat} {inter : Simplex 3 → Simplex 3 → Py (Option (Obj 3))}
  {s t u : Simplex 3}

theorem whole_two2 (hr : rough s = .ok true) (ht : flag s t = 2) (hu : flag s u = 2) :
    intersectionTwoObj .standard rough (fun s t => .ok (flag s t)) inter [s] [t, u] = .ok (some [t, u]) := by
  simp [intersectionTwoObj, fillList, onePiece, innerLoop, hr, ht, hu, bind_ok']

theorem two_whole2 (ht : rough t = .ok true) (hu : rough u = .ok true) (ft : flag t s = 1) (fu : flag u s = 1) :
    intersectionTwoObj .standard rough (fun s t => .ok (flag s t)) inter [t, u] [s] = .ok (some [t, u]) := by
  simp [intersectionTwoObj, fillList, onePiece, innerLoop, ht, hu, ft, fu, bind_ok']

end

/-- The triangle and the square, in any floating-point arithmetic. -/
theorem exSquare_runs_of (F : Float64) : RoundedRun2 0 [exTriBig] exSquare (some exSquare) ∧
    RoundedRun2 0 exSquare [exTriBig] (some exSquare) ∧ (∃ r, RoundedRun2 0 [exTriBig] [exQ1] r) ∧
    (∃ r, RoundedRun2 0 [exTriBig] [exQ2] r) ∧ (∃ r, RoundedRun2 0 [exTriBigMoved] [exQ1Moved] r) ∧
    ∃ r, RoundedRun2 0 [exTriBigTurned] [exQ1Turned] r := by
  obtain ⟨D, hD⟩ := grid_objects F
  obtain ⟨t1, t2, t3, t4, t5, t6⟩ := exGrid_tests
  have one : ∀ s ∈ [exTriBig, exQ1, exQ2, exTriBigMoved, exQ1Moved, exTriBigTurned, exQ1Turned], ∀ u ∈ [s], GridTri u := fun s hs u hu => by
    rw [List.mem_singleton.1 hu]; exact exGrid_all s hs
  have ex : ∀ s ∈ [exTriBig, exQ1, exQ2, exTriBigMoved, exQ1Moved, exTriBigTurned, exQ1Turned],
      ∀ t ∈ [exTriBig, exQ1, exQ2, exTriBigMoved, exQ1Moved, exTriBigTurned, exQ1Turned], objectsTest2 2 ⟨0, 0, 1⟩ [s] [t] = true →
      ∃ r, RoundedRun2 0 [s] [t] r := fun s hs t ht h => by
    obtain ⟨r, -, h⟩ := C114_returns_planar F 2 0 .standard D [s] [t] (by simp)
      (hD _ _ (by simp) (one s hs) (one t ht) (List.pairwise_singleton _ _) (List.pairwise_singleton _ _) h)
    exact ⟨r, h⟩
  have o1 := hD [exTriBig] exSquare (by simp [exSquare]) (one _ (by simp)) exSquare_grid (List.pairwise_singleton _ _) exSquare_apart t1
  have o2 := hD exSquare [exTriBig] (by simp) exSquare_grid (one _ (by simp)) exSquare_apart (List.pairwise_singleton _ _) t2
  have c2 : ∀ t ∈ exSquare, F.checkTwoTriangles exTriBig t = 2 := fun t ht =>
    (C95_codes F (R := 2) (by norm_num) (by norm_num) _ _ 0 (o1.level1 _ (by simp)) (o1.level2 t ht) (o1.rounded.small1 _ (by simp))
      (o1.rounded.small2 t ht) (o1.rounded.pairs _ (by simp) t ht)).2.1.2 ⟨(exSquare_inside t ht).1, (exSquare_inside t ht).2.1⟩
  have c1 : ∀ t ∈ exSquare, F.checkTwoTriangles t exTriBig = 1 := fun t ht =>
    (C95_codes F (R := 2) (by norm_num) (by norm_num) _ _ 0 (o1.level2 t ht) (o1.level1 _ (by simp)) (o1.rounded.small2 t ht)
      (o1.rounded.small1 _ (by simp)) (o2.rounded.pairs t ht _ (by simp))).1.2 (exSquare_inside t ht).2.1
  have run : ∀ (a b : Obj 3) o, RoundedObjects2 F 2 0 D a b → b ≠ [] →
      (∀ s ∈ a, ∃ t ∈ b, (interior (slice 0 (solid (Package.dode.perps s) ∩ solid (Package.dode.perps t)))).Nonempty) →
      (∀ rough inter, (∀ s ∈ a, rough s = .ok true) →
        intersectionTwoObj .standard rough (fun s t => .ok (F.checkTwoTriangles s t)) inter a b = .ok (some o)) →
      RoundedRun2 0 a b (some o) := by
    intro a b o h h0 hi hr
    refine ⟨F, 2, .standard, D, h, ?_⟩
    obtain ⟨rough, e, hro⟩ := objects2_rounded_eq F h.scale1 h.scale2 .standard D h0 h.ok1 h.ok2 h.level1 h.level2 h.rounded.thick
      h.rounded.dist2 h.rounded.dist1 h.rounded.dist0
    rw [e]
    refine hr _ _ fun s hs => ?_
    obtain ⟨b', hb, hf⟩ := hro s hs
    cases b' with
    | true => exact hb
    | false =>
      obtain ⟨t, ht, hne⟩ := hi s hs
      exact absurd hne (hf rfl t ht)
  have m1 : exQ1 ∈ exSquare := List.mem_cons_self
  have m2 : exQ2 ∈ exSquare := List.mem_cons_of_mem _ List.mem_cons_self
  refine ⟨run _ _ _ o1 (by simp [exSquare]) (fun s hs => ⟨exQ1, m1, ?_⟩) fun rough inter hro =>
      whole_two2 (t := exQ1) (u := exQ2) (hro exTriBig (by simp)) (c2 _ m1) (c2 _ m2),
    run _ _ _ o2 (by simp) (fun s hs => ⟨exTriBig, by simp, ?_⟩) fun rough inter hro =>
      two_whole2 (t := exQ1) (u := exQ2) (hro exQ1 m1) (hro exQ2 m2) (c1 _ m1) (c1 _ m2),
    ex _ (by simp) _ (by simp) t3, ex _ (by simp) _ (by simp) t4, ex _ (by simp) _ (by simp) t5, ex _ (by simp) _ (by simp) t6⟩
  · rw [List.mem_singleton.1 hs, Set.inter_eq_right.2 (exSquare_inside exQ1 m1).2.1]
    exact (exSquare_inside exQ1 m1).2.2
  · rw [Set.inter_eq_left.2 (exSquare_inside s hs).2.1]
    exact (exSquare_inside s hs).2.2

/-- The triangle and the square are resolved for exact tests too. -/
theorem exTriBig_resolved : ResolvedObjects2 0 [exTriBig] exSquare := by
  obtain ⟨D, hD⟩ := grid_objects binary64.float64
  have o1 := hD [exTriBig] exSquare (by simp [exSquare]) (fun s hs => exGrid_all s (by simp at hs; simp [hs])) exSquare_grid
    (List.pairwise_singleton _ _) exSquare_apart exGrid_tests.1
  refine ⟨by simp [exSquare], o1.ok1, o1.ok2, o1.level1, o1.level2, o1.apart1, o1.apart2, fun s hs t ht => ?_⟩
  have h := o1.rounded.pairs s hs t ht
  refine ⟨h.areaS, h.areaT, h.cornerS, h.cornerT, fun i j k l _ _ h0 => ?_⟩
  have gs : GridTri s := exGrid_all s (by simp at hs; simp [hs])
  have gt := exSquare_grid t ht
  have pt : ∀ {u : Simplex 3}, GridTri u → ∀ i, ∃ x y : ℤ, Package.dode.perps u i = ![(x : ℝ), y, 0] := fun hu i => by
    obtain ⟨x, y, -, -, e⟩ := hu i
    exact ⟨x, y, (congrArg Package.dode.perp e).trans (perp_flat2 x y)⟩
  obtain ⟨x1, y1, e1⟩ := pt gs i
  obtain ⟨x2, y2, e2⟩ := pt gs j
  obtain ⟨x3, y3, e3⟩ := pt gt k
  obtain ⟨x4, y4, e4⟩ := pt gt l
  rw [e1, e2, e3, e4] at h0 ⊢
  set d : ℤ := (x2 - x1) * (y4 - y3) - (y2 - y1) * (x4 - x3) with hd
  have e : crossProduct (![(x2 : ℝ), y2, 0] - ![(x1 : ℝ), y1, 0]) (![(x4 : ℝ), y4, 0] - ![(x3 : ℝ), y3, 0]) = ![0, 0, (d : ℝ)] := by
    funext m
    fin_cases m <;> simp [cross_apply, hd]
  rw [e] at h0 ⊢
  have hd0 : d ≠ 0 := by
    intro hd0
    apply h0
    funext m
    fin_cases m <;> simp [hd0]
  have h1 : (1 : ℝ) ≤ (d : ℝ) * d := by
    have : 1 ≤ d * d := by
      rcases lt_or_gt_of_ne hd0 with h | h <;> nlinarith
    exact_mod_cast this
  simp [vec3_dotProduct]
  linarith

/-- The hypotheses of the theorems of this file are met, in binary64 arithmetic, by a triangle and a square inside it, and by
their images under a shift and a half turn. -/
example : RoundedRun2 0 [exTriBig] exSquare (some exSquare) ∧ RoundedRun2 0 exSquare [exTriBig] (some exSquare) ∧
    Package.dode.region exSquare ⊆ Package.dode.region [exTriBig] ∧ exSquare = [exQ1] ++ [exQ2] ∧
    (∃ r, RoundedRun2 0 [exTriBig] [exQ1] r) ∧ (∃ r, RoundedRun2 0 [exTriBig] [exQ2] r) ∧ ResolvedObjects2 0 [exTriBig] exSquare ∧
    (∃ delaunay, TilesHull2 delaunay) ∧
    (shiftApi .dode (.d4 [exTriBig]) (flat2 (-1) 0) = .ok (some (.d4 [exTriBigMoved])) ∧
      shiftApi .dode (.d4 [exQ1]) (flat2 (-1) 0) = .ok (some (.d4 [exQ1Moved])) ∧
      ∃ r, RoundedRun2 (0 + Package.dode.perp (flat2 (-1) 0) 2) [exTriBigMoved] [exQ1Moved] r) ∧
    halfTurn ∈ Package.dode.symops ∧ symopObj .dode halfTurn [exTriBig] (fun _ => ⟨0, 0, 1⟩) = .ok [exTriBigTurned] ∧
    symopObj .dode halfTurn [exQ1] (fun _ => ⟨0, 0, 1⟩) = .ok [exQ1Turned] ∧
    ∃ r, RoundedRun2 0 [exTriBigTurned] [exQ1Turned] r := by
  obtain ⟨h1, h2, h3, h4, h5, h6⟩ := exSquare_runs_of binary64.float64
  refine ⟨h1, h2, ?_, rfl, h3, h4, exTriBig_resolved, exists_tiles2, ⟨?_, ?_, ?_⟩, exGrid_turn.1, exGrid_turn.2.1, exGrid_turn.2.2, h6⟩
  · rintro x ⟨t, ht, hx⟩
    exact ⟨exTriBig, by simp, (exSquare_inside t ht).2.1 hx⟩
  · simp only [shiftApi, exGrid_shift.1, bind_ok']
  · simp only [shiftApi, exGrid_shift.2, bind_ok']
  · rw [perp_flat2]; simpa using h5

end PyQC
