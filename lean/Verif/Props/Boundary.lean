import Verif.Props.ConvexExact
import Verif.Lemmas.Boundary
import Verif.Spec.Boundary
/-!
# C101: the surface of an object is its boundary
-/
namespace PyQC
open Matrix Ico

theorem face_solid {o : Obj 4} (h : WellFormed o) (j : Fin o.length × Fin 4) :
    solid (Package.ico.perps (face o j)) = faceSet (pieces o) j.1 j.2 := by
  have hq := pieces_det h j.1
  ext x
  constructor
  · intro hx
    obtain ⟨w, hw, h0⟩ := mem_solid_iff.1 hx
    have hb : IsBary (pieces o j.1) (j.2.insertNth 0 w) x := by
      constructor
      · rw [Fin.sum_univ_succAbove _ j.2]
        simpa using hw.1
      · rw [Fin.sum_univ_succAbove _ j.2]
        simp only [Fin.insertNth_apply_same, Fin.insertNth_apply_succAbove, zero_smul, zero_add]
        exact hw.2
    refine ⟨mem_solid_of_bary hb fun i => ?_, ?_⟩
    · rcases Fin.eq_self_or_eq_succAbove j.2 i with rfl | ⟨k, rfl⟩
      · simp
      · simpa using h0 k
    · rw [bc_eq hq hb]
      simp
  · rintro ⟨hx, h0⟩
    have hb := bc_spec hq x
    have hp := (mem_solid_bc hq).1 hx
    refine mem_solid_iff.2 ⟨fun i => bc (pieces o j.1) x (j.2.succAbove i), ⟨?_, ?_⟩, fun i => hp _⟩
    · have := hb.1
      rw [Fin.sum_univ_succAbove _ j.2, h0, zero_add] at this
      exact this
    · have := hb.2
      rw [Fin.sum_univ_succAbove _ j.2, h0, zero_smul, zero_add] at this
      exact this

theorem face_inside {o : Obj 4} (h : WellFormed o) (j : Fin o.length × Fin 4) {x : Fin 3 → ℝ} (h0 : bc (pieces o j.1) x j.2 = 0)
    (hp : ∀ i, i ≠ j.2 → 0 < bc (pieces o j.1) x i) : x ∈ inside (Package.ico.perps (face o j)) := by
  have hb := bc_spec (pieces_det h j.1) x
  refine ⟨fun i => bc (pieces o j.1) x (j.2.succAbove i), ⟨?_, ?_⟩, fun i => hp _ (Fin.succAbove_ne _ _)⟩
  · have := hb.1
    rw [Fin.sum_univ_succAbove _ j.2, h0, zero_add] at this
    exact this
  · have := hb.2
    rw [Fin.sum_univ_succAbove _ j.2, h0, zero_smul, zero_add] at this
    exact this

/-- C101: every boundary point of an object is on a triangle of its surface, whether or not the tetrahedra fit face to face. -/
theorem C101_cover (o : Obj 4) (h : WellFormed o)
    (hm : ∀ i j, Close (Package.ico.centroidPerp (face o i)) (Package.ico.centroidPerp (face o j)) →
      Set.range (Package.ico.perps (face o i)) = Set.range (Package.ico.perps (face o j))) :
    ∃ s, generatorSurface1 o = .ok s ∧ frontier (Package.ico.region o) ⊆ Package.ico.region s := by
  obtain ⟨J, hJ, -, hJ'⟩ := surface_faces h hm
  refine ⟨_, hJ, fun x hx => ?_⟩
  rw [← covered_pieces] at hx
  have hcl : IsClosed (covered (pieces o)) := covered_compact.isClosed
  rw [hcl.frontier_eq] at hx
  obtain ⟨a, l, hf, hxf⟩ := free_through (pieces_det h) (pieces_apart h) hx.1 hx.2
  refine ⟨face o (a, l), List.mem_map.2 ⟨_, (hJ' _).2 ((free_unpaired h hm a l).1 hf), rfl⟩, ?_⟩
  rw [face_solid h]
  exact hxf

/-- C101: for tetrahedra that fit together face to face the triangles of the surface cover exactly the boundary of the object. -/
theorem C101_boundary (o : Obj 4) (h : WellFormed o) (hf : FaceToFace o) :
    ∃ s, generatorSurface1 o = .ok s ∧ Package.ico.region s = frontier (Package.ico.region o) := by
  obtain ⟨s, hs, hsub⟩ := C101_cover o h hf.faces
  refine ⟨s, hs, Set.Subset.antisymm ?_ hsub⟩
  obtain ⟨J, hJ, -, hJ'⟩ := surface_faces h hf.faces
  rw [hs] at hJ
  cases hJ
  rintro x ⟨f, hfs, hx⟩
  obtain ⟨⟨a, l⟩, hj, rfl⟩ := List.mem_map.1 hfs
  have hfree := (free_unpaired h hf.faces a l).2 ((hJ' _).1 hj)
  have hx : x ∈ solid (Package.ico.perps (face o (a, l))) := hx
  rw [face_solid h] at hx
  have hcl : IsClosed (covered (pieces o)) := covered_compact.isClosed
  rw [← covered_pieces, hcl.frontier_eq]
  refine ⟨⟨a, hx.1⟩, face_not_interior (pieces_det h) (pieces_apart h) ?_ hx⟩
  intro b m z hba hpl h1 h2 h3 h4
  refine hfree b m (fun e => hba (congrArg Prod.fst e)) ?_
  rw [← face_corners o (b, m), ← face_corners o (a, l)]
  refine hf.meet _ _ ?_ ⟨z, face_inside h (b, m) h3 h4, face_inside h (a, l) h1 h2⟩
  have hb := pieces_det h b
  have lin : ∀ x, (fun j => faceFun hb m (Pi.single j 1)) ⬝ᵥ x = bc (pieces o b) x m - bc (pieces o b) 0 m := by
    intro x
    rw [← dirCoord_sub hb, sub_zero, ← faceFun_apply]
    have : x = ∑ j, x j • (Pi.single j 1 : Fin 3 → ℝ) := by
      ext k; simp [Finset.sum_apply, Pi.single_apply]
    conv_rhs => rw [this, map_sum]
    refine Finset.sum_congr rfl fun j _ => ?_
    rw [map_smul, smul_eq_mul, mul_comm]
  refine ⟨fun j => faceFun hb m (Pi.single j 1), ?_, - bc (pieces o b) 0 m, fun k => ⟨?_, ?_⟩⟩
  · intro h0
    refine faceFun_ne hb m (LinearMap.ext fun v => ?_)
    have := lin v
    rw [h0, zero_dotProduct, ← dirCoord_sub hb, sub_zero] at this
    exact this.symm
  · rw [lin, show bc (pieces o b) (Package.ico.perps (face o (b, m)) k) m = 0 from ?_, zero_sub]
    change bc (pieces o b) (pieces o b (m.succAbove k)) m = 0
    rw [bc_corner hb]
    simp [(Fin.succAbove_ne m k).symm]
  · rw [lin, show bc (pieces o b) (Package.ico.perps (face o (a, l)) k) m = 0 from ?_, zero_sub]
    exact hpl _ (Fin.succAbove_ne _ _)

theorem Sharp.faceToFace {o : Obj 4} (h : Sharp o) : FaceToFace o := ⟨h.faces, h.meet⟩

/-- The hypotheses of `C101_boundary` are met by two halves of a tetrahedron; the surface covers the boundary of the whole. -/
example : ∃ s, generatorSurface1 [exHalfA, exHalfB] = .ok s ∧
    Package.ico.region s = frontier (solid (Package.ico.perps exCorner)) := by
  obtain ⟨s, hs, h⟩ := C101_boundary [exHalfA, exHalfB] exHalves_wf exHalves_sharp.faceToFace
  exact ⟨s, hs, by rw [h, exHalves_region]⟩

/-- A tetrahedron below the two halves, the mirror image of the whole. -/
def exLow : Simplex 4 := ![cart 0 0 0 1, cart 1 0 0 1, cart 0 1 0 1, cart 0 0 (-1) 1]

theorem perps_exLow : Package.ico.perps exLow = ![![0, 0, 0], ![1, 0, 0], ![0, 1, 0], ![0, 0, -1]] := by
  funext i
  fin_cases i <;> exact (perp_cart _ _ _ _).trans (by norm_num)

def exStackZ : Fin 3 → Fin 4 → Fin 3 → ℤ :=
  ![![![0, 0, 0], ![1, 0, 0], ![0, 2, 0], ![0, 0, 2]], ![![1, 0, 0], ![2, 0, 0], ![0, 2, 0], ![0, 0, 2]],
    ![![0, 0, 0], ![2, 0, 0], ![0, 2, 0], ![0, 0, -2]]]

theorem exStack_perp (a : Fin 3) (i : Fin 4) (j : Fin 3) :
    Package.ico.perp (([exHalfA, exHalfB, exLow] : Obj 4).get a i) j = (exStackZ a i j : ℝ) / (2 : ℕ) := by
  fin_cases a <;> fin_cases i <;> refine (congrFun (perp_cart _ _ _ _) j).trans ?_ <;> fin_cases j <;>
    simp [exStackZ]

theorem exStack_wf : WellFormed [exHalfA, exHalfB, exLow] := by
  refine wellFormed_grid _ exStackZ 2 (by norm_num) (by simp) ?_ exStack_perp (by decide) ?_
  · intro t ht i
    simp only [List.mem_cons, List.not_mem_nil, or_false] at ht
    rcases ht with rfl | rfl | rfl <;> fin_cases i <;> exact cart_ok (by decide)
  · have : ∀ a b : Fin 3, a < b → ∃ m ∈ ([![2, 1, 1], ![0, 0, 1], ![0, 0, -1], ![-2, -1, -1]] : List (Fin 3 → ℤ)),
        SepZ (exStackZ a) (exStackZ b) m := by decide +kernel
    intro a b hab
    obtain ⟨m, -, h⟩ := this a b hab
    exact ⟨m, h⟩

theorem exStack_faces : ∀ i j, Close (Package.ico.centroidPerp (face [exHalfA, exHalfB, exLow] i))
    (Package.ico.centroidPerp (face [exHalfA, exHalfB, exLow] j)) →
    Set.range (Package.ico.perps (face [exHalfA, exHalfB, exLow] i)) =
      Set.range (Package.ico.perps (face [exHalfA, exHalfB, exLow] j)) := by
  refine faces_grid _ exStackZ 2 2 (by norm_num) exStack_perp (by decide) (by norm_num) ?_
  have : ∀ i j : Fin 3 × Fin 4, (∀ c, ∑ k, exStackZ i.1 (i.2.succAbove k) c = ∑ k, exStackZ j.1 (j.2.succAbove k) c) →
      SameZ (fun k => exStackZ i.1 (i.2.succAbove k)) (fun k => exStackZ j.1 (j.2.succAbove k)) := by decide +kernel
  exact this

/-- C101: fitting face to face is needed. A tetrahedron stacked on two halves of its mirror image: the face between them is
part of the surface although its points are inside the object. -/
theorem C101_not_fitting : WellFormed [exHalfA, exHalfB, exLow] ∧ ∃ s, generatorSurface1 [exHalfA, exHalfB, exLow] = .ok s ∧
    ∃ x ∈ Package.ico.region s, x ∈ interior (Package.ico.region [exHalfA, exHalfB, exLow]) := by
  refine ⟨exStack_wf, ?_⟩
  obtain ⟨J, hJ, -, hJ'⟩ := surface_faces exStack_wf exStack_faces
  refine ⟨_, hJ, ![1 / 4, 1 / 4, 0], ?_, ?_⟩
  · have hfree : FreeFace (pieces [exHalfA, exHalfB, exLow]) (2 : Fin 3) 3 :=
      free_grid (o := [exHalfA, exHalfB, exLow]) exStackZ 2 (by norm_num) exStack_perp (2 : Fin 3) 3 (by decide +kernel)
    refine ⟨face [exHalfA, exHalfB, exLow] ((2 : Fin 3), 3), List.mem_map.2 ⟨_, (hJ' _).2
      ((free_unpaired exStack_wf exStack_faces (2 : Fin 3) 3).1 hfree), rfl⟩, ?_⟩
    rw [face_solid exStack_wf]
    have hb : IsBary (Package.ico.perps exLow) ![1 / 2, 1 / 4, 1 / 4, 0] ![1 / 4, 1 / 4, 0] := by
      rw [isBary_four, perps_exLow]
      refine ⟨by simp; norm_num, fun j => ?_⟩
      fin_cases j <;> simp
    refine ⟨mem_solid_of_bary hb fun i => ?_, ?_⟩
    · fin_cases i <;> simp
    · exact congrFun (bc_eq (pieces_det exStack_wf (2 : Fin 3)) hb) 3
  · have hopen : IsOpen {x : Fin 3 → ℝ | 0 < x 0 ∧ 0 < x 1 ∧ x 0 + x 1 + x 2 < 1 ∧ x 0 + x 1 - x 2 < 1} := by
      refine (isOpen_lt continuous_const (continuous_apply 0)).inter ((isOpen_lt continuous_const (continuous_apply 1)).inter
        ((isOpen_lt (((continuous_apply 0).add (continuous_apply 1)).add (continuous_apply 2)) continuous_const).inter
          (isOpen_lt (((continuous_apply 0).add (continuous_apply 1)).sub (continuous_apply 2)) continuous_const)))
    refine mem_interior.2 ⟨_, ?_, hopen, by simp; norm_num⟩
    rintro x ⟨h0, h1, h2, h3⟩
    by_cases hz : 0 ≤ x 2
    · have hx : x ∈ Package.ico.region [exHalfA, exHalfB] := by
        rw [exHalves_region]
        refine mem_solid_of_bary (w := ![1 - x 0 - x 1 - x 2, x 0, x 1, x 2]) ?_ ?_
        · rw [isBary_four, perps_exCorner]
          refine ⟨by simp; ring, fun j => ?_⟩
          fin_cases j <;> simp
        · intro i
          fin_cases i <;> simp <;> linarith
      obtain ⟨t, ht, hxt⟩ := hx
      refine ⟨t, ?_, hxt⟩
      simp only [List.mem_cons, List.not_mem_nil, or_false] at ht ⊢
      tauto
    · push Not at hz
      refine ⟨exLow, by simp, ?_⟩
      refine mem_solid_of_bary (w := ![1 - x 0 - x 1 + x 2, x 0, x 1, - x 2]) ?_ ?_
      · rw [isBary_four, perps_exLow]
        refine ⟨by simp; ring, fun j => ?_⟩
        fin_cases j <;> simp
      · intro i
        fin_cases i <;> simp <;> linarith

end PyQC
