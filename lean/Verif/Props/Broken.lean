import Verif.Model.Rest
import Verif.Props.Symmetry
import Verif.Props.Vesta
/-!
# C82: helpers of the package that never return a result
-/
namespace PyQC

theorem Package.mul_returns (p : Package) {x y : Num3} (hx : x.c ≠ 0) (hy : y.c ≠ 0) :
    ∃ r, p.arith.mul x y = .ok r ∧ r.c ≠ 0 := by
  cases p
  · exact ⟨_, Ico.mul_ok hx hy, (norm_canon _).1.ne'⟩
  · exact ⟨_, Dode.mul_ok hx hy, (norm_canon _).1.ne'⟩

theorem Package.add_returns (p : Package) {x y : Num3} (hx : x.c ≠ 0) (hy : y.c ≠ 0) :
    ∃ r, p.arith.add x y = .ok r ∧ r.c ≠ 0 := by
  cases p
  · exact ⟨_, Ico.add_ok hx hy, (norm_canon _).1.ne'⟩
  · exact ⟨_, Dode.add_ok hx hy, (norm_canon _).1.ne'⟩

/-- C82: `det_matrix` raises NameError on every valid matrix. -/
theorem C82_det_matrix (p : Package) (m : Fin 3 → Vec 3) (h : ∀ i, Vec.Ok (m i)) :
    detMatrix p m = .error .nameError := by
  unfold detMatrix
  obtain ⟨a, ha, oa⟩ := p.mul_returns (h 0 0) (h 1 1)
  obtain ⟨b, hb, -⟩ := p.mul_returns oa (h 2 2)
  obtain ⟨c, hc, -⟩ := p.mul_returns (h 0 2) (h 1 0)
  rw [ha, bind_ok', hb, bind_ok', hc, bind_ok']

/-- C82: `middle_position` raises NameError on every two valid vectors. -/
theorem C82_middle_position (p : Package) (v w : Vec 6) (hv : Vec.Ok v) (hw : Vec.Ok w) :
    middlePosition p v w = .error .nameError := by
  unfold middlePosition
  obtain ⟨a, ha, oa⟩ := p.add_returns (hv 0) (hw 0)
  obtain ⟨b, hb, -⟩ := p.mul_returns oa (y := ⟨1, 0, 2⟩) (by decide)
  obtain ⟨c, hc, oc⟩ := p.add_returns (hv 1) (hw 1)
  obtain ⟨d, hd, -⟩ := p.mul_returns oc (y := ⟨1, 0, 2⟩) (by decide)
  rw [ha, bind_ok', hb, bind_ok', hc, bind_ok', hd, bind_ok']

/-- C82: `inside_outside_obj_tau` raises for every point and every array: ValueError for an object, NameError for a
single piece. -/
theorem C82_inside_outside_obj (v : Vec 6) (o : NdArr) :
    (∃ e, insideOutsideObjTau v o = .error e) ∧
    (∀ {m : Nat} (o : Obj m), insideOutsideObjTau v (.d4 o) = .error .valueError) ∧
    (∀ {m : Nat} (t : Simplex m), insideOutsideObjTau v (.d3 t) = .error .nameError) := by
  refine ⟨?_, fun _ => rfl, fun _ => rfl⟩
  cases o <;> exact ⟨_, rfl⟩

/-- C82: the ico2 test of two segments raises IndexError on every two segments with two ends. -/
theorem C82_two_segments (s t : Simplex 2) : Ico.checkTwoSegmentTau s t = .error .indexError := by
  unfold Ico.checkTwoSegmentTau Ico.checkTwoSegment
  simp [rowOf]

/-- C82: `decomposition` of the ico2 intersection module never returns tetrahedra: whatever the points are, it returns a
list with the number 0. -/
theorem C82_decomposition (pts : List (Fin 3 → ℝ)) : Ico.decompositionIntsct pts = .ok [0] := rfl

theorem collectOn_zero (surface : Obj 3) (l : List (Simplex 3)) : Ico.collectOn surface 0 l = .ok 0 := by
  induction l with
  | nil => rfl
  | cons t ts ih =>
    have : Ico.cornersOn surface t ≠ 4 := by
      have h : Ico.cornersOn surface t ≤ (List.ofFn t).length := List.countP_le_length
      rw [List.length_ofFn] at h
      omega
    rw [Ico.collectOn, if_neg this, ih]

/-- C82: `tetrahedron_not_obj_2` of ico2 never returns an object: whatever it is given it raises or returns None. Its
loop collects no triangle at all (it waits for a triangle with four corners). -/
theorem C82_not_obj (draws : Simplex 4 → Simplex 4 → (n : Nat) → Draws n) (delaunay : Simplex 4 → Simplex 4 → Ico.Delaunay)
    (t o : Obj 4) :
    ((∃ e, Ico.tetrahedronNotObj2 draws delaunay t o = .error e) ∨
      Ico.tetrahedronNotObj2 draws delaunay t o = .ok none) ∧
    ∀ surface l, Ico.collectOn surface 0 l = .ok 0 := by
  refine ⟨?_, collectOn_zero⟩
  cases h : Ico.tetrahedronNotObj2 draws delaunay t o with
  | error e => exact .inl ⟨e, rfl⟩
  | ok r =>
    right
    unfold Ico.tetrahedronNotObj2 at h
    cases h1 : Ico.objVolume6d (.d4 t) with
    | error e => rw [h1] at h; exact nomatch h
    | ok v =>
      cases h2 : Ico.intersectionTwoObj1 .standard draws delaunay t o with
      | error e => rw [h1, h2] at h; exact nomatch h
      | ok c =>
        rw [h1, h2, bind_ok', bind_ok'] at h
        cases c with
        | none => exact nomatch h
        | some c =>
          simp only at h
          cases h3 : Ico.objVolume6d (.d4 c) with
          | error e => rw [h3] at h; exact nomatch h
          | ok v =>
            cases h4 : generatorSurface1 c with
            | error e => rw [h3, h4] at h; exact nomatch h
            | ok s2 =>
              cases h5 : generatorSurface1 o with
              | error e => rw [h3, h4, h5] at h; exact nomatch h
              | ok s3 =>
                rw [h3, h4, h5, bind_ok', bind_ok', bind_ok', collectOn_zero, bind_ok'] at h
                exact h.symm

/-- C82: the other helpers that raise or return None whatever they are given. -/
theorem C82_others {α : Type} (v : Vec 6) (centred : Bool) (s t : Simplex 2) (o : Obj 3) (a b : Obj 4) (u : Simplex 4)
    (x : α) :
    Ico.siteSymmetry v centred = .error .typeError ∧
    Ico.intersectionTwoSegment s t = .error .nameError ∧
    Dode.projectionPerp v = none ∧ getCommonEdges o = none ∧ Ico.breps u = none ∧
    Dode.tetrahedronNotObj2 a b = .error .nameError ∧
    Dode.tetrahedronNotObj1 (.ok x : Py α) = .error .nameError := by
  refine ⟨?_, rfl, rfl, rfl, rfl, rfl, rfl⟩
  cases centred <;> rfl

/-- The hypotheses of C82 are met: a matrix with three valid rows, two valid vectors. -/
example : detMatrix .ico (fun _ _ => ⟨1, 2, 3⟩) = .error .nameError :=
  C82_det_matrix _ _ fun _ _ => by decide
example : middlePosition .dode (cart 1 0 0 1) (cart 0 1 0 1) = .error .nameError :=
  C82_middle_position _ _ _ (cart_ok (by decide)) (cart_ok (by decide))

end PyQC
