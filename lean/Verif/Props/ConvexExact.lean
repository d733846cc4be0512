import Verif.Props.Convex
import Verif.Props.Hull
import Verif.Props.Measure
import Verif.Lemmas.ConvexNested
import Verif.Spec.ConvexExact
/-!
# C100: the intersection of convex objects is the common part
-/
namespace PyQC
open Matrix Ico MeasureTheory

/-- The tetrahedra of an object in perp space. -/
noncomputable def pieces (o : Obj 4) : Fin o.length → Fin 4 → Fin 3 → ℝ := fun a => Package.ico.perps (o.get a)

theorem covered_pieces (o : Obj 4) : covered (pieces o) = Package.ico.region o := by
  ext x
  constructor
  · rintro ⟨a, ha⟩
    exact ⟨_, List.get_mem o a, ha⟩
  · rintro ⟨t, ht, hx⟩
    obtain ⟨a, rfl⟩ := List.get_of_mem ht
    exact ⟨a, hx⟩

theorem pieces_det {o : Obj 4} (h : WellFormed o) (a : Fin o.length) : det4 (pieces o a) ≠ 0 := det_of_wf h _ (List.get_mem o a)

theorem pieces_apart {o : Obj 4} (h : WellFormed o) (a b : Fin o.length) (hab : a ≠ b) :
    interior (solid (pieces o a)) ∩ interior (solid (pieces o b)) = ∅ := by
  have := List.pairwise_iff_get.1 h.apart
  rcases lt_or_gt_of_ne hab with h | h
  · exact this a b h
  · rw [Set.inter_comm]; exact this b a h

theorem face_corners (o : Obj 4) (j : Fin o.length × Fin 4) :
    Set.range (Package.ico.perps (face o j)) = pieces o j.1 '' {i | i ≠ j.2} := by
  ext x
  constructor
  · rintro ⟨i, rfl⟩
    exact ⟨j.2.succAbove i, Fin.succAbove_ne _ _, rfl⟩
  · rintro ⟨i, hi, rfl⟩
    obtain ⟨k, rfl⟩ := Fin.exists_succAbove_eq hi
    exact ⟨k, rfl⟩

theorem free_unpaired {o : Obj 4} (h : WellFormed o)
    (hm : ∀ i j, Close (Package.ico.centroidPerp (face o i)) (Package.ico.centroidPerp (face o j)) →
      Set.range (Package.ico.perps (face o i)) = Set.range (Package.ico.perps (face o j))) (a : Fin o.length) (l : Fin 4) :
    FreeFace (pieces o) a l ↔ Unpaired o (a, l) := by
  constructor
  · rintro hf ⟨b, m⟩ hne he
    refine hf b m hne ?_
    rw [← face_corners o (b, m), ← face_corners o (a, l)]
    refine hm _ _ ?_
    intro i
    rw [he, sub_self, abs_zero]
    positivity
  · rintro hu b m hne he
    refine hu (b, m) hne (centroid_of_range (det_of_wf h) ?_)
    rw [face_corners, face_corners]
    exact he

theorem free_iff {o : Obj 4} (h : WellFormed o) (hm : ToldByMiddles o) (a : Fin o.length) (l : Fin 4) :
    FreeFace (pieces o) a l ↔ Unpaired o (a, l) := free_unpaired h hm.faces a l

theorem noClash_of_middles {o : Obj 4} (h : WellFormed o) (hm : ToldByMiddles o) {s : Obj 3} (hs : ∀ f ∈ s, ∃ j, f = face o j) :
    NoClash s := by
  intro f hf g hg i j k l hij hkl he
  obtain ⟨a, rfl⟩ := hs f hf
  obtain ⟨b, rfl⟩ := hs g hg
  have hr := hm.edges _ (List.get_mem o a.1) _ (List.get_mem o b.1) (a.2.succAbove i) (a.2.succAbove j) (b.2.succAbove k)
    (b.2.succAbove l) (Fin.strictMono_succAbove _ hij).ne (Fin.strictMono_succAbove _ hkl).ne he
  have ne1 : Package.ico.perp (face o a i) ≠ Package.ico.perp (face o a j) := fun e =>
    (Fin.strictMono_succAbove a.2 hij).ne (corner_inj (pieces_det h) a.1 e)
  have hi : Package.ico.perp (face o a i) ∈ Set.range (Package.ico.perps (edge (o.get b.1) (b.2.succAbove k) (b.2.succAbove l))) :=
    hr ▸ ⟨0, rfl⟩
  have hj : Package.ico.perp (face o a j) ∈ Set.range (Package.ico.perps (edge (o.get b.1) (b.2.succAbove k) (b.2.succAbove l))) :=
    hr ▸ ⟨1, rfl⟩
  obtain ⟨x, hx⟩ := hi
  obtain ⟨y, hy⟩ := hj
  have hx : Package.ico.perp (edge (o.get b.1) (b.2.succAbove k) (b.2.succAbove l) x) = _ := hx
  have hy : Package.ico.perp (edge (o.get b.1) (b.2.succAbove k) (b.2.succAbove l) y) = _ := hy
  have hxy : x ≠ y := by
    rintro rfl
    exact ne1 (hx.symm.trans hy)
  have cases : (x = 0 ∧ y = 1) ∨ (x = 1 ∧ y = 0) := by omega
  rcases cases with ⟨rfl, rfl⟩ | ⟨rfl, rfl⟩
  · exact .inl ⟨hx.symm, hy.symm⟩
  · exact .inr ⟨hx.symm, hy.symm⟩

/-- The corner numbers of a face in increasing order. -/
theorem otherThree_succAbove (k : Fin 4) :
    (otherThree k).1 = k.succAbove 0 ∧ (otherThree k).2.1 = k.succAbove 1 ∧ (otherThree k).2.2 = k.succAbove 2 := by
  revert k; decide

/-- A side of a face of one object and a face of the other that meet in a point and are not parallel hit each other for the
code, at this point. -/
theorem cross_hits {o o' : Obj 4} (h' : ∀ b, det4 (pieces o' b) ≠ 0) {j : Fin o.length × Fin 4} {k : Fin o'.length × Fin 4}
    (hc : Clear (pieces o j.1) (pieces o' k.1)) {a b : Fin 3} (hab : a < b) {x : Fin 3 → ℝ}
    (hx : x ∈ segment ℝ (Package.ico.perp (face o j a)) (Package.ico.perp (face o j b))) (hf : x ∈ faceSet (pieces o') k.1 k.2)
    (hd : dirCoord (h' k.1) (Package.ico.perp (face o j b) - Package.ico.perp (face o j a)) k.2 ≠ 0) :
    Matrix.det (Matrix.of ![Package.ico.perp (face o j b) - Package.ico.perp (face o j a),
      Package.ico.perp (face o' k 2) - Package.ico.perp (face o' k 0),
      Package.ico.perp (face o' k 1) - Package.ico.perp (face o' k 0)]) ≠ 0 ∧
    Hits (Package.ico.perp (face o j a)) (Package.ico.perp (face o j b)) (Package.ico.perp (face o' k 0))
      (Package.ico.perp (face o' k 1)) (Package.ico.perp (face o' k 2)) ∧
    ∃ t u v, Meets (Package.ico.perp (face o j a)) (Package.ico.perp (face o j b)) (Package.ico.perp (face o' k 0))
      (Package.ico.perp (face o' k 1)) (Package.ico.perp (face o' k 2)) t u v ∧
      x = Package.ico.perp (face o j a) + t • (Package.ico.perp (face o j b) - Package.ico.perp (face o j a)) := by
  have hdet := face_transversal (h' k.1) hd
  have hff := face_form (bc_spec (h' k.1) x) hf.2
  have h0 := (mem_solid_bc (h' k.1)).1 hf.1
  obtain ⟨e0, e1, e2⟩ := otherThree_succAbove k.2
  rw [e0, e1, e2] at hdet hff
  obtain ⟨c, t, hc0, ht0, hct, ht⟩ := hx
  have hxt : x = Package.ico.perp (face o j a) + t • (Package.ico.perp (face o j b) - Package.ico.perp (face o j a)) := by
    rw [← ht, show c = 1 - t by linarith]; module
  have hm : Meets (pieces o j.1 (j.2.succAbove a)) (pieces o j.1 (j.2.succAbove b)) (pieces o' k.1 (k.2.succAbove 0))
      (pieces o' k.1 (k.2.succAbove 1)) (pieces o' k.1 (k.2.succAbove 2)) t (bc (pieces o' k.1) x (k.2.succAbove 1))
      (bc (pieces o' k.1) x (k.2.succAbove 2)) := hxt.symm.trans hff.1
  refine ⟨hdet, ?_, t, _, _, hm, hxt⟩
  refine hits_of_edgeFace hc (Fin.strictMono_succAbove _ hab) (Fin.strictMono_succAbove _ (by decide))
    (Fin.strictMono_succAbove _ (by decide)) hdet hm ht0 (by linarith) (h0 _) (h0 _) ?_
  have := h0 (k.2.succAbove 0)
  linarith [hff.2]

/-- All crossing points of the edges of one surface with the faces of the other, exactly. -/
theorem crossings_exact {o o' : Obj 4} (h : WellFormed o) (h' : WellFormed o') (hcl : ∀ s ∈ o, ∀ t ∈ o', Clear (Package.ico.perps s)
    (Package.ico.perps t)) {s s' : Obj 3} (hs : ∀ f, f ∈ s ↔ ∃ j, FreeFace (pieces o) j.1 j.2 ∧ f = face o j)
    (hs' : ∀ f, f ∈ s' ↔ ∃ j, FreeFace (pieces o') j.1 j.2 ∧ f = face o' j) {E : Obj 2}
    (hE : ∀ e ∈ E, ∃ f ∈ s, ∃ i j, i < j ∧ e = edge f i j)
    (hall : ∀ f ∈ s, ∀ i j, i < j → ∃ e ∈ E,
        (Package.ico.perp (e 0) = Package.ico.perp (f i) ∧ Package.ico.perp (e 1) = Package.ico.perp (f j)) ∨
        (Package.ico.perp (e 0) = Package.ico.perp (f j) ∧ Package.ico.perp (e 1) = Package.ico.perp (f i))) :
    ∃ P, surfaceCrossings s' E = .ok P ∧
      (∀ v ∈ P, Vec.Ok v ∧ Package.ico.perp v ∈ Package.ico.region o ∩ Package.ico.region o') ∧
      ∀ x, FreeCross (pieces o) (pieces_det h') x → ∃ v ∈ P, Package.ico.perp v = x := by
  have hok : Obj.Ok s := by
    intro f hf
    obtain ⟨j, -, rfl⟩ := (hs f).1 hf
    exact face_ok h.ok j
  have hok' : Obj.Ok s' := by
    intro f hf
    obtain ⟨j, -, rfl⟩ := (hs' f).1 hf
    exact face_ok h'.ok j
  have hEok : Obj.Ok E := by
    intro e he
    obtain ⟨f, hf, i, j, -, rfl⟩ := hE e he
    intro k
    fin_cases k
    · exact hok f hf i
    · exact hok f hf j
  obtain ⟨P, hP, hsound, hcomp⟩ := crossings_ok hok' hEok
  refine ⟨P, hP, ?_, ?_⟩
  · intro v hv
    obtain ⟨g, hg, e, he, hm, hv'⟩ := hsound v hv
    obtain ⟨r, t, u, w, hr, hc, -, e1, e2, -⟩ := C34_point e g (hEok e he) (hok' g hg) hm
    rw [hv'] at hr
    cases hr
    obtain ⟨k, -, rfl⟩ := (hs' g).1 hg
    obtain ⟨f, hf, i, j, hij, rfl⟩ := hE e he
    obtain ⟨l, -, rfl⟩ := (hs f).1 hf
    rw [edge_zero, edge_one] at e1
    rw [C33_perp, edge_zero, edge_one] at hm
    have hi := Fin.strictMono_succAbove l.2 hij
    have h01 := Fin.strictMono_succAbove k.2 (by decide : (0 : Fin 3) < 1)
    have h12 := Fin.strictMono_succAbove k.2 (by decide : (1 : Fin 3) < 2)
    obtain ⟨t', u', w', hm', t0, t1, u0, w0, uw⟩ := (hcl _ (List.get_mem o l.1) _ (List.get_mem o' k.1)).hit _ _ _ _ _ hi h01 h12 hm
    have hd : Matrix.det (Matrix.of ![Package.ico.perp (face o l j) - Package.ico.perp (face o l i),
        Package.ico.perp (face o' k 2) - Package.ico.perp (face o' k 0),
        Package.ico.perp (face o' k 1) - Package.ico.perp (face o' k 0)]) ≠ 0 := by
      intro h0
      have := hm.1
      rw [h0, abs_zero] at this
      norm_num at this
    obtain ⟨et, eu, ew⟩ := meets_unique hd (e1.symm.trans e2) hm'
    refine ⟨hc.ok, ⟨_, List.get_mem o l.1, ?_⟩, ⟨_, List.get_mem o' k.1, ?_⟩⟩
    · rw [mem_solid_iff]
      subst et
      obtain ⟨y, hy, y0⟩ := near_edge (q := Package.ico.perps (o.get l.1)) (δ := 0) le_rfl hi.ne (x := Package.ico.perp v)
        (by linarith) (by linarith) e1
      exact ⟨y, hy, fun i => by simpa using y0 i⟩
    · rw [mem_solid_iff]
      subst eu ew
      obtain ⟨y, hy, y0⟩ := near_face (q := Package.ico.perps (o'.get k.1)) (δ := 0) le_rfl h01 h12 (x := Package.ico.perp v)
        (by linarith) (by linarith) (by linarith) e2
      exact ⟨y, hy, fun i => by simpa using y0 i⟩
  · rintro x ⟨a, l, hf, i, j, hi, hj, hij, hseg, b, m, hg, hgx, hd⟩
    obtain ⟨i', rfl⟩ := Fin.exists_succAbove_eq hi
    obtain ⟨j', rfl⟩ := Fin.exists_succAbove_eq hj
    have key : ∀ i j : Fin 3, i < j → x ∈ segment ℝ (Package.ico.perp (face o (a, l) i)) (Package.ico.perp (face o (a, l) j)) →
        dirCoord (pieces_det h' b) (Package.ico.perp (face o (a, l) j) - Package.ico.perp (face o (a, l) i)) m ≠ 0 →
        ∃ v ∈ P, Package.ico.perp v = x := by
      intro i j hij hseg hd
      have hmemf : face o (a, l) ∈ s := (hs _).2 ⟨_, hf, rfl⟩
      have hmemg : face o' (b, m) ∈ s' := (hs' _).2 ⟨_, hg, rfl⟩
      obtain ⟨hdet, hit, t, u, v, hm, hxt⟩ := cross_hits (j := (a, l)) (k := (b, m)) (pieces_det h')
        (hcl _ (List.get_mem o a) _ (List.get_mem o' b)) hij hseg hgx hd
      obtain ⟨e, he, hcase⟩ := hall _ hmemf i j hij
      have hmt : segmentMeetsTriangleTau e (face o' (b, m)) = true := by
        rw [C33_perp]
        rcases hcase with ⟨c, d⟩ | ⟨c, d⟩
        · rw [c, d]; exact hit
        · rw [c, d]; exact hits_swap hit
      obtain ⟨r, hrP, hr⟩ := hcomp _ hmemg e he hmt
      obtain ⟨r', t', u', w', hr', -, -, e1, e2, -⟩ := C34_point e _ (hEok e he) (hok' _ hmemg) hmt
      rw [hr] at hr'
      cases hr'
      refine ⟨r, hrP, ?_⟩
      rcases hcase with ⟨c, d⟩ | ⟨c, d⟩
      · rw [c, d] at e1
        obtain ⟨et, -, -⟩ := meets_unique hdet (e1.symm.trans e2) hm
        rw [e1, hxt, et]
      · rw [c, d] at e1
        have e1' : Package.ico.perp r = Package.ico.perp (face o (a, l) i) +
            (1 - t') • (Package.ico.perp (face o (a, l) j) - Package.ico.perp (face o (a, l) i)) := by rw [e1]; module
        obtain ⟨et, -, -⟩ := meets_unique hdet (e1'.symm.trans e2) hm
        rw [e1', hxt, et]
    rcases lt_or_gt_of_ne (fun e => hij (congrArg _ e) : i' ≠ j') with hlt | hlt
    · exact key i' j' hlt hseg hd
    · refine key j' i' hlt (by rw [segment_symm]; exact hseg) fun h0 => hd ?_
      rw [← neg_sub, map_neg, Pi.neg_apply]
      exact neg_eq_zero.2 h0

theorem surface_free {o : Obj 4} (h : WellFormed o) (hm : ToldByMiddles o) : ∃ s, generatorSurface1 o = .ok s ∧
    ∀ f, f ∈ s ↔ ∃ j, FreeFace (pieces o) j.1 j.2 ∧ f = face o j := by
  obtain ⟨J, hJ, -, hJ'⟩ := surface_faces h hm.faces
  refine ⟨_, hJ, fun f => ?_⟩
  rw [List.mem_map]
  constructor
  · rintro ⟨j, hj, rfl⟩
    exact ⟨j, (free_iff h hm _ _).2 ((hJ' j).1 hj), rfl⟩
  · rintro ⟨j, hj, rfl⟩
    exact ⟨j, (hJ' j).2 ((free_iff h hm _ _).1 hj), rfl⟩

/-- A corner of one object is accepted by the other exactly when it lies in it. -/
theorem accepted_region {o o' : Obj 4} (h' : WellFormed o') (hcl : ∀ s ∈ o, ∀ t ∈ o', Clear (Package.ico.perps s) (Package.ico.perps t))
    {s : Simplex 4} (hs : s ∈ o) (i : Fin 4) : AcceptedBy o' (Package.ico.perp (s i)) ↔ Package.ico.perp (s i) ∈ Package.ico.region o' := by
  constructor
  · rintro ⟨t, ht, ha⟩
    exact ⟨t, ht, (hcl s hs t ht).corner i ha⟩
  · rintro ⟨t, ht, hx⟩
    exact ⟨t, ht, (C32_exact _ _).1 (C32_complete _ _ (h'.vol t ht) hx)⟩

/-- The whole function for two convex objects: the surface corners `V1`, `V2` and the crossing points `P`. -/
theorem convex_points {o1 o2 : Obj 4} (h : ConvexPair o1 o2) {s1 s2 : Obj 3} (hs1 : generatorSurface1 o1 = .ok s1)
    (hs2 : generatorSurface1 o2 = .ok s2) :
    ∃ V1 V2 P : List (Vec 6),
      ((∀ v ∈ V1, Vec.Ok v ∧ (AcceptedBy o2 (Package.ico.perp v) ↔ Package.ico.perp v ∈ Package.ico.region o2) ∧
        Package.ico.perp v ∈ Package.ico.region o1 ∧ ∃ f ∈ s1, ∃ i, v = f i) ∧
      (∀ x, FreeCorner (pieces o1) x → ∃ v ∈ V1, Package.ico.perp v = x) ∧
      (∀ f ∈ s1, ∀ i, ∃ v ∈ V1, Package.ico.perp v = Package.ico.perp (f i))) ∧
      ((∀ v ∈ V2, Vec.Ok v ∧ (AcceptedBy o1 (Package.ico.perp v) ↔ Package.ico.perp v ∈ Package.ico.region o1) ∧
        Package.ico.perp v ∈ Package.ico.region o2 ∧ ∃ f ∈ s2, ∃ i, v = f i) ∧
      (∀ x, FreeCorner (pieces o2) x → ∃ v ∈ V2, Package.ico.perp v = x) ∧
      (∀ f ∈ s2, ∀ i, ∃ v ∈ V2, Package.ico.perp v = Package.ico.perp (f i))) ∧
      (∀ v ∈ P, Vec.Ok v ∧ Package.ico.perp v ∈ Package.ico.region o1 ∩ Package.ico.region o2) ∧
      (∀ x, FreeCross (pieces o1) (pieces_det h.wf2) x ∨ FreeCross (pieces o2) (pieces_det h.wf1) x →
        ∃ v ∈ P, Package.ico.perp v = x) ∧
      ∀ delaunay, intersectionTwoObjConvex delaunay o1 o2 =
        if (insideVertices V1 o2).length = V1.length then .ok (some o1)
        else if (insideVertices V2 o1).length = V2.length then .ok (some o2)
        else if P.length = 0 then .ok none
        else (do
          let point1 ← removeDoublingPerp .ico P
          if (insideVertices V1 o2).length = 0 then .error .unboundLocalError
          else if (insideVertices V2 o1).length = 0 then .error .unboundLocalError
          else do
            let points ← removeDoublingPerp .ico (point1 ++ insideVertices V1 o2 ++ insideVertices V2 o1)
            tetrahedralizationPoints delaunay points) := by
  have side : ∀ {o o' : Obj 4} {s : Obj 3}, WellFormed o → ToldByMiddles o → WellFormed o' →
      (∀ s ∈ o, ∀ t ∈ o', Clear (Package.ico.perps s) (Package.ico.perps t)) → generatorSurface1 o = .ok s →
      (∀ f, f ∈ s ↔ ∃ j, FreeFace (pieces o) j.1 j.2 ∧ f = face o j) ∧
      ∃ (E : Obj 2) (V : List (Vec 6)), generatorUniqueEdges .ico s = .ok E ∧ removeDoublingPerp .ico (flattenObj E) = .ok V ∧
      (∀ e ∈ E, ∃ f ∈ s, ∃ i j, i < j ∧ e = edge f i j) ∧
      (∀ f ∈ s, ∀ i j, i < j → ∃ e ∈ E,
        (Package.ico.perp (e 0) = Package.ico.perp (f i) ∧ Package.ico.perp (e 1) = Package.ico.perp (f j)) ∨
        (Package.ico.perp (e 0) = Package.ico.perp (f j) ∧ Package.ico.perp (e 1) = Package.ico.perp (f i))) ∧
      (∀ v ∈ V, Vec.Ok v ∧ (AcceptedBy o' (Package.ico.perp v) ↔ Package.ico.perp v ∈ Package.ico.region o') ∧
        Package.ico.perp v ∈ Package.ico.region o ∧ ∃ f ∈ s, ∃ i, v = f i) ∧
      (∀ x, FreeCorner (pieces o) x → ∃ v ∈ V, Package.ico.perp v = x) ∧
      (∀ f ∈ s, ∀ i, ∃ v ∈ V, Package.ico.perp v = Package.ico.perp (f i)) := by
    intro o o' s wf mid wf' cl hs
    obtain ⟨s', hs', hf⟩ := surface_free wf mid
    rw [hs] at hs'
    cases hs'
    have nc : NoClash s := noClash_of_middles wf mid fun f h => by
      obtain ⟨j, -, rfl⟩ := (hf f).1 h
      exact ⟨j, rfl⟩
    obtain ⟨E, V, hE, hV, hm, hc, hv, hn, -⟩ := surfaceVertices (surf_ok wf.ok hs)
    refine ⟨hf, E, V, hE, hV, hm, hc nc, ?_, ?_, hn nc⟩
    · intro v h
      obtain ⟨f, hfs, i, rfl⟩ := hv v h
      refine ⟨surf_ok wf.ok hs f hfs i, ?_, ?_, f, hfs, i, rfl⟩
      · obtain ⟨j, -, rfl⟩ := (hf f).1 hfs
        exact accepted_region wf' cl (List.get_mem o j.1) _
      · obtain ⟨j, -, rfl⟩ := (hf f).1 hfs
        exact ⟨_, List.get_mem o j.1, subset_convexHull ℝ _ ⟨j.2.succAbove i, rfl⟩⟩
    · rintro x ⟨a, l, hfree, i, hi, rfl⟩
      obtain ⟨k, rfl⟩ := Fin.exists_succAbove_eq hi
      exact hn nc (face o (a, l)) ((hf _).2 ⟨(a, l), hfree, rfl⟩) k
  obtain ⟨f1, E1, V1, hE1, hV1, hm1, hc1, a1, b1, c1⟩ := side h.wf1 h.mid1 h.wf2 h.clear12 hs1
  obtain ⟨f2, E2, V2, hE2, hV2, hm2, hc2, a2, b2, c2⟩ := side h.wf2 h.mid2 h.wf1 (fun t ht s hs => h.clear21 s hs t ht) hs2
  obtain ⟨P, hP, hPs, hPc⟩ := crossings_exact h.wf2 h.wf1 (fun t ht s hs => h.clear21 s hs t ht) f2 f1 hm2 hc2
  obtain ⟨Q, hQ, hQs, hQc⟩ := crossings_exact h.wf1 h.wf2 h.clear12 f1 f2 hm1 hc1
  refine ⟨V1, V2, P ++ Q, ⟨a1, b1, c1⟩, ⟨a2, b2, c2⟩, ?_, ?_, ?_⟩
  · intro v hv
    rcases List.mem_append.1 hv with hv | hv
    · exact ⟨(hPs v hv).1, (hPs v hv).2.2, (hPs v hv).2.1⟩
    · exact hQs v hv
  · rintro x (hx | hx)
    · obtain ⟨v, hv, e⟩ := hQc x hx
      exact ⟨v, List.mem_append_right _ hv, e⟩
    · obtain ⟨v, hv, e⟩ := hPc x hx
      exact ⟨v, List.mem_append_left _ hv, e⟩
  · intro delaunay
    unfold intersectionTwoObjConvex
    rw [hs1, bind_ok', hs2, bind_ok', hE1, bind_ok', hE2, bind_ok', hV1, bind_ok', hV2, bind_ok']
    simp only
    split
    · rfl
    · split
      · rfl
      · rw [hP, bind_ok', hQ, bind_ok']

/-- A convex object all of whose surface corners lie in a convex set lies in it. -/
theorem region_subset_of_corners {o : Obj 4} (h : WellFormed o) (hc : Convex ℝ (Package.ico.region o)) {B : Set (Fin 3 → ℝ)}
    (hB : Convex ℝ B) (hcl : IsClosed B) (hsub : ∀ x, FreeCorner (pieces o) x → x ∈ B) : Package.ico.region o ⊆ B := by
  rw [← covered_pieces] at hc ⊢
  have hk : IsCompact (covered (pieces o)) := covered_compact
  rw [← closure_convexHull_extremePoints hk hc]
  exact closure_minimal (convexHull_min (fun x hx => hsub x (extreme_single (pieces_det h) (pieces_apart h) hx)) hB) hcl

theorem region_closed (o : Obj 4) : IsClosed (Package.ico.region o) := by
  rw [← covered_pieces]
  exact covered_compact.isClosed

/-- The surface corners of the two objects inside each other and the crossing points span the common part. -/
theorem common_hull {o1 o2 : Obj 4} (h : ConvexPair o1 o2) {Q : Set (Fin 3 → ℝ)} (hf : Q.Finite)
    (hQ : Q ⊆ Package.ico.region o1 ∩ Package.ico.region o2)
    (c1 : ∀ x, FreeCorner (pieces o1) x → x ∈ Package.ico.region o2 → x ∈ Q)
    (c2 : ∀ x, FreeCorner (pieces o2) x → x ∈ Package.ico.region o1 → x ∈ Q)
    (hx : ∀ x, FreeCross (pieces o1) (pieces_det h.wf2) x ∨ FreeCross (pieces o2) (pieces_det h.wf1) x → x ∈ Q) :
    convexHull ℝ Q = Package.ico.region o1 ∩ Package.ico.region o2 := by
  refine Set.Subset.antisymm (convexHull_min hQ (h.conv1.inter h.conv2)) ?_
  have hk : IsCompact (Package.ico.region o1 ∩ Package.ico.region o2) := by
    rw [← covered_pieces o1]
    exact covered_compact.inter_right (region_closed o2)
  refine compact_subset_hull hk (h.conv1.inter h.conv2) hf fun x hxe => ?_
  have hm := (mem_extremePoints.1 hxe).1
  rw [← covered_pieces, ← covered_pieces] at hxe
  rcases extreme_union (pieces_det h.wf1) (pieces_det h.wf2) (pieces_apart h.wf1) (pieces_apart h.wf2) hxe with a | a | a | a
  · exact c1 x a hm.2
  · exact c2 x a hm.1
  · exact hx x (.inl a)
  · exact hx x (.inr a)

/-- No crossing: the objects are nested or have no common interior point. -/
theorem nested_objects {o1 o2 : Obj 4} (h : ConvexPair o1 o2) (n1 : ∀ x, ¬ FreeCross (pieces o1) (pieces_det h.wf2) x)
    (n2 : ∀ x, ¬ FreeCross (pieces o2) (pieces_det h.wf1) x)
    (hi : (interior (Package.ico.region o1 ∩ Package.ico.region o2)).Nonempty) :
    Package.ico.region o1 ⊆ Package.ico.region o2 ∨ Package.ico.region o2 ⊆ Package.ico.region o1 := by
  obtain ⟨w, hw⟩ := hi
  rw [interior_inter] at hw
  have := nested_of_no_cross (pieces_det h.wf1) (pieces_det h.wf2) (pieces_apart h.wf1) (pieces_apart h.wf2)
    (by rw [covered_pieces]; exact h.conv1) (by rw [covered_pieces]; exact h.conv2) n1 n2 (w := w)
    (by rw [covered_pieces]; exact hw.1) (by rw [covered_pieces]; exact hw.2)
  rwa [covered_pieces, covered_pieces] at this

/-- The case in which a new object is made. -/
theorem convex_new {o1 o2 : Obj 4} (h : ConvexPair o1 o2) {s1 s2 : Obj 3} (hs1 : generatorSurface1 o1 = .ok s1)
    (hs2 : generatorSurface1 o2 = .ok s2) :
    ((Package.ico.region o1 ⊆ Package.ico.region o2) ∧
      ∀ delaunay, intersectionTwoObjConvex delaunay o1 o2 = .ok (some o1)) ∨
    ((Package.ico.region o2 ⊆ Package.ico.region o1) ∧ ¬ (Package.ico.region o1 ⊆ Package.ico.region o2) ∧
      ∀ delaunay, intersectionTwoObjConvex delaunay o1 o2 = .ok (some o2)) ∨
    (¬ (Package.ico.region o1 ⊆ Package.ico.region o2) ∧ ¬ (Package.ico.region o2 ⊆ Package.ico.region o1) ∧
      ((interior (Package.ico.region o1 ∩ Package.ico.region o2) = ∅ ∧
        ∀ delaunay, intersectionTwoObjConvex delaunay o1 o2 = .ok none) ∨
      (((∀ f ∈ s1, ∀ i, Package.ico.perp (f i) ∉ Package.ico.region o2) ∨
          ∀ g ∈ s2, ∀ j, Package.ico.perp (g j) ∉ Package.ico.region o1) ∧
        (Package.ico.region o1 ∩ Package.ico.region o2).Nonempty ∧
        ∀ delaunay, intersectionTwoObjConvex delaunay o1 o2 = .error .unboundLocalError) ∨
      ((∃ f ∈ s1, ∃ i, Package.ico.perp (f i) ∈ Package.ico.region o2) ∧
        (∃ g ∈ s2, ∃ j, Package.ico.perp (g j) ∈ Package.ico.region o1) ∧
        ∃ pts : List (Vec 6), (∀ v ∈ pts, Vec.Ok v) ∧
          convexHull ℝ {x | ∃ v ∈ pts, Package.ico.perp v = x} = Package.ico.region o1 ∩ Package.ico.region o2 ∧
          ∀ delaunay, intersectionTwoObjConvex delaunay o1 o2 = tetrahedralizationPoints delaunay pts))) := by
  obtain ⟨V1, V2, P, ⟨a1, b1, d1⟩, ⟨a2, b2, d2⟩, hP, hPc, he⟩ := convex_points h hs1 hs2
  have all1 : (insideVertices V1 o2).length = V1.length ↔ Package.ico.region o1 ⊆ Package.ico.region o2 := by
    rw [insideAll_iff]
    constructor
    · intro hall
      refine region_subset_of_corners h.wf1 h.conv1 h.conv2 (region_closed o2) fun x hx => ?_
      obtain ⟨v, hv, rfl⟩ := b1 x hx
      exact (a1 v hv).2.1.1 (hall v hv)
    · exact fun hsub v hv => (a1 v hv).2.1.2 (hsub (a1 v hv).2.2.1)
  have all2 : (insideVertices V2 o1).length = V2.length ↔ Package.ico.region o2 ⊆ Package.ico.region o1 := by
    rw [insideAll_iff]
    constructor
    · intro hall
      refine region_subset_of_corners h.wf2 h.conv2 h.conv1 (region_closed o1) fun x hx => ?_
      obtain ⟨v, hv, rfl⟩ := b2 x hx
      exact (a2 v hv).2.1.1 (hall v hv)
    · exact fun hsub v hv => (a2 v hv).2.1.2 (hsub (a2 v hv).2.2.1)
  have none1 : (insideVertices V1 o2).length = 0 ↔ ∀ f ∈ s1, ∀ i, Package.ico.perp (f i) ∉ Package.ico.region o2 := by
    rw [insideNone_iff]
    constructor
    · intro hall f hf i
      obtain ⟨v, hv, e⟩ := d1 f hf i
      rw [← e]
      exact fun hin => hall v hv ((a1 v hv).2.1.2 hin)
    · intro hall v hv hacc
      obtain ⟨f, hf, i, e⟩ := (a1 v hv).2.2.2
      exact hall f hf i (e ▸ (a1 v hv).2.1.1 hacc)
  have none2 : (insideVertices V2 o1).length = 0 ↔ ∀ f ∈ s2, ∀ i, Package.ico.perp (f i) ∉ Package.ico.region o1 := by
    rw [insideNone_iff]
    constructor
    · intro hall f hf i
      obtain ⟨v, hv, e⟩ := d2 f hf i
      rw [← e]
      exact fun hin => hall v hv ((a2 v hv).2.1.2 hin)
    · intro hall v hv hacc
      obtain ⟨f, hf, i, e⟩ := (a2 v hv).2.2.2
      exact hall f hf i (e ▸ (a2 v hv).2.1.1 hacc)
  by_cases n1 : Package.ico.region o1 ⊆ Package.ico.region o2
  · exact .inl ⟨n1, fun delaunay => by rw [he, if_pos (all1.2 n1)]⟩
  by_cases n2 : Package.ico.region o2 ⊆ Package.ico.region o1
  · exact .inr (.inl ⟨n2, n1, fun delaunay => by rw [he, if_neg (mt all1.1 n1), if_pos (all2.2 n2)]⟩)
  refine .inr (.inr ⟨n1, n2, ?_⟩)
  by_cases c3 : P.length = 0
  · left
    have hnil := List.length_eq_zero_iff.1 c3
    refine ⟨?_, fun delaunay => by rw [he, if_neg (mt all1.1 n1), if_neg (mt all2.1 n2), if_pos c3]⟩
    rw [← Set.not_nonempty_iff_eq_empty]
    intro hi
    have no : ∀ x, ¬ (FreeCross (pieces o1) (pieces_det h.wf2) x ∨ FreeCross (pieces o2) (pieces_det h.wf1) x) := by
      intro x hx
      obtain ⟨v, hv, -⟩ := hPc x hx
      rw [hnil] at hv
      cases hv
    rcases nested_objects h (fun x hx => no x (.inl hx)) (fun x hx => no x (.inr hx)) hi with hn | hn
    · exact n1 hn
    · exact n2 hn
  right
  obtain ⟨p1, hp1, hsub1, -, hex1⟩ := C24_one_per_point .ico P fun v hv => (hP v hv).1
  have heq : ∀ delaunay, intersectionTwoObjConvex delaunay o1 o2 =
      (if (insideVertices V1 o2).length = 0 then .error .unboundLocalError
          else if (insideVertices V2 o1).length = 0 then .error .unboundLocalError
          else do
            let points ← removeDoublingPerp .ico (p1 ++ insideVertices V1 o2 ++ insideVertices V2 o1)
            tetrahedralizationPoints delaunay points) := by
    intro delaunay
    rw [he, if_neg (mt all1.1 n1), if_neg (mt all2.1 n2), if_neg c3, hp1, bind_ok']
  have hne : (Package.ico.region o1 ∩ Package.ico.region o2).Nonempty := by
    obtain ⟨v, hv⟩ := List.exists_mem_of_length_pos (Nat.pos_of_ne_zero c3)
    exact ⟨_, (hP v hv).2⟩
  by_cases z1 : (insideVertices V1 o2).length = 0
  · exact .inl ⟨.inl (none1.1 z1), hne, fun delaunay => by rw [heq, if_pos z1]⟩
  by_cases z2 : (insideVertices V2 o1).length = 0
  · exact .inl ⟨.inr (none2.1 z2), hne, fun delaunay => by rw [heq, if_neg z1, if_pos z2]⟩
  right
  have e1 : ∃ f ∈ s1, ∃ i, Package.ico.perp (f i) ∈ Package.ico.region o2 := by
    have := mt none1.2 z1
    push Not at this
    exact this
  have e2 : ∃ f ∈ s2, ∃ i, Package.ico.perp (f i) ∈ Package.ico.region o1 := by
    have := mt none2.2 z2
    push Not at this
    exact this
  have hall : ∀ v ∈ p1 ++ insideVertices V1 o2 ++ insideVertices V2 o1,
      Vec.Ok v ∧ Package.ico.perp v ∈ Package.ico.region o1 ∩ Package.ico.region o2 := by
    intro v hv
    rcases List.mem_append.1 hv with hv | hv
    · rcases List.mem_append.1 hv with hv | hv
      · exact hP v (hsub1 v hv)
      · obtain ⟨hv, ha⟩ := List.mem_filter.1 hv
        obtain ⟨k1, k2, k3, -⟩ := a1 v hv
        exact ⟨k1, k3, k2.1 ((accepted_any _ _).1 ha)⟩
    · obtain ⟨hv, ha⟩ := List.mem_filter.1 hv
      obtain ⟨k1, k2, k3, -⟩ := a2 v hv
      exact ⟨k1, k2.1 ((accepted_any _ _).1 ha), k3⟩
  obtain ⟨pts, hpts, hsub, -, hex⟩ := C24_one_per_point .ico _ fun v hv => (hall v hv).1
  refine ⟨e1, e2, pts, fun v hv => (hall v (hsub v hv)).1, ?_, fun delaunay => by
    rw [heq, if_neg z1, if_neg z2, hpts, bind_ok']⟩
  have get : ∀ v ∈ p1 ++ insideVertices V1 o2 ++ insideVertices V2 o1, ∃ w ∈ pts, Package.ico.perp w = Package.ico.perp v := by
    intro v hv
    obtain ⟨w, ⟨h1, h2⟩, -⟩ := hex v hv
    exact ⟨w, h1, h2⟩
  refine common_hull h ?_ ?_ ?_ ?_ ?_
  · rw [map_perp_set]; exact List.finite_toSet _
  · rintro x ⟨v, hv, rfl⟩
    exact (hall v (hsub v hv)).2
  · intro x hx hin
    obtain ⟨v, hv, rfl⟩ := b1 x hx
    exact get v (List.mem_append_left _ (List.mem_append_right _ (List.mem_filter.2 ⟨hv, (accepted_any _ _).2 ((a1 v hv).2.1.2 hin)⟩)))
  · intro x hx hin
    obtain ⟨v, hv, rfl⟩ := b2 x hx
    exact get v (List.mem_append_right _ (List.mem_filter.2 ⟨hv, (accepted_any _ _).2 ((a2 v hv).2.1.2 hin)⟩))
  · intro x hx
    obtain ⟨v, hv, rfl⟩ := hPc x hx
    obtain ⟨w, ⟨hw, hw'⟩, -⟩ := hex1 v hv
    obtain ⟨y, hy, hy'⟩ := get w (List.mem_append_left _ (List.mem_append_left _ hw))
    exact ⟨y, hy, hy'.trans hw'⟩

/-- Tetrahedralising points not in one plane fills their convex hull. -/
theorem tetrahedralization_fills {delaunay : Delaunay} (hD : FillsHull delaunay) {pts : List (Vec 6)} (hp : ∀ v ∈ pts, Vec.Ok v)
    (hn : ¬ InPlane (pts.map Package.ico.perp)) : ∃ o, tetrahedralizationPoints delaunay pts = .ok (some o) ∧
      Package.ico.region o = convexHull ℝ {x | ∃ v ∈ pts, Package.ico.perp v = x} := by
  obtain ⟨l, hl, hidx, hcov⟩ := hD _ hn
  have hidx' : ∀ i ∈ l, ∀ k, i k < pts.length := fun i hi k => by simpa using hidx i hi k
  have h0 : pts ≠ [] := by rintro rfl; exact hn (inPlane_few (by simp))
  have hget : ∀ i (hi : i ∈ l), (fun k => (pts.map Package.ico.perp)[i k]'(hidx i hi k)) =
      Package.ico.perps (fun k => pts[i k]'(hidx' i hi k)) := by
    intro i hi
    funext k
    rw [List.getElem_map]
    rfl
  have hmm : ∀ i (hi : i ∈ l), (fun k => pts[i k]'(hidx' i hi k)) ∈
      l.attach.map fun i => fun k => pts[i.1 k]'(hidx' i.1 i.2 k) := by
    intro i hi
    rw [List.mem_map]
    exact ⟨⟨i, hi⟩, List.mem_attach _ _, rfl⟩
  rw [map_perp_set]
  rcases C50_tetrahedralization delaunay pts h0 hp l hl hidx' with ⟨o, ho, -, -, hmem, -⟩ | ⟨-, hz⟩
  · have hall : ∀ a ∈ o, ∀ k, a k ∈ pts := fun a ha => ((C50_sound delaunay pts hp o ho).2 a ha).1
    refine ⟨o, ho, Set.Subset.antisymm ?_ ?_⟩
    · rw [← map_perp_set]; exact region_subset_hull hall
    · intro x hx
      obtain ⟨i, hi, hv, hx⟩ := hcov x hx
      rw [hget i hi] at hv hx
      exact ⟨_, (hmem _).2 ⟨hmm i hi, hv⟩, hx⟩
  · exfalso
    obtain ⟨v, hv⟩ := List.exists_mem_of_ne_nil _ h0
    obtain ⟨i, hi, hv, -⟩ := hcov _ (subset_convexHull ℝ _ (List.mem_map_of_mem (f := Package.ico.perp) hv))
    rw [hget i hi] at hv
    exact hv (hz _ (hmm i hi))

/-- Points that span a set with interior points are not in one plane. -/
theorem not_inPlane_of_interior {pts : List (Vec 6)} {A : Set (Fin 3 → ℝ)}
    (h : convexHull ℝ {x | ∃ v ∈ pts, Package.ico.perp v = x} = A) (hi : (interior A).Nonempty) :
    ¬ InPlane (pts.map Package.ico.perp) := by
  intro hpl
  rw [← h, map_perp_set] at hi
  exact hull_flat hpl hi

theorem solid_interior {q : Fin 4 → Fin 3 → ℝ} (h : det4 q ≠ 0) : (interior (solid q)).Nonempty := by
  have hb : IsBary q (fun _ => 1 / 4) (∑ i, (1 / 4 : ℝ) • q i) := ⟨by norm_num, rfl⟩
  refine ⟨∑ i, (1 / 4 : ℝ) • q i, (interior_bc h).2 fun i => ?_⟩
  rw [bc_eq h hb]
  norm_num

/-- A returned piece has interior points, which lie in the hull of the points. -/
theorem interior_of_some {delaunay : Delaunay} {pts : List (Vec 6)} (hp : ∀ v ∈ pts, Vec.Ok v) {r : Obj 4}
    (hr : tetrahedralizationPoints delaunay pts = .ok (some r)) :
    (interior (convexHull ℝ {x | ∃ v ∈ pts, Package.ico.perp v = x})).Nonempty := by
  obtain ⟨hne, hm⟩ := C50_sound delaunay pts hp r hr
  obtain ⟨t, ht⟩ := List.exists_mem_of_ne_nil _ hne
  refine Set.Nonempty.mono (interior_mono ?_) (solid_interior (det4_ne_iff.2 (hm t ht).2))
  have hsub : solid (Package.ico.perps t) ⊆ Package.ico.region r := fun x hx => ⟨t, ht, hx⟩
  exact hsub.trans (region_subset_hull fun a ha => (hm a ha).1)

/-! ## The theorems -/

/-- C100: for two convex objects away from the tolerances, with a library that fills convex hulls, a returned object covers
exactly the common part; and `None` is returned only if the objects have no common interior point. -/
theorem C100_exact (delaunay : Delaunay) (hD : FillsHull delaunay) (o1 o2 : Obj 4) (h : ConvexPair o1 o2) :
    (∀ r, intersectionConvexApi delaunay (.d4 o1) (.d4 o2) = .ok (some r) →
      Package.ico.region r = Package.ico.region o1 ∩ Package.ico.region o2) ∧
    (intersectionConvexApi delaunay (.d4 o1) (.d4 o2) = .ok none →
      interior (Package.ico.region o1 ∩ Package.ico.region o2) = ∅) := by
  change (∀ r, intersectionTwoObjConvex delaunay o1 o2 = _ → _) ∧ (intersectionTwoObjConvex delaunay o1 o2 = _ → _)
  obtain ⟨s1, hs1, -⟩ := surface_free h.wf1 h.mid1
  obtain ⟨s2, hs2, -⟩ := surface_free h.wf2 h.mid2
  rcases convex_new h hs1 hs2 with ⟨hn, he⟩ | ⟨hn, -, he⟩ | ⟨-, -, ⟨hi, he⟩ | ⟨-, -, he⟩ | ⟨-, -, pts, hok, hh, he⟩⟩
  · rw [he]
    refine ⟨fun r hr => ?_, fun hr => by cases hr⟩
    cases hr
    exact (Set.inter_eq_left.2 hn).symm
  · rw [he]
    refine ⟨fun r hr => ?_, fun hr => by cases hr⟩
    cases hr
    exact (Set.inter_eq_right.2 hn).symm
  · rw [he]
    exact ⟨fun r hr => (by cases hr), fun _ => hi⟩
  · rw [he]
    exact ⟨fun r hr => (by cases hr), fun hr => (by cases hr)⟩
  · rw [he]
    constructor
    · intro r hr
      have hi := interior_of_some hok hr
      obtain ⟨r', hr', hreg⟩ := tetrahedralization_fills hD hok (not_inPlane_of_interior rfl hi)
      rw [hr] at hr'
      cases hr'
      rw [hreg, hh]
    · intro hr
      by_contra hi
      obtain ⟨r', hr', -⟩ := tetrahedralization_fills hD hok
        (not_inPlane_of_interior hh (Set.nonempty_iff_ne_empty.2 hi))
      rw [hr] at hr'
      cases hr'

/-- C100: an object inside the other is returned as it is; the first one if they cover the same region. -/
theorem C100_nested (delaunay : Delaunay) (o1 o2 : Obj 4) (h : ConvexPair o1 o2) :
    (Package.ico.region o1 ⊆ Package.ico.region o2 → intersectionConvexApi delaunay (.d4 o1) (.d4 o2) = .ok (some o1)) ∧
    (Package.ico.region o2 ⊆ Package.ico.region o1 → ¬ Package.ico.region o1 ⊆ Package.ico.region o2 →
      intersectionConvexApi delaunay (.d4 o1) (.d4 o2) = .ok (some o2)) := by
  change (_ → intersectionTwoObjConvex delaunay o1 o2 = _) ∧ (_ → _ → intersectionTwoObjConvex delaunay o1 o2 = _)
  obtain ⟨s1, hs1, -⟩ := surface_free h.wf1 h.mid1
  obtain ⟨s2, hs2, -⟩ := surface_free h.wf2 h.mid2
  rcases convex_new h hs1 hs2 with ⟨hn, he⟩ | ⟨hn, hn', he⟩ | ⟨hn, hn', -⟩
  · exact ⟨fun _ => he _, fun _ hc => absurd hn hc⟩
  · exact ⟨fun hc => absurd hc hn', fun _ _ => he _⟩
  · exact ⟨fun hc => absurd hc hn, fun hc _ => absurd hc hn'⟩

/-- C100: when the objects have a common interior point, either an object covering exactly the common part is returned, or
UnboundLocalError is raised; the latter exactly when neither object contains the other and one of the surfaces has no corner in
the other object. -/
theorem C100_outcome (delaunay : Delaunay) (hD : FillsHull delaunay) (o1 o2 : Obj 4) (h : ConvexPair o1 o2)
    (hi : (interior (Package.ico.region o1 ∩ Package.ico.region o2)).Nonempty) :
    ∃ s1 s2, generatorSurface1 o1 = .ok s1 ∧ generatorSurface1 o2 = .ok s2 ∧
      (let stuck := ¬ Package.ico.region o1 ⊆ Package.ico.region o2 ∧ ¬ Package.ico.region o2 ⊆ Package.ico.region o1 ∧
        ((∀ f ∈ s1, ∀ i, Package.ico.perp (f i) ∉ Package.ico.region o2) ∨
          ∀ g ∈ s2, ∀ j, Package.ico.perp (g j) ∉ Package.ico.region o1)
      (stuck → intersectionConvexApi delaunay (.d4 o1) (.d4 o2) = .error .unboundLocalError) ∧
      (¬ stuck → ∃ r, intersectionConvexApi delaunay (.d4 o1) (.d4 o2) = .ok (some r) ∧
        Package.ico.region r = Package.ico.region o1 ∩ Package.ico.region o2)) := by
  obtain ⟨s1, hs1, -⟩ := surface_free h.wf1 h.mid1
  obtain ⟨s2, hs2, -⟩ := surface_free h.wf2 h.mid2
  refine ⟨s1, s2, hs1, hs2, ?_⟩
  dsimp only
  change (_ → intersectionTwoObjConvex delaunay o1 o2 = _) ∧ (_ → ∃ r, intersectionTwoObjConvex delaunay o1 o2 = _ ∧ _)
  rcases convex_new h hs1 hs2 with ⟨hn, he⟩ | ⟨hn, hn', he⟩ | ⟨hn, hn', ⟨hi', -⟩ | ⟨hs, -, he⟩ | ⟨⟨f, hf, i, hfi⟩, ⟨g, hg, j, hgj⟩, pts, hok, hh, he⟩⟩
  · exact ⟨fun hc => absurd hn hc.1, fun _ => ⟨o1, he _, (Set.inter_eq_left.2 hn).symm⟩⟩
  · exact ⟨fun hc => absurd hn hc.2.1, fun _ => ⟨o2, he _, (Set.inter_eq_right.2 hn).symm⟩⟩
  · exact absurd hi' hi.ne_empty
  · exact ⟨fun _ => he _, fun hc => absurd ⟨hn, hn', hs⟩ hc⟩
  · constructor
    · rintro ⟨-, -, hc | hc⟩
      · exact absurd hfi (hc f hf i)
      · exact absurd hgj (hc g hg j)
    · intro _
      obtain ⟨r, hr, hreg⟩ := tetrahedralization_fills hD hok (not_inPlane_of_interior hh hi)
      exact ⟨r, (he _).trans hr, hreg.trans hh⟩

/-- C100: objects that only touch, or do not meet at all, never give an object, whatever the library answers; and objects that do
not meet give `None`. -/
theorem C100_no_overlap (delaunay : Delaunay) (o1 o2 : Obj 4) (h : ConvexPair o1 o2) :
    (interior (Package.ico.region o1 ∩ Package.ico.region o2) = ∅ →
      ∀ r, intersectionConvexApi delaunay (.d4 o1) (.d4 o2) ≠ .ok (some r)) ∧
    (Package.ico.region o1 ∩ Package.ico.region o2 = ∅ → intersectionConvexApi delaunay (.d4 o1) (.d4 o2) = .ok none) := by
  change (_ → ∀ r, intersectionTwoObjConvex delaunay o1 o2 ≠ _) ∧ (_ → intersectionTwoObjConvex delaunay o1 o2 = _)
  have full : ∀ {o : Obj 4}, WellFormed o → (interior (Package.ico.region o)).Nonempty := by
    intro o ho
    obtain ⟨t, ht⟩ := List.exists_mem_of_ne_nil _ ho.ne
    have hsub : solid (Package.ico.perps t) ⊆ Package.ico.region o := fun x hx => ⟨t, ht, hx⟩
    exact (solid_interior (det_of_wf ho t ht)).mono (interior_mono hsub)
  have nest1 : Package.ico.region o1 ⊆ Package.ico.region o2 →
      interior (Package.ico.region o1 ∩ Package.ico.region o2) ≠ ∅ := by
    intro hn
    rw [Set.inter_eq_left.2 hn]
    exact (full h.wf1).ne_empty
  have nest2 : Package.ico.region o2 ⊆ Package.ico.region o1 →
      interior (Package.ico.region o1 ∩ Package.ico.region o2) ≠ ∅ := by
    intro hn
    rw [Set.inter_eq_right.2 hn]
    exact (full h.wf2).ne_empty
  obtain ⟨s1, hs1, -⟩ := surface_free h.wf1 h.mid1
  obtain ⟨s2, hs2, hf2⟩ := surface_free h.wf2 h.mid2
  rcases convex_new h hs1 hs2 with ⟨hn, he⟩ | ⟨hn, -, he⟩ | ⟨-, -, ⟨hi, he⟩ | ⟨-, hne, he⟩ | ⟨-, ⟨g, hg, j, hgj⟩, pts, hok, hh, he⟩⟩
  · exact ⟨fun hi => absurd hi (nest1 hn), fun h0 => absurd (by rw [h0, interior_empty]) (nest1 hn)⟩
  · exact ⟨fun hi => absurd hi (nest2 hn), fun h0 => absurd (by rw [h0, interior_empty]) (nest2 hn)⟩
  · rw [he]
    exact ⟨fun _ r hr => (by cases hr), fun _ => rfl⟩
  · rw [he]
    exact ⟨fun _ r hr => (by cases hr), fun h0 => absurd h0 hne.ne_empty⟩
  · rw [he]
    constructor
    · intro hi r hr
      have := interior_of_some hok hr
      rw [hh, hi] at this
      exact Set.not_nonempty_empty this
    · intro h0
      obtain ⟨k, -, rfl⟩ := (hf2 g).1 hg
      have hmem : Package.ico.perp (face o2 k j) ∈ Package.ico.region o1 ∩ Package.ico.region o2 :=
        ⟨hgj, _, List.get_mem o2 k.1, subset_convexHull ℝ _ ⟨k.2.succAbove j, rfl⟩⟩
      rw [h0] at hmem
      exact absurd hmem (Set.notMem_empty _)

/-- C100: with a library that tiles convex hulls, the exact volume of a returned object is the Lebesgue measure of the common
part. -/
theorem C100_volume (delaunay : Delaunay) (hD : TilesHull delaunay) (o1 o2 : Obj 4) (h : ConvexPair o1 o2) (r : Obj 4)
    (hr : intersectionConvexApi delaunay (.d4 o1) (.d4 o2) = .ok (some r)) :
    ∃ w, objVolume6d (.d4 r) = .ok (some w) ∧
      ENNReal.ofReal (w.val tau) = volume (Package.ico.region o1 ∩ Package.ico.region o2) := by
  have hreg := (C100_exact delaunay hD.1 o1 o2 h).1 r hr
  have key : Obj.Ok r ∧ Package.ico.NoOverlap r := by
    change intersectionTwoObjConvex delaunay o1 o2 = _ at hr
    obtain ⟨s1, hs1, -⟩ := surface_free h.wf1 h.mid1
    obtain ⟨s2, hs2, -⟩ := surface_free h.wf2 h.mid2
    rcases convex_new h hs1 hs2 with ⟨hn, he⟩ | ⟨hn, -, he⟩ | ⟨-, -, ⟨hi, he⟩ | ⟨-, -, he⟩ | ⟨-, -, pts, hok, hh, he⟩⟩ <;> rw [he] at hr
    · cases hr
      exact ⟨h.wf1.ok, h.wf1.apart⟩
    · cases hr
      exact ⟨h.wf2.ok, h.wf2.apart⟩
    · cases hr
    · cases hr
    · exact ⟨fun t ht k => hok _ (((C50_sound delaunay pts hok r hr).2 t ht).1 k), tetrahedralization_noOverlap hD hok hr⟩
  obtain ⟨w, hw, -, he⟩ := C62_object r key.1
  exact ⟨w, hw, by rw [← hreg, he.2 key.2]⟩

/-! ## Cases that meet the hypotheses -/

/-- A sharp object is told by its middles. -/
theorem Sharp.told {o : Obj 4} (h : Sharp o) : ToldByMiddles o := ⟨h.faces, h.edges⟩

/-- Two objects on a common grid are away from the tolerances if the determinants are small. -/
theorem convexPair_grid {o1 o2 : Obj 4} (w1 : WellFormed o1) (w2 : WellFormed o2) (t1 : ToldByMiddles o1) (t2 : ToldByMiddles o2)
    (c1 : Convex ℝ (Package.ico.region o1)) (c2 : Convex ℝ (Package.ico.region o2)) (A : Fin o1.length → Fin 4 → Fin 3 → ℤ)
    (B : Fin o2.length → Fin 4 → Fin 3 → ℤ) (n : ℕ) (hn : 0 < n) (hn3 : n ^ 3 ≤ 10 ^ 6)
    (hA : ∀ a i j, Package.ico.perp (o1.get a i) j = A a i j / n) (hB : ∀ a i j, Package.ico.perp (o2.get a i) j = B a i j / n)
    (dA : ∀ a, detZ (A a) ≠ 0 ∧ |detZ (A a)| < 10 ^ 6) (dB : ∀ b, detZ (B b) ≠ 0 ∧ |detZ (B b)| < 10 ^ 6)
    (e : ∀ a b, ∀ i j k l m : Fin 4, i < j → k < l → l < m → |edgeFaceZ (A a) (B b) i j k l m| < 10 ^ 6 ∧
      |edgeFaceZ (B b) (A a) i j k l m| < 10 ^ 6) : ConvexPair o1 o2 := by
  refine ⟨w1, w2, t1, t2, c1, c2, ?_, ?_⟩
  · intro s hs t ht
    obtain ⟨a, rfl⟩ := List.get_of_mem hs
    obtain ⟨b, rfl⟩ := List.get_of_mem ht
    exact clear_int hn hn3 (hA a) (hB b) (dB b).1 (dB b).2 fun i j k l m h1 h2 h3 => (e a b i j k l m h1 h2 h3).1
  · intro s hs t ht
    obtain ⟨a, rfl⟩ := List.get_of_mem hs
    obtain ⟨b, rfl⟩ := List.get_of_mem ht
    exact clear_int hn hn3 (hB b) (hA a) (dA a).1 (dA a).2 fun i j k l m h1 h2 h3 => (e a b i j k l m h1 h2 h3).2

theorem free_grid {o : Obj 4} (A : Fin o.length → Fin 4 → Fin 3 → ℤ) (n : ℕ) (hn : 0 < n)
    (hA : ∀ a i j, Package.ico.perp (o.get a i) j = A a i j / n) (a : Fin o.length) (l : Fin 4)
    (h : ∀ b m, (b, m) ≠ (a, l) → ∃ i, i ≠ l ∧ ∀ k, k ≠ m → A a i ≠ A b k) : FreeFace (pieces o) a l := by
  have hn0 : (n : ℝ) ≠ 0 := by exact_mod_cast hn.ne'
  intro b m hne he
  obtain ⟨i, hi, hk⟩ := h b m hne
  have : pieces o a i ∈ pieces o b '' {k | k ≠ m} := he ▸ ⟨i, hi, rfl⟩
  obtain ⟨k, hkm, e⟩ := this
  refine hk k hkm (funext fun j => ?_)
  have e' : Package.ico.perp (o.get b k) j = Package.ico.perp (o.get a i) j := congrFun e j
  rw [hA, hA, div_left_inj' hn0] at e'
  exact_mod_cast e'.symm

/-- A single tetrahedron on a grid meets the conditions on one object. -/
theorem single_grid (t : Simplex 4) (ht : Simplex.Ok t) (A : Fin 4 → Fin 3 → ℤ) (n M : ℕ) (hn : 0 < n)
    (hA : ∀ i j, Package.ico.perp (t i) j = A i j / n) (hM : ∀ i j, |A i j| ≤ M)
    (hn3 : n ^ 3 ≤ 10 ^ 10) (hn2 : 2 * n ^ 2 ≤ 10 ^ 6) (hMn : 24 * M ^ 2 * n ^ 2 ≤ 10 ^ 6) (hC : 3 * n + 3000 * M < 10 ^ 8)
    (hd : detZ A ≠ 0)
    (hfaces : ∀ i j : Fin 4, (∀ c, ∑ k, A (i.succAbove k) c = ∑ k, A (j.succAbove k) c) →
      SameZ (fun k => A (i.succAbove k)) (fun k => A (j.succAbove k)))
    (hmeet : ∀ i j : Fin 4, SameZ (fun k => A (i.succAbove k)) (fun k => A (j.succAbove k)) ∨
      ∃ k, detZ ![A (i.succAbove 0), A (i.succAbove 1), A (i.succAbove 2), A (j.succAbove k)] ≠ 0)
    (hedges : ∀ i j k l : Fin 4, i ≠ j → k ≠ l → (∀ c, A i c + A j c = A k c + A l c) →
      SameZ ![A i, A j] ![A k, A l]) :
    WellFormed [t] ∧ ToldByMiddles [t] ∧ Convex ℝ (Package.ico.region [t]) := by
  have hA' : ∀ (a : Fin [t].length) i j, Package.ico.perp ([t].get a i) j = A i j / n := by
    intro a i j
    rw [List.mem_singleton.1 (List.get_mem [t] a)]
    exact hA i j
  refine ⟨wellFormed_grid _ (fun _ => A) n hn (by simp) (singleton_ok ht) hA' (fun _ => hd) ?_, ?_, ?_⟩
  · intro a b hab
    have ha := a.2
    have hb := b.2
    simp only [List.length_singleton] at ha hb
    exact absurd (Fin.lt_def.1 hab) (by omega)
  · refine (sharp_grid [t] (fun _ => A) n M hn hA' (fun _ => hM) hn3 hn2 hMn hC (fun i j => hfaces i.2 j.2) ?_
      fun _ _ => hedges).told
    intro i j
    rcases hmeet i.2 j.2 with h | h
    exacts [.inl h, .inr (.inl h)]
  · have : Package.ico.region [t] = solid (Package.ico.perps t) := by
      ext x
      simp [Package.region]
    rw [this]
    exact convex_convexHull ℝ _

def exSpearZ : Fin 4 → Fin 3 → ℤ := ![![-2, -2, -2], ![4, 1, 1], ![1, 4, 1], ![1, 1, 4]]

theorem exSpear_perp (i : Fin 4) (j : Fin 3) : Package.ico.perp (exSpear i) j = (exSpearZ i j : ℝ) / (16 : ℕ) := by
  fin_cases i <;> refine (congrFun (perp_cart _ _ _ _) j).trans ?_ <;> fin_cases j <;> simp [exSpearZ]

theorem exSpear_good : WellFormed [exSpear] ∧ ToldByMiddles [exSpear] ∧ Convex ℝ (Package.ico.region [exSpear]) :=
  single_grid exSpear exSpear_ok exSpearZ 16 4 (by norm_num) exSpear_perp (by decide) (by norm_num) (by norm_num) (by norm_num)
    (by norm_num) (by decide) (by decide +kernel) (by decide +kernel) (by decide +kernel)

/-- Two halves of a tetrahedron, and a tetrahedron that sticks out of them. -/
theorem exHalves_spear : ConvexPair [exHalfA, exHalfB] [exSpear] := by
  refine convexPair_grid exHalves_wf exSpear_good.1 exHalves_sharp.told exSpear_good.2.1
    (by rw [exHalves_region]; exact convex_convexHull ℝ _) exSpear_good.2.2 (fun a i j => 8 * exHalvesZ a i j) (fun _ => exSpearZ) 16
    (by norm_num) (by norm_num) ?_ ?_ (by decide +kernel) (by decide +kernel) (by decide +kernel)
  · intro a i j
    rw [exHalves_perp]
    push_cast
    ring
  · intro b i j
    rw [List.mem_singleton.1 (List.get_mem [exSpear] b)]
    exact exSpear_perp i j

theorem mem_solid_of_bary {q : Fin 4 → Fin 3 → ℝ} {w : Fin 4 → ℝ} {x : Fin 3 → ℝ} (h : IsBary q w x) (h0 : ∀ i, 0 ≤ w i) :
    x ∈ solid q := mem_solid_iff.2 ⟨w, h, h0⟩

theorem mem_interior_of_bary {q : Fin 4 → Fin 3 → ℝ} (hq : det4 q ≠ 0) {w : Fin 4 → ℝ} {x : Fin 3 → ℝ} (h : IsBary q w x)
    (h0 : ∀ i, 0 < w i) : x ∈ interior (solid q) := (interior_bc hq).2 (by rw [bc_eq hq h]; exact h0)

/-- The hypotheses of `C100_exact`, `C100_outcome` and `C100_volume` are met by this pair, with a new object as the result:
neither object contains the other. -/
example : ∃ delaunay, TilesHull delaunay ∧ ConvexPair [exHalfA, exHalfB] [exSpear] ∧
    ¬ Package.ico.region [exHalfA, exHalfB] ⊆ Package.ico.region [exSpear] ∧
    ¬ Package.ico.region [exSpear] ⊆ Package.ico.region [exHalfA, exHalfB] ∧
    (interior (Package.ico.region [exHalfA, exHalfB] ∩ Package.ico.region [exSpear])).Nonempty ∧
    ∃ r w, intersectionConvexApi delaunay (.d4 [exHalfA, exHalfB]) (.d4 [exSpear]) = .ok (some r) ∧
      Package.ico.region r = Package.ico.region [exHalfA, exHalfB] ∩ Package.ico.region [exSpear] ∧
      objVolume6d (.d4 r) = .ok (some w) ∧
      ENNReal.ofReal (w.val tau) = volume (Package.ico.region [exHalfA, exHalfB] ∩ Package.ico.region [exSpear]) := by
  obtain ⟨delaunay, hD⟩ := exists_tiles
  have dC : det4 (Package.ico.perps exCorner) ≠ 0 := det4_ne_iff.2 (by rw [tetVol_exCorner]; norm_num)
  have dS : det4 (Package.ico.perps exSpear) ≠ 0 := det_of_wf exSpear_good.1 _ (by simp)
  have regS : Package.ico.region [exSpear] = solid (Package.ico.perps exSpear) := by ext x; simp [Package.region]
  have hi : (interior (Package.ico.region [exHalfA, exHalfB] ∩ Package.ico.region [exSpear])).Nonempty := by
    rw [exHalves_region, regS, interior_inter]
    refine ⟨![1 / 16, 1 / 16, 1 / 16], mem_interior_of_bary dC (w := ![13 / 16, 1 / 16, 1 / 16, 1 / 16]) ?_ ?_,
      mem_interior_of_bary dS (w := ![1 / 4, 1 / 4, 1 / 4, 1 / 4]) ?_ ?_⟩
    · rw [isBary_four, perps_exCorner]
      refine ⟨by simp; norm_num, fun j => ?_⟩
      fin_cases j <;> simp
    · intro i; fin_cases i <;> simp
    · rw [isBary_four, perps_exSpear]
      refine ⟨by simp; norm_num, fun j => ?_⟩
      fin_cases j <;> simp <;> norm_num
    · intro i; fin_cases i <;> simp
  have n1 : ¬ Package.ico.region [exHalfA, exHalfB] ⊆ Package.ico.region [exSpear] := by
    rw [exHalves_region, regS]
    intro hs
    have hx : Package.ico.perps exCorner 1 ∈ solid (Package.ico.perps exSpear) := hs (subset_convexHull ℝ _ ⟨1, rfl⟩)
    have hb : IsBary (Package.ico.perps exSpear) ![-5 / 6, 25 / 6, -7 / 6, -7 / 6] (Package.ico.perps exCorner 1) := by
      rw [isBary_four, perps_exSpear, perps_exCorner]
      refine ⟨by simp; norm_num, fun j => ?_⟩
      fin_cases j <;> simp <;> norm_num
    have := (mem_solid_bc dS).1 hx 0
    rw [bc_eq dS hb] at this
    norm_num at this
  have n2 : ¬ Package.ico.region [exSpear] ⊆ Package.ico.region [exHalfA, exHalfB] := by
    rw [exHalves_region, regS]
    intro hs
    have hx : Package.ico.perps exSpear 0 ∈ solid (Package.ico.perps exCorner) := hs (subset_convexHull ℝ _ ⟨0, rfl⟩)
    have hb : IsBary (Package.ico.perps exCorner) ![11 / 8, -1 / 8, -1 / 8, -1 / 8] (Package.ico.perps exSpear 0) := by
      rw [isBary_four, perps_exSpear, perps_exCorner]
      refine ⟨by simp; norm_num, fun j => ?_⟩
      fin_cases j <;> simp
    have := (mem_solid_bc dC).1 hx 1
    rw [bc_eq dC hb] at this
    norm_num at this
  refine ⟨delaunay, hD, exHalves_spear, n1, n2, hi, ?_⟩
  obtain ⟨s1, s2, hs1, hs2, -, hok⟩ := C100_outcome delaunay hD.1 _ _ exHalves_spear hi
  obtain ⟨t1, ht1, hf1⟩ := surface_free exHalves_spear.wf1 exHalves_spear.mid1
  obtain ⟨t2, ht2, hf2⟩ := surface_free exHalves_spear.wf2 exHalves_spear.mid2
  rw [hs1] at ht1
  rw [hs2] at ht2
  cases ht1
  cases ht2
  have free1 : FreeFace (pieces [exHalfA, exHalfB]) (0 : Fin 2) 3 :=
    free_grid (o := [exHalfA, exHalfB]) exHalvesZ 2 (by norm_num) exHalves_perp (0 : Fin 2) 3 (by decide +kernel)
  have free2 : FreeFace (pieces [exSpear]) (0 : Fin 1) 0 :=
    free_grid (o := [exSpear]) (fun _ => exSpearZ) 16 (by norm_num) (fun b i j => by
      rw [List.mem_singleton.1 (List.get_mem [exSpear] b)]
      exact exSpear_perp i j) (0 : Fin 1) 0 (by decide +kernel)
  obtain ⟨r, hr, hreg⟩ := hok (by
    rintro ⟨-, -, hc | hc⟩
    · refine hc _ ((hf1 _).2 ⟨((0 : Fin 2), 3), free1, rfl⟩) 0 ?_
      rw [regS]
      change Package.ico.perps exHalfA 0 ∈ _
      refine mem_solid_of_bary (w := ![1 / 2, 1 / 6, 1 / 6, 1 / 6]) ?_ ?_
      · rw [isBary_four, perps_exSpear, perps_exHalfA]
        refine ⟨by simp; norm_num, fun j => ?_⟩
        fin_cases j <;> simp <;> norm_num
      · intro i; fin_cases i <;> simp
    · refine hc _ ((hf2 _).2 ⟨((0 : Fin 1), 0), free2, rfl⟩) 0 ?_
      rw [exHalves_region]
      change Package.ico.perps exSpear 1 ∈ _
      refine mem_solid_of_bary (w := ![5 / 8, 1 / 4, 1 / 16, 1 / 16]) ?_ ?_
      · rw [isBary_four, perps_exSpear, perps_exCorner]
        refine ⟨by simp; norm_num, fun j => ?_⟩
        fin_cases j <;> simp
      · intro i; fin_cases i <;> norm_num)
  obtain ⟨w, hw, hv⟩ := C100_volume delaunay hD _ _ exHalves_spear r hr
  exact ⟨r, w, hr, hreg, hw, hv⟩

def exStarAZ : Fin 4 → Fin 3 → ℤ := ![![1, 1, 1], ![1, -1, -1], ![-1, 1, -1], ![-1, -1, 1]]
def exStarBZ : Fin 4 → Fin 3 → ℤ := ![![-1, -1, -1], ![-1, 1, 1], ![1, -1, 1], ![1, 1, -1]]

theorem exStarA_perp (i : Fin 4) (j : Fin 3) : Package.ico.perp (exStarA 1 i) j = (exStarAZ i j : ℝ) / (1 : ℕ) := by
  fin_cases i <;> refine (congrFun (perp_cart _ _ _ _) j).trans ?_ <;> fin_cases j <;> simp [exStarAZ]

theorem exStarB_perp (i : Fin 4) (j : Fin 3) : Package.ico.perp (exStarB 1 i) j = (exStarBZ i j : ℝ) / (1 : ℕ) := by
  fin_cases i <;> refine (congrFun (perp_cart _ _ _ _) j).trans ?_ <;> fin_cases j <;> simp [exStarBZ]

theorem exStarA_good : WellFormed [exStarA 1] ∧ ToldByMiddles [exStarA 1] ∧ Convex ℝ (Package.ico.region [exStarA 1]) :=
  single_grid (exStarA 1) (by intro i; fin_cases i <;> exact cart_ok (by decide)) exStarAZ 1 1 (by norm_num) exStarA_perp
    (by decide) (by norm_num) (by norm_num) (by norm_num) (by norm_num) (by decide) (by decide +kernel) (by decide +kernel)
    (by decide +kernel)

theorem exStarB_good : WellFormed [exStarB 1] ∧ ToldByMiddles [exStarB 1] ∧ Convex ℝ (Package.ico.region [exStarB 1]) :=
  single_grid (exStarB 1) (by intro i; fin_cases i <;> exact cart_ok (by decide)) exStarBZ 1 1 (by norm_num) exStarB_perp
    (by decide) (by norm_num) (by norm_num) (by norm_num) (by norm_num) (by decide) (by decide +kernel) (by decide +kernel)
    (by decide +kernel)

theorem exStars : ConvexPair [exStarA 1] [exStarB 1] := by
  refine convexPair_grid exStarA_good.1 exStarB_good.1 exStarA_good.2.1 exStarB_good.2.1 exStarA_good.2.2 exStarB_good.2.2
    (fun _ => exStarAZ) (fun _ => exStarBZ) 1
    (by norm_num) (by norm_num) ?_ ?_ (by decide +kernel) (by decide +kernel) (by decide +kernel)
  · intro b i j
    rw [List.mem_singleton.1 (List.get_mem [exStarA 1] b)]
    exact exStarA_perp i j
  · intro b i j
    rw [List.mem_singleton.1 (List.get_mem [exStarB 1] b)]
    exact exStarB_perp i j

/-- C100: the exception really occurs for two convex objects away from the tolerances with a common interior point. -/
theorem C100_stuck (delaunay : Delaunay) : ConvexPair [exStarA 1] [exStarB 1] ∧
    (interior (Package.ico.region [exStarA 1] ∩ Package.ico.region [exStarB 1])).Nonempty ∧
    intersectionConvexApi delaunay (.d4 [exStarA 1]) (.d4 [exStarB 1]) = .error .unboundLocalError := by
  refine ⟨exStars, ?_, C57_star_error delaunay⟩
  have regA : Package.ico.region [exStarA 1] = solid (Package.ico.perps (exStarA 1)) := by ext x; simp [Package.region]
  have regB : Package.ico.region [exStarB 1] = solid (Package.ico.perps (exStarB 1)) := by ext x; simp [Package.region]
  have dA : det4 (Package.ico.perps (exStarA 1)) ≠ 0 := det_of_wf exStarA_good.1 _ (by simp)
  have dB : det4 (Package.ico.perps (exStarB 1)) ≠ 0 := det_of_wf exStarB_good.1 _ (by simp)
  rw [regA, regB, interior_inter]
  refine ⟨0, mem_interior_of_bary dA (w := fun _ => 1 / 4) ?_ (by norm_num),
    mem_interior_of_bary dB (w := fun _ => 1 / 4) ?_ (by norm_num)⟩
  · rw [isBary_four, perps_starA]
    refine ⟨by norm_num, fun j => ?_⟩
    fin_cases j <;> simp
  · rw [isBary_four, perps_starB]
    refine ⟨by norm_num, fun j => ?_⟩
    fin_cases j <;> simp

def exCornerZ : Fin 4 → Fin 3 → ℤ := ![![0, 0, 0], ![2, 0, 0], ![0, 2, 0], ![0, 0, 2]]

theorem exCorner_perp (i : Fin 4) (j : Fin 3) : Package.ico.perp (exCorner i) j = (exCornerZ i j : ℝ) / (2 : ℕ) := by
  fin_cases i <;> refine (congrFun (perp_cart _ _ _ _) j).trans ?_ <;> fin_cases j <;> simp [exCornerZ]

theorem exCorner_good : WellFormed [exCorner] ∧ ToldByMiddles [exCorner] ∧ Convex ℝ (Package.ico.region [exCorner]) :=
  single_grid exCorner exCorner_ok exCornerZ 2 2 (by norm_num) exCorner_perp
    (by decide) (by norm_num) (by norm_num) (by norm_num) (by norm_num) (by decide) (by decide +kernel) (by decide +kernel)
    (by decide +kernel)

/-- The hypotheses of `C100_nested` are met by the two halves and the whole tetrahedron, which cover the same region: the first
argument is returned, whichever it is. -/
example (delaunay : Delaunay) :
    intersectionConvexApi delaunay (.d4 [exHalfA, exHalfB]) (.d4 [exCorner]) = .ok (some [exHalfA, exHalfB]) ∧
    intersectionConvexApi delaunay (.d4 [exCorner]) (.d4 [exHalfA, exHalfB]) = .ok (some [exCorner]) := by
  have regC : Package.ico.region [exCorner] = solid (Package.ico.perps exCorner) := by ext x; simp [Package.region]
  have cH : Convex ℝ (Package.ico.region [exHalfA, exHalfB]) := by rw [exHalves_region]; exact convex_convexHull ℝ _
  have hC : ∀ (b : Fin [exCorner].length) i j, Package.ico.perp ([exCorner].get b i) j = (exCornerZ i j : ℝ) / (2 : ℕ) := by
    intro b i j
    rw [List.mem_singleton.1 (List.get_mem [exCorner] b)]
    exact exCorner_perp i j
  constructor
  · refine (C100_nested delaunay _ _ ?_).1 (by rw [exHalves_region, regC])
    exact convexPair_grid exHalves_wf exCorner_good.1 exHalves_sharp.told exCorner_good.2.1 cH exCorner_good.2.2
      exHalvesZ (fun _ => exCornerZ) 2 (by norm_num) (by norm_num) exHalves_perp hC (by decide +kernel) (by decide +kernel)
      (by decide +kernel)
  · refine (C100_nested delaunay _ _ ?_).1 (by rw [exHalves_region, regC])
    exact convexPair_grid exCorner_good.1 exHalves_wf exCorner_good.2.1 exHalves_sharp.told exCorner_good.2.2 cH
      (fun _ => exCornerZ) exHalvesZ 2 (by norm_num) (by norm_num) hC exHalves_perp (by decide +kernel) (by decide +kernel)
      (by decide +kernel)

def exFarZ : Fin 4 → Fin 3 → ℤ := ![![20, 0, 0], ![22, 0, 0], ![20, 2, 0], ![20, 0, 2]]

theorem exFar_perp (i : Fin 4) (j : Fin 3) : Package.ico.perp (exFar i) j = (exFarZ i j : ℝ) / (2 : ℕ) := by
  fin_cases i <;> refine (congrFun (perp_cart _ _ _ _) j).trans ?_ <;> fin_cases j <;> simp [exFarZ] <;> norm_num

/-- The hypotheses of `C100_no_overlap` are met by the two halves and a tetrahedron far away. -/
example (delaunay : Delaunay) : ConvexPair [exHalfA, exHalfB] [exFar] ∧
    intersectionConvexApi delaunay (.d4 [exHalfA, exHalfB]) (.d4 [exFar]) = .ok none := by
  have good := single_grid exFar exFar_ok exFarZ 2 22 (by norm_num) exFar_perp
    (by decide) (by norm_num) (by norm_num) (by norm_num) (by norm_num) (by decide) (by decide +kernel) (by decide +kernel)
    (by decide +kernel)
  have h : ConvexPair [exHalfA, exHalfB] [exFar] := by
    refine convexPair_grid exHalves_wf good.1 exHalves_sharp.told good.2.1
      (by rw [exHalves_region]; exact convex_convexHull ℝ _) good.2.2
      exHalvesZ (fun _ => exFarZ) 2 (by norm_num) (by norm_num) exHalves_perp ?_ (by decide +kernel) (by decide +kernel)
      (by decide +kernel)
    intro b i j
    rw [List.mem_singleton.1 (List.get_mem [exFar] b)]
    exact exFar_perp i j
  refine ⟨h, (C100_no_overlap delaunay _ _ h).2 ?_⟩
  rw [Set.eq_empty_iff_forall_notMem]
  rintro x ⟨hx, t, ht, hy⟩
  rw [List.mem_singleton.1 ht] at hy
  rw [exHalves_region] at hx
  obtain ⟨w, hw, w0⟩ := mem_solid_iff.1 hx
  obtain ⟨v, hv, v0⟩ := mem_solid_iff.1 hy
  rw [isBary_four, perps_exCorner] at hw
  rw [isBary_four, perps_exFar] at hv
  have e1 := hw.2 0
  have e2 := hv.2 0
  simp at e1 e2
  linarith [hw.1, hv.1, w0 0, w0 1, w0 2, w0 3, v0 0, v0 1, v0 2, v0 3]

end PyQC
