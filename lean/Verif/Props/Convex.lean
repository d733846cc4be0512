import Verif.Props.IntersectObj
import Verif.Props.Subtract
/-!
# C57: intersection of convex objects
-/
namespace PyQC
open Matrix Ico

/-- The point is accepted by some tetrahedron of the object. -/
def AcceptedBy (o : Obj 4) (x : Fin 3 → ℝ) : Prop := ∃ t ∈ o, Accepts (Package.ico.perps t) x

/-- Sides of the faces with the same midpoint have the same ends. -/
def NoClash (s : Obj 3) : Prop :=
  ∀ f ∈ s, ∀ g ∈ s, ∀ i j k l, i < j → k < l →
    Package.ico.centroidPerp (edge f i j) = Package.ico.centroidPerp (edge g k l) →
    (Package.ico.perp (f i) = Package.ico.perp (g k) ∧ Package.ico.perp (f j) = Package.ico.perp (g l)) ∨
    (Package.ico.perp (f i) = Package.ico.perp (g l) ∧ Package.ico.perp (f j) = Package.ico.perp (g k))

/-- Some side of a face of the first list hits some face of the second. -/
def SurfaceHits (s t : Obj 3) : Prop :=
  ∃ f ∈ s, ∃ i j, i < j ∧ ∃ g ∈ t, Hits (Package.ico.perp (f i)) (Package.ico.perp (f j)) (Package.ico.perp (g 0))
    (Package.ico.perp (g 1)) (Package.ico.perp (g 2))

theorem hits_swap {A B C D E : Fin 3 → ℝ} (h : Hits A B C D E) : Hits B A C D E := by
  obtain ⟨h1, t, u, v, hm, h2, h3, h4⟩ := h
  refine ⟨?_, 1 - t, u, v, ?_, by linarith, by linarith, h4⟩
  · have : Matrix.det (Matrix.of ![A - B, E - C, D - C]) = - Matrix.det (Matrix.of ![B - A, E - C, D - C]) := by
      simp only [Matrix.det_fin_three, Matrix.of_apply, Matrix.cons_val_zero, Matrix.cons_val_one, Matrix.cons_val,
        Pi.sub_apply]
      ring
    rw [this, abs_neg]
    exact h1
  · unfold Meets at hm ⊢
    rw [← hm]
    funext i
    simp only [Pi.add_apply, Pi.smul_apply, Pi.sub_apply, smul_eq_mul]
    ring

theorem edge_zero {m : Nat} (s : Simplex m) (i j : Fin m) : edge s i j 0 = s i := rfl
theorem edge_one {m : Nat} (s : Simplex m) (i j : Fin m) : edge s i j 1 = s j := rfl

theorem accepted_any (o : Obj 4) (v : Vec 6) :
    (o.any fun t => insideTau v t) = true ↔ AcceptedBy o (Package.ico.perp v) := by
  simp only [List.any_eq_true, AcceptedBy, C32_perp]

/-- The edges and vertices obtained from a surface. -/
theorem surfaceVertices {s : Obj 3} (hs : Obj.Ok s) :
    ∃ (E : Obj 2) (V : List (Vec 6)), generatorUniqueEdges .ico s = .ok E ∧ removeDoublingPerp .ico (flattenObj E) = .ok V ∧
      (∀ e ∈ E, ∃ f ∈ s, ∃ i j, i < j ∧ e = edge f i j) ∧
      (NoClash s → ∀ f ∈ s, ∀ i j, i < j → ∃ e ∈ E,
        (Package.ico.perp (e 0) = Package.ico.perp (f i) ∧ Package.ico.perp (e 1) = Package.ico.perp (f j)) ∨
        (Package.ico.perp (e 0) = Package.ico.perp (f j) ∧ Package.ico.perp (e 1) = Package.ico.perp (f i))) ∧
      (∀ v ∈ V, ∃ f ∈ s, ∃ i, v = f i) ∧
      (NoClash s → ∀ f ∈ s, ∀ i, ∃ v ∈ V, Package.ico.perp v = Package.ico.perp (f i)) ∧ (s ≠ [] → V ≠ []) := by
  obtain ⟨E, hE, h1, -, h3⟩ := C27_unique_edges_triangles .ico s hs
  have hmem : ∀ v, v ∈ flattenObj E ↔ ∃ e ∈ E, ∃ i, e i = v := by
    intro v; simp [flattenObj, List.mem_flatMap, eq_comm]
  have hcorner : ∀ v ∈ flattenObj E, ∃ f ∈ s, ∃ i, v = f i := by
    intro v hv
    obtain ⟨e, he, k, rfl⟩ := (hmem v).1 hv
    obtain ⟨f, hf, i, j, -, rfl⟩ := h1 e he
    refine ⟨f, hf, ?_⟩
    fin_cases k
    · exact ⟨i, rfl⟩
    · exact ⟨j, rfl⟩
  obtain ⟨V, hV, hsub, -, hex⟩ := C24_one_per_point .ico (flattenObj E) (by
    intro v hv
    obtain ⟨f, hf, i, rfl⟩ := hcorner v hv
    exact hs f hf i)
  have hends : NoClash s → ∀ f ∈ s, ∀ i j, i < j → ∃ e ∈ E,
        (Package.ico.perp (e 0) = Package.ico.perp (f i) ∧ Package.ico.perp (e 1) = Package.ico.perp (f j)) ∨
        (Package.ico.perp (e 0) = Package.ico.perp (f j) ∧ Package.ico.perp (e 1) = Package.ico.perp (f i)) := by
    intro hc f hf i j hij
    obtain ⟨e, ⟨he, hcen⟩, -⟩ := h3 f hf i j hij
    obtain ⟨g, hg, k, l, hkl, rfl⟩ := h1 e he
    exact ⟨_, he, hc g hg f hf k l i j hkl hij hcen⟩
  refine ⟨E, V, hE, hV, h1, hends, fun v hv => hcorner v (hsub v hv), ?_, ?_⟩
  · intro hc f hf i
    have key : ∃ e ∈ E, ∃ k, Package.ico.perp (e k) = Package.ico.perp (f i) := by
      by_cases h : i < 2
      · obtain ⟨e, he, ⟨h, -⟩ | ⟨-, h⟩⟩ := hends hc f hf i 2 h
        · exact ⟨e, he, 0, h⟩
        · exact ⟨e, he, 1, h⟩
      · have h2 : i = 2 := by omega
        subst h2
        obtain ⟨e, he, ⟨-, h⟩ | ⟨h, -⟩⟩ := hends hc f hf 0 2 (by decide)
        · exact ⟨e, he, 1, h⟩
        · exact ⟨e, he, 0, h⟩
    obtain ⟨e, he, k, h⟩ := key
    obtain ⟨v, ⟨hv, hv'⟩, -⟩ := hex (e k) ((hmem _).2 ⟨e, he, k, rfl⟩)
    exact ⟨v, hv, hv'.trans h⟩
  · intro h0
    obtain ⟨f, hf⟩ := List.exists_mem_of_ne_nil s h0
    obtain ⟨e, ⟨he, -⟩, -⟩ := h3 f hf 0 1 (by decide)
    obtain ⟨v, ⟨hv, -⟩, -⟩ := hex (e 0) ((hmem _).2 ⟨e, he, 0, rfl⟩)
    exact List.ne_nil_of_mem hv

theorem crossings_ok {surf : Obj 3} {edges : Obj 2} (hs : Obj.Ok surf) (he : Obj.Ok edges) :
    ∃ P, surfaceCrossings surf edges = .ok P ∧
      (∀ v ∈ P, ∃ g ∈ surf, ∃ e ∈ edges, segmentMeetsTriangleTau e g = true ∧
        intersectionSegmentSurface e g = .ok (some v)) ∧
      (∀ g ∈ surf, ∀ e ∈ edges, segmentMeetsTriangleTau e g = true → ∃ v ∈ P, intersectionSegmentSurface e g = .ok (some v)) := by
  have hin : ∀ g ∈ surf, ∀ e ∈ edges, crossOne g e = .ok (if segmentMeetsTriangleTau e g then
      (match intersectionSegmentSurface e g with | .ok v => v.toList | .error _ => []) else []) := by
    intro g hg e hh
    unfold crossOne
    by_cases h : segmentMeetsTriangleTau e g = true
    · obtain ⟨r, t, u, v, hr, -⟩ := C34_point e g (he e hh) (hs g hg) h
      rw [if_pos h, if_pos h, hr, bind_ok']
      rfl
    · rw [if_neg h, if_neg h]
  unfold surfaceCrossings
  rw [fillList_ok (fun g hg => fillList_ok (hin g hg)), bind_ok']
  refine ⟨_, rfl, ?_, ?_⟩
  · intro v hv
    obtain ⟨l, hl, hv⟩ := List.mem_flatten.1 hv
    obtain ⟨l', hl', rfl⟩ := List.mem_map.1 hl
    obtain ⟨g, hg, rfl⟩ := List.mem_map.1 hl'
    obtain ⟨l, hl, hv⟩ := List.mem_flatten.1 hv
    obtain ⟨e, hh, rfl⟩ := List.mem_map.1 hl
    by_cases h : segmentMeetsTriangleTau e g = true
    · obtain ⟨r, t, u, v', hr, -⟩ := C34_point e g (he e hh) (hs g hg) h
      rw [if_pos h, hr] at hv
      simp only [Option.toList_some, List.mem_singleton] at hv
      subst hv
      exact ⟨g, hg, e, hh, h, hr⟩
    · rw [if_neg h] at hv
      simp at hv
  · intro g hg e hh h
    obtain ⟨r, t, u, v', hr, -⟩ := C34_point e g (he e hh) (hs g hg) h
    refine ⟨r, ?_, hr⟩
    refine List.mem_flatten.2 ⟨_, List.mem_map.2 ⟨_, List.mem_map.2 ⟨g, hg, rfl⟩, rfl⟩, ?_⟩
    refine List.mem_flatten.2 ⟨_, List.mem_map.2 ⟨e, hh, rfl⟩, ?_⟩
    rw [if_pos h, hr]
    simp

theorem near_faceOf {o : Obj 4} {j : Fin o.length × Fin 4} {u v : ℝ} {x : Fin 3 → ℝ} (h1 : -(1 / 10 ^ 6) ≤ u)
    (h2 : -(1 / 10 ^ 6) ≤ v) (h3 : u + v ≤ 1 + 1 / 10 ^ 6)
    (hx : x = Package.ico.perp (face o j 0) + u • (Package.ico.perp (face o j 1) - Package.ico.perp (face o j 0)) +
      v • (Package.ico.perp (face o j 2) - Package.ico.perp (face o j 0))) :
    NearSolid (1 / 10 ^ 6) (Package.ico.perps (o.get j.1)) x :=
  near_face (by norm_num) (k := j.2.succAbove 0) (l := j.2.succAbove 1) (m := j.2.succAbove 2)
    (Fin.strictMono_succAbove _ (by decide)) (Fin.strictMono_succAbove _ (by decide)) h1 h2 h3 hx

theorem near_edgeOf {o : Obj 4} {j : Fin o.length × Fin 4} {a b : Fin 3} (hab : a < b) {t : ℝ} {x : Fin 3 → ℝ}
    (h1 : -(1 / 10 ^ 6) ≤ t) (h2 : t ≤ 1 + 1 / 10 ^ 6)
    (hx : x = Package.ico.perp (face o j a) + t • (Package.ico.perp (face o j b) - Package.ico.perp (face o j a))) :
    NearSolid (1 / 10 ^ 6) (Package.ico.perps (o.get j.1)) x :=
  near_edge (by norm_num) (i := j.2.succAbove a) (j := j.2.succAbove b)
    (Fin.strictMono_succAbove _ hab).ne h1 h2 hx

/-- The point is near some tetrahedron of the object. -/
def NearObj (o : Obj 4) (x : Fin 3 → ℝ) : Prop := ∃ t ∈ o, NearSolid (1 / 10 ^ 6) (Package.ico.perps t) x

theorem surf_ok {o : Obj 4} (ho : Obj.Ok o) {s : Obj 3} (hs : generatorSurface1 o = .ok s) : Obj.Ok s := by
  intro f hf
  obtain ⟨j, rfl⟩ := generatorSurface1_mem ho hs f hf
  exact face_ok ho j

/-- The points collected from the edges of one surface and the faces of the other. -/
theorem crossings_near {o1 o2 : Obj 4} (h1 : Obj.Ok o1) (h2 : Obj.Ok o2) {s1 s2 : Obj 3} (hs1 : generatorSurface1 o1 = .ok s1)
    (hs2 : generatorSurface1 o2 = .ok s2) {E : Obj 2} (hE : ∀ e ∈ E, ∃ f ∈ s2, ∃ i j, i < j ∧ e = edge f i j) :
    ∃ P, surfaceCrossings s1 E = .ok P ∧
      (∀ v ∈ P, Vec.Ok v ∧ NearObj o1 (Package.ico.perp v) ∧ NearObj o2 (Package.ico.perp v)) ∧
      (P ≠ [] → SurfaceHits s2 s1) ∧
      ((∀ f ∈ s2, ∀ i j, i < j → ∃ e ∈ E,
        (Package.ico.perp (e 0) = Package.ico.perp (f i) ∧ Package.ico.perp (e 1) = Package.ico.perp (f j)) ∨
        (Package.ico.perp (e 0) = Package.ico.perp (f j) ∧ Package.ico.perp (e 1) = Package.ico.perp (f i))) →
        SurfaceHits s2 s1 → P ≠ []) := by
  have hok1 := surf_ok h1 hs1
  have hok2 := surf_ok h2 hs2
  have hEok : Obj.Ok E := by
    intro e he
    obtain ⟨f, hf, i, j, -, rfl⟩ := hE e he
    intro k
    fin_cases k
    · exact hok2 f hf i
    · exact hok2 f hf j
  obtain ⟨P, hP, hsound, hcomp⟩ := crossings_ok hok1 hEok
  have hne : ∀ g ∈ s1, ∀ e ∈ E, segmentMeetsTriangleTau e g = true → P ≠ [] := by
    intro g hg e he h
    obtain ⟨v, hv, -⟩ := hcomp g hg e he h
    exact List.ne_nil_of_mem hv
  refine ⟨P, hP, ?_, ?_, ?_⟩
  · intro v hv
    obtain ⟨g, hg, e, he, hm, hv'⟩ := hsound v hv
    obtain ⟨r, t, u, w, hr, hc, -, e1, e2, ht1, ht2, hu1, -, hw1, huw⟩ := C34_point e g (hEok e he) (hok1 g hg) hm
    rw [hv'] at hr
    cases hr
    obtain ⟨k, rfl⟩ := generatorSurface1_mem h1 hs1 g hg
    obtain ⟨f, hf, i, j, hij, rfl⟩ := hE e he
    obtain ⟨l, rfl⟩ := generatorSurface1_mem h2 hs2 f hf
    rw [edge_zero, edge_one] at e1
    exact ⟨hc.ok, ⟨_, List.get_mem _ _, near_faceOf hu1 hw1 huw e2⟩, ⟨_, List.get_mem _ _, near_edgeOf hij ht1 ht2 e1⟩⟩
  · intro h0
    obtain ⟨v, hv⟩ := List.exists_mem_of_ne_nil P h0
    obtain ⟨g, hg, e, he, hm, -⟩ := hsound v hv
    obtain ⟨f, hf, i, j, hij, rfl⟩ := hE e he
    rw [C33_perp, edge_zero, edge_one] at hm
    exact ⟨f, hf, i, j, hij, g, hg, hm⟩
  · rintro hall ⟨f, hf, i, j, hij, g, hg, hh⟩
    obtain ⟨e, he, ⟨a, b⟩ | ⟨a, b⟩⟩ := hall f hf i j hij
    · refine hne g hg e he ((C33_perp _ _).2 ?_)
      rw [a, b]
      exact hh
    · refine hne g hg e he ((C33_perp _ _).2 ?_)
      rw [a, b]
      exact hits_swap hh

theorem filter_all {l : List (Vec 6)} {f : Vec 6 → Bool} : (l.filter f).length = l.length ↔ ∀ v ∈ l, f v = true := by
  rw [← List.filter_eq_self]
  exact ⟨fun h => List.filter_sublist.eq_of_length h, fun h => by rw [h]⟩

/-- The whole function in terms of the vertices `V1`, `V2` of the two surfaces and the crossing points `P`. -/
theorem convex_eq {o1 o2 : Obj 4} (h1 : Obj.Ok o1) (h2 : Obj.Ok o2) {s1 s2 : Obj 3} (hs1 : generatorSurface1 o1 = .ok s1)
    (hs2 : generatorSurface1 o2 = .ok s2) :
    ∃ V1 V2 P : List (Vec 6), (∀ v ∈ V1, ∃ f ∈ s1, ∃ i, v = f i) ∧
      (NoClash s1 → ∀ f ∈ s1, ∀ i, ∃ v ∈ V1, Package.ico.perp v = Package.ico.perp (f i)) ∧
      (∀ v ∈ V2, ∃ f ∈ s2, ∃ i, v = f i) ∧
      (NoClash s2 → ∀ f ∈ s2, ∀ i, ∃ v ∈ V2, Package.ico.perp v = Package.ico.perp (f i)) ∧
      (∀ v ∈ P, Vec.Ok v ∧ NearObj o1 (Package.ico.perp v) ∧ NearObj o2 (Package.ico.perp v)) ∧
      (P ≠ [] → SurfaceHits s1 s2 ∨ SurfaceHits s2 s1) ∧
      (NoClash s1 → SurfaceHits s1 s2 → P ≠ []) ∧ (NoClash s2 → SurfaceHits s2 s1 → P ≠ []) ∧
      ∀ delaunay, intersectionTwoObjConvex delaunay o1 o2 =
        if (insideVertices V1 o2).length = V1.length then .ok (some o1)
        else if (insideVertices V2 o1).length = V2.length then .ok (some o2)
        else if P.length = 0 then .ok none
        else (do
          let point1 ← removeDoublingPerp .ico P
          if (insideVertices V1 o2).length = 0 then .error .unboundLocalError
          else if (insideVertices V2 o1).length = 0 then .error .unboundLocalError
          else do
            let points ← removeDoublingPerp .ico (point1 ++ insideVertices V1 o2 ++ insideVertices V2 o1)
            tetrahedralizationPoints delaunay points) := by
  obtain ⟨E1, V1, hE1, hV1, hm1, hc1, hv1, hn1, -⟩ := surfaceVertices (surf_ok h1 hs1)
  obtain ⟨E2, V2, hE2, hV2, hm2, hc2, hv2, hn2, -⟩ := surfaceVertices (surf_ok h2 hs2)
  obtain ⟨P, hP, hPn, hPh, hPc⟩ := crossings_near h1 h2 hs1 hs2 hm2
  obtain ⟨Q, hQ, hQn, hQh, hQc⟩ := crossings_near h2 h1 hs2 hs1 hm1
  refine ⟨V1, V2, P ++ Q, hv1, hn1, hv2, hn2, ?_, ?_, ?_, ?_, ?_⟩
  · intro v hv
    rcases List.mem_append.1 hv with hv | hv
    · exact hPn v hv
    · exact ⟨(hQn v hv).1, (hQn v hv).2.2, (hQn v hv).2.1⟩
  · intro h
    by_cases hp : P = []
    · subst hp
      exact .inl (hQh h)
    · exact .inr (hPh hp)
  · exact fun hc hh => List.append_ne_nil_of_right_ne_nil _ (hQc (hc1 hc) hh)
  · exact fun hc hh => List.append_ne_nil_of_left_ne_nil (hPc (hc2 hc) hh) _
  · intro delaunay
    unfold intersectionTwoObjConvex
    rw [hs1, bind_ok', hs2, bind_ok', hE1, bind_ok', hE2, bind_ok', hV1, bind_ok', hV2, bind_ok']
    simp only
    split
    · rfl
    · split
      · rfl
      · rw [hP, bind_ok', hQ, bind_ok']

theorem insideAll_iff {V : List (Vec 6)} {o : Obj 4} :
    (insideVertices V o).length = V.length ↔ ∀ v ∈ V, AcceptedBy o (Package.ico.perp v) := by
  unfold insideVertices
  rw [filter_all]
  exact forall₂_congr fun v _ => accepted_any o v

theorem insideNone_iff {V : List (Vec 6)} {o : Obj 4} :
    (insideVertices V o).length = 0 ↔ ∀ v ∈ V, ¬ AcceptedBy o (Package.ico.perp v) := by
  unfold insideVertices
  rw [List.length_eq_zero_iff, List.filter_eq_nil_iff]
  exact forall₂_congr fun v _ => not_congr (accepted_any o v)

/-- C57: when every surface corner of the first object is inside the second, the first object itself is returned. -/
theorem C57_first_inside (delaunay : Delaunay) (o1 o2 : Obj 4) (h1 : Obj.Ok o1) (h2 : Obj.Ok o2) (s1 s2 : Obj 3)
    (hs1 : generatorSurface1 o1 = .ok s1) (hs2 : generatorSurface1 o2 = .ok s2)
    (h : ∀ f ∈ s1, ∀ i, AcceptedBy o2 (Package.ico.perp (f i))) :
    intersectionConvexApi delaunay (.d4 o1) (.d4 o2) = .ok (some o1) := by
  change intersectionTwoObjConvex delaunay o1 o2 = _
  obtain ⟨V1, V2, P, hv1, -, -, -, -, -, -, -, he⟩ := convex_eq h1 h2 hs1 hs2
  rw [he, if_pos]
  rw [insideAll_iff]
  intro v hv
  obtain ⟨f, hf, i, rfl⟩ := hv1 v hv
  exact h f hf i

/-- C57: when every surface corner of the second object is inside the first, and some corner of the first is not inside the
second, the second object itself is returned. -/
theorem C57_second_inside (delaunay : Delaunay) (o1 o2 : Obj 4) (h1 : Obj.Ok o1) (h2 : Obj.Ok o2) (s1 s2 : Obj 3)
    (hs1 : generatorSurface1 o1 = .ok s1) (hs2 : generatorSurface1 o2 = .ok s2) (hc : NoClash s1)
    (h : ∀ f ∈ s2, ∀ i, AcceptedBy o1 (Package.ico.perp (f i)))
    (f : Simplex 3) (hf : f ∈ s1) (i : Fin 3) (hi : ¬ AcceptedBy o2 (Package.ico.perp (f i))) :
    intersectionConvexApi delaunay (.d4 o1) (.d4 o2) = .ok (some o2) := by
  change intersectionTwoObjConvex delaunay o1 o2 = _
  obtain ⟨V1, V2, P, -, hn1, hv2, -, -, -, -, -, he⟩ := convex_eq h1 h2 hs1 hs2
  rw [he, if_neg, if_pos]
  · rw [insideAll_iff]
    intro v hv
    obtain ⟨f, hf, i, rfl⟩ := hv2 v hv
    exact h f hf i
  · rw [insideAll_iff]
    intro hall
    obtain ⟨v, hv, e⟩ := hn1 hc f hf i
    exact hi (e ▸ hall v hv)

/-- C57: when each object has a corner outside the other and no edge of one surface hits a face of the other, the answer is
`None`. -/
theorem C57_apart (delaunay : Delaunay) (o1 o2 : Obj 4) (h1 : Obj.Ok o1) (h2 : Obj.Ok o2) (s1 s2 : Obj 3)
    (hs1 : generatorSurface1 o1 = .ok s1) (hs2 : generatorSurface1 o2 = .ok s2) (hc1 : NoClash s1) (hc2 : NoClash s2)
    (f : Simplex 3) (hf : f ∈ s1) (i : Fin 3) (hi : ¬ AcceptedBy o2 (Package.ico.perp (f i)))
    (g : Simplex 3) (hg : g ∈ s2) (j : Fin 3) (hj : ¬ AcceptedBy o1 (Package.ico.perp (g j)))
    (n1 : ¬ SurfaceHits s1 s2) (n2 : ¬ SurfaceHits s2 s1) :
    intersectionConvexApi delaunay (.d4 o1) (.d4 o2) = .ok none := by
  change intersectionTwoObjConvex delaunay o1 o2 = _
  obtain ⟨V1, V2, P, -, hn1, -, hn2, -, hP, -, -, he⟩ := convex_eq h1 h2 hs1 hs2
  rw [he, if_neg, if_neg, if_pos]
  · by_contra h0
    rcases hP (by intro h; exact h0 (by rw [h]; rfl)) with h | h
    · exact n1 h
    · exact n2 h
  · rw [insideAll_iff]
    intro hall
    obtain ⟨v, hv, e⟩ := hn2 hc2 g hg j
    exact hj (e ▸ hall v hv)
  · rw [insideAll_iff]
    intro hall
    obtain ⟨v, hv, e⟩ := hn1 hc1 f hf i
    exact hi (e ▸ hall v hv)

/-- C57, disagreement: two crossing objects raise UnboundLocalError when no corner of one of them is inside the other
(and each has a corner outside). -/
theorem C57_crossing_error (delaunay : Delaunay) (o1 o2 : Obj 4) (h1 : Obj.Ok o1) (h2 : Obj.Ok o2) (s1 s2 : Obj 3)
    (hs1 : generatorSurface1 o1 = .ok s1) (hs2 : generatorSurface1 o2 = .ok s2) (hc1 : NoClash s1) (hc2 : NoClash s2)
    (f : Simplex 3) (hf : f ∈ s1) (i : Fin 3) (hi : ¬ AcceptedBy o2 (Package.ico.perp (f i)))
    (g : Simplex 3) (hg : g ∈ s2) (j : Fin 3) (hj : ¬ AcceptedBy o1 (Package.ico.perp (g j)))
    (hit : SurfaceHits s1 s2 ∨ SurfaceHits s2 s1)
    (hno : (∀ f ∈ s1, ∀ i, ¬ AcceptedBy o2 (Package.ico.perp (f i))) ∨
      ∀ g ∈ s2, ∀ j, ¬ AcceptedBy o1 (Package.ico.perp (g j))) :
    intersectionConvexApi delaunay (.d4 o1) (.d4 o2) = .error .unboundLocalError := by
  change intersectionTwoObjConvex delaunay o1 o2 = _
  obtain ⟨V1, V2, P, hv1, hn1, hv2, hn2, hPok, -, hP1, hP2, he⟩ := convex_eq h1 h2 hs1 hs2
  have hP : P ≠ [] := hit.elim (hP1 hc1) (hP2 hc2)
  obtain ⟨r, hr, -⟩ := C24_one_per_point .ico P fun v hv => (hPok v hv).1
  rw [he, if_neg, if_neg, if_neg (by rwa [List.length_eq_zero_iff]), hr, bind_ok']
  · rcases hno with h | h
    · rw [if_pos]
      rw [insideNone_iff]
      intro v hv
      obtain ⟨f, hf, i, rfl⟩ := hv1 v hv
      exact h f hf i
    · split
      · rfl
      · rw [if_pos]
        rw [insideNone_iff]
        intro v hv
        obtain ⟨f, hf, i, rfl⟩ := hv2 v hv
        exact h f hf i
  · rw [insideAll_iff]
    intro hall
    obtain ⟨v, hv, e⟩ := hn2 hc2 g hg j
    exact hj (e ▸ hall v hv)
  · rw [insideAll_iff]
    intro hall
    obtain ⟨v, hv, e⟩ := hn1 hc1 f hf i
    exact hi (e ▸ hall v hv)

/-- C57: a returned object is the first object (then its surface corners are inside the second), the second object (then its
surface corners are inside the first), or a non-empty list of tetrahedra of non-zero volume all of whose corners are near
both objects, whatever the tetrahedralisation proposes. -/
theorem C57_sound (delaunay : Delaunay) (o1 o2 : Obj 4) (h1 : Obj.Ok o1) (h2 : Obj.Ok o2) (s1 s2 : Obj 3)
    (hs1 : generatorSurface1 o1 = .ok s1) (hs2 : generatorSurface1 o2 = .ok s2) (r : Obj 4)
    (hr : intersectionConvexApi delaunay (.d4 o1) (.d4 o2) = .ok (some r)) :
    (r = o1 ∧ (NoClash s1 → ∀ f ∈ s1, ∀ i, AcceptedBy o2 (Package.ico.perp (f i)))) ∨
    (r = o2 ∧ (NoClash s2 → ∀ f ∈ s2, ∀ i, AcceptedBy o1 (Package.ico.perp (f i)))) ∨
    (r ≠ [] ∧ ∀ t ∈ r, tetVol (Package.ico.perps t) ≠ 0 ∧
      ∀ k, NearObj o1 (Package.ico.perp (t k)) ∧ NearObj o2 (Package.ico.perp (t k))) := by
  change intersectionTwoObjConvex delaunay o1 o2 = _ at hr
  obtain ⟨V1, V2, P, hv1, hn1, hv2, hn2, hPok, -, -, -, he⟩ := convex_eq h1 h2 hs1 hs2
  rw [he] at hr
  by_cases c1 : (insideVertices V1 o2).length = V1.length
  · rw [if_pos c1] at hr
    cases hr
    refine .inl ⟨rfl, fun hc f hf i => ?_⟩
    obtain ⟨v, hv, e⟩ := hn1 hc f hf i
    exact e ▸ insideAll_iff.1 c1 v hv
  rw [if_neg c1] at hr
  by_cases c2 : (insideVertices V2 o1).length = V2.length
  · rw [if_pos c2] at hr
    cases hr
    refine .inr (.inl ⟨rfl, fun hc f hf i => ?_⟩)
    obtain ⟨v, hv, e⟩ := hn2 hc f hf i
    exact e ▸ insideAll_iff.1 c2 v hv
  rw [if_neg c2] at hr
  by_cases c3 : P.length = 0
  · rw [if_pos c3] at hr; cases hr
  rw [if_neg c3] at hr
  obtain ⟨p1, hp1, hsub, -⟩ := C24_one_per_point .ico P fun v hv => (hPok v hv).1
  rw [hp1, bind_ok'] at hr
  split at hr
  · cases hr
  split at hr
  · cases hr
  have near : ∀ {V : List (Vec 6)} {s : Obj 3} {o o' : Obj 4}, Obj.Ok o → generatorSurface1 o = .ok s →
      (∀ v ∈ V, ∃ f ∈ s, ∃ i, v = f i) → ∀ v ∈ insideVertices V o',
      Vec.Ok v ∧ NearObj o (Package.ico.perp v) ∧ NearObj o' (Package.ico.perp v) := by
    intro V s o o' ho hs hV v hv
    obtain ⟨hv, ha⟩ := List.mem_filter.1 hv
    obtain ⟨f, hf, i, rfl⟩ := hV v hv
    refine ⟨surf_ok ho hs f hf i, ?_, ?_⟩
    · obtain ⟨j, rfl⟩ := generatorSurface1_mem ho hs f hf
      exact ⟨_, List.get_mem _ _, near_corner (q := Package.ico.perps (o.get j.1)) (by norm_num) (j.2.succAbove i)⟩
    · obtain ⟨t, ht, ha⟩ := (accepted_any _ _).1 ha
      exact ⟨t, ht, near_mono (by norm_num) (C32_near _ _ ((C32_exact _ _).2 ha))⟩
  have hall : ∀ v ∈ p1 ++ insideVertices V1 o2 ++ insideVertices V2 o1,
      Vec.Ok v ∧ NearObj o1 (Package.ico.perp v) ∧ NearObj o2 (Package.ico.perp v) := by
    intro v hv
    rcases List.mem_append.1 hv with hv | hv
    · rcases List.mem_append.1 hv with hv | hv
      · exact hPok v (hsub v hv)
      · exact near h1 hs1 hv1 v hv
    · obtain ⟨a, b, c⟩ := near h2 hs2 hv2 v hv
      exact ⟨a, c, b⟩
  obtain ⟨pts, hpts, hsub2, -⟩ := C24_one_per_point .ico _ fun v hv => (hall v hv).1
  rw [hpts, bind_ok'] at hr
  obtain ⟨r0, hm⟩ := C50_sound delaunay pts (fun v hv => (hall v (hsub2 v hv)).1) r hr
  exact .inr (.inr ⟨r0, fun t ht => ⟨(hm t ht).2, fun k => (hall _ (hsub2 _ ((hm t ht).1 k))).2⟩⟩)

/-- C57: arguments that are not arrays of tetrahedra give `None`. -/
theorem C57_refuse (delaunay : Delaunay) (a b : NdArr) :
    (∀ o : Obj 4, a ≠ .d4 o) ∨ (∀ o : Obj 4, b ≠ .d4 o) → intersectionConvexApi delaunay a b = .ok none := by
  intro h
  unfold intersectionConvexApi
  split
  · rename_i o1 o2
    rcases h with h | h
    · exact absurd rfl (h o1)
    · exact absurd rfl (h o2)
  · rfl

/-! ### Concrete cases -/

theorem midpoint_bary {q : Fin 4 → Fin 3 → ℝ} (a b : Fin 4) :
    IsBary q (fun k => (if k = a then 1 / 2 else 0) + if k = b then 1 / 2 else 0) ((1 / 2 : ℝ) • (q a + q b)) := by
  constructor
  · rw [Finset.sum_add_distrib]
    simp
    norm_num
  · simp only [add_smul, ite_smul, zero_smul, Finset.sum_add_distrib, Finset.sum_ite_eq', Finset.mem_univ, if_true, smul_add]

theorem midpoint_inj {q : Fin 4 → Fin 3 → ℝ} (hq : det4 q ≠ 0) {a b c d : Fin 4} (hab : a ≠ b) (_hcd : c ≠ d)
    (h : (1 / 2 : ℝ) • (q a + q b) = (1 / 2 : ℝ) • (q c + q d)) : (a = c ∧ b = d) ∨ (a = d ∧ b = c) := by
  have e := bary_unique hq (midpoint_bary a b) (by rw [h]; exact midpoint_bary c d)
  have ea := congrFun e a
  have eb := congrFun e b
  simp only [if_true, if_neg hab, if_neg hab.symm] at ea eb
  have ha : a = c ∨ a = d := by
    by_contra hn
    push Not at hn
    rw [if_neg hn.1, if_neg hn.2] at ea
    norm_num at ea
  have hb : b = c ∨ b = d := by
    by_contra hn
    push Not at hn
    rw [if_neg hn.1, if_neg hn.2] at eb
    norm_num at eb
  rcases ha with rfl | rfl <;> rcases hb with rfl | rfl
  · exact absurd rfl hab
  · exact .inl ⟨rfl, rfl⟩
  · exact .inr ⟨rfl, rfl⟩
  · exact absurd rfl hab

theorem centroidPerp_edge {m : Nat} (s : Simplex m) (i j : Fin m) :
    Package.ico.centroidPerp (edge s i j) = (1 / 2 : ℝ) • (Package.ico.perp (s i) + Package.ico.perp (s j)) := by
  unfold Package.centroidPerp
  rw [Fin.sum_univ_two, edge_zero, edge_one]
  norm_num

/-- For a tetrahedron that is not flat, sides with equal midpoints are equal. -/
theorem noClash_single {t : Simplex 4} (ht : tetVol (Package.ico.perps t) ≠ 0) {s : Obj 3}
    (hs : ∀ f ∈ s, ∃ a : Fin 4, f = fun i => t (a.succAbove i)) : NoClash s := by
  intro f hf g hg i j k l hij hkl h
  obtain ⟨a, rfl⟩ := hs f hf
  obtain ⟨b, rfl⟩ := hs g hg
  rw [centroidPerp_edge, centroidPerp_edge] at h
  have := midpoint_inj (q := Package.ico.perps t) (det4_ne_iff.2 ht)
    (fun h => hij.ne (Fin.succAbove_right_injective h)) (fun h => hkl.ne (Fin.succAbove_right_injective h)) h
  rcases this with ⟨h1, h2⟩ | ⟨h1, h2⟩
  · exact .inl ⟨congrArg (fun x => Package.ico.perp (t x)) h1, congrArg (fun x => Package.ico.perp (t x)) h2⟩
  · exact .inr ⟨congrArg (fun x => Package.ico.perp (t x)) h1, congrArg (fun x => Package.ico.perp (t x)) h2⟩

/-- The surface of a single tetrahedron: its four faces. -/
theorem surface_single (t : Simplex 4) : ∃ s, generatorSurface1 [t] = .ok s ∧
    (∀ f ∈ s, ∃ a : Fin 4, f = fun i => t (a.succAbove i)) ∧ ∀ a : Fin 4, (fun i => t (a.succAbove i)) ∈ s := by
  obtain ⟨J, hJ, -, hall⟩ := C26_single t
  refine ⟨_, hJ, ?_, ?_⟩
  · intro f hf
    obtain ⟨⟨z, a⟩, -, rfl⟩ := List.mem_map.1 hf
    refine ⟨a, ?_⟩
    have : z = ⟨0, by simp⟩ := Fin.ext (Nat.lt_one_iff.1 z.2)
    subst this
    rfl
  · intro a
    exact List.mem_map.2 ⟨(0, a), hall _, rfl⟩

theorem acceptedBy_single (t : Simplex 4) (x : Fin 3 → ℝ) : AcceptedBy [t] x ↔ Accepts (Package.ico.perps t) x := by
  simp [AcceptedBy]

theorem reject_of_bary {q : Fin 4 → Fin 3 → ℝ} {w : Fin 4 → ℝ} {x : Fin 3 → ℝ} (hw : IsBary q w x) (i : Fin 4)
    (hi : w i ≤ -(1 / 10 ^ 6)) : ¬ Accepts q x := by
  intro h
  have := C32_sound x q ((C32_exact _ _).2 h) w hw i
  linarith

/-- Two crossing tetrahedra, none having a corner inside the other: the intersection is an octahedron, but the function raises
UnboundLocalError. -/
theorem C57_star_error (delaunay : Delaunay) :
    intersectionConvexApi delaunay (.d4 [exStarA 1]) (.d4 [exStarB 1]) = .error .unboundLocalError := by
  have okA : Simplex.Ok (exStarA 1) := by intro i; fin_cases i <;> exact cart_ok (by decide)
  have okB : Simplex.Ok (exStarB 1) := by intro i; fin_cases i <;> exact cart_ok (by decide)
  have vA : tetVol (Package.ico.perps (exStarA 1)) ≠ 0 := by
    rw [← det4_ne_iff, det4_eq, perps_starA]; simp <;> norm_num
  have vB : tetVol (Package.ico.perps (exStarB 1)) ≠ 0 := by
    rw [← det4_ne_iff, det4_eq, perps_starB]; simp <;> norm_num
  obtain ⟨s1, hs1, hm1, ha1⟩ := surface_single (exStarA 1)
  obtain ⟨s2, hs2, hm2, ha2⟩ := surface_single (exStarB 1)
  have rA : ∀ a, ¬ Accepts (Package.ico.perps (exStarB 1)) (Package.ico.perps (exStarA 1) a) := by
    intro a
    refine reject_of_bary (w := fun k => if k = a then -1 / 2 else 1 / 2) (i := a) ?_ (by simp only [if_true]; norm_num)
    rw [isBary_four, perps_starA, perps_starB]
    refine ⟨by fin_cases a <;> simp <;> norm_num, fun j => ?_⟩
    fin_cases a <;> fin_cases j <;> simp <;> norm_num
  have rB : ∀ a, ¬ Accepts (Package.ico.perps (exStarA 1)) (Package.ico.perps (exStarB 1) a) := by
    intro a
    refine reject_of_bary (w := fun k => if k = a then -1 / 2 else 1 / 2) (i := a) ?_ (by simp only [if_true]; norm_num)
    rw [isBary_four, perps_starA, perps_starB]
    refine ⟨by fin_cases a <;> simp <;> norm_num, fun j => ?_⟩
    fin_cases a <;> fin_cases j <;> simp <;> norm_num
  have nA : ∀ f ∈ s1, ∀ i, ¬ AcceptedBy [exStarB 1] (Package.ico.perp (f i)) := by
    intro f hf i
    obtain ⟨a, rfl⟩ := hm1 f hf
    rw [acceptedBy_single]
    exact rA _
  have nB : ∀ f ∈ s2, ∀ i, ¬ AcceptedBy [exStarA 1] (Package.ico.perp (f i)) := by
    intro f hf i
    obtain ⟨a, rfl⟩ := hm2 f hf
    rw [acceptedBy_single]
    exact rB _
  refine C57_crossing_error delaunay _ _ (by intro t ht; rw [List.mem_singleton.1 ht]; exact okA)
    (by intro t ht; rw [List.mem_singleton.1 ht]; exact okB) s1 s2 hs1 hs2 (noClash_single vA hm1) (noClash_single vB hm2)
    _ (ha1 0) 0 (nA _ (ha1 0) 0) _ (ha2 0) 0 (nB _ (ha2 0) 0) (.inl ?_) (.inl nA)
  refine ⟨_, ha1 3, 0, 1, by decide, _, ha2 0, ?_⟩
  change Hits (Package.ico.perps (exStarA 1) 0) (Package.ico.perps (exStarA 1) 1) (Package.ico.perps (exStarB 1) 1)
    (Package.ico.perps (exStarB 1) 2) (Package.ico.perps (exStarB 1) 3)
  rw [perps_starA, perps_starB]
  refine ⟨?_, 1 / 2, 1 / 2, 1 / 2, ?_, ?_⟩
  · rw [Matrix.det_fin_three]
    simp
    norm_num
  · rw [meets_iff]
    intro j
    fin_cases j <;> simp
    norm_num
  · norm_num

theorem exHalfA_accepted (k : Fin 4) : Accepts (Package.ico.perps exCorner) (Package.ico.perps exHalfA k) := by
  rw [← C32_exact]
  refine C32_complete _ _ (by rw [tetVol_exCorner]; norm_num) ?_
  refine mem_solid_iff.2 ?_
  have : IsBary (Package.ico.perps exCorner)
      ((![![1, 0, 0, 0], ![1 / 2, 1 / 2, 0, 0], ![0, 0, 1, 0], ![0, 0, 0, 1]] : Fin 4 → Fin 4 → ℝ) k)
      (Package.ico.perps exHalfA k) := by
    rw [isBary_four, perps_exHalfA, perps_exCorner]
    refine ⟨by fin_cases k <;> simp; norm_num, fun j => ?_⟩
    fin_cases k <;> fin_cases j <;> simp
  refine ⟨_, this, ?_⟩
  intro j
  fin_cases k <;> fin_cases j <;> simp

theorem exHalfA_ok : Simplex.Ok exHalfA := by intro i; fin_cases i <;> exact cart_ok (by decide)

theorem singleton_ok {m : Nat} {t : Simplex m} (h : Simplex.Ok t) : Obj.Ok [t] := by
  intro s hs
  rw [List.mem_singleton.1 hs]
  exact h

/-- The hypotheses of `C57_first_inside` are met: half of a tetrahedron is inside the whole, and is returned. -/
example (delaunay : Delaunay) : intersectionTwoObjConvex delaunay [exHalfA] [exCorner] = .ok (some [exHalfA]) := by
  obtain ⟨s1, hs1, hm1, ha1⟩ := surface_single exHalfA
  obtain ⟨s2, hs2, hm2, ha2⟩ := surface_single exCorner
  refine C57_first_inside delaunay _ _ (singleton_ok exHalfA_ok) (singleton_ok exCorner_ok) s1 s2 hs1 hs2 ?_
  intro f hf i
  obtain ⟨a, rfl⟩ := hm1 f hf
  rw [acceptedBy_single]
  exact exHalfA_accepted _

/-- The hypotheses of `C57_second_inside` are met by the same two tetrahedra in the other order. -/
example (delaunay : Delaunay) : intersectionTwoObjConvex delaunay [exCorner] [exHalfA] = .ok (some [exHalfA]) := by
  obtain ⟨s1, hs1, hm1, ha1⟩ := surface_single exCorner
  obtain ⟨s2, hs2, hm2, ha2⟩ := surface_single exHalfA
  refine C57_second_inside delaunay _ _ (singleton_ok exCorner_ok) (singleton_ok exHalfA_ok) s1 s2 hs1 hs2
    (noClash_single (by rw [tetVol_exCorner]; norm_num) hm1) ?_ _ (ha1 0) 0 ?_
  · intro f hf i
    obtain ⟨a, rfl⟩ := hm2 f hf
    rw [acceptedBy_single]
    exact exHalfA_accepted _
  · rw [acceptedBy_single]
    change ¬ Accepts (Package.ico.perps exHalfA) (Package.ico.perps exCorner 1)
    refine reject_of_bary (w := ![-1, 2, 0, 0]) (i := 0) ?_ (by simp; norm_num)
    rw [isBary_four, perps_exHalfA, perps_exCorner]
    refine ⟨by simp; norm_num, fun j => ?_⟩
    fin_cases j <;> simp

/-- A tetrahedron with one corner outside `exCorner`, three inside, and the origin in its interior. -/
def exSpear : Simplex 4 := ![cart (-2) (-2) (-2) 16, cart 4 1 1 16, cart 1 4 1 16, cart 1 1 4 16]

theorem exSpear_ok : Simplex.Ok exSpear := by intro i; fin_cases i <;> exact cart_ok (by decide)

theorem perps_exSpear : Package.ico.perps exSpear =
    ![![-1 / 8, -1 / 8, -1 / 8], ![1 / 4, 1 / 16, 1 / 16], ![1 / 16, 1 / 4, 1 / 16], ![1 / 16, 1 / 16, 1 / 4]] := by
  funext i
  fin_cases i <;> exact (perp_cart _ _ _ _).trans (by norm_num)

/-- The hypotheses of `C57_sound` are met in its third case: for some tetrahedralisation a new object is returned. -/
example : ∃ delaunay r, intersectionTwoObjConvex delaunay [exCorner] [exSpear] = .ok (some r) ∧ r ≠ [exCorner] ∧
    r ≠ [exSpear] := by
  obtain ⟨s1, hs1, hm1, ha1⟩ := surface_single exCorner
  obtain ⟨s2, hs2, hm2, ha2⟩ := surface_single exSpear
  have vC : tetVol (Package.ico.perps exCorner) ≠ 0 := by rw [tetVol_exCorner]; norm_num
  have vS : tetVol (Package.ico.perps exSpear) ≠ 0 := by
    rw [← det4_ne_iff, det4_eq, perps_exSpear]; simp; norm_num
  have cC := noClash_single vC hm1
  have cS := noClash_single vS hm2
  obtain ⟨V1, V2, P, hv1, hn1, hv2, hn2, hPok, -, hP1, hP2, he⟩ := convex_eq (singleton_ok exCorner_ok)
    (singleton_ok exSpear_ok) hs1 hs2
  obtain ⟨p1, hp1, hsub1, -⟩ := C24_one_per_point .ico P fun v hv => (hPok v hv).1
  have corner1 : ∀ k, ∃ v ∈ V1, Package.ico.perp v = Package.ico.perps exCorner k := by
    intro k
    have : ∃ a : Fin 4, ∃ i : Fin 3, a.succAbove i = k := by fin_cases k <;> decide
    obtain ⟨a, i, rfl⟩ := this
    exact hn1 cC _ (ha1 a) i
  have corner2 : ∀ k, ∃ v ∈ V2, Package.ico.perp v = Package.ico.perps exSpear k := by
    intro k
    have : ∃ a : Fin 4, ∃ i : Fin 3, a.succAbove i = k := by fin_cases k <;> decide
    obtain ⟨a, i, rfl⟩ := this
    exact hn2 cS _ (ha2 a) i
  have acc : ∀ {q : Fin 4 → Fin 3 → ℝ} {x : Fin 3 → ℝ} (w : Fin 4 → ℝ), tetVol q ≠ 0 → IsBary q w x → (∀ i, 0 ≤ w i) →
      Accepts q x := fun w hq hw h0 => (C32_exact _ _).1 (C32_complete _ _ hq (mem_solid_iff.2 ⟨w, hw, h0⟩))
  have a0 : Accepts (Package.ico.perps exSpear) (Package.ico.perps exCorner 0) := by
    refine acc ![1 / 2, 1 / 6, 1 / 6, 1 / 6] vS ?_ (by intro i; fin_cases i <;> norm_num)
    rw [isBary_four, perps_exSpear, perps_exCorner]
    refine ⟨by simp; norm_num, fun j => ?_⟩
    fin_cases j <;> simp <;> norm_num
  have b : ∀ k : Fin 3, Accepts (Package.ico.perps exCorner) (Package.ico.perps exSpear k.succ) := by
    intro k
    refine acc ((![![5 / 8, 1 / 4, 1 / 16, 1 / 16], ![5 / 8, 1 / 16, 1 / 4, 1 / 16], ![5 / 8, 1 / 16, 1 / 16, 1 / 4]] :
      Fin 3 → Fin 4 → ℝ) k) vC ?_ (by intro i; fin_cases k <;> fin_cases i <;> norm_num)
    rw [isBary_four, perps_exSpear, perps_exCorner]
    refine ⟨by fin_cases k <;> simp <;> norm_num, fun j => ?_⟩
    fin_cases k <;> fin_cases j <;> simp
  have c1 : ¬ (insideVertices V1 [exSpear]).length = V1.length := by
    rw [insideAll_iff]
    intro hall
    obtain ⟨v, hv, e⟩ := corner1 1
    have := hall v hv
    rw [e, acceptedBy_single] at this
    revert this
    refine reject_of_bary (w := ![-5 / 6, 25 / 6, -7 / 6, -7 / 6]) (i := 0) ?_ (by simp; norm_num)
    rw [isBary_four, perps_exSpear, perps_exCorner]
    refine ⟨by simp; norm_num, fun j => ?_⟩
    fin_cases j <;> simp <;> norm_num
  have c2 : ¬ (insideVertices V2 [exCorner]).length = V2.length := by
    rw [insideAll_iff]
    intro hall
    obtain ⟨v, hv, e⟩ := corner2 0
    have := hall v hv
    rw [e, acceptedBy_single] at this
    revert this
    refine reject_of_bary (w := ![11 / 8, -1 / 8, -1 / 8, -1 / 8]) (i := 1) ?_ (by simp; norm_num)
    rw [isBary_four, perps_exSpear, perps_exCorner]
    refine ⟨by simp; norm_num, fun j => ?_⟩
    fin_cases j <;> simp <;> norm_num
  have c3 : P ≠ [] := by
    refine hP2 cS ⟨_, ha2 3, 0, 1, by decide, _, ha1 3, ?_⟩
    change Hits (Package.ico.perps exSpear 0) (Package.ico.perps exSpear 1) (Package.ico.perps exCorner 0)
      (Package.ico.perps exCorner 1) (Package.ico.perps exCorner 2)
    rw [perps_exSpear, perps_exCorner]
    refine ⟨?_, 2 / 3, 1 / 8, 0, ?_, ?_⟩
    · rw [Matrix.det_fin_three]
      simp
      norm_num
    · rw [meets_iff]
      intro j
      fin_cases j <;> simp <;> norm_num
    · norm_num
  have in1 : ∃ v ∈ insideVertices V1 [exSpear], Package.ico.perp v = Package.ico.perps exCorner 0 := by
    obtain ⟨v, hv, e⟩ := corner1 0
    refine ⟨v, List.mem_filter.2 ⟨hv, (accepted_any _ _).2 ?_⟩, e⟩
    rw [e, acceptedBy_single]
    exact a0
  have in2 : ∀ k : Fin 3, ∃ v ∈ insideVertices V2 [exCorner], Package.ico.perp v = Package.ico.perps exSpear k.succ := by
    intro k
    obtain ⟨v, hv, e⟩ := corner2 k.succ
    refine ⟨v, List.mem_filter.2 ⟨hv, (accepted_any _ _).2 ?_⟩, e⟩
    rw [e, acceptedBy_single]
    exact b k
  have hok : ∀ v ∈ p1 ++ insideVertices V1 [exSpear] ++ insideVertices V2 [exCorner], Vec.Ok v := by
    intro v hv
    rcases List.mem_append.1 hv with hv | hv
    · rcases List.mem_append.1 hv with hv | hv
      · exact (hPok v (hsub1 v hv)).1
      · obtain ⟨f, hf, i, rfl⟩ := hv1 v (List.mem_filter.1 hv).1
        exact surf_ok (singleton_ok exCorner_ok) hs1 f hf i
    · obtain ⟨f, hf, i, rfl⟩ := hv2 v (List.mem_filter.1 hv).1
      exact surf_ok (singleton_ok exSpear_ok) hs2 f hf i
  obtain ⟨pts, hpts, hsub, -, hex⟩ := C24_one_per_point .ico _ hok
  let q : Fin 4 → Fin 3 → ℝ := ![Package.ico.perps exCorner 0, Package.ico.perps exSpear 1, Package.ico.perps exSpear 2,
    Package.ico.perps exSpear 3]
  have hq : ∀ k, ∃ n : Fin pts.length, Package.ico.perp (pts.get n) = q k := by
    intro k
    have : ∃ v ∈ p1 ++ insideVertices V1 [exSpear] ++ insideVertices V2 [exCorner], Package.ico.perp v = q k := by
      refine Fin.cases ?_ (fun k => ?_) k
      · obtain ⟨v, hv, e⟩ := in1
        exact ⟨v, by simp [hv], e⟩
      · obtain ⟨v, hv, e⟩ := in2 k
        refine ⟨v, by simp [hv], e.trans ?_⟩
        fin_cases k <;> rfl
    obtain ⟨v, hv, e⟩ := this
    obtain ⟨y, ⟨hy, hy'⟩, -⟩ := hex v hv
    obtain ⟨n, rfl⟩ := List.get_of_mem hy
    exact ⟨n, hy'.trans e⟩
  choose n hn using hq
  have h0 : pts ≠ [] := by
    intro h
    have := List.length_pos_iff.1 (Nat.lt_of_le_of_lt (Nat.zero_le _) (n 0).2)
    exact this h
  refine ⟨fun _ => some [fun k => (n k : ℕ)], ?_⟩
  have hin : ∀ {V : List (Vec 6)} {o : Obj 4}, (∃ v, v ∈ insideVertices V o) → ¬ (insideVertices V o).length = 0 := by
    rintro V o ⟨v, hv⟩ h
    rw [List.length_eq_zero_iff] at h
    rw [h] at hv
    cases hv
  rw [he, if_neg c1, if_neg c2, if_neg (by rwa [List.length_eq_zero_iff]), hp1, bind_ok',
    if_neg (hin ⟨_, in1.choose_spec.1⟩), if_neg (hin ⟨_, (in2 0).choose_spec.1⟩), hpts, bind_ok']
  have hvol : tetVol (Package.ico.perps fun k => pts.get (n k)) ≠ 0 := by
    rw [show Package.ico.perps (fun k => pts.get (n k)) = q from funext hn, ← det4_ne_iff, det4_eq]
    simp only [q, perps_exSpear, perps_exCorner]
    simp
    norm_num
  rcases C50_tetrahedralization (fun _ => some [fun k => (n k : ℕ)]) pts h0 (fun v hv => hok v (hsub v hv))
    [fun k => (n k : ℕ)] rfl (by intro i hi k; rw [List.mem_singleton] at hi; subst hi; exact (n k).2) with
    ⟨r, hr, hr0, hrs, -, -⟩ | ⟨-, hall⟩
  · have hr1 : ∀ t ∈ r, t = fun k => pts.get (n k) := by
      intro t ht
      have := hrs.subset ht
      simp only [List.attach_cons, List.attach_nil, List.map_nil, List.map_cons, List.mem_singleton] at this
      exact this
    refine ⟨r, hr, ?_, ?_⟩
    · rintro rfl
      have := congrArg (fun t => Package.ico.perp (t 1) 1) (hr1 exCorner (by simp))
      simp only [hn] at this
      rw [show Package.ico.perp (exCorner 1) = Package.ico.perps exCorner 1 from rfl, perps_exCorner] at this
      simp only [q, perps_exSpear] at this
      norm_num at this
    · rintro rfl
      have := congrArg (fun t => Package.ico.perp (t 0) 0) (hr1 exSpear (by simp))
      simp only [hn] at this
      rw [show Package.ico.perp (exSpear 0) = Package.ico.perps exSpear 0 from rfl, perps_exSpear] at this
      simp only [q, perps_exCorner] at this
      norm_num at this
  · exact absurd (hall (fun k => pts.get (n k)) (by simp)) hvol

theorem hits_between {A B C D E : Fin 3 → ℝ} {a b : ℝ} (hA : a ≤ A 0) (hA' : A 0 ≤ b) (hB : a ≤ B 0) (hB' : B 0 ≤ b)
    {c d : ℝ} (hC : c ≤ C 0) (hC' : C 0 ≤ d) (hD : c ≤ D 0) (hD' : D 0 ≤ d) (hE : c ≤ E 0) (hE' : E 0 ≤ d)
    (h : Hits A B C D E) (hba : b - a ≤ 100) (hdc : d - c ≤ 100) : a ≤ d + 1 / 100 ∧ c ≤ b + 1 / 100 := by
  obtain ⟨-, t, u, v, hm, ht1, ht2, hu1, hu2, hv1, huv⟩ := h
  have e := congrFun hm 0
  simp only [Pi.add_apply, Pi.smul_apply, Pi.sub_apply, smul_eq_mul] at e
  have k1 : a - 1 / 1000 ≤ A 0 + t * (B 0 - A 0) ∧ A 0 + t * (B 0 - A 0) ≤ b + 1 / 1000 := by
    constructor <;> nlinarith
  have k2 : c - 1 / 1000 ≤ C 0 + u * (D 0 - C 0) + v * (E 0 - C 0) ∧
      C 0 + u * (D 0 - C 0) + v * (E 0 - C 0) ≤ d + 1 / 1000 := by
    constructor <;> nlinarith
  constructor <;> linarith [k1.1, k1.2, k2.1, k2.2]

/-- The corner tetrahedron moved ten units along the first axis. -/
def exFar : Simplex 4 := ![cart 10 0 0 1, cart 11 0 0 1, cart 10 1 0 1, cart 10 0 1 1]

theorem exFar_ok : Simplex.Ok exFar := by intro i; fin_cases i <;> exact cart_ok (by decide)

theorem perps_exFar : Package.ico.perps exFar = ![![10, 0, 0], ![11, 0, 0], ![10, 1, 0], ![10, 0, 1]] := by
  funext i
  fin_cases i <;> exact (perp_cart _ _ _ _).trans (by norm_num)

/-- The hypotheses of `C57_apart` are met by two tetrahedra ten units apart. -/
example (delaunay : Delaunay) : intersectionTwoObjConvex delaunay [exCorner] [exFar] = .ok none := by
  obtain ⟨s1, hs1, hm1, ha1⟩ := surface_single exCorner
  obtain ⟨s2, hs2, hm2, ha2⟩ := surface_single exFar
  have vC : tetVol (Package.ico.perps exCorner) ≠ 0 := by rw [tetVol_exCorner]; norm_num
  have vF : tetVol (Package.ico.perps exFar) ≠ 0 := by
    rw [← det4_ne_iff, det4_eq, perps_exFar]; simp; norm_num
  have xC : ∀ k, 0 ≤ Package.ico.perp (exCorner k) 0 ∧ Package.ico.perp (exCorner k) 0 ≤ 1 := by
    intro k
    rw [show Package.ico.perp (exCorner k) = Package.ico.perps exCorner k from rfl, perps_exCorner]
    fin_cases k <;> norm_num
  have xF : ∀ k, 10 ≤ Package.ico.perp (exFar k) 0 ∧ Package.ico.perp (exFar k) 0 ≤ 11 := by
    intro k
    rw [show Package.ico.perp (exFar k) = Package.ico.perps exFar k from rfl, perps_exFar]
    fin_cases k <;> norm_num
  refine C57_apart delaunay _ _ (singleton_ok exCorner_ok) (singleton_ok exFar_ok) s1 s2 hs1 hs2 (noClash_single vC hm1)
    (noClash_single vF hm2) _ (ha1 1) 0 ?_ _ (ha2 1) 0 ?_ ?_ ?_
  · rw [acceptedBy_single]
    change ¬ Accepts (Package.ico.perps exFar) (Package.ico.perps exCorner 0)
    refine reject_of_bary (w := ![11, -10, 0, 0]) (i := 1) ?_ (by simp; norm_num)
    rw [isBary_four, perps_exFar, perps_exCorner]
    refine ⟨by simp; norm_num, fun j => ?_⟩
    fin_cases j <;> simp; norm_num
  · rw [acceptedBy_single]
    change ¬ Accepts (Package.ico.perps exCorner) (Package.ico.perps exFar 0)
    refine reject_of_bary (w := ![-9, 10, 0, 0]) (i := 0) ?_ (by simp; norm_num)
    rw [isBary_four, perps_exFar, perps_exCorner]
    refine ⟨by simp; norm_num, fun j => ?_⟩
    fin_cases j <;> simp
  · rintro ⟨f, hf, i, j, -, g, hg, h⟩
    obtain ⟨a, rfl⟩ := hm1 f hf
    obtain ⟨b, rfl⟩ := hm2 g hg
    have := (hits_between (xC _).1 (xC _).2 (xC _).1 (xC _).2 (xF _).1 (xF _).2 (xF _).1 (xF _).2 (xF _).1 (xF _).2 h
      (by norm_num) (by norm_num)).2
    norm_num at this
  · rintro ⟨f, hf, i, j, -, g, hg, h⟩
    obtain ⟨a, rfl⟩ := hm2 f hf
    obtain ⟨b, rfl⟩ := hm1 g hg
    have := (hits_between (xF _).1 (xF _).2 (xF _).1 (xF _).2 (xC _).1 (xC _).2 (xC _).1 (xC _).2 (xC _).1 (xC _).2 h
      (by norm_num) (by norm_num)).1
    norm_num at this

end PyQC
