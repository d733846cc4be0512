import Verif.Model.Simplify
import Verif.Lemmas.Border
import Verif.Lemmas.SharpGrid
import Verif.Props.Measure
/-!
# C48 simplification, C64 convex hull of an object, C65 border edges and outline
-/
namespace PyQC
open Matrix MeasureTheory Ico

/-! ## Surface of a well-formed object -/

theorem sum_of_range {f g : Fin 3 → Fin 3 → ℝ} (hf : Function.Injective f) (hg : Function.Injective g)
    (h : Set.range f = Set.range g) : ∑ i, f i = ∑ i, g i := by
  classical
  have key : Finset.univ.image f = Finset.univ.image g := by
    ext x
    have := Set.ext_iff.1 h x
    simpa using this
  have e1 : ∑ x ∈ Finset.univ.image f, x = ∑ i, f i := Finset.sum_image hf.injOn
  have e2 : ∑ x ∈ Finset.univ.image g, x = ∑ i, g i := Finset.sum_image hg.injOn
  rw [← e1, ← e2, key]

theorem centroid_of_range {o : Obj 4} (ho : ∀ s ∈ o, det4 (Package.ico.perps s) ≠ 0) {i j : Fin o.length × Fin 4}
    (h : Set.range (Package.ico.perps (face o i)) = Set.range (Package.ico.perps (face o j))) :
    Package.ico.centroidPerp (face o i) = Package.ico.centroidPerp (face o j) := by
  unfold Package.centroidPerp
  congr 1
  exact sum_of_range (proper_face (ho _ (List.get_mem o i.1)) i.2).injective
    (proper_face (ho _ (List.get_mem o j.1)) j.2).injective h

theorem det_of_wf {o : Obj 4} (h : WellFormed o) : ∀ s ∈ o, det4 (Package.ico.perps s) ≠ 0 := by
  intro s hs h0
  apply h.vol s hs
  rw [tetVol_det4, h0]
  simp

theorem corners_mem {p : Package} {m : Nat} {o : Obj m} {s : Simplex m} (hs : s ∈ o) (i : Fin m) :
    p.perps s i ∈ p.corners o := ⟨s, hs, i, rfl⟩

theorem corners_set_finite (p : Package) {m : Nat} (o : Obj m) : (p.corners o).Finite := by
  have : p.corners o = ⋃ s ∈ {s | s ∈ o}, Set.range (p.perps s) := by
    ext x
    simp [Package.corners, Package.perps]
  rw [this]
  exact Set.Finite.biUnion (List.finite_toSet o) fun s _ => Set.finite_range _

/-- The surface of a well-formed object consists of the faces without partner. -/
theorem surface_faces {o : Obj 4} (h : WellFormed o) (hs : ∀ i j,
    Close (Package.ico.centroidPerp (face o i)) (Package.ico.centroidPerp (face o j)) →
    Set.range (Package.ico.perps (face o i)) = Set.range (Package.ico.perps (face o j))) :
    ∃ J : List (Fin o.length × Fin 4), generatorSurface1 o = .ok (J.map (face o)) ∧ J.Nodup ∧ ∀ j, j ∈ J ↔ Unpaired o j := by
  have hdet := det_of_wf h
  by_cases hn : 2 ≤ o.length
  · exact C26_surface_partial o h.ok hn fun i j hij => centroid_of_range hdet (hs i j hij)
  · match o, h.ne, hn with
    | [t], _, _ =>
      obtain ⟨J, h1, h2, h3⟩ := C26_single t
      refine ⟨J, h1, h2, fun j => ⟨fun _ => ?_, fun _ => h3 j⟩⟩
      rintro ⟨a, l'⟩ hne he
      obtain ⟨b, l⟩ := j
      obtain rfl : a = b := Fin.ext (by have := a.2; have := b.2; simp only [List.length_singleton] at *; omega)
      have hll : l' ≠ l := fun e => hne (by rw [e])
      have ha : [t].get a = t := List.mem_singleton.1 (List.get_mem _ _)
      apply hll
      apply det4_injective (hdet t (by simp))
      have sum4 : ∀ l : Fin 4, ∑ i, Package.ico.perp (face [t] (a, l) i) = (∑ i, Package.ico.perps t i) - Package.ico.perps t l := by
        intro l
        rw [Fin.sum_univ_succAbove (fun i => Package.ico.perps t i) l, add_sub_cancel_left]
        refine Finset.sum_congr rfl fun i _ => ?_
        change Package.ico.perp ([t].get a (l.succAbove i)) = _
        rw [ha]
        rfl
      unfold Package.centroidPerp at he
      have he := smul_right_injective _ (by norm_num : ((3 : ℕ) : ℝ)⁻¹ ≠ 0) he
      rw [sum4, sum4] at he
      exact sub_right_injective he
    | _ :: _ :: _, _, hn => simp at hn

theorem surface_wf {o : Obj 4} (h : WellFormed o) (hs : Sharp o) :
    ∃ J : List (Fin o.length × Fin 4), generatorSurface1 o = .ok (J.map (face o)) ∧ J.Nodup ∧ ∀ j, j ∈ J ↔ Unpaired o j :=
  surface_faces h hs.faces

/-- At every extreme corner the surface has a side of its own in its plane. -/
theorem surface_flag {o : Obj 4} (h : WellFormed o) (hs : Sharp o) {V : Fin 3 → ℝ} {f : (Fin 3 → ℝ) →ₗ[ℝ] ℝ}
    (hV : V ∈ Package.ico.corners o) (hf : ∀ x ∈ Package.ico.corners o, x ≠ V → f V < f x) :
    ∃ j : Fin o.length × Fin 4, Unpaired o j ∧ ∃ x y : Fin 3, x ≠ y ∧ Package.ico.perp (face o j x) = V ∧
      ∀ j' x' y', Package.ico.perp (face o j' x') = V →
        Package.ico.perp (face o j' y') = Package.ico.perp (face o j y) →
        OnePlane (Package.ico.perps (face o j')) (Package.ico.perps (face o j)) → j' = j := by
  have hdet := det_of_wf h
  obtain ⟨s0, hs0, i0, e0⟩ := hV
  obtain ⟨a0, rfl⟩ := List.get_of_mem hs0
  obtain ⟨a, i, j, k, hij, hik, hjk, hiV, huniq⟩ := flag_plane (q := fun a : Fin o.length => Package.ico.perps (o.get a))
    (fun a => hdet _ (List.get_mem _ _)) (fun a b hab => by
      rcases lt_or_gt_of_ne hab with hlt | hlt
      · exact List.pairwise_iff_get.1 h.apart a b hlt
      · rw [Set.inter_comm]; exact List.pairwise_iff_get.1 h.apart b a hlt)
    (V := V) (f := f) (fun a i hne => hf _ (corners_mem (List.get_mem _ _) i) hne) e0
  obtain ⟨l, hil, hjl, hkl⟩ := exists_fourth i j k
  obtain ⟨x, hx⟩ := Fin.exists_succAbove_eq hil
  obtain ⟨y, hy⟩ := Fin.exists_succAbove_eq hjl
  obtain ⟨z, hz⟩ := Fin.exists_succAbove_eq hkl
  have fx : Package.ico.perps (face o (a, l)) x = Package.ico.perps (o.get a) i := by rw [← hx]; rfl
  have fy : Package.ico.perps (face o (a, l)) y = Package.ico.perps (o.get a) j := by rw [← hy]; rfl
  have fz : Package.ico.perps (face o (a, l)) z = Package.ico.perps (o.get a) k := by rw [← hz]; rfl
  have hxy : x ≠ y := fun e => hij (by rw [← hx, ← hy, e])
  have hcov : ∀ w : Fin 3, w = x ∨ w = y ∨ w = z := by
    have hxz : x ≠ z := fun e => hik (by rw [← hx, ← hz, e])
    have hyz : y ≠ z := fun e => hjk (by rw [← hy, ← hz, e])
    clear fx fy fz hx hy hz
    revert x y z; decide
  have hind : ∀ j' x' y', Package.ico.perp (face o j' x') = V →
      Package.ico.perp (face o j' y') = Package.ico.perp (face o (a, l) y) →
      OnePlane (Package.ico.perps (face o j')) (Package.ico.perps (face o (a, l))) → j' = (a, l) := by
    rintro ⟨b, l'⟩ x' y' h1 h2 ⟨n, hn, d, hd⟩
    have hne : x' ≠ y' := by
      rintro rfl
      have e : Package.ico.perps (o.get a) i = Package.ico.perps (o.get a) j := hiV.trans (h1.symm.trans (h2.trans fy))
      exact hij (det4_injective (hdet _ (List.get_mem _ _)) e)
    obtain ⟨z', hxz, hyz⟩ : ∃ z' : Fin 3, x' ≠ z' ∧ y' ≠ z' := by
      clear h1 h2 hne; revert x' y'; decide
    have sinj := Fin.succAbove_right_injective (p := l')
    obtain ⟨rfl, e1, e2, e3⟩ := huniq b (l'.succAbove x') (l'.succAbove y') (l'.succAbove z') (fun e => hne (sinj e))
      (fun e => hxz (sinj e)) (fun e => hyz (sinj e)) h1 (h2.trans fy) n hn d
      (by rw [← fx]; exact (hd x).2) (by rw [← fy]; exact (hd y).2) (by rw [← fz]; exact (hd z).2) (hd z').1
    have n1 := Fin.succAbove_ne l' x'
    have n2 := Fin.succAbove_ne l' y'
    have n3 := Fin.succAbove_ne l' z'
    rw [e1] at n1
    rw [e2] at n2
    rw [e3] at n3
    rcases perm_cover hij hik hjk hil hjl hkl l' with e | e | e | e
    · exact absurd e.symm n1
    · exact absurd e.symm n2
    · exact absurd e.symm n3
    · rw [e]
  refine ⟨(a, l), ?_, x, y, hxy, fx.trans hiV, hind⟩
  intro j' hne he
  apply hne
  have hr := hs.faces j' (a, l) (by
    rw [he]; intro c; rw [sub_self, abs_zero]; positivity)
  have hmx : Package.ico.perps (face o (a, l)) x ∈ Set.range (Package.ico.perps (face o j')) := by rw [hr]; exact ⟨x, rfl⟩
  have hmy : Package.ico.perps (face o (a, l)) y ∈ Set.range (Package.ico.perps (face o j')) := by rw [hr]; exact ⟨y, rfl⟩
  obtain ⟨x', hx'⟩ := hmx
  obtain ⟨y', hy'⟩ := hmy
  refine hind j' x' y' (hx'.trans (fx.trans hiV)) hy' ?_
  obtain ⟨n, hn, d, h1, h2, h3⟩ := exists_plane (Package.ico.perps (face o (a, l)) 0) (Package.ico.perps (face o (a, l)) 1)
    (Package.ico.perps (face o (a, l)) 2)
  have hall : ∀ w, n ⬝ᵥ Package.ico.perps (face o (a, l)) w = d := by intro w; fin_cases w <;> assumption
  refine ⟨n, hn, d, fun w => ⟨?_, hall w⟩⟩
  have : Package.ico.perps (face o j') w ∈ Set.range (Package.ico.perps (face o (a, l))) := by rw [← hr]; exact ⟨w, rfl⟩
  obtain ⟨u, hu⟩ := this
  rw [← hu]
  exact hall u

theorem extreme_exists {p : Package} {m : Nat} {o : Obj (m + 1)} (h : o ≠ []) :
    ∃ V, V ∈ (convexHull ℝ (p.corners o)).extremePoints ℝ := by
  obtain ⟨s, hs⟩ := List.exists_mem_of_ne_nil _ h
  exact (Set.Finite.isCompact_convexHull (𝕜 := ℝ) (corners_set_finite p o)).extremePoints_nonempty
    ((convexHull_nonempty_iff (𝕜 := ℝ)).2 ⟨_, corners_mem hs 0⟩)

/-- The surface triangles of a well-formed object fit together. -/
theorem surface_sharp {o : Obj 4} (h : WellFormed o) (hs : Sharp o) {J : List (Fin o.length × Fin 4)} (hJ : J.Nodup)
    (hJu : ∀ j, j ∈ J ↔ Unpaired o j) : SharpTriangles .ico (J.map (face o)) := by
  have hdet := det_of_wf h
  have hmem : ∀ t ∈ J.map (face o), ∃ j ∈ J, face o j = t := fun t ht => List.mem_map.1 ht
  have hsub : ∀ x ∈ Package.ico.corners (J.map (face o)), x ∈ Package.ico.corners o := by
    rintro x ⟨t, ht, i, rfl⟩
    obtain ⟨j, -, rfl⟩ := hmem t ht
    exact ⟨_, List.get_mem _ _, _, rfl⟩
  have hedge : ∀ t ∈ J.map (face o), ∀ i j : Fin 3, i ≠ j → ∃ s ∈ o, ∃ k l : Fin 4, k ≠ l ∧ edge t i j = edge s k l := by
    intro t ht i j hij
    obtain ⟨f, -, rfl⟩ := hmem t ht
    exact ⟨o.get f.1, List.get_mem _ _, f.2.succAbove i, f.2.succAbove j,
      fun e => hij (Fin.succAbove_right_injective e), rfl⟩
  refine ⟨?_, ?_, ?_, ?_, ?_, ?_, ?_⟩
  · obtain ⟨V, hV⟩ := extreme_exists (p := .ico) h.ne
    obtain ⟨hVC, f, hf⟩ := exists_min (corners_set_finite .ico o) hV
    obtain ⟨j, hj, -⟩ := surface_flag h hs hVC hf
    exact List.ne_nil_of_mem (List.mem_map_of_mem ((hJu j).2 hj))
  · intro t ht i
    obtain ⟨j, -, rfl⟩ := hmem t ht
    exact h.ok _ (List.get_mem _ _) _
  · intro t ht
    obtain ⟨j, -, rfl⟩ := hmem t ht
    exact proper_face (hdet _ (List.get_mem o j.1)) j.2
  · intro a b hab hpl
    obtain ⟨ja, hja, ea⟩ : ∃ j, j = J.get (a.cast (List.length_map _)) ∧ (J.map (face o)).get a = face o j := ⟨_, rfl, by simp⟩
    obtain ⟨jb, hjb, eb⟩ : ∃ j, j = J.get (b.cast (List.length_map _)) ∧ (J.map (face o)).get b = face o j := ⟨_, rfl, by simp⟩
    rw [ea, eb] at hpl ⊢
    by_contra hne
    have hr := hs.meet ja jb hpl (Set.nonempty_iff_ne_empty.2 hne)
    have hc := centroid_of_range hdet hr
    refine (hJu jb).1 (hjb ▸ List.get_mem _ _) ja ?_ hc
    rintro rfl
    rw [hjb] at hja
    have := List.nodup_iff_injective_get.1 hJ hja
    exact hab (Fin.ext (by simpa using (congrArg Fin.val this).symm))
  · exact fun a ha b hb c hc d hd => hs.flat a (hsub a ha) b (hsub b hb) c (hsub c hc) d (hsub d hd)
  · exact fun a ha b hb c hc => hs.line a (hsub a ha) b (hsub b hb) c (hsub c hc)
  · intro s hs' t ht i j k l hij hkl he
    obtain ⟨s', h1, a, b, hab, e1⟩ := hedge s hs' i j hij
    obtain ⟨t', h2, c, d, hcd, e2⟩ := hedge t ht k l hkl
    rw [e1, e2] at he ⊢
    exact hs.edges s' h1 t' h2 a b c d hab hcd he

/-! ## C65 -/

/-- If every corner of the unpaired faces that is the strict minimum of a linear function and has a side of its own stays,
then so does every extreme point of the convex hull. -/
theorem surface_extremes {o : Obj 4} (h : WellFormed o) (hs : Sharp o) {J : List (Fin o.length × Fin 4)} (hJ2 : J.Nodup)
    (hJ3 : ∀ j, j ∈ J ↔ Unpaired o j) {out : Obj 2}
    (h4 : ∀ (V : Fin 3 → ℝ) (f : (Fin 3 → ℝ) →ₗ[ℝ] ℝ), (∀ x ∈ Package.ico.corners (J.map (face o)), x ≠ V → f V < f x) →
      (∃ a : Fin (J.map (face o)).length, ∃ x y : Fin 3, x ≠ y ∧ Package.ico.perp ((J.map (face o)).get a x) = V ∧
        ∀ b x' y', Package.ico.perp ((J.map (face o)).get b x') = V →
          Package.ico.perp ((J.map (face o)).get b y') = Package.ico.perp ((J.map (face o)).get a y) →
          OnePlane (Package.ico.perps ((J.map (face o)).get b)) (Package.ico.perps ((J.map (face o)).get a)) → b = a) →
      ∃ e ∈ out, ∃ i, Package.ico.perp (e i) = V) :
    ∀ V ∈ (convexHull ℝ (Package.ico.corners o)).extremePoints ℝ, ∃ e ∈ out, ∃ i, Package.ico.perp (e i) = V := by
  intro V hV
  obtain ⟨hVC, f, hf⟩ := exists_min (corners_set_finite .ico o) hV
  obtain ⟨j, hj, x, y, hxy, hxV, huniq⟩ := surface_flag h hs hVC hf
  refine h4 V f (fun x' hx' => hf x' ?_) ?_
  · obtain ⟨t, ht, i, rfl⟩ := hx'
    obtain ⟨f, -, rfl⟩ := List.mem_map.1 ht
    exact ⟨_, List.get_mem _ _, _, rfl⟩
  · obtain ⟨k, hk⟩ := List.get_of_mem ((hJ3 j).2 hj)
    have hlen : (J.map (face o)).length = J.length := List.length_map _
    have hget : ∀ b : Fin (J.map (face o)).length, (J.map (face o)).get b = face o (J.get (b.cast hlen)) := fun b => by simp
    have hk' : (J.map (face o)).get (k.cast hlen.symm) = face o j := by rw [hget, ← hk]; rfl
    refine ⟨k.cast hlen.symm, x, y, hxy, by rw [hk']; exact hxV, fun b x' y' e1 e2 e3 => ?_⟩
    rw [hk'] at e2 e3
    rw [hget] at e1 e2 e3
    have := huniq _ x' y' e1 e2 e3
    rw [← hk] at this
    have := List.nodup_iff_injective_get.1 hJ2 this
    exact Fin.ext (by simpa using congrArg Fin.val this)

/-- C65: for a well-formed object whose tetrahedra fit together, whatever the random draws, `generate_border_edges`
raises nothing; every end of an edge is a vertex of the object; every extreme point of the convex hull of the object is
the end of an edge. -/
theorem C65_border_edges (draws : Nat → Nat → (n : Nat) → Draws n) (o : Obj 4) (h : WellFormed o) (hs : Sharp o) :
    ∃ out, generateBorderEdges draws o = .ok out ∧
      (∀ e ∈ out, ∀ i, ∃ s ∈ o, ∃ j, e i = s j) ∧
      ∀ V ∈ (convexHull ℝ (Package.ico.corners o)).extremePoints ℝ, ∃ e ∈ out, ∃ i, Package.ico.perp (e i) = V := by
  obtain ⟨J, hJ1, hJ2, hJ3⟩ := surface_wf h hs
  obtain ⟨out, h1, -, -, h3, h4⟩ := cleaner_keeps .ico draws (J.map (face o)) (surface_sharp h hs hJ2 hJ3)
  refine ⟨out, ?_, ?_, ?_⟩
  · unfold generateBorderEdges
    rw [hJ1, bind_ok', h1]
  · intro e he i
    obtain ⟨t, ht, j, e1⟩ := h3 e he i
    obtain ⟨f, -, rfl⟩ := List.mem_map.1 ht
    exact ⟨_, List.get_mem _ _, _, e1⟩
  · exact surface_extremes h hs hJ2 hJ3 h4

/-- The same for triangles of one plane. -/
theorem outline_extremes {o : Obj 3} (h : SharpTriangles .dode o)
    (hp : ∃ n : Fin 3 → ℝ, n ≠ 0 ∧ ∃ d, ∀ x ∈ Package.dode.corners o, n ⬝ᵥ x = d) {out : Obj 2}
    (h4 : ∀ (V : Fin 3 → ℝ) (f : (Fin 3 → ℝ) →ₗ[ℝ] ℝ), (∀ x ∈ Package.dode.corners o, x ≠ V → f V < f x) →
      (∃ a : Fin o.length, ∃ x y : Fin 3, x ≠ y ∧ Package.dode.perp (o.get a x) = V ∧
        ∀ b x' y', Package.dode.perp (o.get b x') = V → Package.dode.perp (o.get b y') = Package.dode.perp (o.get a y) →
          OnePlane (Package.dode.perps (o.get b)) (Package.dode.perps (o.get a)) → b = a) →
      ∃ e ∈ out, ∃ i, Package.dode.perp (e i) = V) :
    ∀ V ∈ (convexHull ℝ (Package.dode.corners o)).extremePoints ℝ, ∃ e ∈ out, ∃ i, Package.dode.perp (e i) = V := by
  intro V hV
  obtain ⟨hVC, f, hf⟩ := exists_min (corners_set_finite .dode o) hV
  obtain ⟨n, hn, d, hd⟩ := hp
  obtain ⟨t0, ht0, i0, e0⟩ := hVC
  obtain ⟨a0, rfl⟩ := List.get_of_mem ht0
  have hd' : ∀ (a : Fin o.length) i, n ⬝ᵥ Package.dode.perps (o.get a) i = d := fun a i => hd _ (corners_mem (List.get_mem _ _) i)
  obtain ⟨a, x, y, hxy, hxV, hl⟩ := lone_side_at (T := fun a : Fin o.length => Package.dode.perps (o.get a))
    (fun a => h.proper _ (List.get_mem _ _)) hn hd'
    (fun a b hab => h.apart a b hab ⟨n, hn, d, fun k => ⟨hd' a k, hd' b k⟩⟩)
    (fun a i hne => hf _ (corners_mem (List.get_mem _ _) i) hne) e0
  exact h4 V f hf ⟨a, x, y, hxy, hxV, fun b x' y' e1 e2 _ => hl b x' y' (e1.trans hxV.symm) e2⟩

/-- C65: in dode2, for triangles of one plane that fit together, `outline` raises nothing; every end of an edge is a
vertex of the object; every extreme point of its convex hull is the end of an edge. -/
theorem C65_outline (draws : Nat → Nat → (n : Nat) → Draws n) (o : Obj 3) (h : SharpTriangles .dode o)
    (hp : ∃ n : Fin 3 → ℝ, n ≠ 0 ∧ ∃ d, ∀ x ∈ Package.dode.corners o, n ⬝ᵥ x = d) :
    ∃ out, outline draws o = .ok out ∧ (∀ e ∈ out, ∀ i, ∃ t ∈ o, ∃ j, e i = t j) ∧
      ∀ V ∈ (convexHull ℝ (Package.dode.corners o)).extremePoints ℝ, ∃ e ∈ out, ∃ i, Package.dode.perp (e i) = V := by
  obtain ⟨out, h1, -, -, h3, h4⟩ := cleaner_keeps .dode draws o h
  exact ⟨out, h1, h3, outline_extremes h hp h4⟩

/-! ## C64 -/

/-- Points among the corners that contain all extreme points have the same hull. -/
theorem hull_of_extreme {A B : Set (Fin 3 → ℝ)} (hA : A.Finite) (hBA : B ⊆ A)
    (hV : ∀ V ∈ (convexHull ℝ A).extremePoints ℝ, V ∈ B) : convexHull ℝ B = convexHull ℝ A := by
  refine Set.Subset.antisymm (convexHull_mono hBA) ?_
  have h1 := closure_convexHull_extremePoints (Set.Finite.isCompact_convexHull (𝕜 := ℝ) hA) (convex_convexHull ℝ A)
  rw [← h1]
  exact closure_minimal (convexHull_mono hV) (Set.Finite.isClosed_convexHull (𝕜 := ℝ) (hA.subset hBA))

theorem corners_not_inPlane {o : Obj 4} (h : WellFormed o) {n : Fin 3 → ℝ} (hn : n ≠ 0) {d : ℝ} :
    ¬ ∀ x ∈ Package.ico.corners o, n ⬝ᵥ x = d := by
  intro hx
  obtain ⟨s, hs⟩ := List.exists_mem_of_ne_nil _ h.ne
  have := lin_const (det_of_wf h s hs) (φ := dotProductBilin ℝ ℝ n) (c := d) fun i => hx _ (corners_mem hs i)
  apply hn
  rw [← dotProduct_self_eq_zero]
  exact congrArg (fun φ : (Fin 3 → ℝ) →ₗ[ℝ] ℝ => φ n) this

/-- The distinct points among the ends of the edges have the same convex hull as the object. -/
theorem hull_points_of {o : Obj 4} (h : WellFormed o) {out : Obj 2} (h2 : ∀ e ∈ out, ∀ i, ∃ s ∈ o, ∃ j, e i = s j)
    (h3 : ∀ V ∈ (convexHull ℝ (Package.ico.corners o)).extremePoints ℝ, ∃ e ∈ out, ∃ i, Package.ico.perp (e i) = V) :
    ∃ pts : List (Vec 6), removeDoublingPerpApi .ico (.d4 out) = .ok pts ∧
      (∀ v ∈ pts, ∃ s ∈ o, ∃ j, v = s j) ∧ (∀ v ∈ pts, Vec.Ok v) ∧ ¬ InPlane (pts.map Package.ico.perp) ∧
      convexHull ℝ {x | ∃ v ∈ pts, Package.ico.perp v = x} = convexHull ℝ (Package.ico.corners o) := by
  have hoko : ∀ v ∈ flattenObj out, ∃ s ∈ o, ∃ j, v = s j := by
    intro v hv
    obtain ⟨e, he, hv⟩ := List.mem_flatMap.1 hv
    obtain ⟨i, rfl⟩ := List.mem_ofFn.1 hv
    exact h2 e he i
  obtain ⟨pts, hp1, hp2, -, hp4⟩ := C24_one_per_point .ico (flattenObj out) (by
    intro v hv
    obtain ⟨s, hs, j, rfl⟩ := hoko v hv
    exact h.ok s hs j)
  have hptso : ∀ v ∈ pts, ∃ s ∈ o, ∃ j, v = s j := fun v hv => hoko v (hp2 v hv)
  have hpok : ∀ v ∈ pts, Vec.Ok v := by
    intro v hv
    obtain ⟨s, hs, j, rfl⟩ := hptso v hv
    exact h.ok s hs j
  have hhull : convexHull ℝ {x | ∃ v ∈ pts, Package.ico.perp v = x} = convexHull ℝ (Package.ico.corners o) := by
    refine hull_of_extreme (corners_set_finite .ico o) ?_ ?_
    · rintro x ⟨v, hv, rfl⟩
      obtain ⟨s, hs, j, rfl⟩ := hptso v hv
      exact corners_mem hs j
    · intro V hV
      obtain ⟨e, he, i, hi⟩ := h3 V hV
      obtain ⟨v, ⟨hv, hv'⟩, -⟩ := hp4 (e i) (List.mem_flatMap.2 ⟨e, he, List.mem_ofFn.2 ⟨i, rfl⟩⟩)
      exact ⟨v, hv, hv'.trans hi⟩
  have hnp : ¬ InPlane (pts.map Package.ico.perp) := by
    rintro ⟨n, hn, d, hd⟩
    refine corners_not_inPlane h hn (d := d) fun x hx => ?_
    refine hull_inPlane (P := {x | ∃ v ∈ pts, Package.ico.perp v = x}) ?_ x ?_
    · rintro y ⟨v, hv, rfl⟩
      exact hd _ (List.mem_map_of_mem hv)
    · rw [hhull]; exact subset_convexHull ℝ _ hx
  exact ⟨pts, hp1, hptso, hpok, hnp, hhull⟩

/-- The points handed to the Delaunay library have the same convex hull as the object. -/
theorem hull_points (draws : Nat → Nat → (n : Nat) → Draws n) (o : Obj 4) (h : WellFormed o) (hs : Sharp o) :
    ∃ pts : List (Vec 6), (∀ delaunay, generateConvexHull draws delaunay o = tetrahedralizationPoints delaunay pts) ∧
      (∀ v ∈ pts, ∃ s ∈ o, ∃ j, v = s j) ∧ (∀ v ∈ pts, Vec.Ok v) ∧ ¬ InPlane (pts.map Package.ico.perp) ∧
      convexHull ℝ {x | ∃ v ∈ pts, Package.ico.perp v = x} = convexHull ℝ (Package.ico.corners o) := by
  obtain ⟨out, h1, h2, h3⟩ := C65_border_edges draws o h hs
  obtain ⟨pts, h4, h5⟩ := hull_points_of h h2 h3
  refine ⟨pts, fun delaunay => ?_, h5⟩
  unfold generateConvexHull
  rw [h1, bind_ok', h4, bind_ok']

/-- C64: for a well-formed object whose tetrahedra fit together, whatever the random draws and with a library that tiles
convex hulls, `generate_convex_hull` returns tetrahedra without overlap on vertices of the object that fill exactly the
convex hull of the object, and their exact volume is the Lebesgue measure of the hull. -/
theorem C64_hull (draws : Nat → Nat → (n : Nat) → Draws n) (delaunay : Delaunay) (hD : TilesHull delaunay) (o : Obj 4)
    (h : WellFormed o) (hs : Sharp o) :
    ∃ r w, generateConvexHull draws delaunay o = .ok (some r) ∧ WellFormed r ∧
      (∀ t ∈ r, ∀ k, ∃ s ∈ o, ∃ j, t k = s j) ∧
      Package.ico.region r = convexHull ℝ (Package.ico.corners o) ∧
      objVolume6d (.d4 r) = .ok (some w) ∧ ENNReal.ofReal (w.val tau) = volume (convexHull ℝ (Package.ico.corners o)) := by
  obtain ⟨pts, h1, hptso, hpok, hnp, hhull⟩ := hull_points draws o h hs
  obtain ⟨r, w, r1, r2, r3, r4⟩ := C62_hull delaunay hD pts hpok hnp
  obtain ⟨s1, s2⟩ := C50_sound delaunay pts hpok r r1
  exact ⟨r, w, (h1 delaunay).trans r1, ⟨s1, fun t ht k => hpok _ ((s2 t ht).1 k), fun t ht => (s2 t ht).2,
    tetrahedralization_noOverlap hD hpok r1⟩, fun t ht k => hptso _ ((s2 t ht).1 k), r3.trans hhull, r2, hhull ▸ r4⟩

/-! ## C48 -/

/-- C48: nothing is simplified to nothing. -/
theorem C48_empty (hd hl draws delaunay) : simplification hd hl draws delaunay [] = .ok none := rfl

theorem region_subset_corners {m : Nat} (p : Package) (o : Obj m) : p.region o ⊆ convexHull ℝ (p.corners o) := by
  rintro x ⟨s, hs, hx⟩
  refine convexHull_mono ?_ hx
  rintro y ⟨i, rfl⟩
  exact corners_mem hs i

theorem volume_nonneg {o : Obj 4} {v : Num3} (h : Obj.Ok o) (hv : objVolume6d (.d4 o) = .ok (some v)) : 0 ≤ v.val tau := by
  obtain ⟨w, hw, -, e⟩ := C17_volume o h
  rw [hv] at hw
  cases hw
  rw [e]
  refine List.sum_nonneg fun x hx => ?_
  obtain ⟨t, -, rfl⟩ := List.mem_map.1 hx
  rw [tetVol_det4]; positivity

/-- Exact volumes that are equal as measures are equal triples. -/
theorem volume_triple {o o' : Obj 4} {v v' : Num3} (h : Obj.Ok o) (h' : Obj.Ok o') (hv : objVolume6d (.d4 o) = .ok (some v))
    (hv' : objVolume6d (.d4 o') = .ok (some v')) (e : ENNReal.ofReal (v.val tau) = ENNReal.ofReal (v'.val tau)) : v = v' := by
  have p1 := volume_nonneg h hv
  have p2 := volume_nonneg h' hv'
  obtain ⟨w, hw, c1, -⟩ := C17_volume o h
  rw [hv] at hw
  cases hw
  obtain ⟨w, hw, c2, -⟩ := C17_volume o' h'
  rw [hv'] at hw
  cases hw
  exact canon_unique (θ := tau) c1 c2 ((ENNReal.ofReal_eq_ofReal_iff p1 p2).1 e)

/-- C48: on a well-formed object whose tetrahedra fit together, when the tolerances do not matter for the intersection of
the object with tetrahedra on its own vertices, `simplification` never answers with the object: it answers with the
convex hull of the object, or raises the exception raised by the intersection of the hull and the object. -/
theorem C48_hull (hd : Nat → Nat → (n : Nat) → Draws n) (hl : Delaunay) (hD : TilesHull hl)
    (draws : Simplex 4 → Simplex 4 → (n : Nat) → Draws n) (delaunay : Simplex 4 → Simplex 4 → Delaunay)
    (hD' : ∀ s t, TilesHull (delaunay s t)) (o : Obj 4) (h : WellFormed o) (hs : Sharp o)
    (hres : ∀ s : Simplex 4, (∀ k, ∃ t ∈ o, ∃ j, s k = t j) → tetVol (Package.ico.perps s) ≠ 0 →
      ∀ t ∈ o, Resolved (Package.ico.perps s) (Package.ico.perps t)) :
    ∃ r v w, WellFormed r ∧ (∀ t ∈ r, ∀ k, ∃ s ∈ o, ∃ j, t k = s j) ∧
      Package.ico.region r = convexHull ℝ (Package.ico.corners o) ∧
      objVolume6d (.d4 o) = .ok (some v) ∧ ENNReal.ofReal (v.val tau) = volume (Package.ico.region o) ∧
      objVolume6d (.d4 r) = .ok (some w) ∧ ENNReal.ofReal (w.val tau) = volume (convexHull ℝ (Package.ico.corners o)) ∧
      ((∃ e, intersectionApi .standard draws delaunay (.d4 r) (.d4 o) = .error e ∧
        simplification hd hl draws delaunay o = .error e) ∨ simplification hd hl draws delaunay o = .ok (some r)) := by
  obtain ⟨r, w, h1, h2, h3, h4, h5, h6⟩ := C64_hull hd hl hD o h hs
  obtain ⟨v, hv, hvc, hvs⟩ := C17_volume o h.ok
  obtain ⟨v', hv', -, hv2⟩ := C62_object o h.ok
  rw [hv] at hv'
  cases hv'
  have hvol := (hv2.2 h.apart).symm
  have hinter : Package.ico.region r ∩ Package.ico.region o = Package.ico.region o := by
    rw [Set.inter_eq_right, h4]; exact region_subset_corners .ico o
  refine ⟨r, v, w, h2, h3, h4, hv, hvol, h5, h6, ?_⟩
  have hstep : simplification hd hl draws delaunay o =
      (intersectionApi .standard draws delaunay (.d4 r) (.d4 o) >>= fun tmp => match tmp with
        | none => .error .attributeError
        | some tmp => do
          let vol1 ← objVolume6d (.d4 tmp)
          if some v = vol1 then .ok (some r) else .ok (some o)) := by
    unfold simplification
    rw [if_neg h.ne, hv, bind_ok', h1, bind_ok']
    rfl
  rw [hstep]
  have hpos : 0 < volume (Package.ico.region o) := by
    obtain ⟨s, hs⟩ := List.exists_mem_of_ne_nil _ h.ne
    refine lt_of_lt_of_le ?_ (measure_mono (fun x hx => (⟨s, hs, hx⟩ : x ∈ Package.ico.region o)))
    rw [volume_solid, ENNReal.ofReal_pos]
    refine lt_of_le_of_ne ?_ (Ne.symm (h.vol s hs))
    rw [tetVol_det4]; positivity
  have hall : ∀ s ∈ r, ∀ t ∈ o, Resolved (Package.ico.perps s) (Package.ico.perps t) := fun s hs t ht =>
    hres s (h3 s hs) (h2.vol s hs) t ht
  cases hq : intersectionApi .standard draws delaunay (.d4 r) (.d4 o) with
  | error e => exact .inl ⟨e, rfl, rfl⟩
  | ok q =>
    right
    obtain ⟨g1, g2⟩ := C63_objects .standard draws delaunay r o (fun s _ t _ => hD' s t) h2.ok h.ok h2.apart h.apart hall q hq
    rw [hinter] at g1 g2
    rw [bind_ok']
    cases q with
    | none => exact absurd (g1 rfl) hpos.ne'
    | some q =>
      obtain ⟨u, hu, hu2⟩ := g2 q rfl
      change (objVolume6d (.d4 q) >>= _) = _
      rw [hu, bind_ok', if_pos]
      rw [volume_triple h.ok (intersectionApi_ok h2.ok h.ok hq) hv hu (hvol.trans hu2)]

/-- C48, partial: when the object fills a convex region, every answer of `simplification` is an object with exactly the
same volume and the same region. Missing: objects that are not convex, for which the claim is false
(`C48_fails_nonconvex`, `C48_volume_iff`). -/
theorem C48_convex_partial (hd : Nat → Nat → (n : Nat) → Draws n) (hl : Delaunay) (hD : TilesHull hl)
    (draws : Simplex 4 → Simplex 4 → (n : Nat) → Draws n) (delaunay : Simplex 4 → Simplex 4 → Delaunay)
    (hD' : ∀ s t, TilesHull (delaunay s t)) (o : Obj 4) (h : WellFormed o) (hs : Sharp o)
    (hres : ∀ s : Simplex 4, (∀ k, ∃ t ∈ o, ∃ j, s k = t j) → tetVol (Package.ico.perps s) ≠ 0 →
      ∀ t ∈ o, Resolved (Package.ico.perps s) (Package.ico.perps t))
    (hc : Convex ℝ (Package.ico.region o)) (q : Option (Obj 4)) (hq : simplification hd hl draws delaunay o = .ok q) :
    ∃ r, q = some r ∧ WellFormed r ∧ Package.ico.region r = Package.ico.region o ∧
      objVolume6d (.d4 r) = objVolume6d (.d4 o) := by
  obtain ⟨r, v, w, h1, h2, h3, h4, h5, h6, h7, h8⟩ := C48_hull hd hl hD draws delaunay hD' o h hs hres
  rcases h8 with ⟨e, -, h8⟩ | h8
  · rw [hq] at h8; cases h8
  rw [hq] at h8
  cases h8
  have hreg : convexHull ℝ (Package.ico.corners o) = Package.ico.region o := by
    refine Set.Subset.antisymm (convexHull_min ?_ hc) (region_subset_corners .ico o)
    rintro x ⟨s, hs, i, rfl⟩
    exact ⟨s, hs, subset_convexHull ℝ _ ⟨i, rfl⟩⟩
  refine ⟨r, rfl, h1, h3.trans hreg, ?_⟩
  rw [h6, h4]
  rw [hreg] at h7
  exact congrArg (fun x => Except.ok (some x)) (volume_triple h1.ok h.ok h6 h4 (h7.trans h5.symm))

/-- C48: the answer of `simplification` has the volume of the object exactly when the object fills its convex hull up to
a set of measure zero; otherwise it has a larger volume. -/
theorem C48_volume_iff (hd : Nat → Nat → (n : Nat) → Draws n) (hl : Delaunay) (hD : TilesHull hl)
    (draws : Simplex 4 → Simplex 4 → (n : Nat) → Draws n) (delaunay : Simplex 4 → Simplex 4 → Delaunay)
    (hD' : ∀ s t, TilesHull (delaunay s t)) (o : Obj 4) (h : WellFormed o) (hs : Sharp o)
    (hres : ∀ s : Simplex 4, (∀ k, ∃ t ∈ o, ∃ j, s k = t j) → tetVol (Package.ico.perps s) ≠ 0 →
      ∀ t ∈ o, Resolved (Package.ico.perps s) (Package.ico.perps t))
    (q : Option (Obj 4)) (hq : simplification hd hl draws delaunay o = .ok q) :
    ∃ r v w, q = some r ∧ objVolume6d (.d4 o) = .ok (some v) ∧ objVolume6d (.d4 r) = .ok (some w) ∧
      v.val tau ≤ w.val tau ∧
      (w = v ↔ volume (convexHull ℝ (Package.ico.corners o) \ Package.ico.region o) = 0) := by
  obtain ⟨r, v, w, h1, h2, h3, h4, h5, h6, h7, h8⟩ := C48_hull hd hl hD draws delaunay hD' o h hs hres
  rcases h8 with ⟨e, -, h8⟩ | h8
  · rw [hq] at h8; cases h8
  rw [hq] at h8
  cases h8
  have hsub := region_subset_corners .ico o
  have hfin : volume (Package.ico.region o) ≠ ⊤ := by rw [← h5]; exact ENNReal.ofReal_ne_top
  have hle : volume (Package.ico.region o) ≤ volume (convexHull ℝ (Package.ico.corners o)) := measure_mono hsub
  have hmeas : MeasurableSet (Package.ico.region o) := by
    have : Package.ico.region o = ⋃ s ∈ {s | s ∈ o}, solid (Package.ico.perps s) := by
      ext x; simp [Package.region]
    rw [this]
    exact (Set.Finite.isClosed_biUnion (List.finite_toSet o) fun s _ => (solid_compact _).isClosed).measurableSet
  refine ⟨r, v, w, rfl, h4, h6, ?_, ?_, ?_⟩
  · rw [← h5, ← h7] at hle
    exact (ENNReal.ofReal_le_ofReal_iff (volume_nonneg h1.ok h6)).1 hle
  · rintro rfl
    rw [measure_sdiff hsub hmeas.nullMeasurableSet hfin, ← h5, ← h7, tsub_self]
  · intro h0
    refine volume_triple h1.ok h.ok h6 h4 ?_
    rw [h5, h7]
    refine le_antisymm ?_ hle
    rw [measure_sdiff hsub hmeas.nullMeasurableSet hfin] at h0
    exact tsub_eq_zero_iff_le.1 h0

/-! ## Objects whose hull is a single tetrahedron -/

/-- There is a library that answers with a single tetrahedron whenever one suffices. -/
theorem exists_tiles_single : ∃ D : Delaunay, TilesHull D ∧ ∀ (pts : List (Fin 3 → ℝ)) (q : Fin 4 → Fin 3 → ℝ),
    (∀ k, q k ∈ pts) → tetVol q ≠ 0 → (∀ x ∈ pts, x ∈ solid q) → ∃ j, D pts = some [j] := by
  classical
  obtain ⟨D, hD⟩ := exists_tiles
  let good (pts : List (Fin 3 → ℝ)) (j : Fin 4 → Nat) : Prop :=
    ∃ h : ∀ k, j k < pts.length, tetVol (fun k => pts[j k]'(h k)) ≠ 0 ∧ ∀ x ∈ pts, x ∈ solid (fun k => pts[j k]'(h k))
  refine ⟨fun pts => if h : ∃ j, good pts j then some [h.choose] else D pts, ⟨?_, ?_⟩, ?_⟩
  · intro pts hp
    by_cases h : ∃ j, good pts j
    · obtain ⟨h1, h2, h3⟩ := h.choose_spec
      refine ⟨[h.choose], dif_pos h, ?_, ?_⟩
      · intro i hi k
        rw [List.mem_singleton.1 hi]; exact h1 k
      · intro x hx
        refine ⟨h.choose, List.mem_singleton_self _, h2, ?_⟩
        exact convexHull_min (fun y hy => h3 y hy) (convex_convexHull ℝ _) hx
    · simp only [dif_neg h]
      exact hD.1 pts hp
  · intro pts l hl hlt
    by_cases h : ∃ j, good pts j
    · simp only [dif_pos h] at hl
      cases hl
      exact List.pairwise_singleton _ _
    · simp only [dif_neg h] at hl
      exact hD.2 pts l hl hlt
  · intro pts q hq hv hall
    choose i hi using fun k => List.get_of_mem (hq k)
    have hg : good pts (fun k => (i k : Nat)) := by
      have e : (fun k => pts[((i k : Nat))]'(i k).2) = q := funext fun k => hi k
      refine ⟨fun k => (i k).2, ?_, ?_⟩
      · rw [e]; exact hv
      · rw [e]; exact hall
    exact ⟨_, dif_pos ⟨_, hg⟩⟩

theorem innerLoop_two {flag : Simplex 4 → Simplex 4 → Py Nat} {inter : Simplex 4 → Simplex 4 → Py (Option (Obj 4))}
    {t1 : Simplex 4} : ∀ (o acc : Obj 4), (∀ t ∈ o, flag t1 t = .ok 2) →
      innerLoop flag inter t1 acc o = .ok (false, acc ++ o)
  | [], acc, _ => by rw [List.append_nil]; rfl
  | t :: o, acc, h => by
    unfold innerLoop
    rw [h t List.mem_cons_self, bind_ok', if_neg (by decide), if_pos rfl, innerLoop_two o _ fun t ht => h t (List.mem_cons_of_mem _ ht)]
    rw [List.append_assoc]; rfl

/-- When the hull of the object is a single tetrahedron that no piece of the object contains, the run does not raise
and `simplification` answers with the hull. -/
theorem simplification_single {hl : Delaunay} (hD : TilesHull hl)
    (hsingle : ∀ (pts : List (Fin 3 → ℝ)) (q : Fin 4 → Fin 3 → ℝ),
      (∀ k, q k ∈ pts) → tetVol q ≠ 0 → (∀ x ∈ pts, x ∈ solid q) → ∃ j, hl pts = some [j])
    {o : Obj 4} (h : WellFormed o) (hs : Sharp o)
    {Q : Fin 4 → Fin 3 → ℝ} (hQ : tetVol Q ≠ 0) (hQ1 : ∀ k, ∃ f : Fin 3 → ℝ, ∀ y ∈ Package.ico.corners o, y ≠ Q k → f ⬝ᵥ Q k < f ⬝ᵥ y)
    (hQ2 : convexHull ℝ (Package.ico.corners o) = solid Q)
    (hV : ∀ t ∈ o, ∃ k, ¬ Accepts (Package.ico.perps t) (Q k))
    (hd : Nat → Nat → (n : Nat) → Draws n) (draws : Simplex 4 → Simplex 4 → (n : Nat) → Draws n)
    (delaunay : Simplex 4 → Simplex 4 → Delaunay) :
    ∃ s, simplification hd hl draws delaunay o = .ok (some [s]) ∧ Simplex.Ok s ∧ solid (Package.ico.perps s) = solid Q := by
  -- corners
  have hfind : ∀ (P : Set (Fin 3 → ℝ)), P ⊆ Package.ico.corners o → convexHull ℝ P = solid Q → ∀ k, Q k ∈ P := by
    intro P hP hPQ k
    by_contra hn
    obtain ⟨f, hf⟩ := hQ1 k
    have h1 : Q k ∈ convexHull ℝ P := by rw [hPQ]; exact subset_convexHull ℝ _ ⟨k, rfl⟩
    have h2 : P ⊆ {y | f ⬝ᵥ Q k < f ⬝ᵥ y} := fun y hy => hf y (hP hy) (fun e => hn (e ▸ hy))
    have hconv : Convex ℝ {y | f ⬝ᵥ Q k < f ⬝ᵥ y} := by
      refine convex_halfSpace_gt ⟨?_, ?_⟩ _
      · intro x y; exact dotProduct_add _ _ _
      · intro c x; exact dotProduct_smul _ _ _
    exact lt_irrefl (f ⬝ᵥ Q k) (show Q k ∈ {y | f ⬝ᵥ Q k < f ⬝ᵥ y} from convexHull_min h2 hconv h1)
  obtain ⟨pts, h1, hptso, hpok, hnp, hhull⟩ := hull_points hd o h hs
  obtain ⟨r, w, r1, r2, r3, r4, -, -⟩ := C64_hull hd hl hD o h hs
  have hmem : ∀ k, Q k ∈ pts.map Package.ico.perp := by
    intro k
    obtain ⟨v, hv, e⟩ := hfind {x | ∃ v ∈ pts, Package.ico.perp v = x} (by
      rintro x ⟨v, hv, rfl⟩
      obtain ⟨s, hs, j, rfl⟩ := hptso v hv
      exact corners_mem hs j) (hhull.trans hQ2) k
    exact List.mem_map.2 ⟨v, hv, e⟩
  obtain ⟨j, hj⟩ := hsingle _ Q hmem hQ (by
    intro x hx
    obtain ⟨v, hv, rfl⟩ := List.mem_map.1 hx
    rw [← hQ2, ← hhull]
    exact subset_convexHull ℝ _ ⟨v, hv, rfl⟩)
  obtain ⟨l, hl1, hlt, -⟩ := hD.1 _ hnp
  rw [hj] at hl1
  cases hl1
  have hlt' : ∀ i ∈ [j], ∀ k, i k < pts.length := fun i hi k => by simpa using hlt i hi k
  obtain ⟨s, rfl⟩ : ∃ s, r = [s] := by
    rcases C50_tetrahedralization hl pts (by rintro rfl; exact hnp (inPlane_few (by simp))) hpok [j] hj hlt' with ⟨r', e, hne, hsub, -⟩ | ⟨e, -⟩
    · rw [← h1 hl, r1] at e
      cases e
      have hlen := hsub.length_le
      simp only [List.length_map, List.length_attach, List.length_singleton] at hlen
      match r, hne, hlen with
      | [s], _, _ => exact ⟨s, rfl⟩
    · rw [← h1 hl, r1] at e
      cases e
  have hsol : solid (Package.ico.perps s) = solid Q := by
    rw [← hQ2, ← r4]
    ext x
    simp [Package.region]
  have hsm : s ∈ [s] := List.mem_singleton_self _
  refine ⟨s, ?_, r2.ok s hsm, hsol⟩
  have hcorn : ∀ k, ∃ i, Package.ico.perps s i = Q k := by
    intro k
    refine hfind (Set.range (Package.ico.perps s)) ?_ hsol k
    rintro x ⟨i, rfl⟩
    obtain ⟨t, ht, j, e⟩ := r3 s hsm i
    exact ⟨t, ht, j, congrArg Package.ico.perp e.symm⟩
  have hcode : ∀ t ∈ o, checkTwoTetrahedra s t = 2 := by
    intro t ht
    refine (C36_codes _ _).2.1.2 ⟨fun hacc => ?_, fun i => ?_⟩
    · obtain ⟨k, hk⟩ := hV t ht
      obtain ⟨i, e⟩ := hcorn k
      exact hk (e ▸ hacc i)
    · refine accepts_of_mem (r2.vol s hsm) ?_
      rw [hsol, ← hQ2]
      exact subset_convexHull ℝ _ (corners_mem ht i)
  have hok : Simplex.Ok s := r2.ok s hsm
  obtain ⟨c, d, -, hc, hd2, e⟩ := intersectionTwoObj1_eq .standard draws delaunay (obj1 := [s]) h.ok h.ne
  have hint : intersectionTwoObj1 .standard draws delaunay [s] o = .ok (some o) := by
    obtain ⟨t, ht⟩ := List.exists_mem_of_ne_nil _ h.ne
    have hr := C35_object .ico (by decide) s o hok h.ok t ht (Package.ico.perps t 0) (by
      change _ ∈ solid _
      rw [hsol, ← hQ2]
      exact subset_convexHull ℝ _ (corners_mem ht 0)) (subset_convexHull ℝ _ ⟨0, rfl⟩)
    rw [show Package.ico.arith = arith from rfl, hc, bind_ok', hd2, bind_ok'] at hr
    rw [e]
    have hloop := innerLoop_two (flag := fun s t => .ok (checkTwoTetrahedra s t))
      (inter := fun s t => intersectionTwoTetrahedra (draws s t) (delaunay s t) s t) (t1 := s) o []
      (fun t ht => congrArg Except.ok (hcode t ht))
    have hlen : ¬ o.length = 0 := fun h0 => h.ne (List.length_eq_zero_iff.1 h0)
    simp only [intersectionTwoObj, fillList, onePiece, hr, bind_ok', hloop, List.nil_append, if_pos, if_neg, Bool.false_eq_true,
      ne_eq, hlen, not_false_eq_true]
    simp [hlen]
  obtain ⟨v, hv, -⟩ := C17_volume o h.ok
  unfold simplification
  rw [if_neg h.ne, hv, bind_ok', r1, bind_ok']
  change (intersectionTwoObj1 .standard draws delaunay [s] o >>= _) = _
  rw [hint, bind_ok']
  change (objVolume6d (.d4 o) >>= _) = _
  rw [hv, bind_ok', if_pos rfl]

/-! ## Cases that meet the hypotheses -/

/-- Tetrahedra on a table of grid points are resolved when the integer determinants are small. -/
theorem resolved_table {o : Obj 4} (h : WellFormed o) {N : ℕ} (P : Fin N → Fin 3 → ℤ) (n D : ℕ) (hn : 0 < n) (hn2 : n ^ 3 ≤ 10 ^ 6)
    (hP : ∀ t ∈ o, ∀ j, ∃ f, ∀ c, Package.ico.perp (t j) c = P f c / n)
    (hdet : ∀ a b c d : Fin N, |detZ ![P a, P b, P c, P d]| < 10 ^ 6) (hD1 : 1 ≤ D) (hD2 : n ^ 3 * D ^ 6 ≤ 10 ^ 10)
    (hD : ∀ a b c d e : Fin N, |tripZ (fun x => P b x - P a x) (fun x => P e x - P c x) (fun x => P d x - P c x)| ≤ D) :
    ∀ s : Simplex 4, (∀ k, ∃ t ∈ o, ∃ j, s k = t j) → tetVol (Package.ico.perps s) ≠ 0 →
      ∀ t ∈ o, Resolved (Package.ico.perps s) (Package.ico.perps t) := by
  intro s hs hv t ht
  have hs' : ∀ k, ∃ f, ∀ c, Package.ico.perp (s k) c = P f c / n := by
    intro k
    obtain ⟨t, ht, j, e⟩ := hs k
    rw [e]; exact hP t ht j
  choose f hf using hs'
  choose g hg using hP t ht
  have det0 : ∀ {s : Simplex 4} {f : Fin 4 → Fin N}, (∀ k c, Package.ico.perp (s k) c = P (f k) c / n) →
      tetVol (Package.ico.perps s) ≠ 0 → detZ (fun k => P (f k)) ≠ 0 := by
    intro s f hf hv h0
    apply hv
    rw [tetVol_det4, det4_int (S := Package.ico.perps s) (a := fun k => P (f k)) hf, h0]
    simp
  have e4 : ∀ f : Fin 4 → Fin N, (fun k => P (f k)) = ![P (f 0), P (f 1), P (f 2), P (f 3)] := by
    intro f; funext k; fin_cases k <;> rfl
  refine C58_grid s t (fun k => P (f k)) (fun k => P (g k)) n D hn hn2 hf hg (det0 hf hv) (det0 hg (h.vol t ht)) ?_ ?_ hD1 hD2 ?_
  · rw [e4]; exact hdet _ _ _ _
  · rw [e4]; exact hdet _ _ _ _
  · intro i j k l m _ _ _
    exact ⟨hD _ _ _ _ _, hD _ _ _ _ _⟩

/-- The tetrahedron on the origin, two unit vectors and `-(1,1,1)`. -/
def exDown : Simplex 4 := ![cart 0 0 0 1, cart 1 0 0 1, cart 0 1 0 1, cart (-1) (-1) (-1) 1]

/-- A well-formed object that is not convex: two tetrahedra that meet in a face. -/
def exDart : Obj 4 := [exCorner, exDown]

def exDartZ : Fin 2 → Fin 4 → Fin 3 → ℤ :=
  ![![![0, 0, 0], ![1, 0, 0], ![0, 1, 0], ![0, 0, 1]], ![![0, 0, 0], ![1, 0, 0], ![0, 1, 0], ![-1, -1, -1]]]

theorem exDart_perp (a : Fin 2) (i : Fin 4) (j : Fin 3) : Package.ico.perp (exDart.get a i) j = (exDartZ a i j : ℝ) / (1 : ℕ) := by
  fin_cases a <;> fin_cases i <;> refine (congrFun (perp_cart _ _ _ _) j).trans ?_ <;> fin_cases j <;>
    simp [exDartZ]

theorem exDart_wf : WellFormed exDart := by
  refine wellFormed_grid exDart exDartZ 1 (by norm_num) (by simp [exDart]) ?_ exDart_perp (by decide) ?_
  · intro t ht i
    simp only [exDart, List.mem_cons, List.not_mem_nil, or_false] at ht
    rcases ht with rfl | rfl <;> fin_cases i <;> exact cart_ok (by decide)
  · have : ∀ a b : Fin 2, a < b → SepZ (exDartZ a) (exDartZ b) ![0, 0, -1] := by decide +kernel
    exact fun a b hab => ⟨_, this a b hab⟩

/-- Directions tried for separating planes. -/
def exDirs : List (Fin 3 → ℤ) :=
  [![1, 0, 0], ![-1, 0, 0], ![0, 1, 0], ![0, -1, 0], ![0, 0, 1], ![0, 0, -1], ![1, -1, 0], ![-1, 1, 0], ![1, 0, -1], ![-1, 0, 1],
    ![0, 1, -1], ![0, -1, 1], ![2, 1, 1], ![-2, -1, -1]]

theorem exDart_sharp : Sharp exDart := by
  refine sharp_grid exDart exDartZ 1 1 (by norm_num) exDart_perp (by decide) (by norm_num) (by norm_num) (by norm_num) (by norm_num)
    ?_ ?_ ?_
  · have : ∀ i j : Fin 2 × Fin 4, (∀ c, ∑ k, exDartZ i.1 (i.2.succAbove k) c = ∑ k, exDartZ j.1 (j.2.succAbove k) c) →
      SameZ (fun k => exDartZ i.1 (i.2.succAbove k)) (fun k => exDartZ j.1 (j.2.succAbove k)) := by decide +kernel
    exact this
  · have : ∀ i j : Fin 2 × Fin 4, SameZ (fun k => exDartZ i.1 (i.2.succAbove k)) (fun k => exDartZ j.1 (j.2.succAbove k)) ∨
      (∃ k, detZ ![exDartZ i.1 (i.2.succAbove 0), exDartZ i.1 (i.2.succAbove 1), exDartZ i.1 (i.2.succAbove 2),
        exDartZ j.1 (j.2.succAbove k)] ≠ 0) ∨
      ∃ m ∈ exDirs, SepZ (fun k => exDartZ i.1 (i.2.succAbove k)) (fun k => exDartZ j.1 (j.2.succAbove k)) m := by decide +kernel
    intro i j
    rcases this i j with h | h | ⟨m, -, h⟩
    exacts [.inl h, .inr (.inl h), .inr (.inr ⟨m, h⟩)]
  · have : ∀ a b : Fin 2, ∀ i j k l : Fin 4, i ≠ j → k ≠ l → (∀ c, exDartZ a i c + exDartZ a j c = exDartZ b k c + exDartZ b l c) →
      SameZ ![exDartZ a i, exDartZ a j] ![exDartZ b k, exDartZ b l] := by decide +kernel
    exact this

def exDartP : Fin 5 → Fin 3 → ℤ := ![![0, 0, 0], ![1, 0, 0], ![0, 1, 0], ![0, 0, 1], ![-1, -1, -1]]

theorem exDart_resolved : ∀ s : Simplex 4, (∀ k, ∃ t ∈ exDart, ∃ j, s k = t j) → tetVol (Package.ico.perps s) ≠ 0 →
    ∀ t ∈ exDart, Resolved (Package.ico.perps s) (Package.ico.perps t) := by
  refine resolved_table exDart_wf exDartP 1 46 (by norm_num) (by norm_num) ?_ (by decide +kernel) (by norm_num) (by norm_num)
    (by decide +kernel)
  intro t ht j
  obtain ⟨a, rfl⟩ := List.get_of_mem ht
  have : ∀ (a : Fin 2) (j : Fin 4), ∃ f, exDartZ a j = exDartP f := by decide +kernel
  obtain ⟨f, hf⟩ := this a j
  exact ⟨f, fun c => (exDart_perp a j c).trans (by rw [hf])⟩

/-- The convex hull of `exDart`. -/
def exDartHull : Simplex 4 := ![cart 1 0 0 1, cart 0 1 0 1, cart 0 0 1 1, cart (-1) (-1) (-1) 1]

theorem perps_exDartHull : Package.ico.perps exDartHull = ![![1, 0, 0], ![0, 1, 0], ![0, 0, 1], ![-1, -1, -1]] := by
  funext i
  fin_cases i <;> refine (perp_cart _ _ _ _).trans ?_ <;> funext j <;> fin_cases j <;> norm_num

theorem perps_exDown : Package.ico.perps exDown = ![![0, 0, 0], ![1, 0, 0], ![0, 1, 0], ![-1, -1, -1]] := by
  funext i
  fin_cases i <;> refine (perp_cart _ _ _ _).trans ?_ <;> funext j <;> fin_cases j <;> norm_num

theorem exDart_corner {x : Fin 3 → ℝ} (hx : x ∈ Package.ico.corners exDart) :
    x = ![0, 0, 0] ∨ ∃ k, x = Package.ico.perps exDartHull k := by
  obtain ⟨t, ht, i, rfl⟩ := hx
  simp only [exDart, List.mem_cons, List.not_mem_nil, or_false] at ht
  rw [perps_exDartHull]
  rcases ht with rfl | rfl
  · change Package.ico.perps exCorner i = _ ∨ ∃ k, Package.ico.perps exCorner i = _
    rw [perps_exCorner]
    fin_cases i
    exacts [.inl rfl, .inr ⟨0, rfl⟩, .inr ⟨1, rfl⟩, .inr ⟨2, rfl⟩]
  · change Package.ico.perps exDown i = _ ∨ ∃ k, Package.ico.perps exDown i = _
    rw [perps_exDown]
    fin_cases i
    exacts [.inl rfl, .inr ⟨0, rfl⟩, .inr ⟨1, rfl⟩, .inr ⟨3, rfl⟩]

theorem exDart_hull : convexHull ℝ (Package.ico.corners exDart) = solid (Package.ico.perps exDartHull) := by
  refine Set.Subset.antisymm (convexHull_min ?_ (convex_convexHull ℝ _)) (convexHull_mono ?_)
  · intro x hx
    rcases exDart_corner hx with rfl | ⟨k, rfl⟩
    · refine mem_solid_iff.2 ⟨![1 / 4, 1 / 4, 1 / 4, 1 / 4], ?_, ?_⟩
      · rw [isBary_four, perps_exDartHull]
        refine ⟨by simp; norm_num, fun j => ?_⟩
        fin_cases j <;> simp
      · intro i; fin_cases i <;> simp
    · exact subset_convexHull ℝ _ ⟨k, rfl⟩
  · rintro x ⟨k, rfl⟩
    have e : ∀ k, ∃ t ∈ exDart, ∃ i, t i = exDartHull k := by decide +kernel
    obtain ⟨t, ht, i, e⟩ := e k
    exact ⟨t, ht, i, congrArg Package.ico.perp e⟩

/-- C48 is false for objects that are not convex. `exDart` consists of two tetrahedra of volume 1/6 that meet in a face,
and all hypotheses of `C48_hull` hold for it, but `simplification` returns a tetrahedron of volume 2/3, its convex hull:
the intersection of the hull with the object is the object, so the comparison of volumes always succeeds. -/
theorem C48_fails_nonconvex : WellFormed exDart ∧ Sharp exDart ∧
    (∀ s : Simplex 4, (∀ k, ∃ t ∈ exDart, ∃ j, s k = t j) → tetVol (Package.ico.perps s) ≠ 0 →
      ∀ t ∈ exDart, Resolved (Package.ico.perps s) (Package.ico.perps t)) ∧
    ∃ hl : Delaunay, TilesHull hl ∧ ∀ hd draws delaunay, ∃ r, simplification hd hl draws delaunay exDart = .ok (some r) ∧
      objVolume6d (.d4 exDart) = .ok (some ⟨1, 0, 3⟩) ∧ objVolume6d (.d4 r) = .ok (some ⟨2, 0, 3⟩) := by
  refine ⟨exDart_wf, exDart_sharp, exDart_resolved, ?_⟩
  obtain ⟨hl, hD, hsingle⟩ := exists_tiles_single
  refine ⟨hl, hD, fun hd draws delaunay => ?_⟩
  have reject : ∀ {t : Simplex 4} (k : Fin 4) (w : Fin 4 → ℝ) (i : Fin 4), IsBary (Package.ico.perps t) w (Package.ico.perps exDartHull k) →
      w i ≤ -1 → ¬ Accepts (Package.ico.perps t) (Package.ico.perps exDartHull k) := by
    intro t k w i hw hk hacc
    have := C32_reject _ _ w hw i (hk.trans (by norm_num))
    rw [(C32_exact _ _).2 hacc] at this
    cases this
  obtain ⟨s, h1, h2, h3⟩ := simplification_single hD hsingle exDart_wf exDart_sharp (Q := Package.ico.perps exDartHull)
    (by rw [perps_exDartHull, tetVol_det4, det4_eq]; simp; norm_num) (by
      intro k
      refine ⟨![![-1, 0, 0], ![0, -1, 0], ![0, 0, -1], ![1, 1, 1]] k, fun y hy hne => ?_⟩
      rcases exDart_corner hy with rfl | ⟨l, rfl⟩
      · rw [perps_exDartHull]
        fin_cases k <;> simp
        norm_num
      · have hkl : l ≠ k := fun e => hne (by rw [e])
        rw [perps_exDartHull]
        fin_cases k <;> fin_cases l <;> first | exact absurd rfl hkl | skip
        all_goals simp
        all_goals norm_num) exDart_hull (by
      intro t ht
      simp only [exDart, List.mem_cons, List.not_mem_nil, or_false] at ht
      rcases ht with rfl | rfl
      · refine ⟨3, reject 3 ![4, -1, -1, -1] 1 ?_ (by simp)⟩
        rw [isBary_four, perps_exCorner, perps_exDartHull]
        refine ⟨by simp; norm_num, fun j => ?_⟩
        fin_cases j <;> simp
      · refine ⟨2, reject 2 ![4, -1, -1, -1] 1 ?_ (by simp)⟩
        rw [isBary_four, perps_exDown, perps_exDartHull]
        refine ⟨by simp; norm_num, fun j => ?_⟩
        fin_cases j <;> simp) hd draws delaunay
  refine ⟨_, h1, by decide +kernel, ?_⟩
  have oks : Obj.Ok [s] := fun t ht => by rw [List.mem_singleton.1 ht]; exact h2
  have okh : Obj.Ok [exDartHull] := by
    intro t ht; rw [List.mem_singleton.1 ht]; intro i; fin_cases i <;> exact cart_ok (by decide)
  obtain ⟨w, hw, -, e1⟩ := C62_object [s] oks
  obtain ⟨w', hw', -, e2⟩ := C62_object [exDartHull] okh
  have hreg : Package.ico.region [s] = Package.ico.region [exDartHull] := by
    ext x
    simp only [Package.region, List.mem_singleton, exists_eq_left, Set.mem_ofPred_eq]
    exact Set.ext_iff.1 h3 x
  have := volume_triple oks okh hw hw' (by
    rw [← e1.2 (List.pairwise_singleton _ _), ← e2.2 (List.pairwise_singleton _ _), hreg])
  rw [show objVolume6d (.d4 [exDartHull]) = .ok (some ⟨2, 0, 3⟩) by decide +kernel] at hw'
  cases hw'
  rw [hw, this]

/-- The hypotheses of `C65_border_edges`, `C64_hull`, `C48_hull` and `C48_volume_iff` are met by an object that is not
convex. -/
example : ∃ hl : Delaunay, TilesHull hl ∧ WellFormed exDart ∧ Sharp exDart ∧
    ∀ s : Simplex 4, (∀ k, ∃ t ∈ exDart, ∃ j, s k = t j) → tetVol (Package.ico.perps s) ≠ 0 →
      ∀ t ∈ exDart, Resolved (Package.ico.perps s) (Package.ico.perps t) :=
  ⟨_, exists_tiles.choose_spec, exDart_wf, exDart_sharp, exDart_resolved⟩

def exHalvesZ : Fin 2 → Fin 4 → Fin 3 → ℤ :=
  ![![![0, 0, 0], ![1, 0, 0], ![0, 2, 0], ![0, 0, 2]], ![![1, 0, 0], ![2, 0, 0], ![0, 2, 0], ![0, 0, 2]]]

theorem exHalves_perp (a : Fin 2) (i : Fin 4) (j : Fin 3) :
    Package.ico.perp (([exHalfA, exHalfB] : Obj 4).get a i) j = (exHalvesZ a i j : ℝ) / (2 : ℕ) := by
  fin_cases a <;> fin_cases i <;> refine (congrFun (perp_cart _ _ _ _) j).trans ?_ <;> fin_cases j <;>
    simp [exHalvesZ]

theorem exHalves_wf : WellFormed [exHalfA, exHalfB] := by
  refine wellFormed_grid _ exHalvesZ 2 (by norm_num) (by simp) exHalf_ok exHalves_perp (by decide) ?_
  have : ∀ a b : Fin 2, a < b → SepZ (exHalvesZ a) (exHalvesZ b) ![2, 1, 1] := by decide +kernel
  exact fun a b hab => ⟨_, this a b hab⟩

theorem exHalves_sharp : Sharp [exHalfA, exHalfB] := by
  refine sharp_grid _ exHalvesZ 2 2 (by norm_num) exHalves_perp (by decide) (by norm_num) (by norm_num) (by norm_num) (by norm_num)
    ?_ ?_ ?_
  · have : ∀ i j : Fin 2 × Fin 4, (∀ c, ∑ k, exHalvesZ i.1 (i.2.succAbove k) c = ∑ k, exHalvesZ j.1 (j.2.succAbove k) c) →
      SameZ (fun k => exHalvesZ i.1 (i.2.succAbove k)) (fun k => exHalvesZ j.1 (j.2.succAbove k)) := by decide +kernel
    exact this
  · have : ∀ i j : Fin 2 × Fin 4, SameZ (fun k => exHalvesZ i.1 (i.2.succAbove k)) (fun k => exHalvesZ j.1 (j.2.succAbove k)) ∨
      (∃ k, detZ ![exHalvesZ i.1 (i.2.succAbove 0), exHalvesZ i.1 (i.2.succAbove 1), exHalvesZ i.1 (i.2.succAbove 2),
        exHalvesZ j.1 (j.2.succAbove k)] ≠ 0) ∨
      ∃ m ∈ exDirs, SepZ (fun k => exHalvesZ i.1 (i.2.succAbove k)) (fun k => exHalvesZ j.1 (j.2.succAbove k)) m := by
      decide +kernel
    intro i j
    rcases this i j with h | h | ⟨m, -, h⟩
    exacts [.inl h, .inr (.inl h), .inr (.inr ⟨m, h⟩)]
  · have : ∀ a b : Fin 2, ∀ i j k l : Fin 4, i ≠ j → k ≠ l →
      (∀ c, exHalvesZ a i c + exHalvesZ a j c = exHalvesZ b k c + exHalvesZ b l c) →
      SameZ ![exHalvesZ a i, exHalvesZ a j] ![exHalvesZ b k, exHalvesZ b l] := by decide +kernel
    exact this

def exHalvesP : Fin 5 → Fin 3 → ℤ := ![![0, 0, 0], ![1, 0, 0], ![2, 0, 0], ![0, 2, 0], ![0, 0, 2]]

theorem exHalves_resolved : ∀ s : Simplex 4, (∀ k, ∃ t ∈ [exHalfA, exHalfB], ∃ j, s k = t j) →
    tetVol (Package.ico.perps s) ≠ 0 → ∀ t ∈ [exHalfA, exHalfB], Resolved (Package.ico.perps s) (Package.ico.perps t) := by
  refine resolved_table exHalves_wf exHalvesP 2 32 (by norm_num) (by norm_num) ?_ (by decide +kernel) (by norm_num) (by norm_num)
    (by decide +kernel)
  intro t ht j
  obtain ⟨a, rfl⟩ := List.get_of_mem ht
  have : ∀ (a : Fin 2) (j : Fin 4), ∃ f, exHalvesZ a j = exHalvesP f := by decide +kernel
  obtain ⟨f, hf⟩ := this a j
  exact ⟨f, fun c => (exHalves_perp a j c).trans (by rw [hf])⟩

theorem exHalves_region : Package.ico.region [exHalfA, exHalfB] = solid (Package.ico.perps exCorner) := by
  ext x
  have hreg : x ∈ Package.ico.region [exHalfA, exHalfB] ↔ x ∈ solid (Package.ico.perps exHalfA) ∨ x ∈ solid (Package.ico.perps exHalfB) := by
    simp [Package.region]
  rw [hreg, mem_solid_iff, mem_solid_iff, mem_solid_iff]
  constructor
  · rintro (⟨w, hw, hp⟩ | ⟨w, hw, hp⟩)
    · rw [isBary_four, perps_exHalfA] at hw
      refine ⟨![w 0 + w 1 / 2, w 1 / 2, w 2, w 3], ?_, ?_⟩
      · rw [isBary_four, perps_exCorner]
        refine ⟨by simpa using (by linarith [hw.1] : w 0 + w 1 / 2 + w 1 / 2 + w 2 + w 3 = 1), fun j => ?_⟩
        have := hw.2 j
        fin_cases j <;> simp at this ⊢ <;> linarith
      · intro i; fin_cases i <;> simp <;> linarith [hp 0, hp 1, hp 2, hp 3]
    · rw [isBary_four, perps_exHalfB] at hw
      refine ⟨![w 0 / 2, w 0 / 2 + w 1, w 2, w 3], ?_, ?_⟩
      · rw [isBary_four, perps_exCorner]
        refine ⟨by simpa using (by linarith [hw.1] : w 0 / 2 + (w 0 / 2 + w 1) + w 2 + w 3 = 1), fun j => ?_⟩
        have := hw.2 j
        fin_cases j <;> simp at this ⊢ <;> linarith
      · intro i; fin_cases i <;> simp <;> linarith [hp 0, hp 1, hp 2, hp 3]
  · rintro ⟨w, hw, hp⟩
    rw [isBary_four, perps_exCorner] at hw
    by_cases h : w 1 ≤ w 0
    · refine .inl ⟨![w 0 - w 1, 2 * w 1, w 2, w 3], ?_, ?_⟩
      · rw [isBary_four, perps_exHalfA]
        refine ⟨by simpa using (by linarith [hw.1] : w 0 - w 1 + 2 * w 1 + w 2 + w 3 = 1), fun j => ?_⟩
        have := hw.2 j
        fin_cases j <;> simp at this ⊢ <;> linarith
      · intro i; fin_cases i <;> simp <;> linarith [hp 0, hp 1, hp 2, hp 3]
    · refine .inr ⟨![2 * w 0, w 1 - w 0, w 2, w 3], ?_, ?_⟩
      · rw [isBary_four, perps_exHalfB]
        refine ⟨by simpa using (by linarith [hw.1] : 2 * w 0 + (w 1 - w 0) + w 2 + w 3 = 1), fun j => ?_⟩
        have := hw.2 j
        fin_cases j <;> simp at this ⊢ <;> linarith
      · intro i; fin_cases i <;> simp <;> linarith [hp 0, hp 1, hp 2, hp 3]

theorem exHalves_corner {x : Fin 3 → ℝ} (hx : x ∈ Package.ico.corners [exHalfA, exHalfB]) :
    x = ![1 / 2, 0, 0] ∨ ∃ k, x = Package.ico.perps exCorner k := by
  obtain ⟨t, ht, i, rfl⟩ := hx
  simp only [List.mem_cons, List.not_mem_nil, or_false] at ht
  rw [perps_exCorner]
  rcases ht with rfl | rfl
  · change Package.ico.perps exHalfA i = _ ∨ ∃ k, Package.ico.perps exHalfA i = _
    rw [perps_exHalfA]
    fin_cases i
    exacts [.inr ⟨0, rfl⟩, .inl rfl, .inr ⟨2, rfl⟩, .inr ⟨3, rfl⟩]
  · change Package.ico.perps exHalfB i = _ ∨ ∃ k, Package.ico.perps exHalfB i = _
    rw [perps_exHalfB]
    fin_cases i
    exacts [.inl rfl, .inr ⟨1, rfl⟩, .inr ⟨2, rfl⟩, .inr ⟨3, rfl⟩]

/-- The hypotheses of `C48_convex_partial` are met, with a run that does not raise, by the two halves of a tetrahedron:
`simplification` glues them. -/
example : WellFormed [exHalfA, exHalfB] ∧ Sharp [exHalfA, exHalfB] ∧ Convex ℝ (Package.ico.region [exHalfA, exHalfB]) ∧
    (∀ s : Simplex 4, (∀ k, ∃ t ∈ [exHalfA, exHalfB], ∃ j, s k = t j) → tetVol (Package.ico.perps s) ≠ 0 →
      ∀ t ∈ [exHalfA, exHalfB], Resolved (Package.ico.perps s) (Package.ico.perps t)) ∧
    ∃ hl : Delaunay, TilesHull hl ∧ ∀ hd draws delaunay, ∃ s,
      simplification hd hl draws delaunay [exHalfA, exHalfB] = .ok (some [s]) ∧
      solid (Package.ico.perps s) = solid (Package.ico.perps exCorner) := by
  refine ⟨exHalves_wf, exHalves_sharp, ?_, exHalves_resolved, ?_⟩
  · rw [exHalves_region]; exact convex_convexHull ℝ _
  obtain ⟨hl, hD, hsingle⟩ := exists_tiles_single
  refine ⟨hl, hD, fun hd draws delaunay => ?_⟩
  have hcv : convexHull ℝ (Package.ico.corners [exHalfA, exHalfB]) = solid (Package.ico.perps exCorner) := by
    refine Set.Subset.antisymm (convexHull_min ?_ (convex_convexHull ℝ _)) (convexHull_mono ?_)
    · rintro x ⟨t, ht, i, rfl⟩
      rw [← exHalves_region]
      exact ⟨t, ht, subset_convexHull ℝ _ ⟨i, rfl⟩⟩
    · rintro x ⟨k, rfl⟩
      have e : ∀ k, ∃ t ∈ ([exHalfA, exHalfB] : Obj 4), ∃ i, t i = exCorner k := by decide +kernel
      obtain ⟨t, ht, i, e⟩ := e k
      exact ⟨t, ht, i, congrArg Package.ico.perp e⟩
  obtain ⟨s, h1, -, h3⟩ := simplification_single hD hsingle exHalves_wf exHalves_sharp (Q := Package.ico.perps exCorner)
    (by rw [tetVol_exCorner]; norm_num) (by
      intro k
      refine ⟨![![1, 1, 1], ![-1, 0, 0], ![0, -1, 0], ![0, 0, -1]] k, fun y hy hne => ?_⟩
      rcases exHalves_corner hy with rfl | ⟨l, rfl⟩
      · rw [perps_exCorner]
        fin_cases k <;> simp
        norm_num
      · have hkl : l ≠ k := fun e => hne (by rw [e])
        rw [perps_exCorner]
        fin_cases k <;> fin_cases l <;> first | exact absurd rfl hkl | simp) hcv (by
      intro t ht
      simp only [List.mem_cons, List.not_mem_nil, or_false] at ht
      rcases ht with rfl | rfl
      · have := ((C36_codes _ _).2.1.1 exHalf_codes.1).1
        unfold AllAccepted at this
        push Not at this
        exact this
      · have := ((C36_codes _ _).2.1.1 exHalf_codes.2).1
        unfold AllAccepted at this
        push Not at this
        exact this) hd draws delaunay
  exact ⟨s, h1, h3⟩

/-- A point of the plane in the dodecagonal setting. -/
def flat2 (x y : Int) : Vec 6 := ![⟨0, 0, 1⟩, ⟨x, 0, 1⟩, ⟨y, 0, 1⟩, ⟨0, 0, 1⟩, ⟨0, 0, 1⟩, ⟨0, 0, 1⟩]

theorem perp_flat2 (x y : Int) : Package.dode.perp (flat2 x y) = ![(x : ℝ), (y : ℝ), 0] := by
  funext i
  fin_cases i <;>
    simp [Package.perp, Package.perpMat, Package.theta, Matrix.mulVec, dotProduct, Fin.sum_univ_six, Vec.val, Num3.val, flat2]

/-- Two triangles that make up a square. -/
def exSquare : Obj 3 := [![flat2 0 0, flat2 1 0, flat2 1 1], ![flat2 0 0, flat2 1 1, flat2 0 1]]

def exSquareZ : Fin 2 → Fin 3 → Fin 3 → ℤ :=
  ![![![0, 0, 0], ![1, 0, 0], ![1, 1, 0]], ![![0, 0, 0], ![1, 1, 0], ![0, 1, 0]]]

theorem exSquare_perp (a : Fin 2) (i j : Fin 3) : Package.dode.perp (exSquare.get a i) j = (exSquareZ a i j : ℝ) / (1 : ℕ) := by
  fin_cases a <;> fin_cases i <;> refine (congrFun (perp_flat2 _ _) j).trans ?_ <;> fin_cases j <;> simp [exSquareZ]

/-- The hypotheses of `C65_outline` are met by two triangles that make up a square. -/
example : SharpTriangles .dode exSquare ∧
    ∃ n : Fin 3 → ℝ, n ≠ 0 ∧ ∃ d, ∀ x ∈ Package.dode.corners exSquare, n ⬝ᵥ x = d := by
  constructor
  · refine sharpTriangles_grid .dode exSquare exSquareZ 1 1 (by norm_num) (by simp [exSquare]) (by decide) exSquare_perp (by decide)
      (by norm_num) (by norm_num) (by norm_num) (by decide +kernel) ?_ (by decide +kernel)
    have : ∀ i j : Fin 2, i ≠ j → ∃ m ∈ exDirs, SepZ (exSquareZ i) (exSquareZ j) m := by decide +kernel
    intro i j hij
    obtain ⟨m, -, hm⟩ := this i j hij
    exact .inr ⟨m, hm⟩
  · refine ⟨![0, 0, 1], by simp, 0, ?_⟩
    rintro x ⟨t, ht, i, rfl⟩
    obtain ⟨a, rfl⟩ := List.get_of_mem ht
    have e : (![0, 0, 1] : Fin 3 → ℝ) ⬝ᵥ Package.dode.perp (exSquare.get a i) = Package.dode.perp (exSquare.get a i) 2 := by
      simp [dotProduct, Fin.sum_univ_three]
    rw [e]
    refine (exSquare_perp a i 2).trans ?_
    have : ∀ (a : Fin 2) (i : Fin 3), exSquareZ a i 2 = 0 := by decide
    rw [this a i]; simp

end PyQC
