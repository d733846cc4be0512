import Verif.Lemmas.RoundingSurface
import Verif.Lemmas.SharpGridRounded
import Verif.Lemmas.Binary64Plane
import Verif.Props.Outline
/-!
# C104, C105: surfaces, outlines and border edges with rounding
-/
namespace PyQC
open Matrix Topology Ico Rounding

theorem surfaceCop_rounded (F : Float64) {R : ℝ} (hR : 1 ≤ R) (hR2 : R ≤ 32) (p : Package)
    (draws : Nat → Nat → (n : Nat) → Draws n) (o : Obj 3) (h : SharpRounded p R o) :
    ∃ judged : Nat → Nat → Bool, (∀ i j, i < o.length → j < o.length → F.surfaceCop p draws o i j = .ok (judged i j)) ∧
      (∀ a b : Fin o.length, judged a b = true → OnePlane (p.perps (o.get a)) (p.perps (o.get b))) ∧
      (R ≤ 3 → (∀ a b : Fin o.length, FindsClearTriple p (draws a b) (o.get a) (o.get b)) →
        ∀ a b : Fin o.length, OnePlane (p.perps (o.get a)) (p.perps (o.get b)) → judged a b = true) := by
  have : ∀ i j, ∃ b, ∀ (hi : i < o.length) (hj : j < o.length), F.surfaceCop p draws o i j = .ok b ∧
      (b = true → OnePlane (p.perps o[i]) (p.perps o[j])) ∧
      (R ≤ 3 → FindsClearTriple p (draws i j) o[i] o[j] → OnePlane (p.perps o[i]) (p.perps o[j]) → b = true) := by
    intro i j
    by_cases hi : i < o.length
    · by_cases hj : j < o.length
      · have ei : o.getD i (fun _ => zeroVec 6) = o[i] := by simp [List.getD, hi]
        have ej : o.getD j (fun _ => zeroVec 6) = o[j] := by simp [List.getD, hj]
        obtain ⟨b, h1, h2, h3⟩ := twoTriangles_rounded F hR p (h.moderate _ (List.getElem_mem hi)) (h.moderate _ (List.getElem_mem hj))
          hR2 h.flat (fun k => ⟨_, List.getElem_mem hi, k, rfl⟩) (fun k => ⟨_, List.getElem_mem hj, k, rfl⟩) (draws i j)
        refine ⟨b, fun _ _ => ⟨?_, h2, h3⟩⟩
        unfold Float64.surfaceCop
        rw [ei, ej, h1]
      · exact ⟨true, fun _ h => absurd h hj⟩
    · exact ⟨true, fun h => absurd h hi⟩
  choose f hf using this
  exact ⟨f, fun i j hi hj => (hf i j hi hj).1, fun a b => (hf a b a.2 b.2).2.1,
    fun h3 hd a b => (hf a b a.2 b.2).2.2 h3 (hd a b)⟩

/-- The cleaner with rounding: no exception, every end is a corner, every corner that is the strict minimum of a linear
function and has a side of its own in its plane stays; the points covered. -/
theorem cleaner_rounded_full (F : Float64) (hF : KeepsHuge F) {R : ℝ} (hR : 1 ≤ R) (hR2 : R ≤ 32) (p : Package)
    (draws : Nat → Nat → (n : Nat) → Draws n) (o : Obj 3) (h : SharpRounded p R o) :
    ∃ out, F.surfaceCleaner p (F.surfaceCop p draws o) o = .ok out ∧ (∀ e ∈ out, ∀ i, ∃ t ∈ o, ∃ j, e i = t j) ∧
      (∀ (V : Fin 3 → ℝ) (f : (Fin 3 → ℝ) →ₗ[ℝ] ℝ), (∀ x ∈ p.corners o, x ≠ V → f V < f x) →
        (∃ a : Fin o.length, ∃ x y : Fin 3, x ≠ y ∧ p.perp (o.get a x) = V ∧
          ∀ b x' y', p.perp (o.get b x') = V → p.perp (o.get b y') = p.perp (o.get a y) →
            OnePlane (p.perps (o.get b)) (p.perps (o.get a)) → b = a) →
        ∃ e ∈ out, ∃ i, p.perp (e i) = V) ∧
      loneSides p o ⊆ p.region out ∧
      (R ≤ 3 → (∀ i j : Fin o.length, FindsClearTriple p (draws i j) (o.get i) (o.get j)) → p.region out = loneSides p o) := by
  have hR10 : R ≤ 2 ^ 10 := hR2.trans (by norm_num)
  have hs := h.sharp
  have hmod : ∀ t ∈ o, ModerateSimplex p R t := h.moderate
  have hcor : ∀ t ∈ o, ∀ i, p.perp (t i) ∈ p.corners o := fun t ht i => ⟨t, ht, i, rfl⟩
  obtain ⟨judged, hcop, hj1, hj2⟩ := surfaceCop_rounded F hR hR2 p draws o h
  obtain ⟨out, h1, -, -, h4, h5, groups, hg, hr⟩ := cleaner_generic p o hs.ne hs.ok hs.proper hs.apart hcop hj1
    (border := F.borderEdges p) (fun g hsub => by
      refine borderEdges_rounded F hR hR10 p (fun t ht => hmod t (hsub t ht))
        (fun t ht => Proper.injective (T := p.perps t) (hs.proper t (hsub t ht))) fun i j hij => ?_
      rw [← range_side, ← range_side]
      obtain ⟨a, b, hab, -, -, e1⟩ := edge_side i
      obtain ⟨c, d, hcd, -, -, e2⟩ := edge_side j
      rw [e1, e2] at hij ⊢
      exact h.edges _ (hsub _ (List.get_mem _ _)) _ (hsub _ (List.get_mem _ _)) a b c d hab hcd hij)
    (uniq := F.generatorUniqueEdges p) (fun l hl => by
      have hlm : ∀ e ∈ l, ModerateSimplex p R e := by
        intro e he
        obtain ⟨t, ht, i, j, -, rfl⟩ := hl e he
        exact (hmod t ht).edge i j
      refine ⟨_, uniqueByCentroid_rounded F hR hR10 p (by norm_num) (by norm_num) hlm, fun e => mem_of_mem_uniqueBy,
        fun e he => ?_⟩
      obtain ⟨e', he', hc⟩ := exists_uniqueBy (key := storedKey F p) he
      have hl' := mem_of_mem_uniqueBy he'
      have hcl := storedKey_close F hR hR10 p (by norm_num) (by norm_num) (hlm e' hl') (hlm e he) hc
      obtain ⟨t, ht, i1, j1, hij, rfl⟩ := hl e he
      obtain ⟨t', ht', i2, j2, hij', rfl⟩ := hl e' hl'
      exact ⟨_, he', h.edges t' ht' t ht i2 j2 i1 j1 hij' hij hcl⟩)
    (merge := F.twoSegmentIntoOne p) (m := joinRounded F p) (fun a b ha hb _ _ => joinRounded_ok F p ha hb)
    (joinRounded_joins F hF hR hR2 (C := p.corners o)
      (by rintro v ⟨t, ht, j, rfl⟩; exact ⟨hcor t ht j, (hmod t ht j).1⟩) h.line)
  obtain ⟨h2, h3⟩ := groups_lone p o (fun a => hs.proper _ (List.get_mem _ _)) hj1 hg hr
  exact ⟨out, h1, h4, h5, h2, fun hr3 hd => h3 (hj2 hr3 hd)⟩

theorem cleaner_rounded (F : Float64) (hF : KeepsHuge F) {R : ℝ} (hR : 1 ≤ R) (hR2 : R ≤ 32) (p : Package)
    (draws : Nat → Nat → (n : Nat) → Draws n) (o : Obj 3) (h : SharpRounded p R o) :
    ∃ out, F.surfaceCleaner p (F.surfaceCop p draws o) o = .ok out ∧ loneSides p o ⊆ p.region out ∧
      (R ≤ 3 → (∀ i j : Fin o.length, FindsClearTriple p (draws i j) (o.get i) (o.get j)) → p.region out = loneSides p o) := by
  obtain ⟨out, h1, -, -, h2⟩ := cleaner_rounded_full F hF hR hR2 p draws o h
  exact ⟨out, h1, h2⟩

/-- C105: in dode2, for triangles of one plane that do not overlap and of moderate size, whatever the random draws, the
segments returned by `outline` cover the boundary of the object in its plane. -/
theorem C105_outline_cover (F : Float64) (hF : KeepsHuge F) {R : ℝ} (hR : 1 ≤ R) (hR2 : R ≤ 32)
    (draws : Nat → Nat → (n : Nat) → Draws n) (o : Obj 3) (h : SharpRounded .dode R o)
    (hp : ∃ n : Fin 3 → ℝ, n ≠ 0 ∧ ∃ d, ∀ x ∈ Package.dode.corners o, n ⬝ᵥ x = d) :
    ∃ out, F.outline draws o = .ok out ∧ intrinsicFrontier ℝ (Package.dode.region o) ⊆ Package.dode.region out := by
  obtain ⟨out, h1, h2, -⟩ := cleaner_rounded F hF hR hR2 .dode draws o h
  exact ⟨out, h1, (lone_frontier .dode o h.sharp hp).1.trans h2⟩

/-- C105: if moreover the triangles fit edge to edge and the random draws find a triple that is clearly not collinear,
the segments cover exactly the boundary. -/
theorem C105_outline (F : Float64) (hF : KeepsHuge F) {R : ℝ} (hR : 1 ≤ R) (hR2 : R ≤ 3)
    (draws : Nat → Nat → (n : Nat) → Draws n) (o : Obj 3) (h : SharpRounded .dode R o)
    (hp : ∃ n : Fin 3 → ℝ, n ≠ 0 ∧ ∃ d, ∀ x ∈ Package.dode.corners o, n ⬝ᵥ x = d) (he : EdgeToEdge .dode o)
    (hf : ∀ i j : Fin o.length, FindsClearTriple .dode (draws i j) (o.get i) (o.get j)) :
    ∃ out, F.outline draws o = .ok out ∧ Package.dode.region out = intrinsicFrontier ℝ (Package.dode.region o) := by
  obtain ⟨out, h1, -, h2⟩ := cleaner_rounded F hF hR (hR2.trans (by norm_num)) .dode draws o h
  obtain ⟨h3, h4⟩ := lone_frontier .dode o h.sharp hp
  exact ⟨out, h1, by rw [h2 hR2 hf]; exact Set.Subset.antisymm (h4 he) h3⟩

/-! ## Objects of tetrahedra -/

/-- C104: with rounding, every boundary point of an object is on a triangle of its surface. -/
theorem C104_cover (F : Float64) {R : ℝ} (hR : 1 ≤ R) (hR2 : R ≤ 32) (o : Obj 4) (h : WellFormed o) (hm : Moderate .ico R o)
    (hf : ∀ i j, Near (Package.ico.centroidPerp (face o i)) (Package.ico.centroidPerp (face o j)) →
      Set.range (Package.ico.perps (face o i)) = Set.range (Package.ico.perps (face o j))) :
    ∃ s, F.generatorSurface1 o = .ok s ∧ frontier (Package.ico.region o) ⊆ Package.ico.region s := by
  obtain ⟨J, h1, -, h3, -⟩ := surface_rounded F hR hR2 hm h hf
  have hclose : ∀ i j, Close (Package.ico.centroidPerp (face o i)) (Package.ico.centroidPerp (face o j)) →
      Set.range (Package.ico.perps (face o i)) = Set.range (Package.ico.perps (face o j)) := fun i j hij => hf i j fun c => by
    have := hij c
    have := abs_nonneg (Package.ico.centroidPerp (face o j) c)
    linarith
  obtain ⟨J', g1, -, g3⟩ := surface_faces h hclose
  obtain ⟨s, hs, hsub⟩ := C101_cover o h hclose
  rw [g1] at hs
  cases hs
  refine ⟨_, h1, hsub.trans ?_⟩
  rintro x ⟨t, ht, hx⟩
  obtain ⟨j, hj, rfl⟩ := List.mem_map.1 ht
  exact ⟨_, List.mem_map_of_mem (h3 j ((g3 j).1 hj)), hx⟩

/-- C104: with rounding, if the tetrahedra fit together face to face and corners at the same point are given by the same
vector, the surface covers exactly the boundary of the object. -/
theorem C104_boundary (F : Float64) {R : ℝ} (hR : 1 ≤ R) (hR2 : R ≤ 32) (o : Obj 4) (h : WellFormed o) (hm : Moderate .ico R o)
    (hf : ∀ i j, Near (Package.ico.centroidPerp (face o i)) (Package.ico.centroidPerp (face o j)) →
      Set.range (Package.ico.perps (face o i)) = Set.range (Package.ico.perps (face o j)))
    (hft : FaceToFace o) (hn : OneName .ico o) :
    ∃ s, F.generatorSurface1 o = .ok s ∧ Package.ico.region s = frontier (Package.ico.region o) := by
  obtain ⟨J, h1, -, h3, h4⟩ := surface_rounded F hR hR2 hm h hf
  obtain ⟨J', g1, -, g3⟩ := surface_faces h hft.faces
  obtain ⟨s, hs, e⟩ := C101_boundary o h hft
  rw [g1] at hs
  cases hs
  refine ⟨_, h1, ?_⟩
  rw [← e]
  ext x
  constructor
  · rintro ⟨t, ht, hx⟩
    obtain ⟨j, hj, rfl⟩ := List.mem_map.1 ht
    exact ⟨_, List.mem_map_of_mem ((g3 j).2 (h4 hn j hj)), hx⟩
  · rintro ⟨t, ht, hx⟩
    obtain ⟨j, hj, rfl⟩ := List.mem_map.1 ht
    exact ⟨_, List.mem_map_of_mem (h3 j ((g3 j).1 hj)), hx⟩

theorem surface_sharpRounded {R : ℝ} {o : Obj 4} (h : WellFormed o) (hs : SharpObject R o) {J : List (Fin o.length × Fin 4)}
    (hJ : J.Nodup) (hJu : ∀ j, j ∈ J ↔ Unpaired o j) : SharpRounded .ico R (J.map (face o)) := by
  have hmem : ∀ t ∈ J.map (face o), ∃ j, face o j = t := fun t ht => (List.mem_map.1 ht).imp fun _ h => h.2
  have hcor : ∀ x ∈ Package.ico.corners (J.map (face o)), x ∈ Package.ico.corners o := by
    rintro x ⟨t, ht, k, rfl⟩
    obtain ⟨f, rfl⟩ := hmem t ht
    exact ⟨_, List.get_mem _ _, _, rfl⟩
  refine ⟨surface_sharp h hs.sharp hJ hJu, ?_, ?_, ?_, ?_⟩
  · intro t ht
    obtain ⟨f, rfl⟩ := hmem t ht
    exact face_moderate hs.moderate f
  · exact fun a ha b hb c hc d hd => hs.flat a (hcor a ha) b (hcor b hb) c (hcor c hc) d (hcor d hd)
  · exact fun a ha b hb c hc => hs.line a (hcor a ha) b (hcor b hb) c (hcor c hc)
  · intro s hs' t ht i j k l hij hkl hmid
    obtain ⟨f, rfl⟩ := hmem s hs'
    obtain ⟨g, rfl⟩ := hmem t ht
    exact hs.edges _ (List.get_mem _ f.1) _ (List.get_mem _ g.1) (f.2.succAbove i) (f.2.succAbove j) (g.2.succAbove k)
      (g.2.succAbove l) (fun e => hij (Fin.succAbove_right_injective e)) (fun e => hkl (Fin.succAbove_right_injective e)) hmid

/-- The surface with rounding is the list of unpaired faces, and covers the boundary. -/
theorem surface_object (F : Float64) {R : ℝ} (hR : 1 ≤ R) (hR2 : R ≤ 32) (o : Obj 4) (h : WellFormed o) (hs : SharpObject R o) :
    ∃ J : List (Fin o.length × Fin 4), F.generatorSurface1 o = .ok (J.map (face o)) ∧ J.Nodup ∧ (∀ j, j ∈ J ↔ Unpaired o j) ∧
      SharpRounded .ico R (J.map (face o)) ∧ Package.ico.region (J.map (face o)) = frontier (Package.ico.region o) := by
  obtain ⟨J, h1, h2, h3, h4⟩ := surface_rounded F hR hR2 hs.moderate h hs.faces
  obtain ⟨s, hs1, hs2⟩ := C104_boundary F hR hR2 o h hs.moderate hs.faces hs.sharp.faceToFace hs.names
  rw [h1] at hs1
  cases hs1
  have hu : ∀ j, j ∈ J ↔ Unpaired o j := fun j => ⟨h4 hs.names j, h3 j⟩
  exact ⟨J, h1, h2, hu, surface_sharpRounded h hs h2 hu, hs2⟩

/-- C105: with rounding, for tetrahedra that fit together and of moderate size, whatever the random draws, the segments
returned by `generate_border_edges` cover the edges of all flat parts of the boundary of the object. -/
theorem C105_border_cover (F : Float64) (hF : KeepsHuge F) {R : ℝ} (hR : 1 ≤ R) (hR2 : R ≤ 32)
    (draws : Nat → Nat → (n : Nat) → Draws n) (o : Obj 4) (h : WellFormed o) (hs : SharpObject R o) :
    ∃ out, F.generateBorderEdges draws o = .ok out ∧
      creases (frontier (Package.ico.region o)) ⊆ Package.ico.region out := by
  obtain ⟨J, hJ, -, -, hsh, hr⟩ := surface_object F hR hR2 o h hs
  obtain ⟨out, h1, h2, -⟩ := cleaner_rounded F hF hR hR2 .ico draws _ hsh
  refine ⟨out, ?_, ?_⟩
  · unfold Float64.generateBorderEdges
    rw [hJ, bind_ok', h1]
  · rw [← hr]
    exact (creases_sub_lone _ _ hsh.sharp).trans h2

/-- C105: if moreover the tetrahedra fit edge to edge and the random draws find a triple that is clearly not collinear,
the segments cover exactly those edges. -/
theorem C105_border_edges (F : Float64) (hF : KeepsHuge F) {R : ℝ} (hR : 1 ≤ R) (hR2 : R ≤ 3)
    (draws : Nat → Nat → (n : Nat) → Draws n) (o : Obj 4) (h : WellFormed o) (hs : SharpObject R o)
    (he : EdgeToEdge .ico o) (hf : ∀ i j : Nat, ∀ f g, FindsClearTriple .ico (draws i j) (face o f) (face o g)) :
    ∃ out, F.generateBorderEdges draws o = .ok out ∧
      Package.ico.region out = creases (frontier (Package.ico.region o)) := by
  obtain ⟨J, hJ, -, -, hsh, hr⟩ := surface_object F hR (hR2.trans (by norm_num)) o h hs
  obtain ⟨out, h1, -, h2⟩ := cleaner_rounded F hF hR (hR2.trans (by norm_num)) .ico draws _ hsh
  have hmem : ∀ t ∈ J.map (face o), ∃ j, face o j = t := fun t ht => (List.mem_map.1 ht).imp fun _ h => h.2
  refine ⟨out, ?_, ?_⟩
  · unfold Float64.generateBorderEdges
    rw [hJ, bind_ok', h1]
  · rw [h2 hR2, ← hr, creases_eq_lone _ _ hsh.sharp]
    · intro t ht i j hij V hV
      obtain ⟨f, rfl⟩ := hmem t ht
      obtain ⟨t', ht', k, rfl⟩ := hV
      obtain ⟨f', rfl⟩ := hmem t' ht'
      exact he _ (List.get_mem _ _) _ _ (fun e => hij (Fin.succAbove_right_injective e)) _ ⟨_, List.get_mem _ _, _, rfl⟩
    · intro i j
      obtain ⟨f, e1⟩ := hmem _ (List.get_mem _ i)
      obtain ⟨g, e2⟩ := hmem _ (List.get_mem _ j)
      rw [← e1, ← e2]
      exact hf i j f g

/-! ## The hypotheses are met -/

theorem keepsHuge64 : KeepsHuge binary64.float64 := by
  intro x hx
  have h1 : (2 : ℝ) ^ 2 ≤ 2 ^ 1000 := pow_le_pow_right₀ (by norm_num) (by norm_num)
  have x4 : 4 < x := lt_of_le_of_lt ((by norm_num : (4 : ℝ) ≤ 2 ^ 2).trans h1) hx
  clear hx h1
  have h := abs_le.1 (nearest_err x)
  have us : ulp ≤ 1 / 4 := ulp_small.1.trans (by norm_num)
  have ts : tiny ≤ 1 := ulp_small.2.trans (by linarith)
  rw [abs_of_pos (by linarith)] at h
  change 1 < nearest x
  nlinarith [h.1]

/-- Draws that include all triples find one that is clearly not collinear if the first triangle is not too thin. -/
theorem findsClear_all {p : Package} {s t : Simplex 3} {A : Fin 3 → Fin 3 → ℤ} {n : ℕ} (hn : 0 < n) (hn' : n ≤ 500)
    (hA : ∀ i j, p.perp (s i) j = A i j / n) (h : (fun c => A 1 c - A 0 c) ⨯₃ (fun c => A 2 c - A 0 c) ≠ 0) :
    FindsClearTriple p everyTriple s t := by
  intro pts _ hmem _
  obtain ⟨k, hk⟩ := Function.ne_iff.1 h
  have hn0 : (0 : ℝ) < n := by exact_mod_cast hn
  have hi : ∀ i, ∃ j : Fin pts.length, pts[(j : Nat)]? = some (p.perps s i) := fun i => by
    obtain ⟨j, hj⟩ := List.get_of_mem ((hmem (p.perps s i)).2 ⟨i, .inl rfl⟩)
    exact ⟨j, by rw [← hj]; simp⟩
  choose j hj using hi
  refine ⟨(j 0, j 1, j 2), mem_everyTriple _, _, _, _, hj 0, hj 1, hj 2, k, ?_⟩
  have e : crossProduct (p.perps s 1 - p.perps s 0) (p.perps s 2 - p.perps s 0) k =
      (((fun c => A 1 c - A 0 c) ⨯₃ (fun c => A 2 c - A 0 c)) k : ℤ) / (n : ℝ) ^ 2 := by
    fin_cases k <;> simp [cross_apply, Package.perps, hA] <;> field_simp <;> ring
  rw [e, abs_div, abs_of_pos (by positivity : (0 : ℝ) < (n : ℝ) ^ 2), div_le_div_iff₀ (by norm_num) (by positivity)]
  have h1 : (1 : ℝ) ≤ |((((fun c => A 1 c - A 0 c) ⨯₃ (fun c => A 2 c - A 0 c)) k : ℤ) : ℝ)| := by
    exact_mod_cast Int.one_le_abs hk
  have h2 : (n : ℝ) ≤ 500 := by exact_mod_cast hn'
  nlinarith

theorem exSquare_rounded : SharpRounded .dode 1 exSquare :=
  sharpRounded_grid exSquare_sharp zero_le_one (by norm_num)
    (moderate_grid .dode exSquare exSquareZ 1 (by norm_num) exSquare_perp (by decide) (by decide))
    exSquareZ 1 1 (by norm_num) exSquare_perp (by decide) (by norm_num) (by norm_num) (by norm_num) (by norm_num)

/-- The hypotheses of `C105_outline` are met, in binary64 arithmetic, by two triangles that make up a square. -/
example : ∃ out, binary64.float64.outline (fun _ _ => everyTriple) exSquare = .ok out ∧
    Package.dode.region out = intrinsicFrontier ℝ (Package.dode.region exSquare) := by
  have : ∀ a : Fin 2, (fun c => exSquareZ a 1 c - exSquareZ a 0 c) ⨯₃ (fun c => exSquareZ a 2 c - exSquareZ a 0 c) ≠ 0 := by
    decide +kernel
  exact C105_outline _ keepsHuge64 le_rfl (by norm_num) _ exSquare exSquare_rounded exSquare_plane exSquare_edges fun i j =>
    findsClear_all (A := exSquareZ i) (n := 1) (by norm_num) (by norm_num) (exSquare_perp i) (this i)

theorem exHalves_names : OneName .ico [exHalfA, exHalfB] := by
  intro s hs t ht i j h
  obtain ⟨a, rfl⟩ := List.get_of_mem hs
  obtain ⟨b, rfl⟩ := List.get_of_mem ht
  have hz : exHalvesZ a i = exHalvesZ b j := by
    funext c
    have := congrFun h c
    rw [exHalves_perp, exHalves_perp] at this
    have h2 : ((2 : ℕ) : ℝ) ≠ 0 := by norm_num
    exact_mod_cast (div_left_inj' h2).1 this
  have : ∀ (a b : Fin 2) (i j : Fin 4), exHalvesZ a i = exHalvesZ b j → ([exHalfA, exHalfB] : Obj 4).get a i = ([exHalfA, exHalfB] : Obj 4).get b j := by
    decide +kernel
  exact this a b i j hz

theorem exHalves_rounded : SharpObject 1 [exHalfA, exHalfB] :=
  sharpObject_grid exHalves_sharp zero_le_one (by norm_num)
    (moderate_grid .ico [exHalfA, exHalfB] exHalvesZ 2 (by norm_num) exHalves_perp (by decide +kernel) (by decide +kernel)) exHalves_names
    exHalvesZ 2 2 (by norm_num) exHalves_perp (by decide) (by norm_num) (by norm_num) (by norm_num) (by norm_num) (by norm_num)

/-- The hypotheses of `C104_boundary` are met, in binary64 arithmetic, by two halves of a tetrahedron. -/
example : ∃ s, binary64.float64.generatorSurface1 [exHalfA, exHalfB] = .ok s ∧
    Package.ico.region s = frontier (solid (Package.ico.perps exCorner)) := by
  obtain ⟨s, h1, h2⟩ := C104_boundary binary64.float64 le_rfl (by norm_num) [exHalfA, exHalfB] exHalves_wf exHalves_rounded.moderate
    exHalves_rounded.faces exHalves_sharp.faceToFace exHalves_names
  exact ⟨s, h1, by rw [h2, exHalves_region]⟩

/-- The hypotheses of `C105_border_edges` are met, in binary64 arithmetic, by two halves of a tetrahedron. -/
example : ∃ out, binary64.float64.generateBorderEdges (fun _ _ => everyTriple) [exHalfA, exHalfB] = .ok out ∧
    Package.ico.region out = creases (frontier (solid (Package.ico.perps exCorner))) := by
  have : ∀ f : Fin 2 × Fin 4, (fun c => exHalvesZ f.1 (f.2.succAbove 1) c - exHalvesZ f.1 (f.2.succAbove 0) c) ⨯₃
      (fun c => exHalvesZ f.1 (f.2.succAbove 2) c - exHalvesZ f.1 (f.2.succAbove 0) c) ≠ 0 := by decide +kernel
  obtain ⟨out, h1, h2⟩ := C105_border_edges binary64.float64 keepsHuge64 le_rfl (by norm_num) (fun _ _ => everyTriple)
    [exHalfA, exHalfB] exHalves_wf exHalves_rounded exHalves_edges fun _ _ f g =>
      findsClear_all (A := fun k => exHalvesZ f.1 (f.2.succAbove k)) (n := 2) (by norm_num) (by norm_num)
        (fun i => exHalves_perp f.1 _) (this f)
  exact ⟨out, h1, by rw [h2, exHalves_region]⟩

end PyQC
