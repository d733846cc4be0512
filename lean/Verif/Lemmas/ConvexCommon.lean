import Verif.Lemmas.ConvexUnion
/-!
# The common part of two unions of tetrahedra

Its corners, and what it means that no edge of one surface crosses a face of the other.
-/
namespace PyQC
open Topology

variable {ι κ : Type} [Finite ι] [Finite κ] {q : ι → Fin 4 → Fin 3 → ℝ} {p : κ → Fin 4 → Fin 3 → ℝ}

/-- The point is a corner of a face that belongs to one tetrahedron only. -/
def FreeCorner {ι : Type} (q : ι → Fin 4 → Fin 3 → ℝ) (x : Fin 3 → ℝ) : Prop := ∃ a l, FreeFace q a l ∧ ∃ i, i ≠ l ∧ x = q a i

/-- A side of a face that belongs to one tetrahedron of `q` only meets a face that belongs to one tetrahedron of `p` only in
`x`, and is not parallel to it. -/
def FreeCross {ι κ : Type} (q : ι → Fin 4 → Fin 3 → ℝ) {p : κ → Fin 4 → Fin 3 → ℝ} (hp : ∀ b, det4 (p b) ≠ 0)
    (x : Fin 3 → ℝ) : Prop :=
  ∃ a l, FreeFace q a l ∧ ∃ i j, i ≠ l ∧ j ≠ l ∧ i ≠ j ∧ x ∈ segment ℝ (q a i) (q a j) ∧
    ∃ b m, FreeFace p b m ∧ x ∈ faceSet p b m ∧ dirCoord (hp b) (q a j - q a i) m ≠ 0

theorem dirCoord_edge {q : Fin 4 → Fin 3 → ℝ} (h : det4 q ≠ 0) (i j : Fin 4) :
    dirCoord h (q j - q i) = Pi.single j 1 - Pi.single i 1 := by
  apply dirCoord_unique
  · simp
  · simp [sub_smul, Finset.sum_sub_distrib, Pi.single_apply, ite_smul]

theorem edge_ne_zero {q : Fin 4 → Fin 3 → ℝ} (h : det4 q ≠ 0) {i j : Fin 4} (hij : i ≠ j) : q j - q i ≠ 0 := by
  intro h0
  have := congrFun (dirCoord_edge h i j) j
  rw [h0, map_zero] at this
  simp [hij.symm] at this

theorem edge_segment {q : Fin 4 → Fin 3 → ℝ} {w : Fin 4 → ℝ} {x : Fin 3 → ℝ} (hw : IsBary q w x) (h0 : ∀ i, 0 ≤ w i)
    {i j : Fin 4} (hne : i ≠ j) (h : ∀ k, k ≠ i → k ≠ j → w k = 0) : x ∈ segment ℝ (q i) (q j) := by
  have hsum : w i + w j = 1 := by
    rw [← hw.1, ← Finset.sum_pair hne]
    refine Finset.sum_subset (Finset.subset_univ _) fun a _ ha => h a ?_ ?_
    · intro e; simp [e] at ha
    · intro e; simp [e] at ha
  have : x = w i • q i + w j • q j := by
    rw [hw.2, ← Finset.sum_pair (f := fun i => w i • q i) hne]
    refine (Finset.sum_subset (Finset.subset_univ _) fun a _ ha => ?_).symm
    rw [h a, zero_smul]
    · intro e; simp [e] at ha
    · intro e; simp [e] at ha
  exact ⟨w i, w j, h0 i, h0 j, hsum, this.symm⟩

omit [Finite ι] in
/-- A point of a face that belongs to one tetrahedron only: it is a corner of it, or inside a side (which then can be followed
both ways), or every direction in the plane of the face can be followed both ways. -/
theorem face_cases (h : ∀ a, det4 (q a) ≠ 0) {a : ι} {l : Fin 4} {x : Fin 3 → ℝ} (hx : x ∈ faceSet q a l) :
    (∃ i, i ≠ l ∧ x = q a i) ∨
    (∃ i j, i ≠ l ∧ j ≠ l ∧ i ≠ j ∧ x ∈ segment ℝ (q a i) (q a j) ∧
      ∀ᶠ r : ℝ in 𝓝 0, x + r • (q a j - q a i) ∈ faceSet q a l) ∨
    (∀ d, dirCoord (h a) d l = 0 → ∀ᶠ r : ℝ in 𝓝 0, x + r • d ∈ faceSet q a l) := by
  obtain ⟨hs, hl⟩ := hx
  have h0 := (mem_solid_bc (h a)).1 hs
  have hb := bc_spec (h a) x
  have stay : ∀ d, (∀ i, bc (q a) x i = 0 → dirCoord (h a) d i = 0) → ∀ᶠ r : ℝ in 𝓝 0, x + r • d ∈ faceSet q a l := by
    intro d hd
    refine (move_in_solid (h a) hb h0 hd).mono fun r hr => ⟨hr, ?_⟩
    rw [bc_move (h a), hl, hd l hl]
    ring
  rcases support_cases hb.1 with ⟨i, hi⟩ | ⟨i, j, hij, hi, hj, hk⟩ | ⟨k, hk⟩
  · refine .inl ⟨i, ?_, corner_case hb hi⟩
    rintro rfl
    have : ∀ j, bc (q a) x j = 0 := fun j => by
      by_cases hj : j = i
      · rw [hj]; exact hl
      · exact hi j hj
    have h1 := hb.1
    simp [this] at h1
  · refine .inr (.inl ⟨i, j, fun e => hi (e ▸ hl), fun e => hj (e ▸ hl), hij.ne, edge_segment hb h0 hij.ne hk, stay _ ?_⟩)
    intro k hk0
    rw [dirCoord_edge (h a)]
    have h1 : k ≠ i := fun e => hi (e ▸ hk0)
    have h2 : k ≠ j := fun e => hj (e ▸ hk0)
    simp [h1, h2]
  · refine .inr (.inr fun d hd => stay d fun i hi => ?_)
    rw [hk i hi, ← hk l hl]
    exact hd

omit [Finite ι] in
theorem faceSet_covered {a : ι} {l : Fin 4} : faceSet q a l ⊆ covered q := fun _ hx => ⟨a, hx.1⟩

/-- Every extreme point of the common part is a corner of one of the surfaces or a crossing of a side of one with a face of the
other. -/
theorem extreme_union (hq : ∀ a, det4 (q a) ≠ 0) (hp : ∀ b, det4 (p b) ≠ 0)
    (dq : ∀ a b, a ≠ b → interior (solid (q a)) ∩ interior (solid (q b)) = ∅)
    (dp : ∀ a b, a ≠ b → interior (solid (p a)) ∩ interior (solid (p b)) = ∅) {x : Fin 3 → ℝ}
    (hx : x ∈ (covered q ∩ covered p).extremePoints ℝ) :
    FreeCorner q x ∨ FreeCorner p x ∨ FreeCross q hp x ∨ FreeCross p hq x := by
  have hm := (mem_extremePoints.1 hx).1
  have stuck : ∀ d, (∀ᶠ r : ℝ in 𝓝 0, x + r • d ∈ covered q) → (∀ᶠ r : ℝ in 𝓝 0, x + r • d ∈ covered p) → d = 0 :=
    fun d h1 h2 => extreme_no_move hx (h1.and h2)
  -- a side of a face of one that can be followed must cross a face of the other
  have sideq : ∀ a l, FreeFace q a l → ∀ i j, i ≠ l → j ≠ l → i ≠ j → x ∈ segment ℝ (q a i) (q a j) →
      (∀ᶠ r : ℝ in 𝓝 0, x + r • (q a j - q a i) ∈ faceSet q a l) → FreeCross q hp x := by
    intro a l hf i j hi hj hij hseg hev
    obtain ⟨b, m, h1, h2, h3⟩ := exit_surface hp dp hm.2 (d := q a j - q a i) fun hn =>
      edge_ne_zero (hq a) hij (stuck _ (hev.mono fun r hr => faceSet_covered hr) hn)
    exact ⟨a, l, hf, i, j, hi, hj, hij, hseg, b, m, h1, h2, h3⟩
  have sidep : ∀ a l, FreeFace p a l → ∀ i j, i ≠ l → j ≠ l → i ≠ j → x ∈ segment ℝ (p a i) (p a j) →
      (∀ᶠ r : ℝ in 𝓝 0, x + r • (p a j - p a i) ∈ faceSet p a l) → FreeCross p hq x := by
    intro a l hf i j hi hj hij hseg hev
    obtain ⟨b, m, h1, h2, h3⟩ := exit_surface hq dq hm.1 (d := p a j - p a i) fun hn =>
      edge_ne_zero (hp a) hij (stuck _ hn (hev.mono fun r hr => faceSet_covered hr))
    exact ⟨a, l, hf, i, j, hi, hj, hij, hseg, b, m, h1, h2, h3⟩
  by_cases ex : ∃ a l, FreeFace q a l ∧ x ∈ faceSet q a l
  · obtain ⟨a, l, hf, hfx⟩ := ex
    rcases face_cases hq hfx with ⟨i, hi, e⟩ | ⟨i, j, hi, hj, hij, hseg, hev⟩ | hall
    · exact .inl ⟨a, l, hf, i, hi, e⟩
    · exact .inr (.inr (.inl (sideq a l hf i j hi hj hij hseg hev)))
    by_cases ey : ∃ b m, FreeFace p b m ∧ x ∈ faceSet p b m
    · obtain ⟨b, m, hg, hgx⟩ := ey
      rcases face_cases hp hgx with ⟨i, hi, e⟩ | ⟨i, j, hi, hj, hij, hseg, hev⟩ | hall'
      · exact .inr (.inl ⟨b, m, hg, i, hi, e⟩)
      · exact .inr (.inr (.inr (sidep b m hg i j hi hj hij hseg hev)))
      · obtain ⟨d, hd0, h1, h2⟩ := exists_dir (LinearMap.proj l ∘ₗ dirCoord (hq a)) (LinearMap.proj m ∘ₗ dirCoord (hp b))
        exact absurd (stuck d ((hall d h1).mono fun r hr => faceSet_covered hr)
          ((hall' d h2).mono fun r hr => faceSet_covered hr)) hd0
    · obtain ⟨d, hd0, h1, -⟩ := exists_dir (LinearMap.proj l ∘ₗ dirCoord (hq a)) 0
      refine absurd (stuck d ((hall d h1).mono fun r hr => faceSet_covered hr) ?_) hd0
      by_contra hn
      obtain ⟨b, m, h1, h2, -⟩ := exit_surface hp dp hm.2 hn
      exact ey ⟨b, m, h1, h2⟩
  · have free : ∀ d, ∀ᶠ r : ℝ in 𝓝 0, x + r • d ∈ covered q := by
      intro d
      by_contra hn
      obtain ⟨a, l, h1, h2, -⟩ := exit_surface hq dq hm.1 hn
      exact ex ⟨a, l, h1, h2⟩
    obtain ⟨d, hd0, -, -⟩ := exists_dir 0 0
    obtain ⟨b, m, hg, hgx, -⟩ := exit_surface hp dp hm.2 (d := d) fun hn => hd0 (stuck d (free d) hn)
    rcases face_cases hp hgx with ⟨i, hi, e⟩ | ⟨i, j, hi, hj, hij, hseg, hev⟩ | hall'
    · exact .inr (.inl ⟨b, m, hg, i, hi, e⟩)
    · exact .inr (.inr (.inr (sidep b m hg i j hi hj hij hseg hev)))
    · obtain ⟨d, hd0, h1, -⟩ := exists_dir (LinearMap.proj m ∘ₗ dirCoord (hp b)) 0
      exact absurd (stuck d (free d) ((hall' d h1).mono fun r hr => faceSet_covered hr)) hd0

/-- Every extreme point of a union of tetrahedra is a corner of its surface. -/
theorem extreme_single (hq : ∀ a, det4 (q a) ≠ 0)
    (dq : ∀ a b, a ≠ b → interior (solid (q a)) ∩ interior (solid (q b)) = ∅) {x : Fin 3 → ℝ}
    (hx : x ∈ (covered q).extremePoints ℝ) : FreeCorner q x := by
  have hm := (mem_extremePoints.1 hx).1
  obtain ⟨d, hd0, -, -⟩ := exists_dir 0 0
  obtain ⟨a, l, hf, hfx, -⟩ := exit_surface hq dq hm (d := d) fun hn => hd0 (extreme_no_move hx hn)
  rcases face_cases hq hfx with ⟨i, hi, e⟩ | ⟨i, j, hi, hj, hij, hseg, hev⟩ | hall
  · exact ⟨a, l, hf, i, hi, e⟩
  · exact absurd (extreme_no_move hx (hev.mono fun r hr => faceSet_covered hr)) (edge_ne_zero (hq a) hij)
  · obtain ⟨d, hd0, h1, -⟩ := exists_dir (LinearMap.proj l ∘ₗ dirCoord (hq a)) 0
    exact absurd (extreme_no_move hx ((hall d h1).mono fun r hr => faceSet_covered hr)) hd0

/-- A finite set containing the extreme points of a compact convex set spans it. -/
theorem compact_subset_hull {K P : Set (Fin 3 → ℝ)} (hK : IsCompact K) (hc : Convex ℝ K) (hP : P.Finite)
    (h : K.extremePoints ℝ ⊆ P) : K ⊆ convexHull ℝ P := by
  rw [← closure_convexHull_extremePoints hK hc]
  exact closure_minimal (convexHull_mono h) (hP.isClosed_convexHull (𝕜 := ℝ))

/-! ### No crossing -/

/-- The linear function that vanishes on the directions of the face. -/
noncomputable def faceFun {q : Fin 4 → Fin 3 → ℝ} (h : det4 q ≠ 0) (l : Fin 4) : (Fin 3 → ℝ) →ₗ[ℝ] ℝ :=
  LinearMap.proj l ∘ₗ dirCoord h

theorem faceFun_apply {q : Fin 4 → Fin 3 → ℝ} (h : det4 q ≠ 0) (l : Fin 4) (d : Fin 3 → ℝ) : faceFun h l d = dirCoord h d l := rfl

theorem faceFun_ne {q : Fin 4 → Fin 3 → ℝ} (h : det4 q ≠ 0) (l : Fin 4) : faceFun h l ≠ 0 := by
  obtain ⟨i, hi⟩ : ∃ i, i ≠ l := by
    by_cases h : l = 0
    · exact ⟨1, by rw [h]; decide⟩
    · exact ⟨0, Ne.symm h⟩
  intro h0
  have := congrArg (fun f => f (q l - q i)) h0
  simp only [faceFun_apply, dirCoord_edge h, LinearMap.zero_apply] at this
  simp [hi.symm] at this

theorem ker_not_le {f g : (Fin 3 → ℝ) →ₗ[ℝ] ℝ} (hf : f ≠ 0) (hg : g ≠ 0) (h : LinearMap.ker f ≠ LinearMap.ker g) :
    ∃ d, f d = 0 ∧ g d ≠ 0 := by
  by_contra hcon
  push Not at hcon
  refine h (Submodule.eq_of_le_of_finrank_eq (fun d hd => hcon d hd) ?_)
  have h1 := Module.Dual.finrank_ker_add_one_of_ne_zero hf
  have h2 := Module.Dual.finrank_ker_add_one_of_ne_zero hg
  omega

/-- Two planes that are not parallel have one common direction. -/
theorem common_dir {f g : (Fin 3 → ℝ) →ₗ[ℝ] ℝ} (hf : f ≠ 0) (hg : g ≠ 0) (h : LinearMap.ker f ≠ LinearMap.ker g)
    {u v : Fin 3 → ℝ} (hv : v ≠ 0) (fu : f u = 0) (gu : g u = 0) (fv : f v = 0) (gv : g v = 0) : ∃ c : ℝ, u = c • v := by
  obtain ⟨d, hd1, hd2⟩ := ker_not_le hf hg h
  obtain ⟨e, he1, he2⟩ := ker_not_le hg hf h.symm
  have hs : LinearMap.range (f.prod g) = ⊤ := by
    rw [LinearMap.range_eq_top]
    rintro ⟨a, b⟩
    refine ⟨(a / f e) • e + (b / g d) • d, ?_⟩
    ext1
    · simp [hd1, he2]
    · simp [he1, hd2]
  have hfin := LinearMap.finrank_range_add_finrank_ker (f.prod g)
  rw [hs, finrank_top] at hfin
  simp at hfin
  have h1 : Module.finrank ℝ (LinearMap.ker (f.prod g)) = 1 := by simpa using (by omega : _ = 1)
  have hv' : v ∈ LinearMap.ker (f.prod g) := by rw [LinearMap.mem_ker]; ext1 <;> simp [fv, gv]
  have hu' : u ∈ LinearMap.ker (f.prod g) := by rw [LinearMap.mem_ker]; ext1 <;> simp [fu, gu]
  obtain ⟨c, hc⟩ := (finrank_eq_one_iff_of_nonzero' (⟨v, hv'⟩ : LinearMap.ker (f.prod g)) (by
    intro e; exact hv (congrArg Subtype.val e))).1 h1 ⟨u, hu'⟩
  exact ⟨c, (congrArg Subtype.val hc).symm⟩

/-- A direction in the plane of a face is spanned by the two sides at a corner. -/
theorem sides_span {q : Fin 4 → Fin 3 → ℝ} (h : det4 q ≠ 0) {i l : Fin 4} (g : (Fin 3 → ℝ) →ₗ[ℝ] ℝ)
    (hg : ∀ j, j ≠ l → g (q j - q i) = 0) {d : Fin 3 → ℝ} (hd : dirCoord h d l = 0) : g d = 0 := by
  obtain ⟨e1, e2⟩ := dirCoord_spec h d
  have : d = ∑ j, dirCoord h d j • (q j - q i) := by
    simp only [smul_sub, Finset.sum_sub_distrib, ← Finset.sum_smul]
    rw [e1, zero_smul, sub_zero, e2]
  rw [this, map_sum]
  refine Finset.sum_eq_zero fun j _ => ?_
  by_cases hj : j = l
  · rw [hj, hd, zero_smul, map_zero]
  · rw [map_smul, hg j hj, smul_zero]

theorem faceFun_edge {q : Fin 4 → Fin 3 → ℝ} (h : det4 q ≠ 0) {i j l : Fin 4} (hi : i ≠ l) (hj : j ≠ l) :
    faceFun h l (q j - q i) = 0 := by
  rw [faceFun_apply, dirCoord_edge h]
  simp [hi.symm, hj.symm]

omit [Finite ι] [Finite κ] in
/-- Two faces, one of each surface, with a common point and not parallel: a side of one crosses the other. -/
theorem cross_of_faces (hq : ∀ a, det4 (q a) ≠ 0) (hp : ∀ b, det4 (p b) ≠ 0) {a : ι} {l : Fin 4} {b : κ} {m : Fin 4}
    (hf : FreeFace q a l) (hg : FreeFace p b m) {z : Fin 3 → ℝ} (h1 : z ∈ faceSet q a l) (h2 : z ∈ faceSet p b m)
    (hne : LinearMap.ker (faceFun (hq a) l) ≠ LinearMap.ker (faceFun (hp b) m)) :
    ∃ x, FreeCross q hp x ∨ FreeCross p hq x := by
  have hcomp : IsCompact (faceSet q a l ∩ faceSet p b m) :=
    ((solid_compact (q a)).of_isClosed_subset (faceSet_closed a l) fun _ h => h.1).inter_right (faceSet_closed b m)
  obtain ⟨x, hx⟩ := hcomp.extremePoints_nonempty ⟨z, h1, h2⟩
  have hm := (mem_extremePoints.1 hx).1
  have stuck : ∀ d, (∀ᶠ r : ℝ in 𝓝 0, x + r • d ∈ faceSet q a l) → (∀ᶠ r : ℝ in 𝓝 0, x + r • d ∈ faceSet p b m) → d = 0 :=
    fun d h1 h2 => extreme_no_move hx (h1.and h2)
  have nf := faceFun_ne (hq a) l
  have ng := faceFun_ne (hp b) m
  -- a side through the point that is not parallel to the other face
  have sq : ∀ i j, i ≠ l → j ≠ l → i ≠ j → x ∈ segment ℝ (q a i) (q a j) → faceFun (hp b) m (q a j - q a i) ≠ 0 →
      ∃ x, FreeCross q hp x ∨ FreeCross p hq x := fun i j hi hj hij hs h =>
    ⟨x, .inl ⟨a, l, hf, i, j, hi, hj, hij, hs, b, m, hg, hm.2, h⟩⟩
  have sp : ∀ i j, i ≠ m → j ≠ m → i ≠ j → x ∈ segment ℝ (p b i) (p b j) → faceFun (hq a) l (p b j - p b i) ≠ 0 →
      ∃ x, FreeCross q hp x ∨ FreeCross p hq x := fun i j hi hj hij hs h =>
    ⟨x, .inr ⟨b, m, hg, i, j, hi, hj, hij, hs, a, l, hf, hm.1, h⟩⟩
  rcases face_cases hq hm.1 with ⟨i, hi, e⟩ | ⟨i, j, hi, hj, hij, hseg, hev⟩ | hall
  · by_contra hcon
    obtain ⟨d, hd1, hd2⟩ := ker_not_le nf ng hne
    refine hd2 (sides_span (hq a) (i := i) (l := l) _ (fun j hj => ?_) hd1)
    by_cases hij : i = j
    · rw [hij, sub_self, map_zero]
    · by_contra h0
      exact hcon (sq i j hi hj hij (e ▸ left_mem_segment ℝ _ _) h0)
  · rcases face_cases hp hm.2 with ⟨i', hi', e'⟩ | ⟨i', j', hi', hj', hij', hseg', hev'⟩ | hall'
    · by_contra hcon
      obtain ⟨d, hd1, hd2⟩ := ker_not_le ng nf hne.symm
      refine hd2 (sides_span (hp b) (i := i') (l := m) _ (fun j hj => ?_) hd1)
      by_cases hij : i' = j
      · rw [hij, sub_self, map_zero]
      · by_contra h0
        exact hcon (sp i' j hi' hj hij (e' ▸ left_mem_segment ℝ _ _) h0)
    · by_cases g0 : faceFun (hp b) m (q a j - q a i) = 0
      · by_cases f0 : faceFun (hq a) l (p b j' - p b i') = 0
        · obtain ⟨c, hc⟩ := common_dir nf ng hne (edge_ne_zero (hp b) hij') (faceFun_edge (hq a) hi hj) g0 f0
            (faceFun_edge (hp b) hi' hj')
          refine absurd (stuck _ hev ?_) (edge_ne_zero (hq a) hij)
          rw [hc]
          have ht : Filter.Tendsto (fun r : ℝ => r * c) (𝓝 0) (𝓝 0) := by
            have : Filter.Tendsto (fun r : ℝ => r * c) (𝓝 0) (𝓝 (0 * c)) := by apply Continuous.tendsto; fun_prop
            rwa [zero_mul] at this
          refine (ht.eventually hev').mono fun r hr => ?_
          rwa [smul_smul]
        · exact sp i' j' hi' hj' hij' hseg' f0
      · exact sq i j hi hj hij hseg g0
    · by_cases g0 : faceFun (hp b) m (q a j - q a i) = 0
      · exact absurd (stuck _ hev (hall' _ g0)) (edge_ne_zero (hq a) hij)
      · exact sq i j hi hj hij hseg g0
  · rcases face_cases hp hm.2 with ⟨i', hi', e'⟩ | ⟨i', j', hi', hj', hij', hseg', hev'⟩ | hall'
    · by_contra hcon
      obtain ⟨d, hd1, hd2⟩ := ker_not_le ng nf hne.symm
      refine hd2 (sides_span (hp b) (i := i') (l := m) _ (fun j hj => ?_) hd1)
      by_cases hij : i' = j
      · rw [hij, sub_self, map_zero]
      · by_contra h0
        exact hcon (sp i' j hi' hj hij (e' ▸ left_mem_segment ℝ _ _) h0)
    · by_cases f0 : faceFun (hq a) l (p b j' - p b i') = 0
      · exact absurd (stuck _ (hall _ f0) hev') (edge_ne_zero (hp b) hij')
      · exact sp i' j' hi' hj' hij' hseg' f0
    · obtain ⟨d, hd0, h1, h2⟩ := exists_dir (faceFun (hq a) l) (faceFun (hp b) m)
      exact absurd (stuck d (hall d h1) (hall' d h2)) hd0

/-- A point of the union that is not in its interior lies in a face that belongs to one tetrahedron only. -/
theorem free_through (hq : ∀ a, det4 (q a) ≠ 0)
    (dq : ∀ a b, a ≠ b → interior (solid (q a)) ∩ interior (solid (q b)) = ∅) {z : Fin 3 → ℝ} (hz : z ∈ covered q)
    (hi : z ∉ interior (covered q)) : ∃ a l, FreeFace q a l ∧ z ∈ faceSet q a l := by
  obtain ⟨ε, hε, hb⟩ := ball_faces (q := q) z
  obtain ⟨y, hy, hy'⟩ : ∃ y ∈ Metric.ball z ε, y ∉ covered q := by
    by_contra hcon
    push Not at hcon
    exact hi (mem_interior.2 ⟨_, hcon, Metric.isOpen_ball, Metric.mem_ball_self hε⟩)
  obtain ⟨a, l, hf, -, w, hw, hw'⟩ := exit_free hq dq Metric.isOpen_ball (convex_ball z ε) hz (e := y - z) (by simpa using hy')
    (Metric.mem_ball_self hε) (by simpa using hy)
  exact ⟨a, l, hf, hb a l ⟨w, hw, hw'⟩⟩

/-- Near a point where all faces of the surface lie in one plane, a convex union is a half space. -/
theorem half_space (hq : ∀ a, det4 (q a) ≠ 0)
    (dq : ∀ a b, a ≠ b → interior (solid (q a)) ∩ interior (solid (q b)) = ∅) (hc : Convex ℝ (covered q))
    {z : Fin 3 → ℝ} (hz : z ∈ covered q) (hi : z ∉ interior (covered q)) {f : (Fin 3 → ℝ) →ₗ[ℝ] ℝ} (hf : f ≠ 0)
    (hk : ∀ a l, FreeFace q a l → z ∈ faceSet q a l → LinearMap.ker (faceFun (hq a) l) = LinearMap.ker f)
    {w : Fin 3 → ℝ} (hw : w ∈ interior (covered q)) :
    0 < f (w - z) ∧ (∃ ε > 0, ∀ y ∈ Metric.ball z ε, y ∈ covered q ↔ 0 ≤ f (y - z)) ∨
    0 < (-f) (w - z) ∧ (∃ ε > 0, ∀ y ∈ Metric.ball z ε, y ∈ covered q ↔ 0 ≤ (-f) (y - z)) := by
  have hcl : IsClosed (covered q) := covered_compact.isClosed
  obtain ⟨ε, hε, hb⟩ := ball_faces (q := q) z
  obtain ⟨d, hd⟩ : ∃ d, f d ≠ 0 := by
    by_contra hcon
    push Not at hcon
    exact hf (LinearMap.ext hcon)
  -- the main part, for the sign given by some interior point
  have main : ∀ g : (Fin 3 → ℝ) →ₗ[ℝ] ℝ, LinearMap.ker g = LinearMap.ker f → (∃ w ∈ interior (covered q), 0 < g (w - z)) →
      (∀ w ∈ interior (covered q), 0 < g (w - z)) ∧ ∃ ε > 0, ∀ y ∈ Metric.ball z ε, y ∈ covered q ↔ 0 ≤ g (y - z) := by
    rintro g hg ⟨p1, hp1, hgp⟩
    have gcont : Continuous g := g.continuous_of_finiteDimensional
    have toward : Filter.Tendsto (fun r : ℝ => z + r • (p1 - z)) (𝓝[>] 0) (𝓝 z) := by
      have : Filter.Tendsto (fun r : ℝ => z + r • (p1 - z)) (𝓝 0) (𝓝 (z + (0 : ℝ) • (p1 - z))) := by
        apply Continuous.tendsto; fun_prop
      rw [zero_smul, add_zero] at this
      exact this.mono_left nhdsWithin_le_nhds
    have up : ∀ y ∈ Metric.ball z ε, 0 < g (y - z) → y ∈ covered q := by
      intro y hy hgy
      by_contra hn
      have hN : IsOpen (Metric.ball z ε ∩ {y | 0 < g (y - z)}) :=
        Metric.isOpen_ball.inter (isOpen_lt continuous_const (gcont.comp (continuous_id.sub continuous_const)))
      have hNc : Convex ℝ (Metric.ball z ε ∩ {y | 0 < g (y - z)}) := by
        refine (convex_ball z ε).inter ?_
        have : {y | 0 < g (y - z)} = {y | g z < g y} := by ext y; simp [map_sub]
        rw [this]
        exact convex_halfSpace_gt g.isLinear _
      have h1 : ∀ᶠ r : ℝ in 𝓝[>] 0, r < 1 := (gt_mem_nhds (by norm_num : (0 : ℝ) < 1)).filter_mono nhdsWithin_le_nhds
      obtain ⟨r, ⟨hr1, hr2⟩, hr3⟩ := (((toward.eventually (Metric.ball_mem_nhds z hε)).and h1).and self_mem_nhdsWithin).exists
      have hr3 : 0 < r := hr3
      have hx1 : z + r • (p1 - z) ∈ covered q := by
        have := hc hz (interior_subset hp1) (by linarith : 0 ≤ 1 - r) hr3.le (by ring)
        have e : (1 - r) • z + r • p1 = z + r • (p1 - z) := by module
        rwa [e] at this
      have hx2 : 0 < g (z + r • (p1 - z) - z) := by
        rw [add_sub_cancel_left, map_smul]
        exact mul_pos hr3 hgp
      have e : z + r • (p1 - z) + (y - (z + r • (p1 - z))) = y := by abel
      obtain ⟨a, l, hfree, -, u, hu, hu'⟩ := exit_free hq dq hN hNc hx1 (e := y - (z + r • (p1 - z))) (by rwa [e])
        ⟨hr1, hx2⟩ (by rw [e]; exact ⟨hy, hgy⟩)
      have hza := hb a l ⟨u, hu.1, hu'⟩
      have : u - z ∈ LinearMap.ker (faceFun (hq a) l) := by
        rw [LinearMap.mem_ker, faceFun_apply, dirCoord_sub, hu'.2, hza.2, sub_zero]
      rw [hk a l hfree hza, ← hg, LinearMap.mem_ker] at this
      exact hu.2.ne' this
    have below : ∀ y ∈ covered q, 0 ≤ g (y - z) := by
      intro y hy
      by_contra hn
      push Not at hn
      have hcont : Filter.Tendsto (fun r : ℝ => z + r • (z - y)) (𝓝[>] 0) (𝓝 z) := by
        have : Filter.Tendsto (fun r : ℝ => z + r • (z - y)) (𝓝 0) (𝓝 (z + (0 : ℝ) • (z - y))) := by
          apply Continuous.tendsto; fun_prop
        rw [zero_smul, add_zero] at this
        exact this.mono_left nhdsWithin_le_nhds
      obtain ⟨r, hr1, hr2⟩ := ((hcont.eventually (Metric.ball_mem_nhds z hε)).and self_mem_nhdsWithin).exists
      have hr2 : 0 < r := hr2
      have hpos : 0 < g (z + r • (z - y) - z) := by
        rw [add_sub_cancel_left, map_smul, ← neg_sub, map_neg]
        exact mul_pos hr2 (by linarith)
      have hint : z + r • (z - y) ∈ interior (covered q) := by
        rw [mem_interior]
        refine ⟨Metric.ball z ε ∩ {y | 0 < g (y - z)}, fun v hv => up v hv.1 hv.2, ?_, hr1, hpos⟩
        exact Metric.isOpen_ball.inter (isOpen_lt continuous_const (gcont.comp (continuous_id.sub continuous_const)))
      refine hi (hc.openSegment_self_interior_subset_interior hy hint ?_)
      refine ⟨r / (1 + r), 1 / (1 + r), by positivity, by positivity, by field_simp; ring, ?_⟩
      funext i
      simp only [Pi.add_apply, Pi.smul_apply, Pi.sub_apply, smul_eq_mul]
      field_simp
      ring
    refine ⟨?_, ε, hε, fun y hy => ⟨below y, fun hy0 => ?_⟩⟩
    · intro w hw
      have hd' : g d ≠ 0 := by
        intro h0
        have : d ∈ LinearMap.ker g := h0
        rw [hg] at this
        exact hd this
      refine lt_of_le_of_ne (below w (interior_subset hw)) fun h0 => ?_
      have hcont : Filter.Tendsto (fun r : ℝ => w + r • (-(g d) • d)) (𝓝[>] 0) (𝓝 w) := by
        have : Filter.Tendsto (fun r : ℝ => w + r • (-(g d) • d)) (𝓝 0) (𝓝 (w + (0 : ℝ) • (-(g d) • d))) := by
          apply Continuous.tendsto; fun_prop
        rw [zero_smul, add_zero] at this
        exact this.mono_left nhdsWithin_le_nhds
      obtain ⟨r, hr1, hr2⟩ := ((hcont.eventually (mem_interior_iff_mem_nhds.1 hw)).and self_mem_nhdsWithin).exists
      have hr2 : 0 < r := hr2
      have := below _ hr1
      rw [show w + r • (-(g d) • d) - z = (w - z) + r • (-(g d) • d) by abel, map_add, ← h0, map_smul, map_smul] at this
      simp only [smul_eq_mul, zero_add] at this
      have h3 : 0 < r * (g d * g d) := mul_pos hr2 (mul_self_pos.2 hd')
      nlinarith
    · rcases hy0.lt_or_eq with h1 | h1
      · exact up y hy h1
      · have hcont : Filter.Tendsto (fun r : ℝ => y + r • (p1 - z)) (𝓝[>] 0) (𝓝 y) := by
          have : Filter.Tendsto (fun r : ℝ => y + r • (p1 - z)) (𝓝 0) (𝓝 (y + (0 : ℝ) • (p1 - z))) := by
            apply Continuous.tendsto; fun_prop
          rw [zero_smul, add_zero] at this
          exact this.mono_left nhdsWithin_le_nhds
        refine hcl.mem_of_tendsto hcont ?_
        filter_upwards [hcont.eventually (Metric.isOpen_ball.mem_nhds hy), self_mem_nhdsWithin] with r hr1 hr2
        have hr2 : 0 < r := hr2
        refine up _ hr1 ?_
        rw [show y + r • (p1 - z) - z = (y - z) + r • (p1 - z) by abel, map_add, ← h1, map_smul, zero_add]
        exact mul_pos hr2 hgp
  -- some interior point is off the plane
  obtain ⟨w', hw', hne⟩ : ∃ w' ∈ interior (covered q), f (w' - z) ≠ 0 := by
    by_cases h0 : f (w - z) = 0
    · have hcont : Filter.Tendsto (fun r : ℝ => w + r • d) (𝓝[>] 0) (𝓝 w) := by
        have : Filter.Tendsto (fun r : ℝ => w + r • d) (𝓝 0) (𝓝 (w + (0 : ℝ) • d)) := by
          apply Continuous.tendsto; fun_prop
        rw [zero_smul, add_zero] at this
        exact this.mono_left nhdsWithin_le_nhds
      obtain ⟨r, hr1, hr2⟩ := ((hcont.eventually (isOpen_interior.mem_nhds hw)).and self_mem_nhdsWithin).exists
      have hr2 : 0 < r := hr2
      refine ⟨_, hr1, ?_⟩
      rw [show w + r • d - z = (w - z) + r • d by abel, map_add, h0, map_smul, zero_add]
      exact mul_ne_zero hr2.ne' hd
    · exact ⟨w, hw, h0⟩
  rcases lt_or_gt_of_ne hne with h | h
  · obtain ⟨h1, h2⟩ := main (-f) (by ext v; simp) ⟨w', hw', by rw [LinearMap.neg_apply]; linarith⟩
    exact .inr ⟨h1 w hw, h2⟩
  · obtain ⟨h1, h2⟩ := main f rfl ⟨w', hw', h⟩
    exact .inl ⟨h1 w hw, h2⟩

end PyQC
