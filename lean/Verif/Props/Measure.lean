import Verif.Lemmas.Lebesgue
import Verif.Lemmas.Triangulate
import Verif.Props.Complete
/-!
# Exact volumes are Lebesgue measures (C62), and the exact volume of an intersection (C63)

`volume` is Mathlib's Lebesgue measure on real 3-space.
-/
namespace PyQC
open MeasureTheory Ico

/-! ## C62 -/

theorem solid_measurable (q : Fin 4 → Fin 3 → ℝ) : MeasurableSet (solid q) := (solid_compact q).isClosed.measurableSet

theorem region_nil : Package.ico.region ([] : Obj 4) = ∅ := by ext x; simp [Package.region]

theorem region_cons (a : Simplex 4) (o : Obj 4) :
    Package.ico.region (a :: o) = solid (Package.ico.perps a) ∪ Package.ico.region o := by
  ext x; simp [Package.region]

theorem region_append (o o' : Obj 4) : Package.ico.region (o ++ o') = Package.ico.region o ∪ Package.ico.region o' := by
  ext x; simp [Package.region, or_and_right, exists_or]

theorem region_measurable (o : Obj 4) : MeasurableSet (Package.ico.region o) := by
  induction o with
  | nil => rw [region_nil]; exact .empty
  | cons a o ih => rw [region_cons]; exact (solid_measurable _).union ih

theorem solid_finite (q : Fin 4 → Fin 3 → ℝ) : volume (solid q) ≠ ⊤ := (solid_compact q).measure_lt_top.ne

theorem region_finite (o : Obj 4) : volume (Package.ico.region o) ≠ ⊤ := by
  induction o with
  | nil => rw [region_nil]; simp
  | cons a o ih => rw [region_cons]; exact measure_union_ne_top (solid_finite _) ih

/-- Sum of the measures of the pieces. -/
noncomputable def msum (o : Obj 4) : ENNReal := (o.map fun a => volume (solid (Package.ico.perps a))).sum

theorem msum_cons (a : Simplex 4) (o : Obj 4) : msum (a :: o) = volume (solid (Package.ico.perps a)) + msum o := rfl

theorem msum_append (o o' : Obj 4) : msum (o ++ o') = msum o + msum o' := by simp [msum]

theorem msum_finite (o : Obj 4) : msum o ≠ ⊤ := by
  induction o with
  | nil => simp [msum]
  | cons a o ih => rw [msum_cons]; exact ENNReal.add_ne_top.2 ⟨solid_finite _, ih⟩

theorem msum_val (o : Obj 4) : msum o = ENNReal.ofReal ((o.map fun a => tetVol (Package.ico.perps a)).sum) := by
  induction o with
  | nil => simp [msum]
  | cons a o ih =>
    rw [msum_cons, ih, volume_solid, List.map_cons, List.sum_cons, ENNReal.ofReal_add]
    · rw [tetVol_det4]; positivity
    · apply List.sum_nonneg
      intro x hx
      obtain ⟨a, -, rfl⟩ := List.mem_map.1 hx
      rw [tetVol_det4]; positivity

/-- Two tetrahedra have no common interior point iff their common part has measure zero. -/
theorem no_common_iff (S T : Fin 4 → Fin 3 → ℝ) :
    interior (solid S) ∩ interior (solid T) = ∅ ↔ volume (solid S ∩ solid T) = 0 := by
  rw [← interior_inter]
  constructor
  · intro h
    exact common_null (by rw [h]; simp)
  · intro h
    by_contra hne
    have := isOpen_interior.measure_pos volume (Set.nonempty_iff_ne_empty.2 hne)
    exact absurd (measure_mono_null interior_subset h) this.ne'

theorem inter_region_null {A : Set (Fin 3 → ℝ)} {o : Obj 4} :
    volume (A ∩ Package.ico.region o) = 0 ↔ ∀ a ∈ o, volume (A ∩ solid (Package.ico.perps a)) = 0 := by
  induction o with
  | nil => simp [region_nil]
  | cons a o ih =>
    rw [region_cons, Set.inter_union_distrib_left, measure_union_null_iff, ih]
    simp

theorem region_le_msum (o : Obj 4) : volume (Package.ico.region o) ≤ msum o := by
  induction o with
  | nil => simp [region_nil]
  | cons a o ih =>
    rw [region_cons, msum_cons]
    exact (measure_union_le _ _).trans (add_le_add le_rfl ih)

/-- The measures of the pieces add up to the measure of the union exactly when no two pieces overlap. -/
theorem region_eq_msum (o : Obj 4) : volume (Package.ico.region o) = msum o ↔ Package.ico.NoOverlap o := by
  induction o with
  | nil => simp [region_nil, msum, Package.NoOverlap]
  | cons a o ih =>
    have e := measure_union_add_inter (μ := volume) (solid (Package.ico.perps a)) (region_measurable o)
    have hp : Package.ico.NoOverlap (a :: o) ↔ volume (solid (Package.ico.perps a) ∩ Package.ico.region o) = 0 ∧
        Package.ico.NoOverlap o := by
      unfold Package.NoOverlap
      rw [List.pairwise_cons, inter_region_null]
      simp only [no_common_iff]
    rw [hp, ← ih, region_cons, msum_cons]
    constructor
    · intro h
      rw [h] at e
      have h1 := region_le_msum o
      have hle : volume (solid (Package.ico.perps a)) + msum o +
          volume (solid (Package.ico.perps a) ∩ Package.ico.region o) ≤
          volume (solid (Package.ico.perps a)) + msum o := by
        rw [e]; exact add_le_add le_rfl h1
      have hfin := ENNReal.add_ne_top.2 ⟨solid_finite (Package.ico.perps a), msum_finite o⟩
      have h0 : volume (solid (Package.ico.perps a) ∩ Package.ico.region o) = 0 := by
        have := (ENNReal.add_le_add_iff_left hfin).1 (hle.trans_eq (add_zero _).symm)
        exact le_antisymm this bot_le
      refine ⟨h0, ?_⟩
      rw [h0, add_zero] at e
      exact ((ENNReal.add_right_inj (solid_finite _)).1 e).symm
    · rintro ⟨h0, h1⟩
      rw [h0, add_zero] at e
      rw [e, h1]

/-- C62: the exact volume of a tetrahedron is the Lebesgue measure of the convex hull of its four perp points. -/
theorem C62_tetrahedron (t : Simplex 4) (h : Simplex.Ok t) :
    ∃ w, tetrahedronVolume6d t = .ok w ∧ ENNReal.ofReal (w.val tau) = volume (solid (Package.ico.perps t)) := by
  obtain ⟨w, hw, -, hv, -⟩ := C15_volume t h
  exact ⟨w, hw, by rw [hv, volume_solid]⟩

/-- C62: the exact volume of an object is at least the Lebesgue measure of the region it covers, and equal to it
exactly when no two pieces overlap. -/
theorem C62_object (o : Obj 4) (h : Obj.Ok o) :
    ∃ w, objVolume6d (.d4 o) = .ok (some w) ∧ volume (Package.ico.region o) ≤ ENNReal.ofReal (w.val tau) ∧
      (volume (Package.ico.region o) = ENNReal.ofReal (w.val tau) ↔ Package.ico.NoOverlap o) := by
  obtain ⟨w, hw, -, hv⟩ := C17_volume o h
  refine ⟨w, hw, ?_, ?_⟩
  · rw [hv, ← msum_val]; exact region_le_msum o
  · rw [hv, ← msum_val]; exact region_eq_msum o

/-! ## C63 -/

theorem inter_region_sum {A : Set (Fin 3 → ℝ)} (hA : MeasurableSet A) {o : Obj 4} (h : Package.ico.NoOverlap o) :
    volume (A ∩ Package.ico.region o) = (o.map fun a => volume (A ∩ solid (Package.ico.perps a))).sum := by
  induction o with
  | nil => simp [region_nil]
  | cons a o ih =>
    unfold Package.NoOverlap at h
    rw [List.pairwise_cons] at h
    have h0 : volume ((A ∩ solid (Package.ico.perps a)) ∩ (A ∩ Package.ico.region o)) = 0 := by
      refine measure_mono_null (t := solid (Package.ico.perps a) ∩ Package.ico.region o) ?_ ?_
      · rintro x ⟨⟨-, h1⟩, -, h2⟩; exact ⟨h1, h2⟩
      · rw [inter_region_null]
        intro b hb
        rw [← no_common_iff]
        exact h.1 b hb
    have e := measure_union_add_inter (μ := volume) (A ∩ solid (Package.ico.perps a)) (hA.inter (region_measurable o))
    rw [h0, add_zero] at e
    rw [region_cons, Set.inter_union_distrib_left, e, ih h.2, List.map_cons, List.sum_cons]

/-- Pieces `acc` collected for `s`: measure collected equals measure of the common part of `s` with what was read. -/
theorem innerLoop_measure {flag : Simplex 4 → Simplex 4 → Py Nat}
    {inter : Simplex 4 → Simplex 4 → Py (Option (Obj 4))} {s : Simplex 4} (l : Obj 4)
    (h1 : ∀ t ∈ l, flag s t = .ok 1 → solid (Package.ico.perps s) ⊆ solid (Package.ico.perps t))
    (h2 : ∀ t ∈ l, flag s t = .ok 2 → solid (Package.ico.perps t) ⊆ solid (Package.ico.perps s))
    (h0 : ∀ t ∈ l, ∀ f, flag s t = .ok f → f ≠ 1 → f ≠ 2 → f ≠ 3 →
      volume (solid (Package.ico.perps s) ∩ solid (Package.ico.perps t)) = 0)
    (h3 : ∀ t ∈ l, ∀ r, flag s t = .ok 3 → inter s t = .ok r →
      msum (r.getD []) = volume (solid (Package.ico.perps s) ∩ solid (Package.ico.perps t)))
    (acc : Obj 4) (r : Bool × Obj 4) (hr : innerLoop flag inter s acc l = .ok r) :
    if r.1 then ∃ l1 t l2, l = l1 ++ t :: l2 ∧ solid (Package.ico.perps s) ⊆ solid (Package.ico.perps t) ∧
        msum r.2 = msum acc + (l1.map fun t => volume (solid (Package.ico.perps s) ∩ solid (Package.ico.perps t))).sum
    else msum r.2 = msum acc + (l.map fun t => volume (solid (Package.ico.perps s) ∩ solid (Package.ico.perps t))).sum := by
  induction l generalizing acc with
  | nil => cases hr; simp
  | cons t l ih =>
    have ih' := ih (fun t ht => h1 t (by simp [ht])) (fun t ht => h2 t (by simp [ht])) (fun t ht => h0 t (by simp [ht]))
      (fun t ht => h3 t (by simp [ht]))
    have fin : ∀ acc', msum acc' = msum acc + volume (solid (Package.ico.perps s) ∩ solid (Package.ico.perps t)) →
        innerLoop flag inter s acc' l = .ok r →
        if r.1 then ∃ l1 u l2, t :: l = l1 ++ u :: l2 ∧ solid (Package.ico.perps s) ⊆ solid (Package.ico.perps u) ∧
          msum r.2 = msum acc + (l1.map fun t => volume (solid (Package.ico.perps s) ∩ solid (Package.ico.perps t))).sum
        else msum r.2 = msum acc +
          ((t :: l).map fun t => volume (solid (Package.ico.perps s) ∩ solid (Package.ico.perps t))).sum := by
      intro acc' hm hr'
      have := ih' acc' hr'
      by_cases hb : r.1 = true
      · rw [if_pos hb] at this ⊢
        obtain ⟨l1, u, l2, e, hs, hm'⟩ := this
        refine ⟨t :: l1, u, l2, by rw [e]; rfl, hs, ?_⟩
        rw [hm', hm, List.map_cons, List.sum_cons, add_assoc]
      · rw [if_neg hb] at this ⊢
        rw [this, hm, List.map_cons, List.sum_cons, add_assoc]
    unfold innerLoop at hr
    cases hf : flag s t with
    | error e => rw [hf, bind_error'] at hr; cases hr
    | ok f =>
      rw [hf, bind_ok'] at hr
      by_cases f1 : f = 1
      · rw [if_pos f1] at hr
        cases hr
        rw [if_pos rfl]
        exact ⟨[], t, l, rfl, h1 t (by simp) (by rw [hf, f1]), by simp⟩
      · rw [if_neg f1] at hr
        by_cases f2 : f = 2
        · rw [if_pos f2] at hr
          refine fin _ ?_ hr
          rw [msum_append, Set.inter_eq_self_of_subset_right (h2 t (by simp) (by rw [hf, f2]))]
          simp [msum]
        · rw [if_neg f2] at hr
          by_cases f3 : f = 3
          · rw [if_pos f3] at hr
            cases hi : inter s t with
            | error e => rw [hi, bind_error'] at hr; cases hr
            | ok o =>
              rw [hi, bind_ok'] at hr
              have hc := h3 t (by simp) o (by rw [hf, f3]) hi
              cases o with
              | none => exact fin _ (by rw [← hc]; simp [msum]) hr
              | some o => exact fin _ (by rw [← hc, msum_append]; rfl) hr
          · rw [if_neg f3] at hr
            refine fin _ ?_ hr
            rw [h0 t (by simp) f hf f1 f2 f3]
            simp

theorem onePiece_measure {rough : Simplex 4 → Py Bool} {flag : Simplex 4 → Simplex 4 → Py Nat}
    {inter : Simplex 4 → Simplex 4 → Py (Option (Obj 4))} {obj2 : Obj 4} {s : Simplex 4}
    (hno : Package.ico.NoOverlap obj2)
    (hrough : rough s = .ok false → ∀ t ∈ obj2, volume (solid (Package.ico.perps s) ∩ solid (Package.ico.perps t)) = 0)
    (h1 : ∀ t ∈ obj2, flag s t = .ok 1 → solid (Package.ico.perps s) ⊆ solid (Package.ico.perps t))
    (h2 : ∀ t ∈ obj2, flag s t = .ok 2 → solid (Package.ico.perps t) ⊆ solid (Package.ico.perps s))
    (h0 : ∀ t ∈ obj2, ∀ f, flag s t = .ok f → f ≠ 1 → f ≠ 2 → f ≠ 3 →
      volume (solid (Package.ico.perps s) ∩ solid (Package.ico.perps t)) = 0)
    (h3 : ∀ t ∈ obj2, ∀ r, flag s t = .ok 3 → inter s t = .ok r →
      msum (r.getD []) = volume (solid (Package.ico.perps s) ∩ solid (Package.ico.perps t)))
    {p : Obj 4} (hp : onePiece .standard rough flag inter obj2 s = .ok p) :
    msum p = volume (solid (Package.ico.perps s) ∩ Package.ico.region obj2) := by
  unfold onePiece at hp
  cases hro : rough s with
  | error e => rw [hro, bind_error'] at hp; cases hp
  | ok b =>
    rw [hro, bind_ok'] at hp
    cases b with
    | false =>
      cases hp
      have : volume (solid (Package.ico.perps s) ∩ Package.ico.region obj2) = 0 := by
        rw [inter_region_null]
        intro t ht
        exact hrough hro t ht
      rw [this]; rfl
    | true =>
      rw [if_pos rfl] at hp
      cases hl : innerLoop flag inter s [] obj2 with
      | error e => rw [hl, bind_error'] at hp; cases hp
      | ok r =>
        obtain ⟨inside, tmp⟩ := r
        rw [hl, bind_ok'] at hp
        have hm := innerLoop_measure obj2 h1 h2 h0 h3 [] _ hl
        have hp' : p = (if inside then [s] else []) ++ tmp := by
          by_cases hn : tmp.length ≠ 0
          · simp only [if_pos hn] at hp; cases hp; rfl
          · simp only [if_neg hn] at hp
            cases hp
            rw [List.length_eq_zero_iff.1 (not_not.1 hn), List.append_nil]
        rw [hp', msum_append]
        cases inside with
        | false =>
          simp only [Bool.false_eq_true, if_false] at hm ⊢
          rw [hm, inter_region_sum (solid_measurable _) hno]
          simp [msum]
        | true =>
          simp only [if_true] at hm ⊢
          obtain ⟨l1, t, l2, e, hsub, hm⟩ := hm
          have hz : (l1.map fun t => volume (solid (Package.ico.perps s) ∩ solid (Package.ico.perps t))).sum = 0 := by
            rw [List.sum_eq_zero]
            intro x hx
            obtain ⟨u, hu, rfl⟩ := List.mem_map.1 hx
            unfold Package.NoOverlap at hno
            rw [e, List.pairwise_append] at hno
            have := hno.2.2 u hu t (by simp)
            rw [no_common_iff] at this
            refine measure_mono_null ?_ this
            rintro x ⟨hx, hx'⟩
            exact ⟨hx', hsub hx⟩
          rw [hm, hz, Set.inter_eq_self_of_subset_left]
          · simp [msum]
          · intro x hx
            exact ⟨t, by rw [e]; simp, hsub hx⟩

theorem intersectionTwoObj_measure {rough : Simplex 4 → Py Bool} {flag : Simplex 4 → Simplex 4 → Py Nat}
    {inter : Simplex 4 → Simplex 4 → Py (Option (Obj 4))} {obj1 obj2 : Obj 4}
    (hno1 : Package.ico.NoOverlap obj1) (hno : Package.ico.NoOverlap obj2)
    (hrough : ∀ s ∈ obj1, rough s = .ok false → ∀ t ∈ obj2, volume (solid (Package.ico.perps s) ∩ solid (Package.ico.perps t)) = 0)
    (h1 : ∀ s ∈ obj1, ∀ t ∈ obj2, flag s t = .ok 1 → solid (Package.ico.perps s) ⊆ solid (Package.ico.perps t))
    (h2 : ∀ s ∈ obj1, ∀ t ∈ obj2, flag s t = .ok 2 → solid (Package.ico.perps t) ⊆ solid (Package.ico.perps s))
    (h0 : ∀ s ∈ obj1, ∀ t ∈ obj2, ∀ f, flag s t = .ok f → f ≠ 1 → f ≠ 2 → f ≠ 3 →
      volume (solid (Package.ico.perps s) ∩ solid (Package.ico.perps t)) = 0)
    (h3 : ∀ s ∈ obj1, ∀ t ∈ obj2, ∀ r, flag s t = .ok 3 → inter s t = .ok r →
      msum (r.getD []) = volume (solid (Package.ico.perps s) ∩ solid (Package.ico.perps t)))
    {r : Option (Obj 4)} (hr : intersectionTwoObj .standard rough flag inter obj1 obj2 = .ok r) :
    msum (r.getD []) = volume (Package.ico.region obj1 ∩ Package.ico.region obj2) := by
  unfold intersectionTwoObj at hr
  cases hf : fillList (onePiece .standard rough flag inter obj2) obj1 with
  | error e => rw [hf, bind_error'] at hr; cases hr
  | ok parts =>
    rw [hf, bind_ok'] at hr
    have hres : r.getD [] = parts.flatten := by
      by_cases hn : parts.flatten.length ≠ 0
      · rw [if_pos hn] at hr; cases hr; rfl
      · rw [if_neg hn] at hr
        cases hr
        have : parts.flatten = [] := List.length_eq_zero_iff.1 (not_not.1 hn)
        rw [this]; rfl
    rw [hres, Set.inter_comm, inter_region_sum (region_measurable obj2) hno1]
    have hx := fillList_eq_ok hf
    clear hf hr hres hno1
    induction hx with
    | nil => simp [msum]
    | @cons s p obj1 parts hx hrest ih =>
      rw [List.flatten_cons, msum_append, List.map_cons, List.sum_cons,
        ih (fun s hs => hrough s (by simp [hs])) (fun s hs => h1 s (by simp [hs])) (fun s hs => h2 s (by simp [hs]))
        (fun s hs => h0 s (by simp [hs])) (fun s hs => h3 s (by simp [hs])),
        onePiece_measure hno (hrough s (by simp)) (h1 s (by simp)) (h2 s (by simp)) (h0 s (by simp)) (h3 s (by simp)) hx,
        Set.inter_comm]

theorem inter_two_msum {draws : (n : Nat) → Draws n} {delaunay : Delaunay} (hD : FillsHull delaunay) {s t : Simplex 4}
    (hs : Simplex.Ok s) (ht : Simplex.Ok t) (h : Resolved (Package.ico.perps s) (Package.ico.perps t)) {r : Option (Obj 4)}
    (hr : intersectionTwoTetrahedra draws delaunay s t = .ok r) (hno : Package.ico.NoOverlap (r.getD [])) :
    msum (r.getD []) = volume (solid (Package.ico.perps s) ∩ solid (Package.ico.perps t)) := by
  obtain ⟨hsub, hz⟩ := C58_two_outcome draws delaunay hD s t hs ht h r hr
  rw [← (region_eq_msum _).2 hno]
  refine le_antisymm (measure_mono hsub) ?_
  exact (measure_le_inter_add_sdiff _ _ _).trans (by rw [hz, add_zero]; exact measure_mono Set.inter_subset_right)

/-- The corner numbers of kept simplices are in range. -/
theorem keepSimplices_range {pts : List (Vec 6)} {l : List (Fin 4 → Nat)} {r : Obj 4}
    (hr : keepSimplices pts l = .ok r) : ∀ i ∈ l, ∀ k, i k < pts.length := by
  induction l generalizing r with
  | nil => simp
  | cons i l ih =>
    unfold keepSimplices at hr
    cases hpick : pickSimplex pts i with
    | error e => rw [hpick, bind_error'] at hr; cases hr
    | ok t =>
      rw [hpick, bind_ok'] at hr
      cases hv : tetrahedronVolume6d t with
      | error e => rw [hv, bind_error'] at hr; cases hr
      | ok v =>
        rw [hv, bind_ok'] at hr
        cases hrest : keepSimplices pts l with
        | error e => rw [hrest, bind_error'] at hr; cases hr
        | ok r' =>
          intro j hj
          rcases List.mem_cons.1 hj with rfl | hj
          · intro k
            exact (List.getElem?_eq_some_iff.1 (pickSimplex_eq_ok.1 hpick k)).1
          · exact ih hrest j hj

/-- Pieces proposed by a library that tiles do not overlap. -/
theorem tetrahedralization_apart {delaunay : Delaunay} {pts : List (Vec 6)}
    (hD : ∀ l, delaunay (pts.map Package.ico.perp) = some l → ∀ h : ∀ i ∈ l, ∀ k, i k < (pts.map Package.ico.perp).length,
      (l.attach.map fun i k => (pts.map Package.ico.perp)[i.1 k]'(h i.1 i.2 k)).Pairwise fun a b =>
        interior (solid a) ∩ interior (solid b) = ∅)
    (hp : ∀ v ∈ pts, Vec.Ok v) {o : Obj 4} (ho : tetrahedralizationPoints delaunay pts = .ok (some o)) :
    Package.ico.NoOverlap o := by
  unfold tetrahedralizationPoints at ho
  match pts, hp, hD with
  | [], _, _ => cases ho
  | v :: vs, hp, hD =>
    simp only at ho
    rw [fillList_ok (g := Package.ico.perp) (fun v hv => by
        rw [show Ico.projection3 v = Package.ico.projection3 v from rfl, Package.ico.projection3_ok (hp v hv), bind_ok']
        exact congrArg Except.ok Package.ico.val_projection3), bind_ok'] at ho
    cases hd : delaunay ((v :: vs).map Package.ico.perp) with
    | none => rw [hd] at ho; cases ho
    | some l =>
      rw [hd] at ho
      simp only at ho
      cases hk : keepSimplices (v :: vs) l with
      | error e => rw [hk, bind_error'] at ho; cases ho
      | ok r' =>
        rw [hk, bind_ok'] at ho
        by_cases h0 : r'.length ≠ 0
        · rw [if_pos h0] at ho
          cases ho
          have hrange := keepSimplices_range hk
          obtain ⟨r'', hr'', -, hsub, -⟩ := keepSimplices_ok hp l hrange
          rw [hk] at hr''
          cases hr''
          have hpw := hD l hd (fun i hi k => by simpa using hrange i hi k)
          unfold Package.NoOverlap
          refine List.Pairwise.sublist hsub ?_
          unfold proposed
          rw [List.pairwise_map] at hpw ⊢
          refine hpw.imp ?_
          intro a b hab
          simp only [List.getElem_map] at hab
          exact hab
        · rw [if_neg h0] at ho; cases ho

theorem tetrahedralization_noOverlap {delaunay : Delaunay} (hD : TilesHull delaunay) {pts : List (Vec 6)}
    (hp : ∀ v ∈ pts, Vec.Ok v) {o : Obj 4} (ho : tetrahedralizationPoints delaunay pts = .ok (some o)) :
    Package.ico.NoOverlap o :=
  tetrahedralization_apart (hD.2 _) hp ho

theorem intersectionTwo_noOverlap {draws : (n : Nat) → Draws n} {delaunay : Delaunay} (hD : TilesHull delaunay)
    {s t : Simplex 4} (hs : Simplex.Ok s) (ht : Simplex.Ok t) {o : Obj 4}
    (h : intersectionTwoTetrahedra draws delaunay s t = .ok (some o)) : Package.ico.NoOverlap o := by
  rw [intersectionTwo_eq hs ht] at h
  have hp : ∀ v ∈ commonPts s t, Vec.Ok v := fun v hv => (commonPts_near hs ht hv).1
  generalize commonPts s t = pts at h hp
  unfold tetrahedralizeCommon at h
  by_cases h4 : pts.length ≥ 4
  · rw [if_pos h4] at h
    obtain ⟨r, hr, hsub, -⟩ := C24_one_per_point .ico pts hp
    rw [hr, bind_ok'] at h
    by_cases hr4 : r.length ≥ 4
    · rw [if_pos hr4] at h
      by_cases hc : coplanarCheck draws r = some true
      · rw [if_pos hc] at h; cases h
      · rw [if_neg hc] at h
        have hfin : ∀ {x : Option (Obj 4)}, (match x with
            | none => .error .attributeError
            | some o => do
              let _ ← objVolume6d (.d4 o)
              .ok (some o) : Py (Option (Obj 4))) = .ok (some o) → x = some o := by
          intro x hx
          cases x with
          | none => cases hx
          | some o' =>
            simp only at hx
            cases hv : objVolume6d (.d4 o') with
            | error e => rw [hv, bind_error'] at hx; cases hx
            | ok v => rw [hv, bind_ok'] at hx; cases hx; rfl
        simp only at h
        by_cases hl : r.length = 4
        · rw [if_pos hl] at h
          unfold reshape4 at h
          rw [dif_pos hl, bind_ok', bind_ok'] at h
          cases hfin (x := some _) h
          exact List.pairwise_singleton _ _
        · rw [if_neg hl] at h
          cases ho : tetrahedralizationPoints delaunay r with
          | error e => rw [ho, bind_error'] at h; cases h
          | ok o' =>
            rw [ho, bind_ok'] at h
            have := hfin (x := o') h
            subst this
            exact tetrahedralization_noOverlap hD (fun v hv => hp v (hsub v hv)) ho
    · rw [if_neg hr4] at h; cases h
  · rw [if_neg h4] at h; cases h

/-- Every piece of a result is valid. -/
theorem intersectionApi_ok {kind : Kind} {draws : Simplex 4 → Simplex 4 → (n : Nat) → Draws n}
    {delaunay : Simplex 4 → Simplex 4 → Delaunay} {obj1 obj2 : Obj 4} (ok1 : Obj.Ok obj1) (ok2 : Obj.Ok obj2) {r : Obj 4}
    (hr : intersectionApi kind draws delaunay (.d4 obj1) (.d4 obj2) = .ok (some r)) : Obj.Ok r := by
  change intersectionTwoObj1 kind draws delaunay obj1 obj2 = _ at hr
  unfold intersectionTwoObj1 at hr
  cases hc : centroidObj arith obj2 with
  | error e => rw [hc, bind_error'] at hr; cases hr
  | ok c =>
    rw [hc, bind_ok'] at hr
    cases hb : ballRadiusObj .ico obj2 c with
    | error e => rw [hb, bind_error'] at hr; cases hr
    | ok d =>
      rw [hb, bind_ok'] at hr
      obtain ⟨-, h2⟩ := intersectionTwoObj_mem (Q := fun _ a => Simplex.Ok a) (fun s hs _ _ _ => ok1 s hs)
        (fun s _ t ht _ => ok2 t ht) (fun s hs t ht o _ hi a ha => (intersectionTwo_ok (ok1 s hs) (ok2 t ht) hi).2 a ha) hr
      intro a ha
      obtain ⟨s, hs, h | ⟨-, rfl⟩⟩ := h2 a ha
      · exact h
      · exact ok1 a hs

/-- C63 for two tetrahedra: for a resolved pair the exact volume of the returned pieces is at least the Lebesgue measure
of the common part, and equal to it exactly when the tetrahedralisation returns pieces that do not overlap. -/
theorem C63_two (draws : (n : Nat) → Draws n) (delaunay : Delaunay) (hD : FillsHull delaunay) (s t : Simplex 4)
    (hs : Simplex.Ok s) (ht : Simplex.Ok t) (h : Resolved (Package.ico.perps s) (Package.ico.perps t)) (o : Obj 4)
    (hr : intersectionTwoTetrahedra draws delaunay s t = .ok (some o)) :
    ∃ w, objVolume6d (.d4 o) = .ok (some w) ∧
      volume (solid (Package.ico.perps s) ∩ solid (Package.ico.perps t)) ≤ ENNReal.ofReal (w.val tau) ∧
      (volume (solid (Package.ico.perps s) ∩ solid (Package.ico.perps t)) = ENNReal.ofReal (w.val tau) ↔
        Package.ico.NoOverlap o) := by
  obtain ⟨hsub, hz⟩ := C58_two_outcome draws delaunay hD s t hs ht h _ hr
  obtain ⟨w, hw, hle, heq⟩ := C62_object o (intersectionTwo_ok hs ht hr).2
  have e : volume (Package.ico.region o) = volume (solid (Package.ico.perps s) ∩ solid (Package.ico.perps t)) := by
    refine le_antisymm (measure_mono hsub) ?_
    exact (measure_le_inter_add_sdiff _ _ _).trans (by rw [hz, add_zero]; exact measure_mono Set.inter_subset_right)
  exact ⟨w, hw, e ▸ hle, e ▸ heq⟩

theorem standard_msum {draws : Simplex 4 → Simplex 4 → (n : Nat) → Draws n}
    {delaunay : Simplex 4 → Simplex 4 → Delaunay} {obj1 obj2 : Obj 4}
    (hD : ∀ s ∈ obj1, ∀ t ∈ obj2, TilesHull (delaunay s t)) (ok1 : Obj.Ok obj1) (ok2 : Obj.Ok obj2)
    (no1 : Package.ico.NoOverlap obj1) (no2 : Package.ico.NoOverlap obj2)
    (h : ∀ s ∈ obj1, ∀ t ∈ obj2, Resolved (Package.ico.perps s) (Package.ico.perps t)) {r : Option (Obj 4)}
    (hr : intersectionTwoObj1 .standard draws delaunay obj1 obj2 = .ok r) :
    msum (r.getD []) = volume (Package.ico.region obj1 ∩ Package.ico.region obj2) := by
  by_cases h0 : obj2 = []
  · subst h0
    rw [region_nil, Set.inter_empty, measure_empty]
    obtain ⟨o, rfl⟩ | rfl : (∃ o, r = some o) ∨ r = none := by cases r <;> simp
    · have := C38_objects draws delaunay obj1 [] ok1 ok2 o hr
      obtain ⟨hne, hall⟩ := this
      obtain ⟨a, ha⟩ := List.exists_mem_of_ne_nil o hne
      obtain ⟨-, -, t, ht, -⟩ := hall a ha
      simp at ht
    · rfl
  · obtain ⟨c, d, -, hc, hd, e⟩ := intersectionTwoObj1_eq .standard draws delaunay (obj1 := obj1) ok2 h0
    rw [e] at hr
    refine intersectionTwoObj_measure no1 no2 ?_ ?_ ?_ ?_ ?_ hr
    · intro s hs hro t ht
      refine measure_mono_null (t := ∅) ?_ measure_empty
      rintro x ⟨hx, hx'⟩
      have := C35_object .ico (by decide) s obj2 (ok1 s hs) ok2 t ht x hx hx'
      rw [show Package.ico.arith = arith from rfl, hc, bind_ok', hd, bind_ok', hro] at this
      cases this
    · intro s hs t ht hf
      exact (C58_codes s t (h s hs t ht)).1.1 (Except.ok.inj hf)
    · intro s hs t ht hf
      exact ((C58_codes s t (h s hs t ht)).2.1.1 (Except.ok.inj hf)).2
    · intro s hs t ht f hf f1 f2 f3
      have hf := Except.ok.inj hf
      obtain ⟨c1, c2, c3, c0⟩ := C58_codes s t (h s hs t ht)
      refine (congrArg volume (c0.1 ?_)).trans measure_empty
      have : checkTwoTetrahedra s t = 0 ∨ checkTwoTetrahedra s t = 1 ∨ checkTwoTetrahedra s t = 2 ∨
          checkTwoTetrahedra s t = 3 := by
        unfold checkTwoTetrahedra
        split
        · simp
        · split
          · simp
          · split <;> simp
      omega
    · intro s hs t ht r' _ hr'
      refine inter_two_msum (hD s hs t ht).1 (ok1 s hs) (ok2 t ht) (h s hs t ht) hr' ?_
      cases r' with
      | none => exact List.Pairwise.nil
      | some o => exact intersectionTwo_noOverlap (hD s hs t ht) (ok1 s hs) (ok2 t ht) hr'

/-- C63 for objects, both kinds: when the pieces of each object do not overlap, every pair of pieces is resolved and
the tetrahedralisation library tiles convex hulls, then the exact volume of the returned object is the
Lebesgue measure of the common part of the two objects; nothing is returned only when that measure is zero. -/
theorem C63_objects (kind : Kind) (draws : Simplex 4 → Simplex 4 → (n : Nat) → Draws n)
    (delaunay : Simplex 4 → Simplex 4 → Delaunay) (obj1 obj2 : Obj 4)
    (hD : ∀ s ∈ obj1, ∀ t ∈ obj2, TilesHull (delaunay s t)) (ok1 : Obj.Ok obj1) (ok2 : Obj.Ok obj2)
    (no1 : Package.ico.NoOverlap obj1) (no2 : Package.ico.NoOverlap obj2)
    (h : ∀ s ∈ obj1, ∀ t ∈ obj2, Resolved (Package.ico.perps s) (Package.ico.perps t)) (r : Option (Obj 4))
    (hr : intersectionApi kind draws delaunay (.d4 obj1) (.d4 obj2) = .ok r) :
    (r = none → volume (Package.ico.region obj1 ∩ Package.ico.region obj2) = 0) ∧
    ∀ o, r = some o → ∃ w, objVolume6d (.d4 o) = .ok (some w) ∧
      volume (Package.ico.region obj1 ∩ Package.ico.region obj2) = ENNReal.ofReal (w.val tau) := by
  have key : ∀ a, intersectionTwoObj1 .standard draws delaunay obj1 obj2 = .ok (some a) → ∀ v,
      objVolume6d (.d4 a) = .ok (some v) →
      volume (Package.ico.region obj1 ∩ Package.ico.region obj2) = ENNReal.ofReal (v.val tau) := by
    intro a ha v hv
    have hm := standard_msum hD ok1 ok2 no1 no2 h ha
    obtain ⟨w, hw, -, hval⟩ := C17_volume a (intersectionApi_ok (kind := .standard) ok1 ok2 ha)
    rw [hv] at hw
    cases hw
    rw [hval, ← hm, ← msum_val]; rfl
  have hcases := C37_volume draws delaunay obj1 obj2 ok1 ok2
  simp only at hcases
  have hsplit : (kind = .standard ∧ intersectionApi .standard draws delaunay (.d4 obj1) (.d4 obj2) = .ok r) ∨
      (kind = .simple ∧ intersectionApi .simple draws delaunay (.d4 obj1) (.d4 obj2) = .ok r) := by
    cases kind
    · exact .inl ⟨rfl, hr⟩
    · exact .inr ⟨rfl, hr⟩
  rcases hcases with ⟨e, h1, h2⟩ | ⟨h1, h2⟩ | ⟨a, b, v, h1, h2, h3, h4⟩
  · rcases hsplit with ⟨-, hr⟩ | ⟨-, hr⟩
    · rw [h1] at hr; cases hr
    · rw [h2] at hr; cases hr
  · have hm := standard_msum hD ok1 ok2 no1 no2 h h1
    have hz : volume (Package.ico.region obj1 ∩ Package.ico.region obj2) = 0 := hm.symm
    have : r = none := by
      rcases hsplit with ⟨-, hr⟩ | ⟨-, hr⟩
      · rw [h1] at hr; cases hr; rfl
      · rw [h2] at hr; cases hr; rfl
    subst this
    exact ⟨fun _ => hz, by simp⟩
  · have hv := key a h1 v h3
    rcases hsplit with ⟨-, hr⟩ | ⟨-, hr⟩
    · rw [h1] at hr; cases hr
      exact ⟨by simp, fun o ho => by cases ho; exact ⟨v, h3, hv⟩⟩
    · rw [h2] at hr; cases hr
      exact ⟨by simp, fun o ho => by cases ho; exact ⟨v, h4, hv⟩⟩

/-- C63 for objects, both kinds: under the same hypotheses the returned pieces do not overlap, and they cover the
common part of the two objects and nothing else, up to sets of volume zero. -/
theorem C63_exact (kind : Kind) (draws : Simplex 4 → Simplex 4 → (n : Nat) → Draws n)
    (delaunay : Simplex 4 → Simplex 4 → Delaunay) (obj1 obj2 : Obj 4)
    (hD : ∀ s ∈ obj1, ∀ t ∈ obj2, TilesHull (delaunay s t)) (ok1 : Obj.Ok obj1) (ok2 : Obj.Ok obj2)
    (no1 : Package.ico.NoOverlap obj1) (no2 : Package.ico.NoOverlap obj2)
    (h : ∀ s ∈ obj1, ∀ t ∈ obj2, Resolved (Package.ico.perps s) (Package.ico.perps t)) (o : Obj 4)
    (hr : intersectionApi kind draws delaunay (.d4 obj1) (.d4 obj2) = .ok (some o)) :
    Package.ico.NoOverlap o ∧
    volume ((Package.ico.region obj1 ∩ Package.ico.region obj2) \ Package.ico.region o) = 0 ∧
    volume (Package.ico.region o \ (Package.ico.region obj1 ∩ Package.ico.region obj2)) = 0 := by
  set C := Package.ico.region obj1 ∩ Package.ico.region obj2 with hC
  have hz : volume (C \ Package.ico.region o) = 0 := C58_objects kind draws delaunay obj1 obj2 (fun s hs t ht => (hD s hs t ht).1) ok1 ok2 h _ hr
  obtain ⟨w, hw, hv⟩ := (C63_objects kind draws delaunay obj1 obj2 hD ok1 ok2 no1 no2 h _ hr).2 o rfl
  obtain ⟨w', hw', -, hval⟩ := C17_volume o (intersectionApi_ok ok1 ok2 hr)
  rw [hw] at hw'
  cases hw'
  rw [hval, ← msum_val, ← hC] at hv
  have hCm : MeasurableSet C := (region_measurable obj1).inter (region_measurable obj2)
  have h1 : volume C ≤ volume (C ∩ Package.ico.region o) := by
    exact (measure_le_inter_add_sdiff _ _ (Package.ico.region o)).trans (by rw [hz, add_zero])
  have h2 : volume (C ∩ Package.ico.region o) ≤ volume (Package.ico.region o) := measure_mono Set.inter_subset_right
  have h3 := region_le_msum o
  have e1 : volume (Package.ico.region o) = msum o := le_antisymm h3 (by rw [← hv]; exact h1.trans h2)
  refine ⟨(region_eq_msum o).1 e1, hz, ?_⟩
  have e2 : volume (Package.ico.region o ∩ C) = volume (Package.ico.region o) := by
    refine le_antisymm (measure_mono Set.inter_subset_left) ?_
    rw [e1, ← hv, Set.inter_comm]; exact h1
  have e3 := measure_inter_add_sdiff (μ := volume) (Package.ico.region o) hCm
  rw [e2] at e3
  have := (ENNReal.add_right_inj (region_finite o)).1 (e3.trans (add_zero _).symm)
  exact this

/-- C63 for two tetrahedra: with a library that tiles convex hulls the exact volume of the returned pieces is the
Lebesgue measure of the common part. -/
theorem C63_two_tiles (draws : (n : Nat) → Draws n) (delaunay : Delaunay) (hD : TilesHull delaunay) (s t : Simplex 4)
    (hs : Simplex.Ok s) (ht : Simplex.Ok t) (h : Resolved (Package.ico.perps s) (Package.ico.perps t)) (o : Obj 4)
    (hr : intersectionTwoTetrahedra draws delaunay s t = .ok (some o)) :
    Package.ico.NoOverlap o ∧ ∃ w, objVolume6d (.d4 o) = .ok (some w) ∧
      volume (solid (Package.ico.perps s) ∩ solid (Package.ico.perps t)) = ENNReal.ofReal (w.val tau) := by
  have hno := intersectionTwo_noOverlap hD hs ht hr
  obtain ⟨w, hw, -, he⟩ := C63_two draws delaunay hD.1 s t hs ht h o hr
  exact ⟨hno, w, hw, he.2 hno⟩

/-- C62: tetrahedralising points not in one plane, with a library that tiles convex hulls, gives an object whose exact
volume is the Lebesgue measure of the convex hull of the points. -/
theorem C62_hull (delaunay : Delaunay) (hD : TilesHull delaunay) (pts : List (Vec 6)) (hp : ∀ v ∈ pts, Vec.Ok v)
    (hn : ¬ InPlane (pts.map Package.ico.perp)) :
    ∃ o w, tetrahedralizationPoints delaunay pts = .ok (some o) ∧ objVolume6d (.d4 o) = .ok (some w) ∧
      Package.ico.region o = convexHull ℝ {x | ∃ v ∈ pts, Package.ico.perp v = x} ∧
      ENNReal.ofReal (w.val tau) = volume (convexHull ℝ {x | ∃ v ∈ pts, Package.ico.perp v = x}) := by
  obtain ⟨l, hl, hidx, hcov⟩ := hD.1 _ hn
  have hidx' : ∀ i ∈ l, ∀ k, i k < pts.length := fun i hi k => by simpa using hidx i hi k
  have h0 : pts ≠ [] := by rintro rfl; exact hn (inPlane_few (by simp))
  have hget : ∀ i (hi : i ∈ l), (fun k => (pts.map Package.ico.perp)[i k]'(hidx i hi k)) =
      Package.ico.perps (fun k => pts[i k]'(hidx' i hi k)) := by
    intro i hi
    funext k
    rw [List.getElem_map]
    rfl
  have hmm : ∀ i (hi : i ∈ l), (fun k => pts[i k]'(hidx' i hi k)) ∈
      l.attach.map fun i => fun k => pts[i.1 k]'(hidx' i.1 i.2 k) := by
    intro i hi
    rw [List.mem_map]
    exact ⟨⟨i, hi⟩, List.mem_attach _ _, rfl⟩
  rw [map_perp_set]
  rcases C50_tetrahedralization delaunay pts h0 hp l hl hidx' with ⟨o, ho, -, -, hmem, -⟩ | ⟨-, hz⟩
  · have hall : ∀ a ∈ o, ∀ k, a k ∈ pts := fun a ha => ((C50_sound delaunay pts hp o ho).2 a ha).1
    have hreg : Package.ico.region o = convexHull ℝ {x | x ∈ pts.map Package.ico.perp} := by
      refine Set.Subset.antisymm ?_ ?_
      · rw [← map_perp_set]; exact region_subset_hull hall
      · intro x hx
        obtain ⟨i, hi, hv, hx⟩ := hcov x hx
        rw [hget i hi] at hv hx
        exact ⟨_, (hmem _).2 ⟨hmm i hi, hv⟩, hx⟩
    obtain ⟨w, hw, -, he⟩ := C62_object o fun a ha k => hp _ (hall a ha k)
    refine ⟨o, w, ho, hw, hreg, ?_⟩
    rw [← hreg]
    exact (he.2 (tetrahedralization_noOverlap hD hp ho)).symm
  · exfalso
    obtain ⟨v, hv⟩ := List.exists_mem_of_ne_nil _ h0
    obtain ⟨i, hi, hv, -⟩ := hcov _ (subset_convexHull ℝ _ (List.mem_map_of_mem (f := Package.ico.perp) hv))
    rw [hget i hi] at hv
    exact hv (hz _ (hmm i hi))

/-! ## Cases that meet the hypotheses -/

/-- A tetrahedron of measure 1/6. -/
example : volume (solid (Package.ico.perps exCorner)) = ENNReal.ofReal (1 / 6) := by
  rw [volume_solid, tetVol_exCorner]

theorem exHalf_ok : Obj.Ok [exHalfA, exHalfB] := by
  intro t ht i
  simp only [List.mem_cons, List.not_mem_nil, or_false] at ht
  rcases ht with rfl | rfl <;> fin_cases i <;> exact cart_ok (by decide)

theorem exHalf_noOverlap : Package.ico.NoOverlap [exHalfA, exHalfB] := by
  refine List.pairwise_pair.2 ?_
  rw [Set.eq_empty_iff_forall_notMem]
  rintro x ⟨hA, hB⟩
  have dA : det4 (Package.ico.perps exHalfA) ≠ 0 := by rw [perps_exHalfA, det4_eq]; simp
  have dB : det4 (Package.ico.perps exHalfB) ≠ 0 := by rw [perps_exHalfB, det4_eq]; simp; norm_num
  have bA := (interior_bc dA).1 hA 0
  have bB := (interior_bc dB).1 hB 1
  rw [bc_eq dA (w := ![1 - 2 * x 0 - x 1 - x 2, 2 * x 0, x 1, x 2]) (by
    rw [isBary_four, perps_exHalfA]
    refine ⟨by simp; ring, fun j => ?_⟩
    fin_cases j <;> simp <;> ring)] at bA
  rw [bc_eq dB (w := ![2 - 2 * x 0 - 2 * x 1 - 2 * x 2, 2 * x 0 + x 1 + x 2 - 1, x 1, x 2]) (by
    rw [isBary_four, perps_exHalfB]
    refine ⟨by simp; ring, fun j => ?_⟩
    fin_cases j <;> simp <;> ring)] at bB
  simp at bA bB
  linarith

theorem exHalf_resolved : ∀ s ∈ [exCorner], ∀ t ∈ [exHalfA, exHalfB], Resolved (Package.ico.perps s) (Package.ico.perps t) := by
  intro s hs t ht
  rw [List.mem_singleton] at hs
  subst hs
  simp only [List.mem_cons, List.not_mem_nil, or_false] at ht
  rcases ht with rfl | rfl
  · refine C58_grid exCorner exHalfA ![![0, 0, 0], ![2, 0, 0], ![0, 2, 0], ![0, 0, 2]]
      ![![0, 0, 0], ![1, 0, 0], ![0, 2, 0], ![0, 0, 2]] 2 8 (by norm_num) (by norm_num) ?_ ?_ (by decide) (by decide)
      (by decide) (by decide) (by norm_num) (by norm_num) (by decide +kernel)
    · rw [perps_exCorner]; intro i j; fin_cases i <;> fin_cases j <;> simp
    · rw [perps_exHalfA]; intro i j; fin_cases i <;> fin_cases j <;> simp
  · refine C58_grid exCorner exHalfB ![![0, 0, 0], ![2, 0, 0], ![0, 2, 0], ![0, 0, 2]]
      ![![1, 0, 0], ![2, 0, 0], ![0, 2, 0], ![0, 0, 2]] 2 8 (by norm_num) (by norm_num) ?_ ?_ (by decide) (by decide)
      (by decide) (by decide) (by norm_num) (by norm_num) (by decide +kernel)
    · rw [perps_exCorner]; intro i j; fin_cases i <;> fin_cases j <;> simp
    · rw [perps_exHalfB]; intro i j; fin_cases i <;> fin_cases j <;> simp

/-- The hypotheses of `C63_objects` and `C63_exact` are met by a tetrahedron and its two halves, for which the two kinds
return different objects; the measure of the common part is 1/6. -/
example : ∃ delaunay : Simplex 4 → Simplex 4 → Delaunay, (∀ s t, TilesHull (delaunay s t)) ∧
    Package.ico.NoOverlap [exCorner] ∧ Package.ico.NoOverlap [exHalfA, exHalfB] ∧
    (∀ s ∈ [exCorner], ∀ t ∈ [exHalfA, exHalfB], Resolved (Package.ico.perps s) (Package.ico.perps t)) ∧
    (∀ draws, intersectionApi .standard draws delaunay (.d4 [exCorner]) (.d4 [exHalfA, exHalfB]) =
        .ok (some [exHalfA, exHalfB]) ∧
      intersectionApi .simple draws delaunay (.d4 [exCorner]) (.d4 [exHalfA, exHalfB]) = .ok (some [exCorner])) ∧
    volume (Package.ico.region [exCorner] ∩ Package.ico.region [exHalfA, exHalfB]) = ENNReal.ofReal (1 / 6) := by
  obtain ⟨delaunay, hD⟩ := exists_tiles
  refine ⟨fun _ _ => delaunay, fun _ _ => hD, List.pairwise_singleton _ _, exHalf_noOverlap, exHalf_resolved,
    fun draws => exHalf_result draws _, ?_⟩
  have ok1 : Obj.Ok [exCorner] := by
    intro t ht; rw [List.mem_singleton.1 ht]; intro i; fin_cases i <;> exact cart_ok (by decide)
  obtain ⟨w, hw, hv⟩ := (C63_objects .standard (fun _ _ _ => []) (fun _ _ => delaunay) [exCorner] [exHalfA, exHalfB]
    (fun _ _ _ _ => hD) ok1 exHalf_ok (List.pairwise_singleton _ _) exHalf_noOverlap exHalf_resolved _
    (exHalf_result _ _).1).2 _ rfl
  rw [show objVolume6d (.d4 [exHalfA, exHalfB]) = .ok (some ⟨1, 0, 6⟩) by decide +kernel] at hw
  cases hw
  rw [hv]
  congr 1
  simp [Num3.val]

/-- The hypotheses of `C63_two` and `C63_two_tiles` are met by two tetrahedra that cross. -/
example : ∃ delaunay, TilesHull delaunay ∧ ∀ draws, ∃ o, intersectionTwoTetrahedra draws delaunay exBig exInv = .ok (some o) ∧
    Package.ico.NoOverlap o := by
  obtain ⟨delaunay, hD⟩ := exists_tiles
  refine ⟨delaunay, hD, fun draws => ?_⟩
  obtain ⟨o, ho, -⟩ := C58_two draws delaunay hD.1 _ _ exBig_ok exInv_ok exBigInv_resolved exBigInv_solid
  exact ⟨o, ho, intersectionTwo_noOverlap hD exBig_ok exInv_ok ho⟩

/-- Overlapping pieces are counted twice: `C62_object` is strict there. -/
example : ¬ Package.ico.NoOverlap [exCorner, exCorner] ∧ objVolume6d (.d4 [exCorner, exCorner]) = .ok (some ⟨1, 0, 3⟩) := by
  refine ⟨fun h => ?_, by decide +kernel⟩
  have h := List.pairwise_pair.1 h
  rw [Set.inter_self] at h
  have d : det4 (Package.ico.perps exCorner) ≠ 0 := by rw [perps_exCorner, det4_eq]; simp
  have : ∑ i, (1 / 4 : ℝ) • Package.ico.perps exCorner i ∈ interior (solid (Package.ico.perps exCorner)) := by
    rw [interior_bc d, bc_eq d (w := fun _ => 1 / 4) ⟨by simp, rfl⟩]
    intro i; norm_num
  rw [h] at this
  exact this

end PyQC
