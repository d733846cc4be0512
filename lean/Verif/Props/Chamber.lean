import Verif.Model.Unit
import Verif.Lemmas.Fundamental
import Verif.Props.PlanarHull
/-!
# C72: asymmetric units
-/
namespace PyQC
open Matrix MeasureTheory

/-! ## C72: the fundamental cone -/

/-- C72: one of the operations moves a given vector into the fundamental cone at the centre. -/
theorem C72_covers (p : Package) (v c : Vec 6) (hv : Vec.Ok v) (hc : Vec.Ok c) :
    ∃ op ∈ p.symops, ∃ w, symopVec p op v c = .ok w ∧ p.perp w - p.perp c ∈ p.chamber := by
  obtain ⟨w, hw⟩ := exists_interior p
  obtain ⟨op, hop, h⟩ := exists_positive (wall_mirror p) hw (p.perp v - p.perp c)
  refine ⟨op, hop, _, symopVec_ok op hv hc, ?_⟩
  rw [chamber_iff, perp_symV' hop, add_sub_cancel_right]
  exact h

theorem interior_chamber {p : Package} {x : Fin 3 → ℝ} (h : x ∈ interior p.chamber) (i : Fin 3) : 0 < p.wall i ⬝ᵥ x := by
  have := form_pos ((fund3 p).nz i) (d := 0) (A := p.chamber) (fun y hy => by rw [add_zero]; exact (chamber_iff p y).mp hy i) h
  rwa [add_zero] at this

/-- C72: if an operation moves a vector into the interior of the cone, no other one moves it into the cone. -/
theorem C72_unique (p : Package) (v c : Vec 6) (hv : Vec.Ok v) (hc : Vec.Ok c) (g h : IMat 6 6) (hg : g ∈ p.symops)
    (hh : h ∈ p.symops) (a b : Vec 6) (ha : symopVec p g v c = .ok a) (hb : symopVec p h v c = .ok b)
    (hin : p.perp a - p.perp c ∈ interior p.chamber) (hb' : p.perp b - p.perp c ∈ p.chamber) : g = h := by
  rw [symopVec_ok g hv hc] at ha
  rw [symopVec_ok h hv hc] at hb
  cases ha
  cases hb
  rw [perp_symV' hg, add_sub_cancel_right] at hin
  rw [perp_symV' hh, add_sub_cancel_right, chamber_iff] at hb'
  obtain ⟨g', hg', g1, g2⟩ := symops_inv hg
  obtain ⟨h', hh', h1, h2⟩ := symops_inv hh
  by_contra hne
  refine (fund3 p).sep g' (List.mem_toFinset.mpr hg') h' (List.mem_toFinset.mpr hh') ?_ (p.perp v - p.perp c) ?_ ?_
  · rintro rfl
    apply hne
    have := congrArg (fun z => npDot z h) g1
    simp only [npDot_assoc, h2, npDot_one, one_npDot] at this
    exact this
  · intro i
    rw [← rot_inv hg' hg g1]
    exact interior_chamber hin i
  · intro i
    rw [← rot_inv hh' hh h1]
    exact hb' i

/-- Every corner of every piece of the object is moved into the cone at the centre by one and the same operation. -/
def InUnit (p : Package) {m : Nat} (o : Obj m) (c : Vec 6) : Prop :=
  ∃ op ∈ p.symops, ∀ s ∈ o, ∀ i, ∃ w, symopVec p op (s i) c = .ok w ∧ p.perp w - p.perp c ∈ p.chamber

theorem InUnit.cone {p : Package} {m : Nat} {o : Obj m} {c : Vec 6} (ho : Obj.Ok o) (hc : Vec.Ok c) (h : InUnit p o c) :
    ∃ op ∈ p.symops, ∀ s ∈ o.map (symS p op c), ∀ i, p.perps s i ∈ coneAt p.wall (p.perp c) := by
  obtain ⟨op, hop, h⟩ := h
  refine ⟨op, hop, fun s hs i => ?_⟩
  obtain ⟨t, ht, rfl⟩ := List.mem_map.mp hs
  obtain ⟨w, hw, hin⟩ := h t ht i
  rw [symopVec_ok op (ho t ht i) hc] at hw
  cases hw
  exact (cone_iff p _ _).mpr hin

theorem unit_noOverlap {p : Package} {m : Nat} {o : Obj m} {c : Vec 6} (ho : Obj.Ok o) (hc : Vec.Ok c) (h : InUnit p o c)
    (hno : p.NoOverlap o) : p.NoOverlap (orbit p o c) := by
  obtain ⟨op, hop, h⟩ := h.cone ho hc
  have hno' : p.NoOverlap (o.map (symS p op c)) := by
    refine List.pairwise_map.mpr (List.Pairwise.imp ?_ hno)
    intro a b hab
    rw [solid_symS hop, solid_symS hop]
    exact (fund3 p).together (List.mem_toFinset.mpr hop) _ hab
  exact (orbit_unit o c hop).pairwise (orbit_noOverlap hno' h) (fun {a b} h => by rwa [Set.inter_comm] at h)

theorem symmetricApi_orbit {p : Package} {m : Nat} {o : Obj m} {c : Vec 6} (ho : Obj.Ok o) (hc : Vec.Ok c) :
    symmetricApi p (.d4 o) c = .ok (some (.d4 (orbit p o c))) := by
  simp only [symmetricApi, symmetricObj_ok ho hc, bind_ok']
  rfl

/-- C72: the copies of a well-formed asymmetric unit do not overlap, so that the symmetric object is well-formed, its
exact volume is the measure of the region it covers, and that is 120 times the measure of the unit (ico2). -/
theorem C72_symmetric (o : Obj 4) (c : Vec 6) (ho : Obj.Ok o) (hc : Vec.Ok c) (hno : Package.ico.NoOverlap o)
    (hin : InUnit .ico o c) :
    ∃ r : Obj 4, ∃ w, symmetricApi .ico (.d4 o) c = .ok (some (.d4 r)) ∧ Package.ico.NoOverlap r ∧
      Ico.objVolume6d (.d4 r) = .ok (some w) ∧ volume (Package.ico.region r) = ENNReal.ofReal (w.val tau) ∧
      volume (Package.ico.region r) = 120 * volume (Package.ico.region o) := by
  obtain ⟨r, w, w', hr, hw, hw', e, -⟩ := C21_volume o c ho hc
  have := symmetricApi_orbit (p := .ico) ho hc
  rw [hr] at this
  cases this
  have hn := unit_noOverlap ho hc hin hno
  obtain ⟨v, hv, -, h1⟩ := C62_object _ (orbit_ok (p := .ico) o c)
  obtain ⟨u, hu, -, h2⟩ := C62_object o ho
  rw [hw'] at hv
  cases hv
  rw [hw] at hu
  cases hu
  refine ⟨_, w', hr, hn, hw', h1.mpr hn, ?_⟩
  rw [h1.mpr hn, h2.mpr hno, e, ENNReal.ofReal_mul (by norm_num)]
  norm_num

theorem unit_noOverlap2 {z : ℝ} {o : Obj 3} {c : Vec 6} (ho : Obj.Ok o) (hc : Vec.Ok c) (h : InUnit .dode o c)
    (hno : NoOverlap2 z o) : NoOverlap2 z (orbit .dode o c) := by
  obtain ⟨op, hop, h⟩ := h.cone ho hc
  have hno' : NoOverlap2 z (o.map (symS .dode op c)) := by
    refine List.pairwise_map.mpr (List.Pairwise.imp ?_ hno)
    intro a b hab
    rw [solid_symS hop, solid_symS hop, slice_spin hop, slice_spin hop]
    exact fund2.together (List.mem_toFinset.mpr hop) _ hab
  exact (orbit_unit o c hop).pairwise (orbit_noOverlap2 hno' h) (fun {a b} h => by rwa [Set.inter_comm] at h)

theorem orbit_level {z : ℝ} {o : Obj 3} {c : Vec 6} (h : Level z o) : Level z (orbit .dode o c) := by
  intro t ht i
  obtain ⟨op, hop, h'⟩ := List.mem_flatMap.mp ht
  obtain ⟨s, hs, rfl⟩ := List.mem_map.mp h'
  exact (symV_level hop c (s i)).trans (h s hs i)

/-- C72: the same for level triangles and the 24 operations (dode2). -/
theorem C72_symmetric_planar (o : Obj 3) (c : Vec 6) (z : ℝ) (ho : Obj.Ok o) (hc : Vec.Ok c) (hz : Level z o)
    (hno : NoOverlap2 z o) (hin : InUnit .dode o c) :
    ∃ r : Obj 3, ∃ w, symmetricApi .dode (.d4 o) c = .ok (some (.d4 r)) ∧ Level z r ∧ NoOverlap2 z r ∧
      Dode.objArea6d (.d4 r) = .ok (some w) ∧ volume (slice z (Package.dode.region r)) = ENNReal.ofReal (w.val sin60) ∧
      volume (slice z (Package.dode.region r)) = 24 * volume (slice z (Package.dode.region o)) := by
  have hl := orbit_level (c := c) hz
  have hn := unit_noOverlap2 ho hc hin hno
  obtain ⟨v, hv, -, h1⟩ := C69_object _ (orbit_ok (p := .dode) o c) z hl
  obtain ⟨u, hu, -, h2⟩ := C69_object o ho z hz
  obtain ⟨r, w, w', hr, hw, hw', e⟩ := C42_area o c ho hc
  have := symmetricApi_orbit (p := .dode) ho hc
  rw [hr] at this
  cases this
  rw [hw'] at hv
  cases hv
  rw [hw] at hu
  cases hu
  refine ⟨_, _, hr, hl, hn, hw', h1.mpr hn, ?_⟩
  rw [h1.mpr hn, h2.mpr hno, e, ENNReal.ofReal_mul (by norm_num)]
  norm_num

/-- The operations about the centre do not lead out of the region covered by the object. -/
def HasSymmetry (p : Package) {m : Nat} (q : Obj m) (c : Vec 6) : Prop :=
  ∀ op ∈ p.symops, ∃ q' : Obj m, symopObj p op q c = .ok q' ∧ p.region q' ⊆ p.region q

theorem HasSymmetry.spin {p : Package} {m : Nat} {q : Obj m} {c : Vec 6} (hq : Obj.Ok q) (hc : Vec.Ok c)
    (h : HasSymmetry p q c) : ∀ op ∈ p.symops.toFinset, PyQC.spin (p.rot op) (p.perp c) '' p.region q ⊆ p.region q := by
  intro op hop
  rw [List.mem_toFinset] at hop
  obtain ⟨q', h1, h2⟩ := h op hop
  rw [symopObj_ok op hq hc] at h1
  cases h1
  rwa [region_map hop] at h2

/-- C72: `symmetric` gives objects with the symmetry of the group. -/
theorem C72_has_symmetry (p : Package) {m : Nat} (o : Obj m) (c : Vec 6) (ho : Obj.Ok o) (hc : Vec.Ok c) :
    ∃ r : Obj m, symmetricApi p (.d4 o) c = .ok (some (.d4 r)) ∧ HasSymmetry p r c := by
  refine ⟨_, symmetricApi_orbit ho hc, fun g hg => ⟨_, symopObj_ok g (orbit_ok o c) hc, ?_⟩⟩
  rintro x ⟨a, ha, hx⟩
  exact ⟨a, (orbit_perm o c hg).mem_iff.mp ha, hx⟩

/-- C72: an object that covers the part of a symmetric object in the cone generates all of it. -/
theorem C72_generates (p : Package) {m : Nat} (q o : Obj m) (c : Vec 6) (hq : Obj.Ok q) (ho : Obj.Ok o) (hc : Vec.Ok c)
    (hs : HasSymmetry p q c) :
    ∃ r : Obj m, symmetricApi p (.d4 o) c = .ok (some (.d4 r)) ∧
      ((∀ x ∈ p.region q, x - p.perp c ∈ p.chamber → x ∈ p.region o) → p.region q ⊆ p.region r) ∧
      (p.region o ⊆ p.region q → p.region r ⊆ p.region q) := by
  refine ⟨_, symmetricApi_orbit ho hc, fun h x hx => ?_, fun h x hx => ?_⟩
  · obtain ⟨op, hop, y, hy, e⟩ := (fund3 p).exists_image (p.perp c) x
    obtain ⟨b, hb, eb⟩ := (fund3 p).inv op hop
    refine (region_orbit o c).mpr ⟨op, List.mem_toFinset.mp hop, y, h y ?_ ((cone_iff p _ _).mp hy), e⟩
    have : y = PyQC.spin (p.rot b) (p.perp c) x := by rw [← e, eb, spin_left ((fund3 p).orth op hop)]
    rw [this]
    exact hs.spin hq hc b hb ⟨x, hx, rfl⟩
  · obtain ⟨op, hop, y, hy, rfl⟩ := (region_orbit o c).mp hx
    exact hs.spin hq hc op (List.mem_toFinset.mpr hop) ⟨y, h hy, rfl⟩

theorem null_images {n : Nat} {ι : Type} {S : Finset ι} {R : ι → Matrix (Fin n) (Fin n) ℝ} {α : Fin 3 → Fin n → ℝ}
    (F : Fund S R α) (c : Fin n → ℝ) {A B X : Set (Fin n → ℝ)} (hz : volume (A \ B) = 0)
    (h : X ⊆ ⋃ g ∈ S, spin (R g) c '' (A \ B)) : volume X = 0 := by
  refine measure_mono_null h ((measure_biUnion_null_iff (Finset.countable_toSet S)).mpr fun g hg => ?_)
  rw [volume_spin (F.orth g hg), hz]

/-- C72: the measure of a symmetric object is 120 times that of its part in the cone (ico2). -/
theorem C72_measure (q : Obj 4) (c : Vec 6) (hq : Obj.Ok q) (hc : Vec.Ok c) (hs : HasSymmetry .ico q c) :
    volume (Package.ico.region q) =
      120 * volume {x | x ∈ Package.ico.region q ∧ x - Package.ico.perp c ∈ Package.ico.chamber} := by
  have := (fund3 .ico).measure (Package.ico.perp c) (region_measurable q) (hs.spin hq hc)
  rw [card_symops] at this
  rw [this]
  have e : Package.ico.region q ∩ coneAt Package.ico.wall (Package.ico.perp c) =
      {x | x ∈ Package.ico.region q ∧ x - Package.ico.perp c ∈ Package.ico.chamber} := by
    ext x
    exact and_congr_right fun _ => cone_iff _ _ _
  rw [e]
  norm_num [Package.order]

/-- C72: the area of a symmetric level object is 24 times that of its part in the wedge (dode2). -/
theorem C72_measure_planar (q : Obj 3) (c : Vec 6) (z : ℝ) (hq : Obj.Ok q) (hc : Vec.Ok c) (hs : HasSymmetry .dode q c) :
    volume (slice z (Package.dode.region q)) =
      24 * volume (slice z {x | x ∈ Package.dode.region q ∧ x - Package.dode.perp c ∈ Package.dode.chamber}) := by
  have := fund2.measure (xy (Package.dode.perp c)) (Planar.region_measurable (z := z) q) (fun g hg => ?_)
  · rw [card_symops] at this
    change volume (slice z (Package.dode.region q)) = _ * volume (slice z (Package.dode.region q) ∩ _) at this
    rw [this, ← slice_cone z, ← slice_inter]
    have e : Package.dode.region q ∩ coneAt Package.dode.wall (Package.dode.perp c) =
        {x | x ∈ Package.dode.region q ∧ x - Package.dode.perp c ∈ Package.dode.chamber} := by
      ext x
      exact and_congr_right fun _ => cone_iff _ _ _
    rw [e]
    norm_num [Package.order]
  · change PyQC.spin _ _ '' slice z (Package.dode.region q) ⊆ slice z (Package.dode.region q)
    rw [← slice_spin (List.mem_toFinset.mp hg)]
    exact slice_mono (hs.spin hq hc g hg)

/-- C72: a well-formed object that is the part of a well-formed symmetric object in the cone, up to measure zero, has
exactly 1/120 of its volume and generates it up to measure zero, without overlaps (ico2). -/
theorem C72_part (q o : Obj 4) (c : Vec 6) (hq : Obj.Ok q) (ho : Obj.Ok o) (hc : Vec.Ok c) (hs : HasSymmetry .ico q c)
    (noq : Package.ico.NoOverlap q) (noo : Package.ico.NoOverlap o)
    (h1 : ∀ x ∈ Package.ico.region o, x ∈ Package.ico.region q ∧ x - Package.ico.perp c ∈ Package.ico.chamber)
    (h2 : volume ({x | x ∈ Package.ico.region q ∧ x - Package.ico.perp c ∈ Package.ico.chamber} \ Package.ico.region o) = 0) :
    ∃ r : Obj 4, ∃ V v W, Ico.objVolume6d (.d4 q) = .ok (some V) ∧ Ico.objVolume6d (.d4 o) = .ok (some v) ∧
      V.val tau = 120 * v.val tau ∧ symmetricApi .ico (.d4 o) c = .ok (some (.d4 r)) ∧
      Ico.objVolume6d (.d4 r) = .ok (some W) ∧ W.val tau = V.val tau ∧
      Package.ico.region r ⊆ Package.ico.region q ∧ volume (Package.ico.region q \ Package.ico.region r) = 0 := by
  obtain ⟨V, hV, -, e1⟩ := C62_object q hq
  obtain ⟨v, hv, -, e2⟩ := C62_object o ho
  obtain ⟨r, v', W, hr, hv', hW, e3, -⟩ := C21_volume o c ho hc
  rw [hv] at hv'
  cases hv'
  have hm := C72_measure q c hq hc hs
  have he : volume {x | x ∈ Package.ico.region q ∧ x - Package.ico.perp c ∈ Package.ico.chamber} =
      volume (Package.ico.region o) := by
    refine le_antisymm ?_ (measure_mono h1)
    exact (measure_le_inter_add_sdiff _ _ _).trans (by rw [h2, add_zero]; exact measure_mono Set.inter_subset_right)
  rw [he, e1.mpr noq, e2.mpr noo, show (120 : ENNReal) = ENNReal.ofReal 120 by norm_num,
    ← ENNReal.ofReal_mul (by norm_num)] at hm
  have p1 : 0 ≤ V.val tau := volume_nonneg hq hV
  have p2 : 0 ≤ v.val tau := volume_nonneg ho hv
  rw [ENNReal.ofReal_eq_ofReal_iff p1 (by linarith)] at hm
  obtain ⟨r', hr', -, h4⟩ := C72_generates .ico q o c hq ho hc hs
  rw [hr] at hr'
  cases hr'
  refine ⟨_, V, v, W, hV, hv, hm, hr, hW, by rw [e3, hm], h4 fun x hx => (h1 x hx).1, ?_⟩
  have := symmetricApi_orbit (p := .ico) ho hc
  rw [hr] at this
  cases this
  refine null_images (fund3 .ico) (Package.ico.perp c) h2 ?_
  rintro x ⟨hx, hx'⟩
  obtain ⟨op, hop, y, hy, e⟩ := (fund3 .ico).exists_image (Package.ico.perp c) x
  simp only [Set.mem_iUnion]
  obtain ⟨b, hb, eb⟩ := (fund3 .ico).inv op hop
  refine ⟨op, hop, y, ⟨⟨?_, (cone_iff _ _ _).mp hy⟩, fun hyo => hx' ?_⟩, e⟩
  · have : y = PyQC.spin (Package.ico.rot b) (Package.ico.perp c) x := by
      rw [← e, eb, spin_left ((fund3 .ico).orth op hop)]
    rw [this]
    exact hs.spin hq hc b hb ⟨x, hx, rfl⟩
  · exact (region_orbit o c).mpr ⟨op, List.mem_toFinset.mp hop, y, hyo, e⟩

/-- C72: the same for level triangles (dode2). -/
theorem C72_part_planar (q o : Obj 3) (c : Vec 6) (z : ℝ) (hq : Obj.Ok q) (ho : Obj.Ok o) (hc : Vec.Ok c)
    (zq : Level z q) (zo : Level z o) (hs : HasSymmetry .dode q c) (noq : NoOverlap2 z q) (noo : NoOverlap2 z o)
    (h1 : ∀ x ∈ Package.dode.region o, x ∈ Package.dode.region q ∧ x - Package.dode.perp c ∈ Package.dode.chamber)
    (h2 : volume (slice z ({x | x ∈ Package.dode.region q ∧ x - Package.dode.perp c ∈ Package.dode.chamber} \
      Package.dode.region o)) = 0) :
    ∃ r : Obj 3, ∃ V v W, Dode.objArea6d (.d4 q) = .ok (some V) ∧ Dode.objArea6d (.d4 o) = .ok (some v) ∧
      V.val sin60 = 24 * v.val sin60 ∧ symmetricApi .dode (.d4 o) c = .ok (some (.d4 r)) ∧
      Dode.objArea6d (.d4 r) = .ok (some W) ∧ W.val sin60 = V.val sin60 ∧
      Package.dode.region r ⊆ Package.dode.region q ∧
      volume (slice z (Package.dode.region q \ Package.dode.region r)) = 0 := by
  obtain ⟨V, hV, -, e1⟩ := C69_object q hq z zq
  obtain ⟨v, hv, -, e2⟩ := C69_object o ho z zo
  obtain ⟨r, v', W, hr, hv', hW, e3⟩ := C42_area o c ho hc
  rw [hv] at hv'
  cases hv'
  have hm := C72_measure_planar q c z hq hc hs
  rw [slice_sdiff] at h2
  have he : volume (slice z {x | x ∈ Package.dode.region q ∧ x - Package.dode.perp c ∈ Package.dode.chamber}) =
      volume (slice z (Package.dode.region o)) := by
    refine le_antisymm ?_ (measure_mono (slice_mono h1))
    exact (measure_le_inter_add_sdiff _ _ _).trans (by rw [h2, add_zero]; exact measure_mono Set.inter_subset_right)
  rw [he, e1.mpr noq, e2.mpr noo, show (24 : ENNReal) = ENNReal.ofReal 24 by norm_num,
    ← ENNReal.ofReal_mul (by norm_num)] at hm
  have p1 : 0 ≤ V.val sin60 := area_nonneg hq hV
  have p2 : 0 ≤ v.val sin60 := area_nonneg ho hv
  rw [ENNReal.ofReal_eq_ofReal_iff p1 (by linarith)] at hm
  obtain ⟨r', hr', -, h4⟩ := C72_generates .dode q o c hq ho hc hs
  rw [hr] at hr'
  cases hr'
  refine ⟨_, V, v, W, hV, hv, hm, hr, hW, by rw [e3, hm], h4 fun x hx => (h1 x hx).1, ?_⟩
  have := symmetricApi_orbit (p := .dode) ho hc
  rw [hr] at this
  cases this
  refine null_images fund2 (xy (Package.dode.perp c)) h2 ?_
  rintro x ⟨hx, hx'⟩
  obtain ⟨op, hop, y, hy, e⟩ := fund2.exists_image (xy (Package.dode.perp c)) x
  have hop' := List.mem_toFinset.mp hop
  have e' : PyQC.spin (Package.dode.rot op) (Package.dode.perp c) (atHeight z y) = atHeight z x := by
    rw [spin_atHeight hop', e]
  rw [← slice_cone z] at hy
  simp only [Set.mem_iUnion]
  obtain ⟨b, hb, eb⟩ := (fund3 .dode).inv op hop
  refine ⟨op, hop, y, ⟨⟨?_, (cone_iff _ _ _).mp hy⟩, fun hyo => hx' ?_⟩, e⟩
  · have : atHeight z y = PyQC.spin (Package.dode.rot b) (Package.dode.perp c) (atHeight z x) := by
      rw [← e', eb, spin_left ((fund3 .dode).orth op hop)]
    change atHeight z y ∈ _
    rw [this]
    exact hs.spin hq hc b hb ⟨_, hx, rfl⟩
  · exact (region_orbit o c).mpr ⟨op, hop', _, hyo, e'⟩

theorem unit_id {p : Package} {m : Nat} {o : Obj m} {c : Vec 6} (ho : Obj.Ok o) (hc : Vec.Ok c)
    (h : ∀ x ∈ p.region o, x - p.perp c ∈ p.chamber) : InUnit p o c := by
  refine ⟨_, symops_one p, fun s hs i => ⟨_, symopVec_ok _ (ho s hs i) hc, ?_⟩⟩
  rw [perp_symV' (symops_one p), rot_one, one_mulVec, add_sub_cancel_right]
  exact h _ ⟨s, hs, subset_convexHull ℝ _ ⟨i, rfl⟩⟩

theorem region_sub_orbit {p : Package} {m : Nat} (o : Obj m) (c : Vec 6) : p.region o ⊆ p.region (orbit p o c) :=
  fun x hx => (region_orbit o c).mpr ⟨_, symops_one p, x, hx, by simp [PyQC.spin, rot_one]⟩

/-- C72: the part in the cone of the symmetric object generated by a well-formed unit in the cone is the unit, up to
measure zero (ico2). -/
theorem C72_recovers (o : Obj 4) (c : Vec 6) (ho : Obj.Ok o) (hc : Vec.Ok c) (hno : Package.ico.NoOverlap o)
    (h : ∀ x ∈ Package.ico.region o, x - Package.ico.perp c ∈ Package.ico.chamber) :
    ∃ r : Obj 4, symmetricApi .ico (.d4 o) c = .ok (some (.d4 r)) ∧
      Package.ico.region o ⊆ {x | x ∈ Package.ico.region r ∧ x - Package.ico.perp c ∈ Package.ico.chamber} ∧
      volume ({x | x ∈ Package.ico.region r ∧ x - Package.ico.perp c ∈ Package.ico.chamber} \ Package.ico.region o) = 0 := by
  have hr := symmetricApi_orbit (p := .ico) ho hc
  have hs : Package.ico.region o ⊆
      {x | x ∈ Package.ico.region (orbit .ico o c) ∧ x - Package.ico.perp c ∈ Package.ico.chamber} :=
    fun x hx => ⟨region_sub_orbit o c hx, h x hx⟩
  refine ⟨_, hr, hs, ?_⟩
  obtain ⟨r, w, hr', -, -, -, h1⟩ := C72_symmetric o c ho hc hno (unit_id ho hc h)
  obtain ⟨r2, hr2, sy⟩ := C72_has_symmetry .ico o c ho hc
  rw [hr] at hr' hr2
  cases hr'
  cases hr2
  have h2 := C72_measure _ c (orbit_ok (p := .ico) o c) hc sy
  rw [h1] at h2
  have h3 := (ENNReal.mul_right_inj (a := 120) (by norm_num) (by norm_num)).mp h2
  obtain ⟨v, -, -, e⟩ := C62_object o ho
  rw [measure_sdiff hs (region_measurable o).nullMeasurableSet (by rw [e.mpr hno]; exact ENNReal.ofReal_ne_top), ← h3,
    tsub_self]

/-- C72: the same for level triangles (dode2). -/
theorem C72_recovers_planar (o : Obj 3) (c : Vec 6) (z : ℝ) (ho : Obj.Ok o) (hc : Vec.Ok c) (hz : Level z o)
    (hno : NoOverlap2 z o) (h : ∀ x ∈ Package.dode.region o, x - Package.dode.perp c ∈ Package.dode.chamber) :
    ∃ r : Obj 3, symmetricApi .dode (.d4 o) c = .ok (some (.d4 r)) ∧
      Package.dode.region o ⊆ {x | x ∈ Package.dode.region r ∧ x - Package.dode.perp c ∈ Package.dode.chamber} ∧
      volume (slice z ({x | x ∈ Package.dode.region r ∧ x - Package.dode.perp c ∈ Package.dode.chamber} \
        Package.dode.region o)) = 0 := by
  have hr := symmetricApi_orbit (p := .dode) ho hc
  have hs : Package.dode.region o ⊆
      {x | x ∈ Package.dode.region (orbit .dode o c) ∧ x - Package.dode.perp c ∈ Package.dode.chamber} :=
    fun x hx => ⟨region_sub_orbit o c hx, h x hx⟩
  refine ⟨_, hr, hs, ?_⟩
  obtain ⟨r, w, hr', -, -, -, -, h1⟩ := C72_symmetric_planar o c z ho hc hz hno (unit_id ho hc h)
  obtain ⟨r2, hr2, sy⟩ := C72_has_symmetry .dode o c ho hc
  rw [hr] at hr' hr2
  cases hr'
  cases hr2
  have h2 := C72_measure_planar _ c z (orbit_ok (p := .dode) o c) hc sy
  rw [h1] at h2
  have h3 := (ENNReal.mul_right_inj (a := 24) (by norm_num) (by norm_num)).mp h2
  obtain ⟨v, -, -, e⟩ := C69_object o ho z hz
  rw [slice_sdiff, measure_sdiff (slice_mono hs) (Planar.region_measurable (z := z) o).nullMeasurableSet
    (by rw [e.mpr hno]; exact ENNReal.ofReal_ne_top), ← h3, tsub_self]

/-! ### A concrete case: the asymmetric unit of examples/example1.py -/

/-- The asymmetric unit of the example: origin, five-fold, three-fold and two-fold axis. -/
def exUnit : Simplex 4 :=
  ![fun _ => ⟨0, 0, 1⟩,
    ![⟨1, 0, 2⟩, ⟨-1, 0, 2⟩, ⟨-1, 0, 2⟩, ⟨-1, 0, 2⟩, ⟨-1, 0, 2⟩, ⟨-1, 0, 2⟩],
    ![⟨1, 0, 2⟩, ⟨-1, 0, 2⟩, ⟨-1, 0, 2⟩, ⟨1, 0, 2⟩, ⟨-1, 0, 2⟩, ⟨-1, 0, 2⟩],
    ![⟨1, 0, 2⟩, ⟨-1, 0, 2⟩, ⟨-1, 0, 2⟩, ⟨0, 0, 2⟩, ⟨-1, 0, 2⟩, ⟨0, 0, 2⟩]]

theorem perps_exUnit : Package.ico.perps exUnit = ![0, ![tau + 1, -tau, 0], ![tau + 1, 0, 1], ![tau + 1, 0, 0]] := by
  funext i
  unfold Package.perps Package.perp
  simp only [Package.perpMat, Package.theta]
  generalize tau = t
  fin_cases i <;> funext j <;> fin_cases j <;>
    simp [exUnit, Vec.val, Num3.val, mulVec, dotProduct, Fin.sum_univ_succ] <;> ring

theorem exUnit_ok : Obj.Ok [exUnit] := by decide

theorem exUnit_in : InUnit .ico [exUnit] (fun _ => ⟨0, 0, 1⟩) := by
  have hc : Vec.Ok (fun _ => ⟨0, 0, 1⟩ : Vec 6) := by decide
  refine ⟨_, symops_one .ico, fun s hs i => ⟨_, symopVec_ok _ (exUnit_ok s hs i) hc, ?_⟩⟩
  rw [List.mem_singleton] at hs
  subst hs
  rw [perp_symV' (symops_one .ico), rot_one, one_mulVec, add_sub_cancel_right]
  have h0 : Package.ico.perp (fun _ => ⟨0, 0, 1⟩) = 0 := congrFun perps_exUnit 0
  rw [h0, sub_zero]
  change Package.ico.perps exUnit i ∈ _
  rw [perps_exUnit]
  fin_cases i
  · exact ⟨0, 0, 0, le_rfl, le_rfl, le_rfl, by simp⟩
  · exact ⟨1, 0, 0, zero_le_one, le_rfl, le_rfl, by simp⟩
  · exact ⟨0, 1, 0, le_rfl, zero_le_one, le_rfl, by simp⟩
  · exact ⟨0, 0, 1, le_rfl, le_rfl, zero_le_one, by simp⟩

/-- The example meets the hypotheses of `C72_symmetric`: its symmetric object consists of 120 tetrahedra without
overlaps. -/
example : ∃ r : Obj 4, ∃ w, symmetricApi .ico (.d4 [exUnit]) (fun _ => ⟨0, 0, 1⟩) = .ok (some (.d4 r)) ∧
    Package.ico.NoOverlap r ∧ Ico.objVolume6d (.d4 r) = .ok (some w) ∧
    volume (Package.ico.region r) = ENNReal.ofReal (w.val tau) ∧
    volume (Package.ico.region r) = 120 * volume (Package.ico.region [exUnit]) :=
  C72_symmetric [exUnit] _ exUnit_ok (by decide) (List.pairwise_singleton _ _) exUnit_in

theorem exUnit_region : ∀ x ∈ Package.ico.region [exUnit], x - Package.ico.perp (fun _ => ⟨0, 0, 1⟩) ∈ Package.ico.chamber := by
  have h0 : Package.ico.perp (fun _ => ⟨0, 0, 1⟩) = 0 := congrFun perps_exUnit 0
  rintro x ⟨s, hs, hx⟩
  rw [List.mem_singleton] at hs
  subst hs
  refine (cone_iff _ _ _).mp ((convexHull_min ?_ (cone_convex _ _)) hx)
  rintro _ ⟨i, rfl⟩
  rw [cone_iff, h0, sub_zero, perps_exUnit]
  fin_cases i
  · exact ⟨0, 0, 0, le_rfl, le_rfl, le_rfl, by simp⟩
  · exact ⟨1, 0, 0, zero_le_one, le_rfl, le_rfl, by simp⟩
  · exact ⟨0, 1, 0, le_rfl, zero_le_one, le_rfl, by simp⟩
  · exact ⟨0, 0, 1, le_rfl, le_rfl, zero_le_one, by simp⟩

/-- The symmetric object of the example and its part in the cone meet the hypotheses of `C72_part`. -/
example : ∃ q : Obj 4, ∃ V v, symmetricApi .ico (.d4 [exUnit]) (fun _ => ⟨0, 0, 1⟩) = .ok (some (.d4 q)) ∧
    Ico.objVolume6d (.d4 q) = .ok (some V) ∧ Ico.objVolume6d (.d4 [exUnit]) = .ok (some v) ∧
    V.val tau = 120 * v.val tau := by
  have hc : Vec.Ok (fun _ => ⟨0, 0, 1⟩ : Vec 6) := by decide
  obtain ⟨q, hq, h1, h2⟩ := C72_recovers [exUnit] _ exUnit_ok hc (List.pairwise_singleton _ _) exUnit_region
  obtain ⟨q', hq', sy⟩ := C72_has_symmetry .ico [exUnit] _ exUnit_ok hc
  obtain ⟨q'', w, hq'', no, -⟩ := C72_symmetric [exUnit] _ exUnit_ok hc (List.pairwise_singleton _ _) exUnit_in
  have hr := symmetricApi_orbit (p := .ico) exUnit_ok hc
  rw [hr] at hq hq' hq''
  cases hq
  cases hq'
  cases hq''
  obtain ⟨-, V, v, -, a, b, c, -⟩ := C72_part _ [exUnit] _ (orbit_ok (p := .ico) _ _) exUnit_ok hc sy no
    (List.pairwise_singleton _ _) (fun x hx => h1 hx) h2
  exact ⟨_, V, v, hr, a, b, c⟩

/-- An asymmetric unit of the dodecagonal group: half of a triangle of the regular dodecagon. -/
def exWedge : Simplex 3 :=
  ![fun _ => ⟨0, 0, 1⟩,
    ![⟨0, 0, 1⟩, ⟨1, 0, 1⟩, ⟨0, 0, 1⟩, ⟨0, 0, 1⟩, ⟨0, 0, 1⟩, ⟨0, 0, 1⟩],
    ![⟨-1, 0, 1⟩, ⟨1, 0, 1⟩, ⟨0, 0, 1⟩, ⟨0, 0, 1⟩, ⟨0, 0, 1⟩, ⟨0, 0, 1⟩]]

theorem perps_exWedge : Package.dode.perps exWedge = ![0, ![1, 0, 0], ![1 + sin60, 1 / 2, 0]] := by
  funext i
  unfold Package.perps Package.perp
  simp only [Package.perpMat, Package.theta]
  generalize sin60 = t
  fin_cases i <;> funext j <;> fin_cases j <;>
    simp [exWedge, Vec.val, Num3.val, mulVec, dotProduct, Fin.sum_univ_succ]
  all_goals ring

theorem exWedge_ok : Obj.Ok [exWedge] := by decide

theorem exWedge_level : Level 0 [exWedge] := by
  intro s hs i
  rw [List.mem_singleton] at hs
  subst hs
  change Package.dode.perps exWedge i 2 = 0
  rw [perps_exWedge]
  fin_cases i <;> simp

theorem exWedge_region :
    ∀ x ∈ Package.dode.region [exWedge], x - Package.dode.perp (fun _ => ⟨0, 0, 1⟩) ∈ Package.dode.chamber := by
  have h0 : Package.dode.perp (fun _ => ⟨0, 0, 1⟩) = 0 := congrFun perps_exWedge 0
  rintro x ⟨s, hs, hx⟩
  rw [List.mem_singleton] at hs
  subst hs
  refine (cone_iff _ _ _).mp ((convexHull_min ?_ (cone_convex _ _)) hx)
  rintro _ ⟨i, rfl⟩
  rw [cone_iff, h0, sub_zero, perps_exWedge]
  fin_cases i
  · exact ⟨0, 0, 0, le_rfl, le_rfl, by simp⟩
  · exact ⟨1, 0, 0, zero_le_one, le_rfl, by simp⟩
  · exact ⟨0, 1, 0, le_rfl, zero_le_one, by simp⟩

/-- The wedge meets the hypotheses of `C72_recovers_planar`, and its symmetric object those of `C72_part_planar`. -/
example : ∃ q : Obj 3, ∃ V v, symmetricApi .dode (.d4 [exWedge]) (fun _ => ⟨0, 0, 1⟩) = .ok (some (.d4 q)) ∧
    Dode.objArea6d (.d4 q) = .ok (some V) ∧ Dode.objArea6d (.d4 [exWedge]) = .ok (some v) ∧
    V.val sin60 = 24 * v.val sin60 := by
  have hc : Vec.Ok (fun _ => ⟨0, 0, 1⟩ : Vec 6) := by decide
  obtain ⟨q, hq, h1, h2⟩ := C72_recovers_planar [exWedge] _ 0 exWedge_ok hc exWedge_level (List.pairwise_singleton _ _)
    exWedge_region
  obtain ⟨q', hq', sy⟩ := C72_has_symmetry .dode [exWedge] _ exWedge_ok hc
  obtain ⟨q'', w, hq'', lv, no, -⟩ := C72_symmetric_planar [exWedge] _ 0 exWedge_ok hc exWedge_level
    (List.pairwise_singleton _ _) (unit_id exWedge_ok hc exWedge_region)
  have hr := symmetricApi_orbit (p := .dode) exWedge_ok hc
  rw [hr] at hq hq' hq''
  cases hq
  cases hq'
  cases hq''
  obtain ⟨-, V, v, -, a, b, c, -⟩ := C72_part_planar _ [exWedge] _ 0 (orbit_ok (p := .dode) _ _) exWedge_ok hc lv
    exWedge_level sy no (List.pairwise_singleton _ _) (fun x hx => h1 hx) h2
  exact ⟨_, V, v, hr, a, b, c⟩

end PyQC
