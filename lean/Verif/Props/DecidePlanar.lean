import Verif.Lemmas.SurdPlane
import Verif.Props.MachinePlanar
/-!
# C109: whether the floating-point tests for flat objects are decided as over the real numbers can be computed exactly
-/
namespace PyQC
open Matrix MeasureTheory Dode

/-- C109: for a whole number R and triangles at the same height, `roundedTest2` answers True exactly when the pair is
resolved in spite of rounding. -/
theorem C109_decidable (R : ℕ) (s t : Simplex 3) (hs : Simplex.Ok s) (ht : Simplex.Ok t) (z : ℝ)
    (zs : ∀ i, Package.dode.perp (s i) 2 = z) (zt : ∀ i, Package.dode.perp (t i) 2 = z) :
    roundedTest2 R s t = true ↔ ResolvedTriRounded R (Package.dode.perps s) (Package.dode.perps t) := roundedTest2_iff hs ht zs zt

/-- C109: `smallTest2` answers True exactly for vectors of moderate size. -/
theorem C109_small (R : ℕ) (v : Vec 6) (hv : Vec.Ok v) : smallTest2 R v = true ↔ Small .dode R v := smallTest2_iff hv

/-- C109: `levelTest` answers True exactly for objects at the given height. -/
theorem C109_level (h : Num3) (o : Obj 3) (h0 : h.c ≠ 0) (ho : Obj.Ok o) : levelTest h o = true ↔ Level (h.val sin60) o :=
  levelTest_iff h0 ho

/-- The distances compared in the rough check have moderate size, computed exactly. -/
def distancesTest2 (R : ℕ) (a b : Obj 3) : Bool :=
  match centroidObj Dode.arith b with
  | .error _ => true
  | .ok c => (b.all fun t => (List.ofFn t).all fun v => smallDistance2 R v c) &&
      a.all fun s => match centroid Dode.arith (List.ofFn s) with
        | .error _ => true
        | .ok c' => ((List.ofFn s).all fun v => smallDistance2 R v c') && smallDistance2 R c' c

/-- All hypotheses on two flat objects at the height `h`, computed exactly. -/
def objectsTest2 (R : ℕ) (h : Num3) (a b : Obj 3) : Bool :=
  decide (h.c ≠ 0) && levelTest h a && levelTest h b &&
    (a.all fun s => (List.ofFn s).all fun v => smallTest2 R v) && (b.all fun t => (List.ofFn t).all fun v => smallTest2 R v) &&
    (a.all fun s => b.all fun t => roundedTest2 R s t && clearTest2 R s t) && distancesTest2 R a b

theorem objectsTest2_spec {R : ℕ} {h : Num3} {a b : Obj 3} (ha : Obj.Ok a) (hb : Obj.Ok b) (h0 : b ≠ [])
    (ht : objectsTest2 R h a b = true) :
    Level (h.val sin60) a ∧ Level (h.val sin60) b ∧ ObjectsRounded2 R (h.val sin60) a b := by
  unfold objectsTest2 at ht
  simp only [Bool.and_eq_true, List.all_eq_true, List.forall_mem_ofFn_iff, decide_eq_true_eq] at ht
  obtain ⟨⟨⟨⟨⟨⟨hc, za⟩, zb⟩, h1⟩, h2⟩, h3⟩, h4⟩ := ht
  have za := (levelTest_iff hc ha).1 za
  have zb := (levelTest_iff hc hb).1 zb
  have hp : ∀ s ∈ a, ∀ t ∈ b, ResolvedTriRounded R (Package.dode.perps s) (Package.dode.perps t) := fun s hs t ht =>
    (roundedTest2_iff (ha s hs) (hb t ht) (za s hs) (zb t ht)).1 (h3 s hs t ht).1
  have hcl := fun s hs t ht hi => clearTest2_spec (ha s hs) (hb t ht) (za s hs) (zb t ht) (hp s hs t ht).areaS (hp s hs t ht).areaT
    (h3 s hs t ht).2 hi
  obtain ⟨c, hc⟩ : ∃ c, centroidObj Dode.arith b = .ok c := ⟨_, centroidObj_ok Package.dode.lawful h0 (by decide) hb⟩
  unfold distancesTest2 at h4
  rw [hc] at h4
  simp only [Bool.and_eq_true, List.all_eq_true, List.forall_mem_ofFn_iff] at h4
  obtain ⟨h5, h6⟩ := h4
  refine ⟨za, zb, fun s hs i => (smallTest2_iff (ha s hs i)).mp (h1 s hs i), fun t ht i => (smallTest2_iff (hb t ht i)).mp (h2 t ht i),
    hp, fun s hs t ht hi => (hcl s hs t ht hi).1, fun s hs t ht hi => (hcl s hs t ht hi).2, ?_, ?_, ?_⟩
  · intro d hd t ht i
    rw [hc] at hd
    cases hd
    exact distanceSmall2_of (h5 t ht i)
  · intro s hs d hd i
    have := h6 s hs
    rw [hd] at this
    simp only [Bool.and_eq_true, List.all_eq_true, List.forall_mem_ofFn_iff] at this
    exact distanceSmall2_of (this.1 i)
  · intro d hd s hs e he
    rw [hc] at hd
    cases hd
    have := h6 s hs
    rw [he] at this
    simp only [Bool.and_eq_true] at this
    exact distanceSmall2_of this.2

section
variable (F : Float64) (R : ℕ) (hR : 1 ≤ R) (hR8 : R ≤ 8) (h : Num3) (a b : Obj 3) (ha : Obj.Ok a) (hb : Obj.Ok b) (h0 : b ≠ [])
  (hTest : objectsTest2 R h a b = true)
include hR hR8 ha hb h0 hTest

/-- C109: if the computed condition holds, the code found with rounding for a pair of triangles is 1 exactly when the
first lies in the second, else 2 exactly when the second lies in the first; if both fail, 3 is given only to triangles that
have a point in common, and it is given to all whose common part has an interior. -/
theorem C109_codes : ∀ s ∈ a, ∀ t ∈ b,
    let A := solid (Package.dode.perps s)
    let B := solid (Package.dode.perps t)
    (F.checkTwoTriangles s t = 1 ↔ A ⊆ B) ∧ (F.checkTwoTriangles s t = 2 ↔ ¬ A ⊆ B ∧ B ⊆ A) ∧
      (F.checkTwoTriangles s t = 3 → ¬ A ⊆ B ∧ ¬ B ⊆ A ∧ (A ∩ B).Nonempty) ∧
      (F.checkTwoTriangles s t = 0 → volume (slice (h.val sin60) (A ∩ B)) = 0) ∧
      F.checkTwoTriangles s t ∈ [0, 1, 2, 3] := by
  intro s hs t ht A B
  obtain ⟨za, zb, hr⟩ := objectsTest2_spec ha hb h0 hTest
  obtain ⟨c1, c2, c3, c0, cm⟩ := C95_codes F (R := R) (by exact_mod_cast hR) (by exact_mod_cast hR8) s t _ (za s hs) (zb t ht)
    (hr.small1 s hs) (hr.small2 t ht) (hr.pairs s hs t ht)
  refine ⟨c1, c2, c3, fun h => ?_, cm⟩
  obtain ⟨n1, n2, n3⟩ := c0 h
  refine slice_null ((solid_convex _).inter (solid_convex _)) fun hi => ?_
  rcases hr.clear s hs t ht hi with h | h | h
  exacts [n1 h, n2 h, n3 h]

/-- C109: `intersection` of two flat objects for which the computed condition holds: with rounding, nothing but a set of
area zero is lost of the common part, whichever kind of result is asked for; and of the standard kind nothing else is
returned. -/
theorem C109_objects (kind : Ico.Kind) (delaunay : Simplex 3 → Simplex 3 → Delaunay2)
    (hD : ∀ s ∈ a, ∀ t ∈ b, ∀ r pns,
      (∀ v ∈ r, Vec.Ok v ∧ Candidate2 (Package.dode.perps s) (Package.dode.perps t) (Package.dode.perp v)) →
      F.delaunayInput2 r = .ok pns → ¬ InLine (r.map plane) → FillsHullOf2 (r.map plane) (delaunay s t pns))
    (r : Option (Obj 3)) (hr : F.dodeIntersectionApi kind delaunay (.d4 a) (.d4 b) = .ok r) :
    volume (slice (h.val sin60) ((Package.dode.region a ∩ Package.dode.region b) \ Package.dode.region (r.getD []))) = 0 ∧
      (kind = .standard → Package.dode.region (r.getD []) ⊆ Package.dode.region a ∩ Package.dode.region b) := by
  obtain ⟨za, zb, h'⟩ := objectsTest2_spec ha hb h0 hTest
  refine ⟨C96_objects F (R := R) (by exact_mod_cast hR) (by exact_mod_cast hR8) kind delaunay a b _ hD ha hb za zb h' r hr, ?_⟩
  rintro rfl
  exact C96_inside F (R := R) (by exact_mod_cast hR) (by exact_mod_cast hR8) delaunay a b _ hD h0 ha hb za zb h' r hr

/-- C109: with 64-bit integers too, if the second computed condition holds. -/
theorem C109_objects64 (hSame : sameObjects2 a b = true) (kind : Ico.Kind) (delaunay : Simplex 3 → Simplex 3 → Delaunay2)
    (hD : ∀ s ∈ a, ∀ t ∈ b, ∀ r pns,
      (∀ v ∈ r, Vec.Ok v ∧ Candidate2 (Package.dode.perps s) (Package.dode.perps t) (Package.dode.perp v)) →
      F.delaunayInput2 r = .ok pns → ¬ InLine (r.map plane) → FillsHullOf2 (r.map plane) (delaunay s t pns))
    (r : Option (Obj 3)) (hr : F.dodeIntersectionApi64 kind delaunay (.d4 a) (.d4 b) = .ok r) :
    volume (slice (h.val sin60) ((Package.dode.region a ∩ Package.dode.region b) \ Package.dode.region (r.getD []))) = 0 ∧
      (kind = .standard → Package.dode.region (r.getD []) ⊆ Package.dode.region a ∩ Package.dode.region b) := by
  obtain ⟨za, zb, h'⟩ := objectsTest2_spec ha hb h0 hTest
  exact C108_objects F (R := R) (by exact_mod_cast hR) (by exact_mod_cast hR8) kind delaunay a b _ hD h0 ha hb za zb h' hSame r hr

end

/-! ## Concrete cases -/

/-- A vector with integer coordinates, in the plane. -/
def exHex6 (a b c d : Int) : Vec 6 := ![⟨a, 0, 1⟩, ⟨b, 0, 1⟩, ⟨c, 0, 1⟩, ⟨d, 0, 1⟩, ⟨0, 0, 1⟩, ⟨0, 0, 1⟩]

/-- The triangle with corners (-√3/2, -1/2), (1, 0), (0, 1). -/
def exHexA : Simplex 3 := ![exHex6 1 0 0 0, exHex6 0 1 0 0, exHex6 0 0 1 0]

/-- The opposite triangle. -/
def exHexB : Simplex 3 := ![exHex6 (-1) 0 0 0, exHex6 0 (-1) 0 0, exHex6 0 0 (-1) 0]

theorem exHex_ok : Simplex.Ok exHexA ∧ Simplex.Ok exHexB := by constructor <;> decide

/-- Triangles with irrational coordinates pass the test, so the hypotheses of `C109_codes` and `C109_objects` are met. -/
theorem exHex_objects : objectsTest2 2 ⟨0, 0, 1⟩ [exHexA] [exHexB] = true := by decide +kernel

/-- Their code, in any arithmetic: they overlap. -/
theorem exHex_code (F : Float64) : F.checkTwoTriangles exHexA exHexB = 3 := by
  have okA : Obj.Ok [exHexA] := by intro s hs; rw [List.mem_singleton.1 hs]; exact exHex_ok.1
  have okB : Obj.Ok [exHexB] := by intro s hs; rw [List.mem_singleton.1 hs]; exact exHex_ok.2
  obtain ⟨c1, c2, -, -, cm⟩ := C109_codes F 2 (by norm_num) (by norm_num) ⟨0, 0, 1⟩ [exHexA] [exHexB] okA okB (by simp) exHex_objects
    exHexA (by simp) exHexB (by simp)
  obtain ⟨za, zb, hr⟩ := objectsTest2_spec okA okB (by simp) exHex_objects
  have c0 := (C95_codes F (R := (2 : ℕ)) (by norm_num) (by norm_num) exHexA exHexB _ (za _ (by simp)) (zb _ (by simp))
    (hr.small1 _ (by simp)) (hr.small2 _ (by simp)) (hr.pairs _ (by simp) _ (by simp))).2.2.2.1
  have gA := simplex_pgrid (n := 1) (by norm_num) exHex_ok.1 (by decide) (za _ (by simp))
  have gB := simplex_pgrid (n := 1) (by norm_num) exHex_ok.2 (by decide) (zb _ (by simp))
  have aA := (Surd.notZero_iff (Surd.area (Simplex.surd 1 exHexA))).1 (by decide +kernel)
  have aB := (Surd.notZero_iff (Surd.area (Simplex.surd 1 exHexB))).1 (by decide +kernel)
  have hp : ProperCrossing (Package.dode.perps exHexA) (Package.dode.perps exHexB) :=
    Surd.properTri_spec (by norm_num) gA gB (by decide +kernel)
  have n1 : ¬ solid (Package.dode.perps exHexA) ⊆ solid (Package.dode.perps exHexB) := by
    rw [← Surd.containedTri_iff (by norm_num) gA gB aB]; decide +kernel
  have n2 : ¬ solid (Package.dode.perps exHexB) ⊆ solid (Package.dode.perps exHexA) := by
    rw [← Surd.containedTri_iff (by norm_num) gB gA aA]; decide +kernel
  simp only [List.mem_cons, List.not_mem_nil, or_false] at cm
  rcases cm with h | h | h | h
  exacts [absurd hp (c0 h).2.2, absurd (c1.1 h) n1, absurd (c2.1 h).2 n2, h]

/-- The pair is resolved in spite of rounding, and its corners have moderate size. -/
example : ResolvedTriRounded (2 : ℕ) (Package.dode.perps exHexA) (Package.dode.perps exHexB) ∧ Small .dode (2 : ℕ) (exHexA 0) := by
  have okA : Obj.Ok [exHexA] := by intro s hs; rw [List.mem_singleton.1 hs]; exact exHex_ok.1
  have okB : Obj.Ok [exHexB] := by intro s hs; rw [List.mem_singleton.1 hs]; exact exHex_ok.2
  have za := (C109_level ⟨0, 0, 1⟩ [exHexA] (by decide) okA).1 (by decide +kernel)
  have zb := (C109_level ⟨0, 0, 1⟩ [exHexB] (by decide) okB).1 (by decide +kernel)
  exact ⟨(C109_decidable 2 _ _ exHex_ok.1 exHex_ok.2 _ (za _ (by simp)) (zb _ (by simp))).1 (by decide +kernel),
    (C109_small 2 _ (exHex_ok.1 0)).1 (by decide +kernel)⟩

/-- C109 applied with 64-bit integers and binary64 arithmetic: there is a result, which covers the common part of the two
triangles and lies in it; all conditions are computed. -/
example : ∃ o, Rounding.binary64.float64.dodeIntersectionApi64 .standard
    (fun _ _ pns => some (allTriples pns.length)) (.d4 [exLevel]) (.d4 [exLevelInv]) = .ok (some o) ∧
    volume (slice (Num3.val sin60 ⟨0, 0, 1⟩)
      ((Package.dode.region [exLevel] ∩ Package.dode.region [exLevelInv]) \ Package.dode.region o)) = 0 ∧
      Package.dode.region o ⊆ Package.dode.region [exLevel] ∩ Package.dode.region [exLevelInv] := by
  obtain ⟨o, ho, -, -⟩ := exLevel_binary64
  rw [← C108_same _ _ _ _ exLevel_same] at ho
  refine ⟨o, ho, ?_⟩
  have := C109_objects64 Rounding.binary64.float64 2 (by norm_num) (by norm_num) ⟨0, 0, 1⟩ [exLevel] [exLevelInv]
    (by intro t ht; rw [List.mem_singleton.1 ht]; exact exLevel_ok) (by intro t ht; rw [List.mem_singleton.1 ht]; exact exLevelInv_ok)
    (by simp) (by decide +kernel) exLevel_same .standard (fun _ _ pns => some (allTriples pns.length))
    (fun s _ t _ r pns _ hi hn => triples_fill _ r pns hi hn) _ ho
  exact ⟨this.1, this.2 rfl⟩

end PyQC
