import Verif.Lemmas.GoldenWide
import Verif.Props.DecideRounded
/-!
# C110: whether contacts are wide can be computed; cases; what happens when contacts are narrow
-/
namespace PyQC
open Matrix MeasureTheory Ico

/-- C110: whether the contact of two tetrahedra is wide is decided by a computation with integers. -/
theorem C110_decidable (p q : ℕ) (hq : 0 < q) (s t : Simplex 4) (hs : Simplex.Ok s) (ht : Simplex.Ok t)
    (h1 : tetVol (Package.ico.perps s) ≠ 0) (h2 : tetVol (Package.ico.perps t) ≠ 0) :
    wideTest p q s t = true ↔ WideContacts ((p : ℝ) / q) .ico [s] [t] := wideTest_iff hq hs ht h1 h2

/-- All hypotheses on two objects, over the real numbers. -/
def returnsTest (a b : Obj 4) : Bool := a.all fun s => b.all fun t => resolvedTest s t && wideTest 1 (10 ^ 6) s t

/-- All hypotheses on two objects, with rounding at the scale `R`. -/
def returnsTestRounded (R : ℕ) (a b : Obj 4) : Bool :=
  objectsTest R a b && a.all fun s => b.all fun t => wideTest (2 ^ 41 + 10 ^ 6 * R ^ 2) (10 ^ 6 * 2 ^ 41) s t

theorem wideContacts_of {ε : ℝ} {a b : Obj 4} (h : ∀ s ∈ a, ∀ t ∈ b, WideContacts ε .ico [s] [t]) : WideContacts ε .ico a b :=
  fun s hs t ht => h s hs t ht s (by simp) t (by simp)

/-- C110: two objects that pass the test: the call returns and the result is right. -/
theorem C110_objects_tested (kind : Kind) (draws : Simplex 4 → Simplex 4 → (n : Nat) → Draws n)
    (delaunay : Simplex 4 → Simplex 4 → Delaunay) (hd : ∀ s t, Sampled (draws s t)) (hD : ∀ s t, FillsHull (delaunay s t))
    (a b : Obj 4) (h0 : b ≠ []) (ok1 : Obj.Ok a) (ok2 : Obj.Ok b) (h : returnsTest a b = true) :
    ∃ r, intersectionApi kind draws delaunay (.d4 a) (.d4 b) = .ok r ∧
      volume ((Package.ico.region a ∩ Package.ico.region b) \ Package.ico.region (r.getD [])) = 0 ∧
      (kind = .standard → Package.ico.region (r.getD []) ⊆ Package.ico.region a ∩ Package.ico.region b) := by
  unfold returnsTest at h
  simp only [List.all_eq_true, Bool.and_eq_true] at h
  have hres : ∀ s ∈ a, ∀ t ∈ b, Resolved (Package.ico.perps s) (Package.ico.perps t) :=
    fun s hs t ht => (resolvedTest_iff (ok1 s hs) (ok2 t ht)).1 (h s hs t ht).1
  refine C110_objects kind draws delaunay hd hD a b h0 ok1 ok2 hres (wideContacts_of fun s hs t ht => ?_)
  have := (C110_decidable 1 (10 ^ 6) (by norm_num) s t (ok1 s hs) (ok2 t ht) (hres s hs t ht).volS (hres s hs t ht).volT).1
    (h s hs t ht).2
  norm_num at this ⊢
  exact this

/-- What the test decides. -/
theorem returnsTestRounded_spec {R : ℕ} {a b : Obj 4} (ok1 : Obj.Ok a) (ok2 : Obj.Ok b) (h0 : b ≠ [])
    (h : returnsTestRounded R a b = true) :
    ObjectsRounded R a b ∧ WideContacts (1 / 10 ^ 6 + (R : ℝ) ^ 2 / 2 ^ 41) .ico a b := by
  unfold returnsTestRounded at h
  rw [Bool.and_eq_true] at h
  obtain ⟨h, hw⟩ := h
  simp only [List.all_eq_true] at hw
  have ho := objectsTest_spec ok1 ok2 h0 h
  refine ⟨ho, wideContacts_of fun s hs t ht => ?_⟩
  have := (C110_decidable _ _ (by norm_num) s t (ok1 s hs) (ok2 t ht) (ho.pairs s hs t ht).resolved.volS
    (ho.pairs s hs t ht).resolved.volT).1 (hw s hs t ht)
  have e : ((2 ^ 41 + 10 ^ 6 * R ^ 2 : ℕ) : ℝ) / ((10 ^ 6 * 2 ^ 41 : ℕ) : ℝ) = 1 / 10 ^ 6 + (R : ℝ) ^ 2 / 2 ^ 41 := by
    push_cast
    field_simp
    ring
  rw [e] at this
  exact this

/-- C110 with rounding: two objects that pass the test for a scale of at most 3: the call returns and the result is right. -/
theorem C110_objects_rounded_tested (F : Float64) (R : ℕ) (hR : 1 ≤ R) (hR3 : R ≤ 3) (kind : Kind)
    (draws : Simplex 4 → Simplex 4 → (n : Nat) → Draws n) (delaunay : Simplex 4 → Simplex 4 → Delaunay)
    (hd : ∀ s t, Sampled (draws s t)) (a b : Obj 4)
    (hD : ∀ s ∈ a, ∀ t ∈ b, ∀ r pns,
      (∀ v ∈ r, Vec.Ok v ∧ Candidate (Package.ico.perps s) (Package.ico.perps t) (Package.ico.perp v)) →
      F.delaunayInput r = .ok pns → ¬ InPlane (r.map Package.ico.perp) →
      FillsHullOf (r.map Package.ico.perp) (delaunay s t pns))
    (h0 : b ≠ []) (ok1 : Obj.Ok a) (ok2 : Obj.Ok b) (h : returnsTestRounded R a b = true) :
    ∃ r, F.intersectionApi kind draws delaunay (.d4 a) (.d4 b) = .ok r ∧
      volume ((Package.ico.region a ∩ Package.ico.region b) \ Package.ico.region (r.getD [])) = 0 ∧
      (kind = .standard → Package.ico.region (r.getD []) ⊆ Package.ico.region a ∩ Package.ico.region b) := by
  obtain ⟨ho, hw⟩ := returnsTestRounded_spec ok1 ok2 h0 h
  have hm : margin R ≤ 4 / 10 ^ 10 := by
    unfold margin
    have : (R : ℝ) ^ 3 ≤ 3 ^ 3 := pow_le_pow_left₀ (by positivity) (by exact_mod_cast hR3) 3
    norm_num at this ⊢
    linarith
  exact C110_objects_rounded F (R := R) (by exact_mod_cast hR) (by exact_mod_cast hR3.trans (by norm_num)) hm kind draws delaunay
    hd a b hD h0 ok1 ok2 ho hw

/-! ## Cases -/

/-- A tetrahedron on the other side of the face of `exAxesTet` through the origin, the five-fold and the three-fold axis;
the common part is a quadrilateral in that face, with irrational corners. -/
def exOtherSide : Simplex 4 :=
  ![![⟨1, 0, 4⟩, ⟨-1, 0, 4⟩, ⟨-1, 0, 4⟩, ⟨-1, 0, 4⟩, ⟨-1, 0, 4⟩, ⟨-1, 0, 4⟩],
    ![⟨1, 0, 4⟩, ⟨-1, 0, 4⟩, ⟨-1, 0, 4⟩, ⟨1, 0, 4⟩, ⟨-1, 0, 4⟩, ⟨-1, 0, 4⟩],
    ![⟨0, 1, 3⟩, ⟨0, -1, 3⟩, ⟨0, -1, 3⟩, ⟨0, 0, 1⟩, ⟨0, -1, 3⟩, ⟨0, -1, 3⟩],
    ![⟨-1, 0, 2⟩, ⟨1, 0, 2⟩, ⟨1, 0, 2⟩, ⟨0, 0, 1⟩, ⟨1, 0, 2⟩, ⟨0, 0, 1⟩]]

/-- A tetrahedron below the face z = 0 of `exBig`; the common part is the square with corners (0,0,0) and (1,1,0). -/
def exBelow : Simplex 4 := ![cart 1 1 0 1, cart (-1) 1 0 1, cart 1 (-1) 0 1, cart 0 0 (-1) 1]

/-- What `random.sample` may deliver. -/
example : Sampled fun n => if h : 3 < n then [(⟨0, by omega⟩, ⟨1, by omega⟩, ⟨2, by omega⟩)] else [] := by
  intro n hn
  simp [hn]

/-- The hypotheses are met by tetrahedra that touch in a quadrilateral with irrational corners. -/
theorem exOtherSide_test : returnsTest [exAxesTet] [exOtherSide] = true := by decide +kernel

theorem exOtherSide_flat : ¬ (interior (solid (Package.ico.perps exAxesTet) ∩ solid (Package.ico.perps exOtherSide))).Nonempty := by
  have h := (resolvedTest_iff (s := exAxesTet) (t := exOtherSide) (by decide) (by decide)).1 (by decide +kernel)
  exact (Gold.flat_iff (by decide +kernel) (simplex_grid (n := 12) (by decide) (by decide) (by decide +kernel))
    (simplex_grid (by decide) (by decide) (by decide +kernel)) h.volS h.volT).1 (by decide +kernel)

/-- `None` for them, whatever is drawn and whatever the library would answer. -/
example (draws : (n : Nat) → Draws n) (delaunay : Delaunay) (hd : Sampled draws) :
    intersectionTwoTetrahedra draws delaunay exAxesTet exOtherSide = .ok none := by
  have h := (resolvedTest_iff (s := exAxesTet) (t := exOtherSide) (by decide) (by decide)).1 (by decide +kernel)
  refine C110_touching draws delaunay hd _ _ (by decide) (by decide) h exOtherSide_flat ?_
  have := (C110_decidable 1 (10 ^ 6) (by norm_num) exAxesTet exOtherSide (by decide) (by decide) h.volS h.volT).1
    (by decide +kernel)
  norm_num at this ⊢
  exact this _ (by simp) _ (by simp) exOtherSide_flat

/-- The same with rounding, in any arithmetic. -/
example (F : Float64) (draws : (n : Nat) → Draws n) (delaunay : Delaunay) (hd : Sampled draws) :
    F.intersectionTwoTetrahedra draws delaunay exAxesTet exOtherSide = .ok none := by
  obtain ⟨h1, h2, h3, h4⟩ := pairTest_spec (R := 3) (s := exAxesTet) (t := exOtherSide) (by decide) (by decide)
    (by decide +kernel)
  refine C110_touching_rounded F (R := (3 : ℕ)) (by norm_num) (by norm_num) (by unfold margin; norm_num) draws delaunay hd _ _
    (by decide) (by decide) h1 h2 h3 h4 exOtherSide_flat ?_
  have := (C110_decidable (2 ^ 41 + 10 ^ 6 * 3 ^ 2) (10 ^ 6 * 2 ^ 41) (by norm_num) exAxesTet exOtherSide (by decide) (by decide)
    h4.resolved.volS h4.resolved.volT).1 (by decide +kernel)
  norm_num at this ⊢
  exact this _ (by simp) _ (by simp) exOtherSide_flat

/-- The hypotheses of `C110_objects_rounded_tested` are met by an object of which one piece touches and one overlaps. -/
theorem exBelow_test : returnsTestRounded 3 [exBig] [exBelow, exInv] = true := by decide +kernel

/-- The call returns for them, over the real numbers, with a library that fills hulls, whatever is drawn. -/
example : ∃ delaunay : Simplex 4 → Simplex 4 → Delaunay, ∀ draws : Simplex 4 → Simplex 4 → (n : Nat) → Draws n,
    (∀ s t, Sampled (draws s t)) → ∃ r, intersectionApi .standard draws delaunay (.d4 [exBig]) (.d4 [exBelow, exInv]) = .ok r ∧
      Package.ico.region (r.getD []) ⊆ Package.ico.region [exBig] ∩ Package.ico.region [exBelow, exInv] := by
  obtain ⟨delaunay, hD⟩ := exists_fills
  refine ⟨fun _ _ => delaunay, fun draws hd => ?_⟩
  obtain ⟨r, h1, -, h2⟩ := C110_objects_tested .standard draws (fun _ _ => delaunay) hd (fun _ _ => hD) [exBig] [exBelow, exInv]
    (by simp) (by unfold Obj.Ok; decide) (by unfold Obj.Ok; decide) (by decide +kernel)
  exact ⟨r, h1, h2 rfl⟩

/-! ## Narrow contacts -/

/-- C110: two tetrahedra that touch in a small quadrilateral: all triples are rejected as nearly collinear, the verdict is
neither yes nor no, and a flat tetrahedron on the four corners is returned although the common part is flat. -/
theorem C110_narrow (draws : (n : Nat) → Draws n) (delaunay : Delaunay) (s t : Simplex 4) (hs : Simplex.Ok s)
    (ht : Simplex.Ok t) (h : Resolved (Package.ico.perps s) (Package.ico.perps t))
    (hflat : ¬ (interior (solid (Package.ico.perps s) ∩ solid (Package.ico.perps t))).Nonempty)
    (h4 : ((solid (Package.ico.perps s) ∩ solid (Package.ico.perps t)).extremePoints ℝ).ncard = 4)
    (hw : ∀ a ∈ (solid (Package.ico.perps s) ∩ solid (Package.ico.perps t)).extremePoints ℝ,
      ∀ b ∈ (solid (Package.ico.perps s) ∩ solid (Package.ico.perps t)).extremePoints ℝ,
      ∀ c ∈ (solid (Package.ico.perps s) ∩ solid (Package.ico.perps t)).extremePoints ℝ,
      ∀ k, |crossProduct (b - a) (c - a) k| < 1 / 10 ^ 6) :
    ∃ a, intersectionTwoTetrahedra draws delaunay s t = .ok (some [a]) ∧ tetVol (Package.ico.perps a) = 0 ∧
      Set.range (Package.ico.perps a) = (solid (Package.ico.perps s) ∩ solid (Package.ico.perps t)).extremePoints ℝ := by
  rw [intersectionTwo_eq hs ht]
  have hp : ∀ v ∈ commonPts s t, Vec.Ok v := fun v hv => (commonPts_near hs ht hv).1
  obtain ⟨r, hr, hsub, hpw, huniq⟩ := C24_one_per_point .ico (commonPts s t) hp
  have hset : {x | x ∈ r.map Package.ico.perp} = (solid (Package.ico.perps s) ∩ solid (Package.ico.perps t)).extremePoints ℝ := by
    ext x
    constructor
    · intro hx
      obtain ⟨v, hv, rfl⟩ := List.mem_map.1 hx
      exact commonPts_extreme hs ht h (hsub v hv)
    · intro hx
      rw [← commonPts_hull hs ht h] at hx
      obtain ⟨v, hv, rfl⟩ := extremePoints_convexHull_subset hx
      obtain ⟨y, ⟨hy, e⟩, -⟩ := huniq v hv
      exact List.mem_map.2 ⟨y, hy, e⟩
  have hnd : (r.map Package.ico.perp).Nodup := by
    rw [List.Nodup, List.pairwise_map]
    exact hpw
  have hl : r.length = 4 := by
    rw [← h4, ← hset, ← List.length_map (f := Package.ico.perp), ← List.toFinset_card_of_nodup hnd, ← Set.ncard_coe_finset]
    congr 1
    ext x
    simp
  have hlp : (commonPts s t).length ≥ 4 := by
    have : (r.toFinset).card ≤ (commonPts s t).toFinset.card := Finset.card_le_card fun x hx => by
      rw [List.mem_toFinset] at hx ⊢
      exact hsub x hx
    rw [List.toFinset_card_of_nodup (hnd.of_map _), hl] at this
    exact this.trans (List.toFinset_card_le _)
  have hin : InPlane (r.map Package.ico.perp) :=
    inPlane_of_flat ((solid_convex _).inter (solid_convex _)) hflat fun x hx => by
      have : x ∈ {x | x ∈ r.map Package.ico.perp} := hx
      rw [hset] at this
      exact this.1
  have hcop : coplanarCheck draws r ≠ some true := by
    have e : r.map internalNumerical = r.map Package.ico.perp :=
      List.map_congr_left fun v _ => Package.ico.internalNumerical_eq v
    have hmem : ∀ i, (r.map internalNumerical).get i ∈
        (solid (Package.ico.perps s) ∩ solid (Package.ico.perps t)).extremePoints ℝ := by
      intro i
      rw [← hset]
      exact (congrArg (fun l => (r.map internalNumerical).get i ∈ l) e).mp (List.get_mem (r.map internalNumerical) i)
    unfold coplanarCheck
    rcases coplanarCheckNumeric_eq (r.map internalNumerical) (draws _) (by rw [List.length_map, hl]; norm_num) with
      ⟨h1, -⟩ | ⟨d, -, ⟨c, hc⟩, -⟩
    · rw [h1]; simp
    · exfalso
      rw [eps_eq] at hc
      exact absurd (hw _ (hmem d.1) _ (hmem d.2.1) _ (hmem d.2.2) c) (not_lt.2 hc)
  unfold tetrahedralizeCommon
  rw [if_pos hlp, hr, bind_ok', if_pos hl.ge, if_neg hcop, if_pos hl]
  unfold reshape4
  rw [dif_pos hl, bind_ok', bind_ok']
  simp only
  rw [objVolume_ok (by
    intro t ht k
    rw [List.mem_singleton] at ht
    subst ht
    exact hp _ (hsub _ (List.get_mem _ _))), bind_ok']
  refine ⟨_, rfl, ?_, ?_⟩
  · by_contra hv
    have h0 := Gold.coplanar4_inPlane.1 hin
    have hm : ∀ i : Fin 4, Package.ico.perp (r.get (Fin.cast hl.symm i)) ∈ r.map Package.ico.perp :=
      fun i => List.mem_map.2 ⟨_, List.get_mem _ _, rfl⟩
    have := h0 _ (hm 0) _ (hm 1) _ (hm 2) _ (hm 3)
    refine det4_ne_iff.2 hv ?_
    rw [det4_eq]
    unfold Gold.Coplanar4 at this
    simp only [cross_apply, vec3_dotProduct, Pi.sub_apply, cons_val_zero, cons_val_one, cons_val] at this
    rw [← this]
    unfold Package.perps
    ring
  · rw [← hset]
    ext x
    constructor
    · rintro ⟨k, rfl⟩
      exact List.mem_map.2 ⟨_, List.get_mem _ _, rfl⟩
    · intro hx
      obtain ⟨v, hv, rfl⟩ := List.mem_map.1 hx
      obtain ⟨i, rfl⟩ := List.get_of_mem hv
      exact ⟨i.cast hl, rfl⟩

/-- As `exBelow`, moved so that the common part is the square with corners (0,0,0) and (1/5000, 1/5000, 0). -/
def exNarrow : Simplex 4 := ![cart 1 1 0 5000, cart (-9999) 1 0 5000, cart 1 (-9999) 0 5000, cart 0 0 (-1) 1]

/-- C110: the width of the contact cannot be left out: a resolved pair of tetrahedra without common interior point for
which, whatever is drawn, a flat piece is returned instead of `None`. -/
theorem C110_fails_narrow : ∃ s t : Simplex 4, Simplex.Ok s ∧ Simplex.Ok t ∧ Resolved (Package.ico.perps s) (Package.ico.perps t) ∧
    interior (solid (Package.ico.perps s) ∩ solid (Package.ico.perps t)) = ∅ ∧
    ∀ draws delaunay, ∃ a, intersectionTwoTetrahedra draws delaunay s t = .ok (some [a]) ∧ tetVol (Package.ico.perps a) = 0 := by
  have ok1 : Simplex.Ok exBig := by decide
  have ok2 : Simplex.Ok exNarrow := by decide
  have h := (resolvedTest_iff ok1 ok2).1 (by decide +kernel)
  have g1 : Gold.Grid 10000 (Package.ico.perps exBig) (Simplex.gold 10000 exBig) :=
    simplex_grid (by decide) ok1 (by decide +kernel)
  have g2 : Gold.Grid 10000 (Package.ico.perps exNarrow) (Simplex.gold 10000 exNarrow) :=
    simplex_grid (by decide) ok2 (by decide +kernel)
  have hflat := (Gold.flat_iff (by decide) g1 g2 h.volS h.volT).1 (by decide +kernel)
  obtain ⟨hpos, hc⟩ := Gold.mem_corners (by decide) g1 g2 h.volS h.volT
  have hlen : (Gold.corners (Simplex.gold 10000 exBig) (Simplex.gold 10000 exNarrow)).length = 4 := by decide +kernel
  have hdis : Gold.all2 (fun f g => !Gold.Frac.same f g) (Gold.corners (Simplex.gold 10000 exBig) (Simplex.gold 10000 exNarrow)) = true := by
    decide +kernel
  have hnar : ((Gold.corners (Simplex.gold 10000 exBig) (Simplex.gold 10000 exNarrow)).all fun f =>
      (Gold.corners (Simplex.gold 10000 exBig) (Simplex.gold 10000 exNarrow)).all fun g =>
      (Gold.corners (Simplex.gold 10000 exBig) (Simplex.gold 10000 exNarrow)).all fun h => !Gold.wide 10000 1 1000000 f g h) = true := by
    decide +kernel
  generalize Gold.corners (Simplex.gold 10000 exBig) (Simplex.gold 10000 exNarrow) = L at hpos hc hlen hdis hnar
  have hnd : (L.map (Gold.Frac.pt 10000)).Nodup := by
    rw [Gold.all2_iff] at hdis
    rw [List.Nodup, List.pairwise_map]
    refine hdis.imp_of_mem fun {f g} hf hg hn e => ?_
    rw [(Gold.same_iff (n := 10000) (by decide) (hpos f hf) (hpos g hg)).2 e] at hn
    cases hn
  have hcard : ((solid (Package.ico.perps exBig) ∩ solid (Package.ico.perps exNarrow)).extremePoints ℝ).ncard = 4 := by
    refine Eq.trans ?_ hlen
    rw [← List.length_map (f := Gold.Frac.pt 10000), ← List.toFinset_card_of_nodup hnd, ← Set.ncard_coe_finset]
    congr 1
    ext x
    rw [hc x]
    simp
  refine ⟨exBig, exNarrow, ok1, ok2, h, Set.not_nonempty_iff_eq_empty.1 hflat, fun draws delaunay => ?_⟩
  obtain ⟨a, ha, hv, -⟩ := C110_narrow draws delaunay exBig exNarrow ok1 ok2 h hflat hcard (by
    intro x hx y hy z hz k
    obtain ⟨f, hf, rfl⟩ := (hc x).1 hx
    obtain ⟨g, hg, rfl⟩ := (hc y).1 hy
    obtain ⟨w, hw, rfl⟩ := (hc z).1 hz
    by_contra hn
    simp only [List.all_eq_true] at hnar
    have := hnar f hf g hg w hw
    rw [(Gold.wide_iff (n := 10000) (p := 1) (q := 1000000) (by decide) (by decide) (hpos f hf) (hpos g hg) (hpos w hw)).2
      ⟨k, by norm_num at hn ⊢; exact hn⟩] at this
    cases this)
  exact ⟨a, ha, hv⟩

end PyQC
