import Verif.Props.MachineIntersect
import Verif.Lemmas.Lebesgue
import Verif.Props.MachineVec
/-!
# C98: an intersection computed with 64-bit integers whose volume is reported wrongly
-/
namespace PyQC
open Matrix Ico MeasureTheory

def latt (a b c d e f : Int) : Vec 6 := ![⟨a, 0, 1⟩, ⟨b, 0, 1⟩, ⟨c, 0, 1⟩, ⟨d, 0, 1⟩, ⟨e, 0, 1⟩, ⟨f, 0, 1⟩]

/-- Two tetrahedra with coordinates -1, 0 and 1. -/
def latS : Simplex 4 :=
  ![latt 0 0 (-1) (-1) 1 1, latt 0 1 1 1 (-1) 1, latt (-1) (-1) 0 0 (-1) 0, latt 0 (-1) 0 1 1 (-1)]

def latT : Simplex 4 :=
  ![latt 1 1 0 (-1) 0 (-1), latt (-1) (-1) 0 0 1 0, latt (-1) 0 (-1) (-1) 0 (-1), latt 1 (-1) 0 0 0 1]

/-- Their common part: a corner of `latS` cut off by a face of `latT`. -/
def latU : Simplex 4 :=
  ![![⟨0, 0, 1⟩, ⟨276, -159, 779⟩, ⟨-227, -318, 779⟩, ⟨-227, -318, 779⟩, ⟨227, 318, 779⟩, ⟨1, 0, 1⟩], latS 0,
    ![⟨0, 0, 1⟩, ⟨-30, 9, 61⟩, ⟨-31, -9, 61⟩, ⟨-1, -18, 61⟩, ⟨1, 0, 1⟩, ⟨1, 18, 61⟩],
    ![⟨-111, 60, 229⟩, ⟨-111, 60, 229⟩, ⟨-118, -60, 229⟩, ⟨-118, -60, 229⟩, ⟨7, 120, 229⟩, ⟨118, 60, 229⟩]]

theorem lat_ok : Simplex.Ok latS ∧ Simplex.Ok latT ∧ Simplex.Ok latU := by decide

theorem lat_objects : objectsTest 6 [latS] [latT] = true := by decide +kernel

theorem lat_pair : pairTest 6 latS latT = true := by
  have h := lat_objects
  unfold objectsTest at h
  rw [Bool.and_eq_true, Bool.and_eq_true] at h
  have h := h.1.2
  rw [List.all_eq_true] at h
  exact List.all_eq_true.1 (h _ List.mem_cons_self) _ List.mem_cons_self

theorem lat_same : sameObjects [latS] [latT] = true := by decide +kernel

theorem lat_grid : (∀ i, VecOnGrid 1 1 (latS i)) ∧ ∀ i, VecOnGrid 1 1 (latT i) := by
  have : ∀ i j, ((latS i j).c = 1 ∧ |(latS i j).a| ≤ 1 ∧ |(latS i j).b| ≤ 1) ∧ (latT i j).c = 1 ∧ |(latT i j).a| ≤ 1 ∧ |(latT i j).b| ≤ 1 := by
    decide +kernel
  refine ⟨fun i j => ⟨1, ?_, ?_, ?_⟩, fun i j => ⟨1, ?_, ?_, ?_⟩⟩ <;> simp [this i j]

theorem lat_collected : ∃ l : List (Vec 6), collected latS latT = l ∧ l.length = 4 ∧ (∀ k, latU k ∈ l) ∧ (∀ v ∈ l, ∃ k, latU k = v) ∧
    Machine.removeDoublingPerp64 .ico l = .ok [latU 0, latU 1, latU 2, latU 3] := by
  refine ⟨[latU 0, latU 3, latU 2, latU 1], by decide +kernel, rfl, ?_, ?_, by decide +kernel⟩
  · intro k; fin_cases k <;> simp
  · simp

theorem lat_common : solid (Package.ico.perps latU) = solid (Package.ico.perps latS) ∩ solid (Package.ico.perps latT) := by
  obtain ⟨-, -, -, h⟩ := pairTest_spec lat_ok.1 lat_ok.2.1 lat_pair
  obtain ⟨l, hl, -, h1, h2, -⟩ := lat_collected
  rw [← commonPts_hull lat_ok.1 lat_ok.2.1 h.resolved, ← collected_eq lat_ok.1 lat_ok.2.1, hl]
  unfold solid
  congr 1
  ext x
  constructor
  · rintro ⟨k, rfl⟩; exact ⟨_, h1 k, rfl⟩
  · rintro ⟨v, hv, rfl⟩
    obtain ⟨k, rfl⟩ := h2 v hv
    exact ⟨k, rfl⟩

theorem tetVol_of {t : Simplex 4} (ht : Simplex.Ok t) {v : Num3} (h : tetrahedronVolume6d t = .ok v) :
    tetVol (Package.ico.perps t) = v.val tau := by
  rw [tetrahedronVolume6d_ok ht] at h
  cases h
  rw [← coe_kvol]
  exact (val_norm _).symm

theorem lat_volumes : tetVol (Package.ico.perps latU) = (15230151 - 9410292 * tau) / 10881851 ∧
    tetVol (Package.ico.perps latS) < 1 := by
  constructor
  · rw [tetVol_of lat_ok.2.2 (v := ⟨15230151, -9410292, 10881851⟩) (by decide +kernel)]
    simp [Num3.val]
    ring
  · rw [tetVol_of lat_ok.1 (v := ⟨24, -13, 3⟩) (by decide +kernel)]
    have := tau_bounds
    simp only [Num3.val]
    rw [div_lt_one (by norm_num)]
    push_cast
    linarith [this.1]

theorem lat_small : 0 < tetVol (Package.ico.perps latU) ∧ tetVol (Package.ico.perps latU) < 1 / 1000 := by
  rw [lat_volumes.1]
  have h := tau_bounds
  have h5 := tau_sq
  have b1 : (1618033 / 1000000 : ℝ) < tau := by nlinarith
  have b2 : tau < (1618034 / 1000000 : ℝ) := by nlinarith
  constructor
  · apply div_pos <;> linarith
  · rw [div_lt_iff₀ (by norm_num)]
    linarith

theorem lat_interior : (interior (solid (Package.ico.perps latS) ∩ solid (Package.ico.perps latT))).Nonempty := by
  by_contra h
  have := common_null h
  rw [← lat_common, volume_solid, ENNReal.ofReal_eq_zero] at this
  linarith [lat_small.1]

/-- The triple product of the edges of `latU`, in 64-bit integers. -/
theorem lat_triple : tripleWith (Machine.arith .ico) (Machine.projection3 .ico) latU =
    .ok ⟨-20718231085871660, -15286365935934462, 7531612301260959⟩ := by decide +kernel

theorem lat_negative (F : Float64) : F.numericValue ⟨-20718231085871660, -15286365935934462, 7531612301260959⟩ < 0 := by
  have h := (numericValue_approx F (R := 10) (by norm_num) (by norm_num)
    (t := ⟨-20718231085871660, -15286365935934462, 7531612301260959⟩) (by decide) (by norm_num) (by norm_num)).err
  have hv : Num3.val tau ⟨-20718231085871660, -15286365935934462, 7531612301260959⟩ < -1 := by
    simp only [Num3.val]
    rw [div_lt_iff₀ (by norm_num)]
    have := tau_bounds.1
    push_cast
    linarith
  have h2 := (abs_le.1 h).2
  have u1 := ulp_small.1
  have : (1 : ℝ) / 2 ^ 53 ≤ 1 / 1000 := by norm_num
  linarith

open Classical in
theorem lat_volume64 (F : Float64) : F.icoVolume6d latU = .ok ⟨10359115542935830, 7643182967967231, 22594836903782876⟩ := by
  rw [icoVolume6d_triple, lat_triple, bind_ok', if_pos (lat_negative F)]
  decide +kernel

theorem lat_object64 (F : Float64) : F.objVolume6d (.d4 [latU]) = .ok (some ⟨10359115542935830, 7643182967967231, 22594836903782876⟩) := by
  have ht : PyQC.Ico.asTetra latU = .ok latU := by simp [PyQC.Ico.asTetra]
  have h1 : ∀ (f : Num3 → Simplex 4 → Py Num3) (v : Num3), f ⟨0, 0, 1⟩ latU = .ok v → foldPy f ⟨0, 0, 1⟩ [latU] = .ok v := by
    intro f v hf
    simp only [foldPy, hf]
  have hs : F.sumVolumes ⟨0, 0, 1⟩ [latU] = .ok ⟨10359115542935830, 7643182967967231, 22594836903782876⟩ :=
    h1 _ _ (bind_to ht (bind_to (lat_volume64 F) (by decide +kernel)))
  exact bind_to hs rfl

/-- The intersection of the two tetrahedra, for all draws and whatever the tetrahedralisation library does: it is not called. -/
theorem lat_two (F : Float64) (draws : (n : Nat) → Draws n) (delaunay : Delaunay) :
    F.intersectionTwoTetrahedra64 draws delaunay latS latT = .ok (some [latU]) := by
  obtain ⟨h1, h2, h3, h4⟩ := pairTest_spec lat_ok.1 lat_ok.2.1 lat_pair
  have hR : (1 : ℝ) ≤ (6 : ℕ) := by norm_num
  have hR2 : ((6 : ℕ) : ℝ) ≤ 2 ^ 10 := by norm_num
  rw [collected64 F hR hR2 lat_ok.1 lat_ok.2.1 h1 h2 h4.apartST h4.apartTS
    (C98_crossing F 1 1 le_rfl le_rfl (by norm_num) (by norm_num) latS latT lat_grid.1 lat_grid.2)]
  obtain ⟨l, hl, hlen, hin, hout, hrd⟩ := lat_collected
  have hcp : commonPts latS latT = l := by rw [← collected_eq lat_ok.1 lat_ok.2.1, hl]
  have hsub : ∀ v ∈ [latU 0, latU 1, latU 2, latU 3], v ∈ commonPts latS latT := by
    rw [hcp]
    simp only [List.mem_cons, List.not_mem_nil, or_false]
    rintro v (rfl | rfl | rfl | rfl) <;> exact hin _
  have hplane : ¬ InPlane ([latU 0, latU 1, latU 2, latU 3].map Package.ico.perp) := by
    intro hp
    have h := hull_flat hp
    refine h ?_
    have e : convexHull ℝ {x | x ∈ [latU 0, latU 1, latU 2, latU 3].map Package.ico.perp} = solid (Package.ico.perps latU) := by
      unfold solid
      congr 1
      ext x
      simp only [List.map_cons, List.map_nil, List.mem_cons, List.not_mem_nil, or_false, Set.mem_ofPred_eq, Set.mem_range]
      constructor
      · rintro (rfl | rfl | rfl | rfl) <;> exact ⟨_, rfl⟩
      · rintro ⟨k, rfl⟩
        fin_cases k <;> simp [Package.perps]
    rw [e, lat_common]
    exact lat_interior
  have hsmall : ∀ v ∈ commonPts latS latT, Small .ico ((6 : ℕ) : ℝ) v := by
    intro v hv
    unfold commonPts at hv
    rw [List.mem_append, List.mem_append, List.mem_filter, List.mem_filter] at hv
    rcases hv with (hv | ⟨hv, -⟩) | ⟨hv, -⟩
    · exact h3 _ (crossingPoints_ok lat_ok.1 lat_ok.2.1) v hv
    · obtain ⟨i, rfl⟩ := (List.mem_ofFn' _ _).mp hv; exact h1 i
    · obtain ⟨i, rfl⟩ := (List.mem_ofFn' _ _).mp hv; exact h2 i
  have hcop : ¬ F.coplanarCheck draws [latU 0, latU 1, latU 2, latU 3] = some true := fun hc =>
    hplane (coplanar_true_rounded F hR hR2 (fun v hv => hsmall v (hsub v hv))
      (fun v hv => (commonPts_exact lat_ok.1 lat_ok.2.1 h4.resolved (hsub v hv)).1) h4.flat hc)
  have hre : reshape4 [latU 0, latU 1, latU 2, latU 3] = .ok [latU] := by
    unfold reshape4
    rw [dif_pos (show [latU 0, latU 1, latU 2, latU 3].length = 4 from rfl)]
    congr 2
    funext k
    fin_cases k <;> rfl
  rw [hcp]
  unfold Float64.tetrahedralizeCommon64
  rw [if_pos (by omega), hrd, bind_ok', if_pos (by decide), if_neg hcop]
  simp only
  rw [if_pos (show [latU 0, latU 1, latU 2, latU 3].length = 4 from rfl), hre, bind_ok', bind_ok']
  simp only
  rw [lat_object64 F, bind_ok']

/-- C98: a right intersection whose volume is reported wrongly. The two tetrahedra have coordinates -1, 0 and 1. In every
floating-point arithmetic, `intersection` returns their common part, of volume below 1/1000. Computing its volume overflows:
the volume reported for it exceeds 1, which is more than the volume of the first tetrahedron. -/
theorem C98_volume_wrong (F : Float64) (draws : Simplex 4 → Simplex 4 → (n : Nat) → Draws n)
    (delaunay : Simplex 4 → Simplex 4 → Delaunay) :
    ∃ u : Simplex 4, F.intersectionApi64 .standard draws delaunay (.d4 [latS]) (.d4 [latT]) = .ok (some [u]) ∧
      solid (Package.ico.perps u) = solid (Package.ico.perps latS) ∩ solid (Package.ico.perps latT) ∧
      tetVol (Package.ico.perps u) < 1 / 1000 ∧ tetVol (Package.ico.perps latS) < 1 ∧
      ∃ v, F.objVolume6d (.d4 [u]) = .ok (some v) ∧ 1 < v.val tau := by
  refine ⟨latU, ?_, lat_common, lat_small.2, lat_volumes.2, _, lat_object64 F, ?_⟩
  · have ok1 : Obj.Ok [latS] := by intro s hs; rw [List.mem_singleton.1 hs]; exact lat_ok.1
    have ok2 : Obj.Ok [latT] := by intro s hs; rw [List.mem_singleton.1 hs]; exact lat_ok.2.1
    have h0 : [latT] ≠ [] := by simp
    have hR : (1 : ℝ) ≤ (6 : ℕ) := by norm_num
    have hR2 : ((6 : ℕ) : ℝ) ≤ 2 ^ 10 := by norm_num
    have hsame := lat_same
    unfold sameObjects at hsame
    rw [Bool.and_eq_true] at hsame
    obtain ⟨c, dd, hc, hdd, -, hro⟩ := objects_rounded_rough F hR hR2 .standard draws delaunay h0 ok1 ok2
      (objectsTest_spec ok1 ok2 h0 lat_objects)
    obtain ⟨g1, g2, g3⟩ := rough64_same F ok1 ok2 hsame.1 hc
    obtain ⟨b, hb, hb0⟩ := hro latS List.mem_cons_self
    have hbt : b = true := by
      cases b with
      | true => rfl
      | false => exact absurd lat_interior (hb0 rfl latT List.mem_cons_self)
    subst hbt
    have hcode : F.checkTwoTetrahedra latS latT = 3 := by
      rw [(C97_codes F 6 (by norm_num) (by norm_num) latS latT lat_ok.1 lat_ok.2.1 lat_pair).1]
      decide +kernel
    have hone : F.onePiece64 .standard (fun t => F.roughCheck64 t c dd) (fun s t => .ok (F.checkTwoTetrahedra s t))
        (fun s t => F.intersectionTwoTetrahedra64 (draws s t) (delaunay s t) s t) [latT] latS = .ok [latU] := by
      rw [onePiece64_standard]
      unfold onePiece
      simp only
      rw [g3 latS List.mem_cons_self dd, hb, bind_ok', if_pos rfl]
      unfold innerLoop
      rw [hcode, bind_ok', if_neg (by decide), if_neg (by decide), if_pos rfl, lat_two F, bind_ok']
      rfl
    show F.intersectionTwoObj64 .standard draws delaunay [latS] [latT] = _
    unfold Float64.intersectionTwoObj64
    rw [g1, bind_ok', g2, hdd, bind_ok', fillList_cons_ok hone (show fillList _ [] = .ok [] from rfl), bind_ok']
    rfl
  · simp only [Num3.val]
    rw [lt_div_iff₀ (by norm_num)]
    have := tau_bounds.1
    push_cast
    linarith

/-- The two objects meet the hypotheses of `C98_objects`, and with a library that answers with all quadruples also those on the
tetrahedralisation. -/
example (F : Float64) (r : Option (Obj 4))
    (hr : F.intersectionApi64 .simple (fun _ _ _ => []) (fun _ _ pns => some (allQuads pns.length)) (.d4 [latS]) (.d4 [latT]) = .ok r) :
    volume ((Package.ico.region [latS] ∩ Package.ico.region [latT]) \ Package.ico.region (r.getD [])) = 0 :=
  (C98_objects F 6 (by norm_num) (by norm_num) .simple (fun _ _ _ => []) (fun _ _ pns => some (allQuads pns.length)) [latS] [latT]
    (fun _ _ _ _ r pns _ hi hn => quads_fill F r pns hi hn)
    (by intro s hs; rw [List.mem_singleton.1 hs]; exact lat_ok.1) (by intro s hs; rw [List.mem_singleton.1 hs]; exact lat_ok.2.1)
    (by simp) lat_objects lat_same r hr).1

/-- They meet the hypotheses of `C98_two_inside`, with d = N = 1 and R = 6; `C98_inside` is the same for every pair. -/
example (F : Float64) (draws : Simplex 4 → Simplex 4 → (n : Nat) → Draws n) (delaunay : Simplex 4 → Simplex 4 → Delaunay) :
    Package.ico.region [latU] ⊆ Package.ico.region [latS] ∩ Package.ico.region [latT] := by
  obtain ⟨h1, h2, -, h4⟩ := pairTest_spec lat_ok.1 lat_ok.2.1 lat_pair
  rintro x ⟨a, ha, hx⟩
  rw [List.mem_singleton.1 ha] at hx
  obtain ⟨hs, ht⟩ := C98_two_inside F (R := (6 : ℕ)) (by norm_num) (by norm_num) 1 1 le_rfl le_rfl (by norm_num) (by norm_num)
    (draws latS latT) (delaunay latS latT) latS latT lat_grid.1 lat_grid.2 h1 h2 h4 [latU] (lat_two F _ _) ⟨latU, List.mem_cons_self, hx⟩
  exact ⟨⟨latS, List.mem_cons_self, hs⟩, ⟨latT, List.mem_cons_self, ht⟩⟩

end PyQC
