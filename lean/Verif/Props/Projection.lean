import Verif.Lemmas.Space
import Verif.Model.Numeric
import Mathlib.Analysis.Convex.Combination
/-!
# C11–C14: projections and centroids
-/
namespace PyQC

/-! ## C11 -/

/-- `projection_numerical` of the package. -/
noncomputable def Package.projectionNumerical : Package → (Fin 6 → ℝ) → (Fin 6 → ℝ)
  | .ico => Ico.projectionNumerical
  | .dode => Dode.projectionNumerical

/-- `projection3_numerical` of the package. -/
noncomputable def Package.projection3Numerical : Package → (Fin 6 → ℝ) → (Fin 3 → ℝ)
  | .ico => Ico.projection3Numerical
  | .dode => Dode.projection3Numerical

variable (p : Package)

/-- C11: `projection3` never raises, and its value is the point of perpendicular space (explicit
matrix), in canonical form. -/
theorem C11_projection3 (v : Vec 6) (hv : Vec.Ok v) :
    ∃ r, p.projection3 v = .ok r ∧ p.val r = p.perp v ∧ Vec.Canon r :=
  ⟨_, p.projection3_ok hv, p.val_projection3, nvec_canon _⟩

/-- C11: `projection` returns the parallel and the perpendicular point; the latter is the same array
as `projection3`. -/
theorem C11_projection (v : Vec 6) (hv : Vec.Ok v) :
    ∃ e i, p.projection v = .ok (e, i) ∧ p.projection3 v = .ok i ∧
      p.val e = p.par v ∧ p.val i = p.perp v ∧ Vec.Canon e ∧ Vec.Canon i :=
  ⟨_, _, p.projection_ok hv, p.projection3_ok hv,
    by rw [Package.val, val_nvec, p.coe_kpar_mulVec], p.val_projection3,
    nvec_canon _, nvec_canon _⟩

/-- C11: the numerical functions see the same points: `projection3_numerical` of the real coordinates
is the perp point, and `projection_numerical` lists parallel then perpendicular coordinates. -/
theorem C11_numerical (v : Vec 6) :
    p.projection3Numerical (numericalVector p.theta v) = p.perp v ∧
    (∀ i : Fin 3, p.projectionNumerical (numericalVector p.theta v) (Fin.castLE (by decide) i) =
      p.par v i) ∧
    (∀ i : Fin 3, p.projectionNumerical (numericalVector p.theta v) (Fin.natAdd 3 i) =
      p.perp v i) := by
  have hn : numericalVector p.theta v = Vec.val p.theta v := rfl
  rw [hn]
  unfold Package.perp Package.par
  generalize Vec.val p.theta v = x
  refine ⟨?_, ?_, ?_⟩
  · cases p <;> funext i <;> fin_cases i <;>
      simp [Package.projection3Numerical, Ico.projection3Numerical, Dode.projection3Numerical,
        Package.perpMat, Matrix.mulVec, dotProduct, Fin.sum_univ_six] <;> ring
  · cases p <;> intro i <;> fin_cases i <;>
      simp [Package.projectionNumerical, Ico.projectionNumerical, Dode.projectionNumerical,
        Package.parMat, Matrix.mulVec, dotProduct, Fin.sum_univ_six, Fin.castLE] <;> ring
  · cases p <;> intro i <;> fin_cases i <;>
      simp [Package.projectionNumerical, Ico.projectionNumerical, Dode.projectionNumerical,
        Package.perpMat, Matrix.mulVec, dotProduct, Fin.sum_univ_six, Fin.natAdd] <;> ring

/-- C11: `projection3` is additive, as arrays. -/
theorem C11_add (v w : Vec 6) (hv : Vec.Ok v) (hw : Vec.Ok w) :
    (do let s ← addVectors p.arith v w; p.projection3 s) =
      (do let a ← p.projection3 v; let b ← p.projection3 w; addVectors p.arith a b) := by
  rw [addVectors_ok p.lawful hv hw, bind_ok', p.projection3_ok hv, p.projection3_ok hw, bind_ok',
    bind_ok', p.projection3_ok (nvec_ok _), addVectors_ok p.lawful (nvec_ok _) (nvec_ok _)]
  simp [Matrix.mulVec_add]

/-- C11: `projection3` commutes with scalar multiplication, as arrays. -/
theorem C11_smul (v : Vec 6) (k : Num3) (hv : Vec.Ok v) (hk : k.c ≠ 0) :
    (do let s ← mulVector p.arith v k; p.projection3 s) =
      (do let a ← p.projection3 v; mulVector p.arith a k) := by
  rw [mulVector_ok p.lawful hv hk, bind_ok', p.projection3_ok hv, bind_ok',
    p.projection3_ok (nvec_ok _), mulVector_ok p.lawful (nvec_ok _) hk]
  congr 2
  rw [kvec_nvec, kvec_nvec]
  have : (fun i => kvec p.theta v i * kval p.theta k) = kval p.theta k • kvec p.theta v := by
    funext i; simp [mul_comm]
  rw [this, Matrix.mulVec_smul]
  funext i; simp [mul_comm]

/-- C11: the same for both parts of `projection`. -/
theorem C11_projection_add (v w : Vec 6) (hv : Vec.Ok v) (hw : Vec.Ok w) :
    (do let s ← addVectors p.arith v w; p.projection s) =
      (do
        let a ← p.projection v
        let b ← p.projection w
        let e ← addVectors p.arith a.1 b.1
        let i ← addVectors p.arith a.2 b.2
        .ok (e, i)) := by
  rw [addVectors_ok p.lawful hv hw, bind_ok', p.projection_ok hv, p.projection_ok hw, bind_ok',
    bind_ok', p.projection_ok (nvec_ok _), addVectors_ok p.lawful (nvec_ok _) (nvec_ok _),
    addVectors_ok p.lawful (nvec_ok _) (nvec_ok _), bind_ok', bind_ok']
  simp [Matrix.mulVec_add]

/-- Concrete 6D vector used in the examples. -/
def exV : Vec 6 := ![⟨1, 0, 2⟩, ⟨0, 1, 1⟩, ⟨0, 0, 1⟩, ⟨-1, 2, 3⟩, ⟨4, 0, 6⟩, ⟨1, 1, -1⟩]

example : Vec.Ok exV := by decide
example : Ico.projection3 exV = .ok ![⟨0, -7, 6⟩, ⟨-9, -10, 6⟩, ⟨5, 8, 3⟩] := by decide +kernel
example : Dode.projection3 exV = .ok ![⟨1, 1, 6⟩, ⟨-9, 4, 12⟩, ⟨-1, -1, 1⟩] := by decide +kernel

/-! ## C12 -/

/-- Rational components: the coefficient of the irrational is 0. -/
def Vec.Rational {n : Nat} (v : Vec n) : Prop := ∀ i, (v i).b = 0

/-- C12: icosahedral 6D vectors with rational components are determined by their `projection3`. -/
theorem C12_injective (v w : Vec 6) (hv : Vec.Ok v) (hw : Vec.Ok w)
    (rv : Vec.Rational v) (rw' : Vec.Rational w)
    (h : Ico.projection3 v = Ico.projection3 w) : Vec.val tau v = Vec.val tau w := by
  have h' : Package.ico.perp v = Package.ico.perp w := by
    have e := (Package.ico.projection3_ok hv).symm.trans (h.trans (Package.ico.projection3_ok hw))
    injection e with e
    exact Package.ico.kperp_eq_iff.mp (nvec_inj.mp e)
  have hr : ∀ {u : Vec 6}, Vec.Rational u → ∀ i, Vec.val tau u i = ((u i).a / (u i).c : ℚ) := by
    intro u hu i
    have := hu i
    simp [Vec.val, Num3.val, this]
  generalize hx : (fun i => ((v i).a / (v i).c : ℚ) - ((w i).a / (w i).c : ℚ)) = d
  have hd : ∀ i, (d i : ℝ) = Vec.val tau v i - Vec.val tau w i := by
    intro i; rw [hr rv, hr rw', ← hx]; push_cast; ring
  have key : ∀ q r : ℚ, (q : ℝ) + r * tau = 0 → q = 0 ∧ r = 0 := fun q r h => irr_zero tau h
  have c0 := congrFun h' 0
  have c1 := congrFun h' 1
  have c2 := congrFun h' 2
  simp only [Package.perp, Package.perpMat, Package.theta, Matrix.mulVec, dotProduct,
    Fin.sum_univ_six] at c0 c1 c2
  simp at c0 c1 c2
  have k0 := key (-(d 1) - d 2) (d 0 - d 4) (by push_cast; rw [hd, hd, hd, hd]; linarith)
  have k1 := key (-(d 0) - d 4) (d 3 + d 5) (by push_cast; rw [hd, hd, hd, hd]; linarith)
  have k2 := key (d 3 - d 5) (d 1 - d 2) (by push_cast; rw [hd, hd, hd, hd]; linarith)
  obtain ⟨⟨a1, a2⟩, ⟨a3, a4⟩, ⟨a5, a6⟩⟩ := And.intro k0 (And.intro k1 k2)
  have e0 : d 0 = 0 := by linarith
  have e1 : d 1 = 0 := by linarith
  have e2 : d 2 = 0 := by linarith
  have e3 : d 3 = 0 := by linarith
  have e4 : d 4 = 0 := by linarith
  have e5 : d 5 = 0 := by linarith
  have hz : ∀ i, d i = 0 := by intro i; fin_cases i <;> assumption
  funext i
  have := hd i
  rw [hz i] at this
  push_cast at this
  linarith

/-- C12: as arrays, when the components are in lowest terms. -/
theorem C12_injective_array (v w : Vec 6) (hv : Vec.Canon v) (hw : Vec.Canon w)
    (rv : Vec.Rational v) (rw' : Vec.Rational w)
    (h : Ico.projection3 v = Ico.projection3 w) : v = w := by
  have h1 := C12_injective v w hv.ok hw.ok rv rw' h
  funext i
  exact canon_unique (θ := tau) (hv i) (hw i) (congrFun h1 i)

/-- Rationality cannot be dropped: a vector of parallel space has the perp image of the origin. -/
theorem C12_rational_needed : ∃ v w : Vec 6, Vec.Canon v ∧ Vec.Canon w ∧
    Ico.projection3 v = Ico.projection3 w ∧ v ≠ w :=
  ⟨![⟨1, 0, 1⟩, ⟨0, 1, 1⟩, ⟨0, 1, 1⟩, ⟨0, 0, 1⟩, ⟨-1, 0, 1⟩, ⟨0, 0, 1⟩], zeroVec 6,
    by decide, by decide, by decide +kernel, by decide⟩

example : Vec.Canon (![⟨1, 0, 2⟩, ⟨-1, 0, 1⟩, ⟨0, 0, 1⟩, ⟨2, 0, 3⟩, ⟨0, 0, 1⟩, ⟨5, 0, 1⟩] : Vec 6) ∧
    Vec.Rational (![⟨1, 0, 2⟩, ⟨-1, 0, 1⟩, ⟨0, 0, 1⟩, ⟨2, 0, 3⟩, ⟨0, 0, 1⟩, ⟨5, 0, 1⟩] : Vec 6) := by
  constructor
  · decide
  · intro i; fin_cases i <;> rfl

/-! ## C13 -/

/-- Field matrix of `projection_perp`. -/
noncomputable def kPerp : Matrix (Fin 6) (Fin 6) (K Package.ico.theta) :=
  fun i j => kval Package.ico.theta ((![![Ico.p1, Ico.p3, Ico.p3, Ico.p3, Ico.p3, Ico.p3],
    ![Ico.p3, Ico.p1, Ico.p3, Ico.p2, Ico.p2, Ico.p3],
    ![Ico.p3, Ico.p3, Ico.p1, Ico.p3, Ico.p2, Ico.p2],
    ![Ico.p3, Ico.p2, Ico.p3, Ico.p1, Ico.p3, Ico.p2],
    ![Ico.p3, Ico.p2, Ico.p2, Ico.p3, Ico.p1, Ico.p3],
    ![Ico.p3, Ico.p3, Ico.p2, Ico.p2, Ico.p3, Ico.p1]] : Fin 6 → Fin 6 → Num3) i j)

theorem projectionPerp_ok {v : Vec 6} (hv : Vec.Ok v) :
    Ico.projectionPerp v = .ok (nvec (kPerp.mulVec (kvec Package.ico.theta v))) := by
  simp (disch := first | assumption | decide) only [Ico.projectionPerp,
    mtrixcal_ok (show Lawful Ico.arith Package.ico.theta from Package.ico.lawful), bind_ok']
  congr 1
  funext i
  fin_cases i <;> simp [nvec, Matrix.mulVec, dotProduct, Fin.sum_univ_six, kPerp]

/-- Real components of `projection_perp`. -/
theorem coe_kPerp (x : Fin 6 → K Package.ico.theta) (i : Fin 6) :
    ((kPerp.mulVec x i : K Package.ico.theta) : ℝ) = Matrix.mulVec (!![1/2, (1-2*tau)/10, (1-2*tau)/10, (1-2*tau)/10, (1-2*tau)/10, (1-2*tau)/10;
      (1-2*tau)/10, 1/2, (1-2*tau)/10, (-1+2*tau)/10, (-1+2*tau)/10, (1-2*tau)/10;
      (1-2*tau)/10, (1-2*tau)/10, 1/2, (1-2*tau)/10, (-1+2*tau)/10, (-1+2*tau)/10;
      (1-2*tau)/10, (-1+2*tau)/10, (1-2*tau)/10, 1/2, (1-2*tau)/10, (-1+2*tau)/10;
      (1-2*tau)/10, (-1+2*tau)/10, (-1+2*tau)/10, (1-2*tau)/10, 1/2, (1-2*tau)/10;
      (1-2*tau)/10, (1-2*tau)/10, (-1+2*tau)/10, (-1+2*tau)/10, (1-2*tau)/10, 1/2] : Matrix _ _ ℝ)
      (fun j => (x j : ℝ)) i := by
  rw [coe_mulVec]
  congr 2
  ext i j
  show Num3.val Package.ico.theta _ = _
  fin_cases i <;> fin_cases j <;> simp [Num3.val, Package.theta, Ico.p1, Ico.p2, Ico.p3] <;> ring

theorem kPerp_perp (x : Fin 6 → K Package.ico.theta) :
    Package.ico.kperp.mulVec (kPerp.mulVec x) = Package.ico.kperp.mulVec x := by
  funext i
  apply Subtype.ext
  rw [coe_mulVec, coe_mulVec]
  simp only [Package.ico.coe_kperp, coe_kPerp]
  generalize (fun j => (x j : ℝ)) = y
  clear x
  have h := tau_sq
  simp only [Package.perpMat]
  generalize tau = t at *
  fin_cases i <;> simp [Matrix.mulVec, dotProduct, Fin.sum_univ_six] <;> ring_nf <;>
    simp only [h] <;> ring

theorem kPerp_par (x : Fin 6 → K Package.ico.theta) : Package.ico.kpar.mulVec (kPerp.mulVec x) = 0 := by
  funext i
  apply Subtype.ext
  rw [coe_mulVec]
  simp only [Package.ico.coe_kpar, coe_kPerp]
  generalize (fun j => (x j : ℝ)) = y
  clear x
  have h := tau_sq
  simp only [Package.parMat]
  generalize tau = t at *
  fin_cases i <;> simp [Matrix.mulVec, dotProduct, Fin.sum_univ_six] <;> ring_nf <;>
    simp only [h] <;> ring

theorem kPerp_idem (x : Fin 6 → K Package.ico.theta) : kPerp.mulVec (kPerp.mulVec x) = kPerp.mulVec x := by
  funext i
  apply Subtype.ext
  rw [coe_kPerp, coe_kPerp]
  simp only [coe_kPerp]
  generalize (fun j => (x j : ℝ)) = y
  clear x
  have h := tau_sq
  generalize tau = t at *
  fin_cases i <;> simp [Matrix.mulVec, dotProduct, Fin.sum_univ_six] <;> ring_nf <;>
    simp only [h] <;> ring

/-- C13: `projection_perp` never raises; its result has the perp image of `v` and parallel image 0. -/
theorem C13_perp_par (v : Vec 6) (hv : Vec.Ok v) :
    ∃ r, Ico.projectionPerp v = .ok r ∧ Vec.Canon r ∧
      Package.ico.perp r = Package.ico.perp v ∧ Package.ico.par r = 0 := by
  refine ⟨_, projectionPerp_ok hv, nvec_canon _, ?_, ?_⟩
  · rw [← Package.ico.coe_kperp_mulVec, ← Package.ico.coe_kperp_mulVec]
    rw [kvec_nvec, kPerp_perp]
  · rw [← Package.ico.coe_kpar_mulVec]
    rw [kvec_nvec, kPerp_par]
    rfl

/-- C13: as arrays, `projection` of the result is (zero, `projection3 v`). -/
theorem C13_projection (v : Vec 6) (hv : Vec.Ok v) :
    (do let r ← Ico.projectionPerp v; Ico.projection r) =
      (do let i ← Ico.projection3 v; .ok (zeroVec 3, i)) := by
  have h1 : Ico.projection3 v = _ := Package.ico.projection3_ok hv
  have h2 : Ico.projection (nvec (kPerp.mulVec (kvec Package.ico.theta v))) = _ :=
    Package.ico.projection_ok (nvec_ok _)
  rw [projectionPerp_ok hv, bind_ok', h1, h2, bind_ok']
  rw [kvec_nvec, kPerp_par, kPerp_perp, nvec_zero]

/-- C13: applying it twice gives the same array as applying it once. -/
theorem C13_idempotent (v : Vec 6) (hv : Vec.Ok v) :
    (do let r ← Ico.projectionPerp v; Ico.projectionPerp r) = Ico.projectionPerp v := by
  rw [projectionPerp_ok hv, bind_ok', projectionPerp_ok (nvec_ok _), kvec_nvec, kPerp_idem]

/-- C13: additive, as arrays. -/
theorem C13_add (v w : Vec 6) (hv : Vec.Ok v) (hw : Vec.Ok w) :
    (do let s ← addVectors Package.ico.arith v w; Ico.projectionPerp s) =
      (do let a ← Ico.projectionPerp v; let b ← Ico.projectionPerp w; addVectors Package.ico.arith a b) := by
  rw [addVectors_ok Package.ico.lawful hv hw, bind_ok', projectionPerp_ok hv, projectionPerp_ok hw, bind_ok',
    bind_ok', projectionPerp_ok (nvec_ok _), addVectors_ok Package.ico.lawful (nvec_ok _) (nvec_ok _)]
  simp [Matrix.mulVec_add]

/-- C13: commutes with scalars, as arrays. -/
theorem C13_smul (v : Vec 6) (k : Num3) (hv : Vec.Ok v) (hk : k.c ≠ 0) :
    (do let s ← mulVector Package.ico.arith v k; Ico.projectionPerp s) =
      (do let a ← Ico.projectionPerp v; mulVector Package.ico.arith a k) := by
  rw [mulVector_ok Package.ico.lawful hv hk, bind_ok', projectionPerp_ok hv, bind_ok',
    projectionPerp_ok (nvec_ok _), mulVector_ok Package.ico.lawful (nvec_ok _) hk]
  congr 2
  rw [kvec_nvec, kvec_nvec]
  have : (fun i => kvec Package.ico.theta v i * kval Package.ico.theta k) = kval Package.ico.theta k • kvec Package.ico.theta v := by
    funext i; simp [mul_comm]
  rw [this, Matrix.mulVec_smul]
  funext i; simp [mul_comm]

example : Ico.projectionPerp exV =
    .ok ![⟨3, 4, 60⟩, ⟨3, 10, 12⟩, ⟨-29, -22, 60⟩, ⟨1, -2, 20⟩, ⟨31, 18, 60⟩, ⟨-5, -10, 12⟩] := by
  decide +kernel

/-! ## C14 -/

theorem coe_list_sum {n : Nat} (l : List (Vec n)) (i : Fin n) :
    (((l.map (kvec p.theta)).sum i : K p.theta) : ℝ) = (l.map (p.val)).sum i := by
  induction l with
  | nil => simp
  | cons v vs ih => simp [ih, Package.val, Vec.val, kvec]

/-- C14: `centroid` of a non-empty vertex list is the canonical exact mean. -/
theorem C14_centroid (l : List (Vec 6)) (h0 : l ≠ []) (hl : ∀ v ∈ l, Vec.Ok v) :
    ∃ r, centroid p.arith l = .ok r ∧
      p.val r = ((l.length : ℝ)⁻¹) • (l.map p.val).sum ∧ Vec.Canon r := by
  refine ⟨_, centroid_ok p.lawful h0 hl, ?_, nvec_canon _⟩
  rw [Package.val, val_nvec]
  funext i
  simp [coe_list_sum]

/-- C14: the empty list raises ValueError. -/
theorem C14_centroid_empty : centroid p.arith [] = .error .valueError := by
  cases p <;> decide

/-- C14: the centroid does not depend on the order of the vertices. -/
theorem C14_centroid_perm (l l' : List (Vec 6)) (h : l.Perm l') (hl : ∀ v ∈ l, Vec.Ok v) :
    centroid p.arith l = centroid p.arith l' := by
  by_cases h0 : l = []
  · subst h0; rw [h.nil_eq]
  · have h0' : l' ≠ [] := by rintro rfl; exact h0 h.eq_nil
    rw [centroid_ok p.lawful h0 hl, centroid_ok p.lawful h0' (fun v hv => hl v (h.mem_iff.mpr hv)),
      h.length_eq, (h.map _).sum_eq]

/-- C14: shifting all vertices shifts the centroid, as arrays. -/
theorem C14_centroid_shift (l : List (Vec 6)) (t : Vec 6) (h0 : l ≠ []) (hl : ∀ v ∈ l, Vec.Ok v)
    (ht : Vec.Ok t) :
    (do let l' ← fillList (fun v => addVectors p.arith v t) l; centroid p.arith l') =
      (do let r ← centroid p.arith l; addVectors p.arith r t) := by
  rw [fillList_ok (fun v hv => addVectors_ok p.lawful (hl v hv) ht), bind_ok',
    centroid_ok p.lawful h0 hl, bind_ok', addVectors_ok p.lawful (nvec_ok _) ht,
    centroid_ok p.lawful (by simpa using h0) (by
      intro v hv
      simp only [List.mem_map] at hv
      obtain ⟨w, _, rfl⟩ := hv
      exact nvec_ok _)]
  congr 2
  rw [kvec_nvec, List.length_map, List.map_map]
  have e : (kvec p.theta ∘ fun v => nvec (kvec p.theta v + kvec p.theta t)) =
      fun v => kvec p.theta v + kvec p.theta t := by funext v; simp
  rw [e, List.sum_map_add]
  simp only [List.map_const', List.sum_replicate, smul_add]
  congr 1
  have hn : (l.length : K p.theta) ≠ 0 := by simpa using h0
  funext i
  simp [hn]

/-- C14: in perpendicular space the centroid lies in the convex hull of the vertices. -/
theorem C14_centroid_convex (l : List (Vec 6)) (h0 : l ≠ []) (hl : ∀ v ∈ l, Vec.Ok v) :
    ∃ r, centroid p.arith l = .ok r ∧ p.perp r ∈ convexHull ℝ {x | ∃ v ∈ l, x = p.perp v} := by
  obtain ⟨r, hr, hval, -⟩ := C14_centroid p l h0 hl
  refine ⟨r, hr, ?_⟩
  have hn : (l.length : ℝ) ≠ 0 := by simpa using h0
  have hperp : p.perp r = ∑ i : Fin l.length, ((l.length : ℝ)⁻¹) • p.perp (l.get i) := by
    have : p.perp r = p.perpMat.mulVec (p.val r) := rfl
    rw [this, hval, Matrix.mulVec_smul, ← Finset.smul_sum]
    congr 1
    have hsum : (l.map p.val).sum = ∑ i : Fin l.length, p.val (l.get i) := by
      conv_lhs => rw [← List.ofFn_get l]
      rw [List.map_ofFn, List.sum_ofFn]
      rfl
    rw [hsum, Matrix.mulVec_sum]
    rfl
  rw [hperp]
  apply (convex_convexHull ℝ _).sum_mem
  · intro i _; positivity
  · simp [hn]
  · intro i _
    exact subset_convexHull _ _ ⟨l.get i, List.get_mem _ _, rfl⟩

/-- C14: `centroid_obj` is the mean over the pieces of the means of their vertices. -/
theorem C14_centroid_obj {m : Nat} (o : Obj m) (h0 : o ≠ []) (hm : 0 < m) (ho : Obj.Ok o) :
    ∃ r, centroidObj p.arith o = .ok r ∧
      p.val r = ((o.length : ℝ)⁻¹) • (o.map fun s => ((m : ℝ)⁻¹) • ∑ i, p.val (s i)).sum ∧
      Vec.Canon r := by
  refine ⟨_, centroidObj_ok p.lawful h0 hm ho, ?_, nvec_canon _⟩
  rw [Package.val, val_nvec]
  funext i
  simp only [Pi.smul_apply, smul_eq_mul, MulMemClass.coe_mul]
  congr 1
  · clear h0 ho
    induction o with
    | nil => simp
    | cons s o ih =>
      simp only [List.map_cons, List.sum_cons, Pi.add_apply, AddMemClass.coe_add, ih]
      congr 1
      simp only [kmean, Pi.smul_apply, smul_eq_mul, MulMemClass.coe_mul, coe_list_sum]
      simp [List.map_ofFn, List.sum_ofFn]

/-- C14: `centroid_obj` of the empty object raises ValueError. -/
theorem C14_centroid_obj_empty (m : Nat) : centroidObj p.arith ([] : Obj m) = .error .valueError := by
  show mulVector p.arith (zeroVec 6) ⟨1, 0, 0⟩ = _
  cases p <;> decide

example : (∀ v ∈ [exV, zeroVec 6, exV], Vec.Ok v) ∧ [exV, zeroVec 6, exV] ≠ [] := by decide
example : centroid Ico.arith [exV, zeroVec 6, exV] =
    .ok ![⟨1, 0, 3⟩, ⟨0, 2, 3⟩, ⟨0, 0, 1⟩, ⟨-2, 4, 9⟩, ⟨4, 0, 9⟩, ⟨-2, -2, 3⟩] := by decide +kernel

end PyQC
