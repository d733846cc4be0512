import Verif.Lemmas.Symmetry
import Verif.Model.Numeric
/-!
# C15–C17: volumes of tetrahedra and objects (ico2)

`tetVol q` is `|det(q1-q0, q2-q0, q3-q0)|/6` and `Package.ico.perps t` the perpendicular-space
vertices (`Spec/`).
-/
namespace PyQC

/-! ## C15 -/

/-- C15: `tetrahedron_volume_6d` never raises and returns the canonical triple of the volume of the
perp tetrahedron; it is non-negative, and zero exactly for coplanar vertices. -/
theorem C15_volume (t : Simplex 4) (h : Simplex.Ok t) :
    ∃ w, Ico.tetrahedronVolume6d t = .ok w ∧ w.Canon ∧
      w.val tau = tetVol (Package.ico.perps t) ∧ 0 ≤ w.val tau ∧
      (w.val tau = 0 ↔ Coplanar ℝ (Set.range (Package.ico.perps t))) ∧
      (w = ⟨0, 0, 1⟩ ↔ Coplanar ℝ (Set.range (Package.ico.perps t))) := by
  have hv : (norm (kvol t)).val tau = tetVol (Package.ico.perps t) := by
    rw [show tau = Package.ico.theta from rfl, val_norm, coe_kvol]
  refine ⟨_, tetrahedronVolume6d_ok h, norm_canon _, hv, ?_, ?_, ?_⟩
  · rw [hv]; exact tetVol_nonneg _
  · rw [hv]; exact coplanar_iff_tetVol _
  · rw [← coplanar_iff_tetVol, ← hv]
    rw [show tau = Package.ico.theta from rfl, val_norm]
    constructor
    · intro h0
      rw [← norm_zero (θ := Package.ico.theta)] at h0
      have := congrArg (kval Package.ico.theta) h0
      simp only [kval_norm] at this
      rw [this]; rfl
    · intro h0
      have : kvol t = 0 := Subtype.ext h0
      rw [this, norm_zero]

/-- C15: `tetrahedron_volume_6d_numerical` (in real arithmetic) is the same number. -/
theorem C15_numerical (t : Simplex 4) (h : Simplex.Ok t) :
    ∃ w, Ico.tetrahedronVolume6d t = .ok w ∧ w.val tau = Ico.tetrahedronVolume6dNumerical t := by
  obtain ⟨w, hw, -, hv, -⟩ := C15_volume t h
  refine ⟨w, hw, ?_⟩
  rw [hv]
  have e : Ico.internalSetsNumerical t = Package.ico.perps t := by
    funext i j
    simp only [Ico.internalSetsNumerical, Package.perps, Package.perp,
      show numericalVector tau (t i) = Vec.val Package.ico.theta (t i) from rfl]
    generalize Vec.val Package.ico.theta (t i) = x
    fin_cases j <;>
      simp [Ico.projection3Numerical, Package.perpMat, Matrix.mulVec, dotProduct,
        Fin.sum_univ_six] <;> ring
  unfold Ico.tetrahedronVolume6dNumerical Ico.tetrahedronVolumeNumerical tetVol
  rw [e]
  congr 3
  ext i j
  fin_cases i <;> rfl

/-- An example tetrahedron: a corner of the unit cell with one irrational vertex. -/
def exT : Simplex 4 :=
  ![![⟨0, 0, 1⟩, ⟨0, 0, 1⟩, ⟨0, 0, 1⟩, ⟨0, 0, 1⟩, ⟨0, 0, 1⟩, ⟨0, 0, 1⟩],
    ![⟨1, 0, 1⟩, ⟨0, 0, 1⟩, ⟨0, 0, 1⟩, ⟨0, 0, 1⟩, ⟨0, 0, 1⟩, ⟨0, 0, 1⟩],
    ![⟨0, 0, 1⟩, ⟨1, 1, 2⟩, ⟨0, 0, 1⟩, ⟨0, 0, 1⟩, ⟨0, 0, 1⟩, ⟨0, 0, 1⟩],
    ![⟨0, 0, 1⟩, ⟨0, 0, 1⟩, ⟨3, 0, -2⟩, ⟨0, 0, 1⟩, ⟨0, 0, 1⟩, ⟨0, 0, 1⟩]]

example : Simplex.Ok exT := by decide
example : Ico.tetrahedronVolume6d exT = .ok ⟨1, 2, 4⟩ := by decide +kernel

/-- Example centre. -/
def exV₀ : Vec 6 := ![⟨1, 0, 2⟩, ⟨0, 1, 1⟩, ⟨0, 0, 1⟩, ⟨-1, 2, 3⟩, ⟨4, 0, 6⟩, ⟨1, 1, -1⟩]

/-! ## C16 -/

/-- C16: any reordering of the four vertices gives the same array. -/
theorem C16_permute (t : Simplex 4) (h : Simplex.Ok t) (σ : Equiv.Perm (Fin 4)) :
    Ico.tetrahedronVolume6d (fun i => t (σ i)) = Ico.tetrahedronVolume6d t := by
  rw [tetrahedronVolume6d_ok h, tetrahedronVolume6d_ok (fun i => h (σ i))]
  rw [kvol_congr (tetVol_perm (Package.ico.perps t) σ)]

/-- C16: `shift_object` by any 6D vector gives tetrahedra of the same volume array. -/
theorem C16_shift (t : Simplex 4) (d : Vec 6) (h : Simplex.Ok t) (hd : Vec.Ok d) :
    ∃ t', shiftObj .ico [t] d = .ok [t'] ∧
      Ico.tetrahedronVolume6d t' = Ico.tetrahedronVolume6d t := by
  have ho : Obj.Ok [t] := by intro s hs; rw [List.mem_singleton] at hs; rw [hs]; exact h
  refine ⟨_, shiftObj_ok .ico ho hd, ?_⟩
  rw [tetrahedronVolume6d_ok h, tetrahedronVolume6d_ok (fun i => nvec_ok _)]
  congr 2
  apply kvol_congr
  rw [← tetVol_shift (Package.ico.perps t) (Package.ico.perp d)]
  congr 1
  funext i
  exact perp_nvec_add (p := .ico) (t i) d

/-- C16: any of the 120 operations about any centre gives the same array. -/
theorem C16_symop (t : Simplex 4) (c : Vec 6) (h : Simplex.Ok t) (hc : Vec.Ok c)
    (op : IMat 6 6) (hop : op ∈ Ico.icosasymop) :
    ∃ t', symopVecs .ico op t c = .ok t' ∧
      Ico.tetrahedronVolume6d t' = Ico.tetrahedronVolume6d t := by
  refine ⟨_, symopVecs_ok op h hc, ?_⟩
  rw [tetrahedronVolume6d_ok h, tetrahedronVolume6d_ok (symS_ok op c t), kvol_symS hop]

example : Ico.tetrahedronVolume6d (fun i => exT (Equiv.swap 0 2 i)) = .ok ⟨1, 2, 4⟩ := by
  decide +kernel

example : ∃ op ∈ Ico.icosasymop, symopVecs .ico op exT exV₀ ≠ .ok exT ∧
    (do let t' ← symopVecs .ico op exT exV₀; Ico.tetrahedronVolume6d t') = .ok ⟨1, 2, 4⟩ :=
  ⟨Ico.m1Mat, by rw [icosasymop_eq, spC_g1]; exact List.mem_map.mpr ⟨_, by decide, rfl⟩,
    by decide +kernel, by decide +kernel⟩

/-! ## C17 -/

/-- C17: `volume` of a list of tetrahedra (any number) is the canonical exact sum of the volumes of
its pieces. -/
theorem C17_volume (o : Obj 4) (h : Obj.Ok o) :
    ∃ w, Ico.objVolume6d (.d4 o) = .ok (some w) ∧ w.Canon ∧
      w.val tau = (o.map fun t => tetVol (Package.ico.perps t)).sum := by
  have h0 : Ico.sumVolumes ⟨0, 0, 1⟩ o = .ok (norm ((o.map kvol).sum)) := by
    rw [← norm_zero (θ := Package.ico.theta), sumVolumes_ok h, zero_add]
  refine ⟨norm (o.map kvol).sum, ?_, norm_canon _, ?_⟩
  · simp only [Ico.objVolume6d, h0, bind_ok']
  · rw [show tau = Package.ico.theta from rfl, val_norm]
    clear h h0
    induction o with
    | nil => simp
    | cons t ts ih => simp only [List.map_cons, List.sum_cons]; rw [Subfield.coe_add, ih, coe_kvol]

theorem objVolume_ok {o : Obj 4} (h : Obj.Ok o) :
    Ico.objVolume6d (.d4 o) = .ok (some (norm (o.map kvol).sum)) := by
  have h0 : Ico.sumVolumes ⟨0, 0, 1⟩ o = .ok (norm ((o.map kvol).sum)) := by
    rw [← norm_zero (θ := Package.ico.theta), sumVolumes_ok h, zero_add]
  simp only [Ico.objVolume6d, h0, bind_ok']

/-- C17: the empty object has volume `[0,0,1]`. -/
theorem C17_empty : Ico.objVolume6d (.d4 ([] : Obj 4)) = .ok (some ⟨0, 0, 1⟩) := rfl

/-- C17: the volume of a concatenation is `add` of the volumes, as arrays. -/
theorem C17_append (o₁ o₂ : Obj 4) (h₁ : Obj.Ok o₁) (h₂ : Obj.Ok o₂) :
    ∃ w₁ w₂ w, Ico.objVolume6d (.d4 o₁) = .ok (some w₁) ∧ Ico.objVolume6d (.d4 o₂) = .ok (some w₂) ∧
      Ico.objVolume6d (.d4 (o₁ ++ o₂)) = .ok (some w) ∧ Ico.add w₁ w₂ = .ok w ∧
      w.val tau = w₁.val tau + w₂.val tau := by
  have h : Obj.Ok (o₁ ++ o₂) := fun s hs => (List.mem_append.mp hs).elim (h₁ s) (h₂ s)
  refine ⟨_, _, _, objVolume_ok h₁, objVolume_ok h₂, objVolume_ok h, ?_, ?_⟩
  · have := (Package.ico.lawful).add_ok (x := norm (o₁.map kvol).sum) (y := norm (o₂.map kvol).sum)
      (norm_c _) (norm_c _)
    rw [kval_norm, kval_norm] at this
    rw [List.map_append, List.sum_append]
    exact this
  · rw [show tau = Package.ico.theta from rfl, val_norm, val_norm, val_norm, List.map_append,
      List.sum_append]
    push_cast; rfl

/-- C17: reordering the pieces does not change the volume array. -/
theorem C17_reorder (o₁ o₂ : Obj 4) (h : Obj.Ok o₁) (hp : o₁.Perm o₂) :
    Ico.objVolume6d (.d4 o₁) = Ico.objVolume6d (.d4 o₂) := by
  have h₂ : Obj.Ok o₂ := fun s hs => h s (hp.mem_iff.mpr hs)
  rw [objVolume_ok h, objVolume_ok h₂, (hp.map kvol).sum_eq]

/-- C17: a nested (5-dimensional) object has the volume of its flattening, also in every error
case. -/
theorem C17_nested {m : Nat} (os : List (Obj m)) :
    Ico.objVolume6d (.d5 os) = Ico.objVolume6d (.d4 os.flatten) := by
  have key : ∀ w, foldPy (fun w o => Ico.sumVolumes w o) w os = Ico.sumVolumes w os.flatten := by
    induction os with
    | nil => intro w; rfl
    | cons o os ih =>
      intro w
      have app : ∀ (l l' : Obj m) (w : Num3), Ico.sumVolumes w (l ++ l') =
          (match Ico.sumVolumes w l with
            | .error e => .error e
            | .ok w' => Ico.sumVolumes w' l') := by
        intro l l'
        induction l with
        | nil => intro w; rfl
        | cons s l ih2 =>
          intro w
          simp only [Ico.sumVolumes, List.cons_append, foldPy] at ih2 ⊢
          split
          · rfl
          · exact ih2 _
      simp only [foldPy, List.flatten_cons, app]
      cases Ico.sumVolumes w o with
      | error e => rfl
      | ok w' => exact ih w'
  simp only [Ico.objVolume6d, key]

/-- C17: a single tetrahedron (3-dimensional array) is accepted; its volume is that of the one-piece
object. -/
theorem C17_single (t : Simplex 4) (h : Simplex.Ok t) :
    Ico.objVolume6d (.d3 t) = Ico.objVolume6d (.d4 [t]) := by
  have ho : Obj.Ok [t] := by intro s hs; rw [List.mem_singleton] at hs; rw [hs]; exact h
  rw [objVolume_ok ho]
  have : Ico.objVolume6d (.d3 t) = (do
    let v ← Ico.tetrahedronVolume6d t
    .ok (some v)) := rfl
  rw [this, tetrahedronVolume6d_ok h, bind_ok']
  simp

/-- C17: `None` is returned exactly for arrays that do not have 3, 4 or 5 dimensions. -/
theorem C17_none (a : NdArr) : Ico.objVolume6d a = .ok none ↔
    (∃ x, a = .d1 x) ∨ (∃ n, ∃ v : Vec n, a = .d2 v) ∨ (∃ k, a = .other k) := by
  have nob : ∀ (x : Py Num3), (do let w ← x; (Except.ok (some w) : Py (Option Num3))) ≠ .ok none := by
    intro x; cases x <;> simp
  cases a with
  | d1 x => simp [Ico.objVolume6d]
  | d2 v => simp only [Ico.objVolume6d, true_iff]; exact .inr (.inl ⟨_, v, rfl⟩)
  | other k => simp [Ico.objVolume6d]
  | d3 s =>
    simp only [reduceCtorEq, exists_false, or_false, iff_false]
    intro h
    simp only [Ico.objVolume6d] at h
    cases h1 : Ico.asTetra s with
    | error e => rw [h1] at h; cases h
    | ok t => rw [h1] at h; exact nob _ h
  | d4 o =>
    simp only [reduceCtorEq, exists_false, or_false, iff_false]
    exact nob _
  | d5 os =>
    simp only [reduceCtorEq, exists_false, or_false, iff_false]
    exact nob _

/-- C17: `obj_volume_6d_numerical` (in real arithmetic) is the value of `volume`. -/
theorem C17_numerical (o : Obj 4) (h : Obj.Ok o) :
    ∃ w, Ico.objVolume6d (.d4 o) = .ok (some w) ∧ w.val tau = Ico.objVolume6dNumerical o := by
  obtain ⟨w, hw, -, hv⟩ := C17_volume o h
  refine ⟨w, hw, ?_⟩
  rw [hv]
  unfold Ico.objVolume6dNumerical
  rw [← List.foldl_map (f := Ico.tetrahedronVolume6dNumerical) (g := fun a b => a + b),
    ← List.sum_eq_foldl]
  congr 1
  apply List.map_congr_left
  intro t ht
  obtain ⟨w1, e1, -, v1, -⟩ := C15_volume t (h t ht)
  obtain ⟨w2, e2, v2⟩ := C15_numerical t (h t ht)
  rw [e1] at e2
  injection e2 with e2
  rw [← v1, e2, v2]

example : Obj.Ok [exT, exT] := by decide
example : Ico.objVolume6d (.d4 [exT, fun i => exT (Equiv.swap 0 1 i)]) = .ok (some ⟨1, 2, 2⟩) := by
  decide +kernel
example : Ico.objVolume6d (.d4 [(fun i => exT (Fin.castLE (by decide) i) : Simplex 3)]) =
    .error .indexError := by decide +kernel

end PyQC
