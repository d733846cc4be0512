import Verif.Lemmas.Groups
import Verif.Lemmas.Geometry
/-!
# Symmetry operations compute in the field
-/
namespace PyQC
open Matrix

/-- An integer matrix over the field. -/
noncomputable def kmat (θ : ℝ) [Quad θ] {a b : Nat} (M : IMat a b) : Matrix (Fin a) (Fin b) (K θ) :=
  fun i j => (M i j : K θ)

theorem kmat_mul {θ : ℝ} [Quad θ] {a b c : Nat} (M : IMat a b) (N : IMat b c) :
    kmat θ (npDot M N) = kmat θ M * kmat θ N := by
  funext i j
  simp only [kmat, npDot_apply, Matrix.mul_apply]
  push_cast
  rfl

theorem kmat_one {θ : ℝ} [Quad θ] {n : Nat} : kmat θ (npIdentity Int n) = 1 := by
  funext i j
  simp only [kmat, npIdentity, Matrix.one_apply]
  split_ifs <;> simp

variable (p : Package)

/-- Field version of `symop_vec`. -/
noncomputable def ksym (op : IMat 6 6) (c x : Fin 6 → K p.theta) : Fin 6 → K p.theta :=
  (kmat p.theta op).mulVec (x - c) + c

theorem ksym_one (c x : Fin 6 → K p.theta) : ksym p (npIdentity Int 6) c x = x := by
  simp [ksym, kmat_one]

theorem ksym_mul (a b : IMat 6 6) (c x : Fin 6 → K p.theta) :
    ksym p a c (ksym p b c x) = ksym p (npDot a b) c x := by
  simp [ksym, kmat_mul, Matrix.mulVec_mulVec]

theorem ksym_centre (a : IMat 6 6) (c : Fin 6 → K p.theta) : ksym p a c c = c := by
  simp [ksym]

/-- Model-independent result of `symop_vec`. -/
noncomputable def symV (op : IMat 6 6) (c v : Vec 6) : Vec 6 :=
  nvec (ksym p op (kvec p.theta c) (kvec p.theta v))

/-- Same for pieces. -/
noncomputable def symS {m : Nat} (op : IMat 6 6) (c : Vec 6) (s : Simplex m) : Simplex m :=
  fun i => symV p op c (s i)

variable {p}

theorem symopVec_ok (op : IMat 6 6) {v c : Vec 6} (hv : Vec.Ok v) (hc : Vec.Ok c) :
    symopVec p op v c = .ok (symV p op c v) := by
  unfold symopVec
  rw [subVectors_ok p.lawful hv hc, bind_ok', dotProduct1_ok p.lawful op (nvec_ok _), bind_ok',
    addVectors_ok p.lawful (nvec_ok _) hc]
  simp only [kvec_nvec]
  rfl

theorem symV_ok (op : IMat 6 6) (c v : Vec 6) : Vec.Ok (symV p op c v) := nvec_ok _

theorem symS_ok {m : Nat} (op : IMat 6 6) (c : Vec 6) (s : Simplex m) : Simplex.Ok (symS p op c s) :=
  fun _ => nvec_ok _

theorem symopVecs_ok (op : IMat 6 6) {m : Nat} {s : Simplex m} {c : Vec 6} (hs : Simplex.Ok s)
    (hc : Vec.Ok c) : symopVecs p op s c = .ok (symS p op c s) :=
  fillFin_ok fun i => symopVec_ok op (hs i) hc

theorem symopObj_ok (op : IMat 6 6) {m : Nat} {o : Obj m} {c : Vec 6} (ho : Obj.Ok o)
    (hc : Vec.Ok c) : symopObj p op o c = .ok (o.map (symS p op c)) :=
  fillList_ok fun s hs => symopVecs_ok op (ho s hs) hc

theorem symObj_ok' (op : IMat 6 6) {m : Nat} (o : Obj m) (c : Vec 6) :
    Obj.Ok (o.map (symS p op c)) := by
  intro s hs
  obtain ⟨t, -, rfl⟩ := List.mem_map.mp hs
  exact symS_ok op c t

theorem symmetricObj_ok {m : Nat} {o : Obj m} {c : Vec 6} (ho : Obj.Ok o) (hc : Vec.Ok c) :
    symmetricObj p o c = .ok (p.symops.flatMap fun op => o.map (symS p op c)) := by
  unfold symmetricObj
  rw [fillList_ok (fun op _ => symopObj_ok op ho hc), bind_ok', List.flatMap_def]

theorem symmetricPiece_ok {m : Nat} {s : Simplex m} {c : Vec 6} (hs : Simplex.Ok s) (hc : Vec.Ok c) :
    symmetricPiece p s c = .ok (p.symops.map fun op => symS p op c s) :=
  fillList_ok fun op _ => symopVecs_ok op hs hc

theorem symV_mul (a b : IMat 6 6) (c v : Vec 6) :
    symV p a c (symV p b c v) = symV p (npDot a b) c v := by
  simp only [symV, kvec_nvec, ksym_mul]

theorem symS_mul {m : Nat} (a b : IMat 6 6) (c : Vec 6) (s : Simplex m) :
    symS p a c (symS p b c s) = symS p (npDot a b) c s := by
  funext i; exact symV_mul a b c (s i)

theorem coe_ksym (op : IMat 6 6) (c x : Fin 6 → K p.theta) :
    (fun i => ((ksym p op c x i : K p.theta) : ℝ)) =
      (realMat op).mulVec ((fun i => (x i : ℝ)) - (fun i => (c i : ℝ))) + (fun i => (c i : ℝ)) := by
  funext i
  simp only [ksym, Pi.add_apply]
  push_cast
  rw [coe_mulVec]
  congr 2

theorem perp_symV (op : IMat 6 6) (c v : Vec 6) {R : Matrix (Fin 3) (Fin 3) ℝ}
    (h : p.perpMat * realMat op = R * p.perpMat) :
    p.perp (symV p op c v) = R.mulVec (p.perp v - p.perp c) + p.perp c := by
  unfold Package.perp symV
  rw [val_nvec, coe_ksym, coe_kvec, coe_kvec, Matrix.mulVec_add, Matrix.mulVec_mulVec, h,
    ← Matrix.mulVec_mulVec, Matrix.mulVec_sub p.perpMat]

theorem par_symV (op : IMat 6 6) (c v : Vec 6) {S : Matrix (Fin 3) (Fin 3) ℝ}
    (h : p.parMat * realMat op = S * p.parMat) :
    p.par (symV p op c v) = S.mulVec (p.par v - p.par c) + p.par c := by
  unfold Package.par symV
  rw [val_nvec, coe_ksym, coe_kvec, coe_kvec, Matrix.mulVec_add, Matrix.mulVec_mulVec, h,
    ← Matrix.mulVec_mulVec, Matrix.mulVec_sub p.parMat]

theorem tetVol_symS {op : IMat 6 6} (h : Iso p op) (c : Vec 6) (t : Simplex 4) :
    tetVol (p.perps (symS p op c t)) = tetVol (p.perps t) := by
  obtain ⟨R, S, hR, -, h1, -⟩ := h
  have : p.perps (symS p op c t) = fun i => R.mulVec (p.perps t i) + (p.perp c - R.mulVec (p.perp c)) := by
    funext i
    show p.perp (symV p op c (t i)) = _
    rw [perp_symV op c (t i) h1, Matrix.mulVec_sub]
    unfold Package.perps
    abel
  rw [this, tetVol_affine, abs_det_of_orthogonal hR, one_mul]

theorem kvol_symS {op : IMat 6 6} (h : op ∈ Ico.icosasymop) (c : Vec 6) (t : Simplex 4) :
    kvol (symS .ico op c t) = kvol t := by
  apply Subtype.ext
  rw [coe_kvol, coe_kvol, tetVol_symS (iso_symops (p := .ico) h)]

theorem kvol_congr {s t : Simplex 4} (h : tetVol (Package.ico.perps s) = tetVol (Package.ico.perps t)) :
    kvol s = kvol t := by
  apply Subtype.ext
  rw [coe_kvol, coe_kvol, h]

theorem karea_congr {s t : Simplex 3}
    (h : triAreaXY (Package.dode.perps s) = triAreaXY (Package.dode.perps t)) : karea s = karea t := by
  apply Subtype.ext
  rw [coe_karea, coe_karea, h]

/-- Canonical form of a piece. -/
noncomputable def canonS (p : Package) {m : Nat} (s : Simplex m) : Simplex m :=
  fun i => nvec (kvec p.theta (s i))

theorem symS_one {m : Nat} (c : Vec 6) (s : Simplex m) :
    symS p (npIdentity Int 6) c s = canonS p s := by
  funext i
  simp only [symS, symV, ksym_one, canonS]

theorem perp_nvec_add (v t : Vec 6) :
    p.perp (nvec (kvec p.theta v + kvec p.theta t)) = p.perp v + p.perp t := by
  unfold Package.perp
  rw [val_nvec, ← coe_kvec v, ← coe_kvec t, ← Matrix.mulVec_add]
  congr 1

end PyQC

namespace PyQC
open Matrix

/-- Dodecagonal operations act block-wise: rotation of the plane, nothing on the axis. -/
def IsoZ (M : IMat 6 6) : Prop :=
  ∃ R : Matrix (Fin 3) (Fin 3) ℝ, Block R ∧ R 2 2 = 1 ∧ Rᵀ * R = 1 ∧
    Package.dode.perpMat * realMat M = R * Package.dode.perpMat

theorem IsoZ.one : IsoZ (npIdentity Int 6) :=
  ⟨1, Block.one, by simp, by simp, by simp [realMat_one]⟩

theorem IsoZ.mul {M N : IMat 6 6} (hM : IsoZ M) (hN : IsoZ N) : IsoZ (npDot M N) := by
  obtain ⟨R, h1, hz, h2, h3⟩ := hM
  obtain ⟨R', k1, kz, k2, k3⟩ := hN
  refine ⟨R * R', h1.mul k1, ?_, ?_, ?_⟩
  · rw [Matrix.mul_apply, Fin.sum_univ_three, h1.2.2.1, h1.2.2.2, hz, kz]; simp
  · rw [transpose_mul, Matrix.mul_assoc, ← Matrix.mul_assoc Rᵀ, h2, Matrix.one_mul, k2]
  · rw [realMat_mul, ← Matrix.mul_assoc, h3, Matrix.mul_assoc, k3, Matrix.mul_assoc]

theorem IsoZ.pow {M : IMat 6 6} (hM : IsoZ M) (k : Nat) : IsoZ (npPow M k) := by
  induction k with
  | zero => exact IsoZ.one
  | succ k ih => exact ih.mul hM

local macro "iso_tac3" : tactic => `(tactic| (
  have h := sin60_sq
  try simp only [Package.perpMat, Package.parMat]
  generalize sin60 = t at *
  ext i j
  fin_cases i <;> fin_cases j <;>
    simp [Matrix.mul_apply, Fin.sum_univ_succ, realMat, Dode.m1Mat, Dode.m2Mat] <;>
    (try ring_nf) <;> (try simp only [h]) <;> (try ring_nf)))

theorem isoZ_d1 : IsoZ Dode.m1Mat := by
  refine ⟨!![-sin60, 1/2, 0; -1/2, -sin60, 0; 0, 0, 1], by simp [Block], by simp, ?_, ?_⟩ <;> iso_tac3

theorem isoZ_d2 : IsoZ Dode.m2Mat := by
  refine ⟨!![0, 1, 0; 1, 0, 0; 0, 0, 1], by simp [Block], by simp, ?_, ?_⟩ <;> iso_tac3

theorem isoZ_symops {op : IMat 6 6} (h : op ∈ Dode.dodesymop) : IsoZ op := by
  simp only [Dode.dodesymop, List.mem_flatMap, List.mem_map] at h
  obtain ⟨i1, -, i2, -, rfl⟩ := h
  exact (isoZ_d2.pow i1).mul (isoZ_d1.pow i2)

theorem karea_symS {op : IMat 6 6} (h : op ∈ Dode.dodesymop) (c : Vec 6) (t : Simplex 3) :
    karea (symS .dode op c t) = karea t := by
  apply karea_congr
  obtain ⟨R, hb, -, hR, h1⟩ := isoZ_symops h
  have : Package.dode.perps (symS .dode op c t) = fun i =>
      R.mulVec (Package.dode.perps t i) + (Package.dode.perp c - R.mulVec (Package.dode.perp c)) := by
    funext i
    show Package.dode.perp (symV .dode op c (t i)) = _
    rw [perp_symV op c (t i) h1, Matrix.mulVec_sub]
    unfold Package.perps
    abel
  rw [this, triAreaXY_affine _ hb, hb.abs_det hR, one_mul]

theorem sum_flatMap_const {α β R : Type} [Semiring R] (l : List α) (o : List β) (f : α → β → β)
    (k : β → R) (h : ∀ a ∈ l, ∀ b, k (f a b) = k b) :
    ((l.flatMap fun a => o.map (f a)).map k).sum = (l.length : R) * (o.map k).sum := by
  induction l with
  | nil => simp
  | cons a l ih =>
    rw [List.flatMap_cons, List.map_append, List.sum_append,
      ih (fun b hb => h b (List.mem_cons_of_mem _ hb)), List.map_map]
    have : (k ∘ f a) = k := by funext b; exact h a (by simp) b
    rw [this, List.length_cons]
    push_cast
    rw [add_mul, one_mul, add_comm]

/-- The symmetrised object, as a list. -/
noncomputable def orbit (p : Package) {m : Nat} (o : Obj m) (c : Vec 6) : Obj m :=
  p.symops.flatMap fun op => o.map (symS p op c)

theorem orbit_ok {p : Package} {m : Nat} (o : Obj m) (c : Vec 6) : Obj.Ok (orbit p o c) := by
  intro s hs
  obtain ⟨op, -, h⟩ := List.mem_flatMap.mp hs
  obtain ⟨t, -, rfl⟩ := List.mem_map.mp h
  exact symS_ok op c t

theorem orbit_length {p : Package} {m : Nat} (o : Obj m) (c : Vec 6) :
    (orbit p o c).length = p.order * o.length := by
  unfold orbit
  rw [← symops_length p]
  induction p.symops with
  | nil => simp
  | cons a l ih => simp only [List.flatMap_cons, List.length_append, ih, List.length_map,
      List.length_cons]; ring

theorem orbit_perm {p : Package} {m : Nat} (o : Obj m) (c : Vec 6) {g : IMat 6 6}
    (hg : g ∈ p.symops) : ((orbit p o c).map (symS p g c)).Perm (orbit p o c) := by
  have : (orbit p o c).map (symS p g c) =
      (p.symops.map fun op => npDot g op).flatMap fun op => o.map (symS p op c) := by
    unfold orbit
    rw [List.map_flatMap, List.flatMap_map]
    congr 1
    funext op
    rw [List.map_map]
    congr 1
    funext s
    exact symS_mul g op c s
  rw [this]
  exact (symops_perm hg).flatMap_right _

end PyQC
