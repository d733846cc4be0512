import Verif.Props.Volume
/-!
# C18–C22, C41–C43: point groups, group action, symmetrised and shifted objects, triangle areas
-/
namespace PyQC
open Matrix

/-- The operations of a package as a set of integer matrices. -/
def Package.group (p : Package) : Set (Matrix (Fin 6) (Fin 6) ℤ) := {M | M ∈ p.symops}

theorem npDot_mul (M N : Matrix (Fin 6) (Fin 6) ℤ) : npDot M N = M * N := npDot_eq M N

theorem npIdentity_one : npIdentity Int 6 = (1 : Matrix (Fin 6) (Fin 6) ℤ) := npIdentity_eq

theorem group_prod (p : Package) (l : List (Matrix (Fin 6) (Fin 6) ℤ)) (h : ∀ M ∈ l, M ∈ p.group) :
    l.prod ∈ p.group := by
  induction l with
  | nil => rw [List.prod_nil, ← npIdentity_one]; exact symops_one p
  | cons M l ih =>
    rw [List.prod_cons, ← npDot_mul]
    exact symops_mul (h M (by simp)) (ih fun N hN => h N (by simp [hN]))

theorem det_sq_of_inverse {M N : Matrix (Fin 6) (Fin 6) ℤ} (h : M * N = 1) :
    M.det = 1 ∨ M.det = -1 := by
  have := congrArg Matrix.det h
  rw [Matrix.det_mul, Matrix.det_one] at this
  exact Int.isUnit_iff.mp (IsUnit.of_mul_eq_one _ this)

/-! ## C18 -/

/-- C18: `icosasymop` returns 120 pairwise distinct matrices. -/
theorem C18_count : Ico.icosasymop.length = 120 ∧ Ico.icosasymop.Nodup :=
  ⟨symops_length .ico, symops_nodup .ico⟩

/-- C18: each is a signed permutation matrix. -/
theorem C18_signed_permutation (M : IMat 6 6) (hM : M ∈ Ico.icosasymop) :
    ∃ (σ : Equiv.Perm (Fin 6)) (s : Fin 6 → ℤ), (∀ i, s i = 1 ∨ s i = -1) ∧
      ∀ i j, M i j = if σ i = j then s i else 0 := by
  rw [icosasymop_eq] at hM
  obtain ⟨a, ha, rfl⟩ := List.mem_map.mp hM
  have hok := icoCodes_ok a ha
  have hlt : ∀ i : Fin 6, a.getD i 0 / 2 < 6 := by
    intro i
    have hi : i.val < a.length := by rw [hok.1]; exact i.isLt
    rw [List.getD_eq_getElem _ _ hi]
    have := hok.2 _ (List.getElem_mem hi)
    omega
  have hinj : Function.Injective fun i : Fin 6 => (⟨a.getD i 0 / 2, hlt i⟩ : Fin 6) := by
    have : ∀ a ∈ icoCodes, ∀ i j : Fin 6, a.getD i 0 / 2 = a.getD j 0 / 2 → i = j := by
      decide +kernel
    intro i j h
    exact this a ha i j (congrArg Fin.val h)
  refine ⟨Equiv.ofBijective _ (Finite.injective_iff_bijective.mp hinj), fun i => csgn (a.getD i 0),
    ?_, ?_⟩
  · intro i
    show csgn (a.getD i 0) = 1 ∨ csgn (a.getD i 0) = -1
    unfold csgn
    split_ifs <;> simp
  · intro i j
    simp only [spC, Equiv.ofBijective_apply, Fin.ext_iff]

/-- C18: the list contains the identity and the inversion, is closed under products of two and of any
finite number of members, and under inverses, which are the transposes. -/
theorem C18_group :
    (1 : Matrix (Fin 6) (Fin 6) ℤ) ∈ Package.ico.group ∧
    (-1 : Matrix (Fin 6) (Fin 6) ℤ) ∈ Package.ico.group ∧
    (∀ M ∈ Package.ico.group, ∀ N ∈ Package.ico.group, M * N ∈ Package.ico.group) ∧
    (∀ l : List (Matrix (Fin 6) (Fin 6) ℤ), (∀ M ∈ l, M ∈ Package.ico.group) →
      l.prod ∈ Package.ico.group) ∧
    (∀ M ∈ Package.ico.group, Mᵀ ∈ Package.ico.group ∧ M * Mᵀ = 1 ∧ Mᵀ * M = 1) ∧
    (∀ M ∈ Package.ico.group, M.det = 1 ∨ M.det = -1) := by
  have htr : ∀ M ∈ Package.ico.group, Mᵀ ∈ Package.ico.group ∧ M * Mᵀ = 1 ∧ Mᵀ * M = 1 := by
    intro M hM
    have hM' : M ∈ Ico.icosasymop := hM
    rw [icosasymop_eq] at hM'
    obtain ⟨a, ha, rfl⟩ := List.mem_map.mp hM'
    obtain ⟨h1, h2, h3, h4⟩ := icoCodes_tr a ha
    have e : (Matrix.transpose (spC a)) = spC (codeTr a) := by
      funext i j; exact (h4 i j).symm
    rw [e]
    refine ⟨?_, ?_, ?_⟩
    · show spC (codeTr a) ∈ Ico.icosasymop
      rw [icosasymop_eq]; exact List.mem_map.mpr ⟨_, h1, rfl⟩
    · exact (npDot_mul _ _).symm.trans (by rw [npDot_spC (icoCodes_ok a ha), h2, spC_one, npIdentity_one])
    · exact (npDot_mul _ _).symm.trans (by rw [npDot_spC (icoCodes_ok _ h1), h3, spC_one, npIdentity_one])
  refine ⟨?_, ?_, ?_, group_prod .ico, htr, fun M hM => det_sq_of_inverse (htr M hM).2.1⟩
  · rw [← npIdentity_one]; exact symops_one .ico
  · have : (-1 : Matrix (Fin 6) (Fin 6) ℤ) = spC g5 := by
      rw [← spC_g5]; funext i j; fin_cases i <;> fin_cases j <;> rfl
    rw [this]
    show spC g5 ∈ Ico.icosasymop
    rw [icosasymop_eq]
    exact List.mem_map.mpr ⟨_, by decide, rfl⟩
  · intro M hM N hN
    rw [← npDot_mul]
    exact symops_mul hM hN

/-- Non-vacuity: a member of order 5. -/
example : Matrix.of Ico.m1Mat ∈ Package.ico.group ∧ npPow Ico.m1Mat 5 =
    npIdentity Int 6 ∧ Ico.m1Mat ≠ npIdentity Int 6 := by
  refine ⟨?_, ?_, by decide +kernel⟩
  · show Ico.m1Mat ∈ Ico.icosasymop
    rw [icosasymop_eq, spC_g1]; exact List.mem_map.mpr ⟨_, by decide, rfl⟩
  · rw [spC_g1, npPow_spC g1_ok, ← spC_one]; decide +kernel

/-! ## C19, C42: isometries -/

/-- The statement of C19 and C42 for one operation: there are orthogonal matrices `R`, `S` such that
applying `op` about any centre acts on perp points as `R` about the perp centre and on par points as
`S`. With the zero centre this is `perp(op·v) = R·perp(v)`. -/
def ActsByIsometries (p : Package) (op : IMat 6 6) : Prop :=
  ∃ R S : Matrix (Fin 3) (Fin 3) ℝ, Rᵀ * R = 1 ∧
    Sᵀ * S = 1 ∧
    ∀ v c : Vec 6, Vec.Ok v → Vec.Ok c → ∃ w, symopVec p op v c = .ok w ∧ Vec.Canon w ∧
      p.perp w = R.mulVec (p.perp v - p.perp c) + p.perp c ∧
      p.par w = S.mulVec (p.par v - p.par c) + p.par c

theorem actsByIsometries {p : Package} {op : IMat 6 6} (h : op ∈ p.symops) :
    ActsByIsometries p op := by
  obtain ⟨R, S, h1, h2, h3, h4⟩ := iso_symops h
  refine ⟨R, S, h1, h2, ?_⟩
  · intro v c hv hc
    exact ⟨_, symopVec_ok op hv hc, nvec_canon _, perp_symV op c v h3, par_symV op c v h4⟩

/-- C19 for all 120 operations. -/
theorem C19_isometry (op : IMat 6 6) (h : op ∈ Ico.icosasymop) : ActsByIsometries .ico op :=
  actsByIsometries (p := .ico) h

/-- C19: the linear form, `dot_product_1(op,v)`: its perp part is `R` times the perp part of `v` and
its par part is `S` times the par part. -/
theorem C19_linear (op : IMat 6 6) (h : op ∈ Ico.icosasymop) :
    ∃ R S : Matrix (Fin 3) (Fin 3) ℝ, Rᵀ * R = 1 ∧
      Sᵀ * S = 1 ∧
      ∀ v : Vec 6, Vec.Ok v → ∃ w, dotProduct1 Ico.arith op v = .ok w ∧
        Package.ico.perp w = R.mulVec (Package.ico.perp v) ∧
        Package.ico.par w = S.mulVec (Package.ico.par v) := by
  obtain ⟨R, S, h1, h2, h3, h4⟩ := iso_symops (p := .ico) h
  refine ⟨R, S, h1, h2, ?_⟩
  · intro v hv
    refine ⟨_, dotProduct1_ok Package.ico.lawful op hv, ?_, ?_⟩
    · have e : Vec.val Package.ico.theta (nvec fun k => ∑ j, (op k j : K Package.ico.theta) *
          kvec Package.ico.theta v j) = (realMat op).mulVec (Vec.val Package.ico.theta v) := by
        rw [val_nvec]
        funext i
        rw [← coe_kvec]
        simp [realMat, Matrix.mulVec, dotProduct]
      unfold Package.perp
      rw [e, Matrix.mulVec_mulVec, h3, ← Matrix.mulVec_mulVec]
    · have e : Vec.val Package.ico.theta (nvec fun k => ∑ j, (op k j : K Package.ico.theta) *
          kvec Package.ico.theta v j) = (realMat op).mulVec (Vec.val Package.ico.theta v) := by
        rw [val_nvec]
        funext i
        rw [← coe_kvec]
        simp [realMat, Matrix.mulVec, dotProduct]
      unfold Package.par
      rw [e, Matrix.mulVec_mulVec, h4, ← Matrix.mulVec_mulVec]

/-- C19: squared distances between perp points (and between par points) are preserved. -/
theorem C19_distance (op : IMat 6 6) (h : op ∈ Ico.icosasymop) (v w c v' w' : Vec 6)
    (hv : Vec.Ok v) (hw : Vec.Ok w) (hc : Vec.Ok c)
    (ev : symopVec .ico op v c = .ok v') (ew : symopVec .ico op w c = .ok w') :
    (Package.ico.perp v' - Package.ico.perp w') ⬝ᵥ (Package.ico.perp v' - Package.ico.perp w') =
      (Package.ico.perp v - Package.ico.perp w) ⬝ᵥ (Package.ico.perp v - Package.ico.perp w) ∧
    (Package.ico.par v' - Package.ico.par w') ⬝ᵥ (Package.ico.par v' - Package.ico.par w') =
      (Package.ico.par v - Package.ico.par w) ⬝ᵥ (Package.ico.par v - Package.ico.par w) := by
  obtain ⟨R, S, hR, hS, H⟩ := C19_isometry op h
  obtain ⟨a, ea, -, pa, qa⟩ := H v c hv hc
  obtain ⟨b, eb, -, pb, qb⟩ := H w c hw hc
  rw [ev] at ea; injection ea with ea; subst ea
  rw [ew] at eb; injection eb with eb; subst eb
  have key : ∀ (T : Matrix (Fin 3) (Fin 3) ℝ), Tᵀ * T = 1 → ∀ x : Fin 3 → ℝ,
      T.mulVec x ⬝ᵥ T.mulVec x = x ⬝ᵥ x := by
    intro T hT x
    rw [Matrix.dotProduct_mulVec, Matrix.vecMul_mulVec, hT, Matrix.vecMul_one]
  constructor
  · rw [pa, pb, add_sub_add_right_eq_sub, ← Matrix.mulVec_sub, sub_sub_sub_cancel_right, key R hR]
  · rw [qa, qb, add_sub_add_right_eq_sub, ← Matrix.mulVec_sub, sub_sub_sub_cancel_right, key S hS]

/-! ## C20: group action (both packages) -/

section
variable (p : Package)

/-- C20: the identity returns the canonical form of the input. -/
theorem C20_identity (v c : Vec 6) (hv : Vec.Ok v) (hc : Vec.Ok c) :
    ∃ w, symopVec p (npIdentity Int 6) v c = .ok w ∧ Vec.Canon w ∧ p.val w = p.val v := by
  refine ⟨_, symopVec_ok _ hv hc, nvec_canon _, ?_⟩
  rw [symV, ksym_one]
  exact (val_nvec _).trans (coe_kvec v)

/-- C20: a canonical input is returned unchanged by the identity. -/
theorem C20_identity_canonical (v c : Vec 6) (hv : Vec.Canon v) (hc : Vec.Ok c) :
    symopVec p (npIdentity Int 6) v c = .ok v := by
  rw [symopVec_ok _ hv.ok hc, symV, ksym_one, nvec_kvec hv]

/-- C20: applying `b` and then `a` is applying the matrix product `a·b`, for all integer matrices. -/
theorem C20_compose (a b : IMat 6 6) (v c : Vec 6) (hv : Vec.Ok v) (hc : Vec.Ok c) :
    (do let w ← symopVec p b v c; symopVec p a w c) =
      symopVec p (fun i j => ∑ k, a i k * b k j) v c := by
  rw [symopVec_ok _ hv hc, bind_ok', symopVec_ok _ (symV_ok _ _ _) hc, symopVec_ok _ hv hc, symV_mul]
  congr 2
  funext i j
  exact npDot_apply a b i j

/-- C20: the centre is mapped to its own canonical form. -/
theorem C20_centre (a : IMat 6 6) (c : Vec 6) (hc : Vec.Ok c) :
    ∃ w, symopVec p a c c = .ok w ∧ Vec.Canon w ∧ p.val w = p.val c := by
  refine ⟨_, symopVec_ok _ hc hc, nvec_canon _, ?_⟩
  rw [symV, ksym_centre]
  exact (val_nvec _).trans (coe_kvec c)

/-- C20: applying an operation and then its inverse restores a canonical vector. -/
theorem C20_inverse (a b : IMat 6 6) (hab : ∀ i j, ∑ k, a i k * b k j = if i = j then 1 else 0)
    (v c : Vec 6) (hv : Vec.Canon v) (hc : Vec.Ok c) :
    (do let w ← symopVec p b v c; symopVec p a w c) = .ok v := by
  rw [C20_compose p a b v c hv.ok hc]
  simp only [hab]
  exact C20_identity_canonical p v c hv hc

/-- C20: the same laws for whole objects (any number of pieces with any number of vertices):
composition. -/
theorem C20_compose_obj {m : Nat} (a b : IMat 6 6) (o : Obj m) (c : Vec 6)
    (ho : Obj.Ok o) (hc : Vec.Ok c) :
    (do let o' ← symopObj p b o c; symopObj p a o' c) =
      symopObj p (fun i j => ∑ k, a i k * b k j) o c := by
  rw [symopObj_ok _ ho hc, bind_ok', symopObj_ok _ (symObj_ok' _ _ _) hc, symopObj_ok _ ho hc,
    List.map_map]
  congr 2
  funext s
  rw [Function.comp, symS_mul]
  congr 1
  funext i j
  exact npDot_apply a b i j

/-- C20: objects: inverse restores a canonical object. -/
theorem C20_inverse_obj {m : Nat} (a b : IMat 6 6)
    (hab : ∀ i j, ∑ k, a i k * b k j = if i = j then 1 else 0) (o : Obj m)
    (c : Vec 6) (ho : ∀ s ∈ o, ∀ i, Vec.Canon (s i)) (hc : Vec.Ok c) :
    (do let o' ← symopObj p b o c; symopObj p a o' c) = .ok o := by
  have ho' : Obj.Ok o := fun s hs i => (ho s hs i).ok
  rw [C20_compose_obj p a b o c ho' hc, symopObj_ok _ ho' hc]
  simp only [hab]
  congr 1
  conv_rhs => rw [← List.map_id o]
  apply List.map_congr_left
  intro s hs
  refine (symS_one c s).trans ?_
  funext i
  exact nvec_kvec (ho s hs i)

/-- C20: `symop_obj` refuses arrays that do not have 2, 3 or 4 dimensions with `None`. -/
theorem C20_refuse (op : IMat 6 6) (c : Vec 6) :
    (∀ x, symopApi p op (.d1 x) c = .ok none) ∧
    (∀ m, ∀ os : List (Obj m), symopApi p op (.d5 os) c = .ok none) ∧
    (∀ k, symopApi p op (.other k) c = .ok none) :=
  ⟨fun _ => rfl, fun _ _ => rfl, fun _ => rfl⟩

end

example : ∀ i j, ∑ k, Ico.m1Mat i k * Ico.m1Mat j k = if i = j then 1 else 0 := by decide +kernel
example : Vec.Canon (exT 2) ∧ Vec.Ok exV₀ := by decide
example : symopVec .ico Ico.m1Mat (exT 2) exV₀ =
    .ok ![⟨0, 0, 1⟩, ⟨0, 1, 1⟩, ⟨1, -2, 3⟩, ⟨-3, 2, 3⟩, ⟨5, 3, 3⟩, ⟨-1, -3, 2⟩] := by decide +kernel

/-! ## C21: symmetrised objects -/

/-- C21, C42: shape of the symmetrised object for both packages. The result of `symmetric` has
`order` pieces per input piece (120, resp. 24); for every operation and input piece it contains the
transformed piece, in particular the canonical form of each input piece; and any operation of the
group about the same centre only reorders it. -/
theorem symmetric_orbit (p : Package) {m : Nat} (o : Obj m) (c : Vec 6) (ho : Obj.Ok o)
    (hc : Vec.Ok c) :
    ∃ r : Obj m, symmetricApi p (.d4 o) c = .ok (some (.d4 r)) ∧ r.length = p.order * o.length ∧
      (∀ op ∈ p.symops, ∀ s ∈ o, ∃ s' ∈ r, symopVecs p op s c = .ok s') ∧
      (∀ s ∈ o, ∃ s' ∈ r, ∀ i, Vec.Canon (s' i) ∧ p.val (s' i) = p.val (s i)) ∧
      (∀ s' ∈ r, ∃ op ∈ p.symops, ∃ s ∈ o, symopVecs p op s c = .ok s') ∧
      (∀ g ∈ p.symops, ∃ r', symopObj p g r c = .ok r' ∧ r'.Perm r) := by
  have hmem : ∀ op ∈ p.symops, ∀ s ∈ o, symS p op c s ∈ orbit p o c := fun op hop s hs =>
    List.mem_flatMap.mpr ⟨op, hop, List.mem_map.mpr ⟨s, hs, rfl⟩⟩
  refine ⟨orbit p o c, ?_, orbit_length o c, ?_, ?_, ?_, ?_⟩
  · simp only [symmetricApi, symmetricObj_ok ho hc, bind_ok']
    rfl
  · intro op hop s hs
    exact ⟨_, hmem op hop s hs, symopVecs_ok op (ho s hs) hc⟩
  · intro s hs
    refine ⟨_, hmem _ (symops_one p) s hs, fun i => ⟨nvec_canon _, ?_⟩⟩
    rw [symS_one]
    exact (val_nvec _).trans (coe_kvec _)
  · intro s' hs'
    obtain ⟨op, hop, h⟩ := List.mem_flatMap.mp hs'
    obtain ⟨s, hs, rfl⟩ := List.mem_map.mp h
    exact ⟨op, hop, s, hs, symopVecs_ok op (ho s hs) hc⟩
  · intro g hg
    exact ⟨_, symopObj_ok g (orbit_ok o c) hc, orbit_perm o c hg⟩

/-- C21 (see `symmetric_orbit`): 120 pieces per piece, contains the images, closed under the group. -/
theorem C21_orbit (o : Obj 4) (c : Vec 6) (ho : Obj.Ok o) (hc : Vec.Ok c) :
    ∃ r : Obj 4, symmetricApi .ico (.d4 o) c = .ok (some (.d4 r)) ∧ r.length = 120 * o.length ∧
      (∀ op ∈ Ico.icosasymop, ∀ s ∈ o, ∃ s' ∈ r, symopVecs .ico op s c = .ok s') ∧
      (∀ s ∈ o, ∃ s' ∈ r, ∀ i, Vec.Canon (s' i) ∧ Package.ico.val (s' i) = Package.ico.val (s i)) ∧
      (∀ s' ∈ r, ∃ op ∈ Ico.icosasymop, ∃ s ∈ o, symopVecs .ico op s c = .ok s') ∧
      (∀ g ∈ Ico.icosasymop, ∃ r', symopObj .ico g r c = .ok r' ∧ r'.Perm r) :=
  symmetric_orbit .ico o c ho hc

/-- C21: the volume is exactly 120 times the volume of the input. -/
theorem C21_volume (o : Obj 4) (c : Vec 6) (ho : Obj.Ok o) (hc : Vec.Ok c) :
    ∃ r : Obj 4, ∃ w w', symmetricApi .ico (.d4 o) c = .ok (some (.d4 r)) ∧
      Ico.objVolume6d (.d4 o) = .ok (some w) ∧ Ico.objVolume6d (.d4 r) = .ok (some w') ∧
      w'.val tau = 120 * w.val tau ∧ Ico.mul w ⟨120, 0, 1⟩ = .ok w' := by
  have hs : ((orbit .ico o c).map kvol).sum = 120 * (o.map kvol).sum := by
    unfold orbit
    refine (sum_flatMap_const Package.ico.symops _ _ _ (fun op hop s => kvol_symS (op := op) hop c s)).trans ?_
    rw [symops_length]
    norm_num [Package.order]
  refine ⟨orbit .ico o c, _, _, ?_, objVolume_ok ho, objVolume_ok (orbit_ok o c), ?_, ?_⟩
  · simp only [symmetricApi, symmetricObj_ok ho hc, bind_ok']
    rfl
  · rw [show tau = Package.ico.theta from rfl, val_norm, val_norm, hs]
    push_cast; rfl
  · have := mul_frac Package.ico.lawful (o.map kvol).sum 120 (k := 1) (by decide)
    rw [hs, mul_comm]
    refine this.trans ?_
    congr 2
    push_cast
    ring

/-- C21: for a single tetrahedron (3-dimensional array) `symmetric` returns its 120 images. -/
theorem C21_piece (p : Package) {m : Nat} (s : Simplex m) (c : Vec 6) (hs : Simplex.Ok s)
    (hc : Vec.Ok c) : symmetricApi p (.d3 s) c = symmetricApi p (.d4 [s]) c := by
  have ho : Obj.Ok [s] := by intro t ht; rw [List.mem_singleton] at ht; rw [ht]; exact hs
  simp only [symmetricApi, symmetricObj_ok ho hc, symmetricPiece_ok hs hc, bind_ok']
  rw [List.map_eq_flatMap]
  rfl

/-- C21: arrays that do not have 3 or 4 dimensions are refused with `None`. -/
theorem C21_refuse (p : Package) (c : Vec 6) :
    (∀ x, symmetricApi p (.d1 x) c = .ok none) ∧
    (∀ n, ∀ v : Vec n, symmetricApi p (.d2 v) c = .ok none) ∧
    (∀ m, ∀ os : List (Obj m), symmetricApi p (.d5 os) c = .ok none) ∧
    (∀ k, symmetricApi p (.other k) c = .ok none) :=
  ⟨fun _ => rfl, fun _ _ => rfl, fun _ _ => rfl, fun _ => rfl⟩

example : Obj.Ok [exT] ∧ Vec.Ok exV₀ := by decide

/-! ## C22: shift (both packages) -/

section
variable (p : Package)

/-- C22: `shift` adds `t` exactly to every vertex, keeping number and order of pieces. -/
theorem C22_exact {m : Nat} (o : Obj m) (t : Vec 6) (ho : Obj.Ok o) (ht : Vec.Ok t) :
    ∃ r : Obj m, shiftApi p (.d4 o) t = .ok (some (.d4 r)) ∧
      List.Forall₂ (fun s s' => ∀ i, Vec.Canon (s' i) ∧ p.val (s' i) = p.val (s i) + p.val t) o r := by
  refine ⟨_, by simp only [shiftApi, shiftObj_ok p ho ht, bind_ok']; rfl, ?_⟩
  rw [List.forall₂_map_right_iff]
  apply List.forall₂_same.mpr
  intro s _ i
  refine ⟨nvec_canon _, ?_⟩
  unfold Package.val
  rw [val_nvec]
  rfl

theorem shiftObj_canon {m : Nat} {o : Obj m} {t : Vec 6} :
    Obj.Ok (o.map fun s i => nvec (kvec p.theta (s i) + kvec p.theta t)) := by
  intro s hs i
  obtain ⟨s', -, rfl⟩ := List.mem_map.mp hs
  exact nvec_ok _

/-- C22: successive shifts compose to the shift by the sum. -/
theorem C22_compose {m : Nat} (o : Obj m) (t u tu : Vec 6) (ho : Obj.Ok o) (ht : Vec.Ok t)
    (hu : Vec.Ok u) (htu : addVectors p.arith t u = .ok tu) :
    (do let o' ← shiftObj p o t; shiftObj p o' u) = shiftObj p o tu := by
  rw [addVectors_ok p.lawful ht hu] at htu
  injection htu with htu
  subst htu
  rw [shiftObj_ok p ho ht, bind_ok', shiftObj_ok p (shiftObj_canon p) hu, shiftObj_ok p ho (nvec_ok _),
    List.map_map]
  congr 2
  funext s i
  simp only [Function.comp, kvec_nvec, add_assoc]

/-- C22: shifting by `t` and then by `-t` restores a canonical object. -/
theorem C22_restore {m : Nat} (o : Obj m) (t u : Vec 6) (ho : ∀ s ∈ o, ∀ i, Vec.Canon (s i))
    (ht : Vec.Ok t) (hu : Vec.Ok u) (h : p.val u = -p.val t) :
    (do let o' ← shiftObj p o t; shiftObj p o' u) = .ok o := by
  have ho' : Obj.Ok o := fun s hs i => (ho s hs i).ok
  rw [shiftObj_ok p ho' ht, bind_ok', shiftObj_ok p (shiftObj_canon p) hu, List.map_map]
  have hk : kvec p.theta u = -kvec p.theta t := by
    funext i
    apply Subtype.ext
    exact congrFun h i
  congr 1
  conv_rhs => rw [← List.map_id o]
  apply List.map_congr_left
  intro s hs
  funext i
  simp only [Function.comp, kvec_nvec, hk, add_neg_cancel_right]
  exact nvec_kvec (ho s hs i)

/-- C22: arrays that are not 4-dimensional are refused with `None`. -/
theorem C22_refuse (t : Vec 6) (a : NdArr) (h : ∀ m, ∀ o : Obj m, a ≠ .d4 o) :
    shiftApi p a t = .ok none := by
  cases a with
  | d4 o => exact absurd rfl (h _ o)
  | _ => rfl

end

/-- C22: the volume array does not change (ico2). -/
theorem C22_volume (o : Obj 4) (t : Vec 6) (ho : Obj.Ok o) (ht : Vec.Ok t) :
    ∃ r : Obj 4, shiftApi .ico (.d4 o) t = .ok (some (.d4 r)) ∧
      Ico.objVolume6d (.d4 r) = Ico.objVolume6d (.d4 o) := by
  refine ⟨_, by simp only [shiftApi, shiftObj_ok .ico ho ht, bind_ok']; rfl, ?_⟩
  rw [objVolume_ok ho, objVolume_ok (shiftObj_canon .ico), List.map_map]
  congr 5
  funext s
  apply kvol_congr
  rw [← tetVol_shift (Package.ico.perps s) (Package.ico.perp t)]
  congr 1
  funext i
  exact perp_nvec_add (p := .ico) (s i) t

example : shiftApi .ico (.d4 [exT]) (exT 2) ≠ shiftApi .ico (.d4 [exT]) (exT 1) := by
  intro h
  have h2 : (shiftObj .ico [exT] (exT 2)) = shiftObj .ico [exT] (exT 1) := by
    rw [shiftObj_ok .ico (by decide) (by decide), shiftObj_ok .ico (by decide) (by decide)]
    simp only [shiftApi, shiftObj_ok .ico (o := [exT]) (by decide) (t := exT 2) (by decide),
      shiftObj_ok .ico (o := [exT]) (by decide) (t := exT 1) (by decide), bind_ok'] at h
    injection h with h; injection h with h; injection h with h1 h
    rw [h]
  exact absurd h2 (by decide +kernel)

/-! ## C41 -/

/-- C41: `dodesymop` returns 24 distinct matrices. -/
theorem C41_count : Dode.dodesymop.length = 24 ∧ Dode.dodesymop.Nodup :=
  ⟨symops_length .dode, symops_nodup .dode⟩

/-- C41: identity, closure under finite products, inverses; determinants ±1. -/
theorem C41_group :
    (1 : Matrix (Fin 6) (Fin 6) ℤ) ∈ Package.dode.group ∧
    (∀ M ∈ Package.dode.group, ∀ N ∈ Package.dode.group, M * N ∈ Package.dode.group) ∧
    (∀ l : List (Matrix (Fin 6) (Fin 6) ℤ), (∀ M ∈ l, M ∈ Package.dode.group) →
      l.prod ∈ Package.dode.group) ∧
    (∀ M ∈ Package.dode.group, ∃ N ∈ Package.dode.group, M * N = 1 ∧ N * M = 1) ∧
    (∀ M ∈ Package.dode.group, M.det = 1 ∨ M.det = -1) := by
  have hinv : ∀ M ∈ Package.dode.group, ∃ N ∈ Package.dode.group, M * N = 1 ∧ N * M = 1 := by
    intro M hM
    obtain ⟨N, h1, h2, h3⟩ := symops_inv (p := .dode) hM
    exact ⟨N, h1, (npDot_mul _ _).symm.trans (h2.trans npIdentity_one),
      (npDot_mul _ _).symm.trans (h3.trans npIdentity_one)⟩
  refine ⟨?_, ?_, group_prod .dode, hinv, ?_⟩
  · rw [← npIdentity_one]; exact symops_one .dode
  · intro M hM N hN
    rw [← npDot_mul]
    exact symops_mul hM hN
  · intro M hM
    obtain ⟨N, -, h, -⟩ := hinv M hM
    exact det_sq_of_inverse h

/-- C41: the twelve-fold generator has order exactly 12, the mirror order 2, and both are members. -/
theorem C41_orders :
    Matrix.of Dode.m1Mat ∈ Package.dode.group ∧
    Matrix.of Dode.m2Mat ∈ Package.dode.group ∧
    orderOf (Matrix.of Dode.m1Mat) = 12 ∧
    orderOf (Matrix.of Dode.m2Mat) = 2 := by
  have hp : ∀ (A : List (List Int)) (k : Nat), (Matrix.of (matOf A)) ^ k =
      Matrix.of (matOf (lpow A k)) :=
    fun A k => (npPow_eq (R := Int) _ k).symm.trans (npPow_matOf A k)
  have h1 : (1 : Matrix (Fin 6) (Fin 6) ℤ) = Matrix.of (matOf lid) := by
    rw [matOf_lid, npIdentity_one]; rfl
  refine ⟨?_, ?_, ?_, ?_⟩
  · show Dode.m1Mat ∈ Dode.dodesymop
    rw [dodesymop_eq, matOf_ld1]; exact List.mem_map.mpr ⟨_, by decide, rfl⟩
  · show Dode.m2Mat ∈ Dode.dodesymop
    rw [dodesymop_eq, matOf_ld2]; exact List.mem_map.mpr ⟨_, by decide, rfl⟩
  · rw [orderOf_eq_iff (by decide)]
    rw [matOf_ld1]
    constructor
    · rw [hp, h1]
      exact congrArg Matrix.of (by decide +kernel)
    · intro k hk hk0
      rw [hp, h1]
      have : ∀ k < 12, 0 < k → matOf (lpow ld1 k) ≠ matOf lid := by decide +kernel
      exact this k hk hk0
  · rw [orderOf_eq_iff (by decide), matOf_ld2]
    constructor
    · rw [hp, h1]
      exact congrArg Matrix.of (by decide +kernel)
    · intro k hk hk0
      rw [hp, h1]
      have : ∀ k < 2, 0 < k → matOf (lpow ld2 k) ≠ matOf lid := by decide +kernel
      exact this k hk hk0

/-! ## C42, C43: dodecagonal isometries and areas -/

/-- C42 for all 24 operations. -/
theorem C42_isometry (op : IMat 6 6) (h : op ∈ Dode.dodesymop) : ActsByIsometries .dode op :=
  actsByIsometries (p := .dode) h

/-- C42: shape of the symmetrised object: 24 pieces per piece, images, orbit closure. -/
theorem C42_orbit (o : Obj 3) (c : Vec 6) (ho : Obj.Ok o) (hc : Vec.Ok c) :
    ∃ r : Obj 3, symmetricApi .dode (.d4 o) c = .ok (some (.d4 r)) ∧ r.length = 24 * o.length ∧
      (∀ op ∈ Dode.dodesymop, ∀ s ∈ o, ∃ s' ∈ r, symopVecs .dode op s c = .ok s') ∧
      (∀ s ∈ o, ∃ s' ∈ r, ∀ i, Vec.Canon (s' i) ∧ Package.dode.val (s' i) = Package.dode.val (s i)) ∧
      (∀ s' ∈ r, ∃ op ∈ Dode.dodesymop, ∃ s ∈ o, symopVecs .dode op s c = .ok s') ∧
      (∀ g ∈ Dode.dodesymop, ∃ r', symopObj .dode g r c = .ok r' ∧ r'.Perm r) :=
  symmetric_orbit .dode o c ho hc

theorem objArea_ok {o : Obj 3} (h : Obj.Ok o) :
    Dode.objArea6d (.d4 o) = .ok (some (norm (o.map karea).sum)) := by
  have h0 : Dode.sumAreas ⟨0, 0, 1⟩ o = .ok (norm ((o.map karea).sum)) := by
    rw [← norm_zero (θ := Package.dode.theta), sumAreas_ok h, zero_add]
  simp only [Dode.objArea6d, h0, bind_ok']

/-- C42: the area is exactly 24 times the area of the input. -/
theorem C42_area (o : Obj 3) (c : Vec 6) (ho : Obj.Ok o) (hc : Vec.Ok c) :
    ∃ r : Obj 3, ∃ w w', symmetricApi .dode (.d4 o) c = .ok (some (.d4 r)) ∧
      Dode.objArea6d (.d4 o) = .ok (some w) ∧ Dode.objArea6d (.d4 r) = .ok (some w') ∧
      w'.val sin60 = 24 * w.val sin60 := by
  have hs : ((orbit .dode o c).map karea).sum = 24 * (o.map karea).sum := by
    unfold orbit
    refine (sum_flatMap_const Package.dode.symops _ _ _ (fun op hop s => karea_symS (op := op) hop c s)).trans ?_
    rw [symops_length]
    norm_num [Package.order]
  refine ⟨orbit .dode o c, _, _, ?_, objArea_ok ho, objArea_ok (orbit_ok o c), ?_⟩
  · simp only [symmetricApi, symmetricObj_ok ho hc, bind_ok']
    rfl
  · rw [show sin60 = Package.dode.theta from rfl, val_norm, val_norm, hs]
    push_cast; rfl

/-- C43: `triangle_area_6d` never raises and returns the canonical triple of half the absolute
z-component of the cross product of two sides of the perp triangle; it is non-negative, and it is the
true area when the three perp points have the same third coordinate. -/
theorem C43_area (t : Simplex 3) (h : Simplex.Ok t) :
    ∃ w, Dode.triangleArea6d t = .ok w ∧ w.Canon ∧
      w.val sin60 = triAreaXY (Package.dode.perps t) ∧ 0 ≤ w.val sin60 ∧
      ((t 1 5).val sin60 = (t 0 5).val sin60 → (t 2 5).val sin60 = (t 0 5).val sin60 →
        w.val sin60 = triArea (Package.dode.perps t)) := by
  have hv : (norm (karea t)).val sin60 = triAreaXY (Package.dode.perps t) := by
    rw [show sin60 = Package.dode.theta from rfl, val_norm, coe_karea]
  have hz : ∀ i, Package.dode.perps t i 2 = (t i 5).val sin60 := by
    intro i
    simp [Package.perps, Package.perp, Package.perpMat, Matrix.mulVec, dotProduct, Fin.sum_univ_six,
      Vec.val, Package.theta]
  refine ⟨_, triangleArea6d_ok h, norm_canon _, hv, ?_, ?_⟩
  · rw [hv]; unfold triAreaXY; positivity
  · intro h1 h2
    rw [hv, triArea_eq_XY _ (by rw [hz, hz, h1]) (by rw [hz, hz, h2])]

/-- C43: invariance under vertex order. -/
theorem C43_permute (t : Simplex 3) (h : Simplex.Ok t) (σ : Equiv.Perm (Fin 3)) :
    Dode.triangleArea6d (fun i => t (σ i)) = Dode.triangleArea6d t := by
  rw [triangleArea6d_ok h, triangleArea6d_ok (fun i => h (σ i)),
    karea_congr (triAreaXY_perm (Package.dode.perps t) σ)]

/-- C43: invariance under shifts. -/
theorem C43_shift (t : Simplex 3) (d : Vec 6) (h : Simplex.Ok t) (hd : Vec.Ok d) :
    ∃ t', shiftObj .dode [t] d = .ok [t'] ∧ Dode.triangleArea6d t' = Dode.triangleArea6d t := by
  have ho : Obj.Ok [t] := by intro s hs; rw [List.mem_singleton] at hs; rw [hs]; exact h
  refine ⟨_, shiftObj_ok .dode ho hd, ?_⟩
  rw [triangleArea6d_ok h, triangleArea6d_ok (fun i => nvec_ok _)]
  congr 2
  apply karea_congr
  rw [← triAreaXY_shift (Package.dode.perps t) (Package.dode.perp d)]
  congr 1
  funext i
  exact perp_nvec_add (p := .dode) (t i) d

/-- C43: invariance under the 24 operations about any centre. -/
theorem C43_symop (t : Simplex 3) (c : Vec 6) (h : Simplex.Ok t) (hc : Vec.Ok c)
    (op : IMat 6 6) (hop : op ∈ Dode.dodesymop) :
    ∃ t', symopVecs .dode op t c = .ok t' ∧ Dode.triangleArea6d t' = Dode.triangleArea6d t := by
  refine ⟨_, symopVecs_ok op h hc, ?_⟩
  rw [triangleArea6d_ok h, triangleArea6d_ok (symS_ok op c t), karea_symS hop]

/-- C43: `obj_area_6d` is the exact canonical sum; zero for the empty object; independent of the
order of the pieces. -/
theorem C43_object (o : Obj 3) (h : Obj.Ok o) :
    (∃ w, Dode.objArea6d (.d4 o) = .ok (some w) ∧ w.Canon ∧
      w.val sin60 = (o.map fun t => triAreaXY (Package.dode.perps t)).sum) ∧
    (∀ o', o.Perm o' → Dode.objArea6d (.d4 o') = Dode.objArea6d (.d4 o)) ∧
    Dode.objArea6d (.d4 ([] : Obj 3)) = .ok (some ⟨0, 0, 1⟩) := by
  refine ⟨⟨_, objArea_ok h, norm_canon _, ?_⟩, ?_, rfl⟩
  · rw [show sin60 = Package.dode.theta from rfl, val_norm]
    clear h
    induction o with
    | nil => simp
    | cons t ts ih =>
      simp only [List.map_cons, List.sum_cons]
      rw [Subfield.coe_add, ih, coe_karea]
  · intro o' hp
    have h₂ : Obj.Ok o' := fun s hs => h s (hp.mem_iff.mpr hs)
    rw [objArea_ok h, objArea_ok h₂, (hp.map karea).sum_eq]

/-- An example triangle in a plane of constant last coordinate. -/
def exTri : Simplex 3 :=
  ![![⟨0, 0, 1⟩, ⟨0, 0, 1⟩, ⟨0, 0, 1⟩, ⟨0, 0, 1⟩, ⟨0, 0, 1⟩, ⟨1, 0, 2⟩],
    ![⟨1, 0, 1⟩, ⟨0, 0, 1⟩, ⟨0, 0, 1⟩, ⟨0, 0, 1⟩, ⟨0, 0, 1⟩, ⟨1, 0, 2⟩],
    ![⟨0, 0, 1⟩, ⟨1, 2, 3⟩, ⟨0, 0, 1⟩, ⟨0, 0, 1⟩, ⟨0, 0, 1⟩, ⟨1, 0, 2⟩]]

example : Simplex.Ok exTri ∧ (exTri 1 5).val sin60 = (exTri 0 5).val sin60 ∧
    (exTri 2 5).val sin60 = (exTri 0 5).val sin60 := ⟨by decide, rfl, rfl⟩
example : Dode.triangleArea6d exTri = .ok ⟨1, 2, 12⟩ := by decide +kernel
example : Obj.Ok [exTri] ∧ Vec.Ok exV₀ := by decide

end PyQC
