import Verif.Lemmas.Space
/-!
# C08–C10: vector operations

`p` ranges over the two packages; `p.val v` are the real coordinates of the array `v`.
-/
namespace PyQC
variable (p : Package)

/-! ## C08 -/

/-- C08: `add_vectors` never raises and is the canonical exact sum in every component. -/
theorem C08_add {n : Nat} (v w : Vec n) (hv : Vec.Ok v) (hw : Vec.Ok w) :
    ∃ r, addVectors p.arith v w = .ok r ∧ p.val r = p.val v + p.val w ∧ Vec.Canon r :=
  ⟨_, addVectors_ok p.lawful hv hw, by funext i; simp [Package.val, Vec.val, nvec, kvec],
    nvec_canon _⟩

/-- C08: `sub_vectors` is the canonical exact difference. -/
theorem C08_sub {n : Nat} (v w : Vec n) (hv : Vec.Ok v) (hw : Vec.Ok w) :
    ∃ r, subVectors p.arith v w = .ok r ∧ p.val r = p.val v - p.val w ∧ Vec.Canon r :=
  ⟨_, subVectors_ok p.lawful hv hw, by funext i; simp [Package.val, Vec.val, nvec, kvec],
    nvec_canon _⟩

/-- C08: `mul_vector` is the canonical exact scalar multiple. -/
theorem C08_mul {n : Nat} (v : Vec n) (k : Num3) (hv : Vec.Ok v) (hk : k.c ≠ 0) :
    ∃ r, mulVector p.arith v k = .ok r ∧ p.val r = k.val p.theta • p.val v ∧ Vec.Canon r :=
  ⟨_, mulVector_ok p.lawful hv hk, by
    funext i; simp [Package.val, Vec.val, nvec, kvec, mul_comm], nvec_canon _⟩

/-- C08: subtracting what was added gives the canonical array with the value of the original. -/
theorem C08_add_sub_cancel {n : Nat} (v w : Vec n) (hv : Vec.Ok v) (hw : Vec.Ok w) :
    ∃ r, (do let s ← addVectors p.arith v w; subVectors p.arith s w) = .ok r ∧
      p.val r = p.val v ∧ Vec.Canon r ∧ (Vec.Canon v → r = v) := by
  refine ⟨nvec (kvec p.theta v), ?_, ?_, nvec_canon _, nvec_kvec⟩
  · rw [addVectors_ok p.lawful hv hw, bind_ok', subVectors_ok p.lawful (nvec_ok _) hw]
    simp
  · rw [Package.val, val_nvec]; rfl

/-- C08: addition is commutative as arrays, even on arrays with zero denominators. -/
theorem C08_add_comm {n : Nat} (v w : Vec n) :
    addVectors p.arith v w = addVectors p.arith w v := by
  unfold addVectors
  congr 1
  funext i
  cases p <;> simp only [Package.arith, Ico.arith, Dode.arith, Ico.add, Dode.add] <;>
    congr 1 <;> ring

/-- C08: addition is associative as arrays. -/
theorem C08_add_assoc {n : Nat} (u v w : Vec n) (hu : Vec.Ok u) (hv : Vec.Ok v) (hw : Vec.Ok w) :
    (do let s ← addVectors p.arith u v; addVectors p.arith s w) =
      (do let s ← addVectors p.arith v w; addVectors p.arith u s) := by
  rw [addVectors_ok p.lawful hu hv, addVectors_ok p.lawful hv hw, bind_ok', bind_ok',
    addVectors_ok p.lawful (nvec_ok _) hw, addVectors_ok p.lawful hu (nvec_ok _)]
  simp [add_assoc]

/-- Number of dimensions of an array. -/
def NdArr.ndim : NdArr → Nat
  | .d1 _ => 1 | .d2 _ => 2 | .d3 _ => 3 | .d4 _ => 4 | .d5 _ => 5 | .other n => n

/-- An array whose dimension 1..5 is given by its constructor. -/
def NdArr.Proper : NdArr → Prop
  | .other n => n = 0 ∨ 5 < n
  | _ => True

/-- C08: `mul_vector` refuses everything that is not two-dimensional with `None`. -/
theorem C08_mul_vector_none (a : NdArr) (k : Num3) (ha : a.Proper) (h : a.ndim ≠ 2) :
    mulVectorApi p.arith a k = .ok none := by
  cases a <;> simp_all [mulVectorApi, NdArr.ndim]

/-- C08: `mul_vector` accepts two-dimensional arrays. -/
theorem C08_mul_vector_some {n : Nat} (v : Vec n) (k : Num3) (hv : Vec.Ok v) (hk : k.c ≠ 0) :
    ∃ r : Vec n, mulVectorApi p.arith (.d2 v) k = .ok (some (.d2 r)) ∧
      p.val r = k.val p.theta • p.val v ∧ Vec.Canon r := by
  obtain ⟨r, hr, h⟩ := C08_mul p v k hv hk
  exact ⟨r, by simp [mulVectorApi, hr], h⟩

/-- C08: `sub_vectors` refuses with `None` unless both arguments are two-dimensional. -/
theorem C08_sub_vectors_none (a b : NdArr) (ha : a.Proper) (hb : b.Proper)
    (h : a.ndim ≠ 2 ∨ b.ndim ≠ 2) : subVectorsApi p.arith a b = .ok none := by
  cases a <;> cases b <;> simp_all [subVectorsApi, NdArr.ndim]

/-- If every step of a loop succeeds or raises `e`, and some step raises, then the loop raises `e`. -/
theorem fillFin_error {α : Type} {n : Nat} {f : Fin n → Py α} {e : PyErr}
    (h : ∀ i, (∃ x, f i = .ok x) ∨ f i = .error e) (i : Fin n) (hi : f i = .error e) : fillFin n f = .error e := by
  induction n with
  | zero => exact i.elim0
  | succ n ih =>
    unfold fillFin
    rcases h 0 with ⟨x, hx⟩ | hx
    · rw [hx]
      cases i using Fin.cases with
      | zero => rw [hx] at hi; cases hi
      | succ j =>
        dsimp only
        rw [ih (fun k => h k.succ) j hi]
    · rw [hx]

/-- C08: `sub_vectors` of two arrays whose second is at least as long as the first: the exact differences of the
components of the first; the rest of the second is ignored without notice. -/
theorem C08_sub_vectors_some {n n' : Nat} (h : n ≤ n') (v : Vec n) (w : Vec n') (hv : Vec.Ok v) (hw : Vec.Ok w) :
    ∃ r : Vec n, subVectorsApi p.arith (.d2 v) (.d2 w) = .ok (some (.d2 r)) ∧
      (∀ i, p.val r i = p.val v i - p.val w (Fin.castLE h i)) ∧ Vec.Canon r := by
  obtain ⟨w', hw', hval, hc⟩ := C08_mul p w ⟨-1, 0, 1⟩ hw (by norm_num)
  obtain ⟨r, hr, hval', hc'⟩ := C08_add p v (fun i => w' (Fin.castLE h i)) hv fun i => (hc _).1.ne'
  refine ⟨r, ?_, fun i => ?_, hc'⟩
  · unfold subVectorsApi; dsimp only
    rw [hw', bind_ok']
    have : (fun i : Fin n => if h : i.1 < n' then p.arith.add (v i) (w' ⟨i.1, h⟩) else .error .indexError) =
        fun i => p.arith.add (v i) (w' (Fin.castLE h i)) := by
      funext i
      rw [dif_pos (lt_of_lt_of_le i.2 h)]; rfl
    rw [this]
    unfold addVectors at hr
    rw [hr]; rfl
  · rw [hval']
    have := congrFun hval (Fin.castLE h i)
    simp only [Pi.add_apply, Pi.smul_apply, smul_eq_mul] at this ⊢
    simp only [Package.val, Vec.val] at this ⊢
    rw [this]
    simp [Num3.val]
    ring

/-- C08: `sub_vectors` raises IndexError when the second array is shorter than the first. -/
theorem C08_sub_vectors_short {n n' : Nat} (h : n' < n) (v : Vec n) (w : Vec n') (hv : Vec.Ok v) (hw : Vec.Ok w) :
    subVectorsApi p.arith (.d2 v) (.d2 w) = .error .indexError := by
  obtain ⟨w', hw', -, hc⟩ := C08_mul p w ⟨-1, 0, 1⟩ hw (by norm_num)
  unfold subVectorsApi; dsimp only
  rw [hw', bind_ok', fillFin_error (e := .indexError) (fun i => ?_) ⟨n', h⟩ (by simp)]
  · rfl
  · by_cases hi : i.1 < n'
    · obtain ⟨r, hr, -⟩ := C08_add p (fun _ : Fin 1 => v i) (fun _ => w' ⟨i.1, hi⟩) (fun _ => hv i) fun _ => (hc _).1.ne'
      refine .inl ⟨r 0, ?_⟩
      rw [dif_pos hi]
      exact fillFin_eq_ok.mp hr 0
    · exact .inr (dif_neg hi)

/-- The subtractions of C08 with arrays of different lengths do occur. -/
example : (∃ r : Vec 1, subVectorsApi Package.ico.arith (.d2 ![⟨3, 1, 1⟩]) (.d2 ![⟨1, 0, 1⟩, ⟨7, 0, 1⟩]) = .ok (some (.d2 r)) ∧
      r 0 = ⟨2, 1, 1⟩) ∧
    subVectorsApi Package.ico.arith (.d2 ![⟨1, 0, 1⟩, ⟨7, 0, 1⟩]) (.d2 ![⟨3, 1, 1⟩]) = .error .indexError :=
  ⟨⟨_, rfl, by decide +kernel⟩, C08_sub_vectors_short .ico (by norm_num) _ _ (by decide) (by decide)⟩

/-- C08: `mul_vectors` multiplies every vector of a three-dimensional array. -/
theorem C08_mul_vectors_some {m : Nat} (s : Simplex m) (k : Num3) (hs : Simplex.Ok s)
    (hk : k.c ≠ 0) :
    ∃ r : Simplex m, mulVectorsApi p.arith (.d3 s) k = .ok (some (.d3 r)) ∧
      ∀ i, p.val (r i) = k.val p.theta • p.val (s i) ∧ Vec.Canon (r i) := by
  refine ⟨fun i => nvec (fun j => kvec p.theta (s i) j * kval p.theta k), ?_, ?_⟩
  · simp only [mulVectorsApi]
    rw [fillFin_ok (fun i => mulVector_ok p.lawful (hs i) hk)]
    rfl
  · intro i
    refine ⟨?_, nvec_canon _⟩
    funext j
    simp [Package.val, Vec.val, nvec, kvec, mul_comm]

/-- C08, disagreement with the docstring: `mul_vectors` of a four-dimensional array (a set of
tetrahedra) never returns an array; the branch computes the product and drops it. -/
theorem C08_mul_vectors_ndim4_is_none {m : Nat} (o : Obj m) (k : Num3) (ho : Obj.Ok o)
    (hk : k.c ≠ 0) : mulVectorsApi p.arith (.d4 o) k = .ok none := by
  simp only [mulVectorsApi]
  rw [fillList_ok (g := fun s i => nvec (fun j => kvec p.theta (s i) j * kval p.theta k))
    (fun s hs => fillFin_ok (fun i => mulVector_ok p.lawful (ho s hs i) hk))]
  rfl

example : Vec.Ok (![⟨1, 1, 2⟩, ⟨0, -3, -4⟩] : Vec 2) := by decide
example : addVectors Ico.arith (![⟨1, 1, 2⟩, ⟨0, -3, -4⟩] : Vec 2) ![⟨1, 0, 1⟩, ⟨1, 1, 4⟩] =
    .ok ![⟨3, 1, 2⟩, ⟨1, 4, 4⟩] := by decide +kernel
example : mulVectorApi Ico.arith (.d1 ⟨1, 1, 1⟩) ⟨1, 0, 2⟩ = .ok none := rfl

/-! ## C09 -/

/-- C09: `inner_product` of vectors of equal length is the canonical exact inner product. -/
theorem C09_inner {n : Nat} (v w : Vec n) (hv : Vec.Ok v) (hw : Vec.Ok w) :
    ∃ r, innerProduct p.arith v w = .ok (some r) ∧ r.val p.theta = p.val v ⬝ᵥ p.val w ∧ r.Canon := by
  refine ⟨_, ?_, ?_, norm_canon (∑ i, kvec p.theta v i * kvec p.theta w i)⟩
  · unfold innerProduct
    simp only [Fin.cast_refl, id_eq, dite_true]
    rw [sumProducts_ok p.lawful hv hw]
    rfl
  · simp [dotProduct, Package.val, Vec.val, kvec]

/-- C09: `inner_product` of vectors of different lengths is refused with `None`. -/
theorem C09_inner_none {m n : Nat} (v : Vec m) (w : Vec n) (h : m ≠ n) :
    innerProduct p.arith v w = .ok none := by
  simp [innerProduct, h]

/-- C09: `outer_product` is the canonical exact cross product. -/
theorem C09_outer (v w : Vec 3) (hv : Vec.Ok v) (hw : Vec.Ok w) :
    ∃ r, outerProduct p.arith v w = .ok r ∧ p.val r = crossProduct (p.val v) (p.val w) ∧
      Vec.Canon r := by
  refine ⟨_, outerProduct_ok p.lawful hv hw, ?_, nvec_canon _⟩
  rw [Package.val, val_nvec]
  funext i
  fin_cases i <;> simp [cross_apply, kvec, Package.val, Vec.val]

/-- C09: the computed outer product has inner product exactly `[0,0,1]` with both factors. -/
theorem C09_outer_orthogonal (v w : Vec 3) (hv : Vec.Ok v) (hw : Vec.Ok w) :
    (do let r ← outerProduct p.arith v w; innerProduct p.arith v r) = .ok (some ⟨0, 0, 1⟩) ∧
    (do let r ← outerProduct p.arith v w; innerProduct p.arith w r) = .ok (some ⟨0, 0, 1⟩) := by
  rw [outerProduct_ok p.lawful hv hw, bind_ok', bind_ok']
  unfold innerProduct
  simp only [Fin.cast_refl, id_eq, dite_true]
  rw [sumProducts_ok p.lawful hv (nvec_ok _), sumProducts_ok p.lawful hw (nvec_ok _), kvec_nvec]
  have h1 := dot_self_cross (kvec p.theta v) (kvec p.theta w)
  have h2 := dot_cross_self (kvec p.theta v) (kvec p.theta w)
  rw [dotProduct] at h1 h2
  rw [h1, h2, norm_zero]
  exact ⟨rfl, rfl⟩

/-- C09: swapping the factors negates the outer product, as arrays. -/
theorem C09_outer_anticomm (v w : Vec 3) (hv : Vec.Ok v) (hw : Vec.Ok w) :
    outerProduct p.arith w v =
      (do let r ← outerProduct p.arith v w; mulVector p.arith r ⟨-1, 0, 1⟩) := by
  rw [outerProduct_ok p.lawful hv hw, outerProduct_ok p.lawful hw hv, bind_ok',
    mulVector_ok p.lawful (nvec_ok _) (by decide), kvec_nvec, kval_intCast,
    ← cross_anticomm (kvec p.theta v) (kvec p.theta w)]
  congr 2
  funext i
  simp

/-- C09: the outer product of parallel vectors is the zero array. -/
theorem C09_outer_parallel (v w : Vec 3) (hv : Vec.Ok v) (hw : Vec.Ok w) (t : ℝ)
    (h : p.val w = t • p.val v) : outerProduct p.arith v w = .ok (zeroVec 3) := by
  rw [outerProduct_ok p.lawful hv hw, ← nvec_zero (θ := p.theta)]
  congr 2
  have hc : crossProduct (p.val v) (p.val w) = 0 := by
    rw [h, map_smul, cross_self, smul_zero]
  funext i
  apply Subtype.ext
  have := congrFun hc i
  fin_cases i <;> simpa [cross_apply, kvec, Package.val, Vec.val] using this

/-- C09: `dot_product` of a matrix and a vector of TAU-style numbers is exact and canonical. -/
theorem C09_dot_matrix_vector {s t : Nat} (M : TMat s t) (v : Vec t) (hM : ∀ i, Vec.Ok (M i))
    (hv : Vec.Ok v) :
    ∃ r, dotProductMV p.arith M v = .ok (some r) ∧
      p.val r = Matrix.mulVec (fun i j => (M i j).val p.theta) (p.val v) ∧ Vec.Canon r := by
  refine ⟨nvec fun k => ∑ j, kvec p.theta (M k) j * kvec p.theta v j, ?_, ?_, nvec_canon _⟩
  · simp only [dotProductMV, dite_true, Fin.cast_refl, id_eq]
    rw [fillFin_ok (fun k => sumProducts_ok p.lawful (hM k) hv)]
    rfl
  · rw [Package.val, val_nvec]
    funext k
    simp [Matrix.mulVec, dotProduct, Package.val, Vec.val, kvec]

/-- C09: `dot_product` of two matrices of TAU-style numbers is exact and canonical. -/
theorem C09_dot_matrix_matrix {s t u : Nat} (M : TMat s t) (N : TMat t u)
    (hM : ∀ i, Vec.Ok (M i)) (hN : ∀ i, Vec.Ok (N i)) :
    ∃ r, dotProductMM p.arith M N = .ok (some r) ∧
      ∀ k j, (r k j).val p.theta = ∑ i, (M k i).val p.theta * (N i j).val p.theta ∧
        (r k j).Canon := by
  refine ⟨fun k j => norm (∑ i, kvec p.theta (M k) i * kval p.theta (N i j)), ?_, ?_⟩
  · simp only [dotProductMM, dite_true, Fin.cast_refl, id_eq]
    rw [fillFin_ok (fun k => fillFin_ok fun j =>
      sumProducts_ok p.lawful (hM k) (fun i => hN i j))]
    rfl
  · intro k j
    refine ⟨?_, norm_canon _⟩
    simp [kvec]

/-- C09: `dot_product` refuses shapes that do not match with `None`. -/
theorem C09_dot_none {s t1 t2 u : Nat} (M : TMat s t1) (v : Vec t2) (N : TMat t2 u) (h : t1 ≠ t2) :
    dotProductMV p.arith M v = .ok none ∧ dotProductMM p.arith M N = .ok none := by
  simp [dotProductMV, dotProductMM, h]

example : outerProduct Ico.arith ![⟨1, 0, 1⟩, ⟨0, 1, 1⟩, ⟨0, 0, 1⟩] ![⟨0, 0, 1⟩, ⟨1, 0, 2⟩, ⟨0, 1, 1⟩]
    = .ok ![⟨1, 1, 1⟩, ⟨0, -1, 1⟩, ⟨1, 0, 2⟩] := by decide +kernel

/-! ## C10 -/

/-- C10, matrix times vector: exact and canonical. -/
theorem C10_matrix_vector {s t : Nat} (M : IMat s t) (v : Vec t) (hv : Vec.Ok v) :
    ∃ r, dotProduct1Api p.arith M v = .ok (some r) ∧
      p.val r = Matrix.mulVec (fun i j => (M i j : ℝ)) (p.val v) ∧ Vec.Canon r := by
  refine ⟨_, ?_, ?_, nvec_canon (fun k => ∑ j, (M k j : K p.theta) * kvec p.theta v j)⟩
  · unfold dotProduct1Api
    simp only [Fin.cast_refl, id_eq, dite_true]
    rw [dotProduct1_ok p.lawful M hv]
    rfl
  · rw [Package.val, val_nvec]
    funext k
    simp [Matrix.mulVec, dotProduct, Package.val, Vec.val, kvec]

/-- C10: shapes that do not match are refused with `None`. -/
theorem C10_mismatch_none {s t1 t2 u : Nat} (M : IMat s t1) (v : Vec t2) (N : TMat t2 u)
    (h : t1 ≠ t2) :
    dotProduct1Api p.arith M v = .ok none ∧ dotProduct1MM p.arith M N = .ok none := by
  simp [dotProduct1Api, dotProduct1MM, h]

/-- C10, matrix times matrix, what the code really computes: entry `(k,j)` is `M[k][j]` times the
sum of column `j` of `N`. -/
theorem C10_matrix_matrix_actual {s t u : Nat} (M : IMat s t) (N : TMat t u)
    (hN : ∀ i, Vec.Ok (N i)) (hu : u ≤ t) :
    ∃ r, dotProduct1MM p.arith M N = .ok (some r) ∧
      ∀ k j, (r k j).val p.theta = ∑ i, (M k (Fin.castLE hu j) : ℝ) * (N i j).val p.theta := by
  refine ⟨fun k j => norm (∑ i, (M k (Fin.castLE hu j) : K p.theta) * kval p.theta (N i j)), ?_, ?_⟩
  · simp only [dotProduct1MM, dite_true, Fin.cast_refl, id_eq]
    rw [fillFin_ok (g := fun k j =>
      norm (∑ i, (M k (Fin.castLE hu j) : K p.theta) * kval p.theta (N i j)))]
    · rfl
    intro k
    apply fillFin_ok
    intro j
    have hj : j.val < t := lt_of_lt_of_le j.isLt hu
    simp only [hj, dite_true]
    rw [← norm_zero (θ := p.theta), foldAdd_ok p.lawful
      (g := fun i => (M k (Fin.castLE hu j) : K p.theta) * kval p.theta (N i j)) ?_ 0]
    · rw [zero_add, Fin.sum_univ_def]
    · intro i _
      rw [p.lawful.mul_ok (by simp) (hN i j), kval_intCast]
      rfl
  · intro k j
    simp

/-- C10: the full claim for matrix times matrix (stated here, refuted below). -/
def C10_MatrixMatrixClaim : Prop :=
  ∀ {s t u : Nat} (M : IMat s t) (N : TMat t u), (∀ i, Vec.Ok (N i)) →
    ∃ r, dotProduct1MM p.arith M N = .ok (some r) ∧
      ∀ k j, (r k j).val p.theta = ∑ i, (M k i : ℝ) * (N i j).val p.theta

/-- C10: the matrix-times-matrix claim is false of the code, in both packages. Witness: `[[1,2],[3,4]]`
times the swap matrix; entry (0,0) comes out as 1 instead of 2. -/
theorem C10_matrix_matrix_false : ¬ C10_MatrixMatrixClaim p := by
  intro h
  obtain ⟨r', hr', hval'⟩ := C10_matrix_matrix_actual p (s := 2) (t := 2) (u := 2)
    ![![1, 2], ![3, 4]] ![![⟨0, 0, 1⟩, ⟨1, 0, 1⟩], ![⟨1, 0, 1⟩, ⟨0, 0, 1⟩]] (by decide) le_rfl
  obtain ⟨r'', hr'', hval''⟩ := h (s := 2) (t := 2) (u := 2)
    ![![1, 2], ![3, 4]] ![![⟨0, 0, 1⟩, ⟨1, 0, 1⟩], ![⟨1, 0, 1⟩, ⟨0, 0, 1⟩]] (by decide)
  rw [hr'] at hr''
  injection hr'' with e
  injection e with e
  subst e
  have h1 := hval' 0 0
  rw [hval'' 0 0] at h1
  simp [Fin.sum_univ_two, Num3.val, Fin.castLE] at h1

/-- C10, the part of the matrix-matrix claim that holds: when all entries of each row of `M` agree.
Missing: every other `M` (the code is wrong there, see `C10_matrix_matrix_false`), and `u > t`. -/
theorem C10_matrix_matrix_partial {s t u : Nat} (M : IMat s t) (N : TMat t u)
    (hN : ∀ i, Vec.Ok (N i)) (hu : u ≤ t) (hM : ∀ k i j, M k i = M k j) :
    ∃ r, dotProduct1MM p.arith M N = .ok (some r) ∧
      ∀ k j, (r k j).val p.theta = ∑ i, (M k i : ℝ) * (N i j).val p.theta := by
  obtain ⟨r, h1, h2⟩ := C10_matrix_matrix_actual p M N hN hu
  refine ⟨r, h1, fun k j => ?_⟩
  rw [h2]
  exact Finset.sum_congr rfl fun i _ => by rw [hM k i (Fin.castLE hu j)]

/-- C10: with more columns in `N` than in `M` (and a non-empty sum) the code raises IndexError. -/
theorem C10_matrix_matrix_index_error {s t u : Nat} (M : IMat (s + 1) (t + 1)) (N : TMat (t + 1) u)
    (hN : ∀ i, Vec.Ok (N i)) (hu : t + 1 < u) :
    dotProduct1MM p.arith M N = .error .indexError := by
  have key : ∀ (n : Nat) (f : Fin n → Py Num3), (∃ j, f j = .error .indexError) →
      (∀ j, f j = .error .indexError ∨ ∃ x, f j = .ok x) → fillFin n f = .error .indexError := by
    intro n
    induction n with
    | zero => rintro f ⟨j, _⟩ _; exact j.elim0
    | succ n ih =>
      rintro f ⟨j, hj⟩ h
      rcases h 0 with h0 | ⟨x, h0⟩
      · simp only [fillFin, h0]
      · simp only [fillFin, h0]
        rw [ih (fun i => f i.succ) ?_ (fun i => h i.succ)]
        refine Fin.cases (motive := fun j => f j = .error .indexError → _) ?_ ?_ j hj
        · intro h1; rw [h0] at h1; cases h1
        · intro i hi; exact ⟨i, hi⟩
  have hrow : ∀ k, fillFin u (fun j => foldPy (fun a (i : Fin (t + 1)) =>
        if hj : j.val < t + 1 then do
          let b ← p.arith.mul ⟨M k ⟨j.val, hj⟩, 0, 1⟩ (N i j)
          p.arith.add a b
        else .error .indexError) ⟨0, 0, 1⟩ (List.finRange (t + 1))) = .error .indexError := by
    intro k
    apply key
    · refine ⟨⟨t + 1, hu⟩, ?_⟩
      simp [List.finRange_succ, foldPy]
    · intro j
      by_cases hj : j.val < t + 1
      · right
        simp only [hj, dite_true]
        rw [← norm_zero (θ := p.theta), foldAdd_ok p.lawful
          (g := fun i => (M k ⟨j.val, hj⟩ : K p.theta) * kval p.theta (N i j)) ?_ 0]
        · exact ⟨_, rfl⟩
        · intro i _
          rw [p.lawful.mul_ok (by simp) (hN i j), kval_intCast]
      · left
        simp [List.finRange_succ, foldPy, hj]
  simp only [dotProduct1MM, dite_true, Fin.cast_refl, id_eq]
  simp only [fillFin, hrow]
  rfl

example : dotProduct1Api Ico.arith (![![0, 1], ![-1, 2]] : IMat 2 2) ![⟨1, 0, 2⟩, ⟨0, 1, 2⟩] =
    .ok (some ![⟨0, 1, 2⟩, ⟨-1, 2, 2⟩]) := by decide +kernel

end PyQC
