import Verif.Lemmas.Norm
import Verif.Model.Math
import Mathlib.LinearAlgebra.Matrix.Notation
import Mathlib.LinearAlgebra.CrossProduct
import Mathlib.Algebra.BigOperators.Fin
/-!
# Vector functions compute in the field
-/
namespace PyQC

theorem fillFin_ok {α : Type} {n : Nat} {f : Fin n → Py α} {g : Fin n → α}
    (h : ∀ i, f i = .ok (g i)) : fillFin n f = .ok g := by
  induction n with
  | zero => simp only [fillFin]; congr; funext i; exact i.elim0
  | succ n ih =>
    simp only [fillFin, h 0, ih (f := fun i => f i.succ) (g := fun i => g i.succ) (fun i => h i.succ)]
    congr 1
    funext i
    refine Fin.cases ?_ ?_ i
    · rfl
    · intro j; rfl

theorem fillFin_eq_ok {α : Type} {n : Nat} {f : Fin n → Py α} {g : Fin n → α} :
    fillFin n f = .ok g ↔ ∀ i, f i = .ok (g i) := by
  refine ⟨?_, fillFin_ok⟩
  induction n with
  | zero => intro _ i; exact i.elim0
  | succ n ih =>
    intro h
    simp only [fillFin] at h
    split at h
    · cases h
    · rename_i x hx
      split at h
      · cases h
      · rename_i xs hxs
        have h' : Fin.cons x xs = g := by injection h
        subst h'
        intro i
        refine Fin.cases ?_ ?_ i
        · simpa using hx
        · intro j
          simpa using ih hxs j

theorem fillList_ok {α β : Type} {f : α → Py β} {g : α → β} {l : List α}
    (h : ∀ x ∈ l, f x = .ok (g x)) : fillList f l = .ok (l.map g) := by
  induction l with
  | nil => rfl
  | cons x xs ih =>
    simp only [fillList, h x (by simp), ih (fun y hy => h y (by simp [hy])), List.map_cons]

theorem foldPy_ok {α β : Type} {f : β → α → Py β} {g : β → α → β} {P : β → Prop} {l : List α}
    {b : β} (hb : P b) (h : ∀ b, P b → ∀ x ∈ l, f b x = .ok (g b x) ∧ P (g b x)) :
    foldPy f b l = .ok (l.foldl g b) := by
  induction l generalizing b with
  | nil => rfl
  | cons x xs ih =>
    obtain ⟨h1, h2⟩ := h b hb x (by simp)
    simp only [foldPy, h1, List.foldl_cons]
    exact ih h2 (fun b hb y hy => h b hb y (by simp [hy]))

@[simp] theorem bind_ok' {α β : Type} (x : α) (f : α → Py β) :
    ((Except.ok x : Py α) >>= f) = f x := rfl

@[simp] theorem bind_error' {α β : Type} (e : PyErr) (f : α → Py β) :
    ((Except.error e : Py α) >>= f) = Except.error e := rfl

section
variable {θ : ℝ} [Quad θ] {A : Arith} (hA : Lawful A θ)

/-- Field values of a vector. -/
noncomputable def kvec (θ : ℝ) [Quad θ] {n : Nat} (v : Vec n) : Fin n → K θ :=
  fun i => kval θ (v i)

/-- Canonical vector of given field values. -/
noncomputable def nvec {n : Nat} (x : Fin n → K θ) : Vec n := fun i => norm (x i)

@[simp] theorem kvec_nvec {n : Nat} (x : Fin n → K θ) : kvec θ (nvec x) = x := by
  funext i; simp [kvec, nvec]

@[simp] theorem nvec_ok {n : Nat} (x : Fin n → K θ) : Vec.Ok (nvec x) := fun i => by simp [nvec]

theorem nvec_canon {n : Nat} (x : Fin n → K θ) : Vec.Canon (nvec x) := fun _ => norm_canon _

theorem nvec_kvec {n : Nat} {v : Vec n} (h : Vec.Canon v) : nvec (kvec θ v) = v := by
  funext i; exact norm_kval (h i)

theorem nvec_inj {n : Nat} {x y : Fin n → K θ} : nvec x = nvec y ↔ x = y := by
  constructor
  · intro h
    have := congrArg (kvec θ) h
    simpa using this
  · rintro rfl; rfl

theorem val_nvec {n : Nat} (x : Fin n → K θ) : Vec.val θ (nvec x) = fun i => (x i : ℝ) := by
  funext i; simp [Vec.val, nvec]

theorem coe_kvec {n : Nat} (v : Vec n) : (fun i => (kvec θ v i : ℝ)) = Vec.val θ v := rfl

theorem kvec_eq_iff {n : Nat} {v w : Vec n} : kvec θ v = kvec θ w ↔ Vec.val θ v = Vec.val θ w := by
  constructor
  · intro h; rw [← coe_kvec, ← coe_kvec, h]
  · intro h; funext i; exact kval_eq_iff.mpr (congrFun h i)

theorem Vec.Canon.ok {n : Nat} {v : Vec n} (h : Vec.Canon v) : Vec.Ok v := fun i => (h i).1.ne'

include hA

theorem addVectors_ok {n : Nat} {v w : Vec n} (hv : Vec.Ok v) (hw : Vec.Ok w) :
    addVectors A v w = .ok (nvec (kvec θ v + kvec θ w)) :=
  fillFin_ok fun i => hA.add_ok (hv i) (hw i)

theorem mulVector_ok {n : Nat} {v : Vec n} {k : Num3} (hv : Vec.Ok v) (hk : k.c ≠ 0) :
    mulVector A v k = .ok (nvec (fun i => kvec θ v i * kval θ k)) :=
  fillFin_ok fun i => hA.mul_ok (hv i) hk

theorem subVectors_ok {n : Nat} {v w : Vec n} (hv : Vec.Ok v) (hw : Vec.Ok w) :
    subVectors A v w = .ok (nvec (kvec θ v - kvec θ w)) := by
  unfold subVectors
  rw [mulVector_ok hA hw (by decide)]
  simp only [bind_ok']
  rw [addVectors_ok hA hv (nvec_ok _), kvec_nvec]
  congr 2
  funext i
  have : kval θ ⟨-1, 0, 1⟩ = -1 := by
    apply Subtype.ext; simp [Num3.val]
  simp [this, sub_eq_add_neg]

theorem foldAdd_ok {α : Type} {l : List α} {f : α → Py Num3} {g : α → K θ}
    (hf : ∀ x ∈ l, f x = .ok (norm (g x))) (a : K θ) :
    foldPy (fun acc x => do
      let b ← f x
      A.add acc b) (norm a) l = .ok (norm (a + (l.map g).sum)) := by
  induction l generalizing a with
  | nil => simp [foldPy]
  | cons x xs ih =>
    simp only [foldPy, hf x (by simp), bind_ok', hA.add_ok (norm_c _) (norm_c _), kval_norm,
      List.map_cons, List.sum_cons]
    rw [ih (fun y hy => hf y (by simp [hy]))]
    congr 2
    ring

theorem sumProducts_ok {n : Nat} {x y : Vec n} (hx : Vec.Ok x) (hy : Vec.Ok y) :
    sumProducts A x y = .ok (norm (∑ i, kvec θ x i * kvec θ y i)) := by
  unfold sumProducts
  rw [← norm_zero (θ := θ), foldAdd_ok hA (g := fun i => kvec θ x i * kvec θ y i)
    (fun i _ => hA.mul_ok (hx i) (hy i)), zero_add]
  congr 2

theorem outerProduct_ok {v w : Vec 3} (hv : Vec.Ok v) (hw : Vec.Ok w) :
    outerProduct A v w = .ok (nvec (crossProduct (kvec θ v) (kvec θ w))) := by
  unfold outerProduct
  simp only [hA.mul_ok (hv _) (hw _), bind_ok', hA.sub_ok (norm_c _) (norm_c _), kval_norm]
  congr 1
  funext i
  fin_cases i <;> simp [nvec, kvec, cross_apply]

theorem mtrixcal_ok {m1 m2 m3 m4 m5 m6 : Num3} {v : Vec 6} (h1 : m1.c ≠ 0) (h2 : m2.c ≠ 0)
    (h3 : m3.c ≠ 0) (h4 : m4.c ≠ 0) (h5 : m5.c ≠ 0) (h6 : m6.c ≠ 0) (hv : Vec.Ok v) :
    mtrixcal A m1 m2 m3 m4 m5 m6 v = .ok (norm
      (kval θ m1 * kvec θ v 0 + kval θ m2 * kvec θ v 1 + kval θ m3 * kvec θ v 2 +
       kval θ m4 * kvec θ v 3 + kval θ m5 * kvec θ v 4 + kval θ m6 * kvec θ v 5)) := by
  unfold mtrixcal
  simp only [hA.mul_ok h1 (hv _), hA.mul_ok h2 (hv _), hA.mul_ok h3 (hv _), hA.mul_ok h4 (hv _),
    hA.mul_ok h5 (hv _), hA.mul_ok h6 (hv _), bind_ok', hA.add_ok (norm_c _) (norm_c _), kval_norm]
  rfl

theorem dotProduct1_ok {s t : Nat} (M : IMat s t) {v : Vec t} (hv : Vec.Ok v) :
    dotProduct1 A M v = .ok (nvec (fun k => ∑ j, (M k j : K θ) * kvec θ v j)) := by
  apply fillFin_ok
  intro k
  rw [sumProducts_ok hA (fun j => by simp) hv]
  congr 2
  apply Finset.sum_congr rfl
  intro j _
  congr 1
  apply Subtype.ext
  simp [kvec, Num3.val]

theorem foldAdd'_ok {α : Type} {l : List α} {f : α → Num3} (hf : ∀ x ∈ l, (f x).c ≠ 0) (a : K θ) :
    foldPy (fun acc x => A.add acc (f x)) (norm a) l =
      .ok (norm (a + (l.map fun x => kval θ (f x)).sum)) := by
  induction l generalizing a with
  | nil => simp [foldPy]
  | cons x xs ih =>
    simp only [foldPy, hA.add_ok (norm_c _) (hf x (by simp)), kval_norm, List.map_cons,
      List.sum_cons]
    rw [ih (fun y hy => hf y (by simp [hy]))]
    congr 2
    ring

omit hA in
theorem kval_inv (n : Int) : kval θ ⟨1, 0, n⟩ = (n : K θ)⁻¹ := by
  apply Subtype.ext
  simp [Num3.val]

omit hA in
theorem kval_intCast (n : Int) : kval θ ⟨n, 0, 1⟩ = (n : K θ) := by
  apply Subtype.ext
  simp [Num3.val]

theorem centroid_ok {l : List (Vec 6)} (h0 : l ≠ []) (hl : ∀ v ∈ l, Vec.Ok v) :
    centroid A l = .ok (nvec (((l.length : K θ)⁻¹) • (l.map (kvec θ)).sum)) := by
  apply fillFin_ok
  intro i
  rw [← norm_zero (θ := θ), foldAdd'_ok hA (fun v hv => hl v hv i)]
  have hn : ((l.length : Int)) ≠ 0 := by simpa using h0
  simp only [bind_ok', zero_add]
  rw [hA.mul_ok (norm_c _) hn, kval_norm, kval_inv]
  congr 2
  simp only [Pi.smul_apply, smul_eq_mul, Int.cast_natCast]
  rw [mul_comm]
  congr 1
  clear h0 hl hn
  induction l with
  | nil => rfl
  | cons v vs ih => simp only [List.map_cons, List.sum_cons, Pi.add_apply, ih]; rfl

theorem foldAddVec_ok {α : Type} {n : Nat} {l : List α} {f : α → Py (Vec n)} {g : α → Fin n → K θ}
    (hf : ∀ x ∈ l, f x = .ok (nvec (g x))) (a : Fin n → K θ) :
    foldPy (fun acc x => do
      let b ← f x
      addVectors A acc b) (nvec a) l = .ok (nvec (a + (l.map g).sum)) := by
  induction l generalizing a with
  | nil => simp [foldPy]
  | cons x xs ih =>
    simp only [foldPy, hf x (by simp), bind_ok', addVectors_ok hA (nvec_ok _) (nvec_ok _),
      kvec_nvec, List.map_cons, List.sum_cons]
    rw [ih (fun y hy => hf y (by simp [hy]))]
    congr 2
    abel

omit hA in
theorem nvec_zero {n : Nat} : nvec (0 : Fin n → K θ) = zeroVec n := by
  funext i
  simp [nvec, zeroVec, norm_zero]

/-- Mean of the vertices of a piece, over the field. -/
noncomputable def kmean (θ : ℝ) [Quad θ] (l : List (Vec 6)) : Fin 6 → K θ :=
  ((l.length : K θ)⁻¹) • (l.map (kvec θ)).sum

theorem centroidObj_ok {m : Nat} {o : Obj m} (h0 : o ≠ []) (hm : 0 < m) (ho : Obj.Ok o) :
    centroidObj A o = .ok (nvec (((o.length : K θ)⁻¹) •
      (o.map fun s => kmean θ (List.ofFn s)).sum)) := by
  unfold centroidObj
  rw [← nvec_zero (θ := θ), foldAddVec_ok hA (g := fun s => kmean θ (List.ofFn s))]
  · have hn : ((o.length : Int)) ≠ 0 := by simpa using h0
    simp only [bind_ok']
    rw [mulVector_ok hA (nvec_ok _) hn, kvec_nvec, kval_inv, zero_add]
    congr 2
    funext i
    simp [mul_comm]
  · intro s hs
    apply centroid_ok hA
    · intro h
      have := congrArg List.length h
      simp at this
      omega
    · intro v hv
      obtain ⟨i, rfl⟩ := (List.mem_ofFn' _ _).mp hv
      exact ho s hs i

end
end PyQC
