import Verif.Lemmas.Surface
import Verif.Props.Unique
/-!
# C26 surface of an object, C27 unique edges and triangles
-/
namespace PyQC

/-! ## C26 -/

/-- All faces, in the order of the code. -/
def faceIdx (n : Nat) : List (Fin n × Fin 4) :=
  (List.finRange n).flatMap fun a => [3, 2, 1, 0].map fun k => (a, k)

theorem mem_faceIdx {n : Nat} (j : Fin n × Fin 4) : j ∈ faceIdx n := by
  obtain ⟨a, k⟩ := j
  refine List.mem_flatMap.mpr ⟨a, List.mem_finRange a, ?_⟩
  fin_cases k <;> simp

theorem nodup_faceIdx (n : Nat) : (faceIdx n).Nodup := by
  unfold faceIdx
  rw [List.nodup_flatMap]
  constructor
  · intro a _; simp
  · refine (List.nodup_finRange n).imp ?_
    intro a b hab
    simp only [Function.onFun, List.disjoint_left, List.mem_map]
    rintro x ⟨k, -, rfl⟩ ⟨l, -, h⟩
    exact hab (Prod.mk.inj h).1.symm

theorem faces_eq (o : Obj 4) : o.flatMap tetrahedronSurface = (faceIdx o.length).map (face o) := by
  have h1 : ∀ a : Fin o.length,
      tetrahedronSurface (o.get a) = ([3, 2, 1, 0].map fun k => (a, k)).map (face o) := by
    intro a
    simp only [tetrahedronSurface, List.map_cons, List.map_nil]
    congr 1
    · funext i; fin_cases i <;> rfl
    congr 1
    · funext i; fin_cases i <;> rfl
    congr 1
    · funext i; fin_cases i <;> rfl
    congr 1
    · funext i; fin_cases i <;> rfl
  unfold faceIdx
  rw [List.map_flatMap]
  have h2 : o = (List.finRange o.length).map o.get := by
    rw [← List.ofFn_eq_map, List.ofFn_get]
  conv_lhs => rw [h2]
  rw [List.flatMap_map]
  exact List.flatMap_congr fun a _ => h1 a

theorem keepIsolated_map {α β : Type} (f : α → β) (prev : Option (List ℝ)) (L : List (List ℝ × α)) :
    keepIsolated prev (L.map fun x => (x.1, f x.2)) = (keepIsolated prev L).map f := by
  induction L generalizing prev with
  | nil => rfl
  | cons e L ih =>
    obtain ⟨k, x⟩ := e
    have hh : (∃ y, (L.map fun x => (x.1, f x.2)).head? = some y ∧ allclose k y.1) ↔
        (∃ y, L.head? = some y ∧ allclose k y.1) := by
      cases L with
      | nil => simp
      | cons e L => simp
    simp only [List.map_cons, keepIsolated, ih]
    by_cases hc : (∃ q, prev = some q ∧ allclose k q) ∨ (∃ y, L.head? = some y ∧ allclose k y.1)
    · rw [if_pos hc, if_pos (hc.imp_right hh.mpr)]
    · rw [if_neg hc, if_neg (fun h => hc (h.imp_right hh.mp))]
      rfl

theorem close_iff {x y : Fin 3 → ℝ} : allclose (List.ofFn x) (List.ofFn y) ↔ Close x y := by
  unfold allclose Close
  rw [List.forall₂_iff_get]
  simp only [List.length_ofFn, List.get_eq_getElem, List.getElem_ofFn, true_and]
  exact ⟨fun h i => h i i.2 i.2, fun h i h1 _ => h ⟨i, h1⟩⟩

/-- Key of a face. -/
noncomputable def faceKey (o : Obj 4) (j : Fin o.length × Fin 4) : List ℝ :=
  List.ofFn (Package.ico.centroidPerp (face o j))

theorem faceKey_eq {o : Obj 4} {i j : Fin o.length × Fin 4} : faceKey o i = faceKey o j ↔
    Package.ico.centroidPerp (face o i) = Package.ico.centroidPerp (face o j) :=
  List.ofFn_injective.eq_iff

/-- The sorted list of faces, by index. -/
noncomputable def sortedFaces (o : Obj 4) : List (List ℝ × (Fin o.length × Fin 4)) :=
  ((faceIdx o.length).map fun j => (faceKey o j, j)).insertionSort fun x y => x.1 ≤ y.1

theorem sortedFaces_perm (o : Obj 4) :
    (sortedFaces o).Perm ((faceIdx o.length).map fun j => (faceKey o j, j)) := List.perm_insertionSort _ _

theorem sortedFaces_sorted (o : Obj 4) : (sortedFaces o).Pairwise fun x y => x.1 ≤ y.1 := by
  have : Std.Total fun x y : List ℝ × (Fin o.length × Fin 4) => x.1 ≤ y.1 := ⟨fun x y => le_total _ _⟩
  have : IsTrans _ fun x y : List ℝ × (Fin o.length × Fin 4) => x.1 ≤ y.1 := ⟨fun _ _ _ => le_trans⟩
  exact List.pairwise_insertionSort _ _

theorem generatorSurface1_ok {o : Obj 4} (ho : Obj.Ok o) (hn : 2 ≤ o.length) :
    generatorSurface1 o = .ok ((keepIsolated none (sortedFaces o)).map (face o)) := by
  unfold generatorSurface1
  simp only []
  rw [if_neg (by omega), fillList_ok (fun s hs => centroidKey_ok .ico (by norm_num)
    (ok_tetrahedronSurface ho s hs)), bind_ok', faces_eq, if_neg (by
      rw [List.length_map]
      intro h
      have := mem_faceIdx (n := o.length) (⟨0, by omega⟩, 0)
      rw [List.length_eq_zero_iff.mp h] at this
      exact absurd this List.not_mem_nil), zip_map_self, List.map_map, ← keepIsolated_map]
  congr 2
  unfold sortedFaces
  have h := List.map_insertionSort (fun x y : List ℝ × (Fin o.length × Fin 4) => x.1 ≤ y.1)
    (fun x y : List ℝ × Simplex 3 => x.1 ≤ y.1) (fun x => (x.1, face o x.2))
    ((faceIdx o.length).map fun j => (faceKey o j, j)) (fun a _ b _ => Iff.rfl)
  rw [h, List.map_map]
  rfl

theorem mem_sortedFaces {o : Obj 4} {e : List ℝ × (Fin o.length × Fin 4)} :
    e ∈ sortedFaces o ↔ e.1 = faceKey o e.2 := by
  rw [(sortedFaces_perm o).mem_iff, List.mem_map]
  constructor
  · rintro ⟨j, -, rfl⟩; rfl
  · intro h; exact ⟨e.2, mem_faceIdx _, by rw [← h]⟩

theorem count_sortedFaces {o : Obj 4} (j : Fin o.length × Fin 4) :
    (sortedFaces o).countP (fun f => decide (f.1 = faceKey o j)) = 1 ↔ Unpaired o j := by
  rw [(sortedFaces_perm o).countP_eq, List.countP_map]
  have hj : j ∈ faceIdx o.length := mem_faceIdx j
  have hn := nodup_faceIdx o.length
  have hall : ∀ i, i ∈ faceIdx o.length := mem_faceIdx
  generalize faceIdx o.length = I at hj hn hall
  obtain ⟨a, b, rfl⟩ := List.append_of_mem hj
  rw [List.countP_append, List.countP_cons, if_pos (by simp)]
  have hna : j ∉ a := fun h => (List.nodup_append.mp hn).2.2 j h j (by simp) rfl
  have hnb : j ∉ b := (List.nodup_cons.mp (List.nodup_append.mp hn).2.1).1
  constructor
  · intro h i hi
    have ha : a.countP ((fun f : List ℝ × (Fin o.length × Fin 4) => decide (f.1 = faceKey o j)) ∘
      fun j => (faceKey o j, j)) = 0 := by omega
    have hb : b.countP ((fun f : List ℝ × (Fin o.length × Fin 4) => decide (f.1 = faceKey o j)) ∘
      fun j => (faceKey o j, j)) = 0 := by omega
    rw [List.countP_eq_zero] at ha hb
    rcases List.mem_append.mp (hall i) with h | h
    · simpa [faceKey_eq] using ha i h
    · rcases List.mem_cons.mp h with h | h
      · exact absurd h hi
      · simpa [faceKey_eq] using hb i h
  · intro h
    have ha : a.countP ((fun f : List ℝ × (Fin o.length × Fin 4) => decide (f.1 = faceKey o j)) ∘
        fun j => (faceKey o j, j)) = 0 := by
      rw [List.countP_eq_zero]
      intro i hi
      simpa [faceKey_eq] using h i (fun e => hna (e ▸ hi))
    have hb : b.countP ((fun f : List ℝ × (Fin o.length × Fin 4) => decide (f.1 = faceKey o j)) ∘
        fun j => (faceKey o j, j)) = 0 := by
      rw [List.countP_eq_zero]
      intro i hi
      simpa [faceKey_eq] using h i (fun e => hnb (e ▸ hi))
    omega

theorem nodup_sortedFaces_filter (o : Obj 4) (P : List ℝ × (Fin o.length × Fin 4) → Bool) :
    (((sortedFaces o).filter P).map Prod.snd).Nodup := by
  have h : ((sortedFaces o).map Prod.snd).Nodup := by
    refine ((sortedFaces_perm o).map Prod.snd).nodup_iff.mpr ?_
    rw [List.map_map, show (Prod.snd ∘ fun j => (faceKey o j, j)) = id from rfl, List.map_id]
    exact nodup_faceIdx o.length
  exact h.sublist (List.filter_sublist.map _)

theorem mem_sortedFaces_filter {o : Obj 4} {j : Fin o.length × Fin 4} :
    j ∈ ((sortedFaces o).filter fun e =>
      decide ((sortedFaces o).countP (fun f => decide (f.1 = e.1)) = 1)).map Prod.snd ↔ Unpaired o j := by
  rw [List.mem_map]
  constructor
  · rintro ⟨e, he, rfl⟩
    obtain ⟨h1, h2⟩ := List.mem_filter.mp he
    rw [mem_sortedFaces.mp h1] at h2
    exact (count_sortedFaces e.2).mp (by simpa using h2)
  · intro h
    refine ⟨(faceKey o j, j), List.mem_filter.mpr ⟨mem_sortedFaces.mpr rfl, ?_⟩, rfl⟩
    simpa using (count_sortedFaces j).mpr h

/-- C26: for two or more tetrahedra every returned triangle is a face whose perp centroid is shared by no
other face of the object, and no face is returned twice. So a face shared by two tetrahedra never
appears. -/
theorem C26_sound (o : Obj 4) (ho : Obj.Ok o) (hn : 2 ≤ o.length) :
    ∃ J : List (Fin o.length × Fin 4), generatorSurface1 o = .ok (J.map (face o)) ∧ J.Nodup ∧
      ∀ j ∈ J, Unpaired o j := by
  have h := (keepIsolated_aux [] (sortedFaces o) (by simpa using sortedFaces_sorted o)).1
  simp only [List.getLast?_nil, Option.map_none, List.nil_append] at h
  exact ⟨_, generatorSurface1_ok ho hn, (nodup_sortedFaces_filter o _).sublist h,
    fun j hj => mem_sortedFaces_filter.mp (h.subset hj)⟩

/-- C26: if no two different face centroids are within the tolerance of `np.allclose`, exactly the
unpaired faces are returned, each once. Missing: without the separation hypothesis unpaired faces can be
lost, see `C26_fails_close`. -/
theorem C26_surface_partial (o : Obj 4) (ho : Obj.Ok o) (hn : 2 ≤ o.length)
    (hsep : ∀ i j, Close (Package.ico.centroidPerp (face o i)) (Package.ico.centroidPerp (face o j)) →
      Package.ico.centroidPerp (face o i) = Package.ico.centroidPerp (face o j)) :
    ∃ J : List (Fin o.length × Fin 4), generatorSurface1 o = .ok (J.map (face o)) ∧ J.Nodup ∧
      ∀ j, j ∈ J ↔ Unpaired o j := by
  have h := (keepIsolated_aux [] (sortedFaces o) (by simpa using sortedFaces_sorted o)).2
  simp only [List.getLast?_nil, Option.map_none, List.nil_append] at h
  have h' := h (by
    intro x hx y hy hcl
    rw [mem_sortedFaces.mp hx, mem_sortedFaces.mp hy] at hcl ⊢
    exact faceKey_eq.mpr (hsep _ _ (close_iff.mp hcl)))
  refine ⟨_, generatorSurface1_ok ho hn, ?_, fun j => ?_⟩
  · rw [h']; exact nodup_sortedFaces_filter o _
  · rw [h']; exact mem_sortedFaces_filter

/-- C26: a single tetrahedron gives its four faces. -/
theorem C26_single (t : Simplex 4) :
    ∃ J : List (Fin 1 × Fin 4), generatorSurface1 [t] = .ok (J.map (face [t])) ∧ J.Nodup ∧ ∀ j, j ∈ J := by
  refine ⟨faceIdx 1, ?_, nodup_faceIdx 1, mem_faceIdx⟩
  have := faces_eq [t]
  unfold generatorSurface1
  simp only [List.length_singleton, if_true]
  rw [this]
  rfl

/-- C26: the empty object raises IndexError. -/
theorem C26_empty : generatorSurface1 [] = .error .indexError := rfl

/-- Centroids can be compared exactly. -/
theorem centroidPerp_eq_iff (p : Package) {m n : Nat} {s : Simplex m} {t : Simplex n} (hm : 0 < m) (hn : 0 < n)
    (hs : Simplex.Ok s) (ht : Simplex.Ok t) : p.centroidPerp s = p.centroidPerp t ↔
      (do let r ← centroid p.arith (List.ofFn s); p.projection3 r) =
        (do let r ← centroid p.arith (List.ofFn t); p.projection3 r) := by
  obtain ⟨r, hr, hp⟩ := perp_centroid p hm hs
  obtain ⟨r', hr', hp'⟩ := perp_centroid p hn ht
  have ok : Vec.Ok r := by
    have h0 : List.ofFn s ≠ [] := by
      intro h
      have := congrArg List.length h
      simp at this
      omega
    rw [centroid_ok p.lawful h0 (by
      intro v hv
      obtain ⟨i, rfl⟩ := List.mem_ofFn.mp hv
      exact hs i)] at hr
    rw [← Except.ok.inj hr]; exact nvec_ok _
  have ok' : Vec.Ok r' := by
    have h0 : List.ofFn t ≠ [] := by
      intro h
      have := congrArg List.length h
      simp at this
      omega
    rw [centroid_ok p.lawful h0 (by
      intro v hv
      obtain ⟨i, rfl⟩ := List.mem_ofFn.mp hv
      exact ht i)] at hr'
    rw [← Except.ok.inj hr']; exact nvec_ok _
  rw [hr, hr', bind_ok', bind_ok', p.projection3_ok ok, p.projection3_ok ok', ← hp, ← hp',
    ← p.kperp_eq_iff, ← nvec_inj (θ := p.theta)]
  exact ⟨fun h => by rw [h], fun h => Except.ok.inj h⟩

/-- Unit vector of the lattice divided by `n`. -/
def unit6 (k : Fin 6) (a n : Int) : Vec 6 := fun i => if i = k then ⟨a, 0, n⟩ else ⟨0, 0, 1⟩

/-- Two tetrahedra of size 1e-9 touching at the origin. -/
def exTiny : Obj 4 :=
  [![zeroVec 6, unit6 0 1 1000000000, unit6 1 1 1000000000, unit6 3 1 1000000000],
   ![zeroVec 6, unit6 0 (-1) 1000000000, unit6 1 (-1) 1000000000, unit6 3 (-1) 1000000000]]

theorem tau_bounds : (1.618 : ℝ) < tau ∧ tau < 1.6181 := by
  have h := Real.sq_sqrt (show (0 : ℝ) ≤ 5 by norm_num)
  have h0 := Real.sqrt_nonneg 5
  unfold tau
  constructor
  · have : (2.236 : ℝ) < Real.sqrt 5 := by nlinarith
    linarith
  · have : Real.sqrt 5 < (2.2362 : ℝ) := by nlinarith
    linarith

theorem exTiny_small (a : Fin exTiny.length) (i : Fin 4) (c : Fin 3) :
    |Package.ico.perp (exTiny.get a i) c| ≤ 2 / 10 ^ 9 := by
  obtain ⟨h1, h2⟩ := tau_bounds
  change Fin 2 at a
  rw [abs_le]
  fin_cases a <;> fin_cases i <;> fin_cases c <;>
    simp [exTiny, unit6, zeroVec, Package.perp, Package.perpMat, Package.theta, Matrix.mulVec, dotProduct,
      Fin.sum_univ_six, Vec.val, Num3.val, -one_div, neg_div] <;>
    (try constructor) <;> (try norm_num1) <;> linarith

theorem keepIsolated_close {α : Type} (prev : Option (List ℝ)) (L : List (List ℝ × α))
    (hp : prev ≠ none ∨ 2 ≤ L.length) (hprev : ∀ q, prev = some q → ∀ x ∈ L, allclose x.1 q)
    (h : ∀ x ∈ L, ∀ y ∈ L, allclose x.1 y.1) : keepIsolated prev L = [] := by
  induction L generalizing prev with
  | nil => rfl
  | cons e L ih =>
    obtain ⟨k, x⟩ := e
    unfold keepIsolated
    rw [if_pos]
    · exact ih (some k) (.inl (by simp)) (fun q hq y hy => by
        rw [← Option.some_injective _ hq]; exact h y (List.mem_cons_of_mem _ hy) (k, x) (by simp))
        (fun a ha b hb => h a (List.mem_cons_of_mem _ ha) b (List.mem_cons_of_mem _ hb))
    · cases prev with
      | some q => exact .inl ⟨q, rfl, hprev q rfl (k, x) (by simp)⟩
      | none =>
        cases L with
        | nil => simp at hp
        | cons y L => exact .inr ⟨y, rfl, h (k, x) (by simp) y (by simp)⟩

/-- C26: the full statement is false. For these two tetrahedra, of non-zero volume, sharing no face, the
surface returned is empty, because `np.allclose` has an absolute tolerance of 1e-8. -/
theorem C26_fails_close :
    Obj.Ok exTiny ∧ (∀ t ∈ exTiny, Ico.tetrahedronVolume6d t ≠ .ok ⟨0, 0, 1⟩) ∧ (∀ j, Unpaired exTiny j) ∧
      generatorSurface1 exTiny = .ok [] := by
  have hok : Obj.Ok exTiny := by decide
  refine ⟨hok, by decide +kernel, ?_, ?_⟩
  · have hf : ∀ j, Simplex.Ok (face exTiny j) := by decide +kernel
    have hd : ∀ j j' : Fin exTiny.length × Fin 4, j' ≠ j →
        (do let r ← centroid Package.ico.arith (List.ofFn (face exTiny j')); Package.ico.projection3 r) ≠
          (do let r ← centroid Package.ico.arith (List.ofFn (face exTiny j)); Package.ico.projection3 r) := by
      decide +kernel
    intro j j' hj
    rw [Ne, centroidPerp_eq_iff .ico (by norm_num) (by norm_num) (hf j') (hf j)]
    exact hd j j' hj
  · rw [generatorSurface1_ok hok (by decide), keepIsolated_close]
    · rfl
    · right
      rw [(sortedFaces_perm exTiny).length_eq]
      decide
    · intro q hq; simp at hq
    · have hsm : ∀ j c, |Package.ico.centroidPerp (face exTiny j) c| ≤ 2 / 10 ^ 9 := by
        intro j c
        have h0 := exTiny_small j.1 (j.2.succAbove 0) c
        have h1 := exTiny_small j.1 (j.2.succAbove 1) c
        have h2 := exTiny_small j.1 (j.2.succAbove 2) c
        rw [abs_le] at h0 h1 h2 ⊢
        have e : Package.ico.centroidPerp (face exTiny j) c =
            (Package.ico.perp (exTiny.get j.1 (j.2.succAbove 0)) c +
              Package.ico.perp (exTiny.get j.1 (j.2.succAbove 1)) c +
              Package.ico.perp (exTiny.get j.1 (j.2.succAbove 2)) c) / 3 := by
          simp only [Package.centroidPerp, face, Pi.smul_apply, Fin.sum_univ_three, smul_eq_mul, Pi.add_apply]
          push_cast
          ring
        rw [e]
        constructor <;> linarith
      intro x hx y hy
      rw [mem_sortedFaces.mp hx, mem_sortedFaces.mp hy]
      refine close_iff.mpr fun c => ?_
      have h1 := hsm x.2 c
      have h2 := hsm y.2 c
      have h3 := abs_nonneg (Package.ico.centroidPerp (face exTiny y.2) c)
      have h4 := abs_sub (Package.ico.centroidPerp (face exTiny x.2) c)
        (Package.ico.centroidPerp (face exTiny y.2) c)
      linarith

/-- Two tetrahedra sharing the face 0, e0, e1. -/
def exPair : Obj 4 :=
  [![zeroVec 6, unit6 0 1 1, unit6 1 1 1, unit6 3 1 1], ![zeroVec 6, unit6 0 1 1, unit6 1 1 1, unit6 5 1 1]]

theorem exPair_perp (a : Fin 2) (i : Fin 4) : Package.ico.perp (exPair.get a i) =
    (![![![0, 0, 0], ![tau, -1, 0], ![-1, 0, tau], ![0, tau, 1]],
       ![![0, 0, 0], ![tau, -1, 0], ![-1, 0, tau], ![0, tau, -1]]] : Fin 2 → Fin 4 → Fin 3 → ℝ) a i := by
  funext c
  fin_cases a <;> fin_cases i <;> fin_cases c <;>
    simp [exPair, unit6, zeroVec, Package.perp, Package.perpMat, Package.theta,
      Matrix.mulVec, dotProduct, Fin.sum_univ_six, Vec.val, Num3.val]

theorem centroidPerp_face (o : Obj 4) (j : Fin o.length × Fin 4) (c : Fin 3) :
    Package.ico.centroidPerp (face o j) c =
      (Package.ico.perp (o.get j.1 (j.2.succAbove 0)) c + Package.ico.perp (o.get j.1 (j.2.succAbove 1)) c +
        Package.ico.perp (o.get j.1 (j.2.succAbove 2)) c) / 3 := by
  simp only [Package.centroidPerp, face, Pi.smul_apply, Fin.sum_univ_three, smul_eq_mul, Pi.add_apply]
  push_cast
  ring

theorem succAbove_table (k : Fin 4) (i : Fin 3) :
    k.succAbove i = (![![1, 2, 3], ![0, 2, 3], ![0, 1, 3], ![0, 1, 2]] : Fin 4 → Fin 3 → Fin 4) k i := by
  revert k i; decide

theorem exPair_centroids (a : Fin 2) (k : Fin 4) : Package.ico.centroidPerp (face exPair (a, k)) =
      (![![![(tau - 1) / 3, (tau - 1) / 3, (tau + 1) / 3], ![-1 / 3, tau / 3, (tau + 1) / 3],
           ![tau / 3, (tau - 1) / 3, 1 / 3], ![(tau - 1) / 3, -1 / 3, tau / 3]],
        ![![(tau - 1) / 3, (tau - 1) / 3, (tau - 1) / 3], ![-1 / 3, tau / 3, (tau - 1) / 3],
          ![tau / 3, (tau - 1) / 3, -1 / 3], ![(tau - 1) / 3, -1 / 3, tau / 3]]] :
        Fin 2 → Fin 4 → Fin 3 → ℝ) a k := by
  funext c
  rw [centroidPerp_face exPair (a, k) c]
  simp only [show ∀ i, Package.ico.perp (exPair.get a i) = _ from exPair_perp a]
  simp only [succAbove_table]
  fin_cases k <;> fin_cases a <;> fin_cases c <;> simp <;> ring

set_option maxHeartbeats 1000000 in
/-- The hypothesis of `C26_surface_partial` holds for two tetrahedra sharing a face. -/
theorem exPair_separated (i j : Fin exPair.length × Fin 4)
    (h : Close (Package.ico.centroidPerp (face exPair i)) (Package.ico.centroidPerp (face exPair j))) :
    Package.ico.centroidPerp (face exPair i) = Package.ico.centroidPerp (face exPair j) := by
  have key := exPair_centroids
  obtain ⟨a, k⟩ := i
  obtain ⟨b, l⟩ := j
  change Fin 2 at a
  change Fin 2 at b
  rw [key a k, key b l] at h ⊢
  obtain ⟨t1, t2⟩ := tau_bounds
  have hsmall : ∀ c, |(![![![(tau - 1) / 3, (tau - 1) / 3, (tau + 1) / 3], ![-1 / 3, tau / 3, (tau + 1) / 3],
           ![tau / 3, (tau - 1) / 3, 1 / 3], ![(tau - 1) / 3, -1 / 3, tau / 3]],
        ![![(tau - 1) / 3, (tau - 1) / 3, (tau - 1) / 3], ![-1 / 3, tau / 3, (tau - 1) / 3],
          ![tau / 3, (tau - 1) / 3, -1 / 3], ![(tau - 1) / 3, -1 / 3, tau / 3]]] :
        Fin 2 → Fin 4 → Fin 3 → ℝ) b l c| ≤ 1 := by
    intro c
    rw [abs_le]
    fin_cases b <;> fin_cases l <;> fin_cases c <;> constructor <;> simp <;> linarith
  have hle : ∀ c, _ ∧ _ := fun c => abs_le.mp ((h c).trans (show _ ≤ (1 / 10 : ℝ) by
    have := hsmall c; linarith))
  clear h hsmall key
  obtain ⟨e1, f1⟩ := hle 0
  obtain ⟨e2, f2⟩ := hle 1
  obtain ⟨e3, f3⟩ := hle 2
  clear hle
  fin_cases a <;> fin_cases k <;> fin_cases b <;> fin_cases l <;> first
    | rfl
    | (exfalso
       simp [-one_div] at e1 e2 e3 f1 f2 f3
       linarith)

example : Obj.Ok exPair ∧ 2 ≤ exPair.length := by decide

/-- The common face of the two tetrahedra is not returned, the other six are. -/
example : ∃ J : List (Fin exPair.length × Fin 4), generatorSurface1 exPair = .ok (J.map (face exPair)) ∧
    J.Nodup ∧ ∀ j, j ∈ J ↔ j.2 ≠ 3 := by
  obtain ⟨J, hJ, hn, hm⟩ := C26_surface_partial exPair (by decide) (by decide) exPair_separated
  refine ⟨J, hJ, hn, fun j => ?_⟩
  rw [hm]
  have hf : ∀ j, Simplex.Ok (face exPair j) := by decide +kernel
  have hd : ∀ j : Fin exPair.length × Fin 4, j.2 ≠ 3 ↔ ∀ j' : Fin exPair.length × Fin 4, j' ≠ j →
      (do let r ← centroid Package.ico.arith (List.ofFn (face exPair j')); Package.ico.projection3 r) ≠
        (do let r ← centroid Package.ico.arith (List.ofFn (face exPair j)); Package.ico.projection3 r) := by
    decide +kernel
  rw [hd]
  refine forall_congr' fun j' => imp_congr_right fun _ => ?_
  rw [Ne, centroidPerp_eq_iff .ico (by norm_num) (by norm_num) (hf j') (hf j)]

/-! ## C27 -/

section
variable (p : Package)

/-- C27: three edges per triangle, in both packages. -/
theorem C27_all_triangle (o : Obj 3) :
    ∃ e, generatorAllEdges p o = some e ∧ e.length = 3 * o.length ∧
      ∀ s, s ∈ e ↔ ∃ t ∈ o, ∃ i j, i < j ∧ s = edge t i j := by
  refine ⟨o.flatMap triangleEdges, rfl, ?_, fun s => ?_⟩
  · induction o with
    | nil => rfl
    | cons t o ih => simp only [List.flatMap_cons, List.length_append, ih, List.length_cons, triangleEdges,
        List.length_nil]; omega
  · rw [List.mem_flatMap]
    refine exists_congr fun t => and_congr_right fun _ => ?_
    simp only [triangleEdges, List.mem_cons, List.not_mem_nil, or_false]
    constructor
    · rintro (rfl | rfl | rfl)
      · exact ⟨0, 1, by decide, rfl⟩
      · exact ⟨0, 2, by decide, rfl⟩
      · exact ⟨1, 2, by decide, rfl⟩
    · rintro ⟨i, j, hij, rfl⟩
      fin_cases i <;> fin_cases j <;> revert hij <;> simp [edge]

/-- C27: six edges per tetrahedron in ico2. -/
theorem C27_all_tetrahedron (o : Obj 4) :
    ∃ e, generatorAllEdges .ico o = some e ∧ e.length = 6 * o.length ∧
      ∀ s, s ∈ e ↔ ∃ t ∈ o, ∃ i j, i < j ∧ s = edge t i j := by
  refine ⟨o.flatMap tetrahedronEdges, rfl, ?_, fun s => ?_⟩
  · induction o with
    | nil => rfl
    | cons t o ih => simp only [List.flatMap_cons, List.length_append, ih, List.length_cons, tetrahedronEdges,
        List.length_nil]; omega
  · rw [List.mem_flatMap]
    refine exists_congr fun t => and_congr_right fun _ => ?_
    simp only [tetrahedronEdges, List.mem_cons, List.not_mem_nil, or_false]
    constructor
    · rintro (rfl | rfl | rfl | rfl | rfl | rfl)
      · exact ⟨0, 1, by decide, rfl⟩
      · exact ⟨0, 2, by decide, rfl⟩
      · exact ⟨0, 3, by decide, rfl⟩
      · exact ⟨1, 2, by decide, rfl⟩
      · exact ⟨1, 3, by decide, rfl⟩
      · exact ⟨2, 3, by decide, rfl⟩
    · rintro ⟨i, j, hij, rfl⟩
      fin_cases i <;> fin_cases j <;> revert hij <;> simp [edge]

/-- C27: other pieces are refused with `None`. -/
theorem C27_all_refused (m : Nat) (o : Obj m) :
    generatorAllEdges p o = none ↔ m ≠ 3 ∧ (m ≠ 4 ∨ p = .dode) := by
  unfold generatorAllEdges
  split
  · simp
  · cases p <;> simp
  · rename_i h3 h4
    simp only [true_iff]
    exact ⟨fun h => by subst h; exact h3 o rfl HEq.rfl, .inl fun h => by subst h; exact h4 o rfl HEq.rfl⟩

theorem uniqueByCentroid_spec {m : Nat} {o : Obj m} (hm : 0 < m) (ho : Obj.Ok o) :
    ∃ r, uniqueByCentroid p o = .ok r ∧ (∀ s ∈ r, s ∈ o) ∧
      r.Pairwise (fun s t => p.centroidPerp s ≠ p.centroidPerp t) ∧
      ∀ s ∈ o, ∃! t, t ∈ r ∧ p.centroidPerp t = p.centroidPerp s := by
  refine ⟨_, uniqueByCentroid_ok p hm ho, fun s hs => mem_of_mem_uniqueBy hs, ?_, ?_⟩
  · exact (uniqueBy_sorted _).imp fun h e => absurd h (by rw [e]; exact lt_irrefl _)
  · intro s hs
    obtain ⟨t, ht, e⟩ := exists_uniqueBy (key := fun s => List.ofFn (p.centroidPerp s)) hs
    refine ⟨t, ⟨ht, List.ofFn_injective e⟩, ?_⟩
    rintro z ⟨hz, ez⟩
    rw [mem_uniqueBy] at ht hz
    rw [ez] at hz
    rw [e] at ht
    exact Option.some_injective _ (hz.symm.trans ht)

/-- C27: for a set of triangles `generator_unique_edges` returns edges of the triangles, with one
representative for each perp midpoint. -/
theorem C27_unique_edges_triangles (o : Obj 3) (ho : Obj.Ok o) :
    ∃ r, generatorUniqueEdges p o = .ok r ∧ (∀ e ∈ r, ∃ t ∈ o, ∃ i j, i < j ∧ e = edge t i j) ∧
      r.Pairwise (fun e f => p.centroidPerp e ≠ p.centroidPerp f) ∧
      ∀ t ∈ o, ∀ i j, i < j → ∃! e, e ∈ r ∧ p.centroidPerp e = p.centroidPerp (edge t i j) := by
  obtain ⟨e, he, -, hm⟩ := C27_all_triangle p o
  obtain ⟨r, hr, h1, h2, h3⟩ := uniqueByCentroid_spec p (by norm_num) (ok_triangleEdges ho)
  have e' : e = o.flatMap triangleEdges := (Option.some_injective _ he).symm
  rw [← e'] at h1 h3
  exact ⟨r, hr, fun s hs => (hm s).mp (h1 s hs), h2, fun t ht i j hij => h3 _ ((hm _).mpr ⟨t, ht, i, j, hij, rfl⟩)⟩

/-- C27: the same for a set of tetrahedra in ico2. -/
theorem C27_unique_edges_tetrahedra (o : Obj 4) (ho : Obj.Ok o) :
    ∃ r, generatorUniqueEdges .ico o = .ok r ∧ (∀ e ∈ r, ∃ t ∈ o, ∃ i j, i < j ∧ e = edge t i j) ∧
      r.Pairwise (fun e f => Package.ico.centroidPerp e ≠ Package.ico.centroidPerp f) ∧
      ∀ t ∈ o, ∀ i j, i < j →
        ∃! e, e ∈ r ∧ Package.ico.centroidPerp e = Package.ico.centroidPerp (edge t i j) := by
  obtain ⟨e, he, -, hm⟩ := C27_all_tetrahedron o
  obtain ⟨r, hr, h1, h2, h3⟩ := uniqueByCentroid_spec .ico (by norm_num) (ok_tetrahedronEdges ho)
  have e' : e = o.flatMap tetrahedronEdges := (Option.some_injective _ he).symm
  rw [← e'] at h1 h3
  exact ⟨r, hr, fun s hs => (hm s).mp (h1 s hs), h2, fun t ht i j hij => h3 _ ((hm _).mpr ⟨t, ht, i, j, hij, rfl⟩)⟩

/-- C27: the same for a set of edges. -/
theorem C27_unique_edges_edges (o : Obj 2) (ho : Obj.Ok o) :
    ∃ r, generatorUniqueEdges p o = .ok r ∧ (∀ e ∈ r, e ∈ o) ∧
      r.Pairwise (fun e f => p.centroidPerp e ≠ p.centroidPerp f) ∧
      ∀ s ∈ o, ∃! e, e ∈ r ∧ p.centroidPerp e = p.centroidPerp s :=
  uniqueByCentroid_spec p (by norm_num) ho

/-- C27: all other pieces raise: UnboundLocalError, and TypeError for tetrahedra in dode2. -/
theorem C27_unique_edges_errors (m : Nat) (o : Obj m) :
    (m ≠ 2 → m ≠ 3 → m ≠ 4 → generatorUniqueEdges p o = .error .unboundLocalError) ∧
      (∀ o : Obj 4, generatorUniqueEdges .dode o = .error .typeError) := by
  constructor
  · intro h2 h3 h4
    unfold generatorUniqueEdges
    split
    · exact absurd rfl h2
    · exact absurd rfl h3
    · exact absurd rfl h4
    · rfl
  · intro o; rfl

/-- C27: for two or more tetrahedra `generator_unique_triangles` returns faces, with one representative for
each perp centroid; for one tetrahedron all four faces. -/
theorem C27_unique_triangles (o : Obj 4) (ho : Obj.Ok o) :
    ∃ J : List (Fin o.length × Fin 4), generatorUniqueTriangles o = .ok (J.map (face o)) ∧
      (o.length = 1 → J.Nodup ∧ ∀ j, j ∈ J) ∧
      (o.length ≠ 1 →
        J.Pairwise (fun i j => Package.ico.centroidPerp (face o i) ≠ Package.ico.centroidPerp (face o j)) ∧
        ∀ j, ∃! i, i ∈ J ∧ Package.ico.centroidPerp (face o i) = Package.ico.centroidPerp (face o j)) := by
  by_cases h1 : o.length = 1
  · refine ⟨faceIdx o.length, ?_, fun _ => ⟨nodup_faceIdx _, mem_faceIdx⟩, fun h => absurd h1 h⟩
    unfold generatorUniqueTriangles
    simp only [h1, if_true, faces_eq]
  · have hmap : (uniqueBy (faceKey o) (faceIdx o.length)).map (face o) =
        uniqueBy (fun s => List.ofFn (Package.ico.centroidPerp s)) ((faceIdx o.length).map (face o)) := by
      refine sortedBy_ext (key := fun s => List.ofFn (Package.ico.centroidPerp s)) ?_ (uniqueBy_sorted _) ?_
      · exact List.pairwise_map.mpr (uniqueBy_sorted _)
      · intro s
        rw [List.mem_map, mem_uniqueBy, List.find?_map]
        constructor
        · rintro ⟨j, hj, rfl⟩
          rw [mem_uniqueBy] at hj
          exact Option.map_eq_some_iff.mpr ⟨j, hj, rfl⟩
        · intro h
          obtain ⟨j, hj, rfl⟩ := Option.map_eq_some_iff.mp h
          exact ⟨j, mem_uniqueBy.mpr hj, rfl⟩
    refine ⟨uniqueBy (faceKey o) (faceIdx o.length), ?_, fun h => absurd h h1, fun _ => ⟨?_, ?_⟩⟩
    · unfold generatorUniqueTriangles
      simp only [h1, if_false]
      rw [uniqueByCentroid_ok .ico (by norm_num) (ok_tetrahedronSurface ho), faces_eq, hmap]
    · exact (uniqueBy_sorted _).imp fun h e => absurd h (by rw [faceKey_eq.mpr e]; exact lt_irrefl _)
    · intro j
      obtain ⟨i, hi, e⟩ := exists_uniqueBy (key := faceKey o) (mem_faceIdx j)
      refine ⟨i, ⟨hi, faceKey_eq.mp e⟩, ?_⟩
      rintro z ⟨hz, ez⟩
      rw [mem_uniqueBy] at hi hz
      rw [faceKey_eq.mpr ez] at hz
      rw [e] at hi
      exact Option.some_injective _ (hz.symm.trans hi)

end

/-- C27: different edges can have the same midpoint. Of the two diagonals of a parallelogram only one is
returned, so the deduplication is by midpoint, not by end points. -/
theorem C27_crossing_diagonals :
    ∃ o : Obj 2, Obj.Ok o ∧ o.length = 2 ∧
      (∀ e ∈ o, ∀ f ∈ o, e ≠ f → equivalentEdges .ico e f = .ok false) ∧
      ∃ e, generatorUniqueEdges .ico o = .ok [e] := by
  refine ⟨[![unit6 0 1 1, unit6 0 (-1) 1], ![unit6 1 1 1, unit6 1 (-1) 1]], by decide, rfl,
    by decide +kernel, ?_⟩
  obtain ⟨r, hr, hmem, hpw, hex⟩ := C27_unique_edges_edges .ico
    [![unit6 0 1 1, unit6 0 (-1) 1], ![unit6 1 1 1, unit6 1 (-1) 1]] (by decide)
  have hc : ∀ e ∈ r, Package.ico.centroidPerp e = Package.ico.centroidPerp ![unit6 0 1 1, unit6 0 (-1) 1] := by
    intro e he
    rcases List.mem_cons.mp (hmem e he) with h | h
    · rw [h]
    · rw [List.mem_singleton.mp h, centroidPerp_eq_iff .ico (by norm_num) (by norm_num) (by decide) (by decide)]
      decide +kernel
  obtain ⟨e, ⟨he, -⟩, -⟩ := hex ![unit6 0 1 1, unit6 0 (-1) 1] (by simp)
  match r, he, hr, hpw, hc with
  | [a], _, hr, _, _ => exact ⟨a, hr⟩
  | a :: b :: l, _, _, hpw, hc =>
    exact absurd ((hc a (by simp)).trans (hc b (by simp)).symm)
      ((List.pairwise_cons.mp hpw).1 b (by simp))

example : Obj.Ok exPair ∧ Obj.Ok [exTri] := by decide

end PyQC
