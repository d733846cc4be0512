import Verif.Lemmas.Unique
import Verif.Props.Symmetry
import Verif.Props.Projection
import Mathlib.Data.Finset.Card
import Mathlib.Data.Set.Card
/-!
# C23 remove_doubling, C24 remove_doubling_in_perp_space, C25 equivalence of pieces, C30 remove_vector(s),
C54 `equivalent`
-/
namespace PyQC

/-! ## C23 -/

/-- C23: `remove_doubling` keeps the same set of vectors, in strictly increasing lexicographic order,
hence without repetition; there is only one such list. -/
theorem C23_distinct (l : List (Vec 6)) :
    (∀ x, x ∈ removeDoubling l ↔ x ∈ l) ∧ (removeDoubling l).Pairwise Vec.Before ∧
      (removeDoubling l).Nodup ∧
      ∀ m : List (Vec 6), m.Pairwise Vec.Before → (∀ x, x ∈ m ↔ x ∈ l) → m = removeDoubling l := by
  have hs : (removeDoubling l).Pairwise Vec.Before := (removeDoubling_sorted l).imp rowKey_lt.mp
  refine ⟨fun _ => mem_removeDoubling, hs, ?_, fun m hm h => ?_⟩
  · exact (removeDoubling_sorted l).imp fun h e => absurd h (by rw [e]; exact lt_irrefl _)
  · exact sortedBy_ext (hm.imp rowKey_lt.mpr) (removeDoubling_sorted l) fun x => by
      rw [h, mem_removeDoubling]

/-- C23: the result depends only on the set of input vectors: not on order, not on multiplicity. -/
theorem C23_order_multiplicity (l m : List (Vec 6)) (h : ∀ x, x ∈ l ↔ x ∈ m) :
    removeDoubling l = removeDoubling m := removeDoubling_congr h

/-- C23: reordering the input changes nothing. -/
theorem C23_perm (l m : List (Vec 6)) (h : l.Perm m) : removeDoubling l = removeDoubling m :=
  removeDoubling_congr fun _ => h.mem_iff

/-- C23: running it twice is running it once. -/
theorem C23_idempotent (l : List (Vec 6)) : removeDoubling (removeDoubling l) = removeDoubling l :=
  removeDoubling_congr fun _ => mem_removeDoubling

/-- C23: an object given one level deeper is treated as the list of all its vertices; arrays with other
numbers of dimensions give `None`. -/
theorem C23_api (a : NdArr) :
    (∀ (m : Nat) (s : Simplex m), a = .d3 s → removeDoublingApi a = some (removeDoubling (List.ofFn s))) ∧
      (∀ (m : Nat) (o : Obj m), a = .d4 o → ∃ r, removeDoublingApi a = some r ∧
        ∀ l : List (Vec 6), (∀ x, x ∈ l ↔ ∃ s ∈ o, ∃ i, s i = x) → r = removeDoubling l) ∧
      ((∀ (m : Nat) (s : Simplex m), a ≠ .d3 s) → (∀ (m : Nat) (o : Obj m), a ≠ .d4 o) →
        removeDoublingApi a = none) := by
  refine ⟨?_, ?_, ?_⟩
  · rintro m s rfl; rfl
  · rintro m o rfl
    refine ⟨_, rfl, fun l hl => removeDoubling_congr fun x => ?_⟩
    rw [hl]
    simp [flattenObj, List.mem_flatMap, List.mem_ofFn]
  · intro h3 h4
    cases a <;> first | rfl | exact absurd rfl (h3 _ _) | exact absurd rfl (h4 _ _)

example : removeDoubling [exT 2, exT 0, exT 2, exT 1] = [exT 0, exT 2, exT 1] := by decide +kernel
example : Vec.Before (exT 0) (exT 2) ∧ ¬ Vec.Before (exT 2) (exT 0) := by
  constructor
  · exact rowKey_lt.mp (by decide +kernel)
  · exact fun h => absurd (rowKey_lt.mpr h) (by decide +kernel)

/-! ## C24 -/

section
variable (p : Package)

/-- C24: every output vector is one of the inputs, no two outputs have the same perp image, and every
input has the same perp image as exactly one output. -/
theorem C24_one_per_point (l : List (Vec 6)) (h : ∀ v ∈ l, Vec.Ok v) :
    ∃ r, removeDoublingPerp p l = .ok r ∧ (∀ x ∈ r, x ∈ l) ∧
      r.Pairwise (fun x y => p.perp x ≠ p.perp y) ∧
      ∀ x ∈ l, ∃! y, y ∈ r ∧ p.perp y = p.perp x := by
  refine ⟨_, removeDoublingPerp_ok p h, fun x hx => mem_removeDoubling.mp (mem_of_mem_uniqueBy hx), ?_, ?_⟩
  · exact (uniqueBy_sorted _).imp fun h e => absurd h (by rw [p.pkey_eq.mpr e]; exact lt_irrefl _)
  · intro x hx
    obtain ⟨y, hy, e⟩ := exists_uniqueBy (key := p.pkey) (mem_removeDoubling.mpr hx)
    refine ⟨y, ⟨hy, p.pkey_eq.mp e⟩, ?_⟩
    rintro z ⟨hz, ez⟩
    rw [mem_uniqueBy] at hy hz
    rw [p.pkey_eq.mpr ez] at hz
    rw [e] at hy
    exact Option.some_injective _ (hz.symm.trans hy)

/-- C24: the vector kept for a perp point is the lexicographically least of the inputs with that perp
point. -/
theorem C24_least (l : List (Vec 6)) (h : ∀ v ∈ l, Vec.Ok v) :
    ∃ r, removeDoublingPerp p l = .ok r ∧
      ∀ x ∈ r, ∀ y ∈ l, p.perp y = p.perp x → y = x ∨ Vec.Before x y := by
  refine ⟨_, removeDoublingPerp_ok p h, fun x hx y hy e => ?_⟩
  rw [mem_uniqueBy] at hx
  have hs := removeDoubling_sorted l
  have hy' := mem_removeDoubling.mpr hy
  generalize removeDoubling l = L at hx hs hy'
  obtain ⟨-, a, b, rfl, ha⟩ := List.find?_eq_some_iff_append.mp hx
  rcases List.mem_append.mp hy' with hya | hyb
  · exact absurd (p.pkey_eq.mpr e) (by simpa using ha y hya)
  · rcases List.mem_cons.mp hyb with rfl | hyb
    · exact .inl rfl
    · exact .inr (rowKey_lt.mp ((List.pairwise_cons.mp (List.pairwise_append.mp hs).2.1).1 y hyb))

/-- C24: the output is ordered by the projected triples. -/
theorem C24_sorted (l : List (Vec 6)) (h : ∀ v ∈ l, Vec.Ok v) :
    ∃ r, removeDoublingPerp p l = .ok r ∧
      r.Pairwise fun x y => ∃ a b, p.projection3 x = .ok a ∧ p.projection3 y = .ok b ∧ Vec.Before a b := by
  refine ⟨_, removeDoublingPerp_ok p h, (uniqueBy_sorted _).imp_of_mem fun hx hy hlt => ?_⟩
  exact ⟨_, _, p.projection3_ok (h _ (mem_removeDoubling.mp (mem_of_mem_uniqueBy hx))),
    p.projection3_ok (h _ (mem_removeDoubling.mp (mem_of_mem_uniqueBy hy))), rowKey_lt.mp hlt⟩

/-- C24: the result depends only on the set of input vectors: not on order, not on multiplicity. -/
theorem C24_order_multiplicity (l m : List (Vec 6)) (h : ∀ x, x ∈ l ↔ x ∈ m) :
    removeDoublingPerp p l = removeDoublingPerp p m := by
  unfold removeDoublingPerp
  rw [removeDoubling_congr h]

/-- C24: running it again changes nothing. -/
theorem C24_idempotent (l : List (Vec 6)) (h : ∀ v ∈ l, Vec.Ok v) :
    ∃ r, removeDoublingPerp p l = .ok r ∧ removeDoublingPerp p r = .ok r := by
  refine ⟨_, removeDoublingPerp_ok p h, ?_⟩
  set r := uniqueBy p.pkey (removeDoubling l) with hr
  have hr' : ∀ v ∈ r, Vec.Ok v := fun v hv => h v (mem_removeDoubling.mp (mem_of_mem_uniqueBy hv))
  rw [removeDoublingPerp_ok p hr']
  congr 1
  refine sortedBy_ext (uniqueBy_sorted _) (uniqueBy_sorted _) fun x => ?_
  constructor
  · intro hx; exact mem_removeDoubling.mp (mem_of_mem_uniqueBy hx)
  · intro hx
    obtain ⟨y, hy, e⟩ := exists_uniqueBy (key := p.pkey) (mem_removeDoubling.mpr hx)
    have hy' : y ∈ r := mem_removeDoubling.mp (mem_of_mem_uniqueBy hy)
    rw [hr, mem_uniqueBy] at hx hy'
    rw [e] at hy'
    rw [← Option.some_injective _ (hy'.symm.trans hx)]
    exact hy

/-- C24: an object given one level deeper is treated as the list of its vertices; other numbers of
dimensions raise TypeError. -/
theorem C24_api (a : NdArr) :
    (∀ (m : Nat) (s : Simplex m), a = .d3 s →
        removeDoublingPerpApi p a = removeDoublingPerp p (List.ofFn s)) ∧
      (∀ (m : Nat) (o : Obj m), a = .d4 o → ∀ l : List (Vec 6), (∀ x, x ∈ l ↔ ∃ s ∈ o, ∃ i, s i = x) →
        removeDoublingPerpApi p a = removeDoublingPerp p l) ∧
      ((∀ (m : Nat) (s : Simplex m), a ≠ .d3 s) → (∀ (m : Nat) (o : Obj m), a ≠ .d4 o) →
        removeDoublingPerpApi p a = .error .typeError) := by
  refine ⟨?_, ?_, ?_⟩
  · rintro m s rfl; rfl
  · rintro m o rfl l hl
    refine C24_order_multiplicity p _ _ fun x => ?_
    rw [hl]
    simp [flattenObj, List.mem_flatMap, List.mem_ofFn]
  · intro h3 h4
    cases a <;> first | rfl | exact absurd rfl (h3 _ _) | exact absurd rfl (h4 _ _)

end

/-- A 6D vector other than 0 whose dode2 perp image is 0 (it points along the fifth axis). -/
def exPar : Vec 6 := ![⟨0, 0, 1⟩, ⟨0, 0, 1⟩, ⟨0, 0, 1⟩, ⟨0, 0, 1⟩, ⟨1, 0, 1⟩, ⟨0, 0, 1⟩]

example : (∀ v ∈ [exTri 1, exPar, zeroVec 6, exTri 1], Vec.Ok v) ∧ exPar ≠ zeroVec 6 := by decide +kernel
example : (removeDoublingPerp .dode [exPar, exTri 1, zeroVec 6, exTri 1]) =
    .ok [exTri 1, zeroVec 6] := by decide +kernel

/-! ## C25 -/

section
variable (p : Package)

/-- C25: `equivalent_vertices` is equality of perp points. -/
theorem C25_vertices (v w : Vec 6) (hv : Vec.Ok v) (hw : Vec.Ok w) :
    ∃ b, equivalentVertices p v w = .ok b ∧ (b = true ↔ p.perp v = p.perp w) := by
  unfold equivalentVertices
  rw [p.projection3_ok hv, bind_ok', p.projection3_ok hw, bind_ok']
  refine ⟨_, rfl, ?_⟩
  rw [decide_eq_true_iff, nvec_inj, p.kperp_eq_iff]

/-- The number of vectors left is the number of distinct perp points. -/
theorem removeDoublingPerp_length {l : List (Vec 6)} (h : ∀ v ∈ l, Vec.Ok v) :
    ∃ r, removeDoublingPerp p l = .ok r ∧ r.length = {x | ∃ v ∈ l, p.perp v = x}.ncard := by
  obtain ⟨r, hr, hmem, hpw, hex⟩ := C24_one_per_point p l h
  refine ⟨r, hr, ?_⟩
  classical
  have hset : {x | ∃ v ∈ l, p.perp v = x} = ((r.map p.perp).toFinset : Set (Fin 3 → ℝ)) := by
    ext x
    simp only [Set.mem_ofPred_eq, List.coe_toFinset, List.mem_map]
    constructor
    · rintro ⟨v, hv, rfl⟩
      obtain ⟨y, ⟨hy, e⟩, -⟩ := hex v hv
      exact ⟨y, hy, e⟩
    · rintro ⟨v, hv, rfl⟩
      exact ⟨v, hmem v hv, rfl⟩
  rw [hset, Set.ncard_coe_finset, List.toFinset_card_of_nodup, List.length_map]
  exact List.pairwise_map.mpr hpw

theorem mem_append_ofFn {m n : Nat} {s : Simplex m} {t : Simplex n} :
    {x | ∃ v ∈ List.ofFn s ++ List.ofFn t, p.perp v = x} =
      Set.range (p.perps s) ∪ Set.range (p.perps t) := by
  ext x
  simp only [List.mem_append, List.mem_ofFn, Set.mem_ofPred_eq, Set.mem_union, Set.mem_range]
  constructor
  · rintro ⟨v, ⟨i, rfl⟩ | ⟨i, rfl⟩, rfl⟩
    · exact .inl ⟨i, rfl⟩
    · exact .inr ⟨i, rfl⟩
  · rintro (⟨i, rfl⟩ | ⟨i, rfl⟩)
    · exact ⟨_, .inl ⟨i, rfl⟩, rfl⟩
    · exact ⟨_, .inr ⟨i, rfl⟩, rfl⟩

/-- For arbitrary pieces the test asks whether together they have `k` distinct perp vertices. -/
theorem equivalentPieces_ok (k : Nat) {m n : Nat} {s : Simplex m} {t : Simplex n} (hs : Simplex.Ok s)
    (ht : Simplex.Ok t) : ∃ b, equivalentPieces p k s t = .ok b ∧
      (b = true ↔ (Set.range (p.perps s) ∪ Set.range (p.perps t)).ncard = k) := by
  obtain ⟨r, hr, hl⟩ := removeDoublingPerp_length p (l := List.ofFn s ++ List.ofFn t) (by
    intro v hv
    rcases List.mem_append.mp hv with h | h
    · obtain ⟨i, rfl⟩ := List.mem_ofFn.mp h; exact hs i
    · obtain ⟨i, rfl⟩ := List.mem_ofFn.mp h; exact ht i)
  rw [mem_append_ofFn] at hl
  unfold equivalentPieces
  rw [hr, bind_ok']
  exact ⟨_, rfl, by rw [decide_eq_true_iff, hl]⟩

theorem ncard_range_perps {m : Nat} {s : Simplex m} (h : Function.Injective (p.perps s)) :
    (Set.range (p.perps s)).ncard = m := by
  rw [← Set.image_univ, Set.ncard_image_of_injective _ h, Set.ncard_univ, Nat.card_fin]

/-- If the first piece has `m` distinct perp vertices, the union has `m` exactly when it adds none. -/
theorem union_ncard {m n : Nat} {s : Simplex m} {t : Simplex n} (h : Function.Injective (p.perps s)) :
    (Set.range (p.perps s) ∪ Set.range (p.perps t)).ncard = m ↔
      Set.range (p.perps t) ⊆ Set.range (p.perps s) := by
  have hfin : (Set.range (p.perps s) ∪ Set.range (p.perps t)).Finite :=
    (Set.finite_range _).union (Set.finite_range _)
  constructor
  · intro hc
    have := Set.eq_of_subset_of_ncard_le (Set.subset_union_left (s := Set.range (p.perps s))
      (t := Set.range (p.perps t))) (by rw [hc, ncard_range_perps p h]) hfin
    rw [this]
    exact Set.subset_union_right
  · intro hsub
    rw [Set.union_eq_self_of_subset_right hsub, ncard_range_perps p h]

theorem equivalentPieces_same {m : Nat} {s t : Simplex m} (hs : Simplex.Ok s) (ht : Simplex.Ok t)
    (ds : Function.Injective (p.perps s)) (dt : Function.Injective (p.perps t)) :
    ∃ b, equivalentPieces p m s t = .ok b ∧
      (b = true ↔ Set.range (p.perps s) = Set.range (p.perps t)) := by
  obtain ⟨b, hb, h⟩ := equivalentPieces_ok p m hs ht
  refine ⟨b, hb, ?_⟩
  rw [h, union_ncard p ds]
  constructor
  · intro hsub
    exact (Set.eq_of_subset_of_ncard_le hsub (by rw [ncard_range_perps p ds, ncard_range_perps p dt])
      (Set.finite_range _)).symm
  · intro e; rw [e]

/-- C25: for tetrahedra with four distinct perp vertices `equivalent_tetrahedra` is equality of the sets
of perp vertices. -/
theorem C25_tetrahedra (s t : Simplex 4) (hs : Simplex.Ok s) (ht : Simplex.Ok t)
    (ds : Function.Injective (p.perps s)) (dt : Function.Injective (p.perps t)) :
    ∃ b, equivalentTetrahedra p s t = .ok b ∧
      (b = true ↔ Set.range (p.perps s) = Set.range (p.perps t)) :=
  equivalentPieces_same p hs ht ds dt

/-- C25: the same for triangles. -/
theorem C25_triangles (s t : Simplex 3) (hs : Simplex.Ok s) (ht : Simplex.Ok t)
    (ds : Function.Injective (p.perps s)) (dt : Function.Injective (p.perps t)) :
    ∃ b, equivalentTriangles p s t = .ok b ∧
      (b = true ↔ Set.range (p.perps s) = Set.range (p.perps t)) :=
  equivalentPieces_same p hs ht ds dt

/-- C25: the same for edges. -/
theorem C25_edges (s t : Simplex 2) (hs : Simplex.Ok s) (ht : Simplex.Ok t)
    (ds : Function.Injective (p.perps s)) (dt : Function.Injective (p.perps t)) :
    ∃ b, equivalentEdges p s t = .ok b ∧
      (b = true ↔ Set.range (p.perps s) = Set.range (p.perps t)) :=
  equivalentPieces_same p hs ht ds dt

/-- C25: on pieces with distinct perp vertices the relation "answers True" is an equivalence relation;
stated for the common body, hence for edges (m = 2), triangles (3) and tetrahedra (4). -/
theorem C25_equivalence (m : Nat) :
    Equivalence fun s t : {s : Simplex m // Simplex.Ok s ∧ Function.Injective (p.perps s)} =>
      equivalentPieces p m s.1 t.1 = .ok true := by
  have key : ∀ s t : {s : Simplex m // Simplex.Ok s ∧ Function.Injective (p.perps s)},
      equivalentPieces p m s.1 t.1 = .ok true ↔ Set.range (p.perps s.1) = Set.range (p.perps t.1) := by
    intro s t
    obtain ⟨b, hb, h⟩ := equivalentPieces_same p s.2.1 t.2.1 s.2.2 t.2.2
    rw [hb, ← h]
    constructor
    · intro e; exact Except.ok.inj e
    · rintro rfl; rfl
  refine ⟨fun s => (key s s).mpr rfl, fun h => (key _ _).mpr ((key _ _).mp h).symm,
    fun h k => (key _ _).mpr (((key _ _).mp h).trans ((key _ _).mp k))⟩

end

/-- C25: the guard is needed. Two edges of length zero at different points are declared equivalent, and
a zero edge is not equivalent to itself. -/
theorem C25_degenerate :
    ∃ s t : Simplex 2, Simplex.Ok s ∧ Simplex.Ok t ∧
      Set.range (Package.ico.perps s) ≠ Set.range (Package.ico.perps t) ∧
      equivalentEdges .ico s t = .ok true ∧ equivalentEdges .ico s s = .ok false := by
  refine ⟨![zeroVec 6, zeroVec 6], ![exT 1, exT 1], by decide, by decide, ?_, by decide +kernel,
    by decide +kernel⟩
  intro h
  have h0 : Package.ico.perp (zeroVec 6) ∈ Set.range (Package.ico.perps ![exT 1, exT 1]) := by
    rw [← h]; exact ⟨0, rfl⟩
  obtain ⟨i, hi⟩ := h0
  have hi' : Package.ico.perp (exT 1) = Package.ico.perp (zeroVec 6) := by
    rw [← hi]; fin_cases i <;> rfl
  rw [← Package.ico.kperp_eq_iff, ← nvec_inj (θ := Package.ico.theta)] at hi'
  have e1 := Package.ico.projection3_ok (v := exT 1) (by decide)
  have e2 := Package.ico.projection3_ok (v := zeroVec 6) (by decide)
  rw [hi', ← e2] at e1
  exact absurd e1 (by decide +kernel)

/-- Deciding that the vertices of a concrete piece are distinct in perp space. -/
theorem perps_injective (p : Package) {m : Nat} {s : Simplex m} (hs : Simplex.Ok s)
    (h : ∀ i j, p.projection3 (s i) = p.projection3 (s j) → i = j) : Function.Injective (p.perps s) := by
  intro i j e
  refine h i j ?_
  rw [p.projection3_ok (hs i), p.projection3_ok (hs j), p.kperp_eq_iff.mpr e]

theorem exT_injective : Function.Injective (Package.ico.perps exT) :=
  perps_injective _ (by decide) (by decide +kernel)

example : Simplex.Ok exT ∧ Function.Injective (Package.ico.perps exT) := ⟨by decide, exT_injective⟩
example : equivalentTetrahedra .ico exT (fun i => exT (![2, 0, 3, 1] i)) = .ok true ∧
    equivalentTetrahedra .ico exT (fun i => exT (![2, 0, 3, 2] i)) = .ok true ∧
    equivalentTetrahedra .ico exT ![exT 0, exT 1, exT 2, exV] = .ok false := by decide +kernel

/-! ## C30 -/

/-- C30: if at least one vector is left, `remove_vectors` returns the elements of the first list that do
not occur in the second, in order. Missing: the case in which nothing is left, where the code returns
its input (`C30_fails_all_removed`). -/
theorem C30_removeVectors_partial (l m : List (Vec 6)) (h : ∃ x ∈ l, x ∉ m) :
    removeVectors l m = l.filter (fun v => decide (v ∉ m)) := by
  have e : (l.filter fun v => !(m.any fun w => decide (v = w))) = l.filter fun v => decide (v ∉ m) := by
    refine List.filter_congr fun v _ => ?_
    rw [Bool.eq_iff_iff]
    simp only [Bool.not_eq_true', List.any_eq_false, decide_eq_true_iff]
    exact ⟨fun h hv => h v hv rfl, fun h w hw e => h (e ▸ hw)⟩
  unfold removeVectors
  simp only [e]
  rw [if_pos]
  obtain ⟨x, hx, hxm⟩ := h
  intro h0
  have := List.length_eq_zero_iff.mp h0
  have hx' : x ∈ l.filter fun v => decide (v ∉ m) := by simp [hx, hxm]
  rw [this] at hx'
  exact absurd hx' (List.not_mem_nil)

/-- C30: if at least one vector is left, `remove_vector` returns the elements different from the given
one, in order. -/
theorem C30_removeVector_partial (l : List (Vec 6)) (v : Vec 6) (h : ∃ x ∈ l, x ≠ v) :
    removeVector l v = l.filter (fun x => decide (x ≠ v)) := by
  have e : (l.filter fun x => !decide (x = v)) = l.filter fun x => decide (x ≠ v) := by
    refine List.filter_congr fun x _ => ?_
    simp
  unfold removeVector
  simp only [e]
  rw [if_pos]
  obtain ⟨x, hx, hxm⟩ := h
  intro h0
  have := List.length_eq_zero_iff.mp h0
  have hx' : x ∈ l.filter fun x => decide (x ≠ v) := by simp [hx, hxm]
  rw [this] at hx'
  exact absurd hx' (List.not_mem_nil)

/-- C30: when every vector is to be removed the input is returned unchanged, so the removed vectors are
all still there. -/
theorem C30_all_removed (l m : List (Vec 6)) (v : Vec 6) :
    ((∀ x ∈ l, x ∈ m) → removeVectors l m = l) ∧ ((∀ x ∈ l, x = v) → removeVector l v = l) := by
  constructor
  · intro h
    have e : (l.filter fun v => !(m.any fun w => decide (v = w))) = [] := by
      rw [List.filter_eq_nil_iff]
      intro x hx
      simpa using h x hx
    unfold removeVectors
    simp [e]
  · intro h
    have e : (l.filter fun x => !decide (x = v)) = [] := by
      rw [List.filter_eq_nil_iff]
      intro x hx
      simpa using h x hx
    unfold removeVector
    simp [e]

/-- C30: so the full statement is false: a non-empty list minus itself comes back whole. -/
theorem C30_fails_all_removed :
    ¬ (∀ l m : List (Vec 6), removeVectors l m = l.filter fun v => decide (v ∉ m)) ∧
      ¬ (∀ (l : List (Vec 6)) (v : Vec 6), removeVector l v = l.filter fun x => decide (x ≠ v)) := by
  constructor
  · intro h
    exact absurd (h [exV] [exV]) (by decide +kernel)
  · intro h
    exact absurd (h [exV] exV) (by decide +kernel)

example : removeVectors [exV, exT 1, exT 0, exV] [exT 0, exV] = [exT 1] := by decide +kernel
example : removeVector [exV, exT 1, exT 0, exV] exV = [exT 1, exT 0] := by decide +kernel

/-! ## C54 -/

section
variable (p : Package)

/-- C54: for two arrays of vertices the general `equivalent` answers True exactly when every perp vertex
of the second is one of the first, provided the first has distinct perp vertices. The numbers of vertices
are not compared. -/
theorem C54_pieces (m n : Nat) (s : Simplex m) (t : Simplex n) (hs : Simplex.Ok s) (ht : Simplex.Ok t)
    (ds : Function.Injective (p.perps s)) :
    ∃ b, equivalentApi p (.d3 s) (.d3 t) = .ok (some b) ∧ equivalentApi p (.d4 [s]) (.d4 [t]) = .ok (some b) ∧
      (b = true ↔ Set.range (p.perps t) ⊆ Set.range (p.perps s)) := by
  obtain ⟨b, hb, h⟩ := equivalentPieces_ok p m hs ht
  refine ⟨b, ?_, ?_, h.trans (union_ncard p ds)⟩
  · simp only [equivalentApi, hb, bind_ok']
  · simp only [equivalentApi, hb, bind_ok']

/-- C54: for pieces with the same number of distinct perp vertices that is equality of vertex sets. -/
theorem C54_same_size (m : Nat) (s t : Simplex m) (hs : Simplex.Ok s) (ht : Simplex.Ok t)
    (ds : Function.Injective (p.perps s)) (dt : Function.Injective (p.perps t)) :
    ∃ b, equivalentApi p (.d3 s) (.d3 t) = .ok (some b) ∧
      (b = true ↔ Set.range (p.perps s) = Set.range (p.perps t)) := by
  obtain ⟨b, hb, h⟩ := equivalentPieces_same p hs ht ds dt
  exact ⟨b, by simp only [equivalentApi, hb, bind_ok'], h⟩

/-- C54: two single vectors are compared in perp space. -/
theorem C54_vectors (v w : Vec 6) (hv : Vec.Ok v) (hw : Vec.Ok w) :
    ∃ b, equivalentApi p (.d2 v) (.d2 w) = .ok (some b) ∧ (b = true ↔ p.perp v = p.perp w) := by
  obtain ⟨b, hb, h⟩ := C25_vertices p v w hv hw
  refine ⟨b, ?_, h⟩
  have e : ∀ u : Vec 6, (fun i => u (Fin.cast rfl i)) = u := fun u => rfl
  simp only [equivalentApi, and_self, dite_true, e, hb, bind_ok']

/-- C54: a single vector, an array of vertices and an object are never compared with each other. -/
theorem C54_none {k m n : Nat} (v : Vec k) (s : Simplex m) (o : Obj n) :
    equivalentApi p (.d2 v) (.d3 s) = .ok none ∧ equivalentApi p (.d2 v) (.d4 o) = .ok none ∧
    equivalentApi p (.d3 s) (.d2 v) = .ok none ∧ equivalentApi p (.d3 s) (.d4 o) = .ok none ∧
    equivalentApi p (.d4 o) (.d2 v) = .ok none ∧ equivalentApi p (.d4 o) (.d3 s) = .ok none :=
  ⟨rfl, rfl, rfl, rfl, rfl, rfl⟩

/-- C54: objects that are not single pieces are never declared equivalent, not even to themselves. -/
theorem C54_objects {m n : Nat} (o : Obj m) (o' : Obj n) (h : o.length ≠ 1 ∨ o'.length ≠ 1) :
    equivalentApi p (.d4 o) (.d4 o') = .ok (some false) := by
  match o, o', h with
  | [], _, _ => rfl
  | [_], [], _ => rfl
  | [_], [_], h => simp at h
  | [_], _ :: _ :: _, _ => rfl
  | _ :: _ :: _, _, _ => rfl

end

/-- C54: the relation is not symmetric: a tetrahedron is declared equivalent to one of its faces, the face
not to the tetrahedron. -/
theorem C54_not_symmetric :
    equivalentApi .ico (.d3 exT) (.d3 ![exT 0, exT 1, exT 2]) = .ok (some true) ∧
      equivalentApi .ico (.d3 ![exT 0, exT 1, exT 2]) (.d3 exT) = .ok (some false) := by
  decide +kernel

end PyQC
