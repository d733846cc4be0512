import Verif.Model.Unit
import Verif.Props.Symmetry
import Verif.Props.Unique
/-!
# C74: single operations of the point group and the vectors equivalent to a vector
-/
namespace PyQC

theorem pyIndex_pos {α : Type} {l : List α} {k : Nat} (h : k < l.length) : pyIndex l (k : Int) = .ok l[k] := by
  unfold pyIndex
  rw [if_pos (by omega), Int.toNat_natCast, List.getElem?_eq_getElem h]

theorem pyIndex_neg {α : Type} {l : List α} {k : Int} (h : k < 0) (h' : 0 ≤ k + l.length) :
    pyIndex l k = pyIndex l (k + l.length) := by
  unfold pyIndex
  rw [if_neg (by omega), if_pos h', if_pos h']

theorem pyIndex_error {α : Type} {l : List α} {k : Int} (h : (l.length : Int) ≤ k ∨ k + l.length < 0) :
    pyIndex l k = .error .indexError := by
  unfold pyIndex
  rcases h with h | h
  · rw [if_pos (by omega), List.getElem?_eq_none (by omega)]
  · rw [if_neg (by omega), if_neg (by omega)]

theorem flatMap_block {α β : Type} (f : α → List β) (n : Nat) (hf : ∀ a, (f a).length = n) :
    ∀ (l : List α) (k : Nat) (h : k < l.length), ((l.flatMap f).drop (k * n)).take n = f l[k]
  | a :: l, 0, _ => by simp [← hf a]
  | a :: l, k + 1, h => by
    rw [List.flatMap_cons, List.drop_append, hf, List.drop_eq_nil_of_le (by rw [hf]; nlinarith), List.nil_append,
      show (k + 1) * n - n = k * n by rw [Nat.add_mul, one_mul, Nat.add_sub_cancel], List.getElem_cons_succ]
    exact flatMap_block f n hf l k (by simpa using h)

/-- C74: for an index in range, `symmetric_0` returns exactly the block of the `symmetric` object that belongs to that
operation, in the order of the pieces. -/
theorem C74_block (p : Package) {m : Nat} (o : Obj m) (c : Vec 6) (ho : Obj.Ok o) (hc : Vec.Ok c) :
    ∃ q : Obj m, symmetricApi p (.d4 o) c = .ok (some (.d4 q)) ∧ ∀ k : Nat, k < p.order →
      symmetric0Api p (.d4 o) c k = .ok (some (.d4 ((q.drop (k * o.length)).take o.length))) := by
  refine ⟨orbit p o c, ?_, fun k hk => ?_⟩
  · simp only [symmetricApi, symmetricObj_ok ho hc, bind_ok']
    rfl
  · have hk' : k < p.symops.length := by rwa [symops_length]
    simp only [symmetric0Api, symmetricIndexApi, pyIndex_pos hk', bind_ok', symopApi, symopObj_ok _ ho hc]
    unfold orbit
    rw [flatMap_block _ _ (fun _ => List.length_map _) _ _ hk']

/-- C74: for a single piece, `symmetric_0` returns the piece at that position of the `symmetric` object. -/
theorem C74_piece (p : Package) {m : Nat} (s : Simplex m) (c : Vec 6) (hs : Simplex.Ok s) (hc : Vec.Ok c) :
    ∃ q : Obj m, symmetricApi p (.d3 s) c = .ok (some (.d4 q)) ∧ q.length = p.order ∧ ∀ k (h : k < q.length),
      symmetric0Api p (.d3 s) c k = .ok (some (.d3 q[k])) := by
  refine ⟨p.symops.map fun op => symS p op c s, ?_, ?_, fun k hk => ?_⟩
  · simp only [symmetricApi, symmetricPiece_ok hs hc, bind_ok']
  · rw [List.length_map, symops_length]
  · have hk' : k < p.symops.length := by simpa using hk
    simp only [symmetric0Api, symmetricIndexApi, pyIndex_pos hk', bind_ok', symopApi, symopVecs_ok _ hs hc,
      List.getElem_map]

/-- C74: negative indices count from the last operation, all others outside the group raise IndexError; arrays of other
dimensions give `None` with any index. -/
theorem C74_index (p : Package) (c : Vec 6) (k : Int) :
    (∀ a, k < 0 → 0 ≤ k + p.order → symmetric0Api p a c k = symmetric0Api p a c (k + p.order)) ∧
    (∀ (m : Nat) (o : Obj m), (p.order : Int) ≤ k ∨ k + p.order < 0 → symmetric0Api p (.d4 o) c k = .error .indexError) ∧
    (∀ (m : Nat) (s : Simplex m), (p.order : Int) ≤ k ∨ k + p.order < 0 →
      symmetric0Api p (.d3 s) c k = .error .indexError) ∧
    (∀ a : NdArr, (∀ (m : Nat) (s : Simplex m), a ≠ .d3 s) → (∀ (m : Nat) (o : Obj m), a ≠ .d4 o) →
      symmetric0Api p a c k = .ok none) := by
  rw [← symops_length]
  refine ⟨fun a h h' => ?_, fun m o h => ?_, fun m s h => ?_, fun a h h' => ?_⟩
  · cases a <;> simp only [symmetric0Api, symmetricIndexApi, pyIndex_neg h h']
  · simp only [symmetric0Api, symmetricIndexApi, pyIndex_error h, bind_error']
  · simp only [symmetric0Api, symmetricIndexApi, pyIndex_error h, bind_error']
  · cases a <;> first | rfl | exact absurd rfl (h _ _) | exact absurd rfl (h' _ _)

/-- C74: the generator for a list of operations raises NameError whenever it is applied to a piece or an object, for every
list of indices, and the generator of equivalent vectors raises AttributeError on every argument. -/
theorem C74_broken (p : Package) (c : Vec 6) :
    (∀ (m : Nat) (o : Obj m) ks, symmetricSpecificApi p (.d4 o) c ks = .error .nameError) ∧
    (∀ (m : Nat) (s : Simplex m) ks, symmetricSpecificApi p (.d3 s) c ks = .error .nameError) ∧
    (∀ a, equivalentVectorsApi p a c = .error .attributeError) :=
  ⟨fun _ _ _ => rfl, fun _ _ _ => rfl, fun _ => rfl⟩

/-- C74: the vectors equivalent to the vectors of a list: exactly the images, each once, in lexicographic order. -/
theorem C74_equivalent (p : Package) {m : Nat} (s : Simplex m) (c : Vec 6) (hs : Simplex.Ok s) (hc : Vec.Ok c) :
    ∃ r, equivalentVecApi p (.d3 s) c = .ok (some r) ∧ r.Nodup ∧ r.Pairwise Vec.Before ∧
      ∀ x, x ∈ r ↔ ∃ op ∈ p.symops, ∃ i, symopVec p op (s i) c = .ok x := by
  refine ⟨removeDoubling (flattenObj (p.symops.map fun op => symS p op c s)), ?_, (C23_distinct _).2.2.1,
    (C23_distinct _).2.1, fun x => ?_⟩
  · simp only [equivalentVecApi, symmetricApi, symmetricPiece_ok hs hc, bind_ok', removeDoublingApi]
  · rw [(C23_distinct _).1]
    unfold flattenObj
    rw [List.mem_flatMap]
    constructor
    · rintro ⟨t, ht, hx⟩
      obtain ⟨op, hop, rfl⟩ := List.mem_map.mp ht
      obtain ⟨i, rfl⟩ := List.mem_ofFn' _ _ |>.mp hx
      exact ⟨op, hop, i, symopVec_ok _ (hs i) hc⟩
    · rintro ⟨op, hop, i, hx⟩
      rw [symopVec_ok _ (hs i) hc] at hx
      cases hx
      exact ⟨_, List.mem_map.mpr ⟨op, hop, rfl⟩, List.mem_ofFn' _ _ |>.mpr ⟨i, rfl⟩⟩

/-- C74: a single vector without the outer dimension is not accepted: AttributeError. -/
theorem C74_equivalent_refuse (p : Package) (c : Vec 6) {n : Nat} (v : Vec n) :
    equivalentVecApi p (.d2 v) c = .error .attributeError := rfl

/-- C74: the number of vectors equivalent to a vector times the number of operations that leave it in place is the order
of the group. -/
theorem C74_orbit_stabiliser (p : Package) (v c : Vec 6) (hv : Vec.Ok v) (hc : Vec.Ok c) :
    ∃ r, equivalentVecApi p (.d3 ![v]) c = .ok (some r) ∧
      r.length * {op | op ∈ p.symops ∧ ∃ w, symopVec p op v c = .ok w ∧ p.val w = p.val v}.ncard = p.order := by
  classical
  have hs : Simplex.Ok ![v] := fun i => by fin_cases i; exact hv
  obtain ⟨r, hr, nd, -, hm⟩ := C74_equivalent p ![v] c hs hc
  refine ⟨r, hr, ?_⟩
  have hm' : ∀ x, x ∈ r ↔ ∃ op ∈ p.symops, symV p op c v = x := by
    intro x
    rw [hm]
    constructor
    · rintro ⟨op, hop, i, h⟩
      fin_cases i
      rw [show (![v] : Simplex 1) (⟨0, by omega⟩ : Fin 1) = v from rfl, symopVec_ok _ hv hc] at h
      exact ⟨op, hop, by cases h; rfl⟩
    · rintro ⟨op, hop, rfl⟩
      exact ⟨op, hop, 0, symopVec_ok _ hv hc⟩
  set S := p.symops.toFinset with hS
  have hmem : ∀ op, op ∈ S ↔ op ∈ p.symops := fun op => List.mem_toFinset
  have hcard : S.card = p.order := by
    rw [hS, List.toFinset_card_of_nodup (symops_nodup p), symops_length]
  set e := symV p (npIdentity Int 6) c v with he
  have hfix : ∀ op, (∃ w, symopVec p op v c = .ok w ∧ p.val w = p.val v) ↔ symV p op c v = e := by
    intro op
    rw [symopVec_ok _ hv hc, he]
    constructor
    · rintro ⟨w, h, h'⟩
      cases h
      unfold symV at h' ⊢
      rw [nvec_inj, ksym_one]
      funext i
      have := congrFun ((val_nvec _).symm.trans h') i
      exact Subtype.ext this
    · intro h
      refine ⟨_, rfl, ?_⟩
      rw [h]
      unfold symV
      rw [ksym_one]
      exact (val_nvec _).trans (coe_kvec v)
  have hset : {op | op ∈ p.symops ∧ ∃ w, symopVec p op v c = .ok w ∧ p.val w = p.val v} =
      ((S.filter fun op => symV p op c v = e : Finset (IMat 6 6)) : Set (IMat 6 6)) := by
    ext op
    simp only [Set.mem_ofPred_eq, Finset.coe_filter, hmem, hfix]
  rw [hset, Set.ncard_coe_finset]
  have hfib : ∀ x ∈ r.toFinset, (S.filter fun op => symV p op c v = x).card = (S.filter fun op => symV p op c v = e).card := by
    intro x hx
    obtain ⟨g, hg, rfl⟩ := (hm' x).mp (List.mem_toFinset.mp hx)
    obtain ⟨b, hb, h1, h2⟩ := symops_inv hg
    symm
    refine Finset.card_bij' (fun op _ => npDot g op) (fun op _ => npDot b op) ?_ ?_ ?_ ?_
    · intro op h
      rw [Finset.mem_filter, hmem] at h ⊢
      refine ⟨symops_mul hg h.1, ?_⟩
      rw [← symV_mul, h.2, he, symV_mul, npDot_one]
    · intro op h
      rw [Finset.mem_filter, hmem] at h ⊢
      refine ⟨symops_mul hb h.1, ?_⟩
      rw [← symV_mul, h.2, symV_mul, h2]
    · intro op _
      change npDot b (npDot g op) = op
      rw [← npDot_assoc, h2]
      exact one_npDot _
    · intro op _
      change npDot g (npDot b op) = op
      rw [← npDot_assoc, h1]
      exact one_npDot _
  rw [← hcard, Finset.card_eq_sum_card_fiberwise (f := fun op => symV p op c v) (t := r.toFinset)
    (fun op h => List.mem_toFinset.mpr ((hm' _).mpr ⟨op, (hmem op).mp h, rfl⟩)), Finset.sum_congr rfl hfib,
    Finset.sum_const, smul_eq_mul, List.toFinset_card_of_nodup nd]

/-- For a lattice vector the hypotheses hold: the number of its images divides 120. -/
example : ∃ r, equivalentVecApi .ico (.d3 ![![⟨1, 0, 1⟩, ⟨0, 0, 1⟩, ⟨0, 0, 1⟩, ⟨0, 0, 1⟩, ⟨0, 0, 1⟩, ⟨0, 0, 1⟩]])
    (fun _ => ⟨0, 0, 1⟩) = .ok (some r) ∧ r.length ∣ 120 := by
  obtain ⟨r, h, e⟩ := C74_orbit_stabiliser .ico
    ![⟨1, 0, 1⟩, ⟨0, 0, 1⟩, ⟨0, 0, 1⟩, ⟨0, 0, 1⟩, ⟨0, 0, 1⟩, ⟨0, 0, 1⟩] (fun _ => ⟨0, 0, 1⟩) (by decide) (by decide)
  exact ⟨r, h, ⟨_, e.symm⟩⟩

/-- Index −1 is the last of the 24 operations; index 24 does not exist. -/
example : symmetric0Api .dode (.d3 exT) (fun _ => ⟨0, 0, 1⟩) (-1) = symmetric0Api .dode (.d3 exT) (fun _ => ⟨0, 0, 1⟩) 23 ∧
    symmetric0Api .dode (.d3 exT) (fun _ => ⟨0, 0, 1⟩) 24 = .error .indexError :=
  ⟨(C74_index .dode _ (-1)).1 _ (by decide) (by decide), (C74_index .dode _ 24).2.2.1 _ _ (Or.inl (by decide))⟩

example : ∃ q : Obj 4, symmetricApi .ico (.d4 [exT, exT]) (fun _ => ⟨0, 0, 1⟩) = .ok (some (.d4 q)) ∧
    symmetric0Api .ico (.d4 [exT, exT]) (fun _ => ⟨0, 0, 1⟩) 7 = .ok (some (.d4 ((q.drop 14).take 2))) := by
  obtain ⟨q, h, e⟩ := C74_block .ico [exT, exT] (fun _ => ⟨0, 0, 1⟩) (by decide) (by decide)
  exact ⟨q, h, e 7 (by decide)⟩

end PyQC
