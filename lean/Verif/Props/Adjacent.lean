import Verif.Model.Rest
import Verif.Props.Coplanar
import Verif.Props.IntersectObj
import Verif.Props.Vesta
/-!
# C79: adjacent tetrahedra and triangles, and their merging
-/
namespace PyQC

/-- The points both tetrahedra have as a corner in perpendicular space. -/
def commonCorners (p : Package) {m n : Nat} (s : Simplex m) (t : Simplex n) : Set (Fin 3 → ℝ) :=
  Set.range (p.perps s) ∩ Set.range (p.perps t)

section
variable {s t : Simplex 4}

/-- C79: for tetrahedra with four distinct perp corners each, `check_connectivity_tetrahedra` answers True exactly when
they have exactly three corners in common. -/
theorem C79_connected (hs : Simplex.Ok s) (ht : Simplex.Ok t) (ds : Function.Injective (Package.ico.perps s))
    (dt : Function.Injective (Package.ico.perps t)) :
    ∃ b, Ico.checkConnectivity s t = .ok b ∧ (b = true ↔ (commonCorners .ico s t).ncard = 3) := by
  obtain ⟨b, hb, h⟩ := equivalentPieces_ok .ico 5 hs ht
  refine ⟨b, hb, h.trans ?_⟩
  have := Set.ncard_union_add_ncard_inter (Set.range (Package.ico.perps s)) (Set.range (Package.ico.perps t))
    (Set.finite_range _) (Set.finite_range _)
  rw [ncard_range_perps .ico ds, ncard_range_perps .ico dt] at this
  unfold commonCorners
  omega

theorem face_range {f : Simplex 3} {i j k : Fin 4} (hf : f = ![s i, s j, s k]) :
    Set.range (Package.ico.perps f) = Package.ico.perps s '' {i, j, k} := by
  subst hf
  ext x
  constructor
  · rintro ⟨l, rfl⟩
    fin_cases l
    · exact ⟨i, by simp, rfl⟩
    · exact ⟨j, by simp, rfl⟩
    · exact ⟨k, by simp, rfl⟩
  · rintro ⟨l, hl, rfl⟩
    simp only [Set.mem_insert_iff, Set.mem_singleton_iff] at hl
    rcases hl with rfl | rfl | rfl
    · exact ⟨0, rfl⟩
    · exact ⟨1, rfl⟩
    · exact ⟨2, rfl⟩

theorem mem_surface {f : Simplex 3} : f ∈ tetrahedronSurface s ↔ ∃ i j k, i < j ∧ j < k ∧ f = ![s i, s j, s k] := by
  unfold tetrahedronSurface
  simp only [List.mem_cons, List.not_mem_nil, or_false]
  constructor
  · rintro (h | h | h | h)
    · exact ⟨0, 1, 2, by decide, by decide, h⟩
    · exact ⟨0, 1, 3, by decide, by decide, h⟩
    · exact ⟨0, 2, 3, by decide, by decide, h⟩
    · exact ⟨1, 2, 3, by decide, by decide, h⟩
  · rintro ⟨i, j, k, hij, hjk, h⟩
    have key : ∀ i j k : Fin 4, i < j → j < k → (i = 0 ∧ j = 1 ∧ k = 2) ∨ (i = 0 ∧ j = 1 ∧ k = 3) ∨
        (i = 0 ∧ j = 2 ∧ k = 3) ∨ (i = 1 ∧ j = 2 ∧ k = 3) := by decide
    rcases key i j k hij hjk with ⟨rfl, rfl, rfl⟩ | ⟨rfl, rfl, rfl⟩ | ⟨rfl, rfl, rfl⟩ | ⟨rfl, rfl, rfl⟩
    · exact .inl h
    · exact .inr (.inl h)
    · exact .inr (.inr (.inl h))
    · exact .inr (.inr (.inr h))

theorem surface_ok (hs : Simplex.Ok s) {f : Simplex 3} (hf : f ∈ tetrahedronSurface s) : Simplex.Ok f := by
  obtain ⟨i, j, k, -, -, rfl⟩ := mem_surface.mp hf
  intro l
  fin_cases l
  exacts [hs i, hs j, hs k]

theorem surface_injective (ds : Function.Injective (Package.ico.perps s)) {f : Simplex 3}
    (hf : f ∈ tetrahedronSurface s) : Function.Injective (Package.ico.perps f) := by
  obtain ⟨i, j, k, hij, hjk, rfl⟩ := mem_surface.mp hf
  have e : Package.ico.perps ![s i, s j, s k] = Package.ico.perps s ∘ ![i, j, k] := by
    funext l
    fin_cases l <;> rfl
  rw [e]
  refine ds.comp ?_
  have key : ∀ i j k : Fin 4, i < j → j < k → Function.Injective ![i, j, k] := by decide
  exact key i j k hij hjk

/-- Every set of three corners is the set of corners of a face. -/
theorem exists_face (ds : Function.Injective (Package.ico.perps s)) {U : Set (Fin 3 → ℝ)}
    (hU : U ⊆ Set.range (Package.ico.perps s)) (h3 : U.ncard = 3) :
    ∃ f ∈ tetrahedronSurface s, Set.range (Package.ico.perps f) = U := by
  classical
  obtain ⟨A, rfl⟩ : ∃ A : Finset (Fin 4), U = Package.ico.perps s '' A := by
    refine ⟨Finset.univ.filter fun i => Package.ico.perps s i ∈ U, ?_⟩
    ext x
    constructor
    · intro hx
      obtain ⟨i, rfl⟩ := hU hx
      exact ⟨i, by simpa using hx, rfl⟩
    · rintro ⟨i, hi, rfl⟩
      simpa using hi
  rw [Set.ncard_image_of_injective _ ds, Set.ncard_coe_finset] at h3
  have key : ∀ A : Finset (Fin 4), A.card = 3 → ∃ i j k, i < j ∧ j < k ∧ A = {i, j, k} := by decide
  obtain ⟨i, j, k, hij, hjk, rfl⟩ := key A h3
  refine ⟨![s i, s j, s k], mem_surface.mpr ⟨i, j, k, hij, hjk, rfl⟩, ?_⟩
  rw [face_range rfl]
  simp

theorem anyEquivalent_ok {f : Simplex 3} (hf : Simplex.Ok f) (df : Function.Injective (Package.ico.perps f))
    (gs : List (Simplex 3)) (hg : ∀ g ∈ gs, Simplex.Ok g) (dg : ∀ g ∈ gs, Function.Injective (Package.ico.perps g)) :
    ∃ b, Ico.anyEquivalent f gs = .ok b ∧
      (b = true ↔ ∃ g ∈ gs, Set.range (Package.ico.perps f) = Set.range (Package.ico.perps g)) := by
  induction gs with
  | nil => exact ⟨false, rfl, by simp⟩
  | cons g gs ih =>
    obtain ⟨b, hb, e⟩ := equivalentPieces_same .ico hf (hg g (by simp)) df (dg g (by simp))
    obtain ⟨c, hc, e'⟩ := ih (fun g h => hg g (by simp [h])) fun g h => dg g (by simp [h])
    unfold Ico.anyEquivalent equivalentTriangles
    rw [hb, bind_ok']
    cases b with
    | true => exact ⟨true, rfl, by simp [e.mp rfl]⟩
    | false =>
      refine ⟨c, hc, e'.trans ?_⟩
      have : ¬ Set.range (Package.ico.perps f) = Set.range (Package.ico.perps g) := fun h => by simpa using e.mpr h
      simp [this]

theorem firstCommon_ok {gs : List (Simplex 3)} (hg : ∀ g ∈ gs, Simplex.Ok g)
    (dg : ∀ g ∈ gs, Function.Injective (Package.ico.perps g)) (fs : List (Simplex 3)) (hf : ∀ f ∈ fs, Simplex.Ok f)
    (df : ∀ f ∈ fs, Function.Injective (Package.ico.perps f)) :
    ∃ r, Ico.firstCommon gs fs = .ok r ∧
      (∀ f, r = some f → f ∈ fs ∧ ∃ g ∈ gs, Set.range (Package.ico.perps f) = Set.range (Package.ico.perps g)) ∧
      (r = none → ∀ f ∈ fs, ∀ g ∈ gs, Set.range (Package.ico.perps f) ≠ Set.range (Package.ico.perps g)) := by
  induction fs with
  | nil => exact ⟨none, rfl, by simp, by simp⟩
  | cons f fs ih =>
    obtain ⟨b, hb, e⟩ := anyEquivalent_ok (hf f (by simp)) (df f (by simp)) gs hg dg
    obtain ⟨r, hr, e1, e2⟩ := ih (fun g h => hf g (by simp [h])) fun g h => df g (by simp [h])
    unfold Ico.firstCommon
    rw [hb, bind_ok']
    cases b with
    | true =>
      refine ⟨some f, rfl, ?_, by simp⟩
      rintro f' h
      obtain rfl := Option.some_inj.mp h
      exact ⟨by simp, e.mp rfl⟩
    | false =>
      refine ⟨r, hr, fun f' h => ⟨by simp [(e1 f' h).1], (e1 f' h).2⟩, fun h f' hf' g hgm => ?_⟩
      rcases List.mem_cons.mp hf' with rfl | hf'
      · intro h'
        simpa using e.mpr ⟨g, hgm, h'⟩
      · exact e2 h f' hf' g hgm

/-- C79: for tetrahedra with four distinct perp corners each, `get_common_triangle_in_two_tetrahedra` returns `None`
exactly when they have at most two corners in common; otherwise it returns a face of the first one, in the order of its
corners, all of whose corners are corners of both. -/
theorem C79_common_triangle (hs : Simplex.Ok s) (ht : Simplex.Ok t) (ds : Function.Injective (Package.ico.perps s))
    (dt : Function.Injective (Package.ico.perps t)) :
    ∃ r, Ico.getCommonTriangle s t = .ok r ∧ (r = none ↔ (commonCorners .ico s t).ncard ≤ 2) ∧
      ∀ f, r = some f → (∃ i j k, i < j ∧ j < k ∧ f = ![s i, s j, s k]) ∧ Function.Injective (Package.ico.perps f) ∧
        Set.range (Package.ico.perps f) ⊆ commonCorners .ico s t := by
  obtain ⟨r, hr, h1, h2⟩ := firstCommon_ok (gs := tetrahedronSurface t) (fun g h => surface_ok ht h)
    (fun g h => surface_injective dt h) (tetrahedronSurface s) (fun g h => surface_ok hs h)
    (fun g h => surface_injective ds h)
  have hsub : ∀ f, r = some f → Set.range (Package.ico.perps f) ⊆ commonCorners .ico s t := by
    intro f hf
    obtain ⟨hm, g, hg, e⟩ := h1 f hf
    obtain ⟨i, j, k, -, -, e1⟩ := mem_surface.mp hm
    obtain ⟨i', j', k', -, -, e2⟩ := mem_surface.mp hg
    refine Set.subset_inter ?_ ?_
    · rw [face_range e1]; exact Set.image_subset_range _ _
    · rw [e, face_range e2]; exact Set.image_subset_range _ _
  have hfin : (commonCorners .ico s t).Finite := (Set.finite_range _).inter_of_left _
  refine ⟨r, hr, ⟨fun h => ?_, fun h => ?_⟩, fun f hf =>
    ⟨mem_surface.mp (h1 f hf).1, surface_injective ds (h1 f hf).1, hsub f hf⟩⟩
  · by_contra hc
    obtain ⟨U, hU, h3⟩ := Set.exists_subset_card_eq (s := commonCorners .ico s t) (n := 3) (by omega)
    obtain ⟨f, hf, ef⟩ := exists_face ds (hU.trans Set.inter_subset_left) h3
    obtain ⟨g, hg, eg⟩ := exists_face dt (hU.trans Set.inter_subset_right) h3
    exact h2 h f hf g hg (ef.trans eg.symm)
  · match r, h1, hsub with
    | none, _, _ => rfl
    | some f, h1, hsub =>
      have := Set.ncard_le_ncard (hsub f rfl) hfin
      rw [ncard_range_perps .ico (surface_injective ds (h1 f rfl).1)] at this
      omega

/-- C79: for connected tetrahedra the common triangle has exactly the common corners. -/
theorem C79_connected_triangle (hs : Simplex.Ok s) (ht : Simplex.Ok t) (ds : Function.Injective (Package.ico.perps s))
    (dt : Function.Injective (Package.ico.perps t)) (h : Ico.checkConnectivity s t = .ok true) :
    ∃ f, Ico.getCommonTriangle s t = .ok (some f) ∧ Set.range (Package.ico.perps f) = commonCorners .ico s t := by
  obtain ⟨b, hb, e⟩ := C79_connected hs ht ds dt
  rw [h] at hb
  cases hb
  have h3 := e.mp rfl
  obtain ⟨r, hr, hn, hf⟩ := C79_common_triangle hs ht ds dt
  match r, hr, hn, hf with
  | none, _, hn, _ => have := hn.mp rfl; omega
  | some f, hr, _, hf =>
    refine ⟨f, hr, ?_⟩
    obtain ⟨-, df, hsub⟩ := hf f rfl
    exact Set.eq_of_subset_of_ncard_le hsub (by rw [h3, ncard_range_perps .ico df])
      ((Set.finite_range _).inter_of_left _)

/-- C79 fails for merging: `merge_two_tetrahedra` never returns a tetrahedron. -/
theorem C79_fails_merge (s t : Simplex 4) (r : Simplex 4) : Ico.mergeTwo s t ≠ .ok (some r) := by
  have key : ∀ ab l, Ico.mergeCorners ab l ≠ .ok (some r) := by
    intro ab l
    induction l with
    | nil => simp [Ico.mergeCorners]
    | cons v l ih =>
      unfold Ico.mergeCorners
      split_ifs
      · simp
      · exact ih
  unfold Ico.mergeTwo
  cases Ico.checkConnectivity s t with
  | error e => simp [bind_error']
  | ok c =>
    rw [bind_ok']
    cases c with
    | false => simp
    | true =>
      simp only [if_true]
      cases Ico.getCommonTriangle s t with
      | error e => simp [bind_error']
      | ok f =>
        rw [bind_ok']
        cases f with
        | none => simp [needSome, bind_error']
        | some f =>
          rw [needSome, bind_ok']
          cases firstTwo (removeVectors (List.ofFn s) (List.ofFn t) ++ removeVectors (List.ofFn t) (List.ofFn s)) with
          | error e => simp [bind_error']
          | ok ab =>
            rw [bind_ok']
            exact key _ _

theorem filter_one {l : List (Vec 6)} {q : Vec 6 → Bool} {a : Vec 6} (nd : l.Nodup) (ha : a ∈ l)
    (h : ∀ v ∈ l, q v = true ↔ v = a) : l.filter q = [a] := by
  have : l.filter q = l.filter fun v => decide (v = a) := by
    refine List.filter_congr fun v hv => ?_
    rw [Bool.eq_iff_iff, h v hv, decide_eq_true_iff]
  rw [this]
  clear this h
  induction l with
  | nil => simp at ha
  | cons b l ih =>
    rw [List.nodup_cons] at nd
    rw [List.filter_cons]
    rcases List.mem_cons.mp ha with rfl | ha
    · rw [if_pos (by simp), List.filter_eq_nil_iff.mpr]
      intro v hv
      simp only [decide_eq_true_iff]
      rintro rfl
      exact nd.1 hv
    · rw [if_neg, ih nd.2 ha]
      simp only [decide_eq_true_iff]
      rintro rfl
      exact nd.1 ha

/-- The vertex of the first tetrahedron that is not a corner of the second one. -/
theorem removeVectors_one {s t : Simplex 4} (ds : Function.Injective (Package.ico.perps s)) {a : Fin 4}
    (ha : Package.ico.perps s a ∉ Set.range (Package.ico.perps t)) (hc : ∀ k, k ≠ a → ∃ l, s k = t l) :
    removeVectors (List.ofFn s) (List.ofFn t) = [s a] := by
  have inj : Function.Injective s := fun i j e => ds (by unfold Package.perps; rw [e])
  have : (List.ofFn s).filter (fun v => !((List.ofFn t).any fun w => decide (v = w))) = [s a] := by
    refine filter_one (List.nodup_ofFn.mpr inj) (List.mem_ofFn.mpr ⟨a, rfl⟩) fun v hv => ?_
    obtain ⟨k, rfl⟩ := List.mem_ofFn.mp hv
    simp only [Bool.not_eq_true', List.any_eq_false, List.mem_ofFn, decide_eq_true_iff, forall_exists_index,
      forall_apply_eq_imp_iff]
    constructor
    · intro h
      by_contra hne
      obtain ⟨l, e⟩ := hc k fun e => hne (by rw [e])
      exact h l e
    · intro e l e'
      rw [e] at e'
      exact ha ⟨l, by unfold Package.perps; rw [e']⟩
  unfold removeVectors
  simp only [this]
  rfl

theorem commonCorners_eq {s t : Simplex 4} (a : Fin 4) (ha : Package.ico.perps s a ∉ Set.range (Package.ico.perps t))
    (hsa : ∀ i, i ≠ a → ∃ l, s i = t l) : commonCorners .ico s t = Package.ico.perps s '' ({a}ᶜ : Set (Fin 4)) := by
  ext x
  constructor
  · rintro ⟨⟨i, rfl⟩, h⟩
    refine ⟨i, ?_, rfl⟩
    rintro rfl
    exact ha h
  · rintro ⟨i, hi, rfl⟩
    obtain ⟨l, e⟩ := hsa i hi
    exact ⟨⟨i, rfl⟩, l, by unfold Package.perps; rw [e]⟩

theorem commonCorners_three {s t : Simplex 4} (ds : Function.Injective (Package.ico.perps s)) (a : Fin 4)
    (ha : Package.ico.perps s a ∉ Set.range (Package.ico.perps t)) (hsa : ∀ i, i ≠ a → ∃ l, s i = t l) :
    (commonCorners .ico s t).ncard = 3 := by
  rw [commonCorners_eq a ha hsa, Set.ncard_image_of_injective _ ds, Set.ncard_compl]
  simp

/-- C79 fails for merging: let two tetrahedra share three corners, stored as the same arrays, and let one of these lie
between the remaining corners `s a` and `t b`, so that together they form one tetrahedron. Then `merge_two_tetrahedra`
raises TypeError. -/
theorem C79_fails_mergeable (hs : Simplex.Ok s) (ht : Simplex.Ok t) (ds : Function.Injective (Package.ico.perps s))
    (dt : Function.Injective (Package.ico.perps t)) (a b k : Fin 4)
    (ha : Package.ico.perps s a ∉ Set.range (Package.ico.perps t)) (hb : Package.ico.perps t b ∉ Set.range (Package.ico.perps s))
    (hsa : ∀ i, i ≠ a → ∃ l, s i = t l) (htb : ∀ i, i ≠ b → ∃ l, t i = s l) (hka : k ≠ a)
    (hk : Package.ico.perps s k ∈ segment ℝ (Package.ico.perps s a) (Package.ico.perps t b)) :
    Ico.mergeTwo s t = .error .typeError := by
  have hcommon := commonCorners_eq a ha hsa
  have h3 := commonCorners_three ds a ha hsa
  obtain ⟨c, hc, e⟩ := C79_connected hs ht ds dt
  obtain rfl : c = true := e.mpr h3
  obtain ⟨f, hf, hr⟩ := C79_connected_triangle hs ht ds dt hc
  have hne : Package.ico.perp (s a) ≠ Package.ico.perp (t b) := fun e' => ha ⟨b, e'.symm⟩
  have hmem : Package.ico.perps s k ∈ Set.range (Package.ico.perps f) := by
    rw [hr, hcommon]
    exact ⟨k, hka, rfl⟩
  obtain ⟨l, hl⟩ := hmem
  have key : ∀ l : List (Vec 6), (∃ v ∈ l, pointOnSegment .ico v ![s a, t b] = true) →
      Ico.mergeCorners ![s a, t b] l = .error .typeError := by
    intro l
    induction l with
    | nil => simp
    | cons v l ih =>
      rintro ⟨w, hw, h⟩
      unfold Ico.mergeCorners
      split_ifs with hv
      · rfl
      · rcases List.mem_cons.mp hw with rfl | hw
        · exact absurd h hv
        · exact ih ⟨w, hw, h⟩
  unfold Ico.mergeTwo
  rw [hc, bind_ok']
  simp only [if_true]
  rw [hf, bind_ok', needSome, bind_ok', removeVectors_one ds ha hsa, removeVectors_one dt hb htb]
  change (Except.ok ![s a, t b] >>= _) = _
  rw [bind_ok']
  refine key _ ⟨f l, List.mem_ofFn.mpr ⟨l, rfl⟩, C31_complete .ico _ _ hne ?_⟩
  change Package.ico.perps f l ∈ segment ℝ (Package.ico.perps s a) (Package.ico.perps t b)
  rw [hl]
  exact hk

end

/-- C79 fails for dode2: `check_connectivity_triangles` answers False for all triangles, so `merge_two_triangles` always
returns `None`; `get_common_edge_in_two_triangles` raises NameError. -/
theorem C79_fails_dode (s t : Simplex 3) (hs : Simplex.Ok s) : Dode.checkConnectivity s t = .ok false ∧
    Dode.mergeTwo s t = .ok none ∧ Dode.getCommonEdge s t = .error .nameError := by
  obtain ⟨b, hb, e⟩ := equivalentPieces_ok .dode 4 hs hs
  have hb' : Dode.checkConnectivity s t = .ok b := hb
  have : b = false := by
    rw [← Bool.not_eq_true, e, Set.union_self]
    intro h
    have := Set.ncard_image_le (s := Set.univ) (f := Package.dode.perps s) Set.finite_univ
    rw [Set.image_univ, h, Set.ncard_univ, Nat.card_fin] at this
    omega
  subst this
  refine ⟨hb', ?_, rfl⟩
  unfold Dode.mergeTwo
  rw [hb', bind_ok']
  rfl

/-- C79: the functions that should merge the pieces of an object return it unchanged. -/
theorem C79_fails_obj {m : Nat} (o : Obj m) : mergeInObj o = o := rfl

/-! ## Cases that meet the hypotheses -/

theorem exHalfA_rows : exHalfA 0 = cart 0 0 0 1 ∧ exHalfA 1 = cart 1 0 0 2 ∧ exHalfA 2 = cart 0 1 0 1 ∧
    exHalfA 3 = cart 0 0 1 1 := by simp [exHalfA]

theorem exHalfB_rows : exHalfB 0 = cart 1 0 0 2 ∧ exHalfB 1 = cart 1 0 0 1 ∧ exHalfB 2 = cart 0 1 0 1 ∧
    exHalfB 3 = cart 0 0 1 1 := by simp [exHalfB]

theorem exHalfA_injective : Function.Injective (Package.ico.perps exHalfA) := by
  rw [perps_exHalfA]
  intro i j h
  have h0 := congrFun h 0
  have h1 := congrFun h 1
  have h2 := congrFun h 2
  fin_cases i <;> fin_cases j <;> simp at h0 h1 h2 ⊢

theorem exHalfB_injective : Function.Injective (Package.ico.perps exHalfB) := by
  rw [perps_exHalfB]
  intro i j h
  have h0 := congrFun h 0
  have h1 := congrFun h 1
  have h2 := congrFun h 2
  fin_cases i <;> fin_cases j <;> simp at h0 h1 h2 ⊢

/-- The two halves of a tetrahedron are connected, and merging them raises. -/
example : Ico.checkConnectivity exHalfA exHalfB = .ok true ∧ Ico.mergeTwo exHalfA exHalfB = .error .typeError := by
  have hA : Simplex.Ok exHalfA := fun i => by fin_cases i <;> exact cart_ok (by decide)
  have hB : Simplex.Ok exHalfB := fun i => by fin_cases i <;> exact cart_ok (by decide)
  have ha : Package.ico.perps exHalfA 0 ∉ Set.range (Package.ico.perps exHalfB) := by
    rw [perps_exHalfA, perps_exHalfB]
    rintro ⟨k, hk⟩
    have h0 := congrFun hk 0
    have h1 := congrFun hk 1
    have h2 := congrFun hk 2
    fin_cases k <;> simp at h0 h1 h2
  have hb : Package.ico.perps exHalfB 1 ∉ Set.range (Package.ico.perps exHalfA) := by
    rw [perps_exHalfA, perps_exHalfB]
    rintro ⟨k, hk⟩
    have h0 := congrFun hk 0
    have h1 := congrFun hk 1
    have h2 := congrFun hk 2
    fin_cases k <;> simp at h0 h1 h2
  have hsa : ∀ i, i ≠ 0 → ∃ l, exHalfA i = exHalfB l := by
    intro i hi
    obtain ⟨-, a1, a2, a3⟩ := exHalfA_rows
    obtain ⟨b0, -, b2, b3⟩ := exHalfB_rows
    match i with
    | 0 => exact absurd rfl hi
    | 1 => exact ⟨0, a1.trans b0.symm⟩
    | 2 => exact ⟨2, a2.trans b2.symm⟩
    | 3 => exact ⟨3, a3.trans b3.symm⟩
  have htb : ∀ i, i ≠ 1 → ∃ l, exHalfB i = exHalfA l := by
    intro i hi
    obtain ⟨-, a1, a2, a3⟩ := exHalfA_rows
    obtain ⟨b0, -, b2, b3⟩ := exHalfB_rows
    match i with
    | 1 => exact absurd rfl hi
    | 0 => exact ⟨1, b0.trans a1.symm⟩
    | 2 => exact ⟨2, b2.trans a2.symm⟩
    | 3 => exact ⟨3, b3.trans a3.symm⟩
  refine ⟨?_, C79_fails_mergeable hA hB exHalfA_injective exHalfB_injective 0 1 1 ha hb hsa htb (by decide) ?_⟩
  · obtain ⟨c, hc, e⟩ := C79_connected hA hB exHalfA_injective exHalfB_injective
    rw [hc, e.mpr (commonCorners_three exHalfA_injective 0 ha hsa)]
  · rw [perps_exHalfA, perps_exHalfB]
    refine ⟨1 / 2, 1 / 2, by norm_num, by norm_num, by norm_num, ?_⟩
    funext i
    fin_cases i <;> simp

/-- A triangle and its neighbour across an edge. -/
example : Dode.checkConnectivity ![flatFrac 0 0 1, flatFrac 1 0 1, flatFrac 0 1 1] ![flatFrac 1 1 1, flatFrac 1 0 1, flatFrac 0 1 1] =
    .ok false :=
  (C79_fails_dode _ _ fun i => by fin_cases i <;> exact flatFrac_okV (by decide)).1

end PyQC
