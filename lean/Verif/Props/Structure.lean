import Verif.Props.OnSurface
import Verif.Model.Legacy
import Verif.Spec.Legacy
import Verif.Spec.Resolve
/-!
# C118: structures generated from occupation domains
-/
namespace PyQC
open Matrix Legacy

/-- The phason matrix of an argument `pmatrx`; zero if there is none. -/
def Legacy.Phason.matrix : Phason → Fin 2 → Fin 2 → ℝ
  | .absent => 0
  | .strain u => u

theorem numbers_eq (v : Vec 6) : numbers v = Package.dode.val v := by
  funext i
  simp [numbers, Package.val, Package.theta, Vec.val, Num3.val, mul_comm]

theorem projection3_eq (v : Vec 6) : projection3 (numbers v) = Package.dode.perp v := by
  rw [numbers_eq]
  funext i
  fin_cases i <;>
    simp [projection3, Package.perp, Package.val, Package.perpMat, Matrix.mulVec, dotProduct, Fin.sum_univ_six] <;> ring

theorem project_par (ph : Phason) (x : Fin 6 → ℝ) :
    ![project ph x 0, project ph x 1, project ph x 2] = Package.dode.parMat.mulVec x := by
  funext i
  cases ph <;> fin_cases i <;>
    simp [project, projection1, projection2, Package.parMat, Matrix.mulVec, dotProduct, Fin.sum_univ_six] <;> ring

theorem project_perp (ph : Phason) (x : Fin 6 → ℝ) :
    ![project ph x 3, project ph x 4, project ph x 5] = strainedPerp ph.matrix x := by
  funext i
  cases ph <;> fin_cases i <;>
    simp [project, projection1, projection2, strainedPerp, Phason.matrix, Package.perpMat, Package.parMat, Matrix.mulVec,
      dotProduct, Fin.sum_univ_six] <;> ring

theorem norm3_swap (u v : Fin 3 → ℝ) : norm3 (u ⨯₃ v) = norm3 (v ⨯₃ u) := by
  rw [← cross_anticomm, norm3_neg]

theorem legacyArea_eq (q : Fin 3 → Fin 3 → ℝ) : triangleArea q = triArea q := by
  unfold triangleArea
  rw [norm3_swap]
  rfl

theorem insideTriangle_legacy (x : Fin 3 → ℝ) (q : Fin 3 → Fin 3 → ℝ) :
    Legacy.insideTriangle x q = true ↔ NearTriangle q x := by
  have e0 : triangleArea ![q 0, q 1, q 2] = triArea q := by
    rw [legacyArea_eq]; congr 1; funext i; fin_cases i <;> rfl
  have e1 : triangleArea ![x, q 1, q 2] = triArea (Function.update q 0 x) := by
    rw [legacyArea_eq]; congr 1; funext i; fin_cases i <;> rfl
  have e2 : triangleArea ![x, q 0, q 2] = triArea (Function.update q 1 x) := by
    rw [legacyArea_eq, triArea_norm3, triArea_norm3]
    rw [← norm3_neg]
    congr 2
    funext j
    fin_cases j <;> simp [triNormal, cross_apply, Function.update] <;> ring
  have e3 : triangleArea ![x, q 0, q 1] = triArea (Function.update q 2 x) := by
    rw [legacyArea_eq, triArea_norm3, triArea_norm3]
    congr 2
    funext j
    fin_cases j <;> simp [triNormal, cross_apply, Function.update] <;> ring
  unfold Legacy.insideTriangle NearTriangle
  simp only [e0, e1, e2, e3, Fin.sum_univ_three]
  rw [← eps_eq, ← sub_sub, ← sub_sub]
  split <;> rename_i h <;> simp [h]

theorem insideDomain_legacy (obj : Obj 3) (x : Fin 3 → ℝ) :
    insideDomain obj x = true ↔ ∃ t ∈ obj, NearTriangle (Package.dode.perps t) x := by
  unfold insideDomain
  rw [List.any_eq_true]
  refine exists_congr fun t => and_congr_right fun _ => ?_
  rw [insideTriangle_legacy]
  simp only [projection3_eq]
  rfl

theorem mem_indices {n k : Int} : k ∈ indices n ↔ |k| ≤ n := by
  unfold indices
  rw [List.mem_map, abs_le]
  constructor
  · rintro ⟨m, hm, rfl⟩
    rw [List.mem_range] at hm
    omega
  · rintro ⟨h1, h2⟩
    exact ⟨(k + n).toNat, by rw [List.mem_range]; omega, by omega⟩

theorem mem_site {ph : Phason} {shift : Fin 6 → ℝ} {d : Domain} {i : Nat} {h : Fin 4 → Int} {a : Atom} :
    a ∈ site ph shift d i h ↔ (∃ t ∈ d.obj, NearTriangle (Package.dode.perps t)
        (strainedPerp ph.matrix (latticePoint h) - strainedPerp ph.matrix shift)) ∧ a.domain = i ∧ a.index = h ∧
      a.place = Package.dode.parMat.mulVec (latticePoint h) - Package.dode.par d.pos - Package.dode.par d.eshift := by
  have hp : Package.dode.par d.pos = Package.dode.parMat.mulVec (numbers d.pos) := by rw [numbers_eq]; rfl
  have he : Package.dode.par d.eshift = Package.dode.parMat.mulVec (numbers d.eshift) := by rw [numbers_eq]; rfl
  have hl : (![(h 0 : ℝ), (h 1 : ℝ), (h 2 : ℝ), (h 3 : ℝ), 0, 0] : Fin 6 → ℝ) = latticePoint h := rfl
  unfold site
  simp only [hl]
  rw [project_perp, project_perp, ← insideDomain_legacy, hp, he, ← project_par ph, ← project_par ph, ← project_par ph]
  split
  · rename_i hin
    rw [List.mem_singleton]
    obtain ⟨pl, dm, ix⟩ := a
    simp only [Atom.mk.injEq, hin, true_and]
    have e : ∀ u v w : Fin 6 → ℝ, (![u 0 - v 0 - w 0, u 1 - v 1 - w 1, u 2 - v 2 - w 2] : Fin 3 → ℝ) =
        ![u 0, u 1, u 2] - ![v 0, v 1, v 2] - ![w 0, w 1, w 2] := by
      intro u v w
      funext j
      fin_cases j <;> rfl
    rw [e]
    tauto
  · rename_i hin
    simp [hin]

theorem strcApi_some {doms : List Domain} {ph : Phason} {nmax : Int} {shift : Fin 6 → ℝ} {l : List Atom}
    (h : strcApi doms ph nmax shift = some l) : l = strc doms ph nmax shift := by
  unfold strcApi at h
  split at h
  · cases h
  · exact (Option.some.inj h).symm

/-- C118: the model of `strc` covers all inputs with non-zero denominators. -/
theorem C118_returns (doms : List Domain) (ph : Phason) (nmax : Int) (shift : Fin 6 → ℝ) (h : ∀ d ∈ doms, d.Ok) :
    ∃ l, strcApi doms ph nmax shift = some l := by
  unfold strcApi
  rw [if_neg fun h' => h'.2 h]
  exact ⟨_, rfl⟩

/-- C118: which atoms are listed. An atom of domain number `i` with indices `h` is listed exactly when the indices are in the box
and the perpendicular component of the lattice point, less that of the shift, is in a triangle of the domain up to the tolerance.
Its place is the parallel component of the lattice point less those of the position and of the shift of the domain. -/
theorem C118_list (doms : List Domain) (ph : Phason) (nmax : Int) (shift : Fin 6 → ℝ) (l : List Atom)
    (h : strcApi doms ph nmax shift = some l) (a : Atom) : a ∈ l ↔ ∃ d, doms[a.domain]? = some d ∧ (∀ k, |a.index k| ≤ nmax) ∧
      (∃ t ∈ d.obj, NearTriangle (Package.dode.perps t)
        (strainedPerp ph.matrix (latticePoint a.index) - strainedPerp ph.matrix shift)) ∧
      a.place = Package.dode.parMat.mulVec (latticePoint a.index) - Package.dode.par d.pos - Package.dode.par d.eshift := by
  rw [strcApi_some h]
  unfold strc
  simp only [List.mem_flatMap, mem_indices, mem_site, Prod.exists, List.mk_mem_zipIdx_iff_getElem?]
  constructor
  · rintro ⟨h1, b1, h2, b2, h3, b3, h4, b4, d, i, hd, ht, e1, e2, e3⟩
    rw [← e2] at ht e3
    refine ⟨d, e1 ▸ hd, ?_, ht, e3⟩
    rw [e2]
    intro k
    fin_cases k
    · exact b1
    · exact b2
    · exact b3
    · exact b4
  · rintro ⟨d, hd, hb, ht, e⟩
    have ha : a.index = ![a.index 0, a.index 1, a.index 2, a.index 3] := by
      funext k; fin_cases k <;> rfl
    refine ⟨_, hb 0, _, hb 1, _, hb 2, _, hb 3, d, a.domain, hd, ?_⟩
    rw [← ha]
    exact ⟨ht, rfl, rfl, e⟩

/-! ## Order and repetitions -/

/-- The order of the rows: by indices, then by domain. -/
def Legacy.Atom.key (a : Atom) : List Int := [a.index 0, a.index 1, a.index 2, a.index 3, a.domain]

theorem indices_sorted (n : Int) : (indices n).Pairwise (· < ·) := by
  unfold indices
  rw [List.pairwise_map]
  exact (List.pairwise_lt_range).imp fun h => by omega

theorem pairwise_flatMap_lex {α β : Type} {r : α → α → Prop} {R : β → β → Prop} {l : List α} {f : α → List β}
    (hl : l.Pairwise r) (h1 : ∀ x ∈ l, (f x).Pairwise R) (h2 : ∀ x ∈ l, ∀ y ∈ l, r x y → ∀ a ∈ f x, ∀ b ∈ f y, R a b) :
    (l.flatMap f).Pairwise R := by
  rw [List.pairwise_flatMap]
  refine ⟨h1, ?_⟩
  exact hl.imp_of_mem fun hx hy hr => h2 _ hx _ hy hr

/-- C118: the rows are in strictly increasing order of the indices, and of the number of the domain for the same indices. So no
lattice point is listed twice for one domain. -/
theorem C118_order (doms : List Domain) (ph : Phason) (nmax : Int) (shift : Fin 6 → ℝ) (l : List Atom)
    (h : strcApi doms ph nmax shift = some l) : (l.map Atom.key).Pairwise (· < ·) := by
  rw [strcApi_some h, List.pairwise_map]
  unfold strc
  have hs := indices_sorted nmax
  have idx : ∀ {a : Atom} {h1 h2 h3 h4 : Int} {z : List (Domain × Nat)}, (a ∈ z.flatMap fun d => site ph shift d.1 d.2 ![h1, h2, h3, h4]) →
      a.index = ![h1, h2, h3, h4] := by
    intro a h1 h2 h3 h4 z ha
    obtain ⟨d, -, hd⟩ := List.mem_flatMap.1 ha
    exact (mem_site.1 hd).2.2.1
  have lex : ∀ {x y : Int} {s t : List Int}, x < y → x :: s < y :: t := fun h => List.Lex.rel h
  have lex' : ∀ {x : Int} {s t : List Int}, s < t → x :: s < x :: t := fun h => List.Lex.cons h
  refine pairwise_flatMap_lex hs (fun h1 _ => pairwise_flatMap_lex hs (fun h2 _ => pairwise_flatMap_lex hs (fun h3 _ =>
    pairwise_flatMap_lex hs (fun h4 _ => ?_) ?_) ?_) ?_) ?_
  · have hz : doms.zipIdx.Pairwise fun d e => d.2 < e.2 := by
      have := List.pairwise_lt_range' (s := 0) (n := doms.length) (step := 1)
      rw [← List.zipIdx_map_snd, List.pairwise_map] at this
      exact this
    refine pairwise_flatMap_lex hz (fun d _ => ?_) ?_
    · unfold site
      simp only
      split
      · exact List.pairwise_singleton _ _
      · exact List.Pairwise.nil
    · intro d _ e _ hde a ha b hb
      obtain ⟨-, a1, a2, -⟩ := mem_site.1 ha
      obtain ⟨-, b1, b2, -⟩ := mem_site.1 hb
      unfold Atom.key
      rw [a1, a2, b1, b2]
      exact lex' (lex' (lex' (lex' (lex (by exact_mod_cast hde)))))
  · intro x _ y _ hxy a ha b hb
    unfold Atom.key
    rw [idx ha, idx hb]
    exact lex' (lex' (lex' (lex hxy)))
  · intro x _ y _ hxy a ha b hb
    obtain ⟨x', -, ha⟩ := List.mem_flatMap.1 ha
    obtain ⟨y', -, hb⟩ := List.mem_flatMap.1 hb
    unfold Atom.key
    rw [idx ha, idx hb]
    exact lex' (lex' (lex hxy))
  · intro x _ y _ hxy a ha b hb
    obtain ⟨x', -, ha⟩ := List.mem_flatMap.1 ha
    obtain ⟨y', -, hb⟩ := List.mem_flatMap.1 hb
    obtain ⟨x'', -, ha⟩ := List.mem_flatMap.1 ha
    obtain ⟨y'', -, hb⟩ := List.mem_flatMap.1 hb
    unfold Atom.key
    rw [idx ha, idx hb]
    exact lex' (lex hxy)
  · intro x _ y _ hxy a ha b hb
    obtain ⟨x', -, ha⟩ := List.mem_flatMap.1 ha
    obtain ⟨y', -, hb⟩ := List.mem_flatMap.1 hb
    obtain ⟨x'', -, ha⟩ := List.mem_flatMap.1 ha
    obtain ⟨y'', -, hb⟩ := List.mem_flatMap.1 hb
    obtain ⟨x''', -, ha⟩ := List.mem_flatMap.1 ha
    obtain ⟨y''', -, hb⟩ := List.mem_flatMap.1 hb
    unfold Atom.key
    rw [idx ha, idx hb]
    exact lex hxy

/-! ## Against the region of the domain -/

theorem near_plane {q : Fin 3 → Fin 3 → ℝ} {w : Fin 3 → ℝ} {x : Fin 3 → ℝ} (hw : IsBary q w x) :
    NearTriangle q x ↔ triArea q * (∑ i, |w i| - 1) < 1 / 10 ^ 6 := by
  have hx : x = ∑ i, w i • q i + (0 : ℝ) • triNormal q := by rw [zero_smul, add_zero]; exact hw.2
  have hs : (1 : ℝ) ≤ ∑ i, |w i| := by
    rw [← hw.1]
    exact Finset.sum_le_sum fun i _ => le_abs_self _
  have hA : 0 ≤ triArea q := by rw [triArea_norm3]; exact div_nonneg (norm3_nonneg _) (by norm_num)
  have h2 : ∀ i, triArea (Function.update q i x) = |w i| * triArea q := by
    intro i
    have e : Function.update q i x = Ico.smallTriangle i x q := by
      funext j
      simp [Ico.smallTriangle, Function.update_apply]
    rw [e, small_area hw.1 hx i, norm3_eq_sqrt, triArea_norm3]
    simp only [abs_zero, zero_mul, Matrix.cons_val_zero, Matrix.cons_val_one, Matrix.cons_val]
    rw [zero_pow (by norm_num), add_zero, add_zero, Real.sqrt_sq (mul_nonneg (abs_nonneg _) (norm3_nonneg _))]
    ring
  unfold NearTriangle
  simp only [h2]
  rw [← Finset.sum_mul, abs_sub_comm, abs_of_nonneg (by nlinarith)]
  constructor <;> intro h <;> linarith

/-- C118: no atom is missing. If the perpendicular component of a lattice point of the box, less that of the shift, is in a
domain, an atom of this domain with these indices is listed. -/
theorem C118_complete (doms : List Domain) (ph : Phason) (nmax : Int) (shift : Fin 6 → ℝ) (l : List Atom)
    (h : strcApi doms ph nmax shift = some l) (i : Nat) (d : Domain) (hd : doms[i]? = some d) (n : Fin 4 → Int)
    (hn : ∀ k, |n k| ≤ nmax)
    (hx : strainedPerp ph.matrix (latticePoint n) - strainedPerp ph.matrix shift ∈ Package.dode.region d.obj) :
    ∃ a ∈ l, a.domain = i ∧ a.index = n := by
  obtain ⟨t, ht, hx⟩ := hx
  obtain ⟨w, hw, h0⟩ := mem_solid_iff.1 hx
  refine ⟨⟨Package.dode.parMat.mulVec (latticePoint n) - Package.dode.par d.pos - Package.dode.par d.eshift, i, n⟩,
    (C118_list doms ph nmax shift l h _).2 ⟨d, hd, hn, ⟨t, ht, ?_⟩, rfl⟩, rfl, rfl⟩
  rw [near_plane hw]
  simp only [abs_of_nonneg (h0 _)]
  rw [hw.1]
  norm_num

theorem strainedPerp_height (u : Fin 2 → Fin 2 → ℝ) (x : Fin 6 → ℝ) : strainedPerp u x 2 = x 5 := by
  simp [strainedPerp, Package.perpMat, Matrix.mulVec, dotProduct, Fin.sum_univ_six]

/-- Plane coordinates of a point at the height of a level triangle. -/
theorem legacy_exists_plane {q : Fin 3 → Fin 3 → ℝ} (hq : triArea q ≠ 0) (hl : ∀ i, q i 2 = 0) {x : Fin 3 → ℝ} (hx : x 2 = 0) :
    ∃ w, IsBary q w x := by
  obtain ⟨w, k, h1, e⟩ := exists_height hq x
  have n0 : triNormal q 0 = 0 := by simp [triNormal, cross_apply, hl]
  have n1 : triNormal q 1 = 0 := by simp [triNormal, cross_apply, hl]
  have n2 : k * triNormal q 2 = 0 := by
    have := congrFun e 2
    rw [hx, Fin.sum_univ_three] at this
    simpa [hl] using this.symm
  refine ⟨w, h1, e.trans ?_⟩
  have : k • triNormal q = 0 := by
    funext j
    fin_cases j
    · simp [n0]
    · simp [n1]
    · simpa using n2
  rw [this, add_zero]

theorem near_bound {q : Fin 3 → Fin 3 → ℝ} {A : ℝ} (hA : 0 < A) (hq : A ≤ triArea q) (hl : ∀ i, q i 2 = 0) {x : Fin 3 → ℝ}
    (hx : x 2 = 0) (h : NearTriangle q x) : ∃ w, IsBary q w x ∧ ∑ i, |w i| < 1 + 1 / 10 ^ 6 / A := by
  obtain ⟨w, hw⟩ := legacy_exists_plane (hA.trans_le hq).ne' hl hx
  refine ⟨w, hw, ?_⟩
  rw [near_plane hw] at h
  have hs : (1 : ℝ) ≤ ∑ i, |w i| := by
    rw [← hw.1]
    exact Finset.sum_le_sum fun i _ => le_abs_self _
  have : A * (∑ i, |w i| - 1) < 1 / 10 ^ 6 := lt_of_le_of_lt (mul_le_mul_of_nonneg_right hq (by linarith)) h
  have := (lt_div_iff₀' hA).2 this
  linarith

/-- C118: no atom is listed by mistake, up to the tolerance. For a level domain whose triangles have at least the area `A`, the
perpendicular component of a listed atom, less that of the shift, is in a triangle of the domain: no barycentric coordinate is
below −10⁻⁶/(2A). -/
theorem C118_sound (doms : List Domain) (ph : Phason) (nmax : Int) (shift : Fin 6 → ℝ) (l : List Atom)
    (h : strcApi doms ph nmax shift = some l) (hs : shift 5 = 0) (a : Atom) (ha : a ∈ l) (d : Domain)
    (hd : doms[a.domain]? = some d) (A : ℝ) (hA : 0 < A) (big : ∀ t ∈ d.obj, A ≤ triArea (Package.dode.perps t))
    (level : ∀ t ∈ d.obj, ∀ i, Package.dode.perp (t i) 2 = 0) :
    ∃ t ∈ d.obj, NearSolid (1 / 10 ^ 6 / A / 2) (Package.dode.perps t)
      (strainedPerp ph.matrix (latticePoint a.index) - strainedPerp ph.matrix shift) := by
  obtain ⟨d', hd', -, ⟨t, ht, hn⟩, -⟩ := (C118_list doms ph nmax shift l h a).1 ha
  obtain rfl : d' = d := Option.some.inj (hd'.symm.trans hd)
  obtain ⟨w, hw, hlt⟩ := near_bound hA (big t ht) (level t ht)
    (by rw [Pi.sub_apply, strainedPerp_height, strainedPerp_height, hs]; simp [latticePoint]) hn
  refine ⟨t, ht, w, hw, fun i => ?_⟩
  have h1 := hw.1
  rw [Fin.sum_univ_three] at h1 hlt
  have a0 := le_abs_self (w 0); have a1 := le_abs_self (w 1); have a2 := le_abs_self (w 2)
  have b0 := neg_abs_le (w 0); have b1 := neg_abs_le (w 1); have b2 := neg_abs_le (w 2)
  fin_cases i <;> simp only [Fin.zero_eta, Fin.mk_one, Fin.reduceFinMk] <;> linarith

/-- C118: a larger box only adds lattice points: the structure for `nmax` is the part of the one for a larger `nmax'` with
indices up to `nmax`. -/
theorem C118_grow (doms : List Domain) (ph : Phason) (nmax nmax' : Int) (hm : nmax ≤ nmax') (shift : Fin 6 → ℝ)
    (l l' : List Atom) (h : strcApi doms ph nmax shift = some l) (h' : strcApi doms ph nmax' shift = some l') (a : Atom) :
    a ∈ l ↔ a ∈ l' ∧ ∀ k, |a.index k| ≤ nmax := by
  rw [C118_list _ _ _ _ _ h, C118_list _ _ _ _ _ h']
  constructor
  · rintro ⟨d, h1, h2, h3⟩
    exact ⟨⟨d, h1, fun k => (h2 k).trans hm, h3⟩, h2⟩
  · rintro ⟨⟨d, h1, -, h3⟩, h2⟩
    exact ⟨d, h1, h2, h3⟩

/-- C118: a phason matrix of zeros gives the same structure as no phason matrix. -/
theorem C118_no_strain (doms : List Domain) (nmax : Int) (shift : Fin 6 → ℝ) :
    strcApi doms (.strain 0) nmax shift = strcApi doms .absent nmax shift := by
  have e : ∀ x, project (.strain 0) x = project .absent x := by
    intro x
    funext i
    fin_cases i <;> simp [project, projection1, projection2] <;> ring
  unfold strcApi strc site
  simp only [e]

/-! ## Distances between atoms -/

theorem lattice_conjugates {g : Fin 4 → Int} (hg : g ≠ 0) : ∃ j : Fin 3,
    1 / 4 ≤ |Package.dode.parMat.mulVec (latticePoint g) j * Package.dode.perpMat.mulVec (latticePoint g) j| := by
  have h3 : sin60 ^ 2 = 3 / 4 := by
    unfold sin60
    rw [div_pow, Real.sq_sqrt (by norm_num)]
    norm_num
  have key : ∀ p q : Int, ¬(p = 0 ∧ q = 0) → ∀ x y : ℝ, x = p / 2 + q * sin60 → y = p / 2 - q * sin60 → 1 / 4 ≤ |x * y| := by
    intro p q hpq x y hx hy
    have e : x * y = ((p ^ 2 - 3 * q ^ 2 : Int) : ℝ) / 4 := by
      rw [hx, hy]
      push_cast
      linear_combination (-(q : ℝ) ^ 2) * h3
    have hne : (p ^ 2 - 3 * q ^ 2 : Int) ≠ 0 := by
      intro h0
      have hxy : x * y = 0 := by rw [e, h0]; simp
      rcases mul_eq_zero.1 hxy with h | h
      · have := irr_zero_int sin60 (p := p) (q := 2 * q) (by push_cast; linarith)
        exact hpq ⟨this.1, by omega⟩
      · have := irr_zero_int sin60 (p := p) (q := -2 * q) (by push_cast; linarith)
        exact hpq ⟨this.1, by omega⟩
    have h1 : (1 : ℝ) ≤ |((p ^ 2 - 3 * q ^ 2 : Int) : ℝ)| := by exact_mod_cast Int.one_le_abs hne
    rw [e, abs_div, abs_of_pos (by norm_num : (0 : ℝ) < 4)]
    linarith
  by_cases h : 2 * g 1 - g 3 = 0 ∧ g 0 = 0
  · refine ⟨1, key (2 * g 2 - g 0) (g 3) ?_ _ _ ?_ ?_⟩
    · rintro ⟨e1, e2⟩
      apply hg
      funext k
      fin_cases k <;> simp <;> omega
    · simp [Package.parMat, Matrix.mulVec, dotProduct, Fin.sum_univ_six, latticePoint]; ring
    · simp [Package.perpMat, Matrix.mulVec, dotProduct, Fin.sum_univ_six, latticePoint]; ring
  · refine ⟨0, key (2 * g 1 - g 3) (g 0) h _ _ ?_ ?_⟩
    · simp [Package.parMat, Matrix.mulVec, dotProduct, Fin.sum_univ_six, latticePoint]; ring
    · simp [Package.perpMat, Matrix.mulVec, dotProduct, Fin.sum_univ_six, latticePoint]; ring

theorem latticePoint_sub (g h : Fin 4 → Int) : latticePoint (g - h) = latticePoint g - latticePoint h := by
  funext k
  fin_cases k <;> simp [latticePoint]

/-- C118: different lattice points of one domain give different places, with or without strain. -/
theorem C118_places (doms : List Domain) (ph : Phason) (nmax : Int) (shift : Fin 6 → ℝ) (l : List Atom)
    (h : strcApi doms ph nmax shift = some l) (a b : Atom) (ha : a ∈ l) (hb : b ∈ l) (hd : a.domain = b.domain)
    (hp : a.place = b.place) : a = b := by
  obtain ⟨d, h1, -, -, e1⟩ := (C118_list _ _ _ _ _ h a).1 ha
  obtain ⟨d', h2, -, -, e2⟩ := (C118_list _ _ _ _ _ h b).1 hb
  rw [hd] at h1
  obtain rfl : d = d' := Option.some.inj (h1.symm.trans h2)
  have hi : a.index = b.index := by
    by_contra hne
    obtain ⟨j, hj⟩ := lattice_conjugates (sub_ne_zero.2 hne)
    have h0 : Package.dode.parMat.mulVec (latticePoint (a.index - b.index)) = 0 := by
      rw [latticePoint_sub, Matrix.mulVec_sub, sub_eq_zero]
      rw [hp, e2] at e1
      simpa using e1.symm
    rw [h0] at hj
    norm_num at hj
  obtain ⟨_, _, _⟩ := a
  obtain ⟨_, _, _⟩ := b
  simp only at hd hp hi
  rw [hd, hp, hi]

theorem strainedPerp_zero (x : Fin 6 → ℝ) : strainedPerp 0 x = Package.dode.perpMat.mulVec x := by
  funext i
  fin_cases i <;> simp [strainedPerp] <;> rfl

theorem near_center {q : Fin 3 → Fin 3 → ℝ} {A r : ℝ} (hA : 0 < A) (hr : 0 ≤ r) (hq : A ≤ triArea q) (hl : ∀ i, q i 2 = 0)
    {x c : Fin 3 → ℝ} (hx : x 2 = 0) (h : NearTriangle q x) (hc : ∀ i j, |q i j - c j| ≤ r) (j : Fin 3) :
    |x j - c j| ≤ (1 + 1 / 10 ^ 6 / A) * r := by
  obtain ⟨w, hw, hlt⟩ := near_bound hA hq hl hx h
  have e : x j - c j = ∑ i, w i * (q i j - c j) := by
    have h2 := congrFun hw.2 j
    have h1 := hw.1
    rw [Fin.sum_univ_three] at h1 h2 ⊢
    simp only [Pi.add_apply, Pi.smul_apply, smul_eq_mul] at h2
    rw [h2]
    linear_combination (c j) * h1
  rw [e]
  calc |∑ i, w i * (q i j - c j)| ≤ ∑ i, |w i * (q i j - c j)| := Finset.abs_sum_le_sum_abs _ _
    _ ≤ ∑ i, |w i| * r := Finset.sum_le_sum fun i _ => by
        rw [abs_mul]
        exact mul_le_mul_of_nonneg_left (hc i j) (abs_nonneg _)
    _ = (∑ i, |w i|) * r := (Finset.sum_mul _ _ _).symm
    _ ≤ _ := mul_le_mul_of_nonneg_right hlt.le hr

/-- C118: atoms keep a distance. For a level domain in a square of half side `r` (in perpendicular space, around any point) whose
triangles have at least the area `A`, the places of two atoms of the domain from different lattice points differ in some coordinate by at
least 1/(8r(1 + 10⁻⁶/A)), however large the structure. Stated for structures without phason strain. -/
theorem C118_distance (doms : List Domain) (nmax : Int) (shift : Fin 6 → ℝ) (l : List Atom)
    (h : strcApi doms .absent nmax shift = some l) (hs : shift 5 = 0) (a b : Atom) (ha : a ∈ l) (hb : b ∈ l) (d : Domain)
    (hda : doms[a.domain]? = some d) (hdb : b.domain = a.domain) (hne : a.index ≠ b.index) (A r : ℝ) (hA : 0 < A) (hr : 0 < r)
    (big : ∀ t ∈ d.obj, A ≤ triArea (Package.dode.perps t)) (level : ∀ t ∈ d.obj, ∀ i, Package.dode.perp (t i) 2 = 0)
    (c : Fin 3 → ℝ) (small : ∀ t ∈ d.obj, ∀ i j, |Package.dode.perp (t i) j - c j| ≤ r) :
    ∃ j, 1 / (8 * r * (1 + 1 / 10 ^ 6 / A)) ≤ |a.place j - b.place j| := by
  obtain ⟨d1, h1, -, ⟨t1, ht1, n1⟩, e1⟩ := (C118_list _ _ _ _ _ h a).1 ha
  obtain ⟨d2, h2, -, ⟨t2, ht2, n2⟩, e2⟩ := (C118_list _ _ _ _ _ h b).1 hb
  obtain rfl : d1 = d := Option.some.inj (h1.symm.trans hda)
  rw [hdb] at h2
  obtain rfl : d2 = d1 := Option.some.inj (h2.symm.trans h1)
  have hz : ∀ g : Fin 4 → Int, (strainedPerp Phason.absent.matrix (latticePoint g) - strainedPerp Phason.absent.matrix shift) 2 = 0 := by
    intro g
    rw [Pi.sub_apply, strainedPerp_height, strainedPerp_height, hs]
    simp [latticePoint]
  obtain ⟨j, hj⟩ := lattice_conjugates (sub_ne_zero.2 hne)
  refine ⟨j, ?_⟩
  have c1 := near_center hA hr.le (big t1 ht1) (level t1 ht1) (hz _) n1 (small t1 ht1) j
  have c2 := near_center hA hr.le (big t2 ht2) (level t2 ht2) (hz _) n2 (small t2 ht2) j
  set R := (1 + 1 / 10 ^ 6 / A) * r with hR
  have hR0 : 0 < R := by positivity
  have hp : |Package.dode.perpMat.mulVec (latticePoint (a.index - b.index)) j| ≤ 2 * R := by
    rw [latticePoint_sub, Matrix.mulVec_sub, ← strainedPerp_zero, ← strainedPerp_zero]
    change |strainedPerp Phason.absent.matrix _ j - strainedPerp Phason.absent.matrix _ j| ≤ _
    rw [Pi.sub_apply] at c1 c2
    rw [abs_le] at c1 c2 ⊢
    constructor <;> linarith [c1.1, c1.2, c2.1, c2.2]
  have he : a.place j - b.place j = Package.dode.parMat.mulVec (latticePoint (a.index - b.index)) j := by
    rw [latticePoint_sub, Matrix.mulVec_sub, e1, e2]
    simp only [Pi.sub_apply]
    ring
  rw [he, show 8 * r * (1 + 1 / 10 ^ 6 / A) = 4 * (2 * R) by rw [hR]; ring, div_le_iff₀ (by positivity)]
  rw [abs_mul] at hj
  nlinarith [mul_le_mul_of_nonneg_left hp (abs_nonneg (Package.dode.parMat.mulVec (latticePoint (a.index - b.index)) j))]

/-! ## Degenerate triangles -/

/-- C118, disagreement: the tolerance of the window is an absolute area. A triangle whose three corners coincide contains every
point, so a domain with such a triangle puts an atom on every lattice point of the box. -/
theorem C118_fails_degenerate (doms : List Domain) (ph : Phason) (nmax : Int) (shift : Fin 6 → ℝ) (l : List Atom)
    (h : strcApi doms ph nmax shift = some l) (i : Nat) (d : Domain) (hd : doms[i]? = some d) (v : Vec 6)
    (hv : (fun _ => v : Simplex 3) ∈ d.obj) (n : Fin 4 → Int) (hn : ∀ k, |n k| ≤ nmax) : ∃ a ∈ l, a.domain = i ∧ a.index = n := by
  refine ⟨⟨Package.dode.parMat.mulVec (latticePoint n) - Package.dode.par d.pos - Package.dode.par d.eshift, i, n⟩,
    (C118_list doms ph nmax shift l h _).2 ⟨d, hd, hn, ⟨_, hv, ?_⟩, rfl⟩, rfl, rfl⟩
  have z : ∀ q : Fin 3 → Fin 3 → ℝ, triNormal q = 0 → triArea q = 0 := by
    intro q hq
    rw [triArea_norm3, hq, norm3_eq_sqrt]
    simp
  have e0 : triArea (Package.dode.perps (fun _ => v : Simplex 3)) = 0 := z _ (by
    funext j
    fin_cases j <;> simp [triNormal, Package.perps])
  have e1 : ∀ k x, triArea (Function.update (Package.dode.perps (fun _ => v : Simplex 3)) k x) = 0 := fun k x => z _ (by
    unfold triNormal
    fin_cases k
    · exact cross_self (Package.dode.perp v - x)
    · simp [Function.update, Package.perps]
    · simp [Function.update, Package.perps])
  unfold NearTriangle
  simp only [e0, e1]
  norm_num

/-! ## A concrete case -/

/-- A domain with one triangle: the corners (0,0), (2,0), (0,2) of perpendicular space. -/
def exDomain : Domain :=
  ⟨[fun i => ![⟨0, 0, 1⟩, ⟨![0, 2, 0] i, 0, 1⟩, ⟨![0, 0, 2] i, 0, 1⟩, ⟨0, 0, 1⟩, ⟨0, 0, 1⟩, ⟨0, 0, 1⟩]],
    fun _ => ⟨0, 0, 1⟩, fun _ => ⟨0, 0, 1⟩⟩

theorem exDomain_ok : exDomain.Ok := by
  refine ⟨fun t ht i k => ?_, fun _ => one_ne_zero, fun _ => one_ne_zero⟩
  obtain rfl := List.mem_singleton.1 ht
  fin_cases k <;> simp

theorem exDomain_perp (t : Simplex 3) (ht : t ∈ exDomain.obj) :
    Package.dode.perps t = ![![0, 0, 0], ![2, 0, 0], ![0, 2, 0]] := by
  obtain rfl := List.mem_singleton.1 ht
  funext i j
  fin_cases i <;> fin_cases j <;>
    simp [Package.perps, Package.perp, Package.perpMat, Package.theta, Matrix.mulVec, dotProduct, Fin.sum_univ_six, Vec.val, Num3.val]

theorem exDomain_area (t : Simplex 3) (ht : t ∈ exDomain.obj) : (2 : ℝ) ≤ triArea (Package.dode.perps t) := by
  rw [exDomain_perp t ht, triArea_norm3, norm3_eq_sqrt]
  simp [triNormal, cross_apply]

/-- The hypotheses are met: for every box that contains it, the lattice point (0,1,0,0) gives an atom of the example domain, and
any two atoms are at least 1/9 apart in one coordinate. -/
example (nmax : Int) (hn : 1 ≤ nmax) : ∃ l, strcApi [exDomain] .absent nmax 0 = some l ∧
    (∃ a ∈ l, a.index = ![0, 1, 0, 0]) ∧
    ∀ a ∈ l, ∀ b ∈ l, a.index ≠ b.index → ∃ j, 1 / 9 ≤ |a.place j - b.place j| := by
  obtain ⟨l, hl⟩ := C118_returns [exDomain] .absent nmax 0 (by simpa using exDomain_ok)
  refine ⟨l, hl, ?_, fun a ha b hb hne => ?_⟩
  · obtain ⟨a, ha, -, e⟩ := C118_complete _ _ _ _ l hl 0 exDomain rfl ![0, 1, 0, 0]
      (fun k => by fin_cases k <;> simp <;> omega)
      ⟨_, List.mem_singleton.2 rfl, mem_solid_iff.2 ⟨![1 / 2, 1 / 2, 0], ⟨by simp [Fin.sum_univ_three]; norm_num, by
        rw [exDomain_perp _ (List.mem_singleton.2 rfl)]
        funext j
        fin_cases j <;> simp [Phason.matrix, strainedPerp, latticePoint, Package.perpMat, Matrix.mulVec, dotProduct, Fin.sum_univ_six,
          Fin.sum_univ_three] <;> rfl⟩, fun i => by fin_cases i <;> simp⟩⟩
    exact ⟨a, ha, e⟩
  · have h0 : ∀ x ∈ l, x.domain = 0 := by
      intro x hx
      obtain ⟨d, hd, -⟩ := (C118_list _ _ _ _ l hl x).1 hx
      have := (List.getElem?_eq_some_iff.1 hd).1
      simpa using this
    obtain ⟨j, hj⟩ := C118_distance [exDomain] nmax 0 l hl rfl a b ha hb exDomain (by rw [h0 a ha]; rfl)
      ((h0 b hb).trans (h0 a ha).symm) hne 2 1 (by norm_num) (by norm_num) exDomain_area
      (fun t ht i => by
        change Package.dode.perps t i 2 = 0
        rw [exDomain_perp t ht]; fin_cases i <;> rfl)
      ![1, 1, 0] (fun t ht i j => by
        change |Package.dode.perps t i j - _| ≤ _
        rw [exDomain_perp t ht]; fin_cases i <;> fin_cases j <;> norm_num)
    exact ⟨j, le_trans (by norm_num) hj⟩

end PyQC
