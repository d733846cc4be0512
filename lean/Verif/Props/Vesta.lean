import Verif.Spec.Export
import Verif.Props.Unique
import Verif.Props.Position
import Verif.Props.Planar
/-!
# C75: VESTA files
-/
namespace PyQC

variable (p : Package)

theorem atomXyz_ok {v : Vec 6} (hv : Vec.Ok v) : atomXyz p v = .ok (p.perp v) := by
  unfold atomXyz
  rw [p.projection3_ok hv, bind_ok', numericalVector3_eq, p.val_projection3]

theorem twoVectors_length {v w : Vec 6} (hv : Vec.Ok v) (hw : Vec.Ok w) :
    ∃ r, removeDoublingPerp p [v, w] = .ok r ∧ (r.length = 1 ↔ p.perp w = p.perp v) := by
  obtain ⟨r, hr, hl⟩ := removeDoublingPerp_length p (l := [v, w]) (by
    intro x hx
    rcases List.mem_pair.mp hx with rfl | rfl <;> assumption)
  refine ⟨r, hr, ?_⟩
  have : {x | ∃ u ∈ [v, w], p.perp u = x} = {p.perp v, p.perp w} := by
    ext x
    simp [eq_comm]
  rw [hl, this]
  by_cases e : p.perp v = p.perp w
  · simp [e]
  · rw [Set.ncard_pair e]
    simp [Ne.symm e]

theorem findVertex_ok {v : Vec 6} (hv : Vec.Ok v) (n : Nat) (ws : List (Vec 6)) (hw : ∀ w ∈ ws, Vec.Ok w)
    (h : ∃ w ∈ ws, p.perp w = p.perp v) :
    ∃ k w, findVertex p v n ws = .ok (some (n + k)) ∧ ws[k]? = some w ∧ p.perp w = p.perp v := by
  induction ws generalizing n with
  | nil => obtain ⟨w, hw, -⟩ := h; simp at hw
  | cons w ws ih =>
    obtain ⟨r, hr, hl⟩ := twoVectors_length p hv (hw w (by simp))
    unfold findVertex
    rw [hr, bind_ok']
    by_cases e : p.perp w = p.perp v
    · rw [if_pos (hl.mpr e)]
      exact ⟨0, w, rfl, rfl, e⟩
    · rw [if_neg (mt hl.mp e)]
      obtain ⟨u, hu, eu⟩ := h
      rcases List.mem_cons.mp hu with rfl | hu
      · exact absurd eu e
      · obtain ⟨k, w', h1, h2, h3⟩ := ih (n + 1) (fun x hx => hw x (by simp [hx])) ⟨u, hu, eu⟩
        exact ⟨k + 1, w', by rw [h1]; congr 2; omega, by simpa using h2, h3⟩

theorem mem_flattenObj' {m : Nat} {o : Obj m} {v : Vec 6} : v ∈ flattenObj o ↔ ∃ s ∈ o, ∃ k, s k = v := by
  simp [flattenObj, List.mem_flatMap, List.mem_ofFn]

theorem fillList_map {α β γ : Type} (f : β → Py γ) (g : α → β) (l : List α) :
    fillList f (l.map g) = fillList (fun x => f (g x)) l := by
  induction l with
  | nil => rfl
  | cons a l ih => rw [List.map_cons, fillList, fillList, ih]

/-- The molecule for a set of pieces: its atoms are the perp vertices, each once, and bond number `n` joins the first
two vertices of piece number `n`. -/
theorem vestaEdges_ok {m : Nat} (o : Obj (m + 2)) (ho : Obj.Ok o) :
    ∃ mol : VestaMol, vestaEdges p o = .ok mol ∧ mol.allPairs = none ∧ mol.atoms.Nodup ∧
      (∀ x, x ∈ mol.atoms ↔ ∃ s ∈ o, ∃ k, p.perps s k = x) ∧ mol.bonds.length = o.length ∧
      ∀ (n : Nat) (s : Simplex (m + 2)), o[n]? = some s → ∃ b : BondLine, mol.bonds[n]? = some b ∧
        mol.atoms[b.first]? = some (p.perps s 0) ∧ mol.atoms[b.second]? = some (p.perps s 1) ∧
        b.lo = dist3 (p.perps s 0) (p.perps s 1) - 0.01 ∧
        b.hi = dist3 (p.perps s 0) (p.perps s 1) + 0.01 := by
  have hfl : ∀ v ∈ flattenObj o, Vec.Ok v := by
    intro v hv
    obtain ⟨s, hs, k, rfl⟩ := mem_flattenObj'.mp hv
    exact ho s hs k
  obtain ⟨r, hr, hmem, hpw, hex⟩ := C24_one_per_point p (flattenObj o) hfl
  have hrok : ∀ v ∈ r, Vec.Ok v := fun v hv => hfl v (hmem v hv)
  have hfind : ∀ s ∈ o, ∀ i, ∃ k w, findVertex p (s i) 0 r = .ok (some k) ∧ r[k]? = some w ∧
      p.perp w = p.perp (s i) := by
    intro s hs i
    obtain ⟨y, ⟨hy, e⟩, -⟩ := hex (s i) (mem_flattenObj'.mpr ⟨s, hs, i, rfl⟩)
    obtain ⟨k, w, h1, h2, h3⟩ := findVertex_ok p (ho s hs i) 0 r hrok ⟨y, hy, e⟩
    exact ⟨k, w, by simpa using h1, h2, h3⟩
  have hpair : ∀ s ∈ o, ∃ b : BondLine, (∃ q, bondPair p r s = .ok q ∧ bondLine q = .ok b) ∧
        (r.map p.perp)[b.first]? = some (p.perps s 0) ∧
        (r.map p.perp)[b.second]? = some (p.perps s 1) ∧
        b.lo = dist3 (p.perps s 0) (p.perps s 1) - 0.01 ∧
        b.hi = dist3 (p.perps s 0) (p.perps s 1) + 0.01 := by
    intro s hs
    obtain ⟨k0, w0, a0, b0, c0⟩ := hfind s hs 0
    obtain ⟨k1, w1, a1, b1, c1⟩ := hfind s hs 1
    refine ⟨⟨k0, k1, _, _⟩, ⟨(dist3 (p.perp (s 0)) (p.perp (s 1)), [k0, k1]), ?_, rfl⟩, ?_, ?_,
      rfl, rfl⟩
    · unfold bondPair rowAt
      rw [dif_pos (by omega), bind_ok', dif_pos (by omega), bind_ok']
      change (do
        let dist ← distanceInPerpSpace p (s 0) (s 1)
        let n0 ← findVertex p (s 0) 0 r
        let n1 ← findVertex p (s 1) 0 r
        Except.ok (dist, n0.toList ++ n1.toList)) = _
      rw [distance_ok p (ho s hs _) (ho s hs _), bind_ok', a0, bind_ok', a1, bind_ok']
      rfl
    · rw [List.getElem?_map, b0]; exact congrArg some c0
    · rw [List.getElem?_map, b1]; exact congrArg some c1
  have : Nonempty BondLine := ⟨⟨0, 0, 0, 0⟩⟩
  choose! bl hbl h0 h1 hlo hhi using hpair
  choose! q hq hqb using hbl
  refine ⟨⟨r.map p.perp, o.map bl, none⟩, ?_, rfl, ?_, ?_, by simp, ?_⟩
  · unfold vestaEdges
    rw [hr, bind_ok', fillList_ok hq, bind_ok', fillList_ok (fun v hv => atomXyz_ok p (hrok v hv)), bind_ok',
      fillList_map, fillList_ok (g := bl) (fun s hs => hqb s hs), bind_ok']
  · exact List.pairwise_map.mpr hpw
  · intro x
    simp only [List.mem_map]
    constructor
    · rintro ⟨v, hv, rfl⟩
      obtain ⟨s, hs, k, rfl⟩ := mem_flattenObj'.mp (hmem v hv)
      exact ⟨s, hs, k, rfl⟩
    · rintro ⟨s, hs, k, rfl⟩
      obtain ⟨y, ⟨hy, e⟩, -⟩ := hex (s k) (mem_flattenObj'.mpr ⟨s, hs, k, rfl⟩)
      exact ⟨y, hy, e⟩
  · intro n s hn
    have hs : s ∈ o := List.mem_of_getElem? hn
    exact ⟨bl s, by simp [hn], h0 s hs, h1 s hs, hlo s hs, hhi s hs⟩

/-- What VESTA draws for that molecule: the edge between the first two vertices of each piece. -/
theorem vestaEdges_draws {m : Nat} (o : Obj (m + 2)) (ho : Obj.Ok o) :
    ∃ mol : VestaMol, vestaEdges p o = .ok mol ∧ mol.atoms.Nodup ∧
      (∀ x, x ∈ mol.atoms ↔ ∃ s ∈ o, ∃ k, p.perps s k = x) ∧
      ∀ x y, mol.Draws x y ↔ x ≠ y ∧ ∃ s ∈ o, p.IsEdge s 0 1 x y := by
  obtain ⟨mol, h, hall, hnd, hat, hlen, hb⟩ := vestaEdges_ok p o ho
  refine ⟨mol, h, hnd, hat, fun x y => ⟨?_, ?_⟩⟩
  · rintro ⟨i, j, hij, hi, hj, ⟨b, hbm, hor, -, -⟩ | ⟨lo, hi', e, -⟩⟩
    · refine ⟨?_, ?_⟩
      · rintro rfl
        exact hij ((List.getElem?_inj (List.getElem?_eq_some_iff.mp hi).1 hnd).mp (hi.trans hj.symm))
      · obtain ⟨n, hn⟩ := List.getElem?_of_mem hbm
        obtain ⟨s, hs⟩ : ∃ s, o[n]? = some s := by
          have := (List.getElem?_eq_some_iff.mp hn).1
          exact ⟨o[n]'(by omega), List.getElem?_eq_getElem _⟩
        obtain ⟨b', e, h0, h1, -⟩ := hb n s hs
        obtain rfl : b = b' := Option.some_inj.mp (hn.symm.trans e)
        refine ⟨s, List.mem_of_getElem? hs, ?_⟩
        rcases hor with ⟨rfl, rfl⟩ | ⟨rfl, rfl⟩
        · exact .inl ⟨Option.some_inj.mp (h0.symm.trans hi), Option.some_inj.mp (h1.symm.trans hj)⟩
        · exact .inr ⟨Option.some_inj.mp (h0.symm.trans hj), Option.some_inj.mp (h1.symm.trans hi)⟩
    · rw [hall] at e
      exact absurd e (by simp)
  · rintro ⟨hne, s, hs, he⟩
    obtain ⟨n, hn⟩ := List.getElem?_of_mem hs
    obtain ⟨b, hbn, h0, h1, hlo, hhi⟩ := hb n s hn
    have hbm := List.mem_of_getElem? hbn
    rcases he with ⟨rfl, rfl⟩ | ⟨rfl, rfl⟩
    · refine ⟨b.first, b.second, ?_, h0, h1, .inl ⟨b, hbm, .inl ⟨rfl, rfl⟩, ?_, ?_⟩⟩
      · intro e
        rw [e] at h0
        exact hne (Option.some_inj.mp (h0.symm.trans h1))
      · rw [hlo]; norm_num
      · rw [hhi]; norm_num
    · refine ⟨b.second, b.first, ?_, h1, h0, .inl ⟨b, hbm, .inr ⟨rfl, rfl⟩, ?_, ?_⟩⟩
      · intro e
        rw [e] at h1
        exact hne (Option.some_inj.mp (h1.symm.trans h0))
      · rw [hlo, dist3_comm]; norm_num
      · rw [hhi, dist3_comm]; norm_num

/-! ## C75 -/

/-- C75: for a set of edges `write_vesta` of ico2 returns 0 and writes one molecule whose atoms are the perp end points,
each once, and in which exactly the given edges are drawn. -/
theorem C75_ico_edges (select : VestaSelect) (hsel : select ≠ .simple) (o : Obj 2) (h0 : o ≠ []) (ho : Obj.Ok o) :
    ∃ mol : VestaMol, Ico.writeVesta select (some o) = .ok ⟨0, [mol]⟩ ∧ mol.atoms.Nodup ∧
      (∀ x, x ∈ mol.atoms ↔ ∃ e ∈ o, ∃ k, Package.ico.perps e k = x) ∧
      ∀ x y, mol.Draws x y ↔ x ≠ y ∧ ∃ e ∈ o, Package.ico.IsEdge e 0 1 x y := by
  obtain ⟨mol, h, h1, h2, h3⟩ := vestaEdges_draws .ico o ho
  refine ⟨mol, ?_, h1, h2, h3⟩
  have : isNoneOrEmpty ((some o).map NdArr.d4) = false := by simp [isNoneOrEmpty, h0]
  unfold Ico.writeVesta
  rw [this]
  cases select <;> first | exact absurd rfl hsel | simp [h, bind_ok']

/-- C75: the same for `write_vesta` of dode2 with the option for edges. -/
theorem C75_dode_edges (o : Obj 2) (h0 : o ≠ []) (ho : Obj.Ok o) :
    ∃ mol : VestaMol, Dode.writeVesta .edges (some o) = .ok ⟨0, [mol]⟩ ∧ mol.atoms.Nodup ∧
      (∀ x, x ∈ mol.atoms ↔ ∃ e ∈ o, ∃ k, Package.dode.perps e k = x) ∧
      ∀ x y, mol.Draws x y ↔ x ≠ y ∧ ∃ e ∈ o, Package.dode.IsEdge e 0 1 x y := by
  obtain ⟨mol, h, h1, h2, h3⟩ := vestaEdges_draws .dode o ho
  refine ⟨mol, ?_, h1, h2, h3⟩
  have : isNoneOrEmpty ((some o).map NdArr.d4) = false := by simp [isNoneOrEmpty, h0]
  simp [Dode.writeVesta, isNoneOrEmpty, h0, h, bind_ok']

/-- C75, what holds for pieces with more vertices in ico2, whatever the option except 'simple': all perp vertices are
atoms, but only the edge between the first two vertices of each piece is drawn. Missing: the other edges. -/
theorem C75_ico_pieces_partial {m : Nat} (select : VestaSelect) (hsel : select ≠ .simple) (o : Obj (m + 2)) (h0 : o ≠ [])
    (ho : Obj.Ok o) :
    ∃ mol : VestaMol, Ico.writeVesta select (some o) = .ok ⟨0, [mol]⟩ ∧ mol.atoms.Nodup ∧
      (∀ x, x ∈ mol.atoms ↔ ∃ s ∈ o, ∃ k, Package.ico.perps s k = x) ∧
      ∀ x y, mol.Draws x y ↔ x ≠ y ∧ ∃ s ∈ o, Package.ico.IsEdge s 0 1 x y := by
  obtain ⟨mol, h, h1, h2, h3⟩ := vestaEdges_draws .ico o ho
  refine ⟨mol, ?_, h1, h2, h3⟩
  have : isNoneOrEmpty ((some o).map NdArr.d4) = false := by simp [isNoneOrEmpty, h0]
  unfold Ico.writeVesta
  rw [this]
  cases select <;> first | exact absurd rfl hsel | simp [h, bind_ok']

/-- C75 fails for tetrahedra: of the six edges of a tetrahedron with distinct corners `write_vesta` of ico2, with every
option that does not raise, draws only the one between its first two corners. -/
theorem C75_fails_tetrahedron (select : VestaSelect) (hsel : select ≠ .simple) (t : Simplex 4) (ht : Simplex.Ok t)
    (hd : Function.Injective (Package.ico.perps t)) :
    ∃ mol : VestaMol, Ico.writeVesta select (some [t]) = .ok ⟨0, [mol]⟩ ∧
      ∀ i j, mol.Draws (Package.ico.perps t i) (Package.ico.perps t j) ↔ (i = 0 ∧ j = 1 ∨ i = 1 ∧ j = 0) := by
  obtain ⟨mol, h, -, -, h3⟩ := C75_ico_pieces_partial select hsel [t] (by simp) (by
    intro s hs; rw [List.mem_singleton.mp hs]; exact ht)
  refine ⟨mol, h, fun i j => ?_⟩
  rw [h3]
  simp only [List.mem_singleton, exists_eq_left, Package.IsEdge, hd.eq_iff, hd.ne_iff]
  constructor
  · rintro ⟨-, ⟨rfl, rfl⟩ | ⟨rfl, rfl⟩⟩ <;> simp
  · rintro (⟨rfl, rfl⟩ | ⟨rfl, rfl⟩) <;> simp

/-- C75: `write_vesta` of dode2 with its default option writes one molecule for each triangle, whose atoms are its
corners in order, and which shows every edge of length at most 10. -/
theorem C75_dode_normal (o : Obj 3) (h0 : o ≠ []) (ho : Obj.Ok o) :
    ∃ mols : List VestaMol, Dode.writeVesta .normal (some o) = .ok ⟨0, mols⟩ ∧ mols.length = o.length ∧
      ∀ (n : Nat) (t : Simplex 3), o[n]? = some t → ∃ mol : VestaMol, mols[n]? = some mol ∧
        mol.atoms = [Package.dode.perps t 0, Package.dode.perps t 1, Package.dode.perps t 2] ∧
        ∀ x y, mol.Draws x y ↔ dist3 x y ≤ 10 ∧ ∃ i j, i ≠ j ∧ Package.dode.perps t i = x ∧ Package.dode.perps t j = y := by
  refine ⟨o.map fun t => ⟨[Package.dode.perps t 0, Package.dode.perps t 1, Package.dode.perps t 2], [], some (0, 10)⟩,
    ?_, by simp, ?_⟩
  · simp only [Dode.writeVesta, isNoneOrEmpty, Option.map_some, Option.getD_some, decide_false, Nat.reduceEqDiff]
    have hf : fillList (vestaPiece .dode) o = .ok (o.map fun t =>
        ⟨[Package.dode.perps t 0, Package.dode.perps t 1, Package.dode.perps t 2], [], some (0, 10)⟩) := by
      refine fillList_ok fun t ht => ?_
      unfold vestaPiece
      rw [fillList_ok (g := Package.dode.perp) (by
        intro v hv
        obtain ⟨i, rfl⟩ := List.mem_ofFn.mp hv
        exact atomXyz_ok .dode (ho t ht i)), bind_ok']
      rfl
    rw [hf]
    simp [h0, bind_ok']
  · intro n t hn
    refine ⟨⟨_, _, _⟩, by rw [List.getElem?_map, hn]; rfl, rfl, fun x y => ?_⟩
    have hdist : 0 ≤ dist3 x y := Real.sqrt_nonneg _
    have key : ∀ (i : Nat) (z : Fin 3 → ℝ),
        [Package.dode.perps t 0, Package.dode.perps t 1, Package.dode.perps t 2][i]? = some z ↔
          ∃ k : Fin 3, k.val = i ∧ Package.dode.perps t k = z := by
      intro i z
      constructor
      · intro h
        match i, h with
        | 0, h => exact ⟨0, rfl, by simpa using h⟩
        | 1, h => exact ⟨1, rfl, by simpa using h⟩
        | 2, h => exact ⟨2, rfl, by simpa using h⟩
        | n + 3, h => simp at h
      · rintro ⟨k, rfl, rfl⟩
        fin_cases k <;> rfl
    constructor
    · rintro ⟨i, j, hij, hi, hj, ⟨b, hb, -⟩ | ⟨lo, hi', e, h1, h2⟩⟩
      · simp at hb
      · obtain ⟨k, rfl, ek⟩ := (key _ _).mp hi
        obtain ⟨l, rfl, el⟩ := (key _ _).mp hj
        simp only [Option.some.injEq, Prod.mk.injEq] at e
        exact ⟨e.2 ▸ h2, k, l, fun e => hij (by rw [e]), ek, el⟩
    · rintro ⟨h, k, l, hkl, ek, el⟩
      exact ⟨k, l, fun e => hkl (Fin.ext e), (key _ _).mpr ⟨k, rfl, ek⟩, (key _ _).mpr ⟨l, rfl, el⟩,
        .inr ⟨0, 10, rfl, hdist, h⟩⟩

/-- C75: the option 'simple' raises AttributeError in both packages for every non-empty object, the option 'podatm'
does so in dode2. -/
theorem C75_broken {m : Nat} (hm : m ≠ 0) (o : Obj m) (h0 : o ≠ []) :
    Ico.writeVesta .simple (some o) = .error .attributeError ∧
      Dode.writeVesta .simple (some o) = .error .attributeError ∧
      Dode.writeVesta .podatm (some o) = .error .attributeError := by
  simp [Ico.writeVesta, Dode.writeVesta, isNoneOrEmpty, hm, h0]

/-- C75: nothing is written for `None` and for an empty object; the result is 0 (1 for an unknown option of dode2). -/
theorem C75_empty {m : Nat} (select : VestaSelect) (o : Option (Obj m)) (h : o = none ∨ o = some []) :
    Ico.writeVesta select o = .ok ⟨0, []⟩ ∧
      Dode.writeVesta select o = .ok ⟨if select = .other then 1 else 0, []⟩ := by
  rcases h with rfl | rfl <;> cases select <;> simp [Ico.writeVesta, Dode.writeVesta, isNoneOrEmpty]

/-- A triangle with an edge of length 11. -/
def exLong : Simplex 3 := ![flatFrac 0 0 1, flatFrac 11 0 1, flatFrac 0 1 1]

theorem flatFrac_okV {x y n : Int} (h : n ≠ 0) : Vec.Ok (flatFrac x y n) := by
  intro i; fin_cases i <;> first | exact h | exact one_ne_zero

theorem exLong_ok : Simplex.Ok exLong := by
  intro i; fin_cases i <;> exact flatFrac_okV (by decide)

/-- C75 fails for long edges in dode2: with the default option edges longer than 10 are missing, here one of length 11;
the edge of length 1 of the same triangle is drawn. -/
theorem C75_fails_long_edge : ∃ mol : VestaMol, Dode.writeVesta .normal (some [exLong]) = .ok ⟨0, [mol]⟩ ∧
    ¬ mol.Draws (Package.dode.perps exLong 0) (Package.dode.perps exLong 1) ∧
    mol.Draws (Package.dode.perps exLong 0) (Package.dode.perps exLong 2) := by
  obtain ⟨mols, h, hl, hm⟩ := C75_dode_normal [exLong] (by simp) (by
    intro s hs; rw [List.mem_singleton.mp hs]; exact exLong_ok)
  obtain ⟨mol, e, -, hd⟩ := hm 0 exLong rfl
  obtain rfl : mols = [mol] := by
    match mols, hl, e with
    | [a], _, e => simpa using e
  have h0 : Package.dode.perps exLong 0 = ![0, 0, 0] := by
    change Package.dode.perp (flatFrac 0 0 1) = _
    rw [perp_flatFrac]; norm_num
  have h1 : Package.dode.perps exLong 1 = ![11, 0, 0] := by
    change Package.dode.perp (flatFrac 11 0 1) = _
    rw [perp_flatFrac]; norm_num
  have h2 : Package.dode.perps exLong 2 = ![0, 1, 0] := by
    change Package.dode.perp (flatFrac 0 1 1) = _
    rw [perp_flatFrac]; norm_num
  refine ⟨mol, h, ?_, ?_⟩
  · rw [hd, h0, h1]
    rintro ⟨hle, -⟩
    have : dist3 ![0, 0, 0] ![11, 0, 0] = 11 := by
      unfold dist3
      rw [show ((![0, 0, 0] : Fin 3 → ℝ) 0 - ![11, 0, 0] 0) ^ 2 + (![0, 0, 0] 1 - ![11, 0, 0] 1) ^ 2 +
        (![0, 0, 0] 2 - ![11, 0, 0] 2) ^ 2 = (11 : ℝ) ^ 2 by simp]
      exact Real.sqrt_sq (by norm_num)
    rw [this] at hle
    norm_num at hle
  · rw [hd]
    refine ⟨?_, 0, 2, by decide, rfl, rfl⟩
    rw [h0, h2]
    have : dist3 ![0, 0, 0] ![0, 1, 0] = 1 := by
      unfold dist3
      rw [show ((![0, 0, 0] : Fin 3 → ℝ) 0 - ![0, 1, 0] 0) ^ 2 + (![0, 0, 0] 1 - ![0, 1, 0] 1) ^ 2 +
        (![0, 0, 0] 2 - ![0, 1, 0] 2) ^ 2 = (1 : ℝ) ^ 2 by simp]
      exact Real.sqrt_sq (by norm_num)
    rw [this]; norm_num

/-- The hypotheses of `C75_ico_edges` hold for two edges of the corner tetrahedron with a common end. -/
example : ∃ mol : VestaMol, Ico.writeVesta .edges (some [![exCorner 0, exCorner 1], ![exCorner 1, exCorner 2]]) =
    .ok ⟨0, [mol]⟩ ∧ mol.atoms.Nodup := by
  obtain ⟨mol, h, h1, -⟩ := C75_ico_edges .edges (by decide) [![exCorner 0, exCorner 1], ![exCorner 1, exCorner 2]] (by simp)
    (by
      intro s hs k
      rcases List.mem_pair.mp hs with rfl | rfl <;> fin_cases k <;>
        first | exact exCorner_ok 0 | exact exCorner_ok 1 | exact exCorner_ok 2)
  exact ⟨mol, h, h1⟩

/-- The hypotheses of `C75_fails_tetrahedron` hold for the corner tetrahedron: its edge from corner 2 to corner 3 is not
drawn although its two ends are. -/
example : ∃ mol : VestaMol, Ico.writeVesta .normal (some [exCorner]) = .ok ⟨0, [mol]⟩ ∧
    ¬ mol.Draws (Package.ico.perps exCorner 2) (Package.ico.perps exCorner 3) := by
  have hinj : Function.Injective (Package.ico.perps exCorner) := by
    rw [perps_exCorner]
    intro i j h
    have h0 := congrFun h 0
    have h1 := congrFun h 1
    have h2 := congrFun h 2
    revert h0 h1 h2
    fin_cases i <;> fin_cases j <;> simp
  obtain ⟨mol, h, hd⟩ := C75_fails_tetrahedron .normal (by decide) exCorner exCorner_ok hinj
  exact ⟨mol, h, by rw [hd]; decide⟩

end PyQC
