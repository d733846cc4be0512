import Verif.Props.Outline
/-!
# C103: border edges of tetrahedra that do not fit face to face
-/
namespace PyQC
open Matrix Ico

/-- Triangles of one plane are in one group. -/
theorem same_group (p : Package) (o : Obj 3) (hprop : ∀ a : Fin o.length, Proper (p.perps (o.get a)))
    {judged : Nat → Nat → Bool} {groups : List (List (Fin o.length))}
    (hj1 : ∀ a b : Fin o.length, judged a b = true → OnePlane (p.perps (o.get a)) (p.perps (o.get b)))
    (hjt : ∀ i j : Fin o.length, OnePlane (p.perps (o.get i)) (p.perps (o.get j)) → judged i j = true)
    (hg : IsGrouping o.length judged groups) {g : List (Fin o.length)} (hgm : g ∈ groups) {a b : Fin o.length} (hag : a ∈ g)
    (hpl : OnePlane (p.perps (o.get b)) (p.perps (o.get a))) : b ∈ g := by
  obtain ⟨g', hgm', hbg⟩ := List.mem_flatten.1 (hg.partition.mem_iff.2 (List.mem_finRange b))
  by_cases hgg : g = g'
  · rw [hgg]; exact hbg
  exfalso
  obtain ⟨lead, rest, e1, -⟩ := hg.group g hgm
  obtain ⟨lead', rest', e2, -⟩ := hg.group g' hgm'
  obtain ⟨n, hn, d, hd⟩ := group_plane (T := fun a => p.perps (o.get a)) hprop hj1 hg hgm
  obtain ⟨n', hn', d', hd'⟩ := group_plane (T := fun a => p.perps (o.get a)) hprop hj1 hg hgm'
  have hlead : OnePlane (p.perps (o.get lead)) (p.perps (o.get lead')) := by
    have s1 : OnePlane (p.perps (o.get lead)) (p.perps (o.get a)) :=
      ⟨n, hn, d, fun k => ⟨hd lead (by rw [e1]; simp) k, hd a hag k⟩⟩
    have s2 : OnePlane (p.perps (o.get b)) (p.perps (o.get lead')) :=
      ⟨n', hn', d', fun k => ⟨hd' b hbg k, hd' lead' (by rw [e2]; simp) k⟩⟩
    exact OnePlane.trans_of (hprop b) (OnePlane.trans_of (hprop a) s1 (OnePlane.symm hpl)) s2
  have key : ∀ {l : List (List (Fin o.length))}, l.Pairwise (fun g h => ∀ a : Fin o.length, a ∈ g.head? →
      ∀ b : Fin o.length, b ∈ h.head? → judged b a = false) → g ∈ l → g' ∈ l →
      (judged lead' lead = false ∨ judged lead lead' = false) := by
    intro l hl
    induction hl with
    | nil => intro h; cases h
    | @cons g₀ l hl0 _ ih =>
      intro m1 m2
      rcases List.mem_cons.1 m1 with rfl | n1
      · rcases List.mem_cons.1 m2 with rfl | n2
        · exact absurd rfl hgg
        · exact .inl (hl0 g' n2 lead (by rw [e1]; rfl) lead' (by rw [e2]; rfl))
      · rcases List.mem_cons.1 m2 with rfl | n2
        · exact .inr (hl0 g n1 lead' (by rw [e2]; rfl) lead (by rw [e1]; rfl))
        · exact ih n1 n2
  rcases key hg.leaders hgm hgm' with h | h
  · rw [hjt _ _ hlead.symm] at h; cases h
  · rw [hjt _ _ hlead] at h; cases h

open Classical in
/-- If every side of every triangle of one plane belongs to another triangle of that plane too, the plane has no border
edge, and an exception is raised. -/
theorem cleaner_closed (p : Package) (draws : Nat → Nat → (n : Nat) → Draws n) (o : Obj 3) (hok : Obj.Ok o)
    (hprop : ∀ a : Fin o.length, Proper (p.perps (o.get a)))
    (hflat : ∀ a ∈ p.corners o, ∀ b ∈ p.corners o, ∀ c ∈ p.corners o, ∀ d ∈ p.corners o,
      |crossProduct (b - a) (c - a) ⬝ᵥ (d - a)| < 1 / 10 ^ 10 → crossProduct (b - a) (c - a) ⬝ᵥ (d - a) = 0)
    (hf : ∀ i j : Fin o.length, FindsTriple p (draws i j) (o.get i) (o.get j)) (a0 : Fin o.length)
    (hclosed : ∀ (a : Fin o.length) (m : Fin 3), OnePlane (p.perps (o.get a)) (p.perps (o.get a0)) →
      ∃ (b : Fin o.length) (k : Fin 3), (b, k) ≠ (a, m) ∧ OnePlane (p.perps (o.get b)) (p.perps (o.get a0)) ∧
        p.perps (o.get b) '' {j | j ≠ k} = p.perps (o.get a) '' {j | j ≠ m}) :
    surfaceCleaner p (surfaceCop p draws o) o = .error .valueError := by
  have hok' : ∀ a : Fin o.length, Simplex.Ok (o.get a) := fun a => hok _ (List.get_mem _ _)
  have hne : o ≠ [] := by rintro rfl; exact a0.elim0
  have hex : ∀ i j, ∃ b, surfaceCop p draws o i j = .ok b := fun i j => by
    unfold surfaceCop
    by_cases hi : i < o.length
    · by_cases hj : j < o.length
      · exact coplanarCheckTwoTriangles_ok p _ (by rw [List.getD_eq_getElem _ _ hi]; exact hok _ (List.getElem_mem _))
          (by rw [List.getD_eq_getElem _ _ hj]; exact hok _ (List.getElem_mem _))
      · exact coplanarCheckTwoTriangles_ok p _ (by rw [List.getD_eq_getElem _ _ hi]; exact hok _ (List.getElem_mem _))
          (by rw [List.getD_eq_default _ _ (by omega)]; intro i c; simp [zeroVec])
    · by_cases hj : j < o.length
      · exact coplanarCheckTwoTriangles_ok p _ (by rw [List.getD_eq_default _ _ (by omega)]; intro i c; simp [zeroVec])
          (by rw [List.getD_eq_getElem _ _ hj]; exact hok _ (List.getElem_mem _))
      · exact coplanarCheckTwoTriangles_ok p _ (by rw [List.getD_eq_default _ _ (by omega)]; intro i c; simp [zeroVec])
          (by rw [List.getD_eq_default _ _ (by omega)]; intro i c; simp [zeroVec])
  choose judged hj using hex
  have hjc : ∀ a b : Fin o.length, coplanarCheckTwoTriangles p (draws a b) (o.get a) (o.get b) = .ok (judged a b) := fun a b => by
    have := hj a b
    unfold surfaceCop at this
    rwa [List.getD_eq_getElem _ _ a.2, List.getD_eq_getElem _ _ b.2] at this
  have hj1 : ∀ a b : Fin o.length, judged a b = true → OnePlane (p.perps (o.get a)) (p.perps (o.get b)) := fun a b hab =>
    twoTriangles_true hflat (hok' a) (hok' b) (fun i => ⟨_, List.get_mem _ _, i, rfl⟩) (fun i => ⟨_, List.get_mem _ _, i, rfl⟩)
      ((hjc a b).trans (by rw [hab]))
  have hjt : ∀ i j : Fin o.length, OnePlane (p.perps (o.get i)) (p.perps (o.get j)) → judged i j = true := fun i j hij =>
    Except.ok.inj ((hjc i j).symm.trans (judged_true (hok' i) (hok' j) (hf i j) hij))
  obtain ⟨groups, h1, hg⟩ := C28_partition (surfaceCop p draws o) judged o hne fun i j _ _ => hj i j
  obtain ⟨g, hgm, hag⟩ := List.mem_flatten.1 (hg.partition.mem_iff.2 (List.mem_finRange a0))
  have hbd : ∀ G ∈ groups.map (fun g => g.map o.get), borderEdges p G =
      .ok ((uniqueBy (fun s => List.ofFn (p.centroidPerp s)) (G.flatMap triangleEdges)).filter
        fun e => decide (∃! j, sideSet p G j = Set.range (p.perps e))) := by
    intro G hG
    obtain ⟨g, -, rfl⟩ := List.mem_map.1 hG
    have hmem : ∀ t ∈ g.map o.get, ∃ a, o.get a = t := fun t ht => (List.mem_map.1 ht).imp fun _ h => h.2
    refine borderEdges_ok p (fun t ht => ?_) (fun t ht => ?_)
    · obtain ⟨a, rfl⟩ := hmem t ht
      exact hok' a
    · obtain ⟨a, rfl⟩ := hmem t ht
      exact Proper.injective (hprop a)
  unfold surfaceCleaner
  rw [h1, bind_ok', fillList_ok hbd, bind_ok', if_pos]
  rw [List.any_eq_true]
  refine ⟨_, List.mem_map.2 ⟨_, List.mem_map.2 ⟨g, hgm, rfl⟩, rfl⟩, ?_⟩
  rw [List.isEmpty_iff, List.filter_eq_nil_iff]
  intro e he
  rw [decide_eq_true_eq]
  rintro ⟨j, hj', huniq⟩
  have hpos : ∀ i : Fin (g.map o.get).length, ∃ a ∈ g, (g.map o.get).get i = o.get a ∧ g[(i : Nat)]? = some a := fun i => by
    have hi : (i : Nat) < g.length := by simpa using i.2
    exact ⟨g[(i : Nat)], List.getElem_mem _, by simp, by simp⟩
  obtain ⟨a, ha, e1, p1⟩ := hpos j.1
  obtain ⟨n, hn, d, hd⟩ := group_plane (T := fun a => p.perps (o.get a)) hprop hj1 hg hgm
  obtain ⟨b, k, hbk, hpl, himg⟩ := hclosed a j.2 ⟨n, hn, d, fun k => ⟨hd a ha k, hd a0 hag k⟩⟩
  have hb : b ∈ g := same_group p o hprop hj1 hjt hg hgm hag hpl
  obtain ⟨i, hi, hib⟩ := List.getElem_of_mem hb
  have hi' : i < (g.map o.get).length := by simpa using hi
  have := huniq (⟨i, hi'⟩, k) (by
    rw [← hj']
    unfold sideSet
    rw [e1]
    have e2 : (g.map o.get).get ⟨i, hi'⟩ = o.get b := by simp [hib]
    simp only [e2]
    have h3 : ∀ (t : Simplex 3) (k : Fin 3), {x | ∃ i, i ≠ k ∧ p.perp (t i) = x} = p.perps t '' {j | j ≠ k} := fun t k => rfl
    rw [h3, h3, himg])
  apply hbk
  have h4 : (⟨i, hi'⟩ : Fin (g.map o.get).length) = j.1 := congrArg Prod.fst this
  have h5 : k = j.2 := congrArg Prod.snd this
  rw [h5]
  refine congrArg (·, j.2) ?_
  rw [← h4] at p1
  have p1' : g[i]? = some a := p1
  rw [List.getElem?_eq_getElem hi, hib] at p1'
  exact Option.some.inj p1'

/-- The same for an object with corners on a grid, from integer checks: the faces in the plane `m · x = d` have no partner,
and each of their sides is a side of another of them. -/
theorem border_error_grid (o : Obj 4) (A : Fin o.length → Fin 4 → Fin 3 → ℤ) (n : ℕ) (hn : 0 < n) (hn3 : n ^ 3 ≤ 10 ^ 10)
    (hA : ∀ a i j, Package.ico.perp (o.get a i) j = A a i j / n) (h : WellFormed o)
    (hclose : ∀ i j, Close (Package.ico.centroidPerp (face o i)) (Package.ico.centroidPerp (face o j)) →
      Set.range (Package.ico.perps (face o i)) = Set.range (Package.ico.perps (face o j)))
    (m : Fin 3 → ℤ) (hm : m ≠ 0) (d : ℤ) (f0 : Fin o.length × Fin 4) (hf0 : ∀ k, dotZ m (A f0.1 (f0.2.succAbove k)) = d)
    (hdet : ∀ f : Fin o.length × Fin 4, (∀ k, detZ ![A f0.1 (f0.2.succAbove 0), A f0.1 (f0.2.succAbove 1), A f0.1 (f0.2.succAbove 2),
      A f.1 (f.2.succAbove k)] = 0) → ∀ k, dotZ m (A f.1 (f.2.succAbove k)) = d)
    (hunp : ∀ f : Fin o.length × Fin 4, (∀ k, dotZ m (A f.1 (f.2.succAbove k)) = d) → ∀ f', f' ≠ f →
      ∃ c, (∑ k, A f'.1 (f'.2.succAbove k) c) ≠ ∑ k, A f.1 (f.2.succAbove k) c)
    (hside : ∀ f : Fin o.length × Fin 4, (∀ k, dotZ m (A f.1 (f.2.succAbove k)) = d) → ∀ l : Fin 3,
      ∃ f' : Fin o.length × Fin 4, (∀ k, dotZ m (A f'.1 (f'.2.succAbove k)) = d) ∧ ∃ k : Fin 3, (f', k) ≠ (f, l) ∧
        SameZ (fun i => A f'.1 (f'.2.succAbove (k.succAbove i))) (fun i => A f.1 (f.2.succAbove (l.succAbove i))))
    (draws : Nat → Nat → (n : Nat) → Draws n)
    (hf : ∀ i j : Nat, ∀ f g, FindsTriple .ico (draws i j) (face o f) (face o g)) :
    generateBorderEdges draws o = .error .valueError := by
  have hn0 : (0 : ℝ) < n := by exact_mod_cast hn
  have hface : ∀ (i : Fin o.length × Fin 4) k c, Package.ico.perps (face o i) k c = A i.1 (i.2.succAbove k) c / n :=
    fun i k c => hA i.1 (i.2.succAbove k) c
  have hcent : ∀ (i : Fin o.length × Fin 4) c, Package.ico.centroidPerp (face o i) c = ((∑ k, A i.1 (i.2.succAbove k) c : ℤ) : ℝ) / (3 * n) := by
    intro i c
    change ((((3 : ℕ) : ℝ)⁻¹) • ∑ k, Package.ico.perps (face o i) k) c = _
    rw [Pi.smul_apply, Finset.sum_apply, Finset.sum_congr rfl fun k _ => hface i k c, ← Finset.sum_div, smul_eq_mul]
    push_cast
    field_simp
  have hplane : ∀ f : Fin o.length × Fin 4, (∀ k, dotZ m (A f.1 (f.2.succAbove k)) = d) →
      ∀ k, (fun c => (m c : ℝ)) ⬝ᵥ Package.ico.perps (face o f) k = d / n := by
    intro f h k
    have e : (dotZ m (A f.1 (f.2.succAbove k)) : ℝ) = d := by exact_mod_cast h k
    simp only [dotProduct, hface, Fin.sum_univ_three]
    rw [← e]
    simp only [dotZ]
    push_cast
    field_simp
  have hmR : (fun c => (m c : ℝ)) ≠ 0 := fun e => hm (funext fun c => by have := congrFun e c; simpa using this)
  obtain ⟨J, hJ1, hJ2, hJ3⟩ := surface_faces h hclose
  unfold generateBorderEdges
  rw [hJ1, bind_ok']
  have hmem : ∀ t ∈ J.map (face o), ∃ j, face o j = t := fun t ht => (List.mem_map.1 ht).imp fun _ h => h.2
  have hcor : ∀ x ∈ Package.ico.corners (J.map (face o)), ∃ a i, ∀ j, x j = A a i j / n := by
    rintro x ⟨t, ht, i, rfl⟩
    obtain ⟨f, rfl⟩ := hmem t ht
    exact ⟨f.1, f.2.succAbove i, hA f.1 _⟩
  have hflatJ : ∀ f, (∀ k, dotZ m (A f.1 (f.2.succAbove k)) = d) → f ∈ J := by
    intro f h3
    rw [hJ3]
    intro f' hne he
    obtain ⟨c, hc⟩ := hunp f h3 f' hne
    apply hc
    have e := congrFun he c
    rw [hcent f' c, hcent f c, div_left_inj' (by positivity)] at e
    exact_mod_cast e
  have hpos : ∀ f ∈ J, ∃ a : Fin (J.map (face o)).length, (J.map (face o)).get a = face o f ∧ J[(a : Nat)]? = some f := by
    intro f hfJ
    obtain ⟨i, hi, e⟩ := List.getElem_of_mem hfJ
    exact ⟨⟨i, by simpa using hi⟩, by simp [e], by simp [e, hi]⟩
  obtain ⟨a0, ha0, -⟩ := hpos f0 (hflatJ _ hf0)
  refine cleaner_closed .ico draws _ ?_ ?_ ?_ ?_ a0 ?_
  · intro t ht
    obtain ⟨f, rfl⟩ := hmem t ht
    exact fun i => h.ok _ (List.get_mem _ _) _
  · intro a
    obtain ⟨f, e⟩ := hmem _ (List.get_mem _ a)
    rw [← e]
    exact proper_face (q := Package.ico.perps (o.get f.1)) (det_of_wf h _ (List.get_mem _ _)) f.2
  · intro a ha b hb c hc d hd h
    obtain ⟨a1, a2, ha⟩ := hcor a ha
    obtain ⟨b1, b2, hb⟩ := hcor b hb
    obtain ⟨c1, c2, hc⟩ := hcor c hc
    obtain ⟨d1, d2, hd⟩ := hcor d hd
    exact flat_grid hn hn3 ha hb hc hd h
  · intro i j
    obtain ⟨f, e1⟩ := hmem _ (List.get_mem _ i)
    obtain ⟨g, e2⟩ := hmem _ (List.get_mem _ j)
    rw [← e1, ← e2]
    exact hf i j f g
  · intro a l hpl
    have ha : (a : Nat) < J.length := by simpa using a.2
    have ea : (J.map (face o)).get a = face o (J[(a : Nat)]) := by simp
    rw [ea, ha0] at hpl
    have h3 := hdet (J[(a : Nat)]) fun k => by
      obtain ⟨v, hv, e, hd⟩ := hpl
      exact det_grid (a := fun k => A f0.1 (f0.2.succAbove k)) (b := A _ _) hn hv (fun x => (hd x).2) (hd k).1 (hface f0) (hface _ k)
    obtain ⟨f', h3', k, hne, hsame⟩ := hside (J[(a : Nat)]) h3 l
    obtain ⟨b, eb, pb⟩ := hpos f' (hflatJ f' h3')
    refine ⟨b, k, ?_, ?_, ?_⟩
    · rintro e
      have h1 : b = a := congrArg Prod.fst e
      have h2 : k = l := congrArg Prod.snd e
      subst h1 h2
      rw [List.getElem?_eq_getElem ha] at pb
      exact hne (by rw [← Option.some.inj pb])
    · rw [eb, ha0]
      exact ⟨_, hmR, _, fun k => ⟨hplane f' h3' k, hplane f0 hf0 k⟩⟩
    · rw [ea, eb]
      have himg : ∀ (f : Fin o.length × Fin 4) (k : Fin 3), Package.ico.perps (face o f) '' {j | j ≠ k} =
          Set.range fun i => Package.ico.perps (face o f) (k.succAbove i) := by
        intro f k
        ext x
        constructor
        · rintro ⟨j, hj, rfl⟩
          obtain ⟨i, rfl⟩ := Fin.exists_succAbove_eq hj
          exact ⟨i, rfl⟩
        · rintro ⟨i, rfl⟩
          exact ⟨_, Fin.succAbove_ne _ _, rfl⟩
      rw [himg, himg]
      exact SameZ.range (n := n) (fun i c => hface f' _ c) (fun i c => hface _ _ c) hsame

/-! ## The object -/

/-- A tetrahedron over a triangle and, below it, the three tetrahedra in which another one over the same triangle is
divided by a point inside the triangle. -/
def exPile : Obj 4 :=
  [![cart 0 0 0 1, cart 3 0 0 1, cart 0 3 0 1, cart 0 0 3 1], ![cart 0 0 0 1, cart 3 0 0 1, cart 1 1 0 1, cart 1 1 (-1) 1],
   ![cart 3 0 0 1, cart 0 3 0 1, cart 1 1 0 1, cart 1 1 (-1) 1], ![cart 0 3 0 1, cart 0 0 0 1, cart 1 1 0 1, cart 1 1 (-1) 1]]

def exPileZ : Fin 4 → Fin 4 → Fin 3 → ℤ :=
  ![![![0, 0, 0], ![3, 0, 0], ![0, 3, 0], ![0, 0, 3]], ![![0, 0, 0], ![3, 0, 0], ![1, 1, 0], ![1, 1, -1]],
    ![![3, 0, 0], ![0, 3, 0], ![1, 1, 0], ![1, 1, -1]], ![![0, 3, 0], ![0, 0, 0], ![1, 1, 0], ![1, 1, -1]]]

theorem exPile_perp (a : Fin 4) (i : Fin 4) (j : Fin 3) : Package.ico.perp (exPile.get a i) j = (exPileZ a i j : ℝ) / (1 : ℕ) := by
  fin_cases a <;> fin_cases i <;> refine (congrFun (perp_cart _ _ _ _) j).trans ?_ <;> fin_cases j <;> simp [exPileZ]

theorem exPile_ok : Obj.Ok exPile := by decide

theorem exPile_wf : WellFormed exPile := by
  refine wellFormed_grid exPile exPileZ 1 (by norm_num) (by simp [exPile]) exPile_ok exPile_perp (by decide) ?_
  have : ∀ a b : Fin 4, a < b → ∃ m ∈ ([![0, 0, -1], ![1, -1, 0], ![1, 2, 0], ![-1, 1, 0], ![2, 1, 0], ![-2, -1, 0], ![-1, -2, 0]] :
      List (Fin 3 → ℤ)), SepZ (exPileZ a) (exPileZ b) m := by decide +kernel
  intro a b hab
  obtain ⟨m, -, hm⟩ := this a b hab
  exact ⟨m, hm⟩

theorem exPile_faces (i j : Fin exPile.length × Fin 4)
    (h : Close (Package.ico.centroidPerp (face exPile i)) (Package.ico.centroidPerp (face exPile j))) :
    Set.range (Package.ico.perps (face exPile i)) = Set.range (Package.ico.perps (face exPile j)) := by
  refine faces_grid exPile exPileZ 1 3 (by norm_num) exPile_perp (by decide) (by norm_num) ?_ i j h
  have : ∀ i j : Fin 4 × Fin 4, (∀ c, ∑ k, exPileZ i.1 (i.2.succAbove k) c = ∑ k, exPileZ j.1 (j.2.succAbove k) c) →
      SameZ (fun k => exPileZ i.1 (i.2.succAbove k)) (fun k => exPileZ j.1 (j.2.succAbove k)) := by decide +kernel
  exact this

theorem exPile_finds (f g : Fin exPile.length × Fin 4) :
    FindsTriple .ico everyTriple (face exPile f) (face exPile g) := by
  have : ∀ f : Fin 4 × Fin 4, (fun c => exPileZ f.1 (f.2.succAbove 1) c - exPileZ f.1 (f.2.succAbove 0) c) ⨯₃
      (fun c => exPileZ f.1 (f.2.succAbove 2) c - exPileZ f.1 (f.2.succAbove 0) c) ≠ 0 := by decide +kernel
  exact findsTriple_all (cross_big (A := fun k => exPileZ f.1 (f.2.succAbove k)) (n := 1) (by norm_num) (by norm_num)
    (fun i => exPile_perp f.1 _) (this f))

/-- C103: fitting face to face is needed. For tetrahedra that do not overlap, but meet in parts of their faces,
`generate_border_edges` may raise ValueError: here every edge of the plane between the upper and the lower part belongs to
two faces. -/
theorem C103_not_fitting (draws : Nat → Nat → (n : Nat) → Draws n)
    (hf : ∀ i j : Nat, ∀ f g, FindsTriple .ico (draws i j) (face exPile f) (face exPile g)) :
    WellFormed exPile ∧ generateBorderEdges draws exPile = .error .valueError := by
  refine ⟨exPile_wf, border_error_grid exPile exPileZ 1 (by norm_num) (by norm_num) exPile_perp exPile_wf exPile_faces
    ![0, 0, 1] (by decide) 0 ((0 : Fin 4), 3) ?_ ?_ ?_ ?_ draws hf⟩
  · have : ∀ k, dotZ ![0, 0, 1] (exPileZ 0 ((3 : Fin 4).succAbove k)) = 0 := by decide +kernel
    exact this
  · have : ∀ f : Fin 4 × Fin 4, (∀ k, detZ ![exPileZ 0 ((3 : Fin 4).succAbove 0), exPileZ 0 ((3 : Fin 4).succAbove 1),
        exPileZ 0 ((3 : Fin 4).succAbove 2), exPileZ f.1 (f.2.succAbove k)] = 0) →
        ∀ k, dotZ ![0, 0, 1] (exPileZ f.1 (f.2.succAbove k)) = 0 := by decide +kernel
    exact this
  · have : ∀ f : Fin 4 × Fin 4, (∀ k, dotZ ![0, 0, 1] (exPileZ f.1 (f.2.succAbove k)) = 0) → ∀ f', f' ≠ f →
        ∃ c, (∑ k, exPileZ f'.1 (f'.2.succAbove k) c) ≠ ∑ k, exPileZ f.1 (f.2.succAbove k) c := by decide +kernel
    exact this
  · have : ∀ f : Fin 4 × Fin 4, (∀ k, dotZ ![0, 0, 1] (exPileZ f.1 (f.2.succAbove k)) = 0) → ∀ l : Fin 3,
        ∃ f' : Fin 4 × Fin 4, (∀ k, dotZ ![0, 0, 1] (exPileZ f'.1 (f'.2.succAbove k)) = 0) ∧ ∃ k : Fin 3, (f', k) ≠ (f, l) ∧
          SameZ (fun i => exPileZ f'.1 (f'.2.succAbove (k.succAbove i))) (fun i => exPileZ f.1 (f.2.succAbove (l.succAbove i))) := by
      decide +kernel
    exact this

/-- C103: the convex hull and the simplification of that object, which use its border edges, raise the same exception,
whatever the triangulation library does. -/
theorem C103_not_fitting_hull (draws : Nat → Nat → (n : Nat) → Draws n)
    (hf : ∀ i j : Nat, ∀ f g, FindsTriple .ico (draws i j) (face exPile f) (face exPile g)) (hl : Delaunay)
    (draws' : Simplex 4 → Simplex 4 → (n : Nat) → Draws n) (delaunay : Simplex 4 → Simplex 4 → Delaunay) :
    generateConvexHull draws hl exPile = .error .valueError ∧
      simplification draws hl draws' delaunay exPile = .error .valueError := by
  have h1 : generateConvexHull draws hl exPile = .error .valueError := by
    unfold generateConvexHull
    rw [(C103_not_fitting draws hf).2, bind_error']
  refine ⟨h1, ?_⟩
  obtain ⟨v, hv⟩ : ∃ v, objVolume6d (.d4 exPile) = .ok v := ⟨some ⟨6, 0, 1⟩, by decide +kernel⟩
  unfold simplification
  rw [if_neg (by simp [exPile]), hv, bind_ok', h1, bind_error']

/-- The hypothesis of `C103_not_fitting` and `C103_not_fitting_hull` is met. -/
example : generateBorderEdges (fun _ _ => everyTriple) exPile = .error .valueError :=
  (C103_not_fitting _ fun _ _ => exPile_finds).2

end PyQC
