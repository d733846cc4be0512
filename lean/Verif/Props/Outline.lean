import Verif.Lemmas.Outline
import Verif.Props.Boundary
import Verif.Props.Checks
import Verif.Props.PlanarHull
/-!
# C102, C103: the outline and the border edges cover exactly the edges of the flat parts
-/
namespace PyQC
open Matrix Topology Ico

theorem region_spread (p : Package) (o : Obj 3) : p.region o = spread (fun a : Fin o.length => p.perps (o.get a)) := by
  ext x
  constructor
  · rintro ⟨t, ht, hx⟩
    obtain ⟨a, rfl⟩ := List.get_of_mem ht
    exact ⟨a, hx⟩
  · rintro ⟨a, hx⟩
    exact ⟨_, List.get_mem _ _, hx⟩

theorem OnePlane.trans_of {S T U : Fin 3 → Fin 3 → ℝ} (hT : Proper T) (h1 : OnePlane S T) (h2 : OnePlane T U) : OnePlane S U := by
  obtain ⟨n, hn, d, h1⟩ := h1
  obtain ⟨m, hm, e, h2⟩ := h2
  refine ⟨crossProduct (T 1 - T 0) (T 2 - T 0), hT, crossProduct (T 1 - T 0) (T 2 - T 0) ⬝ᵥ T 0, fun k => ⟨?_, ?_⟩⟩
  · have := plane_unique hn (fun i => (h1 i).2) (h1 k).1
    rw [dotProduct_sub] at this
    linarith
  · have := plane_unique hm (fun i => (h2 i).1) (h2 k).2
    rw [dotProduct_sub] at this
    linarith

theorem OnePlane.symm {S T : Fin 3 → Fin 3 → ℝ} (h : OnePlane S T) : OnePlane T S := by
  obtain ⟨n, hn, d, h⟩ := h
  exact ⟨n, hn, d, fun k => ⟨(h k).2, (h k).1⟩⟩

/-- A draw that finds a triple recognises two triangles of one plane. -/
theorem judged_true {p : Package} {draws : (n : Nat) → Draws n} {s t : Simplex 3} (hs : Simplex.Ok s) (ht : Simplex.Ok t)
    (hf : FindsTriple p draws s t) (h : OnePlane (p.perps s) (p.perps t)) : coplanarCheckTwoTriangles p draws s t = .ok true := by
  obtain ⟨pts, hnd, hmem, ⟨h1, -⟩ | ⟨-, hl, h2⟩⟩ := C49_two p draws s t hs ht
  · exact h1
  · exfalso
    obtain ⟨d, hd, a, b, c, ha, hb, hc, k, hk⟩ := hf pts hnd hmem hl
    obtain ⟨n, hn, e, h⟩ := h
    have := h2 ⟨n, hn, e, fun x hx => by
      obtain ⟨i, rfl | rfl⟩ := (hmem x).1 hx
      · exact (h i).1
      · exact (h i).2⟩ d hd a b c ha hb hc k
    linarith

/-- The sides that belong to one triangle of their plane only. -/
def loneSides (p : Package) (o : Obj 3) : Set (Fin 3 → ℝ) :=
  {x | ∃ a : Fin o.length, ∃ m, (∀ b k, (∃ n : Fin 3 → ℝ, n ≠ 0 ∧ ∃ d, ∀ k, n ⬝ᵥ p.perps (o.get b) k = d ∧
      n ⬝ᵥ p.perps (o.get a) k = d) →
    p.perps (o.get b) '' {j | j ≠ k} = p.perps (o.get a) '' {j | j ≠ m} → (b, k) = (a, m)) ∧
    x ∈ solid (fun i => p.perps (o.get a) (m.succAbove i))}

/-- The sides that no other triangle of the same group has, when triangles of a group lie in one plane. -/
theorem groups_lone (p : Package) (o : Obj 3) (hprop : ∀ a : Fin o.length, Proper (p.perps (o.get a)))
    {judged : Nat → Nat → Bool} {groups : List (List (Fin o.length))}
    (hj1 : ∀ a b : Fin o.length, judged a b = true → OnePlane (p.perps (o.get a)) (p.perps (o.get b)))
    (hg : IsGrouping o.length judged groups) {S : Set (Fin 3 → ℝ)}
    (hr : S = {x | ∃ g ∈ groups, ∃ a ∈ g, ∃ m, (∀ b ∈ g, ∀ k,
          p.perps (o.get b) '' {j | j ≠ k} = p.perps (o.get a) '' {j | j ≠ m} → (b, k) = (a, m)) ∧
          x ∈ solid (fun i => p.perps (o.get a) (m.succAbove i))}) :
    loneSides p o ⊆ S ∧
      ((∀ i j : Fin o.length, OnePlane (p.perps (o.get i)) (p.perps (o.get j)) → judged i j = true) → S = loneSides p o) := by
  have hsub : loneSides p o ⊆ S := by
    rw [hr]
    rintro x ⟨a, m, hl, hx⟩
    obtain ⟨g, hgm, hag⟩ := List.mem_flatten.1 (hg.partition.mem_iff.2 (List.mem_finRange a))
    obtain ⟨n, hn, d, hd⟩ := group_plane (T := fun a => p.perps (o.get a)) hprop hj1 hg hgm
    exact ⟨g, hgm, a, hag, m, fun b hb k e => hl b k ⟨n, hn, d, fun k => ⟨hd b hb k, hd a hag k⟩⟩ e, hx⟩
  refine ⟨hsub, fun hjt => Set.Subset.antisymm ?_ hsub⟩
  rw [hr]
  rintro x ⟨g, hgm, a, hag, m, hl, hx⟩
  refine ⟨a, m, fun b k hpl e => hl b ?_ k e, hx⟩
  obtain ⟨g', hgm', hbg⟩ := List.mem_flatten.1 (hg.partition.mem_iff.2 (List.mem_finRange b))
  by_cases hgg : g = g'
  · rw [hgg]; exact hbg
  exfalso
  obtain ⟨lead, rest, e1, -⟩ := hg.group g hgm
  obtain ⟨lead', rest', e2, -⟩ := hg.group g' hgm'
  obtain ⟨n, hn, d, hd⟩ := group_plane (T := fun a => p.perps (o.get a)) hprop hj1 hg hgm
  obtain ⟨n', hn', d', hd'⟩ := group_plane (T := fun a => p.perps (o.get a)) hprop hj1 hg hgm'
  have hlead : OnePlane (p.perps (o.get lead)) (p.perps (o.get lead')) := by
    have s1 : OnePlane (p.perps (o.get lead)) (p.perps (o.get a)) :=
      ⟨n, hn, d, fun k => ⟨hd lead (by rw [e1]; simp) k, hd a hag k⟩⟩
    have s2 : OnePlane (p.perps (o.get b)) (p.perps (o.get lead')) :=
      ⟨n', hn', d', fun k => ⟨hd' b hbg k, hd' lead' (by rw [e2]; simp) k⟩⟩
    exact OnePlane.trans_of (hprop b) (OnePlane.trans_of (hprop a) s1 (OnePlane.symm hpl)) s2
  have key : ∀ {l : List (List (Fin o.length))}, l.Pairwise (fun g h => ∀ a : Fin o.length, a ∈ g.head? →
      ∀ b : Fin o.length, b ∈ h.head? → judged b a = false) → g ∈ l → g' ∈ l →
      (judged lead' lead = false ∨ judged lead lead' = false) := by
    intro l hl
    induction hl with
    | nil => intro h; cases h
    | @cons g₀ l hl0 _ ih =>
      intro m1 m2
      rcases List.mem_cons.1 m1 with rfl | n1
      · rcases List.mem_cons.1 m2 with rfl | n2
        · exact absurd rfl hgg
        · exact .inl (hl0 g' n2 lead (by rw [e1]; rfl) lead' (by rw [e2]; rfl))
      · rcases List.mem_cons.1 m2 with rfl | n2
        · exact .inr (hl0 g n1 lead' (by rw [e2]; rfl) lead (by rw [e1]; rfl))
        · exact ih n1 n2
  rcases key hg.leaders hgm hgm' with h | h
  · rw [hjt _ _ hlead.symm] at h; cases h
  · rw [hjt _ _ hlead] at h; cases h

theorem cleaner_region (p : Package) (draws : Nat → Nat → (n : Nat) → Draws n) (o : Obj 3) (h : SharpTriangles p o) :
    ∃ out, surfaceCleaner p (surfaceCop p draws o) o = .ok out ∧ loneSides p o ⊆ p.region out ∧
      ((∀ i j : Fin o.length, FindsTriple p (draws i j) (o.get i) (o.get j)) → p.region out = loneSides p o) := by
  obtain ⟨out, h1, -, -, -, -, judged, groups, hj, hg, hr⟩ := cleaner_full p draws o h
  have hok : ∀ a : Fin o.length, Simplex.Ok (o.get a) := fun a => h.ok _ (List.get_mem _ _)
  have hprop : ∀ a : Fin o.length, Proper (p.perps (o.get a)) := fun a => h.proper _ (List.get_mem _ _)
  have hj1 : ∀ a b : Fin o.length, judged a b = true → OnePlane (p.perps (o.get a)) (p.perps (o.get b)) := fun a b hab =>
    twoTriangles_true h.flat (hok a) (hok b) (fun i => ⟨_, List.get_mem _ _, i, rfl⟩) (fun i => ⟨_, List.get_mem _ _, i, rfl⟩)
      ((hj a b).trans (by rw [hab]))
  obtain ⟨h2, h3⟩ := groups_lone p o hprop hj1 hg hr
  exact ⟨out, h1, h2, fun hf => h3 fun i j hij =>
    Except.ok.inj ((hj i j).symm.trans (judged_true (hok i) (hok j) (hf i j) hij))⟩

theorem creases_sub_lone (p : Package) (o : Obj 3) (h : SharpTriangles p o) : creases (p.region o) ⊆ loneSides p o := by
  rw [region_spread]
  exact creases_lone (T := fun a : Fin o.length => p.perps (o.get a)) (fun a => h.proper _ (List.get_mem _ _)) h.apart

theorem creases_eq_lone (p : Package) (o : Obj 3) (h : SharpTriangles p o) (he : EdgeToEdge p o) :
    creases (p.region o) = loneSides p o := by
  refine Set.Subset.antisymm (creases_sub_lone p o h) ?_
  rw [region_spread]
  exact lone_creases (T := fun a : Fin o.length => p.perps (o.get a)) (fun a => h.proper _ (List.get_mem _ _)) h.apart
    fun a b i j k hij => he _ (List.get_mem _ _) i j hij _ ⟨_, List.get_mem _ _, k, rfl⟩

theorem lone_frontier (p : Package) (o : Obj 3) (h : SharpTriangles p o)
    (hp : ∃ n : Fin 3 → ℝ, n ≠ 0 ∧ ∃ d, ∀ x ∈ p.corners o, n ⬝ᵥ x = d) :
    intrinsicFrontier ℝ (p.region o) ⊆ loneSides p o ∧
      (EdgeToEdge p o → loneSides p o ⊆ intrinsicFrontier ℝ (p.region o)) := by
  obtain ⟨n, hn, d, hd⟩ := hp
  have hprop : ∀ a : Fin o.length, Proper (p.perps (o.get a)) := fun a => h.proper _ (List.get_mem _ _)
  have hT : ∀ (a : Fin o.length) i, n ⬝ᵥ p.perps (o.get a) i = d := fun a i => hd _ ⟨_, List.get_mem _ _, i, rfl⟩
  have hno : ∀ a b : Fin o.length, a ≠ b → inside (p.perps (o.get a)) ∩ inside (p.perps (o.get b)) = ∅ := fun a b hab =>
    h.apart a b hab ⟨n, hn, d, fun k => ⟨hT a k, hT b k⟩⟩
  obtain ⟨t, ht⟩ := List.exists_mem_of_ne_nil _ h.ne
  obtain ⟨a0, -⟩ := List.get_of_mem ht
  rw [region_spread, intrinsicFrontier_plane (hprop a0) hn (hT a0) (R := spread fun a : Fin o.length => p.perps (o.get a))
    (by rintro x ⟨a, hx⟩; exact plane_of_solid (hT a) hx) (fun x hx => ⟨a0, hx⟩) spread_closed]
  constructor
  · rintro x ⟨hx, hi⟩
    obtain ⟨a, m, hl, hs⟩ := planar_lone hprop hn hT hno hx hi
    exact ⟨a, m, fun b k _ e => hl b k e, hs⟩
  · rintro he x ⟨a, m, hl, hx⟩
    refine ⟨⟨a, side_sub _ m hx⟩, lone_not_inner hprop hn hT hno (fun a b i j k hij =>
      he _ (List.get_mem _ _) i j hij _ ⟨_, List.get_mem _ _, k, rfl⟩) (a := a) (m := m) ?_ hx⟩
    exact fun b k e => hl b k ⟨n, hn, d, fun k => ⟨hT b k, hT a k⟩⟩ e

/-- C102: in dode2, for triangles of one plane that do not overlap, whatever the random draws, the segments returned by
`outline` cover the boundary of the object in its plane. -/
theorem C102_cover (draws : Nat → Nat → (n : Nat) → Draws n) (o : Obj 3) (h : SharpTriangles .dode o)
    (hp : ∃ n : Fin 3 → ℝ, n ≠ 0 ∧ ∃ d, ∀ x ∈ Package.dode.corners o, n ⬝ᵥ x = d) :
    ∃ out, outline draws o = .ok out ∧ intrinsicFrontier ℝ (Package.dode.region o) ⊆ Package.dode.region out := by
  obtain ⟨out, h1, h2, -⟩ := cleaner_region .dode draws o h
  exact ⟨out, h1, (lone_frontier .dode o h hp).1.trans h2⟩

/-- C102: if moreover the triangles fit edge to edge and the random draws find a triple that is not nearly collinear,
the segments cover exactly the boundary. -/
theorem C102_outline (draws : Nat → Nat → (n : Nat) → Draws n) (o : Obj 3) (h : SharpTriangles .dode o)
    (hp : ∃ n : Fin 3 → ℝ, n ≠ 0 ∧ ∃ d, ∀ x ∈ Package.dode.corners o, n ⬝ᵥ x = d) (he : EdgeToEdge .dode o)
    (hf : ∀ i j : Fin o.length, FindsTriple .dode (draws i j) (o.get i) (o.get j)) :
    ∃ out, outline draws o = .ok out ∧ Package.dode.region out = intrinsicFrontier ℝ (Package.dode.region o) := by
  obtain ⟨out, h1, -, h2⟩ := cleaner_region .dode draws o h
  obtain ⟨h3, h4⟩ := lone_frontier .dode o h hp
  exact ⟨out, h1, by rw [h2 hf]; exact Set.Subset.antisymm (h4 he) h3⟩

/-- C103: for tetrahedra that fit together, whatever the random draws, the segments returned by `generate_border_edges`
cover the edges of all flat parts of the boundary of the object. -/
theorem C103_cover (draws : Nat → Nat → (n : Nat) → Draws n) (o : Obj 4) (h : WellFormed o) (hs : Sharp o) :
    ∃ out, generateBorderEdges draws o = .ok out ∧
      creases (frontier (Package.ico.region o)) ⊆ Package.ico.region out := by
  obtain ⟨J, hJ1, hJ2, hJ3⟩ := surface_wf h hs
  obtain ⟨s, hs1, hs2⟩ := C101_boundary o h hs.faceToFace
  rw [hJ1] at hs1
  cases hs1
  have hsh := surface_sharp h hs hJ2 hJ3
  obtain ⟨out, h1, h2, -⟩ := cleaner_region .ico draws _ hsh
  refine ⟨out, ?_, ?_⟩
  · unfold generateBorderEdges
    rw [hJ1, bind_ok', h1]
  · rw [← hs2]
    exact (creases_sub_lone _ _ hsh).trans h2

/-- C103: if moreover the tetrahedra fit edge to edge and the random draws find a triple that is not nearly collinear,
the segments cover exactly those edges. -/
theorem C103_border_edges (draws : Nat → Nat → (n : Nat) → Draws n) (o : Obj 4) (h : WellFormed o) (hs : Sharp o)
    (he : EdgeToEdge .ico o) (hf : ∀ i j : Nat, ∀ f g, FindsTriple .ico (draws i j) (face o f) (face o g)) :
    ∃ out, generateBorderEdges draws o = .ok out ∧
      Package.ico.region out = creases (frontier (Package.ico.region o)) := by
  obtain ⟨J, hJ1, hJ2, hJ3⟩ := surface_wf h hs
  obtain ⟨s, hs1, hs2⟩ := C101_boundary o h hs.faceToFace
  rw [hJ1] at hs1
  cases hs1
  have hsh := surface_sharp h hs hJ2 hJ3
  obtain ⟨out, h1, -, h2⟩ := cleaner_region .ico draws _ hsh
  have hmem : ∀ t ∈ J.map (face o), ∃ j, face o j = t := fun t ht => (List.mem_map.1 ht).imp fun _ h => h.2
  refine ⟨out, ?_, ?_⟩
  · unfold generateBorderEdges
    rw [hJ1, bind_ok', h1]
  · rw [h2, ← hs2, creases_eq_lone _ _ hsh]
    · intro t ht i j hij V hV
      obtain ⟨f, rfl⟩ := hmem t ht
      obtain ⟨t', ht', k, rfl⟩ := hV
      obtain ⟨f', rfl⟩ := hmem t' ht'
      exact he _ (List.get_mem _ _) _ _ (fun e => hij (Fin.succAbove_right_injective e)) _ ⟨_, List.get_mem _ _, _, rfl⟩
    · intro i j
      obtain ⟨f, e1⟩ := hmem _ (List.get_mem _ i)
      obtain ⟨g, e2⟩ := hmem _ (List.get_mem _ j)
      rw [← e1, ← e2]
      exact hf i j f g

/-- C103: two objects that occupy the same points have border edges that cover the same points. -/
theorem C103_same (draws draws' : Nat → Nat → (n : Nat) → Draws n) (o o' : Obj 4) (h : WellFormed o) (hs : Sharp o)
    (he : EdgeToEdge .ico o) (hf : ∀ i j : Nat, ∀ f g, FindsTriple .ico (draws i j) (face o f) (face o g))
    (h' : WellFormed o') (hs' : Sharp o') (he' : EdgeToEdge .ico o')
    (hf' : ∀ i j : Nat, ∀ f g, FindsTriple .ico (draws' i j) (face o' f) (face o' g))
    (hr : Package.ico.region o = Package.ico.region o') :
    ∃ out out', generateBorderEdges draws o = .ok out ∧ generateBorderEdges draws' o' = .ok out' ∧
      Package.ico.region out = Package.ico.region out' := by
  obtain ⟨out, h1, h2⟩ := C103_border_edges draws o h hs he hf
  obtain ⟨out', h1', h2'⟩ := C103_border_edges draws' o' h' hs' he' hf'
  exact ⟨out, out', h1, h1', by rw [h2, h2', hr]⟩

/-! ## The hypotheses are met -/

/-- All triples. -/
def everyTriple (n : Nat) : Draws n := (List.finRange n).product ((List.finRange n).product (List.finRange n))

theorem mem_everyTriple {n : Nat} (d : Fin n × Fin n × Fin n) : d ∈ everyTriple n :=
  List.mem_product.2 ⟨List.mem_finRange _, List.mem_product.2 ⟨List.mem_finRange _, List.mem_finRange _⟩⟩

/-- Draws that include all triples find one that is not nearly collinear if the first triangle is not too thin. -/
theorem findsTriple_all {p : Package} {s t : Simplex 3}
    (h : ∃ k, 1 / 10 ^ 6 ≤ |crossProduct (p.perps s 1 - p.perps s 0) (p.perps s 2 - p.perps s 0) k|) :
    FindsTriple p everyTriple s t := by
  intro pts _ hmem _
  obtain ⟨k, hk⟩ := h
  have hi : ∀ i, ∃ j : Fin pts.length, pts[(j : Nat)]? = some (p.perps s i) := fun i => by
    obtain ⟨j, hj⟩ := List.get_of_mem ((hmem (p.perps s i)).2 ⟨i, .inl rfl⟩)
    exact ⟨j, by rw [← hj]; simp⟩
  choose j hj using hi
  exact ⟨(j 0, j 1, j 2), mem_everyTriple _, _, _, _, hj 0, hj 1, hj 2, k, hk⟩

/-- Fitting edge to edge for corners on a grid, from integer checks. -/
theorem edgeToEdge_grid (p : Package) {r : Nat} (o : Obj r) (A : Fin o.length → Fin r → Fin 3 → ℤ) (n : ℕ) (hn : 0 < n)
    (hA : ∀ a i j, p.perp (o.get a i) j = A a i j / n)
    (hfit : ∀ a i j, i ≠ j → ∀ b k, (fun c => A b k c - A a i c) ⨯₃ (fun c => A a j c - A a i c) ≠ 0 ∨
      (0 ≤ ∑ c, (A b k c - A a i c) * (A b k c - A a j c) ∧ A a i ≠ A a j)) : EdgeToEdge p o := by
  have hn0 : (n : ℝ) ≠ 0 := by exact_mod_cast hn.ne'
  intro s hs i j hij V hV hVo
  obtain ⟨a, rfl⟩ := List.get_of_mem hs
  obtain ⟨t, ht, k, rfl⟩ := hV
  obtain ⟨b, rfl⟩ := List.get_of_mem ht
  obtain ⟨u, v, hu, hv, huv, e⟩ := hVo
  have hc : ∀ c, (A b k c : ℝ) - A a i c = v * (A a j c - A a i c) := fun c => by
    have := congrFun e c
    simp only [Pi.add_apply, Pi.smul_apply, smul_eq_mul, hA] at this
    have e2 : u = 1 - v := by linarith
    subst e2
    field_simp at this
    linarith
  rcases hfit a i j hij b k with h | ⟨h, hne⟩
  · apply h
    have h0 := hc 0
    have h1 := hc 1
    have h2 := hc 2
    funext c
    rw [← Int.cast_inj (α := ℝ)]
    fin_cases c <;> simp only [cross_apply, Fin.zero_eta, Fin.mk_one, Fin.reduceFinMk, cons_val_zero, cons_val_one, cons_val,
      Pi.zero_apply, Int.cast_zero, Int.cast_sub, Int.cast_mul] <;> simp only [h0, h1, h2] <;> ring
  · have h' : (0 : ℝ) ≤ ∑ c, ((A b k c : ℝ) - A a i c) * (A b k c - A a j c) := by exact_mod_cast h
    have e3 : ∑ c, ((A b k c : ℝ) - A a i c) * (A b k c - A a j c) = -(u * v) * ∑ c, ((A a j c : ℝ) - A a i c) ^ 2 := by
      rw [Finset.mul_sum]
      refine Finset.sum_congr rfl fun c _ => ?_
      have e2 : u = 1 - v := by linarith
      rw [show (A b k c : ℝ) - A a j c = (A b k c - A a i c) - (A a j c - A a i c) by ring, hc c, e2]
      ring
    obtain ⟨c, hcne⟩ := Function.ne_iff.1 hne
    have : 0 < ∑ c, ((A a j c : ℝ) - A a i c) ^ 2 := by
      refine Finset.sum_pos' (fun _ _ => sq_nonneg _) ⟨c, Finset.mem_univ _, ?_⟩
      have : (A a j c : ℝ) - A a i c ≠ 0 := sub_ne_zero.2 (by exact_mod_cast Ne.symm hcne)
      positivity
    rw [e3] at h'
    nlinarith [mul_pos (mul_pos hu hv) this]

theorem exSquare_edges : EdgeToEdge .dode exSquare :=
  edgeToEdge_grid .dode exSquare exSquareZ 1 (by norm_num) exSquare_perp (by decide +kernel)

theorem exSquare_plane : ∃ n : Fin 3 → ℝ, n ≠ 0 ∧ ∃ d, ∀ x ∈ Package.dode.corners exSquare, n ⬝ᵥ x = d := by
  refine ⟨![0, 0, 1], by simp, 0, ?_⟩
  rintro x ⟨t, ht, i, rfl⟩
  obtain ⟨a, rfl⟩ := List.get_of_mem ht
  have e : (![0, 0, 1] : Fin 3 → ℝ) ⬝ᵥ Package.dode.perp (exSquare.get a i) = Package.dode.perp (exSquare.get a i) 2 := by
    simp [dotProduct, Fin.sum_univ_three]
  rw [e]
  refine (exSquare_perp a i 2).trans ?_
  have : ∀ (a : Fin 2) (i : Fin 3), exSquareZ a i 2 = 0 := by decide
  rw [this a i]; simp

theorem cross_big {p : Package} {s : Simplex 3} {A : Fin 3 → Fin 3 → ℤ} {n : ℕ} (hn : 0 < n) (hn' : n ≤ 1000)
    (hA : ∀ i j, p.perp (s i) j = A i j / n) (h : (fun c => A 1 c - A 0 c) ⨯₃ (fun c => A 2 c - A 0 c) ≠ 0) :
    ∃ k, 1 / 10 ^ 6 ≤ |crossProduct (p.perps s 1 - p.perps s 0) (p.perps s 2 - p.perps s 0) k| := by
  obtain ⟨k, hk⟩ := Function.ne_iff.1 h
  have hn0 : (0 : ℝ) < n := by exact_mod_cast hn
  refine ⟨k, ?_⟩
  have e : crossProduct (p.perps s 1 - p.perps s 0) (p.perps s 2 - p.perps s 0) k =
      (((fun c => A 1 c - A 0 c) ⨯₃ (fun c => A 2 c - A 0 c)) k : ℤ) / (n : ℝ) ^ 2 := by
    fin_cases k <;> simp [cross_apply, Package.perps, hA] <;> field_simp <;> ring
  rw [e, abs_div, abs_of_pos (by positivity : (0 : ℝ) < (n : ℝ) ^ 2), div_le_div_iff₀ (by norm_num) (by positivity)]
  have h1 : (1 : ℝ) ≤ |((((fun c => A 1 c - A 0 c) ⨯₃ (fun c => A 2 c - A 0 c)) k : ℤ) : ℝ)| := by
    exact_mod_cast Int.one_le_abs hk
  have h2 : (n : ℝ) ≤ 1000 := by exact_mod_cast hn'
  nlinarith

theorem exSquare_finds (i j : Fin exSquare.length) : FindsTriple .dode everyTriple (exSquare.get i) (exSquare.get j) := by
  have : ∀ a : Fin 2, (fun c => exSquareZ a 1 c - exSquareZ a 0 c) ⨯₃ (fun c => exSquareZ a 2 c - exSquareZ a 0 c) ≠ 0 := by
    decide +kernel
  exact findsTriple_all (cross_big (A := exSquareZ i) (n := 1) (by norm_num) (by norm_num) (exSquare_perp i) (this i))

/-- The hypotheses of `C102_outline` are met by two triangles that make up a square. -/
example : ∃ out, outline (fun _ _ => everyTriple) exSquare = .ok out ∧
    Package.dode.region out = intrinsicFrontier ℝ (Package.dode.region exSquare) :=
  C102_outline _ exSquare exSquare_sharp exSquare_plane exSquare_edges exSquare_finds

theorem exHalves_edges : EdgeToEdge .ico [exHalfA, exHalfB] :=
  edgeToEdge_grid .ico [exHalfA, exHalfB] exHalvesZ 2 (by norm_num) exHalves_perp (by decide +kernel)

theorem exHalves_finds (f g : Fin [exHalfA, exHalfB].length × Fin 4) :
    FindsTriple .ico everyTriple (face [exHalfA, exHalfB] f) (face [exHalfA, exHalfB] g) := by
  have : ∀ f : Fin 2 × Fin 4, (fun c => exHalvesZ f.1 (f.2.succAbove 1) c - exHalvesZ f.1 (f.2.succAbove 0) c) ⨯₃
      (fun c => exHalvesZ f.1 (f.2.succAbove 2) c - exHalvesZ f.1 (f.2.succAbove 0) c) ≠ 0 := by decide +kernel
  exact findsTriple_all (cross_big (A := fun k => exHalvesZ f.1 (f.2.succAbove k)) (n := 2) (by norm_num) (by norm_num)
    (fun i => exHalves_perp f.1 _) (this f))

/-- The hypotheses of `C103_border_edges` are met by two halves of a tetrahedron: the border edges are the edges of the
whole, although the halves have other edges too. -/
example : ∃ out, generateBorderEdges (fun _ _ => everyTriple) [exHalfA, exHalfB] = .ok out ∧
    Package.ico.region out = creases (frontier (solid (Package.ico.perps exCorner))) := by
  obtain ⟨out, h1, h2⟩ := C103_border_edges (fun _ _ => everyTriple) [exHalfA, exHalfB] exHalves_wf exHalves_sharp
    exHalves_edges fun _ _ => exHalves_finds
  exact ⟨out, h1, by rw [h2, exHalves_region]⟩

/-! ## What goes wrong otherwise -/

/-- One triangle above an edge, two below it. -/
def exTee : Obj 3 := [![flat2 0 0, flat2 2 0, flat2 0 1], ![flat2 0 0, flat2 1 0, flat2 0 (-1)], ![flat2 1 0, flat2 2 0, flat2 0 (-1)]]

def exTeeZ : Fin 3 → Fin 3 → Fin 3 → ℤ :=
  ![![![0, 0, 0], ![2, 0, 0], ![0, 1, 0]], ![![0, 0, 0], ![1, 0, 0], ![0, -1, 0]], ![![1, 0, 0], ![2, 0, 0], ![0, -1, 0]]]

theorem exTee_perp (a : Fin 3) (i j : Fin 3) : Package.dode.perp (exTee.get a i) j = (exTeeZ a i j : ℝ) / (1 : ℕ) := by
  fin_cases a <;> fin_cases i <;> refine (congrFun (perp_flat2 _ _) j).trans ?_ <;> fin_cases j <;> simp [exTeeZ]

theorem exTee_sharp : SharpTriangles .dode exTee := by
  refine sharpTriangles_grid .dode exTee exTeeZ 1 2 (by norm_num) (by simp [exTee]) (by decide) exTee_perp (by decide)
      (by norm_num) (by norm_num) (by norm_num) (by decide +kernel) ?_ (by decide +kernel)
  have : ∀ i j : Fin 3, i ≠ j → ∃ m ∈ ([![0, 1, 0], ![0, -1, 0], ![1, 1, 0], ![-1, -1, 0], ![1, -1, 0], ![-1, 1, 0]] :
      List (Fin 3 → ℤ)), SepZ (exTeeZ i) (exTeeZ j) m := by decide +kernel
  intro i j hij
  obtain ⟨m, -, hm⟩ := this i j hij
  exact .inr ⟨m, hm⟩

theorem plane_of_grid (o : Obj 3) (A : Fin o.length → Fin 3 → Fin 3 → ℤ) (n : ℕ)
    (hA : ∀ a i j, Package.dode.perp (o.get a i) j = A a i j / n) (h0 : ∀ a i, A a i 2 = 0) :
    ∀ x ∈ Package.dode.corners o, (![0, 0, 1] : Fin 3 → ℝ) ⬝ᵥ x = 0 := by
  rintro x ⟨t, ht, i, rfl⟩
  obtain ⟨a, rfl⟩ := List.get_of_mem ht
  have e : (![0, 0, 1] : Fin 3 → ℝ) ⬝ᵥ Package.dode.perp (o.get a i) = Package.dode.perp (o.get a i) 2 := by
    simp [dotProduct, Fin.sum_univ_three]
  rw [e, hA, h0]
  simp

/-- A point of a flat object around which a disc of the plane is covered is not on its boundary. -/
theorem not_frontier_flat {o : Obj 3} (h : SharpTriangles .dode o)
    (hp : ∀ x ∈ Package.dode.corners o, (![0, 0, 1] : Fin 3 → ℝ) ⬝ᵥ x = 0) {U : Set (Fin 3 → ℝ)} (hU : IsOpen U)
    (hUo : ∀ y ∈ U, y 2 = 0 → y ∈ Package.dode.region o) {x : Fin 3 → ℝ} (hx : x ∈ U) :
    x ∉ intrinsicFrontier ℝ (Package.dode.region o) := by
  obtain ⟨t, ht⟩ := List.exists_mem_of_ne_nil _ h.ne
  have hT : ∀ t ∈ o, ∀ i, (![0, 0, 1] : Fin 3 → ℝ) ⬝ᵥ Package.dode.perps t i = 0 := fun t ht i => hp _ ⟨t, ht, i, rfl⟩
  have hcl : IsClosed (Package.dode.region o) := by rw [region_spread]; exact spread_closed
  rw [intrinsicFrontier_plane (S := Package.dode.perps t) (R := Package.dode.region o) (h.proper t ht) (by simp) (hT t ht) (by rintro y ⟨s, hs, hy⟩; exact plane_of_solid (hT s hs) hy)
    (fun y hy => ⟨t, ht, hy⟩) hcl]
  rintro ⟨-, hi⟩
  refine hi (mem_nhdsWithin.2 ⟨U, hU, hx, ?_⟩)
  rintro y ⟨hy, hy0⟩
  refine hUo y hy ?_
  have : (![0, 0, 1] : Fin 3 → ℝ) ⬝ᵥ y = 0 := hy0
  simpa [dotProduct, Fin.sum_univ_three] using this

theorem mem_flat_solid {P Q R : Int × Int} {y : Fin 3 → ℝ} (h2 : y 2 = 0) {u v w : ℝ} (hu : 0 ≤ u) (hv : 0 ≤ v) (hw : 0 ≤ w)
    (h1 : u + v + w = 1) (hx : y 0 = u * P.1 + v * Q.1 + w * R.1) (hy : y 1 = u * P.2 + v * Q.2 + w * R.2) :
    y ∈ solid (Package.dode.perps ![flat2 P.1 P.2, flat2 Q.1 Q.2, flat2 R.1 R.2]) := by
  refine mem_solid_iff.2 ⟨![u, v, w], ⟨?_, ?_⟩, ?_⟩
  · rw [Fin.sum_univ_three]; exact h1
  · rw [Fin.sum_univ_three]
    have e : ∀ k, Package.dode.perps ![flat2 P.1 P.2, flat2 Q.1 Q.2, flat2 R.1 R.2] k =
        ![![(P.1 : ℝ), P.2, 0], ![(Q.1 : ℝ), Q.2, 0], ![(R.1 : ℝ), R.2, 0]] k := by
      intro k; fin_cases k <;> exact perp_flat2 _ _
    simp only [e]
    funext j
    fin_cases j
    · simpa using hx
    · simpa using hy
    · simpa using h2
  · intro i; fin_cases i <;> assumption

theorem open_box (a b c d : ℝ) : IsOpen {y : Fin 3 → ℝ | a < y 0 ∧ y 0 < b ∧ c < y 1 ∧ y 1 < d} :=
  (isOpen_lt continuous_const (continuous_apply 0)).inter ((isOpen_lt (continuous_apply 0) continuous_const).inter
    ((isOpen_lt continuous_const (continuous_apply 1)).inter (isOpen_lt (continuous_apply 1) continuous_const)))

/-- C102: fitting edge to edge is needed. Where two triangles meet a third along one edge, the outline always contains
points inside the object. -/
theorem C102_not_fitting (draws : Nat → Nat → (n : Nat) → Draws n) : SharpTriangles .dode exTee ∧
    (∃ n : Fin 3 → ℝ, n ≠ 0 ∧ ∃ d, ∀ x ∈ Package.dode.corners exTee, n ⬝ᵥ x = d) ∧
    ∃ out, outline draws exTee = .ok out ∧
      ∃ x ∈ Package.dode.region out, x ∉ intrinsicFrontier ℝ (Package.dode.region exTee) := by
  have hpl := plane_of_grid exTee exTeeZ 1 exTee_perp (by decide)
  refine ⟨exTee_sharp, ⟨_, by simp, 0, hpl⟩, ?_⟩
  obtain ⟨out, h1, h2, -⟩ := cleaner_region .dode draws exTee exTee_sharp
  refine ⟨out, h1, ![1 / 2, 0, 0], h2 ⟨(0 : Fin 3), 2, ?_, ?_⟩, ?_⟩
  · intro b k _ e
    have m0 : Package.dode.perps (exTee.get (0 : Fin 3)) 0 ∈ Package.dode.perps (exTee.get b) '' {j | j ≠ k} := by
      rw [e]; exact ⟨0, by simp, rfl⟩
    have m1 : Package.dode.perps (exTee.get (0 : Fin 3)) 1 ∈ Package.dode.perps (exTee.get b) '' {j | j ≠ k} := by
      rw [e]; exact ⟨1, by simp, rfl⟩
    obtain ⟨j0, hj0, e0⟩ := m0
    obtain ⟨j1, hj1, e1⟩ := m1
    have lift : ∀ (a b : Fin 3) (i j : Fin 3), Package.dode.perps (exTee.get a) i = Package.dode.perps (exTee.get b) j →
        exTeeZ a i = exTeeZ b j := by
      intro a b i j e
      funext c
      have := congrFun e c
      rw [show Package.dode.perps (exTee.get a) i c = _ from exTee_perp a i c,
        show Package.dode.perps (exTee.get b) j c = _ from exTee_perp b j c] at this
      have : (exTeeZ a i c : ℝ) = exTeeZ b j c := by simpa using this
      exact_mod_cast this
    have key : ∀ (b : Fin 3) (k j0 j1 : Fin 3), j0 ≠ k → j1 ≠ k → exTeeZ b j0 = exTeeZ 0 0 → exTeeZ b j1 = exTeeZ 0 1 →
        (b, k) = ((0 : Fin 3), (2 : Fin 3)) := by decide +kernel
    exact key b k j0 j1 hj0 hj1 (lift b 0 j0 0 e0) (lift b 0 j1 1 e1)
  · refine mem_solid_iff.2 ⟨![3 / 4, 1 / 4], ⟨?_, ?_⟩, ?_⟩
    · rw [Fin.sum_univ_two]; norm_num
    · rw [Fin.sum_univ_two]
      have e0 : Package.dode.perps (exTee.get (0 : Fin 3)) ((2 : Fin 3).succAbove 0) = ![((0 : ℤ) : ℝ), ((0 : ℤ) : ℝ), 0] := perp_flat2 0 0
      have e1 : Package.dode.perps (exTee.get (0 : Fin 3)) ((2 : Fin 3).succAbove 1) = ![((2 : ℤ) : ℝ), ((0 : ℤ) : ℝ), 0] := perp_flat2 2 0
      dsimp only
      rw [e0, e1]
      funext j
      fin_cases j <;> norm_num
    · intro i; fin_cases i <;> norm_num
  · refine not_frontier_flat exTee_sharp hpl (open_box 0 (3 / 4) (- (1 / 4)) (1 / 4)) ?_ (by constructor <;> norm_num)
    rintro y ⟨h0, h0', h1, h1'⟩ h2
    rcases le_total 0 (y 1) with hy | hy
    · exact ⟨_, List.mem_cons_self, mem_flat_solid (P := (0, 0)) (Q := (2, 0)) (R := (0, 1)) h2 (u := 1 - y 0 / 2 - y 1)
        (v := y 0 / 2) (w := y 1) (by linarith) (by linarith) hy (by ring) (by push_cast; ring) (by push_cast; ring)⟩
    · exact ⟨_, List.mem_cons_of_mem _ List.mem_cons_self, mem_flat_solid (P := (0, 0)) (Q := (1, 0)) (R := (0, -1)) h2
        (u := 1 - y 0 + y 1) (v := y 0) (w := - y 1) (by linarith) h0.le (by linarith) (by ring) (by push_cast; ring)
        (by push_cast; ring)⟩

/-- Without a draw four corners are not recognised as coplanar. -/
theorem no_draw {p : Package} {s t : Simplex 3} (hs : Simplex.Ok s) (ht : Simplex.Ok t) {P : Fin 4 → Fin 3 → ℝ}
    (hP : Function.Injective P) (hm : ∀ k, ∃ i, P k = p.perp (s i) ∨ P k = p.perp (t i)) :
    coplanarCheckTwoTriangles p (fun _ => []) s t = .ok false := by
  obtain ⟨r, hr, hmem, hnd, hall⟩ := C24_one_per_point p (List.ofFn s ++ List.ofFn t) (by
    intro v hv
    rcases List.mem_append.mp hv with h | h
    · obtain ⟨i, rfl⟩ := List.mem_ofFn.mp h; exact hs i
    · obtain ⟨i, rfl⟩ := List.mem_ofFn.mp h; exact ht i)
  unfold coplanarCheckTwoTriangles
  rw [hr, bind_ok']
  have hk : ∀ k, ∃ j : Fin r.length, p.perp (r.get j) = P k := by
    intro k
    obtain ⟨i, h | h⟩ := hm k
    · obtain ⟨y, ⟨hy, e⟩, -⟩ := hall (s i) (List.mem_append_left _ (List.mem_ofFn.mpr ⟨i, rfl⟩))
      obtain ⟨j, rfl⟩ := List.get_of_mem hy
      exact ⟨j, e.trans h.symm⟩
    · obtain ⟨y, ⟨hy, e⟩, -⟩ := hall (t i) (List.mem_append_right _ (List.mem_ofFn.mpr ⟨i, rfl⟩))
      obtain ⟨j, rfl⟩ := List.get_of_mem hy
      exact ⟨j, e.trans h.symm⟩
  choose f hf using hk
  have hinj : Function.Injective f := fun a b e => hP (by rw [← hf a, ← hf b, e])
  have hl : 4 ≤ r.length := by simpa using Fintype.card_le_of_injective f hinj
  have : coplanarCheckNumeric (r.map p.internalNumerical) [] = none := by
    unfold coplanarCheckNumeric
    rw [if_pos (by rw [List.length_map]; omega)]
    rfl
  rw [this]
  simp

/-- C102: draws that find a triple are needed. When every draw is nearly collinear (here: there is none), the diagonal of a
square stays in its outline. -/
theorem C102_unlucky : SharpTriangles .dode exSquare ∧
    (∃ n : Fin 3 → ℝ, n ≠ 0 ∧ ∃ d, ∀ x ∈ Package.dode.corners exSquare, n ⬝ᵥ x = d) ∧ EdgeToEdge .dode exSquare ∧
    ∃ out, outline (fun _ _ _ => []) exSquare = .ok out ∧
      ∃ x ∈ Package.dode.region out, x ∉ intrinsicFrontier ℝ (Package.dode.region exSquare) := by
  refine ⟨exSquare_sharp, exSquare_plane, exSquare_edges, ?_⟩
  obtain ⟨out, h1, -, -, -, -, judged, groups, hj, hg, hr⟩ := cleaner_full .dode (fun _ _ _ => []) exSquare exSquare_sharp
  refine ⟨out, h1, ![1 / 2, 1 / 2, 0], ?_, ?_⟩
  · rw [hr]
    obtain ⟨g, hgm, hag⟩ := List.mem_flatten.1 (hg.partition.mem_iff.2 (List.mem_finRange (0 : Fin 2)))
    have hj0 : judged 1 0 = false := by
      have e := no_draw (p := .dode) (s := exSquare.get (1 : Fin 2)) (t := exSquare.get (0 : Fin 2))
        (exSquare_sharp.ok _ (List.get_mem _ _)) (exSquare_sharp.ok _ (List.get_mem _ _))
        (P := ![![0, 0, 0], ![1, 0, 0], ![1, 1, 0], ![0, 1, 0]]) (by
          intro a b e
          have e0 := congrFun e 0
          have e1 := congrFun e 1
          fin_cases a <;> fin_cases b <;> first | rfl | (exfalso; revert e0 e1; norm_num)) (by
          intro k
          fin_cases k
          · exact ⟨0, .inl (by refine Eq.trans ?_ (perp_flat2 0 0).symm; norm_num)⟩
          · exact ⟨1, .inr (by refine Eq.trans ?_ (perp_flat2 1 0).symm; norm_num)⟩
          · exact ⟨1, .inl (by refine Eq.trans ?_ (perp_flat2 1 1).symm; norm_num)⟩
          · exact ⟨2, .inl (by refine Eq.trans ?_ (perp_flat2 0 1).symm; norm_num)⟩)
      exact Except.ok.inj ((hj (1 : Fin 2) (0 : Fin 2)).symm.trans e)
    refine ⟨g, hgm, (0 : Fin 2), hag, 1, ?_, ?_⟩
    · intro b hb k e
      obtain ⟨lead, rest, rfl, -, hrest⟩ := hg.group g hgm
      have two : ∀ x : Fin exSquare.length, x = (0 : Fin 2) ∨ x = (1 : Fin 2) := fun x => by
        have : ∀ x : Fin 2, x = 0 ∨ x = 1 := by decide
        exact this x
      have hr0 : ∀ i ∈ rest, False := by
        intro i hi
        obtain ⟨hlt, hjt⟩ := hrest i hi
        have : ∀ a b : Fin 2, a < b → a = 0 ∧ b = 1 := by decide
        obtain ⟨ha, hb⟩ := this lead i hlt
        rw [ha, hb] at hjt
        rw [show judged ((1 : Fin 2) : Nat) ((0 : Fin 2) : Nat) = false from hj0] at hjt
        cases hjt
      have hb0 : b = (0 : Fin 2) := by
        have h1 : b = lead := (List.mem_cons.1 hb).resolve_right fun h => hr0 _ h
        have h2 : (0 : Fin 2) = lead := (List.mem_cons.1 hag).resolve_right fun h => hr0 _ h
        rw [h1, ← h2]
      subst hb0
      by_contra hne
      have hk : (1 : Fin 3) ≠ k := fun e => hne (by rw [e])
      have : Package.dode.perps (exSquare.get (0 : Fin 2)) 1 ∈ Package.dode.perps (exSquare.get (0 : Fin 2)) '' {j | j ≠ 1} := by
        rw [← e]; exact ⟨1, hk, rfl⟩
      obtain ⟨j, hj, e⟩ := this
      have hp : Proper (Package.dode.perps (exSquare.get (0 : Fin 2))) := exSquare_sharp.proper _ (List.get_mem _ _)
      exact hj (hp.injective e)
    · refine mem_solid_iff.2 ⟨![1 / 2, 1 / 2], ⟨?_, ?_⟩, ?_⟩
      · rw [Fin.sum_univ_two]; norm_num
      · rw [Fin.sum_univ_two]
        have e0 : Package.dode.perps (exSquare.get (0 : Fin 2)) ((1 : Fin 3).succAbove 0) = ![((0 : ℤ) : ℝ), ((0 : ℤ) : ℝ), 0] := perp_flat2 0 0
        have e1 : Package.dode.perps (exSquare.get (0 : Fin 2)) ((1 : Fin 3).succAbove 1) = ![((1 : ℤ) : ℝ), ((1 : ℤ) : ℝ), 0] := perp_flat2 1 1
        dsimp only
        rw [e0, e1]
        funext j
        fin_cases j <;> norm_num
      · intro i; fin_cases i <;> norm_num
  · refine not_frontier_flat exSquare_sharp (plane_of_grid exSquare exSquareZ 1 exSquare_perp (by decide))
      (open_box 0 1 0 1) ?_ (by constructor <;> norm_num)
    rintro y ⟨h0, h0', h1, h1'⟩ h2
    rcases le_total (y 1) (y 0) with hy | hy
    · exact ⟨_, List.mem_cons_self, mem_flat_solid (P := (0, 0)) (Q := (1, 0)) (R := (1, 1)) h2 (u := 1 - y 0)
        (v := y 0 - y 1) (w := y 1) (by linarith) (by linarith) h1.le (by ring) (by push_cast; ring) (by push_cast; ring)⟩
    · exact ⟨_, List.mem_cons_of_mem _ List.mem_cons_self, mem_flat_solid (P := (0, 0)) (Q := (1, 1)) (R := (0, 1)) h2
        (u := 1 - y 1) (v := y 0) (w := y 1 - y 0) (by linarith) h0.le (by linarith) (by ring) (by push_cast; ring)
        (by push_cast; ring)⟩

end PyQC
