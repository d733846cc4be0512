import Verif.Lemmas.Cone
import Verif.Lemmas.Complete
import Verif.Props.Coplanar
/-!
# The border edges of a set of triangles keep every extreme corner
-/
namespace PyQC
open Matrix

/-- A coplanar verdict on points for which near coplanarity is coplanarity. -/
theorem coplanarNumeric_true {pns : List (Fin 3 → ℝ)} {C : Set (Fin 3 → ℝ)} (hC : ∀ x ∈ pns, x ∈ C)
    (hf : ∀ a ∈ C, ∀ b ∈ C, ∀ c ∈ C, ∀ d ∈ C,
      |crossProduct (b - a) (c - a) ⬝ᵥ (d - a)| < 1 / 10 ^ 10 → crossProduct (b - a) (c - a) ⬝ᵥ (d - a) = 0)
    {draws : Draws pns.length} (h : coplanarCheckNumeric pns draws = some true) : InPlane pns := by
  by_cases hl : 3 < pns.length
  · have hg : ∀ i, pns.get i ∈ C := fun i => hC _ (List.get_mem _ _)
    rcases coplanarCheckNumeric_eq _ draws hl with ⟨h1, -⟩ | ⟨d, -, ⟨c, hcc⟩, b, hb, hi⟩
    · rw [h1] at h; cases h
    · rw [hb] at h
      have hi := hi.1 (Option.some_injective _ h)
      refine ⟨tripleNormal _ d, ?_, tripleNormal _ d ⬝ᵥ pns.get d.1, ?_⟩
      · intro h0
        rw [h0, eps_eq] at hcc
        norm_num at hcc
      · intro x hx
        obtain ⟨i, rfl⟩ := List.get_of_mem hx
        have := hf _ (hg d.1) _ (hg d.2.1) _ (hg d.2.2) _ (hg i) (hi i)
        change tripleNormal _ d ⬝ᵥ _ = 0 at this
        rw [dotProduct_sub] at this
        linarith
  · exact inPlane_few (by omega)

/-- Two triangles lie in one plane. -/
def OnePlane (S T : Fin 3 → Fin 3 → ℝ) : Prop :=
  ∃ n : Fin 3 → ℝ, n ≠ 0 ∧ ∃ d, ∀ k, n ⬝ᵥ S k = d ∧ n ⬝ᵥ T k = d

theorem twoTriangles_true {p : Package} {C : Set (Fin 3 → ℝ)}
    (hf : ∀ a ∈ C, ∀ b ∈ C, ∀ c ∈ C, ∀ d ∈ C,
      |crossProduct (b - a) (c - a) ⬝ᵥ (d - a)| < 1 / 10 ^ 10 → crossProduct (b - a) (c - a) ⬝ᵥ (d - a) = 0)
    {s t : Simplex 3} (hs : Simplex.Ok s) (ht : Simplex.Ok t) (hsC : ∀ i, p.perp (s i) ∈ C) (htC : ∀ i, p.perp (t i) ∈ C)
    {draws : (n : Nat) → Draws n} (h : coplanarCheckTwoTriangles p draws s t = .ok true) :
    OnePlane (p.perps s) (p.perps t) := by
  obtain ⟨r, hr, hmem, -, hall⟩ := C24_one_per_point p (List.ofFn s ++ List.ofFn t) (by
    intro v hv
    rcases List.mem_append.mp hv with h | h
    · obtain ⟨i, rfl⟩ := List.mem_ofFn.mp h; exact hs i
    · obtain ⟨i, rfl⟩ := List.mem_ofFn.mp h; exact ht i)
  unfold coplanarCheckTwoTriangles at h
  rw [hr, bind_ok'] at h
  have h := of_decide_eq_true (Except.ok.inj h)
  obtain ⟨n, hn, d, hd⟩ := coplanarNumeric_true (C := C) (by
    intro x hx
    obtain ⟨v, hv, rfl⟩ := List.mem_map.1 hx
    rw [p.internalNumerical_eq]
    rcases List.mem_append.mp (hmem v hv) with h | h
    · obtain ⟨i, rfl⟩ := List.mem_ofFn.mp h; exact hsC i
    · obtain ⟨i, rfl⟩ := List.mem_ofFn.mp h; exact htC i) hf h
  have key : ∀ v ∈ List.ofFn s ++ List.ofFn t, n ⬝ᵥ p.perp v = d := by
    intro v hv
    obtain ⟨y, ⟨hy, e⟩, -⟩ := hall v hv
    rw [← e, ← p.internalNumerical_eq]
    exact hd _ (List.mem_map_of_mem hy)
  exact ⟨n, hn, d, fun k => ⟨key _ (List.mem_append_left _ (List.mem_ofFn.2 ⟨k, rfl⟩)),
    key _ (List.mem_append_right _ (List.mem_ofFn.2 ⟨k, rfl⟩))⟩⟩

/-- All triangles of a group lie in one plane. -/
theorem group_plane {N : Nat} {T : Fin N → Fin 3 → Fin 3 → ℝ} (hT : ∀ a, Proper (T a)) {judged : Nat → Nat → Bool}
    (hj : ∀ a b : Fin N, judged a b = true → OnePlane (T a) (T b)) {groups : List (List (Fin N))}
    (hg : IsGrouping N judged groups) {g : List (Fin N)} (hgm : g ∈ groups) :
    ∃ n : Fin 3 → ℝ, n ≠ 0 ∧ ∃ d, ∀ a ∈ g, ∀ k, n ⬝ᵥ T a k = d := by
  obtain ⟨lead, rest, rfl, -, hr⟩ := hg.group g hgm
  refine ⟨crossProduct (T lead 1 - T lead 0) (T lead 2 - T lead 0), hT lead,
    crossProduct (T lead 1 - T lead 0) (T lead 2 - T lead 0) ⬝ᵥ T lead 0, fun a ha k => ?_⟩
  have h1 : OnePlane (T a) (T lead) := by
    rcases List.mem_cons.1 ha with rfl | ha
    · obtain ⟨n, hn, d, h1, h2, h3⟩ := exists_plane (T a 0) (T a 1) (T a 2)
      refine ⟨n, hn, d, fun k => ?_⟩
      have : n ⬝ᵥ T a k = d := by fin_cases k <;> assumption
      exact ⟨this, this⟩
    · exact hj a lead (hr a ha).2
  obtain ⟨n, hn, d, h⟩ := h1
  have := plane_unique hn (fun i => (h i).2) (h k).1
  rw [dotProduct_sub] at this
  linarith

/-- Whenever `m` joins two segments with ends in `C`, it drops a common end that lies between the two others. -/
def Joins (p : Package) (C : Set (Vec 6)) (m : Simplex 2 → Simplex 2 → Option (Simplex 2)) : Prop :=
  ∀ a b c, Simplex.Ok a → Simplex.Ok b → (∀ i, a i ∈ C) → (∀ i, b i ∈ C) → m a b = some c →
    ∃ i j : Fin 2, c = ![a (1 - i), b (1 - j)] ∧ p.perp (a i) = p.perp (b j) ∧
      p.perp (a i) ∈ segment ℝ (p.perp (a (1 - i))) (p.perp (b (1 - j)))

theorem joinSegments_joins {p : Package} {D : Set (Vec 6)} {C : Set (Fin 3 → ℝ)} (hD : ∀ v ∈ D, p.perp v ∈ C)
    (hline : ∀ a ∈ C, ∀ b ∈ C, ∀ c ∈ C, ∀ x ∈ segment ℝ a b, dist3 c x ^ 2 < 2 / 10 ^ 6 → c ∈ segment ℝ a b) :
    Joins p D (joinSegments p) := by
  intro a b c ha hb hCa hCb hm
  obtain ⟨r, hr, hc⟩ := C56_sound p a b ha hb
  rw [twoSegmentIntoOne_ok p ha hb] at hr
  obtain ⟨i, j, hce, heq, -, Q, hQ, hd⟩ := hc c ((Except.ok.inj hr).symm.trans hm)
  have c0 : c 0 = a (1 - i) := by rw [hce]; rfl
  have c1 : c 1 = b (1 - j) := by rw [hce]; rfl
  have hd' : dist3 (p.perp (a i)) Q ^ 2 < 2 / 10 ^ 6 := by
    convert hd using 2
    unfold norm3 dist3
    rw [vec3_dotProduct]
    simp only [Pi.sub_apply]
    congr 1
    ring
  rw [c0, c1] at hQ
  exact ⟨i, j, hce, heq, hline _ (hD _ (hCa _)) _ (hD _ (hCb _)) _ (hD _ (hCa i)) Q hQ hd'⟩

/-- Joining segments never removes a strict minimum of a linear function. -/
theorem merge_keeps {p : Package} {C : Set (Vec 6)}
    {m : Simplex 2 → Simplex 2 → Option (Simplex 2)} (hm : Joins p C m)
    {V : Fin 3 → ℝ} {f : (Fin 3 → ℝ) →ₗ[ℝ] ℝ} (hf : ∀ v ∈ C, p.perp v ≠ V → f V < f (p.perp v)) {l l' : Obj 2} {k : Nat}
    (h : MergeSteps m l k l') (hok : Obj.Ok l) (hC : ∀ e ∈ l, ∀ i, e i ∈ C)
    (hV : ∃ e ∈ l, ∃ i, p.perp (e i) = V) : ∃ e ∈ l', ∃ i, p.perp (e i) = V := by
  induction h with
  | refl l => exact hV
  | @step l₁ l₂ l₃ l' a b c k hmc _ ih =>
    have ma : a ∈ l₁ ++ a :: (l₂ ++ b :: l₃) := by simp
    have mb : b ∈ l₁ ++ a :: (l₂ ++ b :: l₃) := by simp
    obtain ⟨i, j, hce, heq, hseg⟩ := hm a b c (hok a ma) (hok b mb) (hC a ma) (hC b mb) hmc
    have c0 : c 0 = a (1 - i) := by rw [hce]; rfl
    have c1 : c 1 = b (1 - j) := by rw [hce]; rfl
    have sub : ∀ e, e ∈ l₁ ++ l₂ ++ l₃ → e ∈ l₁ ++ a :: (l₂ ++ b :: l₃) := by
      intro e he
      simp only [List.mem_append, List.mem_cons] at he ⊢
      tauto
    refine ih ?_ ?_ ?_
    · intro e he
      rcases List.mem_append.1 he with he | he
      · exact hok e (sub e he)
      · rw [List.mem_singleton.1 he]
        intro m
        fin_cases m
        · exact c0 ▸ hok a ma _
        · exact c1 ▸ hok b mb _
    · intro e he
      rcases List.mem_append.1 he with he | he
      · exact hC e (sub e he)
      · rw [List.mem_singleton.1 he]
        intro m
        fin_cases m
        · exact c0 ▸ hC a ma _
        · exact c1 ▸ hC b mb _
    · have two : ∀ m n : Fin 2, n = m ∨ n = 1 - m := by decide
      have mid : p.perp (a i) = V → ∃ m, p.perp (c m) = V := by
        intro hV'
        rw [← c0, ← c1] at hseg
        by_contra hcon
        push Not at hcon
        obtain ⟨u, v, hu, hv, huv, e⟩ := hseg
        have e' := congrArg f e
        rw [map_add, map_smul, map_smul, hV', smul_eq_mul, smul_eq_mul] at e'
        have h0 := hf (c 0) (c0 ▸ hC a ma (1 - i)) (hcon 0)
        have h1 := hf (c 1) (c1 ▸ hC b mb (1 - j)) (hcon 1)
        have : u * (f (p.perp (c 0)) - f V) + v * (f (p.perp (c 1)) - f V) = 0 := by
          linear_combination e' - f V * huv
        rcases eq_or_lt_of_le hu with hu | hu
        · have : v = 1 := by linarith
          subst this
          nlinarith
        · nlinarith [mul_pos hu (sub_pos.2 h0), mul_nonneg hv (sub_pos.2 h1).le]
      obtain ⟨e, he, m, hm'⟩ := hV
      have : e ∈ l₁ ++ l₂ ++ l₃ ∨ e = a ∨ e = b := by
        simp only [List.mem_append, List.mem_cons] at he ⊢
        tauto
      rcases this with h | rfl | rfl
      · exact ⟨e, List.mem_append_left _ h, m, hm'⟩
      · rcases two i m with rfl | rfl
        · obtain ⟨m', h⟩ := mid hm'
          exact ⟨c, by simp, m', h⟩
        · exact ⟨c, by simp, 0, c0 ▸ hm'⟩
      · rcases two j m with rfl | rfl
        · obtain ⟨m', h⟩ := mid (heq.trans hm')
          exact ⟨c, by simp, m', h⟩
        · exact ⟨c, by simp, 1, c1 ▸ hm'⟩

theorem edge_side {o : Obj 3} (j : Fin o.length × Fin 3) :
    ∃ a b : Fin 3, a ≠ b ∧ a ≠ j.2 ∧ b ≠ j.2 ∧ side o j = edge (o.get j.1) a b := by
  refine ⟨j.2.succAbove 0, j.2.succAbove 1, fun h => ?_, Fin.succAbove_ne _ _, Fin.succAbove_ne _ _, ?_⟩
  · exact absurd (Fin.succAbove_right_injective h) (by decide)
  · funext i; fin_cases i <;> rfl

/-- Joining segments does not change the points they cover. -/
theorem merge_region {p : Package} {C : Set (Vec 6)}
    {m : Simplex 2 → Simplex 2 → Option (Simplex 2)} (hm : Joins p C m)
    {l l' : Obj 2} {k : Nat} (h : MergeSteps m l k l') (hok : Obj.Ok l)
    (hC : ∀ e ∈ l, ∀ i, e i ∈ C) : p.region l' = p.region l := by
  induction h with
  | refl l => rfl
  | @step l₁ l₂ l₃ l' a b c k hmc _ ih =>
    have ma : a ∈ l₁ ++ a :: (l₂ ++ b :: l₃) := by simp
    have mb : b ∈ l₁ ++ a :: (l₂ ++ b :: l₃) := by simp
    obtain ⟨i, j, hce, heq, hseg⟩ := hm a b c (hok a ma) (hok b mb) (hC a ma) (hC b mb) hmc
    have c0 : c 0 = a (1 - i) := by rw [hce]; rfl
    have c1 : c 1 = b (1 - j) := by rw [hce]; rfl
    have sub : ∀ e, e ∈ l₁ ++ l₂ ++ l₃ → e ∈ l₁ ++ a :: (l₂ ++ b :: l₃) := by
      intro e he
      simp only [List.mem_append, List.mem_cons] at he ⊢
      tauto
    have seg : ∀ (e : Simplex 2) (m : Fin 2), solid (p.perps e) = segment ℝ (p.perp (e m)) (p.perp (e (1 - m))) := by
      intro e m
      have : solid (p.perps e) = segment ℝ (p.perp (e 0)) (p.perp (e 1)) := by
        unfold solid
        rw [← convexHull_pair]
        congr 1
        ext x
        simp [Package.perps, eq_comm]
      rw [this]
      fin_cases m
      · rfl
      · exact segment_symm ..
    have hun : solid (p.perps c) = solid (p.perps a) ∪ solid (p.perps b) := by
      rw [seg c 0, seg a i, seg b j, show (1 - 0 : Fin 2) = 1 from rfl, c0, c1, ← heq, segment_symm ℝ (p.perp (a i))]
      refine Set.Subset.antisymm ?_ (Set.union_subset ?_ ?_)
      · obtain ⟨u, v, hu, hv, huv, e⟩ := hseg
        rintro x ⟨u', v', hu', hv', huv', rfl⟩
        rw [← e]
        rcases le_total v' v with hle | hle
        · left
          rcases eq_or_lt_of_le hv with h0 | h0
          · have : v' = 0 := by linarith
            have : u' = 1 := by linarith
            have : u = 1 := by linarith
            subst u' u
            rw [‹v' = 0›, ← h0]
            simp
          · refine ⟨1 - v' / v, v' / v, by rw [sub_nonneg]; exact (div_le_one h0).2 hle, by positivity, by ring, ?_⟩
            have e1 : v' / v * v = v' := div_mul_cancel₀ _ h0.ne'
            have e2 : u = 1 - v := by linarith
            have e3 : u' = 1 - v' := by linarith
            subst u u'
            generalize v' / v = q at e1 ⊢
            subst e1
            module
        · right
          rcases eq_or_lt_of_le hu with h0 | h0
          · have : u' = 0 := by linarith
            have : v' = 1 := by linarith
            have : v = 1 := by linarith
            subst v' v
            rw [‹u' = 0›, ← h0]
            simp
          · refine ⟨u' / u, 1 - u' / u, by positivity, by rw [sub_nonneg]; exact (div_le_one h0).2 (by linarith), by ring, ?_⟩
            have e1 : u' / u * u = u' := div_mul_cancel₀ _ h0.ne'
            have e2 : v = 1 - u := by linarith
            have e3 : v' = 1 - u' := by linarith
            subst v v'
            generalize u' / u = q at e1 ⊢
            subst e1
            module
      · exact (convex_segment _ _).segment_subset (left_mem_segment ..) hseg
      · exact (convex_segment _ _).segment_subset hseg (right_mem_segment ..)
    rw [ih ?_ ?_]
    · ext x
      unfold Package.region
      simp only [Set.mem_ofPred_eq, List.mem_append, List.mem_cons, List.not_mem_nil, or_false]
      constructor
      · rintro ⟨e, he | rfl, hx⟩
        · exact ⟨e, by tauto, hx⟩
        · rw [hun] at hx
          rcases hx with hx | hx
          · exact ⟨a, by tauto, hx⟩
          · exact ⟨b, by tauto, hx⟩
      · rintro ⟨e, he, hx⟩
        have : (e ∈ l₁ ∨ e ∈ l₂) ∨ e ∈ l₃ ∨ e = a ∨ e = b := by tauto
        rcases this with h | h | rfl | rfl
        · exact ⟨e, .inl (.inl h), hx⟩
        · exact ⟨e, .inl (.inr h), hx⟩
        · exact ⟨c, .inr rfl, by rw [hun]; exact .inl hx⟩
        · exact ⟨c, .inr rfl, by rw [hun]; exact .inr hx⟩
    · intro e he
      rcases List.mem_append.1 he with he | he
      · exact hok e (sub e he)
      · rw [List.mem_singleton.1 he]
        intro m
        fin_cases m
        · exact c0 ▸ hok a ma _
        · exact c1 ▸ hok b mb _
    · intro e he
      rcases List.mem_append.1 he with he | he
      · exact hC e (sub e he)
      · rw [List.mem_singleton.1 he]
        intro m
        fin_cases m
        · exact c0 ▸ hC a ma _
        · exact c1 ▸ hC b mb _

/-- `surface_cleaner` for any coplanarity test, any way to find the border of a group, any way to drop doubles and any
way to join two segments, on triangles that fit together: no exception, every end is a corner, every corner that is the
strict minimum of a linear function and has a side of its own in its plane stays, and the points covered are those of the
sides that no other triangle of the same group has. -/
theorem cleaner_generic (p : Package) (o : Obj 3) (hne : o ≠ []) (hok : Obj.Ok o) (hprop : ∀ t ∈ o, Proper (p.perps t))
    (hapart : ∀ i j : Fin o.length, i ≠ j → OnePlane (p.perps (o.get i)) (p.perps (o.get j)) →
      inside (p.perps (o.get i)) ∩ inside (p.perps (o.get j)) = ∅)
    {cop : Nat → Nat → Py Bool} {judged : Nat → Nat → Bool}
    (hcop : ∀ i j, i < o.length → j < o.length → cop i j = .ok (judged i j))
    (hj : ∀ a b : Fin o.length, judged a b = true → OnePlane (p.perps (o.get a)) (p.perps (o.get b)))
    {border : Obj 3 → Py (Obj 2)}
    (hborder : ∀ g : Obj 3, (∀ t ∈ g, t ∈ o) → ∃ out, border g = .ok out ∧
      ∀ e, e ∈ out ↔ ∃ j, e = side g j ∧ ∀ k, sideSet p g k = sideSet p g j → k = j)
    {uniq : Obj 2 → Py (Obj 2)}
    (huniq : ∀ l : Obj 2, (∀ e ∈ l, ∃ t ∈ o, ∃ i j, i ≠ j ∧ e = edge t i j) → ∃ r, uniq l = .ok r ∧ (∀ e ∈ r, e ∈ l) ∧
      ∀ e ∈ l, ∃ e' ∈ r, Set.range (p.perps e') = Set.range (p.perps e))
    {merge : Simplex 2 → Simplex 2 → Py (Option (Simplex 2))} {m : Simplex 2 → Simplex 2 → Option (Simplex 2)}
    (hmerge : ∀ a b, Simplex.Ok a → Simplex.Ok b → (∀ i, ∃ t ∈ o, ∃ j, a i = t j) → (∀ i, ∃ t ∈ o, ∃ j, b i = t j) →
      merge a b = .ok (m a b))
    (hm : Joins p {v | ∃ t ∈ o, ∃ j, v = t j} m) :
    ∃ out, (do
        let sets ← setsOfCoplanar cop o
        let borders ← fillList border sets
        if borders.any List.isEmpty then .error .valueError
        else
          let edges ← uniq borders.flatten
          mergeAll merge edges) = .ok out ∧ Obj.Ok out ∧ out ≠ [] ∧
      (∀ e ∈ out, ∀ i, ∃ t ∈ o, ∃ j, e i = t j) ∧
      (∀ (V : Fin 3 → ℝ) (f : (Fin 3 → ℝ) →ₗ[ℝ] ℝ), (∀ x ∈ p.corners o, x ≠ V → f V < f x) →
        (∃ a : Fin o.length, ∃ x y : Fin 3, x ≠ y ∧ p.perp (o.get a x) = V ∧
          ∀ b x' y', p.perp (o.get b x') = V → p.perp (o.get b y') = p.perp (o.get a y) →
            OnePlane (p.perps (o.get b)) (p.perps (o.get a)) → b = a) →
        ∃ e ∈ out, ∃ i, p.perp (e i) = V) ∧
      ∃ (groups : List (List (Fin o.length))), IsGrouping o.length judged groups ∧
        p.region out = {x | ∃ g ∈ groups, ∃ a ∈ g, ∃ m, (∀ b ∈ g, ∀ k,
          p.perps (o.get b) '' {j | j ≠ k} = p.perps (o.get a) '' {j | j ≠ m} → (b, k) = (a, m)) ∧
          x ∈ solid (fun i => p.perps (o.get a) (m.succAbove i))} := by
  classical
  have hcor : ∀ t ∈ o, ∀ i, p.perp (t i) ∈ p.corners o := fun t ht i => ⟨t, ht, i, rfl⟩
  obtain ⟨groups, hsets, hgrp⟩ := C28_partition cop judged o hne hcop
  have hplane := fun {g} hg => group_plane (T := fun a => p.perps (o.get a)) (fun a => hprop _ (List.get_mem _ _)) hj hgrp
    (g := g) hg
  have hnodup : ∀ g ∈ groups, g.Nodup := fun g hg =>
    (List.nodup_flatten.1 (hgrp.partition.nodup_iff.2 (List.nodup_finRange _))).1 g hg
  -- positions in a group
  have hpos : ∀ g : List (Fin o.length), ∃ pos : Fin (g.map o.get).length → Fin o.length,
      (∀ k, (g.map o.get).get k = o.get (pos k) ∧ pos k ∈ g) ∧ (∀ a ∈ g, ∃ k, pos k = a) ∧
      (g.Nodup → Function.Injective pos) := by
    intro g
    have hlen : (g.map o.get).length = g.length := List.length_map _
    refine ⟨fun k => g.get (k.cast hlen), fun k => ⟨by simp, List.get_mem _ _⟩, fun a ha => ?_, fun hn k k' e => ?_⟩
    · obtain ⟨i, rfl⟩ := List.get_of_mem ha
      exact ⟨i.cast hlen.symm, rfl⟩
    · have := List.nodup_iff_injective_get.1 hn e
      exact Fin.ext (by simpa using congrArg Fin.val this)
  have hsub : ∀ g ∈ groups, ∀ t ∈ g.map o.get, t ∈ o := by
    intro g _ t ht
    obtain ⟨i, -, rfl⟩ := List.mem_map.1 ht
    exact List.get_mem _ _
  replace hborder : ∀ g ∈ groups, _ := fun g hg => hborder (g.map o.get) (hsub g hg)
  -- a side of one triangle only is in the border
  have hlone : ∀ g ∈ groups, ∀ out, border (g.map o.get) = .ok out →
      ∀ (a : Fin (g.map o.get).length) (x y : Fin 3), x ≠ y →
      (∀ b x' y', p.perp ((g.map o.get).get b x') = p.perp ((g.map o.get).get a x) →
        p.perp ((g.map o.get).get b y') = p.perp ((g.map o.get).get a y) → b = a) →
      ∃ e ∈ out, ∃ i, p.perp (e i) = p.perp ((g.map o.get).get a x) := by
    intro g hg out hout a x y hxy hl
    obtain ⟨out', h1, h2⟩ := hborder g hg
    rw [hout] at h1
    cases h1
    obtain ⟨z, hxz, hyz, hz⟩ : ∃ z : Fin 3, x ≠ z ∧ y ≠ z ∧ ∀ w, w = x ∨ w = y ∨ w = z := by
      clear hl; revert x y; decide
    have mx : p.perp ((g.map o.get).get a x) ∈ sideSet p (g.map o.get) (a, z) := ⟨x, hxz, rfl⟩
    have my : p.perp ((g.map o.get).get a y) ∈ sideSet p (g.map o.get) (a, z) := ⟨y, hyz, rfl⟩
    refine ⟨side (g.map o.get) (a, z), (h2 _).2 ⟨(a, z), rfl, ?_⟩, ?_⟩
    · rintro ⟨b, w⟩ hk
      rw [← hk] at mx my
      obtain ⟨x', hx', ex⟩ := mx
      obtain ⟨y', hy', ey⟩ := my
      obtain rfl := hl b x' y' ex ey
      have inj := (hprop _ (hsub g hg _ (List.get_mem _ b))).injective
      obtain rfl := inj ex
      obtain rfl := inj ey
      rcases hz w with rfl | rfl | rfl
      · exact absurd rfl hx'
      · exact absurd rfl hy'
      · rfl
    · obtain ⟨i, hi⟩ := Fin.exists_succAbove_eq hxz
      exact ⟨i, by change p.perp ((g.map o.get).get a (z.succAbove i)) = _; rw [hi]⟩
  choose! bd hbd hbm using hborder
  set G := groups.map fun g => g.map o.get with hG
  have hfill : fillList (border) G = .ok (G.map fun g => match border g with | .ok x => x | .error _ => []) := by
    refine fillList_ok fun g hg => ?_
    obtain ⟨l, hl, rfl⟩ := List.mem_map.1 hg
    rw [hbd l hl]
  have hGmap : (G.map fun g => match border g with | .ok x => x | .error _ => []) = groups.map bd := by
    rw [hG, List.map_map]
    refine List.map_congr_left fun l hl => ?_
    simp only [Function.comp_apply, hbd l hl]
  rw [hGmap] at hfill
  have hne' : (groups.map bd).any List.isEmpty = false := by
    rw [Bool.eq_false_iff]
    intro hany
    obtain ⟨b, hb, he⟩ := List.any_eq_true.1 hany
    obtain ⟨g, hg, rfl⟩ := List.mem_map.1 hb
    obtain ⟨pos, hp1, hp2, hp3⟩ := hpos g
    obtain ⟨n, hn, d, hd⟩ := hplane hg
    obtain ⟨lead, rest, hgl, -⟩ := hgrp.group g hg
    obtain ⟨k0, -⟩ := hp2 lead (by rw [hgl]; simp)
    have : Nonempty (Fin (g.map o.get).length) := ⟨k0⟩
    obtain ⟨a, x, y, hxy, hl⟩ := lone_side (T := fun k => p.perps ((g.map o.get).get k))
      (fun k => hprop _ (hsub g hg _ (List.get_mem _ k))) hn (d := d)
      (fun k i => by rw [(hp1 k).1]; exact hd _ (hp1 k).2 i)
      (fun k k' hkk => by
        rw [(hp1 k).1, (hp1 k').1]
        exact hapart _ _ (fun e => hkk (hp3 (hnodup g hg) e))
          ⟨n, hn, d, fun i => ⟨hd _ (hp1 k).2 i, hd _ (hp1 k').2 i⟩⟩)
    obtain ⟨e, he', -⟩ := hlone g hg _ (hbd g hg) a x y hxy hl
    rw [List.isEmpty_iff.1 he] at he'
    exact absurd he' List.not_mem_nil
  -- edges of the border
  have hB : ∀ e ∈ (groups.map bd).flatten, ∃ t ∈ o, ∃ i j, i ≠ j ∧ e = edge t i j := by
    intro e he
    obtain ⟨b, hb, he⟩ := List.mem_flatten.1 he
    obtain ⟨g, hg, rfl⟩ := List.mem_map.1 hb
    obtain ⟨j, rfl, -⟩ := (hbm g hg e).1 he
    obtain ⟨a, c, hac, -, -, e1⟩ := edge_side j
    exact ⟨_, hsub g hg _ (List.get_mem _ _), a, c, hac, e1⟩
  have hBok : Obj.Ok (groups.map bd).flatten := by
    intro e he
    obtain ⟨t, ht, i, j, -, rfl⟩ := hB e he
    intro k; fin_cases k <;> exact hok t ht _
  obtain ⟨r, hr, r1, r3⟩ := huniq (groups.map bd).flatten hB
  have hrC : ∀ e ∈ r, ∀ i, e i ∈ {v | ∃ t ∈ o, ∃ j, v = t j} := by
    intro e he m
    obtain ⟨t, ht, i, j, -, rfl⟩ := hB e (r1 e he)
    fin_cases m
    · exact ⟨t, ht, i, rfl⟩
    · exact ⟨t, ht, j, rfl⟩
  obtain ⟨out, k, m1, m2, m3, -⟩ := mergeAll_ok (merge := merge) (m := m)
    (P := fun e => Simplex.Ok e ∧ ∀ i, ∃ t ∈ o, ∃ j, e i = t j)
    (fun a b ha hb => hmerge a b ha.1 hb.1 ha.2 hb.2)
    (fun a b c ha hb hc => by
      obtain ⟨i, j, rfl, -⟩ := hm a b c ha.1 hb.1 ha.2 hb.2 hc
      constructor
      · intro k; fin_cases k
        · exact ha.1 _
        · exact hb.1 _
      · intro k; fin_cases k
        · exact ha.2 _
        · exact hb.2 _)
    (edges := r) (fun e he => ⟨hBok e (r1 e he), fun m => by
      obtain ⟨t, ht, i, j, -, rfl⟩ := hB e (r1 e he)
      fin_cases m
      · exact ⟨t, ht, i, rfl⟩
      · exact ⟨t, ht, j, rfl⟩⟩)
  have hmain : ∀ (V : Fin 3 → ℝ) (f : (Fin 3 → ℝ) →ₗ[ℝ] ℝ), (∀ x ∈ p.corners o, x ≠ V → f V < f x) →
      (∃ a : Fin o.length, ∃ x y : Fin 3, x ≠ y ∧ p.perp (o.get a x) = V ∧
        ∀ b x' y', p.perp (o.get b x') = V → p.perp (o.get b y') = p.perp (o.get a y) →
          OnePlane (p.perps (o.get b)) (p.perps (o.get a)) → b = a) →
      ∃ e ∈ out, ∃ i, p.perp (e i) = V := by
    rintro V f hf ⟨a, x, y, hxy, hV, hl⟩
    refine merge_keeps hm (by rintro v ⟨t, ht, j, rfl⟩ hv; exact hf _ (hcor t ht j) hv) m3 (fun e he => hBok e (r1 e he)) hrC ?_
    obtain ⟨g, hg, hag⟩ := List.mem_flatten.1 (hgrp.partition.mem_iff.2 (List.mem_finRange a))
    obtain ⟨pos, hp1, hp2, hp3⟩ := hpos g
    obtain ⟨n, hn, d, hd⟩ := hplane hg
    obtain ⟨k0, rfl⟩ := hp2 a hag
    obtain ⟨e, he, i, hi⟩ := hlone g hg _ (hbd g hg) k0 x y hxy (by
      intro b x' y' h1 h2
      rw [(hp1 b).1, (hp1 k0).1] at h1 h2
      exact hp3 (hnodup g hg) (hl _ x' y' (h1.trans hV) h2
        ⟨n, hn, d, fun i => ⟨hd _ (hp1 b).2 i, hd _ hag i⟩⟩))
    rw [(hp1 k0).1, hV] at hi
    have heB : e ∈ (groups.map bd).flatten := List.mem_flatten.2 ⟨_, List.mem_map_of_mem hg, he⟩
    obtain ⟨e', he', hc⟩ := r3 e heB
    have hVm : V ∈ Set.range (p.perps e') := by rw [hc]; exact ⟨i, hi⟩
    obtain ⟨m, hm⟩ := hVm
    exact ⟨_, he', m, hm⟩
  refine ⟨out, ?_, fun e he => (m2 e he).1, ?_, fun e he => (m2 e he).2, hmain, groups,
    hgrp, ?_⟩
  · rw [hsets, bind_ok', hfill, bind_ok', if_neg (by rw [hne']; exact Bool.false_ne_true), hr, bind_ok', m1]
  · intro h0
    subst h0
    obtain ⟨g, hg⟩ : ∃ g, g ∈ groups := by
      obtain ⟨t, ht⟩ := List.exists_mem_of_ne_nil _ hne
      obtain ⟨i, -⟩ := List.get_of_mem ht
      obtain ⟨g, hg, -⟩ := List.mem_flatten.1 (hgrp.partition.mem_iff.2 (List.mem_finRange i))
      exact ⟨g, hg⟩
    have hb0 : bd g ≠ [] := fun hb => by
      rw [Bool.eq_false_iff] at hne'
      exact hne' (List.any_eq_true.2 ⟨_, List.mem_map_of_mem hg, List.isEmpty_iff.2 hb⟩)
    obtain ⟨e, he⟩ := List.exists_mem_of_ne_nil _ hb0
    obtain ⟨e', he', -⟩ := r3 e (List.mem_flatten.2 ⟨_, List.mem_map_of_mem hg, he⟩)
    have aux : ∀ {l l' : Obj 2} {k : Nat}, MergeSteps m l k l' → l ≠ [] → l' ≠ [] := by
      intro l l' k hm
      induction hm with
      | refl => exact id
      | step _ _ ih => exact fun _ => ih (by simp)
    exact aux m3 (List.ne_nil_of_mem he') rfl
  · rw [merge_region hm m3 (fun e he => hBok e (r1 e he)) hrC]
    ext x
    constructor
    · rintro ⟨e, he, hx⟩
      obtain ⟨b, hb, he⟩ := List.mem_flatten.1 (r1 e he)
      obtain ⟨g, hg, rfl⟩ := List.mem_map.1 hb
      obtain ⟨⟨k0, m⟩, rfl, hl⟩ := (hbm g hg e).1 he
      obtain ⟨pos, hp1, hp2, hp3⟩ := hpos g
      refine ⟨g, hg, pos k0, (hp1 k0).2, m, ?_, ?_⟩
      · intro b hb k e
        obtain ⟨k1, rfl⟩ := hp2 b hb
        have := hl (k1, k) (by
          unfold sideSet
          dsimp only
          rw [(hp1 k1).1, (hp1 k0).1]
          exact e)
        obtain ⟨e1, e2⟩ := Prod.mk.inj this
        rw [e1, e2]
      · have hx : x ∈ solid (fun i => p.perps ((g.map o.get).get k0) (m.succAbove i)) := hx
        rw [(hp1 k0).1] at hx
        exact hx
    · rintro ⟨g, hg, a, hag, m, hl, hx⟩
      obtain ⟨pos, hp1, hp2, hp3⟩ := hpos g
      obtain ⟨k0, rfl⟩ := hp2 a hag
      have heB : side (g.map o.get) (k0, m) ∈ (groups.map bd).flatten := by
        refine List.mem_flatten.2 ⟨_, List.mem_map_of_mem hg, (hbm g hg _).2 ⟨(k0, m), rfl, ?_⟩⟩
        rintro ⟨k1, k⟩ e
        unfold sideSet at e
        dsimp only at e
        rw [(hp1 k1).1, (hp1 k0).1] at e
        obtain ⟨e1, e2⟩ := Prod.mk.inj (hl _ (hp1 k1).2 k e)
        exact Prod.ext (hp3 (hnodup g hg) e1) e2
      obtain ⟨e', he', hc⟩ := r3 _ heB
      refine ⟨_, he', ?_⟩
      have hs : solid (p.perps e') = solid (p.perps (side (g.map o.get) (k0, m))) := by
        unfold solid
        rw [hc]
      rw [hs]
      change x ∈ solid (fun i => p.perps ((g.map o.get).get k0) (m.succAbove i))
      rw [(hp1 k0).1]
      exact hx

/-- The cleaner on triangles that fit together: no exception, every end is a corner, every corner that is the strict
minimum of a linear function and has a side of its own in its plane stays, and the points covered are those of the sides
that no other triangle of the same group has. -/
theorem cleaner_full (p : Package) (draws : Nat → Nat → (n : Nat) → Draws n) (o : Obj 3) (h : SharpTriangles p o) :
    ∃ out, surfaceCleaner p (surfaceCop p draws o) o = .ok out ∧ Obj.Ok out ∧ out ≠ [] ∧
      (∀ e ∈ out, ∀ i, ∃ t ∈ o, ∃ j, e i = t j) ∧
      (∀ (V : Fin 3 → ℝ) (f : (Fin 3 → ℝ) →ₗ[ℝ] ℝ), (∀ x ∈ p.corners o, x ≠ V → f V < f x) →
        (∃ a : Fin o.length, ∃ x y : Fin 3, x ≠ y ∧ p.perp (o.get a x) = V ∧
          ∀ b x' y', p.perp (o.get b x') = V → p.perp (o.get b y') = p.perp (o.get a y) →
            OnePlane (p.perps (o.get b)) (p.perps (o.get a)) → b = a) →
        ∃ e ∈ out, ∃ i, p.perp (e i) = V) ∧
      ∃ (judged : Nat → Nat → Bool) (groups : List (List (Fin o.length))),
        (∀ i j : Fin o.length, coplanarCheckTwoTriangles p (draws i j) (o.get i) (o.get j) = .ok (judged i j)) ∧
        IsGrouping o.length judged groups ∧
        p.region out = {x | ∃ g ∈ groups, ∃ a ∈ g, ∃ m, (∀ b ∈ g, ∀ k,
          p.perps (o.get b) '' {j | j ≠ k} = p.perps (o.get a) '' {j | j ≠ m} → (b, k) = (a, m)) ∧
          x ∈ solid (fun i => p.perps (o.get a) (m.succAbove i))} := by
  have hcor : ∀ t ∈ o, ∀ i, p.perp (t i) ∈ p.corners o := fun t ht i => ⟨t, ht, i, rfl⟩
  obtain ⟨judged, hcop⟩ := surfaceCop_ok p draws h.ok
  have hjudge : ∀ i j : Fin o.length, coplanarCheckTwoTriangles p (draws i j) (o.get i) (o.get j) = .ok (judged i j) := by
    intro i j
    have := hcop i j i.2 j.2
    unfold surfaceCop at this
    simpa [List.getD] using this
  obtain ⟨out, h1, h2, h3, h4, h5, groups, h6, h7⟩ := cleaner_generic p o h.ne h.ok h.proper h.apart hcop
    (fun a b hab => twoTriangles_true h.flat (h.ok _ (List.get_mem _ _)) (h.ok _ (List.get_mem _ _))
      (hcor _ (List.get_mem _ _)) (hcor _ (List.get_mem _ _)) ((hjudge a b).trans (by rw [hab])))
    (border := borderEdges p) (fun g hsub => by
      refine C55_border p g (fun t ht => h.ok t (hsub t ht)) (fun t ht => Proper.injective (T := p.perps t) (h.proper t (hsub t ht))) fun i j hij => ?_
      rw [← range_side, ← range_side]
      obtain ⟨a, b, hab, -, -, e1⟩ := edge_side i
      obtain ⟨c, d, hcd, -, -, e2⟩ := edge_side j
      rw [e1, e2] at hij ⊢
      exact h.edges _ (hsub _ (List.get_mem _ _)) _ (hsub _ (List.get_mem _ _)) a b c d hab hcd hij)
    (uniq := generatorUniqueEdges p) (fun l hl => by
      obtain ⟨r, hr, r1, -, r3⟩ := C27_unique_edges_edges p l (by
        intro e he
        obtain ⟨t, ht, i, j, -, rfl⟩ := hl e he
        intro k; fin_cases k <;> exact h.ok t ht _)
      refine ⟨r, hr, r1, fun e he => ?_⟩
      obtain ⟨e', ⟨he', hc⟩, -⟩ := r3 e he
      obtain ⟨t, ht, i1, j1, hij, rfl⟩ := hl e he
      obtain ⟨t', ht', i2, j2, hij', rfl⟩ := hl e' (r1 e' he')
      exact ⟨_, he', h.edges t' ht' t ht i2 j2 i1 j1 hij' hij hc⟩)
    (merge := twoSegmentIntoOne p) (m := joinSegments p) (fun a b ha hb _ _ => twoSegmentIntoOne_ok p ha hb)
    (joinSegments_joins (by rintro v ⟨t, ht, j, rfl⟩; exact hcor t ht j) h.line)
  exact ⟨out, h1, h2, h3, h4, h5, judged, groups, hjudge, h6, h7⟩

theorem cleaner_keeps (p : Package) (draws : Nat → Nat → (n : Nat) → Draws n) (o : Obj 3) (h : SharpTriangles p o) :
    ∃ out, surfaceCleaner p (surfaceCop p draws o) o = .ok out ∧ Obj.Ok out ∧ out ≠ [] ∧
      (∀ e ∈ out, ∀ i, ∃ t ∈ o, ∃ j, e i = t j) ∧
      ∀ (V : Fin 3 → ℝ) (f : (Fin 3 → ℝ) →ₗ[ℝ] ℝ), (∀ x ∈ p.corners o, x ≠ V → f V < f x) →
        (∃ a : Fin o.length, ∃ x y : Fin 3, x ≠ y ∧ p.perp (o.get a x) = V ∧
          ∀ b x' y', p.perp (o.get b x') = V → p.perp (o.get b y') = p.perp (o.get a y) →
            OnePlane (p.perps (o.get b)) (p.perps (o.get a)) → b = a) →
        ∃ e ∈ out, ∃ i, p.perp (e i) = V := by
  obtain ⟨out, h1, h2, h3, h4, h5, -⟩ := cleaner_full p draws o h
  exact ⟨out, h1, h2, h3, h4, h5⟩

end PyQC
