import Verif.Lemmas.Boundary
import Verif.Lemmas.Cone
import Verif.Lemmas.SharpGrid
import Verif.Spec.Outline
/-!
# The boundary of a union of triangles in a plane
-/
namespace PyQC
open Topology Matrix

section cone

variable {T : Fin 3 → Fin 3 → ℝ} {n : Fin 3 → ℝ} {d : ℝ} {P x : Fin 3 → ℝ}

theorem bc_plane (hT : Proper T) (hd : ∀ i, n ⬝ᵥ T i = d) (hP : n ⬝ᵥ P ≠ d) (hx : n ⬝ᵥ x = d) :
    bc (cone P T) x 0 = 0 := by
  have hb := bc_spec (det4_cone hT hd hP) x
  have h1 := dot_bary hb n
  have h2 := hb.1
  rw [Fin.sum_univ_succ] at h1 h2
  simp only [cone_zero, cone_succ, hd, ← Finset.sum_mul] at h1
  rw [hx, show ∑ i : Fin 3, bc (cone P T) x i.succ = 1 - bc (cone P T) x 0 by linarith] at h1
  have : bc (cone P T) x 0 * (n ⬝ᵥ P - d) = 0 := by linear_combination -h1
  exact (mul_eq_zero.1 this).resolve_right (sub_ne_zero.2 hP)

/-- The barycentric coordinates in the triangle of a point of its plane. -/
theorem planar_bary (hT : Proper T) (hd : ∀ i, n ⬝ᵥ T i = d) (hP : n ⬝ᵥ P ≠ d) (hx : n ⬝ᵥ x = d) :
    IsBary T (fun i => bc (cone P T) x i.succ) x := by
  have hb := bc_spec (det4_cone hT hd hP) x
  have h0 := bc_plane hT hd hP hx
  have h1 := hb.1
  have h2 := hb.2
  rw [Fin.sum_univ_succ, h0] at h1 h2
  simp only [cone_succ, zero_add, zero_smul] at h1 h2
  exact ⟨h1, h2⟩

theorem planar_bary_eq (hT : Proper T) (hd : ∀ i, n ⬝ᵥ T i = d) (hP : n ⬝ᵥ P ≠ d) {w : Fin 3 → ℝ} (hw : IsBary T w x) (i : Fin 3) :
    bc (cone P T) x i.succ = w i := by
  have : IsBary (cone P T) (Fin.cons 0 w) x := by
    constructor
    · rw [Fin.sum_univ_succ]; simpa using hw.1
    · rw [Fin.sum_univ_succ]
      simp only [Fin.cons_zero, Fin.cons_succ, cone_succ, zero_smul, zero_add]
      exact hw.2
  rw [bc_eq (det4_cone hT hd hP) this, Fin.cons_succ]

theorem plane_of_bary {m : Nat} {q : Fin m → Fin 3 → ℝ} (hd : ∀ i, n ⬝ᵥ q i = d) {w : Fin m → ℝ} (hw : IsBary q w x) :
    n ⬝ᵥ x = d := by
  rw [dot_bary hw]
  simp only [hd, ← Finset.sum_mul, hw.1, one_mul]

theorem plane_of_solid {m : Nat} {q : Fin m → Fin 3 → ℝ} (hd : ∀ i, n ⬝ᵥ q i = d) (hx : x ∈ solid q) : n ⬝ᵥ x = d := by
  obtain ⟨w, hw, -⟩ := mem_solid_iff.1 hx
  exact plane_of_bary hd hw

theorem planar_solid (hT : Proper T) (hd : ∀ i, n ⬝ᵥ T i = d) (hP : n ⬝ᵥ P ≠ d) (hx : n ⬝ᵥ x = d) :
    x ∈ solid T ↔ ∀ i : Fin 3, 0 ≤ bc (cone P T) x i.succ := by
  rw [mem_solid_iff]
  constructor
  · rintro ⟨w, hw, h0⟩ i
    rw [planar_bary_eq hT hd hP hw]
    exact h0 i
  · intro h0
    exact ⟨_, planar_bary hT hd hP hx, h0⟩

theorem planar_side (hT : Proper T) (hd : ∀ i, n ⬝ᵥ T i = d) (hP : n ⬝ᵥ P ≠ d) (hx : n ⬝ᵥ x = d) (m : Fin 3) :
    x ∈ solid (fun i => T (m.succAbove i)) ↔ x ∈ solid T ∧ bc (cone P T) x m.succ = 0 := by
  constructor
  · intro h
    obtain ⟨w, hw, h0⟩ := mem_solid_iff.1 h
    have hb : IsBary T (m.insertNth 0 w) x := by
      constructor
      · rw [Fin.sum_univ_succAbove _ m]; simpa using hw.1
      · rw [Fin.sum_univ_succAbove _ m]
        simp only [Fin.insertNth_apply_same, Fin.insertNth_apply_succAbove, zero_smul, zero_add]
        exact hw.2
    refine ⟨mem_solid_iff.2 ⟨_, hb, fun i => ?_⟩, ?_⟩
    · rcases Fin.eq_self_or_eq_succAbove m i with rfl | ⟨k, rfl⟩
      · simp
      · simpa using h0 k
    · rw [planar_bary_eq hT hd hP hb]; simp
  · rintro ⟨h, h0⟩
    have hp := (planar_solid hT hd hP hx).1 h
    have hb := planar_bary hT hd hP hx
    refine mem_solid_iff.2 ⟨fun i => bc (cone P T) x (m.succAbove i).succ, ⟨?_, ?_⟩, fun i => hp _⟩
    · have := hb.1
      rw [Fin.sum_univ_succAbove _ m, h0, zero_add] at this
      exact this
    · have := hb.2
      rw [Fin.sum_univ_succAbove _ m] at this
      dsimp only at this
      rw [h0, zero_smul, zero_add] at this
      exact this

/-- Coordinates of the point halfway to the apex. -/
theorem bc_half (hT : Proper T) (hd : ∀ i, n ⬝ᵥ T i = d) (hP : n ⬝ᵥ P ≠ d) (x : Fin 3 → ℝ) (i : Fin 4) :
    bc (cone P T) ((1 - 1 / 2 : ℝ) • x + (1 / 2 : ℝ) • P) i = 1 / 2 * bc (cone P T) x i + 1 / 2 * (Pi.single 0 1 : Fin 4 → ℝ) i := by
  have hc := det4_cone hT hd hP
  rw [bc_comb hc, show bc (cone P T) P = Pi.single 0 1 from bc_corner hc 0]
  norm_num

theorem solid_half (hT : Proper T) (hd : ∀ i, n ⬝ᵥ T i = d) (hP : n ⬝ᵥ P ≠ d) (hx : n ⬝ᵥ x = d) :
    ((1 - 1 / 2 : ℝ) • x + (1 / 2 : ℝ) • P) ∈ solid (cone P T) ↔ x ∈ solid T := by
  rw [mem_solid_bc (det4_cone hT hd hP), planar_solid hT hd hP hx]
  constructor
  · intro h i
    have := h i.succ
    rw [bc_half hT hd hP] at this
    simp at this
    linarith
  · intro h i
    rw [bc_half hT hd hP]
    refine Fin.cases ?_ (fun i => ?_) i
    · rw [bc_plane hT hd hP hx]; simp
    · have := h i; simp; linarith

end cone

/-- No other side has the same ends. -/
def LoneSide {ι : Type} (T : ι → Fin 3 → Fin 3 → ℝ) (a : ι) (m : Fin 3) : Prop :=
  ∀ b k, T b '' {j | j ≠ k} = T a '' {j | j ≠ m} → (b, k) = (a, m)

/-- The union of triangles. -/
def spread {ι : Type} (T : ι → Fin 3 → Fin 3 → ℝ) : Set (Fin 3 → ℝ) := {x | ∃ a, x ∈ solid (T a)}

variable {ι : Type} [Finite ι] {T : ι → Fin 3 → Fin 3 → ℝ} {n : Fin 3 → ℝ} {d : ℝ}

theorem spread_closed : IsClosed (spread T) := by
  have : spread T = ⋃ a, solid (T a) := by ext; simp [spread]
  rw [this]
  exact isClosed_iUnion_of_finite fun a => (solid_compact (T a)).isClosed

omit [Finite ι] in
theorem cone_image {P : Fin 3 → ℝ} (a : ι) (m : Fin 3) :
    cone P (T a) '' {j | j ≠ m.succ} = insert P (T a '' {j | j ≠ m}) := by
  ext x
  constructor
  · rintro ⟨j, hj, rfl⟩
    refine Fin.cases ?_ (fun j => ?_) j (motive := fun j => j ≠ m.succ → cone P (T a) j ∈ insert P (T a '' {j | j ≠ m})) hj
    · intro _; exact Set.mem_insert _ _
    · intro hj
      rw [cone_succ]
      exact Set.mem_insert_of_mem _ ⟨j, fun e => hj (by rw [e]), rfl⟩
  · rintro (rfl | ⟨j, hj, rfl⟩)
    · exact ⟨0, (Fin.succ_ne_zero m).symm, rfl⟩
    · exact ⟨j.succ, fun e => hj (Fin.succ_injective _ e), cone_succ _ _ _⟩

/-- A point of the union around which no disc belongs to the union is on a side of one triangle only. -/
theorem planar_lone (hT : ∀ a, Proper (T a)) (hn : n ≠ 0) (hd : ∀ a i, n ⬝ᵥ T a i = d)
    (hno : ∀ a b, a ≠ b → inside (T a) ∩ inside (T b) = ∅) {x : Fin 3 → ℝ} (hx : x ∈ spread T)
    (hi : spread T ∉ 𝓝[{y | n ⬝ᵥ y = d}] x) :
    ∃ a m, LoneSide T a m ∧ x ∈ solid (fun i => T a (m.succAbove i)) := by
  obtain ⟨a0, ha0⟩ := hx
  have hxd : n ⬝ᵥ x = d := plane_of_solid (hd a0) ha0
  set P := x + n with hPdef
  have hP : n ⬝ᵥ P ≠ d := by
    rw [hPdef, dotProduct_add, hxd]
    simpa using fun h => hn (dotProduct_self_eq_zero.1 h)
  have hq : ∀ a, det4 (cone P (T a)) ≠ 0 := fun a => det4_cone (hT a) (hd a) hP
  obtain ⟨a, l, hf, hz⟩ := free_through (q := fun a => cone P (T a)) hq
    (fun a b hab => cone_disjoint (hT a) (hT b) (hd a) (hd b) hP (hno a b hab))
    (z := (1 - 1 / 2 : ℝ) • x + (1 / 2 : ℝ) • P) ⟨a0, (solid_half (hT a0) (hd a0) hP hxd).2 ha0⟩ (by
      intro hcon
      apply hi
      have hc : Continuous fun y : Fin 3 → ℝ => (1 - 1 / 2 : ℝ) • y + (1 / 2 : ℝ) • P := by fun_prop
      have := (hc.tendsto x).eventually (isOpen_interior.mem_nhds hcon)
      filter_upwards [self_mem_nhdsWithin, this.filter_mono nhdsWithin_le_nhds] with y hy hy'
      obtain ⟨a, ha⟩ := interior_subset hy'
      exact ⟨a, (solid_half (hT a) (hd a) hP hy).1 ha⟩)
  have hl : l ≠ 0 := by
    rintro rfl
    have := hz.2
    rw [bc_half (hT a) (hd a) hP, bc_plane (hT a) (hd a) hP hxd] at this
    norm_num at this
  obtain ⟨m, rfl⟩ := Fin.exists_succ_eq.2 hl
  refine ⟨a, m, fun b k e => ?_, ?_⟩
  · by_contra hne
    refine hf b k.succ (fun h => hne ?_) ?_
    · obtain ⟨h1, h2⟩ := Prod.mk.inj h
      rw [h1, Fin.succ_injective _ h2]
    · change cone P (T b) '' _ = cone P (T a) '' _
      rw [cone_image, cone_image, e]
  · refine (planar_side (hT a) (hd a) hP hxd m).2 ⟨(solid_half (hT a) (hd a) hP hxd).1 hz.1, ?_⟩
    have := hz.2
    rw [bc_half (hT a) (hd a) hP] at this
    simpa using this

/-- Two segments on one line with a common inside point, none of whose ends is inside the other, have the same ends. -/
theorem segments_same {A B C D z : Fin 3 → ℝ} (hCD : C ≠ D) {c e : ℝ} (hc : C = A + c • (B - A))
    (he : D = A + e • (B - A)) (hz : z ∈ openSegment ℝ A B) (hz' : z ∈ openSegment ℝ C D) (h1 : C ∉ openSegment ℝ A B)
    (h2 : D ∉ openSegment ℝ A B) (h3 : A ∉ openSegment ℝ C D) (h4 : B ∉ openSegment ℝ C D) : ({A, B} : Set _) = {C, D} := by
  have hAB : A ≠ B := by
    rintro rfl
    apply hCD
    rw [hc, he]
    simp
  have open_iff : ∀ t : ℝ, 0 < t → t < 1 → A + t • (B - A) ∈ openSegment ℝ A B := fun t h0 h1 =>
    ⟨1 - t, t, by linarith, h0, by ring, by module⟩
  have mix : ∀ t : ℝ, 0 < t → t < 1 → A + ((1 - t) * c + t * e) • (B - A) ∈ openSegment ℝ C D := fun t h0 h1 =>
    ⟨1 - t, t, by linarith, h0, by ring, by rw [hc, he]; module⟩
  have hce : c ≠ e := by rintro rfl; exact hCD (hc.trans he.symm)
  have between : ∀ s : ℝ, (c < s ∧ s < e ∨ e < s ∧ s < c) → A + s • (B - A) ∈ openSegment ℝ C D := by
    intro s hs
    have hd : e - c ≠ 0 := sub_ne_zero.2 (Ne.symm hce)
    have := mix ((s - c) / (e - c)) (by
      rcases hs with ⟨p, q⟩ | ⟨p, q⟩
      · exact div_pos (by linarith) (by linarith)
      · exact div_pos_of_neg_of_neg (by linarith) (by linarith)) (by
      rcases hs with ⟨p, q⟩ | ⟨p, q⟩
      · rw [div_lt_one (by linarith)]; linarith
      · rw [div_lt_one_of_neg (by linarith)]; linarith)
    rw [show (1 - (s - c) / (e - c)) * c + (s - c) / (e - c) * e = s by field_simp; ring] at this
    exact this
  have c1 : c ≤ 0 ∨ 1 ≤ c := by
    by_contra hcon
    push Not at hcon
    exact h1 (hc ▸ open_iff c hcon.1 hcon.2)
  have e1 : e ≤ 0 ∨ 1 ≤ e := by
    by_contra hcon
    push Not at hcon
    exact h2 (he ▸ open_iff e hcon.1 hcon.2)
  have n0 : ¬ (c < 0 ∧ 0 < e ∨ e < 0 ∧ 0 < c) := fun h => h3 (by simpa using between 0 h)
  have n1 : ¬ (c < 1 ∧ 1 < e ∨ e < 1 ∧ 1 < c) := fun h => h4 (by simpa using between 1 h)
  obtain ⟨u, v, hu, hv, huv, hz⟩ := hz
  obtain ⟨u', v', hu', hv', huv', hz'⟩ := hz'
  have hs : v = u' * c + v' * e := by
    have h5 : (v - (u' * c + v' * e)) • (B - A) = 0 := by
      have e2 : u • A + v • B = u' • C + v' • D := hz.trans hz'.symm
      rw [hc, he] at e2
      have hu1 : u = 1 - v := by linarith
      have hu2 : u' = 1 - v' := by linarith
      subst hu1 hu2
      have : (v - ((1 - v') * c + v' * e)) • (B - A) = ((1 - v) • A + v • B) -
        ((1 - v') • (A + c • (B - A)) + v' • (A + e • (B - A))) := by module
      rw [this, e2, sub_self]
    have := (smul_eq_zero.1 h5).resolve_right (sub_ne_zero.2 hAB.symm)
    linarith
  have hv1 : v < 1 := by linarith
  have key : (c = 0 ∧ e = 1) ∨ (c = 1 ∧ e = 0) := by
    rcases c1 with c1 | c1 <;> rcases e1 with e1 | e1
    · exfalso; nlinarith
    · left
      constructor
      · by_contra h
        exact n0 (.inl ⟨lt_of_le_of_ne c1 h, by linarith⟩)
      · by_contra h
        exact n1 (.inl ⟨by linarith, lt_of_le_of_ne e1 (Ne.symm h)⟩)
    · right
      constructor
      · by_contra h
        exact n1 (.inr ⟨by linarith, lt_of_le_of_ne c1 (Ne.symm h)⟩)
      · by_contra h
        exact n0 (.inr ⟨lt_of_le_of_ne e1 h, by linarith⟩)
    · exfalso; nlinarith
  rcases key with ⟨rfl, rfl⟩ | ⟨rfl, rfl⟩
  · simp at hc he
    rw [hc, he]
  · simp at hc he
    rw [hc, he, Set.pair_comm]

/-- The drop on the plane of a point seen from the apex. -/
noncomputable def drop (n : Fin 3 → ℝ) (d : ℝ) (P y : Fin 3 → ℝ) : Fin 3 → ℝ :=
  P + ((n ⬝ᵥ P - d) / (n ⬝ᵥ P - n ⬝ᵥ y)) • (y - P)

theorem drop_plane {P y : Fin 3 → ℝ} (h : n ⬝ᵥ y ≠ n ⬝ᵥ P) : n ⬝ᵥ drop n d P y = d := by
  unfold drop
  have : n ⬝ᵥ P - n ⬝ᵥ y ≠ 0 := sub_ne_zero.2 (Ne.symm h)
  rw [dotProduct_add, dotProduct_smul, dotProduct_sub, smul_eq_mul]
  field_simp
  ring

theorem drop_bc {S : Fin 3 → Fin 3 → ℝ} (hS : Proper S) (hd : ∀ i, n ⬝ᵥ S i = d) {P : Fin 3 → ℝ} (hP : n ⬝ᵥ P ≠ d)
    {y : Fin 3 → ℝ} (i : Fin 3) :
    bc (cone P S) (drop n d P y) i.succ = (n ⬝ᵥ P - d) / (n ⬝ᵥ P - n ⬝ᵥ y) * bc (cone P S) y i.succ := by
  have hc := det4_cone hS hd hP
  have e : drop n d P y = (1 - (n ⬝ᵥ P - d) / (n ⬝ᵥ P - n ⬝ᵥ y)) • P + ((n ⬝ᵥ P - d) / (n ⬝ᵥ P - n ⬝ᵥ y)) • y := by
    unfold drop; module
  rw [e, bc_comb hc, show bc (cone P S) P = Pi.single 0 1 from bc_corner hc 0]
  simp

theorem drop_half {P x : Fin 3 → ℝ} (hP : n ⬝ᵥ P ≠ d) (hx : n ⬝ᵥ x = d) :
    drop n d P ((1 - 1 / 2 : ℝ) • x + (1 / 2 : ℝ) • P) = x := by
  unfold drop
  have : n ⬝ᵥ P - d ≠ 0 := sub_ne_zero.2 hP
  rw [dotProduct_add, dotProduct_smul, dotProduct_smul, hx, smul_eq_mul, smul_eq_mul,
    show n ⬝ᵥ P - ((1 - 1 / 2) * d + 1 / 2 * n ⬝ᵥ P) = (n ⬝ᵥ P - d) / 2 by ring, div_div_cancel₀ this]
  module

theorem bc_height {S : Fin 3 → Fin 3 → ℝ} (hS : Proper S) (hd : ∀ i, n ⬝ᵥ S i = d) {P : Fin 3 → ℝ} (hP : n ⬝ᵥ P ≠ d)
    (y : Fin 3 → ℝ) : n ⬝ᵥ P - n ⬝ᵥ y = (n ⬝ᵥ P - d) * (1 - bc (cone P S) y 0) := by
  have hb := bc_spec (det4_cone hS hd hP) y
  have h1 := dot_bary hb n
  have h2 := hb.1
  rw [Fin.sum_univ_succ] at h1 h2
  simp only [cone_zero, cone_succ, hd, ← Finset.sum_mul] at h1
  rw [show ∑ i : Fin 3, bc (cone P S) y i.succ = 1 - bc (cone P S) y 0 by linarith] at h1
  linear_combination -h1

theorem dot_continuous (n : Fin 3 → ℝ) : Continuous fun y : Fin 3 → ℝ => n ⬝ᵥ y := by
  simp only [vec3_dotProduct]
  fun_prop

/-- The side opposite to a corner, from its ends. -/
theorem side_pair (S : Fin 3 → Fin 3 → ℝ) (m : Fin 3) : S '' {j | j ≠ m} = {S (m.succAbove 0), S (m.succAbove 1)} := by
  ext x
  constructor
  · rintro ⟨j, hj, rfl⟩
    obtain ⟨k, rfl⟩ := Fin.exists_succAbove_eq hj
    fin_cases k
    · exact Or.inl rfl
    · exact Or.inr rfl
  · rintro (rfl | rfl)
    · exact ⟨_, Fin.succAbove_ne _ _, rfl⟩
    · exact ⟨_, Fin.succAbove_ne _ _, rfl⟩

/-- No disc around a point of a side of one triangle only belongs to the union, if the triangles fit side by side. -/
theorem lone_not_inner (hT : ∀ a, Proper (T a)) (hn : n ≠ 0) (hd : ∀ a i, n ⬝ᵥ T a i = d)
    (hno : ∀ a b, a ≠ b → inside (T a) ∩ inside (T b) = ∅)
    (hfit : ∀ a b i j k, i ≠ j → T b k ∉ openSegment ℝ (T a i) (T a j)) {a : ι} {m : Fin 3} (hl : LoneSide T a m)
    {x : Fin 3 → ℝ} (hx : x ∈ solid (fun i => T a (m.succAbove i))) : spread T ∉ 𝓝[{y | n ⬝ᵥ y = d}] x := by
  intro hi
  have hxd : n ⬝ᵥ x = d := plane_of_solid (fun i => hd a _) hx
  set P := x + n with hPdef
  have hP : n ⬝ᵥ P ≠ d := by
    rw [hPdef, dotProduct_add, hxd]
    simpa using fun h => hn (dotProduct_self_eq_zero.1 h)
  have hP0 : n ⬝ᵥ P - d ≠ 0 := sub_ne_zero.2 hP
  have hq : ∀ a, det4 (cone P (T a)) ≠ 0 := fun a => det4_cone (hT a) (hd a) hP
  set y := (1 - 1 / 2 : ℝ) • x + (1 / 2 : ℝ) • P with hy
  obtain ⟨hx1, hx0⟩ := (planar_side (hT a) (hd a) hP hxd m).1 hx
  have hyf : y ∈ faceSet (fun a => cone P (T a)) a m.succ := by
    refine ⟨(solid_half (hT a) (hd a) hP hxd).2 hx1, ?_⟩
    rw [bc_half (hT a) (hd a) hP, hx0]
    simp
  have hyn : n ⬝ᵥ y = (d + n ⬝ᵥ P) / 2 := by
    rw [hy, dotProduct_add, dotProduct_smul, dotProduct_smul, hxd, smul_eq_mul, smul_eq_mul]; ring
  have hyP : n ⬝ᵥ P - n ⬝ᵥ y ≠ 0 := by
    rw [hyn]
    intro h
    apply hP0
    linarith
  refine face_not_interior (q := fun a => cone P (T a)) hq
    (fun a b hab => cone_disjoint (hT a) (hT b) (hd a) (hd b) hP (hno a b hab)) ?_ hyf ?_
  · intro b m' z hba hpl h1 h2 h3 h4
    have hm' : m' ≠ 0 := by
      rintro rfl
      have := hpl 0 (Fin.succ_ne_zero m).symm
      change bc (cone P (T b)) P 0 = 0 at this
      rw [show bc (cone P (T b)) P = Pi.single 0 1 from bc_corner (hq b) 0] at this
      simp at this
    obtain ⟨k, rfl⟩ := Fin.exists_succ_eq.2 hm'
    -- the common point in the plane
    have pos : ∀ i : Fin 4, 0 ≤ bc (cone P (T a)) z i := fun i => by
      by_cases h : i = m.succ
      · rw [h, h1]
      · exact (h2 i h).le
    have hz0 : 0 < 1 - bc (cone P (T a)) z 0 := by
      have hs := (bc_spec (hq a) z).1
      rw [Fin.sum_univ_succ] at hs
      rw [← hs, add_sub_cancel_left]
      refine Finset.sum_pos' (fun i _ => pos _) ⟨m.succAbove 0, Finset.mem_univ _, h2 _ fun e => ?_⟩
      exact Fin.succAbove_ne m 0 (Fin.succ_injective _ e)
    have hr : 0 < (n ⬝ᵥ P - d) / (n ⬝ᵥ P - n ⬝ᵥ z) := by
      rw [bc_height (hT a) (hd a) hP z, ← div_div, div_self hP0]
      exact one_div_pos.2 hz0
    have hzP : n ⬝ᵥ z ≠ n ⬝ᵥ P := by
      intro h
      rw [h, sub_self, div_zero] at hr
      exact lt_irrefl _ hr
    have hfd : n ⬝ᵥ drop n d P z = d := drop_plane hzP
    have open_of : ∀ c (k : Fin 3), bc (cone P (T c)) z k.succ = 0 → (∀ j, j ≠ k.succ → 0 < bc (cone P (T c)) z j) →
        drop n d P z ∈ openSegment ℝ (T c (k.succAbove 0)) (T c (k.succAbove 1)) := by
      intro c k hk hk'
      have hb := planar_bary (hT c) (hd c) hP hfd
      have e1 := hb.1
      have e2 := hb.2
      rw [Fin.sum_univ_succAbove _ k, Fin.sum_univ_two] at e1 e2
      rw [drop_bc (hT c) (hd c) hP, hk, mul_zero] at e1
      dsimp only at e2
      rw [drop_bc (hT c) (hd c) hP k, hk, mul_zero, zero_smul, zero_add] at e2
      rw [zero_add] at e1
      have hp : ∀ i, 0 < bc (cone P (T c)) (drop n d P z) (k.succAbove i).succ := fun i => by
        rw [drop_bc (hT c) (hd c) hP]
        exact mul_pos hr (hk' _ fun e => Fin.succAbove_ne k i (Fin.succ_injective _ e))
      exact ⟨_, _, hp 0, hp 1, e1, e2.symm⟩
    -- the line
    have on_line : ∀ i, i ≠ m → ∃ c : ℝ, T a i = T b (k.succAbove 0) + c • (T b (k.succAbove 1) - T b (k.succAbove 0)) := by
      intro i him
      have h0 := hpl i.succ fun e => him (Fin.succ_injective _ e)
      change bc (cone P (T b)) (cone P (T a) i.succ) k.succ = 0 at h0
      rw [cone_succ] at h0
      have hb := planar_bary (hT b) (hd b) hP (hd a i)
      have e1 := hb.1
      have e2 := hb.2
      rw [Fin.sum_univ_succAbove _ k, Fin.sum_univ_two] at e1 e2
      rw [h0, zero_add] at e1
      dsimp only at e2
      rw [h0, zero_smul, zero_add] at e2
      refine ⟨bc (cone P (T b)) (T a i) (k.succAbove 1).succ, e2.trans ?_⟩
      rw [show bc (cone P (T b)) (T a i) (k.succAbove 0).succ = 1 - bc (cone P (T b)) (T a i) (k.succAbove 1).succ by linarith]
      module
    have ne01 : ∀ k : Fin 3, k.succAbove 0 ≠ k.succAbove 1 := by decide
    obtain ⟨c, hc⟩ := on_line (m.succAbove 0) (Fin.succAbove_ne _ _)
    obtain ⟨e, he⟩ := on_line (m.succAbove 1) (Fin.succAbove_ne _ _)
    have hset := segments_same (fun e => ne01 m ((hT a).injective e)) hc he (open_of b k h3 h4) (open_of a m h1 h2)
      (hfit b a _ _ _ (ne01 k)) (hfit b a _ _ _ (ne01 k)) (hfit a b _ _ _ (ne01 m)) (hfit a b _ _ _ (ne01 m))
    have := hl b k (by rw [side_pair, side_pair, hset])
    exact hba (Prod.mk.inj this).1
  · have hcont : ContinuousAt (drop n d P) y := by
      unfold drop
      refine continuousAt_const.add (ContinuousAt.smul (ContinuousAt.div continuousAt_const
        (continuousAt_const.sub (dot_continuous n).continuousAt) hyP) (by fun_prop))
    have hne : ∀ᶠ w in 𝓝 y, n ⬝ᵥ w ≠ n ⬝ᵥ P := (dot_continuous n).continuousAt.eventually_ne (fun h => hyP (by rw [h, sub_self]))
    have h0 : ∀ᶠ w in 𝓝 y, 0 < bc (cone P (T a)) w 0 ∧ 0 < 1 - bc (cone P (T a)) w 0 := by
      have e : bc (cone P (T a)) y 0 = 1 / 2 := by rw [hy, bc_half (hT a) (hd a) hP, bc_plane (hT a) (hd a) hP hxd]; simp
      refine ((bc_continuous (q := cone P (T a)) 0).continuousAt.eventually (lt_mem_nhds (by
        change 0 < bc (cone P (T a)) y 0
        rw [e]; norm_num))).and
        ((continuous_const.sub (bc_continuous (q := cone P (T a)) 0)).continuousAt.eventually (lt_mem_nhds (by
        change 0 < 1 - bc (cone P (T a)) y 0
        rw [e]; norm_num)))
    have hpre : ∀ᶠ w in 𝓝 y, drop n d P w ∈ spread T := by
      have ht : Filter.Tendsto (drop n d P) (𝓝 y) (𝓝[{y | n ⬝ᵥ y = d}] x) := by
        refine tendsto_nhdsWithin_iff.2 ⟨?_, hne.mono fun w hw => drop_plane hw⟩
        have := hcont.tendsto
        rw [hy, drop_half hP hxd] at this
        exact this
      exact ht hi
    rw [mem_interior_iff_mem_nhds]
    filter_upwards [hpre, hne, h0] with w hw hwn hw0
    obtain ⟨b, hb⟩ := hw
    refine ⟨b, (mem_solid_bc (hq b)).2 fun i => ?_⟩
    have same : bc (cone P (T b)) w 0 = bc (cone P (T a)) w 0 := by
      have := (bc_height (hT b) (hd b) hP w).symm.trans (bc_height (hT a) (hd a) hP w)
      have := mul_left_cancel₀ hP0 this
      linarith
    refine Fin.cases ?_ (fun i => ?_) i
    · rw [same]; exact hw0.1.le
    · have h1 := (planar_solid (hT b) (hd b) hP (drop_plane hwn)).1 hb i
      rw [drop_bc (hT b) (hd b) hP] at h1
      have hr : 0 < (n ⬝ᵥ P - d) / (n ⬝ᵥ P - n ⬝ᵥ w) := by
        rw [bc_height (hT a) (hd a) hP w, ← div_div, div_self hP0]
        exact one_div_pos.2 hw0.2
      exact nonneg_of_mul_nonneg_right h1 hr

/-! ## The plane -/

theorem exists_apex (hn : n ≠ 0) (hd : ∃ x : Fin 3 → ℝ, n ⬝ᵥ x = d) : ∃ P, n ⬝ᵥ P ≠ d := by
  obtain ⟨x, hx⟩ := hd
  refine ⟨x + n, ?_⟩
  rw [dotProduct_add, hx]
  simpa using fun h => hn (dotProduct_self_eq_zero.1 h)

theorem span_of_bary {m : Nat} {q : Fin m → Fin 3 → ℝ} {w : Fin m → ℝ} {x : Fin 3 → ℝ} (h : IsBary q w x) :
    x ∈ affineSpan ℝ (Set.range q) := by
  have := affineCombination_mem_affineSpan (k := ℝ) (s := Finset.univ) h.1 q
  rw [Finset.affineCombination_eq_linear_combination _ _ _ h.1] at this
  rw [h.2]
  exact this

/-- The affine span of a set in a plane that contains a proper triangle is the plane. -/
theorem span_plane {S : Fin 3 → Fin 3 → ℝ} (hS : Proper S) (hn : n ≠ 0) (hd : ∀ i, n ⬝ᵥ S i = d) {R : Set (Fin 3 → ℝ)}
    (hR : ∀ x ∈ R, n ⬝ᵥ x = d) (hSR : solid S ⊆ R) : (affineSpan ℝ R : Set (Fin 3 → ℝ)) = {y | n ⬝ᵥ y = d} := by
  ext x
  constructor
  · intro hx
    refine affineSpan_induction (k := ℝ) (p := fun x => n ⬝ᵥ x = d) hx hR ?_
    intro c u v w hu hv hw
    change n ⬝ᵥ (c • (u - v) + w) = d
    rw [dotProduct_add, dotProduct_smul, dotProduct_sub, hu, hv, hw]
    simp
  · intro hx
    obtain ⟨P, hP⟩ := exists_apex hn ⟨_, hd 0⟩
    refine affineSpan_mono ℝ ?_ (span_of_bary (planar_bary hS hd hP hx))
    rintro _ ⟨i, rfl⟩
    exact hSR (subset_convexHull ℝ _ ⟨i, rfl⟩)

theorem intrinsicFrontier_plane {S : Fin 3 → Fin 3 → ℝ} (hS : Proper S) (hn : n ≠ 0) (hd : ∀ i, n ⬝ᵥ S i = d)
    {R : Set (Fin 3 → ℝ)} (hR : ∀ x ∈ R, n ⬝ᵥ x = d) (hSR : solid S ⊆ R) (hc : IsClosed R) :
    intrinsicFrontier ℝ R = {x | x ∈ R ∧ R ∉ 𝓝[{y | n ⬝ᵥ y = d}] x} := by
  have hspan := span_plane hS hn hd hR hSR
  ext x
  constructor
  · rintro ⟨y, hy, rfl⟩
    rw [(hc.preimage continuous_subtype_val).frontier_eq] at hy
    refine ⟨hy.1, fun h => hy.2 ?_⟩
    rw [mem_interior_iff_mem_nhds]
    rw [← hspan] at h
    exact preimage_coe_mem_nhds_subtype.2 h
  · rintro ⟨hx, hi⟩
    refine ⟨⟨x, subset_affineSpan ℝ R hx⟩, ?_, rfl⟩
    rw [(hc.preimage continuous_subtype_val).frontier_eq]
    refine ⟨hx, fun h => hi ?_⟩
    rw [mem_interior_iff_mem_nhds] at h
    rw [← hspan]
    exact preimage_coe_mem_nhds_subtype.1 h

/-! ## Flat parts of a union of triangles -/

/-- The triangles of a plane. -/
def inPlane {ι : Type} (T : ι → Fin 3 → Fin 3 → ℝ) (n : Fin 3 → ℝ) (d : ℝ) : Set ι := {a | ∀ i, n ⬝ᵥ T a i = d}

/-- A plane without a triangle has points off the plane of the triangle. -/
theorem exists_off {S : Fin 3 → Fin 3 → ℝ} (hS : Proper S) (hn : n ≠ 0) (h : ¬ ∀ i, n ⬝ᵥ S i = d) :
    ∃ p, n ⬝ᵥ p = d ∧ crossProduct (S 1 - S 0) (S 2 - S 0) ⬝ᵥ (p - S 0) ≠ 0 := by
  by_contra hcon
  push Not at hcon h
  obtain ⟨i, hi⟩ := h
  set c := crossProduct (S 1 - S 0) (S 2 - S 0) with hc
  have hnn : n ⬝ᵥ n ≠ 0 := fun h => hn (dotProduct_self_eq_zero.1 h)
  set r := (d - n ⬝ᵥ S i) / (n ⬝ᵥ n) with hr
  have hr0 : r ≠ 0 := div_ne_zero (sub_ne_zero.2 (Ne.symm hi)) hnn
  have hp : n ⬝ᵥ (S i + r • n) = d := by
    rw [dotProduct_add, dotProduct_smul, smul_eq_mul, hr, div_mul_cancel₀ _ hnn]; ring
  have hcS : c ⬝ᵥ (S i - S 0) = 0 := by
    rw [dotProduct_comm]
    fin_cases i
    · simp
    · exact dot_self_cross _ _
    · exact dot_cross_self _ _
  have e1 := hcon _ hp
  rw [show S i + r • n - S 0 = (S i - S 0) + r • n by abel, dotProduct_add, hcS, dotProduct_smul, smul_eq_mul, zero_add] at e1
  have hcn : c ⬝ᵥ n = 0 := (mul_eq_zero.1 e1).resolve_left hr0
  have e2 := hcon (S i + r • n + c) (by rw [dotProduct_add, hp, dotProduct_comm n c, hcn, add_zero])
  rw [show S i + r • n + c - S 0 = (S i - S 0) + r • n + c by abel, dotProduct_add, dotProduct_add, hcS, dotProduct_smul, hcn,
    smul_zero, zero_add, zero_add] at e2
  exact hS (dotProduct_self_eq_zero.1 e2)

/-- A disc of the plane in the union belongs to the triangles of the plane. -/
theorem flat_spread (hT : ∀ a, Proper (T a)) (hn : n ≠ 0) {x : Fin 3 → ℝ} :
    spread T ∈ 𝓝[{y | n ⬝ᵥ y = d}] x ↔ spread (fun a : inPlane T n d => T a) ∈ 𝓝[{y | n ⬝ᵥ y = d}] x := by
  have hsub : spread (fun a : inPlane T n d => T a) ⊆ spread T := fun y ⟨a, ha⟩ => ⟨a, ha⟩
  refine ⟨fun h => ?_, fun h => Filter.mem_of_superset h hsub⟩
  obtain ⟨U, hU, hxU, hUs⟩ := mem_nhdsWithin.1 h
  refine mem_nhdsWithin.2 ⟨U, hU, hxU, ?_⟩
  rintro y ⟨hyU, hy⟩
  by_contra hcon
  have hnn : n ⬝ᵥ n ≠ 0 := fun h => hn (dotProduct_self_eq_zero.1 h)
  let π : (Fin 3 → ℝ) → Fin 3 → ℝ := fun z => z + ((d - n ⬝ᵥ z) / (n ⬝ᵥ n)) • n
  have hπ : ∀ z, n ⬝ᵥ π z = d := fun z => by
    simp only [π]
    rw [dotProduct_add, dotProduct_smul, smul_eq_mul, div_mul_cancel₀ _ hnn]; ring
  have hπ' : ∀ z, n ⬝ᵥ z = d → π z = z := fun z hz => by simp [π, hz]
  have hπc : Continuous π := by
    have := dot_continuous n
    fun_prop
  let g : ι → (Fin 3 → ℝ) → ℝ := fun a z => crossProduct (T a 1 - T a 0) (T a 2 - T a 0) ⬝ᵥ (π z - T a 0)
  have hgc : ∀ a, Continuous (g a) := fun a => (dot_continuous _).comp (hπc.sub continuous_const)
  have hdense : Dense (⋂ a : {a // a ∉ inPlane T n d}, {z | g a z ≠ 0}) := by
    refine dense_iInter_of_isOpen (fun a => isOpen_ne_fun (hgc a) continuous_const) fun a => ?_
    obtain ⟨p, hp, hp'⟩ := exists_off (hT a) hn a.2
    refine affine_dense (f := g a) (fun u v r => ?_) (p := p) (by simp only [g]; rw [hπ' p hp]; exact hp')
    simp only [g]
    have : π ((1 - r) • u + r • v) = (1 - r) • π u + r • π v := by
      simp only [π]
      rw [dotProduct_add, dotProduct_smul, dotProduct_smul, smul_eq_mul, smul_eq_mul,
        show (d - ((1 - r) * n ⬝ᵥ u + r * n ⬝ᵥ v)) / (n ⬝ᵥ n) =
          (1 - r) * ((d - n ⬝ᵥ u) / (n ⬝ᵥ n)) + r * ((d - n ⬝ᵥ v) / (n ⬝ᵥ n)) by field_simp; ring]
      module
    rw [this, show (1 - r) • π u + r • π v - T a 0 = (1 - r) • (π u - T a 0) + r • (π v - T a 0) by module, dotProduct_add,
      dotProduct_smul, dotProduct_smul, smul_eq_mul, smul_eq_mul]
  have hopen : IsOpen (π ⁻¹' (U ∩ (spread (fun a : inPlane T n d => T a))ᶜ)) :=
    (hU.inter spread_closed.isOpen_compl).preimage hπc
  obtain ⟨z, hz1, hz2⟩ := hdense.inter_open_nonempty _ hopen ⟨y, by
    change π y ∈ U ∩ (spread (fun a : inPlane T n d => T a))ᶜ
    rw [hπ' y hy]
    exact ⟨hyU, hcon⟩⟩
  obtain ⟨a, ha⟩ := hUs ⟨hz1.1, hπ z⟩
  by_cases hap : a ∈ inPlane T n d
  · exact hz1.2 ⟨⟨a, hap⟩, ha⟩
  · refine Set.mem_iInter.1 hz2 ⟨a, hap⟩ ?_
    exact plane_unique (T := T a) (n := crossProduct (T a 1 - T a 0) (T a 2 - T a 0)) (hT a)
      (d := crossProduct (T a 1 - T a 0) (T a 2 - T a 0) ⬝ᵥ T a 0) (fun i => by
        rw [← sub_eq_zero, ← dotProduct_sub, dotProduct_comm]
        fin_cases i
        · simp
        · exact dot_self_cross _ _
        · exact dot_cross_self _ _) (plane_of_solid (fun i => by
        rw [← sub_eq_zero, ← dotProduct_sub, dotProduct_comm]
        fin_cases i
        · simp
        · exact dot_self_cross _ _
        · exact dot_cross_self _ _) ha)

/-- The inside of a triangle is in the flat part. -/
theorem inside_flat {S : Fin 3 → Fin 3 → ℝ} (hS : Proper S) (hn : n ≠ 0) (hd : ∀ i, n ⬝ᵥ S i = d) {F : Set (Fin 3 → ℝ)}
    (hF : solid S ⊆ F) : inside S ⊆ flatPart F n d := by
  rintro x ⟨w, hw, h0⟩
  have hxd := plane_of_bary hd hw
  obtain ⟨P, hP⟩ := exists_apex hn ⟨x, hxd⟩
  refine ⟨hxd, ?_⟩
  have hev : ∀ᶠ y in 𝓝 x, ∀ i : Fin 3, 0 < bc (cone P S) y i.succ := by
    refine Filter.eventually_all.2 fun i => (bc_continuous (q := cone P S) i.succ).continuousAt.eventually (lt_mem_nhds ?_)
    change 0 < bc (cone P S) x i.succ
    rw [planar_bary_eq hS hd hP hw]
    exact h0 i
  filter_upwards [self_mem_nhdsWithin, hev.filter_mono nhdsWithin_le_nhds] with y hy hy'
  exact hF ((planar_solid hS hd hP hy).2 fun i => (hy' i).le)

theorem solid_closure_inside (S : Fin 3 → Fin 3 → ℝ) : solid S ⊆ closure (inside S) := by
  intro x hx
  obtain ⟨w, hw, h0⟩ := mem_solid_iff.1 hx
  have hcont : Filter.Tendsto (fun r : ℝ => (1 - r) • x + r • (1 / 3 : ℝ) • ∑ j, S j) (𝓝[>] 0) (𝓝 x) := by
    have : Filter.Tendsto (fun r : ℝ => (1 - r) • x + r • (1 / 3 : ℝ) • ∑ j, S j) (𝓝 0)
        (𝓝 ((1 - (0 : ℝ)) • x + (0 : ℝ) • (1 / 3 : ℝ) • ∑ j, S j)) := by
      apply Continuous.tendsto; fun_prop
    simp only [sub_zero, one_smul, zero_smul, add_zero] at this
    exact this.mono_left nhdsWithin_le_nhds
  refine mem_closure_of_tendsto hcont ?_
  have h2 : ∀ᶠ r : ℝ in 𝓝[>] 0, r < 1 := (Filter.Tendsto.mono_left Filter.tendsto_id nhdsWithin_le_nhds).eventually
    (gt_mem_nhds (by norm_num : (0 : ℝ) < 1))
  filter_upwards [h2, self_mem_nhdsWithin] with r hr hr0
  have hr0 : 0 < r := hr0
  refine ⟨fun i => (1 - r) * w i + r * (1 / 3), ⟨?_, ?_⟩, fun i => ?_⟩
  · rw [Finset.sum_add_distrib, ← Finset.mul_sum, hw.1]
    simp
    ring
  · rw [hw.2, Finset.smul_sum, Finset.smul_sum, Finset.smul_sum, ← Finset.sum_add_distrib]
    refine Finset.sum_congr rfl fun i _ => ?_
    module
  · have := mul_nonneg (by linarith : 0 ≤ 1 - r) (h0 i)
    have : 0 < r * (1 / 3) := by positivity
    linarith

/-- A side of a triangle is part of the triangle. -/
theorem side_sub (S : Fin 3 → Fin 3 → ℝ) (m : Fin 3) : solid (fun i => S (m.succAbove i)) ⊆ solid S :=
  convexHull_mono (by rintro _ ⟨i, rfl⟩; exact ⟨_, rfl⟩)

/-- The creases of a union of triangles that do not overlap in any plane are on sides that belong to one triangle of
their plane only. -/
theorem creases_lone (hT : ∀ a, Proper (T a))
    (hno : ∀ a b, a ≠ b → (∃ n : Fin 3 → ℝ, n ≠ 0 ∧ ∃ d, ∀ k, n ⬝ᵥ T a k = d ∧ n ⬝ᵥ T b k = d) → inside (T a) ∩ inside (T b) = ∅) :
    creases (spread T) ⊆ {x | ∃ a m, (∀ b k, (∃ n : Fin 3 → ℝ, n ≠ 0 ∧ ∃ d, ∀ k, n ⬝ᵥ T b k = d ∧ n ⬝ᵥ T a k = d) →
      T b '' {j | j ≠ k} = T a '' {j | j ≠ m} → (b, k) = (a, m)) ∧ x ∈ solid (fun i => T a (m.succAbove i))} := by
  have main : ∀ n : Fin 3 → ℝ, n ≠ 0 → ∀ d, (∀ a : inPlane T n d, ∀ b : inPlane T n d, a ≠ b →
      inside (T a) ∩ inside (T b) = ∅) := by
    intro n hn d a b hab
    exact hno a b (fun e => hab (Subtype.ext e)) ⟨n, hn, d, fun k => ⟨a.2 k, b.2 k⟩⟩
  intro x
  rintro ⟨n, hn, d, hcl, hfl⟩
  have hx : x ∈ spread (fun a : inPlane T n d => T a) := by
    refine closure_minimal ?_ spread_closed hcl
    rintro y ⟨hy, hy'⟩
    exact mem_of_mem_nhdsWithin hy ((flat_spread hT hn).1 hy')
  obtain ⟨a, ha⟩ := hx
  have hxd : n ⬝ᵥ x = d := plane_of_solid a.2 ha
  obtain ⟨a, m, hl, hs⟩ := planar_lone (T := fun a : inPlane T n d => T a) (fun a => hT a) hn (fun a i => a.2 i)
    (main n hn d) ⟨a, ha⟩ (fun h => hfl ⟨hxd, (flat_spread hT hn).2 h⟩)
  refine ⟨a, m, ?_, hs⟩
  rintro b k ⟨n', hn', d', h'⟩ e
  have hb : b ∈ inPlane T n d := by
    intro i
    have h1 := plane_unique hn' (fun k => (h' k).2) (h' i).1
    by_contra hcon
    -- the plane of `a` is the plane `n`, `d`
    obtain ⟨r, hr⟩ : ∃ r : ℝ, crossProduct (T a 1 - T a 0) (T a 2 - T a 0) = r • n := by
      have hnn : n ⬝ᵥ n ≠ 0 := fun h => hn (dotProduct_self_eq_zero.1 h)
      set c := crossProduct (T a 1 - T a 0) (T a 2 - T a 0) with hc
      refine ⟨(c ⬝ᵥ n) / (n ⬝ᵥ n), ?_⟩
      have hy : n ⬝ᵥ (T a 0 + (c - ((c ⬝ᵥ n) / (n ⬝ᵥ n)) • n)) = d := by
        rw [dotProduct_add, a.2 0, dotProduct_sub, dotProduct_smul, smul_eq_mul, div_mul_cancel₀ _ hnn, dotProduct_comm n c]
        ring
      have := plane_unique hn a.2 hy
      rw [add_sub_cancel_left, ← hc] at this
      have h0 : (c - ((c ⬝ᵥ n) / (n ⬝ᵥ n)) • n) ⬝ᵥ (c - ((c ⬝ᵥ n) / (n ⬝ᵥ n)) • n) = 0 := by
        conv_lhs => rw [sub_dotProduct]
        rw [this, smul_dotProduct, dotProduct_sub, dotProduct_smul, smul_eq_mul, smul_eq_mul, div_mul_cancel₀ _ hnn,
          dotProduct_comm n c]
        ring
      exact sub_eq_zero.1 (dotProduct_self_eq_zero.1 h0)
    have hr0 : r ≠ 0 := by
      rintro rfl
      exact hT a (by rw [hr, zero_smul])
    rw [hr, smul_dotProduct, smul_eq_mul, dotProduct_sub, a.2 0] at h1
    have := (mul_eq_zero.1 h1).resolve_left hr0
    exact hcon (by linarith)
  have := hl ⟨b, hb⟩ k e
  obtain ⟨e1, e2⟩ := Prod.mk.inj this
  rw [← e1, e2]

/-- If the triangles fit side by side, all points of these sides are creases. -/
theorem lone_creases (hT : ∀ a, Proper (T a))
    (hno : ∀ a b, a ≠ b → (∃ n : Fin 3 → ℝ, n ≠ 0 ∧ ∃ d, ∀ k, n ⬝ᵥ T a k = d ∧ n ⬝ᵥ T b k = d) → inside (T a) ∩ inside (T b) = ∅)
    (hfit : ∀ a b i j k, i ≠ j → T b k ∉ openSegment ℝ (T a i) (T a j)) :
    {x | ∃ a m, (∀ b k, (∃ n : Fin 3 → ℝ, n ≠ 0 ∧ ∃ d, ∀ k, n ⬝ᵥ T b k = d ∧ n ⬝ᵥ T a k = d) →
      T b '' {j | j ≠ k} = T a '' {j | j ≠ m} → (b, k) = (a, m)) ∧ x ∈ solid (fun i => T a (m.succAbove i))} ⊆
      creases (spread T) := by
  have main : ∀ n : Fin 3 → ℝ, n ≠ 0 → ∀ d, (∀ a : inPlane T n d, ∀ b : inPlane T n d, a ≠ b →
      inside (T a) ∩ inside (T b) = ∅) := by
    intro n hn d a b hab
    exact hno a b (fun e => hab (Subtype.ext e)) ⟨n, hn, d, fun k => ⟨a.2 k, b.2 k⟩⟩
  rintro x ⟨a, m, hl, hs⟩
  obtain ⟨n, hn, d, h0, h1, h2⟩ := exists_plane (T a 0) (T a 1) (T a 2)
  have ha : a ∈ inPlane T n d := by intro i; fin_cases i <;> assumption
  have hxa : x ∈ solid (T a) := side_sub _ m hs
  refine ⟨n, hn, d, closure_mono (inside_flat (F := spread T) (hT a) hn ha fun y hy => ⟨a, hy⟩) (solid_closure_inside _ hxa), ?_⟩
  rintro ⟨-, hf⟩
  refine lone_not_inner (T := fun a : inPlane T n d => T a) (fun a => hT a) hn (fun a i => a.2 i) (main n hn d)
    (fun a b => hfit a b) (a := ⟨a, ha⟩) (m := m) ?_ hs ((flat_spread hT hn).1 hf)
  intro b k e
  have := hl b k ⟨n, hn, d, fun k => ⟨b.2 k, ha k⟩⟩ e
  obtain ⟨e1, e2⟩ := Prod.mk.inj this
  exact Prod.ext (Subtype.ext e1) e2

end PyQC
