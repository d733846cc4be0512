import Verif.Lemmas.Complete
import Mathlib.Analysis.Convex.Caratheodory
import Mathlib.LinearAlgebra.AffineSpace.FiniteDimensional
/-!
# A tetrahedralisation that fills the convex hull exists
-/
namespace PyQC
open Matrix Module

theorem inPlane_of_span {P : List (Fin 3 → ℝ)} {t : Set (Fin 3 → ℝ)} (ht : affineSpan ℝ t ≠ ⊤)
    (hP : ∀ p ∈ P, p ∈ affineSpan ℝ t) : InPlane P := by
  by_cases h0 : P = []
  · subst h0; exact inPlane_few (by simp)
  obtain ⟨p0, hp0⟩ := List.exists_mem_of_ne_nil P h0
  have hd : (affineSpan ℝ t).direction < ⊤ := by
    refine lt_top_iff_ne_top.2 fun h => ht ?_
    exact (AffineSubspace.direction_eq_top_iff_of_nonempty ⟨p0, hP p0 hp0⟩).1 h
  obtain ⟨f, hf, hle⟩ := Submodule.exists_le_ker_of_lt_top _ hd
  have hfn : ∀ x, f x = (fun i => f (Pi.single i 1)) ⬝ᵥ x := by
    intro x
    conv_lhs => rw [pi_eq_sum_univ' x]
    rw [map_sum]
    simp only [map_smul, smul_eq_mul, dotProduct]
    refine Finset.sum_congr rfl fun i _ => ?_
    rw [mul_comm]
  refine ⟨fun i => f (Pi.single i 1), ?_, f p0, ?_⟩
  · intro h
    apply hf
    ext1 i
    ext
    simpa using congrFun h i
  · intro x hx
    rw [← hfn]
    have := hle (AffineSubspace.vsub_mem_direction (hP x hx) (hP p0 hp0))
    rw [LinearMap.mem_ker, vsub_eq_sub, map_sub] at this
    linarith

theorem det4_of_span {q : Fin 4 → Fin 3 → ℝ} (h : affineSpan ℝ (Set.range q) = ⊤) : det4 q ≠ 0 := by
  intro h0
  obtain ⟨n, hn, hz⟩ := Matrix.exists_mulVec_eq_zero_iff.2 h0
  have hpl : ∀ i, n ⬝ᵥ q i = n ⬝ᵥ q 0 := by
    intro i
    have h1 := congrFun hz 0
    have h2 := congrFun hz 1
    have h3 := congrFun hz 2
    simp only [mulVec, of_apply, cons_val_zero, cons_val_one, cons_val, Pi.zero_apply] at h1 h2 h3
    rw [dotProduct_comm, dotProduct_sub] at h1 h2 h3
    fin_cases i
    · rfl
    · exact sub_eq_zero.1 h1
    · exact sub_eq_zero.1 h2
    · exact sub_eq_zero.1 h3
  have hall : ∀ x ∈ affineSpan ℝ (Set.range q), n ⬝ᵥ x = n ⬝ᵥ q 0 := by
    intro x hx
    refine affineSpan_induction (p := fun x => n ⬝ᵥ x = n ⬝ᵥ q 0) hx ?_ ?_
    · rintro _ ⟨i, rfl⟩; exact hpl i
    · intro c u v w hu hv hw
      rw [vadd_eq_add, vsub_eq_sub, dotProduct_add, dotProduct_smul, dotProduct_sub, hu, hv, hw]
      simp
  have h1 := hall (q 0 + n) (by rw [h]; trivial)
  rw [dotProduct_add] at h1
  exact hn (dotProduct_self_eq_zero.1 (by linarith))

/-- Every point of the hull of points not in a plane lies in a tetrahedron of non-zero volume on four of them. -/
theorem hull_simplex {P : List (Fin 3 → ℝ)} (hn : ¬ InPlane P) {x : Fin 3 → ℝ} (hx : x ∈ convexHull ℝ {y | y ∈ P}) :
    ∃ q : Fin 4 → Fin 3 → ℝ, (∀ k, q k ∈ P) ∧ tetVol q ≠ 0 ∧ x ∈ solid q := by
  classical
  let F : Finset (Finset (Fin 3 → ℝ)) := (P.toFinset.powerset).filter fun t : Finset (Fin 3 → ℝ) => AffineIndependent ℝ ((↑) : t → Fin 3 → ℝ) ∧ x ∈ convexHull ℝ (t : Set (Fin 3 → ℝ))
  have hF : F.Nonempty := by
    rw [convexHull_eq_union] at hx
    simp only [Set.mem_iUnion] at hx
    obtain ⟨t, hs, hi, hx⟩ := hx
    refine ⟨t, Finset.mem_filter.2 ⟨Finset.mem_powerset.2 fun y hy => ?_, hi, hx⟩⟩
    rw [List.mem_toFinset]
    exact hs hy
  obtain ⟨t, ht, hmax⟩ := Finset.exists_max_image F Finset.card hF
  obtain ⟨hsub, hind, hxt⟩ := Finset.mem_filter.1 ht
  have hsub := Finset.mem_powerset.1 hsub
  have hspan : affineSpan ℝ (t : Set (Fin 3 → ℝ)) = ⊤ := by
    by_contra hne
    have : ∃ p ∈ P, p ∉ affineSpan ℝ (t : Set (Fin 3 → ℝ)) := by
      by_contra hcon
      push Not at hcon
      exact hn (inPlane_of_span hne hcon)
    obtain ⟨p, hp, hpn⟩ := this
    have hpt : p ∉ t := fun h => hpn (mem_affineSpan ℝ h)
    have hins : AffineIndependent ℝ ((↑) : ((insert p t : Finset (Fin 3 → ℝ)) : Set (Fin 3 → ℝ)) → Fin 3 → ℝ) := by
      refine AffineIndependent.affineIndependent_of_notMem_span (i := ⟨p, by simp⟩) ?_ ?_
      · have e : ∀ y : { y : ((insert p t : Finset (Fin 3 → ℝ)) : Set (Fin 3 → ℝ)) // y ≠ ⟨p, by simp⟩ }, (y : Fin 3 → ℝ) ∈ t := by
          rintro ⟨⟨y, hy⟩, hne⟩
          rcases Finset.mem_insert.1 (Finset.mem_coe.1 hy) with rfl | h
          · exact absurd rfl hne
          · exact h
        let g : { y : ((insert p t : Finset (Fin 3 → ℝ)) : Set (Fin 3 → ℝ)) // y ≠ ⟨p, by simp⟩ } ↪ t :=
          ⟨fun y => ⟨y, e y⟩, fun a b hab => by
            apply Subtype.ext; apply Subtype.ext
            exact congrArg (fun z : t => (z : Fin 3 → ℝ)) hab⟩
        exact hind.comp_embedding g
      · intro h
        apply hpn
        refine affineSpan_mono ℝ ?_ h
        rintro y ⟨⟨z, hz⟩, hne, rfl⟩
        rcases Finset.mem_insert.1 (Finset.mem_coe.1 hz) with rfl | h
        · exact absurd rfl hne
        · exact h
    have hin : insert p t ∈ F := by
      refine Finset.mem_filter.2 ⟨Finset.mem_powerset.2 (Finset.insert_subset (List.mem_toFinset.2 hp) hsub), hins, ?_⟩
      exact convexHull_mono (by simp) hxt
    have := hmax _ hin
    rw [Finset.card_insert_of_notMem hpt] at this
    omega
  have hcard : Fintype.card t = 4 := by
    have := (hind.affineSpan_eq_top_iff_card_eq_finrank_add_one).1 (by rw [Subtype.range_coe]; exact hspan)
    simpa using this
  let e : Fin 4 ≃ t := (Fintype.equivFinOfCardEq hcard).symm
  have hrange : Set.range (fun k => (e k : Fin 3 → ℝ)) = (t : Set (Fin 3 → ℝ)) := by
    ext y
    constructor
    · rintro ⟨k, rfl⟩; exact (e k).2
    · intro hy; exact ⟨e.symm ⟨y, hy⟩, by simp⟩
  refine ⟨fun k => e k, fun k => List.mem_toFinset.1 (hsub (e k).2), det4_ne_iff.1 (det4_of_span (by rw [hrange]; exact hspan)), ?_⟩
  rw [solid, hrange]
  exact hxt

/-- All quadruples of positions. -/
def allQuads (n : Nat) : List (Fin 4 → Nat) :=
  (List.range n).flatMap fun a => (List.range n).flatMap fun b => (List.range n).flatMap fun c =>
    (List.range n).map fun d => ![a, b, c, d]

theorem mem_allQuads {n : Nat} {i : Fin 4 → Nat} : i ∈ allQuads n ↔ ∀ k, i k < n := by
  simp only [allQuads, List.mem_flatMap, List.mem_map, List.mem_range]
  constructor
  · rintro ⟨a, ha, b, hb, c, hc, d, hd, rfl⟩ k
    fin_cases k <;> assumption
  · intro h
    refine ⟨i 0, h 0, i 1, h 1, i 2, h 2, i 3, h 3, ?_⟩
    funext k
    fin_cases k <;> rfl

/-- There is a library behaviour that fills the hull: answer with all quadruples. -/
theorem exists_fills : ∃ delaunay, FillsHull delaunay := by
  refine ⟨fun pts => some (allQuads pts.length), fun pts hn => ⟨_, rfl, fun i hi => mem_allQuads.1 hi, fun x hx => ?_⟩⟩
  obtain ⟨q, hq, hv, hx⟩ := hull_simplex hn hx
  choose i hi using fun k => List.get_of_mem (hq k)
  refine ⟨fun k => i k, mem_allQuads.2 fun k => (i k).2, ?_⟩
  have e : (fun k => pts[(i k : Nat)]'((i k).2)) = q := funext hi
  exact ⟨by rw [e]; exact hv, by rw [e]; exact hx⟩

end PyQC
