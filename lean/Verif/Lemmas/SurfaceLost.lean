import Verif.Lemmas.RoundingSurface
import Verif.Lemmas.Binary64Plane

/-!
A face stays in the surface when another face comes between it and its partner in the sorted list, and the coordinates
that 64-bit arithmetic computes for points without τ in them.
-/

namespace PyQC
namespace Rounding
open Ico

theorem keep_mem_adj (F : Float64) {α : Type} (prev : Option (List ℝ)) (l r : List (List ℝ × α)) (k : List ℝ) (x : α)
    (hp : ∀ q, ((l.getLast?.map Prod.fst).or prev) = some q → ¬ F.allclose k q)
    (h : ∀ y, r.head? = some y → ¬ F.allclose k y.1) : x ∈ F.keepIsolated prev (l ++ (k, x) :: r) := by
  induction l generalizing prev with
  | nil =>
    simp only [List.nil_append, Float64.keepIsolated]
    rw [if_neg]
    · simp
    · rintro (⟨q, hq, hc⟩ | ⟨y, hy, hc⟩)
      · exact hp q (by simpa using hq) hc
      · exact h y hy hc
  | cons e l ih =>
    obtain ⟨k', x'⟩ := e
    have := ih (some k') fun q hq => hp q (by
      cases l with
      | nil => simpa using hq
      | cons a l =>
        rw [List.getLast?_cons_cons]
        rw [List.getLast?_eq_some_getLast (List.cons_ne_nil a l)] at hq ⊢
        simpa using hq)
    simp only [List.cons_append, Float64.keepIsolated]
    split
    · exact this
    · exact List.mem_cons_of_mem _ this

/-- Another entry strictly between an entry and each of those close to it keeps it in the list. -/
theorem keep_between (F : Float64) {α : Type} (L : List (List ℝ × α)) (hs : L.Pairwise fun x y => x.1 ≤ y.1)
    {k : List ℝ} {x : α} (hmem : (k, x) ∈ L)
    (h : ∀ l r, L = l ++ (k, x) :: r → ∀ y ∈ l ++ r, F.allclose k y.1 → ∃ z ∈ L, (k < z.1 ∧ z.1 < y.1) ∨ (y.1 < z.1 ∧ z.1 < k)) :
    x ∈ F.keepIsolated none L := by
  obtain ⟨l, r, rfl⟩ := List.append_of_mem hmem
  obtain ⟨hl, hr, hlr⟩ := List.pairwise_append.1 hs
  obtain ⟨hkr, hr⟩ := List.pairwise_cons.1 hr
  refine keep_mem_adj F none l r k x ?_ ?_
  · intro q hq hc
    rw [Option.or_none, Option.map_eq_some_iff] at hq
    obtain ⟨y, hy, rfl⟩ := hq
    obtain ⟨l', rfl⟩ := List.getLast?_eq_some_iff.1 hy
    obtain ⟨z, hz, hb⟩ := h _ r rfl y (by simp) hc
    have hyk : y.1 ≤ k := hlr y (by simp) (k, x) (by simp)
    rcases List.mem_append.1 hz with hz | hz
    · have hzy : z.1 ≤ y.1 := by
        rcases List.mem_append.1 hz with hz | hz
        · exact (List.pairwise_append.1 hl).2.2 z hz y (by simp)
        · rw [List.mem_singleton.1 hz]
      rcases hb with hb | hb
      · exact absurd (hb.1.trans hb.2) (not_lt.2 hyk)
      · exact absurd hb.1 (not_lt.2 hzy)
    · have hkz : k ≤ z.1 := by
        rcases List.mem_cons.1 hz with rfl | hz
        · exact le_rfl
        · exact hkr z hz
      rcases hb with hb | hb
      · exact absurd (hb.1.trans hb.2) (not_lt.2 hyk)
      · exact absurd hb.2 (not_lt.2 hkz)
  · intro y hy hc
    cases r with
    | nil => simp at hy
    | cons y' r =>
      obtain rfl : y' = y := by simpa using hy
      obtain ⟨z, hz, hb⟩ := h l _ rfl y' (by simp) hc
      have hyk : k ≤ y'.1 := hkr y' (by simp)
      rcases List.mem_append.1 hz with hz | hz
      · have hzk : z.1 ≤ k := hlr z hz (k, x) (by simp)
        rcases hb with hb | hb
        · exact absurd hb.1 (not_lt.2 hzk)
        · exact absurd (hb.1.trans hb.2) (not_lt.2 hyk)
      · rcases List.mem_cons.1 hz with rfl | hz
        · rcases hb with hb | hb
          · exact lt_irrefl _ hb.1
          · exact lt_irrefl _ hb.2
        · have hyz : y'.1 ≤ z.1 := by
            rcases List.mem_cons.1 hz with rfl | hz
            · exact le_rfl
            · exact (List.pairwise_cons.1 hr).1 z hz
          rcases hb with hb | hb
          · exact absurd hb.2 (not_lt.2 hyz)
          · exact absurd (hb.1.trans hb.2) (not_lt.2 hyk)

/-- The same for the faces of an object: face `i` stays when only its partner `m` has its corners and some face lies between them. -/
theorem face_between (F : Float64) {R : ℝ} (hR : 1 ≤ R) (hR2 : R ≤ 32) {o : Obj 4} (hm : Moderate .ico R o)
    (hn : 2 ≤ o.length)
    (hf : ∀ i j, Near (Package.ico.centroidPerp (face o i)) (Package.ico.centroidPerp (face o j)) →
      Set.range (Package.ico.perps (face o i)) = Set.range (Package.ico.perps (face o j)))
    {i m : Fin o.length × Fin 4}
    (hi : ∀ j, j ≠ i → Set.range (Package.ico.perps (face o i)) = Set.range (Package.ico.perps (face o j)) → j = m)
    {b : Fin o.length × Fin 4}
    (hb : (faceStored F o i < faceStored F o b ∧ faceStored F o b < faceStored F o m) ∨
      (faceStored F o m < faceStored F o b ∧ faceStored F o b < faceStored F o i)) :
    ∃ s, F.generatorSurface1 o = .ok s ∧ face o i ∈ s := by
  refine ⟨_, generatorSurface1_rounded F hR hR2 hm hn, List.mem_map.2 ⟨i, ?_, rfl⟩⟩
  refine keep_between F _ (storedFaces_sorted F) ((mem_storedFaces F).2 rfl : (faceStored F o i, i) ∈ _) ?_
  intro l r e y hy hc
  have hne : y.2 ≠ i := by
    have hnd := storedFaces_nodup F (o := o)
    rw [e, List.map_append, List.map_cons] at hnd
    rintro rfl
    rcases List.mem_append.1 hy with h | h
    · exact (List.nodup_append.1 hnd).2.2 _ (List.mem_map_of_mem h) _ (by simp) rfl
    · exact (List.nodup_cons.1 (List.nodup_append.1 hnd).2.1).1 (List.mem_map.2 ⟨y, h, rfl⟩)
  have hy' : y ∈ storedFaces F o := by
    rw [e]
    rcases List.mem_append.1 hy with h | h <;> simp [h]
  rw [(mem_storedFaces F).1 hy'] at hc ⊢
  obtain ⟨k, e1, n1, s1⟩ := faceStored_near F hR hR2 hm i
  obtain ⟨l, e2, n2, s2⟩ := faceStored_near F hR hR2 hm y.2
  rw [e1, e2] at hc
  have := hi y.2 hne (hf i y.2 (allclose_near F s2 n2 s1 n1 hc))
  refine ⟨(faceStored F o b, b), (mem_storedFaces F).2 rfl, ?_⟩
  rw [this]
  exact hb

/-! ## Coordinates without τ -/

/-- The double stored for the quotient of two integers. -/
def numq (x n : Int) : ℚ := flq (flq (flq x) / flq n)

theorem numeric64 (x n : Int) : binary64.float64.numericValue ⟨x, 0, n⟩ = (numq x n : ℝ) := by
  unfold Float64.numericValue
  dsimp only
  rw [Int.cast_zero, fl64_zero, zero_mul, fl64_zero, add_zero]
  have e : ∀ z : ℤ, (z : ℝ) = ((z : ℚ) : ℝ) := fun z => by push_cast; rfl
  simp only [e, fl64, ← Rat.cast_div]
  rfl

end Rounding
end PyQC
