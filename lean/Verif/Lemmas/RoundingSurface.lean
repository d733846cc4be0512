import Verif.Lemmas.RoundingOutline
import Verif.Props.Hull
/-!
# The surface of an object with rounding
-/
namespace PyQC
namespace Rounding
open Ico

/-- Entries close to no other are kept. -/
theorem keep_mem (F : Float64) {α : Type} (prev : Option (List ℝ)) (l r : List (List ℝ × α)) (k : List ℝ) (x : α)
    (hp : ∀ q, prev = some q → ¬ F.allclose k q) (h : ∀ y ∈ l ++ r, ¬ F.allclose k y.1) :
    x ∈ F.keepIsolated prev (l ++ (k, x) :: r) := by
  induction l generalizing prev with
  | nil =>
    simp only [List.nil_append, Float64.keepIsolated]
    rw [if_neg]
    · simp
    · rintro (⟨q, hq, hc⟩ | ⟨y, hy, hc⟩)
      · exact hp q hq hc
      · exact h y (by simpa using List.mem_of_head? hy) hc
  | cons e l ih =>
    obtain ⟨k', x'⟩ := e
    have := ih (some k') (by rintro q hq; cases hq; exact h (k', x') (by simp)) (fun y hy => h y (by simp at hy ⊢; exact .inr hy))
    simp only [List.cons_append, Float64.keepIsolated]
    split
    · exact this
    · exact List.mem_cons_of_mem _ this

/-- Only entries of the list are kept. -/
theorem keep_sublist (F : Float64) {α : Type} (prev : Option (List ℝ)) (L : List (List ℝ × α)) :
    (F.keepIsolated prev L).Sublist (L.map Prod.snd) := by
  induction L generalizing prev with
  | nil => simp [Float64.keepIsolated]
  | cons e L ih =>
    obtain ⟨k, x⟩ := e
    simp only [Float64.keepIsolated, List.map_cons]
    split
    · exact (ih _).trans (List.sublist_cons_self _ _)
    · exact (ih _).cons_cons _

/-- If keys are close only when equal, an entry of a sorted list is kept exactly if its key is unique. -/
theorem keep_unique (F : Float64) {α : Type} (pre L : List (List ℝ × α)) (hs : (pre ++ L).Pairwise fun x y => x.1 ≤ y.1)
    (h : ∀ x ∈ pre ++ L, ∀ y ∈ pre ++ L, F.allclose x.1 y.1 ↔ x.1 = y.1) :
    F.keepIsolated (pre.getLast?.map Prod.fst) L =
      (L.filter fun e => decide ((pre ++ L).countP (fun f => decide (f.1 = e.1)) = 1)).map Prod.snd := by
  induction L generalizing pre with
  | nil => simp [Float64.keepIsolated]
  | cons e L ih =>
    have eapp : pre ++ e :: L = (pre ++ [e]) ++ L := by simp
    have hlast : ((pre ++ [e]).getLast?.map Prod.fst) = some e.1 := by simp
    have ih' := ih (pre ++ [e]) (by rw [← eapp]; exact hs) (by rw [← eapp]; exact h)
    rw [hlast, ← eapp] at ih'
    rw [List.filter_cons]
    obtain ⟨k, x⟩ := e
    unfold Float64.keepIsolated
    rw [ih']
    by_cases hc : (∃ q, pre.getLast?.map Prod.fst = some q ∧ F.allclose k q) ∨
        (∃ y, L.head? = some y ∧ F.allclose k y.1)
    · rw [if_pos hc, if_neg]
      simp only [decide_eq_true_iff]
      intro hcount
      rw [List.countP_append, List.countP_cons, if_pos (by simp)] at hcount
      rcases hc with ⟨q, hq, hcl⟩ | ⟨y, hy, hcl⟩
      · obtain ⟨z, hz, rfl⟩ := Option.map_eq_some_iff.mp hq
        have hzm : z ∈ pre := List.mem_of_getLast? hz
        have e1 := (h (k, x) (by simp) z (by simp [hzm])).1 hcl
        have h1 : 0 < pre.countP (fun f => decide (f.1 = k)) :=
          List.countP_pos_iff.mpr ⟨z, hzm, by simpa using e1.symm⟩
        omega
      · have hym : y ∈ L := List.mem_of_head? hy
        have e1 := (h (k, x) (by simp) y (by simp [hym])).1 hcl
        have h1 : 0 < L.countP (fun f => decide (f.1 = k)) :=
          List.countP_pos_iff.mpr ⟨y, hym, by simpa using e1.symm⟩
        omega
    · rw [if_neg hc]
      push Not at hc
      obtain ⟨hc1, hc2⟩ := hc
      have hp : pre.countP (fun f => decide (f.1 = k)) = 0 := by
        rw [List.countP_eq_zero]
        intro z hz hzk
        simp only [decide_eq_true_iff] at hzk
        have hne : pre ≠ [] := List.ne_nil_of_mem hz
        have hl := List.getLast?_eq_some_getLast hne
        have hle1 : z.1 ≤ (pre.getLast hne).1 := by
          have hpp := (List.pairwise_append.mp hs).1
          obtain ⟨a, ha⟩ : ∃ a, pre = a ++ [pre.getLast hne] := ⟨_, (List.dropLast_append_getLast hne).symm⟩
          rw [ha] at hz hpp
          rcases List.mem_append.mp hz with h | h
          · exact (List.pairwise_append.mp hpp).2.2 z h _ (by simp)
          · rw [List.mem_singleton.mp h]
        have hle2 : (pre.getLast hne).1 ≤ k :=
          (List.pairwise_append.mp hs).2.2 _ (List.getLast_mem hne) (k, x) (by simp)
        have : (pre.getLast hne).1 = k := le_antisymm hle2 (hzk ▸ hle1)
        refine hc1 (pre.getLast hne).1 (by rw [hl]; rfl) ?_
        exact (h (k, x) (by simp) (pre.getLast hne) (List.mem_append_left _ (List.getLast_mem hne))).2 this.symm
      have hq : L.countP (fun f => decide (f.1 = k)) = 0 := by
        rw [List.countP_eq_zero]
        intro z hz hzk
        simp only [decide_eq_true_iff] at hzk
        have hss := (List.pairwise_append.mp hs).2.1
        cases L with
        | nil => simp at hz
        | cons y L =>
          have h1 : k ≤ y.1 := (List.pairwise_cons.mp hss).1 y (by simp)
          have h2 : y.1 ≤ z.1 := by
            rcases List.mem_cons.mp hz with rfl | h
            · exact le_rfl
            · exact (List.pairwise_cons.mp (List.pairwise_cons.mp hss).2).1 z h
          refine hc2 y rfl ?_
          exact (h (k, x) (by simp) y (by simp)).2 (le_antisymm h1 (hzk ▸ h2))
      have hcount : (pre ++ (k, x) :: L).countP (fun f => decide (f.1 = k)) = 1 := by
        rw [List.countP_append, List.countP_cons, hp, hq]
        simp
      rw [if_pos (by simpa using hcount)]
      rfl

theorem keep_map (F : Float64) {α β : Type} (f : α → β) (prev : Option (List ℝ)) (L : List (List ℝ × α)) :
    F.keepIsolated prev (L.map fun x => (x.1, f x.2)) = (F.keepIsolated prev L).map f := by
  induction L generalizing prev with
  | nil => rfl
  | cons e L ih =>
    obtain ⟨k, x⟩ := e
    have hh : (∃ y, (L.map fun x => (x.1, f x.2)).head? = some y ∧ F.allclose k y.1) ↔
        (∃ y, L.head? = some y ∧ F.allclose k y.1) := by
      cases L with
      | nil => simp
      | cons e L => simp
    simp only [List.map_cons, Float64.keepIsolated, ih]
    by_cases hc : (∃ q, prev = some q ∧ F.allclose k q) ∨ (∃ y, L.head? = some y ∧ F.allclose k y.1)
    · rw [if_pos hc, if_pos (hc.imp_right hh.mpr)]
    · rw [if_neg hc, if_neg (fun h => hc (h.imp_right hh.mp))]
      rfl

/-- Rounding of numbers below 100. -/
theorem fl_near (F : Float64) {x : ℝ} (h : |x| ≤ 100) : |F.fl x - x| ≤ 1 / 10 ^ 13 := by
  have h1 := F.fl_err x (h.trans ((by norm_num : (100 : ℝ) ≤ 2 ^ 7).trans (pow_le_pow_right₀ (by norm_num) (by norm_num))))
  have us : ulp ≤ 12 / 10 ^ 17 := ulp_small.1.trans (by norm_num)
  have ts : tiny ≤ 1 / 10 ^ 17 := ulp_small.2.trans (by linarith)
  have := ulp_pos
  nlinarith [abs_nonneg x]

/-- The tolerance of `np.allclose` with rounding. -/
theorem tolerance_near (F : Float64) {y : ℝ} (h : |y| ≤ 50) :
    F.fl (F.fl (1 / 10 ^ 8) + F.fl (F.fl (1 / 10 ^ 5) * |y|)) ≤ 2 / 10 ^ 8 - 1 / 10 ^ 11 + 2 / 10 ^ 5 * |y| - 1 / 10 ^ 7 * |y| ∧
      1 / 10 ^ 9 ≤ F.fl (F.fl (1 / 10 ^ 8) + F.fl (F.fl (1 / 10 ^ 5) * |y|)) := by
  have hy := abs_nonneg y
  have h1 := abs_le.1 (fl_near F (x := 1 / 10 ^ 8) (by norm_num))
  have h2 := abs_le.1 (fl_near F (x := 1 / 10 ^ 5) (by norm_num))
  have b0 : 0 ≤ F.fl (1 / 10 ^ 5) * |y| := mul_nonneg (by linarith [h2.1, show (1 : ℝ) / 10 ^ 13 ≤ 1 / 10 ^ 5 by norm_num]) hy
  have b1 : F.fl (1 / 10 ^ 5) * |y| ≤ (1 / 10 ^ 5 + 1 / 10 ^ 13) * |y| := mul_le_mul_of_nonneg_right (by linarith [h2.2]) hy
  have h3 := abs_le.1 (fl_near F (x := F.fl (1 / 10 ^ 5) * |y|) (by rw [abs_of_nonneg b0]; linarith))
  have h4 := abs_le.1 (fl_near F (x := F.fl (1 / 10 ^ 8) + F.fl (F.fl (1 / 10 ^ 5) * |y|)) (by
    rw [abs_le]; constructor <;> linarith [h1.1, h1.2, h3.1, h3.2]))
  constructor <;> linarith [h1.1, h1.2, h3.1, h3.2, h4.1, h4.2]

theorem allclose_iff (F : Float64) {x y : Fin 3 → ℝ} : F.allclose (List.ofFn x) (List.ofFn y) ↔
    ∀ i, |F.fl (x i - y i)| ≤ F.fl (F.fl (1 / 10 ^ 8) + F.fl (F.fl (1 / 10 ^ 5) * |y i|)) := by
  unfold Float64.allclose
  rw [List.forall₂_iff_get]
  simp only [List.length_ofFn, List.get_eq_getElem, List.getElem_ofFn, true_and]
  exact ⟨fun h i => h i i.2 i.2, fun h i h1 _ => h ⟨i, h1⟩⟩

section
variable (F : Float64) {x y x' y' : Fin 3 → ℝ} (hy : ∀ i, |y i| ≤ 40)
  (hy' : ∀ i, |y' i - y i| ≤ 1 / 10 ^ 12)
include hy hy'

/-- Numbers taken to be close differ by at most twice the tolerance. -/
theorem allclose_near (hx : ∀ i, |x i| ≤ 40) (hx' : ∀ i, |x' i - x i| ≤ 1 / 10 ^ 12)
    (h : F.allclose (List.ofFn x') (List.ofFn y')) (i : Fin 3) :
    |x i - y i| ≤ 2 / 10 ^ 8 + 2 / 10 ^ 5 * |y i| := by
  have h0 := (allclose_iff F).1 h i
  have a1 := abs_le.1 (hx i)
  have a2 := abs_le.1 (hy i)
  have a3 := abs_le.1 (hx' i)
  have a4 := abs_le.1 (hy' i)
  have s1 : |y' i| ≤ |y i| + 1 / 10 ^ 12 := by
    have := abs_sub_abs_le_abs_sub (y' i) (y i)
    linarith [hy' i]
  have h1 := (tolerance_near F (y := y' i) (by linarith [hy i])).1
  have h2 := fl_near F (x := x' i - y' i) (by rw [abs_le]; constructor <;> linarith [a1.1, a1.2, a2.1, a2.2, a3.1, a3.2, a4.1, a4.2])
  have h3 := abs_le.1 (h0.trans h1)
  have h4 := abs_le.1 h2
  have := abs_nonneg (y i)
  rw [abs_le]
  constructor <;> linarith [a3.1, a3.2, a4.1, a4.2, h3.1, h3.2, h4.1, h4.2]

/-- Equal numbers are taken to be close. -/
theorem allclose_self : F.allclose (List.ofFn y') (List.ofFn y') := by
  refine (allclose_iff F).2 fun i => ?_
  have s1 : |y' i| ≤ |y i| + 1 / 10 ^ 12 := by
    have := abs_sub_abs_le_abs_sub (y' i) (y i)
    linarith [hy' i]
  refine le_trans ?_ (tolerance_near F (y := y' i) (by linarith [hy i])).2
  rw [sub_self]
  have := fl_near F (x := 0) (by norm_num)
  rw [sub_zero] at this
  linarith

end

/-! ## The faces of an object -/

section
variable (F : Float64) {R : ℝ} (hR : 1 ≤ R) (hR2 : R ≤ 32) {o : Obj 4} (hm : Moderate .ico R o)

/-- Stored centroid of a face. -/
noncomputable def faceStored (F : Float64) (o : Obj 4) (j : Fin o.length × Fin 4) : List ℝ := storedKey F .ico (face o j)

/-- The faces in the order of their stored centroids. -/
noncomputable def storedFaces (F : Float64) (o : Obj 4) : List (List ℝ × (Fin o.length × Fin 4)) :=
  ((faceIdx o.length).map fun j => (faceStored F o j, j)).insertionSort fun x y => x.1 ≤ y.1

theorem storedFaces_perm : (storedFaces F o).Perm ((faceIdx o.length).map fun j => (faceStored F o j, j)) :=
  List.perm_insertionSort _ _

theorem storedFaces_sorted : (storedFaces F o).Pairwise fun x y => x.1 ≤ y.1 := by
  have : Std.Total fun x y : List ℝ × (Fin o.length × Fin 4) => x.1 ≤ y.1 := ⟨fun x y => le_total _ _⟩
  have : IsTrans _ fun x y : List ℝ × (Fin o.length × Fin 4) => x.1 ≤ y.1 := ⟨fun _ _ _ => le_trans⟩
  exact List.pairwise_insertionSort _ _

theorem mem_storedFaces {e : List ℝ × (Fin o.length × Fin 4)} : e ∈ storedFaces F o ↔ e.1 = faceStored F o e.2 := by
  rw [(storedFaces_perm F).mem_iff, List.mem_map]
  constructor
  · rintro ⟨j, -, rfl⟩; rfl
  · intro h; exact ⟨e.2, mem_faceIdx _, by rw [← h]⟩

theorem storedFaces_nodup : ((storedFaces F o).map Prod.snd).Nodup := by
  refine ((storedFaces_perm F).map Prod.snd).nodup_iff.mpr ?_
  rw [List.map_map, show (Prod.snd ∘ fun j => (faceStored F o j, j)) = id from rfl, List.map_id]
  exact nodup_faceIdx o.length

include hm in
theorem face_moderate (j : Fin o.length × Fin 4) : ModerateSimplex .ico R (face o j) :=
  fun i => hm _ (List.get_mem _ _) (j.2.succAbove i)

include hR hR2 hm

theorem faceStored_near (j : Fin o.length × Fin 4) : ∃ k : Fin 3 → ℝ, faceStored F o j = List.ofFn k ∧
    (∀ c, |k c - Package.ico.centroidPerp (face o j) c| ≤ 1 / 10 ^ 12) ∧ ∀ c, |Package.ico.centroidPerp (face o j) c| ≤ 40 := by
  have hR10 : R ≤ 2 ^ 10 := hR2.trans (by norm_num)
  obtain ⟨k, h1, h2⟩ := centroidKey_rounded F hR hR10 .ico (by norm_num) (by norm_num) (face_moderate hm j)
  obtain ⟨r, -, h3, h4⟩ := centroid_small .ico (by norm_num) (by norm_num) (face_moderate hm j)
  refine ⟨k, ?_, fun c => (h2 c).trans ?_, fun c => ?_⟩
  · rw [storedKey_ok F hR hR10 .ico (by norm_num) (by norm_num) (face_moderate hm j)] at h1
    exact Except.ok.inj h1
  · have us : ulp ≤ 12 / 10 ^ 17 := ulp_small.1.trans (by norm_num)
    have := ulp_pos
    nlinarith
  · rw [← h3]
    exact (h4.perp c).trans (by linarith)

theorem generatorSurface1_rounded (hn : 2 ≤ o.length) :
    F.generatorSurface1 o = .ok ((F.keepIsolated none (storedFaces F o)).map (face o)) := by
  have hR10 : R ≤ 2 ^ 10 := hR2.trans (by norm_num)
  unfold Float64.generatorSurface1
  simp only []
  have hk : ∀ s ∈ o.flatMap tetrahedronSurface, F.centroidKey .ico s = .ok (storedKey F .ico s) := by
    intro s hs
    rw [faces_eq] at hs
    obtain ⟨j, -, rfl⟩ := List.mem_map.1 hs
    exact storedKey_ok F hR hR10 .ico (by norm_num) (by norm_num) (face_moderate hm j)
  rw [if_neg (by omega), fillList_ok hk, bind_ok', faces_eq, if_neg (by
      rw [List.length_map]
      intro h
      have := mem_faceIdx (n := o.length) (⟨0, by omega⟩, 0)
      rw [List.length_eq_zero_iff.mp h] at this
      exact absurd this List.not_mem_nil), zip_map_self, List.map_map, ← keep_map]
  congr 2
  unfold storedFaces
  have h := List.map_insertionSort (fun x y : List ℝ × (Fin o.length × Fin 4) => x.1 ≤ y.1)
    (fun x y : List ℝ × Simplex 3 => x.1 ≤ y.1) (fun x => (x.1, face o x.2))
    ((faceIdx o.length).map fun j => (faceStored F o j, j)) (fun a _ b _ => Iff.rfl)
  rw [h, List.map_map]
  rfl

/-- The surface with rounding contains all faces without partner, if faces with nearly the same centroid have the same
corners; it contains no other face if corners at the same point are given by the same vector. -/
theorem surface_rounded (h : WellFormed o) (hf : ∀ i j, Near (Package.ico.centroidPerp (face o i)) (Package.ico.centroidPerp (face o j)) →
      Set.range (Package.ico.perps (face o i)) = Set.range (Package.ico.perps (face o j))) :
    ∃ J : List (Fin o.length × Fin 4), F.generatorSurface1 o = .ok (J.map (face o)) ∧ J.Nodup ∧ (∀ j, Unpaired o j → j ∈ J) ∧
      (OneName .ico o → ∀ j ∈ J, Unpaired o j) := by
  have hdet := det_of_wf h
  have hclose : ∀ i j, Close (Package.ico.centroidPerp (face o i)) (Package.ico.centroidPerp (face o j)) →
      Set.range (Package.ico.perps (face o i)) = Set.range (Package.ico.perps (face o j)) := fun i j hij => hf i j fun c => by
    have := hij c
    have := abs_nonneg (Package.ico.centroidPerp (face o j) c)
    linarith
  by_cases hn : 2 ≤ o.length
  · have hcl : ∀ i j, F.allclose (faceStored F o i) (faceStored F o j) →
        Set.range (Package.ico.perps (face o i)) = Set.range (Package.ico.perps (face o j)) := by
      intro i j hij
      obtain ⟨k, e1, n1, s1⟩ := faceStored_near F hR hR2 hm i
      obtain ⟨l, e2, n2, s2⟩ := faceStored_near F hR hR2 hm j
      rw [e1, e2] at hij
      exact hf i j (allclose_near F s2 n2 s1 n1 hij)
    refine ⟨_, generatorSurface1_rounded F hR hR2 hm hn, (storedFaces_nodup F).sublist (keep_sublist F _ _), fun j hj => ?_, fun hname => ?_⟩
    · have hmem : (faceStored F o j, j) ∈ storedFaces F o := (mem_storedFaces F).2 rfl
      obtain ⟨l, r, e⟩ := List.append_of_mem hmem
      rw [e]
      refine keep_mem F none l r _ j (by simp) fun y hy hc => ?_
      have hne : y.2 ≠ j := by
        have hnd := storedFaces_nodup F (o := o)
        rw [e, List.map_append, List.map_cons] at hnd
        rintro rfl
        rcases List.mem_append.1 hy with h | h
        · exact (List.nodup_append.1 hnd).2.2 _ (List.mem_map_of_mem h) _ (by simp) rfl
        · exact (List.nodup_cons.1 (List.nodup_append.1 hnd).2.1).1 (List.mem_map.2 ⟨y, h, rfl⟩)
      have hy' : y ∈ storedFaces F o := by
        rw [e]
        rcases List.mem_append.1 hy with h | h <;> simp [h]
      rw [(mem_storedFaces F).1 hy'] at hc
      exact hj y.2 hne (centroid_of_range hdet (hcl j y.2 hc)).symm
    · have hsame : ∀ i j, Set.range (Package.ico.perps (face o i)) = Set.range (Package.ico.perps (face o j)) →
          faceStored F o i = faceStored F o j := by
        intro i j hij
        have hperm : (List.ofFn (face o i)).Perm (List.ofFn (face o j)) := by
          have inj : ∀ j, Function.Injective (face o j) := fun j a b hab =>
            (proper_face (hdet _ (List.get_mem o j.1)) j.2).injective (congrArg Package.ico.perp hab)
          refine (List.perm_ext_iff_of_nodup (List.nodup_ofFn.2 (inj i)) (List.nodup_ofFn.2 (inj j))).2 fun v => ?_
          have half : ∀ {i j}, Set.range (Package.ico.perps (face o i)) = Set.range (Package.ico.perps (face o j)) →
              v ∈ List.ofFn (face o i) → v ∈ List.ofFn (face o j) := by
            intro i j hij hv
            obtain ⟨a, rfl⟩ := List.mem_ofFn.1 hv
            have : Package.ico.perps (face o i) a ∈ Set.range (Package.ico.perps (face o j)) := by rw [← hij]; exact ⟨a, rfl⟩
            obtain ⟨b, hb⟩ := this
            exact List.mem_ofFn.2 ⟨b, hname _ (List.get_mem _ _) _ (List.get_mem _ _) _ _ hb⟩
          exact ⟨half hij, half hij.symm⟩
        unfold faceStored storedKey Float64.centroidKey
        rw [C14_centroid_perm .ico _ _ hperm]
        intro v hv
        obtain ⟨a, rfl⟩ := List.mem_ofFn.1 hv
        exact (face_moderate hm i).ok a
      have hiff : ∀ x ∈ storedFaces F o, ∀ y ∈ storedFaces F o, F.allclose x.1 y.1 ↔ x.1 = y.1 := by
        intro x hx y hy
        rw [(mem_storedFaces F).1 hx, (mem_storedFaces F).1 hy]
        constructor
        · exact fun hc => hsame _ _ (hcl _ _ hc)
        · intro he
          rw [he]
          obtain ⟨l, e2, n2, s2⟩ := faceStored_near F hR hR2 hm y.2
          rw [e2]
          exact allclose_self F s2 n2
      intro j hj
      have e := keep_unique F [] (storedFaces F o) (by simpa using storedFaces_sorted F) (by simpa using hiff)
      simp only [List.getLast?_nil, Option.map_none, List.nil_append] at e
      rw [e] at hj
      obtain ⟨x, hx, rfl⟩ := List.mem_map.1 hj
      obtain ⟨hx1, hx2⟩ := List.mem_filter.1 hx
      rw [decide_eq_true_iff] at hx2
      intro i hi hc
      have hst : faceStored F o i = x.1 := by
        rw [(mem_storedFaces F).1 hx1]
        exact hsame _ _ (hclose i x.2 (by rw [hc]; intro c; rw [sub_self, abs_zero]; positivity))
      have hi' : (x.1, i) ∈ storedFaces F o := (mem_storedFaces F).2 hst.symm
      obtain ⟨l, r, e⟩ := List.append_of_mem hx1
      rw [e] at hi' hx2
      rw [List.countP_append, List.countP_cons, if_pos (by simp)] at hx2
      have z1 : l.countP (fun f => decide (f.1 = x.1)) = 0 := by omega
      have z2 : r.countP (fun f => decide (f.1 = x.1)) = 0 := by omega
      rw [List.countP_eq_zero] at z1 z2
      rcases List.mem_append.1 hi' with h | h
      · exact z1 _ h (by simp)
      · rcases List.mem_cons.1 h with h | h
        · exact hi (congrArg Prod.snd h)
        · exact z2 _ h (by simp)
  · obtain ⟨J, h1, h2, h3⟩ := surface_faces h hclose
    refine ⟨J, ?_, h2, fun j hj => (h3 j).2 hj, fun _ j hj => (h3 j).1 hj⟩
    rw [← h1]
    have : o.length = 1 := by
      have := List.length_pos_of_ne_nil h.ne
      omega
    unfold Float64.generatorSurface1 generatorSurface1
    simp only []
    rw [if_pos this, if_pos this]

end
end Rounding
end PyQC
