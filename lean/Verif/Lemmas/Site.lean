import Verif.Spec.Sites
import Verif.Lemmas.Similarity
import Mathlib.Data.List.Sort
/-!
# Site symmetry, overlaps, cosets
-/
namespace PyQC
open Matrix

theorem mem_removeOverlaps {l : List Nat} {x : Nat} : x ∈ Dode.removeOverlaps l ↔ x ∈ l := by
  unfold Dode.removeOverlaps
  rw [(List.perm_insertionSort _ _).mem_iff, List.mem_dedup]

theorem removeOverlaps_nodup (l : List Nat) : (Dode.removeOverlaps l).Nodup :=
  (List.perm_insertionSort _ _).nodup_iff.mpr (List.nodup_dedup l)

theorem removeOverlaps_sorted (l : List Nat) : (Dode.removeOverlaps l).Pairwise (· < ·) := by
  have h1 : (Dode.removeOverlaps l).Pairwise (· ≤ ·) := List.pairwise_insertionSort (· ≤ ·) _
  have h2 := removeOverlaps_nodup l
  exact (h1.and h2).imp fun h => lt_of_le_of_ne h.1 h.2

theorem removeOverlaps_length (l : List Nat) : (Dode.removeOverlaps l).length = l.dedup.length :=
  (List.perm_insertionSort _ _).length_eq

theorem removeOverlaps_eq {l : List Nat} (h : l.Pairwise (· < ·)) : Dode.removeOverlaps l = l := by
  unfold Dode.removeOverlaps
  rw [List.dedup_eq_self.mpr (h.imp fun h => ne_of_lt h)]
  exact List.Pairwise.insertionSort_eq (h.imp fun h => le_of_lt h)

theorem findOverlaps_false {l₁ l₂ : List Nat} :
    Dode.findOverlaps l₁ l₂ = false ↔ (l₁ ++ l₂).Nodup := by
  unfold Dode.findOverlaps
  rw [removeOverlaps_length, ← List.length_append, Bool.not_eq_false', decide_eq_true_iff]
  constructor
  · intro h
    rw [← List.dedup_eq_self]
    exact (List.dedup_sublist _).eq_of_length h.symm
  · intro h
    rw [List.dedup_eq_self.mpr h]

theorem sorted_ext {l m : List Nat} (hl : l.Pairwise (· < ·)) (hm : m.Pairwise (· < ·))
    (h : ∀ x, x ∈ l ↔ x ∈ m) : l = m := by
  have hp : l.Perm m := (List.perm_ext_iff_of_nodup (hl.imp fun h => ne_of_lt h)
    (hm.imp fun h => ne_of_lt h)).mpr h
  exact hp.eq_of_pairwise (fun a b _ _ h1 h2 => absurd h1 (lt_asymm h2)) hl hm

/-! ## Site symmetry -/

theorem mem_translation {ndim : Int} {v : Vec 6} :
    v ∈ Dode.translation ndim ↔ ∃ t : Fin 6 → Int, Listed ndim t ∧ v = fun i => ⟨t i, 0, 1⟩ := by
  have key : ∀ t : Fin 6 → Int, t 5 = 0 →
      Dode.intVec (t 0) (t 1) (t 2) (t 3) (t 4) = fun i => ⟨t i, 0, 1⟩ := by
    intro t h
    funext i
    fin_cases i <;> simp [Dode.intVec, h]
  have m3 : ∀ x : Int, x ∈ ([-1, 0, 1] : List Int) ↔ x = -1 ∨ x = 0 ∨ x = 1 := by intro x; simp
  constructor
  · intro h
    have mk : ∀ i1 i2 i3 i4 i5 : Int, i1 ∈ ([-1, 0, 1] : List Int) → i2 ∈ ([-1, 0, 1] : List Int) →
        i3 ∈ ([-1, 0, 1] : List Int) → i4 ∈ ([-1, 0, 1] : List Int) → i5 ∈ ([-1, 0, 1] : List Int) →
        (ndim = 4 → i5 = 0) → v = Dode.intVec i1 i2 i3 i4 i5 →
        ∃ t : Fin 6 → Int, Listed ndim t ∧ v = fun i => ⟨t i, 0, 1⟩ := by
      intro i1 i2 i3 i4 i5 h1 h2 h3 h4 h5 h6 hv
      rw [m3] at h1 h2 h3 h4 h5
      refine ⟨![i1, i2, i3, i4, i5, 0], ⟨?_, rfl, h6⟩, ?_⟩
      · intro i; fin_cases i <;> simp [*]
      · rw [hv]; exact key ![i1, i2, i3, i4, i5, 0] rfl
    unfold Dode.translation at h
    rw [List.mem_cons] at h
    rcases h with h | h
    · exact mk 0 0 0 0 0 (by decide) (by decide) (by decide) (by decide) (by decide) (fun _ => rfl) h
    · split_ifs at h with hd
      · simp only [List.mem_flatMap, List.mem_map] at h
        obtain ⟨i1, h1, i2, h2, i3, h3, i4, h4, rfl⟩ := h
        exact mk i1 i2 i3 i4 0 h1 h2 h3 h4 (by decide) (fun _ => rfl) rfl
      · simp only [List.mem_flatMap, List.mem_map] at h
        obtain ⟨i1, h1, i2, h2, i3, h3, i4, h4, i5, h5, rfl⟩ := h
        exact mk i1 i2 i3 i4 i5 h1 h2 h3 h4 h5 (fun h => absurd h hd) rfl
  · rintro ⟨t, ⟨ht, h5, h4⟩, rfl⟩
    rw [← key t h5]
    unfold Dode.translation
    rw [List.mem_cons]
    right
    split_ifs with hd
    · simp only [List.mem_flatMap, List.mem_map]
      refine ⟨t 0, (m3 _).mpr (ht 0), t 1, (m3 _).mpr (ht 1), t 2, (m3 _).mpr (ht 2), t 3,
        (m3 _).mpr (ht 3), ?_⟩
      rw [h4 hd]
    · simp only [List.mem_flatMap, List.mem_map]
      exact ⟨t 0, (m3 _).mpr (ht 0), t 1, (m3 _).mpr (ht 1), t 2, (m3 _).mpr (ht 2), t 3,
        (m3 _).mpr (ht 3), t 4, (m3 _).mpr (ht 4), rfl⟩

theorem lengthNumerical_eq (v : Vec 6) :
    Dode.lengthNumerical v = Real.sqrt (∑ i, (Vec.val sin60 v i) ^ 2) := by
  unfold Dode.lengthNumerical
  congr 1
  rw [Fin.sum_univ_def, List.sum_eq_foldl, List.foldl_map]
  rfl

/-- The test of `site_symmetry` for one image and one translation, in real terms. -/
def Hit (site site1 top : Vec 6) : Prop :=
  dist6 (Package.dode.val site) (fun i => Package.dode.val site1 i + Package.dode.val top i) < EPS

open Classical in
theorem bringsBack_ok {site site1 : Vec 6} (h : Vec.Ok site) (h1 : Vec.Ok site1) {l : List (Vec 6)}
    (hl : ∀ t ∈ l, Vec.Ok t) :
    Dode.bringsBack site site1 l = .ok (decide (∃ t ∈ l, Hit site site1 t)) := by
  induction l with
  | nil => simp [Dode.bringsBack]
  | cons t ts ih =>
    rw [Dode.bringsBack, show Dode.arith = Package.dode.arith from rfl, addVectors_ok Package.dode.lawful h1 (hl t (by simp)), bind_ok',
      subVectors_ok Package.dode.lawful h (nvec_ok _), bind_ok', ih (fun t ht => hl t (by simp [ht]))]
    have e : Dode.lengthNumerical (nvec (kvec Package.dode.theta site -
        kvec Package.dode.theta (nvec (kvec Package.dode.theta site1 + kvec Package.dode.theta t)))) =
        dist6 (Package.dode.val site) (fun i => Package.dode.val site1 i + Package.dode.val t i) := by
      rw [lengthNumerical_eq, kvec_nvec]
      unfold dist6
      rw [show sin60 = Package.dode.theta from rfl, val_nvec]
      congr 1
    rw [e]
    by_cases hh : Hit site site1 t
    · rw [if_pos (show _ < EPS from hh)]
      congr 1
      symm
      rw [decide_eq_true_iff]
      exact ⟨t, by simp, hh⟩
    · rw [if_neg (show ¬ _ < EPS from hh)]
      congr 2
      apply propext
      simp [hh]

theorem siteLoop_ok {site : Vec 6} (h : Vec.Ok site) {tra : List (Vec 6)} (ht : ∀ t ∈ tra, Vec.Ok t)
    (ops : List (IMat 6 6)) (k : Nat) :
    ∃ l, Dode.siteLoop site tra k ops = .ok l ∧ l.Pairwise (· < ·) ∧
      ∀ i, i ∈ l ↔ ∃ j op, ops[j]? = some op ∧ i = k + j ∧
        ∃ t ∈ tra, Hit site (symV .dode op Dode.V0 site) t := by
  induction ops generalizing k with
  | nil => exact ⟨[], rfl, by simp, by simp⟩
  | cons op ops ih =>
    obtain ⟨l, h1, h2, h3⟩ := ih (k + 1)
    rw [Dode.siteLoop, symopVec_ok op h (by decide), bind_ok', bringsBack_ok h (symV_ok _ _ _) ht,
      bind_ok', h1, bind_ok']
    have hk : ∀ i ∈ l, k < i := by
      intro i hi
      obtain ⟨j, op', -, rfl, -⟩ := (h3 i).mp hi
      omega
    by_cases hh : ∃ t ∈ tra, Hit site (symV .dode op Dode.V0 site) t
    · refine ⟨k :: l, by simp only [hh, decide_true, if_true], List.pairwise_cons.mpr ⟨hk, h2⟩, ?_⟩
      intro i
      rw [List.mem_cons, h3]
      constructor
      · rintro (rfl | ⟨j, op', a, rfl, c⟩)
        · exact ⟨0, op, by simp, rfl, hh⟩
        · exact ⟨j + 1, op', by simpa using a, by omega, c⟩
      · rintro ⟨j, op', a, b, c⟩
        cases j with
        | zero => left; omega
        | succ j => right; exact ⟨j, op', by simpa using a, by omega, c⟩
    · refine ⟨l, by simp only [hh, decide_false]; rfl, h2, ?_⟩
      intro i
      rw [h3]
      constructor
      · rintro ⟨j, op', a, rfl, c⟩
        exact ⟨j + 1, op', by simpa using a, by omega, c⟩
      · rintro ⟨j, op', a, b, c⟩
        cases j with
        | zero =>
          simp only [List.getElem?_cons_zero, Option.some.injEq] at a
          subst a
          exact absurd c hh
        | succ j => exact ⟨j, op', by simpa using a, by omega, c⟩

theorem val_symV_zero (op : IMat 6 6) (v : Vec 6) :
    Package.dode.val (symV .dode op Dode.V0 v) = applyMat op (Package.dode.val v) := by
  unfold Package.val symV
  rw [val_nvec, coe_ksym, coe_kvec, coe_kvec]
  have h0 : Vec.val Package.dode.theta Dode.V0 = 0 := by
    funext i; simp [Vec.val, Dode.V0, Num3.val]
  rw [h0, sub_zero, add_zero]
  rfl

theorem opAt_of_get {i : Nat} {op : IMat 6 6} (h : Dode.dodesymop[i]? = some op) : opAt i = op := by
  unfold opAt
  rw [List.getD_eq_getElem?_getD, h]
  rfl

theorem get_opAt {i : Nat} (h : i < 24) : Dode.dodesymop[i]? = some (opAt i) := by
  have hl : i < Dode.dodesymop.length := by
    rw [show Dode.dodesymop.length = 24 from symops_length .dode]; exact h
  unfold opAt
  rw [List.getD_eq_getElem _ _ hl]
  exact List.getElem?_eq_getElem hl

theorem get_lt {i : Nat} {op : IMat 6 6} (h : Dode.dodesymop[i]? = some op) : i < 24 := by
  obtain ⟨hl, -⟩ := List.getElem?_eq_some_iff.mp h
  rwa [show Dode.dodesymop.length = 24 from symops_length .dode] at hl

theorem opAt_mem {i : Nat} (h : i < 24) : opAt i ∈ Dode.dodesymop :=
  List.mem_of_getElem? (get_opAt h)

theorem siteSymmetry_ok {site : Vec 6} (h : Vec.Ok site) (ndim : Int) :
    ∃ l, Dode.siteSymmetry site ndim = .ok l ∧ l.Pairwise (· < ·) ∧
      ∀ i, i ∈ l ↔ i < 24 ∧ ∃ t : Fin 6 → Int, Listed ndim t ∧
        dist6 (Package.dode.val site)
          (fun k => applyMat (opAt i) (Package.dode.val site) k + t k) < EPS := by
  have ht : ∀ t ∈ Dode.translation ndim, Vec.Ok t := by
    intro t ht
    obtain ⟨u, -, rfl⟩ := mem_translation.mp ht
    intro i; simp
  obtain ⟨l, h1, h2, h3⟩ := siteLoop_ok h ht Dode.dodesymop 0
  refine ⟨l, ?_, h2, ?_⟩
  · unfold Dode.siteSymmetry
    rw [h1, bind_ok', removeOverlaps_eq h2]
  · intro i
    rw [h3]
    have hv : ∀ t : Fin 6 → Int, Package.dode.val (fun i => (⟨t i, 0, 1⟩ : Num3)) = fun k => (t k : ℝ) := by
      intro t; funext k; simp [Package.val, Vec.val, Num3.val]
    constructor
    · rintro ⟨j, op, a, rfl, t, htm, hh⟩
      rw [zero_add]
      obtain ⟨u, hu, rfl⟩ := mem_translation.mp htm
      refine ⟨get_lt a, u, hu, ?_⟩
      unfold Hit at hh
      rw [val_symV_zero, hv, ← opAt_of_get a] at hh
      exact hh
    · rintro ⟨hi, u, hu, hh⟩
      refine ⟨i, opAt i, get_opAt hi, (zero_add i).symm, _, mem_translation.mpr ⟨u, hu, rfl⟩, ?_⟩
      unfold Hit
      rw [val_symV_zero, hv]
      exact hh

end PyQC
