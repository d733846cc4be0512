import Verif.Model.Rest
import Verif.Lemmas.Surface
import Verif.Props.Podatm
/-!
# C80: sorting vectors by their first perp coordinate
-/
namespace PyQC

section
variable {argsort : List ℝ → List Nat} (h : IsArgsort argsort) (p : Package)
include h

/-- C80: `sort_vctors` never raises, returns the given rows in another order (each as often as it was given), and the
first perp coordinate never decreases along the result. This holds whatever `np.argsort` does with equal entries. -/
theorem C80_sort (vts : List (Vec 6)) :
    ∃ out, sortVectors argsort p vts = .ok out ∧ out.Perm vts ∧
      out.Pairwise fun v w => p.perp v 0 ≤ p.perp w 0 := by
  set col := vts.map fun v => p.internalNumerical v 0 with hcol
  have hp : (argsort col).Perm (List.range vts.length) := by
    have := h.perm col
    rwa [hcol, List.length_map, ← hcol] at this
  have hlt : ∀ i ∈ argsort col, i < vts.length := fun i hi => List.mem_range.mp (hp.mem_iff.mp hi)
  have e : sortVectors argsort p vts = .ok ((argsort col).map fun i => vts.getD i (fun _ => ⟨0, 0, 1⟩)) := by
    unfold sortVectors
    refine fillList_ok fun i hi => pyItem_ok (by omega) ?_
    have := hlt i hi
    simp [List.getElem?_eq_getElem this, List.getD_eq_getElem?_getD]
  refine ⟨_, e, ?_, ?_⟩
  · refine (hp.map _).trans (List.Perm.of_eq ?_)
    apply List.ext_getElem (by simp)
    intro i h1 h2
    simp [List.getElem?_eq_getElem h2, List.getD_eq_getElem?_getD]
  · rw [List.pairwise_map]
    refine (h.sorted col).imp_of_mem fun {i j} hi hj hij => ?_
    have li := hlt i hi
    have lj := hlt j hj
    have := hij (p.internalNumerical vts[i] 0) (p.internalNumerical vts[j] 0)
      (by simp [hcol, List.getElem?_eq_getElem li]) (by simp [hcol, List.getElem?_eq_getElem lj])
    rw [p.internalNumerical_eq, p.internalNumerical_eq] at this
    simpa [List.getD_eq_getElem?_getD, List.getElem?_eq_getElem li, List.getElem?_eq_getElem lj] using this

/-- C80: sorting forgets the order of the input as far as the first perp coordinate goes: two lists with the same rows
give the same sequence of first perp coordinates. -/
theorem C80_order_irrelevant (vts vts' : List (Vec 6)) (hp : vts.Perm vts') :
    ∃ out out', sortVectors argsort p vts = .ok out ∧ sortVectors argsort p vts' = .ok out' ∧
      (out.map fun v => p.perp v 0) = out'.map fun v => p.perp v 0 := by
  obtain ⟨o, e, q, s⟩ := C80_sort h p vts
  obtain ⟨o', e', q', s'⟩ := C80_sort h p vts'
  refine ⟨o, o', e, e', ?_⟩
  exact ((q.trans (hp.trans q'.symm)).map _).eq_of_pairwise' (List.pairwise_map.mpr s) (List.pairwise_map.mpr s')

/-- C80: rows with different first perp coordinates have only one sorted order: sorting twice changes nothing and
the order of the input does not matter. -/
theorem C80_unique (vts vts' : List (Vec 6)) (hp : vts.Perm vts')
    (hd : vts.Pairwise fun v w => p.perp v 0 ≠ p.perp w 0) :
    sortVectors argsort p vts = sortVectors argsort p vts' := by
  obtain ⟨o, e, q, s⟩ := C80_sort h p vts
  obtain ⟨o', e', q', s'⟩ := C80_sort h p vts'
  have hoo : o.Perm o' := q.trans (hp.trans q'.symm)
  have inj : ∀ v ∈ o, ∀ w ∈ o, p.perp v 0 = p.perp w 0 → v = w := by
    intro v hv w hw hvw
    by_contra hne
    have : Std.Symm fun v w => p.perp v 0 ≠ p.perp w 0 := ⟨fun _ _ => Ne.symm⟩
    exact (hd.forall (q.mem_iff.mp hv) (q.mem_iff.mp hw) hne) hvw
  rw [e, e']
  congr 1
  refine hoo.eq_of_pairwise (le := fun v w => p.perp v 0 ≤ p.perp w 0) ?_ s s'
  intro a b ha hb h1 h2
  exact inj a ha b (hoo.mem_iff.mpr hb) (le_antisymm h1 h2)

end

open Classical in
/-- An argsort: merge sort of the row numbers. -/
noncomputable def mergeArgsort (l : List ℝ) : List Nat :=
  (List.range l.length).mergeSort fun i j => decide (l.getD i 0 ≤ l.getD j 0)

/-- The hypothesis of C80 is met by merge sort. -/
theorem mergeArgsort_ok : IsArgsort mergeArgsort := by
  refine ⟨fun l => List.mergeSort_perm _ _, fun l => ?_⟩
  refine (List.pairwise_mergeSort (le := fun i j => decide (l.getD i 0 ≤ l.getD j 0)) ?_ ?_ _).imp ?_
  · intro a b c; simp only [decide_eq_true_eq]; exact le_trans
  · intro a b; simp only [Bool.or_eq_true, decide_eq_true_eq]; exact le_total _ _
  · intro i j hij x y hx hy
    simpa [List.getD_eq_getElem?_getD, hx, hy] using hij

/-- C80 used on the three rows with first perp coordinates 2, 0, 1. -/
example : ∃ out, sortVectors mergeArgsort .ico [cart 2 0 0 1, cart 0 1 0 1, cart 1 5 0 1] = .ok out ∧
    out = [cart 0 1 0 1, cart 1 5 0 1, cart 2 0 0 1] := by
  have hx : ∀ x y z, Package.ico.perp (cart x y z 1) 0 = (x : ℝ) := by
    intro x y z; rw [perp_cart]; simp
  have hd : [cart 2 0 0 1, cart 0 1 0 1, cart 1 5 0 1].Pairwise
      fun v w => Package.ico.perp v 0 ≠ Package.ico.perp w 0 := by
    simp only [List.pairwise_cons, List.mem_cons, List.not_mem_nil, or_false, forall_eq_or_imp, forall_eq, hx]
    norm_num
  obtain ⟨o, e, q, s⟩ := C80_sort mergeArgsort_ok .ico [cart 2 0 0 1, cart 0 1 0 1, cart 1 5 0 1]
  refine ⟨o, e, ?_⟩
  have hp : [cart 2 0 0 1, cart 0 1 0 1, cart 1 5 0 1].Perm [cart 0 1 0 1, cart 1 5 0 1, cart 2 0 0 1] :=
    (List.perm_append_comm (l₁ := [cart 2 0 0 1]))
  refine (q.trans hp).eq_of_pairwise (le := fun v w => Package.ico.perp v 0 ≤ Package.ico.perp w 0) ?_ s ?_
  · intro a b ha hb h1 h2
    by_contra hne
    have : Std.Symm fun v w => Package.ico.perp v 0 ≠ Package.ico.perp w 0 := ⟨fun _ _ => Ne.symm⟩
    exact (hd.forall (q.mem_iff.mp ha) (hp.mem_iff.mpr hb) hne) (le_antisymm h1 h2)
  · simp only [List.pairwise_cons, List.mem_cons, List.not_mem_nil, or_false, forall_eq_or_imp, forall_eq, hx]
    norm_num

/-- C80, what the code does not do: `sort_obj` raises NameError on every object. -/
theorem C80_fails_sort_obj {m : Nat} (o : Obj m) : sortObj o = .error .nameError := rfl

end PyQC
