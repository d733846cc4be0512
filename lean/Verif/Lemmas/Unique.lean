import Verif.Model.Unique
import Verif.Spec.Order
import Verif.Lemmas.Volume
/-!
# `np.unique`
-/
namespace PyQC

section generic
variable {α κ : Type} [LinearOrder κ] {key : α → κ}

theorem mem_firstOcc {seen : List κ} {l : List α} {x : α} :
    x ∈ firstOcc key seen l ↔ key x ∉ seen ∧ l.find? (fun z => decide (key z = key x)) = some x := by
  induction l generalizing seen with
  | nil => simp [firstOcc]
  | cons y ys ih =>
    unfold firstOcc
    by_cases hy : key y ∈ seen
    · rw [if_pos hy, ih]
      refine and_congr_right fun hx => ?_
      have : key y ≠ key x := fun h => hx (h ▸ hy)
      simp [this]
    · rw [if_neg hy, List.mem_cons, ih]
      by_cases h : key y = key x
      · simp only [List.find?_cons, h, List.mem_cons, true_or, not_true, false_and, or_false,
          decide_true, Option.some.injEq]
        constructor
        · rintro rfl; exact ⟨hy, rfl⟩
        · rintro ⟨-, rfl⟩; rfl
      · have hne : x ≠ y := fun e => h (by rw [e])
        simp only [List.find?_cons, h, hne, List.mem_cons, not_or, false_or, decide_false]
        constructor
        · rintro ⟨⟨-, h2⟩, h3⟩; exact ⟨h2, h3⟩
        · rintro ⟨h2, h3⟩; exact ⟨⟨fun e => h e.symm, h2⟩, h3⟩

theorem firstOcc_pairwise (seen : List κ) (l : List α) :
    (firstOcc key seen l).Pairwise fun x y => key x ≠ key y := by
  induction l generalizing seen with
  | nil => exact List.Pairwise.nil
  | cons y ys ih =>
    unfold firstOcc
    split
    · exact ih _
    · refine List.Pairwise.cons (fun z hz h => ?_) (ih _)
      exact (mem_firstOcc.mp hz).1 (by simp [h])

theorem mem_uniqueBy {l : List α} {x : α} :
    x ∈ uniqueBy key l ↔ l.find? (fun z => decide (key z = key x)) = some x := by
  unfold uniqueBy
  rw [(List.perm_insertionSort _ _).mem_iff, mem_firstOcc]
  simp

theorem mem_of_mem_uniqueBy {l : List α} {x : α} (h : x ∈ uniqueBy key l) : x ∈ l :=
  List.mem_of_find?_eq_some (mem_uniqueBy.mp h)

theorem uniqueBy_sorted (l : List α) : (uniqueBy key l).Pairwise fun x y => key x < key y := by
  have h1 : (uniqueBy key l).Pairwise fun x y => key x ≤ key y := by
    have : Std.Total fun x y : α => key x ≤ key y := ⟨fun x y => le_total _ _⟩
    have : IsTrans α fun x y : α => key x ≤ key y := ⟨fun _ _ _ => le_trans⟩
    exact List.pairwise_insertionSort _ _
  have h2 : (uniqueBy key l).Pairwise fun x y => key x ≠ key y :=
    ((List.perm_insertionSort _ _).pairwise_iff (fun h => Ne.symm h)).mpr (firstOcc_pairwise [] l)
  exact (h1.and h2).imp fun h => lt_of_le_of_ne h.1 h.2

theorem exists_uniqueBy {l : List α} {x : α} (hx : x ∈ l) : ∃ y ∈ uniqueBy key l, key y = key x := by
  cases h : l.find? (fun z => decide (key z = key x)) with
  | none => simpa using List.find?_eq_none.mp h x hx
  | some y =>
    have hy : key y = key x := by simpa using List.find?_some h
    exact ⟨y, mem_uniqueBy.mpr (by rw [hy]; exact h), hy⟩

theorem mem_uniqueBy_inj (hk : Function.Injective key) {l : List α} {x : α} :
    x ∈ uniqueBy key l ↔ x ∈ l := by
  refine ⟨mem_of_mem_uniqueBy, fun hx => ?_⟩
  obtain ⟨y, hy, e⟩ := exists_uniqueBy (key := key) hx
  exact hk e ▸ hy

/-- Lists sorted strictly by key with the same elements are equal. -/
theorem sortedBy_ext {l m : List α} (hl : l.Pairwise fun x y => key x < key y)
    (hm : m.Pairwise fun x y => key x < key y) (h : ∀ x, x ∈ l ↔ x ∈ m) : l = m := by
  have ne : ∀ {x y : α}, key x < key y → x ≠ y := fun h e => absurd h (by rw [e]; exact lt_irrefl _)
  have hp : l.Perm m := (List.perm_ext_iff_of_nodup (hl.imp ne) (hm.imp ne)).mpr h
  exact hp.eq_of_pairwise (fun a b _ _ h1 h2 => absurd h1 (lt_asymm h2)) hl hm

end generic

/-! ## Row keys -/

theorem flatMap3_inj {l m : List Num3} (h : l.flatMap (fun x => [x.a, x.b, x.c]) =
    m.flatMap fun x => [x.a, x.b, x.c]) : l = m := by
  induction l generalizing m with
  | nil => cases m with
    | nil => rfl
    | cons y m => simp at h
  | cons x l ih => cases m with
    | nil => simp at h
    | cons y m =>
      simp only [List.flatMap_cons, List.cons_append, List.nil_append, List.cons.injEq] at h
      obtain ⟨h1, h2, h3, h4⟩ := h
      rw [ih h4]
      congr 1
      cases x; cases y; simp_all

theorem rowKey_inj {n : Nat} : Function.Injective (rowKey (n := n)) := fun _ _ h =>
  List.ofFn_injective (flatMap3_inj h)

theorem rowKey_succ {n : Nat} (v : Vec (n + 1)) :
    rowKey v = (v 0).a :: (v 0).b :: (v 0).c :: rowKey (fun i : Fin n => v i.succ) := by
  simp [rowKey, List.ofFn_succ]

/-- The order of rows is the lexicographic order of the specification. -/
theorem rowKey_lt {n : Nat} {v w : Vec n} : rowKey v < rowKey w ↔ Vec.Before v w := by
  induction n with
  | zero => simp [rowKey, Vec.Before]
  | succ n ih =>
    rw [rowKey_succ, rowKey_succ, List.cons_lt_cons_iff, List.cons_lt_cons_iff, List.cons_lt_cons_iff,
      ih]
    constructor
    · rintro (h | ⟨ha, h | ⟨hb, h | ⟨hc, i, hi, hi'⟩⟩⟩)
      · exact ⟨0, by simp, .inl h⟩
      · exact ⟨0, by simp, .inr ⟨ha, .inl h⟩⟩
      · exact ⟨0, by simp, .inr ⟨ha, .inr ⟨hb, h⟩⟩⟩
      · refine ⟨i.succ, fun j hj => ?_, hi'⟩
        refine Fin.cases (motive := fun j => j < i.succ → v j = w j) (fun _ => ?_) (fun j hj => ?_) j hj
        · cases h : v 0; cases h' : w 0; simp_all
        · exact hi j (Fin.succ_lt_succ_iff.mp hj)
    · rintro ⟨i, hi, hi'⟩
      revert hi hi'
      refine Fin.cases (fun _ h => ?_) (fun i hi h => ?_) i
      · rcases h with h | ⟨ha, h | ⟨hb, hc⟩⟩
        · exact .inl h
        · exact .inr ⟨ha, .inl h⟩
        · exact .inr ⟨ha, .inr ⟨hb, .inl hc⟩⟩
      · have e : v 0 = w 0 := hi 0 (Fin.succ_pos i)
        rw [e]
        exact .inr ⟨rfl, .inr ⟨rfl, .inr ⟨rfl, i, fun j hj => hi j.succ (Fin.succ_lt_succ_iff.mpr hj), h⟩⟩⟩

theorem mem_removeDoubling {l : List (Vec 6)} {x : Vec 6} : x ∈ removeDoubling l ↔ x ∈ l :=
  mem_uniqueBy_inj rowKey_inj

theorem removeDoubling_sorted (l : List (Vec 6)) :
    (removeDoubling l).Pairwise fun x y => rowKey x < rowKey y := uniqueBy_sorted l

theorem removeDoubling_congr {l m : List (Vec 6)} (h : ∀ x, x ∈ l ↔ x ∈ m) :
    removeDoubling l = removeDoubling m :=
  sortedBy_ext (removeDoubling_sorted l) (removeDoubling_sorted m) fun x => by
    rw [mem_removeDoubling, mem_removeDoubling, h]

/-! ## Doubles in perp space -/

/-- Key of the second step: the row of the projected vector. -/
noncomputable def Package.pkey (p : Package) (v : Vec 6) : List Int :=
  rowKey (nvec (p.kperp.mulVec (kvec p.theta v)))

theorem Package.pkey_eq (p : Package) {v w : Vec 6} : p.pkey v = p.pkey w ↔ p.perp v = p.perp w := by
  unfold Package.pkey
  rw [rowKey_inj.eq_iff, nvec_inj, p.kperp_eq_iff]

/-- Zipping a list with images of its elements and taking the unique ones by that image. -/
theorem uniqueBy_zip {α β κ : Type} [LinearOrder κ] (key : β → κ) (g : α → β) (l : List α) :
    (uniqueBy (fun x : β × α => key x.1) ((l.map g).zip l)).map Prod.snd =
      uniqueBy (fun x => key (g x)) l := by
  have hz : (l.map g).zip l = l.map fun x => (g x, x) := by
    induction l with
    | nil => rfl
    | cons x l ih => simp [ih]
  rw [hz]
  refine sortedBy_ext (key := fun x => key (g x)) ?_ (uniqueBy_sorted l) ?_
  · rw [List.pairwise_map]
    refine (uniqueBy_sorted (key := fun x : β × α => key x.1) _).imp_of_mem ?_
    intro a b ha hb h
    obtain ⟨x, -, rfl⟩ := List.mem_map.mp (mem_of_mem_uniqueBy ha)
    obtain ⟨y, -, rfl⟩ := List.mem_map.mp (mem_of_mem_uniqueBy hb)
    exact h
  · intro x
    rw [List.mem_map]
    constructor
    · rintro ⟨⟨b, y⟩, hy, rfl⟩
      obtain ⟨z, -, hz⟩ := List.mem_map.mp (mem_of_mem_uniqueBy hy)
      obtain ⟨rfl, rfl⟩ := Prod.mk.inj hz
      rw [mem_uniqueBy] at hy ⊢
      rw [List.find?_map] at hy
      obtain ⟨w, hw, e⟩ := Option.map_eq_some_iff.mp hy
      rw [← (Prod.mk.inj e).2]
      exact (Prod.mk.inj e).2 ▸ hw
    · intro hx
      refine ⟨(g x, x), ?_, rfl⟩
      rw [mem_uniqueBy] at hx ⊢
      rw [List.find?_map]
      exact Option.map_eq_some_iff.mpr ⟨x, hx, rfl⟩

theorem removeDoublingPerp_ok (p : Package) {l : List (Vec 6)} (h : ∀ v ∈ l, Vec.Ok v) :
    removeDoublingPerp p l = .ok (uniqueBy p.pkey (removeDoubling l)) := by
  unfold removeDoublingPerp
  simp only []
  rw [fillList_ok (fun v hv => p.projection3_ok (h v (mem_removeDoubling.mp hv))), bind_ok',
    uniqueBy_zip rowKey (fun v => nvec (p.kperp.mulVec (kvec p.theta v)))]
  rfl

end PyQC
