import Verif.Model.Coplanar
import Verif.Spec.Grouping
import Verif.Lemmas.Unique
/-!
# Grouping and merging loops
-/
namespace PyQC

/-! ## Grouping -/

theorem findLeader_ok {cop : Nat → Nat → Py Bool} {c : Nat → Nat → Bool} {i : Nat} {G : List Nat}
    (h : ∀ g ∈ G, cop i g = .ok (c i g)) : findLeader cop i G = .ok (G.find? (c i)) := by
  induction G with
  | nil => rfl
  | cons g G ih =>
    unfold findLeader
    rw [h g (by simp), bind_ok', ih (fun g' hg' => h g' (List.mem_cons_of_mem _ hg')), List.find?_cons]
    cases c i g <;> rfl

/-- Invariant of the grouping loop after the indices below `k`. -/
structure GInv (c : Nat → Nat → Bool) (k : Nat) (G T : List Nat) : Prop where
  len : T.length = k
  sorted : G.Pairwise (· < ·)
  lt : ∀ g ∈ G, g < k
  fixed : ∀ g ∈ G, T.getD g 0 = g
  mem : ∀ i < k, T.getD i 0 ∈ G ∧ T.getD i 0 ≤ i ∧ (T.getD i 0 = i ∨ c i (T.getD i 0) = true)
  sep : G.Pairwise fun a b => c b a = false

theorem getD_append_lt {T : List Nat} {x i : Nat} (h : i < T.length) : (T ++ [x]).getD i 0 = T.getD i 0 := by
  simp [List.getD, List.getElem?_append_left h]

theorem getD_append_len {T : List Nat} {x : Nat} : (T ++ [x]).getD T.length 0 = x := by
  simp [List.getD]

theorem GInv.none {c : Nat → Nat → Bool} {k : Nat} {G T : List Nat} (h : GInv c k G T)
    (hn : ∀ g ∈ G, c k g = false) : GInv c (k + 1) (G ++ [k]) (T ++ [k]) where
  len := by simp [h.len]
  sorted := List.pairwise_append.mpr ⟨h.sorted, List.pairwise_singleton _ _, fun a ha b hb => by
    rw [List.mem_singleton.mp hb]; exact h.lt a ha⟩
  lt := by
    intro g hg
    rcases List.mem_append.mp hg with hg | hg
    · exact Nat.lt_succ_of_lt (h.lt g hg)
    · rw [List.mem_singleton.mp hg]; omega
  fixed := by
    intro g hg
    rcases List.mem_append.mp hg with hg | hg
    · rw [getD_append_lt (by rw [h.len]; exact h.lt g hg), h.fixed g hg]
    · rw [List.mem_singleton.mp hg, ← h.len, getD_append_len]
  mem := by
    intro i hi
    by_cases hik : i < k
    · rw [getD_append_lt (by rw [h.len]; exact hik)]
      obtain ⟨h1, h2, h3⟩ := h.mem i hik
      exact ⟨List.mem_append_left _ h1, h2, h3⟩
    · have : i = T.length := by rw [h.len]; omega
      subst this
      rw [getD_append_len]
      exact ⟨by simp, by rw [h.len], .inl h.len.symm⟩
  sep := List.pairwise_append.mpr ⟨h.sep, List.pairwise_singleton _ _, fun a ha b hb => by
    rw [List.mem_singleton.mp hb]; exact hn a ha⟩

theorem GInv.some {c : Nat → Nat → Bool} {k : Nat} {G T : List Nat} (h : GInv c k G T) {g : Nat}
    (hg : g ∈ G) (hc : c k g = true) : GInv c (k + 1) G (T ++ [g]) where
  len := by simp [h.len]
  sorted := h.sorted
  lt := fun g hg => Nat.lt_succ_of_lt (h.lt g hg)
  fixed := by
    intro g' hg'
    rw [getD_append_lt (by rw [h.len]; exact h.lt g' hg'), h.fixed g' hg']
  mem := by
    intro i hi
    by_cases hik : i < k
    · rw [getD_append_lt (by rw [h.len]; exact hik)]
      exact h.mem i hik
    · have : i = T.length := by rw [h.len]; omega
      subst this
      rw [getD_append_len, h.len]
      exact ⟨hg, (h.lt g hg).le, .inr hc⟩
  sep := h.sep

theorem groupFold {cop : Nat → Nat → Py Bool} {c : Nat → Nat → Bool} {n : Nat}
    (hc : ∀ i j, i < n → j < n → cop i j = .ok (c i j)) (m k : Nat) (hk : k + m ≤ n) (G T : List Nat)
    (h : GInv c k G T) :
    ∃ G' T', foldPy (groupStep cop) (G, T) (List.range' k m) = .ok (G', T') ∧ GInv c (k + m) G' T' := by
  induction m generalizing k G T with
  | zero => exact ⟨G, T, rfl, h⟩
  | succ m ih =>
    have hl := findLeader_ok (cop := cop) (c := c) (i := k) (G := G)
      (fun g hg => hc k g (by omega) (by have := h.lt g hg; omega))
    rw [List.range'_succ]
    unfold foldPy groupStep
    rw [hl, bind_ok']
    cases hf : G.find? (c k) with
    | none =>
      have := ih (k + 1) (by omega) (G ++ [k]) (T ++ [k]) (h.none (by
        intro g hg
        simpa using List.find?_eq_none.mp hf g hg))
      rw [show k + (m + 1) = k + 1 + m by omega]
      exact this
    | some g =>
      have := ih (k + 1) (by omega) G (T ++ [g]) (h.some (List.mem_of_find?_eq_some hf) (by
        simpa using List.find?_some hf))
      rw [show k + (m + 1) = k + 1 + m by omega]
      exact this

theorem filterMap_zip {α : Type} (l : List α) (T : List Nat) (hT : T.length = l.length) (g : Nat) :
    ((l.zip T).filterMap fun x => if g = x.2 then some x.1 else none) =
      ((List.finRange l.length).filter fun i : Fin l.length => decide (T.getD i 0 = g)).map l.get := by
  have hz : l.zip T = (List.finRange l.length).map fun i => (l.get i, T.getD i 0) := by
    apply List.ext_getElem
    · simp [hT]
    · intro i h1 h2
      have : i < T.length := by simp at h1; omega
      simp [List.getD, this]
  rw [hz, List.filterMap_map]
  generalize List.finRange l.length = I
  induction I with
  | nil => rfl
  | cons a I ih =>
    by_cases h : T.getD a 0 = g
    · rw [List.filterMap_cons, List.filter_cons, if_pos (by simpa using h)]
      simp only [Function.comp, h, if_true, List.map_cons]
      rw [← ih]; rfl
    · rw [List.filterMap_cons, List.filter_cons, if_neg (by simpa using h)]
      simp only [Function.comp, Ne.symm h, if_false]
      rw [← ih]; rfl

theorem setsOfCoplanar_grouping {α : Type} {cop : Nat → Nat → Py Bool} {c : Nat → Nat → Bool} (l : List α)
    (h0 : l ≠ []) (hc : ∀ i j, i < l.length → j < l.length → cop i j = .ok (c i j)) :
    ∃ groups : List (List (Fin l.length)), setsOfCoplanar cop l = .ok (groups.map fun g => g.map l.get) ∧
      IsGrouping l.length c groups := by
  obtain ⟨n, hn⟩ : ∃ n, l.length = n + 1 := ⟨l.length - 1, by
    have := List.length_pos_iff.mpr h0; omega⟩
  have hdrop : (List.range l.length).drop 1 = List.range' 1 n := by
    rw [hn, List.range_eq_range', List.range'_succ]; rfl
  obtain ⟨G, T, hfold, hinv⟩ := groupFold (n := l.length) hc n 1 (by omega) [0] [0]
    { len := rfl, sorted := List.pairwise_singleton _ _, lt := by simp,
      fixed := by simp, mem := by
        intro i hi
        have : i = 0 := by omega
        subst this
        simp,
      sep := List.pairwise_singleton _ _ }
  rw [show 1 + n = l.length by omega] at hinv
  refine ⟨G.map fun g => (List.finRange l.length).filter fun i : Fin l.length => decide (T.getD i 0 = g), ?_, ?_⟩
  · unfold setsOfCoplanar
    rw [hdrop, hfold, bind_ok']
    simp only [List.map_map]
    congr 1
    refine List.map_congr_left fun g _ => ?_
    exact filterMap_zip l T hinv.len g
  · have hgrp : ∀ g ∈ G, ∃ lead : Fin l.length, ∃ rest,
        (lead : Nat) = g ∧ ((List.finRange l.length).filter fun i : Fin l.length => decide (T.getD i 0 = g)) = lead :: rest ∧
        rest.Pairwise (· < ·) ∧ ∀ i ∈ rest, lead < i ∧ c i lead = true := by
      intro g hg
      have hlt := hinv.lt g hg
      have hsort : ((List.finRange l.length).filter fun i : Fin l.length => decide (T.getD i 0 = g)).Pairwise (· < ·) :=
        List.Pairwise.filter _ (List.pairwise_lt_finRange _)
      have hmem : (⟨g, hlt⟩ : Fin l.length) ∈
          (List.finRange l.length).filter fun i : Fin l.length => decide (T.getD i 0 = g) := by
        simp only [List.mem_filter, List.mem_finRange, true_and, decide_eq_true_iff]
        exact hinv.fixed g hg
      have hall : ∀ i ∈ (List.finRange l.length).filter (fun i : Fin l.length => decide (T.getD i 0 = g)),
          T.getD i 0 = g := by
        intro i hi
        simpa using (List.mem_filter.mp hi).2
      generalize hL : ((List.finRange l.length).filter fun i : Fin l.length => decide (T.getD i 0 = g)) = L at hsort hmem hall
      match L, hmem, hsort, hall with
      | a :: rest, hmem, hsort, hall =>
        obtain ⟨hs1, hs2⟩ := List.pairwise_cons.mp hsort
        have ha : (a : Nat) = g := by
          rcases List.mem_cons.mp hmem with h | h
          · rw [← h]
          · have h1 := hs1 _ h
            have h2 := (hinv.mem a a.2).2.1
            rw [hall a (by simp)] at h2
            exact absurd (Fin.lt_def.mp h1) (by simpa using h2)
        refine ⟨a, rest, ha, rfl, hs2, fun i hi => ⟨hs1 i hi, ?_⟩⟩
        have h3 := (hinv.mem i i.2).2.2
        rw [hall i (List.mem_cons_of_mem _ hi), ← ha] at h3
        rcases h3 with h3 | h3
        · exact absurd (Fin.lt_def.mp (hs1 i hi)) (by rw [h3]; exact lt_irrefl _)
        · exact h3
    constructor
    · rw [List.perm_ext_iff_of_nodup]
      · intro i
        simp only [List.mem_flatten, List.mem_map, List.mem_finRange, iff_true]
        refine ⟨_, ⟨T.getD i 0, (hinv.mem i i.2).1, rfl⟩, ?_⟩
        simp
      · rw [List.nodup_flatten]
        constructor
        · intro s hs
          obtain ⟨g, -, rfl⟩ := List.mem_map.mp hs
          exact (List.nodup_finRange _).filter _
        · refine List.pairwise_map.mpr (hinv.sorted.imp fun {a b} hab => ?_)
          rw [List.disjoint_left]
          intro i hi hj
          have h1 : T.getD i 0 = a := by simpa using (List.mem_filter.mp hi).2
          have h2 : T.getD i 0 = b := by simpa using (List.mem_filter.mp hj).2
          omega
      · exact List.nodup_finRange _
    · intro s hs
      obtain ⟨g, hg, rfl⟩ := List.mem_map.mp hs
      obtain ⟨lead, rest, -, h2, h3⟩ := hgrp g hg
      exact ⟨lead, rest, h2, h3⟩
    · refine List.pairwise_map.mpr (hinv.sep.imp_of_mem fun {a b} ha hb hab x hx y hy => ?_)
      obtain ⟨la, ra, ea, ha', -⟩ := hgrp a ha
      obtain ⟨lb, rb, eb, hb', -⟩ := hgrp b hb
      rw [ha', List.head?_cons, Option.mem_some_iff] at hx
      rw [hb', List.head?_cons, Option.mem_some_iff] at hy
      rw [← hx, ← hy, ea, eb]
      exact hab

/-! ## Merging -/

theorem MergeSteps.length {α : Type} {merge : α → α → Option α} {l l' : List α} {k : Nat}
    (h : MergeSteps merge l k l') : l'.length + k = l.length := by
  induction h with
  | refl l => rfl
  | step hm _ ih =>
    simp only [List.length_append, List.length_cons, List.length_nil] at ih ⊢
    omega

theorem combos_pairwise {R : Nat → Nat → Prop} {l : List Nat} :
    (∀ p ∈ combos l, R p.1 p.2) ↔ l.Pairwise R := by
  induction l with
  | nil => simp [combos]
  | cons x xs ih =>
    simp only [combos, List.mem_append, List.mem_map, List.pairwise_cons, ← ih]
    constructor
    · intro h
      exact ⟨fun y hy => h (x, y) (.inl ⟨y, hy, rfl⟩), fun p hp => h p (.inr hp)⟩
    · rintro ⟨h1, h2⟩ p (⟨y, hy, rfl⟩ | hp)
      · exact h1 y hy
      · exact h2 p hp

theorem combos_split {l : List Nat} {i j : Nat} (h : (i, j) ∈ combos l) :
    ∃ l₁ l₂ l₃, l = l₁ ++ i :: (l₂ ++ j :: l₃) := by
  induction l with
  | nil => simp [combos] at h
  | cons x xs ih =>
    simp only [combos, List.mem_append, List.mem_map] at h
    rcases h with ⟨y, hy, e⟩ | h
    · obtain ⟨rfl, rfl⟩ := Prod.mk.inj e
      obtain ⟨a, b, rfl⟩ := List.append_of_mem hy
      exact ⟨[], a, b, rfl⟩
    · obtain ⟨a, b, c, rfl⟩ := ih h
      exact ⟨x :: a, b, c, rfl⟩

theorem getIdx_ok {α : Type} {l : List α} {i : Nat} (h : i < l.length) : getIdx l i = .ok l[i] := by
  simp [getIdx, h]

theorem findMerge_ok {α : Type} {merge : α → α → Py (Option α)} {m : α → α → Option α} {P : α → Prop}
    (hm : ∀ a b, P a → P b → merge a b = .ok (m a b)) {edges : List α} (hP : ∀ e ∈ edges, P e)
    {L : List (Nat × Nat)} (hL : ∀ p ∈ L, p.1 < edges.length ∧ p.2 < edges.length) :
    (findMerge merge edges L = .ok none ∧
      ∀ p ∈ L, ∀ (h1 : p.1 < edges.length) (h2 : p.2 < edges.length), m edges[p.1] edges[p.2] = none) ∨
    ∃ i j c, findMerge merge edges L = .ok (some (i, j, c)) ∧ (i, j) ∈ L ∧
      ∃ (h1 : i < edges.length) (h2 : j < edges.length), m edges[i] edges[j] = some c := by
  induction L with
  | nil => exact .inl ⟨rfl, by simp⟩
  | cons x L ih =>
    obtain ⟨i, j⟩ := x
    obtain ⟨hi, hj⟩ := hL (i, j) (by simp)
    simp only at hi hj
    unfold findMerge
    rw [getIdx_ok hi, bind_ok', getIdx_ok hj, bind_ok',
      hm _ _ (hP _ (List.getElem_mem hi)) (hP _ (List.getElem_mem hj)), bind_ok']
    cases hc : m edges[i] edges[j] with
    | some c => exact .inr ⟨i, j, c, rfl, by simp, hi, hj, hc⟩
    | none =>
      rcases ih (fun p hp => hL p (List.mem_cons_of_mem _ hp)) with ⟨h1, h2⟩ | ⟨i', j', c, h1, h2, h3⟩
      · refine .inl ⟨h1, ?_⟩
        intro p hp h1 h2'
        rcases List.mem_cons.mp hp with rfl | hp
        · exact hc
        · exact h2 p hp h1 h2'
      · exact .inr ⟨i', j', c, h1, List.mem_cons_of_mem _ h2, h3⟩

/-- Live edges of a state. -/
def MState.live {α : Type} (s : MState α) : List α := s.lst.filterMap fun i => s.edges[i]?

/-- Well-formed states. -/
structure MInv {α : Type} (P : α → Prop) (s : MState α) : Prop where
  num : s.num = s.edges.length
  nodup : s.lst.Nodup
  lt : ∀ i ∈ s.lst, i < s.edges.length
  ok : ∀ e ∈ s.edges, P e

theorem filterMap_append_edges {α : Type} {edges : List α} {c : α} {l : List Nat}
    (h : ∀ i ∈ l, i < edges.length) :
    (l.filterMap fun i => (edges ++ [c])[i]?) = l.filterMap fun i => edges[i]? := by
  refine List.filterMap_congr fun i hi => ?_
  rw [List.getElem?_append_left (h i hi)]

theorem mergeLoop_none {α : Type} {merge : α → α → Py (Option α)} {s : MState α}
    (h : findMerge merge s.edges (combos s.lst) = .ok none) : mergeLoop merge s = .ok s := by
  unfold mergeLoop
  split
  · rename_i h'; rw [h] at h'; cases h'
  · rfl
  · rename_i h'; rw [h] at h'; cases h'

theorem mergeLoop_some {α : Type} {merge : α → α → Py (Option α)} {s : MState α} {i j : Nat} {c : α}
    (h : findMerge merge s.edges (combos s.lst) = .ok (some (i, j, c))) :
    mergeLoop merge s = mergeLoop merge (s.merged i j c) := by
  conv_lhs => unfold mergeLoop
  split
  · rename_i h'; rw [h] at h'; cases h'
  · rename_i h'; rw [h] at h'; cases h'
  · rename_i i' j' c' h'
    rw [h] at h'
    injection h' with h'
    injection h' with h'
    obtain ⟨e1, h'⟩ := Prod.mk.inj h'
    obtain ⟨e2, e3⟩ := Prod.mk.inj h'
    rw [← e1, ← e2, ← e3]

theorem mergeLoop_ok {α : Type} {merge : α → α → Py (Option α)} {m : α → α → Option α} {P : α → Prop}
    (hm : ∀ a b, P a → P b → merge a b = .ok (m a b)) (hPm : ∀ a b c, P a → P b → m a b = some c → P c)
    (n : Nat) (s : MState α) (hn : s.lst.length = n) (hs : MInv P s) :
    ∃ s' k, mergeLoop merge s = .ok s' ∧ MInv P s' ∧ MergeSteps m s.live k s'.live ∧
      s'.live.Pairwise fun a b => m a b = none := by
  induction n using Nat.strong_induction_on generalizing s with
  | _ n ih =>
    have hL : ∀ p ∈ combos s.lst, p.1 < s.edges.length ∧ p.2 < s.edges.length := by
      intro p hp
      obtain ⟨a, b, c, e⟩ := combos_split (i := p.1) (j := p.2) hp
      exact ⟨hs.lt _ (by rw [e]; simp), hs.lt _ (by rw [e]; simp)⟩
    rcases findMerge_ok hm hs.ok hL with ⟨h1, h2⟩ | ⟨i, j, c, h1, h2, hi, hj, h3⟩
    · refine ⟨s, 0, ?_, hs, MergeSteps.refl _, ?_⟩
      · exact mergeLoop_none h1
      · have hpw : s.lst.Pairwise fun i j => ∀ (h1 : i < s.edges.length) (h2 : j < s.edges.length),
            m s.edges[i] s.edges[j] = none := combos_pairwise.mp h2
        unfold MState.live
        rw [List.pairwise_filterMap]
        refine hpw.imp_of_mem ?_
        intro i j hi hj h b hb b' hb'
        rw [List.getElem?_eq_getElem (hs.lt i hi)] at hb
        rw [List.getElem?_eq_getElem (hs.lt j hj)] at hb'
        rw [← Option.some_injective _ hb, ← Option.some_injective _ hb']
        exact h _ _
    · obtain ⟨l₁, l₂, l₃, e⟩ := combos_split h2
      have hnd := hs.nodup
      rw [e] at hnd
      have hfil : (s.lst.filter fun x => !(x == i || x == j)) = l₁ ++ l₂ ++ l₃ := by
        rw [e]
        have hn1 : ∀ x ∈ l₁, x ≠ i ∧ x ≠ j := fun x hx =>
          ⟨(List.nodup_append.mp hnd).2.2 x hx i (by simp), (List.nodup_append.mp hnd).2.2 x hx j (by simp)⟩
        have hnd2 := (List.nodup_append.mp hnd).2.1
        have hij := (List.nodup_cons.mp hnd2).1
        have hnd3 := (List.nodup_cons.mp hnd2).2
        have hn2 : ∀ x ∈ l₂, x ≠ i ∧ x ≠ j := fun x hx =>
          ⟨fun h => hij (by rw [← h]; simp [hx]), (List.nodup_append.mp hnd3).2.2 x hx j (by simp)⟩
        have hn3 : ∀ x ∈ l₃, x ≠ i ∧ x ≠ j := fun x hx =>
          ⟨fun h => hij (by rw [← h]; simp [hx]),
            fun h => (List.nodup_cons.mp (List.nodup_append.mp hnd3).2.1).1 (h ▸ hx)⟩
        have f : ∀ l : List Nat, (∀ x ∈ l, x ≠ i ∧ x ≠ j) → (l.filter fun x => !(x == i || x == j)) = l := by
          intro l hl
          rw [List.filter_eq_self]
          intro x hx
          simp [hl x hx]
        rw [List.filter_append, List.filter_cons, if_neg (by simp), List.filter_append, List.filter_cons,
          if_neg (by simp), f _ hn1, f _ hn2, f _ hn3, List.append_assoc]
      have hPi := hs.ok _ (List.getElem_mem hi)
      have hPj := hs.ok _ (List.getElem_mem hj)
      have hPc := hPm _ _ _ hPi hPj h3
      have hlt' : ∀ x ∈ l₁ ++ l₂ ++ l₃, x < s.edges.length := by
        intro x hx
        refine hs.lt x ?_
        rw [← hfil] at hx
        exact (List.mem_filter.mp hx).1
      have hinv : MInv P (s.merged i j c) :=
        { num := by simp [MState.merged, hs.num]
          nodup := by
            simp only [MState.merged, hfil]
            rw [List.nodup_append]
            refine ⟨?_, by simp, ?_⟩
            · rw [← hfil]; exact hs.nodup.filter _
            · intro x hx y hy
              rw [List.mem_singleton.mp hy, hs.num]
              exact (hlt' x hx).ne
          lt := by
            intro x hx
            simp only [MState.merged, hfil, List.mem_append, List.mem_singleton] at hx
            simp only [MState.merged, List.length_append, List.length_singleton]
            rcases hx with hx | hx
            · have := hlt' x (by simpa [or_assoc] using hx); omega
            · rw [hx, hs.num]; omega
          ok := by
            intro x hx
            simp only [MState.merged, List.mem_append, List.mem_singleton] at hx
            rcases hx with hx | hx
            · exact hs.ok x hx
            · rw [hx]; exact hPc }
      have hlen : (s.merged i j c).lst.length < n := by
        have := mem_combos_length h2
        simp only [MState.merged, List.length_append, List.length_singleton]
        omega
      obtain ⟨s', k, h4, h5, h6, h7⟩ := ih _ hlen (s.merged i j c) rfl hinv
      have hlive : (s.merged i j c).live = (l₁.filterMap fun i => s.edges[i]?) ++
          (l₂.filterMap fun i => s.edges[i]?) ++ (l₃.filterMap fun i => s.edges[i]?) ++ [c] := by
        simp only [MState.live, MState.merged, hfil, hs.num]
        rw [List.filterMap_append, filterMap_append_edges hlt', List.filterMap_append, List.filterMap_append]
        simp
      have hlive0 : s.live = (l₁.filterMap fun i => s.edges[i]?) ++ s.edges[i] ::
          ((l₂.filterMap fun i => s.edges[i]?) ++ s.edges[j] :: (l₃.filterMap fun i => s.edges[i]?)) := by
        simp only [MState.live, e]
        rw [List.filterMap_append, List.filterMap_cons, List.getElem?_eq_getElem hi, List.filterMap_append,
          List.filterMap_cons, List.getElem?_eq_getElem hj]
      refine ⟨s', k + 1, ?_, h5, ?_, h7⟩
      · rw [mergeLoop_some h1]; exact h4
      · rw [hlive] at h6
        rw [hlive0]
        exact MergeSteps.step h3 h6

theorem fillList_getIdx {α : Type} {edges : List α} {l : List Nat} (h : ∀ i ∈ l, i < edges.length) :
    fillList (getIdx edges) l = .ok (l.filterMap fun i => edges[i]?) := by
  induction l with
  | nil => rfl
  | cons i l ih =>
    have hi := h i (by simp)
    unfold fillList
    rw [getIdx_ok hi, ih fun j hj => h j (List.mem_cons_of_mem _ hj), List.filterMap_cons,
      List.getElem?_eq_getElem hi]

theorem filterMap_range {α : Type} (l : List α) :
    ((List.range l.length).filterMap fun i => l[i]?) = l := by
  induction l using List.reverseRecOn with
  | nil => rfl
  | append_singleton l x ih =>
    rw [List.length_append, List.length_singleton, List.range_succ, List.filterMap_append,
      filterMap_append_edges (by simp), ih]
    simp

theorem mergeAll_ok {α : Type} {merge : α → α → Py (Option α)} {m : α → α → Option α} {P : α → Prop}
    (hm : ∀ a b, P a → P b → merge a b = .ok (m a b)) (hPm : ∀ a b c, P a → P b → m a b = some c → P c)
    {edges : List α} (hP : ∀ e ∈ edges, P e) :
    ∃ out k, mergeAll merge edges = .ok out ∧ (∀ e ∈ out, P e) ∧ MergeSteps m edges k out ∧
      out.Pairwise fun a b => m a b = none := by
  obtain ⟨s', k, h1, h2, h3, h4⟩ := mergeLoop_ok hm hPm _ ⟨edges, List.range edges.length, edges.length⟩ rfl
    { num := rfl, nodup := List.nodup_range, lt := by simp, ok := hP }
  have h0 : (MState.live ⟨edges, List.range edges.length, edges.length⟩ : List α) = edges := by
    exact filterMap_range edges
  refine ⟨s'.live, k, ?_, ?_, ?_, h4⟩
  · unfold mergeAll
    rw [h1, bind_ok', fillList_getIdx h2.lt]
    rfl
  · intro e he
    obtain ⟨i, hi, hie⟩ := List.mem_filterMap.mp he
    exact h2.ok e (List.mem_of_getElem? hie)
  · rwa [h0] at h3

end PyQC
