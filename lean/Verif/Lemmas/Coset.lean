import Verif.Lemmas.Site
/-!
# Coset decomposition by index lists
-/
namespace PyQC
open Matrix

/-- Index of the product of two operations (index `12 a + b` stands for mirror^a · rotation^b). -/
def dmul (i j : Nat) : Nat :=
  12 * ((i / 12 + j / 12) % 2) + ((if j / 12 = 0 then i % 12 else 12 - i % 12) + j % 12) % 12

theorem dodeTable_dmul : ∀ i < 24, ∀ j < 24,
    lmul (dodeTable.getD i []) (dodeTable.getD j []) = dodeTable.getD (dmul i j) [] := by
  decide +kernel

theorem dmul_lt (i j : Nat) : dmul i j < 24 := by unfold dmul; omega

theorem opAt_table {i : Nat} (h : i < 24) : opAt i = matOf (dodeTable.getD i []) := by
  have hl : i < dodeTable.length := h
  unfold opAt
  rw [dodesymop_eq, List.getD_eq_getElem _ _ (by simpa using hl), List.getElem_map,
    List.getD_eq_getElem _ _ hl]

theorem opAt_mul {i j : Nat} (hi : i < 24) (hj : j < 24) :
    npDot (opAt i) (opAt j) = opAt (dmul i j) := by
  rw [opAt_table hi, opAt_table hj, opAt_table (dmul_lt i j), npDot_matOf, dodeTable_dmul i hi j hj]

theorem opAt_inj {i j : Nat} (hi : i < 24) (hj : j < 24) (h : opAt i = opAt j) : i = j := by
  have h1 := get_opAt hi
  have h2 := get_opAt hj
  rw [h, ← h2] at h1
  exact (List.getElem?_inj (by rw [show Dode.dodesymop.length = 24 from symops_length .dode]; exact hi)
    dodesymop_nodup).mp h1

theorem opAt_zero : opAt 0 = npIdentity Int 6 := by
  rw [opAt_table (by norm_num), ← matOf_lid]; rfl

theorem dmul_assoc {i j k : Nat} (hi : i < 24) (hj : j < 24) (hk : k < 24) :
    dmul (dmul i j) k = dmul i (dmul j k) := by
  apply opAt_inj (dmul_lt _ _) (dmul_lt _ _)
  rw [← opAt_mul (dmul_lt i j) hk, ← opAt_mul hi hj, ← opAt_mul hi (dmul_lt j k), ← opAt_mul hj hk,
    npDot_assoc]

theorem dmul_zero {i : Nat} (hi : i < 24) : dmul i 0 = i := by
  apply opAt_inj (dmul_lt _ _) hi
  rw [← opAt_mul hi (by norm_num), opAt_zero, npDot_one]

theorem zero_dmul {i : Nat} (hi : i < 24) : dmul 0 i = i := by
  apply opAt_inj (dmul_lt _ _) hi
  rw [← opAt_mul (by norm_num) hi, opAt_zero, one_npDot]

theorem dmul_inv : ∀ i < 24, ∃ j < 24, dmul i j = 0 ∧ dmul j i = 0 := by decide +kernel

theorem dmul_cancel {i j k : Nat} (hi : i < 24) (hj : j < 24) (hk : k < 24)
    (h : dmul i j = dmul i k) : j = k := by
  obtain ⟨i', h1, -, h2⟩ := dmul_inv i hi
  have := congrArg (dmul i') h
  rwa [← dmul_assoc h1 hi hj, ← dmul_assoc h1 hi hk, h2, zero_dmul hj, zero_dmul hk] at this

theorem findIdx_opAt {k : Nat} (hk : k < 24) :
    Dode.dodesymop.findIdx? (fun op => decide (op = opAt k)) = some k := by
  have hl : k < Dode.dodesymop.length := by
    rw [show Dode.dodesymop.length = 24 from symops_length .dode]; exact hk
  rw [List.findIdx?_eq_some_iff_getElem]
  refine ⟨hl, ?_, ?_⟩
  · have := get_opAt hk
    rw [List.getElem?_eq_getElem hl, Option.some.injEq] at this
    simp [this]
  · intro j hj
    have hj' : j < 24 := lt_trans hj hk
    have h1 := get_opAt hj'
    rw [List.getElem?_eq_getElem (lt_trans hj hl), Option.some.injEq] at h1
    rw [h1, decide_eq_true_iff]
    intro h
    exact absurd (opAt_inj hj' hk h) (by omega)

theorem cosetOf_ok {i : Nat} (hi : i < 24) {l : List Nat} (hl : ∀ j ∈ l, j < 24) :
    Dode.cosetOf Dode.dodesymop i l = .ok (l.map (dmul i)) := by
  induction l with
  | nil => rfl
  | cons j l ih =>
    rw [Dode.cosetOf, get_opAt hi, get_opAt (hl j (by simp))]
    simp only
    rw [ih (fun j hj => hl j (by simp [hj])), bind_ok', opAt_mul hi (hl j (by simp)),
      findIdx_opAt (dmul_lt i j)]
    rfl

/-- Closed index sets. -/
structure Sub (H : List Nat) : Prop where
  nodup : H.Nodup
  valid : ∀ i ∈ H, i < 24
  one : 0 ∈ H
  mul : ∀ i ∈ H, ∀ j ∈ H, dmul i j ∈ H

theorem IsSubgroup.sub {H : List Nat} (h : IsSubgroup H) : Sub H where
  nodup := h.nodup
  valid := h.valid
  one := h.one
  mul := by
    intro i hi j hj
    obtain ⟨k, hk, e⟩ := h.mul i hi j hj
    rw [opAt_mul (h.valid i hi) (h.valid j hj)] at e
    rw [opAt_inj (dmul_lt i j) (h.valid k hk) e]
    exact hk

section
variable {H : List Nat} (hH : Sub H)
include hH

theorem Sub.inv {i : Nat} (hi : i ∈ H) : ∃ j ∈ H, dmul i j = 0 := by
  have hp : (H.map (dmul i)).Perm H := by
    apply List.Subperm.perm_of_length_le
    · apply List.subperm_of_subset
      · exact hH.nodup.map_on fun x hx y hy h =>
          dmul_cancel (hH.valid i hi) (hH.valid x hx) (hH.valid y hy) h
      · intro x hx
        obtain ⟨j, hj, rfl⟩ := List.mem_map.mp hx
        exact hH.mul i hi j hj
    · simp
  obtain ⟨j, hj, e⟩ := List.mem_map.mp (hp.mem_iff.mpr hH.one)
  exact ⟨j, hj, e⟩

theorem Sub.cos_nodup {i : Nat} (hi : i < 24) : (H.map (dmul i)).Nodup :=
  hH.nodup.map_on fun x hx y hy h => dmul_cancel hi (hH.valid x hx) (hH.valid y hy) h

theorem Sub.mem_cos {i : Nat} (hi : i < 24) : i ∈ H.map (dmul i) :=
  List.mem_map.mpr ⟨0, hH.one, dmul_zero hi⟩

theorem Sub.cos_sub {i j x : Nat} (hi : i < 24) (hj : j < 24) (h1 : x ∈ H.map (dmul i))
    (h2 : x ∈ H.map (dmul j)) : ∀ y ∈ H.map (dmul i), y ∈ H.map (dmul j) := by
  obtain ⟨a, ha, rfl⟩ := List.mem_map.mp h1
  obtain ⟨b, hb, e⟩ := List.mem_map.mp h2
  obtain ⟨a', ha', ea⟩ := hH.inv ha
  intro y hy
  obtain ⟨c, hc, rfl⟩ := List.mem_map.mp hy
  have va := hH.valid a ha
  have vb := hH.valid b hb
  have vc := hH.valid c hc
  have va' := hH.valid a' ha'
  -- i = j b a'
  have hi' : i = dmul j (dmul b a') := by
    rw [← dmul_assoc hj vb va', e, dmul_assoc hi va va', ea, dmul_zero hi]
  refine List.mem_map.mpr ⟨dmul (dmul b a') c, hH.mul _ (hH.mul b hb a' ha') c hc, ?_⟩
  rw [← dmul_assoc hj (dmul_lt _ _) vc, ← hi']

theorem Sub.cos_zero : H.map (dmul 0) = H := by
  conv_rhs => rw [← List.map_id H]
  apply List.map_congr_left
  intro x hx
  exact zero_dmul (hH.valid x hx)

/-- Result of the greedy loop. `acc` is the concatenation of the cosets of the representatives
found so far. -/
theorem Sub.greedy {a d list5 R : List Nat} (L : List Nat) (hL : ∀ r ∈ L, r < 24)
    (hacc : (if d.length = 0 then a else d) = R.flatMap fun r => H.map (dmul r))
    (hn : (R.flatMap fun r => H.map (dmul r)).Nodup)
    (h5 : list5 = 0 :: R) (hR : ∀ r ∈ R, r < 24) :
    ∃ R', Dode.greedy a d list5 (L.map fun r => (r, H.map (dmul r))) = 0 :: R' ∧
      (R'.flatMap fun r => H.map (dmul r)).Nodup ∧
      (∀ r ∈ R, r ∈ R') ∧ (∀ r ∈ R', r ∈ R ∨ r ∈ L) ∧
      (∀ r ∈ L, r ∈ R'.flatMap fun r => H.map (dmul r)) := by
  induction L generalizing d list5 R with
  | nil => exact ⟨R, by simp [Dode.greedy, h5], hn, fun r h => h, fun r h => .inl h, by simp⟩
  | cons r L ih =>
    have hL' : ∀ r ∈ L, r < 24 := fun r h => hL r (by simp [h])
    have hr : r < 24 := hL r (by simp)
    generalize hA : (if d.length = 0 then a else d) = A at hacc
    have step : Dode.greedy a d list5 ((r :: L).map fun r => (r, H.map (dmul r))) =
        if Dode.findOverlaps A (H.map (dmul r)) then
          Dode.greedy a d list5 (L.map fun r => (r, H.map (dmul r)))
        else Dode.greedy a (A ++ H.map (dmul r)) (list5 ++ [r]) (L.map fun r => (r, H.map (dmul r))) := by
      rw [List.map_cons, Dode.greedy]
      by_cases hd : d.length = 0
      · rw [if_pos hd] at hA ⊢; rw [hA]
      · rw [if_neg hd] at hA ⊢; rw [hA]
    rw [step]
    cases hf : Dode.findOverlaps A (H.map (dmul r)) with
    | true =>
      rw [if_pos rfl]
      obtain ⟨R', g1, g2, g3, g4, g5⟩ := ih (d := d) (list5 := list5) (R := R) hL' (by rw [hA, hacc]) hn h5 hR
      refine ⟨R', g1, g2, g3, fun r h => (g4 r h).imp id (by simp +contextual), ?_⟩
      intro s hs
      rw [List.mem_cons] at hs
      rcases hs with rfl | hs
      · -- overlap: some element shared, hence the whole coset
        have hov : ¬ (A ++ H.map (dmul s)).Nodup := by
          intro h
          rw [← findOverlaps_false] at h
          rw [h] at hf; cases hf
        have hAn : A.Nodup := by rw [hacc]; exact hn
        have : ∃ x, x ∈ A ∧ x ∈ H.map (dmul s) := by
          by_contra hne
          apply hov
          refine List.nodup_append.mpr ⟨hAn, hH.cos_nodup hr, ?_⟩
          rintro x hx y hy rfl
          exact hne ⟨x, hx, hy⟩
        obtain ⟨x, hx, hx'⟩ := this
        rw [hacc] at hx
        obtain ⟨q, hq, hxq⟩ := List.mem_flatMap.mp hx
        exact List.mem_flatMap.mpr ⟨q, g3 q hq, hH.cos_sub hr (hR q hq) hx' hxq s (hH.mem_cos hr)⟩
      · exact g5 s hs
    | false =>
      rw [if_neg (by simp)]
      rw [findOverlaps_false] at hf
      have e : (R ++ [r]).flatMap (fun r => H.map (dmul r)) = A ++ H.map (dmul r) := by
        rw [List.flatMap_append, ← hacc]; simp
      have hne : (A ++ H.map (dmul r)).length ≠ 0 := by
        have : 0 < H.length := List.length_pos_of_mem hH.one
        rw [List.length_append, List.length_map]; omega
      obtain ⟨R', g1, g2, g3, g4, g5⟩ := ih (d := A ++ H.map (dmul r)) (list5 := list5 ++ [r])
        (R := R ++ [r]) hL' (by rw [if_neg hne, e]) (by rw [e]; exact hf) (by rw [h5]; rfl)
        (by intro s hs; simp only [List.mem_append, List.mem_singleton] at hs
            rcases hs with hs | rfl
            · exact hR s hs
            · exact hr)
      refine ⟨R', g1, g2, fun s hs => g3 s (by simp [hs]), ?_, ?_⟩
      · intro s hs
        rcases g4 s hs with h | h
        · simp only [List.mem_append, List.mem_singleton] at h
          rcases h with h | rfl
          · exact .inl h
          · exact .inr (by simp)
        · exact .inr (by simp [h])
      · intro s hs
        rw [List.mem_cons] at hs
        rcases hs with rfl | hs
        · exact List.mem_flatMap.mpr ⟨s, g3 s (by simp), hH.mem_cos hr⟩
        · exact g5 s hs

omit hH in
theorem length_cosets (R : List Nat) :
    (R.flatMap fun r => H.map (dmul r)).length = R.length * H.length := by
  induction R with
  | nil => simp
  | cons r R ih => rw [List.flatMap_cons, List.length_append, ih, List.length_map, List.length_cons]; ring

/-- Cosets of representatives outside `H`, together with `H`. -/
theorem Sub.with_zero {R : List Nat} (hn : (R.flatMap fun r => H.map (dmul r)).Nodup)
    (hR : ∀ r ∈ R, r < 24 ∧ r ∉ H) :
    ((0 :: R).flatMap fun r => H.map (dmul r)).Nodup := by
  rw [List.flatMap_cons, hH.cos_zero]
  refine List.nodup_append.mpr ⟨hH.nodup, hn, ?_⟩
  rintro x hx y hy rfl
  obtain ⟨r, hr, hxr⟩ := List.mem_flatMap.mp hy
  have := hH.cos_sub (hR r hr).1 (by norm_num : 0 < 24) hxr (by rw [hH.cos_zero]; exact hx) r
    (hH.mem_cos (hR r hr).1)
  rw [hH.cos_zero] at this
  exact (hR r hr).2 this

theorem Sub.cosetFrom_ok : ∃ R, Dode.cosetFrom H = .ok (0 :: R) ∧
    ((0 :: R).flatMap fun r => H.map (dmul r)).Perm (List.range 24) ∧ ∀ r ∈ R, r < 24 ∧ r ∉ H := by
  unfold Dode.cosetFrom
  have hlen : Dode.dodesymop.length = 24 := symops_length .dode
  simp only [hlen]
  have sub24 : ∀ R : List Nat, ∀ x ∈ (R.flatMap fun r => H.map (dmul r)), x ∈ List.range 24 := by
    intro R x hx
    obtain ⟨r, -, hxr⟩ := List.mem_flatMap.mp hx
    obtain ⟨h, -, rfl⟩ := List.mem_map.mp hxr
    exact List.mem_range.mpr (dmul_lt _ _)
  by_cases hfull : 24 = H.length
  · rw [if_pos hfull]
    refine ⟨[], rfl, ?_, by simp⟩
    have e : ([0].flatMap fun r => H.map (dmul r)) = H := by simp [hH.cos_zero]
    apply List.Subperm.perm_of_length_le
    · exact List.subperm_of_subset (by rw [e]; exact hH.nodup) (sub24 [0])
    · rw [e, ← hfull]; simp
  · rw [if_neg hfull]
    generalize hLdef : Dode.removeOverlaps ((List.range 24).filter fun i => decide (i ∉ H)) = L
    have hmem : ∀ x, x ∈ L ↔ x < 24 ∧ x ∉ H := by
      intro x; rw [← hLdef, mem_removeOverlaps]; simp
    have hnd : L.Nodup := by rw [← hLdef]; exact removeOverlaps_nodup _
    rw [fillList_ok (g := fun r => H.map (dmul r))
      (fun r hr => cosetOf_ok ((hmem r).mp hr).1 hH.valid), bind_ok']
    have hzip : L.zip (L.map fun r => H.map (dmul r)) = L.map fun r => (r, H.map (dmul r)) := by
      clear hLdef hmem hnd
      induction L with
      | nil => rfl
      | cons x L ih => simp [ih]
    rw [hzip]
    have hcover : (H ++ L).Perm (List.range 24) := by
      rw [List.perm_ext_iff_of_nodup _ List.nodup_range]
      · intro x
        rw [List.mem_append, hmem, List.mem_range]
        constructor
        · rintro (h | h)
          · exact hH.valid x h
          · exact h.1
        · intro h
          by_cases hx : x ∈ H
          · exact .inl hx
          · exact .inr ⟨h, hx⟩
      · refine List.nodup_append.mpr ⟨hH.nodup, hnd, ?_⟩
        rintro x hx y hy rfl
        exact ((hmem x).mp hy).2 hx
    have hcl := hcover.length_eq
    rw [List.length_append, List.length_range] at hcl
    match hL : L with
    | [] => rw [List.length_nil] at hcl; omega
    | [r] =>
      exfalso
      have h1 := hH.with_zero (R := [r]) (by simpa using hH.cos_nodup ((hmem r).mp (by simp)).1)
        (by intro s hs; exact (hmem s).mp hs)
      have h2 := (List.subperm_of_subset h1 (sub24 _)).length_le
      rw [length_cosets] at h2
      simp only [List.length_cons, List.length_nil, List.length_range] at h2 hcl
      omega
    | r :: r2 :: L' =>
      have hr := (hmem r).mp (by simp)
      obtain ⟨R', g1, g2, g3, g4, g5⟩ := hH.greedy (a := H.map (dmul r)) (d := []) (list5 := [0, r])
        (R := [r]) (r2 :: L') (by intro s hs; exact ((hmem s).mp (by simp only [List.mem_cons] at hs ⊢; tauto)).1)
        (by simp) (by simpa using hH.cos_nodup hr.1) rfl (by simpa using hr.1)
      have hR' : ∀ s ∈ R', s < 24 ∧ s ∉ H := by
        intro s hs
        apply (hmem s).mp
        rcases g4 s hs with h | h
        · rw [List.mem_singleton] at h; simp [h]
        · simp only [List.mem_cons] at h ⊢; tauto
      have hwz := hH.with_zero g2 hR'
      have hperm : ((0 :: R').flatMap fun r => H.map (dmul r)).Perm (List.range 24) := by
        rw [List.perm_ext_iff_of_nodup hwz List.nodup_range]
        intro x
        refine ⟨sub24 _ x, ?_⟩
        intro hx
        have := hcover.mem_iff.mpr hx
        rw [List.mem_append] at this
        rw [List.flatMap_cons, hH.cos_zero, List.mem_append]
        rcases this with h | h
        · exact .inl h
        · right
          rw [List.mem_cons] at h
          rcases h with rfl | h
          · exact List.mem_flatMap.mpr ⟨x, g3 x (by simp), hH.mem_cos hr.1⟩
          · exact g5 x h
      have hl := hperm.length_eq
      rw [length_cosets, List.length_range] at hl
      refine ⟨R', ?_, hperm, hR'⟩
      have e1 : Dode.greedy (H.map (dmul r)) [] [0, r]
          ((r2, H.map (dmul r2)) :: L'.map fun r => (r, H.map (dmul r))) = 0 :: R' := g1
      simp only [List.map_cons, Dode.cosetLoop]
      rw [e1, if_pos hl.symm]

end
end PyQC
