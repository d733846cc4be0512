import Verif.Lemmas.MachinePlanar
import Verif.Lemmas.MachineWhole
import Verif.Props.RoundingPlanar
/-!
# C108: `intersection` of flat objects computed with 64-bit integers and rounding

As C98, for dode2: comparisons are rounded, exact numbers are triples of 64-bit integers.
-/
namespace PyQC
open Matrix MeasureTheory Dode

/-- C108: for two triangles that pass the computed test, `intersection_two_triangles` with 64-bit integers is the function
with unbounded integers: the same result, or the same error. -/
theorem C108_two (F : Float64) (delaunay : Delaunay2) (s t : Simplex 3) (h : samePair2 s t = true) :
    F.intersectionTwoTriangles64 delaunay s t = F.intersectionTwoTriangles delaunay s t :=
  Planar.triangles64_same F h delaunay

theorem Planar.parts_transfer {kind : Ico.Kind} {f g : Simplex 3 → Py (Obj 3)} {a : Obj 3}
    (hstep : ∀ s ∈ a, ∀ q, f s = .ok q → ∃ q', g s = .ok q' ∧ (q = q' ∨ kind = .simple ∧ s ∈ q)) {parts : List (Obj 3)}
    (hp : fillList f a = .ok parts) : ∃ parts', fillList g a = .ok parts' ∧
      ∀ p ∈ parts'.flatten, p ∈ parts.flatten ∨ ∃ s ∈ a, s ∈ parts.flatten ∧ ∃ p', g s = .ok p' ∧ p ∈ p' := by
  have hF := fillList_eq_ok hp
  clear hp
  induction hF with
  | nil => exact ⟨[], rfl, by simp⟩
  | @cons s q l parts hx hF ih =>
    obtain ⟨q', hq', hrel⟩ := hstep s List.mem_cons_self q hx
    obtain ⟨parts', hp', e2⟩ := ih fun s hs => hstep s (List.mem_cons_of_mem _ hs)
    refine ⟨q' :: parts', by simp only [fillList, hq', hp'], fun p hp => ?_⟩
    rw [List.flatten_cons, List.mem_append] at hp
    rcases hp with hp | hp
    · rcases hrel with rfl | ⟨-, hs⟩
      · exact .inl (by rw [List.flatten_cons]; exact List.mem_append_left _ hp)
      · exact .inr ⟨s, List.mem_cons_self, by rw [List.flatten_cons]; exact List.mem_append_left _ hs, q', hq', hp⟩
    · rcases e2 p hp with hp | ⟨u, hu, hu2, hu3⟩
      · exact .inl (by rw [List.flatten_cons]; exact List.mem_append_right _ hp)
      · exact .inr ⟨u, List.mem_cons_of_mem _ hu, by rw [List.flatten_cons]; exact List.mem_append_right _ hu2, hu3⟩

theorem sameObjects2_pair {a b : Obj 3} (h : sameObjects2 a b = true) {s t : Simplex 3} (hs : s ∈ a) (ht : t ∈ b) :
    samePair2 s t = true := by
  unfold sameObjects2 at h
  rw [Bool.and_eq_true] at h
  exact List.all_eq_true.1 (List.all_eq_true.1 h.2 s hs) t ht

theorem sameObjects2_rough {a b : Obj 3} (h : sameObjects2 a b = true) : sameRough2 a b = true := by
  unfold sameObjects2 at h
  rw [Bool.and_eq_true] at h
  exact h.1

/-- C108: for two flat objects that pass the computed test, the standard kind of `intersection` with 64-bit integers is the
function with unbounded integers: the same pieces in the same order, or the same error. -/
theorem C108_same (F : Float64) (delaunay : Simplex 3 → Simplex 3 → Delaunay2) (a b : Obj 3) (h : sameObjects2 a b = true) :
    F.dodeIntersectionApi64 .standard delaunay (.d4 a) (.d4 b) = F.dodeIntersectionApi .standard delaunay (.d4 a) (.d4 b) := by
  obtain ⟨e1, e2⟩ := Planar.rough2_same F (sameObjects2_rough h)
  change F.dodeIntersectionTwoObj64 .standard delaunay a b = F.dodeIntersectionTwoObj1 .standard delaunay a b
  unfold Float64.dodeIntersectionTwoObj64 Float64.dodeIntersectionTwoObj1 intersectionTwoObj
  rw [e1]
  cases hc : centroidObj arith b with
  | error e => rw [bind_error', bind_error']
  | ok c =>
    obtain ⟨e3, e4⟩ := e2 c hc
    rw [bind_ok', bind_ok', e3]
    cases hd : F.dodeBallRadiusObj b c with
    | error e => rw [bind_error', bind_error']
    | ok d =>
      rw [bind_ok', bind_ok']
      have hfl : fillList (F.dodeOnePiece64 .standard (fun t => F.dodeRoughCheck64 t c d) (fun s t => .ok (F.checkTwoTriangles s t))
          (fun s t => F.intersectionTwoTriangles64 (delaunay s t) s t) b) a =
          fillList (onePiece .standard (fun t => F.dodeRoughCheck t c d) (fun s t => .ok (F.checkTwoTriangles s t))
          (fun s t => F.intersectionTwoTriangles (delaunay s t) s t) b) a := fillList_congr fun s hs =>
        (Planar.onePiece2_transfer F (kind := .standard) (rough := fun t => F.dodeRoughCheck64 t c d)
          (rough' := fun t => F.dodeRoughCheck t c d) (flag := fun s t => .ok (F.checkTwoTriangles s t))
          (inter := fun s t => F.intersectionTwoTriangles64 (delaunay s t) s t)
          (inter' := fun s t => F.intersectionTwoTriangles (delaunay s t) s t) (e4 s hs d)
          fun t ht => Planar.triangles64_same F (sameObjects2_pair h hs ht) (delaunay s t)).1
      rw [hfl]

section
variable (F : Float64) {R : ℝ} (hR : 1 ≤ R) (hR8 : R ≤ 8)
include hR hR8

/-- C108: for flat objects that are resolved in spite of rounding and pass the computed test, the result of `intersection`
with 64-bit integers and rounding loses nothing but a null set of the common part, whichever kind is asked for; and of the
standard kind nothing else is returned. -/
theorem C108_objects (kind : Ico.Kind) (delaunay : Simplex 3 → Simplex 3 → Delaunay2) (a b : Obj 3) (z : ℝ)
    (hD : ∀ s ∈ a, ∀ t ∈ b, ∀ r pns,
      (∀ v ∈ r, Vec.Ok v ∧ Candidate2 (Package.dode.perps s) (Package.dode.perps t) (Package.dode.perp v)) →
      F.delaunayInput2 r = .ok pns → ¬ InLine (r.map plane) → FillsHullOf2 (r.map plane) (delaunay s t pns))
    (h0 : b ≠ []) (ha : Obj.Ok a) (hb : Obj.Ok b) (za : Level z a) (zb : Level z b) (h : ObjectsRounded2 R z a b)
    (h' : sameObjects2 a b = true) (r : Option (Obj 3)) (hr : F.dodeIntersectionApi64 kind delaunay (.d4 a) (.d4 b) = .ok r) :
    volume (slice z ((Package.dode.region a ∩ Package.dode.region b) \ Package.dode.region (r.getD []))) = 0 ∧
      (kind = .standard → Package.dode.region (r.getD []) ⊆ Package.dode.region a ∩ Package.dode.region b) := by
  refine ⟨?_, ?_⟩
  swap
  · rintro rfl
    rw [C108_same F delaunay a b h'] at hr
    exact C96_inside F hR hR8 delaunay a b z hD h0 ha hb za zb h r hr
  obtain ⟨e1, e2⟩ := Planar.rough2_same F (sameObjects2_rough h')
  change F.dodeIntersectionTwoObj64 kind delaunay a b = .ok r at hr
  have key : ∃ r', F.dodeIntersectionTwoObj1 .standard delaunay a b = .ok r' ∧ ∀ p ∈ r'.getD [],
      p ∈ r.getD [] ∨ ∃ s ∈ a, s ∈ r.getD [] ∧ ∃ rough p', onePiece .standard rough (fun s t => .ok (F.checkTwoTriangles s t))
        (fun s t => F.intersectionTwoTriangles (delaunay s t) s t) b s = .ok p' ∧ p ∈ p' := by
    unfold Float64.dodeIntersectionTwoObj64 at hr
    unfold Float64.dodeIntersectionTwoObj1 intersectionTwoObj
    rw [e1] at hr
    cases hc : centroidObj arith b with
    | error e => rw [hc, bind_error'] at hr; cases hr
    | ok c =>
      obtain ⟨e3, e4⟩ := e2 c hc
      rw [hc, bind_ok', e3] at hr
      rw [bind_ok']
      cases hd : F.dodeBallRadiusObj b c with
      | error e => rw [hd, bind_error'] at hr; cases hr
      | ok d =>
        rw [hd, bind_ok'] at hr
        rw [bind_ok']
        cases hp : fillList (F.dodeOnePiece64 kind (fun t => F.dodeRoughCheck64 t c d) (fun s t => .ok (F.checkTwoTriangles s t))
            (fun s t => F.intersectionTwoTriangles64 (delaunay s t) s t) b) a with
        | error e => rw [hp, bind_error'] at hr; cases hr
        | ok parts =>
          rw [hp, bind_ok'] at hr
          obtain ⟨parts', hp', hrel⟩ := Planar.parts_transfer (kind := kind) (g := onePiece .standard (fun t => F.dodeRoughCheck t c d)
            (fun s t => .ok (F.checkTwoTriangles s t)) (fun s t => F.intersectionTwoTriangles (delaunay s t) s t) b)
            (fun s hs q hq => (Planar.onePiece2_transfer F (rough := fun t => F.dodeRoughCheck64 t c d)
              (rough' := fun t => F.dodeRoughCheck t c d) (flag := fun s t => .ok (F.checkTwoTriangles s t))
              (inter := fun s t => F.intersectionTwoTriangles64 (delaunay s t) s t)
              (inter' := fun s t => F.intersectionTwoTriangles (delaunay s t) s t) (e4 s hs d)
              fun t ht => Planar.triangles64_same F (sameObjects2_pair h' hs ht) (delaunay s t)).2 q hq) hp
          rw [hp', bind_ok']
          have hval : ∀ {parts : List (Obj 3)} {r : Option (Obj 3)},
              (if parts.flatten.length ≠ 0 then (.ok (some parts.flatten) : Py (Option (Obj 3))) else .ok none) = .ok r →
              r.getD [] = parts.flatten := by
            intro parts r h
            by_cases hn : parts.flatten.length ≠ 0
            · rw [if_pos hn] at h; cases h; rfl
            · rw [if_neg hn] at h; cases h
              rw [not_not, List.length_eq_zero_iff] at hn
              rw [hn]; rfl
          have e : ∃ r', (if parts'.flatten.length ≠ 0 then (.ok (some parts'.flatten) : Py (Option (Obj 3))) else .ok none) = .ok r' := by
            split <;> exact ⟨_, rfl⟩
          obtain ⟨r', hr'⟩ := e
          refine ⟨r', hr', ?_⟩
          rw [hval hr, hval hr']
          intro p hp
          rcases hrel p hp with hp | ⟨s, hs, hs2, p', hp', hpp⟩
          · exact .inl hp
          · exact .inr ⟨s, hs, hs2, _, p', hp', hpp⟩
  obtain ⟨r', hr', hrel⟩ := key
  have c1 := C96_objects F hR hR8 .standard delaunay a b z hD ha hb za zb h r' hr'
  refine measure_mono_null (slice_mono (Set.sdiff_subset_sdiff_right ?_)) c1
  rintro x ⟨p, hp, hx⟩
  rcases hrel p hp with hp | ⟨s, hs, hsr, rough, p', hp', hpp⟩
  · exact ⟨p, hp, hx⟩
  · refine ⟨s, hsr, ?_⟩
    have hcode := fun t ht => C95_codes F hR hR8 s t z (za s hs) (zb t ht) (h.small1 s hs) (h.small2 t ht) (h.pairs s hs t ht)
    have hQ := Planar.onePiece_mem (Q := fun q => solid (Package.dode.perps q) ⊆ solid (Package.dode.perps s))
      (fun t ht hf => subset_rfl) (fun t ht hf => ((hcode t ht).2.1.1 (Except.ok.inj hf)).2)
      (fun t ht o hf ho q hq => by
        have := (C95_two_outcome F hR hR8 (delaunay s t) s t (hD s hs t ht) (ha s hs) (hb t ht) z (za s hs) (zb t ht)
          (h.small1 s hs) (h.small2 t ht) (h.pairs s hs t ht) (Except.ok.inj hf) (some o) ho).1
        exact fun y hy => (this ⟨q, hq, hy⟩).1) hp' p hpp
    rcases hQ with hQ | ⟨hk, -⟩
    · exact hQ hx
    · cases hk

end

/-! ## A concrete case -/

def exLevelPoints : List (Fin 2 → Int) := [![1, 0], ![0, 1], ![0, 0], ![2, 0], ![0, 2], ![1, 1], ![-1, 1], ![1, -1]]

theorem exLevel_possible : ∀ v ∈ possible exLevel exLevelInv, ∃ p ∈ exLevelPoints, v = flatFrac (p 0) (p 1) 1 := by
  have e1 : lineCrossings exLevel exLevelInv =
      [flatFrac 1 0 1, flatFrac 0 0 1, flatFrac 0 1 1, flatFrac 0 0 1, flatFrac 1 1 1, flatFrac 1 1 1] := by decide +kernel
  have e2 : lineCrossings exLevelInv exLevel =
      [flatFrac 0 1 1, flatFrac 1 1 1, flatFrac 1 0 1, flatFrac 1 1 1, flatFrac 0 0 1, flatFrac 0 0 1] := by decide +kernel
  intro v hv
  unfold possible at hv
  rw [List.mem_dedup, e1, e2] at hv
  revert v
  decide +kernel

theorem exLevel_pair : samePair2 exLevel exLevelInv = true := by
  unfold samePair2
  rw [Bool.and_eq_true, Bool.and_eq_true]
  refine ⟨⟨?_, ?_⟩, ?_⟩
  · simp only [sameCrossing2, Quick.machine_projection, Quick.dode_projection, Quick.machine_eq, Quick.dode_eq]
    decide +kernel
  · refine List.all_eq_true.2 fun v hv => ?_
    obtain ⟨p, hp, rfl⟩ := exLevel_possible v hv
    simp only [Quick.machine_projection, Quick.dode_projection]
    revert p
    decide +kernel
  · refine List.all_eq_true.2 fun t ht => ?_
    simp only [triples, List.mem_flatMap, List.mem_map] at ht
    obtain ⟨a, ha, b, hb, c, hc, rfl⟩ := ht
    obtain ⟨p, hp, rfl⟩ := exLevel_possible a ha
    obtain ⟨q, hq, rfl⟩ := exLevel_possible b hb
    obtain ⟨r, hr, rfl⟩ := exLevel_possible c hc
    have hb : ∀ p ∈ exLevelPoints, ∀ i, |p i| ≤ 1000 := by decide
    have := whole_zero (x := ![p 0, q 0, r 0]) (y := ![p 1, q 1, r 1])
      (by intro i; fin_cases i; exacts [hb p hp 0, hb q hq 0, hb r hr 0])
      (by intro i; fin_cases i; exacts [hb p hp 1, hb q hq 1, hb r hr 1])
    have e : (![flatFrac (p 0) (p 1) 1, flatFrac (q 0) (q 1) 1, flatFrac (r 0) (r 1) 1] : Simplex 3) =
        fun i => flatFrac ((![p 0, q 0, r 0] : Fin 3 → Int) i) ((![p 1, q 1, r 1] : Fin 3 → Int) i) 1 := by
      funext i; fin_cases i <;> rfl
    rw [e]
    exact this

theorem exLevel_same : sameObjects2 [exLevel] [exLevelInv] = true := by
  unfold sameObjects2
  rw [Bool.and_eq_true]
  refine ⟨?_, ?_⟩
  · simp only [sameRough2, samePoints2, sameDistance2, Quick.machine_projection, Quick.dode_projection, Quick.machine_eq, Quick.dode_eq]
    decide +kernel
  · rw [List.all_cons, List.all_nil, List.all_cons, List.all_nil, exLevel_pair]
    rfl

/-- C108 applied: with 64-bit integers and binary64 arithmetic there is a result, which covers the common part of the two
triangles and lies in it. -/
example : ∃ o, Rounding.binary64.float64.dodeIntersectionApi64 .standard
    (fun _ _ pns => some (allTriples pns.length)) (.d4 [exLevel]) (.d4 [exLevelInv]) = .ok (some o) ∧
    volume (slice 0 ((Package.dode.region [exLevel] ∩ Package.dode.region [exLevelInv]) \ Package.dode.region o)) = 0 ∧
      Package.dode.region o ⊆ Package.dode.region [exLevel] ∩ Package.dode.region [exLevelInv] := by
  obtain ⟨o, ho, -, -⟩ := exLevel_binary64
  rw [← C108_same _ _ _ _ exLevel_same] at ho
  refine ⟨o, ho, ?_⟩
  have := C108_objects Rounding.binary64.float64 (R := (2 : ℕ)) (by norm_num) (by norm_num) .standard
    (fun _ _ pns => some (allTriples pns.length)) [exLevel] [exLevelInv] 0
    (fun s _ t _ r pns _ hi hn => triples_fill _ r pns hi hn) (by simp)
    (by intro t ht; rw [List.mem_singleton.1 ht]; exact exLevel_ok) (by intro t ht; rw [List.mem_singleton.1 ht]; exact exLevelInv_ok)
    (by intro t ht; rw [List.mem_singleton.1 ht]; exact exLevel_flat) (by intro t ht; rw [List.mem_singleton.1 ht]; exact exLevelInv_flat)
    exLevel_objects exLevel_same _ ho
  exact ⟨this.1, this.2 rfl⟩

end PyQC
