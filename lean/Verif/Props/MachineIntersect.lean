import Verif.Lemmas.MachineSame
/-!
# C98: `intersection` computed with 64-bit integers and rounding

No idealisation of numbers is left here: comparisons are rounded, exact numbers are triples of 64-bit integers.
-/
namespace PyQC
open Matrix Ico MeasureTheory

theorem crossing64_eq (F : Float64) {s t : Simplex 4} (h : ∀ c ∈ combEF,
      F.intersectionSegmentSurface64 (segmentOf s c.1) (surfaceOf t c.2) =
        F.intersectionSegmentSurface (segmentOf s c.1) (surfaceOf t c.2) ∧
      F.intersectionSegmentSurface64 (segmentOf t c.1) (surfaceOf s c.2) =
        F.intersectionSegmentSurface (segmentOf t c.1) (surfaceOf s c.2)) : F.crossingPoints64 s t = F.crossingPoints s t := by
  unfold Float64.crossingPoints64 Float64.crossingPoints
  refine foldPy_congr (fun acc c hc => ?_) _
  rw [(h c hc).1, (h c hc).2]

/-- C98: for corners with a common denominator `d` and numerators up to `N`, where `N⁷ d ≤ 200000` and `N⁶ d³ ≤ 10⁶` (whole
numbers and multiples of τ up to 5, or half-integers up to 5/2), no overflow occurs in the crossings of edges and faces: with
64-bit integers the same points are found. -/
theorem C98_crossing (F : Float64) (d N : Int) (hd : 1 ≤ d) (hN : 1 ≤ N) (h7 : N ^ 7 * d ≤ 200000) (h6 : N ^ 6 * d ^ 3 ≤ 10 ^ 6)
    (s t : Simplex 4) (hs : ∀ i, VecOnGrid d N (s i)) (ht : ∀ i, VecOnGrid d N (t i)) :
    F.crossingPoints64 s t = F.crossingPoints s t := by
  have hz : CrossSizes d N := ⟨hd, hN, h7, h6⟩
  have hseg : ∀ {s : Simplex 4} (_ : ∀ i, VecOnGrid d N (s i)) (e) (i), VecOnGrid d N (segmentOf s e i) := by
    intro s hs e i; fin_cases i <;> exact hs _
  have hsur : ∀ {s : Simplex 4} (_ : ∀ i, VecOnGrid d N (s i)) (e) (i), VecOnGrid d N (surfaceOf s e i) := by
    intro s hs e i; fin_cases i <;> exact hs _
  exact crossing64_eq F fun c _ => ⟨segmentSurface64_eq F hz (hseg hs _) (hsur ht _), segmentSurface64_eq F hz (hseg ht _) (hsur hs _)⟩

theorem grid_simplex_ok {d N : Int} (hd : 1 ≤ d) {s : Simplex 4} (hs : ∀ i, VecOnGrid d N (s i)) : Simplex.Ok s :=
  fun i => (hs i).ok (by omega)

section
variable (F : Float64) {R : ℝ} (hR : 1 ≤ R) (hR2 : R ≤ 2 ^ 10) (d N : Int) (hd : 1 ≤ d) (hN : 1 ≤ N)
  (h7 : N ^ 7 * d ≤ 200000) (h6 : N ^ 6 * d ^ 3 ≤ 10 ^ 6)
include hR hR2 hd hN h7 h6

/-- C98: for such tetrahedra, resolved in spite of rounding, every piece that is returned lies in both of them. Overflow in the
later steps may lose pieces, but it cannot produce wrong ones. -/
theorem C98_two_inside (draws : (n : Nat) → Draws n) (delaunay : Delaunay) (s t : Simplex 4)
    (hs : ∀ i, VecOnGrid d N (s i)) (ht : ∀ i, VecOnGrid d N (t i)) (ss : ∀ i, Small .ico R (s i)) (st : ∀ i, Small .ico R (t i))
    (h : ResolvedRounded R (Package.ico.perps s) (Package.ico.perps t)) (o : Obj 4)
    (ho : F.intersectionTwoTetrahedra64 draws delaunay s t = .ok (some o)) :
    Package.ico.region o ⊆ solid (Package.ico.perps s) ∩ solid (Package.ico.perps t) := by
  have os := grid_simplex_ok hd hs
  have ot := grid_simplex_ok hd ht
  rw [collected64 F hR hR2 os ot ss st h.apartST h.apartTS (C98_crossing F d N hd hN h7 h6 s t hs ht)] at ho
  rw [← commonPts_hull os ot h.resolved]
  exact region_subset_hull (common64_mem F ho)

/-- C98: for such objects, kind 'standard' returns nothing outside the intersection of the two objects. -/
theorem C98_inside (draws : Simplex 4 → Simplex 4 → (n : Nat) → Draws n) (delaunay : Simplex 4 → Simplex 4 → Delaunay)
    (a b : Obj 4) (ga : ObjOnGrid d N a) (gb : ObjOnGrid d N b) (sa : ∀ s ∈ a, ∀ i, Small .ico R (s i))
    (sb : ∀ t ∈ b, ∀ i, Small .ico R (t i))
    (h : ∀ s ∈ a, ∀ t ∈ b, ResolvedRounded R (Package.ico.perps s) (Package.ico.perps t)) (r : Obj 4)
    (hr : F.intersectionApi64 .standard draws delaunay (.d4 a) (.d4 b) = .ok (some r)) :
    Package.ico.region r ⊆ Package.ico.region a ∩ Package.ico.region b := by
  change F.intersectionTwoObj64 .standard draws delaunay a b = .ok (some r) at hr
  unfold Float64.intersectionTwoObj64 at hr
  cases hc : centroidObj (Machine.arith .ico) b with
  | error e => rw [hc, bind_error'] at hr; cases hr
  | ok c =>
    rw [hc, bind_ok'] at hr
    cases hb : F.ballRadiusObj64 b c with
    | error e => rw [hb, bind_error'] at hr; cases hr
    | ok dd =>
      rw [hb, bind_ok', onePiece64_standard] at hr
      have hcode := fun s hs t ht => C88_codes F hR hR2 s t (sa s hs) (sb t ht) (h s hs t ht)
      obtain ⟨-, h2⟩ := intersectionTwoObj_mem
        (Q := fun s a => ∃ t ∈ b, solid (Package.ico.perps a) ⊆ solid (Package.ico.perps s) ∩ solid (Package.ico.perps t))
        (fun s hs t ht hf => ⟨t, ht, fun x hx => ⟨hx, (hcode s hs t ht).1.1 (Except.ok.inj hf) hx⟩⟩)
        (fun s hs t ht hf => ⟨t, ht, fun x hx => ⟨((hcode s hs t ht).2.1.1 (Except.ok.inj hf)).2 hx, hx⟩⟩)
        (fun s hs t ht o _ hi a ha => ⟨t, ht, fun x hx => C98_two_inside F hR hR2 d N hd hN h7 h6 _ _ s t (ga s hs) (gb t ht)
          (sa s hs) (sb t ht) (h s hs t ht) o hi ⟨a, ha, hx⟩⟩) hr
      rintro x ⟨a, ha, hx⟩
      obtain ⟨s, hs, ⟨t, ht, hsub⟩ | ⟨hk, -⟩⟩ := h2 a ha
      · exact ⟨⟨s, hs, (hsub hx).1⟩, ⟨t, ht, (hsub hx).2⟩⟩
      · cases hk

end

theorem fillList_cons_ok {α β : Type} {f : α → Py β} {x : α} {l : List α} {y : β} {r : List β} (h : f x = .ok y)
    (hl : fillList f l = .ok r) : fillList f (x :: l) = .ok (y :: r) := by
  unfold fillList
  rw [h, hl]

theorem parts_transfer {kind : Kind} {f g : Simplex 4 → Py (Obj 4)} {a : Obj 4}
    (hstep : ∀ s ∈ a, ∀ q, f s = .ok q → ∃ q', g s = .ok q' ∧ (q = q' ∨ kind = .simple ∧ s ∈ q)) {parts : List (Obj 4)}
    (hp : fillList f a = .ok parts) : ∃ parts', fillList g a = .ok parts' ∧ (kind = .standard → parts = parts') ∧
      ∀ p ∈ parts'.flatten, p ∈ parts.flatten ∨ ∃ s ∈ a, s ∈ parts.flatten ∧ ∃ p', g s = .ok p' ∧ p ∈ p' := by
  have hF := fillList_eq_ok hp
  clear hp
  induction hF with
  | nil => exact ⟨[], rfl, fun _ => rfl, by simp⟩
  | @cons s q l parts hx hF ih =>
    obtain ⟨q', hq', hrel⟩ := hstep s List.mem_cons_self q hx
    obtain ⟨parts', hp', e1, e2⟩ := ih fun s hs => hstep s (List.mem_cons_of_mem _ hs)
    refine ⟨q' :: parts', fillList_cons_ok hq' hp', fun hk => ?_, fun p hp => ?_⟩
    · rcases hrel with rfl | ⟨hs, -⟩
      · rw [e1 hk]
      · rw [hk] at hs; cases hs
    · rw [List.flatten_cons, List.mem_append] at hp
      rcases hp with hp | hp
      · rcases hrel with rfl | ⟨-, hs⟩
        · exact .inl (by rw [List.flatten_cons]; exact List.mem_append_left _ hp)
        · exact .inr ⟨s, List.mem_cons_self, by rw [List.flatten_cons]; exact List.mem_append_left _ hs, q', hq', hp⟩
      · rcases e2 p hp with hp | ⟨u, hu, hu2, hu3⟩
        · exact .inl (by rw [List.flatten_cons]; exact List.mem_append_right _ hp)
        · exact .inr ⟨u, List.mem_cons_of_mem _ hu, by rw [List.flatten_cons]; exact List.mem_append_right _ hu2, hu3⟩

/-- If the computed tests hold, the result for two tetrahedra is the one with unbounded integers, unless the volume at the
end cannot be computed. -/
theorem two64_same (F : Float64) {R : ℕ} (hR : 1 ≤ R) (hR2 : R ≤ 2 ^ 10) {s t : Simplex 4} (hs : Simplex.Ok s) (ht : Simplex.Ok t)
    (h : pairTest R s t = true) (h' : samePair s t = true) {draws : (n : Nat) → Draws n} {delaunay : Delaunay}
    {r : Option (Obj 4)} (hr : F.intersectionTwoTetrahedra64 draws delaunay s t = .ok r) :
    F.intersectionTwoTetrahedra draws delaunay s t = .ok r := by
  obtain ⟨h1, h2, -, h3⟩ := pairTest_spec hs ht h
  have hR' : (1 : ℝ) ≤ R := by exact_mod_cast hR
  have hR2' : (R : ℝ) ≤ 2 ^ 10 := by exact_mod_cast hR2
  unfold samePair at h'
  rw [Bool.and_eq_true, Bool.and_eq_true] at h'
  obtain ⟨⟨hx, hp⟩, hq⟩ := h'
  rw [collected_eq hs ht] at hp hq
  have c1 := (tests_rounded F hR' hR2' h1 h2 h3.apartST).2
  have c2 := (tests_rounded F hR' hR2' h2 h1 h3.apartTS).2
  have hc : F.crossingPoints64 s t = F.crossingPoints s t := by
    refine crossing64_eq F fun c hc => ?_
    have hxc := List.all_eq_true.1 hx c hc
    rw [Bool.and_eq_true, meetsTest_eq (segmentOf_ok hs _) (surfaceOf_ok ht _), meetsTest_eq (segmentOf_ok ht _) (surfaceOf_ok hs _),
      ← c1 c hc, ← c2 c hc] at hxc
    refine ⟨segmentSurface64_same F fun hm => ?_, segmentSurface64_same F fun hm => ?_⟩
    · exact (Bool.or_eq_true_iff.1 hxc.1).resolve_left (by rw [hm]; decide)
    · exact (Bool.or_eq_true_iff.1 hxc.2).resolve_left (by rw [hm]; decide)
  rw [collected64 F hR' hR2' hs ht h1 h2 h3.apartST h3.apartTS hc] at hr
  rw [intersection_rounded_eq F hR' hR2' hs ht h1 h2 h3.apartST h3.apartTS]
  refine common64_same F (fun v hv => (commonPts_near hs ht hv).1) hp (fun l hl => ?_) hr
  rw [hl] at hq
  simp only [Bool.or_eq_true] at hq
  exact hq.imp (fun h => of_decide_eq_true h) id

/-- C98: two tetrahedra that pass the computed tests: with 64-bit integers and rounding, the pieces lie in both and nothing but
a null set of the common part is lost. -/
theorem C98_two (F : Float64) (R : ℕ) (hR : 1 ≤ R) (hR2 : R ≤ 2 ^ 10) (s t : Simplex 4) (hs : Simplex.Ok s) (ht : Simplex.Ok t)
    (h : pairTest R s t = true) (h' : samePair s t = true) (draws : (n : Nat) → Draws n) (delaunay : Delaunay)
    (hD : ∀ r pns, (∀ v ∈ r, Vec.Ok v ∧ Candidate (Package.ico.perps s) (Package.ico.perps t) (Package.ico.perp v)) →
      F.delaunayInput r = .ok pns → ¬ InPlane (r.map Package.ico.perp) → FillsHullOf (r.map Package.ico.perp) (delaunay pns))
    (r : Option (Obj 4)) (hr : F.intersectionTwoTetrahedra64 draws delaunay s t = .ok r) :
    Package.ico.region (r.getD []) ⊆ solid (Package.ico.perps s) ∩ solid (Package.ico.perps t) ∧
      volume ((solid (Package.ico.perps s) ∩ solid (Package.ico.perps t)) \ Package.ico.region (r.getD [])) = 0 :=
  C97_two F R hR hR2 s t hs ht h draws delaunay hD r (two64_same F hR hR2 hs ht h h' hr)

/-- Of kind 'simple' the result with machine integers covers the standard result with unbounded ones; of kind 'standard' it
is the same. -/
theorem objects64_same (F : Float64) {R : ℕ} (hR : 1 ≤ R) (hR2 : R ≤ 2 ^ 10) {kind : Kind}
    {draws : Simplex 4 → Simplex 4 → (n : Nat) → Draws n} {delaunay : Simplex 4 → Simplex 4 → Delaunay} {a b : Obj 4}
    (ha : Obj.Ok a) (hb : Obj.Ok b) (h0 : b ≠ []) (h : objectsTest R a b = true) (h' : sameObjects a b = true) {r : Option (Obj 4)}
    (hr : F.intersectionApi64 kind draws delaunay (.d4 a) (.d4 b) = .ok r) :
    ∃ r', F.intersectionApi .standard draws delaunay (.d4 a) (.d4 b) = .ok r' ∧
      (kind = .standard → r = r') ∧ ∀ p ∈ r'.getD [], p ∈ r.getD [] ∨ ∃ s ∈ a, s ∈ r.getD [] ∧
        ∃ rough, ∃ p', onePiece .standard rough (fun s t => .ok (F.checkTwoTetrahedra s t))
          (fun s t => F.intersectionTwoTetrahedra (draws s t) (delaunay s t) s t) b s = .ok p' ∧ p ∈ p' := by
  unfold sameObjects at h'
  rw [Bool.and_eq_true] at h'
  obtain ⟨hro, hpair⟩ := h'
  simp only [List.all_eq_true] at hpair
  unfold objectsTest at h
  simp only [Bool.and_eq_true, List.all_eq_true] at h
  have hpt := h.1.2
  obtain ⟨c, hc⟩ : ∃ c, centroidObj arith b = .ok c := ⟨_, centroidObj_ok Package.ico.lawful h0 (by decide) hb⟩
  obtain ⟨g1, g2, g3⟩ := rough64_same F ha hb hro hc
  change F.intersectionTwoObj64 kind draws delaunay a b = .ok r at hr
  show ∃ r', F.intersectionTwoObj1 .standard draws delaunay a b = .ok r' ∧ _
  unfold Float64.intersectionTwoObj64 at hr
  unfold Float64.intersectionTwoObj1
  rw [g1, bind_ok', g2] at hr
  rw [hc, bind_ok']
  cases hdd : F.ballRadiusObj b c with
  | error e => rw [hdd, bind_error'] at hr; cases hr
  | ok dd =>
    rw [hdd, bind_ok'] at hr
    rw [bind_ok']
    unfold intersectionTwoObj
    obtain ⟨parts, hparts, hr⟩ : ∃ parts, fillList (F.onePiece64 kind (fun t => F.roughCheck64 t c dd)
        (fun s t => .ok (F.checkTwoTetrahedra s t))
        (fun s t => F.intersectionTwoTetrahedra64 (draws s t) (delaunay s t) s t) b) a = .ok parts ∧
        (if parts.flatten.length ≠ 0 then (.ok (some parts.flatten) : Py (Option (Obj 4))) else .ok none) = .ok r := by
      cases hp : fillList (F.onePiece64 kind (fun t => F.roughCheck64 t c dd)
        (fun s t => .ok (F.checkTwoTetrahedra s t))
        (fun s t => F.intersectionTwoTetrahedra64 (draws s t) (delaunay s t) s t) b) a with
      | error e => rw [hp, bind_error'] at hr; cases hr
      | ok parts => rw [hp, bind_ok'] at hr; exact ⟨parts, rfl, hr⟩
    obtain ⟨parts', hp', hrel⟩ : ∃ parts', fillList (onePiece .standard (fun t => F.roughCheck t c dd)
        (fun s t => .ok (F.checkTwoTetrahedra s t))
        (fun s t => F.intersectionTwoTetrahedra (draws s t) (delaunay s t) s t) b) a = .ok parts' ∧
        (kind = .standard → parts = parts') ∧ ∀ p ∈ parts'.flatten, p ∈ parts.flatten ∨ ∃ s ∈ a, s ∈ parts.flatten ∧
          ∃ p', onePiece .standard (fun t => F.roughCheck t c dd) (fun s t => .ok (F.checkTwoTetrahedra s t))
          (fun s t => F.intersectionTwoTetrahedra (draws s t) (delaunay s t) s t) b s = .ok p' ∧ p ∈ p' := by
      have hstep : ∀ s ∈ a, ∀ q, F.onePiece64 kind (fun t => F.roughCheck64 t c dd) (fun s t => .ok (F.checkTwoTetrahedra s t))
          (fun s t => F.intersectionTwoTetrahedra64 (draws s t) (delaunay s t) s t) b s = .ok q →
          ∃ r', onePiece .standard (fun t => F.roughCheck t c dd) (fun s t => .ok (F.checkTwoTetrahedra s t))
            (fun s t => F.intersectionTwoTetrahedra (draws s t) (delaunay s t) s t) b s = .ok r' ∧ (q = r' ∨ kind = .simple ∧ s ∈ q) := by
        intro s hs q hq
        have e2 : ∀ t ∈ b, ∀ r, F.intersectionTwoTetrahedra64 (draws s t) (delaunay s t) s t = .ok r →
            F.intersectionTwoTetrahedra (draws s t) (delaunay s t) s t = .ok r := fun t ht r hr =>
          two64_same F hR hR2 (ha s hs) (hb t ht) (hpt s hs t ht) (hpair s hs t ht) hr
        exact onePiece64_transfer F (rough := fun t => F.roughCheck64 t c dd) (rough' := fun t => F.roughCheck t c dd)
          (inter := fun s t => F.intersectionTwoTetrahedra64 (draws s t) (delaunay s t) s t)
          (inter' := fun s t => F.intersectionTwoTetrahedra (draws s t) (delaunay s t) s t) (g3 s hs dd) e2 hq
      exact parts_transfer hstep hparts
    rw [hp', bind_ok']
    have hval : ∀ {parts : List (Obj 4)} {r : Option (Obj 4)},
        (if parts.flatten.length ≠ 0 then (.ok (some parts.flatten) : Py (Option (Obj 4))) else .ok none) = .ok r →
        r.getD [] = parts.flatten := by
      intro parts r h
      by_cases hn : parts.flatten.length ≠ 0
      · rw [if_pos hn] at h; cases h; rfl
      · rw [if_neg hn] at h; cases h
        rw [not_not, List.length_eq_zero_iff] at hn
        rw [hn]; rfl
    have e : ∃ r', (if parts'.flatten.length ≠ 0 then (.ok (some parts'.flatten) : Py (Option (Obj 4))) else .ok none) = .ok r' := by
      split <;> exact ⟨_, rfl⟩
    obtain ⟨r', hr'⟩ := e
    refine ⟨r', hr', fun hk => ?_, ?_⟩
    · rw [hrel.1 hk] at hr
      exact Except.ok.inj (hr.symm.trans hr')
    · rw [hval hr, hval hr']
      intro p hp
      rcases hrel.2 p hp with hp | ⟨s, hs, hs2, p', hp', hpp⟩
      · exact .inl hp
      · exact .inr ⟨s, hs, hs2, _, p', hp', hpp⟩

/-- C98: two objects that pass the computed tests: with 64-bit integers and rounding, nothing but a null set of the common
part is lost, whichever kind of result is asked for; and of the standard kind nothing else is returned. -/
theorem C98_objects (F : Float64) (R : ℕ) (hR : 1 ≤ R) (hR2 : R ≤ 2 ^ 10) (kind : Kind)
    (draws : Simplex 4 → Simplex 4 → (n : Nat) → Draws n) (delaunay : Simplex 4 → Simplex 4 → Delaunay) (a b : Obj 4)
    (hD : ∀ s ∈ a, ∀ t ∈ b, ∀ r pns,
      (∀ v ∈ r, Vec.Ok v ∧ Candidate (Package.ico.perps s) (Package.ico.perps t) (Package.ico.perp v)) →
      F.delaunayInput r = .ok pns → ¬ InPlane (r.map Package.ico.perp) →
      FillsHullOf (r.map Package.ico.perp) (delaunay s t pns))
    (ha : Obj.Ok a) (hb : Obj.Ok b) (h0 : b ≠ []) (h : objectsTest R a b = true) (h' : sameObjects a b = true) (r : Option (Obj 4))
    (hr : F.intersectionApi64 kind draws delaunay (.d4 a) (.d4 b) = .ok r) :
    volume ((Package.ico.region a ∩ Package.ico.region b) \ Package.ico.region (r.getD [])) = 0 ∧
      (kind = .standard → Package.ico.region (r.getD []) ⊆ Package.ico.region a ∩ Package.ico.region b) := by
  obtain ⟨r', hr', e1, e2⟩ := objects64_same F hR hR2 ha hb h0 h h' hr
  obtain ⟨c1, c2⟩ := C97_objects F R hR hR2 .standard draws delaunay a b hD ha hb h0 h r' hr'
  constructor
  · refine measure_mono_null (Set.sdiff_subset_sdiff_right ?_) c1
    rintro x ⟨p, hp, hx'⟩
    rcases e2 p hp with hp | ⟨s, hs, hsr, rough, p', hp', hpp⟩
    · exact ⟨p, hp, hx'⟩
    · refine ⟨s, hsr, ?_⟩
      have hO := objectsTest_spec ha hb h0 h
      have hR' : (1 : ℝ) ≤ R := by exact_mod_cast hR
      have hR2' : (R : ℝ) ≤ 2 ^ 10 := by exact_mod_cast hR2
      rcases onePiece_mem (Q := fun q => solid (Package.ico.perps q) ⊆ solid (Package.ico.perps s))
        (fun t ht hf => subset_rfl)
        (fun t ht hf => ((C88_codes F hR' hR2' s t (hO.small1 s hs) (hO.small2 t ht) (hO.pairs s hs t ht)).2.1.1 (Except.ok.inj hf)).2)
        (fun t ht o hf hi q hq x hx => ((C88_two_outcome F hR' hR2' _ _ s t (hD s hs t ht) (ha s hs) (hb t ht) (hO.small1 s hs)
          (hO.small2 t ht) (hO.crossing s hs t ht) (hO.pairs s hs t ht) (some o) hi).1 ⟨q, hq, hx⟩).1) hp' p hpp with hsub | ⟨hk, -⟩
      · exact hsub hx'
      · cases hk
  · intro hk
    rw [e1 hk]
    exact c2 rfl

end PyQC
