import Verif.Spec.MachineSame
import Verif.Lemmas.MachineCross
import Verif.Props.DecideRounded
/-!
# The intersection with machine integers, when every integer computation is exact
-/
namespace PyQC
open Matrix Ico MeasureTheory

theorem fillList_congr {α β : Type} {f g : α → Py β} {l : List α} (h : ∀ x ∈ l, f x = g x) : fillList f l = fillList g l := by
  induction l with
  | nil => rfl
  | cons x l ih => rw [fillList, fillList, h x List.mem_cons_self, ih fun y hy => h y (List.mem_cons_of_mem _ hy)]

theorem removeDoublingPerp64_eq {l : List (Vec 6)} (h : samePoints l = true) :
    Machine.removeDoublingPerp64 .ico l = removeDoublingPerp .ico l := by
  unfold Machine.removeDoublingPerp64 removeDoublingPerp
  simp only
  rw [fillList_congr (g := Package.ico.projection3) fun v hv => ?_]
  have := List.all_eq_true.1 h v (mem_removeDoubling.1 hv)
  exact of_decide_eq_true this

theorem samePoints_mono {l m : List (Vec 6)} (h : samePoints l = true) (hm : ∀ v ∈ m, v ∈ l) : samePoints m = true :=
  List.all_eq_true.2 fun v hv => List.all_eq_true.1 h v (hm v hv)

/-! ## Crossings -/

theorem crossing_map (A : Arith) (P : Vec 6 → Py (Vec 3)) (D : Num3 → Num3 → Option Num3) (sg : Simplex 2) (tr : Simplex 3)
    (b : Bool) : (if b then do
      let vec6AB ← subVectors A (sg 1) (sg 0)
      let vecAB ← P vec6AB
      let tmp ← subVectors A (tr 1) (tr 0)
      let vecCD ← P tmp
      let tmp ← subVectors A (tr 2) (tr 0)
      let vecCE ← P tmp
      let tmp ← subVectors A (sg 0) (tr 0)
      let vecCA ← P tmp
      let vecP ← outerProduct A vecAB vecCE
      let vecQ ← outerProduct A vecCA vecCD
      let bunbo ← innerProduct A vecP vecCD
      let bunbo ← needSome bunbo
      let bunshi ← innerProduct A vecQ vecCE
      let bunshi ← needSome bunshi
      let t ← needSome (D bunshi bunbo)
      let tmp ← mulVector A vec6AB t
      let r ← addVectors A (sg 0) tmp
      .ok (some r)
    else .ok none : Py (Option (Vec 6))) = if b then (crossingWith A P D sg tr).map some else .ok none := by
  unfold crossingWith
  split
  · simp only [bind, Except.bind, Except.map]
    repeat' split <;> try rfl
    all_goals simp_all
  · rfl

theorem segmentSurface64_with (F : Float64) (sg : Simplex 2) (tr : Simplex 3) : F.intersectionSegmentSurface64 sg tr =
    if F.segmentMeetsTriangleTau sg tr then
      (crossingWith (Machine.arith .ico) (Machine.projection3 .ico) Machine.Ico.div sg tr).map some else .ok none :=
  crossing_map _ _ _ _ _ _

theorem segmentSurface_with (F : Float64) (sg : Simplex 2) (tr : Simplex 3) : F.intersectionSegmentSurface sg tr =
    if F.segmentMeetsTriangleTau sg tr then (crossingWith arith projection3 div sg tr).map some else .ok none :=
  crossing_map _ _ _ _ _ _

theorem segmentSurface64_same (F : Float64) {sg : Simplex 2} {tr : Simplex 3}
    (h : F.segmentMeetsTriangleTau sg tr = true → sameCrossing sg tr = true) :
    F.intersectionSegmentSurface64 sg tr = F.intersectionSegmentSurface sg tr := by
  rw [segmentSurface64_with, segmentSurface_with]
  split
  · rename_i hm
    rw [of_decide_eq_true (h hm)]
  · rfl

/-! ## Volumes -/

open Classical in
theorem icoVolume6d_triple (F : Float64) (t : Simplex 4) : F.icoVolume6d t =
    tripleWith (Machine.arith .ico) (Machine.projection3 .ico) t >>= fun v =>
      if F.numericValue v < 0 then Machine.Ico.mul v ⟨-1, 0, 6⟩ else Machine.Ico.mul v ⟨1, 0, 6⟩ := by
  unfold Float64.icoVolume6d Float64.icoVolume tripleWith
  generalize Machine.arith .ico = A
  generalize Machine.projection3 .ico = P
  simp only [bind_assoc]

theorem zeroAlike_elim {m : Num3 → Num3 → Py Num3} {x y : Py Num3} (h : zeroAlike m x y = true) :
    ∃ a b p q, x = .ok a ∧ y = .ok b ∧ m a ⟨-1, 0, 6⟩ = .ok p ∧ m a ⟨1, 0, 6⟩ = .ok q ∧
      (p.a = 0 ∧ p.b = 0 ↔ b.a = 0 ∧ b.b = 0) ∧ (q.a = 0 ∧ q.b = 0 ↔ b.a = 0 ∧ b.b = 0) := by
  unfold zeroAlike at h
  split at h
  · rename_i a b
    split at h
    · rename_i p q hp hq
      rw [Bool.and_eq_true, beq_iff_eq, beq_iff_eq] at h
      exact ⟨a, b, p, q, rfl, rfl, hp, hq, decide_eq_decide.1 h.1, decide_eq_decide.1 h.2⟩
    · cases h
  · cases h

open Classical in
/-- Whether a piece is kept does not depend on the integers. -/
theorem keep_same (F : Float64) {t : Simplex 4} (h : sameZero t = true) :
    ∃ v w, F.icoVolume6d t = .ok v ∧ tetrahedronVolume6d t = .ok w ∧ (v.a = 0 ∧ v.b = 0 ↔ w.a = 0 ∧ w.b = 0) := by
  obtain ⟨a, b, p, q, h1, h2, h3, h4, h5, h6⟩ := zeroAlike_elim h
  rw [icoVolume6d_triple, h1, bind_ok', h3, h4]
  by_cases hn : F.numericValue a < 0
  · exact ⟨p, b, if_pos hn, h2, h5⟩
  · exact ⟨q, b, if_neg hn, h2, h6⟩

theorem mem_quadruples {l : List (Vec 6)} {t : Simplex 4} (h : ∀ k, t k ∈ l) : t ∈ quadruples l := by
  have : t = ![t 0, t 1, t 2, t 3] := by funext k; fin_cases k <;> rfl
  unfold quadruples
  simp only [List.mem_flatMap, List.mem_map]
  exact ⟨_, h 0, _, h 1, _, h 2, _, h 3, this.symm⟩

theorem keepSimplices64_same (F : Float64) {pts : List (Vec 6)} (h : (quadruples pts).all sameZero = true)
    (l : List (Fin 4 → Nat)) : F.keepSimplices64 pts l = keepSimplices pts l := by
  induction l with
  | nil => rfl
  | cons i l ih =>
    unfold Float64.keepSimplices64 keepSimplices
    cases hp : pickSimplex pts i with
    | error e => rw [bind_error', bind_error']
    | ok t =>
      obtain ⟨v, w, h1, h2, h3⟩ := keep_same F (List.all_eq_true.1 h t (mem_quadruples fun k =>
        List.mem_of_getElem? (pickSimplex_eq_ok.1 hp k)))
      rw [bind_ok', bind_ok', h1, h2, bind_ok', bind_ok', ih]
      simp only [h3]

theorem tetrahedralization64_same (F : Float64) (delaunay : Delaunay) {pts : List (Vec 6)} (h : (quadruples pts).all sameZero = true)
    (hs : samePoints pts = true) : F.tetrahedralizationPoints64 delaunay pts = F.tetrahedralizationPoints delaunay pts := by
  have hd : F.delaunayInput64 pts = F.delaunayInput pts := by
    unfold Float64.delaunayInput64 Float64.delaunayInput
    refine fillList_congr fun v hv => ?_
    rw [of_decide_eq_true (List.all_eq_true.1 hs v hv)]
  have hk := keepSimplices64_same F h
  clear h hs
  cases pts with
  | nil => rfl
  | cons v pts =>
    unfold Float64.tetrahedralizationPoints64 Float64.tetrahedralizationPoints
    simp only
    rw [hd]
    simp only [hk]
    rfl

/-! ## Two tetrahedra -/

theorem crossingOf_eq {s t : Simplex 4} (hs : Simplex.Ok s) (ht : Simplex.Ok t) (c) : crossingOf s t c = crossPt s t c := by
  unfold crossingOf crossPt
  have e : intersectionSegmentSurface (segmentOf s c.1) (surfaceOf t c.2) =
      if segmentMeetsTriangleTau (segmentOf s c.1) (surfaceOf t c.2) then
        (crossingWith arith projection3 div (segmentOf s c.1) (surfaceOf t c.2)).map some else .ok none := crossing_map _ _ _ _ _ _
  rw [e, meetsTest_eq (segmentOf_ok hs _) (surfaceOf_ok ht _)]
  split
  · cases crossingWith arith projection3 div (segmentOf s c.1) (surfaceOf t c.2) <;> rfl
  · rfl

theorem collected_eq {s t : Simplex 4} (hs : Simplex.Ok s) (ht : Simplex.Ok t) : collected s t = commonPts s t := by
  unfold collected commonPts
  simp only [crossingOf_eq hs ht, crossingOf_eq ht hs]
  congr 1
  · congr 1
    refine List.filter_congr fun v hv => ?_
    obtain ⟨i, rfl⟩ := List.mem_ofFn.1 hv
    exact insideTest_eq (hs i) ht
  · refine List.filter_congr fun v hv => ?_
    obtain ⟨i, rfl⟩ := List.mem_ofFn.1 hv
    exact insideTest_eq (ht i) hs

/-- What is collected with machine integers, if the tests are decided as over the real numbers and the crossings are exact. -/
theorem collected64 (F : Float64) {R : ℝ} (hR : 1 ≤ R) (hR2 : R ≤ 2 ^ 10) {s t : Simplex 4} (os : Simplex.Ok s)
    (ot : Simplex.Ok t) (hs : ∀ i, Small .ico R (s i)) (ht : ∀ i, Small .ico R (t i))
    (h : Apart (margin R) (Package.ico.perps s) (Package.ico.perps t))
    (h' : Apart (margin R) (Package.ico.perps t) (Package.ico.perps s))
    (hc : F.crossingPoints64 s t = F.crossingPoints s t) (draws : (n : Nat) → Draws n) (delaunay : Delaunay) :
    F.intersectionTwoTetrahedra64 draws delaunay s t = F.tetrahedralizeCommon64 draws delaunay (commonPts s t) := by
  obtain ⟨-, h2, h3, h4⟩ := pair_rounded F hR hR2 hs ht h h'
  unfold Float64.intersectionTwoTetrahedra64
  rw [hc, h2, h3, h4, crossingPoints_ok os ot, bind_ok']
  rfl

/-- If the computed points are exact then only the last volume can make a difference, and only by raising. -/
theorem common64_same (F : Float64) {draws : (n : Nat) → Draws n} {delaunay : Delaunay} {pts : List (Vec 6)}
    (hp : ∀ v ∈ pts, Vec.Ok v) (hs : samePoints pts = true)
    (hq : ∀ l, removeDoublingPerp .ico pts = .ok l → l.length ≤ 4 ∨ (quadruples l).all sameZero = true)
    {r : Option (Obj 4)} (h : F.tetrahedralizeCommon64 draws delaunay pts = .ok r) :
    F.tetrahedralizeCommon draws delaunay pts = .ok r := by
  unfold Float64.tetrahedralizeCommon64 at h
  unfold Float64.tetrahedralizeCommon
  by_cases h4 : pts.length ≥ 4
  · rw [if_pos h4] at h ⊢
    rw [removeDoublingPerp64_eq hs] at h
    obtain ⟨l, hl, hsub, -⟩ := C24_one_per_point .ico pts hp
    have hlok : ∀ v ∈ l, Vec.Ok v := fun v hv => hp v (hsub v hv)
    rw [hl, bind_ok'] at h ⊢
    have hq := hq l hl
    by_cases hr4 : l.length ≥ 4
    · rw [if_pos hr4] at h ⊢
      by_cases hc : F.coplanarCheck draws l = some true
      · rw [if_pos hc] at h ⊢; exact h
      · rw [if_neg hc] at h ⊢
        have key : ∀ {x : Py (Option (Obj 4))} (hx : ∀ o, x = .ok (some o) → Obj.Ok o), (x >>= fun x => match x with
            | none => .error .attributeError
            | some o => do
              let _ ← F.objVolume6d (.d4 o)
              .ok (some o) : Py (Option (Obj 4))) = .ok r →
            (x >>= fun x => match x with
            | none => .error .attributeError
            | some o => do
              let _ ← objVolume6d (.d4 o)
              .ok (some o) : Py (Option (Obj 4))) = .ok r := by
          intro x hx hr
          match x with
          | .error e => rw [bind_error'] at hr; cases hr
          | .ok none => rw [bind_ok'] at hr; cases hr
          | .ok (some o) =>
            rw [bind_ok'] at hr ⊢
            simp only at hr ⊢
            rw [objVolume_ok (hx o rfl), bind_ok']
            cases hv : F.objVolume6d (.d4 o) with
            | error e => rw [hv, bind_error'] at hr; cases hr
            | ok v => rw [hv, bind_ok'] at hr; exact hr
        simp only at h ⊢
        by_cases hl4 : l.length = 4
        · rw [if_pos hl4] at h ⊢
          refine key (fun o ho => ?_) h
          cases hh : reshape4 l with
          | error e => rw [hh, bind_error'] at ho; cases ho
          | ok o' =>
            rw [hh, bind_ok'] at ho
            cases ho
            exact fun t ht k => hlok _ ((reshape4_mem hh).2 t ht k)
        · rw [if_neg hl4] at h ⊢
          rw [tetrahedralization64_same F delaunay (hq.resolve_left (by omega)) (samePoints_mono hs hsub)] at h
          refine key (fun o ho => ?_) h
          obtain ⟨pns, -, hT⟩ := tetrahedralization_rounded F delaunay hlok
          rw [hT] at ho
          exact fun t ht k => hlok _ (((C50_sound (fun _ => delaunay pns) l hlok o ho).2 t ht).1 k)
    · rw [if_neg hr4] at h ⊢; exact h
  · rw [if_neg h4] at h ⊢; exact h

theorem keepSimplices64_mem (F : Float64) {pts : List (Vec 6)} {l : List (Fin 4 → Nat)} {o : Obj 4}
    (h : F.keepSimplices64 pts l = .ok o) : ∀ t ∈ o, ∀ k, t k ∈ pts := by
  induction l generalizing o with
  | nil => cases h; simp
  | cons i l ih =>
    unfold Float64.keepSimplices64 at h
    cases hp : pickSimplex pts i with
    | error e => rw [hp, bind_error'] at h; cases h
    | ok u =>
      rw [hp, bind_ok'] at h
      cases hv : F.icoVolume6d u with
      | error e => rw [hv, bind_error'] at h; cases h
      | ok v =>
        rw [hv, bind_ok'] at h
        cases hr : F.keepSimplices64 pts l with
        | error e => rw [hr, bind_error'] at h; cases h
        | ok r =>
          rw [hr, bind_ok'] at h
          by_cases h0 : v.a = 0 ∧ v.b = 0
          · rw [if_pos h0] at h
            cases h
            exact ih hr
          · rw [if_neg h0] at h
            cases h
            intro t ht k
            rcases List.mem_cons.1 ht with rfl | ht
            · exact List.mem_of_getElem? (pickSimplex_eq_ok.1 hp k)
            · exact ih hr t ht k

theorem removeDoublingPerp64_sub {l r : List (Vec 6)} (h : Machine.removeDoublingPerp64 .ico l = .ok r) : ∀ v ∈ r, v ∈ l := by
  unfold Machine.removeDoublingPerp64 at h
  simp only at h
  cases hf : fillList (Machine.projection3 .ico) (removeDoubling l) with
  | error e => rw [hf, bind_error'] at h; cases h
  | ok a =>
    rw [hf, bind_ok'] at h
    cases h
    intro v hv
    obtain ⟨x, hx, rfl⟩ := List.mem_map.1 hv
    exact mem_removeDoubling.1 (List.of_mem_zip (mem_of_mem_uniqueBy hx)).2

/-- The corners of the pieces are among the collected points, however the integers behave. -/
theorem common64_mem (F : Float64) {draws : (n : Nat) → Draws n} {delaunay : Delaunay} {pts : List (Vec 6)}
    {o : Obj 4} (h : F.tetrahedralizeCommon64 draws delaunay pts = .ok (some o)) : ∀ t ∈ o, ∀ k, t k ∈ pts := by
  unfold Float64.tetrahedralizeCommon64 at h
  by_cases h4 : pts.length ≥ 4
  · rw [if_pos h4] at h
    cases hl : Machine.removeDoublingPerp64 .ico pts with
    | error e => rw [hl, bind_error'] at h; cases h
    | ok l =>
    have hsub := removeDoublingPerp64_sub hl
    rw [hl, bind_ok'] at h
    by_cases hr4 : l.length ≥ 4
    · rw [if_pos hr4] at h
      by_cases hc : F.coplanarCheck draws l = some true
      · rw [if_pos hc] at h; cases h
      · rw [if_neg hc] at h
        have hfin : ∀ {x : Option (Obj 4)}, (match x with
            | none => .error .attributeError
            | some o => do
              let _ ← F.objVolume6d (.d4 o)
              .ok (some o) : Py (Option (Obj 4))) = .ok (some o) → x = some o := by
          intro x hx
          cases x with
          | none => cases hx
          | some o' =>
            simp only at hx
            cases hv : F.objVolume6d (.d4 o') with
            | error e => rw [hv, bind_error'] at hx; cases hx
            | ok v => rw [hv, bind_ok'] at hx; cases hx; rfl
        simp only at h
        by_cases hl4 : l.length = 4
        · rw [if_pos hl4] at h
          cases ho : reshape4 l with
          | error e => rw [ho, bind_error', bind_error'] at h; cases h
          | ok o' =>
            rw [ho, bind_ok', bind_ok'] at h
            cases hfin (x := some o') h
            exact fun t ht k => hsub _ ((reshape4_mem ho).2 t ht k)
        · rw [if_neg hl4] at h
          cases ho : F.tetrahedralizationPoints64 delaunay l with
          | error e => rw [ho, bind_error'] at h; cases h
          | ok o' =>
            rw [ho, bind_ok'] at h
            have := hfin (x := o') h
            subst this
            cases l with
            | nil => simp at hr4
            | cons v l =>
              unfold Float64.tetrahedralizationPoints64 at ho
              simp only at ho
              cases hd : F.delaunayInput64 (v :: l) with
              | error e => rw [hd, bind_error'] at ho; cases ho
              | ok pns =>
                rw [hd, bind_ok'] at ho
                cases hD : delaunay pns with
                | none => rw [hD] at ho; cases ho
                | some ix =>
                  rw [hD] at ho
                  simp only at ho
                  cases hk : F.keepSimplices64 (v :: l) ix with
                  | error e => rw [hk, bind_error'] at ho; cases ho
                  | ok r =>
                    rw [hk, bind_ok'] at ho
                    by_cases h0 : r.length ≠ 0
                    · rw [if_pos h0] at ho
                      cases ho
                      exact fun t ht k => hsub _ (keepSimplices64_mem F hk t ht k)
                    · rw [if_neg h0] at ho; cases ho
    · rw [if_neg hr4] at h; cases h
  · rw [if_neg h4] at h; cases h

/-! ## Two objects -/

theorem distance64_same (F : Float64) {v w : Vec 6} (h : sameDistance v w = true) :
    F.distanceInPerpSpace64 v w = F.distanceInPerpSpace v w := by
  have e := of_decide_eq_true h
  have key : ∀ (m m' : Py (Vec 6)) (p p' : Vec 6 → Py (Vec 3)) (f : Vec 3 → Py ℝ), (m >>= p) = (m' >>= p') →
      (m >>= fun a => p a >>= f) = (m' >>= fun a => p' a >>= f) := by
    intro m m' p p' f h
    rw [← bind_assoc, ← bind_assoc, h]
  exact key _ _ _ _ (fun a => .ok (F.norm3 (F.numericalVector a))) e

theorem ballVts64_same (F : Float64) {l : List (Vec 6)} {c : Vec 6} (h : ∀ v ∈ l, sameDistance v c = true) :
    F.ballRadiusVts64 l c = F.ballRadiusVts l c := by
  unfold Float64.ballRadiusVts64 Float64.ballRadiusVts
  refine foldPy_congr (fun a v hv => ?_) _
  rw [distance64_same F (h v hv)]

theorem ballList64_same (F : Float64) {l : List (Vec 6)} {c : Vec 6} (hl : ∀ v ∈ l, Vec.Ok v) (hp : samePoints l = true)
    (h : ∀ v ∈ l, sameDistance v c = true) :
    (Machine.removeDoublingPerp64 .ico l >>= fun r => F.ballRadiusVts64 r c) =
      (removeDoublingPerp .ico l >>= fun r => F.ballRadiusVts r c) := by
  rw [removeDoublingPerp64_eq hp]
  obtain ⟨r, hr, hsub, -⟩ := C24_one_per_point .ico l hl
  rw [hr, bind_ok', bind_ok', ballVts64_same F fun v hv => h v (hsub v hv)]

theorem onePiece64_standard (F : Float64) : F.onePiece64 .standard = onePiece .standard := by
  funext rough flag inter obj2 t1
  rfl

/-- The rough check is the same. -/
theorem rough64_same (F : Float64) {a b : Obj 4} (ha : Obj.Ok a) (hb : Obj.Ok b) (h : sameRough a b = true)
    {c : Vec 6} (hc : centroidObj arith b = .ok c) : centroidObj (Machine.arith .ico) b = .ok c ∧
      F.ballRadiusObj64 b c = F.ballRadiusObj b c ∧ ∀ s ∈ a, ∀ d, F.roughCheck64 s c d = F.roughCheck s c d := by
  unfold sameRough at h
  rw [hc] at h
  simp only [Bool.and_eq_true, List.all_eq_true, List.forall_mem_ofFn_iff] at h
  obtain ⟨⟨⟨h1, h2⟩, h3⟩, h4, h5⟩ := h
  have hmem : ∀ {o : Obj 4} {v}, v ∈ flattenObj o ↔ ∃ s ∈ o, ∃ i, s i = v := by
    intro o v; simp only [flattenObj, List.mem_flatMap, List.mem_ofFn]
  refine ⟨of_decide_eq_true h1, ?_, fun s hs d => ?_⟩
  · refine ballList64_same F ?_ h2 ?_
    · intro v hv
      obtain ⟨t, ht, i, rfl⟩ := hmem.1 hv
      exact hb t ht i
    · intro v hv
      obtain ⟨t, ht, i, rfl⟩ := hmem.1 hv
      exact h4 t ht i
  · have hs5 := h5 s hs
    obtain ⟨c', hc'⟩ : ∃ c', centroid arith (List.ofFn s) = .ok c' :=
      ⟨_, centroid_ok Package.ico.lawful (by simp) (by
        intro v hv; obtain ⟨i, rfl⟩ := (List.mem_ofFn' _ _).mp hv; exact ha s hs i)⟩
    rw [hc'] at hs5
    simp only [Bool.and_eq_true, List.all_eq_true, List.forall_mem_ofFn_iff] at hs5
    obtain ⟨h6, h7, h8⟩ := hs5
    have hball : F.ballRadius64 s c' = F.ballRadius s c' := by
      refine ballList64_same F ?_ (samePoints_mono h3 fun v hv => ?_) ?_
      · intro v hv
        obtain ⟨i, rfl⟩ := List.mem_ofFn.1 hv
        exact ha s hs i
      · obtain ⟨i, rfl⟩ := List.mem_ofFn.1 hv
        exact hmem.2 ⟨s, hs, i, rfl⟩
      · intro v hv
        obtain ⟨i, rfl⟩ := List.mem_ofFn.1 hv
        exact h7 i
    unfold Float64.roughCheck64 Float64.roughCheck
    rw [of_decide_eq_true h6, hc', bind_ok', bind_ok', hball, distance64_same F h8]

theorem innerLoop_transfer {flag : Simplex 4 → Simplex 4 → Py Nat} {inter inter' : Simplex 4 → Simplex 4 → Py (Option (Obj 4))}
    {t1 : Simplex 4} {l : Obj 4} (h : ∀ t ∈ l, ∀ r, inter t1 t = .ok r → inter' t1 t = .ok r) {acc : Obj 4} {r : Bool × Obj 4}
    (hr : innerLoop flag inter t1 acc l = .ok r) : innerLoop flag inter' t1 acc l = .ok r := by
  induction l generalizing acc with
  | nil => exact hr
  | cons t l ih =>
    have ih' := fun {acc} => ih (fun t ht => h t (List.mem_cons_of_mem _ ht)) (acc := acc)
    unfold innerLoop at hr ⊢
    cases hf : flag t1 t with
    | error e => rw [hf, bind_error'] at hr; cases hr
    | ok f =>
      rw [hf] at hr
      rw [bind_ok'] at hr ⊢
      by_cases f1 : f = 1
      · rw [if_pos f1] at hr ⊢; exact hr
      · rw [if_neg f1] at hr ⊢
        by_cases f2 : f = 2
        · rw [if_pos f2] at hr ⊢; exact ih' hr
        · rw [if_neg f2] at hr ⊢
          by_cases f3 : f = 3
          · rw [if_pos f3] at hr ⊢
            cases hi : inter t1 t with
            | error e => rw [hi, bind_error'] at hr; cases hr
            | ok x =>
              rw [hi, bind_ok'] at hr
              rw [h t List.mem_cons_self x hi, bind_ok']
              cases x with
              | none => exact ih' hr
              | some o => exact ih' hr
          · rw [if_neg f3] at hr ⊢; exact ih' hr

/-- What a tetrahedron contributes with machine integers: of kind 'standard' the same as without, of kind 'simple' the same
as of kind 'standard' without, or the tetrahedron itself. -/
theorem onePiece64_transfer (F : Float64) {kind : Kind} {rough rough' : Simplex 4 → Py Bool} {flag : Simplex 4 → Simplex 4 → Py Nat}
    {inter inter' : Simplex 4 → Simplex 4 → Py (Option (Obj 4))} {obj2 : Obj 4} {t1 : Simplex 4} (h0 : rough t1 = rough' t1)
    (h : ∀ t ∈ obj2, ∀ r, inter t1 t = .ok r → inter' t1 t = .ok r) {r : Obj 4}
    (hr : F.onePiece64 kind rough flag inter obj2 t1 = .ok r) :
    ∃ r', onePiece .standard rough' flag inter' obj2 t1 = .ok r' ∧ (r = r' ∨ kind = .simple ∧ t1 ∈ r) := by
  unfold Float64.onePiece64 at hr
  unfold onePiece
  rw [← h0]
  cases hro : rough t1 with
  | error e => rw [hro, bind_error'] at hr; cases hr
  | ok b =>
    rw [hro, bind_ok'] at hr
    rw [bind_ok']
    cases b with
    | false => rw [if_neg (by simp)] at hr ⊢; cases hr; exact ⟨_, rfl, .inl rfl⟩
    | true =>
      rw [if_pos rfl] at hr ⊢
      cases hl : innerLoop flag inter t1 [] obj2 with
      | error e => rw [hl, bind_error'] at hr; cases hr
      | ok p =>
        obtain ⟨inside, tmp⟩ := p
        rw [hl, bind_ok'] at hr
        rw [innerLoop_transfer h hl, bind_ok']
        simp only at hr ⊢
        by_cases hn : tmp.length ≠ 0
        · rw [if_pos hn] at hr ⊢
          cases kind with
          | standard => exact ⟨_, rfl, .inl (Except.ok.inj hr).symm⟩
          | simple =>
            simp only at hr
            cases h1 : F.icoVolume6d t1 with
            | error e => rw [h1, bind_error'] at hr; cases hr
            | ok v1 =>
              rw [h1, bind_ok'] at hr
              cases h2 : F.objVolume6d (.d4 tmp) with
              | error e => rw [h2, bind_error'] at hr; cases hr
              | ok v2 =>
                rw [h2, bind_ok'] at hr
                by_cases he : some v1 = v2
                · rw [if_pos he] at hr
                  cases hr
                  exact ⟨_, rfl, .inr ⟨rfl, by simp⟩⟩
                · rw [if_neg he] at hr
                  exact ⟨_, rfl, .inl (Except.ok.inj hr).symm⟩
        · rw [if_neg hn] at hr ⊢
          exact ⟨_, rfl, .inl (Except.ok.inj hr).symm⟩

end PyQC
