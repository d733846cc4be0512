import Verif.Spec.MachinePlanar
import Verif.Lemmas.MachineSame
import Verif.Lemmas.PlanarObj
import Verif.Lemmas.PlanarTri
/-!
# The planar intersection with machine integers, when every integer computation is exact
-/
namespace PyQC
namespace Planar
open Dode

theorem crossing2_map (A : Arith) (P : Vec 6 → Py (Vec 3)) (s1 s2 : Simplex 2) (b : Bool) : (if b then do
      let vecAB6 ← subVectors A (s1 1) (s1 0)
      let vecAB ← P vecAB6
      let tmp ← subVectors A (s2 1) (s2 0)
      let vecCD ← P tmp
      let tmp ← subVectors A (s2 0) (s1 0)
      let vecAC ← P tmp
      let tmp1 ← innerProduct A vecAB vecCD
      let tmp1 ← needSome tmp1
      let tmp2 ← innerProduct A vecCD vecAB
      let tmp2 ← needSome tmp2
      let tmp3 ← A.mul tmp1 tmp2
      let tmp1 ← innerProduct A vecAB vecAB
      let tmp1 ← needSome tmp1
      let tmp2 ← innerProduct A vecCD vecCD
      let tmp2 ← needSome tmp2
      let tmp4 ← A.mul tmp1 tmp2
      let bunbo ← A.sub tmp3 tmp4
      let tmp1 ← innerProduct A vecAC vecCD
      let tmp1 ← needSome tmp1
      let tmp2 ← innerProduct A vecCD vecAB
      let tmp2 ← needSome tmp2
      let tmp3 ← A.mul tmp1 tmp2
      let tmp1 ← innerProduct A vecCD vecCD
      let tmp1 ← needSome tmp1
      let tmp2 ← innerProduct A vecAC vecAB
      let tmp2 ← needSome tmp2
      let tmp4 ← A.mul tmp1 tmp2
      let bunshi ← A.sub tmp3 tmp4
      let s ← needSome (A.div bunshi bunbo)
      let tmp ← mulVector A vecAB6 s
      let r ← addVectors A (s1 0) tmp
      .ok (some r)
      else .ok none : Py (Option (Vec 6))) = if b then (crossing2With A P s1 s2).map some else .ok none := by
  have key : ∀ {α : Type} (m : Py α) (f : α → Py (Vec 6)), (m >>= f).map some = (m >>= fun x => (f x).map some : Py (Option (Vec 6))) := by
    intro α m f; cases m <;> rfl
  have last : ∀ (m : Py (Vec 6)), m.map some = (m >>= fun r => .ok (some r) : Py (Option (Vec 6))) := by
    intro m; cases m <;> rfl
  unfold crossing2With
  simp only [key, last]

theorem machine_mul : Machine.Dode.mul = (Machine.arith .dode).mul := by simp only [Machine.arith]
theorem machine_sub : Machine.Dode.sub = (Machine.arith .dode).sub := by simp only [Machine.arith]
theorem machine_div : Machine.Dode.div = (Machine.arith .dode).div := by simp only [Machine.arith]

theorem twoSegment64_with (F : Float64) (s1 s2 : Simplex 2) : F.intersectionTwoSegment64 s1 s2 =
    if F.segmentsMeetTau s1 s2 then
      (crossing2With (Machine.arith .dode) (Machine.projection3 .dode) s1 s2).map some else .ok none := by
  unfold Float64.intersectionTwoSegment64
  rw [machine_mul, machine_sub, machine_div]
  generalize Machine.arith .dode = A
  generalize Machine.projection3 .dode = P
  exact crossing2_map _ _ _ _ _

theorem twoSegment_with (F : Float64) (s1 s2 : Simplex 2) : F.intersectionTwoSegment s1 s2 =
    if F.segmentsMeetTau s1 s2 then (crossing2With arith projection3 s1 s2).map some else .ok none :=
  crossing2_map _ _ _ _ _

theorem twoSegment64_same (F : Float64) {s1 s2 : Simplex 2} (h : sameCrossing2 s1 s2 = true) :
    F.intersectionTwoSegment64 s1 s2 = F.intersectionTwoSegment s1 s2 := by
  rw [twoSegment64_with, twoSegment_with, of_decide_eq_true h]

theorem segmentEdges64_same (F : Float64) {sg : Simplex 2} {t : Simplex 3}
    (h : ∀ j ∈ combE, sameCrossing2 sg (segmentOf t j) = true) :
    F.intersectionSegmentEdges64 sg t = F.intersectionSegmentEdges sg t := by
  unfold Float64.intersectionSegmentEdges64 Float64.intersectionSegmentEdges
  rw [foldPy_congr fun a j hj => by rw [twoSegment64_same F (h j hj)]]

theorem crossings64_same (F : Float64) {s t : Simplex 3}
    (h : ∀ c ∈ combE, ∀ j ∈ combE, sameCrossing2 (segmentOf s c) (segmentOf t j) = true ∧
      sameCrossing2 (segmentOf t c) (segmentOf s j) = true) :
    F.dodeCrossingPoints64 s t = F.dodeCrossingPoints s t := by
  unfold Float64.dodeCrossingPoints64 Float64.dodeCrossingPoints
  refine foldPy_congr (fun a c hc => ?_) _
  rw [segmentEdges64_same F fun j hj => (h c hc j hj).1, segmentEdges64_same F fun j hj => (h c hc j hj).2]

/-! ## The points collected -/

theorem foldPy_inv {α β : Type} {f : β → α → Py β} {P : β → Prop} {l : List α}
    (h : ∀ b, P b → ∀ x ∈ l, ∀ r, f b x = .ok r → P r) {b r : β} (hb : P b) (hr : foldPy f b l = .ok r) : P r := by
  induction l generalizing b with
  | nil => cases hr; exact hb
  | cons x l ih =>
    unfold foldPy at hr
    cases hx : f b x with
    | error e => rw [hx] at hr; cases hr
    | ok c =>
      rw [hx] at hr
      exact ih (fun b hb y hy => h b hb y (List.mem_cons_of_mem _ hy)) (h b hb x List.mem_cons_self c hx) hr

theorem segmentEdges_mem (F : Float64) {s t : Simplex 3} {c : Fin 3 × Fin 3} (hc : c ∈ combE) {l : List (Vec 6)}
    (h : F.intersectionSegmentEdges (segmentOf s c) t = .ok l) : ∀ v ∈ l, v ∈ lineCrossings s t := by
  unfold Float64.intersectionSegmentEdges at h
  by_cases hm : F.segmentMeetsEdgesTau (segmentOf s c) t = true
  · rw [if_pos hm] at h
    refine foldPy_inv (P := fun l => ∀ v ∈ l, v ∈ lineCrossings s t) ?_ (by simp) h
    intro b hb j hj r hr v hv
    rw [twoSegment_with] at hr
    by_cases hs : F.segmentsMeetTau (segmentOf s c) (segmentOf t j) = true
    · rw [if_pos hs] at hr
      cases hx : crossing2With arith projection3 (segmentOf s c) (segmentOf t j) with
      | error e => rw [hx] at hr; cases hr
      | ok p =>
        rw [hx] at hr
        cases hr
        rcases List.mem_append.1 hv with hv | hv
        · exact hb v hv
        · have : v = p := by simpa using hv
          subst this
          unfold lineCrossings
          refine List.mem_flatMap.2 ⟨c, hc, List.mem_flatMap.2 ⟨j, hj, ?_⟩⟩
          rw [hx]
          exact List.mem_singleton.2 rfl
    · rw [if_neg hs] at hr
      cases hr
      rcases List.mem_append.1 hv with hv | hv
      · exact hb v hv
      · simp at hv
  · rw [if_neg hm] at h
    cases h
    simp

theorem crossings_mem (F : Float64) {s t : Simplex 3} {p : List (Vec 6) × Nat} (h : F.dodeCrossingPoints s t = .ok p) :
    ∀ v ∈ p.1, v ∈ possible s t := by
  have key : ∀ v ∈ p.1, v ∈ lineCrossings s t ++ lineCrossings t s := by
    refine foldPy_inv (P := fun p : List (Vec 6) × Nat => ∀ v ∈ p.1, v ∈ lineCrossings s t ++ lineCrossings t s) ?_ (by simp) h
    intro b hb c hc r hr v hv
    cases h1 : F.intersectionSegmentEdges (segmentOf s c) t with
    | error e => rw [h1, bind_error'] at hr; cases hr
    | ok l1 =>
      rw [h1, bind_ok'] at hr
      simp only at hr
      cases h2 : F.intersectionSegmentEdges (segmentOf t c) s with
      | error e => rw [h2, bind_error'] at hr; cases hr
      | ok l2 =>
        rw [h2, bind_ok'] at hr
        cases hr
        simp only [List.mem_append] at hv ⊢
        rcases hv with (hv | hv) | hv
        · exact List.mem_append.1 (hb v hv)
        · exact .inl (segmentEdges_mem F hc h1 v hv)
        · exact .inr (segmentEdges_mem F hc h2 v hv)
  intro v hv
  refine List.mem_dedup.2 ?_
  have := key v hv
  simp only [List.mem_append] at this ⊢
  exact .inl (.inl this)

/-! ## Areas -/

open Classical in
theorem dodeArea6d_double (F : Float64) (t : Simplex 3) : F.dodeArea6d t =
    doubleWith (Machine.arith .dode) (Machine.projection3 .dode) t >>= fun v =>
      if F.fl (F.fl v.a + F.fl (F.fl v.b * F.SIN)) < 0 then Machine.Dode.mul v ⟨-1, 0, 2⟩ else Machine.Dode.mul v ⟨1, 0, 2⟩ := by
  unfold Float64.dodeArea6d Float64.dodeArea doubleWith
  generalize Machine.arith .dode = A
  generalize Machine.projection3 .dode = P
  generalize Machine.Dode.mul = M
  simp only [bind_assoc, bind_ok']

theorem zeroAlike2_elim {m : Num3 → Num3 → Py Num3} {x y : Py Num3} (h : zeroAlike2 m x y = true) :
    ∃ a b p q, x = .ok a ∧ y = .ok b ∧ m a ⟨-1, 0, 2⟩ = .ok p ∧ m a ⟨1, 0, 2⟩ = .ok q ∧
      (p.a = 0 ∧ p.b = 0 ↔ b.a = 0 ∧ b.b = 0) ∧ (q.a = 0 ∧ q.b = 0 ↔ b.a = 0 ∧ b.b = 0) := by
  unfold zeroAlike2 at h
  split at h
  · rename_i a b
    split at h
    · rename_i p q hp hq
      rw [Bool.and_eq_true, beq_iff_eq, beq_iff_eq] at h
      exact ⟨a, b, p, q, rfl, rfl, hp, hq, decide_eq_decide.1 h.1, decide_eq_decide.1 h.2⟩
    · cases h
  · cases h

open Classical in
/-- Whether a piece is kept does not depend on the integers. -/
theorem keep2_same (F : Float64) {t : Simplex 3} (h : sameZero2 t = true) :
    ∃ v w, F.dodeArea6d t = .ok v ∧ triangleArea6d t = .ok w ∧ (v.a = 0 ∧ v.b = 0 ↔ w.a = 0 ∧ w.b = 0) := by
  obtain ⟨a, b, p, q, h1, h2, h3, h4, h5, h6⟩ := zeroAlike2_elim h
  rw [dodeArea6d_double, h1, bind_ok', h3, h4]
  by_cases hn : F.fl (F.fl a.a + F.fl (F.fl a.b * F.SIN)) < 0
  · exact ⟨p, b, if_pos hn, h2, h5⟩
  · exact ⟨q, b, if_neg hn, h2, h6⟩

theorem mem_triples {l : List (Vec 6)} {t : Simplex 3} (h : ∀ k, t k ∈ l) : t ∈ triples l := by
  have : t = ![t 0, t 1, t 2] := by funext k; fin_cases k <;> rfl
  unfold triples
  simp only [List.mem_flatMap, List.mem_map]
  exact ⟨_, h 0, _, h 1, _, h 2, this.symm⟩

theorem keep64_same (F : Float64) {S pts : List (Vec 6)} (h : (triples S).all sameZero2 = true) (hs : ∀ v ∈ pts, v ∈ S)
    (l : List (Fin 3 → Nat)) : F.dodeKeepSimplices64 pts l = keepSimplices pts l := by
  induction l with
  | nil => rfl
  | cons i l ih =>
    unfold Float64.dodeKeepSimplices64 keepSimplices
    cases hp : pickSimplex pts i with
    | error e => rw [bind_error', bind_error']
    | ok t =>
      obtain ⟨v, w, h1, h2, h3⟩ := keep2_same F (List.all_eq_true.1 h t (mem_triples fun k =>
        hs _ (List.mem_of_getElem? (pickSimplex2_eq_ok.1 hp k))))
      rw [bind_ok', bind_ok', h1, h2, bind_ok', bind_ok', ih]
      simp only [h3]

theorem samePoints2_mono {l m : List (Vec 6)} (h : samePoints2 l = true) (hm : ∀ v ∈ m, v ∈ l) : samePoints2 m = true :=
  List.all_eq_true.2 fun v hv => List.all_eq_true.1 h v (hm v hv)

theorem triangulation64_same (F : Float64) (delaunay : Delaunay2) {S pts : List (Vec 6)} (h : (triples S).all sameZero2 = true)
    (hs : ∀ v ∈ pts, v ∈ S) (hp : samePoints2 pts = true) :
    F.triangulationPoints64 delaunay pts = F.triangulationPoints delaunay pts := by
  have hd : F.delaunayInput2_64 pts = F.delaunayInput2 pts := by
    unfold Float64.delaunayInput2_64 Float64.delaunayInput2
    refine fillList_congr fun v hv => ?_
    rw [of_decide_eq_true (List.all_eq_true.1 hp v hv)]
  have hk := keep64_same F h hs
  unfold Float64.triangulationPoints64 Float64.triangulationPoints
  rw [hd]
  simp only [hk]
  rfl

theorem removePerp64_same {l : List (Vec 6)} (h : samePoints2 l = true) :
    Machine.removeDoublingPerp64 .dode l = removeDoublingPerp .dode l := by
  unfold Machine.removeDoublingPerp64 removeDoublingPerp
  simp only
  rw [fillList_congr (g := Package.dode.projection3) fun v hv => ?_]
  have := List.all_eq_true.1 h v (mem_removeDoubling.1 hv)
  exact of_decide_eq_true this

theorem removePerp_sub {l r : List (Vec 6)} (h : removeDoublingPerp .dode l = .ok r) : ∀ v ∈ r, v ∈ l := by
  unfold removeDoublingPerp at h
  simp only at h
  cases hf : fillList Package.dode.projection3 (removeDoubling l) with
  | error e => rw [hf, bind_error'] at h; cases h
  | ok a =>
    rw [hf, bind_ok'] at h
    cases h
    intro v hv
    obtain ⟨x, hx, rfl⟩ := List.mem_map.1 hv
    exact mem_removeDoubling.1 (List.of_mem_zip (mem_of_mem_uniqueBy hx)).2

/-! ## Two triangles -/

theorem common2_same (F : Float64) (delaunay : Delaunay2) {S pts : List (Vec 6)} (n : Nat) (h : (triples S).all sameZero2 = true)
    (hS : samePoints2 S = true) (hs : ∀ v ∈ pts, v ∈ S) :
    F.triangulateCommon64 delaunay pts n = F.triangulateCommon delaunay pts n := by
  have hp := samePoints2_mono hS hs
  unfold Float64.triangulateCommon64 Float64.triangulateCommon
  rw [removePerp64_same hp]
  by_cases h3 : n ≥ 3
  · rw [if_pos h3, if_pos h3]
    cases hl : removeDoublingPerp .dode pts with
    | error e => rw [bind_error', bind_error']
    | ok l =>
      have hsub := removePerp_sub hl
      rw [bind_ok', bind_ok', triangulation64_same F delaunay h (fun v hv => hs v (hsub v hv)) (samePoints2_mono hp hsub)]
  · rw [if_neg h3, if_neg h3]

theorem triangles64_same (F : Float64) {s t : Simplex 3} (h : samePair2 s t = true) (delaunay : Delaunay2) :
    F.intersectionTwoTriangles64 delaunay s t = F.intersectionTwoTriangles delaunay s t := by
  unfold samePair2 at h
  simp only [Bool.and_eq_true, List.all_eq_true (l := combE)] at h
  obtain ⟨⟨h1, h2⟩, h3⟩ := h
  unfold Float64.intersectionTwoTriangles64 Float64.intersectionTwoTriangles
  rw [crossings64_same F h1]
  cases hc : F.dodeCrossingPoints s t with
  | error e => rw [bind_error', bind_error']
  | ok p =>
    obtain ⟨pts, n⟩ := p
    rw [bind_ok', bind_ok']
    simp only
    have hmem := crossings_mem F hc
    by_cases h0 : n = 0
    · rw [if_pos h0, if_pos h0]
    · rw [if_neg h0, if_neg h0]
      refine common2_same F delaunay _ h3 h2 fun v hv => ?_
      simp only [List.mem_append] at hv
      rcases hv with (hv | hv) | hv
      · exact hmem v hv
      · exact List.mem_dedup.2 (List.mem_append_left _ (List.mem_append_right _ (List.mem_of_mem_filter hv)))
      · exact List.mem_dedup.2 (List.mem_append_right _ (List.mem_of_mem_filter hv))

/-! ## Two objects -/

theorem distance2_same (F : Float64) {v w : Vec 6} (h : sameDistance2 v w = true) :
    F.dodeDistance64 v w = F.dodeDistance v w := by
  have e := of_decide_eq_true h
  have key : ∀ (m m' : Py (Vec 6)) (p p' : Vec 6 → Py (Vec 3)) (f : Vec 3 → Py ℝ), (m >>= p) = (m' >>= p') →
      (m >>= fun a => p a >>= f) = (m' >>= fun a => p' a >>= f) := by
    intro m m' p p' f h
    rw [← bind_assoc, ← bind_assoc, h]
  exact key _ _ _ _ (fun a => .ok (F.norm3 (F.dodeVector a))) e

theorem ballVts2_same (F : Float64) {l : List (Vec 6)} {c : Vec 6} (h : ∀ v ∈ l, sameDistance2 v c = true) :
    F.dodeBallRadiusVts64 l c = F.dodeBallRadiusVts l c := by
  unfold Float64.dodeBallRadiusVts64 Float64.dodeBallRadiusVts
  refine foldPy_congr (fun a v hv => ?_) _
  rw [distance2_same F (h v hv)]

theorem ballList2_same (F : Float64) {l : List (Vec 6)} {c : Vec 6} (hp : samePoints2 l = true)
    (h : ∀ v ∈ l, sameDistance2 v c = true) :
    (Machine.removeDoublingPerp64 .dode l >>= fun r => F.dodeBallRadiusVts64 r c) =
      (removeDoublingPerp .dode l >>= fun r => F.dodeBallRadiusVts r c) := by
  rw [removePerp64_same hp]
  cases hr : removeDoublingPerp .dode l with
  | error e => rw [bind_error', bind_error']
  | ok r => rw [bind_ok', bind_ok', ballVts2_same F fun v hv => h v (removePerp_sub hr v hv)]

/-- The rough check is the same. -/
theorem rough2_same (F : Float64) {a b : Obj 3} (h : sameRough2 a b = true) :
    centroidObj (Machine.arith .dode) b = centroidObj arith b ∧ ∀ c, centroidObj arith b = .ok c →
      F.dodeBallRadiusObj64 b c = F.dodeBallRadiusObj b c ∧ ∀ s ∈ a, ∀ d, F.dodeRoughCheck64 s c d = F.dodeRoughCheck s c d := by
  unfold sameRough2 at h
  simp only [Bool.and_eq_true] at h
  obtain ⟨⟨⟨h1, h2⟩, h3⟩, h45⟩ := h
  refine ⟨of_decide_eq_true h1, fun c hc => ?_⟩
  rw [hc] at h45
  simp only [Bool.and_eq_true, List.all_eq_true, List.forall_mem_ofFn_iff] at h45
  obtain ⟨h4, h5⟩ := h45
  have hmem : ∀ {o : Obj 3} {v}, v ∈ flattenObj o ↔ ∃ s ∈ o, ∃ i, s i = v := by
    intro o v; simp only [flattenObj, List.mem_flatMap, List.mem_ofFn]
  refine ⟨?_, fun s hs d => ?_⟩
  · refine ballList2_same F h2 fun v hv => ?_
    obtain ⟨t, ht, i, rfl⟩ := hmem.1 hv
    exact h4 t ht i
  · have hs5 := h5 s hs
    obtain ⟨h6, h78⟩ := hs5
    unfold Float64.dodeRoughCheck64 Float64.dodeRoughCheck
    rw [of_decide_eq_true h6]
    cases hc' : centroid arith (List.ofFn s) with
    | error e => rw [bind_error', bind_error']
    | ok c' =>
      rw [hc'] at h78
      simp only [Bool.and_eq_true, List.all_eq_true, List.forall_mem_ofFn_iff] at h78
      obtain ⟨h7, h8⟩ := h78
      have hball : F.dodeBallRadius64 s c' = F.dodeBallRadius s c' := by
        refine ballList2_same F (samePoints2_mono h3 fun v hv => ?_) fun v hv => ?_
        · obtain ⟨i, rfl⟩ := List.mem_ofFn.1 hv
          exact hmem.2 ⟨s, hs, i, rfl⟩
        · obtain ⟨i, rfl⟩ := List.mem_ofFn.1 hv
          exact h7 i
      rw [bind_ok', bind_ok', hball, distance2_same F h8]

theorem innerLoop2_congr {flag : Simplex 3 → Simplex 3 → Py Nat} {inter inter' : Simplex 3 → Simplex 3 → Py (Option (Obj 3))}
    {t1 : Simplex 3} {l : Obj 3} (h : ∀ t ∈ l, inter t1 t = inter' t1 t) (acc : Obj 3) :
    innerLoop flag inter t1 acc l = innerLoop flag inter' t1 acc l := by
  induction l generalizing acc with
  | nil => rfl
  | cons t l ih =>
    have ih' := ih fun t ht => h t (List.mem_cons_of_mem _ ht)
    unfold innerLoop
    rw [h t List.mem_cons_self]
    simp only [ih']

/-- What a triangle contributes with machine integers: of kind 'standard' the same as without, of kind 'simple' the same
as of kind 'standard' without, or the triangle itself. -/
theorem onePiece2_transfer (F : Float64) {kind : Ico.Kind} {rough rough' : Simplex 3 → Py Bool}
    {flag : Simplex 3 → Simplex 3 → Py Nat} {inter inter' : Simplex 3 → Simplex 3 → Py (Option (Obj 3))} {obj2 : Obj 3}
    {t1 : Simplex 3} (h0 : rough t1 = rough' t1) (h : ∀ t ∈ obj2, inter t1 t = inter' t1 t) :
    F.dodeOnePiece64 .standard rough flag inter obj2 t1 = onePiece .standard rough' flag inter' obj2 t1 ∧
      ∀ r, F.dodeOnePiece64 kind rough flag inter obj2 t1 = .ok r →
        ∃ r', onePiece .standard rough' flag inter' obj2 t1 = .ok r' ∧ (r = r' ∨ kind = .simple ∧ t1 ∈ r) := by
  have e := innerLoop2_congr (flag := flag) h []
  constructor
  · unfold Float64.dodeOnePiece64 onePiece
    rw [← h0, e]
  intro r hr
  unfold Float64.dodeOnePiece64 at hr
  unfold onePiece
  rw [← h0, ← e]
  cases hro : rough t1 with
  | error e => rw [hro, bind_error'] at hr; cases hr
  | ok b =>
    rw [hro, bind_ok'] at hr
    rw [bind_ok']
    cases b with
    | false => rw [if_neg (by simp)] at hr ⊢; cases hr; exact ⟨_, rfl, .inl rfl⟩
    | true =>
      rw [if_pos rfl] at hr ⊢
      cases hl : innerLoop flag inter t1 [] obj2 with
      | error e => rw [hl, bind_error'] at hr; cases hr
      | ok p =>
        obtain ⟨inside, tmp⟩ := p
        rw [hl, bind_ok'] at hr
        rw [bind_ok']
        simp only at hr ⊢
        by_cases hn : tmp.length ≠ 0
        · rw [if_pos hn] at hr ⊢
          cases kind with
          | standard => exact ⟨_, rfl, .inl (Except.ok.inj hr).symm⟩
          | simple =>
            simp only at hr
            cases h1 : F.dodeArea6d t1 with
            | error e => rw [h1, bind_error'] at hr; cases hr
            | ok v1 =>
              rw [h1, bind_ok'] at hr
              cases h2 : F.objArea6d (.d4 tmp) with
              | error e => rw [h2, bind_error'] at hr; cases hr
              | ok v2 =>
                rw [h2, bind_ok'] at hr
                by_cases he : some v1 = v2
                · rw [if_pos he] at hr
                  cases hr
                  exact ⟨_, rfl, .inr ⟨rfl, by simp⟩⟩
                · rw [if_neg he] at hr
                  exact ⟨_, rfl, .inl (Except.ok.inj hr).symm⟩
        · rw [if_neg hn] at hr ⊢
          exact ⟨_, rfl, .inl (Except.ok.inj hr).symm⟩

end Planar
end PyQC
