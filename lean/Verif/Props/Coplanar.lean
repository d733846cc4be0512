import Verif.Spec.Resolve
import Verif.Lemmas.Grouping
import Verif.Props.Surface
import Mathlib.Analysis.Convex.Segment
import Mathlib.LinearAlgebra.Matrix.DotProduct
/-!
# C28 coplanar groups, C29 merging, C31 point on segment, C49 coplanarity, C55 border edges, C56 joining
-/
namespace PyQC
open Matrix

/-! ## C28 -/

/-- C28: for every verdict of the coplanarity tests, the groups form a partition of the surface: `groups`
lists the positions of the triangles in each group. -/
theorem C28_partition {α : Type} (cop : Nat → Nat → Py Bool) (judged : Nat → Nat → Bool) (surface : List α)
    (h0 : surface ≠ [])
    (hc : ∀ i j, i < surface.length → j < surface.length → cop i j = .ok (judged i j)) :
    ∃ groups : List (List (Fin surface.length)),
      setsOfCoplanar cop surface = .ok (groups.map fun g => g.map surface.get) ∧
      IsGrouping surface.length judged groups :=
  setsOfCoplanar_grouping surface h0 hc

theorem coplanarCheckTwoTriangles_ok (p : Package) (draws : (n : Nat) → Draws n) {s t : Simplex 3}
    (hs : Simplex.Ok s) (ht : Simplex.Ok t) : ∃ b, coplanarCheckTwoTriangles p draws s t = .ok b := by
  unfold coplanarCheckTwoTriangles
  rw [removeDoublingPerp_ok p (by
    intro v hv
    rcases List.mem_append.mp hv with h | h
    · obtain ⟨i, rfl⟩ := List.mem_ofFn.mp h; exact hs i
    · obtain ⟨i, rfl⟩ := List.mem_ofFn.mp h; exact ht i), bind_ok']
  exact ⟨_, rfl⟩

theorem surfaceCop_ok (p : Package) (draws : Nat → Nat → (n : Nat) → Draws n) {surface : Obj 3}
    (ho : Obj.Ok surface) : ∃ judged : Nat → Nat → Bool, ∀ i j, i < surface.length → j < surface.length →
      surfaceCop p draws surface i j = .ok (judged i j) := by
  have : ∀ i j, ∃ b, i < surface.length → j < surface.length → surfaceCop p draws surface i j = .ok b := by
    intro i j
    by_cases hi : i < surface.length
    · by_cases hj : j < surface.length
      · have ei : surface.getD i (fun _ => zeroVec 6) = surface[i] := by simp [List.getD, hi]
        have ej : surface.getD j (fun _ => zeroVec 6) = surface[j] := by simp [List.getD, hj]
        obtain ⟨b, hb⟩ := coplanarCheckTwoTriangles_ok p (draws i j) (ho _ (List.getElem_mem hi))
          (ho _ (List.getElem_mem hj))
        exact ⟨b, fun _ _ => by unfold surfaceCop; rw [ei, ej, hb]⟩
      · exact ⟨true, fun _ h => absurd h hj⟩
    · exact ⟨true, fun h => absurd h hi⟩
  choose f hf using this
  exact ⟨f, hf⟩

/-- C28: with the code's own coplanarity test the function raises nothing and partitions, for every
sequence of random draws. -/
theorem C28_every_draw (p : Package) (draws : Nat → Nat → (n : Nat) → Draws n) (surface : Obj 3)
    (h0 : surface ≠ []) (ho : Obj.Ok surface) :
    ∃ (judged : Nat → Nat → Bool) (groups : List (List (Fin surface.length))),
      (∀ i j : Fin surface.length,
        coplanarCheckTwoTriangles p (draws i j) (surface.get i) (surface.get j) = .ok (judged i j)) ∧
      setsOfCoplanar (surfaceCop p draws surface) surface = .ok (groups.map fun g => g.map surface.get) ∧
      IsGrouping surface.length judged groups := by
  obtain ⟨judged, hj⟩ := surfaceCop_ok p draws ho
  obtain ⟨groups, h1, h2⟩ := C28_partition _ judged surface h0 hj
  refine ⟨judged, groups, fun i j => ?_, h1, h2⟩
  have := hj i j i.2 j.2
  unfold surfaceCop at this
  simpa [List.getD] using this

/-- C28: an empty surface gives one empty group. -/
theorem C28_empty {α : Type} (cop : Nat → Nat → Py Bool) : setsOfCoplanar cop ([] : List α) = .ok [[]] := rfl

example : Obj.Ok [exTri, exTri] ∧ [exTri, exTri] ≠ [] := by decide
/- Four triangles, the first and third coplanar: three groups. -/
example : setsOfCoplanar (fun i j => .ok (decide (i = 2 ∧ j = 0))) ["a", "b", "c", "d"] =
    .ok [["a", "c"], ["b"], ["d"]] := rfl

/-! ## C29 -/

/-- C29: for every pairwise merge test, the loop terminates after `k ≤ n - 1` merges of two present
elements, and ends when no two remaining elements can be merged. -/
theorem C29_terminates {α : Type} (merge : α → α → Py (Option α)) (m : α → α → Option α)
    (hm : ∀ a b, merge a b = .ok (m a b)) (edges : List α) :
    ∃ out k, mergeAll merge edges = .ok out ∧ MergeSteps m edges k out ∧
      out.Pairwise (fun a b => m a b = none) ∧ out.length + k = edges.length ∧
      (edges ≠ [] → k ≤ edges.length - 1) := by
  obtain ⟨out, k, h1, -, h2, h3⟩ := mergeAll_ok (P := fun _ => True) (fun a b _ _ => hm a b)
    (fun _ _ _ _ _ _ => trivial) (edges := edges) (fun _ _ => trivial)
  refine ⟨out, k, h1, h2, h3, h2.length, fun h0 => ?_⟩
  have hl := h2.length
  have hne : out ≠ [] := by
    intro h
    clear h1 h3 hl
    induction h2 with
    | refl => exact h0 h
    | step _ _ ih => exact ih (by simp) h
  have := List.length_pos_iff.mpr hne
  omega

theorem twoSegmentLoop_spec (p : Package) {s t : Simplex 2} (hs : Simplex.Ok s) (ht : Simplex.Ok t)
    (L : List (Fin 2 × Fin 2 × Fin 2 × Fin 2)) :
    ∃ r, twoSegmentLoop p s t L = .ok r ∧
      (∀ e, r = some e → ∃ a b c d, (a, b, c, d) ∈ L ∧ e = ![s b, t d] ∧ p.perp (s a) = p.perp (t c) ∧
        pointOnSegment p (s a) ![s b, t d] = true) ∧
      (r = none → ∀ a b c d, (a, b, c, d) ∈ L → p.perp (s a) = p.perp (t c) →
        pointOnSegment p (s a) ![s b, t d] = false) := by
  induction L with
  | nil => exact ⟨none, rfl, by simp, by simp⟩
  | cons x L ih =>
    obtain ⟨a, b, c, d⟩ := x
    obtain ⟨r, hr, h1, h2⟩ := ih
    obtain ⟨q, hq, hq'⟩ := C25_vertices p (s a) (t c) (hs a) (ht c)
    unfold twoSegmentLoop
    rw [hq, bind_ok']
    by_cases hqt : q = true
    · simp only [hqt, if_true]
      cases hp : pointOnSegment p (s a) ![s b, t d] with
      | true =>
        refine ⟨_, rfl, ?_, by simp⟩
        rintro e he
        injection he with he
        exact ⟨a, b, c, d, by simp, he.symm, hq'.mp hqt, hp⟩
      | false =>
        refine ⟨r, hr, ?_, ?_⟩
        · intro e he
          obtain ⟨a', b', c', d', hm, h⟩ := h1 e he
          exact ⟨a', b', c', d', List.mem_cons_of_mem _ hm, h⟩
        · intro hn a' b' c' d' hm he
          rcases List.mem_cons.mp hm with h | hm
          · cases h; exact hp
          · exact h2 hn a' b' c' d' hm he
    · simp only [hqt]
      refine ⟨r, hr, ?_, ?_⟩
      · intro e he
        obtain ⟨a', b', c', d', hm, h⟩ := h1 e he
        exact ⟨a', b', c', d', List.mem_cons_of_mem _ hm, h⟩
      · intro hn a' b' c' d' hm he
        rcases List.mem_cons.mp hm with h | hm
        · cases h; exact absurd (hq'.mpr he) hqt
        · exact h2 hn a' b' c' d' hm he

/-- Value of `two_segment_into_one`. -/
noncomputable def joinSegments (p : Package) (s t : Simplex 2) : Option (Simplex 2) :=
  match twoSegmentIntoOne p s t with
  | .ok r => r
  | .error _ => none

theorem twoSegmentIntoOne_ok (p : Package) {s t : Simplex 2} (hs : Simplex.Ok s) (ht : Simplex.Ok t) :
    twoSegmentIntoOne p s t = .ok (joinSegments p s t) := by
  obtain ⟨r, hr, -⟩ := twoSegmentLoop_spec p hs ht segCombs
  have hr' : twoSegmentIntoOne p s t = .ok r := hr
  unfold joinSegments
  rw [hr']

theorem joinSegments_ends (p : Package) {s t e : Simplex 2} (hs : Simplex.Ok s) (ht : Simplex.Ok t)
    (h : joinSegments p s t = some e) : ∃ b d, e = ![s b, t d] := by
  obtain ⟨r, hr, h1, -⟩ := twoSegmentLoop_spec p hs ht segCombs
  have hr' : twoSegmentIntoOne p s t = .ok r := hr
  rw [twoSegmentIntoOne_ok p hs ht] at hr'
  obtain ⟨a, b, c, d, -, e', -⟩ := h1 e ((Except.ok.inj hr').symm.trans h)
  exact ⟨b, d, e'⟩

/-- C29: with the code's own merge test, on edges with non-zero denominators: no exception; at the end no
edge can be merged with a later one; every end point left is an end point of an input edge. -/
theorem C29_edges (p : Package) (edges : Obj 2) (ho : Obj.Ok edges) :
    ∃ out, mergeAll (twoSegmentIntoOne p) edges = .ok out ∧ out.length ≤ edges.length ∧
      (edges ≠ [] → out ≠ []) ∧
      out.Pairwise (fun a b => twoSegmentIntoOne p a b = .ok none) ∧
      ∀ e ∈ out, Simplex.Ok e ∧ ∀ i, ∃ f ∈ edges, ∃ j, e i = f j := by
  obtain ⟨out, k, h1, h2, h3, h4⟩ := mergeAll_ok (merge := twoSegmentIntoOne p) (m := joinSegments p)
    (P := fun e => Simplex.Ok e ∧ ∀ i, ∃ f ∈ edges, ∃ j, e i = f j)
    (fun a b ha hb => twoSegmentIntoOne_ok p ha.1 hb.1)
    (fun a b c ha hb hc => by
      obtain ⟨i, j, rfl⟩ := joinSegments_ends p ha.1 hb.1 hc
      constructor
      · intro k; fin_cases k
        · exact ha.1 i
        · exact hb.1 j
      · intro k; fin_cases k
        · exact ha.2 i
        · exact hb.2 j)
    (edges := edges) (fun e he => ⟨ho e he, fun i => ⟨e, he, i, rfl⟩⟩)
  refine ⟨out, h1, by have := h3.length; omega, ?_, ?_, h2⟩
  · intro h0 h
    clear h1 h2 h4
    clear ho
    induction h3 with
    | refl => exact h0 h
    | step _ _ ih => exact ih (by simp) h
  · refine h4.imp_of_mem fun {a b} ha hb h => ?_
    rw [twoSegmentIntoOne_ok p (h2 a ha).1 (h2 b hb).1, h]

example : Obj.Ok [![exTri 0, exTri 1], ![exTri 1, exTri 2]] := by decide
/- Joining intervals of integers: three merges. -/
example : mergeAll (α := Nat × Nat) (fun a b => .ok (if a.2 = b.1 then some (a.1, b.2)
      else if b.2 = a.1 then some (b.1, a.2) else none)) [(0, 1), (5, 6), (1, 2), (2, 5)] = .ok [(0, 6)] := by
  unfold mergeAll
  rw [mergeLoop_some (i := 0) (j := 2) (c := (0, 2)) (by decide), 
    mergeLoop_some (i := 1) (j := 3) (c := (2, 6)) (by decide),
    mergeLoop_some (i := 4) (j := 5) (c := (0, 6)) (by decide), mergeLoop_none (by decide)]
  rfl

/-! ## C55 -/

/-- The end points in perp space of the side of triangle `j.1` opposite to vertex `j.2`. -/
def sideSet (p : Package) (o : Obj 3) (j : Fin o.length × Fin 3) : Set (Fin 3 → ℝ) :=
  {x | ∃ i, i ≠ j.2 ∧ p.perp (o.get j.1 i) = x}

/-- All sides of the triangles, in the order of the code. -/
def sideIdx (n : Nat) : List (Fin n × Fin 3) := (List.finRange n).flatMap fun a => [2, 1, 0].map fun k => (a, k)

theorem mem_sideIdx {n : Nat} (j : Fin n × Fin 3) : j ∈ sideIdx n := by
  obtain ⟨a, k⟩ := j
  refine List.mem_flatMap.mpr ⟨a, List.mem_finRange a, ?_⟩
  fin_cases k <;> simp

theorem nodup_sideIdx (n : Nat) : (sideIdx n).Nodup := by
  unfold sideIdx
  rw [List.nodup_flatMap]
  constructor
  · intro a _; simp
  · refine (List.nodup_finRange n).imp ?_
    intro a b hab
    simp only [Function.onFun, List.disjoint_left, List.mem_map]
    rintro x ⟨k, -, rfl⟩ ⟨l, -, h⟩
    exact hab (Prod.mk.inj h).1.symm

/-- The side as a piece. -/
def side (o : Obj 3) (j : Fin o.length × Fin 3) : Simplex 2 := fun i => o.get j.1 (j.2.succAbove i)

theorem sides_eq (o : Obj 3) : o.flatMap triangleEdges = (sideIdx o.length).map (side o) := by
  have h1 : ∀ a : Fin o.length,
      triangleEdges (o.get a) = ([2, 1, 0].map fun k => (a, k)).map (side o) := by
    intro a
    simp only [triangleEdges, List.map_cons, List.map_nil]
    congr 1
    · funext i; fin_cases i <;> rfl
    congr 1
    · funext i; fin_cases i <;> rfl
    congr 1
    · funext i; fin_cases i <;> rfl
  unfold sideIdx
  rw [List.map_flatMap]
  have h2 : o = (List.finRange o.length).map o.get := by
    rw [← List.ofFn_eq_map, List.ofFn_get]
  conv_lhs => rw [h2]
  rw [List.flatMap_map]
  exact List.flatMap_congr fun a _ => h1 a

theorem range_side (p : Package) (o : Obj 3) (j : Fin o.length × Fin 3) :
    Set.range (p.perps (side o j)) = sideSet p o j := by
  ext x
  simp only [Set.mem_range, sideSet, Set.mem_ofPred_eq]
  constructor
  · rintro ⟨i, rfl⟩
    exact ⟨j.2.succAbove i, Fin.succAbove_ne _ _, rfl⟩
  · rintro ⟨i, hi, rfl⟩
    obtain ⟨k, hk⟩ := Fin.exists_succAbove_eq hi
    exact ⟨k, by show p.perp (o.get j.1 (j.2.succAbove k)) = _; rw [hk]⟩

theorem side_injective (p : Package) {o : Obj 3} (hd : ∀ t ∈ o, Function.Injective (p.perps t))
    (j : Fin o.length × Fin 3) : Function.Injective (p.perps (side o j)) := by
  intro a b h
  exact Fin.succAbove_right_injective (hd _ (List.get_mem o j.1) h)

open Classical in
theorem countEqual_ok (p : Package) {e : Simplex 2} (he : Simplex.Ok e)
    (de : Function.Injective (p.perps e)) (l : Obj 2) (hl : Obj.Ok l)
    (dl : ∀ f ∈ l, Function.Injective (p.perps f)) (c : Nat) (hc : c < 2) :
    countEqual p e c l =
      .ok (min 2 (c + l.countP fun f => decide (Set.range (p.perps e) = Set.range (p.perps f)))) := by
  induction l generalizing c with
  | nil => unfold countEqual; simp; omega
  | cons f l ih =>
    obtain ⟨b, hb, hb'⟩ := C25_edges p e f he (hl f (by simp)) de (dl f (by simp))
    have ih' := fun c hc => ih (fun g hg => hl g (List.mem_cons_of_mem _ hg))
      (fun g hg => dl g (List.mem_cons_of_mem _ hg)) c hc
    unfold countEqual
    rw [hb, bind_ok', List.countP_cons]
    by_cases h : Set.range (p.perps e) = Set.range (p.perps f)
    · rw [if_pos (hb'.mpr h)]
      simp only [h, decide_true, if_true]
      rw [h] at ih'
      by_cases h2 : c + 1 = 2
      · rw [if_pos h2]
        congr 1
        omega
      · rw [if_neg h2, ih' _ (by omega)]
        congr 2
        omega
    · rw [if_neg (fun hh => h (hb'.mp hh)), ih' c hc]
      simp only [h, decide_false, Bool.false_eq_true, if_false, add_zero]

open Classical in
/-- Counting and selecting, for any list of sides. -/
theorem borderCount_ok (p : Package) {o : Obj 3} (ho : Obj.Ok o)
    (hd : ∀ t ∈ o, Function.Injective (p.perps t)) {U : Obj 2} (hU : ∀ e ∈ U, e ∈ o.flatMap triangleEdges) :
    (fillList (fun e => countEqual p e 0 (o.flatMap triangleEdges)) U >>= fun counts : List Nat =>
      (.ok ((U.zip counts).filterMap fun x => if x.2 = 1 then some x.1 else none) : Py (Obj 2))) =
    .ok (U.filter fun e => decide (∃! j, sideSet p o j = Set.range (p.perps e))) := by
  have hmem : ∀ e ∈ U, ∃ j, e = side o j := by
    intro e he
    have := hU e he
    rw [sides_eq] at this
    obtain ⟨j, -, rfl⟩ := List.mem_map.mp this
    exact ⟨j, rfl⟩
  have hcount : ∀ e ∈ U, countEqual p e 0 (o.flatMap triangleEdges) = .ok (min 2
        ((sideIdx o.length).countP fun j => decide (sideSet p o j = Set.range (p.perps e)))) := by
    intro e he
    obtain ⟨j, rfl⟩ := hmem e he
    rw [countEqual_ok p (ok_triangleEdges ho _ (hU _ he)) (side_injective p hd j) _
      (ok_triangleEdges ho) (by
        intro f hf
        rw [sides_eq] at hf
        obtain ⟨k, -, rfl⟩ := List.mem_map.mp hf
        exact side_injective p hd k) 0 (by norm_num), sides_eq, List.countP_map]
    congr 2
    rw [zero_add]
    refine List.countP_congr fun k _ => ?_
    simp only [Function.comp, decide_eq_true_iff]
    rw [range_side p o k]
    exact eq_comm
  rw [fillList_ok hcount, bind_ok']
  congr 1
  have : ∀ (U : Obj 2) (g : Simplex 2 → Nat), ((U.zip (U.map g)).filterMap fun x =>
      if x.2 = 1 then some x.1 else none) = U.filter fun e => decide (g e = 1) := by
    intro U g
    induction U with
    | nil => rfl
    | cons u U ih =>
      rw [List.map_cons, List.zip_cons_cons, List.filterMap_cons, List.filter_cons, ih]
      by_cases h : g u = 1 <;> simp [h]
  rw [this]
  refine List.filter_congr fun e _ => ?_
  rw [decide_eq_decide]
  have hnd := nodup_sideIdx o.length
  rw [show (min 2 ((sideIdx o.length).countP fun j => decide (sideSet p o j = Set.range (p.perps e))) = 1) ↔
    ((sideIdx o.length).countP fun j => decide (sideSet p o j = Set.range (p.perps e))) = 1 by omega,
    List.countP_eq_length_filter, List.length_eq_one_iff]
  constructor
  · rintro ⟨a, ha⟩
    have hmem : ∀ j, sideSet p o j = Set.range (p.perps e) ↔ j = a := by
      intro j
      rw [← List.mem_singleton (a := j) (b := a), ← ha, List.mem_filter]
      simp [mem_sideIdx]
    exact ⟨a, (hmem a).mpr rfl, fun y hy => (hmem y).mp hy⟩
  · rintro ⟨a, ha, hu⟩
    have hperm : ((sideIdx o.length).filter fun j => decide (sideSet p o j = Set.range (p.perps e))).Perm [a] := by
      rw [List.perm_ext_iff_of_nodup (hnd.filter _) (by simp)]
      intro j
      simp only [List.mem_filter, mem_sideIdx, true_and, decide_eq_true_iff, List.mem_singleton]
      exact ⟨fun h => hu j h, fun h => h ▸ ha⟩
    exact ⟨a, List.perm_singleton.mp hperm⟩

open Classical in
theorem borderEdges_ok (p : Package) {o : Obj 3} (ho : Obj.Ok o)
    (hd : ∀ t ∈ o, Function.Injective (p.perps t)) :
    borderEdges p o = .ok ((uniqueBy (fun s => List.ofFn (p.centroidPerp s)) (o.flatMap triangleEdges)).filter
      fun e => decide (∃! j, sideSet p o j = Set.range (p.perps e))) := by
  unfold borderEdges generatorUniqueEdges
  simp only []
  rw [uniqueByCentroid_ok p (by norm_num) (ok_triangleEdges ho), bind_ok']
  exact borderCount_ok p ho hd fun e he => mem_of_mem_uniqueBy he

/-- C55: every border edge returned is a side of one of the triangles and of no other, and no two of them
have the same midpoint. -/
theorem C55_sound (p : Package) (o : Obj 3) (ho : Obj.Ok o) (hd : ∀ t ∈ o, Function.Injective (p.perps t)) :
    ∃ out, borderEdges p o = .ok out ∧
      (∀ e ∈ out, (∃ t ∈ o, ∃ i j, i < j ∧ e = edge t i j) ∧
        ∃! j, sideSet p o j = Set.range (p.perps e)) ∧
      out.Pairwise fun e f => p.centroidPerp e ≠ p.centroidPerp f := by
  classical
  refine ⟨_, borderEdges_ok p ho hd, ?_, ?_⟩
  · intro e he
    obtain ⟨h1, h2⟩ := List.mem_filter.mp he
    obtain ⟨E, hE, -, hm⟩ := C27_all_triangle p o
    have e' : E = o.flatMap triangleEdges := (Option.some_injective _ hE).symm
    exact ⟨(hm e).mp (e' ▸ mem_of_mem_uniqueBy h1), by simpa using h2⟩
  · exact (List.Pairwise.filter _ (uniqueBy_sorted _)).imp fun h e => absurd h (by rw [e]; exact lt_irrefl _)

/-- C55: if sides with the same midpoint have the same end points, every side that belongs to one triangle
only is returned, so the result is exactly the border. -/
theorem C55_border (p : Package) (o : Obj 3) (ho : Obj.Ok o) (hd : ∀ t ∈ o, Function.Injective (p.perps t))
    (hmid : ∀ i j, p.centroidPerp (side o i) = p.centroidPerp (side o j) → sideSet p o i = sideSet p o j) :
    ∃ out, borderEdges p o = .ok out ∧
      ∀ e, e ∈ out ↔ ∃ j, e = side o j ∧ ∀ k, sideSet p o k = sideSet p o j → k = j := by
  classical
  refine ⟨_, borderEdges_ok p ho hd, fun e => ?_⟩
  rw [List.mem_filter, decide_eq_true_iff]
  constructor
  · rintro ⟨h1, h2⟩
    have := mem_of_mem_uniqueBy h1
    rw [sides_eq] at this
    obtain ⟨j, -, rfl⟩ := List.mem_map.mp this
    rw [range_side] at h2
    exact ⟨j, rfl, fun k hk => h2.unique hk rfl⟩
  · rintro ⟨j, rfl, hj⟩
    rw [range_side]
    refine ⟨?_, j, rfl, hj⟩
    obtain ⟨f, hf, e⟩ := exists_uniqueBy (key := fun s => List.ofFn (p.centroidPerp s))
      (l := o.flatMap triangleEdges) (x := side o j) (by rw [sides_eq]; exact List.mem_map.mpr ⟨j, mem_sideIdx j, rfl⟩)
    have := mem_of_mem_uniqueBy hf
    rw [sides_eq] at this
    obtain ⟨k, -, rfl⟩ := List.mem_map.mp this
    have hk := hj k (hmid k j (List.ofFn_injective e))
    rw [hk] at hf
    exact hf

/-- Two triangles sharing an edge. -/
def exQuad : Obj 3 := [![zeroVec 6, unit6 0 1 1, unit6 1 1 1], ![unit6 0 1 1, unit6 2 1 1, unit6 1 1 1]]

/- The hypotheses of `C55_border` hold for them; the shared side occurs at two positions. -/
example : Obj.Ok exQuad ∧ (∀ t ∈ exQuad, Function.Injective (Package.ico.perps t)) ∧
    (∀ i j, Package.ico.centroidPerp (side exQuad i) = Package.ico.centroidPerp (side exQuad j) →
      sideSet .ico exQuad i = sideSet .ico exQuad j) := by
  have hok : Obj.Ok exQuad := by decide
  have hs : ∀ j, Simplex.Ok (side exQuad j) := fun j i => hok _ (List.get_mem _ _) _
  refine ⟨hok, ?_, ?_⟩
  · intro t ht
    refine perps_injective .ico (hok t ht) ?_
    revert t
    decide +kernel
  · intro i j h
    rw [centroidPerp_eq_iff .ico (by norm_num) (by norm_num) (hs i) (hs j)] at h
    have key : ∀ i j : Fin exQuad.length × Fin 3,
        (do let r ← centroid Package.ico.arith (List.ofFn (side exQuad i)); Package.ico.projection3 r) =
          (do let r ← centroid Package.ico.arith (List.ofFn (side exQuad j)); Package.ico.projection3 r) →
        ∀ a, a ≠ i.2 → ∃ b, b ≠ j.2 ∧ Package.ico.projection3 (exQuad.get j.1 b) =
          Package.ico.projection3 (exQuad.get i.1 a) := by decide +kernel
    have sub : ∀ i j : Fin exQuad.length × Fin 3,
        (do let r ← centroid Package.ico.arith (List.ofFn (side exQuad i)); Package.ico.projection3 r) =
          (do let r ← centroid Package.ico.arith (List.ofFn (side exQuad j)); Package.ico.projection3 r) →
        sideSet .ico exQuad i ⊆ sideSet .ico exQuad j := by
      rintro i j h x ⟨a, ha, rfl⟩
      obtain ⟨b, hb, e⟩ := key i j h a ha
      rw [Package.ico.projection3_ok (hok _ (List.get_mem _ _) _),
        Package.ico.projection3_ok (hok _ (List.get_mem _ _) _)] at e
      exact ⟨b, hb, Package.ico.kperp_eq_iff.mp (nvec_inj.mp (Except.ok.inj e))⟩
    exact Set.Subset.antisymm (sub i j h) (sub j i h.symm)

/-- C55: a triangle listed twice has no border; `surface_cleaner` then raises ValueError. -/
theorem C55_empty_border (p : Package) (t : Simplex 3) (ht : Simplex.Ok t)
    (hd : Function.Injective (p.perps t)) (cop : Nat → Nat → Py Bool) (hc : cop 1 0 = .ok true) :
    borderEdges p [t, t] = .ok [] ∧ surfaceCleaner p cop [t, t] = .error .valueError := by
  have h1 : borderEdges p [t, t] = .ok [] := by
    obtain ⟨out, h, h2, -⟩ := C55_sound p [t, t] (by
      intro s hs
      have : s = t := by simpa using hs
      rw [this]; exact ht) (by
      intro s hs
      have : s = t := by simpa using hs
      rw [this]; exact hd)
    rw [h]
    congr 1
    rw [List.eq_nil_iff_forall_not_mem]
    intro e he
    obtain ⟨⟨a, k⟩, hj, hu⟩ := (h2 e he).2
    have hget : ∀ b : Fin [t, t].length, [t, t].get b = t := by
      intro b
      have := List.get_mem [t, t] b
      generalize [t, t].get b = u at this ⊢
      simpa using this
    have e0 : ∀ b, sideSet p [t, t] (b, k) = sideSet p [t, t] (a, k) := by
      intro b
      simp only [sideSet, hget]
    have h0 := hu (0, k) ((e0 0).trans hj)
    have h1 := hu (1, k) ((e0 1).trans hj)
    exact absurd (congrArg Fin.val (Prod.mk.inj (h0.trans h1.symm)).1) (by simp)
  refine ⟨h1, ?_⟩
  have h2 : setsOfCoplanar cop [t, t] = .ok [[t, t]] := by
    unfold setsOfCoplanar
    simp only [List.length_cons, List.length_nil]
    show (foldPy (groupStep cop) ([0], [0]) [1] >>= _) = _
    simp only [foldPy, groupStep, findLeader, hc, bind_ok']
    rfl
  unfold surfaceCleaner
  rw [h2, bind_ok']
  simp only [fillList, h1]
  rfl

/-- C29: the whole `surface_cleaner`. On surfaces with non-zero denominators and triangles with distinct
perp vertices, for every verdict of the coplanarity tests, it either raises ValueError, exactly when some
group of coplanar triangles has no border edge, or returns edges of which no one can be merged with a later
one and whose end points are vertices of the surface. -/
theorem C29_surface_cleaner (p : Package) (cop : Nat → Nat → Py Bool) (judged : Nat → Nat → Bool)
    (surface : Obj 3) (h0 : surface ≠ [])
    (hc : ∀ i j, i < surface.length → j < surface.length → cop i j = .ok (judged i j))
    (ho : Obj.Ok surface) (hd : ∀ t ∈ surface, Function.Injective (p.perps t)) :
    (surfaceCleaner p cop surface = .error .valueError ∧
      ∃ g, (∃ groups, setsOfCoplanar cop surface = .ok groups ∧ g ∈ groups) ∧ borderEdges p g = .ok []) ∨
    ∃ out, surfaceCleaner p cop surface = .ok out ∧ out ≠ [] ∧
      out.Pairwise (fun a b => twoSegmentIntoOne p a b = .ok none) ∧
      ∀ e ∈ out, ∀ i, ∃ t ∈ surface, ∃ j, e i = t j := by
  classical
  obtain ⟨groups, hg, hgrp⟩ := C28_partition cop judged surface h0 hc
  have hG : groups.map (fun g => g.map surface.get) ≠ [] := by
    intro h
    have h1 := hgrp.partition.length_eq
    rw [List.map_eq_nil_iff.mp h, List.length_finRange] at h1
    exact h0 (List.length_eq_zero_iff.mp h1.symm)
  have hmem : ∀ g ∈ groups.map fun g => g.map surface.get, ∀ t ∈ g, t ∈ surface := by
    intro g hg t ht
    obtain ⟨l, -, rfl⟩ := List.mem_map.mp hg
    obtain ⟨i, -, rfl⟩ := List.mem_map.mp ht
    exact List.get_mem _ _
  generalize groups.map (fun g => g.map surface.get) = G at hg hmem hG
  have hb : ∀ g ∈ G, borderEdges p g = .ok ((uniqueBy (fun s => List.ofFn (p.centroidPerp s))
      (g.flatMap triangleEdges)).filter fun e => decide (∃! j, sideSet p g j = Set.range (p.perps e))) :=
    fun g hg => borderEdges_ok p (fun t ht => ho t (hmem g hg t ht)) (fun t ht => hd t (hmem g hg t ht))
  have hfill := fillList_ok hb
  unfold surfaceCleaner
  rw [hg, bind_ok', hfill, bind_ok']
  generalize hB : G.map (fun g => (uniqueBy (fun s => List.ofFn (p.centroidPerp s))
      (g.flatMap triangleEdges)).filter fun e => decide (∃! j, sideSet p g j = Set.range (p.perps e))) = B
  by_cases hany : B.any List.isEmpty = true
  · refine .inl ⟨by rw [if_pos hany], ?_⟩
    obtain ⟨b, hbB, he⟩ := List.any_eq_true.mp hany
    rw [← hB] at hbB
    obtain ⟨g, hgG, rfl⟩ := List.mem_map.mp hbB
    exact ⟨g, ⟨G, rfl, hgG⟩, by rw [hb g hgG, List.isEmpty_iff.mp he]⟩
  · right
    rw [if_neg hany]
    have hB' : ∀ e ∈ B.flatten, ∃ t ∈ surface, ∃ i j, e = edge t i j := by
      intro e he
      obtain ⟨b, hbB, he⟩ := List.mem_flatten.mp he
      rw [← hB] at hbB
      obtain ⟨g, hgG, rfl⟩ := List.mem_map.mp hbB
      have := mem_of_mem_uniqueBy (List.mem_filter.mp he).1
      obtain ⟨E, hE, -, hm⟩ := C27_all_triangle p g
      have e' : E = g.flatMap triangleEdges := (Option.some_injective _ hE).symm
      obtain ⟨t, ht, i, j, -, h⟩ := (hm e).mp (e' ▸ this)
      exact ⟨t, hmem g hgG t ht, i, j, h⟩
    have hBok : Obj.Ok B.flatten := by
      intro e he
      obtain ⟨t, ht, i, j, rfl⟩ := hB' e he
      intro k; fin_cases k <;> exact ho t ht _
    obtain ⟨r, hr, h1, -, h3⟩ := C27_unique_edges_edges p B.flatten hBok
    obtain ⟨out, h4, -, h5, h6, h7⟩ := C29_edges p r (fun e he => hBok e (h1 e he))
    refine ⟨out, ?_, h5 ?_, h6, ?_⟩
    · rw [hr, bind_ok', h4]
    · intro hnil
      obtain ⟨g, hgG⟩ := List.exists_mem_of_ne_nil _ hG
      have hbB := List.mem_map_of_mem (f := fun g => (uniqueBy (fun s => List.ofFn (p.centroidPerp s))
        (g.flatMap triangleEdges)).filter fun e => decide (∃! j, sideSet p g j = Set.range (p.perps e))) hgG
      rw [hB] at hbB
      obtain ⟨e, he⟩ := List.exists_mem_of_ne_nil _ (fun h => hany (List.any_eq_true.mpr ⟨_, hbB,
        List.isEmpty_iff.mpr h⟩))
      obtain ⟨f, ⟨hf, -⟩, -⟩ := h3 e (List.mem_flatten.mpr ⟨_, hbB, he⟩)
      rw [hnil] at hf
      exact absurd hf List.not_mem_nil
    · intro e he i
      obtain ⟨f, hf, j, ej⟩ := (h7 e he).2 i
      obtain ⟨t, ht, a, b, rfl⟩ := hB' f (h1 f hf)
      rw [ej]
      fin_cases j
      · exact ⟨t, ht, a, rfl⟩
      · exact ⟨t, ht, b, rfl⟩

/-! ## C31 -/

theorem dot_self_nonneg (v : Fin 3 → ℝ) : 0 ≤ v ⬝ᵥ v := by
  rw [dotProduct, Fin.sum_univ_three]
  nlinarith [mul_self_nonneg (v 0), mul_self_nonneg (v 1), mul_self_nonneg (v 2)]

theorem norm3_nonneg (v : Fin 3 → ℝ) : 0 ≤ norm3 v := Real.sqrt_nonneg _

theorem norm3_sq (v : Fin 3 → ℝ) : norm3 v * norm3 v = v ⬝ᵥ v := Real.mul_self_sqrt (dot_self_nonneg v)

theorem norm3_smul {s : ℝ} (hs : 0 ≤ s) (v : Fin 3 → ℝ) : norm3 (s • v) = s * norm3 v := by
  unfold norm3
  rw [smul_dotProduct, dotProduct_smul, smul_eq_mul, smul_eq_mul, ← mul_assoc, Real.sqrt_mul (mul_self_nonneg s),
    Real.sqrt_mul_self hs]

theorem norm3_pos {v : Fin 3 → ℝ} (h : v ≠ 0) : 0 < norm3 v := by
  refine Real.sqrt_pos.mpr (lt_of_le_of_ne (dot_self_nonneg v) fun h0 => h ?_)
  exact dotProduct_self_eq_zero.mp h0.symm

theorem dot_sq_le (u v : Fin 3 → ℝ) : (u ⬝ᵥ v) * (u ⬝ᵥ v) ≤ (u ⬝ᵥ u) * (v ⬝ᵥ v) := by
  simp only [dotProduct, Fin.sum_univ_three]
  nlinarith [sq_nonneg (u 0 * v 1 - u 1 * v 0), sq_nonneg (u 0 * v 2 - u 2 * v 0),
    sq_nonneg (u 1 * v 2 - u 2 * v 1)]

theorem dot_le_norm3 (u v : Fin 3 → ℝ) : u ⬝ᵥ v ≤ norm3 u * norm3 v := by
  refine le_of_sq_le_sq ?_ (mul_nonneg (norm3_nonneg u) (norm3_nonneg v))
  have := dot_sq_le u v
  rw [← norm3_sq u, ← norm3_sq v] at this
  nlinarith

theorem pointOnSegmentNumerical_iff {P A B : Fin 3 → ℝ} : pointOnSegmentNumerical P A B = true ↔
    A ≠ B ∧ |(P - A) ⬝ᵥ (B - A) - norm3 (P - A) * norm3 (B - A)| < EPS ∧ norm3 (P - A) ≤ norm3 (B - A) := by
  unfold pointOnSegmentNumerical
  simp only []
  by_cases hAB : A = B
  · subst hAB
    rw [if_neg]
    · simp
    · rw [sub_self]; rintro ⟨h, -⟩
      rw [norm3, dotProduct_zero, Real.sqrt_zero] at h
      exact lt_irrefl _ h
  · have hpos : 0 < norm3 (B - A) := norm3_pos (sub_ne_zero.mpr (Ne.symm hAB))
    by_cases h1 : |(P - A) ⬝ᵥ (B - A) - norm3 (P - A) * norm3 (B - A)| < EPS
    · rw [if_pos ⟨hpos, h1⟩]
      have h0 : 0 ≤ norm3 (P - A) / norm3 (B - A) := div_nonneg (norm3_nonneg _) hpos.le
      by_cases h2 : norm3 (P - A) ≤ norm3 (B - A)
      · rw [if_pos ⟨h0, (div_le_one hpos).mpr h2⟩]
        exact ⟨fun _ => ⟨hAB, h1, h2⟩, fun _ => rfl⟩
      · rw [if_neg (fun h => h2 ((div_le_one hpos).mp h.2))]
        exact ⟨fun h => absurd h (by simp), fun h => absurd h.2.2 h2⟩
    · rw [if_neg (fun h => h1 h.2)]
      exact ⟨fun h => absurd h (by simp), fun h => absurd h.2.1 h1⟩

/-- The exact test, with tolerance zero, is membership in the segment. -/
theorem C31_exact (P A B : Fin 3 → ℝ) (hAB : A ≠ B) :
    (P - A) ⬝ᵥ (B - A) = norm3 (P - A) * norm3 (B - A) ∧ norm3 (P - A) ≤ norm3 (B - A) ↔
      P ∈ segment ℝ A B := by
  have hpos : 0 < norm3 (B - A) := norm3_pos (sub_ne_zero.mpr (Ne.symm hAB))
  rw [segment_eq_image', Set.mem_image]
  constructor
  · rintro ⟨h1, h2⟩
    refine ⟨norm3 (P - A) / norm3 (B - A), ⟨div_nonneg (norm3_nonneg _) hpos.le, (div_le_one hpos).mpr h2⟩, ?_⟩
    have hz : (P - A) - (norm3 (P - A) / norm3 (B - A)) • (B - A) = 0 := by
      rw [← dotProduct_self_eq_zero]
      have e1 := norm3_sq (P - A)
      have e2 := norm3_sq (B - A)
      clear h2
      generalize P - A = u at *
      generalize B - A = v at *
      rw [sub_dotProduct, dotProduct_sub, dotProduct_sub, smul_dotProduct, smul_dotProduct, dotProduct_smul,
        dotProduct_smul, dotProduct_comm v u, h1, ← e1, ← e2]
      simp only [smul_eq_mul]
      have := hpos.ne'
      field_simp
      ring
    rw [← sub_eq_zero.mp hz]
    abel
  · rintro ⟨s, ⟨h0, h1⟩, rfl⟩
    have e : A + s • (B - A) - A = s • (B - A) := by abel
    rw [e, norm3_smul h0, smul_dotProduct, ← norm3_sq, smul_eq_mul, mul_assoc]
    exact ⟨rfl, mul_le_of_le_one_left hpos.le h1⟩

/-- C31: every perp point of a non-degenerate segment is accepted. -/
theorem C31_complete (p : Package) (point : Vec 6) (ln : Simplex 2) (hne : p.perp (ln 0) ≠ p.perp (ln 1))
    (h : p.perp point ∈ segment ℝ (p.perp (ln 0)) (p.perp (ln 1))) : pointOnSegment p point ln = true := by
  unfold pointOnSegment
  simp only [p.internalNumerical_eq]
  obtain ⟨h1, h2⟩ := (C31_exact _ _ _ hne).mpr h
  exact pointOnSegmentNumerical_iff.mpr ⟨hne, by rw [h1, sub_self, abs_zero]; norm_num [EPS], h2⟩

/-- C31: every accepted point is within √(2·10⁻⁶) of the segment, and not farther from the first end than
the second end is. -/
theorem C31_sound (p : Package) (point : Vec 6) (ln : Simplex 2) (h : pointOnSegment p point ln = true) :
    p.perp (ln 0) ≠ p.perp (ln 1) ∧
      norm3 (p.perp point - p.perp (ln 0)) ≤ norm3 (p.perp (ln 1) - p.perp (ln 0)) ∧
      ∃ Q ∈ segment ℝ (p.perp (ln 0)) (p.perp (ln 1)), norm3 (p.perp point - Q) ^ 2 < 2 / 10 ^ 6 := by
  unfold pointOnSegment at h
  simp only [p.internalNumerical_eq] at h
  generalize p.perp point = P at h ⊢
  generalize p.perp (ln 0) = A at h ⊢
  generalize p.perp (ln 1) = B at h ⊢
  obtain ⟨hAB, h1, h2⟩ := pointOnSegmentNumerical_iff.mp h
  refine ⟨hAB, h2, ?_⟩
  have hl : 0 < norm3 (B - A) := norm3_pos (sub_ne_zero.mpr (Ne.symm hAB))
  have hx := norm3_nonneg (P - A)
  have ex := norm3_sq (P - A)
  have el := norm3_sq (B - A)
  have hcs := dot_le_norm3 (P - A) (B - A)
  have hE : (EPS : ℝ) = 1 / 10 ^ 6 := by norm_num [EPS]
  rw [abs_lt, hE] at h1
  generalize hd : (P - A) ⬝ᵥ (B - A) = d at h1 hcs
  generalize norm3 (P - A) = x at *
  generalize norm3 (B - A) = l at *
  by_cases hd0 : 0 ≤ d
  · refine ⟨A + (d / (l * l)) • (B - A), ?_, ?_⟩
    · rw [segment_eq_image']
      refine ⟨d / (l * l), ⟨by positivity, ?_⟩, rfl⟩
      rw [div_le_one (by positivity)]
      nlinarith
    · have e : P - (A + (d / (l * l)) • (B - A)) = (P - A) - (d / (l * l)) • (B - A) := by abel
      rw [e, pow_two, norm3_sq]
      have e2 : ((P - A) - (d / (l * l)) • (B - A)) ⬝ᵥ ((P - A) - (d / (l * l)) • (B - A)) =
          x * x - d * d / (l * l) := by
        generalize P - A = u at *
        generalize B - A = v at *
        rw [sub_dotProduct, dotProduct_sub, dotProduct_sub, smul_dotProduct, smul_dotProduct, dotProduct_smul,
          dotProduct_smul, dotProduct_comm v u, hd, ← ex, ← el]
        simp only [smul_eq_mul]
        field_simp
        ring
      rw [e2, sub_lt_iff_lt_add, ← sub_lt_iff_lt_add', lt_div_iff₀ (by positivity)]
      have hxl : x * l ≤ l * l := by nlinarith
      have h0 : 0 ≤ x * l := by positivity
      have hll : 0 < l * l := by positivity
      rcases (add_nonneg h0 hd0).eq_or_lt with h3 | h3
      · have : d = 0 := by linarith
        have h4 : x * l = 0 := by linarith
        have : x * x * (l * l) = 0 := by linear_combination (x * l) * h4
        nlinarith
      · have := mul_lt_mul_of_pos_right (show x * l - d < 1 / 10 ^ 6 by linarith [h1.1]) h3
        nlinarith
  · refine ⟨A, left_mem_segment ℝ A B, ?_⟩
    rw [pow_two, norm3_sq, ← ex]
    nlinarith

/-- C31: a segment of length zero in perp space accepts no point, not even its own end. -/
theorem C31_degenerate (p : Package) (point : Vec 6) (ln : Simplex 2) (h : p.perp (ln 0) = p.perp (ln 1)) :
    pointOnSegment p point ln = false := by
  rw [← Bool.not_eq_true]
  intro h1
  exact (C31_sound p point ln h1).1 h

theorem perp_zero (p : Package) : p.perp (zeroVec 6) = 0 := by
  unfold Package.perp
  rw [show Vec.val p.theta (zeroVec 6) = 0 from by funext i; simp [Vec.val, zeroVec, Num3.val]]
  exact Matrix.mulVec_zero _

theorem perp_unit6_neg (p : Package) (k : Fin 6) (a : Int) : p.perp (unit6 k (-a) 1) = -p.perp (unit6 k a 1) := by
  unfold Package.perp
  rw [show Vec.val p.theta (unit6 k (-a) 1) = -Vec.val p.theta (unit6 k a 1) from by
    funext i
    simp only [Vec.val, unit6, Num3.val, Pi.neg_apply]
    split <;> simp]
  exact Matrix.mulVec_neg _ _

/- The origin lies on the segment from e₁ to -e₁. -/
example : Package.ico.perp ((![unit6 0 1 1, unit6 0 (-1) 1] : Simplex 2) 0) ≠
      Package.ico.perp ((![unit6 0 1 1, unit6 0 (-1) 1] : Simplex 2) 1) ∧
    Package.ico.perp (zeroVec 6) ∈ segment ℝ (Package.ico.perp ((![unit6 0 1 1, unit6 0 (-1) 1] : Simplex 2) 0))
      (Package.ico.perp ((![unit6 0 1 1, unit6 0 (-1) 1] : Simplex 2) 1)) := by
  constructor
  · exact fun h => absurd (perps_injective .ico (s := ![unit6 0 1 1, unit6 0 (-1) 1]) (by decide)
      (by decide +kernel) (a₁ := 0) (a₂ := 1) h) (by decide)
  · refine ⟨1 / 2, 1 / 2, by norm_num, by norm_num, by norm_num, ?_⟩
    show (1 / 2 : ℝ) • Package.ico.perp (unit6 0 1 1) + (1 / 2 : ℝ) • Package.ico.perp (unit6 0 (-1) 1) = _
    rw [perp_unit6_neg, perp_zero]
    simp

/-! ## C56 -/

/-- C56: `two_segment_into_one` never raises on segments with non-zero denominators. A result joins the
other ends of two segments that share an end in perp space, and that shared end lies on it within
√(2·10⁻⁶). -/
theorem C56_sound (p : Package) (s t : Simplex 2) (hs : Simplex.Ok s) (ht : Simplex.Ok t) :
    ∃ r, twoSegmentIntoOne p s t = .ok r ∧ ∀ e, r = some e →
      ∃ i j : Fin 2, e = ![s (1 - i), t (1 - j)] ∧ p.perp (s i) = p.perp (t j) ∧
        p.perp (e 0) ≠ p.perp (e 1) ∧
        ∃ Q ∈ segment ℝ (p.perp (e 0)) (p.perp (e 1)), norm3 (p.perp (s i) - Q) ^ 2 < 2 / 10 ^ 6 := by
  obtain ⟨r, hr, h1, -⟩ := twoSegmentLoop_spec p hs ht segCombs
  refine ⟨r, hr, fun e he => ?_⟩
  obtain ⟨a, b, c, d, hm, rfl, h2, h3⟩ := h1 e he
  obtain ⟨h4, -, h5⟩ := C31_sound p (s a) ![s b, t d] h3
  have hab : b = 1 - a ∧ d = 1 - c := by
    have : ∀ x ∈ segCombs, x.2.1 = 1 - x.1 ∧ x.2.2.2 = 1 - x.2.2.1 := by decide
    exact this _ hm
  exact ⟨a, c, by rw [← hab.1, ← hab.2], h2, h4, h5⟩

/-- C56: segments that share an end lying between their other, distinct ends are joined. -/
theorem C56_complete (p : Package) (s t : Simplex 2) (hs : Simplex.Ok s) (ht : Simplex.Ok t) (i j : Fin 2)
    (h : p.perp (s i) = p.perp (t j)) (hne : p.perp (s (1 - i)) ≠ p.perp (t (1 - j)))
    (hseg : p.perp (s i) ∈ segment ℝ (p.perp (s (1 - i))) (p.perp (t (1 - j)))) :
    ∃ e, twoSegmentIntoOne p s t = .ok (some e) := by
  obtain ⟨r, hr, -, h2⟩ := twoSegmentLoop_spec p hs ht segCombs
  cases r with
  | some e => exact ⟨e, hr⟩
  | none =>
    have hm : (i, 1 - i, j, 1 - j) ∈ segCombs := by
      have : ∀ i j : Fin 2, (i, 1 - i, j, 1 - j) ∈ segCombs := by decide
      exact this i j
    have := h2 rfl i (1 - i) j (1 - j) hm h
    rw [C31_complete p (s i) ![s (1 - i), t (1 - j)] hne hseg] at this
    cases this

/- The two halves of the segment from e₁ to -e₁ are joined. -/
example : ∃ e, twoSegmentIntoOne .ico ![unit6 0 1 1, zeroVec 6] ![zeroVec 6, unit6 0 (-1) 1] = .ok (some e) := by
  refine C56_complete .ico _ _ (by decide) (by decide) 1 0 rfl ?_ ?_
  · exact fun h => absurd (perps_injective .ico (s := ![unit6 0 1 1, unit6 0 (-1) 1]) (by decide)
      (by decide +kernel) (a₁ := 0) (a₂ := 1) h) (by decide)
  · refine ⟨1 / 2, 1 / 2, by norm_num, by norm_num, by norm_num, ?_⟩
    show (1 / 2 : ℝ) • Package.ico.perp (unit6 0 1 1) + (1 / 2 : ℝ) • Package.ico.perp (unit6 0 (-1) 1) =
      Package.ico.perp (zeroVec 6)
    rw [perp_unit6_neg, perp_zero]
    simp

/-! ## C49 -/

/-- Normal of the triple number `d`. -/
def tripleNormal (pns : List (Fin 3 → ℝ)) (d : Fin pns.length × Fin pns.length × Fin pns.length) : Fin 3 → ℝ :=
  (pns.get d.2.1 - pns.get d.1) ⨯₃ (pns.get d.2.2 - pns.get d.1)

/-- C49: up to three points are always coplanar. -/
theorem C49_few (pns : List (Fin 3 → ℝ)) (draws : Draws pns.length) (h : pns.length ≤ 3) :
    coplanarCheckNumeric pns draws = some true := by
  unfold coplanarCheckNumeric
  rw [if_neg (by omega)]

theorem coplanarCheckNumeric_eq (pns : List (Fin 3 → ℝ)) (draws : Draws pns.length) (h : 3 < pns.length) :
    (coplanarCheckNumeric pns draws = none ∧ ∀ d ∈ draws, ∀ c, |tripleNormal pns d c| < EPS) ∨
    ∃ d ∈ draws, (∃ c, EPS ≤ |tripleNormal pns d c|) ∧
      ∃ b, coplanarCheckNumeric pns draws = some b ∧
        (b = true ↔ ∀ i, |tripleNormal pns d ⬝ᵥ (pns.get i - pns.get d.1)| < 1 / 10 ^ 10) := by
  unfold coplanarCheckNumeric
  rw [if_pos h]
  split
  · rename_i hf
    refine .inl ⟨rfl, fun d hd => ?_⟩
    simpa [tripleNormal] using List.find?_eq_none.mp hf d hd
  · rename_i d hf
    refine .inr ⟨d, List.mem_of_find?_eq_some hf, ?_, ?_⟩
    · have := List.find?_some hf
      simpa [tripleNormal] using this
    · have hz : (∀ i, i ≠ d.1 → i ≠ d.2.1 → i ≠ d.2.2 →
          |tripleNormal pns d ⬝ᵥ (pns.get i - pns.get d.1)| < 1 / 10 ^ 10) ↔
          ∀ i, |tripleNormal pns d ⬝ᵥ (pns.get i - pns.get d.1)| < 1 / 10 ^ 10 := by
        refine ⟨fun h i => ?_, fun h i _ _ _ => h i⟩
        by_cases h1 : i = d.1
        · rw [h1, sub_self, dotProduct_zero, abs_zero]; positivity
        by_cases h2 : i = d.2.1
        · rw [h2, dotProduct_comm, tripleNormal, dot_self_cross, abs_zero]; positivity
        by_cases h3 : i = d.2.2
        · rw [h3, dotProduct_comm, tripleNormal, dot_cross_self, abs_zero]; positivity
        exact h i h1 h2 h3
      by_cases hb : ∀ i, i ≠ d.1 → i ≠ d.2.1 → i ≠ d.2.2 →
          |tripleNormal pns d ⬝ᵥ (pns.get i - pns.get d.1)| < 1 / 10 ^ 10
      · exact ⟨true, if_pos hb, fun _ => hz.mp hb, fun _ => rfl⟩
      · exact ⟨false, if_neg hb, fun h => absurd h (by simp), fun h => absurd (hz.mpr h) hb⟩

theorem tripleNormal_inPlane {pns : List (Fin 3 → ℝ)} (h : InPlane pns)
    (d : Fin pns.length × Fin pns.length × Fin pns.length) (i : Fin pns.length) :
    tripleNormal pns d ⬝ᵥ (pns.get i - pns.get d.1) = 0 := by
  obtain ⟨n, hn, c, hc⟩ := h
  have e : ∀ j, n ⬝ᵥ (pns.get j - pns.get d.1) = 0 := by
    intro j
    rw [dotProduct_sub, hc _ (List.get_mem _ _), hc _ (List.get_mem _ _), sub_self]
  have e1 := e d.2.1
  have e2 := e d.2.2
  have e3 := e i
  unfold tripleNormal
  generalize pns.get d.2.1 - pns.get d.1 = u at *
  generalize pns.get d.2.2 - pns.get d.1 = v at *
  generalize pns.get i - pns.get d.1 = w at *
  have hne : ∃ k, n k ≠ 0 := by
    by_contra hh
    push Not at hh
    exact hn (funext hh)
  obtain ⟨k, hk⟩ := hne
  refine (mul_eq_zero.mp (?_ : n k * _ = 0)).resolve_left hk
  simp only [dotProduct, Fin.sum_univ_three, cross_apply, Matrix.cons_val_zero, Matrix.cons_val_one, Matrix.cons_val] at *
  fin_cases k <;> simp only [Fin.zero_eta, Fin.mk_one, Fin.reduceFinMk]
  · linear_combination (v 1 * w 2 - v 2 * w 1) * e1 + (w 1 * u 2 - w 2 * u 1) * e2 + (u 1 * v 2 - u 2 * v 1) * e3
  · linear_combination (v 2 * w 0 - v 0 * w 2) * e1 + (w 2 * u 0 - w 0 * u 2) * e2 + (u 2 * v 0 - u 0 * v 2) * e3
  · linear_combination (v 0 * w 1 - v 1 * w 0) * e1 + (w 0 * u 1 - w 1 * u 0) * e2 + (u 0 * v 1 - u 1 * v 0) * e3

/-- C49: coplanar points are never declared non-coplanar, and are declared coplanar as soon as one drawn
triple is not degenerate. Missing: if all drawn triples are degenerate, the result is None
(`C49_fails_none`); and for points that are nearly but not exactly coplanar the verdict can depend on the
draws (`C49_fails_verdict`). -/
theorem C49_coplanar_partial (pns : List (Fin 3 → ℝ)) (draws : Draws pns.length) (hp : InPlane pns) :
    coplanarCheckNumeric pns draws ≠ some false ∧
      ((∃ d ∈ draws, ∃ c, 1 / 10 ^ 6 ≤ |tripleNormal pns d c|) → coplanarCheckNumeric pns draws = some true) := by
  have hE : (EPS : ℝ) = 1 / 10 ^ 6 := by norm_num [EPS]
  by_cases hl : 3 < pns.length
  · rcases coplanarCheckNumeric_eq pns draws hl with ⟨h1, h2⟩ | ⟨d, -, -, b, hb, h⟩
    · rw [h1]
      refine ⟨by simp, ?_⟩
      rintro ⟨d, hd, c, hc⟩
      have := h2 d hd c
      rw [hE] at this
      linarith
    · have : b = true := h.mpr fun i => by
        rw [tripleNormal_inPlane hp d i, abs_zero]; positivity
      rw [hb, this]
      simp
  · rw [C49_few pns draws (by omega)]
    simp

/-- C49: if more than three points are declared coplanar, whatever was drawn, they all lie within 10⁻⁴ of
the plane through three of them, which are not collinear. -/
theorem C49_accepted (pns : List (Fin 3 → ℝ)) (draws : Draws pns.length) (hl : 3 < pns.length)
    (h : coplanarCheckNumeric pns draws = some true) :
    ∃ a b c : Fin pns.length, tripleNormal pns (a, b, c) ≠ 0 ∧
      ∀ i, |tripleNormal pns (a, b, c) ⬝ᵥ (pns.get i - pns.get a)| <
        1 / 10 ^ 4 * norm3 (tripleNormal pns (a, b, c)) := by
  rcases coplanarCheckNumeric_eq pns draws hl with ⟨h1, -⟩ | ⟨⟨a, b, c⟩, -, ⟨k, hk⟩, r, hr, hiff⟩
  · rw [h1] at h; cases h
  · rw [hr] at h
    have hi := hiff.mp (Option.some_injective _ h)
    have hE : (EPS : ℝ) = 1 / 10 ^ 6 := by norm_num [EPS]
    rw [hE] at hk
    refine ⟨a, b, c, ?_, fun i => lt_of_lt_of_le (hi i) ?_⟩
    · intro h0
      rw [h0] at hk
      norm_num at hk
    · have hn : |tripleNormal pns (a, b, c) k| ≤ norm3 (tripleNormal pns (a, b, c)) := by
        generalize tripleNormal pns (a, b, c) = n
        refine Real.abs_le_sqrt ?_
        rw [dotProduct, Fin.sum_univ_three]
        fin_cases k <;> simp only [Fin.zero_eta, Fin.mk_one, Fin.reduceFinMk] <;>
          nlinarith [mul_self_nonneg (n 0), mul_self_nonneg (n 1), mul_self_nonneg (n 2)]
      nlinarith

/-- C49: if the points are declared not coplanar, they are not in a plane. -/
theorem C49_rejected (pns : List (Fin 3 → ℝ)) (draws : Draws pns.length)
    (h : coplanarCheckNumeric pns draws = some false) : ¬ InPlane pns :=
  fun hp => (C49_coplanar_partial pns draws hp).1 h

/-- Four points in the plane z = 0, the first three on a line. -/
def exLine : List (Fin 3 → ℝ) := [![0, 0, 0], ![1, 0, 0], ![2, 0, 0], ![0, 1, 0]]

instance : NeZero exLine.length := ⟨by decide⟩

theorem exLine_inPlane : InPlane exLine :=
  ⟨![0, 0, 1], fun h => by simpa using congrFun h 2, 0, by simp [exLine, dotProduct, Fin.sum_univ_three]⟩

theorem exLine_normal : tripleNormal exLine (0, 1, 2) = 0 ∧ tripleNormal exLine (0, 1, 3) = ![0, 0, 1] := by
  constructor
  · show (![1, 0, 0] - ![0, 0, 0]) ⨯₃ (![2, 0, 0] - ![0, 0, 0]) = (0 : Fin 3 → ℝ)
    funext c
    fin_cases c <;> simp [cross_apply, Matrix.cons_val]
  · show (![1, 0, 0] - ![0, 0, 0]) ⨯₃ (![0, 1, 0] - ![0, 0, 0]) = (![0, 0, 1] : Fin 3 → ℝ)
    funext c
    fin_cases c <;> simp [cross_apply, Matrix.cons_val]

/-- C49 as stated fails: for coplanar points the result can be None, which the callers treat as not
coplanar, when all triples drawn are collinear; another draw gives True. -/
theorem C49_fails_none :
    InPlane exLine ∧ coplanarCheckNumeric exLine (List.replicate 10 (0, 1, 2)) = none ∧
      coplanarCheckNumeric exLine [(0, 1, 3)] = some true := by
  refine ⟨exLine_inPlane, ?_, ?_⟩
  · rcases coplanarCheckNumeric_eq exLine (List.replicate 10 (0, 1, 2)) (by decide) with ⟨h, -⟩ | ⟨d, hd, ⟨c, hc⟩, -⟩
    · exact h
    · rw [(List.mem_replicate.mp hd).2, exLine_normal.1, Pi.zero_apply, abs_zero] at hc
      norm_num [EPS] at hc
  · refine (C49_coplanar_partial exLine _ exLine_inPlane).2 ⟨(0, 1, 3), by simp, 2, ?_⟩
    rw [exLine_normal.2]
    show (1 : ℝ) / 10 ^ 6 ≤ |1|
    norm_num

/-- Six points within 10⁻⁹ of the plane z = 0. -/
noncomputable def exNear : List (Fin 3 → ℝ) :=
  [![0, 0, 0], ![1, 0, 0], ![0, 1, 0], ![1 / 1000, 0, 0], ![0, 1 / 1000, 0], ![0, 0, 1 / 10 ^ 9]]

instance : NeZero exNear.length := ⟨by decide⟩

theorem dot_literal (a b c x y z : ℝ) : ![a, b, c] ⬝ᵥ (![x, y, z] - ![0, 0, 0]) = a * x + b * y + c * z := by
  simp [dotProduct, Fin.sum_univ_three]

theorem exNear_normal : tripleNormal exNear (0, 1, 2) = ![0, 0, 1] ∧
    tripleNormal exNear (0, 3, 4) = ![0, 0, 1 / 10 ^ 6] := by
  constructor
  · show (![1, 0, 0] - ![0, 0, 0]) ⨯₃ (![0, 1, 0] - ![0, 0, 0]) = (![0, 0, 1] : Fin 3 → ℝ)
    funext c
    fin_cases c <;> simp [cross_apply, Matrix.cons_val]
  · show (![1 / 1000, 0, 0] - ![0, 0, 0]) ⨯₃ (![0, 1 / 1000, 0] - ![0, 0, 0]) = (![0, 0, 1 / 10 ^ 6] : Fin 3 → ℝ)
    funext c
    fin_cases c <;> simp [cross_apply, Matrix.cons_val]
    norm_num

/-- C49 as titled fails: the same six points are declared coplanar or not depending on the triple drawn,
because the offset is weighted with the area of the triple. -/
theorem C49_fails_verdict :
    coplanarCheckNumeric exNear [(0, 1, 2)] = some false ∧ coplanarCheckNumeric exNear [(0, 3, 4)] = some true := by
  constructor
  · rcases coplanarCheckNumeric_eq exNear [(0, 1, 2)] (by decide) with ⟨-, h⟩ | ⟨d, hd, -, b, hb, h⟩
    · have := h (0, 1, 2) (by simp) 2
      rw [exNear_normal.1] at this
      have : |(1 : ℝ)| < EPS := this
      norm_num [EPS] at this
    · rw [List.mem_singleton.mp hd, exNear_normal.1] at h
      cases b with
      | false => exact hb
      | true =>
        have : |![0, 0, 1] ⬝ᵥ (![0, 0, 1 / 10 ^ 9] - ![0, 0, 0])| < (1 / 10 ^ 10 : ℝ) := h.mp rfl 5
        rw [dot_literal] at this
        norm_num at this
  · rcases coplanarCheckNumeric_eq exNear [(0, 3, 4)] (by decide) with ⟨-, h⟩ | ⟨d, hd, -, b, hb, h⟩
    · have := h (0, 3, 4) (by simp) 2
      rw [exNear_normal.2] at this
      have : |(1 / 10 ^ 6 : ℝ)| < EPS := this
      norm_num [EPS] at this
    · rw [List.mem_singleton.mp hd, exNear_normal.2] at h
      rw [hb, h.mpr]
      intro i
      have : ∀ x ∈ exNear, |![0, 0, 1 / 10 ^ 6] ⬝ᵥ (x - ![0, 0, 0])| < (1 / 10 ^ 10 : ℝ) := by
        intro x hx
        simp only [exNear, List.mem_cons, List.not_mem_nil, or_false] at hx
        rcases hx with rfl | rfl | rfl | rfl | rfl | rfl <;>
          rw [dot_literal] <;> norm_num
      exact this _ (List.get_mem _ _)

end PyQC
