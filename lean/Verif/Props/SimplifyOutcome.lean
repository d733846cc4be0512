import Verif.Spec.SimplifyOutcome
import Verif.Props.HullRounded
import Verif.Props.HullRoundedPlanar
/-!
# C117: what `simplification` can answer with, for every object
-/
namespace PyQC
open Rounding

/-- The steps of `simplification` after the test for an empty object. -/
private theorem outcome_of {m : Nat} {size : Obj m → Py (Option Num3)} {hull : Py (Option (Obj m))}
    {cut : Obj m → Py (Option (Obj m))} {obj : Obj m} {out : Py (Option (Obj m))} {w : Option Num3} (hw : size obj = .ok w)
    (e0 : obj = [] → out = .ok none) (e : obj ≠ [] → out = (do
      let vol0 ← size obj
      let h ← hull
      match h with
      | none => .error .typeError
      | some h => do
        let t ← cut h
        match t with
        | none => .error .attributeError
        | some t => do
          let vol1 ← size t
          if vol0 = vol1 then .ok (some h) else .ok (some obj))) :
    SimplifyOutcome size hull cut obj out := by
  by_cases h0 : obj = []
  · have e0 := e0 h0
    clear e
    subst e0
    exact ⟨fun _ => rfl, fun _ => h0, fun r h => (by simp at h), fun h => absurd h0 h, fun h => absurd h0 h, fun h => absurd h0 h,
      fun h => absurd h0 h⟩
  have e := e h0
  clear e0
  rw [hw, bind_ok'] at e
  cases hull with
  | error x =>
    subst e
    exact ⟨fun h => absurd h h0, fun h => (by cases h), fun r h => (by cases h), fun _ h => (by cases h), fun _ r h => (by cases h),
      fun _ y h => (by cases h; rfl), fun _ r y h => by cases h⟩
  | ok h =>
    rw [bind_ok'] at e
    cases h with
    | none =>
      subst e
      exact ⟨fun h => absurd h h0, fun h => (by cases h), fun r h => (by cases h), fun _ _ => rfl, fun _ r h => (by cases h),
        fun _ y h => (by cases h), fun _ r y h => by cases h⟩
    | some h =>
      simp only at e
      cases hc : cut h with
      | error x =>
        rw [hc] at e
        subst e
        refine ⟨fun h => absurd h h0, fun h => (by cases h), fun r h => (by cases h), fun _ h => (by cases h), fun _ r h h' => ?_,
          fun _ y h => (by cases h), fun _ r y h h' => ?_⟩
        · cases h; rw [hc] at h'; cases h'
        · cases h; rw [hc] at h'; cases h'; rfl
      | ok t =>
        rw [hc, bind_ok'] at e
        cases t with
        | none =>
          subst e
          refine ⟨fun h => absurd h h0, fun h => (by cases h), fun r h => (by cases h), fun _ h => (by cases h), fun _ r h h' => rfl,
            fun _ y h => (by cases h), fun _ r y h h' => ?_⟩
          cases h; rw [hc] at h'; cases h'
        | some t =>
          simp only at e
          refine ⟨fun h => absurd h h0, fun h => ?_, fun r h' => ⟨h, t, rfl, hc, ?_⟩, fun _ h => (by cases h), fun _ r h h' => ?_,
            fun _ y h => (by cases h), fun _ r y h h' => ?_⟩
          · cases hs : size t with
            | error x => rw [hs] at e; subst e; cases h
            | ok v =>
              rw [hs, bind_ok'] at e
              subst e
              split at h <;> cases h
          · cases hs : size t with
            | error x => rw [hs] at e; subst e; cases h'
            | ok v =>
              rw [hs, bind_ok'] at e
              subst e
              by_cases hv : w = v
              · rw [if_pos hv] at h'
                cases h'
                exact Or.inl ⟨by rw [hw, hv], rfl⟩
              · rw [if_neg hv] at h'
                cases h'
                refine Or.inr ⟨fun h => hv ?_, rfl⟩
                rw [hw] at h
                cases h
                rfl
          · cases h; rw [hc] at h'; cases h'
          · cases h; rw [hc] at h'; cases h'

/-- C117: the answer of `simplification` of ico2 for every object, all draws and every answer of the library. -/
theorem C117_outcome (hd : Nat → Nat → (n : Nat) → Draws n) (hl : Ico.Delaunay)
    (draws : Simplex 4 → Simplex 4 → (n : Nat) → Draws n) (delaunay : Simplex 4 → Simplex 4 → Ico.Delaunay) (obj : Obj 4)
    (ok : Obj.Ok obj) :
    SimplifyOutcome (fun o => Ico.objVolume6d (.d4 o)) (Ico.generateConvexHull hd hl obj)
      (fun h => Ico.intersectionApi .standard draws delaunay (.d4 h) (.d4 obj)) obj
      (Ico.simplification hd hl draws delaunay obj) := by
  obtain ⟨w, hw, -⟩ := C17_volume obj ok
  refine outcome_of hw (fun h => ?_) fun h => ?_
  · unfold Ico.simplification
    rw [if_pos h]
  · unfold Ico.simplification
    rw [if_neg h]
    refine congrArg _ (funext fun vol0 => congrArg _ (funext fun hull => ?_))
    cases hull with
    | none => rfl
    | some hull =>
      change bind (Ico.intersectionTwoObj1 .standard draws delaunay hull obj) _ = bind (Ico.intersectionTwoObj1 .standard draws delaunay hull obj) _
      refine congrArg _ (funext fun t => ?_)
      cases t with
      | none => rfl
      | some t => rfl

/-- C117 with rounding. -/
theorem C117_outcome_rounded (F : Float64) (hd : Nat → Nat → (n : Nat) → Draws n) (hl : Ico.Delaunay)
    (draws : Simplex 4 → Simplex 4 → (n : Nat) → Draws n) (delaunay : Simplex 4 → Simplex 4 → Ico.Delaunay) (obj : Obj 4)
    (ok : Obj.Ok obj) :
    SimplifyOutcome (fun o => Ico.objVolume6d (.d4 o)) (F.generateConvexHull hd hl obj)
      (fun h => F.intersectionApi .standard draws delaunay (.d4 h) (.d4 obj)) obj
      (F.simplification hd hl draws delaunay obj) := by
  obtain ⟨w, hw, -⟩ := C17_volume obj ok
  refine outcome_of hw (fun h => ?_) fun h => ?_
  · unfold Float64.simplification
    rw [if_pos h]
  · unfold Float64.simplification
    rw [if_neg h]
    refine congrArg _ (funext fun vol0 => congrArg _ (funext fun hull => ?_))
    cases hull with
    | none => rfl
    | some hull =>
      change bind (F.intersectionTwoObj1 .standard draws delaunay hull obj) _ = bind (F.intersectionTwoObj1 .standard draws delaunay hull obj) _
      refine congrArg _ (funext fun t => ?_)
      cases t with
      | none => rfl
      | some t => rfl

/-- C117 for dode2. -/
theorem C117_outcome_planar (hd : Nat → Nat → (n : Nat) → Draws n) (hl : Dode.Delaunay2)
    (delaunay : Simplex 3 → Simplex 3 → Dode.Delaunay2) (obj : Obj 3) (ok : Obj.Ok obj) :
    SimplifyOutcome (fun o => Dode.objArea6d (.d4 o)) (Dode.generateConvexHull hd hl obj)
      (fun h => Dode.intersectionApi .standard delaunay (.d4 h) (.d4 obj)) obj
      (Dode.simplification hd hl delaunay obj) := by
  obtain ⟨⟨w, hw, -⟩, -⟩ := C43_object obj ok
  refine outcome_of hw (fun h => ?_) fun h => ?_
  · unfold Dode.simplification
    rw [if_pos h]
  · unfold Dode.simplification
    rw [if_neg h]
    refine congrArg _ (funext fun vol0 => congrArg _ (funext fun hull => ?_))
    cases hull with
    | none => rfl
    | some hull =>
      change bind (Dode.intersectionTwoObj1 .standard delaunay hull obj) _ = bind (Dode.intersectionTwoObj1 .standard delaunay hull obj) _
      refine congrArg _ (funext fun t => ?_)
      cases t with
      | none => rfl
      | some t => rfl

/-- C117 for dode2 with rounding. -/
theorem C117_outcome_planar_rounded (F : Float64) (hd : Nat → Nat → (n : Nat) → Draws n) (hl : Dode.Delaunay2)
    (delaunay : Simplex 3 → Simplex 3 → Dode.Delaunay2) (obj : Obj 3) (ok : Obj.Ok obj) :
    SimplifyOutcome (fun o => Dode.objArea6d (.d4 o)) (F.dodeGenerateConvexHull hd hl obj)
      (fun h => F.dodeIntersectionApi .standard delaunay (.d4 h) (.d4 obj)) obj
      (F.dodeSimplification hd hl delaunay obj) := by
  obtain ⟨⟨w, hw, -⟩, -⟩ := C43_object obj ok
  refine outcome_of hw (fun h => ?_) fun h => ?_
  · unfold Float64.dodeSimplification
    rw [if_pos h]
  · unfold Float64.dodeSimplification
    rw [if_neg h]
    refine congrArg _ (funext fun vol0 => congrArg _ (funext fun hull => ?_))
    cases hull with
    | none => rfl
    | some hull =>
      change bind (F.dodeIntersectionTwoObj1 .standard delaunay hull obj) _ = bind (F.dodeIntersectionTwoObj1 .standard delaunay hull obj) _
      refine congrArg _ (funext fun t => ?_)
      cases t with
      | none => rfl
      | some t => rfl

/-- The hypotheses are met by a square made of two triangles. With a library that gives up on the hull `simplification` raises
`TypeError` for it, in binary64 arithmetic. -/
example (hd : Nat → Nat → (n : Nat) → Draws n) (delaunay : Simplex 3 → Simplex 3 → Dode.Delaunay2) :
    Obj.Ok exSquare ∧
    binary64.float64.dodeSimplification hd (fun _ => none) delaunay exSquare = .error .typeError := by
  refine ⟨exSquare_sharp.ok, ?_⟩
  refine (C117_outcome_planar_rounded binary64.float64 hd (fun _ => none) delaunay exSquare
    exSquare_sharp.ok).noHull exSquare_sharp.ne ?_
  obtain ⟨pts, h1, -, hpok, -⟩ := planar_hull_points_rounded binary64.float64 keepsHuge64 le_rfl (by norm_num) hd exSquare
    exSquare_rounded exSquare_level
  obtain ⟨pns, hpns⟩ := delaunayInput2_ok binary64.float64 hpok
  rw [h1]
  unfold Float64.triangulationPoints
  rw [hpns, bind_ok']

end PyQC
