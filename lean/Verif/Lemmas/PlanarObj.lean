import Verif.Lemmas.PlanarTri
import Verif.Lemmas.PlanarArea
import Verif.Props.Symmetry
/-!
# The loops over the triangles of two objects (dode2)

`body z a` and `cover z o` are the points at height `z` of a triangle and of an object. The lemmas follow those about
the tetrahedra of ico2.
-/
namespace PyQC
namespace Planar
open MeasureTheory Dode

/-- The points of a triangle at height `z`. -/
noncomputable def body (z : ℝ) (a : Simplex 3) : Set (Fin 2 → ℝ) := slice z (solid (Package.dode.perps a))

/-- The points of an object at height `z`. -/
noncomputable def cover (z : ℝ) (o : Obj 3) : Set (Fin 2 → ℝ) := slice z (Package.dode.region o)

variable {z : ℝ}

theorem solid_compact' {m : Nat} (q : Fin m → Fin 3 → ℝ) : IsCompact (solid q) :=
  (Set.finite_range q).isCompact_convexHull (𝕜 := ℝ)

theorem solid_closed {m : Nat} (q : Fin m → Fin 3 → ℝ) : IsClosed (solid q) := (solid_compact' q).isClosed

theorem xy_continuous : Continuous xy := by
  unfold xy
  refine continuous_pi fun j => ?_
  fin_cases j <;> simp <;> fun_prop

/-- Everything collected by the inner loop satisfies `Q`, given that what is added does. -/
theorem innerLoop_all {flag : Simplex 3 → Simplex 3 → Py Nat} {inter : Simplex 3 → Simplex 3 → Py (Option (Obj 3))}
    {t1 : Simplex 3} {Q : Simplex 3 → Prop} (l : Obj 3)
    (h2 : ∀ t ∈ l, flag t1 t = .ok 2 → Q t)
    (h3 : ∀ t ∈ l, ∀ o, flag t1 t = .ok 3 → inter t1 t = .ok (some o) → ∀ a ∈ o, Q a) (acc : Obj 3)
    (hacc : ∀ a ∈ acc, Q a) (r : Bool × Obj 3) (hr : innerLoop flag inter t1 acc l = .ok r) :
    (∀ a ∈ r.2, Q a) ∧ (r.1 = true → ∃ t ∈ l, flag t1 t = .ok 1) := by
  induction l generalizing acc with
  | nil => cases hr; exact ⟨hacc, by simp⟩
  | cons t l ih =>
    have ih' := ih (fun t ht => h2 t (by simp [ht])) (fun t ht => h3 t (by simp [ht]))
    have fin : ∀ acc', (∀ a ∈ acc', Q a) → innerLoop flag inter t1 acc' l = .ok r →
        (∀ a ∈ r.2, Q a) ∧ (r.1 = true → ∃ u ∈ t :: l, flag t1 u = .ok 1) := by
      intro acc' ha hr'
      obtain ⟨p, q⟩ := ih' acc' ha hr'
      exact ⟨p, fun hb => let ⟨u, hu, e⟩ := q hb; ⟨u, by simp [hu], e⟩⟩
    unfold innerLoop at hr
    cases hf : flag t1 t with
    | error e => rw [hf, bind_error'] at hr; cases hr
    | ok f =>
      rw [hf, bind_ok'] at hr
      by_cases f1 : f = 1
      · rw [if_pos f1] at hr
        cases hr
        exact ⟨hacc, fun _ => ⟨t, by simp, by rw [hf, f1]⟩⟩
      · rw [if_neg f1] at hr
        by_cases f2 : f = 2
        · rw [if_pos f2] at hr
          refine fin _ ?_ hr
          intro a ha
          rcases List.mem_append.1 ha with ha | ha
          · exact hacc a ha
          · rw [List.mem_singleton] at ha
            subst ha
            exact h2 a (by simp) (by rw [hf, f2])
        · rw [if_neg f2] at hr
          by_cases f3 : f = 3
          · rw [if_pos f3] at hr
            cases hi : inter t1 t with
            | error e => rw [hi, bind_error'] at hr; cases hr
            | ok o =>
              rw [hi, bind_ok'] at hr
              cases o with
              | none => exact fin _ hacc hr
              | some o =>
                refine fin _ ?_ hr
                intro a ha
                rcases List.mem_append.1 ha with ha | ha
                · exact hacc a ha
                · exact h3 t (by simp) o (by rw [hf, f3]) hi a ha
          · rw [if_neg f3] at hr
            exact fin _ hacc hr


theorem onePiece_mem {kind : Ico.Kind} {rough : Simplex 3 → Py Bool} {flag : Simplex 3 → Simplex 3 → Py Nat}
    {inter : Simplex 3 → Simplex 3 → Py (Option (Obj 3))} {obj2 : Obj 3} {t1 : Simplex 3} {Q : Simplex 3 → Prop}
    (h1 : ∀ t ∈ obj2, flag t1 t = .ok 1 → Q t1) (h2 : ∀ t ∈ obj2, flag t1 t = .ok 2 → Q t)
    (h3 : ∀ t ∈ obj2, ∀ o, flag t1 t = .ok 3 → inter t1 t = .ok (some o) → ∀ a ∈ o, Q a) {r : Obj 3}
    (hr : onePiece kind rough flag inter obj2 t1 = .ok r) :
    ∀ a ∈ r, Q a ∨ kind = .simple ∧ a = t1 := by
  unfold onePiece at hr
  cases hro : rough t1 with
  | error e => rw [hro, bind_error'] at hr; cases hr
  | ok b =>
    rw [hro, bind_ok'] at hr
    cases b with
    | false => rw [if_neg (by simp)] at hr; cases hr; simp
    | true =>
      rw [if_pos rfl] at hr
      cases hl : innerLoop flag inter t1 [] obj2 with
      | error e => rw [hl, bind_error'] at hr; cases hr
      | ok p =>
        obtain ⟨inside, tmp⟩ := p
        rw [hl, bind_ok'] at hr
        simp only at hr
        obtain ⟨g1, g2⟩ := innerLoop_all obj2 h2 h3 [] (by simp) _ hl
        have hfirst : ∀ a ∈ (if inside then [t1] else [] : Obj 3), Q a := by
          intro a ha
          cases inside with
          | false => simp at ha
          | true =>
            simp only [if_true, List.mem_singleton] at ha
            obtain ⟨t, ht, e⟩ := g2 rfl
            rw [ha]; exact h1 t ht e
        by_cases hn : tmp.length ≠ 0
        · rw [if_pos hn] at hr
          cases kind with
          | standard =>
            cases hr
            intro a ha
            rcases List.mem_append.1 ha with ha | ha
            · exact .inl (hfirst a ha)
            · exact .inl (g1 a ha)
          | simple =>
            simp only at hr
            cases hv1 : triangleArea6d t1 with
            | error e => rw [hv1, bind_error'] at hr; cases hr
            | ok v1 =>
              rw [hv1, bind_ok'] at hr
              cases hv2 : objArea6d (.d4 tmp) with
              | error e => rw [hv2, bind_error'] at hr; cases hr
              | ok v2 =>
                rw [hv2, bind_ok'] at hr
                by_cases hv : some v1 = v2
                · rw [if_pos hv] at hr
                  cases hr
                  intro a ha
                  rcases List.mem_append.1 ha with ha | ha
                  · exact .inl (hfirst a ha)
                  · exact .inr ⟨rfl, by simpa using ha⟩
                · rw [if_neg hv] at hr
                  cases hr
                  intro a ha
                  rcases List.mem_append.1 ha with ha | ha
                  · exact .inl (hfirst a ha)
                  · exact .inl (g1 a ha)
        · rw [if_neg hn] at hr
          cases hr
          exact fun a ha => .inl (hfirst a ha)

theorem intersectionTwoObj_mem {kind : Ico.Kind} {rough : Simplex 3 → Py Bool} {flag : Simplex 3 → Simplex 3 → Py Nat}
    {inter : Simplex 3 → Simplex 3 → Py (Option (Obj 3))} {obj1 obj2 : Obj 3} {Q : Simplex 3 → Simplex 3 → Prop}
    (h1 : ∀ s ∈ obj1, ∀ t ∈ obj2, flag s t = .ok 1 → Q s s) (h2 : ∀ s ∈ obj1, ∀ t ∈ obj2, flag s t = .ok 2 → Q s t)
    (h3 : ∀ s ∈ obj1, ∀ t ∈ obj2, ∀ o, flag s t = .ok 3 → inter s t = .ok (some o) → ∀ a ∈ o, Q s a) {r : Obj 3}
    (hr : intersectionTwoObj kind rough flag inter obj1 obj2 = .ok (some r)) :
    r ≠ [] ∧ ∀ a ∈ r, ∃ s ∈ obj1, Q s a ∨ kind = .simple ∧ a = s := by
  unfold intersectionTwoObj at hr
  cases hf : fillList (onePiece kind rough flag inter obj2) obj1 with
  | error e => rw [hf, bind_error'] at hr; cases hr
  | ok parts =>
    rw [hf, bind_ok'] at hr
    by_cases hn : parts.flatten.length ≠ 0
    · rw [if_pos hn] at hr
      cases hr
      refine ⟨by intro h; rw [h] at hn; simp at hn, fun a ha => ?_⟩
      obtain ⟨p, hp, hap⟩ := List.mem_flatten.1 ha
      have := fillList_eq_ok hf
      obtain ⟨s, hs, e⟩ : ∃ s ∈ obj1, onePiece kind rough flag inter obj2 s = .ok p := by
        clear hn ha hf
        induction this with
        | nil => cases hp
        | cons hx _ ih =>
          rcases List.mem_cons.1 hp with rfl | hp
          · exact ⟨_, by simp, hx⟩
          · obtain ⟨s, hs, e⟩ := ih (fun s hs => h1 s (by simp [hs])) (fun s hs => h2 s (by simp [hs]))
              (fun s hs => h3 s (by simp [hs])) hp
            exact ⟨s, by simp [hs], e⟩
      exact ⟨s, hs, onePiece_mem (Q := Q s) (h1 s hs) (h2 s hs) (h3 s hs) e a hap⟩
    · rw [if_neg hn] at hr; cases hr


/-- Two results for one piece: same exception, or pieces of the same total volume, both empty or both non-empty. -/
def SameVol (a b : Py (Obj 3)) : Prop :=
  (∃ e, a = .error e ∧ b = .error e) ∨ ∃ x y, a = .ok x ∧ b = .ok y ∧ Obj.Ok x ∧ Obj.Ok y ∧
    (x.map karea).sum = (y.map karea).sum ∧ (x = [] ↔ y = [])

theorem onePiece_sameVol {rough : Simplex 3 → Py Bool} {flag : Simplex 3 → Simplex 3 → Py Nat}
    {inter : Simplex 3 → Simplex 3 → Py (Option (Obj 3))} {obj2 : Obj 3} {t1 : Simplex 3} (h1 : Simplex.Ok t1)
    (h2 : Obj.Ok obj2) (hi : ∀ t ∈ obj2, ∀ o, inter t1 t = .ok (some o) → Obj.Ok o) :
    SameVol (onePiece .standard rough flag inter obj2 t1) (onePiece .simple rough flag inter obj2 t1) := by
  unfold onePiece
  cases hro : rough t1 with
  | error e => exact .inl ⟨e, rfl, rfl⟩
  | ok b =>
    simp only [bind_ok']
    cases b with
    | false => exact .inr ⟨[], [], rfl, rfl, by simp [Obj.Ok], by simp [Obj.Ok], rfl, Iff.rfl⟩
    | true =>
      simp only [if_true]
      cases hl : innerLoop flag inter t1 [] obj2 with
      | error e => exact .inl ⟨e, rfl, rfl⟩
      | ok p =>
        obtain ⟨inside, tmp⟩ := p
        simp only [bind_ok']
        have ht : Obj.Ok tmp := (innerLoop_all (Q := Simplex.Ok) obj2 (fun t ht _ => h2 t ht)
          (fun t ht o _ h => hi t ht o h) [] (by simp) _ hl).1
        have hf : Obj.Ok (if inside then [t1] else [] : Obj 3) := by
          intro a ha
          cases inside with
          | false => simp at ha
          | true =>
            simp only [if_true, List.mem_singleton] at ha
            rw [ha]; exact h1
        generalize (if inside then [t1] else [] : Obj 3) = first at hf
        have app : ∀ {x y : Obj 3}, Obj.Ok x → Obj.Ok y → Obj.Ok (x ++ y) := by
          intro x y hx hy a ha
          rcases List.mem_append.1 ha with ha | ha
          · exact hx a ha
          · exact hy a ha
        by_cases hn : tmp.length ≠ 0
        · simp only [if_pos hn]
          rw [triangleArea6d_ok h1, bind_ok', objArea_ok ht, bind_ok']
          by_cases hv : some (norm (karea t1)) = some (norm ((tmp.map karea).sum))
          · rw [if_pos hv]
            refine .inr ⟨_, _, rfl, rfl, app hf ht, app hf (by intro a ha; rw [List.mem_singleton] at ha; rw [ha]; exact h1),
              ?_, ?_⟩
            · have hv' := congrArg (kval Package.dode.theta) (Option.some.inj hv)
              rw [kval_norm, kval_norm] at hv'
              simp [hv']
            · simp only [List.append_eq_nil_iff]
              constructor
              · rintro ⟨-, h⟩; rw [h] at hn; exact absurd rfl hn
              · rintro ⟨-, h⟩; simp at h
          · rw [if_neg hv]
            exact .inr ⟨_, _, rfl, rfl, app hf ht, app hf ht, rfl, Iff.rfl⟩
        · simp only [if_neg hn]
          exact .inr ⟨_, _, rfl, rfl, hf, hf, rfl, Iff.rfl⟩

theorem fillList_sameVol {f g : Simplex 3 → Py (Obj 3)} {l : Obj 3} (h : ∀ t ∈ l, SameVol (f t) (g t)) :
    (∃ e, fillList f l = .error e ∧ fillList g l = .error e) ∨ ∃ x y, fillList f l = .ok x ∧ fillList g l = .ok y ∧
      Obj.Ok x.flatten ∧ Obj.Ok y.flatten ∧ (x.flatten.map karea).sum = (y.flatten.map karea).sum ∧
      (x.flatten = [] ↔ y.flatten = []) := by
  induction l with
  | nil => exact .inr ⟨[], [], rfl, rfl, by simp [Obj.Ok], by simp [Obj.Ok], rfl, Iff.rfl⟩
  | cons t l ih =>
    unfold fillList
    rcases h t (by simp) with ⟨e, h1, h2⟩ | ⟨x, y, h1, h2, ox, oy, hv, hn⟩
    · exact .inl ⟨e, by rw [h1], by rw [h2]⟩
    · rw [h1, h2]
      simp only
      rcases ih fun s hs => h s (by simp [hs]) with ⟨e, h3, h4⟩ | ⟨xs, ys, h3, h4, oxs, oys, hvs, hns⟩
      · exact .inl ⟨e, by rw [h3], by rw [h4]⟩
      · rw [h3, h4]
        refine .inr ⟨_, _, rfl, rfl, ?_, ?_, ?_, ?_⟩
        · intro a ha
          rw [List.flatten_cons, List.mem_append] at ha
          exact ha.elim (ox a) (oxs a)
        · intro a ha
          rw [List.flatten_cons, List.mem_append] at ha
          exact ha.elim (oy a) (oys a)
        · simp only [List.flatten_cons, List.map_append, List.sum_append, hv, hvs]
        · simp only [List.flatten_cons, List.append_eq_nil_iff, hn, hns]


theorem region_mono {o o' : Obj 3} (h : ∀ a ∈ o, a ∈ o') : cover z o ⊆ cover z o' :=
  fun _ ⟨a, ha, hx⟩ => ⟨a, h a ha, hx⟩

/-- The part of `A` in a piece of the second object is covered by the collected pieces, up to volume zero. -/
def Covered (z : ℝ) (A : Set (Fin 2 → ℝ)) (t : Simplex 3) (acc : Obj 3) : Prop :=
  volume ((A ∩ body z t) \ cover z acc) = 0

theorem Covered.mono {A : Set (Fin 2 → ℝ)} {t : Simplex 3} {acc acc' : Obj 3} (h : Covered z A t acc)
    (hs : ∀ a ∈ acc, a ∈ acc') : Covered z A t acc' :=
  measure_mono_null (Set.sdiff_subset_sdiff_right (region_mono hs)) h

theorem innerLoop_cover {flag : Simplex 3 → Simplex 3 → Py Nat} {inter : Simplex 3 → Simplex 3 → Py (Option (Obj 3))}
    {t1 : Simplex 3} {A : Set (Fin 2 → ℝ)} (l : Obj 3)
    (h0 : ∀ t ∈ l, ∀ f, flag t1 t = .ok f → f ≠ 1 → f ≠ 2 → f ≠ 3 → volume (A ∩ body z t) = 0)
    (h3 : ∀ t ∈ l, ∀ r, flag t1 t = .ok 3 → inter t1 t = .ok r → Covered z A t (r.getD [])) (acc : Obj 3)
    (r : Bool × Obj 3) (hr : innerLoop flag inter t1 acc l = .ok r) :
    (∀ a ∈ acc, a ∈ r.2) ∧ (r.1 = true ∨ ∀ t ∈ l, Covered z A t r.2) := by
  induction l generalizing acc with
  | nil => cases hr; exact ⟨fun a h => h, .inr (by simp)⟩
  | cons t l ih =>
    have ih' := ih (fun t ht => h0 t (by simp [ht])) (fun t ht => h3 t (by simp [ht]))
    have fin : ∀ acc', (∀ a ∈ acc, a ∈ acc') → Covered z A t acc' → innerLoop flag inter t1 acc' l = .ok r →
        (∀ a ∈ acc, a ∈ r.2) ∧ (r.1 = true ∨ ∀ u ∈ t :: l, Covered z A u r.2) := by
      intro acc' ha hc hr'
      obtain ⟨p, q⟩ := ih' acc' hr'
      refine ⟨fun a h => p a (ha a h), q.imp id fun q => ?_⟩
      intro u hu
      rcases List.mem_cons.1 hu with rfl | hu
      · exact hc.mono p
      · exact q u hu
    unfold innerLoop at hr
    cases hf : flag t1 t with
    | error e => rw [hf, bind_error'] at hr; cases hr
    | ok f =>
      rw [hf, bind_ok'] at hr
      by_cases f1 : f = 1
      · rw [if_pos f1] at hr
        cases hr
        exact ⟨fun a h => h, .inl rfl⟩
      · rw [if_neg f1] at hr
        by_cases f2 : f = 2
        · rw [if_pos f2] at hr
          refine fin _ (fun a h => List.mem_append_left _ h) ?_ hr
          refine measure_mono_null (t := ∅) ?_ measure_empty
          rintro x ⟨⟨-, hx⟩, hn⟩
          exact hn ⟨t, by simp, hx⟩
        · rw [if_neg f2] at hr
          by_cases f3 : f = 3
          · rw [if_pos f3] at hr
            cases hi : inter t1 t with
            | error e => rw [hi, bind_error'] at hr; cases hr
            | ok o =>
              rw [hi, bind_ok'] at hr
              have hc := h3 t (by simp) o (by rw [hf, f3]) hi
              cases o with
              | none => exact fin _ (fun a h => h) (hc.mono (by simp)) hr
              | some o =>
                exact fin _ (fun a h => List.mem_append_left _ h) (hc.mono (fun a h => List.mem_append_right _ h)) hr
          · rw [if_neg f3] at hr
            refine fin _ (fun a h => h) ?_ hr
            exact measure_mono_null Set.sdiff_subset (h0 t (by simp) f hf f1 f2 f3)

/-- What one piece contributes covers its part in the second object. -/
theorem onePiece_cover {kind : Ico.Kind} {rough : Simplex 3 → Py Bool} {flag : Simplex 3 → Simplex 3 → Py Nat}
    {inter : Simplex 3 → Simplex 3 → Py (Option (Obj 3))} {obj2 : Obj 3} {t1 : Simplex 3}
    (hrough : rough t1 = .ok false → ∀ t ∈ obj2, volume (body z t1 ∩ body z t) = 0)
    (h0 : ∀ t ∈ obj2, ∀ f, flag t1 t = .ok f → f ≠ 1 → f ≠ 2 → f ≠ 3 →
      volume (body z t1 ∩ body z t) = 0)
    (h3 : ∀ t ∈ obj2, ∀ r, flag t1 t = .ok 3 → inter t1 t = .ok r → Covered z (body z t1) t (r.getD []))
    {r : Obj 3} (hr : onePiece kind rough flag inter obj2 t1 = .ok r) :
    ∀ t ∈ obj2, Covered z (body z t1) t r := by
  have hself : ∀ {o : Obj 3}, t1 ∈ o → ∀ t, Covered z (body z t1) t o := by
    intro o ho t
    refine measure_mono_null (t := ∅) ?_ measure_empty
    rintro x ⟨⟨hx, -⟩, hn⟩
    exact hn ⟨t1, ho, hx⟩
  unfold onePiece at hr
  cases hro : rough t1 with
  | error e => rw [hro, bind_error'] at hr; cases hr
  | ok b =>
    rw [hro, bind_ok'] at hr
    cases b with
    | false =>
      rw [if_neg (by simp)] at hr
      intro t ht
      exact measure_mono_null Set.sdiff_subset (hrough hro t ht)
    | true =>
      rw [if_pos rfl] at hr
      cases hi : innerLoop flag inter t1 [] obj2 with
      | error e => rw [hi, bind_error'] at hr; cases hr
      | ok p =>
        rw [hi, bind_ok'] at hr
        obtain ⟨inside, tmp⟩ := p
        obtain ⟨-, hc⟩ := innerLoop_cover (A := body z t1) obj2 h0 h3 [] _ hi
        simp only at hr hc
        by_cases hn : tmp.length ≠ 0
        · rw [if_pos hn] at hr
          have std : ∀ t ∈ obj2, Covered z (body z t1) t ((if inside = true then [t1] else []) ++ tmp) := by
            intro t ht
            rcases hc with hc | hc
            · exact hself (by simp [hc]) t
            · exact (hc t ht).mono fun a ha => List.mem_append_right _ ha
          cases kind with
          | standard =>
            simp only at hr
            cases hr
            exact std
          | simple =>
            simp only at hr
            cases hv1 : triangleArea6d t1 with
            | error e => rw [hv1, bind_error'] at hr; cases hr
            | ok v1 =>
              rw [hv1, bind_ok'] at hr
              cases hv2 : objArea6d (.d4 tmp) with
              | error e => rw [hv2, bind_error'] at hr; cases hr
              | ok v2 =>
                rw [hv2, bind_ok'] at hr
                by_cases hv : some v1 = v2
                · rw [if_pos hv] at hr
                  cases hr
                  exact fun t _ => hself (by simp) t
                · rw [if_neg hv] at hr
                  cases hr
                  exact std
        · rw [if_neg hn] at hr
          cases hr
          intro t ht
          rcases hc with hc | hc
          · exact hself (by simp [hc]) t
          · have : tmp = [] := by simpa using hn
            subst this
            exact (hc t ht).mono (by simp)

theorem intersectionTwoObj_cover {kind : Ico.Kind} {rough : Simplex 3 → Py Bool} {flag : Simplex 3 → Simplex 3 → Py Nat}
    {inter : Simplex 3 → Simplex 3 → Py (Option (Obj 3))} {obj1 obj2 : Obj 3}
    (hrough : ∀ s ∈ obj1, rough s = .ok false → ∀ t ∈ obj2, volume (body z s ∩ body z t) = 0)
    (h0 : ∀ s ∈ obj1, ∀ t ∈ obj2, ∀ f, flag s t = .ok f → f ≠ 1 → f ≠ 2 → f ≠ 3 →
      volume (body z s ∩ body z t) = 0)
    (h3 : ∀ s ∈ obj1, ∀ t ∈ obj2, ∀ r, flag s t = .ok 3 → inter s t = .ok r →
      Covered z (body z s) t (r.getD []))
    {r : Option (Obj 3)} (hr : intersectionTwoObj kind rough flag inter obj1 obj2 = .ok r) :
    volume ((cover z obj1 ∩ cover z obj2) \ cover z (r.getD [])) = 0 := by
  unfold intersectionTwoObj at hr
  cases hf : fillList (onePiece kind rough flag inter obj2) obj1 with
  | error e => rw [hf, bind_error'] at hr; cases hr
  | ok parts =>
    rw [hf, bind_ok'] at hr
    have hres : r.getD [] = parts.flatten := by
      by_cases hn : parts.flatten.length ≠ 0
      · rw [if_pos hn] at hr; cases hr; rfl
      · rw [if_neg hn] at hr
        cases hr
        have : parts.flatten = [] := List.length_eq_zero_iff.1 (not_not.1 hn)
        rw [this]; rfl
    rw [hres]
    have hall : ∀ s ∈ obj1, ∀ t ∈ obj2, Covered z (body z s) t parts.flatten := by
      have h2 := fillList_eq_ok hf
      clear hf hr hres
      induction h2 with
      | nil => simp
      | @cons s p obj1 parts hx hrest ih =>
        intro s' hs' t ht
        rcases List.mem_cons.1 hs' with rfl | hs'
        · exact (onePiece_cover (hrough _ (by simp)) (h0 _ (by simp)) (h3 _ (by simp)) hx t ht).mono
            fun a ha => by rw [List.flatten_cons]; exact List.mem_append_left _ ha
        · exact (ih (fun s hs => hrough s (by simp [hs])) (fun s hs => h0 s (by simp [hs]))
            (fun s hs => h3 s (by simp [hs])) s' hs' t ht).mono
            fun a ha => by rw [List.flatten_cons]; exact List.mem_append_right _ ha
    refine measure_mono_null (t := ⋃ s ∈ {s | s ∈ obj1}, ⋃ t ∈ {t | t ∈ obj2},
      (body z s ∩ body z t) \ cover z parts.flatten) ?_ ?_
    · rintro x ⟨⟨⟨s, hs, hx⟩, ⟨t, ht, hx'⟩⟩, hn⟩
      simp only [Set.mem_iUnion]
      exact ⟨s, hs, t, ht, ⟨hx, hx'⟩, hn⟩
    · rw [measure_biUnion_null_iff obj1.finite_toSet.countable]
      intro s hs
      rw [measure_biUnion_null_iff obj2.finite_toSet.countable]
      exact fun t ht => hall s hs t ht


theorem region_nil : cover z ([] : Obj 3) = ∅ := by ext x; simp [cover, slice, Package.region]

theorem region_cons (a : Simplex 3) (o : Obj 3) :
    cover z (a :: o) = body z a ∪ cover z o := by
  ext x; simp [cover, body, slice, Package.region]

theorem region_append (o o' : Obj 3) : cover z (o ++ o') = cover z o ∪ cover z o' := by
  ext x; simp [cover, slice, Package.region, or_and_right, exists_or]

theorem body_measurable (z : ℝ) (a : Simplex 3) : MeasurableSet (body z a) :=
  ((solid_closed _).preimage (atHeight_continuous z)).measurableSet

theorem region_measurable (o : Obj 3) : MeasurableSet (cover z o) := by
  induction o with
  | nil => rw [region_nil]; exact .empty
  | cons a o ih => rw [region_cons]; exact (body_measurable z a).union ih

theorem body_finite (z : ℝ) (a : Simplex 3) : volume (body z a) ≠ ⊤ := by
  refine ne_top_of_le_ne_top ((solid_compact' (Package.dode.perps a)).image xy_continuous).measure_lt_top.ne
    (measure_mono ?_)
  intro p hp
  exact ⟨atHeight z p, hp, xy_atHeight z p⟩

theorem region_finite (o : Obj 3) : volume (cover z o) ≠ ⊤ := by
  induction o with
  | nil => rw [region_nil]; simp
  | cons a o ih => rw [region_cons]; exact measure_union_ne_top (body_finite z a) ih

/-- Sum of the areas of the pieces. -/
noncomputable def msum (z : ℝ) (o : Obj 3) : ENNReal := (o.map fun a => volume (body z a)).sum

theorem msum_cons (a : Simplex 3) (o : Obj 3) : msum z (a :: o) = volume (body z a) + msum z o := rfl

theorem msum_append (o o' : Obj 3) : msum z (o ++ o') = msum z o + msum z o' := by simp [msum]

theorem msum_finite (o : Obj 3) : msum z o ≠ ⊤ := by
  induction o with
  | nil => simp [msum]
  | cons a o ih => rw [msum_cons]; exact ENNReal.add_ne_top.2 ⟨body_finite z a, ih⟩

theorem msum_val {o : Obj 3} (h : Level z o) :
    msum z o = ENNReal.ofReal ((o.map fun a => triAreaXY (Package.dode.perps a)).sum) := by
  induction o with
  | nil => simp [msum]
  | cons a o ih =>
    rw [msum_cons, ih (fun t ht => h t (by simp [ht])), body, volume_triangle (q := Package.dode.perps a) (h a (by simp)), List.map_cons, List.sum_cons,
      ENNReal.ofReal_add]
    · rw [triAreaXY_crossZ]; positivity
    · apply List.sum_nonneg
      intro x hx
      obtain ⟨a, -, rfl⟩ := List.mem_map.1 hx
      rw [triAreaXY_crossZ]; positivity

/-- Two triangles have no common interior point iff their common part has area zero. -/
theorem no_common_iff (a b : Simplex 3) :
    interior (body z a) ∩ interior (body z b) = ∅ ↔ volume (body z a ∩ body z b) = 0 := by
  rw [← interior_inter]
  constructor
  · intro h
    refine slice_null ((solid_convex _).inter (solid_convex _)) ?_
    change ¬ (interior (body z a ∩ body z b)).Nonempty
    rw [h]; simp
  · intro h
    by_contra hne
    have := isOpen_interior.measure_pos volume (Set.nonempty_iff_ne_empty.2 hne)
    exact absurd (measure_mono_null interior_subset h) this.ne'

theorem inter_region_null {A : Set (Fin 2 → ℝ)} {o : Obj 3} :
    volume (A ∩ cover z o) = 0 ↔ ∀ a ∈ o, volume (A ∩ body z a) = 0 := by
  induction o with
  | nil => simp [region_nil]
  | cons a o ih =>
    rw [region_cons, Set.inter_union_distrib_left, measure_union_null_iff, ih]
    simp

theorem region_le_msum z (o : Obj 3) : volume (cover z o) ≤ msum z o := by
  induction o with
  | nil => simp [region_nil]
  | cons a o ih =>
    rw [region_cons, msum_cons]
    exact (measure_union_le _ _).trans (add_le_add le_rfl ih)

/-- The measures of the pieces add up to the measure of the union exactly when no two pieces overlap. -/
theorem region_eq_msum z (o : Obj 3) : volume (cover z o) = msum z o ↔ NoOverlap2 z o := by
  induction o with
  | nil => simp [region_nil, msum, NoOverlap2]
  | cons a o ih =>
    have e := measure_union_add_inter (μ := volume) (body z a) (region_measurable (z := z) o)
    have hp : NoOverlap2 z (a :: o) ↔ volume (body z a ∩ cover z o) = 0 ∧
        NoOverlap2 z o := by
      unfold NoOverlap2
      rw [List.pairwise_cons, inter_region_null]
      simp only [← no_common_iff]; rfl
    rw [hp, ← ih, region_cons, msum_cons]
    constructor
    · intro h
      rw [h] at e
      have h1 := region_le_msum z o
      have hle : volume (body z a) + msum z o +
          volume (body z a ∩ cover z o) ≤
          volume (body z a) + msum z o := by
        rw [e]; exact add_le_add le_rfl h1
      have hfin := ENNReal.add_ne_top.2 ⟨body_finite z a, msum_finite (z := z) o⟩
      have h0 : volume (body z a ∩ cover z o) = 0 := by
        have := (ENNReal.add_le_add_iff_left hfin).1 (hle.trans_eq (add_zero _).symm)
        exact le_antisymm this bot_le
      refine ⟨h0, ?_⟩
      rw [h0, add_zero] at e
      exact ((ENNReal.add_right_inj (body_finite z _)).1 e).symm
    · rintro ⟨h0, h1⟩
      rw [h0, add_zero] at e
      rw [e, h1]


theorem inter_region_sum {A : Set (Fin 2 → ℝ)} (hA : MeasurableSet A) {o : Obj 3} (h : NoOverlap2 z o) :
    volume (A ∩ cover z o) = (o.map fun a => volume (A ∩ body z a)).sum := by
  induction o with
  | nil => simp [region_nil]
  | cons a o ih =>
    unfold NoOverlap2 at h
    rw [List.pairwise_cons] at h
    have h0 : volume ((A ∩ body z a) ∩ (A ∩ cover z o)) = 0 := by
      refine measure_mono_null (t := body z a ∩ cover z o) ?_ ?_
      · rintro x ⟨⟨-, h1⟩, -, h2⟩; exact ⟨h1, h2⟩
      · rw [inter_region_null]
        intro b hb
        rw [← no_common_iff]
        exact h.1 b hb
    have e := measure_union_add_inter (μ := volume) (A ∩ body z a) (hA.inter (region_measurable (z := z) o))
    rw [h0, add_zero] at e
    rw [region_cons, Set.inter_union_distrib_left, e, ih h.2, List.map_cons, List.sum_cons]

/-- Pieces `acc` collected for `s`: measure collected equals measure of the common part of `s` with what was read. -/
theorem innerLoop_measure {flag : Simplex 3 → Simplex 3 → Py Nat}
    {inter : Simplex 3 → Simplex 3 → Py (Option (Obj 3))} {s : Simplex 3} (l : Obj 3)
    (h1 : ∀ t ∈ l, flag s t = .ok 1 → body z s ⊆ body z t)
    (h2 : ∀ t ∈ l, flag s t = .ok 2 → body z t ⊆ body z s)
    (h0 : ∀ t ∈ l, ∀ f, flag s t = .ok f → f ≠ 1 → f ≠ 2 → f ≠ 3 →
      volume (body z s ∩ body z t) = 0)
    (h3 : ∀ t ∈ l, ∀ r, flag s t = .ok 3 → inter s t = .ok r →
      msum z (r.getD []) = volume (body z s ∩ body z t))
    (acc : Obj 3) (r : Bool × Obj 3) (hr : innerLoop flag inter s acc l = .ok r) :
    if r.1 then ∃ l1 t l2, l = l1 ++ t :: l2 ∧ body z s ⊆ body z t ∧
        msum z r.2 = msum z acc + (l1.map fun t => volume (body z s ∩ body z t)).sum
    else msum z r.2 = msum z acc + (l.map fun t => volume (body z s ∩ body z t)).sum := by
  induction l generalizing acc with
  | nil => cases hr; simp
  | cons t l ih =>
    have ih' := ih (fun t ht => h1 t (by simp [ht])) (fun t ht => h2 t (by simp [ht])) (fun t ht => h0 t (by simp [ht]))
      (fun t ht => h3 t (by simp [ht]))
    have fin : ∀ acc', msum z acc' = msum z acc + volume (body z s ∩ body z t) →
        innerLoop flag inter s acc' l = .ok r →
        if r.1 then ∃ l1 u l2, t :: l = l1 ++ u :: l2 ∧ body z s ⊆ body z u ∧
          msum z r.2 = msum z acc + (l1.map fun t => volume (body z s ∩ body z t)).sum
        else msum z r.2 = msum z acc +
          ((t :: l).map fun t => volume (body z s ∩ body z t)).sum := by
      intro acc' hm hr'
      have := ih' acc' hr'
      by_cases hb : r.1 = true
      · rw [if_pos hb] at this ⊢
        obtain ⟨l1, u, l2, e, hs, hm'⟩ := this
        refine ⟨t :: l1, u, l2, by rw [e]; rfl, hs, ?_⟩
        rw [hm', hm, List.map_cons, List.sum_cons, add_assoc]
      · rw [if_neg hb] at this ⊢
        rw [this, hm, List.map_cons, List.sum_cons, add_assoc]
    unfold innerLoop at hr
    cases hf : flag s t with
    | error e => rw [hf, bind_error'] at hr; cases hr
    | ok f =>
      rw [hf, bind_ok'] at hr
      by_cases f1 : f = 1
      · rw [if_pos f1] at hr
        cases hr
        rw [if_pos rfl]
        exact ⟨[], t, l, rfl, h1 t (by simp) (by rw [hf, f1]), by simp⟩
      · rw [if_neg f1] at hr
        by_cases f2 : f = 2
        · rw [if_pos f2] at hr
          refine fin _ ?_ hr
          rw [msum_append, Set.inter_eq_self_of_subset_right (h2 t (by simp) (by rw [hf, f2]))]
          simp [msum]
        · rw [if_neg f2] at hr
          by_cases f3 : f = 3
          · rw [if_pos f3] at hr
            cases hi : inter s t with
            | error e => rw [hi, bind_error'] at hr; cases hr
            | ok o =>
              rw [hi, bind_ok'] at hr
              have hc := h3 t (by simp) o (by rw [hf, f3]) hi
              cases o with
              | none => exact fin _ (by rw [← hc]; simp [msum]) hr
              | some o => exact fin _ (by rw [← hc, msum_append]; rfl) hr
          · rw [if_neg f3] at hr
            refine fin _ ?_ hr
            rw [h0 t (by simp) f hf f1 f2 f3]
            simp

theorem onePiece_measure {rough : Simplex 3 → Py Bool} {flag : Simplex 3 → Simplex 3 → Py Nat}
    {inter : Simplex 3 → Simplex 3 → Py (Option (Obj 3))} {obj2 : Obj 3} {s : Simplex 3}
    (hno : NoOverlap2 z obj2)
    (hrough : rough s = .ok false → ∀ t ∈ obj2, volume (body z s ∩ body z t) = 0)
    (h1 : ∀ t ∈ obj2, flag s t = .ok 1 → body z s ⊆ body z t)
    (h2 : ∀ t ∈ obj2, flag s t = .ok 2 → body z t ⊆ body z s)
    (h0 : ∀ t ∈ obj2, ∀ f, flag s t = .ok f → f ≠ 1 → f ≠ 2 → f ≠ 3 →
      volume (body z s ∩ body z t) = 0)
    (h3 : ∀ t ∈ obj2, ∀ r, flag s t = .ok 3 → inter s t = .ok r →
      msum z (r.getD []) = volume (body z s ∩ body z t))
    {p : Obj 3} (hp : onePiece .standard rough flag inter obj2 s = .ok p) :
    msum z p = volume (body z s ∩ cover z obj2) := by
  unfold onePiece at hp
  cases hro : rough s with
  | error e => rw [hro, bind_error'] at hp; cases hp
  | ok b =>
    rw [hro, bind_ok'] at hp
    cases b with
    | false =>
      cases hp
      have : volume (body z s ∩ cover z obj2) = 0 := by
        rw [inter_region_null]
        intro t ht
        exact hrough hro t ht
      rw [this]; rfl
    | true =>
      rw [if_pos rfl] at hp
      cases hl : innerLoop flag inter s [] obj2 with
      | error e => rw [hl, bind_error'] at hp; cases hp
      | ok r =>
        obtain ⟨inside, tmp⟩ := r
        rw [hl, bind_ok'] at hp
        have hm := innerLoop_measure obj2 h1 h2 h0 h3 [] _ hl
        have hp' : p = (if inside then [s] else []) ++ tmp := by
          by_cases hn : tmp.length ≠ 0
          · simp only [if_pos hn] at hp; cases hp; rfl
          · simp only [if_neg hn] at hp
            cases hp
            rw [List.length_eq_zero_iff.1 (not_not.1 hn), List.append_nil]
        rw [hp', msum_append]
        cases inside with
        | false =>
          simp only [Bool.false_eq_true, if_false] at hm ⊢
          rw [hm, inter_region_sum (body_measurable z _) hno]
          simp [msum]
        | true =>
          simp only [if_true] at hm ⊢
          obtain ⟨l1, t, l2, e, hsub, hm⟩ := hm
          have hz : (l1.map fun t => volume (body z s ∩ body z t)).sum = 0 := by
            rw [List.sum_eq_zero]
            intro x hx
            obtain ⟨u, hu, rfl⟩ := List.mem_map.1 hx
            unfold NoOverlap2 at hno
            rw [e, List.pairwise_append] at hno
            have := hno.2.2 u hu t (by simp)
            replace this := (no_common_iff (z := z) u t).1 this
            refine measure_mono_null ?_ this
            rintro x ⟨hx, hx'⟩
            exact ⟨hx', hsub hx⟩
          rw [hm, hz, Set.inter_eq_self_of_subset_left]
          · simp [msum]
          · intro x hx
            exact ⟨t, by rw [e]; simp, hsub hx⟩

theorem intersectionTwoObj_measure {rough : Simplex 3 → Py Bool} {flag : Simplex 3 → Simplex 3 → Py Nat}
    {inter : Simplex 3 → Simplex 3 → Py (Option (Obj 3))} {obj1 obj2 : Obj 3}
    (hno1 : NoOverlap2 z obj1) (hno : NoOverlap2 z obj2)
    (hrough : ∀ s ∈ obj1, rough s = .ok false → ∀ t ∈ obj2, volume (body z s ∩ body z t) = 0)
    (h1 : ∀ s ∈ obj1, ∀ t ∈ obj2, flag s t = .ok 1 → body z s ⊆ body z t)
    (h2 : ∀ s ∈ obj1, ∀ t ∈ obj2, flag s t = .ok 2 → body z t ⊆ body z s)
    (h0 : ∀ s ∈ obj1, ∀ t ∈ obj2, ∀ f, flag s t = .ok f → f ≠ 1 → f ≠ 2 → f ≠ 3 →
      volume (body z s ∩ body z t) = 0)
    (h3 : ∀ s ∈ obj1, ∀ t ∈ obj2, ∀ r, flag s t = .ok 3 → inter s t = .ok r →
      msum z (r.getD []) = volume (body z s ∩ body z t))
    {r : Option (Obj 3)} (hr : intersectionTwoObj .standard rough flag inter obj1 obj2 = .ok r) :
    msum z (r.getD []) = volume (cover z obj1 ∩ cover z obj2) := by
  unfold intersectionTwoObj at hr
  cases hf : fillList (onePiece .standard rough flag inter obj2) obj1 with
  | error e => rw [hf, bind_error'] at hr; cases hr
  | ok parts =>
    rw [hf, bind_ok'] at hr
    have hres : r.getD [] = parts.flatten := by
      by_cases hn : parts.flatten.length ≠ 0
      · rw [if_pos hn] at hr; cases hr; rfl
      · rw [if_neg hn] at hr
        cases hr
        have : parts.flatten = [] := List.length_eq_zero_iff.1 (not_not.1 hn)
        rw [this]; rfl
    rw [hres, Set.inter_comm, inter_region_sum (region_measurable (z := z) obj2) hno1]
    have hx := fillList_eq_ok hf
    clear hf hr hres hno1
    induction hx with
    | nil => simp [msum]
    | @cons s p obj1 parts hx hrest ih =>
      rw [List.flatten_cons, msum_append, List.map_cons, List.sum_cons,
        ih (fun s hs => hrough s (by simp [hs])) (fun s hs => h1 s (by simp [hs])) (fun s hs => h2 s (by simp [hs]))
        (fun s hs => h0 s (by simp [hs])) (fun s hs => h3 s (by simp [hs])),
        onePiece_measure hno (hrough s (by simp)) (h1 s (by simp)) (h2 s (by simp)) (h0 s (by simp)) (h3 s (by simp)) hx,
        Set.inter_comm]

end Planar
end PyQC
