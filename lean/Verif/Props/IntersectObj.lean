import Verif.Props.Intersect
/-!
# C37, C38: intersection of two tetrahedra and of two objects
-/
namespace PyQC
open Matrix Ico

/-! ## C38 -/

theorem reshape4_mem {pts : List (Vec 6)} {o : Obj 4} (h : reshape4 pts = .ok o) :
    o ≠ [] ∧ ∀ t ∈ o, ∀ k, t k ∈ pts := by
  unfold reshape4 at h
  split at h
  · cases h
    refine ⟨by simp, fun t ht k => ?_⟩
    rw [List.mem_singleton] at ht
    subst ht
    exact List.get_mem _ _
  · cases h

theorem tetrahedralizeCommon_mem {draws : (n : Nat) → Draws n} {delaunay : Delaunay} {pts : List (Vec 6)}
    (hp : ∀ v ∈ pts, Vec.Ok v) {o : Obj 4} (h : tetrahedralizeCommon draws delaunay pts = .ok (some o)) :
    o ≠ [] ∧ ∀ t ∈ o, ∀ k, t k ∈ pts := by
  unfold tetrahedralizeCommon at h
  by_cases h4 : pts.length ≥ 4
  · rw [if_pos h4] at h
    obtain ⟨r, hr, hsub, -⟩ := C24_one_per_point .ico pts hp
    rw [hr, bind_ok'] at h
    by_cases hr4 : r.length ≥ 4
    · rw [if_pos hr4] at h
      by_cases hc : coplanarCheck draws r = some true
      · rw [if_pos hc] at h; cases h
      · rw [if_neg hc] at h
        have hfin : ∀ {x : Option (Obj 4)}, (match x with
            | none => .error .attributeError
            | some o => do
              let _ ← objVolume6d (.d4 o)
              .ok (some o) : Py (Option (Obj 4))) = .ok (some o) → x = some o := by
          intro x hx
          cases x with
          | none => cases hx
          | some o' =>
            simp only at hx
            cases hv : objVolume6d (.d4 o') with
            | error e => rw [hv, bind_error'] at hx; cases hx
            | ok v => rw [hv, bind_ok'] at hx; cases hx; rfl
        simp only at h
        by_cases hl : r.length = 4
        · rw [if_pos hl] at h
          cases ho : reshape4 r with
          | error e => rw [ho, bind_error', bind_error'] at h; cases h
          | ok o' =>
            rw [ho, bind_ok', bind_ok'] at h
            cases hfin (x := some o') h
            obtain ⟨a, b⟩ := reshape4_mem ho
            exact ⟨a, fun t ht k => hsub _ (b t ht k)⟩
        · rw [if_neg hl] at h
          cases ho : tetrahedralizationPoints delaunay r with
          | error e => rw [ho, bind_error'] at h; cases h
          | ok o' =>
            rw [ho, bind_ok'] at h
            have := hfin (x := o') h
            subst this
            obtain ⟨a, b⟩ := C50_sound delaunay r (fun v hv => hp v (hsub v hv)) o ho
            exact ⟨a, fun t ht k => hsub _ ((b t ht).1 k)⟩
    · rw [if_neg hr4] at h; cases h
  · rw [if_neg h4] at h; cases h

/-- C38: whatever the coplanarity draws and the tetrahedralisation do, every point of every tetrahedron returned for the
intersection of two tetrahedra lies in both, up to 10⁻⁶ in barycentric coordinates. -/
theorem C38_two (draws : (n : Nat) → Draws n) (delaunay : Delaunay) (s t : Simplex 4) (hs : Simplex.Ok s)
    (ht : Simplex.Ok t) (o : Obj 4) (h : intersectionTwoTetrahedra draws delaunay s t = .ok (some o)) (a : Simplex 4)
    (ha : a ∈ o) (x : Fin 3 → ℝ) (hx : x ∈ convexHull ℝ (Set.range (Package.ico.perps a))) :
    NearSolid (1 / 10 ^ 6) (Package.ico.perps s) x ∧ NearSolid (1 / 10 ^ 6) (Package.ico.perps t) x := by
  rw [intersectionTwo_eq hs ht] at h
  have hm := (tetrahedralizeCommon_mem (fun v hv => (commonPts_near hs ht hv).1) h).2 a ha
  exact ⟨solid_near (fun i => (commonPts_near hs ht (hm i)).2.1) hx,
    solid_near (fun i => (commonPts_near hs ht (hm i)).2.2) hx⟩

theorem intersectionTwo_ok {draws : (n : Nat) → Draws n} {delaunay : Delaunay} {s t : Simplex 4} (hs : Simplex.Ok s)
    (ht : Simplex.Ok t) {o : Obj 4} (h : intersectionTwoTetrahedra draws delaunay s t = .ok (some o)) :
    o ≠ [] ∧ Obj.Ok o := by
  rw [intersectionTwo_eq hs ht] at h
  have hm := tetrahedralizeCommon_mem (fun v hv => (commonPts_near hs ht hv).1) h
  exact ⟨hm.1, fun a ha i => (commonPts_near hs ht (hm.2 a ha i)).1⟩

theorem coplanarCheckNumeric_ne {pns : List (Fin 3 → ℝ)} {a b c d : Fin pns.length}
    (hc : ∃ k, 1 / 10 ^ 6 ≤ |((pns.get b - pns.get a) ⨯₃ (pns.get c - pns.get a)) k|)
    (hd : 1 / 10 ^ 10 ≤ |((pns.get b - pns.get a) ⨯₃ (pns.get c - pns.get a)) ⬝ᵥ (pns.get d - pns.get a)|)
    (hn : pns.length > 3) (ha : d ≠ a) (hb : d ≠ b) (hc' : d ≠ c) :
    coplanarCheckNumeric pns [(a, b, c)] ≠ some true := by
  unfold coplanarCheckNumeric
  rw [if_pos hn]
  have hf : ¬ ∀ k, |((pns.get b - pns.get a) ⨯₃ (pns.get c - pns.get a)) k| < EPS := by
    intro h
    obtain ⟨k, hk⟩ := hc
    have := h k
    rw [eps_eq] at this
    linarith
  rw [List.find?_cons_of_pos (by simpa using hf)]
  simp only
  rw [if_neg]
  · simp
  · intro h
    have := h d ha hb hc'
    linarith

/-- Non-vacuity: whenever four of the collected points span a tetrahedron, some coplanarity draws and some
tetrahedralisation of the points lead to a result. -/
theorem tetrahedralizeCommon_exists {pts : List (Vec 6)} (hp : ∀ v ∈ pts, Vec.Ok v) {q : Fin 4 → Vec 6}
    (hq : ∀ k, q k ∈ pts)
    (hc : ∃ c, 1 / 10 ^ 6 ≤ |((Package.ico.perp (q 1) - Package.ico.perp (q 0)) ⨯₃
      (Package.ico.perp (q 2) - Package.ico.perp (q 0))) c|)
    (hd : 1 / 10 ^ 10 ≤ |((Package.ico.perp (q 1) - Package.ico.perp (q 0)) ⨯₃
      (Package.ico.perp (q 2) - Package.ico.perp (q 0))) ⬝ᵥ (Package.ico.perp (q 3) - Package.ico.perp (q 0))|) :
    ∃ draws delaunay o, tetrahedralizeCommon draws delaunay pts = .ok (some o) := by
  obtain ⟨r, hr, hsub, hpw, huniq⟩ := C24_one_per_point .ico pts hp
  have hidx : ∀ k, ∃ i : Fin r.length, Package.ico.perp (r.get i) = Package.ico.perp (q k) := by
    intro k
    obtain ⟨y, ⟨hy, e⟩, -⟩ := huniq _ (hq k)
    obtain ⟨i, rfl⟩ := List.get_of_mem hy
    exact ⟨i, e⟩
  choose idx hidx using hidx
  have hdot : ((Package.ico.perp (q 1) - Package.ico.perp (q 0)) ⨯₃ (Package.ico.perp (q 2) - Package.ico.perp (q 0))) ⬝ᵥ
      (Package.ico.perp (q 3) - Package.ico.perp (q 0)) = det4 (fun k => Package.ico.perp (q k)) := by
    rw [det4_eq]
    simp only [cross_apply, vec3_dotProduct, Pi.sub_apply, Matrix.cons_val_zero, Matrix.cons_val_one, Matrix.cons_val]
    ring
  have hdet : det4 (fun k => Package.ico.perp (q k)) ≠ 0 := by
    intro h0
    rw [hdot, h0, abs_zero] at hd
    norm_num at hd
  have hinj : Function.Injective idx := by
    intro a b hab
    by_contra hne
    have h : ∀ j, Package.ico.perp (q a) j = Package.ico.perp (q b) j := by
      intro j; rw [← hidx a, ← hidx b, hab]
    refine hdet ?_
    rw [det4_eq]
    have h0 := h 0
    have h1 := h 1
    have h2 := h 2
    fin_cases a <;> fin_cases b <;> first
      | exact absurd rfl hne
      | (simp only [Fin.zero_eta, Fin.mk_one, Fin.reduceFinMk] at h0 h1 h2
         simp only [h0, h1, h2]
         ring)
  have hrl : r.length ≥ 4 := by simpa using Fintype.card_le_of_injective idx hinj
  have hnd : r.Nodup := hpw.imp fun h e => h (by rw [e])
  have hpl : pts.length ≥ 4 := hrl.trans (hnd.subperm hsub).length_le
  have hrok : Obj.Ok [fun k => r.get (idx k)] := by
    intro t ht k
    rw [List.mem_singleton] at ht
    subst ht
    exact hp _ (hsub _ (List.get_mem _ _))
  have hlen : (r.map internalNumerical).length = r.length := List.length_map _
  have hget : ∀ k, (r.map internalNumerical).get (Fin.cast hlen.symm (idx k)) = Package.ico.perp (q k) := by
    intro k
    rw [← hidx k]
    simp only [List.get_eq_getElem, List.getElem_map, Fin.val_cast]
    exact Package.ico.internalNumerical_eq _
  refine ⟨fun n => if h : n = (r.map internalNumerical).length then h ▸ [(Fin.cast hlen.symm (idx 0),
      Fin.cast hlen.symm (idx 1), Fin.cast hlen.symm (idx 2))] else [], fun _ => some [fun k => idx k], ?_⟩
  unfold tetrahedralizeCommon
  rw [if_pos hpl, hr, bind_ok', if_pos hrl, if_neg]
  · simp only
    by_cases h4 : r.length = 4
    · rw [if_pos h4]
      unfold reshape4
      rw [dif_pos h4, bind_ok', bind_ok']
      simp only
      rw [objVolume_ok (by
        intro t ht k
        rw [List.mem_singleton] at ht
        subst ht
        exact hp _ (hsub _ (List.get_mem _ _))), bind_ok']
      exact ⟨_, rfl⟩
    · rw [if_neg h4]
      have := C50_tetrahedralization (fun _ => some [fun k => (idx k : ℕ)]) r (by intro h; rw [h] at hrl; simp at hrl)
        (fun v hv => hp v (hsub v hv)) [fun k => (idx k : ℕ)] rfl
        (by intro i hi k; rw [List.mem_singleton] at hi; subst hi; exact (idx k).2)
      rcases this with ⟨o, ho, -, hs, -⟩ | ⟨-, h0⟩
      · rw [ho, bind_ok']
        simp only
        rw [objVolume_ok (by
          intro t ht
          have := hs.subset ht
          simp only [List.attach_cons, List.attach_nil, List.map_nil, List.map_cons, List.mem_singleton] at this
          subst this
          exact fun k => hp _ (hsub _ (List.getElem_mem _))), bind_ok']
        exact ⟨_, rfl⟩
      · refine absurd (h0 (fun k => r.get (idx k)) (by simp)) ?_
        refine det4_ne_iff.1 ?_
        rw [show Package.ico.perps (fun k => r.get (idx k)) = fun k => Package.ico.perp (q k) from funext fun k => hidx k]
        exact hdet
  · unfold coplanarCheck
    simp only [dif_pos]
    have ne : ∀ {a b : Fin 4}, a ≠ b → Fin.cast hlen.symm (idx a) ≠ Fin.cast hlen.symm (idx b) :=
      fun h e => h (hinj (Fin.cast_injective _ e))
    refine coplanarCheckNumeric_ne (d := Fin.cast hlen.symm (idx 3)) ?_ ?_ (by rw [hlen]; omega) (ne (by decide)) (ne (by decide)) (ne (by decide))
    · rw [hget, hget, hget]; exact hc
    · rw [hget, hget, hget, hget]; exact hd

/-- Everything collected by the inner loop satisfies `Q`, given that what is added does. -/
theorem innerLoop_all {flag : Simplex 4 → Simplex 4 → Py Nat} {inter : Simplex 4 → Simplex 4 → Py (Option (Obj 4))}
    {t1 : Simplex 4} {Q : Simplex 4 → Prop} (l : Obj 4)
    (h2 : ∀ t ∈ l, flag t1 t = .ok 2 → Q t)
    (h3 : ∀ t ∈ l, ∀ o, flag t1 t = .ok 3 → inter t1 t = .ok (some o) → ∀ a ∈ o, Q a) (acc : Obj 4)
    (hacc : ∀ a ∈ acc, Q a) (r : Bool × Obj 4) (hr : innerLoop flag inter t1 acc l = .ok r) :
    (∀ a ∈ r.2, Q a) ∧ (r.1 = true → ∃ t ∈ l, flag t1 t = .ok 1) := by
  induction l generalizing acc with
  | nil => cases hr; exact ⟨hacc, by simp⟩
  | cons t l ih =>
    have ih' := ih (fun t ht => h2 t (by simp [ht])) (fun t ht => h3 t (by simp [ht]))
    have fin : ∀ acc', (∀ a ∈ acc', Q a) → innerLoop flag inter t1 acc' l = .ok r →
        (∀ a ∈ r.2, Q a) ∧ (r.1 = true → ∃ u ∈ t :: l, flag t1 u = .ok 1) := by
      intro acc' ha hr'
      obtain ⟨p, q⟩ := ih' acc' ha hr'
      exact ⟨p, fun hb => let ⟨u, hu, e⟩ := q hb; ⟨u, by simp [hu], e⟩⟩
    unfold innerLoop at hr
    cases hf : flag t1 t with
    | error e => rw [hf, bind_error'] at hr; cases hr
    | ok f =>
      rw [hf, bind_ok'] at hr
      by_cases f1 : f = 1
      · rw [if_pos f1] at hr
        cases hr
        exact ⟨hacc, fun _ => ⟨t, by simp, by rw [hf, f1]⟩⟩
      · rw [if_neg f1] at hr
        by_cases f2 : f = 2
        · rw [if_pos f2] at hr
          refine fin _ ?_ hr
          intro a ha
          rcases List.mem_append.1 ha with ha | ha
          · exact hacc a ha
          · rw [List.mem_singleton] at ha
            subst ha
            exact h2 a (by simp) (by rw [hf, f2])
        · rw [if_neg f2] at hr
          by_cases f3 : f = 3
          · rw [if_pos f3] at hr
            cases hi : inter t1 t with
            | error e => rw [hi, bind_error'] at hr; cases hr
            | ok o =>
              rw [hi, bind_ok'] at hr
              cases o with
              | none => exact fin _ hacc hr
              | some o =>
                refine fin _ ?_ hr
                intro a ha
                rcases List.mem_append.1 ha with ha | ha
                · exact hacc a ha
                · exact h3 t (by simp) o (by rw [hf, f3]) hi a ha
          · rw [if_neg f3] at hr
            exact fin _ hacc hr

theorem fillList_eq_ok {α β : Type} {f : α → Py β} {l : List α} {r : List β} (h : fillList f l = .ok r) :
    List.Forall₂ (fun x y => f x = .ok y) l r := by
  induction l generalizing r with
  | nil => cases h; exact .nil
  | cons x xs ih =>
    unfold fillList at h
    cases hx : f x with
    | error e => rw [hx] at h; cases h
    | ok y =>
      rw [hx] at h
      cases hxs : fillList f xs with
      | error e => rw [hxs] at h; cases h
      | ok ys => rw [hxs] at h; cases h; exact .cons hx (ih hxs)

/-- The rough check, centre and radius used by `intersection_two_obj_1` always succeed on a non-empty object. -/
theorem intersectionTwoObj1_eq (kind : Kind) (draws : Simplex 4 → Simplex 4 → (n : Nat) → Draws n)
    (delaunay : Simplex 4 → Simplex 4 → Delaunay) {obj1 obj2 : Obj 4} (h2 : Obj.Ok obj2) (h0 : obj2 ≠ []) :
    ∃ (c : Vec 6) (d : ℝ), Vec.Ok c ∧ centroidObj arith obj2 = .ok c ∧ ballRadiusObj .ico obj2 c = .ok d ∧
      intersectionTwoObj1 kind draws delaunay obj1 obj2 = intersectionTwoObj kind (fun t => roughCheck .ico t c d)
        (fun s t => .ok (checkTwoTetrahedra s t))
        (fun s t => intersectionTwoTetrahedra (draws s t) (delaunay s t) s t) obj1 obj2 := by
  obtain ⟨c, hc, hok⟩ : ∃ c, centroidObj arith obj2 = .ok c ∧ Vec.Ok c :=
    ⟨_, centroidObj_ok Package.ico.lawful h0 (by decide) h2, nvec_ok _⟩
  obtain ⟨R, hR, -⟩ := C35_radius_obj .ico (by decide) obj2 h0 c h2 hok
  refine ⟨c, R, hok, hc, hR, ?_⟩
  unfold intersectionTwoObj1
  rw [hc, bind_ok', hR, bind_ok']

/-- What one piece of `obj1` contributes. -/
theorem onePiece_mem {kind : Kind} {rough : Simplex 4 → Py Bool} {flag : Simplex 4 → Simplex 4 → Py Nat}
    {inter : Simplex 4 → Simplex 4 → Py (Option (Obj 4))} {obj2 : Obj 4} {t1 : Simplex 4} {Q : Simplex 4 → Prop}
    (h1 : ∀ t ∈ obj2, flag t1 t = .ok 1 → Q t1) (h2 : ∀ t ∈ obj2, flag t1 t = .ok 2 → Q t)
    (h3 : ∀ t ∈ obj2, ∀ o, flag t1 t = .ok 3 → inter t1 t = .ok (some o) → ∀ a ∈ o, Q a) {r : Obj 4}
    (hr : onePiece kind rough flag inter obj2 t1 = .ok r) :
    ∀ a ∈ r, Q a ∨ kind = .simple ∧ a = t1 := by
  unfold onePiece at hr
  cases hro : rough t1 with
  | error e => rw [hro, bind_error'] at hr; cases hr
  | ok b =>
    rw [hro, bind_ok'] at hr
    cases b with
    | false => rw [if_neg (by simp)] at hr; cases hr; simp
    | true =>
      rw [if_pos rfl] at hr
      cases hl : innerLoop flag inter t1 [] obj2 with
      | error e => rw [hl, bind_error'] at hr; cases hr
      | ok p =>
        obtain ⟨inside, tmp⟩ := p
        rw [hl, bind_ok'] at hr
        simp only at hr
        obtain ⟨g1, g2⟩ := innerLoop_all obj2 h2 h3 [] (by simp) _ hl
        have hfirst : ∀ a ∈ (if inside then [t1] else [] : Obj 4), Q a := by
          intro a ha
          cases inside with
          | false => simp at ha
          | true =>
            simp only [if_true, List.mem_singleton] at ha
            obtain ⟨t, ht, e⟩ := g2 rfl
            rw [ha]; exact h1 t ht e
        by_cases hn : tmp.length ≠ 0
        · rw [if_pos hn] at hr
          cases kind with
          | standard =>
            cases hr
            intro a ha
            rcases List.mem_append.1 ha with ha | ha
            · exact .inl (hfirst a ha)
            · exact .inl (g1 a ha)
          | simple =>
            simp only at hr
            cases hv1 : tetrahedronVolume6d t1 with
            | error e => rw [hv1, bind_error'] at hr; cases hr
            | ok v1 =>
              rw [hv1, bind_ok'] at hr
              cases hv2 : objVolume6d (.d4 tmp) with
              | error e => rw [hv2, bind_error'] at hr; cases hr
              | ok v2 =>
                rw [hv2, bind_ok'] at hr
                by_cases hv : some v1 = v2
                · rw [if_pos hv] at hr
                  cases hr
                  intro a ha
                  rcases List.mem_append.1 ha with ha | ha
                  · exact .inl (hfirst a ha)
                  · exact .inr ⟨rfl, by simpa using ha⟩
                · rw [if_neg hv] at hr
                  cases hr
                  intro a ha
                  rcases List.mem_append.1 ha with ha | ha
                  · exact .inl (hfirst a ha)
                  · exact .inl (g1 a ha)
        · rw [if_neg hn] at hr
          cases hr
          exact fun a ha => .inl (hfirst a ha)

theorem intersectionTwoObj_mem {kind : Kind} {rough : Simplex 4 → Py Bool} {flag : Simplex 4 → Simplex 4 → Py Nat}
    {inter : Simplex 4 → Simplex 4 → Py (Option (Obj 4))} {obj1 obj2 : Obj 4} {Q : Simplex 4 → Simplex 4 → Prop}
    (h1 : ∀ s ∈ obj1, ∀ t ∈ obj2, flag s t = .ok 1 → Q s s) (h2 : ∀ s ∈ obj1, ∀ t ∈ obj2, flag s t = .ok 2 → Q s t)
    (h3 : ∀ s ∈ obj1, ∀ t ∈ obj2, ∀ o, flag s t = .ok 3 → inter s t = .ok (some o) → ∀ a ∈ o, Q s a) {r : Obj 4}
    (hr : intersectionTwoObj kind rough flag inter obj1 obj2 = .ok (some r)) :
    r ≠ [] ∧ ∀ a ∈ r, ∃ s ∈ obj1, Q s a ∨ kind = .simple ∧ a = s := by
  unfold intersectionTwoObj at hr
  cases hf : fillList (onePiece kind rough flag inter obj2) obj1 with
  | error e => rw [hf, bind_error'] at hr; cases hr
  | ok parts =>
    rw [hf, bind_ok'] at hr
    by_cases hn : parts.flatten.length ≠ 0
    · rw [if_pos hn] at hr
      cases hr
      refine ⟨by intro h; rw [h] at hn; simp at hn, fun a ha => ?_⟩
      obtain ⟨p, hp, hap⟩ := List.mem_flatten.1 ha
      have := fillList_eq_ok hf
      obtain ⟨s, hs, e⟩ : ∃ s ∈ obj1, onePiece kind rough flag inter obj2 s = .ok p := by
        clear hn ha hf
        induction this with
        | nil => cases hp
        | cons hx _ ih =>
          rcases List.mem_cons.1 hp with rfl | hp
          · exact ⟨_, by simp, hx⟩
          · obtain ⟨s, hs, e⟩ := ih (fun s hs => h1 s (by simp [hs])) (fun s hs => h2 s (by simp [hs]))
              (fun s hs => h3 s (by simp [hs])) hp
            exact ⟨s, by simp [hs], e⟩
      exact ⟨s, hs, onePiece_mem (Q := Q s) (h1 s hs) (h2 s hs) (h3 s hs) e a hap⟩
    · rw [if_neg hn] at hr; cases hr

theorem self_near {m : Nat} {q : Fin m → Fin 3 → ℝ} {δ : ℝ} (hδ : 0 ≤ δ) {x : Fin 3 → ℝ}
    (hx : x ∈ convexHull ℝ (Set.range q)) : NearSolid δ q x := by
  obtain ⟨w, hw, h0⟩ := mem_solid_iff.1 hx
  exact ⟨w, hw, fun i => by have := h0 i; linarith⟩

/-- C38 for objects: every point of every returned piece of a 'standard' intersection lies in some tetrahedron of the
first object and in some tetrahedron of the second, up to 10⁻⁶ in barycentric coordinates. -/
theorem C38_objects (draws : Simplex 4 → Simplex 4 → (n : Nat) → Draws n) (delaunay : Simplex 4 → Simplex 4 → Delaunay)
    (obj1 obj2 : Obj 4) (ok1 : Obj.Ok obj1) (ok2 : Obj.Ok obj2) (r : Obj 4)
    (hr : intersectionApi .standard draws delaunay (.d4 obj1) (.d4 obj2) = .ok (some r)) :
    r ≠ [] ∧ ∀ a ∈ r, ∃ s ∈ obj1, ∃ t ∈ obj2, ∀ x ∈ convexHull ℝ (Set.range (Package.ico.perps a)),
      NearSolid (1 / 10 ^ 6) (Package.ico.perps s) x ∧ NearSolid (1 / 10 ^ 6) (Package.ico.perps t) x := by
  change intersectionTwoObj1 .standard draws delaunay obj1 obj2 = _ at hr
  by_cases h0 : obj2 = []
  · subst h0
    unfold intersectionTwoObj1 at hr
    cases hc : centroidObj arith ([] : Obj 4) with
    | error e => rw [hc, bind_error'] at hr; cases hr
    | ok c =>
      rw [hc, bind_ok'] at hr
      cases hb : ballRadiusObj .ico ([] : Obj 4) c with
      | error e => rw [hb, bind_error'] at hr; cases hr
      | ok d =>
        rw [hb, bind_ok'] at hr
        obtain ⟨h1, h2⟩ := intersectionTwoObj_mem (Q := fun _ _ => False) (by simp) (by simp) (by simp) hr
        obtain ⟨a, ha⟩ := List.exists_mem_of_ne_nil r h1
        obtain ⟨s, -, h⟩ := h2 a ha
        simp at h
  · obtain ⟨c, d, -, -, -, e⟩ := intersectionTwoObj1_eq .standard draws delaunay (obj1 := obj1) ok2 h0
    rw [e] at hr
    obtain ⟨h1, h2⟩ := intersectionTwoObj_mem
      (Q := fun s a => ∃ t ∈ obj2, ∀ x ∈ convexHull ℝ (Set.range (Package.ico.perps a)),
        NearSolid (1 / 10 ^ 6) (Package.ico.perps s) x ∧ NearSolid (1 / 10 ^ 6) (Package.ico.perps t) x)
      (fun s _ t ht hf => ⟨t, ht, fun x hx => ⟨self_near (by norm_num) hx,
        near_mono (by norm_num) ((C36_contained s t x).1 (Except.ok.inj hf) hx)⟩⟩)
      (fun s _ t ht hf => ⟨t, ht, fun x hx => ⟨near_mono (by norm_num)
        ((C36_contained s t x).2 (Except.ok.inj hf) hx), self_near (by norm_num) hx⟩⟩)
      (fun s hs t ht o _ hi a ha => ⟨t, ht, fun x hx => C38_two _ _ s t (ok1 s hs) (ok2 t ht) o hi a ha x hx⟩) hr
    refine ⟨h1, fun a ha => ?_⟩
    obtain ⟨s, hs, h | ⟨h, -⟩⟩ := h2 a ha
    · exact ⟨s, hs, h⟩
    · cases h

/-- C38 for 'simple': a returned piece is either as for 'standard' or is a whole tetrahedron of the first object. -/
theorem C38_objects_simple (draws : Simplex 4 → Simplex 4 → (n : Nat) → Draws n)
    (delaunay : Simplex 4 → Simplex 4 → Delaunay) (obj1 obj2 : Obj 4) (h0 : obj2 ≠ []) (ok1 : Obj.Ok obj1)
    (ok2 : Obj.Ok obj2) (r : Obj 4) (hr : intersectionApi .simple draws delaunay (.d4 obj1) (.d4 obj2) = .ok (some r)) :
    r ≠ [] ∧ ∀ a ∈ r, a ∈ obj1 ∨ ∃ s ∈ obj1, ∃ t ∈ obj2, ∀ x ∈ convexHull ℝ (Set.range (Package.ico.perps a)),
      NearSolid (1 / 10 ^ 6) (Package.ico.perps s) x ∧ NearSolid (1 / 10 ^ 6) (Package.ico.perps t) x := by
  change intersectionTwoObj1 .simple draws delaunay obj1 obj2 = _ at hr
  obtain ⟨c, d, -, -, -, e⟩ := intersectionTwoObj1_eq .simple draws delaunay (obj1 := obj1) ok2 h0
  rw [e] at hr
  obtain ⟨h1, h2⟩ := intersectionTwoObj_mem
    (Q := fun s a => ∃ t ∈ obj2, ∀ x ∈ convexHull ℝ (Set.range (Package.ico.perps a)),
      NearSolid (1 / 10 ^ 6) (Package.ico.perps s) x ∧ NearSolid (1 / 10 ^ 6) (Package.ico.perps t) x)
    (fun s _ t ht hf => ⟨t, ht, fun x hx => ⟨self_near (by norm_num) hx,
      near_mono (by norm_num) ((C36_contained s t x).1 (Except.ok.inj hf) hx)⟩⟩)
    (fun s _ t ht hf => ⟨t, ht, fun x hx => ⟨near_mono (by norm_num)
      ((C36_contained s t x).2 (Except.ok.inj hf) hx), self_near (by norm_num) hx⟩⟩)
    (fun s hs t ht o _ hi a ha => ⟨t, ht, fun x hx => C38_two _ _ s t (ok1 s hs) (ok2 t ht) o hi a ha x hx⟩) hr
  refine ⟨h1, fun a ha => ?_⟩
  obtain ⟨s, hs, h | ⟨-, h⟩⟩ := h2 a ha
  · exact .inr ⟨s, hs, h⟩
  · exact .inl (h ▸ hs)

/-! ## C37 -/

/-- Two results for one piece: same exception, or pieces of the same total volume, both empty or both non-empty. -/
def SameVol (a b : Py (Obj 4)) : Prop :=
  (∃ e, a = .error e ∧ b = .error e) ∨ ∃ x y, a = .ok x ∧ b = .ok y ∧ Obj.Ok x ∧ Obj.Ok y ∧
    (x.map kvol).sum = (y.map kvol).sum ∧ (x = [] ↔ y = [])

theorem onePiece_sameVol {rough : Simplex 4 → Py Bool} {flag : Simplex 4 → Simplex 4 → Py Nat}
    {inter : Simplex 4 → Simplex 4 → Py (Option (Obj 4))} {obj2 : Obj 4} {t1 : Simplex 4} (h1 : Simplex.Ok t1)
    (h2 : Obj.Ok obj2) (hi : ∀ t ∈ obj2, ∀ o, inter t1 t = .ok (some o) → Obj.Ok o) :
    SameVol (onePiece .standard rough flag inter obj2 t1) (onePiece .simple rough flag inter obj2 t1) := by
  unfold onePiece
  cases hro : rough t1 with
  | error e => exact .inl ⟨e, rfl, rfl⟩
  | ok b =>
    simp only [bind_ok']
    cases b with
    | false => exact .inr ⟨[], [], rfl, rfl, by simp [Obj.Ok], by simp [Obj.Ok], rfl, Iff.rfl⟩
    | true =>
      simp only [if_true]
      cases hl : innerLoop flag inter t1 [] obj2 with
      | error e => exact .inl ⟨e, rfl, rfl⟩
      | ok p =>
        obtain ⟨inside, tmp⟩ := p
        simp only [bind_ok']
        have ht : Obj.Ok tmp := (innerLoop_all (Q := Simplex.Ok) obj2 (fun t ht _ => h2 t ht)
          (fun t ht o _ h => hi t ht o h) [] (by simp) _ hl).1
        have hf : Obj.Ok (if inside then [t1] else [] : Obj 4) := by
          intro a ha
          cases inside with
          | false => simp at ha
          | true =>
            simp only [if_true, List.mem_singleton] at ha
            rw [ha]; exact h1
        generalize (if inside then [t1] else [] : Obj 4) = first at hf
        have app : ∀ {x y : Obj 4}, Obj.Ok x → Obj.Ok y → Obj.Ok (x ++ y) := by
          intro x y hx hy a ha
          rcases List.mem_append.1 ha with ha | ha
          · exact hx a ha
          · exact hy a ha
        by_cases hn : tmp.length ≠ 0
        · simp only [if_pos hn]
          rw [tetrahedronVolume6d_ok h1, bind_ok', objVolume_ok ht, bind_ok']
          by_cases hv : some (norm (kvol t1)) = some (norm ((tmp.map kvol).sum))
          · rw [if_pos hv]
            refine .inr ⟨_, _, rfl, rfl, app hf ht, app hf (by intro a ha; rw [List.mem_singleton] at ha; rw [ha]; exact h1),
              ?_, ?_⟩
            · have hv' := congrArg (kval Package.ico.theta) (Option.some.inj hv)
              rw [kval_norm, kval_norm] at hv'
              simp [hv']
            · simp only [List.append_eq_nil_iff]
              constructor
              · rintro ⟨-, h⟩; rw [h] at hn; exact absurd rfl hn
              · rintro ⟨-, h⟩; simp at h
          · rw [if_neg hv]
            exact .inr ⟨_, _, rfl, rfl, app hf ht, app hf ht, rfl, Iff.rfl⟩
        · simp only [if_neg hn]
          exact .inr ⟨_, _, rfl, rfl, hf, hf, rfl, Iff.rfl⟩

theorem fillList_sameVol {f g : Simplex 4 → Py (Obj 4)} {l : Obj 4} (h : ∀ t ∈ l, SameVol (f t) (g t)) :
    (∃ e, fillList f l = .error e ∧ fillList g l = .error e) ∨ ∃ x y, fillList f l = .ok x ∧ fillList g l = .ok y ∧
      Obj.Ok x.flatten ∧ Obj.Ok y.flatten ∧ (x.flatten.map kvol).sum = (y.flatten.map kvol).sum ∧
      (x.flatten = [] ↔ y.flatten = []) := by
  induction l with
  | nil => exact .inr ⟨[], [], rfl, rfl, by simp [Obj.Ok], by simp [Obj.Ok], rfl, Iff.rfl⟩
  | cons t l ih =>
    unfold fillList
    rcases h t (by simp) with ⟨e, h1, h2⟩ | ⟨x, y, h1, h2, ox, oy, hv, hn⟩
    · exact .inl ⟨e, by rw [h1], by rw [h2]⟩
    · rw [h1, h2]
      simp only
      rcases ih fun s hs => h s (by simp [hs]) with ⟨e, h3, h4⟩ | ⟨xs, ys, h3, h4, oxs, oys, hvs, hns⟩
      · exact .inl ⟨e, by rw [h3], by rw [h4]⟩
      · rw [h3, h4]
        refine .inr ⟨_, _, rfl, rfl, ?_, ?_, ?_, ?_⟩
        · intro a ha
          rw [List.flatten_cons, List.mem_append] at ha
          exact ha.elim (ox a) (oxs a)
        · intro a ha
          rw [List.flatten_cons, List.mem_append] at ha
          exact ha.elim (oy a) (oys a)
        · simp only [List.flatten_cons, List.map_append, List.sum_append, hv, hvs]
        · simp only [List.flatten_cons, List.append_eq_nil_iff, hn, hns]

/-- C37: for every outcome of the geometric tests and of the tetrahedralisation, the two kinds of intersection either
both raise the same exception, or both return `None`, or return objects of exactly the same volume. -/
theorem C37_volume (draws : Simplex 4 → Simplex 4 → (n : Nat) → Draws n) (delaunay : Simplex 4 → Simplex 4 → Delaunay)
    (obj1 obj2 : Obj 4) (ok1 : Obj.Ok obj1) (ok2 : Obj.Ok obj2) :
    let std := intersectionApi .standard draws delaunay (.d4 obj1) (.d4 obj2)
    let simple := intersectionApi .simple draws delaunay (.d4 obj1) (.d4 obj2)
    (∃ e, std = .error e ∧ simple = .error e) ∨ (std = .ok none ∧ simple = .ok none) ∨
      ∃ a b v, std = .ok (some a) ∧ simple = .ok (some b) ∧ objVolume6d (.d4 a) = .ok (some v) ∧
        objVolume6d (.d4 b) = .ok (some v) := by
  intro std simple
  cases hc : centroidObj arith obj2 with
  | error e => exact .inl ⟨e, by simp only [std, intersectionApi, intersectionTwoObj1, hc, bind_error'],
      by simp only [simple, intersectionApi, intersectionTwoObj1, hc, bind_error']⟩
  | ok c =>
  cases hd : ballRadiusObj .ico obj2 c with
  | error e => exact .inl ⟨e, by simp only [std, intersectionApi, intersectionTwoObj1, hc, hd, bind_ok', bind_error'],
      by simp only [simple, intersectionApi, intersectionTwoObj1, hc, hd, bind_ok', bind_error']⟩
  | ok d =>
  simp only [std, simple, intersectionApi, intersectionTwoObj1, hc, hd, bind_ok']
  unfold intersectionTwoObj
  rcases fillList_sameVol (l := obj1) (fun t ht => onePiece_sameVol (rough := fun t => roughCheck .ico t c d)
    (flag := fun s t => .ok (checkTwoTetrahedra s t))
    (inter := fun s t => intersectionTwoTetrahedra (draws s t) (delaunay s t) s t) (ok1 t ht) ok2
    (fun u hu o ho => (intersectionTwo_ok (ok1 t ht) (ok2 u hu) ho).2)) with
    ⟨e, h1, h2⟩ | ⟨x, y, h1, h2, ox, oy, hv, hn⟩
  · exact .inl ⟨e, by rw [h1, bind_error'], by rw [h2, bind_error']⟩
  · rw [h1, bind_ok', h2, bind_ok']
    by_cases hx : x.flatten = []
    · have hy := hn.1 hx
      rw [hx, hy]
      exact .inr (.inl ⟨rfl, rfl⟩)
    · have hy := fun h => hx (hn.2 h)
      rw [if_pos (fun h => hx (List.length_eq_zero_iff.1 h)), if_pos (fun h => hy (List.length_eq_zero_iff.1 h))]
      refine .inr (.inr ⟨_, _, _, rfl, rfl, objVolume_ok ox, ?_⟩)
      rw [objVolume_ok oy, hv]

/-- The half of `exCorner` next to its right-angled corner. -/
def exHalfA : Simplex 4 := ![cart 0 0 0 1, cart 1 0 0 2, cart 0 1 0 1, cart 0 0 1 1]
/-- The other half of `exCorner`. -/
def exHalfB : Simplex 4 := ![cart 1 0 0 2, cart 1 0 0 1, cart 0 1 0 1, cart 0 0 1 1]

theorem perps_exHalfA : Package.ico.perps exHalfA = ![![0, 0, 0], ![1 / 2, 0, 0], ![0, 1, 0], ![0, 0, 1]] := by
  funext i
  fin_cases i <;> simp [Package.perps, exHalfA, perp_cart]

theorem perps_exHalfB : Package.ico.perps exHalfB = ![![1 / 2, 0, 0], ![1, 0, 0], ![0, 1, 0], ![0, 0, 1]] := by
  funext i
  fin_cases i <;> simp [Package.perps, exHalfB, perp_cart]

theorem exHalf_codes : checkTwoTetrahedra exCorner exHalfA = 2 ∧ checkTwoTetrahedra exCorner exHalfB = 2 := by
  have key : ∀ {t : Simplex 4} (i k : Fin 4) (w : Fin 4 → ℝ) (W : Fin 4 → Fin 4 → ℝ),
      IsBary (Package.ico.perps t) w (Package.ico.perps exCorner i) → w k ≤ -1 →
      (∀ j, IsBary (Package.ico.perps exCorner) (W j) (Package.ico.perps t j)) → (∀ j l, 0 ≤ W j l) →
      checkTwoTetrahedra exCorner t = 2 := by
    intro t i k w W hw hk hW hp
    refine (C36_codes _ _).2.1.2 ⟨fun h => ?_, fun j => (C32_exact _ _).1 (C32_complete _ _ ?_ ?_)⟩
    · have := C32_reject _ _ w hw k (hk.trans (by norm_num))
      rw [(C32_exact _ _).2 (h i)] at this
      cases this
    · rw [tetVol_exCorner]; norm_num
    · exact mem_solid_iff.2 ⟨W j, hW j, hp j⟩
  constructor
  · refine key 1 0 ![-1, 2, 0, 0] ![![1, 0, 0, 0], ![1 / 2, 1 / 2, 0, 0], ![0, 0, 1, 0], ![0, 0, 0, 1]] ?_ (by simp) ?_ ?_
    · rw [isBary_four, perps_exHalfA, perps_exCorner]
      refine ⟨by simp; norm_num, fun j => ?_⟩
      fin_cases j <;> simp
    · intro j
      rw [isBary_four, perps_exHalfA, perps_exCorner]
      fin_cases j <;> refine ⟨by simp <;> norm_num, fun j => ?_⟩ <;> fin_cases j <;> simp
    · intro j l; fin_cases j <;> fin_cases l <;> simp
  · refine key 0 1 ![2, -1, 0, 0] ![![1 / 2, 1 / 2, 0, 0], ![0, 1, 0, 0], ![0, 0, 1, 0], ![0, 0, 0, 1]] ?_ (by simp) ?_ ?_
    · rw [isBary_four, perps_exHalfB, perps_exCorner]
      refine ⟨by simp; norm_num, fun j => ?_⟩
      fin_cases j <;> simp
    · intro j
      rw [isBary_four, perps_exHalfB, perps_exCorner]
      fin_cases j <;> refine ⟨by simp <;> norm_num, fun j => ?_⟩ <;> fin_cases j <;> simp
    · intro j l; fin_cases j <;> fin_cases l <;> simp

/-- Two pieces inside the tetrahedron, filling it. -/
theorem two_halves {rough : Simplex 4 → Py Bool} {flag : Simplex 4 → Simplex 4 → Py Nat}
    {inter : Simplex 4 → Simplex 4 → Py (Option (Obj 4))} {t a b : Simplex 4} {v : Num3} (hr : rough t = .ok true)
    (ha : flag t a = .ok 2) (hb : flag t b = .ok 2) (hv : tetrahedronVolume6d t = .ok v)
    (hv2 : objVolume6d (.d4 [a, b]) = .ok (some v)) :
    intersectionTwoObj .standard rough flag inter [t] [a, b] = .ok (some [a, b]) ∧
    intersectionTwoObj .simple rough flag inter [t] [a, b] = .ok (some [t]) := by
  constructor <;> simp [intersectionTwoObj, fillList, onePiece, innerLoop, hr, ha, hb, hv, hv2, bind_ok']

/-- A case where the two kinds return different objects: `exCorner` against its own two halves. -/
theorem exHalf_result (draws : Simplex 4 → Simplex 4 → (n : Nat) → Draws n)
    (delaunay : Simplex 4 → Simplex 4 → Delaunay) :
    intersectionTwoObj1 .standard draws delaunay [exCorner] [exHalfA, exHalfB] = .ok (some [exHalfA, exHalfB]) ∧
    intersectionTwoObj1 .simple draws delaunay [exCorner] [exHalfA, exHalfB] = .ok (some [exCorner]) := by
  have ok : Obj.Ok [exHalfA, exHalfB] := by
    intro t ht i
    simp only [List.mem_cons, List.not_mem_nil, or_false] at ht
    rcases ht with rfl | rfl <;> fin_cases i <;> exact cart_ok (by decide)
  have ok1 : Simplex.Ok exCorner := by intro i; fin_cases i <;> exact cart_ok (by decide)
  have e0 : exCorner 0 = exHalfA 0 := by decide
  have hv1 : tetrahedronVolume6d exCorner = .ok ⟨1, 0, 6⟩ := by decide +kernel
  have hv2 : objVolume6d (.d4 [exHalfA, exHalfB]) = .ok (some ⟨1, 0, 6⟩) := by decide +kernel
  have hr : ∀ c d, centroidObj arith [exHalfA, exHalfB] = .ok c → ballRadiusObj .ico [exHalfA, exHalfB] c = .ok d →
      roughCheck .ico exCorner c d = .ok true := by
    intro c d hc hd
    have hr := C35_object .ico (by decide) exCorner [exHalfA, exHalfB] ok1 ok exHalfA (by simp)
      (Package.ico.perps exHalfA 0) (subset_convexHull ℝ _ ⟨0, congrArg Package.ico.perp e0⟩)
      (subset_convexHull ℝ _ ⟨0, rfl⟩)
    rw [show Package.ico.arith = arith from rfl, hc, bind_ok', hd, bind_ok'] at hr
    exact hr
  obtain ⟨c, d, -, hc, hd, e⟩ := intersectionTwoObj1_eq .standard draws delaunay (obj1 := [exCorner]) ok (by simp)
  obtain ⟨c', d', -, hc', hd', e'⟩ := intersectionTwoObj1_eq .simple draws delaunay (obj1 := [exCorner]) ok (by simp)
  rw [e, e']
  have f1 := congrArg (Except.ok (ε := PyErr)) exHalf_codes.1
  have f2 := congrArg (Except.ok (ε := PyErr)) exHalf_codes.2
  exact ⟨(two_halves (flag := fun s t => .ok (checkTwoTetrahedra s t)) (hr c d hc hd) f1 f2 hv1 hv2).1,
    (two_halves (flag := fun s t => .ok (checkTwoTetrahedra s t)) (hr c' d' hc' hd') f1 f2 hv1 hv2).2⟩

/-- The hypotheses of `C38_two` are met by `exCorner` and its half `exHalfA`. -/
example : ∃ draws delaunay o, intersectionTwoTetrahedra draws delaunay exCorner exHalfA = .ok (some o) := by
  have ok1 : Simplex.Ok exCorner := by intro i; fin_cases i <;> exact cart_ok (by decide)
  have ok2 : Simplex.Ok exHalfA := by intro i; fin_cases i <;> exact cart_ok (by decide)
  simp only [intersectionTwo_eq ok1 ok2]
  have e : ∀ k, Package.ico.perp (exHalfA k) = Package.ico.perps exHalfA k := fun _ => rfl
  refine tetrahedralizeCommon_exists (fun v hv => (commonPts_near ok1 ok2 hv).1) (q := exHalfA) (fun k => ?_) ⟨2, ?_⟩ ?_
  · refine List.mem_append_right _ (List.mem_filter.2 ⟨(List.mem_ofFn' _ _).mpr ⟨k, rfl⟩, (C32_perp _ _).2 ?_⟩)
    exact ((C36_codes _ _).2.1.1 exHalf_codes.1).2 k
  · rw [e, e, e, perps_exHalfA]
    simp [cross_apply]; norm_num
  · rw [e, e, e, e, perps_exHalfA]
    simp [cross_apply]; norm_num

end PyQC
