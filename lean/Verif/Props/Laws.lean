import Verif.Spec.Laws
import Verif.Lemmas.Motion
import Verif.Lemmas.Sweep
import Verif.Props.Hull
import Verif.Props.Chamber
import Verif.Props.Decide
/-!
# C106 Laws of the intersection, C107 intersections of asymmetric units (ico2)
-/
namespace PyQC
open Matrix MeasureTheory Ico

theorem Almost.motion {f : (Fin 3 → ℝ) → Fin 3 → ℝ} (hf : IsMotion f) {A B : Set (Fin 3 → ℝ)} (h : Almost A B) :
    Almost (f '' A) (f '' B) := by
  constructor
  · rw [← Set.image_sdiff hf.injective, hf.volume]; exact h.1
  · rw [← Set.image_sdiff hf.injective, hf.volume]; exact h.2

/-- What the results so far say about one call. -/
theorem intersection_result {kind : Kind} {draws : Simplex 4 → Simplex 4 → (n : Nat) → Draws n}
    {delaunay : Simplex 4 → Simplex 4 → Delaunay} (hD : ∀ s t, TilesHull (delaunay s t)) {a b : Obj 4} (h : ResolvedObjects a b)
    {r : Option (Obj 4)} (hr : intersectionApi kind draws delaunay (.d4 a) (.d4 b) = .ok r) :
    Obj.Ok (r.getD []) ∧ Package.ico.NoOverlap (r.getD []) ∧
      Almost (content r) (Package.ico.region a ∩ Package.ico.region b) ∧
      ∃ w, exactVolume r = .ok (some w) ∧ ENNReal.ofReal (w.val tau) = volume (Package.ico.region a ∩ Package.ico.region b) := by
  have h1 := C63_objects kind draws delaunay a b (fun s _ t _ => hD s t) h.ok1 h.ok2 h.apart1 h.apart2 h.pairs r hr
  cases r with
  | none =>
    have hz := h1.1 rfl
    refine ⟨fun s hs => by simp at hs, List.Pairwise.nil, ⟨?_, ?_⟩, ⟨0, 0, 1⟩, ?_, ?_⟩
    · simp [content, region_nil]
    · simpa [content, region_nil] using hz
    · rfl
    · rw [hz]; simp [Num3.val]
  | some o =>
    obtain ⟨h2, h3, h4⟩ := C63_exact kind draws delaunay a b (fun s _ t _ => hD s t) h.ok1 h.ok2 h.apart1 h.apart2 h.pairs o hr
    obtain ⟨w, hw, hv⟩ := h1.2 o rfl
    exact ⟨intersectionApi_ok h.ok1 h.ok2 hr, h2, ⟨h4, h3⟩, w, hw, hv.symm⟩

theorem exact_triple {o o' : Obj 4} {v v' : Num3} (h : Obj.Ok o) (h' : Obj.Ok o') (hv : objVolume6d (.d4 o) = .ok (some v))
    (hv' : objVolume6d (.d4 o') = .ok (some v')) (e : ENNReal.ofReal (v.val tau) = ENNReal.ofReal (v'.val tau)) :
    objVolume6d (.d4 o) = objVolume6d (.d4 o') := by
  rw [hv, hv', volume_triple h h' hv hv' e]

/-- Two calls whose arguments have common parts of equal volume have outcomes of equal exact volume. -/
theorem same_volume {kind kind' : Kind} {draws draws' : Simplex 4 → Simplex 4 → (n : Nat) → Draws n}
    {delaunay delaunay' : Simplex 4 → Simplex 4 → Delaunay} (hD : ∀ s t, TilesHull (delaunay s t))
    (hD' : ∀ s t, TilesHull (delaunay' s t)) {a b a' b' : Obj 4} (h : ResolvedObjects a b) (h' : ResolvedObjects a' b')
    {r r' : Option (Obj 4)} (hr : intersectionApi kind draws delaunay (.d4 a) (.d4 b) = .ok r)
    (hr' : intersectionApi kind' draws' delaunay' (.d4 a') (.d4 b') = .ok r')
    (e : volume (Package.ico.region a ∩ Package.ico.region b) = volume (Package.ico.region a' ∩ Package.ico.region b')) :
    exactVolume r = exactVolume r' := by
  obtain ⟨o1, -, -, w, hw, hv⟩ := intersection_result hD h hr
  obtain ⟨o2, -, -, w', hw', hv'⟩ := intersection_result hD' h' hr'
  exact exact_triple o1 o2 hw hw' (by rw [hv, hv', e])

/-! ## The calls return -/

theorem innerLoop_total {flag : Simplex 4 → Simplex 4 → Py Nat} {inter : Simplex 4 → Simplex 4 → Py (Option (Obj 4))}
    {t1 : Simplex 4} (l : Obj 4) (h1 : ∀ t ∈ l, ∃ f, flag t1 t = .ok f)
    (h3 : ∀ t ∈ l, flag t1 t = .ok 3 → ∃ r, inter t1 t = .ok r) (acc : Obj 4) :
    ∃ r, innerLoop flag inter t1 acc l = .ok r := by
  induction l generalizing acc with
  | nil => exact ⟨_, rfl⟩
  | cons t l ih =>
    have ih' := ih (fun t ht => h1 t (by simp [ht])) (fun t ht => h3 t (by simp [ht]))
    unfold innerLoop
    obtain ⟨f, hf⟩ := h1 t (by simp)
    rw [hf, bind_ok']
    by_cases f1 : f = 1
    · rw [if_pos f1]; exact ⟨_, rfl⟩
    · rw [if_neg f1]
      by_cases f2 : f = 2
      · rw [if_pos f2]; exact ih' _
      · rw [if_neg f2]
        by_cases f3 : f = 3
        · rw [if_pos f3]
          obtain ⟨o, ho⟩ := h3 t (by simp) (by rw [hf, f3])
          rw [ho, bind_ok']
          cases o with
          | none => exact ih' _
          | some o => exact ih' _
        · rw [if_neg f3]; exact ih' _

theorem intersectionTwoObj_total {kind : Kind} {rough : Simplex 4 → Py Bool} {flag : Simplex 4 → Simplex 4 → Py Nat}
    {inter : Simplex 4 → Simplex 4 → Py (Option (Obj 4))} {obj1 obj2 : Obj 4} (ok1 : Obj.Ok obj1) (ok2 : Obj.Ok obj2)
    (hr : ∀ s ∈ obj1, ∃ b, rough s = .ok b) (h1 : ∀ s ∈ obj1, ∀ t ∈ obj2, ∃ f, flag s t = .ok f)
    (h3 : ∀ s ∈ obj1, ∀ t ∈ obj2, flag s t = .ok 3 → ∃ r, inter s t = .ok r ∧ Obj.Ok (r.getD [])) :
    ∃ r, intersectionTwoObj kind rough flag inter obj1 obj2 = .ok r := by
  have hone : ∀ s ∈ obj1, ∃ p, onePiece kind rough flag inter obj2 s = .ok p := by
    intro s hs
    unfold onePiece
    obtain ⟨b, hb⟩ := hr s hs
    rw [hb, bind_ok']
    cases b with
    | false => exact ⟨_, rfl⟩
    | true =>
      rw [if_pos rfl]
      obtain ⟨⟨inside, tmp⟩, hl⟩ := innerLoop_total (flag := flag) (inter := inter) (t1 := s) obj2 (h1 s hs)
        (fun t ht hf => let ⟨r, hr, _⟩ := h3 s hs t ht hf; ⟨r, hr⟩) []
      have htmp : Obj.Ok tmp := (innerLoop_all (Q := Simplex.Ok) obj2 (fun t ht _ => ok2 t ht)
        (fun t ht o hf ho => by
          obtain ⟨r, hr, hok⟩ := h3 s hs t ht hf
          rw [ho] at hr
          cases hr
          exact hok) [] (by simp) _ hl).1
      rw [hl, bind_ok']
      simp only
      by_cases hn : tmp.length ≠ 0
      · rw [if_pos hn]
        cases kind with
        | standard => exact ⟨_, rfl⟩
        | simple =>
          simp only
          rw [tetrahedronVolume6d_ok (ok1 s hs), bind_ok', objVolume_ok htmp, bind_ok']
          split
          · exact ⟨_, rfl⟩
          · exact ⟨_, rfl⟩
      · rw [if_neg hn]; exact ⟨_, rfl⟩
  unfold intersectionTwoObj
  have hfill : ∃ parts, fillList (onePiece kind rough flag inter obj2) obj1 = .ok parts := by
    clear h1 h3 ok1 hr
    induction obj1 with
    | nil => exact ⟨[], rfl⟩
    | cons a l ih =>
      obtain ⟨p, hp⟩ := hone a (by simp)
      obtain ⟨ps, hps⟩ := ih (fun s hs => hone s (by simp [hs]))
      unfold fillList
      rw [hp]
      simp only
      rw [hps]
      exact ⟨_, rfl⟩
  obtain ⟨parts, hparts⟩ := hfill
  rw [hparts, bind_ok']
  split
  · exact ⟨_, rfl⟩
  · exact ⟨_, rfl⟩


/-- Tetrahedra that have a common point have a common interior point. -/
def SolidContacts (a b : Obj 4) : Prop :=
  ∀ s ∈ a, ∀ t ∈ b, (solid (Package.ico.perps s) ∩ solid (Package.ico.perps t)).Nonempty →
    (interior (solid (Package.ico.perps s) ∩ solid (Package.ico.perps t))).Nonempty

/-- C106: the call returns whenever tetrahedra that touch have a common interior point. -/
theorem C106_returns (kind : Kind) (draws : Simplex 4 → Simplex 4 → (n : Nat) → Draws n)
    (delaunay : Simplex 4 → Simplex 4 → Delaunay) (hD : ∀ s t, FillsHull (delaunay s t)) (a b : Obj 4) (h0 : b ≠ [])
    (h : ResolvedObjects a b) (hc : SolidContacts a b) :
    ∃ r, intersectionApi kind draws delaunay (.d4 a) (.d4 b) = .ok r := by
  obtain ⟨c, d, hcok, hcc, hd, e⟩ := intersectionTwoObj1_eq kind draws delaunay (obj1 := a) h.ok2 h0
  change ∃ r, intersectionTwoObj1 kind draws delaunay a b = .ok r
  rw [e]
  refine intersectionTwoObj_total h.ok1 h.ok2 (fun s hs => ?_) (fun s hs t ht => ⟨_, rfl⟩) (fun s hs t ht h3 => ?_)
  · obtain ⟨R, -, -, b, hb, -⟩ := roughCheck_ok .ico (by decide) s c (h.ok1 s hs) hcok d
    exact ⟨b, hb⟩
  · have h3 := ((C58_codes s t (h.pairs s hs t ht)).2.2.1.1 (Except.ok.inj h3)).2.2
    obtain ⟨o, ho, -⟩ := C58_two (draws s t) (delaunay s t) (hD s t) s t (h.ok1 s hs) (h.ok2 t ht) (h.pairs s hs t ht)
      (hc s hs t ht h3)
    exact ⟨_, ho, (intersectionTwo_ok (h.ok1 s hs) (h.ok2 t ht) ho).2⟩

/-! ## C106 -/

/-- C106: the exact volume of an intersection, and what it covers up to volume zero, do not depend on the `kind`, on the
random numbers drawn, or on how the library tiles convex hulls. -/
theorem C106_choices (kind kind' : Kind) (draws draws' : Simplex 4 → Simplex 4 → (n : Nat) → Draws n)
    (delaunay delaunay' : Simplex 4 → Simplex 4 → Delaunay) (hD : ∀ s t, TilesHull (delaunay s t))
    (hD' : ∀ s t, TilesHull (delaunay' s t)) (a b : Obj 4) (h : ResolvedObjects a b) (r r' : Option (Obj 4))
    (hr : intersectionApi kind draws delaunay (.d4 a) (.d4 b) = .ok r)
    (hr' : intersectionApi kind' draws' delaunay' (.d4 a) (.d4 b) = .ok r') :
    exactVolume r = exactVolume r' ∧ Almost (content r) (content r') :=
  ⟨same_volume hD hD' h h hr hr' rfl,
    (intersection_result hD h hr).2.2.1.trans (intersection_result hD' h hr').2.2.1.symm⟩

theorem ResolvedObjects.symm {a b : Obj 4} (h : ResolvedObjects a b) : ResolvedObjects b a :=
  ⟨h.ok2, h.ok1, h.apart2, h.apart1, fun s hs t ht => (h.pairs t ht s hs).symm⟩

/-- C106: exchanging the two objects changes neither the exact volume nor, up to volume zero, what is covered. -/
theorem C106_exchange (kind kind' : Kind) (draws draws' : Simplex 4 → Simplex 4 → (n : Nat) → Draws n)
    (delaunay delaunay' : Simplex 4 → Simplex 4 → Delaunay) (hD : ∀ s t, TilesHull (delaunay s t))
    (hD' : ∀ s t, TilesHull (delaunay' s t)) (a b : Obj 4) (h : ResolvedObjects a b) (r r' : Option (Obj 4))
    (hr : intersectionApi kind draws delaunay (.d4 a) (.d4 b) = .ok r)
    (hr' : intersectionApi kind' draws' delaunay' (.d4 b) (.d4 a) = .ok r') :
    exactVolume r = exactVolume r' ∧ Almost (content r) (content r') := by
  refine ⟨same_volume hD hD' h h.symm hr hr' (by rw [Set.inter_comm]), ?_⟩
  have := (intersection_result hD' h.symm hr').2.2.1.symm
  rw [Set.inter_comm] at this
  exact (intersection_result hD h hr).2.2.1.trans this

/-- Moving the pieces of an object moves what it covers. -/
theorem region_motion {p : Package} {m : Nat} {f : (Fin 3 → ℝ) → Fin 3 → ℝ} (hf : IsMotion f) {φ : Simplex m → Simplex m}
    (hφ : ∀ s i, p.perps (φ s) i = f (p.perps s i)) (o : Obj m) : p.region (o.map φ) = f '' p.region o := by
  have hs : ∀ s, solid (p.perps (φ s)) = f '' solid (p.perps s) := fun s => by
    rw [show p.perps (φ s) = fun i => f (p.perps s i) from funext (hφ s), hf.solid]
  ext x
  constructor
  · rintro ⟨a, ha, hx⟩
    obtain ⟨s, h, rfl⟩ := List.mem_map.mp ha
    rw [hs] at hx
    obtain ⟨y, hy, e⟩ := hx
    exact ⟨y, ⟨s, h, hy⟩, e⟩
  · rintro ⟨y, ⟨s, h, hy⟩, rfl⟩
    exact ⟨_, List.mem_map_of_mem h, by rw [hs]; exact ⟨y, hy, rfl⟩⟩

theorem noOverlap_motion {p : Package} {m : Nat} {f : (Fin 3 → ℝ) → Fin 3 → ℝ} (hf : IsMotion f) {φ : Simplex m → Simplex m}
    (hφ : ∀ s i, p.perps (φ s) i = f (p.perps s i)) {o : Obj m} (h : p.NoOverlap o) : p.NoOverlap (o.map φ) := by
  refine List.pairwise_map.mpr (List.Pairwise.imp (fun {a b} hab => ?_) h)
  rw [show p.perps (φ a) = fun i => f (p.perps a i) from funext (hφ a),
    show p.perps (φ b) = fun i => f (p.perps b i) from funext (hφ b), hf.solid, hf.solid, hf.interior, hf.interior,
    ← Set.image_inter hf.injective, hab, Set.image_empty]

theorem ResolvedObjects.motion {f : (Fin 3 → ℝ) → Fin 3 → ℝ} (hf : IsMotion f) {φ : Simplex 4 → Simplex 4}
    (hφ : ∀ s i, Package.ico.perps (φ s) i = f (Package.ico.perps s i)) (hok : ∀ s, Simplex.Ok (φ s)) {a b : Obj 4}
    (h : ResolvedObjects a b) : ResolvedObjects (a.map φ) (b.map φ) := by
  have ok : ∀ o : Obj 4, Obj.Ok (o.map φ) := fun o s hs => by
    obtain ⟨t, -, rfl⟩ := List.mem_map.mp hs
    exact hok t
  refine ⟨ok a, ok b, noOverlap_motion hf hφ h.apart1, noOverlap_motion hf hφ h.apart2, fun s hs t ht => ?_⟩
  obtain ⟨s, hs', rfl⟩ := List.mem_map.mp hs
  obtain ⟨t, ht', rfl⟩ := List.mem_map.mp ht
  rw [show Package.ico.perps (φ s) = fun i => f (Package.ico.perps s i) from funext (hφ s),
    show Package.ico.perps (φ t) = fun i => f (Package.ico.perps t i) from funext (hφ t)]
  exact hf.resolved (h.pairs s hs' t ht')

theorem motion_law {f : (Fin 3 → ℝ) → Fin 3 → ℝ} (hf : IsMotion f) {φ : Simplex 4 → Simplex 4}
    (hφ : ∀ s i, Package.ico.perps (φ s) i = f (Package.ico.perps s i)) (hok : ∀ s, Simplex.Ok (φ s))
    {kind kind' : Kind} {draws draws' : Simplex 4 → Simplex 4 → (n : Nat) → Draws n}
    {delaunay delaunay' : Simplex 4 → Simplex 4 → Delaunay} (hD : ∀ s t, TilesHull (delaunay s t))
    (hD' : ∀ s t, TilesHull (delaunay' s t)) {a b : Obj 4} (h : ResolvedObjects a b) {r r' : Option (Obj 4)}
    (hr : intersectionApi kind draws delaunay (.d4 a) (.d4 b) = .ok r)
    (hr' : intersectionApi kind' draws' delaunay' (.d4 (a.map φ)) (.d4 (b.map φ)) = .ok r') :
    exactVolume r = exactVolume r' ∧ Almost (content r') (Package.ico.region ((r.getD []).map φ)) := by
  have e : Package.ico.region (a.map φ) ∩ Package.ico.region (b.map φ) = f '' (Package.ico.region a ∩ Package.ico.region b) := by
    rw [region_motion hf hφ, region_motion hf hφ, Set.image_inter hf.injective]
  have h' := h.motion hf hφ hok
  refine ⟨same_volume hD hD' h h' hr hr' (by rw [e, hf.volume]), ?_⟩
  have h2 := (intersection_result hD' h' hr').2.2.1
  rw [e] at h2
  rw [region_motion hf hφ]
  exact h2.trans ((intersection_result hD h hr).2.2.1.symm.motion hf)

/-- C106: applying a symmetry operation of the icosahedral group about a centre to both objects applies it to their
intersection. -/
theorem C106_symmetry (kind kind' : Kind) (draws draws' : Simplex 4 → Simplex 4 → (n : Nat) → Draws n)
    (delaunay delaunay' : Simplex 4 → Simplex 4 → Delaunay) (hD : ∀ s t, TilesHull (delaunay s t))
    (hD' : ∀ s t, TilesHull (delaunay' s t)) (a b : Obj 4) (h : ResolvedObjects a b) (op : IMat 6 6)
    (hop : op ∈ Package.ico.symops) (c : Vec 6) (hc : Vec.Ok c) :
    ∃ a' b', symopObj .ico op a c = .ok a' ∧ symopObj .ico op b c = .ok b' ∧ ResolvedObjects a' b' ∧
      ∀ r r', intersectionApi kind draws delaunay (.d4 a) (.d4 b) = .ok r →
        intersectionApi kind' draws' delaunay' (.d4 a') (.d4 b') = .ok r' →
        exactVolume r = exactVolume r' ∧
          ∃ q, symopObj .ico op (r.getD []) c = .ok q ∧ Almost (content r') (Package.ico.region q) := by
  have hf := isMotion_spin (rot_spec hop).2 (Package.ico.perp c)
  have hφ : ∀ (s : Simplex 4) i, Package.ico.perps (symS .ico op c s) i =
    spin (Package.ico.rot op) (Package.ico.perp c) (Package.ico.perps s i) := fun s i => perps_symS hop c s i
  refine ⟨_, _, symopObj_ok op h.ok1 hc, symopObj_ok op h.ok2 hc, h.motion hf hφ (symS_ok op c), fun r r' hr hr' => ?_⟩
  obtain ⟨h1, h2⟩ := motion_law hf hφ (symS_ok op c) hD hD' h hr hr'
  exact ⟨h1, _, symopObj_ok op (intersection_result hD h hr).1 hc, h2⟩

/-- C106: moving both objects by the same vector moves their intersection. -/
theorem C106_shift (kind kind' : Kind) (draws draws' : Simplex 4 → Simplex 4 → (n : Nat) → Draws n)
    (delaunay delaunay' : Simplex 4 → Simplex 4 → Delaunay) (hD : ∀ s t, TilesHull (delaunay s t))
    (hD' : ∀ s t, TilesHull (delaunay' s t)) (a b : Obj 4) (h : ResolvedObjects a b) (v : Vec 6) (hv : Vec.Ok v) :
    ∃ a' b' : Obj 4, shiftApi .ico (.d4 a) v = .ok (some (.d4 a')) ∧ shiftApi .ico (.d4 b) v = .ok (some (.d4 b')) ∧
      ResolvedObjects a' b' ∧
      ∀ r r', intersectionApi kind draws delaunay (.d4 a) (.d4 b) = .ok r →
        intersectionApi kind' draws' delaunay' (.d4 a') (.d4 b') = .ok r' →
        exactVolume r = exactVolume r' ∧
          ∃ q : Obj 4, shiftApi .ico (.d4 (r.getD [])) v = .ok (some (.d4 q)) ∧ Almost (content r') (Package.ico.region q) := by
  have hf := isMotion_shift (Package.ico.perp v)
  have hφ : ∀ (s : Simplex 4) i, Package.ico.perps (fun i => nvec (kvec Package.ico.theta (s i) + kvec Package.ico.theta v)) i =
    Package.ico.perps s i + Package.ico.perp v := fun s i => perp_nvec_add (p := .ico) (s i) v
  have hok : ∀ s : Simplex 4, Simplex.Ok fun i => nvec (kvec Package.ico.theta (s i) + kvec Package.ico.theta v) :=
    fun s i => nvec_ok _
  have hs : ∀ o : Obj 4, Obj.Ok o → shiftApi .ico (.d4 o) v =
      .ok (some (.d4 (o.map fun s i => nvec (kvec Package.ico.theta (s i) + kvec Package.ico.theta v)))) := fun o ho => by
    simp only [shiftApi, shiftObj_ok .ico ho hv, bind_ok']
  refine ⟨_, _, hs a h.ok1, hs b h.ok2, h.motion hf hφ hok, fun r r' hr hr' => ?_⟩
  obtain ⟨h1, h2⟩ := motion_law hf hφ hok hD hD' h hr hr'
  exact ⟨h1, _, hs _ (intersection_result hD h hr).1, h2⟩

/-- C106: an object inside another one is its intersection with it. -/
theorem C106_inside (kind : Kind) (draws : Simplex 4 → Simplex 4 → (n : Nat) → Draws n)
    (delaunay : Simplex 4 → Simplex 4 → Delaunay) (hD : ∀ s t, TilesHull (delaunay s t)) (a b : Obj 4) (h : ResolvedObjects a b)
    (hin : Package.ico.region a ⊆ Package.ico.region b) (r : Option (Obj 4))
    (hr : intersectionApi kind draws delaunay (.d4 a) (.d4 b) = .ok r) :
    exactVolume r = objVolume6d (.d4 a) ∧ Almost (content r) (Package.ico.region a) := by
  obtain ⟨h1, -, h2, w, hw, hv⟩ := intersection_result hD h hr
  rw [Set.inter_eq_left.2 hin] at h2 hv
  obtain ⟨u, hu, -, he⟩ := C62_object a h.ok1
  exact ⟨exact_triple h1 h.ok1 hw hu (by rw [hv, he.2 h.apart1]), h2⟩

/-- C106: the intersection with an object made of two parts is as large as the intersections with the parts together. -/
theorem C106_parts (kind kind1 kind2 : Kind) (draws draws1 draws2 : Simplex 4 → Simplex 4 → (n : Nat) → Draws n)
    (delaunay delaunay1 delaunay2 : Simplex 4 → Simplex 4 → Delaunay) (hD : ∀ s t, TilesHull (delaunay s t))
    (hD1 : ∀ s t, TilesHull (delaunay1 s t)) (hD2 : ∀ s t, TilesHull (delaunay2 s t)) (a b1 b2 : Obj 4)
    (h : ResolvedObjects a (b1 ++ b2)) (r r1 r2 : Option (Obj 4))
    (hr : intersectionApi kind draws delaunay (.d4 a) (.d4 (b1 ++ b2)) = .ok r)
    (hr1 : intersectionApi kind1 draws1 delaunay1 (.d4 a) (.d4 b1) = .ok r1)
    (hr2 : intersectionApi kind2 draws2 delaunay2 (.d4 a) (.d4 b2) = .ok r2) :
    exactVolume r = objVolume6d (.d4 (r1.getD [] ++ r2.getD [])) ∧
      Almost (content r) (content r1 ∪ content r2) := by
  have n := List.pairwise_append.1 h.apart2
  have g1 : ResolvedObjects a b1 := ⟨h.ok1, fun s hs => h.ok2 s (List.mem_append_left _ hs), h.apart1, n.1,
    fun s hs t ht => h.pairs s hs t (List.mem_append_left _ ht)⟩
  have g2 : ResolvedObjects a b2 := ⟨h.ok1, fun s hs => h.ok2 s (List.mem_append_right _ hs), h.apart1, n.2.1,
    fun s hs t ht => h.pairs s hs t (List.mem_append_right _ ht)⟩
  obtain ⟨o, -, c, w, hw, hv⟩ := intersection_result hD h hr
  obtain ⟨o1, -, c1, w1, hw1, hv1⟩ := intersection_result hD1 g1 hr1
  obtain ⟨o2, -, c2, w2, hw2, hv2⟩ := intersection_result hD2 g2 hr2
  have oo : Obj.Ok (r1.getD [] ++ r2.getD []) := fun s hs => (List.mem_append.1 hs).elim (o1 s) (o2 s)
  constructor
  · obtain ⟨u, hu, -, eu⟩ := C17_volume _ oo
    obtain ⟨u1, hu1, -, eu1⟩ := C17_volume _ o1
    obtain ⟨u2, hu2, -, eu2⟩ := C17_volume _ o2
    have p1 := volume_nonneg o1 hw1
    have p2 := volume_nonneg o2 hw2
    rw [show objVolume6d _ = _ from hw1] at hu1
    rw [show objVolume6d _ = _ from hw2] at hu2
    cases hu1
    cases hu2
    refine exact_triple o oo hw hu ?_
    rw [eu, List.map_append, List.sum_append, ← eu1, ← eu2, ENNReal.ofReal_add p1 p2, hv, hv1, hv2,
      inter_region_sum (region_measurable a) h.apart2, inter_region_sum (region_measurable a) n.1,
      inter_region_sum (region_measurable a) n.2.1, List.map_append, List.sum_append]
  · rw [region_append, Set.inter_union_distrib_left] at c
    exact c.trans (c1.symm.union c2.symm)

/-- C106: the order in which three objects are intersected does not matter. -/
theorem C106_grouping (k1 k2 k3 k4 : Kind) (d1 d2 d3 d4 : Simplex 4 → Simplex 4 → (n : Nat) → Draws n)
    (l1 l2 l3 l4 : Simplex 4 → Simplex 4 → Delaunay) (h1 : ∀ s t, TilesHull (l1 s t)) (h2 : ∀ s t, TilesHull (l2 s t))
    (h3 : ∀ s t, TilesHull (l3 s t)) (h4 : ∀ s t, TilesHull (l4 s t)) (a b c : Obj 4) (ab bc : Option (Obj 4))
    (hab : ResolvedObjects a b) (hbc : ResolvedObjects b c)
    (rab : intersectionApi k1 d1 l1 (.d4 a) (.d4 b) = .ok ab) (rbc : intersectionApi k2 d2 l2 (.d4 b) (.d4 c) = .ok bc)
    (habc : ResolvedObjects (ab.getD []) c) (habc' : ResolvedObjects a (bc.getD [])) (r r' : Option (Obj 4))
    (hr : intersectionApi k3 d3 l3 (.d4 (ab.getD [])) (.d4 c) = .ok r)
    (hr' : intersectionApi k4 d4 l4 (.d4 a) (.d4 (bc.getD [])) = .ok r') :
    exactVolume r = exactVolume r' ∧ Almost (content r) (content r') := by
  have e1 := (intersection_result h1 hab rab).2.2.1
  have e2 := (intersection_result h2 hbc rbc).2.2.1
  have f1 := e1.inter (Almost.refl (Package.ico.region c))
  have f2 := (Almost.refl (Package.ico.region a)).inter e2
  rw [Set.inter_assoc] at f1
  have f := f1.trans f2.symm
  exact ⟨same_volume h3 h4 habc habc' hr hr' f.volume_eq,
    ((intersection_result h3 habc hr).2.2.1.trans f).trans (intersection_result h4 habc' hr').2.2.1.symm⟩

/-! ## C107 -/

theorem region_sweep {p : Package} {m : Nat} (o : Obj m) (c : Vec 6) :
    p.region (orbit p o c) = sweep p.symops.toFinset p.rot (p.perp c) (p.region o) := by
  ext x
  rw [region_orbit, mem_sweep]
  simp only [List.mem_toFinset]

theorem region_perm {p : Package} {m : Nat} {o o' : Obj m} (h : o.Perm o') : p.region o = p.region o' := by
  ext x
  simp only [Package.region, Set.mem_ofPred_eq, h.mem_iff]

/-- It is enough to check the pairs of one piece of the unit with all pieces of the symmetric object. -/
theorem orbit_pairs {a b : Obj 4} {c : Vec 6}
    (h : ∀ s ∈ a, ∀ t ∈ orbit .ico b c, Resolved (Package.ico.perps s) (Package.ico.perps t)) :
    ∀ s ∈ orbit .ico a c, ∀ t ∈ orbit .ico b c, Resolved (Package.ico.perps s) (Package.ico.perps t) := by
  intro s hs t ht
  obtain ⟨g, hg, hs⟩ := List.mem_flatMap.mp hs
  obtain ⟨s, hs', rfl⟩ := List.mem_map.mp hs
  obtain ⟨k, hk, ht⟩ := List.mem_flatMap.mp ht
  obtain ⟨t, ht', rfl⟩ := List.mem_map.mp ht
  obtain ⟨g', hg', e1, e2⟩ := symops_inv hg
  have hk' := symops_mul hg' hk
  have := h s hs' (symS .ico (npDot g' k) c t) (List.mem_flatMap.mpr ⟨_, hk', List.mem_map_of_mem ht'⟩)
  have := (isMotion_spin (rot_spec hg).2 (Package.ico.perp c)).resolved this
  have eS : (fun i => spin (Package.ico.rot g) (Package.ico.perp c) (Package.ico.perps s i)) = Package.ico.perps (symS .ico g c s) :=
    funext fun i => (perps_symS hg c s i).symm
  have eT : (fun i => spin (Package.ico.rot g) (Package.ico.perp c) (Package.ico.perps (symS .ico (npDot g' k) c t) i)) =
      Package.ico.perps (symS .ico k c t) := by
    funext i
    rw [perps_symS hk', perps_symS hk]
    simp only [spin, add_sub_cancel_right, mulVec_mulVec]
    rw [rot_mul hg' hk, ← Matrix.mul_assoc, ← rot_mul hg hg', e1, rot_one, Matrix.one_mul]
  rwa [eS, eT] at this

/-- C107: two objects in one asymmetric unit can be intersected first and completed by the symmetry afterwards: the
symmetric object generated by the intersection covers the common part of the two symmetric objects up to volume zero, its
exact volume is the measure of that part, and when the tolerances do not matter for the pairs of a piece of the first
unit and a piece of the second symmetric object, intersecting the symmetric objects gives the same exact volume and
covers the same points up to volume zero. -/
theorem C107_units (kind kind' : Kind) (draws draws' : Simplex 4 → Simplex 4 → (n : Nat) → Draws n)
    (delaunay delaunay' : Simplex 4 → Simplex 4 → Delaunay) (hD : ∀ s t, TilesHull (delaunay s t))
    (hD' : ∀ s t, TilesHull (delaunay' s t)) (a b : Obj 4) (h : ResolvedObjects a b) (c : Vec 6) (hc : Vec.Ok c)
    (hin : InUnit .ico (a ++ b) c) (r : Option (Obj 4))
    (hr : intersectionApi kind draws delaunay (.d4 a) (.d4 b) = .ok r) :
    ∃ A B R : Obj 4, ∃ w, symmetricApi .ico (.d4 a) c = .ok (some (.d4 A)) ∧
      symmetricApi .ico (.d4 b) c = .ok (some (.d4 B)) ∧ symmetricApi .ico (.d4 (r.getD [])) c = .ok (some (.d4 R)) ∧
      Almost (Package.ico.region R) (Package.ico.region A ∩ Package.ico.region B) ∧
      objVolume6d (.d4 R) = .ok (some w) ∧
      ENNReal.ofReal (w.val tau) = volume (Package.ico.region A ∩ Package.ico.region B) ∧
      ((∀ s ∈ a, ∀ t ∈ B, Resolved (Package.ico.perps s) (Package.ico.perps t)) →
        ∀ q, intersectionApi kind' draws' delaunay' (.d4 A) (.d4 B) = .ok q →
          exactVolume q = objVolume6d (.d4 R) ∧ Almost (content q) (Package.ico.region R)) := by
  obtain ⟨ok, -, hcov, u, hu, hv⟩ := intersection_result hD h hr
  have okab : Obj.Ok (a ++ b) := fun s hs => (List.mem_append.1 hs).elim (h.ok1 s) (h.ok2 s)
  have F := fund3 .ico
  obtain ⟨op, hop, hcone⟩ := hin.cone okab hc
  rw [List.map_append] at hcone
  have ha : Package.ico.region (a.map (symS .ico op c)) ⊆ coneAt Package.ico.wall (Package.ico.perp c) := by
    rintro x ⟨s, hs, hx⟩
    exact solid_cone (hcone s (List.mem_append_left _ hs)) hx
  have hb : Package.ico.region (b.map (symS .ico op c)) ⊆ coneAt Package.ico.wall (Package.ico.perp c) := by
    rintro x ⟨s, hs, hx⟩
    exact solid_cone (hcone s (List.mem_append_right _ hs)) hx
  have eo : ∀ o : Obj 4, Package.ico.region (orbit .ico o c) =
      sweep Package.ico.symops.toFinset Package.ico.rot (Package.ico.perp c) (Package.ico.region (o.map (symS .ico op c))) := fun o => by
    rw [← region_sweep, region_perm (orbit_unit o c hop)]
  have esp : Package.ico.region (a.map (symS .ico op c)) ∩ Package.ico.region (b.map (symS .ico op c)) =
      spin (Package.ico.rot op) (Package.ico.perp c) '' (Package.ico.region a ∩ Package.ico.region b) := by
    rw [region_map hop, region_map hop, Set.image_inter (spin_injective (rot_spec hop).2 _)]
  have hal : Almost (Package.ico.region (orbit .ico (r.getD []) c))
      (Package.ico.region (orbit .ico a c) ∩ Package.ico.region (orbit .ico b c)) := by
    have h1 := (hcov.spin (rot_spec hop).2 (Package.ico.perp c))
    rw [← esp, content, ← region_map hop] at h1
    have h2 := F.sweep_almost (c := Package.ico.perp c) h1
    rw [eo, eo a, eo b]
    exact h2.trans (F.sweep_inter ha hb).symm
  have hvol : volume (Package.ico.region (orbit .ico a c) ∩ Package.ico.region (orbit .ico b c)) =
      120 * volume (Package.ico.region a ∩ Package.ico.region b) := by
    have := F.sweep_measure (c := Package.ico.perp c)
      ((region_measurable (a.map (symS .ico op c))).inter (region_measurable (b.map (symS .ico op c)))) (fun x hx => ha hx.1)
    rw [eo a, eo b, (F.sweep_inter ha hb).volume_eq, this, card_symops, esp, volume_spin (rot_spec hop).2]
    norm_num [Package.order]
  obtain ⟨R, w, w', hR, hw, hw', e, -⟩ := C21_volume (r.getD []) c ok hc
  have := symmetricApi_orbit (p := .ico) ok hc
  rw [hR] at this
  cases this
  rw [show objVolume6d _ = _ from hu] at hw
  cases hw
  have hV : ENNReal.ofReal (w'.val tau) =
      volume (Package.ico.region (orbit .ico a c) ∩ Package.ico.region (orbit .ico b c)) := by
    rw [e, ENNReal.ofReal_mul (by norm_num), hv, hvol]
    norm_num
  refine ⟨_, _, _, w', symmetricApi_orbit h.ok1 hc, symmetricApi_orbit h.ok2 hc, hR, hal, hw', hV, fun hp q hq => ?_⟩
  have inA : InUnit .ico a c := by
    obtain ⟨g, hg, H⟩ := hin
    exact ⟨g, hg, fun s hs => H s (List.mem_append_left _ hs)⟩
  have inB : InUnit .ico b c := by
    obtain ⟨g, hg, H⟩ := hin
    exact ⟨g, hg, fun s hs => H s (List.mem_append_right _ hs)⟩
  have h' : ResolvedObjects (orbit .ico a c) (orbit .ico b c) := ⟨orbit_ok a c, orbit_ok b c,
    unit_noOverlap h.ok1 hc inA h.apart1, unit_noOverlap h.ok2 hc inB h.apart2, orbit_pairs hp⟩
  obtain ⟨okq, -, cq, v, hv1, hv2⟩ := intersection_result hD' h' hq
  exact ⟨exact_triple okq (orbit_ok _ c) hv1 hw' (by rw [hv2, hV]), cq.trans hal.symm⟩

/-! ## Cases that meet the hypotheses -/

theorem SolidContacts.symm {a b : Obj 4} (h : SolidContacts a b) : SolidContacts b a := fun s hs t ht hn => by
  rw [Set.inter_comm] at hn ⊢
  exact h t ht s hs hn

/-- A tetrahedron that contains all others touches them only in solid parts. -/
theorem contacts_of_codes {s : Simplex 4} {b : Obj 4} (h : ∀ t ∈ b, Resolved (Package.ico.perps s) (Package.ico.perps t))
    (hc : ∀ t ∈ b, checkTwoTetrahedra s t = 2) : SolidContacts [s] b := by
  intro s' hs t ht _
  rw [List.mem_singleton] at hs
  subst hs
  rw [Set.inter_eq_right.2 ((C58_codes s' t (h t ht)).2.1.1 (hc t ht)).2]
  have hd := det4_ne_iff.2 (h t ht).volT
  refine ⟨∑ i, (1 / 4 : ℝ) • Package.ico.perps t i, (interior_bc hd).2 fun i => ?_⟩
  rw [bc_eq hd (w := fun _ => 1 / 4) ⟨by norm_num, rfl⟩]
  norm_num

theorem exHalf_objects : ResolvedObjects [exCorner] [exHalfA, exHalfB] :=
  ⟨fun s hs => by rw [List.mem_singleton] at hs; subst hs; exact exCorner_ok, exHalf_ok, List.pairwise_singleton _ _,
    exHalf_noOverlap, exHalf_resolved⟩

theorem exHalf_contacts : SolidContacts [exCorner] [exHalfA, exHalfB] :=
  contacts_of_codes (fun t ht => exHalf_resolved _ (by simp) t ht) fun t ht => by
    simp only [List.mem_cons, List.not_mem_nil, or_false] at ht
    rcases ht with rfl | rfl
    · exact exHalf_codes.1
    · exact exHalf_codes.2

/-- The hypotheses of `C106_returns`, `C106_choices`, `C106_exchange` and `C106_parts` are met by a tetrahedron and its two
halves: all the calls return, and the two kinds return different objects. -/
example : ∃ delaunay : Simplex 4 → Simplex 4 → Delaunay, (∀ s t, TilesHull (delaunay s t)) ∧
    ResolvedObjects [exCorner] [exHalfA, exHalfB] ∧ SolidContacts [exCorner] [exHalfA, exHalfB] ∧
    ∀ draws, ∃ r r' r'' r1 r2, intersectionApi .standard draws delaunay (.d4 [exCorner]) (.d4 [exHalfA, exHalfB]) = .ok r ∧
      intersectionApi .simple draws delaunay (.d4 [exCorner]) (.d4 [exHalfA, exHalfB]) = .ok r' ∧ r ≠ r' ∧
      intersectionApi .simple draws delaunay (.d4 [exHalfA, exHalfB]) (.d4 [exCorner]) = .ok r'' ∧
      intersectionApi .standard draws delaunay (.d4 [exCorner]) (.d4 [exHalfA]) = .ok r1 ∧
      intersectionApi .standard draws delaunay (.d4 [exCorner]) (.d4 [exHalfB]) = .ok r2 := by
  obtain ⟨D, hD⟩ := exists_tiles
  refine ⟨fun _ _ => D, fun _ _ => hD, exHalf_objects, exHalf_contacts, fun draws => ?_⟩
  have hp := exHalf_objects
  have part : ∀ t ∈ [exHalfA, exHalfB], ResolvedObjects [exCorner] [t] ∧ SolidContacts [exCorner] [t] := fun t ht =>
    ⟨⟨hp.ok1, fun s hs => by rw [List.mem_singleton] at hs; subst hs; exact hp.ok2 _ ht, hp.apart1, List.pairwise_singleton _ _,
      fun s hs t' ht' => by rw [List.mem_singleton] at ht'; subst ht'; exact hp.pairs s hs _ ht⟩,
      fun s hs t' ht' => by rw [List.mem_singleton] at ht'; subst ht'; exact exHalf_contacts s hs _ ht⟩
  obtain ⟨r'', h''⟩ := C106_returns .simple draws (fun _ _ => D) (fun _ _ => hD.1) _ _ (by simp) hp.symm exHalf_contacts.symm
  obtain ⟨r1, h1⟩ := C106_returns .standard draws (fun _ _ => D) (fun _ _ => hD.1) _ _ (by simp)
    (part exHalfA (by simp)).1 (part exHalfA (by simp)).2
  obtain ⟨r2, h2⟩ := C106_returns .standard draws (fun _ _ => D) (fun _ _ => hD.1) _ _ (by simp)
    (part exHalfB (by simp)).1 (part exHalfB (by simp)).2
  obtain ⟨e1, e2⟩ := exHalf_result draws (fun _ _ => D)
  exact ⟨_, _, r'', r1, r2, e1, e2, by simp, h'', h1, h2⟩

theorem exUnit_objects : ResolvedObjects [exUnit] [exUnit] :=
  ⟨exUnit_ok, exUnit_ok, List.pairwise_singleton _ _, List.pairwise_singleton _ _, fun s hs t ht => by
    rw [List.mem_singleton] at hs ht
    subst hs ht
    exact (C58_decidable exUnit exUnit (exUnit_ok _ (by simp)) (exUnit_ok _ (by simp))).1 (by decide +kernel)⟩

/-- The hypotheses of `C107_units` are met by the asymmetric unit of the example, taken twice; its image under `symmetric` is
not empty. -/
example : ∃ delaunay : Simplex 4 → Simplex 4 → Delaunay, (∀ s t, TilesHull (delaunay s t)) ∧
    ResolvedObjects [exUnit] [exUnit] ∧ InUnit .ico ([exUnit] ++ [exUnit]) (fun _ => ⟨0, 0, 1⟩) ∧
    ∀ draws, ∃ r, intersectionApi .standard draws delaunay (.d4 [exUnit]) (.d4 [exUnit]) = .ok (some r) ∧
      exactVolume (some r) = objVolume6d (.d4 [exUnit]) := by
  obtain ⟨D, hD⟩ := exists_tiles
  refine ⟨fun _ _ => D, fun _ _ => hD, exUnit_objects, ?_, fun draws => ?_⟩
  · obtain ⟨g, hg, H⟩ := exUnit_in
    exact ⟨g, hg, fun s hs => H s (by simpa using hs)⟩
  · have hp := exUnit_objects
    have hr := hp.pairs exUnit (by simp) exUnit (by simp)
    obtain ⟨r, h⟩ := C106_returns .standard draws (fun _ _ => D) (fun _ _ => hD.1) _ _ (by simp) hp (by
      intro s hs t ht _
      rw [List.mem_singleton] at hs ht
      subst hs ht
      rw [Set.inter_self]
      have hd := det4_ne_iff.2 hr.volT
      refine ⟨∑ i, (1 / 4 : ℝ) • Package.ico.perps exUnit i, (interior_bc hd).2 fun i => ?_⟩
      rw [bc_eq hd (w := fun _ => 1 / 4) ⟨by norm_num, rfl⟩]
      norm_num)
    have hv := (C106_inside .standard draws (fun _ _ => D) (fun _ _ => hD) _ _ hp subset_rfl r h).1
    cases r with
    | none =>
      exfalso
      have h0 := (intersection_result (fun _ _ => hD) hp h).2.2.1.2
      have he : (Package.ico.region [exUnit] ∩ Package.ico.region [exUnit]) \ content none = solid (Package.ico.perps exUnit) := by
        ext x; simp [content, Package.region]
      rw [he, volume_solid, ENNReal.ofReal_eq_zero] at h0
      exact hr.volT (le_antisymm h0 (tetVol_nonneg _))
    | some r => exact ⟨r, h, hv⟩

end PyQC
