import Verif.Spec.RoundingTiles
import Verif.Props.RoundingPlanar
import Verif.Lemmas.MeasureRounded
/-!
# Tilings for rounded corners

When rounding keeps the points apart, there is a library behaviour on the rounded points that tiles the hull of the exact
ones.
-/
namespace PyQC
open Matrix

theorem canon_rational {θ : ℝ} [Quad θ] {t : Num3} (ht : t.Canon) {p q : ℤ} (hq : q ≠ 0) (h : t.val θ = (p : ℝ) / q) :
    t.b = 0 ∧ t.c ≤ |q| := by
  have hc : (t.c : ℝ) ≠ 0 := by exact_mod_cast ht.1.ne'
  have hq' : (q : ℝ) ≠ 0 := by exact_mod_cast hq
  unfold Num3.val at h
  rw [div_eq_div_iff hc hq'] at h
  obtain ⟨h1, h2⟩ := irr_zero_int θ (p := t.a * q - p * t.c) (q := t.b * q) (by push_cast; linear_combination h)
  have hb : t.b = 0 := (mul_eq_zero.1 h2).resolve_right hq
  refine ⟨hb, ?_⟩
  have hg := ht.2
  rw [hb, Int.natAbs_zero, Nat.gcd_zero_right] at hg
  have hco : IsCoprime t.c t.a := by
    rw [Int.isCoprime_iff_gcd_eq_one, Int.gcd_comm]; exact hg
  have hd : t.c ∣ q := hco.dvd_of_dvd_mul_left (Dvd.intro_left p (by linarith))
  exact Int.le_of_dvd (abs_pos.2 hq) ((dvd_abs _ _).2 hd)

theorem smallNum_rational {θ : ℝ} [Quad θ] {t : Num3} (ht : t.Canon) {p q : ℤ} (hq : q ≠ 0) (h : t.val θ = (p : ℝ) / q)
    (hq2 : |q| ≤ 2 ^ 20) {R : ℝ} (hR : |t.val θ| ≤ R) : SmallNum R t := by
  obtain ⟨hb, hc⟩ := canon_rational ht hq h
  have hc0 : (0 : ℝ) < t.c := by exact_mod_cast ht.1
  refine ⟨ht.1.ne', ?_, ?_⟩
  · rw [abs_of_pos hc0]
    have : (t.c : ℝ) ≤ 2 ^ 20 := by exact_mod_cast hc.trans hq2
    exact this.trans (by norm_num)
  · rw [hb]
    unfold Num3.val at hR
    rw [hb] at hR
    simp only [Int.cast_zero, zero_mul, add_zero, abs_div, abs_zero, mul_zero] at hR ⊢
    rwa [div_le_iff₀ (abs_pos.2 hc0.ne')] at hR

/-- Different fractions with small denominators are far apart. -/
theorem fraction_eq {x y ε : ℝ} {p q p' q' : ℤ} {N : ℕ} (hq : q ≠ 0) (hq' : q' ≠ 0) (hN : |q| ≤ N) (hN' : |q'| ≤ N)
    (hx : x = p / q) (hy : y = p' / q') (hε : ε * N ^ 2 < 1) (h : |x - y| ≤ ε) : x = y := by
  have e1 : (q : ℝ) ≠ 0 := by exact_mod_cast hq
  have e2 : (q' : ℝ) ≠ 0 := by exact_mod_cast hq'
  have e : x - y = ((p * q' - p' * q : ℤ) : ℝ) / ((q * q' : ℤ) : ℝ) := by
    rw [hx, hy]; push_cast; field_simp
  by_contra hne
  have h0 : p * q' - p' * q ≠ 0 := by
    intro h0
    rw [h0] at e
    simp at e
    exact hne (by linarith)
  have h1 : (1 : ℝ) ≤ |((p * q' - p' * q : ℤ) : ℝ)| := by exact_mod_cast Int.one_le_abs h0
  have h2 : |((q * q' : ℤ) : ℝ)| ≤ (N : ℝ) ^ 2 := by
    push_cast
    rw [abs_mul, sq]
    have a1 : |(q : ℝ)| ≤ N := by exact_mod_cast hN
    have a2 : |(q' : ℝ)| ≤ N := by exact_mod_cast hN'
    exact mul_le_mul a1 a2 (abs_nonneg _) ((abs_nonneg _).trans a1)
  have h3 : (0 : ℝ) < |((q * q' : ℤ) : ℝ)| := abs_pos.2 (by exact_mod_cast mul_ne_zero hq hq')
  rw [e, abs_div, div_le_iff₀ h3] at h
  have h4 : 0 ≤ ε := by
    by_contra hneg
    push Not at hneg
    nlinarith
  have := mul_le_mul_of_nonneg_left h2 h4
  linarith

/-- If the rounding keeps the points of a class apart, some library behaviour on rounded coordinates is any given
behaviour on the points. -/
theorem library_rounded (F : Float64) (D : Ico.Delaunay) (P : Vec 6 → Prop) (hok : ∀ v, P v → Vec.Ok v)
    (hinj : ∀ v w, P v → P w → F.numericalVector (nvec (Package.ico.kperp.mulVec (kvec Package.ico.theta v))) =
      F.numericalVector (nvec (Package.ico.kperp.mulVec (kvec Package.ico.theta w))) → Package.ico.perp v = Package.ico.perp w) :
    ∃ delaunay : Ico.Delaunay, ∀ r pns, (∀ v ∈ r, P v) → F.delaunayInput r = .ok pns →
      delaunay pns = D (r.map Package.ico.perp) := by
  classical
  refine ⟨fun pns => if h : ∃ r, (∀ v ∈ r, P v) ∧ F.delaunayInput r = .ok pns then D (h.choose.map Package.ico.perp) else none,
    fun r pns hr hi => ?_⟩
  have h : ∃ r, (∀ v ∈ r, P v) ∧ F.delaunayInput r = .ok pns := ⟨r, hr, hi⟩
  have hin : ∀ r : List (Vec 6), (∀ v ∈ r, P v) → F.delaunayInput r =
      .ok (r.map fun v => F.numericalVector (nvec (Package.ico.kperp.mulVec (kvec Package.ico.theta v)))) := fun r hr =>
    fillList_ok fun v hv => by
      rw [show Ico.projection3 v = Package.ico.projection3 v from rfl, Package.ico.projection3_ok (hok v (hr v hv)), bind_ok']
  have e : h.choose.map Package.ico.perp = r.map Package.ico.perp := by
    obtain ⟨h1, h2⟩ := h.choose_spec
    generalize h.choose = r' at h1 h2
    rw [hin r' h1, ← hi, hin r hr] at h2
    have h3 := Except.ok.inj h2
    refine List.ext_getElem (by simpa using congrArg List.length h3) fun n a b => ?_
    simp only [List.length_map] at a b
    simp only [List.getElem_map]
    refine hinj _ _ (h1 _ (List.getElem_mem _)) (hr _ (List.getElem_mem _)) ?_
    have := List.getElem_of_eq h3 (i := n) (by simpa using a)
    simpa only [List.getElem_map] using this
  simp only [dif_pos h, e]

/-- If the rounding keeps the points of a class apart, some library behaviour tiles the hulls of such points. -/
theorem tiles_rounded (F : Float64) (P : Vec 6 → Prop) (hok : ∀ v, P v → Vec.Ok v)
    (hinj : ∀ v w, P v → P w → F.numericalVector (nvec (Package.ico.kperp.mulVec (kvec Package.ico.theta v))) =
      F.numericalVector (nvec (Package.ico.kperp.mulVec (kvec Package.ico.theta w))) → Package.ico.perp v = Package.ico.perp w) :
    ∃ delaunay : Ico.Delaunay, ∀ r pns, (∀ v ∈ r, P v) → F.delaunayInput r = .ok pns → ¬ InPlane (r.map Package.ico.perp) →
      TilesHullOf (r.map Package.ico.perp) (delaunay pns) := by
  obtain ⟨D, hD⟩ := exists_tiles
  obtain ⟨delaunay, h⟩ := library_rounded F D P hok hinj
  refine ⟨delaunay, fun r pns hr hi hn => ?_⟩
  rw [h r pns hr hi]
  exact ⟨hD.1 _ hn, fun l hl => hD.2 _ _ hl⟩

/-- Coordinates that are fractions with small denominators are kept apart. -/
theorem perp_eq_of_rounded (F : Float64) {R : ℝ} (hR : 1 ≤ R) (hR2 : R ≤ 2 ^ 10) {N : ℕ} (hN : 18 * R / 2 ^ 53 * N ^ 2 < 1)
    (hN2 : (N : ℤ) ≤ 2 ^ 20) {v w : Vec 6}
    (hv : ∀ c, ∃ p q : ℤ, q ≠ 0 ∧ |q| ≤ N ∧ Package.ico.perp v c = (p : ℝ) / q)
    (hw : ∀ c, ∃ p q : ℤ, q ≠ 0 ∧ |q| ≤ N ∧ Package.ico.perp w c = (p : ℝ) / q)
    (bv : ∀ c, |Package.ico.perp v c| ≤ R) (bw : ∀ c, |Package.ico.perp w c| ≤ R)
    (h : F.numericalVector (nvec (Package.ico.kperp.mulVec (kvec Package.ico.theta v))) =
      F.numericalVector (nvec (Package.ico.kperp.mulVec (kvec Package.ico.theta w)))) :
    Package.ico.perp v = Package.ico.perp w := by
  have : Quad tau := Package.ico.quad
  funext c
  obtain ⟨p, q, h0, h1, e1⟩ := hv c
  obtain ⟨p', q', h0', h1', e1'⟩ := hw c
  have av : ((nvec (Package.ico.kperp.mulVec (kvec Package.ico.theta v))) c).val tau = Package.ico.perp v c :=
    congrFun (Package.ico.val_projection3 (v := v)) c
  have aw : ((nvec (Package.ico.kperp.mulVec (kvec Package.ico.theta w))) c).val tau = Package.ico.perp w c :=
    congrFun (Package.ico.val_projection3 (v := w)) c
  have bv' := bv c
  have bw' := bw c
  have s1 := C83_number F hR hR2 _ (smallNum_rational (θ := tau) (nvec_canon _ c) h0 (av.trans e1) (h1.trans hN2) (by rw [av]; exact bv'))
  have s2 := C83_number F hR hR2 _ (smallNum_rational (θ := tau) (nvec_canon _ c) h0' (aw.trans e1') (h1'.trans hN2) (by rw [aw]; exact bw'))
  rw [av] at s1
  rw [aw] at s2
  refine fraction_eq h0 h0' h1 h1' e1 e1' hN ?_
  have hc := congrFun h c
  unfold Float64.numericalVector at hc
  rw [hc] at s1
  rw [abs_le] at s1 s2 ⊢
  constructor <;> linarith [s1.1, s1.2, s2.1, s2.2]

theorem segment_bound {R a b t : ℝ} (ha : |a| ≤ R) (hb : |b| ≤ R) (h0 : 0 ≤ t) (h1 : t ≤ 1) : |a + t * (b - a)| ≤ R := by
  have e : a + t * (b - a) = (1 - t) * a + t * b := by ring
  rw [e]
  refine (abs_add_le _ _).trans ?_
  rw [abs_mul, abs_mul, abs_of_nonneg h0, abs_of_nonneg (by linarith : (0 : ℝ) ≤ 1 - t)]
  nlinarith [mul_le_mul_of_nonneg_left ha (by linarith : (0 : ℝ) ≤ 1 - t), mul_le_mul_of_nonneg_left hb h0]

theorem candidate_bound {S T : Fin 4 → Fin 3 → ℝ} {R : ℝ} (hS : ∀ i c, |S i c| ≤ R) (hT : ∀ i c, |T i c| ≤ R)
    {x : Fin 3 → ℝ} (h : Candidate S T x) (c : Fin 3) : |x c| ≤ R := by
  rcases h with ⟨i, rfl⟩ | ⟨i, rfl⟩ | h | h
  · exact hS i c
  · exact hT i c
  · obtain ⟨i, j, -, -, -, -, -, -, -, t, -, -, -, rfl, h0, h1, -⟩ := h
    exact segment_bound (hS i c) (hS j c) h0 h1
  · obtain ⟨i, j, -, -, -, -, -, -, -, t, -, -, -, rfl, h0, h1, -⟩ := h
    exact segment_bound (hT i c) (hT j c) h0 h1

/-- For the two tetrahedra of the examples, in binary64 arithmetic, a tiling of the common corners exists. -/
theorem exBigInv_tiles : ∃ delaunay : Ico.Delaunay, ∀ r pns,
    (∀ v ∈ r, Vec.Ok v ∧ Candidate (Package.ico.perps exBig) (Package.ico.perps exInv) (Package.ico.perp v)) →
      Rounding.binary64.float64.delaunayInput r = .ok pns → ¬ InPlane (r.map Package.ico.perp) →
      TilesHullOf (r.map Package.ico.perp) (delaunay pns) := by
  have hq : ∀ {x}, Candidate (Package.ico.perps exBig) (Package.ico.perps exInv) x →
      ∃ (q : ℤ) (p : Fin 3 → ℤ), q ≠ 0 ∧ |q| ≤ (8 : ℕ) ∧ ∀ c, x c = (p c : ℝ) / ((1 : ℕ) * q) := fun h => by
    refine candidate_quot (a := ![![0, 0, 0], ![2, 0, 0], ![0, 2, 0], ![0, 0, 2]])
      (b := ![![1, 1, 1], ![-1, 1, 1], ![1, -1, 1], ![1, 1, -1]]) (n := 1) (by norm_num) ?_ ?_ (by norm_num)
      (by decide +kernel) (by decide +kernel) h
    · rw [perps_exBig]
      intro i j
      fin_cases i <;> fin_cases j <;> simp
    · rw [perps_exInv]
      intro i j
      fin_cases i <;> fin_cases j <;> simp
  have hb : ∀ {x}, Candidate (Package.ico.perps exBig) (Package.ico.perps exInv) x → ∀ c, |x c| ≤ ((2 : ℕ) : ℝ) :=
    fun h => candidate_bound (by rw [perps_exBig]; intro i j; fin_cases i <;> fin_cases j <;> simp)
      (by rw [perps_exInv]; intro i j; fin_cases i <;> fin_cases j <;> simp) h
  have hf : ∀ {x}, Candidate (Package.ico.perps exBig) (Package.ico.perps exInv) x → ∀ c, ∃ p q : ℤ, q ≠ 0 ∧ |q| ≤ (8 : ℕ) ∧
      x c = (p : ℝ) / q := fun h c => by
    obtain ⟨q, p, h0, h1, h2⟩ := hq h
    exact ⟨p c, q, h0, h1, by rw [h2 c, Nat.cast_one, one_mul]⟩
  exact tiles_rounded _ _ (fun v h => h.1) fun v w hv hw => perp_eq_of_rounded _ (R := (2 : ℕ)) (N := 8) (by norm_num)
    (by norm_num) (by norm_num) (by norm_num) (hf hv.2) (hf hw.2) (hb hv.2) (hb hw.2)

end PyQC
