import Verif.Model.Rest
import Verif.Props.Coplanar
import Verif.Props.Single
/-!
# C20, C49, C74: single helpers at the level of the API
-/
namespace PyQC
open Matrix

/-! ## C20 -/

/-- C20: `symop_obj` applies the operation to every vector of what it accepts: a vector, a piece, an object. The shape is
kept and every vector is the one `symop_vec` returns. -/
theorem C20_accept (p : Package) (op : IMat 6 6) (c : Vec 6) (hc : Vec.Ok c) :
    (∀ v : Vec 6, Vec.Ok v → ∃ w, symopVec p op v c = .ok w ∧ symopApi p op (.d2 v) c = .ok (some (.d2 w))) ∧
    (∀ (m : Nat) (s : Simplex m), Simplex.Ok s → ∃ t : Simplex m, (∀ i, symopVec p op (s i) c = .ok (t i)) ∧
      symopApi p op (.d3 s) c = .ok (some (.d3 t))) ∧
    (∀ (m : Nat) (o : Obj m), Obj.Ok o → ∃ q : Obj m,
      List.Forall₂ (fun s t => ∀ i, symopVec p op (s i) c = .ok (t i)) o q ∧
      symopApi p op (.d4 o) c = .ok (some (.d4 q))) := by
  refine ⟨fun v hv => ⟨symV p op c v, symopVec_ok _ hv hc, ?_⟩,
    fun m s hs => ⟨symS p op c s, fun i => symopVec_ok _ (hs i) hc, ?_⟩,
    fun m o ho => ⟨o.map (symS p op c), ?_, ?_⟩⟩
  · simp only [symopApi, dif_pos, Fin.cast_eq_self, symopVec_ok _ hv hc, bind_ok']
  · simp only [symopApi, symopVecs_ok _ hs hc, bind_ok']
  · rw [List.forall₂_map_right_iff, List.forall₂_same]
    exact fun s hs i => symopVec_ok _ (ho s hs i) hc
  · simp only [symopApi, symopObj_ok _ ho hc, bind_ok']

example : Obj.Ok [exT, exT] ∧ Vec.Ok exV₀ := by decide +kernel

/-! ## C74 -/

/-- C74: the single-vector generator of dode2. With an index in range it returns the image of the vector at that position
of the list of all its images; negative indices count from the end; all others raise IndexError. -/
theorem C74_dode_vector (v c : Vec 6) (hv : Vec.Ok v) (hc : Vec.Ok c) :
    (∃ q : Obj 1, symmetricApi .dode (.d3 ![v]) c = .ok (some (.d4 q)) ∧ q.length = 24 ∧
      ∀ k (h : k < q.length), Dode.symmetricVec0 v c k = .ok (q[k] 0)) ∧
    (∀ k : Int, -24 ≤ k → k < 0 → Dode.symmetricVec0 v c k = Dode.symmetricVec0 v c (k + 24)) ∧
    ∀ k : Int, 24 ≤ k ∨ k < -24 → Dode.symmetricVec0 v c k = .error .indexError := by
  have hl : Dode.dodesymop.length = 24 := symops_length .dode
  have hs : Simplex.Ok ![v] := fun i => by fin_cases i; exact hv
  refine ⟨⟨Package.dode.symops.map fun op => symS .dode op c ![v], ?_, ?_, fun k hk => ?_⟩, fun k h1 h2 => ?_,
    fun k h => ?_⟩
  · simp only [symmetricApi, symmetricPiece_ok hs hc, bind_ok']
  · rw [List.length_map, symops_length]; rfl
  · have hk' : k < Dode.dodesymop.length := by rw [List.length_map] at hk; exact hk
    have e : pyItem Dode.dodesymop (k : Int) = .ok Dode.dodesymop[k] := by
      unfold pyItem
      simp only [if_neg (show ¬ (k : Int) < 0 by omega), Int.toNat_natCast, List.getElem?_eq_getElem hk']
    unfold Dode.symmetricVec0
    rw [e, bind_ok', symopVec_ok _ hv hc]
    simp only [List.getElem_map]
    rfl
  · have e : pyItem Dode.dodesymop k = pyItem Dode.dodesymop (k + 24) := by
      unfold pyItem
      simp only [hl, if_pos h2, if_neg (show ¬ k + 24 < 0 by omega), Nat.cast_ofNat]
    unfold Dode.symmetricVec0
    rw [e]
  · have e : pyItem Dode.dodesymop k = .error .indexError := by
      unfold pyItem
      simp only [hl, Nat.cast_ofNat]
      rcases h with h | h
      · rw [if_neg (show ¬ k < 0 by omega), if_neg (show ¬ k < 0 by omega), List.getElem?_eq_none (by omega)]
      · rw [if_pos (show k < 0 by omega), if_pos (by omega)]
    unfold Dode.symmetricVec0
    rw [e, bind_error']

example : Dode.symmetricVec0 (exT 2) exV₀ 1 ≠ Dode.symmetricVec0 (exT 2) exV₀ 0 := by decide +kernel

/-! ## C49 -/

/-- All points lie within `r` of the plane through three of them, which are not collinear. -/
def NearPlane (r : ℝ) (pts : List (Fin 3 → ℝ)) : Prop :=
  ∃ a ∈ pts, ∃ b ∈ pts, ∃ c ∈ pts, crossProduct (b - a) (c - a) ≠ 0 ∧
    ∀ x ∈ pts, |crossProduct (b - a) (c - a) ⬝ᵥ (x - a)| < r * norm3 (crossProduct (b - a) (c - a))

theorem nearPlane_of_accepted {pns : List (Fin 3 → ℝ)} {draws : Draws pns.length} (hl : 3 < pns.length)
    (h : coplanarCheckNumeric pns draws = some true) : NearPlane (1 / 10 ^ 4) pns := by
  obtain ⟨a, b, c, h1, h2⟩ := C49_accepted pns draws hl h
  refine ⟨_, List.get_mem pns a, _, List.get_mem pns b, _, List.get_mem pns c, h1, fun x hx => ?_⟩
  obtain ⟨i, rfl⟩ := List.get_of_mem hx
  exact h2 i

theorem checkNumeric_none {pns : List (Fin 3 → ℝ)} {draws : (n : Nat) → Draws n}
    (h : coplanarCheckNumeric pns (draws _) = none) : 3 < pns.length ∧ ∀ n, n = pns.length → ∀ d ∈ draws n, ∀ a b c,
      pns[(d.1 : Nat)]? = some a → pns[(d.2.1 : Nat)]? = some b → pns[(d.2.2 : Nat)]? = some c →
        ∀ k, |crossProduct (b - a) (c - a) k| < 1 / 10 ^ 6 := by
  by_cases hl : 3 < pns.length
  · refine ⟨hl, ?_⟩
    rintro _ rfl d hd a b c ha hb hc k
    rcases coplanarCheckNumeric_eq pns (draws _) hl with ⟨-, h2⟩ | ⟨_, -, -, b', hb', -⟩
    · have := h2 d hd k
      simp only [List.getElem?_eq_getElem, Fin.is_lt, Option.some.injEq] at ha hb hc
      rw [show (EPS : ℝ) = 1 / 10 ^ 6 by norm_num [EPS]] at this
      rw [← ha, ← hb, ← hc]
      exact this
    · rw [h] at hb'
      cases hb'
  · rw [C49_few pns (draws _) (by omega)] at h
    cases h

/-- C49: `coplanar_check` of dode2 judges the positions in the internal space of dode2: points accepted are within 10⁻⁴
of a plane through three of them, or there are at most three; points rejected are not in a plane. -/
theorem C49_dode (draws : (n : Nat) → Draws n) (pts : List (Vec 6)) :
    (Dode.coplanarCheck draws pts = some true → pts.length ≤ 3 ∨ NearPlane (1 / 10 ^ 4) (pts.map Package.dode.perp)) ∧
    (Dode.coplanarCheck draws pts = some false → ¬ InPlane (pts.map Package.dode.perp)) ∧
    (Dode.coplanarCheck draws pts = none → 3 < pts.length ∧ ∀ d ∈ draws pts.length, ∀ a b c, pts[(d.1 : Nat)]? = some a →
      pts[(d.2.1 : Nat)]? = some b → pts[(d.2.2 : Nat)]? = some c → ∀ k, |crossProduct (Package.dode.perp b - Package.dode.perp a)
        (Package.dode.perp c - Package.dode.perp a) k| < 1 / 10 ^ 6) := by
  have e : pts.map Package.dode.internalNumerical = pts.map Package.dode.perp :=
    List.map_congr_left fun v _ => Package.dode.internalNumerical_eq v
  unfold Dode.coplanarCheck
  rw [e]
  refine ⟨fun h => ?_, fun h => C49_rejected _ _ h, fun h => ?_⟩
  · by_cases hl : pts.length ≤ 3
    · exact .inl hl
    · exact .inr (nearPlane_of_accepted (by rw [List.length_map]; omega) h)
  · obtain ⟨h1, h2⟩ := checkNumeric_none h
    rw [List.length_map] at h1
    refine ⟨h1, fun d hd a b c ha hb hc => h2 _ (List.length_map _).symm d hd _ _ _ ?_ ?_ ?_⟩
    · rw [List.getElem?_map, ha]; rfl
    · rw [List.getElem?_map, hb]; rfl
    · rw [List.getElem?_map, hc]; rfl

/-- C49: what the coplanarity test of two triangles decides, for both packages. If it answers True, the six corners are
within 10⁻⁴ of a plane through three of them, or have at most three different positions. If it answers False although
the corners lie in a plane, then every triple drawn was nearly collinear. -/
theorem C49_two (p : Package) (draws : (n : Nat) → Draws n) (s t : Simplex 3) (hs : Simplex.Ok s) (ht : Simplex.Ok t) :
    ∃ pts : List (Fin 3 → ℝ), pts.Nodup ∧ (∀ x, x ∈ pts ↔ ∃ i, x = p.perp (s i) ∨ x = p.perp (t i)) ∧
      ((coplanarCheckTwoTriangles p draws s t = .ok true ∧ (pts.length ≤ 3 ∨ NearPlane (1 / 10 ^ 4) pts)) ∨
       (coplanarCheckTwoTriangles p draws s t = .ok false ∧ 3 < pts.length ∧ (InPlane pts → ∀ d ∈ draws pts.length,
          ∀ a b c, pts[(d.1 : Nat)]? = some a → pts[(d.2.1 : Nat)]? = some b → pts[(d.2.2 : Nat)]? = some c →
            ∀ k, |crossProduct (b - a) (c - a) k| < 1 / 10 ^ 6))) := by
  obtain ⟨r, hr, hmem, hnd, hall⟩ := C24_one_per_point p (List.ofFn s ++ List.ofFn t) (by
    intro v hv
    rcases List.mem_append.mp hv with h | h
    · obtain ⟨i, rfl⟩ := List.mem_ofFn.mp h; exact hs i
    · obtain ⟨i, rfl⟩ := List.mem_ofFn.mp h; exact ht i)
  have e : r.map p.internalNumerical = r.map p.perp := List.map_congr_left fun v _ => p.internalNumerical_eq v
  have ht : coplanarCheckTwoTriangles p draws s t =
      .ok (decide (coplanarCheckNumeric (r.map p.perp) (draws _) = some true)) := by
    unfold coplanarCheckTwoTriangles
    rw [hr, bind_ok', e]
  refine ⟨r.map p.perp, List.pairwise_map.mpr hnd, fun x => ⟨fun hx => ?_, ?_⟩, ?_⟩
  · obtain ⟨v, hv, rfl⟩ := List.mem_map.1 hx
    rcases List.mem_append.mp (hmem v hv) with h | h
    · obtain ⟨i, rfl⟩ := List.mem_ofFn.mp h; exact ⟨i, .inl rfl⟩
    · obtain ⟨i, rfl⟩ := List.mem_ofFn.mp h; exact ⟨i, .inr rfl⟩
  · rintro ⟨i, rfl | rfl⟩
    · obtain ⟨y, ⟨hy, e⟩, -⟩ := hall (s i) (List.mem_append_left _ (List.mem_ofFn.mpr ⟨i, rfl⟩))
      exact List.mem_map.2 ⟨y, hy, e⟩
    · obtain ⟨y, ⟨hy, e⟩, -⟩ := hall (t i) (List.mem_append_right _ (List.mem_ofFn.mpr ⟨i, rfl⟩))
      exact List.mem_map.2 ⟨y, hy, e⟩
  · rw [ht]
    rcases h : coplanarCheckNumeric (r.map p.perp) (draws _) with _ | _ | _
    · obtain ⟨h1, h2⟩ := checkNumeric_none h
      exact .inr ⟨rfl, h1, fun _ => h2 _ rfl⟩
    · refine .inr ⟨rfl, ?_, fun h' => absurd h' (C49_rejected _ _ h)⟩
      by_contra hl
      rw [C49_few _ _ (by omega)] at h
      cases h
    · refine .inl ⟨rfl, ?_⟩
      by_cases hl : (r.map p.perp).length ≤ 3
      · exact .inl hl
      · exact .inr (nearPlane_of_accepted (by omega) h)

example : Obj.Ok exQuad ∧ exQuad.length = 2 := by decide +kernel

/-- Not vacuous: with four points in a plane, three of them drawn on a line, the result is None; with a proper triple
it is True. -/
example : coplanarCheckNumeric exLine [(0, 1, 2)] = none ∧ coplanarCheckNumeric exLine [(0, 1, 3)] = some true := by
  refine ⟨?_, (C49_coplanar_partial exLine _ exLine_inPlane).2 ⟨(0, 1, 3), by simp, 2, ?_⟩⟩
  · rcases coplanarCheckNumeric_eq exLine [(0, 1, 2)] (by decide) with ⟨h, -⟩ | ⟨d, hd, ⟨c, hc⟩, -⟩
    · exact h
    · rw [List.mem_singleton.mp hd, exLine_normal.1] at hc
      norm_num [EPS] at hc
  · rw [exLine_normal.2, show (![0, 0, 1] : Fin 3 → ℝ) 2 = 1 from rfl]
    norm_num

end PyQC
