import Verif.Props.IntersectObj
import Verif.Model.Setops
/-!
# C51, C59: subtraction
-/
namespace PyQC
open Matrix Ico

/-! ## C51 -/

theorem subtractLoop_some (f : Simplex 4 → Py (Option (Obj 4))) (l : Obj 4) (rs : List (Obj 4)) (rest : Obj 4)
    (h : List.Forall₂ (fun t r => f t = .ok (some r)) l rs) (out : Option (Obj 4)) :
    subtractLoop f out (l ++ rest) =
      subtractLoop f (if l = [] then out else some (out.getD [] ++ rs.flatten)) rest := by
  induction h generalizing out with
  | nil => simp
  | @cons t r l rs h1 h2 ih =>
    rw [List.cons_append]
    conv_lhs => unfold subtractLoop
    rw [h1, bind_ok']
    simp only
    rw [ih]
    by_cases hl : l = []
    · subst hl
      cases h2
      simp
    · simp [hl]

/-- C51: when the difference of every piece is computed, the result is their concatenation in order (and `None` for an empty
first object). -/
theorem C51_all (order : Obj 3 → Obj 3) (draws : Simplex 4 → Simplex 4 → (n : Nat) → Draws n)
    (delaunay : Simplex 4 → Simplex 4 → Delaunay) (obj1 obj2 : Obj 4) (surf : Obj 3)
    (hs : generatorSurface1 obj2 = .ok surf) (rs : List (Obj 4))
    (h : List.Forall₂ (fun t r => tetrahedronNotObj order (intersectionTwoObj1 .standard draws delaunay [t] obj2) t obj2 surf =
      .ok (some r)) obj1 rs) :
    subtractionApi order draws delaunay (.d4 obj1) (.d4 obj2) = .ok (if obj1 = [] then none else some rs.flatten) := by
  change subtractionTwoObj order draws delaunay obj1 obj2 = _
  unfold subtractionTwoObj
  rw [hs, bind_ok']
  have := subtractLoop_some _ obj1 rs [] h none
  rw [List.append_nil] at this
  rw [this]
  simp [subtractLoop]

/-- C51: when the difference of one piece is `None` and those before it were computed, the result is `None`: nothing of the
pieces already computed is returned and the pieces after it do not matter. -/
theorem C51_none (order : Obj 3 → Obj 3) (draws : Simplex 4 → Simplex 4 → (n : Nat) → Draws n)
    (delaunay : Simplex 4 → Simplex 4 → Delaunay) (pre : Obj 4) (t : Simplex 4) (post obj2 : Obj 4) (surf : Obj 3)
    (hs : generatorSurface1 obj2 = .ok surf) (rs : List (Obj 4))
    (h : List.Forall₂ (fun t r => tetrahedronNotObj order (intersectionTwoObj1 .standard draws delaunay [t] obj2) t obj2 surf =
      .ok (some r)) pre rs)
    (ht : tetrahedronNotObj order (intersectionTwoObj1 .standard draws delaunay [t] obj2) t obj2 surf = .ok none) :
    subtractionApi order draws delaunay (.d4 (pre ++ t :: post)) (.d4 obj2) = .ok none := by
  change subtractionTwoObj order draws delaunay (pre ++ t :: post) obj2 = _
  unfold subtractionTwoObj
  rw [hs, bind_ok', subtractLoop_some _ pre rs (t :: post) h none]
  unfold subtractLoop
  rw [ht, bind_ok']

/-- C51: an exception for one piece, those before it being computed, is the exception of the whole subtraction. -/
theorem C51_error (order : Obj 3 → Obj 3) (draws : Simplex 4 → Simplex 4 → (n : Nat) → Draws n)
    (delaunay : Simplex 4 → Simplex 4 → Delaunay) (pre : Obj 4) (t : Simplex 4) (post obj2 : Obj 4) (surf : Obj 3)
    (hs : generatorSurface1 obj2 = .ok surf) (rs : List (Obj 4)) (e : PyErr)
    (h : List.Forall₂ (fun t r => tetrahedronNotObj order (intersectionTwoObj1 .standard draws delaunay [t] obj2) t obj2 surf =
      .ok (some r)) pre rs)
    (ht : tetrahedronNotObj order (intersectionTwoObj1 .standard draws delaunay [t] obj2) t obj2 surf = .error e) :
    subtractionApi order draws delaunay (.d4 (pre ++ t :: post)) (.d4 obj2) = .error e := by
  change subtractionTwoObj order draws delaunay (pre ++ t :: post) obj2 = _
  unfold subtractionTwoObj
  rw [hs, bind_ok', subtractLoop_some _ pre rs (t :: post) h none]
  unfold subtractLoop
  rw [ht, bind_error']

/-- C51: conversely a returned object is exactly the concatenation, in order, of the differences of all pieces. -/
theorem C51_result (order : Obj 3 → Obj 3) (draws : Simplex 4 → Simplex 4 → (n : Nat) → Draws n)
    (delaunay : Simplex 4 → Simplex 4 → Delaunay) (obj1 obj2 r : Obj 4)
    (hr : subtractionApi order draws delaunay (.d4 obj1) (.d4 obj2) = .ok (some r)) :
    ∃ surf rs, generatorSurface1 obj2 = .ok surf ∧ List.Forall₂ (fun t r =>
      tetrahedronNotObj order (intersectionTwoObj1 .standard draws delaunay [t] obj2) t obj2 surf = .ok (some r)) obj1 rs ∧
      r = rs.flatten ∧ obj1 ≠ [] := by
  change subtractionTwoObj order draws delaunay obj1 obj2 = _ at hr
  unfold subtractionTwoObj at hr
  cases hs : generatorSurface1 obj2 with
  | error e => rw [hs, bind_error'] at hr; cases hr
  | ok surf =>
    rw [hs, bind_ok'] at hr
    refine ⟨surf, ?_⟩
    generalize hf : (fun t => tetrahedronNotObj order (intersectionTwoObj1 .standard draws delaunay [t] obj2) t obj2 surf) = f at hr
    have key : ∀ (l : Obj 4) (out : Option (Obj 4)), subtractLoop f out l = .ok (some r) →
        ∃ rs, List.Forall₂ (fun t r => f t = .ok (some r)) l rs ∧ some r = if l = [] then out else some (out.getD [] ++ rs.flatten) := by
      intro l
      induction l with
      | nil => intro out h; exact ⟨[], .nil, by simpa [subtractLoop] using h.symm⟩
      | cons t l ih =>
        intro out h
        unfold subtractLoop at h
        cases ha : f t with
        | error e => rw [ha, bind_error'] at h; cases h
        | ok a =>
          rw [ha, bind_ok'] at h
          cases a with
          | none => cases h
          | some a =>
            obtain ⟨rs, h1, h2⟩ := ih _ h
            refine ⟨a :: rs, .cons ha h1, ?_⟩
            rw [h2]
            by_cases hl : l = []
            · subst hl; cases h1; simp
            · simp [hl]
    obtain ⟨rs, h1, h2⟩ := key obj1 none hr
    refine ⟨rs, rfl, ?_, ?_⟩
    · rw [← hf] at h1; exact h1
    · by_cases hl : obj1 = []
      · rw [if_pos hl] at h2; cases h2
      · rw [if_neg hl] at h2
        simpa [hl] using h2

/-! ## C59 -/

theorem combinations_sublist {α : Type} (k : Nat) (l c : List α) (h : c ∈ combinations k l) : c.Sublist l ∧ c.length = k := by
  induction l generalizing k c with
  | nil =>
    cases k with
    | zero => simp [combinations] at h; simp [h]
    | succ k => simp [combinations] at h
  | cons x l ih =>
    cases k with
    | zero => simp [combinations] at h; simp [h]
    | succ k =>
      simp only [combinations, List.mem_append, List.mem_map] at h
      rcases h with ⟨c', hc, rfl⟩ | h
      · obtain ⟨h1, h2⟩ := ih k c' hc
        exact ⟨h1.cons_cons x, by simp [h2]⟩
      · obtain ⟨h1, h2⟩ := ih (k + 1) c h
        exact ⟨h1.cons x, h2⟩

theorem searchCombos_mem {vol2 : Num3} (l : List (Obj 4)) (vol : Num3) {v : Num3} {c : Obj 4}
    (h : searchCombos vol2 vol l = .ok (v, some c)) : c ∈ l := by
  induction l generalizing vol with
  | nil => cases h
  | cons b l ih =>
    unfold searchCombos at h
    cases hb : foldPy (fun vol t => do
      let v ← tetrahedronVolume6d t
      arith.add vol v) vol b with
    | error e => rw [hb, bind_error'] at h; cases h
    | ok w =>
      rw [hb, bind_ok'] at h
      by_cases hw : w = vol2
      · rw [if_pos hw] at h; cases h; simp
      · rw [if_neg hw] at h; simp [ih w h]

theorem searchVolume_sublist {vol2 : Num3} {tmp o : Obj 4} (h : searchVolume vol2 tmp = .ok (some o)) :
    o.Sublist tmp ∧ o ≠ [] ∧ o.length < tmp.length := by
  unfold searchVolume at h
  by_cases h2 : tmp.length ≤ 2
  · rw [if_pos h2] at h; cases h
  · rw [if_neg h2] at h
    have hl : ∀ n ∈ (List.range (tmp.length - 2)).map (· + 1), 0 < n ∧ n < tmp.length := by
      intro n hn
      simp only [List.mem_map, List.mem_range] at hn
      obtain ⟨a, ha, rfl⟩ := hn
      omega
    generalize (List.range (tmp.length - 2)).map (· + 1) = L at h hl
    generalize (⟨0, 0, 1⟩ : Num3) = vol at h
    induction L generalizing vol with
    | nil => cases h
    | cons n L ih =>
      unfold searchSizes at h
      cases hc : searchCombos vol2 vol (combinations n tmp) with
      | error e => rw [hc, bind_error'] at h; cases h
      | ok p =>
        obtain ⟨w, r⟩ := p
        rw [hc, bind_ok'] at h
        cases r with
        | none => exact ih (fun m hm => hl m (by simp [hm])) w h
        | some c =>
          cases h
          obtain ⟨a, b⟩ := combinations_sublist _ _ _ (searchCombos_mem _ _ hc)
          have := hl n (by simp)
          refine ⟨a, ?_, by omega⟩
          rintro rfl
          simp at b
          omega

/-- `x` is accepted by no tetrahedron of the object. -/
def Outside (obj : Obj 4) (x : Vec 6) : Prop := ∀ u ∈ obj, ¬ Accepts (Package.ico.perps u) (Package.ico.perp x)

theorem outside_iff {obj : Obj 4} {x : Vec 6} : (!(obj.any fun u => insideTau x u)) = true ↔ Outside obj x := by
  rw [Bool.not_eq_true', List.any_eq_false]
  exact forall₂_congr fun u _ => not_congr (C32_perp x u)

theorem filter_four {P : Vec 6 → Bool} {t : Simplex 4} :
    (((List.ofFn t).filter P = []) ∧ ∀ i, ¬ P (t i) = true) ∨
    (∃ i, (List.ofFn t).filter P = [t i] ∧ P (t i) = true ∧ ∀ j, j ≠ i → ¬ P (t j) = true) ∨
    (∃ i j, i ≠ j ∧ P (t i) = true ∧ P (t j) = true ∧ 2 ≤ ((List.ofFn t).filter P).length) := by
  have e : (List.ofFn t) = [t 0, t 1, t 2, t 3] := by simp [List.ofFn_succ]
  rw [e]
  cases h0 : P (t 0) <;> cases h1 : P (t 1) <;> cases h2 : P (t 2) <;> cases h3 : P (t 3)
  · left; refine ⟨by simp [h0, h1, h2, h3], fun i => ?_⟩; fin_cases i <;> simp [h0, h1, h2, h3]
  · right; left; refine ⟨3, by simp [h0, h1, h2, h3], h3, fun i hi => ?_⟩; fin_cases i <;> simp_all
  · right; left; refine ⟨2, by simp [h0, h1, h2, h3], h2, fun i hi => ?_⟩; fin_cases i <;> simp_all
  · right; right; exact ⟨2, 3, by decide, h2, h3, by simp [h0, h1, h2, h3]⟩
  · right; left; refine ⟨1, by simp [h0, h1, h2, h3], h1, fun i hi => ?_⟩; fin_cases i <;> simp_all
  · right; right; exact ⟨1, 3, by decide, h1, h3, by simp [h0, h1, h2, h3]⟩
  · right; right; exact ⟨1, 2, by decide, h1, h2, by simp [h0, h1, h2, h3]⟩
  · right; right; exact ⟨1, 2, by decide, h1, h2, by simp [h0, h1, h2, h3]⟩
  · right; left; refine ⟨0, by simp [h0, h1, h2, h3], h0, fun i hi => ?_⟩; fin_cases i <;> simp_all
  · right; right; exact ⟨0, 3, by decide, h0, h3, by simp [h0, h1, h2, h3]⟩
  · right; right; exact ⟨0, 2, by decide, h0, h2, by simp [h0, h1, h2, h3]⟩
  · right; right; exact ⟨0, 2, by decide, h0, h2, by simp [h0, h1, h2, h3]⟩
  · right; right; exact ⟨0, 1, by decide, h0, h1, by simp [h0, h1, h2, h3]⟩
  · right; right; exact ⟨0, 1, by decide, h0, h1, by simp [h0, h1, h2, h3]⟩
  · right; right; exact ⟨0, 1, by decide, h0, h1, by simp [h0, h1, h2, h3]⟩
  · right; right; exact ⟨0, 1, by decide, h0, h1, by simp [h0, h1, h2, h3]⟩

/-- The faces of the common part that lie on the surface of the object. -/
noncomputable def outerFaces (sc surf : Obj 3) : Obj 3 :=
  sc.filter fun tr => (List.ofFn tr).all fun v => surf.any fun s => onOutSurface .ico v s

/-- What a successful per-piece subtraction went through. -/
theorem notObj_inv {order : Obj 3 → Obj 3} {common : Py (Option (Obj 4))} {t : Simplex 4} {obj : Obj 4} {surf : Obj 3}
    (ht : Simplex.Ok t) (hobj : ∀ c, common = .ok (some c) → Obj.Ok c) {r : Option (Obj 4)}
    (hr : tetrahedronNotObj order common t obj surf = .ok r) :
    ∃ c sc, common = .ok (some c) ∧ generatorSurface1 c = .ok sc ∧ outerFaces sc surf ≠ [] ∧
      ((∀ i, ¬ Outside obj (t i)) ∧ r = none ∨
        ∃ i, Outside obj (t i) ∧ (∀ j, j ≠ i → ¬ Outside obj (t j)) ∧
          subtractCone order (t i) (outerFaces sc surf) (norm (kvol t - (c.map kvol).sum)) = .ok r) := by
  unfold tetrahedronNotObj at hr
  cases hc : common with
  | error e => rw [hc, bind_error'] at hr; cases hr
  | ok c =>
    rw [hc, bind_ok'] at hr
    cases c with
    | none => cases hr
    | some c =>
      simp only at hr
      cases hs : generatorSurface1 c with
      | error e => rw [hs, bind_error'] at hr; cases hr
      | ok sc =>
        have ht1 : Obj.Ok [t] := by intro a ha; rw [List.mem_singleton] at ha; rw [ha]; exact ht
        rw [hs, bind_ok', objVolume_ok ht1, bind_ok', needSome, bind_ok', objVolume_ok (hobj c hc), bind_ok', needSome,
          bind_ok', show arith = Package.ico.arith from rfl, Package.ico.lawful.sub_ok (norm_c _) (norm_c _), bind_ok'] at hr
        rw [kval_norm, kval_norm] at hr
        simp only [List.map_cons, List.map_nil, List.sum_cons, List.sum_nil, add_zero] at hr
        change (if (outerFaces sc surf).length = 0 then _ else _) = _ at hr
        by_cases h0 : (outerFaces sc surf).length = 0
        · rw [if_pos h0] at hr; cases hr
        · rw [if_neg h0] at hr
          refine ⟨c, sc, rfl, hs, fun h => h0 (by rw [h]; rfl), ?_⟩
          rcases filter_four (P := fun v => !(obj.any fun u => insideTau v u)) (t := t) with
            ⟨h, h'⟩ | ⟨i, h, hi, hj⟩ | ⟨i, j, hij, hi, hj, hl⟩
          · rw [h] at hr
            cases hr
            exact .inl ⟨fun i => fun ho => h' i (outside_iff.2 ho), rfl⟩
          · rw [h] at hr
            exact .inr ⟨i, outside_iff.1 hi, fun j hne ho => hj j hne (outside_iff.2 ho), hr⟩
          · match hL : (List.ofFn t).filter (fun v => !(obj.any fun u => insideTau v u)), hl with
            | a :: b :: l, _ =>
              rw [hL] at hr
              cases hr

theorem generatorSurface1_mem {o : Obj 4} (ho : Obj.Ok o) {s : Obj 3} (h : generatorSurface1 o = .ok s) :
    ∀ f ∈ s, ∃ j, f = face o j := by
  by_cases hn : 2 ≤ o.length
  · obtain ⟨J, hJ, -⟩ := C26_sound o ho hn
    rw [hJ] at h
    cases h
    intro f hf
    obtain ⟨j, -, rfl⟩ := List.mem_map.1 hf
    exact ⟨j, rfl⟩
  · match o, hn with
    | [], _ => cases h
    | [t], _ =>
      obtain ⟨J, hJ, -⟩ := C26_single t
      rw [hJ] at h
      cases h
      intro f hf
      obtain ⟨j, -, rfl⟩ := List.mem_map.1 hf
      exact ⟨j, rfl⟩
    | a :: b :: l, hn => simp at hn

theorem face_ok {o : Obj 4} (ho : Obj.Ok o) (j : Fin o.length × Fin 4) : Simplex.Ok (face o j) :=
  fun _ => ho _ (List.get_mem _ _) _

/-- C59: a difference is only ever returned for a piece with exactly one corner outside the object; every returned tetrahedron
joins that corner to a face of the common part lying on the surface of the object. -/
theorem C59_shape (order : Obj 3 → Obj 3) (ho : ∀ l, (order l).Perm l) (common : Py (Option (Obj 4))) (t : Simplex 4)
    (obj : Obj 4) (surf : Obj 3) (ht : Simplex.Ok t) (hobj : ∀ c, common = .ok (some c) → Obj.Ok c) (r : Obj 4)
    (hr : tetrahedronNotObj order common t obj surf = .ok (some r)) :
    ∃ i c sc, Outside obj (t i) ∧ (∀ j, j ≠ i → ¬ Outside obj (t j)) ∧ common = .ok (some c) ∧
      generatorSurface1 c = .ok sc ∧ r ≠ [] ∧
      ∀ a ∈ r, ∃ f ∈ sc, (∀ k, ∃ s ∈ surf, onOutSurface .ico (f k) s = true) ∧ a = cone (t i) f := by
  obtain ⟨c, sc, h1, h2, h3, ⟨-, h⟩ | ⟨i, hi, hj, h⟩⟩ := notObj_inv ht hobj hr
  · cases h
  · refine ⟨i, c, sc, hi, hj, h1, h2, ?_⟩
    have hcone : ∀ a ∈ (order (outerFaces sc surf)).map (cone (t i)), ∃ f ∈ sc,
        (∀ k, ∃ s ∈ surf, onOutSurface .ico (f k) s = true) ∧ a = cone (t i) f := by
      intro a ha
      obtain ⟨f, hf, rfl⟩ := List.mem_map.1 ha
      obtain ⟨hf1, hf2⟩ := List.mem_filter.1 ((ho _).subset hf)
      refine ⟨f, hf1, fun k => ?_, rfl⟩
      exact List.any_eq_true.1 (List.all_eq_true.1 hf2 (f k) ((List.mem_ofFn' _ _).mpr ⟨k, rfl⟩))
    unfold subtractCone at h
    simp only at h
    cases hv : objVolume6d (.d4 ((order (outerFaces sc surf)).map (cone (t i)))) with
    | error e => rw [hv, bind_error'] at h; cases h
    | ok v =>
      rw [hv, bind_ok'] at h
      by_cases hvol : v = some (norm (kvol t - (c.map kvol).sum))
      · rw [if_pos hvol] at h
        cases h
        refine ⟨?_, hcone⟩
        intro h
        rw [List.map_eq_nil_iff] at h
        have := ho (outerFaces sc surf)
        rw [h] at this
        exact h3 this.symm.eq_nil
      · rw [if_neg hvol] at h
        obtain ⟨hs, hne, -⟩ := searchVolume_sublist h
        exact ⟨hne, fun a ha => hcone a (hs.subset ha)⟩

/-- C59: when the tetrahedra joining the outside corner to all those faces fill exactly the missing volume, they are
returned, and the returned volume is the volume of the piece minus that of the common part. What is missing for the full
property is the other case, which is false: see `C59_fails_search`. -/
theorem C59_volume_partial (order : Obj 3 → Obj 3) (ho : ∀ l, (order l).Perm l) (common : Py (Option (Obj 4))) (t : Simplex 4)
    (obj : Obj 4) (surf : Obj 3) (ht : Simplex.Ok t) (hobj : ∀ c, common = .ok (some c) → Obj.Ok c) (r : Obj 4)
    (hr : tetrahedronNotObj order common t obj surf = .ok (some r)) :
    ∃ i c sc, common = .ok (some c) ∧ generatorSurface1 c = .ok sc ∧
      (r.Perm ((outerFaces sc surf).map (cone (t i))) ∧
        (r.map fun a => tetVol (Package.ico.perps a)).sum =
          tetVol (Package.ico.perps t) - (c.map fun a => tetVol (Package.ico.perps a)).sum ∨
      r.length < (outerFaces sc surf).length ∧
        (((outerFaces sc surf).map (cone (t i))).map fun a => tetVol (Package.ico.perps a)).sum ≠
          tetVol (Package.ico.perps t) - (c.map fun a => tetVol (Package.ico.perps a)).sum) := by
  obtain ⟨c, sc, h1, h2, h3, ⟨-, h⟩ | ⟨i, hi, hj, h⟩⟩ := notObj_inv ht hobj hr
  · cases h
  · refine ⟨i, c, sc, h1, h2, ?_⟩
    have hcok : Obj.Ok ((order (outerFaces sc surf)).map (cone (t i))) := by
      intro a ha
      obtain ⟨f, hf, rfl⟩ := List.mem_map.1 ha
      obtain ⟨j, rfl⟩ := generatorSurface1_mem (hobj c h1) h2 f (List.mem_filter.1 ((ho _).subset hf)).1
      intro k
      have := face_ok (hobj c h1) j
      fin_cases k
      · exact ht i
      · exact this 0
      · exact this 1
      · exact this 2
    have hperm : ((order (outerFaces sc surf)).map (cone (t i))).Perm ((outerFaces sc surf).map (cone (t i))) :=
      (ho _).map _
    have htarget : ((kvol t - (c.map kvol).sum : K Package.ico.theta) : ℝ) =
        tetVol (Package.ico.perps t) - (c.map fun a => tetVol (Package.ico.perps a)).sum := by
      rw [← kvol_sum_coe, ← coe_kvol]; rfl
    unfold subtractCone at h
    simp only at h
    rw [objVolume_ok hcok, bind_ok'] at h
    by_cases hvol : some (norm (((order (outerFaces sc surf)).map (cone (t i))).map kvol).sum) =
        some (norm (kvol t - (c.map kvol).sum))
    · rw [if_pos hvol] at h
      cases h
      refine .inl ⟨hperm, ?_⟩
      have hv' := congrArg (kval Package.ico.theta) (Option.some.inj hvol)
      rw [kval_norm, kval_norm] at hv'
      rw [← kvol_sum_coe, hv', htarget]
    · rw [if_neg hvol] at h
      obtain ⟨-, -, hl⟩ := searchVolume_sublist h
      refine .inr ⟨?_, fun he => hvol ?_⟩
      · rw [List.length_map, (ho _).length_eq] at hl
        exact hl
      · rw [← htarget, ← kvol_sum_coe] at he
        rw [((hperm.map kvol).sum_eq).trans (Subtype.ext he)]

/-- C59: with two corners of a piece outside the object the subtraction raises an exception. -/
theorem C59_two_outside (order : Obj 3 → Obj 3) (common : Py (Option (Obj 4))) (t : Simplex 4)
    (obj : Obj 4) (surf : Obj 3) (ht : Simplex.Ok t) (hobj : ∀ c, common = .ok (some c) → Obj.Ok c) (i j : Fin 4) (hij : i ≠ j)
    (hi : Outside obj (t i)) (hj : Outside obj (t j)) : ∃ e, tetrahedronNotObj order common t obj surf = .error e := by
  cases hr : tetrahedronNotObj order common t obj surf with
  | error e => exact ⟨e, rfl⟩
  | ok r =>
    obtain ⟨c, sc, h1, h2, h3, ⟨h, -⟩ | ⟨k, -, hk, -⟩⟩ := notObj_inv ht hobj hr
    · exact absurd hi (h i)
    · by_cases hik : i = k
      · exact absurd hj (hk j fun h => hij (hik.trans h.symm))
      · exact absurd hi (hk i hik)

/-- C59: when all corners of a piece are inside the object the answer is `None`, and then the whole subtraction is. -/
theorem C59_none_outside (order : Obj 3 → Obj 3) (common : Py (Option (Obj 4))) (t : Simplex 4)
    (obj : Obj 4) (surf : Obj 3) (ht : Simplex.Ok t) (hobj : ∀ c, common = .ok (some c) → Obj.Ok c)
    (h : ∀ i, ¬ Outside obj (t i)) (r : Option (Obj 4)) (hr : tetrahedronNotObj order common t obj surf = .ok r) : r = none := by
  obtain ⟨c, sc, h1, h2, h3, ⟨-, h⟩ | ⟨k, hk, -⟩⟩ := notObj_inv ht hobj hr
  · exact h
  · exact absurd hk (h k)

/-- C59, disagreement: subtracting an object from a piece that has no part in common with it does not return the piece but
raises AttributeError. -/
theorem C59_disjoint (order : Obj 3 → Obj 3) (draws : Simplex 4 → Simplex 4 → (n : Nat) → Draws n)
    (delaunay : Simplex 4 → Simplex 4 → Delaunay) (t : Simplex 4) (rest obj2 : Obj 4) (ok2 : Obj.Ok obj2) (h0 : obj2 ≠ [])
    (h : intersectionApi .standard draws delaunay (.d4 [t]) (.d4 obj2) = .ok none) :
    subtractionApi order draws delaunay (.d4 (t :: rest)) (.d4 obj2) = .error .attributeError := by
  change intersectionTwoObj1 .standard draws delaunay [t] obj2 = _ at h
  change subtractionTwoObj order draws delaunay (t :: rest) obj2 = _
  obtain ⟨surf, hs⟩ : ∃ s, generatorSurface1 obj2 = .ok s := by
    by_cases hn : 2 ≤ obj2.length
    · exact ⟨_, generatorSurface1_ok ok2 hn⟩
    · match obj2, h0, hn with
      | [t], _, _ => exact ⟨_, (C26_single t).choose_spec.1⟩
      | a :: b :: l, _, hn => simp at hn
  refine C51_error order draws delaunay [] t rest obj2 surf hs [] _ .nil ?_
  rw [h]
  rfl

/-- Three tetrahedra of volume 1/6 with a common corner. -/
def exFan : Obj 3 := [![cart 0 0 0 1, cart 1 0 0 1, cart 0 1 0 1], ![cart 1 0 0 1, cart 1 1 0 1, cart 0 1 0 1],
  ![cart 1 0 0 1, cart 2 0 0 1, cart 1 1 0 1]]

/-- C59, disagreement: the running volume of the search is not reset between combinations, so the search can return a
set of tetrahedra of the wrong volume: here 1/6 where 1/3 is wanted. -/
theorem C59_fails_search : ∃ v triangles vol2 o, subtractCone id v triangles vol2 = .ok (some o) ∧
    vol2 = ⟨1, 0, 3⟩ ∧ objVolume6d (.d4 o) = .ok (some ⟨1, 0, 6⟩) :=
  ⟨cart 0 0 1 1, exFan, ⟨1, 0, 3⟩, [cone (cart 0 0 1 1) ![cart 1 0 0 1, cart 1 1 0 1, cart 0 1 0 1]],
    by decide +kernel, rfl, by decide +kernel⟩

end PyQC
