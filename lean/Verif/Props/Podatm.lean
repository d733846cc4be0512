import Verif.Spec.Export
import Verif.Props.Vesta
/-!
# C76, C77: `.pod` and `.atm` files
-/
namespace PyQC

section
variable (p : Package)

/-- The exact projection of a vector. -/
noncomputable def exactPerp (v : Vec 6) : Vec 3 := nvec (p.kperp.mulVec (kvec p.theta v))

theorem projection3_exact {v : Vec 6} (hv : Vec.Ok v) : p.projection3 v = .ok (exactPerp p v) := p.projection3_ok hv

theorem exactPerp_eq {v w : Vec 6} : exactPerp p v = exactPerp p w ↔ p.perp v = p.perp w := by
  unfold exactPerp
  rw [nvec_inj, p.kperp_eq_iff]

theorem hasVertex_ok (v : Vec 6) (ws : List (Vec 6)) (hw : ∀ w ∈ ws, Vec.Ok w) :
    ∃ b, hasVertex p (exactPerp p v) ws = .ok b ∧ (b = true ↔ ∃ w ∈ ws, p.perp w = p.perp v) := by
  induction ws with
  | nil => exact ⟨false, rfl, by simp⟩
  | cons w ws ih =>
    obtain ⟨b, hb, hiff⟩ := ih fun x hx => hw x (by simp [hx])
    unfold hasVertex
    rw [projection3_exact p (hw w (by simp)), bind_ok']
    by_cases e : p.perp w = p.perp v
    · rw [if_pos ((exactPerp_eq p).mpr e.symm)]
      exact ⟨true, rfl, by simp [e]⟩
    · rw [if_neg (mt (exactPerp_eq p).mp (Ne.symm e))]
      exact ⟨b, hb, by simp [hiff, e]⟩

theorem inAllPieces_ok (v : Vec 6) {m : Nat} (o : Obj m) (ho : Obj.Ok o) :
    ∃ b, inAllPieces p (exactPerp p v) o = .ok b ∧ (b = true ↔ ∀ s ∈ o, ∃ k, p.perps s k = p.perp v) := by
  induction o with
  | nil => exact ⟨true, rfl, by simp⟩
  | cons s o ih =>
    obtain ⟨b, hb, hiff⟩ := ih fun x hx => ho x (by simp [hx])
    obtain ⟨c, hc, ciff⟩ := hasVertex_ok p v (List.ofFn s) (by
      intro w hw
      obtain ⟨i, rfl⟩ := List.mem_ofFn.mp hw
      exact ho s (by simp) i)
    have ciff' : c = true ↔ ∃ k, p.perps s k = p.perp v := by
      rw [ciff]
      simp [List.mem_ofFn, Package.perps]
    unfold inAllPieces
    rw [hc, bind_ok']
    cases c with
    | true => exact ⟨b, by simpa using hb, by simp [hiff, ciff'.mp rfl]⟩
    | false =>
      refine ⟨false, by simp, ?_⟩
      simp only [Bool.false_eq_true, List.mem_cons, forall_eq_or_imp, false_iff, not_and]
      intro h
      exact absurd (ciff'.mpr h) (by simp)

theorem commonAmong_ok {m : Nat} (o : Obj m) (ho : Obj.Ok o) (vs : List (Vec 6)) (hv : ∀ v ∈ vs, Vec.Ok v) :
    (∃ v0 ∈ vs, commonAmong p o vs = .ok (some v0) ∧ ∀ s ∈ o, ∃ k, p.perps s k = p.perp v0) ∨
      commonAmong p o vs = .ok none ∧ ∀ v ∈ vs, ¬ ∀ s ∈ o, ∃ k, p.perps s k = p.perp v := by
  induction vs with
  | nil => exact .inr ⟨rfl, by simp⟩
  | cons v vs ih =>
    obtain ⟨b, hb, hiff⟩ := inAllPieces_ok p v o ho
    unfold commonAmong
    rw [projection3_exact p (hv v (by simp)), bind_ok', hb, bind_ok']
    cases b with
    | true => exact .inl ⟨v, by simp, by simp, hiff.mp rfl⟩
    | false =>
      have hno : ¬ ∀ s ∈ o, ∃ k, p.perps s k = p.perp v := fun h => absurd (hiff.mpr h) (by simp)
      rcases ih fun x hx => hv x (by simp [hx]) with ⟨v0, h0, h1, h2⟩ | ⟨h1, h2⟩
      · exact .inl ⟨v0, by simp [h0], by simpa using h1, h2⟩
      · refine .inr ⟨by simpa using h1, ?_⟩
        intro x hx
        rcases List.mem_cons.mp hx with rfl | hx
        · exact hno
        · exact h2 x hx

/-- The common vertex: one of the first piece whose perp point is a vertex of every piece, if there is any. -/
theorem findCommonVertex_ok {m : Nat} (o : Obj m) (h0 : o ≠ []) (ho : Obj.Ok o) :
    (∃ v0 ∈ flattenObj o, findCommonVertex p o = .ok (some v0) ∧ ∀ s ∈ o, ∃ k, p.perps s k = p.perp v0) ∨
      findCommonVertex p o = .ok none ∧ ¬ ∃ x, ∀ s ∈ o, ∃ k, p.perps s k = x := by
  match o, h0 with
  | s :: rest, _ =>
    rcases commonAmong_ok p rest (fun t ht => ho t (by simp [ht])) (List.ofFn s) (by
        intro v hv
        obtain ⟨i, rfl⟩ := List.mem_ofFn.mp hv
        exact ho s (by simp) i) with ⟨v0, hv0, h1, h2⟩ | ⟨h1, h2⟩
    · refine .inl ⟨v0, by rw [flattenObj, List.flatMap_cons, List.mem_append]; exact .inl hv0, h1, ?_⟩
      intro t ht
      rcases List.mem_cons.mp ht with rfl | ht
      · obtain ⟨i, rfl⟩ := List.mem_ofFn.mp hv0
        exact ⟨i, rfl⟩
      · exact h2 t ht
    · refine .inr ⟨h1, ?_⟩
      rintro ⟨x, hx⟩
      obtain ⟨k, rfl⟩ := hx s (by simp)
      exact h2 (s k) (List.mem_ofFn.mpr ⟨k, rfl⟩) fun t ht => hx t (by simp [ht])

theorem flattenObj_ok {m : Nat} {o : Obj m} (ho : Obj.Ok o) : ∀ v ∈ flattenObj o, Vec.Ok v := by
  intro v hv
  obtain ⟨s, hs, k, rfl⟩ := mem_flattenObj'.mp hv
  exact ho s hs k

/-! ## C76 -/

/-- C76: `obj2podatm` writes files (and returns 0) exactly when some perp point is a vertex of every piece; otherwise it
returns 1. -/
theorem C76_status {m : Nat} (o : Obj m) (h0 : o ≠ []) (ho : Obj.Ok o) :
    ((∃ x, ∀ s ∈ o, ∃ k, p.perps s k = x) → ∃ f, obj2podatm p o = .ok (some f)) ∧
      ((¬ ∃ x, ∀ s ∈ o, ∃ k, p.perps s k = x) → obj2podatm p o = .ok none) := by
  obtain ⟨r, hr, -⟩ := C24_one_per_point p (flattenObj o) (flattenObj_ok ho)
  rcases findCommonVertex_ok p o h0 ho with ⟨v0, hv0, h1, h2⟩ | ⟨h1, h2⟩
  · refine ⟨fun _ => ?_, fun h => absurd ⟨p.perp v0, h2⟩ h⟩
    unfold obj2podatm
    rw [h1, bind_ok']
    simp only [hr, bind_ok']
    exact ⟨_, rfl⟩
  · refine ⟨fun h => absurd h h2, fun _ => ?_⟩
    unfold obj2podatm
    rw [h1, bind_ok']

/-- C76: an empty object raises IndexError. -/
theorem C76_empty {m : Nat} : obj2podatm p ([] : Obj m) = .error .indexError := rfl

theorem indexOfVertex_absent {v : Vec 6} {ws : List (Vec 6)} (h : v ∉ ws) (n : Nat) : indexOfVertex v n ws = [] := by
  induction ws generalizing n with
  | nil => rfl
  | cons w ws ih =>
    rw [List.mem_cons, not_or] at h
    rw [indexOfVertex, if_neg h.1, ih h.2]

theorem indexOfVertex_mem {v : Vec 6} {ws : List (Vec 6)} (h : v ∈ ws) (n : Nat) :
    ∃ k, indexOfVertex v n ws = [n + k + 1] ∧ ws[k]? = some v := by
  induction ws generalizing n with
  | nil => simp at h
  | cons w ws ih =>
    rw [indexOfVertex]
    by_cases e : v = w
    · rw [if_pos e]; exact ⟨0, rfl, by simp [e]⟩
    · rw [if_neg e]
      obtain ⟨k, h1, h2⟩ := ih ((List.mem_cons.mp h).resolve_left e) (n + 1)
      exact ⟨k + 1, by rw [h1]; congr 1; omega, by simpa using h2⟩

theorem filter_eq_flatMap {α : Type} (q : α → Bool) (l : List α) :
    l.filter q = l.flatMap fun x => if q x then [x] else [] := by
  induction l with
  | nil => rfl
  | cons a l ih =>
    rw [List.flatMap_cons, ← ih, List.filter_cons]
    cases q a <;> rfl

theorem numericalVector6_eq (v : Vec 6) : p.numericalVector6 v = p.val v := by cases p <;> rfl

/-- C76: let the pieces have distinct corners, let equal perp corners be equal arrays, and let some perp point be a corner
of every piece. Then the files hold: the 6D position of a corner `v0` common to all pieces; the 6D positions of the
other corners, each once; and for each piece in turn the numbers (from 1) of its corners other than `v0`, in order. The
number written after `nth=` is that of the distinct corners other than `v0`. -/
theorem C76_content_partial {m : Nat} (o : Obj (m + 2)) (h0 : o ≠ []) (ho : Obj.Ok o)
    (hd : ∀ s ∈ o, Function.Injective (p.perps s))
    (hsame : ∀ s ∈ o, ∀ t ∈ o, ∀ i j, p.perps s i = p.perps t j → s i = t j)
    (hc : ∃ x, ∀ s ∈ o, ∃ k, p.perps s k = x) :
    ∃ (f : PodAtm) (v0 : Vec 6), obj2podatm p o = .ok (some f) ∧ (∀ s ∈ o, ∃! k, s k = v0) ∧ f.x = p.val v0 ∧
      f.ej.Nodup ∧ (∀ e, e ∈ f.ej ↔ ∃ s ∈ o, ∃ k, s k ≠ v0 ∧ p.val (s k) = e) ∧
      (∀ i ∈ f.index, 1 ≤ i) ∧
      f.index.map (fun i => f.ej[i - 1]?) =
        (o.flatMap fun s => (List.ofFn s).filter fun v => v ≠ v0).map (fun v => some (p.val v)) ∧
      f.nth + 1 = {x | ∃ s ∈ o, ∃ k, p.perps s k = x}.ncard := by
  obtain ⟨r, hr, hmem, hpw, hex⟩ := C24_one_per_point p (flattenObj o) (flattenObj_ok ho)
  have hin : ∀ v, v ∈ r ↔ v ∈ flattenObj o := by
    intro v
    refine ⟨hmem v, fun hv => ?_⟩
    obtain ⟨y, ⟨hy, e⟩, -⟩ := hex v hv
    obtain ⟨s, hs, i, rfl⟩ := mem_flattenObj'.mp hv
    obtain ⟨t, ht, j, rfl⟩ := mem_flattenObj'.mp (hmem y hy)
    rw [← hsame t ht s hs j i e]; exact hy
  rcases findCommonVertex_ok p o h0 ho with ⟨v0, hv0, h1, h2⟩ | ⟨-, h2⟩
  swap
  · exact absurd hc h2
  have hk : ∀ s ∈ o, ∃ k, s k = v0 := by
    intro s hs
    obtain ⟨k, e⟩ := h2 s hs
    obtain ⟨t, ht, j, rfl⟩ := mem_flattenObj'.mp hv0
    exact ⟨k, hsame s hs t ht k j e⟩
  have hother : ∃ x ∈ r, x ≠ v0 := by
    obtain ⟨s, hs⟩ := List.exists_mem_of_ne_nil o h0
    by_cases e : s 0 = v0
    · refine ⟨s 1, (hin _).mpr (mem_flattenObj'.mpr ⟨s, hs, 1, rfl⟩), fun e' => ?_⟩
      exact absurd (hd s hs (congrArg p.perp (e.trans e'.symm))) (by simp)
    · exact ⟨s 0, (hin _).mpr (mem_flattenObj'.mpr ⟨s, hs, 0, rfl⟩), e⟩
  have hrv : removeVector r v0 = r.filter fun v => !decide (v = v0) := by
    unfold removeVector
    simp only
    rw [if_pos]
    obtain ⟨x, hx, hne⟩ := hother
    have : x ∈ r.filter fun v => !decide (v = v0) := List.mem_filter.mpr ⟨hx, by simpa using hne⟩
    exact fun e => absurd (List.length_eq_zero_iff.mp e ▸ this) (by simp)
  generalize hvt : r.filter (fun v => !decide (v = v0)) = vt at hrv
  have hvtm : ∀ v, v ∈ vt ↔ v ∈ flattenObj o ∧ v ≠ v0 := by
    intro v; rw [← hvt, List.mem_filter, hin]; simp
  have hvtp : vt.Pairwise (fun x y => p.perp x ≠ p.perp y) := hvt ▸ hpw.filter _
  have hperp : ∀ v ∈ flattenObj o, ∀ w ∈ flattenObj o, p.val v = p.val w → p.perp v = p.perp w := by
    intro v _ w _ e
    unfold Package.perp
    exact congrArg _ e
  refine ⟨⟨p.numericalVector6 v0, vt.map p.numericalVector6, vt.length,
    o.flatMap fun s => (List.ofFn s).flatMap fun v => indexOfVertex v 0 vt⟩, v0, ?_, ?_, numericalVector6_eq p v0, ?_, ?_,
    ?_, ?_, ?_⟩
  · unfold obj2podatm
    rw [h1, bind_ok']
    simp only [hr, bind_ok', hrv]
  · intro s hs
    obtain ⟨k, e⟩ := hk s hs
    exact ⟨k, e, fun j ej => hd s hs (congrArg p.perp (ej.trans e.symm))⟩
  · refine List.pairwise_map.mpr (hvtp.imp fun {a b} hab e => hab ?_)
    rw [numericalVector6_eq, numericalVector6_eq] at e
    unfold Package.perp
    exact congrArg _ e
  · intro e
    simp only [List.mem_map, hvtm, mem_flattenObj', numericalVector6_eq]
    constructor
    · rintro ⟨_, ⟨⟨s, hs, k, rfl⟩, hne⟩, rfl⟩; exact ⟨s, hs, k, hne, rfl⟩
    · rintro ⟨s, hs, k, hne, rfl⟩; exact ⟨_, ⟨⟨s, hs, k, rfl⟩, hne⟩, rfl⟩
  · intro i hi
    simp only [List.mem_flatMap] at hi
    obtain ⟨s, -, v, -, hi⟩ := hi
    by_cases hv : v ∈ vt
    · obtain ⟨k, e, -⟩ := indexOfVertex_mem hv 0
      rw [e, List.mem_singleton] at hi
      omega
    · rw [indexOfVertex_absent hv] at hi
      simp at hi
  · rw [List.map_flatMap, List.map_flatMap]
    refine List.flatMap_congr fun s hs => ?_
    rw [filter_eq_flatMap, List.map_flatMap, List.map_flatMap]
    refine List.flatMap_congr fun v hv => ?_
    have hvo : v ∈ flattenObj o := List.mem_flatMap.mpr ⟨s, hs, hv⟩
    by_cases e : v = v0
    · rw [indexOfVertex_absent (fun h => ((hvtm v).mp h).2 e)]
      simp [e]
    · obtain ⟨k, e1, e2⟩ := indexOfVertex_mem ((hvtm v).mpr ⟨hvo, e⟩) 0
      rw [e1]
      simp [e, e2, numericalVector6_eq]
  · have hnd : r.Nodup := hpw.imp fun h e => h (congrArg p.perp e)
    have hlen : vt.length + 1 = r.length := by
      have he : r.erase v0 = vt := by
        rw [hnd.erase_eq_filter, ← hvt]
        congr 1
      have hv0r : v0 ∈ r := (hin v0).mpr hv0
      have := List.length_erase_add_one hv0r
      rw [he] at this
      exact this
    obtain ⟨r', hr', hl⟩ := removeDoublingPerp_length p (l := flattenObj o) (flattenObj_ok ho)
    obtain rfl : r = r' := by simpa using hr.symm.trans hr'
    change vt.length + 1 = _
    rw [hlen, hl]
    congr 1
    ext x
    constructor
    · rintro ⟨v, hv, rfl⟩
      obtain ⟨s, hs, k, rfl⟩ := mem_flattenObj'.mp hv
      exact ⟨s, hs, k, rfl⟩
    · rintro ⟨s, hs, k, rfl⟩
      exact ⟨_, mem_flattenObj'.mpr ⟨s, hs, k, rfl⟩, rfl⟩

theorem others_length {m : Nat} {s : Simplex (m + 2)} (hd : Function.Injective (p.perps s)) {v0 : Vec 6}
    (h : ∃ k, s k = v0) : ((List.ofFn s).filter fun v => v ≠ v0).length = m + 1 := by
  have hnd : (List.ofFn s).Nodup := List.nodup_ofFn.mpr fun i j e => hd (congrArg p.perp e)
  have hmem : v0 ∈ List.ofFn s := List.mem_ofFn.mpr h
  have := List.length_erase_add_one hmem
  rw [hnd.erase_eq_filter, List.length_ofFn] at this
  have e : (fun v : Vec 6 => decide (v ≠ v0)) = fun v => v != v0 := by
    funext v; by_cases h : v = v0 <;> simp [h]
  rw [e]
  omega

/-- C76: under the hypotheses of `C76_content_partial` the index list has one index less than vertices for each piece. -/
theorem C76_index_length {m : Nat} (o : Obj (m + 2)) (h0 : o ≠ []) (ho : Obj.Ok o)
    (hd : ∀ s ∈ o, Function.Injective (p.perps s))
    (hsame : ∀ s ∈ o, ∀ t ∈ o, ∀ i j, p.perps s i = p.perps t j → s i = t j)
    (hc : ∃ x, ∀ s ∈ o, ∃ k, p.perps s k = x) :
    ∃ f : PodAtm, obj2podatm p o = .ok (some f) ∧ f.index.length = (m + 1) * o.length := by
  obtain ⟨f, v0, h1, h2, -, -, -, -, h3, -⟩ := C76_content_partial p o h0 ho hd hsame hc
  refine ⟨f, h1, ?_⟩
  have hl := congrArg List.length h3
  rw [List.length_map, List.length_map, List.length_flatMap] at hl
  rw [hl, List.map_congr_left (g := fun _ => m + 1) fun s hs => others_length p (hd s hs) (h2 s hs).exists]
  simp [mul_comm]

/-- C76 fails for the number after `nth=`, which by `write_podatm` is the number of tetrahedra: for one tetrahedron with
distinct corners it is 3, and there are three indices. -/
theorem C76_fails_count (t : Simplex 4) (ht : Simplex.Ok t) (hd : Function.Injective (p.perps t)) :
    ∃ f : PodAtm, obj2podatm p [t] = .ok (some f) ∧ f.nth = 3 ∧ f.index.length = 3 := by
  have hin : ∀ s ∈ [t], s = t := fun s hs => List.mem_singleton.mp hs
  obtain ⟨f, v0, h1, h2, -, -, -, -, h3, h4⟩ := C76_content_partial p [t] (by simp) (fun s hs => hin s hs ▸ ht)
    (fun s hs => hin s hs ▸ hd) (by
      intro s hs s' hs' i j e
      obtain rfl := hin s hs
      obtain rfl := hin s' hs'
      exact congrArg _ (hd e)) ⟨p.perps t 0, fun s hs => ⟨0, by rw [hin s hs]⟩⟩
  refine ⟨f, h1, ?_, ?_⟩
  · have : {x | ∃ s ∈ [t], ∃ k, p.perps s k = x} = Set.range (p.perps t) := by
      ext x; simp
    rw [this, ncard_range_perps p hd] at h4
    omega
  · have hl := congrArg List.length h3
    rw [List.length_map, List.length_map, List.flatMap_singleton, others_length p hd (h2 t (by simp)).exists] at hl
    exact hl

end

/-- The corner tetrahedron with its second corner stored as another array for the same point. -/
def exCornerTwice : Simplex 4 := ![cart 0 0 0 1, cart 2 0 0 2, cart 0 1 0 1, cart 0 0 1 1]

theorem exCornerTwice_ok : Simplex.Ok exCornerTwice := by
  intro i
  fin_cases i <;> exact cart_ok (by decide)

theorem perps_exCornerTwice : Package.ico.perps exCornerTwice = ![![0, 0, 0], ![1, 0, 0], ![0, 1, 0], ![0, 0, 1]] := by
  funext i
  fin_cases i <;> exact (perp_cart _ _ _ _).trans (by simp)

theorem exCorner_injective : Function.Injective (Package.ico.perps exCorner) := by
  rw [perps_exCorner]
  intro i j h
  have h0 := congrFun h 0
  have h1 := congrFun h 1
  have h2 := congrFun h 2
  revert h0 h1 h2
  fin_cases i <;> fin_cases j <;> simp

theorem five_of_pair (vt : List (Vec 6)) (s t : Simplex 4) (h0 : (indexOfVertex (s 0) 0 vt).length = 0)
    (h0' : (indexOfVertex (t 0) 0 vt).length = 0)
    (h1 : (indexOfVertex (s 1) 0 vt).length + (indexOfVertex (t 1) 0 vt).length ≤ 1)
    (h2 : (indexOfVertex (s 2) 0 vt).length ≤ 1) (h2' : (indexOfVertex (t 2) 0 vt).length ≤ 1)
    (h3 : (indexOfVertex (s 3) 0 vt).length ≤ 1) (h3' : (indexOfVertex (t 3) 0 vt).length ≤ 1) :
    ([s, t].flatMap fun s => (List.ofFn s).flatMap fun v => indexOfVertex v 0 vt).length ≤ 5 := by
  have e4 : ∀ s : Simplex 4, List.ofFn s = [s 0, s 1, s 2, s 3] := fun s => by simp [List.ofFn_succ]
  simp only [List.flatMap_cons, List.flatMap_nil, e4, List.length_append, List.length_nil]
  omega

/-- C76 fails when one perp corner is stored as two arrays: indices are missing in the list. Here two tetrahedra have the
same perp corners, and the list has at most five of the six indices. -/
theorem C76_fails_arrays : ∃ f : PodAtm, obj2podatm .ico [exCorner, exCornerTwice] = .ok (some f) ∧
    f.index.length ≤ 5 := by
  have ho : Obj.Ok [exCorner, exCornerTwice] := by
    intro s hs
    rcases List.mem_pair.mp hs with rfl | rfl
    · exact exCorner_ok
    · exact exCornerTwice_ok
  obtain ⟨r, hr, hmem, hpw, hex⟩ := C24_one_per_point .ico (flattenObj [exCorner, exCornerTwice]) (flattenObj_ok ho)
  have hc : findCommonVertex .ico [exCorner, exCornerTwice] = .ok (some (exCorner 0)) := by
    obtain ⟨b, hb, hiff⟩ := inAllPieces_ok .ico (exCorner 0) [exCornerTwice] (fun s hs => ho s (by simp [List.mem_singleton.mp hs]))
    have hbt : b = true := hiff.mpr fun s hs => ⟨0, by
      rw [List.mem_singleton.mp hs]
      change Package.ico.perps exCornerTwice 0 = Package.ico.perps exCorner 0
      rw [perps_exCornerTwice, perps_exCorner]⟩
    have e : findCommonVertex .ico [exCorner, exCornerTwice] = commonAmong .ico [exCornerTwice]
        (exCorner 0 :: List.ofFn fun i : Fin 3 => exCorner i.succ) := by
      rw [← List.ofFn_succ]; rfl
    rw [e, commonAmong, projection3_exact .ico (exCorner_ok 0), bind_ok', hb, bind_ok', hbt]
    rfl
  have hrep : ∀ i, ∃ y ∈ r, Package.ico.perp y = Package.ico.perps exCorner i := by
    intro i
    obtain ⟨y, ⟨hy, e⟩, -⟩ := hex (exCorner i) (mem_flattenObj'.mpr ⟨exCorner, by simp, i, rfl⟩)
    exact ⟨y, hy, e⟩
  have hrv : exCorner 0 ∉ removeVector r (exCorner 0) ∧ ∀ v ∈ removeVector r (exCorner 0), v ∈ r := by
    obtain ⟨y, hy, e⟩ := hrep 1
    have hne : y ≠ exCorner 0 := by
      rintro rfl
      exact absurd (exCorner_injective e) (by decide)
    have : y ∈ r.filter fun v => !decide (v = exCorner 0) := List.mem_filter.mpr ⟨hy, by simpa using hne⟩
    unfold removeVector
    simp only
    rw [if_pos fun e => absurd (List.length_eq_zero_iff.mp e ▸ this) (by simp)]
    exact ⟨by simp, fun v hv => List.mem_of_mem_filter hv⟩
  have hboth : ∀ vt : List (Vec 6), (∀ v ∈ vt, v ∈ r) → exCorner 1 ∈ vt → exCornerTwice 1 ∈ vt → False := by
    intro vt hsub h1 h2
    have hp : Package.ico.perp (exCorner 1) = Package.ico.perp (exCornerTwice 1) := by
      change Package.ico.perps exCorner 1 = Package.ico.perps exCornerTwice 1
      rw [perps_exCornerTwice, perps_exCorner]
    have hne : exCorner 1 ≠ exCornerTwice 1 := by
      intro e
      exact absurd (congrArg Num3.c (congrFun e 0)) (by decide)
    obtain ⟨y, -, hu⟩ := hex (exCorner 1) (mem_flattenObj'.mpr ⟨exCorner, by simp, 1, rfl⟩)
    exact hne ((hu _ ⟨hsub _ h1, rfl⟩).trans (hu _ ⟨hsub _ h2, hp.symm⟩).symm)
  have hrun : obj2podatm .ico [exCorner, exCornerTwice] = .ok (some ⟨Package.ico.numericalVector6 (exCorner 0),
      (removeVector r (exCorner 0)).map Package.ico.numericalVector6, (removeVector r (exCorner 0)).length,
      [exCorner, exCornerTwice].flatMap fun s => (List.ofFn s).flatMap fun v =>
        indexOfVertex v 0 (removeVector r (exCorner 0))⟩) := by
    unfold obj2podatm
    rw [hc, bind_ok']
    simp only [hr, bind_ok']
  refine ⟨_, hrun, ?_⟩
  generalize removeVector r (exCorner 0) = vt at hrv
  have hone : ∀ v, (indexOfVertex v 0 vt).length ≤ 1 := by
    intro v
    by_cases h : v ∈ vt
    · obtain ⟨k, e, -⟩ := indexOfVertex_mem h 0
      rw [e]; rfl
    · rw [indexOfVertex_absent h]; exact Nat.zero_le _
  have h00 : exCornerTwice 0 = exCorner 0 := by
    rw [exCornerTwice, exCorner, Matrix.cons_val_zero, Matrix.cons_val_zero]
  have hzero : (indexOfVertex (exCorner 0) 0 vt).length = 0 := by rw [indexOfVertex_absent hrv.1]; rfl
  have hzero' : (indexOfVertex (exCornerTwice 0) 0 vt).length = 0 := by rw [h00]; exact hzero
  have hpair : (indexOfVertex (exCorner 1) 0 vt).length + (indexOfVertex (exCornerTwice 1) 0 vt).length ≤ 1 := by
    by_cases h : exCorner 1 ∈ vt
    · rw [indexOfVertex_absent (v := exCornerTwice 1) fun h' => hboth vt hrv.2 h h']
      exact hone _
    · rw [indexOfVertex_absent h, List.length_nil, zero_add]
      exact hone _
  exact five_of_pair vt exCorner exCornerTwice hzero hzero' hpair (hone _) (hone _) (hone _) (hone _)

/-- The hypotheses of `C76_content_partial` and `C76_fails_count` hold for the corner tetrahedron. -/
example : (∃ f : PodAtm, obj2podatm .ico [exCorner] = .ok (some f) ∧ f.index.length = 3 * 1) ∧
    ∃ f : PodAtm, obj2podatm .ico [exCorner] = .ok (some f) ∧ f.nth = 3 ∧ f.index.length = 3 := by
  have hin : ∀ s ∈ [exCorner], s = exCorner := fun s hs => List.mem_singleton.mp hs
  refine ⟨C76_index_length .ico [exCorner] (by simp) (fun s hs => hin s hs ▸ exCorner_ok)
    (fun s hs => hin s hs ▸ exCorner_injective) ?_ ⟨Package.ico.perps exCorner 0, fun s hs => ⟨0, by rw [hin s hs]⟩⟩,
    C76_fails_count .ico exCorner exCorner_ok exCorner_injective⟩
  intro s hs s' hs' i j e
  obtain rfl := hin s hs
  obtain rfl := hin s' hs'
  exact congrArg _ (exCorner_injective e)

/-! ## C77 -/

theorem pyItem_ok {α : Type} {l : List α} {i : Int} {x : α} (h0 : 0 ≤ i) (h : l[i.toNat]? = some x) :
    pyItem l i = .ok x := by
  unfold pyItem
  simp only [if_neg (not_lt.mpr h0), h]

theorem positionOf_mem {i : Int} {l : List Int} (h : i ∈ l) (n : Nat) :
    ∃ k, positionOf i n l = [n + k + 1] ∧ l[k]? = some i := by
  induction l generalizing n with
  | nil => simp at h
  | cons j l ih =>
    rw [positionOf]
    by_cases e : i = j
    · rw [if_pos e]; exact ⟨0, rfl, by simp [e]⟩
    · rw [if_neg e]
      obtain ⟨k, h1, h2⟩ := ih ((List.mem_cons.mp h).resolve_left e) (n + 1)
      exact ⟨k + 1, by rw [h1]; congr 1; omega, by simpa using h2⟩

theorem distinctNumbers_spec (l tmp : List Int) (h : tmp.Nodup) :
    (distinctNumbers tmp l).Nodup ∧ ∀ i, i ∈ distinctNumbers tmp l ↔ i ∈ tmp ∨ i ∈ l := by
  induction l generalizing tmp with
  | nil => exact ⟨h, by simp [distinctNumbers]⟩
  | cons j l ih =>
    rw [distinctNumbers]
    by_cases e : j ∈ tmp
    · rw [if_pos e]
      obtain ⟨h1, h2⟩ := ih tmp h
      refine ⟨h1, fun i => ?_⟩
      rw [h2, List.mem_cons]
      constructor
      · rintro (h | h) <;> tauto
      · rintro (h | rfl | h) <;> tauto
    · rw [if_neg e]
      obtain ⟨h1, h2⟩ := ih (tmp ++ [j]) (List.nodup_append.mpr ⟨h, by simp, by
        intro a ha b hb
        rw [List.mem_singleton.mp hb]
        rintro rfl
        exact e ha⟩)
      refine ⟨h1, fun i => ?_⟩
      rw [h2]
      simp only [List.mem_append, List.mem_cons, List.not_mem_nil, or_false]
      tauto

theorem numericValue_eq (x : Num3) : Package.ico.numericValue x = x.val Package.ico.theta := rfl

/-- The entry of the `.pod` file for one list of numbers `j0 :: js`. -/
theorem podEntry_ok (vs : List (Vec 6)) (j0 : Int) (js : List Int) (hjs : js ≠ [])
    (hj : ∀ j ∈ j0 :: js, 1 ≤ j ∧ j ≤ vs.length) (v0 : Vec 6) (hv0 : vs[(j0 - 1).toNat]? = some v0) :
    ∃ e : PodEntry, podEntry (.list vs) (j0 :: js) = .ok e ∧ e.nth = js.length / 3 ∧ e.ej.length = js.toFinset.card ∧
      ∃ pos : Int → Nat, e.index = js.map (fun j => pos j + 1) ∧
        (∀ j ∈ js, ∀ j' ∈ js, pos j = pos j' → j = j') ∧
        ∀ j ∈ js, ∀ v, vs[(j - 1).toNat]? = some v →
          e.ej[pos j]? = some (fun k => Package.ico.val v k - Package.ico.val v0 k) := by
  match js, hjs with
  | j1 :: rest, _ =>
    obtain ⟨hnd, hmem⟩ := distinctNumbers_spec (rest.map (· - 1)) [j1 - 1] (by simp)
    generalize htm : distinctNumbers [j1 - 1] (rest.map (· - 1)) = tmp2 at hnd hmem
    have hmem' : ∀ i, i ∈ tmp2 ↔ i + 1 ∈ j1 :: rest := by
      intro i
      rw [hmem, List.mem_singleton, List.mem_map, List.mem_cons]
      constructor
      · rintro (rfl | ⟨a, ha, rfl⟩)
        · left; omega
        · right; simpa using ha
      · rintro (h | h)
        · left; omega
        · right; exact ⟨i + 1, h, by omega⟩
    have hget : ∀ j ∈ j0 :: j1 :: rest, ∃ v, vs[(j - 1).toNat]? = some v := by
      intro j h
      have := hj j h
      exact ⟨_, List.getElem?_eq_getElem (by omega)⟩
    have hpos : ∀ j ∈ j1 :: rest, ∃ k, positionOf (j - 1) 0 tmp2 = [k + 1] ∧ tmp2[k]? = some (j - 1) := by
      intro j h
      obtain ⟨k, h1, h2⟩ := positionOf_mem ((hmem' (j - 1)).mpr (by simpa using h)) 0
      exact ⟨k, by simpa using h1, h2⟩
    choose! pos hp1 hp2 using hpos
    have hval : ∀ i ∈ tmp2, ∃ v, vs[i.toNat]? = some v ∧ podItem (.list vs) i = .ok v := by
      intro i h
      have hb := hj (i + 1) (List.mem_cons_of_mem _ ((hmem' i).mp h))
      obtain ⟨v, hv⟩ := hget (i + 1) (List.mem_cons_of_mem _ ((hmem' i).mp h))
      rw [show i + 1 - 1 = i by omega] at hv
      exact ⟨v, hv, pyItem_ok (by omega) hv⟩
    have : Nonempty (Vec 6) := ⟨v0⟩
    choose! gv hg1 hg2 using hval
    refine ⟨⟨tmp2.map fun i => fun k => Package.ico.numericValue (gv i k) - Package.ico.numericValue (v0 k),
      (j1 :: rest).length / 3, (j1 :: rest).map fun j => pos j + 1⟩, ?_, rfl, ?_, pos, rfl, ?_, ?_⟩
    · unfold podEntry
      have hb := hj j0 (by simp)
      rw [pyItem_ok (x := j0) (le_refl 0) rfl, bind_ok', podItem, pyItem_ok (by omega) hv0, bind_ok',
        pyItem_ok (x := j1) (by norm_num) rfl, bind_ok']
      simp only [List.drop_succ_cons, List.drop_zero, htm]
      rw [fillList_ok (g := fun i => fun k => Package.ico.numericValue (gv i k) - Package.ico.numericValue (v0 k))
        (fun i hi => by rw [hg2 i hi, bind_ok']), bind_ok']
      congr 2
      have : ∀ l : List Int, (∀ j ∈ l, j ∈ j1 :: rest) →
          (l.flatMap fun i => positionOf (i - 1) 0 tmp2) = l.map fun j => pos j + 1 := by
        intro l
        induction l with
        | nil => intro _; rfl
        | cons a l ih =>
          intro h
          rw [List.flatMap_cons, hp1 a (h a (by simp)), ih fun j hj => h j (by simp [hj])]
          rfl
      exact this _ fun j h => h
    · rw [List.length_map, ← List.toFinset_card_of_nodup hnd]
      refine Finset.card_bij (fun i _ => i + 1) ?_ ?_ ?_
      · intro i hi
        rw [List.mem_toFinset] at hi ⊢
        exact (hmem' i).mp hi
      · intro a _ b _ h
        simpa using h
      · intro b hb
        rw [List.mem_toFinset] at hb
        exact ⟨b - 1, by rw [List.mem_toFinset, hmem']; simpa using hb, by simp⟩
    · intro j h j' h' e
      have := (hp2 j h).symm.trans (e ▸ hp2 j' h')
      simpa using this
    · intro j h v hv
      rw [List.getElem?_map, hp2 j h]
      have := (hg1 (j - 1) ((hmem' _).mpr (by simpa using h))).symm.trans hv
      rw [Option.map_some, Option.some_inj.mp this]
      rfl

/-- C77: for a Python list of vertices and lists of vertex numbers from 1, each with at least two numbers, `write_podatm`
writes for each list `j0 :: js` an `.atm` entry with the given position and the vertex number `j0` plus the shift, and a
`.pod` entry with the distinct vertices of `js` relative to vertex `j0`, each once, the number of tetrahedra, and indices
into them (from 1) that give the vertices of `js` in order. -/
theorem C77_content_partial (vs : List (Vec 6)) (position : Vec 6) (vlist : List (List Int)) (shift : Fin 6 → ℝ)
    (h2 : ∀ g ∈ vlist, 2 ≤ g.length) (hj : ∀ g ∈ vlist, ∀ j ∈ g, 1 ≤ j ∧ j ≤ vs.length) :
    ∃ atm pod, Ico.writePodatm (.list vs) position vlist shift = .ok (some (atm, pod)) ∧
      atm.length = vlist.length ∧ pod.length = vlist.length ∧
      ∀ (n : Nat) (j0 : Int) (js : List Int) (v0 : Vec 6), vlist[n]? = some (j0 :: js) → vs[(j0 - 1).toNat]? = some v0 →
        ∃ (a : AtmEntry) (e : PodEntry), atm[n]? = some a ∧ pod[n]? = some e ∧ a.x = Package.ico.val position ∧
          (a.xi = fun k => Package.ico.val v0 k + shift k) ∧ e.nth = js.length / 3 ∧ e.ej.length = js.toFinset.card ∧
          ∃ pos : Int → Nat, e.index = js.map (fun j => pos j + 1) ∧
            (∀ j ∈ js, ∀ j' ∈ js, pos j = pos j' → j = j') ∧
            ∀ j ∈ js, ∀ v, vs[(j - 1).toNat]? = some v →
              e.ej[pos j]? = some (fun k => Package.ico.val v k - Package.ico.val v0 k) := by
  have hg : ∀ g ∈ vlist, ∃ (a : AtmEntry) (e : PodEntry), atmEntry (.list vs) position shift g = .ok a ∧
      podEntry (.list vs) g = .ok e ∧ ∀ (j0 : Int) (js : List Int) (v0 : Vec 6), g = j0 :: js →
        vs[(j0 - 1).toNat]? = some v0 → a.x = Package.ico.val position ∧
          (a.xi = fun k => Package.ico.val v0 k + shift k) ∧ e.nth = js.length / 3 ∧ e.ej.length = js.toFinset.card ∧
          ∃ pos : Int → Nat, e.index = js.map (fun j => pos j + 1) ∧
            (∀ j ∈ js, ∀ j' ∈ js, pos j = pos j' → j = j') ∧
            ∀ j ∈ js, ∀ v, vs[(j - 1).toNat]? = some v →
              e.ej[pos j]? = some (fun k => Package.ico.val v k - Package.ico.val v0 k) := by
    intro g hgm
    match g, h2 g hgm, hj g hgm with
    | j0 :: j1 :: js, _, hj =>
      have hb := hj j0 (by simp)
      obtain ⟨v0, hv0⟩ : ∃ v, vs[(j0 - 1).toNat]? = some v := ⟨_, List.getElem?_eq_getElem (by omega)⟩
      obtain ⟨e, he, hprop⟩ := podEntry_ok vs j0 (j1 :: js) (by simp) hj v0 hv0
      refine ⟨⟨fun k => Package.ico.numericValue (position k), fun k => Package.ico.numericValue (v0 k) + shift k⟩, e, ?_, he,
        ?_⟩
      · unfold atmEntry
        rw [pyItem_ok (x := j0) (le_refl 0) rfl, bind_ok', podItem, pyItem_ok (by omega) hv0, bind_ok']
      · intro j0' js' v0' eg hv0'
        obtain ⟨rfl, rfl⟩ := List.cons_eq_cons.mp eg
        obtain rfl : v0 = v0' := Option.some_inj.mp (hv0.symm.trans hv0')
        exact ⟨rfl, rfl, hprop⟩
  have : Nonempty AtmEntry := ⟨⟨fun _ => 0, fun _ => 0⟩⟩
  have : Nonempty PodEntry := ⟨⟨[], 0, []⟩⟩
  choose! a e ha he hprop using hg
  refine ⟨vlist.map a, vlist.map e, ?_, by simp, by simp, ?_⟩
  · unfold Ico.writePodatm
    simp only [fillList_ok ha, fillList_ok he, bind_ok']
  · intro n j0 js v0 hn hv0
    obtain ⟨h1, h2, h3⟩ := hprop _ (List.mem_of_getElem? hn) j0 js v0 rfl hv0
    exact ⟨a (j0 :: js), e (j0 :: js), by simp [hn], by simp [hn], h1, h2, h3⟩

/-- C77: `None` is accepted and nothing is written. -/
theorem C77_none (position : Vec 6) (vlist : List (List Int)) (shift : Fin 6 → ℝ) :
    Ico.writePodatm .none position vlist shift = .ok none := rfl

/-- C77 fails for the documented argument, an array of vertices: it raises ValueError. -/
theorem C77_fails_array (vs : List (Vec 6)) (position : Vec 6) (vlist : List (List Int)) (shift : Fin 6 → ℝ) :
    Ico.writePodatm (.array vs) position vlist shift = .error .valueError := rfl

/-- C77 fails for the use shown in examples/example4.py: `write_vesta` with the option 'podatm' returns the number 0
for every object, instead of the vertices, and `write_podatm` of that number raises TypeError. -/
theorem C77_fails_example (o : Obj 4) (h0 : o ≠ []) (ho : Obj.Ok o) (position : Vec 6) (j0 : Int) (js : List Int)
    (vlist : List (List Int)) (shift : Fin 6 → ℝ) :
    ∃ out : VestaOut, Ico.writeVesta .podatm (some o) = .ok out ∧
      Ico.writePodatm (.num out.ret) position ((j0 :: js) :: vlist) shift = .error .typeError := by
  obtain ⟨mol, h, -⟩ := C75_ico_pieces_partial .podatm (by decide) o h0 ho
  exact ⟨_, h, rfl⟩

/-- C77: a list of numbers with fewer than two entries raises IndexError. -/
theorem C77_short (vs : List (Vec 6)) (position : Vec 6) (g : List Int) (hg : g.length < 2) (shift : Fin 6 → ℝ)
    (hj : ∀ j ∈ g, 1 ≤ j ∧ j ≤ vs.length) :
    Ico.writePodatm (.list vs) position [g] shift = .error .indexError := by
  match g, hg with
  | [], _ => rfl
  | [j], _ =>
    have hb := hj j (by simp)
    obtain ⟨v0, hv0⟩ : ∃ v, vs[(j - 1).toNat]? = some v := ⟨_, List.getElem?_eq_getElem (by omega)⟩
    have e1 : atmEntry (.list vs) position shift [j] = .ok ⟨fun k => Package.ico.numericValue (position k),
        fun k => Package.ico.numericValue (v0 k) + shift k⟩ := by
      unfold atmEntry
      rw [pyItem_ok (x := j) (le_refl 0) rfl, bind_ok', podItem, pyItem_ok (by omega) hv0, bind_ok']
    have e2 : podEntry (.list vs) [j] = .error .indexError := by
      unfold podEntry
      rw [pyItem_ok (x := j) (le_refl 0) rfl, bind_ok', podItem, pyItem_ok (by omega) hv0, bind_ok']
      rfl
    unfold Ico.writePodatm
    simp only [fillList, e1, e2, bind_ok']
    rfl

/-- The hypotheses of `C77_content_partial` hold for the four corners of a tetrahedron and the list 1, 2, 3, 4: one tetrahedron,
the vectors from the first corner to the others, and the indices 1, 2, 3 in some numbering. -/
example : ∃ atm pod, Ico.writePodatm (.list (List.ofFn exCorner)) (cart 0 0 0 1) [[1, 2, 3, 4]] (fun _ => 0) =
    .ok (some (atm, pod)) ∧ atm.length = 1 ∧ ∃ e : PodEntry, pod[0]? = some e ∧ e.nth = 1 ∧ e.ej.length = 3 := by
  obtain ⟨atm, pod, h, h1, -, h3⟩ := C77_content_partial (List.ofFn exCorner) (cart 0 0 0 1) [[1, 2, 3, 4]] (fun _ => 0)
    (by simp) (by simp)
  obtain ⟨a, e, -, he, -, -, hn, hl, -⟩ := h3 0 1 [2, 3, 4] (exCorner 0) rfl (by simp [List.ofFn_succ])
  exact ⟨atm, pod, h, h1, e, he, by rw [hn]; rfl, by rw [hl]; rfl⟩

end PyQC
