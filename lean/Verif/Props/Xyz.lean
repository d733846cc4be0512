import Verif.Lemmas.Xyz
import Verif.Props.Convex
/-!
# C39, C40, C53, C61: files and status values
-/
namespace PyQC

/-- A file name that fits on one line. -/
def OneLine (fn : List Char) : Prop := ∀ c ∈ fn, c ≠ '\n' ∧ c ≠ '\r'

theorem volumeText_clean {fl : ℝ → List Char} (hfl : FloatText fl) (v : Num3) :
    ∃ l, volumeText fl v = l ++ ['\n'] ∧ Clean l := by
  obtain ⟨n, w, e, h⟩ := hfl (Package.ico.numericValue v)
  have p : Padded (fl (Package.ico.numericValue v)) w := ⟨h, n, e⟩
  refine ⟨decInt v.a ++ " ".toList ++ decInt v.b ++ " ".toList ++ decInt v.c ++ " (".toList ++
    fl (Package.ico.numericValue v) ++ ")".toList, ?_, ?_⟩
  · unfold volumeText
    have : ")\n".toList = ")".toList ++ ['\n'] := rfl
    rw [this, List.append_assoc _ ")".toList]
  · have h1 : Clean " ".toList := by unfold Clean; decide
    have h2 : Clean " (".toList := by unfold Clean; decide
    have h3 : Clean ")".toList := by unfold Clean; decide
    exact ((((((((decInt_word _).clean.append h1).append (decInt_word _).clean).append h1).append
      (decInt_word _).clean).append h2).append p.clean)).append h3

theorem volumeLines_ok {fl : ℝ → List Char} {o : Obj 4} (h : Obj.Ok o) {last : Simplex 4} (hlast : o.getLast? = some last) :
    ∃ total v, Ico.objVolume6d (.d4 o) = .ok (some total) ∧ Ico.tetrahedronVolume6d last = .ok v ∧
      volumeLines fl o = .ok (("volume = ".toList ++ volumeText fl total) ::
        (List.range o.length).map fun i => decPad3 i ++ "-the tetrahedron, ".toList ++ volumeText fl v) := by
  refine ⟨_, _, objVolume_ok h, tetrahedronVolume6d_ok (h last (List.mem_of_getLast? hlast)), ?_⟩
  unfold volumeLines
  rw [objVolume_ok h, bind_ok']
  simp only [needSome, bind_ok', hlast]
  have : Ico.asTetra last = .ok last := rfl
  rw [fillList_ok (g := fun i => decPad3 i ++ "-the tetrahedron, ".toList ++ volumeText fl (norm (kvol last)))]
  · rfl
  · intro i _
    simp only [this, bind_ok', tetrahedronVolume6d_ok (h last (List.mem_of_getLast? hlast))]

theorem volumeLines_clean {fl : ℝ → List Char} (hfl : FloatText fl) {o : Obj 4} (h : Obj.Ok o) (ho : o ≠ []) :
    ∃ tail : List (List Char), volumeLines fl o = .ok (tail.map (· ++ ['\n'])) ∧ ∀ l ∈ tail, Clean l := by
  obtain ⟨last, hlast⟩ : ∃ l, o.getLast? = some l := by
    rw [List.getLast?_eq_some_getLast ho]; exact ⟨_, rfl⟩
  obtain ⟨total, v, -, -, e⟩ := volumeLines_ok (fl := fl) h hlast
  obtain ⟨l1, e1, c1⟩ := volumeText_clean hfl total
  obtain ⟨l2, e2, c2⟩ := volumeText_clean hfl v
  refine ⟨("volume = ".toList ++ l1) :: (List.range o.length).map fun i => decPad3 i ++ "-the tetrahedron, ".toList ++ l2,
    ?_, ?_⟩
  · rw [e, e1, e2, List.map_cons, List.map_map, List.append_assoc]
    congr 2
    apply List.map_congr_left
    intro i _
    simp only [Function.comp_apply, List.append_assoc]
  · intro l hl
    rcases List.mem_cons.1 hl with rfl | hl
    · exact Clean.append (by unfold Clean; decide) c1
    · obtain ⟨i, -, rfl⟩ := List.mem_map.1 hl
      exact ((decPad3_padded i).clean.append (by unfold Clean; decide)).append c2

theorem isNoneOrEmpty_d4 {m : Nat} {o : Obj m} (hm : m ≠ 0) (ho : o ≠ []) : isNoneOrEmpty (some (.d4 o)) = false := by
  simp [isNoneOrEmpty, hm, ho]

/-! ## C39 -/

/-- C39: the file written for a non-empty object of tetrahedra is read back as the same array; reading it as
vertices gives the vertices in order. Nothing is assumed about the printed coordinates except that each is one word. -/
theorem C39_tetrahedra (fl : ℝ → List Char) (hfl : FloatText fl) (vesta : Option NdArr → Py (List Char))
    (fn : List Char) (hfn : OneLine fn) (o : Obj 4) (ho : o ≠ []) (h : Obj.Ok o) :
    ∃ text, Ico.write fl vesta fn .xyz .tetrahedron (some (.d4 o)) = .ok ⟨some 0, some text⟩ ∧
      readPieces 4 text = .ok o ∧ readVertices text = .ok (o.flatMap fun t => [t 0, t 1, t 2, t 3]) := by
  obtain ⟨ls, e1, h1⟩ := objLines_ok .ico hfl (label := "tetrahedron".toList) ⟨by decide, by decide⟩ 0 h
  obtain ⟨tail, e2, h2⟩ := volumeLines_clean hfl h ho
  have hv : flattenObj o ≠ [] := by
    rw [← List.length_pos_iff, flattenObj_length]
    exact Nat.mul_pos (List.length_pos_iff.2 ho) (by norm_num)
  refine ⟨(headLines (flattenObj o).length fn ++ ls.map (· ++ ['\n']) ++ tail.map (· ++ ['\n'])).flatten, ?_,
    readPieces_ok (by norm_num) ho h1 fn hfn h2, ?_⟩
  · simp only [Ico.write, Ico.writeXyz, isNoneOrEmpty_d4 (by norm_num : (4 : Nat) ≠ 0) ho, Ico.xyzTetrahedra, e1, e2,
      bind_ok', flattenObj_length, Bool.false_eq_true, if_false]
  · rw [readVertices_ok hv h1 fn hfn h2]
    congr 1

/-- C39: files of triangles (`select='triangle'`) and of edges (`select='edge'`) read back as their vertices in
order. -/
theorem C39_triangles (fl : ℝ → List Char) (hfl : FloatText fl) (vesta : Option NdArr → Py (List Char))
    (fn : List Char) (hfn : OneLine fn) (o : Obj 3) (ho : o ≠ []) (h : Obj.Ok o) :
    ∃ text, Ico.write fl vesta fn .xyz .triangle (some (.d4 o)) = .ok ⟨some 0, some text⟩ ∧
      readVertices text = .ok (o.flatMap fun t => [t 0, t 1, t 2]) := by
  obtain ⟨ls, e1, h1⟩ := objLines_ok .ico hfl (label := "triangle".toList) ⟨by decide, by decide⟩ 0 h
  have hv : flattenObj o ≠ [] := by
    rw [← List.length_pos_iff, flattenObj_length]
    exact Nat.mul_pos (List.length_pos_iff.2 ho) (by norm_num)
  refine ⟨(headLines (flattenObj o).length fn ++ ls.map (· ++ ['\n']) ++ [].map (· ++ ['\n'])).flatten, ?_, ?_⟩
  · simp only [Ico.write, Ico.writeXyz, isNoneOrEmpty_d4 (by norm_num : (3 : Nat) ≠ 0) ho, Ico.xyzPieces, e1,
      bind_ok', flattenObj_length, List.map_nil, List.append_nil, Bool.false_eq_true, if_false]
  · rw [readVertices_ok hv h1 fn hfn (by simp)]
    congr 1

/-- C39: see `C39_triangles`. -/
theorem C39_edges (fl : ℝ → List Char) (hfl : FloatText fl) (vesta : Option NdArr → Py (List Char))
    (fn : List Char) (hfn : OneLine fn) (o : Obj 2) (ho : o ≠ []) (h : Obj.Ok o) :
    ∃ text, Ico.write fl vesta fn .xyz .edge (some (.d4 o)) = .ok ⟨some 0, some text⟩ ∧
      readVertices text = .ok (o.flatMap fun t => [t 0, t 1]) := by
  obtain ⟨ls, e1, h1⟩ := objLines_ok .ico hfl (label := "edge".toList) ⟨by decide, by decide⟩ 0 h
  have hv : flattenObj o ≠ [] := by
    rw [← List.length_pos_iff, flattenObj_length]
    exact Nat.mul_pos (List.length_pos_iff.2 ho) (by norm_num)
  refine ⟨(headLines (flattenObj o).length fn ++ ls.map (· ++ ['\n']) ++ [].map (· ++ ['\n'])).flatten, ?_, ?_⟩
  · simp only [Ico.write, Ico.writeXyz, isNoneOrEmpty_d4 (by norm_num : (2 : Nat) ≠ 0) ho, Ico.xyzPieces, e1,
      bind_ok', flattenObj_length, List.map_nil, List.append_nil, Bool.false_eq_true, if_false]
  · rw [readVertices_ok hv h1 fn hfn (by simp)]
    congr 1

/-- C39, boundary: the name must fit on one line. With the name `a⏎b` the vertex lines are expected one line too
early and reading raises IndexError. -/
theorem C39_name_with_newline (fl : ℝ → List Char) (hfl : FloatText fl) (vesta : Option NdArr → Py (List Char))
    (o : Obj 4) (ho : o ≠ []) (h : Obj.Ok o) :
    ∃ text, Ico.write fl vesta ['a', '\n', 'b'] .xyz .tetrahedron (some (.d4 o)) = .ok ⟨some 0, some text⟩ ∧
      readPieces 4 text = .error .indexError := by
  obtain ⟨ls, e1, h1⟩ := objLines_ok .ico hfl (label := "tetrahedron".toList) ⟨by decide, by decide⟩ 0 h
  obtain ⟨tail, e2, h2⟩ := volumeLines_clean hfl h ho
  refine ⟨(headLines (o.length * 4) ['a', '\n', 'b'] ++ ls.map (· ++ ['\n']) ++ tail.map (· ++ ['\n'])).flatten, ?_, ?_⟩
  · simp only [Ico.write, Ico.writeXyz, isNoneOrEmpty_d4 (by norm_num : (4 : Nat) ≠ 0) ho, Ico.xyzTetrahedra, e1, e2,
      bind_ok', Bool.false_eq_true, if_false]
  · have e : (headLines (o.length * 4) ['a', '\n', 'b'] ++ ls.map (· ++ ['\n']) ++ tail.map (· ++ ['\n'])).flatten =
        (((decNat (o.length * 4) :: ['a'] :: ['b'] :: ls) ++ tail).map (· ++ ['\n'])).flatten := by simp [headLines]
    unfold readPieces readInts
    rw [e, readText_lines]
    · have hpos : 0 < o.length := List.length_pos_iff.2 ho
      simp only [List.cons_append, wordAt, List.getElem?_cons_zero, bind_ok', splitWords_last (decNat_word _),
        parseInt_decNat]
      rw [if_neg (by omega), fillList_range_error (k := 0) (e := .indexError) (by omega) (by omega)]
      · rfl
      · rfl
    · intro l hl
      rcases List.mem_append.1 hl with h3 | h3
      · simp only [List.mem_cons] at h3
        rcases h3 with rfl | rfl | rfl | h3
        · exact (decNat_word _).clean
        · intro c hc; rw [List.mem_singleton.1 hc]; decide
        · intro c hc; rw [List.mem_singleton.1 hc]; decide
        · exact h1.clean l h3
      · exact h2 l h3

/-- One way to print numbers: every number as `0.0`, with padding. -/
def exFl : ℝ → List Char := fun _ => "  0.0".toList

theorem exFl_ok : FloatText exFl := fun _ => ⟨2, "0.0".toList, rfl, by decide, by decide⟩

/-- Two tetrahedra. -/
def exTwo : Obj 4 := [exCorner, exFar]

theorem exTwo_ok : Obj.Ok exTwo := by
  intro s hs
  simp only [exTwo, List.mem_cons, List.not_mem_nil, or_false] at hs
  rcases hs with rfl | rfl
  · exact exCorner_ok
  · exact exFar_ok

/-- The hypotheses hold for two tetrahedra and the file name `./tmp.xyz`. -/
example : ∃ text, Ico.write exFl (fun _ => .ok []) "./tmp.xyz".toList .xyz .tetrahedron (some (.d4 exTwo)) =
    .ok ⟨some 0, some text⟩ ∧ readPieces 4 text = .ok exTwo := by
  obtain ⟨t, h1, h2, -⟩ := C39_tetrahedra exFl exFl_ok (fun _ => .ok []) "./tmp.xyz".toList (by unfold OneLine; decide) exTwo
    (by simp [exTwo]) exTwo_ok
  exact ⟨t, h1, h2⟩

/-! ## C40 -/

/-- C40 (first half): dode2 files of triangles are read back as the same array. Missing: edges, see
`C40_edges_unreadable`. -/
theorem C40_triangles_partial (fl : ℝ → List Char) (hfl : FloatText fl) (vesta : Option NdArr → Py (List Char))
    (select : Select) (fn : List Char) (hfn : OneLine fn) (o : Obj 3) (ho : o ≠ []) (h : Obj.Ok o) :
    ∃ text, Dode.write fl vesta fn .xyz select (some (.d4 o)) = .ok ⟨some 0, some text⟩ ∧
      readPieces 3 text = .ok o ∧ readVertices text = .ok (o.flatMap fun t => [t 0, t 1, t 2]) := by
  obtain ⟨ls, e1, h1⟩ := objLines_ok .dode hfl (label := "triangle".toList) ⟨by decide, by decide⟩ 0 h
  have hv : flattenObj o ≠ [] := by
    rw [← List.length_pos_iff, flattenObj_length]
    exact Nat.mul_pos (List.length_pos_iff.2 ho) (by norm_num)
  refine ⟨(headLines (flattenObj o).length fn ++ ls.map (· ++ ['\n']) ++ [].map (· ++ ['\n'])).flatten, ?_,
    readPieces_ok (by norm_num) ho h1 fn hfn (by simp), ?_⟩
  · simp only [Dode.write, Dode.writeXyz, isNoneOrEmpty_d4 (by norm_num : (3 : Nat) ≠ 0) ho, Dode.xyzTriangles, e1,
      bind_ok', flattenObj_length, List.map_nil, List.append_nil, Bool.false_eq_true, if_false]
  · rw [readVertices_ok hv h1 fn hfn (by simp)]
    congr 1

/-- C40, disagreement: the dode2 file of any non-empty set of edges announces three lines per edge but has two, and
reading it back raises IndexError, whatever `select` was. -/
theorem C40_edges_unreadable (fl : ℝ → List Char) (hfl : FloatText fl) (vesta : Option NdArr → Py (List Char))
    (select : Select) (fn : List Char) (hfn : OneLine fn) (o : Obj 2) (ho : o ≠ []) (h : Obj.Ok o) :
    ∃ text, Dode.write fl vesta fn .xyz select (some (.d4 o)) = .ok ⟨some 0, some text⟩ ∧
      readVertices text = .error .indexError ∧ readPieces 3 text = .error .indexError := by
  obtain ⟨ls, e1, h1⟩ := objLines_ok .dode hfl (label := "triangle".toList) ⟨by decide, by decide⟩ 0 h
  have hr : readInts (headLines (o.length * 3) fn ++ ls.map (· ++ ['\n'])).flatten = .error .indexError := by
    have e : headLines (o.length * 3) fn ++ ls.map (· ++ ['\n']) =
        (decNat (o.length * 3) :: fn :: ls).map (· ++ ['\n']) := by simp [headLines]
    unfold readInts
    rw [e, readText_lines]
    · have hpos : 0 < o.length := List.length_pos_iff.2 ho
      have hlen : ls.length = o.length * 2 := by rw [← flattenObj_length]; exact (List.Forall₂.length_eq h1).symm
      simp only [wordAt, List.getElem?_cons_zero, bind_ok', splitWords_last (decNat_word _), parseInt_decNat]
      rw [if_neg (by omega), fillList_range_error (k := ls.length) (e := .indexError)]
      · rfl
      · omega
      · intro i hi
        have : (decNat (o.length * 3) :: fn :: ls)[i + 2]? = some ls[i] := by
          rw [List.getElem?_cons_succ, List.getElem?_cons_succ, List.getElem?_eq_getElem]
        simp only [this, bind_ok']
        exact ⟨_, readVertex_ok ((List.forall₂_iff_get.1 h1).2 i (by rw [flattenObj_length]; omega) hi)⟩
      · have : (decNat (o.length * 3) :: fn :: ls)[ls.length + 2]? = none := by
          rw [List.getElem?_cons_succ, List.getElem?_cons_succ, List.getElem?_eq_none (le_refl _)]
        simp only [this]
        rfl
    · intro l hl
      rcases List.mem_cons.1 hl with rfl | hl
      · exact (decNat_word _).clean
      · rcases List.mem_cons.1 hl with rfl | hl
        · exact hfn
        · exact h1.clean l hl
  refine ⟨(headLines (o.length * 3) fn ++ ls.map (· ++ ['\n'])).flatten, ?_, ?_, ?_⟩
  · simp only [Dode.write, Dode.writeXyz, isNoneOrEmpty_d4 (by norm_num : (2 : Nat) ≠ 0) ho, Dode.xyzTriangles, e1,
      bind_ok', Bool.false_eq_true, if_false]
  · unfold readVertices; rw [hr]; rfl
  · unfold readPieces; rw [hr]; rfl

/-- A triangle and an edge. -/
example : ∃ o : Obj 3, o ≠ [] ∧ Obj.Ok o := ⟨[exFace], by simp, by
  intro s hs; rw [List.mem_singleton.1 hs]; intro i; fin_cases i <;> exact cart_ok (by decide)⟩
example : ∃ o : Obj 2, o ≠ [] ∧ Obj.Ok o := ⟨[exSeg], by simp, by
  intro s hs; rw [List.mem_singleton.1 hs]; intro i; fin_cases i <;> exact cart_ok (by decide)⟩

/-! ## C53 -/

/-- C53 (part): ico2 `write` of `None` or of an array without elements returns 1 and writes no file, whatever the format
is; a valid object of tetrahedra in the xyz format is written and 0 is returned; dode2 `write` refuses an unknown format with 1.
The other statements of C53 are false, see below. -/
theorem C53_status_partial (fl : ℝ → List Char) (hfl : FloatText fl) (vesta : Option NdArr → Py (List Char)) (fn : List Char)
    (select : Select) :
    (∀ format, Ico.write fl vesta fn format select none = .ok ⟨some 1, none⟩) ∧
    (∀ format, Ico.write fl vesta fn format select (some (.d4 ([] : Obj 4))) = .ok ⟨some 1, none⟩) ∧
    (∀ o : Obj 4, o ≠ [] → Obj.Ok o →
      ∃ text, Ico.write fl vesta fn .xyz .tetrahedron (some (.d4 o)) = .ok ⟨some 0, some text⟩) ∧
    (∀ o : Obj 3, o ≠ [] → Obj.Ok o →
      ∃ text, Dode.write fl vesta fn .xyz select (some (.d4 o)) = .ok ⟨some 0, some text⟩) ∧
    (∀ o : Obj 3, o ≠ [] → Dode.write fl vesta fn .other select (some (.d4 o)) = .ok ⟨some 1, none⟩) := by
  refine ⟨fun _ => rfl, fun _ => rfl, fun o ho h => ?_, fun o ho h => ?_, fun o ho => ?_⟩
  · obtain ⟨ls, e1, h1⟩ := objLines_ok .ico hfl (label := "tetrahedron".toList) ⟨by decide, by decide⟩ 0 h
    obtain ⟨tail, e2, h2⟩ := volumeLines_clean hfl h ho
    exact ⟨_, by simp only [Ico.write, Ico.writeXyz, isNoneOrEmpty_d4 (by norm_num : (4 : Nat) ≠ 0) ho,
      Ico.xyzTetrahedra, e1, e2, bind_ok', Bool.false_eq_true, if_false]; rfl⟩
  · obtain ⟨ls, e1, h1⟩ := objLines_ok .dode hfl (label := "triangle".toList) ⟨by decide, by decide⟩ 0 h
    exact ⟨_, by simp only [Dode.write, Dode.writeXyz, isNoneOrEmpty_d4 (by norm_num : (3 : Nat) ≠ 0) ho,
      Dode.xyzTriangles, e1, bind_ok', Bool.false_eq_true, if_false]; rfl⟩
  · simp only [Dode.write, isNoneOrEmpty_d4 (by norm_num : (3 : Nat) ≠ 0) ho, Bool.false_eq_true, if_false]

/-- C53, disagreement: ico2 `write` returns 0 ("succeed") and writes nothing for an unknown format, and in the xyz format
for an object that does not have four dimensions or for an unknown `select`. -/
theorem C53_ico_false_success (fl : ℝ → List Char) (vesta : Option NdArr → Py (List Char)) (fn : List Char) :
    (∀ select, ∀ o : Obj 4, o ≠ [] → Ico.write fl vesta fn .other select (some (.d4 o)) = .ok ⟨some 0, none⟩) ∧
    (∀ select, ∀ t : Simplex 4, Ico.write fl vesta fn .xyz select (some (.d3 t)) = .ok ⟨some 0, none⟩) ∧
    (∀ o : Obj 4, o ≠ [] → Ico.write fl vesta fn .xyz .other (some (.d4 o)) = .ok ⟨some 0, none⟩) := by
  refine ⟨fun s o ho => ?_, fun s t => rfl, fun o ho => ?_⟩
  · simp only [Ico.write, isNoneOrEmpty_d4 (by norm_num : (4 : Nat) ≠ 0) ho, Bool.false_eq_true, if_false]
  · simp only [Ico.write, Ico.writeXyz, isNoneOrEmpty_d4 (by norm_num : (4 : Nat) ≠ 0) ho, Bool.false_eq_true, if_false,
      bind_ok']

/-- C53, disagreement: dode2 `write` returns 0 ("succeed") and writes nothing for `None`, for an empty object and for one
that does not have four dimensions. -/
theorem C53_dode_false_success (fl : ℝ → List Char) (vesta : Option NdArr → Py (List Char)) (fn : List Char)
    (select : Select) :
    (∀ format, Dode.write fl vesta fn format select none = .ok ⟨some 0, none⟩) ∧
    (∀ format, Dode.write fl vesta fn format select (some (.d4 ([] : Obj 3))) = .ok ⟨some 0, none⟩) ∧
    (∀ t : Simplex 3, Dode.write fl vesta fn .xyz select (some (.d3 t)) = .ok ⟨some 0, none⟩) :=
  ⟨fun _ => rfl, fun _ => rfl, fun _ => rfl⟩

/-- C53: `intersection`, `intersection_convex` and `subtraction` return `None` as soon as one argument does not have four
dimensions. -/
theorem C53_two_objects (kind : Ico.Kind) (draws : Simplex 4 → Simplex 4 → (n : Nat) → Draws n)
    (delaunay : Simplex 4 → Simplex 4 → Ico.Delaunay) (order : Obj 3 → Obj 3) (a b : NdArr)
    (h : (∀ o : Obj 4, a ≠ .d4 o) ∨ ∀ o : Obj 4, b ≠ .d4 o) :
    Ico.intersectionApi kind draws delaunay a b = .ok none ∧
    (∀ d, Ico.intersectionConvexApi d a b = .ok none) ∧
    Ico.subtractionApi order draws delaunay a b = .ok none := by
  refine ⟨?_, fun d => ?_, ?_⟩
  · unfold Ico.intersectionApi
    split
    · rcases h with h | h
      · exact absurd rfl (h _)
      · exact absurd rfl (h _)
    · rfl
  · unfold Ico.intersectionConvexApi
    split
    · rcases h with h | h
      · exact absurd rfl (h _)
      · exact absurd rfl (h _)
    · rfl
  · unfold Ico.subtractionApi
    split
    · rcases h with h | h
      · exact absurd rfl (h _)
      · exact absurd rfl (h _)
    · rfl

/-- A single tetrahedron (three dimensions) is refused. -/
example : ∀ o : Obj 4, NdArr.d3 exCorner ≠ .d4 o := fun _ h => by cases h

/-! ## C61 -/

/-- C61 (part): after the vertex lines the file has one line with the exact volume of the object, then for each number `i` a
line with the exact volume of the last piece. Missing: the volume of piece `i`, see `C61_wrong_volume`. -/
theorem C61_volume_lines_partial (fl : ℝ → List Char) (hfl : FloatText fl) (vesta : Option NdArr → Py (List Char))
    (fn : List Char) (hfn : OneLine fn) (o : Obj 4) (ho : o ≠ []) (h : Obj.Ok o) :
    ∃ text total v, Ico.write fl vesta fn .xyz .tetrahedron (some (.d4 o)) = .ok ⟨some 0, some text⟩ ∧
      Ico.objVolume6d (.d4 o) = .ok (some total) ∧ Ico.tetrahedronVolume6d (o.getLast ho) = .ok v ∧
      (readLines [] text).length = 2 + 4 * o.length + 1 + o.length ∧
      ((readLines [] text)[2 + 4 * o.length]?).map (· ++ ['\n']) = some ("volume = ".toList ++ volumeText fl total) ∧
      ∀ i < o.length, ((readLines [] text)[2 + 4 * o.length + 1 + i]?).map (· ++ ['\n']) =
        some (decPad3 i ++ "-the tetrahedron, ".toList ++ volumeText fl v) := by
  obtain ⟨ls, e1, h1⟩ := objLines_ok .ico hfl (label := "tetrahedron".toList) ⟨by decide, by decide⟩ 0 h
  obtain ⟨tail, e2, h2⟩ := volumeLines_clean hfl h ho
  obtain ⟨total, v, ht, hv, e3⟩ := volumeLines_ok (fl := fl) h (List.getLast?_eq_some_getLast ho)
  have hlen : ls.length = 4 * o.length := by
    rw [mul_comm, ← flattenObj_length]; exact (List.Forall₂.length_eq h1).symm
  have e4 := Except.ok.inj (e2.symm.trans e3)
  have htail : tail.length = o.length + 1 := by
    have := congrArg List.length e4
    simpa using this
  refine ⟨(headLines (o.length * 4) fn ++ ls.map (· ++ ['\n']) ++ tail.map (· ++ ['\n'])).flatten, total, v, ?_, ht, hv, ?_⟩
  · simp only [Ico.write, Ico.writeXyz, isNoneOrEmpty_d4 (by norm_num : (4 : Nat) ≠ 0) ho, Ico.xyzTetrahedra, e1, e2,
      bind_ok', Bool.false_eq_true, if_false]
  · have e : headLines (o.length * 4) fn ++ ls.map (· ++ ['\n']) ++ tail.map (· ++ ['\n']) =
        ((decNat (o.length * 4) :: fn :: ls) ++ tail).map (· ++ ['\n']) := by simp [headLines]
    have hr : readLines [] (headLines (o.length * 4) fn ++ ls.map (· ++ ['\n']) ++ tail.map (· ++ ['\n'])).flatten =
        (decNat (o.length * 4) :: fn :: ls) ++ tail := by
      rw [e, readLines_lines]
      intro l hl
      rcases List.mem_append.1 hl with h3 | h3
      · simp only [List.mem_cons] at h3
        rcases h3 with rfl | rfl | h3
        · exact (decNat_word _).clean
        · exact hfn
        · exact h1.clean l h3
      · exact h2 l h3
    have hi : ∀ i, ((decNat (o.length * 4) :: fn :: ls) ++ tail)[2 + 4 * o.length + i]?.map (· ++ ['\n']) =
        (tail.map (· ++ ['\n']))[i]? := by
      intro i
      rw [List.getElem?_append_right (by simp only [List.length_cons]; omega), List.getElem?_map]
      congr 2
      simp only [List.length_cons]
      omega
    rw [hr]
    refine ⟨by simp only [List.length_append, List.length_cons]; omega, ?_, fun i hlt => ?_⟩
    · have := hi 0
      rw [Nat.add_zero, e4] at this
      exact this
    · have := hi (1 + i)
      rw [← Nat.add_assoc, e4] at this
      rw [this, Nat.add_comm 1 i, List.getElem?_cons_succ, List.getElem?_map, List.getElem?_range hlt]
      rfl

/-- A tetrahedron of twice the volume of `exCorner`. -/
def exTall : Simplex 4 := ![cart 0 0 0 1, cart 1 0 0 1, cart 0 1 0 1, cart 0 0 2 1]

theorem exTall_ok : Simplex.Ok exTall := by
  intro i
  fin_cases i <;> exact cart_ok (by decide)

/-- C61, disagreement: for an object of two tetrahedra of different volumes the line of the first piece does not show its
volume. -/
theorem C61_wrong_volume : ∃ (o : Obj 4) (text l : List Char), Obj.Ok o ∧ o[0]? = some exCorner ∧
    Ico.write exFl (fun _ => .ok []) [] .xyz .tetrahedron (some (.d4 o)) = .ok ⟨some 0, some text⟩ ∧
    (readLines [] text)[2 + 4 * o.length + 1 + 0]? = some l ∧
    ∀ v, Ico.tetrahedronVolume6d exCorner = .ok v →
      l ++ ['\n'] ≠ decPad3 0 ++ "-the tetrahedron, ".toList ++ volumeText exFl v := by
  have hok : Obj.Ok [exCorner, exTall] := by
    intro s hs
    simp only [List.mem_cons, List.not_mem_nil, or_false] at hs
    rcases hs with rfl | rfl
    · exact exCorner_ok
    · exact exTall_ok
  obtain ⟨text, total, v, h1, -, h3, -, -, h6⟩ := C61_volume_lines_partial exFl exFl_ok (fun _ => .ok []) []
    (by intro c hc; cases hc) [exCorner, exTall] (by simp) hok
  have h7 := h6 0 (by simp)
  cases hl : (readLines [] text)[2 + 4 * [exCorner, exTall].length + 1 + 0]? with
  | none => rw [hl] at h7; cases h7
  | some l =>
    rw [hl] at h7
    refine ⟨_, text, l, hok, rfl, h1, hl, ?_⟩
    intro w hw e
    have e1 : Ico.tetrahedronVolume6d exCorner = .ok ⟨1, 0, 6⟩ := by decide +kernel
    have e2 : Ico.tetrahedronVolume6d exTall = .ok ⟨1, 0, 3⟩ := by decide +kernel
    have hw' : w = ⟨1, 0, 6⟩ := Except.ok.inj (hw.symm.trans e1)
    have hv' : v = ⟨1, 0, 3⟩ := Except.ok.inj (h3.symm.trans e2)
    subst hw' hv'
    have h8 := e.symm.trans (Option.some.inj h7)
    revert h8
    simp only [volumeText, exFl]
    decide

end PyQC
