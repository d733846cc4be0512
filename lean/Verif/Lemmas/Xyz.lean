import Verif.Lemmas.Text
import Verif.Lemmas.Volume
/-!
# Lines of `.xyz` files
-/
namespace PyQC

/-- Every number is printed as a word, possibly padded with blanks on the left. -/
def FloatText (fl : ℝ → List Char) : Prop :=
  ∀ x, ∃ (n : Nat) (w : List Char), fl x = List.replicate n ' ' ++ w ∧ w ≠ [] ∧ ∀ c ∈ w, isSpace c = false

/-- A vertex line without its newline; it ends with a word. -/
def IsLineOf (vt : Vec 6) (l : List Char) : Prop :=
  Clean l ∧ (∃ pre c, l = pre ++ [c] ∧ isSpace c = false) ∧ ∃ ws : List (List Char), ws.length = 10 ∧ splitWords [] l = ws ++ (vertexInts vt).map decInt

theorem ints_words (vt : Vec 6) : ∀ w ∈ (vertexInts vt).map decInt, Word w := by
  intro w hw
  obtain ⟨z, -, rfl⟩ := List.mem_map.1 hw
  exact decInt_word z

/-- A text that ends with a word. -/
def WordEnd (l : List Char) : Prop := ∃ pre c, l = pre ++ [c] ∧ isSpace c = false

theorem WordEnd.append (a : List Char) {b : List Char} (h : WordEnd b) : WordEnd (a ++ b) := by
  obtain ⟨pre, c, rfl, hc⟩ := h
  exact ⟨a ++ pre, c, by rw [List.append_assoc], hc⟩

theorem WordEnd.cons (x : Char) {b : List Char} (h : WordEnd b) : WordEnd (x :: b) := h.append [x]

theorem Word.wordEnd {w : List Char} (h : Word w) : WordEnd w := by
  refine ⟨w.dropLast, w.getLast h.1, (List.dropLast_append_getLast h.1).symm, h.2 _ (List.getLast_mem h.1)⟩

theorem joinBlank_wordEnd (ws : List (List Char)) (hn : ws ≠ []) (h : ∀ w ∈ ws, Word w) : WordEnd (joinBlank ws) := by
  induction ws with
  | nil => exact absurd rfl hn
  | cons w ws ih =>
    cases ws with
    | nil => exact (h w List.mem_cons_self).wordEnd
    | cons w' ws => exact ((ih (by simp) fun x hx => h x (List.mem_cons_of_mem _ hx)).cons ' ').append w

theorem vertexInts_ne (vt : Vec 6) : (vertexInts vt).map decInt ≠ [] := by
  simp [vertexInts, rowKey, List.ofFn_succ]

theorem vertexLine_ok (p : Package) {fl : ℝ → List Char} (hfl : FloatText fl) {label : List Char} (hl : Word label)
    (i1 i2 : Nat) {vt : Vec 6} (hv : Vec.Ok vt) :
    ∃ l, vertexLine p fl label i1 i2 vt = .ok (l ++ ['\n']) ∧ IsLineOf vt l := by
  unfold vertexLine
  rw [p.projection3_ok hv, bind_ok']
  generalize p.numericValue ((nvec (p.kperp.mulVec (kvec p.theta vt))) 0) = x
  generalize p.numericValue ((nvec (p.kperp.mulVec (kvec p.theta vt))) 1) = y
  generalize p.numericValue ((nvec (p.kperp.mulVec (kvec p.theta vt))) 2) = z
  obtain ⟨n1, w1, e1, h1⟩ := hfl x
  obtain ⟨n2, w2, e2, h2⟩ := hfl y
  obtain ⟨n3, w3, e3, h3⟩ := hfl z
  have p1 : Padded (fl x) w1 := ⟨h1, n1, e1⟩
  have p2 : Padded (fl y) w2 := ⟨h2, n2, e2⟩
  have p3 : Padded (fl z) w3 := ⟨h3, n3, e3⟩
  have p4 : Padded (decPad3 i1 ++ "-the".toList) (decNat i1 ++ "-the".toList) := by
    refine ⟨⟨by simp, ?_⟩, _, List.append_assoc _ _ _⟩
    intro c hc
    rcases List.mem_append.1 hc with h | h
    · exact (decNat_word i1).2 c h
    · clear hc; revert c; decide
  have p5 : Word (decNat i2 ++ "-th".toList) := by
    refine ⟨by simp, ?_⟩
    intro c hc
    rcases List.mem_append.1 hc with h | h
    · exact (decNat_word i2).2 c h
    · clear hc; revert c; decide
  refine ⟨"Xx".toList ++ ' ' :: (fl x ++ ' ' :: (fl y ++ ' ' :: (fl z ++ ' ' :: ("#".toList ++ ' ' ::
    ((decPad3 i1 ++ "-the".toList) ++ ' ' :: (label ++ ' ' :: ((decNat i2 ++ "-th".toList) ++ ' ' ::
    ("vertex".toList ++ ' ' :: ("#".toList ++ ' ' :: joinBlank ((vertexInts vt).map decInt)))))))))), ?_, ?_, ?_, ?_⟩
  · congr 1
    have a1 : "Xx ".toList = "Xx".toList ++ [' '] := rfl
    have a2 : " ".toList = [' '] := rfl
    have a3 : " # ".toList = ' ' :: ("#".toList ++ [' ']) := rfl
    have a4 : "-the ".toList = "-the".toList ++ [' '] := rfl
    have a5 : "-th vertex # ".toList = "-th".toList ++ ' ' :: ("vertex".toList ++ ' ' :: ("#".toList ++ [' '])) := rfl
    rw [a1, a2, a3, a4, a5]
    generalize "Xx".toList = s1
    generalize "#".toList = s2
    generalize "-the".toList = s3
    generalize "-th".toList = s4
    generalize "vertex".toList = s5
    simp only [List.append_assoc, List.cons_append, List.nil_append]
  · have hb : ' ' ≠ '\n' ∧ ' ' ≠ '\r' := by decide
    have c1 : Word "Xx".toList := ⟨by decide, by decide⟩
    have c2 : Word "#".toList := ⟨by decide, by decide⟩
    have c3 : Word "vertex".toList := ⟨by decide, by decide⟩
    exact c1.clean.append (.cons hb (p1.clean.append (.cons hb (p2.clean.append (.cons hb (p3.clean.append (.cons hb
      (c2.clean.append (.cons hb (p4.clean.append (.cons hb (hl.clean.append (.cons hb (p5.clean.append (.cons hb
      (c3.clean.append (.cons hb (c2.clean.append (.cons hb (joinBlank_clean _ (ints_words vt)))))))))))))))))))))
  · exact (((((((((((((((((((((joinBlank_wordEnd _ (vertexInts_ne vt) (ints_words vt)).cons ' ').append _).cons ' ').append
      _).cons ' ').append _).cons ' ').append _).cons ' ').append _).cons ' ').append _).cons ' ').append _).cons
      ' ').append _).cons ' ').append _).cons ' ').append _)
  · have c1 : Word "Xx".toList := ⟨by decide, by decide⟩
    have c2 : Word "#".toList := ⟨by decide, by decide⟩
    have c3 : Word "vertex".toList := ⟨by decide, by decide⟩
    refine ⟨["Xx".toList, w1, w2, w3, "#".toList, decNat i1 ++ "-the".toList, label, decNat i2 ++ "-th".toList,
      "vertex".toList, "#".toList], rfl, ?_⟩
    rw [splitWords_word c1, splitWords_padded p1, splitWords_padded p2, splitWords_padded p3, splitWords_word c2,
      splitWords_padded p4, splitWords_word hl, splitWords_word p5, splitWords_word c3, splitWords_word c2,
      splitWords_join _ (ints_words vt)]
    rfl

theorem rowKey_length {n : Nat} (v : Vec n) : (rowKey v).length = 3 * n := by
  induction n with
  | zero => simp [rowKey]
  | succ n ih => rw [rowKey_succ]; simp only [List.length_cons, ih]; omega

theorem vertexInts_length (v : Vec 6) : (vertexInts v).length = 18 := rowKey_length v

theorem fillList_range_eq {α : Type} {n : Nat} {f : Nat → Py α} {l : List α} (hl : l.length = n)
    (h : ∀ i (hi : i < l.length), f i = .ok l[i]) : fillList f (List.range n) = .ok l := by
  subst hl
  induction l generalizing f with
  | nil => rfl
  | cons x xs ih =>
    rw [List.length_cons, List.range_succ_eq_map, fillList, h 0 (by simp)]
    have : fillList f ((List.range xs.length).map Nat.succ) = fillList (fun i => f (i + 1)) (List.range xs.length) := by
      generalize List.range xs.length = r
      induction r with
      | nil => rfl
      | cons a as ih2 => rw [List.map_cons, fillList, fillList, ih2]
    rw [this, ih (f := fun i => f (i + 1)) fun i hi => h (i + 1) (by simpa using hi)]
    rfl

theorem fillList_range_error {α : Type} {n k : Nat} {f : Nat → Py α} {e : PyErr} (hk : k < n)
    (h : ∀ i < k, ∃ x, f i = .ok x) (he : f k = .error e) : fillList f (List.range n) = .error e := by
  induction k generalizing n f with
  | zero =>
    obtain ⟨n, rfl⟩ : ∃ m, n = m + 1 := ⟨n - 1, by omega⟩
    rw [List.range_succ_eq_map, fillList, he]
  | succ k ih =>
    obtain ⟨n, rfl⟩ : ∃ m, n = m + 1 := ⟨n - 1, by omega⟩
    obtain ⟨x, hx⟩ := h 0 (by omega)
    rw [List.range_succ_eq_map, fillList, hx]
    have : fillList f ((List.range n).map Nat.succ) = fillList (fun i => f (i + 1)) (List.range n) := by
      generalize List.range n = r
      induction r with
      | nil => rfl
      | cons a as ih2 => rw [List.map_cons, fillList, fillList, ih2]
    rw [this, ih (f := fun i => f (i + 1)) (by omega) (fun i hi => h (i + 1) (by omega)) he]

theorem readVertex_ok {vt : Vec 6} {l : List Char} (h : IsLineOf vt l) : readVertex l = .ok (vertexInts vt) := by
  obtain ⟨-, -, ws, hw, e⟩ := h
  refine fillList_range_eq (vertexInts_length vt) fun i hi => ?_
  have : (splitWords [] l)[10 + i]? = some (decInt (vertexInts vt)[i]) := by
    rw [e, List.getElem?_append_right (by omega), hw, Nat.add_sub_cancel_left, List.getElem?_map,
      List.getElem?_eq_getElem hi]
    rfl
  rw [wordAt, this]
  exact parseInt_decInt _

theorem toVertices_ok (vs : List (Vec 6)) : toVertices vs.length (vs.map vertexInts).flatten = some vs := by
  induction vs with
  | nil => rfl
  | cons v vs ih =>
    rw [List.length_cons, toVertices, List.map_cons, List.flatten_cons]
    have h18 := vertexInts_length v
    rw [if_pos (by rw [List.length_append, h18]; omega), List.drop_append_of_le_length (by omega)]
    rw [List.drop_of_length_le (by omega), List.nil_append, ih, Option.map_some]
    congr 2
    funext i
    have e : vertexInts v = [(v 0).a, (v 0).b, (v 0).c, (v 1).a, (v 1).b, (v 1).c, (v 2).a, (v 2).b, (v 2).c,
      (v 3).a, (v 3).b, (v 3).c, (v 4).a, (v 4).b, (v 4).c, (v 5).a, (v 5).b, (v 5).c] := by
      simp [vertexInts, rowKey, List.ofFn_succ]
    rw [e]
    fin_cases i <;> rfl

theorem toPieces_ok {k : Nat} (o : Obj k) : toPieces k o.length (flattenObj o) = some o := by
  induction o with
  | nil => rfl
  | cons s o ih =>
    have hf : flattenObj (s :: o) = List.ofFn s ++ flattenObj o := by simp [flattenObj]
    rw [List.length_cons, toPieces, hf, dif_pos (by simp), List.drop_append_of_le_length (by simp)]
    rw [List.drop_of_length_le (by simp), List.nil_append, ih, Option.map_some]
    congr 2
    funext i
    rw [List.get_eq_getElem, List.getElem_append_left (by simp)]
    simp

/-- The lines written for the vertices. -/
def LinesOf (vs : List (Vec 6)) (ls : List (List Char)) : Prop := List.Forall₂ IsLineOf vs ls

theorem pieceLines_ok (p : Package) {fl : ℝ → List Char} (hfl : FloatText fl) {label : List Char} (hl : Word label)
    (i1 : Nat) {m : Nat} {s : Simplex m} (hs : Simplex.Ok s) :
    ∃ ls, pieceLines p fl label m i1 s = .ok (ls.map (· ++ ['\n'])) ∧ LinesOf (List.ofFn s) ls := by
  have h := fun i : Fin m => vertexLine_ok p hfl hl i1 i (hs i)
  choose f hf hg using h
  refine ⟨List.ofFn f, ?_, ?_⟩
  · unfold pieceLines
    refine fillList_range_eq (by simp) fun i hi => ?_
    have hi' : i < m := by simpa using hi
    rw [dif_pos hi', hf ⟨i, hi'⟩]
    simp
  · unfold LinesOf
    rw [List.forall₂_iff_get]
    refine ⟨by simp, fun i h1 h2 => ?_⟩
    simpa using hg ⟨i, by simpa using h1⟩

theorem objLines_ok (p : Package) {fl : ℝ → List Char} (hfl : FloatText fl) {label : List Char} (hl : Word label)
    (i1 : Nat) {m : Nat} {o : Obj m} (ho : Obj.Ok o) :
    ∃ ls, objLines p fl label m i1 o = .ok (ls.map (· ++ ['\n'])) ∧ LinesOf (flattenObj o) ls := by
  induction o generalizing i1 with
  | nil => exact ⟨[], rfl, List.Forall₂.nil⟩
  | cons s o ih =>
    obtain ⟨a, ha, ha'⟩ := pieceLines_ok p hfl hl i1 (ho s List.mem_cons_self)
    obtain ⟨b, hb, hb'⟩ := ih (i1 + 1) fun x hx => ho x (List.mem_cons_of_mem _ hx)
    refine ⟨a ++ b, ?_, ?_⟩
    · rw [objLines, ha, bind_ok', hb, bind_ok', List.map_append]
    · have hf : flattenObj (s :: o) = List.ofFn s ++ flattenObj o := by simp [flattenObj]
      rw [hf]
      exact List.rel_append ha' hb'

theorem flattenObj_length {m : Nat} (o : Obj m) : (flattenObj o).length = o.length * m := by
  induction o with
  | nil => simp [flattenObj]
  | cons s o ih =>
    have hf : flattenObj (s :: o) = List.ofFn s ++ flattenObj o := by simp [flattenObj]
    rw [hf, List.length_append, ih, List.length_ofFn, List.length_cons]
    ring

theorem LinesOf.clean {vs : List (Vec 6)} {ls : List (List Char)} (h : LinesOf vs ls) : ∀ l ∈ ls, Clean l := by
  unfold LinesOf at h
  induction h with
  | nil => intro l hl; cases hl
  | cons h1 _ ih =>
    intro l hl
    rcases List.mem_cons.1 hl with rfl | h2
    · exact h1.1
    · exact ih l h2

/-- What is read from a file with the given vertex lines. -/
theorem readInts_ok {vs : List (Vec 6)} {ls tail : List (List Char)} (hv : vs ≠ []) (h : LinesOf vs ls) (fn : List Char)
    (hfn : Clean fn) (ht : ∀ l ∈ tail, Clean l) :
    readInts (headLines vs.length fn ++ ls.map (· ++ ['\n']) ++ tail.map (· ++ ['\n'])).flatten =
      .ok (vs.length, (vs.map vertexInts).flatten) := by
  have e : headLines vs.length fn ++ ls.map (· ++ ['\n']) ++ tail.map (· ++ ['\n']) =
      ((decNat vs.length :: fn :: ls) ++ tail).map (· ++ ['\n']) := by simp [headLines]
  unfold readInts
  rw [e, readText_lines]
  · have hl : ls.length = vs.length := (List.Forall₂.length_eq h).symm
    simp only [List.cons_append, wordAt, List.getElem?_cons_zero, bind_ok', splitWords_last (decNat_word _),
      parseInt_decNat]
    have hpos : 0 < vs.length := List.length_pos_iff.2 hv
    rw [if_neg (by omega), Int.toNat_natCast,
      fillList_range_eq (l := vs.map vertexInts) (by simp) fun i hi => ?_]
    · rfl
    · rw [List.length_map] at hi
      have hi' : i < ls.length := by omega
      have : (decNat vs.length :: fn :: (ls ++ tail))[i + 2]? = some ls[i] := by
        rw [List.getElem?_cons_succ, List.getElem?_cons_succ, List.getElem?_append_left hi', List.getElem?_eq_getElem]
      simp only [this, bind_ok', List.getElem_map]
      exact readVertex_ok (((List.forall₂_iff_get.1 h).2 i hi hi'))
  · intro l hl
    rcases List.mem_append.1 hl with h1 | h1
    · rcases List.mem_cons.1 h1 with rfl | h1
      · exact (decNat_word _).clean
      · rcases List.mem_cons.1 h1 with rfl | h1
        · exact hfn
        · exact h.clean l h1
    · exact ht l h1

theorem readVertices_ok {vs : List (Vec 6)} {ls tail : List (List Char)} (hv : vs ≠ []) (h : LinesOf vs ls)
    (fn : List Char) (hfn : Clean fn) (ht : ∀ l ∈ tail, Clean l) :
    readVertices (headLines vs.length fn ++ ls.map (· ++ ['\n']) ++ tail.map (· ++ ['\n'])).flatten = .ok vs := by
  unfold readVertices
  rw [readInts_ok hv h fn hfn ht, bind_ok']
  simp only [toVertices_ok]

theorem readPieces_ok {k : Nat} {o : Obj k} {ls tail : List (List Char)} (hk : 0 < k) (ho : o ≠ [])
    (h : LinesOf (flattenObj o) ls) (fn : List Char) (hfn : Clean fn) (ht : ∀ l ∈ tail, Clean l) :
    readPieces k (headLines (flattenObj o).length fn ++ ls.map (· ++ ['\n']) ++ tail.map (· ++ ['\n'])).flatten =
      .ok o := by
  have hv : flattenObj o ≠ [] := by
    rw [← List.length_pos_iff, flattenObj_length]
    exact Nat.mul_pos (List.length_pos_iff.2 ho) hk
  unfold readPieces
  rw [readInts_ok hv h fn hfn ht, bind_ok']
  have e : (flattenObj o).length / k = o.length := by rw [flattenObj_length, Nat.mul_div_cancel _ hk]
  simp only [toVertices_ok, Option.bind_some, e, toPieces_ok]

end PyQC
