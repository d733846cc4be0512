import Verif.Lemmas.Truncated
import Verif.Props.Xyz
/-!
# C99: `.xyz` files that were cut off

Writing may stop anywhere (a full disk, a killed process), and editors may drop the last newline. The file is then a
prefix of the text that was to be written.
-/
namespace PyQC

/-- C99, every cut (dode2): a prefix of the file of an object is either refused with an exception, or read as the same
object except possibly for one number, the denominator of the last coordinate of the last vertex; that number is then
written with the first digits of the true one. -/
theorem C99_any_cut_dode (fl : ℝ → List Char) (hfl : FloatText fl) (vesta : Option NdArr → Py (List Char))
    (select : Select) (fn : List Char) (hfn : OneLine fn) (front : Obj 3) (last : Simplex 3)
    (h : Obj.Ok (front ++ [last])) :
    ∃ text, Dode.write fl vesta fn .xyz select (some (.d4 (front ++ [last]))) = .ok ⟨some 0, some text⟩ ∧
      ∀ part, part <+: text → (∃ e, readPieces 3 part = .error e) ∨
        ∃ w c, w ≠ [] ∧ w <+: decInt (last 2 5).c ∧ parseInt w = .ok c ∧
          readPieces 3 part = .ok (front ++ [last.withLast c]) := by
  obtain ⟨ls, e1, h1⟩ := objLines_ok .dode hfl (label := "triangle".toList) ⟨by decide, by decide⟩ 0 h
  refine ⟨(headLines (flattenObj (front ++ [last])).length fn ++ ls.map (· ++ ['\n']) ++ [].map (· ++ ['\n'])).flatten, ?_,
    fun part hp => readPieces_cut (k := 2) h1 fn hfn (by simp) hp⟩
  simp only [Dode.write, Dode.writeXyz, isNoneOrEmpty_d4 (by norm_num : (3 : Nat) ≠ 0)
    (by simp : front ++ [last] ≠ []), Dode.xyzTriangles, e1, bind_ok', flattenObj_length, List.map_nil, List.append_nil,
    Bool.false_eq_true, if_false]

/-- C99, every cut (ico2): as `C99_any_cut_dode`. -/
theorem C99_any_cut_ico (fl : ℝ → List Char) (hfl : FloatText fl) (vesta : Option NdArr → Py (List Char))
    (fn : List Char) (hfn : OneLine fn) (front : Obj 4) (last : Simplex 4) (h : Obj.Ok (front ++ [last])) :
    ∃ text, Ico.write fl vesta fn .xyz .tetrahedron (some (.d4 (front ++ [last]))) = .ok ⟨some 0, some text⟩ ∧
      ∀ part, part <+: text → (∃ e, readPieces 4 part = .error e) ∨
        ∃ w c, w ≠ [] ∧ w <+: decInt (last 3 5).c ∧ parseInt w = .ok c ∧
          readPieces 4 part = .ok (front ++ [last.withLast c]) := by
  obtain ⟨ls, e1, h1⟩ := objLines_ok .ico hfl (label := "tetrahedron".toList) ⟨by decide, by decide⟩ 0 h
  obtain ⟨tail, e2, h2⟩ := volumeLines_clean hfl h (by simp)
  refine ⟨(headLines (flattenObj (front ++ [last])).length fn ++ ls.map (· ++ ['\n']) ++ tail.map (· ++ ['\n'])).flatten, ?_,
    fun part hp => readPieces_cut (k := 3) h1 fn hfn h2 hp⟩
  simp only [Ico.write, Ico.writeXyz, isNoneOrEmpty_d4 (by norm_num : (4 : Nat) ≠ 0)
    (by simp : front ++ [last] ≠ []), Ico.xyzTetrahedra, e1, e2, bind_ok', flattenObj_length, Bool.false_eq_true, if_false]

theorem withLast_self {k : Nat} (s : Simplex (k + 1)) : s.withLast (s (Fin.last k) 5).c = s := by
  funext i
  unfold Simplex.withLast
  split
  · rename_i h
    subst h
    funext j
    unfold Vec.withLast
    split
    · rename_i h; subst h; rfl
    · rfl
  · rfl

theorem one_digit {c c' : Int} (h0 : 0 ≤ c) (h1 : c < 10) {w : List Char} (hw : w ≠ []) (hp : w <+: decInt c)
    (he : parseInt w = .ok c') : c' = c := by
  obtain ⟨n, rfl⟩ := Int.eq_ofNat_of_zero_le h0
  have e : decInt (n : Int) = [digitChar n] := by
    rw [decInt, if_neg (by omega), Int.natAbs_natCast, decNat_one (by omega)]
  rw [e] at hp
  have : w = [digitChar n] := by
    obtain ⟨t, ht⟩ := hp
    rcases w with _ | ⟨a, w⟩
    · exact absurd rfl hw
    · simp only [List.cons_append, List.cons.injEq, List.append_eq_nil_iff] at ht
      rw [ht.1, ht.2.1]
  rw [this, ← e, parseInt_decInt] at he
  exact (Except.ok.inj he).symm

/-- C99, proved part: when the denominator of the last coordinate of the last vertex has one digit, a file that was cut
off anywhere is never read as a different object: reading it raises, or it returns the object. Missing: other
denominators, see `C99_missing_newline` and `C99_misread`. -/
theorem C99_never_different_partial (fl : ℝ → List Char) (hfl : FloatText fl) (vesta : Option NdArr → Py (List Char))
    (fn : List Char) (hfn : OneLine fn) :
    (∀ (select : Select) (front : Obj 3) (last : Simplex 3), Obj.Ok (front ++ [last]) → 0 ≤ (last 2 5).c →
      (last 2 5).c < 10 → ∃ text, Dode.write fl vesta fn .xyz select (some (.d4 (front ++ [last]))) =
        .ok ⟨some 0, some text⟩ ∧ ∀ part, part <+: text →
          (∃ e, readPieces 3 part = .error e) ∨ readPieces 3 part = .ok (front ++ [last])) ∧
    (∀ (front : Obj 4) (last : Simplex 4), Obj.Ok (front ++ [last]) → 0 ≤ (last 3 5).c →
      (last 3 5).c < 10 → ∃ text, Ico.write fl vesta fn .xyz .tetrahedron (some (.d4 (front ++ [last]))) =
        .ok ⟨some 0, some text⟩ ∧ ∀ part, part <+: text →
          (∃ e, readPieces 4 part = .error e) ∨ readPieces 4 part = .ok (front ++ [last])) := by
  constructor
  · intro select front last h h0 h1
    obtain ⟨text, e, hp⟩ := C99_any_cut_dode fl hfl vesta select fn hfn front last h
    refine ⟨text, e, fun part hpart => ?_⟩
    rcases hp part hpart with h2 | ⟨w, c, h3, h4, h5, h6⟩
    · exact Or.inl h2
    · right
      rw [h6, one_digit h0 h1 h3 h4 h5]
      exact congrArg (fun x => Except.ok (front ++ [x])) (withLast_self (k := 2) last)
  · intro front last h h0 h1
    obtain ⟨text, e, hp⟩ := C99_any_cut_ico fl hfl vesta fn hfn front last h
    refine ⟨text, e, fun part hpart => ?_⟩
    rcases hp part hpart with h2 | ⟨w, c, h3, h4, h5, h6⟩
    · exact Or.inl h2
    · right
      rw [h6, one_digit h0 h1 h3 h4 h5]
      exact congrArg (fun x => Except.ok (front ++ [x])) (withLast_self (k := 3) last)

/-- C99, disagreement: a dode2 file whose last newline is missing. `read_xyz` drops the last character of every line, so
the last digit of the last number is lost: a denominator of two or more digits is divided by ten without any notice, and
a denominator of one digit makes reading raise IndexError although the file has all numbers. -/
theorem C99_missing_newline (fl : ℝ → List Char) (hfl : FloatText fl) (vesta : Option NdArr → Py (List Char))
    (select : Select) (fn : List Char) (hfn : OneLine fn) (front : Obj 3) (last : Simplex 3)
    (h : Obj.Ok (front ++ [last])) :
    ∃ part, Dode.write fl vesta fn .xyz select (some (.d4 (front ++ [last]))) = .ok ⟨some 0, some (part ++ ['\n'])⟩ ∧
      (10 ≤ (last 2 5).c → readPieces 3 part = .ok (front ++ [last.withLast ((last 2 5).c / 10)])) ∧
      (0 ≤ (last 2 5).c → (last 2 5).c < 10 → readPieces 3 part = .error .indexError) := by
  obtain ⟨ls, e1, h1⟩ := objLines_ok .dode hfl (label := "triangle".toList) ⟨by decide, by decide⟩ 0 h
  obtain ⟨part, hp⟩ : ∃ part, part ++ ['\n'] =
      (headLines (flattenObj (front ++ [last])).length fn ++ ls.map (· ++ ['\n'])).flatten := by
    rcases List.eq_nil_or_concat ls with rfl | ⟨ls', l, rfl⟩
    · have := List.Forall₂.length_eq h1
      rw [flattenObj_length] at this
      simp at this
    · exact ⟨(headLines (flattenObj (front ++ [last])).length fn ++ ls'.map (· ++ ['\n'])).flatten ++ l, by simp⟩
  refine ⟨part, ?_, readPieces_open (k := 2) h1 fn hfn hp⟩
  rw [hp]
  simp only [Dode.write, Dode.writeXyz, isNoneOrEmpty_d4 (by norm_num : (3 : Nat) ≠ 0)
    (by simp : front ++ [last] ≠ []), Dode.xyzTriangles, e1, bind_ok', flattenObj_length, Bool.false_eq_true, if_false]

/-- A triangle whose last coordinate is the fraction 1/10. -/
def exTenth : Simplex 3 := fun i => if i = 2 then fun j => if j = 5 then ⟨1, 0, 10⟩ else ⟨0, 0, 1⟩ else exFace i

theorem exTenth_ok : Obj.Ok ([exFace] ++ [exTenth]) := by
  intro s hs
  rcases List.mem_append.1 hs with h | h <;> rw [List.mem_singleton.1 h]
  · intro i; fin_cases i <;> exact cart_ok (by decide)
  · intro i
    unfold exTenth
    split
    · intro j
      dsimp only
      split <;> decide
    · fin_cases i <;> exact cart_ok (by decide)

/-- C99, disagreement, witness: the file of two triangles, one vertex of which has the coordinate 1/10, is read after the
loss of its last newline as two triangles with the coordinate 1 there. -/
theorem C99_misread : ∃ (o o' : Obj 3) (part : List Char), Obj.Ok o ∧
    Dode.write exFl (fun _ => .ok []) "./tmp.xyz".toList .xyz .triangle (some (.d4 o)) =
      .ok ⟨some 0, some (part ++ ['\n'])⟩ ∧
    readPieces 3 part = .ok o' ∧ (∀ s ∈ o[1]?, s 2 5 = ⟨1, 0, 10⟩) ∧ (∀ s ∈ o'[1]?, s 2 5 = ⟨1, 0, 1⟩) ∧ o' ≠ o := by
  obtain ⟨part, h1, h2, -⟩ := C99_missing_newline exFl exFl_ok (fun _ => .ok []) .triangle "./tmp.xyz".toList
    (by unfold OneLine; decide) [exFace] exTenth exTenth_ok
  refine ⟨[exFace] ++ [exTenth], [exFace] ++ [exTenth.withLast (10 / 10)], part, exTenth_ok, h1, h2 (by decide), ?_, ?_, ?_⟩
  · intro s hs; cases hs; decide
  · intro s hs; cases hs; decide
  · intro h
    have := congrArg (fun l : List (Simplex 3) => l[1]?.map fun s => (s 2 5).c) h
    revert this
    decide

/-- The hypotheses of the proved part hold for two tetrahedra and for two triangles with denominators 1. -/
example : ∃ text, Ico.write exFl (fun _ => .ok []) "./tmp.xyz".toList .xyz .tetrahedron (some (.d4 ([exCorner] ++ [exFar]))) =
    .ok ⟨some 0, some text⟩ ∧ ∀ part, part <+: text →
      (∃ e, readPieces 4 part = .error e) ∨ readPieces 4 part = .ok ([exCorner] ++ [exFar]) :=
  (C99_never_different_partial exFl exFl_ok (fun _ => .ok []) "./tmp.xyz".toList (by unfold OneLine; decide)).2
    [exCorner] exFar exTwo_ok (by decide) (by decide)

end PyQC
