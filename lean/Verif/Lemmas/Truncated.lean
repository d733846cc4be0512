import Verif.Lemmas.Xyz
import Verif.Spec.Truncated
/-!
# Words and lines of a text that was cut off
-/
namespace PyQC

/-- A list of texts that was cut off: the first texts are complete, the last one may be cut. -/
inductive CutOff : List (List Char) → List (List Char) → Prop
  | nil (g : List (List Char)) : CutOff [] g
  | last {q y : List Char} (g : List (List Char)) (h : q <+: y) : CutOff [q] (y :: g)
  | cons (y : List Char) {f g : List (List Char)} (h : CutOff f g) : CutOff (y :: f) (y :: g)

theorem CutOff.get {f g : List (List Char)} (h : CutOff f g) {i : Nat} {x : List Char} (hx : f[i]? = some x) :
    ∃ y, g[i]? = some y ∧ x <+: y := by
  induction h generalizing i with
  | nil => simp at hx
  | last g h =>
    rcases i with _ | i
    · simp only [List.getElem?_cons_zero, Option.some.injEq] at hx
      subst hx
      exact ⟨_, rfl, h⟩
    · simp at hx
  | cons y h ih =>
    rcases i with _ | i
    · simp only [List.getElem?_cons_zero, Option.some.injEq] at hx
      subst hx
      exact ⟨_, rfl, List.prefix_refl _⟩
    · exact ih hx

theorem CutOff.full {f g : List (List Char)} (h : CutOff f g) {i : Nat} (hi : i + 1 < f.length) : f[i]? = g[i]? := by
  induction h generalizing i with
  | nil => simp at hi
  | last g h => simp at hi
  | cons y h ih =>
    rcases i with _ | i
    · rfl
    · exact ih (by simpa using hi)

theorem splitWords_head {cur : List Char} (hc : cur ≠ []) (r : List Char) :
    ∃ y g, splitWords cur r = (cur.reverse ++ y) :: g := by
  induction r generalizing cur with
  | nil =>
    refine ⟨[], [], ?_⟩
    rw [splitWords, if_neg (by simpa using hc), List.append_nil]
  | cons c r ih =>
    rw [splitWords]
    split
    · rw [if_neg (by simpa using hc)]
      exact ⟨[], _, by rw [List.append_nil]⟩
    · obtain ⟨y, g, e⟩ := ih (cur := c :: cur) (by simp)
      exact ⟨c :: y, g, by rw [e]; simp⟩

theorem splitWords_cut (cur p r : List Char) : CutOff (splitWords cur p) (splitWords cur (p ++ r)) := by
  induction p generalizing cur with
  | nil =>
    rw [List.nil_append, splitWords]
    split
    · exact .nil _
    · rename_i h
      obtain ⟨y, g, e⟩ := splitWords_head (cur := cur) (by simpa using h) r
      rw [e]
      exact .last _ (List.prefix_append _ _)
  | cons c p ih =>
    rw [List.cons_append, splitWords, splitWords]
    split
    · split
      · exact ih _
      · exact .cons _ (ih _)
    · exact ih _

theorem splitWords_ne {cur l w : List Char} (h : w ∈ splitWords cur l) : w ≠ [] := by
  induction l generalizing cur with
  | nil =>
    rw [splitWords] at h
    split at h
    · cases h
    · rename_i hc
      rw [List.mem_singleton.1 h]
      simpa using hc
  | cons c l ih =>
    rw [splitWords] at h
    split at h
    · split at h
      · exact ih h
      · rename_i hc
        rcases List.mem_cons.1 h with rfl | h
        · simpa using hc
        · exact ih h
    · exact ih h

/-- The words of a text that lost its last character, which is not white space. -/
theorem splitWords_drop (cur l : List Char) {c : Char} (hc : isSpace c = false) :
    ∃ ws w, splitWords cur (l ++ [c]) = ws ++ [w ++ [c]] ∧ splitWords cur l = ws ++ if w = [] then [] else [w] := by
  induction l generalizing cur with
  | nil =>
    refine ⟨[], cur.reverse, ?_, ?_⟩
    · rw [List.nil_append, splitWords, hc, if_neg (by decide), splitWords, if_neg (by simp)]
      simp
    · rw [splitWords]
      by_cases h : cur = []
      · simp [h]
      · rw [if_neg (by simpa using h), if_neg (by simpa using h)]
        rfl
  | cons x l ih =>
    rw [List.cons_append, splitWords, splitWords]
    split
    · split
      · exact ih _
      · obtain ⟨ws, w, e1, e2⟩ := ih []
        exact ⟨cur.reverse :: ws, w, by rw [e1]; rfl, by rw [e2]; rfl⟩
    · exact ih _

theorem readLines_head {cur : List Char} (hc : cur ≠ []) (r : List Char) :
    ∃ y g, readLines cur r = y :: g ∧ cur.reverse.dropLast <+: y := by
  induction r generalizing cur with
  | nil =>
    refine ⟨_, [], ?_, List.prefix_refl _⟩
    rw [readLines, if_neg (by simpa using hc)]
  | cons c r ih =>
    rw [readLines]
    split
    · exact ⟨_, _, rfl, List.dropLast_prefix _⟩
    · obtain ⟨y, g, e, h⟩ := ih (cur := c :: cur) (by simp)
      refine ⟨y, g, e, List.IsPrefix.trans ?_ h⟩
      rw [List.reverse_cons, List.dropLast_concat]
      exact List.dropLast_prefix _

theorem readLines_cut (cur p r : List Char) : CutOff (readLines cur p) (readLines cur (p ++ r)) := by
  induction p generalizing cur with
  | nil =>
    rw [List.nil_append, readLines]
    split
    · exact .nil _
    · rename_i h
      obtain ⟨y, g, e, h⟩ := readLines_head (cur := cur) (by simpa using h) r
      rw [e]
      exact .last _ h
  | cons c p ih =>
    rw [List.cons_append, readLines, readLines]
    split
    · exact .cons _ (ih _)
    · exact ih _

theorem fillList_range_inv {α : Type} {n : Nat} {f : Nat → Py α} {l : List α}
    (h : fillList f (List.range n) = .ok l) : l.length = n ∧ ∀ i (hi : i < l.length), f i = .ok l[i] := by
  induction n generalizing f l with
  | zero =>
    rw [List.range_zero, fillList] at h
    cases h
    exact ⟨rfl, fun i hi => absurd hi (by simp)⟩
  | succ n ih =>
    have e : fillList f ((List.range n).map Nat.succ) = fillList (fun i => f (i + 1)) (List.range n) := by
      generalize List.range n = r
      induction r with
      | nil => rfl
      | cons a as ih2 => rw [List.map_cons, fillList, fillList, ih2]
    rw [List.range_succ_eq_map, fillList, e] at h
    cases h0 : f 0 with
    | error e => rw [h0] at h; cases h
    | ok x =>
      rw [h0] at h
      cases h1 : fillList (fun i => f (i + 1)) (List.range n) with
      | error e => rw [h1] at h; cases h
      | ok xs =>
        rw [h1] at h
        cases h
        obtain ⟨h2, h3⟩ := ih h1
        refine ⟨by simp [h2], fun i hi => ?_⟩
        rcases i with _ | i
        · exact h0
        · exact h3 i (by simpa using hi)

theorem vertexInts_eq (v : Vec 6) : vertexInts v = [(v 0).a, (v 0).b, (v 0).c, (v 1).a, (v 1).b, (v 1).c, (v 2).a,
    (v 2).b, (v 2).c, (v 3).a, (v 3).b, (v 3).c, (v 4).a, (v 4).b, (v 4).c, (v 5).a, (v 5).b, (v 5).c] := by
  simp [vertexInts, rowKey, List.ofFn_succ]

theorem vertexInts_withLast (v : Vec 6) (c : Int) : vertexInts (v.withLast c) = (vertexInts v).take 17 ++ [c] := by
  rw [vertexInts_eq, vertexInts_eq]
  rfl

theorem vertexInts_split (v : Vec 6) : vertexInts v = (vertexInts v).take 17 ++ [(v 5).c] := by
  rw [vertexInts_eq]
  rfl

/-- What is read from a vertex line that was cut off. -/
theorem readVertex_cut {v : Vec 6} {l x : List Char} (h : IsLineOf v l) (hx : x <+: l) {r : List Int}
    (hr : readVertex x = .ok r) :
    ∃ w c, w ≠ [] ∧ w <+: decInt (v 5).c ∧ parseInt w = .ok c ∧ r = vertexInts (v.withLast c) := by
  obtain ⟨-, -, ws, hw, e⟩ := h
  obtain ⟨t, rfl⟩ := hx
  have hc := splitWords_cut [] x t
  rw [e] at hc
  obtain ⟨hl, hi⟩ := fillList_range_inv hr
  have get : ∀ i (hi : i < r.length), ∃ w, (splitWords [] x)[10 + i]? = some w ∧ parseInt w = .ok r[i] := by
    intro i h
    have := hi i h
    cases h1 : (splitWords [] x)[10 + i]? with
    | none => rw [wordAt, h1] at this; cases this
    | some w => rw [wordAt, h1] at this; exact ⟨w, rfl, this⟩
  have word : ∀ i (hi : i < 18), (ws ++ (vertexInts v).map decInt)[10 + i]? =
      some (decInt ((vertexInts v)[i]'(by rw [vertexInts_length]; exact hi))) := by
    intro i hi
    rw [List.getElem?_append_right (by omega), hw, Nat.add_sub_cancel_left, List.getElem?_map,
      List.getElem?_eq_getElem (by rw [vertexInts_length]; exact hi)]
    rfl
  have hlen : 27 < (splitWords [] x).length := by
    obtain ⟨w, h1, -⟩ := get 17 (by omega)
    exact (List.getElem?_eq_some_iff.1 h1).1
  obtain ⟨w, h1, h2⟩ := get 17 (by omega)
  obtain ⟨y, h3, h4⟩ := hc.get h1
  rw [word 17 (by omega)] at h3
  cases h3
  have e17 : (vertexInts v)[17]'(by rw [vertexInts_length]; omega) = (v 5).c := by
    simp only [vertexInts_eq]; rfl
  rw [e17] at h4
  refine ⟨w, _, splitWords_ne (List.mem_of_getElem? h1), h4, h2, ?_⟩
  rw [vertexInts_withLast]
  refine List.ext_getElem (by simp [vertexInts_length, hl]) fun i h5 h6 => ?_
  by_cases h7 : i < 17
  · obtain ⟨w', h8, h9⟩ := get i h5
    rw [hc.full (by omega), word i (by omega)] at h8
    cases h8
    rw [parseInt_decInt] at h9
    have h10 : (vertexInts v)[i]'(by rw [vertexInts_length]; omega) = r[i] := Except.ok.inj h9
    rw [← h10]
    rw [List.getElem_append_left (by rw [List.length_take, vertexInts_length]; omega), List.getElem_take]
  · have : i = 17 := by omega
    subst this
    rw [List.getElem_append_right (by rw [List.length_take, vertexInts_length]; omega)]
    simp

/-- What is read from a file that was cut off. -/
theorem readInts_cut {vs : List (Vec 6)} {v : Vec 6} {ls tail : List (List Char)} (h : LinesOf (vs ++ [v]) ls) (fn : List Char)
    (hfn : Clean fn) (ht : ∀ l ∈ tail, Clean l) {p : List Char}
    (hp : p <+: (headLines (vs ++ [v]).length fn ++ ls.map (· ++ ['\n']) ++ tail.map (· ++ ['\n'])).flatten) :
    (∃ e, readInts p = .error e) ∨ ∃ w c, w ≠ [] ∧ w <+: decInt (v 5).c ∧ parseInt w = .ok c ∧
      readInts p = .ok ((vs ++ [v]).length, ((vs ++ [v.withLast c]).map vertexInts).flatten) := by
  have e : headLines (vs ++ [v]).length fn ++ ls.map (· ++ ['\n']) ++ tail.map (· ++ ['\n']) =
      ((decNat (vs ++ [v]).length :: fn :: ls) ++ tail).map (· ++ ['\n']) := by simp [headLines]
  have hcl : ∀ l ∈ (decNat (vs ++ [v]).length :: fn :: ls) ++ tail, Clean l := by
    intro l hl
    rcases List.mem_append.1 hl with h1 | h1
    · rcases List.mem_cons.1 h1 with rfl | h1
      · exact (decNat_word _).clean
      · rcases List.mem_cons.1 h1 with rfl | h1
        · exact hfn
        · exact h.clean l h1
    · exact ht l h1
  rw [e] at hp
  have hu : universalNewlines p = p := by
    refine universalNewlines_id p fun c hc hr => ?_
    obtain ⟨l, hl, hcl'⟩ := List.mem_flatten.1 (hp.subset hc)
    obtain ⟨l', hl', rfl⟩ := List.mem_map.1 hl
    rcases List.mem_append.1 hcl' with h1 | h1
    · exact (hcl l' hl' c h1).2 hr
    · rw [List.mem_singleton.1 h1] at hr; revert hr; decide
  have hcut : CutOff (readLines [] p) ((decNat (vs ++ [v]).length :: fn :: ls) ++ tail) := by
    obtain ⟨t, ht⟩ := hp
    have := readLines_cut [] p t
    rwa [ht, readLines_lines _ hcl] at this
  have hlen : ls.length = vs.length + 1 := by
    rw [← List.Forall₂.length_eq h]; simp
  have hn : (vs ++ [v]).length = vs.length + 1 := by simp
  unfold readInts
  rw [hu]
  generalize readLines [] p = f1 at hcut
  dsimp only
  cases h0 : wordAt f1 0 with
  | error e => exact Or.inl ⟨e, rfl⟩
  | ok l0 =>
  rw [bind_ok']
  cases h1 : wordAt (splitWords [] l0) 0 with
  | error e => exact Or.inl ⟨e, rfl⟩
  | ok w0 =>
  rw [bind_ok']
  cases h2 : parseInt w0 with
  | error e => exact Or.inl ⟨e, rfl⟩
  | ok num =>
  rw [bind_ok']
  by_cases h3 : num ≤ 0
  · rw [if_pos h3]; exact Or.inl ⟨_, rfl⟩
  rw [if_neg h3]
  cases h4 : fillList (fun i => do
      let fi ← wordAt f1 (i + 2)
      readVertex fi) (List.range num.toNat) with
  | error e => exact Or.inl ⟨e, rfl⟩
  | ok rows =>
  right
  obtain ⟨hl, hi⟩ := fillList_range_inv h4
  have get : ∀ i (hi : i < rows.length), ∃ x, f1[i + 2]? = some x ∧ readVertex x = .ok rows[i] := by
    intro i h
    have := hi i h
    cases h1 : f1[i + 2]? with
    | none => rw [wordAt, h1] at this; cases this
    | some w => rw [wordAt, h1] at this; exact ⟨w, rfl, this⟩
  have hf : num.toNat + 1 < f1.length := by
    obtain ⟨w, h5, -⟩ := get (num.toNat - 1) (by omega)
    have := (List.getElem?_eq_some_iff.1 h5).1
    omega
  have hnum : num = (vs.length + 1 : Nat) := by
    have := hcut.full (i := 0) (by omega)
    rw [wordAt, this] at h0
    cases h0
    rw [splitWords_last (decNat_word _)] at h1
    cases h1
    rw [parseInt_decNat, hn] at h2
    cases h2
    rfl
  subst hnum
  rw [Int.toNat_natCast] at hl hf
  have line : ∀ i (hi : i < vs.length + 1), ((decNat (vs ++ [v]).length :: fn :: ls) ++ tail)[i + 2]? = some ls[i] := by
    intro i hi
    rw [List.cons_append, List.cons_append, List.getElem?_cons_succ, List.getElem?_cons_succ,
      List.getElem?_append_left (by omega), List.getElem?_eq_getElem]
  obtain ⟨hfl, hget⟩ := List.forall₂_iff_get.1 h
  obtain ⟨x, h5, h6⟩ := get vs.length (by omega)
  obtain ⟨y, h7, h8⟩ := hcut.get h5
  rw [line _ (by omega)] at h7
  cases h7
  have hv := hget vs.length (by simp) (by omega)
  simp only [List.get_eq_getElem, List.getElem_concat_length] at hv
  obtain ⟨w, c, hw1, hw2, hw3, hw4⟩ := readVertex_cut hv h8 h6
  refine ⟨w, c, hw1, hw2, hw3, ?_⟩
  rw [bind_ok', Int.toNat_natCast, hn]
  congr 3
  refine List.ext_getElem (by simp [hl]) fun i h9 h10 => ?_
  by_cases h11 : i < vs.length
  · obtain ⟨x', h12, h13⟩ := get i h9
    rw [hcut.full (by omega), line i (by omega)] at h12
    cases h12
    have hv' := hget i (by simp; omega) (by omega)
    simp only [List.get_eq_getElem] at hv'
    rw [readVertex_ok hv'] at h13
    rw [← Except.ok.inj h13, List.getElem_map, List.getElem_append_left h11, List.getElem_append_left h11]
  · have : i = vs.length := by omega
    subst this
    rw [hw4, List.getElem_map]
    simp

theorem flattenObj_concat {k : Nat} (o : Obj (k + 1)) (s : Simplex (k + 1)) :
    flattenObj (o ++ [s]) = (flattenObj o ++ List.ofFn fun i : Fin k => s i.castSucc) ++ [s (Fin.last k)] := by
  simp only [flattenObj, List.flatMap_append, List.flatMap_cons, List.flatMap_nil, List.append_nil, List.append_assoc]
  congr 1
  rw [List.ofFn_succ_last]

theorem flattenObj_withLast {k : Nat} (o : Obj (k + 1)) (s : Simplex (k + 1)) (c : Int) :
    flattenObj (o ++ [s.withLast c]) =
      (flattenObj o ++ List.ofFn fun i : Fin k => s i.castSucc) ++ [(s (Fin.last k)).withLast c] := by
  rw [flattenObj_concat]
  have h1 : (fun i : Fin k => s.withLast c i.castSucc) = fun i : Fin k => s i.castSucc := by
    funext i
    unfold Simplex.withLast
    rw [if_neg (Fin.castSucc_lt_last i).ne]
  have h2 : s.withLast c (Fin.last k) = (s (Fin.last k)).withLast c := by
    unfold Simplex.withLast
    rw [if_pos rfl]
  rw [h1, h2]

theorem readPieces_cut {k : Nat} {o : Obj (k + 1)} {s : Simplex (k + 1)} {ls tail : List (List Char)}
    (h : LinesOf (flattenObj (o ++ [s])) ls) (fn : List Char) (hfn : Clean fn) (ht : ∀ l ∈ tail, Clean l) {p : List Char}
    (hp : p <+: (headLines (flattenObj (o ++ [s])).length fn ++ ls.map (· ++ ['\n']) ++ tail.map (· ++ ['\n'])).flatten) :
    (∃ e, readPieces (k + 1) p = .error e) ∨ ∃ w c, w ≠ [] ∧ w <+: decInt (s (Fin.last k) 5).c ∧ parseInt w = .ok c ∧
      readPieces (k + 1) p = .ok (o ++ [s.withLast c]) := by
  rw [flattenObj_concat] at h hp
  rcases readInts_cut h fn hfn ht hp with ⟨e, he⟩ | ⟨w, c, h1, h2, h3, h4⟩
  · left
    exact ⟨e, by unfold readPieces; rw [he]; rfl⟩
  · right
    refine ⟨w, c, h1, h2, h3, ?_⟩
    unfold readPieces
    rw [h4, bind_ok', ← flattenObj_withLast]
    have e1 : ((flattenObj o ++ List.ofFn fun i : Fin k => s i.castSucc) ++ [s (Fin.last k)]).length =
        (flattenObj (o ++ [s.withLast c])).length := by rw [flattenObj_withLast]; simp
    have e2 : (flattenObj (o ++ [s.withLast c])).length / (k + 1) = (o ++ [s.withLast c]).length := by
      rw [flattenObj_length, Nat.mul_div_cancel _ (Nat.succ_pos k)]
    simp only [e1, e2, toVertices_ok, Option.bind_some, toPieces_ok]

/-! ## The last newline is missing -/

theorem decNat_ten {n : Nat} (h : 10 ≤ n) : decNat n = decNat (n / 10) ++ [digitChar (n % 10)] := by
  unfold decNat
  rw [if_neg (by omega), if_neg (by omega), Nat.digits_of_two_le_of_pos (by norm_num) (by omega)]
  simp

theorem decNat_one {n : Nat} (h : n < 10) : decNat n = [digitChar n] := by
  interval_cases n <;> simp [decNat, digitChar]

theorem readLines_open (ls : List (List Char)) (h : ∀ l ∈ ls, Clean l) {l : List Char} (hl : Clean l) (hne : l ≠ []) :
    readLines [] ((ls.map (· ++ ['\n'])).flatten ++ l) = ls ++ [l.dropLast] := by
  induction ls with
  | nil =>
    have := readLines_acc (fun c hc => (hl c hc).1) [] []
    rw [List.append_nil] at this
    rw [List.map_nil, List.flatten_nil, List.nil_append, this, readLines, if_neg (by simpa using hne)]
    simp
  | cons a ls ih =>
    rw [List.map_cons, List.flatten_cons, List.append_assoc, readLines_line (h a List.mem_cons_self),
      ih fun x hx => h x (List.mem_cons_of_mem _ hx)]
    rfl

/-- The words of a vertex line without its last character. -/
theorem IsLineOf.drop {v : Vec 6} {l : List Char} (h : IsLineOf v l) :
    ∃ (ws : List (List Char)) (w : List Char) (c : Char), ws.length = 27 ∧ decInt (v 5).c = w ++ [c] ∧
      (∀ i (hi : i < 17), ws[10 + i]? = some (decInt ((vertexInts v)[i]'(by rw [vertexInts_length]; omega)))) ∧
      splitWords [] l.dropLast = ws ++ if w = [] then [] else [w] := by
  obtain ⟨-, ⟨pre, c, rfl, hc⟩, ws, hw, e⟩ := h
  obtain ⟨ws', w, e1, e2⟩ := splitWords_drop [] pre hc
  rw [e, vertexInts_split, List.map_append, ← List.append_assoc] at e1
  obtain ⟨h1, h2⟩ := List.append_inj' e1 rfl
  simp only [List.map_cons, List.map_nil, List.cons.injEq, and_true] at h2
  refine ⟨ws', w, c, ?_, h2, ?_, ?_⟩
  · rw [← h1]; simp [hw, vertexInts_length]
  · intro i hi
    rw [← h1, List.getElem?_append_right (by omega), hw, Nat.add_sub_cancel_left, List.getElem?_map, List.getElem?_take,
      if_pos hi, List.getElem?_eq_getElem (by rw [vertexInts_length]; omega)]
    rfl
  · rw [List.dropLast_concat, e2]

theorem readVertex_drop {v : Vec 6} {l : List Char} (h : IsLineOf v l) (hc : 10 ≤ (v 5).c) :
    readVertex l.dropLast = .ok (vertexInts (v.withLast ((v 5).c / 10))) := by
  obtain ⟨ws, w, c, hw, e, hi, hs⟩ := h.drop
  obtain ⟨n, hn⟩ := Int.eq_ofNat_of_zero_le (show 0 ≤ (v 5).c by omega)
  have h1 : w = decNat (n / 10) := by
    rw [hn, decInt, if_neg (by omega), Int.natAbs_natCast, decNat_ten (by omega)] at e
    exact (List.append_inj' e rfl).1.symm
  rw [if_neg (by rw [h1]; exact (decNat_word _).1)] at hs
  refine fillList_range_eq (vertexInts_length _) fun i h2 => ?_
  rw [vertexInts_length] at h2
  rw [hs, wordAt]
  by_cases h3 : i < 17
  · rw [List.getElem?_append_left (by omega), hi i h3, bind_ok', parseInt_decInt]
    simp only [vertexInts_withLast]
    rw [List.getElem_append_left (by rw [List.length_take, vertexInts_length]; omega), List.getElem_take]
  · have : i = 17 := by omega
    subst this
    rw [List.getElem?_append_right (by omega), hw]
    simp only [vertexInts_withLast, Nat.reduceAdd, Nat.sub_self, List.getElem?_cons_zero, bind_ok']
    rw [List.getElem_append_right (by rw [List.length_take, vertexInts_length]; omega), h1, parseInt_decNat, hn]
    simp

theorem readVertex_short {v : Vec 6} {l : List Char} (h : IsLineOf v l) (h0 : 0 ≤ (v 5).c) (hc : (v 5).c < 10) :
    readVertex l.dropLast = .error .indexError := by
  obtain ⟨ws, w, c, hw, e, hi, hs⟩ := h.drop
  obtain ⟨n, hn⟩ := Int.eq_ofNat_of_zero_le h0
  have h1 : w = [] := by
    rw [hn, decInt, if_neg (by omega), Int.natAbs_natCast, decNat_one (by omega)] at e
    exact (List.append_inj' (s₁ := []) e rfl).1.symm
  rw [if_pos h1, List.append_nil] at hs
  refine fillList_range_error (k := 17) (by omega) (fun i h2 => ?_) ?_
  · rw [hs, wordAt, hi i h2]
    exact ⟨_, parseInt_decInt _⟩
  · rw [hs, wordAt, List.getElem?_eq_none (by omega)]
    rfl

theorem readInts_open {vs : List (Vec 6)} {v : Vec 6} {ls : List (List Char)} (h : LinesOf (vs ++ [v]) ls) (fn : List Char)
    (hfn : Clean fn) {p : List Char} (hp : p ++ ['\n'] = (headLines (vs ++ [v]).length fn ++ ls.map (· ++ ['\n'])).flatten) :
    (10 ≤ (v 5).c → readInts p = .ok ((vs ++ [v]).length, ((vs ++ [v.withLast ((v 5).c / 10)]).map vertexInts).flatten)) ∧
    (0 ≤ (v 5).c → (v 5).c < 10 → readInts p = .error .indexError) := by
  obtain ⟨front, l, h1, h2, rfl⟩ : ∃ front l, LinesOf vs front ∧ IsLineOf v l ∧ ls = front ++ [l] := by
    clear hp
    unfold LinesOf at h ⊢
    induction vs generalizing ls with
    | nil =>
      obtain ⟨l, b, h3, h4, rfl⟩ := List.forall₂_cons_left_iff.1 h
      cases List.forall₂_nil_left_iff.1 h4
      exact ⟨[], l, .nil, h3, rfl⟩
    | cons a vs ih =>
      obtain ⟨l, b, h3, h4, rfl⟩ := List.forall₂_cons_left_iff.1 h
      obtain ⟨front, l', h5, h6, rfl⟩ := ih h4
      exact ⟨l :: front, l', .cons h3 h5, h6, rfl⟩
  have e : headLines (vs ++ [v]).length fn ++ (front ++ [l]).map (· ++ ['\n']) =
      (decNat (vs ++ [v]).length :: fn :: front).map (· ++ ['\n']) ++ [l ++ ['\n']] := by simp [headLines]
  have hcl : ∀ l ∈ decNat (vs ++ [v]).length :: fn :: front, Clean l := by
    intro l hl
    rcases List.mem_cons.1 hl with rfl | h1'
    · exact (decNat_word _).clean
    · rcases List.mem_cons.1 h1' with rfl | h1'
      · exact hfn
      · exact h1.clean l h1'
  have hne : l ≠ [] := by
    obtain ⟨-, ⟨pre, c, rfl, -⟩, -⟩ := h2
    simp
  rw [e, List.flatten_append, List.flatten_singleton, ← List.append_assoc] at hp
  have hp' := (List.append_inj' hp rfl).1
  have hu : universalNewlines p = p := by
    refine universalNewlines_id p fun c hc hr => ?_
    rw [hp'] at hc
    rcases List.mem_append.1 hc with hc | hc
    · obtain ⟨a, ha, hca⟩ := List.mem_flatten.1 hc
      obtain ⟨b, hb, rfl⟩ := List.mem_map.1 ha
      rcases List.mem_append.1 hca with h3 | h3
      · exact (hcl b hb c h3).2 hr
      · rw [List.mem_singleton.1 h3] at hr; revert hr; decide
    · exact (h2.1 c hc).2 hr
  have hn : (vs ++ [v]).length = vs.length + 1 := by simp
  have hlen : front.length = vs.length := (List.Forall₂.length_eq h1).symm
  have hread : ∀ i (hi : i < vs.length), (decNat (vs ++ [v]).length :: fn :: front ++ [l.dropLast])[i + 2]? =
      some (front[i]'(by omega)) := by
    intro i hi
    rw [List.cons_append, List.cons_append, List.getElem?_cons_succ, List.getElem?_cons_succ,
      List.getElem?_append_left (by omega), List.getElem?_eq_getElem]
  have hlast : (decNat (vs ++ [v]).length :: fn :: front ++ [l.dropLast])[vs.length + 2]? = some l.dropLast := by
    rw [List.cons_append, List.cons_append, List.getElem?_cons_succ, List.getElem?_cons_succ,
      List.getElem?_append_right (by omega), hlen]
    simp
  have hrows : ∀ i (hi : i < vs.length), readVertex (front[i]'(by omega)) = .ok (vertexInts vs[i]) := fun i hi =>
    readVertex_ok ((List.forall₂_iff_get.1 h1).2 i hi (by omega))
  unfold readInts
  rw [hu, hp', readLines_open _ hcl h2.1 hne]
  generalize hf : (decNat (vs ++ [v]).length :: fn :: front ++ [l.dropLast]) = f1 at hread hlast
  have h0 : f1[0]? = some (decNat (vs ++ [v]).length) := by rw [← hf]; rfl
  dsimp only
  simp only [wordAt, h0, bind_ok', splitWords_last (decNat_word _), List.getElem?_cons_zero, parseInt_decNat]
  rw [if_neg (by omega), Int.toNat_natCast]
  constructor
  · intro hc
    rw [fillList_range_eq (l := (vs ++ [v.withLast ((v 5).c / 10)]).map vertexInts) (by simp)]
    · rfl
    · intro i hi
      simp only [List.length_map, List.length_append, List.length_singleton] at hi
      by_cases h3 : i < vs.length
      · simp only [hread i h3, bind_ok', hrows i h3, List.getElem_map]
        rw [List.getElem_append_left h3]
      · have : i = vs.length := by omega
        subst this
        simp only [hlast, bind_ok', readVertex_drop h2 hc, List.getElem_map]
        simp
  · intro h3 h4
    rw [fillList_range_error (k := vs.length) (e := .indexError) (by omega)]
    · rfl
    · intro i hi
      simp only [hread i hi, bind_ok', hrows i hi]
      exact ⟨_, rfl⟩
    · simp only [hlast, bind_ok', readVertex_short h2 h3 h4]

theorem readPieces_open {k : Nat} {o : Obj (k + 1)} {s : Simplex (k + 1)} {ls : List (List Char)}
    (h : LinesOf (flattenObj (o ++ [s])) ls) (fn : List Char) (hfn : Clean fn) {p : List Char}
    (hp : p ++ ['\n'] = (headLines (flattenObj (o ++ [s])).length fn ++ ls.map (· ++ ['\n'])).flatten) :
    (10 ≤ (s (Fin.last k) 5).c → readPieces (k + 1) p = .ok (o ++ [s.withLast ((s (Fin.last k) 5).c / 10)])) ∧
    (0 ≤ (s (Fin.last k) 5).c → (s (Fin.last k) 5).c < 10 → readPieces (k + 1) p = .error .indexError) := by
  rw [flattenObj_concat] at h hp
  obtain ⟨h1, h2⟩ := readInts_open h fn hfn hp
  constructor
  · intro hc
    unfold readPieces
    rw [h1 hc, bind_ok', ← flattenObj_withLast]
    generalize (s (Fin.last k) 5).c / 10 = c
    have e1 : ((flattenObj o ++ List.ofFn fun i : Fin k => s i.castSucc) ++ [s (Fin.last k)]).length =
        (flattenObj (o ++ [s.withLast c])).length := by rw [flattenObj_withLast]; simp
    have e2 : (flattenObj (o ++ [s.withLast c])).length / (k + 1) = (o ++ [s.withLast c]).length := by
      rw [flattenObj_length, Nat.mul_div_cancel _ (Nat.succ_pos k)]
    simp only [e1, e2, toVertices_ok, Option.bind_some, toPieces_ok]
  · intro h3 h4
    unfold readPieces
    rw [h2 h3 h4]
    rfl

end PyQC
