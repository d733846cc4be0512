import Verif.Model.Xyz
import Verif.Lemmas.Space
import Verif.Lemmas.Unique
/-!
# Words, lines and decimal numbers
-/
namespace PyQC

/-- A word: not empty, no white space. -/
def Word (w : List Char) : Prop := w ≠ [] ∧ ∀ c ∈ w, isSpace c = false

/-- No line break characters. -/
def Clean (w : List Char) : Prop := ∀ c ∈ w, c ≠ '\n' ∧ c ≠ '\r'

theorem Word.clean {w : List Char} (h : Word w) : Clean w := by
  intro c hc
  have := h.2 c hc
  constructor <;> rintro rfl <;> revert this <;> decide

theorem Clean.append {a b : List Char} (ha : Clean a) (hb : Clean b) : Clean (a ++ b) := by
  intro c hc
  rcases List.mem_append.1 hc with h | h
  · exact ha c h
  · exact hb c h

theorem Clean.cons {x : Char} {b : List Char} (hx : x ≠ '\n' ∧ x ≠ '\r') (hb : Clean b) : Clean (x :: b) := by
  intro c hc
  rcases List.mem_cons.1 hc with h | h
  · exact h ▸ hx
  · exact hb c h

theorem splitWords_acc {w : List Char} (hw : ∀ c ∈ w, isSpace c = false) (cur rest : List Char) :
    splitWords cur (w ++ rest) = splitWords (w.reverse ++ cur) rest := by
  induction w generalizing cur with
  | nil => rfl
  | cons c cs ih =>
    have h1 : isSpace c = false := hw c List.mem_cons_self
    rw [List.cons_append, splitWords, h1, if_neg (by decide), ih fun x hx => hw x (List.mem_cons_of_mem _ hx)]
    simp

theorem splitWords_word {w : List Char} (hw : Word w) (rest : List Char) :
    splitWords [] (w ++ ' ' :: rest) = w :: splitWords [] rest := by
  rw [splitWords_acc hw.2, splitWords, if_pos (by decide), if_neg]
  · simp
  · simp [hw.1]

theorem splitWords_last {w : List Char} (hw : Word w) : splitWords [] w = [w] := by
  have := splitWords_acc hw.2 [] []
  rw [List.append_nil] at this
  rw [this, splitWords, if_neg]
  · simp
  · simp [hw.1]

theorem splitWords_blank (rest : List Char) : splitWords [] (' ' :: rest) = splitWords [] rest := by
  rw [splitWords, if_pos (by decide), if_pos (by decide)]

theorem splitWords_blanks (n : Nat) (rest : List Char) :
    splitWords [] (List.replicate n ' ' ++ rest) = splitWords [] rest := by
  induction n with
  | zero => rfl
  | succ n ih => rw [List.replicate_succ, List.cons_append, splitWords_blank, ih]

/-- A word padded on the left with blanks. -/
def Padded (f w : List Char) : Prop := Word w ∧ ∃ n, f = List.replicate n ' ' ++ w

theorem splitWords_padded {f w : List Char} (h : Padded f w) (rest : List Char) :
    splitWords [] (f ++ ' ' :: rest) = w :: splitWords [] rest := by
  obtain ⟨hw, n, rfl⟩ := h
  rw [List.append_assoc, splitWords_blanks, splitWords_word hw]

theorem Padded.clean {f w : List Char} (h : Padded f w) : Clean f := by
  obtain ⟨hw, n, rfl⟩ := h
  refine Clean.append ?_ hw.clean
  intro c hc
  rw [(List.mem_replicate.1 hc).2]
  decide

/-! ## Decimal numbers -/

theorem digitChar_toNat {d : Nat} (h : d < 10) : (digitChar d).toNat = 48 + d := by
  interval_cases d <;> decide

theorem digitChar_word {d : Nat} (h : d < 10) : isSpace (digitChar d) = false := by
  interval_cases d <;> decide

theorem decNat_word (n : Nat) : Word (decNat n) := by
  unfold decNat
  split
  · exact ⟨by decide, by decide⟩
  · rename_i h
    refine ⟨?_, ?_⟩
    · rw [Ne, List.map_eq_nil_iff, List.reverse_eq_nil_iff]
      exact Nat.digits_ne_nil_iff_ne_zero.2 h
    · intro c hc
      obtain ⟨d, hd, rfl⟩ := List.mem_map.1 hc
      exact digitChar_word (Nat.digits_lt_base (by norm_num) (List.mem_reverse.1 hd))

theorem parseDigits_map (l : List Nat) (hl : ∀ d ∈ l, d < 10) (acc : Nat) (b : Bool) (hb : l ≠ [] ∨ b = true) :
    parseDigits acc b (l.map digitChar) = some (Nat.ofDigits 10 (l.reverse) + acc * 10 ^ l.length) := by
  induction l generalizing acc b with
  | nil =>
    rcases hb with h | h
    · exact absurd rfl h
    · simp [parseDigits, h]
  | cons d ds ih =>
    have hd : d < 10 := hl d List.mem_cons_self
    rw [List.map_cons, parseDigits, digitChar_toNat hd, if_pos (by omega),
      ih (fun x hx => hl x (List.mem_cons_of_mem _ hx)) _ _ (Or.inr rfl)]
    rw [List.reverse_cons, Nat.ofDigits_append, List.length_cons, List.length_reverse, Nat.ofDigits_singleton,
      Nat.add_sub_cancel_left]
    congr 1
    ring

theorem parseDigits_decNat (n : Nat) : parseDigits 0 false (decNat n) = some n := by
  unfold decNat
  split
  · rename_i h; subst h; decide
  · rename_i h
    rw [parseDigits_map]
    · simp [Nat.ofDigits_digits]
    · intro d hd
      exact Nat.digits_lt_base (by norm_num) (List.mem_reverse.1 hd)
    · left
      rw [Ne, List.reverse_eq_nil_iff]
      exact Nat.digits_ne_nil_iff_ne_zero.2 h

theorem decNat_head (n : Nat) : ∃ d cs, d < 10 ∧ decNat n = digitChar d :: cs := by
  have h1 := (decNat_word n).1
  unfold decNat at h1 ⊢
  split
  · exact ⟨0, [], by norm_num, rfl⟩
  · rename_i h
    rw [if_neg h] at h1
    have h2 : (Nat.digits 10 n).reverse ≠ [] := fun e => h1 (by rw [e]; rfl)
    obtain ⟨d, cs, e⟩ := List.exists_cons_of_ne_nil h2
    refine ⟨d, cs.map digitChar, ?_, by rw [e]; rfl⟩
    exact Nat.digits_lt_base (by norm_num) (List.mem_reverse.1 (e ▸ List.mem_cons_self))

theorem parseInt_decNat (n : Nat) : parseInt (decNat n) = .ok (n : Int) := by
  obtain ⟨d, cs, hd, e⟩ := decNat_head n
  have h := parseDigits_decNat n
  rw [e] at h ⊢
  unfold parseInt
  have h1 : digitChar d ≠ '-' := by interval_cases d <;> decide
  have h2 : digitChar d ≠ '+' := by interval_cases d <;> decide
  split
  · rename_i h'; simp only [List.cons.injEq] at h'; exact absurd h'.1 h1
  · rename_i h'; simp only [List.cons.injEq] at h'; exact absurd h'.1 h2
  · rw [h]; rfl

theorem decInt_word (z : Int) : Word (decInt z) := by
  unfold decInt
  split
  · refine ⟨by simp, ?_⟩
    intro c hc
    rcases List.mem_cons.1 hc with rfl | h
    · decide
    · exact (decNat_word _).2 c h
  · exact decNat_word _

theorem parseInt_decInt (z : Int) : parseInt (decInt z) = .ok z := by
  unfold decInt
  split
  · rename_i h
    have : parseInt ('-' :: decNat z.natAbs) = .ok (-(z.natAbs : Int)) := by
      unfold parseInt
      simp [parseDigits_decNat]
    rw [this]
    congr 1
    omega
  · rename_i h
    rw [parseInt_decNat]
    congr 1
    omega

theorem decPad3_padded (n : Nat) : Padded (decPad3 n) (decNat n) := ⟨decNat_word n, _, rfl⟩

/-! ## Lines -/

theorem readLines_acc {l : List Char} (h : ∀ c ∈ l, c ≠ '\n') (cur rest : List Char) :
    readLines cur (l ++ rest) = readLines (l.reverse ++ cur) rest := by
  induction l generalizing cur with
  | nil => rfl
  | cons c cs ih =>
    rw [List.cons_append, readLines, if_neg (h c List.mem_cons_self),
      ih fun x hx => h x (List.mem_cons_of_mem _ hx)]
    simp

theorem readLines_line {l : List Char} (h : Clean l) (rest : List Char) :
    readLines [] ((l ++ ['\n']) ++ rest) = l :: readLines [] rest := by
  rw [List.append_assoc, readLines_acc fun c hc => (h c hc).1]
  show readLines _ ('\n' :: rest) = _
  rw [readLines, if_pos rfl]
  simp

theorem readLines_lines (ls : List (List Char)) (h : ∀ l ∈ ls, Clean l) :
    readLines [] (ls.map (· ++ ['\n'])).flatten = ls := by
  induction ls with
  | nil => rfl
  | cons l ls ih =>
    rw [List.map_cons, List.flatten_cons, readLines_line (h l List.mem_cons_self),
      ih fun x hx => h x (List.mem_cons_of_mem _ hx)]

theorem universalNewlines_id (l : List Char) (h : ∀ c ∈ l, c ≠ '\r') : universalNewlines l = l := by
  induction l with
  | nil => rfl
  | cons c cs ih =>
    have h1 := ih fun x hx => h x (List.mem_cons_of_mem _ hx)
    have hc := h c List.mem_cons_self
    unfold universalNewlines
    split
    · rename_i e; cases e
    · rename_i e; simp only [List.cons.injEq] at e; exact absurd e.1 hc
    · rename_i e; simp only [List.cons.injEq] at e; exact absurd e.1 hc
    · rename_i e
      simp only [List.cons.injEq] at e
      rw [← e.1, ← e.2, h1]

theorem readText_lines (ls : List (List Char)) (h : ∀ l ∈ ls, Clean l) :
    readLines [] (universalNewlines (ls.map (· ++ ['\n'])).flatten) = ls := by
  rw [universalNewlines_id, readLines_lines ls h]
  intro c hc
  obtain ⟨l, hl, hcl⟩ := List.mem_flatten.1 hc
  obtain ⟨l', hl', rfl⟩ := List.mem_map.1 hl
  rcases List.mem_append.1 hcl with h1 | h1
  · exact (h l' hl' c h1).2
  · rw [List.mem_singleton.1 h1]; decide

theorem splitWords_join (ws : List (List Char)) (h : ∀ w ∈ ws, Word w) : splitWords [] (joinBlank ws) = ws := by
  induction ws with
  | nil => rfl
  | cons w ws ih =>
    cases ws with
    | nil => exact splitWords_last (h w List.mem_cons_self)
    | cons w' ws' =>
      rw [joinBlank, splitWords_word (h w List.mem_cons_self), ih fun x hx => h x (List.mem_cons_of_mem _ hx)]
      simp

theorem joinBlank_clean (ws : List (List Char)) (h : ∀ w ∈ ws, Word w) : Clean (joinBlank ws) := by
  induction ws with
  | nil => intro c hc; cases hc
  | cons w ws ih =>
    cases ws with
    | nil => exact (h w List.mem_cons_self).clean
    | cons w' ws' =>
      rw [joinBlank]
      · exact ((h w List.mem_cons_self).clean).append
          (Clean.cons (by decide) (ih fun x hx => h x (List.mem_cons_of_mem _ hx)))
      · simp

end PyQC
