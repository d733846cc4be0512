import Verif.Model.Xyz
import Verif.Spec.Numeral

/-!
C99: the numbers accepted by the reader.
-/

namespace PyQC

theorem digit_iff (c : Char) : (48 ≤ c.toNat ∧ c.toNat ≤ 57) ↔ ('0' ≤ c ∧ c ≤ '9') := by
  rw [Char.le_def, Char.le_def, UInt32.le_iff_toNat_le, UInt32.le_iff_toNat_le]
  rfl

theorem parseDigits_iff (l : List Char) : ∀ acc n,
    (parseDigits acc true l = some n ↔ ∃ (g : List Char) (gs : List (List Char)), (∀ c ∈ g, '0' ≤ c ∧ c ≤ '9') ∧ (∀ h ∈ gs, Digits h) ∧
      l = g ++ gs.flatMap ('_' :: ·) ∧ n = (g ++ gs.flatten).foldl (fun n c => 10 * n + (c.toNat - '0'.toNat)) acc) ∧
    (parseDigits acc false l = some n ↔ ∃ (g : List Char) (gs : List (List Char)), Digits g ∧ (∀ h ∈ gs, Digits h) ∧
      l = g ++ gs.flatMap ('_' :: ·) ∧ n = (g ++ gs.flatten).foldl (fun n c => 10 * n + (c.toNat - '0'.toNat)) acc) := by
  induction l with
  | nil =>
    intro acc n
    constructor
    · simp only [parseDigits, if_true]
      constructor
      · intro h
        obtain rfl := Option.some.inj h
        exact ⟨[], [], by simp, by simp, by simp, by simp⟩
      · rintro ⟨g, gs, -, -, e, rfl⟩
        obtain ⟨rfl, e2⟩ := List.append_eq_nil_iff.1 e.symm
        cases gs with
        | nil => simp
        | cons a b => simp at e2
    · simp only [parseDigits]
      constructor
      · intro h; simp at h
      · rintro ⟨g, gs, hg, -, e, -⟩
        exact absurd (List.append_eq_nil_iff.1 e.symm).1 hg.1
  | cons c cs ih =>
    intro acc n
    have us : ∀ d : Char, '0' ≤ d ∧ d ≤ '9' → d ≠ '_' := by
      rintro d hd rfl
      revert hd; decide
    have e10 : acc * 10 + (c.toNat - 48) = 10 * acc + (c.toNat - '0'.toNat) := by
      rw [mul_comm]; rfl
    by_cases hc : 48 ≤ c.toNat ∧ c.toNat ≤ 57
    · have hd := (digit_iff c).1 hc
      have step : ∀ b, parseDigits acc b (c :: cs) = parseDigits (acc * 10 + (c.toNat - 48)) true cs := fun b => by
        simp only [parseDigits, if_pos hc]
      rw [step, step, e10]
      have hih := (ih (10 * acc + (c.toNat - '0'.toNat)) n).1
      constructor
      · rw [hih]
        constructor
        · rintro ⟨g, gs, hg, hgs, rfl, rfl⟩
          refine ⟨c :: g, gs, ?_, hgs, rfl, rfl⟩
          intro d h
          rcases List.mem_cons.1 h with rfl | h
          exacts [hd, hg d h]
        · rintro ⟨g, gs, hg, hgs, e, rfl⟩
          cases g with
          | nil =>
            cases gs with
            | nil => simp at e
            | cons a b =>
              simp only [List.nil_append, List.flatMap_cons, List.cons_append, List.cons.injEq] at e
              exact absurd e.1 (us c hd)
          | cons d g =>
            simp only [List.cons_append, List.cons.injEq] at e
            obtain ⟨rfl, rfl⟩ := e
            exact ⟨g, gs, fun x hx => hg x (List.mem_cons_of_mem _ hx), hgs, rfl, rfl⟩
      · rw [hih]
        constructor
        · rintro ⟨g, gs, hg, hgs, rfl, rfl⟩
          refine ⟨c :: g, gs, ⟨by simp, ?_⟩, hgs, rfl, rfl⟩
          intro d h
          rcases List.mem_cons.1 h with rfl | h
          exacts [hd, hg d h]
        · rintro ⟨g, gs, hg, hgs, e, rfl⟩
          cases g with
          | nil => exact absurd rfl hg.1
          | cons d g =>
            simp only [List.cons_append, List.cons.injEq] at e
            obtain ⟨rfl, rfl⟩ := e
            exact ⟨g, gs, fun x hx => hg.2 x (List.mem_cons_of_mem _ hx), hgs, rfl, rfl⟩
    · have hd : ¬ ('0' ≤ c ∧ c ≤ '9') := fun h => hc ((digit_iff c).2 h)
      constructor
      · by_cases hu : c = '_'
        · subst hu
          have step : parseDigits acc true ('_' :: cs) = parseDigits acc false cs := by
            simp only [parseDigits, if_neg hc, if_pos, and_self]
          rw [step, (ih acc n).2]
          constructor
          · rintro ⟨g, gs, hg, hgs, rfl, rfl⟩
            refine ⟨[], g :: gs, by simp, ?_, by simp, by simp⟩
            intro h hh
            rcases List.mem_cons.1 hh with rfl | hh
            exacts [hg, hgs h hh]
          · rintro ⟨g, gs, hg, hgs, e, rfl⟩
            cases g with
            | nil =>
              cases gs with
              | nil => simp at e
              | cons a b =>
                simp only [List.nil_append, List.flatMap_cons, List.cons_append, List.cons.injEq] at e
                exact ⟨a, b, hgs a (by simp), fun h hh => hgs h (by simp [hh]), e.2, by simp⟩
            | cons d g =>
              simp only [List.cons_append, List.cons.injEq] at e
              exact absurd (e.1 ▸ hg d (by simp)) hd
        · have step : parseDigits acc true (c :: cs) = none := by
            simp only [parseDigits, if_neg hc]
            rw [if_neg (fun h => hu h.1)]
          rw [step]
          constructor
          · intro h; simp at h
          · rintro ⟨g, gs, hg, hgs, e, rfl⟩
            cases g with
            | nil =>
              cases gs with
              | nil => simp at e
              | cons a b =>
                simp only [List.nil_append, List.flatMap_cons, List.cons_append, List.cons.injEq] at e
                exact absurd e.1 hu
            | cons d g =>
              simp only [List.cons_append, List.cons.injEq] at e
              exact absurd (e.1 ▸ hg d (by simp)) hd
      · have step : parseDigits acc false (c :: cs) = none := by
          simp only [parseDigits, if_neg hc]
          rw [if_neg (fun h => absurd h.2 (by decide))]
        rw [step]
        constructor
        · intro h; simp at h
        · rintro ⟨g, gs, hg, hgs, e, rfl⟩
          cases g with
          | nil => exact absurd rfl hg.1
          | cons d g =>
            simp only [List.cons_append, List.cons.injEq] at e
            exact absurd (e.1 ▸ hg.2 d (by simp)) hd

/-- C99: what the reader accepts as a number (`int()` of a word): an optional sign, then groups of decimal digits with single
underscores between them; the value is the number written with these digits. Every other word raises an exception. -/
theorem C99_numeral (w : List Char) (z : Int) : parseInt w = .ok z ↔
    ∃ (sign g : List Char) (gs : List (List Char)), sign ∈ [[], ['+'], ['-']] ∧ Digits g ∧ (∀ h ∈ gs, Digits h) ∧
      w = sign ++ g ++ gs.flatMap ('_' :: ·) ∧ z = (if sign = ['-'] then -1 else 1) * (decimal (g ++ gs.flatten) : Int) := by
  have key : ∀ l n, parseDigits 0 false l = some n ↔ _ := fun l n => (parseDigits_iff l 0 n).2
  have not_sign : ∀ {g : List Char} {c : Char} {l r : List Char}, Digits g → c :: l = g ++ r → '0' ≤ c ∧ c ≤ '9' := by
    intro g c l r hg e
    cases g with
    | nil => exact absurd rfl hg.1
    | cons d g =>
      simp only [List.cons_append, List.cons.injEq] at e
      exact e.1 ▸ hg.2 d (by simp)
  have minus : ∀ r, parseInt ('-' :: r) = .ok z ↔ ∃ n : Nat, parseDigits 0 false r = some n ∧ -(n : Int) = z := fun r => by
    cases h : parseDigits 0 false r <;> simp [parseInt, h]
  have plus : ∀ r, parseInt ('+' :: r) = .ok z ↔ ∃ n : Nat, parseDigits 0 false r = some n ∧ (n : Int) = z := fun r => by
    cases h : parseDigits 0 false r <;> simp [parseInt, h]
  have bare : ∀ r, (∀ t, r ≠ '-' :: t) → (∀ t, r ≠ '+' :: t) →
      (parseInt r = .ok z ↔ ∃ n : Nat, parseDigits 0 false r = some n ∧ (n : Int) = z) := fun r h1 h2 => by
    clear key not_sign minus plus
    unfold parseInt
    dsimp only
    split <;> rename_i he <;> split at he
    all_goals first
      | exact absurd rfl (h1 _)
      | exact absurd rfl (h2 _)
      | (cases h : parseDigits 0 false r <;> simp_all)
  by_cases h1 : ∃ t, w = '-' :: t
  · obtain ⟨r, rfl⟩ := h1
    rw [minus]
    constructor
    · rintro ⟨n, hn, rfl⟩
      obtain ⟨g, gs, hg, hgs, rfl, rfl⟩ := (key _ _).1 hn
      exact ⟨['-'], g, gs, by simp, hg, hgs, by simp, by simp [decimal]⟩
    · rintro ⟨sign, g, gs, hs, hg, hgs, e, rfl⟩
      simp only [List.mem_cons, List.not_mem_nil, or_false] at hs
      rcases hs with rfl | rfl | rfl
      · exact absurd (not_sign hg (by simpa using e)) (by decide)
      · simp at e
      · simp only [List.cons_append, List.nil_append, List.cons.injEq, true_and] at e
        exact ⟨_, (key _ _).2 ⟨g, gs, hg, hgs, e, rfl⟩, by simp [decimal]⟩
  by_cases h2 : ∃ t, w = '+' :: t
  · obtain ⟨r, rfl⟩ := h2
    rw [plus]
    constructor
    · rintro ⟨n, hn, rfl⟩
      obtain ⟨g, gs, hg, hgs, rfl, rfl⟩ := (key _ _).1 hn
      exact ⟨['+'], g, gs, by simp, hg, hgs, by simp, by simp [decimal]⟩
    · rintro ⟨sign, g, gs, hs, hg, hgs, e, rfl⟩
      simp only [List.mem_cons, List.not_mem_nil, or_false] at hs
      rcases hs with rfl | rfl | rfl
      · exact absurd (not_sign hg (by simpa using e)) (by decide)
      · simp only [List.cons_append, List.nil_append, List.cons.injEq, true_and] at e
        exact ⟨_, (key _ _).2 ⟨g, gs, hg, hgs, e, rfl⟩, by simp [decimal]⟩
      · simp at e
  rw [bare w (fun t h => h1 ⟨t, h⟩) (fun t h => h2 ⟨t, h⟩)]
  constructor
  · rintro ⟨n, hn, rfl⟩
    obtain ⟨g, gs, hg, hgs, rfl, rfl⟩ := (key _ _).1 hn
    exact ⟨[], g, gs, by simp, hg, hgs, by simp, by simp [decimal]⟩
  · rintro ⟨sign, g, gs, hs, hg, hgs, e, rfl⟩
    simp only [List.mem_cons, List.not_mem_nil, or_false] at hs
    rcases hs with rfl | rfl | rfl
    · exact ⟨_, (key _ _).2 ⟨g, gs, hg, hgs, by simpa using e, rfl⟩, by simp [decimal]⟩
    · exact absurd ⟨_, e⟩ h2
    · exact absurd ⟨_, e⟩ h1

/-- A word with a sign and two groups of digits. -/
example : parseInt "-1_20".toList = .ok (-120) :=
  (C99_numeral _ _).2 ⟨['-'], ['1'], [['2', '0']], by simp, ⟨by simp, by decide⟩, fun h hh => by
    rw [List.mem_singleton.1 hh]; exact ⟨by simp, by decide⟩, rfl, rfl⟩

end PyQC
