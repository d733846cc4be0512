import Verif.Props.Machine
import Verif.Model.MachineVec
/-!
# Quick evaluation

The scalar arithmetic of `Model/Scalar.lean` and `Model/Machine.lean` in a form the kernel evaluates quickly: every result
is evaluated to literals at once, and the 64-bit operations are only simulated if an argument is too large for C07. The
functions are equal to the ones of the model.
-/
namespace PyQC
namespace Quick

/-! ## Evaluation to literals -/

def nat {β : Type} (n : Nat) (f : Nat → β) : β :=
  match n with
  | 0 => f 0
  | k + 1 => f (k + 1)

def int {β : Type} (z : Int) (f : Int → β) : β :=
  match z with
  | .ofNat n => nat n fun n => f (.ofNat n)
  | .negSucc n => nat n fun n => f (.negSucc n)

theorem nat_eq {β : Type} (n : Nat) (f : Nat → β) : nat n f = f n := by cases n <;> rfl

theorem int_eq {β : Type} (z : Int) (f : Int → β) : int z f = f z := by
  cases z <;> simp [int, nat_eq]

def num {β : Type} (x : Num3) (f : Num3 → β) : β := int x.a fun a => int x.b fun b => int x.c fun c => f ⟨a, b, c⟩

theorem num_eq {β : Type} (x : Num3) (f : Num3 → β) : num x f = f x := by simp [num, int_eq]

def py (x : Py Num3) : Py Num3 :=
  match x with
  | .ok x => num x .ok
  | .error e => .error e

theorem py_eq (x : Py Num3) : py x = x := by cases x <;> simp [py, num_eq]

def opt (x : Option Num3) : Option Num3 :=
  match x with
  | some x => num x some
  | none => none

theorem opt_eq (x : Option Num3) : opt x = x := by cases x <;> simp [opt, num_eq]

/-! ## Exact arithmetic -/

/-- The quotient, for a divisor. -/
def quot (z : Int) (g : Nat) : Int :=
  match z with
  | .ofNat n => .ofNat (n / g)
  | .negSucc n => Int.negOfNat ((n + 1) / g)

theorem quot_eq {z : Int} {g : Nat} (h : (g : Int) ∣ z) : quot z g = z / g := by
  cases z with
  | ofNat n => rfl
  | negSucc n =>
    obtain ⟨k, hk⟩ := h
    by_cases h0 : g = 0
    · subst h0; simp at hk
    have g0 : 0 < (g : Int) := by omega
    have hq : Int.negSucc n / g = k := by rw [hk, Int.mul_ediv_cancel_left _ g0.ne']
    rw [hq]
    have e : ((n + 1 : Nat) : Int) = g * -k := by
      have : ((n + 1 : Nat) : Int) = -Int.negSucc n := by omega
      rw [this, hk]; ring
    have k0 : 0 ≤ -k := by
      by_contra hc
      have := mul_neg_of_pos_of_neg g0 (not_le.1 hc)
      omega
    obtain ⟨m, hm⟩ := Int.eq_ofNat_of_zero_le k0
    rw [hm] at e
    have e' : n + 1 = g * m := by exact_mod_cast e
    change Int.negOfNat ((n + 1) / g) = k
    rw [e', Nat.mul_div_cancel_left _ (by omega)]
    rw [Int.negOfNat_eq]
    have : (Int.ofNat m : Int) = -k := hm.symm
    omega

/-- `reduce3`; `none` where it raises. -/
def reduce (c1 c2 c3 : Int) : Option Num3 :=
  int c1 fun c1 => int c2 fun c2 => int c3 fun c3 =>
    nat (Nat.gcd (Nat.gcd c1.natAbs c2.natAbs) c3.natAbs) fun g =>
      match g with
      | 0 => none
      | k + 1 =>
        match c3 with
        | .ofNat _ => num ⟨quot c1 (k + 1), quot c2 (k + 1), quot c3 (k + 1)⟩ some
        | .negSucc _ => num ⟨-quot c1 (k + 1), -quot c2 (k + 1), -quot c3 (k + 1)⟩ some

theorem gcd_cast (c1 c2 c3 : Int) : PyQC.gcd3 c1 c2 c3 = (Nat.gcd (Nat.gcd c1.natAbs c2.natAbs) c3.natAbs : Nat) := by
  simp [PyQC.gcd3, Int.gcd]

theorem reduce_eq (c1 c2 c3 : Int) : PyQC.reduceDiv c1 c2 c3 = reduce c1 c2 c3 ∧
    PyQC.reduce3 c1 c2 c3 = (match reduce c1 c2 c3 with | some x => .ok x | none => .error .valueError) := by
  obtain ⟨d1, d2, d3⟩ := Machine.gcd3_dvd c1 c2 c3
  simp only [reduce, int_eq, nat_eq, PyQC.reduceDiv, PyQC.reduce3]
  rw [gcd_cast] at *
  generalize Nat.gcd (Nat.gcd c1.natAbs c2.natAbs) c3.natAbs = g at *
  cases g with
  | zero => simp
  | succ k =>
    have g0 : (0 : Int) < ((k + 1 : Nat) : Int) := by omega
    dsimp only
    rw [quot_eq d1, quot_eq d2, quot_eq d3]
    cases c3 with
    | ofNat n =>
      have : ¬ (Int.ofNat n / ((k + 1 : Nat) : Int) < 0) := not_lt.2 (Int.ediv_nonneg (Int.natCast_nonneg n) g0.le)
      simp only [if_neg this, num_eq, ne_eq, g0.ne', not_false_eq_true, if_true, if_false, and_self]
    | negSucc n =>
      have : Int.negSucc n / ((k + 1 : Nat) : Int) < 0 := Int.ediv_neg_of_neg_of_pos (Int.negSucc_lt_zero n) g0
      simp only [if_pos this, num_eq, ne_eq, g0.ne', not_false_eq_true, if_true, if_false, and_self]

def reduceOk (c1 c2 c3 : Int) : Py Num3 :=
  match reduce c1 c2 c3 with
  | some x => .ok x
  | none => .error .valueError

theorem reduce3_eq : PyQC.reduce3 = reduceOk := by funext a b c; exact (reduce_eq a b c).2
theorem reduceDiv_eq : PyQC.reduceDiv = reduce := by funext a b c; exact (reduce_eq a b c).1

def add (x y : Num3) : Py Num3 :=
  num x fun x => num y fun y => reduceOk (x.a * y.c + y.a * x.c) (x.b * y.c + y.b * x.c) (x.c * y.c)

theorem ico_add : Ico.add = add := by funext x y; simp only [Ico.add, add, num_eq, reduce3_eq]
theorem dode_add : Dode.add = add := by funext x y; simp only [Dode.add, add, num_eq, reduce3_eq]

def mul (p : Package) (x y : Num3) : Py Num3 :=
  num x fun x => num y fun y =>
    match p with
    | .ico => reduceOk (x.a * y.a + x.b * y.b) (x.a * y.b + x.b * y.a + x.b * y.b) (x.c * y.c)
    | .dode => reduceOk (4 * x.a * y.a + 3 * x.b * y.b) (4 * (x.a * y.b + x.b * y.a)) (4 * x.c * y.c)

theorem ico_mul : Ico.mul = mul .ico := by funext x y; simp only [Ico.mul, mul, num_eq, reduce3_eq]
theorem dode_mul : Dode.mul = mul .dode := by funext x y; simp only [Dode.mul, mul, num_eq, reduce3_eq]

def sub (p : Package) (x y : Num3) : Py Num3 := (mul p ⟨-1, 0, 1⟩ y).bind (add x)

theorem ico_sub : Ico.sub = sub .ico := by
  funext x y
  simp only [Ico.sub, sub, ico_mul, ico_add]
  cases mul .ico ⟨-1, 0, 1⟩ y <;> rfl
theorem dode_sub : Dode.sub = sub .dode := by
  funext x y
  simp only [Dode.sub, sub, dode_mul, dode_add]
  cases mul .dode ⟨-1, 0, 1⟩ y <;> rfl

def div (p : Package) (x y : Num3) : Option Num3 :=
  num x fun x => num y fun y => opt (p.arith.div x y)

theorem div_eq (p : Package) : p.arith.div = div p := by funext x y; simp only [div, num_eq, opt_eq]

/-- The exact arithmetic. -/
def exact (p : Package) : Arith := ⟨add, mul p, sub p, div p⟩

theorem ico_eq : Ico.arith = exact .ico := by
  have := div_eq .ico
  simp only [Package.arith, Ico.arith] at this
  simp only [Ico.arith, exact, ico_add, ico_mul, ico_sub, ← this]

theorem dode_eq : Dode.arith = exact .dode := by
  have := div_eq .dode
  simp only [Package.arith, Dode.arith] at this
  simp only [Dode.arith, exact, dode_add, dode_mul, dode_sub, ← this]

theorem arith_eq : Package.arith = exact := by
  funext p
  cases p
  · exact ico_eq
  · exact dode_eq

/-! ## 64-bit arithmetic -/

def within (k : Nat) (x : Num3) : Bool :=
  Nat.ble x.a.natAbs k && (Nat.ble x.b.natAbs k && Nat.ble x.c.natAbs k)

theorem within_elim {k : Nat} {x : Num3} (h : within k x = true) : Machine.Within k x := by
  simp only [within, Bool.and_eq_true] at h
  have h1 := Nat.le_of_ble_eq_true h.1
  have h2 := Nat.le_of_ble_eq_true h.2.1
  have h3 := Nat.le_of_ble_eq_true h.2.2
  refine ⟨?_, ?_, ?_⟩ <;> rw [abs_le] <;> constructor <;> omega

/-- `f x y`, computed as `g x y` for small arguments. -/
def guarded {α : Type} (k : Nat) (f g : Num3 → Num3 → α) (x y : Num3) : α :=
  num x fun x => num y fun y => cond (within k x && within k y) (g x y) (f x y)

theorem guarded_eq {α : Type} {k : Nat} {f g : Num3 → Num3 → α} (h : ∀ x y, Machine.Within k x → Machine.Within k y → f x y = g x y) :
    f = guarded k f g := by
  funext x y
  simp only [guarded, num_eq]
  cases hc : within k x && within k y with
  | false => rw [cond_false]
  | true =>
    rw [cond_true]
    obtain ⟨a, b⟩ := Bool.and_eq_true_iff.1 hc
    exact h x y (within_elim a) (within_elim b)

/-- The 64-bit arithmetic. -/
def machine (p : Package) : Arith where
  add := guarded 33554432 (Machine.arith p).add add
  mul := guarded 33554432 (Machine.arith p).mul (mul p)
  sub := guarded 33554432 (Machine.arith p).sub (sub p)
  div := guarded 65536 (Machine.arith p).div (div p)

theorem machine_eq : Machine.arith = machine := by
  funext p
  have e : Machine.arith p = ⟨(Machine.arith p).add, (Machine.arith p).mul, (Machine.arith p).sub, (Machine.arith p).div⟩ := by
    generalize Machine.arith p = A; cases A; rfl
  rw [e]
  unfold machine
  have w : ∀ x : Num3, Machine.Within ((33554432 : Nat) : Int) x → Machine.Within (2 ^ 25) x := fun x h => by norm_num at h ⊢; exact h
  have w' : ∀ x : Num3, Machine.Within ((65536 : Nat) : Int) x → Machine.Within (2 ^ 16) x := fun x h => by norm_num at h ⊢; exact h
  cases p
  · simp only [Machine.arith]
    rw [← guarded_eq, ← guarded_eq, ← guarded_eq, ← guarded_eq]
    · intro x y hx hy; rw [(Machine.C07_div x y (w' x hx) (w' y hy)).1, ← div_eq]; simp only [Package.arith, Ico.arith]
    · intro x y hx hy; rw [(Machine.C07_ico x y (w x hx) (w y hy)).2.1, ico_sub]
    · intro x y hx hy; rw [(Machine.C07_ico x y (w x hx) (w y hy)).2.2, ico_mul]
    · intro x y hx hy; rw [(Machine.C07_ico x y (w x hx) (w y hy)).1, ico_add]
  · simp only [Machine.arith]
    rw [← guarded_eq, ← guarded_eq, ← guarded_eq, ← guarded_eq]
    · intro x y hx hy; rw [(Machine.C07_div x y (w' x hx) (w' y hy)).2, ← div_eq]; simp only [Package.arith, Dode.arith]
    · intro x y hx hy; rw [(Machine.C07_dode x y (w x hx) (w y hy)).2.1, dode_sub]
    · intro x y hx hy; rw [(Machine.C07_dode x y (w x hx) (w y hy)).2.2, dode_mul]
    · intro x y hx hy; rw [(Machine.C07_dode x y (w x hx) (w y hy)).1, dode_add]

/-! ## Projections -/

def projection (p : Package) (A : Arith) (vt : Vec 6) : Py (Vec 3) :=
  match p with
  | .ico => do
    let v1i ← mtrixcal A Ico.m3 Ico.m2 Ico.m2 Ico.m0 Ico.m4 Ico.m0 vt
    let v2i ← mtrixcal A Ico.m2 Ico.m0 Ico.m0 Ico.m3 Ico.m2 Ico.m3 vt
    let v3i ← mtrixcal A Ico.m0 Ico.m3 Ico.m4 Ico.m1 Ico.m0 Ico.m2 vt
    .ok ![v1i, v2i, v3i]
  | .dode => do
    let v1i ← mtrixcal A Dode.M6 Dode.M1 Dode.M0 Dode.M4 Dode.M0 Dode.M0 vt
    let v2i ← mtrixcal A Dode.M4 Dode.M0 Dode.M1 Dode.M6 Dode.M0 Dode.M0 vt
    let v3i ← mtrixcal A Dode.M0 Dode.M0 Dode.M0 Dode.M0 Dode.M0 Dode.M1 vt
    .ok ![v1i, v2i, v3i]

theorem machine_projection : Machine.projection3 = fun p => projection p (machine p) := by
  funext p v
  rw [← machine_eq]
  cases p <;> simp only [Machine.projection3, projection]

theorem ico_projection : Ico.projection3 = projection .ico (exact .ico) := by
  funext v
  rw [← ico_eq]
  simp only [Ico.projection3, projection]

theorem dode_projection : Dode.projection3 = projection .dode (exact .dode) := by
  funext v
  rw [← dode_eq]
  simp only [Dode.projection3, projection]

end Quick
end PyQC
