import Mathlib.Analysis.Real.Sqrt
import Mathlib.Data.Int.Log
import Mathlib.Data.Rat.Floor
import Mathlib.Tactic.Linarith
import Mathlib.Tactic.Positivity
import Mathlib.Tactic.NormNum
import Mathlib.Tactic.Push
import Verif.Model.Base
import Verif.Spec.Sem
/-!
# Binary floating-point numbers (IEEE 754)

The base types `float`, `double`, `long double` of the library (hw_rounding.hpp 54-67). Each operation computes the
exact result and rounds it once in the direction in force; overflow, underflow, signed zeros, infinities and NaN follow
IEEE 754-2008. Not part of /repo: this is the model of the hardware the library runs on.
-/

namespace BI

/-- A format: precision and range of the exponent of the unit in the last place (IEEE 754-2008, 3.3; the types of
hw_rounding.hpp 54-67). -/
structure Fmt where
  p : ℕ
  emin : ℤ
  emax : ℤ
  hp : 3 ≤ p
  hmin : emin ≤ 0
  hmax : 0 ≤ emax

/-- binary32: `float`, hw_rounding.hpp 54-57 -/
def Fmt.single : Fmt := ⟨24, -149, 104, by decide, by decide, by decide⟩
/-- binary64: `double`, hw_rounding.hpp 59-62 -/
def Fmt.double : Fmt := ⟨53, -1074, 971, by decide, by decide, by decide⟩
/-- x87 extended: `long double`, hw_rounding.hpp 64-67 -/
def Fmt.extended : Fmt := ⟨64, -16445, 16320, by decide, by decide, by decide⟩

/-- Finite numbers of a format, subnormal ones included (IEEE 754-2008, 3.3). -/
def Rep (f : Fmt) (q : ℚ) : Prop :=
  ∃ m e : ℤ, |m| < 2 ^ f.p ∧ f.emin ≤ e ∧ e ≤ f.emax ∧ q = m * (2 : ℚ) ^ e

/-- Largest finite number (IEEE 754-2008, 3.3). -/
def maxFin (f : Fmt) : ℚ := (2 ^ f.p - 1 : ℤ) * (2 : ℚ) ^ f.emax

/-- Numbers of a format. `true` is the negative sign (IEEE 754-2008, 3.2). -/
inductive Fl (f : Fmt) where
  | nan
  | inf (s : Bool)
  | zero (s : Bool)
  | nz (q : ℚ) (h : q ≠ 0 ∧ Rep f q)

/-- Decidable equality of the model's data; `==` of C++ is `Fl.eq`. -/
instance {f : Fmt} : DecidableEq (Fl f)
  | .nan, .nan => isTrue rfl
  | .nan, .inf _ => isFalse (by simp)
  | .nan, .zero _ => isFalse (by simp)
  | .nan, .nz _ _ => isFalse (by simp)
  | .inf _, .nan => isFalse (by simp)
  | .inf s, .inf t => decidable_of_iff (s = t) (by simp)
  | .inf _, .zero _ => isFalse (by simp)
  | .inf _, .nz _ _ => isFalse (by simp)
  | .zero _, .nan => isFalse (by simp)
  | .zero _, .inf _ => isFalse (by simp)
  | .zero s, .zero t => decidable_of_iff (s = t) (by simp)
  | .zero _, .nz _ _ => isFalse (by simp)
  | .nz _ _, .nan => isFalse (by simp)
  | .nz _ _, .inf _ => isFalse (by simp)
  | .nz _ _, .zero _ => isFalse (by simp)
  | .nz p _, .nz q _ => decidable_of_iff (p = q) (by simp)

section
variable {K : Type} [Field K] [LinearOrder K] [IsStrictOrderedRing K] [FloorRing K]

/-- Rounding to an integer (IEEE 754-2008, 4.3). -/
def roundInt (r : RMode) (x : K) : ℤ :=
  match r with
  | .down => ⌊x⌋
  | .up => ⌈x⌉
  | .zero => if 0 ≤ x then ⌊x⌋ else ⌈x⌉
  | .near =>
    if x - ⌊x⌋ < 1 / 2 then ⌊x⌋
    else if 1 / 2 < x - ⌊x⌋ then ⌊x⌋ + 1
    else if ⌊x⌋ % 2 = 0 then ⌊x⌋ else ⌊x⌋ + 1

theorem roundInt_or (r : RMode) (x : K) : roundInt r x = ⌊x⌋ ∨ roundInt r x = ⌈x⌉ := by
  cases r
  · unfold roundInt
    dsimp only
    by_cases h0 : x = ⌊x⌋
    · left
      rw [if_pos]
      rw [← h0]; simp
    · have h1 : ⌈x⌉ = ⌊x⌋ + 1 := by
        rw [Int.ceil_eq_iff]
        have h2 := Int.floor_le x
        have h3 := Int.lt_floor_add_one x
        push_cast
        exact ⟨by linarith [lt_of_le_of_ne h2 (Ne.symm h0)], h3.le⟩
      rw [h1]
      split_ifs <;> simp
  · exact .inl rfl
  · exact .inr rfl
  · unfold roundInt
    dsimp only
    split_ifs <;> simp

theorem roundInt_int (r : RMode) (n : ℤ) : roundInt r (n : K) = n := by
  rcases roundInt_or r (n : K) with h | h <;> rw [h] <;> simp

theorem roundInt_ge (r : RMode) {x : K} {n : ℤ} (h : (n : K) ≤ x) : n ≤ roundInt r x := by
  have h1 : n ≤ ⌊x⌋ := Int.le_floor.2 h
  rcases roundInt_or r x with h' | h' <;> rw [h']
  · exact h1
  · exact h1.trans (Int.floor_le_ceil x)

theorem roundInt_le (r : RMode) {x : K} {n : ℤ} (h : x ≤ n) : roundInt r x ≤ n := by
  have h1 : ⌈x⌉ ≤ n := Int.ceil_le.2 h
  rcases roundInt_or r x with h' | h' <;> rw [h']
  · exact (Int.floor_le_ceil x).trans h1
  · exact h1

/-- Exponent of the unit in the last place of the format around `x`, without upper limit (IEEE 754-2008, 4.3). -/
def ulpExp (f : Fmt) (x : K) : ℤ := max f.emin (Int.log 2 |x| - f.p + 1)

/-- `x` rounded to the precision of the format, without upper limit on the exponent (IEEE 754-2008, 4.3). -/
def roundUnb (f : Fmt) (r : RMode) (x : K) : ℚ :=
  roundInt r (x / (2 : K) ^ ulpExp f x) * (2 : ℚ) ^ ulpExp f x

theorem two_zpow_pos (e : ℤ) : (0 : K) < (2 : K) ^ e := zpow_pos two_pos e

theorem two_zpow_le {a b : ℤ} (h : a ≤ b) : (2 : K) ^ a ≤ (2 : K) ^ b := zpow_le_zpow_right₀ one_le_two h

theorem abs_lt_ulp (f : Fmt) (x : K) : |x / (2 : K) ^ ulpExp f x| < (2 ^ f.p : ℤ) := by
  have h1 : |x| < (2 : K) ^ (Int.log 2 |x| + 1) := by
    exact_mod_cast Int.lt_zpow_succ_log_self (b := 2) one_lt_two |x|
  have h2 : (2 : K) ^ (Int.log 2 |x| + 1) ≤ 2 ^ (ulpExp f x + f.p) := by
    apply two_zpow_le
    unfold ulpExp
    have := le_max_right f.emin (Int.log 2 |x| - f.p + 1)
    omega
  rw [abs_div, abs_of_pos (two_zpow_pos (K := K) (ulpExp f x)), div_lt_iff₀ (two_zpow_pos _)]
  calc |x| < _ := h1.trans_le h2
    _ = _ := by
      rw [zpow_add₀ two_ne_zero, mul_comm]; push_cast; rw [zpow_natCast]

theorem ulp_le_abs (f : Fmt) {x : K} (hx : x ≠ 0) (h : f.emin < ulpExp f x) :
    ((2 ^ (f.p - 1) : ℤ) : K) ≤ |x / (2 : K) ^ ulpExp f x| := by
  have h1 : (2 : K) ^ (Int.log 2 |x|) ≤ |x| := by
    exact_mod_cast Int.zpow_log_le_self (b := 2) one_lt_two (abs_pos.2 hx)
  have h2 : ulpExp f x = Int.log 2 |x| - f.p + 1 := by
    unfold ulpExp at h ⊢
    rcases le_total f.emin (Int.log 2 |x| - f.p + 1) with h' | h'
    · exact max_eq_right h'
    · rw [max_eq_left h'] at h; exact absurd h (lt_irrefl _)
  rw [abs_div, abs_of_pos (two_zpow_pos (K := K) (ulpExp f x)), le_div_iff₀ (two_zpow_pos _)]
  refine le_trans (le_of_eq ?_) h1
  push_cast
  rw [← zpow_natCast, ← zpow_add₀ two_ne_zero, h2]
  congr 1
  have := f.hp
  omega

theorem abs_roundInt_le (r : RMode) {y : K} {n : ℤ} (h : |y| ≤ n) : |roundInt r y| ≤ n := by
  rw [abs_le] at h ⊢
  exact ⟨roundInt_ge r (by push_cast; exact h.1), roundInt_le r h.2⟩

theorem le_abs_roundInt (r : RMode) {y : K} {n : ℤ} (h : (n : K) ≤ |y|) : n ≤ |roundInt r y| := by
  rcases le_total 0 y with h0 | h0
  · rw [abs_of_nonneg h0] at h
    exact (roundInt_ge r h).trans (le_abs_self _)
  · rw [abs_of_nonpos h0] at h
    have : roundInt r y ≤ -n := roundInt_le r (by push_cast; linarith)
    exact le_trans (by omega) (neg_le_abs _)

/-- Rounding without overflow gives a number of the format. -/
theorem rep_roundUnb (f : Fmt) (r : RMode) (x : K) (h1 : roundUnb f r x ≤ maxFin f) (h2 : -maxFin f ≤ roundUnb f r x) :
    Rep f (roundUnb f r x) := by
  by_cases hx : x = 0
  · refine ⟨0, 0, by positivity, f.hmin, f.hmax, ?_⟩
    unfold roundUnb
    subst hx
    have : roundInt r (0 / (2 : K) ^ ulpExp f (0 : K)) = 0 := by
      have := roundInt_int (K := K) r 0
      simpa using this
    rw [this]; simp
  have hab : |roundUnb f r x| ≤ maxFin f := abs_le.2 ⟨h2, h1⟩
  have hm := abs_roundInt_le r (abs_lt_ulp f x).le
  have hlow := fun h => le_abs_roundInt r (ulp_le_abs f hx h)
  revert hab
  unfold roundUnb
  generalize roundInt r (x / (2 : K) ^ ulpExp f x) = m at *
  have he : f.emin ≤ ulpExp f x := le_max_left _ _
  generalize ulpExp f x = e at *
  intro hab
  rw [abs_mul, abs_of_pos (two_zpow_pos (K := ℚ) e)] at hab
  have hmax : maxFin f < (2 : ℚ) ^ (f.p + f.emax) := by
    unfold maxFin
    rw [zpow_add₀ two_ne_zero, zpow_natCast]
    apply mul_lt_mul_of_pos_right _ (two_zpow_pos _)
    push_cast; linarith
  have hee : e ≤ f.emax := by
    by_contra hc
    push Not at hc
    have h3 : (2 ^ (f.p - 1) : ℤ) ≤ |m| := hlow (lt_of_le_of_lt (f.hmin.trans f.hmax) hc)
    have h4 : (2 : ℚ) ^ (f.p + f.emax) ≤ |(m : ℚ)| * 2 ^ e := by
      have h5 : ((2 : ℚ) ^ (f.p - 1)) ≤ |(m : ℚ)| := by exact_mod_cast h3
      calc (2 : ℚ) ^ (f.p + f.emax) ≤ 2 ^ (((f.p - 1 : ℕ) : ℤ) + e) := two_zpow_le (by have := f.hp; omega)
        _ = 2 ^ (f.p - 1) * 2 ^ e := by rw [zpow_add₀ two_ne_zero, zpow_natCast]
        _ ≤ _ := mul_le_mul_of_nonneg_right h5 (two_zpow_pos _).le
    linarith
  rcases lt_or_eq_of_le hm with h | h
  · exact ⟨m, e, h, he, hee, rfl⟩
  · have h4 : (2 : ℚ) ^ (f.p + e) < 2 ^ (f.p + f.emax) := by
      refine lt_of_le_of_lt (le_of_eq ?_) (hab.trans_lt hmax)
      have : |(m : ℚ)| = 2 ^ f.p := by exact_mod_cast h
      rw [this, zpow_add₀ two_ne_zero, zpow_natCast]
    have h5 : e < f.emax := by
      have := (zpow_lt_zpow_iff_right₀ (one_lt_two (α := ℚ))).1 h4
      omega
    have h7 : (2 : ℤ) ^ f.p = 2 ^ (f.p - 1) * 2 := by
      rw [← pow_succ]; congr 1; have := f.hp; omega
    have h8 : (0 : ℤ) < 2 ^ (f.p - 1) := by positivity
    rcases abs_choice m with h6 | h6
    · refine ⟨2 ^ (f.p - 1), e + 1, ?_, by omega, by omega, ?_⟩
      · rw [abs_of_pos h8]; omega
      · rw [show m = 2 ^ (f.p - 1) * 2 by omega]
        push_cast
        rw [zpow_add_one₀ two_ne_zero]; ring
    · refine ⟨-2 ^ (f.p - 1), e + 1, ?_, by omega, by omega, ?_⟩
      · rw [abs_neg, abs_of_pos h8]; omega
      · rw [show m = -(2 ^ (f.p - 1) * 2) by omega]
        push_cast
        rw [zpow_add_one₀ two_ne_zero]; ring

theorem maxFin_pos (f : Fmt) : 0 < maxFin f := by
  unfold maxFin
  apply mul_pos _ (two_zpow_pos _)
  have : (1 : ℚ) < 2 ^ f.p := one_lt_pow₀ one_lt_two (by have := f.hp; omega)
  push_cast; linarith

theorem rep_maxFin (f : Fmt) : Rep f (maxFin f) := by
  have : (1 : ℤ) < 2 ^ f.p := one_lt_pow₀ one_lt_two (by have := f.hp; omega)
  exact ⟨2 ^ f.p - 1, f.emax, by rw [abs_of_nonneg] <;> omega, f.hmin.trans f.hmax, le_rfl, rfl⟩

theorem rep_neg {f : Fmt} {q : ℚ} (h : Rep f q) : Rep f (-q) := by
  obtain ⟨m, e, h1, h2, h3, rfl⟩ := h
  exact ⟨-m, e, by rwa [abs_neg], h2, h3, by push_cast; ring⟩

/-- Largest finite number, with sign (IEEE 754-2008, 7.4). -/
def Fl.max (f : Fmt) (s : Bool) : Fl f :=
  if s then .nz (-maxFin f) ⟨neg_ne_zero.2 (maxFin_pos f).ne', rep_neg (rep_maxFin f)⟩
  else .nz (maxFin f) ⟨(maxFin_pos f).ne', rep_maxFin f⟩

/-- Result on overflow, by direction and sign (IEEE 754-2008, 7.4). -/
def overflow (f : Fmt) (r : RMode) (s : Bool) : Fl f :=
  match r, s with
  | .near, s => .inf s
  | .zero, s => Fl.max f s
  | .down, true => .inf true
  | .down, false => Fl.max f false
  | .up, false => .inf false
  | .up, true => Fl.max f true

/-- The real number `x` rounded to the format; `s` is the sign of the result when `x` is zero
(IEEE 754-2008, 4.3 and 6.3). -/
def rnd (f : Fmt) (r : RMode) (s : Bool) (x : K) : Fl f :=
  if x = 0 then .zero s
  else if h0 : roundUnb f r x = 0 then .zero (decide (x < 0))
  else if h1 : roundUnb f r x ≤ maxFin f then
    if h2 : -maxFin f ≤ roundUnb f r x then .nz (roundUnb f r x) ⟨h0, rep_roundUnb f r x h1 h2⟩
    else overflow f r true
  else overflow f r false
end

namespace Fl
variable {f : Fmt}

/-- The sign bit (IEEE 754-2008, 6.3; irrelevant for NaN). -/
def isNeg : Fl f → Bool
  | nan => false
  | inf s => s
  | zero s => s
  | nz q _ => decide (q < 0)

/-- `-a` (IEEE 754-2008, 5.5.1). -/
def neg : Fl f → Fl f
  | nan => nan
  | inf s => inf (!s)
  | zero s => zero (!s)
  | nz q h => nz (-q) ⟨neg_ne_zero.2 h.1, rep_neg h.2⟩

/-- Position on the extended line: class and value; NaN has none (IEEE 754-2008, 5.11). -/
def key : Fl f → Option (Int × ℚ)
  | nan => none
  | inf true => some (-1, 0)
  | inf false => some (1, 0)
  | zero _ => some (0, 0)
  | nz q _ => some (0, q)

/-- `a < b` (IEEE 754-2008, 5.11). -/
def lt (a b : Fl f) : Bool :=
  match a.key, b.key with
  | some (i, p), some (j, q) => decide (i < j) || (decide (i = j) && decide (p < q))
  | _, _ => false

/-- `a <= b` (IEEE 754-2008, 5.11). -/
def le (a b : Fl f) : Bool :=
  match a.key, b.key with
  | some (i, p), some (j, q) => decide (i < j) || (decide (i = j) && decide (p ≤ q))
  | _, _ => false

/-- `a == b` (IEEE 754-2008, 5.11). -/
def eq (a b : Fl f) : Bool :=
  match a.key, b.key with
  | some (i, p), some (j, q) => decide (i = j) && decide (p = q)
  | _, _ => false

/-- Sign of an exact zero sum of opposite numbers (IEEE 754-2008, 6.3). -/
def zeroSign (r : RMode) : Bool := match r with | .down => true | _ => false

/-- `a + b` (IEEE 754-2008, 5.4.1, 6.1, 7.2). -/
def add (r : RMode) : Fl f → Fl f → Fl f
  | nan, _ => nan
  | _, nan => nan
  | inf s, inf t => if s = t then inf s else nan
  | inf s, _ => inf s
  | _, inf t => inf t
  | zero s, zero t => if s = t then zero s else zero (zeroSign r)
  | zero _, nz q h => nz q h
  | nz q h, zero _ => nz q h
  | nz p _, nz q _ => rnd f r (zeroSign r) (p + q)

/-- `a - b` (IEEE 754-2008, 5.4.1). -/
def sub (r : RMode) (a b : Fl f) : Fl f := add r a b.neg

/-- `a * b` (IEEE 754-2008, 5.4.1, 6.1, 7.2). -/
def mul (r : RMode) : Fl f → Fl f → Fl f
  | nan, _ => nan
  | _, nan => nan
  | inf _, zero _ => nan
  | zero _, inf _ => nan
  | inf s, b => inf (s ^^ b.isNeg)
  | a, inf t => inf (a.isNeg ^^ t)
  | zero s, b => zero (s ^^ b.isNeg)
  | a, zero t => zero (a.isNeg ^^ t)
  | nz p _, nz q _ => rnd f r false (p * q)

/-- `a / b` (IEEE 754-2008, 5.4.1, 6.1, 7.2, 7.3). -/
def div (r : RMode) : Fl f → Fl f → Fl f
  | nan, _ => nan
  | _, nan => nan
  | inf _, inf _ => nan
  | zero _, zero _ => nan
  | inf s, b => inf (s ^^ b.isNeg)
  | a, inf t => zero (a.isNeg ^^ t)
  | zero s, b => zero (s ^^ b.isNeg)
  | a, zero t => inf (a.isNeg ^^ t)
  | nz p _, nz q _ => rnd f r false (p / q)

/-- The square root of `q` to within a half unit in the last place, exact if it is a multiple of a half unit: it rounds like
the square root (`rnd_sqrtApprox` in `Proofs/FloatLaws.lean`). -/
def sqrtApprox (f : Fmt) (q : ℚ) : ℚ :=
  let k := Max.max f.emin (Int.log 2 q / 2 - f.p + 1) - 1
  let s := Nat.sqrt ⌊q / 4 ^ k⌋₊
  if (s : ℚ) ^ 2 * 4 ^ k = q then s * 2 ^ k else (2 * s + 1) * 2 ^ (k - 1)

/-- `sqrt(a)` (IEEE 754-2008, 5.4.1, 6.3, 7.2). -/
def sqrt (r : RMode) : Fl f → Fl f
  | nan => nan
  | inf true => nan
  | inf false => inf false
  | zero s => zero s
  | nz q _ => if q < 0 then nan else rnd f r false (sqrtApprox f q)

/-- `rint` (IEEE 754-2008, 5.3.1): the integer is a number of the format, so that the outer rounding has nothing to do
(`Proofs/FloatLaws.lean`). -/
def rint (r : RMode) : Fl f → Fl f
  | nan => nan
  | inf s => inf s
  | zero s => zero s
  | nz q _ => rnd f r (decide (q < 0)) (roundInt r q : ℚ)

/-- Conversion of an integer (IEEE 754-2008, 5.4.1, convertFromInt). -/
def ofInt (r : RMode) (n : Int) : Fl f := rnd f r false (n : ℚ)

end Fl

/-- The operators of the built-in types (hw_rounding.hpp 54-67), with the functions used in rounded_arith.hpp 29-47. -/
instance (f : Fmt) : Num (Fl f) where
  lt := Fl.lt
  le := Fl.le
  eq := Fl.eq
  lit n := Fl.ofInt .near n
  ofInt r n := some (Fl.ofInt r n)
  neg a := some a.neg
  add r a b := some (a.add r b)
  sub r a b := some (a.sub r b)
  mul r a b := some (a.mul r b)
  div r a b := some (a.div r b)
  sqrt r a := some (a.sqrt r)
  rint r a := some (a.rint r)
  floor a := some (a.rint .down)
  ceil a := some (a.rint .up)
  hasInf := true
  hasNaN := true
  infinity := .inf false
  nan := .nan

/-- What a floating-point number denotes. -/
noncomputable instance (f : Fmt) : Val (Fl f) where
  val
    | .nan => none
    | .inf true => some ⊥
    | .inf false => some ⊤
    | .zero _ => some 0
    | .nz q _ => some ((q : ℝ) : EReal)

end BI
