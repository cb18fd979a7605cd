import Verif.Proofs.Numbers
import Verif.Props.MachInt
/-! # Property C74: the requirements on numbers -/

namespace BI
open Dom

section
variable {T : Type} [Num T] {V : Env T} {D : Type} [LinearOrder D] {O : IdealOps D} {val : T → D}

/-- **C74.** Let `D` be any ordered domain with operations that are monotone as `+`, `-`, `*` and `/` are, let the base type represent part
of `D` with its order and its sign, and let the rounding object compute bounds of the results in `D`, as doc/numbers.htm demands. Whenever a
formula is evaluated with intervals and a result is returned, that interval contains every value the formula takes in `D` for values of the
variables out of the given intervals. (No real numbers, no representation error, no assumption that an operation succeeds.) -/
theorem C74_formula (hO : O.Monotone) (hR : Represents O val) (hV : RoundsAround V O val) (hk : KindOk T V.lib V.kind)
    (hi : Num.hasInf T = true ∨ V.ndebug = false) (e : Expr T) (hp : e.usesPow = true → O.Powers ∧ KeepsSign V O val)
    (K : PiConst T) (fuel : ℕ) {x : ℕ → Itv T} {δ : ℕ → D} (hx : ∀ i, (x i).Holds val (δ i)) {d : D} (hd : e.Ideal O val δ d)
    {s : V.State} (hs : V.Valid s) {z : Itv T} (h : (e.eval K fuel V.P x s).1 = .ok z) : z.Holds val d := by
  obtain ⟨J, hJ⟩ := V.back hk
  have h' := ((e.eval_back (K := K) (fuel := fuel) hJ.toPSim x s hs).2 z h).1
  exact rep_expr hR hO (hV.sides hk hs) hi K fuel hx e (fun h => ⟨(hp h).1, (hp h).2.pure hk hs⟩) hd h'

/-- The same from the properties as they are listed in doc/numbers.htm, together with the identities that the page leaves unsaid. -/
theorem C74_listed (hL : O.Listed) (hS : O.Silent) (h1 : O.zero ≤ O.one) (hR : Represents O val) (hV : RoundsAround V O val)
    (hk : KindOk T V.lib V.kind) (hi : Num.hasInf T = true ∨ V.ndebug = false) (e : Expr T) (hp : e.usesPow = false)
    (K : PiConst T) (fuel : ℕ) {x : ℕ → Itv T} {δ : ℕ → D} (hx : ∀ i, (x i).Holds val (δ i)) {d : D} (hd : e.Ideal O val δ d)
    {s : V.State} (hs : V.Valid s) {z : Itv T} (h : (e.eval K fuel V.P x s).1 = .ok z) : z.Holds val d :=
  C74_formula (IdealOps.monotone_of_listed hL hS h1) hR hV hk hi e (fun h => by rw [hp] at h; cases h) K fuel hx hd hs h

end

/-! ## Built-in integers -/

/-- Integers with the division of C++. -/
def intOps : IdealOps ℤ := ⟨0, 1, (- ·), (· + ·), (· - ·), (· * ·), Int.tdiv, (· ≠ 0)⟩

theorem tdiv_anti {x y z : ℤ} (hx : 0 ≤ x) (hy : 0 < y) (h : y ≤ z) : x.tdiv z ≤ x.tdiv y := by
  rw [Int.tdiv_eq_ediv_of_nonneg hx, Int.tdiv_eq_ediv_of_nonneg hx]
  refine Int.le_ediv_of_mul_le hy ?_
  have h0 : 0 ≤ x / z := Int.ediv_nonneg hx (by omega)
  exact (mul_le_mul_of_nonneg_left h h0).trans (Int.ediv_mul_le x (by omega))

theorem intOps_monotone : intOps.Monotone := by
  have anti : ∀ x y z : ℤ, y ≠ 0 → z ≠ 0 → y ≤ z → (0 ≤ y ∨ z ≤ 0) → 0 ≤ x → x.tdiv z ≤ x.tdiv y := by
    intro x y z hy hz h hs hx
    rcases hs with hs | hs
    · exact tdiv_anti hx (by omega) h
    · have := tdiv_anti hx (y := -z) (z := -y) (by omega) (by omega)
      rw [Int.tdiv_neg, Int.tdiv_neg] at this; omega
  refine ⟨fun _ _ => neg_le_neg, rfl, fun _ _ _ _ => add_le_add, add_comm, fun _ _ _ _ => sub_le_sub, ?_, ?_, mul_comm, mul_zero, ?_,
    zero_le_one, fun h => h rfl, fun z _ => Int.zero_tdiv z, ?_, ?_, anti, ?_⟩
  · exact fun x y z h h0 => mul_le_mul_of_nonneg_right h h0
  · exact fun x y z h h0 => mul_le_mul_of_nonpos_right h h0
  · exact fun x => neg_mul_neg x x
  · intro x y z hz h h0
    have hz : z ≠ 0 := hz
    have h0 : 0 ≤ z := h0
    exact Int.tdiv_le_tdiv (by omega) h
  · intro x y z hz h h0
    have hz : z ≠ 0 := hz
    have h0 : z ≤ 0 := h0
    change y.tdiv z ≤ x.tdiv z
    have := Int.tdiv_le_tdiv (c := -z) (by omega) h
    rw [Int.tdiv_neg, Int.tdiv_neg] at this; omega
  · intro x y z hy hz h hs h0
    have h0 : x ≤ 0 := h0
    have := anti (-x) y z hy hz h hs (by omega)
    change x.tdiv y ≤ x.tdiv z
    rw [Int.neg_tdiv, Int.neg_tdiv] at this; omega

theorem intOps_powers : intOps.Powers := ⟨mul_assoc, fun x => one_mul (x : ℤ), fun x y => neg_mul (x : ℤ) y, fun x => neg_neg (x : ℤ)⟩

section
variable {w : ℕ}

theorem fit_ok {n : ℤ} {c : MInt w} (h : MInt.fit w n = some c) : c.z = n := by
  unfold MInt.fit at h
  split at h
  · cases h; rfl
  · cases h

theorem mint_represents : Represents intOps (MInt.z (w := w)) := by
  have h2 : (1 : ℤ) < 2 ^ (w + 3) := one_lt_pow₀ one_lt_two (by omega)
  refine ⟨fun a b => decide_eq_true_iff, fun a b => decide_eq_true_iff, fun a b => decide_eq_true_iff, ?_, ?_, fun a b => fit_ok, rfl,
    (fun h => by cases h)⟩
  · change ((MInt.fit w 0).getD _).z = 0
    rw [MInt.fit, dif_pos ⟨by omega, by omega⟩]; rfl
  · change ((MInt.fit w 1).getD _).z = 1
    rw [MInt.fit, dif_pos ⟨by omega, by omega⟩]; rfl

theorem mint_sides (V : Env (MInt w)) (hk : V.kind = .exact) : Sides V.B intOps MInt.z := by
  have hB : V.B = pureArith .exact V.lib := by unfold Env.B; rw [hk]
  have hd : ∀ {a b c : MInt w}, ofOpt (Num.div .near a b) = (.ok c : Res (MInt w)) → intOps.divisor b.z ∧ c.z = a.z.tdiv b.z := by
    intro a b c h
    have h := ofOpt_ok h
    change (if b.z = 0 then none else MInt.fit w (a.z.tdiv b.z)) = _ at h
    split at h
    · cases h
    · next h0 => exact ⟨h0, fit_ok h⟩
  rw [hB]
  exact ⟨fun h => (fit_ok (ofOpt_ok h)).le, fun h => (fit_ok (ofOpt_ok h)).ge, fun h => (fit_ok (ofOpt_ok h)).le,
    fun h => (fit_ok (ofOpt_ok h)).ge, fun h => (fit_ok (ofOpt_ok h)).le, fun h => (fit_ok (ofOpt_ok h)).ge,
    fun h => ⟨(hd h).1, (hd h).2.le⟩, fun h => ⟨(hd h).1, (hd h).2.ge⟩⟩
end

section
variable {T : Type} [Num T] {V : Env T} {D : Type} [LinearOrder D] {O : IdealOps D} {val : T → D}

theorem RoundsAround.of_sides (hk : KindOk T V.lib V.kind) (h : Sides V.B O val) : RoundsAround V O val := by
  obtain ⟨J, hJ⟩ := V.back hk
  constructor
  · intro a b s hs c e; exact h.addDown ((hJ.scope (hJ.rnd.s_addDown a b) s hs).1.symm.trans e)
  · intro a b s hs c e; exact h.addUp ((hJ.scope (hJ.rnd.s_addUp a b) s hs).1.symm.trans e)
  · intro a b s hs c e; exact h.subDown ((hJ.scope (hJ.rnd.s_subDown a b) s hs).1.symm.trans e)
  · intro a b s hs c e; exact h.subUp ((hJ.scope (hJ.rnd.s_subUp a b) s hs).1.symm.trans e)
  · intro a b s hs c e; exact h.mulDown ((hJ.scope (hJ.rnd.s_mulDown a b) s hs).1.symm.trans e)
  · intro a b s hs c e; exact h.mulUp ((hJ.scope (hJ.rnd.s_mulUp a b) s hs).1.symm.trans e)
  · intro a b s hs c e; exact h.divDown ((hJ.scope (hJ.rnd.s_divDown a b) s hs).1.symm.trans e)
  · intro a b s hs c e; exact h.divUp ((hJ.scope (hJ.rnd.s_divUp a b) s hs).1.symm.trans e)

theorem KeepsSign.of_pure (hk : KindOk T V.lib V.kind)
    (h : ∀ a b c : T, O.zero ≤ val a → O.zero ≤ val b → V.B.mulDown a b = .ok c → O.zero ≤ val c) : KeepsSign V O val := by
  obtain ⟨J, hJ⟩ := V.back hk
  exact fun a b ha hb s hs c e => h a b c ha hb ((hJ.scope (hJ.rnd.s_mulDown a b) s hs).1.symm.trans e)
end

/-- For built-in integers of any size with the default rounding policy, in builds with assertions: when a formula returns an interval, the
interval contains what the same formula computes with mathematical integers and the truncating division of C++. So `interval<int>` loses
results only if division is understood as division of real numbers (`C46_div_truncates`). -/
theorem C74_int {w : ℕ} (V : Env (MInt w)) (hk : V.kind = .exact) (hl : ∀ f (x : MInt w) a b, V.lib f a x = V.lib f b x)
    (hn : V.ndebug = false) (e : Expr (MInt w)) (K : PiConst (MInt w)) (fuel : ℕ) {x : ℕ → Itv (MInt w)} {δ : ℕ → ℤ}
    (hx : ∀ i, (x i).Holds MInt.z (δ i)) {d : ℤ} (hd : e.Ideal intOps MInt.z δ d) {s : V.State} (hs : V.Valid s) {z : Itv (MInt w)}
    (h : (e.eval K fuel V.P x s).1 = .ok z) : z.lower.z ≤ d ∧ d ≤ z.upper.z := by
  have hB : V.B = pureArith .exact V.lib := by unfold Env.B; rw [hk]
  have hkk : KindOk (MInt w) V.lib V.kind := fun _ =>
    ⟨fun _ _ _ _ => rfl, fun _ _ _ _ => rfl, fun _ _ _ _ => rfl, fun _ _ _ _ => rfl, fun _ _ _ => rfl, hl⟩
  refine C74_formula intOps_monotone mint_represents (.of_sides hkk (mint_sides V hk)) hkk (.inr hn) e (fun _ => ⟨intOps_powers, ?_⟩)
    K fuel hx hd hs h
  refine .of_pure hkk fun a b c ha hb hc => ?_
  rw [hB] at hc
  have := fit_ok (ofOpt_ok hc)
  exact (mul_nonneg ha hb).trans this.ge

/-! ### Example: a formula over `interval<int>` -/

abbrev i7 (a b : ℤ) (ha : -7 ≤ a ∧ a ≤ 7 := by decide) (hb : -7 ≤ b ∧ b ≤ 7 := by decide) : Itv (MInt 28) :=
  ⟨⟨a, by norm_num; omega, by norm_num; omega⟩, ⟨b, by norm_num; omega, by norm_num; omega⟩⟩

/-- `(x + x) / [2,3] - x^3` -/
def intFormula : Expr (MInt 28) :=
  .bin .sub (.bin .div (.bin .add (.var 0) (.var 0)) (.var 1)) (.pow (.var 0) 3)

abbrev intVars : ℕ → Itv (MInt 28) := fun i => if i = 0 then i7 (-2) 3 else i7 2 3

abbrev noConst : PiConst (MInt 28) := ⟨MInt.zero 28, MInt.zero 28, MInt.zero 28, MInt.zero 28, MInt.zero 28, MInt.zero 28⟩

abbrev intPoint : ℕ → ℤ := fun i => if i = 0 then 3 else 2

/-- With `x` in `[-2,3]` and the divisor in `[2,3]` the result is `[-29,11]`; for `3` and `2` the formula gives `6/2 - 27 = -24`. -/
example : ((intFormula.eval noConst 0 (intEnv false).P intVars (intState false)).1.toOption.map fun z => (z.lower.z, z.upper.z)) =
    some (-29, 11) ∧ intFormula.Ideal intOps MInt.z intPoint (-24) ∧ ∀ i, (intVars i).Holds MInt.z (intPoint i) := by
  refine ⟨by decide +kernel, ?_, ?_⟩
  · refine ⟨3, 27, ⟨6, 2, ⟨3, 3, rfl, rfl, rfl⟩, rfl, two_ne_zero (α := ℤ), rfl⟩, ⟨3, rfl, ?_⟩, rfl⟩
    exact ⟨fun _ => rfl, (fun h => by cases h), (fun h => by cases h)⟩
  · intro i
    unfold intVars intPoint
    split <;> exact ⟨by decide, by decide⟩

/-! ## What the listed requirements do not give -/

/-- Integers with a product that is not commutative (a base type of the user; not library code). -/
structure Skew where
  z : ℤ
  deriving DecidableEq

/-- Not library code. -/
def skewOps : IdealOps ℤ := ⟨0, 1, (- ·), (· + ·), (· - ·), fun a b => if b < 0 then 7 * a else a * b, fun _ _ => 1, (· ≠ 0)⟩

/-- Not library code. -/
instance : Num Skew where
  lt a b := decide (a.z < b.z)
  le a b := decide (a.z ≤ b.z)
  eq a b := decide (a.z = b.z)
  lit n := ⟨n⟩
  ofInt _ n := some ⟨n⟩
  neg a := some ⟨-a.z⟩
  add _ a b := some ⟨a.z + b.z⟩
  sub _ a b := some ⟨a.z - b.z⟩
  mul _ a b := some ⟨if b.z < 0 then 7 * a.z else a.z * b.z⟩
  div _ _ b := if b.z = 0 then none else some ⟨1⟩
  sqrt _ _ := none
  rint _ a := some a
  floor a := some a
  ceil a := some a
  hasInf := false
  hasNaN := false
  infinity := ⟨0⟩
  nan := ⟨0⟩

/-- `interval<Skew>` with the default policies. -/
def skewEnv : Env Skew where
  ctl := c99 Unit feGlibc
  laws := c99_laws Unit feGlibc feGlibc_inj
  kind := .exact
  lib := fun _ _ _ => none
  checks := .strict
  ndebug := false

theorem skew_kind : KindOk Skew skewEnv.lib skewEnv.kind := fun _ =>
  ⟨fun _ _ _ _ => rfl, fun _ _ _ _ => rfl, fun _ _ _ _ => rfl, fun _ _ _ _ => rfl, fun _ _ _ => rfl, fun _ _ _ _ => rfl⟩

theorem skew_listed : skewOps.Listed := by
  refine ⟨?_, fun _ _ => neg_le_neg, fun x y z h => add_le_add_left h z, ?_, ?_⟩
  · intro x hx
    have hx : (0 : ℤ) ≤ x := hx
    change -x ≤ 0; omega
  · intro x y z h hz
    have hz : (0 : ℤ) ≤ z := hz
    change (if z < 0 then _ else x * z) ≤ (if z < 0 then _ else y * z)
    rw [if_neg (by omega), if_neg (by omega)]
    exact mul_le_mul_of_nonneg_right h hz
  · exact fun x y _ _ => ⟨zero_lt_one (α := ℤ), le_rfl⟩

theorem skew_represents : Represents skewOps Skew.z :=
  ⟨fun a b => decide_eq_true_iff, fun a b => decide_eq_true_iff, fun a b => decide_eq_true_iff, rfl, rfl,
    fun a b h => by cases h; rfl, rfl, (fun h => by cases h)⟩

theorem skew_rounds : RoundsAround skewEnv skewOps Skew.z := by
  refine .of_sides skew_kind ?_
  have hd : ∀ {a b c : Skew}, ofOpt (Num.div .near a b) = (.ok c : Res Skew) → skewOps.divisor b.z ∧ c.z = 1 := by
    intro a b c h
    have h := ofOpt_ok h
    change (if b.z = 0 then none else some (⟨1⟩ : Skew)) = _ at h
    split at h
    · cases h
    · next h0 => cases h; exact ⟨h0, rfl⟩
  exact ⟨fun h => by cases h; exact le_rfl, fun h => by cases h; exact le_rfl, fun h => by cases h; exact le_rfl,
    fun h => by cases h; exact le_rfl, fun h => by cases h; exact le_rfl, fun h => by cases h; exact le_rfl,
    fun h => ⟨(hd h).1, (hd h).2.le⟩, fun h => ⟨(hd h).1, (hd h).2.ge⟩⟩

/-- The five order properties of doc/numbers.htm are not enough: with a product that satisfies them but is not commutative, `[1,2] * [-1,-1]`
is `[14,7]`, which holds neither the product of 1 and -1 nor anything else. -/
theorem C74_listed_violated : skewOps.Listed ∧ Represents skewOps Skew.z ∧ RoundsAround skewEnv skewOps Skew.z ∧
    skewEnv.Returns (mulII skewEnv.P ⟨⟨1⟩, ⟨2⟩⟩ ⟨⟨-1⟩, ⟨-1⟩⟩) (· = ⟨⟨14⟩, ⟨7⟩⟩) ∧
    (⟨⟨1⟩, ⟨2⟩⟩ : Itv Skew).Holds Skew.z 1 ∧ (⟨⟨-1⟩, ⟨-1⟩⟩ : Itv Skew).Holds Skew.z (-1) ∧
    ¬ (⟨⟨14⟩, ⟨7⟩⟩ : Itv Skew).Holds Skew.z (skewOps.mul 1 (-1)) := by
  refine ⟨skew_listed, skew_represents, skew_rounds, ?_, ⟨by decide, by decide⟩, ⟨by decide, by decide⟩, ?_⟩
  · obtain ⟨J, hJ⟩ := skewEnv.back skew_kind
    exact fun s hs => have h := mulII_sim hJ.toPSim _ _ s hs; ⟨_, h.1.trans (by decide +kernel), h.2.1.symm, rfl⟩
  · rintro ⟨h, -⟩
    revert h; decide

/-! ## Coarse rounding -/

/-- Integers whose operations are off by 5 in the direction of rounding (a base type of the user; not library code). -/
structure Coarse where
  z : ℤ
  deriving DecidableEq

/-- Not library code. -/
def Coarse.slip : RMode → ℤ
  | .down => -5
  | .up => 5
  | _ => 0

/-- Not library code. -/
instance : Num Coarse where
  lt a b := decide (a.z < b.z)
  le a b := decide (a.z ≤ b.z)
  eq a b := decide (a.z = b.z)
  lit n := ⟨n⟩
  ofInt _ n := some ⟨n⟩
  neg a := some ⟨-a.z⟩
  add r a b := some ⟨a.z + b.z + Coarse.slip r⟩
  sub r a b := some ⟨a.z - b.z + Coarse.slip r⟩
  mul r a b := some ⟨a.z * b.z + Coarse.slip r⟩
  div r a b := if b.z = 0 then none else some ⟨a.z.tdiv b.z + Coarse.slip r⟩
  sqrt _ _ := none
  rint _ a := some a
  floor a := some a
  ceil a := some a
  hasInf := false
  hasNaN := false
  infinity := ⟨0⟩
  nan := ⟨0⟩

/-- `interval<Coarse>` with directed rounding. -/
def coarseEnv : Env Coarse where
  ctl := c99 Unit feGlibc
  laws := c99_laws Unit feGlibc feGlibc_inj
  kind := .std
  lib := fun _ _ _ => none
  checks := .strict
  ndebug := false

theorem coarse_kind : KindOk Coarse coarseEnv.lib coarseEnv.kind := fun h => by cases h

theorem coarse_represents : Represents intOps Coarse.z :=
  ⟨fun a b => decide_eq_true_iff, fun a b => decide_eq_true_iff, fun a b => decide_eq_true_iff, rfl, rfl,
    fun a b h => by cases h; rfl, rfl, (fun h => by cases h)⟩

theorem coarse_rounds : RoundsAround coarseEnv intOps Coarse.z := by
  refine .of_sides coarse_kind ?_
  have h5 : ∀ n : ℤ, n + -5 ≤ n := fun n => by omega
  have h6 : ∀ n : ℤ, n ≤ n + 5 := fun n => by omega
  have hd : ∀ {r : RMode} {a b c : Coarse}, ofOpt (Num.div r a b) = (.ok c : Res Coarse) →
      intOps.divisor b.z ∧ c.z = a.z.tdiv b.z + Coarse.slip r := by
    intro r a b c h
    have h := ofOpt_ok h
    change (if b.z = 0 then none else some (⟨a.z.tdiv b.z + Coarse.slip r⟩ : Coarse)) = _ at h
    split at h
    · cases h
    · next h0 => cases h; exact ⟨h0, rfl⟩
  exact ⟨fun h => by cases h; exact h5 _, fun h => by cases h; exact h6 _, fun h => by cases h; exact h5 _,
    fun h => by cases h; exact h6 _, fun h => by cases h; exact h5 _, fun h => by cases h; exact h6 _,
    fun h => ⟨(hd h).1, (hd h).2.trans_le (h5 _)⟩, fun h => ⟨(hd h).1, (h6 _).trans (hd h).2.ge⟩⟩

/-- Formulas without powers are safe for that type as well: nothing is asked of the rounding but the right side. -/
example (e : Expr Coarse) (he : e.usesPow = false) (K : PiConst Coarse) {x : ℕ → Itv Coarse} {δ : ℕ → ℤ}
    (hx : ∀ i, (x i).Holds Coarse.z (δ i)) {d : ℤ} (hd : e.Ideal intOps Coarse.z δ d) {s : coarseEnv.State} (hs : coarseEnv.Valid s)
    {z : Itv Coarse} (h : (e.eval K 0 coarseEnv.P x s).1 = .ok z) : z.Holds Coarse.z d :=
  C74_formula intOps_monotone coarse_represents coarse_rounds coarse_kind (.inr rfl) e (fun h => by rw [he] at h; cases h) K 0 hx hd hs h

/-- `f_down(x,y) <= f(x,y) <= f_up(x,y)`, all that doc/numbers.htm asks of rounding, is not enough for `pow`, which multiplies bounds that it
takes for nonnegative: `pow([0,1], 4)` is `[15,46]` and misses `0`. -/
theorem C74_pow_violated : intOps.Monotone ∧ intOps.Powers ∧ Represents intOps Coarse.z ∧ RoundsAround coarseEnv intOps Coarse.z ∧
    coarseEnv.Returns (powI coarseEnv.P ⟨⟨0⟩, ⟨1⟩⟩ 4) (· = ⟨⟨15⟩, ⟨46⟩⟩) ∧ (⟨⟨0⟩, ⟨1⟩⟩ : Itv Coarse).Holds Coarse.z 0 ∧
    powIdeal intOps 0 4 0 ∧ ¬ (⟨⟨15⟩, ⟨46⟩⟩ : Itv Coarse).Holds Coarse.z 0 := by
  refine ⟨intOps_monotone, intOps_powers, coarse_represents, coarse_rounds, ?_, ⟨by decide, by decide⟩, ?_, ?_⟩
  · obtain ⟨J, hJ⟩ := coarseEnv.back coarse_kind
    exact fun s hs => have h := powI_sim hJ.toPSim _ _ s hs; ⟨_, h.1.trans (by decide +kernel), h.2.1.symm, rfl⟩
  · exact ⟨fun _ => rfl, (fun h => by cases h), (fun h => by cases h)⟩
  · rintro ⟨h, -⟩
    revert h; decide

/-! ## Example: rational numbers from the listed properties -/

/-- Not library code. -/
def ratOps : IdealOps ℚ := ⟨0, 1, (- ·), (· + ·), (· - ·), (· * ·), (· / ·), (· ≠ 0)⟩

theorem ratOps_listed : ratOps.Listed ∧ ratOps.Silent ∧ ratOps.zero ≤ ratOps.one := by
  refine ⟨⟨fun x h => neg_nonpos.2 h, fun _ _ => neg_le_neg, fun x y z h => add_le_add_left h z,
    fun x y z h h0 => mul_le_mul_of_nonneg_right h h0, fun x y h h' => ⟨one_div_pos.2 (h.trans_le h'), one_div_le_one_div_of_le h h'⟩⟩,
    ⟨add_comm, mul_comm, fun x => neg_neg (x : ℚ), neg_zero, fun x y => sub_eq_add_neg (x : ℚ) y, fun x y => neg_mul (x : ℚ) y, ?_, ?_,
      fun y => Iff.rfl⟩, zero_le_one⟩
  · intro x y _; change x / y = x * (1 / y); rw [mul_one_div]
  · intro y _; change 1 / -y = -(1 / y); rw [div_neg]

theorem rat_represents : Represents ratOps id :=
  ⟨fun a b => decide_eq_true_iff, fun a b => decide_eq_true_iff, fun a b => decide_eq_true_iff, Int.cast_zero, Int.cast_one,
    fun a b h => by cases h; rfl, rfl, (fun h => by cases h)⟩

theorem rat_kind : KindOk ℚ ratEnv.lib ratEnv.kind := fun _ => rat_modeFree _ fun _ _ _ _ => rfl

theorem rat_rounds : RoundsAround ratEnv ratOps id := by
  refine .of_sides rat_kind ?_
  have hd : ∀ {a b c : ℚ}, ofOpt (Num.div .near a b) = (.ok c : Res ℚ) → ratOps.divisor b ∧ c = a / b := by
    intro a b c h
    have h := ofOpt_ok h
    change (if b = 0 then none else some (a / b)) = _ at h
    split at h
    · cases h
    · next h0 => cases h; exact ⟨h0, rfl⟩
  exact ⟨fun h => by cases h; exact le_rfl, fun h => by cases h; exact le_rfl, fun h => by cases h; exact le_rfl,
    fun h => by cases h; exact le_rfl, fun h => by cases h; exact le_rfl, fun h => by cases h; exact le_rfl,
    fun h => ⟨(hd h).1, (hd h).2.le⟩, fun h => ⟨(hd h).1, (hd h).2.ge⟩⟩

example (e : Expr ℚ) (he : e.usesPow = false) (K : PiConst ℚ) {x : ℕ → Itv ℚ} {δ : ℕ → ℚ} (hx : ∀ i, (x i).Holds id (δ i)) {d : ℚ}
    (hd : e.Ideal ratOps id δ d) {s : ratEnv.State} (hs : ratEnv.Valid s) {z : Itv ℚ} (h : (e.eval K 0 ratEnv.P x s).1 = .ok z) :
    z.lower ≤ d ∧ d ≤ z.upper :=
  C74_listed ratOps_listed.1 ratOps_listed.2.1 ratOps_listed.2.2 rat_represents rat_rounds rat_kind (.inr rfl) e he K 0 hx hd hs h

end BI
