import Verif.Proofs.DocSign
import Verif.Proofs.Instances
import Verif.Props.NoEmpty
import Verif.Props.Twin
/-!
# C91: the sign of a polynomial, the example of doc/examples.htm

`signPoly` is the first version of the program (protected intervals), `signPolyFast` the second (a rounding object that
lives during the whole function, unprotected intervals). The polynomial has the `n` coefficients `c 0, ..., c (n-1)`. -/

namespace BI
open Set

section
variable {T : Type} [Num T] [Val T] [NumLaws T] (V : Env T) {x : T} {p : ℕ → T} {c : ℕ → ℝ} {t : ℝ} {n : ℕ}

/-- Both versions return from every state and leave the rounding mode as it was; an answer other than 0 is the sign of the
polynomial at the point. -/
theorem C91_sign (hV : V.Directed) (hn : 0 < n) (hx : val x = some (t : EReal)) (hp : ∀ i < n, val (p i) = some (c i : EReal)) :
    V.Returns (signPoly V.P x p n) (fun s => (s = 1 ∧ 0 < ∑ i ∈ Finset.range n, c i * t ^ i) ∨
      (s = -1 ∧ ∑ i ∈ Finset.range n, c i * t ^ i < 0) ∨ s = 0) ∧
    V.Returns (signPolyFast V.P x p n) (fun s => (s = 1 ∧ 0 < ∑ i ∈ Finset.range n, c i * t ^ i) ∨
      (s = -1 ∧ ∑ i ∈ Finset.range n, c i * t ^ i < 0) ∨ s = 0) := by
  have h := signPoly_rp (ex := False) hV (fun h => h.elim) hn hx hp
  rw [hval_zero] at h
  have h' := h.mono fun s hs => hs.imp id (Or.imp id And.left)
  exact ⟨V.run hV (fun _ h => signPoly_sim h x p n) h', V.run hV (fun _ h => signPolyFast_sim h x p n) h'⟩

/-- For all inputs (infinite numbers and NaN too, and any `sz`) the two versions have the same outcome, from every two
states, and leave the control word as it was. -/
theorem C91_same (hV : V.Directed) (x : T) (p : ℕ → T) (sz : Int) (s s' : V.State) (hs : V.Valid s) (hs' : V.Valid s') :
    (signPoly V.P x p sz s).1 = (signPolyFast V.P x p sz s').1 ∧
    (signPoly V.P x p sz s).2.cw = s.cw ∧ (signPolyFast V.P x p sz s').2.cw = s'.cw := by
  obtain ⟨J, hJ⟩ := V.sim hV.kindOk
  have h1 := signPoly_sim hJ x p sz s hs
  have h2 := signPolyFast_sim hJ x p sz s' hs'
  exact ⟨h1.1.trans h2.1.symm, h1.2.1.symm, h2.2.1.symm⟩

/-- With exact arithmetic the answer is the sign. -/
theorem C91_exact (hV : V.Ok Eq Eq) (hn : 0 < n) (hx : val x = some (t : EReal)) (hp : ∀ i < n, val (p i) = some (c i : EReal)) :
    V.Returns (signPoly V.P x p n) (fun s => (s = 1 ∧ 0 < ∑ i ∈ Finset.range n, c i * t ^ i) ∨
      (s = -1 ∧ ∑ i ∈ Finset.range n, c i * t ^ i < 0) ∨ (s = 0 ∧ ∑ i ∈ Finset.range n, c i * t ^ i = 0)) ∧
    V.Returns (signPolyFast V.P x p n) (fun s => (s = 1 ∧ 0 < ∑ i ∈ Finset.range n, c i * t ^ i) ∨
      (s = -1 ∧ ∑ i ∈ Finset.range n, c i * t ^ i < 0) ∨ (s = 0 ∧ ∑ i ∈ Finset.range n, c i * t ^ i = 0)) := by
  have hD : V.Directed := Env.Ok.mono hV (fun h => h.le) (fun h => h.ge)
  have h := signPoly_rp (ex := True) hD (fun _ => hV) hn hx hp
  rw [hval_zero] at h
  have h' := h.mono (fun s hs => hs.imp id (Or.imp id fun h => And.intro h.1 (h.2 trivial)))
  exact ⟨V.run hD (fun _ h => signPoly_sim h x p n) h', V.run hD (fun _ h => signPolyFast_sim h x p n) h'⟩

/-- Rounding outwards to the nearest numbers, the answer is the sign if every intermediate value of Horner's rule is
representable. -/
theorem C91_representable (hV : V.Tight) (hn : 0 < n) (hx : val x = some (t : EReal))
    (hp : ∀ i < n, val (p i) = some (c i : EReal))
    (h1 : ∀ k < n, Representable T ((∑ i ∈ Finset.Ico k n, c i * t ^ (i - k) : ℝ) : EReal))
    (h2 : ∀ k < n, Representable T (((∑ i ∈ Finset.Ico k n, c i * t ^ (i - k)) * t : ℝ) : EReal)) :
    V.Returns (signPoly V.P x p n) (fun s => (s = 1 ∧ 0 < ∑ i ∈ Finset.range n, c i * t ^ i) ∨
      (s = -1 ∧ ∑ i ∈ Finset.range n, c i * t ^ i < 0) ∨ (s = 0 ∧ ∑ i ∈ Finset.range n, c i * t ^ i = 0)) ∧
    V.Returns (signPolyFast V.P x p n) (fun s => (s = 1 ∧ 0 < ∑ i ∈ Finset.range n, c i * t ^ i) ∨
      (s = -1 ∧ ∑ i ∈ Finset.range n, c i * t ^ i < 0) ∨ (s = 0 ∧ ∑ i ∈ Finset.range n, c i * t ^ i = 0)) := by
  have h := signPoly_pt hV hn hx hp h1 h2
  rw [hval_zero] at h
  exact ⟨V.run hV (fun _ h => signPoly_sim h x p n) h, V.run hV (fun _ h => signPolyFast_sim h x p n) h⟩

/-- A policy that detects NaN and allows empty intervals: a NaN among the coefficients makes both versions throw. -/
theorem C91_nan (hV : V.Directed) (hE : V.checks.forbidsEmpty = false) (hN : V.checks.seesNan = true) {j : ℕ} (hj : j < n)
    (hx : val x = some (t : EReal)) (hnan : val (p j) = none) (hp : ∀ i, j < i → i < n → val (p i) = some (c i : EReal)) :
    V.Throws (signPoly V.P x p n) .comparison ∧ V.Throws (signPolyFast V.P x p n) .comparison := by
  obtain ⟨J, hJ⟩ := V.sim hV.kindOk
  have h := signPoly_nan hV hE hN hj hx hnan hp
  exact ⟨V.throws_of (signPoly_sim hJ x p n) h, V.throws_of (signPolyFast_sim hJ x p n) h⟩

/-- The same for the point, if there are at least two coefficients. -/
theorem C91_nan_point (hV : V.Directed) (hE : V.checks.forbidsEmpty = false) (hN : V.checks.seesNan = true) (hn : 2 ≤ n)
    (hx : val x = none) :
    V.Throws (signPoly V.P x p n) .comparison ∧ V.Throws (signPolyFast V.P x p n) .comparison := by
  obtain ⟨J, hJ⟩ := V.sim hV.kindOk
  have h := signPoly_nanX (p := p) hE hN hn hx
  exact ⟨V.throws_of (signPoly_sim hJ x p n) h, V.throws_of (signPolyFast_sim hJ x p n) h⟩

/-- Without coefficients the program reads outside the array. -/
theorem C91_empty (hV : V.Directed) (x : T) (p : ℕ → T) {sz : Int} (h : sz ≤ 0) :
    V.Throws (signPoly V.P x p sz) .ub ∧ V.Throws (signPolyFast V.P x p sz) .ub := by
  obtain ⟨J, hJ⟩ := V.sim hV.kindOk
  have e : signPoly V.pp x p sz = .error .ub := by
    unfold signPoly
    rw [Int.toNat_of_nonpos h]
    rfl
  exact ⟨V.throws_of (signPoly_sim hJ x p sz) e, V.throws_of (signPolyFast_sim hJ x p sz) e⟩
end

/-- The number of writes to the rounding mode (with the opposite trick, and a policy that detects neither empty intervals
nor NaN): four for each coefficient but one in the first version, two in the second version whatever the outcome. -/
theorem C91_writes {T : Type} [Num T] (c : Ctl) (lib : Lib T) (C : Checking T) (hC : ∀ a b, C.isEmpty a b = .ok false)
    (hN : ∀ a, C.isNan a = .ok false) (x : T) (p : ℕ → T) (s : St c.counting.W) :
    (∀ (n : ℕ) (z : Int), 0 < n → (signPoly (protPolicies c.counting .opp lib C) x p n s).1 = .ok z →
      Writes (signPoly (protPolicies c.counting .opp lib C) x p n) s (4 * (n - 1))) ∧
    (∀ sz : Int, Writes (signPolyFast (protPolicies c.counting .opp lib C) x p sz) s 2) := by
  refine ⟨fun n z hn hz => ?_, fun sz => ?_⟩
  · obtain ⟨n, rfl⟩ := Nat.exists_eq_succ_of_ne_zero hn.ne'
    exact signPoly_spends lib C hC hN x p n s z hz
  · exact congrArg Prod.snd (region_writes (arithOf c.counting .opp lib)
      (signPoly_cost (oppPolicies_cost lib C) rfl x p sz) s)

/-! ## Witnesses -/

/-- The coefficients `l`, then `d`. -/
private def coefs {T : Type} (d : T) (l : List T) (i : ℕ) : T := l.getD i d

/-- The answer 0 does not mean that the polynomial is zero: -2^60 + 2^60 x + x^2 at 1, in double precision. -/
theorem C91_unknown :
    let p : ℕ → Fl Fmt.double := coefs .nan [Fl.ofInt .near (-2 ^ 60), Fl.ofInt .near (2 ^ 60), Fl.ofInt .near 1]
    (signPoly dbl.P (Fl.ofInt .near 1) p 3 dblNear).1 = .ok 0 ∧ (signPolyFast dbl.P (Fl.ofInt .near 1) p 3 dblNear).1 = .ok 0 ∧
    (signPoly ratEnv.P 1 (coefs 0 [-2 ^ 60, 2 ^ 60, 1]) 3 (⟨(⟨.near, ()⟩ : FEnv Unit), fun _ => true⟩ : ratEnv.State)).1 = .ok 1 := by
  decide +kernel

/-- The default policy does not look for NaN: a NaN coefficient leads to the answer 0, except at the point 0, where the
product of NaN and 0 is the interval [0,0] (arith.hpp 237-238). -/
theorem C91_nan_default :
    (signPoly dbl.P (Fl.ofInt .near 2) (coefs .nan [Fl.ofInt .near 1, .nan]) 2 dblNear).1 = .ok 0 ∧
    (signPoly dbl.P (Fl.ofInt .near 0) (coefs .nan [Fl.ofInt .near 1, .nan]) 2 dblNear).1 = .ok 1 := by
  decide +kernel

/-! ## Examples -/

section
variable {T : Type} [Num T] [Val T] [NumLaws T]

private theorem lit_coef {n : ℕ} (hn : n ≤ 8) (i : ℕ) (hi : i < n) :
    val (Num.lit ((i : ℤ) - 1) : T) = some ((((i : ℤ) - 1 : ℤ) : ℝ) : EReal) := by
  rw [NumLaws.lit _ (by rw [abs_le]; constructor <;> omega)]

private theorem lit_two : val (Num.lit 2 : T) = some ((2 : ℝ) : EReal) := by
  rw [NumLaws.lit 2 (by decide)]; norm_num

private theorem lit_rep (k : ℤ) (hk : |k| ≤ 7) : Representable T (((k : ℤ) : ℝ) : EReal) := ⟨Num.lit k, NumLaws.lit k hk⟩
end

/-! The polynomial -1 + 0 x + x^2 + ... at 2. -/

example := C91_sign dbl dbl_directed (n := 8) (by decide) lit_two (lit_coef (by decide))
example := C91_exact ratEnv (ratEnv.rat_ok rfl (fun _ _ _ _ => rfl) _ _) (n := 8) (by decide) lit_two (lit_coef (by decide))
example := C91_representable dbl dbl_tight (n := 3) (by decide) lit_two (lit_coef (by decide))
  (fun k hk => by
    have : ∑ i ∈ Finset.Ico k 3, (((i : ℤ) - 1 : ℤ) : ℝ) * 2 ^ (i - k) = ((3 - k : ℤ) : ℝ) := by
      interval_cases k <;> norm_num [Finset.sum_Ico_eq_sum_range, Finset.sum_range_succ]
    rw [this]
    exact lit_rep _ (by interval_cases k <;> decide))
  (fun k hk => by
    have : (∑ i ∈ Finset.Ico k 3, (((i : ℤ) - 1 : ℤ) : ℝ) * 2 ^ (i - k)) * 2 = ((6 - 2 * k : ℤ) : ℝ) := by
      interval_cases k <;> norm_num [Finset.sum_Ico_eq_sum_range, Finset.sum_range_succ]
    rw [this]
    exact lit_rep _ (by interval_cases k <;> decide))

example : (signPoly dbl.P (Num.lit 2) (fun i => Num.lit ((i : ℤ) - 1)) 3 dblNear).1 = .ok 1 ∧
    (signPoly dbl.P (Num.lit 0) (fun i => Num.lit ((i : ℤ) - 1)) 3 dblNear).1 = .ok (-1) ∧
    (signPolyFast dbl.P (Num.lit 1) (fun i => Num.lit ((i : ℤ) - 1)) 3 dblNear).1 = .ok 0 := by decide +kernel

example := C91_same dbl dbl_directed .nan (fun _ => .nan) 3 dblNear ⟨(⟨.up, ()⟩ : FEnv Unit), fun _ => true⟩ (by trivial)
  (by trivial)
example := C91_nan dblBare (dblBare.fl_directed (by decide)) rfl rfl (n := 3) (j := 1) (x := Num.lit 2) (t := 2)
  (p := coefs .nan [Fl.ofInt .near 1, .nan, Num.lit 3]) (c := fun _ => 3) (by decide) lit_two rfl fun i h1 h2 => by
    obtain rfl : i = 2 := by omega
    exact (NumLaws.lit 3 (by decide)).trans (by norm_num)
example := C91_nan_point dblBare (dblBare.fl_directed (by decide)) rfl rfl (n := 2) (x := .nan) (p := fun _ => .nan) le_rfl rfl
example := C91_empty flt flt_directed (.nan) (fun _ => .nan) (sz := 0) le_rfl

/-! The hypotheses of `C91_writes`: the default policy. -/

private abbrev glibc : Ctl := c99 Unit feGlibc
private abbrev strict : Checking (Fl Fmt.double) := ChkSpec.strict.eval _ true
private abbrev opp := protPolicies glibc.counting .opp (fun _ _ (x : Fl Fmt.double) => some x) strict

example := C91_writes glibc (fun _ _ (x : Fl Fmt.double) => some x) strict (fun _ _ => rfl) fun _ => rfl
example : (signPoly opp (Num.lit 2) (fun i => Num.lit ((i : ℤ) - 1)) 3 ⟨(⟨.near, ()⟩, 0), fun n => n % 2 == 0⟩).1 = .ok 1 := by
  decide +kernel

end BI
