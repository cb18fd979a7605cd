import Verif.Props.Arith2
import Verif.Props.Ctor
import Verif.Props.Expr
import Verif.Proofs.NoInf
import Batteries.Lean.Except
/-!
# C57: base types without infinities

Where the exact result is unbounded, the code asks the checking policy for an infinite bound (checking.hpp 41-50). If the base
type has none, an assertion stops the program; with `NDEBUG` it does not, and the result is wrong.
-/

set_option linter.unusedSectionVars false

namespace BI
open Set NoInf

variable {T : Type} [Num T] [Val T] [NumLaws T] (V : Env T) {x y : Itv T} {t : T} {r : ℝ}

variable {V}

/-- `interval::whole()`. -/
theorem C57_whole (h : V.NoInf) : wholeI V.C = .error .assertion := whole_eq h

/-- Division by an interval that contains zero and another number, of an interval that is not `{0}`: the quotients are not
bounded, and the program stops. -/
theorem C57_div (hV : V.Directed) (h : V.NoInf) (hx : ∃ a ∈ γ x, a ≠ 0) (h0 : 0 ∈ γ y) (hy : ∃ b ∈ γ y, b ≠ 0) :
    V.Throws (divII V.P x y) .assertion := by
  obtain ⟨a₀, ha, ha0⟩ := hx
  obtain ⟨b₀, hb, hb0⟩ := hy
  obtain ⟨a, b, ix⟩ := has_of_mem ha
  obtain ⟨c, d, iy⟩ := has_of_mem hb
  obtain ⟨J, hJ⟩ := V.sim hV.kindOk
  exact V.throws_of (divII_sim hJ x y) (div_eq hV h ix iy (fun k => ha0 ((zero_bounds ix).1 k ha))
    (fun k => hb0 ((zero_bounds iy).1 k hb)) ((mem_zero_iff iy).1 h0))

/-- The exception, `{0}`, is returned as it is. -/
theorem C57_div_zero (hV : V.Directed) (hx : γ x = {0}) (h0 : 0 ∈ γ y) (hy : ∃ b ∈ γ y, b ≠ 0) :
    V.Returns (divII V.P x y) (· = x) := by
  obtain ⟨b₀, hb, hb0⟩ := hy
  obtain ⟨a, b, ix⟩ := has_of_nonempty (x := x) (by rw [hx]; exact ⟨0, rfl⟩)
  obtain ⟨c, d, iy⟩ := has_of_mem hb
  exact V.run hV (fun _ h => divII_sim h x y) (Post.of_eq (divZ_eq ix iy ((zero_bounds ix).2 hx.subset)
    (fun k => hb0 ((zero_bounds iy).1 k hb)) ((mem_zero_iff iy).1 h0)) rfl)

/-- The same for a number as dividend. -/
theorem C57_div_num (hV : V.Directed) (h : V.NoInf) (ht : val t = some (r : EReal)) (hr : r ≠ 0) (h0 : 0 ∈ γ y)
    (hy : ∃ b ∈ γ y, b ≠ 0) : V.Throws (divTI V.P t y) .assertion := by
  obtain ⟨b₀, hb, hb0⟩ := hy
  obtain ⟨c, d, iy⟩ := has_of_mem hb
  obtain ⟨J, hJ⟩ := V.sim hV.kindOk
  exact V.throws_of (divTI_sim hJ t y) (divT_eq hV h ht hr iy (fun k => hb0 ((zero_bounds iy).1 k hb)) ((mem_zero_iff iy).1 h0))

/-- `multiplicative_inverse`. -/
theorem C57_inverse (hV : V.Directed) (h : V.NoInf) (h0 : 0 ∈ γ y) (hy : ∃ b ∈ γ y, b ≠ 0) :
    V.Throws (multInv V.P y) .assertion := by
  obtain ⟨b₀, hb, hb0⟩ := hy
  obtain ⟨c, d, iy⟩ := has_of_mem hb
  obtain ⟨J, hJ⟩ := V.sim hV.kindOk
  exact V.throws_of (multInv_sim hJ y) (inv_eq' hV h iy (fun k => hb0 ((zero_bounds iy).1 k hb)) ((mem_zero_iff iy).1 h0))

/-- `pow` with a negative exponent. -/
theorem C57_pow (hV : V.Signed) (hV' : V.Directed) (h : V.NoInf) (h0 : 0 ∈ γ y) (hy : ∃ b ∈ γ y, b ≠ 0) {k : ℤ} (hk : k < 0)
    (hm : k ≠ -2147483648) : V.Throws (powI V.P y k) .assertion := by
  obtain ⟨b₀, hb, hb0⟩ := hy
  obtain ⟨c, d, iy⟩ := has_of_mem hb
  obtain ⟨J, hJ⟩ := V.sim hV.kindOk
  exact V.throws_of (powI_sim hJ y k) (pow_eq hV hV' h iy h0 ⟨b₀, hb, hb0⟩ hk hm)

/-! ## Release builds -/

/-- `interval<boost::rational<...> >` compiled with `NDEBUG`. -/
def ratRelease : Env ℚ := { ratEnv with ndebug := true }

/-- With `NDEBUG`, `[1, 2] / [-1, 1]`, `1 / [0, 1]` and the inverse of `[0, 1]` lose their quotients:
`numeric_limits<T>::infinity()` is `T()`, that is 0, for a type without infinity. -/
theorem C57_release :
    ratRelease.Returns (divII ratRelease.P (litI 1 2) (litI (-1) 1)) (· = litI 0 0) ∧
    ratRelease.Returns (divTI ratRelease.P 1 (litI 0 1)) (· = litI 1 0) ∧
    ratRelease.Returns (multInv ratRelease.P (litI 0 1)) (· = litI 1 0) ∧
    (1 : ℝ) ∈ γ (litI 1 2 : Itv ℚ) ∧ (1 : ℝ) ∈ γ (litI (-1) 1 : Itv ℚ) ∧ (1 / 1 : ℝ) ∉ γ (litI 0 0 : Itv ℚ) ∧
    (1 : ℝ) ∈ γ (litI 0 1 : Itv ℚ) ∧ (1 / 1 : ℝ) ∉ γ (litI 1 0 : Itv ℚ) := by
  obtain ⟨J, hJ⟩ := ratRelease.sim (fun _ => rat_modeFree _ fun _ _ _ _ => rfl)
  refine ⟨ratRelease.returns_of (divII_sim hJ _ _) (Post.of_eq (by decide +kernel) rfl),
    ratRelease.returns_of (divTI_sim hJ _ _) (Post.of_eq (by decide +kernel) rfl),
    ratRelease.returns_of (multInv_sim hJ _) (Post.of_eq (by decide +kernel) rfl), in_lit, in_lit, ?_, in_lit, ?_⟩
  · rw [mem_litI (by decide) (by decide)]; norm_num
  · rw [mem_litI (by decide) (by decide)]; norm_num

/-- So the enclosures of C04, C15, C17, C42 and C14 fail for these types and builds. -/
theorem C04_violated : ∃ z, ratRelease.Returns (divII ratRelease.P (litI 1 2) (litI (-1) 1)) (· = z) ∧
    ∃ a ∈ γ (litI 1 2 : Itv ℚ), ∃ b ∈ γ (litI (-1) 1 : Itv ℚ), b ≠ 0 ∧ a / b ∉ γ z :=
  ⟨_, C57_release.1, 1, in_lit, 1, in_lit, one_ne_zero, C57_release.2.2.2.2.2.1⟩

theorem C15_violated : ∃ z, ratRelease.Returns (multInv ratRelease.P (litI 0 1)) (· = z) ∧
    ∃ a ∈ γ (litI 0 1 : Itv ℚ), a ≠ 0 ∧ a⁻¹ ∉ γ z :=
  ⟨_, C57_release.2.2.1, 1, in_lit, one_ne_zero, by rw [← one_div]; exact C57_release.2.2.2.2.2.2.2⟩

theorem C17_violated : ∃ p z, ratRelease.Returns (divisionPart1 ratRelease.P (litI 1 2) (litI (-1) 1)) (· = p) ∧ p.2 = true ∧
    ratRelease.Returns (divisionPart2 ratRelease.P (litI 1 2) (litI (-1) 1) true) (· = z) ∧
    ∃ a ∈ γ (litI 1 2 : Itv ℚ), ∃ b ∈ γ (litI (-1) 1 : Itv ℚ), b ≠ 0 ∧ a / b ∉ γ p.1 ∪ γ z := by
  obtain ⟨J, hJ⟩ := ratRelease.sim (fun _ => rat_modeFree _ fun _ _ _ _ => rfl)
  refine ⟨(litI 0 (-1), true), litI 1 0, ratRelease.returns_of (divisionPart1_sim hJ _ _) (Post.of_eq (by decide +kernel) rfl), rfl,
    ratRelease.returns_of (divisionPart2_sim hJ _ _ _) (Post.of_eq (by decide +kernel) rfl), 1, in_lit, 1, in_lit, one_ne_zero, ?_⟩
  rintro (h | h)
  · rw [mem_litI (by decide) (by decide)] at h; norm_num at h
  · rw [mem_litI (by decide) (by decide)] at h; norm_num at h

theorem C42_violated : ∃ z, ratRelease.Returns (divIntI ratRelease.P 1 (litI 0 1)) (· = z) ∧
    ∃ b ∈ γ (litI 0 1 : Itv ℚ), b ≠ 0 ∧ ((1 : ℤ) : ℝ) / b ∉ γ z := by
  obtain ⟨J, hJ⟩ := ratRelease.sim (fun _ => rat_modeFree _ fun _ _ _ _ => rfl)
  refine ⟨litI 1 0, ?_, 1, in_lit, one_ne_zero, by simpa using C57_release.2.2.2.2.2.2.2⟩
  have h : IntIs (1 : ℤ) (1 : ℚ) := ⟨fun _ => rfl, by simp [val, Val.val]⟩
  rw [(C42_same ratRelease (fun _ => rat_modeFree _ fun _ _ _ _ => rfl) h).2.2.2.2.2.2.2]
  exact C57_release.2.1

theorem C14_violated : ∃ (e : Expr ℚ) (z : Itv ℚ), (∀ K fuel, ratRelease.Returns (e.eval K fuel ratRelease.P fun _ => litI 0 1) (· = z)) ∧
    ∃ (v : ℕ → ℝ) (r : ℝ), (∀ i, v i ∈ γ (litI 0 1 : Itv ℚ)) ∧ e.Value v r ∧ r ∉ γ z := by
  refine ⟨.un .inv (.var 0), litI 1 0, fun _ _ => C57_release.2.2.1, fun _ => 1, 1, fun _ => in_lit, ⟨1, rfl, one_ne_zero, by simp⟩, ?_⟩
  have := C57_release.2.2.2.2.2.2.2
  rwa [one_div_one] at this

/-! ## The hypotheses can be met -/

example : ratEnv.NoInf := ⟨rfl, rfl⟩
example : ratEnv.Throws (divII ratEnv.P (litI 1 2) (litI (-1) 1)) .assertion :=
  C57_div ratEnv_directed ⟨rfl, rfl⟩ ⟨1, in_lit, one_ne_zero⟩ in_lit ⟨1, in_lit, one_ne_zero⟩
example : ratEnv.Throws (powI ratEnv.P (litI 0 2) (-3)) .assertion :=
  C57_pow (ratEnv.rat_ok rfl (fun _ _ _ _ => rfl) _ _) ratEnv_directed ⟨rfl, rfl⟩ in_lit ⟨1, in_lit, one_ne_zero⟩ (by decide) (by decide)
example : ratEnv.Returns (divII ratEnv.P (litI 0 0) (litI 0 2)) (· = litI 0 0) :=
  C57_div_zero ratEnv_directed (gamma_single val_zero) in_lit ⟨1, in_lit, one_ne_zero⟩

end BI
