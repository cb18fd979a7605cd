import Verif.Model.Exact
import Verif.Proofs.FloatLaws
import Verif.Proofs.PlatformLaws
import Verif.Proofs.Bridge
/-! # Environments that satisfy the hypotheses of the theorems -/

set_option linter.unusedSectionVars false

namespace BI

/-! ## IEEE -/
section
variable {f : Fmt}

theorem fl_directed : DirectedBase (Fl f) where
  neg a := by intro h; cases h
  add a b x y ha hb ok r := by
    obtain ⟨c, z, h1, h2, h3, h4⟩ := fl_tight.add a b x y ha hb ok r
    exact ⟨c, z, h1, h2, fun h => (h3 h).2.1, fun h => (h4 h).2.1⟩
  sub a b x y ha hb ok r := by
    obtain ⟨c, z, h1, h2, h3, h4⟩ := fl_tight.sub a b x y ha hb ok r
    exact ⟨c, z, h1, h2, fun h => (h3 h).2.1, fun h => (h4 h).2.1⟩
  mul a b x y ha hb ok r := by
    obtain ⟨c, z, h1, h2, h3, h4⟩ := fl_tight.mul a b x y ha hb ok r
    exact ⟨c, z, h1, h2, fun h => (h3 h).2.1, fun h => (h4 h).2.1⟩
  div a b x y ha hb ok r := by
    obtain ⟨c, z, h1, h2, h3, h4⟩ := fl_tight.div a b x y ha hb ok r
    exact ⟨c, z, h1, h2, fun h => (h3 h).2.1, fun h => (h4 h).2.1⟩

/-- Every environment over a floating-point format that switches rounding directions is correctly rounded. -/
theorem Env.fl_tight (V : Env (Fl f)) (h : V.kind ≠ .exact) : V.Tight := .inl ⟨h, BI.fl_tight⟩
theorem Env.fl_directed (V : Env (Fl f)) (h : V.kind ≠ .exact) : V.Directed := .inl ⟨h, BI.fl_directed⟩

/-- The default configuration of `interval<double>` on x86-64 with glibc (hw_rounding.hpp 20-22, 59-62). -/
def dbl : Env (Fl Fmt.double) where
  ctl := c99 Unit feGlibc
  laws := c99_laws Unit feGlibc feGlibc_inj
  kind := .opp
  lib := fun _ _ x => some x
  checks := .strict
  ndebug := true

theorem dbl_tight : dbl.Tight := dbl.fl_tight (by decide)
theorem dbl_directed : dbl.Directed := dbl.fl_directed (by decide)

/-- A configuration that switches directions for each operation and represents empty intervals, on the x87. -/
def flt : Env (Fl Fmt.single) where
  ctl := x86gcc
  laws := x86gcc_laws
  kind := .std
  lib := fun _ _ x => some x
  checks := .catchNan .base
  ndebug := false

theorem flt_tight : flt.Tight := flt.fl_tight (by decide)
theorem flt_directed : flt.Directed := flt.fl_directed (by decide)
end

/-! ## Rationals -/

instance : NumLaws ℚ where
  lt_iff a b := by
    change decide (a < b) = true ↔ _
    rw [decide_eq_true_iff]
    constructor
    · intro h; exact ⟨_, _, rfl, rfl, by exact_mod_cast h⟩
    · rintro ⟨x, y, h1, h2, h3⟩; cases h1; cases h2; exact_mod_cast h3
  le_iff a b := by
    change decide (a ≤ b) = true ↔ _
    rw [decide_eq_true_iff]
    constructor
    · intro h; exact ⟨_, _, rfl, rfl, by exact_mod_cast h⟩
    · rintro ⟨x, y, h1, h2, h3⟩; cases h1; cases h2; exact_mod_cast h3
  eq_iff a b := by
    change decide (a = b) = true ↔ _
    rw [decide_eq_true_iff]
    constructor
    · rintro rfl; exact ⟨_, rfl, rfl⟩
    · rintro ⟨x, h1, h2⟩
      rw [← h1] at h2
      have : ((b : ℝ) : EReal) = ((a : ℝ) : EReal) := by injection h2
      exact_mod_cast this.symm
  lit n _ := by
    change some (((n : ℚ) : ℝ) : EReal) = _
    push_cast; rfl
  neg a b h := by
    cases h
    change some (((-a : ℚ) : ℝ) : EReal) = some (-((a : ℝ) : EReal))
    push_cast; rfl
  nan h := by cases h
  noNan _ a h := by cases h
  inf h := by cases h

theorem rat_exact : ExactBase ℚ where
  neg a h := by cases h
  add a b x y ha hb _ := ⟨a + b, fun _ => rfl, by cases ha; cases hb; change some _ = some _; push_cast; rfl⟩
  sub a b x y ha hb _ := ⟨a - b, fun _ => rfl, by cases ha; cases hb; change some _ = some _; push_cast; rfl⟩
  mul a b x y ha hb _ := ⟨a * b, fun _ => rfl, by cases ha; cases hb; change some _ = some _; push_cast; rfl⟩
  div a b x y ha hb h := by
    cases ha; cases hb
    have hb : b ≠ 0 := fun h0 => h.1 (by rw [h0]; simp)
    refine ⟨a / b, fun _ => if_neg hb, ?_⟩
    change some _ = some _
    rw [Rat.cast_div, EReal.coe_div]

/-- An `interval` over rational numbers with the default rounding policy. -/
def ratEnv : Env ℚ where
  ctl := c99 Unit feGlibc
  laws := c99_laws Unit feGlibc feGlibc_inj
  kind := .exact
  lib := fun _ _ _ => none
  checks := .strict
  ndebug := false

theorem rat_modeFree (lib : Lib ℚ) (h : ∀ f (x : ℚ) a b, lib f a x = lib f b x) : ModeFree ℚ lib :=
  ⟨fun _ _ _ _ => rfl, fun _ _ _ _ => rfl, fun _ _ _ _ => rfl, fun _ _ _ _ => rfl, fun _ _ _ => rfl, h⟩

theorem Env.rat_ok (V : Env ℚ) (hk : V.kind = .exact) (h : ∀ f (x : ℚ) a b, V.lib f a x = V.lib f b x)
    (D U : EReal → EReal → Prop) : V.Ok D U := .inr ⟨hk, rat_exact, rat_modeFree _ h⟩

theorem ratEnv_tight : ratEnv.Tight := ratEnv.rat_ok rfl (fun _ _ _ _ => rfl) _ _
theorem ratEnv_directed : ratEnv.Directed := ratEnv.rat_ok rfl (fun _ _ _ _ => rfl) _ _

/-! ## For the examples -/

/-- `[a, b]` between literals contains a point. -/
macro "ne_lit" : term => `(litI_nonempty (by decide) (by decide) (by decide))
/-- A point is in the interval between two literals. -/
macro "in_lit" : term => `((mem_litI (by decide) (by decide)).2 (by norm_num))

theorem rat_bounded (x : Itv ℚ) : Bornology.IsBounded (γ x) := by
  have : γ x ⊆ Set.Icc (x.lower : ℝ) (x.upper : ℝ) := by
    rintro r ⟨l, u, h1, h2, h3, h4⟩
    cases h1; cases h2
    exact ⟨EReal.coe_le_coe_iff.1 h3, EReal.coe_le_coe_iff.1 h4⟩
  exact (Metric.isBounded_Icc _ _).subset this

end BI
