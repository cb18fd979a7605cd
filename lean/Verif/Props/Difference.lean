import Verif.Props.Compare
import Verif.Props.Store
import Verif.Props.Arith
/-!
# C65: comparing and subtracting

Instead of comparing `x` with `y` a program may compare `x - y` with zero. For base types with gradual underflow (all
IEEE formats, exact types) the answers are the same, for all relations and all comparison operators, those that throw
or answer "indeterminate" included.
-/

set_option linter.unusedSectionVars false

namespace BI
open Set

variable {T : Type} [Num T] [Val T] [NumLaws T] (V : Env T) {x y z : Itv T}

/-- Between the difference of two numbers of the type and zero there is always a number of the type, possibly the
difference itself, and its opposite is one, too. -/
def Gradual (T : Type) [Val T] : Prop :=
  ∀ a b : ℝ, Representable T (a : EReal) → Representable T (b : EReal) → a < b →
    ∃ c : ℝ, 0 < c ∧ c ≤ b - a ∧ Representable T (c : EReal) ∧ Representable T ((-c : ℝ) : EReal)

/-! ## Proofs -/

private def Diff (x y : Itv T) : Set ℝ := {q | ∃ a ∈ γ x, ∃ b ∈ γ y, a - b = q}

private theorem mem_cut_up {t : T} {c q : ℝ} (ht : val t = some (c : EReal)) (hq : q ∈ γ z) (h : q ≤ c) :
    q ∈ γ (⟨z.lower, t⟩ : Itv T) := by
  obtain ⟨a, b, h1, h2, h3, h4⟩ := hq
  exact ⟨a, c, h1, ht, h3, by exact_mod_cast h⟩

private theorem mem_cut_lo {t : T} {c q : ℝ} (ht : val t = some (c : EReal)) (hq : q ∈ γ z) (h : c ≤ q) :
    q ∈ γ (⟨t, z.upper⟩ : Itv T) := by
  obtain ⟨a, b, h1, h2, h3, h4⟩ := hq
  exact ⟨c, b, ht, h2, by exact_mod_cast h, h4⟩

private theorem le_of_all {c : ℝ} (hc : Representable T (c : EReal)) {S : Set ℝ} (hz : SmallestEnclosure z S)
    (h : ∀ q ∈ S, q ≤ c) : ∀ q ∈ γ z, q ≤ c := by
  obtain ⟨t, ht⟩ := hc
  intro q hq
  obtain ⟨a, b, h1, h2, h3, h4⟩ := (hz.2 ⟨z.lower, t⟩ fun p hp => mem_cut_up ht (hz.1 hp) (h p hp)).1 hq
  have : val t = some b := h2
  rw [ht] at this; cases this
  exact_mod_cast h4

private theorem ge_of_all {c : ℝ} (hc : Representable T (c : EReal)) {S : Set ℝ} (hz : SmallestEnclosure z S)
    (h : ∀ q ∈ S, c ≤ q) : ∀ q ∈ γ z, c ≤ q := by
  obtain ⟨t, ht⟩ := hc
  intro q hq
  obtain ⟨a, b, h1, h2, h3, h4⟩ := (hz.2 ⟨t, z.upper⟩ fun p hp => mem_cut_lo ht (hz.1 hp) (h p hp)).1 hq
  have : val t = some a := h1
  rw [ht] at this; cases this
  exact_mod_cast h3

/-- Two intervals one of which is below the other have a gap between two numbers of the type. -/
private theorem gap (hx : (γ x).Nonempty) (hy : (γ y).Nonempty) (h : ∀ p ∈ γ x, ∀ q ∈ γ y, p < q) :
    ∃ a b : ℝ, Representable T (a : EReal) ∧ Representable T (b : EReal) ∧ a < b ∧ (∀ p ∈ γ x, p ≤ a) ∧
      ∀ q ∈ γ y, b ≤ q := by
  obtain ⟨a, b, ix⟩ := has_of_nonempty hx
  obtain ⟨c, d, iy⟩ := has_of_nonempty hy
  have hlt : b < c := (always_iff .lt ix iy).1 h
  have hb : b ≠ ⊥ := ix.ne_bot
  have hb' : b ≠ ⊤ := ne_top_of_lt hlt
  have hc : c ≠ ⊤ := iy.ne_top
  have hc' : c ≠ ⊥ := ne_bot_of_gt hlt
  lift b to ℝ using ⟨hb', hb⟩
  lift c to ℝ using ⟨hc, hc'⟩
  exact ⟨b, c, ⟨_, ix.up⟩, ⟨_, iy.lo⟩, by exact_mod_cast hlt, fun p hp => by exact_mod_cast ix.ub hp,
    fun q hq => by exact_mod_cast iy.lb hq⟩

private theorem rep_zero' : Representable T ((0 : ℝ) : EReal) := ⟨Num.lit 0, val_zero⟩

private theorem always_diff (hG : Gradual T) (hx : (γ x).Nonempty) (hy : (γ y).Nonempty)
    (hz : SmallestEnclosure z (Diff x y)) (r : Rel) : Always r (γ x) (γ y) ↔ Always r (γ z) {0} := by
  have hin : ∀ p ∈ γ x, ∀ q ∈ γ y, p - q ∈ γ z := fun p hp q hq => hz.1 ⟨p, hp, q, hq, rfl⟩
  have hlt : (∀ p ∈ γ x, ∀ q ∈ γ y, p < q) → ∀ p ∈ γ z, p < 0 := fun h => by
    obtain ⟨a, b, ha, hb, hab, h1, h2⟩ := gap hx hy h
    obtain ⟨c, h0, hc, -, hr⟩ := hG a b ha hb hab
    intro p hp
    have := le_of_all hr hz (by
      rintro _ ⟨s, hs, t, ht, rfl⟩
      have := h1 s hs; have := h2 t ht; linarith) p hp
    linarith
  have hgt : (∀ p ∈ γ x, ∀ q ∈ γ y, p > q) → ∀ p ∈ γ z, p > 0 := fun h => by
    obtain ⟨a, b, ha, hb, hab, h1, h2⟩ := gap hy hx (fun p hp q hq => h q hq p hp)
    obtain ⟨c, h0, hc, hr, -⟩ := hG a b ha hb hab
    intro p hp
    have := ge_of_all hr hz (by
      rintro _ ⟨s, hs, t, ht, rfl⟩
      have := h1 t ht; have := h2 s hs; linarith) p hp
    linarith
  have hle : (∀ p ∈ γ x, ∀ q ∈ γ y, p ≤ q) → ∀ p ∈ γ z, p ≤ 0 := fun h => le_of_all rep_zero' hz (by
    rintro _ ⟨s, hs, t, ht, rfl⟩
    have := h s hs t ht; linarith)
  have hge : (∀ p ∈ γ x, ∀ q ∈ γ y, p ≥ q) → ∀ p ∈ γ z, p ≥ 0 := fun h => ge_of_all rep_zero' hz (by
    rintro _ ⟨s, hs, t, ht, rfl⟩
    have := h s hs t ht; linarith)
  unfold Always
  simp only [mem_singleton_iff, forall_eq]
  cases r <;> unfold Rel.holds
  · exact ⟨hlt, fun h p hp q hq => by have := h _ (hin p hp q hq); linarith⟩
  · exact ⟨hle, fun h p hp q hq => by have := h _ (hin p hp q hq); linarith⟩
  · exact ⟨hgt, fun h p hp q hq => by have := h _ (hin p hp q hq); linarith⟩
  · exact ⟨hge, fun h p hp q hq => by have := h _ (hin p hp q hq); linarith⟩
  · refine ⟨fun h p hp => le_antisymm (hle (fun p hp q hq => (h p hp q hq).le) p hp)
      (hge (fun p hp q hq => (h p hp q hq).ge) p hp), fun h p hp q hq => by have := h _ (hin p hp q hq); linarith⟩
  · refine ⟨fun h => ?_, fun h p hp q hq e => h _ (hin p hp q hq) (by linarith)⟩
    obtain ⟨a, b, ix⟩ := has_of_nonempty hx
    obtain ⟨c, d, iy⟩ := has_of_nonempty hy
    rcases (always_iff .ne ix iy).1 h with h' | h'
    · first
        | exact fun p hp => (hlt ((always_iff .lt ix iy).2 h') p hp).ne
        | exact fun p hp => (hgt ((always_iff .gt ix iy).2 h') p hp).ne'
    · first
        | exact fun p hp => (hlt ((always_iff .lt ix iy).2 h') p hp).ne
        | exact fun p hp => (hgt ((always_iff .gt ix iy).2 h') p hp).ne'

private theorem sometimes_diff (hG : Gradual T) (hx : (γ x).Nonempty) (hy : (γ y).Nonempty)
    (hz : SmallestEnclosure z (Diff x y)) (r : Rel) : Sometimes r (γ x) (γ y) ↔ Sometimes r (γ z) {0} := by
  rw [sometimes_iff, sometimes_iff, always_diff hG hx hy hz]

/-! ## C65 -/

/-- The relation holds between all points, or between some, of `x` and `y` if and only if it does between the points of
the computed difference and zero. -/
theorem C65_sets (hV : V.Tight) (hG : Gradual T) (hx : (γ x).Nonempty) (hy : (γ y).Nonempty) :
    V.Returns (subII V.P x y) fun z => (γ z).Nonempty ∧ ∀ r,
      (Always r (γ x) (γ y) ↔ Always r (γ z) {0}) ∧ (Sometimes r (γ x) (γ y) ↔ Sometimes r (γ z) {0}) :=
  (C12_sub V hV hx hy).mono fun z hz => ⟨(hx.image2 hy).mono hz.1, fun r => ⟨always_diff hG hx hy hz r, sometimes_diff hG hx hy hz r⟩⟩

/-- The operators of the library: the built-in ones with their exception, `tribool`, `certain`, `possible`, and the
explicit functions. -/
theorem C65_operators (hV : V.Tight) (hG : Gradual T) (hx : (γ x).Nonempty) (hy : (γ y).Nonempty) :
    V.Returns (subII V.P x y) fun z => ∀ r,
      cmpII r V.C V.C x y = cmpIT r V.C z (Num.lit 0) ∧ triII r V.C V.C x y = triIT r V.C z (Num.lit 0) ∧
      certainII r V.C V.C x y = certainIT r V.C z (Num.lit 0) ∧
      possibleII r V.C V.C x y = possibleIT r V.C z (Num.lit 0) ∧
      cerII r x y = cerIT r z (Num.lit 0) ∧ posII r x y = posIT r z (Num.lit 0) := by
  refine (C65_sets V hV hG hx hy).mono fun z hz r => ?_
  obtain ⟨hne, h⟩ := hz
  obtain ⟨h1, h2⟩ := h r
  have h0 : val (Num.lit 0 : T) = some ((0 : ℝ) : EReal) := val_zero
  classical
  refine ⟨?_, ?_, ?_, ?_, ?_, ?_⟩
  · obtain ⟨a1, a2, a3⟩ := C30_cmp V V r hx hy
    obtain ⟨b1, b2, b3⟩ := C30_cmp_num V r hne h0
    by_cases hA : Always r (γ x) (γ y)
    · rw [a1 hA, b1 (h1.1 hA)]
    · by_cases hS : Sometimes r (γ x) (γ y)
      · rw [a3 hS hA, b3 (h2.1 hS) (fun h => hA (h1.2 h))]
      · rw [a2 hS, b2 (fun h => hS (h2.2 h))]
  · rw [C31_tri V V r hx hy, C31_tri_num V r hne h0]; simp only [h1, h2]
  · rw [C32_certain V V r hx hy, C32_certain_num V r hne h0]; simp only [h1]
  · rw [C32_possible V V r hx hy, C32_possible_num V r hne h0]; simp only [h2]
  · rw [C33_cer r hx hy, C33_cer_num r hne h0]; simp only [h1]
  · rw [C33_pos r hx hy, C33_pos_num r hne h0]; simp only [h2]

/-- Without correct rounding, for all configurations whose operations are rounded to the right side: what is certain of
the computed difference is certain of the operands, and what is possible for the operands is possible for it. -/
theorem C65_directed (hV : V.Directed) (hx : (γ x).Nonempty) (hy : (γ y).Nonempty) :
    V.Returns (subII V.P x y) fun z => ∀ r,
      (Always r (γ z) {0} → Always r (γ x) (γ y)) ∧ (Sometimes r (γ x) (γ y) → Sometimes r (γ z) {0}) := by
  refine (C02_sub V hV hx hy).mono fun z hz r => ?_
  have h : ∀ p q : ℝ, r.holds (p - q) 0 ↔ r.holds p q := fun p q => by
    cases r <;> simp [Rel.holds, sub_eq_zero]
  exact ⟨fun hA p hp q hq => (h p q).1 (hA _ (hz p hp q hq) 0 rfl),
    fun ⟨p, hp, q, hq, hr⟩ => ⟨p - q, hz p hp q hq, 0, rfl, (h p q).2 hr⟩⟩

/-- All floating-point formats have gradual underflow. -/
theorem C65_gradual (f : Fmt) : Gradual (Fl f) := by
  intro a b ⟨s, hs⟩ ⟨t, ht⟩ hab
  obtain ⟨m, rfl⟩ := val_multiple hs
  obtain ⟨n, rfl⟩ := val_multiple ht
  have hp := two_zpow_pos (K := ℝ) f.emin
  have hmn : m < n := by exact_mod_cast lt_of_mul_lt_mul_right hab hp.le
  have h1 : (1 : ℝ) ≤ n - m := by exact_mod_cast (by omega : (1 : ℤ) ≤ n - m)
  refine ⟨(2 : ℝ) ^ f.emin, hp, by nlinarith, (representable_iff _).2 (.inr (.inr ⟨_, rep_smallest, by push_cast; rfl⟩)),
    (representable_iff _).2 (.inr (.inr ⟨_, rep_neg rep_smallest, by push_cast; rfl⟩))⟩

theorem C65_gradual_rat : Gradual ℚ := by
  rintro a b ⟨s, hs⟩ ⟨t, ht⟩ hab
  have h1 : (s : ℝ) = a := by have : ((s : ℝ) : EReal) = a := Option.some.inj hs; exact_mod_cast this
  have h2 : (t : ℝ) = b := by have : ((t : ℝ) : EReal) = b := Option.some.inj ht; exact_mod_cast this
  subst h1; subst h2
  exact ⟨t - s, by linarith, le_rfl, ⟨t - s, by change some _ = some _; push_cast; rfl⟩,
    ⟨-(t - s), by change some _ = some _; push_cast; rfl⟩⟩

/-! ## The hypotheses can be met -/

/-- `[1, 2] < [2, 3]` cannot be answered and throws, and so does `[1, 2] - [2, 3] < 0`. -/
example : dbl.Returns (subII dbl.P (litI 1 2) (litI 2 3)) fun z => cmpIT .lt dbl.C z (Num.lit 0) = .error .comparison :=
  (C65_operators dbl dbl_tight (C65_gradual _) ne_lit ne_lit).mono fun z hz => by
    rw [← (hz .lt).1]
    exact (C30_cmp dbl dbl .lt ne_lit ne_lit).2.2 ⟨1, in_lit, 2, in_lit, by norm_num [Rel.holds]⟩
      fun h => absurd (h 2 in_lit 2 in_lit) (by norm_num [Rel.holds])

example : ratEnv.Returns (subII ratEnv.P (litI 1 2) (litI 3 5)) fun z => cerIT .lt z (Num.lit 0) = true :=
  (C65_operators ratEnv ratEnv_tight C65_gradual_rat ne_lit ne_lit).mono fun z hz => by
    rw [← (hz .lt).2.2.2.2.1]
    decide +kernel

end BI
