import Verif.Proofs.Store
import Verif.Props.Arith2
/-!
# C64: registers that are stored late

`x86_fast_rounding_control` does without `force_rounding`: results stay in registers of the precision of the base type
but of a wider range of exponents, and are stored when the compiler chooses to, in whatever mode is then in force. The
documentation (doc/rounding.htm, "Extended Registers") warns that the answer is wrong on overflow. As long as neither
overflow nor underflow occurs nothing is lost, whatever the modes of the two stores.
-/

namespace BI
open Set

variable {f g : Fmt}

/-- A number that fits is rounded once: the store changes nothing, in any mode. -/
theorem C64_round (hw : SamePrec f g) (r r' : RMode) (s : Bool) {a : ℝ} (h : Fits f a) :
    (rnd g r s a).convert f r' = rnd f r s a := by
  obtain ⟨q, hq, h1, h2⟩ := rnd_fits hw r s h
  refine fl_ext (val_store r' h1 ⟨_, h2⟩) h2 ?_
  rw [convert_isNeg]
  by_cases h0 : a = 0
  · subst h0; rw [rnd_isNeg_zero, rnd_isNeg_zero]
  · rw [rnd_isNeg r s h0, rnd_isNeg r s h0]

/-- An interval in registers that is the smallest one around a set whose limits fit is, after the stores, the smallest
interval of the base type around that set. With the theorems of C12 this applies to all operations listed there. -/
theorem C64_store (hw : SamePrec f g) {z : Itv (Fl g)} {S : Set ℝ} {a b : ℝ} (h : SmallestEnclosure z S)
    (hS : S.Nonempty) (ha : IsGLB S a) (hb : IsLUB S b) (fa : Fits f a) (fb : Fits f b) (r r' : RMode) :
    SmallestEnclosure (storeI f r r' z) S := by
  obtain ⟨⟨l, hl, kl⟩, u, hu, ku⟩ := smallest_bounds h hS ha hb
  exact store_smallest hw.nested r r' h hl hu (isRoundDown_fits hw fa kl).1 (isRoundUp_fits hw fb ku).1

section
variable (V : Env (Fl g)) {x y : Itv (Fl f)}

/-- Sums have no underflow. -/
theorem C64_add (hw : SamePrec f g) (hV : V.Tight) {a b c d : ℝ} (hxl : val x.lower = some (a : EReal))
    (hxu : val x.upper = some (b : EReal)) (hyl : val y.lower = some (c : EReal)) (hyu : val y.upper = some (d : EReal))
    (hab : a ≤ b) (hcd : c ≤ d) (hl : |a + c| ≤ maxFin f) (hu : |b + d| ≤ maxFin f) :
    V.Returns (addII V.P (loadI g x) (loadI g y)) fun z => ∀ r r',
      SmallestEnclosure (storeI f r r' z) {q | ∃ s ∈ γ x, ∃ t ∈ γ y, s + t = q} := by
  have ex := gamma_load hw.nested x
  have ey := gamma_load hw.nested y
  have hx : (γ x).Nonempty := ⟨a, a, b, hxl, hxu, le_rfl, by exact_mod_cast hab⟩
  have hy : (γ y).Nonempty := ⟨c, c, d, hyl, hyu, le_rfl, by exact_mod_cast hcd⟩
  have := C12_add V hV (x := loadI g x) (y := loadI g y) (ex ▸ hx) (ey ▸ hy)
  rw [ex, ey] at this
  obtain ⟨n1, k1⟩ := val_multiple hxl
  obtain ⟨n2, k2⟩ := val_multiple hxu
  obtain ⟨n3, k3⟩ := val_multiple hyl
  obtain ⟨n4, k4⟩ := val_multiple hyu
  refine this.mono fun z hz r r' => C64_store hw hz (hx.image2 hy) (a := a + c) (b := b + d) ⟨?_, ?_⟩ ⟨?_, ?_⟩
    ⟨hl, .inr ⟨n1 + n3, by rw [k1, k3]; push_cast; ring⟩⟩ ⟨hu, .inr ⟨n2 + n4, by rw [k2, k4]; push_cast; ring⟩⟩ r r'
  · rintro _ ⟨s, hs, t, ht, rfl⟩
    exact add_le_add (real_bounds hxl hxu hs).1 (real_bounds hyl hyu ht).1
  · exact fun m hm => hm ⟨a, ⟨a, b, hxl, hxu, le_rfl, by exact_mod_cast hab⟩, c,
      ⟨c, d, hyl, hyu, le_rfl, by exact_mod_cast hcd⟩, rfl⟩
  · rintro _ ⟨s, hs, t, ht, rfl⟩
    exact add_le_add (real_bounds hxl hxu hs).2 (real_bounds hyl hyu ht).2
  · exact fun m hm => hm ⟨b, ⟨a, b, hxl, hxu, by exact_mod_cast hab, le_rfl⟩, d,
      ⟨c, d, hyl, hyu, by exact_mod_cast hcd, le_rfl⟩, rfl⟩

/-- Nor have differences. -/
theorem C64_sub (hw : SamePrec f g) (hV : V.Tight) {a b c d : ℝ} (hxl : val x.lower = some (a : EReal))
    (hxu : val x.upper = some (b : EReal)) (hyl : val y.lower = some (c : EReal)) (hyu : val y.upper = some (d : EReal))
    (hab : a ≤ b) (hcd : c ≤ d) (hl : |a - d| ≤ maxFin f) (hu : |b - c| ≤ maxFin f) :
    V.Returns (subII V.P (loadI g x) (loadI g y)) fun z => ∀ r r',
      SmallestEnclosure (storeI f r r' z) {q | ∃ s ∈ γ x, ∃ t ∈ γ y, s - t = q} := by
  have ex := gamma_load hw.nested x
  have ey := gamma_load hw.nested y
  have hx : (γ x).Nonempty := ⟨a, a, b, hxl, hxu, le_rfl, by exact_mod_cast hab⟩
  have hy : (γ y).Nonempty := ⟨c, c, d, hyl, hyu, le_rfl, by exact_mod_cast hcd⟩
  have := C12_sub V hV (x := loadI g x) (y := loadI g y) (ex ▸ hx) (ey ▸ hy)
  rw [ex, ey] at this
  obtain ⟨n1, k1⟩ := val_multiple hxl
  obtain ⟨n2, k2⟩ := val_multiple hxu
  obtain ⟨n3, k3⟩ := val_multiple hyl
  obtain ⟨n4, k4⟩ := val_multiple hyu
  refine this.mono fun z hz r r' => C64_store hw hz (hx.image2 hy) (a := a - d) (b := b - c) ⟨?_, ?_⟩ ⟨?_, ?_⟩
    ⟨hl, .inr ⟨n1 - n4, by rw [k1, k4]; push_cast; ring⟩⟩ ⟨hu, .inr ⟨n2 - n3, by rw [k2, k3]; push_cast; ring⟩⟩ r r'
  · rintro _ ⟨s, hs, t, ht, rfl⟩
    exact sub_le_sub (real_bounds hxl hxu hs).1 (real_bounds hyl hyu ht).2
  · exact fun m hm => hm ⟨a, ⟨a, b, hxl, hxu, le_rfl, by exact_mod_cast hab⟩, d,
      ⟨c, d, hyl, hyu, by exact_mod_cast hcd, le_rfl⟩, rfl⟩
  · rintro _ ⟨s, hs, t, ht, rfl⟩
    exact sub_le_sub (real_bounds hxl hxu hs).2 (real_bounds hyl hyu ht).1
  · exact fun m hm => hm ⟨b, ⟨a, b, hxl, hxu, by exact_mod_cast hab, le_rfl⟩, c,
      ⟨c, d, hyl, hyu, le_rfl, by exact_mod_cast hcd⟩, rfl⟩

/-- Products and quotients whose extreme values fit. -/
theorem C64_mul (hw : SamePrec f g) (hV : V.Tight) (hx : (γ x).Nonempty) (hy : (γ y).Nonempty) {a b : ℝ}
    (ha : IsGLB {q | ∃ s ∈ γ x, ∃ t ∈ γ y, s * t = q} a) (hb : IsLUB {q | ∃ s ∈ γ x, ∃ t ∈ γ y, s * t = q} b)
    (fa : Fits f a) (fb : Fits f b) :
    V.Returns (mulII V.P (loadI g x) (loadI g y)) fun z => ∀ r r',
      SmallestEnclosure (storeI f r r' z) {q | ∃ s ∈ γ x, ∃ t ∈ γ y, s * t = q} := by
  have ex := gamma_load hw.nested x
  have ey := gamma_load hw.nested y
  have := C12_mul V hV (x := loadI g x) (y := loadI g y) (ex ▸ hx) (ey ▸ hy)
  rw [ex, ey] at this
  exact this.mono fun z hz r r' => C64_store hw hz (hx.image2 hy) ha hb fa fb r r'

theorem C64_div (hw : SamePrec f g) (hV : V.Tight) (hx : (γ x).Nonempty) (hy : (γ y).Nonempty) (h0 : 0 ∉ γ y) {a b : ℝ}
    (ha : IsGLB {q | ∃ s ∈ γ x, ∃ t ∈ γ y, t ≠ 0 ∧ q = s / t} a)
    (hb : IsLUB {q | ∃ s ∈ γ x, ∃ t ∈ γ y, t ≠ 0 ∧ q = s / t} b) (fa : Fits f a) (fb : Fits f b) :
    V.Returns (divII V.P (loadI g x) (loadI g y)) fun z => ∀ r r',
      SmallestEnclosure (storeI f r r' z) {q | ∃ s ∈ γ x, ∃ t ∈ γ y, t ≠ 0 ∧ q = s / t} := by
  have ex := gamma_load hw.nested x
  have ey := gamma_load hw.nested y
  have := C12_div V hV (x := loadI g x) (y := loadI g y) (ex ▸ hx) (ey ▸ hy) (ey ▸ h0)
  rw [ex, ey] at this
  obtain ⟨t, ht⟩ := id hy
  exact this.mono fun z hz r r' =>
    C64_store hw hz (quot_nonempty hx ⟨t, ht, fun h => h0 (h ▸ ht)⟩) ha hb fa fb r r'
end

/-- The formats of the two precision controls; for `long double` the registers are those of the base type. -/
theorem C64_formats : SamePrec .single .pc24 ∧ SamePrec .double .pc53 ∧
    ∀ (r r' : RMode) (z : Itv (Fl Fmt.extended)), storeI .extended r r' z = z :=
  ⟨⟨by decide, by decide, by decide⟩, ⟨by decide, by decide, by decide⟩, fun r r' z => by
    unfold storeI; rw [convert_self, convert_self]⟩

/-- The remedy: stores in the direction of the bound lose no point, whatever is stored. -/
theorem C64_directed (z : Itv (Fl g)) : γ z ⊆ γ (storeI f .down .up z) := by
  rintro q ⟨a, b, h1, h2, h3, h4⟩
  obtain ⟨l, hl, kl⟩ := convert_rounds (g := f) .down h1
  obtain ⟨u, hu, ku⟩ := convert_rounds (g := f) .up h2
  exact ⟨l, u, hl, hu, (kl.down rfl).trans h3, h4.trans (ku.upw rfl)⟩

/-! ## The conditions are necessary -/

/-- The example of the documentation, for all formats and configurations: with `m` the largest number, `2 * [m, m]` is
`[2m, 2m]` in the registers and `[inf, inf]`, which contains no number, when it is stored upwards. -/
theorem C64_overflow (hw : SamePrec f g) (hlt : f.emax < g.emax) (V : Env (Fl g)) (hV : V.Tight) :
    V.Returns (mulTI V.P (Num.lit 2) (loadI g ⟨Fl.max f false, Fl.max f false⟩)) fun z =>
      γ z = {2 * (maxFin f : ℝ)} ∧ γ (storeI f .up .up z) = ∅ := by
  have h2 : val (Num.lit 2 : Fl g) = some ((2 : ℝ) : EReal) := by
    have := NumLaws.lit (T := Fl g) 2 (by norm_num); simpa using this
  have hm : val (Fl.max f false) = some ((maxFin f : ℝ) : EReal) := val_max false
  have hg : γ (loadI g ⟨Fl.max f false, Fl.max f false⟩) = {(maxFin f : ℝ)} :=
    (gamma_load hw.nested _).trans (gamma_point hm hm)
  have h := C12_mul_num V hV h2 (y := loadI g ⟨Fl.max f false, Fl.max f false⟩) (by rw [hg]; exact singleton_nonempty _)
  have hS : {q : ℝ | ∃ a ∈ ({2} : Set ℝ), ∃ b ∈ γ (loadI g ⟨Fl.max f false, Fl.max f false⟩), a * b = q} =
      {2 * (maxFin f : ℝ)} := by
    rw [hg]; ext q; simp [eq_comm]
  have hpos : (0 : ℚ) < maxFin f := by
    have := rep_abs_le (f := f) (rep_small (n := 1) (by norm_num))
    simp only [Int.cast_one, abs_one] at this
    linarith
  have hr : Representable (Fl g) ((2 * (maxFin f : ℝ) : ℝ) : EReal) := by
    refine (representable_iff _).2 (.inr (.inr ⟨2 * maxFin f, ⟨2 ^ f.p - 1, f.emax + 1, ?_, ?_, ?_, ?_⟩, by push_cast; rfl⟩))
    · rw [← hw.prec, abs_of_nonneg (by have := one_le_pow₀ (a := (2 : ℤ)) (by norm_num) (n := f.p); omega)]; omega
    · have := g.hmin; have := f.hmax; omega
    · omega
    · unfold maxFin; rw [zpow_add₀ two_ne_zero, zpow_one]; ring
  refine h.mono fun z hz => ?_
  obtain ⟨e1, e2⟩ := smallest_point hz hS hr
  refine ⟨gamma_point e1 e2, ?_⟩
  have hlt : (maxFin f : ℝ) < 2 * (maxFin f : ℝ) := by
    have : (0 : ℝ) < maxFin f := by exact_mod_cast hpos
    linarith
  have el : val (storeI f .up .up z).lower = some ⊤ := store_overflow e1 hlt
  rw [eq_empty_iff_forall_notMem]
  rintro q ⟨a, b, h1, h2, h3, h4⟩
  rw [el] at h1; cases h1
  simp at h3

/-- Half of the smallest positive number is one of the registers, and becomes the smallest number itself when it is
stored upwards. -/
theorem C64_underflow (hw : SamePrec f g) (hlt : g.emin < f.emin) (V : Env (Fl g)) (hV : V.Tight) {t : Fl f}
    (ht : val t = some (((2 : ℝ) ^ f.emin : ℝ) : EReal)) :
    V.Returns (divIT V.P (loadI g ⟨t, t⟩) (Num.lit 2)) fun z =>
      γ z = {(2 : ℝ) ^ f.emin / 2} ∧ γ (storeI f .up .up z) = {(2 : ℝ) ^ f.emin} := by
  have h2 : val (Num.lit 2 : Fl g) = some ((2 : ℝ) : EReal) := by
    have := NumLaws.lit (T := Fl g) 2 (by norm_num); simpa using this
  have hg : γ (loadI g ⟨t, t⟩) = {(2 : ℝ) ^ f.emin} := (gamma_load hw.nested _).trans (gamma_point ht ht)
  have h := C12_div_num' V hV (x := loadI g ⟨t, t⟩) (by rw [hg]; exact singleton_nonempty _) h2 two_ne_zero
  have hS : {q : ℝ | ∃ a ∈ γ (loadI g ⟨t, t⟩), ∃ b ∈ ({2} : Set ℝ), b ≠ 0 ∧ q = a / b} =
      {(2 : ℝ) ^ f.emin / 2} := by
    rw [hg]; ext q; simp
  have hr : Representable (Fl g) (((2 : ℝ) ^ f.emin / 2 : ℝ) : EReal) := by
    refine (representable_iff _).2 (.inr (.inr ⟨(2 : ℚ) ^ f.emin / 2, ⟨1, f.emin - 1, ?_, ?_, ?_, ?_⟩, by push_cast; rfl⟩))
    · simpa using one_lt_pow₀ (by norm_num : (1 : ℤ) < 2) (by have := g.hp; omega)
    · omega
    · have := g.hmax; have := f.hmin; omega
    · rw [zpow_sub₀ two_ne_zero, zpow_one]; simp
  refine h.mono fun z hz => ?_
  obtain ⟨e1, e2⟩ := smallest_point hz hS hr
  have hp := two_zpow_pos (K := ℝ) f.emin
  exact ⟨gamma_point e1 e2, gamma_point (store_underflow e1 (by linarith) (by linarith))
    (store_underflow e2 (by linarith) (by linarith))⟩

/-! ## The precision control is necessary

`[1, 1] / [3, 3]` for `double` in registers of extended precision, stored upwards. -/

noncomputable section

/-- `interval<double>` with `x86_fast_rounding_control`, in registers. -/
def dblFast : Env (Fl Fmt.pc53) where
  ctl := x86fastDouble
  laws := x86fastDouble_laws
  kind := .opp
  lib := fun _ _ x => some x
  checks := .strict
  ndebug := true

theorem dblFast_tight : dblFast.Tight := dblFast.fl_tight (by decide)

/-- The same registers without the precision control. -/
def dblWide : Env (Fl Fmt.extended) where
  ctl := x86fastLongDouble
  laws := x86fastLongDouble_laws
  kind := .opp
  lib := fun _ _ x => some x
  checks := .strict
  ndebug := true
end

theorem C64_precision :
    dblWide.Returns (divII dblWide.P (loadI .extended (litI 1 1 : Itv (Fl .double))) (loadI .extended (litI 3 3 : Itv (Fl .double))))
      fun z => (1 / 3 : ℝ) ∈ γ z ∧ (1 / 3 : ℝ) ∉ γ (storeI .double .up .up z) := by
  have hn : Nested .double .extended := nested_of (by decide) (by decide) (by decide)
  have g1 : γ (loadI .extended (litI 1 1 : Itv (Fl .double))) = {1} := by
    rw [gamma_load hn]
    have h1 : val (Num.lit 1 : Fl .double) = some ((1 : ℝ) : EReal) := val_one
    exact gamma_point h1 h1
  have h3 : val (Num.lit 3 : Fl .double) = some ((3 : ℝ) : EReal) := by
    have := NumLaws.lit (T := Fl .double) 3 (by norm_num); simpa using this
  have g3 : γ (loadI .extended (litI 3 3 : Itv (Fl .double))) = {3} := by
    rw [gamma_load hn]
    exact gamma_point h3 h3
  have h := C12_div dblWide (dblWide.fl_tight (by decide)) (x := loadI .extended (litI 1 1 : Itv (Fl .double)))
    (y := loadI .extended (litI 3 3 : Itv (Fl .double))) (by rw [g1]; exact singleton_nonempty _)
    (by rw [g3]; exact singleton_nonempty _) (by rw [g3]; norm_num)
  rw [g1, g3] at h
  have hS : {q : ℝ | ∃ a ∈ ({1} : Set ℝ), ∃ b ∈ ({3} : Set ℝ), b ≠ 0 ∧ q = a / b} = {1 / 3} := by ext q; simp
  rw [hS] at h
  refine h.mono fun z hz => ⟨hz.1 rfl, ?_⟩
  obtain ⟨⟨l, hl, kl⟩, -⟩ := smallest_bounds hz (singleton_nonempty _) isGLB_singleton isLUB_singleton
  obtain ⟨w, hw, sw⟩ := rnd_spec_rat (f := Fmt.extended) .down false (1 / 3)
  have hd := sw.isDown ⟨_, hw⟩
  have hlw : l = w := le_antisymm (hd.2.2 _ kl.1 (by push_cast; exact kl.2.1)) (kl.2.2 _ hd.1 (by have := hd.2.1; push_cast at this; exact this))
  have hrnd : rnd Fmt.extended .down false (1 / 3 : ℚ) = .nz (12297829382473034410 / 36893488147419103232)
      (by refine ⟨by norm_num, 12297829382473034410, -65, ?_, ?_, ?_, ?_⟩ <;> decide +kernel) := by
    decide +kernel
  rw [hrnd] at hw
  cases hw
  subst hlw
  obtain ⟨_, e⟩ := fl_val_nz (by norm_num) hl
  have hst : (storeI .double .up .up z).lower = .nz (6004799503160662 / 18014398509481984)
      (by refine ⟨by norm_num, 6004799503160662, -54, ?_, ?_, ?_, ?_⟩ <;> decide +kernel) := by
    unfold storeI
    dsimp only
    rw [e]
    change rnd Fmt.double .up _ (12297829382473034410 / 36893488147419103232 : ℚ) = _
    decide +kernel
  rintro ⟨a, b, h1, h2, h3, h4⟩
  rw [hst] at h1
  cases h1
  have : ((6004799503160662 / 18014398509481984 : ℚ) : ℝ) ≤ 1 / 3 := by exact_mod_cast h3
  norm_num at this

/-! ## The hypotheses can be met -/

/-- A sum in registers, stored in any modes. -/
example : dblFast.Returns
    (addII dblFast.P (loadI .pc53 (litI 1 2 : Itv (Fl .double))) (loadI .pc53 (litI 3 5 : Itv (Fl .double)))) fun z =>
    ∀ r r', SmallestEnclosure (storeI .double r r' z)
      {q | ∃ s ∈ γ (litI 1 2 : Itv (Fl .double)), ∃ t ∈ γ (litI 3 5 : Itv (Fl .double)), s + t = q} := by
  have hv : ∀ n : ℤ, |n| ≤ 7 → val (Num.lit n : Fl .double) = some ((n : ℝ) : EReal) := fun n hn => by
    have := NumLaws.lit (T := Fl .double) n hn; simpa using this
  refine C64_add dblFast C64_formats.2.1 dblFast_tight (a := (1 : ℤ)) (b := (2 : ℤ)) (c := (3 : ℤ)) (d := (5 : ℤ))
    (hv 1 (by norm_num)) (hv 2 (by norm_num)) (hv 3 (by norm_num)) (hv 5 (by norm_num)) (by norm_num) (by norm_num) ?_ ?_
  · have : ((4 : ℚ) : ℝ) ≤ maxFin Fmt.double := by exact_mod_cast (by decide +kernel : (4 : ℚ) ≤ maxFin Fmt.double)
    norm_num at this ⊢; exact this
  · have : ((7 : ℚ) : ℝ) ≤ maxFin Fmt.double := by exact_mod_cast (by decide +kernel : (7 : ℚ) ≤ maxFin Fmt.double)
    norm_num at this ⊢; exact this

/-- A number that is not one of the format and fits: a third. -/
example : Fits .double (1 / 3) := by
  refine ⟨?_, .inl ?_⟩
  · have : ((1 / 3 : ℚ) : ℝ) ≤ maxFin Fmt.double := by
      exact_mod_cast (by decide +kernel : (1 / 3 : ℚ) ≤ maxFin Fmt.double)
    rw [abs_of_pos (by norm_num)]; push_cast at this; exact this
  · rw [abs_of_pos (by norm_num)]
    calc (2 : ℝ) ^ (Fmt.double.emin + Fmt.double.p - 1) ≤ 2 ^ (-2 : ℤ) := two_zpow_le (by decide)
      _ ≤ 1 / 3 := by norm_num

example : dblFast.Returns (mulTI dblFast.P (Num.lit 2) (loadI .pc53 ⟨Fl.max .double false, Fl.max .double false⟩)) fun z =>
    γ z = {2 * (maxFin .double : ℝ)} ∧ γ (storeI .double .up .up z) = ∅ :=
  C64_overflow C64_formats.2.1 (by decide) dblFast dblFast_tight

end BI
