import Verif.Model.Overflow
import Verif.Props.Plain
import Verif.Props.Ctor
import Verif.Props.Utility
import Verif.Props.Arith
import Verif.Proofs.ExFilter2
/-!
# C68: scaling out of the range of the numbers and back

test/overflow.cpp multiplies an interval ten thousand times by `f`, then ten thousand times by the computed `1 / f`, and expects
the interval to contain the number it started with. Reals `e` and `c` with no number of the type between them are in the same
intervals (`Faithful`); this decides when the expectation is justified.
-/

namespace BI
open Set Overflow

section
variable {T : Type} [Num T] [Val T] [NumLaws T] (V : Env T)

theorem scale_encl (hV : V.Directed) {t : T} {a : ℝ} (ht : val t = some (a : EReal)) (n : ℕ) (y : Itv T) (hy : (γ y).Nonempty) :
    V.Returns (scale V.P t n y) fun z => ∀ r ∈ γ y, r * a ^ n ∈ γ z := by
  induction n generalizing y with
  | zero => exact Env.Returns.pure fun r hr => by simpa using hr
  | succ n ih =>
    refine (C03_mul_num_right V hV hy ht).bind fun z hz => ?_
    obtain ⟨r, hr⟩ := hy
    refine (ih z ⟨_, hz r hr⟩).mono fun w hw r hr => ?_
    have := hw _ (hz r hr)
    rwa [mul_assoc, ← pow_succ'] at this

/-- The test succeeds, in any rounding mode, if no number of the type lies between `x * f ^ n` and `x / g ^ n`, whatever `g`
the division `1 / f` can return. -/
theorem C68_test (hV : V.Directed) (n : ℕ) {x f : T} {a b : ℝ} (hx : val x = some (a : EReal)) (hf : val f = some (b : EReal))
    (hg : ∀ r, ∃ g c, Num.div r (Num.lit 1) f = some g ∧ val g = some ((c : ℝ) : EReal) ∧ c ≠ 0 ∧
      Faithful T (a * b ^ n) (a / c ^ n)) :
    V.Returns (testOne V.P n x f) (· = true) := by
  obtain ⟨y, hy, -, -, hγ⟩ := C36_num V hx
  unfold testOne
  rw [V.P_chk]
  refine (ret_lift (V := V) (Q := (· = y)) ⟨y, hy, rfl⟩).bind ?_
  rintro y rfl
  refine (ret_cur (V := V) (f := fun r => Num.div r (Num.lit 1) f) fun r => ?_).bind ?_
  · obtain ⟨g, c, h, -⟩ := hg r; simp [h]
  rintro g ⟨r, hr⟩
  obtain ⟨_, c, h1, h2, h3, h4⟩ := hg r
  obtain rfl := Option.some.inj (hr.symm.trans h1)
  have ha : a ∈ γ y := by rw [hγ]; rfl
  refine (scale_encl V hV hf n y ⟨a, ha⟩).bind fun z hz => ?_
  refine (scale_encl V hV h2 n z ⟨_, hz a ha⟩).bind fun w hw => ?_
  have hw := hw _ (faithful_absorbs z _ _ (hz a ha) h4)
  rw [div_mul_cancel₀ _ (pow_ne_zero n h3)] at hw
  exact ret_lift (V := V) ⟨true, by rw [C22_in V (.inl ⟨a, hw⟩) hx]; simp [hw], rfl⟩
end

section
variable {f : Fmt}

theorem faithful_neg {e c : ℝ} (h : Faithful (Fl f) (-e) (-c)) : Faithful (Fl f) e c := by
  rintro w ⟨t, ht⟩
  obtain ⟨h1, h2⟩ := h (-w) ⟨t.neg, by rw [fl_val_neg, ht]; rfl⟩
  rw [EReal.coe_neg, EReal.coe_neg, EReal.neg_le_neg_iff, EReal.neg_le_neg_iff] at h1 h2
  exact ⟨h2, h1⟩

/-- Beyond the largest number, there is nothing to distinguish reals. -/
theorem faithful_large {e c : ℝ} (hs : 0 < e * c) (he : maxFin f < |e|) (hc : maxFin f ≤ |c|) : Faithful (Fl f) e c := by
  wlog h : 0 < e generalizing e c
  · have h0 : e < 0 := lt_of_le_of_ne (not_lt.1 h) (by rintro rfl; simp at hs)
    exact faithful_neg (this (by linarith) (by rwa [abs_neg]) (by rwa [abs_neg]) (by linarith))
  have h' : 0 < c := (pos_iff_pos_of_mul_pos hs).1 h
  rw [abs_of_pos h] at he
  rw [abs_of_pos h'] at hc
  intro w hw
  rcases (representable_iff w).1 hw with rfl | rfl | ⟨q, hq, rfl⟩
  · exact ⟨fun _ => bot_le, fun h => absurd h (by simp)⟩
  · exact ⟨fun h => absurd h (by simp), fun _ => le_top⟩
  · have : (q : ℝ) ≤ maxFin f := by exact_mod_cast (abs_le.1 (rep_abs_le hq)).2
    rw [EReal.coe_le_coe_iff, EReal.coe_le_coe_iff, EReal.coe_le_coe_iff, EReal.coe_le_coe_iff]
    exact ⟨fun _ => by linarith, fun _ => by linarith⟩

/-- Numbers other than zero have an absolute value of `2 ^ emin` at least. -/
theorem rep_tiny {q : ℚ} (hq : Rep f q) (h : q < (2 : ℚ) ^ f.emin) : q ≤ 0 := by
  obtain ⟨m, e, -, h1, -, rfl⟩ := hq
  by_contra hc
  have hm : 0 < m := by
    have := (pos_iff_pos_of_mul_pos (not_le.1 hc)).2 (by positivity)
    exact_mod_cast this
  have : (1 : ℚ) ≤ m := by exact_mod_cast hm
  have : (2 : ℚ) ^ f.emin ≤ (2 : ℚ) ^ e := zpow_le_zpow_right₀ (by norm_num) h1
  nlinarith [zpow_pos (two_pos (α := ℚ)) e]

theorem faithful_small {e c : ℝ} (hs : 0 < e * c) (he : |e| < (2 : ℝ) ^ f.emin) (hc : |c| ≤ (2 : ℝ) ^ f.emin) : Faithful (Fl f) e c := by
  wlog h : 0 < e generalizing e c
  · have h0 : e < 0 := lt_of_le_of_ne (not_lt.1 h) (by rintro rfl; simp at hs)
    exact faithful_neg (this (by linarith) (by rwa [abs_neg]) (by rwa [abs_neg]) (by linarith))
  have h' : 0 < c := (pos_iff_pos_of_mul_pos hs).1 h
  rw [abs_of_pos h] at he
  rw [abs_of_pos h'] at hc
  intro w hw
  rcases (representable_iff w).1 hw with rfl | rfl | ⟨q, hq, rfl⟩
  · exact ⟨fun _ => bot_le, fun h => absurd h (by simp)⟩
  · exact ⟨fun h => absurd h (by simp), fun _ => le_top⟩
  · rw [EReal.coe_le_coe_iff, EReal.coe_le_coe_iff, EReal.coe_le_coe_iff, EReal.coe_le_coe_iff]
    rcases lt_or_ge q ((2 : ℚ) ^ f.emin) with h2 | h2
    · have : (q : ℝ) ≤ 0 := by exact_mod_cast rep_tiny hq h2
      exact ⟨fun _ => by linarith, fun _ => by linarith⟩
    · have : (2 : ℝ) ^ f.emin ≤ (q : ℝ) := by
        have : (((2 : ℚ) ^ f.emin : ℚ) : ℝ) ≤ (q : ℝ) := by exact_mod_cast h2
        simpa using this
      exact ⟨fun _ => by linarith, fun _ => by linarith⟩

/-- The reciprocal of a number has its sign and does not pass the powers of two. -/
theorem recip_bounds (r : RMode) {t : Fl f} {b lo hi : ℝ} (ht : val t = some (b : EReal)) (hlo : Representable (Fl f) (lo : EReal))
    (hhi : Representable (Fl f) (hi : EReal)) (h0 : 0 < lo) (h1 : lo ≤ |b|⁻¹) (h2 : |b|⁻¹ ≤ hi) :
    ∃ g c, Num.div r (Num.lit 1) t = some g ∧ val g = some ((c : ℝ) : EReal) ∧ 0 < b * c ∧ lo ≤ |c| ∧ |c| ≤ hi := by
  have hl1 : val (Num.lit 1 : Fl f) = some ((1 : ℝ) : EReal) := by simpa using NumLaws.lit (T := Fl f) 1 (by norm_num)
  have hb : b ≠ 0 := by rintro rfl; simp at h1; linarith
  have hn : ∀ {z : ℝ}, Representable (Fl f) (z : EReal) → Representable (Fl f) ((-z : ℝ) : EReal) := by
    rintro z ⟨t, ht⟩; exact ⟨t.neg, by rw [fl_val_neg, ht]; rfl⟩
  obtain ⟨z, hz, hE⟩ := div_rounds r hl1 ht ⟨by exact_mod_cast hb, .inl ⟨EReal.coe_ne_bot 1, EReal.coe_ne_top 1⟩⟩
  rw [← EReal.coe_div, one_div] at hE
  refine ⟨(Num.lit 1 : Fl f).div r t, ?_⟩
  rcases lt_or_gt_of_ne hb with hb | hb
  · rw [abs_of_neg hb, inv_neg] at h1 h2
    have e1 := hE.lo _ (hn hhi) (by exact_mod_cast (by linarith : -hi ≤ b⁻¹))
    have e2 := hE.up _ (hn hlo) (by exact_mod_cast (by linarith : b⁻¹ ≤ -lo))
    obtain ⟨c, rfl⟩ : ∃ c : ℝ, z = c := ⟨z.toReal, (EReal.coe_toReal (ne_top_of_le_ne_top (EReal.coe_ne_top _) e2)
      (ne_bot_of_le_ne_bot (EReal.coe_ne_bot _) e1)).symm⟩
    rw [EReal.coe_le_coe_iff] at e1 e2
    refine ⟨c, rfl, hz, mul_pos_of_neg_of_neg hb (by linarith), ?_⟩
    rw [abs_of_neg (by linarith)]
    constructor <;> linarith
  · rw [abs_of_pos hb] at h1 h2
    have e1 := hE.lo _ hlo (by exact_mod_cast h1)
    have e2 := hE.up _ hhi (by exact_mod_cast h2)
    obtain ⟨c, rfl⟩ : ∃ c : ℝ, z = c := ⟨z.toReal, (EReal.coe_toReal (ne_top_of_le_ne_top (EReal.coe_ne_top _) e2)
      (ne_bot_of_le_ne_bot (EReal.coe_ne_bot _) e1)).symm⟩
    rw [EReal.coe_le_coe_iff] at e1 e2
    refine ⟨c, rfl, hz, mul_pos hb (by linarith), ?_⟩
    rw [abs_of_pos (by linarith)]
    exact ⟨e1, e2⟩

theorem rep_two_zpow {k : ℤ} (h1 : f.emin ≤ k) (h2 : k ≤ f.emax) : Representable (Fl f) (((2 : ℝ) ^ k : ℝ) : EReal) :=
  (representable_iff _).2 (.inr (.inr ⟨(2 : ℚ) ^ k, ⟨1, k, by
    rw [abs_one]; exact one_lt_pow₀ one_lt_two (by have := f.hp; omega), h1, h2, by simp⟩, by push_cast; rfl⟩))

theorem same_sign {a b c : ℝ} (ha : a ≠ 0) (h : 0 < b * c) (n : ℕ) : 0 < a * b ^ n * (a / c ^ n) := by
  have hc : c ≠ 0 := by rintro rfl; simp at h
  have e : a * b ^ n * (a / c ^ n) = a ^ 2 * (b * c / c ^ 2) ^ n := by
    rw [div_pow, mul_pow, ← pow_mul, mul_comm 2 n, pow_mul]; field_simp
  rw [e]
  positivity

/-- The test succeeds if the first multiplications overflow, and would even with a power of two that is not above `f`. -/
theorem C68_overflow (V : Env (Fl f)) (hV : V.Directed) (n k : ℕ) {x t : Fl f} {a b : ℝ} (hx : val x = some (a : EReal))
    (ht : val t = some (b : EReal)) (h1 : 2 ^ k ≤ |b|) (h2 : |b| * (2 : ℝ) ^ f.emin ≤ 1) (hn : maxFin f < |a| * (2 ^ k) ^ n) :
    V.Returns (testOne V.P n x t) (· = true) := by
  refine C68_test V hV n hx ht fun r => ?_
  have hk : (0 : ℝ) < 2 ^ k := by positivity
  have hb : 0 < |b| := by linarith
  have hη : (0 : ℝ) < (2 : ℝ) ^ f.emin := by positivity
  have hM : (0 : ℝ) < maxFin f := by exact_mod_cast maxFin_pos f
  have ha : a ≠ 0 := by rintro rfl; rw [abs_zero, zero_mul] at hn; linarith
  have hm : f.emin ≤ -(k : ℤ) := by
    have h3 : (2 : ℝ) ^ (k + f.emin) ≤ 2 ^ (0 : ℤ) := by
      rw [zpow_add₀ two_ne_zero, zpow_natCast, zpow_zero]
      exact (mul_le_mul_of_nonneg_right h1 hη.le).trans h2
    have := (zpow_le_zpow_iff_right₀ (one_lt_two (α := ℝ))).1 h3
    omega
  obtain ⟨g, c, e1, e2, e3, -, e4⟩ := recip_bounds r ht (rep_two_zpow le_rfl (f.hmin.trans f.hmax))
    (rep_two_zpow hm (by have := f.hmax; omega)) hη (by rwa [le_inv_comm₀ hη hb, ← one_div, le_div_iff₀ hη])
    (by rw [zpow_neg, zpow_natCast]; exact inv_anti₀ hk h1)
  have hc : c ≠ 0 := by rintro rfl; simp at e3
  refine ⟨g, c, e1, e2, hc, faithful_large (same_sign ha e3 n) ?_ ?_⟩
  · rw [abs_mul, abs_pow]
    exact hn.trans_le (mul_le_mul_of_nonneg_left (pow_le_pow_left₀ hk.le h1 n) (abs_nonneg a))
  · rw [abs_div, abs_pow]
    refine hn.le.trans ?_
    rw [le_div_iff₀ (by positivity), mul_assoc, ← mul_pow]
    refine mul_le_of_le_one_right (abs_nonneg a) (pow_le_one₀ (by positivity) ?_)
    rw [zpow_neg, zpow_natCast] at e4
    calc 2 ^ k * |c| ≤ 2 ^ k * (2 ^ k)⁻¹ := mul_le_mul_of_nonneg_left e4 hk.le
      _ = 1 := mul_inv_cancel₀ hk.ne'

/-- The test succeeds if the first multiplications underflow, and would even with a power of two that is not below `f`. -/
theorem C68_underflow (V : Env (Fl f)) (hV : V.Directed) (n k : ℕ) {x t : Fl f} {a b : ℝ} (hx : val x = some (a : EReal)) (ha : a ≠ 0)
    (ht : val t = some (b : EReal)) (hk : k ≤ f.emax) (h1 : |b| * 2 ^ k ≤ 1) (h2 : 1 ≤ |b| * maxFin f)
    (hn : |a| < (2 ^ k) ^ n * (2 : ℝ) ^ f.emin) :
    V.Returns (testOne V.P n x t) (· = true) := by
  refine C68_test V hV n hx ht fun r => ?_
  have hk0 : (0 : ℝ) < 2 ^ k := by positivity
  have hM : (0 : ℝ) < maxFin f := by exact_mod_cast maxFin_pos f
  have hb : 0 < |b| := (pos_iff_pos_of_mul_pos (lt_of_lt_of_le one_pos h2)).2 hM
  have hη : (0 : ℝ) < (2 : ℝ) ^ f.emin := by positivity
  obtain ⟨g, c, e1, e2, e3, e4, -⟩ := recip_bounds r ht (rep_two_zpow (k := k) (by have := f.hmin; omega) hk) (hi := maxFin f)
    ((representable_iff _).2 (.inr (.inr ⟨_, rep_maxFin f, rfl⟩))) (by positivity)
    (by rw [zpow_natCast, le_inv_comm₀ hk0 hb, ← one_div, le_div_iff₀ hk0]; exact h1) (by rw [inv_le_iff_one_le_mul₀ hb]; linarith)
  rw [zpow_natCast] at e4
  have hc : c ≠ 0 := by rintro rfl; simp at e3
  refine ⟨g, c, e1, e2, hc, faithful_small (same_sign ha e3 n) ?_ ?_⟩
  · rw [abs_mul, abs_pow]
    calc |a| * |b| ^ n < (2 ^ k) ^ n * (2 : ℝ) ^ f.emin * |b| ^ n := mul_lt_mul_of_pos_right hn (by positivity)
      _ = (|b| * 2 ^ k) ^ n * (2 : ℝ) ^ f.emin := by rw [mul_pow]; ring
      _ ≤ 1 * (2 : ℝ) ^ f.emin := mul_le_mul_of_nonneg_right (pow_le_one₀ (by positivity) h1) hη.le
      _ = _ := one_mul _
  · rw [abs_div, abs_pow, div_le_iff₀ (by positivity), mul_comm]
    exact hn.le.trans (mul_le_mul_of_nonneg_right (pow_le_pow_left₀ hk0.le e4 n) hη.le)

/-- All of test/overflow.cpp, and the lines that it leaves out for `long double`; `b` is the number that the constant 25 or
0.04 is converted to. -/
theorem C68_suite (hf : f = .single ∨ f = .double ∨ f = .extended) (V : Env (Fl f)) (hV : V.Directed) {x t : Fl f} {a b : ℝ}
    (hx : val x = some (a : EReal)) (ht : val t = some (b : EReal)) (ha : a = 1 ∨ a = -1) (hb : b = 25 ∨ |b - 0.04| ≤ 0.01) :
    V.Returns (testOne V.P 10000 x t) (· = true) := by
  have ha : |a| = 1 := by rcases ha with rfl | rfl <;> simp
  have h1 : (25 : ℝ) * (2 : ℝ) ^ f.emin ≤ 1 := by
    have : f.emin ≤ -5 := by rcases hf with rfl | rfl | rfl <;> decide
    calc (25 : ℝ) * (2 : ℝ) ^ f.emin ≤ 25 * (2 : ℝ) ^ (-5 : ℤ) :=
          mul_le_mul_of_nonneg_left (zpow_le_zpow_right₀ one_le_two this) (by norm_num)
      _ ≤ 1 := by norm_num
  have h2 : maxFin f < ((2 : ℝ) ^ 4) ^ 10000 := by
    have e : f.p + f.emax ≤ 40000 := by rcases hf with rfl | rfl | rfl <;> decide
    have h : ((maxFin f : ℚ) : ℝ) < (2 : ℝ) ^ ((f.p : ℤ) + f.emax) := by
      unfold maxFin
      push_cast
      rw [zpow_add₀ two_ne_zero, zpow_natCast]
      exact mul_lt_mul_of_pos_right (by linarith) (by positivity)
    refine h.trans_le ?_
    rw [← pow_mul, ← zpow_natCast]
    exact zpow_le_zpow_right₀ one_le_two (by norm_num; exact e)
  have h3 : 1 ≤ (0.03 : ℝ) * maxFin f := by
    have : 1 ≤ (3 / 100 : ℚ) * maxFin f := by rcases hf with rfl | rfl | rfl <;> decide +kernel
    have h : ((1 : ℚ) : ℝ) ≤ (((3 / 100 : ℚ) * maxFin f : ℚ) : ℝ) := by exact_mod_cast this
    push_cast at h
    linarith
  have h4 : (1 : ℝ) < ((2 : ℝ) ^ 4) ^ 10000 * (2 : ℝ) ^ f.emin := by
    have e : -40000 < f.emin := by rcases hf with rfl | rfl | rfl <;> decide
    rw [← pow_mul, ← zpow_natCast, ← zpow_add₀ two_ne_zero]
    exact one_lt_zpow₀ one_lt_two (by norm_num; omega)
  have hM : (0 : ℝ) < maxFin f := by exact_mod_cast maxFin_pos f
  rcases hb with rfl | hb
  · exact C68_overflow V hV _ 4 hx ht (by norm_num) (by rwa [abs_of_pos (by norm_num)]) (by rw [ha, one_mul]; exact h2)
  · have hb' := abs_le.1 hb
    have hp : 0 < b := by norm_num at hb'; linarith
    refine C68_underflow V hV _ 4 hx (by rintro rfl; simp at ha) ht ?_ ?_ ?_ (by rw [ha]; exact h4)
    · rcases hf with rfl | rfl | rfl <;> decide
    · rw [abs_of_pos hp]; norm_num at hb' ⊢; linarith
    · rw [abs_of_pos hp]
      have : (0.03 : ℝ) ≤ b := by norm_num at hb' ⊢; linarith
      exact h3.trans (mul_le_mul_of_nonneg_right this hM.le)

/-- Without an overflow or underflow the test can fail: started in the mode towards minus infinity, with `f = 2 - 2 ^ -52`, one
multiplication of 1 by `f` and one by the computed `1 / f` give a number below 1. -/
theorem C68_violated : ∃ t : Fl .double,
    (testOne dbl.P 1 (Num.lit 1) t (⟨(⟨.down, ()⟩ : FEnv Unit), fun _ => true⟩ : dbl.State)).1 = .ok false := by
  refine ⟨.nz (9007199254740991 / 4503599627370496)
    (by refine ⟨by norm_num, 9007199254740991, -52, ?_, ?_, ?_, ?_⟩ <;> decide +kernel), ?_⟩
  decide +kernel

/-! ## The hypotheses can be met -/

example := C68_suite (.inr (.inl rfl)) dbl dbl_directed (x := Num.lit 1) (t := Num.lit 25) (a := 1) (b := 25) (by rw [val_one]; rfl)
  (by
    have e : (Num.lit 25 : Fl .double) = .nz 25 (by refine ⟨by norm_num, 25, 0, ?_, ?_, ?_, ?_⟩ <;> decide +kernel) := by decide +kernel
    rw [e]; change some (((25 : ℚ) : ℝ) : EReal) = _; norm_num) (.inl rfl) (.inl rfl)
/-- `double` with the constant 0.04 -/
example := C68_suite (.inr (.inl rfl)) dbl dbl_directed (x := Num.lit (-1)) (t := .nz (5764607523034235 / 144115188075855872)
    (by refine ⟨by norm_num, 5764607523034235, -57, ?_, ?_, ?_, ?_⟩ <;> decide +kernel))
  (by simpa using NumLaws.lit (T := Fl .double) (-1) (by norm_num)) (b := ((5764607523034235 / 144115188075855872 : ℚ) : ℝ))
  rfl (.inr rfl) (.inr (by rw [abs_le]; norm_num))
/-- A negative factor, an odd number of times: from 3 to an overflow with the sign of `(-4) ^ 601`, and back. -/
example := C68_overflow dbl dbl_directed 601 2 (x := Num.lit 3) (t := Num.lit (-4)) (a := 3) (b := -4)
  (by simpa using NumLaws.lit (T := Fl .double) 3 (by norm_num)) (by simpa using NumLaws.lit (T := Fl .double) (-4) (by norm_num))
  (by norm_num)
  (by
    have : (2 : ℝ) ^ Fmt.double.emin ≤ 2 ^ (-2 : ℤ) := zpow_le_zpow_right₀ one_le_two (by decide)
    norm_num at this ⊢; linarith)
  (by
    have h : maxFin .double < 3 * (2 ^ 2) ^ 601 := by decide +kernel
    have h' : ((maxFin .double : ℚ) : ℝ) < ((3 * (2 ^ 2) ^ 601 : ℚ) : ℝ) := by exact_mod_cast h
    push_cast at h'
    rwa [abs_of_pos (by norm_num : (0 : ℝ) < 3)])
end
end BI
