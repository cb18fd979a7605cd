import Mathlib.Algebra.Order.Field.Power
import Verif.Proofs.EnclPow
import Verif.Proofs.EnvLaws
import Verif.Proofs.Median
import Verif.Spec.Accuracy
/-!
Accuracy of powers: each multiplication loses a factor of at most `1 ± 2^(1-p)`.
-/

namespace BI
open Set
namespace Accuracy
variable {f : Fmt} {tot : Prop}

theorem ulp_le {a : ℝ} (ha : a ≠ 0) : (2 : ℝ) ^ ulpExp f a ≤ unit f a := by
  unfold ulpExp unit
  rcases le_total f.emin (Int.log 2 |a| - f.p + 1) with h | h
  · rw [max_eq_right h]
    refine le_trans ?_ (le_max_left _ _)
    have h1 : (2 : ℝ) ^ Int.log 2 |a| ≤ |a| := by
      exact_mod_cast Int.zpow_log_le_self (b := 2) one_lt_two (abs_pos.2 ha)
    have e : Int.log 2 |a| - (f.p : ℤ) + 1 = (1 - (f.p : ℤ)) + Int.log 2 |a| := by ring
    rw [e, zpow_add₀ two_ne_zero]
    exact mul_le_mul_of_nonneg_left h1 (by positivity)
  · rw [max_eq_left h]; exact le_max_right _ _

theorem unit_pos (a : ℝ) : 0 < unit f a := lt_max_of_lt_right (by positivity)

/-- There is a number of the format just below. -/
theorem below {a : ℝ} (h : |a| ≤ (maxFin f : ℝ)) : ∃ q : ℚ, Rep f q ∧ (q : ℝ) ≤ a ∧ a - q < unit f a := by
  by_cases h0 : a = 0
  · exact ⟨0, rep_zero, by simp [h0], by simpa [h0] using unit_pos 0⟩
  · rw [abs_le] at h
    have l1 : roundUnb f .down a ≤ maxFin f := roundUnb_le _ h0 (rep_maxFin f) h.2
    have l2 : -maxFin f ≤ roundUnb f .down a := le_roundUnb _ h0 (rep_neg (rep_maxFin f)) (by push_cast; exact h.1)
    have hr : Rep f (roundUnb f .down a) := by
      obtain ⟨z, hz, -⟩ := rnd_spec (f := f) .down false a
      have e := val_rnd (f := f) .down false a
      rw [if_pos l1, if_pos l2] at e
      obtain ⟨q, hq, e'⟩ := Rep.of_val e
      have : roundUnb f .down a = q := by exact_mod_cast e'
      rw [this]; exact hq
    refine ⟨_, hr, roundUnb_down_le a, lt_of_lt_of_le ?_ (ulp_le h0)⟩
    unfold roundUnb roundInt
    push_cast
    have hp := two_zpow_pos (K := ℝ) (ulpExp f a)
    have := Int.lt_floor_add_one (a / (2 : ℝ) ^ ulpExp f a)
    rw [div_lt_iff₀ hp] at this
    linarith

theorem unit_neg (a : ℝ) : unit f (-a) = unit f a := by unfold unit; rw [abs_neg]

theorem above {a : ℝ} (h : |a| ≤ (maxFin f : ℝ)) : ∃ q : ℚ, Rep f q ∧ a ≤ (q : ℝ) ∧ (q : ℝ) - a < unit f a := by
  obtain ⟨q, h1, h2, h3⟩ := below (f := f) (a := -a) (by rwa [abs_neg])
  rw [unit_neg] at h3
  exact ⟨-q, rep_neg h1, by push_cast; linarith, by push_cast; linarith⟩

theorem eps_pos : 0 < eps f := by unfold eps; positivity

theorem eps_le : eps f ≤ 1 := by
  unfold eps
  exact zpow_le_one_of_nonpos₀ (by norm_num) (by have := f.hp; omega)

theorem unit_normal {a : ℝ} (h : normal f ≤ a) : unit f a = eps f * a := by
  have h0 : 0 < normal f := by unfold normal; positivity
  unfold unit
  rw [abs_of_pos (h0.trans_le h), max_eq_left]
  · rfl
  · calc (2 : ℝ) ^ f.emin = eps f * normal f := by
          unfold eps normal; rw [← zpow_add₀ two_ne_zero]; congr 1; ring
      _ ≤ _ := mul_le_mul_of_nonneg_left h eps_pos.le

theorem mulOk_coe (p q : ℝ) : MulOk (p : EReal) q :=
  mulOk_real (EReal.coe_ne_bot _) (EReal.coe_ne_top _) (EReal.coe_ne_bot _) (EReal.coe_ne_top _)

variable {B : BI.Arith Res (Fl f)}

theorem mulDown_acc (hA : DirLaws tot (IsRoundDown (Fl f)) (IsRoundUp (Fl f)) B) {a b : Fl f} {p q : ℝ}
    (ha : val a = some (p : EReal)) (hb : val b = some (q : EReal)) (h1 : normal f ≤ p * q) (h2 : p * q ≤ maxFin f) :
    Post tot (B.mulDown a b) fun c => ∃ z : ℝ, val c = some (z : EReal) ∧ (1 - eps f) * (p * q) ≤ z ∧ z ≤ 1 * (p * q) := by
  refine (hA.mulDown a b p q ha hb (mulOk_coe p q)).mono fun c hc => ?_
  obtain ⟨z, hz, -, k1, k2⟩ := hc
  have h0 : 0 < p * q := lt_of_lt_of_le (by unfold normal; positivity) h1
  obtain ⟨w, hw, w1, w2⟩ := below (f := f) (a := p * q) (by rwa [abs_of_pos h0])
  rw [unit_normal h1] at w2
  rw [← EReal.coe_mul] at k1 k2
  have k3 := k2 ((w : ℝ) : EReal) ((representable_iff (f := f) _).2 (.inr (.inr ⟨w, hw, rfl⟩))) (by exact_mod_cast w1)
  lift z to ℝ using ⟨fun e => by rw [e] at k1; exact absurd (top_le_iff.1 k1) (EReal.coe_ne_top _),
    fun e => by rw [e] at k3; exact absurd (le_bot_iff.1 k3) (EReal.coe_ne_bot _)⟩
  have k1' : z ≤ p * q := by exact_mod_cast k1
  have k3' : (w : ℝ) ≤ z := by exact_mod_cast k3
  exact ⟨z, hz, by linarith, by linarith⟩

theorem mulUp_acc (hA : DirLaws tot (IsRoundDown (Fl f)) (IsRoundUp (Fl f)) B) {a b : Fl f} {p q : ℝ}
    (ha : val a = some (p : EReal)) (hb : val b = some (q : EReal)) (h1 : normal f ≤ p * q) (h2 : p * q ≤ maxFin f) :
    Post tot (B.mulUp a b) fun c => ∃ z : ℝ, val c = some (z : EReal) ∧ 1 * (p * q) ≤ z ∧ z ≤ (1 + eps f) * (p * q) := by
  refine (hA.mulUp a b p q ha hb (mulOk_coe p q)).mono fun c hc => ?_
  obtain ⟨z, hz, -, k1, k2⟩ := hc
  have h0 : 0 < p * q := lt_of_lt_of_le (by unfold normal; positivity) h1
  obtain ⟨w, hw, w1, w2⟩ := above (f := f) (a := p * q) (by rwa [abs_of_pos h0])
  rw [unit_normal h1] at w2
  rw [← EReal.coe_mul] at k1 k2
  have k3 := k2 ((w : ℝ) : EReal) ((representable_iff (f := f) _).2 (.inr (.inr ⟨w, hw, rfl⟩))) (by exact_mod_cast w1)
  lift z to ℝ using ⟨fun e => by rw [e] at k3; exact absurd (top_le_iff.1 k3) (EReal.coe_ne_top _),
    fun e => by rw [e] at k1; exact absurd (le_bot_iff.1 k1) (EReal.coe_ne_bot _)⟩
  have k1' : p * q ≤ z := by exact_mod_cast k1
  have k3' : z ≤ (w : ℝ) := by exact_mod_cast k3
  exact ⟨z, hz, by linarith, by linarith⟩

theorem mulDown_one (hA : DirLaws tot (IsRoundDown (Fl f)) (IsRoundUp (Fl f)) B) {a b : Fl f} {p : ℝ}
    (ha : val a = some (p : EReal)) (hb : val b = some ((1 : ℝ) : EReal)) :
    Post tot (B.mulDown a b) fun c => val c = some (p : EReal) := by
  refine (hA.mulDown a b p 1 ha hb (mulOk_coe p 1)).mono fun c hc => ?_
  obtain ⟨z, hz, -, k1, k2⟩ := hc
  rw [mul_one] at k1 k2
  rw [hz, le_antisymm k1 (k2 _ ⟨a, ha⟩ le_rfl)]

theorem mulUp_one (hA : DirLaws tot (IsRoundDown (Fl f)) (IsRoundUp (Fl f)) B) {a b : Fl f} {p : ℝ}
    (ha : val a = some (p : EReal)) (hb : val b = some ((1 : ℝ) : EReal)) :
    Post tot (B.mulUp a b) fun c => val c = some (p : EReal) := by
  refine (hA.mulUp a b p 1 ha hb (mulOk_coe p 1)).mono fun c hc => ?_
  obtain ⟨z, hz, -, k1, k2⟩ := hc
  rw [mul_one] at k1 k2
  rw [hz, le_antisymm (k2 _ ⟨a, ha⟩ le_rfl) k1]

/-- An approximation of `X ^ j` by `j - 1` multiplications. -/
def In (X c d : ℝ) (j : ℕ) (v : ℝ) : Prop := X ^ j * c ^ (j - 1) ≤ v ∧ v ≤ X ^ j * d ^ (j - 1)

section
variable {X c d : ℝ} {n : ℕ} {mul : Fl f → Fl f → Res (Fl f)}

theorem In.prod {i j : ℕ} {v w z : ℝ} (hX : 0 < X) (hc : 0 ≤ c) (hd : 0 ≤ d) (hi : 0 < i) (hj : 0 < j)
    (h : In X c d i v) (h' : In X c d j w) (h1 : c * (v * w) ≤ z) (h2 : z ≤ d * (v * w)) : In X c d (i + j) z := by
  have v0 : 0 ≤ v := le_trans (by positivity) h.1
  have w0 : 0 ≤ w := le_trans (by positivity) h'.1
  obtain ⟨i, rfl⟩ := Nat.exists_eq_succ_of_ne_zero hi.ne'
  obtain ⟨j, rfl⟩ := Nat.exists_eq_succ_of_ne_zero hj.ne'
  have e : i.succ + j.succ - 1 = i + j + 1 := by omega
  unfold In at *
  rw [e]
  simp only [Nat.succ_eq_add_one, Nat.add_sub_cancel] at h h' ⊢
  constructor
  · refine le_trans ?_ h1
    calc X ^ (i + 1 + (j + 1)) * c ^ (i + j + 1) = c * ((X ^ (i + 1) * c ^ i) * (X ^ (j + 1) * c ^ j)) := by ring
      _ ≤ _ := mul_le_mul_of_nonneg_left (mul_le_mul h.1 h'.1 (by positivity) v0) hc
  · refine h2.trans ?_
    calc d * (v * w) ≤ d * ((X ^ (i + 1) * d ^ i) * (X ^ (j + 1) * d ^ j)) :=
          mul_le_mul_of_nonneg_left (mul_le_mul h.2 h'.2 w0 (by positivity)) hd
      _ = _ := by ring

/-- The loop, for any multiplication that is accurate in the range of normal numbers and exact for a factor of one. -/
theorem loop_in (hX : 0 < X) (hc : 1 - eps f ≤ c) (hc' : c ≤ 1) (hd : 1 ≤ d) (hd' : d ≤ 1 + eps f)
    (hr : ∀ e, 0 < e → e ≤ n → normal f ≤ X ^ e * (1 - eps f) ^ (e - 1) ∧ X ^ e * (1 + eps f) ^ (e - 1) ≤ maxFin f)
    (hm : ∀ {a b : Fl f} {p q : ℝ}, val a = some (p : EReal) → val b = some (q : EReal) → normal f ≤ p * q →
      p * q ≤ maxFin f → Post tot (mul a b) fun r => ∃ z : ℝ, val r = some (z : EReal) ∧ c * (p * q) ≤ z ∧ z ≤ d * (p * q))
    (h1 : ∀ {a b : Fl f} {p : ℝ}, val a = some (p : EReal) → val b = some ((1 : ℝ) : EReal) →
      Post tot (mul a b) fun r => val r = some (p : EReal)) (k : ℕ) :
    ∀ {x y : Fl f} {v w : ℝ} {i j : ℕ}, val x = some (v : EReal) → val y = some (w : EReal) → 0 < i → In X c d i v →
      In X c d j w → j + 2 * i * k ≤ n →
      Post tot (powLoop mul k x y) fun r => ∃ z : ℝ, val r = some (z : EReal) ∧ In X c d (j + 2 * i * k) z := by
  have c0 : 0 ≤ c := le_trans (sub_nonneg.2 eps_le) hc
  have d0 : 0 ≤ d := zero_le_one.trans hd
  have step : ∀ {a b : Fl f} {v w : ℝ} {i j : ℕ}, val a = some (v : EReal) → val b = some (w : EReal) → 0 < i →
      In X c d i v → In X c d j w → i + j ≤ n →
      Post tot (mul a b) fun r => ∃ z : ℝ, val r = some (z : EReal) ∧ In X c d (i + j) z := by
    intro a b v w i j ha hb hi hv hw hn
    rcases Nat.eq_zero_or_pos j with rfl | hj
    · have e : w = 1 := le_antisymm (by simpa using hw.2) (by simpa using hw.1)
      subst e
      exact (h1 ha hb).mono fun r hr => ⟨v, hr, hv⟩
    · have v0 : 0 ≤ v := le_trans (by positivity) hv.1
      have w0 : 0 ≤ w := le_trans (by positivity) hw.1
      obtain ⟨r1, r2⟩ := hr (i + j) (by omega) hn
      have b1 : X ^ (i + j) * (1 - eps f) ^ (i + j - 1) ≤ v * w := by
        refine le_trans ?_ (mul_le_mul hv.1 hw.1 (by positivity) v0)
        calc X ^ (i + j) * (1 - eps f) ^ (i + j - 1) ≤ X ^ (i + j) * c ^ ((i - 1) + (j - 1)) := by
              refine mul_le_mul_of_nonneg_left ?_ (by positivity)
              refine (pow_le_pow_left₀ (sub_nonneg.2 eps_le) hc _).trans (pow_le_pow_of_le_one c0 hc' (by omega))
          _ = _ := by rw [pow_add, pow_add]; ring
      have b2 : v * w ≤ X ^ (i + j) * (1 + eps f) ^ (i + j - 1) := by
        refine (mul_le_mul hv.2 hw.2 w0 (by positivity)).trans ?_
        calc _ = X ^ (i + j) * d ^ ((i - 1) + (j - 1)) := by rw [pow_add, pow_add]; ring
          _ ≤ _ := by
              refine mul_le_mul_of_nonneg_left ?_ (by positivity)
              exact (pow_le_pow_right₀ hd (by omega)).trans (pow_le_pow_left₀ d0 hd' _)
      exact (hm ha hb (r1.trans b1) (b2.trans r2)).mono fun r hr => hr.imp fun z hz =>
        ⟨hz.1, In.prod hX c0 d0 hi hj hv hw hz.2.1 hz.2.2⟩
  induction k using Nat.strong_induction_on with
  | _ k ih =>
    intro x y v w i j hx hy hi hv hw hn
    unfold powLoop
    by_cases hk : k = 0
    · rw [if_pos hk]
      exact Post.pure ⟨w, hy, by simpa [hk] using hw⟩
    · rw [if_neg hk]
      have hk1 : 1 ≤ k := by omega
      have hle : 2 * i ≤ 2 * i * k := Nat.le_mul_of_pos_right _ hk1
      have hdm := Nat.div_add_mod k 2
      refine (step hx hx hi hv hv (by omega)).bind fun x' hx' => ?_
      obtain ⟨v', hx', hv'⟩ := hx'
      by_cases ho : k % 2 = 1
      · simp only [ho, if_true]
        refine (step hx' hy (by omega) hv' hw (by omega)).bind fun y' hy' => ?_
        obtain ⟨w', hy', hw'⟩ := hy'
        have e : i + i + j + 2 * (i + i) * (k / 2) = j + 2 * i * k := by
          conv_rhs => rw [← hdm, ho]
          ring
        rw [← e]
        exact ih (k / 2) (by omega) hx' hy' (by omega) hv' hw' (by omega)
      · simp only [ho, if_false]
        have e : j + 2 * (i + i) * (k / 2) = j + 2 * i * k := by
          conv_rhs => rw [← hdm, (by omega : k % 2 = 0)]
          ring
        rw [← e]
        exact ih (k / 2) (by omega) hx' hy (by omega) hv' hw (by omega)

theorem In.one {v : ℝ} (h : v = X) : In X c d 1 v := by subst h; simp [In]
theorem In.zero : In X c d 0 1 := by simp [In]

theorem aux_in (hX : 0 < X) (hc : 1 - eps f ≤ c) (hc' : c ≤ 1) (hd : 1 ≤ d) (hd' : d ≤ 1 + eps f)
    (hr : ∀ e, 0 < e → e ≤ n → normal f ≤ X ^ e * (1 - eps f) ^ (e - 1) ∧ X ^ e * (1 + eps f) ^ (e - 1) ≤ maxFin f)
    (hm : ∀ {a b : Fl f} {p q : ℝ}, val a = some (p : EReal) → val b = some (q : EReal) → normal f ≤ p * q →
      p * q ≤ maxFin f → Post tot (mul a b) fun r => ∃ z : ℝ, val r = some (z : EReal) ∧ c * (p * q) ≤ z ∧ z ≤ d * (p * q))
    (h1 : ∀ {a b : Fl f} {p : ℝ}, val a = some (p : EReal) → val b = some ((1 : ℝ) : EReal) →
      Post tot (mul a b) fun r => val r = some (p : EReal)) {x : Fl f} (hx : val x = some (X : EReal)) :
    Post tot (powAux mul x n) fun r => ∃ z : ℝ, val r = some (z : EReal) ∧ In X c d n z := by
  unfold powAux
  have hdm := Nat.div_add_mod n 2
  by_cases ho : n % 2 = 1
  · simp only [ho, if_true]
    have e : n = 1 + 2 * 1 * (n / 2) := by omega
    have := loop_in hX hc hc' hd hd' hr hm h1 (n / 2) hx hx one_pos (In.one rfl) (In.one rfl) (by omega)
    rwa [← e] at this
  · simp only [ho, if_false]
    have e : n = 0 + 2 * 1 * (n / 2) := by omega
    have := loop_in hX hc hc' hd hd' hr hm h1 (n / 2) hx val_one one_pos (In.one rfl) In.zero (by omega)
    rwa [← e] at this
end

theorem two_le (m : ℕ) : 2 ≤ (1 - eps f) ^ m + (1 + eps f) ^ m := by
  have h1 := one_add_mul_le_pow (a := eps f) (by linarith [eps_pos (f := f)]) m
  have h2 := one_add_mul_le_pow (a := -eps f) (by linarith [eps_le (f := f)]) m
  rw [← sub_eq_add_neg] at h2
  linarith

variable {n : ℕ} {X : ℝ} {x : Fl f}

theorem powAux_down_acc (hA : DirLaws tot (IsRoundDown (Fl f)) (IsRoundUp (Fl f)) B) (hS : DirLaws tot LeS GeS B)
    (hn : 0 < n) (hX : 0 ≤ X) (hr : PowSafe f n X) (hx : val x = some (X : EReal)) :
    Post tot (powAux B.mulDown x n) fun r => ∃ z : ℝ, val r = some (z : EReal) ∧ z ≤ X ^ n ∧
      X ^ n - z ≤ ((1 + eps f) ^ (n - 1) - 1) * X ^ n := by
  rcases hX.eq_or_lt with rfl | h0
  · refine (powAux_down hS hx le_rfl (EReal.coe_ne_top _) n).mono fun r hr => ?_
    obtain ⟨z, hz, h1, h2⟩ := hr
    have h3 := h2 0 le_rfl
    rw [zero_pow hn.ne'] at h3
    exact ⟨0, by rw [hz, le_antisymm h3 h1], by rw [zero_pow hn.ne'], by rw [zero_pow hn.ne']; simp⟩
  · refine (aux_in h0 le_rfl (by linarith [eps_pos (f := f)]) le_rfl (by linarith [eps_pos (f := f)])
      (fun e h1 h2 => hr.resolve_left h0.ne' e h1 h2) (mulDown_acc hA) (mulDown_one hA) hx).mono fun r hr => hr.imp fun z hz => ⟨hz.1, ?_, ?_⟩
    · simpa using hz.2.2
    · have := hz.2.1
      have h2 := mul_le_mul_of_nonneg_right (two_le (f := f) (n - 1)) (pow_nonneg hX n)
      linarith

theorem powAux_up_acc (hA : DirLaws tot (IsRoundDown (Fl f)) (IsRoundUp (Fl f)) B) (hS : DirLaws tot LeS GeS B)
    (hn : 0 < n) (hX : 0 ≤ X) (hr : PowSafe f n X) (hx : val x = some (X : EReal)) :
    Post tot (powAux B.mulUp x n) fun r => ∃ z : ℝ, val r = some (z : EReal) ∧ X ^ n ≤ z ∧
      z - X ^ n ≤ ((1 + eps f) ^ (n - 1) - 1) * X ^ n := by
  rcases hX.eq_or_lt with rfl | h0
  · refine (powAux_up hS hx le_rfl n hn).mono fun r hr => ?_
    obtain ⟨z, hz, h1, h2⟩ := hr
    exact ⟨0, by rw [hz, h2 rfl]; rfl, by rw [zero_pow hn.ne'], by rw [zero_pow hn.ne']; simp⟩
  · refine (aux_in h0 (by linarith [eps_pos (f := f)]) le_rfl (by linarith [eps_pos (f := f)]) le_rfl
      (fun e h1 h2 => hr.resolve_left h0.ne' e h1 h2) (mulUp_acc hA) (mulUp_one hA) hx).mono fun r hr => hr.imp fun z hz => ⟨hz.1, ?_, ?_⟩
    · simpa using hz.2.1
    · have := hz.2.2
      linarith

/-- What a lower and an upper bound must meet. -/
theorem rel_of {n : ℕ} {z : Itv (Fl f)} {S : Set ℝ} {a b l u : ℝ} (ha : IsLeast S a) (hb : IsGreatest S b)
    (hl : val z.lower = some (l : EReal)) (hu : val z.upper = some (u : EReal)) (l1 : l ≤ a)
    (l2 : a - l ≤ ((1 + eps f) ^ n - 1) * |a|) (u1 : b ≤ u) (u2 : u - b ≤ ((1 + eps f) ^ n - 1) * |b|) :
    WithinRel n z S := by
  refine ⟨fun q hq => ⟨_, _, hl, hu, ?_, ?_⟩, fun a' h => ?_, fun b' h => ?_⟩
  · exact_mod_cast l1.trans (ha.2 hq)
  · exact_mod_cast (hb.2 hq).trans u1
  · obtain rfl := h.unique ha.isGLB
    exact ⟨l, hl, l1, l2⟩
  · obtain rfl := h.unique hb.isLUB
    exact ⟨u, hu, u1, u2⟩

theorem powNat_acc (hA : DirLaws tot (IsRoundDown (Fl f)) (IsRoundUp (Fl f)) B) (hS : DirLaws tot LeS GeS B)
    {C : Checking (Fl f)} (hC : ChkLaws C) {x : Itv (Fl f)} {p q : ℝ} (hx : Has x (p : EReal) q) (hn : 0 < n)
    (hp : PowSafe f n |p|) (hq : PowSafe f n |q|) :
    Post tot (powNat (purePolicies B C) x n) fun z => WithinRel (n - 1) z {w | ∃ r, r ∈ γ x ∧ r ^ n = w} := by
  have pq : p ≤ q := by exact_mod_cast hx.le
  have mem : ∀ {r : ℝ}, r ∈ γ x ↔ p ≤ r ∧ r ≤ q := by
    intro r; rw [hx.gamma]
    exact ⟨fun h => ⟨by exact_mod_cast h.1, by exact_mod_cast h.2⟩, fun h => ⟨by exact_mod_cast h.1, by exact_mod_cast h.2⟩⟩
  have hpm : p ∈ γ x := mem.2 ⟨le_rfl, pq⟩
  have hqm : q ∈ γ x := mem.2 ⟨pq, le_rfl⟩
  have c0 : ((q : EReal) < 0) ↔ q < 0 := by exact_mod_cast Iff.rfl
  have c1 : ((p : EReal) < 0) ↔ p < 0 := by exact_mod_cast Iff.rfl
  unfold powNat
  rw [pure_chk, res_if_false (hx.test hC), if_neg hn.ne', pure_scope, pure_rnd]
  simp only [isNeg_eq hx.up, isNeg_eq hx.lo, decide_eq_true_eq, c0, c1]
  have odd : n % 2 = 1 → ∀ {r s : ℝ}, r ≤ s → r ^ n ≤ s ^ n := fun h => fun hrs => (Nat.odd_iff.2 h).pow_le_pow.2 hrs
  have oddn : n % 2 = 1 → ∀ r : ℝ, (-r) ^ n = -r ^ n := fun h r => (Nat.odd_iff.2 h).neg_pow r
  have evn : ¬ n % 2 = 1 → ∀ r : ℝ, (-r) ^ n = r ^ n := fun h r => Even.neg_pow (Nat.even_iff.2 (by omega)) r
  split_ifs with h1 ho h2 ho
  · refine (neg_post hA.neg hx.up).bind fun nu hnu => ?_
    rw [← EReal.coe_neg] at hnu
    rw [abs_of_neg h1] at hq
    rw [abs_of_neg (pq.trans_lt h1)] at hp
    refine (powAux_down_acc hA hS hn (by linarith) hq hnu).bind fun yl hyl => ?_
    refine (neg_post hA.neg hx.lo).bind fun nl hnl => ?_
    rw [← EReal.coe_neg] at hnl
    refine (powAux_up_acc hA hS hn (by linarith) hp hnl).bind fun yu hyu => ?_
    obtain ⟨l, hl, l1, l2⟩ := hyl
    obtain ⟨u, hu, u1, u2⟩ := hyu
    refine (neg_post hA.neg hu).bind fun c hc => (neg_post hA.neg hl).bind fun d hd => Post.pure ?_
    rw [← EReal.coe_neg] at hc hd
    rw [oddn ho] at l1 l2 u1 u2
    have e1 : |p ^ n| = -p ^ n := abs_of_nonpos (by rw [← neg_nonneg, ← oddn ho]; exact pow_nonneg (by linarith) _)
    have e2 : |q ^ n| = -q ^ n := abs_of_nonpos (by rw [← neg_nonneg, ← oddn ho]; exact pow_nonneg (by linarith) _)
    refine rel_of (a := p ^ n) (b := q ^ n) ⟨⟨p, hpm, rfl⟩, ?_⟩ ⟨⟨q, hqm, rfl⟩, ?_⟩ hc hd (by linarith) (by rw [e1]; linarith)
      (by linarith) (by rw [e2]; linarith)
    · rintro _ ⟨r, hr, rfl⟩; exact odd ho (mem.1 hr).1
    · rintro _ ⟨r, hr, rfl⟩; exact odd ho (mem.1 hr).2
  · refine (neg_post hA.neg hx.up).bind fun nu hnu => ?_
    rw [← EReal.coe_neg] at hnu
    rw [abs_of_neg h1] at hq
    rw [abs_of_neg (pq.trans_lt h1)] at hp
    refine (powAux_down_acc hA hS hn (by linarith) hq hnu).bind fun yl hyl => ?_
    refine (neg_post hA.neg hx.lo).bind fun nl hnl => ?_
    rw [← EReal.coe_neg] at hnl
    refine (powAux_up_acc hA hS hn (by linarith) hp hnl).bind fun yu hyu => ?_
    obtain ⟨l, hl, l1, l2⟩ := hyl
    obtain ⟨u, hu, u1, u2⟩ := hyu
    refine Post.pure ?_
    rw [evn ho] at l1 l2 u1 u2
    have e1 : |p ^ n| = p ^ n := abs_of_nonneg (by rw [← evn ho]; exact pow_nonneg (by linarith) _)
    have e2 : |q ^ n| = q ^ n := abs_of_nonneg (by rw [← evn ho]; exact pow_nonneg (by linarith) _)
    refine rel_of (a := q ^ n) (b := p ^ n) ⟨⟨q, hqm, rfl⟩, ?_⟩ ⟨⟨p, hpm, rfl⟩, ?_⟩ hl hu (by linarith) (by rw [e2]; linarith)
      (by linarith) (by rw [e1]; linarith)
    · rintro _ ⟨r, hr, rfl⟩
      rw [← evn ho q, ← evn ho r]; exact pow_le_pow_left₀ (by linarith) (by linarith [(mem.1 hr).2]) n
    · rintro _ ⟨r, hr, rfl⟩
      rw [← evn ho p, ← evn ho r]
      exact pow_le_pow_left₀ (by linarith [(mem.1 hr).2]) (by linarith [(mem.1 hr).1]) n
  · have q0 := not_lt.1 h1
    rw [abs_of_neg h2] at hp
    rw [abs_of_nonneg q0] at hq
    have k1 : Post tot (do let nl ← negM x.lower; let r ← powAux B.mulUp nl n; negM r : Res (Fl f)) fun c => ∃ z : ℝ,
        val c = some ((-z : ℝ) : EReal) ∧ (-p) ^ n ≤ z ∧ z - (-p) ^ n ≤ ((1 + eps f) ^ (n - 1) - 1) * (-p) ^ n := by
      refine (neg_post hA.neg hx.lo).bind fun nl hnl => ?_
      rw [← EReal.coe_neg] at hnl
      refine (powAux_up_acc hA hS hn (by linarith) hp hnl).bind fun r hr => ?_
      obtain ⟨u, hu, hu'⟩ := hr
      exact (neg_post hA.neg hu).mono fun c hc => ⟨u, by rw [hc, EReal.coe_neg], hu'⟩
    refine (k1.pair (powAux_up_acc hA hS hn q0 hq hx.up)).bind fun r hr => Post.pure ?_
    obtain ⟨⟨l, hl, l1, l2⟩, ⟨u, hu, u1, u2⟩⟩ := hr
    rw [oddn ho] at l1 l2
    have e1 : |p ^ n| = -p ^ n := abs_of_nonpos (by rw [← neg_nonneg, ← oddn ho]; exact pow_nonneg (by linarith) _)
    refine rel_of (a := p ^ n) (b := q ^ n) ⟨⟨p, hpm, rfl⟩, ?_⟩ ⟨⟨q, hqm, rfl⟩, ?_⟩ hl hu (by linarith) (by rw [e1]; linarith)
      u1 (by rw [abs_of_nonneg (pow_nonneg q0 n)]; exact u2)
    · rintro _ ⟨r, hr, rfl⟩; exact odd ho (mem.1 hr).1
    · rintro _ ⟨r, hr, rfl⟩; exact odd ho (mem.1 hr).2
  · have q0 := not_lt.1 h1
    rw [abs_of_neg h2] at hp
    rw [abs_of_nonneg q0] at hq
    refine (neg_post hA.neg hx.lo).bind fun nl hnl => ?_
    rw [← EReal.coe_neg] at hnl
    have hm := val_stdMax hnl hx.up
    have zm : (0 : ℝ) ∈ γ x := mem.2 ⟨h2.le, q0⟩
    have lst : IsLeast {w | ∃ r, r ∈ γ x ∧ r ^ n = w} 0 :=
      ⟨⟨0, zm, zero_pow hn.ne'⟩, by rintro _ ⟨r, -, rfl⟩; exact Even.pow_nonneg (Nat.even_iff.2 (by omega)) r⟩
    have z0 : val (Num.lit 0 : Fl f) = some ((0 : ℝ) : EReal) := val_zero
    rcases le_total (-p) q with h | h
    · rw [max_eq_right (by exact_mod_cast h)] at hm
      refine (powAux_up_acc hA hS hn q0 hq hm).bind fun u hu => Post.pure ?_
      obtain ⟨u, hu, u1, u2⟩ := hu
      refine rel_of lst (b := q ^ n) ⟨⟨q, hqm, rfl⟩, ?_⟩ z0 hu le_rfl (by simp) u1
        (by rw [abs_of_nonneg (pow_nonneg q0 n)]; exact u2)
      rintro _ ⟨r, hr, rfl⟩
      rw [← Even.pow_abs (Nat.even_iff.2 (by omega)) r]
      exact pow_le_pow_left₀ (abs_nonneg _) (abs_le.2 ⟨by linarith [(mem.1 hr).1], (mem.1 hr).2⟩) n
    · rw [max_eq_left (by exact_mod_cast h)] at hm
      refine (powAux_up_acc hA hS hn (by linarith) hp hm).bind fun u hu => Post.pure ?_
      obtain ⟨u, hu, u1, u2⟩ := hu
      rw [evn ho] at u1 u2
      refine rel_of lst (b := p ^ n) ⟨⟨p, hpm, rfl⟩, ?_⟩ z0 hu le_rfl (by simp) u1
        (by rw [abs_of_nonneg (by rw [← evn ho]; exact pow_nonneg (by linarith) n)]; exact u2)
      rintro _ ⟨r, hr, rfl⟩
      rw [← Even.pow_abs (Nat.even_iff.2 (by omega)) r, ← evn ho p]
      exact pow_le_pow_left₀ (abs_nonneg _) (abs_le.2 ⟨by linarith [(mem.1 hr).1], by linarith [(mem.1 hr).2]⟩) n
  · have p0 := not_lt.1 h2
    have q0 := not_lt.1 h1
    rw [abs_of_nonneg p0] at hp
    rw [abs_of_nonneg q0] at hq
    refine ((powAux_down_acc hA hS hn p0 hp hx.lo).pair (powAux_up_acc hA hS hn q0 hq hx.up)).bind fun r hr => Post.pure ?_
    obtain ⟨⟨l, hl, l1, l2⟩, ⟨u, hu, u1, u2⟩⟩ := hr
    refine rel_of (a := p ^ n) (b := q ^ n) ⟨⟨p, hpm, rfl⟩, ?_⟩ ⟨⟨q, hqm, rfl⟩, ?_⟩ hl hu l1
      (by rw [abs_of_nonneg (pow_nonneg p0 n)]; exact l2) u1 (by rw [abs_of_nonneg (pow_nonneg q0 n)]; exact u2)
    · rintro _ ⟨r, hr, rfl⟩; exact pow_le_pow_left₀ p0 (mem.1 hr).1 n
    · rintro _ ⟨r, hr, rfl⟩; exact pow_le_pow_left₀ (p0.trans (mem.1 hr).1) (mem.1 hr).2 n

/-- The smallest and the largest power decide. -/
theorem powSafe_of {n : ℕ} {X : ℝ} (hX : 0 < X) (h1 : normal f ≤ X) (h2 : X ≤ maxFin f)
    (h3 : normal f ≤ X ^ n * (1 - eps f) ^ (n - 1)) (h4 : X ^ n * (1 + eps f) ^ (n - 1) ≤ maxFin f) : PowSafe f n X := by
  refine .inr fun e he hn => ?_
  have c0 : 0 ≤ 1 - eps f := sub_nonneg.2 eps_le
  have d0 : 0 ≤ 1 + eps f := by linarith [eps_pos (f := f)]
  obtain ⟨e, rfl⟩ := Nat.exists_eq_succ_of_ne_zero he.ne'
  obtain ⟨n, rfl⟩ := Nat.exists_eq_succ_of_ne_zero (show n ≠ 0 by omega)
  simp only [Nat.succ_eq_add_one, Nat.add_sub_cancel] at *
  have key : ∀ (m : ℕ) (g : ℝ), X ^ (m + 1) * g ^ m = X * (X * g) ^ m := fun m g => by rw [mul_pow, pow_succ]; ring
  rw [key] at h3 h4 ⊢
  rw [key]
  have hle : e ≤ n := by omega
  constructor
  · rcases le_total 1 (X * (1 - eps f)) with h | h
    · exact h1.trans (le_mul_of_one_le_right hX.le (one_le_pow₀ h))
    · exact h3.trans (mul_le_mul_of_nonneg_left (pow_le_pow_of_le_one (by positivity) h hle) hX.le)
  · rcases le_total 1 (X * (1 + eps f)) with h | h
    · exact le_trans (mul_le_mul_of_nonneg_left (pow_le_pow_right₀ h hle) hX.le) h4
    · exact le_trans (mul_le_of_le_one_right hX.le (pow_le_one₀ (by positivity) h)) h2

end Accuracy
end BI
