import Mathlib.Algebra.Order.Ring.GeomSum
import Mathlib.Algebra.BigOperators.Intervals
import Mathlib.Tactic.Linarith
import Mathlib.Tactic.FieldSimp
import Mathlib.Data.EReal.Basic
/-! # A Newton step with an index that is only nearly right

`nth_root` converts its index to the base type; the conversion is rounded if the index has too many digits. The step
`y0 - (y0^n - x) / (k y^(n-1))` then does not enclose the root for every `y0`, but its upper bound, rounded, does. -/

namespace BI
open Finset

variable {n : ℕ} {l u m s κ η : ℝ}

/-- The difference quotient of the power. -/
noncomputable def powDq (n : ℕ) (a b : ℝ) : ℝ := ∑ i ∈ range n, a ^ i * b ^ (n - 1 - i)

theorem powDq_mul (n : ℕ) (a b : ℝ) : (a - b) * powDq n a b = a ^ n - b ^ n := by
  rw [mul_comm]
  exact (Commute.all a b).geom_sum₂_mul n

theorem powDq_comm (n : ℕ) (a b : ℝ) : powDq n a b = powDq n b a := (Commute.all a b).geom_sum₂_comm n

theorem powDq_ge {h : ℝ} (h0 : 0 ≤ h) (hl : 0 ≤ l) (ha : l * (1 + h) ≤ m) (hb : l ≤ s) :
    l ^ (n - 1) * ∑ i ∈ range n, (1 + h) ^ i ≤ powDq n m s := by
  unfold powDq
  rw [mul_sum]
  refine sum_le_sum fun i hi => ?_
  have hi' : i < n := mem_range.1 hi
  calc l ^ (n - 1) * (1 + h) ^ i = (l * (1 + h)) ^ i * l ^ (n - 1 - i) := by
        rw [mul_pow, mul_right_comm, ← pow_add]
        congr 2; congr 1; omega
    _ ≤ m ^ i * s ^ (n - 1 - i) :=
        mul_le_mul (pow_le_pow_left₀ (by positivity) ha i) (pow_le_pow_left₀ hl hb _) (by positivity)
          (pow_nonneg (le_trans (by positivity) ha) _)

theorem powDq_le {r : ℝ} (hm : 0 ≤ m) (hs : 0 ≤ s) (ha : m ≤ u * r) (hb : s ≤ u) :
    powDq n m s ≤ u ^ (n - 1) * ∑ i ∈ range n, r ^ i := by
  unfold powDq
  rw [mul_sum]
  refine sum_le_sum fun i hi => ?_
  have hi' : i < n := mem_range.1 hi
  calc m ^ i * s ^ (n - 1 - i) ≤ (u * r) ^ i * u ^ (n - 1 - i) :=
        mul_le_mul (pow_le_pow_left₀ hm ha i) (pow_le_pow_left₀ hs hb _) (by positivity) (pow_nonneg (hm.trans ha) _)
    _ = u ^ (n - 1) * r ^ i := by
        rw [mul_pow, mul_right_comm, ← pow_add]
        congr 2; congr 1; omega

theorem powDq_ge' (hl : 0 ≤ l) (ha : l ≤ m) (hb : l ≤ s) : n * l ^ (n - 1) ≤ powDq n m s := by
  have := powDq_ge (n := n) le_rfl hl (by simpa using ha) hb
  simpa [mul_comm] using this

theorem powDq_le' (hm : 0 ≤ m) (hs : 0 ≤ s) (ha : m ≤ u) (hb : s ≤ u) : powDq n m s ≤ n * u ^ (n - 1) := by
  have := powDq_le (n := n) (r := 1) hm hs (by simpa using ha) hb
  simpa [mul_comm] using this

theorem sum_ge {h : ℝ} (h0 : 0 ≤ h) : (n : ℝ) + n * (n - 1) / 2 * h ≤ ∑ i ∈ range n, (1 + h) ^ i := by
  have h1 : ∀ i ∈ range n, 1 + (i : ℝ) * h ≤ (1 + h) ^ i := fun i _ => one_add_mul_le_pow (by linarith) i
  refine le_trans (le_of_eq ?_) (sum_le_sum h1)
  rw [sum_add_distrib, ← sum_mul]
  have h2 : ∀ n : ℕ, (∑ i ∈ range n, (i : ℝ)) = n * (n - 1) / 2 := by
    intro n
    induction n with
    | zero => simp
    | succ n ih => rw [sum_range_succ, ih]; push_cast; ring
  rw [h2]
  simp

theorem sum_le {h : ℝ} (h0 : 0 < h) (hn : 16 ≤ n) (hh : 3 / 4 ≤ n * h) :
    ∑ i ∈ range n, (1 + h)⁻¹ ^ i ≤ 7 / 8 * n := by
  have r0 : 0 < (1 + h)⁻¹ := inv_pos.2 (by linarith)
  have r1 : (1 + h)⁻¹ ≤ 1 := inv_le_one_of_one_le₀ (by linarith)
  obtain ⟨k, j, hkj, hk1, hk2⟩ : ∃ k j : ℕ, j + k = n ∧ k ≤ j ∧ j ≤ k + 1 := ⟨n / 2, n - n / 2, by omega, by omega, by omega⟩
  have hc : ∀ i, (1 + h)⁻¹ ^ (j + i) ≤ 8 / 11 := by
    intro i
    calc (1 + h)⁻¹ ^ (j + i) ≤ (1 + h)⁻¹ ^ j := pow_le_pow_of_le_one r0.le r1 (by omega)
      _ = ((1 + h) ^ j)⁻¹ := inv_pow _ _
      _ ≤ (11 / 8 : ℝ)⁻¹ := by
        refine inv_anti₀ (by norm_num) (le_trans ?_ (one_add_mul_le_pow (by linarith) j))
        have : (n : ℝ) ≤ 2 * j := by exact_mod_cast (by omega : n ≤ 2 * j)
        nlinarith
      _ = 8 / 11 := by norm_num
  rw [← hkj, sum_range_add]
  have h1 : ∑ i ∈ range j, (1 + h)⁻¹ ^ i ≤ j := by
    calc ∑ i ∈ range j, (1 + h)⁻¹ ^ i ≤ ∑ i ∈ range j, (1 : ℝ) := sum_le_sum fun i _ => pow_le_one₀ r0.le r1
      _ = j := by simp
  have h2 : ∑ i ∈ range k, (1 + h)⁻¹ ^ (j + i) ≤ k * (8 / 11) := by
    calc ∑ i ∈ range k, (1 + h)⁻¹ ^ (j + i) ≤ ∑ i ∈ range k, (8 / 11 : ℝ) := sum_le_sum fun i _ => hc i
      _ = k * (8 / 11) := by simp
  have k1 : (j : ℝ) ≤ k + 1 := by exact_mod_cast hk2
  have k2 : (16 : ℝ) ≤ j + k := by exact_mod_cast (by omega : 16 ≤ j + k)
  push_cast
  linarith

/-- The root lies between the bounds of the step. `e` and `f` are the bounds of an interval that contains the step for
every point of `[l, u]`; the values around `l`, `m`, `u` and `f` are at least a factor `1 + η` apart. -/
theorem newton_out {e f : EReal} (hn : 16 ≤ n) (h1 : 1 ≤ l) (hls : l ≤ s) (hsu : s ≤ u) (hlm : l ≤ m) (hmu : m ≤ u)
    (hη : 0 < η) (hη1 : η ≤ 1) (hnη : 1 ≤ n * η) (k1 : 7 / 8 * n ≤ κ) (k2 : κ ≤ 9 / 8 * n)
    (g1 : l < m → l * (1 + η) ≤ m) (g2 : m < u → m * (1 + η) ≤ u)
    (g3 : (l : EReal) < f → ((l * (1 + η) : ℝ) : EReal) ≤ f) (g4 : ∀ t : ℝ, f = t → t < u → t * (1 + η) ≤ u)
    (he : ∀ q, l ≤ q → q ≤ u → e ≤ ((m - (m ^ n - s ^ n) / (κ * q ^ (n - 1)) : ℝ) : EReal))
    (hf : ∀ q, l ≤ q → q ≤ u → ((m - (m ^ n - s ^ n) / (κ * q ^ (n - 1)) : ℝ) : EReal) ≤ f) :
    e ≤ (s : EReal) ∧ (s : EReal) ≤ f := by
  have n0 : (16 : ℝ) ≤ n := by exact_mod_cast hn
  have κ0 : 0 < κ := by linarith
  have hlu : l ≤ u := hls.trans hsu
  have hpl : 0 < l ^ (n - 1) := pow_pos (by linarith) _
  have hpu : 0 < u ^ (n - 1) := pow_pos (by linarith) _
  rcases eq_or_ne s m with rfl | hsm
  · have a1 := he l le_rfl hlu
    have a2 := hf l le_rfl hlu
    rw [sub_self, zero_div, sub_zero] at a1 a2
    exact ⟨a1, a2⟩
  have pt : ∀ q, m - (m ^ n - s ^ n) / (κ * q ^ (n - 1)) = m - (m - s) * (powDq n m s / (κ * q ^ (n - 1))) := by
    intro q; rw [← powDq_mul, mul_div_assoc]
  simp only [pt] at he hf
  have d0 : 0 < powDq n m s := lt_of_lt_of_le (by positivity) (powDq_ge' (n := n) (by linarith) hlm hls)
  have dl := powDq_ge' (n := n) (by linarith) hlm hls
  have du := powDq_le' (n := n) (by linarith) (by linarith) hmu hsu
  by_cases hL : κ * l ^ (n - 1) ≤ powDq n m s
  · have ql : 1 ≤ powDq n m s / (κ * l ^ (n - 1)) := by rw [le_div_iff₀ (by positivity)]; linarith
    by_cases hU : powDq n m s ≤ κ * u ^ (n - 1)
    · have qu : powDq n m s / (κ * u ^ (n - 1)) ≤ 1 := by rw [div_le_iff₀ (by positivity)]; linarith
      rcases lt_or_gt_of_ne hsm with h | h
      · refine ⟨(he l le_rfl hlu).trans ?_, le_trans ?_ (hf u hlu le_rfl)⟩
        · rw [EReal.coe_le_coe_iff]; nlinarith
        · rw [EReal.coe_le_coe_iff]; nlinarith
      · refine ⟨(he u hlu le_rfl).trans ?_, le_trans ?_ (hf l le_rfl hlu)⟩
        · rw [EReal.coe_le_coe_iff]; nlinarith
        · rw [EReal.coe_le_coe_iff]; nlinarith
    · rw [not_le] at hU
      have key : ∀ {a b h : ℝ}, 0 ≤ a → 0 ≤ b → 0 < h → 3 / 4 ≤ n * h → a * (1 + h) ≤ u → b ≤ u →
          powDq n a b ≤ κ * u ^ (n - 1) := by
        intro a b h ha hb h0 hh h1 h2
        refine (powDq_le (r := (1 + h)⁻¹) ha hb (by rw [← div_eq_mul_inv, le_div_iff₀ (by linarith)]; exact h1) h2).trans ?_
        rw [mul_comm]
        exact mul_le_mul_of_nonneg_right ((sum_le h0 hn hh).trans k1) hpu.le
      have hmu' : m = u := by
        by_contra hc
        exact absurd (key (by linarith) (by linarith) hη (by linarith) (g2 (lt_of_le_of_ne hmu hc)) hsu) (not_le.2 hU)
      subst hmu'
      have hs1 : m < s * (1 + 3 / 4 * η) := by
        by_contra hc
        refine absurd ?_ (not_le.2 hU)
        rw [powDq_comm]
        exact key (by linarith) (by linarith) (by positivity) (by linarith) (not_lt.1 hc) le_rfl
      have hsm' : s < m := lt_of_le_of_ne hsu hsm
      have q1 : 1 ≤ powDq n m s / (κ * m ^ (n - 1)) := by rw [le_div_iff₀ (by positivity)]; linarith
      have q2 : powDq n m s / (κ * m ^ (n - 1)) ≤ 8 / 7 := by
        rw [div_le_iff₀ (by positivity)]
        refine du.trans ?_
        rw [← mul_assoc]
        exact mul_le_mul_of_nonneg_right (by linarith) hpu.le
      refine ⟨(he m hlu le_rfl).trans ?_, ?_⟩
      · rw [EReal.coe_le_coe_iff]; nlinarith
      · have hf' := hf m hlu le_rfl
        by_contra hc
        rw [not_le] at hc
        have f1 : f ≠ ⊤ := fun h => by rw [h] at hc; exact not_top_lt hc
        have f2 : f ≠ ⊥ := fun h => by rw [h] at hf'; exact absurd (le_bot_iff.1 hf') (EReal.coe_ne_bot _)
        lift f to ℝ using ⟨f1, f2⟩
        have hc' : f < s := by exact_mod_cast hc
        have h5 := g4 f rfl (by linarith)
        rw [EReal.coe_le_coe_iff] at hf'
        have h6 : m - (m - s) * (8 / 7) ≤ f := le_trans (by nlinarith) hf'
        have h7 : (m - (m - s) * (8 / 7)) * (1 + η) ≤ m := le_trans (mul_le_mul_of_nonneg_right h6 (by linarith)) h5
        have s0 : 0 < s := by linarith
        have h8 : m * (8 + η) < s * (1 + 3 / 4 * η) * (8 + η) := mul_lt_mul_of_pos_right hs1 (by linarith)
        have h9 : 0 < s * (η * (3 / 4 * η - 1)) := by linarith
        have h10 : η * (3 / 4 * η - 1) < 0 := mul_neg_of_pos_of_neg hη (by linarith)
        have := mul_neg_of_pos_of_neg s0 h10
        linarith
  · rw [not_le] at hL
    have key : ∀ {a b : ℝ}, l * (1 + η) ≤ a → l ≤ b → κ * l ^ (n - 1) ≤ powDq n a b := by
      intro a b ha hb
      refine le_trans ?_ (powDq_ge hη.le (by linarith) ha hb)
      rw [mul_comm]
      refine mul_le_mul_of_nonneg_left (le_trans ?_ (sum_ge hη.le)) hpl.le
      nlinarith
    have hml : m = l := by
      by_contra hc
      exact absurd (key (g1 (lt_of_le_of_ne hlm (Ne.symm hc))) hls) (not_le.2 hL)
    subst hml
    have hs1 : s < m * (1 + η) := by
      by_contra hc
      refine absurd ?_ (not_le.2 hL)
      rw [powDq_comm]
      exact key (not_lt.1 hc) le_rfl
    have hsm' : m < s := lt_of_le_of_ne hls (Ne.symm hsm)
    have hκn : (n : ℝ) < κ := by
      by_contra hc
      have := mul_le_mul_of_nonneg_right (not_lt.1 hc) hpl.le
      linarith
    have q1 : powDq n m s / (κ * u ^ (n - 1)) ≤ 1 := by
      rw [div_le_iff₀ (by positivity), one_mul]
      exact du.trans (mul_le_mul_of_nonneg_right hκn.le hpu.le)
    have q2 : 0 < powDq n m s / (κ * m ^ (n - 1)) := by positivity
    refine ⟨(he u hlu le_rfl).trans ?_, ?_⟩
    · rw [EReal.coe_le_coe_iff]; nlinarith
    · refine le_trans ?_ (g3 (lt_of_lt_of_le ?_ (hf m le_rfl hlu)))
      · exact_mod_cast hs1.le
      · rw [EReal.coe_lt_coe_iff]; nlinarith

end BI
