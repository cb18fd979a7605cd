import Mathlib.NumberTheory.Real.Irrational
import Verif.Proofs.Root
import Verif.Proofs.Instances
/-! # `nth_root` on exact rational numbers -/

namespace BI
open Set

theorem rat_pow (l u : ℚ) (hl : 0 < l) (hu : 0 < u) :
    powI ratEnv.pp ⟨l, u⟩ 2 = .ok ⟨l * l, u * u⟩ ∧ powI ratEnv.pp ⟨l, u⟩ 1 = .ok ⟨l, u⟩ := by
  have n1 : isNeg l = false := decide_eq_false (not_lt.2 hl.le)
  have n2 : isNeg u = false := decide_eq_false (not_lt.2 hu.le)
  have hp : ∀ x : ℚ, powLoop (fun a b : ℚ => (Except.ok (a * b) : Res ℚ)) 1 x 1 = .ok (x * x) := by
    intro x
    unfold powLoop
    change powLoop (fun a b : ℚ => (Except.ok (a * b) : Res ℚ)) 0 (x * x) (x * x * 1) = _
    unfold powLoop
    rw [mul_one]; rfl
  constructor
  · change (if isNeg u = true then _ else if isNeg l = true then _ else
      mk2 (powLoop (fun a b : ℚ => (Except.ok (a * b) : Res ℚ)) 1 l 1) (powLoop (fun a b : ℚ => (Except.ok (a * b) : Res ℚ)) 1 u 1)) = _
    rw [n1, n2, hp, hp]
    rfl
  · change (if isNeg u = true then _ else if isNeg l = true then _ else
      mk2 (powLoop (fun a b : ℚ => (Except.ok (a * b) : Res ℚ)) 0 l l) (powLoop (fun a b : ℚ => (Except.ok (a * b) : Res ℚ)) 0 u u)) = _
    rw [n1, n2]
    unfold powLoop
    rfl

theorem rat_step (l u : ℚ) (h1 : 1 ≤ l) (h2 : l * l < 2) (h3 : 2 < u * u) (h4 : u ≤ 2) (h5 : 0 < u) :
    ∃ l' u' : ℚ, rootStep ratEnv.pp 2 2 2 ⟨l, u⟩ = .ok ⟨l', u'⟩ ∧ 1 ≤ l' ∧ l' * l' < 2 ∧ 2 < u' * u' ∧ u' ≤ 2 ∧ 0 < u' ∧
      ¬ (l = l' ∧ u = u') := by
  set m := (l + u) / 2 with hm
  have hlu : l < u := by nlinarith
  have m0 : 0 < m := by rw [hm]; linarith
  have hmed : median ratEnv.pp ⟨l, u⟩ = .ok m := rfl
  have d0 : isPos (2 * l) = true := decide_eq_true (by change (0 : ℚ) < 2 * l; linarith)
  have d1 : isNeg (2 * u) = false := decide_eq_false (by change ¬ (2 * u < (0 : ℚ)); linarith)
  set v := m * m - 2 with hv
  have key : ∀ s t : ℚ, divII ratEnv.pp ⟨v, v⟩ ⟨2 * l, 2 * u⟩ = .ok ⟨s, t⟩ →
     rootStep ratEnv.pp 2 2 2 ⟨l, u⟩ = intersect ratEnv.C ⟨l, u⟩ ⟨m - t, m - s⟩ := by
    intro s t h
    unfold rootStep
    rw [hmed]
    change (powI ratEnv.pp ⟨m, m⟩ 2 >>= _) = _
    rw [(rat_pow m m m0 m0).1]
    change (powI ratEnv.pp ⟨l, u⟩ 1 >>= _) = _
    rw [(rat_pow l u (by linarith) h5).2]
    change (divII ratEnv.pp ⟨v, v⟩ ⟨2 * l, 2 * u⟩ >>= _) = _
    rw [h]
    rfl
  have hdiv : ∀ a b : ℚ, b ≠ 0 → (ofOpt (Num.div .near a b) : Res ℚ) = .ok (a / b) := by
    intro a b hb
    change (ofOpt (if b = 0 then none else some (a / b)) : Res ℚ) = _
    rw [if_neg hb]; rfl
  have l2 : 2 * l ≠ 0 := by linarith
  have u2 : 2 * u ≠ 0 := by linarith
  have hd : divII ratEnv.pp ⟨v, v⟩ ⟨2 * l, 2 * u⟩ = .ok (if v < 0 then ⟨v / (2 * l), v / (2 * u)⟩ else ⟨v / (2 * u), v / (2 * l)⟩) := by
    change (if (!isPos (2 * l) && !isNeg (2 * u)) = true then _ else _) = _
    rw [d0]
    change (if isNeg v = true then if isNeg (2 * u) = true then _ else mk2 (ofOpt (Num.div .near v (2 * l)) : Res ℚ) (ofOpt (Num.div .near v (2 * u)))
      else if isNeg v = true then _ else if isNeg (2 * u) = true then _ else mk2 (ofOpt (Num.div .near v (2 * u)) : Res ℚ) (ofOpt (Num.div .near v (2 * l)))) = _
    rw [d1, hdiv _ _ l2, hdiv _ _ u2]
    by_cases h : v < 0
    · rw [show isNeg v = true from decide_eq_true h, if_pos h]; rfl
    · rw [show isNeg v = false from decide_eq_false h, if_neg h]; rfl
  have hint : ∀ a b : ℚ, max l a ≤ min u b → intersect ratEnv.C ⟨l, u⟩ ⟨a, b⟩ = .ok ⟨max l a, min u b⟩ := by
    intro a b h
    have e1 : stdMax l a = max l a := by
      unfold stdMax
      change (if decide (l < a) = true then a else l) = _
      by_cases h : l < a
      · rw [if_pos (decide_eq_true h), max_eq_right h.le]
      · rw [if_neg (by simpa using h), max_eq_left (not_lt.1 h)]
    have e2 : stdMin u b = min u b := by
      unfold stdMin
      change (if decide (b < u) = true then b else u) = _
      by_cases h : b < u
      · rw [if_pos (decide_eq_true h), min_eq_right h.le]
      · rw [if_neg (by simpa using h), min_eq_left (not_lt.1 h)]
    unfold intersect
    change (if Num.le (stdMax l a) (stdMin u b) = true then _ else _) = _
    rw [e1, e2]
    exact if_pos (decide_eq_true h)
  have hlt : ∀ a b : ℚ, 0 < b → a * a < 2 → 2 < b * b → a ≤ b := by
    intro a b hb h h'
    by_contra hc
    nlinarith
  have fin : ∀ A B : ℚ, rootStep ratEnv.pp 2 2 2 ⟨l, u⟩ = intersect ratEnv.C ⟨l, u⟩ ⟨A, B⟩ → A * A < 2 → 2 < B * B → 0 < B →
      (l < A ∨ B < u) → ∃ l' u' : ℚ, rootStep ratEnv.pp 2 2 2 ⟨l, u⟩ = .ok ⟨l', u'⟩ ∧ 1 ≤ l' ∧ l' * l' < 2 ∧ 2 < u' * u' ∧ u' ≤ 2 ∧ 0 < u' ∧
      ¬ (l = l' ∧ u = u') := by
    intro A B h hA hB hB0 hne
    have q1 : max l A * max l A < 2 := by rcases max_choice l A with e | e <;> rw [e] <;> assumption
    have q2 : 2 < min u B * min u B := by rcases min_choice u B with e | e <;> rw [e] <;> assumption
    have q3 : 0 < min u B := lt_min h5 hB0
    refine ⟨max l A, min u B, h.trans (hint A B (hlt _ _ q3 q1 q2)), h1.trans (le_max_left _ _), q1, q2, (min_le_left _ _).trans h4, q3, ?_⟩
    rintro ⟨e1, e2⟩
    rcases hne with h | h
    · rw [max_eq_right h.le] at e1; linarith
    · rw [min_eq_right h.le] at e2; linarith
  have lm : l < m := by rw [hm]; linarith
  have mu : m < u := by rw [hm]; linarith
  have l0 : 0 < l := by linarith
  by_cases hv0 : v < 0
  · rw [if_pos hv0] at hd
    have a1 : -v / (2 * u) * (2 * u) = -v := div_mul_cancel₀ _ u2
    have a2 : -v / (2 * l) * (2 * l) = -v := div_mul_cancel₀ _ l2
    have a3 : 0 < -v / (2 * u) := div_pos (by linarith) (by linarith)
    have a4 : 0 < -v / (2 * l) := div_pos (by linarith) (by linarith)
    refine fin _ _ (key _ _ hd) ?_ ?_ ?_ (.inl ?_)
    · rw [sub_eq_add_neg, ← neg_div]
      set w := -v / (2 * u)
      have : w * u * 2 = 2 - m * m := by linarith
      have h6 : w < u - m := by nlinarith
      nlinarith
    · rw [sub_eq_add_neg, ← neg_div]
      set w := -v / (2 * l)
      have : w * l * 2 = 2 - m * m := by linarith
      nlinarith
    · rw [sub_eq_add_neg, ← neg_div]; linarith
    · rw [sub_eq_add_neg, ← neg_div]; linarith
  · rw [if_neg hv0] at hd
    have hv1 : v ≠ 0 := by
      intro h
      have h7 : (m : ℝ) * m = 2 := by
        have : m * m = 2 := by linarith
        exact_mod_cast this
      have h8 : Real.sqrt 2 = m := by
        rw [Real.sqrt_eq_iff_mul_self_eq (by norm_num) (by exact_mod_cast m0.le)]; exact h7.symm
      exact irrational_sqrt_two ⟨m, h8.symm⟩
    have hv2 : 0 < v := lt_of_le_of_ne (not_lt.1 hv0) hv1.symm
    have a1 : v / (2 * u) * (2 * u) = v := div_mul_cancel₀ _ u2
    have a2 : v / (2 * l) * (2 * l) = v := div_mul_cancel₀ _ l2
    have a3 : 0 < v / (2 * u) := div_pos hv2 (by linarith)
    have a4 : 0 < v / (2 * l) := div_pos hv2 (by linarith)
    refine fin _ _ (key _ _ hd) ?_ ?_ ?_ (.inr ?_)
    · set w := v / (2 * l)
      have : w * l * 2 = m * m - 2 := by linarith
      have h6 : w < 2 * (m - l) := by nlinarith
      nlinarith
    · set w := v / (2 * u)
      have : w * u * 2 = m * m - 2 := by linarith
      nlinarith
    · set w := v / (2 * u)
      have : w * u * 2 = m * m - 2 := by linarith
      nlinarith
    · linarith

theorem rat_loop (fuel : ℕ) (l u : ℚ) (h1 : 1 ≤ l) (h2 : l * l < 2) (h3 : 2 < u * u) (h4 : u ≤ 2) (h5 : 0 < u) :
    rootLoop ratEnv.pp 2 2 2 fuel ⟨l, u⟩ = .error .fuel := by
  induction fuel generalizing l u with
  | zero => rfl
  | succ k ih =>
    obtain ⟨l', u', e, k1, k2, k3, k4, k5, k6⟩ := rat_step l u h1 h2 h3 h4 h5
    unfold rootLoop
    rw [e]
    change (if (decide (l = l') && decide (u = u')) = true then _ else rootLoop ratEnv.pp 2 2 2 k ⟨l', u'⟩) = _
    rw [if_neg (by simpa using k6)]
    exact ih l' u' k1 k2 k3 k4 k5

end BI
