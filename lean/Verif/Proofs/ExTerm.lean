import Verif.Proofs.ExZeros
/-! # Termination of the programs that look for zeros, over floating-point numbers -/

set_option linter.unusedSectionVars false

namespace BI
open Set

section
variable {f : Fmt}

/-- Multiples of a power of two with at most `p` digits. -/
theorem rep_mul {k e : ℤ} (hk : |k| ≤ 2 ^ f.p) (he : f.emin ≤ e) (hm : |(k : ℚ) * 2 ^ e| ≤ maxFin f) : Rep f (k * 2 ^ e) := by
  have hp := f.hp
  rcases le_or_gt f.emax e with h | h
  · obtain ⟨d, rfl⟩ : ∃ d : ℕ, e = d + f.emax := ⟨(e - f.emax).toNat, by omega⟩
    have e1 : (k : ℚ) * 2 ^ ((d : ℤ) + f.emax) = ((k * 2 ^ d : ℤ) : ℚ) * 2 ^ f.emax := by
      rw [zpow_add₀ two_ne_zero, zpow_natCast]; push_cast; ring
    rw [e1] at hm ⊢
    refine ⟨_, f.emax, ?_, f.hmin.trans f.hmax, le_rfl, rfl⟩
    unfold maxFin at hm
    rw [abs_mul, abs_of_pos (two_zpow_pos (K := ℚ) f.emax), mul_le_mul_iff_left₀ (two_zpow_pos (K := ℚ) f.emax)] at hm
    have : |k * 2 ^ d| ≤ 2 ^ f.p - 1 := by exact_mod_cast hm
    omega
  · rcases lt_or_eq_of_le hk with h' | h'
    · exact ⟨k, e, h', he, h.le, rfl⟩
    · have h2 : (2 : ℤ) ^ f.p = 2 * 2 ^ (f.p - 1) := by rw [← pow_succ', Nat.sub_add_cancel (by omega)]
      have hpos : (0 : ℤ) < 2 ^ (f.p - 1) := by positivity
      have e2 : (2 : ℚ) ^ (e + 1) = 2 * 2 ^ e := by rw [zpow_add_one₀ two_ne_zero]; ring
      rcases abs_eq (by positivity : (0 : ℤ) ≤ 2 ^ f.p) |>.1 h' with h3 | h3
      · refine ⟨2 ^ (f.p - 1), e + 1, ?_, by omega, by omega, ?_⟩
        · rw [abs_of_pos hpos]; omega
        · rw [h3, h2, e2]; push_cast; ring
      · refine ⟨-2 ^ (f.p - 1), e + 1, ?_, by omega, by omega, ?_⟩
        · rw [abs_neg, abs_of_pos hpos]; omega
        · rw [h3, h2, e2]; push_cast; ring

theorem rep_real {q : ℚ} (h : Rep f q) : Representable (Fl f) (((q : ℚ) : ℝ) : EReal) := (representable_iff _).2 (.inr (.inr ⟨_, h, rfl⟩))

/-- The midpoint lies between two numbers whose doubles are around the sum. -/
theorem mid_between (r : RMode) {a b : Fl f} {x y : ℝ} {p q : ℚ} (ha : val a = some (x : EReal)) (hb : val b = some (y : EReal))
    (hp : Rep f p) (hp2 : Rep f (2 * p)) (hq : Rep f q) (hq2 : Rep f (2 * q)) (h1 : 2 * (p : ℝ) ≤ x + y) (h2 : x + y ≤ 2 * (q : ℝ)) :
    ∃ c, ∃ z : ℝ, halfSum r a b = some c ∧ val c = some (z : EReal) ∧ (p : ℝ) ≤ z ∧ z ≤ q := by
  obtain ⟨s, hs1, hs2⟩ := add_rounds r ha hb ⟨.inl (EReal.coe_ne_top _), .inl (EReal.coe_ne_bot _)⟩
  have k1 := hs2.lo _ (rep_real hp2) (by rw [← EReal.coe_add]; exact EReal.coe_le_coe_iff.2 (by push_cast; exact h1))
  have k2 := hs2.up _ (rep_real hq2) (by rw [← EReal.coe_add]; exact EReal.coe_le_coe_iff.2 (by push_cast; exact h2))
  have hb : s ≠ ⊥ := fun h => by rw [h] at k1; exact absurd (le_bot_iff.1 k1) (EReal.coe_ne_bot _)
  have ht : s ≠ ⊤ := fun h => by rw [h] at k2; exact absurd (top_le_iff.1 k2) (EReal.coe_ne_top _)
  lift s to ℝ using ⟨ht, hb⟩
  have k1 : ((2 * p : ℚ) : ℝ) ≤ s := by exact_mod_cast k1
  have k2 : s ≤ ((2 * q : ℚ) : ℝ) := by exact_mod_cast k2
  push_cast at k1 k2
  have hl2 : val (Num.lit 2 : Fl f) = some ((2 : ℝ) : EReal) := by
    have := NumLaws.lit (T := Fl f) 2 (by norm_num); exact_mod_cast this
  obtain ⟨z, hz1, hz2⟩ := div_rounds r hs1 hl2 ⟨by exact_mod_cast (two_ne_zero : (2 : ℝ) ≠ 0),
    .inl ⟨EReal.coe_ne_bot _, EReal.coe_ne_top _⟩⟩
  rw [← EReal.coe_div] at hz2
  have k3 := hz2.lo _ (rep_real hp) (by exact_mod_cast (by linarith : (p : ℝ) ≤ s / 2))
  have k4 := hz2.up _ (rep_real hq) (by exact_mod_cast (by linarith : s / 2 ≤ (q : ℝ)))
  have hb : z ≠ ⊥ := fun h => by rw [h] at k3; exact absurd (le_bot_iff.1 k3) (EReal.coe_ne_bot _)
  have ht : z ≠ ⊤ := fun h => by rw [h] at k4; exact absurd (top_le_iff.1 k4) (EReal.coe_ne_top _)
  lift z to ℝ using ⟨ht, hb⟩
  exact ⟨_, z, rfl, hz1, by exact_mod_cast k3, by exact_mod_cast k4⟩

/-- The midpoint is strictly inside if the distance is at least four units. -/
theorem mid_strict (r : RMode) {a b : Fl f} {x y : ℝ} {g : ℤ} (ha : val a = some (x : EReal)) (hb : val b = some (y : EReal))
    (hg : f.emin ≤ g) (hx : -(2 : ℝ) ^ (g + f.p) ≤ x) (hy : y ≤ (2 : ℝ) ^ (g + f.p)) (hx' : -((maxFin f : ℝ) / 2) ≤ x) (hy' : y ≤ (maxFin f : ℝ) / 2)
    (h : x + 4 * 2 ^ g ≤ y) :
    ∃ c, ∃ z : ℝ, halfSum r a b = some c ∧ val c = some (z : EReal) ∧ x < z ∧ z < y := by
  have hG : (0 : ℝ) < 2 ^ g := by positivity
  have hGp : (2 : ℝ) ^ (g + f.p) = 2 ^ f.p * 2 ^ g := by rw [zpow_add₀ two_ne_zero, zpow_natCast, mul_comm]
  rw [hGp] at hx hy
  have key : ∀ k : ℤ, x ≤ k * 2 ^ g → (k : ℝ) * 2 ^ g ≤ y → Rep f (k * 2 ^ g) ∧ Rep f (2 * (k * 2 ^ g)) := by
    intro k h1 h2
    have hk : |k| ≤ 2 ^ f.p := by
      have h3 : -(2 : ℝ) ^ f.p ≤ k := by
        have : -(2 : ℝ) ^ f.p * 2 ^ g ≤ k * 2 ^ g := by linarith
        exact le_of_mul_le_mul_right this hG
      have h4 : (k : ℝ) ≤ 2 ^ f.p := le_of_mul_le_mul_right (by linarith : (k : ℝ) * 2 ^ g ≤ 2 ^ f.p * 2 ^ g) hG
      rw [abs_le]
      exact ⟨by exact_mod_cast h3, by exact_mod_cast h4⟩
    have hm : |(k : ℚ) * 2 ^ g| ≤ maxFin f / 2 := by
      have : |(k : ℝ) * 2 ^ g| ≤ (maxFin f : ℝ) / 2 := abs_le.2 ⟨by linarith, by linarith⟩
      have e : (((|(k : ℚ) * 2 ^ g| : ℚ)) : ℝ) ≤ ((maxFin f / 2 : ℚ) : ℝ) := by push_cast; exact this
      exact_mod_cast e
    have h0 : 0 ≤ |(k : ℚ) * 2 ^ g| := abs_nonneg _
    refine ⟨rep_mul hk hg (by linarith), ?_⟩
    have e : (2 : ℚ) * (k * 2 ^ g) = k * 2 ^ (g + 1) := by rw [zpow_add_one₀ two_ne_zero]; ring
    rw [e]
    refine rep_mul hk (by omega) ?_
    rw [← e, abs_mul, abs_two]
    linarith
  have f1 := Int.floor_le (x / 2 ^ g)
  have f2 := Int.lt_floor_add_one (x / 2 ^ g)
  have c1 := Int.le_ceil (y / 2 ^ g)
  have c2 := Int.ceil_lt_add_one (y / 2 ^ g)
  set p := ⌊x / 2 ^ g⌋ + 1 with hp
  set q := ⌈y / 2 ^ g⌉ - 1 with hq
  have p1 : x < p * 2 ^ g := by rw [← div_lt_iff₀ hG, hp]; push_cast; exact f2
  have p2 : (p : ℝ) * 2 ^ g ≤ x + 2 ^ g := by
    rw [hp]; push_cast
    rw [add_mul, one_mul]
    have := mul_le_mul_of_nonneg_right f1 hG.le
    rw [div_mul_cancel₀ _ hG.ne'] at this
    linarith
  have q1 : (q : ℝ) * 2 ^ g < y := by
    rw [← lt_div_iff₀ hG, hq]; push_cast; linarith
  have q2 : y - 2 ^ g ≤ q * 2 ^ g := by
    rw [hq]; push_cast
    rw [sub_mul, one_mul]
    have := mul_le_mul_of_nonneg_right c1 hG.le
    rw [div_mul_cancel₀ _ hG.ne'] at this
    linarith
  obtain ⟨r1, r2⟩ := key p p1.le (by linarith)
  obtain ⟨r3, r4⟩ := key q (by linarith) q1.le
  obtain ⟨c, z, k1, k2, k3, k4⟩ := mid_between r ha hb r1 r2 r3 r4 (by push_cast; linarith) (by push_cast; linarith)
  push_cast at k3 k4
  exact ⟨c, z, k1, k2, by linarith, by linarith⟩

/-- A product with a factor of at most 3/4 is smaller, also after rounding. -/
theorem alpha_lt {al w : Fl f} {r q : ℝ} (ha : val al = some (r : EReal)) (hr : |r| ≤ 3 / 4) (hw : val w = some (q : EReal))
    (hq : (2 : ℝ) ^ (f.emin + 2) < q) (m : RMode) :
    ∃ t, Num.mul m al w = some t ∧ ∃ q' : ℝ, val t = some (q' : EReal) ∧ q' < q := by
  obtain ⟨Q, hQ, rfl⟩ := Rep.of_val hw
  have hp := f.hp
  have hq0 : (0 : ℚ) < Q := by
    have : (0 : ℝ) < Q := lt_trans (by positivity) hq
    exact_mod_cast this
  have hq' : (2 : ℚ) ^ (f.emin + 2) < Q := (Rat.cast_lt (K := ℝ)).1 (by push_cast; exact hq)
  obtain ⟨k, hk1, hk2⟩ : ∃ k : ℤ, (2 : ℚ) ^ k ≤ Q ∧ Q < 2 ^ (k + 1) :=
    ⟨Int.log 2 Q, Int.zpow_log_le_self (by norm_num) hq0, Int.lt_zpow_succ_log_self (by norm_num) Q⟩
  have hk : f.emin + 2 ≤ k := by
    have : (2 : ℚ) ^ (f.emin + 2) < 2 ^ (k + 1) := hq'.trans hk2
    have := (zpow_lt_zpow_iff_right₀ (by norm_num : (1 : ℚ) < 2)).1 this
    omega
  set G : ℚ := 2 ^ (k - 2) with hG
  have hG0 : 0 < G := by rw [hG]; positivity
  have e1 : (2 : ℚ) ^ k = 4 * G := by rw [hG, zpow_sub₀ two_ne_zero]; norm_num; ring
  have e2 : (2 : ℚ) ^ (k + 1) = 8 * G := by rw [zpow_add_one₀ two_ne_zero, e1]; ring
  set j := ⌈Q / G⌉ - 1 with hj
  have c1 := Int.le_ceil (Q / G)
  have c2 := Int.ceil_lt_add_one (Q / G)
  have j1 : (j : ℚ) * G < Q := by rw [← lt_div_iff₀ hG0, hj]; push_cast; linarith
  have j2 : Q - G ≤ j * G := by
    rw [hj]; push_cast
    rw [sub_mul, one_mul]
    have := mul_le_mul_of_nonneg_right c1 hG0.le
    rw [div_mul_cancel₀ _ hG0.ne'] at this
    linarith
  have j3 : (j : ℚ) < 8 := lt_of_mul_lt_mul_right (by linarith : (j : ℚ) * G < 8 * G) hG0.le
  have j4 : (0 : ℚ) < j := lt_of_mul_lt_mul_right (by linarith : (0 : ℚ) * G < j * G) hG0.le
  have j3' : j < 8 := by exact_mod_cast j3
  have j4' : 0 < j := by exact_mod_cast j4
  have hrep : Rep f (j * G) := by
    refine rep_mul ?_ (by omega) ?_
    · rw [abs_of_pos j4']
      calc j ≤ 2 ^ 3 := by omega
        _ ≤ 2 ^ f.p := pow_le_pow_right₀ (by norm_num) hp
    · have := rep_abs_le hQ
      rw [abs_of_pos hq0] at this
      rw [abs_of_pos (by positivity)]
      linarith
  obtain ⟨z, hz, hs⟩ := mul_rounds m ha hw ⟨.inr ⟨EReal.coe_ne_bot _, EReal.coe_ne_top _⟩, .inr ⟨EReal.coe_ne_bot _, EReal.coe_ne_top _⟩⟩
  rw [← EReal.coe_mul] at hs
  have hjQ : (3 / 4 : ℝ) * Q ≤ ((j * G : ℚ) : ℝ) := by
    have : (3 / 4 : ℚ) * Q ≤ j * G := by linarith
    calc (3 / 4 : ℝ) * Q = ((3 / 4 * Q : ℚ) : ℝ) := by push_cast; ring
      _ ≤ _ := by exact_mod_cast this
  have hQ0 : (0 : ℝ) < Q := by exact_mod_cast hq0
  rw [abs_le] at hr
  have b1 : r * Q ≤ ((j * G : ℚ) : ℝ) := (mul_le_mul_of_nonneg_right hr.2 hQ0.le).trans hjQ
  have b2 : ((-(j * G : ℚ) : ℚ) : ℝ) ≤ r * Q := by
    have := mul_le_mul_of_nonneg_right hr.1 hQ0.le
    rw [Rat.cast_neg]
    linarith
  have k1 := hs.lo _ (rep_real (rep_neg hrep)) (by exact_mod_cast b2)
  have k2 := hs.up _ (rep_real hrep) (by exact_mod_cast b1)
  have hb : z ≠ ⊥ := fun h => by rw [h] at k1; exact absurd (le_bot_iff.1 k1) (EReal.coe_ne_bot _)
  have ht : z ≠ ⊤ := fun h => by rw [h] at k2; exact absurd (top_le_iff.1 k2) (EReal.coe_ne_top _)
  lift z to ℝ using ⟨ht, hb⟩
  refine ⟨_, rfl, z, hz, ?_⟩
  have k2 : z ≤ ((j * G : ℚ) : ℝ) := by exact_mod_cast k2
  have : ((j * G : ℚ) : ℝ) < Q := by exact_mod_cast j1
  linarith
end

/-! ## Lengths -/

section
variable {f : Fmt} {V : Env (Fl f)} {x z : Itv (Fl f)} {a b : ℝ} {E : Err → Prop} {g : ℤ}

/-- The distance of the bounds. -/
noncomputable def lenv (z : Itv (Fl f)) : ℝ := ((val z.upper).getD 0).toReal - ((val z.lower).getD 0).toReal

theorem lenv_eq {l u : ℝ} (hl : val z.lower = some (l : EReal)) (hu : val z.upper = some (u : EReal)) : lenv z = u - l := by
  unfold lenv; rw [hl, hu]; rfl

/-- The distance in units of the smallest number. -/
noncomputable def steps (z : Itv (Fl f)) : ℕ := ⌊lenv z / 2 ^ f.emin⌋₊

theorem rep_steps {q : ℚ} (h : Rep f q) : ∃ k : ℤ, (q : ℝ) = k * 2 ^ f.emin := by
  obtain ⟨m, e, h1, h2, h3, rfl⟩ := h
  obtain ⟨d, rfl⟩ : ∃ d : ℕ, e = d + f.emin := ⟨(e - f.emin).toNat, by omega⟩
  refine ⟨m * 2 ^ d, ?_⟩
  push_cast
  rw [zpow_add₀ two_ne_zero, zpow_natCast]; ring

theorem steps_eq (h : Box a b z) : lenv z = steps z * 2 ^ f.emin := by
  obtain ⟨l, u, h1, h2, -, h4, -⟩ := h
  obtain ⟨p, hp, rfl⟩ := Rep.of_val h1
  obtain ⟨q, hq, rfl⟩ := Rep.of_val h2
  obtain ⟨i, hi⟩ := rep_steps hp
  obtain ⟨j, hj⟩ := rep_steps hq
  have e : lenv z = (j - i : ℤ) * 2 ^ f.emin := by rw [lenv_eq h1 h2, hi, hj]; push_cast; ring
  have hG : (0 : ℝ) < 2 ^ f.emin := by positivity
  have h0 : 0 ≤ j - i := by
    have : (0 : ℝ) * 2 ^ f.emin ≤ (j - i : ℤ) * 2 ^ f.emin := by rw [← e, lenv_eq h1 h2]; linarith
    exact_mod_cast le_of_mul_le_mul_right this hG
  unfold steps
  rw [e, mul_div_cancel_right₀ _ hG.ne']
  obtain ⟨k, hk⟩ := Int.eq_ofNat_of_zero_le h0
  rw [hk]
  simp

theorem steps_lt (hz : Box a b z) {c d : ℝ} (hx : Box c d x) (h : lenv z < lenv x) : steps z < steps x := by
  rw [steps_eq hz, steps_eq hx] at h
  have := lt_of_mul_lt_mul_right h (by positivity)
  exact_mod_cast this

/-- The computed width. -/
theorem width_box (V : Env (Fl f)) (hk : V.kind ≠ .exact) (hx : Box a b x) :
    Post True (width V.pp x) fun w => ∃ e, val w = some e ∧ IsRoundUp (Fl f) e (lenv x : EReal) := by
  obtain ⟨l, u, h1, h2, h3, h4, h5⟩ := hx
  have ix := has_real h1 h2 h4
  have hA := (V.fl_tight hk).dir du_tight
  unfold width
  rw [pure_chk, res_if_false (ix.test V.chk), pure_scope, pure_rnd]
  refine (hA.subUp x.upper x.lower _ _ ix.up ix.lo ⟨.inr ix.ne_top, .inl ix.ne_bot⟩).mono fun w ⟨e, he, hU⟩ => ⟨e, he, ?_⟩
  rw [← EReal.coe_sub] at hU
  rw [lenv_eq h1 h2]; exact hU

/-- The numbers that the programs can tell apart: multiples of `2 ^ g` up to the bounds. -/
structure Scale (f : Fmt) (a b : ℝ) (g : ℤ) : Prop where
  min : f.emin ≤ g
  lo : -(2 : ℝ) ^ (g + f.p) ≤ a
  up : b ≤ (2 : ℝ) ^ (g + f.p)
  lo' : -((maxFin f : ℝ) / 2) ≤ a
  up' : b ≤ (maxFin f : ℝ) / 2
  top : (2 : ℝ) ^ (g + 2) ≤ (maxFin f : ℝ)

theorem Scale.rep (h : Scale f a b g) : Representable (Fl f) (((2 : ℝ) ^ (g + 2) : ℝ) : EReal) := by
  have hp := f.hp
  have hr : Rep f ((1 : ℤ) * 2 ^ (g + 2)) := by
    refine rep_mul ?_ (by have := h.min; omega) ?_
    · rw [abs_one]; exact one_le_pow₀ (by norm_num)
    · rw [Int.cast_one, one_mul, abs_of_pos (by positivity)]
      exact (Rat.cast_le (K := ℝ)).1 (by push_cast; exact h.top)
  have := rep_real hr
  push_cast at this
  rwa [one_mul] at this

/-- A large computed width comes from a large distance. -/
theorem Scale.wide (h : Scale f a b g) {e : EReal} {d : ℝ} (he : IsRoundUp (Fl f) e (d : EReal)) (hw : ((2 : ℝ) ^ (g + 2) : ℝ) < e) : 4 * 2 ^ g < d := by
  by_contra hn
  rw [not_lt] at hn
  have e4 : (2 : ℝ) ^ (g + 2) = 4 * 2 ^ g := by rw [zpow_add₀ two_ne_zero]; norm_num; ring
  rw [← e4] at hn
  exact absurd (he.2.2 _ h.rep (by exact_mod_cast hn)) (not_le.2 hw)

/-- Cutting a wide interval gives two shorter ones. -/
theorem bisect_strict (V : Env (Fl f)) (hk : V.kind ≠ .exact) (hx : Box a b x) (hg : Scale f a b g) (hw : 4 * 2 ^ g ≤ lenv x) :
    Post True (bisect V.pp x) fun p => lenv p.1 < lenv x ∧ lenv p.2 < lenv x := by
  obtain ⟨l, u, h1, h2, h3, h4, h5⟩ := hx
  have ix := has_real h1 h2 h4
  rw [lenv_eq h1 h2] at hw ⊢
  obtain ⟨c, z, k1, k2, k3, k4⟩ := mid_strict .near h1 h2 hg.min (hg.lo.trans h3) (h5.trans hg.up) (hg.lo'.trans h3) (h5.trans hg.up')
    (by linarith)
  have : V.B.median x.lower x.upper = .ok c := by
    unfold Env.B
    cases hk' : V.kind with
    | exact => exact absurd hk' hk
    | std => change ofOpt (halfSum .near x.lower x.upper) = _; rw [k1]; rfl
    | opp => change ofOpt (halfSum .near x.lower x.upper) = _; rw [k1]; rfl
  unfold bisect median
  rw [pure_chk, res_if_false (ix.test V.chk), res_if_false (ix.test V.chk), pure_scope, pure_rnd, this]
  change lenv ⟨x.lower, c⟩ < u - l ∧ lenv ⟨c, x.upper⟩ < u - l
  rw [lenv_eq (z := ⟨x.lower, c⟩) h1 k2, lenv_eq (z := ⟨c, x.upper⟩) k2 h2]
  exact ⟨by linarith, by linarith⟩

theorem Tri.and {W α : Type} {J : Inv W} {E E' : Err → Prop} {m : M W α} {Q R : α → Prop} (h : Tri J E m Q) (h' : Tri J E' m R) :
    Tri J (fun e => E e ∧ E' e) m fun a => Q a ∧ R a := by
  intro s hs
  obtain ⟨h1, h2⟩ := h s hs
  obtain ⟨-, h4⟩ := h' s hs
  refine ⟨h1, ?_⟩
  cases ho : (m s).1 with
  | ok x => rw [ho] at h2 h4; exact ⟨⟨h2.1, h4.1⟩, h2.2⟩
  | error e => rw [ho] at h2 h4; exact ⟨h2, h4⟩

/-- The computed width, as a function. -/
noncomputable def wdFl (z : Itv (Fl f)) : EReal := Classical.epsilon fun e => IsRoundUp (Fl f) e (lenv z : EReal)

theorem wdFl_eq {e : EReal} (h : IsRoundUp (Fl f) e (lenv z : EReal)) : e = wdFl z := by
  have h' : IsRoundUp (Fl f) (wdFl z) (lenv z : EReal) := Classical.epsilon_spec (p := fun e => IsRoundUp (Fl f) e (lenv z : EReal)) ⟨e, h⟩
  exact le_antisymm (h.2.2 _ h'.1 h'.2.1) (h'.2.2 _ h.1 h.2.1)

theorem wdFl_up (V : Env (Fl f)) (hk : V.kind ≠ .exact) (hx : Box a b x) : IsRoundUp (Fl f) (wdFl x) (lenv x : EReal) := by
  obtain ⟨w, -, e, -, he⟩ := (width_box V hk hx).total
  rw [← wdFl_eq he]; exact he

theorem zdata_fl_term {eps : Fl f} {e : ℝ} (hk : V.kind ≠ .exact) (he : val eps = some (e : EReal)) (hg : Scale f a b g)
    (ha : |a| ≤ (maxFin f : ℝ) / 2) (hb : |b| ≤ (maxFin f : ℝ) / 2) (h : (2 : ℝ) ^ (g + 2) < e) :
    ZData V eps e a b True steps wdFl := by
  have hV := Env.fl_directed V hk
  have hwide : ∀ x : Itv (Fl f), Box a b x → (e : EReal) ≤ wdFl x → 4 * 2 ^ g < lenv x := fun x hx hw =>
    hg.wide (wdFl_up V hk hx) (lt_of_lt_of_le (by exact_mod_cast h) hw)
  refine ⟨he, fun x hx => ?_, fun _ x hx hw => ?_, fun x hx => ?_⟩
  · exact V.run hV (fun _ h => width_sim h x) (((width_ge hV hx.nonempty).and (width_box V hk hx)).mono
      fun w ⟨⟨q, h1, h2⟩, ⟨e', h3, h4⟩⟩ => ⟨q, h1, h2, fun _ => by
        rw [h1] at h3; cases h3; exact wdFl_eq h4⟩)
  · have := hwide x hx hw
    rw [steps_eq hx] at this
    by_contra hn
    have h0 : steps x = 0 := by omega
    rw [h0] at this
    have : (0 : ℝ) < 4 * 2 ^ g := by positivity
    simp at *
    linarith
  · by_cases hw : (e : EReal) ≤ wdFl x
    · refine V.run hV (fun _ h => bisect_sim h x) (((bisect_fl V hk hx ha hb).and (bisect_strict V hk hx hg (hwide x hx hw).le)).mono
        fun p ⟨⟨h1, h2, h3⟩, h4, h5⟩ => ⟨h1, h2, h3, fun _ _ => ?_⟩)
      have := steps_lt h1 hx h4
      have := steps_lt h2 hx h5
      exact ⟨by omega, by omega⟩
    · exact V.run hV (fun _ h => bisect_sim h x) ((bisect_fl V hk hx ha hb).mono fun p ⟨h1, h2, h3⟩ => ⟨h1, h2, h3, fun _ h => absurd h hw⟩)
end

/-! ## newton-raphson.cpp -/

section
variable {f : Fmt} {V : Env (Fl f)} {x z : Itv (Fl f)} {a b l u : ℝ} {E : Err → Prop} {g : ℤ}
variable {N : Newton (M V.ctl.W) (Fl f)} {F F' : ℝ → ℝ} {mw al : ℝ}

theorem postE_any {α : Type} {r : Res α} : PostE (fun _ => True) r fun _ => True := by
  cases r <;> trivial

theorem lenv_le (hz : Box l u z) (hl : val x.lower = some (l : EReal)) (hu : val x.upper = some (u : EReal)) : lenv z ≤ lenv x := by
  obtain ⟨l', u', h1, h2, h3, h4, h5⟩ := hz
  rw [lenv_eq h1 h2, lenv_eq hl hu]; linarith

theorem up_mono {e e' : EReal} {d d' : ℝ} (h : IsRoundUp (Fl f) e (d : EReal)) (h' : IsRoundUp (Fl f) e' (d' : EReal)) (hd : d ≤ d') : e ≤ e' :=
  h.2.2 _ h'.1 (le_trans (by exact_mod_cast hd) h'.2.1)

/-- What the program needs besides `NewtonOk` in order to end. -/
structure TermOk (V : Env (Fl f)) (N : Newton (M V.ctl.W) (Fl f)) (a b mw al : ℝ) (g : ℤ) : Prop where
  kind : V.kind ≠ .exact
  scale : Scale f a b g
  ha : |a| ≤ (maxFin f : ℝ) / 2
  hb : |b| ≤ (maxFin f : ℝ) / 2
  width : (2 : ℝ) ^ (g + 2) < mw
  alpha : val N.alpha = some (al : EReal)
  small : |al| ≤ 3 / 4

theorem width_wd (hk : V.kind ≠ .exact) (hx : Box a b x) :
    Tri (inner V.laws V.kind) E (width V.P.unprot x) fun w => val w = some (wdFl x) :=
  Tri.of_sim (width_sim (V.simU hk) x) ((width_box V hk hx).mono fun w ⟨e, h1, h2⟩ => by rw [h1, wdFl_eq h2]).toE

/-- The last lines of the loop. -/
theorem tail_term {L res : List (Itv (Fl f))} {x2 : Itv (Fl f)} (hk : V.kind ≠ .exact) (hN : NewtonOk V N F F' a b mw) (hx : Box l u x2) :
    Tri (inner V.laws V.kind) E (do
      let y ← N.f x2
      if ← lift (zeroIn V.C y) then do
        let w2 ← width V.P.unprot x2
        if Num.lt w2 N.maxWidth then pure (L, x2 :: res) else pure (x2 :: L, res)
      else pure (L, res)) fun p => p.1 = L ∨ (p.1 = x2 :: L ∧ (mw : EReal) ≤ wdFl x2) := by
  refine f_zero_tri hN.f hx.nonempty ((width_wd hk hx).bind fun w hw => ?_) fun _ => Tri.pure (.inl rfl)
  refine Tri.ite (fun _ => Tri.pure (.inl rfl)) fun h => Tri.pure (.inr ⟨rfl, ?_⟩)
  rwa [lt_eq hw hN.width, decide_eq_true_eq, not_lt] at h

/-- Shorter parts of `x` in front of `L`. -/
def Pushed (l u : ℝ) (x : Itv (Fl f)) (L L' : List (Itv (Fl f))) : Prop :=
  ∃ ps, L' = ps ++ L ∧ ps.length ≤ 2 ∧ ∀ z ∈ ps, Box l u z ∧ lenv z < lenv x

theorem Pushed.none {L : List (Itv (Fl f))} : Pushed l u x L L := ⟨[], rfl, by simp, by simp⟩
theorem Pushed.one {L : List (Itv (Fl f))} (h : Box l u z ∧ lenv z < lenv x) : Pushed l u x L (z :: L) := ⟨[z], rfl, by simp, by simpa using h⟩
theorem Pushed.two {L : List (Itv (Fl f))} {y : Itv (Fl f)} (h : Box l u z ∧ lenv z < lenv x) (h' : Box l u y ∧ lenv y < lenv x) :
    Pushed l u x L (z :: y :: L) := ⟨[z, y], rfl, by simp, by simpa using ⟨h, h'⟩⟩

/-- The comparison with `alpha * width(x)`. -/
theorem alpha_tri (hT : TermOk V N a b mw al g) {w : Fl f} (hw : val w = some (wdFl x)) (hx : Box a b x) :
    Tri (inner V.laws V.kind) E (V.P.unprot.cur fun r => Num.mul r N.alpha w) fun aw => ∃ q : ℝ, val aw = some (q : EReal) ∧
      (((2 : ℝ) ^ (g + 2) : ℝ) < wdFl x → (q : EReal) < wdFl x) := by
  obtain ⟨w', hw', e, he, -⟩ := (width_fl V hT.kind hx hT.ha hT.hb).total
  obtain ⟨w'', hw'', e', he', hu⟩ := (width_box V hT.kind hx).total
  rw [hw'] at hw''
  cases hw''
  rw [he] at he'
  cases he'
  have hwd := wdFl_eq hu
  rw [← hwd] at hw ⊢
  have hcur : ∀ h : RMode → Option (Fl f), V.P.unprot.cur h = V.P.cur h := fun h => by unfold Env.P libPolicies; cases V.kind <;> rfl
  rw [hcur]
  refine tri_cur (V := V) fun r => ?_
  by_cases hq : (2 : ℝ) ^ (f.emin + 2) < e
  · obtain ⟨t, h1, q', h2, h3⟩ := alpha_lt hT.alpha hT.small hw hq r
    exact ⟨t, h1, q', h2, fun _ => by exact_mod_cast h3⟩
  · obtain ⟨t, h1, q', h2⟩ := alphaOk_of hT.alpha (hT.small.trans (by norm_num)) w e hw r
    refine ⟨t, h1, q', h2, fun h => absurd (lt_of_le_of_lt ?_ (by exact_mod_cast h : (2 : ℝ) ^ (g + 2) < e)) hq⟩
    exact zpow_le_zpow_right₀ (by norm_num) (by have := hT.scale.min; omega)

theorem Scale.sub {a' b' : ℝ} (h : Scale f a b g) (ha : a ≤ a') (hb : b' ≤ b) : Scale f a' b' g :=
  ⟨h.min, h.lo.trans ha, hb.trans h.up, h.lo'.trans ha, hb.trans h.up', h.top⟩

/-- What the first method does with the remainders of `x`: parts of `x`, or an unbounded one. -/
theorem push1_term {L res : List (Itv (Fl f))} {x1 : Itv (Fl f)} {x2 : Option (Itv (Fl f))} (hT : TermOk V N a b mw al g)
    (hN : NewtonOk V N F F' a b mw) (hl : val x.lower = some (l : EReal)) (hu : val x.upper = some (u : EReal)) (hal : a ≤ l) (hlu : l ≤ u)
    (hub : u ≤ b)
    (hc : (Box l u x1 ∧ ∀ z ∈ x2, Box l u z ∧ wdFl z ≤ wdFl x1) ∨
      ((γ x1).Nonempty ∧ ¬ BddBelow (γ x1) ∧ x2 = none ∧ (4 * 2 ^ g ≤ lenv x ∨
        ∀ z : Itv (Fl f), val z.lower = some (l : EReal) → val z.upper = some (u : EReal) → V.ReturnsInside (N.f z) fun y => (0 : ℝ) ∉ γ y))) :
    Tri (inner V.laws V.kind) (fun _ => True) (newtonPush1 V.P.unprot N L res x x1 x2) fun p => Pushed l u x L p.1 := by
  have hk := hT.kind
  have hU := V.simU hk
  have hC : V.P.unprot.chk = V.C := hU.chk
  have hx : Box l u x := ⟨l, u, hl, hu, le_rfl, hlu, le_rfl⟩
  have hx' : Box a b x := hx.mono hal hub
  have hsc := hT.scale.sub hal hub
  have hl2 : |l| ≤ (maxFin f : ℝ) / 2 := abs_le.2 ⟨hsc.lo', hlu.trans hsc.up'⟩
  have hu2 : |u| ≤ (maxFin f : ℝ) / 2 := abs_le.2 ⟨hsc.lo'.trans hlu, hsc.up'⟩
  have hwx := wdFl_up V hk hx
  have hmw : (((2 : ℝ) ^ (g + 2) : ℝ) : EReal) < (mw : EReal) := by exact_mod_cast hT.width
  have short : ∀ {z : Itv (Fl f)}, Box l u z → wdFl z < wdFl x → lenv z < lenv x := by
    intro z hz h
    by_contra hn
    exact absurd (up_mono hwx (wdFl_up V hk hz) (not_lt.1 hn)) (not_le.2 h)
  unfold newtonPush1
  rw [hC]
  rcases hc with ⟨b1, b2⟩ | ⟨n1, unb, rfl, hs⟩
  · have hw1 := wdFl_up V hk b1
    have hle : wdFl x1 ≤ wdFl x := up_mono hw1 hwx (lenv_le b1 hl hu)
    refine (width_wd hk b1).bind fun w1 he => ?_
    have key : Tri (inner V.laws V.kind) (fun _ => True) (if Num.lt w1 N.maxWidth then (pure (L, x1 :: res, x2) : M V.ctl.W _)
        else do
          let w ← width V.P.unprot x
          let aw ← V.P.unprot.cur fun r => Num.mul r N.alpha w
          if Num.lt aw w1 then do
            let (p, q) ← bisect V.P.unprot x
            let y ← N.f p
            let z ← lift (zeroIn V.C y)
            pure (if z then p :: L else L, res, some q)
          else pure (x1 :: L, res, x2))
        fun p => (p.1 = L ∧ ∀ z ∈ p.2.2, Box l u z ∧ ((mw : EReal) ≤ wdFl z → lenv z < lenv x)) ∨
          (∃ y, Box l u y ∧ lenv y < lenv x ∧ p.1 = y :: L) ∧ ∀ z ∈ p.2.2, Box l u z ∧ lenv z < lenv x := by
      refine Tri.ite (fun h => Tri.pure (.inl ⟨rfl, fun z hz => ⟨(b2 z hz).1, fun hw => ?_⟩⟩)) fun h => ?_
      · rw [lt_eq he hN.width, decide_eq_true_eq] at h
        exact absurd (hw.trans (b2 z hz).2) (not_le.2 h)
      rw [lt_eq he hN.width, decide_eq_true_eq, not_lt] at h
      have hbig : (((2 : ℝ) ^ (g + 2) : ℝ) : EReal) < wdFl x1 := lt_of_lt_of_le hmw h
      have hlong : 4 * 2 ^ g < lenv x := hsc.wide hwx (lt_of_lt_of_le hbig hle)
      refine (width_wd hk hx).bind fun w hw => ?_
      refine (alpha_tri hT hw hx').bind fun aw ⟨q, hq, hlt⟩ => ?_
      refine Tri.ite (fun h => ?_) fun h => Tri.pure (.inr ?_)
      · refine (Tri.of_sim (bisect_sim hU x) ((bisect_fl V hk hx hl2 hu2).and (bisect_strict V hk hx hsc hlong.le)).toE).bind
          fun pq ⟨⟨hp, hq, _⟩, hp', hq'⟩ => ?_
        rcases pq with ⟨p, q⟩
        refine f_zero_tri hN.f hp.nonempty (Tri.pure (.inr ⟨⟨p, hp, hp', rfl⟩, fun z hz => ?_⟩)) fun _ => Tri.pure (.inl ⟨rfl, fun z hz => ?_⟩)
        · cases hz; exact ⟨hq, hq'⟩
        · cases hz; exact ⟨hq, fun _ => hq'⟩
      · rw [lt_eq hq he, decide_eq_true_eq, not_lt] at h
        have h1 : wdFl x1 < wdFl x := h.trans_lt (hlt (lt_of_lt_of_le hbig hle))
        exact ⟨⟨x1, b1, short b1 h1, rfl⟩, fun z hz => ⟨(b2 z hz).1, short (b2 z hz).1 ((b2 z hz).2.trans_lt h1)⟩⟩
    refine key.bind ?_
    rintro ⟨L', res', x2'⟩ h
    cases x2' with
    | none =>
      refine Tri.pure ?_
      rcases h with ⟨h, -⟩ | ⟨⟨y, h1, h2, h3⟩, -⟩
      · change L' = L at h; subst h; exact .none
      · change L' = _ at h3; subst h3; exact .one ⟨h1, h2⟩
    | some x2 =>
      rcases h with ⟨h, h'⟩ | ⟨⟨y, h1, h2, h3⟩, h'⟩
      · change L' = L at h; subst h
        obtain ⟨k1, k2⟩ := h' x2 rfl
        refine (tail_term hk hN k1).mono fun p hp => ?_
        rcases hp with hp | ⟨hp, hw⟩
        · rw [hp]; exact .none
        · rw [hp]; exact .one ⟨k1, k2 hw⟩
      · change L' = _ at h3; subst h3
        obtain ⟨k1, k2⟩ := h' x2 rfl
        refine (tail_term hk hN k1).mono fun p hp => ?_
        rcases hp with hp | ⟨hp, hw⟩
        · rw [hp]; exact .one ⟨h1, h2⟩
        · rw [hp]; exact .two ⟨k1, k2⟩ ⟨h1, h2⟩
  · refine (width_tri hU hk n1).bind fun w1 ⟨e, he, hw⟩ => ?_
    have hbx : ¬ ∃ q : ℝ, e ≤ (q : EReal) := by
      rintro ⟨q, hq⟩
      obtain ⟨t, ht⟩ := n1
      refine unb ⟨t - q, fun s hs => ?_⟩
      have : ((t - s : ℝ) : EReal) ≤ (q : EReal) := (hw s hs t ht).trans hq
      have : t - s ≤ q := by exact_mod_cast this
      linarith
    refine Tri.bind (Q := fun p : List (Itv (Fl f)) × List (Itv (Fl f)) × Option (Itv (Fl f)) =>
        (p.1 = L ∨ ∃ y, Box l u y ∧ lenv y < lenv x ∧ p.1 = y :: L) ∧
          ∃ q, p.2.2 = some q ∧ Box l u q ∧ ((mw : EReal) ≤ wdFl q → lenv q < lenv x)) ?_ ?_
    · refine Tri.ite (fun h => ?_) fun h => ?_
      · rw [lt_eq he hN.width, decide_eq_true_eq] at h
        exact absurd ⟨mw, h.le⟩ hbx
      refine (width_wd hk hx).bind fun w hw => ?_
      refine (alpha_tri hT hw hx').bind fun aw ⟨q, hq, hlt⟩ => ?_
      refine Tri.ite (fun h => ?_) fun h => ?_
      swap
      · rw [lt_eq hq he, decide_eq_true_eq, not_lt] at h
        exact absurd ⟨q, h⟩ hbx
      by_cases hlong : 4 * 2 ^ g ≤ lenv x
      · refine (Tri.of_sim (bisect_sim hU x) ((bisect_fl V hk hx hl2 hu2).and (bisect_strict V hk hx hsc hlong)).toE).bind
          fun pq ⟨⟨hp, hq, _⟩, hp', hq'⟩ => ?_
        rcases pq with ⟨p, q⟩
        refine f_zero_tri hN.f hp.nonempty (Tri.pure ⟨.inr ⟨p, hp, hp', rfl⟩, q, rfl, hq, fun _ => hq'⟩) fun _ => Tri.pure ⟨.inl rfl, q, rfl, hq, fun _ => hq'⟩
      · have hs := hs.resolve_left hlong
        rw [not_le] at hlong
        have e4 : (2 : ℝ) ^ (g + 2) = 4 * 2 ^ g := by rw [zpow_add₀ two_ne_zero]; norm_num; ring
        refine (Tri.of_sim (bisect_sim hU x) (bisect_fl V hk hx hl2 hu2).toE).bind fun pq ⟨hp, hq, _⟩ => ?_
        rcases pq with ⟨p, q⟩
        have hq' : (mw : EReal) ≤ wdFl q → lenv q < lenv x := fun h => by
          have h1 : wdFl q ≤ (((2 : ℝ) ^ (g + 2) : ℝ) : EReal) := by
            refine (wdFl_up V hk hq).2.2 _ hsc.rep ?_
            rw [e4]
            exact_mod_cast (lenv_le hq hl hu).trans hlong.le
          exact absurd (h.trans h1) (not_le.2 hmw)
        by_cases hpl : lenv p < lenv x
        · exact f_zero_tri hN.f hp.nonempty (Tri.pure ⟨.inr ⟨p, hp, hpl, rfl⟩, q, rfl, hq, hq'⟩) fun _ => Tri.pure ⟨.inl rfl, q, rfl, hq, hq'⟩
        · have hp0 := hp
          obtain ⟨l', u', g1, g2, g3, g4, g5⟩ := hp
          have e1 : lenv p = lenv x := le_antisymm (lenv_le hp0 hl hu) (not_lt.1 hpl)
          rw [lenv_eq g1 g2, lenv_eq hl hu] at e1
          obtain rfl : l' = l := by linarith
          obtain rfl : u' = u := by linarith
          obtain ⟨t, ht⟩ := hp0.nonempty
          refine ((f_tri (E := fun _ => False) hN.f hp0.nonempty).and ((hs p g1 g2).tri (E := fun _ => True))).errMono (fun _ _ => trivial) |>.bind
            fun y ⟨hy, hy0⟩ => (zero_tri ⟨_, hy t ht⟩).bind fun c hc => ?_
          cases c with
          | true => exact absurd (hc.1 rfl) hy0
          | false => exact Tri.pure ⟨.inl rfl, q, rfl, hq, hq'⟩
    · rintro ⟨L', res', x2'⟩ ⟨h, q, hq1, hq2, hq3⟩
      change x2' = some q at hq1
      subst hq1
      refine (tail_term hk hN hq2).mono fun p hp => ?_
      rcases h with h | ⟨y, h1, h2, h⟩
      · change L' = L at h; subst h
        rcases hp with hp | ⟨hp, hw⟩
        · rw [hp]; exact .none
        · rw [hp]; exact .one ⟨hq2, hq3 hw⟩
      · change L' = _ at h; subst h
        rcases hp with hp | ⟨hp, hw⟩
        · rw [hp]; exact .one ⟨h1, h2⟩
        · rw [hp]; exact .two ⟨hq2, hq3 hw⟩ ⟨h1, h2⟩

/-- What the second method does with the remainders of `x`. -/
theorem push2_term {L res : List (Itv (Fl f))} {x1 x2 : Itv (Fl f)} (hT : TermOk V N a b mw al g) (hE : V.checks.forbidsEmpty = false)
    (hN : NewtonOk V N F F' a b mw) (hl : val x.lower = some (l : EReal)) (hu : val x.upper = some (u : EReal)) (hal : a ≤ l) (hlu : l ≤ u)
    (hub : u ≤ b) (b1 : Box l u x1) (b2 : BV l u x2) (ho : Box l u x2 → wdFl x2 ≤ wdFl x1) :
    Tri (inner V.laws V.kind) E (newtonPush2 V.P.unprot N L res x x1 x2) fun p => Pushed l u x L p.1 := by
  have hk := hT.kind
  have hU := V.simU hk
  have hC : V.P.unprot.chk = V.C := hU.chk
  have hx : Box l u x := ⟨l, u, hl, hu, le_rfl, hlu, le_rfl⟩
  have hx' : Box a b x := hx.mono hal hub
  have hsc := hT.scale.sub hal hub
  have hl2 : |l| ≤ (maxFin f : ℝ) / 2 := abs_le.2 ⟨hsc.lo', hlu.trans hsc.up'⟩
  have hu2 : |u| ≤ (maxFin f : ℝ) / 2 := abs_le.2 ⟨hsc.lo'.trans hlu, hsc.up'⟩
  have hwx := wdFl_up V hk hx
  have hmw : (((2 : ℝ) ^ (g + 2) : ℝ) : EReal) < (mw : EReal) := by exact_mod_cast hT.width
  have short : ∀ {z : Itv (Fl f)}, Box l u z → wdFl z < wdFl x → lenv z < lenv x := by
    intro z hz h
    by_contra hn
    exact absurd (up_mono hwx (wdFl_up V hk hz) (not_lt.1 hn)) (not_le.2 h)
  unfold newtonPush2
  rw [hC]
  have hw1 := wdFl_up V hk b1
  have hle : wdFl x1 ≤ wdFl x := up_mono hw1 hwx (lenv_le b1 hl hu)
  refine (width_wd hk b1).bind fun w1 he => ?_
  have key : Tri (inner V.laws V.kind) E (if Num.lt w1 N.maxWidth then (pure (L, x1 :: res, x2) : M V.ctl.W _)
      else do
        let w ← width V.P.unprot x
        let aw ← V.P.unprot.cur fun r => Num.mul r N.alpha w
        if Num.lt aw w1 then do
          let (p, q) ← bisect V.P.unprot x
          let y ← N.f p
          let z ← lift (zeroIn V.C y)
          pure (if z then p :: L else L, res, q)
        else pure (x1 :: L, res, x2))
      fun p => BV l u p.2.2 ∧ ((p.1 = L ∧ (Box l u p.2.2 → (mw : EReal) ≤ wdFl p.2.2 → lenv p.2.2 < lenv x)) ∨
        (∃ y, Box l u y ∧ lenv y < lenv x ∧ p.1 = y :: L) ∧ (Box l u p.2.2 → lenv p.2.2 < lenv x)) := by
    refine Tri.ite (fun h => Tri.pure ⟨b2, .inl ⟨rfl, fun hz hw => ?_⟩⟩) fun h => ?_
    · rw [lt_eq he hN.width, decide_eq_true_eq] at h
      exact absurd (hw.trans (ho hz)) (not_le.2 h)
    rw [lt_eq he hN.width, decide_eq_true_eq, not_lt] at h
    have hbig : (((2 : ℝ) ^ (g + 2) : ℝ) : EReal) < wdFl x1 := lt_of_lt_of_le hmw h
    have hlong : 4 * 2 ^ g < lenv x := hsc.wide hwx (lt_of_lt_of_le hbig hle)
    refine (width_wd hk hx).bind fun w hw => ?_
    refine (alpha_tri hT hw hx').bind fun aw ⟨q, hq, hlt⟩ => ?_
    refine Tri.ite (fun h => ?_) fun h => Tri.pure ⟨b2, .inr ?_⟩
    · refine (Tri.of_sim (bisect_sim hU x) ((bisect_fl V hk hx hl2 hu2).and (bisect_strict V hk hx hsc hlong.le)).toE).bind
        fun pq ⟨⟨hp, hq, _⟩, hp', hq'⟩ => ?_
      rcases pq with ⟨p, q⟩
      exact f_zero_tri hN.f hp.nonempty (Tri.pure ⟨.inl hq, .inr ⟨⟨p, hp, hp', rfl⟩, fun _ => hq'⟩⟩) fun _ =>
        Tri.pure ⟨.inl hq, .inl ⟨rfl, fun _ _ => hq'⟩⟩
    · rw [lt_eq hq he, decide_eq_true_eq, not_lt] at h
      have h1 : wdFl x1 < wdFl x := h.trans_lt (hlt (lt_of_lt_of_le hbig hle))
      exact ⟨⟨x1, b1, short b1 h1, rfl⟩, fun hz => short hz ((ho hz).trans_lt h1)⟩
  refine key.bind ?_
  rintro ⟨L', res', x2'⟩ ⟨hB, h⟩
  refine (empty_tri hE hB).bind fun c hc => ?_
  cases c with
  | true =>
    refine Tri.pure ?_
    rcases h with ⟨h, -⟩ | ⟨⟨y, h1, h2, h3⟩, -⟩
    · change L' = L at h; subst h; exact .none
    · change L' = _ at h3; subst h3; exact .one ⟨h1, h2⟩
  | false =>
    have k1 : Box l u x2' := hc
    refine (tail_term hk hN k1).mono fun p hp => ?_
    rcases h with ⟨h, k2⟩ | ⟨⟨y, h1, h2, h3⟩, k2⟩
    · change L' = L at h; subst h
      rcases hp with hp | ⟨hp, hw⟩
      · rw [hp]; exact .none
      · rw [hp]; exact .one ⟨k1, k2 k1 hw⟩
    · change L' = _ at h3; subst h3
      rcases hp with hp | ⟨hp, hw⟩
      · rw [hp]; exact .one ⟨h1, h2⟩
      · rw [hp]; exact .two ⟨k1, k2 k1⟩ ⟨h1, h2⟩

theorem width_bv_wd (hk : V.kind ≠ .exact) (hE : V.checks.forbidsEmpty = false) (hx : BV l u x) :
    Tri (inner V.laws V.kind) E (width V.P.unprot x) fun w => Box l u x → val w = some (wdFl x) := by
  by_cases h : Box l u x
  · exact (width_wd hk h).mono fun w hw _ => hw
  · exact (width_bv_tri hk hE hx).mono fun w _ h' => absurd h' h

/-- The wider remainder comes first. -/
theorem keep2_ord {x1 x2 : Itv (Fl f)} (hk : V.kind ≠ .exact) (hE : V.checks.forbidsEmpty = false) (hf : Encloses V N.f F)
    (b1 : BV l u x1) (b2 : BV l u x2) : Tri (inner V.laws V.kind) E (newtonKeep2 V.P.unprot N x1 x2) fun o =>
      ∀ p ∈ o, Box l u p.1 ∧ BV l u p.2 ∧ (Box l u p.2 → wdFl p.2 ≤ wdFl p.1) := by
  have hS := V.simU hk
  have hC : V.P.unprot.chk = V.C := hS.chk
  obtain ⟨e0, he, hv⟩ := Env.emptyI_void V hE
  unfold newtonKeep2
  rw [hC]
  refine (width_bv_wd hk hE b2).bind fun w2 h2 => (width_bv_wd hk hE b1).bind fun w1 h1 => ?_
  have hsw : ∀ p, p = (if Num.lt w1 w2 = true then (x2, x1) else (x1, x2)) → BV l u p.1 ∧ BV l u p.2 ∧ (Box l u p.1 → Box l u p.2 → wdFl p.2 ≤ wdFl p.1) := by
    rintro p rfl
    split
    · rename_i h
      refine ⟨b2, b1, fun g2 g1 => ?_⟩
      rw [lt_eq (h1 g1) (h2 g2), decide_eq_true_eq] at h
      exact h.le
    · rename_i h
      refine ⟨b1, b2, fun g1 g2 => ?_⟩
      rw [lt_eq (h1 g1) (h2 g2), decide_eq_true_eq, not_lt] at h
      exact h
  generalize (if Num.lt w1 w2 = true then (x2, x1) else (x1, x2)) = p at hsw ⊢
  obtain ⟨b1, b2, ho⟩ := hsw p rfl
  rcases p with ⟨x1, x2⟩
  refine Tri.bind (Q := fun c => c = true → Box l u x1) ?_ fun c hc => ?_
  · refine (empty_tri hE b1).bind fun c hc => ?_
    cases c with
    | true => exact Tri.pure fun h => by cases h
    | false =>
      have hb : Box l u x1 := hc
      obtain ⟨t, ht⟩ := hb.nonempty
      exact (f_tri hf ⟨t, ht⟩).bind fun y hy => (zero_tri ⟨_, hy t ht⟩).mono fun c hc _ => hb
  cases c with
  | true =>
    refine Tri.pure fun p hp => ?_
    cases hp
    exact ⟨hc rfl, b2, ho (hc rfl)⟩
  | false =>
    refine (empty_tri hE b2).bind fun c hc => ?_
    cases c with
    | true => exact Tri.pure fun p hp => by cases hp
    | false =>
      change Tri _ _ (lift (emptyI V.C) >>= fun e => pure (some (x2, e))) _
      rw [m_bind_ok he]
      refine Tri.pure fun p hp => ?_
      cases hp
      refine ⟨hc, .inr hv, fun h => absurd h.nonempty ?_⟩
      change ¬ (γ e0).Nonempty
      rw [hv.gamma]; exact not_nonempty_empty

/-- One turn of the second method replaces `x` by at most two shorter parts. -/
theorem turn2_term {L res : List (Itv (Fl f))} (hT : TermOk V N a b mw al g) (hE : V.checks.forbidsEmpty = false)
    (hN : NewtonOk V N F F' a b mw) (hx : Box a b x) :
    Tri (inner V.laws V.kind) E (newtonTurn2 V.P.unprot N L res x) fun p => Pushed a b x L p.1 := by
  have hk := hT.kind
  have hx0 := hx
  obtain ⟨l, u, hl, hu, hal, hlu, hub⟩ := hx
  have hx : Box l u x := ⟨l, u, hl, hu, le_rfl, hlu, le_rfl⟩
  have hsc := hT.scale.sub hal hub
  have hl2 : |l| ≤ (maxFin f : ℝ) / 2 := abs_le.2 ⟨hsc.lo', hlu.trans hsc.up'⟩
  have hu2 : |u| ≤ (maxFin f : ℝ) / 2 := abs_le.2 ⟨hsc.lo'.trans hlu, hsc.up'⟩
  have hN' : NewtonOk V N F F' l u mw := ⟨hN.f, hN.fd, fun t ht => hN.deriv t ⟨hal.trans ht.1, ht.2.trans hub⟩, hN.width⟩
  unfold newtonTurn2
  refine (step2_tri hk hE hN' hx hl2 hu2).bind fun p hp => ?_
  rcases p with ⟨x1, x2⟩
  refine (keep2_ord hk hE hN.f hp.2.1 hp.2.2).bind fun o ho => ?_
  cases o with
  | none => exact Tri.pure .none
  | some q =>
    rcases q with ⟨x1, x2⟩
    obtain ⟨b1, b2, h⟩ := ho _ rfl
    refine (push2_term hT hE hN hl hu hal hlu hub b1 b2 h).mono fun p ⟨ps, h1, h2, h3⟩ => ?_
    exact ⟨ps, h1, h2, fun z hz => ⟨(h3 z hz).1.mono hal hub, (h3 z hz).2⟩⟩

theorem Pushed.turns {L L' : List (Itv (Fl f))} (hx : Box a b x) (hL : ∀ z ∈ L, Box a b z) (h : Pushed a b x L L') :
    (∀ z ∈ L', Box a b z) ∧ (L'.map fun z => turns (steps z)).sum + 1 ≤ ((x :: L).map fun z => turns (steps z)).sum := by
  obtain ⟨ps, rfl, h2, h3⟩ := h
  refine ⟨fun z hz => ?_, ?_⟩
  · rcases List.mem_append.1 hz with hz | hz
    · exact (h3 z hz).1
    · exact hL z hz
  have hs : ∀ z ∈ ps, steps z ≤ steps x - 1 ∧ 1 ≤ steps x := fun z hz => by
    have := steps_lt (h3 z hz).1 hx (h3 z hz).2
    omega
  rw [List.map_append, List.sum_append, List.map_cons, List.sum_cons]
  have : (ps.map fun z => BI.turns (steps z)).sum + 1 ≤ BI.turns (steps x) := by
    match ps, h2, hs with
    | [], _, _ => simpa using turns_pos _
    | [z], _, hs =>
      have := turns_step (hs z (by simp)).2 (hs z (by simp)).1 (hs z (by simp)).1
      have := turns_pos (steps z)
      simp only [List.map_cons, List.map_nil, List.sum_cons, List.sum_nil]
      omega
    | [z, y], _, hs =>
      have := turns_step (hs z (by simp)).2 (hs z (by simp)).1 (hs y (by simp)).1
      simp only [List.map_cons, List.map_nil, List.sum_cons, List.sum_nil]
      omega
  omega

theorem newton2_term (hT : TermOk V N a b mw al g) (hE : V.checks.forbidsEmpty = false) (hN : NewtonOk V N F F' a b mw) (n : ℕ) :
    ∀ L res : List (Itv (Fl f)), (∀ z ∈ L, Box a b z) →
      Tri (inner V.laws V.kind) (fun _ => n < (L.map fun z => turns (steps z)).sum) (newton2 V.P.unprot N n L res) fun _ => True := by
  induction n with
  | zero =>
    intro L res h
    cases L with
    | nil => unfold newton2; exact Tri.pure trivial
    | cons x L =>
      unfold newton2
      refine Tri.err ?_
      have := turns_pos (steps x)
      rw [List.map_cons, List.sum_cons]; omega
  | succ n ih =>
    intro L res h
    cases L with
    | nil => unfold newton2; exact Tri.pure trivial
    | cons x L =>
      unfold newton2
      refine (turn2_term hT hE hN (h x (by simp))).bind fun p hp => ?_
      rcases p with ⟨L', res'⟩
      have hp : Pushed a b x L L' := hp
      obtain ⟨h1, h2⟩ := hp.turns (h x (by simp)) fun z hz => h z (by simp [hz])
      exact (ih L' res' h1).errMono fun _ h => by change _ < _ at h; omega

/-- Remainders inside `x`, the wider first. -/
def Parts (l u : ℝ) (o : Option (Itv (Fl f) × Option (Itv (Fl f)))) : Prop :=
  ∀ p ∈ o, Box l u p.1 ∧ ∀ z ∈ p.2, Box l u z

theorem cut1_none {x1 : Itv (Fl f)} {P : Policies (M V.ctl.W) (Fl f)} (hP : P.chk = V.C) (hx : Box l u x) (h : V.Proper x1) :
    Post True (newtonCut1 P x x1 none) (Parts l u) := by
  classical
  unfold newtonCut1
  rw [hP, C22_overlap V V h (.inl hx.nonempty)]
  by_cases ho : (γ x1 ∩ γ x).Nonempty
  · have ho' := ho
    rw [inter_comm] at ho
    obtain ⟨y1, e1, g1⟩ := C23_intersect (V := V) ho
    have b1 : Box l u y1 := box_of_subset (by rw [g1]; exact ho) (by rw [g1]; exact inter_subset_left.trans hx.subset)
    simp only [ho', decide_true]
    change Post True (do let x1 ← intersect V.C x x1; _) _
    rw [e1]
    rintro p hp; cases hp; exact ⟨b1, fun z hz => by cases hz⟩
  · simp only [ho, decide_false]
    rintro p hp; cases hp

theorem keep1_ord {x1 : Itv (Fl f)} {x2 : Option (Itv (Fl f))} (hk : V.kind ≠ .exact) (hf : Encloses V N.f F)
    (b1 : Box l u x1) (b2 : ∀ z ∈ x2, Box l u z) : Tri (inner V.laws V.kind) E (newtonKeep1 V.P.unprot N x1 x2) fun o =>
      ∀ p ∈ o, Box l u p.1 ∧ ∀ z ∈ p.2, Box l u z ∧ wdFl z ≤ wdFl p.1 := by
  have hS := V.simU hk
  have hC : V.P.unprot.chk = V.C := hS.chk
  unfold newtonKeep1
  rw [hC]
  have fin : ∀ p : Itv (Fl f) × Option (Itv (Fl f)), (Box l u p.1 ∧ ∀ z ∈ p.2, Box l u z ∧ wdFl z ≤ wdFl p.1) →
      Tri (inner V.laws V.kind) E (do
        let y ← N.f p.1
        if ← lift (zeroIn V.C y) then pure (some (p.1, p.2))
        else pure (p.2.map fun x2 => (x2, none))) fun o => ∀ p ∈ o, Box l u p.1 ∧ ∀ z ∈ p.2, Box l u z ∧ wdFl z ≤ wdFl p.1 := by
    rintro ⟨x1, x2⟩ ⟨b1, b2⟩
    refine f_zero_tri hf b1.nonempty (Tri.pure fun p hp => by cases hp; exact ⟨b1, b2⟩) fun _ => Tri.pure fun p hp => ?_
    cases x2 with
    | none => cases hp
    | some x2 => cases hp; exact ⟨(b2 x2 rfl).1, fun z hz => by cases hz⟩
  cases x2 with
  | none => exact fin (x1, none) ⟨b1, fun z hz => by cases hz⟩
  | some x2 =>
    have b2 := b2 x2 rfl
    change Tri _ _ (((width V.P.unprot x2) >>= fun w2 => ((width V.P.unprot x1) >>= fun w1 =>
      (pure (if Num.lt w1 w2 then (x2, some x1) else (x1, some x2)) : M V.ctl.W _))) >>= _) _
    refine ((width_wd hk b2).bind fun w2 h2 => (width_wd hk b1).bind fun w1 h1 =>
      (Tri.pure (Q := fun p : Itv (Fl f) × Option (Itv (Fl f)) => Box l u p.1 ∧ ∀ z ∈ p.2, Box l u z ∧ wdFl z ≤ wdFl p.1) ?_)).bind fin
    split
    · rename_i h
      rw [lt_eq h1 h2, decide_eq_true_eq] at h
      exact ⟨b2, fun z hz => by cases hz; exact ⟨b1, h.le⟩⟩
    · rename_i h
      rw [lt_eq h1 h2, decide_eq_true_eq, not_lt] at h
      exact ⟨b1, fun z hz => by cases hz; exact ⟨b2, h⟩⟩

theorem keep1_unb {x1 : Itv (Fl f)} (hk : V.kind ≠ .exact) (hf : Encloses V N.f F) (n1 : (γ x1).Nonempty) :
    Tri (inner V.laws V.kind) E (newtonKeep1 V.P.unprot N x1 none) fun o => ∀ p ∈ o, p = (x1, none) := by
  have hC : V.P.unprot.chk = V.C := (V.simU hk).chk
  unfold newtonKeep1
  rw [hC]
  change Tri _ _ (do
        let y ← N.f x1
        if ← lift (zeroIn V.C y) then pure (some (x1, none))
        else pure ((none : Option (Itv (Fl f))).map fun x2 => (x2, none))) _
  exact f_zero_tri hf n1 (Tri.pure fun p hp => by cases hp; rfl) fun _ => Tri.pure fun p hp => by cases hp

/-- A derivative without zero: no second remainder. -/
theorem step1_none (hk : V.kind ≠ .exact) (hN : NewtonOk V N F F' a b mw) (hx : Box a b x) (ha : |a| ≤ (maxFin f : ℝ) / 2)
    (hb : |b| ≤ (maxFin f : ℝ) / 2) (h0 : V.ReturnsInside (N.fd x) fun y => (0 : ℝ) ∉ γ y) :
    Tri (inner V.laws V.kind) (fun _ => True) (newtonStep1 V.P.unprot N x) fun p => p.2 = none := by
  have hS := V.simU hk
  have hC : V.P.unprot.chk = V.C := hS.chk
  unfold newtonStep1
  refine (Tri.of_sim (median_sim hS x) (median_fl V hk hx ha hb).toE).bind fun xx hxx => ?_
  obtain ⟨m, hm, hxx⟩ := hxx
  rw [hC, m_bind_ok (ctor_ok hxx)]
  have hc : γ (⟨xx, xx⟩ : Itv (Fl f)) = {m} := gamma_single hxx
  refine (f_tri hN.f (by rw [hc]; exact singleton_nonempty _)).bind fun vf hvf => ?_
  replace hvf : F m ∈ γ vf := hvf m (by rw [hc]; rfl)
  refine ((((hN.fd x ⟨m, hm⟩).tri (E := fun _ => True)).and (h0.tri (E := fun _ => True))).errMono fun _ _ => trivial).bind fun vd ⟨hvd, hz⟩ => ?_
  refine (zero_tri ⟨_, hvf⟩).bind fun c0 hc0 => (zero_tri ⟨_, hvd m hm⟩).bind fun c1 hc1 => ?_
  refine Tri.ite (fun h => ?_) (fun h => ?_)
  · simp only [Bool.and_eq_true] at h
    exact absurd (hc1.1 h.2) hz
  refine Tri.bind (Q := fun p : Itv (Fl f) × Bool => p.2 = false) (Tri.of_sim (divisionPart1_sim hS vf vd) ?_) ?_
  · obtain ⟨p, q, i1⟩ := has_of_nonempty ⟨_, hvf⟩
    obtain ⟨c, d, i2⟩ := has_of_nonempty ⟨_, hvd m hm⟩
    rw [divPart1_eq V.chk i1 i2 fun h => hz ⟨c, d, i2.lo, i2.up, h.1.le, h.2.1.le⟩]
    cases divII (purePolicies V.B V.C) vf vd with
    | ok r => rfl
    | error e => trivial
  · rintro ⟨q, c⟩ h
    change c = false at h
    subst h
    exact (Tri.of_sim (subTI_sim hS xx q) postE_any).bind fun x1 _ => Tri.pure rfl

/-- Narrow intervals with these bounds: the values exclude zero, or the derivatives do. -/
def SepAt (V : Env (Fl f)) (N : Newton (M V.ctl.W) (Fl f)) (l u : ℝ) : Prop :=
  (∀ z : Itv (Fl f), val z.lower = some (l : EReal) → val z.upper = some (u : EReal) → V.ReturnsInside (N.f z) fun y => (0 : ℝ) ∉ γ y) ∨
  ∀ z : Itv (Fl f), val z.lower = some (l : EReal) → val z.upper = some (u : EReal) → V.ReturnsInside (N.fd z) fun y => (0 : ℝ) ∉ γ y

/-- One turn of the first method replaces `x` by at most two shorter parts. -/
theorem turn1_term {L res : List (Itv (Fl f))} (hT : TermOk V N a b mw al g) (hN : NewtonOk V N F F' a b mw) (hx : Box a b x)
    (hsep : ∀ l u : ℝ, val x.lower = some (l : EReal) → val x.upper = some (u : EReal) → u - l < 4 * 2 ^ g → SepAt V N l u) :
    Tri (inner V.laws V.kind) (fun _ => True) (newtonTurn1 V.P.unprot N L res x) fun p => Pushed a b x L p.1 := by
  have hk := hT.kind
  have hC : V.P.unprot.chk = V.C := (V.simU hk).chk
  obtain ⟨l, u, hl, hu, hal, hlu, hub⟩ := hx
  have hx : Box l u x := ⟨l, u, hl, hu, le_rfl, hlu, le_rfl⟩
  have hsc := hT.scale.sub hal hub
  have hl2 : |l| ≤ (maxFin f : ℝ) / 2 := abs_le.2 ⟨hsc.lo', hlu.trans hsc.up'⟩
  have hu2 : |u| ≤ (maxFin f : ℝ) / 2 := abs_le.2 ⟨hsc.lo'.trans hlu, hsc.up'⟩
  have hN' : NewtonOk V N F F' l u mw := ⟨hN.f, hN.fd, fun t ht => hN.deriv t ⟨hal.trans ht.1, ht.2.trans hub⟩, hN.width⟩
  have fin : ∀ {x1 : Itv (Fl f)} {x2 : Option (Itv (Fl f))},
      ((Box l u x1 ∧ ∀ z ∈ x2, Box l u z ∧ wdFl z ≤ wdFl x1) ∨
      ((γ x1).Nonempty ∧ ¬ BddBelow (γ x1) ∧ x2 = none ∧ (4 * 2 ^ g ≤ lenv x ∨
        ∀ z : Itv (Fl f), val z.lower = some (l : EReal) → val z.upper = some (u : EReal) → V.ReturnsInside (N.f z) fun y => (0 : ℝ) ∉ γ y))) →
      Tri (inner V.laws V.kind) (fun _ => True) (newtonPush1 V.P.unprot N L res x x1 x2) fun p => Pushed a b x L p.1 := fun h =>
    (push1_term hT hN hl hu hal hlu hub h).mono fun p ⟨ps, h1, h2, h3⟩ => ⟨ps, h1, h2, fun z hz => ⟨(h3 z hz).1.mono hal hub, (h3 z hz).2⟩⟩
  unfold newtonTurn1
  by_cases hfd : ∀ z : Itv (Fl f), val z.lower = some (l : EReal) → val z.upper = some (u : EReal) → V.ReturnsInside (N.fd z) fun y => (0 : ℝ) ∉ γ y
  · refine ((((step1_tri hk hN' hx hl2 hu2).and (step1_none hk hN' hx hl2 hu2 (hfd x hl hu))).errMono fun _ _ => trivial)).bind
      fun p ⟨hp, hp'⟩ => ?_
    rcases p with ⟨x1, x2⟩
    change x2 = none at hp'
    subst hp'
    refine (Tri.lift (cut1_none hC hx hp.2.1).toE).bind fun o ho => ?_
    cases o with
    | none => exact Tri.pure .none
    | some q =>
      rcases q with ⟨x1, x2⟩
      refine (keep1_ord hk hN.f (ho _ rfl).1 (ho _ rfl).2).bind fun o ho => ?_
      cases o with
      | none => exact Tri.pure .none
      | some q => rcases q with ⟨x1, x2⟩; exact fin (.inl (ho _ rfl))
  · have hw : 4 * 2 ^ g ≤ lenv x ∨ ∀ z : Itv (Fl f), val z.lower = some (l : EReal) → val z.upper = some (u : EReal) →
        V.ReturnsInside (N.f z) fun y => (0 : ℝ) ∉ γ y := by
      rcases le_or_gt (4 * 2 ^ g) (lenv x) with h | h
      · exact .inl h
      · rw [lenv_eq hl hu] at h
        exact .inr ((hsep l u hl hu h).resolve_right hfd)
    refine ((step1_tri hk hN' hx hl2 hu2).errMono fun _ _ => trivial).bind fun p hp => ?_
    rcases p with ⟨x1, x2⟩
    refine (Tri.lift (cut1_post hC hx hp).toE).bind fun o ho => ?_
    cases o with
    | none => exact Tri.pure .none
    | some q =>
      rcases q with ⟨x1, x2⟩
      rcases ho.2 _ rfl with ⟨b1, b2⟩ | ⟨n1, unb, hn⟩
      · refine (keep1_ord hk hN.f b1 b2).bind fun o ho => ?_
        cases o with
        | none => exact Tri.pure .none
        | some q => rcases q with ⟨x1, x2⟩; exact fin (.inl (ho _ rfl))
      · change x2 = none at hn
        subst hn
        refine (keep1_unb hk hN.f n1).bind fun o ho => ?_
        cases o with
        | none => exact Tri.pure .none
        | some q =>
          cases ho q rfl
          exact fin (.inr ⟨n1, unb, rfl, hw⟩)

theorem newton1_term (hT : TermOk V N a b mw al g) (hN : NewtonOk V N F F' a b mw)
    (hsep : ∀ l u : ℝ, a ≤ l → l ≤ u → u ≤ b → u - l < 4 * 2 ^ g → SepAt V N l u) (n : ℕ) :
    ∀ L res : List (Itv (Fl f)), LInv (∅ : Set ℝ) a b mw L res →
      Tri (inner V.laws V.kind) (fun e => e = .fuel → n < (L.map fun z => turns (steps z)).sum) (newton1 V.P.unprot N n L res) fun _ => True := by
  induction n with
  | zero =>
    intro L res h
    cases L with
    | nil => unfold newton1; exact Tri.pure trivial
    | cons x L =>
      unfold newton1
      refine Tri.err fun _ => ?_
      have := turns_pos (steps x)
      rw [List.map_cons, List.sum_cons]; omega
  | succ n ih =>
    intro L res h
    cases L with
    | nil => unfold newton1; exact Tri.pure trivial
    | cons x L =>
      obtain ⟨hx, S', hL, hS⟩ := h.uncons
      have hx0 := hx
      obtain ⟨l, u, hl, hu, h3, h4, h5⟩ := hx
      have hs := turn1_term (L := L) (res := res) hT hN hx0 fun l' u' hl' hu' => by
        rw [hl] at hl'; rw [hu] at hu'
        injection hl' with hl'; injection hu' with hu'
        rw [EReal.coe_eq_coe_iff] at hl' hu'
        subst hl' hu'
        exact hsep _ _ h3 h4 h5
      have hne := turn1_tri hT.kind hN (alphaOk_of hT.alpha (hT.small.trans (by norm_num))) hT.ha hT.hb hL hx0 (fun r hr => hr.elim) hS
      unfold newton1
      refine ((hs.and hne).errMono fun e he hf => by have := he.2.1; rw [hf] at this; cases this).bind fun p hp => ?_
      rcases p with ⟨L', res'⟩
      have hp1 : Pushed a b x L L' := hp.1
      obtain ⟨-, h2⟩ := hp1.turns hx0 hL.box
      exact (ih L' res' hp.2).errMono fun _ h hf => by have := h hf; omega
end
end BI
