import Verif.Proofs.Root
import Verif.Proofs.Median
/-! # `nth_root` on floating-point formats -/

set_option linter.unusedSectionVars false

namespace BI
open Set
variable {f : Fmt}

/-- To-nearest rounding does not leave the range unless the value is half a unit beyond it. -/
theorem roundUnb_near_max {x : ℝ} (h1 : (maxFin f : ℝ) ≤ x) (h2 : x < (maxFin f : ℝ) + (2 : ℝ) ^ (f.emax - 1)) :
    roundUnb f .near x = maxFin f := by
  have hM : (maxFin f : ℝ) = ((2 : ℝ) ^ f.p - 1) * 2 ^ f.emax := by unfold maxFin; push_cast; rfl
  have h2p : (8 : ℝ) ≤ 2 ^ f.p := by
    calc (8 : ℝ) = 2 ^ 3 := by norm_num
      _ ≤ 2 ^ f.p := pow_le_pow_right₀ one_le_two f.hp
  have he : (0 : ℝ) < 2 ^ f.emax := two_zpow_pos _
  have hh : (2 : ℝ) ^ (f.emax - 1) = 2 ^ f.emax / 2 := by rw [zpow_sub_one₀ two_ne_zero]; rfl
  rw [hM] at h1 h2
  rw [hh] at h2
  have x0 : 0 < x := by nlinarith
  have hlog : Int.log 2 |x| = f.p + f.emax - 1 := by
    rw [abs_of_pos x0]
    have l1 : (f.p + f.emax - 1 : ℤ) ≤ Int.log 2 x := by
      rw [← Int.zpow_le_iff_le_log (by norm_num) x0]
      have : ((2 : ℕ) : ℝ) ^ ((f.p : ℤ) + f.emax - 1) = 2 ^ f.p * 2 ^ f.emax / 2 := by
        rw [show (f.p : ℤ) + f.emax - 1 = f.p + (f.emax - 1) by ring, zpow_add₀ (by norm_num), zpow_natCast]
        push_cast
        rw [hh]; ring
      rw [this]; nlinarith
    have l2 : Int.log 2 x < f.p + f.emax := by
      rw [← Int.lt_zpow_iff_log_lt (by norm_num) x0]
      have : ((2 : ℕ) : ℝ) ^ ((f.p : ℤ) + f.emax) = 2 ^ f.p * 2 ^ f.emax := by
        rw [zpow_add₀ (by norm_num), zpow_natCast]; push_cast; rfl
      rw [this]; nlinarith
    omega
  have hulp : ulpExp f x = f.emax := by
    unfold ulpExp
    rw [hlog, show (f.p : ℤ) + f.emax - 1 - f.p + 1 = f.emax by ring]
    exact max_eq_right (f.hmin.trans f.hmax)
  unfold roundUnb
  rw [hulp]
  have q1 : (2 : ℝ) ^ f.p - 1 ≤ x / 2 ^ f.emax := by rw [le_div_iff₀ he]; exact h1
  have q2 : x / 2 ^ f.emax < (2 : ℝ) ^ f.p - 1 + 1 / 2 := by rw [div_lt_iff₀ he]; linarith
  have hfl : ⌊x / 2 ^ f.emax⌋ = 2 ^ f.p - 1 := by
    rw [Int.floor_eq_iff]
    push_cast
    exact ⟨q1, by linarith⟩
  have : roundInt .near (x / 2 ^ f.emax) = 2 ^ f.p - 1 := by
    unfold roundInt
    dsimp only
    rw [hfl, if_pos (by push_cast; linarith)]
  rw [this]
  unfold maxFin
  push_cast
  rfl

theorem fl_midOk (hf : (f.p : ℤ) + 2 ≤ f.emax) : MidOk (Fl f) := by
  intro l u t a b c ha hb hc h1 hab hbc hsq
  obtain ⟨p, hp, rfl⟩ := Rep.of_val ha
  obtain ⟨q, hq, rfl⟩ := Rep.of_val hb
  obtain ⟨w, hw, rfl⟩ := Rep.of_val hc
  have hM : (w : ℝ) ≤ maxFin f := by exact_mod_cast (le_abs_self w).trans (rep_abs_le hw)
  by_cases hs : (p : ℝ) + q ≤ (maxFin f : ℝ)
  · exact fl_mid .near ha hb hab (by rw [abs_of_nonneg (by linarith)]; exact hs)
  · rw [not_le] at hs
    have hM2 : (maxFin f : ℝ) < 2 ^ f.p * 2 ^ f.emax := by
      have : (maxFin f : ℝ) = ((2 : ℝ) ^ f.p - 1) * 2 ^ f.emax := by unfold maxFin; push_cast; rfl
      rw [this]
      have he : (0 : ℝ) < 2 ^ f.emax := two_zpow_pos _
      nlinarith
    have hlt : (p : ℝ) < (2 : ℝ) ^ (f.emax - 1) := by
      have h3 : (2 : ℝ) ^ f.p * 2 ^ f.emax ≤ ((2 : ℝ) ^ (f.emax - 1)) ^ 2 := by
        rw [← zpow_natCast, ← zpow_natCast, ← zpow_mul, ← zpow_add₀ two_ne_zero]
        apply two_zpow_le
        push_cast
        omega
      have h4 : (p : ℝ) ^ 2 < ((2 : ℝ) ^ (f.emax - 1)) ^ 2 := by linarith
      exact lt_of_pow_lt_pow_left₀ 2 (two_zpow_pos _).le h4
    have hp0 : p ≠ 0 := by rintro rfl; norm_num at h1
    have hq0 : q ≠ 0 := by rintro rfl; rw [Rat.cast_zero] at hab; linarith
    obtain ⟨hp', rfl⟩ := fl_val_nz hp0 ha
    obtain ⟨hq', rfl⟩ := fl_val_nz hq0 hb
    have hr : roundUnb f .near (p + q : ℚ) = maxFin f := by
      have h5 := roundUnb_near_max (f := f) (x := ((p + q : ℚ) : ℝ)) (by push_cast; exact hs.le) (by push_cast; linarith)
      rwa [roundUnb_cast _ (by
        have : (0 : ℝ) < ((p + q : ℚ) : ℝ) := by push_cast; linarith
        intro h
        rw [h] at this
        norm_num at this)] at h5
    have hsum : (Fl.nz p hp' : Fl f).add .near (.nz q hq') = Fl.max f false := by
      change rnd f .near _ (p + q) = _
      have e0 : p + q ≠ 0 := by
        intro h
        have : (p : ℝ) + q = 0 := by exact_mod_cast h
        linarith
      unfold rnd
      rw [if_neg e0]
      have hm := maxFin_pos f
      simp only [hr, hm.ne', le_refl, dif_pos, dite_false]
      rw [dif_pos (by linarith)]
      rfl
    have h2 : val (Num.lit 2 : Fl f) = some ((2 : ℝ) : EReal) := by
      have := NumLaws.lit (T := Fl f) 2 (by norm_num); exact_mod_cast this
    have hval : val (Fl.max f false) = some (((maxFin f : ℚ) : ℝ) : EReal) := val_max false
    obtain ⟨z, hz1, hz2⟩ := div_rounds .near hval h2 ⟨by exact_mod_cast (two_ne_zero : (2 : ℝ) ≠ 0),
      .inl ⟨EReal.coe_ne_bot _, EReal.coe_ne_top _⟩⟩
    rw [← EReal.coe_div] at hz2
    have h2p : (p : ℝ) ≤ (maxFin f : ℝ) / 2 := by
      have h6 : (2 : ℝ) ^ (f.emax - 1) = 2 ^ f.emax / 2 := by rw [zpow_sub_one₀ two_ne_zero]; rfl
      have h7 : (maxFin f : ℝ) = ((2 : ℝ) ^ f.p - 1) * 2 ^ f.emax := by unfold maxFin; push_cast; rfl
      have h8 : (8 : ℝ) ≤ 2 ^ f.p := by
        calc (8 : ℝ) = 2 ^ 3 := by norm_num
          _ ≤ 2 ^ f.p := pow_le_pow_right₀ one_le_two f.hp
      have he : (0 : ℝ) < 2 ^ f.emax := two_zpow_pos _
      nlinarith
    have k1 := hz2.lo (p : ℝ) ((representable_iff _).2 (.inr (.inr ⟨_, hp, rfl⟩))) (by exact_mod_cast h2p)
    have k2 := hz2.up (q : ℝ) ((representable_iff _).2 (.inr (.inr ⟨_, hq, rfl⟩))) (by
      have : (maxFin f : ℝ) / 2 ≤ q := by linarith
      exact_mod_cast this)
    have hb : z ≠ ⊥ := fun h => by rw [h] at k1; exact absurd (le_bot_iff.1 k1) (EReal.coe_ne_bot _)
    have ht : z ≠ ⊤ := fun h => by rw [h] at k2; exact absurd (top_le_iff.1 k2) (EReal.coe_ne_top _)
    lift z to ℝ using ⟨ht, hb⟩
    refine ⟨_, z, ?_, hz1, by exact_mod_cast k1, by exact_mod_cast k2⟩
    change some ((Fl.div .near ((Fl.nz p hp' : Fl f).add .near (.nz q hq')) (Num.lit 2))) = _
    rw [hsum]

theorem fl_discrete : Discrete (Fl f) := by
  intro a b
  have hfin : ((fun z : ℤ × ℤ => ((z.1 * (2 : ℚ) ^ z.2 : ℚ) : ℝ)) '' (Icc (-(2 ^ f.p)) (2 ^ f.p) ×ˢ Icc f.emin f.emax)).Finite :=
    ((Set.finite_Icc _ _).prod (Set.finite_Icc _ _)).image _
  refine hfin.subset ?_
  rintro r ⟨-, -, hr⟩
  rcases (representable_iff (f := f) _).1 hr with h | h | ⟨q, ⟨m, e, h1, h2, h3, rfl⟩, h⟩
  · exact absurd h (EReal.coe_ne_bot _)
  · exact absurd h (EReal.coe_ne_top _)
  · have h1' := abs_le.1 h1.le
    exact ⟨(m, e), ⟨⟨h1'.1, h1'.2⟩, h2, h3⟩, (EReal.coe_eq_coe_iff.1 h).symm⟩

/-! ## Infinite bounds -/

section
variable {V : Env (Fl f)} {n : ℕ}

/-- The policy neither looks for empty intervals nor for NaN. -/
def _root_.BI.Env.Blind (V : Env (Fl f)) : Prop := (∀ l u, V.C.isEmpty l u = .ok false) ∧ ∀ t, V.C.isNan t = .ok false

theorem fl_one : ∃ h, (Num.lit 1 : Fl f) = .nz 1 h := by
  have h1 : val (Num.lit 1 : Fl f) = some (((1 : ℚ) : ℝ) : EReal) := by
    have := val_one (T := Fl f)
    rw [this]; norm_num
  exact fl_val_nz one_ne_zero h1

theorem powLoop_inf {mul : Fl f → Fl f → Res (Fl f)} (h1 : mul (.inf false) (.inf false) = .ok (.inf false))
    (h2 : mul (.inf false) (Num.lit 1) = .ok (.inf false)) (k : ℕ) (y : Fl f) (hk : 1 ≤ k ∨ y = .inf false)
    (hy : y = Num.lit 1 ∨ y = .inf false) : powLoop mul k (.inf false) y = .ok (.inf false) := by
  induction k using Nat.strong_induction_on generalizing y with
  | _ k ih =>
    unfold powLoop
    by_cases h0 : k = 0
    · rw [if_pos h0, hk.resolve_left (by omega)]; rfl
    · rw [if_neg h0, h1]
      change ((if k % 2 = 1 then mul (.inf false) y else (pure y : Res (Fl f))) >>= _) = _
      by_cases h3 : k % 2 = 1
      · have : mul (.inf false) y = .ok (.inf false) := by rcases hy with rfl | rfl <;> assumption
        rw [if_pos h3, this]
        exact ih _ (by omega) _ (.inr rfl) (.inr rfl)
      · rw [if_neg h3]
        exact ih _ (by omega) _ (.inl (by omega)) hy

theorem powAux_inf {mul : Fl f → Fl f → Res (Fl f)} (h1 : mul (.inf false) (.inf false) = .ok (.inf false))
    (h2 : mul (.inf false) (Num.lit 1) = .ok (.inf false)) {k : ℕ} (hk : 1 ≤ k) :
    powAux mul (.inf false) k = .ok (.inf false) := by
  unfold powAux
  by_cases h : k % 2 = 1
  · rw [if_pos h]; exact powLoop_inf h1 h2 _ _ (.inr rfl) (.inr rfl)
  · rw [if_neg h]; exact powLoop_inf h1 h2 _ _ (.inl (by omega)) (.inl rfl)

theorem powLoop_one {mul : Fl f → Fl f → Res (Fl f)}
    (h : ∀ a b : Fl f, val a = some 1 → val b = some 1 → ∃ c, mul a b = .ok c ∧ val c = some 1) (k : ℕ) (x y : Fl f)
    (hx : val x = some 1) (hy : val y = some 1) : ∃ c, powLoop mul k x y = .ok c ∧ val c = some 1 := by
  induction k using Nat.strong_induction_on generalizing x y with
  | _ k ih =>
    unfold powLoop
    by_cases h0 : k = 0
    · rw [if_pos h0]; exact ⟨y, rfl, hy⟩
    · obtain ⟨x', h1, h2⟩ := h x x hx hx
      rw [if_neg h0, h1]
      change ∃ c, ((if k % 2 = 1 then mul x' y else (pure y : Res (Fl f))) >>= _) = _ ∧ _
      by_cases h3 : k % 2 = 1
      · obtain ⟨y', h4, h5⟩ := h x' y h2 hy
        rw [if_pos h3, h4]
        exact ih _ (by omega) _ _ h2 h5
      · rw [if_neg h3]
        exact ih _ (by omega) _ _ h2 hy

theorem mul_inf (hk : V.kind ≠ .exact) :
    (V.B.mulDown (.inf false) (.inf false) = .ok (.inf false) ∧ V.B.mulDown (.inf false) (Num.lit 1) = .ok (.inf false)) ∧
    V.B.mulUp (.inf false) (.inf false) = .ok (.inf false) ∧ V.B.mulUp (.inf false) (Num.lit 1) = .ok (.inf false) := by
  obtain ⟨h, h1⟩ := fl_one (f := f)
  have hd : decide ((1 : ℚ) < 0) = false := by decide
  rw [h1]
  unfold Env.B
  cases hh : V.kind with
  | exact => exact absurd hh hk
  | std =>
    refine ⟨⟨rfl, ?_⟩, rfl, ?_⟩ <;>
    · change (Except.ok (Fl.inf (false ^^ decide ((1 : ℚ) < 0))) : Res (Fl f)) = _
      rw [hd]; rfl
  | opp =>
    refine ⟨⟨rfl, ?_⟩, rfl, ?_⟩
    · change (Except.ok (Fl.inf (!(true ^^ decide ((1 : ℚ) < 0)))) : Res (Fl f)) = _
      rw [hd]; rfl
    · change (Except.ok (Fl.inf (false ^^ decide ((1 : ℚ) < 0))) : Res (Fl f)) = _
      rw [hd]; rfl

theorem nan_ops (hk : V.kind ≠ .exact) (a : Fl f) :
    V.B.subDown (.inf false) (.inf false) = .ok .nan ∧ V.B.subUp (.inf false) (.inf false) = .ok .nan ∧
    V.B.divDown .nan a = .ok .nan ∧ V.B.divUp .nan a = .ok .nan ∧
    V.B.subDown (.inf false) .nan = .ok .nan ∧ V.B.subUp (.inf false) .nan = .ok .nan := by
  unfold Env.B
  cases hh : V.kind with
  | exact => exact absurd hh hk
  | std => exact ⟨rfl, rfl, rfl, rfl, rfl, rfl⟩
  | opp => exact ⟨rfl, rfl, rfl, rfl, rfl, rfl⟩

theorem mulDown_val (hV : V.Tight) {a b : Fl f} {x y : ℝ} (ha : val a = some (x : EReal)) (hb : val b = some (y : EReal))
    (hr : Representable (Fl f) ((x * y : ℝ) : EReal)) : ∃ c, V.B.mulDown a b = .ok c ∧ val c = some ((x * y : ℝ) : EReal) := by
  obtain ⟨c, h1, z, h2, h3⟩ := ((hV.dir du_tight).mulDown a b _ _ ha hb
    ⟨.inr ⟨EReal.coe_ne_bot _, EReal.coe_ne_top _⟩, .inr ⟨EReal.coe_ne_bot _, EReal.coe_ne_top _⟩⟩).total
  rw [← EReal.coe_mul] at h3
  refine ⟨c, h1, ?_⟩
  rw [h2, le_antisymm h3.2.1 (h3.2.2 _ hr le_rfl)]

theorem rootStep_inf (hk : V.kind ≠ .exact) (hB : V.Blind) (hn : 2 ≤ n) {tk : Fl f} {κ : ℝ} (n0 : 0 < κ) (ht : val tk = some (κ : EReal)) :
    rootStep V.pp tk (.inf false) (n : ℤ) ⟨Num.lit 1, .inf false⟩ = .ok ⟨Num.lit 1, .inf false⟩ := by
  have hV := V.fl_tight hk
  obtain ⟨⟨m1, m2⟩, m3, m4⟩ := mul_inf hk
  obtain ⟨g1, e1⟩ := fl_one (f := f)
  have htop : val (Fl.inf false : Fl f) = some (⊤ : EReal) := rfl
  have test : ∀ x : Itv (Fl f), testI V.C x = .ok false := fun x => hB.1 _ _
  have nneg : isNeg (Fl.inf false : Fl f) = false := by rw [isNeg_eq htop]; exact decide_eq_false (by simp)
  have nnan : isNeg (Fl.nan : Fl f) = false := rfl
  have hmed : median V.pp ⟨Num.lit 1, .inf false⟩ = .ok (.inf false) := by
    unfold median
    rw [pure_chk, res_if_false (test _), pure_scope, pure_rnd]
    have : V.B.median (Num.lit 1) (.inf false) = ofOpt (halfSum .near (Num.lit 1) (.inf false)) := by
      unfold Env.B
      cases V.kind <;> rfl
    rw [this, e1]
    have h2 : val (Num.lit 2 : Fl f) = some (((2 : ℚ) : ℝ) : EReal) := by
      have := NumLaws.lit (T := Fl f) 2 (by norm_num); rw [this]; norm_num
    obtain ⟨g2, e2⟩ := fl_val_nz two_ne_zero h2
    change ofOpt (some (Fl.div .near (Fl.inf false) (Num.lit 2))) = _
    rw [e2]
    change (Except.ok (Fl.inf (false ^^ decide ((2 : ℚ) < 0))) : Res (Fl f)) = _
    rw [show decide ((2 : ℚ) < 0) = false by decide]
    rfl
  have hpow : ∀ (l : Fl f) (c : Fl f) (k : ℕ), 1 ≤ k → isNeg l = false → powAux V.B.mulDown l k = .ok c →
      powI V.pp ⟨l, .inf false⟩ (k : ℤ) = .ok ⟨c, .inf false⟩ := by
    intro l c k h1 h2 h3
    unfold powI
    rw [pure_chk, res_if_false (test _), if_neg (by omega), Int.toNat_natCast]
    unfold powNat
    rw [pure_chk, res_if_false (test _), if_neg (by omega), pure_scope, pure_rnd]
    change (if isNeg (Fl.inf false : Fl f) = true then _ else if isNeg l = true then _ else _) = _
    rw [nneg, h2]
    change mk2 (powAux V.B.mulDown l k) (powAux V.B.mulUp (.inf false) k) = _
    rw [h3, powAux_inf m3 m4 h1]
    rfl
  have s1 := hpow (.inf false) _ n (by omega) nneg (powAux_inf m1 m2 (by omega))
  obtain ⟨c, hc, hc'⟩ : ∃ c, powAux V.B.mulDown (Num.lit 1) (n - 1) = .ok c ∧ val c = some 1 := by
    unfold powAux
    refine powLoop_one (fun a b ha hb => ?_) _ _ _ val_one ?_
    · have := mulDown_val hV (x := 1) (y := 1) ha hb (by rw [one_mul]; exact rep_one)
      rw [one_mul] at this
      exact this
    · split <;> exact val_one
  have one_nneg : isNeg (Num.lit 1 : Fl f) = false := by
    rw [isNeg_eq val_one]; exact decide_eq_false (by simp)
  have s3 := hpow (Num.lit 1) c (n - 1) (by omega) one_nneg hc
  obtain ⟨d1, d2, -, -, d5, d6⟩ := nan_ops hk (Num.lit 1)
  obtain ⟨dl, k1, k2⟩ := mulDown_val hV (x := κ) (y := 1) ht hc' (by rw [mul_one]; exact ⟨tk, ht⟩)
  rw [mul_one] at k2
  obtain ⟨du, k3, w, k4, k5⟩ := ((hV.dir du_tight).mulUp tk (.inf false) _ _ ht htop
    ⟨.inl (by exact_mod_cast n0.ne'), .inr ⟨EReal.coe_ne_bot _, EReal.coe_ne_top _⟩⟩).total
  rw [EReal.coe_mul_top_of_pos n0] at k5
  have hw : w = ⊤ := top_le_iff.1 k5.2.1
  subst hw
  have s4 : mulTI V.pp tk ⟨c, .inf false⟩ = .ok ⟨dl, du⟩ := by
    unfold mulTI
    have t1 : testTI V.C tk (⟨c, .inf false⟩ : Itv (Fl f)) = .ok false := by
      unfold testTI; rw [hB.2, hB.1]; rfl
    rw [pure_chk, res_if_false t1, pure_scope, pure_rnd, isNeg_eq ht, isZero_eq ht,
      decide_eq_false (by exact_mod_cast not_lt.2 n0.le), decide_eq_false (by exact_mod_cast n0.ne')]
    change mk2 (V.B.mulDown tk c) (V.B.mulUp tk (.inf false)) = _
    rw [k1, k3]
    rfl
  have s2 : subIT V.pp ⟨.inf false, .inf false⟩ (.inf false) = .ok ⟨.nan, .nan⟩ := by
    unfold subIT
    have t1 : testIT V.C (⟨.inf false, .inf false⟩ : Itv (Fl f)) (.inf false) = .ok false := by
      unfold testIT; rw [hB.1, hB.2]; rfl
    rw [pure_chk, res_if_false t1, pure_scope, pure_rnd]
    change mk2 (V.B.subDown (.inf false) (.inf false)) (V.B.subUp (.inf false) (.inf false)) = _
    rw [d1, d2]
    rfl
  have s5 : divII V.pp ⟨.nan, .nan⟩ ⟨dl, du⟩ = .ok ⟨.nan, .nan⟩ := by
    unfold divII
    have t1 : testII V.C V.C (⟨.nan, .nan⟩ : Itv (Fl f)) ⟨dl, du⟩ = .ok false := by
      unfold testII; rw [hB.1, hB.1]; rfl
    have t2 : zeroIn V.C (⟨dl, du⟩ : Itv (Fl f)) = .ok false := by
      unfold zeroIn
      rw [res_if_false' (test _), isPos_eq k2, decide_eq_true (by exact_mod_cast n0)]
      rfl
    rw [pure_chk, res_if_false t1, res_if_false t2]
    unfold divNonZeroII
    rw [pure_scope, pure_rnd, nnan, isNeg_eq k4, decide_eq_false (by simp)]
    change mk2 (V.B.divDown .nan du) (V.B.divUp .nan dl) = _
    rw [(nan_ops hk du).2.2.1, (nan_ops hk dl).2.2.2.1]
    rfl
  have s6 : subTI V.pp (.inf false) ⟨.nan, .nan⟩ = .ok ⟨.nan, .nan⟩ := by
    unfold subTI
    have t1 : testTI V.C (.inf false) (⟨.nan, .nan⟩ : Itv (Fl f)) = .ok false := by
      unfold testTI; rw [hB.2, hB.1]; rfl
    rw [pure_chk, res_if_false t1, pure_scope, pure_rnd]
    change mk2 (V.B.subDown (.inf false) .nan) (V.B.subUp (.inf false) .nan) = _
    rw [d5, d6]
    rfl
  have s7 : intersect V.C ⟨Num.lit 1, .inf false⟩ (⟨.nan, .nan⟩ : Itv (Fl f)) = .ok ⟨Num.lit 1, .inf false⟩ := by
    unfold intersect
    have t1 : testII V.C V.C ⟨Num.lit 1, .inf false⟩ (⟨.nan, .nan⟩ : Itv (Fl f)) = .ok false := by
      unfold testII; rw [hB.1, hB.1]; rfl
    rw [t1, e1]
    rfl
  unfold rootStep
  rw [hmed]
  change (powI V.pp ⟨.inf false, .inf false⟩ (n : ℤ) >>= _) = _
  rw [s1]
  change (subIT V.pp ⟨.inf false, .inf false⟩ (.inf false) >>= _) = _
  rw [s2]
  change (powI V.pp ⟨Num.lit 1, .inf false⟩ ((n : ℤ) - 1) >>= _) = _
  rw [show (n : ℤ) - 1 = ((n - 1 : ℕ) : ℤ) by omega, s3]
  change (mulTI V.pp tk ⟨c, .inf false⟩ >>= _) = _
  rw [s4]
  change (divII V.pp ⟨.nan, .nan⟩ ⟨dl, du⟩ >>= _) = _
  rw [s5]
  change (subTI V.pp (.inf false) ⟨.nan, .nan⟩ >>= _) = _
  rw [s6]
  exact s7

theorem fl_topOk (hk : V.kind ≠ .exact) (hB : V.Blind) (hn : 2 ≤ n) {tk : Fl f} (ht : IntIs (n : ℤ) tk) : TopOk V n := by
  intro t fuel h
  have : t = .inf false := by
    cases t with
    | nan => cases h
    | inf s => cases s with
      | false => rfl
      | true => exact absurd (Option.some.inj h) (by simp)
    | zero s => exact absurd (Option.some.inj h) (by simp)
    | nz q hq => exact absurd (Option.some.inj h) (EReal.coe_ne_top _)
  subst this
  unfold rootAux
  change (ofOpt (Num.ofInt .near (n : ℤ) : Option (Fl f)) >>= _) = _
  rw [ht.1]
  change rootLoop V.pp tk (.inf false) (n : ℤ) (fuel + 1) ⟨Num.lit 1, .inf false⟩ = _
  unfold rootLoop
  rw [rootStep_inf hk hB hn (by exact_mod_cast (by omega : 0 < n)) ht.2]
  obtain ⟨g1, e1⟩ := fl_one (f := f)
  have he : equal V.C V.C (⟨Num.lit 1, .inf false⟩ : Itv (Fl f)) ⟨Num.lit 1, .inf false⟩ = .ok true := by
    have h1 : ∀ x : Itv (Fl f), isEmptyI V.C x = .ok false := fun x => hB.1 _ _
    have h2 : Num.eq (Num.lit 1 : Fl f) (Num.lit 1) = true := (NumLaws.eq_iff _ _).2 ⟨_, val_one, val_one⟩
    unfold equal
    rw [res_if_false' (h1 _), res_if_false' (h1 _), h2]
    rfl
  change ((lift (equal V.C V.C (⟨Num.lit 1, .inf false⟩ : Itv (Fl f)) ⟨Num.lit 1, .inf false⟩) : Res Bool) >>= _) = _
  rw [he]
  rfl
end

end BI
