import Verif.Props.Arith2
import Verif.Props.Trig
/-! # Operations with unbounded results in base types without infinities -/

set_option linter.unusedSectionVars false

namespace BI
open Set

namespace NoInf
variable {T : Type} [Num T] [Val T] [NumLaws T] {V : Env T} {x y : Itv T} {t : T} {r : ℝ} {K : PiConst T} {D U : EReal → EReal → Prop}

theorem negInf_eq (h : V.NoInf) : V.C.negInf = .error .assertion := by
  have key : ∀ c : ChkSpec, (c.eval T false).negInf = (chkBase T false).negInf := by
    intro c
    induction c with
    | base => rfl
    | noEmpty c ih => exact ih
    | noNan c ih => exact ih
    | catchNan c ih => exact ih
  unfold Env.C
  rw [h.debug, key]
  unfold chkBase
  rw [h.inf]
  rfl

theorem posInf_eq (h : V.NoInf) : V.C.posInf = .error .assertion := by
  have key : ∀ c : ChkSpec, (c.eval T false).posInf = (chkBase T false).posInf := by
    intro c
    induction c with
    | base => rfl
    | noEmpty c ih => exact ih
    | noNan c ih => exact ih
    | catchNan c ih => exact ih
  unfold Env.C
  rw [h.debug, key]
  unfold chkBase
  rw [h.inf]
  rfl

theorem whole_eq (h : V.NoInf) : wholeI V.C = .error .assertion := by
  unfold wholeI; rw [negInf_eq h]; rfl

theorem mkNeg_eq (h : V.NoInf) (u : Res T) : (mkNegInf V.C u : Res (Itv T)) = .error .assertion := by
  unfold mkNegInf; rw [negInf_eq h]; rfl

theorem mkPos_eq (h : V.NoInf) {l : Res T} {Q : T → Prop} (hl : Post True l Q) :
    (mkPosInf V.C l : Res (Itv T)) = .error .assertion := by
  obtain ⟨c, rfl, -⟩ := hl.total
  unfold mkPosInf
  rw [posInf_eq h]
  rfl

theorem div_eq (hV : V.Directed) (h : V.NoInf) {a b c d : EReal} (hx : Has x a b) (hy : Has y c d)
    (hx0 : ¬ (a = 0 ∧ b = 0)) (hy0 : ¬ (c = 0 ∧ d = 0)) (h0 : c ≤ 0 ∧ 0 ≤ d) : divII V.pp x y = .error .assertion := by
  have hD := hV.div du_weak
  unfold divII divZeroI divNegativeI divPositiveI
  rw [pure_chk, res_if_false (hx.test2 V.chk hy), res_if (zeroIn_eq V.chk hy), isZero_eq hy.lo, isZero_eq hy.up,
    isZero_eq hx.lo, isZero_eq hx.up, isNeg_eq hx.up, isNeg_eq hx.lo]
  have e : (decide (a = 0) && decide (b = 0)) = false := by simpa using hx0
  simp only [h0, e, decide_true, and_self, if_true]
  by_cases h1 : c = 0 <;> by_cases h2 : d = 0 <;> simp only [h1, h2, decide_true, decide_false, Bool.not_true, Bool.not_false,
    if_true, if_false, Bool.false_eq_true]
  · exact absurd ⟨h1, h2⟩ hy0
  · by_cases h3 : b < 0 <;> by_cases h4 : a < 0 <;> simp only [h3, h4, decide_true, decide_false, if_true, if_false,
      Bool.false_eq_true]
    · exact mkNeg_eq h _
    · exact mkNeg_eq h _
    · exact whole_eq h
    · exact mkPos_eq h (hD.divDown _ _ _ _ hx.lo hy.up
        (divOk_left h2 (ne_bot_of_le_ne_bot EReal.zero_ne_bot (not_lt.1 h4)) hx.ne_top))
  · by_cases h3 : b < 0 <;> by_cases h4 : a < 0 <;> simp only [h3, h4, decide_true, decide_false, if_true, if_false,
      Bool.false_eq_true]
    · exact mkPos_eq h (hD.divDown _ _ _ _ hx.up hy.lo (divOk_left h1 hx.ne_bot (ne_top_of_lt h3)))
    · exact mkPos_eq h (hD.divDown _ _ _ _ hx.up hy.lo (divOk_left h1 hx.ne_bot (ne_top_of_lt h3)))
    · exact whole_eq h
    · exact mkNeg_eq h _
  · exact whole_eq h

theorem inv_eq' (hV : V.Directed) (h : V.NoInf) {c d : EReal} (iy : Has y c d) (hy0 : ¬ (c = 0 ∧ d = 0))
    (h0 : c ≤ 0 ∧ 0 ≤ d) : multInv V.pp y = .error .assertion := by
  have hD := hV.div du_weak
  unfold multInv
  rw [pure_chk, res_if_false (iy.test V.chk), pure_scope, res_if (zeroIn_eq V.chk iy), isZero_eq iy.lo, isZero_eq iy.up]
  simp only [h0, decide_true, and_self, if_true]
  have ok : ∀ q : EReal, q ≠ 0 → DivOk (1 : EReal) q := fun q hq => divOk_left hq (by decide) (by decide)
  by_cases h1 : c = 0 <;> by_cases h2 : d = 0 <;> simp only [h1, h2, decide_true, decide_false, Bool.not_true, Bool.not_false,
    if_true, if_false, Bool.false_eq_true]
  · exact absurd ⟨h1, h2⟩ hy0
  · exact mkPos_eq h (hD.divDown _ _ _ _ val_one iy.up (ok _ h2))
  · exact mkNeg_eq h _
  · exact whole_eq h

theorem divT_eq (hV : V.Directed) (h : V.NoInf) {c d : EReal} (ht : val t = some (r : EReal)) (hr : r ≠ 0) (iy : Has y c d)
    (hy0 : ¬ (c = 0 ∧ d = 0)) (h0' : c ≤ 0 ∧ 0 ≤ d) : divTI V.pp t y = .error .assertion := by
  have hD := hV.div du_weak
  unfold divTI divZeroT divNegativeT divPositiveT
  rw [pure_chk, res_if_false (testTI_ok V.chk ht iy), res_if (zeroIn_eq V.chk iy), isZero_eq iy.lo, isZero_eq iy.up,
    isZero_eq ht, isNeg_eq ht]
  have e : ¬ ((r : EReal) = 0) := by exact_mod_cast hr
  simp only [h0', e, decide_true, decide_false, and_self, if_true]
  have ok : ∀ q : EReal, q ≠ 0 → DivOk (r : EReal) q := fun q hq => divOk_left hq (EReal.coe_ne_bot _) (EReal.coe_ne_top _)
  by_cases h1 : c = 0 <;> by_cases h2 : d = 0 <;> simp only [h1, h2, decide_true, decide_false, Bool.not_true, Bool.not_false,
    if_true, if_false, Bool.false_eq_true]
  · exact absurd ⟨h1, h2⟩ hy0
  · by_cases h3 : (r : EReal) < 0 <;> simp only [h3, decide_true, decide_false, if_true, if_false, Bool.false_eq_true]
    · exact mkNeg_eq h _
    · exact mkPos_eq h (hD.divDown _ _ _ _ ht iy.up (ok _ h2))
  · by_cases h3 : (r : EReal) < 0 <;> simp only [h3, decide_true, decide_false, if_true, if_false, Bool.false_eq_true]
    · exact mkPos_eq h (hD.divDown _ _ _ _ ht iy.lo (ok _ h1))
    · exact mkNeg_eq h _
  · exact whole_eq h

theorem divZ_eq {a b c d : EReal} (ix : Has x a b) (iy : Has y c d) (hxz : a = 0 ∧ b = 0) (hy0 : ¬ (c = 0 ∧ d = 0))
    (h0' : c ≤ 0 ∧ 0 ≤ d) : divII V.pp x y = .ok x := by
  unfold divII divZeroI divNegativeI divPositiveI
  rw [pure_chk, res_if_false (ix.test2 V.chk iy), res_if (zeroIn_eq V.chk iy), isZero_eq iy.lo, isZero_eq iy.up,
    isZero_eq ix.lo, isZero_eq ix.up]
  simp only [h0', hxz, decide_true, and_self, Bool.and_self, if_true]
  by_cases h1 : c = 0 <;> by_cases h2 : d = 0 <;> simp only [h1, h2, decide_true, decide_false, Bool.not_true, Bool.not_false,
    if_true, if_false, Bool.false_eq_true]
  · exact absurd ⟨h1, h2⟩ hy0
  all_goals rfl

theorem divTZ_eq {c d : EReal} (ht : val t = some ((0 : ℝ) : EReal)) (iy : Has y c d) (hy0 : ¬ (c = 0 ∧ d = 0))
    (h0' : c ≤ 0 ∧ 0 ≤ d) : divTI V.pp t y = .ok zeroI := by
  unfold divTI divZeroT divNegativeT divPositiveT
  rw [pure_chk, res_if_false (testTI_ok V.chk ht iy), res_if (zeroIn_eq V.chk iy), isZero_eq iy.lo, isZero_eq iy.up, isZero_eq ht]
  simp only [h0', EReal.coe_zero, decide_true, and_self, if_true]
  by_cases h1 : c = 0 <;> by_cases h2 : d = 0 <;> simp only [h1, h2, decide_true, decide_false, Bool.not_true, Bool.not_false,
    if_true, if_false, Bool.false_eq_true]
  · exact absurd ⟨h1, h2⟩ hy0
  all_goals rfl

theorem pow_eq (hV : V.Signed) (hV' : V.Directed) (h : V.NoInf) {c d : EReal} (iy : Has y c d) (h0 : 0 ∈ γ y)
    (hy : ∃ b ∈ γ y, b ≠ 0) {k : ℤ} (hk : k < 0) (hm : k ≠ -2147483648) : powI V.pp y k = .error .assertion := by
  obtain ⟨b₀, hb, hb0⟩ := hy
  unfold powI
  have hn : 0 < (-k).toNat := by omega
  rw [pure_chk, res_if_false (iy.test V.chk), if_pos hk, if_neg (show ¬ k = intMin from hm)]
  obtain ⟨z, hz, hz', -⟩ := (powNat_post (hV.dir du_signed) V.chk iy hn).total
  rw [hz]
  have m0 : (0 : ℝ) ∈ γ z := by have := hz' 0 h0; rwa [zero_pow hn.ne'] at this
  obtain ⟨a, b, iz⟩ := has_of_mem m0
  exact inv_eq' hV' h iz (fun k => absurd ((zero_bounds iz).1 k (hz' b₀ hb)) (pow_ne_zero _ hb0)) ((mem_zero_iff iz).1 m0)

/-! ## Each operation stops the program or encloses -/

theorem divTI_out (hV : V.Ok D U) (hD : V.Directed) (hDU : DU T D U) (h : V.NoInf) {c d : EReal} (ht : val t = some (r : EReal))
    (iy : Has y c d) (hy0 : ¬ (c = 0 ∧ d = 0)) :
    divTI V.pp t y = .error .assertion ∨ Post True (divTI V.pp t y) fun z => quot {r} (γ y) ⊆ γ z := by
  have hA := hV.dir hDU
  by_cases h0 : (0 : ℝ) ∈ γ y
  · by_cases hr : r = 0
    · subst hr
      refine .inr (Post.of_eq (divTZ_eq ht iy hy0 ((mem_zero_iff iy).1 h0)) ?_)
      rintro _ ⟨a, rfl, b, -, -, rfl⟩
      rw [zero_div]
      exact ⟨_, _, val_zero, val_zero, by simp, by simp⟩
    · exact .inl (divT_eq hD h ht hr iy hy0 ((mem_zero_iff iy).1 h0))
  · exact .inr ((divTI_nz_post (hV.div hDU) V.chk ht iy h0).mono fun z hz => hz.encl hA.D_le hA.U_ge)

theorem divII_out (hV : V.Directed) (h : V.NoInf) {a b c d : EReal} (ix : Has x a b) (iy : Has y c d) (hy0 : ¬ (c = 0 ∧ d = 0)) :
    divII V.pp x y = .error .assertion ∨ Post True (divII V.pp x y) fun z => quot (γ x) (γ y) ⊆ γ z := by
  have hA := hV.dir du_weak
  by_cases h0 : (0 : ℝ) ∈ γ y
  · by_cases hx : a = 0 ∧ b = 0
    · refine .inr (Post.of_eq (divZ_eq ix iy hx hy0 ((mem_zero_iff iy).1 h0)) ?_)
      rintro _ ⟨a, ha, b, -, -, rfl⟩
      have : a = 0 := (zero_bounds ix).1 hx ha
      subst this
      rwa [zero_div]
    · exact .inl (div_eq hV h ix iy hx hy0 ((mem_zero_iff iy).1 h0))
  · exact .inr ((divII_nz_post (hV.div du_weak) V.chk ix iy h0).mono fun z hz => hz.encl hA.D_le hA.U_ge)

theorem powI_out (hV : V.Signed) (h : V.NoInf) {a b : EReal} (ix : Has x a b) {k : ℤ} (hk : k < 0) (hm : k ≠ -2147483648)
    (h0 : ¬ (a = 0 ∧ b = 0)) :
    powI V.pp x k = .error .assertion ∨ Post True (powI V.pp x k) fun z => ∀ r ∈ γ x, r ≠ 0 → r ^ k ∈ γ z := by
  unfold powI
  have hn : 0 < (-k).toNat := by omega
  rw [pure_chk, res_if_false (ix.test V.chk), if_pos hk, if_neg (show ¬ k = intMin from hm)]
  obtain ⟨p, hp, hp', -⟩ := (powNat_post (hV.dir du_signed) V.chk ix hn).total
  rw [hp]
  obtain ⟨r₀, hr₀⟩ := ix.nonempty
  obtain ⟨c, d, iz⟩ := has_of_mem (hp' r₀ hr₀)
  have hne : ¬ (c = 0 ∧ d = 0) := fun h => h0 ((zero_bounds ix).2 fun r hr =>
    eq_zero_of_pow_eq_zero ((zero_bounds iz).1 h (hp' r hr)))
  change multInv V.pp p = _ ∨ Post True (multInv V.pp p) _
  rw [multInv_eq V.chk iz]
  have h1 : val (Num.lit 1 : T) = some ((1 : ℝ) : EReal) := by rw [val_one]; rfl
  refine (divTI_out hV hV.directed du_signed h h1 iz hne).imp id fun hz => hz.mono fun z hz r hr hr0 => ?_
  have hm := hz (a := 1 / r ^ (-k).toNat) ⟨1, rfl, _, hp' r hr, pow_ne_zero _ hr0, rfl⟩
  have e : r ^ k = 1 / r ^ (-k).toNat := by
    obtain ⟨m, hm⟩ : ∃ m : ℕ, k = -(m : ℤ) := ⟨(-k).toNat, by omega⟩
    rw [hm, zpow_neg, zpow_natCast, one_div, neg_neg, Int.toNat_natCast]
  rw [e]; exact hm

theorem log_eq (h : V.NoInf) {a b : EReal} (ix : Has x a b) (ha : ¬ 0 < a) (hb : 0 < b) : logI V.pp x = .error .assertion := by
  unfold logI
  rw [pure_chk, ix.test V.chk]
  change (if false || !isPos x.upper then _ else _ : Res (Itv T)) = _
  rw [isPos_eq ix.up, isPos_eq ix.lo, if_neg (by simp [hb]), pure_scope, pure_rnd]
  simp only [ha, decide_false, Bool.not_false, if_true]
  rw [negInf_eq h]
  rfl

theorem logI_out (h : V.NoInf) (hf : V.FnOk LeB GeB .log) (hne : (γ x ∩ Fn.log.dom).Nonempty) :
    logI V.pp x = .error .assertion ∨ Post True (logI V.pp x) (Bnd LeB GeB (Real.log '' (γ x ∩ Fn.log.dom))) := by
  obtain ⟨r₀, hr₀⟩ := id hne
  obtain ⟨a, b, ix⟩ := has_of_mem hr₀.1
  by_cases ha : 0 < a
  · exact .inr (logI_post du_weak (fun h => absurd ha h) hf ix hne)
  · exact .inl (log_eq h ix ha (lt_of_lt_of_le (by exact_mod_cast hr₀.2) (ix.ub hr₀.1)))

theorem atanh_eq (h : V.NoInf) {D U : EReal → EReal → Prop} (hDU : DU T D U) (hf : V.FnOk D U .atanh) {a b : EReal} (ix : Has x a b)
    (hne : (γ x ∩ Fn.atanh.dom).Nonempty) (hab : a ≤ -1 ∨ 1 ≤ b) : atanhI V.pp x = .error .assertion := by
  obtain ⟨r₀, hr₀⟩ := hne
  have hb : ¬ b < -1 := ((m1_lt.2 hr₀.2.1).trans_le (ix.ub hr₀.1)).not_gt
  have ha : ¬ 1 < a := ((ix.lb hr₀.1).trans_lt (by exact_mod_cast hr₀.2.2)).not_gt
  unfold atanhI
  rw [pure_chk, ix.test V.chk]
  change (if false || Num.lt x.upper (Num.lit (-1)) || Num.lt (Num.lit 1) x.lower then _ else _ : Res (Itv T)) = _
  rw [lt_eq ix.up val_negOne, lt_eq val_one ix.lo, if_neg (by simp [ha, hb]), pure_scope, pure_rnd, le_eq ix.lo val_negOne,
    le_eq val_one ix.up]
  by_cases h1 : a ≤ -1
  · simp only [h1, decide_true, if_true]
    rw [negInf_eq h]
    rfl
  · have h2 : 1 ≤ b := hab.resolve_left h1
    have hr : ∃ r : ℝ, a = r ∧ -1 < r ∧ r < 1 := by
      have h3 := ix.lb hr₀.1
      have ht : a ≠ ⊤ := ix.ne_top
      have hb : a ≠ ⊥ := fun e => h1 (e ▸ bot_le)
      lift a to ℝ using ⟨ht, hb⟩
      exact ⟨a, rfl, m1_lt.1 (not_le.1 h1), lt_of_le_of_lt (by exact_mod_cast h3) hr₀.2.2⟩
    obtain ⟨r, rfl, hr1, hr2⟩ := hr
    simp only [h1, h2, decide_true, decide_false, if_true, if_false, Bool.false_eq_true]
    obtain ⟨c, hc, -⟩ := (hf.down hDU ix.lo (.inl ⟨r, ⟨hr1, hr2⟩, rfl, rfl⟩)).total
    rw [hc, posInf_eq h]
    rfl

theorem atanhI_out (h : V.NoInf) (hf : V.FnOk LeB GeB .atanh) (hne : (γ x ∩ Fn.atanh.dom).Nonempty) :
    atanhI V.pp x = .error .assertion ∨ Post True (atanhI V.pp x) (Bnd LeB GeB (Real.artanh '' (γ x ∩ Fn.atanh.dom))) := by
  obtain ⟨r₀, hr₀⟩ := id hne
  obtain ⟨a, b, ix⟩ := has_of_mem hr₀.1
  by_cases hab : a ≤ -1 ∨ 1 ≤ b
  · exact .inl (atanh_eq h du_weak hf ix hne hab)
  · exact .inr (atanhI_post du_weak (fun h => absurd h hab) hf ix hne)

theorem tanI_out (h : V.NoInf) (hV : V.Tight) (hi : V.IntOk) (hI : IeeeBase T) (hf : V.FnOk LeB GeB .tan) (hK : Brackets K)
    (hK' : PiPos K) (hx : (γ x).Nonempty) :
    tanI K V.pp x = .error .assertion ∨ Post True (tanI K V.pp x) fun z => ∀ r ∈ γ x, Real.tan r ∈ γ z := by
  obtain ⟨a, b, ix⟩ := has_of_nonempty hx
  rcases tan_cases hV hi hI du_weak hf hK.ok hK' ix with h1 | h1
  · exact .inl (h1.trans (whole_eq h))
  · exact .inr (h1.mono fun z hz r hr => (hz r hr).2)

end NoInf

end BI
