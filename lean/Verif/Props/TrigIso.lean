import Mathlib.Analysis.Real.Pi.Bounds
import Verif.Props.Trig
/-!
# C13 for cos, sin, tan: not isotone

The reduction subtracts `n` times an enclosure of the period; the product is rounded, so that the error depends on `n`, and
`n` on the lower bound. A smaller interval that starts in the next period can get a larger result. -/

namespace BI
open Set

/-- `m * 2 ^ e` -/
def dq (m e : ℤ) : Fl .double := rnd .double .near false (m * (2 : ℚ) ^ e)

theorem dq_val {m e : ℤ} (h : |m| < 2 ^ 53 ∧ -1074 ≤ e ∧ e ≤ 971) : val (dq m e) = some ((m * (2 : ℝ) ^ e : ℝ) : EReal) := by
  have := rnd_exact (f := .double) .near false (q := m * (2 : ℚ) ^ e) ⟨m, e, h.1, h.2.1, h.2.2, rfl⟩
  unfold dq
  rw [this]
  push_cast
  rfl

theorem dq_has {m e m' e' : ℤ} (h : |m| < 2 ^ 53 ∧ -1074 ≤ e ∧ e ≤ 971) (h' : |m'| < 2 ^ 53 ∧ -1074 ≤ e' ∧ e' ≤ 971)
    (hl : (m * (2 : ℝ) ^ e : ℝ) ≤ m' * (2 : ℝ) ^ e') :
    Has (⟨dq m e, dq m' e'⟩ : Itv (Fl .double)) (m * (2 : ℝ) ^ e : ℝ) (m' * (2 : ℝ) ^ e' : ℝ) :=
  ⟨dq_val h, dq_val h', EReal.coe_ne_top _, EReal.coe_ne_bot _, EReal.coe_le_coe_iff.2 hl⟩

/-- The constants for `double`. -/
abbrev piD2 : PiConst (Fl .double) := piDouble .near

private theorem ok53 {m e : ℤ} (h : decide (|m| < 2 ^ 53 ∧ -1074 ≤ e ∧ e ≤ 971) = true) : |m| < 2 ^ 53 ∧ -1074 ≤ e ∧ e ≤ 971 :=
  of_decide_eq_true h

private theorem bok {α β : Type} (a : α) (f : α → Res β) : ((Except.ok a : Res α) >>= f) = f a := rfl
private theorem ift {α : Type} (a b : α) : (if false = true then a else b) = b := rfl
private theorem itt {α : Type} (a b : α) : (if true = true then a else b) = a := rfl

/-! ## cos -/

/-- About `[2 n π + 1/16, 2 n π + π/3]` with `n = 2 ^ 40 + 1`. -/
def cosX : Itv (Fl .double) := ⟨dq 7074237752034939 (-10), dq 3537118876017973 (-9)⟩
/-- The lower bound is now less than `2 n π`. -/
def cosX' : Itv (Fl .double) := ⟨dq 3537118876017405 (-9), dq 3537118876017973 (-9)⟩

private theorem cosX_has : Has cosX (((7074237752034939 : ℤ) * (2 : ℝ) ^ (-10 : ℤ) : ℝ) : EReal)
    (((3537118876017973 : ℤ) * (2 : ℝ) ^ (-9 : ℤ) : ℝ) : EReal) := dq_has (m := 7074237752034939) (e := -10) (m' := 3537118876017973) (e' := -9)
  (ok53 (by decide +kernel)) (ok53 (by decide +kernel)) (by norm_num)
private theorem cosX'_has : Has cosX' (((3537118876017405 : ℤ) * (2 : ℝ) ^ (-9 : ℤ) : ℝ) : EReal)
    (((3537118876017973 : ℤ) * (2 : ℝ) ^ (-9 : ℤ) : ℝ) : EReal) := dq_has (m := 3537118876017405) (e := -9) (m' := 3537118876017973) (e' := -9)
  (ok53 (by decide +kernel)) (ok53 (by decide +kernel)) (by norm_num)

theorem cosX_sub : γ cosX ⊆ γ cosX' := by
  rw [cosX_has.gamma, cosX'_has.gamma]
  rintro r ⟨h1, h2⟩
  exact ⟨le_trans (EReal.coe_le_coe_iff.2 (by norm_num)) h1, h2⟩

private theorem cosX_eq (n : ℕ) : cosAux piD2 false (n + 1) dblStd.pp cosX =
    mk2 (dblStd.B.fnDown .cos (dq 1073 (-10))) (dblStd.B.fnUp .cos (dq 1 (-4))) := by
  have e1 : fmodAux true dblStd.pp cosX (piTwiceI piD2) = .ok ⟨dq 1 (-4), dq 1073 (-10)⟩ := by decide +kernel
  have e2 : width dblStd.pp ⟨dq 1 (-4), dq 1073 (-10)⟩ = .ok (dq 1009 (-10)) := by decide +kernel
  have e3 : Num.le piD2.piTwiceLower (dq 1009 (-10)) = false := by decide +kernel
  have e4 : Num.le piD2.piUpper (dq 1 (-4)) = false := by decide +kernel
  have e5 : Num.le (dq 1073 (-10)) piD2.piLower = true := by decide +kernel
  unfold cosAux
  rw [pure_chk, res_if_false (cosX_has.test dblStd.chk), pure_scope, pure_rnd, pure_unprot, e1, bok, e2, bok, e3, ift, e4, ift, e5,
    itt]

private theorem cosX'_eq (n : ℕ) : cosAux piD2 false (n + 2) dblStd.pp cosX' = (do
    let u ← dblStd.B.fnUp .cos (dq 589605587489001 (-48))
    let r ← negI dblStd.C ⟨Num.lit (-1), u⟩
    reItv dblStd.C dblStd.C r) := by
  have e1 : fmodAux true dblStd.pp cosX' (piTwiceI piD2) = .ok ⟨dq 6369 (-10), dq 3753 (-9)⟩ := by decide +kernel
  have e2 : width dblStd.pp ⟨dq 6369 (-10), dq 3753 (-9)⟩ = .ok (dq 1137 (-10)) := by decide +kernel
  have e3 : Num.le piD2.piTwiceLower (dq 1137 (-10)) = false := by decide +kernel
  have e4 : Num.le piD2.piUpper (dq 6369 (-10)) = true := by decide +kernel
  have e5 : subII dblStd.pp ⟨dq 6369 (-10), dq 3753 (-9)⟩ (piI piD2) = .ok ⟨dq 6931341362582247 (-51), dq 1178953850518109 (-48)⟩ := by
    decide +kernel
  have it := dq_has (m := 6931341362582247) (e := -51) (m' := 1178953850518109) (e' := -48)
    (ok53 (by decide +kernel)) (ok53 (by decide +kernel)) (by norm_num)
  have f1 : fmodAux true dblStd.pp ⟨dq 6931341362582247 (-51), dq 1178953850518109 (-48)⟩ (piTwiceI piD2) =
      .ok ⟨dq 6931341362582247 (-51), dq 1178953850518109 (-48)⟩ := by decide +kernel
  have f2 : width dblStd.pp ⟨dq 6931341362582247 (-51), dq 1178953850518109 (-48)⟩ = .ok (dq 2500289441562625 (-51)) := by decide +kernel
  have f3 : Num.le piD2.piTwiceLower (dq 2500289441562625 (-51)) = false := by decide +kernel
  have f4 : Num.le piD2.piUpper (dq 6931341362582247 (-51)) = false := by decide +kernel
  have f5 : Num.le (dq 1178953850518109 (-48)) piD2.piLower = false := by decide +kernel
  have f6 : Num.le (dq 1178953850518109 (-48)) piD2.piTwiceLower = true := by decide +kernel
  have f7 : dblStd.B.subDown piD2.piTwiceLower (dq 1178953850518109 (-48)) = .ok (dq 589605587489001 (-48)) := by decide +kernel
  have f8 : stdMin (dq 589605587489001 (-48)) (dq 6931341362582247 (-51)) = dq 589605587489001 (-48) := by decide +kernel
  have inner : cosAux piD2 true (n + 1) dblStd.pp ⟨dq 6931341362582247 (-51), dq 1178953850518109 (-48)⟩ =
      (dblStd.B.fnUp .cos (dq 589605587489001 (-48)) >>= fun u => pure ⟨Num.lit (-1), u⟩) := by
    unfold cosAux
    rw [pure_chk, res_if_false (it.test dblStd.chk), pure_scope, pure_rnd, pure_unprot, f1, bok, f2, bok, f3, ift, f4, ift, f5, ift,
      f6, itt, f7, bok, f8]
  rw [cosAux]
  rw [pure_chk, res_if_false (cosX'_has.test dblStd.chk), pure_scope, pure_rnd, pure_unprot, e1, bok, e2, bok, e3, ift, e4, itt, e5, bok,
    inner]
  cases dblStd.B.fnUp .cos (dq 589605587489001 (-48)) <;> rfl

private theorem val_halfNeg : val (dq (-1) (-1)) = some ((-(1 / 2) : ℝ) : EReal) := by
  rw [dq_val (ok53 (by decide +kernel))]; norm_num

/-- With a correctly rounded library and the best constants, `cos` of the smaller interval is not contained in `cos` of the
larger one. -/
theorem C13_cos_not_isotone (fuel : ℕ) : γ cosX ⊆ γ cosX' ∧ (γ cosX).Nonempty ∧
    dblStd.Returns (cosI piD2 (fuel + 2) dblStd.P cosX) fun z => dblStd.Returns (cosI piD2 (fuel + 2) dblStd.P cosX') fun z' =>
      ¬ γ z ⊆ γ z' := by
  have hV := dblStd_tight
  refine ⟨cosX_sub, cosX_has.nonempty, ?_⟩
  have v1 : val (dq 1073 (-10)) = some ((1073 / 1024 : ℝ) : EReal) := by rw [dq_val (ok53 (by decide +kernel))]; norm_num
  have v2 : val (dq 1 (-4)) = some ((1 / 16 : ℝ) : EReal) := by rw [dq_val (ok53 (by decide +kernel))]; norm_num
  have v3 : val (dq 589605587489001 (-48)) = some ((589605587489001 / 2 ^ 48 : ℝ) : EReal) := by
    rw [dq_val (ok53 (by decide +kernel))]; norm_num
  have hpi := Real.pi_gt_d4
  have hpi' := Real.pi_lt_d4
  have c1 : Real.cos (1073 / 1024) < 1 / 2 := by
    rw [← Real.cos_pi_div_three]
    exact Real.cos_lt_cos_of_nonneg_of_le_pi (by linarith) (by linarith) (by linarith)
  have c2 : Real.cos (1073 / 1024) ≤ Real.cos (1 / 16) :=
    Real.cos_le_cos_of_nonneg_of_le_pi (by norm_num) (by linarith) (by norm_num)
  have c3 : Real.cos (589605587489001 / 2 ^ 48) ≤ -(1 / 2) := by
    have e : Real.cos (589605587489001 / 2 ^ 48) = -Real.cos (Real.pi - 589605587489001 / 2 ^ 48) := by
      rw [Real.cos_pi_sub, neg_neg]
    rw [e, ← Real.cos_pi_div_three, neg_le_neg_iff]
    exact Real.cos_le_cos_of_nonneg_of_le_pi (by linarith) (by linarith) (by linarith)
  refine dblStd.run hV (fun _ h => cosI_sim piD2 (fuel + 2) cosX h) ?_
  change Post True (cosAux piD2 false ((fuel + 1) + 1) dblStd.pp cosX) _
  rw [cosX_eq]
  refine (Post.pair ((dblStd_fn .cos).down du_tight v1 (.inl ⟨_, trivial, rfl, rfl⟩))
    ((dblStd_fn .cos).up du_tight v2 (.inl ⟨_, trivial, rfl, rfl⟩))).bind fun p hp => ?_
  obtain ⟨⟨l, hl, hl'⟩, u, hu, hu'⟩ := hp
  refine dblStd.run hV (fun _ h => cosI_sim piD2 (fuel + 2) cosX' h) ?_
  change Post True (cosAux piD2 false (fuel + 2) dblStd.pp cosX') _
  rw [cosX'_eq]
  refine ((dblStd_fn .cos).up du_tight v3 (.inl ⟨_, trivial, rfl, rfl⟩)).bind fun c hc => ?_
  obtain ⟨w, hw, hw'⟩ := hc
  have hm : Real.cos (1073 / 1024) ∈ γ (⟨p.1, p.2⟩ : Itv (Fl .double)) :=
    ⟨l, u, hl, hu, hl'.2.1, le_trans (EReal.coe_le_coe_iff.2 c2) hu'.2.1⟩
  have hwl : w ≤ ((-(1 / 2) : ℝ) : EReal) := hw'.2.2 _ ⟨_, val_halfNeg⟩ (EReal.coe_le_coe_iff.2 c3)
  have hwb : ((-1 : ℝ) : EReal) ≤ w := le_trans (EReal.coe_le_coe_iff.2 (Real.neg_one_le_cos _)) hw'.2.1
  have ic : Has (⟨Num.lit (-1), c⟩ : Itv (Fl .double)) ((-1 : ℝ) : EReal) w :=
    ⟨val_negOne, hw, EReal.coe_ne_top _, ((EReal.bot_lt_coe _).trans_le hwb).ne', hwb⟩
  obtain ⟨z', hz, iz⟩ := negI_has hV.directed.neg dblStd.chk ic
  rw [hz]
  change Post True (lift (reItv dblStd.C dblStd.C z') : Res _) _
  rw [reItv_ok dblStd.chk iz]
  refine fun hsub => ?_
  have := iz.lb (hsub hm)
  have h2 : ((1 / 2 : ℝ) : EReal) ≤ -w := by
    rw [EReal.le_neg]; exact hwl
  exact absurd (EReal.coe_le_coe_iff.1 (h2.trans this)) (not_le.2 c1)

/-! ## tan -/

/-- About `[n π + 1/16, n π + π/4]` with `n = 2 ^ 40 + 1`. -/
def tanX : Itv (Fl .double) := ⟨dq 7074237752035003 (-11), dq 3537118876018241 (-10)⟩
/-- The lower bound is now less than `n π`. -/
def tanX' : Itv (Fl .double) := ⟨dq 3537118876017373 (-10), dq 3537118876018241 (-10)⟩

private theorem tanX_has : Has tanX (((7074237752035003 : ℤ) * (2 : ℝ) ^ (-11 : ℤ) : ℝ) : EReal)
    (((3537118876018241 : ℤ) * (2 : ℝ) ^ (-10 : ℤ) : ℝ) : EReal) :=
  dq_has (ok53 (by decide +kernel)) (ok53 (by decide +kernel)) (by norm_num)
private theorem tanX'_has : Has tanX' (((3537118876017373 : ℤ) * (2 : ℝ) ^ (-10 : ℤ) : ℝ) : EReal)
    (((3537118876018241 : ℤ) * (2 : ℝ) ^ (-10 : ℤ) : ℝ) : EReal) :=
  dq_has (ok53 (by decide +kernel)) (ok53 (by decide +kernel)) (by norm_num)

theorem tanX_sub : γ tanX ⊆ γ tanX' := by
  rw [tanX_has.gamma, tanX'_has.gamma]
  rintro r ⟨h1, h2⟩
  exact ⟨le_trans (EReal.coe_le_coe_iff.2 (by norm_num)) h1, h2⟩

private theorem bokP {α β : Type} (a : α) (f : α → Res β) : ((pure a : Res α) >>= f) = f a := rfl

private theorem tanX_eq : tanI piD2 dblStd.pp tanX =
    mk2 (dblStd.B.fnDown .tan (dq 1 (-4))) (dblStd.B.fnUp .tan (dq 1609 (-11))) := by
  have e1 : fmodAux true dblStd.pp tanX (piI piD2) = .ok ⟨dq 1 (-4), dq 1609 (-11)⟩ := by decide +kernel
  have e2 : Num.le piD2.piHalfLower (dq 1 (-4)) = false := by decide +kernel
  have e3 : (negM piD2.piHalfLower : Res _) = .ok (Fl.neg piD2.piHalfLower) := rfl
  have e4 : (Num.le (dq 1 (-4)) (Fl.neg piD2.piHalfLower) || Num.le piD2.piHalfLower (dq 1609 (-11))) = false := by decide +kernel
  unfold tanI
  rw [pure_chk, res_if_false (tanX_has.test dblStd.chk), pure_scope, pure_rnd, pure_unprot, e1, bok, e2, ift, bokP, e3, bok, e4, ift]

private theorem tanX'_eq : tanI piD2 dblStd.pp tanX' =
    mk2 (dblStd.B.fnDown .tan (dq (-141816938900761) (-51))) (dblStd.B.fnUp .tan (dq 221004344818269 (-48))) := by
  have e1 : fmodAux true dblStd.pp tanX' (piI piD2) = .ok ⟨dq 6305 (-11), dq 4021 (-10)⟩ := by decide +kernel
  have e2 : Num.le piD2.piHalfLower (dq 6305 (-11)) = true := by decide +kernel
  have e2' : subII dblStd.pp ⟨dq 6305 (-11), dq 4021 (-10)⟩ (piI piD2) =
      .ok ⟨dq (-141816938900761) (-51), dq 221004344818269 (-48)⟩ := by decide +kernel
  have e3 : (negM piD2.piHalfLower : Res _) = .ok (Fl.neg piD2.piHalfLower) := rfl
  have e4 : (Num.le (dq (-141816938900761) (-51)) (Fl.neg piD2.piHalfLower) ||
      Num.le piD2.piHalfLower (dq 221004344818269 (-48))) = false := by decide +kernel
  unfold tanI
  rw [pure_chk, res_if_false (tanX'_has.test dblStd.chk), pure_scope, pure_rnd, pure_unprot, e1, bok, e2, itt, e2', bok, e3, bok, e4,
    ift]

private theorem tan_dom {r : ℝ} (h1 : -(Real.pi / 2) < r) (h2 : r < Real.pi / 2) : r ∈ Fn.tan.dom :=
  (Real.cos_pos_of_mem_Ioo ⟨h1, h2⟩).ne'

/-- `tan` is not isotone either. -/
theorem C13_tan_not_isotone : γ tanX ⊆ γ tanX' ∧ (γ tanX).Nonempty ∧
    dblStd.Returns (tanI piD2 dblStd.P tanX) fun z => dblStd.Returns (tanI piD2 dblStd.P tanX') fun z' => ¬ γ z ⊆ γ z' := by
  have hV := dblStd_tight
  refine ⟨tanX_sub, tanX_has.nonempty, ?_⟩
  have v1 : val (dq 1 (-4)) = some ((1 / 16 : ℝ) : EReal) := by rw [dq_val (ok53 (by decide +kernel))]; norm_num
  have v2 : val (dq 1609 (-11)) = some ((1609 / 2048 : ℝ) : EReal) := by rw [dq_val (ok53 (by decide +kernel))]; norm_num
  have v3 : val (dq (-141816938900761) (-51)) = some ((-141816938900761 / 2 ^ 51 : ℝ) : EReal) := by
    rw [dq_val (ok53 (by decide +kernel))]; norm_num
  have v4 : val (dq 221004344818269 (-48)) = some ((221004344818269 / 2 ^ 48 : ℝ) : EReal) := by
    rw [dq_val (ok53 (by decide +kernel))]; norm_num
  have hpi := Real.pi_gt_d4
  have hpi' := Real.pi_lt_d4
  have c1 : 1 < Real.tan (1609 / 2048) := by
    rw [← Real.tan_pi_div_four]
    exact Real.tan_lt_tan_of_lt_of_lt_pi_div_two (by linarith) (by linarith) (by linarith)
  have c2 : Real.tan (1 / 16) ≤ Real.tan (1609 / 2048) :=
    (Real.tan_lt_tan_of_lt_of_lt_pi_div_two (by linarith) (by linarith) (by norm_num)).le
  have c3 : Real.tan (221004344818269 / 2 ^ 48) ≤ 1 := by
    rw [← Real.tan_pi_div_four]
    exact (Real.tan_lt_tan_of_lt_of_lt_pi_div_two (by linarith) (by linarith) (by linarith)).le
  refine dblStd.run hV (fun _ h => tanI_sim h piD2 tanX) ?_
  rw [tanX_eq]
  refine (Post.pair ((dblStd_fn .tan).down du_tight v1 (.inl ⟨_, tan_dom (by linarith) (by linarith), rfl, rfl⟩))
    ((dblStd_fn .tan).up du_tight v2 (.inl ⟨_, tan_dom (by linarith) (by linarith), rfl, rfl⟩))).bind fun p hp => ?_
  obtain ⟨⟨l, hl, hl'⟩, u, hu, hu'⟩ := hp
  refine dblStd.run hV (fun _ h => tanI_sim h piD2 tanX') ?_
  rw [tanX'_eq]
  refine (Post.pair ((dblStd_fn .tan).down du_tight v3 (.inl ⟨_, tan_dom (by linarith) (by linarith), rfl, rfl⟩))
    ((dblStd_fn .tan).up du_tight v4 (.inl ⟨_, tan_dom (by linarith) (by linarith), rfl, rfl⟩))).bind fun p' hp' => ?_
  obtain ⟨-, u', hu2, hu2'⟩ := hp'
  have hm : Real.tan (1609 / 2048) ∈ γ (⟨p.1, p.2⟩ : Itv (Fl .double)) :=
    ⟨l, u, hl, hu, hl'.2.1.trans (EReal.coe_le_coe_iff.2 c2), hu'.2.1⟩
  have hul : u' ≤ ((1 : ℝ) : EReal) := hu2'.2.2 _ ⟨_, val_one⟩ (EReal.coe_le_coe_iff.2 c3)
  intro hsub
  obtain ⟨_, w, _, hw, _, hw'⟩ := hsub hm
  cases hu2.symm.trans hw
  exact absurd (EReal.coe_le_coe_iff.1 (hw'.trans hul)) (not_le.2 c1)

end BI
