import Verif.Proofs.Trig
import Verif.Props.Elem
import Verif.Proofs.InstArith2
/-! # C20: cos, sin, tan -/

namespace BI
open Set

section
variable {T : Type} [Num T] [Val T] [NumLaws T] (V : Env T) {K : PiConst T} {x : Itv T}

/-- `cos` terminates: for some result `z` and some depth `N`, calls with the nesting limited to `N` or more return `z`, from
every state. `z` contains the cosine of each point of `x`. -/
theorem C20_cos (hV : V.Tight) (hi : V.IntOk) (hI : IeeeBase T) (hf : V.FnOk LeB GeB .cos) (hK : Brackets K) (hK' : PiPos K)
    (hx : (γ x).Nonempty) :
    ∃ z N, (∀ r ∈ γ x, Real.cos r ∈ γ z) ∧ ∀ fuel ≥ N, V.Returns (cosI K fuel V.P x) (· = z) := by
  obtain ⟨a, b, ix⟩ := has_of_nonempty hx
  obtain ⟨N, hN⟩ := cos_post hV hi hI du_weak hf hK.ok hK' ix
  obtain ⟨z, hz, hz'⟩ := (hN N le_rfl false).total
  exact ⟨z, N, hz'.1, fun fuel hfuel => V.run hV (fun _ h => cosI_sim K fuel x h) (Post.of_eq (cos_fuel_le hz hfuel) rfl)⟩

theorem unitOk_tight : UnitOk (IsRoundDown T) (IsRoundUp T) := fun z r =>
  ⟨fun h hr => h.2.2 (-1) ⟨_, val_negOne⟩ (m1_le.2 hr), fun h hr => h.2.2 1 ⟨_, val_one⟩ (by exact_mod_cast hr)⟩

/-- With a correctly rounded cosine the result stays in `[-1, 1]`. -/
theorem C20_cos_range (hV : V.Tight) (hi : V.IntOk) (hI : IeeeBase T) (hf : V.FnOk (IsRoundDown T) (IsRoundUp T) .cos)
    (hK : Brackets K) (hK' : PiPos K) (hx : (γ x).Nonempty) :
    ∃ z N, (∀ r ∈ γ x, Real.cos r ∈ γ z) ∧ γ z ⊆ Icc (-1) 1 ∧ ∀ fuel ≥ N, V.Returns (cosI K fuel V.P x) (· = z) := by
  obtain ⟨a, b, ix⟩ := has_of_nonempty hx
  obtain ⟨N, hN⟩ := cos_post hV hi hI du_tight hf hK.ok hK' ix
  obtain ⟨z, hz, hz'⟩ := (hN N le_rfl false).total
  exact ⟨z, N, hz'.1, hz'.2 unitOk_tight,
    fun fuel hfuel => V.run hV (fun _ h => cosI_sim K fuel x h) (Post.of_eq (cos_fuel_le hz hfuel) rfl)⟩

/-- `sin` (which calls the cosine of the library). -/
theorem C20_sin (hV : V.Tight) (hi : V.IntOk) (hI : IeeeBase T) (hf : V.FnOk LeB GeB .cos) (hK : Brackets K) (hK' : PiPos K)
    (hx : (γ x).Nonempty) :
    ∃ z N, (∀ r ∈ γ x, Real.sin r ∈ γ z) ∧ ∀ fuel ≥ N, V.Returns (sinI K fuel V.P x) (· = z) := by
  obtain ⟨a, b, ix⟩ := has_of_nonempty hx
  obtain ⟨z, N, h1, h2⟩ := sin_post hV hi hI du_weak hf hK.ok hK' ix
  exact ⟨z, N, h1.1, fun fuel hfuel => V.run hV (fun _ h => sinI_sim h K fuel x) (Post.of_eq (h2 fuel hfuel) rfl)⟩

theorem C20_sin_range (hV : V.Tight) (hi : V.IntOk) (hI : IeeeBase T) (hf : V.FnOk (IsRoundDown T) (IsRoundUp T) .cos)
    (hK : Brackets K) (hK' : PiPos K) (hx : (γ x).Nonempty) :
    ∃ z N, (∀ r ∈ γ x, Real.sin r ∈ γ z) ∧ γ z ⊆ Icc (-1) 1 ∧ ∀ fuel ≥ N, V.Returns (sinI K fuel V.P x) (· = z) := by
  obtain ⟨a, b, ix⟩ := has_of_nonempty hx
  obtain ⟨z, N, h1, h2⟩ := sin_post hV hi hI du_tight hf hK.ok hK' ix
  exact ⟨z, N, h1.1, h1.2 unitOk_tight,
    fun fuel hfuel => V.run hV (fun _ h => sinI_sim h K fuel x) (Post.of_eq (h2 fuel hfuel) rfl)⟩

/-- `tan`: the result contains the tangent of each point of `x` where it is defined, and is the whole line if `x` contains a
pole. -/
theorem C20_tan_partial (hV : V.Tight) (hi : V.IntOk) (hI : IeeeBase T) (hL : InfBase T) (hf : V.FnOk LeB GeB .tan) (hK : Brackets K)
    (hK' : PiPos K) (hx : (γ x).Nonempty) :
    V.Returns (tanI K V.P x) fun z => (∀ r ∈ γ x, Real.cos r ≠ 0 → Real.tan r ∈ γ z) ∧
      ((∃ r ∈ γ x, Real.cos r = 0) → γ z = univ) := by
  obtain ⟨a, b, ix⟩ := has_of_nonempty hx
  exact V.run hV (fun _ h => tanI_sim h K x) (tan_post hV hi hI du_weak hf hK.ok hK' (V.infLaws hL) ix)
end

/-! ## Instances -/

theorem fl_ieee {f : Fmt} : IeeeBase (Fl f) where
  rintDown a h := by
    cases a with
    | inf s => exact ⟨_, rfl, h⟩
    | nan => cases h
    | zero s => exact absurd (Option.some.inj h) EReal.zero_ne_bot
    | nz q hq => exact absurd (Option.some.inj h) (EReal.coe_ne_bot _)
  rintUp a h := by
    cases a with
    | inf s => exact ⟨_, rfl, h⟩
    | nan => cases h
    | zero s => exact absurd (Option.some.inj h) EReal.zero_ne_top
    | nz q hq => exact absurd (Option.some.inj h) (EReal.coe_ne_top _)
  floor a h := by
    cases a with
    | inf s => exact ⟨_, rfl, h⟩
    | nan => cases h
    | zero s => exact absurd (Option.some.inj h) EReal.zero_ne_bot
    | nz q hq => exact absurd (Option.some.inj h) (EReal.coe_ne_bot _)
  sub r a b h := by
    refine ⟨a.sub r b, rfl, ?_⟩
    rcases h with ⟨h1, h2⟩ | h | h
    · cases a with
      | inf s =>
        cases b with
        | inf t =>
          cases s <;> cases t
          · cases h1
          · cases h1
          · cases h2
          · rfl
        | nan => cases h2
        | zero s => exact absurd (Option.some.inj h2) EReal.zero_ne_bot
        | nz q hq => exact absurd (Option.some.inj h2) (EReal.coe_ne_bot _)
      | nan => cases h1
      | zero s => exact absurd (Option.some.inj h1) EReal.zero_ne_bot
      | nz q hq => exact absurd (Option.some.inj h1) (EReal.coe_ne_bot _)
    · cases a with
      | nan => rfl
      | inf s => cases s <;> cases h
      | zero s => cases h
      | nz q hq => cases h
    · cases b with
      | nan => cases a <;> rfl
      | inf s => cases s <;> cases h
      | zero s => cases h
      | nz q hq => cases h

theorem rat_ieee : IeeeBase ℚ where
  rintDown a h := absurd (Option.some.inj h) (EReal.coe_ne_bot _)
  rintUp a h := absurd (Option.some.inj h) (EReal.coe_ne_top _)
  floor a h := absurd (Option.some.inj h) (EReal.coe_ne_bot _)
  sub r a b h := by
    rcases h with ⟨h, -⟩ | h | h
    · exact absurd (Option.some.inj h) (EReal.coe_ne_bot _)
    · cases h
    · cases h

/-- The best constants are not too small. -/
theorem Neighbours.pos {T : Type} [Num T] [Val T] [NumLaws T] {K : PiConst T} (h : Neighbours K) : PiPos K where
  piLower z hz := by
    obtain ⟨w, h1, h2⟩ := h.ok.piLower
    rw [hz] at h1; cases h1
    refine h2.2.2 1 ⟨_, val_one⟩ ?_
    exact_mod_cast (by linarith [Real.pi_gt_three] : (1 : ℝ) ≤ Real.pi)
  piTwiceLower z hz := by
    obtain ⟨w, h1, h2⟩ := h.ok.piTwiceLower
    rw [hz] at h1; cases h1
    refine h2.2.2 1 ⟨_, val_one⟩ ?_
    exact_mod_cast (by linarith [Real.pi_gt_three] : (1 : ℝ) ≤ 2 * Real.pi)

/-- Neither are the generic ones. -/
theorem piGeneric_pos {T : Type} [Num T] [Val T] [NumLaws T] : PiPos (piGeneric : PiConst T) where
  piLower z hz := by
    have := NumLaws.lit (T := T) 3 (by decide)
    cases this.symm.trans hz
    exact_mod_cast (by norm_num : (1 : ℝ) ≤ ((3 : ℤ) : ℝ))
  piTwiceLower z hz := by
    have := NumLaws.lit (T := T) 6 (by decide)
    cases this.symm.trans hz
    exact_mod_cast (by norm_num : (1 : ℝ) ≤ ((6 : ℤ) : ℝ))

theorem dblStd_int : dblStd.IntOk := dblStd.fl_intOk (by simp [dblStd])
theorem dblOpp_int : dblOpp.IntOk := dblOpp.fl_intOk (by simp [dblOpp, dbl])

example {x : Itv (Fl Fmt.double)} (hx : (γ x).Nonempty) := C20_cos dblStd dblStd_tight dblStd_int fl_ieee (dblStd_fn .cos).directed
  (C21_double .near).brackets (C21_double .near).pos hx
/-- An interval without lower bound, generic constants. -/
example := C20_cos_range (K := piGeneric) (x := ⟨.inf true, Num.lit 3⟩) dblStd dblStd_tight dblStd_int fl_ieee (dblStd_fn .cos)
  C21_generic piGeneric_pos ⟨0, _, _, rfl, NumLaws.lit 3 (by decide), bot_le, EReal.coe_le_coe_iff.2 (by norm_num)⟩
/-- `rounded_transc_opp` is right for the cosine, hence for the sine. -/
example := C20_sin_range (x := litI 5 7) dblOpp dblOpp_tight dblOpp_int fl_ieee (dblOpp.ideal_ok .cos rfl (.inr ⟨rfl, rfl⟩))
  (C21_double .near).brackets (C21_double .near).pos ne_lit
example := C20_sin (x := litI 5 7) dblOpp dblOpp_tight dblOpp_int fl_ieee (dblOpp.ideal_ok .cos rfl (.inr ⟨rfl, rfl⟩)).directed
  (C21_double .near).brackets (C21_double .near).pos ne_lit
example := C20_tan_partial (x := litI 1 2) dblStd dblStd_tight dblStd_int fl_ieee fl_inf (dblStd_fn .tan).directed
  (C21_double .near).brackets (C21_double .near).pos ne_lit

/-! ## `rounded_transc_opp` -/

/-- The smallest positive number. -/
def dmin : Fl Fmt.double := rnd Fmt.double .near false (2 ^ (-1074 : ℤ) : ℚ)

theorem dmin_val : val dmin = some (((2 : ℝ) ^ (-1074 : ℤ) : ℝ) : EReal) := by
  have : Rep Fmt.double (2 ^ (-1074 : ℤ) : ℚ) := ⟨1, -1074, by decide, by decide, by decide, by norm_num⟩
  have h := rnd_exact .near false this
  unfold dmin
  rw [h]; push_cast; rfl

/-- Its tangent lies between it and the next number. -/
theorem tan_dmin : ¬ Representable (Fl Fmt.double) (Real.tan ((2 : ℝ) ^ (-1074 : ℤ)) : EReal) := by
  rw [representable_iff]
  set d : ℝ := (2 : ℝ) ^ (-1074 : ℤ) with hd
  have d0 : 0 < d := by positivity
  have d1 : d < 1 := by
    rw [hd]; exact zpow_lt_one_of_neg₀ (by norm_num) (by norm_num)
  have h1 : d < Real.tan d := Real.lt_tan d0 (by linarith [Real.pi_gt_three])
  have h2 : Real.tan d < 2 * d := by
    have c1 : 1 / 2 < Real.cos d := by
      have := Real.one_sub_sq_div_two_le_cos (x := d)
      nlinarith
    rw [Real.tan_eq_sin_div_cos, div_lt_iff₀ (by linarith)]
    have := Real.sin_lt d0
    nlinarith
  rintro (h' | h' | ⟨q, ⟨m, e, h3, h4, h5, rfl⟩, h'⟩)
  · exact absurd h' (EReal.coe_ne_bot _)
  · exact absurd h' (EReal.coe_ne_top _)
  · have h6 : Real.tan d = ((m * 2 ^ e : ℚ) : ℝ) := EReal.coe_eq_coe_iff.1 h'
    rw [h6] at h1 h2
    push_cast at h1 h2
    have h7 : ((2 : ℝ) ^ e) = 2 ^ (e + 1074) * d := by
      rw [hd, ← zpow_add₀ (by norm_num)]; congr 1; ring
    have h8 : (0 : ℤ) ≤ e + 1074 := by
      change (-1074 : ℤ) ≤ e at h4; omega
    obtain ⟨k, hk⟩ := Int.eq_ofNat_of_zero_le h8
    rw [hk, zpow_natCast] at h7
    rw [h7] at h1 h2
    have h9 : (1 : ℝ) < m * 2 ^ k := by
      by_contra hc
      nlinarith
    have h10 : (m * 2 ^ k : ℝ) < 2 := by
      by_contra hc
      nlinarith
    have h11 : (1 : ℤ) < m * 2 ^ k := by exact_mod_cast h9
    have h12 : (m * 2 ^ k : ℤ) < 2 := by exact_mod_cast h10
    omega

/-- `tan([d, d])` for the smallest positive `double` `d`, with `rounded_transc_opp` over a correctly rounded library, does not
contain the tangent of `d`. -/
theorem C20_tan_opp : dblOpp.Returns (tanI (piDouble .near) dblOpp.P ⟨dmin, dmin⟩) fun z =>
    (2 : ℝ) ^ (-1074 : ℤ) ∈ γ (⟨dmin, dmin⟩ : Itv (Fl Fmt.double)) ∧ Real.tan ((2 : ℝ) ^ (-1074 : ℤ)) ∉ γ z := by
  have ix := has_single dmin_val
  have hV := dblOpp_tight.directed
  have hl : ∀ (a : Fl Fmt.double) x e, val a = some x → Fn.tan.Ext x e → Approx (Fl Fmt.double) LeB GeB (fun r => dblOpp.lib .tan r a) e := by
    intro a x e ha he r
    obtain ⟨c, z, h1, h2, h3, h4⟩ := Rounds.approx (op := fun r => idealLib _ Fn.tan r a) (fun r => idealLib_eq ha he r) (fun r => roundE_rounds r e) r
    exact ⟨c, z, h1, h2, fun h => (h3 h).2.1, fun h => (h4 h).2.1⟩
  have hdom : (2 : ℝ) ^ (-1074 : ℤ) ∈ Fn.tan.dom := by
    have d0 : (0 : ℝ) < (2 : ℝ) ^ (-1074 : ℤ) := by positivity
    have d1 : (2 : ℝ) ^ (-1074 : ℤ) < 1 := zpow_lt_one_of_neg₀ (by norm_num) (by norm_num)
    exact (Real.cos_pos_of_mem_Ioo ⟨by linarith [Real.pi_gt_three], by linarith [Real.pi_gt_three]⟩).ne'
  refine dblOpp.run hV (fun _ h => tanI_sim h _ _) ?_
  have e1 : fmodAux true dblOpp.pp ⟨dmin, dmin⟩ (piI (piDouble .near)) = .ok ⟨dmin, dmin⟩ := by decide +kernel
  have e2 : Num.le (piDouble .near : PiConst (Fl Fmt.double)).piHalfLower dmin = false := by decide +kernel
  have e3 : Num.le dmin (Fl.neg (piDouble .near : PiConst (Fl Fmt.double)).piHalfLower) = false := by decide +kernel
  have : tanI (piDouble .near) dblOpp.pp ⟨dmin, dmin⟩ = mk2 (dblOpp.B.fnDown .tan dmin) (dblOpp.B.fnUp .tan dmin) := by
    unfold tanI
    rw [pure_chk, res_if_false (ix.test dblOpp.chk), pure_scope, pure_rnd, pure_unprot, e1]
    change ((if Num.le (piDouble .near : PiConst (Fl Fmt.double)).piHalfLower dmin = true then _ else (pure _ : Res _)) >>= _) = _
    rw [e2]
    change (if (Num.le dmin (Fl.neg (piDouble .near : PiConst (Fl Fmt.double)).piHalfLower) ||
      Num.le (piDouble .near : PiConst (Fl Fmt.double)).piHalfLower dmin) = true then _ else _) = _
    rw [e2, e3]
    rfl
  rw [this]
  obtain ⟨c, z, k1, -⟩ := hl dmin _ _ dmin_val (.inl ⟨_, hdom, rfl, rfl⟩) .up
  have k2 : Post True (dblOpp.B.fnUp .tan dmin) fun _ => True :=
    Post.of_eq (a := c) (by change ofOpt _ = _; rw [show dblOpp.lib .tan .up dmin = some c from k1]; rfl) trivial
  refine (Post.pair (opp_down dblOpp hV rfl rfl dmin_val hl hdom tan_dmin) k2).bind fun p hp =>
    ⟨⟨_, _, dmin_val, dmin_val, le_rfl, le_rfl⟩, ?_⟩
  obtain ⟨z, hz, hlt⟩ := hp.1
  rintro ⟨l, u, k1, k2, k3, k4⟩
  cases hz.symm.trans k1
  exact absurd k3 (not_le.2 hlt)

end BI
