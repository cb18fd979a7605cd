import Verif.Props.Empty
import Verif.Proofs.FloatLaws
/-!
# C83: detection of invalid numbers

doc/guide.htm says that the default policies define an interval type that "detects invalid numbers". The default checking
policy is `checking_strict`, that is `checking_no_nan` over `checking_no_empty` (checking.hpp 121-124), and
`checking_no_nan` answers that no number is NaN. The theorems classify all policies by what they do with NaN, and show
what the operations return when the policy neither sees nor catches it, which includes the default.
-/

namespace BI

section
variable {T : Type} [Num T] [Val T] [NumLaws T] (V : Env T) {t : T}

/-- What the policy answers for NaN: it throws, says yes, or says no. -/
theorem C83_classify (ht : val t = none) :
    V.C.isNan t = if V.checks.catchesNan then .error .invalidNumber else .ok V.checks.seesNan := by
  have hn : Num.hasNaN T = true := by
    by_contra h
    exact NumLaws.noNan (Bool.eq_false_iff.2 h) t ht
  have he : Num.eq t t = false := by
    rw [Bool.eq_false_iff]
    intro h
    obtain ⟨a, ha, _⟩ := (NumLaws.eq_iff _ _).1 h
    rw [ht] at ha
    cases ha
  unfold Env.C
  induction V.checks with
  | base => simp [ChkSpec.eval, chkBase, ChkSpec.catchesNan, ChkSpec.seesNan, hn, he]
  | noEmpty c ih => exact ih
  | noNan c ih => rfl
  | catchNan c ih =>
    change ((c.eval T V.ndebug).isNan t >>= fun b => _) = _
    rw [ih]
    change _ = if (c.seesNan || c.catchesNan) = true then .error .invalidNumber else (.ok false : Res Bool)
    rcases Bool.eq_false_or_eq_true c.catchesNan with hb | hb <;>
      rcases Bool.eq_false_or_eq_true c.seesNan with hs | hs <;> rw [hb, hs] <;> rfl

/-- The default policy does neither. -/
theorem C83_default : ChkSpec.strict.catchesNan = false ∧ ChkSpec.strict.seesNan = false := ⟨rfl, rfl⟩

/-- What does hold with every policy: two bounds of which one is NaN are rejected, by one of the two exceptions or, where
the policy allows empty intervals, as an empty interval. Missing: all the operations with a number operand, see
`C83_silent`. -/
theorem C83_bounds_partial {l u : T} (h : val l = none ∨ val u = none) :
    ctorTT V.C l u = .error .invalidNumber ∨ ctorTT V.C l u = .error .emptyCreated ∨
    (V.checks.forbidsEmpty = false ∧ ∃ z, ctorTT V.C l u = .ok z ∧ Void z) := by
  have hle : Num.le l u = false := by
    rw [Bool.eq_false_iff]
    intro hc
    obtain ⟨a, b, h1, h2, _⟩ := (NumLaws.le_iff _ _).1 hc
    rcases h with h | h
    · rw [h] at h1; cases h1
    · rw [h] at h2; cases h2
  have key : ctorTT V.C l u = .error .invalidNumber ∨ ctorTT V.C l u = emptyI V.C := by
    have hq : ∀ q : T, V.C.isNan q = .error .invalidNumber ∨ ∃ b, V.C.isNan q = .ok b := by
      intro q
      by_cases hq : val q = none
      · rw [C83_classify V hq]
        cases V.checks.catchesNan
        · exact .inr ⟨_, rfl⟩
        · exact .inl rfl
      · exact .inr ⟨false, C11_not_nan V hq⟩
    unfold ctorTT
    rcases hq l with h1 | ⟨b, h1⟩
    · rw [h1]; exact .inl rfl
    · rw [h1]
      cases b
      · rcases hq u with h2 | ⟨c, h2⟩
        · rw [h2]; exact .inl rfl
        · rw [h2, hle]; cases c <;> exact .inr rfl
      · exact .inr rfl
  rcases key with k | k
  · exact .inl k
  · rw [k]
    rcases emptyI_spec (T := T) V.checks V.ndebug with ⟨h1, h2⟩ | ⟨h1, z, h2, h3⟩
    · exact .inr (.inl h2)
    · exact .inr (.inr ⟨h1, z, h2, h3⟩)
end

section
variable {f : Fmt} (V : Env (Fl f)) {x : Itv (Fl f)}

/-- The policy takes NaN for a number. -/
private theorem isNan_silent (hc : V.checks.catchesNan = false) (hs : V.checks.seesNan = false) :
    V.C.isNan .nan = .ok false := by
  rw [C83_classify V rfl, hc, hs]; rfl

/-- `z` has NaN for both bounds. -/
def Itv.Nan (z : Itv (Fl f)) : Prop := z = ⟨.nan, .nan⟩

private structure NanArith (B : Arith Res (Fl f)) : Prop where
  addDown : ∀ a, B.addDown .nan a = .ok .nan
  addUp : ∀ a, B.addUp .nan a = .ok .nan
  subDownL : ∀ a, B.subDown .nan a = .ok .nan
  subUpL : ∀ a, B.subUp .nan a = .ok .nan
  subDownR : ∀ a, B.subDown a .nan = .ok .nan
  subUpR : ∀ a, B.subUp a .nan = .ok .nan
  mulDown : ∀ a, B.mulDown .nan a = .ok .nan
  mulUp : ∀ a, B.mulUp .nan a = .ok .nan
  divDownL : ∀ a, B.divDown .nan a = .ok .nan
  divUpL : ∀ a, B.divUp .nan a = .ok .nan
  divDownR : ∀ a, B.divDown a .nan = .ok .nan
  divUpR : ∀ a, B.divUp a .nan = .ok .nan

private theorem nanArith : NanArith V.B := by
  unfold Env.B
  cases V.kind <;> constructor <;> intro a <;>
    first
    | rfl
    | (cases a <;> rfl)

/-- With a policy that neither sees nor catches NaN, such as the default, arithmetic on a non-empty interval and NaN
returns, without any exception, an interval whose bounds are NaN. -/
theorem C83_silent (hk : V.kind ≠ .exact) (hc : V.checks.catchesNan = false) (hs : V.checks.seesNan = false)
    (hx : (γ x).Nonempty) :
    V.Returns (addTI V.P .nan x) Itv.Nan ∧ V.Returns (addIT V.P x .nan) Itv.Nan ∧
    V.Returns (subTI V.P .nan x) Itv.Nan ∧ V.Returns (subIT V.P x .nan) Itv.Nan ∧
    V.Returns (mulTI V.P .nan x) Itv.Nan ∧ V.Returns (mulIT V.P x .nan) Itv.Nan ∧
    V.Returns (divIT V.P x .nan) Itv.Nan ∧
    ((0 : ℝ) ∉ γ x → V.Returns (divTI V.P .nan x) Itv.Nan) := by
  obtain ⟨a, b, ix⟩ := has_of_nonempty hx
  have hV := V.fl_tight hk
  have hN := nanArith V
  have hn := isNan_silent V hc hs
  have he : V.C.isEmpty x.lower x.upper = .ok false := ix.test V.chk
  have h1 : testTI V.C .nan x = .ok false := by unfold testTI; rw [hn]; exact he
  have h2 : testIT V.C x .nan = .ok false := by unfold testIT; rw [he]; exact hn
  have iz : isZero (.nan : Fl f) = false := rfl
  have ig : isNeg (.nan : Fl f) = false := rfl
  have hadd : V.Returns (addTI V.P .nan x) Itv.Nan := by
    refine V.run hV (fun _ hp => addTI_sim hp _ _) ?_
    unfold addTI mk2
    rw [pure_chk, res_if_false h1]
    simp only [pure_rnd, pure_scope, hN.addDown, hN.addUp]
    rfl
  have hmul : V.Returns (mulTI V.P .nan x) Itv.Nan := by
    refine V.run hV (fun _ hp => mulTI_sim hp _ _) ?_
    unfold mulTI mk2
    rw [pure_chk, res_if_false h1, ig, iz]
    simp only [pure_rnd, pure_scope, hN.mulDown, hN.mulUp]
    rfl
  refine ⟨hadd, hadd, ?_, ?_, hmul, hmul, ?_, fun h0 => ?_⟩
  · refine V.run hV (fun _ hp => subTI_sim hp _ _) ?_
    unfold subTI mk2
    rw [pure_chk, res_if_false h1]
    simp only [pure_rnd, pure_scope, hN.subDownL, hN.subUpL]
    rfl
  · refine V.run hV (fun _ hp => subIT_sim hp _ _) ?_
    unfold subIT mk2
    rw [pure_chk, res_if_false h2]
    simp only [pure_rnd, pure_scope, hN.subDownR, hN.subUpR]
    rfl
  · refine V.run hV (fun _ hp => divIT_sim hp _ _) ?_
    have e : divIT (purePolicies V.B V.C) x .nan = .ok ⟨.nan, .nan⟩ := by
      unfold divIT mk2
      rw [pure_chk, h2]
      simp only [pure_rnd, pure_scope, ig, iz, hN.divDownR, hN.divUpR]
      rfl
    rw [e]
    rfl
  · refine V.run hV (fun _ hp => divTI_sim hp _ _) ?_
    have h0' : ¬ (a ≤ 0 ∧ 0 ≤ b) := fun h => h0 ((mem_zero_iff ix).2 h)
    unfold divTI
    rw [pure_chk, res_if_false h1, res_if (zeroIn_eq V.chk ix)]
    simp only [h0', decide_false]
    unfold divNonZeroTI mk2
    rw [ig]
    simp only [pure_rnd, pure_scope, hN.divDownL, hN.divUpL]
    rfl

/-- Dividing NaN by an interval with numbers on both sides of zero gives the whole line. -/
theorem C83_div_whole (hk : V.kind ≠ .exact) (hc : V.checks.catchesNan = false) (hs : V.checks.seesNan = false)
    {p q : ℝ} (hp : p ∈ γ x) (hq : q ∈ γ x) (hp0 : p < 0) (hq0 : 0 < q) :
    V.Returns (divTI V.P .nan x) fun z => γ z = Set.univ := by
  obtain ⟨a, b, ix⟩ := has_of_nonempty ⟨p, hp⟩
  have ha : a < 0 := by
    obtain ⟨l, u, h1, h2, h3, h4⟩ := hp
    rw [ix.lo] at h1; cases h1
    exact h3.trans_lt (EReal.coe_lt_coe_iff.2 hp0)
  have hb : 0 < b := by
    obtain ⟨l, u, h1, h2, h3, h4⟩ := hq
    rw [ix.up] at h2; cases h2
    exact (EReal.coe_lt_coe_iff.2 hq0).trans_le h4
  have hn := isNan_silent V hc hs
  have he : V.C.isEmpty x.lower x.upper = .ok false := ix.test V.chk
  have h1 : testTI V.C .nan x = .ok false := by unfold testTI; rw [hn]; exact he
  have iz : isZero (.nan : Fl f) = false := rfl
  obtain ⟨w, hw, hl, hu⟩ := whole_ok (V.infLaws fl_inf)
  have e : divTI (purePolicies V.B V.C) .nan x = .ok w := by
    unfold divTI divZeroT
    rw [pure_chk, res_if_false h1, res_if (zeroIn_eq V.chk ix), isZero_eq ix.lo, isZero_eq ix.up, iz]
    simp only [ha.le, hb.le, ha.ne, hb.ne', and_self, decide_true, decide_false, Bool.not_false, if_true]
    exact hw
  refine V.run (V.fl_tight hk) (fun _ hp => divTI_sim hp _ _) ?_
  rw [e]
  exact Set.eq_univ_of_forall fun r => ⟨⊥, ⊤, hl, hu, bot_le, le_top⟩

/-- The same for the constructor and the functions that select bounds. With NaN as second operand `min`, `max` and `hull`
return the interval as if nothing was wrong; no trace of the invalid number is left. -/
theorem C83_select (hc : V.checks.catchesNan = false) (hs : V.checks.seesNan = false) (hx : (γ x).Nonempty) :
    ctorT V.C .nan = .ok ⟨.nan, .nan⟩ ∧ inI V.C .nan x = .ok false ∧
    minIT V.C x .nan = .ok x ∧ maxIT V.C x .nan = .ok x ∧ hullIT V.C x .nan = .ok x ∧
    minTI V.C .nan x = .ok ⟨.nan, .nan⟩ ∧ maxTI V.C .nan x = .ok ⟨.nan, .nan⟩ ∧
    hullTI V.C .nan x = .ok ⟨.nan, .nan⟩ := by
  obtain ⟨a, b, ix⟩ := has_of_nonempty hx
  have hn := isNan_silent V hc hs
  have he : V.C.isEmpty x.lower x.upper = .ok false := ix.test V.chk
  have h1 : testTI V.C .nan x = .ok false := by unfold testTI; rw [hn]; exact he
  have h2 : testIT V.C x .nan = .ok false := by unfold testIT; rw [he]; exact hn
  have l1 : ∀ q : Fl f, Num.lt q .nan = false := fun q => by
    rw [Bool.eq_false_iff]; intro h
    obtain ⟨_, _, _, h, _⟩ := (NumLaws.lt_iff _ _).1 h
    cases h
  have l2 : ∀ q : Fl f, Num.lt .nan q = false := fun q => by
    rw [Bool.eq_false_iff]; intro h
    obtain ⟨_, _, h, _⟩ := (NumLaws.lt_iff _ _).1 h
    cases h
  have l3 : ∀ q : Fl f, Num.le q .nan = false := fun q => by
    rw [Bool.eq_false_iff]; intro h
    obtain ⟨_, _, _, h, _⟩ := (NumLaws.le_iff _ _).1 h
    cases h
  refine ⟨?_, ?_, ?_, ?_, ?_, ?_, ?_, ?_⟩
  · unfold ctorT; rw [hn]; rfl
  · unfold inI; rw [h1, l3]; rfl
  · unfold minIT stdMin; rw [h2, l2, l2]; rfl
  · unfold maxIT stdMax; rw [h2, l1, l1]; rfl
  · unfold hullIT testI testT stdMin stdMax; rw [he, hn, l1, l2]; rfl
  · unfold minTI stdMin; rw [h1, l1, l1]; rfl
  · unfold maxTI stdMax; rw [h1, l2, l2]; rfl
  · unfold hullTI testI testT stdMin stdMax; rw [he, hn, l1, l2]; rfl
end

/-- The sentence of the guide, for addition, is false for the default interval over double. -/
theorem C83_guide : dbl.checks = .strict ∧
    ¬ ∀ (t : Fl Fmt.double) (x : Itv (Fl Fmt.double)), val t = none → (γ x).Nonempty →
      ∃ e, dbl.Throws (addTI dbl.P t x) e := by
  refine ⟨rfl, fun h => ?_⟩
  obtain ⟨e, he⟩ := h .nan (litI 1 2) rfl ne_lit
  have h1 := (C83_silent dbl (by decide) rfl rfl (x := litI 1 2) ne_lit).1
  obtain ⟨z, hz, _⟩ := h1 (⟨(⟨.near, ()⟩ : FEnv Unit), fun _ => true⟩ : dbl.State) trivial
  have h2 := (he (⟨(⟨.near, ()⟩ : FEnv Unit), fun _ => true⟩ : dbl.State) trivial).1
  rw [hz] at h2
  cases h2

/-! ## Witnesses -/

example : dbl.Returns (mulIT dbl.P (litI 1 2) .nan) Itv.Nan :=
  (C83_silent dbl (by decide) rfl rfl (x := litI 1 2) ne_lit).2.2.2.2.2.1
example : dbl.Returns (divTI dbl.P .nan (litI (-1) 2)) fun z => γ z = Set.univ :=
  C83_div_whole dbl (by decide) rfl rfl (p := -1) (q := 2)
    ((mem_litI (by decide) (by decide)).2 ⟨by norm_num, by norm_num⟩)
    ((mem_litI (by decide) (by decide)).2 ⟨by norm_num, by norm_num⟩) (by norm_num) (by norm_num)
example : maxIT dbl.C (litI 1 2) .nan = .ok (litI 1 2) := (C83_select dbl rfl rfl ne_lit).2.2.2.1
/-- The policy that does what the guide says. -/
example : flt.C.isNan .nan = .error .invalidNumber := C83_classify flt rfl
/-- The order of the classes matters: `checking_no_nan` outside `checking_catch_nan` undoes it. -/
example : (ChkSpec.noNan (.catchNan .base)).catchesNan = false ∧ (ChkSpec.catchNan (.noNan .base)).catchesNan = false ∧
    (ChkSpec.catchNan (.noEmpty .base)).catchesNan = true := ⟨rfl, rfl, rfl⟩
example : ctorTT dbl.C .nan (Num.lit 1) = .error .emptyCreated := by decide +kernel
example := C83_bounds_partial dbl (l := .nan) (u := Num.lit 1) (.inl rfl)

end BI
