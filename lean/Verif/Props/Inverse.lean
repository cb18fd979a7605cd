import Verif.Props.Arith2
import Verif.Props.Arith
import Verif.Props.Trig
/-!
# C66: inverse operations recover the operand

`(x + y) - y` and the like: the result of an operation followed by the inverse one contains the operand, and
`x - x` and `x / x` contain 0 and 1. The intermediate result is the one the first call returned.
-/

set_option linter.unusedSectionVars false

namespace BI
open Set

variable {T : Type} [Num T] [Val T] [NumLaws T] (V : Env T) {x y : Itv T}

theorem C66_add_sub (hV : V.Directed) (hx : (γ x).Nonempty) (hy : (γ y).Nonempty) :
    V.Returns (do let z ← addII V.P x y; subII V.P z y) fun w => γ x ⊆ γ w := by
  obtain ⟨b, hb⟩ := id hy
  refine (C01_add V hV hx hy).bind fun z hz => ?_
  have hne : (γ z).Nonempty := let ⟨a, ha⟩ := hx; ⟨_, hz a ha b hb⟩
  exact (C02_sub V hV hne hy).mono fun w hw a ha => by simpa using hw _ (hz a ha b hb) b hb

theorem C66_sub_add (hV : V.Directed) (hx : (γ x).Nonempty) (hy : (γ y).Nonempty) :
    V.Returns (do let z ← subII V.P x y; addII V.P z y) fun w => γ x ⊆ γ w := by
  obtain ⟨b, hb⟩ := id hy
  refine (C02_sub V hV hx hy).bind fun z hz => ?_
  have hne : (γ z).Nonempty := let ⟨a, ha⟩ := hx; ⟨_, hz a ha b hb⟩
  exact (C01_add V hV hne hy).mono fun w hw a ha => by simpa using hw _ (hz a ha b hb) b hb

/-- The second operand may contain zero if the base type has infinities. -/
theorem C66_mul_div (hV : V.Directed) (hx : (γ x).Nonempty) (hy : ∃ b ∈ γ y, b ≠ 0) (hi : InfBase T ∨ 0 ∉ γ y) :
    V.Returns (do let z ← mulII V.P x y; divII V.P z y) fun w => γ x ⊆ γ w := by
  obtain ⟨b, hb, h0⟩ := id hy
  refine (C03_mul V hV hx ⟨b, hb⟩).bind fun z hz => ?_
  have hne : (γ z).Nonempty := let ⟨a, ha⟩ := hx; ⟨_, hz a ha b hb⟩
  exact (C04_div_partial V hV hne hy hi).mono fun w hw a ha => by
    have := hw _ (hz a ha b hb) b hb h0
    rwa [mul_div_cancel_right₀ a h0] at this

theorem C66_div_mul (hV : V.Directed) (hx : (γ x).Nonempty) (hy : ∃ b ∈ γ y, b ≠ 0) (hi : InfBase T ∨ 0 ∉ γ y) :
    V.Returns (do let z ← divII V.P x y; mulII V.P z y) fun w => γ x ⊆ γ w := by
  obtain ⟨b, hb, h0⟩ := id hy
  refine (C04_div_partial V hV hx hy hi).bind fun z hz => ?_
  have hne : (γ z).Nonempty := let ⟨a, ha⟩ := hx; ⟨_, hz a ha b hb h0⟩
  exact (C03_mul V hV hne ⟨b, hb⟩).mono fun w hw a ha => by
    have := hw _ (hz a ha b hb h0) b hb
    rwa [div_mul_cancel₀ a h0] at this

theorem C66_sub_self (hV : V.Directed) (hx : (γ x).Nonempty) : V.Returns (subII V.P x x) fun z => (0 : ℝ) ∈ γ z := by
  obtain ⟨a, ha⟩ := id hx
  exact (C02_sub V hV hx hx).mono fun z hz => by simpa using hz a ha a ha

theorem C66_div_self (hV : V.Directed) (hx : ∃ a ∈ γ x, a ≠ 0) (hi : InfBase T ∨ 0 ∉ γ x) :
    V.Returns (divII V.P x x) fun z => (1 : ℝ) ∈ γ z := by
  obtain ⟨a, ha, h0⟩ := id hx
  exact (C04_div_partial V hV ⟨a, ha⟩ hx hi).mono fun z hz => by
    have := hz a ha a ha h0
    rwa [div_self h0] at this

theorem C66_inverse (hV : V.Directed) (hx : ∃ a ∈ γ x, a ≠ 0) (hi : InfBase T) :
    V.Returns (do let z ← multInv V.P x; multInv V.P z) fun w => γ x \ {0} ⊆ γ w := by
  obtain ⟨a, ha, h0⟩ := id hx
  refine (C15_inverse_partial V hV hx (.inl hi)).bind fun z hz => ?_
  exact (C15_inverse_partial V hV ⟨_, hz a ha h0, inv_ne_zero h0⟩ (.inl hi)).mono fun w hw b hb => by
    have := hw _ (hz b hb.1 hb.2) (inv_ne_zero hb.2)
    rwa [inv_inv] at this

theorem C66_square_sqrt (hV : V.Directed) (hS : V.SqrtOk LeB GeB) (hx : (γ x).Nonempty) :
    V.Returns (do let z ← squareI V.P x; sqrtI V.P z) fun w => ∀ a ∈ γ x, |a| ∈ γ w := by
  obtain ⟨a, ha⟩ := id hx
  refine (C15_square V hV hx).bind fun z hz => ?_
  exact (C15_sqrt V hV hS ⟨_, hz a ha, sq_nonneg a⟩).mono fun w hw b hb => by
    have := hw _ (hz b hb) (sq_nonneg b)
    rwa [Real.sqrt_sq_eq_abs] at this

theorem C66_sqrt_square (hV : V.Directed) (hS : V.SqrtOk LeB GeB) (hx : ∃ a ∈ γ x, 0 ≤ a) :
    V.Returns (do let z ← sqrtI V.P x; squareI V.P z) fun w => ∀ a ∈ γ x, 0 ≤ a → a ∈ γ w := by
  obtain ⟨a, ha, h0⟩ := id hx
  refine (C15_sqrt V hV hS hx).bind fun z hz => ?_
  exact (C15_square V hV ⟨_, hz a ha h0⟩).mono fun w hw b hb hb0 => by
    have := hw _ (hz b hb hb0)
    rwa [Real.sq_sqrt hb0] at this

/-! ## Elementary functions -/

/-- `g` undoes `f` on the domain of `f`. -/
def Undoes (g f : Fn) : Prop := ∀ r ∈ f.dom, f.real r ∈ g.dom ∧ g.real (f.real r) = r

theorem C66_elementary {f g : Fn} {K : PiConst T} {fuel : Nat} (h : Undoes g f) (hV : V.Directed)
    (hf : f.simple = true) (hg : g.simple = true) (of : V.FnOk LeB GeB f) (og : V.FnOk LeB GeB g) (hK : Brackets K)
    (hi : f.unbounded = true ∨ g.unbounded = true → InfBase T) (hx : (γ x ∩ f.dom).Nonempty) :
    V.Returns (do let z ← f.I K fuel V.P x; g.I K fuel V.P z) fun w => γ x ∩ f.dom ⊆ γ w := by
  obtain ⟨a, ha, hd⟩ := id hx
  refine (C19_enclose_partial V hV hf of hK (fun h => hi (.inl h)) hx).bind fun z hz => ?_
  refine (C19_enclose_partial V hV hg og hK (fun h => hi (.inr h)) ⟨_, hz a ha hd, (h a hd).1⟩).mono
    fun w hw b hb => ?_
  have := hw _ (hz b hb.1 hb.2) (h b hb.2).1
  rwa [(h b hb.2).2] at this

theorem C66_pairs : Undoes .log .exp ∧ Undoes .exp .log ∧ Undoes .asinh .sinh ∧ Undoes .sinh .asinh ∧
    Undoes .atanh .tanh ∧ Undoes .tanh .atanh ∧ Undoes .cosh .acosh ∧ Undoes .sin .asin ∧ Undoes .cos .acos ∧
    Undoes .tan .atan :=
  ⟨fun r _ => ⟨Real.exp_pos r, Real.log_exp r⟩, fun r h => ⟨trivial, Real.exp_log h⟩,
    fun r _ => ⟨trivial, Real.arsinh_sinh r⟩, fun r _ => ⟨trivial, Real.sinh_arsinh r⟩,
    fun r _ => ⟨tanh_mem r, Real.artanh_tanh r⟩, fun r h => ⟨trivial, Real.tanh_artanh h⟩,
    fun r h => ⟨trivial, Real.cosh_arcosh h⟩, fun r h => ⟨trivial, Real.sin_arcsin h.1 h.2⟩,
    fun r h => ⟨trivial, Real.cos_arccos h.1 h.2⟩,
    fun r _ => ⟨(Real.cos_arctan_pos r).ne', Real.tan_arctan r⟩⟩

/-- The periodic functions after their inverses; `sin` and `cos` need enough iterations for the reduction. -/
theorem C66_cos_acos {K : PiConst T} (hV : V.Tight) (hi : V.IntOk) (hI : IeeeBase T) (of : V.FnOk LeB GeB .acos)
    (og : V.FnOk LeB GeB .cos) (hK : Brackets K) (hK' : PiPos K) (hx : (γ x ∩ Icc (-1) 1).Nonempty) :
    V.Returns (acosI K V.P x) fun z => ∃ w N, γ x ∩ Icc (-1) 1 ⊆ γ w ∧ ∀ fuel ≥ N, V.Returns (cosI K fuel V.P z) (· = w) := by
  obtain ⟨a, ha, hd⟩ := id hx
  refine (C19_enclose_partial (f := .acos) (fuel := 0) V hV.directed rfl of hK (fun h => by cases h) hx).mono fun z hz => ?_
  obtain ⟨w, N, h1, h2⟩ := C20_cos V hV hi hI og hK hK' ⟨_, hz a ha hd⟩
  refine ⟨w, N, fun b hb => ?_, h2⟩
  have : Real.cos (Real.arccos b) ∈ γ w := h1 _ (hz b hb.1 hb.2)
  rwa [Real.cos_arccos hb.2.1 hb.2.2] at this

theorem C66_sin_asin {K : PiConst T} (hV : V.Tight) (hi : V.IntOk) (hI : IeeeBase T) (of : V.FnOk LeB GeB .asin)
    (og : V.FnOk LeB GeB .cos) (hK : Brackets K) (hK' : PiPos K) (hx : (γ x ∩ Icc (-1) 1).Nonempty) :
    V.Returns (asinI K V.P x) fun z => ∃ w N, γ x ∩ Icc (-1) 1 ⊆ γ w ∧ ∀ fuel ≥ N, V.Returns (sinI K fuel V.P z) (· = w) := by
  obtain ⟨a, ha, hd⟩ := id hx
  refine (C19_enclose_partial (f := .asin) (fuel := 0) V hV.directed rfl of hK (fun h => by cases h) hx).mono fun z hz => ?_
  obtain ⟨w, N, h1, h2⟩ := C20_sin V hV hi hI og hK hK' ⟨_, hz a ha hd⟩
  refine ⟨w, N, fun b hb => ?_, h2⟩
  have : Real.sin (Real.arcsin b) ∈ γ w := h1 _ (hz b hb.1 hb.2)
  rwa [Real.sin_arcsin hb.2.1 hb.2.2] at this

theorem C66_tan_atan {K : PiConst T} (hV : V.Tight) (hi : V.IntOk) (hI : IeeeBase T) (hL : InfBase T)
    (of : V.FnOk LeB GeB .atan) (og : V.FnOk LeB GeB .tan) (hK : Brackets K) (hK' : PiPos K) (hx : (γ x).Nonempty) :
    V.Returns (do let z ← atanI V.P x; tanI K V.P z) fun w => γ x ⊆ γ w := by
  obtain ⟨a, ha⟩ := id hx
  refine (C19_enclose_partial (f := .atan) (K := K) (fuel := 0) V hV.directed rfl of hK (fun h => by cases h)
    ⟨a, ha, trivial⟩).bind fun z hz => ?_
  refine (C20_tan_partial V hV hi hI hL og hK hK' ⟨_, hz a ha trivial⟩).mono fun w hw b hb => ?_
  have : Real.tan (Real.arctan b) ∈ γ w := hw.1 _ (hz b hb trivial) (Real.cos_arctan_pos b).ne'
  rwa [Real.tan_arctan] at this

/-! ## The hypotheses can be met -/

example : dbl.Returns (do let z ← divII dbl.P (litI 1 2) (litI 3 7); mulII dbl.P z (litI 3 7)) fun w =>
    γ (litI 1 2 : Itv (Fl .double)) ⊆ γ w :=
  C66_div_mul dbl dbl_directed ne_lit ⟨3, in_lit, by norm_num⟩ (.inl ⟨rfl, rfl⟩)

example : dbl.Returns (do let z ← mulII dbl.P (litI 1 2) (litI (-3) 7); divII dbl.P z (litI (-3) 7)) fun w =>
    γ (litI 1 2 : Itv (Fl .double)) ⊆ γ w :=
  C66_mul_div dbl dbl_directed ne_lit ⟨3, in_lit, by norm_num⟩ (.inl ⟨rfl, rfl⟩)

example (fuel : Nat) : dblStd.Returns (do let z ← expI dblStd.P (litI 1 2); logI dblStd.P z) fun w =>
    γ (litI 1 2 : Itv (Fl .double)) ∩ univ ⊆ γ w :=
  C66_elementary (f := .exp) (g := .log) (K := piDouble .near) (fuel := fuel) dblStd C66_pairs.1 dblStd_tight.directed rfl rfl
    (dblStd_fn .exp).directed (dblStd_fn .log).directed (C21_double .near).brackets (fun _ => fl_inf) ⟨1, in_lit, trivial⟩

end BI
