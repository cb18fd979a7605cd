import Verif.Spec.Ahyp
import Verif.Props.Elem
import Verif.Props.Store
import Verif.Props.Mpfr
/-!
# C93: the inverse hyperbolic functions computed in another format

`V.lib = viaFormat lib glob`: the interval type is over the format `f`, its inverse hyperbolic functions are those of the
format `g` (`double` for `float` and `long double` with glibc and libstdc++).
-/

namespace BI
open Set

variable {f g : Fmt}

/-- The three functions are increasing. -/
theorem Fn.ExtPole.mono {fn : Fn} (hf : fn.ahyp = true) {x x' e e' : EReal} (h : fn.ExtPole x e) (h' : fn.ExtPole x' e')
    (hx : x ≤ x') : e ≤ e' := by
  rcases h with (⟨r, hr, rfl, rfl⟩ | ⟨rfl, h⟩ | ⟨rfl, h⟩) | ⟨rfl, ⟨rfl, rfl⟩ | ⟨rfl, rfl⟩⟩
  · rcases h' with (⟨s, hs, rfl, rfl⟩ | ⟨rfl, h'⟩ | ⟨rfl, h'⟩) | ⟨rfl, ⟨rfl, rfl⟩ | ⟨rfl, rfl⟩⟩
    · have hrs : r ≤ s := by exact_mod_cast hx
      rw [EReal.coe_le_coe_iff]
      cases fn with
      | asinh => exact Real.arsinh_le_arsinh.2 hrs
      | acosh => exact (Real.arcosh_le_arcosh (lt_of_lt_of_le one_pos hr) (lt_of_lt_of_le one_pos hs)).2 hrs
      | atanh => exact Real.artanh_le_artanh hr.1 hs.2 hrs
      | _ => cases hf
    · exact absurd hx (by simp)
    · cases fn with
      | asinh => cases h'; exact le_top
      | acosh => cases h'; exact le_top
      | atanh => cases h'
      | _ => cases hf
    · have : r ≤ -1 := by exact_mod_cast hx
      exact absurd hr.1 (not_lt.2 this)
    · exact le_top
  · cases fn with
    | asinh => cases h; exact bot_le
    | acosh => cases h
    | atanh => cases h
    | _ => cases hf
  · obtain rfl : x' = ⊤ := top_le_iff.1 hx
    rcases h' with (⟨s, hs, h0, rfl⟩ | ⟨h0, h'⟩ | ⟨_, h'⟩) | ⟨rfl, ⟨h0, rfl⟩ | ⟨h0, rfl⟩⟩
    · exact absurd h0 (EReal.coe_ne_top s).symm
    · exact absurd h0 (by simp)
    · rw [h] at h'; cases h'; exact le_rfl
    · exact absurd h0 (EReal.coe_ne_top _).symm
    · exact absurd h0 (EReal.coe_ne_top _).symm
  · exact bot_le
  · rcases h' with (⟨s, hs, rfl, rfl⟩ | ⟨rfl, h'⟩ | ⟨rfl, h'⟩) | ⟨_, ⟨rfl, rfl⟩ | ⟨rfl, rfl⟩⟩
    · have : (1 : ℝ) ≤ s := by exact_mod_cast hx
      exact absurd hs.2 (not_lt.2 this)
    · cases h'
    · cases h'
    · have : (1 : ℝ) ≤ -1 := by exact_mod_cast hx
      exact absurd this (by norm_num)
    · exact le_rfl

/-- A rounded argument does not leave the closed domain. -/
theorem Fn.Ext.rounded {fn : Fn} (hf : fn.ahyp = true) {r : RMode} {x e z : EReal} (h : fn.Ext x e) (hz : ESpec g r x z) :
    ∃ e', fn.ExtPole z e' := by
  have h1 : Representable (Fl g) ((1 : ℝ) : EReal) := ⟨Num.lit 1, by rw [val_one]; rfl⟩
  have h2 : Representable (Fl g) ((-1 : ℝ) : EReal) := ⟨Num.lit (-1), by rw [val_negOne]; rfl⟩
  cases fn with
  | asinh =>
    induction z with
    | bot => exact ⟨⊥, .inl (.inr (.inl ⟨rfl, rfl⟩))⟩
    | top => exact ⟨⊤, .inl (.inr (.inr ⟨rfl, rfl⟩))⟩
    | coe z => exact ⟨_, .inl (.inl ⟨z, trivial, rfl, rfl⟩)⟩
  | acosh =>
    have h0 : ((1 : ℝ) : EReal) ≤ x := by
      rcases h with ⟨s, hs, rfl, -⟩ | ⟨-, h⟩ | ⟨rfl, -⟩
      · exact_mod_cast hs
      · cases h
      · exact le_top
    have h3 := hz.lo _ h1 h0
    induction z with
    | bot => exact absurd h3 (not_le.2 (EReal.bot_lt_coe _))
    | top => exact ⟨⊤, .inl (.inr (.inr ⟨rfl, rfl⟩))⟩
    | coe z => exact ⟨_, .inl (.inl ⟨z, by exact_mod_cast h3, rfl, rfl⟩)⟩
  | atanh =>
    rcases h with ⟨s, hs, rfl, -⟩ | ⟨-, h⟩ | ⟨-, h⟩
    · have h3 := hz.lo _ h2 (by exact_mod_cast hs.1.le)
      have h4 := hz.up _ h1 (by exact_mod_cast hs.2.le)
      induction z with
      | bot => exact absurd h3 (not_le.2 (EReal.bot_lt_coe _))
      | top => exact absurd h4 (not_le.2 (EReal.coe_lt_top _))
      | coe z =>
        have h3 : -1 ≤ z := by exact_mod_cast h3
        have h4 : z ≤ 1 := by exact_mod_cast h4
        rcases h3.eq_or_lt with rfl | h3
        · exact ⟨_, .inr ⟨rfl, .inl ⟨rfl, rfl⟩⟩⟩
        · rcases h4.eq_or_lt with rfl | h4
          · exact ⟨_, .inr ⟨rfl, .inr ⟨rfl, rfl⟩⟩⟩
          · exact ⟨_, .inl (.inl ⟨z, ⟨h3, h4⟩, rfl, rfl⟩)⟩
    · cases h
    · cases h
  | _ => cases hf

/-- Directed rounding survives the detour through any other format, narrower or wider: the argument is rounded in the same
direction, and the functions are increasing. -/
theorem C93_library {glob : Lib (Fl g)} (lib : Lib (Fl f)) {fn : Fn} (hf : fn.ahyp = true) (hm : PoleOk glob fn) (a : Fl f)
    (x e : EReal) (ha : val a = some x) (he : fn.Ext x e) :
    Approx (Fl f) LeB GeB (fun r => viaFormat lib glob fn r a) e := by
  intro r
  obtain ⟨y, hy, hs⟩ := convert_rounds (g := g) r ha
  obtain ⟨e', he'⟩ := he.rounded hf hs
  obtain ⟨c, z, h1, h2, h3, h4⟩ := hm _ _ _ hy he' r
  obtain ⟨w, hw, ht⟩ := convert_rounds (g := f) r h2
  refine ⟨c.convert f r, w, ?_, hw, fun h => ?_, fun h => ?_⟩
  · change (if fn.ahyp then _ else _) = _
    rw [if_pos hf, show glob fn r (a.convert g r) = some c from h1]; rfl
  · exact (ht.down h).trans ((h3 h).trans (he'.mono hf (.inl he) (hs.down h)))
  · exact ((Fn.ExtPole.mono hf (.inl he) he' (hs.upw h)).trans (h4 h)).trans (ht.upw h)

/-- The other functions are those of the library of the format itself. -/
theorem C93_other (V : Env (Fl f)) (lib : Lib (Fl f)) (glob : Lib (Fl g)) {fn : Fn} (hf : fn.ahyp = false)
    {D U : EReal → EReal → Prop} :
    ({ V with lib := viaFormat lib glob } : Env (Fl f)).FnOk D U fn ↔ ({ V with lib := lib } : Env (Fl f)).FnOk D U fn := by
  have e : viaFormat lib glob fn = lib fn := by
    funext r x
    change (if fn.ahyp then _ else _) = _
    rw [hf]; rfl
  unfold Env.FnOk
  simp only [e]

private theorem via_ok (V : Env (Fl f)) {lib : Lib (Fl f)} {glob : Lib (Fl g)} (hl : V.lib = viaFormat lib glob) {fn : Fn}
    (hf : fn.ahyp = true) (hk : V.kind = .std ∨ (V.kind = .opp ∧ fn.oppSwitches = true)) (hm : PoleOk glob fn) :
    V.FnOk LeB GeB fn :=
  .inl ⟨hk, fun a x e ha he => by rw [hl]; exact C93_library lib hf hm a x e ha he⟩

/-- The interval functions enclose the values of the real functions. Missing from the full claim: they are not the smallest
enclosures if the other format is narrower (`C93_far_violated`, `C93_pole_violated`); `acosh` with `rounded_transc_opp` (`C19_opp_acosh`). -/
theorem C93_enclose_partial (V : Env (Fl f)) {lib : Lib (Fl f)} {glob : Lib (Fl g)} (hl : V.lib = viaFormat lib glob)
    {fn : Fn} (hf : fn.ahyp = true) (hk : V.kind = .std ∨ (V.kind = .opp ∧ fn.oppSwitches = true)) (hm : PoleOk glob fn)
    {K : PiConst (Fl f)} (hK : Brackets K) {fuel : Nat} {x : Itv (Fl f)} (hx : (γ x ∩ fn.dom).Nonempty) :
    V.Returns (fn.I K fuel V.P x) fun z => ∀ r ∈ γ x, r ∈ fn.dom → fn.real r ∈ γ z :=
  C19_enclose_partial V (V.fl_directed (by rcases hk with hk | ⟨hk, -⟩ <;> rw [hk] <;> intro h <;> cases h))
    (by cases fn <;> first | rfl | cases hf) (via_ok V hl hf hk hm) hK (fun _ => fl_inf) hx

/-- If the other format is wider (`double` for `float`) and its functions are correctly rounded, nothing is lost. -/
theorem C93_smallest (V : Env (Fl f)) {lib : Lib (Fl f)} {glob : Lib (Fl g)} (hl : V.lib = viaFormat lib glob) (hg : g.Wider f)
    {fn : Fn} (hf : fn.ahyp = true) (hk : V.kind = .std ∨ (V.kind = .opp ∧ fn.oppSwitches = true)) (hm : MpfrOk glob fn)
    {K : PiConst (Fl f)} (hK : Neighbours K) {fuel : Nat} {x : Itv (Fl f)} (hx : (γ x ∩ fn.dom).Nonempty) :
    V.Returns (fn.I K fuel V.P x) fun z => SmallestEnclosure z (fn.real '' (γ x ∩ fn.dom)) := by
  refine C19_smallest_partial V (V.fl_tight (by rcases hk with hk | ⟨hk, -⟩ <;> rw [hk] <;> intro h <;> cases h))
    (by cases fn <;> first | rfl | cases hf) (.inl ⟨hk, fun a y e ha he r => ?_⟩) hK (fun _ => fl_inf) hx
  have hrep : ∀ z, Representable (Fl f) z → Representable (Fl g) z := by
    rintro z ⟨b, hb⟩
    exact ⟨_, hg.back .near hb⟩
  obtain ⟨c, z, h1, h2, h3, h4⟩ := hm _ y e (hg.back r ha) he r
  obtain ⟨w, hw, hs⟩ := convert_rounds (g := f) r h2
  refine ⟨c.convert f r, w, ?_, hw, fun h => ?_, fun h => ?_⟩
  · rw [hl]
    change (if fn.ahyp then _ else _) = _
    rw [if_pos hf, show glob fn r (a.convert g r) = some c from h1]; rfl
  · obtain ⟨-, m2, m3⟩ := h3 h
    exact ⟨⟨_, hw⟩, (hs.down h).trans m2, fun y hy hye => hs.lo y hy (m3 y (hrep y hy) hye)⟩
  · obtain ⟨-, m2, m3⟩ := h4 h
    exact ⟨⟨_, hw⟩, m2.trans (hs.upw h), fun y hy hye => hs.up y hy (m3 y (hrep y hy) hye)⟩

private theorem up_top (V : Env (Fl f)) {lib : Lib (Fl f)} {glob : Lib (Fl g)} (hl : V.lib = viaFormat lib glob) {fn : Fn}
    (hf : fn.ahyp = true) (hk : V.kind = .std ∨ (V.kind = .opp ∧ fn.oppSwitches = true)) (hm : PoleOk glob fn) {a : Fl f}
    {x : ℝ} (ha : val a = some (x : EReal)) (hn : ∀ y, IsRoundUp (Fl g) y x → fn.ExtPole y ⊤) :
    Post True (V.B.fnUp fn a) fun c => val c = some ⊤ := by
  obtain ⟨y, hy, hs⟩ := convert_rounds (g := g) .up ha
  obtain ⟨c, z, h1, h2, -, h4⟩ := hm _ _ _ hy (hn y ⟨⟨_, hy⟩, hs.upw rfl, hs.up⟩) .up
  obtain rfl : z = ⊤ := top_le_iff.1 (h4 rfl)
  obtain ⟨w, hw, ht⟩ := convert_rounds (g := f) .up h2
  obtain rfl : w = ⊤ := top_le_iff.1 (ht.upw rfl)
  have e : V.B.fnUp fn a = .ok (c.convert f .up) := by
    have e1 : V.lib fn .up a = some (c.convert f .up) := by
      rw [hl]
      change (if fn.ahyp then _ else _) = _
      rw [if_pos hf, show glob fn .up (a.convert g .up) = some c from h1]; rfl
    unfold Env.B
    rcases hk with hk | ⟨hk, -⟩ <;> rw [hk] <;> change ofOpt (V.lib fn .up a) = _ <;> rw [e1] <;> rfl
  rw [e]
  exact hw

/-- Where `x` rounded upwards to `g` is infinite or a pole, the upper bound is infinite, though the
value of the function at the number `x` is finite. -/
theorem C93_unbounded_violated (V : Env (Fl f)) {lib : Lib (Fl f)} {glob : Lib (Fl g)} (hl : V.lib = viaFormat lib glob)
    {fn : Fn} (hf : fn.ahyp = true) (hk : V.kind = .std ∨ (V.kind = .opp ∧ fn.oppSwitches = true)) (hm : PoleOk glob fn)
    {K : PiConst (Fl f)} {fuel : Nat} {a : Fl f} {x : ℝ} (ha : val a = some (x : EReal)) (hx : x ∈ fn.dom)
    (hn : ∀ y, IsRoundUp (Fl g) y x → fn.ExtPole y ⊤) :
    V.Returns (fn.I K fuel V.P ⟨a, a⟩) fun z => fn.real x ∈ γ z ∧ ¬ BddAbove (γ z) := by
  have hV : V.Directed := V.fl_directed (by rcases hk with hk | ⟨hk, -⟩ <;> rw [hk] <;> intro h <;> cases h)
  have ix := has_single ha
  have hu := up_top V hl hf hk hm ha hn
  have hok := via_ok V hl hf hk hm
  have hd := hok.down du_weak ha (.inl ⟨x, hx, rfl, rfl⟩)
  have fin : ∀ z : Itv (Fl f), (∃ l, val z.lower = some l ∧ l ≤ (fn.real x : EReal)) → val z.upper = some ⊤ →
      fn.real x ∈ γ z ∧ ¬ BddAbove (γ z) := by
    rintro z ⟨l, h1, h2⟩ h3
    refine ⟨⟨l, ⊤, h1, h3, h2, le_top⟩, ?_⟩
    rintro ⟨M, hM⟩
    have : max (fn.real x) (M + 1) ≤ M := hM ⟨l, ⊤, h1, h3, h2.trans (by exact_mod_cast le_max_left _ _), le_top⟩
    linarith [le_max_right (fn.real x) (M + 1)]
  refine V.run hV (fun _ h => Fn.I_sim V h fn _) ?_
  cases fn with
  | asinh =>
    change Post True (increasingI .asinh V.pp ⟨a, a⟩) _
    unfold increasingI
    rw [pure_chk, res_if_false (ix.test V.chk), pure_scope, pure_rnd]
    exact (Post.pair hd hu).bind fun r hr => fin ⟨r.1, r.2⟩ hr.1 hr.2
  | acosh =>
    change Post True (acoshI V.pp ⟨a, a⟩) _
    have h1 : ¬ (x : EReal) < 1 := not_lt.2 (by exact_mod_cast hx)
    unfold acoshI
    rw [pure_chk, ix.test V.chk]
    change Post True (if false || Num.lt a (Num.lit 1) then _ else _) _
    rw [lt_eq ha val_one, if_neg (by simp [h1]), pure_scope, pure_rnd, le_eq ix.lo val_one]
    refine Post.bind (Q := fun c => ∃ l, val c = some l ∧ l ≤ (Real.arcosh x : EReal)) ?_ fun l hl => hu.bind fun u hu => fin ⟨l, u⟩ hl hu
    by_cases h : (x : EReal) ≤ 1
    · rw [if_pos (by simpa using h)]
      exact ⟨0, val_zero, by exact_mod_cast Real.arcosh_nonneg hx⟩
    · rw [if_neg (by simpa using h)]; exact hd
  | atanh =>
    change Post True (atanhI V.pp ⟨a, a⟩) _
    have h1 : ¬ (x : EReal) < -1 := not_lt.2 (m1_lt.2 hx.1).le
    have h2 : ¬ (1 : EReal) < x := not_lt.2 (by exact_mod_cast hx.2.le)
    have h3 : ¬ (x : EReal) ≤ -1 := not_le.2 (m1_lt.2 hx.1)
    have h4 : ¬ (1 : EReal) ≤ x := not_le.2 (by exact_mod_cast hx.2)
    unfold atanhI
    rw [pure_chk, ix.test V.chk]
    change Post True (if false || Num.lt a (Num.lit (-1)) || Num.lt (Num.lit 1) a then _ else _) _
    rw [lt_eq ha val_negOne, lt_eq val_one ha, if_neg (by simp [h1, h2]), pure_scope, pure_rnd, le_eq ix.lo val_negOne,
      le_eq val_one ix.up, if_neg (by simpa using h3), if_neg (by simpa using h4)]
    exact hd.bind fun l hl => hu.bind fun u hu => fin ⟨l, u⟩ hl hu
  | _ => cases hf

/-! ## The hypotheses can be met -/

/-- A correctly rounded library that delivers the infinities at the poles. -/
noncomputable def poleLib (g : Fmt) : Lib (Fl g) := fun fn r a =>
  open Classical in
  match val a with
  | none => some .nan
  | some x => if h : ∃ e, fn.ExtPole x e then some (roundE g r h.choose) else some .nan

theorem poleLib_ok {fn : Fn} (hf : fn.ahyp = true) : PoleOk (poleLib g) fn := by
  intro a x e ha he
  have h : ∃ e, fn.ExtPole x e := ⟨e, he⟩
  have e1 : h.choose = e := le_antisymm (h.choose_spec.mono hf he le_rfl) (he.mono hf h.choose_spec le_rfl)
  refine (Rounds.approx (g := fun r => roundE g r e) (fun r => ?_) fun r => roundE_rounds r e).weaken
  unfold poleLib
  rw [ha]
  simp only [dif_pos h]
  rw [e1]

/-- `interval<long double>` on x86-64 with glibc and libstdc++: the inverse hyperbolic functions are those of `double`. -/
noncomputable def ldAhyp : Env (Fl Fmt.extended) := { dblWide with lib := viaFormat (idealLib _) (poleLib Fmt.double) }

/-- `interval<float>` likewise, with `rounded_transc_std`. -/
noncomputable def fltAhyp : Env (Fl Fmt.single) := { flt with kind := .std, lib := viaFormat (idealLib _) (poleLib Fmt.double) }

example (fuel : Nat) (x : Itv (Fl Fmt.extended)) (hx : (γ x ∩ Fn.atanh.dom).Nonempty) :=
  C93_enclose_partial (fn := .atanh) (fuel := fuel) ldAhyp rfl rfl (.inr ⟨rfl, rfl⟩) (poleLib_ok rfl) (C21_long_double .near) hx
example (fuel : Nat) (x : Itv (Fl Fmt.single)) (hx : (γ x ∩ Fn.acosh.dom).Nonempty) :=
  C93_enclose_partial (fn := .acosh) (fuel := fuel) fltAhyp rfl rfl (.inl rfl) (poleLib_ok rfl) (C21_float .near).brackets hx

example (fuel : Nat) (x : Itv (Fl Fmt.single)) (hx : (γ x ∩ Fn.asinh.dom).Nonempty) :=
  C93_smallest (fn := .asinh) (fuel := fuel) (lib := idealLib _) (glob := idealLib Fmt.double)
    { flt with kind := .std, lib := viaFormat (idealLib _) (idealLib Fmt.double) } rfl (by unfold Fmt.Wider; decide) rfl (.inl rfl)
    (fun _ _ e ha he => Rounds.approx (fun r => idealLib_eq ha he r) fun r => roundE_rounds r e) (C21_float .near) hx

private theorem round_up_eq {q : ℚ} {e y : EReal} (h : val (rnd g .up false q) = some e)
    (hy : IsRoundUp (Fl g) y ((q : ℝ) : EReal)) : y = e := by
  obtain ⟨z, hz, k1, k2, k3⟩ := (rnd_rounds_rat (f := g) .up false q).isUp
  cases h.symm.trans hz
  exact le_antisymm (hy.2.2 _ k1 k2) (k3 _ hy.1 hy.2.1)

/-- The long double `2^2000`. -/
def bigX : Fl Fmt.extended := rnd Fmt.extended .near false (2 ^ 2000 : ℚ)
/-- The long double `1 - 2^(-60)`. -/
def nearOne : Fl Fmt.extended := rnd Fmt.extended .near false (1 - 1 / 2 ^ 60 : ℚ)

theorem bigX_val : val bigX = some (((2 ^ 2000 : ℚ) : ℝ) : EReal) := by
  have h : Rep Fmt.extended (2 ^ 2000) := ⟨1, 2000, by decide +kernel, by decide, by decide, by
    rw [Int.cast_one, one_mul]; exact (zpow_natCast (2 : ℚ) 2000).symm⟩
  unfold bigX
  exact rnd_exact _ _ h

theorem nearOne_val : val nearOne = some (((1 - 1 / 2 ^ 60 : ℚ) : ℝ) : EReal) :=
  rnd_exact _ _ ⟨2 ^ 60 - 1, -60, by decide +kernel, by decide, by decide, by norm_num⟩

private theorem bigX_up {y : EReal} (h : IsRoundUp (Fl Fmt.double) y (((2 ^ 2000 : ℚ) : ℝ) : EReal)) : y = ⊤ :=
  round_up_eq (g := Fmt.double) (by
    have : rnd Fmt.double .up false (2 ^ 2000 : ℚ) = .inf false := by with_unfolding_all decide +kernel
    rw [this]; rfl) h

private theorem nearOne_up {y : EReal} (h : IsRoundUp (Fl Fmt.double) y (((1 - 1 / 2 ^ 60 : ℚ) : ℝ) : EReal)) : y = 1 :=
  round_up_eq (g := Fmt.double) (by
    have : rnd Fmt.double .up false (1 - 1 / 2 ^ 60 : ℚ) = Num.lit 1 := by with_unfolding_all decide +kernel
    rw [this]; exact val_one) h

/-- An unbounded interval is not the smallest enclosure of a number for which there is a finite bound. -/
private theorem not_smallest {z : Itv (Fl f)} {r : ℝ} {b : Fl f} {B : ℝ} (hb : val b = some (B : EReal)) (hr : r ≤ B)
    (h : r ∈ γ z) (hu : ¬ BddAbove (γ z)) : ¬ SmallestEnclosure z {r} := by
  intro hs
  obtain ⟨l, u, h1, h2, h3, h4⟩ := h
  have := (hs.2 ⟨z.lower, b⟩ (by rintro _ rfl; exact ⟨l, B, h1, hb, h3, by exact_mod_cast hr⟩)).1
  refine hu ⟨B, fun t ht => ?_⟩
  obtain ⟨l', u', k1, k2, k3, k4⟩ := this ht
  cases hb.symm.trans k2
  exact_mod_cast k4

/-- `asinh` of the long double `2^2000` has no finite upper bound: the argument is infinite as a `double`. -/
theorem C93_far_violated : ldAhyp.Returns (asinhI ldAhyp.P ⟨bigX, bigX⟩) fun z =>
    ¬ BddAbove (γ z) ∧ ¬ SmallestEnclosure z {Real.arsinh ((2 ^ 2000 : ℚ) : ℝ)} := by
  refine (C93_unbounded_violated (fn := .asinh) (K := piGeneric) (fuel := 0) ldAhyp rfl rfl (.inr ⟨rfl, rfl⟩) (poleLib_ok rfl)
    bigX_val trivial fun y hy => ?_).mono fun z hz => ⟨hz.2, not_smallest bigX_val ?_ hz.1 hz.2⟩
  · rw [bigX_up hy]; exact .inl (.inr (.inr ⟨rfl, rfl⟩))
  · change Real.arsinh _ ≤ _
    have h0 : (0 : ℝ) ≤ ((2 ^ 2000 : ℚ) : ℝ) := by positivity
    generalize ((2 ^ 2000 : ℚ) : ℝ) = x at h0
    rw [← Real.sinh_le_sinh, Real.sinh_arsinh]
    exact Real.self_le_sinh_iff.2 h0

/-- `atanh` of the long double `1 - 2^(-60)` has no finite upper bound: the argument is 1 as a `double`. -/
theorem C93_pole_violated : ldAhyp.Returns (atanhI ldAhyp.P ⟨nearOne, nearOne⟩) fun z =>
    ¬ BddAbove (γ z) ∧ ¬ SmallestEnclosure z {Real.artanh ((1 - 1 / 2 ^ 60 : ℚ) : ℝ)} := by
  have hd : ((1 - 1 / 2 ^ 60 : ℚ) : ℝ) ∈ Fn.atanh.dom := by constructor <;> norm_num
  refine (C93_unbounded_violated (fn := .atanh) (K := piGeneric) (fuel := 0) ldAhyp rfl rfl (.inr ⟨rfl, rfl⟩) (poleLib_ok rfl)
    nearOne_val hd fun y hy => ?_).mono fun z hz => ⟨hz.2, not_smallest bigX_val ?_ hz.1 hz.2⟩
  · rw [nearOne_up hy]; exact .inr ⟨rfl, .inr ⟨rfl, rfl⟩⟩
  · change Real.artanh _ ≤ _
    have e : Real.artanh ((1 - 1 / 2 ^ 60 : ℚ) : ℝ) = 1 / 2 * Real.log ((1 + ((1 - 1 / 2 ^ 60 : ℚ) : ℝ)) / (1 - ((1 - 1 / 2 ^ 60 : ℚ) : ℝ))) :=
      Real.artanh_eq_half_log ⟨hd.1.le, hd.2.le⟩
    rw [e]
    have h1 := Real.log_le_sub_one_of_pos (x := (1 + ((1 - 1 / 2 ^ 60 : ℚ) : ℝ)) / (1 - ((1 - 1 / 2 ^ 60 : ℚ) : ℝ))) (by norm_num)
    refine le_trans (mul_le_mul_of_nonneg_left h1 (by norm_num)) ?_
    have h2 : ((2 ^ 61 : ℚ) : ℝ) ≤ ((2 ^ 2000 : ℚ) : ℝ) := by
      push_cast
      exact pow_le_pow_right₀ (by norm_num) (by norm_num)
    refine le_trans ?_ h2
    norm_num

end BI
