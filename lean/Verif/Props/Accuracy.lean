import Verif.Props.Elem
import Verif.Props.Arith2
import Verif.Props.Ctor
import Verif.Proofs.PowAcc
/-!
# C77: the bounds are within one unit in the last place

Inclusion alone is met by the whole line. How much too large can a result be? For every binary format: at each end less than
one unit in the last place of the exact bound.
-/

namespace BI
open Set

variable {f : Fmt}

namespace Accuracy

theorem lower_of {z : Itv (Fl f)} {S : Set ℝ} (h : SmallestEnclosure z S) (hS : S.Nonempty) {a : ℝ} (ha : IsGLB S a) {w : Fl f}
    {r : ℝ} (hw : val w = some (r : EReal)) (hr : r ≤ a) : ∃ l : ℝ, val z.lower = some (l : EReal) ∧ r ≤ l ∧ l ≤ a := by
  obtain ⟨s, hs⟩ := hS
  obtain ⟨l, u, iz⟩ := has_of_nonempty ⟨s, h.1 hs⟩
  have i' : Has (⟨w, z.upper⟩ : Itv (Fl f)) (r : EReal) u :=
    ⟨hw, iz.up, EReal.coe_ne_top _, iz.ne_bot, le_trans (EReal.coe_le_coe_iff.2 (hr.trans (ha.1 hs))) (iz.ub (h.1 hs))⟩
  have h1 := ((h.2 ⟨w, z.upper⟩ fun q hq => by
    rw [i'.gamma]; exact ⟨EReal.coe_le_coe_iff.2 (hr.trans (ha.1 hq)), iz.ub (h.1 hq)⟩).2 _ _ _ _ iz.lo iz.up hw iz.up).1
  have hb : l ≠ ⊥ := fun e => by rw [e] at h1; exact absurd (le_bot_iff.1 h1) (EReal.coe_ne_bot _)
  lift l to ℝ using ⟨iz.ne_top, hb⟩
  exact ⟨l, iz.lo, by exact_mod_cast h1, ha.2 fun q hq => by have := iz.lb (h.1 hq); exact_mod_cast this⟩

theorem upper_of {z : Itv (Fl f)} {S : Set ℝ} (h : SmallestEnclosure z S) (hS : S.Nonempty) {b : ℝ} (hb : IsLUB S b) {w : Fl f}
    {r : ℝ} (hw : val w = some (r : EReal)) (hr : b ≤ r) : ∃ u : ℝ, val z.upper = some (u : EReal) ∧ u ≤ r ∧ b ≤ u := by
  obtain ⟨s, hs⟩ := hS
  obtain ⟨l, u, iz⟩ := has_of_nonempty ⟨s, h.1 hs⟩
  have i' : Has (⟨z.lower, w⟩ : Itv (Fl f)) l (r : EReal) :=
    ⟨iz.lo, hw, iz.ne_top, EReal.coe_ne_bot _, le_trans (iz.lb (h.1 hs)) (EReal.coe_le_coe_iff.2 ((hb.1 hs).trans hr))⟩
  have h1 := ((h.2 ⟨z.lower, w⟩ fun q hq => by
    rw [i'.gamma]; exact ⟨iz.lb (h.1 hq), EReal.coe_le_coe_iff.2 ((hb.1 hq).trans hr)⟩).2 _ _ _ _ iz.lo iz.up iz.lo hw).2
  have ht : u ≠ ⊤ := fun e => by rw [e] at h1; exact absurd (top_le_iff.1 h1) (EReal.coe_ne_top _)
  lift u to ℝ using ⟨ht, iz.ne_bot⟩
  exact ⟨u, iz.up, by exact_mod_cast h1, hb.2 fun q hq => by have := iz.ub (h.1 hq); exact_mod_cast this⟩

end Accuracy

/-- Every smallest enclosure is within one unit at each end. -/
theorem C77_smallest {z : Itv (Fl f)} {S : Set ℝ} (hS : S.Nonempty) (h : SmallestEnclosure z S) : WithinUnit z S := by
  refine ⟨h.1, fun a ha hm => ?_, fun b hb hm => ?_⟩
  · obtain ⟨q, hq, h1, h2⟩ := Accuracy.below (f := f) hm
    obtain ⟨w, hw⟩ := (representable_iff (f := f) ((q : ℝ) : EReal)).2 (.inr (.inr ⟨q, hq, rfl⟩))
    obtain ⟨l, k1, k2, k3⟩ := Accuracy.lower_of h hS ha hw h1
    refine ⟨l, k1, k3, by linarith, fun ⟨t, ht⟩ => ?_⟩
    obtain ⟨l', k1', k2', -⟩ := Accuracy.lower_of h hS ha ht le_rfl
    have e : l' = l := by have := k1'.symm.trans k1; exact_mod_cast Option.some.inj this
    exact le_antisymm k3 (e ▸ k2')
  · obtain ⟨q, hq, h1, h2⟩ := Accuracy.above (f := f) hm
    obtain ⟨w, hw⟩ := (representable_iff (f := f) ((q : ℝ) : EReal)).2 (.inr (.inr ⟨q, hq, rfl⟩))
    obtain ⟨l, k1, k2, k3⟩ := Accuracy.upper_of h hS hb hw h1
    refine ⟨l, k1, k3, by linarith, fun ⟨t, ht⟩ => ?_⟩
    obtain ⟨l', k1', k2', -⟩ := Accuracy.upper_of h hS hb ht le_rfl
    have e : l' = l := by have := k1'.symm.trans k1; exact_mod_cast Option.some.inj this
    exact le_antisymm (e ▸ k2') k3

section
variable (V : Env (Fl f)) {x y : Itv (Fl f)} {t : Fl f} {r : ℝ}

theorem C77_add (hk : V.kind ≠ .exact) (hx : (γ x).Nonempty) (hy : (γ y).Nonempty) :
    V.Returns (addII V.P x y) fun z => WithinUnit z {q | ∃ a ∈ γ x, ∃ b ∈ γ y, a + b = q} :=
  (C12_add V (V.fl_tight hk) hx hy).mono fun _ => C77_smallest (hx.image2 hy)

theorem C77_sub (hk : V.kind ≠ .exact) (hx : (γ x).Nonempty) (hy : (γ y).Nonempty) :
    V.Returns (subII V.P x y) fun z => WithinUnit z {q | ∃ a ∈ γ x, ∃ b ∈ γ y, a - b = q} :=
  (C12_sub V (V.fl_tight hk) hx hy).mono fun _ => C77_smallest (hx.image2 hy)

theorem C77_mul (hk : V.kind ≠ .exact) (hx : (γ x).Nonempty) (hy : (γ y).Nonempty) :
    V.Returns (mulII V.P x y) fun z => WithinUnit z {q | ∃ a ∈ γ x, ∃ b ∈ γ y, a * b = q} :=
  (C12_mul V (V.fl_tight hk) hx hy).mono fun _ => C77_smallest (hx.image2 hy)

theorem C77_div (hk : V.kind ≠ .exact) (hx : (γ x).Nonempty) (hy : (γ y).Nonempty) (h0 : 0 ∉ γ y) :
    V.Returns (divII V.P x y) fun z => WithinUnit z {q | ∃ a ∈ γ x, ∃ b ∈ γ y, b ≠ 0 ∧ q = a / b} :=
  (C12_div V (V.fl_tight hk) hx hy h0).mono fun _ =>
    C77_smallest (quot_nonempty hx (hy.imp fun _ hb => ⟨hb, fun e => h0 (e ▸ hb)⟩))

/-- The inverse, also of intervals that contain zero; a bound at infinity is not missed at all. -/
theorem C77_inverse (hk : V.kind ≠ .exact) (hx : ∃ r ∈ γ x, r ≠ 0) :
    V.Returns (multInv V.P x) fun z => WithinUnit z {q | ∃ a ∈ ({1} : Set ℝ), ∃ b ∈ γ x, b ≠ 0 ∧ q = a / b} :=
  (C12_inverse V (V.fl_tight hk) fl_inf hx).mono fun _ => C77_smallest (quot_nonempty (singleton_nonempty 1) hx)

theorem C77_square (hk : V.kind ≠ .exact) (hx : (γ x).Nonempty) :
    V.Returns (squareI V.P x) fun z => WithinUnit z {q | ∃ a, a ∈ γ x ∧ a ^ 2 = q} :=
  (C12_square V (V.fl_tight hk) hx).mono fun _ => C77_smallest (hx.image _)

theorem C77_sqrt (hk : V.kind ≠ .exact) (hx : ∃ r ∈ γ x, 0 ≤ r) :
    V.Returns (sqrtI V.P x) fun z => WithinUnit z {q | ∃ a, (a ∈ γ x ∧ 0 ≤ a) ∧ Real.sqrt a = q} :=
  (C12_sqrt V (V.fl_tight hk) (V.fl_sqrtOk hk) hx).mono fun _ =>
    C77_smallest (hx.elim fun a ha => ⟨_, a, ha, rfl⟩)

/-- The elementary functions other than sine, cosine and tangent, with a correctly rounded library. -/
theorem C77_fn (hk : V.kind ≠ .exact) {fn : Fn} (hs : fn.simple = true)
    (hf : V.FnOk (IsRoundDown (Fl f)) (IsRoundUp (Fl f)) fn) {K : PiConst (Fl f)} (hK : Neighbours K) {fuel : ℕ}
    (hx : (γ x ∩ fn.dom).Nonempty) :
    V.Returns (fn.I K fuel V.P x) fun z => WithinUnit z (fn.real '' (γ x ∩ fn.dom)) :=
  (C19_smallest_partial V (V.fl_tight hk) hs hf hK (fun _ => fl_inf) hx).mono fun _ => C77_smallest (hx.image _)

/-- Intervals of another format. -/
theorem C77_convert {g : Fmt} (hk : V.kind ≠ .exact) {a : Fl g} (ha : val a = some (r : EReal)) :
    V.Returns (ctorSrc V.P (srcFl a)) fun z => WithinUnit z {r} :=
  (C36_src_smallest V (V.fl_tight hk) (srcFl_denotes V hk ha)).mono fun _ => C77_smallest (singleton_nonempty r)

/-- `pow` multiplies repeatedly: `n - 1` roundings, provided the powers of the bounds neither overflow nor underflow. One unit
in the last place is not enough (`C77_pow_more`). -/
theorem C77_pow (hk : V.kind ≠ .exact) {p q : ℝ} (hp : val x.lower = some (p : EReal)) (hq : val x.upper = some (q : EReal))
    (hpq : p ≤ q) {n : ℕ} (hn : 0 < n) (sp : PowSafe f n |p|) (sq : PowSafe f n |q|) :
    V.Returns (powI V.P x n) fun z => WithinRel (n - 1) z {w | ∃ r, r ∈ γ x ∧ r ^ n = w} := by
  have hV := V.fl_tight hk
  have ix : Has x (p : EReal) q := ⟨hp, hq, EReal.coe_ne_top _, EReal.coe_ne_bot _, by exact_mod_cast hpq⟩
  refine V.run hV (fun _ h => powI_sim h x n) ?_
  unfold powI
  rw [pure_chk, res_if_false (ix.test V.chk), if_neg (by omega), Int.toNat_natCast]
  exact Accuracy.powNat_acc (hV.dir du_tight) (hV.signed.dir du_signed) V.chk ix hn sp sq

end

/-- How much larger than the exact range a result is. -/
theorem C77_size {z : Itv (Fl f)} {S : Set ℝ} (h : WithinUnit z S) {a b : ℝ} (ha : IsGLB S a) (hb : IsLUB S b)
    (ma : |a| ≤ (maxFin f : ℝ)) (mb : |b| ≤ (maxFin f : ℝ)) :
    ∃ l u : ℝ, γ z = Icc l u ∧ u - l < (b - a) + unit f a + unit f b := by
  obtain ⟨l, hl, -, l2, -⟩ := h.2.1 a ha ma
  obtain ⟨u, hu, -, u2, -⟩ := h.2.2 b hb mb
  refine ⟨l, u, ?_, by linarith⟩
  ext r
  constructor
  · rintro ⟨c, d, hc, hd, h1, h2⟩
    rw [hl] at hc; rw [hu] at hd; cases hc; cases hd
    exact ⟨by exact_mod_cast h1, by exact_mod_cast h2⟩
  · exact fun hr => ⟨_, _, hl, hu, by exact_mod_cast hr.1, by exact_mod_cast hr.2⟩

/-! ## More than one unit -/

/-- `4503599722276608`, a `double`. -/
private def pw : Fl Fmt.double := .nz 4503599722276608
  ⟨by norm_num, 4503599722276608, 0, by decide, by decide, by decide, by norm_num⟩

/-- `1125899978022209 * 2 ^ 106` -/
private def pl : Fl Fmt.double := .nz 91343858107955425939491843378125322445836517376
  ⟨by norm_num, 1125899978022209, 106, by decide, by decide, by decide, by norm_num⟩

private theorem pw_val : val pw = some (((4503599722276608 : ℝ)) : EReal) := by
  show some (((4503599722276608 : ℚ) : ℝ) : EReal) = _
  norm_num

private theorem pw_gamma : γ (⟨pw, pw⟩ : Itv (Fl Fmt.double)) = {4503599722276608} := by
  have i : Has (⟨pw, pw⟩ : Itv (Fl Fmt.double)) (4503599722276608 : ℝ) (4503599722276608 : ℝ) :=
    ⟨pw_val, pw_val, EReal.coe_ne_top _, EReal.coe_ne_bot _, le_rfl⟩
  rw [i.gamma]; ext r
  simp only [mem_singleton_iff]
  exact ⟨fun h => le_antisymm (by exact_mod_cast h.2) (by exact_mod_cast h.1), fun h => by subst h; exact ⟨le_rfl, le_rfl⟩⟩

/-- The cube of a `double`: the lower bound is wrong by more than one unit in the last place (almost two, the bound of
`C77_pow`). -/
theorem C77_pow_more : ¬ dbl.Returns (powI dbl.P ⟨pw, pw⟩ 3) fun z =>
    WithinUnit z {w | ∃ r, r ∈ γ (⟨pw, pw⟩ : Itv (Fl Fmt.double)) ∧ r ^ 3 = w} := by
  intro h
  obtain ⟨z, h1, -, h2⟩ := h (⟨(⟨.near, ()⟩ : FEnv Unit), fun _ => true⟩ : dbl.State) trivial
  have h3 : (powI dbl.P ⟨pw, pw⟩ 3 (⟨(⟨.near, ()⟩ : FEnv Unit), fun _ => true⟩ : dbl.State)).1.map (fun z => z.lower) =
      .ok pl := by
    decide +kernel
  rw [h1] at h3
  have h4 : z.lower = pl := Except.ok.inj h3
  have e : {w : ℝ | ∃ r, r ∈ γ (⟨pw, pw⟩ : Itv (Fl Fmt.double)) ∧ r ^ 3 = w} = {4503599722276608 ^ 3} := by
    rw [pw_gamma]; ext w
    simp only [mem_ofPred_eq, mem_singleton_iff, exists_eq_left]
    exact eq_comm
  rw [e] at h2
  have hm : |(4503599722276608 ^ 3 : ℝ)| ≤ (maxFin Fmt.double : ℝ) := by
    rw [abs_of_pos (by positivity)]
    have : (4503599722276608 ^ 3 : ℚ) ≤ maxFin Fmt.double := by decide +kernel
    exact_mod_cast this
  obtain ⟨l, l1, -, l2, -⟩ := h2.2.1 _ isGLB_singleton hm
  have l3 : l = 91343858107955425939491843378125322445836517376 := by
    rw [h4] at l1
    have l4 : some (((91343858107955425939491843378125322445836517376 : ℚ) : ℝ) : EReal) = some (l : EReal) := l1
    have l5 := EReal.coe_injective (Option.some.inj l4)
    rw [← l5]; norm_num
  have hu : unit Fmt.double (4503599722276608 ^ 3) ≤ 21000000000000000000000000000000 := by
    unfold unit
    rw [abs_of_pos (by positivity)]
    refine max_le ?_ (le_trans (zpow_le_one_of_nonpos₀ (by norm_num) (by decide)) (by norm_num))
    have : (1 - (Fmt.double.p : ℤ)) = -52 := rfl
    rw [this]; norm_num
  rw [l3] at l2
  have l6 := l2.trans_le hu
  norm_num at l6

/-! ## The hypotheses can be met -/

private theorem dbl_kind : dbl.kind ≠ .exact := fun h => by cases h

private theorem litval (n : ℤ) (h : |n| ≤ 7) : val (Num.lit n : Fl Fmt.double) = some (((n : ℝ)) : EReal) := NumLaws.lit n h

private theorem safe3 : PowSafe Fmt.double 5 |(3 : ℝ)| := by
  have e : eps Fmt.double = 2 ^ (-52 : ℤ) := rfl
  have n : normal Fmt.double ≤ 1 := by
    unfold normal; exact zpow_le_one_of_nonpos₀ (by norm_num) (by decide)
  have m : (300 : ℝ) ≤ maxFin Fmt.double := by
    have : (300 : ℚ) ≤ maxFin Fmt.double := by decide +kernel
    exact_mod_cast this
  rw [abs_of_pos (by norm_num)]
  refine Accuracy.powSafe_of (by norm_num) (by linarith) (by linarith) (n.trans ?_) (le_trans ?_ m) <;> rw [e] <;> norm_num

example := C77_add dbl dbl_kind (x := litI (-1) 2) (y := litI 1 7) ne_lit ne_lit
example := C77_sub dbl dbl_kind (x := litI (-1) 2) (y := litI 1 7) ne_lit ne_lit
example := C77_mul dbl dbl_kind (x := litI (-1) 2) (y := litI (-3) 7) ne_lit ne_lit
example := C77_div dbl dbl_kind (x := litI (-1) 2) (y := litI 3 7) ne_lit ne_lit (by rw [mem_litI (by decide) (by decide)]; norm_num)
example := C77_inverse dbl dbl_kind (x := litI (-1) 3) ⟨2, in_lit, by norm_num⟩
example := C77_square dbl dbl_kind (x := litI (-1) 3) ne_lit
example := C77_sqrt dbl dbl_kind (x := litI (-2) 3) ⟨2, in_lit, by norm_num⟩
example := C77_pow dbl dbl_kind (x := litI 3 3) (p := 3) (q := 3) (n := 5) (by exact_mod_cast litval 3 (by decide))
  (by exact_mod_cast litval 3 (by decide)) le_rfl (by norm_num) safe3 safe3
example := C77_pow dbl dbl_kind (x := litI (-3) 0) (p := -3) (q := 0) (n := 5) (by exact_mod_cast litval (-3) (by decide))
  (by exact_mod_cast litval 0 (by decide)) (by norm_num) (by norm_num) (by rw [abs_neg]; exact safe3) (.inl abs_zero)

example := C77_fn dblOpp (fun h => by cases h) (fn := .exp) rfl (dblOpp.ideal_ok .exp rfl (.inr ⟨rfl, rfl⟩)) (K := piDouble .near)
  (C21_double .near) (fuel := 5) (x := litI (-1) 2) ⟨1, in_lit, trivial⟩
example := C77_convert flt (fun h => by cases h) (a := pw) pw_val
example := C77_size (C77_smallest (z := (⟨pw, pw⟩ : Itv (Fl Fmt.double))) (S := {4503599722276608}) (singleton_nonempty _)
  ⟨pw_gamma.symm.subset, fun w hw => by
    obtain ⟨a, b, iw⟩ := has_of_nonempty ⟨_, hw rfl⟩
    refine ⟨pw_gamma.subset.trans hw, fun l u l' u' k1 k2 k3 k4 => ?_⟩
    rw [pw_val] at k1 k2; cases k1; cases k2
    rw [iw.lo] at k3; rw [iw.up] at k4; cases k3; cases k4
    exact ⟨iw.lb (hw rfl), iw.ub (hw rfl)⟩⟩) isGLB_singleton isLUB_singleton

end BI
