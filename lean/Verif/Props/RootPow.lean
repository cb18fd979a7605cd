import Verif.Props.Root
/-! # C59: `nth_root` and `pow` are inverse to each other, up to enclosure

doc/interval.htm 568-571: "`nth_root(pow(x,k),k)` encloses `x` or `abs(x)`". As in C43, `nth_root` is called in a region,
or in the direction the rounding policy works with. -/

namespace BI
open Set

private noncomputable abbrev dblNear0 : dbl.State := ⟨(⟨.near, ()⟩ : FEnv Unit), fun _ => true⟩

section
variable {f : Fmt} (V : Env (Fl f)) {x : Itv (Fl f)} {n : ℕ}

/-- `pow` inside a region or outside of it has one and the same result. -/
private theorem pow_run (hk : V.kind ≠ .exact) (h1 : 1 ≤ n) (hx : (γ x).Nonempty) :
    ∃ p : Itv (Fl f), (∀ a ∈ γ x, a ^ n ∈ γ p) ∧ V.Returns (powI V.P x (n : ℤ)) (· = p) := by
  obtain ⟨a, b, ix⟩ := has_of_nonempty hx
  have hV := (V.fl_tight hk).signed
  obtain ⟨p, hp, hq⟩ := (powI_post (hV.dir du_signed) (hV.div du_signed) V.chk ix (k := (n : ℤ)) (by unfold intMin; omega)
    (fun h => absurd h (by omega)) (fun h => absurd h (by omega))).total
  exact ⟨p, fun a ha => by have := hq a ha (fun h => absurd h (by omega)); rwa [zpow_natCast] at this,
    V.run hV (fun _ h => powI_sim h x _) (Post.of_eq hp rfl)⟩

/-- The root of the power contains the interval, or its absolute values. -/
theorem C59_root_of_pow_partial (hk : V.kind ≠ .exact) (hf : (f.p : ℤ) + 2 ≤ f.emax) (hp : 4 ≤ f.p) (hE : V.checks.forbidsEmpty = true)
    (hN : V.checks.seesNan = false) (hC : V.checks.catchesNan = false) (h1 : 1 ≤ n) (hn : (n : ℚ) ≤ maxFin f)
    (hx : (γ x).Nonempty) :
    ∃ N, ∀ fuel > N,
      V.Returns (do let p ← powI V.P x (n : ℤ); V.P.rnd.scope (nthRoot V.P.unprot V.ndebug fuel p (n : ℤ)))
        fun z => (Odd n → γ x ⊆ γ z) ∧ (Even n → ∀ a ∈ γ x, |a| ∈ γ z) := by
  obtain ⟨p, h2, h3⟩ := pow_run V hk h1 hx
  obtain ⟨a, ha⟩ := hx
  have he : Odd n ∨ ∃ r ∈ γ p, 0 ≤ r := by
    rcases Nat.even_or_odd n with h | h
    · exact .inr ⟨_, h2 a ha, h.pow_nonneg a⟩
    · exact .inl h
  obtain ⟨N, h4⟩ := C43_encloses_index V hk hf hp hE hN hC h1 hn ⟨_, h2 a ha⟩ he
  refine ⟨N, fun fuel hfu => h3.bind fun q hq => ?_⟩
  subst hq
  refine (h4 fuel hfu).2.mono fun z hz => ⟨fun ho b hb => hz b (.inl ho) (h2 b hb), fun h b hb =>
    hz |b| (.inr (abs_nonneg b)) (by rw [h.pow_abs]; exact h2 b hb)⟩

/-- The power of the root contains the interval, or its part that is not negative. -/
theorem C59_pow_of_root_partial (hk : V.kind ≠ .exact) (hf : (f.p : ℤ) + 2 ≤ f.emax) (hp : 4 ≤ f.p) (hE : V.checks.forbidsEmpty = true)
    (hN : V.checks.seesNan = false) (hC : V.checks.catchesNan = false) (h1 : 1 ≤ n) (hn : (n : ℚ) ≤ maxFin f)
    (hx : (γ x).Nonempty) (he : Odd n ∨ ∃ r ∈ γ x, 0 ≤ r) :
    ∃ N, ∀ fuel > N,
      V.Returns (do let r ← V.P.rnd.scope (nthRoot V.P.unprot V.ndebug fuel x (n : ℤ)); powI V.P r (n : ℤ))
        fun z => ∀ a ∈ γ x, Odd n ∨ 0 ≤ a → a ∈ γ z := by
  obtain ⟨N, h4⟩ := C43_encloses_index V hk hf hp hE hN hC h1 hn hx he
  have root : ∀ a : ℝ, Odd n ∨ 0 ≤ a → ∃ s : ℝ, (Odd n ∨ 0 ≤ s) ∧ s ^ n = a := by
    intro a ha
    have h0 : n ≠ 0 := by omega
    by_cases hpos : 0 ≤ a
    · exact ⟨a ^ ((n : ℝ)⁻¹), .inr (Real.rpow_nonneg hpos _), Real.rpow_inv_natCast_pow hpos h0⟩
    · have ho : Odd n := ha.resolve_right hpos
      refine ⟨-(-a) ^ ((n : ℝ)⁻¹), .inl ho, ?_⟩
      rw [ho.neg_pow, Real.rpow_inv_natCast_pow (by linarith) h0, neg_neg]
  refine ⟨N, fun fuel hfu => (h4 fuel hfu).2.bind fun r hr => ?_⟩
  have hne : (γ r).Nonempty := by
    rcases he with ho | ⟨a, ha, h0⟩
    · obtain ⟨a, ha⟩ := hx
      obtain ⟨s, hs, e⟩ := root a (.inl ho)
      exact ⟨s, hr s hs (e ▸ ha)⟩
    · obtain ⟨s, hs, e⟩ := root a (.inr h0)
      exact ⟨s, hr s hs (e ▸ ha)⟩
  obtain ⟨p, h2, h3⟩ := pow_run V hk h1 hne
  refine h3.mono fun z hz a ha hs => ?_
  subst hz
  obtain ⟨s, hs, e⟩ := root a hs
  exact e ▸ h2 s (hr s hs (e ▸ ha))

end
/-- With policies that represent empty intervals the claim fails for unbounded intervals: the root of `pow([1, ∞), 2)` has
the upper bound NaN. -/
theorem C59_infinite :
    let x : Itv (Fl Fmt.single) := ⟨Fl.ofInt .near 1, .inf false⟩
    (γ x).Nonempty ∧ ((do let p ← powI fltBase.P x 2; fltBase.P.rnd.scope (nthRoot fltBase.P.unprot false 5 p 2))
      (⟨(0x037f : BitVec 16), fun _ => true⟩ : flt.State)).1 = .ok ⟨Fl.ofInt .near 1, .nan⟩ :=
  ⟨⟨1, _, _, val_one, rfl, le_rfl, le_top⟩, by decide +kernel⟩

/-! ## The hypotheses can be met -/

example := C59_root_of_pow_partial dbl (by decide) (by decide) (by decide) rfl rfl rfl (x := litI (-2) 3) (n := 2) (by norm_num)
  (by unfold maxFin; exact le_trans (b := 4 * 1) (by norm_num) (mul_le_mul (by norm_num [Fmt.double]) (one_le_zpow₀ (by norm_num) (by decide)) (by norm_num) (by norm_num [Fmt.double]))) ne_lit
example := C59_pow_of_root_partial dbl (by decide) (by decide) (by decide) rfl rfl rfl (x := litI (-2) 3) (n := 3) (by norm_num)
  (by unfold maxFin; exact le_trans (b := 4 * 1) (by norm_num) (mul_le_mul (by norm_num [Fmt.double]) (one_le_zpow₀ (by norm_num) (by decide)) (by norm_num) (by norm_num [Fmt.double]))) ne_lit (.inl (by decide))
/-- `nth_root(pow([-2, 3], 3), 3)` with numbers. -/
example : ((do let p ← powI dbl.P (litI (-2) 3) 3; dbl.P.rnd.scope (nthRoot dbl.P.unprot true 40 p 3)) dblNear0).1.map
    (fun z : Itv (Fl Fmt.double) => Num.le z.lower (Num.lit (-2)) && Num.le (Num.lit 3) z.upper) = .ok true := by
  decide +kernel

end BI
