import Verif.Proofs.SingleUse
import Verif.Props.Arith2
/-!
# C71: the dependency problem

doc/interval.htm 834-847 (Interval values and references): the library only considers the values of intervals; it does not
identify different occurrences of the same variable. With exact arithmetic this is the only loss.
-/

namespace BI
open Set

section
variable {T : Type} [Num T] [Val T] [NumLaws T] (V : Env T) {x : Itv T}

theorem cpt_of (hx : (γ x).Nonempty) (hb : Bornology.IsBounded (γ x)) : Cpt (γ x) := by
  obtain ⟨_, _, ix⟩ := has_of_nonempty hx
  obtain ⟨p, q, rfl, rfl, h⟩ := ix.of_bounded hb
  rw [ix.gamma_Icc]; exact .of_icc h

/-! ## Exact types -/

section
variable (hk : V.kind = .exact) (hE : ExactBase T) (hm : ModeFree T V.lib) (K : PiConst T) (fuel : ℕ) {x : ℕ → Itv T}
  (hx : ∀ i, (γ (x i)).Nonempty) (hb : ∀ i, Bornology.IsBounded (γ (x i)))
include hk hE hm hx hb

/-- If no variable occurs twice in a formula, its evaluation returns the set of its values and nothing else. -/
theorem C71_single_use (e : Expr T) (hr : e.rational = true) (hn : e.vars.Nodup)
    (hd : ∀ v, (∀ i, v i ∈ γ (x i)) → e.Defined v) (hne : (e.range x).Nonempty) :
    V.Returns (e.eval K fuel V.P x) fun z => γ z = e.range x := by
  obtain ⟨z, hz, e', -⟩ := e.eval_rets V hk hE hm K fuel x (fun i => cpt_of (hx i) (hb i)) hr hn hd hne
  exact V.run (D := Eq) (U := Eq) (.inr ⟨hk, hE, hm⟩) (fun _ h => Expr.eval_sim h x e z hz) (Post.of_ok ⟨z, rfl, e'⟩)

/-- The same in a block that owns a rounding object and computes with the unprotected type. -/
theorem C71_single_use_region (e : Expr T) (hr : e.rational = true) (hn : e.vars.Nodup)
    (hd : ∀ v, (∀ i, v i ∈ γ (x i)) → e.Defined v) (hne : (e.range x).Nonempty) :
    V.Returns (V.P.rnd.scope (e.eval K fuel V.P.unprot x)) fun z => γ z = e.range x := by
  obtain ⟨z, hz, e', -⟩ := e.eval_rets V hk hE hm K fuel x (fun i => cpt_of (hx i) (hb i)) hr hn hd hne
  exact V.run (D := Eq) (U := Eq) (.inr ⟨hk, hE, hm⟩) (fun _ h => h.scope (Expr.eval_sim h.unprot x e z hz))
    (Post.of_ok ⟨z, rfl, e'⟩)

/-- All other formulas: the result is the set of the values that the formula takes if each occurrence of a variable is a
variable of its own. (`e` is the formula with all occurrences renamed apart, `σ` says which variable each of them was.) -/
theorem C71_occurrences (e : Expr T) (σ : ℕ → ℕ) (hr : e.rational = true) (hn : e.vars.Nodup)
    (hd : ∀ v, (∀ i, v i ∈ γ (x (σ i))) → e.Defined v) (hne : (e.range fun i => x (σ i)).Nonempty) :
    V.Returns ((e.rename σ).eval K fuel V.P x) fun z => γ z = e.range fun i => x (σ i) := by
  rw [Expr.eval_rename]
  exact C71_single_use V hk hE hm K fuel (fun i => hx (σ i)) (fun i => hb (σ i)) e hr hn hd hne

end

/-- Every formula is such a renaming. -/
theorem C71_apart (e : Expr T) : ∃ (e' : Expr T) (σ : ℕ → ℕ), e'.vars.Nodup ∧ e'.rename σ = e := by
  obtain ⟨e', σ, -, -, -, h, h'⟩ := e.decouple 0
  exact ⟨e', σ, h, h'⟩

/-! ## `x - x`, `x / x`, `x * x` -/

theorem one_point (hx : (γ x).Nonempty) (h : ∀ a ∈ γ x, ∀ b ∈ γ x, a = b) : ∃ r, γ x = {r} := by
  obtain ⟨a, ha⟩ := hx
  exact ⟨a, subset_antisymm (fun b hb => h b hb a ha) (singleton_subset_iff.2 ha)⟩

/-- `x - x` is zero exactly for single points. -/
theorem C71_sub_self (hV : V.Tight) (hx : (γ x).Nonempty) : V.Returns (subII V.P x x) fun z => γ z = {0} ↔ ∃ r, γ x = {r} := by
  refine (C12_sub V hV hx hx).mono fun z hz => ⟨fun h => one_point hx fun a ha b hb => ?_, ?_⟩
  · have := hz.1 ⟨a, ha, b, hb, rfl⟩
    rw [h] at this
    exact sub_eq_zero.1 this
  · rintro ⟨r, h⟩
    have e : {q | ∃ a ∈ γ x, ∃ b ∈ γ x, a - b = q} = {0} := by
      rw [h]; ext q; simp [eq_comm]
    rw [e] at hz
    exact hz.single ⟨Num.lit 0, val_zero⟩

/-- `x / x` is one exactly for single points. -/
theorem C71_div_self (hV : V.Tight) (hx : (γ x).Nonempty) (h0 : 0 ∉ γ x) :
    V.Returns (divII V.P x x) fun z => γ z = {1} ↔ ∃ r, γ x = {r} := by
  refine (C12_div V hV hx hx h0).mono fun z hz => ⟨fun h => one_point hx fun a ha b hb => ?_, ?_⟩
  · have hb0 : b ≠ 0 := fun h => h0 (h ▸ hb)
    have := hz.1 ⟨a, ha, b, hb, hb0, rfl⟩
    rw [h] at this
    exact (div_eq_one_iff_eq hb0).1 this
  · rintro ⟨r, h⟩
    have hr : r ≠ 0 := fun h' => h0 (by rw [h, h']; rfl)
    have e : {q | ∃ a ∈ γ x, ∃ b ∈ γ x, b ≠ 0 ∧ q = a / b} = {1} := by
      rw [h]; ext q; simp [hr]
    rw [e] at hz
    exact hz.single ⟨Num.lit 1, by rw [val_one]; rfl⟩

/-- `x * x` is `square(x)` exactly if `x` has no numbers of both signs. -/
theorem C71_mul_self (hV : V.Tight) (hx : (γ x).Nonempty) : V.Returns (mulII V.P x x) fun z =>
    V.Returns (squareI V.P x) fun z' => γ z = γ z' ↔ ¬ ((∃ a ∈ γ x, a < 0) ∧ ∃ b ∈ γ x, 0 < b) := by
  refine (C12_mul V hV hx hx).mono fun z hz => (C12_square V hV hx).mono fun z' hz' => ⟨?_, fun h => subset_antisymm ?_ ?_⟩
  · rintro h ⟨⟨a, ha, ha0⟩, b, hb, hb0⟩
    obtain ⟨l, u, k1, k2, -, k4⟩ := hz'.1 ⟨a, ha, rfl⟩
    have := hz.1 ⟨a, ha, b, hb, rfl⟩
    rw [h] at this
    obtain ⟨l', -, k1', -, k3', -⟩ := (hz'.2 ⟨Num.lit 0, z'.upper⟩ (by
      rintro _ ⟨c, hc, rfl⟩
      obtain ⟨_, u', -, k2', -, k4'⟩ := hz'.1 ⟨c, hc, rfl⟩
      exact ⟨0, u', val_zero, k2', by exact_mod_cast sq_nonneg c, k4'⟩)).1 this
    cases k1'.symm.trans val_zero
    exact absurd k3' (not_le.2 (by exact_mod_cast mul_neg_of_neg_of_pos ha0 hb0))
  · refine (hz.2 z' ?_).1
    rintro _ ⟨a, ha, b, hb, rfl⟩
    have hab : 0 ≤ a * b := by
      by_contra h'
      rcases mul_neg_iff.1 (not_le.1 h') with ⟨h1, h2⟩ | ⟨h1, h2⟩
      · exact h ⟨⟨b, hb, h2⟩, a, ha, h1⟩
      · exact h ⟨⟨a, ha, h1⟩, b, hb, h2⟩
    refine gamma_between (hz'.1 ⟨a, ha, rfl⟩) (hz'.1 ⟨b, hb, rfl⟩) ?_ ?_
    · have key : a * b = |a| * |b| := by rw [← abs_mul, abs_of_nonneg hab]
      rw [min_le_iff, key, ← sq_abs a, ← sq_abs b]
      rcases le_total |a| |b| with h' | h'
      · left; nlinarith [abs_nonneg a]
      · right; nlinarith [abs_nonneg b]
    · rw [le_max_iff]
      rcases le_total (a ^ 2) (b ^ 2) with h' | h'
      · right; nlinarith [sq_nonneg (a - b)]
      · left; nlinarith [sq_nonneg (a - b)]
  · refine (hz'.2 z ?_).1
    rintro _ ⟨a, ha, rfl⟩
    exact hz.1 ⟨a, ha, a, ha, (sq a).symm⟩

/-! ## Rewriting a formula -/

/-- `square(x) - 2 * x` -/
def spread (T : Type) [Num T] : Expr T := .bin .sub (.un .square (.var 0)) (.binL .mul (Num.lit 2) (.var 0))
/-- `square(x - 1) - 1` -/
def compact (T : Type) [Num T] : Expr T := .binR .sub (.un .square (.binR .sub (.var 0) (Num.lit 1))) (Num.lit 1)

/-- What the documentation calls far less precise: with exact arithmetic `square(x - 1) - 1` is the set of values, and
`square(x) - 2 * x` is larger, except for single points and for intervals without positive numbers. -/
theorem C71_rewrite (hk : V.kind = .exact) (hE : ExactBase T) (hm : ModeFree T V.lib) (K : PiConst T) (fuel : ℕ) (hx : (γ x).Nonempty)
    (hb : Bornology.IsBounded (γ x)) : V.Returns ((compact T).eval K fuel V.P fun _ => x) fun z =>
      γ z = {r | ∃ a ∈ γ x, r = a ^ 2 - 2 * a} ∧
      V.Returns ((spread T).eval K fuel V.P fun _ => x) fun z' =>
        γ z ⊆ γ z' ∧ (γ z = γ z' ↔ (∃ r, γ x = {r}) ∨ ∀ a ∈ γ x, a ≤ 0) := by
  have h1 : val (Num.lit 1 : T) = some ((1 : ℝ) : EReal) := by rw [val_one]; rfl
  have h2 : val (Num.lit 2 : T) = some ((2 : ℝ) : EReal) := by simpa using NumLaws.lit (T := T) 2 (by norm_num)
  have u1 : ∀ {r : ℝ}, val (Num.lit 1 : T) = some (r : EReal) → r = 1 := fun h => EReal.coe_eq_coe_iff.1 (Option.some.inj (h.symm.trans h1))
  have u2 : ∀ {r : ℝ}, val (Num.lit 2 : T) = some (r : EReal) → r = 2 := fun h => EReal.coe_eq_coe_iff.1 (Option.some.inj (h.symm.trans h2))
  have hc : (compact T).range (fun _ => x) = {r | ∃ a ∈ γ x, r = a ^ 2 - 2 * a} := by
    ext r; constructor
    · rintro ⟨v, hv, s, c, ⟨t, ⟨a, d, rfl, hd, rfl⟩, rfl⟩, hc, rfl⟩
      exact ⟨_, hv 0, by rw [u1 hc, u1 hd]; ring⟩
    · rintro ⟨a, ha, rfl⟩
      exact ⟨fun _ => a, fun _ => ha, _, 1, ⟨_, ⟨a, 1, rfl, h1, rfl⟩, rfl⟩, h1, by
        change a ^ 2 - 2 * a = (a - 1) ^ 2 - 1; ring⟩
  let e' : Expr T := .bin .sub (.un .square (.var 0)) (.binL .mul (Num.lit 2) (.var 1))
  have hs : e'.range (fun _ => x) = {r | ∃ a ∈ γ x, ∃ b ∈ γ x, r = a ^ 2 - 2 * b} := by
    ext r; constructor
    · rintro ⟨v, hv, s, c, ⟨a, rfl, rfl⟩, ⟨d, b, hd, rfl, rfl⟩, rfl⟩
      exact ⟨_, hv 0, _, hv 1, by rw [u2 hd]⟩
    · rintro ⟨a, ha, b, hb, rfl⟩
      exact ⟨fun i => if i = 0 then a else b, fun i => by dsimp only; split_ifs <;> assumption, _, _, ⟨a, rfl, rfl⟩,
        ⟨2, b, h2, rfl, rfl⟩, rfl⟩
  obtain ⟨a₀, ha₀⟩ := hx
  have hx : (γ x).Nonempty := ⟨a₀, ha₀⟩
  refine (C71_single_use V hk hE hm K fuel (x := fun _ => x) (fun _ => hx) (fun _ => hb) (compact T) rfl (by simp [compact, Expr.vars])
    (fun v hv => ⟨⟨⟨trivial, fun _ _ _ _ => ⟨_, rfl⟩⟩, fun _ _ => ⟨_, rfl⟩⟩, fun _ _ _ _ => ⟨_, rfl⟩⟩)
    (by rw [hc]; exact ⟨_, a₀, ha₀, rfl⟩)).mono fun z hz => ⟨hz.trans hc, ?_⟩
  refine (C71_occurrences V hk hE hm K fuel (x := fun _ => x) (fun _ => hx) (fun _ => hb) e' (fun _ => 0) rfl (by simp [e', Expr.vars])
    (fun v hv => ⟨⟨trivial, fun _ _ => ⟨_, rfl⟩⟩, ⟨trivial, fun _ _ _ _ => ⟨_, rfl⟩⟩, fun _ _ _ _ => ⟨_, rfl⟩⟩)
    (by rw [hs]; exact ⟨_, a₀, ha₀, a₀, ha₀, rfl⟩)).mono fun z' hz' => ?_
  rw [hz, hz', hc, hs]
  obtain ⟨l, u, hlu, hI⟩ := (cpt_of hx hb).icc
  rw [hI]
  have sub : {r | ∃ a ∈ Icc l u, r = a ^ 2 - 2 * a} ⊆ {r | ∃ a ∈ Icc l u, ∃ b ∈ Icc l u, r = a ^ 2 - 2 * b} :=
    fun r ⟨a, ha, e⟩ => ⟨a, ha, a, ha, e⟩
  refine ⟨sub, fun h => ?_, fun h => subset_antisymm sub ?_⟩
  · by_contra hn
    push Not at hn
    obtain ⟨hn1, p, hp, hp0⟩ := hn
    have hlt : l < u := lt_of_le_of_ne hlu fun e => hn1 l (by rw [e]; exact Icc_self u)
    have hc0 : max l 0 < u := max_lt hlt (hp0.trans_le hp.2)
    have hmem : (max l 0) ^ 2 - 2 * u ∈ {r | ∃ a ∈ Icc l u, ∃ b ∈ Icc l u, r = a ^ 2 - 2 * b} :=
      ⟨_, ⟨le_max_left _ _, hc0.le⟩, u, right_mem_Icc.2 hlu, rfl⟩
    rw [← h] at hmem
    obtain ⟨a, ha, e⟩ := hmem
    have hsq : (max l 0) ^ 2 ≤ a ^ 2 := by
      rcases le_total l 0 with h' | h'
      · rw [max_eq_right h', zero_pow two_ne_zero]; exact sq_nonneg a
      · rw [max_eq_left h']; exact pow_le_pow_left₀ h' ha.1 2
    obtain rfl : a = u := le_antisymm ha.2 (by linarith)
    have : (max l 0) ^ 2 < a ^ 2 := pow_lt_pow_left₀ hc0 (le_max_right _ _) two_ne_zero
    linarith
  · rcases h with ⟨r, h⟩ | h
    · rintro q ⟨a, ha, b, hb, e⟩
      rw [h] at ha hb ⊢
      exact ⟨a, ha, by rw [e, show b = r from hb, show a = r from ha]⟩
    · rintro q ⟨a, ha, b, hb, e⟩
      have hu0 := h u (right_mem_Icc.2 hlu)
      have hcon : IsPreconnected ((fun a : ℝ => a ^ 2 - 2 * a) '' Icc l u) := isPreconnected_Icc.image _ (by fun_prop)
      have hq : q ∈ Icc (u ^ 2 - 2 * u) (l ^ 2 - 2 * l) := by
        rw [e]; constructor <;> nlinarith [ha.1, ha.2, hb.1, hb.2]
      have := hcon.ordConnected.out ⟨u, right_mem_Icc.2 hlu, rfl⟩ ⟨l, left_mem_Icc.2 hlu, rfl⟩ hq
      obtain ⟨c, hc, e⟩ := this
      exact ⟨c, hc, e.symm⟩

end

/-! ## The hypotheses can be met -/

section
/-- `(x + y) / (z * z')` with `z, z' ≥ 1` -/
example := fun fuel => C71_single_use ratEnv rfl rat_exact (rat_modeFree _ fun _ _ _ _ => rfl) piGeneric fuel (x := fun _ => litI 1 2)
  (fun _ => ne_lit) (fun _ => rat_bounded _) (.bin .div (.bin .add (.var 0) (.var 1)) (.bin .mul (.var 2) (.var 3))) rfl (by decide)
  (fun v hv => ⟨⟨trivial, trivial, fun _ _ _ _ => ⟨_, rfl⟩⟩, ⟨trivial, trivial, fun _ _ _ _ => ⟨_, rfl⟩⟩, by
    rintro _ _ ⟨a, b, rfl, rfl, rfl⟩ ⟨c, d, rfl, rfl, rfl⟩
    refine ⟨_, ?_, rfl⟩
    have h2 := hv 2
    have h3 := hv 3
    rw [mem_litI (by decide) (by decide)] at h2 h3
    push_cast at h2 h3
    exact mul_ne_zero (by linarith) (by linarith)⟩)
  ⟨_, fun _ => 1, fun _ => in_lit, _, _, ⟨_, _, rfl, rfl, rfl⟩, ⟨_, _, rfl, rfl, rfl⟩, by norm_num, rfl⟩

example := fun fuel => C71_rewrite ratEnv rfl rat_exact (rat_modeFree _ fun _ _ _ _ => rfl) piGeneric fuel (x := litI 0 2)
  ne_lit (rat_bounded _)
example := C71_sub_self dbl dbl_tight (x := litI 1 2) ne_lit
example := C71_div_self dbl dbl_tight (x := litI 1 2) ne_lit (by rw [mem_litI (by decide) (by decide)]; norm_num)
example := C71_mul_self dbl dbl_tight (x := litI (-1) 2) ne_lit
end
end BI
