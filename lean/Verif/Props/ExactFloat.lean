import Verif.Proofs.ExactFl
/-!
# C70: `rounded_arith_exact` over floating-point types

doc/rounding.htm 147-157: the policy computes without changing the rounding mode; it "is possible to use the exact version for
an inexact base type". What the intervals mean then: they follow plain floating-point arithmetic in the mode of the caller.
-/

namespace BI
open Set

section
variable {f : Fmt} (V : Env (Fl f))

theorem Env.sim_in (hk : V.kind = .exact) (m : RMode) :
    PSim (atMode V.laws m) (atMode V.laws m) V.P (exactArith m V.lib) V.C := by
  have : V.P = barePolicies V.ctl .exact V.lib V.C := by unfold Env.P libPolicies; rw [hk]; rfl
  rw [this]
  exact exactPolicies_sim m V.lib V.C

/-- A formula is evaluated with intervals `x i` while the rounding mode is `m`: the evaluation returns an interval, which is
the same for all control words with this mode and all orders of evaluation, and leaves the control word alone. The interval
contains the values of the formula at the points of the operands if the result of each operation is rounded in the mode `m`;
at points it is no more than this value. -/
theorem C70_formula (hk : V.kind = .exact) (m : RMode) (K : PiConst (Fl f)) (fuel : ℕ) (x : ℕ → Itv (Fl f)) (e : Expr (Fl f))
    (hs : e.arithOnly = true) (hd : ∃ v c, (∀ i, v i ∈ γ (x i)) ∧ e.Rounded (RoundsTo f m) v c) :
    ∃ z, (∀ v c, (∀ i, v i ∈ γ (x i)) → e.Rounded (RoundsTo f m) v c → c ∈ γ z) ∧
      (e.oneValued = true → ∀ v, (∀ i, γ (x i) = {v i}) → ∀ c, e.Rounded (RoundsTo f m) v c → γ z = {c}) ∧
      ∀ s : V.State, V.Valid s → V.ctl.decode s.cw = m →
        (e.eval K fuel V.P x s).1 = .ok z ∧ (e.eval K fuel V.P x s).2.cw = s.cw := by
  obtain ⟨z, h1, h2, h3⟩ := e.eval_in V (V.sim_in hk m) K fuel x hs hd
  exact ⟨z, h1, h2, fun s h h' => ⟨(h3 s ⟨h, h'⟩).1, (h3 s ⟨h, h'⟩).2.1.symm⟩⟩

/-- The same in a block that owns a rounding object (which does nothing) and computes with the unprotected type. -/
theorem C70_region (hk : V.kind = .exact) (m : RMode) (K : PiConst (Fl f)) (fuel : ℕ) (x : ℕ → Itv (Fl f)) (e : Expr (Fl f))
    (hs : e.arithOnly = true) (hd : ∃ v c, (∀ i, v i ∈ γ (x i)) ∧ e.Rounded (RoundsTo f m) v c) :
    ∃ z, (∀ v c, (∀ i, v i ∈ γ (x i)) → e.Rounded (RoundsTo f m) v c → c ∈ γ z) ∧
      (e.oneValued = true → ∀ v, (∀ i, γ (x i) = {v i}) → ∀ c, e.Rounded (RoundsTo f m) v c → γ z = {c}) ∧
      ∀ s : V.State, V.Valid s → V.ctl.decode s.cw = m →
        (V.P.rnd.scope (e.eval K fuel V.P.unprot x) s).1 = .ok z ∧
        (V.P.rnd.scope (e.eval K fuel V.P.unprot x) s).2.cw = s.cw := by
  have hP := V.sim_in hk m
  obtain ⟨z, h1, h2, h3⟩ := e.eval_in V hP.unprot K fuel x hs hd
  have h3 := hP.scope h3
  exact ⟨z, h1, h2, fun s h h' => ⟨(h3 s ⟨h, h'⟩).1, (h3 s ⟨h, h'⟩).2.1.symm⟩⟩

theorem Expr.MachineIn.arith {m : RMode} {ρ : ℕ → Fl f} : ∀ {e : Expr (Fl f)} {t}, e.MachineIn m ρ t →
    e.arithOnly = true ∧ e.oneValued = true := by
  have hh : ∀ {o : BinOp} {a b t : Fl f}, o.plain m a b = some t → (o != .hull) = true := by
    intro o a b t h; cases o <;> first | rfl | cases h
  intro e
  induction e with
  | var i => exact fun _ => ⟨rfl, rfl⟩
  | num c => exact fun _ => ⟨rfl, rfl⟩
  | un o e ih => rintro t ⟨a, h1, -⟩; exact ih h1
  | bin o e₁ e₂ ih₁ ih₂ =>
    rintro t ⟨a, b, h1, h2, h3, -⟩
    simp only [Expr.arithOnly, Expr.oneValued, (ih₁ h1).1, (ih₁ h1).2, (ih₂ h2).1, (ih₂ h2).2, hh h3, Bool.and_self, and_self]
  | binL o a e ih =>
    rintro t ⟨b, -, h1, h2, -⟩
    simp only [Expr.arithOnly, Expr.oneValued, (ih h1).1, (ih h1).2, hh h2, Bool.and_self, and_self]
  | binR o e b ih =>
    rintro t ⟨a, -, h1, h2, -⟩
    simp only [Expr.arithOnly, Expr.oneValued, (ih h1).1, (ih h1).2, hh h2, Bool.and_self, and_self]
  | pow e k ih => exact fun h => h.elim
  | inter e₁ e₂ ih₁ ih₂ => exact fun h => h.elim
  | fn g e ih => exact fun h => h.elim

/-- What a program computes with floating-point numbers `ρ i` in the mode of the caller lies in what it computes with
intervals `x i` that contain the `ρ i`. With the points `ρ i` instead of intervals the results are the same. -/
theorem C70_machine (hk : V.kind = .exact) (K : PiConst (Fl f)) (fuel : ℕ) (x : ℕ → Itv (Fl f)) (ρ : ℕ → Fl f)
    (hρ : ∀ i, ∃ r : ℝ, val (ρ i) = some (r : EReal) ∧ r ∈ γ (x i)) (e : Expr (Fl f)) (t : Fl f) (s : V.State) (hs : V.Valid s)
    (h : e.MachineIn (V.ctl.decode s.cw) ρ t) :
    ∃ z c, (e.eval K fuel V.P x s).1 = .ok z ∧ (e.eval K fuel V.P x s).2.cw = s.cw ∧ val t = some ((c : ℝ) : EReal) ∧ c ∈ γ z ∧
      ((∀ i, ∃ r, γ (x i) = {r}) → γ z = {c}) := by
  choose v hv hx using hρ
  obtain ⟨r, hr, hR⟩ := e.machineIn_rounded (v := v) (fun i r h => EReal.coe_eq_coe_iff.1 (Option.some.inj ((hv i).symm.trans h))) h
  obtain ⟨z, h1, h2, h3⟩ := C70_formula V hk _ K fuel x e h.arith.1 ⟨v, r, hx, hR⟩
  obtain ⟨k1, k2⟩ := h3 s hs rfl
  refine ⟨z, r, k1, k2, hr, h1 v r hx hR, fun hp => h2 h.arith.2 v (fun i => ?_) r hR⟩
  obtain ⟨r', e⟩ := hp i
  have := hx i
  rw [e] at this ⊢
  rw [show v i = r' from this]

end

/-! ## Inclusion of real results is lost -/

/-- Doubles, with a rounding policy that leaves the mode alone. -/
def dblExact : Env (Fl .double) := { dbl with kind := .exact }

/-- Real results may be outside: `[1, 1] / [3, 3]` does not contain the quotient, whatever the mode. -/
theorem C70_no_inclusion (s : dblExact.State) (hs : dblExact.Valid s) :
    ∃ z, (divII dblExact.P (litI 1 1) (litI 3 3) s).1 = .ok z ∧ (1 / 3 : ℝ) ∉ γ z := by
  have h1 : γ (litI 1 1 : Itv (Fl .double)) = {1} := gamma_single (t := (Num.lit 1 : Fl .double)) (by rw [val_one]; rfl)
  have h3 : γ (litI 3 3 : Itv (Fl .double)) = {3} := gamma_single (t := (Num.lit 3 : Fl .double))
    (by simpa using NumLaws.lit (T := Fl .double) 3 (by norm_num))
  obtain ⟨z, hz, -, k⟩ := (BinOp.II_in (m := dblExact.ctl.decode s.cw) dblExact .div (x := litI 1 1) (y := litI 3 3)
    ⟨1, h1 ▸ rfl, 3, h3 ▸ rfl, 1 / 3, by norm_num, rfl⟩).ok_of
  have hsim := BinOp.II_sim (dblExact.sim_in rfl (dblExact.ctl.decode s.cw)) .div (litI 1 1) (litI 3 3) s ⟨hs, rfl⟩
  refine ⟨z, hsim.1.trans hz, ?_⟩
  obtain ⟨c, hc⟩ : ∃ q : ℚ, RoundsTo .double (dblExact.ctl.decode s.cw) (1 / 3) ((q : ℚ) : ℝ) := by
    have e : ((1 / 3 : ℚ) : ℝ) = 1 / 3 := by push_cast; rfl
    unfold RoundsTo
    rw [← e, rnd_cast]
    have hb : ∀ m, ∃ q h, rnd .double m false (1 / 3 : ℚ) = .nz q h := by
      intro m
      have : ∀ m, (match rnd .double m false (1 / 3 : ℚ) with | .nz _ _ => true | _ => false) = true := by
        intro m; cases m <;> decide +kernel
      have := this m
      cases hr : rnd .double m false (1 / 3 : ℚ) <;> rw [hr] at this <;> first | exact ⟨_, _, rfl⟩ | cases this
    obtain ⟨q, h, hq⟩ := hb (dblExact.ctl.decode s.cw)
    exact ⟨q, by rw [hq]; rfl⟩
  rw [k 1 3 h1 h3 (fun _ _ h h' => h.2.trans h'.2.symm) (1 / 3) ⟨by norm_num, rfl⟩ c hc]
  intro h
  have hc' : (c : ℝ) = 1 / 3 := (show (1 / 3 : ℝ) = c from h).symm
  obtain ⟨q, hq, e⟩ : ∃ q : ℚ, Rep .double q ∧ ((c : ℝ) : EReal) = ((q : ℝ) : EReal) := by
    rcases (representable_iff _).1 ⟨_, hc⟩ with h | h | h
    · exact absurd h (EReal.coe_ne_bot _)
    · exact absurd h (EReal.coe_ne_top _)
    · exact h
  have hq3 : q = 1 / 3 := by
    have : (q : ℝ) = ((1 / 3 : ℚ) : ℝ) := by
      rw [← EReal.coe_eq_coe_iff.1 e, hc']; push_cast; rfl
    exact_mod_cast this
  subst hq3
  obtain ⟨n, k, -, -, -, he⟩ := hq
  have : (3 * n : ℚ) * 2 ^ k = 1 := by rw [mul_assoc, ← he]; norm_num
  rcases le_total 0 k with h0 | h0
  · obtain ⟨i, rfl⟩ := Int.eq_ofNat_of_zero_le h0
    have h4 : (3 * n) * 2 ^ i = (1 : ℤ) := by exact_mod_cast this
    have h5 : (3 : ℤ) ∣ 1 := ⟨n * 2 ^ i, by rw [← h4]; ring⟩
    omega
  · obtain ⟨i, hi⟩ := Int.eq_ofNat_of_zero_le (neg_nonneg.2 h0)
    have h4 : (3 * n : ℚ) = 2 ^ i := by
      rw [show k = -(i : ℤ) by omega, zpow_neg, zpow_natCast] at this
      field_simp at this
      linarith
    have h5 : (3 * n : ℤ) = 2 ^ i := by exact_mod_cast h4
    have h6 : (3 : ℤ) ∣ 2 ^ i := ⟨n, h5.symm⟩
    have h7 := (Int.prime_three).dvd_of_dvd_pow h6
    omega

/-! ## The hypotheses can be met -/

section

/-- `x / 3` for `x = [1, 2]`: the plain quotient `1 / 3`, rounded to nearest, is in the result. -/
example (fuel : ℕ) (s : dblExact.State) (hs : dblExact.Valid s) (hn : dblExact.ctl.decode s.cw = .near) :
    ∃ z, ((Expr.binR .div (.var 0) (Num.lit 3)).eval (piDouble .near) fuel dblExact.P (fun _ => litI 1 2) s).1 = .ok z ∧
      ((6004799503160661 / 18014398509481984 : ℚ) : ℝ) ∈ γ z := by
  have e : (Num.lit 1 : Fl .double).div .near (Num.lit 3) = .nz (6004799503160661 / 18014398509481984)
      (by refine ⟨by norm_num, 6004799503160661, -54, ?_, ?_, ?_, ?_⟩ <;> decide +kernel) := by
    decide +kernel
  have h1 : val (Num.lit 1 : Fl .double) = some ((1 : ℝ) : EReal) := by rw [val_one]; rfl
  have h3 : val (Num.lit 3 : Fl .double) = some ((3 : ℝ) : EReal) := by simpa using NumLaws.lit (T := Fl .double) 3 (by norm_num)
  have hm : (Expr.binR .div (.var 0) (Num.lit 3)).MachineIn (dblExact.ctl.decode s.cw) (fun _ => (Num.lit 1 : Fl .double))
      (.div .near (Num.lit 1) (Num.lit 3)) :=
    hn.symm ▸ ⟨Num.lit 1, ⟨3, h3⟩, ⟨rfl, 1, h1⟩, rfl, _, (congrArg val e).trans rfl⟩
  obtain ⟨z, c, k, -, hc, hz, -⟩ := C70_machine dblExact rfl (piDouble .near) fuel (fun _ => litI 1 2) (fun _ => Num.lit 1)
    (fun _ => ⟨1, h1, in_lit⟩) _ _ s hs hm
  rw [e] at hc
  exact ⟨z, k, EReal.coe_eq_coe_iff.1 (Option.some.inj hc) ▸ hz⟩

/-- `|x| + y` at points, upwards. -/
example := fun fuel => C70_formula dblExact rfl .up (piDouble .near) fuel (fun _ => litI 1 1)
  (.bin .add (.un .abs (.var 0)) (.var 1)) rfl
  ⟨fun _ => 1, 2, fun _ => in_lit, 1, 1, 2, ⟨1, 1, rfl, abs_one.symm, RoundsTo.of_val (t := Num.lit 1) (by rw [val_one]; rfl) rfl⟩, rfl, by change (2 : ℝ) = 1 + 1; norm_num, RoundsTo.of_val (t := Num.lit 2) (by simpa using NumLaws.lit (T := Fl .double) 2 (by norm_num)) rfl⟩

/-- There are such states with each mode. -/
example (m : RMode) : ∃ s : dblExact.State, dblExact.Valid s ∧ dblExact.ctl.decode s.cw = m :=
  ⟨⟨⟨m, ()⟩, fun _ => false⟩, trivial, rfl⟩

end
end BI
