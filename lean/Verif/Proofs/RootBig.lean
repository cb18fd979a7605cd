import Verif.Proofs.InstRoot
import Verif.Proofs.ExTri
/-! # `nth_root` with an index that the base type may not represent

The conversion of the index depends on the rounding direction in force, so that the outcome is not a function of the
arguments alone; the statements are triples. -/

set_option linter.unusedSectionVars false

namespace BI
open Set

section
variable {T : Type} [Num T] [Val T] [NumLaws T] {V : Env T} {n : ℕ} {x : T} {X s : ℝ}

/-- Inside a rounding object; no error is allowed. -/
abbrev TriIn (V : Env T) {α : Type} (a : M V.ctl.W α) (Q : α → Prop) : Prop := Tri (inner V.laws V.kind) (fun _ => False) a Q

theorem TriIn.of_ok {α : Type} {a : M V.ctl.W α} {r : Res α} {z : α} (h : Sim (inner V.laws V.kind) a r) (hr : r = .ok z) :
    TriIn V a (· = z) := Tri.of_sim h (by rw [hr]; exact rfl)

theorem cur_unprot {α : Type} (g : RMode → Option α) : V.P.unprot.cur g = V.P.cur g := by
  unfold Env.P libPolicies; cases V.kind <;> rfl

omit [Val T] [NumLaws T] in
theorem scope_unprot (hk : V.kind ≠ .exact) {α : Type} (a : M V.ctl.W α) : V.P.unprot.rnd.scope a = a := by
  unfold Env.P libPolicies
  cases hh : V.kind with
  | exact => exact absurd hh hk
  | std => rfl
  | opp => rfl

theorem rootAux_tri (hk : V.kind ≠ .exact) (hV : V.Tight) (hI : InfBase T) (hM : MidOk T) (hF : Discrete T) (hn : 2 ≤ n)
    (hi : IdxFor T n) (hx : val x = some (X : EReal)) (h1 : 1 ≤ X) (hs : 0 ≤ s) (hX : s ^ n = X) :
    ∃ N, ∀ fuel > N, TriIn V (rootAux V.P.unprot fuel x (n : ℤ)) fun z => ∃ l u, Fin2 z l u ∧ 1 ≤ l ∧ l ≤ s ∧ s ≤ u := by
  have hs1 : 1 ≤ s := by
    by_contra hc
    have := pow_lt_one₀ hs (not_le.1 hc) (by omega : n ≠ 0)
    linarith
  have hy : Fin2 (⟨Num.lit 1, x⟩ : Itv T) 1 X := ⟨val_one, hx⟩
  have hsX : s ≤ X := by rw [← hX]; exact le_self_pow₀ hs1 (by omega)
  refine ⟨(hF 1 X).toFinset.card, fun fuel hf => ?_⟩
  unfold rootAux
  rw [cur_unprot]
  refine (tri_cur (V := V) (Q := fun t => ∃ κ : ℝ, val t = some (κ : EReal) ∧ IdxOk T n κ) fun r => ?_).bind fun t ⟨κ, h2, h3⟩ => ?_
  · obtain ⟨t, κ, h2, h3, h4⟩ := hi r
    exact ⟨t, h2, κ, h3, h4⟩
  · obtain ⟨z, h, l, u, hz, h4, h5, h6, -⟩ := rootLoop_ok hV hI hM hF hn hx h2 h3 hX _ _ 1 X hy le_rfl hs1 hsX le_rfl le_rfl
    refine (TriIn.of_ok (rootLoop_sim (V.simU hk) _ _ _ _ _) (h fuel hf)).mono ?_
    rintro _ rfl
    exact ⟨l, u, hz, h4, h5, h6⟩

/-- The iteration started from an infinite number stops with `[1, +∞]`. -/
def TopTri (V : Env T) (n : ℕ) : Prop := ∀ (t : T) (fuel : ℕ), val t = some (⊤ : EReal) →
  TriIn V (rootAux V.P.unprot (fuel + 1) t (n : ℤ)) (· = ⟨Num.lit 1, t⟩)

theorem rootAuxUp_tri (hk : V.kind ≠ .exact) (hV : V.Tight) (hI : InfBase T) (hM : MidOk T) (hF : Discrete T) (hn : 2 ≤ n)
    (hi : IdxFor T n) {X : EReal} (hx : val x = some X) (h0 : 0 < X) (ht : X ≠ ⊤ ∨ TopTri V n) :
    ∃ N, ∀ fuel > N, TriIn V (rootAuxUp V.P.unprot fuel x (n : ℤ)) fun c => ∃ z : EReal, val c = some z ∧
      ∀ s : ℝ, 0 ≤ s → ((s ^ n : ℝ) : EReal) ≤ X → (s : EReal) ≤ z := by
  have n0 : n ≠ 0 := by omega
  have hU := V.simU hk
  by_cases hX : X = ⊤
  · subst hX
    refine ⟨0, fun fuel hf => ?_⟩
    obtain ⟨fuel, rfl⟩ : ∃ k, fuel = k + 1 := ⟨fuel - 1, by omega⟩
    unfold rootAuxUp
    rw [scope_unprot hk, show Num.lt (Num.lit 1) x = true by rw [lt_eq val_one hx]; exact decide_eq_true (EReal.coe_lt_top 1), if_pos rfl]
    refine (ht.resolve_left (by simp) x fuel hx).bind ?_
    rintro _ rfl
    exact Tri.pure ⟨⊤, hx, fun s _ _ => le_top⟩
  have hb : X ≠ ⊥ := fun h => by rw [h] at h0; cases (not_lt_bot h0)
  lift X to ℝ using ⟨hX, hb⟩
  have h0 : 0 < X := by exact_mod_cast h0
  suffices h : ∃ N, ∀ fuel > N, TriIn V (rootAuxUp V.P.unprot fuel x (n : ℤ)) fun c => ∃ z : ℝ, val c = some (z : EReal) ∧
      ∀ s : ℝ, 0 ≤ s → s ^ n ≤ X → s ≤ z by
    obtain ⟨N, h⟩ := h
    exact ⟨N, fun fuel hf => (h fuel hf).mono fun c ⟨z, h1, h2⟩ =>
      ⟨z, h1, fun s h3 h4 => by exact_mod_cast h2 s h3 (by exact_mod_cast h4)⟩⟩
  unfold rootAuxUp
  simp only [scope_unprot hk, num_lt_one hx, num_eq_one hx, decide_eq_true_eq]
  by_cases h1 : 1 < X
  · simp only [h1, if_true]
    obtain ⟨s, hs, hsX⟩ := exists_root hn h0.le
    obtain ⟨N, h⟩ := rootAux_tri hk hV hI hM hF hn hi hx h1.le hs hsX
    refine ⟨N, fun fuel hf => (h fuel hf).bind fun y ⟨l, u, hy, k1, k2, k3⟩ => Tri.pure ⟨u, hy.2, fun t ht htX => ?_⟩⟩
    rw [← hsX] at htX
    exact ((pow_le_pow_iff_left₀ ht hs n0).1 htX).trans k3
  · simp only [h1, if_false]
    by_cases h2 : X = 1
    · simp only [h2, if_true]
      exact ⟨0, fun fuel hf => Tri.pure ⟨1, val_one, fun t ht htX => (pow_le_one_iff_of_nonneg ht n0).1 htX⟩⟩
    · simp only [h2, if_false]
      have h3 : X < 1 := lt_of_le_of_ne (not_lt.1 h1) h2
      have h4 : 1 ≤ 1 / X := by rw [le_div_iff₀ h0]; linarith
      obtain ⟨c, hc, v, hv, k1, k2⟩ := div_one_down (V := V) hV hx h0 rep_one h4
      obtain ⟨s, hs, hsv⟩ := exists_root hn (by linarith : (0 : ℝ) ≤ v)
      obtain ⟨N, h⟩ := rootAux_tri hk hV hI hM hF hn hi hv k1 hs hsv
      refine ⟨N, fun fuel hf => (TriIn.of_ok (hU.rnd.s_divDown _ _) hc).bind ?_⟩
      rintro _ rfl
      refine (h fuel hf).bind fun y ⟨l, u, hy, k3, k4, k5⟩ => ?_
      obtain ⟨d, hd, z, hz, k6, -⟩ := div_one_up (V := V) hV hy.1 (by linarith) rep_one (by
        rw [div_le_iff₀ (by linarith)]; linarith)
      refine (TriIn.of_ok (hU.rnd.s_divUp _ _) hd).mono ?_
      rintro _ rfl
      refine ⟨z, hz, fun t ht htX => le_trans ?_ k6⟩
      have s0 : 0 < s := by linarith
      refine le_trans ?_ (one_div_le_one_div_of_le (by linarith) k4)
      rw [← pow_le_pow_iff_left₀ ht (by positivity) n0, one_div, inv_pow, hsv]
      refine htX.trans ?_
      rw [le_inv_comm₀ h0 (by linarith), ← one_div]
      exact k2

theorem rootAuxDn_tri (hk : V.kind ≠ .exact) (hV : V.Tight) (hI : InfBase T) (hM : MidOk T) (hF : Discrete T) (hn : 2 ≤ n)
    (hi : IdxFor T n) (hx : val x = some (X : EReal)) (h0 : 0 < X)
    (ht : (∃ m : ℝ, Representable T (m : EReal) ∧ 1 / X ≤ m) ∨ TopTri V n) :
    ∃ N, ∀ fuel > N, TriIn V (rootAuxDn V.P.unprot fuel x (n : ℤ)) fun c => ∃ z : ℝ, val c = some (z : EReal) ∧
      ∀ s : ℝ, 0 ≤ s → X ≤ s ^ n → z ≤ s := by
  have n0 : n ≠ 0 := by omega
  have hU := V.simU hk
  unfold rootAuxDn
  simp only [scope_unprot hk, num_lt_one hx, num_eq_one hx, decide_eq_true_eq]
  by_cases h1 : 1 < X
  · simp only [h1, if_true]
    obtain ⟨s, hs, hsX⟩ := exists_root hn h0.le
    obtain ⟨N, h⟩ := rootAux_tri hk hV hI hM hF hn hi hx h1.le hs hsX
    refine ⟨N, fun fuel hf => (h fuel hf).bind fun y ⟨l, u, hy, k1, k2, k3⟩ => Tri.pure ⟨l, hy.1, fun t ht htX => ?_⟩⟩
    rw [← hsX] at htX
    exact k2.trans ((pow_le_pow_iff_left₀ hs ht n0).1 htX)
  simp only [h1, if_false]
  by_cases h2 : X = 1
  · subst h2
    simp only [if_true]
    exact ⟨0, fun fuel hf => Tri.pure ⟨1, val_one, fun t ht htX => (one_le_pow_iff_of_nonneg ht n0).1 htX⟩⟩
  simp only [h2, if_false]
  have h3 : X < 1 := lt_of_le_of_ne (not_lt.1 h1) h2
  have h4 : 1 ≤ 1 / X := by rw [le_div_iff₀ h0]; linarith
  by_cases hm : ∃ m : ℝ, Representable T (m : EReal) ∧ 1 / X ≤ m
  · obtain ⟨m, hm, hm'⟩ := hm
    obtain ⟨c, hc, v, hv, k1, k2⟩ := div_one_up (V := V) hV hx h0 hm hm'
    obtain ⟨s, hs, hsv⟩ := exists_root hn (by linarith : (0 : ℝ) ≤ v)
    obtain ⟨N, h⟩ := rootAux_tri hk hV hI hM hF hn hi hv (h4.trans k1) hs hsv
    refine ⟨N, fun fuel hf => (TriIn.of_ok (hU.rnd.s_divUp _ _) hc).bind ?_⟩
    rintro _ rfl
    refine (h fuel hf).bind fun y ⟨l, u, hy, k3, k4, k5⟩ => ?_
    have u0 : 0 < u := by linarith
    obtain ⟨d, hd, z, hz, -, k6⟩ := div_one_down (V := V) hV hy.2 u0 (m := 0) ⟨Num.lit 0, val_zero⟩ (by positivity)
    refine (TriIn.of_ok (hU.rnd.s_divDown _ _) hd).mono ?_
    rintro _ rfl
    refine ⟨z, hz, fun t ht htX => k6.trans ?_⟩
    have s0 : 0 < s := by linarith
    refine (one_div_le_one_div_of_le s0 k5).trans ?_
    rw [← pow_le_pow_iff_left₀ (by positivity) ht n0, one_div, inv_pow, hsv]
    refine le_trans ?_ htX
    rw [inv_le_comm₀ (by linarith) h0, ← one_div]
    exact k1
  · have ht := ht.resolve_left hm
    have h0' : (X : EReal) ≠ 0 := by exact_mod_cast h0.ne'
    obtain ⟨v, h2, z, h3, h4⟩ := ((hV.div du_tight).divUp (Num.lit 1) x _ _ val_one hx ⟨h0', .inl ⟨by decide, by decide⟩⟩).total
    have e : (1 : EReal) / X = ((1 / X : ℝ) : EReal) := by rw [EReal.coe_div]; rfl
    rw [e] at h4
    have hz : z = ⊤ := by
      by_contra hz
      have k1 := h4.2.1
      have z2 : z ≠ ⊥ := fun h => by rw [h] at k1; exact absurd (le_bot_iff.1 k1) (EReal.coe_ne_bot _)
      lift z to ℝ using ⟨hz, z2⟩
      exact hm ⟨z, ⟨v, h3⟩, by exact_mod_cast k1⟩
    subst hz
    obtain ⟨d, h5, w, h6, h7⟩ := ((hV.div du_tight).divDown (Num.lit 1) v _ _ val_one h3
      ⟨by simp, .inl ⟨by decide, by decide⟩⟩).total
    have hw : w = 0 := by
      rw [EReal.div_top] at h7
      exact le_antisymm h7.2.1 (h7.2.2 0 ⟨Num.lit 0, val_zero⟩ le_rfl)
    subst hw
    refine ⟨0, fun fuel hf => (TriIn.of_ok (hU.rnd.s_divUp _ _) h2).bind ?_⟩
    obtain ⟨fuel, rfl⟩ : ∃ k, fuel = k + 1 := ⟨fuel - 1, by omega⟩
    rintro _ rfl
    refine (ht _ fuel h3).bind ?_
    rintro _ rfl
    refine (TriIn.of_ok (hU.rnd.s_divDown _ _) h5).mono ?_
    rintro _ rfl
    exact ⟨0, h6, fun s hs _ => hs⟩

theorem negM_tri (hV : V.Tight) {t : T} {v : EReal} (ht : val t = some v) :
    TriIn V (negM t : M V.ctl.W T) fun c => val c = some (-v) := by
  obtain ⟨c, h1, h2⟩ := neg_num hV ht
  refine Tri.lift ?_
  have h1' : ofOpt (Num.neg t) = .ok c := h1
  rw [h1']
  exact h2

theorem nthRoot_tri (hk : V.kind ≠ .exact) (hV : V.Tight) (hI : InfBase T) (hM : MidOk T) (hF : Discrete T) (hn : 1 ≤ n)
    (hi : IdxFor T n) {x : Itv T} {a b : EReal} (hx : Has x a b)
    (ht : (b ≠ ⊤ ∧ (a ≠ ⊥ ∨ Even n) ∧
      ∀ r : ℝ, 0 < r → a = r ∨ (b = -r ∧ Odd n) → ∃ m : ℝ, Representable T (m : EReal) ∧ 1 / r ≤ m) ∨ TopTri V n)
    (he : 0 ≤ b ∨ Odd n) (nd : Bool) (P : Policies (M V.ctl.W) T) (hP1 : P.chk = V.C) (hP2 : P.unprot = V.P.unprot) :
    ∃ N, ∀ fuel > N, TriIn V (nthRoot P nd fuel x (n : ℤ)) (RootOut n (γ x)) := by
  have hb' := hx.ne_bot
  have ha' := hx.ne_top
  have hassert : assertRes nd (decide (0 < (n : ℤ))) = .ok () := by
    rw [decide_eq_true (by omega)]
    cases nd <;> rfl
  have hpar : (decide ((n : ℤ) % 2 = 0)) = decide (Even n) := by
    congr 1
    rw [Nat.even_iff]
    exact propext (by omega)
  have start : (∃ N, ∀ fuel > N, TriIn V (if (n : ℤ) = 1 then pure x
    else if !decide (0 < b) then
      if decide (b = 0) then
        if decide (Even n) || decide (a = 0) then pure ⟨Num.lit 0, Num.lit 0⟩
        else do
          let nl ← negM x.lower
          let r ← rootAuxUp V.P.unprot fuel nl n
          let l ← negM r
          pure ⟨l, Num.lit 0⟩
      else if (n : ℤ) % 2 = 0 then lift (emptyI V.C)
      else do
        let nl ← negM x.lower
        let r ← rootAuxUp V.P.unprot fuel nl n
        let l ← negM r
        let nu ← negM x.upper
        let r' ← rootAuxDn V.P.unprot fuel nu n
        let u ← negM r'
        pure ⟨l, u⟩
    else do
      let u ← rootAuxUp V.P.unprot fuel x.upper n
      if !decide (0 < a) then
        if decide (Even n) || decide (a = 0) then pure ⟨Num.lit 0, u⟩
        else do
          let nl ← negM x.lower
          let r ← rootAuxUp V.P.unprot fuel nl n
          let l ← negM r
          pure ⟨l, u⟩
      else do
        let l ← rootAuxDn V.P.unprot fuel x.lower n
        pure ⟨l, u⟩ : M V.ctl.W (Itv T)) (RootOut n (γ x))) →
      ∃ N, ∀ fuel > N, TriIn V (nthRoot P nd fuel x (n : ℤ)) (RootOut n (γ x)) := by
    rintro ⟨N, h⟩
    refine ⟨N, fun fuel hf => ?_⟩
    unfold nthRoot
    rw [hP1, hP2]
    refine (Tri.lift (r := testI V.C x) (Q := (· = false)) (by rw [hx.test V.chk]; exact rfl)).bind ?_
    rintro _ rfl
    rw [if_neg (by simp), hassert]
    refine (Tri.lift (r := (.ok () : Res Unit)) (Q := fun _ => True) trivial).bind fun _ _ => ?_
    simp only [isPos_eq hx.up, isPos_eq hx.lo, isZero_eq hx.up, isZero_eq hx.lo, hpar]
    exact h fuel hf
  refine start ?_
  by_cases hn1 : n = 1
  · subst hn1
    exact ⟨0, fun fuel hf => Tri.pure fun s _ h => by rwa [pow_one] at h⟩
  have hn2 : 2 ≤ n := by omega
  have n0 : n ≠ 0 := by omega
  have hn1' : (n : ℤ) ≠ 1 := by omega
  simp only [hn1', if_false]
  -- lower bounds of negative roots
  have lower : a < 0 → Odd n → ∃ N, ∀ fuel > N, ∀ {g : T → M V.ctl.W (Itv T)} {Q : Itv T → Prop},
      (∀ l : T, (∃ z : EReal, val l = some z ∧ ∀ s : ℝ, a ≤ ((s ^ n : ℝ) : EReal) → z ≤ (s : EReal)) → TriIn V (g l) Q) →
      TriIn V (do
        let nl ← negM x.lower
        let r ← rootAuxUp V.P.unprot fuel nl (n : ℤ)
        let l ← negM r
        g l) Q := by
    intro h0 ho
    obtain ⟨nl, h1, h2⟩ := neg_num hV hx.lo
    obtain ⟨N, h3⟩ := rootAuxUp_tri hk hV hI hM hF hn2 hi h2 (EReal.neg_pos.2 h0) (by
      rcases ht with ht | ht
      · refine .inl fun h => ?_
        have := ht.2.1.resolve_right (Nat.not_even_iff_odd.2 ho)
        exact this (EReal.neg_eq_top_iff.1 h)
      · exact .inr ht)
    refine ⟨N, fun fuel hf g Q hg => ?_⟩
    have h1' : ofOpt (Num.neg x.lower) = .ok nl := h1
    refine (Tri.lift (r := ofOpt (Num.neg x.lower)) (Q := (· = nl)) (by rw [h1']; exact rfl)).bind ?_
    rintro _ rfl
    refine (h3 fuel hf).bind fun c ⟨z, h4, h5⟩ => (negM_tri hV h4).bind fun l h7 => hg l ⟨-z, h7, fun s hs => ?_⟩
    rw [EReal.neg_le]
    rcases le_total 0 s with hs0 | hs0
    · have h8 := h5 0 le_rfl (by rw [zero_pow n0]; exact (EReal.neg_pos.2 h0).le)
      refine le_trans ?_ h8
      exact_mod_cast neg_nonpos.2 hs0
    · have := h5 (-s) (by linarith) (by rw [ho.neg_pow]; push_cast; rw [EReal.neg_le_neg_iff]; exact_mod_cast hs)
      exact_mod_cast this
  by_cases h0 : (0 : EReal) < b
  · simp only [h0, decide_true, Bool.not_true, Bool.false_eq_true, if_false]
    obtain ⟨N, h1⟩ := rootAuxUp_tri hk hV hI hM hF hn2 hi hx.up h0 (ht.imp_left And.left)
    have upper : ∀ q : EReal, (∀ s : ℝ, 0 ≤ s → ((s ^ n : ℝ) : EReal) ≤ b → (s : EReal) ≤ q) →
        ∀ s : ℝ, s ^ n ∈ γ x → (s : EReal) ≤ q := by
      intro q h2 s hs
      rcases le_total 0 s with hs0 | hs0
      · exact h2 s hs0 (hx.ub hs)
      · refine le_trans (by exact_mod_cast hs0 : (s : EReal) ≤ (0 : ℝ)) (h2 0 le_rfl (by rw [zero_pow n0]; exact h0.le))
    by_cases h3 : (0 : EReal) < a
    · have : a ≠ ⊥ := fun h => by rw [h] at h3; cases (not_lt_bot h3)
      lift a to ℝ using ⟨ha', this⟩
      have h3' : 0 < a := by exact_mod_cast h3
      simp only [h3, decide_true, Bool.not_true, Bool.false_eq_true, if_false]
      obtain ⟨N', k1⟩ := rootAuxDn_tri hk hV hI hM hF hn2 hi hx.lo h3' (ht.imp_left fun ht => ht.2.2 a h3' (.inl rfl))
      refine ⟨max N N', fun fuel hf => (h1 fuel (lt_of_le_of_lt (le_max_left _ _) hf)).bind fun u ⟨q, hq, h2⟩ =>
        (k1 fuel (lt_of_le_of_lt (le_max_right _ _) hf)).bind fun l ⟨p, hp, k2⟩ => Tri.pure fun s hs hsx =>
          ⟨p, q, hp, hq, ?_, upper q h2 s hsx⟩⟩
      have hsx' : a ≤ s ^ n := by exact_mod_cast hx.lb hsx
      have hs0 : 0 ≤ s := by
        rcases hs with ho | hs
        · by_contra hc
          have := ho.pow_neg (not_le.1 hc)
          linarith
        · exact hs
      exact_mod_cast k2 s hs0 hsx'
    · simp only [h3, decide_false, Bool.not_false, if_true]
      by_cases h4 : Even n ∨ a = 0
      · simp only [show (decide (Even n) || decide (a = 0)) = true by simpa using h4, if_true]
        refine ⟨N, fun fuel hf => (h1 fuel hf).bind fun u ⟨q, hq, h2⟩ => Tri.pure fun s hs hsx => ?_⟩
        refine ⟨0, q, val_zero, hq, ?_, upper q h2 s hsx⟩
        have hs0 : 0 ≤ s := by
          rcases hs with ho | hs
          · have h5 : a = 0 := h4.resolve_left (Nat.not_even_iff_odd.2 ho)
            by_contra hc
            have h6 := ho.pow_neg (not_le.1 hc)
            have h7 : (a : EReal) ≤ ((s ^ n : ℝ) : EReal) := hx.lb hsx
            rw [h5] at h7
            exact absurd (by exact_mod_cast h7 : 0 ≤ s ^ n) (not_le.2 h6)
          · exact hs
        exact_mod_cast hs0
      · simp only [show (decide (Even n) || decide (a = 0)) = false by simpa using h4, Bool.false_eq_true, if_false]
        push Not at h4
        have hp0 : a < 0 := lt_of_le_of_ne (not_lt.1 h3) h4.2
        obtain ⟨N', k1⟩ := lower hp0 (Nat.not_even_iff_odd.1 (by simpa using h4.1))
        exact ⟨max N N', fun fuel hf => (h1 fuel (lt_of_le_of_lt (le_max_left _ _) hf)).bind fun u ⟨q, hq, h2⟩ =>
          k1 fuel (lt_of_le_of_lt (le_max_right _ _) hf) fun l ⟨z, hz, k3⟩ =>
            Tri.pure fun s hs hsx => ⟨z, q, hz, hq, k3 s (hx.lb hsx), upper q h2 s hsx⟩⟩
  · simp only [h0, decide_false, Bool.not_false, if_true]
    have hb : b ≠ ⊤ := fun h => by rw [h] at h0; exact h0 (by simp)
    lift b to ℝ using ⟨hb, hb'⟩
    have h0' : b ≤ 0 := not_lt.1 fun h => h0 (by exact_mod_cast h)
    by_cases hb0 : b = 0
    · subst hb0
      simp only [EReal.coe_zero, decide_true, if_true]
      by_cases h4 : Even n ∨ a = 0
      · simp only [show (decide (Even n) || decide (a = 0)) = true by simpa using h4, if_true]
        refine ⟨0, fun fuel hf => Tri.pure fun s hs hsx => ?_⟩
        have h5 : s ^ n ≤ 0 := by exact_mod_cast hx.ub hsx
        have hs0 : s = 0 := by
          rcases hs with ho | hs
          · have h6 : a = 0 := h4.resolve_left (Nat.not_even_iff_odd.2 ho)
            have h7 : (a : EReal) ≤ ((s ^ n : ℝ) : EReal) := hx.lb hsx
            rw [h6] at h7
            have h8 : 0 ≤ s ^ n := by exact_mod_cast h7
            exact pow_eq_zero_iff n0 |>.1 (le_antisymm h5 h8)
          · exact pow_eq_zero_iff n0 |>.1 (le_antisymm h5 (by positivity))
        exact ⟨0, 0, val_zero, val_zero, by rw [hs0]; exact le_rfl, by rw [hs0]; exact le_rfl⟩
      · simp only [show (decide (Even n) || decide (a = 0)) = false by simpa using h4, Bool.false_eq_true, if_false]
        push Not at h4
        have ho := Nat.not_even_iff_odd.1 (by simpa using h4.1)
        have hp0 : a < 0 := lt_of_le_of_ne hx.le h4.2
        obtain ⟨N', k1⟩ := lower hp0 ho
        refine ⟨N', fun fuel hf => k1 fuel hf fun l ⟨z, hz, k3⟩ => Tri.pure fun s hs hsx =>
          ⟨z, 0, hz, val_zero, k3 s (hx.lb hsx), ?_⟩⟩
        have h5 : s ^ n ≤ 0 := by exact_mod_cast hx.ub hsx
        have : s ≤ 0 := by
          by_contra hc
          have := pow_pos (not_le.1 hc) n
          linarith
        exact_mod_cast this
    · have hb1 : b < 0 := lt_of_le_of_ne h0' hb0
      have ho : Odd n := he.resolve_left (not_le.2 (by exact_mod_cast hb1))
      have hne : ¬ Even n := Nat.not_even_iff_odd.2 ho
      have hb0' : (b : EReal) ≠ 0 := by exact_mod_cast hb0
      have hne' : ¬ (n : ℤ) % 2 = 0 := fun h => hne (Nat.even_iff.2 (by omega))
      simp only [hb0', decide_false, Bool.false_eq_true, if_false, hne']
      have hp0 : a < 0 := lt_of_le_of_lt hx.le (by exact_mod_cast hb1)
      obtain ⟨N, k1⟩ := lower hp0 ho
      obtain ⟨nu, j1, j2⟩ := neg_num hV hx.up
      have j1' : ofOpt (Num.neg x.upper) = .ok nu := j1
      rw [← EReal.coe_neg] at j2
      obtain ⟨N', j3⟩ := rootAuxDn_tri hk hV hI hM hF hn2 hi j2 (by linarith)
        (ht.imp_left fun ht => ht.2.2 (-b) (by linarith) (.inr ⟨by simp, ho⟩))
      refine ⟨max N N', fun fuel hf => k1 fuel (lt_of_le_of_lt (le_max_left _ _) hf) fun l ⟨z, hz, k3⟩ => ?_⟩
      refine (Tri.lift (r := ofOpt (Num.neg x.upper)) (Q := (· = nu)) (by rw [j1']; exact rfl)).bind ?_
      rintro _ rfl
      refine (j3 fuel (lt_of_le_of_lt (le_max_right _ _) hf)).bind fun c ⟨w, hw, j4⟩ => ?_
      refine (negM_tri hV hw).bind fun u j6 => Tri.pure fun s hs hsx => ⟨z, -w, hz, j6, k3 s (hx.lb hsx), ?_⟩
      have h5 : s ^ n ≤ b := by exact_mod_cast hx.ub hsx
      have hs0 : s ≤ 0 := by
        by_contra hc
        have := pow_pos (not_le.1 hc) n
        linarith
      have := j4 (-s) (by linarith) (by rw [ho.neg_pow]; linarith)
      have : s ≤ -w := by linarith
      exact_mod_cast this

end

/-! ## Floating-point formats -/

section
variable {f : Fmt} {n : ℕ}

/-- Two values are at least a factor `1 + 2^-p` apart. -/
theorem fl_gap {a b : ℝ} (h0 : 0 < a) (h : a < b) (ha : Representable (Fl f) (a : EReal)) (hb : Representable (Fl f) (b : EReal)) :
    a * (1 + (2 ^ f.p)⁻¹) ≤ b := by
  have num : ∀ {r : ℝ}, Representable (Fl f) (r : EReal) → ∃ m e : ℤ, |m| < 2 ^ f.p ∧ r = m * (2 : ℝ) ^ e := by
    intro r hr
    rcases (representable_iff (f := f) _).1 hr with h | h | ⟨q, ⟨m, e, h1, h2, h3, rfl⟩, h⟩
    · exact absurd h (EReal.coe_ne_bot _)
    · exact absurd h (EReal.coe_ne_top _)
    · refine ⟨m, e, h1, ?_⟩
      have := EReal.coe_eq_coe_iff.1 h
      rw [this]; push_cast; rfl
  obtain ⟨m, e, hm, rfl⟩ := num ha
  obtain ⟨m', e', hm', rfl⟩ := num hb
  have hp : (0 : ℝ) < 2 ^ f.p := by positivity
  have e0 : (0 : ℝ) < 2 ^ e := two_zpow_pos _
  have e0' : (0 : ℝ) < 2 ^ e' := two_zpow_pos _
  rw [mul_add, mul_one, ← div_eq_mul_inv]
  suffices h : ∃ d : ℤ, (m * (2 : ℝ) ^ e) < 2 ^ f.p * 2 ^ d ∧ (m : ℝ) * 2 ^ e + 2 ^ d ≤ m' * 2 ^ e' by
    obtain ⟨d, h1, h2⟩ := h
    have : (m : ℝ) * 2 ^ e / 2 ^ f.p ≤ 2 ^ d := by rw [div_le_iff₀ hp, mul_comm (2 ^ d : ℝ)]; exact h1.le
    linarith
  rcases le_total e e' with he | he
  · obtain ⟨k, rfl⟩ := Int.le.dest he
    refine ⟨e, mul_lt_mul_of_pos_right (by exact_mod_cast lt_of_abs_lt hm) e0, ?_⟩
    have h1 : (m' : ℝ) * 2 ^ (e + (k : ℤ)) = ((m' * 2 ^ k : ℤ) : ℝ) * 2 ^ e := by
      rw [zpow_add₀ two_ne_zero, zpow_natCast]; push_cast; ring
    rw [h1] at h ⊢
    have h2 : m < m' * 2 ^ k := by exact_mod_cast lt_of_mul_lt_mul_right h e0.le
    have h3 : (m : ℝ) + 1 ≤ ((m' * 2 ^ k : ℤ) : ℝ) := by exact_mod_cast h2
    nlinarith
  · obtain ⟨k, rfl⟩ := Int.le.dest he
    have h1 : (m : ℝ) * 2 ^ (e' + (k : ℤ)) = ((m * 2 ^ k : ℤ) : ℝ) * 2 ^ e' := by
      rw [zpow_add₀ two_ne_zero, zpow_natCast]; push_cast; ring
    rw [h1] at h ⊢
    refine ⟨e', h.trans (mul_lt_mul_of_pos_right (by exact_mod_cast lt_of_abs_lt hm') e0'), ?_⟩
    have h2 : m * 2 ^ k < m' := by exact_mod_cast lt_of_mul_lt_mul_right h e0'.le
    have h3 : ((m * 2 ^ k : ℤ) : ℝ) + 1 ≤ (m' : ℝ) := by exact_mod_cast h2
    nlinarith

theorem fl_idxFor (hp : 4 ≤ f.p) (hn : (n : ℚ) ≤ maxFin f) : IdxFor (Fl f) n := by
  intro r
  by_cases hs : (n : ℤ) < 2 ^ f.p
  · have : Rep f ((n : ℤ) : ℚ) := rep_int (by rw [abs_of_nonneg (by omega)]; exact hs)
    have hi := intIs_fl this
    exact ⟨_, _, hi.1 r, hi.2, .inl (by simp)⟩
  · rw [not_lt] at hs
    have hs' : 2 ^ f.p ≤ n := by exact_mod_cast hs
    have p16 : 16 ≤ 2 ^ f.p := by
      calc 16 = 2 ^ 4 := by norm_num
        _ ≤ 2 ^ f.p := Nat.pow_le_pow_right (by norm_num) hp
    have n16 : 16 ≤ n := p16.trans hs'
    have n0 : (0 : ℝ) < n := by exact_mod_cast (by omega : 0 < n)
    have nR : (2 : ℝ) ^ f.p ≤ n := by exact_mod_cast hs'
    have n0q : (n : ℚ) ≠ 0 := by exact_mod_cast (by omega : n ≠ 0)
    have hmin := f.hmin
    have hlog : (f.p : ℤ) ≤ Int.log 2 |(n : ℝ)| := by
      rw [abs_of_pos n0, ← Int.zpow_le_iff_le_log (by norm_num) n0, zpow_natCast]
      exact_mod_cast hs'
    have hu : f.emin < ulpExp f (n : ℝ) := by
      unfold ulpExp
      exact lt_of_lt_of_le (by omega) (le_max_right _ _)
    have h1 := ulp_le_abs f n0.ne' hu
    have e0 : (0 : ℝ) < 2 ^ ulpExp f (n : ℝ) := two_zpow_pos _
    rw [abs_of_pos (div_pos n0 e0), le_div_iff₀ e0] at h1
    have h8 : (8 : ℝ) ≤ ((2 ^ (f.p - 1) : ℤ) : ℝ) := by
      push_cast
      calc (8 : ℝ) = 2 ^ 3 := by norm_num
        _ ≤ 2 ^ (f.p - 1) := pow_le_pow_right₀ (by norm_num) (by omega)
    have h2 : 8 * (2 : ℝ) ^ ulpExp f (n : ℝ) ≤ n := le_trans (mul_le_mul_of_nonneg_right h8 e0.le) h1
    have h3 : (roundUnb f .down (n : ℝ) : ℝ) ≥ n - 2 ^ ulpExp f (n : ℝ) := by
      unfold roundUnb roundInt
      push_cast
      have := Int.lt_floor_add_one ((n : ℝ) / 2 ^ ulpExp f (n : ℝ))
      rw [div_lt_iff₀ e0] at this
      linarith
    have h4 : (roundUnb f .up (n : ℝ) : ℝ) ≤ n + 2 ^ ulpExp f (n : ℝ) := by
      unfold roundUnb roundInt
      push_cast
      have := Int.ceil_lt_add_one ((n : ℝ) / 2 ^ ulpExp f (n : ℝ))
      have h5 := mul_lt_mul_of_pos_right this e0
      rw [add_mul, div_mul_cancel₀ _ e0.ne'] at h5
      linarith
    have h5 : (7 / 8 : ℝ) * n ≤ roundUnb f r (n : ℝ) ∧ (roundUnb f r (n : ℝ) : ℝ) ≤ 9 / 8 * n := by
      have h6 := roundUnb_down_le (f := f) (n : ℝ)
      have h7 := roundUnb_up_ge (f := f) (n : ℝ)
      rcases roundUnb_or (f := f) r (n : ℝ) with h | h <;> rw [h] <;> constructor <;> linarith
    have h6 : roundUnb f r (n : ℝ) ≤ maxFin f := roundUnb_le r n0.ne' (rep_maxFin f) (by exact_mod_cast hn)
    have hq : roundUnb f r (n : ℝ) = roundUnb f r (n : ℚ) := by
      have := roundUnb_cast (f := f) r n0q
      rwa [Rat.cast_natCast] at this
    rw [hq] at h5 h6
    have h7 : 0 < roundUnb f r (n : ℚ) := by
      have : (0 : ℝ) < (roundUnb f r (n : ℚ) : ℝ) := lt_of_lt_of_le (by positivity) h5.1
      exact_mod_cast this
    have h9 : -maxFin f ≤ roundUnb f r (n : ℚ) := by linarith [maxFin_pos f]
    refine ⟨.nz (roundUnb f r (n : ℚ)) ⟨h7.ne', rep_roundUnb f r _ h6 h9⟩, roundUnb f r (n : ℚ), ?_, rfl, .inr
      ⟨n16, h5.1, h5.2, (2 ^ f.p)⁻¹, by positivity, inv_le_one_of_one_le₀ (one_le_pow₀ (by norm_num)), ?_, fun a b => fl_gap⟩⟩
    · change some (rnd f r false (((n : ℤ) : ℚ))) = _
      rw [Int.cast_natCast]
      unfold rnd
      rw [if_neg n0q, dif_neg h7.ne', dif_pos h6, dif_pos h9]
    · rw [← div_eq_mul_inv, le_div_iff₀ (by positivity), one_mul]
      exact nR

theorem fl_topTri {V : Env (Fl f)} (hk : V.kind ≠ .exact) (hB : V.Blind) (hn : 2 ≤ n) (hi : IdxFor (Fl f) n) : TopTri V n := by
  intro t fuel h
  have : t = .inf false := by
    cases t with
    | nan => cases h
    | inf s => cases s with
      | false => rfl
      | true => exact absurd (Option.some.inj h) (by simp)
    | zero s => exact absurd (Option.some.inj h) (by simp)
    | nz q hq => exact absurd (Option.some.inj h) (EReal.coe_ne_top _)
  subst this
  unfold rootAux
  rw [cur_unprot]
  refine (tri_cur (V := V) (Q := fun t => ∃ κ : ℝ, val t = some (κ : EReal) ∧ 0 < κ) fun r => ?_).bind fun tk ⟨κ, h2, h3⟩ => ?_
  · obtain ⟨t, κ, h2, h3, h4⟩ := hi r
    have n0 : (0 : ℝ) < n := by exact_mod_cast (by omega : 0 < n)
    exact ⟨t, h2, κ, h3, by rcases h4 with h | ⟨-, h, -⟩ <;> linarith⟩
  refine TriIn.of_ok (rootLoop_sim (V.simU hk) _ _ _ _ _) ?_
  change rootLoop V.pp tk (.inf false) (n : ℤ) (fuel + 1) ⟨Num.lit 1, .inf false⟩ = _
  unfold rootLoop
  rw [rootStep_inf hk hB hn h3 h2]
  obtain ⟨g1, e1⟩ := fl_one (f := f)
  have he : equal V.C V.C (⟨Num.lit 1, .inf false⟩ : Itv (Fl f)) ⟨Num.lit 1, .inf false⟩ = .ok true := by
    have h1 : ∀ x : Itv (Fl f), isEmptyI V.C x = .ok false := fun x => hB.1 _ _
    have h2 : Num.eq (Num.lit 1 : Fl f) (Num.lit 1) = true := (NumLaws.eq_iff _ _).2 ⟨_, val_one, val_one⟩
    unfold equal
    rw [res_if_false' (h1 _), res_if_false' (h1 _), h2]
    rfl
  change ((lift (equal V.C V.C (⟨Num.lit 1, .inf false⟩ : Itv (Fl f)) ⟨Num.lit 1, .inf false⟩) : Res Bool) >>= _) = _
  rw [he]
  rfl
end

end BI
