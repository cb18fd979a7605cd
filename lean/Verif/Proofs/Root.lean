import Mathlib.Analysis.Calculus.Deriv.MeanValue
import Mathlib.Analysis.Calculus.Deriv.Pow
import Mathlib.Analysis.SpecialFunctions.Pow.Real
import Verif.Proofs.EnclPow
import Verif.Proofs.EnclUtil
import Verif.Proofs.Bridge
import Verif.Spec.Root
import Verif.Proofs.RootMath
import Verif.Proofs.Conv
/-! # `nth_root` -/

set_option linter.unusedSectionVars false

namespace BI
open Set

section
variable {T : Type} [Num T] [Val T] [NumLaws T] {V : Env T} {D U : EReal → EReal → Prop}

/-- An interval with finite bounds. -/
def Fin2 (y : Itv T) (l u : ℝ) : Prop := val y.lower = some (l : EReal) ∧ val y.upper = some (u : EReal)

theorem Fin2.has {y : Itv T} {l u : ℝ} (h : Fin2 y l u) (hl : l ≤ u) : Has y (l : EReal) (u : EReal) :=
  ⟨h.1, h.2, EReal.coe_ne_top _, EReal.coe_ne_bot _, by exact_mod_cast hl⟩

theorem mean_value (n : ℕ) (hn : 2 ≤ n) {s t l u : ℝ} (hl : 1 ≤ l) (hs : l ≤ s ∧ s ≤ u) (ht : l ≤ t ∧ t ≤ u) :
    ∃ q, l ≤ q ∧ q ≤ u ∧ s = t - (t ^ n - s ^ n) / (n * q ^ (n - 1)) := by
  have key : ∀ {s t : ℝ}, l ≤ s → t ≤ u → s < t → ∃ q, s < q ∧ q < t ∧ (t ^ n - s ^ n) = n * q ^ (n - 1) * (t - s) := by
    intro s t h1 h2 h
    obtain ⟨c, hc, he⟩ := exists_deriv_eq_slope (fun x : ℝ => x ^ n) h (continuous_pow n).continuousOn
      (differentiable_pow n).differentiableOn
    rw [deriv_pow_field, eq_div_iff (by linarith)] at he
    exact ⟨c, hc.1, hc.2, he.symm⟩
  have n0 : (0 : ℝ) < n := by exact_mod_cast (by omega : 0 < n)
  rcases lt_trichotomy s t with h | h | h
  · obtain ⟨q, h1, h2, h3⟩ := key hs.1 ht.2 h
    have : 0 < (n : ℝ) * q ^ (n - 1) := mul_pos n0 (pow_pos (by linarith) _)
    refine ⟨q, by linarith, by linarith, ?_⟩
    rw [h3, mul_div_cancel_left₀ _ this.ne']; ring
  · exact ⟨s, hs.1, hs.2, by rw [h]; simp⟩
  · obtain ⟨q, h1, h2, h3⟩ := key ht.1 hs.2 h
    have : 0 < (n : ℝ) * q ^ (n - 1) := mul_pos n0 (pow_pos (by linarith) _)
    refine ⟨q, by linarith, by linarith, ?_⟩
    rw [show t ^ n - s ^ n = -(n * q ^ (n - 1) * (s - t)) by rw [← h3]; ring]
    rw [neg_div, mul_div_cancel_left₀ _ this.ne']; ring

variable {n : ℕ} {tk x : T} {X s κ : ℝ}

theorem rootStep_post (hV : V.Tight) (hI : InfBase T) (hM : MidOk T) (hn : 2 ≤ n) (hx : val x = some (X : EReal))
    (ht : val tk = some (κ : EReal)) (hκ : IdxOk T n κ) (hX : s ^ n = X) {y : Itv T} {l u : ℝ} (hy : Fin2 y l u)
    (hl : 1 ≤ l) (hls : l ≤ s) (hsu : s ≤ u) (huX : u ≤ X) :
    Post True (rootStep V.pp tk x (n : ℤ) y) fun z => ∃ l' u', Fin2 z l' u' ∧ l ≤ l' ∧ l' ≤ s ∧ s ≤ u' ∧ u' ≤ u := by
  have hS := hV.signed
  have hA := hS.dir du_signed
  have hD := hS.div du_signed
  have iy := hy.has (hls.trans hsu)
  have n0 : (0 : ℝ) < n := by exact_mod_cast (by omega : 0 < n)
  have hsq : l ^ 2 ≤ X := by
    rw [← hX]
    calc l ^ 2 ≤ s ^ 2 := by nlinarith
      _ ≤ s ^ n := pow_le_pow_right₀ (by linarith) hn
  obtain ⟨m, z, h1, h2, h3, h4⟩ := hM y.lower y.upper x l u X hy.1 hy.2 hx hl (hls.trans hsu) huX hsq
  have hmed : median V.pp y = .ok m := by
    unfold median
    rw [pure_chk, res_if_false (iy.test V.chk), pure_scope, pure_rnd]
    have : V.B.median y.lower y.upper = ofOpt (halfSum .near y.lower y.upper) := by
      unfold Env.B
      cases V.kind <;> rfl
    rw [this, h1]; rfl
  have im : Has (⟨m, m⟩ : Itv T) z z := has_single h2
  unfold rootStep
  rw [hmed]
  change Post True (powI V.pp ⟨m, m⟩ n >>= _) _
  refine (powI_post hA hD V.chk im (by unfold intMin; omega) (fun h => by omega) (fun h => by omega)).bind fun p hp => ?_
  have hp1 : z ^ n ∈ γ p := by
    have := hp z (by rw [gamma_single h2]; rfl) (fun h => by omega)
    rwa [zpow_natCast] at this
  obtain ⟨_, _, ip⟩ := has_of_mem hp1
  refine (subIT_post hA.op V.chk hx ip).bind fun num hnum => ?_
  have hnum1 : z ^ n - X ∈ γ num := hnum.encl hA.D_le hA.U_ge ⟨_, hp1, X, rfl, rfl⟩
  obtain ⟨_, _, inum⟩ := has_of_mem hnum1
  refine (powI_post hA hD V.chk iy (by unfold intMin; omega) (fun h => by omega) (fun h => by omega)).bind fun q hq => ?_
  have hq1 : ∀ t, l ≤ t → t ≤ u → t ^ (n - 1) ∈ γ q := by
    intro t h h'
    have := hq t (by rw [iy.gamma_Icc]; exact ⟨h, h'⟩) (fun h => by omega)
    rwa [show (n : ℤ) - 1 = ((n - 1 : ℕ) : ℤ) by omega, zpow_natCast] at this
  obtain ⟨_, _, iq⟩ := has_of_mem (hq1 s hls hsu)
  refine (mulTI_post hA.op V.chk ht iq).bind fun den hden => ?_
  have hden1 : ∀ t, l ≤ t → t ≤ u → κ * t ^ (n - 1) ∈ γ den := fun t h h' =>
    hden.encl hA.D_le hA.U_ge ⟨_, rfl, _, hq1 t h h', rfl⟩
  obtain ⟨c, d, iden⟩ := has_of_mem (hden1 s hls hsu)
  have κ0 : 0 < κ := by rcases hκ with h | ⟨-, h, -⟩ <;> linarith
  have hpos : ∀ t, l ≤ t → 0 < κ * t ^ (n - 1) := fun t h => mul_pos κ0 (pow_pos (by linarith) _)
  have hne : ¬ (c = 0 ∧ d = 0) := by
    rintro ⟨rfl, rfl⟩
    have h5 := iden.ub (hden1 s hls hsu)
    have h6 : κ * s ^ (n - 1) ≤ 0 := by exact_mod_cast h5
    exact absurd (hpos s hls) (not_lt.2 h6)
  refine (divII_encl hA hD (V.infLaws hI) V.chk inum iden hne).bind fun dd hdd => ?_
  have hdd1 : ∀ t, l ≤ t → t ≤ u → (z ^ n - X) / (κ * t ^ (n - 1)) ∈ γ dd := fun t h h' =>
    hdd ⟨_, hnum1, _, hden1 t h h', (hpos t h).ne', rfl⟩
  obtain ⟨_, _, idd⟩ := has_of_mem (hdd1 s hls hsu)
  refine (subTI_post hA.op V.chk h2 idd).bind fun w hw => ?_
  have hw0 : ∀ t, l ≤ t → t ≤ u → z - (z ^ n - s ^ n) / (κ * t ^ (n - 1)) ∈ γ w := fun t h h' => by
    rw [hX]
    exact hw.encl hA.D_le hA.U_ge ⟨_, rfl, _, hdd1 t h h', rfl⟩
  obtain ⟨e, f, iw⟩ := has_of_mem (hw0 s hls hsu)
  have hw1 : s ∈ γ w := by
    rcases hκ with rfl | ⟨n16, c1, c2, η, e1, e2, e3, gap⟩
    · obtain ⟨ξ, k1, k2, k3⟩ := mean_value n hn hl ⟨hls, hsu⟩ ⟨h3, h4⟩
      rw [k3]; exact hw0 ξ k1 k2
    · have rl : Representable T (l : EReal) := ⟨_, hy.1⟩
      have ru : Representable T (u : EReal) := ⟨_, hy.2⟩
      have rz : Representable T (z : EReal) := ⟨_, h2⟩
      obtain ⟨o1, o2⟩ := newton_out (e := e) (f := f) n16 hl hls hsu h3 h4 e1 e2 e3 c1 c2 (fun h => gap _ _ (by linarith) h rl rz)
        (fun h => gap _ _ (by linarith) h rz ru) (fun h => by
          rcases eq_or_ne f ⊤ with rfl | f1
          · exact le_top
          · lift f to ℝ using ⟨f1, fun h' => by rw [h'] at h; exact not_lt_bot h⟩
            exact_mod_cast gap _ _ (by linarith) (by exact_mod_cast h) rl ⟨_, iw.up⟩)
        (fun t ht h => by
          subst ht
          rcases le_or_gt t 0 with h0 | h0
          · nlinarith
          · exact gap _ _ h0 h ⟨_, iw.up⟩ ru)
        (fun t h h' => iw.lb (hw0 t h h')) (fun t h h' => iw.ub (hw0 t h h'))
      exact ⟨e, f, iw.lo, iw.up, o1, o2⟩
  have hes := iw.lb hw1
  have hfs := iw.ub hw1
  rw [pure_chk]
  have h5 := val_stdMax iy.lo iw.lo
  have h6 := val_stdMin iy.up iw.up
  have hle : max (l : EReal) e ≤ s := max_le (by exact_mod_cast hls) hes
  have hge : (s : EReal) ≤ min (u : EReal) f := le_min (by exact_mod_cast hsu) hfs
  have hmin : min (u : EReal) f ≤ u := min_le_left _ _
  have hmax : (l : EReal) ≤ max (l : EReal) e := le_max_left _ _
  have hres : (lift (intersect V.C y w) : Res (Itv T)) = .ok ⟨stdMax y.lower w.lower, stdMin y.upper w.upper⟩ := by
    unfold intersect
    rw [iy.test2 V.chk iw]
    change (if Num.le (stdMax y.lower w.lower) (stdMin y.upper w.upper) = true then _ else _) = _
    rw [le_eq h5 h6, if_pos (by simpa only [decide_eq_true_eq] using hle.trans hge)]
    rfl
  rw [hres]
  generalize max (l : EReal) e = L at *
  generalize min (u : EReal) f = R at *
  have L1 : L ≠ ⊤ := fun h => by rw [h] at hle; exact absurd (top_le_iff.1 hle) (EReal.coe_ne_top _)
  have L2 : L ≠ ⊥ := fun h => by rw [h] at hmax; exact absurd (le_bot_iff.1 hmax) (EReal.coe_ne_bot _)
  have R1 : R ≠ ⊤ := fun h => by rw [h] at hmin; exact absurd (top_le_iff.1 hmin) (EReal.coe_ne_top _)
  have R2 : R ≠ ⊥ := fun h => by rw [h] at hge; exact absurd (le_bot_iff.1 hge) (EReal.coe_ne_bot _)
  lift L to ℝ using ⟨L1, L2⟩
  lift R to ℝ using ⟨R1, R2⟩
  exact ⟨L, R, ⟨h5, h6⟩, by exact_mod_cast hmax, by exact_mod_cast hle, by exact_mod_cast hge, by exact_mod_cast hmin⟩

theorem equal_fin {y z : Itv T} {l u l' u' : ℝ} (hy : Fin2 y l u) (hl : l ≤ u) (hz : Fin2 z l' u') (hl' : l' ≤ u') :
    equal V.C V.C y z = .ok (decide (l = l' ∧ u = u')) := by
  unfold equal isEmptyI
  rw [(hy.has hl).test V.chk, (hz.has hl').test V.chk]
  have e1 : Num.eq y.lower z.lower = decide (l = l') := by
    rw [Bool.eq_iff_iff, NumLaws.eq_iff]
    constructor
    · rintro ⟨x, h1, h2⟩
      rw [hy.1] at h1; cases h1; rw [hz.1] at h2; cases h2; simp
    · intro h
      rw [decide_eq_true_eq] at h
      exact ⟨_, hy.1, by rw [h]; exact hz.1⟩
  have e2 : Num.eq y.upper z.upper = decide (u = u') := by
    rw [Bool.eq_iff_iff, NumLaws.eq_iff]
    constructor
    · rintro ⟨x, h1, h2⟩
      rw [hy.2] at h1; cases h1; rw [hz.2] at h2; cases h2; simp
    · intro h
      rw [decide_eq_true_eq] at h
      exact ⟨_, hy.2, by rw [h]; exact hz.2⟩
  change Except.ok (Num.eq y.lower z.lower && Num.eq y.upper z.upper) = _
  rw [e1, e2, Bool.decide_and]

/-- The loop ends, with an interval that still contains the root. -/
theorem rootLoop_ok (hV : V.Tight) (hI : InfBase T) (hM : MidOk T) (hF : Discrete T) (hn : 2 ≤ n) (hx : val x = some (X : EReal))
    (ht : val tk = some (κ : EReal)) (hκ : IdxOk T n κ) (hX : s ^ n = X) (N : ℕ) : ∀ (y : Itv T) (l u : ℝ), Fin2 y l u →
    1 ≤ l → l ≤ s → s ≤ u → u ≤ X → (hF l u).toFinset.card ≤ N →
    ∃ z, (∀ fuel > N, rootLoop V.pp tk x (n : ℤ) fuel y = .ok z) ∧ ∃ l' u', Fin2 z l' u' ∧ 1 ≤ l' ∧ l' ≤ s ∧ s ≤ u' ∧ u' ≤ X := by
  induction N with
  | zero =>
    intro y l u hy hl hls hsu huX hc
    have : l ∈ (hF l u).toFinset := (hF l u).mem_toFinset.2 ⟨le_rfl, hls.trans hsu, _, hy.1⟩
    rw [Nat.le_zero, Finset.card_eq_zero] at hc
    rw [hc] at this; cases this
  | succ N ih =>
    intro y l u hy hl hls hsu huX hc
    obtain ⟨yy, h1, l', u', hz, h2, h3, h4, h5⟩ := (rootStep_post hV hI hM hn hx ht hκ hX hy hl hls hsu huX).total
    have he := equal_fin (V := V) hy (hls.trans hsu) hz (h3.trans h4)
    by_cases h : l = l' ∧ u = u'
    · refine ⟨y, fun fuel hf => ?_, l, u, hy, hl, hls, hsu, huX⟩
      obtain ⟨fuel, rfl⟩ : ∃ k, fuel = k + 1 := ⟨fuel - 1, by omega⟩
      unfold rootLoop
      rw [h1]
      change ((lift (equal V.C V.C y yy) : Res Bool) >>= _) = _
      rw [he, decide_eq_true h]
      rfl
    · have hlt : (hF l' u').toFinset.card < (hF l u).toFinset.card := by
        apply Finset.card_lt_card
        refine ⟨fun r hr => ?_, fun hsub => ?_⟩
        · rw [Set.Finite.mem_toFinset] at hr ⊢
          exact ⟨h2.trans hr.1, hr.2.1.trans h5, hr.2.2⟩
        · rcases not_and_or.1 h with h | h
          · have := hsub ((hF l u).mem_toFinset.2 ⟨le_rfl, hls.trans hsu, _, hy.1⟩)
            rw [Set.Finite.mem_toFinset] at this
            exact h (le_antisymm h2 this.1)
          · have := hsub ((hF l u).mem_toFinset.2 ⟨hls.trans hsu, le_rfl, _, hy.2⟩)
            rw [Set.Finite.mem_toFinset] at this
            exact h (le_antisymm this.2.1 h5)
      obtain ⟨z, k1, k2⟩ := ih yy l' u' hz (hl.trans h2) h3 h4 (h5.trans huX) (by omega)
      refine ⟨z, fun fuel hf => ?_, k2⟩
      obtain ⟨fuel, rfl⟩ : ∃ k, fuel = k + 1 := ⟨fuel - 1, by omega⟩
      unfold rootLoop
      rw [h1]
      change ((lift (equal V.C V.C y yy) : Res Bool) >>= _) = _
      rw [he, decide_eq_false h]
      exact k1 fuel (by omega)

theorem rootAux_ok (hV : V.Tight) (hI : InfBase T) (hM : MidOk T) (hF : Discrete T) (hn : 2 ≤ n) (hk : IntIs (n : ℤ) tk)
    (hx : val x = some (X : EReal)) (h1 : 1 ≤ X) (hs : 0 ≤ s) (hX : s ^ n = X) :
    ∃ z N, (∀ fuel > N, rootAux V.pp fuel x (n : ℤ) = .ok z) ∧ ∃ l u, Fin2 z l u ∧ 1 ≤ l ∧ l ≤ s ∧ s ≤ u := by
  obtain ⟨ht, ht'⟩ := hk
  have hs1 : 1 ≤ s := by
    by_contra hc
    have := pow_lt_one₀ hs (not_le.1 hc) (by omega : n ≠ 0)
    linarith
  have hy : Fin2 (⟨Num.lit 1, x⟩ : Itv T) 1 X := ⟨val_one, hx⟩
  have hsX : s ≤ X := by rw [← hX]; exact le_self_pow₀ hs1 (by omega)
  obtain ⟨z, h, l, u, hz, h2, h3, h4, -⟩ := rootLoop_ok hV hI hM hF hn hx ht' (.inl (by simp)) hX _ _ 1 X hy le_rfl hs1 hsX le_rfl le_rfl
  refine ⟨z, (hF 1 X).toFinset.card, fun fuel hf => ?_, l, u, hz, h2, h3, h4⟩
  unfold rootAux
  change (ofOpt (Num.ofInt .near (n : ℤ)) >>= _) = _
  rw [ht]
  exact h fuel hf

theorem exists_root (hn : 2 ≤ n) {v : ℝ} (hv : 0 ≤ v) : ∃ s : ℝ, 0 ≤ s ∧ s ^ n = v :=
  ⟨v ^ ((n : ℝ)⁻¹), Real.rpow_nonneg hv _, Real.rpow_inv_natCast_pow hv (by omega)⟩

theorem div_one_down (hV : V.Tight) (hx : val x = some (X : EReal)) (h0 : 0 < X) {m : ℝ} (hm : Representable T (m : EReal))
    (hm' : m ≤ 1 / X) : ∃ c, V.B.divDown (Num.lit 1) x = .ok c ∧ ∃ z : ℝ, val c = some (z : EReal) ∧ m ≤ z ∧ z ≤ 1 / X := by
  have h0' : (X : EReal) ≠ 0 := by exact_mod_cast h0.ne'
  obtain ⟨c, h1, z, h2, h3⟩ := ((hV.div du_tight).divDown (Num.lit 1) x _ _ val_one hx ⟨h0', .inl ⟨by decide, by decide⟩⟩).total
  have e : (1 : EReal) / X = ((1 / X : ℝ) : EReal) := by rw [EReal.coe_div]; rfl
  rw [e] at h3
  have k1 := h3.2.1
  have k2 := h3.2.2 _ hm (by exact_mod_cast hm')
  have z1 : z ≠ ⊤ := fun h => by rw [h] at k1; exact absurd (top_le_iff.1 k1) (EReal.coe_ne_top _)
  have z2 : z ≠ ⊥ := fun h => by rw [h] at k2; exact absurd (le_bot_iff.1 k2) (EReal.coe_ne_bot _)
  lift z to ℝ using ⟨z1, z2⟩
  exact ⟨c, h1, z, h2, by exact_mod_cast k2, by exact_mod_cast k1⟩

theorem div_one_up (hV : V.Tight) (hx : val x = some (X : EReal)) (h0 : 0 < X) {m : ℝ} (hm : Representable T (m : EReal))
    (hm' : 1 / X ≤ m) : ∃ c, V.B.divUp (Num.lit 1) x = .ok c ∧ ∃ z : ℝ, val c = some (z : EReal) ∧ 1 / X ≤ z ∧ z ≤ m := by
  have h0' : (X : EReal) ≠ 0 := by exact_mod_cast h0.ne'
  obtain ⟨c, h1, z, h2, h3⟩ := ((hV.div du_tight).divUp (Num.lit 1) x _ _ val_one hx ⟨h0', .inl ⟨by decide, by decide⟩⟩).total
  have e : (1 : EReal) / X = ((1 / X : ℝ) : EReal) := by rw [EReal.coe_div]; rfl
  rw [e] at h3
  have k1 := h3.2.1
  have k2 := h3.2.2 _ hm (by exact_mod_cast hm')
  have z1 : z ≠ ⊤ := fun h => by rw [h] at k2; exact absurd (top_le_iff.1 k2) (EReal.coe_ne_top _)
  have z2 : z ≠ ⊥ := fun h => by rw [h] at k1; exact absurd (le_bot_iff.1 k1) (EReal.coe_ne_bot _)
  lift z to ℝ using ⟨z1, z2⟩
  exact ⟨c, h1, z, h2, by exact_mod_cast k1, by exact_mod_cast k2⟩

theorem rep_one : Representable T ((1 : ℝ) : EReal) := ⟨Num.lit 1, val_one⟩

theorem num_eq_one (hx : val x = some (X : EReal)) : Num.eq x (Num.lit 1) = decide (X = 1) := by
  rw [Bool.eq_iff_iff, NumLaws.eq_iff, decide_eq_true_eq]
  constructor
  · rintro ⟨e, h1, h2⟩
    rw [hx] at h1; cases h1
    rw [val_one] at h2
    exact_mod_cast (Option.some.inj h2).symm
  · intro h
    exact ⟨_, hx, by rw [h]; exact val_one⟩

theorem num_lt_one (hx : val x = some (X : EReal)) : Num.lt (Num.lit 1) x = decide (1 < X) := by
  rw [lt_eq val_one hx]
  congr 1
  exact propext ⟨fun h => by exact_mod_cast h, fun h => by exact_mod_cast h⟩

/-- The upper root is above. -/
theorem rootAuxUp_ok (hV : V.Tight) (hI : InfBase T) (hM : MidOk T) (hF : Discrete T) (hn : 2 ≤ n) (hk : IntIs (n : ℤ) tk)
    (hx : val x = some (X : EReal)) (h0 : 0 < X) :
    ∃ c N, (∀ fuel > N, rootAuxUp V.pp fuel x (n : ℤ) = .ok c) ∧ ∃ z : ℝ, val c = some (z : EReal) ∧
      ∀ s : ℝ, 0 ≤ s → s ^ n ≤ X → s ≤ z := by
  have n0 : n ≠ 0 := by omega
  unfold rootAuxUp
  simp only [pure_scope, pure_rnd, num_lt_one hx, num_eq_one hx, decide_eq_true_eq]
  by_cases h1 : 1 < X
  · simp only [h1, if_true]
    obtain ⟨s, hs, hsX⟩ := exists_root hn h0.le
    obtain ⟨y, N, h, l, u, hy, k1, k2, k3⟩ := rootAux_ok hV hI hM hF hn hk hx h1.le hs hsX
    refine ⟨y.upper, N, fun fuel hf => by rw [h fuel hf]; rfl, u, hy.2, fun t ht htX => ?_⟩
    rw [← hsX] at htX
    exact ((pow_le_pow_iff_left₀ ht hs n0).1 htX).trans k3
  · simp only [h1, if_false]
    by_cases h2 : X = 1
    · simp only [h2, if_true]
      refine ⟨_, 0, fun fuel hf => rfl, 1, val_one, fun t ht htX => ?_⟩
      exact (pow_le_one_iff_of_nonneg ht n0).1 htX
    · simp only [h2, if_false]
      have h3 : X < 1 := lt_of_le_of_ne (not_lt.1 h1) h2
      have h4 : 1 ≤ 1 / X := by rw [le_div_iff₀ h0]; linarith
      obtain ⟨c, hc, v, hv, k1, k2⟩ := div_one_down (V := V) hV hx h0 rep_one h4
      obtain ⟨s, hs, hsv⟩ := exists_root hn (by linarith : (0 : ℝ) ≤ v)
      obtain ⟨y, N, h, l, u, hy, k3, k4, k5⟩ := rootAux_ok hV hI hM hF hn hk hv k1 hs hsv
      obtain ⟨d, hd, z, hz, k6, -⟩ := div_one_up (V := V) hV hy.1 (by linarith) rep_one (by
        rw [div_le_iff₀ (by linarith)]; linarith)
      refine ⟨d, N, fun fuel hf => ?_, z, hz, fun t ht htX => ?_⟩
      · rw [hc]
        change (rootAux V.pp fuel c n >>= _) = _
        rw [h fuel hf]
        exact hd
      · refine le_trans ?_ k6
        have s0 : 0 < s := by linarith
        refine le_trans ?_ (one_div_le_one_div_of_le (by linarith) k4)
        rw [← pow_le_pow_iff_left₀ ht (by positivity) n0, one_div, inv_pow, hsv]
        refine htX.trans ?_
        rw [le_inv_comm₀ h0 (by linarith), ← one_div]
        exact k2

/-- The lower root is below. -/
theorem rootAuxDn_ok (hV : V.Tight) (hI : InfBase T) (hM : MidOk T) (hF : Discrete T) (hn : 2 ≤ n) (hk : IntIs (n : ℤ) tk)
    (hx : val x = some (X : EReal)) (h0 : 0 < X) {m : ℝ} (hm : Representable T (m : EReal)) (hm' : 1 / X ≤ m) :
    ∃ c N, (∀ fuel > N, rootAuxDn V.pp fuel x (n : ℤ) = .ok c) ∧ ∃ z : ℝ, val c = some (z : EReal) ∧
      ∀ s : ℝ, 0 ≤ s → X ≤ s ^ n → z ≤ s := by
  have n0 : n ≠ 0 := by omega
  unfold rootAuxDn
  simp only [pure_scope, pure_rnd, num_lt_one hx, num_eq_one hx, decide_eq_true_eq]
  by_cases h1 : 1 < X
  · simp only [h1, if_true]
    obtain ⟨s, hs, hsX⟩ := exists_root hn h0.le
    obtain ⟨y, N, h, l, u, hy, k1, k2, k3⟩ := rootAux_ok hV hI hM hF hn hk hx h1.le hs hsX
    refine ⟨y.lower, N, fun fuel hf => by rw [h fuel hf]; rfl, l, hy.1, fun t ht htX => ?_⟩
    rw [← hsX] at htX
    exact k2.trans ((pow_le_pow_iff_left₀ hs ht n0).1 htX)
  · simp only [h1, if_false]
    by_cases h2 : X = 1
    · simp only [h2, if_true]
      refine ⟨_, 0, fun fuel hf => rfl, 1, val_one, fun t ht htX => ?_⟩
      rw [← h2] at htX ⊢
      rw [h2] at htX ⊢
      exact (one_le_pow_iff_of_nonneg ht n0).1 htX
    · simp only [h2, if_false]
      have h3 : X < 1 := lt_of_le_of_ne (not_lt.1 h1) h2
      obtain ⟨c, hc, v, hv, k1, k2⟩ := div_one_up (V := V) hV hx h0 hm hm'
      have h4 : 1 ≤ 1 / X := by rw [le_div_iff₀ h0]; linarith
      obtain ⟨s, hs, hsv⟩ := exists_root hn (by linarith : (0 : ℝ) ≤ v)
      obtain ⟨y, N, h, l, u, hy, k3, k4, k5⟩ := rootAux_ok hV hI hM hF hn hk hv (h4.trans k1) hs hsv
      have u0 : 0 < u := by linarith
      obtain ⟨d, hd, z, hz, -, k6⟩ := div_one_down (V := V) hV hy.2 u0 (m := 0) ⟨Num.lit 0, val_zero⟩ (by positivity)
      refine ⟨d, N, fun fuel hf => ?_, z, hz, fun t ht htX => ?_⟩
      · rw [hc]
        change (rootAux V.pp fuel c n >>= _) = _
        rw [h fuel hf]
        exact hd
      · refine k6.trans ?_
        have s0 : 0 < s := by linarith
        refine (one_div_le_one_div_of_le s0 k5).trans ?_
        rw [← pow_le_pow_iff_left₀ (by positivity) ht n0, one_div, inv_pow, hsv]
        refine le_trans ?_ htX
        rw [inv_le_comm₀ (by linarith) h0, ← one_div]
        exact k1

/-- The iteration started from an infinite number stops with `[1, +∞]`. -/
def TopOk (V : Env T) (n : ℕ) : Prop := ∀ (t : T) (fuel : ℕ), val t = some (⊤ : EReal) →
  rootAux V.pp (fuel + 1) t (n : ℤ) = .ok ⟨Num.lit 1, t⟩

theorem rootAuxUp_ok' (hV : V.Tight) (hI : InfBase T) (hM : MidOk T) (hF : Discrete T) (hn : 2 ≤ n) (hk : IntIs (n : ℤ) tk)
    {X : EReal} (hx : val x = some X) (h0 : 0 < X) (ht : X ≠ ⊤ ∨ TopOk V n) :
    ∃ c N, (∀ fuel > N, rootAuxUp V.pp fuel x (n : ℤ) = .ok c) ∧ ∃ z : EReal, val c = some z ∧
      ∀ s : ℝ, 0 ≤ s → ((s ^ n : ℝ) : EReal) ≤ X → (s : EReal) ≤ z := by
  by_cases hX : X = ⊤
  · subst hX
    refine ⟨x, 0, fun fuel hf => ?_, ⊤, hx, fun s _ _ => le_top⟩
    obtain ⟨fuel, rfl⟩ : ∃ k, fuel = k + 1 := ⟨fuel - 1, by omega⟩
    unfold rootAuxUp
    rw [pure_scope, show Num.lt (Num.lit 1) x = true by rw [lt_eq val_one hx]; exact decide_eq_true (EReal.coe_lt_top 1), if_pos rfl]
    rw [ht.resolve_left (by simp) x fuel hx]
    rfl
  · have hb : X ≠ ⊥ := fun h => by rw [h] at h0; cases (not_lt_bot h0)
    lift X to ℝ using ⟨hX, hb⟩
    obtain ⟨c, N, h1, z, h2, h3⟩ := rootAuxUp_ok hV hI hM hF hn hk hx (by exact_mod_cast h0)
    exact ⟨c, N, h1, z, h2, fun s hs h => by exact_mod_cast h3 s hs (by exact_mod_cast h)⟩

theorem rootAuxDn_ok' (hV : V.Tight) (hI : InfBase T) (hM : MidOk T) (hF : Discrete T) (hn : 2 ≤ n) (hk : IntIs (n : ℤ) tk)
    (hx : val x = some (X : EReal)) (h0 : 0 < X) (ht : (∃ m : ℝ, Representable T (m : EReal) ∧ 1 / X ≤ m) ∨ TopOk V n) :
    ∃ c N, (∀ fuel > N, rootAuxDn V.pp fuel x (n : ℤ) = .ok c) ∧ ∃ z : ℝ, val c = some (z : EReal) ∧
      ∀ s : ℝ, 0 ≤ s → X ≤ s ^ n → z ≤ s := by
  by_cases hm : ∃ m : ℝ, Representable T (m : EReal) ∧ 1 / X ≤ m
  · obtain ⟨m, hm, hm'⟩ := hm
    exact rootAuxDn_ok hV hI hM hF hn hk hx h0 hm hm'
  · have ht := ht.resolve_left hm
    have h1 : X < 1 := by
      by_contra hc
      exact hm ⟨1, rep_one, by rw [div_le_iff₀ h0]; linarith⟩
    have h0' : (X : EReal) ≠ 0 := by exact_mod_cast h0.ne'
    obtain ⟨v, h2, z, h3, h4⟩ := ((hV.div du_tight).divUp (Num.lit 1) x _ _ val_one hx ⟨h0', .inl ⟨by decide, by decide⟩⟩).total
    have e : (1 : EReal) / X = ((1 / X : ℝ) : EReal) := by rw [EReal.coe_div]; rfl
    rw [e] at h4
    have hz : z = ⊤ := by
      by_contra hz
      have k1 := h4.2.1
      have z2 : z ≠ ⊥ := fun h => by rw [h] at k1; exact absurd (le_bot_iff.1 k1) (EReal.coe_ne_bot _)
      lift z to ℝ using ⟨hz, z2⟩
      exact hm ⟨z, ⟨v, h3⟩, by exact_mod_cast k1⟩
    subst hz
    obtain ⟨d, h5, w, h6, h7⟩ := ((hV.div du_tight).divDown (Num.lit 1) v _ _ val_one h3
      ⟨by simp, .inl ⟨by decide, by decide⟩⟩).total
    have hw : w = 0 := by
      rw [EReal.div_top] at h7
      exact le_antisymm h7.2.1 (h7.2.2 0 ⟨Num.lit 0, val_zero⟩ le_rfl)
    subst hw
    refine ⟨d, 0, fun fuel hf => ?_, 0, h6, fun s hs _ => hs⟩
    obtain ⟨fuel, rfl⟩ : ∃ k, fuel = k + 1 := ⟨fuel - 1, by omega⟩
    unfold rootAuxDn
    rw [pure_scope, pure_rnd, num_lt_one hx, num_eq_one hx, if_neg (by simpa using h1.le), if_neg (by simpa using h1.ne), h2]
    change (rootAux V.pp (fuel + 1) v n >>= _) = _
    rw [ht v fuel h3]
    exact h5

theorem neg_num (hV : V.Ok D U) {t : T} {v : EReal} (ht : val t = some v) : ∃ c, (negM t : Res T) = .ok c ∧ val c = some (-v) :=
  (neg_post (fun _ => Env.Ok.neg hV) ht).total

theorem nthRoot_ok (hV : V.Tight) (hI : InfBase T) (hM : MidOk T) (hF : Discrete T) (hn : 1 ≤ n) (hk : IntIs (n : ℤ) tk)
    {x : Itv T} {a b : EReal} (hx : Has x a b)
    (ht : (b ≠ ⊤ ∧ (a ≠ ⊥ ∨ Even n) ∧
      ∀ r : ℝ, 0 < r → a = r ∨ (b = -r ∧ Odd n) → ∃ m : ℝ, Representable T (m : EReal) ∧ 1 / r ≤ m) ∨ TopOk V n)
    (he : 0 ≤ b ∨ Odd n) (nd : Bool) :
    ∃ z N, (∀ fuel > N, nthRoot V.pp nd fuel x (n : ℤ) = .ok z) ∧ RootOut n (γ x) z := by
  have hneg : ∀ {t : T} {v : EReal}, val t = some v → ∃ c, (negM t : Res T) = .ok c ∧ val c = some (-v) :=
    fun ht => neg_num hV ht
  have hb' := hx.ne_bot
  have ha' := hx.ne_top
  have hassert : (lift (assertRes nd (decide (0 < (n : ℤ)))) : Res Unit) = .ok () := by
    rw [decide_eq_true (by omega)]
    cases nd <;> rfl
  have hpar : (decide ((n : ℤ) % 2 = 0)) = decide (Even n) := by
    congr 1
    rw [Nat.even_iff]
    exact propext (by omega)
  unfold nthRoot
  simp only [pure_chk, pure_unprot, res_if_false (hx.test V.chk)]
  rw [hassert]
  simp only [show ∀ (g : Unit → Res (Itv T)), ((Except.ok () : Res Unit) >>= g) = g () from fun _ => rfl]
  simp only [isPos_eq hx.up, isPos_eq hx.lo, isZero_eq hx.up, isZero_eq hx.lo, hpar]
  by_cases hn1 : n = 1
  · subst hn1
    exact ⟨x, 0, fun fuel hf => rfl, fun s _ h => by rwa [pow_one] at h⟩
  have hn2 : 2 ≤ n := by omega
  have n0 : n ≠ 0 := by omega
  have hn1' : (n : ℤ) ≠ 1 := by omega
  simp only [hn1', if_false]
  -- upper bounds of negative roots
  have lower : a < 0 → Odd n → ∃ nl l N, (negM x.lower : Res T) = .ok nl ∧
      (∀ fuel > N, (rootAuxUp V.pp fuel nl (n : ℤ) >>= fun r => (negM r : Res T)) = .ok l) ∧
      ∃ z : EReal, val l = some z ∧ ∀ s : ℝ, a ≤ ((s ^ n : ℝ) : EReal) → z ≤ (s : EReal) := by
    intro h0 ho
    obtain ⟨nl, h1, h2⟩ := hneg hx.lo
    obtain ⟨c, N, h3, z, h4, h5⟩ := rootAuxUp_ok' hV hI hM hF hn2 hk h2 (EReal.neg_pos.2 h0) (by
      rcases ht with ht | ht
      · refine .inl fun h => ?_
        have := ht.2.1.resolve_right (Nat.not_even_iff_odd.2 ho)
        exact this (EReal.neg_eq_top_iff.1 h)
      · exact .inr ht)
    obtain ⟨l, h6, h7⟩ := hneg h4
    refine ⟨nl, l, N, h1, fun fuel hf => ?_, -z, by rw [h7], fun s hs => ?_⟩
    · rw [h3 fuel hf]; exact h6
    · rw [EReal.neg_le]
      rcases le_total 0 s with hs0 | hs0
      · have h8 := h5 0 le_rfl (by rw [zero_pow n0]; exact (EReal.neg_pos.2 h0).le)
        refine le_trans ?_ h8
        exact_mod_cast neg_nonpos.2 hs0
      · have := h5 (-s) (by linarith) (by rw [ho.neg_pow]; push_cast; rw [EReal.neg_le_neg_iff]; exact_mod_cast hs)
        exact_mod_cast this
  by_cases h0 : (0 : EReal) < b
  · simp only [h0, decide_true, Bool.not_true, Bool.false_eq_true, if_false]
    obtain ⟨u, N, h1, q, hq, h2⟩ := rootAuxUp_ok' hV hI hM hF hn2 hk hx.up h0 (ht.imp_left And.left)
    have upper : ∀ s : ℝ, s ^ n ∈ γ x → (s : EReal) ≤ q := by
      intro s hs
      rcases le_total 0 s with hs0 | hs0
      · exact h2 s hs0 (hx.ub hs)
      · refine le_trans (by exact_mod_cast hs0 : (s : EReal) ≤ (0 : ℝ)) (h2 0 le_rfl (by rw [zero_pow n0]; exact h0.le))
    by_cases h3 : (0 : EReal) < a
    · have : a ≠ ⊥ := fun h => by rw [h] at h3; cases (not_lt_bot h3)
      lift a to ℝ using ⟨ha', this⟩
      have h3' : 0 < a := by exact_mod_cast h3
      simp only [h3, decide_true, Bool.not_true, Bool.false_eq_true, if_false]
      obtain ⟨l, N', k1, p, hp, k2⟩ := rootAuxDn_ok' hV hI hM hF hn2 hk hx.lo h3'
        (ht.imp_left fun ht => ht.2.2 a h3' (.inl rfl))
      refine ⟨⟨l, u⟩, max N N', fun fuel hf => ?_, fun s hs hsx => ⟨p, q, hp, hq, ?_, upper s hsx⟩⟩
      · rw [h1 fuel (lt_of_le_of_lt (le_max_left _ _) hf)]
        change (rootAuxDn V.pp fuel x.lower n >>= _) = _
        rw [k1 fuel (lt_of_le_of_lt (le_max_right _ _) hf)]
        rfl
      · have hsx' : a ≤ s ^ n := by exact_mod_cast hx.lb hsx
        have hs0 : 0 ≤ s := by
          rcases hs with ho | hs
          · by_contra hc
            have := ho.pow_neg (not_le.1 hc)
            linarith
          · exact hs
        exact_mod_cast k2 s hs0 hsx'
    · simp only [h3, decide_false, Bool.not_false, if_true]
      by_cases h4 : Even n ∨ a = 0
      · simp only [show (decide (Even n) || decide (a = 0)) = true by simpa using h4, if_true]
        refine ⟨⟨Num.lit 0, u⟩, N, fun fuel hf => by rw [h1 fuel hf]; rfl, fun s hs hsx => ?_⟩
        refine ⟨0, q, val_zero, hq, ?_, upper s hsx⟩
        have hs0 : 0 ≤ s := by
          rcases hs with ho | hs
          · have h5 : a = 0 := h4.resolve_left (Nat.not_even_iff_odd.2 ho)
            by_contra hc
            have h6 := ho.pow_neg (not_le.1 hc)
            have h7 : (a : EReal) ≤ ((s ^ n : ℝ) : EReal) := hx.lb hsx
            rw [h5] at h7
            exact absurd (by exact_mod_cast h7 : 0 ≤ s ^ n) (not_le.2 h6)
          · exact hs
        exact_mod_cast hs0
      · simp only [show (decide (Even n) || decide (a = 0)) = false by simpa using h4, Bool.false_eq_true, if_false]
        push Not at h4
        have hp0 : a < 0 := lt_of_le_of_ne (not_lt.1 h3) h4.2
        obtain ⟨nl, l, N', k1, k2, z, hz, k3⟩ := lower hp0 (Nat.not_even_iff_odd.1 (by simpa using h4.1))
        refine ⟨⟨l, u⟩, max N N', fun fuel hf => ?_, fun s hs hsx => ⟨z, q, hz, hq, k3 s (hx.lb hsx), upper s hsx⟩⟩
        rw [h1 fuel (lt_of_le_of_lt (le_max_left _ _) hf), k1]
        have := k2 fuel (lt_of_le_of_lt (le_max_right _ _) hf)
        change (rootAuxUp V.pp fuel nl n >>= fun r => (negM r : Res T) >>= fun l => _) = _
        cases hh : rootAuxUp V.pp fuel nl (n : ℤ) with
        | error e => rw [hh] at this; cases this
        | ok r =>
          rw [hh] at this
          change ((negM r : Res T) >>= _) = _
          rw [show (negM r : Res T) = .ok l from this]
          rfl
  · simp only [h0, decide_false, Bool.not_false, if_true]
    have hb : b ≠ ⊤ := fun h => by rw [h] at h0; exact h0 (by simp)
    lift b to ℝ using ⟨hb, hb'⟩
    have h0' : b ≤ 0 := not_lt.1 fun h => h0 (by exact_mod_cast h)
    by_cases hb0 : b = 0
    · subst hb0
      simp only [EReal.coe_zero, decide_true, if_true]
      by_cases h4 : Even n ∨ a = 0
      · simp only [show (decide (Even n) || decide (a = 0)) = true by simpa using h4, if_true]
        refine ⟨⟨Num.lit 0, Num.lit 0⟩, 0, fun fuel hf => rfl, fun s hs hsx => ?_⟩
        have h5 : s ^ n ≤ 0 := by exact_mod_cast hx.ub hsx
        have hs0 : s = 0 := by
          rcases hs with ho | hs
          · have h6 : a = 0 := h4.resolve_left (Nat.not_even_iff_odd.2 ho)
            have h7 : (a : EReal) ≤ ((s ^ n : ℝ) : EReal) := hx.lb hsx
            rw [h6] at h7
            have h8 : 0 ≤ s ^ n := by exact_mod_cast h7
            exact pow_eq_zero_iff n0 |>.1 (le_antisymm h5 h8)
          · exact pow_eq_zero_iff n0 |>.1 (le_antisymm h5 (by positivity))
        exact ⟨0, 0, val_zero, val_zero, by rw [hs0]; exact le_rfl, by rw [hs0]; exact le_rfl⟩
      · simp only [show (decide (Even n) || decide (a = 0)) = false by simpa using h4, Bool.false_eq_true, if_false]
        push Not at h4
        have ho := Nat.not_even_iff_odd.1 (by simpa using h4.1)
        have hp0 : a < 0 := lt_of_le_of_ne hx.le h4.2
        obtain ⟨nl, l, N', k1, k2, z, hz, k3⟩ := lower hp0 ho
        refine ⟨⟨l, Num.lit 0⟩, N', fun fuel hf => ?_, fun s hs hsx => ⟨z, 0, hz, val_zero, k3 s (hx.lb hsx), ?_⟩⟩
        · rw [k1]
          have := k2 fuel hf
          change (rootAuxUp V.pp fuel nl n >>= fun r => (negM r : Res T) >>= fun l => _) = _
          cases hh : rootAuxUp V.pp fuel nl (n : ℤ) with
          | error e => rw [hh] at this; cases this
          | ok r =>
            rw [hh] at this
            change ((negM r : Res T) >>= _) = _
            rw [show (negM r : Res T) = .ok l from this]
            rfl
        · have h5 : s ^ n ≤ 0 := by exact_mod_cast hx.ub hsx
          have : s ≤ 0 := by
            by_contra hc
            have := pow_pos (not_le.1 hc) n
            linarith
          exact_mod_cast this
    · have hb1 : b < 0 := lt_of_le_of_ne h0' hb0
      have ho : Odd n := he.resolve_left (not_le.2 (by exact_mod_cast hb1))
      have hne : ¬ Even n := Nat.not_even_iff_odd.2 ho
      have hb0' : (b : EReal) ≠ 0 := by exact_mod_cast hb0
      simp only [hb0', decide_false, Bool.false_eq_true, if_false, hne]
      have hp0 : a < 0 := lt_of_le_of_lt hx.le (by exact_mod_cast hb1)
      obtain ⟨nl, l, N, k1, k2, z, hz, k3⟩ := lower hp0 ho
      obtain ⟨nu, j1, j2⟩ := hneg hx.up
      rw [← EReal.coe_neg] at j2
      obtain ⟨c, N', j3, w, hw, j4⟩ := rootAuxDn_ok' hV hI hM hF hn2 hk j2 (by linarith)
        (ht.imp_left fun ht => ht.2.2 (-b) (by linarith) (.inr ⟨by simp, ho⟩))
      obtain ⟨u, j5, j6⟩ := hneg hw
      refine ⟨⟨l, u⟩, max N N', fun fuel hf => ?_, fun s hs hsx => ⟨z, -w, hz, j6, k3 s (hx.lb hsx), ?_⟩⟩
      · rw [k1, if_neg (fun h : (n : ℤ) % 2 = 0 => hne (Nat.even_iff.2 (by omega)))]
        have := k2 fuel (lt_of_le_of_lt (le_max_left _ _) hf)
        change (rootAuxUp V.pp fuel nl n >>= fun r => (negM r : Res T) >>= fun l => _) = _
        cases hh : rootAuxUp V.pp fuel nl (n : ℤ) with
        | error e => rw [hh] at this; cases this
        | ok r =>
          rw [hh] at this
          change ((negM r : Res T) >>= _) = _
          rw [show (negM r : Res T) = .ok l from this]
          change ((negM x.upper : Res T) >>= _) = _
          rw [j1]
          change (rootAuxDn V.pp fuel nu n >>= _) = _
          rw [j3 fuel (lt_of_le_of_lt (le_max_right _ _) hf)]
          change ((negM c : Res T) >>= _) = _
          rw [j5]
          rfl
      · have h5 : s ^ n ≤ b := by exact_mod_cast hx.ub hsx
        have hs0 : s ≤ 0 := by
          by_contra hc
          have := pow_pos (not_le.1 hc) n
          linarith
        have := j4 (-s) (by linarith) (by rw [ho.neg_pow]; linarith)
        have : s ≤ -w := by linarith
        exact_mod_cast this

end
end BI
