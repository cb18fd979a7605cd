import Verif.Proofs.EnclArith2
/-! # Powers and `fmod` -/

set_option linter.unusedSectionVars false

namespace BI
open Set

section
variable {T : Type} [Num T] [Val T] [NumLaws T] {tot : Prop} {D U : EReal → EReal → Prop} {B : Arith Res T}
  {C : Checking T} {x y : Itv T} {a b c d : EReal}

theorem Post.forall {α ι : Type} {m : Res α} {Q : ι → α → Prop} (i₀ : ι) (h : ∀ i, Post tot m (Q i)) :
    Post tot m fun z => ∀ i, Q i z := by
  cases m with
  | ok a => exact h
  | error e => exact h i₀

theorem Post.and {α : Type} {m : Res α} {Q R : α → Prop} (h : Post tot m Q) (h' : Post tot m R) :
    Post tot m fun z => Q z ∧ R z := by
  cases m with
  | ok a => exact ⟨h, h'⟩
  | error e => exact h

theorem du_signed : DU T LeS GeS where
  D_le h := h.1
  U_ge h := h.1
  D_min h h' := ⟨min_le_min h.1 h'.1, fun h0 => le_min (h.2 (h0.trans (min_le_left _ _))) (h'.2 (h0.trans (min_le_right _ _)))⟩
  U_max h h' := ⟨max_le_max h.1 h'.1, fun h0 => max_le (h.2 ((le_max_left _ _).trans h0)) (h'.2 ((le_max_right _ _).trans h0))⟩
  D_exact _ _ _ := ⟨le_rfl, id⟩
  U_exact _ _ _ := ⟨le_rfl, id⟩
  dual h _ := ⟨EReal.neg_le_neg_iff.2 h.1, fun h0 => by
    have := h.2 (by simpa using EReal.neg_le_neg_iff.2 h0)
    simpa using EReal.neg_le_neg_iff.2 this⟩

theorem IsRoundDown.leS {z e : EReal} (h : IsRoundDown T z e) : LeS z e :=
  ⟨h.2.1, fun h0 => h.2.2 0 ⟨Num.lit 0, val_zero⟩ h0⟩
theorem IsRoundUp.geS {z e : EReal} (h : IsRoundUp T z e) : GeS z e :=
  ⟨h.2.1, fun h0 => h.2.2 0 ⟨Num.lit 0, val_zero⟩ h0⟩

theorem Approx.mono {D' U' : EReal → EReal → Prop} {op : RMode → Option T} {e : EReal}
    (hD : ∀ {z e}, D z e → D' z e) (hU : ∀ {z e}, U z e → U' z e) (h : Approx T D U op e) : Approx T D' U' op e := by
  intro r
  obtain ⟨c, z, h1, h2, h3, h4⟩ := h r
  exact ⟨c, z, h1, h2, fun h => hD (h3 h), fun h => hU (h4 h)⟩

theorem Env.Ok.mono {D' U' : EReal → EReal → Prop} {V : Env T} (h : V.Ok D U) (hD : ∀ {z e}, D z e → D' z e)
    (hU : ∀ {z e}, U z e → U' z e) : V.Ok D' U' := by
  rcases h with ⟨hk, hB⟩ | h
  · exact .inl ⟨hk, hB.neg, fun a b x y ha hb ok => (hB.add a b x y ha hb ok).mono hD hU,
      fun a b x y ha hb ok => (hB.sub a b x y ha hb ok).mono hD hU,
      fun a b x y ha hb ok => (hB.mul a b x y ha hb ok).mono hD hU,
      fun a b x y ha hb ok => (hB.div a b x y ha hb ok).mono hD hU⟩
  · exact .inr h

/-- Correct rounding does not cross zero. -/
theorem Env.Tight.signed {V : Env T} (h : V.Tight) : V.Signed := h.mono IsRoundDown.leS IsRoundUp.geS

theorem Env.Signed.directed {V : Env T} (h : V.Signed) : V.Directed := Env.Ok.mono h (fun h => h.1) (fun h => h.1)

theorem Env.SqrtOk.mono {D' U' : EReal → EReal → Prop} {V : Env T} (h : V.SqrtOk D U) (hD : ∀ {z e}, D z e → D' z e)
    (hU : ∀ {z e}, U z e → U' z e) : V.SqrtOk D' U' := by
  rcases h with ⟨hk, hB⟩ | h
  · exact .inl ⟨hk, fun a x ha h0 => (hB a x ha h0).mono hD hU⟩
  · exact .inr h

theorem Env.SqrtOk.laws {V : Env T} (hDU : DU T D U) (h : V.SqrtOk D U) : SqrtLaws True D U V.B := by
  rcases h with ⟨hk, hB⟩ | ⟨hk, hE⟩
  · unfold Env.B
    cases hkk : V.kind with
    | exact => exact absurd hkk hk
    | std => exact ⟨fun a x ha h0 => approx_down (hB a x ha h0), fun a x ha h0 => approx_up (hB a x ha h0)⟩
    | opp => exact ⟨fun a x ha h0 => approx_down (hB a x ha h0), fun a x ha h0 => approx_up (hB a x ha h0)⟩
  · unfold Env.B
    rw [hk]
    exact ⟨fun a x ha h0 => exact_post hDU.D_exact (hE a x ha h0), fun a x ha h0 => exact_post hDU.U_exact (hE a x ha h0)⟩

theorem Env.IntOk.down {V : Env T} (hV : V.Ok D U) (h : V.IntOk) {t : T} {q : ℝ} (ht : val t = some (q : EReal)) :
    Post True (V.B.intDown t) fun c => val c = some ((⌊q⌋ : ℝ) : EReal) := by
  rcases h with ⟨hk, hB⟩ | ⟨hk, hE⟩
  · unfold Env.B
    cases hkk : V.kind with
    | exact => exact absurd hkk hk
    | std =>
      obtain ⟨⟨c, h1, h2⟩, _⟩ := hB t q ht
      change Post True (ofOpt (Num.rint .down t)) _
      rw [h1]; exact h2
    | opp =>
      have hn : ∀ a : T, Num.neg a ≠ none := by
        rcases hV with ⟨_, hB⟩ | ⟨hk', _⟩
        · exact hB.neg
        · exact absurd hk' hk
      obtain ⟨n, hn'⟩ := Option.ne_none_iff_exists'.1 (hn t)
      have hv : val n = some ((-q : ℝ) : EReal) := by rw [NumLaws.neg t n hn', ht]; simp
      obtain ⟨_, ⟨c, h1, h2⟩⟩ := hB n _ hv
      obtain ⟨m, hm⟩ := Option.ne_none_iff_exists'.1 (hn c)
      change Post True (negRes ((Num.neg t).bind fun nx => Num.rint .up nx)) _
      rw [bind_neg hn', h1]
      change Post True (ofOpt (Num.neg c)) _
      rw [hm]
      change val m = _
      rw [NumLaws.neg c m hm, h2, Int.ceil_neg]
      simp
  · unfold Env.B
    rw [hk]
    obtain ⟨c, h1, h2⟩ := hE t q ht
    change Post True (ofOpt (Num.floor t)) _
    rw [h1]; exact h2

/-! ## Powers of numbers -/

theorem pow_split (ρ σ : ℝ) (n : ℕ) :
    σ * (ρ ^ 2) ^ n = (if n % 2 = 1 then ρ ^ 2 * σ else σ) * ((ρ ^ 2) ^ 2) ^ (n / 2) := by
  have h := Nat.div_add_mod n 2
  set k := n / 2
  rcases Nat.mod_two_eq_zero_or_one n with h' | h'
  · rw [h'] at h
    rw [if_neg (by omega), ← h, ← pow_mul (ρ ^ 2)]; simp
  · rw [h'] at h
    rw [if_pos h', ← h, pow_succ, ← pow_mul (ρ ^ 2)]; ring

theorem powLoop_down (hA : DirLaws tot LeS GeS B) (n : ℕ) : ∀ (x y : T) (vx vy : EReal) (ρ σ : ℝ),
    val x = some vx → val y = some vy → 0 ≤ vx → vx ≤ ρ → 0 ≤ vy → vy ≤ σ →
    Post tot (powLoop B.mulDown n x y) fun c => ∃ z, val c = some z ∧ 0 ≤ z ∧ z ≤ ((σ * (ρ ^ 2) ^ n : ℝ) : EReal) := by
  induction n using Nat.strong_induction_on with
  | _ n ih =>
    intro x y vx vy ρ σ hx hy hx0 hxr hy0 hyr
    unfold powLoop
    by_cases hn : n = 0
    · rw [if_pos hn]
      exact Post.pure ⟨vy, hy, hy0, by simpa [hn] using hyr⟩
    · rw [if_neg hn]
      refine (hA.mulDown x x vx vx hx hx (mulOk_self vx)).bind fun x' hx' => ?_
      obtain ⟨vx', hvx', hd⟩ := hx'
      have h1 : 0 ≤ vx' := hd.2 (EReal.mul_nonneg hx0 hx0)
      have h2 : vx' ≤ ((ρ ^ 2 : ℝ) : EReal) := by
        rw [coe_sq]; exact hd.1.trans (mul_self_le hx0 hxr)
      refine Post.bind (Q := fun y' => ∃ vy', val y' = some vy' ∧ 0 ≤ vy' ∧
        vy' ≤ ((if n % 2 = 1 then ρ ^ 2 * σ else σ : ℝ) : EReal)) ?_ fun y' hy' => ?_
      · by_cases ho : n % 2 = 1
        · simp only [ho, if_true]
          have ok : MulOk vx' vy := mulOk_real (fun h => absurd h1 (by rw [h]; simp)) (fun h => by
            rw [h] at h2; exact absurd (top_le_iff.1 h2) (EReal.coe_ne_top _)) (fun h => absurd hy0 (by rw [h]; simp))
            (fun h => by rw [h] at hyr; exact absurd (top_le_iff.1 hyr) (EReal.coe_ne_top _))
          refine (hA.mulDown x' y vx' vy hvx' hy ok).mono fun z hz => ?_
          obtain ⟨w, hw, hwd⟩ := hz
          refine ⟨w, hw, hwd.2 (EReal.mul_nonneg h1 hy0), hwd.1.trans ?_⟩
          rw [EReal.coe_mul]
          exact (mr_nonneg h2 hy0).trans (ml_nonneg hyr (h1.trans h2))
        · simp only [ho, if_false]
          exact Post.pure ⟨vy, hy, hy0, hyr⟩
      · obtain ⟨vy', hvy', h3, h4⟩ := hy'
        rw [pow_split]
        exact ih (n / 2) (by omega) x' y' vx' vy' (ρ ^ 2) _ hvx' hvy' h1 h2 h3 h4

theorem powLoop_up (hA : DirLaws tot LeS GeS B) (n : ℕ) : ∀ (x y : T) (vx vy : EReal) (ρ σ : ℝ),
    val x = some vx → val y = some vy → 0 ≤ ρ → ρ ≤ vx → 0 ≤ σ → σ ≤ vy →
    ((vx = 0 ∧ vy ≠ ⊤) ∨ (0 < vx ∧ 0 < vy)) →
    Post tot (powLoop B.mulUp n x y) fun c => ∃ z, val c = some z ∧ ((σ * (ρ ^ 2) ^ n : ℝ) : EReal) ≤ z ∧
      (vx = 0 → (vy ≤ 0 ∨ 0 < n) → z ≤ 0) := by
  induction n using Nat.strong_induction_on with
  | _ n ih =>
    intro x y vx vy ρ σ hx hy hr0 hxr hs0 hyr hst
    have hx0 : 0 ≤ vx := le_trans (by exact_mod_cast hr0) hxr
    have hy0 : 0 ≤ vy := le_trans (by exact_mod_cast hs0) hyr
    unfold powLoop
    by_cases hn : n = 0
    · rw [if_pos hn]
      refine Post.pure ⟨vy, hy, by simpa [hn] using hyr, fun _ h => ?_⟩
      rcases h with h | h
      · exact h
      · omega
    · rw [if_neg hn]
      refine (hA.mulUp x x vx vx hx hx (mulOk_self vx)).bind fun x' hx' => ?_
      obtain ⟨vx', hvx', hu⟩ := hx'
      have h2 : ((ρ ^ 2 : ℝ) : EReal) ≤ vx' := by
        rw [coe_sq]; exact (mul_self_le (by exact_mod_cast hr0) hxr).trans hu.1
      have hz' : vx = 0 → vx' = 0 := by
        rintro rfl
        exact le_antisymm (hu.2 (by simp)) (by simpa using hu.1)
      have hp' : 0 < vx → 0 < vx' := fun h => lt_of_lt_of_le (EReal.mul_pos h h) hu.1
      have h1 : 0 ≤ vx' := le_trans (by exact_mod_cast sq_nonneg ρ) h2
      refine Post.bind (Q := fun y' => ∃ vy', val y' = some vy' ∧ 
        ((if n % 2 = 1 then ρ ^ 2 * σ else σ : ℝ) : EReal) ≤ vy' ∧ ((vx' = 0 ∧ vy' ≠ ⊤) ∨ (0 < vx' ∧ 0 < vy')) ∧
          (vx = 0 → (vy ≤ 0 ∨ n % 2 = 1) → vy' ≤ 0)) ?_ fun y' hy' => ?_
      · by_cases ho : n % 2 = 1
        · simp only [ho, if_true]
          have ok : MulOk vx' vy := by
            rcases hst with ⟨h, h'⟩ | ⟨h, h'⟩
            · rw [hz' h]
              exact mulOk_real (by simp) (by simp) (fun h => absurd hy0 (by rw [h]; simp)) h'
            · exact mulOk_nz (hp' h).ne' h'.ne'
          refine (hA.mulUp x' y vx' vy hvx' hy ok).mono fun z hz => ?_
          obtain ⟨w, hw, hwd⟩ := hz
          refine ⟨w, hw, ?_, ?_, ?_⟩
          · rw [EReal.coe_mul]
            exact ((mr_nonneg h2 (by exact_mod_cast hs0)).trans (ml_nonneg hyr h1)).trans hwd.1
          · rcases hst with ⟨h, h'⟩ | ⟨h, h'⟩
            · left
              refine ⟨hz' h, fun ht => ?_⟩
              have := hwd.2 (by rw [hz' h]; simp)
              rw [ht] at this; exact absurd this (by simp)
            · exact .inr ⟨hp' h, lt_of_lt_of_le (EReal.mul_pos (hp' h) h') hwd.1⟩
          · intro h _
            exact hwd.2 (by rw [hz' h]; simp)
        · simp only [ho, if_false]
          refine Post.pure ⟨vy, hy, hyr, hst.imp (fun h => ⟨hz' h.1, h.2⟩) (fun h => ⟨hp' h.1, h.2⟩), fun _ h => ?_⟩
          rcases h with h | h
          · exact h
          · exact absurd h (by simp)
      · obtain ⟨vy', hvy', h3, h4, h5⟩ := hy'
        rw [pow_split]
        have hs' : (0 : ℝ) ≤ if n % 2 = 1 then ρ ^ 2 * σ else σ := by split_ifs <;> positivity
        refine (ih (n / 2) (by omega) x' y' vx' vy' (ρ ^ 2) _ hvx' hvy' (sq_nonneg ρ) h2 hs' h3 h4).mono ?_
        rintro z ⟨w, hw, hw1, hw2⟩
        refine ⟨w, hw, hw1, fun h h' => hw2 (hz' h) ?_⟩
        by_cases ho : n % 2 = 1
        · exact .inl (h5 h (.inr ho))
        · rcases h' with h' | h'
          · exact .inl (h5 h (.inl h'))
          · right; omega

theorem pow_split1 (ρ : ℝ) (n : ℕ) : ρ ^ n = (if n % 2 = 1 then ρ else 1) * (ρ ^ 2) ^ (n / 2) := by
  have h := Nat.div_add_mod n 2
  set k := n / 2
  rcases Nat.mod_two_eq_zero_or_one n with h' | h'
  · rw [h'] at h
    rw [if_neg (by omega), ← h, add_zero, pow_mul]; simp
  · rw [h'] at h
    rw [if_pos h', ← h, pow_succ, pow_mul]; ring

theorem powAux_down (hA : DirLaws tot LeS GeS B) {t : T} {v : EReal} (ht : val t = some v) (hv : 0 ≤ v) (hv' : v ≠ ⊤)
    (n : ℕ) : Post tot (powAux B.mulDown t n) fun c => ∃ z, val c = some z ∧ 0 ≤ z ∧ ∀ ρ : ℝ, v ≤ ρ →
      z ≤ ((ρ ^ n : ℝ) : EReal) := by
  have key : ∀ ρ : {ρ : ℝ // v ≤ (ρ : EReal)}, Post tot (powAux B.mulDown t n) fun c => ∃ z, val c = some z ∧ 0 ≤ z ∧
      z ≤ ((ρ.1 ^ n : ℝ) : EReal) := by
    rintro ⟨ρ, hρ⟩
    unfold powAux
    by_cases ho : n % 2 = 1
    · have := powLoop_down hA (n / 2) t t v v ρ ρ ht ht hv hρ hv hρ
      rw [pow_split1]; simpa only [ho, if_true] using this
    · have := powLoop_down hA (n / 2) t (Num.lit 1) v 1 ρ 1 ht val_one hv hρ zero_le_one le_rfl
      rw [pow_split1]; simpa only [ho, if_false] using this
  have i₀ : {ρ : ℝ // v ≤ (ρ : EReal)} := ⟨v.toReal, by
    rw [EReal.coe_toReal hv' (fun h => absurd hv (by rw [h]; simp))]⟩
  refine (Post.forall i₀ key).mono fun c hc => ?_
  obtain ⟨z, hz, h0, _⟩ := hc i₀
  refine ⟨z, hz, h0, fun ρ hρ => ?_⟩
  obtain ⟨z', hz', _, h⟩ := hc ⟨ρ, hρ⟩
  rw [hz] at hz'; cases hz'; exact h

theorem powAux_up (hA : DirLaws tot LeS GeS B) {t : T} {v : EReal} (ht : val t = some v) (hv : 0 ≤ v)
    (n : ℕ) (hn : 0 < n) : Post tot (powAux B.mulUp t n) fun c => ∃ z, val c = some z ∧
      (∀ ρ : ℝ, 0 ≤ ρ → ρ ≤ v → ((ρ ^ n : ℝ) : EReal) ≤ z) ∧ (v = 0 → z = 0) := by
  have key : ∀ ρ : {ρ : ℝ // 0 ≤ ρ ∧ ρ ≤ v}, Post tot (powAux B.mulUp t n) fun c => ∃ z, val c = some z ∧
      ((ρ.1 ^ n : ℝ) : EReal) ≤ z ∧ (v = 0 → z ≤ 0) := by
    rintro ⟨ρ, hρ0, hρ⟩
    unfold powAux
    by_cases ho : n % 2 = 1
    · have := powLoop_up hA (n / 2) t t v v ρ ρ ht ht hρ0 hρ hρ0 hρ (by
        rcases hv.eq_or_lt with h | h
        · left; subst h; simp
        · exact .inr ⟨h, h⟩)
      rw [pow_split1]; simp only [ho, if_true]
      refine this.mono ?_
      rintro c ⟨z, h1, h2, h3⟩
      exact ⟨z, h1, h2, fun h => h3 h (.inl h.le)⟩
    · have := powLoop_up hA (n / 2) t (Num.lit 1) v 1 ρ 1 ht val_one hρ0 hρ zero_le_one le_rfl (by
        rcases hv.eq_or_lt with h | h
        · left; subst h; exact ⟨rfl, EReal.coe_ne_top 1⟩
        · exact .inr ⟨h, zero_lt_one⟩)
      rw [pow_split1]; simp only [ho, if_false]
      refine this.mono ?_
      rintro c ⟨z, h1, h2, h3⟩
      exact ⟨z, h1, h2, fun h => h3 h (.inr (by omega))⟩
  refine (Post.forall ⟨0, le_rfl, hv⟩ key).mono fun c hc => ?_
  obtain ⟨z, hz, h1, h0⟩ := hc ⟨0, le_rfl, hv⟩
  refine ⟨z, hz, fun ρ hρ hρ' => ?_, fun h => le_antisymm (h0 h) ?_⟩
  · obtain ⟨z', hz', h, _⟩ := hc ⟨ρ, hρ, hρ'⟩
    rw [hz] at hz'; cases hz'; exact h
  · have : ((0 ^ n : ℝ) : EReal) ≤ z := h1
    rwa [zero_pow hn.ne'] at this

/-- Negation of a number. -/
theorem neg_post (hn : tot → ∀ a : T, Num.neg a ≠ none) {t : T} {v : EReal} (ht : val t = some v) :
    Post tot (negM t : Res T) fun c => val c = some (-v) :=
  Post.ofOpt (fun nl hnl => by rw [NumLaws.neg _ _ hnl, ht]; rfl) fun h => hn h _

theorem powNat_post (hA : DirLaws tot LeS GeS B) (hC : ChkLaws C) (hx : Has x a b) {n : ℕ} (hn : 0 < n) :
    Post tot (powNat (purePolicies B C) x n) fun z => (∀ r ∈ γ x, r ^ n ∈ γ z) ∧ (a = 0 → b = 0 → Has z 0 0) := by
  unfold powNat
  rw [pure_chk, res_if_false (hx.test hC), if_neg hn.ne', pure_scope, pure_rnd]
  simp only [isNeg_eq hx.up, isNeg_eq hx.lo, decide_eq_true_eq]
  split_ifs with h1 ho h2 ho
  · -- negative, odd
    refine (neg_post hA.neg hx.up).bind fun nu hnu => ?_
    have hb0 : 0 ≤ -b := by rw [EReal.le_neg]; simpa using h1.le
    refine (powAux_down hA hnu hb0 (by simpa using hx.ne_bot) n).bind fun yl hyl => ?_
    refine (neg_post hA.neg hx.lo).bind fun nl hnl => ?_
    have ha0 : 0 ≤ -a := by rw [EReal.le_neg]; simpa using hx.le.trans h1.le
    refine (powAux_up hA hnl ha0 n hn).bind fun yu hyu => ?_
    obtain ⟨l, hl, hl0, hl'⟩ := hyl
    obtain ⟨u, hu, hu', -⟩ := hyu
    refine (neg_post hA.neg hu).bind fun p hp => (neg_post hA.neg hl).bind fun q hq => Post.pure ⟨fun r hr => ?_, fun _ h => ?_⟩
    · have e : r ^ n = -(-r) ^ n := by
        rw [neg_pow, Odd.neg_one_pow (Nat.odd_iff.2 ho)]; ring
      have hr0 : 0 ≤ -r := by
        have : (r : EReal) ≤ 0 := (hx.ub hr).trans h1.le
        have : r ≤ 0 := by exact_mod_cast this
        linarith
      refine ⟨_, _, hp, hq, ?_, ?_⟩ <;> rw [e, EReal.coe_neg, EReal.neg_le_neg_iff]
      · exact hu' _ hr0 (by rw [EReal.coe_neg, EReal.neg_le_neg_iff]; exact hx.lb hr)
      · exact hl' _ (by rw [EReal.coe_neg, EReal.neg_le_neg_iff]; exact hx.ub hr)
    · rw [h] at h1; exact absurd h1 (by simp)
  · -- negative, even
    refine (neg_post hA.neg hx.up).bind fun nu hnu => ?_
    have hb0 : 0 ≤ -b := by rw [EReal.le_neg]; simpa using h1.le
    refine (powAux_down hA hnu hb0 (by simpa using hx.ne_bot) n).bind fun yl hyl => ?_
    refine (neg_post hA.neg hx.lo).bind fun nl hnl => ?_
    have ha0 : 0 ≤ -a := by rw [EReal.le_neg]; simpa using hx.le.trans h1.le
    refine (powAux_up hA hnl ha0 n hn).bind fun yu hyu => ?_
    obtain ⟨l, hl, hl0, hl'⟩ := hyl
    obtain ⟨u, hu, hu', -⟩ := hyu
    refine Post.pure ⟨fun r hr => ?_, fun _ h => ?_⟩
    · have e : r ^ n = (-r) ^ n := by
        rw [neg_pow, Even.neg_one_pow (Nat.even_iff.2 (by omega))]; ring
      have hr0 : 0 ≤ -r := by
        have : (r : EReal) ≤ 0 := (hx.ub hr).trans h1.le
        have : r ≤ 0 := by exact_mod_cast this
        linarith
      refine ⟨_, _, hl, hu, ?_, ?_⟩ <;> rw [e]
      · exact hl' _ (by rw [EReal.coe_neg, EReal.neg_le_neg_iff]; exact hx.ub hr)
      · exact hu' _ hr0 (by rw [EReal.coe_neg, EReal.neg_le_neg_iff]; exact hx.lb hr)
    · rw [h] at h1; exact absurd h1 (by simp)
  · -- both signs, odd
    have ha0 : 0 ≤ -a := by rw [EReal.le_neg]; simpa using h2.le
    have hb0 := not_lt.1 h1
    have k1 : Post tot (do let nl ← negM x.lower; let p ← powAux B.mulUp nl n; negM p : Res T) fun c => ∃ z,
        val c = some (-z) ∧ ∀ ρ : ℝ, 0 ≤ ρ → ρ ≤ -a → ((ρ ^ n : ℝ) : EReal) ≤ z := by
      refine (neg_post hA.neg hx.lo).bind fun nl hnl => (powAux_up hA hnl ha0 n hn).bind fun p hp => ?_
      obtain ⟨u, hu, hu', -⟩ := hp
      exact (neg_post hA.neg hu).mono fun c hc => ⟨u, hc, hu'⟩
    refine (k1.pair (powAux_up hA hx.up hb0 n hn)).bind fun p hp => Post.pure ?_
    obtain ⟨⟨l, hl, hl'⟩, ⟨u, hu, hu', -⟩⟩ := hp
    refine ⟨fun r hr => ⟨_, _, hl, hu, ?_, ?_⟩, fun h => ?_⟩
    · rcases le_total 0 r with h | h
      · have h3 := hl' 0 le_rfl ha0
        rw [zero_pow hn.ne'] at h3
        refine le_trans (EReal.neg_le_neg_iff.2 h3) ?_
        simpa using (by exact_mod_cast pow_nonneg h n : (0 : EReal) ≤ ((r ^ n : ℝ) : EReal))
      · have e : r ^ n = -(-r) ^ n := by
          rw [neg_pow, Odd.neg_one_pow (Nat.odd_iff.2 ho)]; ring
        rw [e, EReal.coe_neg, EReal.neg_le_neg_iff]
        exact hl' _ (by linarith) (by rw [EReal.coe_neg, EReal.neg_le_neg_iff]; exact hx.lb hr)
    · rcases le_total 0 r with h | h
      · exact hu' r h (hx.ub hr)
      · have h3 := hu' 0 le_rfl hb0
        rw [zero_pow hn.ne'] at h3
        refine le_trans ?_ h3
        exact_mod_cast (Odd.pow_nonpos (Nat.odd_iff.2 ho) h)
    · rw [h] at h2; exact absurd h2 (by simp)
  · -- both signs, even
    have hb0 := not_lt.1 h1
    refine (neg_post hA.neg hx.lo).bind fun nl hnl => ?_
    have hm := val_stdMax hnl hx.up
    refine (powAux_up hA hm (hb0.trans (le_max_right _ _)) n hn).bind fun u hu => Post.pure ?_
    obtain ⟨z, hz, hz', -⟩ := hu
    refine ⟨fun r hr => ⟨_, _, val_zero, hz, ?_, ?_⟩, fun h => ?_⟩
    · exact_mod_cast Even.pow_nonneg (Nat.even_iff.2 (by omega)) r
    · rw [← Even.pow_abs (Nat.even_iff.2 (by omega)) r]
      refine hz' _ (abs_nonneg r) ?_
      rcases abs_choice r with h | h <;> rw [h]
      · exact (hx.ub hr).trans (le_max_right _ _)
      · refine le_trans ?_ (le_max_left _ _)
        rw [EReal.coe_neg, EReal.neg_le_neg_iff]; exact hx.lb hr
    · rw [h] at h2; exact absurd h2 (by simp)
  · -- not negative
    have ha0 := not_lt.1 h2
    refine ((powAux_down hA hx.lo ha0 hx.ne_top n).pair (powAux_up hA hx.up (not_lt.1 h1) n hn)).bind fun p hp => Post.pure ?_
    obtain ⟨⟨l, hl, hl0, hl'⟩, ⟨u, hu, hu', hu0⟩⟩ := hp
    refine ⟨fun r hr => ⟨_, _, hl, hu, hl' r (hx.lb hr), hu' r ?_ (hx.ub hr)⟩, fun h h' => ?_⟩
    · exact_mod_cast ha0.trans (hx.lb hr)
    · have h3 : l ≤ ((0 ^ n : ℝ) : EReal) := hl' 0 (by rw [h]; simp)
      rw [zero_pow hn.ne'] at h3
      have hl1 : l = 0 := le_antisymm h3 hl0
      subst hl1
      have := hu0 h'
      subst this
      exact ⟨hl, hu, by simp, by simp, le_rfl⟩

theorem powNat_zero (hC : ChkLaws C) (hx : Has x a b) (h : ¬ (a = 0 ∧ b = 0)) :
    powNat (purePolicies B C) x 0 = .ok ⟨Num.lit 1, Num.lit 1⟩ := by
  unfold powNat ctorT
  rw [pure_chk, res_if_false (hx.test hC), if_pos rfl, isZero_eq hx.lo, isZero_eq hx.up, hC.isNan _ _ val_one]
  rw [if_neg (by simpa using h)]
  rfl

theorem powNat_zero_empty (hC : ChkLaws C) (hx : Has x a b) (h : a = 0 ∧ b = 0) :
    powNat (purePolicies B C) x 0 = emptyI C := by
  unfold powNat
  rw [pure_chk, res_if_false (hx.test hC), if_pos rfl, isZero_eq hx.lo, isZero_eq hx.up]
  rw [if_pos (by simpa using h)]
  rfl

/-- `pow` -/
theorem powI_post (hA : DirLaws tot LeS GeS B) (hV : DivLaws tot LeS GeS B) (hC : ChkLaws C) (hx : Has x a b) {k : ℤ}
    (hk : k ≠ intMin) (hI : k < 0 → InfLaws C) (h0 : k ≤ 0 → ¬ (a = 0 ∧ b = 0)) :
    Post tot (powI (purePolicies B C) x k) fun z => ∀ r ∈ γ x, (k < 0 → r ≠ 0) → r ^ k ∈ γ z := by
  unfold powI
  rw [pure_chk, res_if_false (hx.test hC)]
  by_cases hneg : k < 0
  · rw [if_pos hneg, if_neg hk]
    have hn : 0 < (-k).toNat := by omega
    refine (powNat_post hA hC hx hn).bind fun p hp => ?_
    obtain ⟨c, d, ix⟩ : ∃ c d, Has p c d := by
      obtain ⟨r, hr⟩ := hx.nonempty
      exact has_of_mem (hp.1 r hr)
    have hne : ¬ (c = 0 ∧ d = 0) := fun h => by
      have h1 := (zero_bounds ix).1 h
      refine h0 hneg.le ((zero_bounds hx).2 fun r hr => ?_)
      have := h1 (hp.1 r hr)
      exact eq_zero_of_pow_eq_zero this
    rw [multInv_eq hC ix]
    refine (divTI_post hA.op hV (hI hneg) hC (r := 1) val_one ix hne).mono fun z hz r hr h => ?_
    have hm := hz.encl hA.D_le hA.U_ge (a := 1 / r ^ (-k).toNat) ⟨1, rfl, _, hp.1 r hr, pow_ne_zero _ (h hneg), rfl⟩
    have e : r ^ k = 1 / r ^ (-k).toNat := by
      obtain ⟨m, hm⟩ : ∃ m : ℕ, k = -(m : ℤ) := ⟨(-k).toNat, by omega⟩
      rw [hm, zpow_neg, zpow_natCast, one_div, neg_neg, Int.toNat_natCast]
    rw [e]; exact hm
  · rw [if_neg hneg]
    obtain ⟨n, rfl⟩ : ∃ n : ℕ, k = n := ⟨k.toNat, by omega⟩
    rcases Nat.eq_zero_or_pos n with rfl | hn
    · change Post tot (powNat (purePolicies B C) x 0) _
      rw [powNat_zero hC hx (h0 le_rfl)]
      intro r _ _
      exact ⟨1, 1, val_one, val_one, by simp, by simp⟩
    · change Post tot (powNat (purePolicies B C) x n) _
      exact (powNat_post hA hC hx hn).mono fun z hz r hr _ => by rw [zpow_natCast]; exact hz.1 r hr

theorem powI_zero_neg (hA : DirLaws True LeS GeS B) (hC : ChkLaws C) (hx : Has x a b) {k : ℤ}
    (hk : k ≠ intMin) (h : a = 0 ∧ b = 0) (hneg : k ≤ 0) : powI (purePolicies B C) x k = emptyI C := by
  unfold powI
  rw [pure_chk, res_if_false (hx.test hC)]
  by_cases hk0 : k < 0
  · rw [if_pos hk0, if_neg hk]
    obtain ⟨p, hp, _, hp'⟩ := (powNat_post hA hC hx (n := (-k).toNat) (by omega)).total
    have ix := hp' h.1 h.2
    rw [hp]
    change multInv (purePolicies B C) p = _
    rw [multInv_eq hC ix]
    exact divTI_zero hC (r := 1) val_one ix ⟨rfl, rfl⟩
  · have : k = 0 := by omega
    subst this
    exact powNat_zero_empty hC hx h

theorem powI_min (hC : ChkLaws C) (hx : Has x a b) : powI (purePolicies B C) x intMin = .error .ub := by
  unfold powI
  rw [pure_chk, res_if_false (hx.test hC)]
  rfl

/-! ## fmod -/

theorem reItv_ok (hC : ChkLaws C) (hx : Has x a b) : (lift (reItv C C x) : Res (Itv T)) = .ok x := by
  unfold reItv
  have := hx.test hC
  unfold testI at this
  rw [this]; rfl

theorem backI_ok (hC : ChkLaws C) (same : Bool) (hx : Has x a b) : (backI same C x : Res (Itv T)) = .ok x := by
  cases same
  · exact reItv_ok hC hx
  · rfl

theorem Bnd.has {S : Set ℝ} {z : Itv T} (hDU : DU T D U) (h : Bnd D U S z) (hS : S.Nonempty) : ∃ l u, Has z l u := by
  obtain ⟨s, hs⟩ := hS
  exact has_of_mem (h.encl hDU.D_le hDU.U_ge hs)

/-- What is known about the result of `fmod`. `p` is the value of the lower bound of the first operand, `w` that of the
chosen bound of the second. -/
def FmodOut (p : ℝ) (w : EReal) (X Y : Set ℝ) (Z : Itv T) : Prop :=
  (∃ n : ℤ, (∀ r ∈ X, ∀ s ∈ Y, r - n * s ∈ γ Z) ∧ (∃ v : ℝ, IsRoundDown T v (p / w) ∧ n = ⌊v⌋) ∧
    ∃ N : Itv T, Bnd (IsRoundDown T) (IsRoundUp T) (image2 (· * ·) {(n : ℝ)} Y) N ∧
      Bnd (IsRoundDown T) (IsRoundUp T) (image2 (· - ·) X (γ N)) Z) ∧
  ((∀ s ∈ Y, 0 < s) → ∃ l : ℝ, val Z.lower = some (l : EReal) ∧ 0 ≤ l ∧ (0 ≤ p → l ≤ p) ∧
    (∀ q : ℝ, (p : EReal) / w = q → Representable T ((⌊q⌋ : ℝ) : EReal) → (l : EReal) < w))

theorem quot_real {p : ℝ} {w : EReal} : ∃ q : ℝ, (p : EReal) / w = q := by
  induction w with
  | bot => exact ⟨0, by simp⟩
  | top => exact ⟨0, by simp⟩
  | coe w => exact ⟨p / w, by rw [EReal.coe_div]⟩

theorem fmod_int {V : Env T} (hV : V.Tight) (hi : V.IntOk) {s t : T} {p : ℝ} {w : EReal} (hs : val s = some (p : EReal))
    (ht : val t = some w) (hw : w ≠ 0) (hm : ∃ m : ℝ, Representable T m ∧ (m : EReal) ≤ p / w) :
    Post True (V.B.divDown s t >>= fun d => V.B.intDown d) fun n => ∃ k : ℤ, val n = some ((k : ℝ) : EReal) ∧
      (∃ v : ℝ, IsRoundDown T v (p / w) ∧ k = ⌊v⌋) ∧ ∀ q : ℝ, (p : EReal) / w = q → (k : ℝ) ≤ q ∧ (0 ≤ q → 0 ≤ k) ∧
        (Representable T ((⌊q⌋ : ℝ) : EReal) → k = ⌊q⌋) := by
  refine ((hV.div du_tight).divDown s t p w hs ht ⟨hw, .inl ⟨EReal.coe_ne_bot _, EReal.coe_ne_top _⟩⟩).bind fun d hd => ?_
  obtain ⟨z, hz, hzd⟩ := hd
  obtain ⟨q, hq⟩ := quot_real (p := p) (w := w)
  obtain ⟨m, hm, hmq⟩ := hm
  have h1 : (m : EReal) ≤ z := hzd.2.2 m hm hmq
  have h2 : z ≤ (q : EReal) := hq ▸ hzd.2.1
  have hz1 : z ≠ ⊥ := fun h => by rw [h] at h1; exact absurd (le_bot_iff.1 h1) (EReal.coe_ne_bot _)
  have hz2 : z ≠ ⊤ := fun h => by rw [h] at h2; exact absurd (top_le_iff.1 h2) (EReal.coe_ne_top _)
  lift z to ℝ using ⟨hz2, hz1⟩
  refine (hi.down hV hz).mono fun n hn => ⟨⌊z⌋, hn, ⟨z, hzd, rfl⟩, fun q' hq' => ?_⟩
  rw [hq] at hq'
  have e : q = q' := by exact_mod_cast hq'
  subst e
  have h5 : z ≤ q := by exact_mod_cast h2
  refine ⟨(Int.floor_le z).trans h5, fun h0 => ?_, fun hr => ?_⟩
  · have : (0 : EReal) ≤ z := hzd.2.2 0 ⟨_, val_zero⟩ (by rw [hq]; exact_mod_cast h0)
    exact Int.floor_nonneg.2 (by exact_mod_cast this)
  · have h3 : ((⌊q⌋ : ℝ) : EReal) ≤ z := hzd.2.2 _ hr (by rw [hq]; exact_mod_cast Int.floor_le q)
    have h4 : (⌊q⌋ : ℝ) ≤ z := by exact_mod_cast h3
    exact le_antisymm (Int.floor_le_floor h5) (Int.le_floor.2 h4)

/-- Largest of the multiples `k * b`. -/
theorem fmod_lub {p : ℝ} {w : EReal} {k : ℤ} (hy : Has y c d) (hc : 0 < c) {q : ℝ}
    (hw : w = if p < 0 then c else d) (hq : (p : EReal) / w = q) (hk : (k : ℝ) ≤ q) (hk0 : 0 ≤ q → 0 ≤ k) {e : EReal}
    (he : IsLUB (E (image2 (· * ·) {(k : ℝ)} (γ y))) e) :
    e ≤ p ∧ e ≠ ⊥ ∧ (0 ≤ p → 0 ≤ e) ∧ (k = ⌊q⌋ → (p : EReal) - e < w) := by
  have hd : 0 < d := hc.trans_le hy.le
  by_cases hwt : w = ⊤
  · have hp : ¬ p < 0 := fun hp => by rw [if_pos hp] at hw; exact hy.ne_top (hw ▸ hwt)
    have hq0 : q = 0 := by
      rw [hwt] at hq
      have h0 : (p : EReal) / ⊤ = 0 := by simp
      rw [h0] at hq; exact_mod_cast hq.symm
    have hk0 : k = 0 := by
      have h1 : k ≤ 0 := by rw [hq0] at hk; exact_mod_cast hk
      exact le_antisymm h1 (hk0 hq0.ge)
    have : IsLUB (E (image2 (· * ·) {(k : ℝ)} (γ y))) 0 := by
      rw [hk0, image2_mul_zero (by simp) hy.nonempty]; simp [E]
    rw [he.unique this, hwt]
    refine ⟨by exact_mod_cast not_lt.1 hp, EReal.zero_ne_bot, fun _ => le_rfl, fun _ => ?_⟩
    rw [sub_zero]; exact EReal.coe_lt_top _
  · have hw0 : 0 < w := by rw [hw]; split_ifs; exacts [hc, hd]
    have hwb : w ≠ ⊥ := fun h => absurd hw0 (by rw [h]; simp)
    have hmem : ∀ v : ℝ, w = v → v ∈ γ y := fun v hv => by
      rw [hy.gamma]
      rw [hv] at hw
      unfold RI
      rw [mem_ofPred_eq, hw]
      split_ifs
      exacts [⟨le_rfl, hy.le⟩, ⟨hy.le, le_rfl⟩]
    lift w to ℝ using ⟨hwt, hwb⟩
    have hwpos : 0 < w := by exact_mod_cast hw0
    have hq' : q = p / w := by
      have : ((p / w : ℝ) : EReal) = q := by rw [EReal.coe_div]; exact hq
      exact_mod_cast this.symm
    have hL : IsLUB (E (image2 (· * ·) {(k : ℝ)} (γ y))) ((k * w : ℝ) : EReal) := by
      refine isLUB_of ?_ (subset_closure ⟨_, ⟨_, rfl, w, hmem w rfl, rfl⟩, rfl⟩)
      rintro _ ⟨_, rfl, s, hs, rfl⟩
      refine EReal.coe_le_coe_iff.2 ?_
      by_cases hp : p < 0
      · rw [if_pos hp] at hw
        have h1 : w ≤ s := by
          have := hy.lb hs; rw [← hw] at this; exact_mod_cast this
        have h2 : (k : ℝ) ≤ 0 := hk.trans (hq' ▸ (div_neg_of_neg_of_pos hp hwpos).le)
        exact mul_le_mul_of_nonpos_left h1 h2
      · rw [if_neg hp] at hw
        have h1 : s ≤ w := by
          have := hy.ub hs; rw [← hw] at this; exact_mod_cast this
        have h2 : (0 : ℝ) ≤ k := by
          exact_mod_cast hk0 (hq' ▸ div_nonneg (not_lt.1 hp) hwpos.le)
        exact mul_le_mul_of_nonneg_left h1 h2
    rw [he.unique hL]
    have h1 : (k : ℝ) ≤ p / w := hq' ▸ hk
    have h3 : k * w ≤ p := (le_div_iff₀ hwpos).1 h1
    refine ⟨by exact_mod_cast h3, EReal.coe_ne_bot _, fun h0 => ?_, fun hkf => ?_⟩
    · have : (0 : ℝ) ≤ k := by exact_mod_cast hk0 (hq' ▸ div_nonneg h0 hwpos.le)
      exact_mod_cast mul_nonneg this hwpos.le
    · have h2 : p / w < k + 1 := by rw [hkf, hq']; exact Int.lt_floor_add_one _
      have h4 : p < (k + 1) * w := (div_lt_iff₀ hwpos).1 h2
      have : p - k * w < w := by linarith
      exact_mod_cast this

/-- From the integer to the result. -/
theorem fmod_tail {V : Env T} (same : Bool) (hV : V.Tight) (hx : Has x a b) (hy : Has y c d) {p : ℝ} (hp : a = p) {w : EReal}
    (hw : w = if p < 0 then c else d) {n : T} {k : ℤ}
    (hn : val n = some ((k : ℝ) : EReal)) (hv : ∃ v : ℝ, IsRoundDown T v (p / w) ∧ k = ⌊v⌋)
    (hk : ∀ q : ℝ, (p : EReal) / w = q → (k : ℝ) ≤ q ∧ (0 ≤ q → 0 ≤ k) ∧
        (Representable T ((⌊q⌋ : ℝ) : EReal) → k = ⌊q⌋)) :
    Post True (mulTI V.pp n y >>= fun ny => subII V.pp x ny >>= fun r => (backI same V.C r : Res (Itv T)))
      (FmodOut p w (γ x) (γ y)) := by
  have hA := hV.dir du_tight
  refine (mulTI_post hA.op V.chk hn hy).bind fun ny hny => ?_
  obtain ⟨c', d', iny⟩ := hny.has du_tight ((singleton_nonempty _).image2 hy.nonempty)
  refine (subII_post hA.op V.chk hx iny).bind fun z hz => ?_
  obtain ⟨l', u', iz⟩ := hz.has du_tight (hx.nonempty.image2 iny.nonempty)
  rw [backI_ok V.chk same iz]
  refine ⟨⟨k, fun r hr s hs => ?_, hv, ny, hny, hz⟩, fun hpos => ?_⟩
  · exact hz.encl hA.D_le hA.U_ge ⟨r, hr, _, hny.encl hA.D_le hA.U_ge ⟨_, rfl, s, hs, rfl⟩, rfl⟩
  · have hc : 0 < c := by
      have hcb : c ≠ ⊥ := fun h => by
        have := hy.lower_cl
        have h1 : IsGLB (E (γ y)) c := isGLB_of (fun r hr => hy.lb hr) this
        have h2 : (0 : EReal) ≤ c := h1.2 (by rintro _ ⟨r, hr, rfl⟩; exact_mod_cast (hpos r hr).le)
        rw [h] at h2; exact absurd h2 (by simp)
      have hct := hy.ne_top
      have hm := hy.le
      have hg := hy.gamma
      clear hy hw hny iny
      lift c to ℝ using ⟨hct, hcb⟩
      have : c ∈ γ y := by rw [hg]; exact ⟨le_rfl, hm⟩
      exact_mod_cast hpos c this
    obtain ⟨_, u, _, e₂, _, hu, _, he₂, _, hU⟩ := hny
    rw [iny.up] at hu; cases hu
    obtain ⟨q, hq⟩ := quot_real (p := p) (w := w)
    obtain ⟨hk1, hk2, hk3⟩ := hk q hq
    obtain ⟨h1, hb1, hb2, h2⟩ := fmod_lub hy hc hw hq hk1 hk2 he₂
    subst hp
    have h3 : d' ≤ p := hU.2.2 p ⟨_, hx.lo⟩ h1
    obtain ⟨l, _, e₁, _, hl, _, he₁, _, hD, _⟩ := hz
    have e := he₁.unique (glb_sub hx iny)
    rw [e] at hD
    have hdb := iny.ne_bot
    have hdt : d' ≠ ⊤ := fun h => by rw [h] at h3; exact absurd (top_le_iff.1 h3) (EReal.coe_ne_top _)
    clear iny he₁ e iz
    lift d' to ℝ using ⟨hdt, hdb⟩
    have h3' : d' ≤ p := by exact_mod_cast h3
    have hl0 : 0 ≤ l := hD.2.2 0 ⟨_, val_zero⟩ (by
      have : 0 ≤ p - d' := by linarith
      exact_mod_cast this)
    have hlu : l ≤ ((p - d' : ℝ) : EReal) := by rw [EReal.coe_sub]; exact hD.2.1
    have hlt : l ≠ ⊤ := fun h => by rw [h] at hlu; exact absurd (top_le_iff.1 hlu) (EReal.coe_ne_top _)
    have hlb : l ≠ ⊥ := fun h => by rw [h] at hl0; exact absurd hl0 (by simp)
    have hlast : l ≤ (p : EReal) - e₂ := hD.2.1.trans (EReal.sub_le_sub le_rfl hU.2.1)
    have hd0 : 0 ≤ p → 0 ≤ d' := fun h => by exact_mod_cast (hb2 h).trans hU.2.1
    clear hD
    lift l to ℝ using ⟨hlt, hlb⟩
    have hlu' : l ≤ p - d' := by exact_mod_cast hlu
    refine ⟨l, hl, by exact_mod_cast hl0, fun h0 => by linarith [hd0 h0], fun q' hq' hr => ?_⟩
    rw [hq] at hq'
    have e : q = q' := by exact_mod_cast hq'
    subst e
    exact lt_of_le_of_lt hlast (h2 (hk3 hr))

theorem fmodAux_post {V : Env T} (same : Bool) (hV : V.Tight) (hi : V.IntOk) (hx : Has x a b) (hy : Has y c d) (h0 : NoZero c d)
    {p : ℝ} (hp : a = p) {w : EReal} (hw : w = if p < 0 then c else d)
    (hm : ∃ m : ℝ, Representable T m ∧ (m : EReal) ≤ p / w) :
    Post True (fmodAux same V.pp x y) (FmodOut p w (γ x) (γ y)) := by
  unfold fmodAux
  rw [pure_chk, res_if_false (hx.test2 V.chk hy), pure_scope, pure_rnd, pure_unprot]
  have hd0 : w ≠ 0 := by
    rw [hw]
    rcases h0 with h | h
    · split_ifs; exacts [h.ne', (h.trans_le hy.le).ne']
    · split_ifs; exacts [(lt_of_le_of_lt hy.le h).ne, h.ne]
  have hb : val (if isNeg x.lower then y.lower else y.upper) = some w := by
    rw [isNeg_eq hx.lo, hp, hw]
    by_cases h : p < 0
    · have h' : (p : EReal) < 0 := by exact_mod_cast h
      simp [h, h', hy.lo]
    · have h' : ¬ (p : EReal) < 0 := by exact_mod_cast h
      simp [h, h', hy.up]
  have k := fmod_int hV hi (hp ▸ hx.lo) hb hd0 hm
  have : (V.B.divDown x.lower (if isNeg x.lower then y.lower else y.upper) >>= fun d => V.B.intDown d >>= fun n =>
      mulTI V.pp n y >>= fun ny => subII V.pp x ny >>= fun r => (backI same V.C r : Res (Itv T))) =
      ((V.B.divDown x.lower (if isNeg x.lower then y.lower else y.upper) >>= fun d => V.B.intDown d) >>= fun n =>
      mulTI V.pp n y >>= fun ny => subII V.pp x ny >>= fun r => (backI same V.C r : Res (Itv T))) := by
    rw [bind_assoc]
  refine this ▸ k.bind fun n hn => ?_
  obtain ⟨k, h1, hv, h2⟩ := hn
  exact fmod_tail same hV hx hy hp hw h1 hv h2

theorem fmodII_post {V : Env T} (hV : V.Tight) (hi : V.IntOk) (hx : Has x a b) (hy : Has y c d) (h0 : NoZero c d)
    {p : ℝ} (hp : a = p) {w : EReal} (hw : w = if p < 0 then c else d)
    (hm : ∃ m : ℝ, Representable T m ∧ (m : EReal) ≤ p / w) :
    Post True (fmodII V.pp x y) (FmodOut p w (γ x) (γ y)) := fmodAux_post false hV hi hx hy h0 hp hw hm

theorem fmodIT_eq {V : Env T} {t : T} {r : ℝ} (hx : Has x a b) (ht : val t = some (r : EReal)) :
    fmodIT V.pp x t = fmodII V.pp x ⟨t, t⟩ := by
  unfold fmodIT fmodII fmodAux ctorT
  rw [pure_chk, res_if_false (hx.test2 V.chk (has_single ht)), res_if_false (testIT_ok V.chk ht hx), V.chk.isNan _ _ ht]
  simp only [ite_self]
  rfl

theorem subTI_eq {t : T} {r : ℝ} (hC : ChkLaws C) (ht : val t = some (r : EReal)) (hy : Has y c d) :
    subTI (purePolicies B C) t y = subII (purePolicies B C) ⟨t, t⟩ y := by
  unfold subTI subII
  rw [pure_chk, res_if_false (testTI_ok hC ht hy), res_if_false ((has_single ht).test2 hC hy)]

theorem fmodTI_post {V : Env T} (hV : V.Tight) (hi : V.IntOk) {t : T} {p : ℝ} (ht : val t = some (p : EReal))
    (hy : Has y c d) (h0 : NoZero c d) {w : EReal} (hw : w = if p < 0 then c else d)
    (hm : ∃ m : ℝ, Representable T m ∧ (m : EReal) ≤ p / w) :
    Post True (fmodTI V.pp t y) (FmodOut p w {p} (γ y)) := by
  unfold fmodTI
  rw [pure_chk, res_if_false (testTI_ok V.chk ht hy), pure_scope, pure_rnd, pure_unprot]
  have hd0 : w ≠ 0 := by
    rw [hw]
    rcases h0 with h | h
    · split_ifs; exacts [h.ne', (h.trans_le hy.le).ne']
    · split_ifs; exacts [(lt_of_le_of_lt hy.le h).ne, h.ne]
  have hb : val (if isNeg t then y.lower else y.upper) = some w := by
    rw [isNeg_eq ht, hw]
    by_cases h : p < 0
    · have h' : (p : EReal) < 0 := by exact_mod_cast h
      simp [h, h', hy.lo]
    · have h' : ¬ (p : EReal) < 0 := by exact_mod_cast h
      simp [h, h', hy.up]
  have k := fmod_int hV hi ht hb hd0 hm
  have : (V.B.divDown t (if isNeg t then y.lower else y.upper) >>= fun d => V.B.intDown d >>= fun n =>
      mulTI V.pp n y >>= fun ny => subTI V.pp t ny >>= fun r => (lift (reItv V.C V.C r) : Res (Itv T))) =
      ((V.B.divDown t (if isNeg t then y.lower else y.upper) >>= fun d => V.B.intDown d) >>= fun n =>
      mulTI V.pp n y >>= fun ny => subTI V.pp t ny >>= fun r => (lift (reItv V.C V.C r) : Res (Itv T))) := by
    rw [bind_assoc]
  refine this ▸ k.bind fun n hn => ?_
  obtain ⟨k, h1, hv, h2⟩ := hn
  have h3 := fmod_tail false hV (has_single ht) hy rfl hw h1 hv h2
  rw [gamma_single ht] at h3
  obtain ⟨ny, e1, hny⟩ := (mulTI_post (hV.dir du_tight).op V.chk h1 hy).total
  obtain ⟨_, _, iny⟩ := hny.has du_tight ((singleton_nonempty _).image2 hy.nonempty)
  rw [e1] at h3 ⊢
  change Post True (subTI V.pp t ny >>= _) _
  rw [subTI_eq V.chk ht iny]
  exact h3

end
end BI
