import Mathlib.Analysis.Real.Pi.Bounds
import Verif.Proofs.Conv
import Verif.Proofs.Elem
import Verif.Proofs.Empty
import Verif.Proofs.EnclUtil
/-! # cos, sin, tan -/

set_option linter.unusedSectionVars false

namespace BI
open Set

section
variable {T : Type} [Num T] [Val T] [NumLaws T] {V : Env T} {D U : EReal → EReal → Prop} {x y : Itv T} {a b c d e : EReal}
  {t : T} {K : PiConst T}

/-! ## A first operand without lower bound -/

theorem negRes_post {o : Option T} (hn : ∀ a : T, Num.neg a ≠ none) {v : Option EReal} (h : ∃ c, o = some c ∧ val c = v) :
    Post True (negRes o) fun c => val c = v.map fun x => -x := by
  obtain ⟨c, rfl, hc⟩ := h
  obtain ⟨n, hn⟩ := Option.ne_none_iff_exists'.1 (hn c)
  change Post True (ofOpt (Num.neg c)) _
  rw [hn]
  change val n = _
  rw [NumLaws.neg _ _ hn, hc]

theorem intDown_bot (hV : V.Tight) (hI : IeeeBase T) (ht : val t = some ⊥) :
    Post True (V.B.intDown t) fun c => val c = some ⊥ := by
  unfold Env.B
  cases hk : V.kind with
  | exact =>
    obtain ⟨c, h1, h2⟩ := hI.floor t ht
    change Post True (ofOpt (Num.floor t)) _
    rw [h1]; exact h2
  | std =>
    obtain ⟨c, h1, h2⟩ := hI.rintDown t ht
    change Post True (ofOpt (Num.rint .down t)) _
    rw [h1]; exact h2
  | opp =>
    obtain ⟨n, hn⟩ := Option.ne_none_iff_exists'.1 (hV.neg t)
    obtain ⟨c, h1, h2⟩ := hI.rintUp n (by rw [NumLaws.neg _ _ hn, ht]; rfl)
    change Post True (negRes ((Num.neg t).bind fun nx => Num.rint .up nx)) _
    rw [hn]
    exact (negRes_post hV.neg ⟨c, h1, h2⟩).mono fun _ h => h

theorem subDown_nan (hV : V.Tight) (hI : IeeeBase T) {s : T} (h : val s = some ⊥ ∧ val t = some ⊥) :
    Post True (V.B.subDown s t) fun c => val c = none := by
  unfold Env.B
  cases hk : V.kind with
  | exact =>
    obtain ⟨c, h1, h2⟩ := hI.sub .near s t (.inl h)
    change Post True (ofOpt (Num.sub .near s t)) _
    rw [h1]; exact h2
  | std =>
    obtain ⟨c, h1, h2⟩ := hI.sub .down s t (.inl h)
    change Post True (ofOpt (Num.sub .down s t)) _
    rw [h1]; exact h2
  | opp => exact (negRes_post hV.neg (hI.sub .up t s (.inl h.symm))).mono fun _ h => h

theorem subUp_nan (hI : IeeeBase T) {s : T} (h : val t = none) :
    Post True (V.B.subUp s t) fun c => val c = none := by
  unfold Env.B
  cases hk : V.kind with
  | exact =>
    obtain ⟨c, h1, h2⟩ := hI.sub .near s t (.inr (.inr h))
    change Post True (ofOpt (Num.sub .near s t)) _
    rw [h1]; exact h2
  | std =>
    obtain ⟨c, h1, h2⟩ := hI.sub .up s t (.inr (.inr h))
    change Post True (ofOpt (Num.sub .up s t)) _
    rw [h1]; exact h2
  | opp =>
    obtain ⟨c, h1, h2⟩ := hI.sub .up s t (.inr (.inr h))
    change Post True (ofOpt (Num.sub .up s t)) _
    rw [h1]; exact h2

/-- `fmod`, on the unprotected type, of an interval that extends to minus infinity. -/
theorem fmod_bot (hV : V.Tight) (hI : IeeeBase T) (hx : Has x ⊥ b) (hy : Has y c d) (hc : 0 < c) :
    Post True (fmodAux true V.pp x y) fun z => val z.lower = none ∧ val z.upper = some ⊤ := by
  have hA := hV.dir du_tight
  have hd : 0 < d := hc.trans_le hy.le
  have hcb : c ≠ ⊥ := fun h => absurd hc (by rw [h]; simp)
  unfold fmodAux
  rw [pure_chk, res_if_false (hx.test2 V.chk hy), pure_scope, pure_rnd, pure_unprot, isNeg_eq hx.lo]
  simp only [EReal.bot_lt_zero, decide_true, if_true]
  refine ((hV.div du_tight).divDown _ _ _ _ hx.lo hy.lo ⟨hc.ne', .inr ⟨hcb, hy.ne_top⟩⟩).bind fun q hq => ?_
  obtain ⟨z, hz, hzd⟩ := hq
  have hz0 : z = ⊥ := by
    have := hzd.2.1
    rw [EReal.bot_div_of_pos_ne_top hc hy.ne_top] at this
    exact le_bot_iff.1 this
  subst hz0
  refine (intDown_bot hV hI hz).bind fun n hn => ?_
  have h1 : Post True (mulTI V.pp n y) fun w => val w.lower = some ⊥ ∧ val w.upper = some ⊥ := by
    unfold mulTI
    rw [pure_chk, res_if_false (testTI_ok V.chk hn hy), pure_scope, isNeg_eq hn]
    simp only [EReal.bot_lt_zero, decide_true, if_true]
    refine (Post.pair (hA.mulDown _ _ _ _ hn hy.up ⟨.inl (by simp), .inl hd.ne'⟩)
      (hA.mulUp _ _ _ _ hn hy.lo ⟨.inl (by simp), .inl hc.ne'⟩)).bind fun p hp => ?_
    obtain ⟨⟨z, hz, hzd⟩, w, hw, hwu⟩ := hp
    rw [EReal.bot_mul_of_pos hd] at hzd
    rw [EReal.bot_mul_of_pos hc] at hwu
    obtain rfl := le_bot_iff.1 hzd.2.1
    obtain rfl := le_bot_iff.1 (hwu.2.2 ⊥ ⟨n, hn⟩ le_rfl)
    exact ⟨hz, hw⟩
  refine h1.bind fun ny hny => ?_
  have h2 : testII V.C V.C x ny = .ok false := by
    unfold testII
    rw [V.chk.isEmpty _ _ _ _ hx.lo hx.up hx.le]
    exact V.chk.isEmpty _ _ _ _ hny.1 hny.2 le_rfl
  have h3 : Post True (subII V.pp x ny) fun z => val z.lower = none ∧ val z.upper = some ⊤ := by
    unfold subII
    rw [pure_chk, res_if_false h2, pure_scope]
    refine (Post.pair (subDown_nan hV hI ⟨hx.lo, hny.2⟩)
      (hA.subUp _ _ _ _ hx.up hny.1 ⟨.inr (by simp), .inl hx.ne_bot⟩)).bind fun p hp => ?_
    obtain ⟨hp1, w, hw, hwu⟩ := hp
    refine ⟨hp1, ?_⟩
    have : b - ⊥ = ⊤ := by
      rw [sub_eq_add_neg, EReal.neg_bot]; exact EReal.add_top_of_ne_bot hx.ne_bot
    rw [this] at hwu
    have := top_le_iff.1 hwu.2.1
    rw [this] at hw; exact hw
  exact h3.bind fun z hz => hz

/-! ## The cosine -/

/-- What is claimed about the result of `cos`; `R` says that the library does not leave `[-1, 1]`. -/
def CosOut (R : Prop) (S : Set ℝ) (z : Itv T) : Prop :=
  (∀ r ∈ S, Real.cos r ∈ γ z) ∧ (R → ∀ s ∈ γ z, -1 ≤ s ∧ s ≤ 1)

/-- The library does not leave `[-1, 1]`. -/
def UnitOk (D U : EReal → EReal → Prop) : Prop :=
  ∀ (z : EReal) (r : ℝ), (D z r → -1 ≤ r → -1 ≤ z) ∧ (U z r → r ≤ 1 → z ≤ 1)

theorem lit_unit : γ (⟨Num.lit (-1), Num.lit 1⟩ : Itv T) = Icc (-1) 1 := by
  have := (⟨val_negOne, val_one, m1_coe ▸ EReal.coe_ne_top _, EReal.coe_ne_bot 1, by
    rw [← m1_coe, ← EReal.coe_one]; exact EReal.coe_le_coe_iff.2 (by norm_num)⟩ : Has (⟨Num.lit (-1), Num.lit 1⟩ : Itv T) (-1) 1).gamma
  rw [this]
  ext r
  unfold RI
  rw [mem_ofPred_eq, mem_Icc, m1_le]
  norm_cast

theorem cos_unit {R : Prop} {S : Set ℝ} : CosOut R S (⟨Num.lit (-1), Num.lit 1⟩ : Itv T) := by
  refine ⟨fun r _ => ?_, fun _ s hs => ?_⟩
  · rw [lit_unit]; exact Real.cos_mem_Icc r
  · rw [lit_unit] at hs; exact hs

theorem cos_sym {m r : ℝ} (h0 : 0 ≤ m) (h1 : m ≤ r) (h2 : r ≤ 2 * Real.pi - m) : Real.cos r ≤ Real.cos m := by
  rcases le_total r Real.pi with h | h
  · exact Real.cos_le_cos_of_nonneg_of_le_pi h0 h h1
  · rw [← Real.cos_two_pi_sub r]
    exact Real.cos_le_cos_of_nonneg_of_le_pi h0 (by linarith) (by linarith)

/-- One level of `cos`, given the result of `fmod` and what the recursive call does. -/
theorem cos_level (hV : V.Tight) (hDU : DU T D U) (hf : V.FnOk D U .cos) (hK : PiOk LeB GeB K) (same : Bool) (fuel : Nat)
    (hx : Has x a b) {tmp : Itv T} {n : ℤ} {l : ℝ} (ht : fmodAux true V.pp x (piTwiceI K) = .ok tmp)
    (hn : ∀ r ∈ γ x, r - n * (2 * Real.pi) ∈ γ tmp) (hl : val tmp.lower = some (l : EReal)) (h0 : 0 ≤ l)
    (hrec : ∀ (t : Itv T) (p : ℝ) (q : EReal), Has t p q → 0 ≤ p → p ≤ l - 3 →
      Post True (cosAux K true fuel V.pp t) (CosOut (UnitOk D U) (γ t))) :
    Post True (cosAux K same (fuel + 1) V.pp x) (CosOut (UnitOk D U) (γ x)) := by
  have hA := hV.dir du_tight
  obtain ⟨r₀, hr₀⟩ := hx.nonempty
  obtain ⟨l', u, it⟩ := has_of_mem (hn r₀ hr₀)
  obtain rfl : l' = l := by have := it.lo; rw [hl] at this; cases this; rfl
  obtain ⟨τl, hτl, hτl'⟩ := hK.piTwiceLower
  obtain ⟨pl, hpl, hpl'⟩ := hK.piLower
  obtain ⟨pu, hpu, hpu'⟩ := hK.piUpper
  change τl ≤ _ at hτl'
  change pl ≤ _ at hpl'
  change _ ≤ pu at hpu'
  -- enclosing the images of the translates suffices
  have red : ∀ {z : Itv T}, CosOut (UnitOk D U) (γ tmp) z → CosOut (UnitOk D U) (γ x) z := fun hz =>
    ⟨fun r hr => by have := hz.1 _ (hn r hr); rwa [Real.cos_sub_int_mul_two_pi] at this, hz.2⟩
  unfold cosAux
  rw [pure_chk, res_if_false (hx.test V.chk), pure_scope, pure_rnd, pure_unprot, ht]
  change Post True (width V.pp tmp >>= _) _
  unfold width
  rw [pure_chk, res_if_false (it.test V.chk), pure_scope, pure_rnd]
  refine (hA.subUp _ _ _ _ it.up it.lo ⟨.inr (EReal.coe_ne_top _), .inr (EReal.coe_ne_bot _)⟩).bind fun w _ => ?_
  rw [le_eq hpu it.lo, le_eq it.up hpl, le_eq it.up hτl]
  cases Num.le K.piTwiceLower w with
  | true => exact cos_unit
  | false =>
    simp only [Bool.false_eq_true, if_false, decide_eq_true_eq]
    by_cases h1 : pu ≤ (l : EReal)
    · -- the recursive call
      rw [if_pos h1]
      have ip : Has (piI K) pl pu := ⟨hpl, hpu, (hpl'.trans_lt (EReal.coe_lt_top _)).ne,
        ((EReal.bot_lt_coe _).trans_le hpu').ne', hpl'.trans hpu'⟩
      have hpi : Real.pi ∈ γ (piI K) := by rw [ip.gamma]; exact ⟨hpl', hpu'⟩
      refine (subII_post hA.op V.chk it ip).bind fun t hbt => ?_
      obtain ⟨p', q', ih⟩ := hbt.has du_tight (it.nonempty.image2 ip.nonempty)
      have hp : ∃ p : ℝ, p' = p ∧ 0 ≤ p ∧ p ≤ l - 3 := by
        obtain ⟨k, _, e₁, _, hk, _, he₁, _, hD, _⟩ := id hbt
        have e := he₁.unique (glb_sub it ip)
        rw [e] at hD
        rw [ih.lo] at hk; cases hk
        have hpu2 : pu ≠ ⊤ := (h1.trans_lt (EReal.coe_lt_top _)).ne
        have hpu3 := ip.ne_bot
        clear ip hpi hbt
        lift pu to ℝ using ⟨hpu2, hpu3⟩
        have g1 : pu ≤ l := by exact_mod_cast h1
        have g2 : Real.pi ≤ pu := by exact_mod_cast hpu'
        have g3 : (0 : EReal) ≤ p' := hD.2.2 0 ⟨_, val_zero⟩ (by
          have : 0 ≤ l - pu := by linarith
          exact_mod_cast this)
        have g4 : p' ≤ ((l - pu : ℝ) : EReal) := by rw [EReal.coe_sub]; exact hD.2.1
        have g5 := ih.ne_top
        have g6 : p' ≠ ⊥ := fun h => by rw [h] at g3; exact absurd g3 (by simp)
        clear ih hD
        lift p' to ℝ using ⟨g5, g6⟩
        have g7 : p' ≤ l - pu := by exact_mod_cast g4
        exact ⟨p', rfl, by exact_mod_cast g3, by linarith [Real.pi_gt_three]⟩
      obtain ⟨p, rfl, hp0, hp1⟩ := hp
      refine (hrec t p q' ih hp0 hp1).bind fun c hc => ?_
      obtain ⟨c₁, c₂, ic⟩ := has_of_mem (hc.1 _ (hbt.encl hA.D_le hA.U_ge ⟨_, hn r₀ hr₀, _, hpi, rfl⟩))
      obtain ⟨z, hz, iz⟩ := negI_has hV.neg V.chk ic
      rw [hz]
      change Post True (backI same V.C z) _
      rw [backI_ok V.chk same iz]
      refine red ⟨fun r hr => ?_, fun hR s hs => ?_⟩
      · have := hc.1 _ (hbt.encl hA.D_le hA.U_ge ⟨r, hr, _, hpi, rfl⟩)
        rw [Real.cos_sub_pi, ic.gamma] at this
        rw [iz.gamma]
        have g : Real.cos r = -(-Real.cos r) := by ring
        rw [g]
        exact ⟨by rw [EReal.coe_neg]; exact EReal.neg_le_neg_iff.2 this.2,
          by rw [EReal.coe_neg]; exact EReal.neg_le_neg_iff.2 this.1⟩
      · have : -s ∈ γ c := by
          rw [iz.gamma] at hs
          rw [ic.gamma]
          exact ⟨by rw [EReal.coe_neg]; exact EReal.le_neg_of_le_neg hs.2, by rw [EReal.coe_neg]; exact EReal.neg_le_of_neg_le hs.1⟩
        have := hc.2 hR _ this
        constructor <;> linarith
    · rw [if_neg h1]
      by_cases h2 : u ≤ pl
      · -- decreasing
        rw [if_pos h2]
        have hut : u ≠ ⊤ := ((h2.trans hpl').trans_lt (EReal.coe_lt_top _)).ne
        have hub := it.ne_bot
        lift u to ℝ using ⟨hut, hub⟩
        have g1 : u ≤ Real.pi := by exact_mod_cast h2.trans hpl'
        refine (Post.pair (hf.down hDU it.up (.inl ⟨u, mem_univ _, rfl, rfl⟩))
          (hf.up hDU it.lo (.inl ⟨l, mem_univ _, rfl, rfl⟩))).bind fun p hp => ?_
        obtain ⟨⟨z, hz, hd⟩, w, hw, hu⟩ := hp
        refine red ⟨fun r hr => ?_, fun hR s hs => ?_⟩
        · rw [it.gamma_Icc] at hr
          refine ⟨z, w, hz, hw, (hDU.D_le hd).trans ?_, le_trans ?_ (hDU.U_ge hu)⟩
          · exact_mod_cast Real.cos_le_cos_of_nonneg_of_le_pi (h0.trans hr.1) g1 hr.2
          · exact_mod_cast Real.cos_le_cos_of_nonneg_of_le_pi h0 (hr.2.trans g1) hr.1
        · obtain ⟨z', w', k1, k2, k3, k4⟩ := hs
          cases hz.symm.trans k1
          cases hw.symm.trans k2
          exact ⟨m1_le.1 (((hR _ _).1 hd (Real.neg_one_le_cos u)).trans k3),
            by exact_mod_cast k4.trans ((hR _ _).2 hu (Real.cos_le_one l))⟩
      · rw [if_neg h2]
        by_cases h3 : u ≤ τl
        · -- around the minimum
          rw [if_pos h3]
          have hut : u ≠ ⊤ := ((h3.trans hτl').trans_lt (EReal.coe_lt_top _)).ne
          have hub := it.ne_bot
          lift u to ℝ using ⟨hut, hub⟩
          have hτt : τl ≠ ⊤ := (hτl'.trans_lt (EReal.coe_lt_top _)).ne
          have hτb : τl ≠ ⊥ := ((EReal.bot_lt_coe _).trans_le h3).ne'
          lift τl to ℝ using ⟨hτt, hτb⟩
          have g1 : u ≤ τl := by exact_mod_cast h3
          have g2 : τl ≤ 2 * Real.pi := by exact_mod_cast hτl'
          refine (hA.subDown _ _ _ _ hτl it.up ⟨.inl (EReal.coe_ne_top _), .inl (EReal.coe_ne_bot _)⟩).bind fun d hd => ?_
          obtain ⟨k, hk, hkd⟩ := hd
          have g3 : (0 : EReal) ≤ k := hkd.2.2 0 ⟨_, val_zero⟩ (by
            have : 0 ≤ τl - u := by linarith
            exact_mod_cast this)
          have g4 : k ≤ ((τl - u : ℝ) : EReal) := by rw [EReal.coe_sub]; exact hkd.2.1
          have g5 : k ≠ ⊤ := (g4.trans_lt (EReal.coe_lt_top _)).ne
          have g6 : k ≠ ⊥ := fun h => by rw [h] at g3; exact absurd g3 (by simp)
          clear hkd
          lift k to ℝ using ⟨g5, g6⟩
          have g7 : k ≤ τl - u := by exact_mod_cast g4
          have g8 : 0 ≤ k := by exact_mod_cast g3
          have hm : val (stdMin d tmp.lower) = some ((min k l : ℝ) : EReal) := by
            have := val_stdMin hk it.lo
            rw [this, EReal.coe_strictMono.monotone.map_min]
          refine (hf.up hDU hm (.inl ⟨_, mem_univ _, rfl, rfl⟩)).bind fun c hc => ?_
          obtain ⟨w, hw, hu⟩ := hc
          refine red ⟨fun r hr => ?_, fun hR s hs => ?_⟩
          · rw [it.gamma_Icc] at hr
            refine ⟨-1, w, val_negOne, hw, m1_le.2 (Real.neg_one_le_cos r), le_trans ?_ (hDU.U_ge hu)⟩
            have : Real.cos r ≤ Real.cos (min k l) := by
              refine cos_sym (le_min g8 h0) ((min_le_right _ _).trans hr.1) ?_
              have := min_le_left k l
              linarith [hr.2]
            exact_mod_cast this
          · obtain ⟨z', w', k1, k2, k3, k4⟩ := hs
            cases val_negOne.symm.trans k1
            cases hw.symm.trans k2
            exact ⟨m1_le.1 k3, by exact_mod_cast k4.trans ((hR _ _).2 hu (Real.cos_le_one _))⟩
        · rw [if_neg h3]
          exact cos_unit

theorem period_has {p : ℝ} {s t : T} (h1 : ∃ z, val s = some z ∧ LeB z p) (h2 : ∃ z, val t = some z ∧ GeB z p)
    (h : ∀ z, val s = some z → 1 ≤ z) : ∃ c d, Has (⟨s, t⟩ : Itv T) c d ∧ 1 ≤ c ∧ c ≤ p ∧ (p : EReal) ≤ d ∧ p ∈ γ (⟨s, t⟩ : Itv T) := by
  obtain ⟨c, hc, hc'⟩ := h1
  obtain ⟨d, hd, hd'⟩ := h2
  exact ⟨c, d, ⟨hc, hd, (lt_of_le_of_lt hc' (EReal.coe_lt_top _)).ne, (lt_of_lt_of_le (EReal.bot_lt_coe _) hd').ne', le_trans hc' hd'⟩,
    h c hc, hc', hd', _, _, hc, hd, hc', hd'⟩

/-- The quotient in `fmod` by a period not below 1 is not below all numbers of the base type. -/
theorem quot_low {p : ℝ} (hx : Has x p b) (hy : Has y c d) (hc : 1 ≤ c) :
    ∃ m : ℝ, Representable T m ∧ (m : EReal) ≤ p / (if p < 0 then c else d) := by
  have hc0 : 0 < c := lt_of_lt_of_le zero_lt_one hc
  have hd0 : 0 < d := hc0.trans_le hy.le
  by_cases h : p < 0
  · rw [if_pos h]
    refine ⟨p, ⟨_, hx.lo⟩, ?_⟩
    have hct := hy.ne_top
    have hcb : c ≠ ⊥ := fun h => absurd hc0 (by rw [h]; simp)
    clear hy hd0
    lift c to ℝ using ⟨hct, hcb⟩
    have h1 : (1 : ℝ) ≤ c := by exact_mod_cast hc
    rw [← EReal.coe_div]
    have : p ≤ p / c := by rw [le_div_iff₀ (by linarith)]; nlinarith
    exact_mod_cast this
  · rw [if_neg h]
    refine ⟨0, ⟨_, val_zero⟩, ?_⟩
    have : (0 : EReal) ≤ p := by exact_mod_cast not_lt.1 h
    exact EReal.div_nonneg this hd0.le

/-- `fmod` by an interval around a period not below 1. -/
theorem fmod_period (hV : V.Tight) (hi : V.IntOk) (hx : Has x a b) {p : ℝ} (hp : a = p) (hy : Has y c d) (hc : 1 ≤ c) :
    ∃ tmp, fmodAux true V.pp x y = .ok tmp ∧ (∃ n : ℤ, ∀ r ∈ γ x, ∀ s ∈ γ y, r - n * s ∈ γ tmp) ∧
      ∃ l : ℝ, val tmp.lower = some (l : EReal) ∧ 0 ≤ l ∧ (0 ≤ p → l ≤ p) := by
  have hc0 : 0 < c := lt_of_lt_of_le zero_lt_one hc
  have hm := quot_low (hp ▸ hx) hy hc
  obtain ⟨tmp, h1, h2⟩ := (fmodAux_post true hV hi hx hy (.inl hc0) hp rfl hm).total
  obtain ⟨l, h3, h4, h5, -⟩ := h2.2 fun s hs => by
    have := hc0.trans_le (hy.lb hs); exact_mod_cast this
  exact ⟨tmp, h1, h2.1.imp fun _ h => h.1, l, h3, h4, h5⟩

/-- `cos` of an interval with non-negative lower bound. -/
theorem cos_nonneg (hV : V.Tight) (hi : V.IntOk) (hDU : DU T D U) (hf : V.FnOk D U .cos) (hK : PiOk LeB GeB K) (hK' : PiPos K) (n : ℕ) :
    ∀ (same : Bool) (x : Itv T) (p : ℝ) (b : EReal), Has x p b → 0 ≤ p → p ≤ 3 * n → ∀ fuel > n,
      Post True (cosAux K same fuel V.pp x) (CosOut (UnitOk D U) (γ x)) := by
  obtain ⟨c, d, hy, hc, -, -, hmem⟩ := period_has hK.piTwiceLower hK.piTwiceUpper hK'.piTwiceLower
  induction n with
  | zero =>
    intro same x p b hx h0 hp fuel hfuel
    obtain ⟨fuel, rfl⟩ := Nat.exists_eq_add_of_lt hfuel
    obtain ⟨tmp, h1, ⟨k, hk⟩, l, h2, h3, h4⟩ := fmod_period hV hi hx rfl hy hc
    refine cos_level hV hDU hf hK same _ hx h1 (fun r hr => hk r hr _ hmem) h2 h3 fun t p' q' ht hp' hp'' => ?_
    have := h4 h0
    norm_num at hp
    linarith
  | succ n ih =>
    intro same x p b hx h0 hp fuel hfuel
    obtain ⟨fuel, rfl⟩ := Nat.exists_eq_add_of_lt hfuel
    obtain ⟨tmp, h1, ⟨k, hk⟩, l, h2, h3, h4⟩ := fmod_period hV hi hx rfl hy hc
    refine cos_level hV hDU hf hK same _ hx h1 (fun r hr => hk r hr _ hmem) h2 h3 fun t p' q' ht hp' hp'' => ?_
    refine ih true t p' q' ht hp' ?_ _ (by omega)
    have := h4 h0
    push_cast at hp
    linarith

/-- `cos` of an interval that extends to minus infinity. -/
theorem cos_bot (hV : V.Tight) (hI : IeeeBase T) (hK : PiOk LeB GeB K) (hK' : PiPos K) (hx : Has x ⊥ b) (same : Bool) (fuel : ℕ) :
    cosAux K same (fuel + 1) V.pp x = .ok ⟨Num.lit (-1), Num.lit 1⟩ := by
  obtain ⟨c, d, hy, hc, -, -, hmem⟩ := period_has hK.piTwiceLower hK.piTwiceUpper hK'.piTwiceLower
  obtain ⟨tmp, h1, h2, h3⟩ := (fmod_bot hV hI hx hy (lt_of_lt_of_le zero_lt_one hc)).total
  obtain ⟨pl, hpl, hpl'⟩ := hK.piLower
  obtain ⟨τl, hτl, hτl'⟩ := hK.piTwiceLower
  change τl ≤ _ at hτl'
  change pl ≤ _ at hpl'
  unfold cosAux
  rw [pure_chk, res_if_false (hx.test V.chk), pure_scope, pure_rnd, pure_unprot]
  change (fmodAux true V.pp x (piTwiceI K) >>= _) = _
  rw [show fmodAux true V.pp x (piTwiceI K) = .ok tmp from h1]
  change (width V.pp tmp >>= _) = _
  have hw : Post True (width V.pp tmp) fun w => Num.le K.piTwiceLower w = false := by
    unfold width
    obtain ⟨bb, hb⟩ := isEmpty_ok (T := T) V.checks V.ndebug tmp.lower tmp.upper
    rw [pure_chk, res_if (show testI V.C tmp = .ok bb from hb)]
    cases bb with
    | true =>
      change Num.le K.piTwiceLower (Num.lit 0) = false
      rw [le_eq hτl val_zero, decide_eq_false_iff_not, not_le]
      exact lt_of_lt_of_le zero_lt_one (hK'.piTwiceLower _ hτl)
    | false =>
      rw [if_neg (by simp), pure_scope, pure_rnd]
      refine (subUp_nan hI h2).mono fun w hw => ?_
      rw [Bool.eq_false_iff]
      intro h
      obtain ⟨_, _, _, h, _⟩ := (NumLaws.le_iff _ _).1 h
      rw [hw] at h; cases h
  obtain ⟨w, hw0, hw⟩ := hw.total
  rw [hw0]
  have g1 : Num.le K.piUpper tmp.lower = false := by
    rw [Bool.eq_false_iff]
    intro h
    obtain ⟨_, _, _, h, _⟩ := (NumLaws.le_iff _ _).1 h
    rw [h2] at h; cases h
  have g2 : Num.le tmp.upper K.piLower = false := by
    rw [le_eq h3 hpl, decide_eq_false_iff_not, not_le]
    exact lt_of_le_of_lt hpl' (EReal.coe_lt_top _)
  have g3 : Num.le tmp.upper K.piTwiceLower = false := by
    rw [le_eq h3 hτl, decide_eq_false_iff_not, not_le]
    exact lt_of_le_of_lt hτl' (EReal.coe_lt_top _)
  change (if Num.le K.piTwiceLower w then _ else _ : Res (Itv T)) = _
  rw [hw, g1, g2, g3]
  rfl

/-- `cos` of any interval, with enough fuel. -/
theorem cos_post (hV : V.Tight) (hi : V.IntOk) (hI : IeeeBase T) (hDU : DU T D U) (hf : V.FnOk D U .cos) (hK : PiOk LeB GeB K)
    (hK' : PiPos K) (hx : Has x a b) :
    ∃ N, ∀ fuel ≥ N, ∀ same, Post True (cosAux K same fuel V.pp x) (CosOut (UnitOk D U) (γ x)) := by
  obtain ⟨c, d, hy, hc, -, -, hmem⟩ := period_has hK.piTwiceLower hK.piTwiceUpper hK'.piTwiceLower
  by_cases ha : a = ⊥
  · subst ha
    refine ⟨1, fun fuel hfuel same => ?_⟩
    obtain ⟨fuel, rfl⟩ := Nat.exists_eq_add_of_le' hfuel
    rw [cos_bot hV hI hK hK' hx same fuel]; exact cos_unit
  · have ha' := hx.ne_top
    obtain ⟨p, rfl⟩ : ∃ p : ℝ, a = p := ⟨a.toReal, (EReal.coe_toReal ha' ha).symm⟩
    obtain ⟨tmp, h1, ⟨k, hk⟩, l, h2, h3, -⟩ := fmod_period hV hi hx rfl hy hc
    obtain ⟨N, hN⟩ := exists_nat_ge (l / 3)
    refine ⟨N + 2, fun fuel hfuel same => ?_⟩
    obtain ⟨fuel, rfl⟩ := Nat.exists_eq_add_of_le' hfuel
    refine cos_level hV hDU hf hK same _ hx h1 (fun r hr => hk r hr _ hmem) h2 h3 fun t p' q' ht hp' hp'' => ?_
    refine cos_nonneg hV hi hDU hf hK hK' N true t p' q' ht hp' ?_ _ (by change N < fuel + (N + 1); omega)
    rw [div_le_iff₀ (by norm_num)] at hN
    linarith

/-- More fuel does not change the result. -/
theorem cos_fuel (fuel : Nat) : ∀ (same : Bool) (x : Itv T), cosAux K same fuel V.pp x ≠ .error .fuel →
    cosAux K same (fuel + 1) V.pp x = cosAux K same fuel V.pp x := by
  induction fuel with
  | zero => intro same x h; exact absurd rfl h
  | succ fuel ih =>
    intro same x h
    have key : ∀ g, cosAux K same (g + 1) V.pp x =
        (do if ← (lift (testI V.C x) : Res Bool) then lift (emptyI V.C)
            else do
              let tmp ← fmodAux true V.pp x (piTwiceI K)
              let w ← width V.pp tmp
              if Num.le K.piTwiceLower w then pure ⟨Num.lit (-1), Num.lit 1⟩
              else if Num.le K.piUpper tmp.lower then do
                let t ← subII V.pp tmp (piI K)
                let c ← cosAux K true g V.pp t
                let r ← lift (negI V.C c)
                backI same V.C r
              else if Num.le tmp.upper K.piLower then
                mk2 (V.B.fnDown .cos tmp.upper) (V.B.fnUp .cos tmp.lower)
              else if Num.le tmp.upper K.piTwiceLower then do
                let d ← V.B.subDown K.piTwiceLower tmp.upper
                let u ← V.B.fnUp .cos (stdMin d tmp.lower)
                pure ⟨Num.lit (-1), u⟩
              else pure ⟨Num.lit (-1), Num.lit 1⟩) := fun g => rfl
    rw [key] at h
    rw [key, key]
    cases ht : (lift (testI V.C x) : Res Bool) with
    | error e => rfl
    | ok bb =>
      rw [ht] at h
      cases bb with
      | true => rfl
      | false =>
        change ((fmodAux true V.pp x (piTwiceI K)) >>= _) = ((fmodAux true V.pp x (piTwiceI K)) >>= _)
        change ((fmodAux true V.pp x (piTwiceI K)) >>= _) ≠ _ at h
        cases hm : fmodAux true V.pp x (piTwiceI K) with
        | error e => rfl
        | ok tmp =>
          rw [hm] at h
          change (width V.pp tmp >>= _) = (width V.pp tmp >>= _)
          change (width V.pp tmp >>= _) ≠ _ at h
          cases hw : width V.pp tmp with
          | error e => rfl
          | ok w =>
            rw [hw] at h
            change (if Num.le K.piTwiceLower w then _ else _) = (if Num.le K.piTwiceLower w then _ else _)
            change (if Num.le K.piTwiceLower w then _ else _) ≠ _ at h
            cases h1 : Num.le K.piTwiceLower w with
            | true => rfl
            | false =>
              cases h2 : Num.le K.piUpper tmp.lower with
              | false => rfl
              | true =>
                rw [h1] at h
                change (if Num.le K.piUpper tmp.lower then _ else _) ≠ _ at h
                rw [h2] at h
                change (subII V.pp tmp (piI K) >>= _) = (subII V.pp tmp (piI K) >>= _)
                change (subII V.pp tmp (piI K) >>= _) ≠ _ at h
                cases hs : subII V.pp tmp (piI K) with
                | error e => rfl
                | ok t =>
                  rw [hs] at h
                  change (cosAux K true (fuel + 1) V.pp t >>= _) = (cosAux K true fuel V.pp t >>= _)
                  change (cosAux K true fuel V.pp t >>= _) ≠ _ at h
                  rw [ih true t fun e => h (by rw [e]; rfl)]

theorem cos_fuel_le {same : Bool} {N : Nat} {z : Itv T} (h : cosAux K same N V.pp x = .ok z) {fuel : Nat} (hf : N ≤ fuel) :
    cosAux K same fuel V.pp x = .ok z := by
  induction hf with
  | refl => exact h
  | step _ ih => rw [Nat.succ_eq_add_one, cos_fuel _ _ _ (by rw [ih]; exact fun e => by cases e)]; exact ih

/-- `sin` -/
theorem sin_post (hV : V.Tight) (hi : V.IntOk) (hI : IeeeBase T) (hDU : DU T D U) (hf : V.FnOk D U .cos) (hK : PiOk LeB GeB K)
    (hK' : PiPos K) (hx : Has x a b) :
    ∃ z N, ((∀ r ∈ γ x, Real.sin r ∈ γ z) ∧ (UnitOk D U → ∀ s ∈ γ z, -1 ≤ s ∧ s ≤ 1)) ∧
      ∀ fuel ≥ N, sinI K fuel V.pp x = .ok z := by
  have hA := hV.dir du_tight
  obtain ⟨c, hc, hc'⟩ := hK.piHalfLower
  obtain ⟨d, hd, hd'⟩ := hK.piHalfUpper
  change c ≤ _ at hc'
  change _ ≤ d at hd'
  have ip : Has (piHalfI K) c d :=
    ⟨hc, hd, (lt_of_le_of_lt hc' (EReal.coe_lt_top _)).ne, (lt_of_lt_of_le (EReal.bot_lt_coe _) hd').ne', le_trans hc' hd'⟩
  have hmem : Real.pi / 2 ∈ γ (piHalfI K) := ⟨_, _, hc, hd, hc', hd'⟩
  obtain ⟨t, ht, hbt⟩ := (subII_post hA.op V.chk hx ip).total
  obtain ⟨p', q', it⟩ := hbt.has du_tight (hx.nonempty.image2 ip.nonempty)
  obtain ⟨N, hN⟩ := cos_post hV hi hI hDU hf hK hK' it
  obtain ⟨z, hz', hz⟩ := (hN N le_rfl true).total
  have key : ∀ r ∈ γ x, Real.sin r ∈ γ z := fun r hr => by
    have := hz.1 _ (hbt.encl hA.D_le hA.U_ge ⟨r, hr, _, hmem, rfl⟩)
    rwa [Real.cos_sub_pi_div_two] at this
  refine ⟨z, N, ⟨key, hz.2⟩, fun fuel hfuel => ?_⟩
  unfold sinI
  rw [pure_chk, res_if_false (hx.test V.chk), pure_scope, pure_unprot]
  rw [ht]
  change (cosAux K true fuel V.pp t >>= _) = _
  rw [cos_fuel_le hz' hfuel]
  obtain ⟨r₀, hr₀⟩ := hx.nonempty
  obtain ⟨_, _, iz⟩ := has_of_mem (key r₀ hr₀)
  exact reItv_ok V.chk iz

/-- `tan` -/
theorem tan_cases (hV : V.Tight) (hi : V.IntOk) (hI : IeeeBase T) (hDU : DU T D U) (hf : V.FnOk D U .tan) (hK : PiOk LeB GeB K)
    (hK' : PiPos K) (hx : Has x a b) :
    tanI K V.pp x = wholeI V.C ∨
      Post True (tanI K V.pp x) fun z => ∀ r ∈ γ x, Real.cos r ≠ 0 ∧ Real.tan r ∈ γ z := by
  have hA := hV.dir du_tight
  obtain ⟨c, d, hy, hc, -, -, hmem⟩ := period_has hK.piLower hK.piUpper hK'.piLower
  obtain ⟨h, hh, hh'⟩ := hK.piHalfLower
  change h ≤ _ at hh'
  obtain ⟨nh, hnh, vnh⟩ := neg_ok hV.neg hh
  unfold tanI
  rw [pure_chk, res_if_false (hx.test V.chk), pure_scope, pure_rnd, pure_unprot]
  have hneg : (negM K.piHalfLower : Res T) = .ok nh := by unfold negM; rw [hnh]; rfl
  rw [hneg]
  by_cases ha : a = ⊥
  · subst ha
    obtain ⟨tmp, h1, h2, h3⟩ := (fmod_bot hV hI hx hy (lt_of_lt_of_le zero_lt_one hc)).total
    rw [show fmodAux true V.pp x (piI K) = .ok tmp from h1]
    have g1 : Num.le K.piHalfLower tmp.lower = false := by
      rw [Bool.eq_false_iff]
      intro h
      obtain ⟨_, _, _, h, _⟩ := (NumLaws.le_iff _ _).1 h
      rw [h2] at h; cases h
    have g2 : Num.le K.piHalfLower tmp.upper = true := by
      rw [le_eq hh h3]; simp
    left
    change ((if Num.le K.piHalfLower tmp.lower = true then _ else (pure tmp : Res (Itv T))) >>= _ : Res (Itv T)) = _
    rw [g1]
    change (if (Num.le tmp.lower nh || Num.le K.piHalfLower tmp.upper) = true then _ else _ : Res (Itv T)) = _
    rw [g2, Bool.or_true]
    rfl
  · have ha' := hx.ne_top
    obtain ⟨p, rfl⟩ : ∃ p : ℝ, a = p := ⟨a.toReal, (EReal.coe_toReal ha' ha).symm⟩
    obtain ⟨t0, h1, ⟨k, hk⟩, l, h2, h3, -⟩ := fmod_period hV hi hx rfl hy hc
    rw [show fmodAux true V.pp x (piI K) = .ok t0 from h1]
    have step : Post True (if Num.le K.piHalfLower t0.lower = true then subII V.pp t0 (piI K) else pure t0) fun tmp =>
        ∃ k : ℤ, ∀ r ∈ γ x, r - k * Real.pi ∈ γ tmp := by
      cases Num.le K.piHalfLower t0.lower with
      | false => exact ⟨k, fun r hr => hk r hr _ hmem⟩
      | true =>
        obtain ⟨r₀, hr₀⟩ := hx.nonempty
        obtain ⟨_, _, it⟩ := has_of_mem (hk r₀ hr₀ _ hmem)
        refine (subII_post hA.op V.chk it hy).mono fun z hz => ⟨k + 1, fun r hr => ?_⟩
        have := hz.encl hA.D_le hA.U_ge ⟨_, hk r hr _ hmem, _, hmem, rfl⟩
        have e : r - ((k + 1 : ℤ) : ℝ) * Real.pi = r - k * Real.pi - Real.pi := by push_cast; ring
        rw [e]; exact this
    obtain ⟨tmp, htmp, k, hk⟩ := step.total
    change ((if Num.le K.piHalfLower t0.lower = true then subII V.pp t0 (piI K) else pure t0) >>= _ : Res (Itv T)) = _ ∨
      Post True ((if Num.le K.piHalfLower t0.lower = true then subII V.pp t0 (piI K) else pure t0) >>= _ : Res (Itv T)) _
    rw [htmp]
    obtain ⟨r₀, hr₀⟩ := hx.nonempty
    obtain ⟨u, v, it⟩ := has_of_mem (hk r₀ hr₀)
    change (if (Num.le tmp.lower nh || Num.le K.piHalfLower tmp.upper) = true then _ else _ : Res (Itv T)) = _ ∨
      Post True (if (Num.le tmp.lower nh || Num.le K.piHalfLower tmp.upper) = true then _ else _) _
    rw [le_eq it.lo vnh, le_eq hh it.up]
    by_cases hw : u ≤ -h ∨ h ≤ v
    · rw [if_pos (by simpa using hw)]; exact .inl rfl
    · right
      rw [if_neg (by simpa using hw)]
      push Not at hw
      obtain ⟨w1, w2⟩ := hw
      have hht : h ≠ ⊤ := (lt_of_le_of_lt hh' (EReal.coe_lt_top _)).ne
      have hhb : h ≠ ⊥ := fun e => by rw [e] at w2; exact absurd w2 (by simp)
      clear hh vnh
      lift h to ℝ using ⟨hht, hhb⟩
      have hut := it.ne_top
      have hvb := it.ne_bot
      have hub : u ≠ ⊥ := fun e => by rw [e] at w1; exact absurd w1 (by simp)
      have hvt : v ≠ ⊤ := fun e => by rw [e] at w2; exact absurd w2 (by simp)
      lift u to ℝ using ⟨hut, hub⟩
      lift v to ℝ using ⟨hvt, hvb⟩
      have w1' : -h < u := by exact_mod_cast w1
      have w2' : v < h := by exact_mod_cast w2
      have hh2 : h ≤ Real.pi / 2 := by exact_mod_cast hh'
      have huv : u ≤ v := by exact_mod_cast it.le
      have hcos : ∀ s : ℝ, u ≤ s → s ≤ v → Real.cos s ≠ 0 := fun s h1 h2 =>
        (Real.cos_pos_of_mem_Ioo ⟨by linarith, by linarith⟩).ne'
      refine (Post.pair (hf.down hDU it.lo (.inl ⟨u, hcos u le_rfl huv, rfl, rfl⟩))
        (hf.up hDU it.up (.inl ⟨v, hcos v huv le_rfl, rfl, rfl⟩))).bind fun p hp => ?_
      obtain ⟨⟨z, hz, hd⟩, w, hw, hu⟩ := hp
      rw [it.gamma_Icc] at hk
      refine fun r hr => ⟨fun hr0 => ?_, ?_⟩
      · have hm := hk r hr
        refine absurd ?_ (hcos _ hm.1 hm.2)
        rw [Real.cos_sub_int_mul_pi, hr0, mul_zero]
      · have hm := hk r hr
        have e : Real.tan r = Real.tan (r - k * Real.pi) := by
          have := Real.tan_periodic.sub_int_mul_eq k (x := r)
          exact this.symm
        rw [e]
        refine ⟨z, w, hz, hw, (hDU.D_le hd).trans ?_, le_trans ?_ (hDU.U_ge hu)⟩
        · have := Real.strictMonoOn_tan.monotoneOn (a := u) (b := r - k * Real.pi) ⟨by linarith, by linarith⟩
            ⟨by linarith [hm.1], by linarith [hm.2]⟩ hm.1
          exact_mod_cast this
        · have := Real.strictMonoOn_tan.monotoneOn (a := r - k * Real.pi) (b := v)
            ⟨by linarith [hm.1], by linarith [hm.2]⟩ ⟨by linarith, by linarith⟩ hm.2
          exact_mod_cast this

theorem tan_post (hV : V.Tight) (hi : V.IntOk) (hI : IeeeBase T) (hDU : DU T D U) (hf : V.FnOk D U .tan) (hK : PiOk LeB GeB K)
    (hK' : PiPos K) (hL : InfLaws V.C) (hx : Has x a b) :
    Post True (tanI K V.pp x) fun z => (∀ r ∈ γ x, Real.cos r ≠ 0 → Real.tan r ∈ γ z) ∧
      ((∃ r ∈ γ x, Real.cos r = 0) → γ z = univ) := by
  rcases tan_cases hV hi hI hDU hf hK hK' hx with h | h
  · obtain ⟨w, hw, h1, h2⟩ := whole_ok hL
    have hz : ∀ r : ℝ, r ∈ γ w := fun r => ⟨_, _, h1, h2, bot_le, le_top⟩
    exact Post.of_eq (h.trans hw) ⟨fun r _ _ => hz _, fun _ => eq_univ_of_forall hz⟩
  · exact h.mono fun z hz => ⟨fun r hr _ => (hz r hr).2, fun ⟨r, hr, h0⟩ => absurd h0 (hz r hr).1⟩
end
end BI
