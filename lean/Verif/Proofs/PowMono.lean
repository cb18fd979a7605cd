import Verif.Proofs.EnclPow
/-! # `pow` is isotone when multiplication is correctly rounded -/

set_option linter.unusedSectionVars false

namespace BI
open Set

/-- The values computed by the loop of `pow`: `R z e` says how `z` approximates the exact product `e`. -/
inductive Chain (R : EReal → EReal → Prop) : ℕ → EReal → EReal → EReal → Prop
  | zero (x y) : Chain R 0 x y y
  | even {n x y x' z} : n ≠ 0 → n % 2 ≠ 1 → R x' (x * x) → Chain R (n / 2) x' y z → Chain R n x y z
  | odd {n x y x' y' z} : n ≠ 0 → n % 2 = 1 → R x' (x * x) → R y' (x' * y) → Chain R (n / 2) x' y' z → Chain R n x y z

/-- Two roundings as relations, for instance to different types: together monotone, and not negative on numbers that are
not. -/
structure Rnd (R R' : EReal → EReal → Prop) : Prop where
  mono : ∀ {z e z' e'}, R z e → R' z' e' → e ≤ e' → z ≤ z'
  nonneg : ∀ {z e}, R z e → 0 ≤ e → 0 ≤ z
  nonneg' : ∀ {z e}, R' z e → 0 ≤ e → 0 ≤ z

theorem Chain.nonneg {R : EReal → EReal → Prop} (hR : ∀ {z e}, R z e → 0 ≤ e → 0 ≤ z) {n : ℕ} {x y z : EReal} (h : Chain R n x y z) (hx : 0 ≤ x)
    (hy : 0 ≤ y) : 0 ≤ z := by
  induction h with
  | zero => exact hy
  | even _ _ h _ ih => exact ih (hR h (EReal.mul_nonneg hx hx)) hy
  | odd _ _ h h' _ ih =>
    have h1 := hR h (EReal.mul_nonneg hx hx)
    exact ih h1 (hR h' (EReal.mul_nonneg h1 hy))

theorem mul_le_mul_nn {a b c d : EReal} (h : a ≤ b) (h' : c ≤ d) (ha : 0 ≤ a) (hc : 0 ≤ c) : a * c ≤ b * d :=
  (mr_nonneg h hc).trans (ml_nonneg h' (ha.trans h))

theorem Chain.mono {R R' : EReal → EReal → Prop} (hR : Rnd R R') {n : ℕ} {x y z : EReal} (h : Chain R n x y z) :
    ∀ {x' y' z' : EReal}, Chain R' n x' y' z' → 0 ≤ x → 0 ≤ y → x ≤ x' → y ≤ y' → z ≤ z' := by
  induction h with
  | zero =>
    intro x' y' z' h' _ _ _ h
    cases h' with
    | zero => exact h
    | even h0 => exact absurd rfl h0
    | odd h0 => exact absurd rfl h0
  | even h0 he h _ ih =>
    intro x' y' z' h' hx hy hxx hyy
    cases h' with
    | zero => exact absurd rfl h0
    | even _ _ k k' =>
      exact ih k' (hR.nonneg h (EReal.mul_nonneg hx hx)) hy (hR.mono h k (mul_le_mul_nn hxx hxx hx hx)) hyy
    | odd _ ho => exact absurd ho he
  | odd h0 ho h h1 _ ih =>
    intro x' y' z' h' hx hy hxx hyy
    cases h' with
    | zero => exact absurd rfl h0
    | even _ he => exact absurd ho he
    | odd _ _ k k1 k' =>
      have p := hR.nonneg h (EReal.mul_nonneg hx hx)
      have q := hR.mono h k (mul_le_mul_nn hxx hxx hx hx)
      exact ih k' p (hR.nonneg h1 (EReal.mul_nonneg p hy)) q (hR.mono h1 k1 (mul_le_mul_nn q hyy p hy))

section
variable {T : Type} [Num T] [Val T] [NumLaws T] {tot : Prop} {B : Arith Res T} {C : Checking T} {x x' : Itv T}
  {a b a' b' : EReal} {D U D' U' : EReal → EReal → Prop}

theorem rnd_down : Rnd (IsRoundDown T) (IsRoundDown T) :=
  ⟨fun h h' hh => h'.2.2 _ h.1 (h.2.1.trans hh), fun h h0 => h.leS.2 h0, fun h h0 => h.leS.2 h0⟩

theorem rnd_up : Rnd (IsRoundUp T) (IsRoundUp T) :=
  ⟨fun h h' hh => h.2.2 _ h'.1 (hh.trans h'.2.1), fun h h0 => h0.trans h.2.1, fun h h0 => h0.trans h.2.1⟩

theorem powLoop_chain_down (hA : DirLaws tot D U B) (hD : ∀ {z e}, D z e → LeS z e) (n : ℕ) : ∀ (x y : T) (vx vy : EReal),
    val x = some vx → val y = some vy → 0 ≤ vx → vx ≠ ⊤ → 0 ≤ vy → vy ≠ ⊤ →
    Post tot (powLoop B.mulDown n x y) fun c => ∃ z, val c = some z ∧ Chain D n vx vy z := by
  induction n using Nat.strong_induction_on with
  | _ n ih =>
    intro x y vx vy hx hy hx0 hxt hy0 hyt
    have hxb : vx ≠ ⊥ := fun h => absurd hx0 (by rw [h]; simp)
    have hyb : vy ≠ ⊥ := fun h => absurd hy0 (by rw [h]; simp)
    unfold powLoop
    by_cases hn : n = 0
    · rw [if_pos hn, hn]; exact Post.pure ⟨vy, hy, .zero _ _⟩
    · rw [if_neg hn]
      refine (hA.mulDown x x vx vx hx hx (mulOk_self vx)).bind fun x' hx' => ?_
      obtain ⟨vx', hvx', hd⟩ := hx'
      have h1 : 0 ≤ vx' := (hD hd).2 (EReal.mul_nonneg hx0 hx0)
      have ht : ∀ {p q r : EReal}, p ≠ ⊤ → p ≠ ⊥ → q ≠ ⊤ → q ≠ ⊥ → r ≤ p * q → r ≠ ⊤ := by
        intro p q r h1 h2 h3 h4 h h'
        lift p to ℝ using ⟨h1, h2⟩
        lift q to ℝ using ⟨h3, h4⟩
        rw [h', top_le_iff, ← EReal.coe_mul] at h
        exact EReal.coe_ne_top _ h
      have h2 : vx' ≠ ⊤ := ht hxt hxb hxt hxb (hD hd).1
      have h2' : vx' ≠ ⊥ := fun h => absurd h1 (by rw [h]; simp)
      by_cases ho : n % 2 = 1
      · rw [if_pos ho]
        refine (hA.mulDown x' y vx' vy hvx' hy (mulOk_real h2' h2 hyb hyt)).bind fun y' hy' => ?_
        obtain ⟨vy', hvy', hd'⟩ := hy'
        exact (ih (n / 2) (by omega) x' y' vx' vy' hvx' hvy' h1 h2 ((hD hd').2 (EReal.mul_nonneg h1 hy0))
          (ht h2 h2' hyt hyb (hD hd').1)).mono fun c ⟨z, hz, hc⟩ => ⟨z, hz, .odd hn ho hd hd' hc⟩
      · rw [if_neg ho]
        exact (ih (n / 2) (by omega) x' y vx' vy hvx' hy h1 h2 hy0 hyt).mono fun c ⟨z, hz, hc⟩ => ⟨z, hz, .even hn ho hd hc⟩

theorem powLoop_chain_up (hA : DirLaws tot D U B) (hU : ∀ {z e}, U z e → GeS z e) (n : ℕ) : ∀ (x y : T) (vx vy : EReal),
    val x = some vx → val y = some vy → 0 ≤ vx → 0 ≤ vy → ((vx = 0 ∧ vy ≠ ⊤) ∨ (0 < vx ∧ 0 < vy)) →
    Post tot (powLoop B.mulUp n x y) fun c => ∃ z, val c = some z ∧ Chain U n vx vy z := by
  induction n using Nat.strong_induction_on with
  | _ n ih =>
    intro x y vx vy hx hy hx0 hy0 hst
    have hyb : vy ≠ ⊥ := fun h => absurd hy0 (by rw [h]; simp)
    unfold powLoop
    by_cases hn : n = 0
    · rw [if_pos hn, hn]; exact Post.pure ⟨vy, hy, .zero _ _⟩
    · rw [if_neg hn]
      refine (hA.mulUp x x vx vx hx hx (mulOk_self vx)).bind fun x' hx' => ?_
      obtain ⟨vx', hvx', hd⟩ := hx'
      have h1 : 0 ≤ vx' := (EReal.mul_nonneg hx0 hx0).trans (hU hd).1
      have hz' : vx = 0 → vx' = 0 := by
        rintro rfl
        exact le_antisymm ((hU hd).2 (by simp)) h1
      have hp' : 0 < vx → 0 < vx' := fun h => lt_of_lt_of_le (EReal.mul_pos h h) (hU hd).1
      by_cases ho : n % 2 = 1
      · rw [if_pos ho]
        have ok : MulOk vx' vy := by
          rcases hst with ⟨h, h'⟩ | ⟨h, h'⟩
          · rw [hz' h]
            exact mulOk_real (by simp) (by simp) hyb h'
          · exact mulOk_nz (hp' h).ne' h'.ne'
        refine (hA.mulUp x' y vx' vy hvx' hy ok).bind fun y' hy' => ?_
        obtain ⟨vy', hvy', hd'⟩ := hy'
        refine (ih (n / 2) (by omega) x' y' vx' vy' hvx' hvy' h1 ((EReal.mul_nonneg h1 hy0).trans (hU hd').1) ?_).mono
          fun c ⟨z, hz, hc⟩ => ⟨z, hz, .odd hn ho hd hd' hc⟩
        rcases hst with ⟨h, h'⟩ | ⟨h, h'⟩
        · refine .inl ⟨hz' h, fun ht => ?_⟩
          have := (hU hd').2 (by rw [hz' h]; simp)
          rw [ht] at this; exact absurd this (by simp)
        · exact .inr ⟨hp' h, lt_of_lt_of_le (EReal.mul_pos (hp' h) h') (hU hd').1⟩
      · rw [if_neg ho]
        exact (ih (n / 2) (by omega) x' y vx' vy hvx' hy h1 hy0 (hst.imp (fun h => ⟨hz' h.1, h.2⟩) fun h => ⟨hp' h.1, h.2⟩)).mono
          fun c ⟨z, hz, hc⟩ => ⟨z, hz, .even hn ho hd hc⟩

/-- `v ^ n` as computed with the rounding `R`. -/
def PowR (R : EReal → EReal → Prop) (n : ℕ) (v z : EReal) : Prop := Chain R (n / 2) v (if n % 2 = 1 then v else 1) z

theorem PowR.mono {R R' : EReal → EReal → Prop} (hR : Rnd R R') {n : ℕ} {v v' z z' : EReal} (h : PowR R n v z) (h' : PowR R' n v' z')
    (hv : 0 ≤ v) (hvv : v ≤ v') : z ≤ z' := by
  refine Chain.mono hR h h' hv ?_ hvv ?_ <;> split_ifs
  exacts [hv, zero_le_one, hvv, le_rfl]

theorem PowR.nonneg {R : EReal → EReal → Prop} (hR : ∀ {z e}, R z e → 0 ≤ e → 0 ≤ z) {n : ℕ} {v z : EReal} (h : PowR R n v z) (hv : 0 ≤ v) : 0 ≤ z := by
  refine Chain.nonneg hR h hv ?_
  split_ifs
  exacts [hv, zero_le_one]

theorem powAux_chain_down (hA : DirLaws tot D U B) (hD : ∀ {z e}, D z e → LeS z e) {t : T} {v : EReal} (ht : val t = some v) (hv : 0 ≤ v)
    (hv' : v ≠ ⊤) (n : ℕ) : Post tot (powAux B.mulDown t n) fun c => ∃ z, val c = some z ∧ PowR D n v z := by
  unfold powAux PowR
  split_ifs
  · exact powLoop_chain_down hA hD _ _ _ _ _ ht ht hv hv' hv hv'
  · exact powLoop_chain_down hA hD _ _ _ _ _ ht val_one hv hv' zero_le_one (EReal.coe_ne_top 1)

theorem powAux_chain_up (hA : DirLaws tot D U B) (hU : ∀ {z e}, U z e → GeS z e) {t : T} {v : EReal} (ht : val t = some v) (hv : 0 ≤ v)
    (n : ℕ) : Post tot (powAux B.mulUp t n) fun c => ∃ z, val c = some z ∧ PowR U n v z := by
  unfold powAux PowR
  split_ifs
  · refine powLoop_chain_up hA hU _ _ _ _ _ ht ht hv hv ?_
    rcases hv.eq_or_lt with h | h
    · left; subst h; simp
    · exact .inr ⟨h, h⟩
  · refine powLoop_chain_up hA hU _ _ _ _ _ ht val_one hv zero_le_one ?_
    rcases hv.eq_or_lt with h | h
    · left; subst h; exact ⟨rfl, EReal.coe_ne_top 1⟩
    · exact .inr ⟨h, zero_lt_one⟩

/-- The lower bound of the power of `[a, b]`. -/
def PowLo (D U : EReal → EReal → Prop) (n : ℕ) (a b l : EReal) : Prop :=
  if n % 2 = 1 then (a < 0 → ∃ w, l = -w ∧ PowR U n (-a) w) ∧ (0 ≤ a → PowR D n a l)
  else (b < 0 → PowR D n (-b) l) ∧ (a < 0 → 0 ≤ b → l = 0) ∧ (0 ≤ a → PowR D n a l)

/-- The upper bound. -/
def PowHi (D U : EReal → EReal → Prop) (n : ℕ) (a b u : EReal) : Prop :=
  if n % 2 = 1 then (b < 0 → ∃ w, u = -w ∧ PowR D n (-b) w) ∧ (0 ≤ b → PowR U n b u)
  else PowR U n (max (-a) b) u

theorem neg_nonneg_of {e : EReal} (h : e ≤ 0) : 0 ≤ -e := by rw [EReal.le_neg]; simpa using h

theorem PowLo.mono (hD : Rnd D' D) (hU : Rnd U U') {n : ℕ} {l l' : EReal} (h : PowLo D U n a b l) (h' : PowLo D' U' n a' b' l') (hab : a ≤ b) (hab' : a' ≤ b')
    (ha : a' ≤ a) (hb : b ≤ b') : l' ≤ l := by
  unfold PowLo at h h'
  split_ifs at h h' with ho
  · rcases lt_or_ge a 0 with h0 | h0
    · obtain ⟨w, rfl, hw⟩ := h.1 h0
      obtain ⟨w', rfl, hw'⟩ := h'.1 (ha.trans_lt h0)
      rw [EReal.neg_le_neg_iff]
      exact hw.mono hU hw' (neg_nonneg_of h0.le) (EReal.neg_le_neg_iff.2 ha)
    · have hl := h.2 h0
      rcases lt_or_ge a' 0 with h0' | h0'
      · obtain ⟨w', rfl, hw'⟩ := h'.1 h0'
        refine le_trans ?_ (hl.nonneg hD.nonneg' h0)
        have := hw'.nonneg hU.nonneg' (neg_nonneg_of h0'.le)
        rw [← EReal.neg_le_neg_iff]; simpa using this
      · exact (h'.2 h0').mono hD hl h0' ha
  · rcases lt_or_ge b 0 with h0 | h0
    · have hl := h.1 h0
      rcases lt_or_ge b' 0 with h0' | h0'
      · exact (h'.1 h0').mono hD hl (neg_nonneg_of h0'.le) (EReal.neg_le_neg_iff.2 hb)
      · rw [h'.2.1 ((ha.trans hab).trans_lt h0) h0']
        exact hl.nonneg hD.nonneg' (neg_nonneg_of h0.le)
    · rcases lt_or_ge a 0 with h1 | h1
      · rw [h.2.1 h1 h0, h'.2.1 (ha.trans_lt h1) (h0.trans hb)]
      · have hl := h.2.2 h1
        rcases lt_or_ge a' 0 with h1' | h1'
        · rw [h'.2.1 h1' (h0.trans hb)]; exact hl.nonneg hD.nonneg' h1
        · exact (h'.2.2 h1').mono hD hl h1' ha

theorem PowHi.mono (hD : Rnd D' D) (hU : Rnd U U') {n : ℕ} {u u' : EReal} (h : PowHi D U n a b u) (h' : PowHi D' U' n a' b' u') (hab : a ≤ b)
    (ha : a' ≤ a) (hb : b ≤ b') : u ≤ u' := by
  unfold PowHi at h h'
  split_ifs at h h' with ho
  · rcases lt_or_ge b 0 with h0 | h0
    · obtain ⟨w, rfl, hw⟩ := h.1 h0
      rcases lt_or_ge b' 0 with h0' | h0'
      · obtain ⟨w', rfl, hw'⟩ := h'.1 h0'
        rw [EReal.neg_le_neg_iff]
        exact hw'.mono hD hw (neg_nonneg_of h0'.le) (EReal.neg_le_neg_iff.2 hb)
      · refine le_trans ?_ ((h'.2 h0').nonneg hU.nonneg' h0')
        have := hw.nonneg hD.nonneg' (neg_nonneg_of h0.le)
        rw [← EReal.neg_le_neg_iff]; simpa using this
    · exact (h.2 h0).mono hU (h'.2 (h0.trans hb)) h0 hb
  · refine h.mono hU h' ?_ (max_le_max (EReal.neg_le_neg_iff.2 ha) hb)
    rcases le_total 0 b with h0 | h0
    · exact h0.trans (le_max_right _ _)
    · exact (neg_nonneg_of (hab.trans h0)).trans (le_max_left _ _)

theorem powNat_chain (hA : DirLaws tot D U B) (hD : ∀ {z e}, D z e → LeS z e) (hU : ∀ {z e}, U z e → GeS z e) (hC : ChkLaws C) (hx : Has x a b) {n : ℕ} (hn : 0 < n) :
    Post tot (powNat (purePolicies B C) x n) fun z => ∃ l u, val z.lower = some l ∧ val z.upper = some u ∧
      PowLo D U n a b l ∧ PowHi D U n a b u := by
  unfold powNat
  rw [pure_chk, res_if_false (hx.test hC), if_neg hn.ne', pure_scope, pure_rnd]
  simp only [isNeg_eq hx.up, isNeg_eq hx.lo, decide_eq_true_eq]
  split_ifs with h1 ho h2 ho
  · refine (neg_post hA.neg hx.up).bind fun nu hnu => ?_
    refine (powAux_chain_down hA hD hnu (neg_nonneg_of h1.le) (by simpa using hx.ne_bot) n).bind fun yl hyl => ?_
    refine (neg_post hA.neg hx.lo).bind fun nl hnl => ?_
    have ha : a < 0 := hx.le.trans_lt h1
    refine (powAux_chain_up hA hU hnl (neg_nonneg_of ha.le) n).bind fun yu hyu => ?_
    obtain ⟨l, hl, hl'⟩ := hyl
    obtain ⟨u, hu, hu'⟩ := hyu
    refine (neg_post hA.neg hu).bind fun p hp => (neg_post hA.neg hl).bind fun q hq => Post.pure ⟨_, _, hp, hq, ?_, ?_⟩
    · unfold PowLo; rw [if_pos ho]
      exact ⟨fun _ => ⟨u, rfl, hu'⟩, fun h => absurd ha (not_lt.2 h)⟩
    · unfold PowHi; rw [if_pos ho]
      exact ⟨fun _ => ⟨l, rfl, hl'⟩, fun h => absurd h1 (not_lt.2 h)⟩
  · refine (neg_post hA.neg hx.up).bind fun nu hnu => ?_
    refine (powAux_chain_down hA hD hnu (neg_nonneg_of h1.le) (by simpa using hx.ne_bot) n).bind fun yl hyl => ?_
    refine (neg_post hA.neg hx.lo).bind fun nl hnl => ?_
    have ha : a < 0 := hx.le.trans_lt h1
    refine (powAux_chain_up hA hU hnl (neg_nonneg_of ha.le) n).bind fun yu hyu => ?_
    obtain ⟨l, hl, hl'⟩ := hyl
    obtain ⟨u, hu, hu'⟩ := hyu
    refine Post.pure ⟨_, _, hl, hu, ?_, ?_⟩
    · unfold PowLo; rw [if_neg ho]
      exact ⟨fun _ => hl', fun _ h => absurd h1 (not_lt.2 h), fun h => absurd ha (not_lt.2 h)⟩
    · unfold PowHi; rw [if_neg ho, max_eq_left (h1.le.trans (neg_nonneg_of ha.le))]; exact hu'
  · have hb0 := not_lt.1 h1
    have k1 : Post tot (do let nl ← negM x.lower; let p ← powAux B.mulUp nl n; negM p : Res T) fun c => ∃ z,
        val c = some (-z) ∧ PowR U n (-a) z := by
      refine (neg_post hA.neg hx.lo).bind fun nl hnl => (powAux_chain_up hA hU hnl (neg_nonneg_of h2.le) n).bind fun p hp => ?_
      obtain ⟨u, hu, hu'⟩ := hp
      exact (neg_post hA.neg hu).mono fun c hc => ⟨u, hc, hu'⟩
    refine (k1.pair (powAux_chain_up hA hU hx.up hb0 n)).bind fun p hp => Post.pure ?_
    obtain ⟨⟨l, hl, hl'⟩, ⟨u, hu, hu'⟩⟩ := hp
    refine ⟨_, _, hl, hu, ?_, ?_⟩
    · unfold PowLo; rw [if_pos ho]
      exact ⟨fun _ => ⟨l, rfl, hl'⟩, fun h => absurd h2 (not_lt.2 h)⟩
    · unfold PowHi; rw [if_pos ho]
      exact ⟨fun h => absurd h h1, fun _ => hu'⟩
  · have hb0 := not_lt.1 h1
    refine (neg_post hA.neg hx.lo).bind fun nl hnl => ?_
    have hm := val_stdMax hnl hx.up
    refine (powAux_chain_up hA hU hm (hb0.trans (le_max_right _ _)) n).bind fun u hu => Post.pure ?_
    obtain ⟨z, hz, hz'⟩ := hu
    refine ⟨_, _, val_zero, hz, ?_, ?_⟩
    · unfold PowLo; rw [if_neg ho]
      exact ⟨fun h => absurd h h1, fun _ _ => rfl, fun h => absurd h2 (not_lt.2 h)⟩
    · unfold PowHi; rw [if_neg ho]; exact hz'
  · have ha0 := not_lt.1 h2
    refine ((powAux_chain_down hA hD hx.lo ha0 hx.ne_top n).pair (powAux_chain_up hA hU hx.up (not_lt.1 h1) n)).bind fun p hp => Post.pure ?_
    obtain ⟨⟨l, hl, hl'⟩, ⟨u, hu, hu'⟩⟩ := hp
    refine ⟨_, _, hl, hu, ?_, ?_⟩
    · unfold PowLo
      split_ifs
      · exact ⟨fun h => absurd h h2, fun _ => hl'⟩
      · exact ⟨fun h => absurd h h1, fun h => absurd h h2, fun _ => hl'⟩
    · unfold PowHi
      split_ifs
      · exact ⟨fun h => absurd h h1, fun _ => hu'⟩
      · have : -a ≤ b := le_trans (by rw [← EReal.neg_le_neg_iff]; simpa using ha0) (not_lt.1 h1)
        rw [max_eq_right this]; exact hu'

theorem bounds_mono (hx : Has x a b) (hx' : Has x' a' b') (h : γ x ⊆ γ x') : a' ≤ a ∧ b ≤ b' := by
  have h3 : IsGLB (E (γ x)) a := isGLB_of (fun r hr => hx.lb hr) hx.lower_cl
  have h4 : IsLUB (E (γ x)) b := isLUB_of (fun r hr => hx.ub hr) hx.upper_cl
  exact ⟨h3.2 (by rintro _ ⟨r, hr, rfl⟩; exact hx'.lb (h hr)), h4.2 (by rintro _ ⟨r, hr, rfl⟩; exact hx'.ub (h hr))⟩

/-- What `pow(x, k)` returns for `x = [a, b]`, as far as isotonicity is concerned. -/
def PowRes (k : ℤ) (a b : EReal) (z : Itv T) : Prop :=
  (k = 0 → val z.lower = some 1 ∧ val z.upper = some 1) ∧
  (0 < k → ∃ l u, val z.lower = some l ∧ val z.upper = some u ∧ PowLo (IsRoundDown T) (IsRoundUp T) k.toNat a b l ∧ PowHi (IsRoundDown T) (IsRoundUp T) k.toNat a b u) ∧
  (k < 0 → ∃ p : Itv T, ∃ l u, val p.lower = some l ∧ val p.upper = some u ∧ PowLo (IsRoundDown T) (IsRoundUp T) (-k).toNat a b l ∧
    PowHi (IsRoundDown T) (IsRoundUp T) (-k).toNat a b u ∧ SmallestEnclosure z (quot {1} (γ p)))

theorem gamma_mono {z z' : Itv T} {l u l' u' : EReal} (h1 : val z.lower = some l) (h2 : val z.upper = some u)
    (h3 : val z'.lower = some l') (h4 : val z'.upper = some u') (h : l' ≤ l) (h' : u ≤ u') : γ z ⊆ γ z' := by
  rintro r ⟨p, q, k1, k2, k3, k4⟩
  rw [h1] at k1; rw [h2] at k2; cases k1; cases k2
  exact ⟨l', u', h3, h4, h.trans k3, k4.trans h'⟩

theorem PowRes.mono {k : ℤ} {z z' : Itv T} (h : PowRes k a b z) (h' : PowRes k a' b' z') (hx : Has x a b) (hx' : Has x' a' b')
    (hxx : γ x ⊆ γ x') : γ z ⊆ γ z' := by
  obtain ⟨ha, hb⟩ := bounds_mono hx hx' hxx
  rcases lt_trichotomy k 0 with h0 | h0 | h0
  · obtain ⟨p, l, u, h1, h2, h3, h4, h5⟩ := h.2.2 h0
    obtain ⟨p', l', u', h1', h2', h3', h4', h5'⟩ := h'.2.2 h0
    have hg := gamma_mono h1 h2 h1' h2' (h3.mono rnd_down rnd_up h3' hx.le hx'.le ha hb) (h4.mono rnd_down rnd_up h4' hx.le ha hb)
    exact h5.mono h5' fun q ⟨r, hr, s, hs, h⟩ => ⟨r, hr, s, hg hs, h⟩
  · exact gamma_mono (h.1 h0).1 (h.1 h0).2 (h'.1 h0).1 (h'.1 h0).2 le_rfl le_rfl
  · obtain ⟨l, u, h1, h2, h3, h4⟩ := h.2.1 h0
    obtain ⟨l', u', h1', h2', h3', h4'⟩ := h'.2.1 h0
    exact gamma_mono h1 h2 h1' h2' (h3.mono rnd_down rnd_up h3' hx.le hx'.le ha hb) (h4.mono rnd_down rnd_up h4' hx.le ha hb)

theorem powI_res (hA : DirLaws tot (IsRoundDown T) (IsRoundUp T) B) (hA' : DirLaws tot LeS GeS B)
    (hV : DivLaws tot (IsRoundDown T) (IsRoundUp T) B) (hC : ChkLaws C)
    (hx : Has x a b) {k : ℤ} (hk : k ≠ intMin) (hI : k < 0 → InfLaws C) (h0 : k ≤ 0 → ∃ r ∈ γ x, r ≠ 0) :
    Post tot (powI (purePolicies B C) x k) (PowRes k a b) := by
  unfold powI
  rw [pure_chk, res_if_false (hx.test hC)]
  by_cases hneg : k < 0
  · rw [if_pos hneg, if_neg hk]
    have hn : 0 < (-k).toNat := by omega
    refine ((powNat_chain hA IsRoundDown.leS IsRoundUp.geS hC hx hn).and (powNat_post hA' hC hx hn)).bind fun p hp => ?_
    obtain ⟨⟨l, u, h1, h2, h3, h4⟩, hp, -⟩ := hp
    obtain ⟨r, hr, hr0⟩ := h0 hneg.le
    obtain ⟨c, d, ix⟩ := has_of_mem (hp r hr)
    have hne : ¬ (c = 0 ∧ d = 0) := fun h => hr0 (eq_zero_of_pow_eq_zero ((zero_bounds ix).1 h (hp r hr)))
    rw [multInv_eq hC ix]
    refine (divTI_post hA.op hV (hI hneg) hC (r := 1) val_one ix hne).mono fun z hz => ⟨fun h => by omega, fun h => by omega, fun _ => ?_⟩
    exact ⟨p, l, u, h1, h2, h3, h4, hz.smallest ⟨_, 1, rfl, _, hp r hr, pow_ne_zero _ hr0, rfl⟩⟩
  · rw [if_neg hneg]
    obtain ⟨n, rfl⟩ : ∃ n : ℕ, k = n := ⟨k.toNat, by omega⟩
    rcases Nat.eq_zero_or_pos n with rfl | hn
    · change Post tot (powNat (purePolicies B C) x 0) _
      rw [powNat_zero hC hx fun h => (by
        obtain ⟨r, hr, hr0⟩ := h0 le_rfl
        exact hr0 ((zero_bounds hx).1 h hr))]
      exact ⟨fun _ => ⟨val_one, val_one⟩, fun h => absurd h (by simp), fun h => absurd h (by simp)⟩
    · change Post tot (powNat (purePolicies B C) x n) _
      exact (powNat_chain hA IsRoundDown.leS IsRoundUp.geS hC hx hn).mono fun z hz => ⟨fun h => by omega, fun _ => by simpa using hz, fun h => by omega⟩

end
end BI
