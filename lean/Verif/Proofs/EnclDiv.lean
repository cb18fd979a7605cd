import Verif.Proofs.EnclArith
/-! # Bounds computed by `/` -/

set_option linter.unusedSectionVars false

namespace BI
open Set

theorem inv_anti_pos {p q : EReal} (hp : 0 < p) (h : p ≤ q) : q⁻¹ ≤ p⁻¹ :=
  EReal.inv_strictAntiOn.antitoneOn (mem_Ioi.2 hp) (mem_Ioi.2 (hp.trans_le h)) h

theorem inv_anti_neg {p q : EReal} (hq : q < 0) (h : p ≤ q) : q⁻¹ ≤ p⁻¹ := by
  have := inv_anti_pos (p := -q) (q := -p) (by rwa [EReal.lt_neg_comm, neg_zero]) (EReal.neg_le_neg_iff.2 h)
  rw [EReal.inv_neg, EReal.inv_neg] at this
  exact EReal.neg_le_neg_iff.1 this

/-- The quotients of points, without the divisions by zero. -/
def quot (X Y : Set ℝ) : Set ℝ := {q | ∃ r ∈ X, ∃ s ∈ Y, s ≠ 0 ∧ q = r / s}

/-- Inverses of the non-zero points. -/
def invs (Y : Set ℝ) : Set ℝ := {q | ∃ s ∈ Y, s ≠ 0 ∧ q = s⁻¹}

theorem quot_mem_closure {X Y : Set ℝ} {p v : EReal} (ha : p ∈ closure (E X)) (hv : v ∈ closure (E (invs Y)))
    (h : MulOk p v) : p * v ∈ closure (E (quot X Y)) := by
  refine closure_mono ?_ (mul_mem_closure ha hv h)
  rintro _ ⟨_, ⟨r, hr, _, ⟨s, hs, h0, rfl⟩, rfl⟩, rfl⟩
  exact ⟨r / s, ⟨r, hr, s, hs, h0, rfl⟩, by rw [div_eq_mul_inv]⟩

theorem invs_eq_image {Y : Set ℝ} (h : (0 : ℝ) ∉ Y) : invs Y = (fun r => r⁻¹) '' Y := by
  ext q; constructor
  · rintro ⟨s, hs, _, rfl⟩; exact ⟨s, hs, rfl⟩
  · rintro ⟨s, hs, rfl⟩; exact ⟨s, hs, fun h0 => h (h0 ▸ hs), rfl⟩

theorem divOk_mulOk {p q : EReal} (h : DivOk p q) : MulOk p q⁻¹ := by
  refine ⟨.inr ⟨(EReal.bot_lt_inv q).ne', (EReal.inv_lt_top q).ne⟩, ?_⟩
  rcases h.2 with h3 | h3
  · exact .inr h3
  · left
    induction q with
    | bot => exact absurd rfl h3.1
    | top => exact absurd rfl h3.2
    | coe b =>
      have := h.1
      rw [← EReal.coe_inv]
      intro h4
      have h5 : b⁻¹ = 0 := by exact_mod_cast h4
      exact this (by rw [inv_eq_zero.1 h5]; rfl)

/-- Small positive points have large inverses. -/
theorem top_mem_invs {Y : Set ℝ} {u : ℝ} (hu : 0 < u) (h : ∀ s : ℝ, 0 < s → s ≤ u → s ∈ Y) :
    (⊤ : EReal) ∈ closure (E (invs Y)) := by
  have hm : ∀ s : ℝ, 0 < s → s ≤ u → ((s⁻¹ : ℝ) : EReal) ∈ E (invs Y) :=
    fun s h1 h2 => ⟨_, ⟨s, h s h1 h2, h1.ne', rfl⟩, rfl⟩
  have hlub : IsLUB (E (invs Y)) ⊤ := by
    refine ⟨fun x _ => le_top, fun w hw => ?_⟩
    induction w with
    | top => exact le_rfl
    | bot => exact absurd (hw (hm u hu le_rfl)) (by simp)
    | coe w =>
      have h0 : 0 < max |w| 1 + 1 := by positivity
      have h1 : 0 < min u (max |w| 1 + 1)⁻¹ := lt_min hu (inv_pos.2 h0)
      have h2 : (((min u (max |w| 1 + 1)⁻¹)⁻¹ : ℝ) : EReal) ≤ w := hw (hm _ h1 (min_le_left _ _))
      have h3 : (min u (max |w| 1 + 1)⁻¹)⁻¹ ≤ w := by exact_mod_cast h2
      have h4 : ((max |w| 1 + 1)⁻¹)⁻¹ ≤ (min u (max |w| 1 + 1)⁻¹)⁻¹ := inv_anti₀ h1 (min_le_right _ _)
      rw [inv_inv] at h4
      have := le_max_left |w| 1
      have := le_abs_self w
      linarith
  exact hlub.mem_closure ⟨_, hm u hu le_rfl⟩

theorem bot_mem_invs {Y : Set ℝ} {u : ℝ} (hu : u < 0) (h : ∀ s : ℝ, s < 0 → u ≤ s → s ∈ Y) :
    (⊥ : EReal) ∈ closure (E (invs Y)) := by
  have h1 : (⊤ : EReal) ∈ closure (E (invs ((fun r => -r) '' Y))) :=
    top_mem_invs (u := -u) (by linarith) fun s hs hs' => ⟨-s, h _ (by linarith) (by linarith), by simp⟩
  have h2 := neg_mem_closure h1
  rw [EReal.neg_top] at h2
  refine closure_mono ?_ h2
  rintro _ ⟨_, ⟨_, ⟨_, ⟨s, hs, rfl⟩, h0, rfl⟩, rfl⟩, rfl⟩
  exact ⟨s⁻¹, ⟨s, hs, by simpa using h0, rfl⟩, by simp [inv_neg]⟩

section
variable {T : Type} [Num T] [Val T] [NumLaws T] {tot : Prop} {D U : EReal → EReal → Prop} {B : Arith Res T}
  {C : Checking T} {x y : Itv T} {a b c d : EReal} {t s : T} {r q : ℝ}

theorem m_nn {p q : EReal} (h : p ≤ 0) (h' : q ≤ 0) : 0 ≤ p * q := by simpa using mr_nonpos h h'
theorem m_pn {p q : EReal} (h : 0 ≤ p) (h' : q ≤ 0) : p * q ≤ 0 := by simpa using mr_nonpos h h'
theorem m_np {p q : EReal} (h : p ≤ 0) (h' : 0 ≤ q) : p * q ≤ 0 := by simpa using mr_nonneg h h'

theorem divOk_left {p q : EReal} (h : q ≠ 0) (h1 : p ≠ ⊥) (h2 : p ≠ ⊤) : DivOk p q := ⟨h, .inl ⟨h1, h2⟩⟩
theorem divOk_right {p q : EReal} (h : q ≠ 0) (h1 : q ≠ ⊥) (h2 : q ≠ ⊤) : DivOk p q := ⟨h, .inr ⟨h1, h2⟩⟩

/-- zero is not a point of `y` -/
def NoZero (c d : EReal) : Prop := 0 < c ∨ d < 0

theorem NoZero.not_mem (h : NoZero c d) (hy : Has y c d) : (0 : ℝ) ∉ γ y := by
  rw [hy.gamma]; rintro ⟨h1, h2⟩
  rcases h with h | h
  · exact absurd (h.trans_le h1) (by simp)
  · exact absurd (lt_of_le_of_lt h2 h) (by simp)

theorem inv_bounds (h : NoZero c d) (hy : Has y c d) {s : ℝ} (hs : s ∈ γ y) :
    d⁻¹ ≤ (s : EReal)⁻¹ ∧ (s : EReal)⁻¹ ≤ c⁻¹ := by
  rcases h with h | h
  · exact ⟨inv_anti_pos (h.trans_le (hy.lb hs)) (hy.ub hs), inv_anti_pos h (hy.lb hs)⟩
  · exact ⟨inv_anti_neg h (hy.ub hs), inv_anti_neg (lt_of_le_of_lt (hy.ub hs) h) (hy.lb hs)⟩

theorem inv_cl (h : NoZero c d) (hy : Has y c d) :
    d⁻¹ ∈ closure (E (invs (γ y))) ∧ c⁻¹ ∈ closure (E (invs (γ y))) := by
  rw [invs_eq_image (h.not_mem hy), hy.gamma]
  obtain ⟨r₀, h₀⟩ := hy.exists_mem
  rcases h with h | h
  · exact ⟨inv_upper_mem_closure h₀ h, inv_lower_mem_closure h₀ h⟩
  · exact ⟨inv_upper_mem_closure' h₀ h, inv_lower_mem_closure' h₀ h⟩

theorem glb_div_of (hx : Has x a b) (hy : Has y c d) (h0 : NoZero c d) {e : EReal}
    (hlb : ∀ r i : EReal, a ≤ r → r ≤ b → d⁻¹ ≤ i → i ≤ c⁻¹ → e ≤ r * i)
    (hc : e ∈ closure (E (quot (γ x) (γ y)))) : IsGLB (E (quot (γ x) (γ y))) e := by
  refine isGLB_of ?_ hc
  rintro _ ⟨r, hr, s, hs, _, rfl⟩
  have := inv_bounds h0 hy hs
  rw [EReal.coe_div, div_eq_mul_inv]
  exact hlb _ _ (hx.lb hr) (hx.ub hr) this.1 this.2

theorem lub_div_of (hx : Has x a b) (hy : Has y c d) (h0 : NoZero c d) {e : EReal}
    (hub : ∀ r i : EReal, a ≤ r → r ≤ b → d⁻¹ ≤ i → i ≤ c⁻¹ → r * i ≤ e)
    (hc : e ∈ closure (E (quot (γ x) (γ y)))) : IsLUB (E (quot (γ x) (γ y))) e := by
  refine isLUB_of ?_ hc
  rintro _ ⟨r, hr, s, hs, _, rfl⟩
  have := inv_bounds h0 hy hs
  rw [EReal.coe_div, div_eq_mul_inv]
  exact hub _ _ (hx.lb hr) (hx.ub hr) this.1 this.2

theorem div_cl {p q : EReal} {X Y : Set ℝ} (hp : p ∈ closure (E X)) (hq : q⁻¹ ∈ closure (E (invs Y)))
    (h : DivOk p q) : p / q ∈ closure (E (quot X Y)) := by
  rw [div_eq_mul_inv]; exact quot_mem_closure hp hq (divOk_mulOk h)

theorem divNonZeroII_post (hA : DivLaws tot D U B) (hx : Has x a b) (hy : Has y c d) (h0 : NoZero c d) :
    Post tot (divNonZeroII (purePolicies B C) x y) (Bnd D U (quot (γ x) (γ y))) := by
  unfold divNonZeroII
  rw [pure_scope, pure_rnd]
  simp only [isNeg_eq hx.lo, isNeg_eq hx.up, isNeg_eq hy.up, decide_eq_true_eq]
  have XL := hx.lower_cl
  have XU := hx.upper_cl
  obtain ⟨YU, YL⟩ := inv_cl h0 hy
  have hd : d < 0 → d ≠ ⊤ := fun h => ne_top_of_lt h
  have hxu : b < 0 → b ≠ ⊤ := fun h => ne_top_of_lt h
  by_cases h1 : b < 0 <;> by_cases h2 : a < 0 <;> by_cases h3 : d < 0 <;>
    simp only [h1, h2, h3, if_true, if_false]
  all_goals
    first
    | exact absurd (lt_of_le_of_lt hx.le h1) h2
    | skip
  · -- N / N
    have hc0 : c < 0 := lt_of_le_of_lt hy.le h3
    have ok1 : DivOk b c := divOk_left hc0.ne hx.ne_bot (hxu h1)
    have ok2 : DivOk a d := divOk_right h3.ne hy.ne_bot (hd h3)
    refine mk2_post (hA.divDown _ _ _ _ hx.up hy.lo ok1) (hA.divUp _ _ _ _ hx.lo hy.up ok2)
      (glb_div_of hx hy h0 ?_ (div_cl XU YL ok1)) (lub_div_of hx hy h0 ?_ (div_cl XL YU ok2))
    · intro p i hp hp' hi hi'
      rw [div_eq_mul_inv]
      exact (mr_nonpos hp' (EReal.inv_nonpos_of_nonpos hc0.le)).trans (ml_nonpos hi' (hp'.trans h1.le))
    · intro p i hp hp' hi hi'
      rw [div_eq_mul_inv]
      exact (ml_nonpos hi (hp'.trans h1.le)).trans (mr_nonpos hp (EReal.inv_nonpos_of_nonpos h3.le))
  · -- N / P
    have hc0 : 0 < c := h0.resolve_right h3
    have hd0 : 0 < d := hc0.trans_le hy.le
    have ok1 : DivOk a c := divOk_right hc0.ne' (ne_bot_of_gt hc0) hy.ne_top
    have ok2 : DivOk b d := divOk_left hd0.ne' hx.ne_bot (hxu h1)
    refine mk2_post (hA.divDown _ _ _ _ hx.lo hy.lo ok1) (hA.divUp _ _ _ _ hx.up hy.up ok2)
      (glb_div_of hx hy h0 ?_ (div_cl XL YL ok1)) (lub_div_of hx hy h0 ?_ (div_cl XU YU ok2))
    · intro p i hp hp' hi hi'
      rw [div_eq_mul_inv]
      exact (mr_nonneg hp (EReal.inv_nonneg_of_nonneg hc0.le)).trans (ml_nonpos hi' (hp'.trans h1.le))
    · intro p i hp hp' hi hi'
      rw [div_eq_mul_inv]
      exact (ml_nonpos hi (hp'.trans h1.le)).trans (mr_nonneg hp' (EReal.inv_nonneg_of_nonneg hd0.le))
  · -- M / N
    have hb0 := not_lt.1 h1
    have hc0 : c < 0 := lt_of_le_of_lt hy.le h3
    have hd1 := EReal.inv_nonpos_of_nonpos h3.le
    have hc1 := EReal.inv_nonpos_of_nonpos hc0.le
    have ok1 : DivOk b d := divOk_right h3.ne hy.ne_bot (hd h3)
    have ok2 : DivOk a d := divOk_right h3.ne hy.ne_bot (hd h3)
    refine mk2_post (hA.divDown _ _ _ _ hx.up hy.up ok1) (hA.divUp _ _ _ _ hx.lo hy.up ok2)
      (glb_div_of hx hy h0 ?_ (div_cl XU YU ok1)) (lub_div_of hx hy h0 ?_ (div_cl XL YU ok2))
    · intro p i hp hp' hi hi'
      rw [div_eq_mul_inv]
      rcases le_total p 0 with h | h
      · exact (m_pn hb0 hd1).trans (m_nn h (hi'.trans hc1))
      · exact (mr_nonpos hp' hd1).trans (ml_nonneg hi h)
    · intro p i hp hp' hi hi'
      rw [div_eq_mul_inv]
      rcases le_total p 0 with h | h
      · exact (ml_nonpos hi h).trans (mr_nonpos hp hd1)
      · exact (m_pn h (hi'.trans hc1)).trans (m_nn h2.le hd1)
  · -- M / P
    have hb0 := not_lt.1 h1
    have hc0 : 0 < c := h0.resolve_right h3
    have hd1 := EReal.inv_nonneg_of_nonneg (hc0.trans_le hy.le).le
    have hc1 := EReal.inv_nonneg_of_nonneg hc0.le
    have ok : ∀ p : EReal, DivOk p c := fun p => divOk_right hc0.ne' (ne_bot_of_gt hc0) hy.ne_top
    refine mk2_post (hA.divDown _ _ _ _ hx.lo hy.lo (ok _)) (hA.divUp _ _ _ _ hx.up hy.lo (ok _))
      (glb_div_of hx hy h0 ?_ (div_cl XL YL (ok _))) (lub_div_of hx hy h0 ?_ (div_cl XU YL (ok _)))
    · intro p i hp hp' hi hi'
      rw [div_eq_mul_inv]
      rcases le_total p 0 with h | h
      · exact (mr_nonneg hp hc1).trans (ml_nonpos hi' h)
      · exact (m_np h2.le hc1).trans (mul_nonneg h (hd1.trans hi))
    · intro p i hp hp' hi hi'
      rw [div_eq_mul_inv]
      rcases le_total p 0 with h | h
      · exact (m_np h (hd1.trans hi)).trans (mul_nonneg hb0 hc1)
      · exact (ml_nonneg hi' h).trans (mr_nonneg hp' hc1)
  · -- P / N
    have ha0 := not_lt.1 h2
    have hc0 : c < 0 := lt_of_le_of_lt hy.le h3
    have hd1 := EReal.inv_nonpos_of_nonpos h3.le
    have hc1 := EReal.inv_nonpos_of_nonpos hc0.le
    have ok1 : DivOk b d := divOk_right h3.ne hy.ne_bot (hd h3)
    have ok2 : DivOk a c := divOk_left hc0.ne (ne_bot_of_le_ne_bot EReal.zero_ne_bot ha0) hx.ne_top
    refine mk2_post (hA.divDown _ _ _ _ hx.up hy.up ok1) (hA.divUp _ _ _ _ hx.lo hy.lo ok2)
      (glb_div_of hx hy h0 ?_ (div_cl XU YU ok1)) (lub_div_of hx hy h0 ?_ (div_cl XL YL ok2))
    · intro p i hp hp' hi hi'
      rw [div_eq_mul_inv]
      exact (mr_nonpos hp' hd1).trans (ml_nonneg hi (ha0.trans hp))
    · intro p i hp hp' hi hi'
      rw [div_eq_mul_inv]
      exact (ml_nonneg hi' (ha0.trans hp)).trans (mr_nonpos hp hc1)
  · -- P / P
    have ha0 := not_lt.1 h2
    have hc0 : 0 < c := h0.resolve_right h3
    have hd0 : 0 < d := hc0.trans_le hy.le
    have hd1 := EReal.inv_nonneg_of_nonneg hd0.le
    have hc1 := EReal.inv_nonneg_of_nonneg hc0.le
    have ok1 : DivOk a d := divOk_left hd0.ne' (ne_bot_of_le_ne_bot EReal.zero_ne_bot ha0) hx.ne_top
    have ok2 : DivOk b c := divOk_right hc0.ne' (ne_bot_of_gt hc0) hy.ne_top
    refine mk2_post (hA.divDown _ _ _ _ hx.lo hy.up ok1) (hA.divUp _ _ _ _ hx.up hy.lo ok2)
      (glb_div_of hx hy h0 ?_ (div_cl XL YU ok1)) (lub_div_of hx hy h0 ?_ (div_cl XU YL ok2))
    · intro p i hp hp' hi hi'
      rw [div_eq_mul_inv]
      exact (mr_nonneg hp hd1).trans (ml_nonneg hi (ha0.trans hp))
    · intro p i hp hp' hi hi'
      rw [div_eq_mul_inv]
      exact (ml_nonneg hi' (ha0.trans hp)).trans (mr_nonneg hp' hc1)

theorem divNonZeroTI_post (hA : DivLaws tot D U B) (ht : val t = some (r : EReal)) (hy : Has y c d)
    (h0 : NoZero c d) :
    Post tot (divNonZeroTI (purePolicies B C) t y) (Bnd D U (quot {r} (γ y))) := by
  unfold divNonZeroTI
  rw [pure_scope, pure_rnd]
  simp only [isNeg_eq ht, decide_eq_true_eq]
  have hx := has_single ht
  have XL := hx.lower_cl
  obtain ⟨YU, YL⟩ := inv_cl h0 hy
  rw [← gamma_single ht]
  have hc0 : c ≠ 0 := by
    rcases h0 with h | h
    · exact h.ne'
    · exact (lt_of_le_of_lt hy.le h).ne
  have hd0 : d ≠ 0 := by
    rcases h0 with h | h
    · exact (h.trans_le hy.le).ne'
    · exact h.ne
  have ok1 : DivOk r c := divOk_left hc0 (EReal.coe_ne_bot _) (EReal.coe_ne_top _)
  have ok2 : DivOk r d := divOk_left hd0 (EReal.coe_ne_bot _) (EReal.coe_ne_top _)
  by_cases h1 : (r : EReal) < 0 <;> simp only [h1, if_true, if_false]
  · refine mk2_post (hA.divDown _ _ _ _ ht hy.lo ok1) (hA.divUp _ _ _ _ ht hy.up ok2)
      (glb_div_of hx hy h0 ?_ (div_cl XL YL ok1)) (lub_div_of hx hy h0 ?_ (div_cl XL YU ok2))
    · intro p i hp hp' hi hi'
      have : p = r := le_antisymm hp' hp
      subst this; rw [div_eq_mul_inv]; exact ml_nonpos hi' h1.le
    · intro p i hp hp' hi hi'
      have : p = r := le_antisymm hp' hp
      subst this; rw [div_eq_mul_inv]; exact ml_nonpos hi h1.le
  · have h1' := not_lt.1 h1
    refine mk2_post (hA.divDown _ _ _ _ ht hy.up ok2) (hA.divUp _ _ _ _ ht hy.lo ok1)
      (glb_div_of hx hy h0 ?_ (div_cl XL YU ok2)) (lub_div_of hx hy h0 ?_ (div_cl XL YL ok1))
    · intro p i hp hp' hi hi'
      have : p = r := le_antisymm hp' hp
      subst this; rw [div_eq_mul_inv]; exact ml_nonneg hi h1'
    · intro p i hp hp' hi hi'
      have : p = r := le_antisymm hp' hp
      subst this; rw [div_eq_mul_inv]; exact ml_nonneg hi' h1'

/-! ## Divisors with a zero bound -/

theorem mkNegInf_post {e₁ e₂ : EReal} {S : Set ℝ} {p : Res T} (hA : OpLaws tot D U B) (hI : InfLaws C)
    (hp : Post tot p fun c => ∃ z, val c = some z ∧ U z e₂) (h₀ : e₁ = ⊥) (h₁ : IsGLB (E S) e₁)
    (h₂ : IsLUB (E S) e₂) : Post tot (mkNegInf C p) (Bnd D U S) := by
  subst h₀
  obtain ⟨n, hn, hn'⟩ := hI.negInf
  unfold mkNegInf
  rw [hn]
  refine hp.bind fun u hu => Post.pure ?_
  obtain ⟨z, hz, hz'⟩ := hu
  exact ⟨⊥, z, ⊥, e₂, hn', hz, h₁, h₂, hA.D_exact _ _ hn', hz'⟩

theorem mkPosInf_post {e₁ e₂ : EReal} {S : Set ℝ} {p : Res T} (hA : OpLaws tot D U B) (hI : InfLaws C)
    (hp : Post tot p fun c => ∃ z, val c = some z ∧ D z e₁) (h₀ : e₂ = ⊤) (h₁ : IsGLB (E S) e₁)
    (h₂ : IsLUB (E S) e₂) : Post tot (mkPosInf C p) (Bnd D U S) := by
  subst h₀
  obtain ⟨n, hn, hn'⟩ := hI.posInf
  unfold mkPosInf
  rw [hn]
  refine hp.bind fun u hu => Post.pure ?_
  obtain ⟨z, hz, hz'⟩ := hu
  exact ⟨z, ⊤, e₁, ⊤, hz, hn', h₁, h₂, hz', hA.U_exact _ _ hn'⟩

theorem whole_ok (hI : InfLaws C) : ∃ w, wholeI C = .ok w ∧ val w.lower = some ⊥ ∧ val w.upper = some ⊤ := by
  obtain ⟨p, hp, hp'⟩ := hI.posInf
  obtain ⟨n, hn, hn'⟩ := hI.negInf
  exact ⟨⟨n, p⟩, by unfold wholeI; rw [hp, hn]; rfl, hn', hp'⟩

theorem whole_post {S : Set ℝ} (hA : OpLaws tot D U B) (hI : InfLaws C)
    (h₁ : IsGLB (E S) ⊥) (h₂ : IsLUB (E S) ⊤) : Post tot (wholeI C) (Bnd D U S) := by
  obtain ⟨w, hw, h3, h4⟩ := whole_ok hI
  rw [hw]
  exact ⟨⊥, ⊤, ⊥, ⊤, h3, h4, h₁, h₂, hA.D_exact _ _ h3, hA.U_exact _ _ h4⟩

theorem whole_encl {S : Set ℝ} (hI : InfLaws C) : Post tot (wholeI C) (fun z => S ⊆ γ z) := by
  obtain ⟨w, hw, h3, h4⟩ := whole_ok hI
  rw [hw]
  exact fun r _ => ⟨⊥, ⊤, h3, h4, bot_le, le_top⟩

theorem glb_bot {S : Set ℝ} (h : ⊥ ∈ closure (E S)) : IsGLB (E S) ⊥ := isGLB_of (fun _ _ => bot_le) h
theorem lub_top {S : Set ℝ} (h : ⊤ ∈ closure (E S)) : IsLUB (E S) ⊤ := isLUB_of (fun _ _ => le_top) h

theorem quot_zero {Y : Set ℝ} (h : ∃ s ∈ Y, s ≠ 0) : quot {0} Y = {0} := by
  ext q
  constructor
  · rintro ⟨_, rfl, s, _, _, rfl⟩; simp
  · rintro rfl
    obtain ⟨s, hs, h0⟩ := h
    exact ⟨0, rfl, s, hs, h0, by simp⟩

theorem bnd_self_zero (hA : OpLaws tot D U B) (hx : Has x 0 0) : Bnd D U {0} x := by
  refine ⟨0, 0, 0, 0, hx.lo, hx.up, ?_, ?_, hA.D_exact _ _ hx.lo, hA.U_exact _ _ hx.up⟩ <;> simp [E]

/-- Points of `[0, d]`. -/
theorem pos_points (hy : Has y 0 d) (hd : 0 < d) : ∃ u : ℝ, 0 < u ∧ ∀ s : ℝ, 0 < s → s ≤ u → s ∈ γ y := by
  rw [hy.gamma]
  induction d with
  | bot => exact absurd hd (by simp)
  | top => exact ⟨1, one_pos, fun s hs _ => ⟨by exact_mod_cast hs.le, le_top⟩⟩
  | coe d => exact ⟨d, by exact_mod_cast hd, fun s hs hs' => ⟨by exact_mod_cast hs.le, by exact_mod_cast hs'⟩⟩

theorem neg_points (hy : Has y c 0) (hc : c < 0) : ∃ u : ℝ, u < 0 ∧ ∀ s : ℝ, s < 0 → u ≤ s → s ∈ γ y := by
  rw [hy.gamma]
  induction c with
  | top => exact absurd hc (by simp)
  | bot => exact ⟨-1, by norm_num, fun s hs _ => ⟨bot_le, by exact_mod_cast hs.le⟩⟩
  | coe c => exact ⟨c, by exact_mod_cast hc, fun s hs hs' => ⟨by exact_mod_cast hs', by exact_mod_cast hs.le⟩⟩

theorem inv_upper_cl_pos (hy : Has y 0 d) (hd : 0 < d) : d⁻¹ ∈ closure (E (invs (γ y))) := by
  obtain ⟨u, hu, hu'⟩ := pos_points hy hd
  have hsub : invs (γ y) ⊇ (fun r => r⁻¹) '' RI (u : EReal) d := by
    rintro _ ⟨s, ⟨h1, h2⟩, rfl⟩
    have h1' : u ≤ s := by exact_mod_cast h1
    exact ⟨s, by rw [hy.gamma]; exact ⟨by exact_mod_cast (hu.le.trans h1'), h2⟩, (hu.trans_le h1').ne', rfl⟩
  have hud : (u : EReal) ≤ d := hy.ub (hu' u hu le_rfl)
  have h₀ : u ∈ RI (u : EReal) d := ⟨le_rfl, hud⟩
  exact closure_mono (image_mono hsub) (inv_upper_mem_closure h₀ (by exact_mod_cast hu))

theorem inv_lower_cl_neg (hy : Has y c 0) (hc : c < 0) : c⁻¹ ∈ closure (E (invs (γ y))) := by
  obtain ⟨u, hu, hu'⟩ := neg_points hy hc
  have hsub : invs (γ y) ⊇ (fun r => r⁻¹) '' RI c (u : EReal) := by
    rintro _ ⟨s, ⟨h1, h2⟩, rfl⟩
    have h2' : s ≤ u := by exact_mod_cast h2
    exact ⟨s, by rw [hy.gamma]; exact ⟨h1, by exact_mod_cast (h2'.trans hu.le)⟩, (h2'.trans_lt hu).ne, rfl⟩
  have hud : c ≤ (u : EReal) := hy.lb (hu' u hu le_rfl)
  have h₀ : u ∈ RI c (u : EReal) := ⟨hud, le_rfl⟩
  exact closure_mono (image_mono hsub) (inv_lower_mem_closure' h₀ (by exact_mod_cast hu))

theorem mul_top_neg {p : EReal} (h : p < 0) : p * ⊤ = ⊥ := EReal.mul_top_of_neg h
theorem mul_top_pos {p : EReal} (h : 0 < p) : p * ⊤ = ⊤ := EReal.mul_top_of_pos h
theorem mul_bot_neg {p : EReal} (h : p < 0) : p * ⊥ = ⊤ := EReal.mul_bot_of_neg h
theorem mul_bot_pos {p : EReal} (h : 0 < p) : p * ⊥ = ⊥ := EReal.mul_bot_of_pos h

theorem mulOk_top {p : EReal} (h : p ≠ 0) : MulOk p ⊤ := mulOk_nz h (by simp)
theorem mulOk_bot {p : EReal} (h : p ≠ 0) : MulOk p ⊥ := mulOk_nz h (by simp)

/-- The situation in which the code answers with the whole line although the quotients are bounded on one side. -/
def DivGap (a b : EReal) : Prop := a < 0 ∧ b = 0

theorem divPositiveI_post (hA : OpLaws tot D U B) (hV : DivLaws tot D U B) (hI : InfLaws C) (hx : Has x a b)
    (hy : Has y 0 d) (hd : 0 < d) (hg : ¬ DivGap a b) :
    Post tot (divPositiveI (purePolicies B C) x y.upper) (Bnd D U (quot (γ x) (γ y))) := by
  unfold divPositiveI
  rw [pure_scope, pure_rnd, pure_chk]
  simp only [isNeg_eq hx.lo, isNeg_eq hx.up, isZero_eq hx.lo, isZero_eq hx.up, decide_eq_true_eq, Bool.and_eq_true]
  have XL := hx.lower_cl
  have XU := hx.upper_cl
  obtain ⟨u, hu, hu'⟩ := pos_points hy hd
  have YT : ⊤ ∈ closure (E (invs (γ y))) := top_mem_invs hu hu'
  have YU := inv_upper_cl_pos hy hd
  have hd1 := EReal.inv_nonneg_of_nonneg hd.le
  have hpos : ∀ s ∈ γ y, s ≠ 0 → 0 < (s : EReal) ∧ d⁻¹ ≤ (s : EReal)⁻¹ := by
    intro s hs h0
    have h1 : 0 ≤ s := by exact_mod_cast hy.lb hs
    have h2 : 0 < (s : EReal) := by exact_mod_cast lt_of_le_of_ne h1 (Ne.symm h0)
    exact ⟨h2, inv_anti_pos h2 (hy.ub hs)⟩
  by_cases h0 : a = 0 ∧ b = 0
  · rw [if_pos h0]
    obtain ⟨rfl, rfl⟩ := h0
    rw [gamma_zero hx le_rfl le_rfl, quot_zero ⟨u, hu' u hu le_rfl, hu.ne'⟩]
    exact Post.pure (bnd_self_zero hA hx)
  · rw [if_neg h0]
    by_cases h1 : b < 0
    · simp only [h1, if_true]
      have ok : DivOk b d := divOk_left hd.ne' hx.ne_bot (ne_top_of_lt h1)
      refine mkNegInf_post hA hI (hV.divUp _ _ _ _ hx.up hy.up ok) rfl
        (glb_bot (by simpa [mul_top_neg h1] using quot_mem_closure XU YT (mulOk_top h1.ne)))
        (isLUB_of ?_ (div_cl XU YU ok))
      rintro _ ⟨p, hp, s, hs, hs0, rfl⟩
      rw [EReal.coe_div, div_eq_mul_inv, div_eq_mul_inv]
      exact (ml_nonpos (hpos s hs hs0).2 ((hx.ub hp).trans h1.le)).trans (mr_nonneg (hx.ub hp) hd1)
    · simp only [h1, if_false]
      by_cases h2 : a < 0
      · simp only [h2, if_true]
        have hb : 0 < b := lt_of_le_of_ne (not_lt.1 h1) fun h => hg ⟨h2, h.symm⟩
        exact whole_post hA hI
          (glb_bot (by simpa [mul_top_neg h2] using quot_mem_closure XL YT (mulOk_top h2.ne)))
          (lub_top (by simpa [mul_top_pos hb] using quot_mem_closure XU YT (mulOk_top hb.ne')))
      · simp only [h2, if_false]
        have ha : 0 ≤ a := not_lt.1 h2
        have hb : 0 < b := by
          rcases (ha.trans hx.le).lt_or_eq with h | h
          · exact h
          · exact absurd ⟨le_antisymm (h ▸ hx.le) ha, h.symm⟩ h0
        have ok : DivOk a d := divOk_left hd.ne' (ne_bot_of_le_ne_bot EReal.zero_ne_bot ha) hx.ne_top
        refine mkPosInf_post hA hI (hV.divDown _ _ _ _ hx.lo hy.up ok) rfl (isGLB_of ?_ (div_cl XL YU ok))
          (lub_top (by simpa [mul_top_pos hb] using quot_mem_closure XU YT (mulOk_top hb.ne')))
        rintro _ ⟨p, hp, s, hs, hs0, rfl⟩
        rw [EReal.coe_div, div_eq_mul_inv, div_eq_mul_inv]
        exact (mr_nonneg (hx.lb hp) hd1).trans (ml_nonneg (hpos s hs hs0).2 (ha.trans (hx.lb hp)))

theorem divNegativeI_post (hA : OpLaws tot D U B) (hV : DivLaws tot D U B) (hI : InfLaws C) (hx : Has x a b)
    (hy : Has y c 0) (hc : c < 0) (hg : ¬ DivGap a b) :
    Post tot (divNegativeI (purePolicies B C) x y.lower) (Bnd D U (quot (γ x) (γ y))) := by
  unfold divNegativeI
  rw [pure_scope, pure_rnd, pure_chk]
  simp only [isNeg_eq hx.lo, isNeg_eq hx.up, isZero_eq hx.lo, isZero_eq hx.up, decide_eq_true_eq, Bool.and_eq_true]
  have XL := hx.lower_cl
  have XU := hx.upper_cl
  obtain ⟨u, hu, hu'⟩ := neg_points hy hc
  have YB : ⊥ ∈ closure (E (invs (γ y))) := bot_mem_invs hu hu'
  have YL := inv_lower_cl_neg hy hc
  have hc1 := EReal.inv_nonpos_of_nonpos hc.le
  have hneg : ∀ s ∈ γ y, s ≠ 0 → (s : EReal) < 0 ∧ (s : EReal)⁻¹ ≤ c⁻¹ := by
    intro s hs h0
    have h1 : s ≤ 0 := by exact_mod_cast hy.ub hs
    have h2 : (s : EReal) < 0 := by exact_mod_cast lt_of_le_of_ne h1 h0
    exact ⟨h2, inv_anti_neg h2 (hy.lb hs)⟩
  by_cases h0 : a = 0 ∧ b = 0
  · rw [if_pos h0]
    obtain ⟨rfl, rfl⟩ := h0
    rw [gamma_zero hx le_rfl le_rfl, quot_zero ⟨u, hu' u hu le_rfl, hu.ne⟩]
    exact Post.pure (bnd_self_zero hA hx)
  · rw [if_neg h0]
    by_cases h1 : b < 0
    · simp only [h1, if_true]
      have ok : DivOk b c := divOk_left hc.ne hx.ne_bot (ne_top_of_lt h1)
      refine mkPosInf_post hA hI (hV.divDown _ _ _ _ hx.up hy.lo ok) rfl (isGLB_of ?_ (div_cl XU YL ok))
        (lub_top (by simpa [mul_bot_neg h1] using quot_mem_closure XU YB (mulOk_bot h1.ne)))
      rintro _ ⟨p, hp, s, hs, hs0, rfl⟩
      rw [EReal.coe_div, div_eq_mul_inv, div_eq_mul_inv]
      exact (mr_nonpos (hx.ub hp) hc1).trans (ml_nonpos (hneg s hs hs0).2 ((hx.ub hp).trans h1.le))
    · simp only [h1, if_false]
      by_cases h2 : a < 0
      · simp only [h2, if_true]
        have hb : 0 < b := lt_of_le_of_ne (not_lt.1 h1) fun h => hg ⟨h2, h.symm⟩
        exact whole_post hA hI
          (glb_bot (by simpa [mul_bot_pos hb] using quot_mem_closure XU YB (mulOk_bot hb.ne')))
          (lub_top (by simpa [mul_bot_neg h2] using quot_mem_closure XL YB (mulOk_bot h2.ne)))
      · simp only [h2, if_false]
        have ha : 0 ≤ a := not_lt.1 h2
        have hb : 0 < b := by
          rcases (ha.trans hx.le).lt_or_eq with h | h
          · exact h
          · exact absurd ⟨le_antisymm (h ▸ hx.le) ha, h.symm⟩ h0
        have ok : DivOk a c := divOk_left hc.ne (ne_bot_of_le_ne_bot EReal.zero_ne_bot ha) hx.ne_top
        refine mkNegInf_post hA hI (hV.divUp _ _ _ _ hx.lo hy.lo ok) rfl
          (glb_bot (by simpa [mul_bot_pos hb] using quot_mem_closure XU YB (mulOk_bot hb.ne')))
          (isLUB_of ?_ (div_cl XL YL ok))
        rintro _ ⟨p, hp, s, hs, hs0, rfl⟩
        rw [EReal.coe_div, div_eq_mul_inv, div_eq_mul_inv]
        exact (ml_nonneg (hneg s hs hs0).2 (ha.trans (hx.lb hp))).trans (mr_nonpos (hx.lb hp) hc1)

/-- In the gap the answer is the whole line. -/
theorem divPositiveI_gap (hI : InfLaws C) (hx : Has x a b) (hg : DivGap a b) (yu : T) :
    divPositiveI (purePolicies B C) x yu = wholeI C := by
  unfold divPositiveI
  rw [pure_scope, pure_rnd, pure_chk]
  simp only [isNeg_eq hx.lo, isNeg_eq hx.up, isZero_eq hx.lo, isZero_eq hx.up, decide_eq_true_eq, Bool.and_eq_true]
  rw [if_neg (fun h => hg.1.ne h.1), if_neg (by simp [hg.2]), if_pos hg.1]
  rfl

theorem divNegativeI_gap (hI : InfLaws C) (hx : Has x a b) (hg : DivGap a b) (yl : T) :
    divNegativeI (purePolicies B C) x yl = wholeI C := by
  unfold divNegativeI
  rw [pure_scope, pure_rnd, pure_chk]
  simp only [isNeg_eq hx.lo, isNeg_eq hx.up, isZero_eq hx.lo, isZero_eq hx.up, decide_eq_true_eq, Bool.and_eq_true]
  rw [if_neg (fun h => hg.1.ne h.1), if_neg (by simp [hg.2]), if_pos hg.1]
  rfl

theorem both_points (hy : Has y c d) (hc : c < 0) (hd : 0 < d) :
    (∃ u : ℝ, 0 < u ∧ ∀ s : ℝ, 0 < s → s ≤ u → s ∈ γ y) ∧
    (∃ u : ℝ, u < 0 ∧ ∀ s : ℝ, s < 0 → u ≤ s → s ∈ γ y) := by
  have h1 : ∃ u : ℝ, 0 < u ∧ (u : EReal) ≤ d := by
    obtain ⟨u, hu, hu'⟩ := exists_between hd
    induction u with
    | bot => exact absurd hu (by simp)
    | top => exact absurd hu' (by simp)
    | coe u => exact ⟨u, by exact_mod_cast hu, hu'.le⟩
  have h2 : ∃ u : ℝ, u < 0 ∧ c ≤ (u : EReal) := by
    obtain ⟨u, hu, hu'⟩ := exists_between hc
    induction u with
    | bot => exact absurd hu (by simp)
    | top => exact absurd hu' (by simp)
    | coe u => exact ⟨u, by exact_mod_cast hu', hu.le⟩
  rw [hy.gamma]
  obtain ⟨u, hu, hu'⟩ := h1
  obtain ⟨v, hv, hv'⟩ := h2
  exact ⟨⟨u, hu, fun s hs hs' => ⟨hc.le.trans (by exact_mod_cast hs.le), le_trans (by exact_mod_cast hs') hu'⟩⟩,
    ⟨v, hv, fun s hs hs' => ⟨hv'.trans (by exact_mod_cast hs'), le_trans (by exact_mod_cast hs.le) hd.le⟩⟩⟩

theorem divZeroI_post (hA : OpLaws tot D U B) (hI : InfLaws C) (hx : Has x a b)
    (hy : Has y c d) (hc : c < 0) (hd : 0 < d) :
    Post tot (divZeroI (purePolicies B C) x) (Bnd D U (quot (γ x) (γ y))) := by
  unfold divZeroI
  rw [pure_chk]
  simp only [isZero_eq hx.lo, isZero_eq hx.up, decide_eq_true_eq, Bool.and_eq_true]
  have XL := hx.lower_cl
  have XU := hx.upper_cl
  obtain ⟨⟨u, hu, hu'⟩, ⟨v, hv, hv'⟩⟩ := both_points hy hc hd
  have YT : ⊤ ∈ closure (E (invs (γ y))) := top_mem_invs hu hu'
  have YB : ⊥ ∈ closure (E (invs (γ y))) := bot_mem_invs hv hv'
  by_cases h0 : a = 0 ∧ b = 0
  · rw [if_pos h0]
    obtain ⟨rfl, rfl⟩ := h0
    rw [gamma_zero hx le_rfl le_rfl, quot_zero ⟨u, hu' u hu le_rfl, hu.ne'⟩]
    exact Post.pure (bnd_self_zero hA hx)
  · rw [if_neg h0]
    have h : ∃ p, p ≠ 0 ∧ p ∈ closure (E (γ x)) := by
      by_cases ha : a = 0
      · exact ⟨b, fun hb => h0 ⟨ha, hb⟩, XU⟩
      · exact ⟨a, ha, XL⟩
    obtain ⟨p, hp, hpc⟩ := h
    rcases lt_or_gt_of_ne hp with h | h
    · exact whole_post hA hI
        (glb_bot (by simpa [mul_top_neg h] using quot_mem_closure hpc YT (mulOk_top hp)))
        (lub_top (by simpa [mul_bot_neg h] using quot_mem_closure hpc YB (mulOk_bot hp)))
    · exact whole_post hA hI
        (glb_bot (by simpa [mul_bot_pos h] using quot_mem_closure hpc YB (mulOk_bot hp)))
        (lub_top (by simpa [mul_top_pos h] using quot_mem_closure hpc YT (mulOk_top hp)))

/-- Scalar dividends behave as singletons. -/
theorem divPositiveT_eq (ht : val t = some (r : EReal)) (yu : T) :
    divPositiveT (purePolicies B C) t yu =
      if isZero t then pure zeroI else divPositiveI (purePolicies B C) ⟨t, t⟩ yu := by
  unfold divPositiveT divPositiveI
  rw [pure_scope, pure_scope]
  by_cases h : isZero t = true
  · simp [h]
  · by_cases h' : isNeg t = true <;> simp [h, h']

theorem divNegativeT_eq (ht : val t = some (r : EReal)) (yl : T) :
    divNegativeT (purePolicies B C) t yl =
      if isZero t then pure zeroI else divNegativeI (purePolicies B C) ⟨t, t⟩ yl := by
  unfold divNegativeT divNegativeI
  rw [pure_scope, pure_scope]
  by_cases h : isZero t = true
  · simp [h]
  · by_cases h' : isNeg t = true <;> simp [h, h']

theorem divZeroT_eq :
    divZeroT (purePolicies B C) t = if isZero t then pure zeroI else divZeroI (purePolicies B C) ⟨t, t⟩ := by
  unfold divZeroT divZeroI
  by_cases h : isZero t = true <;> simp [h]

theorem not_gap (r : ℝ) : ¬ DivGap (r : EReal) (r : EReal) := fun h => h.1.ne h.2

theorem scalar_zero_post {m : Res (Itv T)} {Y : Set ℝ} (hA : OpLaws tot D U B) (ht : val t = some (r : EReal))
    (hY : ∃ s ∈ Y, s ≠ 0) (h : Post tot m (Bnd D U (quot {r} Y))) :
    Post tot (if isZero t then pure zeroI else m) (Bnd D U (quot {r} Y)) := by
  rw [isZero_eq ht]
  by_cases h0 : (r : EReal) = 0
  · simp only [h0, decide_true, if_true]
    have h3 : r = 0 := by exact_mod_cast h0
    rw [h3, quot_zero hY]
    exact Post.pure (bnd_zero hA)
  · simpa only [h0, decide_false, if_false, Bool.false_eq_true] using h

/-- `y` has a point other than zero. -/
theorem zeroIn_eq (hC : ChkLaws C) (hy : Has y c d) : zeroIn C y = .ok (decide (c ≤ 0 ∧ 0 ≤ d)) := by
  unfold zeroIn
  rw [res_if_false' (hy.test hC), isPos_eq hy.lo, isNeg_eq hy.up]
  change Except.ok _ = _
  congr 1
  rw [Bool.eq_iff_iff]
  simp

theorem res_if {α : Type} {m : Res Bool} {b : Bool} (h : m = .ok b) (p q : Res α) :
    (do if ← (lift m : Res Bool) then p else q) = if b then p else q := by rw [h]; rfl

theorem noZero_of (hy : Has y c d) (h : ¬ (c ≤ 0 ∧ 0 ≤ d)) : NoZero c d := by
  by_cases h1 : c ≤ 0
  · exact .inr (not_le.1 fun h2 => h ⟨h1, h2⟩)
  · exact .inl (not_le.1 h1)

/-- Division: the bounds are approximations of the exact bounds, except in the gap, where the answer is the whole
line. -/
theorem divII_post (hA : OpLaws tot D U B) (hV : DivLaws tot D U B) (hI : InfLaws C) (hC : ChkLaws C)
    (hx : Has x a b) (hy : Has y c d) (hne : ¬ (c = 0 ∧ d = 0)) (hg : ¬ (DivGap a b ∧ (c = 0 ∨ d = 0))) :
    Post tot (divII (purePolicies B C) x y) (Bnd D U (quot (γ x) (γ y))) := by
  unfold divII
  rw [pure_chk, res_if_false (hx.test2 hC hy), res_if (zeroIn_eq hC hy), isZero_eq hy.lo, isZero_eq hy.up]
  by_cases h0 : c ≤ 0 ∧ 0 ≤ d
  · simp only [h0, and_self, decide_true, if_true]
    by_cases h1 : c = 0
    · subst h1
      have hd : d ≠ 0 := fun h => hne ⟨rfl, h⟩
      simp only [hd, decide_true, decide_false, Bool.not_true, Bool.not_false, Bool.false_eq_true, if_true, if_false]
      exact divPositiveI_post hA hV hI hx hy (lt_of_le_of_ne h0.2 (Ne.symm hd)) fun h => hg ⟨h, .inl rfl⟩
    · by_cases h2 : d = 0
      · subst h2
        simp only [h1, decide_true, decide_false, Bool.not_true, Bool.not_false, Bool.false_eq_true, if_true, if_false]
        exact divNegativeI_post hA hV hI hx hy (lt_of_le_of_ne h0.1 h1) fun h => hg ⟨h, .inr rfl⟩
      · simp only [h1, h2, decide_false, Bool.not_false, if_true]
        exact divZeroI_post hA hI hx hy (lt_of_le_of_ne h0.1 h1) (lt_of_le_of_ne h0.2 (Ne.symm h2))
  · simp only [h0, decide_false, Bool.false_eq_true, if_false]
    exact divNonZeroII_post hV hx hy (noZero_of hy h0)

theorem divII_gap (hI : InfLaws C) (hC : ChkLaws C) (hx : Has x a b) (hy : Has y c d) (hne : ¬ (c = 0 ∧ d = 0))
    (hg : DivGap a b) (hz : c = 0 ∨ d = 0) : divII (purePolicies B C) x y = wholeI C := by
  unfold divII
  have h0 : c ≤ 0 ∧ 0 ≤ d := by
    rcases hz with rfl | rfl
    · exact ⟨le_rfl, hy.le⟩
    · exact ⟨hy.le, le_rfl⟩
  rw [pure_chk, res_if_false (hx.test2 hC hy), res_if (zeroIn_eq hC hy), isZero_eq hy.lo, isZero_eq hy.up]
  simp only [h0, and_self, decide_true, if_true]
  by_cases h1 : c = 0
  · have hd : d ≠ 0 := fun h => hne ⟨h1, h⟩
    simp only [h1, hd, decide_true, decide_false, Bool.not_true, Bool.not_false, Bool.false_eq_true, if_true, if_false]
    exact divPositiveI_gap hI hx hg _
  · have h2 : d = 0 := hz.resolve_left h1
    simp only [h1, h2, decide_true, decide_false, Bool.not_true, Bool.not_false, Bool.false_eq_true, if_true, if_false]
    exact divNegativeI_gap hI hx hg _

theorem divII_encl (hA : DirLaws tot D U B) (hV : DivLaws tot D U B) (hI : InfLaws C) (hC : ChkLaws C)
    (hx : Has x a b) (hy : Has y c d) (hne : ¬ (c = 0 ∧ d = 0)) :
    Post tot (divII (purePolicies B C) x y) (fun z => quot (γ x) (γ y) ⊆ γ z) := by
  by_cases hg : DivGap a b ∧ (c = 0 ∨ d = 0)
  · rw [divII_gap hI hC hx hy hne hg.1 hg.2]
    exact whole_encl hI
  · exact (divII_post hA.op hV hI hC hx hy hne hg).mono fun z hz => hz.encl hA.D_le hA.U_ge

theorem divTI_post (hA : OpLaws tot D U B) (hV : DivLaws tot D U B) (hI : InfLaws C) (hC : ChkLaws C)
    (ht : val t = some (r : EReal)) (hy : Has y c d) (hne : ¬ (c = 0 ∧ d = 0)) :
    Post tot (divTI (purePolicies B C) t y) (Bnd D U (quot {r} (γ y))) := by
  unfold divTI
  rw [pure_chk, res_if_false (testTI_ok hC ht hy), res_if (zeroIn_eq hC hy), isZero_eq hy.lo, isZero_eq hy.up]
  have hx := has_single ht
  by_cases h0 : c ≤ 0 ∧ 0 ≤ d
  · simp only [h0, and_self, decide_true, if_true]
    by_cases h1 : c = 0
    · subst h1
      have hd : d ≠ 0 := fun h => hne ⟨rfl, h⟩
      simp only [hd, decide_true, decide_false, Bool.not_true, Bool.not_false, Bool.false_eq_true, if_true, if_false]
      rw [divPositiveT_eq ht]
      have hd0 : 0 < d := lt_of_le_of_ne h0.2 (Ne.symm hd)
      obtain ⟨u, hu, hu'⟩ := pos_points hy hd0
      refine scalar_zero_post hA ht ⟨u, hu' u hu le_rfl, hu.ne'⟩ ?_
      rw [← gamma_single ht]
      exact divPositiveI_post hA hV hI hx hy hd0 (not_gap r)
    · by_cases h2 : d = 0
      · subst h2
        simp only [h1, decide_true, decide_false, Bool.not_true, Bool.not_false, Bool.false_eq_true, if_true, if_false]
        rw [divNegativeT_eq ht]
        have hc0 : c < 0 := lt_of_le_of_ne h0.1 h1
        obtain ⟨u, hu, hu'⟩ := neg_points hy hc0
        refine scalar_zero_post hA ht ⟨u, hu' u hu le_rfl, hu.ne⟩ ?_
        rw [← gamma_single ht]
        exact divNegativeI_post hA hV hI hx hy hc0 (not_gap r)
      · simp only [h1, h2, decide_false, Bool.not_false, if_true]
        rw [divZeroT_eq]
        have hc0 := lt_of_le_of_ne h0.1 h1
        have hd0 := lt_of_le_of_ne h0.2 (Ne.symm h2)
        obtain ⟨⟨u, hu, hu'⟩, _⟩ := both_points hy hc0 hd0
        refine scalar_zero_post hA ht ⟨u, hu' u hu le_rfl, hu.ne'⟩ ?_
        rw [← gamma_single ht]
        exact divZeroI_post hA hI hx hy hc0 hd0
  · simp only [h0, decide_false, Bool.false_eq_true, if_false]
    exact divNonZeroTI_post hV ht hy (noZero_of hy h0)

theorem quot_single {X : Set ℝ} (hq : q ≠ 0) : quot X {q} = image2 (· / ·) X {q} := by
  ext z; constructor
  · rintro ⟨r, hr, s, rfl, _, rfl⟩; exact ⟨r, hr, s, rfl, rfl⟩
  · rintro ⟨r, hr, s, rfl, rfl⟩; exact ⟨r, hr, s, rfl, hq, rfl⟩

theorem divIT_post (hV : DivLaws tot D U B) (hC : ChkLaws C)
    (hx : Has x a b) (ht : val t = some (r : EReal)) (h0 : r ≠ 0) :
    Post tot (divIT (purePolicies B C) x t) (Bnd D U (quot (γ x) {r})) := by
  unfold divIT
  rw [pure_chk, testIT_ok hC ht hx]
  have h0' : (r : EReal) ≠ 0 := by exact_mod_cast h0
  change Post tot (if (false || isZero t) = true then _ else _) _
  rw [isZero_eq ht, isNeg_eq ht]
  simp only [h0', decide_false, Bool.or_false, Bool.false_eq_true, if_false]
  rw [pure_scope, pure_rnd]
  have hy := has_single ht
  have XL := hx.lower_cl
  have XU := hx.upper_cl
  have h00 : NoZero (r : EReal) r := (lt_or_gt_of_ne h0').symm
  obtain ⟨YU, YL⟩ := inv_cl h00 hy
  have ok : ∀ p : EReal, DivOk p r := fun p => divOk_right h0' (EReal.coe_ne_bot _) (EReal.coe_ne_top _)
  rw [← gamma_single ht]
  by_cases h1 : (r : EReal) < 0
  · simp only [h1, decide_true, if_true]
    have hr := EReal.inv_nonpos_of_nonpos h1.le
    refine mk2_post (hV.divDown _ _ _ _ hx.up ht (ok _)) (hV.divUp _ _ _ _ hx.lo ht (ok _))
      (glb_div_of hx hy h00 ?_ (div_cl XU YL (ok _))) (lub_div_of hx hy h00 ?_ (div_cl XL YL (ok _)))
    · intro p i hp hp' hi hi'
      have : i = (r : EReal)⁻¹ := le_antisymm hi' hi
      subst this; rw [div_eq_mul_inv]; exact mr_nonpos hp' hr
    · intro p i hp hp' hi hi'
      have : i = (r : EReal)⁻¹ := le_antisymm hi' hi
      subst this; rw [div_eq_mul_inv]; exact mr_nonpos hp hr
  · simp only [h1, decide_false, if_false, Bool.false_eq_true]
    have hr := EReal.inv_nonneg_of_nonneg (not_lt.1 h1)
    refine mk2_post (hV.divDown _ _ _ _ hx.lo ht (ok _)) (hV.divUp _ _ _ _ hx.up ht (ok _))
      (glb_div_of hx hy h00 ?_ (div_cl XL YL (ok _))) (lub_div_of hx hy h00 ?_ (div_cl XU YL (ok _)))
    · intro p i hp hp' hi hi'
      have : i = (r : EReal)⁻¹ := le_antisymm hi' hi
      subst this; rw [div_eq_mul_inv]; exact mr_nonneg hp hr
    · intro p i hp hp' hi hi'
      have : i = (r : EReal)⁻¹ := le_antisymm hi' hi
      subst this; rw [div_eq_mul_inv]; exact mr_nonneg hp' hr

theorem divTT_post (hV : DivLaws tot D U B) (hC : ChkLaws C) (ht : val t = some (r : EReal))
    (hs : val s = some (q : EReal)) (h0 : q ≠ 0) : Post tot (divTT (purePolicies B C) t s) (Bnd D U {r / q}) := by
  unfold divTT
  rw [pure_chk, testTT_ok hC ht hs]
  have h0' : (q : EReal) ≠ 0 := by exact_mod_cast h0
  change Post tot (if (false || isZero s) = true then _ else _) _
  rw [isZero_eq hs]
  simp only [h0', decide_false, Bool.or_false, Bool.false_eq_true, if_false]
  rw [pure_scope, pure_rnd]
  have ok : DivOk r q := divOk_right h0' (EReal.coe_ne_bot _) (EReal.coe_ne_top _)
  refine mk2_post (hV.divDown _ _ _ _ ht hs ok) (hV.divUp _ _ _ _ ht hs ok) ?_ ?_ <;> simp [E, EReal.coe_div]

end
end BI
