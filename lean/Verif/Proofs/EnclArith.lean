import Verif.Proofs.Laws
import Verif.Model.Transc
/-! # Bounds computed by `+`, `-`, `*` -/

set_option linter.unusedSectionVars false

namespace BI
open Set

section
variable {T : Type} [Num T] [Val T] [NumLaws T] {tot : Prop} {D U : EReal → EReal → Prop} {B : Arith Res T}
  {C : Checking T} {x y : Itv T} {a b c d : EReal}

theorem res_if_false {α : Type} {m : Res Bool} (h : m = .ok false) (p q : Res α) :
    (do if ← (lift m : Res Bool) then p else q) = q := by rw [h]; rfl

theorem res_if_false' {α : Type} {m : Res Bool} (h : m = .ok false) (p q : Res α) :
    (do if ← m then p else q) = q := by rw [h]; rfl

theorem testTI_ok (hC : ChkLaws C) {t : T} {r : EReal} (ht : val t = some r) (hy : Has y c d) :
    testTI C t y = .ok false := by
  have h1 := hC.isNan _ _ ht; have h2 := hy.test hC
  unfold testI at h2; unfold testTI
  rw [h1, h2]; rfl

theorem testIT_ok (hC : ChkLaws C) {t : T} {r : EReal} (ht : val t = some r) (hy : Has y c d) :
    testIT C y t = .ok false := by
  have h1 := hC.isNan _ _ ht; have h2 := hy.test hC
  unfold testI at h2; unfold testIT
  rw [h1, h2]; rfl

theorem testTT_ok (hC : ChkLaws C) {t s : T} {r r' : EReal} (ht : val t = some r) (hs : val s = some r') :
    testTT C t s = .ok false := by
  have h1 := hC.isNan _ _ ht; have h2 := hC.isNan _ _ hs
  unfold testTT
  rw [h1, h2]; rfl

/-- The singleton of a number. -/
theorem has_single {t : T} {r : ℝ} (ht : val t = some (r : EReal)) : Has (⟨t, t⟩ : Itv T) r r :=
  ⟨ht, ht, EReal.coe_ne_top _, EReal.coe_ne_bot _, le_rfl⟩

theorem gamma_single {t : T} {r : ℝ} (ht : val t = some (r : EReal)) : γ (⟨t, t⟩ : Itv T) = {r} := by
  rw [(has_single ht).gamma]
  ext s
  simp only [RI, mem_ofPred_eq, EReal.coe_le_coe_iff, mem_singleton_iff]
  constructor
  · rintro ⟨h, h'⟩; exact le_antisymm h' h
  · rintro rfl; exact ⟨le_rfl, le_rfl⟩

/-! ## Sum and difference -/

theorem glb_add (hx : Has x a b) (hy : Has y c d) : IsGLB (E (image2 (· + ·) (γ x) (γ y))) (a + c) := by
  refine isGLB_of ?_ (add_mem_closure hx.lower_cl hy.lower_cl ⟨.inl hx.ne_top, .inr hy.ne_top⟩)
  rintro _ ⟨r, hr, s, hs, rfl⟩
  exact_mod_cast add_le_add (hx.lb hr) (hy.lb hs)

theorem lub_add (hx : Has x a b) (hy : Has y c d) : IsLUB (E (image2 (· + ·) (γ x) (γ y))) (b + d) := by
  refine isLUB_of ?_ (add_mem_closure hx.upper_cl hy.upper_cl ⟨.inr hy.ne_bot, .inl hx.ne_bot⟩)
  rintro _ ⟨r, hr, s, hs, rfl⟩
  exact_mod_cast add_le_add (hx.ub hr) (hy.ub hs)

theorem glb_sub (hx : Has x a b) (hy : Has y c d) : IsGLB (E (image2 (· - ·) (γ x) (γ y))) (a - d) := by
  refine isGLB_of ?_ (sub_mem_closure hx.lower_cl hy.upper_cl ⟨.inl hx.ne_top, .inr hy.ne_bot⟩)
  rintro _ ⟨r, hr, s, hs, rfl⟩
  exact_mod_cast EReal.sub_le_sub (hx.lb hr) (hy.ub hs)

theorem lub_sub (hx : Has x a b) (hy : Has y c d) : IsLUB (E (image2 (· - ·) (γ x) (γ y))) (b - c) := by
  refine isLUB_of ?_ (sub_mem_closure hx.upper_cl hy.lower_cl ⟨.inr hy.ne_top, .inl hx.ne_bot⟩)
  rintro _ ⟨r, hr, s, hs, rfl⟩
  exact_mod_cast EReal.sub_le_sub (hx.ub hr) (hy.lb hs)

theorem addBody_post (hA : OpLaws tot D U B) (hx : Has x a b) (hy : Has y c d) :
    Post tot (mk2 (B.addDown x.lower y.lower) (B.addUp x.upper y.upper)) (Bnd D U (image2 (· + ·) (γ x) (γ y))) :=
  mk2_post (hA.addDown _ _ _ _ hx.lo hy.lo ⟨.inl hx.ne_top, .inr hy.ne_top⟩)
    (hA.addUp _ _ _ _ hx.up hy.up ⟨.inr hy.ne_bot, .inl hx.ne_bot⟩) (glb_add hx hy) (lub_add hx hy)

theorem subBody_post (hA : OpLaws tot D U B) (hx : Has x a b) (hy : Has y c d) :
    Post tot (mk2 (B.subDown x.lower y.upper) (B.subUp x.upper y.lower)) (Bnd D U (image2 (· - ·) (γ x) (γ y))) :=
  mk2_post (hA.subDown _ _ _ _ hx.lo hy.up ⟨.inl hx.ne_top, .inr hy.ne_bot⟩)
    (hA.subUp _ _ _ _ hx.up hy.lo ⟨.inr hy.ne_top, .inl hx.ne_bot⟩) (glb_sub hx hy) (lub_sub hx hy)

theorem addII_post (hA : OpLaws tot D U B) (hC : ChkLaws C) (hx : Has x a b) (hy : Has y c d) :
    Post tot (addII (purePolicies B C) x y) (Bnd D U (image2 (· + ·) (γ x) (γ y))) := by
  unfold addII
  rw [pure_chk, res_if_false (hx.test2 hC hy), pure_scope]
  exact addBody_post hA hx hy

theorem subII_post (hA : OpLaws tot D U B) (hC : ChkLaws C) (hx : Has x a b) (hy : Has y c d) :
    Post tot (subII (purePolicies B C) x y) (Bnd D U (image2 (· - ·) (γ x) (γ y))) := by
  unfold subII
  rw [pure_chk, res_if_false (hx.test2 hC hy), pure_scope]
  exact subBody_post hA hx hy

variable {t s : T} {r q : ℝ}

theorem addTI_post (hA : OpLaws tot D U B) (hC : ChkLaws C) (ht : val t = some (r : EReal)) (hy : Has y c d) :
    Post tot (addTI (purePolicies B C) t y) (Bnd D U (image2 (· + ·) {r} (γ y))) := by
  unfold addTI
  rw [pure_chk, res_if_false (testTI_ok hC ht hy), pure_scope, ← gamma_single ht]
  exact addBody_post hA (has_single ht) hy

theorem addIT_post (hA : OpLaws tot D U B) (hC : ChkLaws C) (ht : val t = some (r : EReal)) (hy : Has y c d) :
    Post tot (addIT (purePolicies B C) y t) (Bnd D U (image2 (· + ·) (γ y) {r})) := by
  have := addTI_post hA hC ht hy
  rw [image2_comm (fun a b => add_comm a b)] at this
  exact this

theorem subTI_post (hA : OpLaws tot D U B) (hC : ChkLaws C) (ht : val t = some (r : EReal)) (hy : Has y c d) :
    Post tot (subTI (purePolicies B C) t y) (Bnd D U (image2 (· - ·) {r} (γ y))) := by
  unfold subTI
  rw [pure_chk, res_if_false (testTI_ok hC ht hy), pure_scope, ← gamma_single ht]
  exact subBody_post hA (has_single ht) hy

theorem subIT_post (hA : OpLaws tot D U B) (hC : ChkLaws C) (ht : val t = some (r : EReal)) (hy : Has y c d) :
    Post tot (subIT (purePolicies B C) y t) (Bnd D U (image2 (· - ·) (γ y) {r})) := by
  unfold subIT
  rw [pure_chk, res_if_false (testIT_ok hC ht hy), pure_scope, ← gamma_single ht]
  exact subBody_post hA hy (has_single ht)

theorem addTT_post (hA : OpLaws tot D U B) (hC : ChkLaws C) (ht : val t = some (r : EReal))
    (hs : val s = some (q : EReal)) : Post tot (addTT (purePolicies B C) t s) (Bnd D U {r + q}) := by
  unfold addTT
  rw [pure_chk, res_if_false (testTT_ok hC ht hs), pure_scope]
  have := addBody_post hA (has_single ht) (has_single hs)
  rwa [gamma_single ht, gamma_single hs, image2_singleton] at this

theorem subTT_post (hA : OpLaws tot D U B) (hC : ChkLaws C) (ht : val t = some (r : EReal))
    (hs : val s = some (q : EReal)) : Post tot (subTT (purePolicies B C) t s) (Bnd D U {r - q}) := by
  unfold subTT
  rw [pure_chk, res_if_false (testTT_ok hC ht hs), pure_scope]
  have := subBody_post hA (has_single ht) (has_single hs)
  rwa [gamma_single ht, gamma_single hs, image2_singleton] at this

/-! ## Product -/

theorem ml {p q u v : EReal} (h : u ≤ v) (hp : 0 ≤ p) (hq : q = p) : q * u ≤ p * v := by
  subst hq; exact mul_le_mul_of_nonneg_left h hp

/-- `u * p ≤ v * p` -/
theorem mr_nonneg {p u v : EReal} (h : u ≤ v) (hp : 0 ≤ p) : u * p ≤ v * p := mul_le_mul_of_nonneg_right h hp
theorem mr_nonpos {p u v : EReal} (h : v ≤ u) (hp : p ≤ 0) : u * p ≤ v * p := EReal.mul_le_mul_of_nonpos_right h hp
theorem ml_nonneg {p u v : EReal} (h : u ≤ v) (hp : 0 ≤ p) : p * u ≤ p * v := mul_le_mul_of_nonneg_left h hp
theorem ml_nonpos {p u v : EReal} (h : v ≤ u) (hp : p ≤ 0) : p * u ≤ p * v := by
  rw [mul_comm p u, mul_comm p v]; exact EReal.mul_le_mul_of_nonpos_right h hp

theorem mulOk_nz {p q : EReal} (hp : p ≠ 0) (hq : q ≠ 0) : MulOk p q := ⟨.inl hp, .inl hq⟩
theorem mulOk_real {p q : EReal} (h1 : p ≠ ⊥) (h2 : p ≠ ⊤) (h3 : q ≠ ⊥) (h4 : q ≠ ⊤) : MulOk p q :=
  ⟨.inr ⟨h3, h4⟩, .inr ⟨h1, h2⟩⟩

theorem glb_mul_of (hx : Has x a b) (hy : Has y c d) {e : EReal}
    (hlb : ∀ r s : EReal, a ≤ r → r ≤ b → c ≤ s → s ≤ d → e ≤ r * s)
    (hc : e ∈ closure (E (image2 (· * ·) (γ x) (γ y)))) : IsGLB (E (image2 (· * ·) (γ x) (γ y))) e := by
  refine isGLB_of ?_ hc
  rintro _ ⟨r, hr, s, hs, rfl⟩
  exact_mod_cast hlb r s (hx.lb hr) (hx.ub hr) (hy.lb hs) (hy.ub hs)

theorem lub_mul_of (hx : Has x a b) (hy : Has y c d) {e : EReal}
    (hub : ∀ r s : EReal, a ≤ r → r ≤ b → c ≤ s → s ≤ d → r * s ≤ e)
    (hc : e ∈ closure (E (image2 (· * ·) (γ x) (γ y)))) : IsLUB (E (image2 (· * ·) (γ x) (γ y))) e := by
  refine isLUB_of ?_ hc
  rintro _ ⟨r, hr, s, hs, rfl⟩
  exact_mod_cast hub r s (hx.lb hr) (hx.ub hr) (hy.lb hs) (hy.ub hs)

theorem bnd_zero (hA : OpLaws tot D U B) : Bnd D U {0} (zeroI : Itv T) := by
  refine ⟨0, 0, 0, 0, val_zero, val_zero, ?_, ?_, hA.D_exact _ _ (val_zero (T := T)), hA.U_exact _ _ (val_zero (T := T))⟩
  · simp [E]
  · simp [E]

theorem image2_mul_zero {X Y : Set ℝ} (hX : X = {0}) (hY : Y.Nonempty) : image2 (· * ·) X Y = {0} := by
  subst hX; ext r; simp [eq_comm]
  intro _; exact hY

theorem gamma_zero (hx : Has x a b) (ha : 0 ≤ a) (hb : b ≤ 0) : γ x = {0} := by
  rw [hx.gamma]
  have h1 : a = 0 := le_antisymm (hx.le.trans hb) ha
  have h2 : b = 0 := le_antisymm hb (ha.trans hx.le)
  subst h1; subst h2
  ext s
  simp only [RI, mem_ofPred_eq, mem_singleton_iff]
  constructor
  · rintro ⟨h, h'⟩; exact le_antisymm (by exact_mod_cast h') (by exact_mod_cast h)
  · rintro rfl; simp

theorem Has.nonempty (hx : Has x a b) : (γ x).Nonempty := by
  obtain ⟨r, hr⟩ := hx.exists_mem; rw [hx.gamma]; exact ⟨r, hr⟩

theorem mulBody_post (hA : OpLaws tot D U B) (hx : Has x a b) (hy : Has y c d) :
    Post tot (mulBody B x.lower x.upper y.lower y.upper) (Bnd D U (image2 (· * ·) (γ x) (γ y))) := by
  unfold mulBody
  simp only [isNeg_eq hx.lo, isPos_eq hx.up, isNeg_eq hy.lo, isPos_eq hy.up, decide_eq_true_eq]
  have XL := hx.lower_cl
  have XU := hx.upper_cl
  have YL := hy.lower_cl
  have YU := hy.upper_cl
  by_cases h1 : a < 0 <;> by_cases h2 : 0 < b <;> by_cases h3 : c < 0 <;> by_cases h4 : 0 < d <;>
    simp only [h1, h2, h3, h4, if_true, if_false]
  · -- M * M
    have ok1 := mulOk_nz h1.ne h4.ne'
    have ok2 := mulOk_nz h2.ne' h3.ne
    have ok3 := mulOk_nz h1.ne h3.ne
    have ok4 := mulOk_nz h2.ne' h4.ne'
    have hg : IsGLB (E (image2 (· * ·) (γ x) (γ y))) (min (a * d) (b * c)) := by
      refine glb_mul_of hx hy ?_ (min_mem (mul_mem_closure XL YU ok1) (mul_mem_closure XU YL ok2))
      intro r s hr hr' hs hs'
      rcases le_total r 0 with h | h
      · exact (min_le_left _ _).trans ((mr_nonneg hr h4.le).trans (ml_nonpos hs' h))
      · exact (min_le_right _ _).trans ((mr_nonpos hr' h3.le).trans (ml_nonneg hs h))
    have hl : IsLUB (E (image2 (· * ·) (γ x) (γ y))) (max (a * c) (b * d)) := by
      refine lub_mul_of hx hy ?_ (max_mem (mul_mem_closure XL YL ok3) (mul_mem_closure XU YU ok4))
      intro r s hr hr' hs hs'
      rcases le_total r 0 with h | h
      · exact ((ml_nonpos hs h).trans (mr_nonpos hr h3.le)).trans (le_max_left _ _)
      · exact ((ml_nonneg hs' h).trans (mr_nonneg hr' h4.le)).trans (le_max_right _ _)
    refine (hA.mulDown _ _ _ _ hx.lo hy.up ok1).quad (hA.mulDown _ _ _ _ hx.up hy.lo ok2)
      (hA.mulUp _ _ _ _ hx.lo hy.lo ok3) (hA.mulUp _ _ _ _ hx.up hy.up ok4) |>.bind fun q hq => ?_
    obtain ⟨⟨⟨z, hz, hz'⟩, ⟨w, hw, hw'⟩⟩, ⟨z2, hz2, hz2'⟩, ⟨w2, hw2, hw2'⟩⟩ := hq
    refine mk2_post (Post.pure ⟨_, val_stdMin hz hw, hA.D_min hz' hw'⟩) (Post.pure ⟨_, val_stdMax hz2 hw2, hA.U_max hz2' hw2'⟩)
      hg hl
  · -- M * N
    have h4' := not_lt.1 h4
    refine mk2_post (hA.mulDown _ _ _ _ hx.up hy.lo (mulOk_nz h2.ne' h3.ne))
      (hA.mulUp _ _ _ _ hx.lo hy.lo (mulOk_nz h1.ne h3.ne))
      (glb_mul_of hx hy ?_ (mul_mem_closure XU YL (mulOk_nz h2.ne' h3.ne)))
      (lub_mul_of hx hy ?_ (mul_mem_closure XL YL (mulOk_nz h1.ne h3.ne)))
    · intro r s hr hr' hs hs'
      exact (ml_nonneg hs h2.le).trans (mr_nonpos hr' (hs'.trans h4'))
    · intro r s hr hr' hs hs'
      exact (mr_nonpos hr (hs'.trans h4')).trans (ml_nonpos hs h1.le)
  · -- M * P
    have h3' := not_lt.1 h3
    refine mk2_post (hA.mulDown _ _ _ _ hx.lo hy.up (mulOk_nz h1.ne h4.ne'))
      (hA.mulUp _ _ _ _ hx.up hy.up (mulOk_nz h2.ne' h4.ne'))
      (glb_mul_of hx hy ?_ (mul_mem_closure XL YU (mulOk_nz h1.ne h4.ne')))
      (lub_mul_of hx hy ?_ (mul_mem_closure XU YU (mulOk_nz h2.ne' h4.ne')))
    · intro r s hr hr' hs hs'
      exact (ml_nonpos hs' h1.le).trans (mr_nonneg hr (h3'.trans hs))
    · intro r s hr hr' hs hs'
      exact (mr_nonneg hr' (h3'.trans hs)).trans (ml_nonneg hs' h2.le)
  · -- M * Z
    have := gamma_zero hy (not_lt.1 h3) (not_lt.1 h4)
    rw [this, image2_swap]
    simp only [mul_comm]
    rw [image2_mul_zero rfl hx.nonempty]
    exact Post.pure (bnd_zero hA)
  · -- N * M
    have h2' := not_lt.1 h2
    refine mk2_post (hA.mulDown _ _ _ _ hx.lo hy.up (mulOk_nz h1.ne h4.ne'))
      (hA.mulUp _ _ _ _ hx.lo hy.lo (mulOk_nz h1.ne h3.ne))
      (glb_mul_of hx hy ?_ (mul_mem_closure XL YU (mulOk_nz h1.ne h4.ne')))
      (lub_mul_of hx hy ?_ (mul_mem_closure XL YL (mulOk_nz h1.ne h3.ne)))
    · intro r s hr hr' hs hs'
      exact (mr_nonneg hr h4.le).trans (ml_nonpos hs' (hr'.trans h2'))
    · intro r s hr hr' hs hs'
      exact (ml_nonpos hs (hr'.trans h2')).trans (mr_nonpos hr h3.le)
  · -- N * N
    have h2' := not_lt.1 h2
    have h4' := not_lt.1 h4
    have okb := mulOk_real hx.ne_bot (ne_top_of_le_ne_top EReal.zero_ne_top h2') hy.ne_bot
      (ne_top_of_le_ne_top EReal.zero_ne_top h4')
    refine mk2_post (hA.mulDown _ _ _ _ hx.up hy.up okb)
      (hA.mulUp _ _ _ _ hx.lo hy.lo (mulOk_nz h1.ne h3.ne))
      (glb_mul_of hx hy ?_ (mul_mem_closure XU YU okb))
      (lub_mul_of hx hy ?_ (mul_mem_closure XL YL (mulOk_nz h1.ne h3.ne)))
    · intro r s hr hr' hs hs'
      exact (ml_nonpos hs' h2').trans (mr_nonpos hr' (hs'.trans h4'))
    · intro r s hr hr' hs hs'
      exact (mr_nonpos hr (hs'.trans h4')).trans (ml_nonpos hs h1.le)
  · -- N * P
    have h2' := not_lt.1 h2
    have h3' := not_lt.1 h3
    have okb := mulOk_real hx.ne_bot (ne_top_of_le_ne_top EReal.zero_ne_top h2')
      (ne_bot_of_le_ne_bot EReal.zero_ne_bot h3') hy.ne_top
    refine mk2_post (hA.mulDown _ _ _ _ hx.lo hy.up (mulOk_nz h1.ne h4.ne'))
      (hA.mulUp _ _ _ _ hx.up hy.lo okb)
      (glb_mul_of hx hy ?_ (mul_mem_closure XL YU (mulOk_nz h1.ne h4.ne')))
      (lub_mul_of hx hy ?_ (mul_mem_closure XU YL okb))
    · intro r s hr hr' hs hs'
      exact (ml_nonpos hs' h1.le).trans (mr_nonneg hr (h3'.trans hs))
    · intro r s hr hr' hs hs'
      exact (mr_nonneg hr' (h3'.trans hs)).trans (ml_nonpos hs h2')
  · -- N * Z
    have := gamma_zero hy (not_lt.1 h3) (not_lt.1 h4)
    rw [this, image2_swap]
    simp only [mul_comm]
    rw [image2_mul_zero rfl hx.nonempty]
    exact Post.pure (bnd_zero hA)
  · -- P * M
    have h1' := not_lt.1 h1
    refine mk2_post (hA.mulDown _ _ _ _ hx.up hy.lo (mulOk_nz h2.ne' h3.ne))
      (hA.mulUp _ _ _ _ hx.up hy.up (mulOk_nz h2.ne' h4.ne'))
      (glb_mul_of hx hy ?_ (mul_mem_closure XU YL (mulOk_nz h2.ne' h3.ne)))
      (lub_mul_of hx hy ?_ (mul_mem_closure XU YU (mulOk_nz h2.ne' h4.ne')))
    · intro r s hr hr' hs hs'
      exact (mr_nonpos hr' h3.le).trans (ml_nonneg hs (h1'.trans hr))
    · intro r s hr hr' hs hs'
      exact (ml_nonneg hs' (h1'.trans hr)).trans (mr_nonneg hr' h4.le)
  · -- P * N
    have h1' := not_lt.1 h1
    have h4' := not_lt.1 h4
    have okb := mulOk_real (ne_bot_of_le_ne_bot EReal.zero_ne_bot h1') hx.ne_top hy.ne_bot
      (ne_top_of_le_ne_top EReal.zero_ne_top h4')
    refine mk2_post (hA.mulDown _ _ _ _ hx.up hy.lo (mulOk_nz h2.ne' h3.ne))
      (hA.mulUp _ _ _ _ hx.lo hy.up okb)
      (glb_mul_of hx hy ?_ (mul_mem_closure XU YL (mulOk_nz h2.ne' h3.ne)))
      (lub_mul_of hx hy ?_ (mul_mem_closure XL YU okb))
    · intro r s hr hr' hs hs'
      exact (mr_nonpos hr' h3.le).trans (ml_nonneg hs (h1'.trans hr))
    · intro r s hr hr' hs hs'
      exact (ml_nonneg hs' (h1'.trans hr)).trans (mr_nonpos hr h4')
  · -- P * P
    have h1' := not_lt.1 h1
    have h3' := not_lt.1 h3
    have okb := mulOk_real (ne_bot_of_le_ne_bot EReal.zero_ne_bot h1') hx.ne_top
      (ne_bot_of_le_ne_bot EReal.zero_ne_bot h3') hy.ne_top
    refine mk2_post (hA.mulDown _ _ _ _ hx.lo hy.lo okb)
      (hA.mulUp _ _ _ _ hx.up hy.up (mulOk_nz h2.ne' h4.ne'))
      (glb_mul_of hx hy ?_ (mul_mem_closure XL YL okb))
      (lub_mul_of hx hy ?_ (mul_mem_closure XU YU (mulOk_nz h2.ne' h4.ne')))
    · intro r s hr hr' hs hs'
      exact (ml_nonneg hs h1').trans (mr_nonneg hr (h3'.trans hs))
    · intro r s hr hr' hs hs'
      exact (mr_nonneg hr' (h3'.trans hs)).trans (ml_nonneg hs' h2.le)
  · -- P * Z
    have := gamma_zero hy (not_lt.1 h3) (not_lt.1 h4)
    rw [this, image2_swap]
    simp only [mul_comm]
    rw [image2_mul_zero rfl hx.nonempty]
    exact Post.pure (bnd_zero hA)
  all_goals
    have := gamma_zero hx (not_lt.1 h1) (not_lt.1 h2)
    rw [this, image2_mul_zero rfl hy.nonempty]
    exact Post.pure (bnd_zero hA)

theorem mulII_post (hA : OpLaws tot D U B) (hC : ChkLaws C) (hx : Has x a b) (hy : Has y c d) :
    Post tot (mulII (purePolicies B C) x y) (Bnd D U (image2 (· * ·) (γ x) (γ y))) := by
  unfold mulII
  rw [pure_chk, res_if_false (hx.test2 hC hy), pure_scope]
  exact mulBody_post hA hx hy

theorem mulTI_post (hA : OpLaws tot D U B) (hC : ChkLaws C) (ht : val t = some (r : EReal)) (hy : Has y c d) :
    Post tot (mulTI (purePolicies B C) t y) (Bnd D U (image2 (· * ·) {r} (γ y))) := by
  unfold mulTI
  rw [pure_chk, res_if_false (testTI_ok hC ht hy), pure_scope, isNeg_eq ht, isZero_eq ht]
  have YL := hy.lower_cl
  have YU := hy.upper_cl
  have hx := has_single ht
  have XL := hx.lower_cl
  rw [← gamma_single ht]
  simp only [decide_eq_true_eq]
  by_cases h1 : (r : EReal) < 0
  · simp only [h1, if_true]
    have ok : ∀ e : EReal, MulOk r e := fun e => ⟨.inl h1.ne, .inr ⟨EReal.coe_ne_bot _, EReal.coe_ne_top _⟩⟩
    refine mk2_post (hA.mulDown _ _ _ _ ht hy.up (ok _)) (hA.mulUp _ _ _ _ ht hy.lo (ok _))
      (glb_mul_of hx hy ?_ (mul_mem_closure XL YU (ok _))) (lub_mul_of hx hy ?_ (mul_mem_closure XL YL (ok _)))
    · intro p s hr hr' hs hs'
      have : p = r := le_antisymm hr' hr
      subst this; exact ml_nonpos hs' h1.le
    · intro p s hr hr' hs hs'
      have : p = r := le_antisymm hr' hr
      subst this; exact ml_nonpos hs h1.le
  · simp only [h1, if_false]
    by_cases h2 : (r : EReal) = 0
    · simp only [h2, if_true]
      rw [gamma_single ht]
      have h3 : r = 0 := by exact_mod_cast h2
      rw [h3, image2_mul_zero rfl hy.nonempty]
      exact Post.pure (bnd_zero hA)
    · simp only [h2, if_false]
      have ok : ∀ e : EReal, MulOk r e := fun e => ⟨.inl h2, .inr ⟨EReal.coe_ne_bot _, EReal.coe_ne_top _⟩⟩
      refine mk2_post (hA.mulDown _ _ _ _ ht hy.lo (ok _)) (hA.mulUp _ _ _ _ ht hy.up (ok _))
        (glb_mul_of hx hy ?_ (mul_mem_closure XL YL (ok _))) (lub_mul_of hx hy ?_ (mul_mem_closure XL YU (ok _)))
      · intro p s hr hr' hs hs'
        have : p = r := le_antisymm hr' hr
        subst this; exact ml_nonneg hs (not_lt.1 h1)
      · intro p s hr hr' hs hs'
        have : p = r := le_antisymm hr' hr
        subst this; exact ml_nonneg hs' (not_lt.1 h1)

theorem mulIT_post (hA : OpLaws tot D U B) (hC : ChkLaws C) (ht : val t = some (r : EReal)) (hy : Has y c d) :
    Post tot (mulIT (purePolicies B C) y t) (Bnd D U (image2 (· * ·) (γ y) {r})) := by
  have := mulTI_post hA hC ht hy
  rw [image2_comm (fun a b => mul_comm a b)] at this
  exact this

theorem mulTT_post (hA : OpLaws tot D U B) (hC : ChkLaws C) (ht : val t = some (r : EReal))
    (hs : val s = some (q : EReal)) : Post tot (mulTT (purePolicies B C) t s) (Bnd D U {r * q}) := by
  unfold mulTT
  rw [pure_chk, res_if_false (testTT_ok hC ht hs), pure_scope]
  have ok : MulOk r q := mulOk_real (EReal.coe_ne_bot _) (EReal.coe_ne_top _) (EReal.coe_ne_bot _) (EReal.coe_ne_top _)
  refine mk2_post (hA.mulDown _ _ _ _ ht hs ok) (hA.mulUp _ _ _ _ ht hs ok) ?_ ?_ <;> simp [E]

end
end BI
