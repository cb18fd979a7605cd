import Verif.Proofs.EnclDiv
import Verif.Proofs.EnclPow
import Verif.Proofs.SimFns
import Verif.Spec.Elem
/-! # Enclosures for the elementary functions -/

set_option linter.unusedSectionVars false

namespace BI
open Set

/-! ## Images under monotone functions -/

section
variable {f : ℝ → ℝ} {S D : Set ℝ} {e : EReal}

theorem glb_att {r : ℝ} (hr : r ∈ S) (h : ∀ s ∈ S, f r ≤ f s) : IsGLB (E (f '' S)) (f r) :=
  isGLB_of (by rintro _ ⟨s, hs, rfl⟩; exact_mod_cast h s hs) (subset_closure ⟨_, ⟨r, hr, rfl⟩, rfl⟩)

theorem lub_att {r : ℝ} (hr : r ∈ S) (h : ∀ s ∈ S, f s ≤ f r) : IsLUB (E (f '' S)) (f r) :=
  isLUB_of (by rintro _ ⟨s, hs, rfl⟩; exact_mod_cast h s hs) (subset_closure ⟨_, ⟨r, hr, rfl⟩, rfl⟩)

/-- The image comes arbitrarily close to `e` from above. -/
theorem glb_lim (hb : ∀ r ∈ S, e ≤ f r) (hne : S.Nonempty)
    (hs : ∀ r ∈ S, ∀ y : ℝ, e < y → y < f r → ∃ s ∈ S, f s = y) : IsGLB (E (f '' S)) e := by
  refine ⟨by rintro _ ⟨_, ⟨r, hr, rfl⟩, rfl⟩; exact hb r hr, fun c hc => ?_⟩
  by_contra h
  obtain ⟨r, hr⟩ := hne
  have h1 : c ≤ f r := hc ⟨_, ⟨r, hr, rfl⟩, rfl⟩
  obtain ⟨y, h2, h3⟩ := EReal.lt_iff_exists_real_btwn.1 (not_le.1 h)
  obtain ⟨s, hs, rfl⟩ := hs r hr y h2 (by exact_mod_cast h3.trans_le h1)
  exact absurd (hc ⟨_, ⟨s, hs, rfl⟩, rfl⟩) (not_le.2 h3)

theorem lub_lim (hb : ∀ r ∈ S, f r ≤ e) (hne : S.Nonempty)
    (hs : ∀ r ∈ S, ∀ y : ℝ, f r < y → y < e → ∃ s ∈ S, f s = y) : IsLUB (E (f '' S)) e := by
  refine ⟨by rintro _ ⟨_, ⟨r, hr, rfl⟩, rfl⟩; exact hb r hr, fun c hc => ?_⟩
  by_contra h
  obtain ⟨r, hr⟩ := hne
  have h1 : f r ≤ c := hc ⟨_, ⟨r, hr, rfl⟩, rfl⟩
  obtain ⟨y, h2, h3⟩ := EReal.lt_iff_exists_real_btwn.1 (not_le.1 h)
  obtain ⟨s, hs, rfl⟩ := hs r hr y (by exact_mod_cast h1.trans_lt h2) h3
  exact absurd (hc ⟨_, ⟨s, hs, rfl⟩, rfl⟩) (not_le.2 h2)

/-- A strictly increasing function from the open interval `(A, B)` onto the open interval `(A', B')`. -/
structure IncBij (f : ℝ → ℝ) (A B A' B' : EReal) : Prop where
  mono : ∀ r s : ℝ, A < r → (s : EReal) < B → r < s → f r < f s
  maps : ∀ r : ℝ, A < r → (r : EReal) < B → A' < f r ∧ (f r : EReal) < B'
  surj : ∀ y : ℝ, A' < y → (y : EReal) < B' → ∃ r : ℝ, A < r ∧ (r : EReal) < B ∧ f r = y

variable {A B A' B' a b : EReal}

theorem IncBij.le (h : IncBij f A B A' B') {r s : ℝ} (hr : A < r) (hs : (s : EReal) < B) (hrs : r ≤ s) : f r ≤ f s := by
  rcases hrs.eq_or_lt with rfl | h'
  · exact le_rfl
  · exact (h.mono r s hr hs h').le

/-- The part of `[a, b]` in `(A, B)`. -/
def Part (a b A B : EReal) : Set ℝ := {r | (a ≤ r ∧ (r : EReal) ≤ b) ∧ A < r ∧ (r : EReal) < B}

theorem IncBij.glb (h : IncBij f A B A' B') (hne : (Part a b A B).Nonempty) (ha : a ≤ A) :
    IsGLB (E (f '' Part a b A B)) A' := by
  refine glb_lim (fun r hr => (h.maps r hr.2.1 hr.2.2).1.le) hne fun r hr y h1 h2 => ?_
  obtain ⟨s, h3, h4, rfl⟩ := h.surj y h1 ((EReal.coe_lt_coe_iff.2 h2).trans (h.maps r hr.2.1 hr.2.2).2)
  have : s ≤ r := by
    by_contra hc
    exact absurd (h.mono r s hr.2.1 h4 (not_le.1 hc)) (not_lt.2 h2.le)
  exact ⟨s, ⟨⟨ha.trans h3.le, (EReal.coe_le_coe_iff.2 this).trans hr.1.2⟩, h3, h4⟩, rfl⟩

theorem IncBij.lub (h : IncBij f A B A' B') (hne : (Part a b A B).Nonempty) (hb : B ≤ b) :
    IsLUB (E (f '' Part a b A B)) B' := by
  refine lub_lim (fun r hr => (h.maps r hr.2.1 hr.2.2).2.le) hne fun r hr y h1 h2 => ?_
  obtain ⟨s, h3, h4, rfl⟩ := h.surj y ((h.maps r hr.2.1 hr.2.2).1.trans (EReal.coe_lt_coe_iff.2 h1)) h2
  have : r ≤ s := by
    by_contra hc
    exact absurd (h.mono s r h3 hr.2.2 (not_le.1 hc)) (not_lt.2 h1.le)
  exact ⟨s, ⟨⟨hr.1.1.trans (EReal.coe_le_coe_iff.2 this), h4.le.trans hb⟩, h3, h4⟩, rfl⟩

theorem IncBij.glb_fin (h : IncBij f A B A' B') (hne : (Part a b A B).Nonempty) {r : ℝ} (ha : a = r) (hr : A < r) :
    IsGLB (E (f '' Part a b A B)) (f r) := by
  obtain ⟨s, hs⟩ := hne
  have hrs : (r : EReal) ≤ s := ha ▸ hs.1.1
  refine glb_att ⟨⟨ha.le, hrs.trans hs.1.2⟩, hr, hrs.trans_lt hs.2.2⟩ fun s hs => ?_
  exact h.le hr hs.2.2 (by have := hs.1.1; rw [ha] at this; exact_mod_cast this)

theorem IncBij.lub_fin (h : IncBij f A B A' B') (hne : (Part a b A B).Nonempty) {r : ℝ} (hb : b = r) (hr : (r : EReal) < B) :
    IsLUB (E (f '' Part a b A B)) (f r) := by
  obtain ⟨s, hs⟩ := hne
  have hrs : (s : EReal) ≤ r := hb ▸ hs.1.2
  refine lub_att ⟨⟨hs.1.1.trans hrs, hb.ge⟩, hs.2.1.trans_le hrs, hr⟩ fun s hs => ?_
  exact h.le hs.2.1 hr (by have := hs.1.2; rw [hb] at this; exact_mod_cast this)
end

/-! ## The functions -/

theorem bij_exp : IncBij Real.exp ⊥ ⊤ 0 ⊤ where
  mono _ _ _ _ h := Real.exp_strictMono h
  maps r _ _ := ⟨by exact_mod_cast Real.exp_pos r, EReal.coe_lt_top _⟩
  surj y h _ := ⟨Real.log y, EReal.bot_lt_coe _, EReal.coe_lt_top _, Real.exp_log (by exact_mod_cast h)⟩

theorem bij_log : IncBij Real.log 0 ⊤ ⊥ ⊤ where
  mono r s h _ hrs := Real.log_lt_log (by exact_mod_cast h) hrs
  maps r _ _ := ⟨EReal.bot_lt_coe _, EReal.coe_lt_top _⟩
  surj y _ _ := ⟨Real.exp y, by exact_mod_cast Real.exp_pos y, EReal.coe_lt_top _, Real.log_exp y⟩

theorem bij_atan : IncBij Real.arctan ⊥ ⊤ ((-(Real.pi / 2) : ℝ) : EReal) ((Real.pi / 2 : ℝ) : EReal) where
  mono _ _ _ _ h := Real.arctan_strictMono h
  maps r _ _ := ⟨EReal.coe_lt_coe_iff.2 (Real.neg_pi_div_two_lt_arctan r), EReal.coe_lt_coe_iff.2 (Real.arctan_lt_pi_div_two r)⟩
  surj y h1 h2 := ⟨Real.tan y, EReal.bot_lt_coe _, EReal.coe_lt_top _,
    Real.arctan_tan (EReal.coe_lt_coe_iff.1 h1) (EReal.coe_lt_coe_iff.1 h2)⟩

theorem bij_sinh : IncBij Real.sinh ⊥ ⊤ ⊥ ⊤ where
  mono _ _ _ _ h := Real.sinh_strictMono h
  maps r _ _ := ⟨EReal.bot_lt_coe _, EReal.coe_lt_top _⟩
  surj y _ _ := ⟨Real.arsinh y, EReal.bot_lt_coe _, EReal.coe_lt_top _, Real.sinh_arsinh y⟩

theorem bij_asinh : IncBij Real.arsinh ⊥ ⊤ ⊥ ⊤ where
  mono _ _ _ _ h := Real.arsinh_strictMono h
  maps r _ _ := ⟨EReal.bot_lt_coe _, EReal.coe_lt_top _⟩
  surj y _ _ := ⟨Real.sinh y, EReal.bot_lt_coe _, EReal.coe_lt_top _, Real.arsinh_sinh y⟩

theorem m1_coe : ((-1 : ℝ) : EReal) = -1 := by simp
theorem m1_lt {r : ℝ} : (-1 : EReal) < r ↔ -1 < r := by rw [← m1_coe, EReal.coe_lt_coe_iff]
theorem m1_le {r : ℝ} : (-1 : EReal) ≤ r ↔ -1 ≤ r := by rw [← m1_coe, EReal.coe_le_coe_iff]
theorem le_m1 {r : ℝ} : (r : EReal) ≤ -1 ↔ r ≤ -1 := by rw [← m1_coe, EReal.coe_le_coe_iff]

theorem tanh_mem (r : ℝ) : Real.tanh r ∈ Ioo (-1 : ℝ) 1 := Real.tanh_bijOn.mapsTo (mem_univ r)

theorem bij_tanh : IncBij Real.tanh ⊥ ⊤ (-1) 1 where
  mono r s _ _ h := by
    by_contra hc
    have := Real.strictMonoOn_artanh.monotoneOn (tanh_mem s) (tanh_mem r) (not_lt.1 hc)
    rw [Real.artanh_tanh, Real.artanh_tanh] at this
    exact absurd h (not_lt.2 this)
  maps r _ _ := ⟨m1_lt.2 (tanh_mem r).1, by exact_mod_cast (tanh_mem r).2⟩
  surj y h1 h2 := ⟨Real.artanh y, EReal.bot_lt_coe _, EReal.coe_lt_top _,
    Real.tanh_artanh ⟨m1_lt.1 h1, by exact_mod_cast h2⟩⟩

theorem bij_atanh : IncBij Real.artanh (-1) 1 ⊥ ⊤ where
  mono r s h1 h2 h := Real.artanh_lt_artanh (m1_lt.1 h1) (by exact_mod_cast h2) h
  maps r _ _ := ⟨EReal.bot_lt_coe _, EReal.coe_lt_top _⟩
  surj y _ _ := ⟨Real.tanh y, m1_lt.2 (tanh_mem y).1, by exact_mod_cast (tanh_mem y).2, Real.artanh_tanh y⟩

/-! ## The rounding policies -/

section
variable {T : Type} [Num T] [Val T] [NumLaws T] {V : Env T} {D U : EReal → EReal → Prop} {x : Itv T} {a b e : EReal} {t : T}
  {f : Fn}

theorem negForm_of_switches (h : f.oppSwitches = true) : f.negForm = false := by
  cases f <;> first | rfl | cases h

theorem Env.FnOk.down (hDU : DU T D U) (h : V.FnOk D U f) (ht : val t = some a) (he : f.Ext a e) :
    Post True (V.B.fnDown f t) fun c => ∃ z, val c = some z ∧ D z e := by
  unfold Env.B
  rcases h with ⟨hk, h⟩ | ⟨hk, h⟩
  · rcases hk with hk | ⟨hk, hf⟩
    · rw [hk]; exact approx_down (h t a e ht he)
    · rw [hk]
      change Post True (if f.negForm then _ else _) _
      rw [negForm_of_switches hf]
      exact approx_down (h t a e ht he)
  · rw [hk]
    obtain ⟨c, h1, h2⟩ := h t a e ht he
    change Post True (ofOpt (V.lib f .near t)) _
    rw [h1]; exact ⟨e, h2, hDU.D_exact _ _ h2⟩

theorem Env.FnOk.up (hDU : DU T D U) (h : V.FnOk D U f) (ht : val t = some a) (he : f.Ext a e) :
    Post True (V.B.fnUp f t) fun c => ∃ z, val c = some z ∧ U z e := by
  unfold Env.B
  rcases h with ⟨hk, h⟩ | ⟨hk, h⟩
  · rcases hk with hk | ⟨hk, hf⟩
    · rw [hk]; exact approx_up (h t a e ht he)
    · rw [hk]; exact approx_up (h t a e ht he)
  · rw [hk]
    obtain ⟨c, h1, h2⟩ := h t a e ht he
    change Post True (ofOpt (V.lib f .near t)) _
    rw [h1]; exact ⟨e, h2, hDU.U_exact _ _ h2⟩

/-- Assembling a result from two bounds. -/
theorem mk2_bnd {S : Set ℝ} {p q : Res T} {e₁ e₂ : EReal} (hp : Post True p fun c => ∃ z, val c = some z ∧ D z e₁)
    (hq : Post True q fun c => ∃ z, val c = some z ∧ U z e₂) (h₁ : IsGLB (E S) e₁) (h₂ : IsLUB (E S) e₂) :
    Post True (mk2 p q) (Bnd D U S) := by
  refine (Post.pair hp hq).bind fun r hr => ?_
  obtain ⟨⟨z, hz, hd⟩, w, hw, hu⟩ := hr
  exact ⟨z, w, e₁, e₂, hz, hw, h₁, h₂, hd, hu⟩

theorem seq_bnd {S : Set ℝ} {p q : Res T} {e₁ e₂ : EReal} (hp : Post True p fun c => ∃ z, val c = some z ∧ D z e₁)
    (hq : Post True q fun c => ∃ z, val c = some z ∧ U z e₂) (h₁ : IsGLB (E S) e₁) (h₂ : IsLUB (E S) e₂) :
    Post True (p >>= fun l => q >>= fun u => (pure ⟨l, u⟩ : Res (Itv T))) (Bnd D U S) := by
  refine hp.bind fun l hl => hq.bind fun u hu => ?_
  obtain ⟨z, hz, hd⟩ := hl
  obtain ⟨w, hw, hu⟩ := hu
  exact ⟨z, w, e₁, e₂, hz, hw, h₁, h₂, hd, hu⟩

/-- Lower and upper bound of an increasing function on `[a, b]`, together with the value delivered by the library. -/
theorem ext_lower {A B A' B' : EReal} (hb : IncBij f.real A B A' B') (hne : (Part a b A B).Nonempty) (hdom : ∀ r : ℝ, A < r → (r : EReal) < B → r ∈ f.dom)
    (hA : a ≤ A → A = ⊥ ∧ f.atBot = some A') : ∃ e, f.Ext a e ∧ IsGLB (E (f.real '' Part a b A B)) e := by
  by_cases h : a ≤ A
  · obtain ⟨rfl, h2⟩ := hA h
    exact ⟨A', .inr (.inl ⟨le_bot_iff.1 h, h2⟩), hb.glb hne h⟩
  · rw [not_le] at h
    obtain ⟨s, hs⟩ := hne
    have h1 : a ≠ ⊤ := fun h' => by have := hs.1.1; rw [h'] at this; exact absurd (top_le_iff.1 this) (EReal.coe_ne_top _)
    have h2 : a ≠ ⊥ := fun h' => by rw [h'] at h; exact absurd h (by simp)
    lift a to ℝ using ⟨h1, h2⟩
    exact ⟨_, .inl ⟨a, hdom a h (hs.1.1.trans_lt hs.2.2), rfl, rfl⟩, hb.glb_fin ⟨s, hs⟩ rfl h⟩

theorem ext_upper {A B A' B' : EReal} (hb : IncBij f.real A B A' B') (hne : (Part a b A B).Nonempty) (hdom : ∀ r : ℝ, A < r → (r : EReal) < B → r ∈ f.dom)
    (hB : B ≤ b → B = ⊤ ∧ f.atTop = some B') : ∃ e, f.Ext b e ∧ IsLUB (E (f.real '' Part a b A B)) e := by
  by_cases h : B ≤ b
  · obtain ⟨rfl, h2⟩ := hB h
    exact ⟨B', .inr (.inr ⟨top_le_iff.1 h, h2⟩), hb.lub hne h⟩
  · rw [not_le] at h
    obtain ⟨s, hs⟩ := hne
    have h1 : b ≠ ⊥ := fun h' => by have := hs.1.2; rw [h'] at this; exact absurd (le_bot_iff.1 this) (EReal.coe_ne_bot _)
    have h2 : b ≠ ⊤ := fun h' => by rw [h'] at h; exact absurd h (by simp)
    lift b to ℝ using ⟨h2, h1⟩
    exact ⟨_, .inl ⟨b, hdom b (hs.2.1.trans_le hs.1.2) h, rfl, rfl⟩, hb.lub_fin ⟨s, hs⟩ rfl h⟩

theorem part_univ (hx : Has x a b) : Part a b ⊥ ⊤ = γ x := by
  rw [hx.gamma]; ext r
  exact ⟨fun h => h.1, fun h => ⟨h, EReal.bot_lt_coe _, EReal.coe_lt_top _⟩⟩

/-- exp, atan, sinh, tanh, asinh -/
theorem increasingI_post (hDU : DU T D U) (hf : V.FnOk D U f) (hx : Has x a b) {A' B' : EReal}
    (hb : IncBij f.real ⊥ ⊤ A' B') (hd : f.dom = univ) (h1 : f.atBot = some A') (h2 : f.atTop = some B') :
    Post True (increasingI f V.pp x) (Bnd D U (f.real '' γ x)) := by
  unfold increasingI
  rw [pure_chk, res_if_false (hx.test V.chk), pure_scope, pure_rnd, ← part_univ hx]
  have hne : (Part a b ⊥ ⊤).Nonempty := part_univ hx ▸ hx.nonempty
  have hdom : ∀ r : ℝ, (⊥ : EReal) < r → (r : EReal) < ⊤ → r ∈ f.dom := fun r _ _ => hd ▸ mem_univ r
  obtain ⟨e₁, k1, k2⟩ := ext_lower hb hne hdom (fun _ => ⟨rfl, h1⟩)
  obtain ⟨e₂, k3, k4⟩ := ext_upper hb hne hdom (fun _ => ⟨rfl, h2⟩)
  exact mk2_bnd (hf.down hDU hx.lo k1) (hf.up hDU hx.up k3) k2 k4

theorem logI_post (hDU : DU T D U) (hi : ¬ 0 < a → InfLaws V.C) (hf : V.FnOk D U .log) (hx : Has x a b)
    (hne : (γ x ∩ Fn.log.dom).Nonempty) : Post True (logI V.pp x) (Bnd D U (Real.log '' (γ x ∩ Fn.log.dom))) := by
  have hS : γ x ∩ Fn.log.dom = Part a b 0 ⊤ := by
    rw [hx.gamma]; ext r
    exact ⟨fun h => ⟨h.1, by exact_mod_cast h.2, EReal.coe_lt_top _⟩, fun h => ⟨h.1, by exact_mod_cast h.2.1⟩⟩
  rw [hS] at hne ⊢
  have hb : 0 < b := by
    obtain ⟨r, hr⟩ := hne
    exact hr.2.1.trans_le hr.1.2
  unfold logI
  rw [pure_chk, hx.test V.chk]
  change Post True (if false || !isPos x.upper then _ else _) _
  rw [isPos_eq hx.up, if_neg (by simp [hb]), pure_scope, pure_rnd]
  obtain ⟨e₂, k3, k4⟩ := ext_upper (f := .log) bij_log hne (fun r h _ => by exact_mod_cast h) (fun _ => ⟨rfl, rfl⟩)
  obtain ⟨e₁, k1, k2⟩ : ∃ e₁, Post True (if !isPos x.lower then lift V.C.negInf else V.B.fnDown .log x.lower)
      (fun c => ∃ z, val c = some z ∧ D z e₁) ∧ IsGLB (E (Real.log '' Part a b 0 ⊤)) e₁ := by
    rw [isPos_eq hx.lo]
    by_cases ha : 0 < a
    · obtain ⟨e₁, k1, k2⟩ := ext_lower (f := .log) bij_log hne (fun r h _ => by exact_mod_cast h) (fun h => absurd ha (not_lt.2 h))
      exact ⟨e₁, by simpa [ha] using hf.down hDU hx.lo k1, k2⟩
    · obtain ⟨n, hn, hn'⟩ := (hi ha).negInf
      refine ⟨⊥, ?_, bij_log.glb hne (not_lt.1 ha)⟩
      simp only [ha, decide_false, Bool.not_false, if_true]
      exact Post.of_eq hn ⟨⊥, hn', hDU.D_exact _ _ hn'⟩
  exact seq_bnd k1 (hf.up hDU hx.up k3) k2 k4

theorem atanhI_post (hDU : DU T D U) (hi : a ≤ -1 ∨ 1 ≤ b → InfLaws V.C) (hf : V.FnOk D U .atanh) (hx : Has x a b)
    (hne : (γ x ∩ Fn.atanh.dom).Nonempty) : Post True (atanhI V.pp x) (Bnd D U (Real.artanh '' (γ x ∩ Fn.atanh.dom))) := by
  have hS : γ x ∩ Fn.atanh.dom = Part a b (-1) 1 := by
    rw [hx.gamma]; ext r
    exact ⟨fun h => ⟨h.1, m1_lt.2 h.2.1, by exact_mod_cast h.2.2⟩, fun h => ⟨h.1, m1_lt.1 h.2.1, by exact_mod_cast h.2.2⟩⟩
  rw [hS] at hne ⊢
  have hb : ¬ b < -1 := by
    obtain ⟨r, hr⟩ := hne
    exact (hr.2.1.trans_le hr.1.2).not_gt
  have ha : ¬ 1 < a := by
    obtain ⟨r, hr⟩ := hne
    exact (hr.1.1.trans_lt hr.2.2).not_gt
  have hdom : ∀ r : ℝ, (-1 : EReal) < r → (r : EReal) < 1 → r ∈ Fn.atanh.dom :=
    fun r h1 h2 => ⟨m1_lt.1 h1, by exact_mod_cast h2⟩
  unfold atanhI
  rw [pure_chk, hx.test V.chk]
  change Post True (if false || Num.lt x.upper (Num.lit (-1)) || Num.lt (Num.lit 1) x.lower then _ else _) _
  rw [lt_eq hx.up val_negOne, lt_eq val_one hx.lo, if_neg (by simp [ha, hb]), pure_scope, pure_rnd]
  obtain ⟨e₁, k1, k2⟩ : ∃ e₁, Post True (if Num.le x.lower (Num.lit (-1)) then lift V.C.negInf else V.B.fnDown .atanh x.lower)
      (fun c => ∃ z, val c = some z ∧ D z e₁) ∧ IsGLB (E (Real.artanh '' Part a b (-1) 1)) e₁ := by
    rw [le_eq hx.lo val_negOne]
    by_cases h : a ≤ -1
    · obtain ⟨n, hn, hn'⟩ := (hi (.inl h)).negInf
      refine ⟨⊥, ?_, bij_atanh.glb hne h⟩
      simp only [h, decide_true, if_true]
      exact Post.of_eq hn ⟨⊥, hn', hDU.D_exact _ _ hn'⟩
    · obtain ⟨e₁, k1, k2⟩ := ext_lower (f := .atanh) bij_atanh hne hdom (fun h' => absurd h' h)
      exact ⟨e₁, by simpa [h] using hf.down hDU hx.lo k1, k2⟩
  obtain ⟨e₂, k3, k4⟩ : ∃ e₂, Post True (if Num.le (Num.lit 1) x.upper then lift V.C.posInf else V.B.fnUp .atanh x.upper)
      (fun c => ∃ z, val c = some z ∧ U z e₂) ∧ IsLUB (E (Real.artanh '' Part a b (-1) 1)) e₂ := by
    rw [le_eq val_one hx.up]
    by_cases h : 1 ≤ b
    · obtain ⟨n, hn, hn'⟩ := (hi (.inr h)).posInf
      refine ⟨⊤, ?_, bij_atanh.lub hne h⟩
      simp only [h, decide_true, if_true]
      exact Post.of_eq hn ⟨⊤, hn', hDU.U_exact _ _ hn'⟩
    · obtain ⟨e₁, k1, k2⟩ := ext_upper (f := .atanh) bij_atanh hne hdom (fun h' => absurd h' h)
      exact ⟨e₁, by simpa [h] using hf.up hDU hx.up k1, k2⟩
  exact seq_bnd k1 k3 k2 k4

/-- A bound that lies in a bounded domain is a real number. -/
theorem real_of {l u : ℝ} (h1 : (l : EReal) ≤ a) (h2 : a ≤ (u : EReal)) : ∃ r : ℝ, a = r :=
  ⟨a.toReal, (EReal.coe_toReal (fun h => by rw [h] at h2; exact absurd (top_le_iff.1 h2) (EReal.coe_ne_top _))
    (fun h => by rw [h] at h1; exact absurd (le_bot_iff.1 h1) (EReal.coe_ne_bot _))).symm⟩

theorem post_num {t : T} {e z : EReal} {R : EReal → EReal → Prop} (h : val t = some z) (hR : R z e) :
    Post True (pure t : Res T) (fun c => ∃ z, val c = some z ∧ R z e) := ⟨z, h, hR⟩

theorem asinI_post {K : PiConst T} (hDU : DU T D U) (hn : ∀ a : T, Num.neg a ≠ none) (hK : PiOk D U K) (hf : V.FnOk D U .asin)
    (hx : Has x a b) (hne : (γ x ∩ Fn.asin.dom).Nonempty) :
    Post True (asinI K V.pp x) (Bnd D U (Real.arcsin '' (γ x ∩ Fn.asin.dom))) := by
  have hS : ∀ r, r ∈ γ x ∩ Fn.asin.dom ↔ (a ≤ r ∧ (r : EReal) ≤ b) ∧ -1 ≤ r ∧ r ≤ 1 := fun r => by
    rw [hx.gamma]; exact Iff.rfl
  obtain ⟨r₀, hr₀⟩ := hne
  rw [hS] at hr₀
  have hb : -1 ≤ b := (m1_le.2 hr₀.2.1).trans hr₀.1.2
  have ha : a ≤ 1 := hr₀.1.1.trans (by exact_mod_cast hr₀.2.2)
  unfold asinI
  rw [pure_chk, hx.test V.chk]
  change Post True (if false || Num.lt x.upper (Num.lit (-1)) || Num.lt (Num.lit 1) x.lower then _ else _) _
  rw [lt_eq hx.up val_negOne, lt_eq val_one hx.lo, if_neg (by simp [ha, hb]), pure_scope, pure_rnd]
  obtain ⟨e₁, k1, k2⟩ : ∃ e₁, Post True (if Num.le x.lower (Num.lit (-1)) then negM K.piHalfUpper else V.B.fnDown .asin x.lower)
      (fun c => ∃ z, val c = some z ∧ D z e₁) ∧ IsGLB (E (Real.arcsin '' (γ x ∩ Fn.asin.dom))) e₁ := by
    rw [le_eq hx.lo val_negOne]
    by_cases h : a ≤ -1
    · obtain ⟨z, hz, hU⟩ := hK.piHalfUpper
      obtain ⟨nt, hnt⟩ := Option.ne_none_iff_exists'.1 (hn K.piHalfUpper)
      refine ⟨(Real.arcsin (-1) : ℝ), ?_, glb_att ((hS _).2 ⟨⟨by rw [m1_coe]; exact h, by rw [m1_coe]; exact hb⟩, by norm_num, by norm_num⟩)
        fun s hs => Real.monotone_arcsin ((hS s).1 hs).2.1⟩
      simp only [h, decide_true, if_true]
      have : (negM K.piHalfUpper : Res T) = .ok nt := by unfold negM; rw [hnt]; rfl
      refine Post.of_eq this ⟨-z, by rw [NumLaws.neg _ _ hnt, hz]; rfl, ?_⟩
      rw [Real.arcsin_neg_one, EReal.coe_neg]
      exact hDU.dual hU hn
    · have h' := not_le.1 h
      obtain ⟨r, rfl⟩ := real_of (a := a) (l := -1) (u := 1) (m1_coe.le.trans h'.le) (by exact_mod_cast ha)
      have hr1 : -1 ≤ r := m1_le.1 h'.le
      have hr2 : r ≤ 1 := by exact_mod_cast ha
      refine ⟨Real.arcsin r, by rw [if_neg (by simpa using h)]; exact hf.down hDU hx.lo (.inl ⟨r, ⟨hr1, hr2⟩, rfl, rfl⟩),
        glb_att ((hS r).2 ⟨⟨le_rfl, hx.le⟩, hr1, hr2⟩) fun s hs => Real.monotone_arcsin (by exact_mod_cast ((hS s).1 hs).1.1)⟩
  obtain ⟨e₂, k3, k4⟩ : ∃ e₂, Post True (if Num.le (Num.lit 1) x.upper then pure K.piHalfUpper else V.B.fnUp .asin x.upper)
      (fun c => ∃ z, val c = some z ∧ U z e₂) ∧ IsLUB (E (Real.arcsin '' (γ x ∩ Fn.asin.dom))) e₂ := by
    rw [le_eq val_one hx.up]
    by_cases h : 1 ≤ b
    · obtain ⟨z, hz, hU⟩ := hK.piHalfUpper
      refine ⟨(Real.arcsin 1 : ℝ), ?_, lub_att ((hS _).2 ⟨⟨by exact_mod_cast ha, by exact_mod_cast h⟩, by norm_num, le_rfl⟩)
        fun s hs => Real.monotone_arcsin ((hS s).1 hs).2.2⟩
      simp only [h, decide_true, if_true]
      rw [Real.arcsin_one]
      exact post_num hz hU
    · have h' := not_le.1 h
      obtain ⟨r, rfl⟩ := real_of (a := b) (l := -1) (u := 1) (m1_coe.le.trans hb) (by exact_mod_cast h'.le)
      have hr1 : -1 ≤ r := m1_le.1 hb
      have hr2 : r ≤ 1 := by exact_mod_cast h'.le
      refine ⟨Real.arcsin r, by rw [if_neg (by simpa using h)]; exact hf.up hDU hx.up (.inl ⟨r, ⟨hr1, hr2⟩, rfl, rfl⟩),
        lub_att ((hS r).2 ⟨⟨hx.le, le_rfl⟩, hr1, hr2⟩) fun s hs => Real.monotone_arcsin (by exact_mod_cast ((hS s).1 hs).1.2)⟩
  exact seq_bnd k1 k3 k2 k4

theorem acosI_post {K : PiConst T} (hDU : DU T D U) (hK : PiOk D U K) (hf : V.FnOk D U .acos)
    (hx : Has x a b) (hne : (γ x ∩ Fn.acos.dom).Nonempty) :
    Post True (acosI K V.pp x) (Bnd D U (Real.arccos '' (γ x ∩ Fn.acos.dom))) := by
  have hS : ∀ r, r ∈ γ x ∩ Fn.acos.dom ↔ (a ≤ r ∧ (r : EReal) ≤ b) ∧ -1 ≤ r ∧ r ≤ 1 := fun r => by
    rw [hx.gamma]; exact Iff.rfl
  obtain ⟨r₀, hr₀⟩ := hne
  rw [hS] at hr₀
  have hb : -1 ≤ b := (m1_le.2 hr₀.2.1).trans hr₀.1.2
  have ha : a ≤ 1 := hr₀.1.1.trans (by exact_mod_cast hr₀.2.2)
  unfold acosI
  rw [pure_chk, hx.test V.chk]
  change Post True (if false || Num.lt x.upper (Num.lit (-1)) || Num.lt (Num.lit 1) x.lower then _ else _) _
  rw [lt_eq hx.up val_negOne, lt_eq val_one hx.lo, if_neg (by simp [ha, hb]), pure_scope, pure_rnd]
  obtain ⟨e₁, k1, k2⟩ : ∃ e₁, Post True (if Num.le (Num.lit 1) x.upper then pure (Num.lit 0) else V.B.fnDown .acos x.upper)
      (fun c => ∃ z, val c = some z ∧ D z e₁) ∧ IsGLB (E (Real.arccos '' (γ x ∩ Fn.acos.dom))) e₁ := by
    rw [le_eq val_one hx.up]
    by_cases h : 1 ≤ b
    · refine ⟨(Real.arccos 1 : ℝ), ?_, glb_att ((hS _).2 ⟨⟨by exact_mod_cast ha, by exact_mod_cast h⟩, by norm_num, le_rfl⟩)
        fun s hs => Real.antitone_arccos ((hS s).1 hs).2.2⟩
      simp only [h, decide_true, if_true]
      rw [Real.arccos_one]
      exact post_num val_zero (hDU.D_exact _ _ val_zero)
    · have h' := not_le.1 h
      obtain ⟨r, rfl⟩ := real_of (a := b) (l := -1) (u := 1) (m1_coe.le.trans hb) (by exact_mod_cast h'.le)
      have hr1 : -1 ≤ r := m1_le.1 hb
      have hr2 : r ≤ 1 := by exact_mod_cast h'.le
      refine ⟨Real.arccos r, by rw [if_neg (by simpa using h)]; exact hf.down hDU hx.up (.inl ⟨r, ⟨hr1, hr2⟩, rfl, rfl⟩),
        glb_att ((hS r).2 ⟨⟨hx.le, le_rfl⟩, hr1, hr2⟩) fun s hs => Real.antitone_arccos (by exact_mod_cast ((hS s).1 hs).1.2)⟩
  obtain ⟨e₂, k3, k4⟩ : ∃ e₂, Post True (if Num.le x.lower (Num.lit (-1)) then pure K.piUpper else V.B.fnUp .acos x.lower)
      (fun c => ∃ z, val c = some z ∧ U z e₂) ∧ IsLUB (E (Real.arccos '' (γ x ∩ Fn.acos.dom))) e₂ := by
    rw [le_eq hx.lo val_negOne]
    by_cases h : a ≤ -1
    · obtain ⟨z, hz, hU⟩ := hK.piUpper
      refine ⟨(Real.arccos (-1) : ℝ), ?_, lub_att ((hS _).2 ⟨⟨by rw [m1_coe]; exact h, by rw [m1_coe]; exact hb⟩, by norm_num, by norm_num⟩)
        fun s hs => Real.antitone_arccos ((hS s).1 hs).2.1⟩
      simp only [h, decide_true, if_true]
      rw [Real.arccos_neg_one]
      exact post_num hz hU
    · have h' := not_le.1 h
      obtain ⟨r, rfl⟩ := real_of (a := a) (l := -1) (u := 1) (m1_coe.le.trans h'.le) (by exact_mod_cast ha)
      have hr1 : -1 ≤ r := m1_le.1 h'.le
      have hr2 : r ≤ 1 := by exact_mod_cast ha
      refine ⟨Real.arccos r, by rw [if_neg (by simpa using h)]; exact hf.up hDU hx.lo (.inl ⟨r, ⟨hr1, hr2⟩, rfl, rfl⟩),
        lub_att ((hS r).2 ⟨⟨le_rfl, hx.le⟩, hr1, hr2⟩) fun s hs => Real.antitone_arccos (by exact_mod_cast ((hS s).1 hs).1.1)⟩
  exact seq_bnd k1 k3 k2 k4

theorem acoshI_post (hDU : DU T D U) (hf : V.FnOk D U .acosh) (hx : Has x a b) (hne : (γ x ∩ Fn.acosh.dom).Nonempty) :
    Post True (acoshI V.pp x) (Bnd D U (Real.arcosh '' (γ x ∩ Fn.acosh.dom))) := by
  have hS : ∀ r, r ∈ γ x ∩ Fn.acosh.dom ↔ (a ≤ r ∧ (r : EReal) ≤ b) ∧ 1 ≤ r := fun r => by
    rw [hx.gamma]; exact Iff.rfl
  have hmono : ∀ r s : ℝ, 1 ≤ r → r ≤ s → Real.arcosh r ≤ Real.arcosh s := fun r s h1 h2 =>
    (Real.arcosh_le_arcosh (by linarith) (by linarith)).2 h2
  obtain ⟨r₀, hr₀⟩ := id hne
  rw [hS] at hr₀
  have hb : 1 ≤ b := le_trans (by exact_mod_cast hr₀.2) hr₀.1.2
  unfold acoshI
  rw [pure_chk, hx.test V.chk]
  change Post True (if false || Num.lt x.upper (Num.lit 1) then _ else _) _
  rw [lt_eq hx.up val_one, if_neg (by simp [hb]), pure_scope, pure_rnd]
  obtain ⟨e₁, k1, k2⟩ : ∃ e₁, Post True (if Num.le x.lower (Num.lit 1) then pure (Num.lit 0) else V.B.fnDown .acosh x.lower)
      (fun c => ∃ z, val c = some z ∧ D z e₁) ∧ IsGLB (E (Real.arcosh '' (γ x ∩ Fn.acosh.dom))) e₁ := by
    rw [le_eq hx.lo val_one]
    by_cases h : a ≤ 1
    · refine ⟨(Real.arcosh 1 : ℝ), ?_, glb_att ((hS _).2 ⟨⟨by exact_mod_cast h, by exact_mod_cast hb⟩, le_rfl⟩)
        fun s hs => hmono _ _ le_rfl ((hS s).1 hs).2⟩
      simp only [h, decide_true, if_true]
      rw [Real.arcosh_zero]
      exact post_num val_zero (hDU.D_exact _ _ val_zero)
    · have h' := not_le.1 h
      obtain ⟨r, rfl⟩ := real_of (l := 1) (u := r₀) (by exact_mod_cast h'.le) hr₀.1.1
      have hr1 : 1 ≤ r := by exact_mod_cast h'.le
      refine ⟨Real.arcosh r, by rw [if_neg (by simpa using h)]; exact hf.down hDU hx.lo (.inl ⟨r, hr1, rfl, rfl⟩),
        glb_att ((hS r).2 ⟨⟨le_rfl, hx.le⟩, hr1⟩) fun s hs => hmono _ _ hr1 (by exact_mod_cast ((hS s).1 hs).1.1)⟩
  obtain ⟨e₂, k3, k4⟩ : ∃ e₂, Post True (V.B.fnUp .acosh x.upper)
      (fun c => ∃ z, val c = some z ∧ U z e₂) ∧ IsLUB (E (Real.arcosh '' (γ x ∩ Fn.acosh.dom))) e₂ := by
    by_cases h : b = ⊤
    · refine ⟨⊤, hf.up hDU hx.up (.inr (.inr ⟨h, rfl⟩)), lub_lim (fun _ _ => le_top) hne fun r hr y h1 _ => ?_⟩
      rw [hS] at hr
      obtain ⟨s, hs, rfl⟩ := Real.arcosh_surjOn (show y ∈ Ici 0 from (Real.arcosh_nonneg hr.2).trans h1.le)
      have hrs : r ≤ s := by
        by_contra hc
        exact absurd (hmono s r hs (not_le.1 hc).le) (not_le.2 h1)
      exact ⟨s, (hS s).2 ⟨⟨hr.1.1.trans (by exact_mod_cast hrs), h ▸ le_top⟩, hs⟩, rfl⟩
    · lift b to ℝ using ⟨h, hx.ne_bot⟩
      have hb' : 1 ≤ b := by exact_mod_cast hb
      exact ⟨Real.arcosh b, hf.up hDU hx.up (.inl ⟨b, hb', rfl, rfl⟩), lub_att ((hS b).2 ⟨⟨hx.le, le_rfl⟩, hb'⟩)
        fun s hs => hmono _ _ ((hS s).1 hs).2 (by exact_mod_cast ((hS s).1 hs).1.2)⟩
  exact seq_bnd k1 k3 k2 k4

/-! ## cosh -/

theorem cosh_lub_inf (hx : Has x a b) (h : a = ⊥ ∨ b = ⊤) : IsLUB (E (Real.cosh '' γ x)) ⊤ := by
  refine lub_lim (fun _ _ => le_top) hx.nonempty fun r hr y h1 _ => ?_
  have hy : 1 ≤ y := (Real.one_le_cosh r).trans h1.le
  have h2 : |r| ≤ Real.arcosh y := by
    have : Real.cosh r ≤ Real.cosh (Real.arcosh y) := by rw [Real.cosh_arcosh hy]; exact h1.le
    rw [Real.cosh_le_cosh, abs_of_nonneg (Real.arcosh_nonneg hy)] at this
    exact this
  rw [hx.gamma] at hr ⊢
  rcases h with rfl | rfl
  · refine ⟨-Real.arcosh y, ⟨bot_le, le_trans ?_ hr.2⟩, by rw [Real.cosh_neg, Real.cosh_arcosh hy]⟩
    have := neg_abs_le r
    exact_mod_cast (by linarith : -Real.arcosh y ≤ r)
  · refine ⟨Real.arcosh y, ⟨hr.1.trans ?_, le_top⟩, Real.cosh_arcosh hy⟩
    exact_mod_cast (le_abs_self r).trans h2

/-- The bound of larger magnitude gives the upper bound. -/
theorem cosh_upper (hDU : DU T D U) (hf : V.FnOk D U .cosh) (hx : Has x a b) {c : EReal} (hc : c = a ∨ c = b)
    (hm : ∀ r s : ℝ, c = r → s ∈ γ x → |s| ≤ |r|) (hbot : a = ⊥ → c = a ∨ c = b ∧ b = ⊤) (htop : b = ⊤ → c = b ∨ c = a ∧ a = ⊥)
    {t : T} (ht : val t = some c) :
    ∃ e₂, Post True (V.B.fnUp .cosh t) (fun c => ∃ z, val c = some z ∧ U z e₂) ∧ IsLUB (E (Real.cosh '' γ x)) e₂ := by
  by_cases h1 : c = ⊤
  · have : b = ⊤ := by
      rcases hc with h | h
      · exact absurd (h.symm.trans h1) hx.ne_top
      · exact h.symm.trans h1
    exact ⟨⊤, hf.up hDU ht (.inr (.inr ⟨h1, rfl⟩)), cosh_lub_inf hx (.inr this)⟩
  · by_cases h2 : c = ⊥
    · have : a = ⊥ := by
        rcases hc with h | h
        · exact h.symm.trans h2
        · exact absurd (h.symm.trans h2) hx.ne_bot
      exact ⟨⊤, hf.up hDU ht (.inr (.inl ⟨h2, rfl⟩)), cosh_lub_inf hx (.inl this)⟩
    · lift c to ℝ using ⟨h1, h2⟩
      refine ⟨Real.cosh c, hf.up hDU ht (.inl ⟨c, mem_univ _, rfl, rfl⟩), lub_att ?_ fun s hs => Real.cosh_le_cosh.2 (hm c s rfl hs)⟩
      rw [hx.gamma]
      rcases hc with h | h
      · exact ⟨h.ge, h ▸ hx.le⟩
      · exact ⟨h ▸ hx.le, h.le⟩

theorem coshI_post (hDU : DU T D U) (hn : ∀ a : T, Num.neg a ≠ none) (hf : V.FnOk D U .cosh) (hx : Has x a b) :
    Post True (coshI V.pp x) (Bnd D U (Real.cosh '' γ x)) := by
  have hS : ∀ r, r ∈ γ x ↔ a ≤ r ∧ (r : EReal) ≤ b := fun r => by rw [hx.gamma]; exact Iff.rfl
  unfold coshI
  rw [pure_chk, res_if_false (hx.test V.chk), pure_scope, pure_rnd, isNeg_eq hx.up, isNeg_eq hx.lo]
  by_cases hb : b < 0
  · simp only [hb, decide_true, if_true]
    have hbt : b ≠ ⊤ := fun h => by rw [h] at hb; exact absurd hb (by simp)
    obtain ⟨e₂, k3, k4⟩ := cosh_upper hDU hf hx (c := a) (.inl rfl) (fun r s h hs => by
      have h1 : r ≤ s := by have := ((hS s).1 hs).1; rw [h] at this; exact_mod_cast this
      have h2 : s < 0 := by exact_mod_cast ((hS s).1 hs).2.trans_lt hb
      rw [abs_of_neg h2, abs_of_neg (h1.trans_lt h2)]; linarith) (fun _ => .inl rfl) (fun h => absurd h hbt) hx.lo
    have hbb := hx.ne_bot
    lift b to ℝ using ⟨hbt, hbb⟩
    have hb' : b < 0 := by exact_mod_cast hb
    refine mk2_bnd (hf.down hDU hx.up (.inl ⟨b, mem_univ _, rfl, rfl⟩)) k3 (glb_att ((hS b).2 ⟨hx.le, le_rfl⟩) fun s hs => ?_) k4
    have : s ≤ b := by exact_mod_cast ((hS s).1 hs).2
    exact Real.cosh_le_cosh.2 (by rw [abs_of_neg hb', abs_of_neg (this.trans_lt hb')]; linarith)
  · simp only [hb, decide_false, Bool.false_eq_true, if_false]
    by_cases ha : a < 0
    · simp only [ha, decide_true, Bool.not_true, Bool.false_eq_true, if_false]
      obtain ⟨nl, hnl⟩ := Option.ne_none_iff_exists'.1 (hn x.lower)
      have : (negM x.lower : Res T) = .ok nl := by unfold negM; rw [hnl]; rfl
      rw [this]
      change Post True (V.B.fnUp .cosh (if Num.lt x.upper nl then x.lower else x.upper) >>= _) _
      have hvn : val nl = some (-a) := by rw [NumLaws.neg _ _ hnl, hx.lo]; rfl
      rw [lt_eq hx.up hvn]
      have hb' : 0 ≤ b := not_lt.1 hb
      have h0 : (0 : ℝ) ∈ γ x := (hS 0).2 ⟨by exact_mod_cast ha.le, by exact_mod_cast hb'⟩
      have hg : IsGLB (E (Real.cosh '' γ x)) (Real.cosh 0) := glb_att h0 fun s _ => by rw [Real.cosh_zero]; exact Real.one_le_cosh s
      rw [Real.cosh_zero] at hg
      obtain ⟨e₂, k3, k4⟩ : ∃ e₂, Post True (V.B.fnUp .cosh (if decide (b < -a) then x.lower else x.upper))
          (fun c => ∃ z, val c = some z ∧ U z e₂) ∧ IsLUB (E (Real.cosh '' γ x)) e₂ := by
        by_cases h : b < -a
        · simp only [h, decide_true, if_true]
          refine cosh_upper hDU hf hx (c := a) (.inl rfl) (fun r s hr hs => ?_) (fun _ => .inl rfl)
            (fun h' => by rw [h'] at h; exact absurd h (by simp)) hx.lo
          have hs' := (hS s).1 hs
          rw [hr] at hs' h ha
          have h1 : r ≤ s := by exact_mod_cast hs'.1
          have h2 : s < -r := by exact_mod_cast hs'.2.trans_lt h
          have h3 : r < 0 := by exact_mod_cast ha
          rw [abs_of_neg h3]
          exact abs_le.2 ⟨by linarith, h2.le⟩
        · simp only [h, decide_false, Bool.false_eq_true, if_false]
          refine cosh_upper hDU hf hx (c := b) (.inr rfl) (fun r s hr hs => ?_)
            (fun h' => .inr ⟨rfl, by rw [h'] at h; simpa using h⟩) (fun _ => .inl rfl) hx.up
          have hs' := (hS s).1 hs
          rw [hr] at hs' h hb'
          have h1 : s ≤ r := by exact_mod_cast hs'.2
          have h2 : -a ≤ (r : EReal) := not_lt.1 h
          have h3 : -(r : EReal) ≤ a := EReal.neg_le.1 h2
          have h4 : -r ≤ s := by exact_mod_cast h3.trans hs'.1
          have h5 : 0 ≤ r := by exact_mod_cast hb'
          rw [abs_of_nonneg h5]
          exact abs_le.2 ⟨h4, h1⟩
      refine k3.bind fun u hu => ?_
      obtain ⟨w, hw, hu⟩ := hu
      exact ⟨1, w, 1, e₂, val_one, hw, hg, k4, hDU.D_exact _ _ val_one, hu⟩
    · simp only [ha, decide_false, Bool.not_false, if_true]
      have hab : a ≠ ⊥ := fun h => ha (by rw [h]; simp)
      have ha' : 0 ≤ a := not_lt.1 ha
      obtain ⟨e₂, k3, k4⟩ := cosh_upper hDU hf hx (c := b) (.inr rfl) (fun r s h hs => by
        have h1 : s ≤ r := by have := ((hS s).1 hs).2; rw [h] at this; exact_mod_cast this
        have h2 : 0 ≤ s := by exact_mod_cast ha'.trans ((hS s).1 hs).1
        rw [abs_of_nonneg h2, abs_of_nonneg (h2.trans h1)]; exact h1) (fun h => absurd h hab) (fun _ => .inl rfl) hx.up
      have hat := hx.ne_top
      lift a to ℝ using ⟨hat, hab⟩
      have ha'' : 0 ≤ a := by exact_mod_cast ha'
      refine mk2_bnd (hf.down hDU hx.lo (.inl ⟨a, mem_univ _, rfl, rfl⟩)) k3 (glb_att ((hS a).2 ⟨le_rfl, hx.le⟩) fun s hs => ?_) k4
      have : a ≤ s := by exact_mod_cast ((hS s).1 hs).1
      exact Real.cosh_le_cosh.2 (by rw [abs_of_nonneg ha'', abs_of_nonneg (ha''.trans this)]; exact this)

/-! ## All of them -/

theorem Fn.I_post {K : PiConst T} {fuel : Nat} (hDU : DU T D U) (hn : ∀ a : T, Num.neg a ≠ none) (hK : PiOk D U K) (hs : f.simple = true)
    (hi : f.unbounded = true → InfBase T) (hf : V.FnOk D U f) (hne : (γ x ∩ f.dom).Nonempty) :
    Post True (f.I K fuel V.pp x) (Bnd D U (f.real '' (γ x ∩ f.dom))) := by
  obtain ⟨r₀, hr₀⟩ := id hne
  obtain ⟨a, b, hx⟩ := has_of_mem hr₀.1
  cases f with
  | exp => exact (inter_univ (γ x)).symm ▸ increasingI_post hDU hf hx bij_exp rfl rfl rfl
  | atan => exact (inter_univ (γ x)).symm ▸ increasingI_post hDU hf hx bij_atan rfl rfl rfl
  | sinh => exact (inter_univ (γ x)).symm ▸ increasingI_post hDU hf hx bij_sinh rfl rfl rfl
  | tanh => exact (inter_univ (γ x)).symm ▸ increasingI_post hDU hf hx bij_tanh rfl rfl rfl
  | asinh => exact (inter_univ (γ x)).symm ▸ increasingI_post hDU hf hx bij_asinh rfl rfl rfl
  | log => exact logI_post hDU (fun _ => V.infLaws (hi rfl)) hf hx hne
  | atanh => exact atanhI_post hDU (fun _ => V.infLaws (hi rfl)) hf hx hne
  | asin => exact asinI_post hDU hn hK hf hx hne
  | acos => exact acosI_post hDU hK hf hx hne
  | acosh => exact acoshI_post hDU hf hx hne
  | cosh => exact (inter_univ (γ x)).symm ▸ coshI_post hDU hn hf hx
  | sin => cases hs
  | cos => cases hs
  | tan => cases hs
end

end BI
