import Mathlib.Topology.Instances.EReal.Lemmas
import Verif.Spec.Sem
/-! # Sets of reals bounded by extended reals -/

namespace BI
open Set

/-- The reals between two extended reals. -/
def RI (a b : EReal) : Set ℝ := {r | a ≤ (r : EReal) ∧ (r : EReal) ≤ b}

/-- A set of reals seen in the extended reals. -/
abbrev E (S : Set ℝ) : Set EReal := ((↑) : ℝ → EReal) '' S

theorem RI.ne_top {a b : EReal} {r : ℝ} (h : r ∈ RI a b) : a ≠ ⊤ := by
  rintro rfl; exact absurd h.1 (by simp)

theorem RI.ne_bot {a b : EReal} {r : ℝ} (h : r ∈ RI a b) : b ≠ ⊥ := by
  rintro rfl; exact absurd h.2 (by simp)

theorem RI.le {a b : EReal} {r : ℝ} (h : r ∈ RI a b) : a ≤ b := h.1.trans h.2

theorem exists_mem_RI {a b : EReal} (ha : a ≠ ⊤) (hb : b ≠ ⊥) (h : a ≤ b) : ∃ r, r ∈ RI a b := by
  induction a with
  | top => exact absurd rfl ha
  | bot =>
    induction b with
    | bot => exact absurd rfl hb
    | top => exact ⟨0, by simp [RI]⟩
    | coe b => exact ⟨b, by simp [RI]⟩
  | coe a => exact ⟨a, by simpa [RI] using h⟩

/-- The lower end is a limit of points. -/
theorem lower_mem_closure {a b : EReal} {r₀ : ℝ} (h₀ : r₀ ∈ RI a b) : a ∈ closure (E (RI a b)) := by
  induction a with
  | top => exact absurd rfl (RI.ne_top h₀)
  | coe a => exact subset_closure ⟨a, ⟨le_rfl, RI.le h₀⟩, rfl⟩
  | bot =>
    have hglb : IsGLB (E (RI ⊥ b)) ⊥ := by
      refine ⟨fun x _ => bot_le, fun w hw => ?_⟩
      induction w with
      | bot => exact le_rfl
      | top =>
        have := hw ⟨r₀, h₀, rfl⟩
        exact absurd this (by simp)
      | coe w =>
        have h1 : min r₀ (w - 1) ∈ RI ⊥ b :=
          ⟨bot_le, le_trans (by exact_mod_cast min_le_left _ _) h₀.2⟩
        have h2 : (w : EReal) ≤ ((min r₀ (w - 1) : ℝ) : EReal) := hw ⟨_, h1, rfl⟩
        have h3 : w ≤ min r₀ (w - 1) := by exact_mod_cast h2
        have h4 := h3.trans (min_le_right _ _)
        linarith
    exact hglb.mem_closure ⟨_, r₀, h₀, rfl⟩

theorem upper_mem_closure {a b : EReal} {r₀ : ℝ} (h₀ : r₀ ∈ RI a b) : b ∈ closure (E (RI a b)) := by
  induction b with
  | bot => exact absurd rfl (RI.ne_bot h₀)
  | coe b => exact subset_closure ⟨b, ⟨RI.le h₀, le_rfl⟩, rfl⟩
  | top =>
    have hlub : IsLUB (E (RI a ⊤)) ⊤ := by
      refine ⟨fun x _ => le_top, fun w hw => ?_⟩
      induction w with
      | top => exact le_rfl
      | bot =>
        have := hw ⟨r₀, h₀, rfl⟩
        exact absurd this (by simp)
      | coe w =>
        have h1 : max r₀ (w + 1) ∈ RI a ⊤ :=
          ⟨h₀.1.trans (by exact_mod_cast le_max_left _ _), le_top⟩
        have h2 : ((max r₀ (w + 1) : ℝ) : EReal) ≤ (w : EReal) := hw ⟨_, h1, rfl⟩
        have h3 : max r₀ (w + 1) ≤ w := by exact_mod_cast h2
        have h4 := (le_max_right _ _).trans h3
        linarith
    exact hlub.mem_closure ⟨_, r₀, h₀, rfl⟩

/-- Images of pairs of limits. -/
theorem image2_mem_closure {f : EReal → EReal → EReal} {g : ℝ → ℝ → ℝ} {X Y : Set ℝ} {a b : EReal}
    (hfg : ∀ r s : ℝ, f r s = g r s) (ha : a ∈ closure (E X)) (hb : b ∈ closure (E Y))
    (hc : ContinuousAt (fun p : EReal × EReal => f p.1 p.2) (a, b)) :
    f a b ∈ closure (E (image2 g X Y)) := by
  have h1 : (a, b) ∈ closure (E X ×ˢ E Y) := by rw [closure_prod_eq]; exact ⟨ha, hb⟩
  have h2 := mem_closure_image hc h1
  refine closure_mono ?_ h2
  rintro _ ⟨⟨_, _⟩, ⟨⟨r, hr, rfl⟩, ⟨s, hs, rfl⟩⟩, rfl⟩
  exact ⟨g r s, ⟨r, hr, s, hs, rfl⟩, (hfg r s).symm⟩

theorem image_mem_closure {f : EReal → EReal} {g : ℝ → ℝ} {X : Set ℝ} {a : EReal}
    (hfg : ∀ r : ℝ, f r = g r) (ha : a ∈ closure (E X)) (hc : ContinuousAt f a) :
    f a ∈ closure (E (g '' X)) := by
  have h2 := mem_closure_image hc ha
  refine closure_mono ?_ h2
  rintro _ ⟨_, ⟨r, hr, rfl⟩, rfl⟩
  exact ⟨g r, ⟨r, hr, rfl⟩, (hfg r).symm⟩

theorem isGLB_of {S : Set ℝ} {e : EReal} (h : ∀ r ∈ S, e ≤ (r : EReal)) (hc : e ∈ closure (E S)) : IsGLB (E S) e :=
  isGLB_of_mem_closure (by rintro _ ⟨r, hr, rfl⟩; exact h r hr) hc

theorem isLUB_of {S : Set ℝ} {e : EReal} (h : ∀ r ∈ S, (r : EReal) ≤ e) (hc : e ∈ closure (E S)) : IsLUB (E S) e :=
  isLUB_of_mem_closure (by rintro _ ⟨r, hr, rfl⟩; exact h r hr) hc

theorem min_mem {S : Set EReal} {a b : EReal} (ha : a ∈ S) (hb : b ∈ S) : min a b ∈ S := by
  rcases min_choice a b with h | h <;> rw [h] <;> assumption

theorem max_mem {S : Set EReal} {a b : EReal} (ha : a ∈ S) (hb : b ∈ S) : max a b ∈ S := by
  rcases max_choice a b with h | h <;> rw [h] <;> assumption

/-! ## Sum -/

theorem add_mem_closure {X Y : Set ℝ} {a b : EReal} (ha : a ∈ closure (E X)) (hb : b ∈ closure (E Y))
    (h : AddOk a b) : a + b ∈ closure (E (image2 (· + ·) X Y)) :=
  image2_mem_closure (f := fun x y => x + y) (fun _ _ => by norm_cast) ha hb
    (EReal.continuousAt_add h.1 h.2)

theorem mul_mem_closure {X Y : Set ℝ} {a b : EReal} (ha : a ∈ closure (E X)) (hb : b ∈ closure (E Y))
    (h : MulOk a b) : a * b ∈ closure (E (image2 (· * ·) X Y)) :=
  image2_mem_closure (f := fun x y => x * y) (fun _ _ => by norm_cast) ha hb
    (EReal.continuousAt_mul (h.1.imp id And.left) (h.1.imp id And.right)
      ((h.2.imp id And.left).symm) ((h.2.imp id And.right).symm))

theorem neg_mem_closure {X : Set ℝ} {a : EReal} (ha : a ∈ closure (E X)) :
    -a ∈ closure (E ((fun r => -r) '' X)) :=
  image_mem_closure (f := fun x => -x) (fun _ => by norm_cast) ha continuous_neg.continuousAt

end BI

namespace BI
open Set

theorem sub_mem_closure {X Y : Set ℝ} {a b : EReal} (ha : a ∈ closure (E X)) (hb : b ∈ closure (E Y))
    (h : SubOk a b) : a - b ∈ closure (E (image2 (· - ·) X Y)) := by
  have h1 := neg_mem_closure hb
  have h2 : AddOk a (-b) := by
    refine ⟨h.1.imp id ?_, h.2.imp id ?_⟩ <;> intro h h' <;> apply h
    · rwa [EReal.neg_eq_bot_iff] at h'
    · rwa [EReal.neg_eq_top_iff] at h'
  have h3 := add_mem_closure ha h1 h2
  rw [sub_eq_add_neg]
  refine closure_mono ?_ h3
  rintro _ ⟨_, ⟨r, hr, _, ⟨s, hs, rfl⟩, rfl⟩, rfl⟩
  exact ⟨r - s, ⟨r, hr, s, hs, rfl⟩, by rw [sub_eq_add_neg]⟩

/-- Bounds of the inverses of the points of an interval that does not contain zero. -/
theorem inv_upper_mem_closure {a b : EReal} {r₀ : ℝ} (h₀ : r₀ ∈ RI a b) (ha : 0 < a) :
    b⁻¹ ∈ closure (E ((fun r => r⁻¹) '' RI a b)) := by
  induction b with
  | bot => exact absurd rfl (RI.ne_bot h₀)
  | coe b => exact subset_closure ⟨b⁻¹, ⟨b, ⟨RI.le h₀, le_rfl⟩, rfl⟩, EReal.coe_inv b⟩
  | top =>
    rw [EReal.inv_top]
    have h0 : 0 < r₀ := by exact_mod_cast lt_of_lt_of_le ha h₀.1
    have hglb : IsGLB (E ((fun r => r⁻¹) '' RI a ⊤)) 0 := by
      refine ⟨?_, fun w hw => ?_⟩
      · rintro _ ⟨_, ⟨r, hr, rfl⟩, rfl⟩
        have : 0 < r := by exact_mod_cast lt_of_lt_of_le ha hr.1
        exact_mod_cast (inv_pos.2 this).le
      · by_contra hlt
        have hw0 : 0 < w := not_le.1 hlt
        induction w with
        | bot => exact absurd hw0 (by simp)
        | top =>
          have := hw ⟨_, ⟨r₀, h₀, rfl⟩, rfl⟩
          exact absurd this (by simp)
        | coe w =>
          have hw1 : 0 < w := by exact_mod_cast hw0
          have h1 : max r₀ (2 * w⁻¹) ∈ RI a ⊤ :=
            ⟨h₀.1.trans (by exact_mod_cast le_max_left _ _), le_top⟩
          have h2 : (w : EReal) ≤ (((max r₀ (2 * w⁻¹))⁻¹ : ℝ) : EReal) := hw ⟨_, ⟨_, h1, rfl⟩, rfl⟩
          have h3 : w ≤ (max r₀ (2 * w⁻¹))⁻¹ := by exact_mod_cast h2
          have h4 : (max r₀ (2 * w⁻¹))⁻¹ ≤ (2 * w⁻¹)⁻¹ :=
            inv_anti₀ (by positivity) (le_max_right _ _)
          have h5 : (2 * w⁻¹)⁻¹ = w / 2 := by field_simp
          linarith
    exact hglb.mem_closure ⟨_, _, ⟨r₀, h₀, rfl⟩, rfl⟩

theorem inv_lower_mem_closure {a b : EReal} {r₀ : ℝ} (h₀ : r₀ ∈ RI a b) (ha : 0 < a) :
    a⁻¹ ∈ closure (E ((fun r => r⁻¹) '' RI a b)) := by
  induction a with
  | bot => exact absurd ha (by simp)
  | top => exact absurd rfl (RI.ne_top h₀)
  | coe a => exact subset_closure ⟨a⁻¹, ⟨a, ⟨le_rfl, RI.le h₀⟩, rfl⟩, EReal.coe_inv a⟩

theorem RI_neg (a b : EReal) : RI (-b) (-a) = (fun r => -r) '' RI a b := by
  ext r
  constructor
  · rintro ⟨h1, h2⟩
    refine ⟨-r, ⟨?_, ?_⟩, by simp⟩
    · rw [EReal.coe_neg]; exact EReal.le_neg_of_le_neg h2
    · rw [EReal.coe_neg]; exact EReal.neg_le_of_neg_le h1
  · rintro ⟨s, ⟨h1, h2⟩, rfl⟩
    exact ⟨by rw [EReal.coe_neg]; exact EReal.neg_le_neg_iff.2 h2,
      by rw [EReal.coe_neg]; exact EReal.neg_le_neg_iff.2 h1⟩

theorem inv_lower_mem_closure' {a b : EReal} {r₀ : ℝ} (h₀ : r₀ ∈ RI a b) (hb : b < 0) :
    a⁻¹ ∈ closure (E ((fun r => r⁻¹) '' RI a b)) := by
  have h1 : -r₀ ∈ RI (-b) (-a) := by rw [RI_neg]; exact ⟨r₀, h₀, rfl⟩
  have h2 := neg_mem_closure (inv_upper_mem_closure h1 (by rwa [EReal.lt_neg_comm, neg_zero]))
  rw [EReal.inv_neg, neg_neg] at h2
  refine closure_mono ?_ h2
  rintro _ ⟨_, ⟨_, ⟨r, hr, rfl⟩, rfl⟩, rfl⟩
  rw [RI_neg] at hr
  obtain ⟨s, hs, rfl⟩ := hr
  exact ⟨s⁻¹, ⟨s, hs, rfl⟩, by simp [inv_neg]⟩

theorem inv_upper_mem_closure' {a b : EReal} {r₀ : ℝ} (h₀ : r₀ ∈ RI a b) (hb : b < 0) :
    b⁻¹ ∈ closure (E ((fun r => r⁻¹) '' RI a b)) := by
  have h1 : -r₀ ∈ RI (-b) (-a) := by rw [RI_neg]; exact ⟨r₀, h₀, rfl⟩
  have h2 := neg_mem_closure (inv_lower_mem_closure h1 (by rwa [EReal.lt_neg_comm, neg_zero]))
  rw [EReal.inv_neg, neg_neg] at h2
  refine closure_mono ?_ h2
  rintro _ ⟨_, ⟨_, ⟨r, hr, rfl⟩, rfl⟩, rfl⟩
  rw [RI_neg] at hr
  obtain ⟨s, hs, rfl⟩ := hr
  exact ⟨s⁻¹, ⟨s, hs, rfl⟩, by simp [inv_neg]⟩

theorem div_mem_closure {X Y : Set ℝ} {a b : EReal} (ha : a ∈ closure (E X))
    (hb : b⁻¹ ∈ closure (E ((fun r => r⁻¹) '' Y))) (h : DivOk a b) :
    a / b ∈ closure (E (image2 (· / ·) X Y)) := by
  have h2 : MulOk a b⁻¹ := by
    refine ⟨.inr ⟨(EReal.bot_lt_inv b).ne', (EReal.inv_lt_top b).ne⟩, ?_⟩
    rcases h.2 with h3 | h3
    · exact .inr h3
    · left
      induction b with
      | bot => exact absurd rfl h3.1
      | top => exact absurd rfl h3.2
      | coe b =>
        have := h.1
        rw [← EReal.coe_inv]
        intro h4
        have h5 : b⁻¹ = 0 := by exact_mod_cast h4
        exact this (by rw [inv_eq_zero.1 h5]; rfl)
  have h3 := mul_mem_closure ha hb h2
  rw [div_eq_mul_inv]
  refine closure_mono ?_ h3
  rintro _ ⟨_, ⟨r, hr, _, ⟨s, hs, rfl⟩, rfl⟩, rfl⟩
  exact ⟨r / s, ⟨r, hr, s, hs, rfl⟩, by rw [div_eq_mul_inv]⟩

end BI
