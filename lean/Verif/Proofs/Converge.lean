import Verif.Proofs.SingleUse
import Verif.Spec.Converge
/-! # Formulas are Lipschitz on boxes -/

namespace BI
open Set
namespace Converge

/-- The values are bounded and Lipschitz over the points of `D`. -/
def Lip (D : ℕ → Set ℝ) (F : (ℕ → ℝ) → ℝ → Prop) : Prop :=
  ∃ M L : ℝ, 0 ≤ M ∧ 0 ≤ L ∧ (∀ v, (∀ i, v i ∈ D i) → ∀ a, F v a → |a| ≤ M) ∧
    ∀ v v', (∀ i, v i ∈ D i) → (∀ i, v' i ∈ D i) → ∀ w, (∀ i, |v i - v' i| ≤ w) → ∀ a a', F v a → F v' a' → |a - a'| ≤ L * w

variable {D : ℕ → Set ℝ} {F G : (ℕ → ℝ) → ℝ → Prop}

theorem Lip.sub (h : Lip D G) (hs : ∀ v, (∀ i, v i ∈ D i) → ∀ a, F v a → G v a) : Lip D F := by
  obtain ⟨M, L, h1, h2, h3, h4⟩ := h
  exact ⟨M, L, h1, h2, fun v hv a ha => h3 v hv a (hs v hv a ha),
    fun v v' hv hv' w hw a a' ha ha' => h4 v v' hv hv' w hw a a' (hs v hv a ha) (hs v' hv' a' ha')⟩

theorem Lip.const (r : ℝ) : Lip D fun _ a => a = r :=
  ⟨|r|, 0, abs_nonneg _, le_rfl, fun _ _ a ha => by rw [ha], fun _ _ _ _ w _ a a' ha ha' => by rw [ha, ha']; simp⟩

theorem Lip.none : Lip D fun _ _ => False :=
  ⟨0, 0, le_rfl, le_rfl, fun _ _ _ h => h.elim, fun _ _ _ _ _ _ _ _ h => h.elim⟩

theorem Lip.var {i : ℕ} (h : Bornology.IsBounded (D i)) : Lip D fun v a => a = v i := by
  obtain ⟨M, hM⟩ := h.exists_norm_le
  refine ⟨max M 0, 1, le_max_right _ _, zero_le_one, fun v hv a ha => ?_, fun v v' _ _ w hw a a' ha ha' => ?_⟩
  · rw [ha]; exact (hM _ (hv i)).trans (le_max_left _ _)
  · rw [ha, ha', one_mul]; exact hw i

theorem Lip.bin (hF : Lip D F) (hG : Lip D G) (g : ℝ → ℝ → ℝ)
    (h : ∀ M N : ℝ, 0 ≤ M → 0 ≤ N → ∃ C P Q : ℝ, 0 ≤ C ∧ 0 ≤ P ∧ 0 ≤ Q ∧ ∀ a b a' b', |a| ≤ M → |a'| ≤ M → |b| ≤ N → |b'| ≤ N →
      |g a b| ≤ C ∧ |g a b - g a' b'| ≤ P * |a - a'| + Q * |b - b'|) :
    Lip D fun v r => ∃ a b, F v a ∧ G v b ∧ r = g a b := by
  obtain ⟨M, L, h1, h2, h3, h4⟩ := hF
  obtain ⟨N, K, k1, k2, k3, k4⟩ := hG
  obtain ⟨C, P, Q, c0, p0, q0, hg⟩ := h M N h1 k1
  refine ⟨C, P * L + Q * K, c0, by positivity, ?_, ?_⟩
  · rintro v hv _ ⟨a, b, ha, hb, rfl⟩
    exact (hg a b a b (h3 v hv a ha) (h3 v hv a ha) (k3 v hv b hb) (k3 v hv b hb)).1
  · rintro v v' hv hv' w hw _ _ ⟨a, b, ha, hb, rfl⟩ ⟨a', b', ha', hb', rfl⟩
    refine (hg a b a' b' (h3 v hv a ha) (h3 v' hv' a' ha') (k3 v hv b hb) (k3 v' hv' b' hb')).2.trans ?_
    have e1 := mul_le_mul_of_nonneg_left (h4 v v' hv hv' w hw a a' ha ha') p0
    have e2 := mul_le_mul_of_nonneg_left (k4 v v' hv hv' w hw b b' hb hb') q0
    linarith

theorem Lip.add (hF : Lip D F) (hG : Lip D G) : Lip D fun v r => ∃ a b, F v a ∧ G v b ∧ r = a + b :=
  hF.bin hG _ fun M N hM hN => ⟨M + N, 1, 1, by positivity, zero_le_one, zero_le_one, fun a b a' b' ha _ hb _ =>
    ⟨(abs_add_le a b).trans (add_le_add ha hb), by
      rw [one_mul, one_mul, show a + b - (a' + b') = (a - a') + (b - b') by ring]; exact abs_add_le _ _⟩⟩

theorem Lip.diff (hF : Lip D F) (hG : Lip D G) : Lip D fun v r => ∃ a b, F v a ∧ G v b ∧ r = a - b :=
  hF.bin hG _ fun M N hM hN => ⟨M + N, 1, 1, by positivity, zero_le_one, zero_le_one, fun a b a' b' ha _ hb _ =>
    ⟨(abs_sub a b).trans (add_le_add ha hb), by
      rw [one_mul, one_mul, show a - b - (a' - b') = (a - a') - (b - b') by ring]; exact abs_sub _ _⟩⟩

theorem Lip.mul (hF : Lip D F) (hG : Lip D G) : Lip D fun v r => ∃ a b, F v a ∧ G v b ∧ r = a * b :=
  hF.bin hG _ fun M N hM hN => ⟨M * N, N, M, by positivity, hN, hM, fun a b a' b' ha ha' hb _ =>
    ⟨by rw [abs_mul]; exact mul_le_mul ha hb (abs_nonneg _) hM, by
      rw [show a * b - a' * b' = b * (a - a') + a' * (b - b') by ring]
      refine (abs_add_le _ _).trans (add_le_add ?_ ?_) <;> rw [abs_mul]
      · exact mul_le_mul_of_nonneg_right hb (abs_nonneg _)
      · exact mul_le_mul_of_nonneg_right ha' (abs_nonneg _)⟩⟩

theorem Lip.min (hF : Lip D F) (hG : Lip D G) : Lip D fun v r => ∃ a b, F v a ∧ G v b ∧ r = min a b :=
  hF.bin hG _ fun M N hM hN => ⟨max M N, 1, 1, le_max_of_le_left hM, zero_le_one, zero_le_one, fun a b a' b' ha _ hb _ =>
    ⟨by rcases min_choice a b with e | e <;> rw [e]
        exacts [ha.trans (le_max_left _ _), hb.trans (le_max_right _ _)], by
      rw [one_mul, one_mul]
      exact (abs_min_sub_min_le_max a b a' b').trans (max_le (le_add_of_nonneg_right (abs_nonneg _))
        (le_add_of_nonneg_left (abs_nonneg _)))⟩⟩

theorem Lip.max (hF : Lip D F) (hG : Lip D G) : Lip D fun v r => ∃ a b, F v a ∧ G v b ∧ r = max a b :=
  hF.bin hG _ fun M N hM hN => ⟨Max.max M N, 1, 1, le_max_of_le_left hM, zero_le_one, zero_le_one, fun a b a' b' ha _ hb _ =>
    ⟨by rcases max_choice a b with e | e <;> rw [e]
        exacts [ha.trans (le_max_left _ _), hb.trans (le_max_right _ _)], by
      rw [one_mul, one_mul]
      exact (abs_max_sub_max_le_max a b a' b').trans (max_le (le_add_of_nonneg_right (abs_nonneg _))
        (le_add_of_nonneg_left (abs_nonneg _)))⟩⟩

theorem Lip.abs (hF : Lip D F) : Lip D fun v r => ∃ a, F v a ∧ r = |a| := by
  obtain ⟨M, L, h1, h2, h3, h4⟩ := hF
  refine ⟨M, L, h1, h2, ?_, ?_⟩
  · rintro v hv _ ⟨a, ha, rfl⟩; rw [abs_abs]; exact h3 v hv a ha
  · rintro v v' hv hv' w hw _ _ ⟨a, ha, rfl⟩ ⟨a', ha', rfl⟩
    exact (abs_abs_sub_abs_le a a').trans (h4 v v' hv hv' w hw a a' ha ha')

theorem Lip.inv (hF : Lip D F) {δ : ℝ} (hδ : 0 < δ) (hd : ∀ v, (∀ i, v i ∈ D i) → ∀ a, F v a → δ ≤ |a|) :
    Lip D fun v r => ∃ a, F v a ∧ r = a⁻¹ := by
  obtain ⟨M, L, h1, h2, h3, h4⟩ := hF
  refine ⟨δ⁻¹, L * (δ⁻¹ * δ⁻¹), by positivity, by positivity, ?_, ?_⟩
  · rintro v hv _ ⟨a, ha, rfl⟩
    rw [abs_inv]; exact inv_anti₀ hδ (hd v hv a ha)
  · rintro v v' hv hv' w hw _ _ ⟨a, ha, rfl⟩ ⟨a', ha', rfl⟩
    have d1 := hd v hv a ha
    have d2 := hd v' hv' a' ha'
    have n1 : a ≠ 0 := fun e => by rw [e, abs_zero] at d1; linarith
    have n2 : a' ≠ 0 := fun e => by rw [e, abs_zero] at d2; linarith
    have hl := h4 v v' hv hv' w hw a a' ha ha'
    rw [inv_sub_inv n1 n2, abs_div, abs_sub_comm, abs_mul, div_eq_mul_inv, mul_inv]
    calc |a - a'| * (|a|⁻¹ * |a'|⁻¹) ≤ (L * w) * (δ⁻¹ * δ⁻¹) :=
          mul_le_mul hl (mul_le_mul (inv_anti₀ hδ d1) (inv_anti₀ hδ d2) (by positivity) (by positivity)) (by positivity)
            ((abs_nonneg _).trans hl)
      _ = _ := by ring

theorem Lip.pow (hF : Lip D F) (n : ℕ) : Lip D fun v r => ∃ a, F v a ∧ r = a ^ n := by
  induction n with
  | zero => exact (Lip.const 1).sub fun v _ r ⟨a, _, e⟩ => by simpa using e
  | succ n ih => exact (ih.mul hF).sub fun v _ r ⟨a, ha, e⟩ => ⟨_, _, ⟨a, ha, rfl⟩, ha, by rw [e, pow_succ]⟩

theorem Lip.op (hF : Lip D F) (hG : Lip D G) {o : BinOp} (ho : o ≠ .hull)
    (hd : o = .div → ∃ δ : ℝ, 0 < δ ∧ ∀ v, (∀ i, v i ∈ D i) → ∀ b, G v b → δ ≤ |b|) :
    Lip D fun v r => ∃ a b, F v a ∧ G v b ∧ o.Rel a b r := by
  cases o with
  | add => exact hF.add hG
  | sub => exact hF.diff hG
  | mul => exact hF.mul hG
  | div =>
    obtain ⟨δ, h1, h2⟩ := hd rfl
    exact (hF.mul (hG.inv h1 h2)).sub fun v _ r ⟨a, b, ha, hb, _, e⟩ => ⟨a, _, ha, ⟨b, hb, rfl⟩, by rw [e, div_eq_mul_inv]⟩
  | min => exact hF.min hG
  | max => exact hF.max hG
  | hull => exact absurd rfl ho

theorem Lip.num {T : Type} [Val T] (t : T) : Lip D fun _ a => val t = some ((a : ℝ) : EReal) := by
  by_cases h : ∃ r : ℝ, val t = some (r : EReal)
  · obtain ⟨r, h⟩ := h
    exact (Lip.const r).sub fun _ _ a ha => by rw [h] at ha; exact_mod_cast (Option.some.inj ha).symm
  · exact Lip.none.sub fun _ _ a ha => h ⟨a, ha⟩

end Converge

open Converge

section
variable {T : Type} [Num T] [Val T] [NumLaws T] {V : Env T}

/-- A closed set without zero keeps a distance from zero. -/
theorem Converge.away {S : Set ℝ} (h : IsCompact S) (h0 : (0 : ℝ) ∉ S) : ∃ δ : ℝ, 0 < δ ∧ ∀ a ∈ S, δ ≤ |a| := by
  rcases S.eq_empty_or_nonempty with rfl | hne
  · exact ⟨1, one_pos, fun a ha => ha.elim⟩
  · obtain ⟨a, ha, hm⟩ := h.exists_isMinOn hne continuous_abs.continuousOn
    exact ⟨|a|, abs_pos.2 fun e => h0 (e ▸ ha), fun b hb => hm hb⟩

/-- A formula over a box. -/
theorem Expr.lip (hk : V.kind = .exact) (hE : ExactBase T) (hf : ModeFree T V.lib) (K : PiConst T) (ρ : ℕ → Itv T)
    (hρ : ∀ i, Cpt (γ (ρ i))) (e : Expr T) (hr : e.rational = true) (hc : e.crisp = true) (hn : e.vars.Nodup)
    (hd : ∀ v, (∀ i, v i ∈ γ (ρ i)) → e.Defined v) : Lip (fun i => γ (ρ i)) e.Value := by
  have cpt : ∀ e : Expr T, e.rational = true → e.vars.Nodup → (∀ v, (∀ i, v i ∈ γ (ρ i)) → e.Defined v) →
      (∀ v, (∀ i, v i ∈ γ (ρ i)) → ¬ e.Value v 0) →
      ∃ δ : ℝ, 0 < δ ∧ ∀ v, (∀ i, v i ∈ γ (ρ i)) → ∀ a, e.Value v a → δ ≤ |a| := by
    intro e hr hn hd h0
    rcases (e.range ρ).eq_empty_or_nonempty with h | h
    · refine ⟨1, one_pos, fun v hv a ha => ?_⟩
      have : a ∈ e.range ρ := ⟨v, hv, ha⟩
      rw [h] at this; exact this.elim
    · obtain ⟨z, -, -, hz⟩ := e.eval_rets V hk hE hf K 0 ρ hρ hr hn hd h
      obtain ⟨δ, hδ, h'⟩ := Converge.away hz.1 (fun ⟨v, hv, h⟩ => h0 v hv h)
      exact ⟨δ, hδ, fun v hv a ha => h' a ⟨v, hv, ha⟩⟩
  induction e with
  | var i => exact Lip.var (hρ i).1.isBounded
  | num t => exact Lip.num t
  | un o e ih =>
    simp only [Expr.rational, Bool.and_eq_true, bne_iff_ne, ne_eq] at hr
    have hi := ih hr.2 hc hn fun v hv => (hd v hv).1
    cases o with
    | pos => exact hi.sub fun v _ r ⟨a, ha, e⟩ => by have e : r = a := e; rw [e]; exact ha
    | neg =>
      exact ((Lip.const (0 : ℝ)).diff hi).sub fun v _ r ⟨a, ha, e⟩ => ⟨0, a, rfl, ha, by have e : r = -a := e; rw [e]; ring⟩
    | abs => exact hi.abs
    | square => exact hi.pow 2
    | sqrt => exact absurd rfl hr.1
    | inv =>
      obtain ⟨δ, h1, h2⟩ := cpt e hr.2 hn (fun v hv => (hd v hv).1) fun v hv h => by
        obtain ⟨r, h', -⟩ := (hd v hv).2 0 h
        exact h' rfl
      exact (hi.inv h1 h2).sub fun v _ r ⟨a, ha, _, e⟩ => ⟨a, ha, e⟩
  | pow e k ih =>
    simp only [Expr.rational, Bool.and_eq_true, bne_iff_ne, ne_eq] at hr
    have hi := ih hr.2 hc hn fun v hv => (hd v hv).1
    rcases le_or_gt 0 k with h | h
    · obtain ⟨n, rfl⟩ := Int.eq_ofNat_of_zero_le h
      exact (hi.pow n).sub fun v _ r ⟨a, ha, _, e⟩ => ⟨a, ha, by rw [e, zpow_natCast]⟩
    · obtain ⟨δ, h1, h2⟩ := cpt e hr.2 hn (fun v hv => (hd v hv).1) fun v hv h0 => by
        rcases (hd v hv).2 0 h0 with h' | h'
        · exact h' rfl
        · omega
      obtain ⟨n, hn'⟩ := Int.eq_ofNat_of_zero_le (show 0 ≤ -k by omega)
      obtain rfl : k = -(n : ℤ) := by omega
      exact ((hi.inv h1 h2).pow n).sub fun v _ r ⟨a, ha, _, e⟩ => ⟨_, ⟨a, ha, rfl⟩, by rw [e, zpow_neg, zpow_natCast, inv_pow]⟩
  | bin o e₁ e₂ ih₁ ih₂ =>
    simp only [Expr.rational, Bool.and_eq_true] at hr
    simp only [Expr.crisp, Bool.and_eq_true, bne_iff_ne, ne_eq] at hc
    obtain ⟨n1, n2, n3⟩ := List.nodup_append.1 hn
    have i1 := ih₁ hr.1 hc.1.2 n1 fun v hv => (hd v hv).1
    have i2 := ih₂ hr.2 hc.2 n2 fun v hv => (hd v hv).2.1
    rcases (e₁.range ρ).eq_empty_or_nonempty with h | ⟨a, h⟩
    · refine Lip.none.sub fun v hv r ⟨a, b, ha, _⟩ => ?_
      have : a ∈ e₁.range ρ := ⟨v, hv, ha⟩
      rw [h] at this; exact this
    · refine i1.op i2 hc.1.1 fun ho => cpt e₂ hr.2 n2 (fun v hv => (hd v hv).2.1) fun v hv h0 => ?_
      obtain ⟨v', hv', k1, k2⟩ := Expr.independent (e₁ := e₁) (e₂ := e₂) (fun i h1 h2 => n3 i h1 i h2 rfl) h ⟨v, hv, h0⟩
      obtain ⟨r, hr'⟩ := (hd v' hv').2.2 a 0 k1 k2
      subst ho
      exact hr'.1 rfl
  | binL o t e ih =>
    simp only [Expr.crisp, Bool.and_eq_true, bne_iff_ne, ne_eq] at hc
    have hi := ih hr hc.2 hn fun v hv => (hd v hv).1
    by_cases ht : ∃ r : ℝ, val t = some (r : EReal)
    · obtain ⟨p, hp⟩ := ht
      refine (Lip.num t).op hi hc.1 fun ho => cpt e hr hn (fun v hv => (hd v hv).1) fun v hv h0 => ?_
      obtain ⟨r, hr'⟩ := (hd v hv).2 p 0 hp h0
      subst ho
      exact hr'.1 rfl
    · exact Lip.none.sub fun v _ r ⟨a, _, ha, _⟩ => ht ⟨a, ha⟩
  | binR o e t ih =>
    simp only [Expr.crisp, Bool.and_eq_true, bne_iff_ne, ne_eq] at hc
    have hi := ih hr hc.2 hn fun v hv => (hd v hv).1
    rcases (e.range ρ).eq_empty_or_nonempty with h | ⟨a, v, hv, h⟩
    · refine Lip.none.sub fun v hv r ⟨a, b, ha, _⟩ => ?_
      have : a ∈ e.range ρ := ⟨v, hv, ha⟩
      rw [h] at this; exact this
    · refine hi.op (Lip.num t) hc.1 fun ho => ?_
      by_cases ht : ∃ r : ℝ, val t = some (r : EReal)
      · obtain ⟨p, hp⟩ := ht
        obtain ⟨r, hr'⟩ := (hd v hv).2 a p h hp
        subst ho
        refine ⟨|p|, abs_pos.2 hr'.1, fun _ _ b hb => ?_⟩
        rw [hp] at hb
        have : p = b := by exact_mod_cast Option.some.inj hb
        rw [this]
      · exact ⟨1, one_pos, fun _ _ b hb => absurd ⟨b, hb⟩ ht⟩
  | inter e₁ e₂ ih₁ ih₂ =>
    simp only [Expr.rational, Bool.and_eq_true] at hr
    simp only [Expr.crisp, Bool.and_eq_true] at hc
    obtain ⟨n1, -, -⟩ := List.nodup_append.1 hn
    exact (ih₁ hr.1 hc.1 n1 fun v hv => (hd v hv).1).sub fun v _ r h => h.1
  | fn f e ih => exact absurd hr (by simp [Expr.rational])

theorem Expr.value_rename (σ : ℕ → ℕ) (v : ℕ → ℝ) (e : Expr T) : ∀ {r : ℝ}, (e.rename σ).Value v r ↔ e.Value (fun i => v (σ i)) r := by
  induction e with
  | var i => exact Iff.rfl
  | num c => exact Iff.rfl
  | un o e ih => exact exists_congr fun a => and_congr_left' ih
  | pow e k ih => exact exists_congr fun a => and_congr_left' ih
  | bin o e₁ e₂ ih₁ ih₂ => exact exists_congr fun a => exists_congr fun b => and_congr ih₁ (and_congr_left' ih₂)
  | binL o c e ih => exact exists_congr fun a => exists_congr fun b => and_congr_right' (and_congr_left' ih)
  | binR o e c ih => exact exists_congr fun a => exists_congr fun b => and_congr_left' ih
  | inter e₁ e₂ ih₁ ih₂ => exact and_congr ih₁ ih₂
  | fn f e ih => exact exists_congr fun a => and_congr_left' ih
end
end BI
