import Verif.Proofs.Converge
import Verif.Props.SingleUse
import Verif.Props.Expr
/-!
# C78: narrow operands give narrow results

Dividing a box into smaller boxes is what clients of the library do to get near the range of a formula (the examples
newton-raphson.cpp and horner.cpp, test/det.cpp). With exact arithmetic the result over a box is too large by at most a
multiple of the size of the box.

`e.rename σ` is the formula of the program; in `e` its occurrences of variables have different names, `σ` tells which variable
an occurrence stands for (every formula can be written so: `C71_apart`).
-/

namespace BI
open Set

section
variable {T : Type} [Num T] [Val T] [NumLaws T] (V : Env T)
variable (hk : V.kind = .exact) (hE : ExactBase T) (hm : ModeFree T V.lib) (K : PiConst T) (fuel : ℕ) {X : ℕ → Itv T}
  (hX : ∀ i, (γ (X i)).Nonempty) (hb : ∀ i, Bornology.IsBounded (γ (X i)))
include hk hE hm hX hb

/-- There is one constant for all boxes within the box `X`. If the variables are known up to `w`, any two points of the result
are at most `L * w` apart. -/
theorem C78_lipschitz (e : Expr T) (σ : ℕ → ℕ) (hr : e.rational = true) (hc : e.crisp = true) (hn : e.vars.Nodup)
    (hd : ∀ v, (∀ i, v i ∈ γ (X (σ i))) → e.Defined v) :
    ∃ L : ℝ, 0 ≤ L ∧ ∀ (x : ℕ → Itv T) (w : ℝ), (∀ i, γ (x i) ⊆ γ (X i)) → Narrow x w → ((e.rename σ).range x).Nonempty →
      V.Returns ((e.rename σ).eval K fuel V.P x) fun z =>
        (e.rename σ).range x ⊆ γ z ∧ ∀ r ∈ γ z, ∀ s ∈ γ z, |r - s| ≤ L * w := by
  obtain ⟨M, L, -, hL, -, hl⟩ := e.lip (V := V) hk hE hm K (fun i => X (σ i)) (fun i => cpt_of (hX _) (hb _)) hr hc hn hd
  refine ⟨L, hL, fun x w hx hw hne => ?_⟩
  obtain ⟨s, p, hp, hs⟩ := hne
  have hxn : ∀ i, (γ (x i)).Nonempty := fun i => ⟨_, hp i⟩
  have hxb : ∀ i, Bornology.IsBounded (γ (x i)) := fun i => (hb i).subset (hx i)
  refine (C71_occurrences V hk hE hm K fuel hxn hxb e σ hr hn (fun v hv => hd v fun i => hx _ (hv i))
    ⟨s, _, fun i => hp (σ i), (e.value_rename σ p).1 hs⟩).mono fun z hz => ?_
  rw [hz]
  refine ⟨?_, ?_⟩
  · rintro r ⟨q, hq, h⟩
    exact ⟨_, fun i => hq (σ i), (e.value_rename σ q).1 h⟩
  · rintro a ⟨v, hv, ha⟩ b ⟨v', hv', hb⟩
    exact hl v v' (fun i => hx _ (hv i)) (fun i => hx _ (hv' i)) w (fun i => hw _ _ (hv i) _ (hv' i)) a b ha hb

/-- Over small enough boxes the result is as near to the range of the formula as one likes: no point of the result is farther
than `ε` from any value of the formula over the box. -/
theorem C78_refine (e : Expr T) (σ : ℕ → ℕ) (hr : e.rational = true) (hc : e.crisp = true) (hn : e.vars.Nodup)
    (hd : ∀ v, (∀ i, v i ∈ γ (X (σ i))) → e.Defined v) {ε : ℝ} (hε : 0 < ε) :
    ∃ w : ℝ, 0 < w ∧ ∀ x : ℕ → Itv T, (∀ i, γ (x i) ⊆ γ (X i)) → Narrow x w → ((e.rename σ).range x).Nonempty →
      V.Returns ((e.rename σ).eval K fuel V.P x) fun z =>
        (e.rename σ).range x ⊆ γ z ∧ ∀ r ∈ γ z, ∀ s ∈ (e.rename σ).range x, |r - s| < ε := by
  obtain ⟨L, hL, h⟩ := C78_lipschitz V hk hE hm K fuel hX hb e σ hr hc hn hd
  refine ⟨ε / (L + 1), by positivity, fun x hx hw hne => (h x _ hx hw hne).mono fun z hz => ⟨hz.1, fun r hr s hs => ?_⟩⟩
  refine (hz.2 r hr s (hz.1 hs)).trans_lt ?_
  rw [mul_div_assoc', div_lt_iff₀ (by linarith)]
  nlinarith

/-- Moore's theorem: a set of boxes with the same points as `X`, each known up to `w`. The results together contain the range of
the formula over `X`, and none of their points is farther than `L * w` from it. -/
theorem C78_cover (e : Expr T) (σ : ℕ → ℕ) (hr : e.rational = true) (hc : e.crisp = true) (hn : e.vars.Nodup)
    (hd : ∀ v, (∀ i, v i ∈ γ (X (σ i))) → e.Defined v) :
    ∃ L : ℝ, 0 ≤ L ∧ ∀ (J : Type) (x : J → ℕ → Itv T) (w : ℝ),
      (∀ p : ℕ → ℝ, (∀ i, p i ∈ γ (X i)) ↔ ∃ j, ∀ i, p i ∈ γ (x j i)) → (∀ j, Narrow (x j) w) →
      (∀ j, ((e.rename σ).range (x j)).Nonempty) → ∀ s, V.Valid s → ∃ z : J → Itv T,
        (∀ j, ((e.rename σ).eval K fuel V.P (x j) s).1 = .ok (z j)) ∧ (e.rename σ).range X ⊆ ⋃ j, γ (z j) ∧
        ∀ r ∈ ⋃ j, γ (z j), ∃ q ∈ (e.rename σ).range X, |r - q| ≤ L * w := by
  classical
  obtain ⟨L, hL, h⟩ := C78_lipschitz V hk hE hm K fuel hX hb e σ hr hc hn hd
  refine ⟨L, hL, fun J x w hx hw hne s hs => ?_⟩
  have hsub : ∀ j i, γ (x j i) ⊆ γ (X i) := by
    intro j i a ha
    obtain ⟨_, p, hp, -⟩ := hne j
    have := (hx (Function.update p i a)).2 ⟨j, fun k => by
      by_cases e : k = i
      · subst e; simpa using ha
      · simpa [Function.update_of_ne e] using hp k⟩ i
    simpa using this
  choose z hz1 hz2 hz using fun j => h (x j) w (hsub j) (hw j) (hne j) s hs
  refine ⟨z, hz1, ?_, ?_⟩
  · rintro r ⟨p, hp, hr⟩
    obtain ⟨j, hj⟩ := (hx p).1 hp
    exact mem_iUnion.2 ⟨j, (hz j).1 ⟨p, hj, hr⟩⟩
  · intro r hr
    obtain ⟨j, hj⟩ := mem_iUnion.1 hr
    obtain ⟨q, p, hp, hq⟩ := hne j
    exact ⟨q, ⟨p, fun i => hsub j i (hp i), hq⟩, (hz j).2 r hj q ((hz j).1 ⟨p, hp, hq⟩)⟩

end

/-- `hull` had to be left out: over the single point `0` the formula `hull(x, 1)` has a result of size one. -/
theorem C78_hull (L : ℝ) (fuel : ℕ) : ∃ x : ℕ → Itv ℚ, Narrow x 0 ∧
    ratEnv.Returns ((Expr.binR .hull (.var 0) (1 : ℚ)).eval piGeneric fuel ratEnv.P x) fun z =>
      ∃ r ∈ γ z, ∃ s ∈ γ z, L * 0 < |r - s| := by
  have e0 : ∀ a : ℝ, a ∈ γ (litI 0 0 : Itv ℚ) ↔ a = 0 := fun a => by
    rw [mem_litI (by decide) (by decide)]; push_cast
    exact ⟨fun h => le_antisymm h.2 h.1, fun h => by rw [h]; exact ⟨le_rfl, le_rfl⟩⟩
  refine ⟨fun _ => litI 0 0, fun i a ha b hb => ?_, ?_⟩
  · rw [e0] at ha hb; rw [ha, hb]; simp
  · have h1 : val (1 : ℚ) = some ((1 : ℝ) : EReal) := by
      show some (((1 : ℚ) : ℝ) : EReal) = _
      norm_num
    obtain ⟨z, N, hz, hN, h⟩ := C14_expression_partial ratEnv ratEnv_tight.directed piGeneric (fun _ => litI 0 0)
      (Expr.binR .hull (.var 0) (1 : ℚ)) trivial ⟨fun _ => 0, 0, fun _ => (e0 0).2 rfl, 0, 1, rfl, h1, by simp, by simp⟩
    refine (h fuel (by rw [hN rfl]; exact Nat.zero_le _)).mono ?_
    rintro _ rfl
    refine ⟨0, hz (fun _ => 0) 0 (fun _ => (e0 0).2 rfl) ⟨0, 1, rfl, h1, by simp, by simp⟩,
      1, hz (fun _ => 0) 1 (fun _ => (e0 0).2 rfl) ⟨0, 1, rfl, h1, by simp, by simp⟩, by simp⟩

/-! ## The hypotheses can be met -/

/-- `x * (y - x) / y` -/
private def sampleE : Expr ℚ := .bin .div (.bin .mul (.var 0) (.bin .sub (.var 1) (.var 2))) (.var 3)

private theorem sampleE_defined (v : ℕ → ℝ) (hv : ∀ i, v i ∈ γ (litI 1 2 : Itv ℚ)) : sampleE.Defined v := by
  refine ⟨⟨trivial, ⟨trivial, trivial, fun _ _ _ _ => ⟨_, rfl⟩⟩, fun _ _ _ _ => ⟨_, rfl⟩⟩, trivial, ?_⟩
  rintro a _ - rfl
  have h := hv 3
  rw [mem_litI (by decide) (by decide)] at h
  push_cast at h
  exact ⟨_, by linarith, rfl⟩

example := fun fuel => C78_lipschitz ratEnv rfl rat_exact (rat_modeFree _ fun _ _ _ _ => rfl) piGeneric fuel (X := fun _ => litI 1 2)
  (fun _ => ne_lit) (fun _ => rat_bounded _) sampleE (fun i => i % 2) rfl rfl (by decide) (fun v hv => sampleE_defined v hv)
example := fun fuel => C78_refine ratEnv rfl rat_exact (rat_modeFree _ fun _ _ _ _ => rfl) piGeneric fuel (X := fun _ => litI 1 2)
  (fun _ => ne_lit) (fun _ => rat_bounded _) sampleE (fun i => i % 2) rfl rfl (by decide) (fun v hv => sampleE_defined v hv)
  (ε := 1 / 1000) (by norm_num)
example := fun fuel => C78_cover ratEnv rfl rat_exact (rat_modeFree _ fun _ _ _ _ => rfl) piGeneric fuel (X := fun _ => litI 1 2)
  (fun _ => ne_lit) (fun _ => rat_bounded _) sampleE (fun i => i % 2) rfl rfl (by decide) (fun v hv => sampleE_defined v hv)

end BI
