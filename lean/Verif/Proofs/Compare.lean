import Verif.Spec.Compare
import Verif.Proofs.Bridge
import Verif.Proofs.Empty
/-! # Comparisons of bounds decide comparisons of sets -/

set_option linter.unusedSectionVars false

namespace BI
open Set

variable {T : Type} [Num T] [Val T] [NumLaws T] {x y : Itv T} {a b c d : EReal}

theorem holds_dual (r : Rel) (p q : ℝ) : r.dual.holds p q ↔ ¬ r.holds p q := by
  cases r <;> simp [Rel.dual, Rel.holds]

theorem sometimes_iff (r : Rel) (X Y : Set ℝ) : Sometimes r X Y ↔ ¬ Always r.dual X Y := by
  unfold Sometimes Always
  push Not
  simp only [holds_dual, not_not]

theorem dual_dual (r : Rel) : r.dual.dual = r := by cases r <;> rfl

theorem always_iff_not (r : Rel) (X Y : Set ℝ) : Always r X Y ↔ ¬ Sometimes r.dual X Y := by
  rw [sometimes_iff, not_not, dual_dual]

theorem always_le (hx : Has x a b) (hy : Has y c d) : (∀ p ∈ γ x, ∀ q ∈ γ y, p ≤ q) ↔ b ≤ c := by
  have h1 : IsLUB (E (γ x)) b := isLUB_of (fun r hr => hx.ub hr) hx.upper_cl
  have h2 : IsGLB (E (γ y)) c := isGLB_of (fun r hr => hy.lb hr) hy.lower_cl
  constructor
  · intro h
    refine h1.2 ?_
    rintro _ ⟨p, hp, rfl⟩
    refine h2.2 ?_
    rintro _ ⟨q, hq, rfl⟩
    exact_mod_cast h p hp q hq
  · intro h p hp q hq
    have := (hx.ub hp).trans (h.trans (hy.lb hq))
    exact_mod_cast this

theorem always_lt (hx : Has x a b) (hy : Has y c d) : (∀ p ∈ γ x, ∀ q ∈ γ y, p < q) ↔ b < c := by
  constructor
  · intro h
    have hle := (always_le hx hy).1 fun p hp q hq => (h p hp q hq).le
    refine lt_of_le_of_ne hle fun e => ?_
    have hb : b ≠ ⊤ := fun hb => hy.ne_top (e ▸ hb)
    have hbx : ∀ r : ℝ, b = r → r ∈ γ x ∧ r ∈ γ y := fun r hr => by
      rw [hx.gamma, hy.gamma]
      exact ⟨⟨hr ▸ hx.le, hr.symm.le⟩, ⟨(e ▸ hr).le, hr ▸ e ▸ hy.le⟩⟩
    obtain ⟨r, hr⟩ : ∃ r : ℝ, b = r := ⟨b.toReal, (EReal.coe_toReal hb hx.ne_bot).symm⟩
    exact absurd (h r (hbx r hr).1 r (hbx r hr).2) (lt_irrefl _)
  · intro h p hp q hq
    have := (hx.ub hp).trans_lt (h.trans_le (hy.lb hq))
    exact_mod_cast this

theorem always_eq (hx : Has x a b) (hy : Has y c d) : (∀ p ∈ γ x, ∀ q ∈ γ y, p = q) ↔ b = c ∧ a = d := by
  constructor
  · intro h
    have h1 := (always_le hx hy).1 fun p hp q hq => (h p hp q hq).le
    have h2 := (always_le hy hx).1 fun q hq p hp => (h p hp q hq).ge
    exact ⟨le_antisymm h1 ((hy.le.trans h2).trans hx.le), le_antisymm ((hx.le.trans h1).trans hy.le) h2⟩
  · rintro ⟨h1, h2⟩ p hp q hq
    exact le_antisymm ((always_le hx hy).2 h1.le p hp q hq) ((always_le hy hx).2 h2.ge q hq p hp)

theorem always_ne (hx : Has x a b) (hy : Has y c d) : (∀ p ∈ γ x, ∀ q ∈ γ y, p ≠ q) ↔ b < c ∨ d < a := by
  constructor
  · intro h
    by_contra hn
    push Not at hn
    obtain ⟨h1, h2⟩ := hn
    have hz : Has (⟨stdMax x.lower y.lower, stdMin x.upper y.upper⟩ : Itv T) (max a c) (min b d) :=
      ⟨val_stdMax hx.lo hy.lo, val_stdMin hx.up hy.up, by
        rcases max_choice a c with e | e <;> rw [e]
        exacts [hx.ne_top, hy.ne_top], by
        rcases min_choice b d with e | e <;> rw [e]
        exacts [hx.ne_bot, hy.ne_bot], max_le (le_min hx.le h2) (le_min h1 hy.le)⟩
    obtain ⟨r, hr⟩ := hz.nonempty
    rw [hz.gamma] at hr
    obtain ⟨k1, k2⟩ := hr
    exact h r (by rw [hx.gamma]; exact ⟨(le_max_left _ _).trans k1, k2.trans (min_le_left _ _)⟩)
      r (by rw [hy.gamma]; exact ⟨(le_max_right _ _).trans k1, k2.trans (min_le_right _ _)⟩) rfl
  · rintro (h | h) p hp q hq
    · exact ((always_lt hx hy).2 h p hp q hq).ne
    · exact ((always_lt hy hx).2 h q hq p hp).ne'

/-- Bounds that decide the relation for all pairs. -/
def allBounds (a b c d : EReal) : Rel → Prop
  | .lt => b < c
  | .le => b ≤ c
  | .gt => d < a
  | .ge => d ≤ a
  | .eq => b = c ∧ a = d
  | .ne => b < c ∨ d < a

theorem always_iff (r : Rel) (hx : Has x a b) (hy : Has y c d) : Always r (γ x) (γ y) ↔ allBounds a b c d r := by
  unfold Always
  cases r with
  | lt => exact always_lt hx hy
  | le => exact always_le hx hy
  | gt => rw [show allBounds a b c d .gt = (d < a) from rfl, ← always_lt hy hx]; exact ⟨fun h q hq p hp => h p hp q hq, fun h p hp q hq => h q hq p hp⟩
  | ge => rw [show allBounds a b c d .ge = (d ≤ a) from rfl, ← always_le hy hx]; exact ⟨fun h q hq p hp => h p hp q hq, fun h p hp q hq => h q hq p hp⟩
  | eq => exact always_eq hx hy
  | ne => exact always_ne hx hy

theorem sometimes_bounds (r : Rel) (hx : Has x a b) (hy : Has y c d) :
    Sometimes r (γ x) (γ y) ↔ ¬ allBounds a b c d r.dual := by
  rw [sometimes_iff, always_iff r.dual hx hy]

theorem lt_nan_left {s t : T} (h : val s = none) : Num.lt s t = false := by
  rw [Bool.eq_false_iff]; intro hc
  obtain ⟨a, b, h1, -⟩ := (NumLaws.lt_iff _ _).1 hc
  rw [h] at h1; cases h1
theorem lt_nan_right {s t : T} (h : val t = none) : Num.lt s t = false := by
  rw [Bool.eq_false_iff]; intro hc
  obtain ⟨a, b, -, h1, -⟩ := (NumLaws.lt_iff _ _).1 hc
  rw [h] at h1; cases h1
theorem le_nan_left {s t : T} (h : val s = none) : Num.le s t = false := by
  rw [Bool.eq_false_iff]; intro hc
  obtain ⟨a, b, h1, -⟩ := (NumLaws.le_iff _ _).1 hc
  rw [h] at h1; cases h1
theorem le_nan_right {s t : T} (h : val t = none) : Num.le s t = false := by
  rw [Bool.eq_false_iff]; intro hc
  obtain ⟨a, b, -, h1, -⟩ := (NumLaws.le_iff _ _).1 hc
  rw [h] at h1; cases h1
theorem eq_nan_right {s t : T} (h : val t = none) : Num.eq s t = false := by
  rw [Bool.eq_false_iff]; intro hc
  obtain ⟨a, -, h1⟩ := (NumLaws.eq_iff _ _).1 hc
  rw [h] at h1; cases h1

end BI
