import Verif.Proofs.Empty
/-! # utility.hpp on valid and on empty intervals -/

set_option linter.unusedSectionVars false

namespace BI
open Set

/-! ## Sets between bounds -/

theorem RI_inter (a b c d : EReal) : RI (max a c) (min b d) = RI a b ∩ RI c d := by
  ext r; simp only [RI, mem_ofPred_eq, mem_inter_iff, max_le_iff, le_min_iff]; tauto

theorem RI_max {a b c d : EReal} (ha : a ≠ ⊤) (hb : b ≠ ⊥) (hab : a ≤ b) (hc : c ≠ ⊤) (hd : d ≠ ⊥) (hcd : c ≤ d) :
    RI (max a c) (max b d) = image2 max (RI a b) (RI c d) := by
  ext r
  constructor
  · rintro ⟨h1, h2⟩
    rw [max_le_iff] at h1
    rcases le_max_iff.1 h2 with h | h
    · obtain ⟨p, hp1, hp2⟩ := exists_mem_RI (a := c) (b := min d r) hc
        (by rcases min_choice d (r : EReal) with h | h <;> rw [h]; exacts [hd, EReal.coe_ne_bot _]) (le_min hcd h1.2)
      rw [le_min_iff] at hp2
      exact ⟨r, ⟨h1.1, h⟩, p, ⟨hp1, hp2.1⟩, max_eq_left (by exact_mod_cast hp2.2)⟩
    · obtain ⟨p, hp1, hp2⟩ := exists_mem_RI (a := a) (b := min b r) ha
        (by rcases min_choice b (r : EReal) with h | h <;> rw [h]; exacts [hb, EReal.coe_ne_bot _]) (le_min hab h1.1)
      rw [le_min_iff] at hp2
      exact ⟨p, ⟨hp1, hp2.1⟩, r, ⟨h1.2, h⟩, max_eq_right (by exact_mod_cast hp2.2)⟩
  · rintro ⟨p, hp, q, hq, rfl⟩
    have e : ((max p q : ℝ) : EReal) = max (p : EReal) q := EReal.coe_strictMono.monotone.map_max
    exact ⟨by rw [e]; exact max_le_max hp.1 hq.1, by rw [e]; exact max_le_max hp.2 hq.2⟩

theorem RI_min {a b c d : EReal} (ha : a ≠ ⊤) (hb : b ≠ ⊥) (hab : a ≤ b) (hc : c ≠ ⊤) (hd : d ≠ ⊥) (hcd : c ≤ d) :
    RI (min a c) (min b d) = image2 min (RI a b) (RI c d) := by
  ext r
  constructor
  · rintro ⟨h1, h2⟩
    rw [le_min_iff] at h2
    rcases min_le_iff.1 h1 with h | h
    · obtain ⟨p, hp1, hp2⟩ := exists_mem_RI (a := max c r) (b := d)
        (by rcases max_choice c (r : EReal) with h | h <;> rw [h]; exacts [hc, EReal.coe_ne_top _]) hd
        (max_le hcd h2.2)
      rw [max_le_iff] at hp1
      exact ⟨r, ⟨h, h2.1⟩, p, ⟨hp1.1, hp2⟩, min_eq_left (by exact_mod_cast hp1.2)⟩
    · obtain ⟨p, hp1, hp2⟩ := exists_mem_RI (a := max a r) (b := b)
        (by rcases max_choice a (r : EReal) with h | h <;> rw [h]; exacts [ha, EReal.coe_ne_top _]) hb
        (max_le hab h2.1)
      rw [max_le_iff] at hp1
      exact ⟨p, ⟨hp1.1, hp2⟩, r, ⟨h, h2.2⟩, min_eq_right (by exact_mod_cast hp1.2)⟩
  · rintro ⟨p, hp, q, hq, rfl⟩
    have e : ((min p q : ℝ) : EReal) = min (p : EReal) q := EReal.coe_strictMono.monotone.map_min
    exact ⟨by rw [e]; exact min_le_min hp.1 hq.1, by rw [e]; exact min_le_min hp.2 hq.2⟩

theorem RI_abs_pos {a b : EReal} (ha : 0 ≤ a) : RI a b = (fun r => |r|) '' RI a b := by
  have key : ∀ r ∈ RI a b, |r| = r := fun r hr => abs_of_nonneg (by exact_mod_cast ha.trans hr.1)
  ext r; constructor
  · intro h; exact ⟨r, h, key r h⟩
  · rintro ⟨s, hs, rfl⟩; change |s| ∈ RI a b; rw [key s hs]; exact hs

theorem RI_abs_neg {a b : EReal} (hb : b ≤ 0) : RI (-b) (-a) = (fun r => |r|) '' RI a b := by
  rw [RI_neg]
  refine image_congr fun r hr => (abs_of_nonpos ?_).symm
  exact_mod_cast hr.2.trans hb

theorem RI_abs_mix {a b : EReal} (ha : a ≤ 0) (hb : 0 ≤ b) : RI 0 (max (-a) b) = (fun r => |r|) '' RI a b := by
  ext r
  constructor
  · rintro ⟨h1, h2⟩
    have h0 : 0 ≤ r := by exact_mod_cast h1
    rcases le_max_iff.1 h2 with h | h
    · refine ⟨-r, ⟨?_, ?_⟩, by simp [abs_of_nonneg h0]⟩
      · rw [EReal.coe_neg]; exact EReal.le_neg_of_le_neg h
      · exact le_trans (by exact_mod_cast neg_nonpos.2 h0) hb
    · exact ⟨r, ⟨ha.trans h1, h⟩, abs_of_nonneg h0⟩
  · rintro ⟨s, ⟨h1, h2⟩, rfl⟩
    refine ⟨by exact_mod_cast abs_nonneg s, ?_⟩
    change ((|s| : ℝ) : EReal) ≤ _
    rcases abs_choice s with h | h
    · rw [show |s| = s from h]; exact h2.trans (le_max_right _ _)
    · rw [show |s| = -s from h, EReal.coe_neg]
      exact (EReal.neg_le_neg_iff.2 h1).trans (le_max_left _ _)

section
variable {T : Type} [Num T] [Val T] [NumLaws T] {C : Checking T} {x y : Itv T} {a b c d : EReal}

theorem neg_ok (hn : ∀ a : T, Num.neg a ≠ none) {t : T} {e : EReal} (ht : val t = some e) :
    ∃ n, Num.neg t = some n ∧ val n = some (-e) := by
  obtain ⟨n, h⟩ := Option.ne_none_iff_exists'.1 (hn t)
  exact ⟨n, h, by rw [NumLaws.neg t n h, ht]; rfl⟩

theorem neg_ne_top {e : EReal} (h : e ≠ ⊥) : -e ≠ ⊤ := by simpa using h
theorem neg_ne_bot {e : EReal} (h : e ≠ ⊤) : -e ≠ ⊥ := by simpa using h

theorem max_ne_top {p q : EReal} (h : p ≠ ⊤) (h' : q ≠ ⊤) : max p q ≠ ⊤ := by
  rcases max_choice p q with e | e <;> rw [e] <;> assumption
theorem max_ne_bot {p q : EReal} (h : q ≠ ⊥) : max p q ≠ ⊥ := fun e => h (le_bot_iff.1 (e ▸ le_max_right p q))
theorem max_ne_bot' {p q : EReal} (h : p ≠ ⊥) : max p q ≠ ⊥ := fun e => h (le_bot_iff.1 (e ▸ le_max_left p q))
theorem min_ne_top {p q : EReal} (h : p ≠ ⊤) : min p q ≠ ⊤ := fun e => h (top_le_iff.1 (e ▸ min_le_left p q))
theorem min_ne_bot {p q : EReal} (h : p ≠ ⊥) (h' : q ≠ ⊥) : min p q ≠ ⊥ := by
  rcases min_choice p q with e | e <;> rw [e] <;> assumption

/-! ## Functions on valid intervals -/

theorem negI_has (hn : ∀ a : T, Num.neg a ≠ none) (hC : ChkLaws C) (hx : Has x a b) :
    ∃ z, negI C x = .ok z ∧ Has z (-b) (-a) := by
  obtain ⟨l, hl, vl⟩ := neg_ok hn hx.up
  obtain ⟨u, hu, vu⟩ := neg_ok hn hx.lo
  refine ⟨⟨l, u⟩, ?_, ⟨vl, vu, neg_ne_top hx.ne_bot, neg_ne_bot hx.ne_top, EReal.neg_le_neg_iff.2 hx.le⟩⟩
  unfold negI
  rw [res_if_false' (hx.test hC), hl, hu]; rfl

theorem absI_has (hn : ∀ a : T, Num.neg a ≠ none) (hC : ChkLaws C) (hx : Has x a b) :
    ∃ z l u, absI C x = .ok z ∧ Has z l u ∧ RI l u = (fun r => |r|) '' RI a b := by
  unfold absI
  rw [res_if_false' (hx.test hC), isNeg_eq hx.lo, isPos_eq hx.up]
  by_cases h1 : a < 0
  · simp only [h1, decide_true, Bool.not_true, Bool.false_eq_true, if_false]
    by_cases h2 : 0 < b
    · simp only [h2, decide_true, Bool.not_true, Bool.false_eq_true, if_false]
      obtain ⟨n, hn, vn⟩ := neg_ok hn hx.lo
      rw [hn]
      refine ⟨⟨Num.lit 0, stdMax n x.upper⟩, 0, max (-a) b, rfl, ⟨val_zero, val_stdMax vn hx.up, by simp,
        max_ne_bot hx.ne_bot, h2.le.trans (le_max_right _ _)⟩, RI_abs_mix h1.le h2.le⟩
    · simp only [h2, decide_false, Bool.not_false, if_true]
      obtain ⟨z, hz, hz'⟩ := negI_has hn hC hx
      exact ⟨z, _, _, hz, hz', RI_abs_neg (not_lt.1 h2)⟩
  · simp only [h1, decide_false, Bool.not_false, if_true]
    exact ⟨x, a, b, rfl, hx, RI_abs_pos (not_lt.1 h1)⟩

theorem norm_has (hn : ∀ a : T, Num.neg a ≠ none) (hC : ChkLaws C) (hx : Has x a b) :
    ∃ w, norm C x = .ok w ∧ val w = some (max (-a) b) := by
  obtain ⟨n, hn, vn⟩ := neg_ok hn hx.lo
  refine ⟨stdMax n x.upper, ?_, val_stdMax vn hx.up⟩
  unfold norm
  rw [res_if_false' (hx.test hC), hn]; rfl

theorem max_has (hx : Has x a b) (hy : Has y c d) :
    Has (⟨stdMax x.lower y.lower, stdMax x.upper y.upper⟩ : Itv T) (max a c) (max b d) :=
  ⟨val_stdMax hx.lo hy.lo, val_stdMax hx.up hy.up, max_ne_top hx.ne_top hy.ne_top, max_ne_bot hy.ne_bot,
    max_le_max hx.le hy.le⟩

theorem min_has (hx : Has x a b) (hy : Has y c d) :
    Has (⟨stdMin x.lower y.lower, stdMin x.upper y.upper⟩ : Itv T) (min a c) (min b d) :=
  ⟨val_stdMin hx.lo hy.lo, val_stdMin hx.up hy.up, min_ne_top hx.ne_top, min_ne_bot hx.ne_bot hy.ne_bot,
    min_le_min hx.le hy.le⟩

theorem hull_has (hx : Has x a b) (hy : Has y c d) :
    Has (⟨stdMin x.lower y.lower, stdMax x.upper y.upper⟩ : Itv T) (min a c) (max b d) :=
  ⟨val_stdMin hx.lo hy.lo, val_stdMax hx.up hy.up, min_ne_top hx.ne_top, max_ne_bot hy.ne_bot,
    (min_le_left _ _).trans (hx.le.trans (le_max_left _ _))⟩

theorem max_gamma (hx : Has x a b) (hy : Has y c d) :
    γ (⟨stdMax x.lower y.lower, stdMax x.upper y.upper⟩ : Itv T) = image2 max (γ x) (γ y) := by
  rw [(max_has hx hy).gamma, hx.gamma, hy.gamma,
    RI_max hx.ne_top hx.ne_bot hx.le hy.ne_top hy.ne_bot hy.le]

theorem min_gamma (hx : Has x a b) (hy : Has y c d) :
    γ (⟨stdMin x.lower y.lower, stdMin x.upper y.upper⟩ : Itv T) = image2 min (γ x) (γ y) := by
  rw [(min_has hx hy).gamma, hx.gamma, hy.gamma,
    RI_min hx.ne_top hx.ne_bot hx.le hy.ne_top hy.ne_bot hy.le]

theorem Has.of_gamma_subset {z : Itv T} (hx : Has x a b) (h : γ x ⊆ γ z) : ∃ l u, Has z l u ∧ l ≤ a ∧ b ≤ u := by
  obtain ⟨r, hr⟩ := hx.nonempty
  obtain ⟨l, u, hz⟩ := has_of_mem (h hr)
  exact ⟨l, u, hz, hx.subset hz h⟩

theorem hull_gamma (hx : Has x a b) (hy : Has y c d) :
    (γ x ∪ γ y ⊆ γ (⟨stdMin x.lower y.lower, stdMax x.upper y.upper⟩ : Itv T)) ∧
    ∀ z' : Itv T, γ x ∪ γ y ⊆ γ z' → γ (⟨stdMin x.lower y.lower, stdMax x.upper y.upper⟩ : Itv T) ⊆ γ z' := by
  rw [(hull_has hx hy).gamma]
  constructor
  · rintro r (hr | hr)
    · exact ⟨(min_le_left _ _).trans (hx.lb hr), (hx.ub hr).trans (le_max_left _ _)⟩
    · exact ⟨(min_le_right _ _).trans (hy.lb hr), (hy.ub hr).trans (le_max_right _ _)⟩
  · intro z' h
    obtain ⟨l, u, hz, h1, h2⟩ := hx.of_gamma_subset (subset_union_left.trans h)
    obtain ⟨l', u', hz', h1', h2'⟩ := hy.of_gamma_subset (subset_union_right.trans h)
    obtain ⟨rfl, rfl⟩ := hz.unique hz'
    rw [hz.gamma]
    rintro r ⟨k1, k2⟩
    exact ⟨(le_min h1 h1').trans k1, k2.trans (max_le h2 h2')⟩

/-! ## Emptiness -/

theorem Env.Proper.cases {V : Env T} (h : V.Proper x) :
    (∃ a b, Has x a b ∧ testI V.C x = .ok false ∧ (γ x).Nonempty) ∨ (γ x = ∅ ∧ testI V.C x = .ok true) := by
  rcases h with h | ⟨h, h'⟩
  · obtain ⟨a, b, hx⟩ := has_of_nonempty h
    exact .inl ⟨a, b, hx, hx.test V.chk, h⟩
  · exact .inr ⟨h.gamma, h.test V h'⟩

theorem isEmptyI_eq : isEmptyI C x = testI C x := rfl

/-! ## Set relations -/

theorem Has.subset_iff (hx : Has x a b) (hy : Has y c d) : γ x ⊆ γ y ↔ c ≤ a ∧ b ≤ d := by
  refine ⟨hx.subset hy, fun h => ?_⟩
  rw [hx.gamma, hy.gamma]
  rintro r ⟨h1, h2⟩
  exact ⟨h.1.trans h1, h2.trans h.2⟩

theorem Has.eq_iff (hx : Has x a b) (hy : Has y c d) : γ x = γ y ↔ a = c ∧ b = d := by
  rw [Subset.antisymm_iff, hx.subset_iff hy, hy.subset_iff hx]
  constructor
  · rintro ⟨⟨h1, h2⟩, h3, h4⟩; exact ⟨le_antisymm h3 h1, le_antisymm h2 h4⟩
  · rintro ⟨rfl, rfl⟩; exact ⟨⟨le_rfl, le_rfl⟩, le_rfl, le_rfl⟩

theorem Has.inter_iff (hx : Has x a b) (hy : Has y c d) : (γ x ∩ γ y).Nonempty ↔ max a c ≤ min b d := by
  rw [hx.gamma, hy.gamma, ← RI_inter]
  constructor
  · rintro ⟨r, hr⟩; exact RI.le hr
  · intro h; exact exists_mem_RI (max_ne_top hx.ne_top hy.ne_top) (min_ne_bot hx.ne_bot hy.ne_bot) h

theorem Has.single_iff (hx : Has x a b) : (∃ r, γ x = {r}) ↔ a = b := by
  constructor
  · rintro ⟨r, hr⟩
    have h1 : IsGLB (E (γ x)) a := isGLB_of (fun r hr => hx.lb hr) hx.lower_cl
    have h2 : IsLUB (E (γ x)) b := isLUB_of (fun r hr => hx.ub hr) hx.upper_cl
    have e : E ({r} : Set ℝ) = {(r : EReal)} := by unfold E; exact image_singleton
    rw [hr, e] at h1 h2
    rw [h1.unique isGLB_singleton, h2.unique isLUB_singleton]
  · rintro rfl
    have hb : a ≠ ⊥ := hx.ne_bot
    lift a to ℝ using ⟨hx.ne_top, hb⟩
    exact ⟨a, by rw [hx.gamma_Icc]; exact Icc_self a⟩

theorem res_if_true' {α : Type} {r : Res Bool} (h : r = .ok true) (p q : Res α) :
    (do if ← r then p else q) = p := by subst h; rfl

end
end BI
