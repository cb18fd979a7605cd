import Verif.Proofs.EnclUtil
import Verif.Proofs.Median
/-!
# C02 (negation), C22-C29, C49, C51: the functions of utility.hpp

`hn : ∀ a, Num.neg a ≠ none`: negation does not overflow (floating point, rationals). `V.Proper x`: `x` is non-empty, or
empty and the checking policy of the configuration `V` represents empty intervals. Functions that do not round are
stated without reference to a machine state. The two-policy overloads (`proper_subset`, `overlap`, `equal`) take two
configurations.
-/

namespace BI
open Set

variable {T : Type} [Num T] [Val T] [NumLaws T] (V V' : Env T) {x y : Itv T} {t s : T} {r : ℝ}

/-! ## C02, C28: negation, absolute value, norm -/

theorem C02_neg (hn : ∀ a : T, Num.neg a ≠ none) (hx : (γ x).Nonempty) :
    ∃ z, negI V.C x = .ok z ∧ γ z = {q | ∃ a ∈ γ x, q = -a} := by
  obtain ⟨a, b, ix⟩ := has_of_nonempty hx
  obtain ⟨z, hz, iz⟩ := negI_has hn V.chk ix
  refine ⟨z, hz, ?_⟩
  rw [iz.gamma, RI_neg, ← ix.gamma]
  ext q; exact ⟨fun ⟨a, h, e⟩ => ⟨a, h, e.symm⟩, fun ⟨a, h, e⟩ => ⟨a, h, e.symm⟩⟩

theorem C28_abs (hn : ∀ a : T, Num.neg a ≠ none) (hx : (γ x).Nonempty) :
    ∃ z, absI V.C x = .ok z ∧ γ z = {q | ∃ a ∈ γ x, |a| = q} := by
  obtain ⟨a, b, ix⟩ := has_of_nonempty hx
  obtain ⟨z, l, u, hz, iz, e⟩ := absI_has hn V.chk ix
  exact ⟨z, hz, by rw [iz.gamma, e, ← ix.gamma]; rfl⟩

/-- The norm is the least upper bound of the absolute values; for bounded intervals it is their maximum. -/
theorem C28_norm (hn : ∀ a : T, Num.neg a ≠ none) (hx : (γ x).Nonempty) :
    ∃ w e, norm V.C x = .ok w ∧ val w = some e ∧ IsLUB {q : EReal | ∃ a ∈ γ x, ((|a| : ℝ) : EReal) = q} e ∧
      (Bornology.IsBounded (γ x) → ∃ a ∈ γ x, ((|a| : ℝ) : EReal) = e) := by
  obtain ⟨a, b, ix⟩ := has_of_nonempty hx
  obtain ⟨w, hw, vw⟩ := norm_has hn V.chk ix
  have hub : ∀ r ∈ γ x, ((|r| : ℝ) : EReal) ≤ max (-a) b := by
    intro r hr
    rcases abs_choice r with h | h
    · rw [h]; exact (ix.ub hr).trans (le_max_right _ _)
    · rw [h, EReal.coe_neg]; exact (EReal.neg_le_neg_iff.2 (ix.lb hr)).trans (le_max_left _ _)
  have h1 : IsGLB (E (γ x)) a := isGLB_of (fun r hr => ix.lb hr) ix.lower_cl
  have h2 : IsLUB (E (γ x)) b := isLUB_of (fun r hr => ix.ub hr) ix.upper_cl
  have hl : IsLUB {q : EReal | ∃ a ∈ γ x, ((|a| : ℝ) : EReal) = q} (max (-a) b) := by
    refine ⟨by rintro _ ⟨r, hr, rfl⟩; exact hub r hr, fun e he => max_le ?_ (h2.2 ?_)⟩
    · rw [EReal.neg_le]
      refine h1.2 ?_
      rintro _ ⟨r, hr, rfl⟩
      rw [EReal.neg_le, ← EReal.coe_neg]
      exact le_trans (EReal.coe_le_coe_iff.2 (neg_le_abs r)) (he ⟨r, hr, rfl⟩)
    · rintro _ ⟨r, hr, rfl⟩
      exact le_trans (EReal.coe_le_coe_iff.2 (le_abs_self r)) (he ⟨r, hr, rfl⟩)
  refine ⟨w, _, hw, vw, hl, fun hb => ?_⟩
  obtain ⟨p, q, rfl, rfl, hpq⟩ := ix.of_bounded hb
  rw [ix.gamma_Icc] at *
  rcases max_choice (-(p : EReal)) q with h | h
  · refine ⟨p, left_mem_Icc.2 hpq, le_antisymm (hub p (left_mem_Icc.2 hpq)) ?_⟩
    rw [h, ← EReal.coe_neg]; exact EReal.coe_le_coe_iff.2 (neg_le_abs p)
  · refine ⟨q, right_mem_Icc.2 hpq, le_antisymm (hub q (right_mem_Icc.2 hpq)) ?_⟩
    rw [h]; exact EReal.coe_le_coe_iff.2 (le_abs_self q)

/-! ## C29: minimum and maximum -/

theorem C29_max (hx : (γ x).Nonempty) (hy : (γ y).Nonempty) :
    ∃ z, maxII V.C x y = .ok z ∧ γ z = {q | ∃ a ∈ γ x, ∃ b ∈ γ y, max a b = q} := by
  obtain ⟨_, _, ix⟩ := has_of_nonempty hx
  obtain ⟨_, _, iy⟩ := has_of_nonempty hy
  refine ⟨_, ?_, max_gamma ix iy⟩
  unfold maxII; exact res_if_false' (ix.test2 V.chk iy) _ _

theorem C29_min (hx : (γ x).Nonempty) (hy : (γ y).Nonempty) :
    ∃ z, minII V.C x y = .ok z ∧ γ z = {q | ∃ a ∈ γ x, ∃ b ∈ γ y, min a b = q} := by
  obtain ⟨_, _, ix⟩ := has_of_nonempty hx
  obtain ⟨_, _, iy⟩ := has_of_nonempty hy
  refine ⟨_, ?_, min_gamma ix iy⟩
  unfold minII; exact res_if_false' (ix.test2 V.chk iy) _ _

theorem C29_max_num (hx : (γ x).Nonempty) (ht : val t = some (r : EReal)) :
    (∃ z, maxIT V.C x t = .ok z ∧ γ z = {q | ∃ a ∈ γ x, max a r = q}) ∧
    (∃ z, maxTI V.C t x = .ok z ∧ γ z = {q | ∃ a ∈ γ x, max r a = q}) := by
  obtain ⟨_, _, ix⟩ := has_of_nonempty hx
  refine ⟨⟨⟨stdMax x.lower t, stdMax x.upper t⟩, ?_, ?_⟩, ⟨⟨stdMax t x.lower, stdMax t x.upper⟩, ?_, ?_⟩⟩
  · unfold maxIT; exact res_if_false' (testIT_ok V.chk ht ix) _ _
  · have := max_gamma ix (has_single ht)
    rw [gamma_single ht, image2_singleton_right] at this; exact this
  · unfold maxTI; exact res_if_false' (testTI_ok V.chk ht ix) _ _
  · have := max_gamma (has_single ht) ix
    rw [gamma_single ht, image2_singleton_left] at this; exact this

theorem C29_min_num (hx : (γ x).Nonempty) (ht : val t = some (r : EReal)) :
    (∃ z, minIT V.C x t = .ok z ∧ γ z = {q | ∃ a ∈ γ x, min a r = q}) ∧
    (∃ z, minTI V.C t x = .ok z ∧ γ z = {q | ∃ a ∈ γ x, min r a = q}) := by
  obtain ⟨_, _, ix⟩ := has_of_nonempty hx
  refine ⟨⟨⟨stdMin x.lower t, stdMin x.upper t⟩, ?_, ?_⟩, ⟨⟨stdMin t x.lower, stdMin t x.upper⟩, ?_, ?_⟩⟩
  · unfold minIT; exact res_if_false' (testIT_ok V.chk ht ix) _ _
  · have := min_gamma ix (has_single ht)
    rw [gamma_single ht, image2_singleton_right] at this; exact this
  · unfold minTI; exact res_if_false' (testTI_ok V.chk ht ix) _ _
  · have := min_gamma (has_single ht) ix
    rw [gamma_single ht, image2_singleton_left] at this; exact this

/-! ## C22: predicates -/

open scoped Classical in
theorem C22_empty (hx : V.Proper x) : isEmptyI V.C x = .ok (decide (γ x = ∅)) := by
  rcases hx.cases with ⟨a, b, ix, h, hne⟩ | ⟨he, h⟩
  · rw [isEmptyI_eq, h]; simp [hne.ne_empty]
  · rw [isEmptyI_eq, h]; simp [he]

open scoped Classical in
theorem C22_zero_in (hx : V.Proper x) : zeroIn V.C x = .ok (decide ((0 : ℝ) ∈ γ x)) := by
  rcases hx.cases with ⟨a, b, ix, h, hne⟩ | ⟨he, h⟩
  · rw [zeroIn_eq V.chk ix]; congr 1; rw [decide_eq_decide, mem_zero_iff ix]
  · unfold zeroIn; rw [res_if_true' h, he]; simp; rfl

open scoped Classical in
theorem C22_in (hx : V.Proper x) (ht : val t = some (r : EReal)) : inI V.C t x = .ok (decide (r ∈ γ x)) := by
  unfold inI
  rcases hx.cases with ⟨a, b, ix, h, hne⟩ | ⟨he, h⟩
  · rw [res_if_false' (testTI_ok V.chk ht ix), le_eq ix.lo ht, le_eq ht ix.up, ix.gamma]
    change Except.ok _ = _
    congr 1; rw [Bool.eq_iff_iff, Bool.and_eq_true, decide_eq_true_eq, decide_eq_true_eq, decide_eq_true_eq]; rfl
  · have : testTI V.C t x = .ok true := by
      unfold testI at h; unfold testTI; rw [V.chk.isNan t _ ht, h]; rfl
    rw [res_if_true' this, he]; simp; rfl

private theorem isNan_blind {c : ChkSpec} (h1 : c.seesNan = false) (h2 : c.catchesNan = false) (nd : Bool) (t : T) :
    (c.eval T nd).isNan t = .ok false := by
  induction c with
  | base => cases h1
  | noEmpty c ih => exact ih h1 h2
  | noNan c ih => rfl
  | catchNan c ih =>
    have h := Bool.or_eq_false_iff.1 h2
    change ((c.eval T nd).isNan t >>= fun b => _) = _
    rw [ih h.1 h.2]
    rfl

/-- NaN is a member of no interval. (Policies that throw on NaN do so: `C11_catch_left`.) -/
theorem C22_in_nan (hN : V.checks.catchesNan = false) (hx : V.Proper x) (ht : val t = none) : inI V.C t x = .ok false := by
  unfold inI
  cases h : V.checks.seesNan with
  | true => exact res_if_true' (testTI_nan V h ht) _ _
  | false =>
    have e : testTI V.C t x = testI V.C x := by
      unfold testTI testI; rw [show V.C.isNan t = .ok false from isNan_blind h hN _ t]; rfl
    have hl : Num.le x.lower t = false := by
      rw [Bool.eq_false_iff]
      intro k
      obtain ⟨a, b, -, hb, -⟩ := (NumLaws.le_iff x.lower t).1 k
      rw [ht] at hb; cases hb
    rcases hx.cases with ⟨a, b, ix, h', -⟩ | ⟨-, h'⟩
    · rw [res_if_false' (e.trans h'), hl]; rfl
    · exact res_if_true' (e.trans h') _ _

open scoped Classical in
theorem C22_subset (hx : V.Proper x) (hy : V.Proper y) : subset V.C x y = .ok (decide (γ x ⊆ γ y)) := by
  unfold subset
  rcases hx.cases with ⟨a, b, ix, h, hne⟩ | ⟨he, h⟩
  · rw [res_if_false' (by exact h)]
    rcases hy.cases with ⟨c, d, iy, h', hne'⟩ | ⟨he', h'⟩
    · rw [res_if_false' (by exact h'), le_eq iy.lo ix.lo, le_eq ix.up iy.up]
      change Except.ok _ = _
      congr 1; rw [Bool.eq_iff_iff]; simp [ix.subset_iff iy]
    · rw [res_if_true' (by exact h'), he']; simp [hne.ne_empty]; rfl
  · rw [res_if_true' (by exact h), he]; simp; rfl

open scoped Classical in
theorem C22_proper_subset (hx : V.Proper x) (hy : V'.Proper y) :
    properSubset V.C V'.C x y = .ok (decide (γ x ⊂ γ y)) := by
  unfold properSubset
  rcases hy.cases with ⟨c, d, iy, h', hne'⟩ | ⟨he', h'⟩
  · rw [res_if_false' (by exact h')]
    rcases hx.cases with ⟨a, b, ix, h, hne⟩ | ⟨he, h⟩
    · rw [res_if_false' (by exact h), le_eq iy.lo ix.lo, le_eq ix.up iy.up, eq_eq iy.lo ix.lo, eq_eq ix.up iy.up]
      change Except.ok _ = _
      congr 1; rw [Bool.eq_iff_iff]
      simp only [Bool.and_eq_true, decide_eq_true_eq, Bool.or_eq_true, Bool.not_eq_true', decide_eq_false_iff_not]
      rw [ssubset_iff_subset_ne, ix.subset_iff iy, Ne, ix.eq_iff iy, not_and_or]
      tauto
    · rw [res_if_true' (by exact h), he]; simp [ssubset_iff_subset_ne, hne'.ne_empty.symm]; rfl
  · rw [res_if_true' (by exact h'), he', decide_eq_false (fun h => (h.2 (empty_subset _)).elim)]; rfl

open scoped Classical in
theorem C22_overlap (hx : V.Proper x) (hy : V'.Proper y) :
    overlap V.C V'.C x y = .ok (decide (γ x ∩ γ y).Nonempty) := by
  unfold overlap
  rcases hx.cases with ⟨a, b, ix, h, hne⟩ | ⟨he, h⟩
  · rcases hy.cases with ⟨c, d, iy, h', hne'⟩ | ⟨he', h'⟩
    · have : testII V.C V'.C x y = .ok false := by
        unfold testI at h h'; unfold testII; rw [h, h']; rfl
      rw [res_if_false' this, le_eq ix.lo iy.lo, le_eq iy.lo ix.up, le_eq iy.lo ix.lo, le_eq ix.lo iy.up]
      change Except.ok _ = _
      congr 1; rw [Bool.eq_iff_iff]
      simp only [Bool.and_eq_true, decide_eq_true_eq, Bool.or_eq_true]
      rw [ix.inter_iff iy, max_le_iff, le_min_iff, le_min_iff]
      have h1 := ix.le; have h2 := iy.le
      constructor
      · rintro (⟨h3, h4⟩ | ⟨h3, h4⟩)
        · exact ⟨⟨h1, h3.trans h2⟩, h4, h2⟩
        · exact ⟨⟨h1, h4⟩, h3.trans h1, h2⟩
      · rintro ⟨⟨-, h4⟩, h5, -⟩
        rcases le_total a c with h | h
        · exact .inl ⟨h, h5⟩
        · exact .inr ⟨h, h4⟩
    · have : testII V.C V'.C x y = .ok true := by
        unfold testI at h h'; unfold testII; rw [h, h']; rfl
      rw [res_if_true' this, he']; simp; rfl
  · have : testII V.C V'.C x y = .ok true := by
      unfold testI at h; unfold testII; rw [h]; rfl
    rw [res_if_true' this, he]; simp; rfl

open scoped Classical in
theorem C22_singleton (hx : V.Proper x) : singleton V.C x = .ok (decide (∃ r, γ x = {r})) := by
  unfold BI.singleton
  rcases hx.cases with ⟨a, b, ix, h, hne⟩ | ⟨he, h⟩
  · rw [res_if_false' (by exact h), eq_eq ix.lo ix.up]
    change Except.ok _ = _
    congr 1; rw [decide_eq_decide, ix.single_iff]
  · rw [res_if_true' (by exact h), he]; simp [(singleton_ne_empty _).symm]; rfl

open scoped Classical in
theorem C22_equal (hx : V.Proper x) (hy : V'.Proper y) : equal V.C V'.C x y = .ok (decide (γ x = γ y)) := by
  unfold equal
  rcases hx.cases with ⟨a, b, ix, h, hne⟩ | ⟨he, h⟩
  · rw [res_if_false' (by exact h)]
    rcases hy.cases with ⟨c, d, iy, h', hne'⟩ | ⟨he', h'⟩
    · rw [res_if_false' (by exact h'), eq_eq ix.lo iy.lo, eq_eq ix.up iy.up]
      change Except.ok _ = _
      congr 1; rw [Bool.eq_iff_iff]; simp [ix.eq_iff iy]
    · rw [res_if_true' (by exact h'), he']; simp [hne.ne_empty]; rfl
  · rw [res_if_true' (by exact h), he]
    rcases hy.cases with ⟨c, d, iy, h', hne'⟩ | ⟨he', h'⟩
    · rw [isEmptyI_eq, h']; simp [hne'.ne_empty.symm]
    · rw [isEmptyI_eq, h']; simp [he']

/-! ## C23: intersection -/

theorem C23_intersect (h : (γ x ∩ γ y).Nonempty) :
    ∃ z, intersect V.C x y = .ok z ∧ γ z = γ x ∩ γ y := by
  obtain ⟨a, b, ix⟩ := has_of_nonempty h.left
  obtain ⟨c, d, iy⟩ := has_of_nonempty h.right
  have hl := val_stdMax ix.lo iy.lo
  have hu := val_stdMin ix.up iy.up
  have hle := (ix.inter_iff iy).1 h
  refine ⟨⟨stdMax x.lower y.lower, stdMin x.upper y.upper⟩, ?_, ?_⟩
  · unfold intersect
    rw [res_if_false' (ix.test2 V.chk iy)]
    simp only [le_eq hl hu, hle, decide_true, if_true]
    rfl
  · have : Has (⟨stdMax x.lower y.lower, stdMin x.upper y.upper⟩ : Itv T) (max a c) (min b d) :=
      ⟨hl, hu, max_ne_top ix.ne_top iy.ne_top, min_ne_bot ix.ne_bot iy.ne_bot, hle⟩
    rw [this.gamma, RI_inter, ix.gamma, iy.gamma]

/-- Disjoint operands: the empty interval, or the exception of a policy without empty intervals. -/
theorem C23_disjoint (hx : V.Proper x) (hy : V.Proper y) (h : γ x ∩ γ y = ∅) :
    (V.checks.forbidsEmpty = false ∧ ∃ z, intersect V.C x y = .ok z ∧ Void z) ∨
    (V.checks.forbidsEmpty = true ∧ intersect V.C x y = .error .emptyCreated) := by
  have key : intersect V.C x y = emptyI V.C := by
    unfold intersect
    rcases hx.cases with ⟨a, b, ix, h1, hne⟩ | ⟨he, h1⟩
    · rcases hy.cases with ⟨c, d, iy, h2, hne'⟩ | ⟨he', h2⟩
      · rw [res_if_false' (ix.test2 V.chk iy)]
        have hl := val_stdMax ix.lo iy.lo
        have hu := val_stdMin ix.up iy.up
        have : ¬ max a c ≤ min b d := fun hle => by
          have := (ix.inter_iff iy).2 hle; rw [h] at this; exact not_nonempty_empty this
        simp only [le_eq hl hu, this, decide_false]
        rfl
      · have : testII V.C V.C x y = .ok true := by
          unfold testI at h1 h2; unfold testII; rw [h1, h2]; rfl
        rw [res_if_true' this]
    · have : testII V.C V.C x y = .ok true := by
        unfold testI at h1; unfold testII; rw [h1]; rfl
      rw [res_if_true' this]
  rw [key]
  rcases emptyI_spec (T := T) V.checks V.ndebug with ⟨h1, h2⟩ | ⟨h1, z, h2, h3⟩
  · exact .inr ⟨h1, h2⟩
  · exact .inl ⟨h1, z, h2, h3⟩

/-! ## C24: hull -/

/-- `z` contains `S` and is contained in every interval that does. -/
def LeastEnclosing (z : Itv T) (S : Set ℝ) : Prop := S ⊆ γ z ∧ ∀ z' : Itv T, S ⊆ γ z' → γ z ⊆ γ z'

/-- Both operands non-empty, one empty, or both empty (then the union is empty, too). -/
theorem C24_hull (hx : V.Proper x) (hy : V.Proper y) (hne : (γ x ∪ γ y).Nonempty) :
    ∃ z, hullII V.C x y = .ok z ∧ LeastEnclosing z (γ x ∪ γ y) := by
  unfold hullII
  rcases hx.cases with ⟨a, b, ix, h, -⟩ | ⟨he, h⟩
  · rcases hy.cases with ⟨c, d, iy, h', -⟩ | ⟨he', h'⟩
    · rw [h, h']
      exact ⟨_, rfl, hull_gamma ix iy⟩
    · rw [h, h']
      refine ⟨x, rfl, ?_⟩
      rw [he', union_empty]; exact ⟨subset_rfl, fun _ h => h⟩
  · rcases hy.cases with ⟨c, d, iy, h', -⟩ | ⟨he', h'⟩
    · rw [h, h']
      refine ⟨y, rfl, ?_⟩
      rw [he, empty_union]; exact ⟨subset_rfl, fun _ h => h⟩
    · rw [he, he', union_empty] at hne
      exact absurd hne not_nonempty_empty

theorem C24_hull_num (hx : V.Proper x) (ht : val t = some (r : EReal)) :
    (∃ z, hullIT V.C x t = .ok z ∧ LeastEnclosing z (γ x ∪ {r})) ∧
    (∃ z, hullTI V.C t x = .ok z ∧ LeastEnclosing z ({r} ∪ γ x)) := by
  have hT : testT V.C t = .ok false := V.chk.isNan t _ ht
  unfold hullIT hullTI
  rcases hx.cases with ⟨a, b, ix, h, -⟩ | ⟨he, h⟩
  · rw [h, hT]
    have h1 := hull_gamma ix (has_single ht)
    have h2 := hull_gamma (has_single ht) ix
    rw [gamma_single ht] at h1 h2
    exact ⟨⟨_, rfl, h1⟩, ⟨_, rfl, h2⟩⟩
  · rw [h, hT]
    have : LeastEnclosing (⟨t, t⟩ : Itv T) {r} := by
      have e := gamma_single (T := T) ht
      exact ⟨e.ge, fun _ h => e.le.trans h⟩
    rw [he, empty_union, union_empty]
    exact ⟨⟨_, rfl, this⟩, ⟨_, rfl, this⟩⟩

theorem C24_hull_two {q : ℝ} (hs : val s = some (q : EReal)) (ht : val t = some (r : EReal)) :
    ∃ z, hullTT V.C s t = .ok z ∧ LeastEnclosing z {q, r} := by
  unfold hullTT
  rw [V.chk.isNan t _ ht, V.chk.isNan s _ hs]
  have key : ∀ {s t : T} {q r : ℝ}, val s = some (q : EReal) → val t = some (r : EReal) → q ≤ r →
      LeastEnclosing (⟨s, t⟩ : Itv T) {q, r} := by
    intro s t q r hs ht h
    have i : Has (⟨s, t⟩ : Itv T) q r := ⟨hs, ht, EReal.coe_ne_top _, EReal.coe_ne_bot _, by exact_mod_cast h⟩
    constructor
    · rw [i.gamma_Icc]
      rintro p (rfl | rfl)
      · exact left_mem_Icc.2 h
      · exact right_mem_Icc.2 h
    · intro z hz
      obtain ⟨l, u, iz⟩ := has_of_mem (hz (mem_insert q _))
      rw [i.gamma_Icc, iz.gamma]
      rintro p ⟨h1, h2⟩
      exact ⟨(iz.lb (hz (mem_insert q _))).trans (by exact_mod_cast h1),
        le_trans (by exact_mod_cast h2) (iz.ub (hz (mem_insert_of_mem q rfl)))⟩
  by_cases h : q ≤ r
  · refine ⟨⟨s, t⟩, ?_, key hs ht h⟩
    change (if Num.le s t = true then _ else _) = _
    rw [le_eq hs ht]; simp [h]; rfl
  · refine ⟨⟨t, s⟩, ?_, ?_⟩
    · change (if Num.le s t = true then _ else _) = _
      rw [le_eq hs ht]; simp [h]; rfl
    · rw [pair_comm]; exact key ht hs (not_le.1 h).le

/-- NaN arguments are ignored by policies that test for NaN. Missing from the full claim: the other policies, for which it is
false (`C24_violated`); those that throw on NaN do so (`C11_catch_left`). -/
theorem C24_hull_nan_partial (hN : V.checks.seesNan = true) (hx : (γ x).Nonempty) (hs : val s = none)
    (ht : val t = some (r : EReal)) :
    hullIT V.C x s = .ok x ∧ hullTI V.C s x = .ok x ∧ hullTT V.C s t = .ok ⟨t, t⟩ ∧ hullTT V.C t s = .ok ⟨t, t⟩ := by
  obtain ⟨a, b, ix⟩ := has_of_nonempty hx
  have h1 := ix.test V.chk
  have h2 : testT V.C s = .ok true := isNan_true V hN hs
  have h3 := V.chk.isNan t _ ht
  unfold hullIT hullTI hullTT
  rw [h1, h2, isNan_true V hN hs, h3]
  exact ⟨rfl, rfl, rfl, rfl⟩

/-- The default policy does not test for NaN: `hull(NaN, [1, 2])` is `[NaN, NaN]` and `hull(1, NaN)` is `[NaN, 1]`, which do not
contain the other argument, while `hull([1, 2], NaN)` is `[1, 2]`. -/
theorem C24_violated :
    hullTI dbl.C .nan (litI 1 2) = .ok ⟨.nan, .nan⟩ ∧ hullTT dbl.C (Num.lit 1) .nan = .ok ⟨.nan, Num.lit 1⟩ ∧
    hullIT dbl.C (litI 1 2) .nan = .ok (litI 1 2) ∧ γ (⟨.nan, .nan⟩ : Itv (Fl Fmt.double)) = ∅ ∧
    γ (⟨.nan, Num.lit 1⟩ : Itv (Fl Fmt.double)) = ∅ ∧ (1 : ℝ) ∈ γ (litI 1 2 : Itv (Fl Fmt.double)) := by
  refine ⟨by decide +kernel, by decide +kernel, by decide +kernel, ?_, ?_, in_lit⟩ <;>
  · rw [Set.eq_empty_iff_forall_notMem]
    rintro r ⟨l, u, hl, -⟩
    cases hl

/-! ## C25, C26: median, bisect, width -/

/-- Floating point: the median is a point of `x` unless the sum of the bounds overflows. -/
theorem C26_median_fl {f : Fmt} (V : Env (Fl f)) (hk : V.kind ≠ .exact) {x : Itv (Fl f)} (hx : (γ x).Nonempty)
    {a b : ℝ} (ha : val x.lower = some (a : EReal)) (hb : val x.upper = some (b : EReal))
    (hs : |a + b| ≤ (maxFin f : ℝ)) :
    V.Returns (median V.P x) fun m => ∃ r ∈ γ x, val m = some (r : EReal) := by
  obtain ⟨_, _, ix⟩ := has_of_nonempty hx
  obtain ⟨c, z, h1, h2, h3, h4⟩ := fl_mid .near ha hb (by
    have := ix.le; have e := ix.lo; rw [ha] at e; cases e; have e := ix.up; rw [hb] at e; cases e
    exact_mod_cast this) hs
  refine V.run (V.fl_tight hk) (fun _ h => median_sim h x) ?_
  unfold median
  rw [pure_chk, res_if_false (ix.test V.chk), pure_scope, pure_rnd]
  have : V.B.median x.lower x.upper = .ok c := by
    unfold Env.B
    cases hk' : V.kind with
    | exact => exact absurd hk' hk
    | std => change ofOpt (halfSum .near x.lower x.upper) = _; rw [h1]; rfl
    | opp => change ofOpt (halfSum .near x.lower x.upper) = _; rw [h1]; rfl
  rw [this]
  exact ⟨z, ⟨_, _, ha, hb, by exact_mod_cast h3, by exact_mod_cast h4⟩, h2⟩

/-- Rational numbers: the median is always a point of `x`. -/
theorem C26_median_rat (V : Env ℚ) (hk : V.kind = .exact) (hl : ∀ f (x : ℚ) a b, V.lib f a x = V.lib f b x)
    {x : Itv ℚ} (hx : (γ x).Nonempty) :
    V.Returns (median V.P x) fun m => ∃ r ∈ γ x, val m = some (r : EReal) := by
  obtain ⟨_, _, ix⟩ := has_of_nonempty hx
  have hle : x.lower ≤ x.upper := by
    have := ix.le; have e := ix.lo; cases e; have e := ix.up; cases e
    exact_mod_cast this
  obtain ⟨c, z, h1, h2, h3, h4⟩ := rat_mid .near _ _ hle
  refine V.run (V.rat_ok hk hl LeB GeB) (fun _ h => median_sim h x) ?_
  unfold median
  rw [pure_chk, res_if_false (ix.test V.chk), pure_scope, pure_rnd]
  have : V.B.median x.lower x.upper = .ok c := by
    unfold Env.B
    rw [hk]
    change ofOpt (halfSum .near x.lower x.upper) = _; rw [h1]; rfl
  rw [this]
  exact ⟨z, ⟨_, _, rfl, rfl, by exact_mod_cast h3, by exact_mod_cast h4⟩, h2⟩

theorem gamma_split {x : Itv T} {m : T} (hr : r ∈ γ x) (hm : val m = some (r : EReal)) :
    γ (⟨x.lower, m⟩ : Itv T) ∪ γ (⟨m, x.upper⟩ : Itv T) = γ x ∧ γ (⟨x.lower, m⟩ : Itv T) ∩ γ (⟨m, x.upper⟩ : Itv T) = {r} := by
  obtain ⟨l, u, h1, h2, h3, h4⟩ := hr
  have g1 : γ (⟨x.lower, m⟩ : Itv T) = RI l r := by
    ext q; constructor
    · rintro ⟨a, b, k1, k2, k3, k4⟩
      change val x.lower = _ at k1; change val m = _ at k2
      rw [h1] at k1; rw [hm] at k2; cases k1; cases k2; exact ⟨k3, k4⟩
    · rintro ⟨k3, k4⟩; exact ⟨_, _, h1, hm, k3, k4⟩
  have g2 : γ (⟨m, x.upper⟩ : Itv T) = RI r u := by
    ext q; constructor
    · rintro ⟨a, b, k1, k2, k3, k4⟩
      change val m = _ at k1; change val x.upper = _ at k2
      rw [hm] at k1; rw [h2] at k2; cases k1; cases k2; exact ⟨k3, k4⟩
    · rintro ⟨k3, k4⟩; exact ⟨_, _, hm, h2, k3, k4⟩
  have g3 : γ x = RI l u := by
    ext q; constructor
    · rintro ⟨a, b, k1, k2, k3, k4⟩
      rw [h1] at k1; rw [h2] at k2; cases k1; cases k2; exact ⟨k3, k4⟩
    · rintro ⟨k3, k4⟩; exact ⟨_, _, h1, h2, k3, k4⟩
  rw [g1, g2, g3]
  constructor
  · ext q; constructor
    · rintro (⟨k1, k2⟩ | ⟨k1, k2⟩)
      · exact ⟨k1, k2.trans h4⟩
      · exact ⟨h3.trans k1, k2⟩
    · rintro ⟨k1, k2⟩
      rcases le_total (q : EReal) r with h | h
      · exact .inl ⟨k1, h⟩
      · exact .inr ⟨h, k2⟩
  · ext q; constructor
    · rintro ⟨⟨k1, k2⟩, k3, k4⟩
      have : (q : EReal) = r := le_antisymm k2 k3
      exact_mod_cast this
    · rintro rfl; exact ⟨⟨h3, le_rfl⟩, le_rfl, h4⟩

/-- What `bisect` promises: two halves that make up `x`, with one point in common. -/
def Halves (x : Itv T) (p : Itv T × Itv T) : Prop :=
  γ p.1 ∪ γ p.2 = γ x ∧ (∃ r, γ p.1 ∩ γ p.2 = {r}) ∧ p.1.lower = x.lower ∧ p.1.upper = p.2.lower ∧ p.2.upper = x.upper

/-- Whenever the median is inside, bisection is right. -/
theorem C25_of_median (hx : (γ x).Nonempty)
    (h : V.Returns (median V.P x) fun m => ∃ r ∈ γ x, val m = some (r : EReal)) :
    V.Returns (bisect V.P x) (Halves x) := by
  obtain ⟨_, _, ix⟩ := has_of_nonempty hx
  have ht : testI V.P.chk x = .ok false := by rw [V.P_chk]; exact ix.test V.chk
  unfold bisect
  rw [m_if_false ht]
  refine h.bind fun m hm => Env.Returns.pure ?_
  obtain ⟨r, hr, hm⟩ := hm
  obtain ⟨g1, g2⟩ := gamma_split hr hm
  exact ⟨g1, ⟨r, g2⟩, rfl, rfl, rfl⟩

/-- What is missing: bounds whose sum overflows, see `C25_overflow`. -/
theorem C25_bisect_fl_partial {f : Fmt} (V : Env (Fl f)) (hk : V.kind ≠ .exact) {x : Itv (Fl f)} (hx : (γ x).Nonempty)
    {a b : ℝ} (ha : val x.lower = some (a : EReal)) (hb : val x.upper = some (b : EReal))
    (hs : |a + b| ≤ (maxFin f : ℝ)) : V.Returns (bisect V.P x) (Halves x) :=
  C25_of_median V hx (C26_median_fl V hk hx ha hb hs)

theorem C25_bisect_rat (V : Env ℚ) (hk : V.kind = .exact) (hl : ∀ f (x : ℚ) a b, V.lib f a x = V.lib f b x)
    {x : Itv ℚ} (hx : (γ x).Nonempty) : V.Returns (bisect V.P x) (Halves x) :=
  C25_of_median V hx (C26_median_rat V hk hl hx)

/-- `interval<double>`: the median of `[MAX, MAX]` is infinite, and both halves are wrong (the second one is even empty,
with the policy that promises non-empty intervals). -/
theorem C25_overflow :
    let x : Itv (Fl Fmt.double) := ⟨Fl.max _ false, Fl.max _ false⟩
    (γ x).Nonempty ∧ dbl.Returns (median dbl.P x) (fun m => val m = some ⊤) ∧
    dbl.Returns (bisect dbl.P x) (fun p => γ p.2 = ∅ ∧ Void p.2 ∧ ¬ γ p.1 ⊆ γ x) := by
  intro x
  have hv : val (Fl.max Fmt.double false) = some (((maxFin Fmt.double : ℚ) : ℝ) : EReal) := rfl
  have ix : Has x ((maxFin Fmt.double : ℚ) : ℝ) ((maxFin Fmt.double : ℚ) : ℝ) :=
    ⟨hv, hv, EReal.coe_ne_top _, EReal.coe_ne_bot _, le_rfl⟩
  have hm : median dbl.pp x = .ok (.inf false) := by
    unfold median
    rw [pure_chk, res_if_false (ix.test dbl.chk), pure_scope, pure_rnd]
    have : (halfSum .near x.lower x.upper) = some (.inf false) := by
      have h : (Fl.max Fmt.double false).add .near (Fl.max Fmt.double false) = .inf false := by decide +kernel
      change (some ((Fl.max Fmt.double false).add .near (Fl.max Fmt.double false))).bind
        (fun s => some (s.div .near (Fl.ofInt .near 2))) = _
      rw [h]
      have h2 : (Fl.inf false : Fl Fmt.double).div .near (Fl.ofInt .near 2) = .inf false := by decide +kernel
      rw [Option.bind_some, h2]
    change ofOpt (halfSum .near x.lower x.upper) = _
    rw [this]; rfl
  refine ⟨ix.nonempty, dbl.run dbl_tight (fun _ h => median_sim h x) (by rw [hm]; rfl), ?_⟩
  refine dbl.run dbl_tight (fun _ h => bisect_sim h x) ?_
  unfold bisect
  rw [pure_chk, res_if_false (ix.test dbl.chk)]
  change Post True (median dbl.pp x >>= fun mid => Except.ok ((⟨x.lower, mid⟩ : Itv _), (⟨mid, x.upper⟩ : Itv _))) _
  rw [hm]
  have hvoid : Void (⟨.inf false, x.upper⟩ : Itv (Fl Fmt.double)) := by
    intro l u h1 h2; cases h1; cases h2; exact EReal.coe_lt_top _
  refine ⟨hvoid.gamma, hvoid, fun h => ?_⟩
  have h1 : ((maxFin Fmt.double : ℚ) : ℝ) + 1 ∈ γ (⟨x.lower, .inf false⟩ : Itv (Fl Fmt.double)) :=
    ⟨_, _, hv, rfl, by exact_mod_cast (le_add_of_nonneg_right zero_le_one), le_top⟩
  have := h h1
  rw [ix.gamma_Icc] at this
  linarith [this.2]

/-- The width bounds the distance of any two points. -/
theorem C26_width (hV : V.Directed) (hx : (γ x).Nonempty) :
    V.Returns (width V.P x) fun w => ∃ e, val w = some e ∧ ∀ a ∈ γ x, ∀ b ∈ γ x, ((b - a : ℝ) : EReal) ≤ e := by
  obtain ⟨a, b, ix⟩ := has_of_nonempty hx
  refine V.run hV (fun _ h => width_sim h x) ?_
  unfold width
  rw [pure_chk, res_if_false (ix.test V.chk), pure_scope, pure_rnd]
  refine ((hV.dir du_weak).subUp _ _ _ _ ix.up ix.lo ⟨.inr ix.ne_top, .inl ix.ne_bot⟩).mono fun w hw => ?_
  obtain ⟨e, h1, h2⟩ := hw
  refine ⟨e, h1, fun p hp q hq => le_trans ?_ h2⟩
  rw [EReal.coe_sub]
  exact EReal.sub_le_sub (ix.ub hq) (ix.lb hp)

/-- With correct rounding it is the smallest such number. -/
theorem C26_width_tight (hV : V.Tight) {a b : ℝ} (hx : (γ x).Nonempty) (ha : val x.lower = some (a : EReal))
    (hb : val x.upper = some (b : EReal)) :
    V.Returns (width V.P x) fun w => ∃ e, val w = some e ∧ IsRoundUp T e ((b - a : ℝ) : EReal) := by
  obtain ⟨_, _, ix⟩ := has_of_nonempty hx
  refine V.run hV (fun _ h => width_sim h x) ?_
  unfold width
  rw [pure_chk, res_if_false (ix.test V.chk), pure_scope, pure_rnd]
  refine ((hV.dir du_tight).subUp _ _ _ _ hb ha ⟨.inl (EReal.coe_ne_top _), .inl (EReal.coe_ne_bot _)⟩).mono fun w hw => ?_
  rw [EReal.coe_sub]; exact hw

/-- An empty interval has width zero and no median. -/
theorem C26_empty (hE : V.checks.forbidsEmpty = false) (h : Void x) :
    V.Returns (width V.P x) (fun w => val w = some 0) ∧
    (Num.hasNaN T = true → V.Returns (median V.P x) fun m => val m = none) := by
  have ht : testI V.P.chk x = .ok true := by rw [V.P_chk]; exact h.test V hE
  unfold width median
  rw [m_if_true ht, m_if_true ht]
  refine ⟨fun s _ => ⟨_, rfl, rfl, val_zero⟩, fun hN s _ => ?_⟩
  have : ∀ c : ChkSpec, c.forbidsEmpty = false → ∃ m, (c.eval T V.ndebug).nan = .ok m ∧ val m = none := by
    intro c
    induction c with
    | base => 
      intro _
      refine ⟨Num.nan, ?_, NumLaws.nan hN⟩
      change (do assertRes V.ndebug (Num.hasNaN T); pure Num.nan : Res T) = _
      rw [hN]; rfl
    | noEmpty c ih => intro h; cases h
    | noNan c ih => exact ih
    | catchNan c ih => exact ih
  obtain ⟨m, h1, h2⟩ := this V.checks hE
  refine ⟨m, ?_, rfl, h2⟩
  change (V.P.chk).nan = _
  rw [V.P_chk]; exact h1

/-! ## C27: widen -/

theorem C27_widen (hV : V.Directed) (hx : (γ x).Nonempty) (ht : val t = some (r : EReal)) (h0 : 0 ≤ r) :
    V.Returns (widen V.P x t) fun z => {q | ∃ a ∈ γ x, |q - a| ≤ r} ⊆ γ z := by
  obtain ⟨a, b, ix⟩ := has_of_nonempty hx
  refine V.run hV (fun _ h => widen_sim h x t) ?_
  unfold widen mk2
  rw [pure_chk, res_if_false (ix.test V.chk), pure_scope, pure_rnd]
  have h1 := (hV.dir du_weak).subDown _ _ _ _ ix.lo ht ⟨.inr (EReal.coe_ne_top _), .inr (EReal.coe_ne_bot _)⟩
  have h2 := (hV.dir du_weak).addUp _ _ _ _ ix.up ht ⟨.inr (EReal.coe_ne_bot _), .inr (EReal.coe_ne_top _)⟩
  refine (h1.pair h2).bind fun p hp => ?_
  obtain ⟨⟨l, hl, hl'⟩, u, hu, hu'⟩ := hp
  rintro q ⟨s, hs, hq⟩
  rw [abs_le] at hq
  refine ⟨l, u, hl, hu, hl'.trans ?_, le_trans ?_ hu'⟩
  · refine (EReal.sub_le_sub (ix.lb hs) le_rfl).trans ?_
    rw [← EReal.coe_sub]; exact EReal.coe_le_coe_iff.2 (by linarith)
  · refine le_trans ?_ (add_le_add (ix.ub hs) le_rfl)
    rw [← EReal.coe_add]; exact EReal.coe_le_coe_iff.2 (by linarith)

/-- A negative radius may invert the bounds, without any exception, even with the default policies: `widen([1,2], -1)`
is `[2, 1]`. -/
theorem C27_negative : dbl.Returns (widen dbl.P (litI 1 2) (Num.lit (-1))) Void := by
  have ix : Has (litI 1 2 : Itv (Fl Fmt.double)) (1 : ℝ) (2 : ℝ) := by
    refine ⟨?_, ?_, EReal.coe_ne_top _, EReal.coe_ne_bot _, EReal.coe_le_coe_iff.2 (by norm_num)⟩
    · have := NumLaws.lit (T := Fl Fmt.double) 1 (by norm_num); push_cast at this; exact_mod_cast this
    · have := NumLaws.lit (T := Fl Fmt.double) 2 (by norm_num); push_cast at this; exact_mod_cast this
  refine dbl.run dbl_tight (fun _ h => widen_sim h _ _) ?_
  unfold widen mk2
  rw [pure_chk, res_if_false (ix.test dbl.chk), pure_scope, pure_rnd]
  change Post True (pair (negRes (some (((Fl.ofInt .near (-1) : Fl Fmt.double)).sub .up (Fl.ofInt .near 1))))
    (ofOpt (some (((Fl.ofInt .near 2 : Fl Fmt.double)).add .up (Fl.ofInt .near (-1))))) >>= _) _
  have e1 : ((Fl.ofInt .near (-1) : Fl Fmt.double)).sub .up (Fl.ofInt .near 1) = Fl.ofInt .near (-2) := by
    decide +kernel
  have e2 : ((Fl.ofInt .near 2 : Fl Fmt.double)).add .up (Fl.ofInt .near (-1)) = Fl.ofInt .near 1 := by
    decide +kernel
  have e3 : (Fl.ofInt .near (-2) : Fl Fmt.double).neg = Fl.ofInt .near 2 := by decide +kernel
  rw [e1, e2]
  change Void (⟨(Fl.ofInt .near (-2) : Fl Fmt.double).neg, Fl.ofInt .near 1⟩ : Itv (Fl Fmt.double))
  rw [e3]
  intro l u h1 h2
  change val (Num.lit 2 : Fl Fmt.double) = _ at h1
  change val (Num.lit 1 : Fl Fmt.double) = _ at h2
  rw [NumLaws.lit _ (by norm_num)] at h1 h2
  cases h1; cases h2
  exact EReal.coe_lt_coe_iff.2 (by norm_num)

/-! ## C49, C51 -/

/-- Unary plus changes nothing. -/
theorem C49_plus (x : Itv T) : (plusI x).lower = x.lower ∧ (plusI x).upper = x.upper := ⟨rfl, rfl⟩

theorem C49_neg_neg (hn : ∀ a : T, Num.neg a ≠ none) (hx : (γ x).Nonempty) :
    ∃ z w, negI V.C x = .ok z ∧ negI V.C z = .ok w ∧ γ w = γ x := by
  obtain ⟨a, b, ix⟩ := has_of_nonempty hx
  obtain ⟨z, hz, iz⟩ := negI_has hn V.chk ix
  obtain ⟨w, hw, iw⟩ := negI_has hn V.chk iz
  refine ⟨z, w, hz, hw, ?_⟩
  rw [iw.gamma, ix.gamma, neg_neg, neg_neg]

/-- `x - y` and `x + (-y)` denote the same set. -/
theorem C49_sub_neg (hV : V.Tight) (hn : ∀ a : T, Num.neg a ≠ none) (hx : (γ x).Nonempty) (hy : (γ y).Nonempty) :
    ∃ y', negI V.C y = .ok y' ∧
      V.Returns (subII V.P x y) fun z => V.Returns (addII V.P x y') fun z' => γ z = γ z' := by
  obtain ⟨y', hz, e⟩ := C02_neg V hn hy
  obtain ⟨_, _, ix⟩ := has_of_nonempty hx
  obtain ⟨_, _, iy⟩ := has_of_nonempty hy
  have hy' : (γ y').Nonempty := by obtain ⟨b, hb⟩ := hy; rw [e]; exact ⟨-b, b, hb, rfl⟩
  obtain ⟨_, _, iy'⟩ := has_of_nonempty hy'
  refine ⟨y', hz, ?_⟩
  have h1 := V.run hV (fun _ h => subII_sim h x y)
    ((subII_post (hV.dir du_tight).op V.chk ix iy).mono fun _ hz => hz.smallest (hx.image2 hy))
  have h2 := V.run hV (fun _ h => addII_sim h x y')
    ((addII_post (hV.dir du_tight).op V.chk ix iy').mono fun _ hz => hz.smallest (hx.image2 hy'))
  refine h1.mono fun z hz => h2.mono fun z' hz' => ?_
  have : image2 (· - ·) (γ x) (γ y) = image2 (· + ·) (γ x) (γ y') := by
    rw [e]; ext q; constructor
    · rintro ⟨a, ha, b, hb, rfl⟩; exact ⟨a, ha, -b, ⟨b, hb, rfl⟩, (sub_eq_add_neg a b).symm⟩
    · rintro ⟨a, ha, _, ⟨b, hb, rfl⟩, rfl⟩; exact ⟨a, ha, b, hb, sub_eq_add_neg a b⟩
  rw [← this] at hz'
  exact hz.eq hz'

/-- The number overloads of `hull`, `min`, `max` are the interval overloads on the singleton. -/
theorem C51_utility (hx : (γ x).Nonempty) (ht : val t = some (r : EReal)) :
    hullIT V.C x t = hullII V.C x ⟨t, t⟩ ∧ hullTI V.C t x = hullII V.C ⟨t, t⟩ x ∧
    minIT V.C x t = minII V.C x ⟨t, t⟩ ∧ minTI V.C t x = minII V.C ⟨t, t⟩ x ∧
    maxIT V.C x t = maxII V.C x ⟨t, t⟩ ∧ maxTI V.C t x = maxII V.C ⟨t, t⟩ x := by
  obtain ⟨_, _, ix⟩ := has_of_nonempty hx
  have it := has_single (T := T) ht
  have h1 := ix.test V.chk
  have h2 := it.test V.chk
  have h3 : testT V.C t = .ok false := V.chk.isNan t _ ht
  have h4 := testIT_ok V.chk ht ix
  have h5 := testTI_ok V.chk ht ix
  have h6 := ix.test2 V.chk it
  have h7 := it.test2 V.chk ix
  unfold hullIT hullTI hullII minIT minTI minII maxIT maxTI maxII
  rw [h1, h2, h3, h4, h5, h6, h7]
  exact ⟨rfl, rfl, rfl, rfl, rfl, rfl⟩

/-! ## Witnesses -/

theorem fl_neg {f : Fmt} (a : Fl f) : Num.neg a ≠ none := by intro h; cases h
theorem rat_neg (a : ℚ) : Num.neg a ≠ none := by intro h; cases h

example : ∃ z, negI dbl.C (litI (-1) 2) = .ok z ∧ γ z = {q | ∃ a ∈ γ (litI (-1) 2 : Itv (Fl Fmt.double)), q = -a} :=
  C02_neg dbl fl_neg ne_lit
example : ∃ z, absI ratEnv.C (litI (-3) 2) = .ok z ∧ γ z = {q | ∃ a ∈ γ (litI (-3) 2 : Itv ℚ), |a| = q} :=
  C28_abs ratEnv rat_neg ne_lit
example := C28_norm ratEnv rat_neg (x := litI (-3) 2) ne_lit
example := C29_max dbl (x := litI (-3) 2) (y := litI 0 1) ne_lit ne_lit
example := C29_min_num dbl (x := litI (-3) 2) (t := Num.lit 1) (r := ((1 : ℤ) : ℝ)) ne_lit (NumLaws.lit 1 (by decide))
example : ratEnv.Proper (litI 1 2) := .inl ne_lit
example : (flt.Proper (⟨.nan, .zero false⟩ : Itv (Fl Fmt.single))) := .inr ⟨(fun _ _ h => by cases h), rfl⟩
example : ∃ z, intersect dbl.C (litI 0 2) (litI 1 3) = .ok z ∧ γ z = γ (litI 0 2 : Itv (Fl Fmt.double)) ∩ γ (litI 1 3 : Itv (Fl Fmt.double)) :=
  C23_intersect dbl ⟨1, in_lit, in_lit⟩
example : intersect dbl.C (litI 0 1) (litI 2 3) = .error .emptyCreated := by
  have h := C23_disjoint dbl (x := litI 0 1) (y := litI 2 3) (.inl ne_lit) (.inl ne_lit) (by
    ext r
    simp only [mem_inter_iff, mem_empty_iff_false, iff_false]
    rintro ⟨h1, h2⟩
    have h1 := ((mem_litI (by decide) (by decide)).1 h1).2
    have h2 := ((mem_litI (by decide) (by decide)).1 h2).1
    norm_num at h1 h2; linarith)
  rcases h with ⟨h, -⟩ | ⟨-, h⟩
  · cases h
  · exact h
example := C24_hull flt (x := ⟨.nan, .nan⟩) (y := litI 0 1) (.inr ⟨(fun _ _ h => by cases h), rfl⟩) (.inl ne_lit)
  (Set.Nonempty.inr ne_lit)
example := C22_in_nan dbl (x := litI 0 1) (t := .nan) rfl (.inl ne_lit) rfl
example := C24_hull_nan_partial ({ flt with checks := .base } : Env (Fl Fmt.single)) (x := litI 0 1) (s := .nan) (t := Num.lit 2) (r := ((2 : ℤ) : ℝ)) rfl ne_lit rfl
  (NumLaws.lit 2 (by decide))
example := C24_hull_two ratEnv (s := 3) (t := 2) rfl rfl
/-- The midpoint of two small numbers. -/
example : dbl.Returns (median dbl.P (litI 1 2)) fun m => ∃ r ∈ γ (litI 1 2 : Itv (Fl Fmt.double)), val m = some (r : EReal) := by
  refine C26_median_fl dbl (by decide) ne_lit (a := ((1 : ℤ) : ℝ)) (b := ((2 : ℤ) : ℝ)) (NumLaws.lit 1 (by decide))
    (NumLaws.lit 2 (by decide)) ?_
  have : (3 : ℚ) ≤ maxFin Fmt.double := by decide +kernel
  have : (3 : ℝ) ≤ (maxFin Fmt.double : ℝ) := by exact_mod_cast this
  norm_num; exact this
example := C25_bisect_rat ratEnv rfl (fun _ _ _ _ => rfl) (x := litI 1 2) ne_lit
example := C26_width dbl dbl_directed (x := litI 1 2) ne_lit
example := C27_widen flt flt_directed (x := litI 1 2) (t := Num.lit 1) (r := ((1 : ℤ) : ℝ)) ne_lit
  (NumLaws.lit 1 (by decide)) (by norm_num)
example := C49_sub_neg dbl dbl_tight fl_neg (x := litI 1 2) (y := litI (-1) 2) ne_lit ne_lit
example := C51_utility dbl (x := litI 1 2) (t := Num.lit 1) (r := ((1 : ℤ) : ℝ)) ne_lit (NumLaws.lit 1 (by decide))

end BI
