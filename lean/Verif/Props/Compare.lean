import Verif.Proofs.Compare
import Verif.Props.Utility
/-!
# C30–C35: comparisons

`r` ranges over the six relations, `Always r X Y` says that it holds between each point of `X` and each point of `Y`,
`Sometimes r X Y` between some. The checking policies of the two operands are arbitrary and may differ. Number operands
are finite.
-/

set_option linter.unusedSectionVars false

namespace BI
open Set

variable {T : Type} [Num T] [Val T] [NumLaws T] (V V' : Env T) {x y w : Itv T} {t : T} {v : ℝ}

theorem test_false2 {a b c d : EReal} (hx : Has x a b) (hy : Has y c d) : testII V.C V'.C x y = .ok false := by
  have h1 := hx.test V.chk
  have h2 := hy.test V'.chk
  unfold testI at h1 h2
  unfold testII
  rw [h1, h2]; rfl

/-! ## C30 -/

/-- The answer is certain in both directions, otherwise an exception is thrown. -/
theorem C30_cmp (r : Rel) (hx : (γ x).Nonempty) (hy : (γ y).Nonempty) :
    (Always r (γ x) (γ y) → cmpII r V.C V'.C x y = .ok true) ∧
    (¬ Sometimes r (γ x) (γ y) → cmpII r V.C V'.C x y = .ok false) ∧
    (Sometimes r (γ x) (γ y) → ¬ Always r (γ x) (γ y) → cmpII r V.C V'.C x y = .error .comparison) := by
  obtain ⟨a, b, ix⟩ := has_of_nonempty hx
  obtain ⟨c, d, iy⟩ := has_of_nonempty hy
  have h1 := ix.test V.chk
  have h2 := iy.test V'.chk
  unfold testI at h1 h2
  have key : cmpII r V.C V'.C x y =
      decide2 (defTests x.lower x.upper y.lower y.upper r).1 (defTests x.lower x.upper y.lower y.upper r).2 := by
    unfold cmpII; rw [h1, h2]; rfl
  rw [key, sometimes_bounds r ix iy, always_iff r ix iy, not_not]
  cases r <;>
    simp only [defTests, lt_eq ix.lo iy.lo, lt_eq ix.up iy.lo, lt_eq iy.up ix.lo, le_eq iy.up ix.lo, le_eq ix.up iy.lo,
      eq_eq ix.up iy.lo, eq_eq ix.lo iy.up, allBounds, Rel.dual] <;>
    unfold decide2
  · refine ⟨fun h => by simp [h]; rfl, fun h => ?_, fun h h' => by simp [h, h']⟩
    have : ¬ b < c := not_lt.2 ((iy.le.trans h).trans ix.le)
    simp [h, this]; rfl
  · refine ⟨fun h => by simp [h]; rfl, fun h => ?_, fun h h' => by simp [h', h]⟩
    have : ¬ b ≤ c := not_le.2 (iy.le.trans_lt (h.trans_le ix.le))
    simp [h, this]; rfl
  · refine ⟨fun h => by simp [h]; rfl, fun h => ?_, fun h h' => by simp [h, h']⟩
    have : ¬ d < a := not_lt.2 ((ix.le.trans h).trans iy.le)
    simp [h, this]; rfl
  · refine ⟨fun h => by simp [h]; rfl, fun h => ?_, fun h h' => by simp [h', h]⟩
    have : ¬ d ≤ a := not_le.2 (ix.le.trans_lt (h.trans_le iy.le))
    simp [h, this]; rfl
  · refine ⟨fun h => by simp [h.1, h.2]; rfl, fun h => ?_, fun h h' => ?_⟩
    · have : ¬ (b = c ∧ a = d) := by
        rintro ⟨rfl, rfl⟩
        rcases h with h | h <;> exact absurd h (lt_irrefl _)
      simp only [← Bool.decide_and, ← Bool.decide_or]
      simp [h, this]; rfl
    · simp only [← Bool.decide_and, ← Bool.decide_or]
      simp only [h, h', decide_false]; rfl
  · refine ⟨fun h => ?_, fun h => ?_, fun h h' => ?_⟩
    · simp only [← Bool.decide_and, ← Bool.decide_or]
      simp only [h, decide_true]; rfl
    · have : ¬ (b < c ∨ d < a) := by
        obtain ⟨rfl, rfl⟩ := h
        rintro (h | h) <;> exact absurd h (lt_irrefl _)
      simp only [← Bool.decide_and, ← Bool.decide_or]
      rw [decide_eq_false this, decide_eq_true h]; rfl
    · simp only [← Bool.decide_and, ← Bool.decide_or]
      simp only [h, h', decide_false]; rfl

theorem defTestsT_eq (r : Rel) (l u v : T) : defTestsT l u v r = defTests l u v v r := by cases r <;> rfl

theorem C30_cmp_num (r : Rel) (hx : (γ x).Nonempty) (ht : val t = some (v : EReal)) :
    (Always r (γ x) {v} → cmpIT r V.C x t = .ok true) ∧
    (¬ Sometimes r (γ x) {v} → cmpIT r V.C x t = .ok false) ∧
    (Sometimes r (γ x) {v} → ¬ Always r (γ x) {v} → cmpIT r V.C x t = .error .comparison) := by
  have key : cmpIT r V.C x t = cmpII r V.C V.C x ⟨t, t⟩ := by
    have h2 := (has_single ht).test V.chk
    unfold testI at h2
    unfold cmpIT cmpII
    rw [V.chk.isNan _ _ ht, h2, defTestsT_eq]
  rw [key, ← gamma_single ht]
  exact C30_cmp V V r hx (by rw [gamma_single ht]; exact singleton_nonempty v)

/-- Empty operands. -/
theorem C30_empty_left (r : Rel) (hE : V.checks.forbidsEmpty = false) (hx : Void x) :
    cmpII r V.C V'.C x y = .error .comparison := by
  have h1 := hx.test V hE
  obtain ⟨b, hb⟩ := isEmpty_ok (T := T) V'.checks V'.ndebug y.lower y.upper
  unfold testI at h1
  unfold cmpII
  rw [h1, show V'.C.isEmpty y.lower y.upper = .ok b from hb]
  cases b <;> rfl

theorem C30_empty_right (r : Rel) (hE : V'.checks.forbidsEmpty = false) (hy : Void y) :
    cmpII r V.C V'.C x y = .error .comparison := by
  have h1 := hy.test V' hE
  unfold testI at h1
  unfold cmpII
  rw [h1]; rfl

theorem C30_empty_num (r : Rel) (hE : V.checks.forbidsEmpty = false) (hx : Void x) (ht : val t = some (v : EReal)) :
    cmpIT r V.C x t = .error .comparison := by
  have h1 := hx.test V hE
  unfold testI at h1
  unfold cmpIT
  rw [h1, V.chk.isNan _ _ ht]; rfl

theorem isNan_unseen (sp : ChkSpec) (nd : Bool) (h : sp.seesNan = false) (h' : sp.catchesNan = false) (t : T) :
    (sp.eval T nd).isNan t = .ok false := by
  induction sp with
  | base => cases h
  | noEmpty c ih => exact ih h h'
  | noNan c ih => rfl
  | catchNan c ih =>
    have := Bool.or_eq_false_iff.1 (show (c.seesNan || c.catchesNan) = false from h')
    change (do if ← (c.eval T nd).isNan t then .error .invalidNumber
               pure false : Res Bool) = _
    rw [ih this.1 this.2]; rfl

/-- Comparison with NaN throws under every policy: the exception of the policy if it catches NaN, otherwise
`comparison_error`. -/
theorem C30_nan (r : Rel) (ht : val t = none) :
    cmpIT r V.C x t = .error (if V.checks.catchesNan then .invalidNumber else .comparison) := by
  by_cases hc : V.checks.catchesNan = true
  · rw [if_pos hc]
    unfold cmpIT
    rw [show V.C.isNan t = _ from isNan_catches V.checks V.ndebug hc ht]; rfl
  · rw [if_neg hc]
    have hc' : V.checks.catchesNan = false := by simpa using hc
    by_cases hs : V.checks.seesNan = true
    · unfold cmpIT
      rw [show V.C.isNan t = _ from isNan_sees V.checks V.ndebug hs t, eq_nan ht, hasNaN_of ht]; rfl
    · unfold cmpIT
      rw [show V.C.isNan t = _ from isNan_unseen V.checks V.ndebug (by simpa using hs) hc' t]
      obtain ⟨b, hb⟩ := isEmpty_ok (T := T) V.checks V.ndebug x.lower x.upper
      rw [show V.C.isEmpty x.lower x.upper = .ok b from hb]
      cases b
      · cases r <;> simp [defTestsT, lt_nan_left ht, lt_nan_right ht, le_nan_left ht, le_nan_right ht, eq_nan_right ht, decide2] <;> rfl
      · rfl

/-! ## C31 -/

open scoped Classical in
theorem C31_tri (r : Rel) (hx : (γ x).Nonempty) (hy : (γ y).Nonempty) :
    triII r V.C V'.C x y = .ok (if Always r (γ x) (γ y) then some true
      else if Sometimes r (γ x) (γ y) then none else some false) := by
  obtain ⟨h1, h2, h3⟩ := C30_cmp V V' r hx hy
  obtain ⟨a, b, ix⟩ := has_of_nonempty hx
  obtain ⟨c, d, iy⟩ := has_of_nonempty hy
  have e1 := ix.test V.chk
  have e2 := iy.test V'.chk
  unfold testI at e1 e2
  have key : cmpII r V.C V'.C x y =
      decide2 (defTests x.lower x.upper y.lower y.upper r).1 (defTests x.lower x.upper y.lower y.upper r).2 := by
    unfold cmpII; rw [e1, e2]; rfl
  have key' : triII r V.C V'.C x y =
      .ok (tri2 (defTests x.lower x.upper y.lower y.upper r).1 (defTests x.lower x.upper y.lower y.upper r).2) := by
    unfold triII; rw [test_false2 V V' ix iy]; cases r <;> rfl
  rw [key] at h1 h2 h3
  rw [key']
  generalize (defTests x.lower x.upper y.lower y.upper r).1 = p at *
  generalize (defTests x.lower x.upper y.lower y.upper r).2 = q at *
  by_cases hA : Always r (γ x) (γ y)
  · have := h1 hA
    rw [if_pos hA]
    unfold decide2 at this; unfold tri2
    cases p <;> cases q <;> first | rfl | cases this
  · by_cases hS : Sometimes r (γ x) (γ y)
    · have := h3 hS hA
      rw [if_neg hA, if_pos hS]
      unfold decide2 at this; unfold tri2
      cases p <;> cases q <;> first | rfl | cases this
    · have := h2 hS
      rw [if_neg hA, if_neg hS]
      unfold decide2 at this; unfold tri2
      cases p <;> cases q <;> first | rfl | cases this

theorem testIT_single {a b : EReal} (hx : Has x a b) (ht : val t = some (v : EReal)) :
    testIT V.C x t = testII V.C V.C x ⟨t, t⟩ := by
  rw [testIT_ok V.chk ht hx, hx.test2 V.chk (has_single ht)]

open scoped Classical in
theorem C31_tri_num (r : Rel) (hx : (γ x).Nonempty) (ht : val t = some (v : EReal)) :
    triIT r V.C x t = .ok (if Always r (γ x) {v} then some true
      else if Sometimes r (γ x) {v} then none else some false) := by
  obtain ⟨a, b, ix⟩ := has_of_nonempty hx
  have key : triIT r V.C x t = triII r V.C V.C x ⟨t, t⟩ := by
    unfold triIT triII
    rw [testIT_single V ix ht]
  rw [key, ← gamma_single ht]
  exact C31_tri V V r hx (by rw [gamma_single ht]; exact singleton_nonempty v)

theorem test_void2 (h : (V.checks.forbidsEmpty = false ∧ Void x) ∨ (V'.checks.forbidsEmpty = false ∧ Void y)) :
    testII V.C V'.C x y = .ok true := by
  obtain ⟨b, hb⟩ := isEmpty_ok (T := T) V.checks V.ndebug x.lower x.upper
  unfold testII
  rcases h with ⟨h1, h2⟩ | ⟨h1, h2⟩
  · have e := h2.test V h1
    unfold testI at e
    rw [e]; rfl
  · have e := h2.test V' h1
    unfold testI at e
    rw [e, show V.C.isEmpty x.lower x.upper = .ok b from hb]
    cases b <;> rfl

theorem test_void_num (hE : V.checks.forbidsEmpty = false) (hx : Void x) (ht : val t = some (v : EReal)) :
    testIT V.C x t = .ok true := by
  have h1 := hx.test V hE
  unfold testI at h1
  unfold testIT
  rw [V.chk.isNan _ _ ht, h1]; rfl

theorem testIT_nan' (hE : V.checks.seesNan = true) (ht : val t = none) : testIT V.C x t = .ok true := by
  obtain ⟨b, hb⟩ := isEmpty_ok (T := T) V.checks V.ndebug x.lower x.upper
  unfold testIT
  rw [show V.C.isNan t = _ from isNan_sees V.checks V.ndebug hE t, eq_nan ht, hasNaN_of ht,
    show V.C.isEmpty x.lower x.upper = .ok b from hb]
  cases b <;> rfl

/-- Empty operands, for tribool, certain, possible and lexicographic comparisons. -/
theorem C31_empty (r : Rel) (h : (V.checks.forbidsEmpty = false ∧ Void x) ∨ (V'.checks.forbidsEmpty = false ∧ Void y)) :
    triII r V.C V'.C x y = .error .comparison := by
  unfold triII; rw [test_void2 V V' h]; rfl

/-- Empty operand compared with a number. -/
theorem C31_empty_num (r : Rel) (hE : V.checks.forbidsEmpty = false) (hx : Void x) (ht : val t = some (v : EReal)) :
    triIT r V.C x t = .error .comparison := by
  unfold triIT; rw [test_void_num V hE hx ht]; rfl

/-- NaN compared under a policy which sees it. -/
theorem C31_nan (r : Rel) (hE : V.checks.seesNan = true) (ht : val t = none) :
    triIT r V.C x t = .error .comparison := by
  unfold triIT; rw [testIT_nan' V hE ht]; rfl

/-! ## C32, C33 -/

open scoped Classical in
/-- explicit `cer...` -/
theorem C33_cer (r : Rel) (hx : (γ x).Nonempty) (hy : (γ y).Nonempty) : cerII r x y = decide (Always r (γ x) (γ y)) := by
  obtain ⟨a, b, ix⟩ := has_of_nonempty hx
  obtain ⟨c, d, iy⟩ := has_of_nonempty hy
  rw [Bool.eq_iff_iff, decide_eq_true_iff, always_iff r ix iy]
  cases r <;> simp only [cerII, lt_eq ix.up iy.lo, le_eq ix.up iy.lo, lt_eq iy.up ix.lo, le_eq iy.up ix.lo,
    eq_eq ix.lo iy.up, eq_eq iy.lo ix.up, allBounds, decide_eq_true_iff, Bool.and_eq_true, Bool.or_eq_true]
  exact ⟨fun h => ⟨h.2.symm, h.1⟩, fun h => ⟨h.2, h.1.symm⟩⟩

/-- `cerX` is the negation of the dual `posX`. -/
theorem C33_dual (r : Rel) (hx : (γ x).Nonempty) (hy : (γ y).Nonempty) : cerII r x y = !posII r.dual x y := by
  obtain ⟨a, b, ix⟩ := has_of_nonempty hx
  obtain ⟨c, d, iy⟩ := has_of_nonempty hy
  rw [Bool.eq_iff_iff]
  cases r <;> simp [cerII, posII, Rel.dual, lt_eq ix.up iy.lo, le_eq ix.up iy.lo, lt_eq iy.up ix.lo, le_eq iy.up ix.lo,
    lt_eq iy.lo ix.up, le_eq iy.lo ix.up, lt_eq ix.lo iy.up, le_eq ix.lo iy.up,
    eq_eq ix.lo iy.up, eq_eq iy.lo ix.up, eq_eq ix.up iy.lo, eq_eq iy.up ix.lo]
  · exact ⟨fun h => ⟨h.2.symm, h.1.symm⟩, fun h => ⟨h.2.symm, h.1.symm⟩⟩

open scoped Classical in
theorem C33_pos (r : Rel) (hx : (γ x).Nonempty) (hy : (γ y).Nonempty) :
    posII r x y = decide (Sometimes r (γ x) (γ y)) := by
  have h := C33_dual r.dual hx hy
  rw [dual_dual, C33_cer r.dual hx hy] at h
  rw [← Bool.not_not (posII r x y), ← h, Bool.eq_iff_iff, sometimes_iff]
  simp

open scoped Classical in
theorem C33_cer_num (r : Rel) (hx : (γ x).Nonempty) (ht : val t = some (v : EReal)) :
    cerIT r x t = decide (Always r (γ x) {v}) := by
  have : cerIT r x t = cerII r x ⟨t, t⟩ := by
    obtain ⟨a, b, ix⟩ := has_of_nonempty hx
    cases r <;> simp [cerIT, cerII, eq_eq ix.up ht, eq_eq ht ix.up, eq_comm]
  rw [this, C33_cer r hx (by rw [gamma_single ht]; exact singleton_nonempty v)]
  congr 1; rw [gamma_single ht]

open scoped Classical in
theorem C33_cer_num' (r : Rel) (hx : (γ x).Nonempty) (ht : val t = some (v : EReal)) :
    cerTI r t x = decide (Always r {v} (γ x)) := by
  have : cerTI r t x = cerII r ⟨t, t⟩ x := by
    obtain ⟨a, b, ix⟩ := has_of_nonempty hx
    cases r <;> simp [cerTI, cerII, eq_eq ix.lo ht, eq_eq ht ix.lo, eq_eq ht ix.up, eq_comm, Bool.and_comm]
  rw [this, C33_cer r (by rw [gamma_single ht]; exact singleton_nonempty v) hx]
  congr 1; rw [gamma_single ht]

open scoped Classical in
theorem C33_pos_num (r : Rel) (hx : (γ x).Nonempty) (ht : val t = some (v : EReal)) :
    posIT r x t = decide (Sometimes r (γ x) {v}) := by
  have : posIT r x t = posII r x ⟨t, t⟩ := by cases r <;> rfl
  rw [this, C33_pos r hx (by rw [gamma_single ht]; exact singleton_nonempty v)]
  congr 1; rw [gamma_single ht]

open scoped Classical in
theorem C33_pos_num' (r : Rel) (hx : (γ x).Nonempty) (ht : val t = some (v : EReal)) :
    posTI r t x = decide (Sometimes r {v} (γ x)) := by
  have : posTI r t x = posII r ⟨t, t⟩ x := by cases r <;> rfl
  rw [this, C33_pos r (by rw [gamma_single ht]; exact singleton_nonempty v) hx]
  congr 1; rw [gamma_single ht]

open scoped Classical in
theorem C32_certain (r : Rel) (hx : (γ x).Nonempty) (hy : (γ y).Nonempty) :
    certainII r V.C V'.C x y = .ok (decide (Always r (γ x) (γ y))) := by
  obtain ⟨a, b, ix⟩ := has_of_nonempty hx
  obtain ⟨c, d, iy⟩ := has_of_nonempty hy
  rw [← C33_cer r hx hy]
  unfold certainII
  rw [test_false2 V V' ix iy]
  change Except.ok _ = Except.ok _
  congr 1
  cases r <;> simp [cerII, eq_eq ix.up iy.lo, eq_eq iy.lo ix.up, eq_comm, Bool.and_comm]

open scoped Classical in
theorem C32_possible (r : Rel) (hx : (γ x).Nonempty) (hy : (γ y).Nonempty) :
    possibleII r V.C V'.C x y = .ok (decide (Sometimes r (γ x) (γ y))) := by
  obtain ⟨a, b, ix⟩ := has_of_nonempty hx
  obtain ⟨c, d, iy⟩ := has_of_nonempty hy
  rw [← C33_pos r hx hy]
  unfold possibleII
  rw [test_false2 V V' ix iy]
  change Except.ok _ = Except.ok _
  congr 1
  cases r <;> simp [posII, eq_eq ix.lo iy.up, eq_eq iy.up ix.lo, eq_comm, Bool.and_comm, Bool.or_comm]

open scoped Classical in
theorem C32_certain_num (r : Rel) (hx : (γ x).Nonempty) (ht : val t = some (v : EReal)) :
    certainIT r V.C x t = .ok (decide (Always r (γ x) {v})) := by
  obtain ⟨a, b, ix⟩ := has_of_nonempty hx
  have key : certainIT r V.C x t = certainII r V.C V.C x ⟨t, t⟩ := by
    unfold certainIT certainII; rw [testIT_single V ix ht]
  rw [key, C32_certain V V r hx (by rw [gamma_single ht]; exact singleton_nonempty v)]
  congr 2; rw [gamma_single ht]

open scoped Classical in
theorem C32_possible_num (r : Rel) (hx : (γ x).Nonempty) (ht : val t = some (v : EReal)) :
    possibleIT r V.C x t = .ok (decide (Sometimes r (γ x) {v})) := by
  obtain ⟨a, b, ix⟩ := has_of_nonempty hx
  have key : possibleIT r V.C x t = possibleII r V.C V.C x ⟨t, t⟩ := by
    unfold possibleIT possibleII; rw [testIT_single V ix ht]
  rw [key, C32_possible V V r hx (by rw [gamma_single ht]; exact singleton_nonempty v)]
  congr 2; rw [gamma_single ht]

theorem C32_empty (r : Rel) (h : (V.checks.forbidsEmpty = false ∧ Void x) ∨ (V'.checks.forbidsEmpty = false ∧ Void y)) :
    certainII r V.C V'.C x y = .error .comparison ∧ possibleII r V.C V'.C x y = .error .comparison := by
  unfold certainII possibleII; rw [test_void2 V V' h]; exact ⟨rfl, rfl⟩

theorem C32_empty_num (r : Rel) (hE : V.checks.forbidsEmpty = false) (hx : Void x) (ht : val t = some (v : EReal)) :
    certainIT r V.C x t = .error .comparison ∧ possibleIT r V.C x t = .error .comparison := by
  unfold certainIT possibleIT; rw [test_void_num V hE hx ht]; exact ⟨rfl, rfl⟩

theorem C32_nan (r : Rel) (hE : V.checks.seesNan = true) (ht : val t = none) :
    certainIT r V.C x t = .error .comparison ∧ possibleIT r V.C x t = .error .comparison := by
  unfold certainIT possibleIT; rw [testIT_nan' V hE ht]; exact ⟨rfl, rfl⟩

/-! ## C34 -/

/-- The lexicographic comparisons are those of the pairs of bounds. -/
theorem C34_lt_iff {a b c d : EReal} (hx : (γ x).Nonempty) (hy : (γ y).Nonempty) (ha : val x.lower = some a)
    (hb : val x.upper = some b) (hc : val y.lower = some c) (hd : val y.upper = some d) :
    lexII .lt V.C V'.C x y = .ok (decide (a < c ∨ (a = c ∧ b < d))) ∧
    lexII .le V.C V'.C x y = .ok (decide (a < c ∨ (a = c ∧ b ≤ d))) ∧
    lexII .gt V.C V'.C x y = .ok (decide (c < a ∨ (c = a ∧ d < b))) ∧
    lexII .ge V.C V'.C x y = .ok (decide (c < a ∨ (c = a ∧ d ≤ b))) ∧
    lexII .eq V.C V'.C x y = .ok (decide (a = c ∧ b = d)) ∧
    lexII .ne V.C V'.C x y = .ok (decide (¬ (a = c ∧ b = d))) := by
  obtain ⟨_, _, ix⟩ := has_of_nonempty hx
  obtain ⟨_, _, iy⟩ := has_of_nonempty hy
  have ht := test_false2 V V' ix iy
  unfold lexII
  rw [ht]
  refine ⟨?_, ?_, ?_, ?_, ?_, ?_⟩ <;> change Except.ok _ = Except.ok _ <;> congr 1 <;>
    simp only [lt_eq ha hc, lt_eq hb hd, le_eq hb hd, eq_eq ha hc, eq_eq hb hd, lt_eq hc ha, lt_eq hd hb, le_eq hd hb,
      Bool.decide_or, Bool.decide_and, eq_comm (a := c), decide_not, Bool.not_and]

/-- The strict comparison is a strict total order on non-empty intervals, up to equality of the intervals as sets, and
the other five comparisons are derived from it. -/
theorem C34_order (hx : (γ x).Nonempty) (hy : (γ y).Nonempty) (hw : (γ w).Nonempty) (W : Env T) :
    -- irreflexive
    lexII .lt V.C V.C x x = .ok false ∧
    -- transitive
    (lexII .lt V.C V'.C x y = .ok true → lexII .lt V'.C W.C y w = .ok true → lexII .lt V.C W.C x w = .ok true) ∧
    -- total
    (lexII .lt V.C V'.C x y = .ok true ∨ γ x = γ y ∨ lexII .lt V'.C V.C y x = .ok true) ∧
    (γ x = γ y → lexII .lt V.C V'.C x y = .ok false) ∧
    (lexII .lt V.C V'.C x y = .ok true → lexII .lt V'.C V.C y x = .ok false) ∧
    -- the others
    (lexII .eq V.C V'.C x y = .ok true ↔ γ x = γ y) ∧
    (lexII .ne V.C V'.C x y = .ok true ↔ γ x ≠ γ y) ∧
    (lexII .gt V.C V'.C x y = lexII .lt V'.C V.C y x) ∧
    (lexII .ge V.C V'.C x y = lexII .le V'.C V.C y x) ∧
    (lexII .le V.C V'.C x y = .ok true ↔ lexII .lt V.C V'.C x y = .ok true ∨ γ x = γ y) := by
  obtain ⟨a, b, ix⟩ := has_of_nonempty hx
  obtain ⟨c, d, iy⟩ := has_of_nonempty hy
  obtain ⟨e, f, iw⟩ := has_of_nonempty hw
  have heq : γ x = γ y ↔ a = c ∧ b = d := by
    constructor
    · intro h
      obtain ⟨h1, h2⟩ := ix.subset iy h.subset
      obtain ⟨h3, h4⟩ := iy.subset ix h.superset
      exact ⟨le_antisymm h3 h1, le_antisymm h2 h4⟩
    · rintro ⟨rfl, rfl⟩; rw [ix.gamma, iy.gamma]
  obtain ⟨k1, -⟩ := C34_lt_iff V V hx hx ix.lo ix.up ix.lo ix.up
  obtain ⟨l1, l2, l3, l4, l5, l6⟩ := C34_lt_iff V V' hx hy ix.lo ix.up iy.lo iy.up
  obtain ⟨m1, m2, -⟩ := C34_lt_iff V' V hy hx iy.lo iy.up ix.lo ix.up
  obtain ⟨n1, -⟩ := C34_lt_iff V' W hy hw iy.lo iy.up iw.lo iw.up
  obtain ⟨o1, -⟩ := C34_lt_iff V W hx hw ix.lo ix.up iw.lo iw.up
  have ok_iff : ∀ {p : Prop} [Decidable p], ((Except.ok (decide p) : Res Bool) = .ok true) ↔ p := by
    intro p _; rw [Except.ok.injEq, decide_eq_true_iff]
  have ok_iff' : ∀ {p : Prop} [Decidable p], ((Except.ok (decide p) : Res Bool) = .ok false) ↔ ¬ p := by
    intro p _; rw [Except.ok.injEq, decide_eq_false_iff_not]
  rw [k1, l1, l2, l3, l4, l5, l6, m1, m2, n1, o1, heq]
  simp only [ok_iff, ok_iff']
  refine ⟨by simp, ?_, ?_, ?_, ?_, trivial, by rw [ne_eq, heq], trivial, trivial, ?_⟩
  · rintro (h | ⟨rfl, h⟩) (h' | ⟨rfl, h'⟩)
    · exact .inl (h.trans h')
    · exact .inl h
    · exact .inl h'
    · exact .inr ⟨rfl, h.trans h'⟩
  · rcases lt_trichotomy a c with h | h | h
    · exact .inl (.inl h)
    · rcases lt_trichotomy b d with h' | h' | h'
      · exact .inl (.inr ⟨h, h'⟩)
      · exact .inr (.inl ⟨h, h'⟩)
      · exact .inr (.inr (.inr ⟨h.symm, h'⟩))
    · exact .inr (.inr (.inl h))
  · rintro ⟨rfl, rfl⟩; simp
  · rintro (h | ⟨rfl, h⟩) (h' | ⟨h0, h'⟩)
    · exact absurd h' (not_lt.2 h.le)
    · exact absurd h (by rw [h0]; exact lt_irrefl _)
    · exact absurd h' (lt_irrefl _)
    · exact absurd h' (not_lt.2 h.le)
  · constructor
    · rintro (h | ⟨h, h'⟩)
      · exact .inl (.inl h)
      · rcases h'.lt_or_eq with h'' | h''
        · exact .inl (.inr ⟨h, h''⟩)
        · exact .inr ⟨h, h''⟩
    · rintro ((h | ⟨h, h'⟩) | ⟨h, h'⟩)
      · exact .inl h
      · exact .inr ⟨h, h'.le⟩
      · exact .inr ⟨h, h'.le⟩

/-- Numbers are compared as singletons. -/
theorem C34_num (r : Rel) (hx : (γ x).Nonempty) (ht : val t = some (v : EReal)) :
    lexIT r V.C x t = lexII r V.C V.C x ⟨t, t⟩ := by
  obtain ⟨a, b, ix⟩ := has_of_nonempty hx
  unfold lexIT lexII
  rw [testIT_single V ix ht, ix.test2 V.chk (has_single ht)]
  change Except.ok _ = Except.ok _
  congr 1
  cases r <;> simp only [lt_eq ix.lo ht, eq_eq ix.lo ht, lt_eq ix.up ht, le_eq ht ix.lo, lt_eq ht ix.lo, le_eq ht ix.up]
  · rw [Bool.eq_iff_iff]; simp
    rintro rfl h; exact absurd h (not_lt.2 ix.le)
  · rw [Bool.eq_iff_iff]; simp
    constructor
    · intro h; rcases h.lt_or_eq with h | h
      · exact .inl h
      · exact .inr ⟨h.symm, h ▸ ix.le⟩
    · rintro (h | ⟨h, -⟩)
      exacts [h.le, h.ge]

theorem C34_empty (r : Rel) (h : (V.checks.forbidsEmpty = false ∧ Void x) ∨ (V'.checks.forbidsEmpty = false ∧ Void y)) :
    lexII r V.C V'.C x y = .error .comparison := by
  unfold lexII; rw [test_void2 V V' h]; rfl

theorem C34_empty_num (r : Rel) (hE : V.checks.forbidsEmpty = false) (hx : Void x) (ht : val t = some (v : EReal)) :
    lexIT r V.C x t = .error .comparison := by
  unfold lexIT; rw [test_void_num V hE hx ht]; rfl

theorem C34_nan (r : Rel) (hE : V.checks.seesNan = true) (ht : val t = none) :
    lexIT r V.C x t = .error .comparison := by
  unfold lexIT; rw [testIT_nan' V hE ht]; rfl

/-! ## C35 -/

open scoped Classical in
theorem C35_set (hx : V.Proper x) (hy : V'.Proper y) :
    setII .lt V.C V'.C x y = .ok (decide (γ x ⊂ γ y)) ∧ setII .gt V.C V'.C x y = .ok (decide (γ y ⊂ γ x)) ∧
    setII .eq V.C V'.C x y = .ok (decide (γ x = γ y)) ∧ setII .ne V.C V'.C x y = .ok (decide (γ x ≠ γ y)) := by
  refine ⟨C22_proper_subset V V' hx hy, C22_proper_subset V' V hy hx, ?_, ?_⟩
  · refine (C22_equal V' V hy hx).trans ?_
    congr 2; exact propext eq_comm
  · unfold setII
    rw [C22_equal V' V hy hx]
    change Except.ok _ = Except.ok _
    rw [← decide_not]
    congr 2; exact propext (not_congr eq_comm)

open scoped Classical in
theorem C35_subset (hx : V.Proper x) (hy : V.Proper y) :
    setII .le V.C V.C x y = .ok (decide (γ x ⊆ γ y)) ∧ setII .ge V.C V.C x y = .ok (decide (γ y ⊆ γ x)) :=
  ⟨C22_subset V hx hy, C22_subset V hy hx⟩

theorem C35_num (r : Rel) (x : Itv T) (t : T) : setIT r x t = .error .comparison := rfl

/-! ## C51: a number is compared as its singleton -/

theorem testIT_point (ht : val t = some (v : EReal)) : testIT V.C x t = testII V.C V.C x ⟨t, t⟩ := by
  have h2 := (has_single ht).test V.chk
  unfold testI at h2
  unfold testIT testII
  rw [V.chk.isNan _ _ ht, h2]

/-- All comparison namespaces with an exception on empty intervals, every interval (empty ones included). -/
theorem C51_compare (r : Rel) (ht : val t = some (v : EReal)) :
    cmpIT r V.C x t = cmpII r V.C V.C x ⟨t, t⟩ ∧ certainIT r V.C x t = certainII r V.C V.C x ⟨t, t⟩ ∧
    possibleIT r V.C x t = possibleII r V.C V.C x ⟨t, t⟩ ∧ triIT r V.C x t = triII r V.C V.C x ⟨t, t⟩ := by
  have h2 := (has_single ht).test V.chk
  unfold testI at h2
  refine ⟨?_, ?_, ?_, ?_⟩
  · unfold cmpIT cmpII
    rw [V.chk.isNan _ _ ht, h2, defTestsT_eq]
  · unfold certainIT certainII
    rw [testIT_point V ht]
  · unfold possibleIT possibleII
    rw [testIT_point V ht]
  · unfold triIT triII
    rw [testIT_point V ht]

/-- The lexicographic comparisons: intervals that are not malformed. -/
theorem C51_lexicographic (r : Rel) (hx : V.Proper x) (ht : val t = some (v : EReal)) :
    lexIT r V.C x t = lexII r V.C V.C x ⟨t, t⟩ := by
  rcases hx with hx | ⟨hx, hE⟩
  · exact C34_num V r hx ht
  · rw [C34_empty V V r (.inl ⟨hE, hx⟩), C34_empty_num V r hE hx ht]

omit [NumLaws T] in
theorem and_swap (a b : Bool) : (a && b) = (b && a) := by cases a <;> cases b <;> rfl

/-- The explicit comparisons, number on either side. -/
theorem C51_explicit (r : Rel) (hx : (γ x).Nonempty) (ht : val t = some (v : EReal)) :
    cerIT r x t = cerII r x ⟨t, t⟩ ∧ cerTI r t x = cerII r ⟨t, t⟩ x ∧
    posIT r x t = posII r x ⟨t, t⟩ ∧ posTI r t x = posII r ⟨t, t⟩ x := by
  obtain ⟨a, b, ix⟩ := has_of_nonempty hx
  cases r <;> refine ⟨?_, ?_, ?_, ?_⟩ <;> simp only [cerIT, cerII, cerTI, posIT, posII, posTI, eq_eq ix.lo ht, eq_eq ht ix.lo,
    eq_eq ix.up ht, eq_eq ht ix.up, eq_comm] <;> simp only [and_swap, Bool.and_comm]

/-- The exception: the set comparisons throw for every number, although the singleton could be compared. -/
theorem C51_set (r : Rel) (hx : V.Proper x) (ht : val t = some (v : EReal)) :
    setIT r x t = .error .comparison ∧ ∃ b, setII r V.C V.C x ⟨t, t⟩ = .ok b := by
  have h : V.Proper (⟨t, t⟩ : Itv T) := .inl (by rw [gamma_single ht]; exact singleton_nonempty v)
  refine ⟨rfl, ?_⟩
  cases r
  exacts [⟨_, (C35_set V V hx h).1⟩, ⟨_, (C35_subset V hx h).1⟩, ⟨_, (C35_set V V hx h).2.1⟩, ⟨_, (C35_subset V hx h).2⟩,
    ⟨_, (C35_set V V hx h).2.2.1⟩, ⟨_, (C35_set V V hx h).2.2.2⟩]

/-! ## The hypotheses can be met -/

example : cmpII .lt dbl.C dbl.C (litI 1 2) (litI 3 4) = .ok true := by decide +kernel
example : cmpII .le dbl.C dbl.C (litI 1 2) (litI 2 4) = .ok true := by decide +kernel
example : cmpII .lt dbl.C dbl.C (litI 1 2) (litI 2 4) = .error .comparison := by decide +kernel
example : cmpII .lt dbl.C dbl.C (litI 2 2) (litI 1 2) = .ok false := by decide +kernel
example : cmpIT .eq flt.C (litI 2 2) (Num.lit 2) = .ok true := by decide +kernel
example : cmpIT .ne flt.C (litI 1 2) (Num.lit 2) = .error .comparison := by decide +kernel
example := C30_cmp dbl dbl .lt (x := litI 1 2) (y := litI 2 4) ne_lit ne_lit
example := C30_cmp_num flt .ge (x := litI 1 2) (t := Num.lit 1) (v := ((1 : ℤ) : ℝ)) ne_lit (NumLaws.lit 1 (by decide))
/-- The three cases all occur. -/
example : Always .lt (Set.Icc (1 : ℝ) 2) (Set.Icc 3 4) ∧ ¬ Sometimes .lt (Set.Icc (3 : ℝ) 4) (Set.Icc 1 2) ∧
    Sometimes .lt (Set.Icc (1 : ℝ) 3) (Set.Icc 2 4) ∧ ¬ Always .lt (Set.Icc (1 : ℝ) 3) (Set.Icc 2 4) := by
  refine ⟨fun p hp q hq => ?_, ?_, ⟨1, by norm_num, 4, by norm_num, ?_⟩, fun h => ?_⟩
  · change p < q; linarith [hp.2, hq.1]
  · rintro ⟨p, hp, q, hq, h⟩; change p < q at h; linarith [hp.1, hq.2]
  · change (1 : ℝ) < 4; norm_num
  · have := h 3 (by norm_num) 2 (by norm_num)
    change (3 : ℝ) < 2 at this; norm_num at this
example : flt.checks.forbidsEmpty = false ∧ Void (⟨.nan, .nan⟩ : Itv (Fl Fmt.single)) := ⟨rfl, (fun _ _ h => by cases h)⟩
/-- `interval_lib::checking_base`. -/
example : ∃ V : Env (Fl Fmt.double), V.checks.seesNan = true ∧ val (Fl.nan : Fl Fmt.double) = none :=
  ⟨⟨dbl.ctl, dbl.laws, .opp, dbl.lib, .base, true⟩, rfl, rfl⟩
example := C31_tri dbl dbl .eq (x := litI 1 2) (y := litI 2 4) ne_lit ne_lit
example := C32_certain dbl dbl .eq (x := litI 2 2) (y := litI 2 2) ne_lit ne_lit
example := C32_possible ratEnv ratEnv .ne (x := litI 2 2) (y := litI 2 2) ne_lit ne_lit
example := C33_cer .ne (x := (litI 2 2 : Itv ℚ)) (y := litI 2 2) ne_lit ne_lit
example := C34_order dbl dbl (x := litI 1 2) (y := litI 1 3) (w := litI 2 3) ne_lit ne_lit ne_lit dbl
example := C35_set dbl dbl (x := litI 1 2) (y := litI 1 3) (.inl ne_lit) (.inl ne_lit)
example := C35_subset ratEnv (x := litI 1 2) (y := litI 1 3) (.inl ne_lit) (.inl ne_lit)
example := C51_compare dbl .lt (x := litI 1 2) (t := Num.lit 1) (v := ((1 : ℤ) : ℝ)) (NumLaws.lit 1 (by decide))
example := C51_lexicographic flt .lt (x := ⟨.nan, .nan⟩) (t := Num.lit 1) (v := ((1 : ℤ) : ℝ))
  (.inr ⟨(fun _ _ h => by cases h), rfl⟩) (NumLaws.lit 1 (by decide))
example := C51_explicit .ne (x := (litI 1 2 : Itv ℚ)) (t := Num.lit 1) (v := ((1 : ℤ) : ℝ)) ne_lit (NumLaws.lit 1 (by decide))
example := C51_set dbl .le (x := litI 1 2) (t := Num.lit 1) (v := ((1 : ℤ) : ℝ)) (.inl ne_lit) (NumLaws.lit 1 (by decide))

end BI
