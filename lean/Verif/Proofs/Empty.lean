import Verif.Proofs.Bridge
/-! # The tests of the library on empty intervals and NaN -/

set_option linter.unusedSectionVars false

namespace BI
section
variable {T : Type} [Num T]

theorem Env.P_chk (V : Env T) : V.P.chk = V.C := by
  unfold Env.P libPolicies
  rcases V with ⟨_, _, k, _, _, _⟩
  cases k <;> rfl

theorem m_if_true {W : Type} {α : Type} {r : Res Bool} (h : r = .ok true) (p q : M W α) :
    (do if ← (lift r : M W Bool) then p else q) = p := by subst h; rfl

theorem m_if_false {W : Type} {α : Type} {r : Res Bool} (h : r = .ok false) (p q : M W α) :
    (do if ← (lift r : M W Bool) then p else q) = q := by subst h; rfl

theorem m_if_err {W : Type} {α : Type} {e : Err} {r : Res Bool} (h : r = .error e) (p q : M W α) :
    (do if ← (lift r : M W Bool) then p else q) = lift (.error e) := by subst h; rfl

theorem m_bind_ok {W : Type} {α β : Type} {a : α} {r : Res α} (h : r = .ok a) (f : α → M W β) :
    ((lift r : M W α) >>= f) = f a := by subst h; rfl

theorem m_bind_err {W : Type} {α β : Type} {e : Err} {r : Res α} (h : r = .error e) (f : α → M W β) :
    ((lift r : M W α) >>= f) = lift (.error e) := by subst h; rfl

/-- Policies that allow empty intervals compare the bounds. -/
theorem isEmpty_allow (sp : ChkSpec) (nd : Bool) (h : sp.forbidsEmpty = false) (l u : T) :
    (sp.eval T nd).isEmpty l u = .ok (!Num.le l u) := by
  induction sp with
  | base => rfl
  | noEmpty c ih => cases h
  | noNan c ih => exact ih h
  | catchNan c ih => exact ih h

theorem isEmpty_ok (sp : ChkSpec) (nd : Bool) (l u : T) : ∃ b, (sp.eval T nd).isEmpty l u = .ok b := by
  induction sp with
  | base => exact ⟨_, rfl⟩
  | noEmpty c ih => exact ⟨_, rfl⟩
  | noNan c ih => exact ih
  | catchNan c ih => exact ih

theorem isNan_sees (sp : ChkSpec) (nd : Bool) (h : sp.seesNan = true) (t : T) :
    (sp.eval T nd).isNan t = .ok (Num.hasNaN T && !Num.eq t t) := by
  induction sp with
  | base => rfl
  | noEmpty c ih => exact ih h
  | noNan c ih => cases h
  | catchNan c ih => cases h

variable [Val T] [NumLaws T]

theorem le_void {x : Itv T} (h : Void x) : Num.le x.lower x.upper = false := by
  rw [Bool.eq_false_iff]
  intro hc
  obtain ⟨a, b, h1, h2, h3⟩ := (NumLaws.le_iff _ _).1 hc
  exact absurd h3 (not_le.2 (h a b h1 h2))

theorem eq_nan {t : T} (h : val t = none) : Num.eq t t = false := by
  rw [Bool.eq_false_iff]
  intro hc
  obtain ⟨a, h1, h2⟩ := (NumLaws.eq_iff _ _).1 hc
  rw [h] at h1; cases h1

theorem hasNaN_of {t : T} (h : val t = none) : Num.hasNaN T = true := by
  by_contra hc
  exact NumLaws.noNan (by simpa using hc) t h

theorem isNan_catches (sp : ChkSpec) (nd : Bool) (h : sp.catchesNan = true) {t : T} (ht : val t = none) :
    (sp.eval T nd).isNan t = .error .invalidNumber := by
  induction sp with
  | base => cases h
  | noEmpty c ih => exact ih h
  | noNan c ih => cases h
  | catchNan c ih =>
    change (do if ← (c.eval T nd).isNan t then .error .invalidNumber
               pure false : Res Bool) = _
    by_cases hs : c.seesNan = true
    · rw [isNan_sees c nd hs, eq_nan ht, hasNaN_of ht]; rfl
    · have : c.catchesNan = true := by simpa [ChkSpec.catchesNan, hs] using h
      rw [ih this]; rfl

variable (V : Env T) {x y : Itv T} {t s : T}

theorem Void.test (hE : V.checks.forbidsEmpty = false) (h : Void x) : testI V.C x = .ok true := by
  unfold testI Env.C
  rw [isEmpty_allow _ _ hE, le_void h]; rfl

theorem test2_left (hE : V.checks.forbidsEmpty = false) (h : Void x) : testII V.C V.C x y = .ok true := by
  have := h.test V hE
  unfold testI at this; unfold testII
  rw [this]; rfl

theorem test2_right (hE : V.checks.forbidsEmpty = false) (h : Void y) : testII V.C V.C x y = .ok true := by
  have h1 := h.test V hE
  obtain ⟨b, hb⟩ := isEmpty_ok (T := T) V.checks V.ndebug x.lower x.upper
  unfold testI at h1; unfold testII
  rw [h1]
  change (do if ← (V.checks.eval T V.ndebug).isEmpty x.lower x.upper then _ else _) = _
  rw [hb]; cases b <;> rfl

theorem testTI_void (hE : V.checks.forbidsEmpty = false) (h : Void y) (ht : val t ≠ none) : testTI V.C t y = .ok true := by
  obtain ⟨a, ha⟩ := Option.ne_none_iff_exists'.1 ht
  have h1 := h.test V hE
  unfold testI at h1; unfold testTI
  rw [V.chk.isNan t a ha, h1]; rfl

theorem testIT_void (hE : V.checks.forbidsEmpty = false) (h : Void x) : testIT V.C x t = .ok true := by
  have h1 := h.test V hE
  unfold testI at h1; unfold testIT
  rw [h1]; rfl

theorem isNan_true (hN : V.checks.seesNan = true) (ht : val t = none) : V.C.isNan t = .ok true := by
  unfold Env.C
  rw [isNan_sees _ _ hN, eq_nan ht, hasNaN_of ht]; rfl

theorem testTI_nan (hN : V.checks.seesNan = true) (ht : val t = none) : testTI V.C t y = .ok true := by
  unfold testTI; rw [isNan_true V hN ht]; rfl

theorem testIT_nan (hN : V.checks.seesNan = true) (ht : val t = none) : testIT V.C x t = .ok true := by
  obtain ⟨b, hb⟩ := isEmpty_ok (T := T) V.checks V.ndebug x.lower x.upper
  unfold testIT
  rw [isNan_true V hN ht]
  change (do if ← (V.checks.eval T V.ndebug).isEmpty x.lower x.upper then _ else _) = _
  rw [hb]; cases b <;> rfl

theorem testTT_nan_left (hN : V.checks.seesNan = true) (ht : val t = none) : testTT V.C t s = .ok true := by
  unfold testTT; rw [isNan_true V hN ht]; rfl

theorem testTT_nan_right (hN : V.checks.seesNan = true) (ht : val t = none) : testTT V.C s t = .ok true := by
  have h1 : ∃ b, V.C.isNan s = .ok b := ⟨_, isNan_sees _ _ hN s⟩
  obtain ⟨b, hb⟩ := h1
  unfold testTT; rw [isNan_true V hN ht, hb]; cases b <;> rfl

theorem testTI_catch (hN : V.checks.catchesNan = true) (ht : val t = none) : testTI V.C t y = .error .invalidNumber := by
  unfold testTI Env.C; rw [isNan_catches _ _ hN ht]; rfl

theorem testIT_catch (hN : V.checks.catchesNan = true) (ht : val t = none) (hx : (γ x).Nonempty) :
    testIT V.C x t = .error .invalidNumber := by
  obtain ⟨a, b, ix⟩ := has_of_nonempty hx
  have := ix.test V.chk
  unfold testI at this
  unfold testIT; rw [this]
  change V.C.isNan t = _
  unfold Env.C; rw [isNan_catches _ _ hN ht]

theorem testTT_catch_left (hN : V.checks.catchesNan = true) (ht : val t = none) :
    testTT V.C t s = .error .invalidNumber := by
  unfold testTT Env.C; rw [isNan_catches _ _ hN ht]; rfl

theorem testTT_catch_right (hN : V.checks.catchesNan = true) (ht : val t = none) :
    testTT V.C s t = .error .invalidNumber := by
  by_cases hs : val s = none
  · exact testTT_catch_left V hN hs
  · obtain ⟨a, ha⟩ := Option.ne_none_iff_exists'.1 hs
    unfold testTT; rw [V.chk.isNan s a ha]
    change V.C.isNan t = _
    unfold Env.C; rw [isNan_catches _ _ hN ht]

/-- A computation that is `interval::empty()`. -/
theorem Env.yieldsEmpty_lift {op : M V.ctl.W (Itv T)} (h : op = lift (emptyI V.C)) : V.YieldsEmpty op := by
  subst h
  unfold Env.YieldsEmpty
  rcases emptyI_spec (T := T) V.checks V.ndebug with ⟨h1, h2⟩ | ⟨h1, z, h2, h3⟩
  · rw [if_pos h1]; intro s _; exact ⟨h2, rfl⟩
  · rw [if_neg (by simp [h1])]
    intro s _
    exact ⟨z, h2, rfl, h3⟩

theorem Env.emptyI_void (hE : V.checks.forbidsEmpty = false) : ∃ z, emptyI V.C = .ok z ∧ Void z := by
  rcases emptyI_spec (T := T) V.checks V.ndebug with ⟨h1, h2⟩ | ⟨h1, z, h2, h3⟩
  · rw [hE] at h1; cases h1
  · exact ⟨z, h2, h3⟩

theorem Env.returns_void (hE : V.checks.forbidsEmpty = false) {op : M V.ctl.W (Itv T)} (h : op = lift (emptyI V.C)) :
    V.Returns op Void := by
  have := V.yieldsEmpty_lift h
  unfold Env.YieldsEmpty at this
  rwa [if_neg (by simp [hE])] at this

theorem Env.throws_lift {α : Type} {op : M V.ctl.W α} {e : Err} (h : op = lift (.error e)) : V.Throws op e := by
  subst h; intro s _; exact ⟨rfl, rfl⟩

/-- Calls whose input test fails. -/
theorem Env.test_void (hE : V.checks.forbidsEmpty = false) {b : Res Bool} (hb : b = .ok true) {q : M V.ctl.W (Itv T)} :
    V.Returns (do if ← lift b then lift (emptyI V.P.chk) else q) Void :=
  V.returns_void hE (by rw [m_if_true hb, V.P_chk])

end
end BI
