import Verif.Proofs.Empty
import Verif.Proofs.Instances
/-!
# C09, C11: empty intervals and NaN

`V.checks.forbidsEmpty = false`: the checking policy does not contain `checking_no_empty`, that is, it represents empty
intervals. `V.checks.seesNan`: it tests numbers for NaN. `V.checks.catchesNan`: it throws on NaN. Nothing is assumed
about the arithmetic or the rounding kind.
-/

namespace BI

variable {T : Type} [Num T] [Val T] [NumLaws T] (V : Env T) {x y : Itv T} {t s : T}

/-! ## C09 -/

theorem C09_binary (hE : V.checks.forbidsEmpty = false) (h : Void x ∨ Void y) :
    V.Returns (addII V.P x y) Void ∧ V.Returns (subII V.P x y) Void ∧ V.Returns (mulII V.P x y) Void ∧
    V.Returns (divII V.P x y) Void ∧ V.Returns (fmodII V.P x y) Void ∧
    V.Returns (divisionPart1 V.P x y) fun r => Void r.1 ∧ r.2 = false := by
  have ht : testII V.P.chk V.P.chk x y = .ok true := by
    rw [V.P_chk]; rcases h with h | h
    · exact test2_left V hE h
    · exact test2_right V hE h
  refine ⟨V.test_void hE ht, V.test_void hE ht, V.test_void hE ht, V.test_void hE ht, V.test_void hE ht, ?_⟩
  unfold divisionPart1
  rw [m_if_true ht, V.P_chk]
  obtain ⟨z, hz, hv⟩ := V.emptyI_void hE
  rw [m_bind_ok hz]
  exact fun s _ => ⟨_, rfl, rfl, hv, rfl⟩

theorem C09_binary_num_left (hE : V.checks.forbidsEmpty = false)
    (h : (Void y ∧ val t ≠ none) ∨ (val t = none ∧ V.checks.seesNan = true)) :
    V.Returns (addTI V.P t y) Void ∧ V.Returns (subTI V.P t y) Void ∧ V.Returns (mulTI V.P t y) Void ∧
    V.Returns (divTI V.P t y) Void ∧ V.Returns (fmodTI V.P t y) Void := by
  have ht : testTI V.P.chk t y = .ok true := by
    rw [V.P_chk]; rcases h with h | h
    · exact testTI_void V hE h.1 h.2
    · exact testTI_nan V h.2 h.1
  exact ⟨V.test_void hE ht, V.test_void hE ht, V.test_void hE ht, V.test_void hE ht, V.test_void hE ht⟩

theorem C09_binary_num_right (hE : V.checks.forbidsEmpty = false)
    (h : (Void x ∧ val t ≠ none) ∨ (val t = none ∧ V.checks.seesNan = true)) :
    V.Returns (addIT V.P x t) Void ∧ V.Returns (subIT V.P x t) Void ∧ V.Returns (mulIT V.P x t) Void ∧
    V.Returns (divIT V.P x t) Void ∧ V.Returns (fmodIT V.P x t) Void := by
  have ht : testIT V.P.chk x t = .ok true := by
    rw [V.P_chk]; rcases h with h | h
    · exact testIT_void V hE h.1
    · exact testIT_nan V h.2 h.1
  have h' := C09_binary_num_left V hE h
  refine ⟨h'.1, V.test_void hE ht, h'.2.2.1, ?_, V.test_void hE ht⟩
  refine V.returns_void hE ?_
  unfold divIT
  rw [m_bind_ok ht, V.P_chk]
  rfl

theorem C09_two_numbers (hE : V.checks.forbidsEmpty = false) (hN : V.checks.seesNan = true)
    (h : val s = none ∨ val t = none) :
    V.Returns (addTT V.P s t) Void ∧ V.Returns (subTT V.P s t) Void ∧ V.Returns (mulTT V.P s t) Void ∧
    V.Returns (divTT V.P s t) Void := by
  have ht : testTT V.P.chk s t = .ok true := by
    rw [V.P_chk]; rcases h with h | h
    · exact testTT_nan_left V hN h
    · exact testTT_nan_right V hN h
  refine ⟨V.test_void hE ht, V.test_void hE ht, V.test_void hE ht, ?_⟩
  refine V.returns_void hE ?_
  unfold divTT
  rw [m_bind_ok ht, V.P_chk]
  rfl

theorem C09_unary (hE : V.checks.forbidsEmpty = false) (h : Void x) (k : Int) (v : T) (nd : Bool) (fuel : Nat) :
    V.Returns (squareI V.P x) Void ∧ V.Returns (sqrtI V.P x) Void ∧ V.Returns (powI V.P x k) Void ∧
    V.Returns (multInv V.P x) Void ∧ V.Returns (nthRoot V.P nd fuel x k) Void ∧ V.Returns (widen V.P x v) Void ∧
    V.Returns (bisect V.P x) fun r => Void r.1 ∧ Void r.2 := by
  have ht : testI V.P.chk x = .ok true := by rw [V.P_chk]; exact h.test V hE
  refine ⟨V.test_void hE ht, ?_, V.test_void hE ht, V.test_void hE ht, V.test_void hE ht, V.test_void hE ht, ?_⟩
  · refine V.returns_void hE ?_
    unfold sqrtI
    rw [m_bind_ok ht, V.P_chk]
    rfl
  · unfold bisect
    rw [m_if_true ht, V.P_chk]
    obtain ⟨z, hz, hv⟩ := V.emptyI_void hE
    rw [hz]
    exact fun s _ => ⟨_, rfl, rfl, hv, hv⟩

theorem C09_transcendental (hE : V.checks.forbidsEmpty = false) (h : Void x) (K : PiConst T) (fuel : Nat) :
    V.Returns (expI V.P x) Void ∧ V.Returns (logI V.P x) Void ∧ V.Returns (cosI K (fuel + 1) V.P x) Void ∧
    V.Returns (sinI K fuel V.P x) Void ∧ V.Returns (tanI K V.P x) Void ∧ V.Returns (asinI K V.P x) Void ∧
    V.Returns (acosI K V.P x) Void ∧ V.Returns (atanI V.P x) Void ∧ V.Returns (sinhI V.P x) Void ∧
    V.Returns (coshI V.P x) Void ∧ V.Returns (tanhI V.P x) Void ∧ V.Returns (asinhI V.P x) Void ∧
    V.Returns (acoshI V.P x) Void ∧ V.Returns (atanhI V.P x) Void := by
  have ht : testI V.P.chk x = .ok true := by rw [V.P_chk]; exact h.test V hE
  have h1 := fun {q} => V.test_void hE ht (q := q)
  have h2 : ∀ {f : Bool → M V.ctl.W (Itv T)}, f true = lift (emptyI V.P.chk) →
      V.Returns (lift (testI V.P.chk x) >>= f) Void := by
    intro f hf
    refine V.returns_void hE ?_
    rw [m_bind_ok ht, hf, V.P_chk]
  exact ⟨h1, h2 rfl, h1, h1, h1, h2 rfl, h2 rfl, h1, h1, h1, h1, h1, h2 rfl, h2 rfl⟩

/-- Functions that do not round. -/
theorem C09_pure (hE : V.checks.forbidsEmpty = false) (h : Void x ∨ Void y) :
    (∃ z, minII V.C x y = .ok z ∧ Void z) ∧ (∃ z, maxII V.C x y = .ok z ∧ Void z) ∧
    (∃ z, intersect V.C x y = .ok z ∧ Void z) := by
  have ht : testII V.C V.C x y = .ok true := by
    rcases h with h | h
    · exact test2_left V hE h
    · exact test2_right V hE h
  obtain ⟨z, hz, hv⟩ := V.emptyI_void hE
  refine ⟨⟨z, ?_, hv⟩, ⟨z, ?_, hv⟩, ⟨z, ?_, hv⟩⟩
  · unfold minII; rw [ht]; exact hz
  · unfold maxII; rw [ht]; exact hz
  · unfold intersect; rw [ht]; exact hz

theorem C09_pure_unary (hE : V.checks.forbidsEmpty = false) (h : Void x) :
    (∃ z, negI V.C x = .ok z ∧ Void z) ∧ (∃ z, absI V.C x = .ok z ∧ Void z) := by
  have ht := h.test V hE
  obtain ⟨z, hz, hv⟩ := V.emptyI_void hE
  refine ⟨⟨z, ?_, hv⟩, ⟨z, ?_, hv⟩⟩
  · unfold negI; rw [ht]; exact hz
  · unfold absI; rw [ht]; exact hz

theorem C09_pure_num (hE : V.checks.forbidsEmpty = false)
    (h : (Void y ∧ val t ≠ none) ∨ (val t = none ∧ V.checks.seesNan = true)) :
    (∃ z, minTI V.C t y = .ok z ∧ Void z) ∧ (∃ z, maxTI V.C t y = .ok z ∧ Void z) ∧
    (∃ z, minIT V.C y t = .ok z ∧ Void z) ∧ (∃ z, maxIT V.C y t = .ok z ∧ Void z) := by
  have ht : testTI V.C t y = .ok true := by
    rcases h with h | h
    · exact testTI_void V hE h.1 h.2
    · exact testTI_nan V h.2 h.1
  have ht' : testIT V.C y t = .ok true := by
    rcases h with h | h
    · exact testIT_void V hE h.1
    · exact testIT_nan V h.2 h.1
  obtain ⟨z, hz, hv⟩ := V.emptyI_void hE
  refine ⟨⟨z, ?_, hv⟩, ⟨z, ?_, hv⟩, ⟨z, ?_, hv⟩, ⟨z, ?_, hv⟩⟩
  · unfold minTI; rw [ht]; exact hz
  · unfold maxTI; rw [ht]; exact hz
  · unfold minIT; rw [ht']; exact hz
  · unfold maxIT; rw [ht']; exact hz

/-- The hull ignores an empty operand; it is empty if both are. -/
theorem C09_hull (hE : V.checks.forbidsEmpty = false) (h : Void x) :
    (Void y → ∃ z, hullII V.C x y = .ok z ∧ Void z) ∧
    ((γ y).Nonempty → hullII V.C x y = .ok y ∧ hullII V.C y x = .ok y) := by
  have ht := h.test V hE
  refine ⟨fun hy => ?_, fun hy => ?_⟩
  · obtain ⟨z, hz, hv⟩ := V.emptyI_void hE
    refine ⟨z, ?_, hv⟩
    unfold hullII; rw [ht, hy.test V hE]; exact hz
  · obtain ⟨_, _, iy⟩ := has_of_nonempty hy
    have h2 := iy.test V.chk
    unfold hullII
    rw [ht, h2]
    exact ⟨rfl, rfl⟩

/-- An empty interval and a number: the hull is the number; an empty interval and NaN, or two NaN: empty. -/
theorem C09_hull_num (hE : V.checks.forbidsEmpty = false) (h : Void x) :
    (val t ≠ none → hullIT V.C x t = .ok ⟨t, t⟩ ∧ hullTI V.C t x = .ok ⟨t, t⟩) ∧
    (val t = none → V.checks.seesNan = true → (∃ z, hullIT V.C x t = .ok z ∧ Void z) ∧ ∃ z, hullTI V.C t x = .ok z ∧ Void z) ∧
    (val s = none → val t = none → V.checks.seesNan = true → ∃ z, hullTT V.C s t = .ok z ∧ Void z) := by
  have ht := h.test V hE
  obtain ⟨z, hz, hv⟩ := V.emptyI_void hE
  unfold hullIT hullTI testT
  rw [ht]
  refine ⟨fun h1 => ?_, fun h1 h2 => ?_, fun h0 h1 h2 => ⟨z, ?_, hv⟩⟩
  · obtain ⟨a, ha⟩ := Option.ne_none_iff_exists'.1 h1
    rw [V.chk.isNan t a ha]; exact ⟨rfl, rfl⟩
  · rw [isNan_true V h2 h1]; exact ⟨⟨z, hz, hv⟩, ⟨z, hz, hv⟩⟩
  · unfold hullTT; rw [isNan_true V h2 h1, isNan_true V h2 h0]; exact hz

theorem nan_allow (sp : ChkSpec) (nd : Bool) (h : sp.forbidsEmpty = false) (hN : Num.hasNaN T = true) :
    ∃ m, (sp.eval T nd).nan = .ok m ∧ val m = none := by
  induction sp with
  | base =>
    refine ⟨Num.nan, ?_, NumLaws.nan hN⟩
    change (do assertRes nd (Num.hasNaN T); pure Num.nan : Res T) = _
    rw [hN]; rfl
  | noEmpty c ih => cases h
  | noNan c ih => exact ih h
  | catchNan c ih => exact ih h

/-- Functions to numbers: the bounds and the norm of an empty interval are NaN (`width` and `median`: `C26_empty`). -/
theorem C09_numbers (hE : V.checks.forbidsEmpty = false) (h : Void x) (hN : Num.hasNaN T = true) :
    (∃ m, checkedLower V.C x = .ok m ∧ val m = none) ∧ (∃ m, checkedUpper V.C x = .ok m ∧ val m = none) ∧
    ∃ m, norm V.C x = .ok m ∧ val m = none := by
  have ht := h.test V hE
  obtain ⟨m, hm, hv⟩ := nan_allow (T := T) V.checks V.ndebug hE hN
  unfold checkedLower checkedUpper norm
  rw [ht]
  exact ⟨⟨m, hm, hv⟩, ⟨m, hm, hv⟩, ⟨m, hm, hv⟩⟩

/-- The two parts of a quotient, as they are used: the second with the flag returned by the first. -/
theorem C09_parts (hE : V.checks.forbidsEmpty = false) (h : Void x ∨ Void y) :
    V.Returns (do
      let p ← divisionPart1 V.P x y
      let q ← divisionPart2 V.P x y p.2
      pure (p.1, q)) fun r => Void r.1 ∧ Void r.2 := by
  have ht : testII V.P.chk V.P.chk x y = .ok true := by
    rw [V.P_chk]; rcases h with h | h
    · exact test2_left V hE h
    · exact test2_right V hE h
  obtain ⟨z, hz, hv⟩ := V.emptyI_void hE
  unfold divisionPart1
  rw [m_if_true ht, V.P_chk, m_bind_ok hz]
  change V.Returns (do
      let q ← divisionPart2 V.P x y false
      pure (z, q)) _
  unfold divisionPart2
  rw [if_pos (show (!false) = true from rfl), V.P_chk, m_bind_ok hz]
  exact fun s _ => ⟨_, rfl, rfl, hv, hv⟩

theorem Env.cur_void {f : RMode → Option T} {k : T → M V.ctl.W (Itv T)} (hf : ∀ r, ∃ t, f r = some t ∧ val t ≠ none)
    (hk : ∀ t, val t ≠ none → V.Returns (k t) Void) : V.Returns (V.P.cur f >>= k) Void := by
  have e : V.P.cur f = evalIn V.ctl f := by
    unfold Env.P libPolicies
    clear hk k
    rcases V with ⟨_, _, κ, _, _, _⟩
    cases κ <;> rfl
  rw [e]
  intro s hs
  obtain ⟨t, h1, h2⟩ := hf (V.ctl.decode s.cw)
  have : (evalIn V.ctl f >>= k) s = k t s := by
    change M.bind (evalIn V.ctl f) k s = _
    unfold M.bind evalIn
    simp only [h1]
    rfl
  rw [this]; exact hk t h2 s hs

/-- The operators with a built-in integer (ext/integer.hpp), whether it is representable or not. -/
theorem C09_integer (hE : V.checks.forbidsEmpty = false) (h : Void x) {n : Int}
    (hn : ∀ r, ∃ t : T, Num.ofInt r n = some t ∧ val t ≠ none) :
    V.Returns (addIInt V.P x n) Void ∧ V.Returns (addIntI V.P n x) Void ∧
    V.Returns (subIInt V.P x n) Void ∧ V.Returns (subIntI V.P n x) Void ∧
    V.Returns (mulIInt V.P x n) Void ∧ V.Returns (mulIntI V.P n x) Void ∧
    V.Returns (divIInt V.P x n) Void ∧ V.Returns (divIntI V.P n x) Void := by
  have hl := fun t (ht : val t ≠ none) => C09_binary_num_left V hE (.inl ⟨h, ht⟩)
  have hr := fun t (ht : val t ≠ none) => C09_binary_num_right V hE (.inl ⟨h, ht⟩)
  exact ⟨V.cur_void hn fun t ht => (hr t ht).1, V.cur_void hn fun t ht => (hl t ht).1,
    V.cur_void hn fun t ht => (hr t ht).2.1, V.cur_void hn fun t ht => (hl t ht).2.1,
    V.cur_void hn fun t ht => (hr t ht).2.2.1, V.cur_void hn fun t ht => (hl t ht).2.2.1,
    V.cur_void hn fun t ht => (hr t ht).2.2.2.1, V.cur_void hn fun t ht => (hl t ht).2.2.2.1⟩

/-- Construction from NaN. -/
theorem C09_construct (hE : V.checks.forbidsEmpty = false) (hN : V.checks.seesNan = true) (ht : val t = none) :
    (∃ z, ctorT V.C t = .ok z ∧ Void z) ∧ (∃ z, ctorTT V.C t s = .ok z ∧ Void z) ∧ ∃ z, ctorTT V.C s t = .ok z ∧ Void z := by
  obtain ⟨z, hz, hv⟩ := V.emptyI_void hE
  have h1 := isNan_true V hN ht
  refine ⟨⟨z, ?_, hv⟩, ⟨z, ?_, hv⟩, ⟨z, ?_, hv⟩⟩
  · unfold ctorT; rw [h1]; exact hz
  · unfold ctorTT; rw [h1]; exact hz
  · obtain ⟨b, hb⟩ : ∃ b, V.C.isNan s = .ok b := ⟨_, isNan_sees _ _ hN s⟩
    unfold ctorTT; rw [h1, hb]; cases b <;> exact hz

theorem add_nan_right {f : Fmt} (r : RMode) (a : Fl f) : Num.add r a Fl.nan = some (Fl.nan : Fl f) := by
  change some (Fl.add r a .nan) = _
  cases a <;> rfl

theorem sub_nan_right {f : Fmt} (r : RMode) (a : Fl f) : Num.sub r a Fl.nan = some (Fl.nan : Fl f) := by
  change some (Fl.add r a .nan) = _
  cases a <;> rfl

theorem sub_nan_left {f : Fmt} (r : RMode) (a : Fl f) : Num.sub r Fl.nan a = some (Fl.nan : Fl f) := by
  change some (Fl.add r .nan a.neg) = _
  rfl

theorem isEmpty_forbid (sp : ChkSpec) (nd : Bool) (h : sp.forbidsEmpty = true) (l u : T) :
    (sp.eval T nd).isEmpty l u = .ok false := by
  induction sp with
  | base => cases h
  | noEmpty c ih => rfl
  | noNan c ih => exact ih h
  | catchNan c ih => exact ih h

/-- `widen` by NaN, in floating point, with any policy. -/
theorem C09_widen_nan {f : Fmt} (V : Env (Fl f)) (hk : V.kind ≠ .exact) (x : Itv (Fl f)) :
    V.Returns (widen V.P x Fl.nan) Void := by
  refine V.run (V.fl_directed hk) (fun _ h => widen_sim h x Fl.nan) ?_
  have hw : Post True (mk2 (V.B.subDown x.lower Fl.nan) (V.B.addUp x.upper Fl.nan)) (Void : Itv (Fl f) → Prop) := by
    have h1 : V.B.subDown x.lower Fl.nan = .ok Fl.nan := by
      unfold Env.B pureArith
      cases h : V.kind with
      | exact => exact absurd h hk
      | std => change ofOpt (Num.sub .down x.lower Fl.nan) = _; rw [sub_nan_right]; rfl
      | opp => change negRes (Num.sub .up Fl.nan x.lower) = _; rw [sub_nan_left]; rfl
    have h2 : V.B.addUp x.upper Fl.nan = .ok Fl.nan := by
      unfold Env.B pureArith
      cases h : V.kind with
      | exact => exact absurd h hk
      | std => change ofOpt (Num.add .up x.upper Fl.nan) = _; rw [add_nan_right]; rfl
      | opp => change ofOpt (Num.add .up x.upper Fl.nan) = _; rw [add_nan_right]; rfl
    rw [h1, h2]
    exact (fun _ _ h => by cases h)
  unfold widen
  rw [pure_chk, pure_scope, pure_rnd]
  cases hE : V.checks.forbidsEmpty with
  | true =>
    rw [res_if_false (show testI V.C x = .ok false from isEmpty_forbid _ _ hE _ _)]
    exact hw
  | false =>
    have ht : testI V.C x = .ok (!Num.le x.lower x.upper) := isEmpty_allow _ _ hE _ _
    obtain ⟨z, hz, hv⟩ := V.emptyI_void hE
    rw [ht]
    cases Num.le x.lower x.upper
    · change Post True (emptyI V.C) _
      rw [hz]; exact hv
    · exact hw

/-- With the default policies there are no empty intervals to start from: the only way to one throws. -/
theorem C09_strict_throws (h : V.checks = .strict) : emptyI V.C = (.error .emptyCreated : Res (Itv T)) := by
  unfold Env.C; rw [h]; rfl

/-! ## C11 -/

theorem C11_catch_left (hN : V.checks.catchesNan = true) (ht : val t = none) :
    V.Throws (addTI V.P t y) .invalidNumber ∧ V.Throws (subTI V.P t y) .invalidNumber ∧
    V.Throws (mulTI V.P t y) .invalidNumber ∧ V.Throws (divTI V.P t y) .invalidNumber ∧
    V.Throws (fmodTI V.P t y) .invalidNumber ∧ V.Throws (addIT V.P y t) .invalidNumber ∧
    V.Throws (mulIT V.P y t) .invalidNumber ∧ minTI V.C t y = .error .invalidNumber ∧
    maxTI V.C t y = .error .invalidNumber ∧ inI V.C t y = .error .invalidNumber ∧
    hullTI V.C t y = .error .invalidNumber ∧ ctorT V.C t = .error .invalidNumber := by
  have h1 : testTI V.P.chk t y = .error .invalidNumber := by rw [V.P_chk]; exact testTI_catch V hN ht
  have h2 : ∀ q : M V.ctl.W (Itv T), V.Throws (do if ← lift (testTI V.P.chk t y) then lift (emptyI V.P.chk) else q)
      .invalidNumber := fun q => V.throws_lift (m_if_err h1 _ _)
  have h3 := testTI_catch V (y := y) hN ht
  have h4 : V.C.isNan t = .error .invalidNumber := isNan_catches _ _ hN ht
  refine ⟨h2 _, h2 _, h2 _, h2 _, h2 _, h2 _, h2 _, ?_, ?_, ?_, ?_, ?_⟩
  · unfold minTI; rw [h3]; rfl
  · unfold maxTI; rw [h3]; rfl
  · unfold inI; rw [h3]; rfl
  · unfold hullTI testT; rw [h4]; rfl
  · unfold ctorT; rw [h4]; rfl

/-- When the number is the right operand the interval is tested first, so it has to be non-empty. -/
theorem C11_catch_right (hN : V.checks.catchesNan = true) (ht : val t = none) (hx : (γ x).Nonempty) :
    V.Throws (subIT V.P x t) .invalidNumber ∧ V.Throws (divIT V.P x t) .invalidNumber ∧
    V.Throws (fmodIT V.P x t) .invalidNumber ∧ minIT V.C x t = .error .invalidNumber ∧
    maxIT V.C x t = .error .invalidNumber ∧ hullIT V.C x t = .error .invalidNumber := by
  have h1 : testIT V.P.chk x t = .error .invalidNumber := by rw [V.P_chk]; exact testIT_catch V hN ht hx
  have h2 : ∀ q : M V.ctl.W (Itv T), V.Throws (do if ← lift (testIT V.P.chk x t) then lift (emptyI V.P.chk) else q)
      .invalidNumber := fun q => V.throws_lift (m_if_err h1 _ _)
  have h3 := testIT_catch V hN ht hx
  have h4 : V.C.isNan t = .error .invalidNumber := isNan_catches _ _ hN ht
  obtain ⟨_, _, ix⟩ := has_of_nonempty hx
  have h5 := ix.test V.chk
  refine ⟨h2 _, V.throws_lift (m_bind_err h1 _), h2 _, ?_, ?_, ?_⟩
  · unfold minIT; rw [h3]; rfl
  · unfold maxIT; rw [h3]; rfl
  · unfold hullIT testT; rw [h4, h5]; rfl

theorem C11_catch_two (hN : V.checks.catchesNan = true) (ht : val s = none ∨ val t = none) :
    V.Throws (addTT V.P s t) .invalidNumber ∧ V.Throws (subTT V.P s t) .invalidNumber ∧
    V.Throws (mulTT V.P s t) .invalidNumber ∧ V.Throws (divTT V.P s t) .invalidNumber ∧
    ctorTT V.C s t = .error .invalidNumber ∧ hullTT V.C s t = .error .invalidNumber := by
  have h1 : testTT V.C s t = .error .invalidNumber := by
    rcases ht with h | h
    · exact testTT_catch_left V hN h
    · exact testTT_catch_right V hN h
  have h1' : testTT V.P.chk s t = .error .invalidNumber := by rw [V.P_chk]; exact h1
  have h2 : ∀ q : M V.ctl.W (Itv T), V.Throws (do if ← lift (testTT V.P.chk s t) then lift (emptyI V.P.chk) else q)
      .invalidNumber := fun q => V.throws_lift (m_if_err h1' _ _)
  refine ⟨h2 _, h2 _, h2 _, V.throws_lift (m_bind_err h1' _), ?_, ?_⟩
  all_goals
    by_cases hs : val s = none
    · have h4 : V.C.isNan s = .error .invalidNumber := isNan_catches _ _ hN hs
      first
        | (unfold ctorTT; rw [h4]; rfl)
        | (unfold hullTT; rw [h4]; rfl)
    · obtain ⟨a, ha⟩ := Option.ne_none_iff_exists'.1 hs
      have h4 : V.C.isNan t = .error .invalidNumber := isNan_catches _ _ hN (ht.resolve_left hs)
      have h5 := V.chk.isNan s a ha
      first
        | (unfold ctorTT; rw [h5, h4]; rfl)
        | (unfold hullTT; rw [h5, h4]; rfl)

/-- The exceptions. The interval is tested first when the number is on the right, so nothing is thrown if it is empty. -/
theorem C11_empty_first (hE : V.checks.forbidsEmpty = false) (hx : Void x) :
    V.Returns (subIT V.P x t) Void ∧ V.Returns (divIT V.P x t) Void ∧ V.Returns (fmodIT V.P x t) Void := by
  have ht : testIT V.P.chk x t = .ok true := by rw [V.P_chk]; exact testIT_void V hE hx
  refine ⟨V.test_void hE ht, V.returns_void hE ?_, V.test_void hE ht⟩
  unfold divIT
  rw [m_bind_ok ht, V.P_chk]
  rfl

/-- `widen` never looks at its second argument: a NaN makes the result NaN although the policy catches NaN. -/
theorem C11_widen : flt.checks.catchesNan = true ∧
    (match (widen flt.P (litI 1 2) Num.nan (⟨0x37f#16, fun _ => true⟩ : flt.State)).1 with
    | .ok z => z.lower == Num.nan && z.upper == Num.nan
    | .error _ => false) = true := by
  refine ⟨rfl, ?_⟩
  decide +kernel

/-- A number that is not NaN never triggers the exception. -/
theorem C11_not_nan (ht : val t ≠ none) : V.C.isNan t = .ok false := by
  obtain ⟨a, ha⟩ := Option.ne_none_iff_exists'.1 ht
  exact V.chk.isNan t a ha

/-! ## Witnesses -/

/-- `checking_base` over floats; NaN, and the empty interval made from it, meet the hypotheses of C09. -/
noncomputable def fltBase : Env (Fl Fmt.single) := { flt with checks := .base }

example : Void (⟨Num.nan, Num.nan⟩ : Itv (Fl Fmt.single)) := fun l u h => by cases h
example : fltBase.Returns (addII fltBase.P ⟨Num.nan, Num.nan⟩ (litI 1 2)) Void :=
  (C09_binary fltBase rfl (.inl fun l u h => by cases h)).1
example : fltBase.Returns (divTI fltBase.P Num.nan (litI 1 2)) Void :=
  (C09_binary_num_left fltBase rfl (.inr ⟨rfl, rfl⟩)).2.2.2.1
private theorem nanVoid : Void (⟨Num.nan, Num.nan⟩ : Itv (Fl Fmt.single)) := fun l u h => by cases h
example := C09_hull_num fltBase (t := Num.nan) (s := Num.nan) rfl nanVoid
example := C09_numbers fltBase rfl nanVoid rfl
example := C09_parts fltBase (y := litI 1 2) rfl (.inl nanVoid)
example := C09_integer fltBase rfl nanVoid (n := 16777217) fun r => by cases r <;> exact ⟨_, rfl, by decide +kernel⟩
example := C09_construct fltBase (t := Num.nan) (s := Num.nan) rfl rfl rfl
example := C09_widen_nan fltBase (by decide) (litI 1 2)
example := C11_empty_first flt (t := Num.nan) rfl nanVoid
/-- An inverted interval counts as empty. -/
example : ratEnv.checks = .strict := rfl
example : Void (⟨2, 1⟩ : Itv ℚ) := fun l u h1 h2 => by
  cases h1; cases h2
  exact EReal.coe_lt_coe_iff.2 (by norm_num)
example : flt.Throws (addTI flt.P Num.nan (litI 1 2)) .invalidNumber := (C11_catch_left flt rfl rfl).1

end BI
