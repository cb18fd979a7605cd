import Verif.Proofs.CutProg
import Verif.Proofs.Instances
/-!
# C84: the `Exception` arguments of the checking templates

doc/checking.htm: `checking_no_empty` and `checking_catch_nan` call a function object supplied by the user. No law of the
base type, the control word, or the elementary functions is assumed, and the operands are arbitrary.
-/

namespace BI
variable {T : Type} [Num T]

/-- The relation of Proofs/Cut.lean for two compositions. -/
private theorem ccut_of {G : CutRel} {b b' : Bool} (hb : b = b' ∨ b' = true ∧ G .assertion none) {c c' : ChkX T}
    (h : c.Covers c') (hG : ∀ e o, c.Replaced c' e o → G e o) : CCut G (c.eval T b) (c'.eval T b') := by
  have obj : ∀ {α β : Type} {h h' : Res α} {r r' : Res β}, (h.thrown = none → h'.thrown = none) →
      (∀ e o, h.thrown = some e ∧ h'.thrown = o → G e o) → RCut G r r' →
      RCut G (h >>= fun _ => r) (h' >>= fun _ => r') := by
    intro α β h h' r r' h1 h2 h3
    cases h with
    | error e =>
      refine .inr ⟨e, rfl, ?_⟩
      cases h' with
      | error e' => exact .inr ⟨e', h2 e _ ⟨rfl, rfl⟩, rfl⟩
      | ok v => exact .inl (h2 e _ ⟨rfl, rfl⟩)
    | ok v =>
      cases h' with
      | error e' => exact absurd (h1 rfl) (by simp [Res.thrown])
      | ok v' => exact h3
  induction c generalizing c' with
  | base =>
    cases c' with
    | base =>
      exact ⟨(assert_rcut hb _).bind fun _ => RCut.refl _, (assert_rcut hb _).bind fun _ => RCut.refl _,
        (assert_rcut hb _).bind fun _ => RCut.refl _, fun _ => RCut.refl _, RCut.refl _, RCut.refl _, fun _ _ => RCut.refl _⟩
    | _ => exact h.elim
  | noEmpty x c ih =>
    cases c' with
    | noEmpty x' c' =>
      have ih := ih h.2 fun e o hr => hG e o (.inr hr)
      have hx := fun e o hr => hG e o (.inl hr)
      exact ⟨ih.posInf, ih.negInf, (assert_rcut hb _).bind fun _ => ih.nan, ih.isNan, obj h.1 hx ih.emptyLower,
        obj h.1 hx ih.emptyUpper, fun _ _ => RCut.refl _⟩
    | _ => exact h.elim
  | noNan c ih =>
    cases c' with
    | noNan c' =>
      have ih := ih h hG
      exact ⟨ih.posInf, ih.negInf, ih.nan, fun _ => RCut.refl _, ih.emptyLower, ih.emptyUpper, ih.isEmpty⟩
    | _ => exact h.elim
  | catchNan x c ih =>
    cases c' with
    | catchNan x' c' =>
      have ih := ih h.2 fun e o hr => hG e o (.inr hr)
      have hx := fun e o hr => hG e o (.inl hr)
      refine ⟨ih.posInf, ih.negInf, ih.nan, fun v => (ih.isNan v).bind fun t => ?_, ih.emptyLower, ih.emptyUpper, ih.isEmpty⟩
      cases t
      · exact RCut.refl _
      · exact obj h.1 hx (RCut.refl (.ok false))
    | _ => exact h.elim

/-- The compositions of Model/Checking.lean are those with the default function objects. -/
theorem C84_default (b : Bool) (c : ChkSpec) : (c.toX T).eval T b = c.eval T b := by
  induction c with
  | base => rfl
  | noEmpty c ih => change chkNoEmptyX b (.error .emptyCreated) _ = _; rw [ih]; rfl
  | noNan c ih => change chkNoNan _ = _; rw [ih]; rfl
  | catchNan c ih => change chkCatchNanX (.error .invalidNumber) _ = _; rw [ih]; rfl

/-- Replacing function objects changes the run of a program only from the moment on at which one of them is called: unless
the program ended with an exception thrown by a function object of the first policy, the two runs have the same result and
leave the same machine state; and if the function object that threw is replaced by one that throws, the second run ends
at the same place with the other exception. -/
theorem C84_program (ct : Ctl) (k : RKind) (lib : Lib T) (b : Bool) {c c' : ChkX T} (h : c.Covers c') {α : Type}
    (p : Prog T α) (hp : p.Library) (s : St ct.W) :
    let r := p.run (libPolicies ct k lib (c.eval T b)) s
    let r' := p.run (libPolicies ct k lib (c'.eval T b)) s
    r' = r ∨ ∃ e, r.1 = .error e ∧ (c.Replaced c' e none ∨ ∃ e', c.Replaced c' e (some e') ∧ r' = (.error e', r.2)) := by
  have hc := lib_pcut ct k lib (ccut_of (G := c.Replaced c') (b := b) (b' := b) (.inl rfl) h fun _ _ h => h)
  have hr := p.cut hp hc.1 s
  rw [hc.2] at hr
  exact hr

/-- The same for the evaluation of a formula, whose operands are evaluated in an order chosen by the implementation. -/
theorem C84_formula (ct : Ctl) (k : RKind) (lib : Lib T) (b : Bool) {c c' : ChkX T} (h : c.Covers c') (K : PiConst T)
    (fuel : Nat) (ρ : Nat → Itv T) (t : Expr T) (s : St ct.W) :
    let r := t.eval K fuel (libPolicies ct k lib (c.eval T b)) ρ s
    let r' := t.eval K fuel (libPolicies ct k lib (c'.eval T b)) ρ s
    r' = r ∨ ∃ e, r.1 = .error e ∧ (c.Replaced c' e none ∨ ∃ e', c.Replaced c' e (some e') ∧ r' = (.error e', r.2)) := by
  have hc := lib_pcut ct k lib (ccut_of (G := c.Replaced c') (b := b) (b' := b) (.inl rfl) h fun _ _ h => h)
  have hr := t.cut hc.1 K fuel ρ s
  rw [hc.2] at hr
  exact hr

private theorem replaced_throws {c c' : ChkX T} {e : Err} {o : Option Err} (h : c.Replaced c' e o) :
    c.CanThrow e ∧ (c'.AllThrow → ∃ e', o = some e' ∧ c'.CanThrow e') := by
  have out : ∀ {α : Type} {h : Res α} {e}, h.thrown = some e → h = .error e := by
    intro α h e he
    cases h with
    | ok _ => cases he
    | error e' => cases he; rfl
  have thr : ∀ {α : Type} {h : Res α} {o}, h.thrown = o → (∃ e, h = .error e) → ∃ e', o = some e' ∧ h = .error e' := by
    rintro α h o rfl ⟨e, rfl⟩
    exact ⟨e, rfl, rfl⟩
  induction c generalizing c' with
  | base => exact h.elim
  | noEmpty x c ih =>
    cases c' with
    | noEmpty x' c' =>
      rcases h with h | h
      · exact ⟨.inl (out h.1), fun ha => let ⟨e', h1, h2⟩ := thr h.2 ha.1; ⟨e', h1, .inl h2⟩⟩
      · exact ⟨.inr (ih h).1, fun ha => let ⟨e', h1, h2⟩ := (ih h).2 ha.2; ⟨e', h1, .inr h2⟩⟩
    | _ => exact h.elim
  | noNan c ih =>
    cases c' with
    | noNan c' => exact ih (c' := c') h
    | _ => exact h.elim
  | catchNan x c ih =>
    cases c' with
    | catchNan x' c' =>
      rcases h with h | h
      · exact ⟨.inl (out h.1), fun ha => let ⟨e', h1, h2⟩ := thr h.2 ha.1; ⟨e', h1, .inl h2⟩⟩
      · exact ⟨.inr (ih h).1, fun ha => let ⟨e', h1, h2⟩ := (ih h).2 ha.2; ⟨e', h1, .inr h2⟩⟩
    | _ => exact h.elim

/-- A program that ends normally does so with the same result and the same machine state under every policy in which
function objects are replaced. -/
theorem C84_normal (ct : Ctl) (k : RKind) (lib : Lib T) (b : Bool) {c c' : ChkX T} (h : c.Covers c') {α : Type}
    (p : Prog T α) (hp : p.Library) (s s' : St ct.W) (z : α) (hr : p.run (libPolicies ct k lib (c.eval T b)) s = (.ok z, s')) :
    p.run (libPolicies ct k lib (c'.eval T b)) s = (.ok z, s') := by
  rcases C84_program ct k lib b h p hp s with h1 | ⟨e, h1, _⟩
  · exact h1.trans hr
  · rw [hr] at h1; cases h1

/-- If all function objects throw, they only determine the exception: the two runs are the same, or both end at the same
place, each with an exception of its function objects. -/
theorem C84_throwing (ct : Ctl) (k : RKind) (lib : Lib T) (b : Bool) {c c' : ChkX T} (h : c.Covers c') (h' : c'.AllThrow)
    {α : Type} (p : Prog T α) (hp : p.Library) (s : St ct.W) :
    let r := p.run (libPolicies ct k lib (c.eval T b)) s
    let r' := p.run (libPolicies ct k lib (c'.eval T b)) s
    r' = r ∨ ∃ e e', c.CanThrow e ∧ c'.CanThrow e' ∧ r.1 = .error e ∧ r' = (.error e', r.2) := by
  rcases C84_program ct k lib b h p hp s with h1 | ⟨e, h1, h2 | ⟨e', h2, h3⟩⟩
  · exact .inl h1
  · obtain ⟨_, he, _⟩ := (replaced_throws h2).2 h'
    cases he
  · obtain ⟨_, he, h4⟩ := (replaced_throws h2).2 h'
    cases he
    exact .inr ⟨e, e', (replaced_throws h2).1, h4, h1, h3⟩

/-- Compiling with `NDEBUG` has no effect on a program whose assertions hold. -/
theorem C84_ndebug (ct : Ctl) (k : RKind) (lib : Lib T) (c : ChkX T) {α : Type} (p : Prog T α) (hp : p.Library)
    (s : St ct.W) (hs : ((p.ndebug false).run (libPolicies ct k lib (c.eval T false)) s).1 ≠ .error .assertion) :
    (p.ndebug true).run (libPolicies ct k lib (c.eval T true)) s =
      (p.ndebug false).run (libPolicies ct k lib (c.eval T false)) s := by
  have hc : CCut (fun e o => e = .assertion ∧ o = none) (c.eval T false) (c.eval T true) := by
    have ha : ∀ t, RCut (fun e o => e = .assertion ∧ o = none) (assertRes false t) (assertRes true t) :=
      assert_rcut (.inr ⟨rfl, rfl, rfl⟩)
    clear hs
    induction c with
    | base =>
      exact ⟨(ha _).bind fun _ => RCut.refl _, (ha _).bind fun _ => RCut.refl _, (ha _).bind fun _ => RCut.refl _,
        fun _ => RCut.refl _, RCut.refl _, RCut.refl _, fun _ _ => RCut.refl _⟩
    | noEmpty x c ih =>
      exact ⟨ih.posInf, ih.negInf, (ha _).bind fun _ => ih.nan, ih.isNan, (RCut.refl x).bind fun _ => ih.emptyLower,
        (RCut.refl x).bind fun _ => ih.emptyUpper, fun _ _ => RCut.refl _⟩
    | noNan c ih => exact ⟨ih.posInf, ih.negInf, ih.nan, fun _ => RCut.refl _, ih.emptyLower, ih.emptyUpper, ih.isEmpty⟩
    | catchNan x c ih =>
      exact ⟨ih.posInf, ih.negInf, ih.nan, fun v => (ih.isNan v).bind fun _ => RCut.refl _, ih.emptyLower, ih.emptyUpper,
        ih.isEmpty⟩
  have hl := lib_pcut ct k lib hc
  have hr := p.cut_nd ⟨rfl, rfl⟩ (fun _ _ h => by cases h.2) hp hl.1 s
  rw [hl.2] at hr
  rcases hr with hr | ⟨e, h1, ⟨rfl, _⟩ | ⟨_, ⟨_, h2⟩, _⟩⟩
  · exact hr
  · exact absurd h1 hs
  · cases h2

/-- A function object that throws is called, first of all, when an empty interval is about to be created, and when an
invalid number is tested; the tests then answer `false`. -/
theorem C84_called (b : Bool) (c : ChkX T) (e : Err) (v : T) :
    emptyI ((ChkX.noEmpty (.error e) c).eval T b) = .error e ∧
    emptyI ((ChkX.noNan (.noEmpty (.error e) c)).eval T b) = .error e ∧
    (∀ h, emptyI ((ChkX.catchNan h (.noEmpty (.error e) c)).eval T b) = .error e) ∧
    ((c.eval T b).isNan v = .ok true → ((ChkX.catchNan (.error e) c).eval T b).isNan v = .error e) ∧
    ((c.eval T b).isNan v = .ok false → ((ChkX.catchNan (.error e) c).eval T b).isNan v = .ok false) ∧
    (∀ h l u, ((ChkX.noEmpty h c).eval T b).isEmpty l u = .ok false) ∧
    ((c.eval T b).isNan v = .ok true → ((ChkX.catchNan (.ok ()) c).eval T b).isNan v = .ok false) := by
  refine ⟨rfl, rfl, fun _ => rfl, fun h => ?_, fun h => ?_, fun _ _ _ => rfl, fun h => ?_⟩
  · change ((c.eval T b).isNan v >>= _) = _; rw [h]; rfl
  · change ((c.eval T b).isNan v >>= _) = _; rw [h]; rfl
  · change ((c.eval T b).isNan v >>= _) = _; rw [h]; rfl

/-- doc/checking.htm says that the value returned by the function object of `checking_no_empty` is propagated. Instead it
is dropped, and the bounds are those of the policy below: the claim holds only if these agree. -/
theorem C84_value_partial (b : Bool) (c : ChkX T) (v : T) :
    ((ChkX.noEmpty (.ok v) c).eval T b).emptyLower = (c.eval T b).emptyLower ∧
    ((ChkX.noEmpty (.ok v) c).eval T b).emptyUpper = (c.eval T b).emptyUpper := ⟨rfl, rfl⟩

/-- A function object returning 7, over `double`: the bounds of the intersection of `[0, 1]` and `[2, 3]` are not 7 but
NaN, and the library says that this interval is not empty. -/
theorem C84_violated :
    let C := (ChkX.noEmpty (.ok (Num.lit 7)) .base).eval (Fl .double) true
    ∃ z, intersect C (litI 0 1) (litI 2 3) = .ok z ∧ z = ⟨.nan, .nan⟩ ∧ C.emptyLower ≠ .ok (Num.lit 7) ∧
      isEmptyI C z = .ok false :=
  ⟨⟨.nan, .nan⟩, by decide +kernel, rfl, by decide +kernel, rfl⟩

/-! ## The hypotheses can be met -/

/-- The default policy of the library with an exception of the program. -/
example : ((ChkSpec.strict.toX (Fl .double)).Covers (.noNan (.noEmpty (.error (.user 1)) .base))) ∧
    (ChkX.noNan (.noEmpty (.error (.user 1)) .base) : ChkX (Fl .double)).AllThrow :=
  ⟨⟨(fun h => by cases h), trivial⟩, ⟨_, rfl⟩, trivial⟩

/-- A quotient and an intersection that is empty. -/
def handlerProg : Prog (Fl .double) (Itv (Fl .double)) :=
  .region (.call (.divII (litI 1 2) (litI 4 8)) fun z => .call (.chk (intersect · z (litI 2 3))) fun w => .ret w) fun w =>
    .call (.nthRoot true 5 w 3) fun r => .ret r

example : handlerProg.Library :=
  ⟨⟨trivial, fun _ => ⟨.intersect _ _, fun _ => trivial⟩⟩, fun _ => ⟨trivial, fun _ => trivial⟩⟩

/-- A program that ends normally in a region: the hull of two intervals meets a third one. -/
def normalProg : Prog (Fl .double) (Itv (Fl .double)) :=
  .region (.call (.chk (hullII · (litI 0 1) (litI 2 3))) fun z => .call (.chk (intersect · z (litI 1 2))) fun w => .ret w)
    fun w => .ret w

theorem normalProg_library : normalProg.Library :=
  ⟨⟨.hullII _ _, fun _ => ⟨.intersect _ _, fun _ => trivial⟩⟩, fun _ => trivial⟩

theorem normalProg_run (ct : Ctl) (lib : Lib (Fl .double)) (b : Bool) (s : St ct.W) :
    ∃ s', normalProg.run (libPolicies ct .opp lib ((ChkSpec.strict.toX (Fl .double)).eval _ b)) s = (.ok (litI 1 2), s') := by
  have e1 : hullII ((ChkSpec.strict.toX (Fl .double)).eval _ b) (litI 0 1) (litI 2 3) = .ok (litI 0 3) := by
    cases b <;> decide +kernel
  have e2 : intersect ((ChkSpec.strict.toX (Fl .double)).eval _ b) (litI 0 3) (litI 1 2) = .ok (litI 1 2) := by
    cases b <;> decide +kernel
  refine ⟨{ s with cw := ct.set (ct.get s.cw) (ct.upward s.cw) }, ?_⟩
  change M.bind ((saveState ct (initOf ct .opp) (arithOf ct .opp lib)).scope
    (M.bind (lift (hullII ((ChkSpec.strict.toX (Fl .double)).eval _ b) (litI 0 1) (litI 2 3))) fun z =>
      M.bind (lift (intersect ((ChkSpec.strict.toX (Fl .double)).eval _ b) z (litI 1 2))) fun w => pure w))
    (fun w => pure w) s = _
  rw [e1]
  change M.bind ((saveState ct (initOf ct .opp) (arithOf ct .opp lib)).scope
    (M.bind (lift (intersect ((ChkSpec.strict.toX (Fl .double)).eval _ b) (litI 0 3) (litI 1 2))) fun w => pure w))
    (fun w => pure w) s = _
  rw [e2]
  rfl

/-- The hypotheses of `C84_normal`, with a function object that returns. -/
example (ct : Ctl) (lib : Lib (Fl .double)) (s : St ct.W) :
    ∃ s', normalProg.run (libPolicies ct .opp lib ((ChkX.noNan (.noEmpty (.ok .nan) .base)).eval _ true)) s =
      (.ok (litI 1 2), s') := by
  obtain ⟨s', h⟩ := normalProg_run ct lib true s
  have hc : (ChkSpec.strict.toX (Fl .double)).Covers (.noNan (.noEmpty (.ok .nan) .base)) := ⟨(fun _ => rfl), trivial⟩
  exact ⟨s', C84_normal ct .opp lib true hc normalProg normalProg_library s s' _ h⟩

/-- The hypotheses of `C84_ndebug`. -/
example (ct : Ctl) (lib : Lib (Fl .double)) (s : St ct.W) :
    (normalProg.ndebug true).run (libPolicies ct .opp lib ((ChkSpec.strict.toX (Fl .double)).eval _ true)) s =
    (normalProg.ndebug false).run (libPolicies ct .opp lib ((ChkSpec.strict.toX (Fl .double)).eval _ false)) s := by
  obtain ⟨s', h⟩ := normalProg_run ct lib false s
  refine C84_ndebug ct .opp lib _ normalProg normalProg_library s ?_
  have h : (normalProg.ndebug false).run (libPolicies ct .opp lib ((ChkSpec.strict.toX (Fl .double)).eval _ false)) s =
    (.ok (litI 1 2), s') := h
  rw [h]
  exact (fun h => by cases h)

/-- The exceptions of `C84_throwing`: an empty intersection. -/
example : intersect ((ChkX.noNan (.noEmpty (.error (.user 1)) .base)).eval (Fl .double) true) (litI 0 1) (litI 2 3) =
    .error (.user 1) ∧
    intersect ((ChkX.noNan (.noEmpty (.error (.user 2)) .base)).eval (Fl .double) true) (litI 0 1) (litI 2 3) =
    .error (.user 2) := by
  constructor <;> decide +kernel

end BI
