import Verif.Spec.PolicyTypes
import Verif.Spec.Client
import Verif.Proofs.PolicyTypes
import Verif.Proofs.Instances
import Verif.Props.HwRounding
/-!
# C89: stacks of rounding classes

What the types of rounding.hpp and policies.hpp mean: `unprotect` and the changes of policies, lifetime of rounding objects
of any stack of classes, and arithmetic and transcendental classes of different kinds.
-/

namespace BI

section
variable {c : Ctl} {T : Type} [Num T] {lib : Lib T} {nd : Bool} {α : Type}

/-! ## The policies of the model are those of the types -/

/-- `save_state<rounded_transc_K<T, rounded_arith_K<T>>>` -/
theorem C89_protected (k : RKind) (chk : ChkSpec) :
    (IType.mk (.save (.transc k (.arith k .control))) chk).policies c lib nd = some (protPolicies c k lib (chk.eval T nd)) := by
  cases k <;> rfl

/-- `save_state_nothing<rounded_transc_K<T, rounded_arith_K<T>>>` -/
theorem C89_nothing (k : RKind) (chk : ChkSpec) :
    (IType.mk (.nothing (.transc k (.arith k .control))) chk).policies c lib nd = some (barePolicies c k lib (chk.eval T nd)) := by
  cases k <;> rfl

/-! ## unprotect -/

theorem unprot_unprot {r u : RClass} (h : r.unprotectedRounding = some u) : u.unprotectedRounding = some u := by
  induction r with
  | control => cases h
  | arith _ r ih | transc _ r ih | derived r ih => exact ih h
  | save r | unprotected r | nothing r => cases h; rfl

/-- `unprotect` applied twice is `unprotect`: functions may take the unprotected type of an unprotected type. -/
theorem C89_idempotent (t u : IType) (h : t.unprotect = some u) : u.unprotect = some u := by
  obtain ⟨r, k⟩ := t
  unfold IType.unprotect IType.changeRounding at h ⊢
  cases hr : r.unprotectedRounding with
  | none => simp [hr] at h
  | some v =>
    simp only [hr, Option.bind_eq_bind, Option.bind_some, Option.some.injEq] at h
    subst h
    simp [unprot_unprot hr]

example := C89_idempotent ⟨roundedMath true, .strict⟩ ⟨.unprotected (.arith .opp .control), .strict⟩ rfl
/-- A class without state-saving has no unprotected version: `unprotect` does not compile. -/
example : (IType.mk (.arith .opp .control) .strict).unprotect = none := rfl

/-- A type without state-saving by choice is its own unprotected type, so that values need no conversion between the two. -/
theorem C89_nothing_self (r : RClass) (k : ChkSpec) : (IType.mk (.nothing r) k).unprotect = some ⟨.nothing r, k⟩ := rfl

/-- The type `unprotect<I>::type` has the unprotected rounding of `I` as its rounding, and the same checking. -/
theorem C89_unprotect (t u : IType) (P : Policies (M c.W) T) (h : t.unprotect = some u) (hP : t.policies c lib nd = some P) :
    u.policies c lib nd = some P.unprot := by
  have hu := C89_idempotent t u h
  have hk : u.checking = t.checking := by
    unfold IType.unprotect at h
    rw [Option.bind_eq_bind, Option.bind_eq_some_iff] at h
    obtain ⟨r, -, h⟩ := h
    cases h; rfl
  unfold IType.policies at hP ⊢
  rw [h] at hP
  rw [hu, hk]
  dsimp only at hP ⊢
  cases h1 : t.rounding.object c lib (T := T) with
  | none => rw [h1] at hP; cases hP
  | some a =>
    cases h2 : u.rounding.object c lib (T := T) with
    | none => rw [h1, h2] at hP; cases hP
    | some b => rw [h1, h2] at hP; cases hP; rfl

/-- The changes of policies: each keeps the other policy; the last change counts; they commute, also with `unprotect`. -/
theorem C89_change (t : IType) (r r' : RClass) (k k' : ChkSpec) :
    (t.changeRounding r).checking = t.checking ∧ (t.changeRounding r).rounding = r ∧
      (t.changeChecking k).rounding = t.rounding ∧ (t.changeChecking k).checking = k ∧
      (t.changeRounding r).changeRounding r' = t.changeRounding r' ∧
      (t.changeChecking k).changeChecking k' = t.changeChecking k' ∧
      (t.changeRounding r).changeChecking k = (t.changeChecking k).changeRounding r ∧
      (t.changeChecking k).unprotect = t.unprotect.map fun u => u.changeChecking k := by
  refine ⟨rfl, rfl, rfl, rfl, rfl, rfl, rfl, ?_⟩
  obtain ⟨r, q⟩ := t
  unfold IType.unprotect
  cases h : r.unprotectedRounding <;> simp [IType.changeChecking, IType.changeRounding, h]

theorem plain_scope {r : RClass} (h : r.Plain) (a : M c.W α) : r.scope c a = a := by
  induction r with
  | control => rfl
  | save r ih => exact h.elim
  | arith _ r ih | transc _ r ih | unprotected r ih | nothing r ih | derived r ih => exact ih h

/-- Objects of an unprotected class do nothing at construction and destruction. Missing from the full claim: stacks with more
than one class that saves the state (`C89_twice_violated`). -/
theorem C89_unprotected_partial (r u : RClass) (h : r.unprotectedRounding = some u) (hr : r.OneSave) (a : M c.W α) :
    u.scope c a = a := by
  induction r with
  | control => cases h
  | arith _ r ih | transc _ r ih | derived r ih => exact ih h hr
  | save r | unprotected r | nothing r => cases h; exact plain_scope hr a

example := C89_unprotected_partial (c := glibcX86 .sse) (roundedMath true) _ rfl (show RClass.Plain _ from trivial) (evalIn _ fun m => some m)

/-! ## Hiding -/

/-- The outermost arithmetic class of a stack counts, whatever the classes below: its functions hide those of the others. So do
the functions of transcendental classes. -/
theorem C89_outermost (k : RKind) (r : RClass) :
    (∃ o tr, (RClass.arith k r).object c lib = some o ∧ o.toArith = arithWith c k tr) ∧
      ∀ o : Rounding (M c.W) T, (RClass.transc k r).object c lib = some o →
        o.fnDown = (transcOf c k lib).1 ∧ o.fnUp = (transcOf c k lib).2 := by
  refine ⟨⟨_, _, rfl, rfl⟩, fun o h => ?_⟩
  unfold RClass.object at h
  cases hk : (RClass.transc k r).arithKind with
  | none => simp [hk] at h
  | some k' =>
    simp only [hk, RClass.transcKind, Option.some.injEq] at h
    subst h
    cases k' <;> exact ⟨rfl, rfl⟩

/-- Nor does the start of a lifetime depend on the arithmetic classes below the outermost: what is computed in it is computed in
upward direction for `rounded_arith_opp`, else in the direction in force. -/
theorem C89_start (L : CtlLaws c) (k : RKind) (r : RClass) (hr : r.Plain) (f : RMode → Option α) (s : St c.W) (hs : L.valid s.cw) :
    ((RClass.save (.arith k r)).scope c (evalIn c f) s).1 = ofOpt (f (if k = .opp then .up else c.decode s.cw)) := by
  have e : (RClass.save (.arith k r)).scope c (evalIn c f) s = _ :=
    congrFun (plain_scope (c := c) (r := .arith k r) hr _) s
  rw [e]
  cases k with
  | exact => rfl
  | std => rfl
  | opp => exact congrArg (fun m => ofOpt (f m)) (L.decode_up _ hs)

example := C89_start (glibcX86_laws .sse) .std (.derived (.arith .opp .control)) trivial (fun m => some m)
  ⟨(⟨0x037f, 0x1f80⟩ : X86Regs), fun _ => true⟩ (show X86Regs.dir _ _ = X86Regs.dir _ _ by decide)

/-! ## Lifetime -/

/-- Objects of every stack in which some class saves the state restore the control word, whatever is computed in their
lifetime, if it only switches directions. -/
theorem C89_restores (L : CtlLaws c) (r : RClass) (hr : ¬ r.Plain) (a : M c.W α)
    (ha : ∀ s, L.valid s.cw → L.same s.cw (a s).2.cw) (s : St c.W) (hs : L.valid s.cw) : (r.scope c a s).2.cw = s.cw := by
  induction r generalizing a with
  | control => exact absurd trivial hr
  | arith _ r ih | transc _ r ih | unprotected r ih | nothing r ih | derived r ih => exact ih hr a ha
  | save r ih =>
    have key : ∀ s : St c.W, L.valid s.cw →
        c.set (c.get s.cw) (a { s with cw := r.init c s.cw }).2.cw = s.cw := by
      intro s hs
      have hi : L.valid (r.init c s.cw) ∧ L.same s.cw (r.init c s.cw) := by
        unfold RClass.init
        cases r.arithKind with
        | some k => cases k <;> first | exact ⟨hs, L.same_refl _⟩ | exact ⟨L.valid_up _ hs, L.same_up _ hs⟩
        | none => exact ⟨hs, L.same_refl _⟩
      exact L.restore _ _ hs (L.same_trans _ _ _ hi.2 (ha { s with cw := r.init c s.cw } hi.1))
    unfold RClass.scope
    by_cases hp : r.Plain
    · have := plain_scope (c := c) hp (fun s => ((a { s with cw := r.init c s.cw }).1,
        { (a { s with cw := r.init c s.cw }).2 with cw := c.set (c.get s.cw) (a { s with cw := r.init c s.cw }).2.cw }))
      exact (congrArg (fun x => (x s).2.cw) this).trans (key s hs)
    · exact ih hp _ fun s hs => by
        change L.same s.cw (c.set (c.get s.cw) (a { s with cw := r.init c s.cw }).2.cw)
        rw [key s hs]; exact L.same_refl _

example := C89_restores (glibcX86_laws .sse) (.save (.save (.arith .opp .control))) id (evalIn (glibcX86 .sse) fun m => some m)
  (fun s _ => ⟨rfl, rfl⟩) ⟨(⟨0x037f, 0x1f80⟩ : X86Regs), fun _ => true⟩ (show X86Regs.dir _ _ = X86Regs.dir _ _ by decide)

/-! ## The default policies -/

/-- The default rounding has no transcendental functions. Programs that compile, hence use none, behave as with the policies of
the model: for built-in types … -/
theorem C89_default (chk : ChkSpec) (q : Call T α) (hq : q.Transcendental = false) :
    ∃ P, (IType.mk (roundedMath true) chk).policies c lib nd = some P ∧
      q.run P = q.run (libPolicies c .opp lib (chk.eval T nd)) :=
  ⟨_, rfl, Call.run_withFn (protPolicies c .opp lib (chk.eval T nd)) _ q hq⟩

/-- … and for others. -/
theorem C89_default_other (chk : ChkSpec) (q : Call T α) (hq : q.Transcendental = false) :
    ∃ P, (IType.mk (roundedMath false) chk).policies c lib nd = some P ∧
      q.run P = q.run (libPolicies c .exact lib (chk.eval T nd)) :=
  ⟨_, rfl, Call.run_withFn (barePolicies c .exact lib (chk.eval T nd)) _ q hq⟩

example := C89_default (c := glibcX86 .sse) (lib := fun _ _ x => some x) (nd := true) .strict
  (.mulII (litI 1 2) (litI 3 4 : Itv (Fl Fmt.double))) rfl

end

/-! ## Classes of different kinds -/

section
variable {T : Type} [Num T] {V : Env T} {α : Type}

/-- `rounded_transc_exact` over switching arithmetic: with a mathematical library that does not depend on the direction, programs
have the same outcome as with classes of one kind, and restore the control word. Missing from the full claim: other
combinations of kinds, which are wrong (`C89_opp_over_std_violated`, `C89_std_over_opp_violated`), and `rounded_transc_std`
over exact arithmetic. -/
theorem C89_mix_partial (hk : V.kind ≠ .exact) (hn : ∀ v : T, (Num.neg v).bind Num.neg = some v)
    (hl : ∀ f x a b, V.lib f a x = V.lib f b x) (P : Policies (M V.ctl.W) T)
    (hP : (IType.mk (.save (.transc .exact (.arith V.kind .control))) V.checks).policies V.ctl V.lib V.ndebug = some P)
    (p : Prog T α) (hp : p.All (fun i => V.ModeFree i) false) (s : V.State) (hs : V.Valid s) :
    (p.run P s).1 = (p.run V.P s).1 ∧ (p.run P s).2.cw = s.cw := by
  obtain ⟨J, h⟩ := mix_lvl V hk hn hl
  obtain ⟨J', h'⟩ := V.lvl (fun h => absurd h hk)
  have e : P = mixPolicies V.ctl V.kind V.lib V.C := by
    obtain ⟨c, L, k, lib, chk, nd⟩ := V
    dsimp only at hP hk
    cases k with
    | exact => exact absurd rfl hk
    | std => cases hP; rfl
    | opp => cases hP; rfl
  subst e
  have a := p.run_sim h (i := false) (fun h => by cases h) hp s hs
  have b := p.run_sim h' (i := false) (fun h => by cases h) hp s hs
  exact ⟨a.1.trans b.1.symm, a.2.1.symm⟩

example := C89_mix_partial (V := dblX86) (fun h => by cases h) (fun v => congrArg some (neg_neg' v)) (fun _ _ _ _ => rfl) _ rfl
  (.call (.exp (litI 1 2)) .ret) (by exact ⟨trivial, fun _ => trivial⟩) ⟨(⟨0x037f, 0x1f80⟩ : X86Regs), fun _ => true⟩
  (show X86Regs.dir _ _ = X86Regs.dir _ _ by decide)

/-- `rounded_transc_opp` over `rounded_arith_std` or `rounded_arith_exact`: the library is called for an upper bound in whatever
direction is in force, as only `rounded_arith_opp` switches to upward at the start. -/
theorem C89_opp_over_std_violated (c : Ctl) (lib : Lib T) (k : RKind) (hk : k ≠ .opp) (f : Fn) (x : T) (s : St c.W) :
    ∃ r, (RClass.save (.transc .opp (.arith k .control))).object c lib = some r ∧
      (r.scope (r.fnUp f x) s).1 = ofOpt (lib f (c.decode s.cw) x) := by
  cases k with
  | opp => exact absurd rfl hk
  | std => exact ⟨_, rfl, rfl⟩
  | exact => exact ⟨_, rfl, rfl⟩
end

/-- `rounded_transc_std` over `rounded_arith_opp`: after a transcendental function in a region, additions are made in downward
direction; the sum has its lower bound above its upper bound and encloses nothing. -/
theorem C89_std_over_opp_violated :
    let t : IType := ⟨.save (.transc .std (.arith .opp .control)), .strict⟩
    let p : Prog (Fl Fmt.double) (Itv (Fl Fmt.double)) :=
      .region (.call (.exp (litI 1 1)) fun _ => .call (.addII (litI 1 1) ⟨tiny, tiny⟩) .ret) .ret
    let s : dbl.State := ⟨(⟨.near, ()⟩ : FEnv Unit), fun _ => false⟩
    ∃ P z, t.policies dbl.ctl (fun _ _ x => some x) true = some P ∧ (p.run P s).1 = .ok z ∧ ∀ a, a ∉ γ z := by
  intro t p s
  have key : ∃ P, t.policies dbl.ctl (fun _ _ x => some x) true = some P ∧
      (match (p.run P s).1 with | .ok z => Num.lt z.upper z.lower | .error _ => false) = true := ⟨_, rfl, by decide +kernel⟩
  obtain ⟨P, h1, h2⟩ := key
  cases h : (p.run P s).1 with
  | error e => rw [h] at h2; cases h2
  | ok z =>
    rw [h] at h2
    refine ⟨P, z, h1, h, ?_⟩
    rintro a ⟨l, u, hl, hu, h3, h4⟩
    obtain ⟨x, y, hx, hy, hlt⟩ := (NumLaws.lt_iff _ _).1 h2
    rw [hl] at hy; rw [hu] at hx
    cases hx; cases hy
    exact absurd (h3.trans h4) (not_le.2 hlt)

/-- `save_state` twice: the type that `unprotect` gives still switches. A computation started in downward direction is made in
upward direction. -/
theorem C89_twice_violated :
    let r : RClass := .save (.save (.arith .opp .control))
    let s : dbl.State := ⟨(⟨.down, ()⟩ : FEnv Unit), fun _ => true⟩
    r.unprotectedRounding = some (.unprotected (.save (.arith .opp .control))) ∧
      (evalIn dbl.ctl (fun m => some m) s).1 = .ok .down ∧
      ((RClass.unprotected (.save (.arith .opp .control))).scope dbl.ctl (evalIn dbl.ctl (fun m => some m)) s).1 = .ok .up :=
  ⟨rfl, rfl, rfl⟩

end BI
