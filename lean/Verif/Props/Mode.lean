import Verif.Proofs.ClientSim
import Verif.Proofs.Last
import Verif.Proofs.OppStd
import Verif.Proofs.Instances
/-!
# C06, C07, C08, C38: the rounding mode and the evaluation order are not observable

`Call` lists the calls a client can make, `Prog` is the type of all (terminating) client programs, in which each call may
depend on the results of the earlier ones and which may contain regions that own a rounding object and compute with the
unprotected interval type.
-/

namespace BI

section
variable {T : Type} [Num T] (V : Env T) {α : Type}

/-! ## C06 -/

/-- Every call but `nth_root` leaves the control word as it found it, also when it throws. Missing from the full claim:
`nth_root` (see `C06_nth_root_leaks`). -/
theorem C06_call_partial (c : Call T α) (hc : c.Protected false) (s : V.State) (hs : V.Valid s) :
    (c.run V.P s).2.cw = s.cw := by
  obtain ⟨J, h, -⟩ := V.hold
  exact ((c.last h (fun h => by cases h) hc s hs).1).symm

/-- The same for whole programs; inside a region `nth_root` is allowed too. -/
theorem C06_program_partial (p : Prog T α) (hp : p.All (fun i => Call.Protected i) false) (s : V.State) (hs : V.Valid s) :
    (p.run V.P s).2.cw = s.cw := by
  obtain ⟨J, h, -⟩ := V.hold
  exact ((p.last h (fun h => by cases h) hp s hs).1).symm

/-! ## C07 -/

/-- Computing in a region with the unprotected type has the same outcome as computing with the protected type, and
restores the control word. Missing from the full claim: calls that depend on the direction in force (not `Env.ModeFree`), for which it is
false (`C07_int`), among them `nth_root` with the protected type. -/
theorem C07_unprotected_partial (hk : V.kind = .exact → ModeFree T V.lib) (p : Prog T α)
    (hp : p.All (fun _ => V.ModeFree false) false) (s : V.State) (hs : V.Valid s) :
    (V.P.rnd.scope (p.run V.P.unprot) s).1 = (p.run V.P s).1 ∧
      (V.P.rnd.scope (p.run V.P.unprot) s).2.cw = s.cw ∧ (p.run V.P s).2.cw = s.cw := by
  obtain ⟨J, h⟩ := V.lvl hk
  have up : ∀ {β : Type} (c : Call T β) i, V.ModeFree false c → V.ModeFree i c := by
    intro β c i hc
    cases c <;> first | exact hc | exact absurd hc.1 (by simp)
  have hall : ∀ {β : Type} (q : Prog T β) i i', q.All (fun _ => V.ModeFree false) i → q.All (fun i => V.ModeFree i) i' := by
    intro β q
    induction q with
    | ret a => intro _ _ _; trivial
    | fail e => intro _ _ _; trivial
    | call c k ih => intro i i' hq; exact ⟨up c i' hq.1, fun b => ih b i i' (hq.2 b)⟩
    | region body k ih ih' => intro i i' hq; exact ⟨ih _ _ hq.1, fun b => ih' b i i' (hq.2 b)⟩
  have h1 := h.sim.scope (p.run_sim h.unprot (fun _ => rfl) (hall p false true hp))
  have h2 := p.run_sim h (i := false) (fun h => by cases h) (hall p false false hp)
  obtain ⟨a1, a2, -⟩ := h1 s hs
  obtain ⟨b1, b2, -⟩ := h2 s hs
  exact ⟨a1.trans b1.symm, a2.symm, b2.symm⟩

/-- Regions inside regions, programs with regions: the outcome is always the mode-free one, whatever direction is in
force at the start. With the restriction of `C07_unprotected_partial`. -/
theorem C07_any_mode_partial (hk : V.kind = .exact → ModeFree T V.lib) (p : Prog T α)
    (hp : p.All (fun i => V.ModeFree i) false) (s s' : V.State) (hs : V.Valid s) (hs' : V.Valid s') :
    (p.run V.P s).1 = (p.run V.P s').1 := by
  obtain ⟨J, h⟩ := V.lvl hk
  have h2 := p.run_sim h (i := false) (fun h => by cases h) hp
  exact (h2 s hs).1.trans (h2 s' hs').1.symm

/-! ## C08 -/

/-- The outcome of a call and the control word it leaves do not depend on the order in which arguments are evaluated,
even if the call depends on the rounding direction in force. Missing from the full claim: `nth_root` with the protected type,
which has no rounding object of its own. -/
theorem C08_call_partial (hk : V.kind = .exact → ModeFree T V.lib) (c : Call T α) (hc : c.Protected false)
    (s s' : V.State) (hs : V.Valid s) (h : s.cw = s'.cw) :
    (c.run V.P s).1 = (c.run V.P s').1 ∧ (c.run V.P s).2.cw = (c.run V.P s').2.cw := by
  obtain ⟨J, hl⟩ := V.lvl hk
  obtain ⟨r, hr⟩ := c.run_det hl rfl hc
  have h1 := hr s hs
  have h2 := hr s' (by unfold Env.Valid at hs; rwa [← h])
  exact ⟨by rw [h1.1, h2.1, h], by rw [h1.2, h2.2, h]⟩

/-- The same for programs, regions included, made of calls that do not depend on the direction in force. Missing from the full
claim: the other calls, for which it is false in a region (`C08_int_in_region`). -/
theorem C08_program_partial (hk : V.kind = .exact → ModeFree T V.lib) (p : Prog T α)
    (hp : p.All (fun i => V.ModeFree i) false) (s s' : V.State) (hs : V.Valid s) (h : s.cw = s'.cw) :
    (p.run V.P s).1 = (p.run V.P s').1 ∧ (p.run V.P s).2.cw = (p.run V.P s').2.cw := by
  obtain ⟨J, hl⟩ := V.lvl hk
  have h2 := p.run_sim hl (i := false) (fun h => by cases h) hp
  have hs' : V.Valid s' := by unfold Env.Valid at hs ⊢; rwa [← h]
  obtain ⟨a1, a2, -⟩ := h2 s hs
  obtain ⟨b1, b2, -⟩ := h2 s' hs'
  exact ⟨a1.trans b1.symm, by rw [← a2, ← b2, h]⟩
end

/-- A computation that leaves a mark in the control word and returns it. -/
private def mark {n : Nat} (i : Fin n) : M (List (Fin n)) (Fin n) := do M.modify (· ++ [i]); pure i

/-- The oracle realises every order of evaluation, both of the two arguments of a call and of the four calls in the
product of two intervals of mixed sign; the values arrive in their places. -/
theorem C08_orders :
    (∀ a b : Fin 2, a ≠ b → ∃ o : Nat → Bool,
      (pair (mark (0 : Fin 2)) (mark 1) ⟨[], o⟩).1 = .ok (0, 1) ∧ (pair (mark (0 : Fin 2)) (mark 1) ⟨[], o⟩).2.cw = [a, b]) ∧
    ∀ a b c d : Fin 4, [a, b, c, d].Nodup → ∃ o : Nat → Bool,
      (quad (mark (0 : Fin 4)) (mark 1) (mark 2) (mark 3) ⟨[], o⟩).1 = .ok ((0, 1), 2, 3) ∧
      (quad (mark (0 : Fin 4)) (mark 1) (mark 2) (mark 3) ⟨[], o⟩).2.cw = [a, b, c, d] := by
  have h1 : ∀ a b : Fin 2, a ≠ b → ∃ n : Fin 2,
      (pair (mark (0 : Fin 2)) (mark 1) ⟨[], n.val.testBit⟩).1 = .ok (0, 1) ∧ (pair (mark (0 : Fin 2)) (mark 1) ⟨[], n.val.testBit⟩).2.cw = [a, b] := by
    decide +kernel
  have h2 : ∀ a b c d : Fin 4, [a, b, c, d].Nodup → ∃ n : Fin 32,
      (quad (mark (0 : Fin 4)) (mark 1) (mark 2) (mark 3) ⟨[], n.val.testBit⟩).1 = .ok ((0, 1), 2, 3) ∧
      (quad (mark (0 : Fin 4)) (mark 1) (mark 2) (mark 3) ⟨[], n.val.testBit⟩).2.cw = [a, b, c, d] := by
    decide +kernel
  exact ⟨fun a b h => (h1 a b h).imp' (fun n : Fin 2 => n.val.testBit) fun _ h => h,
    fun a b c d h => (h2 a b c d h).imp' (fun n : Fin 32 => n.val.testBit) fun _ h => h⟩

/-! ## C38 -/

/-- Two configurations over the same floating-point format and with the same checking policy, one switching the mode for
each operation and one computing everything in upward mode, on any platforms: all programs made of arithmetic calls and of
conversions of values that have an opposite (`srcFl_opposite`: all floating-point numbers of all formats;
`srcInt_opposite`: all signed integers other than 0 and the least one) have the same outcome, to the bit. -/
theorem C38_same {f : Fmt} (V V' : Env (Fl f)) (hV : V.kind = .std) (hV' : V'.kind = .opp) (hc : V.checks = V'.checks)
    (hn : V.ndebug = V'.ndebug) {α : Type} (p : Prog (Fl f) α) (hp : p.All (fun _ => Call.Arithmetic) false)
    (hm : p.All (fun i => V.ModeFree i) false) (hm' : p.All (fun i => V'.ModeFree i) false) (s : V.State) (hs : V.Valid s)
    (s' : V'.State) (hs' : V'.Valid s') : (p.run V.P s).1 = (p.run V'.P s').1 := by
  obtain ⟨J, h⟩ := V.lvl (by rw [hV]; intro h; cases h)
  obtain ⟨J', h'⟩ := V'.lvl (by rw [hV']; intro h; cases h)
  have h1 := (p.run_sim h (i := false) (fun h => by cases h) hm s hs).1
  have h2 := (p.run_sim h' (i := false) (fun h => by cases h) hm' s' hs').1
  rw [h1, h2]
  obtain ⟨cd, fd, fu, e, hcd⟩ := opp_eq_std' V.lib V'.lib
  have e1 : V.B = pureArith .std V.lib := by unfold Env.B; rw [hV]
  have e2 : V'.B = pureArith .opp V'.lib := by unfold Env.B; rw [hV']
  have e3 : V.C = V'.C := by unfold Env.C; rw [hc, hn]
  unfold Env.pp
  rw [e1, e2, e3, e]
  exact (p.run_indep _ cd fd fu V'.C hcd hp).symm

/-- Each downward operation of the one-mode policy, run in upward mode, gives bit for bit the number that the switching
policy gives, run in any mode. -/
theorem C38_operations {f : Fmt} (V V' : Env (Fl f)) (hV : V.kind = .std) (hV' : V'.kind = .opp)
    (s : V.State) (hs : V.Valid s) (s' : V'.State) (hs' : V'.Valid s') (hu : V'.ctl.decode s'.cw = .up) (x y : Fl f) :
    (V.P.rnd.addDown x y s).1 = (V'.P.rnd.addDown x y s').1 ∧ (V.P.rnd.subDown x y s).1 = (V'.P.rnd.subDown x y s').1 ∧
    (V.P.rnd.mulDown x y s).1 = (V'.P.rnd.mulDown x y s').1 ∧ (V.P.rnd.divDown x y s).1 = (V'.P.rnd.divDown x y s').1 ∧
    (V.P.rnd.sqrtDown x s).1 = (V'.P.rnd.sqrtDown x s').1 ∧ (V.P.rnd.intDown x s).1 = (V'.P.rnd.intDown x s').1 ∧
    (V.P.rnd.median x y s).1 = (V'.P.rnd.median x y s').1 := by
  obtain ⟨c, L, k, lib, chk, nd⟩ := V
  obtain ⟨c', L', k', lib', chk', nd'⟩ := V'
  dsimp only at hV hV'
  subst hV hV'
  have hA : ASim (inner L .std) (arithOf c .std lib) (pureArith .std lib) := arithOf_sim .std lib (fun h => by cases h)
  have hA' : ASim (inner L' .opp) (arithOf c' .opp lib') (pureArith .opp lib') := arithOf_sim .opp lib' (fun h => by cases h)
  obtain ⟨cd, fd, fu, e, -⟩ := opp_eq_std' lib lib'
  rw [e] at hA'
  have hi : (inner L .std).Pre s.cw := ⟨hs, fun h => by cases h⟩
  have hi' : (inner L' .opp).Pre s'.cw := ⟨hs', fun _ => hu⟩
  exact ⟨(hA.s_addDown x y s hi).1.trans (hA'.s_addDown x y s' hi').1.symm,
    (hA.s_subDown x y s hi).1.trans (hA'.s_subDown x y s' hi').1.symm,
    (hA.s_mulDown x y s hi).1.trans (hA'.s_mulDown x y s' hi').1.symm,
    (hA.s_divDown x y s hi).1.trans (hA'.s_divDown x y s' hi').1.symm,
    (hA.s_sqrtDown x s hi).1.trans (hA'.s_sqrtDown x s' hi').1.symm,
    (hA.s_intDown x s hi).1.trans (hA'.s_intDown x s' hi').1.symm,
    (hA.s_median x y s hi).1.trans (hA'.s_median x y s' hi').1.symm⟩

/-! ## Where the claims fail -/

/-- `nth_root([4, 4], 2)`, called in to-nearest mode on `interval<double>` with the default policies, returns and leaves
the processor in upward mode. -/
theorem C06_nth_root_leaks :
    let s : dbl.State := ⟨(⟨.near, ()⟩ : FEnv Unit), fun _ => true⟩
    let r := (Call.nthRoot true 20 (⟨Fl.ofInt .near 4, Fl.ofInt .near 4⟩ : Itv (Fl Fmt.double)) 2).run dbl.P s
    dbl.Valid s ∧ (∃ z, r.1 = .ok z) ∧ (r.2.cw : FEnv Unit).dir = .up := by
  exact ⟨trivial, exists_of_isOk (by decide +kernel), by decide +kernel⟩

/-- `x + n` for the integer `n = 2^53 + 1`, which is not a `double`: the protected type converts it in the caller's
direction, the unprotected type inside a region in upward direction, and the results differ. -/
theorem C07_int :
    let p : Prog (Fl Fmt.double) (Itv (Fl Fmt.double)) := .call (.addIInt (litI 0 1) 9007199254740993) .ret
    let s : dbl.State := ⟨(⟨.near, ()⟩ : FEnv Unit), fun _ => true⟩
    (dbl.P.rnd.scope (p.run dbl.P.unprot) s).1 ≠ (p.run dbl.P s).1 := by
  decide +kernel

/-- A one-mode configuration on the C99 environment. -/
noncomputable def fltOpp : Env (Fl Fmt.single) where
  ctl := c99 Unit feGlibc
  laws := c99_laws Unit feGlibc feGlibc_inj
  kind := .opp
  lib := fun _ _ x => some x
  checks := .catchNan .base
  ndebug := false

/-- The exceptions are needed: from the integer 0 the one-mode policy makes a lower bound `-0`, the other one `+0`; and from
`1u` a different number (`C36_unsigned`). -/
theorem C38_int_zero :
    let s : flt.State := ⟨(0x037f : BitVec 16), fun _ => true⟩
    let s' : fltOpp.State := ⟨(⟨.near, ()⟩ : FEnv Unit), fun _ => true⟩
    (ctorSrc flt.P (srcInt 32 0) s).1 = .ok ⟨.zero false, .zero false⟩ ∧
    (ctorSrc fltOpp.P (srcInt 32 0) s').1 = .ok ⟨.zero true, .zero false⟩ := by
  exact ⟨by decide +kernel, by decide +kernel⟩

/-- With the policy that switches for each operation, inside a region: after an addition the direction in force depends
on the order in which the bounds were computed, and so does the result of a subsequent `x + n`. -/
theorem C08_int_in_region :
    let p : Prog (Fl Fmt.single) (Itv (Fl Fmt.single)) :=
      .region (.call (.addII (litI 0 1) (litI 0 1)) fun x => .call (.addIInt x 16777217) .ret) .ret
    let s : Bool → flt.State := fun b => ⟨(0x037f : BitVec 16), fun _ => b⟩
    flt.Valid (s true) ∧ flt.Valid (s false) ∧ (p.run flt.P (s true)).1 ≠ (p.run flt.P (s false)).1 := by
  exact ⟨trivial, trivial, by decide +kernel⟩

/-! ## The hypotheses can be met -/

/-- Horner evaluation of `2 + x (3 + x)` in a region, then a comparison with a bound that decides what happens next. -/
noncomputable def hornerProg (x : Itv (Fl Fmt.double)) : Prog (Fl Fmt.double) (Itv (Fl Fmt.double)) :=
  .region (.call (.addTI (Num.lit 3) x) fun a => .call (.mulII x a) fun b => .call (.addIInt b 2) .ret) fun r =>
    .call (.width r) fun w => if Num.lt w (Num.lit 1) then .ret r else .call (.multInv r) .ret

example (x : Itv (Fl Fmt.double)) : (hornerProg x).All (fun i => dbl.ModeFree i) false := by
  refine ⟨⟨trivial, fun a => ⟨trivial, fun b => ⟨?_, fun _ => trivial⟩⟩⟩, fun r => ⟨trivial, fun w => ?_⟩⟩
  · intro r r'
    cases r <;> cases r' <;> decide +kernel
  · dsimp only
    split
    · trivial
    · exact ⟨trivial, fun _ => trivial⟩

example (x : Itv (Fl Fmt.double)) : (hornerProg x).All (fun _ => Call.Arithmetic) false := by
  refine ⟨⟨trivial, fun a => ⟨trivial, fun b => ⟨trivial, fun _ => trivial⟩⟩⟩, fun r => ⟨trivial, fun w => ?_⟩⟩
  dsimp only
  split
  · trivial
  · exact ⟨trivial, fun _ => trivial⟩

example : ∃ z, ((hornerProg (litI 1 2)).run dbl.P (⟨(⟨.down, ()⟩ : FEnv Unit), fun _ => false⟩ : dbl.State)).1 = .ok z :=
  exists_of_isOk (by decide +kernel)

/-- C38: the switching configuration `flt` on the x87 against `fltOpp`. -/
example (s : flt.State) (s' : fltOpp.State) :
    let p : Prog (Fl Fmt.single) (Itv (Fl Fmt.single)) :=
      .region (.call (.divTI (Num.lit 1) (litI 3 7)) fun x => .call (.subII x x) .ret) .ret
    (p.run flt.P s).1 = (p.run fltOpp.P s').1 := by
  have h : ∀ q : Bool → {β : Type} → Call (Fl Fmt.single) β → Prop, (∀ i x y, q i (.divTI x y)) →
      (∀ i x y, q i (.subII x y)) →
      Prog.All q false (.region (.call (.divTI (Num.lit 1) (litI 3 7)) fun x => .call (.subII x x) .ret) .ret :
        Prog (Fl Fmt.single) (Itv (Fl Fmt.single))) :=
    fun q h1 h2 => ⟨⟨h1 _ _ _, fun _ => ⟨h2 _ _ _, fun _ => trivial⟩⟩, fun _ => trivial⟩
  exact C38_same flt fltOpp rfl rfl rfl rfl _ (h _ (fun _ _ _ => trivial) fun _ _ _ => trivial)
    (h _ (fun _ _ _ => trivial) fun _ _ _ => trivial) (h _ (fun _ _ _ => trivial) fun _ _ _ => trivial) s trivial s' trivial

end BI
