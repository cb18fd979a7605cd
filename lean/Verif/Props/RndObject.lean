import Verif.Props.Trig
import Verif.Props.Mode
import Verif.Proofs.RndProg
import Verif.Proofs.Nearest
/-!
# C76: the rounding object keeps what its documentation promises

doc/rounding.htm 98-120 states what each function of a rounding object computes; doc/rounding.htm 283-313 states when
blocks with rounding objects give the same result.
-/

set_option linter.unusedSectionVars false

namespace BI
open Set
variable {T : Type} [Num T] [Val T] [NumLaws T]

/-! ## Programs -/

private theorem program (V : Env T) {D U : EReal → EReal → Prop} (hDU : DU T D U) (hV : V.Ok D U) {α : Type} (p : RProg T α)
    (hp : p.Ok V D U) : ∃ r, p.Expects V D U r ∧ ∀ s : V.State, V.Valid s →
      (p.withRounding V.P s).1 = r ∧ (p.withRounding V.P s).2.cw = s.cw := by
  obtain ⟨J, h, hJ⟩ := V.lvl' hV.kindOk
  refine ⟨_, RndProg.run_expects hDU hV p hp, fun s hs => ?_⟩
  obtain ⟨h1, h2, -⟩ := h.sim.scope (RndProg.run_sim h hJ p (RndProg.Obj.rnd h) hp) s hs
  exact ⟨h1, h2.symm⟩

/-- In a block that owns a rounding object, every function of the object, called at any moment, returns a bound on the
right side of the exact result (integer parts exactly), calls of the library with either interval type give what the
protected call gives in any mode, nested rounding objects change nothing, and the processor is found as it was after the
block, also if an exception leaves it. The result does not depend on the mode before the block. What is missing: functions
for which `rounded_transc_opp` does not switch (`C19_opp_atan_one`), `nth_root` (`C06_nth_root_leaks`). -/
theorem C76_program_partial (V : Env T) (hV : V.Directed) {α : Type} (p : RProg T α) (hp : p.Ok V LeB GeB) :
    ∃ r, p.Expects V LeB GeB r ∧ ∀ s : V.State, V.Valid s →
      (p.withRounding V.P s).1 = r ∧ (p.withRounding V.P s).2.cw = s.cw :=
  program V du_weak hV p hp

/-- With correct rounding: the bounds are the closest ones. The same is missing. -/
theorem C76_program_tight_partial (V : Env T) (hV : V.Tight) {α : Type} (p : RProg T α) (hp : p.Ok V (IsRoundDown T) (IsRoundUp T)) :
    ∃ r, p.Expects V (IsRoundDown T) (IsRoundUp T) r ∧ ∀ s : V.State, V.Valid s →
      (p.withRounding V.P s).1 = r ∧ (p.withRounding V.P s).2.cw = s.cw :=
  program V du_tight hV p hp

/-- The first three lines of the example of doc/rounding.htm 296-298 give the same result, for any block: with one rounding
object, with a second one nested in it, with an unprotected one nested in it. -/
theorem C76_nested (V : Env T) (hk : V.kind = .exact → ModeFree T V.lib) {D U : EReal → EReal → Prop} {α : Type}
    (p : RProg T α) (hp : p.Ok V D U) (s s' s'' : V.State) (hs : V.Valid s) (hs' : V.Valid s') (hs'' : V.Valid s'') :
    (V.P.rnd.scope (p.withRounding V.P) s').1 = (p.withRounding V.P s).1 ∧
    (V.P.rnd.scope (p.withUnprotected V.P) s'').1 = (p.withRounding V.P s).1 := by
  obtain ⟨J, h, hJ⟩ := V.lvl' hk
  have h1 := h.sim.scope (RndProg.run_sim h hJ p (RndProg.Obj.rnd h) hp)
  have h2 := h.sim.scope (RndProg.inside hJ h1)
  have h3 := h.sim.scope (h.sim.scopeU (RndProg.run_sim h hJ p (RndProg.Obj.unp h) hp))
  exact ⟨(h2 s' hs').1.trans (h1 s hs).1.symm, (h3 s'' hs'').1.trans (h1 s hs).1.symm⟩

/-- Every function of the object that keeps the processor in upward mode leaves it in upward mode when it returns, and
leaves it valid; the protected and the unprotected object alike. -/
theorem C76_upward (V : Env T) (hk : V.kind = .opp) (o : ROp T) (s : V.State) (hs : V.Valid s) (hu : V.ctl.decode s.cw = .up)
    (c : T) : ((o.run V.P.rnd.toArith s).1 = .ok c →
        V.ctl.decode (o.run V.P.rnd.toArith s).2.cw = .up ∧ V.Valid (o.run V.P.rnd.toArith s).2) ∧
      ((o.run V.P.unp.toArith s).1 = .ok c →
        V.ctl.decode (o.run V.P.unp.toArith s).2.cw = .up ∧ V.Valid (o.run V.P.unp.toArith s).2) := by
  obtain ⟨ct, L, k, lib, chk, nd⟩ := V
  dsimp only at hk
  subst hk
  let V : Env T := ⟨ct, L, .opp, lib, chk, nd⟩
  have hO : RndProg.Obj V (inner L .opp) (arithOf ct .opp lib) := {
    sim := arithOf_sim .opp lib (fun h => by cases h)
    convDown := fun v _ => upNeg_sim _
    convUp := fun v _ => evalIn_up _ }
  have key := RndProg.op_sim hO o (fun _ _ _ h => by cases h) s ⟨hs, fun _ => hu⟩
  have : (o.run (arithOf ct .opp lib) s).1 = .ok c → ct.decode (o.run (arithOf ct .opp lib) s).2.cw = .up ∧
      L.valid (o.run (arithOf ct .opp lib) s).2.cw := fun hc =>
    ⟨(key.2.2 c (key.1.symm.trans hc)).2 rfl, (key.2.2 c (key.1.symm.trans hc)).1⟩
  exact ⟨this, this⟩

/-! ## The median -/

/-- The median of two floating-point numbers is the closest number to their average. What is missing: numbers whose sum
overflows, see `C76_median_overflow`. -/
theorem C76_median_partial {f : Fmt} (V : Env (Fl f)) (hk : V.kind ≠ .exact) {x y : Fl f} {a b : ℝ}
    (ha : val x = some (a : EReal)) (hb : val y = some (b : EReal)) (hs : |a + b| ≤ (maxFin f : ℝ)) :
    V.Returns (V.P.rnd.scope ((ROp.median x y).run V.P.rnd.toArith))
      fun c => ∃ z : ℝ, val c = some (z : EReal) ∧ Closest (Fl f) z ((a + b) / 2) := by
  obtain ⟨J, h, hJ⟩ := V.lvl' (fun h => absurd h hk)
  obtain ⟨c, q, h1, h2, h3, h4⟩ := Near.halfSum_closest ha hb hs
  have hB : V.B.median x y = .ok c := by
    unfold Env.B
    cases hkk : V.kind with
    | exact => exact absurd hkk hk
    | std => change ofOpt (halfSum .near x y) = _; rw [h1]; rfl
    | opp => change ofOpt (halfSum .near x y) = _; rw [h1]; rfl
  intro s hs
  obtain ⟨k1, k2, -⟩ := h.sim.scope (h.sim.rnd.s_median x y) s hs
  refine ⟨c, k1.trans hB, k2.symm, q, h2, (representable_iff _).2 (.inr (.inr ⟨q, h3, rfl⟩)), fun w hw => ?_⟩
  rcases (representable_iff (f := f) (w : EReal)).1 hw with h | h | ⟨r, hr, h⟩
  · exact absurd h (EReal.coe_ne_bot _)
  · exact absurd h (EReal.coe_ne_top _)
  · have e : w = r := by exact_mod_cast h
    rw [e]; exact h4 r hr

/-- The median of the largest `double` and itself is infinite. -/
theorem C76_median_overflow : dbl.Returns (dbl.P.rnd.scope ((ROp.median (Fl.max _ false) (Fl.max _ false)).run dbl.P.rnd.toArith))
    fun c => val c = some ⊤ ∧ ∃ a : ℝ, val (Fl.max Fmt.double false) = some (a : EReal) := by
  obtain ⟨J, h, hJ⟩ := dbl.lvl' (fun h => by cases h)
  intro s hs
  obtain ⟨k1, k2, -⟩ := h.sim.scope (h.sim.rnd.s_median (Fl.max _ false) (Fl.max _ false)) s hs
  refine ⟨.inf false, k1.trans ?_, k2.symm, rfl, _, rfl⟩
  decide +kernel

/-- The median of two rational numbers is their average. -/
theorem C76_median_rat (V : Env ℚ) (hk : V.kind = .exact) (hl : ∀ f (x : ℚ) a b, V.lib f a x = V.lib f b x) (x y : ℚ) :
    V.Returns (V.P.rnd.scope ((ROp.median x y).run V.P.rnd.toArith)) fun c => c = (x + y) / 2 := by
  obtain ⟨J, h, hJ⟩ := V.lvl' (fun _ => rat_modeFree _ hl)
  intro s hs
  obtain ⟨k1, k2, -⟩ := h.sim.scope (h.sim.rnd.s_median x y) s hs
  refine ⟨(x + y) / 2, k1.trans ?_, k2.symm, rfl⟩
  unfold Env.B
  rw [hk]
  change ofOpt ((Option.some (x + y)).bind (fun s => if ((2 : ℤ) : ℚ) = 0 then none else some (s / ((2 : ℤ) : ℚ)))) = _
  norm_num
  rfl

/-! ## The unprotected object alone -/

/-- The last line of the example of doc/rounding.htm 299: in to-nearest mode, with no rounding object alive, the lower
bound that the unprotected object computes for `1 - tiny` is `1`. -/
theorem C76_unprotected_alone :
    let s : dbl.State := ⟨(⟨.near, ()⟩ : FEnv Unit), fun _ => true⟩
    let p : RProg (Fl Fmt.double) (Fl Fmt.double) := .op (.sub false (Num.lit 1) dmin) .ret
    dbl.Valid s ∧ (∃ c z e, (p.withUnprotected dbl.P s).1 = .ok c ∧ val c = some z ∧
      (ROp.sub false (Num.lit 1) dmin).Exact dbl LeB GeB e ∧ e < z) ∧
    (p.withRounding dbl.P s).1 ≠ (p.withUnprotected dbl.P s).1 := by
  intro s p
  have h1 : val (Num.lit 1 : Fl Fmt.double) = some ((1 : ℝ) : EReal) := by
    have := NumLaws.lit (T := Fl Fmt.double) 1 (by norm_num); exact_mod_cast this
  refine ⟨trivial, ⟨Num.lit 1, _, _, by decide +kernel, h1, ⟨_, _, h1, dmin_val, ?_, rfl⟩, ?_⟩, by decide +kernel⟩
  · exact ⟨.inl (EReal.coe_ne_top _), .inl (EReal.coe_ne_bot _)⟩
  · rw [← EReal.coe_sub, EReal.coe_lt_coe_iff]
    have : (0 : ℝ) < 2 ^ (-1074 : ℤ) := by positivity
    linarith

/-! ## The hypotheses can be met -/

/-- A block that computes `x - y` rounded down and the integer above, adds intervals with the unprotected type, and
computes an exponential and a quotient in nested blocks. -/
private noncomputable def sample (x y : Fl Fmt.double) : RProg (Fl Fmt.double) (Fl Fmt.double) :=
  .op (.sub false x y) fun d => .op (.int true d) fun n => .call true (.addII ⟨d, n⟩ ⟨x, x⟩) fun z =>
  .block false (.op (.fn true .exp z.upper) .ret) fun e => .block true (.op (.div false e n) .ret) fun q =>
  .op (.sqrt true q) fun r => .call false (.mulII ⟨d, n⟩ ⟨r, r⟩) fun w => .op (.median w.lower w.upper) .ret

private theorem sample_ok (x y : Fl Fmt.double) : (sample x y).Ok dblOpp (IsRoundDown (Fl Fmt.double)) (IsRoundUp (Fl Fmt.double)) :=
  ⟨trivial, fun _ => ⟨⟨dblOpp_int, fun h => by cases h⟩, fun _ => ⟨trivial, fun _ =>
    ⟨⟨dblOpp.ideal_ok .exp rfl (.inr ⟨rfl, rfl⟩), fun _ => trivial⟩, fun _ => ⟨⟨trivial, fun _ => trivial⟩, fun _ =>
    ⟨dblOpp.fl_sqrtOk (by simp [dblOpp, dbl]), fun _ => ⟨trivial, fun _ => ⟨trivial, fun _ => trivial⟩⟩⟩⟩⟩⟩⟩⟩

example (x y : Fl Fmt.double) := C76_program_tight_partial dblOpp dblOpp_tight (sample x y) (sample_ok x y)
example (x y : Fl Fmt.double) (s : dblOpp.State) := C76_nested dblOpp (fun h => by cases h) (sample x y) (sample_ok x y) s s s
  trivial trivial trivial
example (x y : ℚ) := C76_program_partial ratEnv ratEnv_tight.directed
  (.op (.add false x y) fun z => .op (.mul true z z) .ret : RProg ℚ ℚ) ⟨trivial, fun _ => ⟨trivial, fun _ => trivial⟩⟩
example := C76_upward dbl rfl (.sqrt false (Num.lit 2)) (⟨(⟨.up, ()⟩ : FEnv Unit), fun _ => true⟩ : dbl.State) trivial rfl
example := C76_median_partial dbl (by simp [dbl]) (a := 1) (b := 2)
  (by have := NumLaws.lit (T := Fl Fmt.double) 1 (by decide); exact_mod_cast this)
  (by have := NumLaws.lit (T := Fl Fmt.double) 2 (by decide); exact_mod_cast this)
  (by have : |(1 + 2 : ℚ)| ≤ maxFin Fmt.double := by decide +kernel
      exact_mod_cast this)
example := C76_median_rat ratEnv rfl (fun _ _ _ _ => rfl) 1 2

end BI
