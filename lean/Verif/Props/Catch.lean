import Verif.Proofs.Catch
import Verif.Props.Mode
/-!
# C86, C87: programs that catch exceptions, and that mix the two interval types

The claims C06, C07 and C08 for programs that catch the exceptions of the library and of the base type, also inside a region,
and go on with what they learned (`TProg`).
-/

namespace BI

section
variable {T : Type} [Num T] (V : Env T) {α : Type}

/-- The programs of C06, C07, C08 are the ones without handlers that use the unprotected type throughout each region. -/
theorem C86_extends (P0 P : Policies (M V.ctl.W) T) (p : Prog T α) : (TProg.ofProg p).run P0 P = p.run P := by
  induction p generalizing P with
  | ret a => rfl
  | fail e => rfl
  | call c k ih =>
    rw [TProg.ofProg, TProg.run, Prog.run]
    exact congrArg _ (funext fun x => ih x P)
  | region body k ih ih' =>
    rw [TProg.ofProg, TProg.run, Prog.run, ih]
    exact congrArg _ (funext fun x => ih' x P)

/-- The control word at the end is the one at the start, whatever was thrown, caught, or thrown again, and whatever may throw.
Missing from the full claim: `nth_root` with the protected type (`C06_nth_root_leaks`). -/
theorem C86_restored_partial (p : TProg T α) (hp : p.All (fun i => Call.Protected i) false) (s : V.State) (hs : V.Valid s) :
    (p.run V.P V.P s).2.cw = s.cw := by
  obtain ⟨J, h, hJ⟩ := V.hold
  exact ((p.last h (fun h => h.anywhere hJ) (fun h => h) h (fun h => by cases h) hp s hs).1).symm

/-- Outcome and final control word do not depend on the order of evaluation of arguments, and the outcome does not depend
on the direction in force at the start. Missing from the full claim: calls that depend on the direction in force
(`C08_int_in_region`); handlers inside regions of a one-mode policy whose switching operations throw. -/
theorem C86_outcome_partial (hk : V.kind = .exact → ModeFree T V.lib) (p : TProg T α) (h : V.Steady ∨ p.Outside false)
    (hp : p.All (fun i => V.ModeFree i) false) (s s' : V.State) (hs : V.Valid s) (hs' : V.Valid s') :
    (p.run V.P V.P s).1 = (p.run V.P V.P s').1 ∧ (p.run V.P V.P s).2.cw = s.cw ∧ (p.run V.P V.P s').2.cw = s'.cw := by
  obtain ⟨J, hl, vJ, hJ⟩ := V.lvl_handlers hk p h
  have h2 := p.run_sim hl hl (i := false) (fun _ h => h) vJ (.inl (outer_lasting _)) hJ (fun h => by cases h) hp
  exact ⟨(h2 s hs).1.trans (h2 s' hs').1.symm, ((h2 s hs).2.1).symm, ((h2 s' hs').2.1).symm⟩

private theorem up_free {β : Type} (c : Call T β) (i : Bool) (hc : V.ModeFree false c) : V.ModeFree i c := by
  cases c <;> first | exact hc | exact absurd hc.1 (by simp)

private theorem all_free {β : Type} (q : TProg T β) : ∀ i i', q.All (fun _ => V.ModeFree false) i → q.All (fun i => V.ModeFree i) i' := by
  induction q with
  | ret a => intro _ _ _; trivial
  | fail e => intro _ _ _; trivial
  | call b c k ih => intro i i' hq; exact ⟨up_free V c _ hq.1, fun b => ih b i i' (hq.2 b)⟩
  | region b body k ih ih' => intro i i' hq; exact ⟨ih _ _ hq.1, fun b => ih' b i i' (hq.2 b)⟩
  | attempt body k ih ih' => intro i i' hq; exact ⟨ih _ _ hq.1, fun b => ih' b i i' (hq.2 b)⟩

/-- A program with handlers has the same outcome in a region with the unprotected type as with the protected type. Missing
from the full claim: calls that depend on the direction in force (`C07_int`), and one-mode policies whose switching
operations throw, for which it is false (`C86_stuck`). -/
theorem C86_unprotected_partial (hk : V.kind = .exact → ModeFree T V.lib) (hV : V.Steady) (p : TProg T α)
    (hp : p.All (fun _ => V.ModeFree false) false) (s : V.State) (hs : V.Valid s) :
    (V.P.rnd.scope (p.run V.P V.P.unprot) s).1 = (p.run V.P V.P s).1 ∧
      (V.P.rnd.scope (p.run V.P V.P.unprot) s).2.cw = s.cw ∧ (p.run V.P V.P s).2.cw = s.cw := by
  obtain ⟨J, h, hJ, vJ⟩ := V.lvlC hk hV
  have h1 := h.sim.scope (p.run_sim h h.unprot vJ vJ (.inl hJ) (.inl hJ) (fun _ => rfl) (all_free V p false true hp))
  have h2 := p.run_sim h h (i := false) (fun _ h => h) vJ (.inl (outer_lasting _)) (.inl hJ) (fun h => by cases h)
    (all_free V p false false hp)
  obtain ⟨a1, a2, -⟩ := h1 s hs
  obtain ⟨b1, b2, -⟩ := h2 s hs
  exact ⟨a1.trans b1.symm, a2.symm, b2.symm⟩

/-! ## C87 -/

/-- Where rounding objects are created, of which type, and which of the two interval types each call uses, makes no
difference: the outcome is that of the program without any rounding object, in which all calls use the protected type, from any
other state. Missing from the full claim: calls that depend on the direction in force (`C07_int`), and handlers inside
regions of a one-mode policy whose switching operations throw (`C86_stuck`). -/
theorem C87_mixed_partial (hk : V.kind = .exact → ModeFree T V.lib) (p : TProg T α) (h : V.Steady ∨ p.Outside false)
    (hp : p.All (fun _ => V.ModeFree false) false) (s s' : V.State) (hs : V.Valid s) (hs' : V.Valid s') :
    (p.run V.P V.P s).1 = (p.plain.run V.P V.P s').1 := by
  obtain ⟨J, hl, vJ, hJ⟩ := V.lvl_handlers hk p h
  have h1 := p.run_sim hl hl (i := false) (fun _ h => h) vJ (.inl (outer_lasting _)) hJ (fun h => by cases h)
    (all_free V p false false hp)
  have h2 := p.plain.run_sim hl hl (i := false) (fun _ h => h) vJ (.inl (outer_lasting _)) (.inr p.plain_outside)
    (fun h => by cases h) (all_free V _ false false (p.plain_all hp))
  rw [(h1 s hs).1, (h2 s' hs').1, p.plain_run V.pp (fun _ => rfl) rfl]

/-- The policies that switch for each operation, and those for exact types, need no condition. -/
theorem Env.steady_of_kind {V : Env T} (h : V.kind ≠ .opp) : V.Steady :=
  ⟨fun e => absurd e h, fun e => absurd e h, fun e => absurd e h, fun e => absurd e h⟩
end

/-- Floating-point numbers with a library that does not throw need none either. -/
theorem Env.steady_fl {f : Fmt} (V : Env (Fl f)) (h : ∀ g r x, V.lib g r x ≠ none) : V.Steady :=
  ⟨fun _ _ e => (by cases e), fun _ _ _ e => (by cases e), fun _ _ e => (by cases e), fun _ g x _ => h g .down x⟩

/-! ## Where the claim fails -/

/-- `interval<double>` with the default rounding policy over a library whose `exp` throws. -/
noncomputable def dblThrow : Env (Fl Fmt.double) := { dbl with lib := fun f _ x => if f = .exp then none else some x }

/-- `try { exp(x) } catch (...) {}` followed by `y + 1`. -/
noncomputable def stuckProg (x y : Itv (Fl Fmt.double)) : TProg (Fl Fmt.double) (Itv (Fl Fmt.double)) :=
  .attempt (.call false (.exp x) .ret) fun r => match r with
    | .ok z => .ret z
    | .error _ => .call false (.addIT y (Num.lit 1)) .ret

/-- `rounded_transc_opp::exp_down` switches to downward rounding, calls the library and switches back: if the library throws,
the processor stays in downward mode (there is no guard). Outside regions the rounding object repairs this; inside a
region the handler goes on in downward mode, and `2^60 + 1` becomes `[2^60 + 256, 2^60]`, an inverted interval that does not
contain the sum, instead of `[2^60, 2^60 + 256]`. -/
theorem C86_stuck :
    let p := stuckProg (litI 0 1) ⟨Fl.ofInt .near (2 ^ 60), Fl.ofInt .near (2 ^ 60)⟩
    let s : dblThrow.State := ⟨(⟨.near, ()⟩ : FEnv Unit), fun _ => true⟩
    p.All (fun _ => dblThrow.ModeFree false) false ∧ dblThrow.Valid s ∧
    (p.run dblThrow.P dblThrow.P s).1 = .ok ⟨Fl.ofInt .near (2 ^ 60), Fl.ofInt .near (2 ^ 60 + 256)⟩ ∧
    (dblThrow.P.rnd.scope (p.run dblThrow.P dblThrow.P.unprot) s).1 = .ok ⟨Fl.ofInt .near (2 ^ 60 + 256), Fl.ofInt .near (2 ^ 60)⟩ := by
  refine ⟨⟨⟨trivial, fun _ => trivial⟩, fun r => ?_⟩, trivial, by decide +kernel, by decide +kernel⟩
  cases r
  · exact ⟨trivial, fun _ => trivial⟩
  · trivial

/-! ## The hypotheses can be met -/

/-- In a region: `sqrt(x)`, and `x * x + y` if there is no square root; other exceptions are thrown again. Then, outside, a
division by the result, with a default value if it throws. -/
noncomputable def rescueProg (x y : Itv (Fl Fmt.double)) : TProg (Fl Fmt.double) (Itv (Fl Fmt.double)) :=
  .region false
    (.attempt (.call false (.sqrt x) .ret) fun r => match r with
      | .ok z => .ret z
      | .error .emptyCreated => .call false (.square x) fun q => .call false (.addII q y) .ret
      | .error e => .fail e)
    fun z => .attempt (.call false (.divTI (Num.lit 1) z) .ret) fun r => match r with
      | .ok q => .ret q
      | .error _ => .ret z

private theorem rescue_all (q : Bool → {β : Type} → Call (Fl Fmt.double) β → Prop) (h1 : ∀ i x, q i (.sqrt x))
    (h2 : ∀ i x, q i (.square x)) (h3 : ∀ i x y, q i (.addII x y)) (h4 : ∀ i x y, q i (.divTI x y))
    (x y : Itv (Fl Fmt.double)) : (rescueProg x y).All q false := by
  refine ⟨⟨⟨h1 _ _, fun _ => trivial⟩, fun r => ?_⟩, fun z => ⟨⟨h4 _ _ _, fun _ => trivial⟩, fun r => ?_⟩⟩
  · rcases r with e | z
    · cases e <;> first | exact ⟨h2 _ _, fun _ => ⟨h3 _ _ _, fun _ => trivial⟩⟩ | exact trivial
    · trivial
  · cases r <;> trivial

example (x y : Itv (Fl Fmt.double)) (s s' : dbl.State) :
    ((rescueProg x y).run dbl.P dbl.P s).1 = ((rescueProg x y).run dbl.P dbl.P s').1 ∧ ((rescueProg x y).run dbl.P dbl.P s).2.cw = s.cw ∧
      (dbl.P.rnd.scope ((rescueProg x y).run dbl.P dbl.P.unprot) s).1 = ((rescueProg x y).run dbl.P dbl.P s').1 := by
  have hV : dbl.Steady := dbl.steady_fl fun _ _ _ h => by cases h
  have hk : dbl.kind = .exact → ModeFree (Fl Fmt.double) dbl.lib := fun h => by cases h
  have h1 := C86_outcome_partial dbl hk (rescueProg x y) (.inl hV)
    (rescue_all _ (fun _ _ => trivial) (fun _ _ => trivial) (fun _ _ _ => trivial) (fun _ _ _ => trivial) x y) s s' trivial trivial
  have h2 := C86_unprotected_partial dbl hk hV (rescueProg x y)
    (rescue_all _ (fun _ _ => trivial) (fun _ _ => trivial) (fun _ _ _ => trivial) (fun _ _ _ => trivial) x y) s trivial
  exact ⟨h1.1, h1.2.1, h2.1.trans h1.1⟩

/-- The handler in the region is used: there is no square root of `[-2, -1]`; the answer is `1 / ([1, 4] + [1, 4])`. -/
example : ((rescueProg (litI (-2) (-1)) (litI 1 4)).run dbl.P dbl.P (⟨(⟨.down, ()⟩ : FEnv Unit), fun _ => false⟩ : dbl.State)).1 =
    ((Call.divTI (Num.lit 1) (⟨Fl.ofInt .near 2, Fl.ofInt .near 8⟩ : Itv (Fl Fmt.double))).run dbl.P
      (⟨(⟨.near, ()⟩ : FEnv Unit), fun _ => true⟩ : dbl.State)).1 := by
  decide +kernel

/-- Inside a region: a sum with the unprotected type, a nested region of the protected type in which a quotient is computed
with the unprotected type, and a product with the protected type. -/
noncomputable def mixedProg (x y : Itv (Fl Fmt.double)) : TProg (Fl Fmt.double) (Itv (Fl Fmt.double)) :=
  .region false
    (.call false (.addII x y) fun a => .region true (.call false (.divII a y) .ret) fun b => .call true (.mulII b x) .ret) .ret

example (x y : Itv (Fl Fmt.double)) (s s' : dbl.State) : ((mixedProg x y).run dbl.P dbl.P s).1 =
    ((TProg.call true (.addII x y) fun a => .call true (.divII a y) fun b => .call true (.mulII b x) .ret).run dbl.P dbl.P s').1 :=
  C87_mixed_partial dbl (fun h => by cases h) (mixedProg x y) (.inl (dbl.steady_fl fun _ _ _ h => by cases h))
    ⟨⟨trivial, fun _ => ⟨⟨trivial, fun _ => trivial⟩, fun _ => ⟨trivial, fun _ => trivial⟩⟩⟩, fun _ => trivial⟩ s s' trivial trivial

/-- A failed assertion is not an exception: no handler sees it. -/
example (s : dbl.State) : ((TProg.attempt (.fail .assertion : TProg (Fl Fmt.double) Unit) fun _ => .ret 0).run dbl.P dbl.P s).1 =
    (.error .assertion : Res Nat) := by
  unfold TProg.run TProg.run; rfl

private theorem stuck_all (q : Bool → {β : Type} → Call (Fl Fmt.double) β → Prop) (i : Bool) (h1 : ∀ j x, q j (.exp x))
    (h2 : ∀ j x y, q j (.addIT x y)) (x y : Itv (Fl Fmt.double)) : (stuckProg x y).All q i := by
  refine ⟨⟨h1 _ _, fun _ => trivial⟩, fun r => ?_⟩
  cases r
  · exact ⟨h2 _ _ _, fun _ => trivial⟩
  · trivial

/-- The program of `C86_stuck` in a region restores the control word, too. -/
example (x y : Itv (Fl Fmt.double)) (s : dblThrow.State) :
    ((TProg.region false (stuckProg x y) .ret).run dblThrow.P dblThrow.P s).2.cw = s.cw :=
  C86_restored_partial dblThrow (.region false (stuckProg x y) .ret)
    ⟨stuck_all _ true (fun _ _ => trivial) (fun _ _ _ => trivial) x y, fun _ => trivial⟩ s trivial

/-- Handlers outside regions need no condition on the library. -/
example (x y : Itv (Fl Fmt.double)) (s s' : dblThrow.State) :
    ((stuckProg x y).run dblThrow.P dblThrow.P s).1 = ((stuckProg x y).run dblThrow.P dblThrow.P s').1 := by
  refine (C86_outcome_partial dblThrow (fun h => by cases h) (stuckProg x y) (.inr ⟨rfl, fun _ => trivial, fun r => ?_⟩)
    (stuck_all _ false (fun _ _ => trivial) (fun _ _ _ => trivial) x y) s s' trivial trivial).1
  cases r
  · exact fun _ => trivial
  · trivial

end BI
