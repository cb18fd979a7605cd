import Verif.Model.Mpfr
import Verif.Props.Elem
import Verif.Props.Trig
import Verif.Props.ToInt
import Verif.Proofs.OppStd
/-!
# C56: the rounding policy of examples/transc.cpp

`V.full` is the interval type of the example over the platform, the library and the checking policy of `V`.
-/

set_option linter.unusedSectionVars false

namespace BI
open Set

/-- Construction from numbers of other types: only from numbers that have an opposite. -/
def Call.Reversible {T : Type} [Num T] {α : Type} : Call T α → Prop
  | .ctorSrc v | .ctorSrc2 v _ _ | .ctorItv _ v _ => v.Opposite
  | _ => True

/-- The interval type of examples/transc.cpp in the place of the one of `V`. -/
def Env.full {T : Type} [Num T] (V : Env T) : Policies (M V.ctl.W) T := fullPolicies V.ctl V.lib V.C

/-! ## Simulation -/

section
variable {T : Type} [Num T]

/-- What the operations of `arithFull` compute. -/
private def pureFull (lib : Lib T) : Arith Res T :=
  { pureArith .opp lib with
    fnDown := fun fn x => ofOpt (lib fn .down x)
    fnUp := fun fn x => ofOpt (lib fn .up x) }

private theorem full_asim {c : Ctl} (L : CtlLaws c) (lib : Lib T) :
    ASim (inner L .opp) (arithFull c lib) (pureFull lib) :=
  have h : ASim (inner L .opp) (arithOf c .opp lib) (pureArith .opp lib) := arithOf_sim .opp lib (fun h => by cases h)
  { convDown := h.convDown, convUp := h.convUp, addDown := h.addDown, addUp := h.addUp, subDown := h.subDown,
    subUp := h.subUp, mulDown := h.mulDown, mulUp := h.mulUp, divDown := h.divDown, divUp := h.divUp,
    median := h.median, sqrtDown := h.sqrtDown, sqrtUp := h.sqrtUp, intDown := h.intDown, intUp := h.intUp,
    fnDown := fun _ _ => OnlyBase.ofOpt _, fnUp := fun _ _ => OnlyBase.ofOpt _,
    s_addDown := h.s_addDown, s_addUp := h.s_addUp, s_subDown := h.s_subDown, s_subUp := h.s_subUp,
    s_mulDown := h.s_mulDown, s_mulUp := h.s_mulUp, s_divDown := h.s_divDown, s_divUp := h.s_divUp,
    s_median := h.s_median, s_sqrtDown := h.s_sqrtDown, s_sqrtUp := h.s_sqrtUp, s_intDown := h.s_intDown,
    s_intUp := h.s_intUp, s_fnDown := fun _ _ => Sim.lift _, s_fnUp := fun _ _ => Sim.lift _ }

private theorem full_sim (V : Env T) : PSim (outer V.laws) (inner V.laws .opp) V.full (pureFull V.lib) V.C where
  chk := rfl
  scope := scope_sim .opp _
  scopeU := fun h => h
  rnd := full_asim V.laws V.lib
  unp := full_asim V.laws V.lib
  cur := fun f g h => evalIn_bind f g _ h
  curJ := fun f g h => evalIn_bind f g _ h

/-- The conversions of `P` compute those of `B`. -/
private structure Convs {W : Type} (J : Inv W) (P : Policies (M W) T) (B : Arith Res T) : Prop where
  dn : ∀ v, Sim J (P.rnd.convDown v) (B.convDown v)
  up : ∀ v, Sim J (P.rnd.convUp v) (B.convUp v)
  dnU : ∀ v, Sim J (P.unp.convDown v) (B.convDown v)
  upU : ∀ v, Sim J (P.unp.convUp v) (B.convUp v)

private theorem Convs.unprot {W : Type} {J : Inv W} {P : Policies (M W) T} {B : Arith Res T} (h : Convs J P B) :
    Convs J P.unprot B := ⟨h.dnU, h.upU, h.dnU, h.upU⟩

private theorem full_convs (V : Env T) : Convs (inner V.laws .opp) V.full (pureFull V.lib) :=
  ⟨fun _ => upNeg_sim _, fun _ => evalIn_up _, fun _ => upNeg_sim _, fun _ => evalIn_up _⟩

private theorem look {W : Type} {I J : Inv W} {P : Policies (M W) T} {B : Arith Res T} {C : Checking T} (h : PSim I J P B C)
    {β γ : Type} (f : RMode → Option T) (g : T → Res β) (k : β → M W γ) (k' : β → Res γ)
    (hf : ∀ r r', (ofOpt (f r) >>= g) = (ofOpt (f r') >>= g)) (hk : ∀ b, Sim I (k b) (k' b)) :
    Sim I (P.cur f >>= fun t => lift (g t) >>= k) ((purePolicies B C).cur f >>= fun t => g t >>= k') := by
  have e1 : (P.cur f >>= fun t => lift (g t) >>= k) = (P.cur f >>= fun t => lift (g t)) >>= k := (M.bind_assoc _ _ _).symm
  have e2 : ((purePolicies B C).cur f >>= fun t => (g t) >>= k') = (ofOpt (f .near) >>= g) >>= k' := by
    change (ofOpt (f .near) >>= fun t => g t >>= k') = _
    cases f .near <;> rfl
  rw [e1, e2]
  exact (h.cur f g hf).bind hk

private theorem call_psim {V : Env T} {W : Type} {I J : Inv W} {P : Policies (M W) T} {B : Arith Res T} {i : Bool}
    (h : PSim I J P B V.C) (cv : Convs J P B) (hi : i = true → I = J) {α : Type} (c : Call T α) (hc : V.ModeFree i c) :
    Sim I (c.run P) (c.run (purePolicies B V.C)) := by
  cases c with
  | addII x y => exact addII_sim h x y
  | addTI x y => exact addTI_sim h x y
  | addIT x y => exact addIT_sim h x y
  | subII x y => exact subII_sim h x y
  | subTI x y => exact subTI_sim h x y
  | subIT x y => exact subIT_sim h x y
  | mulII x y => exact mulII_sim h x y
  | mulTI x y => exact mulTI_sim h x y
  | mulIT x y => exact mulIT_sim h x y
  | divII x y => exact divII_sim h x y
  | divTI x y => exact divTI_sim h x y
  | divIT x y => exact divIT_sim h x y
  | addTT x y => exact addTT_sim h x y
  | subTT x y => exact subTT_sim h x y
  | mulTT x y => exact mulTT_sim h x y
  | divTT x y => exact divTT_sim h x y
  | addIInt x n => exact addIInt_sim h x n hc
  | addIntI n y => exact addIntI_sim h n y hc
  | subIInt x n => exact subIInt_sim h x n hc
  | subIntI n y => exact subIntI_sim h n y hc
  | mulIInt x n => exact mulIInt_sim h x n hc
  | mulIntI n y => exact mulIntI_sim h n y hc
  | divIInt x n => exact divIInt_sim h x n hc
  | divIntI n y => exact divIntI_sim h n y hc
  | fmodII x y => exact fmodII_sim h x y
  | fmodIT x y => exact fmodIT_sim h x y
  | fmodTI x y => exact fmodTI_sim h x y
  | divisionPart1 x y => exact divisionPart1_sim h x y
  | divisionPart2 x y b => exact divisionPart2_sim h x y b
  | multInv x => exact multInv_sim h x
  | pow x k => exact powI_sim h x k
  | sqrt x => exact sqrtI_sim h x
  | square x => exact squareI_sim h x
  | nthRoot ndebug fuel x k =>
    obtain rfl := hi hc.1
    exact nthRoot_sim h ndebug fuel x k hc.2
  | width x => exact width_sim h x
  | median x => exact median_sim h x
  | widen x v => exact widen_sim h x v
  | bisect x => exact bisect_sim h x
  | exp x => exact increasingI_sim h .exp x
  | log x => exact logI_sim h x
  | cos K fuel x => exact cosI_sim K fuel x h
  | sin K fuel x => exact sinI_sim h K fuel x
  | tan K x => exact tanI_sim h K x
  | asin K x => exact asinI_sim h K x
  | acos K x => exact acosI_sim h K x
  | atan x => exact increasingI_sim h .atan x
  | sinh x => exact increasingI_sim h .sinh x
  | cosh x => exact coshI_sim h x
  | tanh x => exact increasingI_sim h .tanh x
  | asinh x => exact increasingI_sim h .asinh x
  | acosh x => exact acoshI_sim h x
  | atanh x => exact atanhI_sim h x
  | ctorSrc v =>
    change Sim I (BI.ctorSrc P v) (BI.ctorSrc (purePolicies B V.C) v)
    unfold BI.ctorSrc
    rw [h.chk]
    refine look h _ _ _ _ hc.1 fun b => Sim.ite (fun _ => Sim.lift _) fun _ => h.scope ?_
    exact (cv.dn v).bind fun _ => (cv.up v).bind fun _ => Sim.pure _
  | ctorSrc2 l u le =>
    change Sim I (BI.ctorSrc2 P l u le) (BI.ctorSrc2 (purePolicies B V.C) l u le)
    unfold BI.ctorSrc2
    rw [h.chk]
    refine look h _ _ _ _ hc.1.1 fun b => Sim.ite (fun _ => Sim.lift _) fun _ => ?_
    refine look h _ _ _ _ hc.2.1 fun b => Sim.ite (fun _ => Sim.lift _) fun _ => ?_
    refine Sim.ite (fun _ => Sim.lift _) fun _ => h.scope ?_
    exact (cv.dn l).bind fun _ => (cv.up u).bind fun _ => Sim.pure _
  | ctorItv e l u =>
    change Sim I (BI.ctorItv P e l u) (BI.ctorItv (purePolicies B V.C) e l u)
    unfold BI.ctorItv
    rw [h.chk]
    refine (Sim.lift _).bind fun b => Sim.ite (fun _ => Sim.lift _) fun _ => h.scope ?_
    exact (cv.dn l).bind fun _ => (cv.up u).bind fun _ => Sim.pure _
  | chk f =>
    change Sim I (lift (f P.chk)) (lift (f V.C))
    rw [h.chk]; exact Sim.lift _

private theorem prog_psim {V : Env T} {W : Type} {I J : Inv W} {P : Policies (M W) T} {B : Arith Res T} {i : Bool}
    {α : Type} (p : Prog T α) (h : PSim I J P B V.C) (cv : Convs J P B) (hi : i = true → I = J)
    (hp : p.All (fun i => V.ModeFree i) i) : Sim I (p.run P) (p.run (purePolicies B V.C)) := by
  induction p generalizing I P i with
  | ret a => unfold Prog.run; exact Sim.pure _
  | fail e => unfold Prog.run; exact Sim.lift _
  | call c k ih =>
    unfold Prog.run
    exact (call_psim h cv hi c hp.1).bind fun b => ih b h cv hi (hp.2 b)
  | region body k ih ih' =>
    unfold Prog.run
    refine Sim.bind ?_ fun b => ih' b h cv hi (hp.2 b)
    exact h.scope (ih h.unprot cv.unprot (fun _ => rfl) hp.1)

section
variable (A : Arith Res T) (cd : Src T → Res T) (C : Checking T)

private theorem cosAux_conv (K : PiConst T) (same : Bool) (fuel : Nat) (x : Itv T) :
    cosAux K same fuel (purePolicies { A with convDown := cd } C) x = cosAux K same fuel (purePolicies A C) x := by
  induction fuel generalizing same x with
  | zero => rfl
  | succ n ih =>
    unfold cosAux
    simp only [pure_unprot, ih]
    rfl

private theorem sinI_conv (K : PiConst T) (fuel : Nat) (x : Itv T) :
    sinI K fuel (purePolicies { A with convDown := cd } C) x = sinI K fuel (purePolicies A C) x := by
  unfold sinI
  simp only [pure_unprot, cosAux_conv]
  rfl

private theorem call_conv (hcd : ∀ v : Src T, v.Opposite → cd v = A.convDown v) {α : Type} (c : Call T α)
    (hc : c.Reversible) : c.run (purePolicies { A with convDown := cd } C) = c.run (purePolicies A C) := by
  cases c with
  | ctorSrc v =>
    change BI.ctorSrc (purePolicies _ C) v = BI.ctorSrc (purePolicies _ C) v
    unfold BI.ctorSrc purePolicies
    dsimp only
    rw [hcd _ hc]
  | ctorSrc2 l u le =>
    change BI.ctorSrc2 (purePolicies _ C) l u le = BI.ctorSrc2 (purePolicies _ C) l u le
    unfold BI.ctorSrc2 purePolicies
    dsimp only
    rw [hcd _ hc]
  | ctorItv e l u =>
    change BI.ctorItv (purePolicies _ C) e l u = BI.ctorItv (purePolicies _ C) e l u
    unfold BI.ctorItv purePolicies
    dsimp only
    rw [hcd _ hc]
  | nthRoot nd fuel x k => exact nthRoot_indep A cd A.fnDown A.fnUp C _ _ _ _
  | cos K fuel x => exact cosAux_conv A cd C _ _ _ _
  | sin K fuel x => exact sinI_conv A cd C _ _ _
  | _ => rfl

private theorem prog_conv (hcd : ∀ v : Src T, v.Opposite → cd v = A.convDown v) {i : Bool} {α : Type} (p : Prog T α)
    (hp : p.All (fun _ => Call.Reversible) i) :
    p.run (purePolicies { A with convDown := cd } C) = p.run (purePolicies A C) := by
  induction p generalizing i with
  | ret a => rfl
  | fail e => rfl
  | call c k ih =>
    unfold Prog.run
    rw [call_conv A cd C hcd c hp.1]
    congr 1
    funext b
    exact ih b (hp.2 b)
  | region body k ih ih' =>
    unfold Prog.run
    simp only [pure_unprot, pure_scope]
    rw [ih hp.1]
    congr 1
    funext b
    exact ih' b (hp.2 b)
end
end

variable {f g : Fmt}

/-- A program makes the same computation whether its interval type switches the direction for every operation and takes
the elementary functions in the direction in force (`rounded_transc_std`), or is the one of examples/transc.cpp; and the
latter leaves the control word as it was. Missing from the full claim: conversions of values without an opposite (unsigned
numbers, the least integer, the integer 0, whose sign may differ), and calls that depend on the direction in force. -/
theorem C56_same_partial (V : Env (Fl f)) (hV : V.kind = .std) {α : Type} (p : Prog (Fl f) α)
    (hn : p.All (fun _ => Call.Reversible) false) (hm : p.All (fun i => V.ModeFree i) false) (s s' : V.State)
    (hs : V.Valid s) (hs' : V.Valid s') :
    (p.run V.full s).1 = (p.run V.P s').1 ∧ (p.run V.full s).2.cw = s.cw := by
  obtain ⟨J, h⟩ := V.lvl (by rw [hV]; intro h; cases h)
  have h1 := (p.run_sim h (i := false) (fun h => by cases h) hm s' hs').1
  have h2 := prog_psim (V := V) p (full_sim V) (full_convs V) (i := false) (fun h => by cases h) hm s hs
  refine ⟨?_, h2.2.1.symm⟩
  rw [h1, h2.1]
  have e1 : V.B = pureArith .std V.lib := by unfold Env.B; rw [hV]
  have e2 : pureFull V.lib = { V.B with convDown := (pureArith .opp V.lib).convDown } := by
    unfold pureFull
    rw [opp_eq_std, e1]
    rfl
  unfold Env.pp
  rw [e2]
  refine prog_conv _ _ _ (fun v hv => ?_) p hn
  rw [e1]
  change negRes (v.negConv .up) = ofOpt (v.conv .down)
  rw [← hv]
  cases v.negConv .up <;> rfl

private theorem transfer (V : Env (Fl f)) (hV : V.kind = .std) {α : Type} {Q : α → Prop} (c : Call (Fl f) α) (hn : c.Reversible)
    (hm : V.ModeFree false c) (h : V.Returns (c.run V.P) Q) : V.Returns (c.run V.full) Q := by
  intro s hs
  have h2 := call_psim (V := V) (full_sim V) (full_convs V) (i := false) (fun h => by cases h) c hm s hs
  obtain ⟨z, hz, -, hq⟩ := h s hs
  have h3 := C56_same_partial V hV (.call c .ret) ⟨hn, fun _ => trivial⟩ ⟨hm, fun _ => trivial⟩ s s hs hs
  have key : ∀ (P : Policies (M V.ctl.W) (Fl f)), ((Prog.call c .ret).run P s).1 = (c.run P s).1 := by
    intro P
    change (M.bind (c.run P) (fun b => Pure.pure b) s).1 = _
    unfold M.bind
    rcases c.run P s with ⟨o, s'⟩
    cases o <;> rfl
  rw [key, key] at h3
  exact ⟨z, h3.1.trans hz, h2.2.1.symm, hq⟩

/-- Which call computes the interval function belonging to `fn`. -/
private def fnCall (K : PiConst (Fl f)) (fuel : Nat) (x : Itv (Fl f)) : Fn → Call (Fl f) (Itv (Fl f))
  | .exp => .exp x | .log => .log x | .sin => .sin K fuel x | .cos => .cos K fuel x | .tan => .tan K x
  | .asin => .asin K x | .acos => .acos K x | .atan => .atan x | .sinh => .sinh x | .cosh => .cosh x | .tanh => .tanh x
  | .asinh => .asinh x | .acosh => .acosh x | .atanh => .atanh x

private theorem fn_transfer (V : Env (Fl f)) (hV : V.kind = .std) {Q : Itv (Fl f) → Prop} {K : PiConst (Fl f)} {fuel : Nat}
    {x : Itv (Fl f)} (fn : Fn) (h : V.Returns (fn.I K fuel V.P x) Q) : V.Returns (fn.I K fuel V.full x) Q := by
  have e : ∀ P : Policies (M V.ctl.W) (Fl f), fn.I K fuel P x = (fnCall K fuel x fn).run P := by intro P; cases fn <;> rfl
  rw [e] at h ⊢
  exact transfer V hV _ (by cases fn <;> trivial) (by cases fn <;> trivial) h

/-- The library delivers correctly rounded values of `fn` in its own format. -/
def MpfrOk (mp : Lib (Fl g)) (fn : Fn) : Prop :=
  ∀ (a : Fl g) x e, val a = some x → fn.Ext x e → Approx (Fl g) (IsRoundDown (Fl g)) (IsRoundUp (Fl g)) (fun r => mp fn r a) e

/-- Two roundings in the same direction are one: if the library is correctly rounded in its (wider) format, then
`invoke_mpfr` is correctly rounded in `double`. -/
theorem C56_invoke (h : g.Wider f) {mp : Lib (Fl g)} {fn : Fn} (hm : MpfrOk mp fn) (a : Fl f) (x e : EReal)
    (ha : val a = some x) (he : fn.Ext x e) :
    Approx (Fl f) (IsRoundDown (Fl f)) (IsRoundUp (Fl f)) (fun r => invokeMpfr mp fn r a) e := by
  have hrep : ∀ z, Representable (Fl f) z → Representable (Fl g) z := by
    rintro z ⟨b, hb⟩
    exact ⟨_, h.back .near hb⟩
  intro r
  obtain ⟨c, z, h1, h2, h3, h4⟩ := hm _ x e (h.back .near ha) he r
  obtain ⟨w, hw, hs⟩ := convert_rounds (g := f) r h2
  refine ⟨c.convert f r, w, by
    change (mp fn r (a.convert g .near)).map (fun y => y.convert f r) = _
    rw [show mp fn r (a.convert g .near) = some c from h1]; rfl, hw, ?_, ?_⟩
  · rintro rfl
    obtain ⟨w', hw', k1, k2, k3⟩ := (convert_rounds (g := f) .down h2).isDown
    cases hw.symm.trans hw'
    obtain ⟨m1, m2, m3⟩ := h3 rfl
    exact ⟨k1, k2.trans m2, fun y hy hye => k3 y hy (m3 y (hrep y hy) hye)⟩
  · rintro rfl
    obtain ⟨w', hw', k1, k2, k3⟩ := (convert_rounds (g := f) .up h2).isUp
    cases hw.symm.trans hw'
    obtain ⟨m1, m2, m3⟩ := h4 rfl
    exact ⟨k1, m2.trans k2, fun y hy hye => k3 y hy (m3 y (hrep y hy) hye)⟩

private theorem invoke_fn (V : Env (Fl f)) (hk : V.kind = .std) (hg : g.Wider f) {mp : Lib (Fl g)} {fn : Fn}
    (hl : V.lib = invokeMpfr mp) (hm : MpfrOk mp fn) : V.FnOk (IsRoundDown (Fl f)) (IsRoundUp (Fl f)) fn := by
  refine .inl ⟨.inl hk, fun a y e ha he => ?_⟩
  rw [hl]
  exact C56_invoke hg hm a y e ha he

/-- The interval functions of the example are the smallest enclosures, for all the functions, also those for which
`rounded_transc_opp` loses its values (`C19_opp`). -/
theorem C56_smallest (V : Env (Fl f)) (hk : V.kind = .std) (hg : g.Wider f) {mp : Lib (Fl g)} {fn : Fn}
    (hl : V.lib = invokeMpfr mp) (hm : MpfrOk mp fn) (hs : fn.simple = true) {K : PiConst (Fl f)} (hK : Neighbours K)
    {fuel : Nat} {x : Itv (Fl f)} (hx : (γ x ∩ fn.dom).Nonempty) :
    V.Returns (fn.I K fuel V.full x) fun z => SmallestEnclosure z (fn.real '' (γ x ∩ fn.dom)) := by
  exact fn_transfer V hk fn (C19_smallest_partial V (V.fl_tight (by rw [hk]; intro h; cases h)) hs (invoke_fn V hk hg hl hm) hK
    (fun _ => fl_inf) hx)

/-- The periodic functions: `cos` and `sin` terminate, enclose and stay between -1 and 1; `tan` encloses. -/
theorem C56_periodic (V : Env (Fl f)) (hk : V.kind = .std) (hg : g.Wider f) {mp : Lib (Fl g)} (hl : V.lib = invokeMpfr mp)
    (hc : MpfrOk mp .cos) (ht : MpfrOk mp .tan) {K : PiConst (Fl f)} (hK : Neighbours K) {x : Itv (Fl f)} (hx : (γ x).Nonempty) :
    (∃ z N, (∀ r ∈ γ x, Real.cos r ∈ γ z) ∧ γ z ⊆ Icc (-1) 1 ∧ ∀ fuel ≥ N, V.Returns (cosI K fuel V.full x) (· = z)) ∧
    (∃ z N, (∀ r ∈ γ x, Real.sin r ∈ γ z) ∧ γ z ⊆ Icc (-1) 1 ∧ ∀ fuel ≥ N, V.Returns (sinI K fuel V.full x) (· = z)) ∧
    V.Returns (tanI K V.full x) fun z => (∀ r ∈ γ x, Real.cos r ≠ 0 → Real.tan r ∈ γ z) ∧
      ((∃ r ∈ γ x, Real.cos r = 0) → γ z = univ) := by
  have hV : V.Tight := V.fl_tight (by rw [hk]; intro h; cases h)
  have hi : V.IntOk := V.fl_intOk (by rw [hk]; intro h; cases h)
  have fc := invoke_fn V hk hg hl hc
  have ft := invoke_fn V hk hg hl ht
  obtain ⟨z, N, h1, h2, h3⟩ := C20_cos_range V hV hi fl_ieee fc hK.brackets hK.pos hx
  obtain ⟨z', N', k1, k2, k3⟩ := C20_sin_range V hV hi fl_ieee fc hK.brackets hK.pos hx
  exact ⟨⟨z, N, h1, h2, fun n hn => fn_transfer V hk .cos (h3 n hn)⟩, ⟨z', N', k1, k2, fun n hn => fn_transfer V hk .sin (k3 n hn)⟩,
    fn_transfer (fuel := 0) V hk .tan (C20_tan_partial V hV hi fl_ieee fl_inf ft.directed hK.brackets hK.pos hx)⟩

/-! ## The hypotheses can be met -/

/-- MPFR numbers of the default precision: 53 bits and a much larger range of exponents (mpfr.h: `MPFR_EMIN_DEFAULT`,
`MPFR_EMAX_DEFAULT`). -/
def Fmt.mpfr : Fmt := ⟨53, -(2 ^ 30 - 1) - 53, 2 ^ 30 - 1 - 53, by decide, by decide, by decide⟩

theorem mpfr_wider : Fmt.mpfr.Wider Fmt.double := by unfold Fmt.Wider; decide

theorem ideal_mpfr (fn : Fn) : MpfrOk (idealLib Fmt.mpfr) fn := fun _ _ e ha he =>
  Rounds.approx (fun r => idealLib_eq ha he r) fun r => roundE_rounds r e

/-- The interval type of the example: `double`, `checking_strict`, C99 rounding control. -/
noncomputable def dblMpfr : Env (Fl Fmt.double) := { dbl with kind := .std, lib := invokeMpfr (idealLib Fmt.mpfr) }

example (fuel : Nat) (fn : Fn) (hs : fn.simple = true) {x : Itv (Fl Fmt.double)} (hx : (γ x ∩ fn.dom).Nonempty) :=
  C56_smallest (fuel := fuel) dblMpfr rfl mpfr_wider rfl (ideal_mpfr fn) hs (C21_double .near) hx
example {x : Itv (Fl Fmt.double)} (hx : (γ x).Nonempty) :=
  C56_periodic dblMpfr rfl mpfr_wider rfl (ideal_mpfr .cos) (ideal_mpfr .tan) (C21_double .near) hx

/-- `atan([1, 1])` contains `π/4`, which it does not with `rounded_transc_opp` (`C19_opp_atan_one`). -/
theorem C56_atan_one : dblMpfr.Returns (atanI dblMpfr.full (litI 1 1)) fun z => Real.pi / 4 ∈ γ z := by
  have h1 : (1 : ℝ) ∈ γ (litI 1 1 : Itv (Fl Fmt.double)) := in_lit
  refine (C56_smallest (fuel := 0) (fn := .atan) (x := litI 1 1) dblMpfr rfl mpfr_wider rfl (ideal_mpfr .atan) rfl (C21_double .near)
    ⟨1, h1, trivial⟩).mono fun z hz => ?_
  rw [← Real.arctan_one]
  exact hz.1 ⟨1, ⟨h1, trivial⟩, rfl⟩

/-- A program that converts the integer 3. -/
example (s s' : dblMpfr.State) (hs : dblMpfr.Valid s) (hs' : dblMpfr.Valid s') :=
  C56_same_partial dblMpfr rfl (.call (.ctorSrc (srcInt 32 3)) fun x => .call (.log x) .ret)
    ⟨srcInt_opposite 32 (by decide) (by decide), fun _ => ⟨trivial, fun _ => trivial⟩⟩
    ⟨(srcInt_denotes dblMpfr (by decide) 32 (by decide)).free, fun _ => ⟨trivial, fun _ => trivial⟩⟩ s s' hs hs'

/-- A program with a region: `exp(x) + y` computed with the unprotected type, then halved. -/
example (x y : Itv (Fl Fmt.double)) (s s' : dblMpfr.State) (hs : dblMpfr.Valid s) (hs' : dblMpfr.Valid s') :=
  C56_same_partial dblMpfr rfl
    (.region (.call (.exp x) fun e => .call (.addII e y) .ret) fun z => .call (.divIT z (Num.lit 2)) .ret)
    ⟨⟨trivial, fun _ => ⟨trivial, fun _ => trivial⟩⟩, fun _ => ⟨trivial, fun _ => trivial⟩⟩
    ⟨⟨trivial, fun _ => ⟨trivial, fun _ => trivial⟩⟩, fun _ => ⟨trivial, fun _ => trivial⟩⟩ s s' hs hs'

end BI
