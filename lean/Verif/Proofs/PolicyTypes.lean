import Verif.Spec.PolicyTypes
import Verif.Proofs.ClientSim
/-! # Stacks of rounding classes -/

namespace BI

section
variable {m : Type → Type} [Eff m] {T : Type} [Num T] {α : Type}

/-- The same operations but for the transcendental functions. -/
def Rounding.withFn (r : Rounding m T) (tr : (Fn → T → m T) × (Fn → T → m T)) : Rounding m T :=
  { r with fnDown := tr.1, fnUp := tr.2 }

def Policies.withFn (P : Policies m T) (tr : (Fn → T → m T) × (Fn → T → m T)) : Policies m T :=
  { P with rnd := P.rnd.withFn tr, unp := P.unp.withFn tr }

theorem rootLoop_withFn (P : Policies m T) (tr) (tk x : T) (k : Int) (fuel : Nat) (y : Itv T) :
    rootLoop (P.withFn tr).unprot tk x k fuel y = rootLoop P.unprot tk x k fuel y := by
  induction fuel generalizing y with
  | zero => rfl
  | succ n ih =>
    unfold rootLoop
    have e : rootStep (P.withFn tr).unprot tk x k y = rootStep P.unprot tk x k y := rfl
    rw [e]
    congr 1
    funext yy
    congr 1
    funext b
    rw [ih]

theorem rootAux_withFn (P : Policies m T) (tr) (fuel : Nat) (x : T) (k : Int) :
    rootAux (P.withFn tr).unprot fuel x k = rootAux P.unprot fuel x k := by
  unfold rootAux
  congr 1
  funext tk
  exact rootLoop_withFn ..

theorem nthRoot_withFn (P : Policies m T) (tr) (nd : Bool) (fuel : Nat) (x : Itv T) (k : Int) :
    nthRoot (P.withFn tr) nd fuel x k = nthRoot P nd fuel x k := by
  have hd : ∀ x, rootAuxDn (P.withFn tr).unprot fuel x k = rootAuxDn P.unprot fuel x k := by
    intro x
    unfold rootAuxDn
    simp only [rootAux_withFn]
    rfl
  have hu : ∀ x, rootAuxUp (P.withFn tr).unprot fuel x k = rootAuxUp P.unprot fuel x k := by
    intro x
    unfold rootAuxUp
    simp only [rootAux_withFn]
    rfl
  unfold nthRoot
  simp only [hd, hu]
  rfl

theorem Call.run_withFn (P : Policies m T) (tr) (q : Call T α) (hq : q.Transcendental = false) :
    q.run (P.withFn tr) = q.run P := by
  cases q with
  | nthRoot nd fuel x k => exact nthRoot_withFn ..
  | exp | log | cos | sin | tan | asin | acos | atan | sinh | cosh | tanh | asinh | acosh | atanh => cases hq
  | _ => rfl
end

/-! ## rounded_transc_exact over switching arithmetic -/

section
variable {T : Type} [Num T]

/-- Negation of the base type is an involution. -/
def NegNeg (T : Type) [Num T] : Prop := ∀ v : T, (Num.neg v).bind Num.neg = some v

theorem pureFnDown_free (hn : NegNeg T) {lib : Lib T} (hl : ∀ f x a b, lib f a x = lib f b x) (k : RKind) (f : Fn) (x : T) (r : RMode) :
    pureFnDown k lib f x = ofOpt (lib f r x) := by
  cases k with
  | exact => exact congrArg ofOpt (hl ..)
  | std => exact congrArg ofOpt (hl ..)
  | opp =>
    unfold pureFnDown
    dsimp only
    split
    · rw [hl f x .up r]
      cases h : lib f r x with
      | none => rfl
      | some v =>
        have := hn v
        cases hv : Num.neg v with
        | none => rw [hv] at this; cases this
        | some nv =>
          rw [hv] at this
          change (ofOpt (Num.neg v) >>= fun nv => ofOpt (Num.neg nv)) = _
          rw [hv]
          exact congrArg ofOpt this
    · exact congrArg ofOpt (hl ..)

theorem pureFnUp_free {lib : Lib T} (hl : ∀ f x a b, lib f a x = lib f b x) (k : RKind) (f : Fn) (x : T) (r : RMode) :
    pureFnUp k lib f x = ofOpt (lib f r x) := by
  cases k <;> exact congrArg ofOpt (hl ..)

theorem evalIn_free {c : Ctl} {I : Inv c.W} {α : Type} (f : RMode → Option α) (r : Res α) (h : ∀ m, ofOpt (f m) = r) :
    Sim I (evalIn c f) r := fun s hs => ⟨h _, I.refl _ hs, fun _ _ => hs⟩

/-- The policies with arithmetic of kind `k` and `rounded_transc_exact`. -/
def mixPolicies (c : Ctl) (k : RKind) (lib : Lib T) (chk : Checking T) : Policies (M c.W) T :=
  (protPolicies c k lib chk).withFn (transcExact c lib)

theorem mix_asim {c : Ctl} (L : CtlLaws c) (k : RKind) (hk : k ≠ .exact) {lib : Lib T} (hn : NegNeg T)
    (hl : ∀ f x a b, lib f a x = lib f b x) (chk : Checking T) :
    ASim (inner L k) ((mixPolicies c k lib chk).rnd.toArith) (pureArith k lib) :=
  let h := arithOf_sim (L := L) k lib (fun h => absurd h hk)
  have e1 : (pureArith k lib).fnDown = pureFnDown k lib := by cases k <;> rfl
  have e2 : (pureArith k lib).fnUp = pureFnUp k lib := by cases k <;> rfl
  { toBaseErr := h.toBaseErr
    s_addDown := h.s_addDown, s_addUp := h.s_addUp, s_subDown := h.s_subDown, s_subUp := h.s_subUp
    s_mulDown := h.s_mulDown, s_mulUp := h.s_mulUp, s_divDown := h.s_divDown, s_divUp := h.s_divUp
    s_median := h.s_median, s_sqrtDown := h.s_sqrtDown, s_sqrtUp := h.s_sqrtUp
    s_intDown := h.s_intDown, s_intUp := h.s_intUp
    s_fnDown := fun f x => evalIn_free _ _ fun m => by rw [e1]; exact (pureFnDown_free hn hl k f x m).symm
    s_fnUp := fun f x => evalIn_free _ _ fun m => by rw [e2]; exact (pureFnUp_free hl k f x m).symm }

theorem mix_lvl (V : Env T) (hk : V.kind ≠ .exact) (hn : NegNeg T) (hl : ∀ f x a b, V.lib f a x = V.lib f b x) :
    ∃ J, Lvl V (outer V.laws) J (mixPolicies V.ctl V.kind V.lib V.C) := by
  obtain ⟨c, L, k, lib, chk, nd⟩ := V
  dsimp only at hk hl
  have ha := mix_asim L k hk hn hl (chk.eval T nd)
  cases k with
  | exact => exact absurd rfl hk
  | std => exact ⟨inner L .std, {
      sim := {
        chk := rfl
        scope := scope_sim .std _
        scopeU := fun h => h
        rnd := ha
        unp := ha
        cur := fun f g h => evalIn_bind f g _ h
        curJ := fun f g h => evalIn_bind f g _ h }
      cur := fun _ => rfl
      convDown := fun v _ => dn_sim _
      convUp := fun v _ => upw_sim _
      convDownU := fun v _ => dn_sim _
      convUpU := fun v _ => upw_sim _
      keepDown := fun v => (dn_sim _).keep
      keepUp := fun v => (upw_sim _).keep
      keepDownU := fun v => (dn_sim _).keep
      keepUpU := fun v => (upw_sim _).keep
      keepScope := keepScope_save .std _
      keepScopeU := fun h => h }⟩
  | opp => exact ⟨inner L .opp, {
      sim := {
        chk := rfl
        scope := scope_sim .opp _
        scopeU := fun h => h
        rnd := ha
        unp := ha
        cur := fun f g h => evalIn_bind f g _ h
        curJ := fun f g h => evalIn_bind f g _ h }
      cur := fun _ => rfl
      convDown := fun v _ => upNeg_sim _
      convUp := fun v _ => evalIn_up _
      convDownU := fun v _ => upNeg_sim _
      convUpU := fun v _ => evalIn_up _
      keepDown := fun v => (upNeg_sim _).keep
      keepUp := fun v => (evalIn_up _).keep
      keepDownU := fun v => (upNeg_sim _).keep
      keepUpU := fun v => (evalIn_up _).keep
      keepScope := keepScope_save .opp _
      keepScopeU := fun h => h }⟩
end

end BI
