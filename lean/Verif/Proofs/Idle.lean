import Verif.Spec.Idle
import Verif.Proofs.ClientSim
/-! # The rounding control that does nothing: changing some members of a rounding class -/

namespace BI

section
variable {m : Type → Type} [Eff m] {T : Type} [Num T] {α : Type}

/-- The members that differ between the classes. -/
structure Members (m : Type → Type) (T : Type) where
  conv : Src T → m T
  intDown : T → m T
  intUp : T → m T
  fnDown : Fn → T → m T
  fnUp : Fn → T → m T

def Rounding.patch (r : Rounding m T) (a : Members m T) : Rounding m T :=
  { r with convDown := a.conv, intDown := a.intDown, intUp := a.intUp, fnDown := a.fnDown, fnUp := a.fnUp }

def Policies.patch (P : Policies m T) (a b : Members m T) : Policies m T :=
  { P with rnd := P.rnd.patch a, unp := P.unp.patch b }

theorem rootLoop_patch (P : Policies m T) (a b : Members m T) (tk x : T) (k : Int) (fuel : Nat) (y : Itv T) :
    rootLoop (P.patch a b).unprot tk x k fuel y = rootLoop P.unprot tk x k fuel y := by
  induction fuel generalizing y with
  | zero => rfl
  | succ n ih =>
    unfold rootLoop
    have e : rootStep (P.patch a b).unprot tk x k y = rootStep P.unprot tk x k y := rfl
    rw [e]
    congr 1
    funext yy
    congr 1
    funext b
    rw [ih]

theorem rootAux_patch (P : Policies m T) (a b : Members m T) (fuel : Nat) (x : T) (k : Int) :
    rootAux (P.patch a b).unprot fuel x k = rootAux P.unprot fuel x k := by
  unfold rootAux
  congr 1
  funext tk
  exact rootLoop_patch ..

theorem nthRoot_patch (P : Policies m T) (a b : Members m T) (nd : Bool) (fuel : Nat) (x : Itv T) (k : Int) :
    nthRoot (P.patch a b) nd fuel x k = nthRoot P nd fuel x k := by
  have hd : ∀ x, rootAuxDn (P.patch a b).unprot fuel x k = rootAuxDn P.unprot fuel x k := by
    intro x
    unfold rootAuxDn
    simp only [rootAux_patch]
    rfl
  have hu : ∀ x, rootAuxUp (P.patch a b).unprot fuel x k = rootAuxUp P.unprot fuel x k := by
    intro x
    unfold rootAuxUp
    simp only [rootAux_patch]
    rfl
  unfold nthRoot
  simp only [hd, hu]
  rfl

/-- What a call needs of the members. -/
structure MembersFit (r : Rounding m T) (a : Members m T) (q : Call T α) : Prop where
  int : q.RoundsToInt = false
  conv : ∀ v, q.Converts v → a.conv v = r.convDown v
  fn : q.Transcendental = true → a.fnDown = r.fnDown ∧ a.fnUp = r.fnUp

theorem Call.run_patch (P : Policies m T) (a b : Members m T) (q : Call T α) (hq : MembersFit P.rnd a q) :
    q.run (P.patch a b) = q.run P := by
  obtain ⟨h1, h2, h3⟩ := hq
  obtain ⟨cv, i, u, fd, fu⟩ := a
  cases q with
  | nthRoot nd fuel x k => exact nthRoot_patch ..
  | cos | sin | tan | fmodII | fmodIT | fmodTI => cases h1
  | exp | log | asin | acos | atan | sinh | cosh | tanh | asinh | acosh | atanh =>
    obtain ⟨e1, e2⟩ := h3 rfl
    dsimp only at e1 e2
    subst e1 e2
    rfl
  | ctorSrc v =>
    have e := h2 v rfl
    dsimp only at e
    change BI.ctorSrc _ v = BI.ctorSrc _ v
    unfold BI.ctorSrc
    dsimp only [Policies.patch, Rounding.patch]
    rw [e]
  | ctorSrc2 l u le =>
    have e := h2 l rfl
    dsimp only at e
    change BI.ctorSrc2 _ l u le = BI.ctorSrc2 _ l u le
    unfold BI.ctorSrc2
    dsimp only [Policies.patch, Rounding.patch]
    rw [e]
  | ctorItv z l u =>
    have e := h2 l rfl
    dsimp only at e
    change BI.ctorItv _ z l u = BI.ctorItv _ z l u
    unfold BI.ctorItv
    dsimp only [Policies.patch, Rounding.patch]
    rw [e]
  | _ => rfl

theorem Prog.run_patch (p : Prog T α) : ∀ (i : Bool) (P : Policies m T) (a b : Members m T),
    p.All (fun _ _ q => MembersFit P.rnd a q ∧ MembersFit P.unp b q) i → p.run (P.patch a b) = p.run P := by
  induction p with
  | ret | fail => intros; rfl
  | call q k ih =>
    intro i P a b h
    unfold Prog.run
    rw [Call.run_patch P a b q h.1.1]
    congr 1
    funext x
    exact ih x i P a b (h.2 x)
  | region body k ihb ih =>
    intro i P a b h
    have weak : ∀ (i : Bool) {β : Type} (p : Prog T β), p.All (fun _ _ q => MembersFit P.rnd a q ∧ MembersFit P.unp b q) i →
        p.All (fun _ _ q => MembersFit P.unprot.rnd b q ∧ MembersFit P.unprot.unp b q) i := by
      intro i β p
      induction p generalizing i with
      | ret | fail => intro _; trivial
      | call q k ih => exact fun h => ⟨⟨h.1.2, h.1.2⟩, fun x => ih x i (h.2 x)⟩
      | region body k ihb ih => exact fun h => ⟨ihb true h.1, fun x => ih x i (h.2 x)⟩
    change P.rnd.scope (body.run (P.unprot.patch b b)) >>= _ = P.rnd.scope (body.run P.unprot) >>= _
    rw [ihb true P.unprot b b (weak true body h.1)]
    congr 1
    funext x
    exact ih x i P a b (h.2 x)

end

/-! ## The control of rounding.hpp -/

section
variable {T : Type} [Num T] {α : Type}

theorem idle_scope (r : RClass) (a : M idle.W α) : r.scope idle a = a := by
  induction r generalizing a with
  | control => rfl
  | save r ih =>
    have hi : r.init idle = id := by
      unfold RClass.init
      cases r.arithKind with
      | none => rfl
      | some k => cases k <;> rfl
    unfold RClass.scope
    refine (ih _).trans ?_
    rw [hi]
    rfl
  | arith _ r ih | transc _ r ih | unprotected r ih | nothing r ih | derived r ih => exact ih a

theorem evalIn_then {c : Ctl} {β : Type} (f : RMode → Option α) (k : α → M c.W β) (s : St c.W) :
    (evalIn c f >>= k) s = match f (c.decode s.cw) with
      | some x => k x s
      | none => (.error .base, s) := by
  change M.bind (evalIn c f) k s = _
  unfold M.bind evalIn
  cases f (c.decode s.cw) <;> rfl

theorem idle_upNeg {f g : RMode → Option T} (h : ∀ r, (f r).bind Num.neg = g r) : upNeg idle f = evalIn idle g := by
  funext s
  refine (evalIn_then f (fun r => negM r) s).trans ?_
  change _ = (ofOpt (g (idle.decode s.cw)), s)
  rw [← h]
  cases f (idle.decode s.cw) <;> rfl

theorem idle_back (f : RMode → Option T) : (evalIn idle f >>= fun r => (M.modify id >>= fun _ => pure r)) = evalIn idle f := by
  funext s
  refine (evalIn_then f _ s).trans ?_
  change _ = (ofOpt (f (idle.decode s.cw)), s)
  cases f (idle.decode s.cw) <;> rfl

/-- `rounded_arith_exact` with the control. -/
def idleBase (tr : (Fn → T → M idle.W T) × (Fn → T → M idle.W T)) (chk : Checking T) : Policies (M idle.W) T where
  rnd := noState idle (arithExact idle tr)
  unp := noState idle (arithExact idle tr)
  chk := chk
  cur := evalIn idle

def membersOf (A : Arith (M idle.W) T) : Members (M idle.W) T := ⟨A.convDown, A.intDown, A.intUp, A.fnDown, A.fnUp⟩

theorem idle_arith {k : RKind} (E : k = .opp → NegExact T) (tr tr' : (Fn → T → M idle.W T) × (Fn → T → M idle.W T)) :
    { arithWith idle k tr with scope := id } = (noState idle (arithExact idle tr')).patch (membersOf (arithWith idle k tr)) := by
  cases k with
  | exact => rfl
  | std => rfl
  | opp =>
    have E := E rfl
    have e1 : (arithOpp idle tr).addDown = (arithExact idle tr').addDown := by
      funext x y; exact idle_upNeg fun r => E.add r x y
    have e2 : (arithOpp idle tr).subDown = (arithExact idle tr').subDown := by
      funext x y; exact idle_upNeg fun r => E.sub r x y
    have e3 : (arithOpp idle tr).mulDown = (arithExact idle tr').mulDown := by
      funext x y; exact idle_upNeg fun r => E.mul r x y
    have e4 : (arithOpp idle tr).divDown = (arithExact idle tr').divDown := by
      funext x y; exact idle_upNeg fun r => E.div r x y
    have e5 : (arithOpp idle tr).median = (arithExact idle tr').median := by
      funext x y; exact idle_back _
    have e6 : (arithOpp idle tr).sqrtDown = (arithExact idle tr').sqrtDown := by
      funext x; exact idle_back _
    unfold arithWith Rounding.patch noState membersOf
    dsimp only
    rw [← e1, ← e2, ← e3, ← e4, ← e5, ← e6]
    rfl

theorem idle_transc {k : RKind} (E : k = .opp → NegExact T) (lib : Lib T) : transcOf idle k lib = transcExact idle lib := by
  cases k with
  | exact => rfl
  | std => rfl
  | opp =>
    have E := E rfl
    refine Prod.ext ?_ rfl
    funext f x s
    change (if f.negForm then (evalIn idle (fun r => lib f r x) >>= fun v => negM v >>= fun nv => negM nv)
      else (M.modify id >>= fun _ => evalIn idle (fun r => lib f r x) >>= fun y => M.modify id >>= fun _ => pure y) :
        M idle.W T) s = evalIn idle (fun r => lib f r x) s
    split
    · refine (evalIn_then _ _ s).trans ?_
      change _ = (ofOpt (lib f (idle.decode s.cw) x), s)
      cases lib f (idle.decode s.cw) x with
      | none => rfl
      | some v =>
        have hn := E.neg v
        have e : ∀ (o : Option T), M.bind (fun s => (ofOpt o, s)) (fun nv => negM nv) s = (ofOpt (o.bind Num.neg), s) := by
          intro o
          cases o <;> rfl
        refine (e (Num.neg v)).trans ?_
        rw [hn]
    · exact congrFun (idle_back _) s

theorem idle_conv {k : RKind} (tr : (Fn → T → M idle.W T) × (Fn → T → M idle.W T)) (v : Src T) (h : k = .opp → v.NegExact) :
    (arithWith idle k tr).convDown v = evalIn idle v.conv := by
  cases k with
  | exact => rfl
  | std => rfl
  | opp => exact idle_upNeg (h rfl)

/-- An object of any class does what one of `rounded_arith_exact` does, but for some members. -/
theorem idle_object {r : RClass} {lib : Lib T} {R : Rounding (M idle.W) T} (E : ¬ r.NoOpp → NegExact T)
    (h : r.object idle lib = some R) :
    ∃ a, R = (noState idle (arithExact idle (transcExact idle lib))).patch a ∧
      (∀ v, (¬ r.NoOpp → v.NegExact) → a.conv v = evalIn idle v.conv) ∧
      (r.transcKind.isSome → a.fnDown = (transcExact idle lib).1 ∧ a.fnUp = (transcExact idle lib).2) := by
  unfold RClass.object at h
  cases hk : r.arithKind with
  | none => rw [hk] at h; cases h
  | some k =>
    rw [hk] at h
    dsimp only at h
    have hE : k = .opp → NegExact T := fun e => E fun n => n.1 (by rw [hk, e])
    have key : ∀ tr : (Fn → T → M idle.W T) × (Fn → T → M idle.W T),
        R = { arithWith idle k tr with scope := r.scope idle } →
        (r.transcKind.isSome → tr = transcExact idle lib) →
        ∃ a, R = (noState idle (arithExact idle (transcExact idle lib))).patch a ∧
          (∀ v, (¬ r.NoOpp → v.NegExact) → a.conv v = evalIn idle v.conv) ∧
          (r.transcKind.isSome → a.fnDown = (transcExact idle lib).1 ∧ a.fnUp = (transcExact idle lib).2) := by
      intro tr hR ht
      refine ⟨membersOf (arithWith idle k tr), ?_, fun v hv => ?_, fun h => ?_⟩
      · rw [← idle_arith hE, hR]
        have e : ∀ {α : Type}, @RClass.scope idle α r = id := by
          intro α
          funext a
          exact idle_scope r a
        simp only [e]
      · exact idle_conv _ v fun e => hv fun n => n.1 (by rw [hk, e])
      · rw [ht h]
        cases k <;> exact ⟨rfl, rfl⟩
    refine key _ (Option.some.inj h).symm fun ht => ?_
    cases ht' : r.transcKind with
    | none => rw [ht'] at ht; cases ht
    | some k' => exact idle_transc (fun e => E fun n => n.2 (by rw [ht', e])) lib

end

end BI
