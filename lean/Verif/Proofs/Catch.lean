import Verif.Proofs.ClientSim
import Verif.Spec.Catch
/-! # Programs that catch exceptions: the invariant of a region also holds after an exception -/

set_option linter.unusedSectionVars false

namespace BI

section
variable {c : Ctl} (L : CtlLaws c) {T : Type} [Num T]

/-- Inside a rounding object of kind `k`: what holds at the start of a computation also holds at its end, even if it throws. -/
def innerC (k : RKind) : Inv c.W where
  Pre w := L.valid w ∧ (k = .opp → c.decode w = .up)
  Rel w w' := L.same w w' ∧ ((L.valid w ∧ (k = .opp → c.decode w = .up)) → L.valid w' ∧ (k = .opp → c.decode w' = .up))
  refl w _ := ⟨L.same_refl w, fun h => h⟩
  trans u v w h h' := ⟨L.same_trans u v w h.1 h'.1, fun e => h'.2 (h.2 e)⟩

variable {L}

theorem Sim.ofC {k : RKind} {α : Type} {a : M c.W α} {r : Res α} (h : Sim (innerC L k) a r) : Sim (inner L k) a r :=
  fun s hs => ⟨(h s hs).1, (h s hs).2.1.1, (h s hs).2.2⟩

theorem Keep.ofC {k : RKind} {α : Type} {a : M c.W α} (h : Keep (innerC L k) a) : Keep (inner L k) a :=
  fun s hs => ⟨(h s hs).1.1, (h s hs).2⟩

theorem Sim.toC {k : RKind} {α : Type} {a : M c.W α} {r : Res α} (h : Sim (inner L k) a r)
    (he : ∀ s, (inner L k).Pre s.cw → (inner L k).Pre (a s).2.cw) : Sim (innerC L k) a r :=
  fun s hs => ⟨(h s hs).1, ⟨(h s hs).2.1, fun _ => he s hs⟩, fun _ _ => he s hs⟩

theorem evalIn_upC {α : Type} (f : RMode → Option α) : Sim (innerC L .opp) (evalIn c f) (ofOpt (f .up)) :=
  (evalIn_up f).toC fun _ hs => hs

theorem dn_simC {α : Type} (f : RMode → Option α) : Sim (innerC L .std) (dn c f) (ofOpt (f .down)) :=
  (dn_sim f).toC fun s hs => by
    have e : dn c f s = (ofOpt (f (c.decode (c.downward s.cw))), { s with cw := c.downward s.cw }) := rfl
    rw [e]; exact ⟨L.valid_down _ hs.1, fun h => by cases h⟩

theorem upw_simC {α : Type} (f : RMode → Option α) : Sim (innerC L .std) (upw c f) (ofOpt (f .up)) :=
  (upw_sim f).toC fun s hs => by
    have e : upw c f s = (ofOpt (f (c.decode (c.upward s.cw))), { s with cw := c.upward s.cw }) := rfl
    rw [e]; exact ⟨L.valid_up _ hs.1, fun h => by cases h⟩

theorem nr_simC {α : Type} (f : RMode → Option α) : Sim (innerC L .std) (nr c f) (ofOpt (f .near)) :=
  (nr_sim f).toC fun s hs => by
    have e : nr c f s = (ofOpt (f (c.decode (c.toNearest s.cw))), { s with cw := c.toNearest s.cw }) := rfl
    rw [e]; exact ⟨L.valid_near _ hs.1, fun h => by cases h⟩

theorem dnUp_simC {α : Type} (f : RMode → Option α) (hf : f .down ≠ none) :
    Sim (innerC L .opp) (dnUp c f) (ofOpt (f .down)) :=
  (dnUp_sim f).toC fun s hs => by
    obtain ⟨v, hv⟩ := Option.ne_none_iff_exists'.1 hf
    exact ((dnUp_sim f) s hs).2.2 v (by rw [hv]; rfl)

theorem nrUp_simC {α : Type} (f : RMode → Option α) (hf : f .near ≠ none) :
    Sim (innerC L .opp) (nrUp c f) (ofOpt (f .near)) :=
  (nrUp_sim f).toC fun s hs => by
    obtain ⟨v, hv⟩ := Option.ne_none_iff_exists'.1 hf
    exact ((nrUp_sim f) s hs).2.2 v (by rw [hv]; rfl)

theorem upNeg_simC (f : RMode → Option T) : Sim (innerC L .opp) (upNeg c f) (negRes (f .up)) :=
  (evalIn_upC f).bind fun _ => Sim.lift _

theorem switches_of_not_negForm {f : Fn} (h : f.negForm = false) : f.oppSwitches = true := by
  cases f <;> first | rfl | cases h
end

section
variable {T : Type} [Num T] {V : Env T}

theorem std_simC {c : Ctl} {L : CtlLaws c} (lib : Lib T) : ASim (innerC L .std) (arithOf c .std lib) (pureArith .std lib) where
  toBaseErr := pureArith_base _ _
  s_addDown := fun _ _ => dn_simC _
  s_addUp := fun _ _ => upw_simC _
  s_subDown := fun _ _ => dn_simC _
  s_subUp := fun _ _ => upw_simC _
  s_mulDown := fun _ _ => dn_simC _
  s_mulUp := fun _ _ => upw_simC _
  s_divDown := fun _ _ => dn_simC _
  s_divUp := fun _ _ => upw_simC _
  s_median := fun _ _ => nr_simC _
  s_sqrtDown := fun _ => dn_simC _
  s_sqrtUp := fun _ => upw_simC _
  s_intDown := fun _ => dn_simC _
  s_intUp := fun _ => upw_simC _
  s_fnDown := fun _ _ => dn_simC _
  s_fnUp := fun _ _ => upw_simC _

theorem opp_simC {c : Ctl} {L : CtlLaws c} (lib : Lib T) (h1 : ∀ x : T, Num.sqrt .down x ≠ none)
    (h2 : ∀ x y : T, halfSum .near x y ≠ none) (h3 : ∀ (f : Fn) (x : T), f.oppSwitches = true → lib f .down x ≠ none) :
    ASim (innerC L .opp) (arithOf c .opp lib) (pureArith .opp lib) where
  toBaseErr := pureArith_base _ _
  s_addDown := fun _ _ => upNeg_simC _
  s_addUp := fun _ _ => evalIn_upC _
  s_subDown := fun _ _ => upNeg_simC _
  s_subUp := fun _ _ => evalIn_upC _
  s_mulDown := fun _ _ => upNeg_simC _
  s_mulUp := fun _ _ => evalIn_upC _
  s_divDown := fun _ _ => upNeg_simC _
  s_divUp := fun _ _ => evalIn_upC _
  s_median := fun x y => nrUp_simC _ (h2 x y)
  s_sqrtDown := fun x => dnUp_simC _ (h1 x)
  s_sqrtUp := fun _ => evalIn_upC _
  s_intDown := fun _ => upNeg_simC _
  s_intUp := fun _ => evalIn_upC _
  s_fnDown := fun f x => by
    change Sim _ ((transcOpp c lib).1 f x) (pureFnDown .opp lib f x)
    unfold transcOpp pureFnDown
    dsimp only
    refine Sim.ite (fun _ => ?_) (fun h => ?_)
    · exact (evalIn_upC _).bind fun v => (Sim.lift _).bind fun nv => Sim.lift _
    · exact dnUp_simC _ (h3 f x (switches_of_not_negForm (by simpa using h)))
  s_fnUp := fun _ _ => evalIn_upC _

/-- The invariant also holds after an exception. -/
def Inv.Lasting {W : Type} (I : Inv W) : Prop := ∀ w w', I.Pre w → I.Rel w w' → I.Pre w'

theorem outer_lasting {c : Ctl} (L : CtlLaws c) : (outer L).Lasting := fun _ _ h e => e ▸ h

theorem innerC_lasting {c : Ctl} (L : CtlLaws c) (k : RKind) : (innerC L k).Lasting := fun _ _ h e => e.2 h

theorem Env.lvlC (V : Env T) (hk : KindOk T V.lib V.kind) (hs : V.Steady) :
    ∃ J, Lvl V (outer V.laws) J V.P ∧ J.Lasting ∧ ∀ w, J.Pre w → V.laws.valid w := by
  obtain ⟨c, L, k, lib, chk, nd⟩ := V
  obtain ⟨h1, h2, h3, h4⟩ := hs
  dsimp only at hk h1 h2 h3 h4
  cases k with
  | exact =>
    have key : ∀ {α : Type} (f : RMode → Option α), (∀ a b, f a = f b) → Sim (outer L) (evalIn c f) (ofOpt (f .near)) := by
      intro α f hf s hs
      refine ⟨?_, rfl, fun _ _ => hs⟩
      change ofOpt (f (c.decode s.cw)) = _
      rw [hf]
    have key' : ∀ {α : Type} (f : RMode → Option α), Keep (outer L) (evalIn c f) :=
      fun f s hs => ⟨rfl, fun _ _ => hs⟩
    exact ⟨outer L, .intro {
      sim := barePolicies_exact_sim lib _ (hk rfl)
      cur := fun _ => rfl
      convDown := fun v hv => key _ (hv rfl)
      convUp := fun v hv => key _ (hv rfl)
      convDownU := fun v hv => key _ (hv rfl)
      convUpU := fun v hv => key _ (hv rfl)
      keepDown := fun v => key' _
      keepUp := fun v => key' _
      keepDownU := fun v => key' _
      keepUpU := fun v => key' _
      keepScope := fun h => h
      keepScopeU := fun h => h } ⟨outer_lasting L, fun _ h => h⟩⟩
  | std => exact ⟨innerC L .std, .intro {
      sim := {
        chk := rfl
        scope := fun h => scope_sim .std _ h.ofC
        scopeU := fun h => h
        rnd := std_simC lib
        unp := std_simC lib
        cur := fun f g h => evalIn_bind f g _ h
        curJ := fun f g h => evalIn_bind f g _ h }
      cur := fun _ => rfl
      convDown := fun v _ => dn_simC _
      convUp := fun v _ => upw_simC _
      convDownU := fun v _ => dn_simC _
      convUpU := fun v _ => upw_simC _
      keepDown := fun v => (dn_simC _).keep
      keepUp := fun v => (upw_simC _).keep
      keepDownU := fun v => (dn_simC _).keep
      keepUpU := fun v => (upw_simC _).keep
      keepScope := fun h => keepScope_save .std _ h.ofC
      keepScopeU := fun h => h } ⟨innerC_lasting L .std, fun _ h => h.1⟩⟩
  | opp =>
    have hh : ∀ x y : T, halfSum .near x y ≠ none := by
      intro x y
      unfold halfSum
      obtain ⟨s, hs⟩ := Option.ne_none_iff_exists'.1 (h2 rfl x y)
      rw [hs]; exact h3 rfl s
    have hA : ASim (innerC L .opp) (arithOf c .opp lib) (pureArith .opp lib) := opp_simC lib (h1 rfl) hh (h4 rfl)
    exact ⟨innerC L .opp, .intro {
      sim := {
        chk := rfl
        scope := fun h => scope_sim .opp _ h.ofC
        scopeU := fun h => h
        rnd := hA
        unp := hA
        cur := fun f g h => evalIn_bind f g _ h
        curJ := fun f g h => evalIn_bind f g _ h }
      cur := fun _ => rfl
      convDown := fun v _ => upNeg_simC _
      convUp := fun v _ => evalIn_upC _
      convDownU := fun v _ => upNeg_simC _
      convUpU := fun v _ => evalIn_upC _
      keepDown := fun v => (upNeg_simC _).keep
      keepUp := fun v => (evalIn_upC _).keep
      keepDownU := fun v => (upNeg_simC _).keep
      keepUpU := fun v => (evalIn_upC _).keep
      keepScope := fun h => keepScope_save .opp _ h.ofC
      keepScopeU := fun h => h } ⟨innerC_lasting L .opp, fun _ h => h.1⟩⟩

variable {I J : Inv V.ctl.W} {P : Policies (M V.ctl.W) T}

theorem Sim.attempt (hI : I.Lasting) {α : Type} {a : M V.ctl.W α} {r : Res α} (h : Sim I a r) :
    Sim I (Catch.attempt a : M V.ctl.W (Res α)) (.ok r) := by
  intro s hs
  obtain ⟨h1, h2, -⟩ := h s hs
  exact ⟨congrArg Except.ok h1, h2, fun _ _ => hI _ _ hs h2⟩

/-- The protected type may be used where another invariant holds. -/
theorem Sim.anywhere {c : Ctl} {L : CtlLaws c} {I : Inv c.W} (hI : ∀ w, I.Pre w → L.valid w) {α : Type} {a : M c.W α}
    {r : Res α} (h : Sim (outer L) a r) : Sim I a r := by
  intro s hs
  obtain ⟨h1, h2, -⟩ := h s (hI _ hs)
  have e : s.cw = (a s).2.cw := h2
  exact ⟨h1, e ▸ I.refl _ hs, fun _ _ => e ▸ hs⟩

theorem TProg.run_sim {i : Bool} {α : Type} (p : TProg T α) (h0 : Lvl V (outer V.laws) J V.P) (h : Lvl V I J P)
    (vI : ∀ w, I.Pre w → V.laws.valid w) (vJ : ∀ w, J.Pre w → V.laws.valid w) (hI : I.Lasting ∨ p.Outside true)
    (hJ : J.Lasting ∨ p.Outside i) (hi : i = true → I = J) (hp : p.All (fun i => V.ModeFree i) i) :
    Sim I (p.run V.P P) (p.run V.pp V.pp) := by
  induction p generalizing I P i with
  | ret a => unfold TProg.run; exact Sim.pure _
  | fail e => unfold TProg.run; exact Sim.lift _
  | call b c k ih =>
    unfold TProg.run
    have hc : Sim I (c.run (if b then V.P else P)) (c.run (if b then V.pp else V.pp)) := by
      rw [ite_self]
      cases b with
      | true => exact (c.run_sim h0 (i := false) (fun h => by cases h) (by simpa using hp.1)).anywhere vI
      | false => exact c.run_sim h hi (by simpa using hp.1)
    exact hc.bind fun b => ih b h vI (hI.imp id fun h => h b) (hJ.imp id fun h => h b) hi (hp.2 b)
  | region b body k ih ih' =>
    unfold TProg.run
    refine Sim.bind ?_ fun b => ih' b h vI (hI.imp id fun h => h.2 b) (hJ.imp id fun h => h.2 b) hi (hp.2 b)
    have hb := ih h.unprot vJ (hJ.imp id And.left) (hJ.imp id And.left) (fun _ => rfl) hp.1
    rw [ite_self]
    cases b with
    | true => exact Sim.anywhere vI (h0.sim.scope hb)
    | false => exact h.sim.scope hb
  | attempt body k ih ih' =>
    unfold TProg.run
    have hl : I.Lasting := hI.elim id fun h => by cases h.1
    refine Sim.bind ((ih h vI (.inl hl) (hJ.imp id fun h => h.2.1) hi hp.1).attempt hl) fun r => ?_
    cases r with
    | ok b => exact ih' _ h vI (.inl hl) (hJ.imp id fun h => h.2.2 _) hi (hp.2 _)
    | error e => exact Sim.ite (fun _ => ih' _ h vI (.inl hl) (hJ.imp id fun h => h.2.2 _) hi (hp.2 _)) fun _ => Sim.lift _

theorem Env.lvl_handlers (V : Env T) (hk : KindOk T V.lib V.kind) {α : Type} (p : TProg T α) (h : V.Steady ∨ p.Outside false) :
    ∃ J, Lvl V (outer V.laws) J V.P ∧ (∀ w, J.Pre w → V.laws.valid w) ∧ (J.Lasting ∨ p.Outside false) := by
  rcases h with h | h
  · obtain ⟨J, h1, h2, h3⟩ := V.lvlC hk h; exact ⟨J, h1, h3, .inl h2⟩
  · obtain ⟨J, h1, h3⟩ := V.lvl' hk; exact ⟨J, h1, h3, .inr h⟩

/-! ## Removing the regions -/

theorem TProg.andThen_run (B : Policies Res T) (hB : ∀ {γ : Type} (a : Res γ), B.rnd.scope a = a) (hu : B.unprot = B) {α β : Type}
    (p : TProg T α) (f : α → TProg T β) : (p.andThen f).run B B = (p.run B B >>= fun x => (f x).run B B) := by
  induction p with
  | ret a => rfl
  | fail e => rfl
  | call b c k ih =>
    rw [TProg.andThen, TProg.run, TProg.run, bind_assoc]
    exact congrArg _ (funext fun x => ih x f)
  | region b body k ih ih' =>
    rw [TProg.andThen, TProg.run, TProg.run, bind_assoc]
    exact congrArg _ (funext fun x => ih' x f)
  | attempt body k ih ih' =>
    rw [TProg.andThen, TProg.run, TProg.run, bind_assoc]
    refine congrArg _ (funext fun r => ?_)
    cases r with
    | ok x => exact ih' _ f
    | error e =>
      dsimp only
      split
      · exact ih' _ f
      · rfl

theorem TProg.plain_run (B : Policies Res T) (hB : ∀ {γ : Type} (a : Res γ), B.rnd.scope a = a) (hu : B.unprot = B) {α : Type}
    (p : TProg T α) : p.plain.run B B = p.run B B := by
  induction p with
  | ret a => rfl
  | fail e => rfl
  | call b c k ih =>
    unfold TProg.plain TProg.run
    rw [ite_self, ite_self]
    exact congrArg _ (funext fun x => ih x)
  | region b body k ih ih' =>
    rw [TProg.plain, TProg.andThen_run B hB hu, ih, TProg.run, ite_self, hB, hu]
    exact congrArg _ (funext fun x => ih' x)
  | attempt body k ih ih' =>
    unfold TProg.plain TProg.run
    rw [ih]
    refine congrArg _ (funext fun r => ?_)
    cases r with
    | ok x => exact ih' _
    | error e => dsimp only; rw [ih']

theorem TProg.all_andThen {q : Bool → {β : Type} → Call T β → Prop} {i : Bool} {α β : Type} (p : TProg T α)
    (f : α → TProg T β) (hp : p.All q i) (hf : ∀ x, (f x).All q i) : (p.andThen f).All q i := by
  induction p with
  | ret a => exact hf a
  | fail e => trivial
  | call b c k ih => exact ⟨hp.1, fun x => ih x f (hp.2 x) hf⟩
  | region b body k ih ih' => exact ⟨hp.1, fun x => ih' x f (hp.2 x) hf⟩
  | attempt body k ih ih' => exact ⟨hp.1, fun r => ih' r f (hp.2 r) hf⟩

theorem TProg.outside_andThen {α β : Type} (p : TProg T α) (f : α → TProg T β) (hp : p.Outside false)
    (hf : ∀ x, (f x).Outside false) : (p.andThen f).Outside false := by
  induction p with
  | ret a => exact hf a
  | fail e => trivial
  | call b c k ih => exact fun x => ih x f (hp x) hf
  | region b body k ih ih' => exact ⟨hp.1, fun x => ih' x f (hp.2 x) hf⟩
  | attempt body k ih ih' => exact ⟨rfl, hp.2.1, fun r => ih' r f (hp.2.2 r) hf⟩

theorem TProg.plain_all {q : {β : Type} → Call T β → Prop} {i : Bool} {α : Type} (p : TProg T α) (hp : p.All (fun _ => q) i) :
    p.plain.All (fun _ => q) false := by
  induction p generalizing i with
  | ret a => trivial
  | fail e => trivial
  | call b c k ih => exact ⟨hp.1, fun x => ih x (hp.2 x)⟩
  | region b body k ih ih' => exact TProg.all_andThen _ _ (ih hp.1) fun x => ih' x (hp.2 x)
  | attempt body k ih ih' => exact ⟨ih hp.1, fun r => ih' r (hp.2 r)⟩

/-- Without regions all handlers are outside regions. -/
theorem TProg.plain_outside {α : Type} (p : TProg T α) : p.plain.Outside false := by
  induction p with
  | ret a => trivial
  | fail e => trivial
  | call b c k ih => exact fun x => ih x
  | region b body k ih ih' => exact TProg.outside_andThen _ _ ih fun x => ih' x
  | attempt body k ih ih' => exact ⟨rfl, ih, fun r => ih' r⟩

end
end BI
