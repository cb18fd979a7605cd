import Verif.Proofs.EnvLaws
import Verif.Spec.Client
/-! # Client programs: simulation, preservation of the control word, independence from the evaluation order -/

set_option linter.unusedSectionVars false

namespace BI

theorem exists_of_isOk {α : Type} {r : Res α} (h : r.isOk = true) : ∃ z, r = .ok z := by
  cases r with
  | ok z => exact ⟨z, rfl⟩
  | error e => cases h

/-- Without reference to an outcome: the control word stays related, and the invariant holds again after a normal
return. -/
def Keep {W : Type} (I : Inv W) {α : Type} (a : M W α) : Prop :=
  ∀ s : St W, I.Pre s.cw → I.Rel s.cw (a s).2.cw ∧ (∀ x, (a s).1 = .ok x → I.Pre (a s).2.cw)

section
variable {W : Type} {I : Inv W} {α β : Type}

theorem Sim.keep {a : M W α} {r : Res α} (h : Sim I a r) : Keep I a := fun s hs => by
  obtain ⟨h1, h2, h3⟩ := h s hs
  exact ⟨h2, fun x hx => h3 x (by rw [← h1]; exact hx)⟩

theorem Keep.lift (r : Res α) : Keep I (BI.lift r : M W α) := (Sim.lift r).keep
theorem Keep.pure (a : α) : Keep I (Pure.pure a : M W α) := (Sim.pure a).keep

theorem Keep.bind {a : M W α} {f : α → M W β} (ha : Keep I a) (hf : ∀ x, Keep I (f x)) : Keep I (a >>= f) := by
  intro s hs
  obtain ⟨h1, h2⟩ := ha s hs
  change I.Rel _ (M.bind a f s).2.cw ∧ ∀ x, (M.bind a f s).1 = _ → I.Pre (M.bind a f s).2.cw
  unfold M.bind
  rcases he : a s with ⟨o, s'⟩
  rw [he] at h1 h2
  cases o with
  | error e => exact ⟨h1, fun x hx => by cases hx⟩
  | ok x =>
    obtain ⟨k1, k2⟩ := hf x s' (h2 x rfl)
    exact ⟨I.trans _ _ _ h1 k1, k2⟩

theorem Keep.ite {c : Prop} [Decidable c] {a b : M W α} (h1 : c → Keep I a) (h2 : ¬ c → Keep I b) :
    Keep I (if c then a else b) := by
  by_cases h : c
  · rw [if_pos h]; exact h1 h
  · rw [if_neg h]; exact h2 h
end

/-- The outcome is a function of the control word at entry: it does not depend on the evaluation-order oracle. -/
def Det {c : Ctl} (L : CtlLaws c) {α : Type} (a : M c.W α) : Prop :=
  ∃ r : c.W → Res α, ∀ s : St c.W, L.valid s.cw → (a s).1 = r s.cw ∧ (a s).2.cw = s.cw

section
variable {c : Ctl} {L : CtlLaws c} {α β : Type}

theorem Sim.det {a : M c.W α} {r : Res α} (h : Sim (outer L) a r) : Det L a :=
  ⟨fun _ => r, fun s hs => ⟨(h s hs).1, ((h s hs).2.1).symm⟩⟩

theorem Det.lift (r : Res α) : Det L (BI.lift r : M c.W α) := (Sim.lift r).det
theorem Det.pure (a : α) : Det L (Pure.pure a : M c.W α) := (Sim.pure a).det

theorem Det.bind {a : M c.W α} {f : α → M c.W β} (ha : Det L a) (hf : ∀ x, Det L (f x)) : Det L (a >>= f) := by
  obtain ⟨r, hr⟩ := ha
  choose g hg using hf
  refine ⟨fun w => (r w).bind fun x => g x w, fun s hs => ?_⟩
  obtain ⟨h1, h2⟩ := hr s hs
  change (M.bind a f s).1 = _ ∧ (M.bind a f s).2.cw = _
  unfold M.bind
  rcases he : a s with ⟨o, s'⟩
  rw [he] at h1 h2
  dsimp only at h1 h2
  beta_reduce
  rw [← h1]
  cases o with
  | error e => exact ⟨rfl, h2⟩
  | ok x =>
    obtain ⟨k1, k2⟩ := hg x s' (by rw [h2]; exact hs)
    exact ⟨by rw [← h2]; exact k1, k2.trans h2⟩

theorem Det.ite {p : Prop} [Decidable p] {a b : M c.W α} (h1 : p → Det L a) (h2 : ¬ p → Det L b) :
    Det L (if p then a else b) := by
  by_cases h : p
  · rw [if_pos h]; exact h1 h
  · rw [if_neg h]; exact h2 h

theorem Det.evalIn {T : Type} {P : Policies (M c.W) T}
    (h : ∀ {γ : Type} (f : RMode → Option γ), P.cur f = BI.evalIn c f) (f : RMode → Option α) : Det L (P.cur f) := by
  rw [h]; exact ⟨fun w => ofOpt (f (c.decode w)), fun s _ => ⟨rfl, rfl⟩⟩
end

section
variable {T : Type} [Num T] {V : Env T} {I J : Inv V.ctl.W} {P : Policies (M V.ctl.W) T}

/-- What programs need from the policies they use: invariant `I` outside of rounding objects, `J` inside. -/
structure Lvl (V : Env T) (I J : Inv V.ctl.W) (P : Policies (M V.ctl.W) T) : Prop where
  sim : PSim I J P V.B V.C
  cur : ∀ {α : Type} (f : RMode → Option α), P.cur f = evalIn V.ctl f
  convDown : ∀ v, (V.kind = .exact → ∀ r r', v.conv r = v.conv r') → Sim J (P.rnd.convDown v) (V.B.convDown v)
  convUp : ∀ v, (V.kind = .exact → ∀ r r', v.conv r = v.conv r') → Sim J (P.rnd.convUp v) (V.B.convUp v)
  convDownU : ∀ v, (V.kind = .exact → ∀ r r', v.conv r = v.conv r') → Sim J (P.unp.convDown v) (V.B.convDown v)
  convUpU : ∀ v, (V.kind = .exact → ∀ r r', v.conv r = v.conv r') → Sim J (P.unp.convUp v) (V.B.convUp v)
  keepDown : ∀ v, Keep J (P.rnd.convDown v)
  keepUp : ∀ v, Keep J (P.rnd.convUp v)
  keepDownU : ∀ v, Keep J (P.unp.convDown v)
  keepUpU : ∀ v, Keep J (P.unp.convUp v)
  keepScope : ∀ {α : Type} {a : M V.ctl.W α}, Keep J a → Keep I (P.rnd.scope a)
  keepScopeU : ∀ {α : Type} {a : M V.ctl.W α}, Keep J a → Keep J (P.unp.scope a)

theorem Lvl.unprot (h : Lvl V I J P) : Lvl V J J P.unprot where
  sim := h.sim.unprot
  cur := h.cur
  convDown := h.convDownU
  convUp := h.convUpU
  convDownU := h.convDownU
  convUpU := h.convUpU
  keepDown := h.keepDownU
  keepUp := h.keepUpU
  keepDownU := h.keepDownU
  keepUpU := h.keepUpU
  keepScope := h.keepScopeU
  keepScopeU := h.keepScopeU

theorem Lvl.keepCur (h : Lvl V I J P) {α : Type} (f : RMode → Option α) : Keep I (P.cur f) := by
  rw [h.cur]; intro s hs; exact ⟨I.refl _ hs, fun _ _ => hs⟩

theorem keepScope_save {c : Ctl} {L : CtlLaws c} (k : RKind) (A : Arith (M c.W) T) {α : Type} {a : M c.W α}
    (h : Keep (inner L k) a) : Keep (outer L) ((saveState (T := T) c (initOf c k) A).scope a) := by
  intro s hs
  have hv : L.valid (initOf c k s.cw) := by cases k <;> first | exact hs | exact L.valid_up _ hs
  have hsm : L.same s.cw (initOf c k s.cw) := by
    cases k <;> first | exact L.same_refl _ | exact L.same_up _ hs
  have hu : k = .opp → c.decode (initOf c k s.cw) = .up := by
    rintro rfl; exact L.decode_up _ hs
  obtain ⟨h2, h3⟩ := h { s with cw := initOf c k s.cw } ⟨hv, hu⟩
  have e : (saveState c (initOf c k) A).scope a s =
      ((a { s with cw := initOf c k s.cw }).1,
        { (a { s with cw := initOf c k s.cw }).2 with
          cw := c.set (c.get s.cw) (a { s with cw := initOf c k s.cw }).2.cw }) := rfl
  have hr := L.restore s.cw _ hs (L.same_trans _ _ _ hsm h2)
  rw [e]
  refine ⟨hr.symm, fun _ _ => ?_⟩
  change L.valid (c.set (c.get s.cw) (a { s with cw := initOf c k s.cw }).2.cw)
  rw [hr]; exact hs

theorem Env.lvl' (V : Env T) (hk : KindOk T V.lib V.kind) :
    ∃ J, Lvl V (outer V.laws) J V.P ∧ ∀ w, J.Pre w → V.laws.valid w := by
  obtain ⟨c, L, k, lib, chk, nd⟩ := V
  dsimp only at hk
  cases k with
  | exact =>
    have key : ∀ {α : Type} (f : RMode → Option α), (∀ a b, f a = f b) → Sim (outer L) (evalIn c f) (ofOpt (f .near)) := by
      intro α f hf s hs
      refine ⟨?_, rfl, fun _ _ => hs⟩
      change ofOpt (f (c.decode s.cw)) = _
      rw [hf]
    have key' : ∀ {α : Type} (f : RMode → Option α), Keep (outer L) (evalIn c f) :=
      fun f s hs => ⟨rfl, fun _ _ => hs⟩
    exact ⟨outer L, .intro {
      sim := barePolicies_exact_sim lib _ (hk rfl)
      cur := fun _ => rfl
      convDown := fun v hv => key _ (hv rfl)
      convUp := fun v hv => key _ (hv rfl)
      convDownU := fun v hv => key _ (hv rfl)
      convUpU := fun v hv => key _ (hv rfl)
      keepDown := fun v => key' _
      keepUp := fun v => key' _
      keepDownU := fun v => key' _
      keepUpU := fun v => key' _
      keepScope := fun h => h
      keepScopeU := fun h => h } fun _ h => h⟩
  | std => exact ⟨inner L .std, .intro {
      sim := protPolicies_sim .std lib _ hk
      cur := fun _ => rfl
      convDown := fun v _ => dn_sim _
      convUp := fun v _ => upw_sim _
      convDownU := fun v _ => dn_sim _
      convUpU := fun v _ => upw_sim _
      keepDown := fun v => (dn_sim _).keep
      keepUp := fun v => (upw_sim _).keep
      keepDownU := fun v => (dn_sim _).keep
      keepUpU := fun v => (upw_sim _).keep
      keepScope := keepScope_save .std _
      keepScopeU := fun h => h } fun _ h => h.1⟩
  | opp => exact ⟨inner L .opp, .intro {
      sim := protPolicies_sim .opp lib _ hk
      cur := fun _ => rfl
      convDown := fun v _ => upNeg_sim _
      convUp := fun v _ => evalIn_up _
      convDownU := fun v _ => upNeg_sim _
      convUpU := fun v _ => evalIn_up _
      keepDown := fun v => (upNeg_sim _).keep
      keepUp := fun v => (evalIn_up _).keep
      keepDownU := fun v => (upNeg_sim _).keep
      keepUpU := fun v => (evalIn_up _).keep
      keepScope := keepScope_save .opp _
      keepScopeU := fun h => h } fun _ h => h.1⟩

theorem Env.lvl (V : Env T) (hk : KindOk T V.lib V.kind) : ∃ J, Lvl V (outer V.laws) J V.P :=
  let ⟨J, h, _⟩ := V.lvl' hk; ⟨J, h⟩

/-! ## Construction from other types -/

theorem ctorItv_sim (h : Lvl V I J P) (e : Res Bool) (l u : Src T)
    (hc : V.kind = .exact → (∀ r r', l.conv r = l.conv r') ∧ (∀ r r', u.conv r = u.conv r')) :
    Sim I (ctorItv P e l u) (ctorItv V.pp e l u) := by
  unfold ctorItv
  rw [h.sim.chk]
  refine (Sim.lift _).bind fun b => Sim.ite (fun _ => Sim.lift _) fun _ => h.sim.scope ?_
  exact (h.convDown l fun k => (hc k).1).bind fun _ => (h.convUp u fun k => (hc k).2).bind fun _ => Sim.pure _

theorem ctorItv_keep (h : Lvl V I J P) (e : Res Bool) (l u : Src T) : Keep I (ctorItv P e l u) := by
  unfold ctorItv
  refine (Keep.lift _).bind fun b => Keep.ite (fun _ => Keep.lift _) fun _ => h.keepScope ?_
  exact (h.keepDown l).bind fun _ => (h.keepUp u).bind fun _ => Keep.pure _

/-- Looking at a converted value through a test that does not depend on the direction. -/
theorem Lvl.cur_bind (h : Lvl V I J P) {α β γ : Type} (f : RMode → Option α) (g : α → Res β) (k : β → M V.ctl.W γ)
    (k' : β → Res γ) (hf : ∀ r r', (ofOpt (f r) >>= g) = (ofOpt (f r') >>= g)) (hk : ∀ b, Sim I (k b) (k' b)) :
    Sim I (P.cur f >>= fun t => lift (g t) >>= k) (V.pp.cur f >>= fun t => (g t) >>= k') := by
  have e1 : (P.cur f >>= fun t => lift (g t) >>= k) = (P.cur f >>= fun t => lift (g t)) >>= k := (M.bind_assoc _ _ _).symm
  have e2 : (V.pp.cur f >>= fun t => (g t) >>= k') = (ofOpt (f .near) >>= g) >>= k' := by
    change (ofOpt (f .near) >>= fun t => g t >>= k') = _
    cases f .near <;> rfl
  rw [e1, e2]
  exact (h.sim.cur f g hf).bind hk

theorem ctorSrc_sim (h : Lvl V I J P) (v : Src T) (hv : V.SrcFree v) : Sim I (ctorSrc P v) (ctorSrc V.pp v) := by
  unfold ctorSrc
  rw [h.sim.chk]
  refine h.cur_bind _ _ _ _ hv.1 fun b => Sim.ite (fun _ => Sim.lift _) fun _ => h.sim.scope ?_
  exact (h.convDown v hv.2).bind fun _ => (h.convUp v hv.2).bind fun _ => Sim.pure _

theorem ctorSrc_keep (h : Lvl V I J P) (v : Src T) : Keep I (ctorSrc P v) := by
  unfold ctorSrc
  refine (h.keepCur _).bind fun t => (Keep.lift _).bind fun b => Keep.ite (fun _ => Keep.lift _) fun _ => h.keepScope ?_
  exact (h.keepDown v).bind fun _ => (h.keepUp v).bind fun _ => Keep.pure _

theorem ctorSrc2_sim (h : Lvl V I J P) (l u : Src T) (le : Bool) (hv : V.SrcFree l ∧ V.SrcFree u) :
    Sim I (ctorSrc2 P l u le) (ctorSrc2 V.pp l u le) := by
  unfold ctorSrc2
  rw [h.sim.chk]
  refine h.cur_bind _ _ _ _ hv.1.1 fun b => Sim.ite (fun _ => Sim.lift _) fun _ => ?_
  refine h.cur_bind _ _ _ _ hv.2.1 fun b => Sim.ite (fun _ => Sim.lift _) fun _ => ?_
  refine Sim.ite (fun _ => Sim.lift _) fun _ => h.sim.scope ?_
  exact (h.convDown l hv.1.2).bind fun _ => (h.convUp u hv.2.2).bind fun _ => Sim.pure _

theorem ctorSrc2_keep (h : Lvl V I J P) (l u : Src T) (le : Bool) : Keep I (ctorSrc2 P l u le) := by
  unfold ctorSrc2
  refine (h.keepCur _).bind fun t => (Keep.lift _).bind fun b => Keep.ite (fun _ => Keep.lift _) fun _ => ?_
  refine (h.keepCur _).bind fun t => (Keep.lift _).bind fun b => Keep.ite (fun _ => Keep.lift _) fun _ => ?_
  refine Keep.ite (fun _ => Keep.lift _) fun _ => h.keepScope ?_
  exact (h.keepDown l).bind fun _ => (h.keepUp u).bind fun _ => Keep.pure _

/-- The part of the constructors that converts with the rounding object. -/
theorem conv_det (h : Lvl V (outer V.laws) J P) (hP : P = V.P) (l u : Src T) :
    Det V.laws (P.rnd.scope (do
      let l ← P.rnd.convDown l
      let u ← P.rnd.convUp u
      pure (⟨l, u⟩ : Itv T))) := by
  by_cases hk : V.kind = .exact
  · subst hP
    have e : ∀ (k : RKind), k = .exact → V.P = libPolicies V.ctl k V.lib V.C →
        Det V.laws (V.P.rnd.scope (do
          let l ← V.P.rnd.convDown l
          let u ← V.P.rnd.convUp u
          pure (⟨l, u⟩ : Itv T))) := by
      rintro _ rfl e
      rw [e]
      change Det V.laws (evalIn V.ctl l.conv >>= fun l => evalIn V.ctl u.conv >>= fun u => Pure.pure (⟨l, u⟩ : Itv T))
      refine Det.bind ⟨fun w => ofOpt (l.conv (V.ctl.decode w)), fun s _ => ⟨rfl, rfl⟩⟩ fun _ => ?_
      exact Det.bind ⟨fun w => ofOpt (u.conv (V.ctl.decode w)), fun s _ => ⟨rfl, rfl⟩⟩ fun _ => Det.pure _
    exact e V.kind hk rfl
  · exact (h.sim.scope ((h.convDown l fun k => absurd k hk).bind fun _ =>
      (h.convUp u fun k => absurd k hk).bind fun _ => Sim.pure _)).det

theorem ctorItv_det (h : Lvl V (outer V.laws) J P) (hP : P = V.P) (e : Res Bool) (l u : Src T) :
    Det V.laws (ctorItv P e l u) := by
  unfold ctorItv
  exact (Det.lift _).bind fun b => Det.ite (fun _ => Det.lift _) fun _ => conv_det h hP l u

theorem ctorSrc_det (h : Lvl V (outer V.laws) J P) (hP : P = V.P) (v : Src T) : Det V.laws (ctorSrc P v) := by
  unfold ctorSrc
  exact (Det.evalIn h.cur _).bind fun t => (Det.lift _).bind fun b => Det.ite (fun _ => Det.lift _) fun _ =>
    conv_det h hP v v

theorem ctorSrc2_det (h : Lvl V (outer V.laws) J P) (hP : P = V.P) (l u : Src T) (le : Bool) :
    Det V.laws (ctorSrc2 P l u le) := by
  unfold ctorSrc2
  refine (Det.evalIn h.cur _).bind fun t => (Det.lift _).bind fun b => Det.ite (fun _ => Det.lift _) fun _ => ?_
  refine (Det.evalIn h.cur _).bind fun t => (Det.lift _).bind fun b => Det.ite (fun _ => Det.lift _) fun _ => ?_
  exact Det.ite (fun _ => Det.lift _) fun _ => conv_det h hP l u

/-! ## nth_root inside a region -/

theorem rootAux_keep (h : Lvl V I J P) (fuel : Nat) (x : T) (k : Int) : Keep I (rootAux P fuel x k) := by
  unfold rootAux
  exact (h.keepCur _).bind fun tk => (rootLoop_sim h.sim tk x k fuel _).keep

theorem rootAuxDn_keep (h : Lvl V J J P) (fuel : Nat) (x : T) (k : Int) : Keep J (rootAuxDn P fuel x k) := by
  unfold rootAuxDn
  refine h.keepScope (Keep.ite (fun _ => ?_) fun _ => Keep.ite (fun _ => Keep.pure _) fun _ => ?_)
  · exact (rootAux_keep h fuel x k).bind fun _ => Keep.pure _
  · exact (h.sim.rnd.s_divUp _ _).keep.bind fun v => (rootAux_keep h fuel v k).bind fun _ =>
      (h.sim.rnd.s_divDown _ _).keep

theorem rootAuxUp_keep (h : Lvl V J J P) (fuel : Nat) (x : T) (k : Int) : Keep J (rootAuxUp P fuel x k) := by
  unfold rootAuxUp
  refine h.keepScope (Keep.ite (fun _ => ?_) fun _ => Keep.ite (fun _ => Keep.pure _) fun _ => ?_)
  · exact (rootAux_keep h fuel x k).bind fun _ => Keep.pure _
  · exact (h.sim.rnd.s_divDown _ _).keep.bind fun v => (rootAux_keep h fuel v k).bind fun _ =>
      (h.sim.rnd.s_divUp _ _).keep

theorem nthRoot_keep (h : Lvl V J J P) (ndebug : Bool) (fuel : Nat) (x : Itv T) (k : Int) :
    Keep J (nthRoot P ndebug fuel x k) := by
  have h1 := fun v => rootAuxUp_keep h.unprot fuel v k
  have h2 := fun v => rootAuxDn_keep h.unprot fuel v k
  unfold nthRoot negM
  repeat' first
    | with_reducible exact h1 _ | with_reducible exact h2 _ | with_reducible exact Keep.pure _
    | with_reducible exact Keep.lift _ | with_reducible refine Keep.ite (fun _ => ?_) (fun _ => ?_)
    | with_reducible refine Keep.bind ?_ (fun _ => ?_)

theorem Call.run_sim {i : Bool} (h : Lvl V I J P) (hi : i = true → I = J) {α : Type} (c : Call T α) (hc : V.ModeFree i c) :
    Sim I (c.run P) (c.run V.pp) := by
  cases c with
  | addII x y => exact addII_sim h.sim x y
  | addTI x y => exact addTI_sim h.sim x y
  | addIT x y => exact addIT_sim h.sim x y
  | subII x y => exact subII_sim h.sim x y
  | subTI x y => exact subTI_sim h.sim x y
  | subIT x y => exact subIT_sim h.sim x y
  | mulII x y => exact mulII_sim h.sim x y
  | mulTI x y => exact mulTI_sim h.sim x y
  | mulIT x y => exact mulIT_sim h.sim x y
  | divII x y => exact divII_sim h.sim x y
  | divTI x y => exact divTI_sim h.sim x y
  | divIT x y => exact divIT_sim h.sim x y
  | addTT x y => exact addTT_sim h.sim x y
  | subTT x y => exact subTT_sim h.sim x y
  | mulTT x y => exact mulTT_sim h.sim x y
  | divTT x y => exact divTT_sim h.sim x y
  | addIInt x n => exact addIInt_sim h.sim x n hc
  | addIntI n y => exact addIntI_sim h.sim n y hc
  | subIInt x n => exact subIInt_sim h.sim x n hc
  | subIntI n y => exact subIntI_sim h.sim n y hc
  | mulIInt x n => exact mulIInt_sim h.sim x n hc
  | mulIntI n y => exact mulIntI_sim h.sim n y hc
  | divIInt x n => exact divIInt_sim h.sim x n hc
  | divIntI n y => exact divIntI_sim h.sim n y hc
  | fmodII x y => exact fmodII_sim h.sim x y
  | fmodIT x y => exact fmodIT_sim h.sim x y
  | fmodTI x y => exact fmodTI_sim h.sim x y
  | divisionPart1 x y => exact divisionPart1_sim h.sim x y
  | divisionPart2 x y b => exact divisionPart2_sim h.sim x y b
  | multInv x => exact multInv_sim h.sim x
  | pow x k => exact powI_sim h.sim x k
  | sqrt x => exact sqrtI_sim h.sim x
  | square x => exact squareI_sim h.sim x
  | nthRoot ndebug fuel x k =>
    obtain rfl := hi hc.1
    exact nthRoot_sim h.sim ndebug fuel x k hc.2
  | width x => exact width_sim h.sim x
  | median x => exact median_sim h.sim x
  | widen x v => exact widen_sim h.sim x v
  | bisect x => exact bisect_sim h.sim x
  | exp x => exact increasingI_sim h.sim .exp x
  | log x => exact logI_sim h.sim x
  | cos K fuel x => exact cosI_sim K fuel x h.sim
  | sin K fuel x => exact sinI_sim h.sim K fuel x
  | tan K x => exact tanI_sim h.sim K x
  | asin K x => exact asinI_sim h.sim K x
  | acos K x => exact acosI_sim h.sim K x
  | atan x => exact increasingI_sim h.sim .atan x
  | sinh x => exact increasingI_sim h.sim .sinh x
  | cosh x => exact coshI_sim h.sim x
  | tanh x => exact increasingI_sim h.sim .tanh x
  | asinh x => exact increasingI_sim h.sim .asinh x
  | acosh x => exact acoshI_sim h.sim x
  | atanh x => exact atanhI_sim h.sim x
  | ctorSrc v => exact ctorSrc_sim h v hc
  | ctorSrc2 l u le => exact ctorSrc2_sim h l u le hc
  | ctorItv e l u => exact ctorItv_sim h e l u hc
  | chk f =>
    change Sim I (lift (f P.chk)) (lift (f V.C))
    rw [h.sim.chk]; exact Sim.lift _

theorem Call.run_keep {i : Bool} (h : Lvl V I J P) (hi : i = true → I = J) {α : Type} (c : Call T α)
    (hc : c.Protected i) : Keep I (c.run P) := by
  cases c with
  | addII x y => exact (addII_sim h.sim x y).keep
  | addTI x y => exact (addTI_sim h.sim x y).keep
  | addIT x y => exact (addIT_sim h.sim x y).keep
  | subII x y => exact (subII_sim h.sim x y).keep
  | subTI x y => exact (subTI_sim h.sim x y).keep
  | subIT x y => exact (subIT_sim h.sim x y).keep
  | mulII x y => exact (mulII_sim h.sim x y).keep
  | mulTI x y => exact (mulTI_sim h.sim x y).keep
  | mulIT x y => exact (mulIT_sim h.sim x y).keep
  | divII x y => exact (divII_sim h.sim x y).keep
  | divTI x y => exact (divTI_sim h.sim x y).keep
  | divIT x y => exact (divIT_sim h.sim x y).keep
  | addTT x y => exact (addTT_sim h.sim x y).keep
  | subTT x y => exact (subTT_sim h.sim x y).keep
  | mulTT x y => exact (mulTT_sim h.sim x y).keep
  | divTT x y => exact (divTT_sim h.sim x y).keep
  | addIInt x n => exact (h.keepCur _).bind fun t => (addIT_sim h.sim x t).keep
  | addIntI n y => exact (h.keepCur _).bind fun t => (addTI_sim h.sim t y).keep
  | subIInt x n => exact (h.keepCur _).bind fun t => (subIT_sim h.sim x t).keep
  | subIntI n y => exact (h.keepCur _).bind fun t => (subTI_sim h.sim t y).keep
  | mulIInt x n => exact (h.keepCur _).bind fun t => (mulIT_sim h.sim x t).keep
  | mulIntI n y => exact (h.keepCur _).bind fun t => (mulTI_sim h.sim t y).keep
  | divIInt x n => exact (h.keepCur _).bind fun t => (divIT_sim h.sim x t).keep
  | divIntI n y => exact (h.keepCur _).bind fun t => (divTI_sim h.sim t y).keep
  | fmodII x y => exact (fmodII_sim h.sim x y).keep
  | fmodIT x y => exact (fmodIT_sim h.sim x y).keep
  | fmodTI x y => exact (fmodTI_sim h.sim x y).keep
  | divisionPart1 x y => exact (divisionPart1_sim h.sim x y).keep
  | divisionPart2 x y b => exact (divisionPart2_sim h.sim x y b).keep
  | multInv x => exact (multInv_sim h.sim x).keep
  | pow x k => exact (powI_sim h.sim x k).keep
  | sqrt x => exact (sqrtI_sim h.sim x).keep
  | square x => exact (squareI_sim h.sim x).keep
  | nthRoot ndebug fuel x k =>
    obtain rfl := hi hc
    exact nthRoot_keep h ndebug fuel x k
  | width x => exact (width_sim h.sim x).keep
  | median x => exact (median_sim h.sim x).keep
  | widen x v => exact (widen_sim h.sim x v).keep
  | bisect x => exact (bisect_sim h.sim x).keep
  | exp x => exact (increasingI_sim h.sim .exp x).keep
  | log x => exact (logI_sim h.sim x).keep
  | cos K fuel x => exact (cosI_sim K fuel x h.sim).keep
  | sin K fuel x => exact (sinI_sim h.sim K fuel x).keep
  | tan K x => exact (tanI_sim h.sim K x).keep
  | asin K x => exact (asinI_sim h.sim K x).keep
  | acos K x => exact (acosI_sim h.sim K x).keep
  | atan x => exact (increasingI_sim h.sim .atan x).keep
  | sinh x => exact (increasingI_sim h.sim .sinh x).keep
  | cosh x => exact (coshI_sim h.sim x).keep
  | tanh x => exact (increasingI_sim h.sim .tanh x).keep
  | asinh x => exact (increasingI_sim h.sim .asinh x).keep
  | acosh x => exact (acoshI_sim h.sim x).keep
  | atanh x => exact (atanhI_sim h.sim x).keep
  | ctorSrc v => exact ctorSrc_keep h v
  | ctorSrc2 l u le => exact ctorSrc2_keep h l u le
  | ctorItv e l u => exact ctorItv_keep h e l u
  | chk f => exact Keep.lift _

theorem Call.run_det (h : Lvl V (outer V.laws) J P) (hP : P = V.P) {α : Type} (c : Call T α) (hc : c.Protected false) :
    Det V.laws (c.run P) := by
  cases c with
  | addII x y => exact (addII_sim h.sim x y).det
  | addTI x y => exact (addTI_sim h.sim x y).det
  | addIT x y => exact (addIT_sim h.sim x y).det
  | subII x y => exact (subII_sim h.sim x y).det
  | subTI x y => exact (subTI_sim h.sim x y).det
  | subIT x y => exact (subIT_sim h.sim x y).det
  | mulII x y => exact (mulII_sim h.sim x y).det
  | mulTI x y => exact (mulTI_sim h.sim x y).det
  | mulIT x y => exact (mulIT_sim h.sim x y).det
  | divII x y => exact (divII_sim h.sim x y).det
  | divTI x y => exact (divTI_sim h.sim x y).det
  | divIT x y => exact (divIT_sim h.sim x y).det
  | addTT x y => exact (addTT_sim h.sim x y).det
  | subTT x y => exact (subTT_sim h.sim x y).det
  | mulTT x y => exact (mulTT_sim h.sim x y).det
  | divTT x y => exact (divTT_sim h.sim x y).det
  | addIInt x n => exact (Det.evalIn h.cur _).bind fun t => (addIT_sim h.sim x t).det
  | addIntI n y => exact (Det.evalIn h.cur _).bind fun t => (addTI_sim h.sim t y).det
  | subIInt x n => exact (Det.evalIn h.cur _).bind fun t => (subIT_sim h.sim x t).det
  | subIntI n y => exact (Det.evalIn h.cur _).bind fun t => (subTI_sim h.sim t y).det
  | mulIInt x n => exact (Det.evalIn h.cur _).bind fun t => (mulIT_sim h.sim x t).det
  | mulIntI n y => exact (Det.evalIn h.cur _).bind fun t => (mulTI_sim h.sim t y).det
  | divIInt x n => exact (Det.evalIn h.cur _).bind fun t => (divIT_sim h.sim x t).det
  | divIntI n y => exact (Det.evalIn h.cur _).bind fun t => (divTI_sim h.sim t y).det
  | fmodII x y => exact (fmodII_sim h.sim x y).det
  | fmodIT x y => exact (fmodIT_sim h.sim x y).det
  | fmodTI x y => exact (fmodTI_sim h.sim x y).det
  | divisionPart1 x y => exact (divisionPart1_sim h.sim x y).det
  | divisionPart2 x y b => exact (divisionPart2_sim h.sim x y b).det
  | multInv x => exact (multInv_sim h.sim x).det
  | pow x k => exact (powI_sim h.sim x k).det
  | sqrt x => exact (sqrtI_sim h.sim x).det
  | square x => exact (squareI_sim h.sim x).det
  | nthRoot ndebug fuel x k => cases hc
  | width x => exact (width_sim h.sim x).det
  | median x => exact (median_sim h.sim x).det
  | widen x v => exact (widen_sim h.sim x v).det
  | bisect x => exact (bisect_sim h.sim x).det
  | exp x => exact (increasingI_sim h.sim .exp x).det
  | log x => exact (logI_sim h.sim x).det
  | cos K fuel x => exact (cosI_sim K fuel x h.sim).det
  | sin K fuel x => exact (sinI_sim h.sim K fuel x).det
  | tan K x => exact (tanI_sim h.sim K x).det
  | asin K x => exact (asinI_sim h.sim K x).det
  | acos K x => exact (acosI_sim h.sim K x).det
  | atan x => exact (increasingI_sim h.sim .atan x).det
  | sinh x => exact (increasingI_sim h.sim .sinh x).det
  | cosh x => exact (coshI_sim h.sim x).det
  | tanh x => exact (increasingI_sim h.sim .tanh x).det
  | asinh x => exact (increasingI_sim h.sim .asinh x).det
  | acosh x => exact (acoshI_sim h.sim x).det
  | atanh x => exact (atanhI_sim h.sim x).det
  | ctorSrc v => exact ctorSrc_det h hP v
  | ctorSrc2 l u le => exact ctorSrc2_det h hP l u le
  | ctorItv e l u => exact ctorItv_det h hP e l u
  | chk f => exact Det.lift _

/-! ## Programs -/

theorem Prog.run_sim {i : Bool} {α : Type} (p : Prog T α) (h : Lvl V I J P) (hi : i = true → I = J)
    (hp : p.All (fun i => V.ModeFree i) i) : Sim I (p.run P) (p.run V.pp) := by
  induction p generalizing I P i with
  | ret a => unfold Prog.run; exact Sim.pure _
  | fail e => unfold Prog.run; exact Sim.lift _
  | call c k ih =>
    unfold Prog.run
    exact (c.run_sim h hi hp.1).bind fun b => ih b h hi (hp.2 b)
  | region body k ih ih' =>
    unfold Prog.run
    refine Sim.bind ?_ fun b => ih' b h hi (hp.2 b)
    exact h.sim.scope (ih h.unprot (fun _ => rfl) hp.1)

theorem Prog.run_keep {i : Bool} {α : Type} (p : Prog T α) (h : Lvl V I J P) (hi : i = true → I = J)
    (hp : p.All (fun i => Call.Protected i) i) : Keep I (p.run P) := by
  induction p generalizing I P i with
  | ret a => unfold Prog.run; exact Keep.pure _
  | fail e => unfold Prog.run; exact Keep.lift _
  | call c k ih =>
    unfold Prog.run
    exact (c.run_keep h hi hp.1).bind fun b => ih b h hi (hp.2 b)
  | region body k ih ih' =>
    unfold Prog.run
    refine Keep.bind ?_ fun b => ih' b h hi (hp.2 b)
    exact h.keepScope (ih h.unprot (fun _ => rfl) hp.1)

end
end BI
