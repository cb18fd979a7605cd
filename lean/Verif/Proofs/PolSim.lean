import Verif.Core.Sim
import Verif.Spec.Env
/-! # The concrete rounding policies simulate mode-free arithmetic -/

set_option linter.unusedSectionVars false

namespace BI

section
variable {T : Type} [Num T]

/-- The values delivered by `rounded_transc_K` when the mode discipline is respected. -/
def pureFnDown (k : RKind) (lib : Lib T) (f : Fn) (x : T) : Res T :=
  match k with
  | .exact => ofOpt (lib f .near x)
  | .std => ofOpt (lib f .down x)
  | .opp =>
    if f.negForm then do
      let v ← ofOpt (lib f .up x)
      let nv ← ofOpt (Num.neg v)
      ofOpt (Num.neg nv)
    else ofOpt (lib f .down x)

def pureFnUp (k : RKind) (lib : Lib T) (f : Fn) (x : T) : Res T :=
  match k with
  | .exact => ofOpt (lib f .near x)
  | _ => ofOpt (lib f .up x)

/-- `-E` where `E` is evaluated upward -/
def negRes (o : Option T) : Res T := do
  let r ← ofOpt o
  ofOpt (Num.neg r)

/-- The mode-free arithmetic delivered by `rounded_arith_K`. -/
def pureArith (k : RKind) (lib : Lib T) : Arith Res T :=
  match k with
  | .exact =>
    { convDown := fun v => ofOpt (v.conv .near)
      convUp := fun v => ofOpt (v.conv .near)
      addDown := fun x y => ofOpt (Num.add .near x y)
      addUp := fun x y => ofOpt (Num.add .near x y)
      subDown := fun x y => ofOpt (Num.sub .near x y)
      subUp := fun x y => ofOpt (Num.sub .near x y)
      mulDown := fun x y => ofOpt (Num.mul .near x y)
      mulUp := fun x y => ofOpt (Num.mul .near x y)
      divDown := fun x y => ofOpt (Num.div .near x y)
      divUp := fun x y => ofOpt (Num.div .near x y)
      median := fun x y => ofOpt (halfSum .near x y)
      sqrtDown := fun x => ofOpt (Num.sqrt .near x)
      sqrtUp := fun x => ofOpt (Num.sqrt .near x)
      intDown := fun x => ofOpt (Num.floor x)
      intUp := fun x => ofOpt (Num.ceil x)
      fnDown := pureFnDown .exact lib
      fnUp := pureFnUp .exact lib }
  | .std =>
    { convDown := fun v => ofOpt (v.conv .down)
      convUp := fun v => ofOpt (v.conv .up)
      addDown := fun x y => ofOpt (Num.add .down x y)
      addUp := fun x y => ofOpt (Num.add .up x y)
      subDown := fun x y => ofOpt (Num.sub .down x y)
      subUp := fun x y => ofOpt (Num.sub .up x y)
      mulDown := fun x y => ofOpt (Num.mul .down x y)
      mulUp := fun x y => ofOpt (Num.mul .up x y)
      divDown := fun x y => ofOpt (Num.div .down x y)
      divUp := fun x y => ofOpt (Num.div .up x y)
      median := fun x y => ofOpt (halfSum .near x y)
      sqrtDown := fun x => ofOpt (Num.sqrt .down x)
      sqrtUp := fun x => ofOpt (Num.sqrt .up x)
      intDown := fun x => ofOpt (Num.rint .down x)
      intUp := fun x => ofOpt (Num.rint .up x)
      fnDown := pureFnDown .std lib
      fnUp := pureFnUp .std lib }
  | .opp =>
    { convDown := fun v => negRes (v.negConv .up)
      convUp := fun v => ofOpt (v.conv .up)
      addDown := fun x y => negRes ((Num.neg x).bind fun nx => Num.sub .up nx y)
      addUp := fun x y => ofOpt (Num.add .up x y)
      subDown := fun x y => negRes (Num.sub .up y x)
      subUp := fun x y => ofOpt (Num.sub .up x y)
      mulDown := fun x y => negRes ((Num.neg y).bind fun ny => Num.mul .up x ny)
      mulUp := fun x y => ofOpt (Num.mul .up x y)
      divDown := fun x y => negRes ((Num.neg y).bind fun ny => Num.div .up x ny)
      divUp := fun x y => ofOpt (Num.div .up x y)
      median := fun x y => ofOpt (halfSum .near x y)
      sqrtDown := fun x => ofOpt (Num.sqrt .down x)
      sqrtUp := fun x => ofOpt (Num.sqrt .up x)
      intDown := fun x => negRes ((Num.neg x).bind fun nx => Num.rint .up nx)
      intUp := fun x => ofOpt (Num.rint .up x)
      fnDown := pureFnDown .opp lib
      fnUp := pureFnUp .opp lib }

theorem negRes_base (o : Option T) : OnlyBase (negRes o) :=
  (OnlyBase.ofOpt _).bind fun _ => OnlyBase.ofOpt _

theorem pureFnDown_base (k : RKind) (lib : Lib T) (f : Fn) (x : T) : OnlyBase (pureFnDown k lib f x) := by
  cases k
  · exact OnlyBase.ofOpt _
  · exact OnlyBase.ofOpt _
  · unfold pureFnDown
    dsimp only
    split
    · exact (OnlyBase.ofOpt _).bind fun _ => (OnlyBase.ofOpt _).bind fun _ => OnlyBase.ofOpt _
    · exact OnlyBase.ofOpt _

theorem pureFnUp_base (k : RKind) (lib : Lib T) (f : Fn) (x : T) : OnlyBase (pureFnUp k lib f x) := by
  cases k <;> exact OnlyBase.ofOpt _

theorem pureArith_base (k : RKind) (lib : Lib T) : (pureArith k lib).BaseErr := by
  cases k
  all_goals
    constructor
    all_goals
      intros
      first
      | exact OnlyBase.ofOpt _
      | exact negRes_base (T := T) _
      | exact pureFnDown_base (T := T) .opp lib _ _
      | exact pureFnUp_base (T := T) .opp lib _ _

end

section
variable {c : Ctl} (L : CtlLaws c) {T : Type} [Num T]

/-- Between rounding objects: any valid control word, and it is not changed. -/
def outer : Inv c.W where
  Pre w := L.valid w
  Rel w w' := w = w'
  refl _ _ := rfl
  trans _ _ _ h h' := Eq.trans h h'

/-- Inside a rounding object of kind `k`. -/
def inner (k : RKind) : Inv c.W where
  Pre w := L.valid w ∧ (k = .opp → c.decode w = .up)
  Rel w w' := L.same w w'
  refl w _ := L.same_refl w
  trans := L.same_trans

variable {L}

theorem evalIn_sim {k : RKind} {α : Type} (f : RMode → Option α) (r : RMode)
    (h : k = .opp → r = .up) (h' : k ≠ .opp → ∀ a b, f a = f b) :
    Sim (inner L k) (evalIn c f) (ofOpt (f r)) := by
  intro s hs
  refine ⟨?_, L.same_refl _, fun _ _ => hs⟩
  change ofOpt (f (c.decode s.cw)) = _
  by_cases hk : k = .opp
  · rw [hs.2 hk, h hk]
  · rw [h' hk]

theorem evalIn_up {α : Type} (f : RMode → Option α) : Sim (inner L .opp) (evalIn c f) (ofOpt (f .up)) :=
  evalIn_sim f .up (fun _ => rfl) (fun h => absurd rfl h)

theorem evalIn_any {α : Type} (f : RMode → Option α) (hf : ∀ a b, f a = f b) :
    Sim (inner L .exact) (evalIn c f) (ofOpt (f .near)) :=
  evalIn_sim f .near (fun h => by cases h) (fun _ => hf)

theorem dn_sim {α : Type} (f : RMode → Option α) : Sim (inner L .std) (dn c f) (ofOpt (f .down)) := by
  intro s hs
  have e : dn c f s = (ofOpt (f (c.decode (c.downward s.cw))), { s with cw := c.downward s.cw }) := rfl
  rw [e, L.decode_down _ hs.1]
  exact ⟨rfl, L.same_down _ hs.1, fun _ _ => ⟨L.valid_down _ hs.1, fun h => by cases h⟩⟩

theorem upw_sim {α : Type} (f : RMode → Option α) : Sim (inner L .std) (upw c f) (ofOpt (f .up)) := by
  intro s hs
  have e : upw c f s = (ofOpt (f (c.decode (c.upward s.cw))), { s with cw := c.upward s.cw }) := rfl
  rw [e, L.decode_up _ hs.1]
  exact ⟨rfl, L.same_up _ hs.1, fun _ _ => ⟨L.valid_up _ hs.1, fun h => by cases h⟩⟩

theorem nr_sim {α : Type} (f : RMode → Option α) : Sim (inner L .std) (nr c f) (ofOpt (f .near)) := by
  intro s hs
  have e : nr c f s = (ofOpt (f (c.decode (c.toNearest s.cw))), { s with cw := c.toNearest s.cw }) := rfl
  rw [e, L.decode_near _ hs.1]
  exact ⟨rfl, L.same_near _ hs.1, fun _ _ => ⟨L.valid_near _ hs.1, fun h => by cases h⟩⟩

theorem dnUp_sim {α : Type} (f : RMode → Option α) : Sim (inner L .opp) (dnUp c f) (ofOpt (f .down)) := by
  intro s hs
  have hd := L.valid_down _ hs.1
  cases hv : f .down with
  | none =>
    have e : dnUp c f s = (.error .base, { s with cw := c.downward s.cw }) := by
      change M.bind (evalIn c f) (fun r => M.bind (M.modify c.upward) fun _ => fun s => (.ok r, s))
        { s with cw := c.downward s.cw } = _
      unfold M.bind evalIn M.modify
      simp only [L.decode_down _ hs.1, hv, ofOpt]
    rw [e]
    exact ⟨rfl, L.same_down _ hs.1, fun _ h => by cases h⟩
  | some v =>
    have e : dnUp c f s = (.ok v, { s with cw := c.upward (c.downward s.cw) }) := by
      change M.bind (evalIn c f) (fun r => M.bind (M.modify c.upward) fun _ => fun s => (.ok r, s))
        { s with cw := c.downward s.cw } = _
      unfold M.bind evalIn M.modify
      simp only [L.decode_down _ hs.1, hv, ofOpt]
    rw [e]
    exact ⟨rfl, L.same_trans _ _ _ (L.same_down _ hs.1) (L.same_up _ hd),
      fun _ _ => ⟨L.valid_up _ hd, fun _ => L.decode_up _ hd⟩⟩

theorem nrUp_sim {α : Type} (f : RMode → Option α) : Sim (inner L .opp) (nrUp c f) (ofOpt (f .near)) := by
  intro s hs
  have hd := L.valid_near _ hs.1
  cases hv : f .near with
  | none =>
    have e : nrUp c f s = (.error .base, { s with cw := c.toNearest s.cw }) := by
      change M.bind (evalIn c f) (fun r => M.bind (M.modify c.upward) fun _ => fun s => (.ok r, s))
        { s with cw := c.toNearest s.cw } = _
      unfold M.bind evalIn M.modify
      simp only [L.decode_near _ hs.1, hv, ofOpt]
    rw [e]
    exact ⟨rfl, L.same_near _ hs.1, fun _ h => by cases h⟩
  | some v =>
    have e : nrUp c f s = (.ok v, { s with cw := c.upward (c.toNearest s.cw) }) := by
      change M.bind (evalIn c f) (fun r => M.bind (M.modify c.upward) fun _ => fun s => (.ok r, s))
        { s with cw := c.toNearest s.cw } = _
      unfold M.bind evalIn M.modify
      simp only [L.decode_near _ hs.1, hv, ofOpt]
    rw [e]
    exact ⟨rfl, L.same_trans _ _ _ (L.same_near _ hs.1) (L.same_up _ hd),
      fun _ _ => ⟨L.valid_up _ hd, fun _ => L.decode_up _ hd⟩⟩

theorem upNeg_sim (f : RMode → Option T) : Sim (inner L .opp) (upNeg c f) (negRes (f .up)) :=
  (evalIn_up f).bind fun _ => Sim.lift _

/-- Kinds of rounding usable with a base type: `exact` needs a mode-independent type. -/
def KindOk (T : Type) [Num T] (lib : Lib T) (k : RKind) : Prop := k = .exact → ModeFree T lib

theorem arithOf_sim (k : RKind) (lib : Lib T) (hk : KindOk T lib k) :
    ASim (inner L k) (arithOf c k lib) (pureArith k lib) := by
  cases k with
  | exact =>
    have hm := hk rfl
    have h2 : ∀ (x y : T) a b, halfSum a x y = halfSum b x y := by
      intro x y a b
      unfold halfSum
      rw [hm.add x y a b]
      congr 1
      funext s
      exact hm.div _ _ _ _
    exact {
      toBaseErr := pureArith_base _ _
      s_addDown := fun x y => evalIn_any _ (hm.add x y)
      s_addUp := fun x y => evalIn_any _ (hm.add x y)
      s_subDown := fun x y => evalIn_any _ (hm.sub x y)
      s_subUp := fun x y => evalIn_any _ (hm.sub x y)
      s_mulDown := fun x y => evalIn_any _ (hm.mul x y)
      s_mulUp := fun x y => evalIn_any _ (hm.mul x y)
      s_divDown := fun x y => evalIn_any _ (hm.div x y)
      s_divUp := fun x y => evalIn_any _ (hm.div x y)
      s_median := fun x y => evalIn_any _ (h2 x y)
      s_sqrtDown := fun x => evalIn_any _ (hm.sqrt x)
      s_sqrtUp := fun x => evalIn_any _ (hm.sqrt x)
      s_intDown := fun _ => Sim.lift _
      s_intUp := fun _ => Sim.lift _
      s_fnDown := fun f x => evalIn_any _ (hm.lib f x)
      s_fnUp := fun f x => evalIn_any _ (hm.lib f x) }
  | std =>
    exact {
      toBaseErr := pureArith_base _ _
      s_addDown := fun _ _ => dn_sim _
      s_addUp := fun _ _ => upw_sim _
      s_subDown := fun _ _ => dn_sim _
      s_subUp := fun _ _ => upw_sim _
      s_mulDown := fun _ _ => dn_sim _
      s_mulUp := fun _ _ => upw_sim _
      s_divDown := fun _ _ => dn_sim _
      s_divUp := fun _ _ => upw_sim _
      s_median := fun _ _ => nr_sim _
      s_sqrtDown := fun _ => dn_sim _
      s_sqrtUp := fun _ => upw_sim _
      s_intDown := fun _ => dn_sim _
      s_intUp := fun _ => upw_sim _
      s_fnDown := fun _ _ => dn_sim _
      s_fnUp := fun _ _ => upw_sim _ }
  | opp =>
    exact {
      toBaseErr := pureArith_base _ _
      s_addDown := fun _ _ => upNeg_sim _
      s_addUp := fun _ _ => evalIn_up _
      s_subDown := fun _ _ => upNeg_sim _
      s_subUp := fun _ _ => evalIn_up _
      s_mulDown := fun _ _ => upNeg_sim _
      s_mulUp := fun _ _ => evalIn_up _
      s_divDown := fun _ _ => upNeg_sim _
      s_divUp := fun _ _ => evalIn_up _
      s_median := fun _ _ => nrUp_sim _
      s_sqrtDown := fun _ => dnUp_sim _
      s_sqrtUp := fun _ => evalIn_up _
      s_intDown := fun _ => upNeg_sim _
      s_intUp := fun _ => evalIn_up _
      s_fnDown := fun f x => by
        change Sim _ ((transcOpp c lib).1 f x) (pureFnDown .opp lib f x)
        unfold transcOpp pureFnDown
        dsimp only
        refine Sim.ite (fun _ => ?_) (fun _ => ?_)
        · exact (evalIn_up _).bind fun v => (Sim.lift _).bind fun nv => Sim.lift _
        · exact dnUp_sim _
      s_fnUp := fun _ _ => evalIn_up _ }

theorem scope_sim (k : RKind) (A : Arith (M c.W) T) {α : Type} {a : M c.W α} {r : Res α}
    (h : Sim (inner L k) a r) : Sim (outer L) ((saveState (T := T) c (initOf c k) A).scope a) r := by
  intro s hs
  have hv : L.valid (initOf c k s.cw) := by cases k <;> first | exact hs | exact L.valid_up _ hs
  have hsm : L.same s.cw (initOf c k s.cw) := by
    cases k <;> first | exact L.same_refl _ | exact L.same_up _ hs
  have hu : k = .opp → c.decode (initOf c k s.cw) = .up := by
    rintro rfl; exact L.decode_up _ hs
  obtain ⟨h1, h2, h3⟩ := h { s with cw := initOf c k s.cw } ⟨hv, hu⟩
  have e : (saveState c (initOf c k) A).scope a s =
      ((a { s with cw := initOf c k s.cw }).1,
        { (a { s with cw := initOf c k s.cw }).2 with
          cw := c.set (c.get s.cw) (a { s with cw := initOf c k s.cw }).2.cw }) := rfl
  have hr := L.restore s.cw _ hs (L.same_trans _ _ _ hsm h2)
  rw [e]
  refine ⟨h1, ?_, fun _ _ => ?_⟩
  · exact hr.symm
  · change L.valid (c.set (c.get s.cw) (a { s with cw := initOf c k s.cw }).2.cw)
    rw [hr]; exact hs

theorem evalIn_bind {α β : Type} (f : RMode → Option α) (g : α → Res β) (I : Inv c.W)
    (h : ∀ r r', (ofOpt (f r) >>= g) = (ofOpt (f r') >>= g)) :
    Sim I (evalIn c f >>= fun t => lift (g t)) (ofOpt (f .near) >>= g) := by
  intro s hs
  have e : (evalIn c f >>= fun t => (lift (g t) : M c.W β)) s = ((ofOpt (f (c.decode s.cw)) >>= g), s) := by
    change M.bind _ _ s = _
    unfold M.bind evalIn
    cases f (c.decode s.cw) <;> rfl
  rw [e, h _ .near]
  exact ⟨rfl, I.refl _ hs, fun _ _ => hs⟩

/-- Protected policies (`save_state<...>`) simulate mode-free arithmetic from every valid control word, and do not
change the control word. -/
theorem protPolicies_sim (k : RKind) (lib : Lib T) (chk : Checking T) (hk : KindOk T lib k) :
    PSim (outer L) (inner L k) (protPolicies c k lib chk) (pureArith k lib) chk where
  chk := rfl
  scope := scope_sim k _
  scopeU := fun h => h
  rnd := arithOf_sim k lib hk
  unp := arithOf_sim k lib hk
  cur := fun f g h => evalIn_bind f g _ h
  curJ := fun f g h => evalIn_bind f g _ h

/-- Bare policies (`save_state_nothing<...>`) work inside the discipline of their kind. -/
theorem barePolicies_sim (k : RKind) (lib : Lib T) (chk : Checking T) (hk : KindOk T lib k) :
    PSim (inner L k) (inner L k) (barePolicies c k lib chk) (pureArith k lib) chk where
  chk := rfl
  scope := fun h => h
  scopeU := fun h => h
  rnd := arithOf_sim k lib hk
  unp := arithOf_sim k lib hk
  cur := fun f g h => evalIn_bind f g _ h
  curJ := fun f g h => evalIn_bind f g _ h

/-- The exact kind never touches the control word. -/
theorem exact_sim (lib : Lib T) (hm : ModeFree T lib) :
    ASim (outer L) (arithOf c .exact lib) (pureArith .exact lib) := by
  have h2 : ∀ (x y : T) a b, halfSum a x y = halfSum b x y := by
    intro x y a b
    unfold halfSum
    rw [hm.add x y a b]
    congr 1
    funext s
    exact hm.div _ _ _ _
  have key : ∀ {α : Type} (f : RMode → Option α), (∀ a b, f a = f b) → Sim (outer L) (evalIn c f) (ofOpt (f .near)) := by
    intro α f hf s hs
    refine ⟨?_, rfl, fun _ _ => hs⟩
    change ofOpt (f (c.decode s.cw)) = _
    rw [hf]
  exact {
    toBaseErr := pureArith_base _ _
    s_addDown := fun x y => key _ (hm.add x y)
    s_addUp := fun x y => key _ (hm.add x y)
    s_subDown := fun x y => key _ (hm.sub x y)
    s_subUp := fun x y => key _ (hm.sub x y)
    s_mulDown := fun x y => key _ (hm.mul x y)
    s_mulUp := fun x y => key _ (hm.mul x y)
    s_divDown := fun x y => key _ (hm.div x y)
    s_divUp := fun x y => key _ (hm.div x y)
    s_median := fun x y => key _ (h2 x y)
    s_sqrtDown := fun x => key _ (hm.sqrt x)
    s_sqrtUp := fun x => key _ (hm.sqrt x)
    s_intDown := fun _ => Sim.lift _
    s_intUp := fun _ => Sim.lift _
    s_fnDown := fun f x => key _ (hm.lib f x)
    s_fnUp := fun f x => key _ (hm.lib f x) }

theorem barePolicies_exact_sim (lib : Lib T) (chk : Checking T) (hm : ModeFree T lib) :
    PSim (outer L) (outer L) (barePolicies c .exact lib chk) (pureArith .exact lib) chk where
  chk := rfl
  scope := fun h => h
  scopeU := fun h => h
  rnd := exact_sim lib hm
  unp := exact_sim lib hm
  cur := fun f g h => evalIn_bind f g _ h
  curJ := fun f g h => evalIn_bind f g _ h

theorem libPolicies_sim (k : RKind) (lib : Lib T) (chk : Checking T) (hk : KindOk T lib k) :
    ∃ J, PSim (outer L) J (libPolicies c k lib chk) (pureArith k lib) chk := by
  cases k with
  | exact => exact ⟨_, barePolicies_exact_sim lib chk (hk rfl)⟩
  | std => exact ⟨_, protPolicies_sim .std lib chk hk⟩
  | opp => exact ⟨_, protPolicies_sim .opp lib chk hk⟩

end
end BI
