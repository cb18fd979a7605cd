import Verif.Spec.Object
import Verif.Proofs.Instances
import Verif.Proofs.Empty
/-! # C05, C37: compound assignment, assignment -/

set_option linter.unusedSectionVars false

namespace BI

variable {T : Type} [Num T]

theorem emptyI_cases (sp : ChkSpec) (nd : Bool) :
    (∃ l u, (sp.eval T nd).emptyLower = .ok l ∧ (sp.eval T nd).emptyUpper = .ok u) ∨
    ((sp.eval T nd).emptyLower = .error .emptyCreated ∧ (sp.eval T nd).emptyUpper = .error .emptyCreated) := by
  induction sp with
  | base => exact .inl ⟨_, _, rfl, rfl⟩
  | noEmpty c ih => exact .inr ⟨rfl, rfl⟩
  | noNan c ih => exact ih
  | catchNan c ih => exact ih

theorem wholeI_cases (sp : ChkSpec) (nd : Bool) :
    (∃ l u, (sp.eval T nd).negInf = .ok l ∧ (sp.eval T nd).posInf = .ok u) ∨ (∃ e, (sp.eval T nd).negInf = .error e) := by
  induction sp with
  | base =>
    change (∃ l u, (assertRes nd (Num.hasInf T) >>= fun _ => ofOpt (Num.neg Num.infinity) : Res T) = .ok l ∧
      (assertRes nd (Num.hasInf T) >>= fun _ => Pure.pure Num.infinity : Res T) = .ok u) ∨
      (∃ e, (assertRes nd (Num.hasInf T) >>= fun _ => ofOpt (Num.neg Num.infinity) : Res T) = .error e)
    cases assertRes nd (Num.hasInf T) with
    | error e => exact .inr ⟨e, rfl⟩
    | ok _ =>
      cases h : (Num.neg (Num.infinity : T)) with
      | none => exact .inr ⟨.base, rfl⟩
      | some l => exact .inl ⟨l, _, rfl, rfl⟩
  | noEmpty c ih => exact ih
  | noNan c ih => exact ih
  | catchNan c ih => exact ih

section
variable {W : Type}

theorem om_bind_ok {α β : Type} {a : OM W T α} {f : α → OM W T β} {w w' : World W T} {x : α} (h : a w = (.ok x, w')) :
    (a >>= f) w = f x w' := by
  change OM.bind a f w = _
  unfold OM.bind; rw [h]

theorem om_bind_err {α β : Type} {a : OM W T α} {f : α → OM W T β} {w w' : World W T} {e : Err}
    (h : a w = (.error e, w')) : (a >>= f) w = (.error e, w') := by
  change OM.bind a f w = _
  unfold OM.bind; rw [h]

theorem om_read {β : Type} (a : Arg T) (f : T → OM W T β) (w : World W T) : (a.read >>= f) w = f (a.of w.obj) w := rfl

theorem om_res_ok {α β : Type} {r : Res α} {f : α → OM W T β} {x : α} (h : r = .ok x) : (OM.ofRes r >>= f) = f x := by
  subst h; rfl
theorem om_res_err {α β : Type} {r : Res α} {f : α → OM W T β} {e : Err} (h : r = .error e) :
    (OM.ofRes r >>= f) = OM.ofRes (.error e) := by
  subst h; rfl
end

variable (V : Env T)

theorem setEmpty_replaces : Replaces (W := V.ctl.W) (setEmpty V.C) (fun _ => lift (emptyI V.C)) := by
  intro w
  unfold setEmpty emptyI
  rcases emptyI_cases (T := T) V.checks V.ndebug with ⟨l, u, h1, h2⟩ | ⟨h1, h2⟩
  · rw [om_res_ok (show V.C.emptyLower = _ from h1), show V.C.emptyLower = _ from h1, show V.C.emptyUpper = _ from h2]; rfl
  · rw [om_res_err (show V.C.emptyLower = _ from h1), show V.C.emptyLower = _ from h1]; rfl

theorem setVal_eq (z : Itv T) (w : World V.ctl.W T) : setVal z w = (.ok (), { w with obj := z }) := rfl

/-- A computed value is stored, or the exception passes. -/
theorem store_replaces {op : OM V.ctl.W T Unit} {f : Itv T → M V.ctl.W (Itv T)}
    (h : ∀ w, op w = (OM.ofM (f w.obj) >>= fun z => setVal z) w) : Replaces op f := by
  intro w
  rw [h w]
  change OM.bind _ _ w = _
  unfold OM.bind OM.ofM
  rcases f w.obj w.st with ⟨_ | z, s⟩ <;> rfl

theorem cond_replaces {W : Type} (b : Itv T → Res Bool) {p q op : OM W T Unit} {f g : Itv T → M W (Itv T)}
    (h : ∀ w, op w = (OM.ofRes (b w.obj) >>= fun c => if c then p else q) w)
    (hp : Replaces p f) (hq : Replaces q g) :
    Replaces op (fun x => lift (b x) >>= fun c => if c then f x else g x) := by
  intro w
  rw [h w]
  beta_reduce
  rcases hb : b w.obj with e | c
  · rfl
  · cases c
    · exact hq w
    · exact hp w

/-! ## C05 -/

/-- `x += y`, also `x += x`. -/
theorem C05_add (r : IArg T) : Replaces (addAssign V.P r) (fun x => addII V.P x (r.of x)) := by
  have h := cond_replaces (fun x => testII V.P.chk V.P.chk x (r.of x)) (op := addAssign V.P r) (fun w => rfl)
    (f := fun _ => lift (emptyI V.P.chk)) (by rw [V.P_chk]; exact setEmpty_replaces V)
    (store_replaces V (f := fun x => V.P.rnd.scope (mk2 (V.P.rnd.addDown x.lower (r.of x).lower)
      (V.P.rnd.addUp x.upper (r.of x).upper))) fun w => rfl)
  exact h

theorem C05_sub (r : IArg T) : Replaces (subAssign V.P r) (fun x => subII V.P x (r.of x)) := by
  have h := cond_replaces (fun x => testII V.P.chk V.P.chk x (r.of x)) (op := subAssign V.P r) (fun w => rfl)
    (f := fun _ => lift (emptyI V.P.chk)) (by rw [V.P_chk]; exact setEmpty_replaces V)
    (store_replaces V (f := fun x => V.P.rnd.scope (mk2 (V.P.rnd.subDown x.lower (r.of x).upper)
      (V.P.rnd.subUp x.upper (r.of x).lower))) fun w => rfl)
  exact h

theorem C05_mul (r : IArg T) : Replaces (mulAssign V.P r) (fun x => mulII V.P x (r.of x)) :=
  store_replaces V fun _ => rfl

theorem C05_div (r : IArg T) : Replaces (divAssign V.P r) (fun x => divII V.P x (r.of x)) :=
  store_replaces V fun _ => rfl

/-- `x -= t`, `x *= t`, `x /= t`, also when `t` is a bound of `x`. -/
theorem C05_sub_num (r : Arg T) : Replaces (subAssignT V.P r) (fun x => subIT V.P x (r.of x)) := by
  have h := cond_replaces (fun x => testIT V.P.chk x (r.of x)) (op := subAssignT V.P r) (fun w => rfl)
    (f := fun _ => lift (emptyI V.P.chk)) (by rw [V.P_chk]; exact setEmpty_replaces V)
    (store_replaces V (f := fun x => V.P.rnd.scope (mk2 (V.P.rnd.subDown x.lower (r.of x))
      (V.P.rnd.subUp x.upper (r.of x)))) fun w => rfl)
  exact h

theorem C05_mul_num (r : Arg T) : Replaces (mulAssignT V.P r) (fun x => mulIT V.P x (r.of x)) :=
  store_replaces V fun _ => rfl

theorem C05_div_num (r : Arg T) : Replaces (divAssignT V.P r) (fun x => divIT V.P x (r.of x)) :=
  store_replaces V fun _ => rfl

theorem addDown_comm (hc : AddComm T) (a b : T) :
    V.P.rnd.addDown a b = V.P.rnd.addDown b a ∧ V.P.rnd.addUp a b = V.P.rnd.addUp b a := by
  have e : (fun r => Num.add r a b) = fun r => Num.add r b a := funext fun r => hc.add r a b
  have e' := funext fun r => hc.opp r a b
  unfold Env.P
  cases V.kind
  · exact ⟨congrArg (evalIn V.ctl) e, congrArg (evalIn V.ctl) e⟩
  · exact ⟨congrArg (dn V.ctl) e, congrArg (upw V.ctl) e⟩
  · exact ⟨congrArg (upNeg V.ctl) e', congrArg (evalIn V.ctl) e⟩

/-- The two orders of testing an interval and a number differ only if both tests fail. -/
theorem testTI_IT {x : Itv T} {t : T} (h : V.C.isEmpty x.lower x.upper = .ok false ∨ ∃ b, V.C.isNan t = .ok b) :
    testTI V.C t x = testIT V.C x t := by
  obtain ⟨b, hb⟩ := isEmpty_ok (T := T) V.checks V.ndebug x.lower x.upper
  have hb : V.C.isEmpty x.lower x.upper = .ok b := hb
  unfold testTI testIT
  rw [hb]
  rcases h with h | ⟨c, hc⟩
  · rw [h] at hb
    obtain rfl : false = b := by simpa using hb
    rcases V.C.isNan t with e | _ | _ <;> rfl
  · rw [hc]; cases b <;> cases c <;> rfl

/-- `x += t`, for commutative additions, unless `x` is empty and the policy throws on `t`: the overloads of `+` and `+=`
test their operands in different orders, see `C05_add_num_order`. -/
theorem C05_add_num_partial (hc : AddComm T) (r : Arg T) (w : World V.ctl.W T)
    (hw : V.C.isEmpty w.obj.lower w.obj.upper = .ok false ∨ ∃ b, V.C.isNan (r.of w.obj) = .ok b) :
    addAssignT V.P r w =
      stored w.obj (addIT V.P w.obj (r.of w.obj) w.st) := by
  have h := cond_replaces (fun x => testIT V.P.chk x (r.of x)) (op := addAssignT V.P r) (fun w => rfl)
    (f := fun _ => lift (emptyI V.P.chk)) (by rw [V.P_chk]; exact setEmpty_replaces V)
    (store_replaces V (f := fun x => V.P.rnd.scope (mk2 (V.P.rnd.addDown x.lower (r.of x))
      (V.P.rnd.addUp x.upper (r.of x)))) fun w => rfl) w
  have e : addIT V.P w.obj (r.of w.obj) = (lift (testIT V.P.chk w.obj (r.of w.obj)) >>= fun c =>
      if c then lift (emptyI V.P.chk) else V.P.rnd.scope (mk2 (V.P.rnd.addDown w.obj.lower (r.of w.obj))
        (V.P.rnd.addUp w.obj.upper (r.of w.obj)))) := by
    unfold addIT addTI
    rw [V.P_chk, testTI_IT V hw, (addDown_comm V hc _ _).1, (addDown_comm V hc _ _).2]
  rw [e]; exact h

/-! ## C37 -/

/-- `x = t`, also when `t` is a bound of `x`. -/
theorem C37_assign_num (v : Arg T) :
    Replaces (W := V.ctl.W) (assignT V.C v) (fun x => lift (ctorT V.C (v.of x))) := by
  intro w
  unfold ctorT
  beta_reduce
  rcases hb : V.C.isNan (v.of w.obj) with e | _ | _
  · have : assignT V.C v w = (.error e, w) := by
      unfold assignT
      rw [om_read, om_res_err hb]; rfl
    exact this
  · have : assignT V.C v w = (.ok (), { w with obj := ⟨v.of w.obj, v.of w.obj⟩ }) := by
      unfold assignT
      rw [om_read, om_res_ok hb]; cases v <;> rfl
    exact this
  · have : assignT V.C v w = setEmpty V.C w := by
      unfold assignT
      rw [om_read, om_res_ok hb]; rfl
    exact this.trans (setEmpty_replaces V w)

/-- `x = y`, also `x = x`. -/
theorem C37_assign_itv (r : IArg T) : Replaces (W := V.ctl.W) (assignI r) (fun x => pure (r.of x)) := by
  intro w; cases r <;> rfl

/-- `x = y` with another policy. -/
theorem C37_assign_pol (V' : Env T) (y : Itv T) :
    Replaces (W := V.ctl.W) (assignPol V.C V'.C y) (fun _ => lift (reItv V'.C V.C y)) := by
  intro w
  unfold assignPol reItv
  obtain ⟨b, hb⟩ := isEmpty_ok (T := T) V'.checks V'.ndebug y.lower y.upper
  have hb : V'.C.isEmpty y.lower y.upper = .ok b := hb
  rw [hb]
  cases b
  · rfl
  · exact setEmpty_replaces V w

theorem C37_set_empty : Replaces (W := V.ctl.W) (setEmpty V.C) (fun _ => lift (emptyI V.C)) := setEmpty_replaces V

theorem C37_set_whole : Replaces (W := V.ctl.W) (setWhole V.C) (fun _ => lift (wholeI V.C)) := by
  intro w
  unfold setWhole wholeI
  rcases wholeI_cases (T := T) V.checks V.ndebug with ⟨l, u, h1, h2⟩ | ⟨e, h1⟩
  · rw [om_res_ok (show V.C.negInf = _ from h1), show V.C.negInf = _ from h1, show V.C.posInf = _ from h2]; rfl
  · rw [om_res_err (show V.C.negInf = _ from h1), show V.C.negInf = _ from h1]; rfl

/-- `x.assign(l, u)`, unless `u` refers to the lower bound of `x` and `l` does not. -/
theorem C37_assign_bounds_partial (l u : Arg T) (h : u = .low → l = .low) :
    Replaces (W := V.ctl.W) (assignLU V.C l u) (fun x => lift (ctorTT V.C (l.of x) (u.of x))) := by
  have h3 : Replaces (W := V.ctl.W) (setRef l u) (fun x => pure ⟨l.of x, u.of x⟩) := by
    intro w
    cases u with
    | val t => rfl
    | up => rfl
    | low => obtain rfl := h rfl; rfl
  have h2 := cond_replaces (fun x => .ok (!Num.le (l.of x) (u.of x)))
    (op := do if !Num.le (← l.read) (← u.read) then setEmpty V.C else setRef l u) (fun w => rfl) (setEmpty_replaces V) h3
  have h1 := cond_replaces (fun x => V.C.isNan (u.of x))
    (op := do
      if ← OM.ofRes (V.C.isNan (← u.read)) then setEmpty V.C
      else if !Num.le (← l.read) (← u.read) then setEmpty V.C else setRef l u) (fun w => rfl) (setEmpty_replaces V) h2
  have h0 := cond_replaces (fun x => V.C.isNan (l.of x)) (op := assignLU V.C l u) (fun w => rfl) (setEmpty_replaces V) h1
  intro w
  refine (h0 w).trans (congrArg _ ?_)
  unfold ctorTT
  beta_reduce
  rcases V.C.isNan (l.of w.obj) with e | _ | _
  · rfl
  · rcases V.C.isNan (u.of w.obj) with e | _ | _
    · rfl
    · cases Num.le (l.of w.obj) (u.of w.obj) <;> rfl
    · rfl
  · rfl

/-- A rounding object changes the control word before and after its lifetime, whatever happens inside. -/
theorem scope_out (s : V.State) : ∃ (s0 : V.State) (g : V.State → V.State),
    ∀ {α : Type} (a : M V.ctl.W α), V.P.rnd.scope a s = ((a s0).1, g (a s0).2) := by
  unfold Env.P
  cases V.kind
  · exact ⟨s, id, fun a => rfl⟩
  · exact ⟨_, fun s' => { s' with cw := V.ctl.set (V.ctl.get s.cw) s'.cw }, fun a => rfl⟩
  · exact ⟨_, fun s' => { s' with cw := V.ctl.set (V.ctl.get s.cw) s'.cw }, fun a => rfl⟩

theorem convUp_ok {u : Src T} (hu : ∀ r, (u.conv r).isSome) (s : V.State) : ∃ z, (V.P.rnd.convUp u s).1 = .ok z := by
  have key : ∀ r, ∃ z, ofOpt (u.conv r) = .ok z := by
    intro r
    obtain ⟨z, hz⟩ := Option.isSome_iff_exists.1 (hu r)
    exact ⟨z, by rw [hz]; rfl⟩
  unfold Env.P
  cases V.kind <;> exact key _

theorem assignConv_replaces (l u : Src T) (hu : ∀ r, (u.conv r).isSome) :
    Replaces (assignConv V.P l u) (fun _ => V.P.rnd.scope do
      let l ← V.P.rnd.convDown l
      let u ← V.P.rnd.convUp u
      pure ⟨l, u⟩) := by
  intro w
  obtain ⟨s0, g, hs⟩ := scope_out V w.st
  unfold assignConv
  change OM.bind (OM.ofM _) _ w = _
  unfold OM.bind OM.ofM
  beta_reduce
  rw [hs, hs]
  rcases h1 : V.P.rnd.convDown l s0 with ⟨e | x, s1⟩
  · have e1 : convPair V.P l u s0 = (.ok (.error e, .error e), s1) := by
      unfold convPair
      change M.bind (M.attempt _) _ s0 = _
      unfold M.bind M.attempt; rw [h1]; rfl
    have e2 : (do let l ← V.P.rnd.convDown l; let u ← V.P.rnd.convUp u; pure (⟨l, u⟩ : Itv T) : M V.ctl.W _) s0 =
        (.error e, s1) := by
      change M.bind _ _ s0 = _
      unfold M.bind; rw [h1]
    rw [e1, e2]; rfl
  · obtain ⟨y, hy⟩ := convUp_ok V hu s1
    rcases h2 : V.P.rnd.convUp u s1 with ⟨o, s2⟩
    rw [h2] at hy
    dsimp only at hy
    subst hy
    have e1 : convPair V.P l u s0 = (.ok (.ok x, .ok y), s2) := by
      unfold convPair
      change M.bind (M.attempt _) _ s0 = _
      unfold M.bind M.attempt; rw [h1]
      change M.bind (M.attempt (V.P.rnd.convUp u)) _ s1 = _
      unfold M.bind M.attempt; rw [h2]; rfl
    have e2 : (do let l ← V.P.rnd.convDown l; let u ← V.P.rnd.convUp u; pure (⟨l, u⟩ : Itv T) : M V.ctl.W _) s0 =
        (.ok ⟨x, y⟩, s2) := by
      change M.bind _ _ s0 = _
      unfold M.bind; rw [h1]
      change M.bind _ _ s1 = _
      unfold M.bind; rw [h2]; rfl
    rw [e1, e2]; rfl

/-- `x = v` with a number of another type whose conversion does not throw. -/
theorem C37_assign_src_partial (v : Src T) (hv : ∀ r, (v.conv r).isSome) :
    Replaces (assignSrc V.P v) (fun _ => ctorSrc V.P v) := by
  intro w
  have hc : V.P.cur v.conv = evalIn V.ctl v.conv := by unfold Env.P; cases V.kind <;> rfl
  unfold assignSrc ctorSrc
  rw [hc]
  obtain ⟨t, ht⟩ := Option.isSome_iff_exists.1 (hv (V.ctl.decode w.st.cw))
  have e1 : (OM.ofM (evalIn V.ctl v.conv) : OM V.ctl.W T T) w = (.ok t, w) := by
    unfold OM.ofM evalIn; rw [ht]; rfl
  have e2 : evalIn V.ctl v.conv w.st = (.ok t, w.st) := by unfold evalIn; rw [ht]; rfl
  rw [om_bind_ok e1]
  have e3 : ∀ {β : Type} (f : T → M V.ctl.W β), (evalIn V.ctl v.conv >>= f) w.st = f t w.st := by
    intro β f
    change M.bind _ _ _ = _
    unfold M.bind; rw [e2]
  beta_reduce
  rw [e3]
  exact cond_replaces (W := V.ctl.W) (fun _ => V.P.chk.isNan t) (fun _ => rfl)
    (f := fun _ => lift (emptyI V.P.chk)) (p := setEmpty V.P.chk)
    (by rw [V.P_chk]; exact setEmpty_replaces V) (assignConv_replaces V v v hv) w

/-- `x = y` with an interval of another base type whose conversion does not throw. -/
theorem C37_assign_conv_partial (e : Res Bool) (l u : Src T) (hu : ∀ r, (u.conv r).isSome) :
    Replaces (assignItv V.P e l u) (fun _ => ctorItv V.P e l u) := by
  have h := cond_replaces (W := V.ctl.W) (fun _ => e) (op := assignItv V.P e l u) (fun _ => rfl)
    (f := fun _ => lift (emptyI V.P.chk)) (by rw [V.P_chk]; exact setEmpty_replaces V) (assignConv_replaces V l u hu)
  exact h

/-! ## Violations -/

/-- Under a policy that represents empty intervals and throws on NaN, `x + t` throws `invalid_argument` for empty `x`
and NaN `t`, while `x += t` makes `x` empty. -/
theorem C05_add_num_order : ∃ x : Itv (Fl Fmt.single), ∃ t : Fl Fmt.single,
    flt.Throws (addIT flt.P x t) .invalidNumber ∧
    ∀ s : flt.State, (addAssignT flt.P (.val t) ⟨x, s⟩).1 = .ok () := by
  refine ⟨⟨.nan, .nan⟩, .nan, fun s _ => ⟨?_, ?_⟩, fun s => ?_⟩ <;> rfl

/-- `x.assign(5, x.lower())` on `[7, 9]` gives `[5, 5]`, not `[5, 7]`. -/
theorem C37_assign_alias (s : dbl.State) :
    assignLU dbl.C (.val (Num.lit 5)) .low ⟨litI 7 9, s⟩ = (.ok (), ⟨litI 5 5, s⟩) ∧
    ctorTT dbl.C (Num.lit 5) (litI 7 9 : Itv (Fl Fmt.double)).lower = .ok (litI 5 7) := by
  constructor
  · have : (Num.le (Num.lit 5) (Num.lit 7 : Fl Fmt.double)) = true := by decide +kernel
    unfold assignLU
    change (if (!Num.le (Num.lit 5) (Num.lit 7 : Fl Fmt.double)) = true then setEmpty dbl.C else setRef _ _ : OM _ _ Unit) _ = _
    rw [this]; rfl
  · decide +kernel

/-- If the second conversion throws, the object is left with the new lower bound. -/
theorem C37_conv_throws : ∃ l u : Src ℚ, ∀ s : ratEnv.State,
    assignItv ratEnv.P (.ok false) l u ⟨litI 1 2, s⟩ = (.error .base, ⟨⟨0, 2⟩, s⟩) :=
  ⟨⟨fun _ => some 0, fun _ => some 0⟩, ⟨fun _ => none, fun _ => none⟩, fun s => rfl⟩

/-! ## The hypotheses can be met -/

theorem rat_addComm : AddComm ℚ where
  add _ a b := congrArg some (add_comm a b)
  opp _ a b := congrArg some (by ring)

theorem Fl.add_comm {f : Fmt} (r : RMode) (a b : Fl f) : a.add r b = b.add r a := by
  cases a <;> cases b <;> simp only [Fl.add]
  · rename_i s t; cases s <;> cases t <;> rfl
  · rename_i s t; cases s <;> cases t <;> rfl
  · rw [_root_.add_comm]

theorem fl_addComm (f : Fmt) : AddComm (Fl f) where
  add r a b := congrArg some (Fl.add_comm r a b)
  opp r a b := congrArg some (by change (a.neg.add r b.neg) = b.neg.add r a.neg; exact Fl.add_comm r _ _)

/-- `x += 1`, `x += x` and `x -= x.lower()`. -/
example : (addAssignT dbl.P (.val (Num.lit 1)) ⟨litI 1 2, ⟨⟨.near, ()⟩, fun _ => true⟩⟩).2.obj = litI 2 3 := by
  rw [C05_add_num_partial dbl (fl_addComm _) _ _ (.inl rfl)]
  decide +kernel
example : (addAssign ratEnv.P .self ⟨litI 1 2, ⟨⟨.near, ()⟩, fun _ => true⟩⟩).2.obj = litI 2 4 := by decide +kernel
example : (subAssignT ratEnv.P .low ⟨litI 1 2, ⟨⟨.near, ()⟩, fun _ => true⟩⟩).2.obj = litI 0 1 := by decide +kernel
example := C37_assign_src_partial dbl ⟨fun _ => some (Num.lit 1), fun _ => some (Num.lit (-1))⟩ (fun _ => rfl)
/-- `x = [2, 1]` throws under the default policy and leaves `x` alone. -/
example (s : ratEnv.State) : assignLU ratEnv.C (.val 2) (.val 1) ⟨litI 1 2, s⟩ = (.error .emptyCreated, ⟨litI 1 2, s⟩) :=
  rfl

end BI
