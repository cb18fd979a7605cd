import Verif.Model.Transc
/-!
# Simulation between the machine and the mode-free reading

`Sim Pre Rel a r`: from every state whose control word satisfies `Pre`, and whatever the oracle, the machine
computation `a` has outcome `r`, leaves a control word related by `Rel` to the initial one and, if it has not thrown,
satisfying `Pre` again.
-/

namespace BI

variable {W : Type}

/-- See the header. -/
structure Inv (W : Type) where
  Pre : W → Prop
  Rel : W → W → Prop
  refl : ∀ w, Pre w → Rel w w
  trans : ∀ u v w, Rel u v → Rel v w → Rel u w

def Sim (I : Inv W) {α : Type} (a : M W α) (r : Res α) : Prop :=
  ∀ s : St W, I.Pre s.cw → (a s).1 = r ∧ I.Rel s.cw (a s).2.cw ∧ (∀ x, r = .ok x → I.Pre (a s).2.cw)

/-- A computation that fails only with `Err.base`. -/
def OnlyBase {α : Type} (r : Res α) : Prop := ∀ e, r = .error e → e = .base

theorem OnlyBase.ok {α : Type} (a : α) : OnlyBase (.ok a : Res α) := by intro e h; cases h
theorem OnlyBase.pure {α : Type} (a : α) : OnlyBase (Pure.pure a : Res α) := by intro e h; cases h

theorem OnlyBase.ofOpt {α : Type} (o : Option α) : OnlyBase (ofOpt o) := by
  intro e h; cases o <;> simp [BI.ofOpt] at h; exact h.symm

theorem OnlyBase.bind {α β : Type} {a : Res α} {f : α → Res β} (ha : OnlyBase a) (hf : ∀ x, OnlyBase (f x)) :
    OnlyBase (a >>= f) := by
  intro e h
  cases a with
  | error e' => cases h; exact ha _ rfl
  | ok x => exact hf x e h

namespace Sim
variable {I : Inv W}

theorem pure {α : Type} (a : α) : Sim I (Pure.pure a : M W α) (Pure.pure a) := by
  intro s h; exact ⟨rfl, I.refl _ h, fun _ _ => h⟩

theorem lift {α : Type} (r : Res α) : Sim I (BI.lift r : M W α) (BI.lift r) := by
  intro s h; exact ⟨rfl, I.refl _ h, fun _ _ => h⟩

theorem bind {α β : Type} {a : M W α} {r : Res α} {f : α → M W β} {g : α → Res β}
    (ha : Sim I a r) (hf : ∀ x, Sim I (f x) (g x)) : Sim I (a >>= f) (r >>= g) := by
  intro s h
  obtain ⟨h1, h2, h3⟩ := ha s h
  change (M.bind a f s).1 = _ ∧ I.Rel _ (M.bind a f s).2.cw ∧ (∀ x, _ → I.Pre (M.bind a f s).2.cw)
  unfold M.bind
  rcases hs : a s with ⟨o, s'⟩
  rw [hs] at h1 h2 h3
  dsimp only at h1 h2 h3
  subst h1
  cases o with
  | error e => exact ⟨rfl, h2, fun x hx => by cases hx⟩
  | ok x =>
    obtain ⟨k1, k2, k3⟩ := hf x s' (h3 x rfl)
    exact ⟨k1, I.trans _ _ _ h2 k2, k3⟩

theorem ite {α : Type} {c : Prop} [Decidable c] {a b : M W α} {r t : Res α}
    (h1 : c → Sim I a r) (h2 : ¬c → Sim I b t) : Sim I (if c then a else b) (if c then r else t) := by
  by_cases h : c
  · simp only [if_pos h]; exact h1 h
  · simp only [if_neg h]; exact h2 h

theorem choose {α : Type} {a b : M W α} {r : Res α} (ha : Sim I a r) (hb : Sim I b r) : Sim I (M.choose a b) r := by
  intro s h
  unfold M.choose
  by_cases hs : s.sched 0 = true
  · simp only [if_pos hs]; exact ha { s with sched := fun n => s.sched (n + 1) } h
  · simp only [if_neg hs]; exact hb { s with sched := fun n => s.sched (n + 1) } h

theorem congr {α : Type} {a : M W α} {r t : Res α} (h : Sim I a r) (e : r = t) : Sim I a t := e ▸ h

theorem any2 {α β : Type} {a : M W α} {b : M W β} {r : Res α} {t : Res β}
    (ha : Sim I a r) (hb : Sim I b t) (oa : OnlyBase r) (ob : OnlyBase t) :
    Sim I (M.any2 a b) (r >>= fun x => t >>= fun y => Pure.pure (x, y)) := by
  refine choose (ha.bind fun x => hb.bind fun y => Sim.pure _) ((hb.bind fun y => ha.bind fun x => Sim.pure _).congr ?_)
  rcases r with e | x <;> rcases t with e' | y <;> first | rfl | (rw [oa e rfl, ob e' rfl]; rfl)

theorem any3 {α β γ : Type} {a : M W α} {b : M W β} {c : M W γ} {r : Res α} {t : Res β} {u : Res γ}
    (ha : Sim I a r) (hb : Sim I b t) (hc : Sim I c u) (oa : OnlyBase r) (ob : OnlyBase t) (oc : OnlyBase u) :
    Sim I (M.any3 a b c) (r >>= fun x => t >>= fun y => u >>= fun z => Pure.pure (x, y, z)) := by
  refine choose ((ha.bind fun x => (hb.any2 hc ob oc).bind fun q => Sim.pure _).congr ?_)
    (choose ((hb.bind fun y => (ha.any2 hc oa oc).bind fun q => Sim.pure _).congr ?_)
      ((hc.bind fun z => (ha.any2 hb oa ob).bind fun q => Sim.pure _).congr ?_))
  all_goals
    rcases r with e | x <;> rcases t with e' | y <;> rcases u with e'' | z <;>
      simp only [Except.error.injEq, forall_eq', OnlyBase] at oa ob oc <;> subst_vars <;> rfl

theorem any4 {α β γ δ : Type} {a : M W α} {b : M W β} {c : M W γ} {d : M W δ} {r : Res α} {t : Res β} {u : Res γ} {v : Res δ}
    (ha : Sim I a r) (hb : Sim I b t) (hc : Sim I c u) (hd : Sim I d v)
    (oa : OnlyBase r) (ob : OnlyBase t) (oc : OnlyBase u) (od : OnlyBase v) :
    Sim I (M.any4 a b c d) (r >>= fun x => t >>= fun y => u >>= fun z => v >>= fun w => Pure.pure ((x, y), z, w)) := by
  refine choose (choose ((ha.bind fun x => (hb.any3 hc hd ob oc od).bind fun q => Sim.pure _).congr ?_)
      ((hb.bind fun y => (ha.any3 hc hd oa oc od).bind fun q => Sim.pure _).congr ?_))
    (choose ((hc.bind fun z => (ha.any3 hb hd oa ob od).bind fun q => Sim.pure _).congr ?_)
      ((hd.bind fun w => (ha.any3 hb hc oa ob oc).bind fun q => Sim.pure _).congr ?_))
  all_goals
    rcases r with e | x <;> rcases t with e' | y <;> rcases u with e'' | z <;> rcases v with e''' | w <;>
      simp only [Except.error.injEq, forall_eq', OnlyBase] at oa ob oc od <;> subst_vars <;> rfl

theorem pair {α β : Type} {a : M W α} {b : M W β} {r : Res α} {t : Res β}
    (ha : Sim I a r) (hb : Sim I b t) (oa : OnlyBase r) (ob : OnlyBase t) :
    Sim I (BI.pair a b) (BI.pair r t) := ha.any2 hb oa ob

theorem quad {α β γ δ : Type} {a : M W α} {b : M W β} {c : M W γ} {d : M W δ} {r : Res α} {t : Res β} {u : Res γ} {v : Res δ}
    (ha : Sim I a r) (hb : Sim I b t) (hc : Sim I c u) (hd : Sim I d v)
    (oa : OnlyBase r) (ob : OnlyBase t) (oc : OnlyBase u) (od : OnlyBase v) :
    Sim I (BI.quad a b c d) (BI.quad r t u v) := ha.any4 hb hc hd oa ob oc od

/-- Weaken the invariant. -/
theorem mono {J : Inv W} {α : Type} {a : M W α} {r : Res α} (h : Sim I a r)
    (hp : ∀ w, J.Pre w → I.Pre w) (hr : ∀ w w', J.Pre w → I.Rel w w' → J.Rel w w')
    (hq : ∀ w w', J.Pre w → I.Rel w w' → I.Pre w' → J.Pre w') : Sim J a r := by
  intro s hs
  obtain ⟨h1, h2, h3⟩ := h s (hp _ hs)
  exact ⟨h1, hr _ _ hs h2, fun x hx => hq _ _ hs h2 (h3 x hx)⟩

end Sim

/-- All operations of a mode-free arithmetic fail only with `Err.base`. -/
structure Arith.BaseErr {T : Type} (A : Arith Res T) : Prop where
  convDown : ∀ v, OnlyBase (A.convDown v)
  convUp : ∀ v, OnlyBase (A.convUp v)
  addDown : ∀ x y, OnlyBase (A.addDown x y)
  addUp : ∀ x y, OnlyBase (A.addUp x y)
  subDown : ∀ x y, OnlyBase (A.subDown x y)
  subUp : ∀ x y, OnlyBase (A.subUp x y)
  mulDown : ∀ x y, OnlyBase (A.mulDown x y)
  mulUp : ∀ x y, OnlyBase (A.mulUp x y)
  divDown : ∀ x y, OnlyBase (A.divDown x y)
  divUp : ∀ x y, OnlyBase (A.divUp x y)
  median : ∀ x y, OnlyBase (A.median x y)
  sqrtDown : ∀ x, OnlyBase (A.sqrtDown x)
  sqrtUp : ∀ x, OnlyBase (A.sqrtUp x)
  intDown : ∀ x, OnlyBase (A.intDown x)
  intUp : ∀ x, OnlyBase (A.intUp x)
  fnDown : ∀ f x, OnlyBase (A.fnDown f x)
  fnUp : ∀ f x, OnlyBase (A.fnUp f x)

/-- Operations of `A` simulate those of `B` (conversions are treated apart, see `Proofs/Ctor.lean`). -/
structure ASim {T : Type} (I : Inv W) (A : Arith (M W) T) (B : Arith Res T) : Prop extends Arith.BaseErr B where
  s_addDown : ∀ x y, Sim I (A.addDown x y) (B.addDown x y)
  s_addUp : ∀ x y, Sim I (A.addUp x y) (B.addUp x y)
  s_subDown : ∀ x y, Sim I (A.subDown x y) (B.subDown x y)
  s_subUp : ∀ x y, Sim I (A.subUp x y) (B.subUp x y)
  s_mulDown : ∀ x y, Sim I (A.mulDown x y) (B.mulDown x y)
  s_mulUp : ∀ x y, Sim I (A.mulUp x y) (B.mulUp x y)
  s_divDown : ∀ x y, Sim I (A.divDown x y) (B.divDown x y)
  s_divUp : ∀ x y, Sim I (A.divUp x y) (B.divUp x y)
  s_median : ∀ x y, Sim I (A.median x y) (B.median x y)
  s_sqrtDown : ∀ x, Sim I (A.sqrtDown x) (B.sqrtDown x)
  s_sqrtUp : ∀ x, Sim I (A.sqrtUp x) (B.sqrtUp x)
  s_intDown : ∀ x, Sim I (A.intDown x) (B.intDown x)
  s_intUp : ∀ x, Sim I (A.intUp x) (B.intUp x)
  s_fnDown : ∀ f x, Sim I (A.fnDown f x) (B.fnDown f x)
  s_fnUp : ∀ f x, Sim I (A.fnUp f x) (B.fnUp f x)

/-- Mode-free policies: no rounding state to protect. -/
def purePolicies {T : Type} (B : Arith Res T) (C : Checking T) : Policies Res T where
  rnd := { B with scope := id }
  unp := { B with scope := id }
  chk := C
  cur f := ofOpt (f .near)

section
variable {T : Type} (B : Arith Res T) (C : Checking T)
theorem pure_rnd : (purePolicies B C).rnd.toArith = B := rfl
theorem pure_unp : (purePolicies B C).unp.toArith = B := rfl
theorem pure_scope {α : Type} (a : Res α) : (purePolicies B C).rnd.scope a = a := rfl
theorem pure_chk : (purePolicies B C).chk = C := rfl
theorem pure_unprot : (purePolicies B C).unprot = purePolicies B C := rfl
end

/-- Protected (or not) policies `P` simulate the mode-free policies of `B`, `C`: outside of rounding objects the
invariant is `I`, inside `J`. -/
structure PSim {T : Type} (I J : Inv W) (P : Policies (M W) T) (B : Arith Res T) (C : Checking T) : Prop where
  chk : P.chk = C
  scope : ∀ {α : Type} {a : M W α} {r : Res α}, Sim J a r → Sim I (P.rnd.scope a) r
  scopeU : ∀ {α : Type} {a : M W α} {r : Res α}, Sim J a r → Sim J (P.unp.scope a) r
  rnd : ASim J P.rnd.toArith B
  unp : ASim J P.unp.toArith B
  cur : ∀ {α β : Type} (f : RMode → Option α) (g : α → Res β), (∀ r r', (ofOpt (f r) >>= g) = (ofOpt (f r') >>= g)) →
    Sim I (P.cur f >>= fun t => lift (g t)) (ofOpt (f .near) >>= g)
  curJ : ∀ {α β : Type} (f : RMode → Option α) (g : α → Res β), (∀ r r', (ofOpt (f r) >>= g) = (ofOpt (f r') >>= g)) →
    Sim J (P.cur f >>= fun t => lift (g t)) (ofOpt (f .near) >>= g)

theorem M.bind_assoc {α β γ : Type} (a : M W α) (f : α → M W β) (g : β → M W γ) :
    (a >>= f) >>= g = a >>= fun x => f x >>= g := by
  funext s
  change M.bind (M.bind a f) g s = M.bind a (fun x => M.bind (f x) g) s
  unfold M.bind
  rcases a s with ⟨_ | x, s'⟩ <;> rfl

theorem M.bind_pure {α : Type} (a : M W α) : (a >>= fun x => (Pure.pure x : M W α)) = a := by
  funext s
  change M.bind a (fun x s => (.ok x, s)) s = a s
  unfold M.bind
  rcases a s with ⟨_ | x, s'⟩ <;> rfl

theorem PSim.cur' {T : Type} {I J : Inv W} {P : Policies (M W) T} {B : Arith Res T} {C : Checking T}
    (h : PSim I J P B C) {α : Type} (f : RMode → Option α) (hf : ∀ r r', f r = f r') :
    Sim I (P.cur f) ((purePolicies B C).cur f) := by
  have h1 := h.cur f (fun t => (.ok t : Res α)) (fun r r' => by rw [hf r r'])
  have h2 : (P.cur f >>= fun t => (lift (.ok t : Res α) : M W α)) = P.cur f := M.bind_pure _
  have h3 : (ofOpt (f .near) >>= fun t => (.ok t : Res α)) = (purePolicies B C).cur f := by
    change _ = ofOpt (f .near); cases f .near <;> rfl
  rwa [h2, h3] at h1

theorem PSim.unprot {T : Type} {I J : Inv W} {P : Policies (M W) T} {B : Arith Res T} {C : Checking T}
    (h : PSim I J P B C) : PSim J J P.unprot B C where
  chk := h.chk
  scope := h.scopeU
  scopeU := h.scopeU
  rnd := h.unp
  unp := h.unp
  cur := h.curJ
  curJ := h.curJ

end BI
