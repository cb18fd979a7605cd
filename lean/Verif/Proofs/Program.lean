import Verif.Spec.Program
import Verif.Proofs.Isotone
import Verif.Props.Compare
import Verif.Props.Plain
/-! # Programs with tests and loops -/

set_option linter.unusedSectionVars false

namespace BI
open Set

/-! ## From the machine to outcomes -/

section
variable {W : Type} {I : Inv W} {α β : Type}

/-- Whatever the machine returns is the outcome `r`; and the invariant is kept. -/
def Back (I : Inv W) (a : M W α) (r : Res α) : Prop :=
  ∀ s : St W, I.Pre s.cw → I.Rel s.cw (a s).2.cw ∧ ∀ z, (a s).1 = .ok z → r = .ok z ∧ I.Pre (a s).2.cw

namespace Back

theorem of_sim {a : M W α} {r : Res α} (h : Sim I a r) : Back I a r := fun s hs => by
  obtain ⟨h1, h2, h3⟩ := h s hs
  exact ⟨h2, fun z hz => ⟨h1.symm.trans hz, h3 z (h1.symm.trans hz)⟩⟩

theorem bind {a : M W α} {r : Res α} {f : α → M W β} {g : α → Res β} (ha : Back I a r) (hf : ∀ x, Back I (f x) (g x)) :
    Back I (a >>= f) (r >>= g) := by
  intro s h
  obtain ⟨h1, h2⟩ := ha s h
  change I.Rel _ (M.bind a f s).2.cw ∧ ∀ z, (M.bind a f s).1 = .ok z → _ ∧ I.Pre (M.bind a f s).2.cw
  unfold M.bind
  rcases hs : a s with ⟨o, s'⟩
  rw [hs] at h1 h2
  cases o with
  | error e => exact ⟨h1, fun z hz => by cases hz⟩
  | ok x =>
    obtain ⟨rfl, h4⟩ := h2 x rfl
    obtain ⟨k1, k2⟩ := hf x s' h4
    exact ⟨I.trans _ _ _ h1 k1, k2⟩

theorem congr {a : M W α} {r t : Res α} (h : Back I a r) (e : ∀ z, r = .ok z → t = .ok z) : Back I a t := fun s hs =>
  ⟨(h s hs).1, fun z hz => ⟨e z ((h s hs).2 z hz).1, ((h s hs).2 z hz).2⟩⟩

theorem choose {a b : M W α} {r : Res α} (ha : Back I a r) (hb : Back I b r) : Back I (M.choose a b) r := by
  intro s h
  unfold M.choose
  by_cases hs : s.sched 0 = true
  · simp only [if_pos hs]; exact ha { s with sched := fun n => s.sched (n + 1) } h
  · simp only [if_neg hs]; exact hb { s with sched := fun n => s.sched (n + 1) } h

theorem pair {a : M W α} {b : M W β} {r : Res α} {t : Res β} (ha : Back I a r) (hb : Back I b t) :
    Back I (BI.pair a b) (BI.pair r t) := by
  refine choose (ha.bind fun x => hb.bind fun y => of_sim (Sim.pure (x, y)))
    ((hb.bind fun y => ha.bind fun x => of_sim (Sim.pure (x, y))).congr fun z hz => ?_)
  rcases r with e | x <;> rcases t with e' | y <;> first | exact hz | cases hz

theorem ite {c : Bool} {a b : M W α} {r t : Res α} (ha : Back I a r) (hb : Back I b t) :
    Back I (if c then a else b) (if c then r else t) := by
  cases c
  · exact hb
  · exact ha
end Back
end

section
variable {c : Ctl} {L : CtlLaws c} {T : Type} [Num T]

theorem scope_back (k : RKind) (A : Arith (M c.W) T) {α : Type} {a : M c.W α} {r : Res α} (h : Back (inner L k) a r) :
    Back (outer L) ((saveState (T := T) c (initOf c k) A).scope a) r := by
  intro s hs
  have hv : L.valid (initOf c k s.cw) := by cases k <;> first | exact hs | exact L.valid_up _ hs
  have hsm : L.same s.cw (initOf c k s.cw) := by
    cases k <;> first | exact L.same_refl _ | exact L.same_up _ hs
  have hu : k = .opp → c.decode (initOf c k s.cw) = .up := by
    rintro rfl; exact L.decode_up _ hs
  obtain ⟨h1, h2⟩ := h { s with cw := initOf c k s.cw } ⟨hv, hu⟩
  have hr := L.restore s.cw _ hs (L.same_trans _ _ _ hsm h1)
  refine ⟨hr.symm, fun z hz => ⟨(h2 z hz).1, ?_⟩⟩
  change L.valid (c.set (c.get s.cw) (a { s with cw := initOf c k s.cw }).2.cw)
  rw [hr]; exact hs
end

section
variable {T : Type} [Num T]

/-- `PSim`, and rounding objects reflect outcomes. -/
structure PBack {W : Type} (I J : Inv W) (P : Policies (M W) T) (B : Arith Res T) (C : Checking T) : Prop extends PSim I J P B C where
  scopeB : ∀ {α : Type} {a : M W α} {r : Res α}, Back J a r → Back I (P.rnd.scope a) r
  scopeUB : ∀ {α : Type} {a : M W α} {r : Res α}, Back J a r → Back J (P.unp.scope a) r

theorem PBack.unprot {W : Type} {I J : Inv W} {P : Policies (M W) T} {B : Arith Res T} {C : Checking T} (h : PBack I J P B C) :
    PBack J J P.unprot B C where
  toPSim := h.toPSim.unprot
  scopeB := h.scopeUB
  scopeUB := h.scopeUB

theorem Env.back (V : Env T) (hk : KindOk T V.lib V.kind) : ∃ J, PBack (outer V.laws) J V.P V.B V.C := by
  unfold Env.P Env.B libPolicies
  cases h : V.kind with
  | exact => exact ⟨_, { barePolicies_exact_sim V.lib V.C (hk h) with scopeB := fun h => h, scopeUB := fun h => h }⟩
  | std => exact ⟨_, { protPolicies_sim .std V.lib V.C (fun h => by cases h) with scopeB := scope_back .std _, scopeUB := fun h => h }⟩
  | opp => exact ⟨_, { protPolicies_sim .opp V.lib V.C (fun h => by cases h) with scopeB := scope_back .opp _, scopeUB := fun h => h }⟩
end

section
variable {T : Type} [Num T] [Val T] [NumLaws T] {V : Env T} {I J : Inv V.ctl.W} {P : Policies (M V.ctl.W) T} {K : PiConst T} {fuel : ℕ}

omit [Val T] [NumLaws T] in
theorem Expr.eval_back (h : PSim I J P V.B V.C) (ρ : ℕ → Itv T) (e : Expr T) : Back I (e.eval K fuel P ρ) (e.eval K fuel V.pp ρ) := by
  induction e with
  | var i => exact .of_sim (Sim.pure _)
  | num t =>
    change Back I (lift (ctorT P.chk t)) (lift (ctorT V.pp.chk t))
    rw [h.chk, pure_chk]; exact .of_sim (Sim.lift _)
  | un o e ih => exact ih.bind fun x => .of_sim (UnOp.I_sim h o x)
  | pow e k ih => exact ih.bind fun x => .of_sim (powI_sim h x k)
  | bin o e₁ e₂ ih₁ ih₂ => exact (ih₁.pair ih₂).bind fun p => .of_sim (BinOp.II_sim h o p.1 p.2)
  | binL o t e ih => exact ih.bind fun x => .of_sim (BinOp.TI_sim h o t x)
  | binR o e t ih => exact ih.bind fun x => .of_sim (BinOp.IT_sim h o x t)
  | inter e₁ e₂ ih₁ ih₂ =>
    refine (ih₁.pair ih₂).bind fun p => ?_
    rw [h.chk, pure_chk]; exact .of_sim (Sim.lift _)
  | fn f e ih => exact ih.bind fun x => .of_sim (Fn.I_sim V h f x)

theorem Cond.test_back (h : PSim I J P V.B V.C) (ρ : ℕ → Itv T) (c : Cond T) : Back I (c.test K fuel P ρ) (c.test K fuel V.pp ρ) := by
  cases c with
  | II r e₁ e₂ =>
    refine ((e₁.eval_back h ρ).pair (e₂.eval_back h ρ)).bind fun p => ?_
    rw [h.chk, pure_chk]; exact .of_sim (Sim.lift _)
  | IT r e t =>
    refine (e.eval_back h ρ).bind fun p => ?_
    rw [h.chk, pure_chk]; exact .of_sim (Sim.lift _)

theorem turns_back {t : (ℕ → Itv T) → M V.ctl.W Bool} {t' : (ℕ → Itv T) → Res Bool}
    {b : (ℕ → Itv T) → M V.ctl.W ((ℕ → Itv T) × List Bool)} {b' : (ℕ → Itv T) → Res ((ℕ → Itv T) × List Bool)}
    (ht : ∀ ρ, Back I (t ρ) (t' ρ)) (hb : ∀ ρ, Back I (b ρ) (b' ρ)) (n : ℕ) : ∀ ρ, Back I (loopTurns t b n ρ) (loopTurns t' b' n ρ) := by
  induction n with
  | zero => exact fun ρ => .of_sim (Sim.lift _)
  | succ n ih =>
    exact fun ρ => (ht ρ).bind fun c => .ite ((hb ρ).bind fun p => (ih p.1).bind fun q => .of_sim (Sim.pure _)) (.of_sim (Sim.pure _))

theorem Stmt.run_back {n : ℕ} (s : Stmt T) : ∀ {I J : Inv V.ctl.W} {P : Policies (M V.ctl.W) T}, PBack I J P V.B V.C → ∀ ρ : ℕ → Itv T,
    Back I (s.run K fuel n P ρ) (s.run K fuel n V.pp ρ) := by
  induction s with
  | skip => exact fun h ρ => .of_sim (Sim.pure _)
  | assign i e => exact fun h ρ => (e.eval_back h.toPSim ρ).bind fun x => .of_sim (Sim.pure _)
  | seq a b iha ihb => exact fun h ρ => (iha h ρ).bind fun p => (ihb h p.1).bind fun q => .of_sim (Sim.pure _)
  | ite c a b iha ihb =>
    exact fun h ρ => (c.test_back h.toPSim ρ).bind fun t => (Back.ite (iha h ρ) (ihb h ρ)).bind fun p => .of_sim (Sim.pure _)
  | loop c a ih => exact fun h ρ => turns_back (c.test_back h.toPSim) (ih h) n ρ
  | region a ih => exact fun h ρ => h.scopeB (ih h.unprot ρ)

/-! ## From outcomes to the machine -/

/-- If the outcome is a value, the machine returns it. -/
def Forth (I : Inv V.ctl.W) {α : Type} (a : M V.ctl.W α) (r : Res α) : Prop := ∀ z, r = .ok z → Sim I a (.ok z)

namespace Forth
variable {α β : Type}

theorem of_sim {a : M V.ctl.W α} {r : Res α} (h : Sim I a r) : Forth I a r := fun _ e => e ▸ h

theorem bind {a : M V.ctl.W α} {r : Res α} {f : α → M V.ctl.W β} {g : α → Res β} (ha : Forth I a r) (hf : ∀ x, Forth I (f x) (g x)) :
    Forth I (a >>= f) (r >>= g) := by
  intro z hz
  cases r with
  | error e => cases hz
  | ok x =>
    exact (Ends.bind_ok (E := fun _ => True) (.of_sim (ha x rfl) fun _ _ => trivial) (.of_sim (hf x z hz) fun _ _ => trivial)).sim

theorem pair {a : M V.ctl.W α} {b : M V.ctl.W β} {r : Res α} {t : Res β} (ha : Forth I a r) (hb : Forth I b t) :
    Forth I (BI.pair a b) (BI.pair r t) := by
  intro z hz
  cases r with
  | error e => cases hz
  | ok x =>
    cases t with
    | error e => cases hz
    | ok y =>
      cases hz
      exact (Ends.pair (E := fun _ => True) (.of_sim (ha x rfl) fun _ _ => trivial) (.of_sim (hb y rfl) fun _ _ => trivial)).sim

theorem ite {c : Bool} {a b : M V.ctl.W α} {r t : Res α} (ha : Forth I a r) (hb : Forth I b t) :
    Forth I (if c then a else b) (if c then r else t) := by
  cases c
  · exact hb
  · exact ha
end Forth

theorem Cond.test_forth (h : PSim I J P V.B V.C) (ρ : ℕ → Itv T) (c : Cond T) : Forth I (c.test K fuel P ρ) (c.test K fuel V.pp ρ) := by
  cases c with
  | II r e₁ e₂ =>
    refine (Forth.pair (fun z => e₁.eval_sim h ρ z) (fun z => e₂.eval_sim h ρ z)).bind fun p => ?_
    rw [h.chk, pure_chk]; exact .of_sim (Sim.lift _)
  | IT r e t =>
    refine (show Forth _ _ _ from fun z => e.eval_sim h ρ z).bind fun p => ?_
    rw [h.chk, pure_chk]; exact .of_sim (Sim.lift _)

theorem turns_forth {t : (ℕ → Itv T) → M V.ctl.W Bool} {t' : (ℕ → Itv T) → Res Bool}
    {b : (ℕ → Itv T) → M V.ctl.W ((ℕ → Itv T) × List Bool)} {b' : (ℕ → Itv T) → Res ((ℕ → Itv T) × List Bool)}
    (ht : ∀ ρ, Forth I (t ρ) (t' ρ)) (hb : ∀ ρ, Forth I (b ρ) (b' ρ)) (n : ℕ) : ∀ ρ, Forth I (loopTurns t b n ρ) (loopTurns t' b' n ρ) := by
  induction n with
  | zero => exact fun ρ => .of_sim (Sim.lift _)
  | succ n ih =>
    exact fun ρ => (ht ρ).bind fun c => .ite ((hb ρ).bind fun p => (ih p.1).bind fun q => .of_sim (Sim.pure _)) (.of_sim (Sim.pure _))

theorem Stmt.run_forth {n : ℕ} (s : Stmt T) : ∀ {I J : Inv V.ctl.W} {P : Policies (M V.ctl.W) T}, PSim I J P V.B V.C → ∀ ρ : ℕ → Itv T,
    Forth I (s.run K fuel n P ρ) (s.run K fuel n V.pp ρ) := by
  induction s with
  | skip => exact fun h ρ => .of_sim (Sim.pure _)
  | assign i e => exact fun h ρ => (show Forth _ _ _ from fun z => e.eval_sim h ρ z).bind fun x => .of_sim (Sim.pure _)
  | seq a b iha ihb => exact fun h ρ => (iha h ρ).bind fun p => (ihb h p.1).bind fun q => .of_sim (Sim.pure _)
  | ite c a b iha ihb =>
    exact fun h ρ => (c.test_forth h ρ).bind fun t => (Forth.ite (iha h ρ) (ihb h ρ)).bind fun p => .of_sim (Sim.pure _)
  | loop c a ih => exact fun h ρ => turns_forth (c.test_forth h) (ih h) n ρ
  | region a ih => exact fun h ρ z hz => h.scope (ih h.unprot ρ z hz)

/-! ## More fuel -/

theorem Fn.I_fuel {f : Fn} {x z : Itv T} (h : f.I K fuel V.pp x = .ok z) {N : ℕ} (hN : fuel ≤ N) : f.I K N V.pp x = .ok z := by
  cases f with
  | cos => exact cos_fuel_le h hN
  | sin =>
    change sinI K fuel V.pp x = _ at h
    change sinI K N V.pp x = _
    unfold sinI at h ⊢
    cases ht : (lift (testI V.pp.chk x) : Res Bool) with
    | error e => rw [ht] at h; cases h
    | ok b =>
      rw [ht] at h
      cases b with
      | true => exact h
      | false =>
        change (subII V.pp x (piHalfI K) >>= fun t => cosAux K true fuel V.pp t >>= fun r => lift (reItv V.C V.C r)) = .ok z at h
        change (subII V.pp x (piHalfI K) >>= fun t => cosAux K true N V.pp t >>= fun r => lift (reItv V.C V.C r)) = .ok z
        cases hs : subII V.pp x (piHalfI K) with
        | error e => rw [hs] at h; cases h
        | ok t =>
          rw [hs] at h
          change (cosAux K true fuel V.pp t >>= _) = _ at h
          change (cosAux K true N V.pp t >>= _) = _
          cases hc : cosAux K true fuel V.pp t with
          | error e => rw [hc] at h; cases h
          | ok r => rw [hc] at h; rw [cos_fuel_le hc hN]; exact h
  | _ => exact h

theorem Expr.eval_fuel (ρ : ℕ → Itv T) {N : ℕ} (hN : fuel ≤ N) (e : Expr T) : ∀ {z : Itv T}, e.eval K fuel V.pp ρ = .ok z →
    e.eval K N V.pp ρ = .ok z := by
  have step : ∀ {a b : Res (Itv T)} {g g' : Itv T → Res (Itv T)} {z : Itv T}, (∀ {x}, a = .ok x → b = .ok x) →
      (∀ x, g x = .ok z → g' x = .ok z) → (a >>= g) = .ok z → (b >>= g') = .ok z := by
    intro a b g g' z h hg hz
    cases a with
    | error e => cases hz
    | ok x => rw [h rfl]; exact hg x hz
  have step₂ : ∀ {a b a' b' : Res (Itv T)} {g : Itv T × Itv T → Res (Itv T)} {z : Itv T}, (∀ {x}, a = .ok x → b = .ok x) →
      (∀ {x}, a' = .ok x → b' = .ok x) → (pair a a' >>= g) = .ok z → (pair b b' >>= g) = .ok z := by
    intro a b a' b' g z h h' hz
    cases a with
    | error e => cases hz
    | ok x =>
      cases a' with
      | error e => cases hz
      | ok y => rw [h rfl, h' rfl]; exact hz
  induction e with
  | var i => exact id
  | num t => exact id
  | un o e ih => exact step ih fun x h => h
  | pow e k ih => exact step ih fun x h => h
  | bin o e₁ e₂ ih₁ ih₂ => exact step₂ ih₁ ih₂
  | binL o t e ih => exact step ih fun x h => h
  | binR o e t ih => exact step ih fun x h => h
  | inter e₁ e₂ ih₁ ih₂ => exact step₂ ih₁ ih₂
  | fn f e ih => exact step ih fun x h => Fn.I_fuel h hN

/-! ## Enclosure of one formula -/

/-- Whatever a formula returns contains its values. -/
theorem Expr.eval_contains {R : ℝ → ℝ → Prop} (hR : Absorbs T R) (hV : V.Directed) {s : V.State} (hv : V.Valid s) {e : Expr T}
    (hs : e.Supported V K (InfBase T ∨ V.NoInf)) {ρ : ℕ → Itv T} {z : Itv T} (h : e.eval K fuel V.pp ρ = .ok z) {v : ℕ → ℝ}
    (hm : ∀ i, v i ∈ γ (ρ i)) {r : ℝ} (hr : e.Rounded R v r) : r ∈ γ z := by
  obtain ⟨q, N, hq, -, hset⟩ := e.eval_rounded hR (B := V.NoInf) id hV id ρ hs ⟨r, v, hm, hr⟩
  obtain ⟨J, hJ⟩ := V.sim hV.kindOk
  have h1 := e.eval_sim (fuel := max fuel N) hJ ρ z (e.eval_fuel ρ (le_max_left _ _) h) s hv
  obtain ⟨-, h2, h3⟩ := hset (max fuel N) (le_max_right _ _) hJ s hv
  rcases hq with ⟨z', rfl, hz⟩ | ⟨e', -, rfl⟩
  · obtain ⟨k, -⟩ := h2 z' rfl
    obtain rfl : z = z' := Except.ok.inj (h1.1.symm.trans k)
    exact hz ⟨v, hm, hr⟩
  · obtain ⟨e', -, k⟩ := h3 e' rfl
    cases h1.1.symm.trans k
end

/-! ## Executions -/

section
variable {T α : Type} (I : Meaning T α)

theorem Runs.andThen_total {A B : Runs α} (hA : ∀ v, ∃ π o, A v π o) (hB : ∀ v, ∃ π o, B v π o) (v : ℕ → α) :
    ∃ π o, A.andThen B v π o := by
  obtain ⟨π, o, h⟩ := hA v
  cases o with
  | done v' =>
    obtain ⟨π', o, h'⟩ := hB v'
    exact ⟨π ++ π', o, .inl ⟨v', π, π', h, h', rfl⟩⟩
  | stuck => exact ⟨π, .stuck, .inr ⟨.inl rfl, h⟩⟩
  | cut => exact ⟨π, .cut, .inr ⟨.inr rfl, h⟩⟩

theorem Runs.branch_total {c : (ℕ → α) → Bool → Prop} {A B : Runs α} (hA : ∀ v, ∃ π o, A v π o) (hB : ∀ v, ∃ π o, B v π o) (v : ℕ → α) :
    ∃ π o, Runs.branch c A B v π o := by
  by_cases h : ∃ b, c v b
  · obtain ⟨b, h⟩ := h
    cases b with
    | true => obtain ⟨π, o, h'⟩ := hA v; exact ⟨_, o, .inl ⟨π, h, h', rfl⟩⟩
    | false => obtain ⟨π, o, h'⟩ := hB v; exact ⟨_, o, .inr (.inl ⟨π, h, h', rfl⟩)⟩
  · exact ⟨[], .stuck, .inr (.inr ⟨fun b hb => h ⟨b, hb⟩, rfl, rfl⟩)⟩

theorem Runs.nop_total (v : ℕ → α) : ∃ π o, Runs.nop v π o := ⟨[], .done v, rfl, rfl⟩

/-- There is an execution from every point. -/
theorem Stmt.exec_total (n : ℕ) (s : Stmt T) : ∀ v, ∃ π o, s.Exec I n v π o := by
  induction s with
  | skip => exact Runs.nop_total
  | assign i e =>
    intro v
    by_cases h : ∃ r, I.value v e r
    · obtain ⟨r, h⟩ := h; exact ⟨[], _, rfl, .inl ⟨r, h, rfl⟩⟩
    · exact ⟨[], _, rfl, .inr ⟨fun r hr => h ⟨r, hr⟩, rfl⟩⟩
  | seq a b iha ihb => exact Runs.andThen_total iha ihb
  | ite c a b iha ihb => exact Runs.branch_total iha ihb
  | loop c a ih =>
    change ∀ v, ∃ π o, Runs.loop (fun v => c.Result I v) (a.Exec I n) n v π o
    revert ih
    generalize a.Exec I n = A
    intro ih
    induction n with
    | zero => exact fun v => ⟨[], .cut, rfl, rfl⟩
    | succ k ihk => exact Runs.branch_total (Runs.andThen_total ih ihk) Runs.nop_total
  | region a ih => exact ih
end

section
variable {T α : Type} [Num T] {I : Meaning T α} {V : Env T} (K : PiConst T) (fuel : ℕ) (mem : α → Itv T → Prop)

/-- An execution with numbers against one with intervals. -/
def Follows (A : Runs α) (r : (ℕ → Itv T) → Res ((ℕ → Itv T) × List Bool)) : Prop :=
  ∀ ρ ρ' π, r ρ = .ok (ρ', π) → ∀ v, (∀ i, mem (v i) (ρ i)) → ∀ π' o, A v π' o →
    (o = .stuck ∧ π' <+: π) ∨ ∃ v', o = .done v' ∧ π' = π ∧ ∀ i, mem (v' i) (ρ' i)

variable {mem}

theorem Follows.andThen {A B : Runs α} {r t : (ℕ → Itv T) → Res ((ℕ → Itv T) × List Bool)} (hA : Follows mem A r) (hB : Follows mem B t) :
    Follows mem (A.andThen B) (fun ρ => r ρ >>= fun p => t p.1 >>= fun q => pure (q.1, p.2 ++ q.2)) := by
  intro ρ ρ' π h v hv π' o ho
  dsimp only at h
  cases h1 : r ρ with
  | error e => rw [h1] at h; cases h
  | ok p =>
    rw [h1] at h
    cases h2 : t p.1 with
    | error e => change (t p.1 >>= _) = _ at h; rw [h2] at h; cases h
    | ok q =>
      change (t p.1 >>= _) = _ at h
      rw [h2] at h
      obtain ⟨rfl, rfl⟩ := Prod.mk.inj (Except.ok.inj h)
      rcases ho with ⟨v', π₁, π₂, ha, hb, rfl⟩ | ⟨ho, ha⟩
      · rcases hA ρ p.1 p.2 h1 v hv _ _ ha with ⟨h, -⟩ | ⟨_, ⟨⟩, rfl, hv'⟩
        · cases h
        · rcases hB p.1 q.1 q.2 h2 v' hv' _ _ hb with ⟨rfl, h⟩ | ⟨w, rfl, rfl, hw⟩
          · exact .inl ⟨rfl, (List.prefix_append_right_inj _).2 h⟩
          · exact .inr ⟨w, rfl, rfl, hw⟩
      · rcases hA ρ p.1 p.2 h1 v hv _ _ ha with ⟨rfl, h⟩ | ⟨_, rfl, -, -⟩
        · exact .inl ⟨rfl, h.trans (List.prefix_append _ _)⟩
        · rcases ho with h | h <;> cases h

theorem Follows.branch {c : (ℕ → α) → Bool → Prop} {t : (ℕ → Itv T) → Res Bool}
    (hc : ∀ ρ b, t ρ = .ok b → ∀ v, (∀ i, mem (v i) (ρ i)) → ∀ b', c v b' → b' = b)
    {A B : Runs α} {r r' : (ℕ → Itv T) → Res ((ℕ → Itv T) × List Bool)} (hA : Follows mem A r) (hB : Follows mem B r') :
    Follows mem (Runs.branch c A B) (fun ρ => t ρ >>= fun b => (if b then r ρ else r' ρ) >>= fun p => pure (p.1, b :: p.2)) := by
  intro ρ ρ' π h v hv π' o ho
  dsimp only at h
  cases h1 : t ρ with
  | error e => rw [h1] at h; cases h
  | ok b =>
    rw [h1] at h
    change ((if b then r ρ else r' ρ) >>= _) = _ at h
    rcases ho with ⟨π', hb, ho, rfl⟩ | ⟨π', hb, ho, rfl⟩ | ⟨-, rfl, rfl⟩
    · obtain rfl := hc ρ b h1 v hv _ hb
      cases h2 : r ρ with
      | error e => rw [if_pos rfl, h2] at h; cases h
      | ok p =>
        rw [if_pos rfl, h2] at h
        obtain ⟨rfl, rfl⟩ := Prod.mk.inj (Except.ok.inj h)
        rcases hA ρ p.1 p.2 h2 v hv _ _ ho with ⟨rfl, h⟩ | ⟨w, rfl, rfl, hw⟩
        · exact .inl ⟨rfl, List.cons_prefix_cons.2 ⟨rfl, h⟩⟩
        · exact .inr ⟨w, rfl, rfl, hw⟩
    · obtain rfl := hc ρ b h1 v hv _ hb
      cases h2 : r' ρ with
      | error e => rw [if_neg (by simp), h2] at h; cases h
      | ok p =>
        rw [if_neg (by simp), h2] at h
        obtain ⟨rfl, rfl⟩ := Prod.mk.inj (Except.ok.inj h)
        rcases hB ρ p.1 p.2 h2 v hv _ _ ho with ⟨rfl, h⟩ | ⟨w, rfl, rfl, hw⟩
        · exact .inl ⟨rfl, List.cons_prefix_cons.2 ⟨rfl, h⟩⟩
        · exact .inr ⟨w, rfl, rfl, hw⟩
    · exact .inl ⟨rfl, List.nil_prefix⟩

theorem Follows.nop : Follows (T := T) mem Runs.nop (fun ρ => .ok (ρ, [])) := by
  rintro ρ _ _ ⟨⟩ v hv π' o ⟨rfl, rfl⟩
  exact .inr ⟨v, rfl, rfl, hv⟩

theorem Follows.congr {A : Runs α} {r t : (ℕ → Itv T) → Res ((ℕ → Itv T) × List Bool)} (h : Follows mem A r) (e : ∀ ρ, t ρ = r ρ) :
    Follows mem A t := fun ρ ρ' π h' => h ρ ρ' π ((e ρ).symm.trans h')

theorem Follows.loop {c : (ℕ → α) → Bool → Prop} {t : (ℕ → Itv T) → Res Bool}
    (hc : ∀ ρ b, t ρ = .ok b → ∀ v, (∀ i, mem (v i) (ρ i)) → ∀ b', c v b' → b' = b)
    {A : Runs α} {r : (ℕ → Itv T) → Res ((ℕ → Itv T) × List Bool)} (hA : Follows mem A r) (n : ℕ) :
    Follows mem (Runs.loop c A n) (loopTurns t r n) := by
  induction n with
  | zero => intro ρ ρ' π h; cases h
  | succ n ih =>
    refine (Follows.branch hc (hA.andThen ih) .nop).congr fun ρ => ?_
    change (t ρ >>= fun b => if b then _ else _) = _
    congr 1
    funext b
    cases b with
    | false => rfl
    | true =>
      simp only [if_true]
      cases r ρ with
      | error e => rfl
      | ok p =>
        change (loopTurns t r n p.1 >>= _) = ((loopTurns t r n p.1 >>= _) >>= _)
        cases loopTurns t r n p.1 <;> rfl

/-- A program follows the execution with intervals, if its formulas and its tests do. -/
theorem Stmt.follows {p : Expr T → Prop} (n : ℕ)
    (he : ∀ e, p e → ∀ ρ z, e.eval K fuel V.pp ρ = .ok z → ∀ v, (∀ i, mem (v i) (ρ i)) → ∀ r, I.value v e r → mem r z)
    (hc : ∀ c : Cond T, c.Formulas p → ∀ ρ b, c.test K fuel V.pp ρ = .ok b → ∀ v, (∀ i, mem (v i) (ρ i)) → ∀ b', c.Result I v b' → b' = b)
    (s : Stmt T) (hs : s.Formulas p) : Follows mem (s.Exec I n) (s.run K fuel n V.pp) := by
  induction s with
  | skip => exact .nop
  | assign i e =>
    intro ρ ρ' π h v hv π' o ho
    change (e.eval K fuel V.pp ρ >>= _) = _ at h
    cases h1 : e.eval K fuel V.pp ρ with
    | error e => rw [h1] at h; cases h
    | ok x =>
      rw [h1] at h
      obtain ⟨rfl, rfl⟩ := Prod.mk.inj (Except.ok.inj h)
      obtain ⟨rfl, ⟨r, hr, rfl⟩ | ⟨-, rfl⟩⟩ := ho
      · refine .inr ⟨_, rfl, rfl, fun j => ?_⟩
        dsimp only
        split
        · exact he e hs ρ x h1 v hv r hr
        · exact hv j
      · exact .inl ⟨rfl, List.nil_prefix⟩
  | seq a b iha ihb => exact (iha hs.1).andThen (ihb hs.2)
  | ite c a b iha ihb => exact .branch (hc c hs.1) (iha hs.2.1) (ihb hs.2.2)
  | loop c a ih => exact .loop (hc c hs.1) (ih hs.2) n
  | region a ih => exact ih hs

/-- Tests follow, if formulas and comparisons do. -/
theorem Cond.follows {p : Expr T → Prop}
    (he : ∀ e, p e → ∀ ρ z, e.eval K fuel V.pp ρ = .ok z → ∀ v, (∀ i, mem (v i) (ρ i)) → ∀ r, I.value v e r → mem r z)
    (hII : ∀ r x y b, cmpII r V.C V.C x y = .ok b → ∀ p q, mem p x → mem q y → (b = true ↔ I.holds r p q))
    (hIT : ∀ r x t b, cmpIT r V.C x t = .ok b → ∀ v p q, mem p x → I.value v (.num t) q → (b = true ↔ I.holds r p q))
    (c : Cond T) (hs : c.Formulas p) (ρ : ℕ → Itv T) (b : Bool) (h : c.test K fuel V.pp ρ = .ok b) (v : ℕ → α)
    (hv : ∀ i, mem (v i) (ρ i)) (b' : Bool) (hb : c.Result I v b') : b' = b := by
  cases c with
  | II r e₁ e₂ =>
    obtain ⟨p, q, h1, h2, hb⟩ := hb
    change (pair (e₁.eval K fuel V.pp ρ) (e₂.eval K fuel V.pp ρ) >>= _) = _ at h
    cases k1 : e₁.eval K fuel V.pp ρ with
    | error e => rw [k1] at h; cases h
    | ok x =>
      cases k2 : e₂.eval K fuel V.pp ρ with
      | error e => rw [k1, k2] at h; cases h
      | ok y =>
        rw [k1, k2] at h
        rw [Bool.eq_iff_iff, hb]
        exact (hII r x y b h p q (he _ hs.1 ρ x k1 v hv p h1) (he _ hs.2 ρ y k2 v hv q h2)).symm
  | IT r e t =>
    obtain ⟨p, q, h1, h2, hb⟩ := hb
    change (e.eval K fuel V.pp ρ >>= _) = _ at h
    cases k1 : e.eval K fuel V.pp ρ with
    | error e => rw [k1] at h; cases h
    | ok x =>
      rw [k1] at h
      rw [Bool.eq_iff_iff, hb]
      exact (hIT r x t b h v p q (he _ hs ρ x k1 v hv p h1) h2).symm
end

section
variable {T : Type} [Num T] [Val T] [NumLaws T] (V : Env T) {x y : Itv T} {t : T} {b : Bool} {p q : ℝ}

/-- Whatever a default comparison returns is the relation of any two points. -/
theorem cmpII_points (r : Rel) (h : cmpII r V.C V.C x y = .ok b) (hp : p ∈ γ x) (hq : q ∈ γ y) : b = true ↔ r.holds p q := by
  obtain ⟨h1, h2, h3⟩ := C30_cmp V V r ⟨p, hp⟩ ⟨q, hq⟩
  by_cases ha : Always r (γ x) (γ y)
  · rw [h1 ha] at h; cases h; simpa using ha p hp q hq
  · by_cases hs : Sometimes r (γ x) (γ y)
    · rw [h3 hs ha] at h; cases h
    · rw [h2 hs] at h; cases h
      simpa using fun h => hs ⟨p, hp, q, hq, h⟩

theorem cmpIT_points (r : Rel) (h : cmpIT r V.C x t = .ok b) (hp : p ∈ γ x) (hq : val t = some (q : EReal)) : b = true ↔ r.holds p q := by
  obtain ⟨h1, h2, h3⟩ := C30_cmp_num V r ⟨p, hp⟩ hq
  by_cases ha : Always r (γ x) {q}
  · rw [h1 ha] at h; cases h; simpa using ha p hp q rfl
  · by_cases hs : Sometimes r (γ x) {q}
    · rw [h3 hs ha] at h; cases h
    · rw [h2 hs] at h; cases h
      simpa using fun h => hs ⟨p, hp, q, rfl, h⟩

theorem Rel.plain_iff (r : Rel) {a c : T} (ha : val a = some (p : EReal)) (hc : val c = some (q : EReal)) : r.plain a c = true ↔ r.holds p q := by
  cases r <;> simp [Rel.plain, Rel.holds, lt_eq ha hc, lt_eq hc ha, le_eq ha hc, le_eq hc ha, eq_eq ha hc]
end

theorem Stmt.formulas_trivial {T : Type} (s : Stmt T) : s.Formulas fun _ => True := by
  have hc : ∀ c : Cond T, c.Formulas fun _ => True := fun c => by cases c <;> simp [Cond.Formulas]
  induction s with
  | skip => trivial
  | assign i e => trivial
  | seq a b iha ihb => exact ⟨iha, ihb⟩
  | ite c a b iha ihb => exact ⟨hc c, iha, ihb⟩
  | loop c a ih => exact ⟨hc c, ih⟩
  | region a ih => exact ih

theorem Expr.Supported.mono {T : Type} [Num T] [Val T] {V : Env T} {K : PiConst T} {inf inf' : Prop} (h : inf → inf') {e : Expr T}
    (hs : e.Supported V K inf) : e.Supported V K inf' := by
  induction e with
  | var i => trivial
  | num t => trivial
  | un o e ih => exact ⟨fun ho => h (hs.1 ho), hs.2.1, ih hs.2.2⟩
  | pow e k ih => exact ⟨hs.1, hs.2.1, fun hk => h (hs.2.2.1 hk), ih hs.2.2.2⟩
  | bin o e₁ e₂ ih₁ ih₂ => exact ⟨fun ho => h (hs.1 ho), ih₁ hs.2.1, ih₂ hs.2.2⟩
  | binL o t e ih => exact ⟨fun ho => h (hs.1 ho), ih hs.2⟩
  | binR o e t ih => exact ih hs
  | inter e₁ e₂ ih₁ ih₂ => exact ⟨ih₁ hs.1, ih₂ hs.2⟩
  | fn f e ih => exact ⟨⟨hs.1.1, hs.1.2.1, fun hu => h (hs.1.2.2.1 hu), hs.1.2.2.2⟩, ih hs.2⟩

end BI
