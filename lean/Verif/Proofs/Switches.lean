import Verif.Model.Examples
import Verif.Spec.Switches
/-! # Bounds for the number of writes to the rounding mode -/

set_option linter.unusedSectionVars false

namespace BI

/-- The computation makes at most `n` writes, and leaves the control word alone if it makes none. -/
def Cost {c : Ctl} (n : Nat) {α : Type} (a : M c.counting.W α) : Prop :=
  ∀ s : St c.counting.W, s.cw.2 ≤ (a s).2.cw.2 ∧ (a s).2.cw.2 ≤ s.cw.2 + n ∧
    ((a s).2.cw.2 = s.cw.2 → (a s).2.cw = s.cw)

namespace Cost
variable {c : Ctl} {n k l : Nat} {α β γ δ : Type}

theorem mono {a : M c.counting.W α} (h : Cost n a) (hl : n ≤ k) : Cost k a := fun s => by
  obtain ⟨h1, h2, h3⟩ := h s
  exact ⟨h1, by omega, h3⟩

theorem lift (r : Res α) : Cost n (BI.lift r : M c.counting.W α) := fun s => ⟨le_refl _, Nat.le_add_right _ _, fun _ => rfl⟩
theorem pure (a : α) : Cost n (Pure.pure a : M c.counting.W α) := lift _

theorem bind {a : M c.counting.W α} {f : α → M c.counting.W β} (ha : Cost n a) (hf : ∀ x, Cost k (f x)) :
    Cost (n + k) (a >>= f) := by
  intro s
  change _ ≤ (M.bind a f s).2.cw.2 ∧ (M.bind a f s).2.cw.2 ≤ _ ∧ ((M.bind a f s).2.cw.2 = _ → (M.bind a f s).2.cw = _)
  unfold M.bind
  obtain ⟨h1, h2, h3⟩ := ha s
  rcases he : a s with ⟨o, s'⟩
  rw [he] at h1 h2 h3
  cases o with
  | error e => exact ⟨h1, by dsimp only at *; omega, h3⟩
  | ok x =>
    obtain ⟨k1, k2, k3⟩ := hf x s'
    dsimp only at *
    refine ⟨by omega, by omega, fun e => ?_⟩
    rw [k3 (by omega), h3 (by omega)]

/-- A computation without cost first. -/
theorem free {a : M c.counting.W α} {f : α → M c.counting.W β} (ha : Cost 0 a) (hf : ∀ x, Cost k (f x)) :
    Cost k (a >>= f) := (ha.bind hf).mono (by omega)

/-- A computation without cost last. -/
theorem then_ {a : M c.counting.W α} {f : α → M c.counting.W β} (ha : Cost n a) (hf : ∀ x, Cost 0 (f x)) :
    Cost n (a >>= f) := (ha.bind hf).mono (by omega)

theorem ite {p : Prop} [Decidable p] {a b : M c.counting.W α} (h1 : Cost n a) (h2 : Cost n b) :
    Cost n (if p then a else b) := by by_cases h : p <;> simp only [h, if_true, if_false] <;> assumption

theorem choose {a b : M c.counting.W α} (ha : Cost n a) (hb : Cost n b) : Cost n (M.choose a b) := by
  intro s
  unfold M.choose
  by_cases hs : s.sched 0 = true
  · simp only [if_pos hs]; exact ha { s with sched := fun n => s.sched (n + 1) }
  · simp only [if_neg hs]; exact hb { s with sched := fun n => s.sched (n + 1) }

theorem any2 {a : M c.counting.W α} {b : M c.counting.W β} (ha : Cost n a) (hb : Cost k b) : Cost (n + k) (M.any2 a b) :=
  choose (ha.bind fun _ => hb.then_ fun _ => pure _)
    ((hb.bind fun _ => ha.then_ fun _ => pure _).mono (by omega))

theorem any3 {a : M c.counting.W α} {b : M c.counting.W β} {d : M c.counting.W γ} (ha : Cost n a) (hb : Cost k b)
    (hd : Cost l d) : Cost (n + k + l) (M.any3 a b d) :=
  choose ((ha.bind fun _ => (hb.any2 hd).then_ fun _ => pure _).mono (by omega))
    (choose ((hb.bind fun _ => (ha.any2 hd).then_ fun _ => pure _).mono (by omega))
      ((hd.bind fun _ => (ha.any2 hb).then_ fun _ => pure _).mono (by omega)))

theorem quad {j : Nat} {a : M c.counting.W α} {b : M c.counting.W β} {d : M c.counting.W γ} {e : M c.counting.W δ}
    (ha : Cost n a) (hb : Cost k b) (hd : Cost l d) (he : Cost j e) : Cost (n + k + l + j) (BI.quad a b d e) :=
  choose (choose ((ha.bind fun _ => (hb.any3 hd he).then_ fun _ => pure _).mono (by omega))
      ((hb.bind fun _ => (ha.any3 hd he).then_ fun _ => pure _).mono (by omega)))
    (choose ((hd.bind fun _ => (ha.any3 hb he).then_ fun _ => pure _).mono (by omega))
      ((he.bind fun _ => (ha.any3 hb hd).then_ fun _ => pure _).mono (by omega)))

theorem pair {a : M c.counting.W α} {b : M c.counting.W β} (ha : Cost n a) (hb : Cost k b) : Cost (n + k) (BI.pair a b) :=
  ha.any2 hb

theorem mk2 {a b : M c.counting.W α} (ha : Cost n a) (hb : Cost n b) : Cost (2 * n) (BI.mk2 a b) :=
  ((ha.pair hb).then_ fun _ => pure _).mono (by omega)

theorem evalIn (f : RMode → Option α) : Cost n (BI.evalIn c.counting f) :=
  fun s => ⟨le_refl _, Nat.le_add_right _ _, fun _ => rfl⟩

theorem modify {f : c.counting.W → c.counting.W} (hf : ∀ w, (f w).2 = w.2 + 1) : Cost 1 (M.modify f) := fun s => by
  have h : ((M.modify f s).2.cw).2 = s.cw.2 + 1 := hf s.cw
  exact ⟨by omega, by omega, fun e => by omega⟩

end Cost

section
variable {c : Ctl} {T : Type} [Num T] {α : Type}

theorem negM_cost (x : T) : Cost (c := c) 0 (negM x : M c.counting.W T) := Cost.lift _

theorem dn_cost (f : RMode → Option α) : Cost 1 (dn c.counting f) := (Cost.modify fun _ => rfl).then_ fun _ => Cost.evalIn f
theorem upw_cost (f : RMode → Option α) : Cost 1 (upw c.counting f) := (Cost.modify fun _ => rfl).then_ fun _ => Cost.evalIn f
theorem nr_cost (f : RMode → Option α) : Cost 1 (nr c.counting f) := (Cost.modify fun _ => rfl).then_ fun _ => Cost.evalIn f
theorem upNeg_cost (f : RMode → Option T) : Cost 0 (upNeg c.counting f) := (Cost.evalIn f).free fun _ => negM_cost _
theorem dnUp_cost (f : RMode → Option α) : Cost 2 (dnUp c.counting f) :=
  ((Cost.modify (fun _ => rfl) : Cost (c := c) 1 _).bind fun _ => (Cost.evalIn f).free fun _ =>
    (Cost.modify (fun _ => rfl) : Cost (c := c) 1 _).then_ fun _ => Cost.pure _)
theorem nrUp_cost (f : RMode → Option α) : Cost 2 (nrUp c.counting f) :=
  ((Cost.modify (fun _ => rfl) : Cost (c := c) 1 _).bind fun _ => (Cost.evalIn f).free fun _ =>
    (Cost.modify (fun _ => rfl) : Cost (c := c) 1 _).then_ fun _ => Cost.pure _)

/-- The operations cost what the price list says. -/
structure ACost (p : Price) (A : Arith (M c.counting.W) T) : Prop where
  convDown : ∀ v, Cost p.op (A.convDown v)
  convUp : ∀ v, Cost p.op (A.convUp v)
  addDown : ∀ x y, Cost p.op (A.addDown x y)
  addUp : ∀ x y, Cost p.op (A.addUp x y)
  subDown : ∀ x y, Cost p.op (A.subDown x y)
  subUp : ∀ x y, Cost p.op (A.subUp x y)
  mulDown : ∀ x y, Cost p.op (A.mulDown x y)
  mulUp : ∀ x y, Cost p.op (A.mulUp x y)
  divDown : ∀ x y, Cost p.op (A.divDown x y)
  divUp : ∀ x y, Cost p.op (A.divUp x y)
  median : ∀ x y, Cost p.mid (A.median x y)
  sqrtDown : ∀ x, Cost p.root (A.sqrtDown x)
  sqrtUp : ∀ x, Cost p.op (A.sqrtUp x)
  intDown : ∀ x, Cost p.op (A.intDown x)
  intUp : ∀ x, Cost p.op (A.intUp x)
  fnDown : ∀ f x, Cost (p.fn f) (A.fnDown f x)
  fnUp : ∀ f x, Cost p.op (A.fnUp f x)

theorem arithOpp_cost (lib : Lib T) : ACost .opp (arithOf c.counting .opp lib) where
  convDown _ := upNeg_cost _
  convUp _ := Cost.evalIn _
  addDown _ _ := upNeg_cost _
  addUp _ _ := Cost.evalIn _
  subDown _ _ := upNeg_cost _
  subUp _ _ := Cost.evalIn _
  mulDown _ _ := upNeg_cost _
  mulUp _ _ := Cost.evalIn _
  divDown _ _ := upNeg_cost _
  divUp _ _ := Cost.evalIn _
  median _ _ := nrUp_cost _
  sqrtDown _ := dnUp_cost _
  sqrtUp _ := Cost.evalIn _
  intDown _ := upNeg_cost _
  intUp _ := Cost.evalIn _
  fnDown f x := by
    have h0 : Cost (c := c) 0 (do let v ← evalIn c.counting (fun r => lib f r x); let nv ← negM v; negM nv) :=
      (Cost.evalIn _).free fun _ => (negM_cost _).free fun _ => negM_cost _
    have h2 : Cost (c := c) 2 (dnUp c.counting (fun r => lib f r x)) := dnUp_cost _
    cases f <;> first | exact h2 | exact h0
  fnUp _ _ := Cost.evalIn _

theorem arithStd_cost (lib : Lib T) : ACost .std (arithOf c.counting .std lib) where
  convDown _ := dn_cost _
  convUp _ := upw_cost _
  addDown _ _ := dn_cost _
  addUp _ _ := upw_cost _
  subDown _ _ := dn_cost _
  subUp _ _ := upw_cost _
  mulDown _ _ := dn_cost _
  mulUp _ _ := upw_cost _
  divDown _ _ := dn_cost _
  divUp _ _ := upw_cost _
  median _ _ := nr_cost _
  sqrtDown _ := dn_cost _
  sqrtUp _ := upw_cost _
  intDown _ := dn_cost _
  intUp _ := upw_cost _
  fnDown _ _ := dn_cost _
  fnUp _ _ := upw_cost _

theorem arithExact_cost (lib : Lib T) : ACost .free (arithOf c.counting .exact lib) where
  convDown _ := Cost.evalIn _
  convUp _ := Cost.evalIn _
  addDown _ _ := Cost.evalIn _
  addUp _ _ := Cost.evalIn _
  subDown _ _ := Cost.evalIn _
  subUp _ _ := Cost.evalIn _
  mulDown _ _ := Cost.evalIn _
  mulUp _ _ := Cost.evalIn _
  divDown _ _ := Cost.evalIn _
  divUp _ _ := Cost.evalIn _
  median _ _ := Cost.evalIn _
  sqrtDown _ := Cost.evalIn _
  sqrtUp _ := Cost.evalIn _
  intDown _ := Cost.lift _
  intUp _ := Cost.lift _
  fnDown _ _ := Cost.evalIn _
  fnUp _ _ := Cost.evalIn _

/-- The policies cost what the price list says. -/
structure PCost (p : Price) (P : Policies (M c.counting.W) T) : Prop where
  rnd : ACost p P.rnd.toArith
  unp : ACost p P.unp.toArith
  scope : ∀ {α : Type} {n : Nat} {a : M c.counting.W α}, Cost n a → Cost (p.object + n) (P.rnd.scope a)
  scopeU : ∀ {α : Type} {n : Nat} {a : M c.counting.W α}, Cost n a → Cost n (P.unp.scope a)
  cur : ∀ {α : Type} (f : RMode → Option α), Cost 0 (P.cur f)

theorem ACost.reprice {p q : Price} {A : Arith (M c.counting.W) T} (h : ACost p A) (h1 : q.op = p.op) (h2 : q.mid = p.mid)
    (h3 : q.root = p.root) (h4 : q.fn = p.fn) : ACost q A := by
  obtain ⟨o, b, m, r, f⟩ := p
  obtain ⟨o', b', m', r', f'⟩ := q
  obtain ⟨⟩ := h1
  obtain ⟨⟩ := h2
  obtain ⟨⟩ := h3
  obtain ⟨⟩ := h4
  exact ⟨h.1, h.2, h.3, h.4, h.5, h.6, h.7, h.8, h.9, h.10, h.11, h.12, h.13, h.14, h.15, h.16, h.17⟩

theorem PCost.unprot {p : Price} {P : Policies (M c.counting.W) T} (h : PCost p P) : PCost p.unprot P.unprot where
  rnd := h.unp.reprice rfl rfl rfl rfl
  unp := h.unp.reprice rfl rfl rfl rfl
  scope := fun ha => (h.scopeU ha).mono (by simp [Price.unprot])
  scopeU := h.scopeU
  cur := h.cur

/-- A `save_state` object sets the mode when it is destroyed, and before that as `init` says. -/
theorem scope_cost {n : Nat} (k : RKind) (A : Arith (M c.counting.W) T) {a : M c.counting.W α} (h : Cost n a) :
    Cost ((if k = .opp then 2 else 1) + n) ((saveState c.counting (initOf c.counting k) A).scope a) := by
  intro s
  have e : ((saveState c.counting (initOf c.counting k) A).scope a s).2.cw.2 =
      (a { s with cw := initOf c.counting k s.cw }).2.cw.2 + 1 := rfl
  obtain ⟨h1, h2, _⟩ := h { s with cw := initOf c.counting k s.cw }
  have hi : (initOf c.counting k s.cw).2 = s.cw.2 + if k = .opp then 1 else 0 := by cases k <;> rfl
  dsimp only at h1 h2
  rw [hi] at h1 h2
  rw [e]
  by_cases hk : k = .opp
  · simp only [if_pos hk] at *
    exact ⟨by omega, by omega, fun e => by omega⟩
  · simp only [if_neg hk] at *
    exact ⟨by omega, by omega, fun e => by omega⟩

theorem oppPolicies_cost (lib : Lib T) (C : Checking T) : PCost .opp (protPolicies c.counting .opp lib C) where
  rnd := arithOpp_cost lib
  unp := arithOpp_cost lib
  scope := fun h => scope_cost .opp _ h
  scopeU := fun h => h
  cur := fun f => Cost.evalIn f

theorem stdPolicies_cost (lib : Lib T) (C : Checking T) : PCost .std (protPolicies c.counting .std lib C) where
  rnd := arithStd_cost lib
  unp := arithStd_cost lib
  scope := fun h => scope_cost .std _ h
  scopeU := fun h => h
  cur := fun f => Cost.evalIn f

theorem exactPolicies_cost (lib : Lib T) (C : Checking T) : PCost .free (barePolicies c.counting .exact lib C) where
  rnd := arithExact_cost lib
  unp := arithExact_cost lib
  scope := fun h => h.mono (by simp)
  scopeU := fun h => h
  cur := fun f => Cost.evalIn f

variable {p : Price} {P : Policies (M c.counting.W) T}

theorem addII_cost (h : PCost p P) (x y : Itv T) : Cost (p.object + 2 * p.op) (addII P x y) :=
  (Cost.lift _).free fun _ => Cost.ite (Cost.lift _) (h.scope ((h.rnd.addDown _ _).mk2 (h.rnd.addUp _ _)))

theorem addTI_cost (h : PCost p P) (x : T) (y : Itv T) : Cost (p.object + 2 * p.op) (addTI P x y) :=
  (Cost.lift _).free fun _ => Cost.ite (Cost.lift _) (h.scope ((h.rnd.addDown _ _).mk2 (h.rnd.addUp _ _)))

theorem subII_cost (h : PCost p P) (x y : Itv T) : Cost (p.object + 2 * p.op) (subII P x y) :=
  (Cost.lift _).free fun _ => Cost.ite (Cost.lift _) (h.scope ((h.rnd.subDown _ _).mk2 (h.rnd.subUp _ _)))

theorem subTI_cost (h : PCost p P) (x : T) (y : Itv T) : Cost (p.object + 2 * p.op) (subTI P x y) :=
  (Cost.lift _).free fun _ => Cost.ite (Cost.lift _) (h.scope ((h.rnd.subDown _ _).mk2 (h.rnd.subUp _ _)))

theorem subIT_cost (h : PCost p P) (x : Itv T) (y : T) : Cost (p.object + 2 * p.op) (subIT P x y) :=
  (Cost.lift _).free fun _ => Cost.ite (Cost.lift _) (h.scope ((h.rnd.subDown _ _).mk2 (h.rnd.subUp _ _)))

theorem mulBody_cost {A : Arith (M c.counting.W) T} (h : ACost p A) (a b d e : T) : Cost (4 * p.op) (mulBody A a b d e) := by
  have h2 : ∀ x y z t, Cost (4 * p.op) (mk2 (A.mulDown x y) (A.mulUp z t)) := fun x y z t =>
    ((h.mulDown _ _).mk2 (h.mulUp _ _)).mono (by omega)
  have h4 : ∀ x y z t x' y' z' t', Cost (4 * p.op) (quad (A.mulDown x y) (A.mulDown z t) (A.mulUp x' y') (A.mulUp z' t')) :=
    fun _ _ _ _ _ _ _ _ => ((h.mulDown _ _).quad (h.mulDown _ _) (h.mulUp _ _) (h.mulUp _ _)).mono (by omega)
  unfold mulBody
  refine Cost.ite (Cost.ite (Cost.ite (Cost.ite ?_ (h2 _ _ _ _)) (Cost.ite (h2 _ _ _ _) (Cost.pure _)))
    (Cost.ite (Cost.ite (h2 _ _ _ _) (h2 _ _ _ _)) (Cost.ite (h2 _ _ _ _) (Cost.pure _))))
    (Cost.ite (Cost.ite (Cost.ite (h2 _ _ _ _) (h2 _ _ _ _)) (Cost.ite (h2 _ _ _ _) (Cost.pure _))) (Cost.pure _))
  exact (h4 _ _ _ _ _ _ _ _).then_ fun _ => Cost.pure _

theorem mulII_cost (h : PCost p P) (x y : Itv T) : Cost (p.object + 4 * p.op) (mulII P x y) :=
  (Cost.lift _).free fun _ => Cost.ite (Cost.lift _) (h.scope (mulBody_cost h.rnd _ _ _ _))

theorem mulTI_cost (h : PCost p P) (x : T) (y : Itv T) : Cost (p.object + 2 * p.op) (mulTI P x y) := by
  have h2 : ∀ x y z t, Cost (2 * p.op) (mk2 (P.rnd.mulDown x y) (P.rnd.mulUp z t)) := fun x y z t =>
    (h.rnd.mulDown _ _).mk2 (h.rnd.mulUp _ _)
  exact (Cost.lift _).free fun _ => Cost.ite (Cost.lift _)
    (h.scope (Cost.ite (h2 _ _ _ _) (Cost.ite (Cost.pure _) (h2 _ _ _ _))))

theorem div2_cost (h : PCost p P) (x y z t : T) : Cost (2 * p.op) (mk2 (P.rnd.divDown x y) (P.rnd.divUp z t)) :=
  (h.rnd.divDown _ _).mk2 (h.rnd.divUp _ _)

theorem mkNegInf_cost {n : Nat} (C : Checking T) {u : M c.counting.W T} (h : Cost n u) : Cost n (mkNegInf C u) :=
  (Cost.lift _).free fun _ => h.then_ fun _ => Cost.pure _

theorem mkPosInf_cost {n : Nat} (C : Checking T) {u : M c.counting.W T} (h : Cost n u) : Cost n (mkPosInf C u) :=
  h.then_ fun _ => (Cost.lift _).free fun _ => Cost.pure _

theorem divNonZeroII_cost (h : PCost p P) (x y : Itv T) : Cost (p.object + 2 * p.op) (divNonZeroII P x y) := by
  have h2 := div2_cost h
  exact h.scope (Cost.ite (Cost.ite (h2 _ _ _ _) (h2 _ _ _ _)) (Cost.ite (Cost.ite (h2 _ _ _ _) (h2 _ _ _ _))
    (Cost.ite (h2 _ _ _ _) (h2 _ _ _ _))))

theorem divNonZeroTI_cost (h : PCost p P) (x : T) (y : Itv T) : Cost (p.object + 2 * p.op) (divNonZeroTI P x y) :=
  h.scope (Cost.ite (div2_cost h _ _ _ _) (div2_cost h _ _ _ _))

theorem divPositiveI_cost (h : PCost p P) (x : Itv T) (y : T) : Cost (p.object + 2 * p.op) (divPositiveI P x y) :=
  Cost.ite (Cost.pure _) ((h.scope (Cost.ite (mkNegInf_cost _ (h.rnd.divUp _ _)) (Cost.ite (Cost.lift _)
    (mkPosInf_cost _ (h.rnd.divDown _ _))))).mono (by omega))

theorem divNegativeI_cost (h : PCost p P) (x : Itv T) (y : T) : Cost (p.object + 2 * p.op) (divNegativeI P x y) :=
  Cost.ite (Cost.pure _) ((h.scope (Cost.ite (mkPosInf_cost _ (h.rnd.divDown _ _)) (Cost.ite (Cost.lift _)
    (mkNegInf_cost _ (h.rnd.divUp _ _))))).mono (by omega))

theorem divPositiveT_cost (h : PCost p P) (x y : T) : Cost (p.object + 2 * p.op) (divPositiveT P x y) :=
  Cost.ite (Cost.pure _) ((h.scope (Cost.ite (mkNegInf_cost _ (h.rnd.divUp _ _))
    (mkPosInf_cost _ (h.rnd.divDown _ _)))).mono (by omega))

theorem divNegativeT_cost (h : PCost p P) (x y : T) : Cost (p.object + 2 * p.op) (divNegativeT P x y) :=
  Cost.ite (Cost.pure _) ((h.scope (Cost.ite (mkPosInf_cost _ (h.rnd.divDown _ _))
    (mkNegInf_cost _ (h.rnd.divUp _ _)))).mono (by omega))

theorem divZeroPart1_cost (h : PCost p P) (x y : Itv T) : Cost (p.object + 2 * p.op) (divZeroPart1 P x y) :=
  Cost.ite (Cost.pure _) ((h.scope (Cost.ite ((mkNegInf_cost _ (h.rnd.divUp _ _)).then_ fun _ => Cost.pure _)
    (Cost.ite ((Cost.lift _).free fun _ => Cost.pure _)
      ((mkNegInf_cost _ (h.rnd.divUp _ _)).then_ fun _ => Cost.pure _)))).mono (by omega))

theorem divII_cost (h : PCost p P) (x y : Itv T) : Cost (p.object + 2 * p.op) (divII P x y) :=
  (Cost.lift _).free fun _ => Cost.ite (Cost.lift _) ((Cost.lift _).free fun _ => Cost.ite
    (Cost.ite (Cost.ite (Cost.ite (Cost.pure _) (Cost.lift _)) (divNegativeI_cost h _ _))
      (Cost.ite (divPositiveI_cost h _ _) (Cost.lift _)))
    (divNonZeroII_cost h _ _))

theorem divTI_cost (h : PCost p P) (x : T) (y : Itv T) : Cost (p.object + 2 * p.op) (divTI P x y) :=
  (Cost.lift _).free fun _ => Cost.ite (Cost.lift _) ((Cost.lift _).free fun _ => Cost.ite
    (Cost.ite (Cost.ite (Cost.ite (Cost.pure _) (Cost.lift _)) (divNegativeT_cost h _ _))
      (Cost.ite (divPositiveT_cost h _ _) (Cost.lift _)))
    (divNonZeroTI_cost h _ _))

theorem divIT_cost (h : PCost p P) (x : Itv T) (y : T) : Cost (p.object + 2 * p.op) (divIT P x y) :=
  (Cost.lift _).free fun _ => Cost.ite (Cost.lift _) (h.scope (Cost.ite (div2_cost h _ _ _ _) (div2_cost h _ _ _ _)))

theorem fmodTail_cost (h : PCost p P) (a b : T) {f : T → M c.counting.W (Itv T)} (hf : ∀ n, Cost (4 * p.op) (f n)) :
    Cost (6 * p.op) (P.rnd.divDown a b >>= fun d => P.rnd.intDown d >>= f) :=
  ((h.rnd.divDown _ _).bind fun _ => (h.rnd.intDown _).bind hf).mono (by omega)

theorem mulTIu_cost (h : PCost p P) (x : T) (y : Itv T) : Cost (2 * p.op) (mulTI P.unprot x y) :=
  (mulTI_cost h.unprot x y).mono (by simp [Price.unprot])

theorem subIIu_cost (h : PCost p P) (x y : Itv T) : Cost (2 * p.op) (subII P.unprot x y) :=
  (subII_cost h.unprot x y).mono (by simp [Price.unprot])

theorem subTIu_cost (h : PCost p P) (x : T) (y : Itv T) : Cost (2 * p.op) (subTI P.unprot x y) :=
  (subTI_cost h.unprot x y).mono (by simp [Price.unprot])

theorem backI_cost (same : Bool) (C : Checking T) (r : Itv T) : Cost (c := c) 0 (backI same C r : M c.counting.W (Itv T)) := by
  cases same
  · exact Cost.lift _
  · exact Cost.pure _

theorem fmodAux_cost (h : PCost p P) (same : Bool) (x y : Itv T) : Cost (p.object + 6 * p.op) (fmodAux same P x y) :=
  (Cost.lift _).free fun _ => Cost.ite (Cost.lift _) (h.scope (fmodTail_cost h _ _ fun _ =>
    ((mulTIu_cost h _ _).bind fun _ => (subIIu_cost h _ _).then_ fun _ => backI_cost _ _ _).mono (by omega)))

theorem fmodIT_cost (h : PCost p P) (x : Itv T) (y : T) : Cost (p.object + 6 * p.op) (fmodIT P x y) :=
  (Cost.lift _).free fun _ => Cost.ite (Cost.lift _) (h.scope (fmodTail_cost h _ _ fun _ => (Cost.lift _).free fun _ =>
    ((mulTIu_cost h _ _).bind fun _ => (subIIu_cost h _ _).then_ fun _ => Cost.lift _).mono (by omega)))

theorem fmodTI_cost (h : PCost p P) (x : T) (y : Itv T) : Cost (p.object + 6 * p.op) (fmodTI P x y) :=
  (Cost.lift _).free fun _ => Cost.ite (Cost.lift _) (h.scope (fmodTail_cost h _ _ fun _ =>
    ((mulTIu_cost h _ _).bind fun _ => (subTIu_cost h _ _).then_ fun _ => Cost.lift _).mono (by omega)))

theorem divisionPart1_cost (h : PCost p P) (x y : Itv T) : Cost (p.object + 2 * p.op) (divisionPart1 P x y) :=
  (Cost.lift _).free fun _ => Cost.ite ((Cost.lift _).free fun _ => Cost.pure _) ((Cost.lift _).free fun _ => Cost.ite
    (Cost.ite (Cost.ite (divZeroPart1_cost h _ _) ((divNegativeI_cost h _ _).then_ fun _ => Cost.pure _))
      (Cost.ite ((divPositiveI_cost h _ _).then_ fun _ => Cost.pure _) ((Cost.lift _).free fun _ => Cost.pure _)))
    ((divNonZeroII_cost h _ _).then_ fun _ => Cost.pure _))

theorem divisionPart2_cost (h : PCost p P) (x y : Itv T) (b : Bool) : Cost (p.object + p.op) (divisionPart2 P x y b) :=
  Cost.ite (Cost.lift _) (h.scope (Cost.ite (mkPosInf_cost _ (h.rnd.divDown _ _)) (mkPosInf_cost _ (h.rnd.divDown _ _))))

theorem multInv_cost (h : PCost p P) (x : Itv T) : Cost (p.object + 2 * p.op) (multInv P x) :=
  (Cost.lift _).free fun _ => Cost.ite (Cost.lift _) (h.scope ((Cost.lift _).free fun _ => Cost.ite
    (Cost.ite (Cost.ite (Cost.lift _) ((mkNegInf_cost _ (h.rnd.divUp _ _)).mono (by omega)))
      (Cost.ite ((mkPosInf_cost _ (h.rnd.divDown _ _)).mono (by omega)) (Cost.lift _)))
    (div2_cost h _ _ _ _)))

theorem powLoop_cost {b : Nat} {mul : T → T → M c.counting.W T} (hm : ∀ x y, Cost b (mul x y)) (n : Nat) (x y : T) :
    Cost (2 * (2 * n).log2 * b) (powLoop mul n x y) := by
  induction n using Nat.strong_induction_on generalizing x y with
  | _ n ih =>
    rw [powLoop]
    by_cases hn : n = 0
    · rw [if_pos hn]; exact Cost.pure _
    · rw [if_neg hn]
      have e : (2 * n).log2 = (2 * (n / 2)).log2 + 1 := by
        rw [Nat.log2_def (2 * n), if_pos (by omega), Nat.mul_div_cancel_left _ (by omega)]
        by_cases h1 : n = 1
        · subst h1; rfl
        · congr 1
          rw [Nat.log2_def n, if_pos (by omega), Nat.log2_def (2 * (n / 2)), if_pos (by omega)]
          congr 2
          omega
      have h2 : ∀ x y : T, Cost b (if n % 2 = 1 then mul x y else pure y) := fun x y => Cost.ite (hm _ _) (Cost.pure _)
      refine ((hm _ _).bind fun x => (h2 x y).bind fun y => ih (n / 2) (by omega) x y).mono ?_
      rw [e]
      ring_nf
      omega

theorem powAux_cost {b : Nat} {mul : T → T → M c.counting.W T} (hm : ∀ x y, Cost b (mul x y)) (x : T) (n : Nat) :
    Cost (2 * n.log2 * b) (powAux mul x n) := by
  refine (powLoop_cost hm _ _ _).mono ?_
  have h : (2 * (n / 2)).log2 ≤ n.log2 := by
    by_cases h0 : n / 2 = 0
    · rw [h0]; exact Nat.zero_le _
    · rw [Nat.log2_def (2 * (n / 2)), if_pos (by omega), Nat.log2_def n, if_pos (by omega)]
      apply le_of_eq; congr 2; omega
  exact Nat.mul_le_mul_right _ (Nat.mul_le_mul_left _ h)

theorem powNat_cost (h : PCost p P) (x : Itv T) (n : Nat) : Cost (p.object + 4 * n.log2 * p.op) (powNat P x n) := by
  have hd : ∀ x, Cost (2 * n.log2 * p.op) (powAux P.rnd.mulDown x n) := fun x => powAux_cost h.rnd.mulDown x n
  have hu : ∀ x, Cost (2 * n.log2 * p.op) (powAux P.rnd.mulUp x n) := fun x => powAux_cost h.rnd.mulUp x n
  generalize hg : 2 * n.log2 * p.op = g at hd hu
  have hl : 4 * n.log2 * p.op = 2 * g := by rw [← hg]; ring
  rw [hl]
  refine (Cost.lift _).free fun _ => Cost.ite (Cost.lift _) (Cost.ite (Cost.ite (Cost.lift _) (Cost.lift _))
    (h.scope (Cost.ite ?_ (Cost.ite (Cost.ite ?_ ?_) ((hd _).mk2 (hu _))))))
  · exact ((negM_cost _).free fun _ => (hd _).bind fun _ => (negM_cost _).free fun _ => (hu _).then_ fun _ =>
      Cost.ite ((negM_cost _).free fun _ => (negM_cost _).free fun _ => Cost.pure _) (Cost.pure _)).mono (by omega)
  · exact ((negM_cost _).free fun _ => (hu _).then_ fun _ => negM_cost _).mk2 (hu _)
  · exact ((negM_cost _).free fun _ => (hu _).then_ fun _ => Cost.pure _).mono (by omega)

theorem powI_cost (h : PCost p P) (x : Itv T) (k : Int) : Cost (p.power k) (powI P x k) := by
  unfold powI Price.power
  refine (Cost.lift _).free fun _ => Cost.ite (Cost.lift _) ?_
  by_cases hk : k < 0
  · rw [if_pos hk, if_pos hk]
    have e : (-k).toNat = k.natAbs := by omega
    refine Cost.ite (Cost.lift _) ?_
    rw [e]
    exact (powNat_cost h x _).bind fun _ => multInv_cost h _
  · rw [if_neg hk, if_neg hk]
    have e : k.toNat = k.natAbs := by omega
    rw [e]
    exact powNat_cost h x _

theorem sqrtI_cost (h : PCost p P) (x : Itv T) : Cost (p.object + p.root + p.op) (sqrtI P x) :=
  (Cost.lift _).free fun _ => Cost.ite (Cost.lift _) ((h.scope ((Cost.ite (Cost.pure _) (h.rnd.sqrtDown _)).bind fun _ =>
    (h.rnd.sqrtUp _).then_ fun _ => Cost.pure _)).mono (by omega))

theorem squareI_cost (h : PCost p P) (x : Itv T) : Cost (p.object + 2 * p.op) (squareI P x) :=
  (Cost.lift _).free fun _ => Cost.ite (Cost.lift _) (h.scope (Cost.ite ((h.rnd.mulDown _ _).mk2 (h.rnd.mulUp _ _))
    (Cost.ite ((h.rnd.mulDown _ _).mk2 (h.rnd.mulUp _ _)) (((negM_cost _).free fun _ =>
      (Cost.ite (h.rnd.mulUp _ _) (h.rnd.mulUp _ _)).then_ fun _ => Cost.pure _).mono (by omega)))))

theorem width_cost (h : PCost p P) (x : Itv T) : Cost (p.object + p.op) (width P x) :=
  (Cost.lift _).free fun _ => Cost.ite (Cost.pure _) (h.scope (h.rnd.subUp _ _))

theorem median_cost (h : PCost p P) (x : Itv T) : Cost (p.object + p.mid) (median P x) :=
  (Cost.lift _).free fun _ => Cost.ite (Cost.lift _) (h.scope (h.rnd.median _ _))

theorem widen_cost (h : PCost p P) (x : Itv T) (v : T) : Cost (p.object + 2 * p.op) (widen P x v) :=
  (Cost.lift _).free fun _ => Cost.ite (Cost.lift _) (h.scope ((h.rnd.subDown _ _).mk2 (h.rnd.addUp _ _)))

theorem bisect_cost (h : PCost p P) (x : Itv T) : Cost (p.object + p.mid) (bisect P x) :=
  (Cost.lift _).free fun _ => Cost.ite (Cost.lift _) ((median_cost h _).then_ fun _ => Cost.pure _)

/-! ## nth_root -/

theorem rootLoop_cost (h : PCost p P) (h0 : p.object = 0) (tk x : T) (k : Int) (fuel : Nat) (y : Itv T) :
    Cost (fuel * p.turn k) (rootLoop P tk x k fuel y) := by
  have hu : p.unprot = p := by obtain ⟨o, _⟩ := p; obtain ⟨⟩ := h0; rfl
  induction fuel generalizing y with
  | zero => exact Cost.lift _
  | succ n ih =>
    have hs : Cost (p.turn k) (rootStep P tk x k y) := by
      have h1 := (median_cost h y).bind fun y0 => (powI_cost h ⟨y0, y0⟩ k).bind fun q => (subIT_cost h q x).bind fun num =>
        (powI_cost h y (k - 1)).bind fun q => (mulTI_cost h tk q).bind fun den => (divII_cost h num den).bind fun d =>
        (subTI_cost h y0 d).then_ fun s => (Cost.lift (intersect P.chk y s))
      refine h1.mono ?_
      unfold Price.turn
      rw [hu]
      omega
    refine (hs.bind fun yy => ((Cost.lift _).free fun _ => Cost.ite (Cost.pure _) (ih _))).mono (le_of_eq ?_)
    ring

theorem rootAux_cost (h : PCost p P) (h0 : p.object = 0) (fuel : Nat) (x : T) (k : Int) :
    Cost (fuel * p.turn k) (rootAux P fuel x k) :=
  (h.cur _).free fun _ => rootLoop_cost h h0 _ _ _ _ _

theorem rootAuxDn_cost (h : PCost p P) (h0 : p.object = 0) (fuel : Nat) (x : T) (k : Int) :
    Cost (fuel * p.turn k + 2 * p.op) (rootAuxDn P fuel x k) := by
  have hr := fun x => rootAux_cost h h0 fuel x k
  refine (h.scope (Cost.ite (((hr _).then_ fun _ => Cost.pure _).mono (Nat.le_add_right _ (2 * p.op)))
    (Cost.ite (Cost.pure _) ?_))).mono (le_of_eq ?_)
  · exact ((h.rnd.divUp _ _).bind fun _ => (hr _).bind fun _ => h.rnd.divDown _ _).mono (by omega)
  · omega

theorem rootAuxUp_cost (h : PCost p P) (h0 : p.object = 0) (fuel : Nat) (x : T) (k : Int) :
    Cost (fuel * p.turn k + 2 * p.op) (rootAuxUp P fuel x k) := by
  have hr := fun x => rootAux_cost h h0 fuel x k
  refine (h.scope (Cost.ite (((hr _).then_ fun _ => Cost.pure _).mono (Nat.le_add_right _ (2 * p.op)))
    (Cost.ite (Cost.pure _) ?_))).mono (le_of_eq ?_)
  · exact ((h.rnd.divDown _ _).bind fun _ => (hr _).bind fun _ => h.rnd.divUp _ _).mono (by omega)
  · omega

theorem nthRoot_cost (h : PCost p P) (nd : Bool) (fuel : Nat) (x : Itv T) (k : Int) :
    Cost (2 * (fuel * p.turn k + 2 * p.op)) (nthRoot P nd fuel x k) := by
  have hd := fun x => rootAuxDn_cost h.unprot rfl fuel x k
  have hu := fun x => rootAuxUp_cost h.unprot rfl fuel x k
  have e : fuel * p.unprot.turn k + 2 * p.unprot.op = fuel * p.turn k + 2 * p.op := rfl
  rw [e] at hd hu
  generalize fuel * p.turn k + 2 * p.op = g at hd hu
  have n0 : ∀ x : T, Cost (c := c) 0 (negM x : M c.counting.W T) := negM_cost
  unfold nthRoot
  refine (Cost.lift _).free fun _ => Cost.ite (Cost.lift _) ((Cost.lift _).free fun _ => Cost.ite (Cost.pure _)
    (Cost.ite (Cost.ite (Cost.ite (Cost.pure _) ?_) (Cost.ite (Cost.lift _) ?_)) ?_))
  · exact ((n0 _).free fun _ => (hu _).then_ fun _ => (n0 _).free fun _ => Cost.pure _).mono (by omega)
  · exact ((n0 _).free fun _ => (hu _).bind fun _ => (n0 _).free fun _ => (n0 _).free fun _ => (hd _).then_ fun _ =>
      (n0 _).free fun _ => Cost.pure _).mono (by omega)
  · refine ((hu _).bind fun _ => Cost.ite (Cost.ite (Cost.pure _) ?_) ?_).mono (le_of_eq (by omega : g + g = 2 * g))
    · exact (n0 _).free fun _ => (hu _).then_ fun _ => (n0 _).free fun _ => Cost.pure _
    · exact (hd _).then_ fun _ => Cost.pure _

/-! ## Functions of the mathematical library -/

theorem fn2_cost (h : PCost p P) (f : Fn) (x y : T) : Cost (p.fn f + p.op) (mk2 (P.rnd.fnDown f x) (P.rnd.fnUp f y)) :=
  ((h.rnd.fnDown _ _).pair (h.rnd.fnUp _ _)).then_ fun _ => Cost.pure _

theorem increasingI_cost (h : PCost p P) (f : Fn) (x : Itv T) : Cost (p.object + p.fn f + p.op) (increasingI f P x) :=
  (Cost.lift _).free fun _ => Cost.ite (Cost.lift _) ((h.scope (fn2_cost h f _ _)).mono (by omega))

/-- Two bounds computed one after the other. -/
theorem bounds_cost (h : PCost p P) {f : Fn} {a b : M c.counting.W T} (ha : Cost (p.fn f) a) (hb : Cost p.op b) :
    Cost (p.object + p.fn f + p.op) (P.rnd.scope (do let l ← a; let u ← b; pure (⟨l, u⟩ : Itv T))) :=
  (h.scope (ha.bind fun _ => hb.then_ fun _ => Cost.pure _)).mono (by omega)

theorem logI_cost (h : PCost p P) (x : Itv T) : Cost (p.object + p.fn .log + p.op) (logI P x) :=
  (Cost.lift _).free fun _ => Cost.ite (Cost.lift _)
    (bounds_cost h (Cost.ite (Cost.lift _) (h.rnd.fnDown _ _)) (h.rnd.fnUp _ _))

theorem asinI_cost (h : PCost p P) (K : PiConst T) (x : Itv T) : Cost (p.object + p.fn .asin + p.op) (asinI K P x) :=
  (Cost.lift _).free fun _ => Cost.ite (Cost.lift _)
    (bounds_cost h (Cost.ite (Cost.lift _) (h.rnd.fnDown _ _)) (Cost.ite (Cost.pure _) (h.rnd.fnUp _ _)))

theorem acosI_cost (h : PCost p P) (K : PiConst T) (x : Itv T) : Cost (p.object + p.fn .acos + p.op) (acosI K P x) :=
  (Cost.lift _).free fun _ => Cost.ite (Cost.lift _)
    (bounds_cost h (Cost.ite (Cost.pure _) (h.rnd.fnDown _ _)) (Cost.ite (Cost.pure _) (h.rnd.fnUp _ _)))

theorem acoshI_cost (h : PCost p P) (x : Itv T) : Cost (p.object + p.fn .acosh + p.op) (acoshI P x) :=
  (Cost.lift _).free fun _ => Cost.ite (Cost.lift _)
    (bounds_cost h (Cost.ite (Cost.pure _) (h.rnd.fnDown _ _)) (h.rnd.fnUp _ _))

theorem atanhI_cost (h : PCost p P) (x : Itv T) : Cost (p.object + p.fn .atanh + p.op) (atanhI P x) :=
  (Cost.lift _).free fun _ => Cost.ite (Cost.lift _)
    (bounds_cost h (Cost.ite (Cost.lift _) (h.rnd.fnDown _ _)) (Cost.ite (Cost.lift _) (h.rnd.fnUp _ _)))

theorem coshI_cost (h : PCost p P) (x : Itv T) : Cost (p.object + p.fn .cosh + p.op) (coshI P x) :=
  (Cost.lift _).free fun _ => Cost.ite (Cost.lift _) ((h.scope (Cost.ite (fn2_cost h _ _ _) (Cost.ite (fn2_cost h _ _ _)
    (((negM_cost _).free fun _ => (h.rnd.fnUp _ _).then_ fun _ => Cost.pure _).mono (by omega))))).mono (by omega))

theorem cosAux_cost (h : PCost p P) (K : PiConst T) (same : Bool) (fuel : Nat) (x : Itv T) :
    Cost (p.object + fuel * (9 * p.op) + p.fn .cos + 2 * p.op) (cosAux K same fuel P x) := by
  induction fuel generalizing p P same x with
  | zero => exact Cost.lift _
  | succ n ih =>
    have hf : ∀ x y, Cost (6 * p.op) (fmodAux true P.unprot x y) := fun x y =>
      (fmodAux_cost h.unprot true x y).mono (by simp [Price.unprot])
    have hw : ∀ x, Cost p.op (width P.unprot x) := fun x => (width_cost h.unprot x).mono (by simp [Price.unprot])
    have hc : ∀ x, Cost (n * (9 * p.op) + p.fn .cos + 2 * p.op) (cosAux K true n P.unprot x) := fun x =>
      (ih h.unprot true x).mono (by simp [Price.unprot])
    unfold cosAux
    refine (Cost.lift _).free fun _ => Cost.ite (Cost.lift _) ?_
    have hb : ∀ {α : Type} {a : M c.counting.W α}, Cost (p.fn .cos + 2 * p.op) a →
        Cost (n * (9 * p.op) + p.fn .cos + 4 * p.op) a := fun h => h.mono (by omega)
    refine (h.scope ((hf _ _).bind fun _ => (hw _).bind fun _ => Cost.ite (Cost.pure _) (Cost.ite ?_ (Cost.ite (hb ?_)
      (Cost.ite (hb ?_) (Cost.pure _)))))).mono (le_of_eq ?_)
    · exact ((subIIu_cost h _ _).bind fun _ => (hc _).then_ fun _ => (Cost.lift _).free fun _ => backI_cost _ _ _).mono
        (by omega)
    · exact (fn2_cost h _ _ _).mono (by omega)
    · exact ((h.rnd.subDown _ _).bind fun _ => (h.rnd.fnUp _ _).then_ fun _ => Cost.pure _).mono (by omega)
    · ring

theorem cosAuxU_cost (h : PCost p P) (K : PiConst T) (fuel : Nat) (x : Itv T) :
    Cost (fuel * (9 * p.op) + p.fn .cos + 2 * p.op) (cosAux K true fuel P.unprot x) :=
  (cosAux_cost h.unprot K true fuel x).mono (by simp [Price.unprot])

theorem sinI_cost (h : PCost p P) (K : PiConst T) (fuel : Nat) (x : Itv T) :
    Cost (p.object + 2 * p.op + fuel * (9 * p.op) + p.fn .cos + 2 * p.op) (sinI K fuel P x) :=
  (Cost.lift _).free fun _ => Cost.ite (Cost.lift _) ((h.scope ((subIIu_cost h _ _).bind fun _ =>
    (cosAuxU_cost h K fuel _).then_ fun _ => Cost.lift _)).mono (by omega))

theorem tanI_cost (h : PCost p P) (K : PiConst T) (x : Itv T) : Cost (p.object + 8 * p.op + p.fn .tan + p.op) (tanI K P x) := by
  have hf : ∀ x y, Cost (6 * p.op) (fmodAux true P.unprot x y) := fun x y =>
    (fmodAux_cost h.unprot true x y).mono (by simp [Price.unprot])
  exact (Cost.lift _).free fun _ => Cost.ite (Cost.lift _) ((h.scope ((hf _ _).bind fun _ =>
    (Cost.ite (subIIu_cost h _ _) (Cost.pure _)).bind fun _ => (negM_cost _).free fun _ => Cost.ite (Cost.lift _)
      (fn2_cost h _ _ _))).mono (by omega))

/-! ## Constructors -/

theorem conv2_cost (h : PCost p P) (l u : Src T) : Cost (p.object + 2 * p.op) (P.rnd.scope (do
    let l ← P.rnd.convDown l
    let u ← P.rnd.convUp u
    pure (⟨l, u⟩ : Itv T))) :=
  (h.scope ((h.rnd.convDown _).bind fun _ => (h.rnd.convUp _).then_ fun _ => Cost.pure _)).mono (by omega)

theorem ctorSrc_cost (h : PCost p P) (v : Src T) : Cost (p.object + 2 * p.op) (ctorSrc P v) :=
  (h.cur _).free fun _ => (Cost.lift _).free fun _ => Cost.ite (Cost.lift _) (conv2_cost h _ _)

theorem ctorSrc2_cost (h : PCost p P) (l u : Src T) (le : Bool) : Cost (p.object + 2 * p.op) (ctorSrc2 P l u le) :=
  (h.cur _).free fun _ => (Cost.lift _).free fun _ => Cost.ite (Cost.lift _) ((h.cur _).free fun _ =>
    (Cost.lift _).free fun _ => Cost.ite (Cost.lift _) (Cost.ite (Cost.lift _) (conv2_cost h _ _)))

theorem ctorItv_cost (h : PCost p P) (e : Res Bool) (l u : Src T) : Cost (p.object + 2 * p.op) (ctorItv P e l u) :=
  (Cost.lift _).free fun _ => Cost.ite (Cost.lift _) (conv2_cost h _ _)

/-! ## Calls and programs -/

theorem Call.cost (h : PCost p P) (q : Call T α) : Cost (p.call q) (q.run P) := by
  cases q with
  | addII x y => exact addII_cost h x y
  | addTI x y => exact addTI_cost h x y
  | addIT x y => exact addTI_cost h y x
  | subII x y => exact subII_cost h x y
  | subTI x y => exact subTI_cost h x y
  | subIT x y => exact subIT_cost h x y
  | mulII x y => exact mulII_cost h x y
  | mulTI x y => exact mulTI_cost h x y
  | mulIT x y => exact mulTI_cost h y x
  | divII x y => exact divII_cost h x y
  | divTI x y => exact divTI_cost h x y
  | divIT x y => exact divIT_cost h x y
  | addTT x y => exact (Cost.lift _).free fun _ => Cost.ite (Cost.lift _) (h.scope ((h.rnd.addDown _ _).mk2 (h.rnd.addUp _ _)))
  | subTT x y => exact (Cost.lift _).free fun _ => Cost.ite (Cost.lift _) (h.scope ((h.rnd.subDown _ _).mk2 (h.rnd.subUp _ _)))
  | mulTT x y => exact (Cost.lift _).free fun _ => Cost.ite (Cost.lift _) (h.scope ((h.rnd.mulDown _ _).mk2 (h.rnd.mulUp _ _)))
  | divTT x y => exact (Cost.lift _).free fun _ => Cost.ite (Cost.lift _) (h.scope ((h.rnd.divDown _ _).mk2 (h.rnd.divUp _ _)))
  | addIInt x n => exact (h.cur _).free fun t => addTI_cost h t x
  | addIntI n y => exact (h.cur _).free fun t => addTI_cost h t y
  | subIInt x n => exact (h.cur _).free fun t => subIT_cost h x t
  | subIntI n y => exact (h.cur _).free fun t => subTI_cost h t y
  | mulIInt x n => exact (h.cur _).free fun t => mulTI_cost h t x
  | mulIntI n y => exact (h.cur _).free fun t => mulTI_cost h t y
  | divIInt x n => exact (h.cur _).free fun t => divIT_cost h x t
  | divIntI n y => exact (h.cur _).free fun t => divTI_cost h t y
  | fmodII x y => exact fmodAux_cost h false x y
  | fmodIT x y => exact fmodIT_cost h x y
  | fmodTI x y => exact fmodTI_cost h x y
  | divisionPart1 x y => exact divisionPart1_cost h x y
  | divisionPart2 x y b => exact divisionPart2_cost h x y b
  | multInv x => exact multInv_cost h x
  | pow x k => exact powI_cost h x k
  | sqrt x => exact sqrtI_cost h x
  | square x => exact squareI_cost h x
  | nthRoot nd fuel x k => exact nthRoot_cost h nd fuel x k
  | width x => exact width_cost h x
  | median x => exact median_cost h x
  | widen x v => exact widen_cost h x v
  | bisect x => exact bisect_cost h x
  | exp x => exact increasingI_cost h .exp x
  | log x => exact logI_cost h x
  | cos K fuel x => exact cosAux_cost h K false fuel x
  | sin K fuel x => exact sinI_cost h K fuel x
  | tan K x => exact tanI_cost h K x
  | asin K x => exact asinI_cost h K x
  | acos K x => exact acosI_cost h K x
  | atan x => exact increasingI_cost h .atan x
  | sinh x => exact increasingI_cost h .sinh x
  | cosh x => exact coshI_cost h x
  | tanh x => exact increasingI_cost h .tanh x
  | asinh x => exact increasingI_cost h .asinh x
  | acosh x => exact acoshI_cost h x
  | atanh x => exact atanhI_cost h x
  | ctorSrc v => exact ctorSrc_cost h v
  | ctorSrc2 l u le => exact ctorSrc2_cost h l u le
  | ctorItv e l u => exact ctorItv_cost h e l u
  | chk f => exact Cost.lift _

/-- Steady calls are those without cost inside a region. -/
theorem Call.Steady.price {q : Call T α} (h : q.Steady) : Price.opp.unprot.call q = 0 := by
  cases q with
  | pow x k =>
    change Price.power _ _ = 0
    unfold Price.power
    split_ifs <;> simp [Price.unprot, Price.opp]
  | _ => first | exact absurd h id | rfl

/-- Exact arithmetic is free. -/
theorem Price.free_call (q : Call T α) : Price.free.call q = 0 := by
  have hp : ∀ k, Price.free.power k = 0 := fun k => by unfold Price.power; split_ifs <;> simp [Price.free]
  have hu : ∀ k, Price.free.unprot.power k = 0 := hp
  cases q with
  | pow x k => exact hp k
  | nthRoot nd fuel x k =>
    change 2 * (fuel * Price.turn _ k + 2 * 0) = 0
    unfold Price.turn
    rw [hu, hu]; rfl
  | cos K fuel x => change 0 + fuel * (9 * 0) + 0 + 2 * 0 = 0; omega
  | sin K fuel x => change 0 + 2 * 0 + fuel * (9 * 0) + 0 + 2 * 0 = 0; omega
  | _ => rfl

theorem Prog.cost_steady {i : Bool} (h : PCost p P) (hp : p = Price.opp.unprot) (hu : P.unprot = P) (q : Prog T α)
    (hq : q.All (fun _ => Call.Steady) i) : Cost 0 (q.run P) := by
  induction q generalizing i with
  | ret a => exact Cost.pure _
  | fail e => exact Cost.lift _
  | call d k ih =>
    have h1 := d.cost h
    rw [hp, Call.Steady.price hq.1] at h1
    exact h1.free fun b => ih b (hq.2 b)
  | region body k ih ih' =>
    have h1 := h.scope (ih hq.1)
    rw [hp] at h1
    unfold Prog.run
    rw [hu]
    exact Cost.free h1 fun b => ih' b (hq.2 b)

theorem hornerLoop_cost (h : PCost p P) (hp : p.op = 0) (a : Itv T) (cs : List (Itv T)) (y : Itv T) :
    Cost 0 (hornerLoop P a cs y) := by
  induction cs generalizing y with
  | nil => exact Cost.pure _
  | cons d cs ih =>
    have h1 : ∀ x y, Cost 0 (mulII P.unprot x y) := fun x y => (mulII_cost h.unprot x y).mono (by simp [Price.unprot, hp])
    have h2 : ∀ x y, Cost 0 (addII P.unprot x y) := fun x y => (addII_cost h.unprot x y).mono (by simp [Price.unprot, hp])
    exact (h1 _ _).free fun q => (Cost.lift _).free fun c => (h2 _ _).free fun y => ih y

/-- A region without writes inside. -/
theorem region_writes (A : Arith (M c.counting.W) T) {a : M c.counting.W α} (h : Cost 0 a) (s : St c.counting.W) :
    ((saveState c.counting (initOf c.counting .opp) A).scope a s).2.cw = (c.set (c.get s.cw.1) (c.upward s.cw.1), s.cw.2 + 2) := by
  obtain ⟨h1, h2, h3⟩ := h { s with cw := c.counting.upward s.cw }
  have e := h3 (by omega)
  have e' : ((saveState c.counting (initOf c.counting .opp) A).scope a s).2.cw =
      c.counting.set (c.counting.get s.cw) (a { s with cw := c.counting.upward s.cw }).2.cw := rfl
  rw [e', e]
  rfl

/-! ## Exact numbers, for computations that return -/

/-- A computation that returns has made exactly `n` writes. -/
def Spends {c : Ctl} (n : Nat) {α : Type} (a : M c.counting.W α) : Prop :=
  ∀ (s : St c.counting.W) (z : α), (a s).1 = .ok z → (a s).2.cw.2 = s.cw.2 + n

namespace Spends
variable {n k : Nat} {β : Type}

theorem pure (a : α) : Spends (c := c) 0 (Pure.pure a) := fun _ _ _ => rfl

theorem bind {a : M c.counting.W α} {f : α → M c.counting.W β} (ha : Spends n a) (hf : ∀ x, Spends k (f x)) :
    Spends (n + k) (a >>= f) := by
  intro s z
  change (M.bind a f s).1 = _ → (M.bind a f s).2.cw.2 = _
  unfold M.bind
  have h := ha s
  rcases he : a s with ⟨o, s'⟩
  rw [he] at h
  cases o with
  | error e => intro hz; cases hz
  | ok x =>
    intro hz
    have h1 := h x rfl
    have h2 := hf x s' z hz
    dsimp only at h1 h2 ⊢
    omega

theorem of_cost {a : M c.counting.W α} (h : Cost 0 a) : Spends 0 a := fun s _ _ => by
  obtain ⟨h1, h2, _⟩ := h s
  omega

theorem modify {f : c.counting.W → c.counting.W} (hf : ∀ w, (f w).2 = w.2 + 1) : Spends 1 (M.modify f) :=
  fun s _ _ => hf s.cw

theorem choose {a b : M c.counting.W α} (ha : Spends n a) (hb : Spends n b) : Spends n (M.choose a b) := by
  intro s z
  unfold M.choose
  by_cases hs : s.sched 0 = true
  · simp only [if_pos hs]; exact ha { s with sched := fun n => s.sched (n + 1) } z
  · simp only [if_neg hs]; exact hb { s with sched := fun n => s.sched (n + 1) } z

theorem mk2 {a b : M c.counting.W α} (ha : Spends n a) (hb : Spends n b) : Spends (2 * n) (BI.mk2 a b) := by
  have e : 2 * n = n + n + 0 := by omega
  have h : Spends (n + n) (pair a b) := choose (ha.bind fun _ => hb.bind fun _ => pure _)
    (hb.bind fun _ => ha.bind fun _ => pure _)
  rw [e]
  exact h.bind fun _ => pure _

theorem scope (k : RKind) (A : Arith (M c.counting.W) T) {a : M c.counting.W α} (h : Spends n a) :
    Spends ((if k = .opp then 2 else 1) + n) ((saveState c.counting (initOf c.counting k) A).scope a) := by
  intro s z hz
  have e : ((saveState c.counting (initOf c.counting k) A).scope a s).2.cw.2 =
      (a { s with cw := initOf c.counting k s.cw }).2.cw.2 + 1 := rfl
  have h1 := h { s with cw := initOf c.counting k s.cw } z hz
  have hi : (initOf c.counting k s.cw).2 = s.cw.2 + if k = .opp then 1 else 0 := by cases k <;> rfl
  dsimp only at h1
  rw [hi] at h1
  rw [e]
  split_ifs at * <;> omega
end Spends

theorem addII_spends {n m : Nat} (hC : ∀ a b, P.chk.isEmpty a b = .ok false) (hd : ∀ x y, Spends n (P.rnd.addDown x y))
    (hu : ∀ x y, Spends n (P.rnd.addUp x y))
    (hs : ∀ {a : M c.counting.W (Itv T)}, Spends (2 * n) a → Spends m (P.rnd.scope a)) (x y : Itv T) :
    Spends m (addII P x y) := by
  have e : testII P.chk P.chk x y = .ok false := by
    unfold testII
    rw [hC, hC]; rfl
  unfold addII
  rw [e]
  exact hs ((hd _ _).mk2 (hu _ _))

theorem sumProg_spends {m : Nat} (h : ∀ x y, Spends m (addII P x y)) (ys : List (Itv T)) (x : Itv T) :
    Spends (ys.length * m) ((sumProg ys x).run P) := by
  induction ys generalizing x with
  | nil => rw [List.length_nil, Nat.zero_mul]; exact Spends.pure _
  | cons y ys ih =>
    have e : (y :: ys).length * m = m + ys.length * m := by rw [List.length_cons]; ring
    rw [e]
    exact (h x y).bind fun z => ih z

theorem sumProg_steady (ys : List (Itv T)) (x : Itv T) (i : Bool) : (sumProg ys x).All (fun _ => Call.Steady) i := by
  induction ys generalizing x with
  | nil => trivial
  | cons y ys ih => exact ⟨trivial, fun z => ih z⟩

end
end BI
