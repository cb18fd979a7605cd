import Verif.Model.DocSign
import Verif.Proofs.ExFilter2
import Verif.Proofs.Empty
import Verif.Proofs.Switches
import Verif.Props.Compare
/-! # Proofs for the sign of a polynomial -/

set_option linter.unusedSectionVars false

namespace BI
open Set

section
variable {W : Type} {T : Type} [Num T] {I J : Inv W} {P : Policies (M W) T} {B : Arith Res T} {C : Checking T}

theorem polyLoop_sim (h : PSim I J P B C) (x : T) (p : ℕ → T) (n : ℕ) (y : Itv T) :
    Sim I (polyLoop P x p n y) (polyLoop (purePolicies B C) x p n y) := by
  induction n generalizing y with
  | zero => exact Sim.pure _
  | succ n ih => exact (mulIT_sim h _ _).bind fun z => (addIT_sim h _ _).bind fun y => ih y

theorem signPoly_sim (h : PSim I J P B C) (x : T) (p : ℕ → T) (sz : Int) :
    Sim I (signPoly P x p sz) (signPoly (purePolicies B C) x p sz) := by
  unfold signPoly
  cases sz.toNat with
  | zero => exact Sim.lift _
  | succ n =>
    have hl := polyLoop_sim h
    obtain rfl := h.chk
    exact (Sim.lift _).bind fun y => (hl _ _ _ _).bind fun y => Sim.lift _

theorem signPolyFast_sim (h : PSim I J P B C) (x : T) (p : ℕ → T) (sz : Int) :
    Sim I (signPolyFast P x p sz) (signPoly (purePolicies B C) x p sz) :=
  h.scope (signPoly_sim h.unprot x p sz)
end

section
variable {T : Type} [Num T] [Val T] [NumLaws T] {V : Env T} {x t : T} {p : ℕ → T} {c : ℕ → ℝ} {r : ℝ} {y : Itv T}

/-- The value after the coefficients `n-1, ..., k`. -/
def hval (c : ℕ → ℝ) (r : ℝ) (n k : ℕ) : ℝ := ∑ i ∈ Finset.Ico k n, c i * r ^ (i - k)

theorem hval_step {n k : ℕ} (h : k < n) : hval c r n k = hval c r n (k + 1) * r + c k := by
  unfold hval
  rw [Finset.sum_eq_sum_Ico_succ_bot h, Finset.sum_mul, Nat.sub_self, pow_zero, mul_one, add_comm]
  congr 1
  refine Finset.sum_congr rfl fun i hi => ?_
  rw [Finset.mem_Ico] at hi
  rw [show i - k = i - (k + 1) + 1 by omega, pow_succ]
  ring

theorem hval_top (n : ℕ) : hval c r (n + 1) n = c n := by simp [hval]

theorem hval_zero (n : ℕ) : hval c r n 0 = ∑ i ∈ Finset.range n, c i * r ^ i := by
  unfold hval
  rw [Finset.range_eq_Ico]
  exact Finset.sum_congr rfl fun i _ => by rw [Nat.sub_zero]

/-- The loop, with a property of intervals and numbers that both operations keep. -/
theorem polyLoop_post {n : ℕ} {Q : ℝ → Itv T → Prop} {k : ℕ} (hk : k < n)
    (h1 : ∀ j y, j + 1 < n → Q (hval c r n (j + 1)) y → Post True (mulIT V.pp y x) (Q (hval c r n (j + 1) * r)))
    (h2 : ∀ j y, j + 1 < n → Q (hval c r n (j + 1) * r) y →
      Post True (addIT V.pp y (p j)) (Q (hval c r n (j + 1) * r + c j)))
    (hy : Q (hval c r n k) y) : Post True (polyLoop V.pp x p k y) (Q (hval c r n 0)) := by
  induction k generalizing y with
  | zero => exact Post.pure hy
  | succ k ih =>
    refine (h1 k y hk hy).bind fun z hz => (h2 k z hk hz).bind fun y hy => ih (by omega) ?_
    rwa [hval_step (by omega)]

theorem rp_addIT {ex : Prop} (hV : V.Directed) (he : ex → V.Ok Eq Eq) {x : Itv T} {r q : ℝ} (hx : Rp ex r x)
    (ht : val t = some (q : EReal)) : Post True (addIT V.pp x t) (Rp ex (r + q)) := by
  obtain ⟨_, _, ix⟩ := hx.has
  exact rp_of hV he (fun D U hDU h => addIT_post (h.dir hDU).op V.chk ht ix) ⟨r, hx.1, q, rfl, rfl⟩ fun e => by
    rw [hx.2 e, image2_singleton]

/-- An operation whose result is a single representable number. -/
theorem pt_of {op : Res (Itv T)} {v : ℝ} (h : Post True op (Bnd (IsRoundDown T) (IsRoundUp T) {v}))
    (hr : Representable T (v : EReal)) : Post True op fun z => γ z = {v} := by
  refine h.mono fun z hz => ?_
  obtain ⟨l, u, e₁, e₂, k1, k2, k3, k4, k5, k6⟩ := hz
  have hE : E ({v} : Set ℝ) = {(v : EReal)} := by simp [E]
  rw [hE] at k3 k4
  obtain rfl := k3.unique isGLB_singleton
  obtain rfl := k4.unique isLUB_singleton
  have e1 : l = (v : EReal) := le_antisymm k5.2.1 (k5.2.2 _ hr le_rfl)
  have e2 : u = (v : EReal) := le_antisymm (k6.2.2 _ hr le_rfl) k6.2.1
  subst e1 e2
  ext q
  simp only [γ, Set.mem_ofPred_eq, mem_singleton_iff]
  constructor
  · rintro ⟨l, u, g1, g2, g3, g4⟩
    rw [k1] at g1; rw [k2] at g2
    cases g1; cases g2
    exact le_antisymm (EReal.coe_le_coe_iff.1 g4) (EReal.coe_le_coe_iff.1 g3)
  · rintro rfl
    exact ⟨_, _, k1, k2, le_rfl, le_rfl⟩

open scoped Classical in
theorem signY_eq (hy : (γ y).Nonempty) :
    signY V.C y = .ok (if ∀ q ∈ γ y, 0 < q then 1 else if ∀ q ∈ γ y, q < 0 then -1 else 0) := by
  have h0 : val (Num.lit 0 : T) = some ((0 : ℝ) : EReal) := by rw [val_zero]; rfl
  unfold signY
  rw [C32_certain_num V .gt hy h0, C32_certain_num V .lt hy h0]
  have e1 : Always .gt (γ y) {0} ↔ ∀ q ∈ γ y, 0 < q := by simp [Always, Rel.holds]
  have e2 : Always .lt (γ y) {0} ↔ ∀ q ∈ γ y, q < 0 := by simp [Always, Rel.holds]
  by_cases g1 : ∀ q ∈ γ y, 0 < q
  · rw [if_pos g1, decide_eq_true (e1.2 g1)]
    rfl
  · rw [if_neg g1, decide_eq_false (fun h => g1 (e1.1 h))]
    by_cases g2 : ∀ q ∈ γ y, q < 0
    · rw [if_pos g2, decide_eq_true (e2.2 g2)]
      rfl
    · rw [if_neg g2, decide_eq_false (fun h => g2 (e2.1 h))]
      rfl

theorem signY_mem {v : ℝ} (hv : v ∈ γ y) :
    Post True (signY V.C y) fun s => (s = 1 ∧ 0 < v) ∨ (s = -1 ∧ v < 0) ∨ s = 0 := by
  refine Post.of_eq (signY_eq ⟨v, hv⟩) ?_
  split_ifs with h1 h2
  · exact .inl ⟨rfl, h1 v hv⟩
  · exact .inr (.inl ⟨rfl, h2 v hv⟩)
  · exact .inr (.inr rfl)

theorem signY_single {v : ℝ} (hv : γ y = {v}) :
    Post True (signY V.C y) fun s => (s = 1 ∧ 0 < v) ∨ (s = -1 ∧ v < 0) ∨ (s = 0 ∧ v = 0) := by
  refine Post.of_eq (signY_eq ⟨v, by rw [hv]; rfl⟩) ?_
  rw [hv]
  simp only [mem_singleton_iff, forall_eq]
  split_ifs with h1 h2
  · exact .inl ⟨rfl, h1⟩
  · exact .inr (.inl ⟨rfl, h2⟩)
  · exact .inr (.inr ⟨rfl, le_antisymm (not_lt.1 h1) (not_lt.1 h2)⟩)

theorem signPoly_pure {sz : ℕ} (h : 0 < sz) : ∃ n, sz = n + 1 ∧
    signPoly V.pp x p sz = (ctorT V.C (p n) >>= fun y => polyLoop V.pp x p n y >>= fun y => signY V.C y) := by
  obtain ⟨n, rfl⟩ := Nat.exists_eq_succ_of_ne_zero h.ne'
  exact ⟨n, rfl, rfl⟩

theorem signPoly_rp {ex : Prop} (hV : V.Directed) (he : ex → V.Ok Eq Eq) {sz : ℕ} (h : 0 < sz) (hx : val x = some (r : EReal))
    (hp : ∀ i < sz, val (p i) = some (c i : EReal)) :
    Post True (signPoly V.pp x p sz) fun s => (s = 1 ∧ 0 < hval c r sz 0) ∨ (s = -1 ∧ hval c r sz 0 < 0) ∨
      (s = 0 ∧ (ex → hval c r sz 0 = 0)) := by
  obtain ⟨n, rfl, e⟩ := signPoly_pure (V := V) (x := x) (p := p) h
  rw [e]
  refine (rp_ctorT (ex := ex) (hp n (by omega))).bind fun y hy => ?_
  rw [← hval_top (c := c) (r := r) n] at hy
  refine (polyLoop_post (Q := Rp ex) (c := c) (r := r) (n := n + 1) (by omega) (fun j y _ hy => rp_mulIT hV he hy hx)
    (fun j y hj hy => rp_addIT hV he hy (hp j (by omega))) hy).bind fun y hy => ?_
  by_cases hex : ex
  · exact (signY_single (hy.2 hex)).mono fun s hs => hs.imp id (Or.imp id fun h => ⟨h.1, fun _ => h.2⟩)
  · exact (signY_mem hy.1).mono fun s hs => hs.imp id (Or.imp id fun h => ⟨h, fun h => absurd h hex⟩)

theorem signPoly_pt (hV : V.Tight) {sz : ℕ} (h : 0 < sz) (hx : val x = some (r : EReal))
    (hp : ∀ i < sz, val (p i) = some (c i : EReal))
    (h1 : ∀ k < sz, Representable T (hval c r sz k : ℝ)) (h2 : ∀ k < sz, Representable T ((hval c r sz k * r : ℝ) : EReal)) :
    Post True (signPoly V.pp x p sz) fun s => (s = 1 ∧ 0 < hval c r sz 0) ∨ (s = -1 ∧ hval c r sz 0 < 0) ∨
      (s = 0 ∧ hval c r sz 0 = 0) := by
  obtain ⟨n, rfl, e⟩ := signPoly_pure (V := V) (x := x) (p := p) h
  rw [e]
  refine (rp_ctorT (ex := True) (hp n (by omega))).bind fun y hy => ?_
  rw [← hval_top (c := c) (r := r) n] at hy
  have hO := (hV.dir du_tight).op
  refine (polyLoop_post (Q := fun v z => γ z = {v}) (c := c) (r := r) (n := n + 1) (by omega)
    (fun j y hj hy => ?_) (fun j y hj hy => ?_) (hy.2 trivial)).bind fun y hy => signY_single hy
  · obtain ⟨_, _, iy⟩ := has_of_nonempty (x := y) (by rw [hy]; exact singleton_nonempty _)
    have := mulIT_post hO V.chk hx iy
    rw [hy, image2_singleton] at this
    exact pt_of this (h2 _ hj)
  · obtain ⟨_, _, iy⟩ := has_of_nonempty (x := y) (by rw [hy]; exact singleton_nonempty _)
    have := addIT_post hO V.chk (hp j (by omega)) iy
    rw [hy, image2_singleton] at this
    refine pt_of this ?_
    rw [← hval_step (by omega)]
    exact h1 _ (by omega)

/-! ## NaN -/

theorem mulIT_void (hE : V.checks.forbidsEmpty = false) (hN : V.checks.seesNan = true) (h : Void y ∨ val x = none) :
    Post True (mulIT V.pp y x) Void := by
  have ht : testTI V.C x y = .ok true := by
    by_cases hx : val x = none
    · exact testTI_nan V hN hx
    · exact testTI_void V hE (h.resolve_right hx) hx
  obtain ⟨z, hz, hv⟩ := V.emptyI_void hE
  refine Post.of_eq (a := z) ?_ hv
  change (do if ← testTI V.C x y then emptyI V.C else _) = _
  rw [ht]
  exact hz

theorem addIT_void (hE : V.checks.forbidsEmpty = false) (hN : V.checks.seesNan = true) (h : Void y ∨ val x = none) :
    Post True (addIT V.pp y x) Void := by
  have ht : testTI V.C x y = .ok true := by
    by_cases hx : val x = none
    · exact testTI_nan V hN hx
    · exact testTI_void V hE (h.resolve_right hx) hx
  obtain ⟨z, hz, hv⟩ := V.emptyI_void hE
  refine Post.of_eq (a := z) ?_ hv
  change (do if ← testTI V.C x y then emptyI V.C else _) = _
  rw [ht]
  exact hz

theorem polyLoop_void (hE : V.checks.forbidsEmpty = false) (hN : V.checks.seesNan = true) (k : ℕ) (hy : Void y) :
    Post True (polyLoop V.pp x p k y) Void := by
  induction k generalizing y with
  | zero => exact Post.pure hy
  | succ k ih =>
    exact (mulIT_void hE hN (.inl hy)).bind fun z hz => (addIT_void hE hN (.inl hz)).bind fun y hy => ih hy

theorem polyLoop_nanX (hE : V.checks.forbidsEmpty = false) (hN : V.checks.seesNan = true) (k : ℕ) (hx : val x = none) :
    Post True (polyLoop V.pp x p (k + 1) y) Void :=
  (mulIT_void hE hN (.inr hx)).bind fun z hz => (addIT_void hE hN (.inl hz)).bind fun y hy => polyLoop_void hE hN k hy

theorem polyLoop_nanP (hV : V.Directed) (hE : V.checks.forbidsEmpty = false) (hN : V.checks.seesNan = true) {n k j : ℕ} (hj : j < k)
    (hkn : k ≤ n) (hx : val x = some (r : EReal)) (hn : val (p j) = none)
    (hp : ∀ i, j < i → i < n → val (p i) = some (c i : EReal)) (hy : (γ y).Nonempty) :
    Post True (polyLoop V.pp x p k y) Void := by
  induction k generalizing y with
  | zero => omega
  | succ k ih =>
    obtain ⟨v, hv⟩ := hy
    refine (rp_mulIT (ex := False) hV (fun h => h.elim) ⟨hv, fun h => h.elim⟩ hx).bind fun z hz => ?_
    rcases Nat.lt_succ_iff_lt_or_eq.1 hj with h | rfl
    · exact (rp_addIT (ex := False) hV (fun h => h.elim) hz (hp k h (by omega))).bind fun y hy => ih h (by omega) ⟨_, hy.1⟩
    · exact (addIT_void hE hN (.inr hn)).bind fun y hy => polyLoop_void hE hN _ hy

theorem signY_void (hE : V.checks.forbidsEmpty = false) (hy : Void y) : signY V.C y = .error .comparison := by
  have h0 : val (Num.lit 0 : T) = some ((0 : ℝ) : EReal) := by rw [val_zero]; rfl
  unfold signY
  rw [(C32_empty_num V .gt hE hy h0).1]
  rfl

theorem signPoly_nan (hV : V.Directed) (hE : V.checks.forbidsEmpty = false) (hN : V.checks.seesNan = true) {sz j : ℕ} (h : j < sz)
    (hx : val x = some (r : EReal)) (hn : val (p j) = none)
    (hp : ∀ i, j < i → i < sz → val (p i) = some (c i : EReal)) : signPoly V.pp x p sz = .error .comparison := by
  obtain ⟨n, rfl, e⟩ := signPoly_pure (V := V) (x := x) (p := p) (sz := sz) (by omega)
  rw [e]
  have : ∃ y z, ctorT V.C (p n) = .ok y ∧ polyLoop V.pp x p n y = .ok z ∧ Void z := by
    rcases Nat.lt_succ_iff_lt_or_eq.1 h with h | rfl
    · obtain ⟨y, hy, g⟩ := (rp_ctorT (V := V) (ex := False) (hp n h (by omega))).total
      obtain ⟨z, hz, g⟩ := (polyLoop_nanP (n := n + 1) hV hE hN h (by omega) hx hn hp ⟨_, g.1⟩).total
      exact ⟨y, z, hy, hz, g⟩
    · obtain ⟨y, hy, g⟩ := V.emptyI_void hE
      obtain ⟨z, hz, g⟩ := (polyLoop_void (x := x) (p := p) hE hN j g).total
      refine ⟨y, z, ?_, hz, g⟩
      unfold ctorT
      rw [isNan_true V hN hn]
      exact hy
  obtain ⟨y, z, h1, h2, h3⟩ := this
  rw [h1]
  change (polyLoop V.pp x p n y >>= fun y => signY V.C y) = _
  rw [h2]
  exact signY_void hE h3

theorem signPoly_nanX (hE : V.checks.forbidsEmpty = false) (hN : V.checks.seesNan = true) {sz : ℕ} (h : 2 ≤ sz)
    (hx : val x = none) : signPoly V.pp x p sz = .error .comparison := by
  obtain ⟨n, rfl⟩ := Nat.exists_eq_add_of_le h
  have e : signPoly V.pp x p ((2 + n : ℕ) : Int) = (ctorT V.C (p (n + 1)) >>= fun y =>
      polyLoop V.pp x p (n + 1) y >>= fun y => signY V.C y) := by
    rw [show 2 + n = n + 1 + 1 by omega]; rfl
  rw [e]
  have : ∃ y, ctorT V.C (p (n + 1)) = .ok y := by
    obtain ⟨z, hz, _⟩ := V.emptyI_void hE
    unfold ctorT Env.C
    rw [isNan_sees _ _ hN]
    cases Num.hasNaN T && !Num.eq (p (n + 1)) (p (n + 1)) with
    | false => exact ⟨_, rfl⟩
    | true => exact ⟨z, hz⟩
  obtain ⟨y, hy⟩ := this
  obtain ⟨z, hz, g⟩ := (polyLoop_nanX (x := x) (p := p) (y := y) hE hN n hx).total
  rw [hy]
  change (polyLoop V.pp x p (n + 1) y >>= fun y => signY V.C y) = _
  rw [hz]
  exact signY_void hE g
end

section
variable {c : Ctl} {T : Type} [Num T] {p : Price} {P : Policies (M c.counting.W) T}

theorem polyLoop_cost (h : PCost p P) (hp : p.op = 0) (x : T) (q : ℕ → T) (n : ℕ) (y : Itv T) :
    Cost 0 (polyLoop P.unprot x q n y) := by
  induction n generalizing y with
  | zero => exact Cost.pure _
  | succ n ih =>
    have h1 : ∀ x y, Cost 0 (mulIT P.unprot x y) := fun x y => (mulTI_cost h.unprot y x).mono (by simp [Price.unprot, hp])
    have h2 : ∀ x y, Cost 0 (addIT P.unprot x y) := fun x y => (addTI_cost h.unprot y x).mono (by simp [Price.unprot, hp])
    exact (h1 _ _).free fun q => (h2 _ _).free fun y => ih y

theorem signPoly_cost (h : PCost p P) (hp : p.op = 0) (x : T) (q : ℕ → T) (sz : Int) :
    Cost 0 (signPoly P.unprot x q sz) := by
  unfold signPoly
  cases sz.toNat with
  | zero => exact Cost.lift _
  | succ n => exact (Cost.lift _).free fun y => (polyLoop_cost h hp _ _ _ _).free fun y => Cost.lift _

section
variable (lib : Lib T) (C : Checking T) (hC : ∀ a b, C.isEmpty a b = .ok false) (hN : ∀ a, C.isNan a = .ok false)
include hC hN

/-- The opposite trick, protected: two writes for each operation. -/
theorem addIT_spends (y : Itv T) (t : T) : Spends 2 (addIT (protPolicies c.counting .opp lib C) y t) := by
  have e : testTI C t y = .ok false := by unfold testTI; rw [hN, hC]; rfl
  change Spends 2 (do if ← lift (testTI C t y) then _ else _)
  rw [e]
  exact Spends.scope .opp (arithOf c.counting .opp lib) (n := 0)
    (Spends.mk2 (n := 0) (Spends.of_cost (upNeg_cost _)) (Spends.of_cost (Cost.evalIn _)))

theorem mulIT_spends (y : Itv T) (t : T) : Spends 2 (mulIT (protPolicies c.counting .opp lib C) y t) := by
  have e : testTI C t y = .ok false := by unfold testTI; rw [hN, hC]; rfl
  change Spends 2 (do if ← lift (testTI C t y) then _ else _)
  rw [e]
  refine Spends.scope .opp (arithOf c.counting .opp lib) (n := 0) ?_
  split_ifs
  · exact Spends.mk2 (n := 0) (Spends.of_cost (upNeg_cost _)) (Spends.of_cost (Cost.evalIn _))
  · exact Spends.pure _
  · exact Spends.mk2 (n := 0) (Spends.of_cost (upNeg_cost _)) (Spends.of_cost (Cost.evalIn _))

theorem polyLoop_spends (x : T) (q : ℕ → T) (n : ℕ) (y : Itv T) :
    Spends (4 * n) (polyLoop (protPolicies c.counting .opp lib C) x q n y) := by
  induction n generalizing y with
  | zero => exact Spends.pure _
  | succ n ih =>
    rw [show 4 * (n + 1) = 2 + (2 + 4 * n) by omega]
    exact (mulIT_spends lib C hC hN _ _).bind fun z => (addIT_spends lib C hC hN _ _).bind fun y => ih y

theorem signPoly_spends (x : T) (q : ℕ → T) (n : ℕ) :
    Spends (4 * n) (signPoly (protPolicies c.counting .opp lib C) x q ((n + 1 : ℕ) : Int)) := by
  change Spends (4 * n) (lift (ctorT C (q n)) >>= fun y => polyLoop (protPolicies c.counting .opp lib C) x q n y >>=
    fun y => lift (signY C y))
  rw [show 4 * n = 0 + (4 * n + 0) by omega]
  exact (Spends.of_cost (Cost.lift _)).bind fun y => (polyLoop_spends lib C hC hN _ _ _ _).bind fun y =>
    Spends.of_cost (Cost.lift _)
end
end
end BI
