import Verif.Proofs.RootBig
/-! # `nth_root` with the order of evaluation left to the implementation -/

set_option linter.unusedSectionVars false

namespace BI
open Set

/-! ## Simulation up to the kind of exception -/

/-- The same value, or both no value. -/
def OkEq {α : Type} (r t : Res α) : Prop := ∀ x, r = .ok x ↔ t = .ok x

/-- As `Sim`, but for computations that do not return nothing is said about the exception. -/
def WSim {W : Type} (I : Inv W) {α : Type} (a : M W α) (r : Res α) : Prop :=
  ∀ s : St W, I.Pre s.cw → OkEq (a s).1 r ∧ I.Rel s.cw (a s).2.cw ∧ (∀ x, r = .ok x → I.Pre (a s).2.cw)

theorem Sim.weak {W : Type} {I : Inv W} {α : Type} {a : M W α} {r : Res α} (h : Sim I a r) : WSim I a r := fun s hs => by
  obtain ⟨h1, h2, h3⟩ := h s hs
  exact ⟨fun x => by rw [h1], h2, h3⟩

namespace WSim
variable {W : Type} {I : Inv W} {α β : Type}

theorem okEq {a : M W α} {r t : Res α} (h : WSim I a r) (e : OkEq r t) : WSim I a t := fun s hs => by
  obtain ⟨h1, h2, h3⟩ := h s hs
  exact ⟨fun x => (h1 x).trans (e x), h2, fun x hx => h3 x ((e x).2 hx)⟩

theorem bind {a : M W α} {r : Res α} {f : α → M W β} {g : α → Res β} (ha : WSim I a r) (hf : ∀ x, WSim I (f x) (g x)) :
    WSim I (a >>= f) (r >>= g) := by
  intro s h
  obtain ⟨h1, h2, h3⟩ := ha s h
  change OkEq (M.bind a f s).1 _ ∧ I.Rel _ (M.bind a f s).2.cw ∧ (∀ x, _ → I.Pre (M.bind a f s).2.cw)
  unfold M.bind
  rcases hs : a s with ⟨o, s'⟩
  rw [hs] at h1 h2 h3
  dsimp only at h1 h2 h3
  cases o with
  | error e =>
    cases r with
    | ok x => cases (h1 x).2 rfl
    | error e' => exact ⟨fun x => ⟨fun hx => by (cases hx), fun hx => by (cases hx)⟩, h2, fun x hx => by cases hx⟩
  | ok x =>
    obtain rfl := (h1 x).1 rfl
    obtain ⟨k1, k2, k3⟩ := hf x s' (h3 x rfl)
    exact ⟨k1, I.trans _ _ _ h2 k2, k3⟩

theorem ite {c : Prop} [Decidable c] {a b : M W α} {r t : Res α}
    (h1 : c → WSim I a r) (h2 : ¬c → WSim I b t) : WSim I (if c then a else b) (if c then r else t) := by
  by_cases h : c
  · simp only [if_pos h]; exact h1 h
  · simp only [if_neg h]; exact h2 h

theorem choose {a b : M W α} {r : Res α} (ha : WSim I a r) (hb : WSim I b r) : WSim I (M.choose a b) r := by
  intro s h
  unfold M.choose
  by_cases hs : s.sched 0 = true
  · simp only [if_pos hs]; exact ha { s with sched := fun n => s.sched (n + 1) } h
  · simp only [if_neg hs]; exact hb { s with sched := fun n => s.sched (n + 1) } h

theorem pair {a : M W α} {b : M W β} {r : Res α} {t : Res β} (ha : WSim I a r) (hb : WSim I b t) :
    WSim I (BI.pair a b) (r >>= fun x => t >>= fun y => Pure.pure (x, y)) := by
  refine choose (ha.bind fun x => hb.bind fun y => (Sim.pure _).weak) ((hb.bind fun y => ha.bind fun x => (Sim.pure _).weak).okEq ?_)
  intro z
  rcases r with e | x <;> rcases t with e' | y <;>
    first | exact Iff.rfl | exact ⟨fun h => by (cases h), fun h => by (cases h)⟩

/-- In a triple. -/
theorem tri {E : Err → Prop} {a : M W α} {r : Res α} {z : α} (h : WSim I a r) (hr : r = .ok z) : Tri I E a (· = z) := by
  intro s hs
  obtain ⟨h1, h2, h3⟩ := h s hs
  refine ⟨h2, ?_⟩
  rw [(h1 z).2 hr]
  exact ⟨rfl, h3 z hr⟩
end WSim

theorem Tri.choose {W : Type} {J : Inv W} {E : Err → Prop} {α : Type} {a b : M W α} {Q : α → Prop} (ha : Tri J E a Q) (hb : Tri J E b Q) :
    Tri J E (M.choose a b) Q := by
  intro s h
  unfold M.choose
  by_cases hs : s.sched 0 = true
  · simp only [if_pos hs]; exact ha { s with sched := fun n => s.sched (n + 1) } h
  · simp only [if_neg hs]; exact hb { s with sched := fun n => s.sched (n + 1) } h

theorem Tri.pair {W : Type} {J : Inv W} {E : Err → Prop} {α β : Type} {a : M W α} {b : M W β} {Q : α → Prop} {R : β → Prop}
    (ha : Tri J E a Q) (hb : Tri J E b R) : Tri J E (BI.pair a b) fun p => Q p.1 ∧ R p.2 :=
  Tri.choose (ha.bind fun _ hx => hb.bind fun _ hy => Tri.pure ⟨hx, hy⟩) (hb.bind fun _ hy => ha.bind fun _ hx => Tri.pure ⟨hx, hy⟩)

section
variable {W T : Type} [Num T] {I J : Inv W} {P : Policies (M W) T} {B : Arith Res T} {C : Checking T}

/-- Four operations, the first two of which feed the last two. -/
theorem okEq_il {α β γ δ ε : Type} (p : Res α) (f : α → Res β) (q : Res γ) (g : γ → Res δ) (k : β → δ → Res ε) :
    OkEq ((p >>= fun x => q >>= fun y => (Pure.pure (x, y) : Res (α × γ))) >>= fun pq =>
        (f pq.1 >>= fun x => g pq.2 >>= fun y => (Pure.pure (x, y) : Res (β × δ))) >>= fun nd => k nd.1 nd.2)
      (p >>= fun x => f x >>= fun u => q >>= fun y => g y >>= fun v => k u v) := by
  intro z
  rcases p with e | x
  · exact Iff.rfl
  rcases q with e | y
  · change ((.error e : Res ε) = _) ↔ ((f x >>= fun u => (.error e : Res ε)) = _)
    cases f x with
    | error e' => exact ⟨fun h => (by cases h), fun h => (by cases h)⟩
    | ok u => exact Iff.rfl
  change ((f x >>= fun a => g y >>= fun b => (Pure.pure (a, b) : Res (β × δ))) >>= fun nd => k nd.1 nd.2) = _ ↔
    (f x >>= fun u => g y >>= fun v => k u v) = _
  cases f x with
  | error e => exact Iff.rfl
  | ok u =>
    change (g y >>= fun b => (Pure.pure (u, b) : Res (β × δ))) >>= (fun nd => k nd.1 nd.2) = _ ↔ (g y >>= fun v => k u v) = _
    cases g y <;> exact Iff.rfl

theorem okEq_seq {α β γ δ ε : Type} (p : Res α) (f : α → Res β) (q : Res γ) (g : γ → Res δ) (k : β → δ → Res ε) :
    OkEq (((p >>= f) >>= fun x => (q >>= g) >>= fun y => (Pure.pure (x, y) : Res (β × δ))) >>= fun nd => k nd.1 nd.2)
      (p >>= fun x => f x >>= fun u => q >>= fun y => g y >>= fun v => k u v) := by
  intro z
  rcases p with e | x
  · exact Iff.rfl
  change ((f x >>= fun x => (q >>= g) >>= fun y => (Pure.pure (x, y) : Res (β × δ))) >>= fun nd => k nd.1 nd.2) = _ ↔
    (f x >>= fun u => q >>= fun y => g y >>= fun v => k u v) = _
  cases f x with
  | error e => exact Iff.rfl
  | ok u =>
    rcases q with e | y
    · exact Iff.rfl
    · change (g y >>= fun b => (Pure.pure (u, b) : Res (β × δ))) >>= (fun nd => k nd.1 nd.2) = _ ↔ (g y >>= fun v => k u v) = _
      cases g y <;> exact Iff.rfl

theorem rootStepAny_wsim (h : PSim I J P B C) (il : Bool) (tk x : T) (k : Int) (y : Itv T) :
    WSim I (rootStepAny il P tk x k y) (rootStep (purePolicies B C) tk x k y) := by
  have hc := h.chk
  unfold rootStepAny rootStep
  refine (median_sim h _).weak.bind fun y0 => ?_
  let K : Itv T → Itv T → Res (Itv T) := fun num den =>
    divII (purePolicies B C) num den >>= fun d => subTI (purePolicies B C) y0 d >>= fun s => lift (intersect C y s)
  have tail : ∀ num den : Itv T, WSim I (divII P num den >>= fun d => subTI P y0 d >>= fun s => (lift (intersect P.chk y s) : M W (Itv T)))
      (K num den) := by
    intro num den
    rw [hc]
    exact (divII_sim h _ _).weak.bind fun d => (subTI_sim h _ _).weak.bind fun s => (Sim.lift _).weak
  cases il with
  | true =>
    rw [if_pos rfl]
    exact (((powI_sim h _ _).weak.pair (powI_sim h _ _).weak).bind fun pq =>
      ((subIT_sim h _ _).weak.pair (mulTI_sim h _ _).weak).bind fun nd => tail nd.1 nd.2).okEq (okEq_il (powI (purePolicies B C) ⟨y0, y0⟩ k)
      (fun p => subIT (purePolicies B C) p x) (powI (purePolicies B C) y (k - 1)) (fun q => mulTI (purePolicies B C) tk q) K)
  | false =>
    rw [if_neg (by decide)]
    exact ((((powI_sim h _ _).bind fun p => subIT_sim h _ _).weak.pair ((powI_sim h _ _).bind fun q => mulTI_sim h _ _).weak).bind
      fun nd => tail nd.1 nd.2).okEq (okEq_seq (powI (purePolicies B C) ⟨y0, y0⟩ k) (fun p => subIT (purePolicies B C) p x)
      (powI (purePolicies B C) y (k - 1)) (fun q => mulTI (purePolicies B C) tk q) K)

theorem rootLoopAny_wsim (h : PSim I J P B C) (il : Bool) (tk x : T) (k : Int) (fuel : Nat) (y : Itv T) :
    WSim I (rootLoopAny il P tk x k fuel y) (rootLoop (purePolicies B C) tk x k fuel y) := by
  induction fuel generalizing y with
  | zero => exact (Sim.lift _).weak
  | succ n ih =>
    unfold rootLoopAny rootLoop
    refine (rootStepAny_wsim h il _ _ _ _).bind fun yy => ?_
    rw [h.chk]
    exact (Sim.lift _).weak.bind fun b => WSim.ite (fun _ => (Sim.pure _).weak) fun _ => ih _

variable (il : Bool) (hsc : ∀ {α : Type} (a : M W α), P.rnd.scope a = a) (fuel : Nat) (k : Int)
  (hk : ∀ r r', (Num.ofInt r k : Option T) = Num.ofInt r' k)
include hk

theorem rootAuxAny_wsim (h : PSim I J P B C) (x : T) : WSim I (rootAuxAny il P fuel x k) (rootAux (purePolicies B C) fuel x k) :=
  (h.cur' _ hk).weak.bind fun tk => rootLoopAny_wsim h il tk x k fuel _

include hsc

theorem rootAuxDnAny_wsim (h : PSim J J P B C) (x : T) : WSim J (rootAuxDnAny il P fuel x k) (rootAuxDn (purePolicies B C) fuel x k) := by
  unfold rootAuxDnAny rootAuxDn
  rw [hsc]
  exact WSim.ite (fun _ => (rootAuxAny_wsim il fuel k hk h _).bind fun _ => (Sim.pure _).weak) fun _ =>
    WSim.ite (fun _ => (Sim.pure _).weak) fun _ => (h.rnd.s_divUp _ _).weak.bind fun _ =>
      (rootAuxAny_wsim il fuel k hk h _).bind fun _ => (h.rnd.s_divDown _ _).weak

theorem rootAuxUpAny_wsim (h : PSim J J P B C) (x : T) : WSim J (rootAuxUpAny il P fuel x k) (rootAuxUp (purePolicies B C) fuel x k) := by
  unfold rootAuxUpAny rootAuxUp
  rw [hsc]
  exact WSim.ite (fun _ => (rootAuxAny_wsim il fuel k hk h _).bind fun _ => (Sim.pure _).weak) fun _ =>
    WSim.ite (fun _ => (Sim.pure _).weak) fun _ => (h.rnd.s_divDown _ _).weak.bind fun _ =>
      (rootAuxAny_wsim il fuel k hk h _).bind fun _ => (h.rnd.s_divUp _ _).weak

omit hsc in
theorem nthRootAny_wsim (h : PSim I J P B C) (hsc : ∀ {α : Type} (a : M W α), P.unprot.rnd.scope a = a) (nd : Bool) (x : Itv T) :
    WSim J (nthRootAny il P nd fuel x k) (nthRoot (purePolicies B C) nd fuel x k) := by
  have h1 := fun v => rootAuxUpAny_wsim il hsc fuel k hk h.unprot v
  have h2 := fun v => rootAuxDnAny_wsim il hsc fuel k hk h.unprot v
  have hn : ∀ t : T, WSim J (negM t : M W T) (negM t) := fun t => (Sim.lift _).weak
  have hp : ∀ {α : Type} (a : α), WSim J (Pure.pure a : M W α) (Pure.pure a) := fun a => (Sim.pure a).weak
  obtain rfl := h.chk
  unfold nthRootAny nthRoot
  refine (Sim.lift _).weak.bind fun b => WSim.ite (fun _ => (Sim.lift _).weak) fun _ => (Sim.lift _).weak.bind fun _ =>
    WSim.ite (fun _ => hp _) fun _ => WSim.ite (fun _ => WSim.ite (fun _ => WSim.ite (fun _ => hp _) fun _ => ?_) fun _ =>
      WSim.ite (fun _ => (Sim.lift _).weak) fun _ => ?_) fun _ => ?_
  · exact (hn _).bind fun _ => (h1 _).bind fun _ => (hn _).bind fun _ => hp _
  · refine ((((hn _).bind fun nl => (h1 nl).bind fun r => hn r).pair ((hn _).bind fun nu => (h2 nu).bind fun r => hn r)).bind
      fun lu => hp (⟨lu.1, lu.2⟩ : Itv T)).okEq fun z => ?_
    generalize (negM x.lower : Res T) = n1
    generalize (negM x.upper : Res T) = n2
    rcases n1 with e | nl
    · exact Iff.rfl
    change ((((rootAuxUp (purePolicies B P.chk) fuel nl k >>= fun r => negM r) >>= _) >>= _) = _) ↔
      ((rootAuxUp (purePolicies B P.chk) fuel nl k >>= _) = _)
    generalize rootAuxUp (purePolicies B P.chk) fuel nl k = r1
    rcases r1 with e | r1
    · exact Iff.rfl
    change ((((negM r1 : Res T) >>= _) >>= _) = _) ↔ (((negM r1 : Res T) >>= _) = _)
    generalize (negM r1 : Res T) = l
    rcases l with e | l
    · exact Iff.rfl
    rcases n2 with e | nu
    · exact Iff.rfl
    change ((((rootAuxDn (purePolicies B P.chk) fuel nu k >>= fun r => negM r) >>= _) >>= _) = _) ↔
      ((rootAuxDn (purePolicies B P.chk) fuel nu k >>= _) = _)
    generalize rootAuxDn (purePolicies B P.chk) fuel nu k = r2
    rcases r2 with e | r2
    · exact Iff.rfl
    change ((((negM r2 : Res T) >>= _) >>= _) = _) ↔ (((negM r2 : Res T) >>= _) = _)
    generalize (negM r2 : Res T) = u
    rcases u with e | u <;> exact Iff.rfl
  · refine (h1 _).bind fun u => WSim.ite (fun _ => WSim.ite (fun _ => hp _) fun _ => ?_) fun _ => ?_
    · exact (hn _).bind fun _ => (h1 _).bind fun _ => (hn _).bind fun _ => hp _
    · exact (h2 _).bind fun _ => hp _
end

section
variable {T : Type} [Num T] [Val T] [NumLaws T] {V : Env T} {n : ℕ} {x : T} {X s : ℝ}

theorem rootAuxAny_tri (il : Bool) (hk : V.kind ≠ .exact) (hV : V.Tight) (hI : InfBase T) (hM : MidOk T) (hF : Discrete T) (hn : 2 ≤ n)
    (hi : IdxFor T n) (hx : val x = some (X : EReal)) (h1 : 1 ≤ X) (hs : 0 ≤ s) (hX : s ^ n = X) :
    ∃ N, ∀ fuel > N, TriIn V (rootAuxAny il V.P.unprot fuel x (n : ℤ)) fun z => ∃ l u, Fin2 z l u ∧ 1 ≤ l ∧ l ≤ s ∧ s ≤ u := by
  have hs1 : 1 ≤ s := by
    by_contra hc
    have := pow_lt_one₀ hs (not_le.1 hc) (by omega : n ≠ 0)
    linarith
  have hy : Fin2 (⟨Num.lit 1, x⟩ : Itv T) 1 X := ⟨val_one, hx⟩
  have hsX : s ≤ X := by rw [← hX]; exact le_self_pow₀ hs1 (by omega)
  refine ⟨(hF 1 X).toFinset.card, fun fuel hf => ?_⟩
  unfold rootAuxAny
  rw [cur_unprot]
  refine (tri_cur (V := V) (Q := fun t => ∃ κ : ℝ, val t = some (κ : EReal) ∧ IdxOk T n κ) fun r => ?_).bind fun t ⟨κ, h2, h3⟩ => ?_
  · obtain ⟨t, κ, h2, h3, h4⟩ := hi r
    exact ⟨t, h2, κ, h3, h4⟩
  · obtain ⟨z, h, l, u, hz, h4, h5, h6, -⟩ := rootLoop_ok hV hI hM hF hn hx h2 h3 hX _ _ 1 X hy le_rfl hs1 hsX le_rfl le_rfl
    refine (WSim.tri (rootLoopAny_wsim (V.simU hk) il _ _ _ _ _) (h fuel hf)).mono ?_
    rintro _ rfl
    exact ⟨l, u, hz, h4, h5, h6⟩

/-- The iteration started from an infinite number stops with `[1, +∞]`. -/
def TopTriAny (V : Env T) (il : Bool) (n : ℕ) : Prop := ∀ (t : T) (fuel : ℕ), val t = some (⊤ : EReal) →
  TriIn V (rootAuxAny il V.P.unprot (fuel + 1) t (n : ℤ)) (· = ⟨Num.lit 1, t⟩)

theorem rootAuxUpAny_tri (il : Bool) (hk : V.kind ≠ .exact) (hV : V.Tight) (hI : InfBase T) (hM : MidOk T) (hF : Discrete T) (hn : 2 ≤ n)
    (hi : IdxFor T n) {X : EReal} (hx : val x = some X) (h0 : 0 < X) (ht : X ≠ ⊤ ∨ TopTriAny V il n) :
    ∃ N, ∀ fuel > N, TriIn V (rootAuxUpAny il V.P.unprot fuel x (n : ℤ)) fun c => ∃ z : EReal, val c = some z ∧
      ∀ s : ℝ, 0 ≤ s → ((s ^ n : ℝ) : EReal) ≤ X → (s : EReal) ≤ z := by
  have n0 : n ≠ 0 := by omega
  have hU := V.simU hk
  by_cases hX : X = ⊤
  · subst hX
    refine ⟨0, fun fuel hf => ?_⟩
    obtain ⟨fuel, rfl⟩ : ∃ k, fuel = k + 1 := ⟨fuel - 1, by omega⟩
    unfold rootAuxUpAny
    rw [scope_unprot hk, show Num.lt (Num.lit 1) x = true by rw [lt_eq val_one hx]; exact decide_eq_true (EReal.coe_lt_top 1), if_pos rfl]
    refine (ht.resolve_left (by simp) x fuel hx).bind ?_
    rintro _ rfl
    exact Tri.pure ⟨⊤, hx, fun s _ _ => le_top⟩
  have hb : X ≠ ⊥ := fun h => by rw [h] at h0; cases (not_lt_bot h0)
  lift X to ℝ using ⟨hX, hb⟩
  have h0 : 0 < X := by exact_mod_cast h0
  suffices h : ∃ N, ∀ fuel > N, TriIn V (rootAuxUpAny il V.P.unprot fuel x (n : ℤ)) fun c => ∃ z : ℝ, val c = some (z : EReal) ∧
      ∀ s : ℝ, 0 ≤ s → s ^ n ≤ X → s ≤ z by
    obtain ⟨N, h⟩ := h
    exact ⟨N, fun fuel hf => (h fuel hf).mono fun c ⟨z, h1, h2⟩ =>
      ⟨z, h1, fun s h3 h4 => by exact_mod_cast h2 s h3 (by exact_mod_cast h4)⟩⟩
  unfold rootAuxUpAny
  simp only [scope_unprot hk, num_lt_one hx, num_eq_one hx, decide_eq_true_eq]
  by_cases h1 : 1 < X
  · simp only [h1, if_true]
    obtain ⟨s, hs, hsX⟩ := exists_root hn h0.le
    obtain ⟨N, h⟩ := rootAuxAny_tri il hk hV hI hM hF hn hi hx h1.le hs hsX
    refine ⟨N, fun fuel hf => (h fuel hf).bind fun y ⟨l, u, hy, k1, k2, k3⟩ => Tri.pure ⟨u, hy.2, fun t ht htX => ?_⟩⟩
    rw [← hsX] at htX
    exact ((pow_le_pow_iff_left₀ ht hs n0).1 htX).trans k3
  · simp only [h1, if_false]
    by_cases h2 : X = 1
    · simp only [h2, if_true]
      exact ⟨0, fun fuel hf => Tri.pure ⟨1, val_one, fun t ht htX => (pow_le_one_iff_of_nonneg ht n0).1 htX⟩⟩
    · simp only [h2, if_false]
      have h3 : X < 1 := lt_of_le_of_ne (not_lt.1 h1) h2
      have h4 : 1 ≤ 1 / X := by rw [le_div_iff₀ h0]; linarith
      obtain ⟨c, hc, v, hv, k1, k2⟩ := div_one_down (V := V) hV hx h0 rep_one h4
      obtain ⟨s, hs, hsv⟩ := exists_root hn (by linarith : (0 : ℝ) ≤ v)
      obtain ⟨N, h⟩ := rootAuxAny_tri il hk hV hI hM hF hn hi hv k1 hs hsv
      refine ⟨N, fun fuel hf => (TriIn.of_ok (hU.rnd.s_divDown _ _) hc).bind ?_⟩
      rintro _ rfl
      refine (h fuel hf).bind fun y ⟨l, u, hy, k3, k4, k5⟩ => ?_
      obtain ⟨d, hd, z, hz, k6, -⟩ := div_one_up (V := V) hV hy.1 (by linarith) rep_one (by
        rw [div_le_iff₀ (by linarith)]; linarith)
      refine (TriIn.of_ok (hU.rnd.s_divUp _ _) hd).mono ?_
      rintro _ rfl
      refine ⟨z, hz, fun t ht htX => le_trans ?_ k6⟩
      have s0 : 0 < s := by linarith
      refine le_trans ?_ (one_div_le_one_div_of_le (by linarith) k4)
      rw [← pow_le_pow_iff_left₀ ht (by positivity) n0, one_div, inv_pow, hsv]
      refine htX.trans ?_
      rw [le_inv_comm₀ h0 (by linarith), ← one_div]
      exact k2

theorem rootAuxDnAny_tri (il : Bool) (hk : V.kind ≠ .exact) (hV : V.Tight) (hI : InfBase T) (hM : MidOk T) (hF : Discrete T) (hn : 2 ≤ n)
    (hi : IdxFor T n) (hx : val x = some (X : EReal)) (h0 : 0 < X)
    (ht : (∃ m : ℝ, Representable T (m : EReal) ∧ 1 / X ≤ m) ∨ TopTriAny V il n) :
    ∃ N, ∀ fuel > N, TriIn V (rootAuxDnAny il V.P.unprot fuel x (n : ℤ)) fun c => ∃ z : ℝ, val c = some (z : EReal) ∧
      ∀ s : ℝ, 0 ≤ s → X ≤ s ^ n → z ≤ s := by
  have n0 : n ≠ 0 := by omega
  have hU := V.simU hk
  unfold rootAuxDnAny
  simp only [scope_unprot hk, num_lt_one hx, num_eq_one hx, decide_eq_true_eq]
  by_cases h1 : 1 < X
  · simp only [h1, if_true]
    obtain ⟨s, hs, hsX⟩ := exists_root hn h0.le
    obtain ⟨N, h⟩ := rootAuxAny_tri il hk hV hI hM hF hn hi hx h1.le hs hsX
    refine ⟨N, fun fuel hf => (h fuel hf).bind fun y ⟨l, u, hy, k1, k2, k3⟩ => Tri.pure ⟨l, hy.1, fun t ht htX => ?_⟩⟩
    rw [← hsX] at htX
    exact k2.trans ((pow_le_pow_iff_left₀ hs ht n0).1 htX)
  simp only [h1, if_false]
  by_cases h2 : X = 1
  · subst h2
    simp only [if_true]
    exact ⟨0, fun fuel hf => Tri.pure ⟨1, val_one, fun t ht htX => (one_le_pow_iff_of_nonneg ht n0).1 htX⟩⟩
  simp only [h2, if_false]
  have h3 : X < 1 := lt_of_le_of_ne (not_lt.1 h1) h2
  have h4 : 1 ≤ 1 / X := by rw [le_div_iff₀ h0]; linarith
  by_cases hm : ∃ m : ℝ, Representable T (m : EReal) ∧ 1 / X ≤ m
  · obtain ⟨m, hm, hm'⟩ := hm
    obtain ⟨c, hc, v, hv, k1, k2⟩ := div_one_up (V := V) hV hx h0 hm hm'
    obtain ⟨s, hs, hsv⟩ := exists_root hn (by linarith : (0 : ℝ) ≤ v)
    obtain ⟨N, h⟩ := rootAuxAny_tri il hk hV hI hM hF hn hi hv (h4.trans k1) hs hsv
    refine ⟨N, fun fuel hf => (TriIn.of_ok (hU.rnd.s_divUp _ _) hc).bind ?_⟩
    rintro _ rfl
    refine (h fuel hf).bind fun y ⟨l, u, hy, k3, k4, k5⟩ => ?_
    have u0 : 0 < u := by linarith
    obtain ⟨d, hd, z, hz, -, k6⟩ := div_one_down (V := V) hV hy.2 u0 (m := 0) ⟨Num.lit 0, val_zero⟩ (by positivity)
    refine (TriIn.of_ok (hU.rnd.s_divDown _ _) hd).mono ?_
    rintro _ rfl
    refine ⟨z, hz, fun t ht htX => k6.trans ?_⟩
    have s0 : 0 < s := by linarith
    refine (one_div_le_one_div_of_le s0 k5).trans ?_
    rw [← pow_le_pow_iff_left₀ (by positivity) ht n0, one_div, inv_pow, hsv]
    refine le_trans ?_ htX
    rw [inv_le_comm₀ (by linarith) h0, ← one_div]
    exact k1
  · have ht := ht.resolve_left hm
    have h0' : (X : EReal) ≠ 0 := by exact_mod_cast h0.ne'
    obtain ⟨v, h2, z, h3, h4⟩ := ((hV.div du_tight).divUp (Num.lit 1) x _ _ val_one hx ⟨h0', .inl ⟨by decide, by decide⟩⟩).total
    have e : (1 : EReal) / X = ((1 / X : ℝ) : EReal) := by rw [EReal.coe_div]; rfl
    rw [e] at h4
    have hz : z = ⊤ := by
      by_contra hz
      have k1 := h4.2.1
      have z2 : z ≠ ⊥ := fun h => by rw [h] at k1; exact absurd (le_bot_iff.1 k1) (EReal.coe_ne_bot _)
      lift z to ℝ using ⟨hz, z2⟩
      exact hm ⟨z, ⟨v, h3⟩, by exact_mod_cast k1⟩
    subst hz
    obtain ⟨d, h5, w, h6, h7⟩ := ((hV.div du_tight).divDown (Num.lit 1) v _ _ val_one h3
      ⟨by simp, .inl ⟨by decide, by decide⟩⟩).total
    have hw : w = 0 := by
      rw [EReal.div_top] at h7
      exact le_antisymm h7.2.1 (h7.2.2 0 ⟨Num.lit 0, val_zero⟩ le_rfl)
    subst hw
    refine ⟨0, fun fuel hf => (TriIn.of_ok (hU.rnd.s_divUp _ _) h2).bind ?_⟩
    obtain ⟨fuel, rfl⟩ : ∃ k, fuel = k + 1 := ⟨fuel - 1, by omega⟩
    rintro _ rfl
    refine (ht _ fuel h3).bind ?_
    rintro _ rfl
    refine (TriIn.of_ok (hU.rnd.s_divDown _ _) h5).mono ?_
    rintro _ rfl
    exact ⟨0, h6, fun s hs _ => hs⟩

theorem nthRootAny_tri (il : Bool) (hk : V.kind ≠ .exact) (hV : V.Tight) (hI : InfBase T) (hM : MidOk T) (hF : Discrete T) (hn : 1 ≤ n)
    (hi : IdxFor T n) {x : Itv T} {a b : EReal} (hx : Has x a b)
    (ht : (b ≠ ⊤ ∧ (a ≠ ⊥ ∨ Even n) ∧
      ∀ r : ℝ, 0 < r → a = r ∨ (b = -r ∧ Odd n) → ∃ m : ℝ, Representable T (m : EReal) ∧ 1 / r ≤ m) ∨ TopTriAny V il n)
    (he : 0 ≤ b ∨ Odd n) (nd : Bool) (P : Policies (M V.ctl.W) T) (hP1 : P.chk = V.C) (hP2 : P.unprot = V.P.unprot) :
    ∃ N, ∀ fuel > N, TriIn V (nthRootAny il P nd fuel x (n : ℤ)) (RootOut n (γ x)) := by
  have hb' := hx.ne_bot
  have ha' := hx.ne_top
  have hassert : assertRes nd (decide (0 < (n : ℤ))) = .ok () := by
    rw [decide_eq_true (by omega)]
    cases nd <;> rfl
  have hpar : (decide ((n : ℤ) % 2 = 0)) = decide (Even n) := by
    congr 1
    rw [Nat.even_iff]
    exact propext (by omega)
  have start : (∃ N, ∀ fuel > N, TriIn V (if (n : ℤ) = 1 then pure x
    else if !decide (0 < b) then
      if decide (b = 0) then
        if decide (Even n) || decide (a = 0) then pure ⟨Num.lit 0, Num.lit 0⟩
        else do
          let nl ← negM x.lower
          let r ← rootAuxUpAny il V.P.unprot fuel nl n
          let l ← negM r
          pure ⟨l, Num.lit 0⟩
      else if (n : ℤ) % 2 = 0 then lift (emptyI V.C)
      else do
        let lu ← pair (do let nl ← negM x.lower; let r ← rootAuxUpAny il V.P.unprot fuel nl n; negM r)
          (do let nu ← negM x.upper; let r ← rootAuxDnAny il V.P.unprot fuel nu n; negM r)
        pure ⟨lu.1, lu.2⟩
    else do
      let u ← rootAuxUpAny il V.P.unprot fuel x.upper n
      if !decide (0 < a) then
        if decide (Even n) || decide (a = 0) then pure ⟨Num.lit 0, u⟩
        else do
          let nl ← negM x.lower
          let r ← rootAuxUpAny il V.P.unprot fuel nl n
          let l ← negM r
          pure ⟨l, u⟩
      else do
        let l ← rootAuxDnAny il V.P.unprot fuel x.lower n
        pure ⟨l, u⟩ : M V.ctl.W (Itv T)) (RootOut n (γ x))) →
      ∃ N, ∀ fuel > N, TriIn V (nthRootAny il P nd fuel x (n : ℤ)) (RootOut n (γ x)) := by
    rintro ⟨N, h⟩
    refine ⟨N, fun fuel hf => ?_⟩
    unfold nthRootAny
    rw [hP1, hP2]
    refine (Tri.lift (r := testI V.C x) (Q := (· = false)) (by rw [hx.test V.chk]; exact rfl)).bind ?_
    rintro _ rfl
    rw [if_neg (by simp), hassert]
    refine (Tri.lift (r := (.ok () : Res Unit)) (Q := fun _ => True) trivial).bind fun _ _ => ?_
    simp only [isPos_eq hx.up, isPos_eq hx.lo, isZero_eq hx.up, isZero_eq hx.lo, hpar]
    exact h fuel hf
  refine start ?_
  by_cases hn1 : n = 1
  · subst hn1
    exact ⟨0, fun fuel hf => Tri.pure fun s _ h => by rwa [pow_one] at h⟩
  have hn2 : 2 ≤ n := by omega
  have n0 : n ≠ 0 := by omega
  have hn1' : (n : ℤ) ≠ 1 := by omega
  simp only [hn1', if_false]
  -- lower bounds of negative roots
  have lower : a < 0 → Odd n → ∃ N, ∀ fuel > N, TriIn V (do
        let nl ← negM x.lower
        let r ← rootAuxUpAny il V.P.unprot fuel nl (n : ℤ)
        negM r) fun l => ∃ z : EReal, val l = some z ∧ ∀ s : ℝ, a ≤ ((s ^ n : ℝ) : EReal) → z ≤ (s : EReal) := by
    intro h0 ho
    obtain ⟨nl, h1, h2⟩ := neg_num hV hx.lo
    obtain ⟨N, h3⟩ := rootAuxUpAny_tri il hk hV hI hM hF hn2 hi h2 (EReal.neg_pos.2 h0) (by
      rcases ht with ht | ht
      · refine .inl fun h => ?_
        have := ht.2.1.resolve_right (Nat.not_even_iff_odd.2 ho)
        exact this (EReal.neg_eq_top_iff.1 h)
      · exact .inr ht)
    refine ⟨N, fun fuel hf => ?_⟩
    have h1' : ofOpt (Num.neg x.lower) = .ok nl := h1
    refine (Tri.lift (r := ofOpt (Num.neg x.lower)) (Q := (· = nl)) (by rw [h1']; exact rfl)).bind ?_
    rintro _ rfl
    refine (h3 fuel hf).bind fun c ⟨z, h4, h5⟩ => (negM_tri hV h4).mono fun l h7 => ⟨-z, h7, fun s hs => ?_⟩
    rw [EReal.neg_le]
    rcases le_total 0 s with hs0 | hs0
    · have h8 := h5 0 le_rfl (by rw [zero_pow n0]; exact (EReal.neg_pos.2 h0).le)
      refine le_trans ?_ h8
      exact_mod_cast neg_nonpos.2 hs0
    · have := h5 (-s) (by linarith) (by rw [ho.neg_pow]; push_cast; rw [EReal.neg_le_neg_iff]; exact_mod_cast hs)
      exact_mod_cast this
  have chain : ∀ {fuel : ℕ} {g : T → M V.ctl.W (Itv T)} {Q : T → Prop} {R : Itv T → Prop}, TriIn V (do
        let nl ← negM x.lower
        let r ← rootAuxUpAny il V.P.unprot fuel nl (n : ℤ)
        negM r) Q → (∀ l, Q l → TriIn V (g l) R) → TriIn V (do
        let nl ← negM x.lower
        let r ← rootAuxUpAny il V.P.unprot fuel nl (n : ℤ)
        let l ← negM r
        g l) R := by
    intro fuel g Q R h hg
    have := h.bind hg
    rw [M.bind_assoc] at this
    simp only [M.bind_assoc] at this
    exact this
  by_cases h0 : (0 : EReal) < b
  · simp only [h0, decide_true, Bool.not_true, Bool.false_eq_true, if_false]
    obtain ⟨N, h1⟩ := rootAuxUpAny_tri il hk hV hI hM hF hn2 hi hx.up h0 (ht.imp_left And.left)
    have upper : ∀ q : EReal, (∀ s : ℝ, 0 ≤ s → ((s ^ n : ℝ) : EReal) ≤ b → (s : EReal) ≤ q) →
        ∀ s : ℝ, s ^ n ∈ γ x → (s : EReal) ≤ q := by
      intro q h2 s hs
      rcases le_total 0 s with hs0 | hs0
      · exact h2 s hs0 (hx.ub hs)
      · refine le_trans (by exact_mod_cast hs0 : (s : EReal) ≤ (0 : ℝ)) (h2 0 le_rfl (by rw [zero_pow n0]; exact h0.le))
    by_cases h3 : (0 : EReal) < a
    · have : a ≠ ⊥ := fun h => by rw [h] at h3; cases (not_lt_bot h3)
      lift a to ℝ using ⟨ha', this⟩
      have h3' : 0 < a := by exact_mod_cast h3
      simp only [h3, decide_true, Bool.not_true, Bool.false_eq_true, if_false]
      obtain ⟨N', k1⟩ := rootAuxDnAny_tri il hk hV hI hM hF hn2 hi hx.lo h3' (ht.imp_left fun ht => ht.2.2 a h3' (.inl rfl))
      refine ⟨max N N', fun fuel hf => (h1 fuel (lt_of_le_of_lt (le_max_left _ _) hf)).bind fun u ⟨q, hq, h2⟩ =>
        (k1 fuel (lt_of_le_of_lt (le_max_right _ _) hf)).bind fun l ⟨p, hp, k2⟩ => Tri.pure fun s hs hsx =>
          ⟨p, q, hp, hq, ?_, upper q h2 s hsx⟩⟩
      have hsx' : a ≤ s ^ n := by exact_mod_cast hx.lb hsx
      have hs0 : 0 ≤ s := by
        rcases hs with ho | hs
        · by_contra hc
          have := ho.pow_neg (not_le.1 hc)
          linarith
        · exact hs
      exact_mod_cast k2 s hs0 hsx'
    · simp only [h3, decide_false, Bool.not_false, if_true]
      by_cases h4 : Even n ∨ a = 0
      · simp only [show (decide (Even n) || decide (a = 0)) = true by simpa using h4, if_true]
        refine ⟨N, fun fuel hf => (h1 fuel hf).bind fun u ⟨q, hq, h2⟩ => Tri.pure fun s hs hsx => ?_⟩
        refine ⟨0, q, val_zero, hq, ?_, upper q h2 s hsx⟩
        have hs0 : 0 ≤ s := by
          rcases hs with ho | hs
          · have h5 : a = 0 := h4.resolve_left (Nat.not_even_iff_odd.2 ho)
            by_contra hc
            have h6 := ho.pow_neg (not_le.1 hc)
            have h7 : (a : EReal) ≤ ((s ^ n : ℝ) : EReal) := hx.lb hsx
            rw [h5] at h7
            exact absurd (by exact_mod_cast h7 : 0 ≤ s ^ n) (not_le.2 h6)
          · exact hs
        exact_mod_cast hs0
      · simp only [show (decide (Even n) || decide (a = 0)) = false by simpa using h4, Bool.false_eq_true, if_false]
        push Not at h4
        have hp0 : a < 0 := lt_of_le_of_ne (not_lt.1 h3) h4.2
        obtain ⟨N', k1⟩ := lower hp0 (Nat.not_even_iff_odd.1 (by simpa using h4.1))
        exact ⟨max N N', fun fuel hf => (h1 fuel (lt_of_le_of_lt (le_max_left _ _) hf)).bind fun u ⟨q, hq, h2⟩ =>
          chain (k1 fuel (lt_of_le_of_lt (le_max_right _ _) hf)) fun l ⟨z, hz, k3⟩ =>
            Tri.pure fun s hs hsx => ⟨z, q, hz, hq, k3 s (hx.lb hsx), upper q h2 s hsx⟩⟩
  · simp only [h0, decide_false, Bool.not_false, if_true]
    have hb : b ≠ ⊤ := fun h => by rw [h] at h0; exact h0 (by simp)
    lift b to ℝ using ⟨hb, hb'⟩
    have h0' : b ≤ 0 := not_lt.1 fun h => h0 (by exact_mod_cast h)
    by_cases hb0 : b = 0
    · subst hb0
      simp only [EReal.coe_zero, decide_true, if_true]
      by_cases h4 : Even n ∨ a = 0
      · simp only [show (decide (Even n) || decide (a = 0)) = true by simpa using h4, if_true]
        refine ⟨0, fun fuel hf => Tri.pure fun s hs hsx => ?_⟩
        have h5 : s ^ n ≤ 0 := by exact_mod_cast hx.ub hsx
        have hs0 : s = 0 := by
          rcases hs with ho | hs
          · have h6 : a = 0 := h4.resolve_left (Nat.not_even_iff_odd.2 ho)
            have h7 : (a : EReal) ≤ ((s ^ n : ℝ) : EReal) := hx.lb hsx
            rw [h6] at h7
            have h8 : 0 ≤ s ^ n := by exact_mod_cast h7
            exact pow_eq_zero_iff n0 |>.1 (le_antisymm h5 h8)
          · exact pow_eq_zero_iff n0 |>.1 (le_antisymm h5 (by positivity))
        exact ⟨0, 0, val_zero, val_zero, by rw [hs0]; exact le_rfl, by rw [hs0]; exact le_rfl⟩
      · simp only [show (decide (Even n) || decide (a = 0)) = false by simpa using h4, Bool.false_eq_true, if_false]
        push Not at h4
        have ho := Nat.not_even_iff_odd.1 (by simpa using h4.1)
        have hp0 : a < 0 := lt_of_le_of_ne hx.le h4.2
        obtain ⟨N', k1⟩ := lower hp0 ho
        refine ⟨N', fun fuel hf => chain (k1 fuel hf) fun l ⟨z, hz, k3⟩ => Tri.pure fun s hs hsx =>
          ⟨z, 0, hz, val_zero, k3 s (hx.lb hsx), ?_⟩⟩
        have h5 : s ^ n ≤ 0 := by exact_mod_cast hx.ub hsx
        have : s ≤ 0 := by
          by_contra hc
          have := pow_pos (not_le.1 hc) n
          linarith
        exact_mod_cast this
    · have hb1 : b < 0 := lt_of_le_of_ne h0' hb0
      have ho : Odd n := he.resolve_left (not_le.2 (by exact_mod_cast hb1))
      have hne : ¬ Even n := Nat.not_even_iff_odd.2 ho
      have hb0' : (b : EReal) ≠ 0 := by exact_mod_cast hb0
      have hne' : ¬ (n : ℤ) % 2 = 0 := fun h => hne (Nat.even_iff.2 (by omega))
      simp only [hb0', decide_false, Bool.false_eq_true, if_false, hne']
      have hp0 : a < 0 := lt_of_le_of_lt hx.le (by exact_mod_cast hb1)
      obtain ⟨N, k1⟩ := lower hp0 ho
      obtain ⟨nu, j1, j2⟩ := neg_num hV hx.up
      have j1' : ofOpt (Num.neg x.upper) = .ok nu := j1
      rw [← EReal.coe_neg] at j2
      obtain ⟨N', j3⟩ := rootAuxDnAny_tri il hk hV hI hM hF hn2 hi j2 (by linarith)
        (ht.imp_left fun ht => ht.2.2 (-b) (by linarith) (.inr ⟨by simp, ho⟩))
      refine ⟨max N N', fun fuel hf => ?_⟩
      have t1 := k1 fuel (lt_of_le_of_lt (le_max_left _ _) hf)
      have t2 : TriIn V (do let nu ← negM x.upper; let r ← rootAuxDnAny il V.P.unprot fuel nu (n : ℤ); negM r) fun u => ∃ w : ℝ,
          val u = some (-(w : EReal)) ∧ ∀ s : ℝ, 0 ≤ s → -b ≤ s ^ n → w ≤ s := by
        refine (Tri.lift (r := ofOpt (Num.neg x.upper)) (Q := (· = nu)) (by rw [j1']; exact rfl)).bind ?_
        rintro _ rfl
        exact (j3 fuel (lt_of_le_of_lt (le_max_right _ _) hf)).bind fun c ⟨w, hw, j4⟩ => (negM_tri hV hw).mono fun u j6 => ⟨w, j6, j4⟩
      refine (t1.pair t2).bind fun lu ⟨⟨z, hz, k3⟩, w, j6, j4⟩ => Tri.pure fun s hs hsx => ⟨z, -w, hz, j6, k3 s (hx.lb hsx), ?_⟩
      have h5 : s ^ n ≤ b := by exact_mod_cast hx.ub hsx
      have hs0 : s ≤ 0 := by
        by_contra hc
        have := pow_pos (not_le.1 hc) n
        linarith
      have := j4 (-s) (by linarith) (by rw [ho.neg_pow]; linarith)
      have : s ≤ -w := by linarith
      exact_mod_cast this
end

section
variable {f : Fmt} {n : ℕ}

theorem fl_topTriAny (il : Bool) {V : Env (Fl f)} (hk : V.kind ≠ .exact) (hB : V.Blind) (hn : 2 ≤ n) (hi : IdxFor (Fl f) n) : TopTriAny V il n := by
  intro t fuel h
  have : t = .inf false := by
    cases t with
    | nan => cases h
    | inf s => cases s with
      | false => rfl
      | true => exact absurd (Option.some.inj h) (by simp)
    | zero s => exact absurd (Option.some.inj h) (by simp)
    | nz q hq => exact absurd (Option.some.inj h) (EReal.coe_ne_top _)
  subst this
  unfold rootAuxAny
  rw [cur_unprot]
  refine (tri_cur (V := V) (Q := fun t => ∃ κ : ℝ, val t = some (κ : EReal) ∧ 0 < κ) fun r => ?_).bind fun tk ⟨κ, h2, h3⟩ => ?_
  · obtain ⟨t, κ, h2, h3, h4⟩ := hi r
    have n0 : (0 : ℝ) < n := by exact_mod_cast (by omega : 0 < n)
    exact ⟨t, h2, κ, h3, by rcases h4 with h | ⟨-, h, -⟩ <;> linarith⟩
  refine WSim.tri (rootLoopAny_wsim (V.simU hk) il _ _ _ _ _) ?_
  change rootLoop V.pp tk (.inf false) (n : ℤ) (fuel + 1) ⟨Num.lit 1, .inf false⟩ = _
  unfold rootLoop
  rw [rootStep_inf hk hB hn h3 h2]
  obtain ⟨g1, e1⟩ := fl_one (f := f)
  have he : equal V.C V.C (⟨Num.lit 1, .inf false⟩ : Itv (Fl f)) ⟨Num.lit 1, .inf false⟩ = .ok true := by
    have h1 : ∀ x : Itv (Fl f), isEmptyI V.C x = .ok false := fun x => hB.1 _ _
    have h2 : Num.eq (Num.lit 1 : Fl f) (Num.lit 1) = true := (NumLaws.eq_iff _ _).2 ⟨_, val_one, val_one⟩
    unfold equal
    rw [res_if_false' (h1 _), res_if_false' (h1 _), h2]
    rfl
  change ((lift (equal V.C V.C (⟨Num.lit 1, .inf false⟩ : Itv (Fl f)) ⟨Num.lit 1, .inf false⟩) : Res Bool) >>= _) = _
  rw [he]
  rfl
end
end BI
