import Verif.Model.IoEx
import Verif.Proofs.Median
import Verif.Props.Utility
import Verif.Props.Empty
import Verif.Props.TrigIso
/-!
# C54: the output styles of examples/io.cpp

`o` is any output stream; the theorems say which numbers are handed to it, and with which precision.
-/

set_option linter.unusedSectionVars false

namespace BI
open Set

section
variable {T : Type} [Num T] [Val T] [NumLaws T] (V : Env T) {x : Itv T} {S : Type}

private theorem cur_returns {α : Type} {f : RMode → Option α} {Q : α → Prop} (h : ∀ r, ∃ c, f r = some c ∧ Q c) :
    V.Returns (V.P.cur f) Q := by
  have e : V.P.cur f = evalIn V.ctl f := by
    unfold Env.P libPolicies; cases V.kind <;> rfl
  rw [e]
  intro s _
  obtain ⟨c, h1, h2⟩ := h (V.ctl.decode s.cw)
  refine ⟨c, ?_, rfl, h2⟩
  change ofOpt (f (V.ctl.decode s.cw)) = _
  rw [h1]; rfl

private theorem m_lift {α β : Type} {r : Res α} {a : α} (h : r = .ok a) (k : α → M V.ctl.W β) : (lift r >>= k) = k a := by
  subst h; rfl

private theorem bind_throws {V : Env T} {α β : Type} {op : M V.ctl.W α} {k : α → M V.ctl.W β} {Q : α → Prop} {e : Err}
    (h : V.Returns op Q) (hk : ∀ a, Q a → V.Throws (k a) e) : V.Throws (op >>= k) e := by
  intro s hs
  obtain ⟨a, h1, h2, h3⟩ := h s hs
  have hb : (op >>= k) s = k a (op s).2 := by
    change M.bind op k s = _
    unfold M.bind
    rcases e : op s with ⟨o, s'⟩
    rw [e] at h1
    dsimp only at h1
    subst h1
    rfl
  obtain ⟨k1, k2⟩ := hk a h3 (op s).2 (by unfold Env.Valid at *; rw [h2]; exact hs)
  rw [hb]
  exact ⟨k1, k2.trans h2⟩

/-- Everything a computation returns satisfies `Q`. -/
private def Ens {W α : Type} (a : M W α) (Q : α → Prop) : Prop := ∀ st z, (a st).1 = .ok z → Q z

private theorem Ens.bind {W α β : Type} {a : M W α} {k : α → M W β} {Q : β → Prop} (h : ∀ x, Ens (k x) Q) : Ens (a >>= k) Q := by
  intro st z hz
  change (M.bind a k st).1 = _ at hz
  unfold M.bind at hz
  rcases e : a st with ⟨o, st'⟩
  rw [e] at hz
  cases o with
  | error e => cases hz
  | ok x => exact h x st' z hz

private theorem Ens.pure {W α : Type} {a : α} {Q : α → Prop} (h : Q a) : Ens (Pure.pure a : M W α) Q := by
  intro st z hz; cases hz; exact h

private theorem Ens.ub {W α : Type} {Q : α → Prop} : Ens (lift (.error .ub) : M W α) Q := by
  intro st z hz; cases hz

/-- Writing characters and numbers does not change the precision of the stream. -/
structure PrecLaws (o : PStream S T) : Prop where
  set : ∀ p s, o.prec (o.setPrec p s) = p
  chr : ∀ c s, o.prec (o.chr c s) = o.prec s
  str : ∀ t s, o.prec (o.str t s) = o.prec s
  num : ∀ v s, o.prec (o.num v s) = o.prec s

/-- `io_prec` leaves the precision of the stream as it was, for any interval and any policies. -/
theorem C54_prec_restored {o : PStream S T} (ho : PrecLaws o) (digits10 : ℤ) (log10 : RMode → T → Option T) (trunc : T → Option ℤ)
    (x : Itv T) (s : S) (st : V.State) (s' : S) (h : (ioPrec digits10 log10 trunc V.P o x s st).1 = .ok s') :
    o.prec s' = o.prec s := by
  suffices Ens (ioPrec digits10 log10 trunc V.P o x s) (fun s' => o.prec s' = o.prec s) from this st s' h
  unfold ioPrec
  refine Ens.bind fun b => ?_
  cases b
  · refine Ens.bind fun b => ?_
    cases b
    · refine Ens.bind fun b => ?_
      cases b
      · refine Ens.bind fun w => Ens.bind fun n => Ens.bind fun rel => Ens.bind fun l => ?_
        split
        · exact Ens.ub
        · split
          · exact Ens.ub
          · exact Ens.bind fun c => Ens.pure (ho.set _ _)
      · exact Ens.pure (ho.str _ _)
    · exact Ens.pure (ho.set _ _)
  · exact Ens.pure (ho.str _ _)

/-- The cases that `io_prec` and `io_wide` treat alike, here for `io_prec`. -/
theorem C54_prec_special (hx : V.Proper x) {o : PStream S T} (s : S) (digits10 : ℤ) (log10 : RMode → T → Option T)
    (trunc : T → Option ℤ) :
    (γ x = ∅ → V.Returns (ioPrec digits10 log10 trunc V.P o x s) fun s' => s' = o.str "nothing" s) ∧
    (∀ q : ℝ, γ x = {q} → V.Returns (ioPrec digits10 log10 trunc V.P o x s) fun s' =>
      ∃ v, val v = some (q : EReal) ∧ s' = o.setPrec (o.prec s) (o.num v (o.setPrec digits10 s))) ∧
    ((0 : ℝ) ∈ γ x → (¬ ∃ q, γ x = {q}) → V.Returns (ioPrec digits10 log10 trunc V.P o x s) fun s' => s' = o.str "0~" s) := by
  classical
  have e1 := C22_singleton V hx
  have e2 := C22_zero_in V hx
  have e3 := C22_empty V hx
  rw [← V.P_chk] at e1 e2 e3
  unfold ioPrec
  rw [m_lift V e3]
  refine ⟨fun h => ?_, fun q h => ?_, fun h0 h1 => ?_⟩
  · rw [decide_eq_true h, if_pos rfl]
    exact .pure rfl
  · have hne : γ x ≠ ∅ := by rw [h]; simp
    rw [decide_eq_false hne, if_neg (by decide), m_lift V e1, decide_eq_true ⟨q, h⟩, if_pos rfl]
    obtain ⟨a, b, ix⟩ := has_of_nonempty (show (γ x).Nonempty by rw [h]; simp)
    refine .pure ⟨x.lower, ?_, rfl⟩
    have hab := ix.single_iff.1 ⟨q, h⟩
    have hq : q ∈ γ x := by rw [h]; rfl
    rw [ix.lo]
    exact congrArg some (le_antisymm (ix.lb hq) (hab ▸ ix.ub hq))
  · have hne : γ x ≠ ∅ := fun h => by rw [h] at h0; exact h0
    rw [decide_eq_false hne, if_neg (by decide), m_lift V e1, decide_eq_false h1, if_neg (by decide), m_lift V e2, decide_eq_true h0, if_pos rfl]
    exact .pure rfl
end

section
variable {S : Type}

/-- The median and half of the width: with exact arithmetic, the centre and the radius of the interval. -/
theorem C54_wdth_exact (V : Env ℚ) (hk : V.kind = .exact) (hl : ∀ f (x : ℚ) a b, V.lib f a x = V.lib f b x) {x : Itv ℚ}
    (hx : (γ x).Nonempty) (o : Stream S ℚ) (s : S) :
    V.Returns (ioWdth V.P o x s) fun s' =>
      ∃ c h : ℚ, s' = o.num h (o.str " ± " (o.num c s)) ∧ γ x = Icc ((c - h : ℚ) : ℝ) ((c + h : ℚ) : ℝ) := by
  obtain ⟨_, _, ix⟩ := has_of_nonempty hx
  have hle : x.lower ≤ x.upper := by
    have := ix.le; have e := ix.lo; cases e; have e := ix.up; cases e
    exact_mod_cast this
  have e3 : isEmptyI V.P.chk x = .ok false := by rw [V.P_chk]; exact ix.test V.chk
  unfold ioWdth
  rw [m_lift V e3, if_neg (by decide)]
  have hm : V.Returns (median V.P x) fun c => c = (x.lower + x.upper) / 2 := by
    refine V.run (V.rat_ok hk hl LeB GeB) (fun _ h => median_sim h x) ?_
    unfold median
    rw [pure_chk, res_if_false (ix.test V.chk), pure_scope, pure_rnd]
    unfold Env.B
    rw [hk]
    exact rfl
  have hw : V.Returns (width V.P x) fun w => w = x.upper - x.lower := by
    refine V.run (V.rat_ok hk hl LeB GeB) (fun _ h => width_sim h x) ?_
    unfold width
    rw [pure_chk, res_if_false (ix.test V.chk), pure_scope, pure_rnd]
    unfold Env.B
    rw [hk]
    exact rfl
  refine hm.bind fun c hc => hw.bind fun w hw => (cur_returns V (Q := fun h => h = w / 2) fun r => ⟨w / 2, rfl, rfl⟩).bind fun h hh =>
    .pure ⟨c, h, rfl, ?_⟩
  subst hc hw hh
  have : Has x ((x.lower : ℝ) : EReal) ((x.upper : ℝ) : EReal) :=
    ⟨rfl, rfl, EReal.coe_ne_top _, EReal.coe_ne_bot _, by exact_mod_cast hle⟩
  rw [this.gamma_Icc]
  congr 2 <;> ring

/-- With rounded arithmetic the ball written may miss points of the interval: for `[1, 1 + 2⁻⁵²]` it is `1 ± 2⁻⁵³`, from every state
of the machine. -/
theorem C54_wdth_misses (o : Stream S (Fl .double)) (s : S) :
    dbl.Returns (ioWdth dbl.P o ⟨dq 1 0, dq 4503599627370497 (-52)⟩ s) fun s' =>
      ∃ (c h : Fl .double) (p q : ℝ), s' = o.num h (o.str " ± " (o.num c s)) ∧ val c = some (p : EReal) ∧ val h = some (q : EReal) ∧
        ∃ r ∈ γ (⟨dq 1 0, dq 4503599627370497 (-52)⟩ : Itv (Fl .double)), p + q < r := by
  have v1 : val (dq 1 0) = some (((1 : ℤ) * (2 : ℝ) ^ (0 : ℤ) : ℝ) : EReal) := dq_val (by decide)
  have v2 : val (dq 4503599627370497 (-52)) = some (((4503599627370497 : ℤ) * (2 : ℝ) ^ (-52 : ℤ) : ℝ) : EReal) := dq_val (by decide)
  have v3 : val (dq 1 (-53)) = some (((1 : ℤ) * (2 : ℝ) ^ (-53 : ℤ) : ℝ) : EReal) := dq_val (by decide)
  have ix : Has (⟨dq 1 0, dq 4503599627370497 (-52)⟩ : Itv (Fl .double)) _ _ :=
    ⟨v1, v2, EReal.coe_ne_top _, EReal.coe_ne_bot _, EReal.coe_le_coe_iff.2 (by norm_num)⟩
  have e3 : isEmptyI dbl.P.chk ⟨dq 1 0, dq 4503599627370497 (-52)⟩ = .ok false := by rw [dbl.P_chk]; exact ix.test dbl.chk
  unfold ioWdth
  rw [m_lift dbl e3, if_neg (by decide)]
  have hm : dbl.Returns (median dbl.P ⟨dq 1 0, dq 4503599627370497 (-52)⟩) fun c => c = dq 1 0 := by
    refine dbl.run dbl_tight (fun _ h => median_sim h _) ?_
    unfold median
    rw [pure_chk, res_if_false (ix.test dbl.chk), pure_scope, pure_rnd]
    have : dbl.B.median (dq 1 0) (dq 4503599627370497 (-52)) = .ok (dq 1 0) := by decide +kernel
    dsimp only
    rw [this]
    exact rfl
  have hw : dbl.Returns (width dbl.P ⟨dq 1 0, dq 4503599627370497 (-52)⟩) fun c => c = dq 1 (-52) := by
    refine dbl.run dbl_tight (fun _ h => width_sim h _) ?_
    unfold width
    rw [pure_chk, res_if_false (ix.test dbl.chk), pure_scope, pure_rnd]
    have : dbl.B.subUp (dq 4503599627370497 (-52)) (dq 1 0) = .ok (dq 1 (-52)) := by decide +kernel
    dsimp only
    rw [this]
    exact rfl
  refine hm.bind fun c hc => hw.bind fun w hw => (cur_returns dbl (Q := fun h => h = dq 1 (-53)) fun r => ⟨_, rfl, ?_⟩).bind fun h hh =>
    .pure ⟨c, h, _, _, rfl, hc ▸ v1, hh ▸ v3, _, ⟨_, _, v1, v2, ix.le, le_rfl⟩, by norm_num⟩
  subst hw
  cases r <;> decide +kernel
end

section
variable {f : Fmt} {S : Type}

/-- Powers of ten: `eps / 2` is positive and close to `10⁻ⁿ / 2`, for all rounding directions. -/
private theorem poorPow_spec (hf : f = .single ∨ f = .double ∨ f = .extended) (r : RMode) (n : ℕ) (hn : n ≤ 15) :
    ∃ e : ℝ, 0 < e ∧ |e * (2 * 10 ^ n) - 1| ≤ 2⁻¹ ^ 20 ∧
      val (((poorPow r n (Num.lit 1)).div r (Num.lit 2)).convert f r) = some (e : EReal) := by
  have key : ∀ n : Fin 16, (match ((poorPow r n (Num.lit 1)).div r (Num.lit 2)).convert f r with
      | .nz q _ => decide (0 < q ∧ |q * (2 * 10 ^ n.val) - 1| ≤ 2⁻¹ ^ 20)
      | _ => false) = true := by
    rcases hf with rfl | rfl | rfl <;> cases r <;> decide +kernel
  have := key ⟨n, by omega⟩
  dsimp only at this
  generalize ((poorPow r n (Num.lit 1)).div r (Num.lit 2)).convert f r = v at this ⊢
  cases v with
  | nz q h =>
    obtain ⟨h1, h2⟩ := of_decide_eq_true this
    refine ⟨q, by exact_mod_cast h1, ?_, rfl⟩
    have : ((|q * (2 * 10 ^ n) - 1| : ℚ) : ℝ) ≤ ((2⁻¹ ^ 20 : ℚ) : ℝ) := by exact_mod_cast h2
    push_cast at this
    exact this
  | _ => cases this

/-- `io_wide` widens the interval by about half a unit of the last digit printed, relative to the largest absolute value `N` of the
interval, before it writes the bounds. `n` is the number of digits minus one, but not more than 15. -/
theorem C54_wide (hf : f = .single ∨ f = .double ∨ f = .extended) (V : Env (Fl f)) (hk : V.kind ≠ .exact) {x : Itv (Fl f)}
    (hx : (γ x).Nonempty) (hs : ¬ ∃ q, γ x = {q}) (h0 : (0 : ℝ) ∉ γ x) (digits10 : ℤ) (o : PStream S (Fl f)) (s : S) {N : EReal}
    (hN : IsLUB {q : EReal | ∃ a ∈ γ x, ((|a| : ℝ) : EReal) = q} N) :
    V.Returns (ioWide digits10 V.P o x s) fun s' =>
      ∃ (z : Itv (Fl f)) (c : ℝ) (e : EReal),
        s' = (s |> o.chr '[' |> o.num z.lower |> o.chr ',' |> o.num z.upper |> o.chr ']') ∧
        |c * (2 * 10 ^ min 15 (o.prec s - 1).toNat) - 1| ≤ 2⁻¹ ^ 20 ∧ 0 ≤ e ∧
        (∀ w, Representable (Fl f) w → w ≤ c * N → w ≤ e) ∧ (∀ w, Representable (Fl f) w → c * N ≤ w → e ≤ w) ∧
        γ x ⊆ γ z ∧ ∀ a ∈ γ x, ∀ q : ℝ, ((|q - a| : ℝ) : EReal) ≤ e → q ∈ γ z := by
  classical
  obtain ⟨a, b, ix⟩ := has_of_nonempty hx
  have e1 := C22_singleton V (.inl hx)
  have e2 := C22_zero_in V (.inl hx)
  have e3 : isEmptyI V.P.chk x = .ok false := by rw [V.P_chk]; exact ix.test V.chk
  rw [← V.P_chk] at e1 e2
  obtain ⟨w, N', hw, vw, hN', -⟩ := C28_norm V (fun a h => by cases h) hx
  have := hN.unique hN'; subst this
  rw [← V.P_chk] at hw
  have hpos : 0 < N := by
    obtain ⟨q, hq⟩ := hx
    have hq0 : q ≠ 0 := fun h => h0 (h ▸ hq)
    exact lt_of_lt_of_le (by exact_mod_cast abs_pos.2 hq0) (hN.1 ⟨q, hq, rfl⟩)
  unfold ioWide
  rw [m_lift V e3, if_neg (by decide), m_lift V e1, decide_eq_false hs, if_neg (by decide), m_lift V e2, decide_eq_false h0,
    if_neg (by decide), m_lift V hw]
  have hp : ((if 15 < o.prec s then 15 else o.prec s - 1) : ℤ).toNat = min 15 (o.prec s - 1).toNat := by
    split <;> omega
  refine (cur_returns V (Q := fun t => ∃ (c : ℝ) (e : EReal), val t = some e ∧
        |c * (2 * 10 ^ min 15 (o.prec s - 1).toNat) - 1| ≤ 2⁻¹ ^ 20 ∧ 0 ≤ e ∧
        (∀ w, Representable (Fl f) w → w ≤ c * N → w ≤ e) ∧ (∀ w, Representable (Fl f) w → c * N ≤ w → e ≤ w)) fun r => ?_).bind
    fun t ht => ?_
  · refine ⟨_, rfl, ?_⟩
    unfold wideEps
    dsimp only
    rw [hp]
    obtain ⟨c, hc, hc', vc⟩ := poorPow_spec hf r (min 15 (o.prec s - 1).toNat) (by omega)
    obtain ⟨e, he, hE⟩ := mul_rounds r vc vw ⟨.inl (by exact_mod_cast hc.ne'), .inl hpos.ne'⟩
    refine ⟨c, e, he, hc', ?_, hE.lo, hE.up⟩
    exact hE.lo 0 ⟨Num.lit 0, val_zero⟩ (mul_nonneg (by exact_mod_cast hc.le) hpos.le)
  · obtain ⟨c, e, vt, hc, he, hlo, hup⟩ := ht
    have hz : V.Returns (widen V.P x t) fun z => ∀ a ∈ γ x, ∀ q : ℝ, ((|q - a| : ℝ) : EReal) ≤ e → q ∈ γ z := by
      refine V.run (V.fl_directed hk) (fun _ h => widen_sim h x t) ?_
      have hV := V.fl_directed hk
      have hbot : e ≠ ⊥ := fun h => by rw [h] at he; exact absurd he (by simp)
      unfold widen mk2
      rw [pure_chk, res_if_false (ix.test V.chk), pure_scope, pure_rnd]
      have h1 := (hV.dir du_weak).subDown _ _ _ _ ix.lo vt ⟨.inl ix.ne_top, .inr hbot⟩
      have h2 := (hV.dir du_weak).addUp _ _ _ _ ix.up vt ⟨.inr hbot, .inl ix.ne_bot⟩
      refine (h1.pair h2).bind fun p hp => ?_
      obtain ⟨⟨l, hl, hl'⟩, u, hu, hu'⟩ := hp
      intro s hs q hq
      refine ⟨l, u, hl, hu, hl'.trans ?_, le_trans ?_ hu'⟩
      · refine (EReal.sub_le_sub (ix.lb hs) hq).trans ?_
        rw [← EReal.coe_sub]; exact EReal.coe_le_coe_iff.2 (by linarith [neg_le_abs (q - s)])
      · refine le_trans ?_ (add_le_add (ix.ub hs) hq)
        rw [← EReal.coe_add]; exact EReal.coe_le_coe_iff.2 (by linarith [le_abs_self (q - s)])
    refine hz.bind fun z hz => .pure ⟨z, c, e, rfl, hc, he, hlo, hup, fun a ha => hz a ha a (by simpa using he), hz⟩

/-- The other cases of `io_wide`. -/
theorem C54_wide_special (V : Env (Fl f)) {x : Itv (Fl f)} (hx : V.Proper x) (o : PStream S (Fl f)) (s : S) (digits10 : ℤ) :
    (γ x = ∅ → V.Returns (ioWide digits10 V.P o x s) fun s' => s' = o.str "nothing" s) ∧
    (∀ q : ℝ, γ x = {q} → V.Returns (ioWide digits10 V.P o x s) fun s' =>
      ∃ v, val v = some (q : EReal) ∧ s' = o.setPrec (o.prec s) (o.num v (o.setPrec digits10 s))) ∧
    ((0 : ℝ) ∈ γ x → (¬ ∃ q, γ x = {q}) → V.Returns (ioWide digits10 V.P o x s) fun s' => s' = o.str "0~" s) := by
  classical
  have e1 := C22_singleton V hx
  have e2 := C22_zero_in V hx
  have e3 := C22_empty V hx
  rw [← V.P_chk] at e1 e2 e3
  unfold ioWide
  rw [m_lift V e3]
  refine ⟨fun h => ?_, fun q h => ?_, fun h0 h1 => ?_⟩
  · rw [decide_eq_true h, if_pos rfl]
    exact .pure rfl
  · have hne : γ x ≠ ∅ := by rw [h]; simp
    rw [decide_eq_false hne, if_neg (by decide), m_lift V e1, decide_eq_true ⟨q, h⟩, if_pos rfl]
    obtain ⟨a, b, ix⟩ := has_of_nonempty (show (γ x).Nonempty by rw [h]; simp)
    refine .pure ⟨x.lower, ?_, rfl⟩
    have hab := ix.single_iff.1 ⟨q, h⟩
    have hq : q ∈ γ x := by rw [h]; rfl
    rw [ix.lo]
    exact congrArg some (le_antisymm (ix.lb hq) (hab ▸ ix.ub hq))
  · have hne : γ x ≠ ∅ := fun h => by rw [h] at h0; exact h0
    rw [decide_eq_false hne, if_neg (by decide), m_lift V e1, decide_eq_false h1, if_neg (by decide), m_lift V e2, decide_eq_true h0, if_pos rfl]
    exact .pure rfl

/-- Two numbers of a format differ by more than `2⁻ᵖ⁻¹` of the larger one. -/
private theorem rel_gap {a b : ℚ} (ha : Rep f a) (hb : Rep f b) (h0 : 0 < a) (h : a < b) : b * (2 : ℚ) ^ (-(f.p + 1 : ℤ)) ≤ b - a := by
  obtain ⟨m, e, hm, -, -, rfl⟩ := ha
  obtain ⟨n, k, hn, -, -, rfl⟩ := hb
  have hm' : (m : ℚ) < 2 ^ f.p := by exact_mod_cast (abs_lt.1 hm).2
  have hn' : (n : ℚ) < 2 ^ f.p := by exact_mod_cast (abs_lt.1 hn).2
  have hP : (2 : ℚ) ^ (-(f.p + 1 : ℤ)) * 2 ^ f.p = 1 / 2 := by
    rw [← zpow_natCast, ← zpow_add₀ (by norm_num : (2 : ℚ) ≠ 0)]
    have : (-(f.p + 1 : ℤ) + f.p) = -1 := by ring
    rw [this]; norm_num
  have hp0 : (0 : ℚ) < (2 : ℚ) ^ (-(f.p + 1 : ℤ)) := by positivity
  have hsmall : (2 : ℚ) ^ (-(f.p + 1 : ℤ)) ≤ 1 / 2 := by
    have : (1 : ℚ) ≤ 2 ^ f.p := one_le_pow₀ (by norm_num)
    nlinarith
  -- a difference that is a multiple of `2 ^ j`
  have mult : ∀ j : ℤ, j ≤ e → j ≤ k → (2 : ℚ) ^ j ≤ n * (2 : ℚ) ^ k - m * (2 : ℚ) ^ e := by
    intro j h1 h2
    have e1 : (2 : ℚ) ^ k = 2 ^ (k - j).toNat * (2 : ℚ) ^ j := by
      rw [← zpow_natCast, ← zpow_add₀ (by norm_num : (2 : ℚ) ≠ 0)]; congr 1; omega
    have e2 : (2 : ℚ) ^ e = 2 ^ (e - j).toNat * (2 : ℚ) ^ j := by
      rw [← zpow_natCast, ← zpow_add₀ (by norm_num : (2 : ℚ) ≠ 0)]; congr 1; omega
    have hj : (0 : ℚ) < (2 : ℚ) ^ j := by positivity
    have e3 : n * (2 : ℚ) ^ k - m * (2 : ℚ) ^ e = ((n * 2 ^ (k - j).toNat - m * 2 ^ (e - j).toNat : ℤ) : ℚ) * (2 : ℚ) ^ j := by
      rw [e1, e2]; push_cast; ring
    rw [e3]
    have hd : (0 : ℚ) < ((n * 2 ^ (k - j).toNat - m * 2 ^ (e - j).toNat : ℤ) : ℚ) := by
      by_contra hc
      have := mul_nonpos_of_nonpos_of_nonneg (not_lt.1 hc) hj.le
      rw [← e3] at this; linarith
    have hd' : (1 : ℚ) ≤ ((n * 2 ^ (k - j).toNat - m * 2 ^ (e - j).toNat : ℤ) : ℚ) := by
      have : (0 : ℤ) < n * 2 ^ (k - j).toNat - m * 2 ^ (e - j).toNat := by exact_mod_cast hd
      exact_mod_cast this
    nlinarith
  rcases le_total k e with hke | hke
  · have h1 := mult k hke le_rfl
    have h2 : (0 : ℚ) < (2 : ℚ) ^ k := by positivity
    have h3 : n * (2 : ℚ) ^ k * (2 : ℚ) ^ (-(f.p + 1 : ℤ)) ≤ (2 : ℚ) ^ k * (2 ^ f.p * (2 : ℚ) ^ (-(f.p + 1 : ℤ))) := by
      have := mul_le_mul_of_nonneg_right hn'.le (mul_pos h2 hp0).le
      nlinarith
    rw [mul_comm (2 ^ f.p : ℚ), hP] at h3
    linarith
  · have h1 := mult e le_rfl hke
    have h2 : (0 : ℚ) < (2 : ℚ) ^ e := by positivity
    by_cases hbig : n * (2 : ℚ) ^ k ≤ 2 * (2 ^ f.p * (2 : ℚ) ^ e)
    · have h3 := mul_le_mul_of_nonneg_right hbig hp0.le
      have h4 : 2 * (2 ^ f.p * (2 : ℚ) ^ e) * (2 : ℚ) ^ (-(f.p + 1 : ℤ)) = 2 * (2 : ℚ) ^ e * ((2 : ℚ) ^ (-(f.p + 1 : ℤ)) * 2 ^ f.p) := by ring
      rw [h4, hP] at h3
      linarith
    · have h3 := mul_lt_mul_of_pos_right hm' h2
      have hb0 : 0 < n * (2 : ℚ) ^ k := h0.trans h
      have h4 := mul_le_mul_of_nonneg_left hsmall hb0.le
      linarith

private theorem fl_rep {a : Fl f} {q : ℝ} (h : val a = some (q : EReal)) : ∃ p : ℚ, Rep f p ∧ (p : ℝ) = q := by
  rcases (representable_iff (f := f) _).1 ⟨a, h⟩ with h | h | ⟨p, hp, h⟩
  · exact absurd h (EReal.coe_ne_bot _)
  · exact absurd h (EReal.coe_ne_top _)
  · exact ⟨p, hp, (EReal.coe_injective h).symm⟩

/-- `io_prec` on a bounded interval without zero: a point of the interval is written, with a precision computed from a relative width
that is at least `2⁻ᵖ⁻¹` and at most 1. So the conversion of its logarithm to `int` is defined, whatever the library returns for
such arguments, as long as it is reasonable. -/
theorem C54_prec (V : Env (Fl f)) (hk : V.kind ≠ .exact) (he : f.emin ≤ -(f.p + 1 : ℤ)) {x : Itv (Fl f)} {a b : ℝ}
    (ha : val x.lower = some (a : EReal)) (hb : val x.upper = some (b : EReal)) (hab : a < b) (h0 : 0 < a ∨ b < 0)
    (hm : |a + b| ≤ (maxFin f : ℝ)) {digits10 : ℤ} {log10 : RMode → Fl f → Option (Fl f)} {trunc : Fl f → Option ℤ}
    (hlog : ∀ r v (q : ℝ), val v = some (q : EReal) → (2 : ℝ) ^ (-(f.p + 1 : ℤ)) ≤ q → q ≤ 1 →
      ∃ l k, log10 r v = some l ∧ trunc l = some k ∧ |k| < 2147483648) (o : PStream S (Fl f)) (s : S) :
    V.Returns (ioPrec digits10 log10 trunc V.P o x s) fun s' => ∃ (c v l : Fl f) (r : RMode) (p q : ℝ) (k : ℤ),
      s' = o.setPrec (o.prec s) (o.num c (o.setPrec (-k) s)) ∧ val c = some (p : EReal) ∧ p ∈ γ x ∧
      val v = some (q : EReal) ∧ (2 : ℝ) ^ (-(f.p + 1 : ℤ)) ≤ q ∧ q ≤ 1 ∧ log10 r v = some l ∧ trunc l = some k := by
  classical
  have ix : Has x (a : EReal) (b : EReal) := ⟨ha, hb, EReal.coe_ne_top _, EReal.coe_ne_bot _, EReal.coe_le_coe_iff.2 hab.le⟩
  have hx := ix.nonempty
  have e1 := C22_singleton V (.inl hx)
  have e2 := C22_zero_in V (.inl hx)
  have e3 : isEmptyI V.P.chk x = .ok false := by rw [V.P_chk]; exact ix.test V.chk
  rw [← V.P_chk] at e1 e2
  have hs : ¬ ∃ q, γ x = {q} := fun h => hab.ne (by exact_mod_cast ix.single_iff.1 h)
  have hz : (0 : ℝ) ∉ γ x := fun h => by
    rw [ix.gamma_Icc] at h
    rcases h0 with h0 | h0 <;> linarith [h.1, h.2]
  obtain ⟨n, hn, vn⟩ := norm_has (fun a h => by cases h) V.chk ix
  rw [← V.P_chk] at hn
  -- the norm as a real number
  obtain ⟨N, hN, hNpos, hgap, hNle⟩ : ∃ N : ℝ, max (-(a : EReal)) b = N ∧ 0 < N ∧ N * (2 : ℝ) ^ (-(f.p + 1 : ℤ)) ≤ b - a ∧ b - a ≤ N := by
    obtain ⟨p, hp, rfl⟩ := fl_rep ha
    obtain ⟨q, hq, rfl⟩ := fl_rep hb
    have hpq : p < q := by exact_mod_cast hab
    rw [← EReal.coe_neg, ← EReal.coe_strictMono.monotone.map_max]
    refine ⟨_, rfl, ?_⟩
    rcases h0 with h | h
    · have h' : 0 < p := by exact_mod_cast h
      rw [max_eq_right (by linarith)]
      refine ⟨by linarith, ?_, by linarith⟩
      have := rel_gap hp hq h' hpq
      have h2 : ((q * (2 : ℚ) ^ (-(f.p + 1 : ℤ)) : ℚ) : ℝ) ≤ ((q - p : ℚ) : ℝ) := by exact_mod_cast this
      push_cast at h2
      linarith
    · have h' : q < 0 := by exact_mod_cast h
      rw [max_eq_left (by linarith)]
      refine ⟨by linarith, ?_, by linarith⟩
      have := rel_gap (rep_neg hq) (rep_neg hp) (by linarith) (by linarith)
      have h2 : ((-p * (2 : ℚ) ^ (-(f.p + 1 : ℤ)) : ℚ) : ℝ) ≤ ((-p - -q : ℚ) : ℝ) := by exact_mod_cast this
      push_cast at h2
      linarith
  rw [hN] at vn
  unfold ioPrec
  rw [m_lift V e3, if_neg (by decide), m_lift V e1, decide_eq_false hs, if_neg (by decide), m_lift V e2, decide_eq_false hz,
    if_neg (by decide)]
  refine (C26_width_tight V (V.fl_tight hk) hx ha hb).bind fun w ⟨ew, hw, hwr⟩ => ?_
  rw [m_lift V hn]
  have hw1 := hwr.2.1
  have hw2 : ew ≤ (N : EReal) := hwr.2.2 _ ⟨n, vn⟩ (by exact_mod_cast hNle)
  obtain ⟨W, rfl⟩ : ∃ W : ℝ, ew = W := by
    refine ⟨ew.toReal, (EReal.coe_toReal ?_ ?_).symm⟩
    · intro h; rw [h] at hw2; exact EReal.coe_ne_top _ (top_le_iff.1 hw2)
    · intro h; rw [h] at hw1; exact EReal.coe_ne_bot _ (le_bot_iff.1 hw1)
  have hw1 : b - a ≤ W := by exact_mod_cast hw1
  have hw2 : W ≤ N := by exact_mod_cast hw2
  refine (cur_returns V (Q := fun v => ∃ q : ℝ, val v = some (q : EReal) ∧ (2 : ℝ) ^ (-(f.p + 1 : ℤ)) ≤ q ∧ q ≤ 1) fun r => ⟨_, rfl, ?_⟩).bind
    fun v ⟨q, vq, hq1, hq2⟩ => ?_
  · obtain ⟨z, hz, hE⟩ := div_rounds r hw vn ⟨by exact_mod_cast hNpos.ne', .inl ⟨EReal.coe_ne_bot _, EReal.coe_ne_top _⟩⟩
    rw [← EReal.coe_div] at hE
    have r1 : Representable (Fl f) (((2 : ℝ) ^ (-(f.p + 1 : ℤ)) : ℝ) : EReal) := by
      refine (representable_iff _).2 (.inr (.inr ⟨(2 : ℚ) ^ (-(f.p + 1 : ℤ)), ⟨1, -(f.p + 1 : ℤ), ?_, he, ?_, by simp⟩, by norm_num⟩))
      · have := f.hp
        have : (1 : ℤ) < 2 ^ f.p := by exact_mod_cast Nat.one_lt_two_pow (by omega)
        simpa using this
      · have := f.hmax; omega
    have k1 := hE.lo _ r1 (EReal.coe_le_coe_iff.2 (by rw [le_div_iff₀ hNpos]; linarith))
    have k2 := hE.up 1 ⟨Num.lit 1, val_one⟩ (by rw [← EReal.coe_one]; exact EReal.coe_le_coe_iff.2 (by rw [div_le_one hNpos]; exact hw2))
    obtain ⟨q, rfl⟩ : ∃ q : ℝ, z = q := by
      refine ⟨z.toReal, (EReal.coe_toReal ?_ ?_).symm⟩
      · intro h; rw [h, ← EReal.coe_one] at k2; exact EReal.coe_ne_top _ (top_le_iff.1 k2)
      · intro h; rw [h] at k1; exact EReal.coe_ne_bot _ (le_bot_iff.1 k1)
    exact ⟨q, hz, by exact_mod_cast k1, by exact_mod_cast k2⟩
  · refine (cur_returns V (Q := fun l => ∃ r k, log10 r v = some l ∧ trunc l = some k ∧ |k| < 2147483648) fun r => ?_).bind fun l hl => ?_
    · obtain ⟨l, k, h1, h2, h3⟩ := hlog r v q vq hq1 hq2
      exact ⟨l, h1, r, k, h1, h2, h3⟩
    · obtain ⟨r, k, h1, h2, h3⟩ := hl
      rw [abs_lt] at h3
      rw [h2]
      dsimp only
      rw [if_neg (by omega)]
      refine (C26_median_fl V hk hx ha hb hm).bind fun c ⟨p, hp, vc⟩ => ?_
      exact .pure ⟨c, v, l, r, p, q, k, rfl, vc, hp, vq, hq1, hq2, h1, h2⟩

/-- An unbounded interval: the relative width of `[1, ∞]` is NaN, and converting its logarithm to `int` is undefined. -/
theorem C54_prec_ub (digits10 : ℤ) {log10 : RMode → Fl .double → Option (Fl .double)} {trunc : Fl .double → Option ℤ}
    (hl : ∀ r, log10 r .nan = some .nan) (ht : trunc .nan = none) (o : PStream S (Fl .double)) (s : S) :
    dbl.Throws (ioPrec digits10 log10 trunc dbl.P o ⟨Num.lit 1, .inf false⟩ s) .ub := by
  have e1 : isEmptyI dbl.P.chk ⟨Num.lit 1, .inf false⟩ = .ok false := by decide +kernel
  have e2 : singleton dbl.P.chk ⟨Num.lit 1, .inf false⟩ = .ok false := by decide +kernel
  have e3 : zeroIn dbl.P.chk ⟨Num.lit 1, .inf false⟩ = .ok false := by decide +kernel
  have e4 : norm dbl.P.chk ⟨Num.lit 1, .inf false⟩ = .ok (.inf false) := by decide +kernel
  have ix : Has (⟨Num.lit 1, .inf false⟩ : Itv (Fl .double)) 1 ⊤ :=
    ⟨val_one, rfl, (by rw [← EReal.coe_one]; exact EReal.coe_ne_top _), by simp, le_top⟩
  have hw : dbl.Returns (width dbl.P ⟨Num.lit 1, .inf false⟩) fun w => w = .inf false := by
    refine dbl.run dbl_tight (fun _ h => width_sim h _) ?_
    unfold width
    rw [pure_chk, res_if_false (ix.test dbl.chk), pure_scope, pure_rnd]
    have : dbl.B.subUp (.inf false) (Num.lit 1) = .ok (.inf false) := by decide +kernel
    dsimp only
    rw [this]
    exact rfl
  unfold ioPrec
  rw [m_lift dbl e1, if_neg (by decide), m_lift dbl e2, if_neg (by decide), m_lift dbl e3, if_neg (by decide)]
  refine bind_throws hw fun w hw => ?_
  rw [m_lift dbl e4]
  subst hw
  refine bind_throws (cur_returns dbl (Q := fun v => v = .nan) fun r => ⟨_, rfl, rfl⟩) fun v hv => ?_
  subst hv
  refine bind_throws (cur_returns dbl (Q := fun v => v = .nan) fun r => ⟨.nan, hl r, rfl⟩) fun v hv => ?_
  subst hv
  rw [ht]
  exact fun _ _ => ⟨rfl, rfl⟩

end

/-! ## The hypotheses can be met -/

section
/-- A stream that records the numbers written together with the precision in force. -/
private def rec (T : Type) : PStream (ℤ × List (ℤ × T)) T where
  chr _ s := s
  str _ s := s
  num v s := (s.1, s.2 ++ [(s.1, v)])
  prec s := s.1
  setPrec p s := (p, s.2)

example (T : Type) [Num T] : PrecLaws (rec T) := ⟨fun _ _ => rfl, fun _ _ => rfl, fun _ _ => rfl, fun _ _ => rfl⟩
example := C54_wdth_exact ratEnv rfl (fun _ _ _ _ => rfl) (x := litI 1 2) ne_lit (rec ℚ).toStream (6, [])
example := C54_prec_special dbl (x := litI 0 2) (.inl ne_lit) (o := rec _) (6, []) 15 (fun _ v => some v) (fun _ => some 0)
example := C54_wide_special fltBase (x := ⟨.nan, .nan⟩) (.inr ⟨(fun l u h => by cases h), rfl⟩) (rec _) (6, []) 6
private theorem g12 : γ (litI 1 2 : Itv (Fl .double)) = Icc 1 2 := by
  ext r; rw [mem_litI (by decide) (by decide)]; simp
example := C54_wide (.inr (.inl rfl)) dbl (by decide) (x := litI 1 2) ne_lit
  (fun ⟨q, h⟩ => by
    rw [g12] at h
    have h1 : (1 : ℝ) ∈ ({q} : Set ℝ) := h ▸ ⟨le_rfl, by norm_num⟩
    have h2 : (2 : ℝ) ∈ ({q} : Set ℝ) := h ▸ ⟨by norm_num, le_rfl⟩
    rw [mem_singleton_iff] at h1 h2; rw [← h1] at h2; norm_num at h2)
  (by rw [g12]; norm_num) 15 (rec _) (6, []) (N := ((2 : ℝ) : EReal))
  ⟨by rintro _ ⟨a, ha, rfl⟩; rw [g12] at ha; exact EReal.coe_le_coe_iff.2 (abs_le.2 ⟨by linarith [ha.1], ha.2⟩),
    fun e he => he ⟨2, by rw [g12]; norm_num, by norm_num⟩⟩
example := C54_prec dbl (by decide) (by decide) (x := litI 1 2) (a := ((1 : ℤ) : ℝ)) (b := ((2 : ℤ) : ℝ))
  (NumLaws.lit 1 (by decide)) (NumLaws.lit 2 (by decide)) (by norm_num) (.inl (by norm_num))
  (by
    have h : (3 : ℚ) ≤ maxFin Fmt.double := by decide +kernel
    have : (3 : ℝ) ≤ (maxFin Fmt.double : ℝ) := by exact_mod_cast h
    push_cast; rw [abs_of_pos (by norm_num)]; linarith) (digits10 := 15) (log10 := fun _ v => some v) (trunc := fun _ => some (-3))
  (fun _ v _ _ _ _ => ⟨v, -3, rfl, rfl, by decide⟩) (rec _) (6, [])
end

end BI
