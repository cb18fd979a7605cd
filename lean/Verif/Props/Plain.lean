import Verif.Props.Expr
/-!
# C67: evaluation with plain numbers stays inside evaluation with intervals

test/test_float.cpp compares the operations on intervals with those on some of their points, in ordinary arithmetic. Here:
whatever formula a program evaluates with plain numbers, each operation rounding its result up, down or to nearest as it
likes, the same formula evaluated with intervals that contain the variables contains the result.
-/

namespace BI
open Set

section
variable {T : Type} [Num T] [Val T]

omit [Num T] in
/-- The bounds of an interval are numbers of the type: a rounding does not pass them. -/
theorem faithful_absorbs : Absorbs T (Faithful T) := by
  rintro z s r ⟨l, u, hl, hu, h1, h2⟩ h
  exact ⟨l, u, hl, hu, (h l ⟨_, hl⟩).1 h1, (h u ⟨_, hu⟩).2 h2⟩

variable [NumLaws T] (V : Env T)

/-- As in `C14_expression_partial`, whose restrictions apply, but with the results of all operations rounded. -/
theorem C67_rounded_partial (hV : V.Directed) (K : PiConst T) (ρ : ℕ → Itv T) (e : Expr T) (hs : e.Supported V K (InfBase T))
    (hd : ∃ v r, (∀ i, v i ∈ γ (ρ i)) ∧ e.Rounded (Faithful T) v r) :
    ∃ z N, (∀ v r, (∀ i, v i ∈ γ (ρ i)) → e.Rounded (Faithful T) v r → r ∈ γ z) ∧ (e.nests = false → N = 0) ∧
      ∀ fuel ≥ N, V.Returns (e.eval K fuel V.P ρ) (· = z) := by
  obtain ⟨v, r, h1, h2⟩ := hd
  obtain ⟨q, N, hq, hN, h⟩ := e.eval_rounded faithful_absorbs (B := False) False.elim hV .inl ρ hs ⟨r, v, h1, h2⟩
  rcases hq with ⟨z, rfl, hz⟩ | ⟨e, ⟨⟨⟩, -⟩, -⟩
  exact ⟨z, N, fun v r h1 h2 => hz ⟨v, h1, h2⟩, hN, fun fuel hf =>
      V.run hV (fun _ hp => (h fuel hf hp).sim) (Post.of_ok ⟨z, rfl, rfl⟩)⟩

/-- The same in a block that owns a rounding object and computes with the unprotected type. -/
theorem C67_region_partial (hV : V.Directed) (K : PiConst T) (ρ : ℕ → Itv T) (e : Expr T) (hs : e.Supported V K (InfBase T))
    (hd : ∃ v r, (∀ i, v i ∈ γ (ρ i)) ∧ e.Rounded (Faithful T) v r) :
    ∃ z N, (∀ v r, (∀ i, v i ∈ γ (ρ i)) → e.Rounded (Faithful T) v r → r ∈ γ z) ∧ (e.nests = false → N = 0) ∧
      ∀ fuel ≥ N, V.Returns (V.P.rnd.scope (e.eval K fuel V.P.unprot ρ)) (· = z) := by
  obtain ⟨v, r, h1, h2⟩ := hd
  obtain ⟨q, N, hq, hN, h⟩ := e.eval_rounded faithful_absorbs (B := False) False.elim hV .inl ρ hs ⟨r, v, h1, h2⟩
  rcases hq with ⟨z, rfl, hz⟩ | ⟨e, ⟨⟨⟩, -⟩, -⟩
  exact ⟨z, N, fun v r h1 h2 => hz ⟨v, h1, h2⟩, hN, fun fuel hf =>
      V.run hV (fun _ hp => hp.scope (h fuel hf hp.unprot).sim) (Post.of_ok ⟨z, rfl, rfl⟩)⟩
end

section
variable {f : Fmt}

theorem Rounds.faithful {r : RMode} {e c : ℝ} {t : Fl f} (h : Rounds f r (e : EReal) t) (ht : val t = some (c : EReal)) :
    Faithful (Fl f) e c := by
  obtain ⟨z, hz, h⟩ := h
  obtain rfl := Option.some.inj (hz.symm.trans ht)
  exact fun w hw => ⟨h.lo w hw, h.up w hw⟩

theorem Faithful.of_eq {T : Type} [Val T] {e c : ℝ} (h : c = e) : Faithful T e c := by
  subst h; exact fun _ _ => ⟨id, id⟩

theorem inf_not_finite {s : Bool} {c : ℝ} : val (Fl.inf s : Fl f) ≠ some (c : EReal) := by
  cases s <;> rintro ⟨⟩

/-- Finite numbers are zeros or not. -/
theorem fl_cases {a : Fl f} {x : ℝ} (h : val a = some (x : EReal)) :
    (∃ s, a = .zero s) ∨ ∃ q hq, a = .nz q hq ∧ (q : ℝ) = x := by
  cases a with
  | nan => cases h
  | inf s => exact (inf_not_finite h).elim
  | zero s => exact .inl ⟨s, rfl⟩
  | nz q hq => exact .inr ⟨q, hq, rfl, EReal.coe_eq_coe_iff.1 (Option.some.inj h)⟩

theorem fin_addOk (a b : ℝ) : AddOk a b := ⟨.inl (EReal.coe_ne_top a), .inl (EReal.coe_ne_bot a)⟩
theorem fin_subOk (a b : ℝ) : SubOk a b := ⟨.inl (EReal.coe_ne_top a), .inl (EReal.coe_ne_bot a)⟩
theorem fin_mulOk (a b : ℝ) : MulOk a b :=
  ⟨.inr ⟨EReal.coe_ne_bot b, EReal.coe_ne_top b⟩, .inr ⟨EReal.coe_ne_bot a, EReal.coe_ne_top a⟩⟩

/-- A finite quotient has a divisor other than zero. -/
theorem div_finite {r : RMode} {a b t : Fl f} {x y c : ℝ} (ha : val a = some (x : EReal)) (hb : val b = some (y : EReal))
    (h : a.div r b = t) (ht : val t = some (c : EReal)) : y ≠ 0 ∧ Faithful (Fl f) (x / y) c := by
  have hy : y ≠ 0 := by
    rintro rfl
    subst h
    rcases fl_cases hb with ⟨s, rfl⟩ | ⟨q, hq, rfl, e⟩
    · rcases fl_cases ha with ⟨s', rfl⟩ | ⟨q, hq, rfl, -⟩
      · cases ht
      · exact inf_not_finite ht
    · exact hq.1 (by exact_mod_cast e)
  refine ⟨hy, ?_⟩
  have := div_rounds r ha hb ⟨by exact_mod_cast hy, .inl ⟨EReal.coe_ne_bot x, EReal.coe_ne_top x⟩⟩
  rw [h, ← EReal.coe_div] at this
  exact this.faithful ht

theorem sqrt_finite {r : RMode} {a t : Fl f} {x c : ℝ} (ha : val a = some (x : EReal))
    (h : a.sqrt r = t) (ht : val t = some (c : EReal)) : 0 ≤ x ∧ Faithful (Fl f) (Real.sqrt x) c := by
  have hx : 0 ≤ x := by
    rcases fl_cases ha with ⟨s, rfl⟩ | ⟨q, hq, rfl, e⟩
    · rw [EReal.coe_eq_zero.1 (Option.some.inj ha).symm]
    · by_contra hx
      have hq' : q < 0 := by rw [← e] at hx; exact_mod_cast not_le.1 hx
      subst h
      simp only [Fl.sqrt, hq', if_true] at ht
      cases ht
  have := sqrt_rounds r ha (by exact_mod_cast hx)
  rw [h] at this
  exact ⟨hx, Rounds.faithful this ht⟩

theorem UnOp.plain_faithful {o : UnOp} {r : RMode} {a t : Fl f} {x c : ℝ} (ha : val a = some (x : EReal))
    (h : o.plain r a = some t) (ht : val t = some (c : EReal)) : ∃ s, o.Rel x s ∧ Faithful (Fl f) s c := by
  have hneg : ∀ {t : Fl f}, Num.neg a = some t → val t = some (c : EReal) → c = -x := by
    intro t h ht
    rw [NumLaws.neg _ _ h, ha] at ht
    have e : (-(x : EReal)) = c := Option.some.inj ht
    exact_mod_cast e.symm
  cases o with
  | pos => cases h; exact ⟨x, rfl, .of_eq (by rw [ha] at ht; exact_mod_cast (Option.some.inj ht).symm)⟩
  | neg => exact ⟨-x, rfl, .of_eq (hneg h ht)⟩
  | abs =>
    refine ⟨|x|, rfl, .of_eq ?_⟩
    have h0 : val (Num.lit 0 : Fl f) = some ((0 : ℝ) : EReal) := by simpa using NumLaws.lit (T := Fl f) 0 (by norm_num)
    have hlt : Num.lt a (Num.lit 0) = true ↔ x < 0 := by
      rw [NumLaws.lt_iff, ha, h0]; simp
    simp only [UnOp.plain] at h
    split at h
    · rename_i h'; rw [abs_of_neg (hlt.1 h')]; exact hneg h ht
    · rename_i h'; cases h; rw [abs_of_nonneg (not_lt.1 fun h => h' (hlt.2 h))]
      rw [ha] at ht; exact_mod_cast (Option.some.inj ht).symm
  | square =>
    refine ⟨x ^ 2, rfl, ?_⟩
    have := mul_rounds r ha ha (fin_mulOk x x)
    rw [Option.some.inj h, ← EReal.coe_mul, ← sq] at this
    exact this.faithful ht
  | sqrt => exact (sqrt_finite ha (Option.some.inj h) ht).elim fun h1 h2 => ⟨_, ⟨h1, rfl⟩, h2⟩
  | inv =>
    have h1 : val (Num.lit 1 : Fl f) = some ((1 : ℝ) : EReal) := by simpa using NumLaws.lit (T := Fl f) 1 (by norm_num)
    obtain ⟨k1, k2⟩ := div_finite h1 ha (Option.some.inj h) ht
    exact ⟨_, ⟨k1, rfl⟩, by rwa [one_div] at k2⟩

theorem BinOp.plain_faithful {o : BinOp} {r : RMode} {a b t : Fl f} {x y c : ℝ} (ha : val a = some (x : EReal))
    (hb : val b = some (y : EReal)) (h : o.plain r a b = some t) (ht : val t = some (c : EReal)) :
    ∃ s, o.Rel x y s ∧ Faithful (Fl f) s c := by
  have hlt : ∀ {a b : Fl f} {x y : ℝ}, val a = some (x : EReal) → val b = some (y : EReal) → (Num.lt a b = true ↔ x < y) := by
    intro a b x y ha hb; rw [NumLaws.lt_iff, ha, hb]; simp
  have he : ∀ {a : Fl f} {x : ℝ}, val a = some (x : EReal) → val a = some (c : EReal) → c = x := by
    intro a x h1 h2; rw [h1] at h2; exact_mod_cast (Option.some.inj h2).symm
  cases o with
  | add =>
    have := add_rounds r ha hb (fin_addOk x y)
    rw [Option.some.inj h, ← EReal.coe_add] at this
    exact ⟨_, rfl, this.faithful ht⟩
  | sub =>
    have := sub_rounds r ha hb (fin_subOk x y)
    rw [Option.some.inj h, ← EReal.coe_sub] at this
    exact ⟨_, rfl, this.faithful ht⟩
  | mul =>
    have := mul_rounds r ha hb (fin_mulOk x y)
    rw [Option.some.inj h, ← EReal.coe_mul] at this
    exact ⟨_, rfl, this.faithful ht⟩
  | div => exact (div_finite ha hb (Option.some.inj h) ht).elim fun h1 h2 => ⟨_, ⟨h1, rfl⟩, h2⟩
  | min =>
    refine ⟨_, rfl, .of_eq ?_⟩
    cases h
    unfold stdMin at ht
    split at ht
    · rename_i h'; rw [min_eq_right ((hlt hb ha).1 h').le]; exact he hb ht
    · rename_i h'; rw [min_eq_left (not_lt.1 fun h => h' ((hlt hb ha).2 h))]; exact he ha ht
  | max =>
    refine ⟨_, rfl, .of_eq ?_⟩
    cases h
    unfold stdMax at ht
    split at ht
    · rename_i h'; rw [max_eq_right ((hlt ha hb).1 h').le]; exact he hb ht
    · rename_i h'; rw [max_eq_left (not_lt.1 fun h => h' ((hlt ha hb).2 h))]; exact he ha ht
  | hull => cases h

/-- What a machine evaluates in floating-point arithmetic is a rounded value of the formula. -/
theorem Expr.machine_rounded {ρ : ℕ → Fl f} {v : ℕ → ℝ} (hv : ∀ i r, val (ρ i) = some ((r : ℝ) : EReal) → v i = r)
    (e : Expr (Fl f)) : ∀ {t : Fl f}, e.Machine ρ t → ∃ r : ℝ, val t = some (r : EReal) ∧ e.Rounded (Faithful (Fl f)) v r := by
  induction e with
  | var i => rintro _ ⟨rfl, r, h⟩; exact ⟨r, h, (hv i r h).symm⟩
  | num c => rintro _ ⟨rfl, r, h⟩; exact ⟨r, h, h⟩
  | un o e ih =>
    rintro t ⟨a, m, h1, h2, r, h3⟩
    obtain ⟨x, hx, hr⟩ := ih h1
    obtain ⟨s, k1, k2⟩ := UnOp.plain_faithful hx h2 h3
    exact ⟨r, h3, x, s, hr, k1, k2⟩
  | bin o e₁ e₂ ih₁ ih₂ =>
    rintro t ⟨a, b, m, h1, h1', h2, r, h3⟩
    obtain ⟨x, hx, hr⟩ := ih₁ h1
    obtain ⟨y, hy, hr'⟩ := ih₂ h1'
    obtain ⟨s, k1, k2⟩ := BinOp.plain_faithful hx hy h2 h3
    exact ⟨r, h3, x, y, s, hr, hr', k1, k2⟩
  | binL o a e ih =>
    rintro t ⟨b, m, ⟨x, hx⟩, h1, h2, r, h3⟩
    obtain ⟨y, hy, hr⟩ := ih h1
    obtain ⟨s, k1, k2⟩ := BinOp.plain_faithful hx hy h2 h3
    exact ⟨r, h3, x, y, s, hx, hr, k1, k2⟩
  | binR o e b ih =>
    rintro t ⟨a, m, ⟨y, hy⟩, h1, h2, r, h3⟩
    obtain ⟨x, hx, hr⟩ := ih h1
    obtain ⟨s, k1, k2⟩ := BinOp.plain_faithful hx hy h2 h3
    exact ⟨r, h3, x, y, s, hr, hy, k1, k2⟩
  | pow e k ih => exact fun h => h.elim
  | inter e₁ e₂ ih₁ ih₂ => exact fun h => h.elim
  | fn g e ih => exact fun h => h.elim

/-- Such formulas are within the reach of C14. -/
theorem Expr.Machine.supported {V : Env (Fl f)} (hq : V.SqrtOk LeB GeB) (K : PiConst (Fl f)) {ρ : ℕ → Fl f} :
    ∀ {e : Expr (Fl f)} {t}, e.Machine ρ t → e.Supported V K (InfBase (Fl f)) ∧ e.nests = false := by
  intro e
  induction e with
  | var i => exact fun _ => ⟨trivial, rfl⟩
  | num c => exact fun _ => ⟨trivial, rfl⟩
  | un o e ih => rintro t ⟨a, m, h1, -⟩; exact ⟨⟨fun _ => fl_inf, fun _ => hq, (ih h1).1⟩, (ih h1).2⟩
  | bin o e₁ e₂ ih₁ ih₂ =>
    rintro t ⟨a, b, m, h1, h2, -⟩
    exact ⟨⟨fun _ => fl_inf, (ih₁ h1).1, (ih₂ h2).1⟩, by simp [Expr.nests, (ih₁ h1).2, (ih₂ h2).2]⟩
  | binL o a e ih => rintro t ⟨b, m, -, h1, -⟩; exact ⟨⟨fun _ => fl_inf, (ih h1).1⟩, (ih h1).2⟩
  | binR o e b ih => rintro t ⟨a, m, -, h1, -⟩; exact ⟨(ih h1).1, (ih h1).2⟩
  | pow e k ih => exact fun h => h.elim
  | inter e₁ e₂ ih₁ ih₂ => exact fun h => h.elim
  | fn g e ih => exact fun h => h.elim

/-- A program that evaluates the formula `e` with floating-point numbers `ρ i`, whatever the rounding mode of each operation,
and meets neither infinities nor NaN on its way, computes a number inside the result for intervals `x i` that contain
the `ρ i`; this result exists. Formulas with powers or functions of the C++ library, which `Expr.Machine` leaves out, are in
`C67_rounded_partial`. -/
theorem C67_machine (V : Env (Fl f)) (hV : V.Directed) (hq : V.SqrtOk LeB GeB) (K : PiConst (Fl f)) (fuel : ℕ)
    (x : ℕ → Itv (Fl f)) (ρ : ℕ → Fl f) (hρ : ∀ i, ∃ r : ℝ, val (ρ i) = some (r : EReal) ∧ r ∈ γ (x i)) (e : Expr (Fl f)) (t : Fl f)
    (h : e.Machine ρ t) :
    V.Returns (e.eval K fuel V.P x) fun z => ∃ r : ℝ, val t = some (r : EReal) ∧ r ∈ γ z := by
  choose v hv hx using hρ
  obtain ⟨r, hr, hR⟩ := e.machine_rounded (v := v) (fun i r h => EReal.coe_eq_coe_iff.1 (Option.some.inj ((hv i).symm.trans h))) h
  obtain ⟨h1, h2⟩ := h.supported hq K
  obtain ⟨z, N, hz, hN, hret⟩ := C67_rounded_partial V hV K x e h1 ⟨v, r, hx, hR⟩
  exact (hret fuel ((hN h2).trans_le (Nat.zero_le _))).mono fun _ e => ⟨r, hr, e ▸ hz v r hx hR⟩

/-- The same in a block that owns a rounding object and computes with the unprotected type. -/
theorem C67_machine_region (V : Env (Fl f)) (hV : V.Directed) (hq : V.SqrtOk LeB GeB) (K : PiConst (Fl f)) (fuel : ℕ)
    (x : ℕ → Itv (Fl f)) (ρ : ℕ → Fl f) (hρ : ∀ i, ∃ r : ℝ, val (ρ i) = some (r : EReal) ∧ r ∈ γ (x i)) (e : Expr (Fl f)) (t : Fl f)
    (h : e.Machine ρ t) :
    V.Returns (V.P.rnd.scope (e.eval K fuel V.P.unprot x)) fun z => ∃ r : ℝ, val t = some (r : EReal) ∧ r ∈ γ z := by
  choose v hv hx using hρ
  obtain ⟨r, hr, hR⟩ := e.machine_rounded (v := v) (fun i r h => EReal.coe_eq_coe_iff.1 (Option.some.inj ((hv i).symm.trans h))) h
  obtain ⟨h1, h2⟩ := h.supported hq K
  obtain ⟨z, N, hz, hN, hret⟩ := C67_region_partial V hV K x e h1 ⟨v, r, hx, hR⟩
  exact (hret fuel ((hN h2).trans_le (Nat.zero_le _))).mono fun _ e => ⟨r, hr, e ▸ hz v r hx hR⟩

/-! ## The hypotheses can be met -/

/-- `1 / 3`, rounded to nearest, is not the quotient: `x / 3` at `x = 1`, evaluated over `[1, 2]`. -/
example (fuel : ℕ) : ∃ t : Fl .double, ∃ c : ℝ, val t = some (c : EReal) ∧ c ≠ 1 / 3 ∧
    dbl.Returns ((Expr.binR .div (.var 0) (Num.lit 3)).eval (piDouble .near) fuel dbl.P fun _ => litI 1 2)
      fun z => ∃ r : ℝ, val t = some (r : EReal) ∧ r ∈ γ z := by
  have e : (Num.lit 1 : Fl .double).div .near (Num.lit 3) = .nz (6004799503160661 / 18014398509481984)
      (by refine ⟨by norm_num, 6004799503160661, -54, ?_, ?_, ?_, ?_⟩ <;> decide +kernel) := by
    decide +kernel
  have h1 : val (Num.lit 1 : Fl .double) = some ((1 : ℝ) : EReal) := by rw [val_one]; rfl
  have h3 : val (Num.lit 3 : Fl .double) = some ((3 : ℝ) : EReal) := by simpa using NumLaws.lit (T := Fl .double) 3 (by norm_num)
  refine ⟨_, ((6004799503160661 / 18014398509481984 : ℚ) : ℝ), rfl, by norm_num, C67_machine dbl dbl_directed
    (dbl_sqrt.mono (fun h => h.2.1) fun h => h.2.1) (piDouble .near) fuel (fun _ => litI 1 2) (fun _ => Num.lit 1)
    (fun _ => ⟨1, h1, in_lit⟩) _ _ ⟨Num.lit 1, .near, ⟨3, h3⟩, ⟨rfl, 1, h1⟩, congrArg some e, _, rfl⟩⟩

/-- `max(-x, |y|)` -/
example := fun fuel => C67_machine_region flt flt_directed (flt_sqrt.mono (fun h => h.2.1) fun h => h.2.1) piGeneric fuel (fun _ => litI 1 2)
  (fun _ => Num.lit 1) (fun _ => ⟨1, by rw [val_one]; rfl, in_lit⟩) (.bin .max (.un .neg (.var 0)) (.un .abs (.var 1))) (Num.lit 1)
  ⟨Num.lit (-1), Num.lit 1, .up, ⟨Num.lit 1, .near, ⟨rfl, 1, by rw [val_one]; rfl⟩, by decide +kernel, -1, by
      simpa using NumLaws.lit (T := Fl .single) (-1) (by norm_num)⟩,
    ⟨Num.lit 1, .near, ⟨rfl, 1, by rw [val_one]; rfl⟩, by decide +kernel, 1, by rw [val_one]; rfl⟩, by decide +kernel, 1,
    by rw [val_one]; rfl⟩

/-- `exp(x) + pow(y, 3)` with `exp(0)` exact and `2 ^ 3` computed as any faithful rounding. -/
example := C67_rounded_partial dblStd dblStd_tight.directed (piDouble .near) (fun i => if i = 0 then litI (-1) 4 else litI 0 3)
  (.bin .add (.fn .exp (.var 0)) (.pow (.var 1) 3))
  ⟨(fun h => by cases h), ⟨⟨(C21_double .near).brackets, (dblStd_fn .exp).directed, (fun h => by cases h), fun h => by cases h⟩, trivial⟩,
    dblStd_tight.signed, by decide, (fun h => by omega), trivial⟩
  ⟨fun i => if i = 0 then 0 else 2, 9, fun i => by dsimp only; split <;> exact in_lit, 1, 8, 9,
    ⟨0, rfl, trivial, .of_eq Real.exp_zero.symm⟩, ⟨2, rfl, .inl two_ne_zero, .of_eq (by norm_num)⟩,
    by change (9 : ℝ) = 1 + 8; norm_num, .of_eq rfl⟩

end
end BI
