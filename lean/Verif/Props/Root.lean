import Verif.Proofs.RootBig
import Verif.Proofs.InstArith2
import Verif.Props.Arith2
import Verif.Props.Empty
import Verif.Proofs.RootRat
/-! # C43: `nth_root`

There is no rounding object in `nth_root`: it computes with the unprotected type in the direction it is called in. With the
policies that switch for each operation (`rounded_arith_std`) this is harmless. The default policies
(`rounded_arith_opp`) expect the upward direction: `V.ReturnsInside` asks for it, and `C43_near` shows what happens
otherwise. The fuel bounds the number of turns of each loop `while (!equal(y, yy))`. -/

namespace BI
open Set

section
variable {T : Type} [Num T] [Val T] [NumLaws T] (V : Env T) {D U : EReal → EReal → Prop} {x : Itv T} {n : ℕ}

theorem inside_of (hk : V.kind ≠ .exact) {α : Type} {op : M V.ctl.W α} {r : Res α} {z : α}
    (hs : ∀ J, PSim (outer V.laws) J V.P V.B V.C → Sim J op r) (hr : r = .ok z) : V.ReturnsInside op (· = z) := by
  intro s hv ho
  have h : PSim (outer V.laws) (inner V.laws V.kind) V.P V.B V.C := by
    have := protPolicies_sim (L := V.laws) V.kind V.lib V.C (fun h => absurd h hk)
    unfold Env.P Env.B libPolicies
    cases hh : V.kind with
    | exact => exact absurd hh hk
    | std => rw [hh] at this; exact this
    | opp => rw [hh] at this; exact this
  obtain ⟨h1, h2, h3⟩ := hs _ h s ⟨hv, ho⟩
  have h4 := h3 z hr
  exact ⟨z, h1.trans hr, rfl, h2, h4.1, h4.2⟩

/-- On the machine. -/
theorem root_run (hV : V.Ok D U) (hk : V.kind ≠ .exact) {tk : T} (hi : IntIs (n : ℤ) tk) {z : Itv T} {N : ℕ}
    (h : ∀ fuel > N, nthRoot V.pp V.ndebug fuel x (n : ℤ) = .ok z) : ∀ fuel > N,
    V.ReturnsInside (nthRoot V.P V.ndebug fuel x (n : ℤ)) (· = z) ∧
      V.Returns (V.P.rnd.scope (nthRoot V.P.unprot V.ndebug fuel x (n : ℤ))) (· = z) := fun fuel hf => by
  have hi' : ∀ r r', (Num.ofInt r (n : ℤ) : Option T) = Num.ofInt r' (n : ℤ) := fun r r' => (hi.1 r).trans (hi.1 r').symm
  exact ⟨inside_of V hk (fun _ hs => nthRoot_sim hs _ _ _ _ hi') (h fuel hf),
    V.run hV (fun _ hs => hs.scope (nthRoot_sim hs.unprot _ _ _ _ hi')) (Post.of_eq (h fuel hf) rfl)⟩

/-- An even root of an interval of negative numbers is empty. -/
theorem C43_empty (hx : (γ x).Nonempty) (hn : Even n) (h0 : 0 < n) (hneg : ∀ r ∈ γ x, r < 0) (fuel : ℕ) :
    V.YieldsEmpty (nthRoot V.P V.ndebug fuel x (n : ℤ)) := by
  obtain ⟨a, b, ix⟩ := has_of_nonempty hx
  have hb : b < 0 := by
    by_contra hc
    rw [not_lt] at hc
    obtain ⟨r, hr⟩ := hx
    have hr' := ix.lb hr
    have : (0 : ℝ) ∈ γ x := ⟨a, b, ix.lo, ix.up, hr'.trans (by exact_mod_cast (hneg r hr).le), hc⟩
    exact lt_irrefl _ (hneg 0 this)
  have hchk : V.P.chk = V.C := by unfold Env.P libPolicies; cases V.kind <;> rfl
  have e : nthRoot V.P V.ndebug fuel x (n : ℤ) = (lift (emptyI V.C) : M V.ctl.W (Itv T)) := by
    obtain ⟨k, hk⟩ := hn
    unfold nthRoot
    rw [hchk, ix.test V.chk]
    change ((lift (assertRes V.ndebug (decide (0 < (n : ℤ)))) : M V.ctl.W Unit) >>= _) = _
    rw [decide_eq_true (by omega), if_neg (by omega), isPos_eq ix.up, isZero_eq ix.up, decide_eq_false (not_lt.2 hb.le),
      decide_eq_false hb.ne, if_pos (by rfl), if_neg (by simp), if_pos (by omega)]
    unfold assertRes
    rfl
  rw [e]
  exact V.yieldsEmpty_of (Sim.lift _) rfl

/-- Without `NDEBUG` the index must be positive. -/
theorem C43_index (hx : (γ x).Nonempty) (hd : V.ndebug = false) {k : ℤ} (hk : k ≤ 0) (fuel : ℕ) :
    V.Throws (nthRoot V.P V.ndebug fuel x k) .assertion := by
  obtain ⟨a, b, ix⟩ := has_of_nonempty hx
  have hchk : V.P.chk = V.C := by unfold Env.P libPolicies; cases V.kind <;> rfl
  have e : nthRoot V.P V.ndebug fuel x k = (lift (.error .assertion) : M V.ctl.W (Itv T)) := by
    unfold nthRoot
    rw [hchk, ix.test V.chk]
    change ((lift (assertRes V.ndebug (decide (0 < k))) : M V.ctl.W Unit) >>= _) = _
    rw [decide_eq_false (by omega), hd]
    rfl
  rw [e]
  exact fun s _ => ⟨rfl, rfl⟩
end

section
variable {f : Fmt} (V : Env (Fl f)) {x : Itv (Fl f)} {n : ℕ}

theorem root_int (hn : (n : ℤ) < 2 ^ f.p) : IntIs (n : ℤ) (Fl.ofInt .near (n : ℤ) : Fl f) := by
  have : Rep f ((n : ℤ) : ℚ) := rep_int (by rw [abs_of_nonneg (by omega)]; exact hn)
  exact intIs_fl this

theorem root_sign {a b : EReal} (ix : Has x a b) (h : Odd n ∨ ∃ r ∈ γ x, 0 ≤ r) : 0 ≤ b ∨ Odd n := by
  rcases h with h | ⟨r, hr, h0⟩
  · exact .inr h
  · exact .inl (le_trans (by exact_mod_cast h0) (ix.ub hr))

theorem root_bounds {a b : EReal} (ix : Has x a b) (hx : (γ x).Nonempty) (hu : BddAbove (γ x)) (hl : BddBelow (γ x) ∨ Even n)
    (ht : ∀ r ∈ γ x, IsLeast (γ x) r ∧ 0 < r ∨ IsGreatest (γ x) r ∧ r < 0 ∧ Odd n → 1 ≤ |r| * maxFin f) :
    b ≠ ⊤ ∧ (a ≠ ⊥ ∨ Even n) ∧ ∀ r : ℝ, 0 < r → a = r ∨ (b = -r ∧ Odd n) →
      ∃ m : ℝ, Representable (Fl f) (m : EReal) ∧ 1 / r ≤ m := by
  have mem : ∀ r : ℝ, a ≤ r → (r : EReal) ≤ b → r ∈ γ x := fun r h h' => ⟨a, b, ix.lo, ix.up, h, h'⟩
  have hrep : Representable (Fl f) (((maxFin f : ℚ) : ℝ) : EReal) := (representable_iff _).2 (.inr (.inr ⟨_, rep_maxFin f, rfl⟩))
  refine ⟨?_, ?_, ?_⟩
  · rintro rfl
    obtain ⟨c, hc⟩ := hu
    obtain ⟨r, hr⟩ := hx
    have h5 := hc (mem (max r (c + 1)) ((ix.lb hr).trans (by exact_mod_cast le_max_left _ _)) le_top)
    have := le_max_right r (c + 1)
    linarith
  · refine hl.imp_left ?_
    rintro ⟨c, hc⟩ rfl
    obtain ⟨r, hr⟩ := hx
    have h5 := hc (mem (min r (c - 1)) bot_le (le_trans (by exact_mod_cast min_le_left _ _) (ix.ub hr)))
    have := min_le_right r (c - 1)
    linarith
  · rintro r h0 (rfl | ⟨rfl, ho⟩)
    · refine ⟨maxFin f, hrep, ?_⟩
      have h5 := ht r (mem r le_rfl ix.le) (.inl ⟨⟨mem r le_rfl ix.le, fun t ht => by exact_mod_cast ix.lb ht⟩, h0⟩)
      rw [div_le_iff₀ h0, mul_comm]
      rwa [abs_of_pos h0] at h5
    · refine ⟨maxFin f, hrep, ?_⟩
      have hle : a ≤ ((-r : ℝ) : EReal) := by simpa using ix.le
      have hm := mem (-r) hle (by simp)
      have h5 := ht (-r) hm (.inr ⟨⟨hm, fun t ht => by
        have := ix.ub ht; rw [← EReal.coe_neg] at this; exact_mod_cast this⟩, by linarith, ho⟩)
      rw [div_le_iff₀ h0, mul_comm]
      rwa [abs_neg, abs_of_pos h0] at h5

/-- With policies that look neither for empty intervals nor for NaN, as the default ones: `nth_root` of any interval
terminates, and the result contains the roots. It may be called in a direction the rounding policy works with, or in a
region. -/
theorem C43_encloses (hk : V.kind ≠ .exact) (hf : (f.p : ℤ) + 2 ≤ f.emax) (hE : V.checks.forbidsEmpty = true)
    (hN : V.checks.seesNan = false) (hC : V.checks.catchesNan = false) (h1 : 1 ≤ n) (hn : (n : ℤ) < 2 ^ f.p)
    (hx : (γ x).Nonempty) (he : Odd n ∨ ∃ r ∈ γ x, 0 ≤ r) :
    ∃ z N, RootOut n (γ x) z ∧ ∀ fuel > N,
      V.ReturnsInside (nthRoot V.P V.ndebug fuel x (n : ℤ)) (· = z) ∧
      V.Returns (V.P.rnd.scope (nthRoot V.P.unprot V.ndebug fuel x (n : ℤ))) (· = z) := by
  obtain ⟨a, b, ix⟩ := has_of_nonempty hx
  have hV := V.fl_tight hk
  have hB : V.Blind := ⟨isEmpty_forbid V.checks V.ndebug hE, isNan_blind V.checks V.ndebug hN hC⟩
  have hi := root_int (f := f) hn
  by_cases h2 : n = 1
  · subst h2
    refine ⟨x, 0, fun s _ h => by rwa [pow_one] at h, root_run V hV hk hi fun fuel hf => ?_⟩
    unfold nthRoot
    rw [pure_chk, res_if_false (ix.test V.chk)]
    unfold assertRes
    rfl
  · obtain ⟨z, N, h3, h4⟩ := nthRoot_ok hV fl_inf (fl_midOk hf) fl_discrete h1 hi ix
      (.inr (fl_topOk hk hB (by omega) hi)) (root_sign ix he) V.ndebug
    exact ⟨z, N, h4, root_run V hV hk hi h3⟩

/-- With any policies, for intervals with finite bounds (for an even root the lower one may be infinite) that are zero or
have a representable inverse. Missing: policies that see NaN and intervals with other bounds; then the result may be empty
or NaN, see `C43_infinite` and `C43_tiny`. -/
theorem C43_encloses_partial (hk : V.kind ≠ .exact) (hf : (f.p : ℤ) + 2 ≤ f.emax) (h1 : 1 ≤ n) (hn : (n : ℤ) < 2 ^ f.p)
    (hx : (γ x).Nonempty) (hu : BddAbove (γ x)) (hl : BddBelow (γ x) ∨ Even n)
    (ht : ∀ r ∈ γ x, IsLeast (γ x) r ∧ 0 < r ∨ IsGreatest (γ x) r ∧ r < 0 ∧ Odd n → 1 ≤ |r| * maxFin f)
    (he : Odd n ∨ ∃ r ∈ γ x, 0 ≤ r) :
    ∃ z N, RootOut n (γ x) z ∧ ∀ fuel > N,
      V.ReturnsInside (nthRoot V.P V.ndebug fuel x (n : ℤ)) (· = z) ∧
      V.Returns (V.P.rnd.scope (nthRoot V.P.unprot V.ndebug fuel x (n : ℤ))) (· = z) := by
  obtain ⟨a, b, ix⟩ := has_of_nonempty hx
  have hV := V.fl_tight hk
  have hi := root_int (f := f) hn
  obtain ⟨z, N, h3, h4⟩ := nthRoot_ok hV fl_inf (fl_midOk hf) fl_discrete h1 hi ix (.inl (root_bounds ix hx hu hl ht))
    (root_sign ix he) V.ndebug
  exact ⟨z, N, h4, root_run V hV hk hi h3⟩

theorem root_run' (hk : V.kind ≠ .exact) {Q : Itv (Fl f) → Prop}
    (h : ∀ P : Policies (M V.ctl.W) (Fl f), P.chk = V.C → P.unprot = V.P.unprot →
      ∃ N, ∀ fuel > N, TriIn V (nthRoot P V.ndebug fuel x (n : ℤ)) Q) :
    ∃ N, ∀ fuel > N, V.ReturnsInside (nthRoot V.P V.ndebug fuel x (n : ℤ)) Q ∧
      V.Returns (V.P.rnd.scope (nthRoot V.P.unprot V.ndebug fuel x (n : ℤ))) Q := by
  obtain ⟨N, h1⟩ := h V.P (by unfold Env.P libPolicies; cases V.kind <;> rfl) rfl
  obtain ⟨N', h2⟩ := h V.P.unprot (by unfold Env.P libPolicies; cases V.kind <;> rfl) rfl
  refine ⟨max N N', fun fuel hf => ⟨tri_inside (h1 fuel (lt_of_le_of_lt (le_max_left _ _) hf)), fun s hs => ?_⟩⟩
  obtain ⟨h3, h4⟩ := tri_scope hk (h2 fuel (lt_of_le_of_lt (le_max_right _ _) hf)) s hs
  cases ho : (V.P.rnd.scope (nthRoot V.P.unprot V.ndebug fuel x (n : ℤ)) s).1 with
  | ok z => rw [ho] at h4; exact ⟨z, rfl, h3.symm, h4.1⟩
  | error e => rw [ho] at h4; exact h4.elim

/-- The same for every index up to the largest number of the format. An index of more than `p` digits is rounded when it is
converted, in the direction in force at that moment, so that the result may depend on the state. It contains the roots all
the same. -/
theorem C43_encloses_index (hk : V.kind ≠ .exact) (hf : (f.p : ℤ) + 2 ≤ f.emax) (hp : 4 ≤ f.p) (hE : V.checks.forbidsEmpty = true)
    (hN : V.checks.seesNan = false) (hC : V.checks.catchesNan = false) (h1 : 1 ≤ n) (hn : (n : ℚ) ≤ maxFin f)
    (hx : (γ x).Nonempty) (he : Odd n ∨ ∃ r ∈ γ x, 0 ≤ r) :
    ∃ N, ∀ fuel > N, V.ReturnsInside (nthRoot V.P V.ndebug fuel x (n : ℤ)) (RootOut n (γ x)) ∧
      V.Returns (V.P.rnd.scope (nthRoot V.P.unprot V.ndebug fuel x (n : ℤ))) (RootOut n (γ x)) := by
  obtain ⟨a, b, ix⟩ := has_of_nonempty hx
  have hB : V.Blind := ⟨isEmpty_forbid V.checks V.ndebug hE, isNan_blind V.checks V.ndebug hN hC⟩
  have hi := fl_idxFor hp hn
  refine root_run' V hk fun P h2 h3 => ?_
  by_cases hn1 : n = 1
  · subst hn1
    refine ⟨0, fun fuel _ => ?_⟩
    unfold nthRoot
    rw [h2]
    refine (Tri.lift (r := testI V.C x) (Q := (· = false)) (by rw [ix.test V.chk]; exact rfl)).bind ?_
    rintro _ rfl
    have hassert : assertRes V.ndebug (decide (0 < ((1 : ℕ) : ℤ))) = .ok () := by
      unfold assertRes; rfl
    rw [if_neg (by simp), hassert]
    exact (Tri.lift (r := (.ok () : Res Unit)) (Q := fun _ => True) trivial).bind fun _ _ =>
      Tri.pure fun s _ h => by rwa [pow_one] at h
  · exact nthRoot_tri hk (V.fl_tight hk) fl_inf (fl_midOk hf) fl_discrete h1 hi ix
      (.inr (fl_topTri hk hB (by omega) hi)) (root_sign ix he) V.ndebug P h2 h3

/-- The same with any policies. Missing: as for `C43_encloses_partial`. -/
theorem C43_encloses_index_partial (hk : V.kind ≠ .exact) (hf : (f.p : ℤ) + 2 ≤ f.emax) (hp : 4 ≤ f.p) (h1 : 1 ≤ n)
    (hn : (n : ℚ) ≤ maxFin f) (hx : (γ x).Nonempty) (hu : BddAbove (γ x)) (hl : BddBelow (γ x) ∨ Even n)
    (ht : ∀ r ∈ γ x, IsLeast (γ x) r ∧ 0 < r ∨ IsGreatest (γ x) r ∧ r < 0 ∧ Odd n → 1 ≤ |r| * maxFin f)
    (he : Odd n ∨ ∃ r ∈ γ x, 0 ≤ r) :
    ∃ N, ∀ fuel > N, V.ReturnsInside (nthRoot V.P V.ndebug fuel x (n : ℤ)) (RootOut n (γ x)) ∧
      V.Returns (V.P.rnd.scope (nthRoot V.P.unprot V.ndebug fuel x (n : ℤ))) (RootOut n (γ x)) := by
  obtain ⟨a, b, ix⟩ := has_of_nonempty hx
  exact root_run' V hk fun P h2 h3 => nthRoot_tri hk (V.fl_tight hk) fl_inf (fl_midOk hf) fl_discrete h1 (fl_idxFor hp hn) ix
    (.inl (root_bounds ix hx hu hl ht)) (root_sign ix he) V.ndebug P h2 h3
end

/-! ## Where the claim fails -/

/-- The number 272467777455915 / 2^51, about 0.121. -/
noncomputable def x121 : Fl Fmt.double := .nz (272467777455915 / 2251799813685248)
  ⟨by norm_num, 272467777455915, -51, by norm_num [Fmt.double], by decide, by decide, by norm_num⟩

theorem rep121 : (6266318296469597 / 18014398509481984 : ℚ) ≠ 0 ∧ Rep Fmt.double (6266318296469597 / 18014398509481984) :=
  ⟨by norm_num, 6266318296469597, -54, by norm_num [Fmt.double], by decide, by decide, by norm_num⟩

/-- The default policies, called in to-nearest direction (the one a program starts in): the upper bound of
`nth_root([x, x], 2)` is less than the square root of `x`. -/
theorem C43_near :
    let s : dbl.State := ⟨(⟨.near, ()⟩ : FEnv Unit), fun _ => true⟩
    let r := nthRoot dbl.P true 20 ⟨x121, x121⟩ 2 s
    ∃ z, r.1 = .ok z ∧ ¬ RootOut 2 (γ (⟨x121, x121⟩ : Itv (Fl Fmt.double))) z := by
  intro s r
  obtain ⟨z, hz⟩ : ∃ z, r.1 = .ok z := exists_of_isOk (by decide +kernel)
  refine ⟨z, hz, fun h => ?_⟩
  have hu : (r.1.map fun z => z.upper) = .ok (.nz (6266318296469597 / 18014398509481984) rep121) := by
    decide +kernel
  rw [hz] at hu
  have hu' : z.upper = .nz (6266318296469597 / 18014398509481984) rep121 := Except.ok.inj hu
  have hx : val x121 = some (((272467777455915 / 2251799813685248 : ℚ) : ℝ) : EReal) := rfl
  have hs := h (Real.sqrt (272467777455915 / 2251799813685248)) (.inr (Real.sqrt_nonneg _)) (by
    rw [Real.sq_sqrt (by norm_num), gamma_single hx]
    norm_num)
  obtain ⟨a, b, -, hb, -, hle⟩ := hs
  rw [hu'] at hb
  have hb' : (((6266318296469597 / 18014398509481984 : ℚ) : ℝ) : EReal) = b := Option.some.inj hb
  rw [← hb'] at hle
  have hle' : Real.sqrt (272467777455915 / 2251799813685248) ≤ ((6266318296469597 / 18014398509481984 : ℚ) : ℝ) :=
    EReal.coe_le_coe_iff.1 hle
  rw [Real.sqrt_le_left (by norm_num)] at hle'
  norm_num at hle'

/-- `nth_root([1, +∞], 2)` has NaN for its upper bound if the policy sees NaN, and throws if the policy throws on NaN. -/
theorem C43_infinite :
    let x : Itv (Fl Fmt.single) := ⟨Fl.ofInt .near 1, .inf false⟩
    (γ x).Nonempty ∧ (nthRoot fltBase.P false 5 x 2 (⟨(0x037f : BitVec 16), fun _ => true⟩ : flt.State)).1 = .ok ⟨Fl.ofInt .near 1, .nan⟩ ∧
      (nthRoot flt.P false 5 x 2 (⟨(0x037f : BitVec 16), fun _ => true⟩ : flt.State)).1 = .error .invalidNumber := by
  refine ⟨⟨1, _, _, val_one, rfl, le_rfl, le_top⟩, by decide +kernel, by decide +kernel⟩

/-- The smallest positive number of the format. -/
noncomputable def fmin : Fl Fmt.single := .nz (1 / 713623846352979940529142984724747568191373312)
  ⟨by norm_num, 1, -149, by norm_num [Fmt.single], by decide, by decide, by norm_num⟩

/-- The same for the smallest positive number, whose inverse is not representable. -/
theorem C43_tiny : (nthRoot fltBase.P false 400 ⟨fmin, fmin⟩ 2 (⟨(0x037f : BitVec 16), fun _ => true⟩ : flt.State)).1.map (·.lower) = .ok .nan := by
  decide +kernel

/-- With exact rational numbers the iteration for the square root of 2 never stops, whatever the number of turns. -/
theorem C43_exact_diverges (fuel : ℕ) : ratEnv.Throws (nthRoot ratEnv.P false fuel (litI 2 2) 2) .fuel := by
  have h : nthRoot ratEnv.pp false fuel (litI 2 2 : Itv ℚ) 2 = .error .fuel := by
    change (rootLoop ratEnv.pp 2 2 2 fuel ⟨1, 2⟩ >>= _) >>= _ = _
    rw [rat_loop fuel 1 2 le_rfl (by norm_num) (by norm_num) le_rfl (by norm_num)]
    rfl
  exact ratEnv.throws_of (nthRoot_sim (barePolicies_exact_sim _ _ (rat_modeFree _ fun _ _ _ _ => rfl)) _ _ _ _ fun _ _ => rfl) h

/-! ## The hypotheses can be met -/

example := C43_encloses dbl (by decide) (by decide) rfl rfl rfl (x := litI 2 3) (n := 2) (by norm_num) (by decide) ne_lit
  (.inr ⟨2, in_lit, by norm_num⟩)
example := C43_encloses_partial flt (by decide) (by decide) (x := litI 2 3) (n := 3) (by norm_num) (by decide) ne_lit
  ⟨3, fun r hr => by have := ((mem_litI (by decide) (by decide)).1 hr).2; push_cast at this; linarith⟩
  (.inl ⟨2, fun r hr => by have := ((mem_litI (by decide) (by decide)).1 hr).1; push_cast at this; linarith⟩)
  (fun r hr _ => by
    have h1 := ((mem_litI (by decide) (by decide)).1 hr).1
    push_cast at h1
    have h2 : (1 : ℝ) ≤ maxFin Fmt.single := by
      unfold maxFin; norm_num [Fmt.single]
    rw [abs_of_nonneg (by linarith)]
    nlinarith) (.inl (by decide))
/-- The index `2^24 + 1` is not a number of the format; upwards it is converted to `2^24 + 2`, otherwise to `2^24`. -/
example := C43_encloses_index { flt with checks := dbl.checks } (by decide) (by decide) (by decide) rfl rfl rfl (x := litI 2 3) (n := 16777217) (by norm_num)
  (by unfold maxFin; norm_num [Fmt.single]) ne_lit (.inl (by decide))
example : (Num.ofInt .up 16777217 : Option (Fl Fmt.single)) = some (Fl.ofInt .near 16777218) ∧
    (Num.ofInt .near 16777217 : Option (Fl Fmt.single)) = some (Fl.ofInt .near 16777216) := by
  refine ⟨?_, ?_⟩ <;> decide +kernel
example := C43_empty flt (x := litI (-3) (-2)) (n := 2) ne_lit (by decide) (by norm_num) (fun r hr => by
  have := ((mem_litI (by decide) (by decide)).1 hr).2; push_cast at this; linarith) 7
example := C43_index flt (x := litI 2 3) ne_lit rfl (k := 0) le_rfl 7

end BI
