import Verif.Props.Root
import Verif.Proofs.RootOrder
/-! # C08 and C43 for `nth_root`, with the order of evaluation left to the implementation

`nthRoot` takes the operands of the quotient and the two bounds left to right. In `nthRootAny` the order is open. -/

set_option linter.unusedSectionVars false

namespace BI
open Set

section
variable {T : Type} [Num T] [Val T] (V : Env T) (x : Itv T) (k : ℤ)

/-- The states in which `nth_root` may be called: the rounding direction is the one the library expects inside a rounding
object. -/
def Env.Inside (s : V.State) : Prop := V.Valid s ∧ (V.kind = .opp → V.ctl.decode s.cw = .up)

/-- Whatever the order in which the operands are evaluated, in the same call or in another one: `nth_root` returns `z` if and
only if it returns `z` when they are evaluated left to right. The index is one that the type represents. -/
theorem C08_root_order (hV : V.kind ≠ .exact) (hk : ∀ r r', (Num.ofInt r k : Option T) = Num.ofInt r' k) (il : Bool) (fuel : ℕ)
    (s s' : V.State) (hs : V.Inside s) (hs' : V.Inside s') (z : Itv T) :
    (nthRootAny il V.P V.ndebug fuel x k s).1 = .ok z ↔ (nthRoot V.P V.ndebug fuel x k s').1 = .ok z := by
  have h : PSim (outer V.laws) (inner V.laws V.kind) V.P V.B V.C := by
    have := protPolicies_sim (L := V.laws) V.kind V.lib V.C (fun h => absurd h hV)
    unfold Env.P Env.B libPolicies
    cases hh : V.kind with
    | exact => exact absurd hh hV
    | std => rw [hh] at this; exact this
    | opp => rw [hh] at this; exact this
  rw [(nthRootAny_wsim il fuel k hk h (scope_unprot hV) V.ndebug x s hs).1 z, (nthRoot_sim h V.ndebug fuel x k hk s' hs').1]
end

section
variable {f : Fmt} (V : Env (Fl f)) {x : Itv (Fl f)} {n : ℕ}

theorem root_runAny (il : Bool) (hk : V.kind ≠ .exact) {Q : Itv (Fl f) → Prop}
    (h : ∀ P : Policies (M V.ctl.W) (Fl f), P.chk = V.C → P.unprot = V.P.unprot →
      ∃ N, ∀ fuel > N, TriIn V (nthRootAny il P V.ndebug fuel x (n : ℤ)) Q) :
    ∃ N, ∀ fuel > N, V.ReturnsInside (nthRootAny il V.P V.ndebug fuel x (n : ℤ)) Q ∧
      V.Returns (V.P.rnd.scope (nthRootAny il V.P.unprot V.ndebug fuel x (n : ℤ))) Q := by
  obtain ⟨N, h1⟩ := h V.P (by unfold Env.P libPolicies; cases V.kind <;> rfl) rfl
  obtain ⟨N', h2⟩ := h V.P.unprot (by unfold Env.P libPolicies; cases V.kind <;> rfl) rfl
  refine ⟨max N N', fun fuel hf => ⟨tri_inside (h1 fuel (lt_of_le_of_lt (le_max_left _ _) hf)), fun s hs => ?_⟩⟩
  obtain ⟨h3, h4⟩ := tri_scope hk (h2 fuel (lt_of_le_of_lt (le_max_right _ _) hf)) s hs
  cases ho : (V.P.rnd.scope (nthRootAny il V.P.unprot V.ndebug fuel x (n : ℤ)) s).1 with
  | ok z => rw [ho] at h4; exact ⟨z, rfl, h3.symm, h4.1⟩
  | error e => rw [ho] at h4; exact h4.elim

/-- `C43_encloses_index` with the order left open. -/
theorem C43_encloses_any_order (il : Bool) (hk : V.kind ≠ .exact) (hf : (f.p : ℤ) + 2 ≤ f.emax) (hp : 4 ≤ f.p)
    (hE : V.checks.forbidsEmpty = true) (hN : V.checks.seesNan = false) (hC : V.checks.catchesNan = false) (h1 : 1 ≤ n)
    (hn : (n : ℚ) ≤ maxFin f) (hx : (γ x).Nonempty) (he : Odd n ∨ ∃ r ∈ γ x, 0 ≤ r) :
    ∃ N, ∀ fuel > N, V.ReturnsInside (nthRootAny il V.P V.ndebug fuel x (n : ℤ)) (RootOut n (γ x)) ∧
      V.Returns (V.P.rnd.scope (nthRootAny il V.P.unprot V.ndebug fuel x (n : ℤ))) (RootOut n (γ x)) := by
  obtain ⟨a, b, ix⟩ := has_of_nonempty hx
  have hB : V.Blind := ⟨isEmpty_forbid V.checks V.ndebug hE, isNan_blind V.checks V.ndebug hN hC⟩
  have hi := fl_idxFor hp hn
  refine root_runAny V il hk fun P h2 h3 => ?_
  by_cases hn1 : n = 1
  · subst hn1
    refine ⟨0, fun fuel _ => ?_⟩
    unfold nthRootAny
    rw [h2]
    refine (Tri.lift (r := testI V.C x) (Q := (· = false)) (by rw [ix.test V.chk]; exact rfl)).bind ?_
    rintro _ rfl
    have hassert : assertRes V.ndebug (decide (0 < ((1 : ℕ) : ℤ))) = .ok () := by
      unfold assertRes; rfl
    rw [if_neg (by simp), hassert]
    exact (Tri.lift (r := (.ok () : Res Unit)) (Q := fun _ => True) trivial).bind fun _ _ =>
      Tri.pure fun s _ h => by rwa [pow_one] at h
  · exact nthRootAny_tri il hk (V.fl_tight hk) fl_inf (fl_midOk hf) fl_discrete h1 hi ix
      (.inr (fl_topTriAny il hk hB (by omega) hi)) (root_sign ix he) V.ndebug P h2 h3

/-- The same with any policies. Missing: as for `C43_encloses_partial`. -/
theorem C43_encloses_any_order_partial (il : Bool) (hk : V.kind ≠ .exact) (hf : (f.p : ℤ) + 2 ≤ f.emax) (hp : 4 ≤ f.p) (h1 : 1 ≤ n)
    (hn : (n : ℚ) ≤ maxFin f) (hx : (γ x).Nonempty) (hu : BddAbove (γ x)) (hl : BddBelow (γ x) ∨ Even n)
    (ht : ∀ r ∈ γ x, IsLeast (γ x) r ∧ 0 < r ∨ IsGreatest (γ x) r ∧ r < 0 ∧ Odd n → 1 ≤ |r| * maxFin f)
    (he : Odd n ∨ ∃ r ∈ γ x, 0 ≤ r) :
    ∃ N, ∀ fuel > N, V.ReturnsInside (nthRootAny il V.P V.ndebug fuel x (n : ℤ)) (RootOut n (γ x)) ∧
      V.Returns (V.P.rnd.scope (nthRootAny il V.P.unprot V.ndebug fuel x (n : ℤ))) (RootOut n (γ x)) := by
  obtain ⟨a, b, ix⟩ := has_of_nonempty hx
  exact root_runAny V il hk fun P h2 h3 => nthRootAny_tri il hk (V.fl_tight hk) fl_inf (fl_midOk hf) fl_discrete h1
    (fl_idxFor hp hn) ix (.inl (root_bounds ix hx hu hl ht)) (root_sign ix he) V.ndebug P h2 h3
end

/-! ## The hypotheses can be met -/

example := C43_encloses_any_order dbl true (by decide) (by decide) (by decide) rfl rfl rfl (x := litI 2 3) (n := 2) (by norm_num)
  (by decide +kernel) ne_lit (.inr ⟨2, in_lit, by norm_num⟩)

/-- A cube root of an interval of negative numbers, with two orders of evaluation. -/
example (z : Itv (Fl Fmt.single)) := C08_root_order flt (litI (-8) (-1)) 3 (by decide)
  (fun r r' => ((root_int (f := Fmt.single) (n := 3) (by decide)).1 r).trans ((root_int (f := Fmt.single) (n := 3) (by decide)).1 r').symm)
  true 60 ⟨(0x037f : BitVec 16), fun _ => false⟩ ⟨(0x037f : BitVec 16), fun _ => true⟩ ⟨trivial, fun h => by cases h⟩
  ⟨trivial, fun h => by cases h⟩ z
end BI
