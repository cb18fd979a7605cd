import Verif.Proofs.Program
import Verif.Props.SingleUse
/-!
# C72: programs with tests and loops

doc/comparisons.htm 67-70: "This comparison allows to replace base types by interval types without changing the meaning of
a program. Indeed, if no exception is thrown, the result is the same as before; and if an exception is thrown, the previous
comparison was unsure and should have been rewritten."

`s.run K fuel n V.P ρ` is the program with interval variables (`n` limits the turns of a loop); the result carries the
outcomes of all tests. `s.Exec I n v π o` says that the program with number variables can start with `v` and end with `o`
after tests with the outcomes `π`; `I` is `exactly` (real numbers), `roundedBy R` (real numbers with rounded results) or
`plainly` (numbers of the base type, any rounding mode in each operation).
-/

namespace BI
open Set

section
variable {T : Type} [Num T] [Val T] [NumLaws T] (V : Env T) (K : PiConst T) (fuel n : ℕ) (s : Stmt T) (ρ : ℕ → Itv T)

/-- However a program ends, the rounding mode is what it was. -/
theorem C72_mode (hV : V.Directed) (st : V.State) (hst : V.Valid st) : (s.run K fuel n V.P ρ st).2.cw = st.cw := by
  obtain ⟨J, hJ⟩ := V.back hV.kindOk
  exact (s.run_back hJ ρ st hst).1.symm

/-- What a program returns depends neither on the rounding mode nor on the order in which operands are evaluated. -/
theorem C72_same (hV : V.Directed) (st : V.State) (hst : V.Valid st) {r} (h : (s.run K fuel n V.P ρ st).1 = .ok r) :
    V.Returns (s.run K fuel n V.P ρ) (· = r) := by
  obtain ⟨J, hJ⟩ := V.back hV.kindOk
  exact V.returns_of (s.run_forth hJ.toPSim ρ r ((s.run_back hJ ρ st hst).2 r h).1) (Post.of_ok ⟨r, rfl, rfl⟩)

variable {ρ} {ρ' : ℕ → Itv T} {π : List Bool}

theorem run_follows {R : ℝ → ℝ → Prop} (hR : Absorbs T R) (hV : V.Directed) (hs : s.Formulas (·.Supported V K (InfBase T ∨ V.NoInf)))
    (st : V.State) (hst : V.Valid st) (h : (s.run K fuel n V.P ρ st).1 = .ok (ρ', π)) (v : ℕ → ℝ) (hv : ∀ i, v i ∈ γ (ρ i)) :
    ∀ π' o, s.Exec (roundedBy R) n v π' o → (o = .stuck ∧ π' <+: π) ∨ ∃ v', o = .done v' ∧ π' = π ∧ ∀ i, v' i ∈ γ (ρ' i) := by
  obtain ⟨J, hJ⟩ := V.back hV.kindOk
  have he : ∀ e : Expr T, e.Supported V K (InfBase T ∨ V.NoInf) → ∀ ρ z, e.eval K fuel V.pp ρ = .ok z → ∀ v, (∀ i, v i ∈ γ (ρ i)) →
      ∀ r, (roundedBy R).value v e r → r ∈ γ z := fun e hs ρ z h v hv r hr => e.eval_contains hR hV hst hs h hv hr
  exact s.follows K fuel (mem := fun r z => r ∈ γ z) n he
    (Cond.follows K fuel (I := roundedBy R) (mem := fun r z => r ∈ γ z) (p := (·.Supported V K (InfBase T ∨ V.NoInf))) he (fun r x y b h p q hp hq => cmpII_points V r h hp hq)
      fun r x t b h v p q hp hq => cmpIT_points V r h hp hq) hs ρ ρ' π ((s.run_back hJ ρ st hst).2 _ h).1 v hv

/-- If the program with intervals returns, then with real numbers out of these intervals it takes the same way through all
tests and loops, in particular it comes to an end, and the intervals contain its results; unless it meets an operation that has
no result on this way. -/
theorem C72_program (hV : V.Directed) (hs : s.Formulas (·.Supported V K (InfBase T ∨ V.NoInf))) (st : V.State) (hst : V.Valid st)
    (h : (s.run K fuel n V.P ρ st).1 = .ok (ρ', π)) (v : ℕ → ℝ) (hv : ∀ i, v i ∈ γ (ρ i)) :
    (∃ π' o, s.Exec exactly n v π' o) ∧
    ∀ π' o, s.Exec exactly n v π' o → (o = .stuck ∧ π' <+: π) ∨ ∃ v', o = .done v' ∧ π' = π ∧ ∀ i, v' i ∈ γ (ρ' i) := by
  have e : (exactly : Meaning T ℝ) = roundedBy Eq := by
    unfold exactly roundedBy
    congr
    funext v e r
    exact propext (e.value_iff v r).symm
  refine ⟨s.exec_total _ n v, ?_⟩
  rw [e]
  exact run_follows V K fuel n s (fun _ _ _ h e => e ▸ h) hV hs st hst h v hv

/-- The same if the results of all operations are rounded up, down or to nearest. -/
theorem C72_rounded (hV : V.Directed) (hs : s.Formulas (·.Supported V K (InfBase T ∨ V.NoInf))) (st : V.State) (hst : V.Valid st)
    (h : (s.run K fuel n V.P ρ st).1 = .ok (ρ', π)) (v : ℕ → ℝ) (hv : ∀ i, v i ∈ γ (ρ i)) :
    (∃ π' o, s.Exec (roundedBy (Faithful T)) n v π' o) ∧
    ∀ π' o, s.Exec (roundedBy (Faithful T)) n v π' o →
      (o = .stuck ∧ π' <+: π) ∨ ∃ v', o = .done v' ∧ π' = π ∧ ∀ i, v' i ∈ γ (ρ' i) :=
  ⟨s.exec_total _ n v, run_follows V K fuel n s faithful_absorbs hV hs st hst h v hv⟩
end

/-- The same program in floating-point arithmetic, as it was before the base type was replaced. -/
theorem C72_machine {f : Fmt} (V : Env (Fl f)) (hV : V.Directed) (hq : V.SqrtOk LeB GeB) (K : PiConst (Fl f)) (fuel n : ℕ) (s : Stmt (Fl f))
    {ρ ρ' : ℕ → Itv (Fl f)} {π : List Bool} (st : V.State) (hst : V.Valid st) (h : (s.run K fuel n V.P ρ st).1 = .ok (ρ', π))
    (v : ℕ → Fl f) (hv : ∀ i, ∃ r : ℝ, val (v i) = some (r : EReal) ∧ r ∈ γ (ρ i)) :
    (∃ π' o, s.Exec plainly n v π' o) ∧
    ∀ π' o, s.Exec plainly n v π' o → (o = .stuck ∧ π' <+: π) ∨
      ∃ v', o = .done v' ∧ π' = π ∧ ∀ i, ∃ r : ℝ, val (v' i) = some (r : EReal) ∧ r ∈ γ (ρ' i) := by
  refine ⟨s.exec_total _ n v, ?_⟩
  obtain ⟨J, hJ⟩ := V.back hV.kindOk
  have he : ∀ e : Expr (Fl f), True → ∀ ρ z, e.eval K fuel V.pp ρ = .ok z → ∀ v : ℕ → Fl f,
      (∀ i, ∃ r : ℝ, val (v i) = some (r : EReal) ∧ r ∈ γ (ρ i)) → ∀ t, plainly.value v e t → ∃ r : ℝ, val t = some (r : EReal) ∧ r ∈ γ z := by
    intro e _ ρ z hz v hv t ht
    choose w hw hm using hv
    obtain ⟨r, hr, hR⟩ := e.machine_rounded (v := w) (fun i r h => EReal.coe_eq_coe_iff.1 (Option.some.inj ((hw i).symm.trans h))) ht
    have hsup : e.Supported V K (InfBase (Fl f) ∨ V.NoInf) := (Expr.Machine.supported hq K ht).1.mono .inl
    exact ⟨r, hr, e.eval_contains faithful_absorbs hV hst hsup hz hm hR⟩
  refine s.follows K fuel (mem := fun t z => ∃ r : ℝ, val t = some (r : EReal) ∧ r ∈ γ z) (p := fun _ => True) n he
    (Cond.follows K fuel (I := plainly) (mem := fun t z => ∃ r : ℝ, val t = some (r : EReal) ∧ r ∈ γ z) (p := fun _ => True) he ?_ ?_) ?_ ρ ρ' π ((s.run_back hJ ρ st hst).2 _ h).1 v hv
  · rintro r x y b h a c ⟨p, ha, hp⟩ ⟨q, hc, hq⟩
    exact (cmpII_points V r h hp hq).trans (r.plain_iff ha hc).symm
  · rintro r x t b h v a _ ⟨p, ha, hp⟩ ⟨rfl, q, hc⟩
    exact (cmpIT_points V r h hp hc).trans (r.plain_iff ha hc).symm
  · exact s.formulas_trivial

/-! ## Exceptions -/

section
variable {T : Type} [Num T] [Val T] [NumLaws T] (V : Env T) (K : PiConst T) (fuel : ℕ)

/-- The second half of the documented claim, "if an exception is thrown, the previous comparison was unsure", for exact base
types and tests in which no variable occurs twice: the test returns what it has at all points, or throws and
the numbers decide it either way. Missing: rounded types and repeated variables, for which the claim is false
(`C72_unsure_violated`). -/
theorem C72_unsure_partial (hk : V.kind = .exact) (hE : ExactBase T) (hm : ModeFree T V.lib) {x : ℕ → Itv T}
    (hx : ∀ i, (γ (x i)).Nonempty) (hb : ∀ i, Bornology.IsBounded (γ (x i))) (r : Rel) (e₁ e₂ : Expr T)
    (hr : e₁.rational = true ∧ e₂.rational = true) (hn : (e₁.vars ++ e₂.vars).Nodup)
    (hd : ∀ v, (∀ i, v i ∈ γ (x i)) → e₁.Defined v ∧ e₂.Defined v) (hne : (e₁.range x).Nonempty ∧ (e₂.range x).Nonempty) :
    (∃ b, V.Returns ((Cond.II r e₁ e₂).test K fuel V.P x) (· = b) ∧
      ∀ v, (∀ i, v i ∈ γ (x i)) → ∀ b', (Cond.II r e₁ e₂).Result exactly v b' → b' = b) ∨
    (V.Throws ((Cond.II r e₁ e₂).test K fuel V.P x) .comparison ∧
      ∀ b, ∃ v, (∀ i, v i ∈ γ (x i)) ∧ (Cond.II r e₁ e₂).Result exactly v b) := by
  rw [List.nodup_append] at hn
  obtain ⟨hn₁, hn₂, hdis⟩ := hn
  have hc := fun i => cpt_of (hx i) (hb i)
  obtain ⟨z₁, hz₁, g₁, -⟩ := e₁.eval_rets V hk hE hm K fuel x hc hr.1 hn₁ (fun v hv => (hd v hv).1) hne.1
  obtain ⟨z₂, hz₂, g₂, -⟩ := e₂.eval_rets V hk hE hm K fuel x hc hr.2 hn₂ (fun v hv => (hd v hv).2) hne.2
  obtain ⟨J, hJ⟩ := V.sim (fun _ => hm)
  have hsim : Sim (outer V.laws) ((Cond.II r e₁ e₂).test K fuel V.P x) (cmpII r V.C V.C z₁ z₂) := by
    have h1 := (Ends.pair (E := fun _ => True) (.of_sim (e₁.eval_sim (fuel := fuel) (K := K) hJ x z₁ hz₁) fun _ _ => trivial)
      (.of_sim (e₂.eval_sim (fuel := fuel) (K := K) hJ x z₂ hz₂) fun _ _ => trivial)).sim
    refine (h1.bind (g := fun p => cmpII r V.C V.C p.1 p.2) fun p => ?_)
    rw [hJ.chk]; exact Sim.lift _
  obtain ⟨h1, h2, h3⟩ := C30_cmp V V r (x := z₁) (y := z₂) (by rw [g₁]; exact hne.1) (by rw [g₂]; exact hne.2)
  have hpts : ∀ p ∈ γ z₁, ∀ q ∈ γ z₂, ∃ v, (∀ i, v i ∈ γ (x i)) ∧ e₁.Value v p ∧ e₂.Value v q := by
    intro p hp q hq
    rw [g₁] at hp; rw [g₂] at hq
    exact Expr.independent (fun i hi hi' => hdis i hi i hi' rfl) hp hq
  by_cases ha : Always r (γ z₁) (γ z₂)
  · refine .inl ⟨true, V.returns_of (h1 ha ▸ hsim) (Post.of_ok ⟨_, rfl, rfl⟩), ?_⟩
    rintro v hv b' ⟨p, q, hp, hq, hb⟩
    exact hb.2 (ha p (by rw [g₁]; exact ⟨v, hv, hp⟩) q (by rw [g₂]; exact ⟨v, hv, hq⟩))
  · by_cases hs : Sometimes r (γ z₁) (γ z₂)
    · refine .inr ⟨V.throws_of (h3 hs ha ▸ hsim) rfl, fun b => ?_⟩
      cases b with
      | true =>
        obtain ⟨p, hp, q, hq, h⟩ := hs
        obtain ⟨v, hv, h1, h2⟩ := hpts p hp q hq
        exact ⟨v, hv, p, q, h1, h2, fun _ => h, fun _ => rfl⟩
      | false =>
        unfold Always at ha
        push Not at ha
        obtain ⟨p, hp, q, hq, h⟩ := ha
        obtain ⟨v, hv, h1, h2⟩ := hpts p hp q hq
        exact ⟨v, hv, p, q, h1, h2, (fun h => by cases h), fun h' => absurd h' h⟩
    · refine .inl ⟨false, V.returns_of (h2 hs ▸ hsim) (Post.of_ok ⟨_, rfl, rfl⟩), ?_⟩
      rintro v hv b' ⟨p, q, hp, hq, hb⟩
      by_contra hb'
      exact hs ⟨p, by rw [g₁]; exact ⟨v, hv, hp⟩, q, by rw [g₂]; exact ⟨v, hv, hq⟩, hb.1 (by simpa using hb')⟩
end

/-- `x - x == 0` throws for `x = [1, 2]`, though it holds at all points. -/
theorem C72_unsure_violated (fuel : ℕ) :
    dbl.Throws ((Cond.IT .eq (.bin .sub (.var 0) (.var 0)) (Num.lit 0)).test (piDouble .near) fuel dbl.P fun _ => litI 1 2) .comparison ∧
    ∀ v b, (Cond.IT .eq (.bin .sub (.var 0) (.var 0)) (Num.lit 0) : Cond (Fl .double)).Result exactly v b → b = true := by
  constructor
  · obtain ⟨J, hJ⟩ := dbl.sim dbl_directed.kindOk
    have he : (Expr.bin .sub (.var 0) (.var 0)).eval (piDouble .near) fuel dbl.pp (fun _ => litI 1 2) =
        .ok ⟨Num.lit (-1), Num.lit 1⟩ := by
      change subII dbl.pp (litI 1 2) (litI 1 2) = _
      decide +kernel
    refine dbl.throws_of (r := cmpIT .eq dbl.C ⟨Num.lit (-1), Num.lit 1⟩ (Num.lit 0)) ?_ (by decide +kernel)
    refine Sim.bind (r := .ok ⟨Num.lit (-1), Num.lit 1⟩) (g := fun z => cmpIT .eq dbl.C z (Num.lit 0))
      (Expr.eval_sim hJ _ _ _ he) fun z => ?_
    rw [hJ.chk]; exact Sim.lift _
  · rintro v b ⟨p, q, ⟨a, a', rfl, rfl, hp⟩, hq, hb⟩
    have h0 : q = 0 := by
      have : val (Num.lit 0 : Fl .double) = some (q : EReal) := hq
      rw [val_zero] at this
      exact_mod_cast (Option.some.inj this).symm
    refine hb.2 ?_
    change p = q
    rw [h0, show p = v 0 - v 0 from hp, sub_self]

/-! ## The hypotheses can be met -/

/-- `while (x > 1) { x = x / 3; y = y + x; }` -/
def demoProg : Stmt (Fl .double) :=
  .loop (.IT .gt (.var 0) (Num.lit 1))
    (.seq (.assign 0 (.binR .div (.var 0) (Num.lit 3))) (.region (.assign 1 (.bin .add (.var 1) (.var 0)))))

theorem demoProg_run : ∃ ρ', (demoProg.run (piDouble .near) 0 5 dbl.P (fun i => if i = 0 then litI 5 6 else litI 0 0)
    (⟨(⟨.near, ()⟩ : FEnv Unit), fun _ => true⟩ : dbl.State)).1 = .ok (ρ', [true, true, false]) := by
  have h : (demoProg.run (piDouble .near) 0 5 dbl.P (fun i => if i = 0 then litI 5 6 else litI 0 0)
    (⟨(⟨.near, ()⟩ : FEnv Unit), fun _ => true⟩ : dbl.State)).1.map Prod.snd = .ok [true, true, false] := by decide +kernel
  revert h
  generalize (demoProg.run (piDouble .near) 0 5 dbl.P (fun i => if i = 0 then litI 5 6 else litI 0 0)
    (⟨(⟨.near, ()⟩ : FEnv Unit), fun _ => true⟩ : dbl.State)).1 = o
  rintro h
  rcases o with e | ⟨ρ', π⟩
  · cases h
  · cases h; exact ⟨ρ', rfl⟩

/-- Two turns for `x = [5, 6]`: so for `x = 11/2`, and for any `double` in `x`, whatever the rounding modes. -/
example := C72_program dbl (piDouble .near) 0 5 demoProg (ρ := fun i => if i = 0 then litI 5 6 else litI 0 0) dbl_directed
  ⟨trivial, trivial, (fun h => by cases h), trivial, trivial⟩ (⟨(⟨.near, ()⟩ : FEnv Unit), fun _ => true⟩ : dbl.State) trivial demoProg_run.choose_spec
  (fun i => if i = 0 then 11 / 2 else 0) (fun i => by split <;> exact in_lit)
example := C72_rounded dbl (piDouble .near) 0 5 demoProg (ρ := fun i => if i = 0 then litI 5 6 else litI 0 0) dbl_directed
  ⟨trivial, trivial, (fun h => by cases h), trivial, trivial⟩ (⟨(⟨.near, ()⟩ : FEnv Unit), fun _ => true⟩ : dbl.State) trivial demoProg_run.choose_spec
  (fun i => if i = 0 then 11 / 2 else 0) (fun i => by split <;> exact in_lit)
example := C72_machine dbl dbl_directed (dbl_sqrt.mono (fun h => h.2.1) fun h => h.2.1) (piDouble .near) 0 5 demoProg
  (ρ := fun i => if i = 0 then litI 5 6 else litI 0 0) (⟨(⟨.near, ()⟩ : FEnv Unit), fun _ => true⟩ : dbl.State) trivial demoProg_run.choose_spec
  (fun i => if i = 0 then Num.lit 5 else Num.lit 0) (fun i => by
    split
    · exact ⟨5, by simpa using NumLaws.lit (T := Fl .double) 5 (by norm_num), in_lit⟩
    · exact ⟨0, by simpa using NumLaws.lit (T := Fl .double) 0 (by norm_num), in_lit⟩)
example : dbl.Returns (demoProg.run (piDouble .near) 0 5 dbl.P fun i => if i = 0 then litI 5 6 else litI 0 0)
    fun r => r.2 = [true, true, false] := by
  obtain ⟨ρ', h⟩ := demoProg_run
  exact (C72_same dbl (piDouble .near) 0 5 demoProg _ dbl_directed _ trivial h).mono fun _ e => by rw [e]
/-- Too few turns are granted: the loop is cut, and the mode is restored. -/
example := C72_mode dbl (piDouble .near) 0 1 demoProg (fun i => if i = 0 then litI 5 6 else litI 0 0) dbl_directed
  (⟨(⟨.up, ()⟩ : FEnv Unit), fun _ => false⟩ : dbl.State) trivial
/-- `x * 2 < y + 1` with `x = [1, 2]`, `y = [2, 3]`: undecided. -/
example := C72_unsure_partial ratEnv piGeneric 0 rfl rat_exact (rat_modeFree _ fun _ _ _ _ => rfl) (x := fun i => if i = 0 then litI 1 2 else litI 2 3)
  (fun i => by split <;> exact ne_lit) (fun _ => rat_bounded _) .lt
  (.binR .mul (.var 0) (Num.lit 2)) (.binR .add (.var 1) (Num.lit 1)) ⟨rfl, rfl⟩ (by decide)
  (fun v _ => ⟨⟨trivial, fun a b _ _ => ⟨_, rfl⟩⟩, trivial, fun a b _ _ => ⟨_, rfl⟩⟩)
  ⟨⟨2, fun i => if i = 0 then 1 else 2, fun i => by dsimp only; split <;> exact in_lit, 1, 2, rfl,
      by simpa using NumLaws.lit (T := ℚ) 2 (by norm_num), by change (2 : ℝ) = 1 * 2; norm_num⟩,
    3, fun i => if i = 0 then 1 else 2, fun i => by dsimp only; split <;> exact in_lit, 2, 1, rfl, by rw [val_one]; rfl,
      by change (3 : ℝ) = 2 + 1; norm_num⟩

end BI
