import Verif.Proofs.Raise
import Verif.Proofs.Instances
import Verif.Props.Empty
import Verif.Props.NoEmpty
import Verif.Props.MachInt
/-!
# C58: exceptions come from the base type and the policies only

Nothing is assumed about the operands: they may be empty intervals, NaN, or pairs of numbers that are no intervals.
`MayRaise` is what the base type and the checking policy of the configuration raise; `Own` is what a function raises by
itself (Spec/Raise).
-/

namespace BI
variable {T : Type} [Num T] (V : Env T)

/-- Every call, from every state, in both forms of the interval type. -/
theorem C58_call {α : Type} (c : Call T α) (s : V.State) (e : Err) :
    ((c.run V.P s).1 = .error e → V.MayRaise e ∨ c.Own V.C e) ∧
    ((c.run V.P.unprot s).1 = .error e → V.MayRaise e ∨ c.Own V.C e) := by
  have h := V.prm (E := fun e => V.MayRaise e ∨ c.Own V.C e) fun e h => .inl h
  have hC : V.P.chk = V.C := V.P_chk
  exact ⟨c.rm h (fun e he => .inr (hC ▸ he)) s e, c.rm h.unprot (fun e (he : c.Own V.P.chk e) => .inr (hC ▸ he)) s e⟩

/-- Every program. -/
theorem C58_program {α : Type} (p : Prog T α) (s : V.State) (e : Err) (h : (p.run V.P s).1 = .error e) :
    V.MayRaise e ∨ p.Own V.C e := by
  have hP := V.prm (E := fun e => V.MayRaise e ∨ p.Own V.C e) fun e h => .inl h
  have hC : V.P.chk = V.C := V.P_chk
  exact p.rm hP (fun e he => .inr (hC ▸ he)) s e h

/-- The functions that do not round. -/
theorem C58_functions (x y : Itv T) (t u : T) :
    V.Quiet (ctorT V.C t) ∧ V.Quiet (ctorTT V.C t u) ∧ V.Quiet (emptyI V.C) ∧ V.Quiet (wholeI V.C) ∧
    V.Quiet (hullTT V.C t u) ∧ V.Quiet (checkedLower V.C x) ∧ V.Quiet (checkedUpper V.C x) ∧ V.Quiet (isEmptyI V.C x) ∧
    V.Quiet (zeroIn V.C x) ∧ V.Quiet (inI V.C t x) ∧ V.Quiet (subset V.C x y) ∧ V.Quiet (properSubset V.C V.C x y) ∧
    V.Quiet (overlap V.C V.C x y) ∧ V.Quiet (singleton V.C x) ∧ V.Quiet (equal V.C V.C x y) ∧
    V.Quiet (intersect V.C x y) ∧ V.Quiet (hullII V.C x y) ∧ V.Quiet (hullIT V.C x t) ∧ V.Quiet (hullTI V.C t x) ∧
    V.Quiet (norm V.C x) ∧ V.Quiet (negI V.C x) ∧ V.Quiet (absI V.C x) ∧ V.Quiet (maxII V.C x y) ∧
    V.Quiet (maxIT V.C x t) ∧ V.Quiet (maxTI V.C t x) ∧ V.Quiet (minII V.C x y) ∧ V.Quiet (minIT V.C x t) ∧
    V.Quiet (minTI V.C t x) := by
  have h := V.prm (E := V.MayRaise) fun _ h => h
  rw [← V.P_chk]
  exact ⟨ctorT_rr h t, ctorTT_rr h t u, emptyI_rr h, wholeI_rr h, hullTT_rr h t u, checkedLower_rr h x, checkedUpper_rr h x,
    isEmptyI_rr h x, zeroIn_rr h x, inI_rr h x t, subset_rr h x y, properSubset_rr h x y, overlap_rr h x y, singleton_rr h x,
    equal_rr h x y, intersect_rr h x y, hullII_rr h x y, hullIT_rr h x t, hullTI_rr h x t, norm_rr h x, negI_rr h x,
    absI_rr h x, maxII_rr h x y, maxIT_rr h x t, maxTI_rr h x t, minII_rr h x y, minIT_rr h x t, minTI_rr h x t⟩

/-- The comparisons. -/
theorem C58_comparisons (r : Rel) (x y : Itv T) (t : T) :
    V.QuietCmp (cmpII r V.C V.C x y) ∧ V.QuietCmp (cmpIT r V.C x t) ∧ V.QuietCmp (certainII r V.C V.C x y) ∧
    V.QuietCmp (certainIT r V.C x t) ∧ V.QuietCmp (possibleII r V.C V.C x y) ∧ V.QuietCmp (possibleIT r V.C x t) ∧
    V.QuietCmp (triII r V.C V.C x y) ∧ V.QuietCmp (triIT r V.C x t) ∧ V.QuietCmp (lexII r V.C V.C x y) ∧
    V.QuietCmp (lexIT r V.C x t) ∧ V.Quiet (setII r V.C V.C x y) ∧ V.QuietCmp (setIT r x t) := by
  have h := V.prm (E := fun e => V.MayRaise e ∨ e = .comparison) fun _ h => .inl h
  have h0 := V.prm (E := V.MayRaise) fun _ h => h
  rw [← V.P_chk]
  have err : ∀ {α : Type}, RR (fun e => V.MayRaise e ∨ e = .comparison) (.error .comparison : Res α) :=
    fun {α} => RR.err (E := fun e => V.MayRaise e ∨ e = .comparison) (.inr rfl)
  have d2 : ∀ a b, RR (fun e => V.MayRaise e ∨ e = .comparison) (decide2 a b) := by
    intro a b
    unfold decide2
    exact RR.ite (fun _ => RR.pure _) fun _ => RR.ite (fun _ => RR.pure _) fun _ => err
  refine ⟨?_, ?_, ?_, ?_, ?_, ?_, ?_, ?_, ?_, ?_, ?_, fun e he => .inr (by cases he; rfl)⟩
  · exact (h.isEmpty _ _).bind fun _ _ => RR.ite (fun _ => err) fun _ => (h.isEmpty _ _).bind fun _ _ => RR.ite (fun _ => err) fun _ => d2 _ _
  · exact (h.isNan _).bind fun _ _ => RR.ite (fun _ => err) fun _ => (h.isEmpty _ _).bind fun _ _ => RR.ite (fun _ => err) fun _ => d2 _ _
  · exact (testII_rr h x y).bind fun _ _ => RR.ite (fun _ => err) fun _ => RR.pure _
  · exact (testIT_rr h x t).bind fun _ _ => RR.ite (fun _ => err) fun _ => RR.pure _
  · exact (testII_rr h x y).bind fun _ _ => RR.ite (fun _ => err) fun _ => RR.pure _
  · exact (testIT_rr h x t).bind fun _ _ => RR.ite (fun _ => err) fun _ => RR.pure _
  · exact (testII_rr h x y).bind fun _ _ => RR.ite (fun _ => err) fun _ => RR.pure _
  · exact (testIT_rr h x t).bind fun _ _ => RR.ite (fun _ => err) fun _ => RR.pure _
  · exact (testII_rr h x y).bind fun _ _ => RR.ite (fun _ => err) fun _ => RR.pure _
  · exact (testIT_rr h x t).bind fun _ _ => RR.ite (fun _ => err) fun _ => RR.pure _
  · cases r
    · exact properSubset_rr h0 x y
    · exact subset_rr h0 x y
    · exact properSubset_rr h0 y x
    · exact subset_rr h0 y x
    · exact equal_rr h0 y x
    · exact (equal_rr h0 y x).bind fun _ _ => RR.pure _

/-- With policies that never throw, every call returns: the exceptions are the functions' own (Spec/Raise: `pow` with the
smallest `int`, `nth_root` with an index that is not positive, loops without end). -/
theorem C58_mute (hV : V.Mute) {α : Type} (c : Call T α) (hc : ∀ e, ¬c.Own V.C e) (s : V.State) :
    ∃ z, (c.run V.P s).1 = .ok z := by
  have hm : ∀ e, ¬V.MayRaise e := by
    intro e h
    cases e
    · exact absurd h (by simp [Env.MayRaise, hV.empty])
    · exact absurd h (by simp [Env.MayRaise, hV.nan])
    · exact h
    · obtain ⟨h1, h2⟩ := h
      rcases hV.inf with h3 | h3
      · simp [h1] at h3
      · rcases h2 with h2 | h2
        · simp [h3.1] at h2
        · simp [h3.2] at h2
    · exact h hV.total
    · exact h
    · exact h
    · exact h
  rcases hr : (c.run V.P s).1 with e | z
  · exact absurd ((C58_call V c s e).1 hr) (by rintro (h | h); exacts [hm e h, hc e h])
  · exact ⟨z, rfl⟩

/-- IEEE formats have total operations. -/
theorem fl_totalBase {f : Fmt} {lib : Lib (Fl f)} (h : ∀ fn r x, (lib fn r x).isSome) : TotalBase (Fl f) lib :=
  ⟨fun _ => rfl, fun _ _ => rfl, fun _ _ _ => rfl, fun _ _ _ => rfl, fun _ _ _ => rfl, fun _ _ _ => rfl, fun _ _ => rfl,
    fun _ _ => rfl, fun _ => rfl, fun _ => rfl, h⟩

/-- The IEEE formats with `checking_base`: no call throws, not even on NaN. -/
theorem C58_ieee {f : Fmt} (V : Env (Fl f)) (hl : ∀ fn r x, (V.lib fn r x).isSome) (hC : V.checks = .base) {α : Type}
    (c : Call (Fl f) α) (hc : ∀ e, ¬c.Own V.C e) (s : V.State) : ∃ z, (c.run V.P s).1 = .ok z :=
  C58_mute V ⟨fl_totalBase hl, by rw [hC]; rfl, by rw [hC]; rfl, .inr ⟨rfl, rfl⟩⟩ c hc s

/-! ## What the functions raise by themselves -/

/-- `pow` with the smallest `int` overflows, in every configuration, for every interval that is not empty. -/
theorem C58_pow_own (x : Itv T) (hx : testI V.C x = .ok false) (s : V.State) : (powI V.P x (-2147483648) s).1 = .error .ub := by
  rw [← V.P_chk] at hx
  unfold powI
  rw [m_if_false hx]
  rfl

/-- `nth_root` with an index that is not positive: a failed assertion, in every configuration, for every interval that is
not empty. -/
theorem C58_nth_root_own (x : Itv T) (hx : testI V.C x = .ok false) (n : Nat) {k : Int} (hk : k ≤ 0) (s : V.State) :
    (nthRoot V.P false n x k s).1 = .error .assertion := by
  rw [← V.P_chk] at hx
  unfold nthRoot
  rw [m_if_false hx]
  have : assertRes false (decide (0 < k)) = .error .assertion := by
    rw [decide_eq_false (by omega)]; rfl
  rw [this]
  rfl

/-- The claim that the functions never throw by themselves does not hold: with `checking_base` over `float`, where the
policies raise nothing, the comparison of overlapping intervals throws, `pow` overflows, `nth_root` asserts. -/
theorem C58_violated : fltBase.Mute ∧
    cmpII .lt fltBase.C fltBase.C (litI 0 2) (litI 1 3) = .error .comparison ∧
    setIT .lt (litI 0 2 : Itv (Fl Fmt.single)) (Num.lit 1) = .error .comparison ∧
    (∀ s, (powI fltBase.P (litI 1 2) (-2147483648) s).1 = .error .ub) ∧
    ∀ n s, (nthRoot fltBase.P false n (litI 1 2) 0 s).1 = .error .assertion :=
  ⟨⟨fl_totalBase fun _ _ _ => rfl, rfl, rfl, .inr ⟨rfl, rfl⟩⟩, by decide +kernel, rfl,
    C58_pow_own fltBase _ (by decide +kernel), fun n => C58_nth_root_own fltBase _ (by decide +kernel) n le_rfl⟩

/-! ## Everything in `MayRaise` does occur -/

example : (sqrtI dbl.P (litI (-2) (-1)) dblNear).1 = .error .emptyCreated ∧ dbl.MayRaise .emptyCreated :=
  ⟨by decide +kernel, rfl⟩
example : ctorT flt.C Num.nan = .error .invalidNumber ∧ flt.MayRaise .invalidNumber := ⟨by decide +kernel, rfl, rfl⟩
example : ratEnv.MayRaise .assertion := ⟨rfl, .inl rfl⟩
example : (expI ratEnv.P (litI 1 2) ⟨(⟨.near, ()⟩ : FEnv Unit), fun _ => true⟩).1 = .error .base := by decide +kernel
example : ratEnv.MayRaise .base := fun h => by have := h.lib .exp .near 0; cases this

/-! ## The hypotheses can be met -/

/-- Operands that are no intervals. -/
example (s : fltBase.State) : ∃ z, ((Call.divII (litI 2 1) ⟨Num.nan, Num.lit 0⟩).run fltBase.P s).1 = .ok z :=
  C58_ieee fltBase (fun _ _ _ => rfl) rfl (.divII (litI 2 1) ⟨Num.nan, Num.lit 0⟩) (fun _ h => h) s
example (s : fltBase.State) : ∃ z, ((Call.pow (litI (-2) 1) (-7)).run fltBase.P s).1 = .ok z :=
  C58_ieee fltBase (fun _ _ _ => rfl) rfl (.pow (litI (-2) 1) (-7)) (fun e h => by simp [Call.Own] at h) s
example (s : dbl.State) (e : Err) (h : ((Call.divII (litI 1 2) (litI 0 0)).run dbl.P s).1 = .error e) : e = .emptyCreated := by
  rcases (C58_call dbl _ s e).1 h with h | h
  · cases e <;> first | rfl | skip
    · exact absurd h.1 (by decide)
    · exact h.elim
    · exact absurd h.1 (by decide)
    · exact (h (fl_totalBase fun _ _ _ => rfl)).elim
    · exact h.elim
    · exact h.elim
    · exact h.elim
  · exact h.elim
example : (divII dbl.P (litI 1 2) (litI 0 0) dblNear).1 = .error .emptyCreated := by decide +kernel

end BI
