import Verif.Model.Io
import Verif.Proofs.Instances
import Verif.Props.Ctor
import Verif.Proofs.EnclUtil
/-!
# C44, C45: the output operator and numeric limits

`o` is any stream, whatever it does with the characters and numbers it is given.
-/

namespace BI
open Set

variable {T : Type} [Num T] [Val T] [NumLaws T] (V : Env T) {x : Itv T} {S : Type} (o : Stream S T) (s : S)

/-! ## C44 -/

/-- Bounds that are numbers in order: the bracket, the lower bound, a comma, the upper bound, the bracket. -/
theorem C44_output {a b : EReal} (ha : val x.lower = some a) (hb : val x.upper = some b) (h : a ≤ b) :
    outI V.C o x s = .ok (s |> o.chr '[' |> o.num x.lower |> o.chr ',' |> o.num x.upper |> o.chr ']') := by
  unfold outI
  have : isEmptyI V.C x = .ok false := by
    unfold isEmptyI testI Env.C
    have hle := (NumLaws.le_iff x.lower x.upper).2 ⟨a, b, ha, hb, h⟩
    induction V.checks with
    | base => change Except.ok (!Num.le x.lower x.upper) = _; rw [hle]; rfl
    | noEmpty c ih => change Except.ok _ = _; rfl
    | noNan c ih => exact ih
    | catchNan c ih => exact ih
  rw [this]; rfl

/-- Empty intervals, under the policies that know them. -/
theorem C44_empty (hE : V.checks.forbidsEmpty = false) (h : Void x) : outI V.C o x s = .ok (o.str "[]" s) := by
  unfold outI
  rw [isEmptyI_eq, h.test V hE]; rfl

/-- The text written for an interval the policy admits. -/
theorem C44_text (hx : V.Proper x) (put : T → String) (s : String) :
    ((γ x).Nonempty → outI V.C (.text put) x s = .ok (s ++ "[" ++ put x.lower ++ "," ++ put x.upper ++ "]")) ∧
    (γ x = ∅ → outI V.C (.text put) x s = .ok (s ++ "[]")) := by
  rcases hx.cases with ⟨a, b, h, ht, hn⟩ | ⟨hn, ht⟩
  · refine ⟨fun _ => ?_, fun h' => absurd (h' ▸ hn) Set.not_nonempty_empty⟩
    unfold outI
    rw [isEmptyI_eq, ht]
    rfl
  · refine ⟨fun h' => absurd (hn ▸ h') Set.not_nonempty_empty, fun _ => ?_⟩
    unfold outI
    rw [isEmptyI_eq, ht]; rfl

/-- Under the default policy an interval with NaN for bounds (`C36_nan_kept` makes one) is not written as empty. -/
theorem C44_nan_written : outI dbl.C (.text fun v => match v with | .nan => "nan" | _ => "?") ⟨.nan, .nan⟩ "" = .ok "[nan,nan]" := by
  decide +kernel

example : outI dbl.C (.text fun v => if v = Num.lit 1 then "1" else "2") ⟨Num.lit 1, Num.lit 2⟩ "x = " = .ok "x = [1,2]" := by
  decide +kernel
example : dbl.Proper ⟨Num.lit 1, Num.lit 2⟩ ∧ flt.Proper ⟨.nan, .nan⟩ :=
  ⟨.inl ne_lit, .inr ⟨(fun _ _ h => by cases h), rfl⟩⟩

/-! ## C45 -/

/-- The four numbers are finite. -/
structure Limits.Finite (L : Limits T) : Prop where
  min : ∃ r : ℝ, val L.min = some (r : EReal)
  max : ∃ r : ℝ, val L.max = some (r : EReal)
  epsilon : ∃ r : ℝ, val L.epsilon = some (r : EReal)
  denormMin : ∃ r : ℝ, val L.denormMin = some (r : EReal)

/-- `some z`: the function returns, and `z` consists of exactly the number `t`. -/
def IsPoint (p : Option (Itv T)) (t : T) : Prop :=
  ∃ z r, p = some z ∧ z.lower = t ∧ z.upper = t ∧ val t = some ((r : ℝ) : EReal) ∧ γ z = {r}

theorem point_of {t : T} (h : ∃ r : ℝ, val t = some (r : EReal)) : IsPoint (noexcept (ctorTT V.C t t)) t := by
  obtain ⟨r, h⟩ := h
  obtain ⟨z, h1, h2, h3, h4⟩ := C36_bounds V h h le_rfl
  refine ⟨z, r, by rw [h1]; rfl, h2, h3, h, h4.trans ?_⟩
  ext q
  simp only [mem_ofPred_eq, mem_singleton_iff, EReal.coe_le_coe_iff]
  exact ⟨fun h => le_antisymm h.2 h.1, fun h => ⟨h.ge, h.le⟩⟩

/-- `min()`, `max()`, `epsilon()` and `denorm_min()` are the point intervals of the numbers of the base type. -/
theorem C45_points (L : Limits T) (h : L.Finite) :
    IsPoint (limMin V.C L) L.min ∧ IsPoint (limMax V.C L) L.max ∧ IsPoint (limEpsilon V.C L) L.epsilon ∧
      IsPoint (limDenormMin V.C L) L.denormMin :=
  ⟨point_of V h.min, point_of V h.max, point_of V h.epsilon, point_of V h.denormMin⟩

/-- `infinity()` is the whole line, for base types with infinities. -/
theorem C45_infinity (hi : InfBase T) : ∃ z, limInfinity V.C = some z ∧ γ z = univ := by
  obtain ⟨w, h, h1, h2⟩ := whole_ok (V.infLaws hi)
  refine ⟨w, by unfold limInfinity; rw [h]; rfl, eq_univ_of_forall fun r => ⟨_, _, h1, h2, bot_le, le_top⟩⟩

/-- `quiet_NaN()` is the empty interval, if the policy permits it; otherwise the exception meets `noexcept` and the
program is terminated. -/
theorem C45_quiet_nan :
    (V.checks.forbidsEmpty = false → ∃ z, limNaN V.C = some z ∧ Void (T := T) z) ∧
    (V.checks.forbidsEmpty = true → limNaN V.C = (none : Option (Itv T))) := by
  rcases emptyI_spec (T := T) V.checks V.ndebug with ⟨h1, h2⟩ | ⟨h1, z, h2, h3⟩
  · exact ⟨(fun h => by rw [h1] at h; cases h), (fun _ => by unfold limNaN Env.C; rw [h2]; rfl)⟩
  · exact ⟨(fun _ => ⟨z, by unfold limNaN Env.C; rw [h2]; rfl, h3⟩), (fun h => by rw [h1] at h; cases h)⟩

/-- `numeric_limits<interval<double>>::quiet_NaN()` terminates the program, with the default policies. -/
theorem C45_quiet_nan_double : limNaN dbl.C = none := by decide +kernel

/-- Without infinities, `infinity()` is an assertion failure in a debug build. -/
theorem C45_infinity_none : limInfinity ratEnv.C = none := by decide +kernel

example : (⟨Num.lit 1, Num.lit 7, Num.lit 2, Num.lit 1⟩ : Limits (Fl Fmt.double)).Finite :=
  ⟨⟨_, NumLaws.lit 1 (by decide)⟩, ⟨_, NumLaws.lit 7 (by decide)⟩, ⟨_, NumLaws.lit 2 (by decide)⟩, ⟨_, NumLaws.lit 1 (by decide)⟩⟩
example : InfBase (Fl Fmt.double) ∧ flt.checks.forbidsEmpty = false ∧ dbl.checks.forbidsEmpty = true := ⟨fl_inf, rfl, rfl⟩

end BI
