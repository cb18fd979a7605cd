import Verif.Spec.Env
/-! # What a value of another arithmetic type denotes for a configuration -/

namespace BI
variable {T : Type} [Num T] [Val T]

/-- The conversion of `v` to the base type of the configuration `V` approximates the extended real number `e`: in the
demanded direction for the switching kinds (and, for the kind that computes lower bounds by negation, the upward
conversion of `-v` approximates `-e`); exactly for the kind that does not switch. -/
def Src.Denotes (V : Env T) (D U : EReal → EReal → Prop) (v : Src T) (e : EReal) : Prop :=
  (V.kind ≠ .exact ∧ Approx T D U v.conv e ∧ (V.kind = .opp → ∃ c z, v.negConv .up = some c ∧ val c = some z ∧ U z (-e))) ∨
  (V.kind = .exact ∧ ∃ c, (∀ r, v.conv r = some c) ∧ val c = some e)

/-- `v` converts to NaN. -/
def Src.IsNaN (v : Src T) : Prop := ∀ r, ∃ c, v.conv r = some c ∧ val c = none

/-- The integer `n` is the number `t` of the base type, whatever the rounding direction. -/
def IntIs (n : Int) (t : T) : Prop := (∀ r, (Num.ofInt r n : Option T) = some t) ∧ val t = some ((n : ℝ) : EReal)

end BI
