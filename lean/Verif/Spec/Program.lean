import Verif.Model.Program
import Verif.Spec.Compare
import Verif.Spec.Expr
/-! # What programs with tests and loops mean for numbers -/

namespace BI
variable {T α : Type}

/-- How a program ends: normally with the variables `v`, at an operation that has no result, or because a loop has reached
the limit of turns. -/
inductive Ending (α : Type) where
  | done (v : ℕ → α)
  | stuck
  | cut

/-- What formulas and comparisons mean for numbers of type `α`: `value v e r` if `r` is a value of `e` at the point `v`. -/
structure Meaning (T α : Type) where
  value : (ℕ → α) → Expr T → α → Prop
  holds : Rel → α → α → Prop

/-- The test has the result `b`. -/
def Cond.Result (I : Meaning T α) (v : ℕ → α) : Cond T → Bool → Prop
  | .II r e₁ e₂, b => ∃ p q, I.value v e₁ p ∧ I.value v e₂ q ∧ (b = true ↔ I.holds r p q)
  | .IT r e t, b => ∃ p q, I.value v e p ∧ I.value v (.num t) q ∧ (b = true ↔ I.holds r p q)

/-- Executions from the variables `v` with the results `π` of the tests and the ending `o`. -/
abbrev Runs (α : Type) := (ℕ → α) → List Bool → Ending α → Prop

/-- One after the other. -/
def Runs.andThen (A B : Runs α) : Runs α := fun v π o =>
  (∃ v' π₁ π₂, A v π₁ (.done v') ∧ B v' π₂ o ∧ π = π₁ ++ π₂) ∨ ((o = .stuck ∨ o = .cut) ∧ A v π o)

/-- A test, and one or the other. -/
def Runs.branch (c : (ℕ → α) → Bool → Prop) (A B : Runs α) : Runs α := fun v π o =>
  (∃ π', c v true ∧ A v π' o ∧ π = true :: π') ∨ (∃ π', c v false ∧ B v π' o ∧ π = false :: π') ∨
    ((∀ b, ¬ c v b) ∧ π = [] ∧ o = .stuck)

/-- Nothing. -/
def Runs.nop : Runs α := fun v π o => π = [] ∧ o = .done v

/-- A loop of less than `n` turns. -/
def Runs.loop (c : (ℕ → α) → Bool → Prop) (A : Runs α) : ℕ → Runs α
  | 0 => fun _ π o => π = [] ∧ o = .cut
  | n + 1 => Runs.branch c (A.andThen (Runs.loop c A n)) Runs.nop

/-- Executions with numbers. -/
def Stmt.Exec (I : Meaning T α) (n : ℕ) : Stmt T → Runs α
  | .skip => Runs.nop
  | .assign i e => fun v π o => π = [] ∧
      ((∃ r, I.value v e r ∧ o = .done fun j => if j = i then r else v j) ∨ ((∀ r, ¬ I.value v e r) ∧ o = .stuck))
  | .seq a b => (a.Exec I n).andThen (b.Exec I n)
  | .ite c a b => Runs.branch (fun v => c.Result I v) (a.Exec I n) (b.Exec I n)
  | .loop c a => Runs.loop (fun v => c.Result I v) (a.Exec I n) n
  | .region a => a.Exec I n

/-- All formulas of the test satisfy `p`. -/
def Cond.Formulas (p : Expr T → Prop) : Cond T → Prop
  | .II _ e₁ e₂ => p e₁ ∧ p e₂
  | .IT _ e _ => p e

/-- All formulas of the program satisfy `p`. -/
def Stmt.Formulas (p : Expr T → Prop) : Stmt T → Prop
  | .skip => True
  | .assign _ e => p e
  | .seq a b => a.Formulas p ∧ b.Formulas p
  | .ite c a b => c.Formulas p ∧ a.Formulas p ∧ b.Formulas p
  | .loop c a => c.Formulas p ∧ a.Formulas p
  | .region a => a.Formulas p

section
variable [Val T]

/-- Exact real numbers. -/
def exactly : Meaning T ℝ := ⟨fun v e r => e.Value v r, Rel.holds⟩

/-- Real numbers, where `R` relates the result of each operation to what is delivered in its place. -/
def roundedBy (R : ℝ → ℝ → Prop) : Meaning T ℝ := ⟨fun v e r => e.Rounded R v r, Rel.holds⟩

variable [Num T]

/-- The relational operators of the base type. -/
def Rel.plain : Rel → T → T → Bool
  | .lt, a, b => Num.lt a b
  | .le, a, b => Num.le a b
  | .gt, a, b => Num.lt b a
  | .ge, a, b => Num.le b a
  | .eq, a, b => Num.eq a b
  | .ne, a, b => !Num.eq a b

/-- The same program with variables of the base type, each operation in a rounding mode of its own; results that are infinite
or NaN count as missing. -/
def plainly : Meaning T T := ⟨fun v e t => e.Machine v t, fun r a b => r.plain a b = true⟩
end

end BI
