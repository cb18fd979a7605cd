import Verif.Spec.Sem
/-!
# Textual intervals

The grammar a reader of intervals is expected to accept, independently of how it is implemented: `[l,u]`, `[l]` or a bare number,
with white space allowed before every token. `Sk t r` says that `r` is `t` without leading white space.
-/

namespace BI

/-- `r` is `t` without its leading white space (space, tab, line feed, vertical tab, form feed, carriage return). -/
def Sk (t r : List Char) : Prop :=
  ∃ w, t = w ++ r ∧ (∀ c ∈ w, c.toNat = 32 ∨ (9 ≤ c.toNat ∧ c.toNat ≤ 13)) ∧ ∀ c ∈ r.head?, ¬ (c.toNat = 32 ∨ (9 ≤ c.toNat ∧ c.toNat ≤ 13))

/-- `Parses num t l u r`: the text `t` begins with an interval whose bounds are the numbers `l` and `u`, and continues with `r`. -/
inductive Parses {T : Type} (num : List Char → Option (T × List Char)) : List Char → T → T → List Char → Prop
  | two {t t1 t2 t2' t3 t4 t4' t5 l u} : Sk t ('[' :: t1) → Sk t1 t2 → num t2 = some (l, t2') → Sk t2' (',' :: t3) → Sk t3 t4 →
      num t4 = some (u, t4') → Sk t4' (']' :: t5) → Parses num t l u t5
  | one {t t1 t2 t2' t3 l} : Sk t ('[' :: t1) → Sk t1 t2 → num t2 = some (l, t2') → Sk t2' (']' :: t3) → Parses num t l l t3
  | bare {t t1 t2 l} : Sk t t1 → t1.head? ≠ some '[' → num t1 = some (l, t2) → Parses num t l l t2

/-- The text ends where the first number of an interval should begin. -/
def Cut (t : List Char) : Prop := Sk t [] ∨ ∃ t1, Sk t ('[' :: t1) ∧ Sk t1 []

end BI
