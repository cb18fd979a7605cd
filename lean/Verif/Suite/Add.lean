import Batteries.Lean.Except
import Verif.Model.Object
/-!
# test/add.cpp, run on the model

Intervals of symbolic expressions: the result of an operation shows which rounded operations were executed, in which
direction. A test of the transcription of arith.hpp, rounded_arith.hpp and rounding.hpp, not a proof of a property.
-/

namespace BI.Suite

/-- add.cpp 21-35 -/
inductive PExpr where
  | var (v : Nat)
  | neg (e : PExpr)
  | up (e : PExpr)
  | down (e : PExpr)
  | add (a b : PExpr)
  | sub (a b : PExpr)
  deriving DecidableEq, Repr

namespace PExpr

/-- add.cpp 48-66: `operator+` (`plus = true`) and binary `operator-`, which call each other; `n` bounds the depth. -/
def sum : Nat → Bool → PExpr → PExpr → PExpr
  | 0, _, a, _ => a
  | n + 1, true, a, b =>
    match a, b with
    | .neg a', b => sum n false b a'
    | a, .neg b' => sum n false a b'
    | .var v, .var w => if w < v then sum n true (.var w) (.var v) else .add (.var v) (.var w)
    | a, b => .add a b
  | n + 1, false, a, b =>
    match b with
    | .neg b' => sum n true a b'
    | b => .sub a b

/-- Enough for the expressions of the tests. -/
def plus : PExpr → PExpr → PExpr := sum 9 true
def minus : PExpr → PExpr → PExpr := sum 9 false

/-- add.cpp 82-92 -/
def opp : PExpr → PExpr
  | .neg e => e
  | .up e => .down (opp e)
  | .down e => .up (opp e)
  | .sub a b => minus b a
  | .add a b => minus (opp a) b
  | e => .neg e

/-- add.cpp 113-119, `force_rounding` -/
def force : RMode → PExpr → Option PExpr
  | .up, e => some (.up e)
  | .down, e => some (.down e)
  | _, _ => none

end PExpr

/-- add.cpp 94-102. The operations that add.cpp does not define are not used. The model applies the direction in force to
each operation where the library calls `force_rounding` on it. -/
instance : Num PExpr where
  lt _ _ := false
  le _ _ := true
  eq a b := decide (a = b)
  lit n := .var n.toNat
  ofInt _ _ := none
  neg a := some a.opp
  add r a b := PExpr.force r (a.plus b)
  sub r a b := PExpr.force r (a.minus b)
  mul _ _ _ := none
  div _ _ _ := none
  sqrt _ _ := none
  rint _ _ := none
  floor _ := none
  ceil _ := none
  hasInf := false
  hasNaN := false
  infinity := .var 0
  nan := .var 0

/-- add.cpp 108-121, `rounding_control<pexpr>`: the global variable `mode`. -/
def symCtl : Ctl where
  W := RMode
  Saved := RMode
  decode w := w
  get w := w
  set m _ := m
  upward _ := .up
  downward _ := .down
  toNearest _ := .near
  towardZero _ := .zero

/-- add.cpp 195-204 -/
def symChk : Checking PExpr where
  posInf := .error .ub
  negInf := .error .ub
  nan := .error .ub
  isNan _ := .ok false
  emptyLower := .error .ub
  emptyUpper := .error .ub
  isEmpty _ _ := .ok false

/-- add.cpp 206-213: `save_state` over `rounded_arith_std` or `rounded_arith_opp` -/
def symP (k : RKind) : Policies (M RMode) PExpr := protPolicies symCtl k (fun _ _ _ => none) symChk

def v (n : Nat) : PExpr := .var n
def vI (a b : PExpr) : Itv PExpr := ⟨a, b⟩

/-- The operation yields `r` and restores the mode, from each mode and for both orders of evaluation of the bounds. -/
def gives (p : M RMode (Itv PExpr)) (r : Itv PExpr) : Bool :=
  [RMode.near, .down, .up, .zero].all fun w => [true, false].all fun o =>
    let q := p ⟨w, fun _ => o⟩
    decide (q.1 = .ok r) && decide (q.2.cw = w)

/-- The same for an assignment operator on an object. -/
def givesA (p : OM RMode PExpr Unit) (x r : Itv PExpr) : Bool :=
  [RMode.near, .down, .up, .zero].all fun w => [true, false].all fun o =>
    let q := p ⟨x, ⟨w, fun _ => o⟩⟩
    decide (q.1 = .ok ()) && decide (q.2.obj = r) && decide (q.2.st.cw = w)

open PExpr in
/-- add.cpp 128-193, 216-241, for `rounded_arith_std` and `rounded_arith_opp` -/
example : ∀ k ∈ [RKind.std, RKind.opp],
    negI symChk (vI (v 0) (v 1)) = .ok (vI (v 1).opp (v 0).opp) ∧
    gives (addII (symP k) (vI (v 0) (v 1)) (vI (v 2) (v 3)))
      (vI (.down ((v 0).plus (v 2))) (.up ((v 1).plus (v 3)))) ∧
    gives (addIT (symP k) (vI (v 0) (v 1)) (v 2)) (vI (.down ((v 0).plus (v 2))) (.up ((v 1).plus (v 2)))) ∧
    gives (addTI (symP k) (v 2) (vI (v 0) (v 1))) (vI (.down ((v 0).plus (v 2))) (.up ((v 1).plus (v 2)))) ∧
    gives (subII (symP k) (vI (v 0) (v 1)) (vI (v 2) (v 3)))
      (vI (.down ((v 0).minus (v 3))) (.up ((v 1).minus (v 2)))) ∧
    gives (subIT (symP k) (vI (v 0) (v 1)) (v 2)) (vI (.down ((v 0).minus (v 2))) (.up ((v 1).minus (v 2)))) ∧
    gives (subTI (symP k) (v 2) (vI (v 0) (v 1))) (vI (.down ((v 2).minus (v 1))) (.up ((v 2).minus (v 0)))) ∧
    givesA (addAssign (symP k) (.val (vI (v 2) (v 3)))) (vI (v 0) (v 1))
      (vI (.down ((v 0).plus (v 2))) (.up ((v 1).plus (v 3)))) ∧
    givesA (addAssignT (symP k) (.val (v 2))) (vI (v 0) (v 1))
      (vI (.down ((v 0).plus (v 2))) (.up ((v 1).plus (v 2)))) ∧
    givesA (subAssign (symP k) (.val (vI (v 2) (v 3)))) (vI (v 0) (v 1))
      (vI (.down ((v 0).minus (v 3))) (.up ((v 1).minus (v 2)))) ∧
    givesA (subAssignT (symP k) (.val (v 2))) (vI (v 0) (v 1))
      (vI (.down ((v 0).minus (v 2))) (.up ((v 1).minus (v 2)))) := by
  decide +kernel

end BI.Suite
