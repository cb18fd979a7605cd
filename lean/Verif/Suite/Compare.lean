import Verif.Model.Compare
import Verif.Model.MachInt
/-!
# The comparison tests of the library, run on the model

Generated by tools/mksuite.py from /repo/test/cmp*.cpp. These are tests of the transcription, not proofs of properties.
-/

namespace BI.Suite

/-- The int `a` and the interval `[a, b]` of ints. -/
def nm (a : Int) : MInt 28 := Num.lit a
def iv (a b : Int) : Itv (MInt 28) := ⟨nm a, nm b⟩

/-- `checking_base<int>`, cmp_header.hpp 19-21 -/
def baseInt : Checking (MInt 28) := chkBase _ false

/-- cmp_exn.cpp 17-24; what it does not define is not used. -/
def negNan : Checking (MInt 28) where
  posInf := .error .assertion
  negInf := .error .assertion
  nan := .ok (Num.lit (-1))
  isNan x := .ok (decide (x.z < 0))
  emptyLower := .ok (Num.lit (-1))
  emptyUpper := .ok (Num.lit (-1))
  isEmpty l u := .ok (decide (l.z = -1) && decide (u.z = -1))

/-- `I::empty()` with `checking_base<int>` -/
def emptyInt : Itv (MInt 28) := iv 1 0
example : emptyI baseInt = .ok emptyInt := by decide +kernel

/-- `I::empty()` in cmp_exn.cpp -/
def emptyNeg : Itv (MInt 28) := iv (-1) (-1)
example : emptyI negNan = .ok emptyNeg := by decide +kernel

/-- cmp.cpp 15-35 (test_12_34) -/
example :
    cmpII .lt baseInt baseInt (iv 1 2) (iv 3 4) = .ok true ∧
    cmpII .le baseInt baseInt (iv 1 2) (iv 3 4) = .ok true ∧
    cmpII .gt baseInt baseInt (iv 1 2) (iv 3 4) = .ok false ∧
    cmpII .ge baseInt baseInt (iv 1 2) (iv 3 4) = .ok false ∧
    cmpII .gt baseInt baseInt (iv 3 4) (iv 1 2) = .ok true ∧
    cmpII .ge baseInt baseInt (iv 3 4) (iv 1 2) = .ok true ∧
    cmpII .lt baseInt baseInt (iv 3 4) (iv 1 2) = .ok false ∧
    cmpII .le baseInt baseInt (iv 3 4) (iv 1 2) = .ok false ∧
    cmpII .eq baseInt baseInt (iv 1 2) (iv 3 4) = .ok false ∧
    cmpII .ne baseInt baseInt (iv 1 2) (iv 3 4) = .ok true := by
  and_intros <;> decide +kernel

/-- cmp.cpp 39-59 (test_13_24) -/
example :
    cmpII .lt baseInt baseInt (iv 1 3) (iv 2 4) = .error .comparison ∧
    cmpII .le baseInt baseInt (iv 1 3) (iv 2 4) = .error .comparison ∧
    cmpII .gt baseInt baseInt (iv 1 3) (iv 2 4) = .error .comparison ∧
    cmpII .ge baseInt baseInt (iv 1 3) (iv 2 4) = .error .comparison ∧
    cmpII .lt baseInt baseInt (iv 2 4) (iv 1 3) = .error .comparison ∧
    cmpII .le baseInt baseInt (iv 2 4) (iv 1 3) = .error .comparison ∧
    cmpII .gt baseInt baseInt (iv 2 4) (iv 1 3) = .error .comparison ∧
    cmpII .ge baseInt baseInt (iv 2 4) (iv 1 3) = .error .comparison ∧
    cmpII .eq baseInt baseInt (iv 1 3) (iv 2 4) = .error .comparison ∧
    cmpII .ne baseInt baseInt (iv 1 3) (iv 2 4) = .error .comparison := by
  and_intros <;> decide +kernel

/-- cmp.cpp 63-83 (test_12_23) -/
example :
    cmpII .lt baseInt baseInt (iv 1 2) (iv 2 3) = .error .comparison ∧
    cmpII .le baseInt baseInt (iv 1 2) (iv 2 3) = .ok true ∧
    cmpII .gt baseInt baseInt (iv 1 2) (iv 2 3) = .ok false ∧
    cmpII .ge baseInt baseInt (iv 1 2) (iv 2 3) = .error .comparison ∧
    cmpII .lt baseInt baseInt (iv 2 3) (iv 1 2) = .ok false ∧
    cmpII .le baseInt baseInt (iv 2 3) (iv 1 2) = .error .comparison ∧
    cmpII .gt baseInt baseInt (iv 2 3) (iv 1 2) = .error .comparison ∧
    cmpII .ge baseInt baseInt (iv 2 3) (iv 1 2) = .ok true ∧
    cmpII .eq baseInt baseInt (iv 1 2) (iv 2 3) = .error .comparison ∧
    cmpII .ne baseInt baseInt (iv 1 2) (iv 2 3) = .error .comparison := by
  and_intros <;> decide +kernel

/-- cmp.cpp 87-103 (test_12_0) -/
example :
    cmpIT .lt baseInt (iv 1 2) (nm 0) = .ok false ∧
    cmpIT .le baseInt (iv 1 2) (nm 0) = .ok false ∧
    cmpIT .gt baseInt (iv 1 2) (nm 0) = .ok true ∧
    cmpIT .ge baseInt (iv 1 2) (nm 0) = .ok true ∧
    cmpIT .eq baseInt (iv 1 2) (nm 0) = .ok false ∧
    cmpIT .ne baseInt (iv 1 2) (nm 0) = .ok true := by
  and_intros <;> decide +kernel

/-- cmp.cpp 107-123 (test_12_1) -/
example :
    cmpIT .lt baseInt (iv 1 2) (nm 1) = .ok false ∧
    cmpIT .le baseInt (iv 1 2) (nm 1) = .error .comparison ∧
    cmpIT .gt baseInt (iv 1 2) (nm 1) = .error .comparison ∧
    cmpIT .ge baseInt (iv 1 2) (nm 1) = .ok true ∧
    cmpIT .eq baseInt (iv 1 2) (nm 1) = .error .comparison ∧
    cmpIT .ne baseInt (iv 1 2) (nm 1) = .error .comparison := by
  and_intros <;> decide +kernel

/-- cmp.cpp 127-143 (test_12_2) -/
example :
    cmpIT .lt baseInt (iv 1 2) (nm 2) = .error .comparison ∧
    cmpIT .le baseInt (iv 1 2) (nm 2) = .ok true ∧
    cmpIT .gt baseInt (iv 1 2) (nm 2) = .ok false ∧
    cmpIT .ge baseInt (iv 1 2) (nm 2) = .error .comparison ∧
    cmpIT .eq baseInt (iv 1 2) (nm 2) = .error .comparison ∧
    cmpIT .ne baseInt (iv 1 2) (nm 2) = .error .comparison := by
  and_intros <;> decide +kernel

/-- cmp.cpp 147-163 (test_12_3) -/
example :
    cmpIT .lt baseInt (iv 1 2) (nm 3) = .ok true ∧
    cmpIT .le baseInt (iv 1 2) (nm 3) = .ok true ∧
    cmpIT .gt baseInt (iv 1 2) (nm 3) = .ok false ∧
    cmpIT .ge baseInt (iv 1 2) (nm 3) = .ok false ∧
    cmpIT .eq baseInt (iv 1 2) (nm 3) = .ok false ∧
    cmpIT .ne baseInt (iv 1 2) (nm 3) = .ok true := by
  and_intros <;> decide +kernel

/-- cmp.cpp 167-175 (test_12_12) -/
example :
    cmpII .eq baseInt baseInt (iv 1 2) (iv 1 2) = .error .comparison ∧
    cmpII .ne baseInt baseInt (iv 1 2) (iv 1 2) = .error .comparison := by
  and_intros <;> decide +kernel

/-- cmp.cpp 179-187 (test_11_11) -/
example :
    cmpII .eq baseInt baseInt (iv 1 1) (iv 1 1) = .ok true ∧
    cmpII .ne baseInt baseInt (iv 1 1) (iv 1 1) = .ok false := by
  and_intros <;> decide +kernel

/-- cmp.cpp 191-200 (test_11_1) -/
example :
    cmpIT .eq baseInt (iv 1 1) (nm 1) = .ok true ∧
    cmpIT .ne baseInt (iv 1 1) (nm 1) = .ok false := by
  and_intros <;> decide +kernel

/-- cmp_lex.cpp 17-37 (test_12_34) -/
example :
    lexII .lt baseInt baseInt (iv 1 2) (iv 3 4) = .ok true ∧
    lexII .le baseInt baseInt (iv 1 2) (iv 3 4) = .ok true ∧
    lexII .gt baseInt baseInt (iv 1 2) (iv 3 4) = .ok false ∧
    lexII .ge baseInt baseInt (iv 1 2) (iv 3 4) = .ok false ∧
    lexII .gt baseInt baseInt (iv 3 4) (iv 1 2) = .ok true ∧
    lexII .ge baseInt baseInt (iv 3 4) (iv 1 2) = .ok true ∧
    lexII .lt baseInt baseInt (iv 3 4) (iv 1 2) = .ok false ∧
    lexII .le baseInt baseInt (iv 3 4) (iv 1 2) = .ok false ∧
    lexII .eq baseInt baseInt (iv 1 2) (iv 3 4) = .ok false ∧
    lexII .ne baseInt baseInt (iv 1 2) (iv 3 4) = .ok true := by
  and_intros <;> decide +kernel

/-- cmp_lex.cpp 41-61 (test_13_24) -/
example :
    lexII .lt baseInt baseInt (iv 1 3) (iv 2 4) = .ok true ∧
    lexII .le baseInt baseInt (iv 1 3) (iv 2 4) = .ok true ∧
    lexII .gt baseInt baseInt (iv 1 3) (iv 2 4) = .ok false ∧
    lexII .ge baseInt baseInt (iv 1 3) (iv 2 4) = .ok false ∧
    lexII .lt baseInt baseInt (iv 2 4) (iv 1 3) = .ok false ∧
    lexII .le baseInt baseInt (iv 2 4) (iv 1 3) = .ok false ∧
    lexII .gt baseInt baseInt (iv 2 4) (iv 1 3) = .ok true ∧
    lexII .ge baseInt baseInt (iv 2 4) (iv 1 3) = .ok true ∧
    lexII .eq baseInt baseInt (iv 1 3) (iv 2 4) = .ok false ∧
    lexII .ne baseInt baseInt (iv 1 3) (iv 2 4) = .ok true := by
  and_intros <;> decide +kernel

/-- cmp_lex.cpp 65-85 (test_12_23) -/
example :
    lexII .lt baseInt baseInt (iv 1 2) (iv 2 3) = .ok true ∧
    lexII .le baseInt baseInt (iv 1 2) (iv 2 3) = .ok true ∧
    lexII .gt baseInt baseInt (iv 1 2) (iv 2 3) = .ok false ∧
    lexII .ge baseInt baseInt (iv 1 2) (iv 2 3) = .ok false ∧
    lexII .lt baseInt baseInt (iv 2 3) (iv 1 2) = .ok false ∧
    lexII .le baseInt baseInt (iv 2 3) (iv 1 2) = .ok false ∧
    lexII .gt baseInt baseInt (iv 2 3) (iv 1 2) = .ok true ∧
    lexII .ge baseInt baseInt (iv 2 3) (iv 1 2) = .ok true ∧
    lexII .eq baseInt baseInt (iv 1 2) (iv 2 3) = .ok false ∧
    lexII .ne baseInt baseInt (iv 1 2) (iv 2 3) = .ok true := by
  and_intros <;> decide +kernel

/-- cmp_lex.cpp 89-105 (test_12_0) -/
example :
    lexIT .lt baseInt (iv 1 2) (nm 0) = .ok false ∧
    lexIT .le baseInt (iv 1 2) (nm 0) = .ok false ∧
    lexIT .gt baseInt (iv 1 2) (nm 0) = .ok true ∧
    lexIT .ge baseInt (iv 1 2) (nm 0) = .ok true ∧
    lexIT .eq baseInt (iv 1 2) (nm 0) = .ok false ∧
    lexIT .ne baseInt (iv 1 2) (nm 0) = .ok true := by
  and_intros <;> decide +kernel

/-- cmp_lex.cpp 109-125 (test_12_1) -/
example :
    lexIT .lt baseInt (iv 1 2) (nm 1) = .ok false ∧
    lexIT .le baseInt (iv 1 2) (nm 1) = .ok false ∧
    lexIT .gt baseInt (iv 1 2) (nm 1) = .ok true ∧
    lexIT .ge baseInt (iv 1 2) (nm 1) = .ok true ∧
    lexIT .eq baseInt (iv 1 2) (nm 1) = .ok false ∧
    lexIT .ne baseInt (iv 1 2) (nm 1) = .ok true := by
  and_intros <;> decide +kernel

/-- cmp_lex.cpp 129-145 (test_12_2) -/
example :
    lexIT .lt baseInt (iv 1 2) (nm 2) = .ok true ∧
    lexIT .le baseInt (iv 1 2) (nm 2) = .ok true ∧
    lexIT .gt baseInt (iv 1 2) (nm 2) = .ok false ∧
    lexIT .ge baseInt (iv 1 2) (nm 2) = .ok false ∧
    lexIT .eq baseInt (iv 1 2) (nm 2) = .ok false ∧
    lexIT .ne baseInt (iv 1 2) (nm 2) = .ok true := by
  and_intros <;> decide +kernel

/-- cmp_lex.cpp 149-165 (test_12_3) -/
example :
    lexIT .lt baseInt (iv 1 2) (nm 3) = .ok true ∧
    lexIT .le baseInt (iv 1 2) (nm 3) = .ok true ∧
    lexIT .gt baseInt (iv 1 2) (nm 3) = .ok false ∧
    lexIT .ge baseInt (iv 1 2) (nm 3) = .ok false ∧
    lexIT .eq baseInt (iv 1 2) (nm 3) = .ok false ∧
    lexIT .ne baseInt (iv 1 2) (nm 3) = .ok true := by
  and_intros <;> decide +kernel

/-- cmp_lex.cpp 167-177 (test_12_12) -/
example :
    lexII .eq baseInt baseInt (iv 1 2) (iv 1 2) = .ok true ∧
    lexII .ne baseInt baseInt (iv 1 2) (iv 1 2) = .ok false := by
  and_intros <;> decide +kernel

/-- cmp_lex.cpp 179-189 (test_11_11) -/
example :
    lexII .eq baseInt baseInt (iv 1 1) (iv 1 1) = .ok true ∧
    lexII .ne baseInt baseInt (iv 1 1) (iv 1 1) = .ok false := by
  and_intros <;> decide +kernel

/-- cmp_lex.cpp 191-202 (test_11_1) -/
example :
    lexIT .eq baseInt (iv 1 1) (nm 1) = .ok true ∧
    lexIT .ne baseInt (iv 1 1) (nm 1) = .ok false := by
  and_intros <;> decide +kernel

/-- cmp_set.cpp 17-37 (test_12_34) -/
example :
    setII .lt baseInt baseInt (iv 1 2) (iv 3 4) = .ok false ∧
    setII .le baseInt baseInt (iv 1 2) (iv 3 4) = .ok false ∧
    setII .gt baseInt baseInt (iv 1 2) (iv 3 4) = .ok false ∧
    setII .ge baseInt baseInt (iv 1 2) (iv 3 4) = .ok false ∧
    setII .gt baseInt baseInt (iv 3 4) (iv 1 2) = .ok false ∧
    setII .ge baseInt baseInt (iv 3 4) (iv 1 2) = .ok false ∧
    setII .lt baseInt baseInt (iv 3 4) (iv 1 2) = .ok false ∧
    setII .le baseInt baseInt (iv 3 4) (iv 1 2) = .ok false ∧
    setII .eq baseInt baseInt (iv 1 2) (iv 3 4) = .ok false ∧
    setII .ne baseInt baseInt (iv 1 2) (iv 3 4) = .ok true := by
  and_intros <;> decide +kernel

/-- cmp_set.cpp 41-61 (test_13_24) -/
example :
    setII .lt baseInt baseInt (iv 1 3) (iv 2 4) = .ok false ∧
    setII .le baseInt baseInt (iv 1 3) (iv 2 4) = .ok false ∧
    setII .gt baseInt baseInt (iv 1 3) (iv 2 4) = .ok false ∧
    setII .ge baseInt baseInt (iv 1 3) (iv 2 4) = .ok false ∧
    setII .lt baseInt baseInt (iv 2 4) (iv 1 3) = .ok false ∧
    setII .le baseInt baseInt (iv 2 4) (iv 1 3) = .ok false ∧
    setII .gt baseInt baseInt (iv 2 4) (iv 1 3) = .ok false ∧
    setII .ge baseInt baseInt (iv 2 4) (iv 1 3) = .ok false ∧
    setII .eq baseInt baseInt (iv 1 3) (iv 2 4) = .ok false ∧
    setII .ne baseInt baseInt (iv 1 3) (iv 2 4) = .ok true := by
  and_intros <;> decide +kernel

/-- cmp_set.cpp 65-85 (test_14_23) -/
example :
    setII .lt baseInt baseInt (iv 1 4) (iv 2 3) = .ok false ∧
    setII .le baseInt baseInt (iv 1 4) (iv 2 3) = .ok false ∧
    setII .gt baseInt baseInt (iv 1 4) (iv 2 3) = .ok true ∧
    setII .ge baseInt baseInt (iv 1 4) (iv 2 3) = .ok true ∧
    setII .lt baseInt baseInt (iv 2 3) (iv 1 4) = .ok true ∧
    setII .le baseInt baseInt (iv 2 3) (iv 1 4) = .ok true ∧
    setII .gt baseInt baseInt (iv 2 3) (iv 1 4) = .ok false ∧
    setII .ge baseInt baseInt (iv 2 3) (iv 1 4) = .ok false ∧
    setII .eq baseInt baseInt (iv 1 4) (iv 2 3) = .ok false ∧
    setII .ne baseInt baseInt (iv 1 4) (iv 2 3) = .ok true := by
  and_intros <;> decide +kernel

/-- cmp_set.cpp 89-109 (test_12_23) -/
example :
    setII .lt baseInt baseInt (iv 1 2) (iv 2 3) = .ok false ∧
    setII .le baseInt baseInt (iv 1 2) (iv 2 3) = .ok false ∧
    setII .gt baseInt baseInt (iv 1 2) (iv 2 3) = .ok false ∧
    setII .ge baseInt baseInt (iv 1 2) (iv 2 3) = .ok false ∧
    setII .lt baseInt baseInt (iv 2 3) (iv 1 2) = .ok false ∧
    setII .le baseInt baseInt (iv 2 3) (iv 1 2) = .ok false ∧
    setII .gt baseInt baseInt (iv 2 3) (iv 1 2) = .ok false ∧
    setII .ge baseInt baseInt (iv 2 3) (iv 1 2) = .ok false ∧
    setII .eq baseInt baseInt (iv 1 2) (iv 2 3) = .ok false ∧
    setII .ne baseInt baseInt (iv 1 2) (iv 2 3) = .ok true := by
  and_intros <;> decide +kernel

/-- cmp_set.cpp 113-133 (test_12_E) -/
example :
    setII .lt baseInt baseInt (iv 1 2) emptyInt = .ok false ∧
    setII .le baseInt baseInt (iv 1 2) emptyInt = .ok false ∧
    setII .gt baseInt baseInt (iv 1 2) emptyInt = .ok true ∧
    setII .ge baseInt baseInt (iv 1 2) emptyInt = .ok true ∧
    setII .lt baseInt baseInt emptyInt (iv 1 2) = .ok true ∧
    setII .le baseInt baseInt emptyInt (iv 1 2) = .ok true ∧
    setII .gt baseInt baseInt emptyInt (iv 1 2) = .ok false ∧
    setII .ge baseInt baseInt emptyInt (iv 1 2) = .ok false ∧
    setII .eq baseInt baseInt (iv 1 2) emptyInt = .ok false ∧
    setII .ne baseInt baseInt (iv 1 2) emptyInt = .ok true := by
  and_intros <;> decide +kernel

/-- cmp_set.cpp 137-157 (test_E_E) -/
example :
    setII .lt baseInt baseInt emptyInt emptyInt = .ok false ∧
    setII .le baseInt baseInt emptyInt emptyInt = .ok true ∧
    setII .gt baseInt baseInt emptyInt emptyInt = .ok false ∧
    setII .ge baseInt baseInt emptyInt emptyInt = .ok true ∧
    setII .lt baseInt baseInt emptyInt emptyInt = .ok false ∧
    setII .le baseInt baseInt emptyInt emptyInt = .ok true ∧
    setII .gt baseInt baseInt emptyInt emptyInt = .ok false ∧
    setII .ge baseInt baseInt emptyInt emptyInt = .ok true ∧
    setII .eq baseInt baseInt emptyInt emptyInt = .ok true ∧
    setII .ne baseInt baseInt emptyInt emptyInt = .ok false := by
  and_intros <;> decide +kernel

/-- cmp_set.cpp 161-181 (test_12_12) -/
example :
    setII .lt baseInt baseInt (iv 1 2) (iv 1 2) = .ok false ∧
    setII .le baseInt baseInt (iv 1 2) (iv 1 2) = .ok true ∧
    setII .gt baseInt baseInt (iv 1 2) (iv 1 2) = .ok false ∧
    setII .ge baseInt baseInt (iv 1 2) (iv 1 2) = .ok true ∧
    setII .lt baseInt baseInt (iv 1 2) (iv 1 2) = .ok false ∧
    setII .le baseInt baseInt (iv 1 2) (iv 1 2) = .ok true ∧
    setII .gt baseInt baseInt (iv 1 2) (iv 1 2) = .ok false ∧
    setII .ge baseInt baseInt (iv 1 2) (iv 1 2) = .ok true ∧
    setII .eq baseInt baseInt (iv 1 2) (iv 1 2) = .ok true ∧
    setII .ne baseInt baseInt (iv 1 2) (iv 1 2) = .ok false := by
  and_intros <;> decide +kernel

/-- cmp_set.cpp 185-205 (test_11_11) -/
example :
    setII .lt baseInt baseInt (iv 1 1) (iv 1 1) = .ok false ∧
    setII .le baseInt baseInt (iv 1 1) (iv 1 1) = .ok true ∧
    setII .gt baseInt baseInt (iv 1 1) (iv 1 1) = .ok false ∧
    setII .ge baseInt baseInt (iv 1 1) (iv 1 1) = .ok true ∧
    setII .lt baseInt baseInt (iv 1 1) (iv 1 1) = .ok false ∧
    setII .le baseInt baseInt (iv 1 1) (iv 1 1) = .ok true ∧
    setII .gt baseInt baseInt (iv 1 1) (iv 1 1) = .ok false ∧
    setII .ge baseInt baseInt (iv 1 1) (iv 1 1) = .ok true ∧
    setII .eq baseInt baseInt (iv 1 1) (iv 1 1) = .ok true ∧
    setII .ne baseInt baseInt (iv 1 1) (iv 1 1) = .ok false := by
  and_intros <;> decide +kernel

/-- cmp_tribool.cpp 18-38 (test_12_34) -/
example :
    triII .lt baseInt baseInt (iv 1 2) (iv 3 4) = .ok (some true) ∧
    triII .le baseInt baseInt (iv 1 2) (iv 3 4) = .ok (some true) ∧
    triII .gt baseInt baseInt (iv 1 2) (iv 3 4) = .ok (some false) ∧
    triII .ge baseInt baseInt (iv 1 2) (iv 3 4) = .ok (some false) ∧
    triII .gt baseInt baseInt (iv 3 4) (iv 1 2) = .ok (some true) ∧
    triII .ge baseInt baseInt (iv 3 4) (iv 1 2) = .ok (some true) ∧
    triII .lt baseInt baseInt (iv 3 4) (iv 1 2) = .ok (some false) ∧
    triII .le baseInt baseInt (iv 3 4) (iv 1 2) = .ok (some false) ∧
    triII .eq baseInt baseInt (iv 1 2) (iv 3 4) = .ok (some false) ∧
    triII .ne baseInt baseInt (iv 1 2) (iv 3 4) = .ok (some true) := by
  and_intros <;> decide +kernel

/-- cmp_tribool.cpp 42-62 (test_13_24) -/
example :
    triII .lt baseInt baseInt (iv 1 3) (iv 2 4) = .ok none ∧
    triII .le baseInt baseInt (iv 1 3) (iv 2 4) = .ok none ∧
    triII .gt baseInt baseInt (iv 1 3) (iv 2 4) = .ok none ∧
    triII .ge baseInt baseInt (iv 1 3) (iv 2 4) = .ok none ∧
    triII .lt baseInt baseInt (iv 2 4) (iv 1 3) = .ok none ∧
    triII .le baseInt baseInt (iv 2 4) (iv 1 3) = .ok none ∧
    triII .gt baseInt baseInt (iv 2 4) (iv 1 3) = .ok none ∧
    triII .ge baseInt baseInt (iv 2 4) (iv 1 3) = .ok none ∧
    triII .eq baseInt baseInt (iv 1 3) (iv 2 4) = .ok none ∧
    triII .ne baseInt baseInt (iv 1 3) (iv 2 4) = .ok none := by
  and_intros <;> decide +kernel

/-- cmp_tribool.cpp 66-86 (test_12_23) -/
example :
    triII .lt baseInt baseInt (iv 1 2) (iv 2 3) = .ok none ∧
    triII .le baseInt baseInt (iv 1 2) (iv 2 3) = .ok (some true) ∧
    triII .gt baseInt baseInt (iv 1 2) (iv 2 3) = .ok (some false) ∧
    triII .ge baseInt baseInt (iv 1 2) (iv 2 3) = .ok none ∧
    triII .lt baseInt baseInt (iv 2 3) (iv 1 2) = .ok (some false) ∧
    triII .le baseInt baseInt (iv 2 3) (iv 1 2) = .ok none ∧
    triII .gt baseInt baseInt (iv 2 3) (iv 1 2) = .ok none ∧
    triII .ge baseInt baseInt (iv 2 3) (iv 1 2) = .ok (some true) ∧
    triII .eq baseInt baseInt (iv 1 2) (iv 2 3) = .ok none ∧
    triII .ne baseInt baseInt (iv 1 2) (iv 2 3) = .ok none := by
  and_intros <;> decide +kernel

/-- cmp_tribool.cpp 90-106 (test_12_0) -/
example :
    triIT .lt baseInt (iv 1 2) (nm 0) = .ok (some false) ∧
    triIT .le baseInt (iv 1 2) (nm 0) = .ok (some false) ∧
    triIT .gt baseInt (iv 1 2) (nm 0) = .ok (some true) ∧
    triIT .ge baseInt (iv 1 2) (nm 0) = .ok (some true) ∧
    triIT .eq baseInt (iv 1 2) (nm 0) = .ok (some false) ∧
    triIT .ne baseInt (iv 1 2) (nm 0) = .ok (some true) := by
  and_intros <;> decide +kernel

/-- cmp_tribool.cpp 110-126 (test_12_1) -/
example :
    triIT .lt baseInt (iv 1 2) (nm 1) = .ok (some false) ∧
    triIT .le baseInt (iv 1 2) (nm 1) = .ok none ∧
    triIT .gt baseInt (iv 1 2) (nm 1) = .ok none ∧
    triIT .ge baseInt (iv 1 2) (nm 1) = .ok (some true) ∧
    triIT .eq baseInt (iv 1 2) (nm 1) = .ok none ∧
    triIT .ne baseInt (iv 1 2) (nm 1) = .ok none := by
  and_intros <;> decide +kernel

/-- cmp_tribool.cpp 130-146 (test_12_2) -/
example :
    triIT .lt baseInt (iv 1 2) (nm 2) = .ok none ∧
    triIT .le baseInt (iv 1 2) (nm 2) = .ok (some true) ∧
    triIT .gt baseInt (iv 1 2) (nm 2) = .ok (some false) ∧
    triIT .ge baseInt (iv 1 2) (nm 2) = .ok none ∧
    triIT .eq baseInt (iv 1 2) (nm 2) = .ok none ∧
    triIT .ne baseInt (iv 1 2) (nm 2) = .ok none := by
  and_intros <;> decide +kernel

/-- cmp_tribool.cpp 150-166 (test_12_3) -/
example :
    triIT .lt baseInt (iv 1 2) (nm 3) = .ok (some true) ∧
    triIT .le baseInt (iv 1 2) (nm 3) = .ok (some true) ∧
    triIT .gt baseInt (iv 1 2) (nm 3) = .ok (some false) ∧
    triIT .ge baseInt (iv 1 2) (nm 3) = .ok (some false) ∧
    triIT .eq baseInt (iv 1 2) (nm 3) = .ok (some false) ∧
    triIT .ne baseInt (iv 1 2) (nm 3) = .ok (some true) := by
  and_intros <;> decide +kernel

/-- cmp_tribool.cpp 170-180 (test_12_12) -/
example :
    triII .eq baseInt baseInt (iv 1 2) (iv 1 2) = .ok none ∧
    triII .ne baseInt baseInt (iv 1 2) (iv 1 2) = .ok none := by
  and_intros <;> decide +kernel

/-- cmp_tribool.cpp 184-194 (test_11_11) -/
example :
    triII .eq baseInt baseInt (iv 1 1) (iv 1 1) = .ok (some true) ∧
    triII .ne baseInt baseInt (iv 1 1) (iv 1 1) = .ok (some false) := by
  and_intros <;> decide +kernel

/-- cmp_tribool.cpp 198-209 (test_11_1) -/
example :
    triIT .eq baseInt (iv 1 1) (nm 1) = .ok (some true) ∧
    triIT .ne baseInt (iv 1 1) (nm 1) = .ok (some false) := by
  and_intros <;> decide +kernel

/-- cmp_exp.cpp 15-52 (test_12_34) -/
example :
    cerII .lt (iv 1 2) (iv 3 4) = true ∧
    cerII .le (iv 1 2) (iv 3 4) = true ∧
    cerII .gt (iv 1 2) (iv 3 4) = false ∧
    cerII .ge (iv 1 2) (iv 3 4) = false ∧
    cerII .lt (iv 3 4) (iv 1 2) = false ∧
    cerII .le (iv 3 4) (iv 1 2) = false ∧
    cerII .gt (iv 3 4) (iv 1 2) = true ∧
    cerII .ge (iv 3 4) (iv 1 2) = true ∧
    posII .lt (iv 1 2) (iv 3 4) = true ∧
    posII .le (iv 1 2) (iv 3 4) = true ∧
    posII .gt (iv 1 2) (iv 3 4) = false ∧
    posII .ge (iv 1 2) (iv 3 4) = false ∧
    posII .lt (iv 3 4) (iv 1 2) = false ∧
    posII .le (iv 3 4) (iv 1 2) = false ∧
    posII .gt (iv 3 4) (iv 1 2) = true ∧
    posII .ge (iv 3 4) (iv 1 2) = true ∧
    cerII .eq (iv 1 2) (iv 3 4) = false ∧
    cerII .ne (iv 1 2) (iv 3 4) = true ∧
    posII .eq (iv 1 2) (iv 3 4) = false ∧
    posII .ne (iv 1 2) (iv 3 4) = true ∧
    cerII .eq (iv 3 4) (iv 1 2) = false ∧
    cerII .ne (iv 3 4) (iv 1 2) = true ∧
    posII .eq (iv 3 4) (iv 1 2) = false ∧
    posII .ne (iv 3 4) (iv 1 2) = true := by
  and_intros <;> decide +kernel

/-- cmp_exp.cpp 56-93 (test_13_24) -/
example :
    cerII .lt (iv 1 3) (iv 2 4) = false ∧
    cerII .le (iv 1 3) (iv 2 4) = false ∧
    cerII .gt (iv 1 3) (iv 2 4) = false ∧
    cerII .ge (iv 1 3) (iv 2 4) = false ∧
    cerII .lt (iv 2 4) (iv 1 3) = false ∧
    cerII .le (iv 2 4) (iv 1 3) = false ∧
    cerII .gt (iv 2 4) (iv 1 3) = false ∧
    cerII .ge (iv 2 4) (iv 1 3) = false ∧
    posII .lt (iv 1 3) (iv 2 4) = true ∧
    posII .le (iv 1 3) (iv 2 4) = true ∧
    posII .gt (iv 1 3) (iv 2 4) = true ∧
    posII .ge (iv 1 3) (iv 2 4) = true ∧
    posII .lt (iv 2 4) (iv 1 3) = true ∧
    posII .le (iv 2 4) (iv 1 3) = true ∧
    posII .gt (iv 2 4) (iv 1 3) = true ∧
    posII .ge (iv 2 4) (iv 1 3) = true ∧
    cerII .eq (iv 1 3) (iv 2 4) = false ∧
    cerII .ne (iv 1 3) (iv 2 4) = false ∧
    posII .eq (iv 1 3) (iv 2 4) = true ∧
    posII .ne (iv 1 3) (iv 2 4) = true ∧
    cerII .eq (iv 2 4) (iv 1 3) = false ∧
    cerII .ne (iv 2 4) (iv 1 3) = false ∧
    posII .eq (iv 2 4) (iv 1 3) = true ∧
    posII .ne (iv 2 4) (iv 1 3) = true := by
  and_intros <;> decide +kernel

/-- cmp_exp.cpp 97-134 (test_12_23) -/
example :
    cerII .lt (iv 1 2) (iv 2 3) = false ∧
    cerII .le (iv 1 2) (iv 2 3) = true ∧
    cerII .gt (iv 1 2) (iv 2 3) = false ∧
    cerII .ge (iv 1 2) (iv 2 3) = false ∧
    cerII .lt (iv 2 3) (iv 1 2) = false ∧
    cerII .le (iv 2 3) (iv 1 2) = false ∧
    cerII .gt (iv 2 3) (iv 1 2) = false ∧
    cerII .ge (iv 2 3) (iv 1 2) = true ∧
    posII .lt (iv 1 2) (iv 2 3) = true ∧
    posII .le (iv 1 2) (iv 2 3) = true ∧
    posII .gt (iv 1 2) (iv 2 3) = false ∧
    posII .ge (iv 1 2) (iv 2 3) = true ∧
    posII .lt (iv 2 3) (iv 1 2) = false ∧
    posII .le (iv 2 3) (iv 1 2) = true ∧
    posII .gt (iv 2 3) (iv 1 2) = true ∧
    posII .ge (iv 2 3) (iv 1 2) = true ∧
    cerII .eq (iv 1 2) (iv 2 3) = false ∧
    cerII .ne (iv 1 2) (iv 2 3) = false ∧
    posII .eq (iv 1 2) (iv 2 3) = true ∧
    posII .ne (iv 1 2) (iv 2 3) = true ∧
    cerII .eq (iv 2 3) (iv 1 2) = false ∧
    cerII .ne (iv 2 3) (iv 1 2) = false ∧
    posII .eq (iv 2 3) (iv 1 2) = true ∧
    posII .ne (iv 2 3) (iv 1 2) = true := by
  and_intros <;> decide +kernel

/-- cmp_exp.cpp 138-176 (test_12_0) -/
example :
    cerIT .lt (iv 1 2) (nm 0) = false ∧
    cerIT .le (iv 1 2) (nm 0) = false ∧
    cerIT .gt (iv 1 2) (nm 0) = true ∧
    cerIT .ge (iv 1 2) (nm 0) = true ∧
    cerTI .lt (nm 0) (iv 1 2) = true ∧
    cerTI .le (nm 0) (iv 1 2) = true ∧
    cerTI .gt (nm 0) (iv 1 2) = false ∧
    cerTI .ge (nm 0) (iv 1 2) = false ∧
    posIT .lt (iv 1 2) (nm 0) = false ∧
    posIT .le (iv 1 2) (nm 0) = false ∧
    posIT .gt (iv 1 2) (nm 0) = true ∧
    posIT .ge (iv 1 2) (nm 0) = true ∧
    posTI .lt (nm 0) (iv 1 2) = true ∧
    posTI .le (nm 0) (iv 1 2) = true ∧
    posTI .gt (nm 0) (iv 1 2) = false ∧
    posTI .ge (nm 0) (iv 1 2) = false ∧
    cerIT .eq (iv 1 2) (nm 0) = false ∧
    cerIT .ne (iv 1 2) (nm 0) = true ∧
    posIT .eq (iv 1 2) (nm 0) = false ∧
    posIT .ne (iv 1 2) (nm 0) = true ∧
    cerTI .eq (nm 0) (iv 1 2) = false ∧
    cerTI .ne (nm 0) (iv 1 2) = true ∧
    posTI .eq (nm 0) (iv 1 2) = false ∧
    posTI .ne (nm 0) (iv 1 2) = true := by
  and_intros <;> decide +kernel

/-- cmp_exp.cpp 180-218 (test_12_1) -/
example :
    cerIT .lt (iv 1 2) (nm 1) = false ∧
    cerIT .le (iv 1 2) (nm 1) = false ∧
    cerIT .gt (iv 1 2) (nm 1) = false ∧
    cerIT .ge (iv 1 2) (nm 1) = true ∧
    cerTI .lt (nm 1) (iv 1 2) = false ∧
    cerTI .le (nm 1) (iv 1 2) = true ∧
    cerTI .gt (nm 1) (iv 1 2) = false ∧
    cerTI .ge (nm 1) (iv 1 2) = false ∧
    posIT .lt (iv 1 2) (nm 1) = false ∧
    posIT .le (iv 1 2) (nm 1) = true ∧
    posIT .gt (iv 1 2) (nm 1) = true ∧
    posIT .ge (iv 1 2) (nm 1) = true ∧
    posTI .lt (nm 1) (iv 1 2) = true ∧
    posTI .le (nm 1) (iv 1 2) = true ∧
    posTI .gt (nm 1) (iv 1 2) = false ∧
    posTI .ge (nm 1) (iv 1 2) = true ∧
    cerIT .eq (iv 1 2) (nm 1) = false ∧
    cerIT .ne (iv 1 2) (nm 1) = false ∧
    posIT .eq (iv 1 2) (nm 1) = true ∧
    posIT .ne (iv 1 2) (nm 1) = true ∧
    cerTI .eq (nm 1) (iv 1 2) = false ∧
    cerTI .ne (nm 1) (iv 1 2) = false ∧
    posTI .eq (nm 1) (iv 1 2) = true ∧
    posTI .ne (nm 1) (iv 1 2) = true := by
  and_intros <;> decide +kernel

/-- cmp_exp.cpp 222-260 (test_12_2) -/
example :
    cerIT .lt (iv 1 2) (nm 2) = false ∧
    cerIT .le (iv 1 2) (nm 2) = true ∧
    cerIT .gt (iv 1 2) (nm 2) = false ∧
    cerIT .ge (iv 1 2) (nm 2) = false ∧
    cerTI .lt (nm 2) (iv 1 2) = false ∧
    cerTI .le (nm 2) (iv 1 2) = false ∧
    cerTI .gt (nm 2) (iv 1 2) = false ∧
    cerTI .ge (nm 2) (iv 1 2) = true ∧
    posIT .lt (iv 1 2) (nm 2) = true ∧
    posIT .le (iv 1 2) (nm 2) = true ∧
    posIT .gt (iv 1 2) (nm 2) = false ∧
    posIT .ge (iv 1 2) (nm 2) = true ∧
    posTI .lt (nm 2) (iv 1 2) = false ∧
    posTI .le (nm 2) (iv 1 2) = true ∧
    posTI .gt (nm 2) (iv 1 2) = true ∧
    posTI .ge (nm 2) (iv 1 2) = true ∧
    cerIT .eq (iv 1 2) (nm 2) = false ∧
    cerIT .ne (iv 1 2) (nm 2) = false ∧
    posIT .eq (iv 1 2) (nm 2) = true ∧
    posIT .ne (iv 1 2) (nm 2) = true ∧
    cerTI .eq (nm 2) (iv 1 2) = false ∧
    cerTI .ne (nm 2) (iv 1 2) = false ∧
    posTI .eq (nm 2) (iv 1 2) = true ∧
    posTI .ne (nm 2) (iv 1 2) = true := by
  and_intros <;> decide +kernel

/-- cmp_exp.cpp 264-302 (test_12_3) -/
example :
    cerIT .lt (iv 1 2) (nm 3) = true ∧
    cerIT .le (iv 1 2) (nm 3) = true ∧
    cerIT .gt (iv 1 2) (nm 3) = false ∧
    cerIT .ge (iv 1 2) (nm 3) = false ∧
    cerTI .lt (nm 3) (iv 1 2) = false ∧
    cerTI .le (nm 3) (iv 1 2) = false ∧
    cerTI .gt (nm 3) (iv 1 2) = true ∧
    cerTI .ge (nm 3) (iv 1 2) = true ∧
    posIT .lt (iv 1 2) (nm 3) = true ∧
    posIT .le (iv 1 2) (nm 3) = true ∧
    posIT .gt (iv 1 2) (nm 3) = false ∧
    posIT .ge (iv 1 2) (nm 3) = false ∧
    posTI .lt (nm 3) (iv 1 2) = false ∧
    posTI .le (nm 3) (iv 1 2) = false ∧
    posTI .gt (nm 3) (iv 1 2) = true ∧
    posTI .ge (nm 3) (iv 1 2) = true ∧
    cerIT .eq (iv 1 2) (nm 3) = false ∧
    cerIT .ne (iv 1 2) (nm 3) = true ∧
    posIT .eq (iv 1 2) (nm 3) = false ∧
    posIT .ne (iv 1 2) (nm 3) = true ∧
    cerTI .eq (nm 3) (iv 1 2) = false ∧
    cerTI .ne (nm 3) (iv 1 2) = true ∧
    posTI .eq (nm 3) (iv 1 2) = false ∧
    posTI .ne (nm 3) (iv 1 2) = true := by
  and_intros <;> decide +kernel

/-- cmp_exp.cpp 304-318 (test_12_12) -/
example :
    cerII .eq (iv 1 2) (iv 1 2) = false ∧
    cerII .ne (iv 1 2) (iv 1 2) = false ∧
    posII .eq (iv 1 2) (iv 1 2) = true ∧
    posII .ne (iv 1 2) (iv 1 2) = true ∧
    cerII .eq (iv 1 2) (iv 1 2) = false ∧
    cerII .ne (iv 1 2) (iv 1 2) = false ∧
    posII .eq (iv 1 2) (iv 1 2) = true ∧
    posII .ne (iv 1 2) (iv 1 2) = true := by
  and_intros <;> decide +kernel

/-- cmp_exp.cpp 320-334 (test_11_11) -/
example :
    cerII .eq (iv 1 1) (iv 1 1) = true ∧
    cerII .ne (iv 1 1) (iv 1 1) = false ∧
    posII .eq (iv 1 1) (iv 1 1) = true ∧
    posII .ne (iv 1 1) (iv 1 1) = false ∧
    cerII .eq (iv 1 1) (iv 1 1) = true ∧
    cerII .ne (iv 1 1) (iv 1 1) = false ∧
    posII .eq (iv 1 1) (iv 1 1) = true ∧
    posII .ne (iv 1 1) (iv 1 1) = false := by
  and_intros <;> decide +kernel

/-- cmp_exp.cpp 336-351 (test_11_1) -/
example :
    cerIT .eq (iv 1 1) (nm 1) = true ∧
    cerIT .ne (iv 1 1) (nm 1) = false ∧
    posIT .eq (iv 1 1) (nm 1) = true ∧
    posIT .ne (iv 1 1) (nm 1) = false ∧
    cerTI .eq (nm 1) (iv 1 1) = true ∧
    cerTI .ne (nm 1) (iv 1 1) = false ∧
    posTI .eq (nm 1) (iv 1 1) = true ∧
    posTI .ne (nm 1) (iv 1 1) = false := by
  and_intros <;> decide +kernel

/-- cmp_exn.cpp 37-68 (test_cer) -/
example :
    certainII .lt negNan negNan emptyNeg (iv 1 2) = .error .comparison ∧
    certainII .le negNan negNan emptyNeg (iv 1 2) = .error .comparison ∧
    certainII .gt negNan negNan emptyNeg (iv 1 2) = .error .comparison ∧
    certainII .ge negNan negNan emptyNeg (iv 1 2) = .error .comparison ∧
    certainII .eq negNan negNan emptyNeg (iv 1 2) = .error .comparison ∧
    certainII .ne negNan negNan emptyNeg (iv 1 2) = .error .comparison ∧
    certainII .lt negNan negNan (iv 1 2) emptyNeg = .error .comparison ∧
    certainII .le negNan negNan (iv 1 2) emptyNeg = .error .comparison ∧
    certainII .gt negNan negNan (iv 1 2) emptyNeg = .error .comparison ∧
    certainII .ge negNan negNan (iv 1 2) emptyNeg = .error .comparison ∧
    certainII .eq negNan negNan (iv 1 2) emptyNeg = .error .comparison ∧
    certainII .ne negNan negNan (iv 1 2) emptyNeg = .error .comparison ∧
    certainIT .lt negNan emptyNeg (nm 0) = .error .comparison ∧
    certainIT .le negNan emptyNeg (nm 0) = .error .comparison ∧
    certainIT .gt negNan emptyNeg (nm 0) = .error .comparison ∧
    certainIT .ge negNan emptyNeg (nm 0) = .error .comparison ∧
    certainIT .eq negNan emptyNeg (nm 0) = .error .comparison ∧
    certainIT .ne negNan emptyNeg (nm 0) = .error .comparison ∧
    certainIT .lt negNan (iv 1 2) (nm (-1)) = .error .comparison ∧
    certainIT .le negNan (iv 1 2) (nm (-1)) = .error .comparison ∧
    certainIT .gt negNan (iv 1 2) (nm (-1)) = .error .comparison ∧
    certainIT .ge negNan (iv 1 2) (nm (-1)) = .error .comparison ∧
    certainIT .eq negNan (iv 1 2) (nm (-1)) = .error .comparison ∧
    certainIT .ne negNan (iv 1 2) (nm (-1)) = .error .comparison := by
  and_intros <;> decide +kernel

/-- cmp_exn.cpp 70-100 (test_def) -/
example :
    cmpII .lt negNan negNan emptyNeg (iv 1 2) = .error .comparison ∧
    cmpII .le negNan negNan emptyNeg (iv 1 2) = .error .comparison ∧
    cmpII .gt negNan negNan emptyNeg (iv 1 2) = .error .comparison ∧
    cmpII .ge negNan negNan emptyNeg (iv 1 2) = .error .comparison ∧
    cmpII .eq negNan negNan emptyNeg (iv 1 2) = .error .comparison ∧
    cmpII .ne negNan negNan emptyNeg (iv 1 2) = .error .comparison ∧
    cmpII .lt negNan negNan (iv 1 2) emptyNeg = .error .comparison ∧
    cmpII .le negNan negNan (iv 1 2) emptyNeg = .error .comparison ∧
    cmpII .gt negNan negNan (iv 1 2) emptyNeg = .error .comparison ∧
    cmpII .ge negNan negNan (iv 1 2) emptyNeg = .error .comparison ∧
    cmpII .eq negNan negNan (iv 1 2) emptyNeg = .error .comparison ∧
    cmpII .ne negNan negNan (iv 1 2) emptyNeg = .error .comparison ∧
    cmpIT .lt negNan emptyNeg (nm 0) = .error .comparison ∧
    cmpIT .le negNan emptyNeg (nm 0) = .error .comparison ∧
    cmpIT .gt negNan emptyNeg (nm 0) = .error .comparison ∧
    cmpIT .ge negNan emptyNeg (nm 0) = .error .comparison ∧
    cmpIT .eq negNan emptyNeg (nm 0) = .error .comparison ∧
    cmpIT .ne negNan emptyNeg (nm 0) = .error .comparison ∧
    cmpIT .lt negNan (iv 1 2) (nm (-1)) = .error .comparison ∧
    cmpIT .le negNan (iv 1 2) (nm (-1)) = .error .comparison ∧
    cmpIT .gt negNan (iv 1 2) (nm (-1)) = .error .comparison ∧
    cmpIT .ge negNan (iv 1 2) (nm (-1)) = .error .comparison ∧
    cmpIT .eq negNan (iv 1 2) (nm (-1)) = .error .comparison ∧
    cmpIT .ne negNan (iv 1 2) (nm (-1)) = .error .comparison := by
  and_intros <;> decide +kernel

/-- cmp_exn.cpp 102-133 (test_lex) -/
example :
    lexII .lt negNan negNan emptyNeg (iv 1 2) = .error .comparison ∧
    lexII .le negNan negNan emptyNeg (iv 1 2) = .error .comparison ∧
    lexII .gt negNan negNan emptyNeg (iv 1 2) = .error .comparison ∧
    lexII .ge negNan negNan emptyNeg (iv 1 2) = .error .comparison ∧
    lexII .eq negNan negNan emptyNeg (iv 1 2) = .error .comparison ∧
    lexII .ne negNan negNan emptyNeg (iv 1 2) = .error .comparison ∧
    lexII .lt negNan negNan (iv 1 2) emptyNeg = .error .comparison ∧
    lexII .le negNan negNan (iv 1 2) emptyNeg = .error .comparison ∧
    lexII .gt negNan negNan (iv 1 2) emptyNeg = .error .comparison ∧
    lexII .ge negNan negNan (iv 1 2) emptyNeg = .error .comparison ∧
    lexII .eq negNan negNan (iv 1 2) emptyNeg = .error .comparison ∧
    lexII .ne negNan negNan (iv 1 2) emptyNeg = .error .comparison ∧
    lexIT .lt negNan emptyNeg (nm 0) = .error .comparison ∧
    lexIT .le negNan emptyNeg (nm 0) = .error .comparison ∧
    lexIT .gt negNan emptyNeg (nm 0) = .error .comparison ∧
    lexIT .ge negNan emptyNeg (nm 0) = .error .comparison ∧
    lexIT .eq negNan emptyNeg (nm 0) = .error .comparison ∧
    lexIT .ne negNan emptyNeg (nm 0) = .error .comparison ∧
    lexIT .lt negNan (iv 1 2) (nm (-1)) = .error .comparison ∧
    lexIT .le negNan (iv 1 2) (nm (-1)) = .error .comparison ∧
    lexIT .gt negNan (iv 1 2) (nm (-1)) = .error .comparison ∧
    lexIT .ge negNan (iv 1 2) (nm (-1)) = .error .comparison ∧
    lexIT .eq negNan (iv 1 2) (nm (-1)) = .error .comparison ∧
    lexIT .ne negNan (iv 1 2) (nm (-1)) = .error .comparison := by
  and_intros <;> decide +kernel

/-- cmp_exn.cpp 135-166 (test_pos) -/
example :
    possibleII .lt negNan negNan emptyNeg (iv 1 2) = .error .comparison ∧
    possibleII .le negNan negNan emptyNeg (iv 1 2) = .error .comparison ∧
    possibleII .gt negNan negNan emptyNeg (iv 1 2) = .error .comparison ∧
    possibleII .ge negNan negNan emptyNeg (iv 1 2) = .error .comparison ∧
    possibleII .eq negNan negNan emptyNeg (iv 1 2) = .error .comparison ∧
    possibleII .ne negNan negNan emptyNeg (iv 1 2) = .error .comparison ∧
    possibleII .lt negNan negNan (iv 1 2) emptyNeg = .error .comparison ∧
    possibleII .le negNan negNan (iv 1 2) emptyNeg = .error .comparison ∧
    possibleII .gt negNan negNan (iv 1 2) emptyNeg = .error .comparison ∧
    possibleII .ge negNan negNan (iv 1 2) emptyNeg = .error .comparison ∧
    possibleII .eq negNan negNan (iv 1 2) emptyNeg = .error .comparison ∧
    possibleII .ne negNan negNan (iv 1 2) emptyNeg = .error .comparison ∧
    possibleIT .lt negNan emptyNeg (nm 0) = .error .comparison ∧
    possibleIT .le negNan emptyNeg (nm 0) = .error .comparison ∧
    possibleIT .gt negNan emptyNeg (nm 0) = .error .comparison ∧
    possibleIT .ge negNan emptyNeg (nm 0) = .error .comparison ∧
    possibleIT .eq negNan emptyNeg (nm 0) = .error .comparison ∧
    possibleIT .ne negNan emptyNeg (nm 0) = .error .comparison ∧
    possibleIT .lt negNan (iv 1 2) (nm (-1)) = .error .comparison ∧
    possibleIT .le negNan (iv 1 2) (nm (-1)) = .error .comparison ∧
    possibleIT .gt negNan (iv 1 2) (nm (-1)) = .error .comparison ∧
    possibleIT .ge negNan (iv 1 2) (nm (-1)) = .error .comparison ∧
    possibleIT .eq negNan (iv 1 2) (nm (-1)) = .error .comparison ∧
    possibleIT .ne negNan (iv 1 2) (nm (-1)) = .error .comparison := by
  and_intros <;> decide +kernel

/-- cmp_exn.cpp 168-186 (test_set) -/
example :
    setIT .lt emptyNeg (nm 0) = .error .comparison ∧
    setIT .le emptyNeg (nm 0) = .error .comparison ∧
    setIT .gt emptyNeg (nm 0) = .error .comparison ∧
    setIT .ge emptyNeg (nm 0) = .error .comparison ∧
    setIT .eq emptyNeg (nm 0) = .error .comparison ∧
    setIT .ne emptyNeg (nm 0) = .error .comparison ∧
    setIT .lt (iv 1 2) (nm 0) = .error .comparison ∧
    setIT .le (iv 1 2) (nm 0) = .error .comparison ∧
    setIT .gt (iv 1 2) (nm 0) = .error .comparison ∧
    setIT .ge (iv 1 2) (nm 0) = .error .comparison ∧
    setIT .eq (iv 1 2) (nm 0) = .error .comparison ∧
    setIT .ne (iv 1 2) (nm 0) = .error .comparison := by
  and_intros <;> decide +kernel

/-- cmp_exn.cpp 188-219 (test_tri) -/
example :
    triII .lt negNan negNan emptyNeg (iv 1 2) = .error .comparison ∧
    triII .le negNan negNan emptyNeg (iv 1 2) = .error .comparison ∧
    triII .gt negNan negNan emptyNeg (iv 1 2) = .error .comparison ∧
    triII .ge negNan negNan emptyNeg (iv 1 2) = .error .comparison ∧
    triII .eq negNan negNan emptyNeg (iv 1 2) = .error .comparison ∧
    triII .ne negNan negNan emptyNeg (iv 1 2) = .error .comparison ∧
    triII .lt negNan negNan (iv 1 2) emptyNeg = .error .comparison ∧
    triII .le negNan negNan (iv 1 2) emptyNeg = .error .comparison ∧
    triII .gt negNan negNan (iv 1 2) emptyNeg = .error .comparison ∧
    triII .ge negNan negNan (iv 1 2) emptyNeg = .error .comparison ∧
    triII .eq negNan negNan (iv 1 2) emptyNeg = .error .comparison ∧
    triII .ne negNan negNan (iv 1 2) emptyNeg = .error .comparison ∧
    triIT .lt negNan emptyNeg (nm 0) = .error .comparison ∧
    triIT .le negNan emptyNeg (nm 0) = .error .comparison ∧
    triIT .gt negNan emptyNeg (nm 0) = .error .comparison ∧
    triIT .ge negNan emptyNeg (nm 0) = .error .comparison ∧
    triIT .eq negNan emptyNeg (nm 0) = .error .comparison ∧
    triIT .ne negNan emptyNeg (nm 0) = .error .comparison ∧
    triIT .lt negNan (iv 1 2) (nm (-1)) = .error .comparison ∧
    triIT .le negNan (iv 1 2) (nm (-1)) = .error .comparison ∧
    triIT .gt negNan (iv 1 2) (nm (-1)) = .error .comparison ∧
    triIT .ge negNan (iv 1 2) (nm (-1)) = .error .comparison ∧
    triIT .eq negNan (iv 1 2) (nm (-1)) = .error .comparison ∧
    triIT .ne negNan (iv 1 2) (nm (-1)) = .error .comparison := by
  and_intros <;> decide +kernel

end BI.Suite
