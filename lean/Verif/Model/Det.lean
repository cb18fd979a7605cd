import Verif.Model.Client
import Verif.Model.Conv
import Mathlib.Logic.Function.Basic
import Mathlib.Data.Nat.Notation
/-!
# The program of test/det.cpp

Gaussian elimination with search of the pivot, as a client program (`Prog`). Matrices are functions of the indices; the
contents of the arrays outside of `size` do not matter. The two temporaries in `I(1) / I(i + j + 1)` are constructed from
left to right.
-/

namespace BI
variable {T : Type}

/-- Execute `p`, then `f` on its result; the sequencing of test/det.cpp 17-52. -/
def Prog.bind {α β : Type} : Prog T α → (α → Prog T β) → Prog T β
  | .ret a, f => f a
  | .fail e, _ => .fail e
  | .call c k, f => .call c fun b => (k b).bind f
  | .region body k, f => .region body fun b => (k b).bind f

/-- Sequencing. -/
instance : Monad (Prog T) where
  pure := .ret
  bind := Prog.bind

/-- A library call, for instance `I(1) / I(i + j + 1)` in test/det.cpp 21. -/
def Prog.lib {α : Type} (c : Call T α) : Prog T α := .call c .ret

/-- `for (int i = lo; i < lo + n; i++)` with a body that updates `s`: the loops of test/det.cpp 19-50. -/
def Prog.loop {σ : Type} (f : ℕ → σ → Prog T σ) : ℕ → ℕ → σ → Prog T σ
  | _, 0, s => .ret s
  | lo, n + 1, s => (f lo s).bind fun s => Prog.loop f (lo + 1) n s

namespace Det
variable [Num T]

/-- Matrices of intervals, `I mat[size][size]`, test/det.cpp 18. -/
abbrev Mat (T : Type) := ℕ → ℕ → Itv T

/-- `mat[i][j] = v`, test/det.cpp 21, 34-35, 40-41, 48 -/
def set (u : Mat T) (i j : ℕ) (v : Itv T) : Mat T := fun a b => if a = i ∧ b = j then v else u a b

/-- det.cpp 19-21 -/
def fill (size : ℕ) (u : Mat T) : Prog T (Mat T) :=
  Prog.loop (fun i u => Prog.loop (fun j u => do
    let a ← Prog.lib (.ctorSrc (srcInt 32 1))
    let b ← Prog.lib (.ctorSrc (srcInt 32 (i + j + 1)))
    let q ← Prog.lib (.divII a b)
    pure (set u i j q)) 0 size u) 0 size u

/-- The position and the size of the pivot, det.cpp 24-30. -/
def search (size i : ℕ) (u : Mat T) : Prog T (ℕ × ℕ × T) :=
  Prog.loop (fun a s => Prog.loop (fun b s => do
    let x ← Prog.lib (.chk fun C => absI C (u a b))
    if Num.lt s.2.2 x.lower then pure (a, b, x.lower) else pure s) i (size - i) s) i (size - i) (i, i, Num.lit 0)

/-- The exchange of the columns, det.cpp 31-36. -/
def swapCols (size n i : ℕ) (u : Mat T) : Mat T :=
  (List.range size).foldl (fun u a => set (set u a n (u a i)) a i (u a n)) u

/-- The exchange within row `m`, det.cpp 37-42: `mat[m][b]` against `mat[m][i]`. -/
def swapRows (size m i : ℕ) (u : Mat T) : Mat T :=
  (List.range' i (size - i)).foldl (fun u b => set (set u m b (u m i)) m i (u m b)) u

/-- The elimination below row `i`, det.cpp 44-49. -/
def eliminate (size i : ℕ) (u : Mat T) : Prog T (Mat T) :=
  let c := u i i
  Prog.loop (fun j u => do
    let f ← Prog.lib (.divII (u j i) c)
    Prog.loop (fun k u => do
      let q ← Prog.lib (.mulII f (u i k))
      let r ← Prog.lib (.subII (u j k) q)
      pure (set u j k r)) i (size - i) u) (i + 1) (size - (i + 1)) u

/-- The loop over the columns, det.cpp 23-51; `n` columns are left. -/
def columns (size : ℕ) : ℕ → ℕ → Mat T → Prog T (Mat T)
  | _, 0, u => pure u
  | i, n + 1, u => do
    let p ← search size i u
    let u := if p.2.1 ≠ i then swapCols size p.2.1 i u else u
    let u := if p.1 ≠ i then swapRows size p.1 i u else u
    let c := u i i
    let u ← eliminate size i u
    let z ← Prog.lib (.chk fun C => zeroIn C c)
    if z then pure u else columns size (i + 1) n u

/-- `det`, det.cpp 17-52 -/
def det (size : ℕ) (junk : Mat T) : Prog T (Mat T) := do
  let u ← fill size junk
  columns size 0 (size - 1) u

end Det
end BI
