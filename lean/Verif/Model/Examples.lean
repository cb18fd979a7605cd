import Verif.Model.Arith2
import Verif.Model.Compare
import Verif.Model.Transc
import Mathlib.Logic.Function.Basic
import Mathlib.Data.Nat.Notation
/-!
# The programs of examples/

Matrices and vectors are functions of the indices; the loops are recursions over the number of turns. Storage that the
programs allocate without initialising it has arbitrary contents (arguments named `junk`). Compound assignments
`y -= x` on intervals compute `y - x` (interval.hpp 371-418 forwards to the operators; see `C37`). -/

namespace BI
variable {m : Type → Type} [Eff m] {T : Type} [Num T]

/-- `for (int i = lo; i < lo + n; i++)` with a body that updates `s`: the loops of filter.cpp
(lines 64-69, 76-81, 95-99, ...). -/
def forRange {σ : Type} (lo : ℕ) : ℕ → (ℕ → σ → m σ) → σ → m σ
  | 0, _, s => pure s
  | n + 1, f, s => do
    let s ← f lo s
    forRange (lo + 1) n f s

/-- Assign to an element of a matrix, filter.cpp 143-144, 155, 157, 162. -/
def upd2 {α : Type} (u : ℕ → ℕ → α) (i j : ℕ) (v : α) : ℕ → ℕ → α := Function.update u i (Function.update (u i) j v)

/-! ## examples/horner.cpp -/

/-- The loop of `horner` over the coefficients `p[n-2], ..., p[0]`, horner.cpp 26-28; `a` is the argument, of the
unprotected type. -/
def hornerLoop (P : Policies m T) (a : Itv T) : List (Itv T) → Itv T → m (Itv T)
  | [], y => pure y
  | c :: cs, y => do
    let q ← mulII P.unprot y a
    let c ← lift (reItv P.chk P.chk c)
    let y ← addII P.unprot q c
    hornerLoop P a cs y

/-- horner.cpp 15-32. `const R& a = x`, `R y = p[n - 1]` and `return y` convert between the protected and the unprotected
type (interval.hpp 179-184). Without coefficients the program reads `p[-1]`. -/
def horner (P : Policies m T) (x : Itv T) (p : List (Itv T)) : m (Itv T) :=
  P.rnd.scope do
    match p.reverse with
    | [] => lift (.error .ub)
    | c :: cs => do
      let a ← lift (reItv P.chk P.chk x)
      let y ← lift (reItv P.chk P.chk c)
      let y ← hornerLoop P a cs y
      lift (reItv P.chk P.chk y)

/-! ## examples/filter.cpp, `det_sign_algo1` -/

/-- filter.cpp 64-69 -/
def fillI (P : Policies m T) (a : ℕ → ℕ → T) (dim : ℕ) (u : ℕ → ℕ → Itv T) : m (ℕ → ℕ → Itv T) :=
  forRange 0 dim (fun i u => forRange 0 dim (fun j u => do
    let v ← lift (ctorT P.chk (a i j))
    pure (upd2 u i j v)) u) u

/-- Search of the pivot, filter.cpp 74-81: the largest `norm` among the rows that certainly have a non-zero entry, and
the row. -/
def pivot1 (P : Policies m T) (u : ℕ → ℕ → Itv T) (p : ℕ → ℕ) (dim i : ℕ) : m (T × ℕ) :=
  forRange i (dim - i) (fun j s => do
    let v := u (p j) i
    if ← lift (zeroIn P.chk v) then pure s
    else do
      let n ← lift (norm P.chk v)
      pure (if Num.lt s.1 n then (n, j) else s)) (Num.lit 0, i)

/-- The inner loop of the elimination, filter.cpp 98: `line2[j] -= fact * line1[j]` -/
def elimRow (P : Policies m T) (line1 : ℕ → Itv T) (fact : Itv T) (dim i : ℕ) (line2 : ℕ → Itv T) : m (ℕ → Itv T) :=
  forRange (i + 1) (dim - (i + 1)) (fun j line2 => do
    let q ← mulII P fact (line1 j)
    let v ← subII P (line2 j) q
    pure (Function.update line2 j v)) line2

/-- The elimination of a column, filter.cpp 92-99. -/
def elim1 (P : Policies m T) (p : ℕ → ℕ) (dim i : ℕ) (u : ℕ → ℕ → Itv T) : m (ℕ → ℕ → Itv T) :=
  forRange (i + 1) (dim - (i + 1)) (fun k u => do
    let fact ← divII P (u (p k) i) (u (p i) i)
    let line ← elimRow P (u (p i)) fact dim i (u (p k))
    pure (Function.update u (p k) line)) u

/-- Exchange `p[i]` and `p[k]`, filter.cpp 85-87, 130-132. -/
def swapP (p : ℕ → ℕ) (i k : ℕ) : ℕ → ℕ := Function.update (Function.update p i (p k)) k (p i)

/-- The loop over the columns, filter.cpp 71-101; `fuel` columns are left, the current one is `i`. -/
def lu1 (P : Policies m T) (dim : ℕ) : ℕ → ℕ → (ℕ → ℕ → Itv T) → (ℕ → ℕ) → Int → m Int
  | 0, _, _, _, sig => pure sig
  | n + 1, i, u, p, sig => do
    let (max, piv) ← pivot1 P u p dim i
    if Num.eq max (Num.lit 0) then pure 0
    else do
      let sig := if piv ≠ i then -sig else sig
      let p := if piv ≠ i then swapP p i piv else p
      let sig := if cerIT .lt (u (p i) i) (Num.lit 0) then -sig else sig
      let u ← elim1 P p dim i u
      lu1 P dim n (i + 1) u p sig

/-- `det_sign_algo1`, filter.cpp 56-103 -/
def detSign1 (P : Policies m T) (a : ℕ → ℕ → T) (dim : ℕ) (junk : ℕ → ℕ → Itv T) : m Int :=
  P.rnd.scope do
    let u ← fillI P.unprot a dim junk
    lu1 P.unprot dim dim 0 u id 1

/-! ## examples/filter.cpp, `det_sign_algo2` -/

/-- `std::abs`, filter.cpp 122, 124 -/
def stdAbs (v : T) : Res T := if Num.lt v (Num.lit 0) then ofOpt (Num.neg v) else pure v

/-- Search of the pivot, filter.cpp 121-126 -/
def pivot2 (u : ℕ → ℕ → T) (p : ℕ → ℕ) (dim i : ℕ) : m (T × ℕ) := do
  let max ← lift (stdAbs (u (p i) i))
  forRange (i + 1) (dim - (i + 1)) (fun j s => do
    let n ← lift (stdAbs (u (p j) i))
    pure (if Num.lt s.1 n then (n, j) else s)) (max, i)

/-- The elimination of a column, filter.cpp 140-145. The arithmetic is in the direction in force. -/
def elim2 (P : Policies m T) (p : ℕ → ℕ) (dim i : ℕ) (u : ℕ → ℕ → T) : m (ℕ → ℕ → T) :=
  forRange (i + 1) (dim - (i + 1)) (fun k u => do
    let fact ← P.cur fun r => Num.div r (u (p k) i) (u (p i) i)
    let u := upd2 u (p k) i fact
    forRange (i + 1) (dim - (i + 1)) (fun j u => do
      let q ← P.cur fun r => Num.mul r (u (p i) j) fact
      let v ← P.cur fun r => Num.sub r (u (p k) j) q
      pure (upd2 u (p k) j v)) u) u

/-- The factorisation, filter.cpp 118-147; `none`: the program returns 0 (line 127). Otherwise the factors, the
permutation of the rows and the sign. -/
def lu2 (P : Policies m T) (dim : ℕ) : ℕ → ℕ → (ℕ → ℕ → T) → (ℕ → ℕ) → Int → m (Option ((ℕ → ℕ → T) × (ℕ → ℕ) × Int))
  | 0, _, u, p, sig => pure (some (u, p, sig))
  | n + 1, i, u, p, sig => do
    let (max, piv) ← pivot2 u p dim i
    if Num.eq max (Num.lit 0) then pure none
    else do
      let sig := if piv ≠ i then -sig else sig
      let p := if piv ≠ i then swapP p i piv else p
      let sig := if Num.lt (u (p i) i) (Num.lit 0) then -sig else sig
      let u ← elim2 P p dim i u
      lu2 P dim n (i + 1) u p sig

/-- `s -= line[k] * lui[k][j]` for `k = lo, ..., lo + n - 1`, filter.cpp 154, 161 -/
def dot2 (P : Policies m T) (line : ℕ → T) (v : ℕ → ℕ → T) (j lo n : ℕ) (s : T) : m T :=
  forRange lo n (fun k s => do
    let q ← P.cur fun r => Num.mul r (line k) (v k j)
    P.cur fun r => Num.sub r s q) s

/-- One column of the approximate inverses, filter.cpp 151-163. -/
def invCol (P : Policies m T) (lu : ℕ → ℕ → T) (p : ℕ → ℕ) (dim j : ℕ) (v : ℕ → ℕ → T) : m (ℕ → ℕ → T) := do
  let v ← forRange (j + 1) (dim - (j + 1)) (fun i v => do
    let s ← negM (lu (p i) j)
    let s ← dot2 P (lu (p i)) v j (j + 1) (i - (j + 1)) s
    pure (upd2 v i j s)) v
  let d ← P.cur fun r => Num.div r (Num.lit 1) (lu (p j) j)
  let v := upd2 v j j d
  forRange 0 j (fun t v => do
    let i := j - 1 - t
    let s ← dot2 P (lu (p i)) v j (i + 1) (j - i) (Num.lit 0)
    let s ← P.cur fun r => Num.div r s (lu (p i) i)
    pure (upd2 v i j s)) v

/-- The sum of the norms of the entries of a row, filter.cpp 192-193. -/
def rowNorm (P : Policies m T) (dim : ℕ) (v : ℕ → Itv T) : m T :=
  forRange 0 dim (fun k ss => do
    let n ← lift (norm P.chk (v k))
    P.rnd.addUp ss n) (Num.lit 0)

/-- Row `i` of `PA * Ui`, filter.cpp 174-183; `l` is the row of `PA`. `m1[j] = 0` converts the `int`, exactly. -/
def rowU (P : Policies m T) (l : ℕ → T) (v : ℕ → ℕ → T) (dim : ℕ) (junk : ℕ → Itv T) : m (ℕ → Itv T) := do
  let m1 ← forRange 0 dim (fun j m1 => pure (Function.update m1 j ⟨Num.lit 0, Num.lit 0⟩)) junk
  forRange 0 dim (fun j m1 => forRange j (dim - j) (fun k m1 => do
    let q ← mulTT P (l j) (v j k)
    let e ← addII P (m1 k) q
    pure (Function.update m1 k e)) m1) m1

/-- Row `i` of `PA * Ui * Li - I`, filter.cpp 184-191. -/
def rowL (P : Policies m T) (m1 : ℕ → Itv T) (v : ℕ → ℕ → T) (dim i : ℕ) (junk : ℕ → Itv T) : m (ℕ → Itv T) := do
  let m2 ← forRange 0 dim (fun j m2 => pure (Function.update m2 j (m1 j))) junk
  let m2 ← forRange 1 (dim - 1) (fun j m2 => forRange 0 j (fun k m2 => do
    let q ← mulIT P (m1 j) (v j k)
    let e ← addII P (m2 k) q
    pure (Function.update m2 k e)) m2) m2
  let e ← subIT P (m2 i) (Num.lit 1)
  pure (Function.update m2 i e)

/-- The verification, filter.cpp 173-195: whether all rows pass. -/
def check2 (P : Policies m T) (a v : ℕ → ℕ → T) (p : ℕ → ℕ) (dim : ℕ) (junk junk' : ℕ → Itv T) : ℕ → ℕ → m Bool
  | 0, _ => pure true
  | n + 1, i => do
    let m1 ← rowU P (a (p i)) v dim junk
    let m2 ← rowL P m1 v dim i junk'
    let ss ← rowNorm P dim m2
    if Num.le (Num.lit 1) ss then pure false else check2 P a v p dim junk junk' n (i + 1)

/-- The floating-point part of `det_sign_algo2`, filter.cpp 109-165. -/
def approx2 (P : Policies m T) (a : ℕ → ℕ → T) (dim : ℕ) (junk : ℕ → ℕ → T) :
    m (Option ((ℕ → ℕ → T) × (ℕ → ℕ) × Int)) := do
  match ← lu2 P dim dim 0 a id 1 with
  | none => pure none
  | some (u, p, sig) => do
    let v ← forRange 0 dim (fun j v => invCol P u p dim j v) junk
    pure (some (v, p, sig))

/-- `det_sign_algo2`, filter.cpp 108-198. The rows of the vectors `m1`, `m2` are overwritten in each turn of the loop;
their former contents are arbitrary here. -/
def detSign2 (P : Policies m T) (a : ℕ → ℕ → T) (dim : ℕ) (junk : ℕ → ℕ → T) (junk1 junk2 : ℕ → Itv T) : m Int := do
  match ← approx2 P a dim junk with
  | none => pure 0
  | some (v, p, sig) => do
    let ok ← P.rnd.scope (check2 P.unprot a v p dim junk1 junk2 dim 0)
    pure (if ok then sig else 0)

/-! ## examples/newton-raphson.cpp

`P` is the unprotected type; the program holds one rounding object around the call. -/

/-- `f`, newton-raphson.cpp 18-19 -/
def quintic (P : Policies m T) (x : Itv T) : m (Itv T) := do
  let x1 ← subIT P x (Num.lit 1)
  let y ← mulII P x x1
  let x2 ← subIT P x (Num.lit 2)
  let y ← mulII P y x2
  let x3 ← subIT P x (Num.lit 3)
  let y ← mulII P y x3
  let x4 ← subIT P x (Num.lit 4)
  mulII P y x4

/-- `f_diff`, newton-raphson.cpp 20-21, on the constants 40, 105, 100, 24 -/
def quinticD (P : Policies m T) (c40 c105 c100 c24 : T) (x : Itv T) : m (Itv T) := do
  let y ← mulTI P (Num.lit 5) x
  let y ← subIT P y c40
  let y ← mulII P y x
  let y ← addIT P y c105
  let y ← mulII P y x
  let y ← subIT P y c100
  let y ← mulII P y x
  addIT P y c24

/-- What the two loops share: the function, its derivative, and the constants `max_width`, `alpha`,
newton-raphson.cpp 18-24. -/
structure Newton (m : Type → Type) (T : Type) where
  f : Itv T → m (Itv T)
  fd : Itv T → m (Itv T)
  maxWidth : T
  alpha : T

section
variable (P : Policies m T) (N : Newton m T)

/-- The Newton step, newton-raphson.cpp 42-52: `x1`, and `x2` if `x2_used`. -/
def newtonStep1 (x : Itv T) : m (Itv T × Option (Itv T)) := do
  let xx ← median P x
  let c ← lift (ctorT P.chk xx)
  let vf ← N.f c
  let vd ← N.fd x
  if (← lift (zeroIn P.chk vf)) && (← lift (zeroIn P.chk vd)) then do
    let w ← lift (wholeI P.chk)
    pure (w, none)
  else do
    let (q, b) ← divisionPart1 P vf vd
    let x1 ← subTI P xx q
    if b then do
      let q ← divisionPart2 P vf vd true
      let x2 ← subTI P xx q
      pure (x1, some x2)
    else pure (x1, none)

/-- The parts inside `x`, newton-raphson.cpp 53-59; `none`: `continue` -/
def newtonCut1 (x x1 : Itv T) (x2 : Option (Itv T)) : Res (Option (Itv T × Option (Itv T))) := do
  if ← overlap P.chk P.chk x1 x then do
    let x1 ← intersect P.chk x x1
    match x2 with
    | none => pure (some (x1, none))
    | some x2 =>
      if ← overlap P.chk P.chk x2 x then do
        let x2 ← intersect P.chk x x2
        pure (some (x1, some x2))
      else pure (some (x1, none))
  else
    match x2 with
    | some x2 => pure (some (x2, none))
    | none => pure none

/-- The wider part first, and the test of its image, newton-raphson.cpp 60-64; `none`: `continue` -/
def newtonKeep1 (x1 : Itv T) (x2 : Option (Itv T)) : m (Option (Itv T × Option (Itv T))) := do
  let (x1, x2) ← (match x2 with
    | none => pure (x1, none)
    | some x2 => do
      let w2 ← width P x2
      let w1 ← width P x1
      pure (if Num.lt w1 w2 then (x2, some x1) else (x1, some x2)))
  let y ← N.f x1
  if ← lift (zeroIn P.chk y) then pure (some (x1, x2))
  else pure (x2.map fun x2 => (x2, none))

/-- newton-raphson.cpp 65-75; the lists `l` and `res` have their last element first -/
def newtonPush1 (l res : List (Itv T)) (x x1 : Itv T) (x2 : Option (Itv T)) : m (List (Itv T) × List (Itv T)) := do
  let w1 ← width P x1
  let (l, res, x2) ← (if Num.lt w1 N.maxWidth then pure (l, x1 :: res, x2)
    else do
      let w ← width P x
      let aw ← P.cur fun r => Num.mul r N.alpha w
      if Num.lt aw w1 then do
        let (p, q) ← bisect P x
        let y ← N.f p
        let z ← lift (zeroIn P.chk y)
        pure (if z then p :: l else l, res, some q)
      else pure (x1 :: l, res, x2))
  match x2 with
  | none => pure (l, res)
  | some x2 => do
    let y ← N.f x2
    if ← lift (zeroIn P.chk y) then do
      let w2 ← width P x2
      if Num.lt w2 N.maxWidth then pure (l, x2 :: res) else pure (x2 :: l, res)
    else pure (l, res)

/-- One turn of the loop, newton-raphson.cpp 40-75. -/
def newtonTurn1 (l res : List (Itv T)) (x : Itv T) : m (List (Itv T) × List (Itv T)) := do
  let (x1, x2) ← newtonStep1 P N x
  match ← lift (newtonCut1 P x x1 x2) with
  | none => pure (l, res)
  | some (x1, x2) => do
    match ← newtonKeep1 P N x1 x2 with
    | none => pure (l, res)
    | some (x1, x2) => newtonPush1 P N l res x x1 x2

/-- The loop of the first method, newton-raphson.cpp 39-77. -/
def newton1 : ℕ → List (Itv T) → List (Itv T) → m (List (Itv T))
  | _, [], res => pure res
  | 0, _ :: _, _ => lift (.error .fuel)
  | n + 1, x :: l, res => do
    let (l, res) ← newtonTurn1 P N l res x
    newton1 n l res

/-- The Newton step of the second method, newton-raphson.cpp 92-102: `x2` may be empty. -/
def newtonStep2 (x : Itv T) : m (Itv T × Itv T) := do
  let xx ← median P x
  let c ← lift (ctorT P.chk xx)
  let vf ← N.f c
  let vd ← N.fd x
  if (← lift (zeroIn P.chk vf)) && (← lift (zeroIn P.chk vd)) then do
    let e ← lift (emptyI P.chk)
    pure (x, e)
  else do
    let (q, b) ← divisionPart1 P vf vd
    let x1 ← subTI P xx q
    let x1 ← lift (intersect P.chk x x1)
    let q ← divisionPart2 P vf vd b
    let x2 ← subTI P xx q
    let x2 ← lift (intersect P.chk x x2)
    pure (x1, x2)

/-- newton-raphson.cpp 103-107 -/
def newtonKeep2 (x1 x2 : Itv T) : m (Option (Itv T × Itv T)) := do
  let w2 ← width P x2
  let w1 ← width P x1
  let (x1, x2) := if Num.lt w1 w2 then (x2, x1) else (x1, x2)
  let keep ← (do
    if ← lift (isEmptyI P.chk x1) then pure false
    else do
      let y ← N.f x1
      lift (zeroIn P.chk y))
  if keep then pure (some (x1, x2))
  else if ← lift (isEmptyI P.chk x2) then pure none
  else do
    let e ← lift (emptyI P.chk)
    pure (some (x2, e))

/-- newton-raphson.cpp 108-117 -/
def newtonPush2 (l res : List (Itv T)) (x x1 x2 : Itv T) : m (List (Itv T) × List (Itv T)) := do
  let w1 ← width P x1
  let (l, res, x2) ← (if Num.lt w1 N.maxWidth then pure (l, x1 :: res, x2)
    else do
      let w ← width P x
      let aw ← P.cur fun r => Num.mul r N.alpha w
      if Num.lt aw w1 then do
        let (p, q) ← bisect P x
        let y ← N.f p
        let z ← lift (zeroIn P.chk y)
        pure (if z then p :: l else l, res, q)
      else pure (x1 :: l, res, x2))
  if ← lift (isEmptyI P.chk x2) then pure (l, res)
  else do
    let y ← N.f x2
    if ← lift (zeroIn P.chk y) then do
      let w2 ← width P x2
      if Num.lt w2 N.maxWidth then pure (l, x2 :: res) else pure (x2 :: l, res)
    else pure (l, res)

/-- One turn of the loop of the second method, newton-raphson.cpp 90-117 -/
def newtonTurn2 (l res : List (Itv T)) (x : Itv T) : m (List (Itv T) × List (Itv T)) := do
  let (x1, x2) ← newtonStep2 P N x
  match ← newtonKeep2 P N x1 x2 with
  | none => pure (l, res)
  | some (x1, x2) => newtonPush2 P N l res x x1 x2

/-- The loop of the second method, newton-raphson.cpp 89-119. -/
def newton2 : ℕ → List (Itv T) → List (Itv T) → m (List (Itv T))
  | _, [], res => pure res
  | 0, _ :: _, _ => lift (.error .fuel)
  | n + 1, x :: l, res => do
    let (l, res) ← newtonTurn2 P N l res x
    newton2 n l res
end

/-! ## examples/findroot_demo.cpp -/

/-- `find_zeros` in one dimension, findroot_demo.cpp 80-100: the ranges that are written. The list `l` is a queue. -/
def findZeros1 (P : Policies m T) (f : Itv T → m (Itv T)) (eps : T) : ℕ → List (Itv T) → List (Itv T) → m (List (Itv T))
  | _, [], res => pure res
  | 0, _ :: _, _ => lift (.error .fuel)
  | n + 1, x :: l, res => do
    let y ← f x
    if ← lift (zeroIn P.chk y) then do
      let w ← width P x
      if Num.lt w eps then findZeros1 P f eps n l (res ++ [x])
      else do
        let (p, q) ← bisect P x
        findZeros1 P f eps n (l ++ [p, q]) res
    else findZeros1 P f eps n l res

/-- `find_zeros` in two dimensions, findroot_demo.cpp 115-151: the rectangles that are written (the medians written with
them are left out). -/
def findZeros2 (P : Policies m T) (f : Itv T → Itv T → m (Itv T)) (eps : T) :
    ℕ → List (Itv T × Itv T) → List (Itv T × Itv T) → m (List (Itv T × Itv T))
  | _, [], res => pure res
  | 0, _ :: _, _ => lift (.error .fuel)
  | n + 1, x :: l, res => do
    let y ← f x.1 x.2
    if ← lift (zeroIn P.chk y) then do
      let w1 ← width P x.1
      let small ← (if Num.lt w1 eps then do
          let w2 ← width P x.2
          pure (Num.lt w2 eps)
        else pure false)
      if small then findZeros2 P f eps n l (res ++ [x])
      else do
        let w1 ← width P x.1
        let w2 ← width P x.2
        if Num.lt w2 w1 then do
          let (p, q) ← bisect P x.1
          findZeros2 P f eps n (l ++ [(p, x.2), (q, x.2)]) res
        else do
          let (p, q) ← bisect P x.2
          findZeros2 P f eps n (l ++ [(x.1, p), (x.1, q)]) res
    else findZeros2 P f eps n l res

/-- `test_func1d`, findroot_demo.cpp 61-68 (`fuel` limits the recursion of the cosine) -/
def demo1 (P : Policies m T) (K : PiConst T) (fuel : ℕ) (x : Itv T) : m (Itv T) := do
  let s ← sinI K fuel P x
  let y ← mulII P x x
  let y ← addIT P y (Num.lit 1)
  divII P s y

/-- `test_func1d_2`, findroot_demo.cpp 70-78 -/
def demo1' (P : Policies m T) (x : Itv T) : m (Itv T) := do
  let y ← mulII P x x
  let y ← subIT P y (Num.lit 1)
  sqrtI P y

/-- `test_func2d`, findroot_demo.cpp 51-59, on the constants 45 and 100 -/
def demo2 (P : Policies m T) (K : PiConst T) (fuel : ℕ) (c45 c100 : T) (x y : Itv T) : m (Itv T) := do
  let s ← sinI K fuel P x
  let c ← cosI K fuel P y
  let a ← mulII P s c
  let p ← mulII P x y
  let e ← expI P p
  let e ← divIT P e c45
  let q ← addII P x y
  let q ← powI P q 2
  let q ← addIT P q c100
  let b ← mulII P e q
  let d ← subII P a b
  let t ← sinI K fuel P y
  let t ← cosI K fuel P t
  let t ← mulII P t y
  let t ← divIT P t (Num.lit 4)
  subII P d t

end BI
