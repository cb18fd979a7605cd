import Verif.Model.Io
import Verif.Model.Conv
import Mathlib.Data.Nat.Notation
/-!
# examples/io.cpp

Output operators in various styles, and an input operator. Streams are as in `Model/Io.lean`, with a precision.
-/

namespace BI

/-- An output stream with `precision()`, examples/io.cpp 78, 85, 102, 107. -/
structure PStream (S T : Type) extends Stream S T where
  prec : S → ℤ
  setPrec : ℤ → S → S

section
variable {m : Type → Type} [Eff m] {S T : Type} [Num T]

/-- io_std, io.cpp 20-30 -/
def ioStd (C : Checking T) (o : Stream S T) (x : Itv T) (s : S) : Res S := do
  if ← isEmptyI C x then pure (o.str "[]" s)
  else pure (o.chr ']' (o.num x.upper (o.chr ',' (o.num x.lower (o.chr '[' s)))))

/-- io_sngl, io.cpp 36-48 -/
def ioSngl (C : Checking T) (o : Stream S T) (x : Itv T) (s : S) : Res S := do
  if ← isEmptyI C x then pure (o.str "[]" s)
  else if ← singleton C x then pure (o.chr ']' (o.num x.lower (o.chr '[' s)))
  else pure (o.chr ']' (o.num x.upper (o.chr ',' (o.num x.lower (o.chr '[' s)))))

/-- io_wdth, io.cpp 54-64: the median, and half the width (computed in the direction in force). In C++17 the operands of
`<<` are evaluated from left to right. -/
def ioWdth (P : Policies m T) (o : Stream S T) (x : Itv T) (s : S) : m S := do
  if ← lift (isEmptyI P.chk x) then pure (o.str "nothing" s)
  else
    let c ← median P x
    let w ← width P x
    let h ← P.cur fun r => Num.div r w (Num.lit 2)
    pure (o.num h (o.str " ± " (o.num c s)))

/-- `boost::io::ios_precision_saver state(stream, p)` around an insertion: the old precision is restored.
examples/io.cpp 78-79, 85-86, 102-103 -/
def PStream.withPrec (o : PStream S T) (p : ℤ) (v : T) (s : S) : S := o.setPrec (o.prec s) (o.num v (o.setPrec p s))

/-- io_prec, io.cpp 70-88. `digits10` is `numeric_limits<T>::digits10`; `log10` the library function, `trunc` the integral
part of a finite number (`none` otherwise). The cast to `int` is undefined when the value does not fit (32 bits). -/
def ioPrec (digits10 : ℤ) (log10 : RMode → T → Option T) (trunc : T → Option ℤ) (P : Policies m T) (o : PStream S T) (x : Itv T)
    (s : S) : m S := do
  if ← lift (isEmptyI P.chk x) then pure (o.str "nothing" s)
  else if ← lift (singleton P.chk x) then pure (o.withPrec digits10 x.lower s)
  else if ← lift (zeroIn P.chk x) then pure (o.str "0~" s)
  else
    let w ← width P x
    let n ← lift (norm P.chk x)
    let rel ← P.cur fun r => Num.div r w n
    let l ← P.cur fun r => log10 r rel
    match trunc l with
    | none => lift (.error .ub)
    | some k =>
      if k ≤ -2147483648 ∨ 2147483648 ≤ k then lift (.error .ub)
      else
        let c ← median P x
        pure (o.withPrec (-k) c s)
end

section
variable {m : Type → Type} [Eff m] {S : Type} {f : Fmt}

/-- `double eps = 1.0; for(; p > 0; --p) { eps /= 10; }`, io.cpp 110 -/
def poorPow (r : RMode) : ℕ → Fl .double → Fl .double
  | 0, eps => eps
  | p + 1, eps => poorPow r p (eps.div r (Num.lit 10))

/-- `static_cast<T>(eps / 2) * norm(value)`, io.cpp 109-111, for a stream with precision `p`. -/
def wideEps (p : ℤ) (n : Fl f) (r : RMode) : Fl f :=
  let p' := if 15 < p then 15 else p - 1
  Fl.mul r ((Fl.div r (poorPow r p'.toNat (Num.lit 1)) (Num.lit 2)).convert f r) n

/-- io_wide, io.cpp 94-115 -/
def ioWide (digits10 : ℤ) (P : Policies m (Fl f)) (o : PStream S (Fl f)) (x : Itv (Fl f)) (s : S) : m S := do
  if ← lift (isEmptyI P.chk x) then pure (o.str "nothing" s)
  else if ← lift (singleton P.chk x) then pure (o.withPrec digits10 x.lower s)
  else if ← lift (zeroIn P.chk x) then pure (o.str "0~" s)
  else
    let n ← lift (norm P.chk x)
    let e ← P.cur fun r => some (wideEps (o.prec s) n r)
    let z ← widen P x e
    pure (o.chr ']' (o.num z.upper (o.chr ',' (o.num z.lower (o.chr '[' s)))))
end

/-! ## The input operator, io.cpp 119-141 -/

/-- An input stream: the characters left, and whether no error bit is set; used in examples/io.cpp 119-141. -/
structure InS where
  rest : List Char
  good : Bool
  deriving DecidableEq, Repr

/-- White space in the "C" locale, skipped by the extractions of examples/io.cpp 126-133. -/
def isSpace (c : Char) : Bool := c == ' ' || c == '\t' || c == '\n' || c == '\x0b' || c == '\x0c' || c == '\r'

/-- `stream >> c`: skips white space; `c` keeps its value `old` on failure. examples/io.cpp 126-129 -/
def getC (old : Char) (s : InS) : Char × InS :=
  if s.good then
    match s.rest.dropWhile isSpace with
    | [] => (old, ⟨[], false⟩)
    | d :: r => (d, ⟨r, true⟩)
  else (old, s)

section
variable {T : Type} [Num T]

/-- `stream >> v`. `none` is a variable that has not been given a value. `num` reads a number from text that does not begin
with white space. If there is nothing to read, the variable keeps its value; if there is no number, it becomes zero
(C++11). -/
def getN (num : List Char → Option (T × List Char)) (v : Option T) (s : InS) : Option T × InS :=
  if s.good then
    match s.rest.dropWhile isSpace with
    | [] => (v, ⟨[], false⟩)
    | d :: r =>
      match num (d :: r) with
      | some (t, r') => (some t, ⟨r', true⟩)
      | none => (some (Num.lit 0), ⟨d :: r, false⟩)
  else (v, s)

/-- `stream.putback(c)` for a character just read; fails on a failed stream. examples/io.cpp 132 -/
def putback (c : Char) (s : InS) : InS := if s.good then ⟨c :: s.rest, true⟩ else s

/-- io.cpp 119-141. The new value of the object: `assign(l, u)` stores what the constructor makes of two numbers
(`C37_assign_bounds_partial`). `u = l` is undefined if `l` has no value. -/
def readI (C : Checking T) (num : List Char → Option (T × List Char)) (s : InS) : Res (Itv T) × InS :=
  let finish (l u : Option T) (s : InS) : Res (Itv T) × InS :=
    if s.good then
      match l, u with
      | some l, some u => (ctorTT C l u, s)
      | _, _ => (.error .ub, s)
    else (emptyI C, s)
  let p := getC '\x00' s
  if p.1 = '[' then
    let q := getN num none p.2
    let c := getC p.1 q.2
    if c.1 = ',' then
      let v := getN num none c.2
      let d := getC c.1 v.2
      finish q.1 v.1 (if d.1 ≠ ']' then ⟨d.2.rest, false⟩ else d.2)
    else
      match q.1 with
      | none => (.error .ub, c.2)
      | some l => finish (some l) (some l) (if c.1 ≠ ']' then ⟨c.2.rest, false⟩ else c.2)
  else
    let q := getN num none (putback p.1 p.2)
    match q.1 with
    | none => (.error .ub, q.2)
    | some l => finish (some l) (some l) q.2
end

end BI
