import Verif.Model.Utility
/-!
# Comparisons: interval.hpp and compare/*.hpp

`a > b` on base numbers is `Num.lt b a`, `a >= b` is `Num.le b a`, `a != b` is `!Num.eq a b`. None of these functions
rounds. `C1` and `C2` are the checking policies of the two interval types.
-/

namespace BI

/-- The six relational operators, interval.hpp 80-92. -/
inductive Rel where
  | lt | le | gt | ge | eq | ne
  deriving DecidableEq, Repr

variable {T : Type} [Num T]

/-- Two successive tests and an exception, as in all comparison operators, interval.hpp 323-445. -/
def decide2 (t f : Bool) : Res Bool :=
  if t then pure true else if f then pure false else .error .comparison

/-- The answers for `<`, `>`, `<=`, `>=`, `==`, `!=` between `[l, u]` and `[l', u']`: the test for `true` and the test for
`false`, interval.hpp 323-381. -/
def defTests (l u l' u' : T) : Rel → Bool × Bool
  | .lt => (Num.lt u l', Num.le u' l)                                                        -- 327-328
  | .gt => (Num.lt u' l, Num.le u l')                                                        -- 337-338
  | .le => (Num.le u l', Num.lt u' l)                                                        -- 347-348
  | .ge => (Num.le u' l, Num.lt u l')                                                        -- 357-358
  | .eq => (Num.eq u l' && Num.eq l u', Num.lt u l' || Num.lt u' l)                          -- 367-368
  | .ne => (Num.lt u l' || Num.lt u' l, Num.eq u l' && Num.eq l u')                          -- 377-378

/-- The members `operator<` ... `operator!=` with an `interval_holder`, interval.hpp 102-114 and 323-381. The holder of
the right operand is constructed first. -/
def cmpII (r : Rel) (C1 C2 : Checking T) (x y : Itv T) : Res Bool := do
  if ← C2.isEmpty y.lower y.upper then .error .comparison
  else if ← C1.isEmpty x.lower x.upper then .error .comparison
  else decide2 (defTests x.lower x.upper y.lower y.upper r).1 (defTests x.lower x.upper y.lower y.upper r).2

/-- The tests between `[l, u]` and a number, interval.hpp 387-445. -/
def defTestsT (l u v : T) : Rel → Bool × Bool
  | .lt => (Num.lt u v, Num.le v l)                                                          -- 391-392
  | .gt => (Num.lt v l, Num.le u v)                                                          -- 401-402
  | .le => (Num.le u v, Num.lt v l)                                                          -- 411-412
  | .ge => (Num.le v l, Num.lt u v)                                                          -- 421-422
  | .eq => (Num.eq u v && Num.eq l v, Num.lt u v || Num.lt v l)                              -- 431-432
  | .ne => (Num.lt u v || Num.lt v l, Num.eq u v && Num.eq l v)                              -- 441-442

/-- The members with a `number_holder`, interval.hpp 116-125 and 387-445. -/
def cmpIT (r : Rel) (C : Checking T) (x : Itv T) (y : T) : Res Bool := do
  if ← C.isNan y then .error .comparison
  else if ← C.isEmpty x.lower x.upper then .error .comparison
  else decide2 (defTestsT x.lower x.upper y r).1 (defTestsT x.lower x.upper y r).2

/-! ## compare/certain.hpp -/

/-- certain.hpp 22-27, 36-41, 50-55, 64-69, 78-83, 92-97 -/
def certainII (r : Rel) (C1 C2 : Checking T) (x y : Itv T) : Res Bool := do
  if ← testII C1 C2 x y then .error .comparison
  else pure <| match r with
    | .lt => Num.lt x.upper y.lower
    | .le => Num.le x.upper y.lower
    | .gt => Num.lt y.upper x.lower
    | .ge => Num.le y.upper x.lower
    | .eq => Num.eq x.upper y.lower && Num.eq x.lower y.upper
    | .ne => Num.lt x.upper y.lower || Num.lt y.upper x.lower

/-- certain.hpp 29-34, 43-48, 57-62, 71-76, 85-90, 99-104 -/
def certainIT (r : Rel) (C : Checking T) (x : Itv T) (y : T) : Res Bool := do
  if ← testIT C x y then .error .comparison
  else pure <| match r with
    | .lt => Num.lt x.upper y
    | .le => Num.le x.upper y
    | .gt => Num.lt y x.lower
    | .ge => Num.le y x.lower
    | .eq => Num.eq x.upper y && Num.eq x.lower y
    | .ne => Num.lt x.upper y || Num.lt y x.lower

/-! ## compare/possible.hpp -/

/-- possible.hpp 22-27, 36-41, 50-55, 64-69, 78-83, 92-97 -/
def possibleII (r : Rel) (C1 C2 : Checking T) (x y : Itv T) : Res Bool := do
  if ← testII C1 C2 x y then .error .comparison
  else pure <| match r with
    | .lt => Num.lt x.lower y.upper
    | .le => Num.le x.lower y.upper
    | .gt => Num.lt y.lower x.upper
    | .ge => Num.le y.lower x.upper
    | .eq => Num.le x.lower y.upper && Num.le y.lower x.upper
    | .ne => !Num.eq x.lower y.upper || !Num.eq x.upper y.lower

/-- possible.hpp 29-34, 43-48, 57-62, 71-76, 85-90, 99-104 -/
def possibleIT (r : Rel) (C : Checking T) (x : Itv T) (y : T) : Res Bool := do
  if ← testIT C x y then .error .comparison
  else pure <| match r with
    | .lt => Num.lt x.lower y
    | .le => Num.le x.lower y
    | .gt => Num.lt y x.upper
    | .ge => Num.le y x.upper
    | .eq => Num.le x.lower y && Num.le y x.upper
    | .ne => !Num.eq x.lower y || !Num.eq x.upper y

/-! ## compare/tribool.hpp: `none` is `indeterminate` -/

/-- Two successive tests of the functions of tribool.hpp. -/
def tri2 (t f : Bool) : Option Bool := if t then some true else if f then some false else none

/-- tribool.hpp 23-30, 41-48, 59-66, 77-84, 95-102, 113-120 -/
def triII (r : Rel) (C1 C2 : Checking T) (x y : Itv T) : Res (Option Bool) := do
  if ← testII C1 C2 x y then .error .comparison
  else pure <| match r with
    | .lt => tri2 (Num.lt x.upper y.lower) (Num.le y.upper x.lower)
    | .le => tri2 (Num.le x.upper y.lower) (Num.lt y.upper x.lower)
    | .gt => tri2 (Num.lt y.upper x.lower) (Num.le x.upper y.lower)
    | .ge => tri2 (Num.le y.upper x.lower) (Num.lt x.upper y.lower)
    | .eq => tri2 (Num.eq x.upper y.lower && Num.eq x.lower y.upper) (Num.lt x.upper y.lower || Num.lt y.upper x.lower)
    | .ne => tri2 (Num.lt x.upper y.lower || Num.lt y.upper x.lower) (Num.eq x.upper y.lower && Num.eq x.lower y.upper)

/-- tribool.hpp 32-39, 50-57, 68-75, 86-93, 104-111, 122-129 -/
def triIT (r : Rel) (C : Checking T) (x : Itv T) (y : T) : Res (Option Bool) := do
  if ← testIT C x y then .error .comparison
  else pure <| match r with
    | .lt => tri2 (Num.lt x.upper y) (Num.le y x.lower)
    | .le => tri2 (Num.le x.upper y) (Num.lt y x.lower)
    | .gt => tri2 (Num.lt y x.lower) (Num.le x.upper y)
    | .ge => tri2 (Num.le y x.lower) (Num.lt x.upper y)
    | .eq => tri2 (Num.eq x.upper y && Num.eq x.lower y) (Num.lt x.upper y || Num.lt y x.lower)
    | .ne => tri2 (Num.lt x.upper y || Num.lt y x.lower) (Num.eq x.upper y && Num.eq x.lower y)

/-! ## compare/explicit.hpp: no test of the operands -/

/-- `cerlt`, `cerle`, `cergt`, `cerge`, `cereq`, `cerne`: explicit.hpp 24-28, 42-46, 60-64, 78-82, 96-100, 114-118 -/
def cerII (r : Rel) (x y : Itv T) : Bool :=
  match r with
  | .lt => Num.lt x.upper y.lower
  | .le => Num.le x.upper y.lower
  | .gt => Num.lt y.upper x.lower
  | .ge => Num.le y.upper x.lower
  | .eq => Num.eq x.lower y.upper && Num.eq y.lower x.upper
  | .ne => Num.lt x.upper y.lower || Num.lt y.upper x.lower

/-- explicit.hpp 30-34, 48-52, 66-70, 84-88, 102-106, 120-124 -/
def cerIT (r : Rel) (x : Itv T) (y : T) : Bool :=
  match r with
  | .lt => Num.lt x.upper y
  | .le => Num.le x.upper y
  | .gt => Num.lt y x.lower
  | .ge => Num.le y x.lower
  | .eq => Num.eq x.lower y && Num.eq x.upper y
  | .ne => Num.lt x.upper y || Num.lt y x.lower

/-- explicit.hpp 36-40, 54-58, 72-76, 90-94, 108-112, 126-130 -/
def cerTI (r : Rel) (x : T) (y : Itv T) : Bool :=
  match r with
  | .lt => Num.lt x y.lower
  | .le => Num.le x y.lower
  | .gt => Num.lt y.upper x
  | .ge => Num.le y.upper x
  | .eq => Num.eq x y.lower && Num.eq x y.upper
  | .ne => Num.lt x y.lower || Num.lt y.upper x

/-- `poslt`, `posle`, `posgt`, `posge`, `poseq`, `posne`: explicit.hpp 136-140, 154-158, 172-176, 190-194, 208-212,
226-230 -/
def posII (r : Rel) (x y : Itv T) : Bool :=
  match r with
  | .lt => Num.lt x.lower y.upper
  | .le => Num.le x.lower y.upper
  | .gt => Num.lt y.lower x.upper
  | .ge => Num.le y.lower x.upper
  | .eq => Num.le y.lower x.upper && Num.le x.lower y.upper
  | .ne => !Num.eq x.upper y.lower || !Num.eq y.upper x.lower

/-- explicit.hpp 142-146, 160-164, 178-182, 196-200, 214-218, 232-236 -/
def posIT (r : Rel) (x : Itv T) (y : T) : Bool :=
  match r with
  | .lt => Num.lt x.lower y
  | .le => Num.le x.lower y
  | .gt => Num.lt y x.upper
  | .ge => Num.le y x.upper
  | .eq => Num.le y x.upper && Num.le x.lower y
  | .ne => !Num.eq x.upper y || !Num.eq y x.lower

/-- explicit.hpp 148-152, 166-170, 184-188, 202-206, 220-224, 238-242 -/
def posTI (r : Rel) (x : T) (y : Itv T) : Bool :=
  match r with
  | .lt => Num.lt x y.upper
  | .le => Num.le x y.upper
  | .gt => Num.lt y.lower x
  | .ge => Num.le y.lower x
  | .eq => Num.le y.lower x && Num.le x y.upper
  | .ne => !Num.eq x y.lower || !Num.eq y.upper x

/-! ## compare/lexicographic.hpp -/

/-- lexicographic.hpp 22-29, 38-45, 55-62, 72-79, 88-93, 102-107 -/
def lexII (r : Rel) (C1 C2 : Checking T) (x y : Itv T) : Res Bool := do
  if ← testII C1 C2 x y then .error .comparison
  else pure <| match r with
    | .lt => Num.lt x.lower y.lower || (Num.eq x.lower y.lower && Num.lt x.upper y.upper)
    | .le => Num.lt x.lower y.lower || (Num.eq x.lower y.lower && Num.le x.upper y.upper)
    | .gt => Num.lt y.lower x.lower || (Num.eq x.lower y.lower && Num.lt y.upper x.upper)
    | .ge => Num.lt y.lower x.lower || (Num.eq x.lower y.lower && Num.le y.upper x.upper)
    | .eq => Num.eq x.lower y.lower && Num.eq x.upper y.upper
    | .ne => !Num.eq x.lower y.lower || !Num.eq x.upper y.upper

/-- lexicographic.hpp 31-36, 47-53, 64-70, 81-86, 95-100, 109-114 -/
def lexIT (r : Rel) (C : Checking T) (x : Itv T) (y : T) : Res Bool := do
  if ← testIT C x y then .error .comparison
  else pure <| match r with
    | .lt => Num.lt x.lower y
    | .le => Num.lt x.lower y || (Num.eq x.lower y && Num.le x.upper y)
    | .gt => Num.lt y x.lower || (Num.eq x.lower y && Num.lt y x.upper)
    | .ge => Num.le y x.lower
    | .eq => Num.eq x.lower y && Num.eq x.upper y
    | .ne => !Num.eq x.lower y || !Num.eq x.upper y

/-! ## compare/set.hpp -/

/-- set.hpp 23-27, 35-39, 47-51, 59-63, 71-75, 83-87. `subset` is declared for equal policies only (utility.hpp 123-129),
so `<=` and `>=` do not compile for different ones: here `C1 = C2` for them. -/
def setII (r : Rel) (C1 C2 : Checking T) (x y : Itv T) : Res Bool :=
  match r with
  | .lt => properSubset C1 C2 x y
  | .le => subset C1 x y
  | .gt => properSubset C2 C1 y x
  | .ge => subset C1 y x
  | .eq => equal C2 C1 y x
  | .ne => do let b ← equal C2 C1 y x; pure !b

/-- set.hpp 29-33, 41-45, 53-57, 65-69, 77-81, 89-93 -/
def setIT (_r : Rel) (_x : Itv T) (_y : T) : Res Bool := .error .comparison

end BI
