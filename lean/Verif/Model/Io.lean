import Verif.Model.Utility
/-! # Output (io.hpp) and numeric limits (limits.hpp) -/

namespace BI

/-- What the output operator asks of a stream: insertion of characters, character strings and numbers. Formatting state
(precision, width, locale, error bits) is part of `S`. Used in io.hpp 33-35. -/
structure Stream (S T : Type) where
  chr : Char → S → S
  str : String → S → S
  num : T → S → S

/-- A stream that collects text, given a way to write numbers (for the examples; io.hpp 27-36 is generic in the
stream). -/
def Stream.text {T : Type} (put : T → String) : Stream String T where
  chr c s := s.push c
  str t s := s ++ t
  num v s := s ++ put v

section
variable {S T : Type} [Num T]

/-- `operator<<`, io.hpp 27-36 -/
def outI (C : Checking T) (o : Stream S T) (x : Itv T) (s : S) : Res S := do
  if ← isEmptyI C x then pure (o.str "[]" s)
  else pure (o.chr ']' (o.num x.upper (o.chr ',' (o.num x.lower (o.chr '[' s)))))

/-- The members of `std::numeric_limits<T>` used by limits.hpp (infinity and NaN are in `Num`). -/
structure Limits (T : Type) where
  min : T
  max : T
  epsilon : T
  denormMin : T

/-- A function declared `noexcept`: an exception calls `std::terminate` (`none`):
limits.hpp 29-41 (`BOOST_NOEXCEPT_OR_NOTHROW`). -/
def noexcept {α : Type} : Res α → Option α
  | .ok a => some a
  | .error _ => none

/-- `min`, limits.hpp 29 -/
def limMin (C : Checking T) (L : Limits T) : Option (Itv T) := noexcept (ctorTT C L.min L.min)
/-- `max`, limits.hpp 30 -/
def limMax (C : Checking T) (L : Limits T) : Option (Itv T) := noexcept (ctorTT C L.max L.max)
/-- `epsilon`, limits.hpp 31 -/
def limEpsilon (C : Checking T) (L : Limits T) : Option (Itv T) := noexcept (ctorTT C L.epsilon L.epsilon)
/-- `infinity`, limits.hpp 36 -/
def limInfinity (C : Checking T) : Option (Itv T) := noexcept (wholeI C)
/-- `quiet_NaN`, limits.hpp 37 -/
def limNaN (C : Checking T) : Option (Itv T) := noexcept (emptyI C)
/-- `denorm_min`, limits.hpp 40-41 (`signaling_NaN`, 38-39, does not compile when used: `bl::signaling_Nan`) -/
def limDenormMin (C : Checking T) (L : Limits T) : Option (Itv T) := noexcept (ctorTT C L.denormMin L.denormMin)
end

end BI
