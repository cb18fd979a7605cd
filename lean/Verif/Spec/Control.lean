import Verif.Model.Rounding
/-! # What a rounding control back end has to do -/

namespace BI

/-- Each switch gives the direction it names. -/
def SetsModes (c : Ctl) (valid : c.W → Prop) : Prop :=
  ∀ w, valid w → c.decode (c.upward w) = .up ∧ c.decode (c.downward w) = .down ∧
    c.decode (c.toNearest w) = .near ∧ c.decode (c.towardZero w) = .zero

/-- `Switches c w w'`: the word `w'` is obtained from `w` by some sequence of switches. -/
inductive Switches (c : Ctl) (w : c.W) : c.W → Prop where
  | refl : Switches c w w
  | upward {v} : Switches c w v → Switches c w (c.upward v)
  | downward {v} : Switches c w v → Switches c w (c.downward v)
  | toNearest {v} : Switches c w v → Switches c w (c.toNearest v)
  | towardZero {v} : Switches c w v → Switches c w (c.towardZero v)

/-- Saving the word, switching any number of times and restoring gives the word back. -/
def RoundTrips (c : Ctl) (valid : c.W → Prop) : Prop :=
  ∀ w w', valid w → Switches c w w' → c.set (c.get w) w' = w

/-- After each of the four switches the word has the property `P`. -/
def EachSwitch (c : Ctl) (P : c.W → Prop) : Prop :=
  ∀ w, P (c.upward w) ∧ P (c.downward w) ∧ P (c.toNearest w) ∧ P (c.towardZero w)

end BI
