import Verif.Model.Object
/-! # What a member function that modifies the object has to do -/

namespace BI

/-- The machine and the object after a computation of a new value for it: on success the object holds the value, after
an exception it is what it was. -/
def stored {W T : Type} (old : Itv T) : Res (Itv T) × St W → Res Unit × World W T
  | (.ok z, s) => (.ok (), ⟨z, s⟩)
  | (.error e, s) => (.error e, ⟨old, s⟩)

/-- `op` replaces the object by the value of `f` computed from the old object, with the effects of `f` on the machine;
if `f` throws, `op` throws the same and the object is what it was. -/
def Replaces {W T : Type} (op : OM W T Unit) (f : Itv T → M W (Itv T)) : Prop :=
  ∀ w : World W T, op w = stored w.obj (f w.obj w.st)

/-- Base types on which addition is commutative, in both forms that the rounding policies use. -/
structure AddComm (T : Type) [Num T] : Prop where
  add : ∀ r (a b : T), Num.add r a b = Num.add r b a
  opp : ∀ r (a b : T), ((Num.neg a).bind fun na => Num.sub r na b) = (Num.neg b).bind fun nb => Num.sub r nb a

end BI
