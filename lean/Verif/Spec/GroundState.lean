import Mathlib.Data.Real.Basic
import Mathlib.Data.List.Count

/-!
# Filling of bands

`states` are the energies of all the bands at all the wavevectors of a mesh.
-/
namespace Verif.Spec

open Classical in
/-- Number of states with an energy below `x`. -/
noncomputable def statesBelow (states : List ℝ) (x : ℝ) : Nat := (states.filter fun e => decide (e < x)).length

open Classical in
/-- Number of states with an energy not above `x`. -/
noncomputable def statesUpTo (states : List ℝ) (x : ℝ) : Nat := (states.filter fun e => decide (e ≤ x)).length

/-- `x` is a Fermi level for `filling` occupied states per wavevector: filling the states from the lowest one, all the states
below `x` are needed, and none above. -/
def IsFermiLevel (states : List ℝ) (numPoints : Nat) (filling x : ℝ) : Prop :=
  statesBelow states x ≤ filling * numPoints ∧ filling * numPoints ≤ statesUpTo states x

end Verif.Spec
