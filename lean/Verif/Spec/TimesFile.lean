import Verif.Model.TimesFile

/-! # Specification: the file of relaxation times -/
namespace Verif.Spec
open Verif.Model

/-- Entry of calculation `c`, wavevector `k`, band `ib` of the lists of the file. -/
def entryOf {β : Type} (l : List (List (List β))) (c k ib : Nat) : Option β :=
  (l[c]?.bind fun x => x[k]?).bind fun x => x[ib]?

/-- The lists have one entry per calculation, irreducible point and band. -/
def ShapeOf {β : Type} (I : TimesInput) (l : List (List (List β))) : Prop :=
  l.length = I.calcs.length ∧
  ∀ x ∈ l, x.map List.length = (I.irr.irrPointsIterator I.layout.numPoints).map I.layout.numBands

/-- The arrays and the rows have the sizes they are allocated with. -/
structure GoodInput (I : TimesInput) : Prop where
  energies : I.arrays.energies.length = I.layout.numStates
  velocities : I.arrays.velocities.length = I.layout.numVelStates
  times : ∀ c, (I.times c).length = I.layout.numIrrStates I.irr
  linewidths : ∀ c, (I.linewidths c).length = I.layout.numIrrStates I.irr
  normal : ∀ p, I.normalUmklapp = some p → ∀ c, (p.1 c).length = I.layout.numIrrStates I.irr
  umklapp : ∀ p, I.normalUmklapp = some p → ∀ c, (p.2 c).length = I.layout.numIrrStates I.irr

end Verif.Spec
