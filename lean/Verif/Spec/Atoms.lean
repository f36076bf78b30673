import Verif.Model.Atoms

/-! # Specification: masses and isotope couplings -/
namespace Verif.Spec
open Verif.Model

/-- The crystal is described consistently: a cell, one species and three coordinates per atom, one mass per species, known
elements. -/
structure GoodCrystal (c : CrystalInput) : Prop where
  volume : 0 < c.volume
  rows : c.atomicSpecies.length = c.positionRows
  cols : c.positionCols = 3
  masses : c.speciesMasses.length = c.speciesNames.length
  species : ∀ s ∈ c.atomicSpecies, 0 ≤ s ∧ s < c.speciesNames.length
  known : ∀ n ∈ c.speciesNames, ∃ e ∈ elementTable, e.symbol = n

/-- The value for species `s` of a list of the input file which may be absent. -/
def given (l : List ℚ) (s : Nat) : Option ℚ := l[s]?

/-- An atom of species `s`: the mass is the one of the input file, if there, or that of the force constants; the isotope
coupling is the one of the input file, if there, or that of the natural element. -/
def AtomAsAsked (c : CrystalInput) (s : Nat) (a : AtomData) : Prop :=
  c.speciesNames[s]? = some a.name ∧
  (match given c.customMasses s with
    | some m => a.mass = m
    | none => c.speciesMasses[s]? = some a.mass) ∧
  (match given c.customCouplings s with
    | some g => a.isotopeCoupling = g
    | none => ∃ e ∈ elementTable, e.symbol = a.name ∧ a.isotopeCoupling = e.massVariance.val)

end Verif.Spec
