import Verif.Model.Summary

/-!
# What the summary of the input should say
-/
namespace Verif.Spec
open Verif.Model
variable {α : Type} [Field α] [LinearOrder α]

/-- How much of the internal (Rydberg atomic) unit is one of the units of the summary. -/
def unitInAu (u : UnitTable α) (unit : String) : α :=
  if unit = "eV" then 1 / u.ryToEv else if unit = "fs" then 1 / u.auToFs else if unit = "ang" then 1 / u.bohrToAng
  else if unit = "mum" then 1 / u.bohrToMum else if unit = "K" then 1 / u.tempAuToSi
  else if unit = "amu" then u.massAmuToRy else 1

/-- The factors are not zero. -/
structure GoodUnits (u : UnitTable α) : Prop where
  ev : u.ryToEv ≠ 0
  fs : u.auToFs ≠ 0
  mum : u.bohrToMum ≠ 0
  ang : u.bohrToAng ≠ 0
  temp : u.tempAuToSi ≠ 0
  mass : u.massAmuToRy ≠ 0

/-- The variables that are lists of real numbers. -/
def listVariables : List String :=
  ["windowEnergyLimit", "temperatures", "dopings", "chemicalPotentials", "masses", "isotopeCouplings"]

/-- The numbers that the program holds for a variable, in internal units, with the defaults of src/context.h. -/
def heldNumbers (c : Settings α) (name : String) : List α :=
  if name ∈ listVariables then
    match c name.toList with
    | some (.dbls l) => l
    | _ => []
  else match c name.toList with
    | some (.dbl x) => [x]
    | _ => if name = "thickness" then [1] else if name = "deltaPath" then [5 / 100] else []

/-- A line is faithful: its numbers, in its unit, are those that the program will use. -/
def Faithful (u : UnitTable α) (c : Settings α) (e : Echo α) : Prop :=
  e.numbers.map (· * unitInAu u e.unit) = heldNumbers c e.name

/-- The variables with real numbers that every transport application uses, and their units. -/
def transportVariables : List String :=
  ["constantRelaxationTime", "smearingWidth", "windowPopulationLimit", "minTemperature", "maxTemperature",
    "deltaTemperature"]

/-- The variables of the chemical potential. -/
def potentialVariables : List String :=
  ["minChemicalPotential", "maxChemicalPotential", "deltaChemicalPotential", "eFermiRange", "fermiLevel",
    "numOccupiedStates"]

/-- The variables of the electron-phonon averaged approximation. -/
def epaVariables : List String :=
  ["epaEnergyRange", "epaEnergyStep", "epaMinEnergy", "epaMaxEnergy", "epaSmearingEnergy", "epaDeltaEnergy",
    "electronFourierCutoff", "minTemperature", "maxTemperature", "deltaTemperature"] ++ potentialVariables

end Verif.Spec
