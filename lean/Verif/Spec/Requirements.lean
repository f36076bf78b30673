import Verif.Model.Requirements
import Mathlib.Algebra.Order.Group.Unbundled.Abs
import Mathlib.Algebra.Order.Group.Int

/-!
# The variables that the documentation says are required

doc/sphinx/source/inputFiles.rst, "Required" entries; for the two applications that are not described there
(`elPhCouplingPlot`, `phononElectronLifetimes`), the variables that their runs read.
-/
namespace Verif.Spec
open Verif.Model

/-- All the variables of a list are given. -/
def AllGiven (v : InputVars) (names : List String) : Prop := ∀ n ∈ names, v.given n = true

/-- The three sizes of a mesh are given: the default is zero. -/
def MeshGiven (m : Int × Int × Int) : Prop := m.1 ≠ 0 ∧ m.2.1 ≠ 0 ∧ m.2.2 ≠ 0

/-- `temperatures`, or a range of temperatures (L926, L1576). -/
def TemperaturesGiven (v : InputVars) : Prop :=
  v.given "temperatures" = true ∨ AllGiven v ["minTemperature", "maxTemperature", "deltaTemperature"]

/-- `dopings`, `chemicalPotentials` or a range of chemical potentials (L1331, L1343). -/
def PotentialsGiven (v : InputVars) : Prop :=
  v.given "dopings" = true ∨ v.given "chemicalPotentials" = true ∨
    AllGiven v ["minChemicalPotential", "maxChemicalPotential", "deltaChemicalPotential"]

/-- One of the three smearing methods, and the width for Gaussians (L938, L950). -/
def SmearingGiven (v : InputVars) : Prop :=
  (v.smearingMethod = 0 ∧ v.given "smearingWidth" = true) ∨ v.smearingMethod = 1 ∨ v.smearingMethod = 2

/-- The coupling and the smearing, or a constant relaxation time and the filling. -/
def CouplingOrFilling (v : InputVars) : Prop :=
  (v.given "constantRelaxationTime" = false ∧ v.given "elphFileName" = true ∧ SmearingGiven v) ∨
  (v.given "constantRelaxationTime" = true ∧ (v.given "numOccupiedStates" = true ∨ v.given "fermiLevel" = true))

/-- Everything that the documentation requires for an application. -/
def Documented (app : AppKind) (v : InputVars) : Prop :=
  match app with
  | .phononBands => AllGiven v ["phFC2FileName", "beginEndPointPath"]
  | .electronWannierBands => AllGiven v ["electronH0Name", "beginEndPointPath", "beginEndCrystal"]
  | .electronFourierBands => AllGiven v ["electronH0Name", "beginEndPointPath", "electronFourierCutoff"]
  | .phononDos => AllGiven v ["phFC2FileName", "dosMinEnergy", "dosMaxEnergy", "dosDeltaEnergy"] ∧ MeshGiven v.qMesh
  | .electronWannierDos =>
    AllGiven v ["electronH0Name", "dosMinEnergy", "dosMaxEnergy", "dosDeltaEnergy", "beginEndCrystal"] ∧
      MeshGiven v.kMesh
  | .electronFourierDos =>
    AllGiven v ["electronH0Name", "dosMinEnergy", "dosMaxEnergy", "dosDeltaEnergy", "electronFourierCutoff"] ∧
      MeshGiven v.kMesh
  | .electronWannierTransport =>
    AllGiven v ["phFC2FileName", "electronH0Name"] ∧ MeshGiven v.kMesh ∧ TemperaturesGiven v ∧ PotentialsGiven v ∧
      CouplingOrFilling v
  | .elPhCouplingPlot => AllGiven v ["phFC2FileName", "electronH0Name", "elphFileName"] ∧
      (if v.couplingPlotStyle = "pointsPath" then AllGiven v ["beginEndPointPath"] else MeshGiven v.kMesh)
  | .elPhQeToPhoebe =>
    AllGiven v ["phFC2FileName", "electronH0Name", "quantumEspressoPrefix"] ∧
      ((v.elPhInterpolation = "wannier" ∧ AllGiven v ["wannier90Prefix"]) ∨
      (v.elPhInterpolation = "epa" ∧
        AllGiven v ["epaMinEnergy", "epaMaxEnergy", "epaSmearingEnergy", "electronFourierCutoff"] ∧
        (v.given "epaNumBins" = true ∨ v.given "epaDeltaEnergy" = true)))
  | .electronLifetimes =>
    AllGiven v ["phFC2FileName", "electronH0Name", "elphFileName", "beginEndPointPath"] ∧ MeshGiven v.kMesh ∧
      TemperaturesGiven v ∧ PotentialsGiven v ∧ SmearingGiven v
  | .phononLifetimes =>
    AllGiven v ["phFC2FileName", "phFC3FileName", "beginEndPointPath"] ∧ MeshGiven v.qMesh ∧ TemperaturesGiven v ∧
      SmearingGiven v
  | .phononElectronLifetimes =>
    AllGiven v ["phFC2FileName", "electronH0Name"] ∧ MeshGiven v.qMesh ∧ MeshGiven v.kMesh ∧ TemperaturesGiven v ∧
      PotentialsGiven v ∧ CouplingOrFilling v
  | .phononTransport =>
    AllGiven v ["phFC2FileName", "phFC3FileName"] ∧ MeshGiven v.qMesh ∧ TemperaturesGiven v ∧ SmearingGiven v ∧
      (v.given "elphFileName" = true → AllGiven v ["electronH0Name"] ∧ MeshGiven v.kMesh ∧ PotentialsGiven v)
  | .transportEpa =>
    AllGiven v ["epaFileName", "electronH0Name", "electronFourierCutoff", "epaEnergyStep", "epaEnergyRange"] ∧
      MeshGiven v.kMesh ∧ TemperaturesGiven v ∧ PotentialsGiven v

/-- Temperatures and potentials are listed rather than given as ranges. -/
def Listed (v : InputVars) : Prop :=
  v.given "temperatures" = true ∧ (v.given "dopings" = true ∨ v.given "chemicalPotentials" = true)

/-- The number of points of a mesh (and of its planes) is a 32-bit integer. -/
def MeshFits (m : Int × Int × Int) : Prop := |m.1 * m.2.1| < 2 ^ 31 ∧ |m.1 * m.2.1 * m.2.2| < 2 ^ 31

end Verif.Spec
