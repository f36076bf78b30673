import Verif.Model.LoopPrint

/-!
# Input variables required by the applications

`checkRequirements` of all applications and `App::throwErrorIfUnset`, src/apps/app.cpp L81-128.
-/
namespace Verif.Model

/-- The input, as far as the tests see it.  `given` : the variable of this name is set (src/context.h L22-130: a string or
list that is not empty, a number that is not the default NaN).  `deltaPath` has a default value and is always set. -/
structure InputVars where
  given : String → Bool
  qMesh : Int × Int × Int
  kMesh : Int × Int × Int
  /-- -1 when it is not given, src/context.h L29 -/
  smearingMethod : Int
  elPhInterpolation : String
  couplingPlotStyle : String

/-- `throwErrorIfUnset` for strings, lists, real numbers, matrices and tensors, src/apps/app.cpp L81-106, L115-134. -/
def InputVars.needs (v : InputVars) (name : String) : Outcome Unit := if v.given name then .ok () else .error

/-- `throwErrorIfUnset` for an integer (the smearing method, `epaNumBins`): the overload for real numbers is called, which
looks for NaN, src/apps/app.cpp L94-98. -/
def needsInteger : Outcome Unit := .ok ()

/-- `throwErrorIfUnset` for a mesh, src/apps/app.cpp L106-111. -/
def needsMesh (m : Int × Int × Int) : Outcome Unit := do
  let a ← cmul m.1 m.2.1
  let b ← cmul a m.2.2
  if b = 0 then .error else .ok ()

/-- `throwErrorIfUnset` on the smearing method, and on the width for Gaussians, e.g. src/apps/lifetimes_app.cpp
L107-110. -/
def InputVars.needsSmearing (v : InputVars) : Outcome Unit := do
  needsInteger
  if v.smearingMethod = 0 then v.needs "smearingWidth" else .ok ()

/-- The test on dopings and chemical potentials, e.g. src/apps/lifetimes_app.cpp L111-114. -/
def InputVars.needsPotentials (v : InputVars) : Outcome Unit :=
  if v.given "dopings" = false ∧ v.given "chemicalPotentials" = false then .error else .ok ()

/-- The same with ranges, src/apps/electron_wannier_transport_app.cpp L262-268. -/
def InputVars.needsPotentialsOrRange (v : InputVars) : Outcome Unit :=
  if v.given "dopings" = false ∧ v.given "chemicalPotentials" = false ∧
    (v.given "minChemicalPotential" = false ∨ v.given "maxChemicalPotential" = false ∨
      v.given "deltaChemicalPotential" = false) then .error else .ok ()

/-- With a constant relaxation time the filling is needed, otherwise the coupling and the smearing,
src/apps/electron_wannier_transport_app.cpp L247-260 and src/apps/ph_el_lifetimes.cpp L112-125. -/
def InputVars.needsCouplingOrFilling (v : InputVars) : Outcome Unit :=
  if v.given "constantRelaxationTime" = false then do
    v.needs "elphFileName"
    v.needsSmearing
  else if v.given "numOccupiedStates" = false ∧ v.given "fermiLevel" = false then .error else .ok ()

/-- The path or the mesh, according to the style of the plot, src/apps/elph_plot_app.cpp L395-399. -/
def InputVars.needsPlotPoints (v : InputVars) : Outcome Unit :=
  if v.couplingPlotStyle = "pointsPath" then v.needs "beginEndPointPath" else needsMesh v.kMesh

/-- The interpolation must be one of two, src/apps/elph_qe_to_phoebe_app.cpp L53-58. -/
def InputVars.needsInterpolation (v : InputVars) : Outcome Unit :=
  if v.elPhInterpolation ≠ "wannier" ∧ v.elPhInterpolation ≠ "epa" then .error else .ok ()

/-- `checkRequirements` of the applications; the warnings on `sumRuleFC2` are left out. -/
def checkRequirements (app : AppKind) (v : InputVars) : Outcome Unit :=
  match app with
  | .phononBands => do -- src/apps/bands_app.cpp L263-268
    v.needs "phFC2FileName"
    v.needs "beginEndPointPath"
  | .electronWannierBands => do -- src/apps/bands_app.cpp L270-279
    v.needs "electronH0Name"
    v.needs "beginEndPointPath"
    v.needs "beginEndCrystal"
  | .electronFourierBands => do -- src/apps/bands_app.cpp L281-287
    v.needs "electronH0Name"
    v.needs "beginEndPointPath"
    v.needs "electronFourierCutoff"
  | .phononDos => do -- src/apps/dos_app.cpp L202-209
    v.needs "phFC2FileName"
    needsMesh v.qMesh
    v.needs "dosMinEnergy"
    v.needs "dosMaxEnergy"
    v.needs "dosDeltaEnergy"
  | .electronWannierDos => do -- src/apps/dos_app.cpp L211-221
    v.needs "electronH0Name"
    needsMesh v.kMesh
    v.needs "dosMinEnergy"
    v.needs "dosMaxEnergy"
    v.needs "dosDeltaEnergy"
    v.needs "beginEndCrystal"
  | .electronFourierDos => do -- src/apps/dos_app.cpp L223-231
    v.needs "electronH0Name"
    needsMesh v.kMesh
    v.needs "dosMinEnergy"
    v.needs "dosMaxEnergy"
    v.needs "dosDeltaEnergy"
    v.needs "electronFourierCutoff"
  | .electronWannierTransport => do -- src/apps/electron_wannier_transport_app.cpp L242-269
    v.needs "electronH0Name"
    needsMesh v.kMesh
    v.needs "temperatures"
    v.needsCouplingOrFilling
    v.needsPotentialsOrRange
  | .elPhCouplingPlot => do -- src/apps/elph_plot_app.cpp L392-401
    v.needs "electronH0Name"
    v.needs "phFC2FileName"
    v.needsPlotPoints
    v.needs "elphFileName"
  | .elPhQeToPhoebe => do -- src/apps/elph_qe_to_phoebe_app.cpp L47-73
    v.needs "electronH0Name"
    v.needs "phFC2FileName"
    v.needs "quantumEspressoPrefix"
    v.needsInterpolation
    if v.elPhInterpolation = "wannier" then v.needs "wannier90Prefix"
    else do
      v.needs "epaSmearingEnergy"
      v.needs "electronFourierCutoff"
      v.needs "epaMinEnergy"
      v.needs "epaMaxEnergy"
      needsInteger
  | .electronLifetimes => do -- src/apps/lifetimes_app.cpp L100-115
    v.needs "electronH0Name"
    v.needs "phFC2FileName"
    v.needs "beginEndPointPath"
    v.needs "elphFileName"
    needsMesh v.kMesh
    v.needs "temperatures"
    v.needsSmearing
    v.needsPotentials
  | .phononLifetimes => do -- src/apps/lifetimes_app.cpp L117-128
    v.needs "phFC2FileName"
    v.needs "phFC3FileName"
    v.needs "beginEndPointPath"
    needsMesh v.qMesh
    v.needs "temperatures"
    v.needsSmearing
  | .phononElectronLifetimes => do -- src/apps/ph_el_lifetimes.cpp L105-130
    v.needs "electronH0Name"
    v.needs "phFC2FileName"
    needsMesh v.qMesh
    v.needs "temperatures"
    v.needsCouplingOrFilling
    v.needsPotentials
  | .phononTransport => do -- src/apps/phonon_transport_app.cpp L521-539
    v.needs "phFC2FileName"
    needsMesh v.qMesh
    v.needs "phFC3FileName"
    v.needs "temperatures"
    v.needsSmearing
    if v.given "elphFileName" then do
      v.needs "electronH0Name"
      needsMesh v.kMesh
      v.needsPotentials
    else .ok ()
  | .transportEpa => do -- src/apps/transport_epa_app.cpp L102-116
    v.needs "epaFileName"
    v.needs "electronH0Name"
    needsMesh v.kMesh
    v.needs "electronFourierCutoff"
    v.needs "epaEnergyStep"
    v.needs "epaEnergyRange"
    v.needs "temperatures"
    v.needsPotentials

end Verif.Model
