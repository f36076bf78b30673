import Mathlib.Data.Rat.Defs
import Mathlib.Algebra.Order.Ring.Rat
import Verif.Model.Basic

/-!
# What a transport run does: the phonon and the electron transport apps

Model of the control flow of `PhononTransportApp::run`
(src/apps/phonon_transport_app.cpp L18-402), `ElectronWannierTransportApp::run`
(src/apps/electron_wannier_transport_app.cpp L13-248), of the checks made
before (`Context::inputSanityCheck`, `checkRequirements`) and of the life of
the scattering matrix they use (src/bte/scattering.cpp).

The physics is not modelled here (see the modules `PhRates`, `ElRates`,
`Solvers`, `Transport`, ...): a run is the list of what it does with the
matrix and of the files it writes.  What the input files and the numerics
answer is a parameter (`RunWorld`).
-/

namespace Verif.Model

/-- The variables of the input file that the transport apps look at
(src/context.h L18-130).  A number that is NaN when it is not set is `none`;
an integer has its default value. -/
structure RunSettings where
  fc2 : String
  fc3 : String
  elph : String
  electronH0 : String
  qMesh : List Int
  kMesh : List Int
  temperatures : List ℚ
  dopings : List ℚ
  chemicalPotentials : List ℚ
  /-- minimum, maximum and step of the chemical potential are all set -/
  chemicalPotentialRange : Bool
  smearingMethod : Int
  smearingWidth : Option ℚ
  constantTime : Option ℚ
  numOccupied : Option ℚ
  fermiLevel : Option ℚ
  solvers : List String
  useSymmetries : Bool
  inMemory : Bool
  symmetrize : Bool
  maxIterations : Int
  numRelaxons : Int

/-- What the run finds in the files and in the numbers. -/
structure RunWorld where
  /-- the files are there and hold what is expected -/
  filesRead : Bool
  /-- the crystal has more than the trivial symmetry (otherwise the flag of
  symmetries is switched off, src/crystal.cpp L196-199) -/
  manySymmetries : Bool
  /-- number of states of the Boltzmann equation -/
  numStates : Nat
  /-- number of chemical potentials of the electrons -/
  numMu : Nat
  /-- the crystals of the phonon and of the electron files are the same, and
  there are at least as many electron states as processes -/
  electronsFit : Bool
  /-- whether the criterion of convergence is met at an iteration -/
  ominiConverged : Nat → Bool
  cgConverged : Nat → Bool

/-- Where the numbers of a product with the scattering matrix come from. -/
inductive MatrixSource where
  /-- the matrix in memory, in the form A (`false`) or Omega (`true`) -/
  | stored (omega : Bool)
  /-- the rates are computed again -/
  | recomputed
  /-- a matrix in memory that has no elements -/
  | empty
deriving DecidableEq

/-- What a run does, in order. -/
inductive RunEvent where
  | write (file : String)
  | product (source : MatrixSource)
  | symmetrized
  | rescaled
  | diagonalized (omega : Bool) (number : Option Int)
deriving DecidableEq

/-- The object of the scattering matrix (src/bte/scattering.h L190-230). -/
structure ScatObject where
  inMemory : Bool
  constantRTA : Bool
  /-- the pointer to the smearing has been assigned -/
  smearing : Bool
  /-- the interaction has been read -/
  coupling : Bool
  /-- the matrix in memory has rows -/
  stored : Bool
  omega : Bool
  destroyed : Bool
deriving DecidableEq

/-- `context.getConstantRelaxationTime() > 0.` : false for NaN
(src/bte/scattering.cpp L52). -/
def isConstantRTA (s : RunSettings) : Bool :=
  match s.constantTime with
  | some x => decide (0 < x)
  | none => false

/-- The three exact solvers that an app looks for. -/
structure SolverFlags where
  iterative : Bool
  variational : Bool
  relaxons : Bool
deriving DecidableEq

/-- One name of the list (src/apps/phonon_transport_app.cpp L152-156,
src/apps/electron_wannier_transport_app.cpp L138-145). -/
def flagOf (f : SolverFlags) (name : String) : SolverFlags :=
  let f := if name = "iterative" then { f with iterative := true } else f
  let f := if name = "variational" then { f with variational := true } else f
  if name = "relaxons" then { f with relaxons := true } else f

/-- The flags of a list of names. -/
def solverFlags (names : List String) : SolverFlags :=
  names.foldl flagOf ⟨false, false, false⟩

/-- A test of the input: an error message ends the run. -/
def require (b : Bool) : Outcome Unit := if b then .ok () else .error

/-- `Context::inputSanityCheck` (src/context.cpp L772-803), called when the
input has been read; the warnings are left out. -/
def inputSanityCheck (s : RunSettings) : Outcome Unit :=
  require (s.solvers.all fun name =>
    !((name == "variational" || name == "relaxons") && s.useSymmetries))

/-- A grid is accepted when the product of its sizes is not zero
(`throwErrorIfUnset(const Eigen::Vector3i &)`, src/apps/app.cpp L108-113; the
overflow of the product is left out). -/
def gridGiven (mesh : List Int) : Bool := decide (mesh.prod ≠ 0)

/-- `PhononTransportApp::checkRequirements`
(src/apps/phonon_transport_app.cpp L521-540).  `throwErrorIfUnset` on the
smearing method, an integer, goes to the overload of real numbers, which looks
for NaN: it never refuses. -/
def phononRequirements (s : RunSettings) : Outcome Unit := do
  require (s.fc2 ≠ "")
  require (gridGiven s.qMesh)
  require (s.fc3 ≠ "")
  require (s.temperatures ≠ [])
  require (!(s.smearingMethod == 0) || s.smearingWidth.isSome)
  if s.elph ≠ "" then do
    require (s.electronH0 ≠ "")
    require (gridGiven s.kMesh)
    require (!(s.dopings.isEmpty && s.chemicalPotentials.isEmpty))
  else .ok ()

/-- `ElectronWannierTransportApp::checkRequirements`
(src/apps/electron_wannier_transport_app.cpp L250-279). -/
def electronRequirements (s : RunSettings) : Outcome Unit := do
  require (s.electronH0 ≠ "")
  require (gridGiven s.kMesh)
  require (s.temperatures ≠ [])
  if s.constantTime.isNone then do
    require (s.elph ≠ "")
    require (!(s.smearingMethod == 0) || s.smearingWidth.isSome)
  else
    require (s.numOccupied.isSome || s.fermiLevel.isSome)
  require (!(s.dopings.isEmpty && s.chemicalPotentials.isEmpty && !s.chemicalPotentialRange))

/-- The constructor of the scattering matrix (src/bte/scattering.cpp L14-82,
src/bte/el_scattering.cpp L20-33, src/bte/phel_scattering.cpp L24-42): with a
constant relaxation time it returns before the smearing is made; otherwise
the method must be one of the three (src/delta_function.cpp L19-32), and not
the tetrahedra if there are electrons.  `coupling` : the interaction given to
it has been read. -/
def makeScattering (s : RunSettings) (electrons coupling : Bool) : Outcome ScatObject :=
  let o : ScatObject :=
    { inMemory := s.inMemory, constantRTA := isConstantRTA s, smearing := false, coupling,
      stored := false, omega := electrons, destroyed := false }
  if isConstantRTA s then .ok o else
  if s.smearingMethod = 0 ∨ s.smearingMethod = 1 ∨ (s.smearingMethod = 2 ∧ electrons = false) then
    .ok { o with smearing := true }
  else .error

/-- A call of `builder`: it dereferences the pointer to the smearing and reads
the dimensions of the interaction, which are left unset by the constructor
that only takes the crystal (src/interaction/interaction_elph.cpp L64,
src/interaction/interaction_elph.h L34). -/
def callBuilder (o : ScatObject) : Outcome Unit :=
  if o.smearing && o.coupling then .ok () else .ub

/-- `ScatteringMatrix::setup` (src/bte/scattering.cpp L92-162). -/
def setupScattering (o : ScatObject) (numCalc numStates : Nat) : Outcome ScatObject :=
  if o.constantRTA then .ok o else
  if o.inMemory then
    if numCalc > 1 then .error else do
      callBuilder o
      .ok { o with stored := decide (0 < numStates) }
  else do
    callBuilder o
    .ok o

/-- `ScatteringMatrix::dot` and `offDiagonalDot`
(src/bte/scattering.cpp L181-364): the matrix in memory, or a call of the
builder.  A matrix that was given to the diagonalisation has no definite
content any more. -/
def scatProduct (o : ScatObject) : Outcome RunEvent :=
  if o.inMemory then
    if o.destroyed then .ub
    else if o.stored then .ok (.product (.stored o.omega))
    else .ok (.product .empty)
  else do
    callBuilder o
    .ok (.product .recomputed)

/-- `ScatteringMatrix::a2Omega` (src/bte/scattering.cpp L366-434). -/
def scatRescale (o : ScatObject) : Outcome (ScatObject × List RunEvent) :=
  if !o.inMemory then .error else
  if !o.stored then .error else
  if o.omega then .ok (o, []) else .ok ({ o with omega := true }, [.rescaled])

/-- `ScatteringMatrix::diagonalize` (src/bte/scattering.cpp L871-905).  The
number of eigenvalues is `none` when all of them are computed. -/
def scatDiagonalize (o : ScatObject) (number : Int) (numStates : Nat) :
    Outcome (ScatObject × List RunEvent) :=
  if number > numStates then .error else
  if o.destroyed then .ub else
  let n := if number > 0 ∧ number ≠ numStates then some number else none
  .ok ({ o with destroyed := true }, [.diagonalized o.omega n])

/-- The loop of an iterative solver, `left` iterations before the last
(src/apps/phonon_transport_app.cpp L216-241, L286-382): the products of an
iteration, the end if the criterion is met, an error if this was the last. -/
def solverLoop (step : Outcome (List RunEvent)) (converged : Nat → Bool) :
    (iter left : Nat) → Outcome (List RunEvent)
  | _, 0 => .ok []
  | iter, left + 1 => do
    let e ← step
    if converged iter then .ok e
    else if left = 0 then .error
    else do
      let r ← solverLoop step converged (iter + 1) left
      .ok (e ++ r)

/-- The iterative solver: one product for each iteration
(src/apps/phonon_transport_app.cpp L195-248,
src/apps/electron_wannier_transport_app.cpp L470-554). -/
def iterativePart (s : RunSettings) (w : RunWorld) (o : ScatObject) (file : String) :
    Outcome (List RunEvent) := do
  let e ← solverLoop (do .ok [← scatProduct o]) w.ominiConverged 0 s.maxIterations.toNat
  .ok (e ++ [.write file])

/-- The variational solver: one product before the loop and two in each
iteration (src/apps/phonon_transport_app.cpp L250-365,
src/apps/electron_wannier_transport_app.cpp L281-467). -/
def variationalPart (s : RunSettings) (w : RunWorld) (o : ScatObject) (file : String) :
    Outcome (List RunEvent) := do
  let e₀ ← scatProduct o
  let e ← solverLoop (do .ok [← scatProduct o, ← scatProduct o]) w.cgConverged 0
    s.maxIterations.toNat
  .ok (e₀ :: e ++ [.write file])

/-- The checks of the exact solvers and the symmetrisation
(src/apps/phonon_transport_app.cpp L158-193,
src/apps/electron_wannier_transport_app.cpp L147-184).  `sym` : the flag of
symmetries at this point of the run. -/
def solverChecks (s : RunSettings) (f : SolverFlags) (sym : Bool) (numCalc : Nat) :
    Outcome (List RunEvent) := do
  require (!(f.relaxons && !s.inMemory))
  require (!(f.relaxons && sym))
  require (!(f.variational && sym))
  require (!(s.inMemory && numCalc != 1))
  .ok (if s.inMemory && !sym && (f.variational || f.relaxons || f.iterative) && s.symmetrize
    then [.symmetrized] else [])

/-- The relaxons of phonons (src/apps/phonon_transport_app.cpp L367-400): the
matrix is scaled, used for the coefficients in real space
(src/observable/viscosity_io.cpp L314-451), diagonalised. -/
def phononRelaxons (s : RunSettings) (w : RunWorld) (o : ScatObject) (sym : Bool) :
    Outcome (List RunEvent) := do
  let (o, e₁) ← scatRescale o
  let e₂ ← scatProduct o
  let (_, e₃) ← scatDiagonalize o s.numRelaxons w.numStates
  .ok (e₁ ++ [e₂, .write "ph_relaxons_real_space_coeffs.json"] ++ e₃ ++
    [.write "relaxons_phonon_thermal_cond.json", .write "relaxons_relaxation_times.json"] ++
    (if sym then [] else [.write "relaxons_phonon_viscosity.json"]))

/-- The relaxons of electrons, whose matrix is already scaled
(src/apps/electron_wannier_transport_app.cpp L196-241). -/
def electronRelaxons (s : RunSettings) (w : RunWorld) (o : ScatObject) (sym : Bool) :
    Outcome (List RunEvent) := do
  let e₂ ← scatProduct o
  let (_, e₃) ← scatDiagonalize o s.numRelaxons w.numStates
  .ok ([e₂, .write "el_relaxons_real_space_coeffs.json"] ++ e₃ ++
    [.write "relaxons_onsager_coefficients.json", .write "exact_relaxation_times.json"] ++
    (if sym then [] else [.write "relaxons_electron_viscosity.json"]))

/-- A part of the run that is done only if it is asked for. -/
def onlyIf (b : Bool) (x : Outcome (List RunEvent)) : Outcome (List RunEvent) :=
  if b then x else .ok []

/-- `getPhononElectronLinewidth` and the lines around its call
(src/apps/phonon_transport_app.cpp L76-101, L406-519): the linewidths of the
scattering by electrons are computed with their own scattering matrix, and
the two sets are written. -/
def phononElectronPart (s : RunSettings) (w : RunWorld) : Outcome (List RunEvent) := do
  require w.electronsFit
  require (w.numMu == 1)
  let o ← makeScattering s true true
  let _ ← setupScattering o (s.temperatures.length * w.numMu) w.numStates
  .ok [.write "rta_phel_relaxation_times.json", .write "rta_phph_relaxation_times.json"]

/-- A run of the phonon transport app: the input is checked
(src/context.cpp L771, src/main.cpp L36-45), the files are read, the matrix is
set up, the relaxation time approximation is solved, then the exact solvers
that are asked for (src/apps/phonon_transport_app.cpp L18-402). -/
def phononRun (s : RunSettings) (w : RunWorld) : Outcome (List RunEvent) := do
  inputSanityCheck s
  phononRequirements s
  -- the flag of L24 is true when the constant time is NOT set; the file of the
  -- three-phonon coupling is required, so that this test never fails
  require (!(s.fc3 = "" && s.elph = "" && !s.constantTime.isNone))
  require w.filesRead
  let sym := s.useSymmetries && w.manySymmetries
  let o ← makeScattering s false true
  let o ← setupScattering o s.temperatures.length w.numStates
  let e₀ ← onlyIf (s.elph ≠ "") (phononElectronPart s w)
  let rta := [.write "rta_ph_relaxation_times.json", .write "rta_phonon_thermal_cond.json",
    .write "wigner_phonon_thermal_cond.json", .write "rta_phonon_viscosity.json",
    .write "specific_heat.json"]
  let f := solverFlags s.solvers
  let e₁ ← solverChecks s f sym s.temperatures.length
  let e₂ ← onlyIf f.iterative (iterativePart s w o "omini_phonon_thermal_cond.json")
  let e₃ ← onlyIf f.variational (variationalPart s w o "variational_phonon_thermal_cond.json")
  let e₄ ← onlyIf f.relaxons (phononRelaxons s w o sym)
  .ok (e₀ ++ rta ++ e₁ ++ e₂ ++ e₃ ++ e₄)

/-- A run of the electron transport app
(src/apps/electron_wannier_transport_app.cpp L13-248): the interaction is read
only if no constant relaxation time is set (L30-32), and the run ends after
the relaxation time approximation if one is set (L126-128). -/
def electronRun (s : RunSettings) (w : RunWorld) : Outcome (List RunEvent) := do
  inputSanityCheck s
  electronRequirements s
  require w.filesRead
  let sym := s.useSymmetries && w.manySymmetries
  let numCalc := s.temperatures.length * w.numMu
  let o ← makeScattering s true s.constantTime.isNone
  let o ← setupScattering o numCalc w.numStates
  let rta := [.write "rta_el_relaxation_times.json", .write "rta_onsager_coefficients.json",
    .write "rta_wigner_coefficients.json", .write "rta_electron_viscosity.json",
    .write "el_specific_heat.json"]
  if !s.constantTime.isNone then .ok rta else do
  let f := solverFlags s.solvers
  let e₁ ← solverChecks s f sym numCalc
  let e₂ ← onlyIf f.iterative (iterativePart s w o "omini_onsager_coefficients.json")
  let e₃ ← onlyIf f.variational (variationalPart s w o "variational_onsager_coefficients.json")
  let e₄ ← onlyIf f.relaxons (electronRelaxons s w o sym)
  .ok (rta ++ e₁ ++ e₂ ++ e₃ ++ e₄)

end Verif.Model
