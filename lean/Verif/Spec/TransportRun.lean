import Verif.Model.TransportRun

/-!
# Specification: what the user of a transport run relies on (C161)
-/

namespace Verif.Spec

open Verif.Model

/-- The exact solvers of the Boltzmann equation that the manual lists. -/
inductive ExactSolver where
  | iterative
  | variational
  | relaxons
deriving DecidableEq

/-- The name by which a solver is asked for. -/
def ExactSolver.name : ExactSolver → String
  | .iterative => "iterative"
  | .variational => "variational"
  | .relaxons => "relaxons"

/-- The file in which the phonon app leaves the result of a solver. -/
def phononFile : ExactSolver → String
  | .iterative => "omini_phonon_thermal_cond.json"
  | .variational => "variational_phonon_thermal_cond.json"
  | .relaxons => "relaxons_phonon_thermal_cond.json"

/-- The file in which the electron app leaves the result of a solver. -/
def electronFile : ExactSolver → String
  | .iterative => "omini_onsager_coefficients.json"
  | .variational => "variational_onsager_coefficients.json"
  | .relaxons => "relaxons_onsager_coefficients.json"

/-- The files of the relaxation time approximation for phonons. -/
def phononRtaFiles : List String :=
  ["rta_ph_relaxation_times.json", "rta_phonon_thermal_cond.json",
    "wigner_phonon_thermal_cond.json", "rta_phonon_viscosity.json", "specific_heat.json"]

/-- The files of the relaxation time approximation for electrons. -/
def electronRtaFiles : List String :=
  ["rta_el_relaxation_times.json", "rta_onsager_coefficients.json",
    "rta_wigner_coefficients.json", "rta_electron_viscosity.json", "el_specific_heat.json"]

/-- The files a run writes, in order. -/
def filesOf (run : List RunEvent) : List String :=
  run.filterMap fun e => match e with
    | .write f => some f
    | _ => none

/-- The files that a phonon run has to write. -/
def phononFilesWanted (s : RunSettings) : List String :=
  (if s.elph = "" then [] else
    ["rta_phel_relaxation_times.json", "rta_phph_relaxation_times.json"]) ++ phononRtaFiles ++
  (if "iterative" ∈ s.solvers then ["omini_phonon_thermal_cond.json"] else []) ++
  (if "variational" ∈ s.solvers then ["variational_phonon_thermal_cond.json"] else []) ++
  (if "relaxons" ∈ s.solvers then ["ph_relaxons_real_space_coeffs.json",
    "relaxons_phonon_thermal_cond.json", "relaxons_relaxation_times.json",
    "relaxons_phonon_viscosity.json"] else [])

/-- The files that an electron run has to write. -/
def electronFilesWanted (s : RunSettings) : List String :=
  electronRtaFiles ++
  (if "iterative" ∈ s.solvers then ["omini_onsager_coefficients.json"] else []) ++
  (if "variational" ∈ s.solvers then ["variational_onsager_coefficients.json"] else []) ++
  (if "relaxons" ∈ s.solvers then ["el_relaxons_real_space_coeffs.json",
    "relaxons_onsager_coefficients.json", "exact_relaxation_times.json",
    "relaxons_electron_viscosity.json"] else [])

/-- The solver is in the list of the input. -/
def Asked (s : RunSettings) (x : ExactSolver) : Prop := x.name ∈ s.solvers

/-- A use of the full scattering matrix that suits a solver.  `scaled` : the
form in which the app builds its matrix (A for phonons, Omega for electrons).
The first two solvers multiply it, in that form; the relaxons are eigenvectors
of the form Omega. -/
def GoodUse (scaled : Bool) : ExactSolver → RunEvent → Prop
  | .relaxons, e => ∃ n, e = .diagonalized true n
  | _, e => e = .product (.stored scaled) ∨ e = .product .recomputed

/-- The run writes the file of a solver right after having used the full
matrix, in the right form, for it. -/
def Solved (scaled : Bool) (x : ExactSolver) (file : String) (run : List RunEvent) : Prop :=
  ∃ before use after, run = before ++ use ++ .write file :: after ∧ use ≠ [] ∧
    ∀ e ∈ use, GoodUse scaled x e

/-- The matrix has to be made symmetric: this was asked for, there is a matrix in
memory for an exact solver to use, and it is not reduced by symmetries of the
crystal. -/
def SymmetrizeWanted (s : RunSettings) (w : RunWorld) : Prop :=
  s.symmetrize = true ∧ s.inMemory = true ∧ ¬ (s.useSymmetries = true ∧ w.manySymmetries = true) ∧
    ∃ x, Asked s x

/-- The number of relaxons to compute: all (`none`) unless a positive number
smaller than that of the states was asked for. -/
def relaxonsWanted (s : RunSettings) (w : RunWorld) : Option Int :=
  if 0 < s.numRelaxons ∧ s.numRelaxons ≠ w.numStates then some s.numRelaxons else none

/-- The iterations reach the criterion before their number is exhausted. -/
def Converges (s : RunSettings) (converged : Nat → Bool) : Prop :=
  ∃ i : Nat, (i : Int) < s.maxIterations ∧ converged i = true

/-- The exact solvers that are asked for can be run. -/
structure SolversFit (s : RunSettings) (w : RunWorld) (numCalc : Nat) : Prop where
  memory : Asked s .relaxons → s.inMemory = true
  symmetries : Asked s .variational ∨ Asked s .relaxons → s.useSymmetries = false
  single : s.inMemory = true → numCalc = 1
  iterative : Asked s .iterative → Converges s w.ominiConverged
  variational : Asked s .variational → Converges s w.cgConverged
  relaxons : Asked s .relaxons → s.numRelaxons ≤ w.numStates

/-- The method of the smearing is one that can be used. -/
def SmearingFits (s : RunSettings) (electrons : Bool) : Prop :=
  (s.smearingMethod = 0 ∧ s.smearingWidth.isSome) ∨ s.smearingMethod = 1 ∨
    (s.smearingMethod = 2 ∧ electrons = false)

/-- The input of a phonon run with computed lifetimes is complete. -/
structure PhononInput (s : RunSettings) (w : RunWorld) : Prop where
  fc2 : s.fc2 ≠ ""
  fc3 : s.fc3 ≠ ""
  mesh : s.qMesh.prod ≠ 0
  temperatures : s.temperatures ≠ []
  smearing : SmearingFits s (decide (s.elph ≠ ""))
  files : w.filesRead = true
  electrons : s.elph ≠ "" → s.electronH0 ≠ "" ∧ s.kMesh.prod ≠ 0 ∧
    (s.dopings ≠ [] ∨ s.chemicalPotentials ≠ []) ∧ w.electronsFit = true ∧ w.numMu = 1

/-- The input of an electron run with computed lifetimes is complete. -/
structure ElectronInput (s : RunSettings) (w : RunWorld) : Prop where
  h0 : s.electronH0 ≠ ""
  elph : s.elph ≠ ""
  mesh : s.kMesh.prod ≠ 0
  temperatures : s.temperatures ≠ []
  smearing : SmearingFits s true
  files : w.filesRead = true
  filling : s.dopings ≠ [] ∨ s.chemicalPotentials ≠ [] ∨ s.chemicalPotentialRange = true

end Verif.Spec
