import Verif.Model.Report
import Verif.Model.Times

/-!
# The relaxation time approximation, from the diagonal of the scattering matrix to the terminal and the file

src/apps/phonon_transport_app.cpp L117-134 and src/apps/electron_wannier_transport_app.cpp L91-101.  The steps are the
functions of src/bte/drift.cpp, src/bte/scattering.cpp, src/bte/vector_bte.cpp and src/observable that are modelled in
the other files.  Simplification: the vectors of the BTE are the same on all the processes (C47), so that the tensors are
computed from those of the head process.
-/
namespace Verif.Model

/-- What the apps have when the relaxation time approximation starts: the band structure, `bteToState`, the statistics
sweep, the number of wavevectors of the mesh, the volume of the cell, `constantRelaxationTime`, `isMatrixOmega` and the
diagonal of the scattering matrix (calculation, BTE state). -/
structure RtaSetup where
  B : BandView
  toState : Nat → Nat
  numChemPots : Nat
  numTemps : Nat
  stat : Nat → CalcStat
  numPoints : Nat
  volume : ℝ
  crt : Option ℝ
  omega : Bool
  diag : Nat → Nat → ℝ

/-- `statisticsSweep.getNumCalculations()`. -/
def RtaSetup.numCalc (S : RtaSetup) : Nat := S.numChemPots * S.numTemps

/-- `excludeIndices`, src/bte/vector_bte.cpp L25-34: phonons below `cutoff`. -/
noncomputable def RtaSetup.excluded (S : RtaSetup) (cutoff : ℝ) : List Nat :=
  open Classical in (S.B.irr.filter fun is => decide (S.B.energy is < cutoff)).map S.B.toBte

/-- `BulkTDrift` and `BulkEDrift` with three components, src/bte/drift.cpp L3-59, on process `rank`. -/
noncomputable def RtaSetup.drift (S : RtaSetup) (dn : Nat → ℝ → ℝ) (exclude : List Nat) (size rank : Nat) : VBte ℝ where
  numChemPots := S.numChemPots
  numTemps := S.numTemps
  dim := 3
  numStates := S.B.irr.length
  data row b := (bulkDrift S.B size dn (row / 3) ⟨row % 3, Nat.mod_lt _ (by decide)⟩).getD rank (fun _ => 0) b
  exclude := exclude

/-- `getSingleModeTimes()`, src/bte/scattering.cpp L484-527; `s` is the statistics of the particle. -/
noncomputable def RtaSetup.times (S : RtaSetup) (s : Statistics) (exclude : List Nat) : VBte ℝ where
  numChemPots := S.numChemPots
  numTemps := S.numTemps
  dim := 1
  numStates := S.B.irr.length
  data c b := timesOf S.crt S.omega
    (fun c b => getPopPopPm1 s (S.B.energy (S.toState b)) (S.stat c).temp (S.stat c).chemPot) S.diag c b
  exclude := exclude

/-- The elements of the tensors of all the calculations. -/
def elementsOf3 (f : Nat → Mat3) : Nat → Nat → Nat → ℝ :=
  fun k i j => if h : i < 3 ∧ j < 3 then f k ⟨i, h.1⟩ ⟨j, h.2⟩ else 0

/-- src/apps/phonon_transport_app.cpp L120-134: what process `rank` writes on the terminal (L133) and in
`rta_phonon_thermal_cond.json` (L134).  The title of the table is that of src/observable/phonon_thermal_cond.cpp L456. -/
noncomputable def phononRta (S : RtaSetup) (u : ReportUnits) (cutoff thickness : ℝ) (d : Nat)
    (junk : Nat → Nat → Mat3 → Vec3) (size : Nat) (sched : Nat → List (List Nat)) (rank : Nat) :
    Outcome (List Line × Option PhononFile) := do
  let exclude := S.excluded cutoff
  let drift := S.drift (fun c e => getDndt .bose e (S.stat c).temp (S.stat c).chemPot false) exclude size 0
  let times := S.times .bose exclude
  let pop ← drift.baseOperator (· * ·) times
  let out ← phCalcFromPopulation S.B d S.numPoints S.volume pop junk size sched
  let kappa := elementsOf3 (out.getD rank 0)
  let conv := phCondConversion u.si d thickness
  let temp := fun c => (S.stat c).temp
  .ok (phononPrint (rank == 0) "Thermal Conductivity" u d S.numCalc conv temp kappa,
    phononFile (rank == 0) u d S.numCalc conv temp kappa)

/-- The tensors of `OnsagerCoefficients` of all the calculations. -/
def onsagerElements (f : Nat → TransportCoefficients 3) : OnsagerTensors where
  sigma := elementsOf3 fun k => (f k).sigma
  mobility := elementsOf3 fun k => (f k).mobility
  kappa := elementsOf3 fun k => (f k).kappa
  seebeck := elementsOf3 fun k => (f k).seebeck

/-- src/apps/electron_wannier_transport_app.cpp L91-101: what process `rank` writes on the terminal (L100) and in
`rta_onsager_coefficients.json` (L101).  `spin` is `spinFactor`, `toCm` is `distanceBohrToCm`. -/
noncomputable def electronRta (S : RtaSetup) (u : ReportUnits) (spin toCm : ℝ) (d : Nat) (size : Nat)
    (sched : Nat → List (List Nat)) (rank : Nat) : Outcome (List Line × Option OnsagerFile) := do
  let driftE := S.drift (fun c e => getDnde .fermi e (S.stat c).temp (S.stat c).chemPot false) [] size 0
  let driftT := S.drift (fun c e => getDndt .fermi e (S.stat c).temp (S.stat c).chemPot false) [] size 0
  let times := S.times .fermi []
  let nE ← (driftE.mapData (- ·)).baseOperator (· * ·) times
  let nT ← (driftT.mapData (- ·)).baseOperator (· * ·) times
  let out ← onsagerFromPopulation S.B d S.numPoints S.volume spin toCm nE nT S.stat size sched
  let t := onsagerElements (out.getD rank fun _ => ⟨0, 0, 0, 0⟩)
  .ok (onsagerPrint (rank == 0) u d S.numCalc S.stat t, onsagerFile (rank == 0) u d S.numCalc S.stat t)

end Verif.Model
