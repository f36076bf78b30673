import Verif.Model.EpaRates
import Verif.Model.RtaRun
import Verif.Model.DosApp

/-!
# The application of the electron-phonon averaged approximation: src/apps/transport_epa_app.cpp

From the band structure and the averaged coupling to the three files, on all processes, in three dimensions.
-/
namespace Verif.Model

/-- What `TransportEpaApp::run` works with: `fermiLevel`, `epaEnergyRange` and `epaEnergyStep` of the input, the file of
the coupling (`phEnergies`, `elEnergies`, `average`), the volume of the cell, `hasSpinOrbit`, the band structure,
`tetrahedrons.getSmearing(e, is)` as `delta is e`, the number of wavevectors, the statistics sweep and
`constantRelaxationTime`. -/
structure EpaApp where
  fermiLevel : ℝ
  range : ℝ
  step : ℝ
  phEnergies : List ℝ
  elEnergies : List ℝ
  average : Nat → Nat → Nat → ℝ
  volume : ℝ
  spinOrbit : Bool
  B : BandView
  delta : Nat → ℝ → ℝ
  numPoints : Nat
  numCalc : Nat
  stat : Nat → CalcStat
  crt : Option ℝ

/-- The mesh of `n` energies, src/apps/transport_epa_app.cpp L28-40, with what the functions of the app read. -/
noncomputable def EpaApp.setup (A : EpaApp) (n : Nat) : EpaSetup where
  minEnergy := A.fermiLevel - A.range
  step := A.step
  numEnergies := n
  phEnergies := A.phEnergies
  elEnergies := A.elEnergies
  average := A.average
  volume := A.volume
  spinOrbit := A.spinOrbit

/-- `spinFactor`, src/observable/onsager.cpp L20-26. -/
noncomputable def EpaApp.spinFactor (A : EpaApp) : ℝ := if A.spinOrbit then 1 else 2

/-- The file of the relaxation times, src/apps/transport_epa_app.cpp L361-375. -/
structure EpaTimesFile where
  temperatures : List ℝ
  temperatureUnit : String
  chemPots : List ℝ
  chemPotUnit : String
  dopings : List ℝ
  dopingUnit : String
  linewidths : List (List ℝ)
  linewidthUnit : String
  times : List (List ℝ)
  timeUnit : String
  energies : List (List ℝ)
  energyUnit : String
  particle : String

/-- `TransportEpaApp::outputToJSON`, src/apps/transport_epa_app.cpp L305-379, on the head (L310-312: the others return). -/
noncomputable def epaTimesFile (k : TimeConstants) (u : ReportUnits) (numCalc numEnergies : Nat) (stat : Nat → CalcStat)
    (energies : Nat → ℝ) (rates : Nat → Nat → ℝ) : EpaTimesFile where
  temperatures := jsonList numCalc fun c => (stat c).temp * u.temperature
  temperatureUnit := "K"
  chemPots := jsonList numCalc fun c => (stat c).chemPot * energyRyToEvOf k
  chemPotUnit := "eV"
  dopings := jsonList numCalc fun c => (stat c).doping
  dopingUnit := "cm$^{-" ++ toString 3 ++ "}$"
  linewidths := jsonList numCalc fun c => jsonList numEnergies fun i => (printedEpa k (rates c i)).2
  linewidthUnit := "eV"
  times := jsonList numCalc fun c => jsonList numEnergies fun i => (printedEpa k (rates c i)).1
  timeUnit := "fs"
  energies := jsonList numCalc fun _ => jsonList numEnergies fun i => energies i * energyRyToEvOf k
  energyUnit := "eV"
  particle := "electron"

/-- What one process leaves: `epa_dos.json`, `epa_relaxation_times.json`, the tables on the terminal and
`epa_onsager_coefficients.json`. -/
structure EpaOutput where
  dos : Option DosFile
  times : Option EpaTimesFile
  terminal : List Line
  file : Option OnsagerFile

/-- `TransportEpaApp::run`, src/apps/transport_epa_app.cpp L28-40 and L67-100, on process `rank` of `size`.
Simplifications: the velocities and the density of states are those of process `rank` on all the processes (they are the
same, C134); the messages of progress are left out; the files are returned at the end of the run. -/
noncomputable def epaApp (A : EpaApp) (k : TimeConstants) (u : ReportUnits) (toCm : ℝ) (size rank : Nat) :
    Outcome EpaOutput := do
  let n ← epaNumEnergies A.fermiLevel A.range A.step
  let energies := epaEnergy (A.setup n)
  let vd ← epaVelocity A.B A.delta 3 A.numPoints A.volume energies n size
  let v := vd.1.getD rank 0
  let dos := (List.range n).map (vd.2.getD rank 0)
  let rates ← mapOutcome (fun c => epaRates (A.setup n) A.crt dos (A.stat c).temp (A.stat c).chemPot size)
    (List.range A.numCalc)
  let rate := fun c => (rates.getD c []).getD rank 0
  let coeff ← mapOutcome (fun c => onsagerFromEPA 3 n energies (fun a b i => v i a b) (rate c) (A.stat c) A.spinFactor toCm)
    (List.range A.numCalc)
  let t := onsagerElements fun c => coeff.getD c ⟨0, 0, 0, 0⟩
  let isHead := rank == 0
  .ok {
    dos := if isHead then some (dosFile k false ((List.range n).map energies, dos)) else none
    times := if isHead then some (epaTimesFile k u A.numCalc n A.stat energies rate) else none
    terminal := onsagerPrint isHead u 3 A.numCalc A.stat t
    file := onsagerFile isHead u 3 A.numCalc A.stat t }

end Verif.Model
