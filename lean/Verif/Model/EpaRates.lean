import Verif.Model.Epa
import Verif.Model.Transport
import Verif.Model.ScatMatrix
import Verif.Model.IrrPoints
import Mathlib.Analysis.SpecialFunctions.Trigonometric.Basic

/-!
# Transport in the electron-phonon averaged approximation: states and scattering rates

src/apps/transport_epa_app.cpp.  Numbers of type `double` are real numbers (exact arithmetic).
-/
namespace Verif.Model

/-- Conversion of a number to an integer type: towards zero. -/
noncomputable def truncInt (x : ℝ) : Int := if 0 ≤ x then ⌊x⌋ else ⌈x⌉

/-- What the functions of the application read: the mesh of energies (`minEnergy`, `energyStep`, `numEnergies`), the file
of the coupling (`phEnergies`, `elEnergies`, `average`), `getVolumeUnitCell` and `getHasSpinOrbit`. -/
structure EpaSetup where
  minEnergy : ℝ
  step : ℝ
  numEnergies : Nat
  phEnergies : List ℝ
  elEnergies : List ℝ
  average : Nat → Nat → Nat → ℝ
  volume : ℝ
  spinOrbit : Bool

/-- `numEnergies`, src/apps/transport_epa_app.cpp L28-34: a quotient by zero, or one that does not fit into the integer
type, is undefined. -/
noncomputable def epaNumEnergies (fermiLevel range step : ℝ) : Outcome Nat :=
  let minEnergy := fermiLevel - range
  let maxEnergy := fermiLevel + range
  if step = 0 then .ub
  else
    let n := truncInt ((maxEnergy - minEnergy) / step)
    if 0 ≤ n ∧ n < 18446744073709551616 then .ok n.toNat else .ub

/-- `energies(i)`, src/apps/transport_epa_app.cpp L36-40. -/
noncomputable def epaEnergy (s : EpaSetup) (i : Nat) : ℝ := ((i : ℝ) + 1 / 2) * s.step + s.minEnergy

/-- `dos(i)` with an index of type `int`: outside of the vector it is undefined. -/
def readDos (dos : List ℝ) (i : Int) : Outcome ℝ := if 0 ≤ i then readAt dos i.toNat else .ub

/-- `dosEmission` and `dosAbsorption` at energy `iEnergy` for a phonon of energy `omega`,
src/apps/transport_epa_app.cpp L242-258. -/
noncomputable def epaFinalDos (dos : List ℝ) (step omega : ℝ) (iEnergy : Nat) : Outcome (ℝ × ℝ) :=
  if step = 0 then .ub
  else do
    let iJump ← i32 (truncInt (omega / step))
    let iInterp := omega / step - iJump
    let largeIndex ← i32 (iEnergy + iJump + 1)
    let smallIndex ← i32 (iEnergy - iJump - 1)
    let dosEmission ←
      if 0 ≤ smallIndex then do
        let a ← readDos dos smallIndex
        let b ← readDos dos (iEnergy - iJump)
        .ok (a * iInterp + b * (1 - iInterp))
      else .ok 0
    let dosAbsorption ←
      if largeIndex < dos.length then do
        let a ← readDos dos (iEnergy + iJump)
        let b ← readDos dos largeIndex
        .ok (a * (1 - iInterp) + b * iInterp)
      else .ok 0
    .ok (dosEmission, dosAbsorption)

/-- The addend `norm * rate` of mode `nu` with energy `omega`, src/apps/transport_epa_app.cpp L222-223 and L242-289, for
one calculation. -/
noncomputable def epaModeRate (s : EpaSetup) (dos : List ℝ) (temp chemPot : ℝ) (iEnergy nu : Nat) (omega : ℝ) :
    Outcome ℝ := do
  let spinFactor : ℝ := if s.spinOrbit then 1 else 2
  let norm := 2 * Real.pi / spinFactor * s.volume
  let bose := getPopulation .bose omega temp 0
  let rho ← epaFinalDos dos s.step omega iEnergy
  let en := epaEnergy s iEnergy
  let gAbsorption ← epaCoupling s.elEnergies s.average nu en (en + omega)
  let gEmission ← epaCoupling s.elEnergies s.average nu en (en - omega)
  let nFermiAbsorption := getPopulation .fermi (en + omega) temp chemPot
  let nFermiEmission := getPopulation .fermi (en - omega) temp chemPot
  let rate := gAbsorption * (bose + nFermiAbsorption) * rho.2 + gEmission * (bose + 1 - nFermiEmission) * rho.1
  .ok (norm * rate)

/-- The loop over the modes, src/apps/transport_epa_app.cpp L237-291: element `iEnergy` of the rates. -/
noncomputable def epaRateAt (s : EpaSetup) (dos : List ℝ) (temp chemPot : ℝ) (iEnergy : Nat) : Outcome ℝ := do
  let terms ← mapOutcome (fun nu => epaModeRate s dos temp chemPot iEnergy nu (s.phEnergies.getD nu 0))
    (List.range s.phEnergies.length)
  .ok (terms.foldl (· + ·) 0)

/-- The vector of one process: zero but at its energies, src/apps/transport_epa_app.cpp L225-235.  Threads work on
different energies. -/
def fillShare {α : Type} [Zero α] [Add α] (f : Nat → Outcome α) (n rank size : Nat) : Outcome (Nat → α) := do
  let w ← divideWorkIter n rank size
  let vals ← mapOutcome f w
  .ok ((w.zip vals).foldl (fun data p => addAt data p.1 p.2) fun _ => 0)

/-- Fill and reduce: the vectors of all the processes. -/
def fillReduce {α : Type} [Zero α] [Add α] (f : Nat → Outcome α) (n size : Nat) : Outcome (List (Nat → α)) := do
  let parts ← mapOutcome (fun r => fillShare f n r size) (List.range size)
  .ok (allReduceSum1 parts)

/-- `TransportEpaApp::getScatteringRates`, src/apps/transport_epa_app.cpp L180-303, for one calculation on `size`
processes.  `crt` is the constant relaxation time of the input, if any (L187-194); `VectorEPA` refuses an empty mesh. -/
noncomputable def epaRates (s : EpaSetup) (crt : Option ℝ) (dos : List ℝ) (temp chemPot : ℝ) (size : Nat) :
    Outcome (List (Nat → ℝ)) :=
  if s.numEnergies = 0 then .error
  else
    match crt with
    | some t => if 0 < t then .ok (List.replicate size fun _ => 2 * Real.pi / t)
        else fillReduce (epaRateAt s dos temp chemPot) s.numEnergies size
    | none => fillReduce (epaRateAt s dos temp chemPot) s.numEnergies size

/-- The addend of one rotated velocity, src/apps/transport_epa_app.cpp L163-168. -/
def epaOuter (v : Vec3) (weight norm : ℝ) : Mat3 := fun i j => v i * v j * weight * norm

/-- `energyProjVelocity(i, j, iEnergy)`, src/apps/transport_epa_app.cpp L134 and L152-171.  `delta is e` is
`tetrahedrons.getSmearing(e, is)`. -/
noncomputable def epaVelocityAt (B : BandView) (delta : Nat → ℝ → ℝ) (dim numPoints : Nat) (volume : ℝ)
    (energies : Nat → ℝ) (iEnergy : Nat) : Mat3 :=
  let norm := (2 * Real.pi) ^ dim / volume / numPoints
  B.irr.foldl (fun acc is => (B.rots is).foldl (fun acc r =>
    acc + epaOuter (matVec r (B.vel is)) (delta is (energies iEnergy)) norm) acc) 0

/-- `dos(iEnergy)`, src/apps/transport_epa_app.cpp L135 and L152-160. -/
noncomputable def epaDosAt (B : BandView) (delta : Nat → ℝ → ℝ) (numPoints : Nat) (volume : ℝ)
    (energies : Nat → ℝ) (iEnergy : Nat) : ℝ :=
  let normDos := 1 / volume / numPoints
  B.irr.foldl (fun acc is => acc + delta is (energies iEnergy) * ((B.rots is).length : ℝ) * normDos) 0

/-- `TransportEpaApp::calcEnergyProjVelocity`, src/apps/transport_epa_app.cpp L117-178, on `size` processes. -/
noncomputable def epaVelocity (B : BandView) (delta : Nat → ℝ → ℝ) (dim numPoints : Nat) (volume : ℝ)
    (energies : Nat → ℝ) (numEnergies size : Nat) : Outcome (List (Nat → Mat3) × List (Nat → ℝ)) := do
  let v ← fillReduce (fun i => .ok (epaVelocityAt B delta dim numPoints volume energies i)) numEnergies size
  let d ← fillReduce (fun i => .ok (epaDosAt B delta numPoints volume energies i)) numEnergies size
  .ok (v, d)

end Verif.Model
