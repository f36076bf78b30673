import Verif.Model.ActiveStore
import Verif.Model.Times
import Verif.Model.Crystal
import Mathlib.Data.Complex.Basic

/-!
# The file of relaxation times: `ScatteringMatrix::outputToJSON`, src/bte/scattering.cpp L639-814

The lists written to the file are nested in the order calculation, irreducible wavevector, band (and direction).
-/
namespace Verif.Model

/-- Units of the file: constants of src/constants/constants.h (`temperatureAuToSi`, `velocityRyToSi` are parameters). -/
structure FileUnits where
  time : TimeConstants
  temperatureAuToSi : ℝ
  velocityRyToSi : ℝ

/-- What the function reads: the active band structure (array sizes, irreducible points, arrays, Cartesian wavevectors, cell),
the calculations (temperature, chemical potential, doping), and a row per calculation of relaxation times and linewidths
(`getSingleModeTimes()`, `getLinewidths()`), as well as those of normal and umklapp processes if `outputUNTimes`. -/
structure TimesInput where
  layout : ActiveLayout
  irr : IrrPoints
  arrays : ActiveArrays ℝ ℂ
  wavevector : Nat → Vec3
  cell : Cell
  isElectron : Bool
  calcs : List (ℝ × ℝ × ℝ)
  times : Nat → List ℝ
  linewidths : Nat → List ℝ
  normalUmklapp : Option ((Nat → List ℝ) × (Nat → List ℝ))

/-- The two loops over irreducible points and bands, src/bte/scattering.cpp L706-741 (L753-768); `f is iBte` is what is
appended for a band. -/
def stateLists {β : Type} (B : ActiveLayout) (s : IrrPoints) (f : Nat → Nat → Outcome β) : Outcome (List (List β)) :=
  mapOutcome (fun ik => mapOutcome (fun ib => do
    let iBte ← B.stateToBte s (B.bloch2Comb ik ib)
    f (B.bloch2Comb ik ib) iBte) (List.range (B.numBands ik))) (s.irrPointsIterator B.numPoints)

/-- The contents of the file, L786-809. -/
structure TimesOutput where
  temperatures : List ℝ
  chemicalPotentials : List ℝ
  dopings : Option (List ℝ)
  linewidths : List (List (List ℝ))
  relaxationTimes : List (List (List ℝ))
  normalUmklapp : Option (List (List (List ℝ)) × List (List (List ℝ)))
  velocities : List (List (List (List ℝ)))
  energies : List (List (List ℝ))
  wavevectors : List Vec3

/-- The lists of one quantity for all calculations. -/
def calcLists {β : Type} (I : TimesInput) (f : Nat → Nat → Nat → Outcome β) : Outcome (List (List (List β))) :=
  mapOutcome (fun c => stateLists I.layout I.irr (f c)) (List.range I.calcs.length)

/-- One element of a row, converted. -/
def readScaled (row : List ℝ) (g : ℝ → ℝ) (i : Nat) : Outcome ℝ := do
  let x ← readAt row i
  .ok (g x)

/-- `energies` of one calculation, L720-722. -/
noncomputable def fileEnergy (u : FileUnits) (I : TimesInput) (is : Nat) : Outcome ℝ := do
  let e ← I.arrays.getEnergy is
  .ok (printedLinewidth u.time I.isElectron e)

/-- `velocities` of one calculation, L721 and L729-734. -/
noncomputable def fileVelocity (u : FileUnits) (I : TimesInput) (is : Nat) : Outcome (List ℝ) := do
  let v ← I.arrays.getGroupVelocity I.layout Complex.re is
  mapOutcome (fun i => readScaled v (fun x => x * u.velocityRyToSi) i) [0, 1, 2]

/-- Normal and umklapp times, L746-774. -/
noncomputable def fileUN (u : FileUnits) (I : TimesInput) :
    Option ((Nat → List ℝ) × (Nat → List ℝ)) → Outcome (Option (List (List (List ℝ)) × List (List (List ℝ))))
  | none => .ok none
  | some (n, um) => do
    let ln ← calcLists I fun c _ iBte => readScaled (n c) (printedTime u.time I.isElectron) iBte
    let lu ← calcLists I fun c _ iBte => readScaled (um c) (printedTime u.time I.isElectron) iBte
    .ok (some (ln, lu))

/-- `outputToJSON` on the head process, src/bte/scattering.cpp L639-814 (names of units and of the particle, which depend on
`isElectron` only, are left out). -/
noncomputable def timesFile (u : FileUnits) (I : TimesInput) : Outcome TimesOutput := do
  let t ← calcLists I fun c _ iBte => readScaled (I.times c) (printedTime u.time I.isElectron) iBte
  let l ← calcLists I fun c _ iBte => readScaled (I.linewidths c) (printedLinewidth u.time I.isElectron) iBte
  let v ← calcLists I fun _ is _ => fileVelocity u I is
  let e ← calcLists I fun _ is _ => fileEnergy u I is
  let un ← fileUN u I I.normalUmklapp
  .ok { temperatures := I.calcs.map fun x => x.1 * u.temperatureAuToSi
        chemicalPotentials := I.calcs.map fun x => if I.isElectron then x.2.1 * energyRyToEvOf u.time else 0
        dopings := if I.isElectron then some (I.calcs.map fun x => x.2.2) else none
        linewidths := l, relaxationTimes := t, normalUmklapp := un, velocities := v, energies := e
        wavevectors := (I.irr.irrPointsIterator I.layout.numPoints).map fun ik => I.cell.cartesianToCrystal (I.wavevector ik) }

end Verif.Model
