import Verif.Model.Crystal
import Verif.Model.Points
import Mathlib.Analysis.SpecialFunctions.Complex.Circle
import Mathlib.Data.Matrix.Mul

/-!
# Fourier interpolation of electron bands

src/harmonic/electron_h0_fourier.cpp.  Numbers are reals and complex numbers (no rounding).  The solution of the linear
system by `Eigen::LDLT` is the parameter `solve`.  The bands of the coarse grid are not distributed over processes (the
parser makes them so, src/parser/qe_input_parser.cpp L778).  The distribution of the bands over processes in the
constructor, L67-72, is the pattern of C11 and is not repeated here.
-/

namespace Verif.Model

/-- A lattice vector and its degeneracy: a column of `positionVectors` and an element of `positionDegeneracies`. -/
abbrev RVec := Vec3 × Nat

/-- The lattice vectors of the interpolation. -/
structure FourierVectors where
  vecs : List RVec
  minDistance : ℝ

/-- `minDistance`, src/harmonic/electron_h0_fourier.cpp L309-315. -/
noncomputable def fourierMinDistance (d : Mat3) (vecs : List RVec) : ℝ :=
  (vecs.drop 1).foldl (fun m p => if vnorm p.1 < m then vnorm p.1 else m) (vnorm fun i => d i 0)

/-- `ElectronH0Fourier::setPositionVectors`, src/harmonic/electron_h0_fourier.cpp L180-316.  The search of L220-279 is
that of `Crystal::buildWignerSeitzVectors` (`wsCollect`), without the test of the sum of weights; `originIndex` starts
from zero.  The conversion of a large `cutoff` to `int` is undefined; the products with `grid` are assumed to fit. -/
noncomputable def setPositionVectors (d : Mat3) (grid : V3 Int) (cutoff : ℝ) : Outcome FourierVectors :=
  if cutoff ≥ 2147483648 then .ub
  else if cutoff < 1 then .error
  else do
    let searchSize := ⌊cutoff⌋
    let distDim := ((searchSize + 1) * 2 + 1) * ((searchSize + 1) * 2 + 1) * ((searchSize + 1) * 2 + 1)
    let l ← wsCollect d grid searchSize 0 (distDim.toNat / 2) (wsBox grid searchSize)
    let k := (originIndex (l.map Prod.fst)).getD 0
    let vecs ← swapFirst (l.map fun p => (matVec d (toVec p.1), p.2)) k
    .ok ⟨vecs, fourierMinDistance d vecs⟩

/-- `ElectronH0Fourier::getRoughnessFunction`, src/harmonic/electron_h0_fourier.cpp L154-159;
src/harmonic/electron_h0_fourier.h L114-115. -/
noncomputable def roughness (minDistance : ℝ) (position : Vec3) : ℝ :=
  (1 - 0.75 * vnorm position / minDistance) ^ 2 + 0.75 * (vnorm position / minDistance) ^ 6

/-- `ElectronH0Fourier::getStarFunction`, src/harmonic/electron_h0_fourier.cpp L161-167. -/
noncomputable def starFunction (k : Vec3) (p : RVec) : ℂ :=
  Complex.exp (Complex.I * (vdot k p.1 : ℝ)) / (p.2 : ℂ)

/-- `ElectronH0Fourier::getDerivativeStarFunction`, src/harmonic/electron_h0_fourier.cpp L169-178. -/
noncomputable def starDerivative (k : Vec3) (p : RVec) (i : Fin 3) : ℂ :=
  Complex.I * (p.1 i : ℝ) * Complex.exp (Complex.I * (vdot k p.1 : ℝ)) / (p.2 : ℂ)

/-- The library: the solution of a linear system. -/
abbrev LinearSolver := (n : Nat) → Matrix (Fin n) (Fin n) ℂ → (Fin n → ℂ) → Fin n → ℂ

/-- `h` of src/harmonic/electron_h0_fourier.cpp L342-364; `k` are the wavevectors of the coarse grid. -/
noncomputable def fourierH (minDistance : ℝ) (vecs : List RVec) {n : Nat} (k : Fin (n + 1) → Vec3) :
    Matrix (Fin n) (Fin n) ℂ := fun i j =>
  vecs.foldl (fun h p => h + (starFunction (k i.succ) p - starFunction (k 0) p) *
    (starRingEnd ℂ) (starFunction (k j.succ) p - starFunction (k 0) p) / (roughness minDistance p.1 : ℂ)) 0

/-- `ElectronH0Fourier::getLagrangeMultipliers`, src/harmonic/electron_h0_fourier.cpp L318-370. -/
noncomputable def getLagrangeMultipliers (solve : LinearSolver) (v : FourierVectors) {n : Nat}
    (k : Fin (n + 1) → Vec3) (energies : Fin (n + 1) → ℝ) : Fin n → ℂ :=
  solve n (fourierH v.minDistance v.vecs k) fun i => ((energies i.succ - energies 0 : ℝ) : ℂ)

/-- `ElectronH0Fourier::getCoefficients`, src/harmonic/electron_h0_fourier.cpp L372-400. -/
noncomputable def getCoefficients (solve : LinearSolver) (v : FourierVectors) {n : Nat}
    (k : Fin (n + 1) → Vec3) (energies : Fin (n + 1) → ℝ) : Outcome (List ℂ) :=
  match v.vecs with
  | [] => .ub
  | _ :: rest =>
    let multipliers := getLagrangeMultipliers solve v k energies
    let cs := rest.map fun p => (List.finRange n).foldl (fun c i => c + multipliers i *
      (starRingEnd ℂ) (starFunction (k i.succ) p - starFunction (k 0) p)) 0 / (roughness v.minDistance p.1 : ℂ)
    .ok ((cs.zip rest).foldl (fun c q => c - q.1 * starFunction (k 0) q.2) (energies 0 : ℂ) :: cs)

/-- `ElectronH0Fourier::getEnergyFromCoordinates`, src/harmonic/electron_h0_fourier.cpp L402-411. -/
noncomputable def fourierEnergy (vecs : List RVec) (coefficients : List ℂ) (k : Vec3) : ℝ :=
  (coefficients.zip vecs).foldl (fun e q => e + (q.1 * starFunction k q.2).re) 0

/-- `ElectronH0Fourier::getGroupVelocityFromCoordinates`, src/harmonic/electron_h0_fourier.cpp L413-423. -/
noncomputable def fourierVelocity (vecs : List RVec) (coefficients : List ℂ) (k : Vec3) : Vec3 := fun i =>
  (coefficients.zip vecs).foldl (fun v q => v + (q.1 * starDerivative k q.2 i).re) 0

/-- `ElectronH0Fourier::diagonalizeFromCoordinates` and `diagonalizeVelocityFromCoordinates`,
src/harmonic/electron_h0_fourier.cpp L90-125; `coefficients` has a row for each band. -/
noncomputable def fourierDiagonalize {B : Nat} (vecs : List RVec) (coefficients : Fin B → List ℂ) (k : Vec3) :
    (Fin B → ℝ) × (Fin B → Fin B → Fin 3 → ℂ) :=
  (fun b => fourierEnergy vecs (coefficients b) k,
   fun b b' i => if b = b' then (fourierVelocity vecs (coefficients b) k i : ℂ) else 0)

/-- Crystal coordinates as reals. -/
noncomputable def realCoords (p : V3 Rat) : Vec3 := ![(p.x : ℝ), (p.y : ℝ), (p.z : ℝ)]

/-- The cartesian coordinates of the points of the coarse grid: `Points::getPointCoordinates`, src/points.cpp L230-240,
as read at src/harmonic/electron_h0_fourier.cpp L53-54, L344-350, L383-389. -/
noncomputable def coarseWavevector (cell : Cell) (grid : V3 Int) (offset : V3 Rat) (i : Nat) : Vec3 :=
  cell.crystalToCartesian (realCoords (meshCoordinates grid offset i))

/-- The constructor `ElectronH0Fourier::ElectronH0Fourier`, src/harmonic/electron_h0_fourier.cpp L45-75: the lattice
vectors and the coefficients of every band; `energies` are those of the coarse grid. -/
noncomputable def fourierSetup (solve : LinearSolver) (cell : Cell) (grid : V3 Int) (offset : V3 Rat) (cutoff : ℝ)
    {B n : Nat} (energies : Fin B → Fin (n + 1) → ℝ) : Outcome (FourierVectors × (Fin B → List ℂ)) := do
  let v ← setPositionVectors cell.direct grid cutoff
  let rows ← mapOutcome (fun b => getCoefficients solve v
    (fun i : Fin (n + 1) => coarseWavevector cell grid offset i.1) (energies b)) (List.finRange B)
  .ok (v, fun b => (rows[b.1]?).getD [])

/-! ## Bands in a window of energies -/

/-- `keepBand`, src/harmonic/electron_h0_fourier.cpp L14-20. -/
def keepBand {α : Type} [LE α] [DecidableLE α] (minEn maxEn : α) (bandEnergies : List α) : Bool :=
  bandEnergies.any fun x => decide (x ≥ minEn) && decide (x ≤ maxEn)

/-- `ElectronH0Fourier::trimBands`, src/harmonic/electron_h0_fourier.cpp L8-43.  `bands` has the energies and the row of
coefficients of every band; the result is the list of the rows that are kept, and the new number of occupied
states. -/
def trimBands {α β : Type} [Field α] [LE α] [DecidableLE α] (minEn maxEn : α) (hasSpinOrbit : Bool)
    (bands : List (List α × β)) (numOccupiedStates : α) : Outcome (List β × α) := do
  let retainBand := (List.range bands.length).filter fun ib =>
    keepBand minEn maxEn ((bands[ib]?.map Prod.fst).getD [])
  let rows ← mapOutcome (fun ib => (readAt bands ib).bind fun b => .ok b.2) retainBand
  let spinFactor : α := if hasSpinOrbit then 1 else 2
  let first ← readAt retainBand 0
  .ok (rows, numOccupiedStates - (first : α) * spinFactor)

end Verif.Model
