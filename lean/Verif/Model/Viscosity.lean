import Verif.Model.Transport
import Mathlib.Algebra.Order.Monoid.Unbundled.WithTop

/-!
# Viscosities

src/observable/phonon_viscosity.cpp, electron_viscosity.cpp, viscosity_io.cpp.  Numbers of type `double` are real numbers
(exact arithmetic).  Elements of the tensors exist for indices below the dimensionality.
-/
namespace Verif.Model

/-- `tensordxdxdxd`, for one calculation. -/
abbrev Tensor4 := Fin 3 → Fin 3 → Fin 3 → Fin 3 → ℝ

/-- What the viscosities read besides `BandView`: `getWavevector`, in Cartesian coordinates, and `bzToWs`. -/
structure WaveView where
  wave : Nat → Vec3
  fold : Vec3 → Vec3

/-! ## Relaxation time approximation -/

/-- The loop over the star of a state, src/observable/phonon_viscosity.cpp L52-75 and electron_viscosity.cpp L50-73. -/
noncomputable def viscStar (B : BandView) (Q : WaveView) (st : Statistics) (temp mu norm tau : ℝ) (is : Nat) : Tensor4 :=
  ((B.rots is).map fun rotation =>
    let q := Q.fold (matVec rotation (Q.wave is))
    let vel := matVec rotation (B.vel is)
    let pop := getPopPopPm1 st (B.energy is) temp mu
    (fun i j k l => q i * vel j * q k * vel l * pop * tau / temp * norm : Tensor4)).sum

/-- The contribution of a phonon state, src/observable/phonon_viscosity.cpp L34-76; `cutoff` is `0.001 / ryToCmm1`. -/
noncomputable def phViscTerm (B : BandView) (Q : WaveView) (cutoff norm : ℝ) (stat : Nat → CalcStat) (exclude : List Nat)
    (tau : Nat → Nat → ℝ) (iCalc is : Nat) : Tensor4 :=
  if B.toBte is ∈ exclude then 0
  else if B.energy is < cutoff then 0
  else viscStar B Q .bose (stat iCalc).temp 0 norm (tau iCalc (B.toBte is)) is

/-- `PhononViscosity::calcRTA`, src/observable/phonon_viscosity.cpp L19-78: the tensor on every process. -/
noncomputable def phViscosityRta (B : BandView) (Q : WaveView) (cutoff volume : ℝ) (numPoints : Nat) (stat : Nat → CalcStat)
    (exclude : List Nat) (tau : Nat → Nat → ℝ) (size : Nat) (sched : Nat → List (List Nat)) : List (Nat → Tensor4) :=
  stateSum size sched (phViscTerm B Q cutoff (1 / numPoints / volume) stat exclude tau)

/-- The contribution of an electron state, src/observable/electron_viscosity.cpp L40-74. -/
noncomputable def elViscTerm (B : BandView) (Q : WaveView) (norm : ℝ) (stat : Nat → CalcStat) (tau : Nat → Nat → ℝ)
    (iCalc is : Nat) : Tensor4 :=
  viscStar B Q .fermi (stat iCalc).temp (stat iCalc).chemPot norm (tau iCalc (B.toBte is)) is

/-- `ElectronViscosity::calcRTA`, src/observable/electron_viscosity.cpp L25-76: the tensor on every process. -/
noncomputable def elViscosityRta (B : BandView) (Q : WaveView) (spin volume : ℝ) (numPoints : Nat) (stat : Nat → CalcStat)
    (tau : Nat → Nat → ℝ) (size : Nat) (sched : Nat → List (List Nat)) : List (Nat → Tensor4) :=
  stateSum size sched (elViscTerm B Q (spin / numPoints / volume) stat tau)

/-! ## Special eigenvectors -/

/-- Whether the loops skip state `is`, src/observable/viscosity_io.cpp L117, L154 and L172. -/
noncomputable def specialSkip (B : BandView) (st : Statistics) (cutoff : ℝ) (is : Nat) : Bool :=
  open Classical in decide (st = .bose ∧ B.energy is < cutoff)

/-- The sum over the states of all the processes followed by `allReduceSum`, that every process holds, of `term` over the
states that are not skipped: `C`, `U` and `A`, src/observable/viscosity_io.cpp L111-134 and L149-162. -/
noncomputable def specialSum (B : BandView) (st : Statistics) (cutoff : ℝ) (numStates size : Nat) (term : Nat → ℝ) : ℝ :=
  ((List.range size).map fun r => ((sliceOf (List.range numStates) r size).map fun is =>
    if specialSkip B st cutoff is then 0 else term is).sum).sum

/-- A number that the code multiplies by `1. / sqrt(norm)`: infinite or not a number if `norm` is zero. -/
noncomputable def rescale (norm x : ℝ) : WithTop ℝ := if norm = 0 then ⊤ else ((x * (1 / Real.sqrt norm) : ℝ) : WithTop ℝ)

/-- The results of `genericCalcSpecialEigenvectors`, on every process. -/
structure SpecialVectors where
  theta0 : Nat → WithTop ℝ
  thetaE : Nat → WithTop ℝ
  phi : Fin 3 → Nat → WithTop ℝ
  heat : ℝ
  momentum : Fin 3 → ℝ

/-- `genericCalcSpecialEigenvectors`, src/observable/viscosity_io.cpp L62-184.  `numPts` is `getPoints().getNumPoints()`,
`kB` the Boltzmann constant `kBoltzmannRy`.  Each state is assigned by the process that owns it and summed with the zeros of
the others, so that every process holds the value.  The chemical potential of phonons is zero, L79-87. -/
noncomputable def specialVectors (B : BandView) (Q : WaveView) (st : Statistics) (cutoff volume spin kB : ℝ) (d numPts numStates : Nat)
    (stat : CalcStat) (size : Nat) : SpecialVectors :=
  let kBT := stat.temp
  let T := stat.temp / kB
  let mu := match st with | .bose => 0 | .fermi => stat.chemPot
  let pop := fun is => getPopPopPm1 st (B.energy is) kBT mu
  let C := specialSum B st cutoff numStates size (fun is => pop is * (B.energy is - mu) * (B.energy is - mu)) *
    (spin / (volume * numPts * kBT * T))
  let U := match st with
    | .bose => 1
    | .fermi => specialSum B st cutoff numStates size pop * (spin / (volume * numPts * kBT))
  let A : Fin 3 → ℝ := fun i => if i.val < d then
      specialSum B st cutoff numStates size (fun is => pop is * Q.fold (Q.wave is) i * Q.fold (Q.wave is) i) *
        (spin / (kBT * numPts * volume))
    else 0
  { theta0 := fun is => rescale (kBT * T * volume * numPts * C)
      (if specialSkip B st cutoff is then 0 else Real.sqrt (pop is) * (B.energy is - mu) * Real.sqrt spin)
    thetaE := fun is => rescale (kBT * U * numPts * volume)
      (match st with | .bose => 0 | .fermi => Real.sqrt (pop is) * Real.sqrt spin)
    phi := fun i is => if i.val < d then rescale (kBT * volume * numPts * A i)
      (if specialSkip B st cutoff is then 0 else Q.fold (Q.wave is) i * Real.sqrt (pop is) * Real.sqrt spin) else 0
    heat := C
    momentum := A }

/-! ## Relaxons -/

/-- `eigenvectors.getAllLocalStates()`: the pairs (state, relaxon) that each process owns. -/
abbrev LocalPairs := Nat → List (Nat × Nat)

/-- The products of a special eigenvector with the relaxons, src/observable/viscosity_io.cpp L15-27, after
`allReduceSum`: undefined if a process owns a relaxon that does not exist among the `numRelaxons` calculated ones. -/
def overlaps (numRelaxons size : Nat) (locals : LocalPairs) (theta : Nat → Nat → ℝ) (x : Nat → ℝ) : Outcome (Nat → ℝ) :=
  if ∃ r ∈ List.range size, ∃ p ∈ locals r, numRelaxons ≤ p.2 then .ub
  else .ok fun g => ((List.range size).map fun r =>
    (((locals r).filter fun p => p.2 = g).map fun p => theta p.1 p.2 * x p.1).sum).sum

/-- `maxCoeff(&index)`: the first index with the largest value. -/
noncomputable def argMax (n : Nat) (y : Nat → ℝ) : Nat :=
  open Classical in (List.range n).foldl (fun best k => if y best < y k then k else best) 0

/-- `genericRelaxonEigenvectorsCheck`, src/observable/viscosity_io.cpp L9-60, one of the two indices (`none` is -1).  The head
prints ten products, L42 and L46, whatever their number; `maxCoeff` needs at least one. -/
noncomputable def specialIndex (numRelaxons size : Nat) (locals : LocalPairs) (theta : Nat → Nat → ℝ) (x : Nat → ℝ) :
    Outcome (Option Nat) := do
  let prod ← overlaps numRelaxons size locals theta x
  if numRelaxons < 10 then .ub
  else
    let idx := argMax numRelaxons (fun g => |prod g|)
    return open Classical in if 0.75 ≤ |prod idx| then some idx else none

/-- `w(i, j, ialpha)` of the phonons, src/observable/phonon_viscosity.cpp L127-170. -/
noncomputable def phRelaxonW (vel : Nat → Vec3) (phi : Fin 3 → Nat → ℝ) (theta : Nat → Nat → ℝ) (numRelaxons size : Nat)
    (locals : LocalPairs) (i j : Fin 3) (alpha : Nat) : ℝ :=
  ((List.range size).map fun r =>
    (((locals r).filter fun p => p.2 < numRelaxons ∧ p.2 = alpha).map fun p =>
      (phi j p.1 * vel p.1 i) * theta p.1 p.2).sum).sum

/-- The contribution of a relaxon, src/observable/phonon_viscosity.cpp L184-209. -/
noncomputable def phRelaxonTerm (w : Fin 3 → Fin 3 → Nat → ℝ) (A : Fin 3 → ℝ) (eig : Nat → ℝ) (alpha0 : Option Nat)
    (alpha : Nat) : Tensor4 := fun i j k l =>
  open Classical in
  if eig alpha ≤ 0 then 0
  else if alpha0 = some alpha then 0
  else 0.5 * (w i j alpha * w k l alpha + w i l alpha * w k j alpha) * Real.sqrt (A i * A k) / eig alpha

/-- `PhononViscosity::calcFromRelaxons` after `relaxonEigenvectorsCheck`, src/observable/phonon_viscosity.cpp L127-213: the
tensor on every process. -/
noncomputable def phViscosityRelaxons (vel : Nat → Vec3) (phi : Fin 3 → Nat → ℝ) (A : Fin 3 → ℝ) (theta : Nat → Nat → ℝ)
    (eig : Nat → ℝ) (alpha0 : Option Nat) (numRelaxons size : Nat) (locals : LocalPairs) (sched : Nat → List (List Nat)) :
    List (Nat → Tensor4) :=
  stateSum size sched fun _ =>
    phRelaxonTerm (phRelaxonW vel phi theta numRelaxons size locals) A eig alpha0

/-- Whether `ElectronViscosity::calcFromRelaxons` skips relaxon `alpha`, src/observable/electron_viscosity.cpp L122-123 and
L149-150. -/
noncomputable def elSkip (eig : Nat → ℝ) (alpha0 alphaE : Option Nat) (alpha : Nat) : Bool :=
  open Classical in decide (eig alpha ≤ 0 ∨ alpha0 = some alpha ∨ alphaE = some alpha)

/-- `fRelaxons(k, l, alpha)`, src/observable/electron_viscosity.cpp L114-138. -/
noncomputable def elRelaxonPop (vel k : Nat → Vec3) (pop : Nat → ℝ) (kBT : ℝ) (theta : Nat → Nat → ℝ) (eig : Nat → ℝ)
    (alpha0 alphaE : Option Nat) (size : Nat) (locals : LocalPairs) (a b : Fin 3) (alpha : Nat) : ℝ :=
  ((List.range size).map fun r =>
    (((locals r).filter fun p => !elSkip eig alpha0 alphaE p.2 && p.2 = alpha).map fun p =>
      k p.1 a * vel p.1 b * Real.sqrt (pop p.1) / kBT / eig p.2 * theta p.1 p.2).sum).sum

/-- `f(i, j, is)`, src/observable/electron_viscosity.cpp L142-158. -/
noncomputable def elStatePop (fRel : Fin 3 → Fin 3 → Nat → ℝ) (theta : Nat → Nat → ℝ) (eig : Nat → ℝ)
    (alpha0 alphaE : Option Nat) (size : Nat) (locals : LocalPairs) (a b : Fin 3) (is : Nat) : ℝ :=
  ((List.range size).map fun r =>
    (((locals r).filter fun p => !elSkip eig alpha0 alphaE p.2 && p.1 = is).map fun p =>
      theta p.1 p.2 * fRel a b p.2).sum).sum

/-- The contribution of a state, src/observable/electron_viscosity.cpp L164-183. -/
noncomputable def elRelaxonTerm (vel k : Nat → Vec3) (pop : Nat → ℝ) (norm : ℝ) (f : Fin 3 → Fin 3 → Nat → ℝ) (is : Nat) :
    Tensor4 := fun i j a b =>
  0.5 * pop is * norm * Real.sqrt (pop is) * (k is i * vel is j * f a b is + k is i * vel is b * f a j is)

/-- `ElectronViscosity::calcFromRelaxons` after `relaxonEigenvectorsCheck`, src/observable/electron_viscosity.cpp L114-185:
the tensor on every process.  `pop is` is `getPopPopPm1` and `k is` the folded wavevector of the state.  L122 and L149 read
`eigenvalues(alpha)` before they compare `alpha` with the number of relaxons. -/
noncomputable def elViscosityRelaxons (vel k : Nat → Vec3) (pop : Nat → ℝ) (kBT volume : ℝ) (numPoints : Nat)
    (theta : Nat → Nat → ℝ) (eig : Nat → ℝ) (alpha0 alphaE : Option Nat) (numStates numRelaxons size : Nat)
    (locals : LocalPairs) : Outcome (List (Nat → Tensor4)) :=
  if ∃ r ∈ List.range size, ∃ p ∈ locals r, numRelaxons ≤ p.2 then .ub
  else
    let fRel := elRelaxonPop vel k pop kBT theta eig alpha0 alphaE size locals
    let f := elStatePop fRel theta eig alpha0 alphaE size locals
    .ok (stateSum size (fun r => [sliceOf (List.range numStates) r size]) fun _ =>
      elRelaxonTerm vel k pop (1 / volume / numPoints) f)

/-! ## Quantities for the real-space solver -/

/-- `Du(i, j)`, src/observable/viscosity_io.cpp L337-357, before the conversion of units; `omega` is the scattering matrix and
`locals` the elements that each process owns. -/
def momentumDissipation (phi : Fin 3 → Nat → ℝ) (omega : Nat → Nat → ℝ) (size : Nat) (locals : LocalPairs) (i j : Fin 3) : ℝ :=
  ((List.range size).map fun r => ((locals r).map fun p => phi i p.1 * omega p.1 p.2 * phi j p.2).sum).sum

/-- `Wji0(j, i)` and `Wjie(j, i)`, src/observable/viscosity_io.cpp L359-376, before the conversion of units. -/
noncomputable def specialVelocity (B : BandView) (st : Statistics) (cutoff : ℝ) (numStates size : Nat) (phi : Fin 3 → Nat → ℝ)
    (theta : Nat → ℝ) (j i : Fin 3) : ℝ :=
  specialSum B st cutoff numStates size fun is => phi i is * B.vel is j * theta is

/-- `specificHeatConversion`, src/observable/viscosity_io.cpp L426: the same in all dimensions. -/
noncomputable def realSpaceHeatConversion (c : SiConstants) (kB : ℝ) : ℝ := c.boltzmann / c.bohr ^ 3 / kB

/-- `viscosityAuToSi`, src/constants/constants.h L66; `timeRy` is `hBarSi / rydbergSi`. -/
noncomputable def viscosityConversion (c : SiConstants) : ℝ :=
  1 / c.rydberg * c.hbar ^ 2 * (1 / c.bohr ^ 3) * (1 / (c.hbar / c.rydberg))

end Verif.Model
