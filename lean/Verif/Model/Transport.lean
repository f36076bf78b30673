import Verif.Model.Crystal
import Verif.Model.Particle
import Verif.Model.VectorBte
import Mathlib.LinearAlgebra.Matrix.NonsingularInverse

/-!
# Transport coefficients from populations

src/bte/drift.cpp, src/observable/phonon_thermal_cond.cpp, onsager.cpp, specific_heat.cpp.
Numbers of type `double` are real numbers (exact arithmetic).  Vectors of the BTE are replicated on all the processes
(C47-C49), so that one copy is passed.
-/
namespace Verif.Model

/-- What the observables read of the band structure: `getEnergy`, `getGroupVelocity`, `stateToBte`,
`getRotationsStar` and `irrStateIterator`. -/
structure BandView where
  energy : Nat → ℝ
  vel : Nat → Vec3
  toBte : Nat → Nat
  rots : Nat → List Mat3
  irr : List Nat

/-- `CalcStatistics`, src/statistics_sweep.h: one calculation of the sweep. -/
structure CalcStat where
  temp : ℝ
  chemPot : ℝ
  doping : ℝ

/-! ## Sums over the states -/

/-- A loop over the states of a process whose threads add to private copies (`ScatterView`) that `contribute` then sums:
`threads` lists the states of each thread, in the order of execution. -/
def threadSum {α : Type} [Zero α] [Add α] (threads : List (List Nat)) (term : Nat → α) : α :=
  threads.foldl (fun acc chunk => acc + chunk.foldl (fun priv is => priv + term is) 0) 0

/-- The sum over the states of all the processes, then `allReduceSum`: the tensors of every process.  `sched r` is the
schedule of process `r`. -/
def stateSum {α : Type} [Zero α] [Add α] (size : Nat) (sched : Nat → List (List Nat)) (term : Nat → Nat → α) :
    List (Nat → α) :=
  allReduceSum1 ((List.range size).map fun r => fun iCalc => threadSum (sched r) (term iCalc))

/-! ## Drift vectors -/

/-- The assignments `operator()(iCalc, i, iBte) = …` of a process, src/bte/drift.cpp L13-27, on data that are zero. -/
noncomputable def assignStates (B : BandView) (states : List Nat) (val : Nat → ℝ) : Nat → ℝ :=
  states.foldl (fun data is => fun b => if b = B.toBte is then val is else data b) (fun _ => 0)

/-- `BulkTDrift`, src/bte/drift.cpp L3-29 (`dn` is `getDndt`), and `BulkEDrift`, L31-59 (`dn` is `getDnde`): element
`(iCalc, i, iBte)`, after `allReduceSum`, on every process. -/
noncomputable def bulkDrift (B : BandView) (size : Nat) (dn : Nat → ℝ → ℝ) (iCalc : Nat) (i : Fin 3) : List (Nat → ℝ) :=
  allReduceSum1 ((List.range size).map fun r =>
    assignStates B (sliceOf B.irr r size) fun is => dn iCalc (B.energy is) * B.vel is i)

/-! ## Phonon thermal conductivity -/

/-- The three components of the vector `x` of the BTE. -/
def vec3Of (x : VBte ℝ) (iCalc iBte : Nat) : Vec3 := fun i => x.get iCalc i iBte

/-- The local variable `Eigen::Vector3d nRot` after L100-103 of src/observable/phonon_thermal_cond.cpp: only the first
`d` components are assigned, the others keep the value `junk` found in memory. -/
def lowVec (d : Nat) (junk x : Vec3) : Vec3 := fun i => if i.val < d then x i else junk i

/-- The contribution of state `is`, src/observable/phonon_thermal_cond.cpp L82-112: element `(i, j)` of the tensor
exists only for `i, j < d` (it is zero in the model otherwise). -/
noncomputable def phTerm (B : BandView) (d : Nat) (norm : ℝ) (n : VBte ℝ) (junk : Nat → Nat → Mat3 → Vec3)
    (iCalc is : Nat) : Mat3 :=
  let en := B.energy is
  let velIrr := B.vel is
  let iBte := B.toBte is
  if iBte ∈ n.exclude then 0
  else
    ((B.rots is).map fun rot =>
      let vel := matVec rot velIrr
      let nRot := matVec rot (lowVec d (junk iCalc is rot) (vec3Of n iCalc iBte))
      (fun i j => if i.val < d ∧ j.val < d then nRot i * vel j * en * norm else 0 : Mat3)).foldr (· + ·) 0

/-- `PhononThermalConductivity::calcFromPopulation`, src/observable/phonon_thermal_cond.cpp L64-142: the tensors of every
process.  `volume` is `getVolumeUnitCell(dimensionality)`, `numPoints` the product of the mesh. -/
noncomputable def phTensor (B : BandView) (d numPoints : Nat) (volume : ℝ) (n : VBte ℝ) (junk : Nat → Nat → Mat3 → Vec3)
    (size : Nat) (sched : Nat → List (List Nat)) : List (Nat → Mat3) :=
  stateSum size sched (phTerm B d (1 / numPoints / volume) n junk)

/-- The same with undefined behaviour: with less than three dimensions `rot * nRot`, L103, reads components that were
never assigned, as soon as there is a state that is not excluded with a rotation. -/
noncomputable def phCalcFromPopulation (B : BandView) (d numPoints : Nat) (volume : ℝ) (n : VBte ℝ)
    (junk : Nat → Nat → Mat3 → Vec3) (size : Nat) (sched : Nat → List (List Nat)) : Outcome (List (Nat → Mat3)) :=
  open Classical in
  if d < 3 ∧ 0 < n.numCalc ∧ ∃ is ∈ B.irr, B.toBte is ∉ n.exclude ∧ B.rots is ≠ [] then .ub
  else .ok (phTensor B d numPoints volume n junk size sched)

/-! ## Onsager coefficients of electrons -/

/-- The four tensors of a calculation. -/
structure LTensors where
  ee : Mat3
  et : Mat3
  te : Mat3
  tt : Mat3

/-- The contribution of state `is` to the tensors, src/observable/onsager.cpp L186-222; `w` is one for `LEE`, `LET` and
`en` for `LTE`, `LTT`, and `n` the population `nE` or `nT`. -/
noncomputable def onsagerTerm (B : BandView) (norm : ℝ) (n : VBte ℝ) (w : ℝ → ℝ) (iCalc is : Nat) : Mat3 :=
  let iBte := B.toBte is
  ((B.rots is).map fun r =>
    let thisN := matVec r (vec3Of n iCalc iBte)
    let vel := matVec r (B.vel is)
    (fun i j => thisN i * vel j * w (B.energy is) * norm : Mat3)).foldr (· + ·) 0

/-- Elements of a `View` with extents `numCalc, 3, 3` made on the storage of a tensor with extents `numCalc, d, d`,
src/observable/onsager.cpp L170-177. -/
def viewFits (numCalc d : Nat) : Prop := numCalc * 3 * 3 ≤ numCalc * d * d

instance (numCalc d : Nat) : Decidable (viewFits numCalc d) := by unfold viewFits; infer_instance

/-- `OnsagerCoefficients::calcFromPopulation` up to `calcTransportCoefficients`, src/observable/onsager.cpp L156-267: the
tensors `LEE, LET, LTE, LTT` on every process.  `contribute`, L225-228, goes through all the elements of the views: it
writes past the end of the tensors if these are smaller.  `spin` is `spinFactor`. -/
noncomputable def onsagerTensors (B : BandView) (d numPoints : Nat) (volume spin : ℝ) (nE nT : VBte ℝ)
    (stat : Nat → CalcStat) (size : Nat) (sched : Nat → List (List Nat)) : Outcome (List (Nat → LTensors)) :=
  if ¬ viewFits nE.numCalc d then .ub
  else
    let norm := spin / numPoints / volume
    let ee := stateSum size sched fun iCalc => onsagerTerm B norm nE (fun _ => 1) iCalc
    let et := stateSum size sched fun iCalc => onsagerTerm B norm nT (fun _ => 1) iCalc
    let te := stateSum size sched fun iCalc => onsagerTerm B norm nE (fun e => e - (stat iCalc).chemPot) iCalc
    let tt := stateSum size sched fun iCalc => onsagerTerm B norm nT (fun e => e - (stat iCalc).chemPot) iCalc
    .ok ((List.range size).map fun r => fun iCalc =>
      ⟨ee.getD r 0 iCalc, et.getD r 0 iCalc, te.getD r 0 iCalc, tt.getD r 0 iCalc⟩)

/-- The transport coefficients of a calculation, in atomic units. -/
structure TransportCoefficients (d : Nat) where
  sigma : Matrix (Fin d) (Fin d) ℝ
  mobility : Matrix (Fin d) (Fin d) ℝ
  seebeck : Matrix (Fin d) (Fin d) ℝ
  kappa : Matrix (Fin d) (Fin d) ℝ

/-- `OnsagerCoefficients::calcTransportCoefficients`, src/observable/onsager.cpp L270-318, for one calculation.
`Eigen::MatrixXd::inverse` is the inverse; `toCm` is `distanceBohrToCm`. -/
noncomputable def transportCoefficients {d : Nat} (toCm : ℝ) (doping : ℝ)
    (LEE LET LTE LTT : Matrix (Fin d) (Fin d) ℝ) : TransportCoefficients d :=
  let thisSeebeck := -(LEE⁻¹) * LET
  let thisSeebeck := (-1 : ℝ) • thisSeebeck
  let thisKappa := LTE * LEE⁻¹
  let thisKappa := -(LTT - thisKappa * LET)
  let doping := |doping|
  let doping := doping * toCm ^ d
  { sigma := LEE
    mobility := fun i j => if doping > 0 then LEE i j / doping else LEE i j
    seebeck := thisSeebeck
    kappa := thisKappa }

/-- `calcFromPopulation`, src/observable/onsager.cpp L156-268, in three dimensions: the coefficients on every process. -/
noncomputable def onsagerFromPopulation (B : BandView) (d numPoints : Nat) (volume spin toCm : ℝ) (nE nT : VBte ℝ)
    (stat : Nat → CalcStat) (size : Nat) (sched : Nat → List (List Nat)) :
    Outcome (List (Nat → TransportCoefficients 3)) := do
  let L ← onsagerTensors B d numPoints volume spin nE nT stat size sched
  return L.map fun l => fun iCalc =>
    transportCoefficients toCm (stat iCalc).doping (l iCalc).ee (l iCalc).et (l iCalc).te (l iCalc).tt

/-- One state of the loop of `calcFromSymmetricPopulation`, src/observable/onsager.cpp L135-150: its elements are
multiplied by `sqrt(n(1-n))`. -/
noncomputable def scaleState (B : BandView) (stat : Nat → CalcStat) (v : VBte ℝ) (is : Nat) : VBte ℝ :=
  ⟨v.numChemPots, v.numTemps, v.dim, v.numStates,
    fun row s => if s = B.toBte is ∧ row < v.numCalc * 3 then
        v.data row s * Real.sqrt (getPopPopPm1 .fermi (B.energy is) (stat (row / 3)).temp (stat (row / 3)).chemPot)
      else v.data row s,
    v.exclude⟩

/-- `calcFromSymmetricPopulation`, src/observable/onsager.cpp L129-152: the copy `nE2` that a process makes, with the
elements of its states multiplied by `sqrt(n(1-n))`. -/
noncomputable def scaleSymmetric (B : BandView) (stat : Nat → CalcStat) (states : List Nat) (n : VBte ℝ) : VBte ℝ :=
  states.foldl (scaleState B stat) n

/-- `calcFromSymmetricPopulation`, src/observable/onsager.cpp L129-154, one of the four tensors on every process: process
`r` goes on with its own copy of the population. -/
noncomputable def symmetricTensor (B : BandView) (norm : ℝ) (n : VBte ℝ) (w : Nat → ℝ → ℝ) (stat : Nat → CalcStat)
    (size : Nat) (sched : Nat → List (List Nat)) : List (Nat → Mat3) :=
  allReduceSum1 ((List.range size).map fun r => fun iCalc =>
    threadSum (sched r) (onsagerTerm B norm (scaleSymmetric B stat (sliceOf B.irr r size) n) (w iCalc) iCalc))

/-! ## Electron-phonon averaged approximation -/

/-- The loop over the energies for one component, src/observable/onsager.cpp L93-113: the four sums `LEE, LET, LTE, LTT`
of component `(iAlpha, iBeta)`; `v2` is `energyProjVelocity(iAlpha, iBeta, ·)` and `rate` the row of the calculation. -/
noncomputable def epaLoop (factor energyStep chemPot temp : ℝ) (energies v2 rate : Nat → ℝ) :
    List Nat → (ℝ × ℝ × ℝ × ℝ) → (ℝ × ℝ × ℝ × ℝ)
  | [], l => l
  | iEnergy :: rest, l =>
    let pop := getPopPopPm1 .fermi (energies iEnergy) temp chemPot
    let en := energies iEnergy - chemPot
    if rate iEnergy ≤ 1e-10 ∨ pop ≤ 1e-20 then epaLoop factor energyStep chemPot temp energies v2 rate rest l
    else
      let term := v2 iEnergy / rate iEnergy * factor * pop * energyStep
      epaLoop factor energyStep chemPot temp energies v2 rate rest
        (l.1 + term / temp, l.2.1 - term * en / temp ^ 2, l.2.2.1 - term * en / temp,
          l.2.2.2 - term * en ^ 2 / temp ^ 2)

/-- `OnsagerCoefficients::calcFromEPA`, src/observable/onsager.cpp L79-117, for one calculation.  `energies` holds
`numEnergies` numbers; L86 reads the second one. -/
noncomputable def onsagerFromEPA (d numEnergies : Nat) (energies : Nat → ℝ) (v2 : Fin d → Fin d → Nat → ℝ) (rate : Nat → ℝ)
    (stat : CalcStat) (spin toCm : ℝ) : Outcome (TransportCoefficients d) :=
  if numEnergies < 2 then .ub
  else
    let factor := spin / (2 * Real.pi) ^ d
    let energyStep := energies 1 - energies 0
    let sums : Fin d → Fin d → ℝ × ℝ × ℝ × ℝ := fun a b =>
      epaLoop factor energyStep stat.chemPot stat.temp energies (v2 a b) rate (List.range numEnergies) (0, 0, 0, 0)
    .ok (transportCoefficients toCm stat.doping (fun a b => (sums a b).1) (fun a b => (sums a b).2.1)
      (fun a b => (sums a b).2.2.1) (fun a b => (sums a b).2.2.2))

/-! ## Specific heat -/

/-- The contribution of state `is`, src/observable/specific_heat.cpp L53-67; `cutoff` is `0.1 / ryToCmm1`. -/
noncomputable def heatTerm (B : BandView) (s : Statistics) (cutoff norm temp chemPot : ℝ) (is : Nat) : ℝ :=
  let en := B.energy is
  if en < cutoff ∧ s = .bose then 0
  else
    let dndt := getDndt s en temp chemPot false
    |dndt| * |en - chemPot| * norm * ((B.rots is).length : ℝ)

/-- `SpecificHeat::calc`, src/observable/specific_heat.cpp L31-70, for one calculation: `threads` is the schedule of the
threads over all the irreducible states (every process computes the whole sum). -/
noncomputable def specificHeat (B : BandView) (s : Statistics) (cutoff : ℝ) (numPoints : Nat) (volume : ℝ) (stat : CalcStat)
    (threads : List (List Nat)) : ℝ :=
  threadSum threads (heatTerm B s cutoff (1 / volume / numPoints) stat.temp stat.chemPot)

/-! ## Conversion to SI units -/

/-- src/constants/constants.h L20-32: the constants of nature used by the conversions, in SI units. -/
structure SiConstants where
  bohr : ℝ
  rydberg : ℝ
  hbar : ℝ
  electron : ℝ
  boltzmann : ℝ

/-- `elConductivityAuToSi`, src/constants/constants.h L67. -/
noncomputable def SiConstants.elConductivity (c : SiConstants) : ℝ := c.electron * c.electron / c.hbar / c.bohr

/-- `thConductivityAuToSi`, src/constants/constants.h L65. -/
noncomputable def SiConstants.thConductivity (c : SiConstants) : ℝ := c.boltzmann * c.rydberg / c.bohr / c.hbar

/-- `convSigma`, src/observable/onsager.cpp L445-462 and L585-602. -/
noncomputable def convSigma (c : SiConstants) (d : Nat) : ℝ :=
  if d = 1 then c.elConductivity * c.rydberg * c.rydberg
  else if d = 2 then c.elConductivity * c.rydberg
  else c.elConductivity

/-- `convKappa`, src/observable/onsager.cpp L445-462 and L585-602. -/
noncomputable def convKappa (c : SiConstants) (d : Nat) : ℝ :=
  if d = 1 then c.thConductivity * c.rydberg * c.rydberg
  else if d = 2 then c.thConductivity * c.rydberg
  else c.thConductivity

/-- `thCondConversion`, src/observable/phonon_thermal_cond.cpp L19-32; `thickness` in bohr. -/
noncomputable def phCondConversion (c : SiConstants) (d : Nat) (thickness : ℝ) : ℝ :=
  if d = 3 then c.thConductivity
  else if d = 2 then c.thConductivity * (1 / thickness)
  else c.thConductivity

/-- `conversion`, src/observable/specific_heat.cpp L85 and L122: the same in any dimension. -/
noncomputable def heatConversion (c : SiConstants) (_d : Nat) : ℝ := c.boltzmann / c.bohr ^ 3

/-- The `mobility` list of `OnsagerCoefficients::outputToJSON`, src/observable/onsager.cpp L612-669: one entry for every
calculation with a doping different from zero (`val` is the matrix printed for it); the lists `temperatures` and
`electricalConductivity` get one entry for every calculation. -/
noncomputable def jsonMobility {α : Type} (numCalc : Nat) (stat : Nat → CalcStat) (val : Nat → α) : List α :=
  open Classical in
  (List.range numCalc).foldl (fun out iCalc => if |(stat iCalc).doping| > 0 then out ++ [val iCalc] else out) []

/-- The other lists of the same output, src/observable/onsager.cpp L612-675. -/
def jsonList {α : Type} (numCalc : Nat) (val : Nat → α) : List α :=
  (List.range numCalc).foldl (fun out iCalc => out ++ [val iCalc]) []

end Verif.Model
