import Verif.Model.PhEl
import Verif.Model.ActiveRun
import Verif.Model.TimesFile

/-!
# The phonon-electron lifetimes app: src/apps/ph_el_lifetimes.cpp

From the active phonons to the window of the electrons, the linewidths and the file `rta_phel_relaxation_times.json`.
The phonon band structure is built first (L29-31; C180), the electrons are then selected with a window that the app
sets itself.  Simplifications: wavevectors are in crystal coordinates; energies and velocities of the electrons are
those of the Hamiltonian (the active band structure stores them, C155 and C180); the squared couplings after their
average over degenerate states are inputs; the linewidths of degenerate phonons are not averaged
(`degeneracyAveragingLinewidths`, src/bte/phel_scattering.cpp L363, is the argument `[]` of `phelLinewidths`); symmetries
are not used for the electrons (C120 treats the weights of the stars).
-/
namespace Verif.Model

/-- What the app has after the phonon band structure: the band structure (`phonons`, of which `calcs`, `times`,
`linewidths` and `normalUmklapp` are not used), the coordinates of its points, the Hamiltonian of the electrons and its
number of bands, the mesh of `kMesh` points, `windowPopulationLimit`, the delta function, the cutoff of
src/bte/phel_scattering.cpp L147 and the squared couplings (`k1`, first band, index of the phonon wavevector, second
band, mode). -/
structure PhElApp where
  phonons : TimesInput
  qCoords : Nat → V3 Rat
  bands : Nat
  H : HamView (V3 Rat) ℝ ℂ
  numK : Nat
  kCoords : Nat → V3 Rat
  kIrr : IrrPoints
  populationLimit : Option ℝ
  smearing : Smearing
  cutoff : ℝ
  coupling : V3 Rat → Nat → Nat → Nat → Nat → ℝ

/-- `getMaxEnergy`, src/bands/active_bandstructure.cpp L267-271: the iterator past the end is dereferenced if there is no
phonon. -/
noncomputable def maxEnergy (energies : List ℝ) : Outcome ℝ := if energies = [] then .ub else .ok (listMax energies)

/-- The window of the electrons, src/apps/ph_el_lifetimes.cpp L55-66. -/
noncomputable def PhElApp.window (A : PhElApp) : Outcome WindowInput := do
  let m ← maxEnergy A.phonons.arrays.energies
  .ok ⟨"muCenteredEnergy", A.populationLimit, some (-1.25 * m, 1.25 * m)⟩

/-- Selection of the electrons, src/apps/ph_el_lifetimes.cpp L68-71. -/
noncomputable def PhElApp.select (A : PhElApp) (sweep : Sweep) (temperatures : List ℝ) :
    Outcome (Nat → Option (Nat × Nat)) := do
  let w ← A.window
  builderSelect .fermi false w sweep temperatures A.H A.bands A.kCoords A.kIrr

/-- An electron state: energy and diagonal of the velocity operator (`getGroupVelocities` and
src/bte/phel_scattering.cpp L293-296). -/
noncomputable def PhElApp.electron (A : PhElApp) (k : V3 Rat) (b : Nat) : ElState :=
  ⟨A.H.energy k b, fun i => (A.H.velocity k b b i.val).re⟩

/-- BTE index and energy of the modes of the irreducible phonon wavevectors, src/bte/phel_scattering.cpp L267-269 and
L310-317. -/
noncomputable def PhElApp.modeTable (A : PhElApp) : Outcome (List (List (Nat × ℝ))) :=
  mapOutcome (fun iq => mapOutcome (fun ib => do
    let iBte ← A.phonons.layout.stateToBte A.phonons.irr (A.phonons.layout.bloch2Comb iq ib)
    let e ← A.phonons.arrays.getEnergy (A.phonons.layout.bloch2Comb iq ib)
    .ok (iBte, e)) (List.range (A.phonons.layout.numBands iq)))
    (A.phonons.irr.irrPointsIterator A.phonons.layout.numPoints)

/-- Coordinate by coordinate, `q3C + k1C`, src/bte/phel_scattering.cpp L231. -/
def addWavevectors (q k : V3 Rat) : V3 Rat := ⟨q.x + k.x, q.y + k.y, q.z + k.z⟩

/-- What the loops of the scattering matrix read, src/bte/phel_scattering.cpp L175-189, L222-233 and L258-350: at the
active point `ka` the kept bands, at `k + q` all the bands.  Phonon wavevectors are numbered by their position in the
list of irreducible ones; the modes of a wavevector are recognized by their BTE index. -/
noncomputable def PhElApp.data (A : PhElApp) (f : List Nat × List Nat × List Nat) (table : List (List (Nat × ℝ))) :
    PhElData where
  irrQ := List.range table.length
  modes j := table.getD j []
  pairs ka j m :=
    let k1 := A.kCoords (f.1.getD ka 0)
    let iq := (A.phonons.irr.irrPointsIterator A.phonons.layout.numPoints).getD j 0
    let k2 := addWavevectors (A.qCoords iq) k1
    (List.range (f.2.2.getD ka 0 + 1 - f.2.1.getD ka 0)).flatMap fun i => (List.range A.bands).map fun b2 =>
      (A.electron k1 (f.2.1.getD ka 0 + i), A.electron k2 b2, A.coupling k1 (f.2.1.getD ka 0 + i) iq b2 m)
  star ka := [ka]

/-- Constants of one calculation, src/bte/phel_scattering.cpp L64, L85-87 and L147. -/
noncomputable def PhElApp.setup (A : PhElApp) (row : CalcRow) : ElSetup :=
  ⟨1 / (A.numK : ℝ), A.cutoff, A.smearing, row.temperature, row.chemicalPotential⟩

/-- The vector of the BTE that the head process has for one calculation after `setup()`. -/
noncomputable def PhElApp.linewidths (A : PhElApp) (f : List Nat × List Nat × List Nat) (table : List (List (Nat × ℝ)))
    (size : Nat) (row : CalcRow) : Outcome (Nat → ℝ) := do
  let res ← phelLinewidths (A.setup row) (A.data f table) (List.range f.1.length) size []
  readAt res 0

/-- src/apps/ph_el_lifetimes.cpp L88-93 on `size` processes, with the electrons `f` of the builder: the file written by
the head process.  `isMatrixOmega` is true (src/bte/phel_scattering.cpp L36). -/
noncomputable def PhElApp.file (A : PhElApp) (u : FileUnits) (f : List Nat × List Nat × List Nat) (sweep : Sweep)
    (size : Nat) : Outcome TimesOutput := do
  let table ← A.modeTable
  let lw ← mapOutcome (A.linewidths f table size) sweep.table
  let diag : Nat → Nat → ℝ := fun c b => lw.getD c (fun _ => 0) b
  let l ← linewidthsOf none true false (fun _ _ => 0) diag
  let states := List.range (A.phonons.layout.numIrrStates A.phonons.irr)
  timesFile u { A.phonons with
    isElectron := false
    calcs := sweep.table.map fun r => (r.temperature, r.chemicalPotential, r.doping)
    times := fun c => states.map (timesOf none true (fun _ _ => 0) diag c)
    linewidths := fun c => states.map (l c)
    normalUmklapp := none }

end Verif.Model
