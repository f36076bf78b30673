import Verif.Model.BandsFile
import Verif.Model.TimesFile
import Verif.Model.Pairs
import Verif.Model.Degeneracy
import Verif.Model.ElRates
import Verif.Model.Isotope
import Verif.Model.Sweep
import Verif.Model.Bands

/-!
# The electron lifetimes along a path: src/apps/lifetimes_app.cpp, `ElectronLifetimesApp`

From the two band structures (a path, for the initial states, and a mesh, for the final states) to the linewidths and
the files `path_el_relaxation_times.json` and `path_el_bandstructure.json`.  The lists of points of the app have no
irreducible points (src/apps/lifetimes_app.cpp L30-33), so that all of them are irreducible.  Simplifications: the
squared couplings after their average over degenerate states are inputs; the phonon of a pair is that of wavevector
`k2 - k1` (`C166_computed_partial`); `constantRelaxationTime` is not set (C131) and neither is `poolSize` (C51).
-/
namespace Verif.Model

/-- What the app has after the parsers: the Hamiltonian of the electrons, its number of bands and that of the phonon
modes, the cell and `bzToWs`, the crystal coordinates of the mesh of `kMesh`, the phonon frequencies at a wavevector, the
squared couplings (`k1`, `k2`, first band, second band, mode), the delta function, `phononCutoff` (src/bte/el_scattering.cpp
L127) and `boundaryLength`. -/
structure PathElApp where
  bands : Nat
  modes : Nat
  H : HamView Vec3 ℝ ℂ
  cell : Cell
  wrap : Vec3 → Vec3
  mesh : List (V3 ℝ)
  phonon : Vec3 → Nat → ℝ
  coupling : Vec3 → Vec3 → Nat → Nat → Nat → ℝ
  smearing : Smearing
  cutoff : ℝ
  boundaryLength : Option ℝ

/-- `electronH0.populate(points, true, true)`, src/apps/lifetimes_app.cpp L38-42, on process `rank`; `sched` is the order in
which the threads make the calls. -/
noncomputable def PathElApp.populate (A : PathElApp) (pts : List (V3 ℝ)) (sched : List FullStore → List FullStore)
    (size rank : Nat) : Outcome (FullBands ℝ ℂ) := do
  let F ← FullBands.make size A.bands pts.length false true true false
  let iks ← F.wavevectorIndices rank
  fullRun A.H (pathWave A.cell A.wrap pts) rank (sched (wannierStores true true iks)) F

/-- Energies and velocities of the bands of a wavevector, src/bte/el_scattering.cpp L155-158 and L198-200, and their use in
L264, L273 and L289-293. -/
noncomputable def FullBands.elStates (F : FullBands ℝ ℂ) (rank ik : Nat) : Outcome (List ElState) := do
  let e ← F.getEnergies rank ik
  let v ← F.getGroupVelocities Complex.re rank ik
  mapOutcome (fun ib => do
    let x ← readAt e ib
    let w ← readAt v ib
    let w0 ← readAt w 0
    let w1 ← readAt w 1
    let w2 ← readAt w 2
    .ok ⟨x, ![w0, w1, w2]⟩) (List.range F.numBands)

/-- `getIndex(ik, ib)` followed by `stateToBte` without irreducible points, src/bands/bandstructure.cpp L133-145 and
L419-434 with src/points.cpp L922-924: state index and BTE index. -/
def pathIndices (numBands ik ib : Nat) : Outcome (Int × Nat) := do
  let is ← fullGetIndex numBands ik ib
  let t ← fullGetBloch numBands is
  let iBte ← fullGetIndex numBands t.1 t.2
  .ok (is, iBte.toNat)

/-- Constants of one calculation, src/bte/el_scattering.cpp L64, L80-82 and L127. -/
noncomputable def PathElApp.setup (A : PathElApp) (row : CalcRow) : ElSetup :=
  ⟨1 / (A.mesh.length : ℝ), A.cutoff, A.smearing, row.temperature, row.chemicalPotential⟩

/-- What a pair of wavevectors adds to the linewidths, src/bte/el_scattering.cpp L219-386 in the case of the linewidths (L378-381):
BTE index and rate of every process that is not skipped (the rate of the others is zero), for one calculation. -/
noncomputable def PathElApp.pairRates (A : PathElApp) (pts : List (V3 ℝ)) (inner outer : FullBands ℝ ℂ) (rank : Nat)
    (row : CalcRow) (ik1 ik2 : Nat) : Outcome (List (Nat × ℝ)) := do
  let k1 := pathWave A.cell A.wrap pts ik1
  let k2 := pathWave A.cell A.wrap A.mesh ik2
  let q3 : Vec3 := fun i => k2 i - k1 i
  let s1 ← outer.elStates rank ik1
  let s2 ← inner.elStates rank ik2
  let l ← mapOutcome (fun ib2 => mapOutcome (fun ib1 => do
    let b ← pathIndices outer.numBands ik1 ib1
    let x1 ← readAt s1 ib1
    let x2 ← readAt s2 ib2
    .ok ((List.range A.modes).map fun ib3 =>
      (b.2, elRate (A.setup row) (A.coupling k1 k2 ib1 ib2 ib3) x1 x2 (A.phonon q3 ib3))))
    (List.range s1.length)) (List.range s2.length)
  .ok l.flatten.flatten

/-- The loops of one process, src/bte/el_scattering.cpp L132-389; `items` are the pairs of wavevectors.  The linewidths start
from zero. -/
noncomputable def PathElApp.processRates (A : PathElApp) (pts : List (V3 ℝ)) (inner outer : FullBands ℝ ℂ) (rank : Nat)
    (row : CalcRow) (items : List PairItem) : Outcome (Nat → ℝ) := do
  let l ← mapOutcome (fun t : PairItem => mapOutcome (fun k2 : Int =>
    A.pairRates pts inner outer rank row t.2.toNat k2.toNat) t.1) items
  .ok (l.flatten.flatten.foldl (fun lw a => addAt lw a.1 a.2) fun _ => 0)

/-- The linewidths of one calculation on the head process after the sum over the processes, src/bte/el_scattering.cpp L59-397;
`bands r` are the two band structures (mesh, path) of process `r`. -/
noncomputable def PathElApp.summedRates (A : PathElApp) (pts : List (V3 ℝ)) (bands : List (FullBands ℝ ℂ × FullBands ℝ ℂ))
    (size : Nat) (row : CalcRow) : Outcome (Nat → ℝ) := do
  let parts ← mapOutcome (fun rank => do
    let b ← readAt bands rank
    let items ← elPairs false false 0 id (fun k => [k]) (List.range pts.length) A.mesh.length [] rank size
    A.processRates pts b.1 b.2 rank row items) (List.range size)
  readAt (allReduceSum1 parts) 0

/-- The wavevectors of `degeneracyAveragingLinewidths`, src/bte/scattering.cpp L1168-1204. -/
noncomputable def FullBands.degPoint (F : FullBands ℝ ℂ) (rank ik : Nat) : Outcome (DegPoint ℝ) := do
  let e ← F.getEnergies rank ik
  let b ← mapOutcome (fun ib => do
    let x ← pathIndices F.numBands ik ib
    .ok x.2) (List.range F.numBands)
  .ok ⟨F.numBands, fun ib => e.getD ib 0, fun ib => b.getD ib 0⟩

/-- The rates of boundary scattering, src/bte/el_scattering.cpp L409-441: BTE index and rate of every state. -/
noncomputable def FullBands.boundaryRates (F : FullBands ℝ ℂ) (length : Option ℝ) (rank : Nat) (np : Nat) :
    Outcome (List (Nat × ℝ)) := do
  let l ← mapOutcome (fun ik => mapOutcome (fun ib => do
    let b ← pathIndices F.numBands ik ib
    let v ← F.getGroupVelocity Complex.re rank b.1
    let v0 ← readAt v 0
    let v1 ← readAt v 1
    let v2 ← readAt v 2
    .ok (b.2, boundaryRate length ![v0, v1, v2] 1)) (List.range F.numBands)) (List.range np)
  .ok l.flatten

/-- The vector of the BTE after `setup()`, src/bte/scattering.cpp L91-195 with src/bte/el_scattering.cpp L36-447, on the head
process: the sums, the average over the degenerate bands (L401-405) and boundary scattering. -/
noncomputable def PathElApp.diagonal (A : PathElApp) (pts : List (V3 ℝ)) (bands : List (FullBands ℝ ℂ × FullBands ℝ ℂ))
    (size : Nat) (sweep : Sweep) : Outcome (Nat → Nat → ℝ) := do
  let lw ← mapOutcome (A.summedRates pts bands size) sweep.table
  let b ← readAt bands 0
  let points ← mapOutcome (b.2.degPoint 0) (List.range pts.length)
  let data := degeneracyAveraging points fun c => lw.getD c fun _ => 0
  let bound ← b.2.boundaryRates A.boundaryLength 0 pts.length
  .ok fun c => bound.foldl (fun lw a => addAt lw a.1 a.2) (data c)

/-- The loops over calculations, wavevectors and bands of `outputToJSON`, src/bte/scattering.cpp L694-741, for a band
structure without irreducible points. -/
def pathLists {β : Type} (numBands np nCalc : Nat) (f : Nat → Int → Nat → Outcome β) : Outcome (List (List (List β))) :=
  mapOutcome (fun c => mapOutcome (fun ik => mapOutcome (fun ib => do
    let b ← pathIndices numBands ik ib
    f c b.1 b.2) (List.range numBands)) (List.range np)) (List.range nCalc)

/-- `outputToJSON` on the head process, src/bte/scattering.cpp L639-814, for the band structure along a path; `times c` and
`lw c` are the values of the BTE states for one calculation. -/
noncomputable def pathTimesFile (u : FileUnits) (isElectron : Bool) (cell : Cell) (wave : Nat → Vec3) (np : Nat)
    (F : FullBands ℝ ℂ) (calcs : List (ℝ × ℝ × ℝ)) (times lw : Nat → List ℝ) : Outcome TimesOutput := do
  let t ← pathLists F.numBands np calcs.length fun c _ b => readScaled (times c) (printedTime u.time isElectron) b
  let l ← pathLists F.numBands np calcs.length fun c _ b => readScaled (lw c) (printedLinewidth u.time isElectron) b
  let v ← pathLists F.numBands np calcs.length fun _ is _ => do
    let v ← F.getGroupVelocity Complex.re 0 is
    mapOutcome (fun i => readScaled v (fun x => x * u.velocityRyToSi) i) [0, 1, 2]
  let e ← pathLists F.numBands np calcs.length fun _ is _ => do
    let e ← F.getStateEnergy 0 is
    .ok (printedLinewidth u.time isElectron e)
  .ok { temperatures := calcs.map fun x => x.1 * u.temperatureAuToSi
        chemicalPotentials := calcs.map fun x => if isElectron then x.2.1 * energyRyToEvOf u.time else 0
        dopings := if isElectron then some (calcs.map fun x => x.2.2) else none
        linewidths := l, relaxationTimes := t, normalUmklapp := none, velocities := v, energies := e
        wavevectors := (List.range np).map fun ik => cell.cartesianToCrystal (wave ik) }

/-- The test of the constructor, src/bte/scattering.cpp L75-81. -/
def refusesTetra : Smearing → Bool
  | .tetra _ => true
  | _ => false

/-- `ElectronLifetimesApp::run`, src/apps/lifetimes_app.cpp L12-58, after the parsers, on `size` processes: the two files
written by the head process.  `sweep` is the table of calculations of `StatisticsSweep` (L44; C36); `sched r` is the order of
the calls on process `r`. -/
noncomputable def PathElApp.run (A : PathElApp) (u : FileUnits) (bohrToAng : ℝ) (c : AtomsView) (segs : List Segment)
    (delta : ℝ) (sched : Nat → List FullStore → List FullStore) (sweep : Sweep) (size : Nat) :
    Outcome (TimesOutput × Option BandsFile) := do
  let pts ← pathPoints segs delta
  let bands ← mapOutcome (fun rank => do
    let inner ← A.populate A.mesh (sched rank) size rank
    let outer ← A.populate pts (sched rank) size rank
    .ok (inner, outer)) (List.range size)
  if refusesTetra A.smearing then .error else do
    let diag ← A.diagonal pts bands size sweep
    let lw ← linewidthsOf none true true (fun _ _ => 0) diag
    let b ← readAt bands 0
    let states := List.range (pts.length * A.bands)
    let t ← pathTimesFile u true A.cell (pathWave A.cell A.wrap pts) pts.length b.2
      (sweep.table.map fun r => (r.temperature, r.chemicalPotential, r.doping))
      (fun c => states.map (timesOf none true (fun _ _ => 0) diag c)) (fun c => states.map (lw c))
    let f ← outputBandsToJSON (energyRyToEvOf u.time) bohrToAng false false c segs pts b.2 0
    .ok (t, f)

end Verif.Model
