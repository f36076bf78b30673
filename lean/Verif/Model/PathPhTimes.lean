import Verif.Model.PathTimes
import Verif.Model.PhRates
import Verif.Model.LinewidthSplit

/-!
# The phonon lifetimes along a path: src/apps/lifetimes_app.cpp, `PhononLifetimesApp`

From the two band structures (a path, for the initial states, and a mesh, for the states they scatter with) to the
linewidths and the files `path_ph_relaxation_times.json` and `path_ph_bandstructure.json`.  The lists of points of the app
have no irreducible points.  Simplifications: the squared couplings after `symmetrizeCoupling` and the overlaps of the
isotope scattering (src/bte/ph_scattering.cpp L695-702; C168) are inputs; the third phonon is that of the dynamical matrix at
`q1 + q2` or `q1 - q2` (C167); the populations of the tables of L100-146 are computed where they are used (C167); the batches
of L190-200 are one (C60); the delta function is a Gaussian, `tetra` stands for weights that are the same for all the states;
`constantRelaxationTime` and `outputUNTimes` are not set (C131, C57), and neither is the output of the eigendisplacements.
-/
namespace Verif.Model

/-- What the app has after the parsers: the number of modes, the phonons, the cell and `bzToWs`, the crystal coordinates of the
mesh of `qMesh`, the squared couplings of `q1 + q2 = q3` and `q1 = q2 + q3` (`q1`, `q2`, and the three modes), the overlaps with the
mass variance when there are isotopes (`q1`, `q2` and the two modes), the delta function, `energyCutoff`
(src/bte/ph_scattering.cpp L64), the cutoff of `excludeIndices` (src/bte/scattering.cpp L37) and `boundaryLength`. -/
structure PathPhApp where
  bands : Nat
  H : HamView Vec3 ℝ ℂ
  cell : Cell
  wrap : Vec3 → Vec3
  mesh : List (V3 ℝ)
  plus : Vec3 → Vec3 → Nat → Nat → Nat → ℝ
  minus : Vec3 → Vec3 → Nat → Nat → Nat → ℝ
  overlap : Option (Vec3 → Vec3 → Nat → Nat → ℝ)
  smearing : Smearing
  cutoff : ℝ
  exclude : ℝ
  boundaryLength : Option ℝ

/-- `phononH0.populate(points, true, true)`, src/apps/lifetimes_app.cpp L76-81, on process `rank`; `sched` is the order of the
calls of a batch. -/
noncomputable def PathPhApp.populate (A : PathPhApp) (pts : List (V3 ℝ)) (batchSize : Int)
    (sched : List FullStore × List FullStore → List FullStore) (size rank : Nat) : Outcome (FullBands ℝ ℂ) := do
  let F ← FullBands.make size A.bands pts.length true true true false
  let iks ← F.wavevectorIndices rank
  let bs ← phononStores true true batchSize iks
  fullRun A.H (pathWave A.cell A.wrap pts) rank (bs.map sched).flatten F

/-- Coordinates of a point without `bzToWs`, src/points.cpp L648-660, as used by the helper of the third state
(src/bte/helper_3rd_state.cpp L250-256). -/
noncomputable def plainWave (cell : Cell) (pts : List (V3 ℝ)) (ik : Nat) : Vec3 :=
  let p := pts.getD ik ⟨0, 0, 0⟩
  cell.crystalToCartesian ![p.x, p.y, p.z]

/-- A phonon with its population, src/bte/ph_scattering.cpp L100-146. -/
noncomputable def withBose (row : CalcRow) (s : ElState) : PhState :=
  ⟨s.energy, s.velocity, getPopulation .bose s.energy row.temperature row.chemicalPotential⟩

/-- The phonons of a wavevector that is on neither list of points, src/bte/helper_3rd_state.cpp L228-318. -/
noncomputable def PathPhApp.third (A : PathPhApp) (row : CalcRow) (q : Vec3) : List PhState :=
  (List.range A.bands).map fun ib => withBose row ⟨A.H.energy q ib, fun i => (A.H.velocity q ib ib i.val).re⟩

/-- Constants of the rates, src/bte/ph_scattering.cpp L64-72 and L98: the two band structures are different. -/
noncomputable def PathPhApp.setup (A : PathPhApp) : PhSetup := ⟨1 / (A.mesh.length : ℝ), A.cutoff, false, A.smearing⟩

/-- What two states add to the linewidth of the first, src/bte/ph_scattering.cpp L330-456, L458-620 and L670-760, in the case of the
linewidths: the coalescence and decay processes with all the third phonons and the scattering by isotopes. -/
noncomputable def PathPhApp.updates (A : PathPhApp) (k1 k2 : Vec3) (plus minus : List PhState) (ib1 ib2 : Nat)
    (s1 s2 : PhState) : Outcome (List ℝ) := do
  let p ← mapOutcome (fun ib3 => do
    let s3 ← readAt plus ib3
    .ok (0.5 * ratePlus A.setup (A.plus k1 k2 ib1 ib2 ib3) s1 s2 s3)) (List.range plus.length)
  let m ← mapOutcome (fun ib3 => do
    let s3 ← readAt minus ib3
    .ok (0.5 * (rateMinus1 A.setup (A.minus k1 k2 ib1 ib2 ib3) s1 s2 s3 +
      rateMinus2 A.setup (A.minus k1 k2 ib1 ib2 ib3) s1 s2 s3))) (List.range minus.length)
  .ok (p ++ m ++ match A.overlap with
    | none => []
    | some o => [rateIso A.setup (o k1 k2 ib1 ib2) s1 s2])

/-- The tests of `excludeIndices`, src/bte/ph_scattering.cpp L306-326 and L654-678: the list of indices of the outer band
structure is searched for the index of the first state and for that of the second. -/
def keepUpdates (exclude : List Nat) (numOuter numInner ik1 ib1 ik2 ib2 : Nat) (l : List ℝ) :
    Outcome (List (Nat × ℝ)) := do
  let b1 ← pathIndices numOuter ik1 ib1
  let b2 ← pathIndices numInner ik2 ib2
  .ok (if b1.2 ∈ exclude ∨ b2.2 ∈ exclude then [] else l.map fun x => (b1.2, x))

/-- What a pair of wavevectors adds to the linewidths, src/bte/ph_scattering.cpp L280-620 and L630-760, for one calculation. -/
noncomputable def PathPhApp.pairRates (A : PathPhApp) (pts : List (V3 ℝ)) (inner outer : FullBands ℝ ℂ)
    (exclude : List Nat) (rank : Nat) (row : CalcRow) (ik1 ik2 : Nat) : Outcome (List (Nat × ℝ)) := do
  let k1 := pathWave A.cell A.wrap pts ik1
  let k2 := pathWave A.cell A.wrap A.mesh ik2
  let plus := A.third row fun i => plainWave A.cell pts ik1 i + plainWave A.cell A.mesh ik2 i
  let minus := A.third row fun i => plainWave A.cell pts ik1 i - plainWave A.cell A.mesh ik2 i
  let s1 ← outer.elStates rank ik1
  let s2 ← inner.elStates rank ik2
  let l ← mapOutcome (fun ib1 => mapOutcome (fun ib2 => do
    let x1 ← readAt s1 ib1
    let x2 ← readAt s2 ib2
    let u ← A.updates k1 k2 plus minus ib1 ib2 (withBose row x1) (withBose row x2)
    keepUpdates exclude outer.numBands inner.numBands ik1 ib1 ik2 ib2 u)
    (List.range s2.length)) (List.range s1.length)
  .ok l.flatten.flatten

/-- The loops of one process, src/bte/ph_scattering.cpp L164-620 and L622-795; `items` are the pairs of wavevectors.  The
linewidths start from zero. -/
noncomputable def PathPhApp.processRates (A : PathPhApp) (pts : List (V3 ℝ)) (inner outer : FullBands ℝ ℂ)
    (exclude : List Nat) (rank : Nat) (row : CalcRow) (items : List PairItem) : Outcome (Nat → ℝ) := do
  let l ← mapOutcome (fun t : PairItem => mapOutcome (fun k1 : Int =>
    A.pairRates pts inner outer exclude rank row k1.toNat t.2.toNat) t.1) items
  .ok (l.flatten.flatten.foldl (fun lw a => addAt lw a.1 a.2) fun _ => 0)

/-- The energies of the states in the order of the BTE indices, src/bte/scattering.cpp L32-36. -/
noncomputable def FullBands.bteEnergies (F : FullBands ℝ ℂ) (rank np : Nat) : Outcome (List ℝ) :=
  mapOutcome (fun b : Nat => F.getStateEnergy rank (b : Int)) (List.range (np * F.numBands))

/-- The linewidths of one calculation on the head process after the sum over the processes, src/bte/ph_scattering.cpp
L59-806; `bands r` are the two band structures (mesh, path) of process `r`. -/
noncomputable def PathPhApp.summedRates (A : PathPhApp) (pts : List (V3 ℝ)) (bands : List (FullBands ℝ ℂ × FullBands ℝ ℂ))
    (size : Nat) (row : CalcRow) : Outcome (Nat → ℝ) := do
  let parts ← mapOutcome (fun rank => do
    let b ← readAt bands rank
    let e ← b.2.bteEnergies rank pts.length
    let items ← phPairs false false 0 id (fun k => [k]) (List.range pts.length) A.mesh.length [] rank size
    A.processRates pts b.1 b.2 (excludeIndices A.exclude e) rank row items) (List.range size)
  readAt (allReduceSum1 parts) 0

/-- The rates of boundary scattering for one calculation, src/bte/ph_scattering.cpp L820-857; the population has the default
chemical potential, zero. -/
noncomputable def FullBands.phBoundaryRates (F : FullBands ℝ ℂ) (length : Option ℝ) (exclude : List Nat) (rank np : Nat)
    (row : CalcRow) : Outcome (List (Nat × ℝ)) := do
  let l ← mapOutcome (fun ik => mapOutcome (fun ib => do
    let b ← pathIndices F.numBands ik ib
    let e ← F.getStateEnergy rank b.1
    let v ← F.getGroupVelocity Complex.re rank b.1
    let v0 ← readAt v 0
    let v1 ← readAt v 1
    let v2 ← readAt v 2
    .ok (if b.2 ∈ exclude then [] else
      [(b.2, boundaryRate length ![v0, v1, v2] (getPopPopPm1 .bose e row.temperature 0))])) (List.range F.numBands))
    (List.range np)
  .ok l.flatten.flatten

/-- The vector of the BTE after `setup()`, src/bte/scattering.cpp L91-195 with src/bte/ph_scattering.cpp L59-905, on the head
process: the sums, the average over the degenerate modes (L811-817), boundary scattering and the zeros of the excluded states
(L897-904). -/
noncomputable def PathPhApp.diagonal (A : PathPhApp) (pts : List (V3 ℝ)) (bands : List (FullBands ℝ ℂ × FullBands ℝ ℂ))
    (size : Nat) (sweep : Sweep) : Outcome (Nat → Nat → ℝ) := do
  let lw ← mapOutcome (A.summedRates pts bands size) sweep.table
  let b ← readAt bands 0
  let e ← b.2.bteEnergies 0 pts.length
  let points ← mapOutcome (b.2.degPoint 0) (List.range pts.length)
  let data := degeneracyAveraging points fun c => lw.getD c fun _ => 0
  let bound ← mapOutcome (b.2.phBoundaryRates A.boundaryLength (excludeIndices A.exclude e) 0 pts.length) sweep.table
  .ok fun c s => if s ∈ excludeIndices A.exclude e then 0
    else (bound.getD c []).foldl (fun lw a => addAt lw a.1 a.2) (data c) s

/-- The populations `n (n + 1)` of the states, src/bte/scattering.cpp L498-508 and L552-562. -/
noncomputable def popFactors (sweep : Sweep) (energies : List ℝ) (c s : Nat) : ℝ :=
  match sweep.table[c]? with
  | none => 0
  | some row => getPopPopPm1 .bose (energies.getD s 0) row.temperature row.chemicalPotential

/-- `PhononLifetimesApp::run`, src/apps/lifetimes_app.cpp L59-98, after the parsers, on `size` processes: the two files written
by the head process.  `sweep` is the table of calculations of `StatisticsSweep` (L83; C36); `batchSize` and `sched r` are those
of process `r`. -/
noncomputable def PathPhApp.run (A : PathPhApp) (u : FileUnits) (bohrToAng : ℝ) (c : AtomsView) (segs : List Segment)
    (delta : ℝ) (batchSize : Nat → Int) (sched : Nat → List FullStore × List FullStore → List FullStore) (sweep : Sweep)
    (size : Nat) : Outcome (TimesOutput × Option BandsFile) := do
  let pts ← pathPoints segs delta
  let bands ← mapOutcome (fun rank => do
    let inner ← A.populate A.mesh (batchSize rank) (sched rank) size rank
    let outer ← A.populate pts (batchSize rank) (sched rank) size rank
    .ok (inner, outer)) (List.range size)
  let diag ← A.diagonal pts bands size sweep
  let b ← readAt bands 0
  let e ← b.2.bteEnergies 0 pts.length
  let pop := popFactors sweep e
  let lw ← linewidthsOf none false false pop diag
  let states := List.range (pts.length * A.bands)
  let t ← pathTimesFile u false A.cell (pathWave A.cell A.wrap pts) pts.length b.2
    (sweep.table.map fun r => (r.temperature, r.chemicalPotential, r.doping))
    (fun c => states.map (timesOf none false pop diag c)) (fun c => states.map (lw c))
  let f ← outputBandsToJSON (energyRyToEvOf u.time) bohrToAng true false c segs pts b.2 0
  .ok (t, f)

end Verif.Model
