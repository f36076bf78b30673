import Verif.Model.Path
import Verif.Model.FullStore
import Verif.Model.DynMat

/-!
# The files of the band structure

src/apps/bands_app.cpp: the three apps and `outputBandsToJSON`; src/crystal.cpp L265-288: `Crystal::print`.
-/
namespace Verif.Model

/-- The part of the file that is written with `outputEigendisplacements`, src/apps/bands_app.cpp L245-252.  The
displacements are listed by wavevector, band, atom and component. -/
structure ModesPart where
  displacements : List (List (List (List ℂ)))
  latticeVectors : List (List ℝ)
  atomPositions : List (List ℝ)
  species : List String

/-- The file of the bands, src/apps/bands_app.cpp L233-252. -/
structure BandsFile where
  indices : List Nat
  coordinates : List (List ℝ)
  labels : List String
  highSymIndices : List Nat
  highSymCoordinates : List (List ℝ)
  numBands : Nat
  energies : List (List ℝ)
  particle : String
  energyUnit : String
  modes : Option ModesPart

/-- What the file needs of the crystal: `getDirectUnitCell`, `getAtomicPositions` and `getAtomicNames`. -/
structure AtomsView where
  cell : Mat3
  positions : List Vec3
  names : List String

/-- The coordinates in a list. -/
def V3.toList (p : V3 ℝ) : List ℝ := [p.x, p.y, p.z]

/-- The displacements of a wavevector, src/apps/bands_app.cpp L195-211: `eigendisps(iDim, iat, ib)`. -/
noncomputable def displacementsAt (F : FullBands ℝ ℂ) (bohrToAng : ℝ) (rank ik : Nat) :
    Outcome (List (List (List ℂ))) := do
  let e ← F.getPhEigenvectors rank ik
  mapOutcome (fun ib => mapOutcome (fun ia => mapOutcome (fun ic => do
    let p ← readAt e ic
    let a ← readAt p ia
    let x ← readAt a ib
    .ok (x * (bohrToAng : ℂ))) (List.range 3)) (List.range (F.numBands / 3))) (List.range F.numBands)

/-- src/apps/bands_app.cpp L215-231 and L245-252. -/
noncomputable def modesPart (F : FullBands ℝ ℂ) (bohrToAng : ℝ) (c : AtomsView) (rank np : Nat) : Outcome ModesPart := do
  let d ← mapOutcome (displacementsAt F bohrToAng rank) (List.range np)
  let at_ ← mapOutcome (fun ia => do
    let p ← readAt c.positions ia
    .ok ((List.ofFn p).map (· * bohrToAng))) (List.range (F.numBands / 3))
  .ok ⟨d, List.ofFn fun i => List.ofFn fun j => c.cell i j * bohrToAng, at_, c.names⟩

/-- The energies of a wavevector, src/apps/bands_app.cpp L187-192. -/
noncomputable def energiesAt (F : FullBands ℝ ℂ) (conv : ℝ) (rank ik : Nat) : Outcome (List ℝ) := do
  let e ← F.getEnergies rank ik
  mapOutcome (fun ib => do
    let x ← readAt e ib
    .ok (x * conv)) (List.range F.numBands)

/-- The part with the modes, if it is wanted. -/
noncomputable def modesIf (want : Bool) (F : FullBands ℝ ℂ) (bohrToAng : ℝ) (c : AtomsView) (rank np : Nat) :
    Outcome (Option ModesPart) :=
  if want then do
    let m ← modesPart F bohrToAng c rank np
    .ok (some m)
  else .ok none

/-- `outputBandsToJSON`, src/apps/bands_app.cpp L113-261, on process `rank`; only the head (0) writes. -/
noncomputable def outputBandsToJSON (ryToEv bohrToAng : ℝ) (phonon want : Bool) (c : AtomsView) (segs : List Segment)
    (pts : List (V3 ℝ)) (F : FullBands ℝ ℂ) (rank : Nat) : Outcome (Option BandsFile) :=
  if rank ≠ 0 then .ok none
  else do
    let idx ← highSymIndices segs pts
    let e ← mapOutcome (energiesAt F (if phonon then 1000 * ryToEv else ryToEv) rank) (List.range pts.length)
    let m ← modesIf (want && phonon) F bohrToAng c rank pts.length
    .ok (some ⟨List.range pts.length, pts.map V3.toList, (pathEnds segs).map (·.2), idx,
      (pathEnds segs).map (fun e => e.1.toList), F.numBands, e, if phonon then "phonon" else "electron",
      if phonon then "meV" else "eV", m⟩)

/-- Cartesian coordinates of a point of the path as the Hamiltonian gets them: `FullBandStructure::getWavevector`,
src/bands/bandstructure.cpp L306-310.  `wrap` is `bzToWs` on Cartesian coordinates (C16 and C17, for rational numbers). -/
noncomputable def pathWave (cell : Cell) (wrap : Vec3 → Vec3) (pts : List (V3 ℝ)) (ik : Nat) : Vec3 :=
  let p := pts.getD ik ⟨0, 0, 0⟩
  wrap (cell.crystalToCartesian ![p.x, p.y, p.z])

/-- The phonons as the band structure sees them, src/harmonic/phonon_h0_kokkos.cpp L310-342: the results of the device, with
the masses; row `3 a + i` of the eigenvectors is atom `a`, component `i`. -/
noncomputable def phononView {A n1 n2 n3 : Nat} [NeZero n1] [NeZero n2] [NeZero n3] (eig : EigenSolver A) (c : PhCrystal A)
    (f : FcVec A n1 n2 n3) (order : List Vec3) : HamView Vec3 ℝ ℂ where
  energy q b := if h : b < A * 3 then (devDiagonalize eig c f order q true).1 ⟨b, h⟩ else 0
  vector q r b := if h : r < A * 3 ∧ b < A * 3 then
      (devDiagonalize eig c f order q true).2
        (⟨r / 3, Nat.div_lt_of_lt_mul (by omega)⟩, ⟨r % 3, Nat.mod_lt _ (by decide)⟩) ⟨b, h.2⟩
    else 0
  velocity _ _ _ _ := 0

/-- `PhononBandsApp::run`, src/apps/bands_app.cpp L18-44, after the parser.  `batchSize` is the result of
`estimateBatchSize`; `sched` is the order in which the threads make the calls of a batch. -/
noncomputable def phononBandsApp (ryToEv bohrToAng : ℝ) (want : Bool) (nb : Nat) (H : HamView Vec3 ℝ ℂ) (cell : Cell)
    (wrap : Vec3 → Vec3) (c : AtomsView) (segs : List Segment) (delta : ℝ) (batchSize : Int)
    (sched : List FullStore × List FullStore → List FullStore) (size rank : Nat) : Outcome (Option BandsFile) := do
  let pts ← pathPoints segs delta
  let F ← FullBands.make size nb pts.length true false want false
  let iks ← F.wavevectorIndices rank
  let bs ← phononStores false want batchSize iks
  let F ← fullRun H (pathWave cell wrap pts) rank (bs.map sched).flatten F
  outputBandsToJSON ryToEv bohrToAng true want c segs pts F rank

/-- `ElectronWannierBandsApp::run` and `ElectronFourierBandsApp::run`, src/apps/bands_app.cpp L46-98: both set the energies
of all the wavevectors of the process; `sched` is the order in which the threads make the calls. -/
noncomputable def electronBandsApp (ryToEv bohrToAng : ℝ) (fourier want : Bool) (nb : Nat) (H : HamView Vec3 ℝ ℂ)
    (cell : Cell) (wrap : Vec3 → Vec3) (c : AtomsView) (segs : List Segment) (delta : ℝ)
    (sched : List FullStore → List FullStore) (size rank : Nat) : Outcome (Option BandsFile) := do
  let pts ← pathPoints segs delta
  let F ← FullBands.make size nb pts.length false false false false
  let iks ← F.wavevectorIndices rank
  let F ← fullRun H (pathWave cell wrap pts) rank
    (if fourier then fourierStores false iks else sched (wannierStores false false iks)) F
  outputBandsToJSON ryToEv bohrToAng false want c segs pts F rank

/-- `Crystal::print`, src/crystal.cpp L265-288: the rows of the table of the lattice vectors, with the titles `a1`, `a2`,
`a3` of the columns, and the atoms. -/
noncomputable def crystalPrint (head : Bool) (bohrToAng : ℝ) (c : AtomsView) :
    Option (List String × List (List ℝ) × List (String × List ℝ)) :=
  if head then
    some (["a1", "a2", "a3"], List.ofFn fun i => [c.cell i 0 * bohrToAng, c.cell i 1 * bohrToAng, c.cell i 2 * bohrToAng],
      (c.names.zip c.positions).map fun a => (a.1, [a.2 0 * bohrToAng, a.2 1 * bohrToAng, a.2 2 * bohrToAng]))
  else none

end Verif.Model
