import Verif.Model.WannierRun
import Verif.Model.DosApp

/-!
# From the file of Wannier90 to the file of the electron density of states

src/apps/dos_app.cpp L59-91: `ElectronWannierDosApp::run` with the parser, the constructor of `Crystal`, `ElectronH0Wannier::populate`, the tetrahedra and the output.
-/
namespace Verif.Model

variable {W R : Nat}

/-- What the run depends on besides the files: the constants, the atoms, mesh and energies of the input file, the rotations of the crystal (`spglib`), the number of
processes, and for each process the result of `estimateBatchSize` and the order in which the threads set the energies.  `eig` is the eigensolver. -/
structure WannierDosApp where
  k : TimeConstants
  ang : ℝ
  positions : List Vec3
  species : List Int
  names : List (List Char)
  rots : List M3
  eig : (W : Nat) → ElSolver W
  mesh : V3 Int
  minEnergy : ℝ
  maxEnergy : ℝ
  delta : ℝ
  batchSize : Nat → Int
  sched : Nat → List FullStore → List FullStore
  size : Nat

/-- `ElectronH0Wannier::populate` on process `rank`, src/harmonic/electron_h0_wannier.cpp L361-437, from src/apps/dos_app.cpp L74-75: the coordinates come from the
points, without folding (L384). -/
noncomputable def WannierDosApp.bands (D : WannierDosApp) (w : WannierData W R) (cell : Cell) (rank : Nat) : Outcome (FullBands ℝ ℂ) := do
  let F ← FullBands.make D.size W (D.mesh.x * D.mesh.y * D.mesh.z).toNat false false false false
  let iks ← F.wavevectorIndices rank
  let es ← elKokkosPopulate (elKernel (D.eig W) w) (iks.map (meshWave cell id D.mesh)) (iks.map Int.ofNat) (D.batchSize rank)
  fullRun (populatedView iks es) id rank (D.sched rank (wannierStores false false iks)) F

/-- `ElectronWannierDosApp::run`, src/apps/dos_app.cpp L59-91, with src/parser/qe_input_parser.cpp L883-1063 and src/crystal.cpp L22-116: the file of the head.
Simplification: the masses that the input file may contain are not used. -/
noncomputable def WannierDosApp.run (D : WannierDosApp) (tb : List TextLine) (wsVec : Option (Bool × List TextLine)) : Outcome DosFile := do
  let t ← parseWannier (energyRyToEvOf D.k) D.ang none tb wsVec
  let _ ← wannierMasses elementTable D.names
  let cell ← makeCell t.cell
  if D.species.length ≠ D.positions.length then .error
  else do
    let _ ← mapOutcome (getMassVariance elementTable) D.names
    let _ ← mapOutcome (readInt D.names) D.species
    let sf ← mapOutcome (fun rank => do
      let s ← dosPoints D.rots D.mesh D.size rank
      let F ← D.bands t.data cell rank
      .ok (s, F)) (List.range D.size)
    let r ← calcDos (fun rank e => do
      let p ← readAt sf rank
      processDos D.mesh p.1 p.2 rank e) D.minEnergy D.maxEnergy D.delta D.size
    .ok (dosFile D.k false r)

end Verif.Model
