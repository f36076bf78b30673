import Verif.Model.Atoms
import Verif.Model.BandsFile
import Verif.Model.WannierFile

/-!
# From the files of Wannier90 to the file of the electron bands

src/apps/bands_app.cpp L47-72: `ElectronWannierBandsApp::run` with the parser, the constructor of `Crystal`, `ElectronH0Wannier::populate` and the output.
-/
namespace Verif.Model

variable {W R : Nat}

/-- What the run depends on besides the files: the constants `energyRyToEv` and `distanceBohrToAng`, the atoms of the input file, the path, the result of
`estimateBatchSize`, the process, and the external calls.  `eig` is the eigensolver, `sched` the order in which the threads set the energies. -/
structure WannierApp where
  ry : ℝ
  ang : ℝ
  want : Bool
  positions : List Vec3
  species : List Int
  names : List (List Char)
  eig : (W : Nat) → ElSolver W
  segs : List Segment
  delta : ℝ
  batchSize : Int
  sched : List FullStore → List FullStore
  size : Nat
  rank : Nat

/-- `ElectronH0Wannier::kokkosBatchedDiagonalizeFromCoordinates`, src/harmonic/electron_h0_wannier.cpp L855-875: the energies of the wavevectors of a batch. -/
noncomputable def elKernel (eig : ElSolver W) (w : WannierData W R) (ks : List Vec3) : Outcome (List (Fin W → ℝ)) :=
  mapOutcome (fun k => do
    let h ← devBloch w k
    .ok (eig h).1) ks

/-- The energies that `ElectronH0Wannier::populate` sets for the wavevector `ik`, src/harmonic/electron_h0_wannier.cpp L402-413: those at the position of `ik` in the
list of the wavevectors of the process. -/
noncomputable def populatedView (iks : List Nat) (es : List (Option (Fin W → ℝ))) : HamView Nat ℝ ℂ where
  energy ik b := match es[iks.idxOf ik]? with
    | some (some e) => if h : b < W then e ⟨b, h⟩ else 0
    | _ => 0
  vector _ _ _ := 0
  velocity _ _ _ _ := 0

/-- `ElectronWannierBandsApp::run`, src/apps/bands_app.cpp L47-72, with src/parser/qe_input_parser.cpp L883-1063, src/crystal.cpp L22-116 and
src/harmonic/electron_h0_wannier.cpp L361-437.  `populate` takes the coordinates from the points, without folding them into the Wigner-Seitz cell (L384).
Simplification: the masses that the input file may contain and the symmetries of the crystal are not used. -/
noncomputable def WannierApp.run (A : WannierApp) (tb : List TextLine) (wsVec : Option (Bool × List TextLine)) : Outcome (Option BandsFile) := do
  let t ← parseWannier A.ry A.ang none tb wsVec
  let _ ← wannierMasses elementTable A.names
  let cell ← makeCell t.cell
  if A.species.length ≠ A.positions.length then .error
  else do
    let _ ← mapOutcome (getMassVariance elementTable) A.names
    let ns ← mapOutcome (readInt A.names) A.species
    let pts ← pathPoints A.segs A.delta
    let F ← FullBands.make A.size t.numWannier pts.length false false false false
    let iks ← F.wavevectorIndices A.rank
    let es ← elKokkosPopulate (elKernel (A.eig t.numWannier) t.data) (iks.map (pathWave cell id pts)) (iks.map Int.ofNat) A.batchSize
    let F ← fullRun (populatedView iks es) id A.rank (A.sched (wannierStores false false iks)) F
    outputBandsToJSON A.ry A.ang false A.want ⟨t.cell, A.positions, ns.map String.ofList⟩ A.segs pts F A.rank

end Verif.Model
