import Verif.Model.Dos
import Verif.Model.IrrPoints
import Verif.Model.BandsFile

/-!
# The applications of the density of states: src/apps/dos_app.cpp

From the Hamiltonian to the file, on all processes.
-/
namespace Verif.Model

/-- The file of the density of states, src/apps/dos_app.cpp L190-196. -/
structure DosFile where
  energies : List ℝ
  dos : List ℝ
  particle : String
  energyUnit : String
  dosUnit : String

/-- `outputDOSToJSON`, src/apps/dos_app.cpp L176-201, on the head (L179: the others return). -/
noncomputable def dosFile (k : TimeConstants) (phonon : Bool) (t : List ℝ × List ℝ) : DosFile :=
  ⟨(dosOutput k phonon t).1, (dosOutput k phonon t).2, if phonon then "phonon" else "electron",
    if phonon then "meV" else "eV", if phonon then "1/meV" else "1/eV"⟩

/-- Cartesian coordinates of a point of the mesh as the Hamiltonian gets them: `FullBandStructure::getWavevector`,
src/bands/bandstructure.cpp L306-310.  `wrap` is `bzToWs` on Cartesian coordinates (C16 and C17, for rational numbers). -/
noncomputable def meshWave (cell : Cell) (wrap : Vec3 → Vec3) (mesh : V3 Int) (ik : Nat) : Vec3 :=
  let p := meshCoordinates mesh ⟨0, 0, 0⟩ (ik : Int)
  wrap (cell.crystalToCartesian ![(p.x : ℝ), (p.y : ℝ), (p.z : ℝ)])

/-- What sets the Hamiltonians apart: the calls that fill the band structure, from the wavevectors of a process.  `phonon`
with the size of the batches (the result of `estimateBatchSize`) and the order in which the threads make the calls of a
batch; `wannier` with the order of the calls; `fourier` without threads. -/
inductive Filler where
  | phonon (batchSize : Int) (sched : Nat → List FullStore × List FullStore → List FullStore)
  | wannier (sched : Nat → List FullStore → List FullStore)
  | fourier

/-- The particle. -/
def Filler.isPhonon : Filler → Bool
  | .phonon .. => true
  | _ => false

/-- The calls of process `rank`, with neither velocities nor eigenvectors (src/apps/dos_app.cpp L37-41, L71-75 and
L105-109). -/
def Filler.stores (h : Filler) (rank : Nat) (iks : List Nat) : Outcome (List FullStore) :=
  match h with
  | .phonon batchSize sched => do
    let bs ← phononStores false false batchSize iks
    .ok (bs.map (sched rank)).flatten
  | .wannier sched => .ok (sched rank (wannierStores false false iks))
  | .fourier => .ok (fourierStores false iks)

/-- The band structure of process `rank`: src/apps/dos_app.cpp L34-41, L68-75 and L102-109. -/
noncomputable def dosBands (h : Filler) (nb : Nat) (H : HamView Vec3 ℝ ℂ) (cell : Cell) (wrap : Vec3 → Vec3)
    (mesh : V3 Int) (size rank : Nat) : Outcome (FullBands ℝ ℂ) := do
  let F ← FullBands.make size nb (mesh.x * mesh.y * mesh.z).toNat h.isPhonon false false false
  let iks ← F.wavevectorIndices rank
  let ss ← h.stores rank iks
  fullRun H (meshWave cell wrap mesh) rank ss F

/-- The symmetries of the mesh, src/apps/dos_app.cpp L35, L69 and L103. -/
def dosPoints (rots : List M3) (mesh : V3 Int) (size rank : Nat) : Outcome IrrPoints :=
  setIrreduciblePoints size rank (mesh.x * mesh.y * mesh.z).toNat (fun k => meshCoordinates mesh ⟨0, 0, 0⟩ (k : Int))
    (fun p => .ok (isPointStoredMesh mesh ⟨0, 0, 0⟩ p)) rots none []

/-- `getDOS` on process `rank`, with its points and bands: the state of point `ik` and band `ib` is `ik * numBands + ib`. -/
noncomputable def processDos (mesh : V3 Int) (s : IrrPoints) (F : FullBands ℝ ℂ) (rank : Nat) (e : ℝ) : Outcome ℝ :=
  tetraDosFrom mesh F.numBands (fun ik ib => F.getStateEnergy rank ((ik * F.numBands + ib : Nat) : Int))
    (s.irrPointsIterator (mesh.x * mesh.y * mesh.z).toNat) (fun ik => do
      let r ← s.getRotationsStar ik
      .ok r.length) e

/-- `PhononDosApp::run`, `ElectronWannierDosApp::run` and `ElectronFourierDosApp::run`, src/apps/dos_app.cpp L25-122, after
the parser, on `size` processes: the file of the head. -/
noncomputable def dosApp (k : TimeConstants) (h : Filler) (nb : Nat) (H : HamView Vec3 ℝ ℂ) (cell : Cell)
    (wrap : Vec3 → Vec3) (rots : List M3) (mesh : V3 Int) (minEnergy maxEnergy delta : ℝ) (size : Nat) :
    Outcome DosFile := do
  let sf ← mapOutcome (fun rank => do
    let s ← dosPoints rots mesh size rank
    let F ← dosBands h nb H cell wrap mesh size rank
    .ok (s, F)) (List.range size)
  let t ← calcDos (fun rank e => do
    let p ← readAt sf rank
    processDos mesh p.1 p.2 rank e) minEnergy maxEnergy delta size
  .ok (dosFile k h.isPhonon t)

end Verif.Model
