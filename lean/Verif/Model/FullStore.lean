import Verif.Model.ActiveStore
import Verif.Model.Device

/-!
# Values stored in a full band structure: src/bands/bandstructure.cpp

The constructor, the functions that write the energies, velocities and eigenvectors of a wavevector, the functions that
read them, and the loops of the three Hamiltonians that fill the band structure.  Everything is seen from one process,
of rank `rank` in the row of processes.  Wavevector and band indices are natural numbers; combined indices are computed
with the checked 32-bit functions of `Verif.Model.Utilities`.
-/
namespace Verif.Model

/-- `Matrix<T>`, src/algebra/Matrix.h L28-41: a serial matrix, or the part of a parallel matrix held by the process. -/
inductive BandMat (α : Type) where
  | serial (m : SMat α)
  | parallel (L : Layout) (m : DistData α)

/-- `Matrix<T>(rows, cols, 1, min(size, cols), isDistributed)`, src/algebra/Matrix.h L195-207 and
src/bands/bandstructure.cpp L29-64: a matrix of zeros. -/
def BandMat.make {α : Type} [Zero α] (size rows cols : Nat) (distributed : Bool) : Outcome (BandMat α) :=
  if distributed then do
    let L ← mkLayout size rows cols 1 (min size cols) 0 0
    .ok (.parallel L fun _ _ _ => 0)
  else .ok (.serial (SMat.zeros rows cols))

/-- `Matrix<T>()`, src/algebra/Matrix.h L209-216: a serial matrix without elements. -/
def BandMat.empty {α : Type} : BandMat α := .serial ⟨0, 0, []⟩

/-- `indicesAreLocal`, src/algebra/Matrix.h L308-312 and src/algebra/PMatrix.h L523-531. -/
def BandMat.holds {α : Type} (rank : Nat) (row col : Nat) : BandMat α → Bool
  | .serial _ => true
  | .parallel L _ => decide (L.global2Local 0 rank row col ≠ -1)

/-- `operator()` for reading, src/algebra/SMatrix.h L294-301 and src/algebra/PMatrix.h L512-521. -/
def BandMat.get {α : Type} [Zero α] (rank : Nat) (row col : Nat) : BandMat α → Outcome α
  | .serial m => m.get row col
  | .parallel L m => .ok (L.get m 0 rank row col)

/-- `operator()` for writing, src/algebra/SMatrix.h L286-292 and src/algebra/PMatrix.h L502-510. -/
def BandMat.set {α : Type} (rank : Nat) (row col : Nat) (v : α) : BandMat α → Outcome (BandMat α)
  | .serial m => do
    let m' ← m.set row col v
    .ok (.serial m')
  | .parallel L m => .ok (.parallel L (L.set m 0 rank row col v))

/-- `localRows`, src/algebra/Matrix.h (the rows of a serial matrix are all local). -/
def BandMat.localRows {α : Type} (rank : Nat) : BandMat α → Nat
  | .serial m => m.numRows
  | .parallel L _ => let _ := rank; L.localRows 0

/-- `localCols`. -/
def BandMat.localCols {α : Type} (rank : Nat) : BandMat α → Nat
  | .serial m => m.numCols
  | .parallel L _ => L.localCols rank

/-- `getAllLocalStates`, src/algebra/SMatrix.h L326-334 and src/algebra/PMatrix.h L598-606: rows and columns of the
local elements. -/
def BandMat.localElems {α : Type} (rank : Nat) : BandMat α → Outcome (List (Nat × Nat))
  | .serial m => mapOutcome m.local2Global (List.range (m.numRows * m.numCols))
  | .parallel L _ => .ok (L.getAllLocalStates 0 rank)

/-- The data of a `FullBandStructure`, src/bands/bandstructure.h. -/
structure FullBands (α γ : Type) where
  numBands : Nat
  numPoints : Nat
  hasVelocities : Bool
  hasEigenvectors : Bool
  energies : BandMat α
  velocities : BandMat γ
  eigenvectors : BandMat γ

/-- Constructor, src/bands/bandstructure.cpp L17-68: more processes than points are refused; the number of atoms is
`numBands / 3`.  Simplification: allocation does not fail and the numbers of elements fit an `int`. -/
def FullBands.make {α γ : Type} [Zero α] [Zero γ] (size numBands numPoints : Nat)
    (phonon withVelocities withEigenvectors distributed : Bool) : Outcome (FullBands α γ) :=
  if size > numPoints then .error
  else do
    let e ← BandMat.make size numBands numPoints distributed
    let v ← (if withVelocities then BandMat.make size (numBands * numBands * 3) numPoints distributed else .ok .empty)
    let u ← (if withEigenvectors then
        BandMat.make size (if phonon then 3 * (numBands / 3) * numBands else numBands * numBands) numPoints distributed
      else .ok .empty)
    .ok ⟨numBands, numPoints, withVelocities, withEigenvectors, e, v, u⟩

/-- `getWavevectorIndices`, src/bands/bandstructure.cpp L154-163. -/
def FullBands.wavevectorIndices {α γ : Type} (F : FullBands α γ) (rank : Nat) : Outcome (List Nat) := do
  let l ← F.energies.localElems rank
  .ok (toSortedSet (l.map (·.2)))

/-! ## Writing -/

/-- The last part of the three setters, src/bands/bandstructure.cpp L333-341, L361-371 and L384-391: the column `ik` is
refused if it is not local; then every row is assigned. -/
def BandMat.setColumn {α : Type} (rank ik : Nat) (xs : List α) (m : BandMat α) : Outcome (BandMat α) :=
  if m.holds rank 0 ik then
    foldOutcome (fun (ib : Nat) (a : BandMat α) => do
      let x ← readAt xs ib
      a.set rank ib ik x) (List.range (m.localRows rank)) m
  else .error

/-- `setEnergies`, src/bands/bandstructure.cpp L331-341; the index of the point is `ik`. -/
def FullBands.setEnergies {α γ : Type} (rank ik : Nat) (e : List α) (F : FullBands α γ) : Outcome (FullBands α γ) := do
  let m ← F.energies.setColumn rank ik e
  .ok { F with energies := m }

/-- Conversion of the tensor of velocities to a vector, src/bands/bandstructure.cpp L350-360.  Simplification: the
vector starts from zeros (Eigen does not initialise it). -/
def velocityColumn {γ : Type} [Zero γ] (numBands : Nat) (v : Nat → Nat → Nat → γ) : Outcome (List γ) := do
  let ws ← mapOutcome (fun (t : Nat × Nat × Nat) => do
      let idx ← compress3Indices t.1 t.2.1 t.2.2 numBands numBands 3
      .ok (idx.toNat, v t.1 t.2.1 t.2.2))
    ((List.range numBands).flatMap fun i => (List.range numBands).flatMap fun j => (List.range 3).map fun k => (i, j, k))
  writeAll ws (List.replicate (numBands * numBands * 3) 0)

/-- `setVelocities`, src/bands/bandstructure.cpp L343-372. -/
def FullBands.setVelocities {α γ : Type} [Zero γ] (rank ik : Nat) (v : Nat → Nat → Nat → γ) (F : FullBands α γ) :
    Outcome (FullBands α γ) :=
  if F.hasVelocities then do
    let tmp ← velocityColumn F.numBands v
    let m ← F.velocities.setColumn rank ik tmp
    .ok { F with velocities := m }
  else .error

/-- Conversion of the matrix of eigenvectors to a vector, src/bands/bandstructure.cpp L380-387; simplification as for
the velocities. -/
def vectorColumn {γ : Type} [Zero γ] (numBands : Nat) (u : Nat → Nat → γ) : Outcome (List γ) := do
  let ws ← mapOutcome (fun (t : Nat × Nat) => do
      let idx ← compress2Indices t.1 t.2 numBands numBands
      .ok (idx.toNat, u t.1 t.2))
    ((List.range numBands).flatMap fun i => (List.range numBands).map fun j => (i, j))
  writeAll ws (List.replicate (numBands * numBands) 0)

/-- `setEigenvectors`, src/bands/bandstructure.cpp L374-396. -/
def FullBands.setEigenvectors {α γ : Type} [Zero γ] (rank ik : Nat) (u : Nat → Nat → γ) (F : FullBands α γ) :
    Outcome (FullBands α γ) :=
  if F.hasEigenvectors then do
    let tmp ← vectorColumn F.numBands u
    let m ← F.eigenvectors.setColumn rank ik tmp
    .ok { F with eigenvectors := m }
  else .error

/-! ## Reading -/

/-- `getEnergy(ik, ib)`, src/bands/bandstructure.cpp L186-193. -/
def FullBands.getEnergy {α γ : Type} [Zero α] (F : FullBands α γ) (rank ik ib : Nat) : Outcome α :=
  if F.energies.holds rank ib ik then F.energies.get rank ib ik else .error

/-- `getEnergy(is)`, src/bands/bandstructure.cpp L195-204. -/
def FullBands.getStateEnergy {α γ : Type} [Zero α] (F : FullBands α γ) (rank : Nat) (is : Int) : Outcome α := do
  let t ← decompress2Indices is F.numPoints F.numBands
  if F.energies.holds rank t.2.toNat t.1.toNat then F.energies.get rank t.2.toNat t.1.toNat else .error

/-- `getEnergies(ik)`, src/bands/bandstructure.cpp L206-215. -/
def FullBands.getEnergies {α γ : Type} [Zero α] (F : FullBands α γ) (rank ik : Nat) : Outcome (List α) :=
  if F.energies.holds rank 0 ik then mapOutcome (fun ib => F.energies.get rank ib ik) (List.range F.numBands) else .error

/-- `getGroupVelocity(is)`, src/bands/bandstructure.cpp L217-231; `re` is the real part. -/
def FullBands.getGroupVelocity {α γ : Type} [Zero γ] (F : FullBands α γ) (re : γ → α) (rank : Nat) (is : Int) :
    Outcome (List α) := do
  let t ← decompress2Indices is F.numPoints F.numBands
  if F.velocities.holds rank t.2.toNat t.1.toNat then
    mapOutcome (fun i : Nat => do
      let ind ← compress3Indices t.2 t.2 i F.numBands F.numBands 3
      let v ← F.velocities.get rank ind.toNat t.1.toNat
      .ok (re v)) (List.range 3)
  else .error

/-- `getGroupVelocities(ik)`, src/bands/bandstructure.cpp L233-246. -/
def FullBands.getGroupVelocities {α γ : Type} [Zero γ] (F : FullBands α γ) (re : γ → α) (rank ik : Nat) :
    Outcome (List (List α)) :=
  if F.velocities.holds rank 0 ik then
    mapOutcome (fun ib : Nat => mapOutcome (fun i : Nat => do
      let ind ← compress3Indices ib ib i F.numBands F.numBands 3
      let v ← F.velocities.get rank ind.toNat ik
      .ok (re v)) (List.range 3)) (List.range F.numBands)
  else .error

/-- `getVelocities(ik)`, src/bands/bandstructure.cpp L248-264. -/
def FullBands.getVelocities {α γ : Type} [Zero γ] (F : FullBands α γ) (rank ik : Nat) :
    Outcome (List (List (List γ))) :=
  if F.velocities.holds rank 0 ik then
    mapOutcome (fun ib1 : Nat => mapOutcome (fun ib2 : Nat => mapOutcome (fun i : Nat => do
      let ind ← compress3Indices ib1 ib2 i F.numBands F.numBands 3
      F.velocities.get rank ind.toNat ik) (List.range 3)) (List.range F.numBands)) (List.range F.numBands)
  else .error

/-- `getEigenvectors(ik)`, src/bands/bandstructure.cpp L266-281. -/
def FullBands.getEigenvectors {α γ : Type} [Zero γ] (F : FullBands α γ) (rank ik : Nat) : Outcome (List (List γ)) :=
  if F.eigenvectors.holds rank 0 ik then
    mapOutcome (fun ib1 : Nat => mapOutcome (fun ib2 : Nat => do
      let ind ← compress2Indices ib1 ib2 F.numBands F.numBands
      F.eigenvectors.get rank ind.toNat ik) (List.range F.numBands)) (List.range F.numBands)
  else .error

/-- `getPhEigenvectors(ik)`, src/bands/bandstructure.cpp L283-299: for each component, atom and band. -/
def FullBands.getPhEigenvectors {α γ : Type} [Zero γ] (F : FullBands α γ) (rank ik : Nat) :
    Outcome (List (List (List γ))) :=
  if F.eigenvectors.holds rank 0 ik then
    mapOutcome (fun ic : Nat => mapOutcome (fun ia : Nat => mapOutcome (fun ib : Nat => do
      let ind ← compress3Indices ia ic ib (F.numBands / 3 : Nat) 3 F.numBands
      F.eigenvectors.get rank ind.toNat ik) (List.range F.numBands)) (List.range (F.numBands / 3))) (List.range 3)
  else .error

/-- `getBandEnergies(ib)`, src/bands/bandstructure.cpp L391-401. -/
def FullBands.getBandEnergies {α γ : Type} [Zero α] (F : FullBands α γ) (rank ib : Nat) : Outcome (List α) := do
  let iks ← F.wavevectorIndices rank
  mapOutcome (fun i => do
    let ik ← readAt iks i
    F.energies.get rank ib ik) (List.range (F.energies.localCols rank))

/-! ## Filling -/

/-- A call of one of the setters for the wavevector of index `ik`. -/
inductive FullStore where
  | energies (ik : Nat)
  | velocities (ik : Nat)
  | eigenvectors (ik : Nat)
deriving DecidableEq

/-- The wavevector of a call. -/
def FullStore.point : FullStore → Nat
  | .energies ik => ik
  | .velocities ik => ik
  | .eigenvectors ik => ik

/-- The call, with the values of the Hamiltonian at the wavevector `coords ik` (the point taken from the band structure
has the index `ik`). -/
def FullStore.run {κ α γ : Type} [Zero γ] (H : HamView κ α γ) (coords : Nat → κ) (rank : Nat) (s : FullStore)
    (F : FullBands α γ) : Outcome (FullBands α γ) :=
  match s with
  | .energies ik => F.setEnergies rank ik ((List.range F.numBands).map (H.energy (coords ik)))
  | .velocities ik => F.setVelocities rank ik (H.velocity (coords ik))
  | .eigenvectors ik => F.setEigenvectors rank ik (H.vector (coords ik))

/-- Calls one after the other.  Simplification: the calls made by different threads (for different wavevectors, that is
different columns) are not interleaved. -/
def fullRun {κ α γ : Type} [Zero γ] (H : HamView κ α γ) (coords : Nat → κ) (rank : Nat) (ss : List FullStore)
    (F : FullBands α γ) : Outcome (FullBands α γ) :=
  foldOutcome (FullStore.run H coords rank) ss F

/-- `ElectronH0Fourier::populate`, src/harmonic/electron_h0_fourier.cpp L123-152: the calls for the wavevectors `iks`, in
order.  The eigenvectors are not set, even if they are wanted. -/
def fourierStores (withVelocities : Bool) (iks : List Nat) : List FullStore :=
  iks.flatMap fun ik => .energies ik :: (if withVelocities then [.velocities ik] else [])

/-- `ElectronH0Wannier::populate`, src/harmonic/electron_h0_wannier.cpp L361-437: the calls for the wavevectors `iks`; the loop
is shared by threads (L402).  The results of the device are indexed by the position in `iks` (`C106_points_partial`). -/
def wannierStores (withVelocities withEigenvectors : Bool) (iks : List Nat) : List FullStore :=
  iks.flatMap fun ik => .energies ik :: ((if withVelocities then [.velocities ik] else []) ++
    (if withEigenvectors then [.eigenvectors ik] else []))

/-- One batch of `PhononH0::kokkosPopulate`, src/harmonic/phonon_h0_kokkos.cpp L317-357: the calls of the loop shared by
threads (L319) and those of the loop over the velocities. -/
def phononBatchStores (withVelocities withEigenvectors : Bool) (batch : List Nat) : List FullStore × List FullStore :=
  (batch.flatMap fun ik => .energies ik :: (if withEigenvectors then [.eigenvectors ik] else []),
   if withVelocities then batch.map .velocities else [])

/-- `PhononH0::kokkosPopulate`, src/harmonic/phonon_h0_kokkos.cpp L257-362: the calls, batch by batch. -/
def phononStores (withVelocities withEigenvectors : Bool) (batchSize : Int) (iks : List Nat) :
    Outcome (List (List FullStore × List FullStore)) := do
  let r ← splitToBatches iks batchSize
  .ok (r.1.map (phononBatchStores withVelocities withEigenvectors))

end Verif.Model
