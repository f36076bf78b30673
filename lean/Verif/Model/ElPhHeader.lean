import Verif.Model.ElPhRead
import Verif.Model.Bands

/-!
# Header of the file of the electron-phonon coupling, src/interaction/interaction_elph_parsing.cpp L163-270

What `parseHeaderHDF5` leaves on each process: lattice vectors and degeneracies that go with the coupling tensor.  A lattice
vector is an element of a type `V` (a column of the matrix), a degeneracy of a type `D`.  HDF5 datasets are taken as the
lists of their elements; a file that can not be read is an error on all the processes and is not modelled.
-/
namespace Verif.Model

/-- The datasets of the header that are read. -/
structure ElPhFile (V D : Type) where
  numElectrons : Int
  numSpin : Int
  numElBands : Nat
  numPhModes : Nat
  phVectors : List V
  phDegeneracies : List D
  elVectors : List V
  elDegeneracies : List D

/-- What a process has in the end: the values returned and the number of electrons given to the context. -/
structure ElPhHeader (V D : Type) where
  numElBands : Nat
  numPhBands : Nat
  totalEl : Nat
  elVectors : List V
  phVectors : List V
  localEl : List Nat
  elDegeneracies : List D
  phDegeneracies : List D
  occupied : Int

/-- A process of the first pool after it has read the file, src/interaction/interaction_elph_parsing.cpp L180-229: if there is
more than one process in the pool, it keeps the vectors of its share.  Eigen's vectors are read without a test of the
index. -/
def headPoolHeader {V D : Type} (f : ElPhFile V D) (poolRank poolSize : Nat) : Outcome (ElPhHeader V D) := do
  let total := f.elDegeneracies.length
  if 1 < poolSize then
    let w ← divideWorkIter total poolRank poolSize
    let deg ← mapOutcome (readAt f.elDegeneracies) w
    let vec ← mapOutcome (readAt f.elVectors) w
    .ok ⟨f.numElBands, f.numPhModes, total, vec, f.phVectors, w, deg, f.phDegeneracies, f.numElectrons⟩
  else
    .ok ⟨f.numElBands, f.numPhModes, total, f.elVectors, f.phVectors, [], f.elDegeneracies, f.phDegeneracies,
      f.numElectrons⟩

/-- World rank of the process that sends in `bcast(..., interPoolComm)`: rank 0 of the group of processes with the same colour
(src/mpi/mpiController.cpp L72-78 and L237-239; `MPI_Comm_split` orders the group by world rank). -/
def interRoot (size poolSize rank : Nat) : Option Nat :=
  (List.range size).find? fun r => r % poolSize == rank % poolSize

/-- `MPI_Bcast`, src/mpi/mpiController.h L470-490, seen by a receiver with a buffer of `length` elements: it gets the data of the
sender.  Numbers of elements that are not the same are undefined behaviour. -/
def bcastInto {α : Type} (length : Nat) (root : List α) : Outcome (List α) :=
  if length = root.length then .ok root else .ub

/-- `parseHeaderHDF5`, src/interaction/interaction_elph_parsing.cpp L163-270, on the process of world rank `rank`.  The numbers of
L232-236 come from world rank 0, which has read them from the file; those of L237-239 and the vectors from the process of
the first pool with the same rank in its pool. -/
def elphHeader {V D : Type} (f : ElPhFile V D) (size ps rank : Nat) : Outcome (ElPhHeader V D) := do
  let me ← poolSetup size ps rank
  match interRoot size ps rank with
  | none => .ub
  | some r => do
    let sender ← poolSetup size ps r
    -- the sender has nothing to send if it has not read the file
    if sender.poolId ≠ 0 then .ub else do
    let root ← headPoolHeader f sender.poolRank sender.poolSize
    if f.numSpin = 2 then .error else do
    -- sizes of the buffers and `localElVectors`
    let (nElV, nElD, nPhV, nPhD, w) ←
      if me.poolId = 0 then do
        let own ← headPoolHeader f me.poolRank me.poolSize
        .ok (own.elVectors.length, own.elDegeneracies.length, own.phVectors.length, own.phDegeneracies.length,
          own.localEl)
      else do
        let w ← divideWorkIter root.totalEl me.poolRank me.poolSize
        let n := root.elDegeneracies.length
        .ok (n, n, f.phVectors.length, f.phVectors.length, w)
    let elV ← bcastInto nElV root.elVectors
    let elD ← bcastInto nElD root.elDegeneracies
    let phV ← bcastInto nPhV root.phVectors
    let phD ← bcastInto nPhD root.phDegeneracies
    .ok ⟨f.numElBands, f.numPhModes, root.totalEl, elV, phV, w, elD, phD, f.numElectrons⟩

/-- The tensor of a process from a file of the first format with HDF5 that is not parallel,
src/interaction/interaction_elph_parsing.cpp L466-504; `h` is the header of the process of the first pool that reads and
sends.  Products of `double`s (L500-501) are taken as exact. -/
def v1Serial {α V D : Type} (data : List α) (perBV poolSize : Nat) (h : ElPhHeader V D) : Outcome (List α) :=
  if poolSize = 1 then .ok data
  else
    match h.localEl.head? with
    | some first => selectData data (first * perBV) (h.elDegeneracies.length * perBV)
    | none => .ub

end Verif.Model
