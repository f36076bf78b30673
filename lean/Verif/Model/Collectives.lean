import Verif.Model.Mpi
import Verif.Model.IrrPoints
import Verif.Model.Bands

/-!
# Broadcasts and reductions over the communicators

src/mpi/mpiController.h L467-486, L563-664; src/mpi/mpiController.cpp L49-79 (pools) and L227-244.

The buffers of all processes are a list indexed by world rank.  `ps` is the size of the pools.
-/
namespace Verif.Model

variable {α : Type}

/-- The size of a container (`size_t`) passed as a count (`int`) to the MPI library: value modulo 2^32. -/
def intCount (n : Nat) : Int :=
  if n % 2 ^ 32 < 2 ^ 31 then ((n % 2 ^ 32 : Nat) : Int) else ((n % 2 ^ 32 : Nat) : Int) - 2 ^ 32

/-- `worldComm`, `intraPoolComm` and `interPoolComm`. -/
inductive MpiComm
  | world | intra | inter
deriving DecidableEq

/-- Processes with the same colour are in the same communicator, src/mpi/mpiController.cpp L60-79 and L227-244. -/
def MpiComm.color (c : MpiComm) (ps rank : Nat) : Nat :=
  match c with
  | .world => 0
  | .intra => rank / ps
  | .inter => rank % ps

/-- World ranks of the communicator of process `rank`, in the order of their ranks in it. -/
def MpiComm.group (c : MpiComm) (size ps rank : Nat) : List Nat :=
  (List.range size).filter fun r => c.color ps r == c.color ps rank

/-- The early returns of src/mpi/mpiController.h L471-472, L567-568, L588-589 (and L644, where the communicator is the
world). -/
def MpiComm.skips (c : MpiComm) (size ps : Nat) : Bool := size == 1 || (c == .intra && ps == 1)

/-- `MPI_Bcast` on one process, `src` the buffer of the root and `mine` the buffer of the process: negative counts are
refused by the library, different counts are undefined. -/
def mpiBcast (src mine : List α) : Outcome (List α) :=
  if intCount src.length < 0 ∨ intCount mine.length < 0 then .error
  else if intCount src.length ≠ intCount mine.length then .ub
  else .ok (src.take (intCount mine.length).toNat ++ mine.drop (intCount mine.length).toNat)

/-- `MPIcontroller::bcast`, src/mpi/mpiController.h L467-490: without `root` (negative) the root is process 0 of the
communicator (`mpiHeadId`, `mpiHeadPoolId`, `mpiHeadColsId`). -/
def bcast (c : MpiComm) (size ps : Nat) (root : Int) (bufs : List (List α)) : Outcome (List (List α)) :=
  if c.skips size ps then .ok bufs
  else mapOutcome (fun rank =>
    match (c.group size ps rank)[(if root < 0 then 0 else root.toNat)]? with
    | none => .error
    | some w => do
      let src ← readAt bufs w
      let mine ← readAt bufs rank
      mpiBcast src mine) (List.range size)

/-- Elementwise combination of the buffers of a communicator, from the first to the last. -/
def combineAll (op : α → α → α) : List (List α) → List α
  | [] => []
  | b :: bs => bs.foldl (List.zipWith op) b

/-- `MPI_Allreduce` in place on one process: `members` are the buffers of the communicator, combined in an `order` chosen
by the library. -/
def mpiAllreduce (op : α → α → α) (order : List (List α) → List (List α)) (members : List (List α)) (mine : List α) :
    Outcome (List α) :=
  if intCount mine.length < 0 then .error
  else if members.any fun b => intCount b.length != intCount mine.length then .ub
  else .ok (combineAll op ((order members).map (List.take (intCount mine.length).toNat)) ++
    mine.drop (intCount mine.length).toNat)

/-- `allReduceSum`, `allReduceMax` and `allReduceMin`, src/mpi/mpiController.h L563-606 and L641-657, with `op` addition,
maximum and minimum. -/
def allReduce (op : α → α → α) (order : List (List α) → List (List α)) (c : MpiComm) (size ps : Nat)
    (bufs : List (List α)) : Outcome (List (List α)) :=
  if c.skips size ps then .ok bufs
  else mapOutcome (fun rank => do
    let members ← mapOutcome (readAt bufs) (c.group size ps rank)
    let mine ← readAt bufs rank
    mpiAllreduce op order members mine) (List.range size)

end Verif.Model
