import Verif.Model.Utilities
import Mathlib.Algebra.Group.Defs
/-!
# src/mpi/mpiController.cpp and src/mpi/mpiController.h

MPI itself is modelled by the semantics of its collectives: a collective is a function from the
buffers of all ranks to the new buffers of all ranks.
-/
namespace Verif.Model

/-- `MPIcontroller::divideWork`, src/mpi/mpiController.cpp L169-175: start and stop of the tasks of
`rank` (`size_t` arithmetic, wrapping modulo 2^64). -/
def divideWork (numTasks rank size : Nat) : Nat × Nat :=
  (u64 (numTasks * rank) / size, u64 (numTasks * (rank + 1)) / size)

/-- `MPIcontroller::divideWorkIter`, src/mpi/mpiController.cpp L177-199 (for the rank and size of the
chosen communicator, L178-188).  If `stop < start` (possible only after wrap-around) the vector would be
allocated with a huge size: `stop - start` wraps; modelled as undefined. -/
def divideWorkIter (numTasks rank size : Nat) : Outcome (List Nat) :=
  let start := u64 (numTasks * rank) / size
  let stop := u64 (numTasks * (rank + 1)) / size
  if stop < start then .ub
  else .ok ((List.range (stop - start)).map (fun i => i + start))

/-- `MPIcontroller::workDivHelper`, src/mpi/mpiController.cpp L201-225: for each rank of the world
communicator the number of tasks and the first task, stored as `int`. -/
def workDivHelper (numTasks size : Nat) : List Int × List Int :=
  let heads := (List.range size).map (fun i => toInt32 (u64 (numTasks * i) / size))
  let tails := (List.range size).map (fun i => toInt32 (u64 (numTasks * (i + 1)) / size))
  (List.zipWith (fun t h => t - h) tails heads, heads)

/-- Writing the received block `xs` at position `d` of a buffer; `ub` when out of bounds. -/
def blit (buf : List α) (d : Nat) (xs : List α) : Outcome (List α) :=
  if d + xs.length ≤ buf.length then .ok (buf.take d ++ xs ++ buf.drop (d + xs.length)) else .ub

/-- Semantics of `MPI_Gatherv` / `MPI_Allgatherv` as seen by a receiving rank: the block sent by rank
`r` must have exactly `counts[r]` elements (otherwise the call is erroneous, modelled as `ub`) and is
written at `displs[r]`. -/
def mpiGatherv : List (List α) → List Int → List Int → List α → Outcome (List α)
  | [], [], [], buf => .ok buf
  | s :: ss, c :: cs, d :: ds, buf =>
    if (s.length : Int) = c ∧ 0 ≤ d then
      match blit buf d.toNat s with
      | .ok buf' => mpiGatherv ss cs ds buf'
      | o => o
    else .ub
  | _, _, _, _ => .ub

/-- `MPIcontroller::allGatherv`, src/mpi/mpiController.h L718-750 (and `gatherv`, L666-697, on the head):
`sends` are the `dataIn` of the ranks in rank order, `dataOut` the receive buffer whose size determines
counts and displacements. -/
def allGatherv (sends : List (List α)) (dataOut : List α) : Outcome (List α) :=
  let (workDivs, heads) := workDivHelper dataOut.length sends.length
  mpiGatherv sends workDivs heads dataOut

/-- Elementwise sum of the buffers of all ranks (semantics of `MPI_Allreduce` with `MPI_SUM`);
the buffers are functions of the element index. -/
def mpiSum [Add α] [Zero α] (bufs : List (Nat → α)) : Nat → α :=
  fun i => (bufs.map (fun b => b i)).foldr (· + ·) 0

/-- `MPIcontroller::allReduceSum(T* dataIn, T* dataOut)`, src/mpi/mpiController.h L518-535, compiled with
MPI: with a single rank it returns immediately, leaving the output buffer as it was.
Returns the output buffer (common to all ranks when there are several; each rank has its own initial
`dataOut`). -/
def allReduceSum2 [Add α] [Zero α] (ins : List (Nat → α)) (outs : List (Nat → α)) :
    List (Nat → α) :=
  if ins.length = 1 then outs
  else outs.map (fun _ => mpiSum ins)

/-- `MPIcontroller::allReduceSum(T* dataIn)` (in place), src/mpi/mpiController.h L563-582. -/
def allReduceSum1 [Add α] [Zero α] (ins : List (Nat → α)) : List (Nat → α) :=
  if ins.length = 1 then ins else ins.map (fun _ => mpiSum ins)

/-- Pool geometry of the constructor, src/mpi/mpiController.cpp L49-79, for requested pool size
`ps` (already parsed): `error` if zero or not a divisor of `size`; otherwise the pool id, rank in the
pool, and colour of the inter-pool communicator of `rank`.  `MPI_Comm_split(color, key = rank)` orders the
members of a group by world rank, so the rank in the pool is the number of smaller ranks of equal colour. -/
structure PoolInfo where
  poolId : Nat
  poolRank : Nat
  interColor : Nat
  interRank : Nat
  poolSize : Nat
deriving DecidableEq, Repr

/-- Rank inside the group of `MPI_Comm_split` with the given colours and key = world rank. -/
def splitRank (size : Nat) (color : Nat → Nat) (rank : Nat) : Nat :=
  ((List.range size).filter (fun r => color r == color rank && decide (r < rank))).length

/-- Size of the group of `MPI_Comm_split`. -/
def splitSize (size : Nat) (color : Nat → Nat) (rank : Nat) : Nat :=
  ((List.range size).filter (fun r => color r == color rank)).length

/-- src/mpi/mpiController.cpp L49-79. -/
def poolSetup (size ps rank : Nat) : Outcome PoolInfo :=
  if ps = 0 then .error
  else if size % ps ≠ 0 then .error
  else
    let poolSize := splitSize size (fun r => r / ps) rank
    if poolSize ≠ ps then .error
    else .ok
      { poolId := rank / ps
        poolRank := splitRank size (fun r => r / ps) rank
        interColor := rank % poolSize
        interRank := splitRank size (fun r => r % poolSize) rank
        poolSize := poolSize }

/-- `MPIcontroller::datatypeHelper`, src/mpi/mpiController.h L774-828: element offsets described by the
struct type made of `count / INT_MAX` blocks of `INT_MAX` elements followed by a remainder displaced by
`blockSize * INT_MAX` elements.  `M` is `INT_MAX`. -/
def datatypeOffsets (M count : Nat) : List Nat :=
  let blockSize := count / M
  let remain := count % M
  (List.range blockSize).flatMap (fun b => (List.range M).map (fun i => b * M + i))
    ++ (List.range remain).map (fun i => blockSize * M + i)

/-- Message sent by the process of world rank `worldRank` and rank `thisRank` in the communicator, in the
branch of `bigAllGatherV` for large arrays (src/mpi/mpiController.h L914-941): L930 uses
`workDivs[rank]` with the *world* rank.  Indexing a vector out of bounds is undefined. -/
def bigGatherSend (workDivs : List Nat) (worldRank : Nat) (dataIn : List α) : Outcome (List α) :=
  match workDivs[worldRank]? with
  | none => .ub
  | some n => if n ≤ dataIn.length then .ok (dataIn.take n) else .ub

/-- Message sent in the branch for small arrays (src/mpi/mpiController.h L871-886): `workDivs_[thisRank]`. -/
def smallGatherSend (workDivs : List Nat) (thisRank : Nat) (dataIn : List α) : Outcome (List α) :=
  match workDivs[thisRank]? with
  | none => .ub
  | some n => if n ≤ dataIn.length then .ok (dataIn.take n) else .ub

/-- Collect the messages of all members of a communicator. `worldRanks` lists the world ranks of its
members in communicator order. -/
def collectSends (f : Nat → Nat → List α → Outcome (List α)) :
    Nat → List Nat → List (List α) → Outcome (List (List α))
  | _, [], [] => .ok []
  | t, w :: ws, d :: ds =>
    match f t w d with
    | .ok m =>
      match collectSends f (t + 1) ws ds with
      | .ok ms => .ok (m :: ms)
      | o => o
    | .error => .error
    | .ub => .ub
    | .diverge => .diverge
  | _, _, _ => .ub

/-- The point-to-point receives of src/mpi/mpiController.h L889-912 on one process: from each rank `i` a
message of at most `workDivs[i]` elements is placed at `heads[i]` (a longer message is erroneous, a shorter
one is allowed by MPI and leaves the rest of the block as it was). -/
def mpiRecvAll : List (List α) → List Nat → List Nat → List α → Outcome (List α)
  | [], [], [], buf => .ok buf
  | s :: ss, c :: cs, d :: ds, buf =>
    if s.length ≤ c then
      match blit buf d s with
      | .ok buf' => mpiRecvAll ss cs ds buf'
      | o => o
    else .ub
  | _, _, _, _ => .ub

/-- `MPIcontroller::bigAllGatherV`, src/mpi/mpiController.h L830-950, compiled with MPI (version ≥ 3).
`M` is `INT_MAX`; `worldRanks` the members of the communicator; `datas` their input buffers. -/
def bigAllGatherV (M : Nat) (worldRanks : List Nat) (datas : List (List α))
    (workDivs heads : List Nat) (dataOut : List α) : Outcome (List α) :=
  if worldRanks.length = 1 then
    -- L847-852: copy of the first workDivs[0] elements; the counter is an `unsigned int` and never reaches 2^32
    match workDivs[0]?, datas[0]? with
    | some n, some d =>
      if n ≤ d.length then
        match blit dataOut 0 (d.take n) with
        | .ok buf => if n < 4294967296 then .ok buf else .diverge
        | o => o
      else .ub
    | _, _ => .ub
  else
    match heads.getLast?, workDivs.getLast? with
    | some h, some w =>
      if h + w < M then
        -- L861-886
        match collectSends (fun t _ d => smallGatherSend workDivs t d) 0 worldRanks datas with
        | .ok msgs => mpiGatherv msgs (workDivs.map Int.ofNat) (heads.map Int.ofNat) dataOut
        | .error => .error
        | .ub => .ub
        | .diverge => .diverge
      else
        -- L897-945
        match collectSends (fun _ wr d => bigGatherSend workDivs wr d) 0 worldRanks datas with
        | .ok msgs => mpiRecvAll msgs workDivs heads dataOut
        | .error => .error
        | .ub => .ub
        | .diverge => .diverge
    | _, _ => .ub

end Verif.Model
