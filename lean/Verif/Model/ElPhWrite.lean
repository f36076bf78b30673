import Verif.Model.ElPhRead

/-!
# src/apps/qe_to_phoebe_utils.cpp: writing of the electron-phonon coupling in Wannier space

As in `Verif.Model.ElPhRead`, the coupling tensor is modelled by its memory, `perBV` elements for each electron lattice
vector, and an HDF5 dataset by the list of its elements.  Arithmetic on `size_t` is taken without wrap-around.  The
header (`writeHeaderHDF5`, L375-444) copies numbers to datasets and is not modelled.  `writeElPhCouplingNoHDF5`
(L725-829) is not modelled: its only call (L864-867) passes a name that is not declared, so that the program without
HDF5 does not compile.
-/
namespace Verif.Model

/-- `select({0, offset}, {1, count}).write_raw(...)`, src/apps/qe_to_phoebe_utils.cpp L570: outside of the dataset HDF5
throws, and the exception is turned into an error (L620-622). -/
def selectWrite {α : Type} (file : List α) (offset : Nat) (xs : List α) : Outcome (List α) :=
  if offset + xs.length ≤ file.length then .ok (file.take offset ++ xs ++ file.drop (offset + xs.length)) else .error

/-- Writes to the dataset, one after the other. -/
def applyWrites {α : Type} (file : List α) : List (Nat × List α) → Outcome (List α)
  | [] => .ok file
  | w :: ws => do
    let file' ← selectWrite file w.1 w.2
    applyWrites file' ws

/-- `int gwanSliceStart = bunchStart`, src/apps/qe_to_phoebe_utils.cpp L555-563: conversion of a `size_t` to a 32-bit
`int` (modulo 2^32, as GNU and LLVM do). -/
def sliceToInt (x : Nat) : Int := ((x : Int) + 2147483648) % 4294967296 - 2147483648

/-- The loop over bunches of one process, src/apps/qe_to_phoebe_utils.cpp L541-571: what it writes and where.  `gwan` is
the memory of the process, `bs` are the numbers of elements of the bunches, `net` is `netOffset`.  Reading outside of
`gwan` is undefined behaviour (the pointer to the end is not, if the bunch is empty: Eigen's assertions are off). -/
def writeBunches {α : Type} (gwan : List α) (distributed : Bool) (start : Nat) :
    List Nat → Nat → Outcome (List (Nat × List α))
  | [], _ => .ok []
  | b :: bs, net =>
    let sliceStart : Int := if distributed then 0 else sliceToInt (start + net)
    if sliceStart < 0 ∨ (gwan.length : Int) < sliceStart + b then .ub
    else do
      let rest ← writeBunches gwan distributed start bs (net + b)
      .ok ((start + net, (gwan.drop sliceStart.toNat).take b) :: rest)

/-- What one process writes, `writeElPhCouplingHDF5v1`, src/apps/qe_to_phoebe_utils.cpp L462-467 and L482-573 (MPI and
parallel HDF5).  `dim` is `gWannier.dimension(4)`.  The sizes of the bunches are computed (L514-535) as when the file is read.
The first and last elements of the share of the process are read without testing that there are any. -/
def v1WriteProcess {α : Type} (gwan : List α) (dim numVectors perBV rank size : Nat) :
    Outcome (List (Nat × List α)) := do
  let w ← divideWorkIter numVectors rank size
  match w.head?, w.getLast? with
  | some first, some last =>
    writeBunches gwan (dim != numVectors) (first * perBV) ((bunchSizes perBV (last + 1 - first)).map fun n => n * perBV) 0
  | _, _ => .ub

/-- All that is written by the `size` processes; `mems` are the dimensions and memories of the tensor of each. -/
def v1Writes {α : Type} (mems : Nat → Nat × List α) (numVectors perBV size : Nat) : Outcome (List (Nat × List α)) := do
  let ws ← mapOutcome (fun r => v1WriteProcess (mems r).2 (mems r).1 numVectors perBV r size) (List.range size)
  .ok ws.flatten

/-- The tensor `gWannierRed` of one process before the sum, src/apps/qe_to_phoebe_utils.cpp L578-598: zero but for the
vectors `w` of the share of the process. -/
def serialPart {α : Type} [Zero α] (gwan : List α) (perBV : Nat) (w : List Nat) (x : Nat) : α :=
  if x / perBV ∈ w then gwan.getD ((x / perBV - w.headD 0) * perBV + x % perBV) 0 else 0

/-- `writeElPhCouplingHDF5v1` with HDF5 without MPI, src/apps/qe_to_phoebe_utils.cpp L574-618: the dataset written by the
head.  Processes that do not agree on whether the tensor is distributed do not all take part in the sum.
Simplification: a tensor of the wrong size is not modelled (`getD`). -/
def v1WriteSerial {α : Type} [Add α] [Zero α] (mems : Nat → Nat × List α) (numVectors perBV size : Nat) :
    Outcome (List α) := do
  let shares ← mapOutcome (fun r => divideWorkIter numVectors r size) (List.range size)
  if ∀ r < size, (mems r).1 ≠ numVectors then
    let parts := (List.range size).map fun r => serialPart (mems r).2 perBV (shares.getD r [])
    .ok ((List.range (numVectors * perBV)).map ((allReduceSum1 parts).headD fun _ => 0))
  else if ∀ r < size, (mems r).1 = numVectors then .ok (mems 0).2
  else .diverge

/-! ## Second format -/

/-- What a process does to the file in `writeElPhCouplingHDF5v2`: it opens it with `Overwrite` (L674), creates and writes the
dataset of a lattice vector (L680-711), and closes it at the end of the block (L713). -/
inductive V2Event (α : Type) where
  | openFile (rank : Nat)
  | write (rank irE : Nat) (data : List α)
  | close (rank : Nat)

/-- The process that does it. -/
def V2Event.rank {α : Type} : V2Event α → Nat
  | .openFile r => r
  | .write r _ _ => r
  | .close r => r

/-- What a process does, src/apps/qe_to_phoebe_utils.cpp L666-713. -/
def v2Script {α : Type} (gwan : List α) (dim numVectors perBV rank size : Nat) : Outcome (List (V2Event α)) := do
  let w ← divideWorkIter numVectors rank size
  .ok (.openFile rank :: (w.map fun irE =>
    .write rank irE ((gwan.drop ((if dim != numVectors then irE - w.headD 0 else irE) * perBV)).take perBV)) ++
    [.close rank])

/-- The file and the processes that have it open. -/
structure V2State (α : Type) where
  datasets : List (Nat × List α)
  holders : List Nat

/-- One event.  `Overwrite` empties the file.  A file that another process has open for writing can not be opened, because HDF5
locks it; if locks are disabled the result is undefined.  A dataset that exists can not be created. -/
def v2Step {α : Type} (locking : Bool) (s : V2State α) : V2Event α → Outcome (V2State α)
  | .openFile r => if s.holders = [] then .ok ⟨[], [r]⟩ else if locking then .error else .ub
  | .write r irE data =>
    if s.holders ≠ [r] then .ub
    else if irE ∈ s.datasets.map Prod.fst then .error
    else .ok ⟨s.datasets ++ [(irE, data)], s.holders⟩
  | .close r => if s.holders ≠ [r] then .ub else .ok ⟨s.datasets, []⟩

/-- Events in the order in which they happen. -/
def v2Run {α : Type} (locking : Bool) (s : V2State α) : List (V2Event α) → Outcome (V2State α)
  | [] => .ok s
  | e :: es => do
    let s' ← v2Step locking s e
    v2Run locking s' es

/-- `file.getDataSet("/gWannier_" + irE)`. -/
def V2State.dataset {α : Type} (s : V2State α) (irE : Nat) : Option (List α) :=
  (s.datasets.find? fun d => d.1 == irE).map Prod.snd

end Verif.Model
