import Verif.Model.Mpi
import Verif.Model.IrrPoints

/-!
# src/interaction/interaction_elph_parsing.cpp: distribution of the electron-phonon coupling over processes

The coupling tensor is modelled by its memory: elements of electron lattice vector 0, then of vector 1, and so on, with
`perBV` elements for each vector.  The tensor of a process holds the vectors given to it.  Arithmetic on `size_t` is
taken without wrap-around, as for arrays that fit in memory.  HDF5 files are taken as the lists of their elements; what
the code reads of the header (numbers of bands, lattice vectors, degeneracies) is not modelled, except for
`divideWorkIter` that distributes them.
-/
namespace Verif.Model

/-- `sizePerBV`, src/interaction/interaction_elph_parsing.cpp L379-380: a product of `int`s. -/
def elphPerVector (numElBands numPhBands numPhVectors : Nat) : Outcome Nat := do
  let a ← cmul numElBands numElBands
  let b ← cmul a numPhBands
  let c ← cmul b numPhVectors
  .ok c.toNat

/-- The loop that decides how many vectors are read together, src/interaction/interaction_elph_parsing.cpp L390-400:
vectors left, vectors in the present bunch. -/
def bunchLoop (perBV maxSize : Nat) : Nat → Nat → List Nat
  | 0, cur => [cur]
  | n + 1, cur => if maxSize < (cur + 1 + 1) * perBV then (cur + 1) :: bunchLoop perBV maxSize n 0
      else bunchLoop perBV maxSize n (cur + 1)

/-- `irEBunchSizes`, src/interaction/interaction_elph_parsing.cpp L375-400; 10^9 bytes of 16-byte numbers. -/
def bunchSizes (perBV numVectors : Nat) : List Nat := bunchLoop perBV (1000000000 / 16) numVectors 0

/-- `dgWannier.select({0, offset}, {1, count}).read`, src/interaction/interaction_elph_parsing.cpp L425: outside of the
dataset HDF5 throws, and the exception is turned into an error (L517-519). -/
def selectData {α : Type} (data : List α) (offset count : Nat) : Outcome (List α) :=
  if offset + count ≤ data.length then .ok ((data.drop offset).take count) else .error

/-- The loop over bunches, src/interaction/interaction_elph_parsing.cpp L409-444; the list has the numbers of elements of
the bunches. -/
def readBunches {α : Type} (data : List α) (offset : Nat) : List Nat → Nat → List α → Outcome (List α)
  | [], _, buf => .ok buf
  | b :: bs, bunchOffset, buf => do
    let x ← selectData data (offset + bunchOffset) b
    let buf' ← blit buf bunchOffset x
    readBunches data offset bs (bunchOffset + b) buf'

/-- `gWanSlice` of one process without pools, src/interaction/interaction_elph_parsing.cpp L326-334 and L375-444, with
its offset.  The first and last elements of the share of the process are read without testing that there are any.  Zero
stands for elements not yet written. -/
def v1Slice {α : Type} [Zero α] (data : List α) (numVectors perBV rank size : Nat) : Outcome (Nat × List α) := do
  let w ← divideWorkIter numVectors rank size
  match w.head?, w.getLast? with
  | some first, some last => do
    let start := first * perBV
    let stop := (last + 1) * perBV - 1
    let buf ← readBunches data start ((bunchSizes perBV (last + 1 - first)).map fun n => n * perBV) 0
      (List.replicate (stop - start + 1) 0)
    .ok (start, buf)
  | _, _ => .ub

/-- `parseHDF5V1`, src/interaction/interaction_elph_parsing.cpp L312-473, without pools on `size` processes: slices are
gathered to all the processes. -/
def v1Read {α : Type} [Zero α] (data : List α) (numVectors perBV size : Nat) : Outcome (List α) := do
  let slices ← mapOutcome (fun r => v1Slice data numVectors perBV r size) (List.range size)
  bigAllGatherV 2147483647 (List.range size) (slices.map Prod.snd) (slices.map fun s => s.2.length)
    (slices.map Prod.fst) (List.replicate (numVectors * perBV) 0)

/-- `parseHDF5V1`, src/interaction/interaction_elph_parsing.cpp L339-351 and L375-473, on the process of rank `rank` in
its pool: processes of the first pool read, the others receive the tensor from the process with the same rank. -/
def v1Pool {α : Type} [Zero α] (data : List α) (numVectors perBV rank poolSize : Nat) : Outcome (List α) := do
  let w ← divideWorkIter numVectors rank poolSize
  match w.head?, w.getLast? with
  | some first, some last =>
    readBunches data (first * perBV) ((bunchSizes perBV (last + 1 - first)).map fun n => n * perBV) 0
      (List.replicate (w.length * perBV) 0)
  | _, _ => .ub

/-- The loop over datasets, src/interaction/interaction_elph_parsing.cpp L577-597 and L603-622: dataset `irE` is copied
to the place of vector `irE - first`. -/
def v2Loop {α : Type} (slices : Nat → List α) (perBV first : Nat) : List Nat → List α → Outcome (List α)
  | [], buf => .ok buf
  | irE :: l, buf => do
    let buf' ← blit buf ((irE - first) * perBV) (slices irE)
    v2Loop slices perBV first l buf'

/-- `parseHDF5V2` with pools, src/interaction/interaction_elph_parsing.cpp L574-600. -/
def v2Pool {α : Type} [Zero α] (slices : Nat → List α) (numVectors perBV rank poolSize : Nat) : Outcome (List α) := do
  let w ← divideWorkIter numVectors rank poolSize
  v2Loop slices perBV (w.headD 0) w (List.replicate (w.length * perBV) 0)

/-- `parseHDF5V2` without pools, src/interaction/interaction_elph_parsing.cpp L602-623, on `size` processes: each reads
its share, then (L623) the tensor of the head is sent to all. -/
def v2Read {α : Type} [Zero α] (slices : Nat → List α) (numVectors perBV size : Nat) : Outcome (List α) := do
  let mems ← mapOutcome (fun r => do
    let w ← divideWorkIter numVectors r size
    v2Loop slices perBV 0 w (List.replicate (numVectors * perBV) 0)) (List.range size)
  match mems with
  | [] => .ub
  | head :: _ => .ok head

/-- State of the loops of the text reader: numbers left in the file, `re`, `im` and the tensor. -/
structure TextState (α : Type) where
  stream : List α
  re : α
  im : α
  buf : List (α × α)

/-- `infile >> x`: at the end of the file `x` keeps its value, and nothing is reported. -/
def readNumber {α : Type} (stream : List α) (old : α) : α × List α :=
  match stream with
  | [] => (old, [])
  | x :: rest => (x, rest)

/-- One step of the innermost loop, src/interaction/interaction_elph_parsing.cpp L112-118; the four inner loops (L108-111)
run through the elements in the order of their addresses, here `j`. -/
def textStep {α : Type} (perBV : Nat) (loc : Option Nat) (s : TextState α) (j : Nat) : TextState α :=
  let r := readNumber s.stream s.re
  let i := readNumber r.2 s.im
  match loc with
  | some l => ⟨i.2, r.1, i.1, s.buf.set (l * perBV + j) (r.1, i.1)⟩
  | none => ⟨i.2, r.1, i.1, s.buf⟩

/-- `localIrE`, src/interaction/interaction_elph_parsing.cpp L104-107. -/
def textLocal (w : List Nat) (irE : Nat) : Option Nat := if irE ∈ w then some (irE - w.headD 0) else none

/-- The tensor read by `parseNoHDF5`, src/interaction/interaction_elph_parsing.cpp L56-57 and L99-123, by the process of
rank `rank` in its pool; `stream` are the numbers after the header.  Zero stands for `re` and `im` not initialised. -/
def textRead {α : Type} [Zero α] (stream : List α) (numVectors perBV rank poolSize : Nat) :
    Outcome (List (α × α)) := do
  let w ← divideWorkIter numVectors rank poolSize
  .ok ((List.range numVectors).foldl (fun s irE => (List.range perBV).foldl (textStep perBV (textLocal w irE)) s)
    ⟨stream, 0, 0, List.replicate (w.length * perBV) (0, 0)⟩).buf

end Verif.Model
