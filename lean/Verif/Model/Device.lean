import Verif.Model.Bands
import Mathlib.Algebra.Order.Floor.Ring
import Mathlib.Data.Rat.Floor

/-!
# Device memory: src/common_kokkos.cpp, src/interaction/interaction_3ph.cpp (batches), and the classes that register
their memory

Amounts of memory (`double` in the code) are exact.
-/
namespace Verif.Model

/-- Conversion of a finite `double` to `int` (the fractional part is discarded by the caller); a value outside of the
range of `int` is undefined behaviour. -/
def doubleToInt (x : Rat) : Outcome Int :=
  i32 (if 0 ≤ x then ⌊x⌋ else ⌈x⌉)

/-! ## Batches of the three-phonon coupling -/

/-- The product of `int` values from left to right. -/
def cprod (first : Int) : List Int → Outcome Int
  | [] => .ok first
  | a :: l => do
    let p ← cmul first a
    cprod p l

/-- Memory per wavevector `evs + max{...}` of src/interaction/interaction_3ph.cpp L415-425, computed in `int` with
`n = numBands` and only then converted to `double`. -/
def memoryPerWavevector (n nr3 nb2 : Int) : Outcome Int := do
  let n2 ← cadd n n
  let n3 ← cadd n2 n
  let evs ← cprod 16 [n, n3]
  let phase ← cprod 16 [nr3]
  let tmp ← cprod 2 [16, n, n, n]
  let tmp1 ← cprod 2 [16, n, n, n]
  let tmp2 ← cprod 2 [16, n, nb2, n]
  let v ← cprod 16 [n, nb2, n2]
  let c ← cprod 16 [n, nb2, n2]
  .ok (evs + max (phase + tmp) (max (tmp + tmp1) (max (tmp1 + tmp2) (max (tmp2 + v) (v + c)))))

/-- `Interaction3Ph::estimateNumBatches`, src/interaction/interaction_3ph.cpp L407-440.  For `availmem = 0` the
quotient is infinite or not a number and its conversion to `int` is undefined; for `nq1 = 0` the test of L430
compares with a NaN and is false. -/
def estimateNumBatches (n nr3 : Int) (nq1 nb2 : Int) (availmem : Rat) : Outcome Int := do
  let per ← memoryPerWavevector n nr3 nb2
  let maxusage : Rat := nq1 * per
  if availmem = 0 then .ub
  else do
    let numBatches ← i32 ⌈maxusage / availmem⌉
    if nq1 ≠ 0 ∧ availmem < maxusage / nq1 then .error else .ok numBatches

/-- Allocation and release of device arrays. -/
inductive MemOp where
  | alloc (bytes : Nat)
  | free (bytes : Nat)
deriving DecidableEq, Repr

/-- Bytes in use and highest number of bytes in use so far. -/
def memStep (s : Int × Int) : MemOp → Int × Int
  | .alloc b => (s.1 + b, max s.2 (s.1 + b))
  | .free b => (s.1 - b, s.2)

/-- Highest number of bytes in use. -/
def peakMemory (ops : List MemOp) : Int := (ops.foldl memStep (0, 0)).2

/-- The device arrays allocated and released by `getCouplingsSquared` for a batch of `nq` wavevectors,
src/interaction/interaction_3ph.cpp L207-376: `q1s`, `ev2`, `ev1s`, `ev3Pluss`, `ev3Minss`, three integer arrays
(L207-212), `phases` (L262), `tmpPlus/Mins` (L274), release of `phases` (L290), `tmp1` (L292), release of `tmp`
(L308), `tmp2` (L311), release of `tmp1` (L327), `vPlus`, `vMins` (L330), release of `tmp2` (L355), the couplings
(L358), release of `vPlus`, `vMins` (L375). -/
def couplingMemory (n nr3 nq nb1 nb2 nb3p nb3m : Nat) : List MemOp :=
  [.alloc (8 * nq * 3), .alloc (16 * nb2 * n), .alloc (16 * nq * nb1 * n), .alloc (16 * nq * nb3p * n),
   .alloc (16 * nq * nb3m * n), .alloc (4 * nq), .alloc (4 * nq), .alloc (4 * nq),
   .alloc (16 * nq * nr3), .alloc (16 * nq * n * n * n), .alloc (16 * nq * n * n * n), .free (16 * nq * nr3),
   .alloc (16 * nq * nb1 * n * n), .alloc (16 * nq * nb1 * n * n),
   .free (16 * nq * n * n * n), .free (16 * nq * n * n * n),
   .alloc (16 * nq * nb1 * nb2 * n), .alloc (16 * nq * nb1 * nb2 * n),
   .free (16 * nq * nb1 * n * n), .free (16 * nq * nb1 * n * n),
   .alloc (16 * nq * nb1 * nb2 * nb3p), .alloc (16 * nq * nb1 * nb2 * nb3m),
   .free (16 * nq * nb1 * nb2 * n), .free (16 * nq * nb1 * nb2 * n),
   .alloc (8 * nq * nb1 * nb2 * nb3p), .alloc (8 * nq * nb1 * nb2 * nb3m),
   .free (16 * nq * nb1 * nb2 * nb3p), .free (16 * nq * nb1 * nb2 * nb3m)]

/-! ## Batches of wavevectors for the Hamiltonians -/

/-- `PhononH0::estimateBatchSize` and `ElectronH0Wannier::estimateBatchSize`, src/harmonic/phonon_h0_kokkos.cpp
L230-254, src/harmonic/electron_h0_wannier.cpp L1008-1040, from `memoryPerPoint` on. -/
def batchSizeOf (memoryAvailable memoryPerPoint : Rat) : Outcome Int := do
  let numBatches ← doubleToInt (memoryAvailable / memoryPerPoint * (95 / 100))
  if numBatches < 1 then .error else .ok numBatches

/-- `memoryPerPoint` of `PhononH0::estimateBatchSize`, src/harmonic/phonon_h0_kokkos.cpp L233-243. -/
def phononMemoryPerPoint (numBands numBravais : Int) (withVelocity : Bool) : Outcome Rat := do
  let matrixSize ← cmul numBands numBands
  let t1 ← cadd matrixSize numBravais
  let m2 ← cmul 2 matrixSize
  let t2 ← cadd m2 numBands
  let transformSize := max t1 t2
  if withVelocity then do
    let a ← cmul transformSize 7
    let b ← cadd a m2
    let c ← cmul matrixSize 3
    let d ← cadd b c
    .ok (16 * d)
  else .ok (16 * transformSize)

/-- The loop of `splitToBatches`, src/common_kokkos.cpp L151-165; `fuel` bounds the iterations.  A store beyond the
`result` vector, or a read beyond `iterator`, is undefined. -/
def splitLoop {β : Type} (iterator : List β) (batchSize : Int) :
    Nat → Int → Int → Nat → List (List β) → Outcome (List (List β))
  | 0, _, _, _, _ => .diverge
  | fuel + 1, start, stop, iBatch, result =>
    if start < stop then do
      let b ← mapOutcome (fun j => readAt iterator (start.toNat + j)) (List.range (stop - start).toNat)
      let result ← (if iBatch < result.length then .ok (result.set iBatch b) else .ub : Outcome _)
      let start ← cadd start batchSize
      let stop ← cadd stop batchSize
      splitLoop iterator batchSize fuel start (min stop iterator.length) (iBatch + 1) result
    else .ok result

/-- `DeviceManager::splitToBatches`, src/common_kokkos.cpp L136-166: the batches and the value left in the reference
argument `batchSize`.  A negative number of batches makes the constructor of `result` throw. -/
def splitToBatches {β : Type} (iterator : List β) (batchSize : Int) : Outcome (List (List β) × Int) := do
  let iteratorSize : Int := iterator.length
  let batchSize := min batchSize iteratorSize
  let q ← cdiv iteratorSize batchSize
  let r ← crem iteratorSize batchSize
  let numBatches ← (if r ≠ 0 then cadd q 1 else .ok q : Outcome Int)
  if numBatches < 0 then .error
  else do
    let result ← splitLoop iterator batchSize (iterator.length + 1) 0 batchSize 0
      (List.replicate numBatches.toNat [])
    .ok (result, batchSize)

/-! ## Registered memory -/

/-- The classes that register device memory: `PhononH0` and `ElectronH0Wannier` (`harmonic`), `InteractionElPhWan`
(`elph`), `Interaction3Ph` (`threePh`). -/
inductive DevKind where
  | harmonic
  | elph
  | threePh
deriving DecidableEq, Repr

/-- An object with two groups of device arrays, given by the indexes of their allocations: those made by the
constructor, and those that can be replaced later (`elPhCached`; the shifted vectors of `ElectronH0Wannier`). -/
structure DevObj where
  kind : DevKind
  main : Nat
  cache : Nat
deriving DecidableEq, Repr

/-- `sizes[i]` are the bytes of allocation `i`, made at any time in the past; `objs[h]` the object with handle `h`,
`none` once destroyed; `used` is `DeviceManager::memoryUsed`.  An allocation is live as long as some object refers to
it (`Kokkos::View` counts references). -/
structure DevState where
  sizes : List Nat
  objs : List (Option DevObj)
  used : Int
deriving DecidableEq, Repr

def DevState.init : DevState := ⟨[], [], 0⟩

/-- `getDeviceMemoryUsage` of an object (see `usage3Ph` for the formula of `Interaction3Ph`). -/
def DevState.usage (s : DevState) (o : DevObj) : Int := s.sizes.getD o.main 0 + s.sizes.getD o.cache 0

/-- `couplingWannier_k.use_count()`. -/
def DevState.useCount (s : DevState) (a : Nat) : Nat := (s.objs.filter fun o => match o with
  | some o => o.main == a
  | none => false).length

/-- What a program does with the objects. -/
inductive DevOp where
  | construct (kind : DevKind) (bytes : Nat)
  | copy (h : Nat)
  | assign (dst src : Nat)
  | update (h : Nat) (bytes : Nat)
  | destroy (h : Nat)
deriving DecidableEq, Repr

/-- One operation.  Constructors: src/harmonic/phonon_h0.cpp L244-245, src/harmonic/electron_h0_wannier.cpp L67-68,
src/interaction/interaction_elph.cpp L59-60, src/interaction/interaction_3ph.cpp L66-67.  Copies: phonon_h0.cpp
L252-273, electron_h0_wannier.cpp L73-92, interaction_elph.cpp L67-79, interaction_3ph.cpp L71-74 (arrays are not
copied).  Assignments: phonon_h0.cpp L276-309, electron_h0_wannier.cpp L95-117, interaction_elph.cpp L82-101,
interaction_3ph.cpp L77-86.  Updates: electron_h0_wannier.cpp L598-621, interaction_elph.cpp L509-510, L698-699.
Destructors: phonon_h0.cpp L311-323, electron_h0_wannier.cpp L119-129, interaction_elph.cpp L103-108,
interaction_3ph.cpp L88-98.  Operations on objects that do not exist, between different classes, or updates of a class
without them, cannot be written in the program and leave the state as it is. -/
def devStep (s : DevState) : DevOp → DevState
  | .construct k bytes =>
    let o : DevObj := ⟨k, s.sizes.length, s.sizes.length + 1⟩
    { sizes := s.sizes ++ [bytes, 0], objs := s.objs ++ [some o], used := s.used + bytes }
  | .copy h =>
    match s.objs.getD h none with
    | none => s
    | some o =>
      match o.kind with
      | .harmonic => { s with objs := s.objs ++ [some o], used := s.used + s.usage o }
      | .elph => { s with objs := s.objs ++ [some o] }
      | .threePh =>
        { s with sizes := s.sizes ++ [0, 0], objs := s.objs ++ [some ⟨.threePh, s.sizes.length, s.sizes.length + 1⟩] }
  | .assign dst src =>
    match s.objs.getD dst none, s.objs.getD src none with
    | some o, some o' =>
      if o.kind ≠ o'.kind ∨ dst = src then s
      else match o.kind with
        | .harmonic => { s with objs := s.objs.set dst (some o'), used := s.used + s.usage o' }
        | .elph => { s with objs := s.objs.set dst (some o') }
        | .threePh => s
    | _, _ => s
  | .update h bytes =>
    match s.objs.getD h none with
    | none => s
    | some o =>
      if o.kind = .threePh then s
      else
        { sizes := s.sizes ++ [bytes], objs := s.objs.set h (some { o with cache := s.sizes.length }),
          used := s.used - s.usage o + (s.sizes.getD o.main 0 + bytes) }
  | .destroy h =>
    match s.objs.getD h none with
    | none => s
    | some o =>
      let used := match o.kind with
        | .elph => if s.useCount o.main = 1 then s.used - s.usage o else s.used
        | _ => s.used - s.usage o
      { s with objs := s.objs.set h none, used := used }

/-- A history. -/
def devRun (ops : List DevOp) : DevState := ops.foldl devStep DevState.init

/-- Bytes reported by `Interaction3Ph::getDeviceMemoryUsage`, src/interaction/interaction_3ph.cpp L442-448, for arrays
with the numbers of elements of the constructor L17-52. -/
def usage3Ph (numAtoms nr2 nr3 : Nat) : Nat :=
  let nb := 3 * numAtoms
  16 * (nb * nb * nb * nr3 * nr2 + nb * nb * nb * nr3 + nb * nb * nb * nr3)
    + 8 * (nr2 * 3 + nr2 * 3 + nr2 * numAtoms * numAtoms + nr2 * numAtoms * numAtoms)

/-- Bytes of these arrays: `D3_k`, `cellPositions*_k` and `weights*_k` are real, the cached arrays complex
(src/interaction/interaction_3ph.h L52-55). -/
def bytes3Ph (numAtoms nr2 nr3 : Nat) : Nat :=
  let nb := 3 * numAtoms
  8 * (nb * nb * nb * nr3 * nr2) + 16 * (nb * nb * nb * nr3) + 16 * (nb * nb * nb * nr3)
    + 8 * (nr2 * 3) + 8 * (nr3 * 3) + 8 * (nr2 * numAtoms * numAtoms) + 8 * (nr2 * numAtoms * numAtoms)

end Verif.Model
