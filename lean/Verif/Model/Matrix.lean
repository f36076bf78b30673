import Verif.Model.Basic
import Verif.Model.Mpi

/-! Model of the dense matrices: `SerialMatrix` (src/algebra/SMatrix.h/.cpp) and the block-cyclic
`ParallelMatrix` (src/algebra/PMatrix.h/.cpp).  Matrix entries are of any type (exact arithmetic); indices are
natural numbers (no 32-bit overflow).  The ScaLAPACK index routines `numroc_`, `indxg2l_`, `indxl2g_`,
`infog2l_` are external: they are written here from their documented Fortran definitions (with source process
0, as the code calls them). -/

namespace Verif.Model

/-! ## ScaLAPACK tools -/

/-- ScaLAPACK `NUMROC(N, NB, IPROC, 0, NPROCS)`. -/
def numroc (n nb iproc nprocs : Nat) : Nat :=
  let nblocks := n / nb
  let base := (nblocks / nprocs) * nb
  let extra := nblocks % nprocs
  if iproc < extra then base + nb
  else if iproc = extra then base + n % nb
  else base

/-- ScaLAPACK `INDXG2L(INDXGLOB, NB, _, _, NPROCS)`; indices from 1 (Fortran). -/
def indxg2l (indxglob nb nprocs : Int) : Int :=
  nb * ((indxglob - 1).tdiv (nb * nprocs)) + (indxglob - 1).tmod nb + 1

/-- ScaLAPACK `INDXL2G(INDXLOC, NB, IPROC, 0, NPROCS)`; indices from 1 (Fortran); integer division
truncates and `MOD` has the sign of the dividend. -/
def indxl2g (indxloc nb iproc nprocs : Int) : Int :=
  nprocs * nb * ((indxloc - 1).tdiv nb) + (indxloc - 1).tmod nb
    + ((nprocs + iproc).tmod nprocs) * nb + 1

/-- Owner coordinate computed by ScaLAPACK `INFOG2L` for a row (or column) index from 1. -/
def infog2lOwner (indxglob nb nprocs : Int) : Int := ((indxglob - 1).tdiv nb).tmod nprocs

/-! ## Parallel matrix -/

/-- Global shape of a parallel matrix: size, block sizes, process grid. -/
structure Layout where
  numRows : Nat
  numCols : Nat
  blockSizeRows : Nat
  blockSizeCols : Nat
  numBlasRows : Nat
  numBlasCols : Nat
deriving DecidableEq, Repr

/-- Process grid of `ParallelMatrix::initBlacs`, src/algebra/PMatrix.h L410-473: the number of process rows and
columns for `size` processes (0 = not specified). -/
def initBlacs (size numBlasRows numBlasCols : Nat) : Outcome (Nat × Nat) :=
  if size < numBlasRows * numBlasCols then .error
  else if numBlasRows ≠ 0 ∧ numBlasCols = 0 then .ok (numBlasRows, size / numBlasRows)
  else if numBlasRows = 0 ∧ numBlasCols ≠ 0 then .ok (size / numBlasCols, numBlasCols)
  else if numBlasRows ≠ 0 ∧ numBlasCols ≠ 0 then .ok (numBlasRows, numBlasCols)
  else
    let s := Nat.sqrt size
    if size > s * s then .error else .ok (s, s)

/-- Block size of `ParallelMatrix` constructor, src/algebra/PMatrix.h L277-280. -/
def blockSize (n numBlocks : Nat) : Nat := n / numBlocks + (if n % numBlocks ≠ 0 then 1 else 0)

/-- `ParallelMatrix` constructor, src/algebra/PMatrix.h L246-313 (the layout part): block counts default to
the process grid (L270-273). Division by a zero number of blocks is undefined. -/
def mkLayout (size numRows numCols numBlasRows numBlasCols numBlocksRows numBlocksCols : Nat) :
    Outcome Layout := do
  let g ← initBlacs size numBlasRows numBlasCols
  let nbr := if numBlocksRows = 0 then g.1 else numBlocksRows
  let nbc := if numBlocksCols = 0 then g.2 else numBlocksCols
  if nbr = 0 ∨ nbc = 0 then .ub
  else .ok ⟨numRows, numCols, blockSize numRows nbr, blockSize numCols nbc, g.1, g.2⟩

/-- `numLocalRows_`, src/algebra/PMatrix.h L289, on the process at row `pr` of the grid. -/
def Layout.localRows (L : Layout) (pr : Nat) : Nat := numroc L.numRows L.blockSizeRows pr L.numBlasRows

/-- `numLocalCols_`, src/algebra/PMatrix.h L290, on the process at column `pc` of the grid. -/
def Layout.localCols (L : Layout) (pc : Nat) : Nat := numroc L.numCols L.blockSizeCols pc L.numBlasCols

/-- `numLocalElements_`, src/algebra/PMatrix.h L291. -/
def Layout.localElements (L : Layout) (pr pc : Nat) : Nat := L.localRows pr * L.localCols pc

/-- `descMat_[8]`, the leading dimension, src/algebra/PMatrix.h L304-305. -/
def Layout.lld (L : Layout) (pr : Nat) : Nat := if L.localRows pr > 1 then L.localRows pr else 1

/-- `ParallelMatrix::local2Global(k)`, src/algebra/PMatrix.h L543-572, on process `(pr, pc)`. -/
def Layout.local2Global (L : Layout) (pr pc k : Nat) : Nat × Nat :=
  let j := k / L.localRows pr
  let i := k - j * L.localRows pr
  let l_i := i / L.blockSizeRows
  let x_i := i % L.blockSizeRows
  let l_j := j / L.blockSizeCols
  let x_j := j % L.blockSizeCols
  ((l_i * L.numBlasRows + pr) * L.blockSizeRows + x_i, (l_j * L.numBlasCols + pc) * L.blockSizeCols + x_j)

/-- `ParallelMatrix::global2Local(row, col)`, src/algebra/PMatrix.h L574-596, on process `(pr, pc)`:
-1 if the element is not stored there. -/
def Layout.global2Local (L : Layout) (pr pc : Nat) (row col : Nat) : Int :=
  let row_ : Int := row + 1
  let col_ : Int := col + 1
  let iarow := infog2lOwner row_ L.blockSizeRows L.numBlasRows
  let iacol := infog2lOwner col_ L.blockSizeCols L.numBlasCols
  if (pr : Int) ≠ iarow ∨ (pc : Int) ≠ iacol then -1
  else
    let il := indxg2l row_ L.blockSizeRows L.numBlasRows
    let jl := indxg2l col_ L.blockSizeCols L.numBlasCols
    il + (jl - 1) * L.lld pr - 1

/-- `ParallelMatrix::getAllLocalStates`, src/algebra/PMatrix.h L598-606. -/
def Layout.getAllLocalStates (L : Layout) (pr pc : Nat) : List (Nat × Nat) :=
  (List.range (L.localElements pr pc)).map (L.local2Global pr pc)

/-- `ParallelMatrix::getAllLocalRows`, src/algebra/PMatrix.h L608-617: the index from 0 is passed to the
routine that expects indices from 1. -/
def Layout.getAllLocalRows (L : Layout) (pr : Nat) : List Int :=
  (List.range (L.localRows pr)).map fun k : Nat => indxl2g k L.blockSizeRows pr L.numBlasRows

/-- `ParallelMatrix::getAllLocalCols`, src/algebra/PMatrix.h L619-628. -/
def Layout.getAllLocalCols (L : Layout) (pc : Nat) : List Int :=
  (List.range (L.localCols pc)).map fun k : Nat => indxl2g k L.blockSizeCols pc L.numBlasCols

/-- A distributed matrix: for each process `(pr, pc)` its local buffer `mat`. -/
abbrev DistData (α : Type) := Nat → Nat → Nat → α

/-- Reading `matrix(row, col)` on process `(pr, pc)`, src/algebra/PMatrix.h L502-521: non-local elements read
as zero. -/
def Layout.get [Zero α] (L : Layout) (m : DistData α) (pr pc row col : Nat) : α :=
  let k := L.global2Local pr pc row col
  if k = -1 then 0 else m pr pc k.toNat

/-- `matrix(row, col) = v` on process `(pr, pc)`, src/algebra/PMatrix.h L502-510: for a non-local element the
value is written to a dummy variable that is reset at the next access. -/
def Layout.set (L : Layout) (m : DistData α) (pr pc row col : Nat) (v : α) : DistData α :=
  let k := L.global2Local pr pc row col
  if k = -1 then m
  else fun pr' pc' k' => if pr' = pr ∧ pc' = pc ∧ k' = k.toNat then v else m pr' pc' k'

/-- `matrix(row, col) += v` on process `(pr, pc)` (read through `operator()`, add, write). -/
def Layout.addTo [Zero α] [Add α] (L : Layout) (m : DistData α) (pr pc row col : Nat) (v : α) : DistData α :=
  L.set m pr pc row col (L.get m pr pc row col + v)

/-- `ParallelMatrix::eye` on process `(pr, pc)`, src/algebra/PMatrix.h L668-679: all local elements are
cleared, then the diagonal is written through `operator()`. -/
def Layout.eye [Zero α] [One α] (L : Layout) (m : DistData α) (pr pc : Nat) : Outcome (DistData α) :=
  if L.numRows ≠ L.numCols then .error
  else
    let z : DistData α := fun pr' pc' k =>
      if pr' = pr ∧ pc' = pc ∧ k < L.localElements pr pc then 0 else m pr' pc' k
    .ok ((List.range L.numRows).foldl (fun a i => L.set a pr pc i i 1) z)

/-- The local part of `ParallelMatrix::dot`, src/algebra/PMatrix.h L697-701. -/
def Layout.localDot [Zero α] [Add α] [Mul α] (L : Layout) (a b : DistData α) (pr pc : Nat) : α :=
  ((List.range (L.localElements pr pc)).map fun k => a pr pc k * b pr pc k).foldl (· + ·) 0

/-- `ParallelMatrix::dot`, src/algebra/PMatrix.h L696-705, as returned on every process: the partial results
of all processes (of the whole grid, in row-major order of the grid) go through
`allReduceSum(&scalar, &scalarOut)` with `scalarOut` initially zero. -/
def Layout.dot [Zero α] [Add α] [Mul α] (L : Layout) (a b : DistData α) : List α :=
  let procs := (List.range L.numBlasRows).flatMap fun pr =>
    (List.range L.numBlasCols).map fun pc => (pr, pc)
  let ins := procs.map fun p => (fun _ : Nat => L.localDot a b p.1 p.2)
  let outs := procs.map fun _ => (fun _ : Nat => (0 : α))
  (allReduceSum2 ins outs).map fun o => o 0

/-- `operator*=`, `operator/=`, src/algebra/PMatrix.h L630-644, and unary minus L707-714: `f` is applied to the local
elements of every process. -/
def Layout.mapElements (L : Layout) (f : α → α) (m : DistData α) : DistData α :=
  fun pr pc k => if k < L.localElements pr pc then f (m pr pc k) else m pr pc k

/-- `operator+=`, `operator-=`, src/algebra/PMatrix.h L646-665, on every process: only the global sizes are compared;
the local buffers are combined position by position.  Reading past the end of the other buffer is undefined. -/
def Layout.combine (La Lb : Layout) (op : α → α → α) (a b : DistData α) : Outcome (DistData α) :=
  if La.numRows ≠ Lb.numRows ∨ La.numCols ≠ Lb.numCols then .error
  else if ((List.range La.numBlasRows).all fun pr => (List.range La.numBlasCols).all fun pc =>
      decide (La.localElements pr pc ≤ Lb.localElements pr pc)) = false then .ub
  else .ok fun pr pc k => if k < La.localElements pr pc then op (a pr pc k) (b pr pc k) else a pr pc k

/-- `ParallelMatrix::eye` called on every process of the grid (the processes write to their own buffers, so their
order does not matter). -/
def Layout.eyeAll [Zero α] [One α] (L : Layout) (procs : List (Nat × Nat)) (m : DistData α) : Outcome (DistData α) :=
  match procs with
  | [] => .ok m
  | p :: ps => do
    let m' ← L.eye m p.1 p.2
    Layout.eyeAll L ps m'

/-- `ParallelMatrix::symmetrize`, src/algebra/PMatrix.cpp L424-444, seen as a global operation:
`pdtran_` with both scale factors 1/2 computes `C = 1/2 C + 1/2 A^T` where `A` is a copy of `C`
(ScaLAPACK is external: the operation is its documented effect on the global matrix). -/
def Layout.symmetrize [Add α] [Mul α] (L : Layout) (half : α) (c : Nat → Nat → α) : Outcome (Nat → Nat → α) :=
  if L.numRows ≠ L.numCols then .error
  else .ok fun i j => half * c i j + half * c j i

/-! ## Serial matrix -/

/-- `SerialMatrix`: sizes and the column-major buffer (src/algebra/SMatrix.h). -/
structure SMat (α : Type) where
  numRows : Nat
  numCols : Nat
  mat : List α
deriving DecidableEq, Repr

/-- `SerialMatrix` constructor with sizes: a zero matrix (src/algebra/SMatrix.h L196-212). -/
def SMat.zeros [Zero α] (r c : Nat) : SMat α := ⟨r, c, List.replicate (r * c) 0⟩

/-- `SerialMatrix::global2Local`, src/algebra/SMatrix.h L320-324. -/
def SMat.global2Local (m : SMat α) (row col : Int) : Int := m.numRows * col + row

/-- `SerialMatrix::local2Global`, src/algebra/SMatrix.h L310-318. -/
def SMat.local2Global (m : SMat α) (k : Nat) : Outcome (Nat × Nat) :=
  if m.numRows = 0 then .error
  else .ok (k - (k / m.numRows) * m.numRows, k / m.numRows)

/-- `SerialMatrix::operator()` for reading, src/algebra/SMatrix.h L294-301. -/
def SMat.get (m : SMat α) (row col : Int) : Outcome α :=
  if row ≥ m.numRows ∨ col ≥ m.numCols ∨ row < 0 ∨ col < 0 then .error
  else match m.mat[(m.global2Local row col).toNat]? with
    | some v => .ok v
    | none => .ub

/-- `SerialMatrix::operator()` for writing, src/algebra/SMatrix.h L286-292. -/
def SMat.set (m : SMat α) (row col : Int) (v : α) : Outcome (SMat α) :=
  if row ≥ m.numRows ∨ col ≥ m.numCols ∨ row < 0 ∨ col < 0 then .error
  else if (m.global2Local row col).toNat < m.mat.length then
    .ok { m with mat := m.mat.set (m.global2Local row col).toNat v }
  else .ub

/-- Run a list of updates in order. -/
def foldOutcome (f : β → σ → Outcome σ) : List β → σ → Outcome σ
  | [], s => .ok s
  | b :: bs, s => do
    let s' ← f b s
    foldOutcome f bs s'

/-- `SerialMatrix::eye`, src/algebra/SMatrix.h L347-353: only the diagonal is written. -/
def SMat.eye [One α] (m : SMat α) : Outcome (SMat α) :=
  if m.numRows ≠ m.numCols then .error
  else foldOutcome (fun (row : Nat) (a : SMat α) => a.set row row 1) (List.range m.numRows) m

/-- `SerialMatrix<double>::symmetrize`, src/algebra/SMatrix.cpp L122-138; `avg x y` is `(x + y)/2`. -/
def SMat.symmetrize (avg : α → α → α) (m : SMat α) : Outcome (SMat α) :=
  if m.numRows ≠ m.numCols then .error
  else foldOutcome (fun (p : Nat × Nat) (a : SMat α) => do
      let x ← a.get p.2 p.1
      let y ← a.get p.1 p.2
      let a1 ← a.set p.1 p.2 (avg x y)
      a1.set p.2 p.1 (avg x y))
    ((List.range m.numRows).flatMap fun i =>
      (List.range' i (m.numCols - i)).map fun j => (i, j)) m

/-- `SerialMatrix::dot`, src/algebra/SMatrix.h L381-388 (equal sizes assumed by the code; a shorter second
buffer is read out of bounds). -/
def SMat.dot [Zero α] [Add α] [Mul α] (a b : SMat α) : Outcome α :=
  if b.mat.length < a.mat.length then .ub
  else .ok ((List.zipWith (· * ·) a.mat b.mat).foldl (· + ·) 0)

end Verif.Model
