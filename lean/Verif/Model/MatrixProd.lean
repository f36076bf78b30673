import Verif.Model.Matrix
import Verif.Model.Bands
import Mathlib.Algebra.Star.Basic
import Mathlib.Data.Complex.Basic
import Mathlib.Data.Real.Star

/-!
# Products and eigenvectors of matrices: src/algebra/SMatrix.cpp, src/algebra/PMatrix.cpp

The routines of BLAS are modelled after their reference implementation; those of LAPACK and ScaLAPACK are parameters or
follow their documentation (see the comments).
-/
namespace Verif.Model

/-- The flags `transN`, `transT`, `transC` of src/algebra/Blas.h. -/
inductive Tr where
  | N
  | T
  | C
deriving DecidableEq

/-- Element of `op(A)` in a column-major array with leading dimension `ld`. -/
def opEntry {α : Type} [Star α] (t : Tr) (a : List α) (ld i l : Nat) : Outcome α :=
  match t with
  | .N => readAt a (i + l * ld)
  | .T => readAt a (l + i * ld)
  | .C => do
    let x ← readAt a (l + i * ld)
    .ok (star x)

/-- Element of the product `op(A) op(B)`. -/
def gemmEntry {α : Type} [Semiring α] [StarRing α] (ta tb : Tr) (k : Nat) (a : List α) (lda : Nat) (b : List α)
    (ldb i j : Nat) : Outcome α := do
  let xs ← mapOutcome (fun l => do
    let x ← opEntry ta a lda i l
    let y ← opEntry tb b ldb l j
    .ok (x * y)) (List.range k)
  .ok xs.sum

/-- `dgemm_`, `zgemm_` with `alpha = 1`, `beta = 0` (reference BLAS, not part of the repository; declared in
src/algebra/Blas.h): the leading dimensions are checked (an error stops the program), then
`C := op(A) op(B)` for an `m × k` matrix `op(A)` and a `k × n` matrix `op(B)`. -/
def gemm {α : Type} [Semiring α] [StarRing α] (ta tb : Tr) (m n k : Nat) (a : List α) (lda : Nat) (b : List α)
    (ldb : Nat) (c : List α) (ldc : Nat) : Outcome (List α) :=
  if lda < max 1 (if ta = .N then m else k) ∨ ldb < max 1 (if tb = .N then k else n) ∨ ldc < max 1 m then .error
  else do
    let ws ← mapOutcome (fun (p : Nat × Nat) => do
      let x ← gemmEntry ta tb k a lda b ldb p.1 p.2
      .ok (p.1 + p.2 * ldc, x)) ((List.range n).flatMap fun j => (List.range m).map fun i => (i, j))
    writeAll ws c

/-- `SerialMatrix::prod`, src/algebra/SMatrix.cpp L3-34. -/
def SMat.prod {α : Type} [Semiring α] [StarRing α] (a b : SMat α) (trans1 trans2 : Tr) : Outcome (SMat α) :=
  if a.numCols ≠ b.numRows then .error
  else do
    let ret : SMat α := SMat.zeros a.numRows b.numCols
    let c ← gemm trans1 trans2 a.numRows b.numCols a.numCols a.mat a.numRows b.mat b.numRows ret.mat a.numRows
    .ok { ret with mat := c }

/-- A distributed matrix, all processes together: sizes and elements (how they are distributed is the subject of C07-C09;
ScaLAPACK acts on the whole matrix). -/
structure GMat (α : Type) where
  numRows : Nat
  numCols : Nat
  elem : Nat → Nat → α

/-- Element of `op(A)`. -/
def GMat.op {α : Type} [Star α] (a : GMat α) (t : Tr) (i l : Nat) : α :=
  match t with
  | .N => a.elem i l
  | .T => a.elem l i
  | .C => star (a.elem l i)

/-- The block of `r × c` elements of `op(A)` lies in `A`. -/
def GMat.fits {α : Type} (a : GMat α) (t : Tr) (r c : Nat) : Prop :=
  if t = .N then r ≤ a.numRows ∧ c ≤ a.numCols else c ≤ a.numRows ∧ r ≤ a.numCols

instance {α : Type} (a : GMat α) (t : Tr) (r c : Nat) : Decidable (a.fits t r c) := by
  unfold GMat.fits; infer_instance

/-- `pdgemm_`, `pzgemm_` with `alpha = 1`, `beta = 0` (documentation of PBLAS): the blocks must lie in the matrices, or the
program is stopped; the first `m × n` elements of `C` are set. -/
def pgemm {α : Type} [Semiring α] [StarRing α] (ta tb : Tr) (m n k : Nat) (a b c : GMat α) : Outcome (GMat α) :=
  if a.fits ta m k ∧ b.fits tb k n ∧ c.fits .N m n then
    .ok { c with elem := fun i j =>
      if i < m ∧ j < n then ((List.range k).map fun l => a.op ta i l * b.op tb l j).sum else c.elem i j }
  else .error

/-- The sizes passed to `pdgemm_`, src/algebra/PMatrix.cpp L21-38, L63-80. -/
def prodSizes {α : Type} (a b : GMat α) (ta tb : Tr) : Nat × Nat × Nat :=
  (if ta = .N then a.numRows else a.numCols, if tb = .N then b.numCols else b.numRows,
    if ta = .N then a.numCols else a.numRows)

/-- `ParallelMatrix<double>::prod`, src/algebra/PMatrix.cpp L10-52: the result starts as a copy of `that`, set to zero (the
assertions are not compiled in release mode, the default of CMakeLists.txt L1-4). -/
def GMat.prodReal {α : Type} [Semiring α] [StarRing α] (a b : GMat α) (ta tb : Tr) : Outcome (GMat α) :=
  if a.numCols ≠ b.numRows then .error
  else pgemm ta tb (prodSizes a b ta tb).1 (prodSizes a b ta tb).2.1 (prodSizes a b ta tb).2.2 a b
    ⟨b.numRows, b.numCols, fun _ _ => 0⟩

/-- `ParallelMatrix<std::complex<double>>::prod`, src/algebra/PMatrix.cpp L54-98: the result has the sizes of `this`. -/
def GMat.prodComplex {α : Type} [Semiring α] [StarRing α] (a b : GMat α) (ta tb : Tr) : Outcome (GMat α) :=
  if a.numCols ≠ b.numRows then .error
  else pgemm ta tb (prodSizes a b ta tb).1 (prodSizes a b ta tb).2.1 (prodSizes a b ta tb).2.2 a b
    ⟨a.numRows, a.numCols, fun _ _ => 0⟩

/-- `dsyev_`, `zheev_` with `jobz = 'V'`: from the elements, the error flag, the eigenvalues, and the elements overwritten by
the eigenvectors. -/
abbrev Eigensolver (α : Type) := List α → Nat → Outcome (Int × List ℝ × List α)

/-- `SerialMatrix<double>::diagonalize`, src/algebra/SMatrix.cpp L67-92. -/
def SMat.diagonalizeReal (syev : Eigensolver ℝ) (a : SMat ℝ) : Outcome (List ℝ × SMat ℝ) :=
  if a.numRows ≠ a.numCols then .error
  else do
    let eigenvectors := a
    let (info, eigenvalues, m) ← syev eigenvectors.mat a.numRows
    if info ≠ 0 then .error
    else .ok (eigenvalues, { eigenvectors with mat := m })

/-- `SerialMatrix<std::complex<double>>::diagonalize`, src/algebra/SMatrix.cpp L36-65. -/
def SMat.diagonalizeComplex (heev : Eigensolver ℂ) (a : SMat ℂ) : Outcome (List ℝ × SMat ℂ) :=
  if a.numRows ≠ a.numCols then .error
  else do
    let eigenvectors : SMat ℂ := SMat.zeros a.numRows a.numCols
    let temp := a
    let (info, eigenvalues, m) ← heev temp.mat a.numRows
    let _temp := { temp with mat := m }
    if info ≠ 0 then .error
    else .ok (eigenvalues, eigenvectors)

end Verif.Model
