import Verif.Model.MatrixProd
import Mathlib.Algebra.Order.Floor.Ring
import Mathlib.Data.Real.Archimedean

/-!
# Diagonalization of distributed matrices: src/algebra/PMatrix.cpp

The routines of ScaLAPACK are parameters.  Where the elements are stored is the subject of C07-C09: here a distributed
matrix is given by its elements, together with the grid of processes that holds them.
-/
namespace Verif.Model

/-- A distributed matrix, all processes together: sizes, grid of processes, size of the blocks (`descMat_[5]`), elements;
src/algebra/PMatrix.h L40-78, L247-313. -/
structure PMat (α : Type) where
  numRows : Nat
  numCols : Nat
  numBlasRows : Nat
  numBlasCols : Nat
  blockSize : Nat
  entry : Nat → Nat → α

/-- The eigenvalues `pdsyevr_` is asked for: `range = 'I'` with `il`, `iu`, or `range = 'V'` with `vl`, `vu`
(src/algebra/PMatrix.cpp L312-316). -/
inductive EigRange where
  | index (il iu : Int)
  | value (vl vu : ℝ)

/-- What a call of ScaLAPACK leaves: `info`, the eigenvalues found (their number is `m`), the matrix of the eigenvectors. -/
structure EigCall (α : Type) where
  info : Int
  values : List ℝ
  vectors : Nat → Nat → α

/-- ScaLAPACK, declared in src/algebra/Blacs.h: the length of the workspace that the first call reports in `work[0]` for a
matrix of `n` rows on a grid with `p` rows and columns, and the results of the calls on a matrix of `n` rows. -/
structure EigLib where
  workAll : Nat → Nat → ℝ
  workSome : Nat → Nat → ℝ
  syevd : Nat → (Nat → Nat → ℝ) → EigCall ℝ
  syevr : Nat → EigRange → (Nat → Nat → ℝ) → EigCall ℝ
  heev : Nat → (Nat → Nat → ℂ) → EigCall ℂ

/-- What a diagonalization returns and prints: the eigenvalues, the matrix of the eigenvectors, the eigenvalues of the warning
with their indices (none: no warning). -/
structure Diag (α : Type) where
  values : List ℝ
  vectors : Nat → Nat → α
  reported : List (Nat × ℝ)

/-- The loop that prints the eigenvalues up to the first positive one, src/algebra/PMatrix.cpp L189-192. -/
noncomputable def nonPositives : Nat → List ℝ → List (Nat × ℝ)
  | _, [] => []
  | i, e :: l => if e ≤ 0 then (i, e) :: nonPositives (i + 1) l else []

/-- `lwork = int(work[0])` and the allocation, src/algebra/PMatrix.cpp L146-151, L332-335: undefined if the number does not fit an
`int`; a negative length is refused by `new` (`std::bad_array_new_length`). -/
noncomputable def workLength (x : ℝ) : Outcome Int := do
  let lwork ← i32 ⌊x⌋
  if lwork < 0 then .error else .ok lwork

/-- `liwork` of `pdsyevd_`, src/algebra/PMatrix.cpp L131. -/
def liworkAll (n npcol : Nat) : Outcome Int := do
  let a ← cmul 7 n
  let b ← cmul 8 npcol
  let c ← cadd a b
  cadd c 2

/-- `liwork` of `pdsyevr_`, src/algebra/PMatrix.cpp L340-341. -/
def liworkSome (n nprow npcol : Nat) : Outcome Int := do
  let p ← cmul nprow npcol
  let p1 ← cadd p 1
  let nnp := max (max (n : Int) p1) 4
  let a ← cmul 12 nnp
  let b ← cmul 2 n
  cadd a b

/-- Copy of the first `k` eigenvalues, src/algebra/PMatrix.cpp L196-199, L254-257, L407-410. -/
def firstValues (values : List ℝ) (k : Nat) : Outcome (List ℝ) := mapOutcome (fun i => readAt values i) (List.range k)

/-- `ParallelMatrix<double>::diagonalize()`, src/algebra/PMatrix.cpp L97-204 (the messages about time are left out). -/
noncomputable def PMat.diagonalizeAll (lib : EigLib) (a : PMat ℝ) : Outcome (Diag ℝ) :=
  if a.numRows ≠ a.numCols then .error
  else if a.numBlasRows ≠ a.numBlasCols then .error
  else do
    let _liwork ← liworkAll a.numRows a.numBlasCols
    let _lwork ← workLength (lib.workAll a.numRows a.numBlasRows)
    let r := lib.syevd a.numRows a.entry
    if r.info ≠ 0 then .error
    else do
      let first ← readAt r.values 0
      let values ← firstValues r.values a.numRows
      .ok ⟨values, r.vectors, if first < 0 then nonPositives 0 values else []⟩

/-- The warning of `diagonalize(numEigenvalues, …)`, src/algebra/PMatrix.cpp L344-383: a call of `pdsyevr_` on a copy of the
matrix, for the eigenvalues between `-1` and `1e-16`; its `info` is not read. -/
noncomputable def negativeCheck (lib : EigLib) (a : PMat ℝ) : List (Nat × ℝ) :=
  let c := lib.syevr a.numRows (.value (-1) 1e-16) a.entry
  if c.values.length > 3 then (List.range c.values.length).map fun i => (i, c.values.getD i 0) else []

/-- `ParallelMatrix<double>::diagonalize(int, bool)`, src/algebra/PMatrix.cpp L262-418. -/
noncomputable def PMat.diagonalizeSome (lib : EigLib) (a : PMat ℝ) (number : Int) (check : Bool) : Outcome (Diag ℝ) :=
  if a.numRows ≠ a.numCols then .error
  else if a.numBlasRows ≠ a.numBlasCols then .error
  else
    let k : Int := if (a.numRows : Int) < number then a.numRows else number
    do
    let _lwork ← workLength (lib.workSome a.numRows a.numBlasRows)
    let _liwork ← liworkSome a.numRows a.numBlasRows a.numBlasCols
    let reported := if check then negativeCheck lib a else []
    let r := lib.syevr a.numRows (.index 1 k) a.entry
    if r.info ≠ 0 then .error
    else if k < 0 then .error
    else do
      let values ← firstValues r.values k.toNat
      .ok ⟨values, r.vectors, reported⟩

/-- `lwork` and `lrwork` of `pzheev_`, src/algebra/PMatrix.cpp L225-231. -/
def workComplex (n nb nprow npcol : Nat) : Outcome (Int × Int) := do
  let nn := max (max n nb) 2
  let np0 := numroc nn nb 0 nprow
  let nq0 := numroc nn nb 0 npcol
  let a ← cadd np0 nq0
  let b ← cadd a nb
  let c ← cmul b nb
  let d ← cmul 3 n
  let e ← cadd c d
  let f ← cmul n n
  let lwork ← cadd e f
  let g ← cmul 2 n
  let h ← cadd g g
  let lrwork ← csub h 2
  .ok (lwork, lrwork)

/-- `ParallelMatrix<std::complex<double>>::diagonalize()`, src/algebra/PMatrix.cpp L206-260. -/
def PMat.diagonalizeComplex (lib : EigLib) (a : PMat ℂ) : Outcome (Diag ℂ) :=
  if a.numRows ≠ a.numCols then .error
  else if a.numBlasRows ≠ a.numBlasCols then .error
  else do
    let work ← workComplex a.numRows a.blockSize a.numBlasRows a.numBlasCols
    if work.1 < 0 ∨ work.2 < 0 then .error
    else
      let r := lib.heev a.numRows a.entry
      if r.info ≠ 0 then .error
      else do
        let values ← firstValues r.values a.numRows
        .ok ⟨values, r.vectors, []⟩

end Verif.Model
