import Verif.Model.ParDiag
import Verif.Spec.MatrixProd

/-! # Specification: eigenvalues and eigenvectors of distributed matrices -/
namespace Verif.Spec
open Verif.Model

/-- `e` are all the eigenvalues of the matrix `f` of `n` rows, in ascending order, and the columns of `v` are orthonormal
eigenvectors for them. -/
def IsSpectrum {α : Type} [Semiring α] [StarRing α] (ofReal : ℝ → α) (n : Nat) (f : Nat → Nat → α) (e : List ℝ)
    (v : Nat → Nat → α) : Prop :=
  e.length = n ∧ e.Pairwise (· ≤ ·) ∧ IsEigensystem ofReal n f (fun j => e.getD j 0) v

/-- The Hermitian matrix with the diagonal and the upper triangle of `f`. -/
def fromUpper {α : Type} [Star α] (f : Nat → Nat → α) (i j : Nat) : α := if i ≤ j then f i j else star (f j i)

/-- The matrix of `n` rows is Hermitian (symmetric, if it is real). -/
def IsHermitianOn {α : Type} [Star α] (n : Nat) (f : Nat → Nat → α) : Prop :=
  ∀ i j, i < n → j < n → f i j = star (f j i)

/-- What ScaLAPACK documents for `uplo = 'U'` and a flag that is zero on return: the calls work on the diagonal and the upper
triangle of the matrix.  `pdsyevd_` and `pzheev_` return all eigenvalues in ascending order; `pdsyevr_` with a range of indices
`1 … k` the first `k` of them, with the eigenvectors in the first columns (and a flag that is not zero if `k` is not between one
and the size); with an interval, the eigenvalues in it. -/
structure EigContract (lib : EigLib) : Prop where
  all : ∀ n f, (lib.syevd n f).info = 0 →
    IsSpectrum (fun x => x) n (fromUpper f) (lib.syevd n f).values (lib.syevd n f).vectors
  some : ∀ n f (k : Nat), (lib.syevr n (.index 1 k) f).info = 0 → 1 ≤ k ∧ k ≤ n ∧ ∃ e v,
    IsSpectrum (fun x => x) n (fromUpper f) e v ∧ (lib.syevr n (.index 1 k) f).values = e.take k ∧
    ∀ i j, i < n → j < k → (lib.syevr n (.index 1 k) f).vectors i j = v i j
  none : ∀ n f (k : Int), k < 1 → (lib.syevr n (.index 1 k) f).info ≠ 0
  value : ∀ n f vl vu, (lib.syevr n (.value vl vu) f).info = 0 → ∃ e v, IsSpectrum (fun x => x) n (fromUpper f) e v ∧
    (lib.syevr n (.value vl vu) f).values = e.filter fun x => vl < x ∧ x ≤ vu
  complex : ∀ n f, (lib.heev n f).info = 0 →
    IsSpectrum (fun x => (x : ℂ)) n (fromUpper f) (lib.heev n f).values (lib.heev n f).vectors

/-- The lengths of the integer workspace that ScaLAPACK documents for `pdsyevd_` (a matrix of `n` rows, a grid with `npcol`
columns) and, with eigenvectors, for `pdsyevr_`. -/
def minLiworkAll (n npcol : Nat) : Nat := 7 * n + 8 * npcol + 2
def minLiworkSome (n nprow npcol : Nat) : Nat := 12 * max n (max (nprow * npcol + 1) 4) + 2 * n

/-- The lengths of the two workspaces that ScaLAPACK documents for `pzheev_` with eigenvectors, on a grid with `p` rows and
columns and blocks of `nb` rows: `np0` is the number of rows of a matrix of `max(n, nb, 2)` rows held by the first process. -/
def minLworkComplex (n nb p : Nat) : Nat :=
  let np0 := numroc (max n (max nb 2)) nb 0 p
  (2 * np0 + nb) * nb + 3 * n + n ^ 2
def minLrworkComplex (n : Nat) : Nat := 4 * n - 2

end Verif.Spec
