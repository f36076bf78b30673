import Mathlib.LinearAlgebra.Matrix.ConjTranspose
import Mathlib.LinearAlgebra.Matrix.Hermitian
import Mathlib.Analysis.Complex.Basic

/-!
Vocabulary for phonons, independent of the program.
-/

namespace Verif.Spec

/-- The documented contract of a library that diagonalizes Hermitian matrices: real
eigenvalues in increasing order and orthonormal eigenvectors in the columns of a unitary
matrix. -/
structure IsEigenDecomposition {N B : Type} [Fintype N] [Fintype B] [DecidableEq N]
    [DecidableEq B] [Preorder B] (d : Matrix N N ℂ) (e : B → ℝ) (u : Matrix N B ℂ) : Prop where
  sorted : Monotone e
  left : u.conjTranspose * u = 1
  right : u * u.conjTranspose = 1
  eigen : d * u = u * Matrix.diagonal fun b => (e b : ℂ)

/-- The image of an atom in the cell `(n1, n2, n3)` of the lattice with vectors `a 0`, `a 1`, `a 2`, when the
atom of the cell at the origin is at `t`. -/
noncomputable def image (a : Fin 3 → Fin 3 → ℝ) (t : Fin 3 → ℝ) (n : Fin 3 → ℤ) : Fin 3 → ℝ :=
  fun i => (∑ k, (n k : ℝ) * a k i) + t i

/-- The square of the distance of an image from the origin. -/
noncomputable def dist2 (a : Fin 3 → Fin 3 → ℝ) (t : Fin 3 → ℝ) (n : Fin 3 → ℤ) : ℝ :=
  ∑ i, image a t n i ^ 2

/-- With periodic boundary conditions over `size` cells, no copy of the image up to two supercells away is closer
to the origin by more than the tolerance. -/
def NearImage (a : Fin 3 → Fin 3 → ℝ) (t : Fin 3 → ℝ) (size : Fin 3 → ℕ) (n : Fin 3 → ℤ) : Prop :=
  ∀ g : Fin 3 → ℤ, (∀ k, |g k| ≤ 2) →
    dist2 a t n ≤ dist2 a t (fun k => n k - size k * g k) + 2.0e-5

/-- The supercell is compact: near images of the same atom are at most two supercells away from each other, and
different lattice points are not closer than a thousandth. -/
structure CompactCell (a : Fin 3 → Fin 3 → ℝ) (t : Fin 3 → ℝ) (size : Fin 3 → ℕ) : Prop where
  near : ∀ n n' g : Fin 3 → ℤ, (∀ k, n k - n' k = size k * g k) → NearImage a t size n →
    NearImage a t size n' → ∀ k, |g k| ≤ 2
  apart : ∀ g : Fin 3 → ℤ, g ≠ 0 → 1.0e-6 < dist2 a 0 (fun k => size k * g k)

end Verif.Spec
