import Verif.Model.WannierRun
import Verif.Spec.Phonon
import Verif.Spec.WannierFile

/-!
# The bands of a file of Wannier90

The Hamiltonian that a file stands for, at a wavevector in crystal coordinates and in eV, independent of the units of the program.
-/
namespace Verif.Spec
open Verif.Model

variable {W R : ℕ}

/-- The Hamiltonian in eV of the file at the wavevector with crystal coordinates `p`: the sum over the lattice vectors `n` of `exp(2πi p·n) H(n) / degeneracy(n)`. -/
noncomputable def tbHamiltonian (c : TbContents W R) (p : V3 ℝ) : Matrix (Fin W) (Fin W) ℂ := fun m n =>
  ∑ r, Complex.exp (((2 * Real.pi * (p.x * (c.vector r).x + p.y * (c.vector r).y + p.z * (c.vector r).z) : ℝ) : ℂ) * Complex.I) / (c.degeneracy r : ℂ) * c.ham r m n

/-- The elements of the file are those of a Hermitian operator: to every lattice vector belongs the opposite one, with the same degeneracy and the adjoint matrix. -/
def HermitianContents (c : TbContents W R) : Prop :=
  ∃ opposite : Fin R ≃ Fin R, ∀ r, c.vector (opposite r) = ⟨-(c.vector r).x, -(c.vector r).y, -(c.vector r).z⟩ ∧ c.degeneracy (opposite r) = c.degeneracy r ∧
    ∀ m n, c.ham (opposite r) n m = (starRingEnd ℂ) (c.ham r m n)

/-- The atoms of the input file: known elements, and for each atom a position and one of the elements. -/
structure KnownAtoms (atoms : List (List Char)) (kinds : List Int) (positions : List Vec3) : Prop where
  names : ∀ n ∈ atoms, ∃ e ∈ elementTable, e.symbol = n
  length : kinds.length = positions.length
  species : ∀ s ∈ kinds, 0 ≤ s ∧ s < atoms.length

/-- The external calls and the input of the run are as they should be, for `W` functions and the points `pts` of the path. -/
structure GoodWannierApp (A : WannierApp) (W : ℕ) (pts : List (V3 ℝ)) : Prop where
  units : 0 < A.ry ∧ A.ang ≠ 0
  atoms : KnownAtoms A.names A.species A.positions
  solver : ∀ d : Matrix (Fin W) (Fin W) ℂ, d.IsHermitian → IsEigenDecomposition d (A.eig W d).1 (A.eig W d).2
  batch : 0 < A.batchSize
  sched : ∀ l, (A.sched l).Perm l
  path : pathPoints A.segs A.delta = .ok pts
  process : A.rank < A.size
  processes : A.size ≤ pts.length
  fits : pts.length ≤ 1073741823 ∧ ((pts.length * W : Nat) : Int) ≤ intMax ∧ ((W * W * 3 : Nat) : Int) ≤ intMax

end Verif.Spec
