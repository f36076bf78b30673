import Verif.Model.DynMat
import Verif.Model.FullStore

/-!
# What the file of the phonon bands should contain
-/
namespace Verif.Spec
open Verif.Model

/-- Two wavevectors that differ by a vector of the reciprocal lattice (columns of `recip`). -/
def SameModLattice (recip : Mat3) (k q : Vec3) : Prop :=
  ∃ n : Fin 3 → ℤ, ∀ i, k i = q i + ∑ j, (n j : ℝ) * recip i j

/-- All the normal modes of a crystal at a wavevector, where `D` is the matrix of the forces (its Hermitian part counts):
frequencies in increasing order (negative for imaginary ones) and displacements of the atoms that solve
`sum D u = m w |w| u` and are orthonormal with the masses as weights. -/
structure IsModes {A : Nat} (D : DynM A) (mass : Fin A → ℝ) (w : Fin (A * 3) → ℝ)
    (u : Fin (A * 3) → Fin A → Fin 3 → ℂ) : Prop where
  sorted : Monotone w
  motion : ∀ s a i, ∑ b, ∑ j, (1 / 2 * (D (a, i) (b, j) + (starRingEnd ℂ) (D (b, j) (a, i)))) * u s b j =
    (mass a : ℂ) * ((w s * |w s| : ℝ) : ℂ) * u s a i
  normal : ∀ s t, ∑ a, ∑ i, (starRingEnd ℂ) (u s a i) * (mass a : ℂ) * u t a i = if s = t then 1 else 0

/-- Cartesian coordinates of a wavevector given in crystal coordinates: the combination of the columns of the reciprocal
cell. -/
noncomputable def cartesianOf (recip : Mat3) (p : V3 ℝ) : Vec3 :=
  fun i => recip i 0 * p.x + recip i 1 * p.y + recip i 2 * p.z

/-- The order of the calls of a batch: the threads make those of the first loop in any order, then come the others. -/
def GoodSched (sched : List FullStore × List FullStore → List FullStore) : Prop :=
  ∀ b, ∃ p, p.Perm b.1 ∧ sched b = p ++ b.2

end Verif.Spec
