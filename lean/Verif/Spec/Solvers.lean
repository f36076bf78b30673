import Mathlib.Data.Real.Basic
import Mathlib.Algebra.BigOperators.Group.Finset.Basic
import Mathlib.Data.Finset.Prod
import Mathlib.Analysis.SpecialFunctions.Exp

/-!
# The linearised Boltzmann equation

Unknowns are numbered by a Cartesian component and a state; some states (acoustic phonons at the zone centre) are excluded.
-/
namespace Verif.Spec

/-- States that are not excluded. -/
def freeStates (n : Nat) (ex : List Nat) : Finset Nat := (Finset.range n).filter (· ∉ ex)

/-- The unknowns: (component, state). -/
def unknowns (n : Nat) (ex : List Nat) : Finset (Nat × Nat) := Finset.range 3 ×ˢ freeStates n ex

/-- `x` solves `A x = b` on `S`, with `A = diag + off`. -/
def SolvesSplit {ι : Type} (S : Finset ι) (diag : ι → ℝ) (off : ι → ι → ℝ) (b x : ι → ℝ) : Prop :=
  ∀ u ∈ S, diag u * x u + ∑ v ∈ S, off u v * x v = b u

/-- `x` solves `A x = b` on `S`. -/
def Solves {ι : Type} (S : Finset ι) (A : ι → ι → ℝ) (b x : ι → ℝ) : Prop := ∀ u ∈ S, ∑ v ∈ S, A u v * x v = b u

/-- The iteration of Omini and Sparavigna: the population scattered in is corrected from the previous population. -/
noncomputable def ominiIterate {ι : Type} (S : Finset ι) (diag : ι → ℝ) (off : ι → ι → ℝ) (f0 : ι → ℝ) : Nat → ι → ℝ
  | 0 => f0
  | k + 1 => fun u => f0 u - (∑ v ∈ S, off u v * ominiIterate S diag off f0 k v) / diag u

/-- A symmetric and positive definite operator on `S`, as the scattering matrix is by detailed balance and energy
dissipation. -/
structure PosDef {ι : Type} (S : Finset ι) (A : ι → ι → ℝ) : Prop where
  symm : ∀ u ∈ S, ∀ v ∈ S, A u v = A v u
  pos : ∀ x : ι → ℝ, (∃ u ∈ S, x u ≠ 0) → 0 < ∑ u ∈ S, ∑ v ∈ S, x u * A u v * x v

/-- `vec t alpha` (`alpha < n`) is a complete orthonormal set of eigenvectors of the matrix `A` on `n` states. -/
structure Eigensystem (n : Nat) (A : Nat → Nat → ℝ) (lam : Nat → ℝ) (vec : Nat → Nat → ℝ) : Prop where
  eigen : ∀ s < n, ∀ alpha < n, ∑ t ∈ Finset.range n, A s t * vec t alpha = lam alpha * vec s alpha
  complete : ∀ s < n, ∀ t < n, ∑ alpha ∈ Finset.range n, vec s alpha * vec t alpha = if s = t then 1 else 0

/-- The elements of an `n` by `n` matrix are shared among the processes: every element has one owner. -/
def SharedOut (n size : Nat) (states : Nat → List (Nat × Nat)) : Prop :=
  ((List.range size).flatMap states).Perm ((List.range n).flatMap fun s => (List.range n).map fun alpha => (s, alpha))

/-- The Bose-Einstein occupation. -/
noncomputable def boseOcc (temp chemPot energy : ℝ) : ℝ := 1 / (Real.exp ((energy - chemPot) / temp) - 1)

/-- `n (n + 1)` of phonons. -/
noncomputable def boseWeight (temp chemPot energy : ℝ) : ℝ := boseOcc temp chemPot energy * (boseOcc temp chemPot energy + 1)

/-- The Fermi-Dirac occupation. -/
noncomputable def fermiOcc (temp chemPot energy : ℝ) : ℝ := 1 / (Real.exp ((energy - chemPot) / temp) + 1)

/-- `n (1 - n)` of electrons. -/
noncomputable def fermiWeight (temp chemPot energy : ℝ) : ℝ := fermiOcc temp chemPot energy * (1 - fermiOcc temp chemPot energy)

end Verif.Spec
