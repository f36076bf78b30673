import Verif.Model.ActiveStore

/-! # Specification: what an active band structure must return -/
namespace Verif.Spec
open Verif.Model

/-- The energies of all active states are those of the Hamiltonian at the wavevector `k ik` of the active point
`ik`, for the band `first ik + ib`. -/
def EnergiesOf {κ α γ : Type} (B : ActiveLayout) (H : HamView κ α γ) (k : Nat → κ) (first : Nat → Nat)
    (A : ActiveArrays α γ) : Prop :=
  ∀ ik ib, ik < B.numPoints → ib < B.numBands ik →
    A.getEnergy (B.bloch2Comb ik ib) = .ok (H.energy (k ik) (first ik + ib))

/-- The eigenvectors of all active states are those of the Hamiltonian: as a matrix, and for phonons (three
components per atom) also as displacements of the atoms. -/
def VectorsOf {κ α γ : Type} (B : ActiveLayout) (H : HamView κ α γ) (k : Nat → κ) (first : Nat → Nat)
    (A : ActiveArrays α γ) : Prop :=
  (∀ ik i ib, ik < B.numPoints → i < B.numFullBands → ib < B.numBands ik →
    B.getEigenvector A.eigenvectors ik i ib = .ok (H.vector (k ik) i (first ik + ib))) ∧
  ∀ numAtoms, B.numFullBands = 3 * numAtoms → (3 * numAtoms : Int) ≤ intMax →
    ∀ ik ib iat ic, ik < B.numPoints → ib < B.numBands ik → iat < numAtoms → ic < 3 →
    A.getPhEigenvector B ik ic iat ib = .ok (some (H.vector (k ik) (3 * iat + ic) (first ik + ib)))

/-- The velocity operator between active states of a point is that of the Hamiltonian; the group velocity of a
state is the real part of its diagonal. -/
def VelocitiesOf {κ α γ : Type} (B : ActiveLayout) (H : HamView κ α γ) (re : γ → α) (k : Nat → κ)
    (first : Nat → Nat) (A : ActiveArrays α γ) : Prop :=
  (∀ ik ib1 ib2 c, ik < B.numPoints → ib1 < B.numBands ik → ib2 < B.numBands ik → c < 3 →
    B.getVelocity A.velocities ik ib1 ib2 c = .ok (H.velocity (k ik) (first ik + ib1) (first ik + ib2) c)) ∧
  ∀ ik ib, ik < B.numPoints → ib < B.numBands ik →
    A.getGroupVelocity B re (B.bloch2Comb ik ib) =
      .ok ((List.range 3).map fun c => re (H.velocity (k ik) (first ik + ib) (first ik + ib) c))

end Verif.Spec
