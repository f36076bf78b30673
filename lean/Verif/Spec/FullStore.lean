import Verif.Model.FullStore

/-! # Specification: what a full band structure must return -/
namespace Verif.Spec
open Verif.Model

/-- All that can be read about the energies of the wavevector of index `ik` is what the Hamiltonian gives at `k`. -/
def EnergiesAt {κ α γ : Type} [Zero α] (F : FullBands α γ) (H : HamView κ α γ) (k : κ) (rank ik : Nat) : Prop :=
  (∀ ib < F.numBands, F.getEnergy rank ik ib = .ok (H.energy k ib)) ∧
  (∀ ib < F.numBands, F.getStateEnergy rank ((ik * F.numBands + ib : Nat) : Int) = .ok (H.energy k ib)) ∧
  F.getEnergies rank ik = .ok ((List.range F.numBands).map (H.energy k))

/-- All that can be read about the velocities; the group velocity is the real part of the diagonal. -/
def VelocitiesAt {κ α γ : Type} [Zero γ] (F : FullBands α γ) (H : HamView κ α γ) (re : γ → α) (k : κ) (rank ik : Nat) :
    Prop :=
  (∀ ib < F.numBands, F.getGroupVelocity re rank ((ik * F.numBands + ib : Nat) : Int) =
    .ok ((List.range 3).map fun i => re (H.velocity k ib ib i))) ∧
  F.getGroupVelocities re rank ik =
    .ok ((List.range F.numBands).map fun ib => (List.range 3).map fun i => re (H.velocity k ib ib i)) ∧
  F.getVelocities rank ik = .ok ((List.range F.numBands).map fun ib1 => (List.range F.numBands).map fun ib2 =>
    (List.range 3).map fun i => H.velocity k ib1 ib2 i)

/-- All that can be read about the eigenvectors; for phonons, row `3 ia + ic` is the component `ic` of the displacement of
the atom `ia`. -/
def VectorsAt {κ α γ : Type} [Zero γ] (F : FullBands α γ) (H : HamView κ α γ) (k : κ) (rank ik : Nat) : Prop :=
  F.getEigenvectors rank ik =
    .ok ((List.range F.numBands).map fun i => (List.range F.numBands).map fun ib => H.vector k i ib) ∧
  F.getPhEigenvectors rank ik = .ok ((List.range 3).map fun ic => (List.range (F.numBands / 3)).map fun ia =>
    (List.range F.numBands).map fun ib => H.vector k (3 * ia + ic) ib)

/-- Nothing can be read about the wavevector of index `ik`: every request is an error. -/
def RefusesPoint {α γ : Type} [Zero α] [Zero γ] (F : FullBands α γ) (re : γ → α) (rank ik : Nat) : Prop :=
  (∀ ib < F.numBands, F.getEnergy rank ik ib = .error ∧
    F.getStateEnergy rank ((ik * F.numBands + ib : Nat) : Int) = .error) ∧
  F.getEnergies rank ik = .error ∧
  (F.hasVelocities = true →
    (∀ ib < F.numBands, F.getGroupVelocity re rank ((ik * F.numBands + ib : Nat) : Int) = .error) ∧
    F.getGroupVelocities re rank ik = .error ∧ F.getVelocities rank ik = .error) ∧
  (F.hasEigenvectors = true → F.getEigenvectors rank ik = .error ∧ F.getPhEigenvectors rank ik = .error)

/-- The calls cover the wavevectors `iks`: each quantity that is kept is set for each of them, no other wavevector is
touched, and nothing is set that is not kept. -/
structure CoversPoints (withVelocities withEigenvectors : Bool) (iks : List Nat) (ss : List FullStore) : Prop where
  inside : ∀ s ∈ ss, s.point ∈ iks
  energies : ∀ ik ∈ iks, FullStore.energies ik ∈ ss
  velocities : withVelocities = true → ∀ ik ∈ iks, FullStore.velocities ik ∈ ss
  eigenvectors : withEigenvectors = true → ∀ ik ∈ iks, FullStore.eigenvectors ik ∈ ss
  noVelocities : withVelocities = false → ∀ ik, FullStore.velocities ik ∉ ss
  noEigenvectors : withEigenvectors = false → ∀ ik, FullStore.eigenvectors ik ∉ ss

end Verif.Spec
