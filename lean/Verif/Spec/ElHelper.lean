import Verif.Model.ElHelper

/-!
# Specification: the phonon of an electron-phonon process

`Lattice` dynamics are given by functions of the wavevector: energies, eigenvectors, velocities and the first part of
the polar correction.
-/
namespace Verif.Spec
open Verif.Model

/-- The phonons as functions of the wavevector. -/
structure PhononField (α γ υ ω : Type) where
  energies : V3 Rat → List α
  vectors : V3 Rat → υ
  velocities : V3 Rat → ω
  polar : V3 Rat → List γ

variable {α γ υ ω : Type}

/-- The answer for the wavevector `q` with the phonons taken at `p`: populations are those of every temperature and
mode, velocities are there when asked for. -/
def PhononField.answer (F : PhononField α γ υ ω) (pop : α → α → α) (temps : List α) (withVelocities : Bool)
    (q p : V3 Rat) : PhononOf α γ υ ω :=
  { q3 := q
    energies3 := F.energies p
    nb3 := (F.energies p).length
    eigenVectors3 := F.vectors p
    v3s := if withVelocities then some (F.velocities p) else none
    bose3 := temps.map fun t => (F.energies p).map fun e => pop e t
    polar := F.polar p }

/-- A band structure holds the phonons of its points. -/
structure Holds (bands : StoredPhonons α υ ω) (F : PhononField α γ υ ω) : Prop where
  energies : ∀ i p, i < bands.points.numPoints → bands.points.getPointCoordinates i = .ok p →
    bands.getEnergies i = .ok (F.energies p)
  vectors : ∀ i p, i < bands.points.numPoints → bands.points.getPointCoordinates i = .ok p →
    bands.getEigenvectors i = .ok (F.vectors p)
  velocities : ∀ i p, i < bands.points.numPoints → bands.points.getPointCoordinates i = .ok p →
    bands.getGroupVelocities i = .ok (F.velocities p)

end Verif.Spec
