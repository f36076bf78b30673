import Verif.Model.Occupations
import Verif.Spec.ElHelper

/-! # Specification: occupations and third phonons -/
namespace Verif.Spec
open Verif.Model

variable {α γ υ ω : Type}

/-- Occupations of an energy at the temperatures and chemical potentials of the calculations. -/
def occupations (pop : α → α → α → α) (stats : List (α × α)) (e : α) : List α := stats.map fun s => pop e s.1 s.2

/-- The third phonon for the wavevector `q` with the phonons taken at `p`. -/
def PhononField.third (F : PhononField α γ υ ω) (pop : α → α → α → α) (stats : List (α × α)) (withVelocities : Bool)
    (q p : V3 Rat) : ThirdPhonon α υ ω :=
  { q3 := q
    energies3 := F.energies p
    nb3 := (F.energies p).length
    eigenVectors3 := F.vectors p
    v3s := if withVelocities then some (F.velocities p) else none
    bose3 := (F.energies p).map fun e => occupations pop stats e }

end Verif.Spec
