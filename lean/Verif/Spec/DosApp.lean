import Verif.Model.DosApp
import Verif.Spec.BandsFile
import Verif.Spec.Symmetry
import Verif.Spec.Dos

/-! # What the application of the density of states is given -/
namespace Verif.Spec
open Verif.Model

/-- The order of the calls is one that the threads can have, on every process; batches of phonons are not empty, and there
are three phonons for each atom. -/
def GoodFiller (nb : Nat) : Filler → Prop
  | .phonon batchSize sched => 0 < batchSize ∧ (∀ rank, GoodSched (sched rank)) ∧ 3 ∣ nb
  | .wannier sched => ∀ rank l, (sched rank l).Perm l
  | .fourier => True

/-- The value of one Rydberg in the unit of the file: meV for phonons and eV for electrons. -/
noncomputable def rydbergIn (k : TimeConstants) (phonon : Bool) : ℝ :=
  k.rydberg / (k.electronVolt / (if phonon then 1000 else 1))

/-- The bands of the Hamiltonian in crystal coordinates. -/
noncomputable def bandsOf (cell : Cell) (H : HamView Vec3 ℝ ℂ) (p : V3 Rat) (b : Nat) : ℝ :=
  H.energy (cartesianOf cell.reciprocal ⟨p.x, p.y, p.z⟩) b

/-- The mesh is closed under the symmetries: the rotated points are points of the mesh, up to reciprocal lattice vectors. -/
def MeshSym (rots : List M3) (mesh : V3 Int) : Prop :=
  ∀ R ∈ rots, ∀ i < (mesh.x * mesh.y * mesh.z).toNat, ∃ j < (mesh.x * mesh.y * mesh.z).toNat,
    Props.Equivalent (R.mulVec (meshCoordinates mesh ⟨0, 0, 0⟩ (i : Int))) (meshCoordinates mesh ⟨0, 0, 0⟩ (j : Int))

end Verif.Spec
