import Verif.Model.Points
import Verif.Model.Delta

/-! # Densities of states on a mesh -/
namespace Verif.Spec
open Verif.Model

/-- A band structure over all wavevectors, in crystal coordinates: periodic in the reciprocal lattice. -/
def PeriodicBands (eps : V3 Rat → Nat → ℝ) : Prop :=
  ∀ (p : V3 Rat) (g : V3 Int) (b : Nat), eps ⟨p.x + g.x, p.y + g.y, p.z + g.z⟩ b = eps p b

/-- The wavevector at corner `c` (three binary digits) of the cell of the mesh whose first corner is `p`. -/
def cellCorner (mesh : V3 Int) (p : V3 Rat) (c : Nat) : V3 Rat :=
  ⟨p.x + (c % 2 : Nat) / mesh.x, p.y + (c / 2 % 2 : Nat) / mesh.y, p.z + (c / 4 % 2 : Nat) / mesh.z⟩

/-- The density of states by the tetrahedron method: average over the cells of the mesh, for each band. -/
noncomputable def meshDos (mesh : V3 Int) (numBands : Nat) (eps : V3 Rat → Nat → ℝ) (e : ℝ) : ℝ :=
  (∑ k ∈ Finset.range (mesh.x * mesh.y * mesh.z).toNat, ∑ b ∈ Finset.range numBands,
    tetraSmearing (fun c => eps (cellCorner mesh (meshCoordinates mesh ⟨0, 0, 0⟩ (k : Int)) c) b) e) /
    ((mesh.x * mesh.y * mesh.z : Int) : ℝ)

end Verif.Spec
