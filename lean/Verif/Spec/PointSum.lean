import Verif.Model.PointSum
import Verif.Spec.Symmetry

/-! Specification vocabulary for points of a mesh. -/
namespace Verif.Props
open Verif.Model

/-- `p` is a point of the full mesh `mesh` without offset, which is one of the sets. -/
def OnMesh (sets : List Points) (mesh : V3 Int) (p : PointRef) : Prop :=
  (0 ≤ p.index ∧ p.index < mesh.x * mesh.y * mesh.z) ∧
  ∃ s, sets[p.points]? = some s ∧ setMesh mesh ⟨0, 0, 0⟩ = .ok s

/-- Crystal coordinates of the points of the mesh: `index = x + mesh.x * (y + mesh.y * z)`. -/
def crystalOf (mesh : V3 Int) (index : Int) : V3 Rat :=
  ⟨((index % mesh.x : Int) : Rat) / mesh.x, ((index / mesh.x % mesh.y : Int) : Rat) / mesh.y,
    ((index / (mesh.x * mesh.y) : Int) : Rat) / mesh.z⟩

/-- The lattice vector that brings the component `x` of a sum, in `[0,2)`, to `[0,1)`. -/
def carry (x : Rat) : Int := if x < 1 then 0 else -1

/-- The lattice vector that brings the component `x` of a difference, in `(-1,1)`, to `[0,1)`. -/
def borrow (x : Rat) : Int := if x < 0 then 1 else 0

end Verif.Props
