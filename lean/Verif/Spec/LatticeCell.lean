import Verif.Model.Crystal

/-!
# Specification: lattice vectors and supercells

`d` has the lattice vectors in its columns; the supercell has `grid` cells along each of them.
-/
namespace Verif.Spec
open Verif.Model

/-- The length of a lattice vector of integer coordinates `v`. -/
noncomputable def latticeLength (d : Mat3) (v : V3 Int) : ℝ := vnorm (d.mulVec ![(v.x : ℝ), (v.y : ℝ), (v.z : ℝ)])

/-- Two lattice vectors that differ by a vector of the lattice of supercells. -/
def SameCell (grid v w : V3 Int) : Prop := grid.x ∣ v.x - w.x ∧ grid.y ∣ v.y - w.y ∧ grid.z ∣ v.z - w.z

/-- No equivalent vector is shorter, by the tolerance of the program or more. -/
def Shortest (d : Mat3) (grid v : V3 Int) : Prop := ∀ w, SameCell grid w v → latticeLength d v < latticeLength d w + 1 / 1000000

/-- The supercell is compact: the shortest vectors are not farther than a supercell along each of its edges. -/
def CompactGrid (d : Mat3) (grid : V3 Int) : Prop :=
  ∀ v, Shortest d grid v → |v.x| ≤ grid.x ∧ |v.y| ≤ grid.y ∧ |v.z| ≤ grid.z

end Verif.Spec
