import Mathlib.Algebra.Order.Floor.Ring
import Mathlib.Data.Rat.Floor
import Verif.Model.Points

/-!
Uniform meshes of wavevectors, known up to a tolerance.  Only the type of vectors is that of the model.
-/
namespace Verif.Spec
open Verif.Model (V3)

/-- Two coordinates are equal up to integers and a tolerance. -/
def NearMod (tol x y : Rat) : Prop := ∃ m : Int, |x - y - m| ≤ tol

/-- Two wavevectors, in crystal coordinates, are equal up to reciprocal lattice vectors and a tolerance. -/
def SamePoint (tol : Rat) (p q : V3 Rat) : Prop := NearMod tol p.x q.x ∧ NearMod tol p.y q.y ∧ NearMod tol p.z q.z

/-- The point of the mesh with the given integers. -/
def gridPoint (n : V3 Nat) (o : V3 Rat) (a b c : Nat) : V3 Rat := ⟨o.x + a / n.x, o.y + b / n.y, o.z + c / n.z⟩

/-- The list has each point of the mesh once, in any order, anywhere in reciprocal space. -/
structure IsMesh (tol : Rat) (n : V3 Nat) (o : V3 Rat) (pts : List (V3 Rat)) : Prop where
  length : pts.length = n.x * n.y * n.z
  covers : ∀ a b c, a < n.x → b < n.y → c < n.z → ∃ p ∈ pts, SamePoint tol p (gridPoint n o a b c)

end Verif.Spec
