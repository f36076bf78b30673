import Verif.Model.ThirdState
import Verif.Model.Bands

/-!
# Points of a mesh as objects: class `Point` of src/points.h L17-66 and src/points.cpp L218, L258, L629-690

A `Point` holds a reference to the set of points it belongs to.  The sets alive in the program are a list; a reference is
a position in that list.  All sets belong to the same crystal, of reciprocal unit cell `B`.
-/
namespace Verif.Model

/-- Class `Point`, src/points.h L63-65. -/
structure PointRef where
  umklapp : V3 Rat
  index : Int
  points : Nat
deriving DecidableEq, Repr

/-- `Points::getPoint`, src/points.cpp L218, with the default value of src/points.h L26. -/
def getPoint (points : Nat) (index : Int) : PointRef := ⟨⟨0, 0, 0⟩, index, points⟩

/-- `crystalCoordinates_` and `cartesianCoordinates_` of src/points.h L8-9, and any other value of the `int`. -/
inductive CoordBasis
  | crystal | cartesian | other
deriving DecidableEq

/-- `Point::getCoordinates`, src/points.cpp L648-660.  Simplification: the conversions between crystal and Cartesian
coordinates inside `bzToWs` are exact. -/
def PointRef.getCoordinates (p : PointRef) (B : M3) (sets : List Points) (basis : CoordBasis) (inWignerSeitz : Bool) :
    Outcome (V3 Rat) :=
  if basis = .other then .error
  else do
    let s ← readAt sets p.points
    let c ← s.getPointCoordinates p.index
    let c := if inWignerSeitz then bzToWs B c else c
    .ok (if basis = .crystal then c else B.mulVec c)

/-- `Point::hasUmklapp`, src/points.cpp L662-668: the norm is compared through its square. -/
def PointRef.hasUmklapp (p : PointRef) : Bool := !decide (p.umklapp.norm2 < eps8 * eps8)

/-- The common part of `Point::operator+` and `Point::operator-`, src/points.cpp L674-678 and L685-689. -/
def pointAt (s : Points) (points : Nat) (coordinates : V3 Rat) : Outcome PointRef := do
  let ik ← s.getIndex coordinates
  let c ← s.getPointCoordinates ik
  .ok ⟨c.sub coordinates, ik, points⟩

/-- `Point::operator+`, src/points.cpp L670-679. -/
def PointRef.plus (sets : List Points) (a b : PointRef) : Outcome PointRef :=
  if b.points ≠ a.points then .error
  else do
    let s ← readAt sets a.points
    let ca ← s.getPointCoordinates a.index
    let cb ← s.getPointCoordinates b.index
    pointAt s a.points (ca.add cb)

/-- `Point::operator-`, src/points.cpp L681-690. -/
def PointRef.minus (sets : List Points) (a b : PointRef) : Outcome PointRef :=
  if b.points ≠ a.points then .error
  else do
    let s ← readAt sets a.points
    let ca ← s.getPointCoordinates a.index
    let cb ← s.getPointCoordinates b.index
    pointAt s a.points (ca.sub cb)

/-- `Point::operator=`, src/points.cpp L638-646: the last statement assigns the *set* of points (L195-216), since a
reference cannot be made to refer to another object. -/
def PointRef.assign (sets : List Points) (a b : PointRef) : Outcome (PointRef × List Points) := do
  let s ← readAt sets b.points
  .ok (⟨b.umklapp, b.index, a.points⟩, sets.set a.points s)

end Verif.Model
