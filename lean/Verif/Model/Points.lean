import Verif.Model.Utilities
import Mathlib.Data.Rat.Floor
/-!
# src/points.cpp: meshes of wavevectors

Crystal coordinates (`double`) are modelled by rationals; rounding errors of floating point are not
modelled.  `int` arithmetic on mesh indices is modelled by unbounded integers (meshes are far below the
overflow limit), except where stated.
-/
namespace Verif.Model

/-- A three-component vector (`Eigen::Vector3d`, `Eigen::Vector3i`). -/
structure V3 (α : Type) where
  x : α
  y : α
  z : α
deriving DecidableEq, Repr

/-- Component `0`, `1`, `2` (anything else: `2`). -/
def V3.get (v : V3 α) : Nat → α
  | 0 => v.x
  | 1 => v.y
  | _ => v.z

/-- C/C++ `round`: to nearest, halves away from zero. -/
def cround (x : Rat) : Int := if 0 ≤ x then ⌊x + 1 / 2⌋ else ⌈x - 1 / 2⌉

/-- `mod` of src/utilities.cpp L9 on unbounded integers (`(a % b + b) % b` with truncated `%`). -/
def imod (a b : Int) : Int := (a.tmod b + b).tmod b

/-- The tolerances of the code as exact decimals. -/
def eps6 : Rat := 1 / 1000000
def eps8 : Rat := 1 / 100000000
def eps5 : Rat := 1 / 100000

/-- `Points::getPointCoordinates`, mesh branch, src/points.cpp L230-240: crystal coordinates of point
`index` of the mesh. -/
def meshCoordinates (mesh : V3 Int) (offset : V3 Rat) (index : Int) : V3 Rat :=
  let ikz := index.tdiv (mesh.x * mesh.y)
  let idx := index - ikz * mesh.x * mesh.y
  let iky := idx.tdiv mesh.x
  let ikx := imod idx mesh.x
  { x := (ikx : Rat) / mesh.x + offset.x
    y := (iky : Rat) / mesh.y + offset.y
    z := (ikz : Rat) / mesh.z + offset.z }

/-- `Points::isPointStored`, mesh branch, src/points.cpp L406-424.  Note that the signed rounding errors
are added (L414) and compared without absolute value (L418). -/
def isPointStoredMesh (mesh : V3 Int) (offset : V3 Rat) (p : V3 Rat) : Int :=
  let x := (p.x - offset.x) * mesh.x
  let y := (p.y - offset.y) * mesh.y
  let z := (p.z - offset.z) * mesh.z
  let diff := ((cround x : Rat) - x) + ((cround y : Rat) - y) + ((cround z : Rat) - z)
  let px := imod (cround x) mesh.x
  let py := imod (cround y) mesh.y
  let pz := imod (cround z) mesh.z
  if diff ≥ eps6 then -1
  else pz * mesh.x * mesh.y + py * mesh.x + px

/-- `innermostPointsBinarySearch`, src/points.cpp L270-295, for one Cartesian direction: `f i` is
`pointsList(direction, i)` and `x` is `x(direction)`.  The recursion is bounded by `fuel`. -/
def innermostSearch (f : Int → Rat) (x : Rat) : Nat → Int → Int → Outcome Int
  | 0, _, _ => .diverge
  | fuel + 1, left, right =>
    if right ≥ left then
      let mid := left + (right - left).tdiv 2
      let diff := f mid - x
      if |diff| < eps6 then .ok mid
      else if diff > eps6 then innermostSearch f x fuel left (mid - 1)
      else innermostSearch f x fuel (mid + 1) right
    else .ok (-1)

/-- The first `while` of `internalPointsBinarySearch`, src/points.cpp L328-345: move down while the point
below matches. -/
def expandDown (m : Nat → Bool) : Nat → Nat
  | 0 => 0
  | k + 1 => if m k then expandDown m k else k + 1

/-- The second `while`, src/points.cpp L346-358: move up while the next point matches; `n` is the number of
points and `fuel` bounds the loop (`n` steps always suffice). -/
def expandUp (m : Nat → Bool) (n : Nat) : Nat → Nat → Nat
  | 0, k => k
  | fuel + 1, k => if k + 1 < n then (if m (k + 1) then expandUp m n fuel (k + 1) else k) else k

/-- Squared distance over components `direction..2`, src/points.cpp L332-336 and L348-352. -/
def tailDist2 (p q : V3 Rat) (direction : Nat) : Rat :=
  (if direction ≤ 0 then (p.x - q.x) * (p.x - q.x) else 0) +
  (if direction ≤ 1 then (p.y - q.y) * (p.y - q.y) else 0) +
  (p.z - q.z) * (p.z - q.z)

/-- Coordinate of the stored point `i` (only read at valid indices). -/
def coordAt (pts : List (V3 Rat)) (i : Nat) : V3 Rat := pts.getD i ⟨0, 0, 0⟩

/-- `internalPointsBinarySearch`, src/points.cpp L312-359.  `none` is the pair `(-1,-1)`. -/
def internalSearch (pts : List (V3 Rat)) (idMin idMax : Int) (point : V3 Rat) (direction : Nat) :
    Outcome (Option (Nat × Nat)) :=
  match innermostSearch (fun i => (coordAt pts i.toNat).get direction) (point.get direction)
      (pts.length + 1) idMin idMax with
  | .ok id =>
    if id = -1 then .ok none
    else
      let m := fun j => decide (|tailDist2 (coordAt pts j) point direction| < eps6)
      .ok (some (expandDown m id.toNat, expandUp m pts.length pts.length id.toNat))
  | .error => .error
  | .ub => .ub
  | .diverge => .diverge

/-- `pointsBinarySearch`, src/points.cpp L371-402. -/
def pointsBinarySearch (pts : List (V3 Rat)) (point : V3 Rat) : Outcome Int := do
  let tz ← internalSearch pts 0 ((pts.length : Int) - 1) point 2
  match tz with
  | none => pure (-1)
  | some (zMin, zMax) =>
    let ty ← internalSearch pts zMin zMax point 1
    match ty with
    | none => pure (-1)
    | some (yMin, yMax) =>
      let tx ← internalSearch pts yMin yMax point 0
      match tx with
      | none => pure (-1)
      | some (xMin, xMax) => if xMin ≠ xMax then .error else pure (xMin : Int)

/-- The members of class `Points` used by the mesh lookup (src/points.h). -/
structure Points where
  mesh : V3 Int
  offset : V3 Rat
  numPoints : Nat
  explicitlyStored : Bool
  isPointsListSorted : Bool
  pointsList : List (V3 Rat)
  filteredToFullIndices : List Int
  numIrrPoints : Nat
deriving DecidableEq, Repr

/-- `Points::setMesh`, src/points.cpp L528-557.  The offset tests are `offset < 0 && offset >= 1`. -/
def setMesh (mesh : V3 Int) (offset : V3 Rat) : Outcome Points :=
  if mesh.x ≤ 0 then .error
  else if mesh.y ≤ 0 then .error
  else if mesh.z ≤ 0 then .error
  else if offset.x < 0 ∧ offset.x ≥ 1 then .error
  else if offset.y < 0 ∧ offset.y ≥ 1 then .error
  else if offset.z < 0 ∧ offset.z ≥ 1 then .error
  else .ok
    { mesh := mesh, offset := offset, numPoints := (mesh.x * mesh.y * mesh.z).toNat
      explicitlyStored := false, isPointsListSorted := false
      pointsList := [], filteredToFullIndices := [], numIrrPoints := 0 }

/-- `Points::getPointCoordinates` in crystal coordinates, src/points.cpp L222-248; reading a column that is
not there is undefined. -/
def Points.getPointCoordinates (s : Points) (index : Int) : Outcome (V3 Rat) :=
  if s.explicitlyStored then
    if 0 ≤ index ∧ index < s.pointsList.length then .ok (coordAt s.pointsList index.toNat) else .ub
  else .ok (meshCoordinates s.mesh s.offset index)

/-- Sortedness test between two consecutive points, src/points.cpp L156-161: the list is declared unsorted
only when *all three* components do not increase. -/
def notIncreasing (pOld x : V3 Rat) : Bool :=
  decide (x.x ≤ pOld.x) && decide (x.y ≤ pOld.y) && decide (x.z ≤ pOld.z)

/-- The flag computed along the list (src/points.cpp L140, L156-161). -/
def sortedFlag : List (V3 Rat) → Bool
  | a :: b :: t => !notIncreasing a b && sortedFlag (b :: t)
  | _ => true

/-- `Points::setActiveLayer`, src/points.cpp L126-176, applied to a set that is still a full mesh
(`explicitlyStored = false`).  Notes: L129-131 ignores any filter of full length; L150-153 test
`ik > maxIndex` assigns `ik` (not `maxIndex`), so `maxIndex` stays 0 and the range test L165-167 cannot fail
for a non-empty mesh. -/
def Points.setActiveLayer (s : Points) (filter : List Int) : Outcome Points :=
  if filter.length = s.numPoints then .ok s
  else
    let pts := filter.map (meshCoordinates s.mesh s.offset)
    if filter.any (fun ik => decide (ik < 0)) then .error
    else if (0 : Int) + 1 > s.mesh.x * s.mesh.y * s.mesh.z then .error
    else if s.numIrrPoints > 0 then .error
    else .ok { s with
      filteredToFullIndices := filter, numPoints := filter.length
      isPointsListSorted := sortedFlag pts, pointsList := pts, explicitlyStored := true }

/-- Fold a coordinate to `[0,1)` up to `1e-8`: `x -= floor(x + 1e-8)`, src/points.cpp L434 and L514. -/
def fold1 (x : Rat) : Rat := x - (⌊x + eps8⌋ : Int)

/-- Linear search of src/points.cpp L439-451 (the last match wins). -/
def linearSearch (pts : List (V3 Rat)) (p : V3 Rat) : Int :=
  (List.range pts.length).foldl (fun ik ikTest =>
    let k := coordAt pts ikTest
    let dx := fold1 (k.x - p.x)
    let dy := fold1 (k.y - p.y)
    let dz := fold1 (k.z - p.z)
    if dx * dx + dy * dy + dz * dz < eps5 then (ikTest : Int) else ik) (-1)

/-- `Points::isPointStored`, src/points.cpp L404-453. -/
def Points.isPointStored (s : Points) (p : V3 Rat) : Outcome Int :=
  if s.explicitlyStored then
    if s.isPointsListSorted then
      pointsBinarySearch s.pointsList ⟨fold1 p.x, fold1 p.y, fold1 p.z⟩
    else .ok (linearSearch s.pointsList p)
  else .ok (isPointStoredMesh s.mesh s.offset p)

/-- `Points::getIndex`, src/points.cpp L250-256. -/
def Points.getIndex (s : Points) (p : V3 Rat) : Outcome Int :=
  match s.isPointStored p with
  | .ok ik => if ik = -1 then .error else .ok ik
  | o => o

/-- `Points::foldToBz` in crystal coordinates, src/points.cpp L498-522. -/
def foldToBz (p : V3 Rat) : V3 Rat := ⟨fold1 p.x, fold1 p.y, fold1 p.z⟩

/-- A 3x3 matrix given by its rows. -/
structure M3 where
  r0 : V3 Rat
  r1 : V3 Rat
  r2 : V3 Rat
deriving DecidableEq, Repr

def V3.dot (a b : V3 Rat) : Rat := a.x * b.x + a.y * b.y + a.z * b.z
def V3.add (a b : V3 Rat) : V3 Rat := ⟨a.x + b.x, a.y + b.y, a.z + b.z⟩
def M3.mulVec (m : M3) (v : V3 Rat) : V3 Rat := ⟨m.r0.dot v, m.r1.dot v, m.r2.dot v⟩
def V3.norm2 (a : V3 Rat) : Rat := a.dot a
def V3.cast (g : V3 Int) : V3 Rat := ⟨g.x, g.y, g.z⟩

/-- `Points::setupGVectors`, src/points.cpp L24-43, in crystal (integer) coordinates: column 0 is zero, then
all `(i1,i2,i3)` in `{-2..2}^3` with `i1 <= 0 || i2 <= 0 || i3 <= 0` (the 8 all-positive ones are left out),
then the columns never written, which stay zero (125 columns in total). -/
def gVectors : List (V3 Int) :=
  let r : List Int := [-2, -1, 0, 1, 2]
  let vs := r.flatMap fun i1 => r.flatMap fun i2 => r.filterMap fun i3 =>
    if i1 ≤ 0 ∨ i2 ≤ 0 ∨ i3 ≤ 0 then some (⟨i1, i2, i3⟩ : V3 Int) else none
  let cols := (⟨0, 0, 0⟩ : V3 Int) :: vs
  cols ++ List.replicate (125 - cols.length) ⟨0, 0, 0⟩

/-- The loop of `Points::bzToWs`, src/points.cpp L481-489: keep the lattice vector giving the smallest
(shifted) squared norm so far. -/
def wsLoop (B : M3) (pointCart : V3 Rat) : List (V3 Int) → Rat → V3 Int → V3 Int
  | [], _, best => best
  | g :: gs, norm2, best =>
    let n := ((pointCart.add (B.mulVec g.cast)).add ⟨eps8, eps8, eps8⟩).norm2
    if n < norm2 then wsLoop B pointCart gs n g else wsLoop B pointCart gs norm2 best

/-- `Points::bzToWs` with crystal coordinates in and out, src/points.cpp L466-496.  `B` is the reciprocal
unit cell.  Simplification: the conversion to Cartesian coordinates and back of the final point (L491-494) is
taken to be exact. -/
def bzToWs (B : M3) (p : V3 Rat) : V3 Rat :=
  let pc := foldToBz p
  let cart := B.mulVec pc
  let g := wsLoop B cart gVectors.tail cart.norm2 ⟨0, 0, 0⟩
  pc.add g.cast

end Verif.Model
