import Verif.Model.Basic
import Verif.Model.Points
import Verif.Model.Bands
import Verif.Model.IrrPoints
import Mathlib.LinearAlgebra.Matrix.Defs
import Mathlib.Data.Matrix.Mul
import Mathlib.Analysis.SpecialFunctions.Trigonometric.Basic
import Mathlib.Data.Real.Sqrt

/-!
# The unit cell and the lattice vectors in the Wigner-Seitz cell of a supercell

src/crystal.cpp.  Numbers of type `double` are real numbers (exact arithmetic).
-/
namespace Verif.Model

/-- A vector and a 3x3 matrix, `m i j` is the element of row `i` and column `j`. -/
abbrev Vec3 := Fin 3 → ℝ
abbrev Mat3 := Matrix (Fin 3) (Fin 3) ℝ

/-- `Eigen::Vector3d::dot`. -/
noncomputable def vdot (a b : Vec3) : ℝ := a 0 * b 0 + a 1 * b 1 + a 2 * b 2

/-- `Eigen::Vector3d::cross`. -/
noncomputable def vcross (a b : Vec3) : Vec3 :=
  ![a 1 * b 2 - a 2 * b 1, a 2 * b 0 - a 0 * b 2, a 0 * b 1 - a 1 * b 0]

/-- `Eigen::Vector3d::norm`. -/
noncomputable def vnorm (a : Vec3) : ℝ := Real.sqrt (vdot a a)

/-- Product of a matrix and a vector. -/
noncomputable def matVec (m : Mat3) (v : Vec3) : Vec3 := fun i => vdot (m i) v

/-- `calcVolume`, src/crystal.cpp L11-21. -/
noncomputable def calcVolume (d : Mat3) : ℝ :=
  let a1 := d 0
  let a2 := d 1
  let a3 := d 2
  (|vdot a1 (vcross a2 a3)| + |vdot a2 (vcross a3 a1)| + |vdot a3 (vcross a1 a2)|) / 3

/-- `Eigen::Matrix3d::inverse` (external): the cofactors divided by the determinant. -/
noncomputable def inverse3 (m : Mat3) : Mat3 :=
  let c : Fin 3 → Fin 3 → ℝ := fun i j => m (i + 1) (j + 1) * m (i + 2) (j + 2) - m (i + 1) (j + 2) * m (i + 2) (j + 1)
  let det := m 0 0 * c 0 0 + m 0 1 * c 0 1 + m 0 2 * c 0 2
  fun i j => c j i / det

/-- `Crystal::calcReciprocalCell`, src/crystal.cpp L289-293. -/
noncomputable def calcReciprocalCell (d : Mat3) : Mat3 := fun i j => 2 * Real.pi * inverse3 d j i

/-- The cell of a crystal. -/
structure Cell where
  direct : Mat3
  reciprocal : Mat3
  volume : ℝ

/-- The part of the constructor of `Crystal` that sets the cell, src/crystal.cpp L29-34, L295-298. -/
noncomputable def makeCell (d : Mat3) : Outcome Cell :=
  if calcVolume d ≤ 0 then .error
  else .ok ⟨d, calcReciprocalCell d, calcVolume d⟩

/-- `Crystal::getVolumeUnitCell`, src/crystal.cpp L310-321. -/
noncomputable def Cell.getVolume (c : Cell) (dimensionality : Int) : ℝ :=
  if dimensionality = 3 then c.volume
  else if dimensionality = 2 then |c.direct 0 0 * c.direct 1 1 - c.direct 0 1 * c.direct 1 0|
  else c.direct 2 2

/-- `Crystal::crystalToCartesian`, src/crystal.cpp L642-644. -/
noncomputable def Cell.crystalToCartesian (c : Cell) (p : Vec3) : Vec3 := matVec c.reciprocal p

/-- `Crystal::cartesianToCrystal`, src/crystal.cpp L646-649. -/
noncomputable def Cell.cartesianToCrystal (c : Cell) (p : Vec3) : Vec3 := matVec (inverse3 c.reciprocal) p

/-! ## Wigner-Seitz vectors -/

/-- The loop `for (int i = -n; i <= n; i++)`. -/
def zRange (n : Int) : List Int := (List.range (2 * n + 1).toNat).map fun k : Nat => (k : Int) - n

/-- Three nested loops from `-n` to `n`. -/
def zBox (n : V3 Int) : List (V3 Int) :=
  (zRange n.x).flatMap fun a => (zRange n.y).flatMap fun b => (zRange n.z).map fun c => ⟨a, b, c⟩

/-- A vector of integers as a vector of `double`. -/
noncomputable def toVec (v : V3 Int) : Vec3 := ![(v.x : ℝ), (v.y : ℝ), (v.z : ℝ)]

/-- `i - j * grid`, src/crystal.cpp L394-396, L502-504. -/
def offsetBy (grid i j : V3 Int) : V3 Int := ⟨i.x - j.x * grid.x, i.y - j.y * grid.y, i.z - j.z * grid.z⟩

/-- `distances` for one vector, src/crystal.cpp L388-403 (`shift` zero) and L496-516. -/
noncomputable def wsDistances (d : Mat3) (grid : V3 Int) (nx : Int) (shift : Vec3) (i : V3 Int) : List ℝ :=
  (zBox ⟨nx + 1, nx + 1, nx + 1⟩).map fun j => vnorm (matVec d (toVec (offsetBy grid i j)) + shift)

/-- `distMin`, by the loop of src/crystal.cpp L519-524; `std::min_element` of L406 gives the same value. -/
noncomputable def distMin (l : List ℝ) : ℝ := l.foldl (fun m x => if x < m then x else m) (l.getD 0 0)

/-- The tests of src/crystal.cpp L406-418 (and L518-539) on the distances of one vector: `none` if the vector is not
kept, otherwise the degeneracy.  `mid` is `midIndex`. -/
noncomputable def wsDegeneracy (mid : Nat) (l : List ℝ) : Outcome (Option Nat) := do
  let r ← readAt l mid
  if |r - distMin l| < 1 / 1000000 then
    .ok (some (l.filter fun x => decide (|x - distMin l| < 1 / 1000000)).length)
  else .ok none

/-- The vectors kept and their degeneracies, src/crystal.cpp L360-425 (L484-549 with a shift).  The products
`nx * grid` are assumed to fit in an `int`. -/
noncomputable def wsCollect (d : Mat3) (grid : V3 Int) (nx : Int) (shift : Vec3) (mid : Nat) :
    List (V3 Int) → Outcome (List (V3 Int × Nat))
  | [] => .ok []
  | i :: rest => do
    let o ← wsDegeneracy mid (wsDistances d grid nx shift i)
    let l ← wsCollect d grid nx shift mid rest
    match o with
    | none => .ok l
    | some deg => .ok ((i, deg) :: l)

/-- The box of vectors, src/crystal.cpp L380-382. -/
def wsBox (grid : V3 Int) (nx : Int) : List (V3 Int) := zBox ⟨nx * grid.x, nx * grid.y, nx * grid.z⟩

/-- The index of the last vector of norm below `1e-6`, src/crystal.cpp L443-452; `-1` is `none`. -/
noncomputable def originIndex (l : List (V3 Int)) : Option Nat :=
  (List.range l.length).foldl (fun o iR =>
    if vnorm (toVec (l.getD iR ⟨0, 0, 0⟩)) < 1 / 1000000 then some iR else o) none

/-- Exchange of the elements `0` and `k`, src/crystal.cpp L456-463. -/
def swapFirst {α : Type} (l : List α) (k : Nat) : Outcome (List α) := do
  let tmp1 ← readAt l k
  let tmp2 ← readAt l 0
  .ok ((l.set 0 tmp1).set k tmp2)

/-- `Crystal::buildWignerSeitzVectors`, src/crystal.cpp L353-466: the position vectors and their degeneracies. -/
noncomputable def buildWignerSeitz (d : Mat3) (grid : V3 Int) (nx : Int) : Outcome (List Vec3 × List Nat) := do
  let mid := ((2 * (nx + 1) + 1) ^ 3).toNat / 2
  let l ← wsCollect d grid nx 0 mid (wsBox grid nx)
  let tot : ℝ := (l.map fun p => 1 / (p.2 : ℝ)).sum
  if |tot - ((grid.x * grid.y * grid.z : Int) : ℝ)| > 1 / 1000000 then .error
  else
    match originIndex (l.map Prod.fst) with
    | none => .error
    | some k => do
      let degs ← swapFirst (l.map Prod.snd) k
      let vecs ← swapFirst (l.map fun p => matVec d (toVec p.1)) k
      .ok (vecs, degs)

/-! ## Shifted vectors -/

/-- The squared norm of the difference of two vectors is below `1e-6`. -/
def nearVec (x y : V3 Int) : Prop :=
  vdot (toVec x - toVec y) (toVec x - toVec y) < 1 / 1000000

open scoped Classical in
/-- One vector goes through the search for repeated vectors, src/crystal.cpp L571-586: `found` is set for an empty list
and for a repeated vector, and it is then that the vector is stored. -/
noncomputable def shiftUnique (tmpVectors : List (V3 Int)) (x : V3 Int) : List (V3 Int) :=
  let found := decide (tmpVectors = []) || tmpVectors.any fun y => decide (nearVec x y)
  if found then tmpVectors ++ [x] else tmpVectors

open scoped Classical in
/-- The row of degeneracies of one pair of atoms, src/crystal.cpp L591-611: written at the first near vector. -/
noncomputable def shiftDegeneracies (tmpVectors : List (V3 Int)) (l : List (V3 Int × Nat)) : List Nat :=
  l.foldl (fun degs p =>
    match tmpVectors.findIdx? fun y => decide (nearVec p.1 y) with
    | some k => degs.set k p.2
    | none => degs) (List.replicate tmpVectors.length 0)

open scoped Classical in
/-- `Crystal::buildWignerSeitzVectorsWithShift`, src/crystal.cpp L468-639, for the shifts of the list `shift`: the
vectors, and the degeneracies of every pair of shifts. -/
noncomputable def buildWignerSeitzShift (d : Mat3) (grid : V3 Int) (shift : List Vec3) (nx : Int) :
    Outcome (List Vec3 × List (List Nat)) := do
  let mid := ((2 * (nx + 1) + 1) ^ 3).toNat / 2
  let pairs := shift.flatMap fun si => shift.map fun sj => (si, sj)
  let all ← mapOutcome (fun p : Vec3 × Vec3 => wsCollect d grid nx (p.2 - p.1) mid (wsBox grid nx)) pairs
  let tmpVectors := ((all.flatten).map Prod.fst).foldl shiftUnique []
  let degs := all.map (shiftDegeneracies tmpVectors)
  let complete (row : List Nat) : Prop :=
    ¬ |((row.map fun g : Nat => if 0 < g then 1 / (g : ℝ) else 0).sum) - ((grid.x * grid.y * grid.z : Int) : ℝ)|
      > 1 / 1000000
  if ∀ row ∈ degs, complete row then .ok (tmpVectors.map fun v => matVec d (toVec v), degs) else .error

end Verif.Model
