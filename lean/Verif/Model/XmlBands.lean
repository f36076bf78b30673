import Verif.Model.Points
import Mathlib.Data.Finset.Sort
import Mathlib.Algebra.Order.Floor.Ring

/-!
# src/points.cpp, src/parser/qe_input_parser.cpp: the band structure in the XML file of Quantum ESPRESSO

Numbers are rationals (no rounding).
-/
namespace Verif.Model

/-- The set `s` of a component of the points, folded to `[0, 1)`, src/points.cpp L574-585, in increasing order. -/
def meshSet (vals : List Rat) : List Rat := (vals.map fun x : Rat => x - (⌊x⌋ : Int)).toFinset.sort (· ≤ ·)

/-- `isSingle`, src/points.cpp L593-604. -/
def meshSingle (b : Rat) (s : List Rat) : Bool :=
  s.all fun w => !(decide (w - b > eps6) && decide (1 - w + b > eps6))

/-- `delta`, src/points.cpp L610-616. -/
def meshDelta (b : Rat) (s : List Rat) : Rat :=
  match s.find? fun w => decide (w - b > eps6) with
  | none => 0
  | some w => w - b

/-- The mesh and the offset of one direction, src/points.cpp L572-620; without points `*s.begin()` is undefined. -/
def findMesh1 (vals : List Rat) : Outcome (Int × Rat) :=
  match meshSet vals with
  | [] => .ub
  | b :: t =>
    if meshSingle b (b :: t) then .ok (1, b)
    else .ok (cround (1 / meshDelta b (b :: t) + 1 / 10), b)

/-- `Points::findMesh`, src/points.cpp L562-626. -/
def findMesh (pts : List (V3 Rat)) : Outcome (V3 Int × V3 Rat) := do
  let x ← findMesh1 (pts.map V3.x)
  let y ← findMesh1 (pts.map V3.y)
  let z ← findMesh1 (pts.map V3.z)
  if (pts.length : Int) ≠ x.1 * y.1 * z.1 then .error
  else .ok (⟨x.1, y.1, z.1⟩, ⟨x.2, y.2, z.2⟩)

/-- An element `ks_energies` of the file: the wavevector in Cartesian coordinates and the eigenvalues. -/
structure KsEnergies where
  k : V3 Rat
  eigenvalues : List Rat

/-- The parts of the XML file that describe the bands. -/
structure XmlBands where
  lsda : Bool
  noncolin : Bool
  nbnd : Nat
  nks : Nat
  monkhorstPack : Bool
  recCell : M3
  ks : List KsEnergies

/-- The rows of `irrPoints` and `irrEnergies`, src/parser/qe_input_parser.cpp L716-757: a list of eigenvalues that is too short is read beyond its end.
`inverse` is `bVectors.inverse()` of Eigen. -/
def xmlRow (inverse : M3 → M3) (f : XmlBands) (e : KsEnergies) : Outcome (V3 Rat × List Rat) :=
  if e.eigenvalues.length < f.nbnd then .ub
  else .ok ((inverse f.recCell).mulVec e.k, (e.eigenvalues.take f.nbnd).map fun x => x * 2)

def xmlRows (inverse : M3 → M3) (f : XmlBands) : List KsEnergies → Outcome (List (V3 Rat × List Rat))
  | [] => .ok []
  | e :: t => do
    let r ← xmlRow inverse f e
    let u ← xmlRows inverse f t
    .ok (r :: u)

/-- `FullBandStructure::setEnergies` for each point, src/parser/qe_input_parser.cpp L780-787 and src/bands/bandstructure.cpp L312-322: the energies by the
index of the point.  Simplification: the band structure is not distributed. -/
def xmlFill (s : Points) : List (V3 Rat × List Rat) → (Int → Option (List Rat)) → Outcome (Int → Option (List Rat))
  | [], en => .ok en
  | r :: t, en => do
    let ik ← s.getIndex r.1
    xmlFill s t fun j => if j = ik then some r.2 else en j

/-- The coarse band structure of `QEParser::parseElHarmonicFourier`, src/parser/qe_input_parser.cpp L672-787.  Elements beyond the number of wavevectors are
written outside of the arrays; wavevectors that are missing are zero.  Not modelled: crystal, occupations, weights and the Fermi level. -/
def xmlBands (inverse : M3 → M3) (f : XmlBands) : Outcome (Points × (Int → Option (List Rat))) :=
  if f.monkhorstPack then .error
  else if f.nks < f.ks.length then .ub
  else do
    let rows ← xmlRows inverse f f.ks
    let rows := rows ++ List.replicate (f.nks - f.ks.length) (⟨0, 0, 0⟩, List.replicate f.nbnd 0)
    if f.lsda || f.noncolin then .error
    else do
      let m ← findMesh (rows.map Prod.fst)
      let s ← setMesh m.1 m.2
      let en ← xmlFill s rows fun _ => none
      .ok (s, en)

end Verif.Model
