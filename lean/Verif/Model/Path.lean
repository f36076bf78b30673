import Verif.Model.Points
import Verif.Model.EpaRates

/-!
# Paths of wavevectors: src/points.cpp L45-124 and src/apps/bands_app.cpp

Floating-point numbers are modelled as real numbers; the operations that give NaN are mentioned where they decide the
result.
-/
namespace Verif.Model

/-- Norm of the difference of two vectors. -/
noncomputable def vdist (p q : V3 ℝ) : ℝ :=
  Real.sqrt ((p.x - q.x) * (p.x - q.x) + (p.y - q.y) * (p.y - q.y) + (p.z - q.z) * (p.z - q.z))

/-- A segment of the path: the coordinates and the labels of its ends (a line of the block of the input,
src/context.cpp L304-335). -/
structure Segment where
  p0 : V3 ℝ
  p1 : V3 ℝ
  l0 : String
  l1 : String

/-- `nk`, src/points.cpp L78: undefined when the quotient does not fit into an `int` (as the quotient by zero). -/
noncomputable def segmentCount (s : Segment) (delta : ℝ) : Outcome Nat :=
  if delta = 0 then .ub
  else
    let n := truncInt (vdist s.p1 s.p0 / delta)
    if n ≤ intMin ∨ intMax < n then .ub else .ok n.natAbs

/-- Point `j` of a segment, src/points.cpp L84-86. -/
noncomputable def segmentPoint (s : Segment) (nk j : Nat) : V3 ℝ :=
  ⟨(s.p1.x - s.p0.x) / nk * j + s.p0.x, (s.p1.y - s.p0.y) / nk * j + s.p0.y, (s.p1.z - s.p0.z) / nk * j + s.p0.z⟩

/-- The points appended after `last` by the loop over the segments, src/points.cpp L67-107.  With `nk = 0` the only point
of the segment is NaN (a quotient by zero times zero), the comparison of L94 is false, and nothing is appended. -/
noncomputable def pathTail (delta : ℝ) (last : V3 ℝ) : List Segment → Outcome (List (V3 ℝ))
  | [] => .ok []
  | s :: t => do
    let nk ← segmentCount s delta
    if nk = 0 then pathTail delta last t
    else do
      let first := segmentPoint s nk 0
      let start := if vdist first last > 1e-8 then [first] else []
      let rest ← pathTail delta (segmentPoint s nk nk) t
      .ok (start ++ (List.range' 1 nk).map (segmentPoint s nk) ++ rest)

/-- The list of points of the constructor of `Points` for a path, src/points.cpp L45-107; without segments the first point
is read out of range (L61-63). -/
noncomputable def pathPoints (segs : List Segment) (delta : ℝ) : Outcome (List (V3 ℝ)) :=
  match segs with
  | [] => .ub
  | s :: _ => do
    let rest ← pathTail delta s.p0 segs
    .ok (s.p0 :: rest)

/-- The test of src/apps/bands_app.cpp L160-162. -/
def closePoint (p e : V3 ℝ) : Prop := |p.x - e.x| < 1e-8 ∧ |p.y - e.y| < 1e-8 ∧ |p.z - e.z| < 1e-8

open Classical in
/-- The loop of src/apps/bands_app.cpp L145-185, what it does with `pathLabelIndices`.  The ends from `extremaCount` on,
with their labels, are kept in a list: an empty list is an `extremaCount` out of range (L160).  `ik` is the index of the
first of the points. -/
noncomputable def labelScan : List (V3 ℝ × String) → Nat → List (V3 ℝ) → Outcome (List Nat)
  | _, _, [] => .ok []
  | [], _, _ :: _ => .ub
  | (e, l) :: ends, ik, p :: ps =>
    if closePoint p e then
      match ends with
      | [] => do
        let r ← labelScan [(e, l)] (ik + 1) ps
        .ok (ik :: r)
      | (e', l') :: ends' =>
        if e = e' ∨ l = l' then do
          let r ← labelScan ends' (ik + 1) ps
          .ok (ik :: ik :: r)
        else do
          let r ← labelScan ((e', l') :: ends') (ik + 1) ps
          .ok (ik :: r)
    else labelScan ((e, l) :: ends) (ik + 1) ps

/-- `extremaCoordinates` with `getPathLabels`, src/apps/bands_app.cpp L131-143. -/
def pathEnds (segs : List Segment) : List (V3 ℝ × String) := segs.flatMap fun s => [(s.p0, s.l0), (s.p1, s.l1)]

/-- `highSymIndices`, src/apps/bands_app.cpp L122-235: `pathLabelIndices` after the loop over the points. -/
noncomputable def highSymIndices (segs : List Segment) (points : List (V3 ℝ)) : Outcome (List Nat) :=
  labelScan (pathEnds segs) 0 points

end Verif.Model
