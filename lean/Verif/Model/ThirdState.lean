import Verif.Model.ActiveBuild

/-!
# Third states of the scattering processes: src/bte/helper_3rd_state.cpp, src/bte/helper_el_scattering.cpp,
and the batches of src/bte/ph_scattering.cpp, src/bte/el_scattering.cpp

Wavevectors are in crystal coordinates; the conversions to Cartesian coordinates and back made by the code are
taken to be exact.
-/
namespace Verif.Model

def V3.sub (a b : V3 Rat) : V3 Rat := ⟨a.x - b.x, a.y - b.y, a.z - b.z⟩

/-- The two candidate third wavevectors of a pair of phonon wavevectors, src/bte/helper_3rd_state.cpp L57-63. -/
def phThirdVectors (inner : Points) (iq2 iq1 : Nat) : Outcome (List (V3 Rat)) := do
  let q1 ← inner.getPointCoordinates iq1
  let q2 ← inner.getPointCoordinates iq2
  .ok [q1.add q2, q1.sub q2]

/-- The candidate third wavevectors of a pair of electron wavevectors, src/bte/helper_el_scattering.cpp L84-100:
`rots ik2` are the rotations of the star of point `ik2` (`getRotationsStar`).  The order of the loops over
rotations and `ik1` is exchanged (the results go to a set). -/
def elThirdVectors (inner : Points) (rots : Nat → List M3) (ik2 ik1 : Nat) : Outcome (List (V3 Rat)) := do
  let k2 ← inner.getPointCoordinates ik2
  let k1 ← inner.getPointCoordinates ik1
  .ok ((rots ik2).map fun r => (r.mulVec k2).sub k1)

/-- The elements of a `std::set<int>` after inserting the elements of a list, in order. -/
def toSet (l : List Nat) : List Nat := l.foldl (fun s x => setInsert x s) []

/-- Indexes in the full mesh of the third wavevectors of one pair, src/bte/helper_3rd_state.cpp L65-69
(src/bte/helper_el_scattering.cpp L102-103). -/
def thirdIndexes (full : Points) (vectors : Nat → Nat → Outcome (List (V3 Rat))) (iq2 iq1 : Nat) :
    Outcome (List Nat) := do
  let vs ← vectors iq2 iq1
  mapOutcome (fun v => do
    let i ← full.getIndex v
    .ok i.toNat) vs

/-- The set `myIndexes` of a thread that executes the iterations `iq2s` of the outer loop,
src/bte/helper_3rd_state.cpp L50-72 (src/bte/helper_el_scattering.cpp L79-106). -/
def threadSet (full : Points) (vectors : Nat → Nat → Outcome (List (V3 Rat))) (numPoints : Nat)
    (iq2s : List Nat) : Outcome (List Nat) := do
  let rows ← mapOutcome (fun iq2 => do
    let l ← mapOutcome (thirdIndexes full vectors iq2) (List.range numPoints)
    .ok l.flatten) iq2s
  .ok (toSet rows.flatten)

/-- `result` is a possible value of `listOfIndexes` of a process with iterations `iq2s` at the end of the
parallel region, src/bte/helper_3rd_state.cpp L48-75: the iterations are distributed in any way over any number
of threads (`chunks`), and the threads insert their sets in any order (`critical`). -/
def RegionRun (full : Points) (vectors : Nat → Nat → Outcome (List (V3 Rat))) (numPoints : Nat)
    (iq2s : List Nat) (result : List Nat) : Prop :=
  ∃ chunks sets order : List (List Nat), chunks.flatten.Perm iq2s ∧ mapOutcome (threadSet full vectors numPoints) chunks = .ok sets ∧
    order.Perm sets ∧ result = toSet order.flatten

/-- The numbers of indexes of the processes, src/bte/helper_3rd_state.cpp L77-79: each process sets its entry and
the arrays are summed (the sum is the same on all processes). -/
def localCounts (mine : List (List Nat)) : List Nat :=
  match (allReduceSum1 ((List.range mine.length).map fun r => fun i =>
      if i = r then (mine.getD r []).length else 0)).head? with
  | none => []
  | some c => (List.range mine.length).map c

/-- The third points of every process, src/bte/helper_3rd_state.cpp L77-112 (src/bte/helper_el_scattering.cpp
L111-146): `mine[r]` is the set of process `r`. -/
def thirdPoints (full : Points) (mine : List (List Nat)) : Outcome (List Points) := do
  let all ← collectWith (localCounts mine) mine
  mapOutcome (fun l => full.setActiveLayer ((toSet l).map fun i : Nat => (i : Int))) all

/-- Lookup of the third state of a pair, src/bte/helper_3rd_state.cpp L130-137, L157-158 and L179-180: `points`
are those of `innerBandStructure` without window and those of `bandStructure3` with window. -/
def phThird (points : Points) (q1 q2 : V3 Rat) (plus : Bool) : Outcome Int :=
  points.getIndex (if plus then q1.add q2 else q1.sub q2)

/-- Lookup of the phonon state of a pair of electron states, src/bte/helper_el_scattering.cpp L232-250. -/
def elThird (points : Points) (k1 k2 : V3 Rat) : Outcome Int := points.getIndex (k2.sub k1)

/-- The states computed for one wavevector at a time when the third wavevectors are not on the mesh:
`cacheOffset` and the cached data.  `β` stands for energies, eigenvectors, populations and velocities of both
signs. -/
structure ThirdCache (β : Type) where
  cacheOffset : Int
  entries : List β

/-- `Helper3rdState::prepare`, src/bte/helper_3rd_state.cpp L228-318 (`HelperElScattering::prepare`,
src/bte/helper_el_scattering.cpp L292-352): `compute i` are the data computed for wavevector index `i`. -/
def prepareCache {β : Type} (compute : Int → β) (indexes : List Int) : Outcome (ThirdCache β) :=
  match indexes with
  | [] => .ub
  | first :: _ => .ok ⟨first, indexes.map compute⟩

/-- The cache branch of `Helper3rdState::get`, src/bte/helper_3rd_state.cpp L202-221
(src/bte/helper_el_scattering.cpp L278-284): an access outside of the vector is undefined. -/
def ThirdCache.get {β : Type} (c : ThirdCache β) (iq1 : Int) : Outcome β :=
  let counter := iq1 - c.cacheOffset
  if counter < 0 then .ub
  else match c.entries[counter.toNat]? with
    | some v => .ok v
    | none => .ub

/-- Batch number `iBatch` of a list of wavevector indexes, src/bte/ph_scattering.cpp L195-199 and L221
(src/bte/el_scattering.cpp L172-199), in `int` arithmetic: `start`, `end` and the wavevectors
`iq1Indexes[start .. end-1]`. -/
def batch (iq1Indexes : List Nat) (numBatches iBatch : Nat) : Outcome (List Nat) := do
  let nq1 : Int := iq1Indexes.length
  let a ← cmul nq1 iBatch
  let start ← cdiv a numBatches
  let b ← cmul nq1 (iBatch + 1)
  let stop ← cdiv b numBatches
  mapOutcome (fun iq1Batch => readAt iq1Indexes (start.toNat + iq1Batch)) (List.range (stop - start).toNat)

/-- All batches in the order of the loop L195. -/
def batches (iq1Indexes : List Nat) (numBatches : Nat) : Outcome (List (List Nat)) :=
  mapOutcome (batch iq1Indexes numBatches) (List.range numBatches)

end Verif.Model
