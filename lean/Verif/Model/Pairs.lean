import Verif.Model.Utilities
import Verif.Model.VectorBte

/-!
# src/bte/scattering.cpp: the wavevector pairs of the scattering loops

The iterations of an OpenMP loop reach the `critical` section in an arbitrary order: the list of local elements is any
permutation of the local elements of the process.
-/
namespace Verif.Model

/-- An entry of `pairIterator`: the inner list of wavevectors and the wavevector of the outer loop.  Indices are
integers because of the dummy entries. -/
abbrev PairItem := List Int × Int

/-- `getSMatrixIndex(iMat)`, src/bte/scattering.cpp L1139-1147. -/
def smatIndexInv (withSymmetries : Bool) (numStates iMat : Nat) : Outcome (Nat × Nat) :=
  if withSymmetries then do
    let t ← decompress2Indices iMat numStates 3
    .ok (t.1.toNat, t.2.toNat)
  else .ok (iMat, 0)

/-- `getSMatrixIndex(bteIndex, cartIndex)`, src/bte/scattering.cpp L1128-1137. -/
def smatIndex (withSymmetries : Bool) (numStates iBte iCart : Nat) : Outcome Nat :=
  if withSymmetries then do
    let k ← compress2Indices iBte iCart numStates 3
    .ok k.toNat
  else .ok iBte

/-- Order of `std::pair<int, int>`. -/
def pairLt (a b : Nat × Nat) : Bool := a.1 < b.1 || (a.1 == b.1 && a.2 < b.2)

/-- Insertion in a `std::set<std::pair<int, int>>` kept as an ascending list. -/
def pairInsert (x : Nat × Nat) : List (Nat × Nat) → List (Nat × Nat)
  | [] => [x]
  | y :: t => if pairLt x y then x :: y :: t else if x = y then y :: t else y :: pairInsert x t

/-- The pairs of one local element, src/bte/scattering.cpp L945-966 and L1060-1081: `bteToPoint` is `bteToState`
followed by the wavevector of `getIndex`, `star` is `getReducibleStarFromIrreducible`. -/
def pairsOfElement (withSymmetries : Bool) (numStates : Nat) (bteToPoint : Nat → Nat) (star : Nat → List Nat)
    (t : Nat × Nat) : Outcome (List (Nat × Nat)) := do
  let t1 ← smatIndexInv withSymmetries numStates t.1
  let t2 ← smatIndexInv withSymmetries numStates t.2
  let ik1Irr := bteToPoint t1.1
  let ik2Irr := bteToPoint t2.1
  .ok ((star ik2Irr).map fun ik2 => (ik1Irr, ik2))

/-- `localPairs`, src/bte/scattering.cpp L936-972 and L1051-1087. -/
def localPairs (withSymmetries : Bool) (numStates : Nat) (bteToPoint : Nat → Nat) (star : Nat → List Nat)
    (localStates : List (Nat × Nat)) : Outcome (List (Nat × Nat)) := do
  let ps ← mapOutcome (pairsOfElement withSymmetries numStates bteToPoint star) localStates
  .ok (ps.flatten.foldl (fun s x => pairInsert x s) [])

/-- Body of the grouping loop, src/bte/scattering.cpp L995-1007 and L1110-1122: `key` is the component kept in the
outer loop, `other` the one added to its list. -/
def groupStep (keys : List Nat) (key other : Nat × Nat → Nat) (it : List PairItem) (p : Nat × Nat) :
    Outcome (List PairItem) :=
  match keys.findIdx? (fun x => x == key p) with
  | some i => .ok (it.modify i fun t => (t.1 ++ [(other p : Int)], t.2))
  | none => .error

/-- Loop of src/bte/scattering.cpp L995-1007 and L1110-1122. -/
def groupLoop (keys : List Nat) (key other : Nat × Nat → Nat) : List (Nat × Nat) → List PairItem →
    Outcome (List PairItem)
  | [], it => .ok it
  | p :: ps, it => do
    let it' ← groupStep keys key other it p
    groupLoop keys key other ps it'

/-- Grouping of the pairs by `key`, src/bte/scattering.cpp L974-1007 and L1089-1122. -/
def groupPairs (key other : Nat × Nat → Nat) (pairs : List (Nat × Nat)) : Outcome (List PairItem) :=
  let keys := pairs.foldl (fun s p => setInsert (key p) s) []
  groupLoop keys key other pairs (keys.map fun (q : Nat) => ([], (q : Int)))

/-- `getIteratorWavevectorPairs` with `rowMajor` (electrons) before the padding, src/bte/scattering.cpp L914-1008:
`matrixCase` is `switchCase == 0`. -/
def elPairs (matrixCase withSymmetries : Bool) (numStates : Nat) (bteToPoint : Nat → Nat) (star : Nat → List Nat)
    (irrPoints : List Nat) (numInnerPoints : Nat) (localStates : List (Nat × Nat)) (rank size : Nat) :
    Outcome (List PairItem) :=
  if matrixCase then do
    let ps ← localPairs withSymmetries numStates bteToPoint star localStates
    groupPairs (·.1) (·.2) ps
  else
    .ok ((sliceOf irrPoints rank size).map fun (ik1 : Nat) =>
      ((List.range numInnerPoints).map fun (k : Nat) => (k : Int), (ik1 : Int)))

/-- `getIteratorWavevectorPairs` without `rowMajor` (phonons), src/bte/scattering.cpp L1032-1124. -/
def phPairs (matrixCase withSymmetries : Bool) (numStates : Nat) (bteToPoint : Nat → Nat) (star : Nat → List Nat)
    (irrPoints : List Nat) (numInnerPoints : Nat) (localStates : List (Nat × Nat)) (rank size : Nat) :
    Outcome (List PairItem) :=
  if matrixCase then do
    let ps ← localPairs withSymmetries numStates bteToPoint star localStates
    groupPairs (·.2) (·.1) ps
  else do
    let q2Iterator ← divideWorkIter numInnerPoints rank size
    .ok (q2Iterator.map fun (iq2 : Nat) => (irrPoints.map fun (k : Nat) => (k : Int), (iq2 : Int)))

/-- The dummy entry, src/bte/scattering.cpp L1023-1026. -/
def dummyItem : PairItem := ([-1], -1)

/-- The loop of src/bte/scattering.cpp L1022-1028. -/
def padTo (num : Nat) (it : List PairItem) : List PairItem :=
  it ++ List.replicate (num - it.length) dummyItem

/-- Padding of the iterators of the processes of a pool, src/bte/scattering.cpp L1016-1029; `allReduceMax` gives
every process the maximum. -/
def padPool (its : List (List PairItem)) : List (List PairItem) :=
  if 1 < its.length then
    let numK1 := (its.map List.length).foldl max 0
    its.map (padTo numK1)
  else its

/-- What an iteration of the loop over `kPairIterator` does, src/bte/el_scattering.cpp L131-153: every iteration calls
the collective `cacheElPh` once; the dummy entries do nothing else. -/
inductive ElAction
  | cacheElPh
  | process (ik1 : Int) (ik2s : List Int)
deriving DecidableEq

/-- Body of the loop, src/bte/el_scattering.cpp L131-163. -/
def elIteration (t : PairItem) : List ElAction :=
  if t.2 = -1 then [.cacheElPh] else [.cacheElPh, .process t.2 t.1]

/-- The loop over `kPairIterator`, src/bte/el_scattering.cpp L131. -/
def elLoop (it : List PairItem) : List ElAction := it.flatMap elIteration

end Verif.Model
