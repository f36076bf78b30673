import Verif.Model.Points
import Verif.Model.Mpi

/-! Model of the symmetry reduction of a point set, src/points.cpp L692-990.

The arrays `equiv`, `mapEquivalenceRotationIndex` of length `numPoints` are functions on indices; writing or
reading at an index outside `[0, numPoints)` is `Outcome.ub`. -/

namespace Verif.Model

/-- Insertion in a `std::set<int>` kept as an ascending list. -/
def setInsert (x : Nat) : List Nat → List Nat
  | [] => [x]
  | y :: t => if x < y then x :: y :: t else if x = y then y :: t else y :: setInsert x t

/-- State of the search for irreducible points: `equiv` and the star under construction. -/
structure StarState where
  equiv : Nat → Nat
  star : List Nat

/-- Body of the loop over symmetries, src/points.cpp L741-768.  `lookup` is `isPointStored`. -/
def starStep (n : Nat) (coords : Nat → V3 Rat) (lookup : V3 Rat → Outcome Int) (ik : Nat)
    (rot : M3) (st : StarState) : Outcome StarState := do
  let ikRot ← lookup (rot.mulVec (coords ik))
  if 0 ≤ ikRot then
    if (n : Int) ≤ ikRot then .ub
    else
      let j := ikRot.toNat
      if st.equiv j = j then
        if ik ≤ j then
          .ok { equiv := fun i => if i = j then ik else st.equiv i, star := setInsert j st.star }
        else .error
      else .ok st
  else .ok st

/-- Loop over symmetries, src/points.cpp L741-768. -/
def starLoop (n : Nat) (coords : Nat → V3 Rat) (lookup : V3 Rat → Outcome Int) (ik : Nat) :
    List M3 → StarState → Outcome StarState
  | [], st => .ok st
  | r :: rs, st => do
    let st' ← starStep n coords lookup ik r st
    starLoop n coords lookup ik rs st'

/-- Loop over points, src/points.cpp L727-775: `equiv` and `irreducibleStars`, for the points `ik, ik+1, ..`
(`fuel` of them). -/
def irrLoop (n : Nat) (coords : Nat → V3 Rat) (lookup : V3 Rat → Outcome Int) (rots : List M3) :
    (fuel ik : Nat) → (Nat → Nat) → List (List Nat) → Outcome ((Nat → Nat) × List (List Nat))
  | 0, _, equiv, stars => .ok (equiv, stars)
  | fuel + 1, ik, equiv, stars =>
    if equiv ik = ik then do
      let st ← starLoop n coords lookup ik rots ⟨equiv, []⟩
      irrLoop n coords lookup rots fuel (ik + 1) st.equiv (stars ++ [st.star])
    else irrLoop n coords lookup rots fuel (ik + 1) equiv stars

/-- First symmetry that maps `kIrr` on point `ikRed`, src/points.cpp L791-799; -1 if none. -/
def firstRotation (lookup : V3 Rat → Outcome Int) (kIrr : V3 Rat) (ikRed : Nat) :
    List M3 → Nat → Outcome Int
  | [], _ => .ok (-1)
  | r :: rs, is => do
    let ikRot ← lookup (r.mulVec kIrr)
    if ikRot = ikRed then .ok is else firstRotation lookup kIrr ikRed rs (is + 1)

/-- Candidate symmetries and their velocity mismatch, src/points.cpp L824-842; `diff is` is the mismatch of
the velocities of the two points under symmetry `is`. -/
def rotationCandidates (lookup : V3 Rat → Outcome Int) (kIrr : V3 Rat) (ikRed : Nat) (diff : Nat → Rat) :
    List M3 → Nat → Outcome (List (Nat × Rat))
  | [], _ => .ok []
  | r :: rs, is => do
    let ikRot ← lookup (r.mulVec kIrr)
    let rest ← rotationCandidates lookup kIrr ikRed diff rs (is + 1)
    if ikRot ≠ ikRed then .ok rest else .ok ((is, diff is) :: rest)

/-- `std::min_element` on the second component: the first smallest one. -/
def minCandidate : List (Nat × Rat) → Option (Nat × Rat)
  | [] => none
  | a :: t => match minCandidate t with
    | none => some a
    | some b => if b.2 < a.2 then some b else some a

/-- Rotation index of one point, src/points.cpp L783-849.  `velocities = none` is the branch with a null
pointer.  An empty candidate list is dereferenced past the end (`Outcome.ub`).  Simplification: the check that
two equivalent points have the same number of bands (L818-820) is not modelled; the mismatch is a parameter. -/
def rotationIndex (coords : Nat → V3 Rat) (lookup : V3 Rat → Outcome Int) (rots : List M3)
    (velocities : Option (Nat → Nat → Rat)) (equiv : Nat → Nat) (ikRed : Nat) : Outcome Int :=
  if equiv ikRed = ikRed then .ok 0
  else
    match velocities with
    | none => firstRotation lookup (coords (equiv ikRed)) ikRed rots 0
    | some diff => do
      let c ← rotationCandidates lookup (coords (equiv ikRed)) ikRed (diff ikRed) rots 0
      match minCandidate c with
      | none => .ub
      | some b => .ok b.1

/-- `std::lower_bound` on an ascending list: position of the first element not smaller than `x`. -/
def lowerBound (x : Nat) (l : List Nat) : Nat := (l.takeWhile (· < x)).length

/-- The data held after `setIrreduciblePoints` (src/points.h).  `redToIrr` is `mapReducibleToIrreducibleList`
as obtained on every rank, `irrToRed` is `mapIrreducibleToReducibleList`. -/
structure IrrPoints where
  equiv : Nat → Nat
  irreducibleStars : List (List Nat)
  rotIndex : List Int
  irrToRed : List Nat
  redToIrr : List Nat

/-- Monadic map over a list, in order. -/
def mapOutcome {α β : Type} (f : α → Outcome β) : List α → Outcome (List β)
  | [] => .ok []
  | a :: t => do
    let b ← f a
    let bs ← mapOutcome f t
    .ok (b :: bs)

/-- `Points::setIrreduciblePoints`, src/points.cpp L692-889, as executed by process `rank` of `nProc`.
`stars0` are the stars already stored (the vector is not cleared).  The identity check L716-723 compares with
tolerance; here the first matrix must be exactly the identity.  The table `redToIrr` is filled by each process
on its share of the points and summed over processes (L875-887). -/
def setIrreduciblePoints (nProc rank n : Nat) (coords : Nat → V3 Rat) (lookup : V3 Rat → Outcome Int)
    (rots : List M3) (velocities : Option (Nat → Nat → Rat)) (stars0 : List (List Nat)) :
    Outcome IrrPoints :=
  if rots.head? = none then .ub
  else if rots.head? ≠ some ⟨⟨1, 0, 0⟩, ⟨0, 1, 0⟩, ⟨0, 0, 1⟩⟩ then .error
  else do
    let es ← irrLoop n coords lookup rots n 0 (fun i => i) stars0
    let rotIndex ← mapOutcome (rotationIndex coords lookup rots velocities es.1) (List.range n)
    let irrToRed := (List.range n).filter (fun i => es.1 i = i)
    let bufs ← mapOutcome (fun r => do
      let w ← divideWorkIter n r nProc
      .ok (fun ik : Nat => if ik ∈ w then lowerBound (es.1 ik) irrToRed else 0)) (List.range nProc)
    match (allReduceSum1 bufs)[rank]? with
    | none => .ub
    | some red =>
      .ok { equiv := es.1, irreducibleStars := es.2, rotIndex := rotIndex,
            irrToRed := irrToRed, redToIrr := (List.range n).map red }

/-- `Points::irrPointsIterator` when irreducible points were set, src/points.cpp L898-903. -/
def IrrPoints.irrPointsIterator (s : IrrPoints) (n : Nat) : List Nat :=
  (List.range n).filter (fun i => s.equiv i = i)

/-- `Points::asIrreducibleIndex`, src/points.cpp L918-925 (the assertion as undefined behaviour). -/
def IrrPoints.asIrreducibleIndex (s : IrrPoints) (ik : Nat) : Outcome Nat :=
  match s.redToIrr[ik]? with
  | some j => .ok j
  | none => .ub

/-- `Points::asReducibleIndex`, src/points.cpp L927-934. -/
def IrrPoints.asReducibleIndex (s : IrrPoints) (ik : Nat) : Outcome Nat :=
  match s.irrToRed[ik]? with
  | some j => .ok j
  | none => .ub

/-- `Points::getReducibleStarFromIrreducible`, src/points.cpp L987-990. -/
def IrrPoints.getReducibleStar (s : IrrPoints) (ik : Nat) : Outcome (List Nat) :=
  match s.redToIrr[ik]? with
  | none => .ub
  | some k => match s.irreducibleStars[k]? with
    | none => .ub
    | some l => .ok l

/-- `Points::getRotationsStar`, src/points.cpp L965-985, as the list of the indices of the rotations of the
star of `ik` in the list of symmetries. -/
def IrrPoints.getRotationsStar (s : IrrPoints) (ik : Nat) : Outcome (List Int) := do
  let star ← s.getReducibleStar ik
  mapOutcome (fun i => match s.rotIndex[i]? with | some r => .ok r | none => .ub) star

end Verif.Model
