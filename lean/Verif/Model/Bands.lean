import Verif.Model.IrrPoints
import Verif.Model.Matrix
/-!
# src/bands/bandstructure.cpp and the index bookkeeping of src/bands/active_bandstructure.cpp
-/
namespace Verif.Model

/-! ## Full band structure -/

/-- `FullBandStructure::getIndex(ik, ib)`, src/bands/bandstructure.cpp L133-136 (checked `int`). -/
def fullGetIndex (numBands ik ib : Int) : Outcome Int := do
  let a ← cmul ik numBands
  cadd a ib

/-- `FullBandStructure::getIndex(is)`, src/bands/bandstructure.cpp L138-145. -/
def fullGetBloch (numBands is : Int) : Outcome (Int × Int) := do
  let ik ← cdiv is numBands
  let a ← cmul ik numBands
  let ib ← csub is a
  .ok (ik, ib)

/-- Indices used by `FullBandStructure::getEnergy(StateIndex)`, src/bands/bandstructure.cpp L195-203, to
address the energy of a state: `decompress2Indices(is, numPoints, numBands)`. -/
def fullEnergyPosition (numPoints numBands is : Int) : Outcome (Int × Int) :=
  decompress2Indices is numPoints numBands

/-- Layout of the matrix of energies of a distributed full band structure, src/bands/bandstructure.cpp L29-40
(bands as rows, wavevectors as columns, one process row) through src/algebra/Matrix.h L196-207:
more processes than points is refused (L32-36). -/
def fullLayout (size numBands numPoints : Nat) : Outcome Layout :=
  let numBlockCols := min size numPoints
  if size > numPoints then .error
  else mkLayout size numBands numPoints 1 numBlockCols 0 0

/-- Ascending list of the distinct elements of a list (`std::set` insertion followed by iteration). -/
def toSortedSet (l : List Nat) : List Nat := l.foldl (fun s x => setInsert x s) []

/-- `FullBandStructure::getWavevectorIndices`, src/bands/bandstructure.cpp L154-163, on process column `pc`. -/
def fullWavevectorIndices (L : Layout) (pc : Nat) : List Nat :=
  toSortedSet ((L.getAllLocalStates 0 pc).map (·.2))

/-- `FullBandStructure::getStateIndices`, src/bands/bandstructure.cpp L165-175: pairs (wavevector, band). -/
def fullStateIndices (L : Layout) (pc : Nat) : List (Nat × Nat) :=
  (L.getAllLocalStates 0 pc).map fun t => (t.2, t.1)

/-- `FullBandStructure::stateToBte`, src/bands/bandstructure.cpp L419-434. -/
def fullStateToBte (numBands : Nat) (s : IrrPoints) (is : Nat) : Outcome Nat :=
  if numBands = 0 then .ub
  else do
    let ik := is / numBands
    let ib := is - ik * numBands
    let ikBte ← s.asIrreducibleIndex ik
    .ok (ikBte * numBands + ib)

/-- `FullBandStructure::bteToState`, src/bands/bandstructure.cpp L436-447. -/
def fullBteToState (numBands : Nat) (s : IrrPoints) (iBte : Nat) : Outcome Nat :=
  if numBands = 0 then .ub
  else do
    let ikIrr := iBte / numBands
    let ib := iBte - ikIrr * numBands
    let ik ← s.asReducibleIndex ikIrr
    .ok (ik * numBands + ib)

/-- `FullBandStructure::irrStateIterator`, src/bands/bandstructure.cpp L450-462. -/
def fullIrrStateIterator (numBands numPoints : Nat) (s : IrrPoints) : List Nat :=
  (s.irrPointsIterator numPoints).flatMap fun ik => (List.range numBands).map fun ib => ik * numBands + ib

/-- `BaseBandStructure::parallelStateIterator`, src/bands/bandstructure.cpp L11-14, and
`FullBandStructure::getNumStates`, L152: the number of states counts the points stored by this process. -/
def parallelStateIterator (numBands numLocalPoints rank size : Nat) : Outcome (List Nat) :=
  divideWorkIter (numBands * numLocalPoints) rank size

/-! ## Active band structure -/

/-- Band counts of an active band structure: `numPoints`, `numBands(ik)`, `numFullBands`. Simplification:
indices are natural numbers; that they fit in `int` is a separate statement (they are bounded by the sizes of
the arrays). -/
structure ActiveLayout where
  numPoints : Nat
  numBands : Nat → Nat
  numFullBands : Nat

/-- `cumulativeKbOffset(ik)`, src/bands/active_bandstructure.cpp L429-430. -/
def ActiveLayout.kbOffset (B : ActiveLayout) : Nat → Nat
  | 0 => 0
  | ik + 1 => B.kbOffset ik + B.numBands ik

/-- `cumulativeKbbOffset(ik)`, src/bands/active_bandstructure.cpp L431-432. -/
def ActiveLayout.kbbOffset (B : ActiveLayout) : Nat → Nat
  | 0 => 0
  | ik + 1 => B.kbbOffset ik + 3 * B.numBands ik * B.numBands ik

/-- `numStates` (= `numEnStates`), src/bands/active_bandstructure.cpp L655-664, also the size of `energies`. -/
def ActiveLayout.numStates (B : ActiveLayout) : Nat :=
  (List.range B.numPoints).foldl (fun a ik => a + B.numBands ik) 0

/-- `numVelStates`, src/bands/active_bandstructure.cpp L661, the size of `velocities`. -/
def ActiveLayout.numVelStates (B : ActiveLayout) : Nat :=
  (List.range B.numPoints).foldl (fun a ik => a + 3 * B.numBands ik * B.numBands ik) 0

/-- `numEigStates`, src/bands/active_bandstructure.cpp L662, the size of `eigenvectors`. -/
def ActiveLayout.numEigStates (B : ActiveLayout) : Nat :=
  (List.range B.numPoints).foldl (fun a ik => a + B.numBands ik * B.numFullBands) 0

/-- `bloch2Comb`, src/bands/active_bandstructure.cpp L408-410. -/
def ActiveLayout.bloch2Comb (B : ActiveLayout) (ik ib : Nat) : Nat := B.kbOffset ik + ib

/-- `velBloch2Comb`, src/bands/active_bandstructure.cpp L398-401. -/
def ActiveLayout.velBloch2Comb (B : ActiveLayout) (ik ib1 ib2 i : Nat) : Nat :=
  B.kbbOffset ik + ib1 * B.numBands ik * 3 + ib2 * 3 + i

/-- `eigBloch2Comb`, src/bands/active_bandstructure.cpp L403-406. -/
def ActiveLayout.eigBloch2Comb (B : ActiveLayout) (ik ib1 ib2 : Nat) : Nat :=
  B.kbOffset ik * B.numFullBands + ib1 * B.numBands ik + ib2

/-- Writing rows `is, is+1, ..` of a table with bounds checks (out of bounds is undefined). -/
def fillTable {α : Type} : List α → Nat → List α → Outcome (List α)
  | [], _, t => .ok t
  | p :: ps, is, t => if is < t.length then fillTable ps (is + 1) (t.set is p) else .ub

/-- `auxBloch2Comb` of `buildIndices`, src/bands/active_bandstructure.cpp L425, L435-442. -/
def ActiveLayout.auxTable (B : ActiveLayout) : Outcome (List (Nat × Nat)) :=
  fillTable ((List.range B.numPoints).flatMap fun ik => (List.range (B.numBands ik)).map fun ib => (ik, ib)) 0
    (List.replicate B.numStates (0, 0))

/-- `comb2Bloch`, src/bands/active_bandstructure.cpp L412-414. -/
def ActiveLayout.comb2Bloch (B : ActiveLayout) (is : Nat) : Outcome (Nat × Nat) := do
  let t ← B.auxTable
  match t[is]? with
  | some p => .ok p
  | none => .ub

/-- A sequence of writes `buffer[index] = value`. -/
def writeAll {α : Type} : List (Nat × α) → List α → Outcome (List α)
  | [], buf => .ok buf
  | w :: ws, buf => if w.1 < buf.length then writeAll ws (buf.set w.1 w.2) else .ub

/-- A read `buffer[index]`. -/
def readAt {α : Type} (buf : List α) (i : Nat) : Outcome α :=
  match buf[i]? with
  | some v => .ok v
  | none => .ub

/-- `setEnergies`, src/bands/active_bandstructure.cpp L356-372, for a vector of `n` energies. -/
def ActiveLayout.setEnergies {α : Type} (B : ActiveLayout) (buf : List α) (ik n : Nat) (e : Nat → α) :
    Outcome (List α) :=
  writeAll ((List.range n).map fun ib => (B.bloch2Comb ik ib, e ib)) buf

/-- `getEnergies(ik)`, src/bands/active_bandstructure.cpp L256-265. -/
def ActiveLayout.getEnergies {α : Type} (B : ActiveLayout) (buf : List α) (ik : Nat) : Outcome (List α) :=
  mapOutcome (fun ib => readAt buf (B.bloch2Comb ik ib)) (List.range (B.numBands ik))

/-- `setEigenvectors`, src/bands/active_bandstructure.cpp L374-383, for an `n1` by `n2` matrix. -/
def ActiveLayout.setEigenvectors {α : Type} (B : ActiveLayout) (buf : List α) (ik n1 n2 : Nat)
    (e : Nat → Nat → α) : Outcome (List α) :=
  writeAll ((List.range n1).flatMap fun i => (List.range n2).map fun j => (B.eigBloch2Comb ik i j, e i j)) buf

/-- Element `(ib1, ib2)` of `getEigenvectors(ik)`, src/bands/active_bandstructure.cpp L315-327. -/
def ActiveLayout.getEigenvector {α : Type} (B : ActiveLayout) (buf : List α) (ik ib1 ib2 : Nat) : Outcome α :=
  readAt buf (B.eigBloch2Comb ik ib1 ib2)

/-- `setVelocities`, src/bands/active_bandstructure.cpp L385-396, for an `n1` by `n2` by 3 tensor. -/
def ActiveLayout.setVelocities {α : Type} (B : ActiveLayout) (buf : List α) (ik n1 n2 : Nat)
    (v : Nat → Nat → Nat → α) : Outcome (List α) :=
  writeAll ((List.range n1).flatMap fun ib1 => (List.range n2).flatMap fun ib2 =>
    (List.range 3).map fun j => (B.velBloch2Comb ik ib1 ib2 j, v ib1 ib2 j)) buf

/-- Element `(ib1, ib2, i)` of `getVelocities(ik)`, src/bands/active_bandstructure.cpp L300-313. -/
def ActiveLayout.getVelocity {α : Type} (B : ActiveLayout) (buf : List α) (ik ib1 ib2 i : Nat) : Outcome α :=
  readAt buf (B.velBloch2Comb ik ib1 ib2 i)

/-! ## BTE indices of the active band structure -/

/-- `numIrrStates`, src/bands/active_bandstructure.cpp L462-465. -/
def ActiveLayout.numIrrStates (B : ActiveLayout) (s : IrrPoints) : Nat :=
  (s.irrPointsIterator B.numPoints).foldl (fun a ik => a + B.numBands ik) 0

/-- Loop of `buildSymmetries`, src/bands/active_bandstructure.cpp L469-483: tables `bteCumulativeKbOffset` and
`bteAuxBloch2Comb`. -/
def bteLoop (numBands : Nat → Nat) (asIrr : Nat → Outcome Nat) :
    List Nat → List Nat → List (Nat × Nat) → Nat → Nat → Outcome (List Nat × List (Nat × Nat))
  | [], cum, aux, _, _ => .ok (cum, aux)
  | ik :: rest, cum, aux, is, ikOld => do
    let ikIrr ← asIrr ik
    let cum' ← (if ikIrr > 0 then do
        let prev ← readAt cum (ikIrr - 1)
        writeAll [(ikIrr, prev + numBands ikOld)] cum
      else .ok cum)
    let aux' ← fillTable ((List.range (numBands ik)).map fun ib => (ikIrr, ib)) is aux
    bteLoop numBands asIrr rest cum' aux' (is + numBands ik) ik

/-- Tables built by `buildSymmetries`, src/bands/active_bandstructure.cpp L461-483. -/
def ActiveLayout.bteTables (B : ActiveLayout) (s : IrrPoints) : Outcome (List Nat × List (Nat × Nat)) :=
  bteLoop B.numBands s.asIrreducibleIndex (s.irrPointsIterator B.numPoints)
    (List.replicate (s.irrPointsIterator B.numPoints).length 0) (List.replicate (B.numIrrStates s) (0, 0)) 0 0

/-- `ActiveBandStructure::stateToBte`, src/bands/active_bandstructure.cpp L1121-1133 with `bteBloch2Comb`
L416-418. -/
def ActiveLayout.stateToBte (B : ActiveLayout) (s : IrrPoints) (is : Nat) : Outcome Nat := do
  let p ← B.comb2Bloch is
  let ikBte ← s.asIrreducibleIndex p.1
  let t ← B.bteTables s
  let c ← readAt t.1 ikBte
  .ok (c + p.2)

/-- `ActiveBandStructure::bteToState`, src/bands/active_bandstructure.cpp L1135-1142 with `bteComb2Bloch`
L420-422. -/
def ActiveLayout.bteToState (B : ActiveLayout) (s : IrrPoints) (iBte : Nat) : Outcome Nat := do
  let t ← B.bteTables s
  let p ← readAt t.2 iBte
  let ik ← s.asReducibleIndex p.1
  .ok (B.bloch2Comb ik p.2)

/-- `ActiveBandStructure::irrStateIterator`, src/bands/active_bandstructure.cpp L1077-1088. -/
def ActiveLayout.irrStateIterator (B : ActiveLayout) (s : IrrPoints) : List Nat :=
  (s.irrPointsIterator B.numPoints).flatMap fun ik =>
    (List.range (B.numBands ik)).map fun ib => B.bloch2Comb ik ib

end Verif.Model
