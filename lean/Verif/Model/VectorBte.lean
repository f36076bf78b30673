import Verif.Model.Utilities
import Verif.Model.Bands

/-!
# src/bte/vector_bte.cpp

Values are of any type with the operations used; the threads of an OpenMP region are modelled by an arbitrary
distribution of the iterations over threads and an arbitrary order of the `critical` sections.
-/
namespace Verif.Model

/-- `VectorBTE`: numbers of chemical potentials, temperatures, Cartesian components and states, the matrix `data`
(rows: calculation and component; columns: BTE states) and `excludeIndices`. -/
structure VBte (α : Type) where
  numChemPots : Nat
  numTemps : Nat
  dim : Nat
  numStates : Nat
  data : Nat → Nat → α
  exclude : List Nat

/-- Number of calculations (temperature and chemical potential pairs). -/
def VBte.numCalc {α : Type} (v : VBte α) : Nat := v.numChemPots * v.numTemps

/-- `numCalculations`, src/bte/vector_bte.cpp L17-18: rows of `data`. -/
def VBte.numRows {α : Type} (v : VBte α) : Nat := v.numCalc * v.dim

/-- Constructor, src/bte/vector_bte.cpp L5-35: `energies` of the irreducible states in BTE order; phonon states below
`cutoff` (0.1 cm^-1) are excluded. -/
def VBte.mk' {α β : Type} [Zero α] [LT β] [DecidableRel (α := β) (· < ·)] (numChemPots numTemps dim : Nat)
    (isPhonon : Bool) (cutoff : β) (energies : List β) : Outcome (VBte α) :=
  if dim = 0 then .error
  else .ok {
    numChemPots := numChemPots, numTemps := numTemps, dim := dim, numStates := energies.length
    data := fun _ _ => 0
    exclude := if isPhonon then (List.range energies.length).filter fun i =>
        match energies[i]? with | some e => decide (e < cutoff) | none => false
      else [] }

/-- `operator()(iCalc, iDim, iState)`, src/bte/vector_bte.cpp L333-342. -/
def VBte.get {α : Type} (v : VBte α) (iCalc iDim iState : Nat) : α := v.data (iCalc * v.dim + iDim) iState

/-- `glob2Loc`, src/bte/vector_bte.cpp L344-349. -/
def VBte.glob2Loc {α : Type} (v : VBte α) (imu it iDim : Int) : Outcome Int :=
  compress3Indices imu it iDim v.numChemPots v.numTemps v.dim

/-- `loc2Glob`, src/bte/vector_bte.cpp L351-359. -/
def VBte.loc2Glob {α : Type} (v : VBte α) (i : Int) : Outcome (Int × Int × Int) :=
  decompress3Indices i v.numChemPots v.numTemps v.dim

/-- Row of `that` combined with row `r` of `this` when `that` has one component, src/bte/vector_bte.cpp L146-149. -/
def VBte.partnerRow {α : Type} (v w : VBte α) (r : Nat) : Outcome Nat := do
  let t ← v.loc2Glob r
  let i2 ← w.glob2Loc t.1 t.2.1 0
  .ok i2.toNat

/-- `baseOperator`, src/bte/vector_bte.cpp L113-175, for the elementwise operation `op` (`+`, `-`, `*`, `/`). -/
def VBte.baseOperator {α : Type} [Zero α] (op : α → α → α) (v w : VBte α) : Outcome (VBte α) :=
  if v.numStates ≠ w.numStates then .error
  else if v.numCalc ≠ w.numCalc then .error
  else do
    let data ← (if v.dim = w.dim then .ok fun r s => op (v.data r s) (w.data r s)
      else if w.dim = 1 then do
        let rows ← mapOutcome (v.partnerRow w) (List.range v.numRows)
        .ok fun r s => op (v.data r s) (w.data (rows.getD r 0) s)
      else .error)
    .ok { v with data := fun r s => if s ∈ v.exclude then 0 else data r s }

/-- `operator*(scalar)`, src/bte/vector_bte.cpp L183-189; unary minus L258-262; `sqrt` L269-273: `f` applied to every
element.  The excluded states are not treated apart. -/
def VBte.mapData {α : Type} (f : α → α) (v : VBte α) : VBte α := { v with data := fun r s => f (v.data r s) }

/-- `operator*(MatrixXd)`, src/bte/vector_bte.cpp L192-206. -/
def VBte.scaleCalc {α : Type} [Mul α] (v : VBte α) (m : Nat → Nat → α) : VBte α :=
  { v with data := fun r s => v.data r s * m (r / v.dim) (r % v.dim) }

/-- `reciprocal`, src/bte/vector_bte.cpp L275-290. -/
def VBte.reciprocal {α : Type} [Zero α] [DecidableEq α] (inv : α → α) (v : VBte α) : VBte α :=
  { v with data := fun r s => if v.data r s ≠ 0 then inv (v.data r s) else 0 }

/-! ## Scalar product -/

/-- The states of a process, `parallelIrrStateIterator`, src/bands/bandstructure.cpp L464-473. -/
def sliceOf (v : List Nat) (rank size : Nat) : List Nat :=
  let d := divideWork v.length rank size
  (v.drop d.1).take (d.2 - d.1)

/-- Contribution of the irreducible state `is` to component `i` of calculation `iCalc`, src/bte/vector_bte.cpp
L84-106; `toBte` is `stateToBte` and `rots` the rotations of the star.  L85 looks up the state index `is` in the list
of excluded BTE indices. -/
def dotTerm {α : Type} [Zero α] [Add α] [Mul α] (x y : VBte α) (toBte : Nat → Nat)
    (rots : Nat → List (Nat → Nat → α)) (iCalc i is : Nat) : α :=
  if is ∈ x.exclude then 0
  else
    let iBte := toBte is
    ((rots is).map fun rot =>
      (rot i 0 * x.get iCalc 0 iBte + rot i 1 * x.get iCalc 1 iBte + rot i 2 * x.get iCalc 2 iBte) *
      (rot i 0 * y.get iCalc 0 iBte + rot i 1 * y.get iCalc 1 iBte + rot i 2 * y.get iCalc 2 iBte)).foldr (· + ·) 0

/-- `dot`, src/bte/vector_bte.cpp L66-111, component `(iCalc, i)` as returned on every process; sums over the states of
a process, then over processes. -/
def VBte.dot {α : Type} [Zero α] [Add α] [Mul α] (x y : VBte α) (irrStates : List Nat) (toBte : Nat → Nat)
    (rots : Nat → List (Nat → Nat → α)) (size : Nat) : Outcome (List (Nat → Nat → α)) :=
  if x.numRows ≠ y.numRows ∨ x.numStates ≠ y.numStates then .error
  else if y.dim ≠ 3 then .error
  else
    let locals := (List.range size).map fun r => fun k : Nat =>
      ((sliceOf irrStates r size).map fun is => dotTerm x y toBte rots (k / 3) (k % 3) is).foldr (· + ·) 0
    .ok ((allReduceSum1 locals).map fun f => fun iCalc i => f (iCalc * 3 + i))

/-! ## Product with the distributed matrix -/

/-- The work of one thread, src/bte/vector_bte.cpp L224-234: `dataPrivate`, started from zero, after the elements
`states`; `elem` is the local part of the matrix. -/
def threadProduct {α : Type} [Zero α] [Add α] [Mul α] (data elem : Nat → Nat → α) (states : List (Nat × Nat)) :
    Nat → Nat → α :=
  states.foldl (fun priv t => fun c j => if j = t.2 then priv c j + data c t.1 * elem t.1 t.2 else priv c j)
    (fun _ _ => 0)

/-- One process, src/bte/vector_bte.cpp L221-241: `merge` lists the elements of each thread in the order in which the
threads enter the `critical` section. -/
def processProduct {α : Type} [Zero α] [Add α] [Mul α] (data elem : Nat → Nat → α) (merge : List (List (Nat × Nat))) :
    Nat → Nat → α :=
  merge.foldl (fun acc states => fun c j => acc c j + threadProduct data elem states c j) (fun _ _ => 0)

/-- `operator*(ParallelMatrix)`, src/bte/vector_bte.cpp L209-245: data of the result on every process, for the processes
of the grid in row-major order; `merge p` is the schedule of process `p`. -/
def VBte.timesMatrix {α : Type} [Zero α] [Add α] [Mul α] (v : VBte α) (L : Layout) (m : DistData α)
    (procs : List (Nat × Nat)) (merge : Nat × Nat → List (List (Nat × Nat))) : Outcome (List (Nat → Nat → α)) :=
  if v.numRows ≠ v.dim then .error
  else if L.numRows ≠ v.numStates then .error
  else
    let locals := procs.map fun p => fun k : Nat =>
      processProduct v.data (fun i j => L.get m p.1 p.2 i j) (merge p) (k / v.numStates) (k % v.numStates)
    .ok ((allReduceSum1 locals).map fun f => fun c j => f (c * v.numStates + j))

end Verif.Model
