import Verif.Model.VectorBte

/-!
# src/bte/vector_epa.cpp

The fields of `VectorEPA` are those of `VectorBTE` (`VBte`); the states are bins of energy.  Values are of any type with the
operations used.  Where sizes are not those that Eigen expects, the outcome is undefined behaviour (Eigen only checks them in debug
builds).
-/
namespace Verif.Model

/-- Constructor, src/bte/vector_epa.cpp L4-27. -/
def VBte.epaMake {α : Type} [Zero α] (numChemPots numTemps : Nat) (numStates dim : Int) : Outcome (VBte α) :=
  if dim ≤ 0 then .error
  else if numStates ≤ 0 then .error
  else .ok ⟨numChemPots, numTemps, dim.toNat, numStates.toNat, fun _ _ => 0, []⟩

/-- `baseOperator`, src/bte/vector_epa.cpp L77-123, for the elementwise operation `op`: no comparison of the numbers of states or
of calculations. -/
def VBte.epaBase {α : Type} [Zero α] (op : α → α → α) (v w : VBte α) : Outcome (VBte α) := do
  let data ← (if v.dim = w.dim then
      (if v.numRows = w.numRows ∧ v.numStates = w.numStates then .ok fun r s => op (v.data r s) (w.data r s) else .ub)
    else if w.dim = 1 then do
      let rows ← mapOutcome (fun r : Nat => do
        let i ← v.partnerRow w r
        if i < w.numRows ∧ v.numStates = w.numStates then .ok i else .ub) (List.range v.numRows)
      .ok fun r s => op (v.data r s) (w.data (rows.getD r 0) s)
    else .error)
  .ok { v with data := fun r s => if s ∈ v.exclude then 0 else data r s }

/-- `operator*(scalar)`, src/bte/vector_epa.cpp L130-136: row after row. -/
def VBte.epaTimes {α : Type} [Mul α] (v : VBte α) (k : α) : VBte α :=
  { v with data := (List.range v.numRows).foldl (fun d i => fun r s => if r = i then v.data i s * k else d r s) v.data }

/-- `operator*(VectorXd)`, src/bte/vector_epa.cpp L139-146: one element of `x` for each row. -/
def VBte.epaScale {α : Type} [Mul α] (v : VBte α) (x : List α) : Outcome (VBte α) := do
  let rows ← mapOutcome (fun r => do
    let f ← readAt x r
    .ok fun s => v.data r s * f) (List.range v.numRows)
  .ok { v with data := fun r s => match rows[r]? with
    | some g => g s
    | none => v.data r s }

/-- One process of `operator*(ParallelMatrix)`, src/bte/vector_epa.cpp L159-165: each element of the matrix replaces the value
of its row. -/
def epaProcess {α : Type} [Zero α] [Mul α] (data elem : Nat → Nat → α) (states : List (Nat × Nat)) : Nat → Nat → α :=
  states.foldl (fun acc t => fun c i => if i = t.1 then elem t.1 t.2 * data c t.2 else acc c i) (fun _ _ => 0)

/-- `operator*(ParallelMatrix)`, src/bte/vector_epa.cpp L149-169, on every process, for the processes of the grid in row-major
order. -/
def VBte.epaTimesMatrix {α : Type} [Zero α] [Add α] [Mul α] (v : VBte α) (L : Layout) (m : DistData α)
    (procs : List (Nat × Nat)) : Outcome (List (Nat → Nat → α)) :=
  if v.numRows ≠ v.dim then .error
  else if L.numRows ≠ v.numStates then .error
  else
    let locals := procs.map fun p => fun k : Nat =>
      epaProcess v.data (fun i j => L.get m p.1 p.2 i j) (L.getAllLocalStates p.1 p.2) (k / v.numStates) (k % v.numStates)
    .ok ((allReduceSum1 locals).map fun f => fun c j => f (c * v.numStates + j))

/-- One update of the loops of `dot`, src/bte/vector_epa.cpp L67-69.  `result` is a `VectorXd` made with two numbers: the memory
is for `rows * 3` elements, its size is `rows` and these are the elements set to zero; element `(iCalc, i)` is at `iCalc + i * rows`. -/
def epaDotStep {α : Type} [Add α] [Mul α] (x y : VBte α) (t : Nat × Nat × Nat) (result : List α) : Outcome (List α) := do
  let k := t.2.1 + t.2.2 * x.numRows
  let a ← readAt result k
  .ok (result.set k (a + x.get t.2.1 t.2.2 t.1 * y.get t.2.1 t.2.2 t.1))

/-- `dot` on one process, src/bte/vector_epa.cpp L55-73; `states` are those of the process. -/
def VBte.epaDot {α : Type} [Zero α] [Add α] [Mul α] (x y : VBte α) (states : List Nat) : Outcome (List α) :=
  if y.numRows ≠ x.numRows ∨ y.numStates ≠ x.numStates then .error
  else if y.dim ≠ 3 then .error
  else foldOutcome (epaDotStep x y)
    (states.flatMap fun is => (List.range x.numCalc).flatMap fun iCalc => (List.range 3).map fun i => (is, iCalc, i))
    (List.replicate x.numRows 0)

/-- Vectors refer to a table of conditions that they do not own: `table` is its place, `h` the tables of the program (numbers of
chemical potentials and temperatures). -/
structure EpaObject (α : Type) where
  table : Nat
  vector : VBte α

/-- Copy constructor, src/bte/vector_epa.cpp L30-39: the copy refers to the same table. -/
def EpaObject.copy {α : Type} (a : EpaObject α) : EpaObject α := a

/-- Copy assignment, src/bte/vector_epa.cpp L42-54: L44 assigns to the table that the left-hand side refers to. -/
def EpaObject.assign {α : Type} (h : Nat → Nat × Nat) (a b : EpaObject α) : (Nat → Nat × Nat) × EpaObject α :=
  (fun i => if i = a.table then h b.table else h i, ⟨a.table, b.vector⟩)

end Verif.Model
