import Verif.Model.Degeneracy
import Verif.Model.Points
import Verif.Model.Mpi

/-!
# Linewidths and their Normal/Umklapp parts: src/bte/ph_scattering.cpp, mode 2 (only linewidths)

Rates are in a field (exact arithmetic).  The rates of the processes, modelled in Verif/Model/PhRates.lean, are
inputs here.  `rate c` is the rate for calculation `c` (temperature and chemical potential).
-/
namespace Verif.Model

variable {α : Type} [Field α] [LinearOrder α]

/-- `excludeIndices`, src/bte/scattering.cpp L32-40: the states of the outer band structure below the cutoff
(0.1 cm^-1). -/
def excludeIndices (cutoff : α) (energies : List α) : List Nat :=
  (List.range energies.length).filter fun i => decide (energies.getD i 0 < cutoff)

/-- The Umklapp test, src/bte/ph_scattering.cpp L435-447 (`plus`), L576-586 (`q1 - q2`), L593-599 (`q2 - q1`),
L768-780: wavevectors in crystal coordinates, `B` the reciprocal cell; `(q3Cart-q3fold).norm() > 1e-6` is tested on
squares.  `abs` is taken to be the floating-point one. -/
def isUmklapp (B : M3) (a b : V3 Rat) (plus : Bool) : Bool :=
  let aWS := bzToWs B a
  let bWS := bzToWs B b
  let q3 : V3 Rat := if plus then aWS.add bWS else ⟨aWS.x - bWS.x, aWS.y - bWS.y, aWS.z - bWS.z⟩
  let fold := bzToWs B q3
  decide ((B.mulVec ⟨q3.x - fold.x, q3.y - fold.y, q3.z - fold.z⟩).norm2 > eps6 * eps6)

/-- A scattering process between state `i1` of the outer and state `i2` of the inner band structure. -/
inductive PhProcess (α : Type) where
  | plus (i1 i2 : Nat) (q1 q2 : V3 Rat) (rate : Nat → α)
  | minus (i1 i2 : Nat) (q1 q2 : V3 Rat) (rate1 rate2 : Nat → α)
  | isotope (i1 i2 : Nat) (q1 q2 : V3 Rat) (rate : Nat → α)

/-- Linewidths and their two parts, by calculation and state. -/
structure Linewidths (α : Type) where
  total : Nat → Nat → α
  umklapp : Nat → Nat → α
  normal : Nat → Nat → α

/-- `data(iCalc, 0, i) += x iCalc` for all calculations. -/
def addColumn (data : Nat → Nat → α) (i : Nat) (x : Nat → α) : Nat → Nat → α :=
  fun c s => if s = i then data c s + x c else data c s

/-- Addition to one of the two parts (L448-452, L587-591, L600-604, L781-785). -/
def addPart (w : Linewidths α) (umk : Bool) (i : Nat) (x : Nat → α) : Linewidths α :=
  if umk then { w with umklapp := addColumn w.umklapp i x } else { w with normal := addColumn w.normal i x }

/-- One process with `outputUNTimes`: skipped if one of its states is in the list of excluded states (L310-326,
L659-679), otherwise added to the linewidth and to one of its parts (L432-454, L573-606, L765-787). -/
def addProcess (B : M3) (exclude : List Nat) (w : Linewidths α) : PhProcess α → Linewidths α
  | .plus i1 i2 q1 q2 rate =>
    if i1 ∈ exclude then w else if i2 ∈ exclude then w else
    let w := { w with total := addColumn w.total i1 fun c => 1 / 2 * rate c }
    addPart w (isUmklapp B q1 q2 true) i1 fun c => 1 / 2 * rate c
  | .minus i1 i2 q1 q2 rate1 rate2 =>
    if i1 ∈ exclude then w else if i2 ∈ exclude then w else
    let w := { w with total := addColumn w.total i1 fun c => 1 / 2 * (rate1 c + rate2 c) }
    let w := addPart w (isUmklapp B q1 q2 false) i1 fun c => 1 / 2 * rate1 c
    addPart w (isUmklapp B q2 q1 false) i1 fun c => 1 / 2 * rate2 c
  | .isotope i1 i2 q1 q2 rate =>
    if i1 ∈ exclude then w else if i2 ∈ exclude then w else
    let w := { w with total := addColumn w.total i1 rate }
    addPart w (isUmklapp B q1 q2 true) i1 rate

/-- All processes of one MPI process. -/
def addProcesses (B : M3) (exclude : List Nat) (ps : List (PhProcess α)) : Linewidths α :=
  ps.foldl (addProcess B exclude) ⟨fun _ _ => 0, fun _ _ => 0, fun _ _ => 0⟩

/-- Sum over MPI processes of an array indexed by calculation and state (L800-804); the array is summed element by
element. -/
def reduceData (bufs : List (Nat → Nat → α)) (c : Nat) : List (Nat → α) := allReduceSum1 (bufs.map fun b => b c)

/-- The end of `builder` in mode 2 on process `rank`, src/bte/ph_scattering.cpp L800-818, L820-859
and L900-906: sums over the processes, averages over degenerate states (`points`), boundary scattering of the states
that are not excluded, zero linewidth of the excluded states. -/
def finishLinewidths (points : List (DegPoint α)) (exclude : List Nat) (boundary : Option (Nat → Nat → α))
    (all : List (Linewidths α)) (rank : Nat) : Linewidths α :=
  let reduce (f : Linewidths α → Nat → Nat → α) : Nat → Nat → α :=
    fun c s => match (reduceData (all.map f) c)[rank]? with
      | some g => g s
      | none => 0
  let total := degeneracyAveraging points (reduce Linewidths.total)
  let umklapp := degeneracyAveraging points (reduce Linewidths.umklapp)
  let normal := degeneracyAveraging points (reduce Linewidths.normal)
  let total := match boundary with
    | none => total
    | some rate => fun c s => if s ∈ exclude then total c s else total c s + rate c s
  { total := fun c s => if s ∈ exclude then 0 else total c s, umklapp := umklapp, normal := normal }

/-- Linewidths computed by `builder` in mode 2: `work[r]` are the processes treated by MPI process `r`. -/
def phLinewidths (B : M3) (exclude : List Nat) (points : List (DegPoint α)) (boundary : Option (Nat → Nat → α))
    (work : List (List (PhProcess α))) (rank : Nat) : Linewidths α :=
  finishLinewidths points exclude boundary (work.map (addProcesses B exclude)) rank

end Verif.Model
