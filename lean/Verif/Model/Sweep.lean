import Verif.Model.Particle
import Verif.Model.Bands

/-!
# src/statistics_sweep.cpp and the calculation indices of src/observable/observable.cpp

Floating-point numbers are modelled as real numbers.
-/
namespace Verif.Model

/-! ## Ranges and table of calculations -/

/-- Expansion of a range, src/statistics_sweep.cpp L33-39 (temperatures) and L155-161 (chemical potentials), run
for at most `fuel` tests of the loop condition. -/
noncomputable def sweepRange : (fuel : Nat) → (lo hi delta : ℝ) → Outcome (List ℝ)
  | 0, _, _, _ => .diverge
  | fuel + 1, lo, hi, delta =>
    if lo ≤ hi then
      match sweepRange fuel (lo + delta) hi delta with
      | .ok rest => .ok (lo :: rest)
      | o => o
    else .ok []

/-- A row of `infoCalculations`: temperature, chemical potential, doping. -/
structure CalcRow where
  temperature : ℝ
  chemicalPotential : ℝ
  doping : ℝ

/-- The double loop filling the table, src/statistics_sweep.cpp L175-186 and L192-203, on a table of `rows` zero
rows (L169-170); `row it j` is the row of temperature `it` and doping or chemical potential `j`. -/
noncomputable def fillCalcTable (rows nTemp n : Nat) (row : Nat → Nat → CalcRow) : Outcome (List CalcRow) := do
  let ws ← mapOutcome (fun p : Nat × Nat => do
      let iCalc ← compress2Indices p.1 p.2 nTemp n
      .ok (iCalc.toNat, row p.1 p.2))
    ((List.range nTemp).flatMap fun it => (List.range n).map fun j => (it, j))
  writeAll ws (List.replicate rows ⟨0, 0, 0⟩)

/-- The members of `StatisticsSweep` used afterwards. -/
structure Sweep where
  nTemp : Nat
  nChemPot : Nat
  table : List CalcRow

/-- Phonons, src/statistics_sweep.cpp L43-52. -/
noncomputable def phononSweep (temperatures : List ℝ) : Outcome Sweep := do
  let t ← writeAll ((List.range temperatures.length).map fun it => (it, ⟨temperatures.getD it 0, 0, 0⟩))
    (List.replicate (temperatures.length * max 1 1) (⟨0, 0, 0⟩ : CalcRow))
  .ok ⟨temperatures.length, 1, t⟩

/-- Electrons, src/statistics_sweep.cpp L169-210, for given lists (a range replaces empty lists before, L145-163);
`findMu doping T` and `findDoping mu T` are `findChemicalPotentialFromDoping` and
`findDopingFromChemicalPotential`. -/
noncomputable def electronSweep (temperatures dopings chemicalPotentials : List ℝ) (findMu findDoping : ℝ → ℝ → ℝ) :
    Outcome Sweep :=
  let nTemp := temperatures.length
  let rows := nTemp * max chemicalPotentials.length dopings.length
  if chemicalPotentials.length = 0 then do
    let t ← fillCalcTable rows nTemp dopings.length fun it id =>
      ⟨temperatures.getD it 0, findMu (dopings.getD id 0) (temperatures.getD it 0), dopings.getD id 0⟩
    .ok ⟨nTemp, dopings.length, t⟩
  else if dopings.length = 0 then do
    let t ← fillCalcTable rows nTemp chemicalPotentials.length fun it imu =>
      ⟨temperatures.getD it 0, chemicalPotentials.getD imu 0,
        findDoping (chemicalPotentials.getD imu 0) (temperatures.getD it 0)⟩
    .ok ⟨nTemp, chemicalPotentials.length, t⟩
  else .ok ⟨nTemp, chemicalPotentials.length, List.replicate rows ⟨0, 0, 0⟩⟩

/-- `getCalcStatistics(index)`, src/statistics_sweep.cpp L391-397. -/
def Sweep.getCalc (s : Sweep) (index : Nat) : Outcome CalcRow := readAt s.table index

/-- `getCalcStatistics(iTemp, iChemPot)`, src/statistics_sweep.cpp L399-404. -/
def Sweep.getCalc2 (s : Sweep) (iTemp iChemPot : Nat) : Outcome CalcRow := do
  let index ← compress2Indices iTemp iChemPot s.nTemp s.nChemPot
  s.getCalc index.toNat

/-- `Observable::glob2Loc`, src/observable/observable.cpp L44-46: chemical potential first. -/
def observableIndex (s : Sweep) (imu it : Nat) : Outcome Int := compress2Indices imu it s.nChemPot s.nTemp

/-- `SpecificHeat::get(imu, it)`, src/observable/specific_heat.cpp L150-153, on the values stored per
calculation. -/
def observableGet {α : Type} (s : Sweep) (scalar : List α) (imu it : Nat) : Outcome α := do
  let i ← observableIndex s imu it
  readAt scalar i.toNat

/-! ## Search of the chemical potential -/

/-- Reductions over processes. -/
inductive RedOp where
  | sum
  | min
  | max
deriving DecidableEq

/-- What a process does, as seen by the others: return, stop with an error (`Error`, src/exceptions.cpp L6-16, waits at
a barrier), or take part in an `MPI_Allreduce` and go on with its result. -/
inductive Prog where
  | ret (v : ℝ)
  | err
  | red (op : RedOp) (x : ℝ) (k : ℝ → Prog)

/-- Result of `MPI_Allreduce`. -/
noncomputable def reduceOp (op : RedOp) (xs : List ℝ) : ℝ :=
  match op, xs with
  | .sum, xs => xs.foldr (· + ·) 0
  | .min, x :: xs => xs.foldl min x
  | .max, x :: xs => xs.foldl max x
  | _, [] => 0

/-- The values returned, when all processes return. -/
def allRet : List Prog → Option (List ℝ)
  | [] => some []
  | .ret v :: t => (allRet t).map (v :: ·)
  | _ => none

/-- The contributions and continuations, when all processes are in the reduction `op`. -/
def allRed (op : RedOp) : List Prog → Option (List (ℝ × (ℝ → Prog)))
  | [] => some []
  | .red op' x k :: t => if op' = op then (allRed op t).map ((x, k) :: ·) else none
  | _ => none

/-- Whether all processes stop with an error. -/
def allErr : List Prog → Bool
  | [] => true
  | .err :: t => allErr t
  | _ => false

/-- Execution of all processes together.  `ok`: all return; `error`: all stop with an error; `diverge`: some processes
are in a collective operation and others in a different one or in none (the program hangs), or `fuel` is used up. -/
noncomputable def runAll : Nat → List Prog → Outcome (List ℝ)
  | 0, _ => .diverge
  | fuel + 1, ps =>
    match allRet ps with
    | some vs => .ok vs
    | none =>
      if allErr ps then .error
      else match ps with
        | .red op x k :: t =>
          match allRed op (.red op x k :: t) with
          | some l => runAll fuel (l.map fun p => p.2 (reduceOp op (l.map (·.1))))
          | none => .diverge
        | _ => .diverge

/-- The members used by the search: total number of points, number of bands, occupied states, Fermi level, volume,
spin factor and the unit conversion `pow(distanceBohrToCm, 3)`. -/
structure SearchData where
  numPoints : ℝ
  numBands : ℝ
  occupiedStates : ℝ
  fermiLevel : ℝ
  volume : ℝ
  spinFactor : ℝ
  cm3 : ℝ

/-- `numElectronsDoped`, src/statistics_sweep.cpp L280. -/
noncomputable def SearchData.electrons (c : SearchData) (doping : ℝ) : ℝ :=
  c.occupiedStates - doping * c.volume * c.cm3 / c.spinFactor

/-- `sgn`, src/utilities.h L17-19. -/
noncomputable def sgn (x : ℝ) : Int := (if 0 < x then 1 else 0) - (if x < 0 then 1 else 0)

/-- Sum of the populations of the states of a process, src/statistics_sweep.cpp L244-256 (the sum over threads is
exact in real arithmetic). -/
noncomputable def popSum (states : List ℝ) (temperature mu : ℝ) : ℝ :=
  (states.map fun e => getPopulation .fermi e temperature mu).sum

/-- `fPop`, src/statistics_sweep.cpp L239-265, followed by `k`. -/
noncomputable def fPopProg (distributed : Bool) (c : SearchData) (n : ℝ) (states : List ℝ) (temperature mu : ℝ)
    (k : ℝ → Prog) : Prog :=
  if distributed then .red .sum (popSum states temperature mu) fun s => k (n - s / c.numPoints)
  else k (n - popSum states temperature mu / c.numPoints)

/-- The bisection loop, src/statistics_sweep.cpp L340-361, with `rem` iterations left; `sA` is `sgn(aY)`.  L341-343: at
the last iteration the head process stops with an error. -/
noncomputable def bisectProg (distributed head : Bool) (c : SearchData) (n : ℝ) (states : List ℝ) (temperature : ℝ)
    (sA : Int) : (rem : Nat) → (aX bX : ℝ) → Prog
  | 0, _, _ => .ret c.fermiLevel
  | rem + 1, aX, bX =>
    if head && decide (rem = 0) then .err
    else
      let cX := (aX + bX) / 2
      fPopProg distributed c n states temperature cX fun cY =>
        if cY = 0 ∨ |bX - aX| < 1.0e-8 then .ret cX
        else if sgn cY = sA then bisectProg distributed head c n states temperature sA rem cX bX
        else bisectProg distributed head c n states temperature sA rem aX cX

/-- `maxIter`, src/statistics_sweep.h L112. -/
def maxIter : Nat := 100

/-- Smallest and largest element (`min_element`, `max_element`) of a non-empty list, `0` for an empty one
(src/statistics_sweep.cpp L315). -/
noncomputable def listMin (l : List ℝ) : ℝ := match l with | [] => 0 | x :: xs => xs.foldl min x
noncomputable def listMax (l : List ℝ) : ℝ := match l with | [] => 0 | x :: xs => xs.foldl max x

/-- `findChemicalPotentialFromDoping`, src/statistics_sweep.cpp L267-362, on a process holding `states`. -/
noncomputable def findMuProg (distributed head : Bool) (c : SearchData) (states : List ℝ) (doping temperature : ℝ) :
    Prog :=
  let n := c.electrons doping
  if n > c.numBands then .err
  else if n < 0 then .err
  else if doping = 0 ∧ temperature = 0 ∧ n = 0 then
    .ret (if states = [] then c.fermiLevel else listMin states)
  else if doping = 0 ∧ temperature = 0 ∧ n = c.numBands then
    .ret (if states = [] then c.fermiLevel else listMax states)
  else
    let aX := if states = [] then 0 else listMin states - 1
    let bX := if states = [] then 0 else listMax states + 1
    let start : ℝ → ℝ → Prog := fun aX bX =>
      fPopProg distributed c n states temperature aX fun aY =>
      fPopProg distributed c n states temperature bX fun bY =>
        if sgn aY = sgn bY then .err
        else bisectProg distributed head c n states temperature (sgn aY) maxIter aX bX
    if distributed then .red .min aX fun a => .red .max bX fun b => start a b
    else start aX bX

/-- `findDopingFromChemicalPotential`, src/statistics_sweep.cpp L364-389, for the states of all processes. -/
noncomputable def findDoping (c : SearchData) (allStates : List ℝ) (mu temperature : ℝ) : ℝ :=
  let fPop := popSum allStates temperature mu
  let fPop := fPop / c.numPoints
  (c.occupiedStates - fPop) * (c.spinFactor / c.volume / c.cm3)

end Verif.Model
