import Verif.Model.Basic
import Mathlib.Data.Nat.Log

/-!
# Progress reports, choice of the application, command line

src/io.cpp, src/apps/app.cpp, src/exceptions.cpp.
-/
namespace Verif.Model

/-- The members of `LoopPrint` used to decide what to print, src/io.h. -/
structure LoopPrint where
  head : Bool
  numSteps : Int
  reportEvery : Int
  currentStep : Int
  stepDigits : Int
deriving DecidableEq, Repr

/-- `LoopPrint::LoopPrint`, src/io.cpp L193-217, on the process that prints (`head`) or another one (whose members stay
as they are, and are not used).  The logarithm of a number that is not positive is infinite or not a number, and its
conversion to `int` is undefined. -/
def LoopPrint.make (head : Bool) (numSteps : Int) : Outcome LoopPrint :=
  if head then do
    let numRep := 10
    let reportEvery ← (if numSteps < numRep then .ok 1 else cdiv numSteps numRep : Outcome Int)
    if numSteps ≤ 0 then .ub
    else .ok ⟨true, numSteps, reportEvery, -1, Nat.log 10 numSteps.toNat + 1⟩
  else .ok ⟨false, 0, 0, -1, 0⟩

/-- A line: the percentage and the number of the step. -/
structure ReportLine where
  percentage : Int
  step : Int
deriving DecidableEq, Repr

/-- `LoopPrint::update`, src/io.cpp L219-269, without the times: the line printed, if any.  The percentage
`int(double(currentStep + 1) / numSteps * 100.)` is computed with exact arithmetic. -/
def LoopPrint.update (p : LoopPrint) : Outcome (LoopPrint × Option ReportLine) :=
  if p.head then do
    let currentStep ← cadd p.currentStep 1
    let next ← cadd currentStep 1
    let last ← csub p.numSteps 1
    let p' := { p with currentStep := currentStep }
    -- `||` evaluates its operands from left to right
    let outer ← (if currentStep ≤ 2 then .ok true else do
      let r ← crem next p.reportEvery
      .ok (decide (r = 0) || decide (currentStep = last)) : Outcome Bool)
    if outer then do
      let inner ← (if currentStep = 0 ∨ currentStep = 2 ∨ currentStep = last then .ok true else do
        let r ← crem next p.reportEvery
        .ok (decide (r = 0)) : Outcome Bool)
      if inner then .ok (p', some ⟨next * 100 / p.numSteps, next⟩) else .ok (p', none)
    else .ok (p', none)
  else .ok (p, none)

/-- `n` updates: the lines printed, in order. -/
def LoopPrint.run (p : LoopPrint) : Nat → Outcome (LoopPrint × List ReportLine)
  | 0 => .ok (p, [])
  | n + 1 => do
    let s ← p.run n
    let t ← s.1.update
    .ok (t.1, s.2 ++ t.2.toList)

/-! ## Applications -/

/-- The classes of applications, src/apps/app.cpp L39-66. -/
inductive AppKind where
  | phononTransport | electronWannierTransport | elPhQeToPhoebe | phononDos | electronWannierDos | electronFourierDos
  | phononBands | electronWannierBands | electronFourierBands | transportEpa | elPhCouplingPlot | electronLifetimes
  | phononLifetimes | phononElectronLifetimes
deriving DecidableEq, Repr

/-- `choices`, src/apps/app.cpp L18-31. -/
def appChoices : List String :=
  ["phononTransport", "phononDos", "electronWannierDos", "electronFourierDos", "phononBands", "electronWannierBands",
   "electronFourierBands", "electronWannierTransport", "elPhQeToPhoebe", "elPhCouplingPlot", "electronLifetimes",
   "phononLifetimes", "transportEpa", "phononElectronLifetimes"]

/-- `App::loadApp`, src/apps/app.cpp L17-71: the null pointer is `none`. -/
def loadApp (choice : String) : Outcome (Option AppKind) :=
  if choice ∉ appChoices then .error
  else if choice = "phononTransport" then .ok (some .phononTransport)
  else if choice = "electronWannierTransport" then .ok (some .electronWannierTransport)
  else if choice = "elPhQeToPhoebe" then .ok (some .elPhQeToPhoebe)
  else if choice = "phononDos" then .ok (some .phononDos)
  else if choice = "electronWannierDos" then .ok (some .electronWannierDos)
  else if choice = "electronFourierDos" then .ok (some .electronFourierDos)
  else if choice = "phononBands" then .ok (some .phononBands)
  else if choice = "electronWannierBands" then .ok (some .electronWannierBands)
  else if choice = "electronFourierBands" then .ok (some .electronFourierBands)
  else if choice = "transportEpa" then .ok (some .transportEpa)
  else if choice = "elPhCouplingPlot" then .ok (some .elPhCouplingPlot)
  else if choice = "electronLifetimes" then .ok (some .electronLifetimes)
  else if choice = "phononLifetimes" then .ok (some .phononLifetimes)
  else if choice = "phononElectronLifetimes" then .ok (some .phononElectronLifetimes)
  else .ok none

/-! ## Command line -/

/-- `getCmdOption`, src/io.cpp L12-18: the word after the first occurrence of the option. -/
def getCmdOption : List String → String → Option String
  | [], _ => none
  | a :: rest, option => if a = option then rest.head? else getCmdOption rest option

/-- Where `std::cout` writes. -/
inductive Sink where
  | screen
  | file (name : String)
deriving DecidableEq, Repr

/-- `IO::IO`, src/io.cpp L20-55: the name of the input file and where `std::cout` writes; `readable` tells whether a
file can be opened. -/
def makeIO (readable : String → Bool) (argv : List String) : Outcome (String × Sink) :=
  match getCmdOption argv "-in" with
  | none => .error
  | some input =>
    if readable input then
      let cout := Sink.screen
      match getCmdOption argv "-out" with
      | none => .ok (input, cout)
      | some name =>
        let streamBufferCout := cout
        let streamBufferFile := Sink.file name
        -- the two calls of `std::cout.rdbuf`, L46 and L49
        .ok (input, [streamBufferFile, streamBufferCout].foldl (fun _ s => s) cout)
    else .error

/-- `Error::Error`, src/exceptions.cpp L6-16: with a code different from zero the program ends with this code; with
zero it goes on. -/
def raiseError (errCode : Int) : Outcome Unit := if errCode ≠ 0 then .error else .ok ()

end Verif.Model
